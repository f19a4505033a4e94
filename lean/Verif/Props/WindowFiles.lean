import Verif.Model.WindowFiles
import Verif.Props.WindowProgram

/-! C119: the files in which the sliding window mode saves its window. -/

namespace LHF
open Spec

/-- The saved windows do not influence the run. -/
theorem sliding_files_forget (shows : ℝ → List Char) (cap : Nat) (upd : SlidingState → Res NNStats)
    (lib : Lib ℝ ℝ) (s : Settings ℝ) (args : ArgMap) (w : Work (List ℝ) ℝ) (t : Tree ℝ)
    (dm : List (List ℝ)) (rows : List (List ℝ)) :
    SameRes (fun x y => x = y.1) (slidingTreeRun cap upd lib s args w t dm rows)
      (slidingFilesRun shows cap upd lib s args w t dm rows) := by
  unfold slidingTreeRun slidingFilesRun
  dsimp only
  have hfold : ∀ (l : List (List ℝ)) (x : SlidingTree) (fs : List FileWrite),
      SameRes (fun x y => x = y.1) (l.foldlM (slidingTreeStep cap upd lib s args w) x)
        (l.foldlM (slidingFilesStep shows cap upd lib s args w) (x, fs)) := by
    intro l
    induction l with
    | nil => intro x fs; exact rfl
    | cons row l ih =>
      intro x fs
      rw [List.foldlM_cons, List.foldlM_cons]
      unfold slidingFilesStep
      dsimp only
      cases slidingTreeStep cap upd lib s args w x row with
      | error e => exact rfl
      | ok y =>
        simp only [ok_bind]
        split_ifs
        · exact ih y _
        · exact ih y _
  refine (hfold rows _ []).bind ?_
  rintro x ⟨y, fs⟩ - - (rfl : x = y)
  dsimp only
  split_ifs
  · cases x.sub lib s args w with
    | error e => exact rfl
    | ok z => exact rfl
  · exact rfl

/-- A row in front of the last one, for the fold with files. -/
theorem slidingFiles_snoc (shows : ℝ → List Char) (cap : Nat) (upd : SlidingState → Res NNStats)
    (lib : Lib ℝ ℝ) (s : Settings ℝ) (args : ArgMap) (w : Work (List ℝ) ℝ) (l : List (List ℝ))
    (row : List ℝ) (p : SlidingTree × List FileWrite) :
    (l ++ [row]).foldlM (slidingFilesStep shows cap upd lib s args w) p =
      (l.foldlM (slidingFilesStep shows cap upd lib s args w) p >>= fun q =>
        slidingFilesStep shows cap upd lib s args w q row) := by
  rw [List.foldlM_append]
  congr 1
  funext q
  rw [List.foldlM_cons]
  exact bind_pure _

/-- While the window fills nothing is saved. -/
theorem sliding_files_fill (shows : ℝ → List Char) (cap : Nat) (upd : SlidingState → Res NNStats)
    (lib : Lib ℝ ℝ) (s : Settings ℝ) (args : ArgMap) (w : Work (List ℝ) ℝ) (t : Tree ℝ)
    (rows : List (List ℝ)) (hl : rows.length ≤ cap) :
    rows.foldlM (slidingFilesStep shows cap upd lib s args w)
        (⟨SlidingState.initial w.originalData, t⟩, []) =
      (rows.foldlM (slidingTreeStep cap upd lib s args w) ⟨SlidingState.initial w.originalData, t⟩ >>=
        fun y => pure (y, [])) := by
  induction rows using List.reverseRecOn with
  | nil => rfl
  | append_singleton rows row ih =>
    have hlen : (rows ++ [row]).length = rows.length + 1 := by simp
    obtain ⟨st, h1, h2⟩ := filling_tree cap upd lib s args w t rows (by omega)
    obtain ⟨st0, g1, -, -, -, -, -, -, -, -, g10⟩ := filling_run cap upd w.originalData rows (by omega)
    rw [h1] at g1
    cases g1
    rw [slidingFiles_snoc, ih (by omega), slidingTree_snoc, h2]
    simp only [ok_bind, pure_eq_ok]
    unfold slidingFilesStep
    dsimp only
    congr 1
    funext y
    rw [if_neg (fun c => by omega)]
    rfl

/-- `count` files, numbered from 0, each with the values of the rows, a comma after each value and a line
for each row, and an empty line at the end. -/
def Spec.savedFiles (shows : ℝ → List Char) (rows : List (List ℝ)) (count : Nat) : List FileWrite :=
  (List.range count).map (fun i =>
    { name := s!"output/SlidingWindow_{i}_output.csv"
      kind := .replace
      text := rows.flatMap (fun row => row.flatMap (fun d => shows d ++ [',']) ++ ['\n']) ++ ['\n'] })

theorem savedFiles_length (shows : ℝ → List Char) (rows : List (List ℝ)) (c : Nat) :
    (savedFiles shows rows c).length = c := by
  unfold savedFiles
  rw [List.length_map, List.length_range]

theorem saveWindow_full {k cap : Nat} (shows : ℝ → List Char) {sort : SortBySecond (List Nat) ℝ}
    {rows : List (List ℝ)} (hne : rows ≠ []) {t : Tree ℝ} {x : SlidingTree}
    (h : FullTree k cap sort rows t x) (c : Nat) :
    saveWindow shows (savedFiles shows rows c) x = savedFiles shows rows (c + 1) := by
  unfold saveWindow
  rw [h.full.data, if_neg (by simpa using hne), savedFiles_length]
  unfold savedFiles
  rw [List.range_succ, List.map_append]
  congr 1

/-- Many rows for a full window. -/
theorem sliding_files_run {k cap : Nat} (hc : 2 ≤ cap) (shows : ℝ → List Char)
    (body : SlidingState → Nat → NNStats → Res NNStats)
    (after : SlidingState → NNStats → Res NNStats) {lib : Lib ℝ ℝ} {s : Settings ℝ} {args : ArgMap}
    (hdim : (args "dimensions").isSome) (heps : (args "epsilon").isSome) (htw : (args "twist").isSome)
    {w : Work (List ℝ) ℝ} {rows : List (List ℝ)} (hrow : ∀ y ∈ rows, y.length = k)
    (hl : rows.length = cap) {t : Tree ℝ} (l : List (List ℝ)) (hx : ∀ row ∈ l, row.length = k)
    {x : SlidingTree} (h : FullTree k cap lib.sort rows t x) (hp : cap < x.st.pointCounter)
    (y : SlidingTree) (hy : l.foldlM (slidingTreeStep cap (updateStats body after) lib s args w) x = .ok y) :
    l.foldlM (slidingFilesStep shows cap (updateStats body after) lib s args w)
        (x, savedFiles shows rows ((x.st.pointCounter - 1) / 100 - cap / 100)) =
      .ok (y, savedFiles shows rows ((x.st.pointCounter + l.length - 1) / 100 - cap / 100)) := by
  have hne : rows ≠ [] := by rintro rfl; simp at hl; omega
  induction l generalizing x with
  | nil => cases hy; rfl
  | cons row l ih =>
    obtain ⟨g1, -⟩ := full_tree_step (w := w) (s := s) hc body after hdim heps htw hrow hl h
      (hx row (by simp))
    rw [List.foldlM_cons] at hy
    obtain ⟨z, hz, hy⟩ := bind_ok.1 hy
    obtain ⟨a1, a2, a3, a4⟩ := g1 z hz
    have ih := ih (fun r hr => hx r (by simp [hr])) a2 (by omega) hy
    rw [List.foldlM_cons]
    have hstep : slidingFilesStep shows cap (updateStats body after) lib s args w
        (x, savedFiles shows rows ((x.st.pointCounter - 1) / 100 - cap / 100)) row =
        .ok (z, savedFiles shows rows ((z.st.pointCounter - 1) / 100 - cap / 100)) := by
      unfold slidingFilesStep
      dsimp only
      rw [hz, ok_bind]
      by_cases hcond : x.st.pointCounter % 100 = 0 ∧ x.st.pointCounter > cap
      · rw [if_pos hcond, saveWindow_full shows hne a2]
        have : (x.st.pointCounter - 1) / 100 - cap / 100 + 1 = (z.st.pointCounter - 1) / 100 - cap / 100 := by
          rw [a3]; omega
        rw [this]
        rfl
      · rw [if_neg hcond]
        have : (x.st.pointCounter - 1) / 100 - cap / 100 = (z.st.pointCounter - 1) / 100 - cap / 100 := by
          rw [a3]; omega
        rw [this]
        rfl
    rw [hstep, ok_bind, ih, a3]
    have : x.st.pointCounter + 1 + l.length - 1 = x.st.pointCounter + (row :: l).length - 1 := by
      simp only [List.length_cons]; omega
    rw [this]

/-- The sliding window pipe on more than 200 rows. -/
theorem sliding_files_long (shows : ℝ → List Char) (body : SlidingState → Nat → NNStats → Res NNStats)
    (after : SlidingState → NNStats → Res NNStats) (lib : Lib ℝ ℝ) (s : Settings ℝ) (args : ArgMap)
    (hdim : (args "dimensions").isSome) (heps : (args "epsilon").isSome) (htw : (args "twist").isSome)
    (w : Work (List ℝ) ℝ) {k : Nat} (hk : 0 < k)
    (rows : List (List ℝ)) (hrow : ∀ x ∈ rows, x.length = k) (hn : 200 < rows.length) (x : SlidingTree)
    (hx : slidingTreeRun 200 (updateStats body after) lib s args w Tree.fresh [] rows = .ok x) :
    x.st.window = rows.take 200 ∧
    slidingFilesRun shows 200 (updateStats body after) lib s args w Tree.fresh [] rows =
      .ok (x, savedFiles shows (rows.take 200)
        (rows.length / 100 - 2 + if rows.length % 100 = 0 then 0 else 1)) := by
  have hlt : (rows.take 200).length = 200 := by rw [List.length_take]; omega
  have hrow' : ∀ x ∈ rows.take 200, x.length = k := fun x hx => hrow x (List.mem_of_mem_take hx)
  have hne : rows.take 200 ≠ [] := by intro h; rw [h] at hlt; simp at hlt
  obtain ⟨st, t, h1, h2, h3, h4⟩ := full_tree hk (by norm_num : 2 ≤ 200) (updateStats body after) lib s
    args w (rows.take 200) hrow' hlt
  have hfull : FullTree k 200 lib.sort (rows.take 200) t ⟨st, t⟩ := ⟨h3, Or.inl rfl⟩
  have hdl : (rows.drop 200).length = rows.length - 200 := List.length_drop
  have h1' := h1
  unfold slidingTreeRun at hx
  dsimp only at hx
  conv at hx => lhs; rw [← List.take_append_drop 200 rows]
  rw [List.foldlM_append] at hx
  unfold SlidingState.initial at hx h1'
  rw [h1', ok_bind] at hx
  obtain ⟨y, hy, hx⟩ := bind_ok.1 hx
  obtain ⟨a1, a2, a3, a4⟩ := (full_tree_run (w := w) (s := s) (by norm_num : 2 ≤ 200) body after hdim heps htw
    hrow' hlt (rows.drop 200) (fun x hx => hrow x (List.mem_of_mem_drop hx)) hfull).1 y hy
  have a3' : y.st.pointCounter = rows.length + 1 := by
    rw [a3, hdl]; dsimp only; rw [h4]; omega
  have hfiles := sliding_files_run (w := w) (s := s) (by norm_num : 2 ≤ 200) shows body after hdim heps htw
    hrow' hlt (rows.drop 200) (fun x hx => hrow x (List.mem_of_mem_drop hx)) hfull
    (by dsimp only; omega) y hy
  have hfill := sliding_files_fill shows 200 (updateStats body after) lib s args w Tree.fresh (rows.take 200)
    (by omega)
  rw [h1, ok_bind] at hfill
  have hrun : rows.foldlM (slidingFilesStep shows 200 (updateStats body after) lib s args w)
      (⟨SlidingState.initial w.originalData, Tree.fresh⟩, []) =
      .ok (y, savedFiles shows (rows.take 200) (rows.length / 100 - 2)) := by
    conv_lhs => rw [← List.take_append_drop 200 rows]
    rw [List.foldlM_append, hfill, pure_eq_ok, ok_bind]
    have e0 : savedFiles shows (rows.take 200) (((⟨st, t⟩ : SlidingTree).st.pointCounter - 1) / 100 -
        200 / 100) = [] := by
      dsimp only
      rw [h4]
      rfl
    rw [e0] at hfiles
    rw [hfiles]
    have e1 : ((⟨st, t⟩ : SlidingTree).st.pointCounter + (rows.drop 200).length - 1) / 100 - 200 / 100 =
        rows.length / 100 - 2 := by
      dsimp only
      rw [h4, hdl]
      omega
    rw [e1]
  have hfin : slidingFilesRun shows 200 (updateStats body after) lib s args w Tree.fresh [] rows =
      (if (y.st.pointCounter - 1) % 100 ≠ 0 then y.sub lib s args w >>= fun z =>
        pure (z, saveWindow shows (savedFiles shows (rows.take 200) (rows.length / 100 - 2)) y)
      else pure (y, savedFiles shows (rows.take 200) (rows.length / 100 - 2))) := by
    unfold slidingFilesRun
    dsimp only
    unfold SlidingState.initial at hrun ⊢
    rw [hrun, ok_bind]
  rw [hfin]
  by_cases hc : (y.st.pointCounter - 1) % 100 ≠ 0
  · rw [if_pos hc] at hx ⊢
    have hc' : ¬ rows.length % 100 = 0 := by rw [a3'] at hc; simpa using hc
    rw [if_neg hc', hx, ok_bind, saveWindow_full shows hne a2]
    rw [a2.sub hdim heps htw hne] at hx
    obtain ⟨lines, -, hx⟩ := bind_ok.1 hx
    cases hx
    exact ⟨a2.full.window, rfl⟩
  · rw [if_neg hc] at hx ⊢
    have hc' : rows.length % 100 = 0 := by rw [a3'] at hc; simpa using hc
    rw [if_pos hc']
    cases hx
    exact ⟨a2.full.window, rfl⟩

/-- The sliding window pipe on at most 200 rows. -/
theorem sliding_files_short (shows : ℝ → List Char) (upd : SlidingState → Res NNStats) (lib : Lib ℝ ℝ)
    (s : Settings ℝ) (args : ArgMap) (w : Work (List ℝ) ℝ) (hw : w.originalData = []) {k : Nat} (hk : 0 < k)
    (rows : List (List ℝ)) (hrow : ∀ x ∈ rows, x.length = k) (hn : rows.length ≤ 200) (x : SlidingTree)
    (hx : slidingTreeRun 200 upd lib s args w Tree.fresh [] rows = .ok x) :
    x.st.window = rows ∧
    slidingFilesRun shows 200 upd lib s args w Tree.fresh [] rows = .ok (x, []) := by
  have hfill := sliding_files_fill shows 200 upd lib s args w Tree.fresh rows hn
  have hsub : ∀ (y z : SlidingTree), y.sub lib s args w = .ok z → z.st = y.st := by
    intro y z hz
    unfold SlidingTree.sub at hz
    obtain ⟨c, -, hz⟩ := bind_ok.1 hz
    split at hz <;> (cases hz; rfl)
  rcases Nat.lt_or_ge rows.length 200 with hlt | hge
  · obtain ⟨st, h1, h2⟩ := filling_tree 200 upd lib s args w Tree.fresh rows hlt
    obtain ⟨st0, g1, g2, -, -, -, -, -, -, g9, -⟩ := filling_run 200 upd w.originalData rows hlt
    rw [h1] at g1; cases g1
    rw [h2, ok_bind] at hfill
    unfold slidingTreeRun at hx
    unfold slidingFilesRun
    unfold SlidingState.initial at h2 hx hfill ⊢
    dsimp only at hx ⊢
    rw [h2, ok_bind] at hx
    rw [hfill, pure_eq_ok, ok_bind]
    dsimp only at hx ⊢
    have e : saveWindow shows [] ⟨st, Tree.fresh⟩ = [] := by
      unfold saveWindow
      dsimp only
      rw [g9, hw]
      rfl
    by_cases hc : (st.pointCounter - 1) % 100 ≠ 0
    · rw [if_pos hc] at hx ⊢
      rw [hx, ok_bind, e]
      refine ⟨?_, rfl⟩
      rw [hsub _ _ hx]
      exact g2
    · rw [if_neg hc] at hx ⊢
      cases hx
      exact ⟨g2, rfl⟩
  · obtain ⟨st, t, h1, -, h3, h4⟩ := full_tree hk (by norm_num : 2 ≤ 200) upd lib s args w rows hrow
      (by omega)
    rw [h1, ok_bind] at hfill
    unfold slidingTreeRun at hx
    unfold slidingFilesRun
    unfold SlidingState.initial at h1 hx hfill ⊢
    dsimp only at hx ⊢
    rw [h1, ok_bind] at hx
    rw [hfill, pure_eq_ok, ok_bind]
    dsimp only at hx ⊢
    have hc : ¬ (st.pointCounter - 1) % 100 ≠ 0 := by rw [h4]; decide
    rw [if_neg hc] at hx ⊢
    cases hx
    exact ⟨h3.window, rfl⟩

/-! ### The whole program -/

/-- C119 (partial: streams of more than 200 rows, runs that end): in mode `sw` the program saves its window
at every hundredth row from the 300th on, and once more at the end if the number of rows is not a multiple of
100; every file shows the window that the program ends with, which has the first 200 rows of the stream. -/
theorem C119_saved_windows_partial (sys : System ℝ ℝ) (shows : ℝ → List Char) (pairs : List (String × String))
    (m : ArgMap) (f : String) (h : WindowCommand pairs m ["sw", "slidingwindow"] f)
    (body : SlidingState → Nat → NNStats → Res NNStats) (after : SlidingState → NNStats → Res NNStats)
    (lib : Lib ℝ ℝ) (hrun : RunsSlidingWindow sys m body after lib)
    (rows : List (List ℝ)) (hrows : streamAll sys.inIO (sys.files (m.val "inputFile")) = .ok rows)
    (k : Nat) (hk : 0 < k) (hdim : ∀ x ∈ rows, x.length = k) (hn : 200 < rows.length)
    (w : World (List ℝ) ℝ) (hw : mainProgram sys (commandLine pairs) = .ok w) :
    ∃ x : SlidingTree, x.st.window = rows.take 200 ∧ w.packet.data.originalData = x.st.originalData ∧
      slidingFilesRun shows 200 (updateStats body after) lib (settingsOf sys m) (setPipeline m)
        ⟨[], [], [], .tree Tree.fresh [], [], [], []⟩ Tree.fresh [] rows =
      .ok (x, savedFiles shows x.st.window
        (rows.length / 100 - 2 + if rows.length % 100 = 0 then 0 else 1)) := by
  obtain ⟨k1, k2, k3⟩ := window_keys h.parsed
  rw [main_sliding sys pairs m f h body after lib hrun, hrows, ok_bind] at hw
  obtain ⟨x, hx, hw⟩ := bind_ok.1 hw
  obtain ⟨h1, h2⟩ := sliding_files_long shows body after lib (settingsOf sys m) (setPipeline m) k1 k2 k3
    ⟨[], [], [], .tree Tree.fresh [], [], [], []⟩ hk rows hdim hn x hx
  cases hw
  refine ⟨x, h1, rfl, ?_⟩
  rw [h1]
  exact h2

/-- C119 is violated: with at most 200 rows the program ends without having saved its window, whatever it
holds. -/
theorem C119_short_stream_violated (sys : System ℝ ℝ) (shows : ℝ → List Char) (pairs : List (String × String))
    (m : ArgMap) (f : String) (h : WindowCommand pairs m ["sw", "slidingwindow"] f)
    (body : SlidingState → Nat → NNStats → Res NNStats) (after : SlidingState → NNStats → Res NNStats)
    (lib : Lib ℝ ℝ) (hrun : RunsSlidingWindow sys m body after lib)
    (rows : List (List ℝ)) (hrows : streamAll sys.inIO (sys.files (m.val "inputFile")) = .ok rows)
    (k : Nat) (hk : 0 < k) (hdim : ∀ x ∈ rows, x.length = k) (hn : rows.length ≤ 200) :
    ∃ (w : World (List ℝ) ℝ) (x : SlidingTree), mainProgram sys (commandLine pairs) = .ok w ∧
      x.st.window = rows ∧
      slidingFilesRun shows 200 (updateStats body after) lib (settingsOf sys m) (setPipeline m)
        ⟨[], [], [], .tree Tree.fresh [], [], [], []⟩ Tree.fresh [] rows = .ok (x, []) := by
  obtain ⟨k1, k2, k3⟩ := window_keys h.parsed
  obtain ⟨x, hx⟩ := sliding_tree_short (updateStats body after) lib (settingsOf sys m) (setPipeline m)
    k1 k2 k3 ⟨[], [], [], .tree Tree.fresh [], [], [], []⟩ rfl hk rows hdim hn
  obtain ⟨h1, h2⟩ := sliding_files_short shows (updateStats body after) lib (settingsOf sys m) (setPipeline m)
    ⟨[], [], [], .tree Tree.fresh [], [], [], []⟩ rfl hk rows hdim hn x hx
  rw [main_sliding sys pairs m f h body after lib hrun, hrows, ok_bind, hx, ok_bind]
  exact ⟨_, x, rfl, h1, h2⟩

/-- C119 is violated: what comes after the 200th row is in no file. Two streams with the same first 200 rows
and the same length, on which the program ends, leave the same files. -/
theorem C119_later_rows_violated (sys₁ sys₂ : System ℝ ℝ) (shows : ℝ → List Char)
    (pairs : List (String × String)) (m : ArgMap) (f : String)
    (h : WindowCommand pairs m ["sw", "slidingwindow"] f)
    (body : SlidingState → Nat → NNStats → Res NNStats) (after : SlidingState → NNStats → Res NNStats)
    (lib : Lib ℝ ℝ) (hrun₁ : RunsSlidingWindow sys₁ m body after lib)
    (hrun₂ : RunsSlidingWindow sys₂ m body after lib) (rows₁ rows₂ : List (List ℝ))
    (hrows₁ : streamAll sys₁.inIO (sys₁.files (m.val "inputFile")) = .ok rows₁)
    (hrows₂ : streamAll sys₂.inIO (sys₂.files (m.val "inputFile")) = .ok rows₂)
    (k : Nat) (hk : 0 < k) (hdim₁ : ∀ x ∈ rows₁, x.length = k) (hdim₂ : ∀ x ∈ rows₂, x.length = k)
    (hn : 200 < rows₁.length) (hlen : rows₁.length = rows₂.length) (hsame : rows₁.take 200 = rows₂.take 200)
    (w₁ w₂ : World (List ℝ) ℝ) (hw₁ : mainProgram sys₁ (commandLine pairs) = .ok w₁)
    (hw₂ : mainProgram sys₂ (commandLine pairs) = .ok w₂) :
    ∃ x₁ x₂ files,
      slidingFilesRun shows 200 (updateStats body after) lib (settingsOf sys₁ m) (setPipeline m)
        ⟨[], [], [], .tree Tree.fresh [], [], [], []⟩ Tree.fresh [] rows₁ = .ok (x₁, files) ∧
      slidingFilesRun shows 200 (updateStats body after) lib (settingsOf sys₂ m) (setPipeline m)
        ⟨[], [], [], .tree Tree.fresh [], [], [], []⟩ Tree.fresh [] rows₂ = .ok (x₂, files) := by
  obtain ⟨x₁, a1, -, a2⟩ := C119_saved_windows_partial sys₁ shows pairs m f h body after lib hrun₁ rows₁ hrows₁
    k hk hdim₁ hn w₁ hw₁
  obtain ⟨x₂, b1, -, b2⟩ := C119_saved_windows_partial sys₂ shows pairs m f h body after lib hrun₂ rows₂ hrows₂
    k hk hdim₂ (by omega) w₂ hw₂
  refine ⟨x₁, x₂, _, a2, ?_⟩
  rw [a1, hsame, hlen, ← b1]
  exact b2

/-- `realSystem` with the sliding window stage and `epsilon` 0. -/
noncomputable def Spec.zeroSystem (m : ArgMap) (text : String) : System ℝ ℝ :=
  let sys : System ℝ ℝ := { windowSystem m text with atof := fun _ => 0 }
  { sys with lib := { sys.lib with rest := fun k w =>
    match k, w.complex with
    | .slidingWindow, .tree t dm => slidingWork (updateStats (fun _ _ s => .ok s) (fun _ s => .ok s))
        sys.inIO (sys.files (m.val "inputFile")) sys.lib (settingsOf sys m) (setPipeline m) w t dm
    | _, _ => .ok w } }

/-- The hypotheses of `C119_saved_windows_partial`: 201 equal rows and `epsilon` 0, so that no two are closer
than `epsilon` and the last one is ordinary; the program ends. -/
example : ∃ (sys : System ℝ ℝ) (m : ArgMap) (lib : Lib ℝ ℝ),
    WindowCommand [("-i", "data.csv"), ("-m", "sw"), ("-o", "bars")] m ["sw", "slidingwindow"] "bars" ∧
    RunsSlidingWindow sys m (fun _ _ s => .ok s) (fun _ s => .ok s) lib ∧
    streamAll sys.inIO (sys.files (m.val "inputFile")) = .ok (List.replicate 201 [((10 : Nat) : ℝ)]) ∧
    ∃ w, mainProgram sys (commandLine [("-i", "data.csv"), ("-m", "sw"), ("-o", "bars")]) = .ok w := by
  obtain ⟨m, hm⟩ : ∃ m, parseArgs (commandLine [("-i", "data.csv"), ("-m", "sw"), ("-o", "bars")]) = .ok m :=
    ⟨_, rfl⟩
  have hW : WindowCommand [("-i", "data.csv"), ("-m", "sw"), ("-o", "bars")] m ["sw", "slidingwindow"]
      "bars" := by
    cases hm
    exact ⟨rfl, by decide, by decide, by decide, by decide, by decide, by decide⟩
  have hR : RunsSlidingWindow (zeroSystem m longText) m (fun _ _ s => .ok s) (fun _ s => .ok s)
      (windowSystem m longText).lib := by
    intro w t dm hw
    unfold zeroSystem
    dsimp only
    rw [hw]
    rfl
  have hS : streamAll (zeroSystem m longText).inIO ((zeroSystem m longText).files (m.val "inputFile")) =
      .ok (List.replicate 201 [((10 : Nat) : ℝ)]) := longText_rows m
  refine ⟨zeroSystem m longText, m, _, hW, hR, hS, ?_⟩
  refine (C89_ends_iff _ _ m _ hW _ _ _ hR _ hS 1 (by decide) ?_ (by rw [List.length_replicate]; norm_num)).2
    ⟨?_, ?_⟩
  · intro x hx
    rw [List.eq_of_mem_replicate hx]
    rfl
  · intro x hx
    rw [List.drop_replicate] at hx
    rw [List.eq_of_mem_replicate hx, List.take_replicate]
    refine Or.inl (nearestDist_eq ⟨_, List.mem_replicate.2 ⟨by norm_num, rfl⟩, (dist_self _).symm⟩ ?_)
    intro y hy
    exact dist_nonneg
  · intro i j _ _
    exact dist_nonneg

end LHF
