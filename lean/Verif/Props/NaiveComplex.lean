import Verif.Props.WindowProgram
import Verif.Props.Windows
import Verif.Props.Effects

/-! C118: the complex of the naive window mode. -/

namespace LHF
open Spec

/-- What building the complex of a full window leaves behind. -/
theorem naive_init_tree (lib : Lib ℝ ℝ) (hdist : lib.dist = vectorsDistance) (s : Settings ℝ) (args : ArgMap)
    (hdim : (args "dimensions").isSome) (heps : (args "epsilon").isSome) (htw : (args "twist").isSome)
    (w : Work (List ℝ) ℝ) (dm : List (List ℝ)) (hw : w.complex = .tree Tree.fresh dm)
    (k : Nat) (hk : 0 < k) (hrow : ∀ p ∈ w.originalData, p.length = k)
    (w' : Work (List ℝ) ℝ) (h : runSub lib s args "distMatrix.neighGraph" w = .ok w') :
    ∃ t, w'.complex = .tree t (pairTable k w.originalData) ∧
      neighGraphTree s.eps s.dim (pairTable k w.originalData) w.originalData Tree.fresh = .ok t := by
  rw [show "distMatrix.neighGraph" = pipelineOf ["distMatrix", "neighGraph"] by decide,
    runSub_eq lib s args ["distMatrix", "neighGraph"] [.distMatrix, .neighGraph] (by decide) (by decide)
      (by decide) hdim heps htw] at h
  obtain ⟨ws, h1, -, -⟩ := C11_distance_matrix_euclidean k hk w.originalData hrow s.eps
  obtain ⟨r, h1', e⟩ := (distMatrixPipe_weights vectorsDistance s.eps w.weights []
    w.originalData).of_ok h1
  obtain ⟨t, ht, -⟩ := tree_of_rows lib.sort s.eps s.dim k hk w.originalData hrow
  simp only [List.foldlM_cons, List.foldlM_nil] at h
  have e1 : subStages lib s .distMatrix w = .ok { w with
      complex := .tree Tree.fresh (pairTable k w.originalData), weights := r.2 } := by
    unfold subStages runStages
    dsimp only
    rw [hw]
    dsimp only
    rw [hdist, h1', ok_bind, e]
    rfl
  rw [e1, ok_bind] at h
  unfold subStages runStages at h
  dsimp only at h
  rw [ht] at h
  cases h
  exact ⟨t, rfl, ht⟩

/-- The window part of the run does not depend on the complex. -/
theorem naive_fst (cap : Nat) (lib : Lib ℝ ℝ) (s : Settings ℝ) (args : ArgMap) (rows : List (List ℝ))
    (x y : NaiveState (List ℝ) × Work (List ℝ) ℝ) (h : rows.foldlM (naiveTreeStep cap lib s args) x = .ok y) :
    rows.foldlM (naiveStep cap true (fun _ => pure ())) x.1 = .ok y.1 := by
  induction rows generalizing x with
  | nil => cases h; rfl
  | cons row rows ih =>
    rw [List.foldlM_cons] at h ⊢
    obtain ⟨z, h1, h2⟩ := bind_ok.1 h
    unfold naiveTreeStep at h1
    obtain ⟨st, h3, h4⟩ := bind_ok.1 h1
    have hz : z.1 = st := by
      by_cases hc : x.1.window.length < cap ∧ st.window.length = cap
      · rw [if_pos hc] at h4
        obtain ⟨w, -, h4⟩ := bind_ok.1 h4
        cases h4; rfl
      · rw [if_neg hc] at h4
        cases h4; rfl
    rw [h3, ok_bind, ← hz]
    exact ih z h2

/-- While the window fills nothing is built; the complex is built from the first rows when it is full, and is never
changed after that. -/
theorem naive_complex (cap : Nat) (hcap : 0 < cap) (lib : Lib ℝ ℝ) (hdist : lib.dist = vectorsDistance)
    (s : Settings ℝ) (args : ArgMap)
    (hdim : (args "dimensions").isSome) (heps : (args "epsilon").isSome) (htw : (args "twist").isSome)
    (k : Nat) (hk : 0 < k) (data0 : List (List ℝ)) (w : Work (List ℝ) ℝ) (dm : List (List ℝ))
    (hw : w.complex = .tree Tree.fresh dm) (rows : List (List ℝ)) (hrow : ∀ p ∈ rows, p.length = k)
    (y : NaiveState (List ℝ) × Work (List ℝ) ℝ)
    (h : rows.foldlM (naiveTreeStep cap lib s args) (⟨[], data0, 1⟩, w) = .ok y) :
    (rows.length < cap → y.2.complex = .tree Tree.fresh dm) ∧
    (cap ≤ rows.length → ∃ t, y.2.complex = .tree t (pairTable k (rows.take cap)) ∧
      neighGraphTree s.eps s.dim (pairTable k (rows.take cap)) (rows.take cap) Tree.fresh = .ok t) := by
  induction rows using List.reverseRecOn generalizing y with
  | nil =>
    cases h
    exact ⟨fun _ => hw, fun h => absurd h (by simp; omega)⟩
  | append_singleton rows row ih =>
    have hall := h
    rw [List.foldlM_append] at h
    obtain ⟨z, h1, h2⟩ := bind_ok.1 h
    rw [List.foldlM_cons] at h2
    obtain ⟨y', h3, h4⟩ := bind_ok.1 h2
    cases h4
    obtain ⟨i1, i2⟩ := ih (fun p hp => hrow p (by simp [hp])) z h1
    have w1 := (naive_inv (init := fun _ => pure ()) hcap rfl (naive_fst cap lib s args rows _ z h1)).1
    have w2 := (naive_inv (init := fun _ => pure ()) hcap rfl (naive_fst cap lib s args _ _ _ hall)).1
    unfold naiveTreeStep at h3
    obtain ⟨st, h5, h6⟩ := bind_ok.1 h3
    by_cases hc : z.1.window.length < cap ∧ st.window.length = cap
    · rw [if_pos hc, if_neg (by omega)] at h6
      obtain ⟨w', h7, h6⟩ := bind_ok.1 h6
      cases h6
      dsimp only at w2
      have l1 : rows.length + 1 = cap := by
        have a := hc.1
        have b := hc.2
        rw [w1, lastN_length] at a
        rw [w2, lastN_length] at b
        simp only [List.length_append, List.length_singleton] at b
        omega
      have hst : st.window = rows ++ [row] := by
        rw [w2]
        unfold lastN
        simp only [List.length_append, List.length_singleton, l1, Nat.sub_self, List.drop_zero]
      have htake : (rows ++ [row]).take cap = rows ++ [row] := List.take_of_length_le (by simp; omega)
      refine ⟨fun hl => absurd hl (by simp; omega), fun _ => ?_⟩
      obtain ⟨t, t1, t2⟩ := naive_init_tree lib hdist s args hdim heps htw { z.2 with originalData := st.window } dm
        (i1 (by omega)) k hk (by intro p hp; rw [hst] at hp; exact hrow p hp) w' h7
      refine ⟨t, ?_, ?_⟩
      · rw [htake, ← hst]; exact t1
      · rw [htake, ← hst]; exact t2
    · rw [if_neg hc] at h6
      cases h6
      dsimp only at w2
      rw [w1, w2, lastN_length, lastN_length] at hc
      simp only [List.length_append, List.length_singleton] at hc ⊢
      refine ⟨fun hl => i1 (by omega), fun hl => ?_⟩
      rw [List.take_append_of_le_length (by omega)]
      exact i2 (by omega)

/-- The tree built from rows: its contents and its counters. -/
theorem tree_of_rows_counts (sort : SortBySecond (List Nat) ℝ) (eps : ℝ) (dim : Nat)
    (k : Nat) (hk : 0 < k) (data : List (List ℝ)) (hdim : ∀ p ∈ data, p.length = k) (t : Tree ℝ)
    (ht : neighGraphTree eps dim (pairTable k data) data Tree.fresh = .ok t) :
    StoresRips (t.getAllEdges sort).1 data.length (rowDist k data) (fun i j => rowDist k data i j < eps)
        (max 1 dim) ∧
      t.simplexCount = (simplexTotal data.length (fun i j => rowDist k data i j < eps) (max 1 dim + 1) : Nat) ∧
      t.vertexCount = data.length := by
  have hne : data.length ≠ 0 → pairTable k data ≠ [] := by
    intro h
    apply List.ne_nil_of_length_pos
    rw [pairTable_length]; omega
  obtain ⟨t', h2, h3, -⟩ := insertN_inv (D := rowDist k data) (eps := eps) (maxDim := dim)
    (fun _ _ => dist_nonneg) (fresh_inv _ eps dim) data.length hne (by
      intro i j _ hij hj
      have := at2_table (d := rowDist k data) hij (show j < data.length by omega)
      exact this)
  rw [Nat.zero_add] at h3
  rw [neighGraphTree_eq _ _ _ _ (rows_ne_nil hk hdim), h2] at ht
  cases ht
  obtain ⟨g1, g2⟩ := getAllEdges_inv sort h3
  refine ⟨by rw [g2]; exact inv_stores g1, ?_⟩
  exact inv_counts h3

/-- C118 is violated: when the program ends in the naive window mode after at least 50 rows, its complex is that of the
first 50 rows, whatever rows came after them; the counts are those of the first 50 rows too. -/
theorem C118_frozen_violated (sys : System ℝ ℝ) (pairs : List (String × String)) (m : ArgMap)
    (f : String) (h : WindowCommand pairs m ["naive", "naivewindow"] f)
    (lib : Lib ℝ ℝ) (hdist : lib.dist = vectorsDistance)
    (hrun : RunsNaiveWindow sys m lib) (data rows : List (List ℝ))
    (hread : readCSV sys.inIO (sys.files (m.val "inputFile")) = .ok data) (hne : data ≠ [])
    (hrows : streamAll sys.inIO (sys.files (m.val "inputFile")) = .ok rows)
    (k : Nat) (hk : 0 < k) (hdim : ∀ x ∈ rows, x.length = k) (hlen : 50 ≤ rows.length) :
    ∃ w t dm, mainProgram sys (commandLine pairs) = .ok w ∧ w.packet.data.complex = .tree t dm ∧
      (∀ sort, StoresRips (t.getAllEdges sort).1 50 (rowDist k (rows.take 50))
        (fun i j => rowDist k (rows.take 50) i j < sys.atof (m.val "epsilon"))
        (max 1 (settingsOf sys m).dim)) ∧
      t.simplexCount = (simplexTotal 50 (fun i j => rowDist k (rows.take 50) i j < sys.atof (m.val "epsilon"))
        (max 1 (settingsOf sys m).dim + 1) : Nat) ∧ t.vertexCount = 50 := by
  obtain ⟨w, hw, -⟩ := C90_ends_partial sys pairs m f h lib hdist hrun data rows hread hne hrows k hk hdim
  have hw0 := hw
  rw [main_naive sys pairs m f h lib hrun data hread hne] at hw
  obtain ⟨w', h1, hw⟩ := bind_ok.1 hw
  cases hw
  obtain ⟨k1, k2, k3⟩ := window_keys h.parsed
  unfold naiveWork at h1
  rw [hrows, ok_bind] at h1
  obtain ⟨x, hx, h1⟩ := bind_ok.1 h1
  cases h1
  obtain ⟨t, t1, t2⟩ := (naive_complex 50 (by norm_num) lib hdist (settingsOf sys m) (setPipeline m) k1 k2 k3 k hk
    data _ [] rfl rows hdim x hx).2 hlen
  have l50 : (rows.take 50).length = 50 := by rw [List.length_take]; omega
  have hd : ∀ p ∈ rows.take 50, p.length = k := fun p hp => hdim p (List.mem_of_mem_take hp)
  have c := fun sort => tree_of_rows_counts sort _ _ k hk (rows.take 50) hd t t2
  rw [l50] at c
  exact ⟨_, t, _, hw0, t1, fun sort => (c sort).1, (c lib.sort).2⟩

/-- C118 is violated: as soon as two of the first 50 rows are closer than epsilon while the rows at the same places of
the window are not, the complex that the program keeps is not the complex of the window. -/
theorem C118_wrong_complex_violated (sys : System ℝ ℝ) (pairs : List (String × String)) (m : ArgMap)
    (f : String) (h : WindowCommand pairs m ["naive", "naivewindow"] f)
    (lib : Lib ℝ ℝ) (hdist : lib.dist = vectorsDistance)
    (hrun : RunsNaiveWindow sys m lib) (data rows : List (List ℝ))
    (hread : readCSV sys.inIO (sys.files (m.val "inputFile")) = .ok data) (hne : data ≠ [])
    (hrows : streamAll sys.inIO (sys.files (m.val "inputFile")) = .ok rows)
    (k : Nat) (hk : 0 < k) (hdim : ∀ x ∈ rows, x.length = k) (hlen : 50 ≤ rows.length) (i j : Nat) (hij : i < j)
    (hj : j < 50) (hclose : rowDist k (rows.take 50) i j < sys.atof (m.val "epsilon"))
    (hfar : ¬ rowDist k (lastN 50 rows) i j < sys.atof (m.val "epsilon")) :
    ∃ w t dm, mainProgram sys (commandLine pairs) = .ok w ∧ w.packet.data.complex = .tree t dm ∧
      ∀ sort D, 1 ≤ D → ¬ StoresRips (t.getAllEdges sort).1 50 (rowDist k (lastN 50 rows))
        (fun i j => rowDist k (lastN 50 rows) i j < sys.atof (m.val "epsilon")) D := by
  obtain ⟨w, t, dm, h1, h2, h3, -⟩ := C118_frozen_violated sys pairs m f h lib hdist hrun data rows hread hne hrows
    k hk hdim hlen
  refine ⟨w, t, dm, h1, h2, fun sort D hD hs => hfar ?_⟩
  have hsimp : IsSimplex 50 (fun i j => rowDist k (rows.take 50) i j < sys.atof (m.val "epsilon")) [i, j] := by
    refine ⟨by simp, by simpa using hij, by simp; omega, ?_⟩
    intro a ha b hb hab
    simp only [List.mem_cons, List.not_mem_nil, or_false] at ha hb
    rcases ha with rfl | rfl <;> rcases hb with rfl | rfl <;> first | exact hclose | omega
  obtain ⟨l, a, b⟩ := ((h3 sort).exact 1 [i, j] _ (by omega)).2 ⟨rfl, hsimp, rfl⟩
  have := ((hs.exact 1 [i, j] _ hD).1 ⟨l, a, b⟩).2.1
  exact this.2.2.2 i (by simp) j (by simp) hij

/-- C118: with fewer than 50 rows no complex is built at all. -/
theorem C118_short_stream (sys : System ℝ ℝ) (pairs : List (String × String)) (m : ArgMap)
    (f : String) (h : WindowCommand pairs m ["naive", "naivewindow"] f)
    (lib : Lib ℝ ℝ) (hdist : lib.dist = vectorsDistance)
    (hrun : RunsNaiveWindow sys m lib) (data rows : List (List ℝ))
    (hread : readCSV sys.inIO (sys.files (m.val "inputFile")) = .ok data) (hne : data ≠ [])
    (hrows : streamAll sys.inIO (sys.files (m.val "inputFile")) = .ok rows)
    (k : Nat) (hk : 0 < k) (hdim : ∀ x ∈ rows, x.length = k) (hlen : rows.length < 50) :
    ∃ w, mainProgram sys (commandLine pairs) = .ok w ∧ w.packet.data.complex = .tree Tree.fresh [] := by
  obtain ⟨w, hw, -⟩ := C90_ends_partial sys pairs m f h lib hdist hrun data rows hread hne hrows k hk hdim
  have hw0 := hw
  rw [main_naive sys pairs m f h lib hrun data hread hne] at hw
  obtain ⟨w', h1, hw⟩ := bind_ok.1 hw
  cases hw
  obtain ⟨k1, k2, k3⟩ := window_keys h.parsed
  unfold naiveWork at h1
  rw [hrows, ok_bind] at h1
  obtain ⟨x, hx, h1⟩ := bind_ok.1 h1
  cases h1
  exact ⟨_, hw0, (naive_complex 50 (by norm_num) lib hdist (settingsOf sys m) (setPipeline m) k1 k2 k3 k hk
    data _ [] rfl rows hdim x hx).1 hlen⟩

/-- C118, the case in which it holds: with exactly 50 rows the complex is that of the window. -/
theorem C118_exactly_full_partial (sys : System ℝ ℝ) (pairs : List (String × String)) (m : ArgMap)
    (f : String) (h : WindowCommand pairs m ["naive", "naivewindow"] f)
    (lib : Lib ℝ ℝ) (hdist : lib.dist = vectorsDistance)
    (hrun : RunsNaiveWindow sys m lib) (data rows : List (List ℝ))
    (hread : readCSV sys.inIO (sys.files (m.val "inputFile")) = .ok data) (hne : data ≠ [])
    (hrows : streamAll sys.inIO (sys.files (m.val "inputFile")) = .ok rows)
    (k : Nat) (hk : 0 < k) (hdim : ∀ x ∈ rows, x.length = k) (hlen : rows.length = 50) :
    ∃ w t dm, mainProgram sys (commandLine pairs) = .ok w ∧ w.packet.data.complex = .tree t dm ∧
      ∀ sort, StoresRips (t.getAllEdges sort).1 50 (rowDist k (lastN 50 rows))
        (fun i j => rowDist k (lastN 50 rows) i j < sys.atof (m.val "epsilon"))
        (max 1 (settingsOf sys m).dim) := by
  obtain ⟨w, t, dm, h1, h2, h3, -⟩ := C118_frozen_violated sys pairs m f h lib hdist hrun data rows hread hne hrows
    k hk hdim (by omega)
  refine ⟨w, t, dm, h1, h2, ?_⟩
  rw [List.take_of_length_le (by omega)] at h3
  rwa [show lastN 50 rows = rows by unfold lastN; rw [hlen]; rfl]

/-! ### A case that meets the hypotheses -/

/-- A file of 51 equal lines and one that is far away. -/
def Spec.driftText : String := String.ofList ((List.replicate 51 ['1', '0', '\n']).flatten ++ ['9', '0', '\n'])

/-- Its rows. -/
def Spec.driftRows : List (List ℝ) := List.replicate 51 [((10 : Nat) : ℝ)] ++ [[((90 : Nat) : ℝ)]]

theorem drift_stream (m : ArgMap) :
    streamAll (windowSystem m driftText).inIO ((windowSystem m driftText).files (m.val "inputFile")) =
      .ok driftRows := by
  have h1 : fgetsAll 999 [] driftText.toList = List.replicate 51 ['1', '0', '\n'] ++ [['9', '0', '\n']] := by
    decide +kernel
  have h2 : ∀ n, streamRows (windowSystem m driftText).inIO (List.replicate n ['1', '0', '\n'] ++ [['9', '0', '\n']]) =
      .ok (List.replicate n [((10 : Nat) : ℝ)] ++ [[((90 : Nat) : ℝ)]]) := by
    intro n
    induction n with
    | zero => rfl
    | succ n ih =>
      rw [List.replicate_succ, List.cons_append, streamRows]
      have : parseDoubleVector (windowSystem m driftText).inIO ['1', '0', '\n'] =
          .ok (some [((10 : Nat) : ℝ)]) := rfl
      rw [this, ok_bind]
      dsimp only
      rw [ih, ok_bind]
      rfl
  have h3 : (windowSystem m driftText).files (m.val "inputFile") = some driftText.toList := rfl
  rw [h3, streamAll, h1, h2]
  rfl

theorem drift_read (m : ArgMap) :
    readCSV (windowSystem m driftText).inIO ((windowSystem m driftText).files (m.val "inputFile")) =
      .ok driftRows := by
  have h1 : splitOn '\n' driftText.toList = List.replicate 51 ['1', '0'] ++ [['9', '0'], []] := by
    decide +kernel
  have h2 : ∀ n, readLines (windowSystem m driftText).inIO (List.replicate n ['1', '0'] ++ [['9', '0'], []]) =
      .ok (List.replicate n [((10 : Nat) : ℝ)] ++ [[((90 : Nat) : ℝ)]]) := by
    intro n
    induction n with
    | zero => rfl
    | succ n ih =>
      rw [List.replicate_succ, List.cons_append, readLines, ih]
      rfl
  have h3 : (windowSystem m driftText).files (m.val "inputFile") = some driftText.toList := rfl
  rw [h3, readCSV, h1, h2]
  rfl

/-- The hypotheses of `C118_wrong_complex_violated`: the last two of 52 rows are far apart, and the rows at these places
of the first 50 are equal. -/
example : ∃ m, WindowCommand [("-i", "data.csv"), ("-m", "naive"), ("-o", "bars")] m
      ["naive", "naivewindow"] "bars" ∧
    RunsNaiveWindow (windowSystem m driftText) m (realSystem [] [] driftText).lib ∧
    (realSystem [] [] driftText).lib.dist = vectorsDistance ∧
    readCSV (windowSystem m driftText).inIO ((windowSystem m driftText).files (m.val "inputFile")) =
      .ok driftRows ∧
    streamAll (windowSystem m driftText).inIO ((windowSystem m driftText).files (m.val "inputFile")) =
      .ok driftRows ∧
    (∀ x ∈ driftRows, x.length = 1) ∧ 50 ≤ driftRows.length ∧
    rowDist 1 (driftRows.take 50) 48 49 < (windowSystem m driftText).atof (m.val "epsilon") ∧
    ¬ rowDist 1 (lastN 50 driftRows) 48 49 < (windowSystem m driftText).atof (m.val "epsilon") := by
  refine ⟨_, ⟨rfl, by decide, by decide, by decide, by decide, by decide, by decide⟩,
    windowSystem_naive _ _, rfl, drift_read _, drift_stream _, ?_, by simp [driftRows], ?_, ?_⟩
  · intro x hx
    unfold driftRows at hx
    rcases List.mem_append.1 hx with hx | hx
    · rw [List.eq_of_mem_replicate hx]; rfl
    · rw [List.mem_singleton.1 hx]; rfl
  · show dist (point 1 [((10 : Nat) : ℝ)]) (point 1 [((10 : Nat) : ℝ)]) < 5
    rw [dist_self]; norm_num
  · show ¬ dist (point 1 [((10 : Nat) : ℝ)]) (point 1 [((90 : Nat) : ℝ)]) < 5
    rw [EuclideanSpace.dist_eq]
    norm_num [point, Real.dist_eq]
    exact Real.le_sqrt_of_sq_le (by norm_num)

end LHF
