import Verif.Props.Printed
import Mathlib.Data.String.Basic

/-! C139: the table at the beginning of the output shows the settings that are in effect, and wrong arguments are
reported before it. -/

namespace LHF
open Spec

/-! ### The specification -/

/-- The entries of a map in increasing order of the keys. -/
def Spec.TableOf (m : ArgMap) (rows : List (String × String)) : Prop :=
  rows.Pairwise (fun a b => a.1.toList < b.1.toList) ∧ ∀ k v, (k, v) ∈ rows ↔ m k = some v

/-- There is only one such table. -/
theorem C139_table_unique {m : ArgMap} {rows rows' : List (String × String)} (h : TableOf m rows)
    (h' : TableOf m rows') : rows = rows' := by
  have nd : ∀ {l : List (String × String)}, l.Pairwise (fun a b => a.1.toList < b.1.toList) → l.Nodup := by
    intro l hl
    exact hl.imp (fun hab e => by subst e; exact lt_irrefl _ hab)
  have p : rows.Perm rows' := (List.perm_ext_iff_of_nodup (nd h.1) (nd h'.1)).2
    (fun a => (h.2 a.1 a.2).trans (h'.2 a.1 a.2).symm)
  exact p.eq_of_pairwise (fun a b _ _ h1 h2 => absurd h2 (not_lt_of_gt h1)) h.1 h'.1

/-! ### The keys -/

theorem mem_addKey (k x : String) (l : List String) : x ∈ addKey k l ↔ x = k ∨ x ∈ l := by
  induction l with
  | nil => simp [addKey]
  | cons a l ih =>
    unfold addKey
    split_ifs with h1 h2
    · simp
    · subst h2; simp
    · rw [List.mem_cons, ih, List.mem_cons]
      tauto

theorem addKey_sorted (k : String) (l : List String) (h : l.Pairwise (fun a b => a.toList < b.toList)) :
    (addKey k l).Pairwise (fun a b => a.toList < b.toList) := by
  induction l with
  | nil => simp [addKey]
  | cons a l ih =>
    have h' := List.pairwise_cons.1 h
    unfold addKey
    split_ifs with h1 h2
    · refine List.pairwise_cons.2 ⟨fun x hx => ?_, h⟩
      rcases List.mem_cons.1 hx with rfl | hx
      · exact h1
      · exact lt_trans h1 (h'.1 x hx)
    · exact h
    · refine List.pairwise_cons.2 ⟨fun x hx => ?_, ih h'.2⟩
      rcases (mem_addKey k x l).1 hx with rfl | hx
      · exact lt_of_le_of_ne (not_lt.1 h1) (fun e => h2 (String.toList_injective e.symm))
      · exact h'.1 x hx

theorem keys_sorted (ks : List String) :
    (ks.foldr addKey []).Pairwise (fun a b => a.toList < b.toList) ∧ ∀ x, x ∈ ks.foldr addKey [] ↔ x ∈ ks := by
  induction ks with
  | nil => simp
  | cons k ks ih => exact ⟨addKey_sorted k _ ih.1, fun x => by rw [List.foldr_cons, mem_addKey, ih.2, List.mem_cons]⟩

theorem parseLoop_keys : ∀ (argv : List String) (m m' : ArgMap), parseLoop argv m = .ok m' →
    ∀ k, (m' k).isSome → (m k).isSome ∨ k ∈ givenKeys argv
  | [], m, m', h, k, hk => by cases h; exact Or.inl hk
  | [a], m, m', h, k, hk => by
    unfold parseLoop at h
    split_ifs at h
    cases h; exact Or.inl hk
  | a :: v :: rest, m, m', h, k, hk => by
    have key : ∀ n, ((m.set n v) k).isSome → (m k).isSome ∨ k = n := by
      intro n hn
      unfold ArgMap.set at hn
      by_cases e : k = n
      · exact Or.inr e
      · rw [if_neg e] at hn; exact Or.inl hn
    unfold parseLoop at h
    unfold givenKeys
    split_ifs at h ⊢ with h1 h2
    · rcases parseLoop_keys rest _ _ h k hk with h3 | h3
      · exact (key _ h3).imp id (fun e => by simp [e])
      · exact Or.inr (List.mem_cons_of_mem _ h3)
    · rcases parseLoop_keys rest _ _ h k hk with h3 | h3
      · exact (key _ h3).imp id (fun e => by simp [e])
      · exact Or.inr (List.mem_cons_of_mem _ h3)
    · exact parseLoop_keys rest _ _ h k hk

theorem set_key {m : ArgMap} {n v k : String} (h : ((m.set n v) k).isSome) : (m k).isSome ∨ k = n := by
  unfold ArgMap.set at h
  by_cases e : k = n
  · exact Or.inr e
  · rw [if_neg e] at h; exact Or.inl h

theorem touch_key {m : ArgMap} {n k : String} (h : ((m.touch n) k).isSome) : (m k).isSome ∨ k = n := by
  unfold ArgMap.touch at h
  split_ifs at h
  · exact set_key h
  · exact Or.inl h

theorem defaults_keys (os : List (String × String × String)) : ∀ (m : ArgMap) (k : String),
    ((os.foldl defaultStep m) k).isSome → (m k).isSome ∨ k ∈ os.map (·.1) := by
  induction os with
  | nil => exact fun m k h => Or.inl h
  | cons o os ih =>
    intro m k h
    rw [List.foldl_cons] at h
    rcases ih _ _ h with h1 | h1
    · have : (m k).isSome ∨ k = o.1 := by
        unfold defaultStep at h1
        cases ho : m o.2.1 with
        | some v =>
          rw [ho] at h1
          dsimp only at h1
          unfold ArgMap.erase at h1
          by_cases e : k = o.2.1
          · rw [if_pos e] at h1; simp at h1
          · rw [if_neg e] at h1; exact set_key h1
        | none =>
          rw [ho] at h1
          dsimp only at h1
          split_ifs at h1
          · exact set_key h1
          · exact Or.inl h1
      exact this.imp id (fun e => by simp [e])
    · exact Or.inr (List.mem_cons_of_mem _ h1)

theorem fill_key {m : ArgMap} {p k : String} (h : ((fillPreprocessor m p) k).isSome) :
    (m k).isSome ∨ k = "preprocessor" := by
  unfold fillPreprocessor at h
  split_ifs at h
  · exact set_key h
  · exact touch_key h

theorem setMode_keys (m : ArgMap) (k : String) (h : ((setMode m) k).isSome) :
    (m k).isSome ∨ k ∈ optionTable.map (·.1) := by
  have key : (m k).isSome ∨ k = "mode" ∨ k = "pipeline" ∨ k = "upscale" ∨ k = "complexType" ∨ k = "preprocessor" := by
    unfold setMode at h
    split_ifs at h <;>
      (repeat (first
        | (rcases set_key h with h | h; rotate_left; (· simp [h]))
        | (rcases fill_key h with h | h; rotate_left; (· simp [h])))) <;>
      exact (touch_key h).imp id (fun e => by simp [e])
  rcases key with h1 | h1
  · exact Or.inl h1
  · right
    rcases h1 with rfl | rfl | rfl | rfl | rfl <;> decide

theorem setPipeline_keys (m : ArgMap) (k : String) (h : ((setPipeline m) k).isSome) :
    (m k).isSome ∨ k ∈ optionTable.map (·.1) := by
  have hopt : ∀ k ∈ ["mpi", "pipeline", "upscale", "preprocessor"], k ∈ optionTable.map (·.1) := by decide
  unfold setPipeline at h
  dsimp only at h
  split_ifs at h
  · rcases set_key h with h | h
    · rcases fill_key h with h | h
      · rcases set_key h with h | h
        · exact (touch_key h).imp id (fun e => hopt _ (by simp [e]))
        · exact Or.inr (hopt _ (by simp [h]))
      · exact Or.inr (hopt _ (by simp [h]))
    · exact Or.inr (hopt _ (by simp [h]))
  · rcases setMode_keys _ _ h with h | h
    · rcases touch_key h with h | h
      · exact (touch_key h).imp id (fun e => hopt _ (by simp [e]))
      · exact Or.inr (hopt _ (by simp [h]))
    · exact Or.inr h
  · rcases touch_key h with h | h
    · exact (touch_key h).imp id (fun e => hopt _ (by simp [e]))
    · exact Or.inr (hopt _ (by simp [h]))

theorem set_keep {m : ArgMap} {n v k : String} (h : k ≠ n) : (m.set n v) k = m k := by
  unfold ArgMap.set
  rw [if_neg h]

theorem touch_keep {m : ArgMap} {n k : String} (h : k ≠ n) : (m.touch n) k = m k := by
  unfold ArgMap.touch
  split_ifs
  · exact set_keep h
  · rfl

theorem fill_keep {m : ArgMap} {p k : String} (h : k ≠ "preprocessor") : (fillPreprocessor m p) k = m k := by
  unfold fillPreprocessor
  split_ifs
  · exact set_keep h
  · exact touch_keep h

/-- Choosing the mode leaves all names alone that are no options. -/
theorem setPipeline_keep (m : ArgMap) (k : String) (h : k ∉ optionTable.map (·.1)) : (setPipeline m) k = m k := by
  have ne : ∀ n ∈ optionTable.map (·.1), k ≠ n := fun n hn e => h (e ▸ hn)
  have h1 := ne "mpi" (by decide)
  have h2 := ne "pipeline" (by decide)
  have h3 := ne "upscale" (by decide)
  have h4 := ne "preprocessor" (by decide)
  have h5 := ne "mode" (by decide)
  have h6 := ne "complexType" (by decide)
  unfold setPipeline setMode
  simp only
  split_ifs <;> simp only [set_keep, touch_keep, fill_keep, ne_eq, h1, h2, h3, h4, h5, h6, not_false_eq_true]

theorem settings_table (argv : List String) (m : ArgMap) (hm : parseArgs argv = .ok m) :
    TableOf (setPipeline m) (settingsList argv (setPipeline m)) := by
  obtain ⟨h1, h2⟩ := keys_sorted (givenKeys argv ++ optionTable.map (·.1))
  constructor
  · unfold settingsList
    refine List.Pairwise.filterMap _ (fun a b hab p hp q hq => ?_) h1
    cases ha : setPipeline m a with
    | none => rw [ha] at hp; simp at hp
    | some v =>
      cases hb : setPipeline m b with
      | none => rw [hb] at hq; simp at hq
      | some v' =>
        rw [ha] at hp; rw [hb] at hq
        simp only [Option.map_some, Option.some.injEq] at hp hq
        subst hp; subst hq
        exact hab
  · intro k v
    unfold settingsList
    rw [List.mem_filterMap]
    constructor
    · rintro ⟨k', -, h⟩
      cases hk : setPipeline m k' with
      | none => rw [hk] at h; simp at h
      | some v' =>
        rw [hk] at h
        simp only [Option.map_some, Option.some.injEq, Prod.mk.injEq] at h
        rw [← h.1, ← h.2, hk]
    · intro h
      refine ⟨k, (h2 k).2 ?_, by rw [h]; rfl⟩
      rw [List.mem_append]
      rcases setPipeline_keys m k (by rw [h]; rfl) with h3 | h3
      · unfold parseArgs at hm
        obtain ⟨m', h4, h5⟩ := bind_ok.1 hm
        rw [pure_eq_ok] at h5
        cases h5
        rcases defaults_keys _ _ _ h3 with h6 | h6
        · rcases parseLoop_keys _ _ _ h4 k h6 with h7 | h7
          · simp [ArgMap.empty] at h7
          · exact Or.inl h7
        · exact Or.inr h6
      · exact Or.inr h3

/-! ### What is printed is only added to -/

section
variable {K W : Type}

/-- The second text begins with the first. -/
def Longer (s t : Shown) : Prop := s.text <+: t.text

theorem Longer.refl (s : Shown) : Longer s s := List.prefix_rfl
theorem Longer.trans {s t u : Shown} (h : Longer s t) (h' : Longer t u) : Longer s u := List.IsPrefix.trans h h'
theorem longer_say (s : Shown) (t : List Char) : Longer s (s.say t) := List.prefix_append _ _

theorem stage_longer {env : Surround K W} {term : Terminal K W} {args : ArgMap}
    {run : PipeKind → Work (List K) W → Res (Work (List K) W)} {p q : Packet (Work (List K) W × Shown)}
    {name : List Char} (h : runStageShown (stageShown env term args run) args p name = .ok q) :
    Longer p.data.2 q.data.2 := by
  unfold runStageShown at h
  obtain ⟨a, h1, h2⟩ := bind_ok.1 h
  have key : Longer p.data.2 a.data.2 := by
    unfold runStage at h1
    cases hn : newPipe (String.ofList name) (args.val "complexType") with
    | none => rw [hn] at h1; cases h1; exact Longer.refl _
    | some k =>
      rw [hn] at h1
      dsimp only at h1
      split_ifs at h1
      · unfold runPipeWrapper at h1
        rw [if_pos rfl] at h1
        obtain ⟨b, h3, h4⟩ := bind_ok.1 h1
        split_ifs at h4
        cases h4
        unfold stageShown at h3
        obtain ⟨w, -, h6⟩ := bind_ok.1 h3
        cases h6
        show _ <+: _
        simp only [List.append_assoc]
        exact List.prefix_append _ _
      · cases h1; exact Longer.refl _
  rw [pure_eq_ok] at h2
  have h2 := (Except.ok.inj h2).symm
  subst h2
  split_ifs
  · exact key.trans (longer_say _ _)
  · exact key

theorem stages_longer {env : Surround K W} {term : Terminal K W} {args : ArgMap}
    {run : PipeKind → Work (List K) W → Res (Work (List K) W)} (names : List (List Char))
    {p q : Packet (Work (List K) W × Shown)}
    (h : names.foldlM (runStageShown (stageShown env term args run) args) p = .ok q) :
    Longer p.data.2 q.data.2 := by
  induction names generalizing p with
  | nil => cases h; exact Longer.refl _
  | cons s ss ih =>
    rw [List.foldlM_cons] at h
    obtain ⟨a, h1, h2⟩ := bind_ok.1 h
    exact (stage_longer h1).trans (ih h2)

theorem run_longer {env : Surround K W} {term : Terminal K W} {io : TextNum W} {args : ArgMap}
    {run : PipeKind → Work (List K) W → Res (Work (List K) W)} {x y : World (List K) W × Shown}
    (h : runPipelineShown io (stageShown env term args run) args x = .ok y) : Longer x.2 y.2 := by
  unfold runPipelineShown at h
  cases hp : args "pipeline" with
  | none => rw [hp] at h; cases h; exact List.prefix_append _ _
  | some s =>
    rw [hp] at h
    dsimp only at h
    obtain ⟨p, h1, h2⟩ := bind_ok.1 h
    rw [pure_eq_ok] at h2
    have h2 := (Except.ok.inj h2).symm
    subst h2
    unfold runNamesShown at h1
    rw [hp] at h1
    exact stages_longer _ h1

theorem pre_longer {env : Surround K W} {term : Terminal K W} {args : ArgMap}
    {pre : PreKind → Work (List K) W → Res (Work (List K) W)} {p q : Packet (Work (List K) W × Shown)}
    (h : preprocessShown (preShown env term args pre) args p = .ok q) : Longer p.data.2 q.data.2 := by
  unfold preprocessShown at h
  obtain ⟨a, h1, h2⟩ := bind_ok.1 h
  rw [pure_eq_ok] at h2
  have h2 := (Except.ok.inj h2).symm
  subst h2
  refine Longer.trans ?_ (longer_say _ _)
  unfold preprocess at h1
  split_ifs at h1
  · cases hn : newPreprocessor (args.val "preprocessor") with
    | none => rw [hn] at h1; cases h1; exact Longer.refl _
    | some k =>
      rw [hn] at h1
      dsimp only at h1
      split_ifs at h1
      · unfold runPreprocessorWrapper at h1
        split_ifs at h1
        · obtain ⟨b, h3, h4⟩ := bind_ok.1 h1
          cases h4
          unfold preShown at h3
          obtain ⟨w, -, h6⟩ := bind_ok.1 h3
          cases h6
          show _ <+: _
          simp only [List.append_assoc]
          exact List.prefix_append _ _
        · cases h1; exact Longer.refl _
      · cases h1; exact Longer.refl _
  · cases h1; exact Longer.refl _

theorem step_longer [LinearOrder W] [AddMonoid W] {env : Surround K W} {term : Terminal K W} {io : TextNum W}
    {args : ArgMap} {strict : Bool} {run : PipeKind → Work (List K) W → Res (Work (List K) W)}
    {P : List (List Nat) × List (List (List K))} {st st' : (World (List K) W × Shown) × List (BettiEntry W)} {z : Nat}
    (h : reducedStepShown io strict (runPipelineShown io (stageShown env term args run) args) P st z = .ok st') :
    Longer st.1.2 st'.1.2 := by
  unfold reducedStepShown at h
  obtain ⟨pts, -, h2⟩ := bind_ok.1 h
  split_ifs at h2
  · obtain ⟨x, h3, h4⟩ := bind_ok.1 h2
    obtain ⟨w, -, h6⟩ := bind_ok.1 h4
    obtain ⟨labels, -, h8⟩ := bind_ok.1 h6
    obtain ⟨table, -, h10⟩ := bind_ok.1 h8
    rw [pure_eq_ok] at h10
    have h10 := (Except.ok.inj h10).symm
    subst h10
    exact (longer_say _ _).trans (run_longer h3)
  · cases h2
    exact longer_say _ _

theorem steps_longer [LinearOrder W] [AddMonoid W] {env : Surround K W} {term : Terminal K W} {io : TextNum W}
    {args : ArgMap} {strict : Bool} {run : PipeKind → Work (List K) W → Res (Work (List K) W)}
    {P : List (List Nat) × List (List (List K))} {st st' : (World (List K) W × Shown) × List (BettiEntry W)}
    (zs : List Nat)
    (h : zs.foldlM (reducedStepShown io strict (runPipelineShown io (stageShown env term args run) args) P) st =
      .ok st') : Longer st.1.2 st'.1.2 := by
  induction zs generalizing st with
  | nil => cases h; exact Longer.refl _
  | cons z zs ih =>
    rw [List.foldlM_cons] at h
    obtain ⟨a, h1, h2⟩ := bind_ok.1 h
    exact (step_longer h1).trans (ih h2)

theorem runs_longer [LinearOrder W] [AddMonoid W] {env : Surround K W} {term : Terminal K W} {io : TextNum W}
    {args : ArgMap} {strict : Bool} {dist : List K → List K → Res W}
    {run : PipeKind → Work (List K) W → Res (Work (List K) W)}
    {x : World (List K) W × Shown} {y : (World (List K) W × Shown) × List (BettiEntry W)}
    (h : reducedRunsShown env io strict dist (runPipelineShown io (stageShown env term args run) args) x = .ok y) :
    Longer x.2 y.1.2 := by
  unfold reducedRunsShown at h
  dsimp only at h
  obtain ⟨r, -, h1⟩ := bind_ok.1 h
  obtain ⟨P, -, h2⟩ := bind_ok.1 h1
  obtain ⟨st, h3, h4⟩ := bind_ok.1 h2
  obtain ⟨u, h5, h6⟩ := bind_ok.1 h4
  rw [pure_eq_ok] at h6
  have h6 := (Except.ok.inj h6).symm
  subst h6
  refine (Longer.trans (longer_say _ _) ((steps_longer _ h3).trans ?_)).trans (longer_say _ _)
  split_ifs at h5
  · obtain ⟨v, h7, h8⟩ := bind_ok.1 h5
    obtain ⟨w, -, h9⟩ := bind_ok.1 h8
    cases h9
    exact ((longer_say _ _).trans (longer_say _ _)).trans (run_longer h7)
  · cases h5
    exact (longer_say _ _).trans (longer_say _ _)

theorem main_longer [LinearOrder W] [Ring W] (sys : System K W) (env : Surround K W) (term : Terminal K W)
    (argv : List String) (m : ArgMap) (hm : parseArgs argv = .ok m)
    (y : World (List K) W × Shown) (hy : mainShown sys env term argv = .ok y) :
    headerShown argv (setPipeline m) <+: y.2.text := by
  unfold mainShown at hy
  rw [hm, ok_bind] at hy
  dsimp only at hy
  obtain ⟨data, -, h1⟩ := bind_ok.1 hy
  generalize (if (setPipeline m).val "pipeline" ≠ "slidingwindow" ∧
      sys.files ((setPipeline m).val "inputFile") = none then
    "Failed to open file: ".toList ++ ((setPipeline m).val "inputFile").toList ++ ['\n'] else []) = missing at h1
  suffices hs : Longer ⟨0, headerShown argv (setPipeline m) ++ missing⟩ y.2 from
    List.IsPrefix.trans (List.prefix_append _ missing) hs
  unfold dispatchShown at h1
  split_ifs at h1 with h2 h3 h4
  · unfold processUpscaleShown at h1
    obtain ⟨p, h5, h6⟩ := bind_ok.1 h1
    obtain ⟨parts, -, h7⟩ := bind_ok.1 h6
    rw [pure_eq_ok] at h7
    have h7 := (Except.ok.inj h7).symm
    subst h7
    exact (pre_longer h5).trans (longer_say _ _)
  · unfold processReducedShown at h1
    obtain ⟨p, h5, h6⟩ := bind_ok.1 h1
    obtain ⟨r, h7, h8⟩ := bind_ok.1 h6
    rw [pure_eq_ok] at h8
    have h8 := (Except.ok.inj h8).symm
    subst h8
    exact (pre_longer h5).trans (runs_longer h7)
  · unfold processDataShown at h1
    obtain ⟨p, h5, h6⟩ := bind_ok.1 h1
    exact (pre_longer h5).trans (run_longer h6)
  · rw [pure_eq_ok] at h1
    have h1 := (Except.ok.inj h1).symm
    subst h1
    exact longer_say _ _

/-! ### C139 -/

theorem parseShown_pairs (pairs : List (String × String)) :
    parseShown (commandLine pairs) = pairs.flatMap (fun p => invalidText p.1) := by
  induction pairs with
  | nil => rfl
  | cons p ps ih =>
    show invalidText p.1 ++ parseShown (commandLine ps) = _
    rw [ih]
    rfl

/-- C139: for every command line, input and mode, a run that ends has printed first a complaint for each argument
that should be a name and has no dash, then a line for each entry of the map of the settings that the run uses, in
the order of their names, then the lines of the constructor of the packet, and then the rest. -/
theorem C139_settings_shown [LinearOrder W] [Ring W] (sys : System K W) (env : Surround K W) (term : Terminal K W)
    (pairs : List (String × String)) (m : ArgMap) (hm : parseArgs (commandLine pairs) = .ok m)
    (y : World (List K) W × Shown) (hy : mainShown sys env term (commandLine pairs) = .ok y) :
    ∃ rows rest, TableOf (setPipeline m) rows ∧
      y.2.text = (pairs.filter (fun p => p.1.toList.head? ≠ some '-')).flatMap (fun p =>
          "Invalid argument: ".toList ++ p.1.toList ++ "\n\n".toList ++ usageText) ++
        rows.flatMap (fun r => r.1.toList ++ ['\t'] ++ r.2.toList ++ ['\n']) ++
        "Setting utils for : simplexBase\n".toList ++
        (if (setPipeline m).val "complexType" ∈ ["simplexTree", "simplexArrayList", "indSimplexTree"] then
          "Setting utils for : ".toList ++ ((setPipeline m).val "complexType").toList ++ ['\n'] else []) ++
        rest := by
  obtain ⟨rest, h⟩ := main_longer sys env term _ m hm y hy
  refine ⟨settingsList (commandLine pairs) (setPipeline m), rest, settings_table _ m hm, ?_⟩
  have hd : ((setPipeline m) "dimensions").isSome ∧ ((setPipeline m) "epsilon").isSome :=
    ⟨setPipeline_isSome m _ (parse_isSome pairs m hm ("dimensions", "d", "1") (by decide)),
      setPipeline_isSome m _ (parse_isSome pairs m hm ("epsilon", "e", "5") (by decide))⟩
  have hpk : packetText (setPipeline m) = "Setting utils for : simplexBase\n".toList ++
        (if (setPipeline m).val "complexType" ∈ ["simplexTree", "simplexArrayList", "indSimplexTree"] then
          "Setting utils for : ".toList ++ ((setPipeline m).val "complexType").toList ++ ['\n'] else []) := by
    unfold packetText configText
    simp only [if_pos hd, List.mem_cons, List.not_mem_nil, or_false]
    rfl
  rw [← h]
  unfold headerShown
  rw [parseShown_pairs]
  have e : pairs.flatMap (fun p => invalidText p.1) =
      (pairs.filter (fun p => p.1.toList.head? ≠ some '-')).flatMap (fun p =>
          "Invalid argument: ".toList ++ p.1.toList ++ "\n\n".toList ++ usageText) := by
    clear hm hy h
    induction pairs with
    | nil => rfl
    | cons p ps ih =>
      rw [List.flatMap_cons, ih]
      have hh : p.1.toList.take 1 = ['-'] ↔ p.1.toList.head? = some '-' := by
        cases p.1.toList <;> simp
      unfold invalidText
      by_cases hp : p.1.toList.head? = some '-'
      · rw [if_pos (hh.2 hp), List.filter_cons_of_neg (by simpa using hp), List.nil_append]
      · rw [if_neg (fun h => hp (hh.1 h)), List.filter_cons_of_pos (by simpa using hp), List.flatMap_cons]
  rw [e]
  have e2 : (fun r : String × String => r.1.toList ++ ['\t'] ++ r.2.toList ++ ['\n']) = settingLine := by
    funext r
    simp [settingLine]
  rw [e2, hpk]
  simp only [List.append_assoc]

end

/-- C139: each option has a row, and a row under another name is a name that was given, which is no option, with
the value given last: so a misspelt option is shown under the misspelt name, and the option it stands for with the
value that is used. -/
theorem C139_rows (pairs : List (String × String)) (m : ArgMap) (hm : parseArgs (commandLine pairs) = .ok m)
    (rows : List (String × String)) (h : TableOf (setPipeline m) rows) :
    (∀ o ∈ options, (rows.filter (fun r => r.1 = o.1)).length = 1) ∧
    (∀ o ∈ options, ∀ r ∈ rows, r.1 ≠ o.2.1) ∧
    (∀ r ∈ rows, (∀ o ∈ options, r.1 ≠ o.1) → LastValue pairs r.1 r.2) ∧
    (∀ n v, (∀ o ∈ options, n ≠ o.1 ∧ n ≠ o.2.1) → LastValue pairs n v → (n, v) ∈ rows) := by
  obtain ⟨m', e, h1, h2⟩ := C37_argument_precedence pairs
  rw [hm] at e; cases e
  have hopt : ∀ n, (∀ o ∈ options, n ≠ o.1) → n ∉ optionTable.map (·.1) := by
    intro n hn hmem
    obtain ⟨o, ho, rfl⟩ := List.mem_map.1 hmem
    exact hn o ((by decide : ∀ o ∈ optionTable, o ∈ options) o ho) rfl
  have hshort : ∀ o ∈ options, ∀ o' ∈ options, o.2.1 ≠ o'.1 := by decide
  have nd : rows.Nodup := h.1.imp (fun hab e => by subst e; exact lt_irrefl _ hab)
  refine ⟨fun o ho => ?_, fun o ho r hr e => ?_, fun r hr hn => ?_, fun n v hn hv => ?_⟩
  · obtain ⟨v, hv⟩ := Option.isSome_iff_exists.1 (setPipeline_isSome m _ (parse_isSome pairs m hm o ho))
    have e : rows.filter (fun r => r.1 = o.1) = [(o.1, v)] := by
      apply List.perm_singleton.1
      refine (List.perm_ext_iff_of_nodup (nd.filter _) (List.nodup_singleton _)).2 (fun r => ?_)
      rw [List.mem_filter, List.mem_singleton, decide_eq_true_eq, h.2 r.1 r.2]
      constructor
      · rintro ⟨h3, h4⟩
        rw [h4, hv] at h3
        exact Prod.ext h4 (Option.some.inj h3).symm
      · rintro rfl
        exact ⟨hv, rfl⟩
    rw [e]
    rfl
  · have h3 := (h.2 r.1 r.2).1 hr
    rw [e, setPipeline_keep m _ (hopt _ (fun o' ho' => hshort o ho o' ho')), (h1 o ho).2.2.2] at h3
    cases h3
  · have h3 := (h.2 r.1 r.2).1 hr
    rw [setPipeline_keep m _ (hopt _ hn)] at h3
    have hs : ∀ o ∈ options, r.1 ≠ o.1 ∧ r.1 ≠ o.2.1 := fun o ho =>
      ⟨hn o ho, fun e => by rw [e, (h1 o ho).2.2.2] at h3; cases h3⟩
    rcases given_or_not pairs r.1 with hg | ⟨v, hv⟩
    · rw [(h2 r.1 hs).2 hg] at h3
      cases h3
    · rw [(h2 r.1 hs).1 v hv] at h3
      rw [← Option.some.inj h3]
      exact hv
  · rw [h.2, setPipeline_keep m _ (hopt _ (fun o ho => (hn o ho).1)), (h2 n hn).1 v hv]

/-- C139 for a command line with a misspelt option and a name without a dash: `epsilonn` is shown next to `epsilon`,
which has its default, and `x` is reported. -/
example : (parseArgs (commandLine [("-i", "points.csv"), ("--epsilonn", "3"), ("x", "y")])).toOption.map (fun m =>
      (settingsList (commandLine [("-i", "points.csv"), ("--epsilonn", "3"), ("x", "y")]) (setPipeline m))) =
    some [("clusters", "20"), ("collapse", "false"), ("complexType", "simplexTree"), ("debug", "0"),
      ("dimensions", "1"), ("epsilon", "5"), ("epsilonn", "3"), ("inputFile", "points.csv"), ("iterations", "250"),
      ("lambda", ".25"), ("mode", "standard"), ("mpi", "0"), ("outputFile", "output.csv"),
      ("pipeline", "distMatrix.neighGraph.rips.fastPersistence"), ("preprocessor", ""), ("twist", "false"),
      ("upscale", "false")] ∧
    parseShown (commandLine [("-i", "points.csv"), ("--epsilonn", "3"), ("x", "y")]) =
      "Invalid argument: x\n\n".toList ++ usageText := by
  decide +kernel

/-- The whole text of a run on three points with an output file. -/
example : (mainShown (lineSystem [] [] "10\n12\n17") quietEnv quietTerminal ["-k", "3"]).toOption.map
      (fun y => y.2.text) =
    some (("clusters\t3\ncollapse\tfalse\ncomplexType\tsimplexTree\ndebug\t0\ndimensions\t1\nepsilon\t5\n" ++
      "inputFile\tNone\niterations\t250\nlambda\t.25\nmode\tstandard\nmpi\t0\noutputFile\toutput.csv\n" ++
      "pipeline\tdistMatrix.neighGraph.rips.fastPersistence\npreprocessor\t\ntwist\tfalse\nupscale\tfalse\n" ++
      "Setting utils for : simplexBase\nSetting utils for : simplexTree\n").toList) := by
  decide +kernel

end LHF
