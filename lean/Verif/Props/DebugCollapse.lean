import Verif.Props.SideFiles
import Verif.Props.IndexedCollapse

/-! C102 with `collapse`, for the complexes whose debug output leaves the collapse alone. -/

namespace LHF
open Spec

section
variable {K W : Type}

theorem rips_tree_idle (body : Nat → Tree W → Res (Tree W)) (collapse : String) (t : Tree W) :
    ripsPipeTree body collapse t = .ok t := by
  unfold ripsPipeTree
  split_ifs
  · unfold Tree.reduceComplex
    split_ifs with h1 h2
    · rfl
    · have : t.dimensions ≤ 1 := by
        unfold Tree.dimensions
        split <;> omega
      rw [show t.dimensions - 1 - 1 = 0 by omega]
      rfl
    · rfl
  · rfl

theorem rips_tree_stage [LinearOrder W] [Ring W] (lib : Lib K W) (s : Settings W) (w : Work (List K) W)
    {t : Tree W} {dm : List (List W)} (h : w.complex = .tree t dm) : runStages lib s .rips w = .ok w := by
  unfold runStages
  rw [h]
  dsimp only
  rw [rips_tree_idle, ok_bind, pure_eq_ok, ← h]

/-- The last two stages with debug. -/
theorem debug_tail [LinearOrder W] [Ring W] (env : Surround K W) (io : TextNum W) (lib : Lib K W)
    (args : ArgMap) (s : Settings W) (x : Work (List K) W × Effects) :
    SameRes (fun x w => x.1 = w)
      ([PipeKind.rips, .fastPersistence].foldlM
        (fun d k => stageWithEffects env io lib args true (runStages lib s) k d) x)
      ([PipeKind.rips, .fastPersistence].foldlM (fun d k => runStages lib s k d) x.1) := by
  refine SameRes.foldlM _ ?_ _ _ rfl
  rintro a _ k hk rfl
  exact stage_keeps env io lib args _ k (by
    rintro rfl
    simp at hk) a

/-- The last three stages with debug on a simplexArrayList, whatever `collapse` is. -/
theorem array_tail [LinearOrder W] [Ring W] (env : Surround K W) (io : TextNum W) (lib : Lib K W)
    (args : ArgMap) (s : Settings W) (x : Work (List K) W × Effects) {g : Graph W} {dm : List (List W)}
    (hx : x.1.complex = .array g dm) :
    SameRes (fun x w => x.1 = w)
      ([PipeKind.neighGraph, .rips, .fastPersistence].foldlM
        (fun d k => stageWithEffects env io lib args true (runStages lib s) k d) x)
      ([PipeKind.neighGraph, .rips, .fastPersistence].foldlM (fun d k => runStages lib s k d) x.1) := by
  rw [List.foldlM_cons, List.foldlM_cons]
  have head : SameRes (fun x w => x.1 = w)
      (stageWithEffects env io lib args true (runStages lib s) .neighGraph x)
      (runStages lib s .neighGraph x.1) := by
    refine stage_on env io lib args _ _ x (R := fun a b => a = b) ?_
    cases hr : runStages lib s .neighGraph x.1 with
    | error e => rfl
    | ok w =>
      have hw : ∃ g', w.complex = .array g' dm := by
        unfold runStages at hr
        rw [hx] at hr
        obtain ⟨g', -, h⟩ := bind_ok.1 hr
        cases h
        exact ⟨g', rfl⟩
      obtain ⟨g', hw⟩ := hw
      rw [ok_bind, output_keeps env io lib args _ w (Or.inr (by rw [hw]; simp))]
      rfl
  refine head.bind ?_
  rintro a _ - - rfl
  exact debug_tail env io lib args s a

/-- The last three stages with debug on a simplexTree, whatever `collapse` is. -/
theorem tree_tail [LinearOrder W] [Ring W] (env : Surround K W) (io : TextNum W) (lib : Lib K W)
    (args : ArgMap) (s : Settings W) (x : Work (List K) W × Effects) {t : Tree W} {dm : List (List W)}
    (hx : x.1.complex = .tree t dm) :
    SameRes (fun x w => x.1 = w)
      ([PipeKind.neighGraph, .rips, .fastPersistence].foldlM
        (fun d k => stageWithEffects env io lib args true (runStages lib s) k d) x)
      ([PipeKind.neighGraph, .rips, .fastPersistence].foldlM (fun d k => runStages lib s k d) x.1) := by
  rw [List.foldlM_cons, List.foldlM_cons]
  have head : SameRes (fun x w => [PipeKind.rips, .fastPersistence].foldlM
          (fun d k => runStages lib s k d) x.1 =
        [PipeKind.rips, .fastPersistence].foldlM (fun d k => runStages lib s k d) w)
      (stageWithEffects env io lib args true (runStages lib s) .neighGraph x)
      (runStages lib s .neighGraph x.1) := by
    refine stage_on env io lib args _ _ x (R := fun a b =>
      [PipeKind.rips, .fastPersistence].foldlM (fun d k => runStages lib s k d) a =
        [PipeKind.rips, .fastPersistence].foldlM (fun d k => runStages lib s k d) b) ?_
    cases hr : runStages lib s .neighGraph x.1 with
    | error e => rfl
    | ok w =>
      have hw : ∃ t', w.complex = .tree t' dm := by
        unfold runStages at hr
        rw [hx] at hr
        obtain ⟨t', -, h⟩ := bind_ok.1 hr
        cases h
        exact ⟨t', rfl⟩
      obtain ⟨t', hw⟩ := hw
      have ho : (outputData env io lib args .neighGraph w >>= fun r => pure r.1) =
          .ok { w with complex := .tree (t'.getAllEdges lib.sort).2 dm } := by
        unfold outputData
        rw [hw]
        rfl
      rw [ok_bind, ho]
      show _ = _
      rw [List.foldlM_cons, List.foldlM_cons, rips_tree_stage lib s w hw, rips_tree_stage lib s _ rfl, ok_bind,
        ok_bind, List.foldlM_cons, List.foldlM_cons, fast_same lib s w _ (Or.inl ⟨t', dm, hw, rfl⟩)]
  refine head.bind ?_
  intro a b _ _ hab
  rw [← hab]
  exact debug_tail env io lib args s a

end

/-- C102: in the standard modes with a simplexTree or a simplexArrayList, recording a run changes nothing in the way it
ends and in its results, with every setting of `debug` and `collapse`. -/
theorem C102_standard_partial (sys : System ℝ ℝ) (env : Surround ℝ ℝ) (pairs : List (String × String))
    (m : ArgMap) (ct f : String) (data : List (List ℝ))
    (hct : ct ∈ ["simplexArrayList", "simplexTree"])
    (h : StandardCommand sys pairs m ct f data) (kind : Option PreKind) (pts : List (List ℝ))
    (labels : List Nat) (hpts : PointsOf sys m data pts labels kind) :
    SameRes (fun x w => x.1 = w) (mainEffects sys env (commandLine pairs))
      (mainProgram sys (commandLine pairs)) := by
  have hct' : ct ∈ ["simplexArrayList", "simplexTree", "indSimplexTree"] := by
    simp only [List.mem_cons, List.not_mem_nil, or_false] at hct ⊢
    tauto
  have hpre : preprocess (sys.pre (setPipeline m)) (setPipeline m) ⟨[], true, ⟨data, data, [],
        newComplex ct, [], [], []⟩⟩ =
      .ok ⟨preStats kind, true, ⟨pts, data, labels, newComplex ct, [], [], []⟩⟩ := by
    cases kind with
    | none =>
      obtain ⟨h1, rfl, rfl⟩ := hpts
      unfold preprocess
      rw [h.preprocessor, if_neg (by simpa using h1)]
      rfl
    | some kind =>
      obtain ⟨h1, h2⟩ := hpts
      rw [pre_selected _ pairs m h.parsed _ kind h1 h.preprocessor]
      dsimp only
      rw [h2, ok_bind]
      rfl
  rw [effects_standard sys env pairs m ct f data hct' h, pre_effects h hpts, ok_bind,
    main_standard sys pairs m ct f data hct' h, hpre, ok_bind]
  dsimp only
  refine SameRes.bind (R := fun x w => x.1 = w) ?_ (by rintro a _ - - rfl; rfl)
  by_cases hd : debugFiles sys (setPipeline m) = true
  · rw [hd]
    unfold fastKinds
    rw [List.foldlM_cons, List.foldlM_cons]
    refine (stage_keeps env sys.io sys.lib _ _ _ (by decide) _).bind ?_
    rintro a _ - h2 rfl
    simp only [List.mem_cons, List.not_mem_nil, or_false] at hct
    rcases hct with rfl | rfl
    · unfold runStages at h2
      obtain ⟨r, -, h2⟩ := bind_ok.1 h2
      rw [pure_eq_ok] at h2
      have : a.1.complex = .array [] r.1 := by rw [← Except.ok.inj h2]
      exact array_tail env sys.io sys.lib _ _ a this
    · unfold runStages at h2
      obtain ⟨r, -, h2⟩ := bind_ok.1 h2
      rw [pure_eq_ok] at h2
      have : a.1.complex = .tree Tree.fresh r.1 := by rw [← Except.ok.inj h2]
      exact tree_tail env sys.io sys.lib _ _ a this
  · rw [Bool.not_eq_true] at hd
    rw [hd]
    refine SameRes.foldlM _ ?_ _ _ rfl
    rintro a _ k - rfl
    exact stage_off env sys.io sys.lib _ _ k a

/-- C102: the barcode file at the end of such a run has the lines of the barcode that the run without recording writes,
and nothing else. -/
theorem C102_standard_file_partial (sys : System ℝ ℝ) (env : Surround ℝ ℝ) (pairs : List (String × String))
    (m : ArgMap) (ct f : String) (data : List (List ℝ))
    (hct : ct ∈ ["simplexArrayList", "simplexTree"])
    (h : StandardCommand sys pairs m ct f data) (kind : Option PreKind) (pts : List (List ℝ))
    (labels : List Nat) (hpts : PointsOf sys m data pts labels kind)
    (y : World (List ℝ) ℝ × Effects) (hy : mainEffects sys env (commandLine pairs) = .ok y) :
    ∃ lines w, mainProgram sys (commandLine pairs) = .ok w ∧
      WritesBarcodeAfter (preStats kind) sys.io f lines w ∧
      ∀ opens before, opens (f ++ ".csv") = true →
        contentAfter opens (f ++ ".csv") before y.2.writes = some (barcodeContent sys.io lines) := by
  have hct' : ct ∈ ["simplexArrayList", "simplexTree", "indSimplexTree"] := by
    simp only [List.mem_cons, List.not_mem_nil, or_false] at hct ⊢
    tauto
  obtain ⟨z, h1, h2, h3, h4, h5⟩ := main_effects_points hct' h hpts y hy
  obtain ⟨w, hw, e⟩ := (C102_standard_partial sys env pairs m ct f data hct h kind pts labels hpts).ok_of hy
  refine ⟨z.1.bettiOutput, w, hw, ?_, ?_⟩
  · rw [← e]
    show _ = _
    rw [h5, barcodeText_eq]
    rfl
  · intro opens before ho
    rw [h4, show z.2.writes ++ [⟨f ++ "_stats.csv", .replace, statsText env z.2.rows⟩,
          ⟨f ++ ".csv", .replace, barcodeText sys.io z.1.bettiOutput⟩] = (z.2.writes ++
          [⟨f ++ "_stats.csv", .replace, statsText env z.2.rows⟩]) ++
          [⟨f ++ ".csv", .replace, barcodeText sys.io z.1.bettiOutput⟩] by simp,
      contentAfter_last ho (by simp), barcodeText_eq]

/-! ### Cases that meet the hypotheses -/

/-- The hypotheses, with debug and collapse on. -/
example : ∃ (sys : System ℝ ℝ) (m : ArgMap),
    StandardCommand sys [("-i", "data.csv"), ("-o", "bars"), ("-c", "simplexArrayList"), ("-x", "1"), ("-z", "true")]
      m "simplexArrayList" "bars" [[((0 : Nat) : ℝ)], [((2 : Nat) : ℝ)], [((9 : Nat) : ℝ)]] ∧
    PointsOf sys m [[((0 : Nat) : ℝ)], [((2 : Nat) : ℝ)], [((9 : Nat) : ℝ)]]
      [[((0 : Nat) : ℝ)], [((2 : Nat) : ℝ)], [((9 : Nat) : ℝ)]] [] none ∧
    m.val "collapse" = "true" ∧ m.val "debug" = "1" :=
  ⟨realSystem [] [] "00\n02\n09", _, ⟨rfl, by decide, by decide, Or.inl (by decide), by decide, by decide, by decide,
    by decide, rfl, by simp⟩, ⟨by decide, rfl, rfl⟩, by decide, by decide⟩

/-- Such runs end: three points on a line, with debug and collapse, for both complexes. -/
example :
    let sys := collapseSystem "00\n01\n03"
    (mainEffects sys quietSurround ["-c", "simplexArrayList", "-d", "2", "-z", "true", "-x", "1"]).toOption.map
        (fun r => barcodeFiles "output.csv" r.1) =
      some [.text (barcodeText sys.io [(0, 0, 1), (0, 0, 2), (0, 0, 500)])] ∧
    (mainEffects sys quietSurround ["-c", "simplexTree", "-d", "2", "-z", "true", "-x", "1"]).toOption.map
        (fun r => barcodeFiles "output.csv" r.1) =
      some [.text (barcodeText sys.io [(0, 0, 1), (0, 0, 2), (0, 0, 500)])] := by
  decide +kernel

end LHF
