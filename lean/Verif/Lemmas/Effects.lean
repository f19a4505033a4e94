import Verif.Model.Effects
import Verif.Lemmas.Program
import Verif.Props.Pipeline

/-! The program with its effects does what the program without them does. -/

namespace LHF
open Spec

section
variable {K W : Type}

theorem vertexCount_ok (c : AnyComplex W) : ∃ n, c.vertexCount = .ok n := by
  cases c with
  | tree t dm => exact ⟨_, rfl⟩
  | indexed t dm => exact ⟨_, rfl⟩
  | other => exact ⟨_, rfl⟩
  | array g dm =>
    cases g with
    | nil => exact ⟨_, rfl⟩
    | cons l g => exact ⟨_, rfl⟩

/-- A stage without debug. -/
theorem stage_off [LinearOrder W] [Zero W] (env : Surround K W) (io : TextNum W) (lib : Lib K W)
    (args : ArgMap) (run : PipeKind → Work (List K) W → Res (Work (List K) W)) (k : PipeKind)
    (x : Work (List K) W × Effects) :
    SameRes (fun x w => x.1 = w) (stageWithEffects env io lib args false run k x) (run k x.1) := by
  unfold stageWithEffects
  cases run k x.1 with
  | error e => rfl
  | ok w =>
    obtain ⟨v, hv⟩ := vertexCount_ok w.complex
    rw [ok_bind]
    dsimp only
    rw [hv, ok_bind]
    rfl

variable {A : Type}

/-- Running a pipeline with stages that do the same on the work. -/
theorem pipeline_proj {f : PipeKind → Work (List K) W × Effects → Res (Work (List K) W × Effects)}
    {g : PipeKind → Work (List K) W → Res (Work (List K) W)}
    (h : ∀ k x, SameRes (fun x w => x.1 = w) (f k x) (g k x.1)) (args : ArgMap)
    (q : Packet (Work (List K) W × Effects)) :
    SameRes (fun q p => dropEffects q = p) (runPipeline f args q)
      (runPipeline g args (dropEffects q)) := by
  unfold runPipeline
  cases args "pipeline" with
  | none => rfl
  | some s =>
    dsimp only
    refine SameRes.foldlM (R := fun q p => dropEffects q = p) _ ?_ _ _ rfl
    rintro q _ name - rfl
    unfold runStage
    cases newPipe (String.ofList name) (args.val "complexType") with
    | none => rfl
    | some k =>
      dsimp only
      by_cases hc : configPipe k args = true
      · rw [if_pos hc, if_pos hc]
        unfold runPipeWrapper
        rw [if_pos rfl, if_pos rfl]
        refine (h k q.data).bind ?_
        rintro a b - - rfl
        by_cases hh : q.hasComplex = true
        · rw [if_pos hh, if_pos (by exact hh)]
          rfl
        · rw [if_neg hh, if_neg (by exact hh)]
          rfl
      · rw [if_neg hc, if_neg hc]
        rfl

theorem preprocess_proj {f : PreKind → Work (List K) W × Effects → Res (Work (List K) W × Effects)}
    {g : PreKind → Work (List K) W → Res (Work (List K) W)}
    (h : ∀ k x, SameRes (fun x w => x.1 = w) (f k x) (g k x.1)) (args : ArgMap)
    (q : Packet (Work (List K) W × Effects)) :
    SameRes (fun q p => dropEffects q = p) (preprocess f args q)
      (preprocess g args (dropEffects q)) := by
  unfold preprocess
  by_cases h1 : args.val "preprocessor" ≠ ""
  · rw [if_pos h1, if_pos h1]
    cases newPreprocessor (args.val "preprocessor") with
    | none => rfl
    | some k =>
      dsimp only
      by_cases hc : configPreprocessor k args = true
      · rw [if_pos hc, if_pos hc]
        unfold runPreprocessorWrapper
        by_cases hp : preConfigured k = true
        · rw [if_pos hp, if_pos hp]
          refine (h k q.data).bind ?_
          rintro a b - - rfl
          rfl
        · rw [if_neg hp, if_neg hp]
          rfl
      · rw [if_neg hc, if_neg hc]
        rfl
  · rw [if_neg h1, if_neg h1]
    rfl

theorem pre_proj (env : Surround K W) (inIO : TextNum K) (io : TextNum W) (args : ArgMap)
    (pre : PreKind → Work (List K) W → Res (Work (List K) W)) (k : PreKind)
    (x : Work (List K) W × Effects) :
    SameRes (fun x w => x.1 = w) (preWithEffects env inIO io args pre k x) (pre k x.1) := by
  unfold preWithEffects
  cases pre k x.1 with
  | error e => rfl
  | ok w => rfl

theorem pipelineOut_proj {env : Surround K W} {io : TextNum W}
    {f : PipeKind → Work (List K) W × Effects → Res (Work (List K) W × Effects)}
    {g : PipeKind → Work (List K) W → Res (Work (List K) W)} {args : ArgMap}
    (h : ∀ q, SameRes (fun q p => dropEffects q = p) (runPipeline f args q)
      (runPipeline g args (dropEffects q))) (x : World (List K) W × Effects) :
    SameRes (fun x w => x.1 = w) (runPipelineEff env io f args x) (runPipelineOut io g args x.1) := by
  unfold runPipelineEff runPipelineOut
  cases args "pipeline" with
  | none => rfl
  | some s =>
    dsimp only
    refine (h (withEffects x.1.packet x.2)).bind ?_
    rintro a b - - rfl
    rfl

section
variable [LinearOrder W] [AddMonoid W] {f : World (List K) W × Effects → Res (World (List K) W × Effects)}
  {g : World (List K) W → Res (World (List K) W)}

theorem reducedStep_proj (h : ∀ x, SameRes (fun x w => x.1 = w) (f x) (g x.1)) (strict : Bool)
    (parts : List (List Nat) × List (List (List K)))
    (st : (World (List K) W × Effects) × List (BettiEntry W)) (z : Nat) :
    SameRes (fun (a : (World (List K) W × Effects) × List (BettiEntry W)) b => (a.1.1, a.2) = b)
      (reducedStepEff strict f parts st z) (reducedStep strict g parts (st.1.1, st.2) z) := by
  unfold reducedStepEff reducedStep
  refine SameRes.bind (R := fun a b => a = b) (SameRes.refl _ (fun _ _ => rfl)) ?_
  rintro pts _ - - rfl
  by_cases hp : pts.length > 0
  · rw [if_pos hp, if_pos hp]
    refine (h _).bind ?_
    rintro a b - - rfl
    refine SameRes.bind (R := fun a b => a = b) (SameRes.refl _ (fun _ _ => rfl)) ?_
    rintro w _ - - rfl
    refine SameRes.bind (R := fun a b => a = b) (SameRes.refl _ (fun _ _ => rfl)) ?_
    rintro lab _ - - rfl
    refine SameRes.bind (R := fun a b => a = b) (SameRes.refl _ (fun _ _ => rfl)) ?_
    rintro tab _ - - rfl
    rfl
  · rw [if_neg hp, if_neg hp]
    rfl

theorem reducedRuns_proj (h : ∀ x, SameRes (fun x w => x.1 = w) (f x) (g x.1)) (strict : Bool)
    (dist : List K → List K → Res W) (x : World (List K) W × Effects) :
    SameRes (fun (a : (World (List K) W × Effects) × List (BettiEntry W)) b => (a.1.1, a.2) = b)
      (reducedRunsEff strict dist f x) (reducedRuns strict dist g x.1) := by
  unfold reducedRunsEff reducedRuns
  dsimp only
  refine SameRes.bind (R := fun a b => a = b) (SameRes.refl _ (fun _ _ => rfl)) ?_
  rintro r _ - - rfl
  refine SameRes.bind (R := fun a b => a = b) (SameRes.refl _ (fun _ _ => rfl)) ?_
  rintro parts _ - - rfl
  refine SameRes.bind (R := fun (a : (World (List K) W × Effects) × List (BettiEntry W)) b =>
      (a.1.1, a.2) = b) (SameRes.foldlM _ ?_ _ _ rfl) ?_
  · rintro a _ z - rfl
    exact reducedStep_proj h strict parts a z
  · rintro st _ - - rfl
    by_cases hp : x.1.packet.data.originalData.length > 0
    · rw [if_pos hp, if_pos hp]
      refine (h _).bind ?_
      rintro a b - - rfl
      refine SameRes.bind (R := fun a b => a = b) (SameRes.refl _ (fun _ _ => rfl)) ?_
      rintro w _ - - rfl
      rfl
    · rw [if_neg hp, if_neg hp]
      rfl

theorem dispatch_proj (h : ∀ x, SameRes (fun x w => x.1 = w) (f x) (g x.1)) (strict : Bool)
    (dist : List K → List K → Res W)
    {pf : PreKind → Work (List K) W × Effects → Res (Work (List K) W × Effects)}
    {pg : PreKind → Work (List K) W → Res (Work (List K) W)}
    (hpre : ∀ k x, SameRes (fun x w => x.1 = w) (pf k x) (pg k x.1))
    (clusters : Nat) (args : ArgMap) (x : World (List K) W × Effects) :
    SameRes (fun x w => x.1 = w) (dispatchEff strict dist pf f clusters args x)
      (dispatch strict dist pg g clusters args x.1) := by
  have hp := preprocess_proj hpre args (withEffects x.1.packet x.2)
  unfold dispatchEff dispatch
  by_cases h1 : x.1.packet.data.originalData.length > 0 ∨ args.val "pipeline" = "slidingwindow"
  · rw [if_pos h1, if_pos h1]
    by_cases h2 : args.val "upscale" = "true"
    · rw [if_pos h2, if_pos h2]
      unfold processUpscaleEff processUpscale
      refine hp.bind ?_
      rintro a b - - rfl
      refine SameRes.bind (R := fun a b => a = b) (SameRes.refl _ (fun _ _ => rfl)) ?_
      rintro w _ - - rfl
      rfl
    · rw [if_neg h2, if_neg h2]
      by_cases h3 : args.val "mode" = "reduced"
      · rw [if_pos h3, if_pos h3]
        unfold processReducedEff processReduced
        refine hp.bind ?_
        rintro a b - - rfl
        refine (reducedRuns_proj h strict dist _).bind ?_
        rintro r _ - - rfl
        rfl
      · rw [if_neg h3, if_neg h3]
        unfold processDataEff processData
        refine hp.bind ?_
        rintro a b - - rfl
        exact h _
  · rw [if_neg h1, if_neg h1]
    rfl

end

/-- The program with its effects, when its pipeline does the same on the packet. -/
theorem main_proj [LinearOrder W] [Ring W] (sys : System K W) (env : Surround K W) (argv : List String)
    (m : ArgMap) (hm : parseArgs argv = .ok m)
    (h : ∀ q, SameRes (fun q p => dropEffects q = p)
      (runPipeline (stageWithEffects env sys.io sys.lib (setPipeline m) (debugFiles sys (setPipeline m))
        (runStages sys.lib ⟨sys.atof ((setPipeline m).val "epsilon"),
          sys.atoi ((setPipeline m).val "dimensions"), (setPipeline m).val "collapse"⟩)) (setPipeline m) q)
      (runPipeline (runStages sys.lib ⟨sys.atof ((setPipeline m).val "epsilon"),
          sys.atoi ((setPipeline m).val "dimensions"), (setPipeline m).val "collapse"⟩) (setPipeline m)
        (dropEffects q))) :
    SameRes (fun x w => x.1 = w) (mainEffects sys env argv) (mainProgram sys argv) := by
  unfold mainEffects mainProgram
  rw [hm, ok_bind, ok_bind]
  dsimp only
  refine SameRes.bind (R := fun a b => a = b) (SameRes.refl _ (fun _ _ => rfl)) ?_
  rintro data _ - - rfl
  exact dispatch_proj (f := runPipelineEff env sys.io (stageWithEffects env sys.io sys.lib (setPipeline m)
      (debugFiles sys (setPipeline m)) _) (setPipeline m)) (fun x => pipelineOut_proj h x) _ _
    (pf := preWithEffects env sys.inIO sys.io (setPipeline m) (sys.pre (setPipeline m)))
    (fun k x => pre_proj _ _ _ _ _ k x) _ _ (_, _)

/-! ### With debug, the default pipeline -/

/-- A stage with debug whose file writing leaves the work alone. -/
theorem stage_on [LinearOrder W] [Zero W] (env : Surround K W) (io : TextNum W) (lib : Lib K W)
    (args : ArgMap) (run : PipeKind → Work (List K) W → Res (Work (List K) W)) (k : PipeKind)
    (x : Work (List K) W × Effects) {R : Work (List K) W → Work (List K) W → Prop} {y : Res (Work (List K) W)}
    (h : SameRes R (run k x.1 >>= fun w => outputData env io lib args k w >>= fun r => pure r.1) y) :
    SameRes (fun x w => R x.1 w) (stageWithEffects env io lib args true run k x) y := by
  unfold stageWithEffects
  cases hr : run k x.1 with
  | error e =>
    rw [hr] at h
    cases y with
    | error e' => exact h
    | ok b => exact h.elim
  | ok w =>
    rw [hr, ok_bind] at h
    obtain ⟨v, hv⟩ := vertexCount_ok w.complex
    rw [ok_bind]
    dsimp only
    rw [hv, ok_bind, if_pos rfl]
    cases ho : outputData env io lib args k w with
    | error e =>
      rw [ho] at h
      cases y with
      | error e' => exact h
      | ok b => exact h.elim
    | ok r =>
      rw [ho] at h
      cases y with
      | error e' => exact h.elim
      | ok b => exact h

theorem output_keeps [LinearOrder W] [Zero W] (env : Surround K W) (io : TextNum W) (lib : Lib K W)
    (args : ArgMap) (k : PipeKind) (w : Work (List K) W)
    (h : k ≠ .neighGraph ∨ (∀ t dm, w.complex ≠ .tree t dm) ∧ ∀ t dm, w.complex ≠ .indexed t dm) :
    (outputData env io lib args k w >>= fun r => pure r.1) = .ok w := by
  unfold outputData
  cases hc : w.complex with
  | tree t dm =>
    rcases h with h | h
    · cases k <;> first | exact absurd rfl h | rfl
    · exact absurd hc (h.1 _ _)
  | indexed t dm =>
    rcases h with h | h
    · cases k <;> first | exact absurd rfl h | rfl
    · exact absurd hc (h.2 _ _)
  | other => cases k <;> rfl
  | array g dm =>
    cases k
    case neighGraph =>
      dsimp only
      match g with
      | [] => rfl
      | [l] => rfl
      | l1 :: l2 :: g => rfl
    all_goals rfl

theorem getAllEdges_stable [LinearOrder W] [Zero W] (sort : SortBySecond (List Nat) W) (t : Tree W) :
    (t.getAllEdges sort).2.getAllEdges sort = t.getAllEdges sort := by
  unfold Tree.getAllEdges
  by_cases h : t.isSorted = true
  · rw [if_pos h, if_pos h]
  · rw [if_neg h, if_pos rfl]

theorem igetAllEdges_stable [LinearOrder W] [Zero W] (sort : SortBySecond (Nat × List Nat) W) (t : ITree W)
    {r : Graph W × ITree W} (h : t.getAllEdges sort = .ok r) : r.2.getAllEdges sort = .ok r := by
  unfold ITree.getAllEdges at h ⊢
  obtain ⟨⟨g, t'⟩, h1, h2⟩ := bind_ok.1 h
  cases h2
  have : t'.getIndexEdges sort = .ok (g, t') := by
    unfold ITree.getIndexEdges at h1 ⊢
    by_cases h3 : t.store.dims.length = 0
    · rw [if_pos h3, pure_eq_ok] at h1
      cases h1
      rw [if_pos h3, pure_eq_ok]
    · rw [if_neg h3] at h1
      by_cases h4 : t.isSorted = true
      · rw [if_pos h4, pure_eq_ok] at h1
        cases h1
        rw [if_neg h3, if_pos h4, pure_eq_ok]
      · rw [if_neg h4] at h1
        obtain ⟨u, h5, h6⟩ := bind_ok.1 h1
        rw [pure_eq_ok] at h6
        cases h6
        have : u.store.dims = t.store.dims := by
          unfold ITree.sortAndBuildGraph at h5
          split at h5
          · cases h5
          · obtain ⟨sidx, -, h7⟩ := bind_ok.1 h5
            rw [pure_eq_ok] at h7
            cases h7
            rfl
        dsimp only
        rw [this, if_neg h3, if_pos rfl, pure_eq_ok]
  dsimp only
  rw [this]
  rfl

/-- A stage that is not neighGraph, with debug. -/
theorem stage_keeps [LinearOrder W] [Zero W] (env : Surround K W) (io : TextNum W) (lib : Lib K W)
    (args : ArgMap) (run : PipeKind → Work (List K) W → Res (Work (List K) W)) (k : PipeKind)
    (hk : k ≠ .neighGraph) (x : Work (List K) W × Effects) :
    SameRes (fun x w => x.1 = w) (stageWithEffects env io lib args true run k x) (run k x.1) := by
  refine stage_on env io lib args run k x (R := fun x w => x = w) ?_
  cases run k x.1 with
  | error e => rfl
  | ok w =>
    rw [ok_bind, output_keeps env io lib args k w (Or.inl hk)]
    rfl

theorem rips_plain [LinearOrder W] [Ring W] (lib : Lib K W) (s : Settings W)
    (hcol : s.collapse ≠ "true" ∧ s.collapse ≠ "1") (w : Work (List K) W)
    (h : (∃ t dm, w.complex = .tree t dm) ∨ ∃ t dm, w.complex = .indexed t dm) :
    runStages lib s .rips w = .ok w := by
  have hn : ¬ (s.collapse = "true" ∨ s.collapse = "1") := by tauto
  unfold runStages
  rcases h with ⟨t, dm, h⟩ | ⟨t, dm, h⟩
  · rw [h]
    dsimp only
    unfold ripsPipeTree
    rw [if_neg hn, pure_eq_ok, ok_bind, pure_eq_ok, ← h]
  · rw [h]
    dsimp only
    unfold ripsPipeIndexed
    rw [if_neg hn, pure_eq_ok, ok_bind, pure_eq_ok, ← h]

/-- The last two default stages on works that differ in the sorting of the complex. -/
theorem fast_same [LinearOrder W] [Ring W] (lib : Lib K W) (s : Settings W) (w w' : Work (List K) W)
    (h : (∃ t dm, w.complex = .tree t dm ∧ w' = { w with complex := .tree (t.getAllEdges lib.sort).2 dm }) ∨
      ∃ t dm r, w.complex = .indexed t dm ∧ t.getAllEdges lib.isort = .ok r ∧
        w' = { w with complex := .indexed r.2 dm }) :
    runStages lib s .fastPersistence w' = runStages lib s .fastPersistence w := by
  rcases h with ⟨t, dm, h, rfl⟩ | ⟨t, dm, r, h, hr, rfl⟩
  · unfold runStages
    rw [h]
    dsimp only
    rw [getAllEdges_stable]
  · unfold runStages
    rw [h]
    dsimp only
    rw [hr, igetAllEdges_stable _ _ hr]

/-- The last three default stages, without collapse. -/
theorem fast_tail [LinearOrder W] [Ring W] (env : Surround K W) (io : TextNum W) (lib : Lib K W)
    (args : ArgMap) (s : Settings W) (hcol : s.collapse ≠ "true" ∧ s.collapse ≠ "1")
    (x : Work (List K) W × Effects) :
    SameRes (fun x w => x.1 = w)
      ([PipeKind.neighGraph, .rips, .fastPersistence].foldlM
        (fun d k => stageWithEffects env io lib args true (runStages lib s) k d) x)
      ([PipeKind.neighGraph, .rips, .fastPersistence].foldlM (fun d k => runStages lib s k d) x.1) := by
  rw [List.foldlM_cons, List.foldlM_cons]
  have tail : ∀ (x : Work (List K) W × Effects), SameRes (fun x w => x.1 = w)
      ([PipeKind.rips, .fastPersistence].foldlM
        (fun d k => stageWithEffects env io lib args true (runStages lib s) k d) x)
      ([PipeKind.rips, .fastPersistence].foldlM (fun d k => runStages lib s k d) x.1) := by
    intro x
    refine SameRes.foldlM _ ?_ _ _ rfl
    rintro a _ k hk rfl
    exact stage_keeps env io lib args _ k (by
      rintro rfl
      simp at hk) a
  have head : SameRes (fun x w => [PipeKind.rips, .fastPersistence].foldlM
          (fun d k => runStages lib s k d) x.1 =
        [PipeKind.rips, .fastPersistence].foldlM (fun d k => runStages lib s k d) w)
      (stageWithEffects env io lib args true (runStages lib s) .neighGraph x)
      (runStages lib s .neighGraph x.1) ∨
      ∃ w e, runStages lib s .neighGraph x.1 = .ok w ∧
        stageWithEffects env io lib args true (runStages lib s) .neighGraph x = .error e ∧
        [PipeKind.rips, .fastPersistence].foldlM (fun d k => runStages lib s k d) w = .error e := by
    cases hr : runStages lib s .neighGraph x.1 with
    | error e =>
      left
      unfold stageWithEffects
      rw [hr]
      rfl
    | ok w =>
      have go : ∀ w', (outputData env io lib args .neighGraph w >>= fun r => pure r.1) = .ok w' →
          [PipeKind.rips, .fastPersistence].foldlM (fun d k => runStages lib s k d) w' =
            [PipeKind.rips, .fastPersistence].foldlM (fun d k => runStages lib s k d) w →
          SameRes (fun x w => [PipeKind.rips, .fastPersistence].foldlM
              (fun d k => runStages lib s k d) x.1 =
            [PipeKind.rips, .fastPersistence].foldlM (fun d k => runStages lib s k d) w)
            (stageWithEffects env io lib args true (runStages lib s) .neighGraph x) (.ok w) := by
        intro w' h1 h2
        refine stage_on env io lib args _ _ x (R := fun a b =>
          [PipeKind.rips, .fastPersistence].foldlM (fun d k => runStages lib s k d) a =
            [PipeKind.rips, .fastPersistence].foldlM (fun d k => runStages lib s k d) b) ?_
        rw [hr, ok_bind, h1]
        exact h2
      cases hc : w.complex with
      | other =>
        left
        exact go w (output_keeps _ _ _ _ _ _ (Or.inr (by rw [hc]; simp))) rfl
      | array g dm =>
        left
        exact go w (output_keeps _ _ _ _ _ _ (Or.inr (by rw [hc]; simp))) rfl
      | tree t dm =>
        left
        refine go { w with complex := .tree (t.getAllEdges lib.sort).2 dm } ?_ ?_
        · unfold outputData
          rw [hc]
          rfl
        · rw [List.foldlM_cons, List.foldlM_cons, rips_plain lib s hcol w (Or.inl ⟨_, _, hc⟩),
            rips_plain lib s hcol _ (Or.inl ⟨_, _, rfl⟩), ok_bind, ok_bind, List.foldlM_cons,
            List.foldlM_cons, fast_same lib s w _ (Or.inl ⟨t, dm, hc, rfl⟩)]
      | indexed t dm =>
        cases hg : t.getAllEdges lib.isort with
        | error e =>
          right
          refine ⟨w, e, rfl, ?_, ?_⟩
          · unfold stageWithEffects
            obtain ⟨v, hv⟩ := vertexCount_ok w.complex
            rw [hr, ok_bind]
            dsimp only
            rw [hv, ok_bind, if_pos rfl]
            unfold outputData
            rw [hc]
            dsimp only
            rw [hg]
            rfl
          · rw [List.foldlM_cons, rips_plain lib s hcol w (Or.inr ⟨_, _, hc⟩), ok_bind,
              List.foldlM_cons]
            unfold runStages
            rw [hc]
            dsimp only
            rw [hg]
            rfl
        | ok r =>
          left
          refine go { w with complex := .indexed r.2 dm } ?_ ?_
          · unfold outputData
            rw [hc]
            dsimp only
            rw [hg]
            rfl
          · rw [List.foldlM_cons, List.foldlM_cons, rips_plain lib s hcol w (Or.inr ⟨_, _, hc⟩),
              rips_plain lib s hcol _ (Or.inr ⟨_, _, rfl⟩), ok_bind, ok_bind, List.foldlM_cons,
              List.foldlM_cons, fast_same lib s w _ (Or.inr ⟨t, dm, r, hc, hg, rfl⟩)]
  rcases head with head | ⟨w, e, h1, h2, h3⟩
  · refine head.bind ?_
    intro a b _ _ hab
    rw [← hab]
    exact tail a
  · rw [h1, h2, ok_bind, h3]
    rfl

/-- The default pipeline with debug, without collapse. -/
theorem pipeline_on [LinearOrder W] [Ring W] (env : Surround K W) (io : TextNum W) (lib : Lib K W)
    (args : ArgMap) (s : Settings W) (hcol : s.collapse ≠ "true" ∧ s.collapse ≠ "1")
    (hsome : ∀ o ∈ options, (args o.1).isSome)
    (hpl : args "pipeline" = some (pipelineOf fastStages)) (q : Packet (Work (List K) W × Effects)) :
    SameRes (fun q p => dropEffects q = p)
      (runPipeline (stageWithEffects env io lib args true (runStages lib s)) args q)
      (runPipeline (runStages lib s) args (dropEffects q)) := by
  have heps : (args "epsilon").isSome := hsome ("epsilon", "e", "5") (by decide)
  have hdim : (args "dimensions").isSome := hsome ("dimensions", "d", "1") (by decide)
  have htw : (args "twist").isSome := hsome ("twist", "t", "false") (by decide)
  have hcfg : ∀ k, configPipe k args = true := by
    intro k
    unfold configPipe
    cases k <;> simp [requiredKeys, heps, hdim, htw]
  have hkinds : fastStages.filterMap (enabledStage args) = fastKinds := by
    have : ∀ s, enabledStage args s = newPipe s (args.val "complexType") := by
      intro s
      unfold enabledStage
      rcases newPipe s (args.val "complexType") with _ | k
      · rfl
      · rw [Option.filter_some, if_pos (hcfg k)]
    rw [funext this]
    rfl
  rw [C39_runs_components_in_order _ args q fastStages (by decide) (by decide) hpl,
    C39_runs_components_in_order _ args (dropEffects q) fastStages (by decide) (by decide) hpl, hkinds]
  have stages : SameRes (fun x w => x.1 = w)
      (fastKinds.foldlM (fun d k => stageWithEffects env io lib args true (runStages lib s) k d) q.data)
      (fastKinds.foldlM (fun d k => runStages lib s k d) q.data.1) := by
    unfold fastKinds
    rw [List.foldlM_cons, List.foldlM_cons]
    refine (stage_keeps env io lib args _ _ (by decide) q.data).bind ?_
    rintro a _ - - rfl
    exact fast_tail env io lib args s hcol a
  by_cases hc : q.hasComplex = true
  · rw [fold_wrappers _ _ _ hc, fold_wrappers _ _ _ (by exact hc)]
    refine stages.bind ?_
    rintro a _ - - rfl
    rfl
  · unfold fastKinds
    rw [List.foldlM_cons, List.foldlM_cons, runPipeWrapper, runPipeWrapper, if_pos rfl, if_pos rfl]
    have := stage_keeps env io lib args (runStages lib s) .distMatrix (by decide) q.data
    cases h1 : stageWithEffects env io lib args true (runStages lib s) .distMatrix q.data with
    | error e =>
      rw [h1] at this
      cases h2 : runStages lib s .distMatrix q.data.1 with
      | error e' =>
        rw [h2] at this
        have h3 : runStages lib s .distMatrix (dropEffects q).data = .error e' := h2
        rw [h3]
        exact this
      | ok b => rw [h2] at this; exact this.elim
    | ok a =>
      rw [h1] at this
      cases h2 : runStages lib s .distMatrix q.data.1 with
      | error e' => rw [h2] at this; exact this.elim
      | ok b =>
        have h3 : runStages lib s .distMatrix (dropEffects q).data = .ok b := h2
        rw [h3, ok_bind, ok_bind, if_neg hc, if_neg (by exact hc)]
        rfl

end
end LHF
