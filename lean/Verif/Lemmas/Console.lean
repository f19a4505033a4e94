import Verif.Model.Console
import Verif.Lemmas.Effects

/-! The program with what it prints does what the program without does. -/

namespace LHF
open Spec

section
variable {K W : Type}

theorem stageShown_proj (env : Surround K W) (term : Terminal K W) (args : ArgMap)
    (run : PipeKind → Work (List K) W → Res (Work (List K) W)) (k : PipeKind) (x : Work (List K) W × Shown) :
    SameRes (fun x w => x.1 = w) (stageShown env term args run k x) (run k x.1) := by
  unfold stageShown
  cases run k x.1 with
  | error e => rfl
  | ok w => rfl

theorem preShown_proj (env : Surround K W) (term : Terminal K W) (args : ArgMap)
    (pre : PreKind → Work (List K) W → Res (Work (List K) W)) (k : PreKind) (x : Work (List K) W × Shown) :
    SameRes (fun x w => x.1 = w) (preShown env term args pre k x) (pre k x.1) := by
  unfold preShown
  cases pre k x.1 with
  | error e => rfl
  | ok w => rfl

theorem shownStage_proj {f : PipeKind → Work (List K) W × Shown → Res (Work (List K) W × Shown)}
    {g : PipeKind → Work (List K) W → Res (Work (List K) W)}
    (h : ∀ k x, SameRes (fun x w => x.1 = w) (f k x) (g k x.1)) (args : ArgMap)
    (q : Packet (Work (List K) W × Shown)) (name : List Char) :
    SameRes (fun q p => dropShown q = p) (runStageShown f args q name)
      (runStage g args (dropShown q) name) := by
  unfold runStageShown
  rw [← bind_pure (runStage g args (dropShown q) name)]
  refine SameRes.bind (R := fun q p => dropShown q = p) ?_ ?_
  · unfold runStage
    cases newPipe (String.ofList name) (args.val "complexType") with
    | none => rfl
    | some k =>
      dsimp only
      by_cases hc : configPipe k args = true
      · rw [if_pos hc, if_pos hc]
        unfold runPipeWrapper
        rw [if_pos rfl, if_pos rfl]
        refine (h k q.data).bind ?_
        rintro a b - - rfl
        by_cases hh : q.hasComplex = true
        · rw [if_pos hh, if_pos (by exact hh)]
          rfl
        · rw [if_neg hh, if_neg (by exact hh)]
          rfl
      · rw [if_neg hc, if_neg hc]
        rfl
  · rintro a b - - rfl
    show dropShown _ = _
    by_cases hf : stageFailed args name = true
    · rw [if_pos hf]; rfl
    · rw [if_neg hf]

theorem shownPipeline_proj {f : PipeKind → Work (List K) W × Shown → Res (Work (List K) W × Shown)}
    {g : PipeKind → Work (List K) W → Res (Work (List K) W)}
    (h : ∀ k x, SameRes (fun x w => x.1 = w) (f k x) (g k x.1)) (args : ArgMap)
    (q : Packet (Work (List K) W × Shown)) :
    SameRes (fun q p => dropShown q = p) (runNamesShown f args q)
      (runPipeline g args (dropShown q)) := by
  unfold runNamesShown runPipeline
  cases args "pipeline" with
  | none => rfl
  | some s =>
    dsimp only
    refine SameRes.foldlM (R := fun q p => dropShown q = p) _ ?_ _ _ rfl
    rintro q _ name - rfl
    exact shownStage_proj h args q name

theorem shownPreprocess_proj {f : PreKind → Work (List K) W × Shown → Res (Work (List K) W × Shown)}
    {g : PreKind → Work (List K) W → Res (Work (List K) W)}
    (h : ∀ k x, SameRes (fun x w => x.1 = w) (f k x) (g k x.1)) (args : ArgMap)
    (q : Packet (Work (List K) W × Shown)) :
    SameRes (fun q p => dropShown q = p) (preprocessShown f args q)
      (preprocess g args (dropShown q)) := by
  unfold preprocessShown
  rw [← bind_pure (preprocess g args (dropShown q))]
  refine SameRes.bind (R := fun q p => dropShown q = p) ?_ (by rintro a b - - rfl; rfl)
  unfold preprocess
  by_cases h1 : args.val "preprocessor" ≠ ""
  · rw [if_pos h1, if_pos h1]
    cases newPreprocessor (args.val "preprocessor") with
    | none => rfl
    | some k =>
      dsimp only
      by_cases hc : configPreprocessor k args = true
      · rw [if_pos hc, if_pos hc]
        unfold runPreprocessorWrapper
        by_cases hp : preConfigured k = true
        · rw [if_pos hp, if_pos hp]
          refine (h k q.data).bind ?_
          rintro a b - - rfl
          rfl
        · rw [if_neg hp, if_neg hp]
          rfl
      · rw [if_neg hc, if_neg hc]
        rfl
  · rw [if_neg h1, if_neg h1]
    rfl

theorem shownOut_proj {io : TextNum W}
    {f : PipeKind → Work (List K) W × Shown → Res (Work (List K) W × Shown)}
    {g : PipeKind → Work (List K) W → Res (Work (List K) W)} {args : ArgMap}
    (h : ∀ k x, SameRes (fun x w => x.1 = w) (f k x) (g k x.1)) (x : World (List K) W × Shown) :
    SameRes (fun x w => x.1 = w) (runPipelineShown io f args x) (runPipelineOut io g args x.1) := by
  unfold runPipelineShown runPipelineOut
  cases args "pipeline" with
  | none => rfl
  | some s =>
    dsimp only
    refine (shownPipeline_proj h args (withShown x.1.packet x.2)).bind ?_
    rintro a b - - rfl
    rfl

section
variable [LinearOrder W] [AddMonoid W] {f : World (List K) W × Shown → Res (World (List K) W × Shown)}
  {g : World (List K) W → Res (World (List K) W)}

theorem shownStep_proj (h : ∀ x, SameRes (fun x w => x.1 = w) (f x) (g x.1)) (io : TextNum W) (strict : Bool)
    (parts : List (List Nat) × List (List (List K)))
    (st : (World (List K) W × Shown) × List (BettiEntry W)) (z : Nat) :
    SameRes (fun (a : (World (List K) W × Shown) × List (BettiEntry W)) b => (a.1.1, a.2) = b)
      (reducedStepShown io strict f parts st z) (reducedStep strict g parts (st.1.1, st.2) z) := by
  unfold reducedStepShown reducedStep
  refine SameRes.bind (R := fun a b => a = b) (SameRes.refl _ (fun _ _ => rfl)) ?_
  rintro pts _ - - rfl
  by_cases hp : pts.length > 0
  · rw [if_pos hp, if_pos hp]
    refine (h _).bind ?_
    rintro a b - - rfl
    refine SameRes.bind (R := fun a b => a = b) (SameRes.refl _ (fun _ _ => rfl)) ?_
    rintro w _ - - rfl
    refine SameRes.bind (R := fun a b => a = b) (SameRes.refl _ (fun _ _ => rfl)) ?_
    rintro lab _ - - rfl
    refine SameRes.bind (R := fun a b => a = b) (SameRes.refl _ (fun _ _ => rfl)) ?_
    rintro tab _ - - rfl
    rfl
  · rw [if_neg hp, if_neg hp]
    rfl

/-- The runs of the mode "reduced", and the table printed last. -/
theorem shownRuns_proj (h : ∀ x, SameRes (fun x w => x.1 = w) (f x) (g x.1)) (env : Surround K W)
    (io : TextNum W) (strict : Bool) (dist : List K → List K → Res W) (x : World (List K) W × Shown) :
    SameRes (fun (a : (World (List K) W × Shown) × List (BettiEntry W)) b => (a.1.1, a.2) = b ∧
        ∃ t, a.1.2.text = t ++ "\n_______BETTIS_______\n".toList ++
          a.1.1.packet.data.bettiTable.flatMap (tableLine env io))
      (reducedRunsShown env io strict dist f x) (reducedRuns strict dist g x.1) := by
  unfold reducedRunsShown reducedRuns
  dsimp only
  refine SameRes.bind (R := fun a b => a = b) (SameRes.refl _ (fun _ _ => rfl)) ?_
  rintro r _ - - rfl
  refine SameRes.bind (R := fun a b => a = b) (SameRes.refl _ (fun _ _ => rfl)) ?_
  rintro parts _ - - rfl
  refine SameRes.bind (R := fun (a : (World (List K) W × Shown) × List (BettiEntry W)) b =>
      (a.1.1, a.2) = b) (SameRes.foldlM _ ?_ _ _ rfl) ?_
  · rintro a _ z - rfl
    exact shownStep_proj h io strict parts a z
  · rintro st _ - - rfl
    by_cases hp : x.1.packet.data.originalData.length > 0
    · rw [if_pos hp, if_pos hp, bind_assoc]
      refine (h _).bind ?_
      rintro a b - - rfl
      rw [bind_assoc]
      refine SameRes.bind (R := fun a b => a = b) (SameRes.refl _ (fun _ _ => rfl)) ?_
      rintro w _ - - rfl
      exact ⟨rfl, a.2.text, by simp [Shown.say]⟩
    · rw [if_neg hp, if_neg hp]
      refine ⟨rfl, ?_⟩
      simp only [Shown.say, ← List.append_assoc]
      exact ⟨_, rfl⟩

theorem dispatchShown_proj (h : ∀ x, SameRes (fun x w => x.1 = w) (f x) (g x.1)) (env : Surround K W)
    (term : Terminal K W) (io : TextNum W) (strict : Bool) (dist : List K → List K → Res W)
    {pf : PreKind → Work (List K) W × Shown → Res (Work (List K) W × Shown)}
    {pg : PreKind → Work (List K) W → Res (Work (List K) W)}
    (hpre : ∀ k x, SameRes (fun x w => x.1 = w) (pf k x) (pg k x.1))
    (clusters : Nat) (args : ArgMap) (x : World (List K) W × Shown) :
    SameRes (fun x w => x.1 = w) (dispatchShown env io strict dist pf f clusters args x)
      (dispatch strict dist pg g clusters args x.1) := by
  have hp := shownPreprocess_proj hpre args (withShown x.1.packet x.2)
  unfold dispatchShown dispatch
  by_cases h1 : x.1.packet.data.originalData.length > 0 ∨ args.val "pipeline" = "slidingwindow"
  · rw [if_pos h1, if_pos h1]
    by_cases h2 : args.val "upscale" = "true"
    · rw [if_pos h2, if_pos h2]
      unfold processUpscaleShown processUpscale
      refine hp.bind ?_
      rintro a b - - rfl
      refine SameRes.bind (R := fun a b => a = b) (SameRes.refl _ (fun _ _ => rfl)) ?_
      rintro w _ - - rfl
      rfl
    · rw [if_neg h2, if_neg h2]
      by_cases h3 : args.val "mode" = "reduced"
      · rw [if_pos h3, if_pos h3]
        unfold processReducedShown processReduced
        refine hp.bind ?_
        rintro a b - - rfl
        refine (shownRuns_proj h env io strict dist _).bind ?_
        rintro r _ - - ⟨rfl, -⟩
        rfl
      · rw [if_neg h3, if_neg h3]
        unfold processDataShown processData
        refine hp.bind ?_
        rintro a b - - rfl
        exact h _
  · rw [if_neg h1, if_neg h1]
    rfl

end

/-- The program with what it prints. -/
theorem mainShown_proj [LinearOrder W] [Ring W] (sys : System K W) (env : Surround K W) (term : Terminal K W)
    (argv : List String) :
    SameRes (fun x w => x.1 = w) (mainShown sys env term argv) (mainProgram sys argv) := by
  unfold mainShown mainProgram
  refine SameRes.bind (R := fun a b => a = b) (SameRes.refl _ (fun _ _ => rfl)) ?_
  rintro m _ - - rfl
  dsimp only
  refine SameRes.bind (R := fun a b => a = b) (SameRes.refl _ (fun _ _ => rfl)) ?_
  rintro data _ - - rfl
  generalize setPipeline m = args
  generalize Settings.mk (sys.atof (args.val "epsilon")) (sys.atoi (args.val "dimensions"))
    (args.val "collapse") = st
  have h1 : ∀ x, SameRes (fun x w => x.1 = w)
      (runPipelineShown sys.io (stageShown env term args (runStages sys.lib st)) args x)
      (runPipelineOut sys.io (runStages sys.lib st) args x.1) := fun x =>
    shownOut_proj (io := sys.io) (f := stageShown env term args (runStages sys.lib st))
      (g := runStages sys.lib st) (args := args) (fun k x => stageShown_proj env term args _ k x) x
  exact dispatchShown_proj h1 env term sys.io sys.strict sys.lib.dist
    (pf := preShown env term args (sys.pre args)) (pg := sys.pre args)
    (fun k x => preShown_proj env term args _ k x) (sys.atoi (args.val "clusters")) args (_, _)

/-- In the mode "reduced" the table is printed last. -/
theorem mainShown_table [LinearOrder W] [Ring W] (sys : System K W) (env : Surround K W) (term : Terminal K W)
    (argv : List String) (m : ArgMap) (hm : parseArgs argv = .ok m)
    (hup : (setPipeline m).val "upscale" ≠ "true") (hmode : (setPipeline m).val "mode" = "reduced")
    (data : List (List K)) (hp : (setPipeline m).val "pipeline" ≠ "slidingwindow")
    (hread : readCSV sys.inIO (sys.files ((setPipeline m).val "inputFile")) = .ok data) (hne : data ≠ [])
    (y : World (List K) W × Shown) (hy : mainShown sys env term argv = .ok y) :
    ∃ t, y.2.text = t ++ "\n_______BETTIS_______\n".toList ++
      y.1.packet.data.bettiTable.flatMap (tableLine env sys.io) := by
  unfold mainShown at hy
  rw [hm, ok_bind] at hy
  dsimp only at hy
  rw [if_pos hp, hread, ok_bind] at hy
  unfold dispatchShown at hy
  rw [if_pos (by exact Or.inl (List.length_pos_of_ne_nil hne)), if_neg hup, if_pos hmode] at hy
  unfold processReducedShown at hy
  obtain ⟨p, -, h2⟩ := bind_ok.1 hy
  obtain ⟨r, h3, h4⟩ := bind_ok.1 h2
  rw [pure_eq_ok] at h4
  cases h4
  have := (shownRuns_proj (fun x => shownOut_proj (io := sys.io)
    (f := stageShown env term (setPipeline m) (runStages sys.lib ⟨sys.atof ((setPipeline m).val "epsilon"),
      sys.atoi ((setPipeline m).val "dimensions"), (setPipeline m).val "collapse"⟩)) (args := setPipeline m)
    (fun k x => stageShown_proj _ _ _ _ k x) x) env sys.io
    sys.strict sys.lib.dist ({ (⟨newPacket ((setPipeline m).val "complexType")
      ⟨data, data, [], newComplex ((setPipeline m).val "complexType"), [], [], []⟩, []⟩ : World (List K) W) with
        packet := dropShown p }, p.data.2))
  obtain ⟨b, -, -, h5⟩ := this.ok_of h3
  exact h5

end

end LHF
