import Verif.Props.Effects

/-! C102 to C104: log and debug files do not change the results, which files a run touches, and what the
debug files contain. -/

namespace LHF
open Spec

/-! ### C102 -/

/-- The two sets of options differ at most in `debug`. -/
def Spec.SameButDebug (m m' : ArgMap) : Prop := ∀ key, key ≠ "debug" → m key = m' key

theorem Spec.SameButDebug.val {m m' : ArgMap} (h : SameButDebug m m') {key : String} (hk : key ≠ "debug") :
    m.val key = m'.val key := by
  unfold ArgMap.val; rw [h key hk]

theorem Spec.SameButDebug.set {m m' : ArgMap} (h : SameButDebug m m') (key v : String) :
    SameButDebug (m.set key v) (m'.set key v) := by
  intro k hk
  unfold ArgMap.set
  split
  · rfl
  · exact h k hk

theorem Spec.SameButDebug.touch {m m' : ArgMap} (h : SameButDebug m m') {key : String} (hk : key ≠ "debug") :
    SameButDebug (m.touch key) (m'.touch key) := by
  unfold ArgMap.touch
  rw [h key hk]
  split
  · exact h.set _ _
  · exact h

theorem Spec.SameButDebug.fill {m m' : ArgMap} (h : SameButDebug m m') (p : String) :
    SameButDebug (fillPreprocessor m p) (fillPreprocessor m' p) := by
  unfold fillPreprocessor
  rw [h.val (by decide)]
  split
  · exact h.set _ _
  · exact h.touch (by decide)

theorem Spec.SameButDebug.mode {m m' : ArgMap} (h : SameButDebug m m') :
    SameButDebug (setMode m) (setMode m') := by
  have ht := h.touch (key := "mode") (by decide)
  unfold setMode
  dsimp only
  rw [ht.val (by decide)]
  split
  · exact ht.set _ _
  · split
    · exact (((ht.fill _).set _ _).set _ _).set _ _
    · split
      · exact ((ht.fill _).set _ _).set _ _
      · split
        · exact (ht.fill _).set _ _
        · split
          · exact (((ht.set _ _).set _ _).set _ _).set _ _
          · split
            · exact ((ht.set _ _).set _ _).set _ _
            · split
              · exact (((ht.set _ _).set _ _).set _ _).set _ _
              · exact ht

theorem Spec.SameButDebug.pipeline {m m' : ArgMap} (h : SameButDebug m m') :
    SameButDebug (setPipeline m) (setPipeline m') := by
  have h1 := h.touch (key := "mpi") (by decide)
  unfold setPipeline
  dsimp only
  rw [h1.val (by decide)]
  split
  · exact ((h1.set _ _).fill _).set _ _
  · have h2 := h1.touch (key := "pipeline") (by decide)
    rw [h2.val (by decide)]
    split
    · exact h2.mode
    · exact h2

theorem config_same {m m' : ArgMap} (h : SameButDebug m m') (k : PipeKind) :
    configPipe k m = configPipe k m' := by
  unfold configPipe
  have : ∀ key ∈ requiredKeys k, key ≠ "debug" := by cases k <;> decide
  rw [Bool.eq_iff_iff, List.all_eq_true, List.all_eq_true]
  constructor
  · intro h' key hk; rw [← h key (this key hk)]; exact h' key hk
  · intro h' key hk; rw [h key (this key hk)]; exact h' key hk

theorem preprocess_same {D : Type} {m m' : ArgMap} (h : SameButDebug m m') (pre : PreKind → D → Res D)
    (p : Packet D) : preprocess pre m p = preprocess pre m' p := by
  have hc : ∀ k, configPreprocessor k m = configPreprocessor k m' := by
    intro k
    unfold configPreprocessor
    have : ∀ key ∈ preRequiredKeys k, key ≠ "debug" := by cases k <;> decide
    rw [Bool.eq_iff_iff, List.all_eq_true, List.all_eq_true]
    constructor
    · intro h' key hk; rw [← h key (this key hk)]; exact h' key hk
    · intro h' key hk; rw [h key (this key hk)]; exact h' key hk
  unfold preprocess
  rw [h.val (by decide)]
  simp only [hc]

theorem pipelineOut_same {K W : Type} {m m' : ArgMap} (h : SameButDebug m m') (io : TextNum W)
    (run : PipeKind → Work (List K) W → Res (Work (List K) W)) (w : World (List K) W) :
    runPipelineOut io run m w = runPipelineOut io run m' w := by
  have hs : runStage run m = runStage run m' := by
    funext p name
    unfold runStage
    rw [h.val (by decide)]
    simp only [config_same h]
  unfold runPipelineOut runPipeline pipelineFiles
  rw [h "pipeline" (by decide), h "outputFile" (by decide), hs]

/-- The program reads the option `debug` only for its debug output. -/
theorem program_same {K W : Type} [LinearOrder W] [Ring W] (sys : System K W) (argv argv' : List String)
    (m m' : ArgMap) (hm : parseArgs argv = .ok m) (hm' : parseArgs argv' = .ok m')
    (h : SameButDebug m m') (hpre : sys.pre (setPipeline m) = sys.pre (setPipeline m')) :
    mainProgram sys argv = mainProgram sys argv' := by
  have hs := h.pipeline
  unfold mainProgram
  rw [hm, hm', ok_bind, ok_bind]
  dsimp only
  rw [hpre, hs.val (key := "complexType") (by decide), hs.val (key := "pipeline") (by decide),
    hs.val (key := "inputFile") (by decide), hs.val (key := "epsilon") (by decide),
    hs.val (key := "dimensions") (by decide), hs.val (key := "collapse") (by decide),
    hs.val (key := "clusters") (by decide)]
  congr 1
  funext data
  unfold dispatch processData processReduced processUpscale
  rw [hs.val (key := "upscale") (by decide), hs.val (key := "pipeline") (by decide),
    hs.val (key := "mode") (by decide)]
  simp only [preprocess_same hs, show runPipelineOut sys.io (runStages sys.lib
    ⟨sys.atof ((setPipeline m').val "epsilon"), sys.atoi ((setPipeline m').val "dimensions"),
      (setPipeline m').val "collapse"⟩) (setPipeline m) = runPipelineOut sys.io (runStages sys.lib
    ⟨sys.atof ((setPipeline m').val "epsilon"), sys.atoi ((setPipeline m').val "dimensions"),
      (setPipeline m').val "collapse"⟩) (setPipeline m') from funext (pipelineOut_same hs _ _)]

theorem debug_eq {K W : Type} [LinearOrder W] (sys : System K W) (pairs : List (String × String)) (m : ArgMap)
    (hm : parseArgs (commandLine pairs) = .ok m) :
    debugFiles sys (setPipeline m) = decide (sys.atoi ((setPipeline m).val "debug") ≠ 0) := by
  have hs := setPipeline_isSome m "debug" (parse_isSome pairs m hm ("debug", "x", "0") (by decide))
  unfold debugFiles ArgMap.val
  obtain ⟨v, hv⟩ := Option.isSome_iff_exists.1 hs
  rw [hv]
  rfl

/-- C102: with the log, the statistics and (if `debug` is on) the debug files, the program ends exactly when it
ends without them, and with the same results: for every command line if `debug` is off, and for every
mode with the four default stages, without `collapse`, if it is on. (Missing: `debug` with other pipelines and
with `collapse`.) -/
theorem C102_recording_partial {K W : Type} [LinearOrder W] [Ring W] (sys : System K W) (env : Surround K W)
    (pairs : List (String × String)) (m : ArgMap) (hm : parseArgs (commandLine pairs) = .ok m)
    (h : sys.atoi ((setPipeline m).val "debug") = 0 ∨
      ((setPipeline m).val "pipeline" = pipelineOf fastStages ∧
        (setPipeline m).val "collapse" ≠ "true" ∧ (setPipeline m).val "collapse" ≠ "1")) :
    SameRes (fun x w => x.1 = w) (mainEffects sys env (commandLine pairs))
      (mainProgram sys (commandLine pairs)) := by
  refine main_proj sys env _ m hm ?_
  intro q
  by_cases hd : debugFiles sys (setPipeline m) = false
  · rw [hd]
    refine pipeline_proj ?_ _ _
    intro k x
    exact stage_off env sys.io sys.lib (setPipeline m) _ k x
  · have hd' := hd
    rw [debug_eq sys pairs m hm] at hd'
    rw [Bool.not_eq_false] at hd
    rw [hd]
    rcases h with h | ⟨h1, h2⟩
    · exact absurd (by simp [h]) hd'
    · have hsome : ∀ o ∈ options, ((setPipeline m) o.1).isSome :=
        fun o ho => setPipeline_isSome m _ (parse_isSome pairs m hm o ho)
      exact pipeline_on env sys.io sys.lib (setPipeline m) _ h2 hsome
        (some_of_val (hsome ("pipeline", "p", "") (by decide)) h1) q

/-- C102: switching `debug` on or off changes nothing in the results: two command lines that differ at most in
`debug` (the four default stages, no `collapse`; the preprocessor not depending on `debug`) end in the same
way. -/
theorem C102_debug_option_partial {K W : Type} [LinearOrder W] [Ring W] (sys : System K W)
    (env env' : Surround K W) (pairs pairs' : List (String × String)) (m m' : ArgMap)
    (hm : parseArgs (commandLine pairs) = .ok m) (hm' : parseArgs (commandLine pairs') = .ok m')
    (hsame : SameButDebug m m') (hpre : sys.pre (setPipeline m) = sys.pre (setPipeline m'))
    (hp : (setPipeline m).val "pipeline" = pipelineOf fastStages)
    (hc : (setPipeline m).val "collapse" ≠ "true" ∧ (setPipeline m).val "collapse" ≠ "1") :
    SameRes (fun x x' => x.1 = x'.1) (mainEffects sys env (commandLine pairs))
      (mainEffects sys env' (commandLine pairs')) := by
  have h1 := C102_recording_partial sys env pairs m hm (Or.inr ⟨hp, hc⟩)
  have hs := hsame.pipeline
  have h2 := C102_recording_partial sys env' pairs' m' hm' (Or.inr ⟨by
    rw [← hs.val (by decide)]; exact hp, by
    rw [← hs.val (by decide)]; exact hc⟩)
  rw [program_same sys _ _ m m' hm hm' hsame hpre] at h1
  cases hP : mainProgram sys (commandLine pairs') with
  | error e =>
    rw [hP] at h1 h2
    rw [h1.error_of rfl, h2.error_of rfl]
    rfl
  | ok w =>
    rw [hP] at h1 h2
    obtain ⟨x, e1, r1⟩ := h1.of_ok rfl
    obtain ⟨x', e2, r2⟩ := h2.of_ok rfl
    rw [e1, e2]
    exact r1.trans r2.symm

/-- C102: at the end of a run the barcode file has the lines of the barcode and nothing else, whatever was
logged and written for debugging on the way. -/
theorem C102_barcode_file_partial (sys : System ℝ ℝ) (env : Surround ℝ ℝ) (pairs : List (String × String))
    (m : ArgMap) (ct f : String) (data : List (List ℝ))
    (hct : ct ∈ ["simplexArrayList", "simplexTree", "indSimplexTree"])
    (h : StandardCommand sys pairs m ct f data) (kind : Option PreKind) (pts : List (List ℝ))
    (labels : List Nat) (hpts : PointsOf sys m data pts labels kind)
    (hdebug : sys.atoi (m.val "debug") = 0 ∨
      (m.val "collapse" ≠ "true" ∧ m.val "collapse" ≠ "1"))
    (y : World (List ℝ) ℝ × Effects) (hy : mainEffects sys env (commandLine pairs) = .ok y) :
    ∃ lines w, mainProgram sys (commandLine pairs) = .ok w ∧
      WritesBarcodeAfter (preStats kind) sys.io f lines w ∧
      ∀ opens before, opens (f ++ ".csv") = true →
        contentAfter opens (f ++ ".csv") before y.2.writes = some (barcodeContent sys.io lines) := by
  obtain ⟨z, h1, h2, h3, h4, h5⟩ := main_effects_points hct h hpts y hy
  have hmode : (setPipeline m).val "pipeline" = pipelineOf fastStages ∧
      (setPipeline m).val "collapse" = m.val "collapse" ∧
      (setPipeline m).val "debug" = m.val "debug" := by
    rcases h.mode with hmode | ⟨hmode, -⟩
    · obtain ⟨q1, -, -, -, q5⟩ := C38_mode_selection m h.mpi h.pipeline
        ⟨"standard", fastStages, .keep, .keep, .keep⟩ (by simp [modes]) hmode
      exact ⟨q1, q5 _ (by decide), q5 _ (by decide)⟩
    · obtain ⟨q1, -, -, -, q5⟩ := C38_mode_selection m h.mpi h.pipeline
        ⟨"fast", fastStages, .keep, .force "simplexTree", .force "false"⟩ (by simp [modes]) hmode
      exact ⟨q1, q5 _ (by decide), q5 _ (by decide)⟩
  obtain ⟨w, hw, e⟩ := (C102_recording_partial sys env pairs m h.parsed (by
    rw [hmode.1, hmode.2.1, hmode.2.2]
    exact hdebug.imp id (fun h => ⟨rfl, h⟩))).ok_of hy
  refine ⟨z.1.bettiOutput, w, hw, ?_, ?_⟩
  · rw [← e]
    show _ = _
    rw [h5, barcodeText_eq]
    rfl
  · intro opens before ho
    rw [h4, show z.2.writes ++ [⟨f ++ "_stats.csv", .replace, statsText env z.2.rows⟩,
          ⟨f ++ ".csv", .replace, barcodeText sys.io z.1.bettiOutput⟩] = (z.2.writes ++
          [⟨f ++ "_stats.csv", .replace, statsText env z.2.rows⟩]) ++
          [⟨f ++ ".csv", .replace, barcodeText sys.io z.1.bettiOutput⟩] by simp,
      contentAfter_last ho (by simp), barcodeText_eq]

/-! ### C103 -/

/-- The file names that a run with output name `f` may write: `f` (the log, only at its end),
`f_stats.csv`, `f.csv`, and everything in the directory `output`. With "console" only the last. -/
def Spec.MayWrite (f : String) (w : FileWrite) : Prop :=
  (f ≠ "console" ∧ (w.name = f ∧ w.kind = .append ∨ w.name = f ++ "_stats.csv" ∨ w.name = f ++ ".csv")) ∨
    "output/".toList <+: w.name.toList

theorem pipeline_inv {D : Type} (I : D → Prop) {run : PipeKind → D → Res D}
    (hrun : ∀ k d d', run k d = .ok d' → I d → I d') {args : ArgMap} {p p' : Packet D}
    (h : runPipeline run args p = .ok p') (hp : I p.data) : I p'.data := by
  unfold runPipeline at h
  split at h
  · refine foldlM_inv (P := fun p => I p.data) hp ?_ h
    intro q name q' _ hq h'
    unfold runStage at h'
    split at h'
    · split at h'
      · unfold runPipeWrapper at h'
        split at h'
        · obtain ⟨d, h1, h2⟩ := bind_ok.1 h'
          split at h2
          · rw [pure_eq_ok] at h2
            cases h2
            exact hrun _ _ _ h1 hq
          · cases h2
        · rw [pure_eq_ok] at h'; cases h'; exact hq
      · rw [pure_eq_ok] at h'; cases h'; exact hq
    · rw [pure_eq_ok] at h'; cases h'; exact hq
  · rw [pure_eq_ok] at h; cases h; exact hp

theorem preprocess_inv {D : Type} (I : D → Prop) {pre : PreKind → D → Res D}
    (hpre : ∀ k d d', pre k d = .ok d' → I d → I d') {args : ArgMap} {p p' : Packet D}
    (h : preprocess pre args p = .ok p') (hp : I p.data) : I p'.data := by
  unfold preprocess at h
  split at h
  · split at h
    · split at h
      · unfold runPreprocessorWrapper at h
        split at h
        · obtain ⟨d, h1, h2⟩ := bind_ok.1 h
          rw [pure_eq_ok] at h2
          cases h2
          exact hpre _ _ _ h1 hp
        · rw [pure_eq_ok] at h; cases h; exact hp
      · rw [pure_eq_ok] at h; cases h; exact hp
    · rw [pure_eq_ok] at h; cases h; exact hp
  · rw [pure_eq_ok] at h; cases h; exact hp

section
variable {K W : Type} {f : String}

/-- Everything that was written may be written. -/
def AllMay (f : String) (e : Effects) : Prop := ∀ w ∈ e.writes, MayWrite f w

theorem allMay_append {e : Effects} {rows : List StatRow} {ws : List FileWrite} (h : AllMay f e)
    (hw : ∀ w ∈ ws, MayWrite f w) : AllMay f ⟨rows, e.writes ++ ws⟩ := by
  intro w hm
  rcases List.mem_append.1 hm with hm | hm
  · exact h w hm
  · exact hw w hm

theorem log_may {args : ArgMap} (hf : args.val "outputFile" = f) (text : List Char) :
    ∀ w ∈ logWrite args text, MayWrite f w := by
  intro w hw
  unfold logWrite at hw
  rw [hf] at hw
  split at hw
  · simp at hw
  · rename_i hc
    rw [List.mem_singleton] at hw
    subst hw
    exact Or.inl ⟨hc, Or.inl ⟨rfl, rfl⟩⟩

theorem output_prefix {name : String} (t : String) (h : name = "output/" ++ t) :
    "output/".toList <+: name.toList := by
  rw [h, String.toList_append]
  exact List.prefix_append _ _

theorem output_may [LinearOrder W] [Zero W] {env : Surround K W} {io : TextNum W} {lib : Lib K W}
    {args : ArgMap} (hrest : ∀ k w, ∀ v ∈ env.restFiles k w, "output/".toList <+: v.name.toList)
    {k : PipeKind} {w : Work (List K) W} {r : Work (List K) W × List FileWrite}
    (h : outputData env io lib args k w = .ok r) : ∀ v ∈ r.2, MayWrite f v := by
  intro v hv
  right
  unfold outputData at h
  split at h
  · rw [pure_eq_ok] at h; cases h
    rw [List.mem_singleton] at hv; subst hv; dsimp only; decide
  · obtain ⟨t, -, h⟩ := bind_ok.1 h
    rw [pure_eq_ok] at h; cases h
    rw [List.mem_singleton] at hv; subst hv; dsimp only; decide
  · rw [pure_eq_ok] at h; cases h
    rw [List.mem_singleton] at hv; subst hv; dsimp only; decide
  · obtain ⟨t, -, h⟩ := bind_ok.1 h
    rw [pure_eq_ok] at h; cases h
    rw [List.mem_singleton] at hv; subst hv; dsimp only; decide
  · rw [pure_eq_ok] at h; cases h
    rw [List.mem_singleton] at hv; subst hv; dsimp only; decide
  · rw [pure_eq_ok] at h; cases h
    simp at hv
  · rw [pure_eq_ok] at h; cases h
    simp only [List.mem_cons, List.not_mem_nil, or_false] at hv
    rcases hv with rfl | rfl
    · dsimp only
      rw [String.toList_append, String.toList_append, List.append_assoc]
      exact List.IsPrefix.trans (by decide) (List.prefix_append _ _)
    · dsimp only; decide
  · rw [pure_eq_ok] at h; cases h
    exact hrest _ _ v hv

theorem stage_may [LinearOrder W] [Zero W] {env : Surround K W} {io : TextNum W} {lib : Lib K W}
    {args : ArgMap} (hrest : ∀ k w, ∀ v ∈ env.restFiles k w, "output/".toList <+: v.name.toList)
    (hf : args.val "outputFile" = f) {debug : Bool}
    {run : PipeKind → Work (List K) W → Res (Work (List K) W)} (k : PipeKind)
    (d d' : Work (List K) W × Effects) (h : stageWithEffects env io lib args debug run k d = .ok d')
    (hd : AllMay f d.2) : AllMay f d'.2 := by
  unfold stageWithEffects at h
  obtain ⟨w, -, h⟩ := bind_ok.1 h
  dsimp only at h
  obtain ⟨v, -, h⟩ := bind_ok.1 h
  have h1 := allMay_append (rows := d.2.rows ++ [.stage (pipeType k) (packetSize env w) v w.complex.simplexCount])
    hd (log_may hf (env.messages k args ++ stageLog env d.2.rows.length (pipeType k) (packetSize env w)))
  cases debug
  · simp only [Bool.false_eq_true, if_false] at h
    rw [pure_eq_ok] at h
    cases h
    exact h1
  · simp only [if_true] at h
    obtain ⟨r, hr, h⟩ := bind_ok.1 h
    rw [pure_eq_ok] at h
    cases h
    exact allMay_append h1 (output_may hrest hr)

theorem pre_may {env : Surround K W} {inIO : TextNum K} {io : TextNum W}
    {args : ArgMap} (hf : args.val "outputFile" = f)
    {pre : PreKind → Work (List K) W → Res (Work (List K) W)} (k : PreKind)
    (d d' : Work (List K) W × Effects) (h : preWithEffects env inIO io args pre k d = .ok d')
    (hd : AllMay f d.2) : AllMay f d'.2 := by
  unfold preWithEffects at h
  obtain ⟨w, -, h⟩ := bind_ok.1 h
  rw [pure_eq_ok] at h
  cases h
  have h1 := allMay_append (rows := d.2.rows) hd (log_may hf (env.preMessages k args))
  refine allMay_append (e := ⟨d.2.rows, d.2.writes ++ logWrite args (env.preMessages k args)⟩) h1 ?_
  intro v hv
  right
  unfold preFiles at hv
  simp only [List.mem_cons, List.not_mem_nil, or_false] at hv
  rcases hv with rfl | rfl
  · dsimp only
    rw [String.toList_append, String.toList_append, List.append_assoc]
    exact List.prefix_append _ _
  · dsimp only
    rw [String.toList_append, String.toList_append, List.append_assoc]
    exact List.prefix_append _ _

theorem run_may {env : Surround K W} {io : TextNum W} {args : ArgMap}
    (hf : args.val "outputFile" = f)
    {stages : PipeKind → Work (List K) W × Effects → Res (Work (List K) W × Effects)}
    (hst : ∀ k d d', stages k d = .ok d' → AllMay f d.2 → AllMay f d'.2)
    (x x' : World (List K) W × Effects) (h : runPipelineEff env io stages args x = .ok x')
    (hx : AllMay f x.2) : AllMay f x'.2 := by
  unfold runPipelineEff at h
  split at h
  · obtain ⟨p, h1, h2⟩ := bind_ok.1 h
    rw [pure_eq_ok] at h2
    cases h2
    have := pipeline_inv (fun d => AllMay f d.2) hst h1 (by exact hx)
    refine allMay_append this ?_
    intro w hw
    unfold pipelineWrites at hw
    split at hw
    · rename_i g hg
      have : g = f := by rw [← hf]; unfold ArgMap.val; rw [hg]; rfl
      subst this
      split at hw
      · simp at hw
      · rename_i hc
        simp only [List.mem_cons, List.not_mem_nil, or_false] at hw
        rcases hw with rfl | rfl
        · exact Or.inl ⟨hc, Or.inr (Or.inl rfl)⟩
        · exact Or.inl ⟨hc, Or.inr (Or.inr rfl)⟩
    · simp at hw
  · rw [pure_eq_ok] at h; cases h; exact hx

theorem reduced_may [LinearOrder W] [AddMonoid W] {strict : Bool} {dist : List K → List K → Res W}
    {runOne : World (List K) W × Effects → Res (World (List K) W × Effects)}
    (hrun : ∀ x x', runOne x = .ok x' → AllMay f x.2 → AllMay f x'.2)
    (x : World (List K) W × Effects) (r : (World (List K) W × Effects) × List (BettiEntry W))
    (h : reducedRunsEff strict dist runOne x = .ok r) (hx : AllMay f x.2) : AllMay f r.1.2 := by
  unfold reducedRunsEff at h
  dsimp only at h
  obtain ⟨_, -, h⟩ := bind_ok.1 h
  obtain ⟨parts, -, h⟩ := bind_ok.1 h
  obtain ⟨st, hst, h⟩ := bind_ok.1 h
  have h1 : AllMay f st.1.2 := by
    refine foldlM_inv (P := fun st => AllMay f st.1.2) hx ?_ hst
    intro s z s' _ hs h'
    unfold reducedStepEff at h'
    obtain ⟨p, -, h'⟩ := bind_ok.1 h'
    split at h'
    · obtain ⟨y, hy, h'⟩ := bind_ok.1 h'
      obtain ⟨_, -, h'⟩ := bind_ok.1 h'
      obtain ⟨_, -, h'⟩ := bind_ok.1 h'
      obtain ⟨_, -, h'⟩ := bind_ok.1 h'
      dsimp only at h'
      rw [pure_eq_ok] at h'
      cases h'
      exact hrun _ y hy hs
    · rw [pure_eq_ok] at h'; cases h'; exact hs
  split at h
  · obtain ⟨y, hy, h⟩ := bind_ok.1 h
    obtain ⟨_, -, h⟩ := bind_ok.1 h
    rw [pure_eq_ok] at h
    cases h
    exact hrun _ y hy h1
  · rw [pure_eq_ok] at h; cases h; exact h1

theorem main_may [LinearOrder W] [Ring W] (sys : System K W) (env : Surround K W) (argv : List String)
    (m : ArgMap) (hm : parseArgs argv = .ok m)
    (hrest : ∀ k w, ∀ v ∈ env.restFiles k w, "output/".toList <+: v.name.toList)
    (y : World (List K) W × Effects) (hy : mainEffects sys env argv = .ok y) :
    ∀ w ∈ y.2.writes, MayWrite ((setPipeline m).val "outputFile") w := by
  unfold mainEffects at hy
  rw [hm, ok_bind] at hy
  dsimp only at hy
  obtain ⟨data, -, hy⟩ := bind_ok.1 hy
  have h0 : AllMay ((setPipeline m).val "outputFile") ⟨[], []⟩ := by intro w hw; cases hw
  have hrun := run_may (f := (setPipeline m).val "outputFile") (env := env) (io := sys.io) rfl
    (stages := stageWithEffects env sys.io sys.lib (setPipeline m) (debugFiles sys (setPipeline m))
      (runStages sys.lib ⟨sys.atof ((setPipeline m).val "epsilon"), sys.atoi ((setPipeline m).val "dimensions"),
        (setPipeline m).val "collapse"⟩)) (fun k d d' => stage_may hrest rfl k d d')
  have hp := fun p p' (h : preprocess (preWithEffects env sys.inIO sys.io (setPipeline m)
      (sys.pre (setPipeline m))) (setPipeline m) p = .ok p') => preprocess_inv
    (fun d : Work (List K) W × Effects => AllMay ((setPipeline m).val "outputFile") d.2)
    (fun k d d' => pre_may rfl k d d') h
  unfold dispatchEff at hy
  split at hy
  · split at hy
    · unfold processUpscaleEff at hy
      obtain ⟨p, h1, hy⟩ := bind_ok.1 hy
      obtain ⟨_, -, hy⟩ := bind_ok.1 hy
      rw [pure_eq_ok] at hy
      cases hy
      exact hp _ _ h1 (by exact h0)
    · split at hy
      · unfold processReducedEff at hy
        obtain ⟨p, h1, hy⟩ := bind_ok.1 hy
        obtain ⟨r, h2, hy⟩ := bind_ok.1 hy
        rw [pure_eq_ok] at hy
        cases hy
        exact reduced_may hrun _ _ h2 (by exact hp _ _ h1 (by exact h0))
      · unfold processDataEff at hy
        obtain ⟨p, h1, hy⟩ := bind_ok.1 hy
        exact hrun _ _ hy (by exact hp _ _ h1 (by exact h0))
  · rw [pure_eq_ok] at hy
    cases hy
    exact h0

end

/-- C103: for every command line, a run changes no file except `f_stats.csv`, `f.csv`, `f` and files in the
directory `output`, `f` being its output name (the stages that are not modelled writing only into that
directory, as they do). -/
theorem C103_other_files_partial {K W : Type} [LinearOrder W] [Ring W] (sys : System K W) (env : Surround K W)
    (argv : List String) (m : ArgMap) (hm : parseArgs argv = .ok m)
    (hrest : ∀ k w, ∀ v ∈ env.restFiles k w, "output/".toList <+: v.name.toList)
    (y : World (List K) W × Effects) (hy : mainEffects sys env argv = .ok y) (f : String)
    (hf : (setPipeline m).val "outputFile" = f) (name : String)
    (h1 : name ∉ [f, f ++ "_stats.csv", f ++ ".csv"]) (h2 : ¬ "output/".toList <+: name.toList)
    (opens : String → Bool) (before : Option (List Char)) :
    contentAfter opens name before y.2.writes = before := by
  apply contentAfter_other
  intro w hw he
  simp only [List.mem_cons, List.not_mem_nil, or_false, not_or] at h1
  have := main_may sys env argv m hm hrest y hy w hw
  rw [hf] at this
  subst he
  rcases this with ⟨-, ⟨h, -⟩ | h | h⟩ | h
  · exact h1.1 h
  · exact h1.2.1 h
  · exact h1.2.2 h
  · exact h2 h

/-- With "console" nothing is written outside of the directory `output`. -/
theorem C103_console {K W : Type} [LinearOrder W] [Ring W] (sys : System K W) (env : Surround K W)
    (argv : List String) (m : ArgMap) (hm : parseArgs argv = .ok m)
    (hrest : ∀ k w, ∀ v ∈ env.restFiles k w, "output/".toList <+: v.name.toList)
    (y : World (List K) W × Effects) (hy : mainEffects sys env argv = .ok y)
    (hf : (setPipeline m).val "outputFile" = "console") (name : String)
    (h2 : ¬ "output/".toList <+: name.toList) (opens : String → Bool) (before : Option (List Char)) :
    contentAfter opens name before y.2.writes = before := by
  apply contentAfter_other
  intro w hw he
  have := main_may sys env argv m hm hrest y hy w hw
  rw [hf] at this
  subst he
  rcases this with ⟨h, -⟩ | h
  · exact h rfl
  · exact h2 h

theorem contentAfter_appends {opens : String → Bool} {name : String} (ho : opens name = true)
    {a : List FileWrite} (h : ∀ w ∈ a, w.name = name → w.kind = .append) (c : List Char) :
    contentAfter opens name (some c) a =
      some (c ++ ((a.filter (fun w => w.name = name)).map FileWrite.text).flatten) := by
  induction a generalizing c with
  | nil => simp [contentAfter]
  | cons w a ih =>
    have ih := ih (fun v hv => h v (by simp [hv]))
    unfold contentAfter
    by_cases hn : w.name = name
    · rw [if_pos ⟨hn, ho⟩, h w (by simp) hn]
      dsimp only
      rw [Option.getD_some, ih, List.filter_cons_of_pos (by simpa using hn), List.map_cons,
        List.flatten_cons, List.append_assoc]
    · rw [if_neg (fun h' => hn h'.1), ih, List.filter_cons_of_neg (by simpa using hn)]

/-- C103: the log only grows: what was in the file `f` before the run is still there, at its start. -/
theorem C103_log_grows {K W : Type} [LinearOrder W] [Ring W] (sys : System K W) (env : Surround K W)
    (argv : List String) (m : ArgMap) (hm : parseArgs argv = .ok m)
    (hrest : ∀ k w, ∀ v ∈ env.restFiles k w, "output/".toList <+: v.name.toList)
    (y : World (List K) W × Effects) (hy : mainEffects sys env argv = .ok y) (f : String)
    (hf : (setPipeline m).val "outputFile" = f) (h2 : ¬ "output/".toList <+: f.toList)
    (opens : String → Bool) (ho : opens f = true) (c : List Char) :
    contentAfter opens f (some c) y.2.writes =
      some (c ++ ((y.2.writes.filter (fun w => w.name = f)).map FileWrite.text).flatten) := by
  refine contentAfter_appends ho ?_ c
  intro w hw he
  have := main_may sys env argv m hm hrest y hy w hw
  rw [hf] at this
  rcases this with ⟨-, ⟨-, h⟩ | h | h⟩ | h
  · exact h
  · exact absurd (h.symm.trans he) (name_ne_self (by decide))
  · exact absurd (h.symm.trans he) (name_ne_self (by decide))
  · exact absurd (he ▸ h) h2

/-- C103 fails: two runs with different output names do not keep out of each other's way. After a run with
output name `g`, a run with output name `g.csv` appends its log to the barcode file of the first run. -/
theorem C103_separate_outputs_violated (sys sys' : System ℝ ℝ) (env env' : Surround ℝ ℝ)
    (pairs pairs' : List (String × String)) (m m' : ArgMap) (g : String) (data data' : List (List ℝ))
    (h : StandardCommand sys pairs m "simplexTree" g data)
    (h' : StandardCommand sys' pairs' m' "simplexTree" (g ++ ".csv") data')
    (kind kind' : Option PreKind) (pts pts' : List (List ℝ)) (labels labels' : List Nat)
    (hpts : PointsOf sys m data pts labels kind) (hpts' : PointsOf sys' m' data' pts' labels' kind')
    (hdist' : sys'.lib.dist = vectorsDistance) (k : Nat) (hk : 0 < k) (hdim : ∀ p ∈ pts', p.length = k)
    (hrest : ∀ k w, ∀ v ∈ env'.restFiles k w, "output/".toList <+: v.name.toList)
    (hout : ¬ "output/".toList <+: (g ++ ".csv").toList)
    (y y' : World (List ℝ) ℝ × Effects) (hy : mainEffects sys env (commandLine pairs) = .ok y)
    (hy' : mainEffects sys' env' (commandLine pairs') = .ok y')
    (opens : String → Bool) (ho : opens (g ++ ".csv") = true) (before : Option (List Char)) :
    ∃ barcode log, log ≠ [] ∧
      contentAfter opens (g ++ ".csv") before y.2.writes = some barcode ∧
      contentAfter opens (g ++ ".csv") before (y.2.writes ++ y'.2.writes) = some (barcode ++ log) := by
  obtain ⟨z, -, -, -, h4, -⟩ := main_effects_points (by decide) h hpts y hy
  obtain ⟨z', e1, -, -, e4, -⟩ := main_effects_points (by decide) h' hpts' y' hy'
  obtain ⟨n', N', L, -, -, -, -, h5⟩ := tree_effects hdist' _ [] rfl rfl rfl k hk hdim z' e1
  have hfile : (setPipeline m').val "outputFile" = g ++ ".csv" := by
    rcases h'.mode with hmode | ⟨hmode, -⟩
    · rw [(C38_mode_selection m' h'.mpi h'.pipeline
        ⟨"standard", fastStages, .keep, .keep, .keep⟩ (by simp [modes]) hmode).2.2.2.2 _ (by decide), h'.output]
    · rw [(C38_mode_selection m' h'.mpi h'.pipeline
        ⟨"fast", fastStages, .keep, .force "simplexTree", .force "false"⟩ (by simp [modes])
        hmode).2.2.2.2 _ (by decide), h'.output]
  have hb : contentAfter opens (g ++ ".csv") before y.2.writes =
      some (barcodeText sys.io z.1.bettiOutput) := by
    rw [h4, show z.2.writes ++ [⟨g ++ "_stats.csv", .replace, statsText env z.2.rows⟩,
          ⟨g ++ ".csv", .replace, barcodeText sys.io z.1.bettiOutput⟩] = (z.2.writes ++
          [⟨g ++ "_stats.csv", .replace, statsText env z.2.rows⟩]) ++
          [⟨g ++ ".csv", .replace, barcodeText sys.io z.1.bettiOutput⟩] by simp,
      contentAfter_last ho (by simp)]
  refine ⟨barcodeText sys.io z.1.bettiOutput,
    ((y'.2.writes.filter (fun w => w.name = g ++ ".csv")).map FileWrite.text).flatten, ?_, hb, ?_⟩
  · have hmem : ∃ t, t ≠ [] ∧ (⟨g ++ ".csv", .append, t⟩ : FileWrite) ∈ y'.2.writes := by
      refine ⟨env'.messages .distMatrix (setPipeline m') ++ stageLog env' (preRows kind').length "DistMatrix"
        (8 * (n' * k)), ?_, ?_⟩
      · unfold stageLog logLine
        simp
      · rw [e4, h5]
        unfold fourWrites stageWrites logWrite
        rw [hfile]
        simp [h'.console]
    obtain ⟨t, ht, hm⟩ := hmem
    intro hnil
    rw [List.flatten_eq_nil_iff] at hnil
    exact ht (hnil t (List.mem_map.2 ⟨_, List.mem_filter.2 ⟨hm, by simp⟩, rfl⟩))
  · rw [contentAfter_append, hb]
    exact C103_log_grows sys' env' _ m' h'.parsed hrest y' hy' _ hfile hout opens ho _

/-! ### C104 -/

theorem contentAfter_unique {opens : String → Bool} {name : String} (ho : opens name = true)
    {text : List Char} {a : List FileWrite} (h : ∀ w ∈ a, w.name = name → w = ⟨name, .replace, text⟩)
    (hm : (⟨name, .replace, text⟩ : FileWrite) ∈ a) (before : Option (List Char)) :
    contentAfter opens name before a = some text := by
  have key : ∀ (a : List FileWrite), (∀ w ∈ a, w.name = name → w = ⟨name, .replace, text⟩) →
      contentAfter opens name (some text) a = some text := by
    intro a
    induction a with
    | nil => intro _; rfl
    | cons w a ih =>
      intro h
      unfold contentAfter
      by_cases hn : w.name = name
      · rw [if_pos ⟨hn, ho⟩, h w (by simp) hn]
        exact ih (fun v hv => h v (by simp [hv]))
      · rw [if_neg (fun h' => hn h'.1)]
        exact ih (fun v hv => h v (by simp [hv]))
  induction a generalizing before with
  | nil => simp at hm
  | cons w a ih =>
    unfold contentAfter
    by_cases hn : w.name = name
    · rw [if_pos ⟨hn, ho⟩, h w (by simp) hn]
      exact key a (fun v hv => h v (by simp [hv]))
    · rw [if_neg (fun h' => hn h'.1)]
      refine ih (fun v hv => h v (by simp [hv])) ?_ _
      rcases List.mem_cons.1 hm with hm | hm
      · exact absurd (hm ▸ rfl) hn
      · exact hm

/-- The output name does not lead into the directory `output`. -/
def Spec.Outside (f : String) : Prop :=
  ∀ s ∈ ["", "_stats.csv", ".csv"], ¬ "output/".toList <+: (f ++ s).toList

/-- The directory `output` exists and all files in it can be opened. -/
def Spec.OutputOpens (opens : String → Bool) : Prop :=
  ∀ name : String, "output/".toList <+: name.toList → opens name = true

theorem take_ne {a b : String} (n : Nat) (h : a.toList.take n ≠ b.toList.take n) : a ≠ b := by
  rintro rfl; exact h rfl

theorem betti_take (fn : String) : ("output/FastPersistence_bettis_output" ++ fn ++ ".csv").toList.take 8 =
    "output/F".toList := by
  rw [String.toList_append, String.toList_append, List.append_assoc,
    List.take_append_of_le_length (by decide)]
  decide

/-- What is written in a run with `debug` on, apart from the log: only files outside of `output` are left
out. -/
theorem debug_member {env : Surround ℝ ℝ} {args : ArgMap} {i points cell N1 N2 N3 : Nat}
    {f1 f2 f3 f4 : List FileWrite} {f : String} (hf : args.val "outputFile" = f)
    {w : FileWrite} (hw : w ∈ fourWrites env args true i points cell N1 N2 N3 f1 f2 f3 f4)
    (hn : w.name ≠ f) : w ∈ f1 ++ f2 ++ f3 ++ f4 := by
  have hl : ∀ t, w ∉ logWrite args t := by
    intro t h
    unfold logWrite at h
    rw [hf] at h
    split at h
    · simp at h
    · rw [List.mem_singleton] at h
      subst h
      exact hn rfl
  unfold fourWrites stageWrites at hw
  simp only [List.mem_append, if_true, hl, false_or] at hw ⊢
  exact hw

section
variable {sys : System ℝ ℝ} {env : Surround ℝ ℝ} {pairs : List (String × String)} {m : ArgMap}
  {ct f : String} {data : List (List ℝ)} {kind : Option PreKind} {pts : List (List ℝ)} {labels : List Nat}

theorem output_name (h : StandardCommand sys pairs m ct f data) :
    (setPipeline m).val "outputFile" = f := by
  rcases h.mode with hmode | ⟨hmode, -⟩
  · rw [(C38_mode_selection m h.mpi h.pipeline
      ⟨"standard", fastStages, .keep, .keep, .keep⟩ (by simp [modes]) hmode).2.2.2.2 _ (by decide), h.output]
  · rw [(C38_mode_selection m h.mpi h.pipeline
      ⟨"fast", fastStages, .keep, .force "simplexTree", .force "false"⟩ (by simp [modes])
      hmode).2.2.2.2 _ (by decide), h.output]

theorem debug_on (h : StandardCommand sys pairs m ct f data) (hd : sys.atoi (m.val "debug") ≠ 0) :
    debugFiles sys (setPipeline m) = true := by
  rw [debug_eq sys pairs m h.parsed]
  have : (setPipeline m).val "debug" = m.val "debug" := by
    rcases h.mode with hmode | ⟨hmode, -⟩
    · rw [(C38_mode_selection m h.mpi h.pipeline
        ⟨"standard", fastStages, .keep, .keep, .keep⟩ (by simp [modes]) hmode).2.2.2.2 _ (by decide)]
    · rw [(C38_mode_selection m h.mpi h.pipeline
        ⟨"fast", fastStages, .keep, .force "simplexTree", .force "false"⟩ (by simp [modes])
        hmode).2.2.2.2 _ (by decide)]
  rw [this]
  simpa using hd

/-- The content of a file of the directory `output` that is written once. -/
theorem debug_content (hout : Outside f) {opens : String → Bool} (ho : OutputOpens opens)
    (hf : (setPipeline m).val "outputFile" = f) {pre ws : List FileWrite} {st bt : List Char}
    {i points cell N1 N2 N3 : Nat} {f1 f2 f3 f4 : List FileWrite}
    (hw : ws = preLog env (setPipeline m) kind ++ pre ++
      fourWrites env (setPipeline m) true i points cell N1 N2 N3 f1 f2 f3 f4 ++
      [⟨f ++ "_stats.csv", .replace, st⟩, ⟨f ++ ".csv", .replace, bt⟩])
    {name : String} (hname : "output/".toList <+: name.toList) {text : List Char}
    (hm : (⟨name, .replace, text⟩ : FileWrite) ∈ pre ++ (f1 ++ f2 ++ f3 ++ f4))
    (hu : ∀ w ∈ pre ++ (f1 ++ f2 ++ f3 ++ f4), w.name = name → w = ⟨name, .replace, text⟩)
    (before : Option (List Char)) :
    contentAfter opens name before ws = some text := by
  have hne : ∀ s ∈ ["", "_stats.csv", ".csv"], name ≠ f ++ s := by
    rintro s hs rfl
    exact hout s hs hname
  have hnf : name ≠ f := by simpa using hne "" (by simp)
  subst hw
  refine contentAfter_unique (ho name hname) ?_ ?_ before
  · intro w hw hn
    apply hu w ?_ hn
    simp only [List.mem_append, List.mem_cons, List.not_mem_nil, or_false] at hw
    rcases hw with ((hw | hw) | hw) | hw | hw
    · exfalso
      unfold preLog at hw
      split at hw
      · simp at hw
      · unfold logWrite at hw
        rw [hf] at hw
        split at hw
        · simp at hw
        · rw [List.mem_singleton] at hw
          subst hw
          exact hnf hn.symm
    · exact List.mem_append.2 (Or.inl hw)
    · exact List.mem_append.2 (Or.inr (debug_member hf hw (hn ▸ hnf)))
    · subst hw
      exact absurd hn.symm (hne _ (by simp))
    · subst hw
      exact absurd hn.symm (hne _ (by simp))
  · rcases List.mem_append.1 hm with h | h
    · simp [h]
    · unfold fourWrites stageWrites
      simp only [List.mem_append, if_true] at h ⊢
      tauto

theorem betti_text (io : TextNum ℝ) (args : ArgMap) (lines : List (Line ℝ)) :
    ∃ t, bettiFiles io args lines =
      [⟨"output/FastPersistence_bettis_output" ++ args.val "fn" ++ ".csv", .replace, t⟩,
        ⟨"output/tArray.csv", .replace, "ti,Dim,Marked,Birth,Death,Simplex\n".toList⟩] ∧
      barcodeContent io lines = "dimension,birth,death\n".toList ++ t := ⟨_, rfl, rfl⟩

theorem pre_take {inIO io : TextNum ℝ} {w : FileWrite} (hw : w ∈ preFilesOf inIO io pts labels kind) :
    w.kind = .replace ∧ "output/".toList <+: w.name.toList ∧ w.name.toList.take 8 ≠ "output/F".toList ∧
    w.name ≠ "output/DistMatrix_output.csv" ∧ w.name ≠ "output/neighGraph_output.csv" ∧
    w.name ≠ "output/ripsPipe_output.csv" ∧ w.name ≠ "output/tArray.csv" := by
  cases kind with
  | none => simp [preFilesOf] at hw
  | some kind =>
    simp only [preFilesOf, List.mem_cons, List.not_mem_nil, or_false] at hw
    rcases hw with rfl | rfl <;> cases kind <;> refine ⟨rfl, ?_⟩ <;> dsimp only <;> decide

theorem pre_once {inIO io : TextNum ℝ} {w w' : FileWrite} (hw : w ∈ preFilesOf inIO io pts labels kind)
    (hw' : w' ∈ preFilesOf inIO io pts labels kind) (h : w.name = w'.name) : w = w' := by
  cases kind with
  | none => simp [preFilesOf] at hw
  | some kind =>
    have : "output/" ++ preLabel kind ++ "_centroid_output.csv" ≠
        "output/" ++ preLabel kind ++ "_label_output.csv" := by cases kind <;> decide
    simp only [preFilesOf, List.mem_cons, List.not_mem_nil, or_false] at hw hw'
    rcases hw with rfl | rfl <;> rcases hw' with rfl | rfl
    · rfl
    · exact absurd h this
    · exact absurd h.symm this
    · rfl

/-- C104, `simplexTree`: with `debug` on, the file of the distance matrix has the distances, that of
`fastPersistence` the lines of the barcode, those of the preprocessor its points and labels. The file of
`neighGraph` lists not the edges but all simplices of the complex. -/
theorem C104_tree_files_partial (hdist : sys.lib.dist = vectorsDistance)
    (h : StandardCommand sys pairs m "simplexTree" f data) (hpts : PointsOf sys m data pts labels kind)
    (hdebug : sys.atoi (m.val "debug") ≠ 0) (hout : Outside f)
    (k : Nat) (hk : 0 < k) (hdim : ∀ p ∈ pts, p.length = k) (y : World (List ℝ) ℝ × Effects)
    (hy : mainEffects sys env (commandLine pairs) = .ok y)
    (opens : String → Bool) (ho : OutputOpens opens) (before : Option (List Char)) :
    ∃ lines t L, WritesBarcodeAfter (preStats kind) sys.io f lines y.1 ∧
      barcodeContent sys.io lines = "dimension,birth,death\n".toList ++ t ∧
      ListsSimplices L pts.length (rowDist k pts)
        (fun i j => rowDist k pts i j < sys.atof (m.val "epsilon")) 1 (max 1 (sys.atoi (m.val "dimensions")) + 1) ∧
      contentAfter opens "output/DistMatrix_output.csv" before y.2.writes =
          some (matrixFile env k pts).text ∧
        contentAfter opens "output/neighGraph_output.csv" before y.2.writes =
          some (simplexText env sys.io L ++ ['\n']) ∧
        contentAfter opens ("output/FastPersistence_bettis_output" ++ (setPipeline m).val "fn" ++ ".csv") before
          y.2.writes = some t ∧
        ∀ w ∈ preFilesOf sys.inIO sys.io pts labels kind,
          contentAfter opens w.name before y.2.writes = some w.text := by
  obtain ⟨z, h1, -, -, h4, h5⟩ := main_effects_points (by decide) h hpts y hy
  obtain ⟨n', N', L, rfl, -, hL, -, h6⟩ := tree_effects hdist _ [] rfl rfl rfl k hk hdim z h1
  obtain ⟨t, hbf, hbt⟩ := betti_text sys.io (setPipeline m) z.1.bettiOutput
  rw [debug_on h hdebug, hbf] at h6
  rw [h6] at h4
  have key := fun {name : String} (hn : "output/".toList <+: name.toList) {text : List Char} hm hu =>
    debug_content (text := text) hout ho (output_name h) h4 hn hm hu before
  have hF := betti_take ((setPipeline m).val "fn")
  refine ⟨z.1.bettiOutput, t, L, ?_, hbt, hL, ?_, ?_, ?_, ?_⟩
  · show _ = _
    rw [h5, barcodeText_eq]
    rfl
  · refine key (by decide) (by simp [matrixFile]) ?_
    intro w hw hn
    simp only [List.mem_append, List.mem_cons, List.not_mem_nil, or_false] at hw
    rcases hw with hw | ((rfl | rfl) | (rfl | rfl))
    · exact absurd hn (pre_take hw).2.2.2.1
    · rfl
    · exact absurd hn (by first | decide | (dsimp only; decide))
    · exact absurd hn (take_ne 8 (by rw [hF]; decide))
    · exact absurd hn (by first | decide | (dsimp only; decide))
  · refine key (by decide) (by simp [matrixFile]) ?_
    intro w hw hn
    simp only [List.mem_append, List.mem_cons, List.not_mem_nil, or_false] at hw
    rcases hw with hw | ((rfl | rfl) | (rfl | rfl))
    · exact absurd hn (pre_take hw).2.2.2.2.1
    · exact absurd hn (by unfold matrixFile; dsimp only; decide)
    · rfl
    · exact absurd hn (take_ne 8 (by rw [hF]; decide))
    · exact absurd hn (by first | decide | (dsimp only; decide))
  · refine key (List.IsPrefix.trans (by decide) (hF ▸ List.take_prefix 8 _)) (by simp) ?_
    intro w hw hn
    simp only [List.mem_append, List.mem_cons, List.not_mem_nil, or_false] at hw
    rcases hw with hw | ((rfl | rfl) | (rfl | rfl))
    · exact absurd (by rw [hn, hF]) (pre_take hw).2.2.1
    · exact absurd hn.symm (take_ne 8 (by rw [hF]; unfold matrixFile; dsimp only; decide))
    · exact absurd hn.symm (take_ne 8 (by rw [hF]; dsimp only; decide))
    · rfl
    · exact absurd hn.symm (take_ne 8 (by rw [hF]; dsimp only; decide))
  · intro v hv
    obtain ⟨v1, v2, v3, v4, v5, v6, v7⟩ := pre_take hv
    have hv' : v = ⟨v.name, .replace, v.text⟩ := by rw [← v1]
    refine key v2 (List.mem_append.2 (Or.inl (hv' ▸ hv))) ?_
    intro w hw hn
    simp only [List.mem_append, List.mem_cons, List.not_mem_nil, or_false] at hw
    rcases hw with hw | ((rfl | rfl) | (rfl | rfl))
    · rw [pre_once hw hv hn]; exact hv'
    · exact absurd hn.symm v4
    · exact absurd hn.symm v5
    · exact absurd (by rw [← hn]; exact hF) v3
    · exact absurd hn.symm v7

/-- C104, `simplexArrayList` (dimensions at least 1, no collapse): with `debug` on, the file of the distance
matrix has the distances, that of `neighGraph` exactly the edges, that of `rips` exactly the simplices with
at most dimensions + 1 vertices, that of `fastPersistence` the lines of the barcode, those of the
preprocessor its points and labels. -/
theorem C104_array_files_partial (hdist : sys.lib.dist = vectorsDistance)
    (h : StandardCommand sys pairs m "simplexArrayList" f data) (hpts : PointsOf sys m data pts labels kind)
    (hcol : m.val "collapse" ≠ "true" ∧ m.val "collapse" ≠ "1")
    (hd : 0 < sys.atoi (m.val "dimensions"))
    (hdebug : sys.atoi (m.val "debug") ≠ 0) (hout : Outside f)
    (k : Nat) (hk : 0 < k) (hdim : ∀ p ∈ pts, p.length = k) (y : World (List ℝ) ℝ × Effects)
    (hy : mainEffects sys env (commandLine pairs) = .ok y)
    (opens : String → Bool) (ho : OutputOpens opens) (before : Option (List Char)) :
    ∃ lines t L1 L2, WritesBarcodeAfter (preStats kind) sys.io f lines y.1 ∧
      barcodeContent sys.io lines = "dimension,birth,death\n".toList ++ t ∧
      ListsSimplices L1 pts.length (rowDist k pts)
        (fun i j => rowDist k pts i j ≤ sys.atof (m.val "epsilon")) 2 2 ∧
      ListsSimplices L2 pts.length (rowDist k pts)
        (fun i j => rowDist k pts i j ≤ sys.atof (m.val "epsilon")) 1 (sys.atoi (m.val "dimensions") + 1) ∧
      contentAfter opens "output/DistMatrix_output.csv" before y.2.writes =
          some (matrixFile env k pts).text ∧
        contentAfter opens "output/neighGraph_output.csv" before y.2.writes =
          some (simplexText env sys.io L1 ++ ['\n']) ∧
        contentAfter opens "output/ripsPipe_output.csv" before y.2.writes =
          some (simplexText env sys.io L2) ∧
        contentAfter opens ("output/FastPersistence_bettis_output" ++ (setPipeline m).val "fn" ++ ".csv") before
          y.2.writes = some t ∧
        ∀ w ∈ preFilesOf sys.inIO sys.io pts labels kind,
          contentAfter opens w.name before y.2.writes = some w.text := by
  obtain ⟨z, h1, -, -, h4, h5⟩ := main_effects_points (by decide) h hpts y hy
  obtain ⟨n', N1, N2, N3, L1, L2, rfl, -, -, -, hL1, hL2, -, h6⟩ :=
    array_effects hdist hd hcol _ [] rfl k hk hdim z h1
  obtain ⟨t, hbf, hbt⟩ := betti_text sys.io (setPipeline m) z.1.bettiOutput
  rw [debug_on h hdebug, hbf] at h6
  rw [h6] at h4
  have key := fun {name : String} (hn : "output/".toList <+: name.toList) {text : List Char} hm hu =>
    debug_content (text := text) hout ho (output_name h) h4 hn hm hu before
  have hF := betti_take ((setPipeline m).val "fn")
  refine ⟨z.1.bettiOutput, t, L1, L2, ?_, hbt, hL1, hL2, ?_, ?_, ?_, ?_, ?_⟩
  · show _ = _
    rw [h5, barcodeText_eq]
    rfl
  · refine key (by decide) (by simp [matrixFile]) ?_
    intro w hw hn
    simp only [List.mem_append, List.mem_cons, List.not_mem_nil, or_false] at hw
    rcases hw with hw | (((rfl | rfl) | rfl) | (rfl | rfl))
    · exact absurd hn (pre_take hw).2.2.2.1
    · rfl
    · exact absurd hn (by first | decide | (dsimp only; decide))
    · exact absurd hn (by first | decide | (dsimp only; decide))
    · exact absurd hn (take_ne 8 (by rw [hF]; decide))
    · exact absurd hn (by first | decide | (dsimp only; decide))
  · refine key (by decide) (by simp [matrixFile]) ?_
    intro w hw hn
    simp only [List.mem_append, List.mem_cons, List.not_mem_nil, or_false] at hw
    rcases hw with hw | (((rfl | rfl) | rfl) | (rfl | rfl))
    · exact absurd hn (pre_take hw).2.2.2.2.1
    · exact absurd hn (by unfold matrixFile; dsimp only; decide)
    · rfl
    · exact absurd hn (by first | decide | (dsimp only; decide))
    · exact absurd hn (take_ne 8 (by rw [hF]; decide))
    · exact absurd hn (by first | decide | (dsimp only; decide))
  · refine key (by decide) (by simp [matrixFile]) ?_
    intro w hw hn
    simp only [List.mem_append, List.mem_cons, List.not_mem_nil, or_false] at hw
    rcases hw with hw | (((rfl | rfl) | rfl) | (rfl | rfl))
    · exact absurd hn (pre_take hw).2.2.2.2.2.1
    · exact absurd hn (by unfold matrixFile; dsimp only; decide)
    · exact absurd hn (by first | decide | (dsimp only; decide))
    · rfl
    · exact absurd hn (take_ne 8 (by rw [hF]; decide))
    · exact absurd hn (by first | decide | (dsimp only; decide))
  · refine key (List.IsPrefix.trans (by decide) (hF ▸ List.take_prefix 8 _)) (by simp) ?_
    intro w hw hn
    simp only [List.mem_append, List.mem_cons, List.not_mem_nil, or_false] at hw
    rcases hw with hw | (((rfl | rfl) | rfl) | (rfl | rfl))
    · exact absurd (by rw [hn, hF]) (pre_take hw).2.2.1
    · exact absurd hn.symm (take_ne 8 (by rw [hF]; unfold matrixFile; dsimp only; decide))
    · exact absurd hn.symm (take_ne 8 (by rw [hF]; dsimp only; decide))
    · exact absurd hn.symm (take_ne 8 (by rw [hF]; dsimp only; decide))
    · rfl
    · exact absurd hn.symm (take_ne 8 (by rw [hF]; dsimp only; decide))
  · intro v hv
    obtain ⟨v1, v2, v3, v4, v5, v6, v7⟩ := pre_take hv
    have hv' : v = ⟨v.name, .replace, v.text⟩ := by rw [← v1]
    refine key v2 (List.mem_append.2 (Or.inl (hv' ▸ hv))) ?_
    intro w hw hn
    simp only [List.mem_append, List.mem_cons, List.not_mem_nil, or_false] at hw
    rcases hw with hw | (((rfl | rfl) | rfl) | (rfl | rfl))
    · rw [pre_once hw hv hn]; exact hv'
    · exact absurd hn.symm v4
    · exact absurd hn.symm v5
    · exact absurd hn.symm v6
    · exact absurd (by rw [← hn]; exact hF) v3
    · exact absurd hn.symm v7

/-- C104 fails on a `simplexTree`: the file of `neighGraph`, the neighbourhood graph, lists single vertices, and
with dimensions at least 2 triangles, if the complex has one. -/
theorem C104_graph_file_violated (hdist : sys.lib.dist = vectorsDistance)
    (h : StandardCommand sys pairs m "simplexTree" f data) (hpts : PointsOf sys m data pts labels kind)
    (hdebug : sys.atoi (m.val "debug") ≠ 0) (hout : Outside f)
    (k : Nat) (hk : 0 < k) (hdim : ∀ p ∈ pts, p.length = k) (hne : pts ≠ [])
    (y : World (List ℝ) ℝ × Effects) (hy : mainEffects sys env (commandLine pairs) = .ok y)
    (opens : String → Bool) (ho : OutputOpens opens) (before : Option (List Char)) :
    ∃ L, contentAfter opens "output/neighGraph_output.csv" before y.2.writes =
        some (simplexText env sys.io L ++ ['\n']) ∧ ([0], 0) ∈ L ∧
      ∀ a b c, a < b → b < c → c < pts.length → 2 ≤ sys.atoi (m.val "dimensions") →
        rowDist k pts a b < sys.atof (m.val "epsilon") → rowDist k pts a c < sys.atof (m.val "epsilon") →
        rowDist k pts b c < sys.atof (m.val "epsilon") → ∃ w, ([a, b, c], w) ∈ L := by
  obtain ⟨lines, t, L, -, -, hL, -, h2, -⟩ :=
    C104_tree_files_partial hdist h hpts hdebug hout k hk hdim y hy opens ho before
  refine ⟨L, h2, (hL.exact _ _).2 ⟨⟨by simp, by simp, by simpa using List.length_pos_of_ne_nil hne, by simp⟩,
    by simp, by simp, by simp [diam]⟩, ?_⟩
  intro a b c hab hbc hc hd e1 e2 e3
  refine ⟨_, (hL.exact _ _).2 ⟨⟨by simp, ?_, ?_, ?_⟩, by simp, ?_, rfl⟩⟩
  · simp; omega
  · simp; omega
  · intro i hi j hj hij
    simp only [List.mem_cons, List.not_mem_nil, or_false] at hi hj
    rcases hi with rfl | rfl | rfl <;> rcases hj with rfl | rfl | rfl
      <;> first | exact e1 | exact e2 | exact e3 | omega
  · simp; omega

/-- The hypotheses of C101, C102, C104 are met: three points on a line, `debug` on. -/
theorem side_example (env : Surround ℝ ℝ) : ∃ (sys : System ℝ ℝ) (m : ArgMap) (y : World (List ℝ) ℝ × Effects),
    sys.lib.dist = vectorsDistance ∧
    StandardCommand sys [("-i", "data.csv"), ("-o", "bars"), ("-x", "1")]
      m "simplexTree" "bars" [[((0 : Nat) : ℝ)], [((2 : Nat) : ℝ)], [((9 : Nat) : ℝ)]] ∧
    PointsOf sys m [[((0 : Nat) : ℝ)], [((2 : Nat) : ℝ)], [((9 : Nat) : ℝ)]]
      [[((0 : Nat) : ℝ)], [((2 : Nat) : ℝ)], [((9 : Nat) : ℝ)]] [] none ∧
    sys.atoi (m.val "debug") ≠ 0 ∧ Outside "bars" ∧
    mainEffects sys env (commandLine [("-i", "data.csv"), ("-o", "bars"), ("-x", "1")]) = .ok y := by
  let sys : System ℝ ℝ := { realSystem [] [] "00\n02\n09" with
    lib := ⟨.insertion _ _, .insertion _ _, .noPivot, vectorsDistance, fun _ t => .ok t, fun _ w => .ok w⟩ }
  obtain ⟨m, hm⟩ : ∃ m, parseArgs (commandLine
      [("-i", "data.csv"), ("-o", "bars"), ("-x", "1")]) = .ok m := ⟨_, rfl⟩
  have hS : StandardCommand sys [("-i", "data.csv"), ("-o", "bars"), ("-x", "1")]
      m "simplexTree" "bars" [[((0 : Nat) : ℝ)], [((2 : Nat) : ℝ)], [((9 : Nat) : ℝ)]] := by
    cases hm
    exact ⟨rfl, by decide, by decide, Or.inl (by decide), by decide, by decide, by decide, by decide,
      rfl, by simp⟩
  have hP : m.val "preprocessor" = "" := by cases hm; decide
  have hc : (setPipeline m).val "pipeline" = pipelineOf fastStages ∧
      (setPipeline m).val "collapse" ≠ "true" ∧ (setPipeline m).val "collapse" ≠ "1" := by
    cases hm; decide
  have hplain : PlainCommand sys [("-i", "data.csv"), ("-o", "bars"), ("-x", "1")]
      m "simplexTree" "bars" [[((0 : Nat) : ℝ)], [((2 : Nat) : ℝ)], [((9 : Nat) : ℝ)]] := by
    exact ⟨hS.parsed, hS.mpi, hS.pipeline, hS.mode, hP, hS.upscale, hS.complex, hS.output, hS.console, hS.input,
      hS.rows⟩
  have hedge : rowDist 1 [[((0 : Nat) : ℝ)], [((2 : Nat) : ℝ)], [((9 : Nat) : ℝ)]] 0 1 < 5 := by
    have h := C10_distance_is_euclidean (k := 1) [((0 : Nat) : ℝ)] [((2 : Nat) : ℝ)] rfl rfl
    have h' : vectorsDistance [((0 : Nat) : ℝ)] [((2 : Nat) : ℝ)] = .ok 2 := by
      simp [vectorsDistance, sqDistance, sqDiffs]
    rw [h'] at h
    show dist (point 1 [((0 : Nat) : ℝ)]) (point 1 [((2 : Nat) : ℝ)]) < 5
    rw [← Except.ok.inj h]
    norm_num
  obtain ⟨w, lines, hw, -⟩ := C85_standard_program_partial sys rfl rfl _ m "bars" _ hplain 1 (by decide)
    (by simp) ⟨0, 1, by decide, by decide, hedge⟩
  obtain ⟨y, hy, -⟩ := (C102_recording_partial sys env _ m hS.parsed (Or.inr hc)).of_ok hw
  refine ⟨sys, m, y, rfl, hS, ⟨hP, rfl, rfl⟩, ?_, ?_, hy⟩
  · cases hm; decide
  · unfold Outside; decide

theorem side_example2 (env : Surround ℝ ℝ) : ∃ (sys : System ℝ ℝ) (m : ArgMap) (y : World (List ℝ) ℝ × Effects),
    sys.lib.dist = vectorsDistance ∧
    StandardCommand sys [("-i", "data.csv"), ("-o", "bars.csv")]
      m "simplexTree" "bars.csv" [[((0 : Nat) : ℝ)], [((2 : Nat) : ℝ)], [((9 : Nat) : ℝ)]] ∧
    PointsOf sys m [[((0 : Nat) : ℝ)], [((2 : Nat) : ℝ)], [((9 : Nat) : ℝ)]]
      [[((0 : Nat) : ℝ)], [((2 : Nat) : ℝ)], [((9 : Nat) : ℝ)]] [] none ∧
    mainEffects sys env (commandLine [("-i", "data.csv"), ("-o", "bars.csv")]) = .ok y := by
  let sys : System ℝ ℝ := { realSystem [] [] "00\n02\n09" with
    lib := ⟨.insertion _ _, .insertion _ _, .noPivot, vectorsDistance, fun _ t => .ok t, fun _ w => .ok w⟩ }
  obtain ⟨m, hm⟩ : ∃ m, parseArgs (commandLine
      [("-i", "data.csv"), ("-o", "bars.csv")]) = .ok m := ⟨_, rfl⟩
  have hS : StandardCommand sys [("-i", "data.csv"), ("-o", "bars.csv")]
      m "simplexTree" "bars.csv" [[((0 : Nat) : ℝ)], [((2 : Nat) : ℝ)], [((9 : Nat) : ℝ)]] := by
    cases hm
    exact ⟨rfl, by decide, by decide, Or.inl (by decide), by decide, by decide, by decide, by decide,
      rfl, by simp⟩
  have hP : m.val "preprocessor" = "" := by cases hm; decide
  have hc : (setPipeline m).val "pipeline" = pipelineOf fastStages ∧
      (setPipeline m).val "collapse" ≠ "true" ∧ (setPipeline m).val "collapse" ≠ "1" := by
    cases hm; decide
  have hplain : PlainCommand sys [("-i", "data.csv"), ("-o", "bars.csv")]
      m "simplexTree" "bars.csv" [[((0 : Nat) : ℝ)], [((2 : Nat) : ℝ)], [((9 : Nat) : ℝ)]] := by
    exact ⟨hS.parsed, hS.mpi, hS.pipeline, hS.mode, hP, hS.upscale, hS.complex, hS.output, hS.console, hS.input,
      hS.rows⟩
  have hedge : rowDist 1 [[((0 : Nat) : ℝ)], [((2 : Nat) : ℝ)], [((9 : Nat) : ℝ)]] 0 1 < 5 := by
    have h := C10_distance_is_euclidean (k := 1) [((0 : Nat) : ℝ)] [((2 : Nat) : ℝ)] rfl rfl
    have h' : vectorsDistance [((0 : Nat) : ℝ)] [((2 : Nat) : ℝ)] = .ok 2 := by
      simp [vectorsDistance, sqDistance, sqDiffs]
    rw [h'] at h
    show dist (point 1 [((0 : Nat) : ℝ)]) (point 1 [((2 : Nat) : ℝ)]) < 5
    rw [← Except.ok.inj h]
    norm_num
  obtain ⟨w, lines, hw, -⟩ := C85_standard_program_partial sys rfl rfl _ m "bars.csv" _ hplain 1 (by decide)
    (by simp) ⟨0, 1, by decide, by decide, hedge⟩
  obtain ⟨y, hy, -⟩ := (C102_recording_partial sys env _ m hS.parsed (Or.inr hc)).of_ok hw
  exact ⟨sys, m, y, rfl, hS, ⟨hP, rfl, rfl⟩, hy⟩

/-- The hypotheses of the violation of C103 are met. -/
example (env : Surround ℝ ℝ) : ∃ (sys sys' : System ℝ ℝ) (m m' : ArgMap)
    (y y' : World (List ℝ) ℝ × Effects) (data data' : List (List ℝ)),
    StandardCommand sys [("-i", "data.csv"), ("-o", "bars"), ("-x", "1")] m "simplexTree" "bars" data ∧
    StandardCommand sys' [("-i", "data.csv"), ("-o", "bars.csv")] m' "simplexTree" ("bars" ++ ".csv") data' ∧
    PointsOf sys m data data [] none ∧ PointsOf sys' m' data' data' [] none ∧
    sys'.lib.dist = vectorsDistance ∧ (∀ p ∈ data', p.length = 1) ∧
    ¬ "output/".toList <+: ("bars" ++ ".csv").toList ∧
    mainEffects sys env (commandLine [("-i", "data.csv"), ("-o", "bars"), ("-x", "1")]) = .ok y ∧
    mainEffects sys' env (commandLine [("-i", "data.csv"), ("-o", "bars.csv")]) = .ok y' := by
  obtain ⟨sys, m, y, -, a2, a3, -, -, a6⟩ := side_example env
  obtain ⟨sys', m', y', b1, b2, b3, b4⟩ := side_example2 env
  exact ⟨sys, sys', m, m', y, y', _, _, a2, b2, a3, b3, b1, by simp, by decide, a6, b4⟩

end

end LHF
