import Verif.Lemmas.Console
import Verif.Props.IndexedEffects
import Verif.Props.Reduced
import Verif.Props.Log

/-! C121, C122: what a run prints. -/

namespace LHF
open Spec

/-! ### C121 -/

/-- The command lines of C121: those of C85 with the output name "console". -/
structure Spec.ConsoleCommand (sys : System ℝ ℝ) (pairs : List (String × String)) (m : ArgMap)
    (complexType : String) (data : List (List ℝ)) : Prop where
  parsed : parseArgs (commandLine pairs) = .ok m
  mpi : m.val "mpi" ≠ "1"
  pipeline : m.val "pipeline" = ""
  mode : m.val "mode" = "standard" ∨ (m.val "mode" = "fast" ∧ complexType = "simplexTree")
  pre : m.val "preprocessor" = ""
  upscale : m.val "upscale" ≠ "true"
  complex : m.val "complexType" = complexType
  output : m.val "outputFile" = "console"
  input : readCSV sys.inIO (sys.files (m.val "inputFile")) = .ok data
  rows : data ≠ []

theorem stageFailed_iff (args : ArgMap) (name : String) :
    stageFailed args name.toList = (enabledStage args name).isNone := by
  unfold stageFailed enabledStage
  rw [String.ofList_toList]
  rcases newPipe name (args.val "complexType") with _ | k
  · rfl
  · by_cases h : configPipe k args = true
    · simp [Option.filter, h]
    · simp [Option.filter, h]

theorem runNames_fold {K W : Type} (run : PipeKind → Work (List K) W × Shown → Res (Work (List K) W × Shown))
    (args : ArgMap) (p : Packet (Work (List K) W × Shown)) (stages : List String) (hne : stages ≠ [])
    (hdot : ∀ s ∈ stages, '.' ∉ s.toList) (hp : args "pipeline" = some (pipelineOf stages)) :
    runNamesShown run args p = (stages.map String.toList).foldlM (runStageShown run args) p := by
  have hne' : stages.map String.toList ≠ [] := by simpa using hne
  have hdot' : ∀ c ∈ stages.map String.toList, '.' ∉ c := by
    intro c hc
    obtain ⟨s, hs, rfl⟩ := List.mem_map.1 hc
    exact hdot s hs
  unfold runNamesShown
  rw [hp]
  dsimp only [pipelineOf]
  rw [String.toList_ofList, count_joinDots _ hne' hdot', stageNames_joinDots _ hne' hdot']

theorem runNames_known {K W : Type} (run : PipeKind → Work (List K) W × Shown → Res (Work (List K) W × Shown))
    (args : ArgMap) (p : Packet (Work (List K) W × Shown)) (stages : List String) (hne : stages ≠ [])
    (hdot : ∀ s ∈ stages, '.' ∉ s.toList) (hp : args "pipeline" = some (pipelineOf stages))
    (hk : ∀ s ∈ stages, (enabledStage args s).isSome) :
    runNamesShown run args p = runPipeline run args p := by
  rw [runNames_fold run args p stages hne hdot hp, C39_runs_components_in_order run args p stages hne hdot hp,
    ← foldlM_runStage]
  clear hne hdot hp
  induction stages generalizing p with
  | nil => rfl
  | cons s ss ih =>
    rw [List.map_cons, List.foldlM_cons, List.foldlM_cons]
    have h1 : stageFailed args s.toList = false := by
      rw [stageFailed_iff]
      have := hk s (by simp)
      rw [Option.isSome_iff_exists] at this
      obtain ⟨k, hk⟩ := this
      rw [hk]
      rfl
    have h2 : runStageShown run args p s.toList = runStage run args p s.toList := by
      unfold runStageShown
      simp only [h1, Bool.false_eq_true, if_false, bind_pure]
    rw [h2]
    congr 1
    funext q
    exact ih q (fun s' h' => hk s' (List.mem_cons_of_mem _ h'))

/-- All stages of the known modes exist. -/
theorem mode_names_known (pairs : List (String × String)) (m : ArgMap)
    (hm : parseArgs (commandLine pairs) = .ok m) (hmpi : m.val "mpi" ≠ "1") (hp : m.val "pipeline" = "")
    (d : Mode) (hd : d ∈ modes) (hmode : m.val "mode" = d.name)
    (hct : m.val "complexType" ∈ ["simplexArrayList", "simplexTree", "indSimplexTree"])
    {K W : Type} (run : PipeKind → Work (List K) W × Shown → Res (Work (List K) W × Shown))
    (p : Packet (Work (List K) W × Shown)) :
    runNamesShown run (setPipeline m) p = runPipeline run (setPipeline m) p := by
  have hsome : ∀ o ∈ options, ((setPipeline m) o.1).isSome :=
    fun o ho => setPipeline_isSome m _ (parse_isSome pairs m hm o ho)
  have heps : ((setPipeline m) "epsilon").isSome := hsome ("epsilon", "e", "5") (by decide)
  have hdim : ((setPipeline m) "dimensions").isSome := hsome ("dimensions", "d", "1") (by decide)
  have htw : ((setPipeline m) "twist").isSome := hsome ("twist", "t", "false") (by decide)
  have hpl : ((setPipeline m) "pipeline").isSome := hsome ("pipeline", "p", "") (by decide)
  obtain ⟨h1, -, h3, -, -⟩ := C38_mode_selection m hmpi hp d hd hmode
  have hcfg : ∀ k, configPipe k (setPipeline m) = true := by
    intro k
    unfold configPipe
    cases k <;> simp [requiredKeys, heps, hdim, htw]
  have hne : d.stages ≠ [] := by
    clear h1 h3 hmode
    revert d; decide
  have hdot : ∀ s ∈ d.stages, '.' ∉ s.toList := by
    clear h1 h3 hmode
    revert d; decide
  refine runNames_known run _ p d.stages hne hdot (some_of_val hpl h1) ?_
  have hen : ∀ s, enabledStage (setPipeline m) s =
      newPipe s (d.complexType.apply (m.val "complexType")) := by
    intro s
    unfold enabledStage
    rw [h3]
    rcases newPipe s (d.complexType.apply (m.val "complexType")) with _ | k
    · rfl
    · rw [Option.filter_some, if_pos (hcfg k)]
  simp only [hen]
  generalize m.val "complexType" = ct at hct
  simp only [List.mem_cons, List.not_mem_nil, or_false] at hct
  clear hen hdot hne h1 h3 hmode
  rcases hct with rfl | rfl | rfl <;> revert d <;> decide

theorem console_default (sys : System ℝ ℝ) (env : Surround ℝ ℝ) (term : Terminal ℝ ℝ)
    (pairs : List (String × String)) (m : ArgMap)
    (hm : parseArgs (commandLine pairs) = .ok m) (hmpi : m.val "mpi" ≠ "1")
    (hp : m.val "pipeline" = "") (d : Mode) (hd : d ∈ modes) (hmode : m.val "mode" = d.name)
    (hst : d.stages = fastStages) (hred : d.name ≠ "reduced")
    (hpre : d.preprocessor.apply (m.val "preprocessor") = "")
    (hup : d.upscale.apply (m.val "upscale") ≠ "true")
    (hct : m.val "complexType" ∈ ["simplexArrayList", "simplexTree", "indSimplexTree"])
    (hf : m.val "outputFile" = "console")
    (data : List (List ℝ)) (hread : readCSV sys.inIO (sys.files (m.val "inputFile")) = .ok data)
    (hne : data ≠ []) :
    mainShown sys env term (commandLine pairs) =
      (fastKinds.foldlM (fun d k => stageShown env term (setPipeline m) (runStages sys.lib
          ⟨sys.atof (m.val "epsilon"), sys.atoi (m.val "dimensions"), m.val "collapse"⟩) k d)
        ((⟨data, data, [], newComplex (d.complexType.apply (m.val "complexType")), [], [], []⟩,
          ⟨0, headerShown (commandLine pairs) (setPipeline m)⟩) : Work (List ℝ) ℝ × Shown) >>=
      fun y => pure ((⟨⟨fastNames, true, y.1⟩, []⟩ : World (List ℝ) ℝ), y.2)) := by
  obtain ⟨q1, q2, q3, q4, q5⟩ := C38_mode_selection m hmpi hp d hd hmode
  have hsome : ∀ o ∈ options, ((setPipeline m) o.1).isSome :=
    fun o ho => setPipeline_isSome m _ (parse_isSome pairs m hm o ho)
  have hpl : ((setPipeline m) "pipeline").isSome := hsome ("pipeline", "p", "") (by decide)
  have hout : ((setPipeline m) "outputFile").isSome :=
    hsome ("outputFile", "o", "output.csv") (by decide)
  have hout' : (setPipeline m) "outputFile" = some "console" := by
    apply some_of_val hout
    rw [q5 _ (by decide), hf]
  have hsw : (setPipeline m).val "pipeline" ≠ "slidingwindow" := by
    rw [q1, hst]; decide
  have hct' : d.complexType.apply (m.val "complexType") ∈
      ["simplexArrayList", "simplexTree", "indSimplexTree"] := by
    generalize m.val "complexType" = ct at hct
    clear q1 q2 q3 q4 q5 hup hmode hst hred hpre
    simp only [List.mem_cons, List.not_mem_nil, or_false] at hct
    rcases hct with rfl | rfl | rfl <;> revert d <;> decide
  have hkinds : modeKinds d (m.val "complexType") = fastKinds := by
    unfold modeKinds
    rw [if_pos hst]
    rfl
  have hhas : (newPacket (d.complexType.apply (m.val "complexType"))
      (⟨data, data, [], newComplex (d.complexType.apply (m.val "complexType")), [], [], []⟩ :
        Work (List ℝ) ℝ)) = ⟨[], true, ⟨data, data, [],
          newComplex (d.complexType.apply (m.val "complexType")), [], [], []⟩⟩ := by
    simp only [List.mem_cons, List.not_mem_nil, or_false] at hct'
    unfold newPacket
    simp only [Packet.mk.injEq, decide_eq_true_eq, and_true, true_and]
    tauto
  have hopen : sys.files (m.val "inputFile") ≠ none := by
    intro h0
    rw [h0] at hread
    exact hne (Except.ok.inj hread).symm
  unfold mainShown
  rw [hm, ok_bind]
  dsimp only
  rw [if_pos hsw, q5 "inputFile" (by decide), hread, ok_bind, if_neg (fun h => hopen h.2), List.append_nil]
  unfold dispatchShown
  rw [if_pos (by exact Or.inl (List.length_pos_of_ne_nil hne)), q4, if_neg hup,
    q5 "mode" (by decide), hmode, if_neg hred]
  unfold processDataShown
  rw [q3, hhas]
  unfold preprocessShown preprocess preFailText
  rw [q2, hpre, if_neg (by simp), if_neg (by simp), pure_eq_ok, ok_bind, pure_eq_ok, ok_bind]
  unfold runPipelineShown withShown Shown.say
  simp only [List.append_nil]
  rw [some_of_val hpl rfl]
  dsimp only
  rw [mode_names_known pairs m hm hmpi hp d hd hmode hct,
    C60_known_modes_run_all_stages _ _ pairs m hm hmpi hp d hd hmode hct, hkinds,
    q5 "epsilon" (by decide), q5 "dimensions" (by decide), q5 "collapse" (by decide)]
  rw [fold_wrappers _ _ _ (by rfl), bind_assoc]
  congr 1
  funext w
  rw [pure_eq_ok, ok_bind]
  unfold pipelineFiles dropShown
  rw [hout']
  rfl

section
variable {sys : System ℝ ℝ} {env : Surround ℝ ℝ} {term : Terminal ℝ ℝ} {pairs : List (String × String)}
  {m : ArgMap} {ct : String} {data : List (List ℝ)}

theorem console_stages (hct : ct ∈ ["simplexArrayList", "simplexTree", "indSimplexTree"])
    (h : ConsoleCommand sys pairs m ct data) :
    (setPipeline m).val "outputFile" = "console" ∧
    mainShown sys env term (commandLine pairs) =
      (fastKinds.foldlM (fun d k => stageShown env term (setPipeline m) (runStages sys.lib
          ⟨sys.atof (m.val "epsilon"), sys.atoi (m.val "dimensions"), m.val "collapse"⟩) k d)
        ((⟨data, data, [], newComplex ct, [], [], []⟩,
          ⟨0, headerShown (commandLine pairs) (setPipeline m)⟩) : Work (List ℝ) ℝ × Shown) >>=
      fun y => pure ((⟨⟨fastNames, true, y.1⟩, []⟩ : World (List ℝ) ℝ), y.2)) := by
  have hct' : m.val "complexType" ∈ ["simplexArrayList", "simplexTree", "indSimplexTree"] := by
    rw [h.complex]; exact hct
  rcases h.mode with hmode | ⟨hmode, hc⟩
  · refine ⟨?_, ?_⟩
    · rw [(C38_mode_selection m h.mpi h.pipeline ⟨"standard", fastStages, .keep, .keep, .keep⟩
        (by simp [modes]) hmode).2.2.2.2 _ (by decide), h.output]
    · rw [console_default sys env term pairs m h.parsed h.mpi h.pipeline
        ⟨"standard", fastStages, .keep, .keep, .keep⟩ (by simp [modes]) hmode rfl (by decide) h.pre
        h.upscale hct' h.output data h.input h.rows]
      rw [show Setting.keep.apply (m.val "complexType") = ct from h.complex]
  · refine ⟨?_, ?_⟩
    · rw [(C38_mode_selection m h.mpi h.pipeline
        ⟨"fast", fastStages, .keep, .force "simplexTree", .force "false"⟩
        (by simp [modes]) hmode).2.2.2.2 _ (by decide), h.output]
    · rw [console_default sys env term pairs m h.parsed h.mpi h.pipeline
        ⟨"fast", fastStages, .keep, .force "simplexTree", .force "false"⟩ (by simp [modes]) hmode rfl
        (by decide) h.pre (show "false" ≠ "true" by decide) hct' h.output data h.input h.rows]
      rw [show (Setting.force "simplexTree").apply (m.val "complexType") = ct from hc.symm]

/-- The lines of a row of the statistics in the log, with what the stage prints itself. -/
def rowText (env : Surround ℝ ℝ) (args : ArgMap) (own : PipeKind → List Char) (i : Nat) (k : PipeKind) :
    StatRow → List Char
  | .stage name bytes _ _ => env.messages k args ++ own k ++ stageLog env i name bytes
  | _ => []

/-- The stages print the log that they would write to a file. -/
theorem shown_rows {args : ArgMap} (hc : args.val "outputFile" = "console") (io : TextNum ℝ) (lib : Lib ℝ ℝ)
    (run : PipeKind → Work (List ℝ) ℝ → Res (Work (List ℝ) ℝ)) (own : PipeKind → List Char)
    (kinds : List PipeKind) (x : Work (List ℝ) ℝ) (s : Shown) (e : Effects) (hlen : e.rows.length = s.timed)
    (hown : ∀ pre k post, kinds = pre ++ k :: post → ∀ v w, pre.foldlM (fun d k => run k d) x = .ok v →
      run k v = .ok w → stageDirect term args k v w = own k)
    (y : Work (List ℝ) ℝ × Shown)
    (hy : kinds.foldlM (fun d k => stageShown env term args run k d) (x, s) = .ok y) :
    ∃ (z : Work (List ℝ) ℝ × Effects) (new : List StatRow),
      kinds.foldlM (fun d k => stageWithEffects env io lib args false run k d) (x, e) = .ok z ∧
      z.1 = y.1 ∧ z.2.rows = e.rows ++ new ∧ new.length = kinds.length ∧
      y.2.text = s.text ++ ((kinds.zip new).zipIdx s.timed).flatMap
        (fun a => rowText env args own a.2 a.1.1 a.1.2) := by
  induction kinds generalizing x s e with
  | nil =>
    cases hy
    exact ⟨(x, e), [], rfl, rfl, by simp, rfl, by simp⟩
  | cons k kinds ih =>
    rw [List.foldlM_cons] at hy
    obtain ⟨⟨w, s1⟩, h1, h2⟩ := bind_ok.1 hy
    unfold stageShown at h1
    obtain ⟨w', h3, h4⟩ := bind_ok.1 h1
    rw [pure_eq_ok] at h4
    cases h4
    have hk : stageDirect term args k x w = own k := hown [] k kinds rfl x w rfl h3
    obtain ⟨v, hv⟩ := vertexCount_ok w.complex
    have hst : stageWithEffects env io lib args false run k (x, e) = .ok (w,
        ⟨e.rows ++ [.stage (pipeType k) (packetSize env w) v w.complex.simplexCount],
          e.writes ++ logWrite args (env.messages k args ++
            stageLog env e.rows.length (pipeType k) (packetSize env w))⟩) := by
      unfold stageWithEffects
      rw [h3, ok_bind]
      dsimp only
      rw [hv, ok_bind]
      rfl
    obtain ⟨z, new, h5, h6, h7, h8, h9⟩ := ih w _
      ⟨e.rows ++ [.stage (pipeType k) (packetSize env w) v w.complex.simplexCount],
          e.writes ++ logWrite args (env.messages k args ++
            stageLog env e.rows.length (pipeType k) (packetSize env w))⟩ (by simp [hlen])
      (fun pre j post hp v u hv hu => hown (k :: pre) j post (by rw [hp]; rfl) v u
        (by rw [List.foldlM_cons]; exact bind_ok.2 ⟨w, h3, hv⟩) hu) h2
    refine ⟨z, .stage (pipeType k) (packetSize env w) v w.complex.simplexCount :: new, ?_, h6, ?_, ?_, ?_⟩
    · rw [List.foldlM_cons, hst, ok_bind]; exact h5
    · rw [h7]; simp
    · simp [h8]
    · rw [h9]
      simp only [List.zip_cons_cons, List.zipIdx_cons, List.flatMap_cons, rowText, logShown, hc, if_true,
        List.append_assoc, hk]

/-- A run that prints: its stages, and its text. -/
theorem console_run (hct : ct ∈ ["simplexArrayList", "simplexTree", "indSimplexTree"])
    (h : ConsoleCommand sys pairs m ct data) (own : PipeKind → List Char)
    (hown : ∀ pre k post, fastKinds = pre ++ k :: post → ∀ v w,
      pre.foldlM (fun d k => runStages sys.lib ⟨sys.atof (m.val "epsilon"), sys.atoi (m.val "dimensions"),
        m.val "collapse"⟩ k d) ⟨data, data, [], newComplex ct, [], [], []⟩ = .ok v →
      runStages sys.lib ⟨sys.atof (m.val "epsilon"), sys.atoi (m.val "dimensions"),
        m.val "collapse"⟩ k v = .ok w → stageDirect term (setPipeline m) k v w = own k)
    (y : World (List ℝ) ℝ × Shown)
    (hy : mainShown sys env term (commandLine pairs) = .ok y) :
    ∃ (z : Work (List ℝ) ℝ × Effects) (new : List StatRow),
      fastKinds.foldlM (fun d k => stageWithEffects env sys.io sys.lib (setPipeline m) false
          (runStages sys.lib ⟨sys.atof (m.val "epsilon"), sys.atoi (m.val "dimensions"), m.val "collapse"⟩) k d)
        (⟨data, data, [], newComplex ct, [], [], []⟩, ⟨[], []⟩) = .ok z ∧
      z.1 = y.1.packet.data ∧ z.2.rows = new ∧ y.1.files = [] ∧
      y.2.text = headerShown (commandLine pairs) (setPipeline m) ++ ((fastKinds.zip new).zipIdx 0).flatMap
        (fun a => rowText env (setPipeline m) own a.2 a.1.1 a.1.2) := by
  obtain ⟨hc, he⟩ := console_stages (env := env) (term := term) hct h
  rw [he] at hy
  obtain ⟨y1, h1, h2⟩ := bind_ok.1 hy
  rw [pure_eq_ok] at h2
  cases h2
  obtain ⟨z, new, h3, h4, h5, -, h6⟩ := shown_rows hc sys.io sys.lib _ own _ _ _ ⟨[], []⟩ rfl hown y1 h1
  exact ⟨z, new, h3, h4, by simpa using h5, rfl, h6⟩

/-- The settings of a run of C121. -/
theorem console_settings (h : ConsoleCommand sys pairs m ct data) (key : String) (hk : key ∈ ["debug", "collapse"]) :
    (setPipeline m).val "complexType" = ct ∧ (setPipeline m).val key = m.val key := by
  simp only [List.mem_cons, List.not_mem_nil, or_false] at hk
  rcases h.mode with hmode | ⟨hmode, hc⟩
  · have q := C38_mode_selection m h.mpi h.pipeline ⟨"standard", fastStages, .keep, .keep, .keep⟩
        (by simp [modes]) hmode
    refine ⟨?_, ?_⟩
    · rw [q.2.2.1]; exact h.complex
    · rcases hk with rfl | rfl <;> exact q.2.2.2.2 _ (by decide)
  · have q := C38_mode_selection m h.mpi h.pipeline
        ⟨"fast", fastStages, .keep, .force "simplexTree", .force "false"⟩ (by simp [modes]) hmode
    refine ⟨?_, ?_⟩
    · rw [q.2.2.1]; exact hc.symm
    · rcases hk with rfl | rfl <;> exact q.2.2.2.2 _ (by decide)

/-- With a simplexTree or a simplexArrayList the default stages print nothing themselves. -/
theorem fast_silent {args : ArgMap} (hct : args.val "complexType" ≠ "indSimplexTree") {k : PipeKind}
    (hk : k ∈ fastKinds) (v w : Work (List ℝ) ℝ) : stageDirect term args k v w = [] := by
  unfold fastKinds at hk
  simp only [List.mem_cons, List.not_mem_nil, or_false] at hk
  rcases hk with rfl | rfl | rfl | rfl <;> simp [stageDirect, hct]

theorem rows_text (args : ArgMap) (points cell n N1 N2 N3 : Nat) :
    ((fastKinds.zip (fourRows points cell n N1 N2 N3)).zipIdx 0).flatMap
        (fun a => rowText env args (fun _ => []) a.2 a.1.1 a.1.2) =
      stagesLog env args 0 (fourStages points cell N1 N2 N3) := by
  simp [fastKinds, fourRows, rowText, stagesLog, fourStages, stageLog_eq]

/-- C121, `simplexTree`: a run with the output name "console" writes no file, and what it prints are the
settings and the log of the stages: names, times and sizes. The bars are not there. -/
theorem C121_tree_console_partial (hdist : sys.lib.dist = vectorsDistance)
    (h : ConsoleCommand sys pairs m "simplexTree" data) (k : Nat) (hk : 0 < k) (hdim : ∀ p ∈ data, p.length = k)
    (y : World (List ℝ) ℝ × Shown) (hy : mainShown sys env term (commandLine pairs) = .ok y) :
    let n := data.length
    let N := simplexTotal n (fun i j => rowDist k data i j < sys.atof (m.val "epsilon"))
      (max 1 (sys.atoi (m.val "dimensions")) + 1)
    y.1.files = [] ∧ y.2.text = headerShown (commandLine pairs) (setPipeline m) ++
      stagesLog env (setPipeline m) 0 (fourStages (8 * (n * k)) env.nodeSize N N N) := by
  intro n N
  obtain ⟨z, new, h1, -, h3, h4, h5⟩ := console_run (by decide) h (fun _ => [])
    (fun pre k post hp v w _ _ => fast_silent (by rw [(console_settings h "debug" (by simp)).1]; decide)
      (by rw [hp]; simp) v w) y hy
  obtain ⟨n', N', L, rfl, rfl, -, h6, -⟩ := tree_effects hdist _ [] rfl rfl rfl k hk hdim z h1
  refine ⟨h4, ?_⟩
  rw [h5, ← h3, h6, List.nil_append, rows_text]

/-- C121, `simplexArrayList` (dimensions at least 1, no collapse). -/
theorem C121_array_console_partial (hdist : sys.lib.dist = vectorsDistance)
    (h : ConsoleCommand sys pairs m "simplexArrayList" data)
    (hcol : m.val "collapse" ≠ "true" ∧ m.val "collapse" ≠ "1")
    (hd : 0 < sys.atoi (m.val "dimensions")) (k : Nat) (hk : 0 < k) (hdim : ∀ p ∈ data, p.length = k)
    (y : World (List ℝ) ℝ × Shown) (hy : mainShown sys env term (commandLine pairs) = .ok y) :
    let n := data.length
    let N := simplexTotal n (fun i j => rowDist k data i j ≤ sys.atof (m.val "epsilon"))
    y.1.files = [] ∧ y.2.text = headerShown (commandLine pairs) (setPipeline m) ++
      stagesLog env (setPipeline m) 0 (fourStages (8 * (n * k)) env.pairSize (N 2)
        (N (sys.atoi (m.val "dimensions") + 1)) (N (sys.atoi (m.val "dimensions") + 2))) := by
  intro n N
  obtain ⟨z, new, h1, -, h3, h4, h5⟩ := console_run (by decide) h (fun _ => [])
    (fun pre k post hp v w _ _ => fast_silent (by rw [(console_settings h "debug" (by simp)).1]; decide)
      (by rw [hp]; simp) v w) y hy
  obtain ⟨n', N1, N2, N3, L1, L2, rfl, rfl, rfl, rfl, -, -, h6, -⟩ :=
    array_effects hdist hd hcol _ [] rfl k hk hdim z h1
  refine ⟨h4, ?_⟩
  rw [h5, ← h3, h6, List.nil_append, rows_text]

/-- Before the stage fastPersistence an indSimplexTree is not empty and not sorted. -/
theorem indexed_unsorted {lib : Lib ℝ ℝ} {st : Settings ℝ} (hdist : lib.dist = vectorsDistance)
    (hcol : st.collapse ≠ "true" ∧ st.collapse ≠ "1") (hn : data ≠ [])
    {k : Nat} (hk : 0 < k) (hdim : ∀ p ∈ data, p.length = k) {v : Work (List ℝ) ℝ}
    (hv : [PipeKind.distMatrix, .neighGraph, .rips].foldlM (fun d k => runStages lib st k d)
      ⟨data, data, [], newComplex "indSimplexTree", [], [], []⟩ = .ok v) :
    ∃ t dm, v.complex = .indexed t dm ∧ ¬ (t.store.dims.length = 0 ∨ t.isSorted = true) := by
  obtain ⟨ws0, c1, -, -⟩ := C11_distance_matrix_euclidean k hk data hdim st.eps
  obtain ⟨⟨dm, ws⟩, d1, (d2 : dm = _)⟩ :=
    (distMatrixPipe_weights vectorsDistance st.eps [] [] data).of_ok c1
  have hdm : dm = table data.length (fun i j => if i < j then rowDist k data i j else 0) := d2
  have hn0 : data.length ≠ 0 := by simpa using hn
  have hne : dm ≠ [] := by
    apply List.ne_nil_of_length_pos
    rw [hdm]
    simp [table]; omega
  have hat : ∀ i j, i < j → j < data.length → at2 dm i j = .ok (rowDist k data i j) := by
    intro i j hij hj
    rw [hdm]
    exact at2_table hij hj
  have e1 : runStages lib st .distMatrix ⟨data, data, [], newComplex "indSimplexTree", [], [], []⟩ =
      .ok ⟨data, data, [], .indexed ITree.fresh dm, ws, [], []⟩ := by
    unfold runStages
    rw [show (newComplex "indSimplexTree" : AnyComplex ℝ) = .indexed ITree.fresh [] by simp [newComplex], hdist]
    dsimp only; rw [d1]; rfl
  have e2 : runStages lib st .neighGraph ⟨data, data, [], .indexed ITree.fresh dm, ws, [], []⟩ =
      (ITree.insertN st.eps st.dim dm data.length ITree.fresh >>= fun t =>
        pure ⟨data, data, [], .indexed t dm, ws, [], []⟩) := by
    rw [← neighGraphIndexed_eq _ _ _ _ (rows_ne_nil hk hdim)]
    unfold runStages; rfl
  simp only [List.foldlM_cons, List.foldlM_nil, e1, ok_bind] at hv
  rw [e2] at hv
  cases hins : ITree.insertN st.eps st.dim dm data.length ITree.fresh with
  | error e =>
    rw [hins] at hv
    cases hv
  | ok t =>
    rw [hins, ok_bind, pure_eq_ok, ok_bind] at hv
    have e3 : runStages lib st .rips ⟨data, data, [], .indexed t dm, ws, [], []⟩ =
        .ok ⟨data, data, [], .indexed t dm, ws, [], []⟩ := by
      unfold runStages ripsPipeIndexed
      dsimp only
      rw [if_neg (by rintro (c | c); exacts [hcol.1 c, hcol.2 c])]
      rfl
    rw [e3, ok_bind, pure_eq_ok] at hv
    cases hv
    refine ⟨t, dm, rfl, ?_⟩
    obtain ⟨tt, h1, -, h3, h4⟩ := insertNI_rel (D := rowDist k data) (eps := st.eps) (maxDim := st.dim)
      (fun _ _ => dist_nonneg) data.length (fun _ => hne) hat
    by_cases h5 : tt.weg.length ≤ 3
    · obtain ⟨t', h6, h7, h8⟩ := h3 h5
      rw [hins] at h6
      cases h6
      rintro (h | h)
      · exact rel_dims_ne h1 h7 hn0 (List.length_eq_zero_iff.1 h)
      · rw [h8] at h; cases h
    · rw [h4 (by omega)] at hins
      cases hins

theorem rows_text_sorted (args : ArgMap) (points cell n N1 N2 N3 : Nat) (line : List Char) :
    ((fastKinds.zip (fourRows points cell n N1 N2 N3)).zipIdx 0).flatMap
        (fun a => rowText env args (fun k => if k = .fastPersistence then line else []) a.2 a.1.1 a.1.2) =
      stagesLog env args 0 ((fourStages points cell N1 N2 N3).take 3) ++ env.messages .fastPersistence args ++
        line ++ stageLines env "FastPersistence" (env.clock 3) (points + N3 * cell) := by
  simp [fastKinds, fourRows, rowText, stagesLog, fourStages, stageLog_eq]

theorem indexed_own {args : ArgMap} {lib : Lib ℝ ℝ} {st : Settings ℝ} (hdist : lib.dist = vectorsDistance)
    (hcol : st.collapse ≠ "true" ∧ st.collapse ≠ "1") (hn : data ≠ [])
    {n : Nat} (hk : 0 < n) (hdim : ∀ p ∈ data, p.length = n)
    (hct : args.val "complexType" = "indSimplexTree") (hdbg : args.val "debug" = "0")
    (hcl : args.val "collapse" = st.collapse) {pre post : List PipeKind} {k : PipeKind}
    (hp : fastKinds = pre ++ k :: post) {v : Work (List ℝ) ℝ}
    (hv : pre.foldlM (fun d k => runStages lib st k d)
      ⟨data, data, [], newComplex "indSimplexTree", [], [], []⟩ = .ok v) (w : Work (List ℝ) ℝ) :
    stageDirect term args k v w = if k = .fastPersistence then sortingLine else [] := by
  unfold fastKinds at hp
  rcases pre with _ | ⟨a, _ | ⟨b, _ | ⟨c, _ | ⟨d, pre⟩⟩⟩⟩
  · simp only [List.nil_append, List.cons.injEq] at hp
    rw [← hp.1]; rfl
  · simp only [List.cons_append, List.nil_append, List.cons.injEq] at hp
    rw [← hp.2.1]
    simp [stageDirect, hdbg]
  · simp only [List.cons_append, List.nil_append, List.cons.injEq] at hp
    rw [← hp.2.2.1]
    simp [stageDirect, hcl, hcol]
  · simp only [List.cons_append, List.nil_append, List.cons.injEq] at hp
    obtain ⟨rfl, rfl, rfl, rfl, -⟩ := hp
    obtain ⟨t, dm, g1, g2⟩ := indexed_unsorted hdist hcol hn hk hdim hv
    unfold stageDirect
    dsimp only
    rw [if_pos hct, if_neg (by rw [hdbg]; simp), g1, if_pos rfl]
    dsimp only
    rw [if_neg g2]
  · simp at hp

/-- C121, `indSimplexTree` (no collapse, no debugging): in the last stage a line is printed as well. -/
theorem C121_indexed_console_partial (hdist : sys.lib.dist = vectorsDistance)
    (h : ConsoleCommand sys pairs m "indSimplexTree" data)
    (hcol : m.val "collapse" ≠ "true" ∧ m.val "collapse" ≠ "1") (hdbg : m.val "debug" = "0")
    (k : Nat) (hk : 0 < k) (hdim : ∀ p ∈ data, p.length = k)
    (y : World (List ℝ) ℝ × Shown) (hy : mainShown sys env term (commandLine pairs) = .ok y) :
    let n := data.length
    let N := simplexTotal n (fun i j => rowDist k data i j < sys.atof (m.val "epsilon"))
      (max 1 (sys.atoi (m.val "dimensions")) + 1)
    y.1.files = [] ∧ y.2.text = headerShown (commandLine pairs) (setPipeline m) ++
      stagesLog env (setPipeline m) 0 ((fourStages (8 * (n * k)) env.indSize N N N).take 3) ++
      env.messages .fastPersistence (setPipeline m) ++
      "========================    SORTING    ===============================\n".toList ++
      stageLines env "FastPersistence" (env.clock 3) (8 * (n * k) + N * env.indSize) := by
  intro n N
  have hd := console_settings h "debug" (by simp)
  have hcl := console_settings h "collapse" (by simp)
  obtain ⟨z, new, h1, -, h3, h4, h5⟩ := console_run (by decide) h
    (fun k => if k = .fastPersistence then sortingLine else [])
    (fun pre j post hp v w hv _ => indexed_own hdist hcol h.rows hk hdim hd.1 (hd.2.trans hdbg) hcl.2 hp hv w) y hy
  obtain ⟨n', N', L, rfl, rfl, -, h6, -⟩ := indexed_effects hdist _ [] rfl hcol h.rows k hk hdim z h1
  refine ⟨h4, ?_⟩
  rw [h5, ← h3, h6, List.nil_append, rows_text_sorted]
  simp only [List.append_assoc]
  rfl

/-- The run of C121 exists, with the barcode of C85 (which stays in memory). -/
theorem C121_console_runs_partial (env : Surround ℝ ℝ) (term : Terminal ℝ ℝ)
    (hdist : sys.lib.dist = vectorsDistance) (hread : sys.lib.mode = .noPivot)
    (h : ConsoleCommand sys pairs m "simplexTree" data) (k : Nat) (hk : 0 < k) (hdim : ∀ p ∈ data, p.length = k)
    (hedge : ∃ i j, i < j ∧ j < data.length ∧ rowDist k data i j < sys.atof (m.val "epsilon")) :
    ∃ y, mainShown sys env term (commandLine pairs) = .ok y ∧
      mainProgram sys (commandLine pairs) = .ok y.1 ∧
      DescribesRips data.length (rowDist k data) (· < sys.atof (m.val "epsilon"))
        (sys.atof (m.val "epsilon")) (sys.atoi (m.val "dimensions")) y.1.packet.data.bettiOutput := by
  obtain ⟨lines, T, h1, h2⟩ := C70_tree_run_partial sys.lib.sort (sys.atof (m.val "epsilon"))
    (sys.atoi (m.val "dimensions")) k hk data hdim hedge
  rw [← hread] at h1
  obtain ⟨w, h3, t, dm, ws, h4⟩ := (tree_stages sys.lib ⟨sys.atof (m.val "epsilon"),
      sys.atoi (m.val "dimensions"), m.val "collapse"⟩ hdist
      ⟨data, data, [], newComplex "simplexTree", [], [], []⟩ [] rfl rfl rfl).of_ok h1
  obtain ⟨-, he⟩ := console_stages (env := env) (term := term) (by decide) h
  obtain ⟨y, h5, h6⟩ := (SameRes.foldlM (R := fun (x : Work (List ℝ) ℝ × Shown) w => x.1 = w)
    (f := fun d k => stageShown env term (setPipeline m) (runStages sys.lib
          ⟨sys.atof (m.val "epsilon"), sys.atoi (m.val "dimensions"), m.val "collapse"⟩) k d)
    (g := fun d k => runStages sys.lib
          ⟨sys.atof (m.val "epsilon"), sys.atoi (m.val "dimensions"), m.val "collapse"⟩ k d)
    fastKinds (by rintro a _ k - rfl; exact stageShown_proj _ _ _ _ _ _)
    ((⟨data, data, [], newComplex "simplexTree", [], [], []⟩,
          ⟨0, headerShown (commandLine pairs) (setPipeline m)⟩) : Work (List ℝ) ℝ × Shown) _ rfl).of_ok h3
  have hy : mainShown sys env term (commandLine pairs) = .ok (⟨⟨fastNames, true, y.1⟩, []⟩, y.2) := by
    rw [he, h5]; rfl
  obtain ⟨w', h7, h8⟩ := (mainShown_proj sys env term (commandLine pairs)).ok_of hy
  refine ⟨_, hy, ?_, ?_⟩
  · rw [h7, ← h8]
  · show DescribesRips _ _ _ _ _ y.1.bettiOutput
    rw [h6, h4]
    exact h2

/-- C121 fails: of two runs on different clouds of the same size, with the same command line and the same number
of simplices, the printed texts are the same, whatever the bars are. -/
theorem C121_same_text_violated {sys' : System ℝ ℝ} {data' : List (List ℝ)}
    (hdist : sys.lib.dist = vectorsDistance) (hdist' : sys'.lib.dist = vectorsDistance)
    (h : ConsoleCommand sys pairs m "simplexTree" data) (h' : ConsoleCommand sys' pairs m "simplexTree" data')
    (k : Nat) (hk : 0 < k) (hdim : ∀ p ∈ data, p.length = k) (hdim' : ∀ p ∈ data', p.length = k)
    (hn : data.length = data'.length)
    (hN : simplexTotal data.length (fun i j => rowDist k data i j < sys.atof (m.val "epsilon"))
        (max 1 (sys.atoi (m.val "dimensions")) + 1) =
      simplexTotal data'.length (fun i j => rowDist k data' i j < sys'.atof (m.val "epsilon"))
        (max 1 (sys'.atoi (m.val "dimensions")) + 1))
    (y y' : World (List ℝ) ℝ × Shown) (hy : mainShown sys env term (commandLine pairs) = .ok y)
    (hy' : mainShown sys' env term (commandLine pairs) = .ok y') : y.2.text = y'.2.text := by
  rw [(C121_tree_console_partial hdist h k hk hdim y hy).2,
    (C121_tree_console_partial hdist' h' k hk hdim' y' hy').2, hN, hn]

end

/-- Texts for the examples: no messages, no times. -/
def Spec.quietEnv : Surround Int Int where
  clock _ := ['0']
  shows z := List.replicate z.toNat '1'
  intStr _ := []
  sizeText bytes _ := List.replicate bytes '1'
  messages _ _ := []
  preMessages _ _ := []
  nodeSize := 1
  pairSize := 1
  indSize := 1
  restFiles _ _ := []

/-- A terminal for the examples. -/
def Spec.quietTerminal : Terminal Int Int := ⟨fun _ _ _ => [], fun _ _ _ => [], fun _ => []⟩

/-- C121 fails, a case: the points 10, 12, 17 and 10, 11, 17 have different bars, and with the output name
"console" the runs print the same and write nothing. -/
theorem C121_console_violated :
    let first := mainShown (lineSystem [] [] "10\n12\n17") quietEnv quietTerminal ["-o", "console"]
    let second := mainShown (lineSystem [] [] "10\n11\n17") quietEnv quietTerminal ["-o", "console"]
    first.toOption.map (fun y => y.1.packet.data.bettiOutput) = some [(0, 0, 2), (0, 0, 5), (0, 0, 500)] ∧
    second.toOption.map (fun y => y.1.packet.data.bettiOutput) = some [(0, 0, 1), (0, 0, 6), (0, 0, 500)] ∧
    first.toOption.map (fun y => y.1.files.length) = some 0 ∧
    second.toOption.map (fun y => y.1.files.length) = some 0 ∧
    first.toOption.map (fun y => y.2.text) = second.toOption.map (fun y => y.2.text) := by
  decide +kernel

/-! ### C122 -/

/-- The runs of the mode "reduced" on a `simplexArrayList`, one for each cloud. -/
theorem runs_of_clouds {sort : SortBySecond (List Nat) ℝ} {mode : EndRead} {eps : ℝ} {dim k : Nat} {r : ℝ}
    {p : Packet (Work (List ℝ) ℝ)} {runs : List (List (Line ℝ) × List (BettiEntry ℝ))}
    (h : cloudRuns sort mode eps dim
      (p.data.originalData.map (cloud k (2 * r) p.data.fullData p.data.labels.length))
      p.data.originalData = .ok runs) :
    List.Forall₂ (fun c r => arrayRun vectorsDistance sort mode eps dim c = .ok r)
      (reducedClouds k r p) runs := by
  unfold cloudRuns at h
  rw [bind_ok] at h
  obtain ⟨runs1, h3, h4⟩ := h
  obtain ⟨new, h5, h6⟩ := cloudRuns_ok _ _ _ _ _ _ _ h3
  rw [List.nil_append] at h5
  subst h5
  unfold reducedClouds
  rw [List.filter_append]
  by_cases hc : p.data.originalData = []
  · rw [if_pos hc, pure_eq_ok] at h4
    cases h4
    simpa [hc] using h6
  · rw [if_neg hc, bind_ok] at h4
    obtain ⟨rr, h7, h8⟩ := h4
    rw [pure_eq_ok] at h8
    cases h8
    apply List.rel_append h6
    rw [List.filter_cons_of_pos (by simpa using hc)]
    exact .cons h7 .nil

/-- C122: in the mode "reduced" on a `simplexArrayList`, the table that is printed at the end is made of the
tables of the runs, one for each partition and one for the centroids, as the pipeline computes them for each of
these clouds alone. -/
theorem C122_reduced_table (sys : System ℝ ℝ) (env : Surround ℝ ℝ) (term : Terminal ℝ ℝ)
    (hdist : sys.lib.dist = vectorsDistance)
    (pairs : List (String × String)) (m : ArgMap) (f : String) (data : List (List ℝ))
    (p : Packet (Work (List ℝ) ℝ)) (k : Nat) (r : ℝ) (h : ReducedCommand sys pairs m f data p k r)
    (y : World (List ℝ) ℝ × Shown) (hy : mainShown sys env term (commandLine pairs) = .ok y) :
    ∃ (before : List Char) (tables : List (List (BettiEntry ℝ))),
      y.2.text = before ++ "\n_______BETTIS_______\n".toList ++
        tables.flatten.flatMap (fun e => sys.io.sizeStr e.dim ++ ",\t".toList ++ env.shows e.birth ++
          ",\t".toList ++ env.shows e.death ++ ",\t".toList ++
          e.boundary.flatMap (fun z => sys.io.sizeStr z ++ [',']) ++ ['\n']) ∧
      List.Forall₂ (fun c table => ∃ lines, arrayRun vectorsDistance sys.lib.sort sys.lib.mode
          (sys.atof (m.val "epsilon")) (sys.atoi (m.val "dimensions")) c = .ok (lines, table))
        (reducedClouds k r p) tables := by
  obtain ⟨w, h1, h2⟩ := (mainShown_proj sys env term (commandLine pairs)).ok_of hy
  obtain ⟨runs, h3, h4⟩ := (main_reduced_array sys hdist pairs m f data p k r h).ok_of h1
  have q := C38_explicit_pipeline_kept_partial m h.mpi (by rw [h.pipeline]; decide)
  obtain ⟨t, ht⟩ := mainShown_table sys env term (commandLine pairs) m h.parsed (by rw [q]; exact h.upscale)
    (by rw [q]; exact h.mode) data (by rw [q, h.pipeline]; decide) (by rw [q]; exact h.input) h.rows y hy
  refine ⟨t, runs.map Prod.snd, ?_, ?_⟩
  · rw [ht, h2, h4.2.2.1, List.flatMap_def (l := runs)]
    rfl
  · rw [List.forall₂_map_right_iff]
    exact (runs_of_clouds h3).imp (fun c r hr => ⟨r.1, hr⟩)

theorem count_indices (labels : List Nat) (j : Nat) :
    (indicesWhere labels.length (fun i => labels[i]? = some j)).length = labels.count j := by
  unfold indicesWhere
  induction labels using List.reverseRecOn with
  | nil => simp
  | append_singleton l a ih =>
    rw [List.length_append, List.length_singleton, List.range_succ, List.filter_append, List.length_append,
      List.count_append, ← ih]
    congr 1
    · congr 1
      apply List.filter_congr
      intro i hi
      simp only [List.getElem?_append_left (show i < l.length by simpa using hi)]
    · by_cases h : a = j <;> simp [h]

/-- C122: with upscaling, the counts that are printed are the numbers of rows with each label. -/
theorem C122_upscale_counts {K W : Type} [LinearOrder W] [Ring W] (sys : System K W) (env : Surround K W)
    (term : Terminal K W) (argv : List String) (m : ArgMap) (hm : parseArgs argv = .ok m)
    (hup : (setPipeline m).val "upscale" = "true") (hp : (setPipeline m).val "pipeline" ≠ "slidingwindow")
    (data : List (List K)) (hread : readCSV sys.inIO (sys.files ((setPipeline m).val "inputFile")) = .ok data)
    (hne : data ≠ []) (y : World (List K) W × Shown) (hy : mainShown sys env term argv = .ok y) :
    let clusters := sys.atoi ((setPipeline m).val "clusters")
    ∃ before, y.2.text = before ++ "Partitions: ".toList ++ sys.io.sizeStr clusters ++ "\nCounts: ".toList ++
      (List.range clusters).flatMap (fun j => sys.io.sizeStr (y.1.packet.data.labels.count j) ++ ['\t']) ++
      ['\n'] := by
  intro clusters
  unfold mainShown at hy
  rw [hm, ok_bind] at hy
  dsimp only at hy
  rw [if_pos hp, hread, ok_bind] at hy
  unfold dispatchShown at hy
  rw [if_pos (by exact Or.inl (List.length_pos_of_ne_nil hne)), if_pos hup] at hy
  unfold processUpscaleShown at hy
  obtain ⟨p, -, h2⟩ := bind_ok.1 hy
  obtain ⟨parts, h3, h4⟩ := bind_ok.1 h2
  rw [pure_eq_ok] at h4
  cases h4
  obtain ⟨h5, h6⟩ := (C06_partition_defined_iff _ _ _).1 ⟨parts, h3⟩
  rw [C06_partition_exact _ _ _ h5 h6] at h3
  cases h3
  refine ⟨p.data.2.text, ?_⟩
  have e : ∀ j, (pointsAt p.data.1.fullData (indicesWhere p.data.1.labels.length
      (fun i => p.data.1.labels[i]? = some j))).length = p.data.1.labels.count j := by
    intro j
    rw [← count_indices]
    unfold pointsAt
    rw [List.length_filterMap_eq_countP, List.countP_eq_length]
    intro i hi
    unfold indicesWhere at hi
    have hi := List.mem_range.1 (List.mem_filter.1 hi).1
    rw [List.getElem?_eq_getElem (by omega)]
    rfl
  simp only [Shown.say, dropShown, List.length_map, List.length_range, List.flatMap_map, e, List.append_assoc]
  rfl

/-- C122 fails: the points of a partition are named by their places in the partition. The line printed for the
partition 200, 206, 202 names the point 2, which is its point 202, the row 4 of the input; the row 2 of the input
is 200. -/
theorem C122_indices_violated :
    let sys := lineSystem [[11], [203]] [0, 0, 1, 1, 1] "10\n12\n200\n206\n202\n201"
    ((mainShown sys quietEnv quietTerminal
      ["-m", "reduced", "-p", "distMatrix.neighGraph.rips.fastPersistence", "-c", "simplexArrayList",
        "-pre", "kmeans++"]).toOption.map (fun y =>
      decide (("\n_______BETTIS_______\n".toList ++ [(⟨0, 0, 500, []⟩ : BettiEntry Int), ⟨0, 0, 4, [2]⟩, ⟨0, 0, 500, []⟩,
        ⟨0, 0, 500, []⟩].flatMap (tableLine quietEnv sys.io)) <:+ y.2.text))) = some true := by
  decide +kernel

/-- The hypotheses of `C122_upscale_counts` are met. -/
example :
    let sys := lineSystem [[11], [203]] [0, 0] "10\n12\n200"
    (mainShown sys quietEnv quietTerminal ["-m", "upscaleBound"]).toOption.map (fun y =>
        decide ("\nPartitions: 1\nCounts: 11\t\n".toList <:+ y.2.text)) = some true := by
  decide +kernel

/-- The hypotheses of C121 are met: three points on a line. -/
example (env : Surround ℝ ℝ) (term : Terminal ℝ ℝ) :
    ∃ (sys : System ℝ ℝ) (m : ArgMap) (y : World (List ℝ) ℝ × Shown) (N : Nat),
      mainShown sys env term (commandLine [("-i", "data.csv"), ("-o", "console")]) = .ok y ∧
      y.2.text = headerShown (commandLine [("-i", "data.csv"), ("-o", "console")]) (setPipeline m) ++
        stagesLog env (setPipeline m) 0 (fourStages 24 env.nodeSize N N N) := by
  let sys : System ℝ ℝ := { realSystem [] [] "00\n02\n09" with
    lib := ⟨.insertion _ _, .insertion _ _, .noPivot, vectorsDistance, fun _ t => .ok t, fun _ w => .ok w⟩ }
  obtain ⟨m, hm⟩ : ∃ m, parseArgs (commandLine [("-i", "data.csv"), ("-o", "console")]) = .ok m := ⟨_, rfl⟩
  have hS : ConsoleCommand sys [("-i", "data.csv"), ("-o", "console")]
      m "simplexTree" [[((0 : Nat) : ℝ)], [((2 : Nat) : ℝ)], [((9 : Nat) : ℝ)]] := by
    cases hm
    exact ⟨rfl, by decide, by decide, Or.inl (by decide), by decide, by decide, by decide, by decide,
      rfl, by simp⟩
  have hedge : rowDist 1 [[((0 : Nat) : ℝ)], [((2 : Nat) : ℝ)], [((9 : Nat) : ℝ)]] 0 1 < 5 := by
    have h := C10_distance_is_euclidean (k := 1) [((0 : Nat) : ℝ)] [((2 : Nat) : ℝ)] rfl rfl
    have h' : vectorsDistance [((0 : Nat) : ℝ)] [((2 : Nat) : ℝ)] = .ok 2 := by
      simp [vectorsDistance, sqDistance, sqDiffs]
    rw [h'] at h
    show dist (point 1 [((0 : Nat) : ℝ)]) (point 1 [((2 : Nat) : ℝ)]) < 5
    rw [← Except.ok.inj h]
    norm_num
  obtain ⟨y, h1, -, -⟩ := C121_console_runs_partial env term rfl rfl hS 1 (by decide) (by simp)
    ⟨0, 1, by decide, by decide, hedge⟩
  exact ⟨sys, m, y, _, h1, (C121_tree_console_partial rfl hS 1 (by decide) (by simp) y h1).2⟩

end LHF
