import Verif.Lemmas.Pipeline

/-!
Properties of argument parsing, mode selection, the stage loop and `main` (C37 to C40, C60 to C62).
-/

namespace LHF

open Spec

/-! ### C37 -/

/-- C37: for every command line made of names and values, every option ends up with the last value given
in short form, else the last value given in long form, else its default; no short form remains; every
other name has the last value given for it, if any. -/
theorem C37_argument_precedence (pairs : List (String × String)) :
    ∃ m, parseArgs (commandLine pairs) = .ok m ∧
      (∀ o ∈ options,
        (∀ v, LastValue pairs o.2.1 v → m o.1 = some v) ∧
        (NotGiven pairs o.2.1 → ∀ v, LastValue pairs o.1 v → m o.1 = some v) ∧
        (NotGiven pairs o.2.1 → NotGiven pairs o.1 → m o.1 = some o.2.2) ∧
        m o.2.1 = none) ∧
      ∀ n, (∀ o ∈ options, n ≠ o.1 ∧ n ≠ o.2.1) →
        (∀ v, LastValue pairs n v → m n = some v) ∧ (NotGiven pairs n → m n = none) := by
  obtain ⟨m', hm', hs⟩ := parseLoop_pairs pairs ArgMap.empty []
  rw [List.append_nil] at hm'
  obtain ⟨hin, hout⟩ := defaults_foldl optionTable m' optionTable_nodup
  have hsub : ∀ o ∈ options, o ∈ optionTable := by decide
  have hsup : ∀ o ∈ optionTable, o ∈ options := by decide
  refine ⟨defaultArguments m', ?_, fun o ho => ?_, fun n hn => ?_⟩
  · unfold parseArgs
    rw [hm']
    rfl
  · obtain ⟨h1, h2⟩ := hin o (hsub o ho)
    refine ⟨fun v hv => ?_, fun hng v hv => ?_, fun hng hng' => ?_, h1⟩
    · unfold defaultArguments
      rw [h2, (hs o.2.1).1 v hv]
    · unfold defaultArguments
      rw [h2, (hs o.2.1).2 hng, (hs o.1).1 v hv]
      rfl
    · unfold defaultArguments
      rw [h2, (hs o.2.1).2 hng, (hs o.1).2 hng']
      rfl
  · have hk : n ∉ optionTable.flatMap (fun o => [o.1, o.2.1]) := by
      intro h
      obtain ⟨o, ho, h⟩ := List.mem_flatMap.1 h
      have := hn o (hsup o ho)
      simp only [List.mem_cons, List.not_mem_nil, or_false] at h
      tauto
    refine ⟨fun v hv => ?_, fun hng => ?_⟩
    · unfold defaultArguments
      rw [hout n hk, (hs n).1 v hv]
    · unfold defaultArguments
      rw [hout n hk, (hs n).2 hng]
      rfl

/-- The cases of C37 are exhaustive: an option is given or not. -/
theorem C37_given_or_not (pairs : List (String × String)) (n : String) :
    NotGiven pairs n ∨ ∃ v, LastValue pairs n v :=
  given_or_not pairs n

/-- C37: a trailing name without a value is a null pointer conversion; without a leading dash it is
ignored. -/
theorem C37_trailing_name (pairs : List (String × String)) (a : String) :
    ((∃ n, Names a n) → parseArgs (commandLine pairs ++ [a]) = .error .null) ∧
    ((∀ n, ¬ Names a n) →
      parseArgs (commandLine pairs ++ [a]) = parseArgs (commandLine pairs)) := by
  obtain ⟨m', hm', -⟩ := parseLoop_pairs pairs ArgMap.empty [a]
  obtain ⟨m'', hm'', hs⟩ := parseLoop_pairs pairs ArgMap.empty []
  refine ⟨fun ⟨n, hn⟩ => ?_, fun hno => ?_⟩
  · unfold parseArgs
    rw [hm', parseLoop, if_pos]
    · rfl
    · rcases hn with h | h
      · rw [h]; rfl
      · rw [h.1]; rfl
  · obtain ⟨n3, h3, hs3⟩ := parseLoop_pairs pairs ArgMap.empty [a]
    have hd : ¬ a.toList.take 1 = ['-'] := by
      intro h
      obtain ⟨n, hn⟩ := exists_names_of_dash h
      exact hno n hn
    have hsame : n3 = m'' := by
      funext n
      rcases given_or_not pairs n with h | ⟨v, h⟩
      · rw [(hs3 n).2 h, (hs n).2 h]
      · rw [(hs3 n).1 v h, (hs n).1 v h]
    unfold parseArgs
    rw [List.append_nil] at hm''
    have e1 : parseLoop [a] n3 = parseLoop [] m'' := by
      rw [hsame]
      conv => lhs; rw [parseLoop, if_neg hd]
      rfl
    rw [h3, hm'', e1]

/-- The hypotheses of C37 are met: `-e 3 --epsilon 4 -e 2 --fn x`. -/
example : ∃ m, parseArgs ["-e", "3", "--epsilon", "4", "-e", "2", "--fn", "x"] = .ok m ∧
    m "epsilon" = some "2" ∧ m "fn" = some "x" ∧ m "clusters" = some "20" ∧ m "e" = none := by
  refine ⟨_, rfl, ?_⟩
  decide

/-! ### C38 -/

theorem val_touch (m : ArgMap) (k k' : String) : (m.touch k).val k' = m.val k' := by
  unfold ArgMap.touch
  split_ifs with h
  · unfold ArgMap.val
    rw [ArgMap.set_apply]
    split_ifs with h'
    · subst h'; rw [h]; rfl
    · rfl
  · rfl

theorem val_set (m : ArgMap) (k v k' : String) :
    (m.set k v).val k' = if k' = k then v else m.val k' := by
  unfold ArgMap.val
  rw [ArgMap.set_apply]
  split_ifs <;> rfl

theorem val_fill (m : ArgMap) (p k' : String) :
    (fillPreprocessor m p).val k' =
      if k' = "preprocessor" then (Setting.fill p).apply (m.val "preprocessor") else m.val k' := by
  have hap : (Setting.fill p).apply (m.val "preprocessor") =
      if m.val "preprocessor" = "" then p else m.val "preprocessor" := rfl
  rw [hap]
  unfold fillPreprocessor
  split_ifs with h h' h'
  · rw [val_set, if_pos h']
  · rw [val_set, if_neg h']
  · rw [val_touch, h']
  · rw [val_touch]

/-- C38: without a pipeline and with mpi off, every mode selects its pipeline, treats preprocessor,
complex type and upscaling as documented and changes no other option. -/
theorem C38_mode_selection (m : ArgMap) (hmpi : m.val "mpi" ≠ "1") (hp : m.val "pipeline" = "")
    (d : Mode) (hd : d ∈ modes) (hmode : m.val "mode" = d.name) :
    (setPipeline m).val "pipeline" = pipelineOf d.stages ∧
    (setPipeline m).val "preprocessor" = d.preprocessor.apply (m.val "preprocessor") ∧
    (setPipeline m).val "complexType" = d.complexType.apply (m.val "complexType") ∧
    (setPipeline m).val "upscale" = d.upscale.apply (m.val "upscale") ∧
    ∀ k, k ∉ ["pipeline", "preprocessor", "complexType", "upscale"] →
      (setPipeline m).val k = m.val k := by
  have e : setPipeline m = setMode ((m.touch "mpi").touch "pipeline") := by
    unfold setPipeline
    dsimp only
    rw [val_touch, if_neg hmpi, val_touch, val_touch, if_pos hp]
  rw [e]
  unfold setMode
  dsimp only
  simp only [val_touch, hmode]
  have hf : pipelineOf fastStages = fastPipeline := by decide
  have hu : pipelineOf ["distMatrix", "neighGraph", "rips", "persistence", "boundary", "upscale"]
      = "distMatrix.neighGraph.rips.persistence.boundary.upscale" := by decide
  have hs : pipelineOf ["slidingwindow"] = "slidingwindow" := by decide
  have hn : pipelineOf ["naivewindow"] = "naivewindow" := by decide
  simp only [modes, List.mem_cons, List.not_mem_nil, or_false] at hd
  simp only [List.mem_cons, List.not_mem_nil, or_false, not_or]
  rcases hd with rfl | rfl | rfl | rfl | rfl | rfl | rfl | rfl | rfl <;>
    simp (config := {decide := true}) only [val_set, val_fill, val_touch, hf, hu, hs, hn, if_true,
      if_false, Setting.apply, true_and] <;>
    (intro k hk; simp [hk.1, hk.2.1, hk.2.2.1, hk.2.2.2])

/-- C38: any other mode leaves the pipeline empty and every option as it was. -/
theorem C38_unknown_mode (m : ArgMap) (hmpi : m.val "mpi" ≠ "1") (hp : m.val "pipeline" = "")
    (hmode : ∀ d ∈ modes, m.val "mode" ≠ d.name) (k : String) :
    (setPipeline m).val k = m.val k := by
  have e : setPipeline m = setMode ((m.touch "mpi").touch "pipeline") := by
    unfold setPipeline
    dsimp only
    rw [val_touch, if_neg hmpi, val_touch, val_touch, if_pos hp]
  rw [e]
  unfold setMode
  dsimp only
  simp only [val_touch]
  simp only [modes, List.mem_cons, List.not_mem_nil, or_false, forall_eq_or_imp, forall_eq] at hmode
  obtain ⟨h1, h2, h3, h4, h5, h6, h7, h8, h9⟩ := hmode
  simp only [h1, h2, h3, h4, h5, h6, h7, h8, h9, if_false, or_self, val_touch]

/-- C38: a pipeline that is given is left alone, with every other option, unless mpi is on. -/
theorem C38_explicit_pipeline_kept_partial (m : ArgMap) (hmpi : m.val "mpi" ≠ "1")
    (hp : m.val "pipeline" ≠ "") (k : String) : (setPipeline m).val k = m.val k := by
  unfold setPipeline
  dsimp only
  rw [val_touch, if_neg hmpi, val_touch, val_touch, if_neg hp, val_touch, val_touch]

/-- C38 is violated with mpi on: whatever pipeline and mode are given, the pipeline is replaced and
upscaling is switched on. -/
theorem C38_mpi_replaces_pipeline_violated (m : ArgMap) (hmpi : m.val "mpi" = "1") :
    (setPipeline m).val "pipeline" = pipelineOf fastStages ∧
    (setPipeline m).val "upscale" = "true" ∧
    (setPipeline m).val "preprocessor" = (Setting.fill "kmeans++").apply (m.val "preprocessor") := by
  have hf : pipelineOf fastStages = fastPipeline := by decide
  unfold setPipeline
  dsimp only
  rw [val_touch, if_pos hmpi, hf]
  simp (config := {decide := true}) only [val_set, val_fill, val_touch, if_true, if_false, true_and]

/-- The hypotheses of C38 are met. -/
example : ∃ m, parseArgs ["-m", "upscaleBound"] = .ok m ∧ m.val "mpi" ≠ "1" ∧ m.val "pipeline" = "" ∧
    m.val "mode" = "upscaleBound" := ⟨_, rfl, by decide⟩
example : ∃ m, parseArgs ["-a", "1", "-p", "rips"] = .ok m ∧ m.val "mpi" = "1" ∧
    m.val "pipeline" = "rips" := ⟨_, rfl, by decide⟩
example : ∃ m, parseArgs ["-m", "other"] = .ok m ∧ m.val "mpi" ≠ "1" ∧ m.val "pipeline" = "" ∧
    ∀ d ∈ modes, m.val "mode" ≠ d.name := ⟨_, rfl, by decide⟩

/-! ### C39 and C40 -/

/-- The stage a name stands for, if there is one and its options are present. -/
def enabledStage (args : ArgMap) (name : String) : Option PipeKind :=
  (newPipe name (args.val "complexType")).filter (fun k => configPipe k args)

theorem runStage_eq {D : Type} (run : PipeKind → D → Res D) (args : ArgMap) (p : Packet D)
    (name : String) :
    runStage run args p name.toList = match enabledStage args name with
      | some k => runPipeWrapper true (pipeType k) (run k) p
      | none => pure p := by
  unfold runStage enabledStage
  rw [String.ofList_toList]
  rcases newPipe name (args.val "complexType") with _ | k
  · rfl
  · dsimp only
    by_cases h : configPipe k args = true
    · rw [if_pos h, Option.filter_some, if_pos h]
    · rw [if_neg h, Option.filter_some, if_neg h]

theorem foldlM_runStage {D : Type} (run : PipeKind → D → Res D) (args : ArgMap)
    (stages : List String) (p : Packet D) :
    (stages.map String.toList).foldlM (runStage run args) p =
      (stages.filterMap (enabledStage args)).foldlM
        (fun q k => runPipeWrapper true (pipeType k) (run k) q) p := by
  induction stages generalizing p with
  | nil => rfl
  | cons s ss ih =>
    rw [List.map_cons, List.foldlM_cons, runStage_eq, List.filterMap_cons]
    rcases enabledStage args s with _ | k
    · exact ih p
    · rw [List.foldlM_cons]
      congr 1
      funext q
      exact ih q

/-- C39: for every non-empty list of names without dots, the pipeline text made of them runs exactly
the stages they name, in this order, each once per occurrence: those that exist and have their
options. -/
theorem C39_runs_components_in_order {D : Type} (run : PipeKind → D → Res D) (args : ArgMap)
    (p : Packet D) (stages : List String) (hne : stages ≠ []) (hdot : ∀ s ∈ stages, '.' ∉ s.toList)
    (hp : args "pipeline" = some (pipelineOf stages)) :
    runPipeline run args p =
      (stages.filterMap (enabledStage args)).foldlM
        (fun q k => runPipeWrapper true (pipeType k) (run k) q) p := by
  have hne' : stages.map String.toList ≠ [] := by simpa using hne
  have hdot' : ∀ c ∈ stages.map String.toList, '.' ∉ c := by
    intro c hc
    obtain ⟨s, hs, rfl⟩ := List.mem_map.1 hc
    exact hdot s hs
  unfold runPipeline
  rw [hp]
  dsimp only [pipelineOf]
  rw [String.toList_ofList, count_joinDots _ hne' hdot', stageNames_joinDots _ hne' hdot']
  exact foldlM_runStage run args stages p

/-- C39 covers every pipeline text: each one is made of dot-free names. -/
theorem C39_every_text (s : String) :
    ∃ stages, stages ≠ [] ∧ (∀ c ∈ stages, '.' ∉ c.toList) ∧ pipelineOf stages = s := by
  obtain ⟨cs, hne, hdot, he⟩ := exists_joinDots s.toList
  refine ⟨cs.map String.ofList, by simpa using hne, ?_, ?_⟩
  · intro c hc
    obtain ⟨x, hx, rfl⟩ := List.mem_map.1 hc
    rw [String.toList_ofList]
    exact hdot x hx
  · unfold pipelineOf
    rw [List.map_map]
    have : String.toList ∘ String.ofList = id := by funext x; simp
    rw [this, List.map_id, he, String.ofList_toList]

theorem stats_foldlM {D : Type} (run : PipeKind → D → Res D) (ks : List PipeKind) (p r : Packet D)
    (h : ks.foldlM (fun q k => runPipeWrapper true (pipeType k) (run k) q) p = .ok r) :
    r.stats = p.stats ++ ks.map pipeType ∧ r.hasComplex = p.hasComplex := by
  induction ks generalizing p with
  | nil => cases h; simp
  | cons k ks ih =>
    rw [List.foldlM_cons] at h
    unfold runPipeWrapper at h
    rw [if_pos rfl] at h
    rcases hd : run k p.data with e | d
    · rw [hd] at h; cases h
    · rw [hd] at h
      by_cases hc : p.hasComplex = true
      · simp only [bind, Except.bind, hc, if_true, pure, Except.pure] at h
        obtain ⟨h1, h2⟩ := ih _ h
        exact ⟨by rw [h1]; simp, by rw [h2, hc]⟩
      · simp only [bind, Except.bind, hc] at h
        cases h

/-- C39: the statistics gain one line for each executed stage, in order. -/
theorem C39_statistics {D : Type} (run : PipeKind → D → Res D) (args : ArgMap)
    (p r : Packet D) (stages : List String) (hne : stages ≠ [])
    (hdot : ∀ s ∈ stages, '.' ∉ s.toList) (hp : args "pipeline" = some (pipelineOf stages))
    (h : runPipeline run args p = .ok r) :
    r.stats = p.stats ++ (stages.filterMap (enabledStage args)).map pipeType := by
  rw [C39_runs_components_in_order run args p stages hne hdot hp] at h
  exact (stats_foldlM run _ p r h).1

/-- The hypotheses of C39 are met, with an unknown and an empty name and a repeated stage. -/
example : ∃ m, parseArgs ["-p", "rips..fast.what.rips"] = .ok m ∧
    m "pipeline" = some (pipelineOf ["rips", "", "fast", "what", "rips"]) ∧
    ["rips", "", "fast", "what", "rips"].filterMap (enabledStage m)
      = [.rips, .fastPersistence, .rips] := ⟨_, rfl, by decide⟩

/-- C40: an unconfigured pipe returns the packet it gets. -/
theorem C40_unconfigured {D : Type} (name : String) (run : D → Res D) (p : Packet D) :
    runPipeWrapper false name run p = .ok p := rfl

/-- C40: which names create a stage. -/
theorem C40_unknown_names (name complexType : String) :
    newPipe name complexType = none ↔
      name ∉ ["distMatrix", "neighGraph", "rips", "upscale", "boundary", "slidingwindow", "sliding",
        "fastPersistence", "fast", "naivewindow", "naive"] ∧
      (name = "persistence" →
        complexType ∉ ["simplexArrayList", "simplexTree", "indSimplexTree"]) := by
  unfold newPipe
  simp only [List.mem_cons, List.not_mem_nil, or_false]
  split_ifs <;> simp_all <;> tauto

/-- C40: a pipeline of which no stage exists with its options leaves the packet alone. -/
theorem C40_no_stage_leaves_packet {D : Type} (run : PipeKind → D → Res D) (args : ArgMap)
    (p : Packet D) (stages : List String) (hne : stages ≠ []) (hdot : ∀ s ∈ stages, '.' ∉ s.toList)
    (hp : args "pipeline" = some (pipelineOf stages))
    (hno : ∀ s ∈ stages, ∀ k, newPipe s (args.val "complexType") = some k →
      ∃ key ∈ requiredKeys k, args key = none) :
    runPipeline run args p = .ok p := by
  rw [C39_runs_components_in_order run args p stages hne hdot hp]
  have : stages.filterMap (enabledStage args) = [] := by
    rw [List.filterMap_eq_nil_iff]
    intro s hs
    unfold enabledStage
    rw [Option.filter_eq_none_iff]
    intro k hk hc
    obtain ⟨key, hkey, he⟩ := hno s hs k hk
    unfold configPipe at hc
    rw [List.all_eq_true] at hc
    have := hc key hkey
    rw [he] at this
    cases this
  rw [this]
  rfl

/-- C40: a missing pipeline option runs nothing. -/
theorem C40_no_pipeline {D : Type} (run : PipeKind → D → Res D) (args : ArgMap) (p : Packet D)
    (h : args "pipeline" = none) : runPipeline run args p = .ok p := by
  unfold runPipeline
  rw [h]
  rfl

example : newPipe "persistence" "other" = none ∧ newPipe "what" "simplexTree" = none := by decide

/-! ### C60 -/

/-- The stages of a mode. -/
def modeKinds (d : Mode) (complexType : String) : List PipeKind :=
  if d.stages = fastStages then [.distMatrix, .neighGraph, .rips, .fastPersistence]
  else if d.stages = ["slidingwindow"] then [.slidingWindow]
  else if d.stages = ["naivewindow"] then [.naiveWindow]
  else if complexType = "indSimplexTree" then
    [.distMatrix, .neighGraph, .rips, .optPersistencePairs, .boundary, .upscale]
  else [.distMatrix, .neighGraph, .rips, .persistencePairs, .boundary, .upscale]

theorem val_of_some {m : ArgMap} {k v : String} (h : m k = some v) : m.val k = v := by
  unfold ArgMap.val; rw [h]; rfl

theorem touch_isSome (m : ArgMap) (k k' : String) (h : (m k').isSome) : ((m.touch k) k').isSome := by
  unfold ArgMap.touch
  split_ifs
  · rw [ArgMap.set_apply]; split_ifs <;> simp_all
  · exact h

theorem set_isSome (m : ArgMap) (k v k' : String) (h : (m k').isSome) : ((m.set k v) k').isSome := by
  rw [ArgMap.set_apply]; split_ifs <;> simp_all

theorem fill_isSome (m : ArgMap) (p k' : String) (h : (m k').isSome) :
    ((fillPreprocessor m p) k').isSome := by
  unfold fillPreprocessor
  split_ifs
  · exact set_isSome _ _ _ _ h
  · exact touch_isSome _ _ _ h

theorem setPipeline_isSome (m : ArgMap) (k : String) (h : (m k).isSome) :
    ((setPipeline m) k).isSome := by
  unfold setPipeline setMode
  dsimp only
  split_ifs <;> repeat' first | exact h | apply set_isSome | apply fill_isSome | apply touch_isSome

theorem some_of_val {m : ArgMap} {k v : String} (h : (m k).isSome) (hv : m.val k = v) :
    m k = some v := by
  unfold ArgMap.val at hv
  rcases hm : m k with _ | w
  · rw [hm] at h; cases h
  · rw [hm] at hv; exact congrArg some hv

theorem parse_isSome (pairs : List (String × String)) (m : ArgMap)
    (hm : parseArgs (commandLine pairs) = .ok m) (o : String × String × String) (ho : o ∈ options) :
    (m o.1).isSome := by
  obtain ⟨m', hm', h, -⟩ := C37_argument_precedence pairs
  rw [hm] at hm'
  cases hm'
  obtain ⟨h1, h2, h3, -⟩ := h o ho
  rcases given_or_not pairs o.2.1 with hn | ⟨v, hv⟩
  · rcases given_or_not pairs o.1 with hn' | ⟨v, hv⟩
    · rw [h3 hn hn']; rfl
    · rw [h2 hn v hv]; rfl
  · rw [h1 v hv]; rfl

/-- C60: for every command line with a known mode, no pipeline of its own, mpi off and a known complex
type, no stage of the mode is skipped: the stages run are those of the mode, in order. -/
theorem C60_known_modes_run_all_stages {D : Type} (run : PipeKind → D → Res D) (p : Packet D)
    (pairs : List (String × String)) (m : ArgMap) (hm : parseArgs (commandLine pairs) = .ok m)
    (hmpi : m.val "mpi" ≠ "1") (hp : m.val "pipeline" = "")
    (d : Mode) (hd : d ∈ modes) (hmode : m.val "mode" = d.name)
    (hct : m.val "complexType" ∈ ["simplexArrayList", "simplexTree", "indSimplexTree"]) :
    runPipeline run (setPipeline m) p =
      (modeKinds d (m.val "complexType")).foldlM
        (fun q k => runPipeWrapper true (pipeType k) (run k) q) p := by
  have hsome : ∀ o ∈ options, ((setPipeline m) o.1).isSome :=
    fun o ho => setPipeline_isSome m _ (parse_isSome pairs m hm o ho)
  have heps : ((setPipeline m) "epsilon").isSome := hsome ("epsilon", "e", "5") (by decide)
  have hdim : ((setPipeline m) "dimensions").isSome := hsome ("dimensions", "d", "1") (by decide)
  have htw : ((setPipeline m) "twist").isSome := hsome ("twist", "t", "false") (by decide)
  have hpl : ((setPipeline m) "pipeline").isSome := hsome ("pipeline", "p", "") (by decide)
  obtain ⟨h1, -, h3, -, -⟩ := C38_mode_selection m hmpi hp d hd hmode
  have hcfg : ∀ k, configPipe k (setPipeline m) = true := by
    intro k
    unfold configPipe
    cases k <;> simp [requiredKeys, heps, hdim, htw]
  have hne : d.stages ≠ [] := by
    clear h1 h3 hmode
    revert d; decide
  have hdot : ∀ s ∈ d.stages, '.' ∉ s.toList := by
    clear h1 h3 hmode
    revert d; decide
  rw [C39_runs_components_in_order run _ p d.stages hne hdot (some_of_val hpl h1)]
  congr 1
  have hen : ∀ s, enabledStage (setPipeline m) s =
      newPipe s (d.complexType.apply (m.val "complexType")) := by
    intro s
    unfold enabledStage
    rw [h3]
    rcases newPipe s (d.complexType.apply (m.val "complexType")) with _ | k
    · rfl
    · rw [Option.filter_some, if_pos (hcfg k)]
  rw [funext hen]
  generalize m.val "complexType" = ct at hct
  simp only [List.mem_cons, List.not_mem_nil, or_false] at hct
  clear hen hdot hne h1 h3 hmode
  rcases hct with rfl | rfl | rfl <;> revert d <;> decide

/-- The hypotheses of C60 are met. -/
example : ∃ m, parseArgs (commandLine [("-m", "fast"), ("-e", "2")]) = .ok m ∧ m.val "mpi" ≠ "1" ∧
    m.val "pipeline" = "" ∧ m.val "mode" = "fast" ∧ m.val "complexType" = "simplexTree" :=
  ⟨_, rfl, by decide⟩

/-! ### C62 -/

theorem foldlM_null {D : Type} (run : PipeKind → D → Res D) (ks : List PipeKind) (p : Packet D)
    (hne : ks ≠ []) (hc : p.hasComplex = false) (r : Packet D) :
    ks.foldlM (fun q k => runPipeWrapper true (pipeType k) (run k) q) p ≠ .ok r := by
  rcases ks with _ | ⟨k, ks⟩
  · exact absurd rfl hne
  · rw [List.foldlM_cons]
    unfold runPipeWrapper
    rw [if_pos rfl]
    rcases run k p.data with e | d
    · intro h; cases h
    · simp only [bind, Except.bind, hc]
      intro h; cases h

/-- C62 is violated: with an unknown complex type every pipeline of which a stage is run has undefined
behaviour, whatever the stage does. -/
theorem C62_unknown_complex_type_violated {D : Type} (run : PipeKind → D → Res D) (args : ArgMap)
    (data : D) (stages : List String) (hne : stages ≠ []) (hdot : ∀ s ∈ stages, '.' ∉ s.toList)
    (hp : args "pipeline" = some (pipelineOf stages))
    (hct : args.val "complexType" ∉ ["simplexArrayList", "simplexTree", "indSimplexTree"])
    (hrun : ∃ s ∈ stages, ∃ k, enabledStage args s = some k) (r : Packet D) :
    runPipeline run args (newPacket (args.val "complexType") data) ≠ .ok r := by
  rw [C39_runs_components_in_order run args _ stages hne hdot hp]
  apply foldlM_null
  · obtain ⟨s, hs, k, hk⟩ := hrun
    intro h
    have : k ∈ stages.filterMap (enabledStage args) := List.mem_filterMap.2 ⟨s, hs, hk⟩
    rw [h] at this
    cases this
  · unfold newPacket
    simp only [List.mem_cons, List.not_mem_nil, or_false, not_or] at hct
    simp [hct]

/-- C62: with a known complex type the wrapper adds no failure of its own. -/
theorem C62_known_complex_type_partial {D : Type} (run : PipeKind → D → D) (args : ArgMap)
    (data : D) (stages : List String) (hne : stages ≠ []) (hdot : ∀ s ∈ stages, '.' ∉ s.toList)
    (hp : args "pipeline" = some (pipelineOf stages))
    (hct : args.val "complexType" ∈ ["simplexArrayList", "simplexTree", "indSimplexTree"]) :
    runPipeline (fun k d => .ok (run k d)) args (newPacket (args.val "complexType") data) =
      .ok ⟨(stages.filterMap (enabledStage args)).map pipeType, true,
        (stages.filterMap (enabledStage args)).foldl (fun d k => run k d) data⟩ := by
  rw [C39_runs_components_in_order _ args _ stages hne hdot hp]
  have hn : newPacket (args.val "complexType") data = ⟨[], true, data⟩ := by
    unfold newPacket
    simp only [List.mem_cons, List.not_mem_nil, or_false] at hct
    rcases hct with h | h | h <;> simp [h]
  rw [hn]
  have key : ∀ (ks : List PipeKind) (st : List String) (d : D),
      ks.foldlM (fun q k => runPipeWrapper true (pipeType k) (fun d => Except.ok (run k d)) q)
        (⟨st, true, d⟩ : Packet D)
      = (.ok ⟨st ++ ks.map pipeType, true, ks.foldl (fun d k => run k d) d⟩ : Res (Packet D)) := by
    intro ks
    induction ks with
    | nil => intro st d; simp; rfl
    | cons k ks ih =>
      intro st d
      rw [List.foldlM_cons]
      have : runPipeWrapper true (pipeType k) (fun d => Except.ok (run k d)) (⟨st, true, d⟩ : Packet D)
          = .ok ⟨st ++ [pipeType k], true, run k d⟩ := rfl
      rw [this]
      have := ih (st ++ [pipeType k]) (run k d)
      simp only [bind, Except.bind]
      rw [this]
      simp
  rw [key]
  simp

/-- The hypotheses of C62 are met. -/
example : ∃ m, parseArgs ["-c", "other"] = .ok m ∧
    (setPipeline m) "pipeline" = some (pipelineOf fastStages) ∧
    (setPipeline m).val "complexType" ∉ ["simplexArrayList", "simplexTree", "indSimplexTree"] ∧
    enabledStage (setPipeline m) "rips" = some .rips := ⟨_, rfl, by decide⟩

end LHF
