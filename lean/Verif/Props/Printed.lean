import Verif.Props.Console

/-! C137: what a run prints, whatever its pipeline; names that are no stages are reported. -/

namespace LHF
open Spec

variable {K W : Type}

/-- What a stage prints whatever the output name is: nothing, if it is one of the default stages and the complex is
a simplexTree or a simplexArrayList, or if it is persistencePairs, with these complexes and without debugging; with an
indSimplexTree, if there is no collapse and no debugging, at most that
it is sorted. -/
structure Spec.SaysItself (args : ArgMap) (k : PipeKind) (own : List Char) : Prop where
  silent : k = .distMatrix ∨ k = .upscale ∨ ((k = .neighGraph ∨ k = .rips ∨ k = .fastPersistence) ∧
    args.val "complexType" ≠ "indSimplexTree") → own = []
  pairs : k = .persistencePairs → args.val "complexType" ≠ "indSimplexTree" → args.val "debug" = "0" → own = []
  edges : k = .neighGraph → args.val "debug" = "0" → own = []
  rips : k = .rips → args.val "collapse" ≠ "true" → args.val "collapse" ≠ "1" → own = []
  sorted : k = .fastPersistence → args.val "debug" = "0" → own = [] ∨
    own = "========================    SORTING    ===============================\n".toList

/-- What is printed for one name of the pipeline: the failure, if there is no stage of this name; else what the
stage prints itself and, if the output name is "console", the messages of the stage before, and after that its time
and the size of the data. -/
def Spec.NamePart (env : Surround K W) (args : ArgMap) (name : String) (part : List Char) : Prop :=
  match newPipe name (args.val "complexType") with
  | none => part = "LHF : Failed to configure pipeline: ".toList ++ (args.val "pipeline").toList ++ ['\n']
  | some k => ∃ own, SaysItself args k own ∧
    if args.val "outputFile" = "console" then
      ∃ timed size, part = env.messages k args ++ own ++ stageLog env timed (pipeType k) size
    else part = own

theorem says_itself {term : Terminal K W} {args : ArgMap} (k : PipeKind) (before after : Work (List K) W) :
    SaysItself args k (stageDirect term args k before after) where
  silent := by
    rintro (rfl | rfl | ⟨rfl | rfl | rfl, h⟩)
    · rfl
    · rfl
    · simp [stageDirect, h]
    · simp [stageDirect, h]
    · simp [stageDirect, h]
  pairs := by
    rintro rfl h1 h2
    simp [stageDirect, h1, h2]
  edges := by
    rintro rfl h
    simp [stageDirect, h]
  rips := by
    rintro rfl h1 h2
    simp [stageDirect, h1, h2]
  sorted := by
    rintro rfl h
    unfold stageDirect sortingLine
    dsimp only
    split_ifs with h1 h2
    · exact absurd h h2
    · split
      · split_ifs
        · exact Or.inl rfl
        · exact Or.inr rfl
      · exact Or.inl rfl
    · exact Or.inl rfl

/-- What is printed for the preprocessor: nothing if there is none; the failure, if there is none of this name;
two lines for the name "none"; else its messages, if the output name is "console", what it says itself (k-means++ one
line, DenStream nothing), and a line with its name and its time. -/
def Spec.PrePart (env : Surround K W) (pre : PreKind → Work (List K) W → Res (Work (List K) W))
    (args : ArgMap) (work : Work (List K) W) (part : List Char) : Prop :=
  if args.val "preprocessor" = "" then part = []
  else match newPreprocessor (args.val "preprocessor") with
    | none => part = "LHF : Failed to configure pipeline: ".toList ++ (args.val "pipeline").toList ++ ['\n']
    | some .base => part = "No configure function defined for: preprocessor\n".toList ++
        "[preprocessor]:\tPreprocessor not configured\n".toList
    | some k => ∃ work' own seconds, pre k work = .ok work' ∧
        (k = .kmeans → own = "Clustered data...\n".toList) ∧ (k = .denStream → own = []) ∧
        part = (if args.val "outputFile" = "console" then env.preMessages k args else []) ++ own ++
          "\tPipeline ".toList ++ (if k = .kmeans then "k-means++" else if k = .denStream then "DenStream"
            else "streamingKmeans").toList ++ " executed in ".toList ++ seconds ++
          " seconds (physical time)\n\n".toList

theorem name_part {env : Surround K W} {term : Terminal K W} {args : ArgMap}
    {run : PipeKind → Work (List K) W → Res (Work (List K) W)} (hcfg : ∀ k, configPipe k args = true)
    {p q : Packet (Work (List K) W × Shown)} {name : String}
    (h : runStageShown (stageShown env term args run) args p name.toList = .ok q) :
    ∃ part, NamePart env args name part ∧ q.data.2.text = p.data.2.text ++ part := by
  unfold NamePart
  cases hn : newPipe name (args.val "complexType") with
  | none =>
    have hf : stageFailed args name.toList = true := by
      unfold stageFailed
      rw [String.ofList_toList, hn]
    unfold runStageShown runStage at h
    rw [String.ofList_toList, hn] at h
    dsimp only at h
    rw [pure_eq_ok, ok_bind, if_pos hf, pure_eq_ok] at h
    cases h
    exact ⟨_, rfl, rfl⟩
  | some k =>
    have hf : ¬ stageFailed args name.toList = true := by
      unfold stageFailed
      rw [String.ofList_toList, hn]
      simp [hcfg k]
    unfold runStageShown runStage at h
    rw [String.ofList_toList, hn] at h
    dsimp only at h
    rw [if_pos (hcfg k)] at h
    obtain ⟨a, h1, h2⟩ := bind_ok.1 h
    rw [if_neg hf, pure_eq_ok] at h2
    cases h2
    unfold runPipeWrapper at h1
    rw [if_pos rfl] at h1
    obtain ⟨b, h3, h4⟩ := bind_ok.1 h1
    have hq : q.data = b := by
      by_cases hh : p.hasComplex = true
      · rw [if_pos hh] at h4
        cases h4
        rfl
      · rw [if_neg hh] at h4
        cases h4
    unfold stageShown at h3
    obtain ⟨w, h5, h6⟩ := bind_ok.1 h3
    rw [pure_eq_ok] at h6
    cases h6
    refine ⟨logShown args (env.messages k args) ++ stageDirect term args k p.data.1 w ++
      logShown args (stageLog env p.data.2.timed (pipeType k) (packetSize env w)),
      ⟨_, says_itself (term := term) k p.data.1 w, ?_⟩, by rw [hq]; simp only [List.append_assoc]⟩
    unfold logShown
    by_cases hc : args.val "outputFile" = "console"
    · rw [if_pos hc, if_pos hc, if_pos hc]
      exact ⟨_, _, rfl⟩
    · rw [if_neg hc, if_neg hc, if_neg hc, List.nil_append, List.append_nil]

theorem names_parts {env : Surround K W} {term : Terminal K W} {args : ArgMap}
    {run : PipeKind → Work (List K) W → Res (Work (List K) W)} (hcfg : ∀ k, configPipe k args = true)
    (stages : List String) {p q : Packet (Work (List K) W × Shown)}
    (h : (stages.map String.toList).foldlM (runStageShown (stageShown env term args run) args) p = .ok q) :
    ∃ parts, List.Forall₂ (NamePart env args) stages parts ∧ q.data.2.text = p.data.2.text ++ parts.flatten := by
  induction stages generalizing p with
  | nil =>
    cases h
    exact ⟨[], List.Forall₂.nil, by simp⟩
  | cons s ss ih =>
    rw [List.map_cons, List.foldlM_cons] at h
    obtain ⟨a, h1, h2⟩ := bind_ok.1 h
    obtain ⟨part, h3, h4⟩ := name_part hcfg h1
    obtain ⟨parts, h5, h6⟩ := ih h2
    exact ⟨part :: parts, List.Forall₂.cons h3 h5, by rw [h6, h4, List.flatten_cons, List.append_assoc]⟩

theorem pre_direct (term : Terminal K W) {k : PreKind} (timed : Nat)
    {pre : PreKind → Work (List K) W → Res (Work (List K) W)} {before after : Work (List K) W}
    (_ : pre k before = .ok after) (hk : k ≠ .base) :
    ∃ own, (k = .kmeans → own = "Clustered data...\n".toList) ∧ (k = .denStream → own = []) ∧
      preDirect term k timed before after = own ++
        "\tPipeline ".toList ++ (if k = .kmeans then "k-means++" else if k = .denStream then "DenStream"
            else "streamingKmeans").toList ++ " executed in ".toList ++ term.seconds timed ++
          " seconds (physical time)\n\n".toList := by
  cases k with
  | base => exact absurd rfl hk
  | kmeans => exact ⟨"Clustered data...\n".toList, fun _ => rfl, (by simp), rfl⟩
  | streamingKmeans => exact ⟨term.preSays .streamingKmeans before after, (by simp), (by simp), rfl⟩
  | denStream => exact ⟨[], (by simp), fun _ => rfl, rfl⟩

theorem pre_part {env : Surround K W} {term : Terminal K W} {args : ArgMap}
    {pre : PreKind → Work (List K) W → Res (Work (List K) W)} (hcfg : ∀ k, configPreprocessor k args = true)
    {p q : Packet (Work (List K) W × Shown)}
    (h : preprocessShown (preShown env term args pre) args p = .ok q) :
    ∃ part, PrePart env pre args p.data.1 part ∧ q.data.2.text = p.data.2.text ++ part := by
  unfold preprocessShown preprocess preFailText at h
  unfold PrePart
  by_cases h0 : args.val "preprocessor" = ""
  · rw [if_neg (by simpa using h0), if_neg (by simpa using h0), pure_eq_ok, ok_bind, pure_eq_ok] at h
    cases h
    exact ⟨[], by rw [if_pos h0], by simp [Shown.say]⟩
  · rw [if_pos h0, if_pos h0] at h
    simp only [if_neg h0]
    cases hn : newPreprocessor (args.val "preprocessor") with
    | none =>
      rw [hn] at h
      dsimp only at h
      rw [pure_eq_ok, ok_bind, pure_eq_ok] at h
      cases h
      exact ⟨_, rfl, rfl⟩
    | some k =>
      rw [hn] at h
      dsimp only at h
      rw [if_pos (hcfg k), if_pos (hcfg k)] at h
      obtain ⟨a, h1, h2⟩ := bind_ok.1 h
      rw [pure_eq_ok] at h2
      cases h2
      unfold runPreprocessorWrapper at h1
      cases k with
      | base =>
        rw [if_neg (by simp [preConfigured]), pure_eq_ok] at h1
        cases h1
        exact ⟨_, rfl, rfl⟩
      | _ =>
        simp only [preConfigured, if_true] at h1
        obtain ⟨b, h3, h4⟩ := bind_ok.1 h1
        rw [pure_eq_ok] at h4
        cases h4
        unfold preShown at h3
        obtain ⟨w, h5, h6⟩ := bind_ok.1 h3
        rw [pure_eq_ok] at h6
        cases h6
        obtain ⟨own, h7, h8, h9⟩ := pre_direct term p.data.2.timed h5 (by simp)
        rw [h9]
        refine ⟨_, ⟨w, own, term.seconds p.data.2.timed, h5, h7, h8, rfl⟩, ?_⟩
        simp only [Shown.say, preConfigured, logShown, if_true, List.append_nil, List.append_assoc]

/-- C137: for every command line, whatever its pipeline, preprocessor, mode (but `reduced`) and complex type,
without upscaling, what a run prints is the settings, then what belongs to the preprocessor, then what belongs
to each name of the pipeline, in order. -/
theorem C137_printed [LinearOrder W] [Ring W] (sys : System K W) (env : Surround K W) (term : Terminal K W)
    (pairs : List (String × String)) (m : ArgMap) (hm : parseArgs (commandLine pairs) = .ok m)
    (hup : (setPipeline m).val "upscale" ≠ "true") (hmode : (setPipeline m).val "mode" ≠ "reduced")
    (hsw : (setPipeline m).val "pipeline" ≠ "slidingwindow")
    (data : List (List K)) (hread : readCSV sys.inIO (sys.files ((setPipeline m).val "inputFile")) = .ok data)
    (hne : data ≠ []) (names : List String) (hnames : names ≠ []) (hdot : ∀ s ∈ names, '.' ∉ s.toList)
    (hp : (setPipeline m).val "pipeline" = pipelineOf names)
    (y : World (List K) W × Shown) (hy : mainShown sys env term (commandLine pairs) = .ok y) :
    ∃ pre parts, y.2.text = headerShown (commandLine pairs) (setPipeline m) ++ pre ++ parts.flatten ∧
      PrePart env (sys.pre (setPipeline m)) (setPipeline m)
        ⟨data, data, [], newComplex ((setPipeline m).val "complexType"), [], [], []⟩ pre ∧
      List.Forall₂ (NamePart env (setPipeline m)) names parts := by
  have hsome : ∀ o ∈ options, ((setPipeline m) o.1).isSome :=
    fun o ho => setPipeline_isSome m _ (parse_isSome pairs m hm o ho)
  have heps : ((setPipeline m) "epsilon").isSome := hsome ("epsilon", "e", "5") (by decide)
  have hdim : ((setPipeline m) "dimensions").isSome := hsome ("dimensions", "d", "1") (by decide)
  have htw : ((setPipeline m) "twist").isSome := hsome ("twist", "t", "false") (by decide)
  have hpl : ((setPipeline m) "pipeline").isSome := hsome ("pipeline", "p", "") (by decide)
  have hcfg : ∀ k, configPipe k (setPipeline m) = true := by
    intro k
    unfold configPipe
    cases k <;> simp [requiredKeys, heps, hdim, htw]
  have hpcfg : ∀ k, configPreprocessor k (setPipeline m) = true := by
    intro k
    have k1 : ((setPipeline m) "clusters").isSome := hsome ("clusters", "k", "20") (by decide)
    have k2 : ((setPipeline m) "iterations").isSome := hsome ("iterations", "r", "250") (by decide)
    have k3 : ((setPipeline m) "lambda").isSome := hsome ("lambda", "l", ".25") (by decide)
    cases k <;> simp [configPreprocessor, preRequiredKeys, k1, k2, k3, heps]
  have hopen : sys.files ((setPipeline m).val "inputFile") ≠ none := by
    intro h0
    rw [h0] at hread
    exact hne (Except.ok.inj hread).symm
  unfold mainShown at hy
  rw [hm, ok_bind] at hy
  dsimp only at hy
  rw [if_pos hsw, hread, ok_bind, if_neg (fun h => hopen h.2), List.append_nil] at hy
  unfold dispatchShown at hy
  rw [if_pos (by exact Or.inl (List.length_pos_of_ne_nil hne)), if_neg hup, if_neg hmode] at hy
  unfold processDataShown at hy
  obtain ⟨q, h1, h2⟩ := bind_ok.1 hy
  obtain ⟨pre, h3, h4⟩ := pre_part hpcfg h1
  unfold runPipelineShown at h2
  have hps := some_of_val hpl hp
  rw [hps] at h2
  dsimp only at h2
  obtain ⟨r, h5, h6⟩ := bind_ok.1 h2
  rw [pure_eq_ok] at h6
  cases h6
  rw [runNames_fold _ _ _ names hnames hdot hps] at h5
  obtain ⟨parts, h7, h8⟩ := names_parts hcfg names h5
  refine ⟨pre, parts, ?_, h3, h7⟩
  rw [h8]
  show q.data.2.text ++ _ = _
  rw [h4]
  rfl

/-- The stages that print nothing of their own: the distances and the upscaling, and those of a default run, unless
the complex is an indSimplexTree, and with the same complexes and `debug` 0 persistencePairs. -/
def Spec.QuietStage (args : ArgMap) (name : String) : Prop :=
  name = "distMatrix" ∨ name = "upscale" ∨ ((name = "neighGraph" ∨ name = "rips" ∨ name = "fastPersistence" ∨
    name = "fast") ∧ args.val "complexType" ≠ "indSimplexTree") ∨
  (name = "persistence" ∧ args.val "complexType" ≠ "indSimplexTree" ∧ args.val "debug" = "0")

theorem quiet_parts {env : Surround K W} {args : ArgMap} (hq : args.val "outputFile" ≠ "console")
    {names : List String} {parts : List (List Char)} (h : List.Forall₂ (NamePart env args) names parts)
    (hquiet : ∀ s ∈ names, QuietStage args s ∨ newPipe s (args.val "complexType") = none) :
    parts.flatten = (List.replicate (names.filter (fun s => newPipe s (args.val "complexType") = none)).length
      ("LHF : Failed to configure pipeline: ".toList ++ (args.val "pipeline").toList ++ ['\n'])).flatten := by
  induction h with
  | nil => rfl
  | @cons s part ss parts h1 h2 ih =>
    unfold NamePart at h1
    rw [List.flatten_cons, ih (fun s hs => hquiet s (List.mem_cons_of_mem _ hs))]
    cases hn : newPipe s (args.val "complexType") with
    | none =>
      rw [hn] at h1
      rw [List.filter_cons_of_pos (by simpa using hn), List.length_cons, List.replicate_succ, List.flatten_cons, h1]
    | some k =>
      rw [hn] at h1
      dsimp only at h1
      obtain ⟨own, h3, h4⟩ := h1
      rw [if_neg hq] at h4
      have h5 : own = [] := by
        rcases hquiet s (by simp) with h | h
        · unfold QuietStage at h
          rcases h with rfl | rfl | ⟨rfl | rfl | rfl | rfl, h⟩ | ⟨rfl, h, hdb⟩
          iterate 6
            apply h3.silent
            simp [newPipe] at hn
            subst hn
            simp [*]
          have hk : k = .persistencePairs := by
            simp [newPipe, h] at hn
            exact hn.2.symm
          exact h3.pairs hk h hdb
        · rw [hn] at h; cases h
      rw [List.filter_cons_of_neg (by simp [hn]), h4, h5, List.nil_append]

/-- C137: with an output file, without preprocessor and with stages that print nothing of their own, a run prints
the settings, and then a line for each name of the pipeline that is no stage; so if it prints no such line, all names
are stages (and are run, by C39). -/
theorem C137_quiet [LinearOrder W] [Ring W] (sys : System K W) (env : Surround K W) (term : Terminal K W)
    (pairs : List (String × String)) (m : ArgMap) (hm : parseArgs (commandLine pairs) = .ok m)
    (hup : (setPipeline m).val "upscale" ≠ "true") (hmode : (setPipeline m).val "mode" ≠ "reduced")
    (hsw : (setPipeline m).val "pipeline" ≠ "slidingwindow")
    (hout : (setPipeline m).val "outputFile" ≠ "console") (hpre : (setPipeline m).val "preprocessor" = "")
    (data : List (List K)) (hread : readCSV sys.inIO (sys.files ((setPipeline m).val "inputFile")) = .ok data)
    (hne : data ≠ []) (names : List String) (hnames : names ≠ []) (hdot : ∀ s ∈ names, '.' ∉ s.toList)
    (hquiet : ∀ s ∈ names, QuietStage (setPipeline m) s ∨ newPipe s ((setPipeline m).val "complexType") = none)
    (hp : (setPipeline m).val "pipeline" = pipelineOf names)
    (y : World (List K) W × Shown) (hy : mainShown sys env term (commandLine pairs) = .ok y) :
    y.2.text = headerShown (commandLine pairs) (setPipeline m) ++ (List.replicate
        (names.filter (fun s => newPipe s ((setPipeline m).val "complexType") = none)).length
        ("LHF : Failed to configure pipeline: ".toList ++ (pipelineOf names).toList ++ ['\n'])).flatten ∧
    (y.2.text = headerShown (commandLine pairs) (setPipeline m) ↔
      ∀ s ∈ names, (newPipe s ((setPipeline m).val "complexType")).isSome) := by
  obtain ⟨pre, parts, h1, h2, h3⟩ := C137_printed sys env term pairs m hm hup hmode hsw data hread hne names hnames
    hdot hp y hy
  unfold PrePart at h2
  rw [if_pos hpre] at h2
  rw [h2, List.append_nil, quiet_parts hout h3 hquiet, hp] at h1
  refine ⟨h1, ?_⟩
  rw [h1, List.append_right_eq_self]
  constructor
  · intro h s hs
    by_contra hn
    have hmem : s ∈ names.filter (fun s => newPipe s ((setPipeline m).val "complexType") = none) :=
      List.mem_filter.2 ⟨hs, by simpa using hn⟩
    obtain ⟨n, hn'⟩ := Nat.exists_eq_succ_of_ne_zero (List.length_pos_of_mem hmem).ne'
    rw [hn', List.replicate_succ, List.flatten_cons] at h
    simp at h
  · intro h
    rw [List.filter_eq_nil_iff.2]
    · rfl
    · intro s hs
      have := h s hs
      simp only [decide_eq_true_eq]
      intro h0
      rw [h0] at this
      cases this

/-- C137 with upscaling: the settings, what belongs to the preprocessor, and the numbers of rows. -/
theorem C137_printed_upscale [LinearOrder W] [Ring W] (sys : System K W) (env : Surround K W)
    (term : Terminal K W) (pairs : List (String × String)) (m : ArgMap)
    (hm : parseArgs (commandLine pairs) = .ok m)
    (hup : (setPipeline m).val "upscale" = "true") (hsw : (setPipeline m).val "pipeline" ≠ "slidingwindow")
    (data : List (List K)) (hread : readCSV sys.inIO (sys.files ((setPipeline m).val "inputFile")) = .ok data)
    (hne : data ≠ []) (y : World (List K) W × Shown)
    (hy : mainShown sys env term (commandLine pairs) = .ok y) :
    let clusters := sys.atoi ((setPipeline m).val "clusters")
    ∃ pre, y.2.text = headerShown (commandLine pairs) (setPipeline m) ++ pre ++ "Partitions: ".toList ++ sys.io.sizeStr clusters ++
        "\nCounts: ".toList ++
        (List.range clusters).flatMap (fun j => sys.io.sizeStr (y.1.packet.data.labels.count j) ++ ['\t']) ++
        ['\n'] ∧
      PrePart env (sys.pre (setPipeline m)) (setPipeline m)
        ⟨data, data, [], newComplex ((setPipeline m).val "complexType"), [], [], []⟩ pre := by
  intro clusters
  have hsome : ∀ o ∈ options, ((setPipeline m) o.1).isSome :=
    fun o ho => setPipeline_isSome m _ (parse_isSome pairs m hm o ho)
  have k0 : ((setPipeline m) "epsilon").isSome := hsome ("epsilon", "e", "5") (by decide)
  have k1 : ((setPipeline m) "clusters").isSome := hsome ("clusters", "k", "20") (by decide)
  have k2 : ((setPipeline m) "iterations").isSome := hsome ("iterations", "r", "250") (by decide)
  have k3 : ((setPipeline m) "lambda").isSome := hsome ("lambda", "l", ".25") (by decide)
  have hpcfg : ∀ k, configPreprocessor k (setPipeline m) = true := by
    intro k
    cases k <;> simp [configPreprocessor, preRequiredKeys, k0, k1, k2, k3]
  have hopen : sys.files ((setPipeline m).val "inputFile") ≠ none := by
    intro h0
    rw [h0] at hread
    exact hne (Except.ok.inj hread).symm
  unfold mainShown at hy
  rw [hm, ok_bind] at hy
  dsimp only at hy
  rw [if_pos hsw, hread, ok_bind, if_neg (fun h => hopen h.2), List.append_nil] at hy
  unfold dispatchShown at hy
  rw [if_pos (by exact Or.inl (List.length_pos_of_ne_nil hne)), if_pos hup] at hy
  unfold processUpscaleShown at hy
  obtain ⟨q, h1, h2⟩ := bind_ok.1 hy
  obtain ⟨pre, h3, h4⟩ := pre_part hpcfg h1
  obtain ⟨parts, h5, h6⟩ := bind_ok.1 h2
  rw [pure_eq_ok] at h6
  cases h6
  obtain ⟨h7, h8⟩ := (C06_partition_defined_iff _ _ _).1 ⟨parts, h5⟩
  rw [C06_partition_exact _ _ _ h7 h8] at h5
  cases h5
  refine ⟨pre, ?_, h3⟩
  have e : ∀ j, (pointsAt q.data.1.fullData (indicesWhere q.data.1.labels.length
      (fun i => q.data.1.labels[i]? = some j))).length = q.data.1.labels.count j := by
    intro j
    rw [← count_indices]
    unfold pointsAt
    rw [List.length_filterMap_eq_countP, List.countP_eq_length]
    intro i hi
    unfold indicesWhere at hi
    have hi := List.mem_range.1 (List.mem_filter.1 hi).1
    rw [List.getElem?_eq_getElem (by omega)]
    rfl
  simp only [Shown.say, dropShown, List.length_map, List.length_range, List.flatMap_map, e, List.append_assoc, h4]
  rfl

/-- What is printed for one of the runs of the mode "reduced", on `n` points. -/
def Spec.RunPart (env : Surround K W) (io : TextNum W) (args : ArgMap) (names : List String) (n : Nat)
    (part : List Char) : Prop :=
  (n = 0 ∧ part = "skipping\n".toList) ∨
  (0 < n ∧ ∃ parts, List.Forall₂ (NamePart env args) names parts ∧
    part = "Running Pipeline with : ".toList ++ io.sizeStr n ++ " vectors\n".toList ++ parts.flatten)

theorem run_part {env : Surround K W} {term : Terminal K W} {io : TextNum W} {args : ArgMap}
    {run : PipeKind → Work (List K) W → Res (Work (List K) W)} (hcfg : ∀ k, configPipe k args = true)
    {names : List String} (hnames : names ≠ []) (hdot : ∀ s ∈ names, '.' ∉ s.toList)
    (hp : args "pipeline" = some (pipelineOf names)) {x y : World (List K) W × Shown}
    (h : runPipelineShown io (stageShown env term args run) args x = .ok y) :
    ∃ parts, List.Forall₂ (NamePart env args) names parts ∧ y.2.text = x.2.text ++ parts.flatten := by
  unfold runPipelineShown at h
  rw [hp] at h
  dsimp only at h
  obtain ⟨r, h5, h6⟩ := bind_ok.1 h
  rw [pure_eq_ok] at h6
  cases h6
  rw [runNames_fold _ _ _ names hnames hdot hp] at h5
  obtain ⟨parts, h7, h8⟩ := names_parts hcfg names h5
  exact ⟨parts, h7, h8⟩

theorem reduced_part [LinearOrder W] [AddMonoid W] {env : Surround K W} {term : Terminal K W} {io : TextNum W} {args : ArgMap}
    {strict : Bool}
    {run : PipeKind → Work (List K) W → Res (Work (List K) W)} (hcfg : ∀ k, configPipe k args = true)
    {names : List String} (hnames : names ≠ []) (hdot : ∀ s ∈ names, '.' ∉ s.toList)
    (hp : args "pipeline" = some (pipelineOf names)) {P : List (List Nat) × List (List (List K))}
    {st st' : (World (List K) W × Shown) × List (BettiEntry W)} {z : Nat}
    (h : reducedStepShown io strict (runPipelineShown io (stageShown env term args run) args) P st z = .ok st') :
    ∃ pts part, P.2[z]? = some pts ∧ RunPart env io args names pts.length part ∧
      st'.1.2.text = st.1.2.text ++ part := by
  unfold reducedStepShown at h
  obtain ⟨pts, h1, h2⟩ := bind_ok.1 h
  have hz := vget_ok.1 h1
  by_cases hn : pts.length > 0
  · rw [if_pos hn] at h2
    obtain ⟨x, h3, h4⟩ := bind_ok.1 h2
    obtain ⟨w, h5, h6⟩ := bind_ok.1 h4
    obtain ⟨labels, h7, h8⟩ := bind_ok.1 h6
    obtain ⟨table, h9, h10⟩ := bind_ok.1 h8
    rw [pure_eq_ok] at h10
    obtain ⟨parts, h11, h12⟩ := run_part hcfg hnames hdot hp h3
    refine ⟨pts, runningText io pts.length ++ parts.flatten, hz, Or.inr ⟨hn, parts, h11, ?_⟩, ?_⟩
    · unfold runningText
      rw [List.append_assoc]
    · rw [← Except.ok.inj h10]
      dsimp only
      rw [h12]
      dsimp only [Shown.say]
      rw [List.append_assoc]
  · rw [if_neg hn, pure_eq_ok] at h2
    cases h2
    exact ⟨pts, _, hz, Or.inl ⟨by omega, rfl⟩, rfl⟩

theorem reduced_parts [LinearOrder W] [AddMonoid W] {env : Surround K W} {term : Terminal K W} {io : TextNum W} {args : ArgMap}
    {strict : Bool}
    {run : PipeKind → Work (List K) W → Res (Work (List K) W)} (hcfg : ∀ k, configPipe k args = true)
    {names : List String} (hnames : names ≠ []) (hdot : ∀ s ∈ names, '.' ∉ s.toList)
    (hp : args "pipeline" = some (pipelineOf names)) {P : List (List Nat) × List (List (List K))}
    {st st' : (World (List K) W × Shown) × List (BettiEntry W)} (zs : List Nat)
    (h : zs.foldlM (reducedStepShown io strict (runPipelineShown io (stageShown env term args run) args) P) st =
      .ok st') :
    ∃ parts, List.Forall₂ (fun z part => ∃ pts, P.2[z]? = some pts ∧
        RunPart env io args names pts.length part) zs parts ∧
      st'.1.2.text = st.1.2.text ++ parts.flatten := by
  induction zs generalizing st with
  | nil =>
    cases h
    exact ⟨[], List.Forall₂.nil, by simp⟩
  | cons z zs ih =>
    rw [List.foldlM_cons] at h
    obtain ⟨a, h1, h2⟩ := bind_ok.1 h
    obtain ⟨pts, part, h3, h4, h5⟩ := reduced_part hcfg hnames hdot hp h1
    obtain ⟨parts, h6, h7⟩ := ih h2
    exact ⟨part :: parts, List.Forall₂.cons ⟨pts, h3, h4⟩ h6, by rw [h7, h5, List.flatten_cons, List.append_assoc]⟩

theorem forall₂_of_range {A B : Type} {R : A → B → Prop} {l : List A} {l' : List B}
    (h : List.Forall₂ (fun z b => ∃ a, l[z]? = some a ∧ R a b) (List.range l.length) l') :
    List.Forall₂ R l l' := by
  rw [List.forall₂_iff_get] at h ⊢
  obtain ⟨h1, h2⟩ := h
  rw [List.length_range] at h1
  refine ⟨h1, fun i hi hi' => ?_⟩
  obtain ⟨a, h3, h4⟩ := h2 i (by simpa using hi) hi'
  simp only [List.get_eq_getElem, List.getElem_range] at h3
  rw [List.getElem?_eq_getElem hi] at h3
  cases h3
  exact h4

/-- C137, the mode "reduced": the settings, what belongs to the preprocessor, the radius and the number of the
partitions, then, for each partition and for the centroids, what belongs to the run on it, and the table. -/
theorem C137_printed_reduced [LinearOrder W] [Ring W] (sys : System K W) (env : Surround K W)
    (term : Terminal K W) (pairs : List (String × String)) (m : ArgMap)
    (hm : parseArgs (commandLine pairs) = .ok m)
    (hup : (setPipeline m).val "upscale" ≠ "true") (hmode : (setPipeline m).val "mode" = "reduced")
    (hsw : (setPipeline m).val "pipeline" ≠ "slidingwindow")
    (data : List (List K)) (hread : readCSV sys.inIO (sys.files ((setPipeline m).val "inputFile")) = .ok data)
    (hne : data ≠ []) (names : List String) (hnames : names ≠ []) (hdot : ∀ s ∈ names, '.' ∉ s.toList)
    (hp : (setPipeline m).val "pipeline" = pipelineOf names)
    (y : World (List K) W × Shown) (hy : mainShown sys env term (commandLine pairs) = .ok y) :
    ∃ pre radius parts last, ∃ work : Work (List K) W, ∃ P : List (List Nat) × List (List (List K)),
      computeMaxRadius sys.lib.dist work.originalData work.fullData work.labels = .ok radius ∧
      separateByRadius sys.lib.dist (radius + radius) work.originalData work.fullData work.labels = .ok P ∧
      y.2.text = headerShown (commandLine pairs) (setPipeline m) ++ pre ++
        "Using maxRadius: ".toList ++ env.shows radius ++ "\nPartitions: ".toList ++ sys.io.sizeStr P.2.length ++
        "\nCounts: ".toList ++ parts.flatten ++
        "Full Data: ".toList ++ sys.io.sizeStr work.originalData.length ++ ['\n'] ++ last ++
        "\n_______BETTIS_______\n".toList ++ y.1.packet.data.bettiTable.flatMap (tableLine env sys.io) ∧
      PrePart env (sys.pre (setPipeline m)) (setPipeline m)
        ⟨data, data, [], newComplex ((setPipeline m).val "complexType"), [], [], []⟩ pre ∧
      List.Forall₂ (fun c part => RunPart env sys.io (setPipeline m) names c.length part) P.2 parts ∧
      RunPart env sys.io (setPipeline m) names work.originalData.length last := by
  have hsome : ∀ o ∈ options, ((setPipeline m) o.1).isSome :=
    fun o ho => setPipeline_isSome m _ (parse_isSome pairs m hm o ho)
  have heps : ((setPipeline m) "epsilon").isSome := hsome ("epsilon", "e", "5") (by decide)
  have hdim : ((setPipeline m) "dimensions").isSome := hsome ("dimensions", "d", "1") (by decide)
  have htw : ((setPipeline m) "twist").isSome := hsome ("twist", "t", "false") (by decide)
  have hpl : ((setPipeline m) "pipeline").isSome := hsome ("pipeline", "p", "") (by decide)
  have hcfg : ∀ k, configPipe k (setPipeline m) = true := by
    intro k
    unfold configPipe
    cases k <;> simp [requiredKeys, heps, hdim, htw]
  have hpcfg : ∀ k, configPreprocessor k (setPipeline m) = true := by
    intro k
    have k1 : ((setPipeline m) "clusters").isSome := hsome ("clusters", "k", "20") (by decide)
    have k2 : ((setPipeline m) "iterations").isSome := hsome ("iterations", "r", "250") (by decide)
    have k3 : ((setPipeline m) "lambda").isSome := hsome ("lambda", "l", ".25") (by decide)
    cases k <;> simp [configPreprocessor, preRequiredKeys, k1, k2, k3, heps]
  have hopen : sys.files ((setPipeline m).val "inputFile") ≠ none := by
    intro h0
    rw [h0] at hread
    exact hne (Except.ok.inj hread).symm
  have hps := some_of_val hpl hp
  unfold mainShown at hy
  rw [hm, ok_bind] at hy
  dsimp only at hy
  rw [if_pos hsw, hread, ok_bind, if_neg (fun h => hopen h.2), List.append_nil] at hy
  unfold dispatchShown at hy
  rw [if_pos (by exact Or.inl (List.length_pos_of_ne_nil hne)), if_neg hup, if_pos hmode] at hy
  unfold processReducedShown at hy
  obtain ⟨q, h1, h2⟩ := bind_ok.1 hy
  obtain ⟨pre, h3, h4⟩ := pre_part hpcfg h1
  obtain ⟨r, h5, h6⟩ := bind_ok.1 h2
  rw [pure_eq_ok] at h6
  cases h6
  unfold reducedRunsShown at h5
  dsimp only at h5
  obtain ⟨radius, h7, h8⟩ := bind_ok.1 h5
  obtain ⟨P, h9, h10⟩ := bind_ok.1 h8
  obtain ⟨st, h11, h12⟩ := bind_ok.1 h10
  obtain ⟨u, h13, h14⟩ := bind_ok.1 h12
  rw [pure_eq_ok] at h14
  cases h14
  obtain ⟨parts, h15, h16⟩ := reduced_parts hcfg hnames hdot hps _ h11
  have hlast : ∃ last, RunPart env sys.io (setPipeline m) names q.data.1.originalData.length last ∧
      u.1.2.text = st.1.2.text ++ "Full Data: ".toList ++ sys.io.sizeStr q.data.1.originalData.length ++ ['\n'] ++
        last := by
    by_cases hn : (dropShown q).data.originalData.length > 0
    · rw [if_pos hn] at h13
      obtain ⟨z, h17, h18⟩ := bind_ok.1 h13
      obtain ⟨w, h19, h20⟩ := bind_ok.1 h18
      rw [pure_eq_ok] at h20
      obtain ⟨ps, h21, h22⟩ := run_part hcfg hnames hdot hps h17
      refine ⟨runningText sys.io q.data.1.originalData.length ++ ps.flatten, Or.inr ⟨hn, ps, h21, ?_⟩, ?_⟩
      · unfold runningText
        rw [List.append_assoc]
      · rw [← Except.ok.inj h20]
        dsimp only
        rw [h22]
        dsimp only [Shown.say, dropShown]
        simp only [List.append_assoc]
    · rw [if_neg hn, pure_eq_ok] at h13
      cases h13
      refine ⟨_, Or.inl ⟨by simpa [dropShown] using hn, rfl⟩, ?_⟩
      simp only [Shown.say, List.append_assoc, dropShown]
  obtain ⟨last, h17, h18⟩ := hlast
  refine ⟨pre, radius, parts, last, q.data.1, P, h7, h9, ?_, h3, forall₂_of_range h15, h17⟩
  show (Shown.say _ _).text = _
  simp only [Shown.say]
  rw [h18, h16]
  simp only [Shown.say, h4, List.append_assoc]
  rfl

/-- C137 on a run with a misspelt stage: it is reported, and the other stages are run. -/
example : (mainShown (lineSystem [] [] "10\n12\n17") quietEnv quietTerminal
      ["-p", "distMatrix.neighGrap.neighGraph.rips.fastPersistence"]).toOption.map
        (fun y => (decide (("\nSetting utils for : simplexTree\nLHF : Failed to configure pipeline: " ++
          "distMatrix.neighGrap.neighGraph.rips.fastPersistence\n").toList <:+ y.2.text), y.1.packet.data.bettiOutput)) =
    some (true, [(0, 0, 2), (0, 0, 5), (0, 0, 500)]) := by
  decide +kernel

/-- C137 on a run with a preprocessor: what belongs to it comes after the settings. -/
example : (mainShown (lineSystem [[10], [17]] [0, 0, 1] "10\n12\n17") quietEnv quietTerminal
      ["-pre", "kmeans++"]).toOption.map
        (fun y => (decide (("\nSetting utils for : simplexTree\nClustered data...\n" ++
          "\tPipeline k-means++ executed in  seconds (physical time)\n\n").toList <:+ y.2.text),
          y.1.packet.data.bettiOutput)) =
    some (true, [(0, 0, 7), (0, 0, 500)]) := by
  decide +kernel

/-- The names of this pipeline. -/
example : pipelineOf ["distMatrix", "neighGrap", "neighGraph", "rips", "fastPersistence"] =
    "distMatrix.neighGrap.neighGraph.rips.fastPersistence" ∧
    (["distMatrix", "neighGrap", "neighGraph", "rips", "fastPersistence"].filter
      (fun s => newPipe s "simplexTree" = none)).length = 1 := by
  decide +kernel

end LHF
