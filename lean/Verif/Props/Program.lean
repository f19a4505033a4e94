import Verif.Lemmas.Program
import Verif.Props.Pipeline
import Verif.Props.KMeans

/-! C61 and C85–C88: the program as a whole: what `main` runs, the files it writes, and the mode
`reduced`. -/

namespace LHF
open Spec

/-! ### C61 -/

section
variable {K W : Type} [LinearOrder W] [Ring W]

/-- The packet that `main` starts with. -/
def Spec.initialPacket (args : ArgMap) (data : List (List K)) : Packet (Work (List K) W) :=
  newPacket (args.val "complexType") ⟨data, data, [], newComplex (args.val "complexType"), [], [], []⟩

/-- The settings given by the arguments. -/
def Spec.settingsOf (sys : System K W) (args : ArgMap) : Settings W :=
  ⟨sys.atof (args.val "epsilon"), sys.atoi (args.val "dimensions"), args.val "collapse"⟩

/-- The input read by `main`. -/
def Spec.inputRows (sys : System K W) (args : ArgMap) : Res (List (List K)) :=
  if args.val "pipeline" ≠ "slidingwindow" then readCSV sys.inIO (sys.files (args.val "inputFile"))
  else .ok []

/-- C61: when the input has rows, upscaling is off and the mode is not "reduced", the pipeline is run
exactly once, on the preprocessed packet: the packet at the end is what that run returns, and the files
written are those of that run. -/
theorem C61_data_runs_pipeline_once_partial (sys : System K W) (argv : List String) (m : ArgMap)
    (hm : parseArgs argv = .ok m) (hup : (setPipeline m).val "upscale" ≠ "true")
    (hmode : (setPipeline m).val "mode" ≠ "reduced") (data : List (List K))
    (hread : inputRows sys (setPipeline m) = .ok data)
    (hrows : data ≠ [] ∨ (setPipeline m).val "pipeline" = "slidingwindow")
    (s : String) (hpl : (setPipeline m) "pipeline" = some s) (w : World (List K) W) :
    mainProgram sys argv = .ok w ↔
      ∃ p, preprocess (sys.pre (setPipeline m)) (setPipeline m) (initialPacket (setPipeline m) data)
          = .ok p ∧
        runPipeline (runStages sys.lib (settingsOf sys (setPipeline m))) (setPipeline m) p
          = .ok w.packet ∧
        w.files = pipelineFiles sys.io (setPipeline m) w.packet := by
  have hcond : (initialPacket (K := K) (W := W) (setPipeline m) data).data.originalData.length > 0 ∨
      (setPipeline m).val "pipeline" = "slidingwindow" := by
    rcases hrows with h | h
    · exact Or.inl (List.length_pos_of_ne_nil h)
    · exact Or.inr h
  have e : mainProgram sys argv = processData (sys.pre (setPipeline m)) (runPipelineOut sys.io
      (runStages sys.lib (settingsOf sys (setPipeline m))) (setPipeline m)) (setPipeline m)
      ⟨initialPacket (setPipeline m) data, []⟩ := by
    unfold mainProgram
    rw [hm, ok_bind]
    dsimp only
    unfold inputRows at hread
    rw [show (if (setPipeline m).val "pipeline" ≠ "slidingwindow" then
      readCSV sys.inIO (sys.files ((setPipeline m).val "inputFile")) else pure []) = .ok data from hread,
      ok_bind]
    unfold dispatch
    rw [if_pos (by exact hcond), if_neg hup, if_neg hmode]
    rfl
  rw [e]
  unfold processData
  rw [bind_ok]
  constructor
  · rintro ⟨p, h1, h2⟩
    unfold runPipelineOut at h2
    rw [hpl] at h2
    dsimp only at h2
    rw [bind_ok] at h2
    obtain ⟨q, h3, h4⟩ := h2
    rw [pure_eq_ok] at h4
    cases h4
    exact ⟨p, h1, h3, by simp⟩
  · rintro ⟨p, h1, h2, h3⟩
    refine ⟨p, h1, ?_⟩
    unfold runPipelineOut
    rw [hpl]
    dsimp only
    rw [h2, ok_bind, pure_eq_ok]
    obtain ⟨wp, wf⟩ := w
    dsimp only at h3
    rw [h3]
    simp

/-- C61 is violated with upscaling on: whatever the input, no file is written, and the packet at the
end is the preprocessed one. -/
theorem C61_upscale_never_runs_violated (sys : System K W) (argv : List String) (m : ArgMap)
    (hm : parseArgs argv = .ok m) (hup : (setPipeline m).val "upscale" = "true")
    (w : World (List K) W) (h : mainProgram sys argv = .ok w) :
    w.files = [] ∧ ∃ data p,
      (p = initialPacket (setPipeline m) data ∨
        preprocess (sys.pre (setPipeline m)) (setPipeline m) (initialPacket (setPipeline m) data)
          = .ok p) ∧ w.packet = p := by
  unfold mainProgram at h
  rw [hm, ok_bind] at h
  dsimp only at h
  rw [bind_ok] at h
  obtain ⟨data, -, h⟩ := h
  unfold dispatch at h
  dsimp only at h
  split_ifs at h with h1
  · unfold processUpscale at h
    rw [bind_ok] at h
    obtain ⟨p, h2, h⟩ := h
    rw [bind_ok] at h
    obtain ⟨x, -, h⟩ := h
    rw [pure_eq_ok] at h
    cases h
    exact ⟨rfl, data, p, Or.inr h2, rfl⟩
  · rw [pure_eq_ok] at h
    cases h
    exact ⟨rfl, data, _, Or.inl rfl, rfl⟩

/-- C61: the command lines concerned: `mpi 1`, and the mode "upscaleBound". -/
theorem C61_mpi_never_runs_violated (sys : System K W) (argv : List String) (m : ArgMap)
    (hm : parseArgs argv = .ok m)
    (h : m.val "mpi" = "1" ∨
      (m.val "mpi" ≠ "1" ∧ m.val "pipeline" = "" ∧ m.val "mode" = "upscaleBound"))
    (w : World (List K) W) (hw : mainProgram sys argv = .ok w) : w.files = [] := by
  refine (C61_upscale_never_runs_violated sys argv m hm ?_ w hw).1
  rcases h with h | ⟨h1, h2, h3⟩
  · exact (C38_mpi_replaces_pipeline_violated m h).2.1
  · have := (C38_mode_selection m h1 h2 ⟨"upscaleBound",
      ["distMatrix", "neighGraph", "rips", "persistence", "boundary", "upscale"],
      .fill "kmeans++", .keep, .force "true"⟩ (by simp [modes]) h3).2.2.2.1
    rw [this]
    rfl

theorem runPipelineOut_files {P W : Type} {io : TextNum W}
    {run : PipeKind → Work P W → Res (Work P W)} {args : ArgMap} {s f : String}
    (hpl : args "pipeline" = some s) (hf : args "outputFile" = some f) (hcon : f ≠ "console")
    {w w' : World P W} (h : runPipelineOut io run args w = .ok w') :
    w'.files.length = w.files.length + 2 := by
  unfold runPipelineOut at h
  rw [hpl] at h
  dsimp only at h
  rw [bind_ok] at h
  obtain ⟨p, -, h⟩ := h
  rw [pure_eq_ok] at h
  cases h
  unfold pipelineFiles
  rw [hf]
  simp [hcon]

theorem clearComplex_files {P W : Type} [LinearOrder W] [Zero W] {strict : Bool} {w w' : World P W}
    (h : clearComplex strict w = .ok w') :
    w'.files = w.files ∧ w'.packet.stats = w.packet.stats ∧
      w'.packet.hasComplex = w.packet.hasComplex := by
  unfold clearComplex at h
  split_ifs at h
  split at h
  · rw [bind_ok] at h
    obtain ⟨t, -, h⟩ := h
    rw [pure_eq_ok] at h
    cases h
    exact ⟨rfl, rfl, rfl⟩
  · rw [pure_eq_ok] at h
    cases h
    exact ⟨rfl, rfl, rfl⟩
  · rw [pure_eq_ok] at h
    cases h
    exact ⟨rfl, rfl, rfl⟩
  · rw [pure_eq_ok] at h
    cases h
    exact ⟨rfl, rfl, rfl⟩

/-- C61: with the output to the console no file is written. -/
theorem C61_console_writes_no_file (sys : System K W) (argv : List String) (m : ArgMap)
    (hm : parseArgs argv = .ok m) (hf : (setPipeline m) "outputFile" = some "console")
    (w : World (List K) W) (h : mainProgram sys argv = .ok w) : w.files = [] := by
  have hrun : ∀ (s : Settings W) (a b : World (List K) W),
      runPipelineOut sys.io (runStages sys.lib s) (setPipeline m) a = .ok b → a.files = [] →
      b.files = [] := by
    intro s a b hab ha
    unfold runPipelineOut at hab
    split at hab
    · rw [bind_ok] at hab
      obtain ⟨p, -, hab⟩ := hab
      rw [pure_eq_ok] at hab
      cases hab
      unfold pipelineFiles
      rw [hf, ha]
      rfl
    · rw [pure_eq_ok] at hab
      cases hab
      exact ha
  unfold mainProgram at h
  rw [hm, ok_bind] at h
  dsimp only at h
  rw [bind_ok] at h
  obtain ⟨data, -, h⟩ := h
  unfold dispatch at h
  split at h
  · split at h
    · unfold processUpscale at h
      rw [bind_ok] at h
      obtain ⟨p, h2, h⟩ := h
      rw [bind_ok] at h
      obtain ⟨x, -, h⟩ := h
      rw [pure_eq_ok] at h
      cases h
      rfl
    · split at h
      · unfold processReduced at h
        rw [bind_ok] at h
        obtain ⟨p, -, h⟩ := h
        rw [bind_ok] at h
        obtain ⟨res, h, h'⟩ := h
        rw [pure_eq_ok] at h'
        cases h'
        unfold reducedRuns at h
        dsimp only at h
        rw [bind_ok] at h
        obtain ⟨r, -, h⟩ := h
        rw [bind_ok] at h
        obtain ⟨parts, -, h⟩ := h
        rw [bind_ok] at h
        obtain ⟨st, h1, h⟩ := h
        have hst : st.1.files = [] := by
          refine foldlM_inv (P := fun st : World (List K) W × List (BettiEntry W) =>
            st.1.files = []) rfl ?_ h1
          intro a z b _ ha hab
          unfold reducedStep at hab
          rw [bind_ok] at hab
          obtain ⟨pts, -, hab⟩ := hab
          split at hab
          · rw [bind_ok] at hab
            obtain ⟨a1, h4, hab⟩ := hab
            rw [bind_ok] at hab
            obtain ⟨a2, h5, hab⟩ := hab
            rw [bind_ok] at hab
            obtain ⟨lab, -, hab⟩ := hab
            rw [bind_ok] at hab
            obtain ⟨tab, -, hab⟩ := hab
            rw [pure_eq_ok] at hab
            cases hab
            show a2.files = []
            rw [(clearComplex_files h5).1]
            exact hrun _ _ _ h4 ha
          · rw [pure_eq_ok] at hab
            cases hab
            exact ha
        split at h
        · rw [bind_ok] at h
          obtain ⟨w1, h2, h⟩ := h
          rw [bind_ok] at h
          obtain ⟨w2, h3, h⟩ := h
          rw [pure_eq_ok] at h
          cases h
          show w2.files = []
          rw [(clearComplex_files h3).1]
          exact hrun _ _ _ h2 hst
        · rw [pure_eq_ok] at h
          cases h
          exact hst
      · unfold processData at h
        rw [bind_ok] at h
        obtain ⟨p, -, h⟩ := h
        exact hrun _ _ _ h rfl
  · rw [pure_eq_ok] at h
    cases h
    rfl

/-- C61 (partial: see C87): in the mode "reduced", if the program gets to its end, the pipeline has
been run once for each non-empty partition and once for the centroids: every run writes two files. -/
theorem C61_reduced_runs_partial (sys : System K W) (argv : List String) (m : ArgMap)
    (hm : parseArgs argv = .ok m) (hup : (setPipeline m).val "upscale" ≠ "true")
    (hmode : (setPipeline m).val "mode" = "reduced") (data : List (List K))
    (hread : inputRows sys (setPipeline m) = .ok data)
    (hrows : data ≠ [] ∨ (setPipeline m).val "pipeline" = "slidingwindow")
    (s : String) (hpl : (setPipeline m) "pipeline" = some s)
    (f : String) (hf : (setPipeline m) "outputFile" = some f) (hcon : f ≠ "console")
    (w : World (List K) W) (h : mainProgram sys argv = .ok w) :
    ∃ p r parts, preprocess (sys.pre (setPipeline m)) (setPipeline m)
        (initialPacket (setPipeline m) data) = .ok p ∧
      computeMaxRadius sys.lib.dist p.data.originalData p.data.fullData p.data.labels = .ok r ∧
      separateByRadius sys.lib.dist (r + r) p.data.originalData p.data.fullData p.data.labels
        = .ok parts ∧
      w.files.length = 2 * (parts.2.countP (fun pts => 0 < pts.length) +
        if 0 < p.data.originalData.length then 1 else 0) := by
  have hcond : (initialPacket (K := K) (W := W) (setPipeline m) data).data.originalData.length > 0 ∨
      (setPipeline m).val "pipeline" = "slidingwindow" := by
    rcases hrows with h | h
    · exact Or.inl (List.length_pos_of_ne_nil h)
    · exact Or.inr h
  have e : mainProgram sys argv = processReduced sys.strict sys.lib.dist (sys.pre (setPipeline m))
      (runPipelineOut sys.io (runStages sys.lib (settingsOf sys (setPipeline m))) (setPipeline m))
      (setPipeline m) ⟨initialPacket (setPipeline m) data, []⟩ := by
    unfold mainProgram
    rw [hm, ok_bind]
    dsimp only
    unfold inputRows at hread
    rw [show (if (setPipeline m).val "pipeline" ≠ "slidingwindow" then
      readCSV sys.inIO (sys.files ((setPipeline m).val "inputFile")) else pure []) = .ok data from hread,
      ok_bind]
    unfold dispatch
    rw [if_pos (by exact hcond), if_neg hup, if_pos hmode]
    rfl
  rw [e] at h
  unfold processReduced at h
  rw [bind_ok] at h
  obtain ⟨p, h1, h⟩ := h
  rw [bind_ok] at h
  obtain ⟨res, h2, h⟩ := h
  rw [pure_eq_ok] at h
  cases h
  unfold reducedRuns at h2
  dsimp only at h2
  rw [bind_ok] at h2
  obtain ⟨r, h3, h2⟩ := h2
  rw [bind_ok] at h2
  obtain ⟨parts, h4, h2⟩ := h2
  rw [bind_ok] at h2
  obtain ⟨st, h5, h2⟩ := h2
  have key : ∀ n (st : World (List K) W × List (BettiEntry W)), n ≤ parts.2.length →
      (List.range n).foldlM (reducedStep sys.strict (runPipelineOut sys.io
        (runStages sys.lib (settingsOf sys (setPipeline m))) (setPipeline m)) parts)
        (⟨p, []⟩, []) = .ok st →
      st.1.files.length = 2 * (parts.2.take n).countP (fun pts => 0 < pts.length) := by
    intro n
    induction n with
    | zero => intro st _ hst; cases hst; simp
    | succ n ih =>
      intro st hn hst
      rw [List.range_succ, List.foldlM_append, bind_ok] at hst
      obtain ⟨st1, h6, h7⟩ := hst
      have ih := ih st1 (by omega) h6
      rw [List.foldlM_cons, bind_ok] at h7
      obtain ⟨st2, h7, h8⟩ := h7
      rw [List.foldlM_nil, pure_eq_ok] at h8
      cases h8
      unfold reducedStep at h7
      rw [vget_of_lt (by omega), ok_bind] at h7
      rw [List.take_add_one, List.countP_append, List.getElem?_eq_getElem (by omega)]
      by_cases hpos : parts.2[n].length > 0
      · rw [if_pos hpos, bind_ok] at h7
        obtain ⟨w1, h8, h7⟩ := h7
        rw [bind_ok] at h7
        obtain ⟨w2, h9, h7⟩ := h7
        rw [bind_ok] at h7
        obtain ⟨lab, h10, h7⟩ := h7
        rw [bind_ok] at h7
        obtain ⟨tab, h11, h7⟩ := h7
        rw [pure_eq_ok] at h7
        cases h7
        have h12 := runPipelineOut_files hpl hf hcon h8
        have h13 := (clearComplex_files h9).1
        show w2.files.length = _
        rw [h13, h12]
        have : (st1.1.mapWork (fun d => { d with originalData := parts.2[n] })).files.length =
          st1.1.files.length := rfl
        rw [this, ih]
        simp [hpos]
        omega
      · rw [if_neg hpos, pure_eq_ok] at h7
        cases h7
        rw [ih]
        simp [hpos]
  have h6 := key _ st le_rfl h5
  rw [List.take_length] at h6
  refine ⟨p, r, parts, h1, h3, h4, ?_⟩
  by_cases hpos : p.data.originalData.length > 0
  · rw [if_pos hpos, bind_ok] at h2
    obtain ⟨w1, h8, h2⟩ := h2
    rw [bind_ok] at h2
    obtain ⟨w2, h9, h2⟩ := h2
    rw [pure_eq_ok] at h2
    cases h2
    have h12 := runPipelineOut_files hpl hf hcon h8
    have h13 := (clearComplex_files h9).1
    rw [h13, h12, if_pos hpos]
    have : (st.1.mapWork (fun d => { d with originalData := p.data.originalData })).files.length =
      st.1.files.length := rfl
    rw [this, h6]
    omega
  · rw [if_neg hpos, pure_eq_ok] at h2
    cases h2
    rw [h6, if_neg hpos]
    omega

end

/-- The hypotheses of C61 are met by the default command line and by the mode "reduced". -/
example : ∃ m, parseArgs ["-i", "data.csv"] = .ok m ∧ (setPipeline m).val "upscale" ≠ "true" ∧
    (setPipeline m).val "mode" ≠ "reduced" ∧ (setPipeline m) "outputFile" = some "output.csv" ∧
    (setPipeline m) "pipeline" = some "distMatrix.neighGraph.rips.fastPersistence" :=
  ⟨_, rfl, by decide⟩
example : ∃ m, parseArgs ["-i", "data.csv", "-m", "reduced"] = .ok m ∧
    (setPipeline m).val "upscale" ≠ "true" ∧ (setPipeline m).val "mode" = "reduced" :=
  ⟨_, rfl, by decide⟩

/-! ### C85 -/

/-- What `main` does in a mode with the four default stages, when nothing is to be preprocessed. -/
theorem main_default (sys : System ℝ ℝ) (pairs : List (String × String)) (m : ArgMap)
    (hm : parseArgs (commandLine pairs) = .ok m) (hmpi : m.val "mpi" ≠ "1")
    (hp : m.val "pipeline" = "") (d : Mode) (hd : d ∈ modes) (hmode : m.val "mode" = d.name)
    (hst : d.stages = fastStages) (hred : d.name ≠ "reduced")
    (hpre : d.preprocessor.apply (m.val "preprocessor") = "")
    (hup : d.upscale.apply (m.val "upscale") ≠ "true")
    (hct : m.val "complexType" ∈ ["simplexArrayList", "simplexTree", "indSimplexTree"])
    (f : String) (hf : m.val "outputFile" = f) (hcon : f ≠ "console")
    (data : List (List ℝ)) (hread : readCSV sys.inIO (sys.files (m.val "inputFile")) = .ok data)
    (hne : data ≠ []) :
    mainProgram sys (commandLine pairs) =
      (fastKinds.foldlM (fun d k => runStages sys.lib ⟨sys.atof (m.val "epsilon"),
          sys.atoi (m.val "dimensions"), m.val "collapse"⟩ k d)
        ⟨data, data, [], newComplex (d.complexType.apply (m.val "complexType")), [], [], []⟩ >>=
      fun w => pure ⟨⟨fastNames, true, w⟩,
        [(f ++ "_stats.csv", .stats fastNames),
          (f ++ ".csv", .text (barcodeText sys.io w.bettiOutput))]⟩) := by
  obtain ⟨q1, q2, q3, q4, q5⟩ := C38_mode_selection m hmpi hp d hd hmode
  have hsome : ∀ o ∈ options, ((setPipeline m) o.1).isSome :=
    fun o ho => setPipeline_isSome m _ (parse_isSome pairs m hm o ho)
  have hpl : ((setPipeline m) "pipeline").isSome := hsome ("pipeline", "p", "") (by decide)
  have hout : ((setPipeline m) "outputFile").isSome :=
    hsome ("outputFile", "o", "output.csv") (by decide)
  have hout' : (setPipeline m) "outputFile" = some f := by
    apply some_of_val hout
    rw [q5 _ (by decide), hf]
  have hsw : (setPipeline m).val "pipeline" ≠ "slidingwindow" := by
    rw [q1, hst]; decide
  have hct' : d.complexType.apply (m.val "complexType") ∈
      ["simplexArrayList", "simplexTree", "indSimplexTree"] := by
    generalize m.val "complexType" = ct at hct
    clear q1 q2 q3 q4 q5 hpre hup hmode hst hred
    simp only [List.mem_cons, List.not_mem_nil, or_false] at hct
    rcases hct with rfl | rfl | rfl <;> revert d <;> decide
  have hkinds : modeKinds d (m.val "complexType") = fastKinds := by
    unfold modeKinds
    rw [if_pos hst]
    rfl
  unfold mainProgram
  rw [hm, ok_bind]
  dsimp only
  rw [if_pos hsw, q5 "inputFile" (by decide), hread, ok_bind]
  unfold dispatch
  rw [if_pos (by exact Or.inl (List.length_pos_of_ne_nil hne)), q4, if_neg hup,
    q5 "mode" (by decide), hmode, if_neg hred]
  unfold processData preprocess
  rw [q2, hpre, if_neg (by simp), pure_eq_ok, ok_bind]
  unfold runPipelineOut
  rw [some_of_val hpl rfl]
  dsimp only
  rw [C60_known_modes_run_all_stages _ _ pairs m hm hmpi hp d hd hmode hct, hkinds, q3,
    q5 "epsilon" (by decide), q5 "dimensions" (by decide), q5 "collapse" (by decide)]
  have hhas : (newPacket (d.complexType.apply (m.val "complexType"))
      (⟨data, data, [], newComplex (d.complexType.apply (m.val "complexType")), [], [], []⟩ :
        Work (List ℝ) ℝ)).hasComplex = true := by
    simp only [List.mem_cons, List.not_mem_nil, or_false] at hct'
    unfold newPacket
    simp only [decide_eq_true_eq]
    tauto
  rw [fold_wrappers _ _ _ hhas, bind_assoc]
  congr 1
  funext w
  rw [pure_eq_ok, ok_bind]
  unfold pipelineFiles
  rw [hout']
  simp only [hcon, if_false]
  rfl

/-- The text of a barcode file: a header and one line for each interval, its dimension, birth and death
separated by commas; intervals of dimension 0 are born at "0". -/
def Spec.barcodeContent (io : TextNum ℝ) (lines : List (Line ℝ)) : List Char :=
  "dimension,birth,death\n".toList ++ (lines.map (fun l =>
    (if l.1 = 0 then "0,0".toList else io.sizeStr l.1 ++ ",".toList ++ io.toStr l.2.1) ++
      ",".toList ++ io.toStr l.2.2 ++ "\n".toList)).flatten

theorem barcodeText_eq (io : TextNum ℝ) (lines : List (Line ℝ)) :
    barcodeText io lines = barcodeContent io lines := by
  unfold barcodeText barcodeContent
  congr 1
  rw [List.flatMap_def]
  congr 1
  apply List.map_congr_left
  intro l _
  unfold lineText
  split_ifs
  · rfl
  · simp

/-- The state at the end of a run of the default pipeline: two files have been written, the statistics
of the four stages and a barcode file whose lines are `lines`. -/
def Spec.WritesBarcode (io : TextNum ℝ) (f : String) (lines : List (Line ℝ))
    (w : World (List ℝ) ℝ) : Prop :=
  w.files = [(f ++ "_stats.csv", .stats ["DistMatrix", "neighGraph", "ripsPipe", "FastPersistence"]),
    (f ++ ".csv", .text (barcodeContent io lines))]

/-- The command lines of C85: a mode with the four default stages, no preprocessing, a barcode file. -/
structure Spec.PlainCommand (sys : System ℝ ℝ) (pairs : List (String × String)) (m : ArgMap)
    (complexType f : String) (data : List (List ℝ)) : Prop where
  parsed : parseArgs (commandLine pairs) = .ok m
  mpi : m.val "mpi" ≠ "1"
  pipeline : m.val "pipeline" = ""
  mode : m.val "mode" = "standard" ∨ (m.val "mode" = "fast" ∧ complexType = "simplexTree")
  pre : m.val "preprocessor" = ""
  upscale : m.val "upscale" ≠ "true"
  complex : m.val "complexType" = complexType
  output : m.val "outputFile" = f
  console : f ≠ "console"
  input : readCSV sys.inIO (sys.files (m.val "inputFile")) = .ok data
  rows : data ≠ []

theorem main_plain (sys : System ℝ ℝ) (pairs : List (String × String)) (m : ArgMap)
    (ct f : String) (data : List (List ℝ))
    (hct : ct ∈ ["simplexArrayList", "simplexTree", "indSimplexTree"])
    (h : PlainCommand sys pairs m ct f data) :
    mainProgram sys (commandLine pairs) =
      (fastKinds.foldlM (fun d k => runStages sys.lib ⟨sys.atof (m.val "epsilon"),
          sys.atoi (m.val "dimensions"), m.val "collapse"⟩ k d)
        ⟨data, data, [], newComplex ct, [], [], []⟩ >>=
      fun w => pure ⟨⟨fastNames, true, w⟩,
        [(f ++ "_stats.csv", .stats fastNames),
          (f ++ ".csv", .text (barcodeText sys.io w.bettiOutput))]⟩) := by
  have hct' : m.val "complexType" ∈ ["simplexArrayList", "simplexTree", "indSimplexTree"] := by
    rw [h.complex]; exact hct
  rcases h.mode with hmode | ⟨hmode, hc⟩
  · rw [main_default sys pairs m h.parsed h.mpi h.pipeline
      ⟨"standard", fastStages, .keep, .keep, .keep⟩ (by simp [modes]) hmode rfl (by decide) h.pre
      h.upscale hct' f h.output h.console data h.input h.rows]
    rw [show Setting.keep.apply (m.val "complexType") = ct from h.complex]
  · rw [main_default sys pairs m h.parsed h.mpi h.pipeline
      ⟨"fast", fastStages, .keep, .force "simplexTree", .force "false"⟩ (by simp [modes]) hmode rfl
      (by decide) h.pre (show "false" ≠ "true" by decide) hct' f h.output h.console data h.input h.rows]
    rw [show (Setting.force "simplexTree").apply (m.val "complexType") = ct from hc.symm]

/-- The whole program on a `simplexTree` does what the default pipeline does, and writes its lines. -/
theorem main_tree (sys : System ℝ ℝ) (hdist : sys.lib.dist = vectorsDistance)
    (pairs : List (String × String)) (m : ArgMap) (f : String) (data : List (List ℝ))
    (h : PlainCommand sys pairs m "simplexTree" f data) :
    SameRes (fun (w : World (List ℝ) ℝ) (r : List (Line ℝ) × List (BettiEntry ℝ)) =>
        WritesBarcode sys.io f r.1 w)
      (mainProgram sys (commandLine pairs))
      (treeRun vectorsDistance sys.lib.sort sys.lib.mode (sys.atof (m.val "epsilon"))
        (sys.atoi (m.val "dimensions")) data) := by
  rw [main_plain sys pairs m _ f data (by decide) h]
  have := tree_stages sys.lib ⟨sys.atof (m.val "epsilon"), sys.atoi (m.val "dimensions"),
    m.val "collapse"⟩ hdist ⟨data, data, [], newComplex "simplexTree", [], [], []⟩ [] rfl rfl rfl
  refine cast ?_ (this.bind (f := fun w : Work (List ℝ) ℝ => (.ok ⟨⟨fastNames, true, w⟩,
        [(f ++ "_stats.csv", .stats fastNames),
          (f ++ ".csv", .text (barcodeText sys.io w.bettiOutput))]⟩ : Res (World (List ℝ) ℝ)))
    (g := fun r => .ok r) (S := fun (w : World (List ℝ) ℝ) (r : List (Line ℝ) × List (BettiEntry ℝ)) =>
        WritesBarcode sys.io f r.1 w) ?_)
  · congr 1
    exact bind_pure _
  · rintro w r - - ⟨t, dm, ws, rfl⟩
    show _ = _
    rw [← barcodeText_eq]
    rfl

/-- The same on a `simplexArrayList`. -/
theorem main_array (sys : System ℝ ℝ) (hdist : sys.lib.dist = vectorsDistance)
    (pairs : List (String × String)) (m : ArgMap) (f : String) (data : List (List ℝ))
    (h : PlainCommand sys pairs m "simplexArrayList" f data)
    (hcol : m.val "collapse" ≠ "true" ∧ m.val "collapse" ≠ "1")
    (hd : 0 < sys.atoi (m.val "dimensions")) (k : Nat) (hk : 0 < k)
    (hdim : ∀ p ∈ data, p.length = k) :
    SameRes (fun (w : World (List ℝ) ℝ) (r : List (Line ℝ) × List (BettiEntry ℝ)) =>
        WritesBarcode sys.io f r.1 w)
      (mainProgram sys (commandLine pairs))
      (arrayRun vectorsDistance sys.lib.sort sys.lib.mode (sys.atof (m.val "epsilon"))
        (sys.atoi (m.val "dimensions")) data) := by
  rw [main_plain sys pairs m _ f data (by decide) h]
  have := array_stages sys.lib ⟨sys.atof (m.val "epsilon"), sys.atoi (m.val "dimensions"),
    m.val "collapse"⟩ hdist hd hcol k hk
    ⟨data, data, [], newComplex "simplexArrayList", [], [], []⟩ [] rfl hdim h.rows
  refine cast ?_ (this.bind (f := fun w : Work (List ℝ) ℝ => (.ok ⟨⟨fastNames, true, w⟩,
        [(f ++ "_stats.csv", .stats fastNames),
          (f ++ ".csv", .text (barcodeText sys.io w.bettiOutput))]⟩ : Res (World (List ℝ) ℝ)))
    (g := fun r => .ok r) (S := fun (w : World (List ℝ) ℝ) (r : List (Line ℝ) × List (BettiEntry ℝ)) =>
        WritesBarcode sys.io f r.1 w) ?_)
  · congr 1
    exact bind_pure _
  · rintro w r - - ⟨g, dm, ws, rfl⟩
    show _ = _
    rw [← barcodeText_eq]
    rfl

/-- C85 (partial: the end iterator is read as "not a pivot", see C29): for every command line that
selects the default complex and the default pipeline, and every input file whose rows are points of
ℝ^k of which some two are closer than `epsilon`, the program ends, having written exactly two files: the
statistics of the four stages, and under the name `outputFile` + ".csv" a barcode that describes the
Rips filtration of the points in the file. -/
theorem C85_standard_program_partial (sys : System ℝ ℝ) (hdist : sys.lib.dist = vectorsDistance)
    (hread : sys.lib.mode = .noPivot) (pairs : List (String × String)) (m : ArgMap) (f : String)
    (data : List (List ℝ)) (h : PlainCommand sys pairs m "simplexTree" f data)
    (k : Nat) (hk : 0 < k) (hdim : ∀ p ∈ data, p.length = k)
    (hedge : ∃ i j, i < j ∧ j < data.length ∧ rowDist k data i j < sys.atof (m.val "epsilon")) :
    ∃ w lines, mainProgram sys (commandLine pairs) = .ok w ∧ WritesBarcode sys.io f lines w ∧
      DescribesRips data.length (rowDist k data) (· < sys.atof (m.val "epsilon"))
        (sys.atof (m.val "epsilon")) (sys.atoi (m.val "dimensions")) lines := by
  obtain ⟨lines, T, h1, h2⟩ := C70_tree_run_partial sys.lib.sort (sys.atof (m.val "epsilon"))
    (sys.atoi (m.val "dimensions")) k hk data hdim hedge
  rw [← hread] at h1
  obtain ⟨w, h3, h4⟩ := (main_tree sys hdist pairs m f data h).of_ok h1
  exact ⟨w, lines, h3, h4, h2⟩

/-- C85, with `dimensions` at most 1 (the default): nothing is assumed about reading past the end. -/
theorem C85_standard_program_default (sys : System ℝ ℝ) (hdist : sys.lib.dist = vectorsDistance)
    (pairs : List (String × String)) (m : ArgMap) (f : String)
    (data : List (List ℝ)) (h : PlainCommand sys pairs m "simplexTree" f data)
    (hd : sys.atoi (m.val "dimensions") ≤ 1)
    (k : Nat) (hk : 0 < k) (hdim : ∀ p ∈ data, p.length = k)
    (hedge : ∃ i j, i < j ∧ j < data.length ∧ rowDist k data i j < sys.atof (m.val "epsilon")) :
    ∃ w lines, mainProgram sys (commandLine pairs) = .ok w ∧ WritesBarcode sys.io f lines w ∧
      (∀ l ∈ lines, l.1 = 0) ∧
      DescribesRips data.length (rowDist k data) (· < sys.atof (m.val "epsilon"))
        (sys.atof (m.val "epsilon")) (sys.atoi (m.val "dimensions")) lines := by
  obtain ⟨lines, T, h1, h2, h3⟩ := C70_tree_run_default sys.lib.sort sys.lib.mode
    (sys.atof (m.val "epsilon")) (sys.atoi (m.val "dimensions")) hd k hk data hdim hedge
  obtain ⟨w, h4, h5⟩ := (main_tree sys hdist pairs m f data h).of_ok h1
  exact ⟨w, lines, h4, h5, h2, h3⟩

/-- C85: the code as written, any number of dimensions: a program that ends has written the barcode;
the only other outcome is the undefined read. -/
theorem C85_standard_program_or_undefined (sys : System ℝ ℝ)
    (hdist : sys.lib.dist = vectorsDistance) (hread : sys.lib.mode = .undefined)
    (pairs : List (String × String)) (m : ArgMap) (f : String)
    (data : List (List ℝ)) (h : PlainCommand sys pairs m "simplexTree" f data)
    (k : Nat) (hk : 0 < k) (hdim : ∀ p ∈ data, p.length = k)
    (hedge : ∃ i j, i < j ∧ j < data.length ∧ rowDist k data i j < sys.atof (m.val "epsilon")) :
    mainProgram sys (commandLine pairs) = .error .endDeref ∨
    ∃ w lines, mainProgram sys (commandLine pairs) = .ok w ∧ WritesBarcode sys.io f lines w ∧
      DescribesRips data.length (rowDist k data) (· < sys.atof (m.val "epsilon"))
        (sys.atof (m.val "epsilon")) (sys.atoi (m.val "dimensions")) lines := by
  rcases C70_tree_run_or_undefined sys.lib.sort (sys.atof (m.val "epsilon"))
    (sys.atoi (m.val "dimensions")) k hk data hdim hedge with h1 | ⟨lines, T, h1, h2⟩
  · rw [← hread] at h1
    exact Or.inl ((main_tree sys hdist pairs m f data h).error_of h1)
  · rw [← hread] at h1
    obtain ⟨w, h3, h4⟩ := (main_tree sys hdist pairs m f data h).of_ok h1
    exact Or.inr ⟨w, lines, h3, h4, h2⟩

/-- C85: when no two points are closer than `epsilon`, the program does not get to its end: it reads
past the end of a vector, and nothing is written. -/
theorem C85_no_close_pair_violated (sys : System ℝ ℝ) (hdist : sys.lib.dist = vectorsDistance)
    (pairs : List (String × String)) (m : ArgMap) (f : String)
    (data : List (List ℝ)) (h : PlainCommand sys pairs m "simplexTree" f data)
    (k : Nat) (hk : 0 < k) (hdim : ∀ p ∈ data, p.length = k)
    (hfar : ∀ i j, i < j → j < data.length → sys.atof (m.val "epsilon") ≤ rowDist k data i j) :
    mainProgram sys (commandLine pairs) = .error .oob := by
  have h1 := C70_tree_run_no_edge sys.lib.sort sys.lib.mode (sys.atof (m.val "epsilon"))
    (sys.atoi (m.val "dimensions")) k hk data hdim hfar
  rw [if_neg h.rows] at h1
  exact (main_tree sys hdist pairs m f data h).error_of h1

/-- C85 for the complex type `simplexArrayList`. -/
theorem C85_standard_program_array_partial (sys : System ℝ ℝ)
    (hdist : sys.lib.dist = vectorsDistance)
    (hread : sys.lib.mode = .noPivot) (pairs : List (String × String)) (m : ArgMap) (f : String)
    (data : List (List ℝ)) (h : PlainCommand sys pairs m "simplexArrayList" f data)
    (hcol : m.val "collapse" ≠ "true" ∧ m.val "collapse" ≠ "1")
    (hd : 0 < sys.atoi (m.val "dimensions"))
    (k : Nat) (hk : 0 < k) (hdim : ∀ p ∈ data, p.length = k)
    (hedge : ∃ i j, i < j ∧ j < data.length ∧ rowDist k data i j ≤ sys.atof (m.val "epsilon")) :
    ∃ w lines, mainProgram sys (commandLine pairs) = .ok w ∧ WritesBarcode sys.io f lines w ∧
      DescribesRips data.length (rowDist k data) (· ≤ sys.atof (m.val "epsilon"))
        (sys.atof (m.val "epsilon")) (sys.atoi (m.val "dimensions")) lines := by
  obtain ⟨lines, T, h1, h2⟩ := C71_array_run_partial sys.lib.sort (sys.atof (m.val "epsilon"))
    (sys.atoi (m.val "dimensions")) hd k hk data hdim hedge
  rw [← hread] at h1
  obtain ⟨w, h3, h4⟩ := (main_array sys hdist pairs m f data h hcol hd k hk hdim).of_ok h1
  exact ⟨w, lines, h3, h4, h2⟩

/-- C85, for the complex type `simplexArrayList` and `dimensions` 0: this complex then keeps no edges, and the
program reads past the end of a vector on every input. -/
theorem C85_array_dimension_zero_violated (sys : System ℝ ℝ) (hdist : sys.lib.dist = vectorsDistance)
    (pairs : List (String × String)) (m : ArgMap) (f : String)
    (data : List (List ℝ)) (h : PlainCommand sys pairs m "simplexArrayList" f data)
    (hcol : m.val "collapse" ≠ "true" ∧ m.val "collapse" ≠ "1")
    (hd : sys.atoi (m.val "dimensions") = 0)
    (k : Nat) (hk : 0 < k) (hdim : ∀ p ∈ data, p.length = k) :
    mainProgram sys (commandLine pairs) = .error .oob := by
  rw [main_plain sys pairs m _ f data (by decide) h, hd]
  obtain ⟨dm, ws, h1⟩ : ∃ dm ws, distMatrixPipe vectorsDistance (sys.atof (m.val "epsilon")) [] data =
      .ok (dm, ws) := by
    obtain ⟨ws, h1, -, -⟩ := C11_distance_matrix_euclidean k hk data hdim (sys.atof (m.val "epsilon"))
    exact ⟨_, ws, h1⟩
  have hins : ∀ (l : List (List ℝ)) (vs : List (List Nat × ℝ)), vs ≠ [] → (∀ p ∈ l, p.length = k) →
      ∃ vs', vs' ≠ [] ∧ arrayInsertAll (sys.atof (m.val "epsilon")) 0 dm l [vs] = .ok [vs'] := by
    intro l
    induction l with
    | nil => intro vs hvs _; exact ⟨vs, hvs, rfl⟩
    | cons p l ih =>
      intro vs hvs hl
      have hp : p.isEmpty = false := by
        have := hl p (by simp)
        cases p with
        | nil => simp at this; omega
        | cons => rfl
      obtain ⟨vs', g1, g2⟩ := ih (vs ++ [([vs.length], 0)]) (by simp) (fun q hq => hl q (by simp [hq]))
      refine ⟨vs', g1, ?_⟩
      unfold arrayInsertAll at g2 ⊢
      rw [List.foldlM_cons, hp]
      unfold arrayInsert
      rw [hp]
      exact g2
  obtain ⟨vs, hvs, h2⟩ : ∃ vs, vs ≠ [] ∧
      arrayInsertAll (sys.atof (m.val "epsilon")) 0 dm data [] = .ok [vs] := by
    have hne := h.rows
    clear h1 h
    cases data with
    | nil => exact absurd rfl hne
    | cons p l =>
      have hp : p.isEmpty = false := by
        have := hdim p (by simp)
        cases p with
        | nil => simp at this; omega
        | cons => rfl
      obtain ⟨vs', g1, g2⟩ := hins l [([0], 0)] (by simp) (fun q hq => hdim q (by simp [hq]))
      refine ⟨vs', g1, ?_⟩
      unfold arrayInsertAll at g2 ⊢
      rw [List.foldlM_cons, hp]
      unfold arrayInsert
      rw [hp]
      exact g2
  have e1 : runStages sys.lib ⟨sys.atof (m.val "epsilon"), 0, m.val "collapse"⟩ .distMatrix
      (⟨data, data, [], newComplex "simplexArrayList", [], [], []⟩ : Work (List ℝ) ℝ) =
      .ok ⟨data, data, [], .array [] dm, ws, [], []⟩ := by
    show (distMatrixPipe sys.lib.dist (sys.atof (m.val "epsilon")) [] data >>= _) = _
    rw [hdist, h1, ok_bind]
    rfl
  have e2 : runStages sys.lib ⟨sys.atof (m.val "epsilon"), 0, m.val "collapse"⟩ .neighGraph
      (⟨data, data, [], .array [] dm, ws, [], []⟩ : Work (List ℝ) ℝ) =
      .ok ⟨data, data, [], .array [vs] dm, ws, [], []⟩ := by
    show (arrayInsertAll (sys.atof (m.val "epsilon")) 0 dm data [] >>= _) = _
    rw [h2, ok_bind]
    rfl
  have e3 : runStages sys.lib ⟨sys.atof (m.val "epsilon"), 0, m.val "collapse"⟩ .rips
      (⟨data, data, [], .array [vs] dm, ws, [], []⟩ : Work (List ℝ) ℝ) =
      .ok ⟨data, data, [], .array [vs] dm, ws, [], []⟩ := by
    show (ripsPipeArray 0 (m.val "collapse") [vs] >>= _) = _
    unfold ripsPipeArray
    rw [show expandDimensions 0 [vs] = .ok [vs] from rfl, ok_bind,
      if_neg (by rintro (c | c); exacts [hcol.1 c, hcol.2 c])]
    rfl
  have e4 : runStages sys.lib ⟨sys.atof (m.val "epsilon"), 0, m.val "collapse"⟩ .fastPersistence
      (⟨data, data, [], .array [vs] dm, ws, [], []⟩ : Work (List ℝ) ℝ) = .error .oob := by
    have hlen : ∃ l, arrayGetAllEdges sys.lib.sort [vs] = [l] := by
      unfold arrayGetAllEdges
      rw [List.filterMap_cons]
      dsimp only
      rw [if_pos (by simpa using List.length_pos_of_ne_nil hvs)]
      exact ⟨_, rfl⟩
    obtain ⟨l, hl⟩ := hlen
    show (fastPersistence sys.lib.mode 0 (sys.atof (m.val "epsilon")) (arrayGetAllEdges sys.lib.sort [vs])
      [] [] >>= _) = _
    rw [hl]
    rfl
  unfold fastKinds
  simp only [List.foldlM_cons, List.foldlM_nil]
  rw [e1, ok_bind, e2, ok_bind, e3, ok_bind, e4]
  rfl

/-! ### C61: preprocessing -/

/-- The preprocessors that do something, with their names on the command line. -/
def Spec.preprocessors : List (String × PreKind) :=
  [("kmeansplusplus", .kmeans), ("kmeans++", .kmeans), ("kmeans", .kmeans),
   ("streamingKmeans", .streamingKmeans), ("streamingkmeans", .streamingKmeans),
   ("streamKM", .streamingKmeans),
   ("denStream", .denStream), ("denstream", .denStream), ("DenStream", .denStream)]

/-- C61: the preprocessing step, for the arguments of every command line: a known name runs that preprocessor
once on the packet; any other name, "none" or no name leaves the packet alone and the program goes on. -/
theorem C61_preprocessing {D : Type} (pre : PreKind → D → Res D) (pairs : List (String × String))
    (m : ArgMap) (hm : parseArgs (commandLine pairs) = .ok m) (p : Packet D) :
    (∀ name kind, (name, kind) ∈ preprocessors → (setPipeline m).val "preprocessor" = name →
      ∀ q, preprocess pre (setPipeline m) p = .ok q ↔
        ∃ d, pre kind p.data = .ok d ∧ q.data = d ∧ q.hasComplex = p.hasComplex ∧
          ∃ label, q.stats = p.stats ++ [label] ∧
            (kind, label) ∈ [(PreKind.kmeans, "k-means++"), (.streamingKmeans, "streamingKmeans"),
              (.denStream, "DenStream")]) ∧
    ((∀ e ∈ preprocessors, (setPipeline m).val "preprocessor" ≠ e.1) →
      preprocess pre (setPipeline m) p = .ok p) := by
  have hsome : ∀ o ∈ options, ((setPipeline m) o.1).isSome :=
    fun o ho => setPipeline_isSome m _ (parse_isSome pairs m hm o ho)
  have k1 := hsome ("clusters", "k", "20") (by decide)
  have k2 := hsome ("iterations", "r", "250") (by decide)
  have k3 := hsome ("epsilon", "e", "5") (by decide)
  have k4 := hsome ("lambda", "l", ".25") (by decide)
  have hcfg : ∀ k, configPreprocessor k (setPipeline m) = true := by
    intro k
    cases k <;> simp [configPreprocessor, preRequiredKeys, k1, k2, k3, k4]
  constructor
  · intro name kind hk hname q
    have hnew : newPreprocessor name = some kind ∧ name ≠ "" ∧ kind ≠ .base := by
      revert hk
      generalize hnk : (name, kind) = nk
      intro hk
      have := (by decide : ∀ e ∈ preprocessors, newPreprocessor e.1 = some e.2 ∧ e.1 ≠ "" ∧ e.2 ≠ .base)
        nk hk
      rw [← hnk] at this
      exact this
    unfold preprocess
    rw [hname, if_pos hnew.2.1, hnew.1]
    dsimp only
    rw [if_pos (hcfg kind)]
    unfold runPreprocessorWrapper
    have hc : preConfigured kind = true := by
      cases kind <;> first | rfl | exact absurd rfl hnew.2.2
    rw [if_pos hc, bind_ok]
    constructor
    · rintro ⟨d, h1, h2⟩
      cases h2
      refine ⟨d, h1, rfl, rfl, procName kind, rfl, ?_⟩
      cases kind <;> first | exact absurd rfl hnew.2.2 | simp [procName]
    · rintro ⟨d, h1, h2, h3, label, h4, h5⟩
      refine ⟨d, h1, ?_⟩
      have : label = procName kind := by
        cases kind <;> first | exact absurd rfl hnew.2.2 | simpa [procName] using h5
      subst this
      obtain ⟨a, b, c⟩ := q
      dsimp only at h2 h3 h4
      rw [h2, h3, h4]
      rfl
  · intro hno
    unfold preprocess
    split_ifs with h0
    · rcases hn : newPreprocessor ((setPipeline m).val "preprocessor") with _ | k
      · rfl
      · have : k = .base := by
          by_contra hb
          unfold newPreprocessor at hn
          simp only [preprocessors, List.forall_mem_cons, List.not_mem_nil, false_implies, implies_true,
            and_true] at hno
          obtain ⟨n1, n2, n3, n4, n5, n6, n7, n8, n9⟩ := hno
          simp only [n1, n2, n3, n4, n5, n6, n7, n8, n9, or_false, if_false] at hn
          split_ifs at hn
          cases hn
          exact hb rfl
        subst this
        dsimp only
        rw [if_pos (hcfg _)]
        rfl
    · rfl

example : ("kmeans", PreKind.kmeans) ∈ preprocessors ∧
    (∀ e ∈ preprocessors, "none" ≠ e.1) ∧ ∀ e ∈ preprocessors, "what" ≠ e.1 := by decide

end LHF
