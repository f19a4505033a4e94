import Verif.Props.Reduced
import Verif.Props.DenStream
import Verif.Props.InputOutput

/-! C97, C98: the program with a preprocessor: the barcode of the points that the preprocessor returns. -/

namespace LHF
open Spec

/-- What a run of the default pipeline leaves: the statistics of the stages, among them `before` (the
preprocessor), and a barcode file whose lines are `lines`. -/
def Spec.WritesBarcodeAfter (before : List String) (io : TextNum ℝ) (f : String) (lines : List (Line ℝ))
    (w : World (List ℝ) ℝ) : Prop :=
  w.files = [(f ++ "_stats.csv",
      .stats (before ++ ["DistMatrix", "neighGraph", "ripsPipe", "FastPersistence"])),
    (f ++ ".csv", .text (barcodeContent io lines))]

/-- The command lines of C97 and C98: a mode with the four default stages and a barcode file; the
preprocessor is any. -/
structure Spec.StandardCommand (sys : System ℝ ℝ) (pairs : List (String × String)) (m : ArgMap)
    (complexType f : String) (data : List (List ℝ)) : Prop where
  parsed : parseArgs (commandLine pairs) = .ok m
  mpi : m.val "mpi" ≠ "1"
  pipeline : m.val "pipeline" = ""
  mode : m.val "mode" = "standard" ∨ (m.val "mode" = "fast" ∧ complexType = "simplexTree")
  upscale : m.val "upscale" ≠ "true"
  complex : m.val "complexType" = complexType
  output : m.val "outputFile" = f
  console : f ≠ "console"
  input : readCSV sys.inIO (sys.files (m.val "inputFile")) = .ok data
  rows : data ≠ []

theorem preprocess_hasComplex {D : Type} {pre : PreKind → D → Res D} {args : ArgMap} {q p : Packet D}
    (h2 : preprocess pre args q = .ok p) : p.hasComplex = q.hasComplex := by
  unfold preprocess at h2
  split at h2
  · split at h2
    · split at h2
      · unfold runPreprocessorWrapper at h2
        split at h2
        · rw [bind_ok] at h2
          obtain ⟨d, -, h2⟩ := h2
          rw [pure_eq_ok] at h2
          cases h2
          rfl
        · rw [pure_eq_ok] at h2; cases h2; rfl
      · rw [pure_eq_ok] at h2; cases h2; rfl
    · rw [pure_eq_ok] at h2; cases h2; rfl
  · rw [pure_eq_ok] at h2; cases h2; rfl

/-- What `main` does in a mode with the four default stages, after the preprocessor. -/
theorem main_after_pre (sys : System ℝ ℝ) (pairs : List (String × String)) (m : ArgMap)
    (hm : parseArgs (commandLine pairs) = .ok m) (hmpi : m.val "mpi" ≠ "1")
    (hp : m.val "pipeline" = "") (d : Mode) (hd : d ∈ modes) (hmode : m.val "mode" = d.name)
    (hst : d.stages = fastStages) (hred : d.name ≠ "reduced")
    (hup : d.upscale.apply (m.val "upscale") ≠ "true")
    (hct : m.val "complexType" ∈ ["simplexArrayList", "simplexTree", "indSimplexTree"])
    (f : String) (hf : m.val "outputFile" = f) (hcon : f ≠ "console")
    (data : List (List ℝ)) (hread : readCSV sys.inIO (sys.files (m.val "inputFile")) = .ok data)
    (hne : data ≠ []) :
    mainProgram sys (commandLine pairs) =
      (preprocess (sys.pre (setPipeline m)) (setPipeline m) ⟨[], true, ⟨data, data, [],
          newComplex (d.complexType.apply (m.val "complexType")), [], [], []⟩⟩ >>= fun p =>
      fastKinds.foldlM (fun d k => runStages sys.lib ⟨sys.atof (m.val "epsilon"),
          sys.atoi (m.val "dimensions"), m.val "collapse"⟩ k d) p.data >>=
      fun w => pure ⟨⟨p.stats ++ fastNames, true, w⟩,
        [(f ++ "_stats.csv", .stats (p.stats ++ fastNames)),
          (f ++ ".csv", .text (barcodeText sys.io w.bettiOutput))]⟩) := by
  obtain ⟨q1, q2, q3, q4, q5⟩ := C38_mode_selection m hmpi hp d hd hmode
  have hsome : ∀ o ∈ options, ((setPipeline m) o.1).isSome :=
    fun o ho => setPipeline_isSome m _ (parse_isSome pairs m hm o ho)
  have hpl : ((setPipeline m) "pipeline").isSome := hsome ("pipeline", "p", "") (by decide)
  have hout : ((setPipeline m) "outputFile").isSome :=
    hsome ("outputFile", "o", "output.csv") (by decide)
  have hout' : (setPipeline m) "outputFile" = some f := by
    apply some_of_val hout
    rw [q5 _ (by decide), hf]
  have hsw : (setPipeline m).val "pipeline" ≠ "slidingwindow" := by
    rw [q1, hst]; decide
  have hct' : d.complexType.apply (m.val "complexType") ∈
      ["simplexArrayList", "simplexTree", "indSimplexTree"] := by
    generalize m.val "complexType" = ct at hct
    clear q1 q2 q3 q4 q5 hup hmode hst hred
    simp only [List.mem_cons, List.not_mem_nil, or_false] at hct
    rcases hct with rfl | rfl | rfl <;> revert d <;> decide
  have hkinds : modeKinds d (m.val "complexType") = fastKinds := by
    unfold modeKinds
    rw [if_pos hst]
    rfl
  have hhas : (newPacket (d.complexType.apply (m.val "complexType"))
      (⟨data, data, [], newComplex (d.complexType.apply (m.val "complexType")), [], [], []⟩ :
        Work (List ℝ) ℝ)) = ⟨[], true, ⟨data, data, [],
          newComplex (d.complexType.apply (m.val "complexType")), [], [], []⟩⟩ := by
    simp only [List.mem_cons, List.not_mem_nil, or_false] at hct'
    unfold newPacket
    simp only [Packet.mk.injEq, decide_eq_true_eq, and_true, true_and]
    tauto
  unfold mainProgram
  rw [hm, ok_bind]
  dsimp only
  rw [if_pos hsw, q5 "inputFile" (by decide), hread, ok_bind]
  unfold dispatch
  rw [if_pos (by exact Or.inl (List.length_pos_of_ne_nil hne)), q4, if_neg hup,
    q5 "mode" (by decide), hmode, if_neg hred]
  unfold processData
  rw [q3, hhas]
  cases hpre : preprocess (sys.pre (setPipeline m)) (setPipeline m) ⟨[], true, ⟨data, data, [],
          newComplex (d.complexType.apply (m.val "complexType")), [], [], []⟩⟩ with
  | error e => rfl
  | ok p =>
    rw [ok_bind, ok_bind]
    unfold runPipelineOut
    rw [some_of_val hpl rfl]
    dsimp only
    rw [C60_known_modes_run_all_stages _ _ pairs m hm hmpi hp d hd hmode hct, hkinds,
      q5 "epsilon" (by decide), q5 "dimensions" (by decide), q5 "collapse" (by decide)]
    rw [fold_wrappers _ _ _ (preprocess_hasComplex hpre), bind_assoc]
    congr 1
    funext w
    rw [pure_eq_ok, ok_bind]
    unfold pipelineFiles
    rw [hout']
    simp only [hcon, if_false]
    rfl

theorem main_standard (sys : System ℝ ℝ) (pairs : List (String × String)) (m : ArgMap)
    (ct f : String) (data : List (List ℝ))
    (hct : ct ∈ ["simplexArrayList", "simplexTree", "indSimplexTree"])
    (h : StandardCommand sys pairs m ct f data) :
    mainProgram sys (commandLine pairs) =
      (preprocess (sys.pre (setPipeline m)) (setPipeline m) ⟨[], true, ⟨data, data, [],
          newComplex ct, [], [], []⟩⟩ >>= fun p =>
      fastKinds.foldlM (fun d k => runStages sys.lib ⟨sys.atof (m.val "epsilon"),
          sys.atoi (m.val "dimensions"), m.val "collapse"⟩ k d) p.data >>=
      fun w => pure ⟨⟨p.stats ++ fastNames, true, w⟩,
        [(f ++ "_stats.csv", .stats (p.stats ++ fastNames)),
          (f ++ ".csv", .text (barcodeText sys.io w.bettiOutput))]⟩) := by
  have hct' : m.val "complexType" ∈ ["simplexArrayList", "simplexTree", "indSimplexTree"] := by
    rw [h.complex]; exact hct
  rcases h.mode with hmode | ⟨hmode, hc⟩
  · rw [main_after_pre sys pairs m h.parsed h.mpi h.pipeline
      ⟨"standard", fastStages, .keep, .keep, .keep⟩ (by simp [modes]) hmode rfl (by decide)
      h.upscale hct' f h.output h.console data h.input h.rows]
    rw [show Setting.keep.apply (m.val "complexType") = ct from h.complex]
  · rw [main_after_pre sys pairs m h.parsed h.mpi h.pipeline
      ⟨"fast", fastStages, .keep, .force "simplexTree", .force "false"⟩ (by simp [modes]) hmode rfl
      (by decide) (show "false" ≠ "true" by decide) hct' f h.output h.console data h.input h.rows]
    rw [show (Setting.force "simplexTree").apply (m.val "complexType") = ct from hc.symm]

/-- The names of the preprocessors in the statistics. -/
def Spec.preLabel : PreKind → String
  | .base => "preprocessor"
  | .kmeans => "k-means++"
  | .streamingKmeans => "streamingKmeans"
  | .denStream => "DenStream"

/-- With the name of a preprocessor on the command line, it is run on all rows. -/
theorem pre_selected {D : Type} (pre : PreKind → D → Res D) (pairs : List (String × String))
    (m : ArgMap) (hm : parseArgs (commandLine pairs) = .ok m) (name : String) (kind : PreKind)
    (hk : (name, kind) ∈ preprocessors) (hname : (setPipeline m).val "preprocessor" = name)
    (p : Packet D) :
    preprocess pre (setPipeline m) p =
      (pre kind p.data >>= fun d => pure ⟨p.stats ++ [preLabel kind], p.hasComplex, d⟩) := by
  have hsome : ∀ o ∈ options, ((setPipeline m) o.1).isSome :=
    fun o ho => setPipeline_isSome m _ (parse_isSome pairs m hm o ho)
  have k1 := hsome ("clusters", "k", "20") (by decide)
  have k2 := hsome ("iterations", "r", "250") (by decide)
  have k3 := hsome ("epsilon", "e", "5") (by decide)
  have k4 := hsome ("lambda", "l", ".25") (by decide)
  have hcfg : ∀ k, configPreprocessor k (setPipeline m) = true := by
    intro k
    cases k <;> simp [configPreprocessor, preRequiredKeys, k1, k2, k3, k4]
  have := (by decide : ∀ e ∈ preprocessors, newPreprocessor e.1 = some e.2 ∧ e.1 ≠ "" ∧
    preConfigured e.2 = true ∧ procName e.2 = preLabel e.2) _ hk
  obtain ⟨a1, a2, a3, a4⟩ := this
  unfold preprocess
  rw [hname, if_pos a2, a1]
  dsimp only
  rw [if_pos (hcfg kind)]
  unfold runPreprocessorWrapper
  rw [if_pos a3, ← a4]

theorem Spec.StandardCommand.preprocessor {sys : System ℝ ℝ} {pairs : List (String × String)} {m : ArgMap}
    {ct f : String} {data : List (List ℝ)} (h : StandardCommand sys pairs m ct f data) :
    (setPipeline m).val "preprocessor" = m.val "preprocessor" := by
  rcases h.mode with hmode | ⟨hmode, -⟩
  · exact (C38_mode_selection m h.mpi h.pipeline ⟨"standard", fastStages, .keep, .keep, .keep⟩
      (by simp [modes]) hmode).2.1
  · exact (C38_mode_selection m h.mpi h.pipeline
      ⟨"fast", fastStages, .keep, .force "simplexTree", .force "false"⟩ (by simp [modes]) hmode).2.1

/-- The preprocessor turns the rows `data` into the points `pts`, with labels, and leaves the rest of the
packet alone. -/
def Spec.PreprocessesInto (pre : Work (List ℝ) ℝ → Res (Work (List ℝ) ℝ)) (data pts : List (List ℝ))
    (labels : List Nat) : Prop :=
  ∀ complex, pre ⟨data, data, [], complex, [], [], []⟩ = .ok ⟨pts, data, labels, complex, [], [], []⟩

section
variable {sys : System ℝ ℝ} {pairs : List (String × String)} {m : ArgMap} {f : String}
  {data : List (List ℝ)} {kind : PreKind} {pts : List (List ℝ)} {labels : List Nat}

theorem pre_packet {ct : String} (h : StandardCommand sys pairs m ct f data)
    (hk : (m.val "preprocessor", kind) ∈ preprocessors)
    (hpre : PreprocessesInto (sys.pre (setPipeline m) kind) data pts labels) :
    preprocess (sys.pre (setPipeline m)) (setPipeline m) ⟨[], true, ⟨data, data, [],
          newComplex ct, [], [], []⟩⟩ =
      .ok ⟨[preLabel kind], true, ⟨pts, data, labels, newComplex ct, [], [], []⟩⟩ := by
  rw [pre_selected _ pairs m h.parsed _ kind hk h.preprocessor]
  dsimp only
  rw [hpre, ok_bind]
  rfl

/-- The program on a `simplexTree` with a preprocessor does what the default pipeline does on the
points that the preprocessor returns. -/
theorem main_pre_tree (hdist : sys.lib.dist = vectorsDistance)
    (h : StandardCommand sys pairs m "simplexTree" f data)
    (hk : (m.val "preprocessor", kind) ∈ preprocessors)
    (hpre : PreprocessesInto (sys.pre (setPipeline m) kind) data pts labels) :
    SameRes (fun (w : World (List ℝ) ℝ) (r : List (Line ℝ) × List (BettiEntry ℝ)) =>
        WritesBarcodeAfter [preLabel kind] sys.io f r.1 w)
      (mainProgram sys (commandLine pairs))
      (treeRun vectorsDistance sys.lib.sort sys.lib.mode (sys.atof (m.val "epsilon"))
        (sys.atoi (m.val "dimensions")) pts) := by
  rw [main_standard sys pairs m _ f data (by decide) h, pre_packet h hk hpre, ok_bind]
  have := tree_stages sys.lib ⟨sys.atof (m.val "epsilon"), sys.atoi (m.val "dimensions"),
    m.val "collapse"⟩ hdist ⟨pts, data, labels, newComplex "simplexTree", [], [], []⟩ [] rfl rfl rfl
  refine cast ?_ (this.bind (f := fun w : Work (List ℝ) ℝ => (.ok ⟨⟨[preLabel kind] ++ fastNames, true, w⟩,
        [(f ++ "_stats.csv", .stats ([preLabel kind] ++ fastNames)),
          (f ++ ".csv", .text (barcodeText sys.io w.bettiOutput))]⟩ : Res (World (List ℝ) ℝ)))
    (g := fun r => .ok r) (S := fun (w : World (List ℝ) ℝ) (r : List (Line ℝ) × List (BettiEntry ℝ)) =>
        WritesBarcodeAfter [preLabel kind] sys.io f r.1 w) ?_)
  · congr 1
    exact bind_pure _
  · rintro w r - - ⟨t, dm, ws, rfl⟩
    show _ = _
    rw [← barcodeText_eq]
    rfl

/-- The same on a `simplexArrayList`. -/
theorem main_pre_array (hdist : sys.lib.dist = vectorsDistance)
    (h : StandardCommand sys pairs m "simplexArrayList" f data)
    (hk : (m.val "preprocessor", kind) ∈ preprocessors)
    (hpre : PreprocessesInto (sys.pre (setPipeline m) kind) data pts labels)
    (hcol : m.val "collapse" ≠ "true" ∧ m.val "collapse" ≠ "1")
    (hd : 0 < sys.atoi (m.val "dimensions")) (k : Nat) (hk0 : 0 < k)
    (hdim : ∀ p ∈ pts, p.length = k) (hne : pts ≠ []) :
    SameRes (fun (w : World (List ℝ) ℝ) (r : List (Line ℝ) × List (BettiEntry ℝ)) =>
        WritesBarcodeAfter [preLabel kind] sys.io f r.1 w)
      (mainProgram sys (commandLine pairs))
      (arrayRun vectorsDistance sys.lib.sort sys.lib.mode (sys.atof (m.val "epsilon"))
        (sys.atoi (m.val "dimensions")) pts) := by
  rw [main_standard sys pairs m _ f data (by decide) h, pre_packet h hk hpre, ok_bind]
  have := array_stages sys.lib ⟨sys.atof (m.val "epsilon"), sys.atoi (m.val "dimensions"),
    m.val "collapse"⟩ hdist hd hcol k hk0
    ⟨pts, data, labels, newComplex "simplexArrayList", [], [], []⟩ [] rfl hdim hne
  refine cast ?_ (this.bind (f := fun w : Work (List ℝ) ℝ => (.ok ⟨⟨[preLabel kind] ++ fastNames, true, w⟩,
        [(f ++ "_stats.csv", .stats ([preLabel kind] ++ fastNames)),
          (f ++ ".csv", .text (barcodeText sys.io w.bettiOutput))]⟩ : Res (World (List ℝ) ℝ)))
    (g := fun r => .ok r) (S := fun (w : World (List ℝ) ℝ) (r : List (Line ℝ) × List (BettiEntry ℝ)) =>
        WritesBarcodeAfter [preLabel kind] sys.io f r.1 w) ?_)
  · congr 1
    exact bind_pure _
  · rintro w r - - ⟨g, dm, ws, rfl⟩
    show _ = _
    rw [← barcodeText_eq]
    rfl

/-- C97 for any preprocessor: a program that ends has written the barcode of the points that the
preprocessor returned. -/
theorem barcode_of_pre_tree (hdist : sys.lib.dist = vectorsDistance) (hread : sys.lib.mode ≠ .libstdcxx)
    (h : StandardCommand sys pairs m "simplexTree" f data)
    (hk : (m.val "preprocessor", kind) ∈ preprocessors)
    (hpre : PreprocessesInto (sys.pre (setPipeline m) kind) data pts labels)
    (k : Nat) (hk0 : 0 < k) (hdim : ∀ p ∈ pts, p.length = k) (hne : pts ≠ [])
    (w : World (List ℝ) ℝ) (hw : mainProgram sys (commandLine pairs) = .ok w) :
    ∃ lines, WritesBarcodeAfter [preLabel kind] sys.io f lines w ∧
      DescribesRips pts.length (rowDist k pts) (· < sys.atof (m.val "epsilon"))
        (sys.atof (m.val "epsilon")) (sys.atoi (m.val "dimensions")) lines := by
  obtain ⟨⟨lines, T⟩, h1, h2⟩ := (main_pre_tree hdist h hk hpre).ok_of hw
  refine ⟨lines, h2, ?_⟩
  by_cases hedge : ∃ i j, i < j ∧ j < pts.length ∧ rowDist k pts i j < sys.atof (m.val "epsilon")
  · have hcases : sys.lib.mode = .undefined ∨ sys.lib.mode = .noPivot := by
      cases hm : sys.lib.mode
      · exact Or.inl rfl
      · exact absurd hm hread
      · exact Or.inr rfl
    rcases hcases with hm | hm
    · rw [hm] at h1
      rcases C70_tree_run_or_undefined sys.lib.sort (sys.atof (m.val "epsilon"))
        (sys.atoi (m.val "dimensions")) k hk0 pts hdim hedge with h3 | ⟨l, t, h3, h4⟩
      · rw [h3] at h1; cases h1
      · rw [h3] at h1; cases h1; exact h4
    · rw [hm] at h1
      obtain ⟨l, t, h3, h4⟩ := C70_tree_run_partial sys.lib.sort (sys.atof (m.val "epsilon"))
        (sys.atoi (m.val "dimensions")) k hk0 pts hdim hedge
      rw [h3] at h1; cases h1; exact h4
  · push Not at hedge
    have := C70_tree_run_no_edge sys.lib.sort sys.lib.mode (sys.atof (m.val "epsilon"))
      (sys.atoi (m.val "dimensions")) k hk0 pts hdim hedge
    rw [if_neg hne] at this
    rw [this] at h1
    cases h1

theorem barcode_of_pre_array (hdist : sys.lib.dist = vectorsDistance) (hread : sys.lib.mode ≠ .libstdcxx)
    (h : StandardCommand sys pairs m "simplexArrayList" f data)
    (hk : (m.val "preprocessor", kind) ∈ preprocessors)
    (hpre : PreprocessesInto (sys.pre (setPipeline m) kind) data pts labels)
    (hcol : m.val "collapse" ≠ "true" ∧ m.val "collapse" ≠ "1")
    (hd : 0 < sys.atoi (m.val "dimensions"))
    (k : Nat) (hk0 : 0 < k) (hdim : ∀ p ∈ pts, p.length = k) (hne : pts ≠ [])
    (w : World (List ℝ) ℝ) (hw : mainProgram sys (commandLine pairs) = .ok w) :
    ∃ lines, WritesBarcodeAfter [preLabel kind] sys.io f lines w ∧
      DescribesRips pts.length (rowDist k pts) (· ≤ sys.atof (m.val "epsilon"))
        (sys.atof (m.val "epsilon")) (sys.atoi (m.val "dimensions")) lines := by
  obtain ⟨⟨lines, T⟩, h1, h2⟩ := (main_pre_array hdist h hk hpre hcol hd k hk0 hdim hne).ok_of hw
  refine ⟨lines, h2, ?_⟩
  by_cases hedge : ∃ i j, i < j ∧ j < pts.length ∧ rowDist k pts i j ≤ sys.atof (m.val "epsilon")
  · have hcases : sys.lib.mode = .undefined ∨ sys.lib.mode = .noPivot := by
      cases hm : sys.lib.mode
      · exact Or.inl rfl
      · exact absurd hm hread
      · exact Or.inr rfl
    rcases hcases with hm | hm
    · rw [hm] at h1
      rcases C71_array_run_or_undefined sys.lib.sort (sys.atof (m.val "epsilon"))
        (sys.atoi (m.val "dimensions")) hd k hk0 pts hdim hedge with h3 | ⟨l, t, h3, h4⟩
      · rw [h3] at h1; cases h1
      · rw [h3] at h1; cases h1; exact h4
    · rw [hm] at h1
      obtain ⟨l, t, h3, h4⟩ := C71_array_run_partial sys.lib.sort (sys.atof (m.val "epsilon"))
        (sys.atoi (m.val "dimensions")) hd k hk0 pts hdim hedge
      rw [h3] at h1; cases h1; exact h4
  · push Not at hedge
    have := C71_array_run_no_edge sys.lib.sort sys.lib.mode (sys.atof (m.val "epsilon"))
      (sys.atoi (m.val "dimensions")) hd k hk0 pts hdim hedge
    rw [if_neg hne] at this
    rw [this] at h1
    cases h1

end

/-! ### C97: k-means -/

theorem mapM_id_some : ∀ (row : List (Option ℝ)) (c : List ℝ), row.mapM id = some c → row = c.map some := by
  intro row
  induction row with
  | nil => intro c h; rw [List.mapM_nil] at h; cases h; rfl
  | cons x row ih =>
    intro c h
    rw [List.mapM_cons] at h
    cases x with
    | none => cases h
    | some x =>
      cases hr : row.mapM id with
      | none => rw [hr] at h; cases h
      | some c' =>
        rw [hr] at h
        cases h
        rw [ih c' hr]
        rfl

theorem mapM_rows_some : ∀ (rows : List (List (Option ℝ))) (cents : List (List ℝ)),
    rows.mapM (fun row => row.mapM id) = some cents → rows = cents.map (·.map some) := by
  intro rows
  induction rows with
  | nil => intro c h; rw [List.mapM_nil] at h; cases h; rfl
  | cons x rows ih =>
    intro c h
    rw [List.mapM_cons] at h
    cases hx : x.mapM id with
    | none => rw [hx] at h; cases h
    | some x' =>
      cases hr : rows.mapM (fun row => row.mapM id) with
      | none => rw [hx, hr] at h; cases h
      | some c' =>
        rw [hx, hr] at h
        cases h
        rw [ih c' hr, mapM_id_some x x' hx]
        rfl

theorem mapM_id_map_some (c : List ℝ) : (c.map some).mapM id = some c := by
  induction c with
  | nil => rfl
  | cons x c ih => rw [List.map_cons, List.mapM_cons, ih]; rfl

theorem mapM_rows_map_some (cents : List (List ℝ)) :
    (cents.map (·.map some)).mapM (fun row => row.mapM id) = some cents := by
  induction cents with
  | nil => rfl
  | cons x c ih => rw [List.map_cons, List.mapM_cons, ih, mapM_id_map_some]; rfl

/-- The points `cents` are the means of `cents.length` classes of rows, none of them empty: the class `i` is
made of the rows labelled `i`. -/
def Spec.MeansOfClasses (k : Nat) (data : List (List ℝ)) (labels : List Nat) (cents : List (List ℝ)) :
    Prop :=
  ∀ i c, cents[i]? = some c → classPoints data labels i ≠ [] ∧ IsMean k (classPoints data labels i) c

theorem means_of_classes {k : Nat} (hk : 0 < k) {data : List (List ℝ)} {labels : List Nat}
    {cents : List (List ℝ)} (h : CentroidsAreMeans k data labels (cents.map (·.map some))) :
    MeansOfClasses k data labels cents := by
  intro i c hc
  have hi : i < cents.length := (List.getElem?_eq_some_iff.1 hc).1
  obtain ⟨h1, h2⟩ := h i (by simpa using hi)
  have hne : classPoints data labels i ≠ [] := by
    intro he
    have := h1 he
    rw [List.getElem?_map, hc] at this
    have := congrArg (fun l => l.getD [] |>.head?) this
    cases c with
    | nil =>
      cases k with
      | zero => omega
      | succ => simp [List.replicate_succ] at this
    | cons x c =>
      cases k with
      | zero => omega
      | succ => simp [List.replicate_succ] at this
  refine ⟨hne, ?_⟩
  obtain ⟨q, h3, h4⟩ := h2 hne
  unfold CentroidAt at h3
  rw [List.getElem?_map, hc] at h3
  have : c = q := List.map_injective_iff.2 (Option.some_injective _) (Option.some.inj h3)
  rw [this]
  exact h4

/-- The k-means of a command line: the number of clusters and of iterations come from the command line; `first`
and `picks` are the random choices: a row, and for each further cluster a row and whether it is taken. -/
structure Spec.KMeansCommand (sys : System ℝ ℝ) (m : ArgMap) (data : List (List ℝ)) (first : Nat)
    (picks : List (Nat × Bool)) : Prop where
  name : m.val "preprocessor" ∈ ["kmeansplusplus", "kmeans++", "kmeans"]
  run : sys.pre (setPipeline m) .kmeans =
    kmWork (sys.atoi (m.val "clusters")) (sys.atoi (m.val "iterations")) first picks
  firstRow : first < data.length
  pickRows : ∀ p ∈ picks, p.1 < data.length
  number : picks.length + 1 = sys.atoi (m.val "clusters")

theorem kmeans_kind {m : ArgMap} (h : m.val "preprocessor" ∈ ["kmeansplusplus", "kmeans++", "kmeans"]) :
    (m.val "preprocessor", PreKind.kmeans) ∈ preprocessors := by
  generalize m.val "preprocessor" = n at h
  simp only [List.mem_cons, List.not_mem_nil, or_false] at h
  rcases h with rfl | rfl | rfl <;> decide

/-- A program with k-means that ends: k-means has returned centroids without an undefined coordinate. -/
theorem kmeans_returned {sys : System ℝ ℝ} {pairs : List (String × String)} {m : ArgMap} {ct f : String}
    {data : List (List ℝ)} (hct : ct ∈ ["simplexArrayList", "simplexTree", "indSimplexTree"])
    (h : StandardCommand sys pairs m ct f data)
    {first : Nat} {picks : List (Nat × Bool)} (hkm : KMeansCommand sys m data first picks)
    {w : World (List ℝ) ℝ} (hw : mainProgram sys (commandLine pairs) = .ok w) :
    ∃ cents labels, kmRun data (sys.atoi (m.val "clusters")) (sys.atoi (m.val "iterations")) first picks =
        .ok (cents.map (·.map some), labels) ∧
      PreprocessesInto (sys.pre (setPipeline m) .kmeans) data cents labels := by
  rw [main_standard sys pairs m _ f data hct h, bind_ok] at hw
  obtain ⟨p, h1, -⟩ := hw
  rw [pre_selected _ pairs m h.parsed _ .kmeans (kmeans_kind hkm.name) h.preprocessor, bind_ok] at h1
  obtain ⟨d, h1, -⟩ := h1
  rw [hkm.run] at h1 ⊢
  unfold kmWork at h1
  rw [bind_ok] at h1
  obtain ⟨⟨rows, labels⟩, h2, h3⟩ := h1
  dsimp only at h2 h3
  cases hm : rows.mapM (fun row => row.mapM id) with
  | none => rw [hm] at h3; cases h3
  | some cents =>
    have := mapM_rows_some rows cents hm
    subst this
    refine ⟨cents, labels, h2, ?_⟩
    intro complex
    unfold kmWork
    dsimp only
    rw [h2, ok_bind]
    dsimp only
    rw [hm]
    rfl

/-- The centroids that k-means returns. -/
theorem kmeans_centroids {k : Nat} (hk : 0 < k) {data : List (List ℝ)} {numClusters iterations first : Nat}
    {picks : List (Nat × Bool)} (hrow : ∀ x ∈ data, x.length = k) (hfirst : first < data.length)
    (hpicks : ∀ p ∈ picks, p.1 < data.length) (hn : picks.length + 1 = numClusters)
    (hit : 0 < iterations) {cents : List (List ℝ)} {labels : List Nat}
    (h : kmRun data numClusters iterations first picks = .ok (cents.map (·.map some), labels)) :
    cents.length = numClusters ∧ labels.length + 1 = data.length ∧
      MeansOfClasses k data labels cents ∧ cents ≠ [] ∧ (∀ c ∈ cents, c.length = k) := by
  by_cases hdist : numClusters ≤ data.toFinset.card
  · obtain ⟨cents', labels', prev, h1, h2, h3, h4, h5, h6⟩ := C44_result data numClusters iterations first
      picks hrow hfirst hpicks hn hdist hit
    rw [h] at h1
    cases h1
    have hm := means_of_classes hk h6
    rw [List.length_map] at h2
    refine ⟨h2, by omega, hm, ?_, ?_⟩
    · rintro rfl
      simp at h2
      omega
    · intro c hc
      obtain ⟨i, hi⟩ := List.mem_iff_getElem?.1 hc
      exact (hm i c hi).2.1
  · rw [C63_too_few_rows data numClusters iterations first picks hfirst hpicks (by omega)] at h
    cases h

/-- C97 (partial: the last row of the file has no label and is in no class, see C45; the end iterator is
not read as libstdc++ does, see C29; a run in which a class gets empty is not followed): a program with
k-means and the default pipeline that ends has written the barcode of the Rips filtration of as many points
as the command line asks for, and these points are the means of classes of the rows in the file, none of
them empty. Which class a row is in is decided by the nearest of the centroids before. -/
theorem C97_kmeans_barcode_partial (sys : System ℝ ℝ) (hdist : sys.lib.dist = vectorsDistance)
    (hread : sys.lib.mode ≠ .libstdcxx)
    (pairs : List (String × String)) (m : ArgMap) (f : String) (data : List (List ℝ))
    (h : StandardCommand sys pairs m "simplexTree" f data)
    (k : Nat) (hk : 0 < k) (hrow : ∀ x ∈ data, x.length = k)
    (first : Nat) (picks : List (Nat × Bool)) (hkm : KMeansCommand sys m data first picks)
    (hit : 0 < sys.atoi (m.val "iterations"))
    (w : World (List ℝ) ℝ) (hw : mainProgram sys (commandLine pairs) = .ok w) :
    ∃ (cents : List (List ℝ)) (labels : List Nat) (lines : List (Line ℝ)),
      cents.length = sys.atoi (m.val "clusters") ∧ labels.length + 1 = data.length ∧
      MeansOfClasses k data labels cents ∧
      WritesBarcodeAfter ["k-means++"] sys.io f lines w ∧
      DescribesRips cents.length (rowDist k cents) (· < sys.atof (m.val "epsilon"))
        (sys.atof (m.val "epsilon")) (sys.atoi (m.val "dimensions")) lines := by
  obtain ⟨cents, labels, h1, h2⟩ := kmeans_returned (by decide) h hkm hw
  obtain ⟨h3, h4, h5, h6, h7⟩ := kmeans_centroids hk hrow hkm.firstRow hkm.pickRows hkm.number hit h1
  obtain ⟨lines, h8, h9⟩ := barcode_of_pre_tree hdist hread h (kmeans_kind hkm.name) h2 k hk h7 h6 w hw
  exact ⟨cents, labels, lines, h3, h4, h5, h8, h9⟩

/-- C97 for the complex type `simplexArrayList`. -/
theorem C97_kmeans_barcode_array_partial (sys : System ℝ ℝ) (hdist : sys.lib.dist = vectorsDistance)
    (hread : sys.lib.mode ≠ .libstdcxx)
    (pairs : List (String × String)) (m : ArgMap) (f : String) (data : List (List ℝ))
    (h : StandardCommand sys pairs m "simplexArrayList" f data)
    (hcol : m.val "collapse" ≠ "true" ∧ m.val "collapse" ≠ "1")
    (hd : 0 < sys.atoi (m.val "dimensions"))
    (k : Nat) (hk : 0 < k) (hrow : ∀ x ∈ data, x.length = k)
    (first : Nat) (picks : List (Nat × Bool)) (hkm : KMeansCommand sys m data first picks)
    (hit : 0 < sys.atoi (m.val "iterations"))
    (w : World (List ℝ) ℝ) (hw : mainProgram sys (commandLine pairs) = .ok w) :
    ∃ (cents : List (List ℝ)) (labels : List Nat) (lines : List (Line ℝ)),
      cents.length = sys.atoi (m.val "clusters") ∧ labels.length + 1 = data.length ∧
      MeansOfClasses k data labels cents ∧
      WritesBarcodeAfter ["k-means++"] sys.io f lines w ∧
      DescribesRips cents.length (rowDist k cents) (· ≤ sys.atof (m.val "epsilon"))
        (sys.atof (m.val "epsilon")) (sys.atoi (m.val "dimensions")) lines := by
  obtain ⟨cents, labels, h1, h2⟩ := kmeans_returned (by decide) h hkm hw
  obtain ⟨h3, h4, h5, h6, h7⟩ := kmeans_centroids hk hrow hkm.firstRow hkm.pickRows hkm.number hit h1
  obtain ⟨lines, h8, h9⟩ := barcode_of_pre_array hdist hread h (kmeans_kind hkm.name) h2 hcol hd k hk h7
    h6 w hw
  exact ⟨cents, labels, lines, h3, h4, h5, h8, h9⟩

/-- C97: with enough iterations, the points are the centroids of a clustering at rest: they are the means
of the classes, and each labelled row is in the class of the nearest of them. How many iterations are
enough depends on the rows and the random choices only. -/
theorem C97_kmeans_at_rest_partial (k : Nat) (hk : 0 < k) (data : List (List ℝ))
    (hrow : ∀ x ∈ data, x.length = k) (clusters first : Nat) (picks : List (Nat × Bool))
    (hdist : clusters ≤ data.toFinset.card) :
    ∃ N, ∀ (sys : System ℝ ℝ) (pairs : List (String × String)) (m : ArgMap) (f : String),
      sys.lib.dist = vectorsDistance → sys.lib.mode ≠ .libstdcxx →
      StandardCommand sys pairs m "simplexTree" f data → KMeansCommand sys m data first picks →
      sys.atoi (m.val "clusters") = clusters → N ≤ sys.atoi (m.val "iterations") →
      ∀ w, mainProgram sys (commandLine pairs) = .ok w →
      ∃ (cents : List (List ℝ)) (labels : List Nat) (lines : List (Line ℝ)),
        cents.length = clusters ∧ MeansOfClasses k data labels cents ∧
        LabelsAreNearest k data labels (cents.map (·.map some)) ∧
        WritesBarcodeAfter ["k-means++"] sys.io f lines w ∧
        DescribesRips cents.length (rowDist k cents) (· < sys.atof (m.val "epsilon"))
          (sys.atof (m.val "epsilon")) (sys.atoi (m.val "dimensions")) lines := by
  by_cases hran : first < data.length ∧ (∀ p ∈ picks, p.1 < data.length) ∧ picks.length + 1 = clusters
  · obtain ⟨hfirst, hpicks, hn⟩ := hran
    obtain ⟨N, rows, labels, h1, h2, h3⟩ := C64_converges (k := k) data clusters first picks hrow hfirst
      hpicks hn hdist
    refine ⟨N + 1, ?_⟩
    intro sys pairs m f hd hread h hkm hc hN w hw
    obtain ⟨cents, labels', h4, h5⟩ := kmeans_returned (by decide) h hkm hw
    have h6 := h4
    rw [hc, h1 _ (by omega)] at h6
    cases h6
    obtain ⟨h7, h8, h9, h10, h11⟩ := kmeans_centroids hk hrow hkm.firstRow hkm.pickRows hkm.number
      (by omega) h4
    obtain ⟨lines, h12, h13⟩ := barcode_of_pre_tree hd hread h (kmeans_kind hkm.name) h5 k hk h11 h10 w hw
    exact ⟨cents, labels, lines, h7.trans hc, h9, h2, h12, h13⟩
  · refine ⟨0, ?_⟩
    intro sys pairs m f hd hread h hkm hc hN w hw
    exact absurd ⟨hkm.firstRow, hkm.pickRows, hkm.number.trans hc⟩ hran

/-- C97: the program does get to its end if k-means leaves no class empty and two of the centroids are
closer than `epsilon`. -/
theorem C97_kmeans_ends_partial (sys : System ℝ ℝ) (hdist : sys.lib.dist = vectorsDistance)
    (hread : sys.lib.mode = .noPivot)
    (pairs : List (String × String)) (m : ArgMap) (f : String) (data : List (List ℝ))
    (h : StandardCommand sys pairs m "simplexTree" f data)
    (k : Nat) (hk : 0 < k) (hrow : ∀ x ∈ data, x.length = k)
    (first : Nat) (picks : List (Nat × Bool)) (hkm : KMeansCommand sys m data first picks)
    (hit : 0 < sys.atoi (m.val "iterations")) (cents : List (List ℝ)) (labels : List Nat)
    (hrun : kmRun data (sys.atoi (m.val "clusters")) (sys.atoi (m.val "iterations")) first picks =
      .ok (cents.map (·.map some), labels))
    (hedge : ∃ i j, i < j ∧ j < cents.length ∧ rowDist k cents i j < sys.atof (m.val "epsilon")) :
    ∃ w, mainProgram sys (commandLine pairs) = .ok w := by
  obtain ⟨h3, h4, h5, h6, h7⟩ := kmeans_centroids hk hrow hkm.firstRow hkm.pickRows hkm.number hit hrun
  have hpre : PreprocessesInto (sys.pre (setPipeline m) .kmeans) data cents labels := by
    intro complex
    rw [hkm.run]
    unfold kmWork
    dsimp only
    rw [hrun, ok_bind]
    dsimp only
    rw [mapM_rows_map_some]
    rfl
  obtain ⟨lines, T, h1, -⟩ := C70_tree_run_partial sys.lib.sort (sys.atof (m.val "epsilon"))
    (sys.atoi (m.val "dimensions")) k hk cents h7 hedge
  rw [← hread] at h1
  obtain ⟨w, h8, -⟩ := (main_pre_tree hdist h (kmeans_kind hkm.name) hpre).of_ok h1
  exact ⟨w, h8⟩

/-- C97 is violated: with fewer different rows than clusters, which are 20 unless the command line says
otherwise, the program reads past the end of the rows. -/
theorem C97_few_rows_violated (sys : System ℝ ℝ)
    (pairs : List (String × String)) (m : ArgMap) (ct f : String) (data : List (List ℝ))
    (hct : ct ∈ ["simplexArrayList", "simplexTree", "indSimplexTree"])
    (h : StandardCommand sys pairs m ct f data)
    (first : Nat) (picks : List (Nat × Bool)) (hkm : KMeansCommand sys m data first picks)
    (hfew : data.toFinset.card < sys.atoi (m.val "clusters")) :
    mainProgram sys (commandLine pairs) = .error .oob := by
  rw [main_standard sys pairs m _ f data hct h,
    pre_selected _ pairs m h.parsed _ .kmeans (kmeans_kind hkm.name) h.preprocessor, hkm.run]
  unfold kmWork
  dsimp only
  rw [C63_too_few_rows data _ _ first picks hkm.firstRow hkm.pickRows hfew]
  rfl

/-- C97 is violated: with one cluster there is no end to the program: the barcode of a single point is
not written. -/
theorem C97_one_cluster_violated (sys : System ℝ ℝ) (hdist : sys.lib.dist = vectorsDistance)
    (pairs : List (String × String)) (m : ArgMap) (f : String) (data : List (List ℝ))
    (h : StandardCommand sys pairs m "simplexTree" f data)
    (k : Nat) (hk : 0 < k) (hrow : ∀ x ∈ data, x.length = k)
    (first : Nat) (picks : List (Nat × Bool)) (hkm : KMeansCommand sys m data first picks)
    (hit : 0 < sys.atoi (m.val "iterations")) (hone : sys.atoi (m.val "clusters") = 1)
    (w : World (List ℝ) ℝ) : mainProgram sys (commandLine pairs) ≠ .ok w := by
  intro hw
  obtain ⟨cents, labels, h1, h2⟩ := kmeans_returned (by decide) h hkm hw
  obtain ⟨h3, h4, h5, h6, h7⟩ := kmeans_centroids hk hrow hkm.firstRow hkm.pickRows hkm.number hit h1
  have := C70_tree_run_no_edge sys.lib.sort sys.lib.mode (sys.atof (m.val "epsilon"))
    (sys.atoi (m.val "dimensions")) k hk cents h7 (fun i j hij hj => by omega)
  rw [if_neg h6] at this
  rw [(main_pre_tree hdist h (kmeans_kind hkm.name) h2).error_of this] at hw
  cases hw

/-! ### C98: DenStream -/

/-- The DenStream of a command line: `epsilon` and `lambda` come from the command line. -/
structure Spec.DenStreamCommand (sys : System ℝ ℝ) (m : ArgMap) (S : SortByLevel ℝ) (ab : ℝ → ℝ)
    (fuel : Nat) : Prop where
  name : m.val "preprocessor" ∈ ["denStream", "denstream", "DenStream"]
  run : sys.pre (setPipeline m) .denStream =
    denWork S ab (sys.atof (m.val "epsilon")) (sys.atof (m.val "lambda")) fuel
  abs : ∀ x, ab x ≤ |x|
  enough : 1001000 ≤ fuel

theorem denStream_kind {m : ArgMap} (h : m.val "preprocessor" ∈ ["denStream", "denstream", "DenStream"]) :
    (m.val "preprocessor", PreKind.denStream) ∈ preprocessors := by
  generalize m.val "preprocessor" = n at h
  simp only [List.mem_cons, List.not_mem_nil, or_false] at h
  rcases h with rfl | rfl | rfl <;> decide

/-- The points are the decayed means of groups of rows, none of them empty; no row is used more often than it
occurs. -/
def Spec.DecayedMeansOfGroups (k : Nat) (lambda : ℝ) (data centers : List (List ℝ)) : Prop :=
  ∃ groups : List History, (groups.flatten.map Prod.fst).Subperm data ∧
    List.Forall₂ (fun h c => h ≠ [] ∧ c.length = k ∧ ∀ t, point k c = decayedMean k lambda h t)
      groups centers

theorem denStream_centers {sys : System ℝ ℝ} {m : ArgMap} {data : List (List ℝ)}
    {k : Nat} (hk : 0 < k) (hrow : ∀ x ∈ data, x.length = k)
    {S : SortByLevel ℝ} {ab : ℝ → ℝ} {fuel : Nat} (hden : DenStreamCommand sys m S ab fuel)
    (heps : 0 < sys.atof (m.val "epsilon")) (hl : 0 < sys.atof (m.val "lambda"))
    (hn : 1000 ≤ data.length) (hdense : DenseStart k (sys.atof (m.val "epsilon")) data) :
    ∃ centers, DecayedMeansOfGroups k (sys.atof (m.val "lambda")) data centers ∧
      (∀ c ∈ centers, c.length = k) ∧
      PreprocessesInto (sys.pre (setPipeline m) .denStream) data centers [] := by
  obtain ⟨centers, groups, h1, h2, h3⟩ := C65_result_partial S ab hden.abs hk (sys.atof (m.val "epsilon"))
    (sys.atof (m.val "lambda")) heps hl data hrow hn hdense fuel hden.enough
  refine ⟨centers, ⟨groups, h2, h3⟩, ?_, ?_⟩
  · clear h1 h2
    induction h3 with
    | nil => simp
    | cons a _ ih =>
      intro c hc
      rcases List.mem_cons.1 hc with rfl | hc
      · exact a.2.1
      · exact ih c hc
  · intro complex
    rw [hden.run]
    unfold denWork
    dsimp only
    rw [h1, ok_bind]
    rfl

/-- C98 (partial: the file has at least 1000 rows, and among the first 1000 there is one with 20 within
`epsilon`, see C65 and C66; the end iterator is not read as libstdc++ does, see C29): a program with DenStream and
the default pipeline that ends has written the barcode of the Rips filtration of points that are the
decayed means of groups of rows; the barcode is empty if there is no group. -/
theorem C98_denstream_barcode_partial (sys : System ℝ ℝ) (hdist : sys.lib.dist = vectorsDistance)
    (hread : sys.lib.mode ≠ .libstdcxx)
    (pairs : List (String × String)) (m : ArgMap) (f : String) (data : List (List ℝ))
    (h : StandardCommand sys pairs m "simplexTree" f data)
    (k : Nat) (hk : 0 < k) (hrow : ∀ x ∈ data, x.length = k)
    (S : SortByLevel ℝ) (ab : ℝ → ℝ) (fuel : Nat) (hden : DenStreamCommand sys m S ab fuel)
    (heps : 0 < sys.atof (m.val "epsilon")) (hl : 0 < sys.atof (m.val "lambda"))
    (hn : 1000 ≤ data.length) (hdense : DenseStart k (sys.atof (m.val "epsilon")) data)
    (w : World (List ℝ) ℝ) (hw : mainProgram sys (commandLine pairs) = .ok w) :
    ∃ (centers : List (List ℝ)) (lines : List (Line ℝ)),
      DecayedMeansOfGroups k (sys.atof (m.val "lambda")) data centers ∧
      WritesBarcodeAfter ["DenStream"] sys.io f lines w ∧
      (centers = [] ∧ lines = [] ∨
        DescribesRips centers.length (rowDist k centers) (· < sys.atof (m.val "epsilon"))
          (sys.atof (m.val "epsilon")) (sys.atoi (m.val "dimensions")) lines) := by
  obtain ⟨centers, h1, hlen, hpre⟩ := denStream_centers hk hrow hden heps hl hn hdense
  by_cases hne : centers = []
  · obtain ⟨⟨lines, T⟩, h4, h5⟩ := (main_pre_tree hdist h (denStream_kind hden.name) hpre).ok_of hw
    have := C70_tree_run_no_edge sys.lib.sort sys.lib.mode (sys.atof (m.val "epsilon"))
      (sys.atoi (m.val "dimensions")) k hk centers hlen (fun i j hij hj => by simp [hne] at hj)
    rw [if_pos hne, h4] at this
    cases this
    exact ⟨centers, [], h1, h5, Or.inl ⟨hne, rfl⟩⟩
  · obtain ⟨lines, h6, h7⟩ := barcode_of_pre_tree hdist hread h (denStream_kind hden.name) hpre k hk hlen
      hne w hw
    exact ⟨centers, lines, h1, h6, Or.inr h7⟩

/-- C98: whether the program with DenStream ends is decided by the points: it does if two of them are
closer than `epsilon`, and then it has written their barcode; it reads past the end of a vector if there is
a point but no such pair. -/
theorem C98_denstream_outcome_partial (sys : System ℝ ℝ) (hdist : sys.lib.dist = vectorsDistance)
    (hread : sys.lib.mode = .noPivot)
    (pairs : List (String × String)) (m : ArgMap) (f : String) (data : List (List ℝ))
    (h : StandardCommand sys pairs m "simplexTree" f data)
    (k : Nat) (hk : 0 < k) (hrow : ∀ x ∈ data, x.length = k)
    (S : SortByLevel ℝ) (ab : ℝ → ℝ) (fuel : Nat) (hden : DenStreamCommand sys m S ab fuel)
    (heps : 0 < sys.atof (m.val "epsilon")) (hl : 0 < sys.atof (m.val "lambda"))
    (hn : 1000 ≤ data.length) (hdense : DenseStart k (sys.atof (m.val "epsilon")) data) :
    ∃ centers, DecayedMeansOfGroups k (sys.atof (m.val "lambda")) data centers ∧
      ((∃ i j, i < j ∧ j < centers.length ∧ rowDist k centers i j < sys.atof (m.val "epsilon")) →
        ∃ w lines, mainProgram sys (commandLine pairs) = .ok w ∧
          WritesBarcodeAfter ["DenStream"] sys.io f lines w ∧
          DescribesRips centers.length (rowDist k centers) (· < sys.atof (m.val "epsilon"))
            (sys.atof (m.val "epsilon")) (sys.atoi (m.val "dimensions")) lines) ∧
      (centers ≠ [] → (∀ i j, i < j → j < centers.length →
          sys.atof (m.val "epsilon") ≤ rowDist k centers i j) →
        mainProgram sys (commandLine pairs) = .error .oob) := by
  obtain ⟨centers, h1, hlen, hpre⟩ := denStream_centers hk hrow hden heps hl hn hdense
  refine ⟨centers, h1, fun hedge => ?_, fun hne hfar => ?_⟩
  · obtain ⟨lines, T, h3, h4⟩ := C70_tree_run_partial sys.lib.sort (sys.atof (m.val "epsilon"))
      (sys.atoi (m.val "dimensions")) k hk centers hlen hedge
    rw [← hread] at h3
    obtain ⟨w, h5, h6⟩ := (main_pre_tree hdist h (denStream_kind hden.name) hpre).of_ok h3
    exact ⟨w, lines, h5, h6, h4⟩
  · have := C70_tree_run_no_edge sys.lib.sort sys.lib.mode (sys.atof (m.val "epsilon"))
      (sys.atoi (m.val "dimensions")) k hk centers hlen hfar
    rw [if_neg hne] at this
    exact (main_pre_tree hdist h (denStream_kind hden.name) hpre).error_of this

/-- C98 is violated: on fewer than 1000 rows the program reads past the end of the rows. -/
theorem C98_small_input_violated (sys : System ℝ ℝ)
    (pairs : List (String × String)) (m : ArgMap) (ct f : String) (data : List (List ℝ))
    (hct : ct ∈ ["simplexArrayList", "simplexTree", "indSimplexTree"])
    (h : StandardCommand sys pairs m ct f data)
    (S : SortByLevel ℝ) (ab : ℝ → ℝ) (fuel : Nat) (hden : DenStreamCommand sys m S ab fuel)
    (hn : data.length < 1000) :
    mainProgram sys (commandLine pairs) = .error .oob := by
  rw [main_standard sys pairs m _ f data hct h,
    pre_selected _ pairs m h.parsed _ .denStream (denStream_kind hden.name) h.preprocessor, hden.run]
  unfold denWork
  dsimp only
  rw [C66_small_input_violated S ab _ _ data hn fuel]
  rfl

/-! ### The hypotheses are met -/

theorem km_example2 : kmRun [[((0 : Nat) : ℝ)], [((2 : Nat) : ℝ)], [((9 : Nat) : ℝ)]] 2 1 0 [(1, true)] =
    .ok ([[0], [2]].map (·.map some), [0, 1]) := by
  have h1 : vectorsDistance [(0 : ℝ)] [0] = .ok 0 := by simp [vectorsDistance, sqDistance, sqDiffs]
  have h2 : vectorsDistance [(2 : ℝ)] [0] = .ok 2 := by simp [vectorsDistance, sqDistance, sqDiffs]
  have h3 : vectorsDistance [(0 : ℝ)] [2] = .ok 2 := by simp [vectorsDistance, sqDistance, sqDiffs]
  have h4 : vectorsDistance [(2 : ℝ)] [2] = .ok 0 := by simp [vectorsDistance, sqDistance, sqDiffs]
  simp [kmRun, kmSeed, kmSeedPicks, kmSeedFill, vget, kmRounds, kmRound, kmClassifyStep, kmNearest,
    kmNearestStep, vectorsDistanceNaN, h1, h2, h3, h4, addRow, vmodify, kmDivide, List.range_succ,
    pure_eq_ok, show ¬ (2 : ℝ) < 0 by norm_num]

/-- The hypotheses of C97: three rows, two clusters, whose centroids are 0 and 2; the end iterator is read
as "not a pivot". -/
example : ∃ (sys : System ℝ ℝ) (m : ArgMap),
    sys.lib.dist = vectorsDistance ∧ sys.lib.mode = .noPivot ∧
    StandardCommand sys [("-i", "data.csv"), ("-o", "bars"), ("-pre", "kmeans++"), ("-k", "2"), ("-r", "1")]
      m "simplexTree" "bars" [[((0 : Nat) : ℝ)], [((2 : Nat) : ℝ)], [((9 : Nat) : ℝ)]] ∧
    KMeansCommand sys m [[((0 : Nat) : ℝ)], [((2 : Nat) : ℝ)], [((9 : Nat) : ℝ)]] 0 [(1, true)] ∧
    0 < sys.atoi (m.val "iterations") ∧
    ∃ w, mainProgram sys (commandLine
      [("-i", "data.csv"), ("-o", "bars"), ("-pre", "kmeans++"), ("-k", "2"), ("-r", "1")]) = .ok w := by
  let sys : System ℝ ℝ := { realSystem [] [] "00\n02\n09" with
    pre := fun _ _ => kmWork 2 1 0 [(1, true)]
    lib := ⟨.insertion _ _, .insertion _ _, .noPivot, vectorsDistance, fun _ t => .ok t, fun _ w => .ok w⟩ }
  obtain ⟨m, hm⟩ : ∃ m, parseArgs (commandLine
      [("-i", "data.csv"), ("-o", "bars"), ("-pre", "kmeans++"), ("-k", "2"), ("-r", "1")]) = .ok m :=
    ⟨_, rfl⟩
  have hS : StandardCommand sys
      [("-i", "data.csv"), ("-o", "bars"), ("-pre", "kmeans++"), ("-k", "2"), ("-r", "1")]
      m "simplexTree" "bars" [[((0 : Nat) : ℝ)], [((2 : Nat) : ℝ)], [((9 : Nat) : ℝ)]] := by
    cases hm
    exact ⟨rfl, by decide, by decide, Or.inl (by decide), by decide, by decide, by decide, by decide,
      rfl, by simp⟩
  have hc : sys.atoi (m.val "clusters") = 2 := by cases hm; decide
  have hi : sys.atoi (m.val "iterations") = 1 := by cases hm; decide
  have hK : KMeansCommand sys m [[((0 : Nat) : ℝ)], [((2 : Nat) : ℝ)], [((9 : Nat) : ℝ)]] 0
      [(1, true)] := by
    refine ⟨?_, ?_, by simp, by simp, ?_⟩
    · cases hm; decide
    · rw [hc, hi]
    · rw [hc]; rfl
  refine ⟨sys, m, rfl, rfl, hS, hK, by omega, ?_⟩
  refine C97_kmeans_ends_partial sys rfl rfl _ m "bars" _ hS 1 (by decide) (by simp) 0 [(1, true)] hK
    (by omega) [[0], [2]] [0, 1] (by rw [hc, hi]; exact km_example2) ⟨0, 1, by decide, by decide, ?_⟩
  have h := C10_distance_is_euclidean (k := 1) [(0 : ℝ)] [(2 : ℝ)] rfl rfl
  have h' : vectorsDistance [(0 : ℝ)] [(2 : ℝ)] = .ok 2 := by
    simp [vectorsDistance, sqDistance, sqDiffs]
  rw [h'] at h
  show dist (point 1 [(0 : ℝ)]) (point 1 [(2 : ℝ)]) < 5
  rw [← Except.ok.inj h]
  norm_num

theorem thousand_rows : readCSV (V := ℝ) ⟨fun _ => [], fun _ => .ok 0, fun _ => [], fun _ => .error .exn⟩
    (some (fileOf ((List.replicate 1000 [['0', '0']]).map Spec.lineOf))) = .ok (List.replicate 1000 [0]) := by
  apply C74_csv_values_partial
  · generalize 1000 = n
    induction n with
    | zero => exact .nil
    | succ n ih =>
      rw [List.replicate_succ, List.replicate_succ]
      exact .cons (.cons ⟨by decide, by decide, by decide, rfl⟩ .nil) ih
  · intro row hr
    rw [List.eq_of_mem_replicate hr]
    decide

/-- The hypotheses of C98: a file of 1000 equal rows. -/
example (S : SortByLevel ℝ) : ∃ (sys : System ℝ ℝ) (m : ArgMap),
    StandardCommand sys [("-i", "data.csv"), ("-pre", "denStream")]
      m "simplexTree" "output.csv" (List.replicate 1000 [0]) ∧
    DenStreamCommand sys m S (fun x => |x|) 1001000 ∧ 0 < sys.atof (m.val "epsilon") ∧
    0 < sys.atof (m.val "lambda") ∧
    DenseStart 1 (sys.atof (m.val "epsilon")) (List.replicate 1000 [0]) := by
  refine ⟨{ realSystem [] [] "" with
    files := fun _ => some (fileOf ((List.replicate 1000 [['0', '0']]).map Spec.lineOf))
    inIO := ⟨fun _ => [], fun _ => .ok 0, fun _ => [], fun _ => .error .exn⟩
    pre := fun _ _ => denWork S (fun x => |x|) 5 5 1001000 }, _,
    ⟨rfl, by decide, by decide, Or.inl (by decide), by decide, by decide, by decide, by decide,
      thousand_rows, List.ne_nil_of_length_pos (by rw [List.length_replicate]; norm_num)⟩, ⟨by decide, rfl, fun x => le_refl _, le_refl _⟩, ?_, ?_, ?_⟩
  · show (0 : ℝ) < 5; norm_num
  · show (0 : ℝ) < 5; norm_num
  · refine ⟨0, by norm_num, Finset.range 20, by simp, fun j hj => ?_⟩
    have hj : j < 20 := Finset.mem_range.1 hj
    refine ⟨by omega, ?_⟩
    show dist _ _ < (5 : ℝ)
    rw [List.getD_replicate _ (by omega), List.getD_replicate _ (by omega), dist_self]
    norm_num

end LHF
