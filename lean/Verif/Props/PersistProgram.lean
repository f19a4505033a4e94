import Verif.Model.PersistProgram
import Verif.Props.WindowProgram
import Verif.Props.IndexedProgram
import Verif.Props.TwistPairs
import Verif.Props.BoundaryPipe

/-! C91 for the other complex types, and C120: whole programs with an explicit pipeline that ends in the stage
`persistence` or `boundary`. -/

namespace LHF
open Spec

/-- The command lines of C91 and C120: an explicit pipeline, no preprocessor, no upscaling, one run, a barcode
file. -/
structure Spec.ExplicitCommand (sys : System ℝ ℝ) (pairs : List (String × String)) (m : ArgMap)
    (pipeline complexType f : String) (data : List (List ℝ)) : Prop where
  parsed : parseArgs (commandLine pairs) = .ok m
  mpi : m.val "mpi" ≠ "1"
  pipeline : m.val "pipeline" = pipeline
  mode : m.val "mode" ≠ "reduced"
  pre : m.val "preprocessor" = ""
  upscale : m.val "upscale" ≠ "true"
  complex : m.val "complexType" = complexType
  output : m.val "outputFile" = f
  console : f ≠ "console"
  input : readCSV sys.inIO (sys.files (m.val "inputFile")) = .ok data
  rows : data ≠ []

/-- The program with an explicit pipeline of known stages. -/
theorem main_explicit (sys : System ℝ ℝ) (pairs : List (String × String)) (m : ArgMap)
    (pipeline ct f : String) (data : List (List ℝ))
    (hct : ct ∈ ["simplexArrayList", "simplexTree", "indSimplexTree"])
    (h : ExplicitCommand sys pairs m pipeline ct f data) (stages : List String) (kinds : List PipeKind)
    (hp : pipeline = pipelineOf stages) (hp1 : pipeline ≠ "") (hp2 : pipeline ≠ "slidingwindow")
    (hne : stages ≠ []) (hdot : ∀ s ∈ stages, '.' ∉ s.toList)
    (hk : stages.map (fun n => newPipe n ct) = kinds.map some) :
    mainProgram sys (commandLine pairs) =
      (kinds.foldlM (fun d k => runStages sys.lib (settingsOf sys m) k d)
        ⟨data, data, [], newComplex ct, [], [], []⟩ >>=
      fun w => pure ⟨⟨kinds.map pipeType, true, w⟩,
        [(f ++ "_stats.csv", .stats (kinds.map pipeType)),
          (f ++ ".csv", .text (barcodeText sys.io w.bettiOutput))]⟩) := by
  have hval := C38_explicit_pipeline_kept_partial m h.mpi (by rw [h.pipeline]; exact hp1)
  obtain ⟨k1, k2, k3⟩ := window_keys h.parsed
  have hpl : (setPipeline m) "pipeline" = some (pipelineOf stages) := by
    refine some_of_val (setPipeline_isSome m _ (parse_isSome pairs m h.parsed ("pipeline", "p", "")
      (by decide))) ?_
    rw [hval, h.pipeline, hp]
  have hset : settingsOf sys (setPipeline m) = settingsOf sys m := by
    unfold settingsOf
    rw [hval, hval, hval]
  have hout : (setPipeline m) "outputFile" = some f := by
    refine some_of_val (setPipeline_isSome m _ (parse_isSome pairs m h.parsed
      ("outputFile", "o", "output.csv") (by decide))) ?_
    rw [hval, h.output]
  have hpk : (newPacket ct (⟨data, data, [], newComplex ct, [], [], []⟩ : Work (List ℝ) ℝ)) =
      ⟨[], true, ⟨data, data, [], newComplex ct, [], [], []⟩⟩ := by
    simp only [List.mem_cons, List.not_mem_nil, or_false] at hct
    rcases hct with rfl | rfl | rfl <;> rfl
  unfold mainProgram
  rw [h.parsed, ok_bind]
  dsimp only
  rw [hval "pipeline", h.pipeline, if_pos hp2, hval "inputFile", h.input, ok_bind]
  unfold dispatch
  rw [if_pos (by exact Or.inl (List.length_pos_of_ne_nil h.rows)), hval "upscale", if_neg h.upscale,
    hval "mode", if_neg h.mode]
  unfold processData preprocess
  rw [hval "preprocessor", h.pre, if_neg (by decide), pure_eq_ok, ok_bind]
  unfold runPipelineOut
  rw [hpl]
  dsimp only
  rw [runPipeline_kinds _ _ ct (by rw [hval, h.complex]) _ kinds hpl hne hdot hk k1 k2 k3,
    hval "complexType", h.complex, hpk, fold_wrappers _ _ _ rfl, bind_assoc]
  change (List.foldlM (fun d k => runStages sys.lib (settingsOf sys (setPipeline m)) k d) _ _ >>= _) = _
  rw [hset]
  congr 1
  funext w
  rw [pure_eq_ok, ok_bind]
  unfold pipelineFiles
  rw [hout]
  simp only [h.console, if_false]
  rfl

/-! ### C91 on a simplexArrayList -/

section
variable (sys : System ℝ ℝ) (pairs : List (String × String)) (m : ArgMap) (f : String) (data : List (List ℝ))

/-- The first three stages on a `simplexArrayList`. -/
theorem array_three (hdist : sys.lib.dist = vectorsDistance) (s : Settings ℝ)
    (hcol : s.collapse ≠ "true" ∧ s.collapse ≠ "1") (hd : 0 < s.dim) (k : Nat) (hk : 0 < k)
    (hdim : ∀ p ∈ data, p.length = k) :
    ∃ (dm : List (List ℝ)) (ws : List ℝ) (g : Graph ℝ),
      [PipeKind.distMatrix, .neighGraph, .rips].foldlM (fun d k => runStages sys.lib s k d)
        (⟨data, data, [], newComplex "simplexArrayList", [], [], []⟩ : Work (List ℝ) ℝ) =
        .ok ⟨data, data, [], .array g dm, ws, [], []⟩ ∧
      StoresRips g data.length (rowDist k data) (fun i j => rowDist k data i j ≤ s.eps) s.dim := by
  obtain ⟨ws, h1, -, -⟩ := C11_distance_matrix_euclidean k hk data hdim s.eps
  obtain ⟨g, h2, h3⟩ := C13_expansion_is_rips s.eps s.dim s.dim hd _ (rowDist k data)
    (fun _ _ => dist_nonneg) data (rows_ne_nil hk hdim) (fun i j hji hi => at2_table hji hi)
  rw [show max 1 s.dim = s.dim by omega] at h3
  unfold Spec.buildArray at h2
  rw [bind_ok] at h2
  obtain ⟨g0, h4, h5⟩ := h2
  refine ⟨pairTable k data, ws, g, ?_, h3⟩
  simp only [List.foldlM_cons, List.foldlM_nil]
  have e1 : runStages sys.lib s .distMatrix
      (⟨data, data, [], newComplex "simplexArrayList", [], [], []⟩ : Work (List ℝ) ℝ) =
      .ok ⟨data, data, [], .array [] (pairTable k data), ws, [], []⟩ := by
    show (distMatrixPipe sys.lib.dist s.eps [] data >>= _) = _
    rw [hdist, h1, ok_bind]
    rfl
  have e2 : runStages sys.lib s .neighGraph
      (⟨data, data, [], .array [] (pairTable k data), ws, [], []⟩ : Work (List ℝ) ℝ) =
      .ok ⟨data, data, [], .array g0 (pairTable k data), ws, [], []⟩ := by
    have h4 : arrayInsertAll s.eps s.dim (pairTable k data) data [] = .ok g0 := h4
    show (arrayInsertAll s.eps s.dim _ data [] >>= _) = _
    rw [h4, ok_bind]
    rfl
  have e3 : runStages sys.lib s .rips
      (⟨data, data, [], .array g0 (pairTable k data), ws, [], []⟩ : Work (List ℝ) ℝ) =
      .ok ⟨data, data, [], .array g (pairTable k data), ws, [], []⟩ := by
    show (ripsPipeArray s.dim s.collapse g0 >>= _) = _
    unfold ripsPipeArray
    rw [h5, ok_bind, if_neg (by rintro (c | c); exacts [hcol.1 c, hcol.2 c])]
    rfl
  rw [e1, ok_bind, e2, ok_bind, e3, ok_bind]
  rfl


/-- What the stage `persistence` does to a `simplexArrayList` that holds a Rips complex. -/
theorem array_pairs {g : Graph ℝ} {n D : Nat} {d : Nat → Nat → ℝ} {near : Nat → Nat → Prop} (eps : ℝ)
    (dim : Nat) (hn : 0 < n) (hD : 1 ≤ D) (sort : SortBySecond (List Nat) ℝ) (h : StoresRips g n d near D) :
    ((∃ i j, i < j ∧ j < n ∧ near i j) →
      runPersistencePairs dim eps (arrayGetAllEdges sort g) = .error .oob) ∧
    ((∀ i j, i < j → j < n → ¬ near i j) →
      runPersistencePairs dim eps (arrayGetAllEdges sort g) =
        .ok (if 2 ≤ dim then List.replicate n (0, 0, eps) else [])) := by
  obtain ⟨hF, hS⟩ := filtered_array h sort
  have hne : NoEmpty (g.filter (fun l => l ≠ [])) := by
    intro l hl
    simpa using (List.mem_filter.1 hl).2
  constructor
  · intro he
    refine C59_persistencePairs_violated dim eps hF ?_ (rips_two_layers (rips_nonempty h) hD hS he)
    intro l hl
    obtain ⟨n, hn⟩ := List.mem_iff_getElem?.1 hl
    obtain ⟨l', g1, g2⟩ := (sortedLayers_get hS n).1 l hn
    intro e
    rw [e] at g2
    exact hne l' (List.mem_of_getElem? g1) g2.symm.eq_nil
  · intro hfar
    exact isolated_edges eps dim hn hS hne (rips_nonempty h) hfar

/-- The program with the pipeline distMatrix.neighGraph.rips.persistence on a `simplexArrayList`. -/
theorem main_persistence_array (hdist : sys.lib.dist = vectorsDistance)
    (h : ExplicitCommand sys pairs m "distMatrix.neighGraph.rips.persistence" "simplexArrayList" f data)
    (lib : Lib ℝ ℝ) (hrun : ∀ w g dm, w.complex = .array g dm →
      sys.lib.rest .persistencePairs w = persistWork lib (settingsOf sys m) w)
    (hcol : m.val "collapse" ≠ "true" ∧ m.val "collapse" ≠ "1") (hd : 0 < sys.atoi (m.val "dimensions"))
    (k : Nat) (hk : 0 < k) (hdim : ∀ p ∈ data, p.length = k) :
    ∃ g : Graph ℝ, StoresRips g data.length (rowDist k data)
        (fun i j => rowDist k data i j ≤ sys.atof (m.val "epsilon")) (sys.atoi (m.val "dimensions")) ∧
      SameRes (fun (w : World (List ℝ) ℝ) (lines : List (Line ℝ)) =>
          w.packet.data.bettiOutput = lines ∧
          w.packet.stats = ["DistMatrix", "neighGraph", "ripsPipe", "PersistencePairs"] ∧
          w.files.map Prod.fst = [f ++ "_stats.csv", f ++ ".csv"])
        (mainProgram sys (commandLine pairs))
        (runPersistencePairs (sys.atoi (m.val "dimensions")) (sys.atof (m.val "epsilon"))
          (arrayGetAllEdges lib.sort g)) := by
  obtain ⟨dm, ws, g, h1, h2⟩ := array_three sys data hdist (settingsOf sys m) hcol hd k hk hdim
  refine ⟨g, h2, ?_⟩
  rw [main_explicit sys pairs m _ _ f data (by decide) h ["distMatrix", "neighGraph", "rips", "persistence"]
    [.distMatrix, .neighGraph, .rips, .persistencePairs] (by decide) (by decide) (by decide) (by decide)
    (by decide) (by decide)]
  rw [show [PipeKind.distMatrix, .neighGraph, .rips, .persistencePairs] =
    [PipeKind.distMatrix, .neighGraph, .rips] ++ [.persistencePairs] from rfl, List.foldlM_append, h1,
    ok_bind]
  simp only [List.foldlM_cons, List.foldlM_nil]
  have e4 : runStages sys.lib (settingsOf sys m) .persistencePairs
      (⟨data, data, [], .array g dm, ws, [], []⟩ : Work (List ℝ) ℝ) =
      (runPersistencePairs (sys.atoi (m.val "dimensions")) (sys.atof (m.val "epsilon"))
        (arrayGetAllEdges lib.sort g) >>=
      fun lines => pure ⟨data, data, [], .array g dm, ws, [], lines⟩) := by
    show sys.lib.rest .persistencePairs _ = _
    rw [hrun _ _ _ rfl]
    rfl
  rw [e4]
  cases runPersistencePairs (sys.atoi (m.val "dimensions")) (sys.atof (m.val "epsilon"))
      (arrayGetAllEdges lib.sort g) with
  | error e => rfl
  | ok lines => exact ⟨rfl, rfl, rfl⟩

/-- C91, the claim that the code violates, on a `simplexArrayList`: for every input file whose rows are points
of ℝ^k of which some two are at most `epsilon` apart, the program does not get to its end: the stage
`persistence` reads past the end of a vector. -/
theorem C91_array_violated (hdist : sys.lib.dist = vectorsDistance)
    (h : ExplicitCommand sys pairs m "distMatrix.neighGraph.rips.persistence" "simplexArrayList" f data)
    (lib : Lib ℝ ℝ) (hrun : ∀ w g dm, w.complex = .array g dm →
      sys.lib.rest .persistencePairs w = persistWork lib (settingsOf sys m) w)
    (hcol : m.val "collapse" ≠ "true" ∧ m.val "collapse" ≠ "1") (hd : 0 < sys.atoi (m.val "dimensions"))
    (k : Nat) (hk : 0 < k) (hdim : ∀ p ∈ data, p.length = k)
    (hclose : ∃ i j, i < j ∧ j < data.length ∧ rowDist k data i j ≤ sys.atof (m.val "epsilon")) :
    mainProgram sys (commandLine pairs) = .error .oob := by
  obtain ⟨g, h1, h2⟩ := main_persistence_array sys pairs m f data hdist h lib hrun hcol hd k hk hdim
  exact h2.error_of ((array_pairs _ _ (List.length_pos_of_ne_nil h.rows) hd lib.sort h1).1 hclose)

/-- C91 (partial) on a `simplexArrayList`: when all points are more than `epsilon` apart, the program ends with
one interval from 0 to `epsilon` for each point if `dimensions` is at least 2, and none otherwise. -/
theorem C91_array_isolated_points_partial (hdist : sys.lib.dist = vectorsDistance)
    (h : ExplicitCommand sys pairs m "distMatrix.neighGraph.rips.persistence" "simplexArrayList" f data)
    (lib : Lib ℝ ℝ) (hrun : ∀ w g dm, w.complex = .array g dm →
      sys.lib.rest .persistencePairs w = persistWork lib (settingsOf sys m) w)
    (hcol : m.val "collapse" ≠ "true" ∧ m.val "collapse" ≠ "1") (hd : 0 < sys.atoi (m.val "dimensions"))
    (k : Nat) (hk : 0 < k) (hdim : ∀ p ∈ data, p.length = k)
    (hfar : ∀ i j, i < j → j < data.length → sys.atof (m.val "epsilon") < rowDist k data i j) :
    ∃ w, mainProgram sys (commandLine pairs) = .ok w ∧
      w.packet.data.bettiOutput = (if 2 ≤ sys.atoi (m.val "dimensions") then
        List.replicate data.length (0, 0, sys.atof (m.val "epsilon")) else []) ∧
      w.packet.stats = ["DistMatrix", "neighGraph", "ripsPipe", "PersistencePairs"] ∧
      w.files.map Prod.fst = [f ++ "_stats.csv", f ++ ".csv"] := by
  obtain ⟨g, h1, h2⟩ := main_persistence_array sys pairs m f data hdist h lib hrun hcol hd k hk hdim
  exact h2.of_ok ((array_pairs _ _ (List.length_pos_of_ne_nil h.rows) hd lib.sort h1).2
    (fun i j hij hj => not_le.2 (hfar i j hij hj)))

/-! ### C91 on an indSimplexTree -/

/-- The first three stages on an `indSimplexTree`. -/
theorem indexed_three (hdist : sys.lib.dist = vectorsDistance) (s : Settings ℝ)
    (hcol : s.collapse ≠ "true" ∧ s.collapse ≠ "1") (k : Nat) (hk : 0 < k)
    (hdim : ∀ p ∈ data, p.length = k) :
    ∃ ws : List ℝ,
      [PipeKind.distMatrix, .neighGraph, .rips].foldlM (fun d k => runStages sys.lib s k d)
        (⟨data, data, [], newComplex "indSimplexTree", [], [], []⟩ : Work (List ℝ) ℝ) =
        (ITree.insertN s.eps s.dim (pairTable k data) data.length ITree.fresh >>= fun t =>
          pure ⟨data, data, [], .indexed t (pairTable k data), ws, [], []⟩) := by
  obtain ⟨ws, h1, -, -⟩ := C11_distance_matrix_euclidean k hk data hdim s.eps
  refine ⟨ws, ?_⟩
  simp only [List.foldlM_cons, List.foldlM_nil]
  have e1 : runStages sys.lib s .distMatrix
      (⟨data, data, [], newComplex "indSimplexTree", [], [], []⟩ : Work (List ℝ) ℝ) =
      .ok ⟨data, data, [], .indexed ITree.fresh (pairTable k data), ws, [], []⟩ := by
    show (distMatrixPipe sys.lib.dist s.eps [] data >>= _) = _
    rw [hdist, h1, ok_bind]
    rfl
  have e2 : runStages sys.lib s .neighGraph
      (⟨data, data, [], .indexed ITree.fresh (pairTable k data), ws, [], []⟩ : Work (List ℝ) ℝ) =
      (ITree.insertN s.eps s.dim (pairTable k data) data.length ITree.fresh >>= fun t =>
        pure ⟨data, data, [], .indexed t (pairTable k data), ws, [], []⟩) := by
    rw [← neighGraphIndexed_eq _ _ _ _ (rows_ne_nil hk hdim)]
    rfl
  rw [e1, ok_bind, e2, bind_assoc]
  congr 1
  funext t
  rw [pure_eq_ok, ok_bind]
  have e3 : runStages sys.lib s .rips
      (⟨data, data, [], .indexed t (pairTable k data), ws, [], []⟩ : Work (List ℝ) ℝ) =
      .ok ⟨data, data, [], .indexed t (pairTable k data), ws, [], []⟩ := by
    unfold runStages ripsPipeIndexed
    dsimp only
    rw [if_neg (by rintro (c | c); exacts [hcol.1 c, hcol.2 c])]
    rfl
  rw [e3]
  rfl

/-- C91, the claim that the code violates, on an `indSimplexTree`, where the stage `persistence` is
optPersistencePairs: with `dimensions` at least 1, for every input file whose rows are points of ℝ^k of which
two different pairs (one pair, if the option `twist` is `true`) are closer than `epsilon`, the program does not
get to its end: it reads past the end of a vector. -/
theorem C91_indexed_violated (hdist : sys.lib.dist = vectorsDistance)
    (h : ExplicitCommand sys pairs m "distMatrix.neighGraph.rips.persistence" "indSimplexTree" f data)
    (lib : Lib ℝ ℝ) (hrun : ∀ w t dm, w.complex = .indexed t dm →
      sys.lib.rest .optPersistencePairs w = optPersistWork lib (settingsOf sys m) (m.val "twist") w)
    (hcol : m.val "collapse" ≠ "true" ∧ m.val "collapse" ≠ "1") (hd : 0 < sys.atoi (m.val "dimensions"))
    (k : Nat) (hk : 0 < k) (hdim : ∀ p ∈ data, p.length = k)
    (hclose : ∃ i j, i < j ∧ j < data.length ∧ rowDist k data i j < sys.atof (m.val "epsilon") ∧
      (m.val "twist" = "true" ∨ ∃ i' j', i' < j' ∧ j' < data.length ∧
        rowDist k data i' j' < sys.atof (m.val "epsilon") ∧ (i', j') ≠ (i, j))) :
    mainProgram sys (commandLine pairs) = .error .oob := by
  obtain ⟨ws, h1⟩ := indexed_three sys data hdist (settingsOf sys m) hcol k hk hdim
  rw [main_explicit sys pairs m _ _ f data (by decide) h ["distMatrix", "neighGraph", "rips", "persistence"]
    [.distMatrix, .neighGraph, .rips, .optPersistencePairs] (by decide) (by decide) (by decide) (by decide)
    (by decide) (by decide)]
  rw [show [PipeKind.distMatrix, .neighGraph, .rips, .optPersistencePairs] =
    [PipeKind.distMatrix, .neighGraph, .rips] ++ [.optPersistencePairs] from rfl, List.foldlM_append, h1]
  have hn : data.length ≠ 0 := by simpa using h.rows
  have hne : pairTable k data ≠ [] := by
    apply List.ne_nil_of_length_pos
    simp [pairTable, table]; omega
  have hdm : ∀ i j, i < j → j < data.length → at2 (pairTable k data) i j = .ok (rowDist k data i j) :=
    fun i j hij hj => at2_table hij hj
  have h0 : ∀ i j, 0 ≤ rowDist k data i j := fun _ _ => dist_nonneg
  cases hins : ITree.insertN (settingsOf sys m).eps (settingsOf sys m).dim (pairTable k data) data.length
      ITree.fresh with
  | error e =>
    by_cases hsmall : (settingsOf sys m).dim ≤ 2 ∨ ¬ ∃ s, IsSimplex data.length
        (fun i j => rowDist k data i j < (settingsOf sys m).eps) s ∧ s.length = 4
    · obtain ⟨t, -, -, ht, -⟩ := indexed_run h0 data.length hn hne hdm lib.isort hsmall
      rw [hins] at ht; cases ht
    · push Not at hsmall
      have ht := C76_four_points_violated _ _ _ _ h0 _ hne hdm hsmall.1 hsmall.2
      rw [hins] at ht; cases ht; rfl
  | ok t =>
    rw [ok_bind, pure_eq_ok, ok_bind]
    simp only [List.foldlM_cons, List.foldlM_nil]
    have e4 : runStages sys.lib (settingsOf sys m) .optPersistencePairs
        (⟨data, data, [], .indexed t (pairTable k data), ws, [], []⟩ : Work (List ℝ) ℝ) = .error .oob := by
      show sys.lib.rest .optPersistencePairs _ = _
      rw [hrun _ _ _ rfl]
      obtain ⟨t', -, g1, -, -⟩ := indexAllPivots_spec h0 lib.isort hn hne hdm hins (settingsOf sys m).dim
      unfold optPersistWork
      dsimp only
      rw [g1, ok_bind]
      obtain ⟨i, j, hij, hj, hw, hc⟩ := hclose
      have held : ∀ i j, i < j → j < data.length → rowDist k data i j < sys.atof (m.val "epsilon") →
          Held data.length (rowDist k data) (settingsOf sys m).eps (settingsOf sys m).dim [i, j] := by
        intro i j hij hj hw
        refine ⟨⟨by simp, by simpa using hij, ?_, ?_⟩, ?_⟩
        · intro v hv
          simp only [List.mem_cons, List.not_mem_nil, or_false] at hv
          omega
        · intro a ha b hb hab
          simp only [List.mem_cons, List.not_mem_nil, or_false] at ha hb
          have : a = i ∧ b = j := by omega
          rw [this.1, this.2]
          exact hw
        · simp only [List.length_cons, List.length_nil]
          omega
      by_cases htw : m.val "twist" = "true"
      · rw [if_pos htw]
        have hq : runTwistPairs lib.isort (settingsOf sys m).dim (settingsOf sys m).eps t = .error .oob :=
          C96_run_violated _ _ _ _ h0 lib.isort _ hne hdm hins _ hd (held i j hij hj hw) rfl _
        rw [hq]
        rfl
      · obtain ⟨i', j', hij', hj', hw', hne'⟩ := hc.resolve_left htw
        rw [if_neg htw]
        have hq : runIndexPersistencePairs lib.isort (settingsOf sys m).dim (settingsOf sys m).eps t =
            .error .oob :=
          C79_run_violated _ _ _ _ h0 lib.isort _ hne hdm hins _ hd (held i' j' hij' hj' hw')
            (held i j hij hj hw) rfl rfl (by simpa using hne') _
        rw [hq]
        rfl
    rw [e4]
    rfl

/-! ### C120 -/

/-- The stage `boundary` of the library is the one of the model; Pipes/boundaryPipe.cpp:344-372 reads `debug`
with `atoi`. -/
def Spec.RunsBoundary (sys : System ℝ ℝ) (m : ArgMap) (lib : Lib ℝ ℝ) (past : Option (BettiDef ℝ)) : Prop :=
  (∀ w t dm, w.complex = .tree t dm → sys.lib.rest .boundary w =
    boundaryWork lib (settingsOf sys m) past (sys.atoi (m.val "debug") ≠ 0) w) ∧
  ∀ w g dm, w.complex = .array g dm → sys.lib.rest .boundary w =
    boundaryWork lib (settingsOf sys m) past (sys.atoi (m.val "debug") ≠ 0) w

/-- The first three stages on a `simplexTree` or a `simplexArrayList`. -/
theorem three_stages (hdist : sys.lib.dist = vectorsDistance) (s : Settings ℝ) (ct : String)
    (hct : ct = "simplexTree" ∨ ct = "simplexArrayList" ∧ 0 < s.dim ∧ s.collapse ≠ "true" ∧ s.collapse ≠ "1")
    (k : Nat) (hk : 0 < k) (hdim : ∀ p ∈ data, p.length = k) :
    ∃ c ws, ((∃ t dm, c = .tree t dm) ∨ ∃ g dm, c = .array g dm) ∧
      [PipeKind.distMatrix, .neighGraph, .rips].foldlM (fun d k => runStages sys.lib s k d)
        (⟨data, data, [], newComplex ct, [], [], []⟩ : Work (List ℝ) ℝ) =
        .ok ⟨data, data, [], c, ws, [], []⟩ := by
  rcases hct with rfl | ⟨rfl, hd, hcol⟩
  · obtain ⟨ws, h1, -, -⟩ := C11_distance_matrix_euclidean k hk data hdim s.eps
    obtain ⟨t, ht, -⟩ := tree_of_rows sys.lib.sort s.eps s.dim k hk data hdim
    refine ⟨.tree t (pairTable k data), ws, Or.inl ⟨_, _, rfl⟩, ?_⟩
    simp only [List.foldlM_cons, List.foldlM_nil]
    have e1 : runStages sys.lib s .distMatrix
        (⟨data, data, [], newComplex "simplexTree", [], [], []⟩ : Work (List ℝ) ℝ) =
        .ok ⟨data, data, [], .tree Tree.fresh (pairTable k data), ws, [], []⟩ := by
      show (distMatrixPipe sys.lib.dist s.eps [] data >>= _) = _
      rw [hdist, h1, ok_bind]
      rfl
    have e2 : runStages sys.lib s .neighGraph
        (⟨data, data, [], .tree Tree.fresh (pairTable k data), ws, [], []⟩ : Work (List ℝ) ℝ) =
        .ok ⟨data, data, [], .tree t (pairTable k data), ws, [], []⟩ := by
      show (neighGraphTree s.eps s.dim (pairTable k data) data Tree.fresh >>= _) = _
      rw [ht, ok_bind]
      rfl
    have e3 : runStages sys.lib s .rips
        (⟨data, data, [], .tree t (pairTable k data), ws, [], []⟩ : Work (List ℝ) ℝ) =
        .ok ⟨data, data, [], .tree t (pairTable k data), ws, [], []⟩ := by
      show (ripsPipeTree sys.lib.treeBody s.collapse t >>= _) = _
      rw [C81_collapse_no_effect]
      rfl
    rw [e1, ok_bind, e2, ok_bind, e3, ok_bind]
    rfl
  · obtain ⟨dm, ws, g, h1, -⟩ := array_three sys data hdist s hcol hd k hk hdim
    exact ⟨.array g dm, ws, Or.inr ⟨_, _, rfl⟩, h1⟩

/-- The program with the pipeline distMatrix.neighGraph.rips.boundary. -/
theorem main_boundary (hdist : sys.lib.dist = vectorsDistance) (ct : String)
    (h : ExplicitCommand sys pairs m "distMatrix.neighGraph.rips.boundary" ct f data)
    (lib : Lib ℝ ℝ) (past : Option (BettiDef ℝ)) (hrun : RunsBoundary sys m lib past)
    (hct : ct = "simplexTree" ∨ ct = "simplexArrayList" ∧ 0 < sys.atoi (m.val "dimensions") ∧
      m.val "collapse" ≠ "true" ∧ m.val "collapse" ≠ "1")
    (k : Nat) (hk : 0 < k) (hdim : ∀ p ∈ data, p.length = k) :
    ∃ ws, SameRes (fun (w : World (List ℝ) ℝ) (rows : List (Line ℝ)) =>
          w.packet.data.bettiOutput = rows ∧
          w.packet.stats = ["DistMatrix", "neighGraph", "ripsPipe", "Boundary"] ∧
          w.files.map Prod.fst = [f ++ "_stats.csv", f ++ ".csv"])
        (mainProgram sys (commandLine pairs))
        (boundaryRun past (sys.atoi (m.val "debug") ≠ 0) (sys.atoi (m.val "dimensions"))
          (sys.atof (m.val "epsilon")) ws) := by
  obtain ⟨c, ws, hc, h1⟩ := three_stages sys data hdist (settingsOf sys m) ct hct k hk hdim
  refine ⟨ws, ?_⟩
  have hmem : ct ∈ ["simplexArrayList", "simplexTree", "indSimplexTree"] := by
    rcases hct with rfl | ⟨rfl, -⟩ <;> decide
  have hkinds : ["distMatrix", "neighGraph", "rips", "boundary"].map (fun n => newPipe n ct) =
      [PipeKind.distMatrix, .neighGraph, .rips, .boundary].map some := by
    rcases hct with rfl | ⟨rfl, -⟩ <;> decide
  rw [main_explicit sys pairs m _ _ f data hmem h ["distMatrix", "neighGraph", "rips", "boundary"]
    [.distMatrix, .neighGraph, .rips, .boundary] (by decide) (by decide) (by decide) (by decide)
    (by decide) hkinds]
  rw [show [PipeKind.distMatrix, .neighGraph, .rips, .boundary] =
    [PipeKind.distMatrix, .neighGraph, .rips] ++ [.boundary] from rfl, List.foldlM_append, h1, ok_bind]
  simp only [List.foldlM_cons, List.foldlM_nil]
  have e4 : ∃ c', runStages sys.lib (settingsOf sys m) .boundary
      (⟨data, data, [], c, ws, [], []⟩ : Work (List ℝ) ℝ) =
      (boundaryRun past (sys.atoi (m.val "debug") ≠ 0) (sys.atoi (m.val "dimensions"))
          (sys.atof (m.val "epsilon")) ws >>=
      fun rows => pure ⟨data, data, [], c', ws, [], rows⟩) := by
    rcases hc with ⟨t, dm, rfl⟩ | ⟨g, dm, rfl⟩
    · refine ⟨.tree (ws.foldl (fun t _ => (t.getAllEdges lib.sort).2) t) dm, ?_⟩
      show sys.lib.rest .boundary _ = _
      rw [hrun.1 _ _ _ rfl]
      rfl
    · refine ⟨.array g dm, ?_⟩
      show sys.lib.rest .boundary _ = _
      rw [hrun.2 _ _ _ rfl]
      rfl
  obtain ⟨c', e4⟩ := e4
  rw [e4]
  cases boundaryRun past (sys.atoi (m.val "debug") ≠ 0) (sys.atoi (m.val "dimensions"))
      (sys.atof (m.val "epsilon")) ws with
  | error e => rfl
  | ok rows => exact ⟨rfl, rfl, rfl⟩

/-- C120, the claim that the code violates (the stage `boundary` yields the barcode of the complex before it):
with `dimensions` at least 1 the program never gets to its end: for every input file whose rows are points of
ℝ^k, close together or not, the stage reads past the end of a vector. -/
theorem C120_boundary_pipeline_violated (hdist : sys.lib.dist = vectorsDistance) (ct : String)
    (h : ExplicitCommand sys pairs m "distMatrix.neighGraph.rips.boundary" ct f data)
    (lib : Lib ℝ ℝ) (hrun : RunsBoundary sys m lib none) (hd : 0 < sys.atoi (m.val "dimensions"))
    (hct : ct = "simplexTree" ∨ ct = "simplexArrayList" ∧ m.val "collapse" ≠ "true" ∧ m.val "collapse" ≠ "1")
    (k : Nat) (hk : 0 < k) (hdim : ∀ p ∈ data, p.length = k) :
    mainProgram sys (commandLine pairs) = .error .oob := by
  obtain ⟨ws, h1⟩ := main_boundary sys pairs m f data hdist ct h lib none hrun
    (hct.imp id (fun x => ⟨x.1, hd, x.2⟩)) k hk hdim
  exact h1.error_of (C73_out_of_range_violated _ hd _ _)

/-- C120, the claim that the code violates, if the entry past the end is taken to be readable (and to hold the
count 0 or a dimension that is not asked for): the program ends but reports no interval, whatever the points
are. -/
theorem C120_no_interval_violated (hdist : sys.lib.dist = vectorsDistance) (ct : String)
    (h : ExplicitCommand sys pairs m "distMatrix.neighGraph.rips.boundary" ct f data)
    (lib : Lib ℝ ℝ) (past : BettiDef ℝ) (hrun : RunsBoundary sys m lib (some past))
    (hpast : past.betti = 0 ∨ sys.atoi (m.val "dimensions") ≤ past.dim)
    (hdebug : sys.atoi (m.val "debug") = 0 ∨ sys.atoi (m.val "dimensions") < 3)
    (hct : ct = "simplexTree" ∨ ct = "simplexArrayList" ∧ 0 < sys.atoi (m.val "dimensions") ∧
      m.val "collapse" ≠ "true" ∧ m.val "collapse" ≠ "1")
    (k : Nat) (hk : 0 < k) (hdim : ∀ p ∈ data, p.length = k) :
    ∃ w, mainProgram sys (commandLine pairs) = .ok w ∧ w.packet.data.bettiOutput = [] ∧
      w.packet.stats = ["DistMatrix", "neighGraph", "ripsPipe", "Boundary"] ∧
      w.files.map Prod.fst = [f ++ "_stats.csv", f ++ ".csv"] := by
  obtain ⟨ws, h1⟩ := main_boundary sys pairs m f data hdist ct h lib (some past) hrun hct k hk hdim
  refine h1.of_ok (C73_no_rows_violated past _ ?_ hpast _ _)
  rcases hdebug with h | h
  · left; simp [h]
  · exact Or.inr h

end

/-! ### Examples -/

/-- `realSystem` with the stages `persistence` and `boundary`. -/
noncomputable def Spec.stageSystem (m : ArgMap) (past : Option (BettiDef ℝ)) (text : String) : System ℝ ℝ :=
  let sys : System ℝ ℝ := realSystem [] [] text
  { sys with lib := { sys.lib with rest := fun k w =>
    match k, w.complex with
    | .persistencePairs, .array _ _ => persistWork sys.lib (settingsOf sys m) w
    | .optPersistencePairs, .indexed _ _ => optPersistWork sys.lib (settingsOf sys m) (m.val "twist") w
    | .boundary, .array _ _ => boundaryWork sys.lib (settingsOf sys m) past (sys.atoi (m.val "debug") ≠ 0) w
    | .boundary, .tree _ _ => boundaryWork sys.lib (settingsOf sys m) past (sys.atoi (m.val "debug") ≠ 0) w
    | _, _ => .ok w } }

theorem stageSystem_boundary (m : ArgMap) (past : Option (BettiDef ℝ)) (text : String) :
    RunsBoundary (stageSystem m past text) m (realSystem [] [] text).lib past := by
  constructor <;>
  · intro w x dm hw
    unfold stageSystem
    dsimp only
    rw [hw]
    rfl

/-- Three points on a line. -/
noncomputable abbrev Spec.threePoints (x y z : Nat) : List (List ℝ) :=
  [[((x : Nat) : ℝ)], [((y : Nat) : ℝ)], [((z : Nat) : ℝ)]]

theorem stageSystem_array (m : ArgMap) (past : Option (BettiDef ℝ)) (text : String) (w : Work (List ℝ) ℝ)
    (g : Graph ℝ) (dm : List (List ℝ)) (hw : w.complex = .array g dm) :
    (stageSystem m past text).lib.rest .persistencePairs w =
      persistWork (realSystem [] [] text).lib (settingsOf (stageSystem m past text) m) w := by
  unfold stageSystem
  dsimp only
  rw [hw]
  rfl

theorem stageSystem_indexed (m : ArgMap) (past : Option (BettiDef ℝ)) (text : String) (w : Work (List ℝ) ℝ)
    (t : ITree ℝ) (dm : List (List ℝ)) (hw : w.complex = .indexed t dm) :
    (stageSystem m past text).lib.rest .optPersistencePairs w = optPersistWork (realSystem [] [] text).lib
      (settingsOf (stageSystem m past text) m) (m.val "twist") w := by
  unfold stageSystem
  dsimp only
  rw [hw]
  rfl

/-- The hypotheses of `C91_array_violated`: the points 0, 3 and 9, and `epsilon` 5. -/
example : ∃ m, mainProgram (stageSystem m none "00\n03\n09") (commandLine [("-i", "data.csv"), ("-o", "bars"),
    ("-c", "simplexArrayList"), ("-p", "distMatrix.neighGraph.rips.persistence")]) = .error .oob := by
  obtain ⟨m, h, hcol, hd⟩ : ∃ m, ExplicitCommand (stageSystem m none "00\n03\n09") [("-i", "data.csv"),
      ("-o", "bars"), ("-c", "simplexArrayList"), ("-p", "distMatrix.neighGraph.rips.persistence")] m
      "distMatrix.neighGraph.rips.persistence" "simplexArrayList" "bars" (threePoints 0 3 9) ∧
      (m.val "collapse" ≠ "true" ∧ m.val "collapse" ≠ "1") ∧
      0 < (realSystem [] [] "00\n03\n09").atoi (m.val "dimensions") :=
    ⟨_, ⟨rfl, by decide, by decide, by decide, by decide, by decide, by decide, by decide, by decide, rfl,
      by simp⟩, by decide, by decide⟩
  refine ⟨m, C91_array_violated _ _ _ _ _ rfl h _ (stageSystem_array m none _) hcol hd 1 (by norm_num) (by simp)
    ⟨0, 1, by norm_num, by simp, ?_⟩⟩
  rw [rowDist_line _ 0 1 0 3 (by simp) (by simp)]
  show |(0 : ℝ) - 3| ≤ 5
  norm_num

/-- The hypotheses of `C91_array_isolated_points_partial`: the points 0, 30 and 90. -/
example : ∃ m w, mainProgram (stageSystem m none "00\n30\n90") (commandLine [("-i", "data.csv"), ("-o", "bars"),
    ("-c", "simplexArrayList"), ("-p", "distMatrix.neighGraph.rips.persistence"), ("-d", "2")]) = .ok w ∧
    w.packet.data.bettiOutput = [(0, 0, 5), (0, 0, 5), (0, 0, 5)] := by
  obtain ⟨m, h, hcol, hd⟩ : ∃ m, ExplicitCommand (stageSystem m none "00\n30\n90") [("-i", "data.csv"),
      ("-o", "bars"), ("-c", "simplexArrayList"), ("-p", "distMatrix.neighGraph.rips.persistence"), ("-d", "2")] m
      "distMatrix.neighGraph.rips.persistence" "simplexArrayList" "bars" (threePoints 0 30 90) ∧
      (m.val "collapse" ≠ "true" ∧ m.val "collapse" ≠ "1") ∧
      (realSystem [] [] "00\n30\n90").atoi (m.val "dimensions") = 2 :=
    ⟨_, ⟨rfl, by decide, by decide, by decide, by decide, by decide, by decide, by decide, by decide, rfl,
      by simp⟩, by decide, by decide⟩
  have hd : (stageSystem m none "00\n30\n90").atoi (m.val "dimensions") = 2 := hd
  obtain ⟨w, h1, h2, -⟩ := C91_array_isolated_points_partial _ _ _ _ _ rfl h _ (stageSystem_array m none _) hcol
    (by rw [hd]; norm_num) 1 (by norm_num) (by simp) (by
      intro i j hij hj
      have hj : j < 3 := by simpa using hj
      show (5 : ℝ) < _
      rcases (by omega : i = 0 ∧ j = 1 ∨ i = 0 ∧ j = 2 ∨ i = 1 ∧ j = 2) with ⟨rfl, rfl⟩ | ⟨rfl, rfl⟩ | ⟨rfl, rfl⟩
      · rw [rowDist_line _ 0 1 0 30 (by simp) (by simp)]; norm_num
      · rw [rowDist_line _ 0 2 0 90 (by simp) (by simp)]; norm_num
      · rw [rowDist_line _ 1 2 30 90 (by simp) (by simp)]; norm_num)
  refine ⟨m, w, h1, ?_⟩
  rw [h2, hd]
  rfl

/-- The hypotheses of `C91_indexed_violated`: with and without `twist`, the points 0, 3 and 6. -/
example (tw : String) (htw : tw ∈ ["true", "false"]) :
    ∃ m, mainProgram (stageSystem m none "00\n03\n06") (commandLine [("-i", "data.csv"), ("-o", "bars"),
      ("-c", "indSimplexTree"), ("-p", "distMatrix.neighGraph.rips.persistence"), ("-t", tw)]) = .error .oob := by
  have h1 : rowDist 1 (threePoints 0 3 6) 0 1 < 5 := by
    rw [rowDist_line _ 0 1 0 3 (by simp) (by simp)]; norm_num
  have h2 : rowDist 1 (threePoints 0 3 6) 1 2 < 5 := by
    rw [rowDist_line _ 1 2 3 6 (by simp) (by simp)]; norm_num
  obtain ⟨m, h, hcol, hd⟩ : ∃ m, ExplicitCommand (stageSystem m none "00\n03\n06") [("-i", "data.csv"),
      ("-o", "bars"), ("-c", "indSimplexTree"), ("-p", "distMatrix.neighGraph.rips.persistence"), ("-t", tw)] m
      "distMatrix.neighGraph.rips.persistence" "indSimplexTree" "bars" (threePoints 0 3 6) ∧
      (m.val "collapse" ≠ "true" ∧ m.val "collapse" ≠ "1") ∧
      0 < (realSystem [] [] "00\n03\n06").atoi (m.val "dimensions") := by
    simp only [List.mem_cons, List.not_mem_nil, or_false] at htw
    rcases htw with rfl | rfl <;>
    exact ⟨_, ⟨rfl, by decide, by decide, by decide, by decide, by decide, by decide, by decide, by decide, rfl,
      by simp⟩, by decide, by decide⟩
  exact ⟨m, C91_indexed_violated _ _ _ _ _ rfl h _ (stageSystem_indexed m none _) hcol hd 1 (by norm_num) (by simp)
    ⟨0, 1, by norm_num, by simp, h1, Or.inr ⟨1, 2, by norm_num, by simp, h2, by decide⟩⟩⟩

/-- The hypotheses of C120, with the default complex and on a `simplexArrayList`, and what the program does
when the entry past the end is readable. -/
example (ct : String) (hct : ct ∈ ["simplexTree", "simplexArrayList"]) (past : Option (BettiDef ℝ))
    (hp : ∀ p ∈ past, p.betti = 0) :
    ∃ m, (past = none → mainProgram (stageSystem m past "00\n03\n09") (commandLine [("-i", "data.csv"),
      ("-o", "bars"), ("-c", ct), ("-p", "distMatrix.neighGraph.rips.boundary")]) = .error .oob) ∧
    (past ≠ none → ∃ w, mainProgram (stageSystem m past "00\n03\n09") (commandLine [("-i", "data.csv"),
      ("-o", "bars"), ("-c", ct), ("-p", "distMatrix.neighGraph.rips.boundary")]) = .ok w ∧
      w.packet.data.bettiOutput = []) := by
  obtain ⟨m, h, hcol, hd, hdb⟩ : ∃ m, ExplicitCommand (stageSystem m past "00\n03\n09") [("-i", "data.csv"),
      ("-o", "bars"), ("-c", ct), ("-p", "distMatrix.neighGraph.rips.boundary")] m
      "distMatrix.neighGraph.rips.boundary" ct "bars" (threePoints 0 3 9) ∧
      (m.val "collapse" ≠ "true" ∧ m.val "collapse" ≠ "1") ∧
      0 < (realSystem [] [] "00\n03\n09").atoi (m.val "dimensions") ∧
      (realSystem [] [] "00\n03\n09").atoi (m.val "debug") = 0 := by
    simp only [List.mem_cons, List.not_mem_nil, or_false] at hct
    rcases hct with rfl | rfl <;>
    exact ⟨_, ⟨rfl, by decide, by decide, by decide, by decide, by decide, by decide, by decide, by decide, rfl,
      by simp⟩, by decide, by decide, by decide⟩
  simp only [List.mem_cons, List.not_mem_nil, or_false] at hct
  refine ⟨m, ?_, ?_⟩
  · rintro rfl
    exact C120_boundary_pipeline_violated _ _ _ _ _ rfl ct h _ (stageSystem_boundary m none _) hd
      (hct.imp id (fun x => ⟨x, hcol⟩)) 1 (by norm_num) (by simp)
  · intro hne
    obtain ⟨p, rfl⟩ := Option.ne_none_iff_exists'.1 hne
    obtain ⟨w, h1, h2, -⟩ := C120_no_interval_violated _ _ _ _ _ rfl ct h _ p (stageSystem_boundary m (some p) _)
      (Or.inl (hp p rfl)) (Or.inl hdb) (hct.imp id (fun x => ⟨x, hd, hcol⟩)) 1 (by norm_num) (by simp)
    exact ⟨w, h1, h2⟩

end LHF
