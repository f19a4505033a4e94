import Verif.Lemmas.Effects
import Verif.Props.Preprocessed

/-! C101 to C104: what a run writes besides its results: the log, the statistics, the debug files. -/

namespace LHF
open Spec

/-- What `main` does in a mode with the four default stages, with its effects. -/
theorem effects_after_pre (sys : System ℝ ℝ) (env : Surround ℝ ℝ) (pairs : List (String × String)) (m : ArgMap)
    (hm : parseArgs (commandLine pairs) = .ok m) (hmpi : m.val "mpi" ≠ "1")
    (hp : m.val "pipeline" = "") (d : Mode) (hd : d ∈ modes) (hmode : m.val "mode" = d.name)
    (hst : d.stages = fastStages) (hred : d.name ≠ "reduced")
    (hup : d.upscale.apply (m.val "upscale") ≠ "true")
    (hct : m.val "complexType" ∈ ["simplexArrayList", "simplexTree", "indSimplexTree"])
    (f : String) (hf : m.val "outputFile" = f) (hcon : f ≠ "console")
    (data : List (List ℝ)) (hread : readCSV sys.inIO (sys.files (m.val "inputFile")) = .ok data)
    (hne : data ≠ []) :
    mainEffects sys env (commandLine pairs) =
      (preprocess (preWithEffects env sys.inIO sys.io (setPipeline m) (sys.pre (setPipeline m)))
          (setPipeline m) ⟨[], true, (⟨data, data, [],
          newComplex (d.complexType.apply (m.val "complexType")), [], [], []⟩, ⟨[], []⟩)⟩ >>= fun p =>
      fastKinds.foldlM (fun d k => stageWithEffects env sys.io sys.lib (setPipeline m)
          (debugFiles sys (setPipeline m)) (runStages sys.lib ⟨sys.atof (m.val "epsilon"),
          sys.atoi (m.val "dimensions"), m.val "collapse"⟩) k d) p.data >>=
      fun y => pure (⟨⟨p.stats ++ fastNames, true, y.1⟩,
        [(f ++ "_stats.csv", .stats (p.stats ++ fastNames)),
          (f ++ ".csv", .text (barcodeText sys.io y.1.bettiOutput))]⟩,
        ⟨y.2.rows, y.2.writes ++ [⟨f ++ "_stats.csv", .replace, statsText env y.2.rows⟩,
          ⟨f ++ ".csv", .replace, barcodeText sys.io y.1.bettiOutput⟩]⟩)) := by
  obtain ⟨q1, q2, q3, q4, q5⟩ := C38_mode_selection m hmpi hp d hd hmode
  have hsome : ∀ o ∈ options, ((setPipeline m) o.1).isSome :=
    fun o ho => setPipeline_isSome m _ (parse_isSome pairs m hm o ho)
  have hpl : ((setPipeline m) "pipeline").isSome := hsome ("pipeline", "p", "") (by decide)
  have hout : ((setPipeline m) "outputFile").isSome :=
    hsome ("outputFile", "o", "output.csv") (by decide)
  have hout' : (setPipeline m) "outputFile" = some f := by
    apply some_of_val hout
    rw [q5 _ (by decide), hf]
  have hsw : (setPipeline m).val "pipeline" ≠ "slidingwindow" := by
    rw [q1, hst]; decide
  have hct' : d.complexType.apply (m.val "complexType") ∈
      ["simplexArrayList", "simplexTree", "indSimplexTree"] := by
    generalize m.val "complexType" = ct at hct
    clear q1 q2 q3 q4 q5 hup hmode hst hred
    simp only [List.mem_cons, List.not_mem_nil, or_false] at hct
    rcases hct with rfl | rfl | rfl <;> revert d <;> decide
  have hkinds : modeKinds d (m.val "complexType") = fastKinds := by
    unfold modeKinds
    rw [if_pos hst]
    rfl
  have hhas : (newPacket (d.complexType.apply (m.val "complexType"))
      (⟨data, data, [], newComplex (d.complexType.apply (m.val "complexType")), [], [], []⟩ :
        Work (List ℝ) ℝ)) = ⟨[], true, ⟨data, data, [],
          newComplex (d.complexType.apply (m.val "complexType")), [], [], []⟩⟩ := by
    simp only [List.mem_cons, List.not_mem_nil, or_false] at hct'
    unfold newPacket
    simp only [Packet.mk.injEq, decide_eq_true_eq, and_true, true_and]
    tauto
  unfold mainEffects
  rw [hm, ok_bind]
  dsimp only
  rw [if_pos hsw, q5 "inputFile" (by decide), hread, ok_bind]
  unfold dispatchEff
  rw [if_pos (by exact Or.inl (List.length_pos_of_ne_nil hne)), q4, if_neg hup,
    q5 "mode" (by decide), hmode, if_neg hred]
  unfold processDataEff
  rw [q3, hhas]
  unfold withEffects
  dsimp only
  cases hpre : preprocess (preWithEffects env sys.inIO sys.io (setPipeline m) (sys.pre (setPipeline m)))
          (setPipeline m) ⟨[], true, (⟨data, data, [],
          newComplex (d.complexType.apply (m.val "complexType")), [], [], []⟩, ⟨[], []⟩)⟩ with
  | error e => rfl
  | ok p =>
    rw [ok_bind, ok_bind]
    unfold runPipelineEff
    rw [some_of_val hpl rfl]
    dsimp only
    rw [C60_known_modes_run_all_stages _ _ pairs m hm hmpi hp d hd hmode hct, hkinds,
      q5 "epsilon" (by decide), q5 "dimensions" (by decide), q5 "collapse" (by decide)]
    rw [fold_wrappers _ _ _ (by exact preprocess_hasComplex hpre), bind_assoc]
    congr 1
    funext w
    rw [pure_eq_ok, ok_bind]
    unfold pipelineFiles pipelineWrites
    rw [hout']
    simp only [hcon, if_false]
    rfl

theorem effects_standard (sys : System ℝ ℝ) (env : Surround ℝ ℝ) (pairs : List (String × String)) (m : ArgMap)
    (ct f : String) (data : List (List ℝ))
    (hct : ct ∈ ["simplexArrayList", "simplexTree", "indSimplexTree"])
    (h : StandardCommand sys pairs m ct f data) :
    mainEffects sys env (commandLine pairs) =
      (preprocess (preWithEffects env sys.inIO sys.io (setPipeline m) (sys.pre (setPipeline m)))
          (setPipeline m) ⟨[], true, (⟨data, data, [], newComplex ct, [], [], []⟩, ⟨[], []⟩)⟩ >>= fun p =>
      fastKinds.foldlM (fun d k => stageWithEffects env sys.io sys.lib (setPipeline m)
          (debugFiles sys (setPipeline m)) (runStages sys.lib ⟨sys.atof (m.val "epsilon"),
          sys.atoi (m.val "dimensions"), m.val "collapse"⟩) k d) p.data >>=
      fun y => pure (⟨⟨p.stats ++ fastNames, true, y.1⟩,
        [(f ++ "_stats.csv", .stats (p.stats ++ fastNames)),
          (f ++ ".csv", .text (barcodeText sys.io y.1.bettiOutput))]⟩,
        ⟨y.2.rows, y.2.writes ++ [⟨f ++ "_stats.csv", .replace, statsText env y.2.rows⟩,
          ⟨f ++ ".csv", .replace, barcodeText sys.io y.1.bettiOutput⟩]⟩)) := by
  have hct' : m.val "complexType" ∈ ["simplexArrayList", "simplexTree", "indSimplexTree"] := by
    rw [h.complex]; exact hct
  rcases h.mode with hmode | ⟨hmode, hc⟩
  · rw [effects_after_pre sys env pairs m h.parsed h.mpi h.pipeline
      ⟨"standard", fastStages, .keep, .keep, .keep⟩ (by simp [modes]) hmode rfl (by decide)
      h.upscale hct' f h.output h.console data h.input h.rows]
    rw [show Setting.keep.apply (m.val "complexType") = ct from h.complex]
  · rw [effects_after_pre sys env pairs m h.parsed h.mpi h.pipeline
      ⟨"fast", fastStages, .keep, .force "simplexTree", .force "false"⟩ (by simp [modes]) hmode rfl
      (by decide) (show "false" ≠ "true" by decide) hct' f h.output h.console data h.input h.rows]
    rw [show (Setting.force "simplexTree").apply (m.val "complexType") = ct from hc.symm]

/-! ### Specification -/

/-- The number of simplices with at most `c` vertices. -/
noncomputable def Spec.simplexTotal (n : Nat) (near : Nat → Nat → Prop) (c : Nat) : Nat :=
  Set.ncard {s : List Nat | IsSimplex n near s ∧ s.length ≤ c}

/-- The rows of the four default stages: the points take `points` bytes and a stored simplex `cell` bytes; the
last three stages leave `n` vertices and `N1`, `N2`, `N3` simplices. -/
def Spec.fourRows (points cell n N1 N2 N3 : Nat) : List StatRow :=
  [.stage "DistMatrix" points 0 0, .stage "neighGraph" (points + N1 * cell) n N1,
    .stage "ripsPipe" (points + N2 * cell) n N2, .stage "FastPersistence" (points + N3 * cell) n N3]

/-- `L` lists the simplices with `lo` to `hi` vertices, each once, with their diameters. -/
structure Spec.ListsSimplices (L : List (List Nat × ℝ)) (n : Nat) (d : Nat → Nat → ℝ)
    (near : Nat → Nat → Prop) (lo hi : Nat) : Prop where
  once : (L.map Prod.fst).Nodup
  exact : ∀ s w, (s, w) ∈ L ↔ IsSimplex n near s ∧ lo ≤ s.length ∧ s.length ≤ hi ∧ w = diam d s

/-- What a stage writes: a part of the log, and with `debug` its files. -/
def Spec.stageWrites (env : Surround ℝ ℝ) (args : ArgMap) (debug : Bool) (k : PipeKind) (n : Nat)
    (name : String) (bytes : Nat) (files : List FileWrite) : List FileWrite :=
  logWrite args (env.messages k args ++ stageLog env n name bytes) ++ if debug then files else []

/-- What the four default stages write, `i` rows of statistics being there before. -/
def Spec.fourWrites (env : Surround ℝ ℝ) (args : ArgMap) (debug : Bool) (i points cell N1 N2 N3 : Nat)
    (f1 f2 f3 f4 : List FileWrite) : List FileWrite :=
  stageWrites env args debug .distMatrix i "DistMatrix" points f1 ++
    stageWrites env args debug .neighGraph (i + 1) "neighGraph" (points + N1 * cell) f2 ++
    stageWrites env args debug .rips (i + 2) "ripsPipe" (points + N2 * cell) f3 ++
    stageWrites env args debug .fastPersistence (i + 3) "FastPersistence" (points + N3 * cell) f4

/-- The file of the distance matrix: the distances above the diagonal, 0 elsewhere, a comma after each. -/
noncomputable def Spec.matrixFile (env : Surround ℝ ℝ) (k : Nat) (pts : List (List ℝ)) : FileWrite :=
  ⟨"output/DistMatrix_output.csv", .replace, ((List.range pts.length).map (fun i =>
    ((List.range pts.length).map (fun j =>
      env.shows (if i < j then rowDist k pts i j else 0) ++ [','])).flatten ++ ['\n'])).flatten⟩

/-- A file of simplices: the vertices, a comma after each, and the weight. -/
def Spec.simplexText (env : Surround ℝ ℝ) (io : TextNum ℝ) (L : List (List Nat × ℝ)) : List Char :=
  (L.map (fun e => (e.1.map (fun v => io.sizeStr v ++ [','])).flatten ++ env.shows e.2 ++ ['\n'])).flatten

/-- The files of `fastPersistence`: the lines of the barcode without a header, and a header without lines. -/
def Spec.bettiFiles (io : TextNum ℝ) (args : ArgMap) (lines : List (Line ℝ)) : List FileWrite :=
  [⟨"output/FastPersistence_bettis_output" ++ args.val "fn" ++ ".csv", .replace,
      (lines.map (fun l =>
    (if l.1 = 0 then "0,0".toList else io.sizeStr l.1 ++ ",".toList ++ io.toStr l.2.1) ++
      ",".toList ++ io.toStr l.2.2 ++ "\n".toList)).flatten⟩,
    ⟨"output/tArray.csv", .replace, "ti,Dim,Marked,Birth,Death,Simplex\n".toList⟩]

/-! ### One stage -/

theorem simplexText_eq (env : Surround ℝ ℝ) (io : TextNum ℝ) (L : List (List Nat × ℝ)) :
    (L.map (simplexLine env io)).flatten = simplexText env io L := by
  unfold simplexText simplexLine
  simp only [List.flatMap_def]

theorem bettiFiles_eq (io : TextNum ℝ) (args : ArgMap) (lines : List (Line ℝ)) :
    [⟨"output/FastPersistence_bettis_output" ++ args.val "fn" ++ ".csv", .replace,
        lines.flatMap (lineText io)⟩,
      ⟨"output/tArray.csv", .replace, "ti,Dim,Marked,Birth,Death,Simplex\n".toList⟩] =
      bettiFiles io args lines := by
  have := barcodeText_eq io lines
  unfold barcodeText barcodeContent at this
  unfold bettiFiles
  rw [List.append_cancel_left this]

theorem stage_ok {env : Surround ℝ ℝ} {io : TextNum ℝ} {lib : Lib ℝ ℝ} {args : ArgMap} {debug : Bool}
    {run : PipeKind → Work (List ℝ) ℝ → Res (Work (List ℝ) ℝ)} {k : PipeKind}
    {x : Work (List ℝ) ℝ × Effects} {w : Work (List ℝ) ℝ} {v c : Int} {r : Work (List ℝ) ℝ × List FileWrite}
    {bytes : Nat} (hb : packetSize env w = bytes)
    (h1 : run k x.1 = .ok w) (h2 : w.complex.vertexCount = .ok v) (h3 : w.complex.simplexCount = c)
    (h4 : outputData env io lib args k w = .ok r) :
    stageWithEffects env io lib args debug run k x = .ok (if debug then r.1 else w,
      ⟨x.2.rows ++ [.stage (pipeType k) bytes v c],
        x.2.writes ++ stageWrites env args debug k x.2.rows.length (pipeType k) bytes r.2⟩) := by
  subst h3 hb
  unfold stageWithEffects stageWrites
  rw [h1, ok_bind]
  dsimp only
  rw [h2, ok_bind]
  cases debug
  · simp only [Bool.false_eq_true, if_false, List.append_nil]
    rfl
  · simp only [if_true]
    rw [h4, ok_bind, List.append_assoc]
    rfl

theorem row_bytes (row : List ℝ) (size : Nat) :
    row.foldl (fun size _ => size + 8) size = size + 8 * row.length := by
  induction row generalizing size with
  | nil => simp
  | cons a row ih => rw [List.foldl_cons, ih, List.length_cons]; omega

theorem data_bytes {k : Nat} (data : List (List ℝ)) (h : ∀ p ∈ data, p.length = k) (size : Nat) :
    data.foldl (fun size row => row.foldl (fun size _ => size + 8) size) size =
      size + 8 * (data.length * k) := by
  induction data generalizing size with
  | nil => simp
  | cons p data ih =>
    rw [List.foldl_cons, ih (fun q hq => h q (by simp [hq])), row_bytes, h p (by simp), List.length_cons,
      Nat.add_mul]
    omega

theorem packetSize_eq {k : Nat} (env : Surround ℝ ℝ) (w : Work (List ℝ) ℝ)
    (h : ∀ p ∈ w.originalData, p.length = k) :
    packetSize env w = 8 * (w.originalData.length * k) + w.complex.getSize env := by
  unfold packetSize
  rw [data_bytes _ h, Nat.zero_add]

/-! ### The default stages on a `simplexTree` -/

theorem inv_counts {N : Nat} {D : Nat → Nat → ℝ} {eps : ℝ} {maxDim : Nat}
    {t : Tree ℝ} (h2 : TreeInv 0 N D eps maxDim 0 t) :
    t.nodeCount = (simplexTotal N (fun i j => D i j < eps) (max 1 maxDim + 1) : Nat) ∧
      t.vertexCount = N := by
  constructor
  · rw [h2.count, Int.zero_add]
    congr 1
    have : {s : List Nat | IsSimplex N (fun i j => D i j < eps) s ∧
        s.length ≤ max 1 maxDim + 1} =
        (((paths [] t.roots).map Prod.fst).toFinset : Set (List Nat)) := by
      ext s
      rw [Set.mem_ofPred_eq, ← simpR_zero]
      simp only [List.coe_toFinset, Set.mem_ofPred_eq, List.mem_map, Prod.exists,
        exists_and_right, exists_eq_right, h2.mem]
      constructor
      · rintro ⟨a, b⟩; exact ⟨_, a, b, rfl⟩
      · rintro ⟨_, a, b, _⟩; exact ⟨a, b⟩
    unfold simplexTotal
    rw [this, Set.ncard_coe_finset, List.toFinset_card_of_nodup h2.nodup, List.length_map]
  · unfold Tree.vertexCount
    rw [h2.rvi, h2.rvc, h2.idx]
    split_ifs <;> simp

theorem lists_of_stores {g : Graph ℝ} {n : Nat} {d : Nat → Nat → ℝ} {near : Nat → Nat → Prop} {D : Nat}
    (h : StoresRips g n d near D) : ListsSimplices g.flatten n d near 1 (D + 1) := by
  refine ⟨nodup_flatten h, fun s w => ?_⟩
  constructor
  · intro he
    obtain ⟨l, hl, hs⟩ := List.mem_flatten.1 he
    obtain ⟨k, hk, e⟩ := List.mem_iff_getElem.1 hl
    have := h.only
    have h2 := (h.exact k s w (by omega)).1 ⟨l, by rw [← e]; exact List.getElem?_eq_getElem hk, hs⟩
    exact ⟨h2.2.1, by omega, by omega, h2.2.2⟩
  · rintro ⟨h1, h2, h3, rfl⟩
    obtain ⟨l, e1, e2⟩ := (h.exact (s.length - 1) s (diam d s) (by omega)).2 ⟨by omega, h1, rfl⟩
    exact List.mem_flatten.2 ⟨l, List.mem_of_getElem? e1, e2⟩

theorem stores_sorted {g edges : Graph ℝ} (hs : SortedLayers edges g) : edges.flatten.Perm g.flatten := by
  unfold SortedLayers at hs
  induction hs with
  | nil => exact List.Perm.refl _
  | cons h _ ih => rw [List.flatten_cons, List.flatten_cons]; exact h.1.append ih

theorem Spec.ListsSimplices.perm {L L' : List (List Nat × ℝ)} {n : Nat} {d : Nat → Nat → ℝ}
    {near : Nat → Nat → Prop} {lo hi : Nat} (h : ListsSimplices L n d near lo hi) (hp : L'.Perm L) :
    ListsSimplices L' n d near lo hi :=
  ⟨((hp.map Prod.fst).nodup_iff).2 h.once, fun s w => by rw [hp.mem_iff]; exact h.exact s w⟩

theorem matrix_text (env : Surround ℝ ℝ) (k : Nat) (pts : List (List ℝ)) :
    [⟨"output/DistMatrix_output.csv", .replace, ((table pts.length (fun i j =>
      if i < j then rowDist k pts i j else 0)).map (numberLine env)).flatten⟩] =
      [matrixFile env k pts] := by
  unfold matrixFile table numberLine
  rw [List.map_map]
  congr 4
  funext i
  simp only [Function.comp, List.flatMap_def, List.map_map]
  rfl

section
variable {env : Surround ℝ ℝ} {io : TextNum ℝ} {lib : Lib ℝ ℝ} {args : ArgMap} {debug : Bool}
  {s : Settings ℝ}

/-- The four default stages on an unused `simplexTree`, with their effects. -/
theorem tree_effects (hdist : lib.dist = vectorsDistance) (x : Work (List ℝ) ℝ × Effects)
    (dm0 : List (List ℝ)) (hcx : x.1.complex = .tree Tree.fresh dm0) (ho : x.1.bettiOutput = [])
    (ht : x.1.bettiTable = []) (k : Nat) (hk : 0 < k) (hdim : ∀ p ∈ x.1.originalData, p.length = k)
    (y : Work (List ℝ) ℝ × Effects)
    (hy : fastKinds.foldlM (fun d k => stageWithEffects env io lib args debug (runStages lib s) k d) x =
      .ok y) :
    ∃ (n N : Nat) (L : List (List Nat × ℝ)),
      n = x.1.originalData.length ∧
      N = simplexTotal n (fun i j => rowDist k x.1.originalData i j < s.eps) (max 1 s.dim + 1) ∧
      ListsSimplices L n (rowDist k x.1.originalData)
        (fun i j => rowDist k x.1.originalData i j < s.eps) 1 (max 1 s.dim + 1) ∧
      y.2.rows = x.2.rows ++ fourRows (8 * (n * k)) env.nodeSize n N N N ∧
      y.2.writes = x.2.writes ++ fourWrites env args debug x.2.rows.length (8 * (n * k)) env.nodeSize N N N
        [matrixFile env k x.1.originalData]
        [⟨"output/neighGraph_output.csv", .replace, simplexText env io L ++ ['\n']⟩] []
        (bettiFiles io args y.1.bettiOutput) := by
  obtain ⟨ws0, c1, -, -⟩ := C11_distance_matrix_euclidean k hk x.1.originalData hdim s.eps
  obtain ⟨⟨dm, ws⟩, d1, (d2 : dm = _)⟩ :=
    (distMatrixPipe_weights vectorsDistance s.eps x.1.weights [] x.1.originalData).of_ok c1
  have hdm : dm = table x.1.originalData.length (fun i j =>
      if i < j then rowDist k x.1.originalData i j else 0) := d2
  clear d2
  have hne : x.1.originalData.length ≠ 0 → dm ≠ [] := by
    intro h
    apply List.ne_nil_of_length_pos
    rw [hdm]
    simp [table]; omega
  obtain ⟨t, h2, h3, h4⟩ := insertN_inv (D := rowDist k x.1.originalData) (eps := s.eps) (maxDim := s.dim)
    (fun _ _ => dist_nonneg) (fresh_inv _ s.eps s.dim) x.1.originalData.length hne (by
      intro i j _ hij hj
      rw [hdm]
      simpa using at2_table hij (by omega))
  rw [Nat.zero_add] at h3
  obtain ⟨hN, hv⟩ := inv_counts h3
  set N := simplexTotal x.1.originalData.length (fun i j => rowDist k x.1.originalData i j < s.eps)
    (max 1 s.dim + 1) with hNdef
  set L := (t.getAllEdges lib.sort).1.flatten with hL
  have hlist : ListsSimplices L x.1.originalData.length (rowDist k x.1.originalData)
        (fun i j => rowDist k x.1.originalData i j < s.eps) 1 (max 1 s.dim + 1) :=
    (lists_of_stores (inv_stores h3)).perm (stores_sorted (C20_tree_first_query_partial t h4 lib.sort))
  have e1 : runStages lib s .distMatrix x.1 =
      .ok { x.1 with complex := .tree Tree.fresh dm, weights := ws } := by
    unfold runStages; rw [hcx, hdist]; dsimp only; rw [d1]; rfl
  have e2 : runStages lib s .neighGraph { x.1 with complex := .tree Tree.fresh dm, weights := ws } =
      .ok { x.1 with complex := .tree t dm, weights := ws } := by
    unfold runStages; dsimp only
    rw [neighGraphTree_eq _ _ _ _ (rows_ne_nil hk hdim), h2]; rfl
  have hsame : ∀ t' : Tree ℝ, t' = t ∨ t' = (t.getAllEdges lib.sort).2 →
      t'.nodeCount = N ∧ t'.vertexCount = x.1.originalData.length ∧
        (t'.getAllEdges lib.sort).2.nodeCount = N ∧
        (t'.getAllEdges lib.sort).2.vertexCount = x.1.originalData.length := by
    have hg : ∀ t : Tree ℝ, (t.getAllEdges lib.sort).2.nodeCount = t.nodeCount ∧
        (t.getAllEdges lib.sort).2.vertexCount = t.vertexCount := by
      intro t
      unfold Tree.getAllEdges
      split <;> exact ⟨rfl, rfl⟩
    rintro t' (rfl | rfl)
    · exact ⟨hN, hv, (hg _).1.trans hN, (hg _).2.trans hv⟩
    · exact ⟨(hg _).1.trans hN, (hg _).2.trans hv, (hg _).1.trans ((hg _).1.trans hN),
        (hg _).2.trans ((hg _).2.trans hv)⟩
  have size : ∀ (w : Work (List ℝ) ℝ) (t' : Tree ℝ), w.originalData = x.1.originalData →
      w.complex = .tree t' dm → t'.nodeCount = N →
      packetSize env w = 8 * (x.1.originalData.length * k) + N * env.nodeSize := by
    intro w t' hw hc hn
    rw [packetSize_eq env w (by rw [hw]; exact hdim), hw, hc]
    show _ + t'.nodeCount.toNat * env.nodeSize = _
    rw [hn, Int.toNat_natCast]
  refine ⟨_, N, L, rfl, hNdef, hlist, ?_⟩
  unfold fastKinds at hy
  simp only [List.foldlM_cons, List.foldlM_nil] at hy
  rw [stage_ok (bytes := 8 * (x.1.originalData.length * k)) (v := 0) (c := 0)
    (w := { x.1 with complex := .tree Tree.fresh dm, weights := ws })
    (r := ({ x.1 with complex := .tree Tree.fresh dm, weights := ws }, [matrixFile env k x.1.originalData]))
    (by
      rw [packetSize_eq (k := k) env _ (by exact hdim)]
      simp [AnyComplex.getSize, Tree.fresh]) e1 rfl rfl (by
      unfold outputData; dsimp only
      rw [← matrix_text, ← hdm]; rfl), ok_bind] at hy
  simp only [ite_self] at hy
  rw [stage_ok (bytes := 8 * (x.1.originalData.length * k) + N * env.nodeSize)
    (v := (x.1.originalData.length : Int)) (c := (N : Int))
    (w := { x.1 with complex := .tree t dm, weights := ws })
    (r := ({ x.1 with complex := .tree (t.getAllEdges lib.sort).2 dm, weights := ws },
      [⟨"output/neighGraph_output.csv", .replace, simplexText env io L ++ ['\n']⟩]))
    (size _ t rfl rfl hN) e2 (by
      show (Except.ok (t.vertexCount : Int) : Res Int) = _
      rw [hv]) hN (by
      unfold outputData; dsimp only
      rw [← simplexText_eq]; rfl), ok_bind] at hy
  obtain ⟨t', ht', hw⟩ : ∃ t', (t' = t ∨ t' = (t.getAllEdges lib.sort).2) ∧
      (if debug = true then ({ x.1 with complex := .tree (t.getAllEdges lib.sort).2 dm, weights := ws } :
        Work (List ℝ) ℝ) else { x.1 with complex := .tree t dm, weights := ws }) =
      { x.1 with complex := .tree t' dm, weights := ws } := by
    cases debug
    · exact ⟨t, Or.inl rfl, rfl⟩
    · exact ⟨_, Or.inr rfl, rfl⟩
  obtain ⟨s1, s2, s3, s4⟩ := hsame t' ht'
  simp only [hw] at hy
  have e3 : runStages lib s .rips { x.1 with complex := .tree t' dm, weights := ws } =
      .ok { x.1 with complex := .tree t' dm, weights := ws } := by
    unfold runStages; dsimp only; rw [C81_collapse_no_effect]; rfl
  rw [stage_ok (bytes := 8 * (x.1.originalData.length * k) + N * env.nodeSize)
    (v := (x.1.originalData.length : Int)) (c := (N : Int))
    (w := { x.1 with complex := .tree t' dm, weights := ws })
    (r := ({ x.1 with complex := .tree t' dm, weights := ws }, []))
    (size _ t' rfl rfl s1) e3 (by
      show (Except.ok (t'.vertexCount : Int) : Res Int) = _
      rw [s2]) s1 (by
      unfold outputData; rfl), ok_bind] at hy
  simp only [ite_self] at hy
  have e4 : runStages lib s .fastPersistence { x.1 with complex := .tree t' dm, weights := ws } =
      (fastPersistence lib.mode s.dim s.eps (t'.getAllEdges lib.sort).1 [] [] >>= fun r =>
        pure { x.1 with complex := .tree (t'.getAllEdges lib.sort).2 dm, weights := ws,
                        bettiOutput := r.1, bettiTable := r.2 }) := by
    unfold runStages; dsimp only; rw [ho, ht]
  cases hf : fastPersistence lib.mode s.dim s.eps (t'.getAllEdges lib.sort).1 [] [] with
  | error e =>
    rw [hf, error_bind] at e4
    unfold stageWithEffects at hy
    simp only [e4, error_bind] at hy
    cases hy
  | ok r =>
    rw [hf, ok_bind, pure_eq_ok] at e4
    rw [stage_ok (bytes := 8 * (x.1.originalData.length * k) + N * env.nodeSize)
      (v := (x.1.originalData.length : Int)) (c := (N : Int))
      (w := { x.1 with complex := .tree (t'.getAllEdges lib.sort).2 dm, weights := ws,
                       bettiOutput := r.1, bettiTable := r.2 })
      (r := ({ x.1 with complex := .tree (t'.getAllEdges lib.sort).2 dm, weights := ws,
                        bettiOutput := r.1, bettiTable := r.2 }, bettiFiles io args r.1))
      (size _ _ rfl rfl s3) e4 (by
        show (Except.ok ((t'.getAllEdges lib.sort).2.vertexCount : Int) : Res Int) = _
        rw [s4]) s3 (by
        unfold outputData; dsimp only
        rw [bettiFiles_eq]; rfl), ok_bind] at hy
    simp only [ite_self] at hy
    rw [pure_eq_ok] at hy
    cases hy
    constructor
    · simp only [List.append_assoc, List.cons_append, List.nil_append]
      rfl
    · simp only [List.append_assoc, List.length_append, List.length_cons, List.length_nil, fourWrites,
        Nat.zero_add]
      rfl

theorem array_size (g : Graph ℝ) (cell : Nat) :
    g.foldl (fun size layer => size + layer.length * cell) 0 = arraySimplexCount g * cell := by
  have : ∀ (g : Graph ℝ) (a b : Nat), a = b * cell →
      g.foldl (fun size layer => size + layer.length * cell) a =
        g.foldl (fun c layer => c + layer.length) b * cell := by
    intro g
    induction g with
    | nil => intro a b h; exact h
    | cons l g ih =>
      intro a b h
      rw [List.foldl_cons, List.foldl_cons]
      exact ih _ _ (by rw [h, Nat.add_mul])
  exact this g 0 0 (by simp)

theorem lists_layer {g : Graph ℝ} {n : Nat} {d : Nat → Nat → ℝ} {near : Nat → Nat → Prop} {D : Nat}
    (hD : 1 ≤ D) (h : StoresRips g n d near D) :
    ∃ L, ListsSimplices L n d near 2 2 ∧
      (if g.length > 1 then vget g 1 else .ok []) = (Except.ok L : Res _) := by
  by_cases hg : g.length > 1
  · refine ⟨g[1], ⟨h.once _ (List.getElem_mem hg), fun s w => ?_⟩, ?_⟩
    · have := h.exact 1 s w hD
      rw [List.getElem?_eq_getElem hg] at this
      constructor
      · intro hm
        obtain ⟨a, b, c⟩ := this.1 ⟨_, rfl, hm⟩
        exact ⟨b, by omega, by omega, c⟩
      · rintro ⟨a, b, c, e⟩
        obtain ⟨l, h1, h2⟩ := this.2 ⟨by omega, a, e⟩
        cases h1
        exact h2
    · rw [if_pos hg, vget_ok, List.getElem?_eq_getElem hg]
  · refine ⟨[], ⟨by simp, fun s w => ?_⟩, ?_⟩
    · simp only [List.not_mem_nil, false_iff]
      rintro ⟨a, b, c, e⟩
      obtain ⟨l, h1, h2⟩ := (h.exact 1 s w hD).2 ⟨by omega, a, e⟩
      exact absurd (List.getElem?_eq_some_iff.1 h1).1 hg
    · rw [if_neg hg]

/-- The complexes that the stages build, with what they store. -/
theorem array_chain_stores (eps : ℝ) (dim : Nat) (hd : 0 < dim) (k : Nat) (hk : 0 < k)
    (data : List (List ℝ)) (hdim : ∀ p ∈ data, p.length = k) :
    ∃ (ws : List ℝ) (g0 ga gb : Graph ℝ),
      distMatrixPipe vectorsDistance eps [] data = .ok (table data.length (fun i j =>
        if i < j then rowDist k data i j else 0), ws) ∧
      arrayInsertAll eps dim (table data.length (fun i j =>
        if i < j then rowDist k data i j else 0)) data [] = .ok g0 ∧
      expandDimensions dim g0 = .ok ga ∧ expandDimensions (dim + 1) ga = .ok gb ∧
      StoresRips g0 data.length (rowDist k data) (fun i j => rowDist k data i j ≤ eps) 1 ∧
      StoresRips ga data.length (rowDist k data) (fun i j => rowDist k data i j ≤ eps) dim ∧
      StoresRips gb data.length (rowDist k data) (fun i j => rowDist k data i j ≤ eps) (dim + 1) := by
  obtain ⟨dm, ws, g0, ga, gb, h1, h2, h3, h4, h5⟩ := array_chain eps dim hd k hk data hdim
  obtain ⟨ws', c1, -, -⟩ := C11_distance_matrix_euclidean k hk data hdim eps
  rw [c1] at h1
  injection h1 with h1
  injection h1 with h1 h1'
  subst h1 h1'
  have hdm : ∀ i j, j < i → i < data.length → at2 (table data.length (fun i j =>
      if i < j then rowDist k data i j else 0)) j i = .ok (rowDist k data j i) :=
    fun i j hji hi => at2_table hji hi
  refine ⟨ws', g0, ga, gb, c1, h2, h3, h4, ?_, ?_, h5⟩
  · obtain ⟨g, e1, e2⟩ := C13_expansion_is_rips eps dim 1 hd _
      (rowDist k data) (fun _ _ => dist_nonneg) data (rows_ne_nil hk hdim) hdm
    unfold Spec.buildArray at e1
    obtain ⟨g', e3, e4⟩ := bind_ok.1 e1
    have e5 := e3.symm.trans h2
    injection e5 with e5
    subst e5
    have e6 : g' = g := by
      have : expandDimensions 1 g' = .ok g' := rfl
      rw [this] at e4
      injection e4
    rw [e6]
    simpa using e2
  · obtain ⟨g, e1, e2⟩ := C13_expansion_is_rips eps dim dim hd _
      (rowDist k data) (fun _ _ => dist_nonneg) data (rows_ne_nil hk hdim) hdm
    unfold Spec.buildArray at e1
    obtain ⟨g', e3, e4⟩ := bind_ok.1 e1
    have e5 := e3.symm.trans h2
    injection e5 with e5
    subst e5
    rw [h3] at e4
    injection e4 with e4
    rw [e4]
    rwa [show max 1 dim = dim by omega] at e2

/-- The four default stages on an empty `simplexArrayList`, with their effects. -/
theorem array_effects (hdist : lib.dist = vectorsDistance) (hd : 0 < s.dim)
    (hcol : s.collapse ≠ "true" ∧ s.collapse ≠ "1") (x : Work (List ℝ) ℝ × Effects)
    (dm0 : List (List ℝ)) (hcx : x.1.complex = .array [] dm0) (k : Nat) (hk : 0 < k)
    (hdim : ∀ p ∈ x.1.originalData, p.length = k)
    (y : Work (List ℝ) ℝ × Effects)
    (hy : fastKinds.foldlM (fun d k => stageWithEffects env io lib args debug (runStages lib s) k d) x =
      .ok y) :
    ∃ (n N1 N2 N3 : Nat) (L1 L2 : List (List Nat × ℝ)),
      n = x.1.originalData.length ∧
      N1 = simplexTotal n (fun i j => rowDist k x.1.originalData i j ≤ s.eps) 2 ∧
      N2 = simplexTotal n (fun i j => rowDist k x.1.originalData i j ≤ s.eps) (s.dim + 1) ∧
      N3 = simplexTotal n (fun i j => rowDist k x.1.originalData i j ≤ s.eps) (s.dim + 2) ∧
      ListsSimplices L1 n (rowDist k x.1.originalData)
        (fun i j => rowDist k x.1.originalData i j ≤ s.eps) 2 2 ∧
      ListsSimplices L2 n (rowDist k x.1.originalData)
        (fun i j => rowDist k x.1.originalData i j ≤ s.eps) 1 (s.dim + 1) ∧
      y.2.rows = x.2.rows ++ fourRows (8 * (n * k)) env.pairSize n N1 N2 N3 ∧
      y.2.writes = x.2.writes ++
        fourWrites env args debug x.2.rows.length (8 * (n * k)) env.pairSize N1 N2 N3
        [matrixFile env k x.1.originalData]
        [⟨"output/neighGraph_output.csv", .replace, simplexText env io L1 ++ ['\n']⟩]
        [⟨"output/ripsPipe_output.csv", .replace, simplexText env io L2⟩]
        (bettiFiles io args y.1.bettiOutput) := by
  obtain ⟨ws0, g0, ga, gb, c1, c2, c3, c4, S0, Sa, Sb⟩ :=
    array_chain_stores s.eps s.dim hd k hk x.1.originalData hdim
  obtain ⟨⟨dm, ws⟩, d1, (d2 : dm = _)⟩ :=
    (distMatrixPipe_weights vectorsDistance s.eps x.1.weights [] x.1.originalData).of_ok c1
  have hdm : dm = table x.1.originalData.length (fun i j =>
      if i < j then rowDist k x.1.originalData i j else 0) := d2
  clear d2
  rw [← hdm] at c2
  obtain ⟨L1, hL1, hv1⟩ := lists_layer le_rfl S0
  obtain ⟨n0, v0⟩ := C19_array_counts S0
  obtain ⟨na, va⟩ := C19_array_counts Sa
  obtain ⟨nb, vb⟩ := C19_array_counts Sb
  have vert : ∀ (g : Graph ℝ) (w : Work (List ℝ) ℝ),
      arrayVertexCount g = .ok x.1.originalData.length → w.complex = .array g dm →
      w.complex.vertexCount = .ok (x.1.originalData.length : Int) := by
    intro g w h hc
    rw [hc]
    show (arrayVertexCount g >>= fun n => pure (n : Int)) = _
    rw [h]
    rfl
  have count : ∀ (g : Graph ℝ) (w : Work (List ℝ) ℝ) (N : Nat), arraySimplexCount g = N →
      w.complex = .array g dm → w.complex.simplexCount = (N : Int) := by
    rintro g w N rfl hc
    rw [hc]
    rfl
  have size : ∀ (g : Graph ℝ) (w : Work (List ℝ) ℝ) (N : Nat), w.originalData = x.1.originalData →
      arraySimplexCount g = N → w.complex = .array g dm →
      packetSize env w = 8 * (x.1.originalData.length * k) + N * env.pairSize := by
    rintro g w N hw rfl hc
    rw [packetSize_eq env w (by rw [hw]; exact hdim), hw, hc, ← array_size]
    rfl
  have hncol : ¬ (s.collapse = "true" ∨ s.collapse = "1") := by tauto
  refine ⟨_, _, _, _, L1, ga.flatten, rfl, rfl, rfl, rfl, hL1, lists_of_stores Sa, ?_⟩
  have e1 : runStages lib s .distMatrix x.1 =
      .ok { x.1 with complex := .array [] dm, weights := ws } := by
    unfold runStages; rw [hcx, hdist]; dsimp only; rw [d1]; rfl
  have e2 : runStages lib s .neighGraph { x.1 with complex := .array [] dm, weights := ws } =
      .ok { x.1 with complex := .array g0 dm, weights := ws } := by
    unfold runStages; dsimp only; rw [c2]; rfl
  have e3 : runStages lib s .rips { x.1 with complex := .array g0 dm, weights := ws } =
      .ok { x.1 with complex := .array ga dm, weights := ws } := by
    unfold runStages ripsPipeArray; dsimp only
    rw [c3, ok_bind, if_neg hncol]; rfl
  unfold fastKinds at hy
  simp only [List.foldlM_cons, List.foldlM_nil] at hy
  rw [stage_ok (bytes := 8 * (x.1.originalData.length * k)) (v := 0) (c := 0)
    (w := { x.1 with complex := .array [] dm, weights := ws })
    (r := ({ x.1 with complex := .array [] dm, weights := ws }, [matrixFile env k x.1.originalData]))
    (by
      rw [packetSize_eq (k := k) env _ (by exact hdim)]
      simp [AnyComplex.getSize]) e1 rfl rfl (by
      unfold outputData; dsimp only
      rw [← matrix_text, ← hdm]; rfl), ok_bind] at hy
  simp only [ite_self] at hy
  rw [stage_ok (bytes := 8 * (x.1.originalData.length * k) +
      simplexTotal x.1.originalData.length (fun i j => rowDist k x.1.originalData i j ≤ s.eps) 2 * env.pairSize)
    (v := (x.1.originalData.length : Int))
    (c := (simplexTotal x.1.originalData.length (fun i j => rowDist k x.1.originalData i j ≤ s.eps) 2 : Int))
    (w := { x.1 with complex := .array g0 dm, weights := ws })
    (r := ({ x.1 with complex := .array g0 dm, weights := ws },
      [⟨"output/neighGraph_output.csv", .replace, simplexText env io L1 ++ ['\n']⟩]))
    (size g0 _ _ rfl n0 rfl) e2 (vert g0 _ v0 rfl) (count g0 _ _ n0 rfl) (by
      unfold outputData; dsimp only
      rw [← simplexText_eq]
      by_cases hg : g0.length > 1
      · rw [if_pos hg] at hv1 ⊢
        rw [hv1]; rfl
      · rw [if_neg hg] at hv1 ⊢
        cases hv1
        rfl), ok_bind] at hy
  simp only [ite_self] at hy
  rw [stage_ok (bytes := 8 * (x.1.originalData.length * k) +
      simplexTotal x.1.originalData.length (fun i j => rowDist k x.1.originalData i j ≤ s.eps) (s.dim + 1) *
        env.pairSize)
    (v := (x.1.originalData.length : Int))
    (c := (simplexTotal x.1.originalData.length (fun i j => rowDist k x.1.originalData i j ≤ s.eps)
      (s.dim + 1) : Int))
    (w := { x.1 with complex := .array ga dm, weights := ws })
    (r := ({ x.1 with complex := .array ga dm, weights := ws },
      [⟨"output/ripsPipe_output.csv", .replace, simplexText env io ga.flatten⟩]))
    (size ga _ _ rfl na rfl) e3 (vert ga _ va rfl) (count ga _ _ na rfl) (by
      unfold outputData; dsimp only
      rw [← simplexText_eq]; rfl), ok_bind] at hy
  simp only [ite_self] at hy
  have e4 : runStages lib s .fastPersistence { x.1 with complex := .array ga dm, weights := ws } =
      (fastPersistence lib.mode s.dim s.eps (arrayGetAllEdges lib.sort gb) x.1.bettiOutput x.1.bettiTable >>=
        fun r => pure { x.1 with complex := .array gb dm, weights := ws,
                                 bettiOutput := r.1, bettiTable := r.2 }) := by
    unfold runStages; dsimp only; rw [if_pos hd, c4, ok_bind]
  cases hf : fastPersistence lib.mode s.dim s.eps (arrayGetAllEdges lib.sort gb) x.1.bettiOutput
      x.1.bettiTable with
  | error e =>
    rw [hf, error_bind] at e4
    unfold stageWithEffects at hy
    simp only [e4, error_bind] at hy
    cases hy
  | ok r =>
    rw [hf, ok_bind, pure_eq_ok] at e4
    rw [stage_ok (bytes := 8 * (x.1.originalData.length * k) +
      simplexTotal x.1.originalData.length (fun i j => rowDist k x.1.originalData i j ≤ s.eps) (s.dim + 2) *
        env.pairSize)
      (v := (x.1.originalData.length : Int))
      (c := (simplexTotal x.1.originalData.length (fun i j => rowDist k x.1.originalData i j ≤ s.eps)
        (s.dim + 2) : Int))
      (w := { x.1 with complex := .array gb dm, weights := ws, bettiOutput := r.1, bettiTable := r.2 })
      (r := ({ x.1 with complex := .array gb dm, weights := ws,
                        bettiOutput := r.1, bettiTable := r.2 }, bettiFiles io args r.1))
      (size gb _ _ rfl nb rfl) e4 (vert gb _ vb rfl) (count gb _ _ nb rfl) (by
        unfold outputData; dsimp only
        rw [bettiFiles_eq]; rfl), ok_bind] at hy
    simp only [ite_self] at hy
    rw [pure_eq_ok] at hy
    cases hy
    constructor
    · simp only [List.append_assoc, List.cons_append, List.nil_append]
      rfl
    · simp only [List.append_assoc, List.length_append, List.length_cons, List.length_nil, fourWrites,
        Nat.zero_add]
      rfl

end

/-! ### The program -/

/-- The points on which the stages work: the rows of the input without a preprocessor, or what the
preprocessor returns. -/
def Spec.PointsOf (sys : System ℝ ℝ) (m : ArgMap) (data pts : List (List ℝ)) (labels : List Nat) :
    Option PreKind → Prop
  | none => m.val "preprocessor" = "" ∧ pts = data ∧ labels = []
  | some kind => (m.val "preprocessor", kind) ∈ preprocessors ∧
      PreprocessesInto (sys.pre (setPipeline m) kind) data pts labels

/-- The row of a preprocessor in the statistics. -/
def Spec.preRows : Option PreKind → List StatRow
  | none => []
  | some kind => [.pre (preLabel kind)]

/-- The name of the preprocessor in the names of its files. -/
def Spec.preStats : Option PreKind → List String
  | none => []
  | some kind => [preLabel kind]

/-- The files of a preprocessor: the points that it returns as rows of numbers, and the labels, one per
line. -/
def Spec.preFilesOf (inIO io : TextNum ℝ) (pts : List (List ℝ)) (labels : List Nat) :
    Option PreKind → List FileWrite
  | none => []
  | some kind => [⟨"output/" ++ preLabel kind ++ "_centroid_output.csv", .replace, writeCSV inIO pts⟩,
    ⟨"output/" ++ preLabel kind ++ "_label_output.csv", .replace,
      (labels.map (fun a => io.sizeStr a ++ ['\n'])).flatten⟩]

/-- Its part of the log. -/
def Spec.preLog (env : Surround ℝ ℝ) (args : ArgMap) : Option PreKind → List FileWrite
  | none => []
  | some kind => logWrite args (env.preMessages kind args)

section
variable {sys : System ℝ ℝ} {env : Surround ℝ ℝ} {pairs : List (String × String)} {m : ArgMap}
  {ct f : String} {data : List (List ℝ)} {kind : Option PreKind} {pts : List (List ℝ)} {labels : List Nat}

theorem pre_effects (h : StandardCommand sys pairs m ct f data)
    (hpts : PointsOf sys m data pts labels kind) :
    preprocess (preWithEffects env sys.inIO sys.io (setPipeline m) (sys.pre (setPipeline m)))
        (setPipeline m) ⟨[], true, (⟨data, data, [], newComplex ct, [], [], []⟩, ⟨[], []⟩)⟩ =
      .ok ⟨preStats kind, true, (⟨pts, data, labels, newComplex ct, [], [], []⟩,
        ⟨preRows kind, preLog env (setPipeline m) kind ++ preFilesOf sys.inIO sys.io pts labels kind⟩)⟩ := by
  cases kind with
  | none =>
    obtain ⟨h1, rfl, rfl⟩ := hpts
    unfold preprocess
    rw [h.preprocessor, if_neg (by simpa using h1)]
    rfl
  | some kind =>
    obtain ⟨h1, h2⟩ := hpts
    rw [pre_selected _ pairs m h.parsed _ kind h1 h.preprocessor]
    dsimp only
    unfold preWithEffects
    dsimp only
    rw [h2, ok_bind, pure_eq_ok, ok_bind]
    have : ∀ k, procName k = preLabel k := by intro k; cases k <;> rfl
    unfold preFiles preFilesOf preLog preRows preStats
    rw [this]
    dsimp only
    rw [List.flatMap_def]
    rfl

theorem main_effects_points (hct : ct ∈ ["simplexArrayList", "simplexTree", "indSimplexTree"])
    (h : StandardCommand sys pairs m ct f data)
    (hpts : PointsOf sys m data pts labels kind) (y : World (List ℝ) ℝ × Effects)
    (hy : mainEffects sys env (commandLine pairs) = .ok y) :
    ∃ z : Work (List ℝ) ℝ × Effects,
      fastKinds.foldlM (fun d k => stageWithEffects env sys.io sys.lib (setPipeline m)
          (debugFiles sys (setPipeline m)) (runStages sys.lib ⟨sys.atof (m.val "epsilon"),
          sys.atoi (m.val "dimensions"), m.val "collapse"⟩) k d)
        (⟨pts, data, labels, newComplex ct, [], [], []⟩,
        ⟨preRows kind, preLog env (setPipeline m) kind ++ preFilesOf sys.inIO sys.io pts labels kind⟩) =
        .ok z ∧
      y.1.packet.data.bettiOutput = z.1.bettiOutput ∧ y.2.rows = z.2.rows ∧
      y.2.writes = z.2.writes ++ [⟨f ++ "_stats.csv", .replace, statsText env z.2.rows⟩,
          ⟨f ++ ".csv", .replace, barcodeText sys.io z.1.bettiOutput⟩] ∧
      y.1.files = [(f ++ "_stats.csv", .stats (preStats kind ++ fastNames)),
          (f ++ ".csv", .text (barcodeText sys.io z.1.bettiOutput))] := by
  rw [effects_standard sys env pairs m ct f data hct h, pre_effects h hpts, ok_bind] at hy
  dsimp only at hy
  obtain ⟨z, h1, h2⟩ := bind_ok.1 hy
  rw [pure_eq_ok] at h2
  cases h2
  exact ⟨z, h1, rfl, rfl, rfl, rfl⟩

end

/-! ### Contents of files -/

theorem contentAfter_append (opens : String → Bool) (name : String) (before : Option (List Char))
    (a b : List FileWrite) :
    contentAfter opens name before (a ++ b) = contentAfter opens name (contentAfter opens name before a) b := by
  induction a generalizing before with
  | nil => rfl
  | cons w a ih => exact ih _

theorem contentAfter_other {opens : String → Bool} {name : String} {before : Option (List Char)}
    {a : List FileWrite} (h : ∀ w ∈ a, w.name ≠ name) : contentAfter opens name before a = before := by
  induction a generalizing before with
  | nil => rfl
  | cons w a ih =>
    unfold contentAfter
    rw [if_neg (by intro h'; exact h w (by simp) h'.1)]
    exact ih (fun v hv => h v (by simp [hv]))

theorem contentAfter_last {opens : String → Bool} {name : String} {before : Option (List Char)}
    {a b : List FileWrite} {text : List Char} (ho : opens name = true) (h : ∀ w ∈ b, w.name ≠ name) :
    contentAfter opens name before (a ++ ⟨name, .replace, text⟩ :: b) = some text := by
  rw [contentAfter_append]
  unfold contentAfter
  dsimp only
  rw [if_pos ⟨rfl, ho⟩]
  exact contentAfter_other h

theorem name_ne {f a b : String} (h : a.toList ≠ b.toList) : f ++ a ≠ f ++ b := by
  intro e
  apply h
  have := congrArg String.toList e
  rw [String.toList_append, String.toList_append] at this
  exact List.append_cancel_left this

theorem name_ne_self {f a : String} (h : a.toList ≠ []) : f ++ a ≠ f := by
  intro e
  apply h
  have := congrArg String.toList e
  rw [String.toList_append] at this
  exact List.append_right_eq_self.1 this

/-! ### C101: the statistics -/

/-- A line of the statistics file as its cells: name, time, and for a stage the size in its unit, the unit, and
the numbers of vertices and simplices. -/
def Spec.statCells (env : Surround ℝ ℝ) (time : List Char) : StatRow → List (List Char)
  | .stage name bytes v s => [name.toList, time, env.sizeText bytes (sizeUnit bytes).1,
      (sizeUnit bytes).2.toList, env.intStr v, env.intStr s]
  | .pre name => [name.toList, time]

/-- The content of the statistics file. -/
def Spec.statsContent (env : Surround ℝ ℝ) (rows : List StatRow) : List Char :=
  Spec.lineOf ["PipeName".toList, "PhysExecutionTime".toList, "MemorySize".toList, "MemoryUnits".toList,
      "VertexCount".toList, "SimplexCount".toList] ++ ['\n'] ++
    (rows.zipIdx.map (fun r => Spec.lineOf (statCells env (env.clock r.2) r.1) ++ ['\n'])).flatten

theorem statsText_eq (env : Surround ℝ ℝ) (rows : List StatRow) :
    statsText env rows = statsContent env rows := by
  unfold statsText statsContent
  congr 1
  congr 1
  apply List.map_congr_left
  rintro ⟨r, i⟩ -
  cases r with
  | stage name bytes v s => simp [statText, statCells, Spec.lineOf, List.intercalate]
  | pre name => simp [statText, statCells, Spec.lineOf, List.intercalate]

section
variable {sys : System ℝ ℝ} {env : Surround ℝ ℝ} {pairs : List (String × String)} {m : ArgMap}
  {f : String} {data : List (List ℝ)} {kind : Option PreKind} {pts : List (List ℝ)} {labels : List Nat}

/-- C101, `simplexTree`: after a run of the default pipeline, with or without preprocessor, the statistics file
has the header, a row for the preprocessor if there is one, and one row for each stage in order; the rows of
the stages give the size of points and complex at the end of the stage and the numbers of points and of
simplices (pairwise distances `< epsilon`) in it. Whatever was logged or written for debugging, the file
has this content at the end. -/
theorem C101_tree_statistics_partial (hdist : sys.lib.dist = vectorsDistance)
    (h : StandardCommand sys pairs m "simplexTree" f data) (hpts : PointsOf sys m data pts labels kind)
    (k : Nat) (hk : 0 < k) (hdim : ∀ p ∈ pts, p.length = k) (y : World (List ℝ) ℝ × Effects)
    (hy : mainEffects sys env (commandLine pairs) = .ok y) :
    let n := pts.length
    let N := simplexTotal n (fun i j => rowDist k pts i j < sys.atof (m.val "epsilon"))
      (max 1 (sys.atoi (m.val "dimensions")) + 1)
    ∀ opens before, opens (f ++ "_stats.csv") = true →
      contentAfter opens (f ++ "_stats.csv") before y.2.writes = some (statsContent env
        (preRows kind ++ fourRows (8 * (n * k)) env.nodeSize n N N N)) := by
  intro n N opens before hopen
  obtain ⟨z, h1, -, -, h4, -⟩ := main_effects_points (by decide) h hpts y hy
  obtain ⟨n', N', L, rfl, rfl, -, h5, -⟩ := tree_effects hdist _ [] rfl rfl rfl k hk hdim z h1
  rw [h4, contentAfter_last hopen (by
    intro w hw
    rw [List.mem_singleton] at hw
    subst hw
    exact name_ne (by decide)), h5, statsText_eq]

/-- C101, `simplexArrayList` (dimensions at least 1, no collapse): the same with pairwise distances `≤ epsilon`;
the numbers of simplices are those with at most 2 vertices after `neighGraph`, with at most
dimensions + 1 after `rips`, and with at most dimensions + 2 after `fastPersistence`. -/
theorem C101_array_statistics_partial (hdist : sys.lib.dist = vectorsDistance)
    (h : StandardCommand sys pairs m "simplexArrayList" f data)
    (hpts : PointsOf sys m data pts labels kind)
    (hcol : m.val "collapse" ≠ "true" ∧ m.val "collapse" ≠ "1")
    (hd : 0 < sys.atoi (m.val "dimensions"))
    (k : Nat) (hk : 0 < k) (hdim : ∀ p ∈ pts, p.length = k) (y : World (List ℝ) ℝ × Effects)
    (hy : mainEffects sys env (commandLine pairs) = .ok y) :
    let n := pts.length
    let N := simplexTotal n (fun i j => rowDist k pts i j ≤ sys.atof (m.val "epsilon"))
    ∀ opens before, opens (f ++ "_stats.csv") = true →
      contentAfter opens (f ++ "_stats.csv") before y.2.writes = some (statsContent env
        (preRows kind ++ fourRows (8 * (n * k)) env.pairSize n (N 2)
          (N (sys.atoi (m.val "dimensions") + 1)) (N (sys.atoi (m.val "dimensions") + 2)))) := by
  intro n N opens before hopen
  obtain ⟨z, h1, -, -, h4, -⟩ := main_effects_points (by decide) h hpts y hy
  obtain ⟨n', N1, N2, N3, L1, L2, rfl, rfl, rfl, rfl, -, -, h5, -⟩ :=
    array_effects hdist hd hcol _ [] rfl k hk hdim z h1
  rw [h4, contentAfter_last hopen (by
    intro w hw
    rw [List.mem_singleton] at hw
    subst hw
    exact name_ne (by decide)), h5, statsText_eq]

end

/-- C101: the unit of a size is the largest of B, KB, MB, GB (powers of 1000) that is smaller than the size,
and the printed number is the size divided by it: at most 1000 unless it is in GB. -/
theorem C101_unit (bytes : Nat) :
    ((sizeUnit bytes).2, (sizeUnit bytes).1) ∈ [("B", 1), ("KB", 1000), ("MB", 1000 ^ 2), ("GB", 1000 ^ 3)] ∧
      ((sizeUnit bytes).1 ≠ 1 → (sizeUnit bytes).1 < bytes) ∧
      ((sizeUnit bytes).2 ≠ "GB" → bytes ≤ 1000 * (sizeUnit bytes).1) := by
  unfold sizeUnit
  split_ifs with h1 h2 h3
  · exact ⟨by decide, fun _ => h1, fun h => absurd rfl h⟩
  · exact ⟨by decide, fun _ => h2, fun _ => by simp only; omega⟩
  · exact ⟨by decide, fun _ => h3, fun _ => by simp only; omega⟩
  · exact ⟨by decide, fun h => absurd rfl h, fun _ => by simp only; omega⟩

/-- The texts of the numbers in the statistics have no comma and no newline. -/
structure Spec.CleanNumbers (env : Surround ℝ ℝ) : Prop where
  clock : ∀ n, ',' ∉ env.clock n ∧ '\n' ∉ env.clock n
  size : ∀ b d, ',' ∉ env.sizeText b d ∧ '\n' ∉ env.sizeText b d
  int : ∀ i, ',' ∉ env.intStr i ∧ '\n' ∉ env.intStr i

theorem unit_clean (bytes : Nat) : (sizeUnit bytes).2.toList.count ',' = 0 ∧
    (sizeUnit bytes).2.toList.count '\n' = 0 := by
  unfold sizeUnit
  split_ifs <;> decide

/-- C101: the line of each stage is one line with as many commas as the header. -/
theorem C101_columns_partial (env : Surround ℝ ℝ) (hc : CleanNumbers env) (k : PipeKind) (i bytes : Nat)
    (v s : Int) :
    (statText env i (.stage (pipeType k) bytes v s)).count ',' =
        "PipeName,PhysExecutionTime,MemorySize,MemoryUnits,VertexCount,SimplexCount\n".toList.count ',' ∧
      (statText env i (.stage (pipeType k) bytes v s)).count '\n' = 1 := by
  have hk : (pipeType k).toList.count ',' = 0 ∧ (pipeType k).toList.count '\n' = 0 := by
    cases k <;> decide
  have h1 := fun n => List.count_eq_zero.2 (hc.clock n).1
  have h2 := fun n => List.count_eq_zero.2 (hc.clock n).2
  have h3 := fun b d => List.count_eq_zero.2 (hc.size b d).1
  have h4 := fun b d => List.count_eq_zero.2 (hc.size b d).2
  have h5 := fun i => List.count_eq_zero.2 (hc.int i).1
  have h6 := fun i => List.count_eq_zero.2 (hc.int i).2
  have hh : "PipeName,PhysExecutionTime,MemorySize,MemoryUnits,VertexCount,SimplexCount\n".toList.count ',' = 5 := by
    decide
  obtain ⟨u1, u2⟩ := unit_clean bytes
  rw [hh]
  unfold statText
  constructor
  · simp only [List.count_append, hk.1, h1, h3, h5, u1]
    decide
  · simp only [List.count_append, hk.2, h2, h4, h6, u2]
    decide

/-- C101 fails for the row of a preprocessor: it has two cells, the header has six. -/
theorem C101_preprocessor_row_violated (env : Surround ℝ ℝ) (hc : CleanNumbers env) (k : PreKind) (i : Nat) :
    (statText env i (.pre (preLabel k))).count ',' = 1 ∧
      "PipeName,PhysExecutionTime,MemorySize,MemoryUnits,VertexCount,SimplexCount\n".toList.count ',' = 5 := by
  have hk : (preLabel k).toList.count ',' = 0 := by cases k <;> decide
  have h1 := fun n => List.count_eq_zero.2 (hc.clock n).1
  constructor
  · unfold statText
    simp only [List.count_append, hk, h1]
    decide
  · decide

end LHF
