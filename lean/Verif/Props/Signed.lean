import Verif.Model.Signed
import Verif.Props.NaiveComplex
import Verif.Props.IndexedProgram
import Verif.Props.Effects

/-! C127: a negative number of dimensions. -/

namespace LHF
open Spec

theorem asSize_nonneg {d : Int} (h0 : 0 ≤ d) (h : d < 2 ^ 31) : asSize d = d.toNat := by
  unfold asSize; rw [Int.emod_eq_of_lt h0 (by omega)]

theorem asUnsigned_nonneg {d : Int} (h0 : 0 ≤ d) (h : d < 2 ^ 31) : asUnsigned d = d.toNat := by
  unfold asUnsigned; rw [Int.emod_eq_of_lt h0 (by omega)]

theorem asSize_neg {d : Int} (h0 : d < 0) (h : -2 ^ 31 ≤ d) : 2 ^ 63 ≤ asSize d := by
  unfold asSize
  omega

theorem signedDim_nonneg {W : Type} {d : Int} (h0 : 0 ≤ d) (h : d < 2 ^ 31) (k : PipeKind) (c : AnyComplex W) :
    signedDim d k c = d.toNat := by
  unfold signedDim
  split <;> first | rfl | exact asSize_nonneg h0 h | exact asUnsigned_nonneg h0 h

theorem signedStages_nonneg {K W : Type} [LinearOrder W] [Ring W] (lib : Lib K W) (eps : W) (n : Nat)
    (h : (n : Int) < 2 ^ 31) (collapse : String) :
    signedStages lib eps (n : Int) collapse = runStages lib ⟨eps, n, collapse⟩ := by
  funext k w
  unfold signedStages
  rw [signedDim_nonneg (Int.natCast_nonneg n) h, Int.toNat_natCast]

/-- C127: with a value that is not negative, the conversions change nothing: the program does what the model with
natural numbers does. -/
theorem C127_not_negative {K W : Type} [LinearOrder W] [Ring W] (sys : System K W) (atoi : String → Int)
    (h : ∀ s, atoi s < 2 ^ 31) (hat : ∀ s, atoi s = (sys.atoi s : Int)) (argv : List String) :
    mainProgramSigned sys atoi argv = mainProgram sys argv := by
  unfold mainProgramSigned mainProgram
  have hs : ∀ eps s col, signedStages sys.lib eps (atoi s) col = runStages sys.lib ⟨eps, sys.atoi s, col⟩ := by
    intro eps s col
    have := h s
    rw [hat] at this
    rw [hat, signedStages_nonneg _ _ _ this]
  simp only [hs]

/-- As `main_default`, for `mainProgramSigned`. -/
theorem signed_default (sys : System ℝ ℝ) (atoi : String → Int) (pairs : List (String × String)) (m : ArgMap)
    (hm : parseArgs (commandLine pairs) = .ok m) (hmpi : m.val "mpi" ≠ "1")
    (hp : m.val "pipeline" = "") (d : Mode) (hd : d ∈ modes) (hmode : m.val "mode" = d.name)
    (hst : d.stages = fastStages) (hred : d.name ≠ "reduced")
    (hpre : d.preprocessor.apply (m.val "preprocessor") = "")
    (hup : d.upscale.apply (m.val "upscale") ≠ "true")
    (hct : m.val "complexType" ∈ ["simplexArrayList", "simplexTree", "indSimplexTree"])
    (f : String) (hf : m.val "outputFile" = f) (hcon : f ≠ "console")
    (data : List (List ℝ)) (hread : readCSV sys.inIO (sys.files (m.val "inputFile")) = .ok data)
    (hne : data ≠ []) :
    mainProgramSigned sys atoi (commandLine pairs) =
      (fastKinds.foldlM (fun d k => signedStages sys.lib (sys.atof (m.val "epsilon"))
          (atoi (m.val "dimensions")) (m.val "collapse") k d)
        ⟨data, data, [], newComplex (d.complexType.apply (m.val "complexType")), [], [], []⟩ >>=
      fun w => pure ⟨⟨fastNames, true, w⟩,
        [(f ++ "_stats.csv", .stats fastNames),
          (f ++ ".csv", .text (barcodeText sys.io w.bettiOutput))]⟩) := by
  obtain ⟨q1, q2, q3, q4, q5⟩ := C38_mode_selection m hmpi hp d hd hmode
  have hsome : ∀ o ∈ options, ((setPipeline m) o.1).isSome :=
    fun o ho => setPipeline_isSome m _ (parse_isSome pairs m hm o ho)
  have hpl : ((setPipeline m) "pipeline").isSome := hsome ("pipeline", "p", "") (by decide)
  have hout : ((setPipeline m) "outputFile").isSome :=
    hsome ("outputFile", "o", "output.csv") (by decide)
  have hout' : (setPipeline m) "outputFile" = some f := by
    apply some_of_val hout
    rw [q5 _ (by decide), hf]
  have hsw : (setPipeline m).val "pipeline" ≠ "slidingwindow" := by
    rw [q1, hst]; decide
  have hct' : d.complexType.apply (m.val "complexType") ∈
      ["simplexArrayList", "simplexTree", "indSimplexTree"] := by
    generalize m.val "complexType" = ct at hct
    clear q1 q2 q3 q4 q5 hpre hup hmode hst hred
    simp only [List.mem_cons, List.not_mem_nil, or_false] at hct
    rcases hct with rfl | rfl | rfl <;> revert d <;> decide
  have hkinds : modeKinds d (m.val "complexType") = fastKinds := by
    unfold modeKinds
    rw [if_pos hst]
    rfl
  unfold mainProgramSigned
  rw [hm, ok_bind]
  dsimp only
  rw [if_pos hsw, q5 "inputFile" (by decide), hread, ok_bind]
  unfold dispatch
  rw [if_pos (by exact Or.inl (List.length_pos_of_ne_nil hne)), q4, if_neg hup,
    q5 "mode" (by decide), hmode, if_neg hred]
  unfold processData preprocess
  rw [q2, hpre, if_neg (by simp), pure_eq_ok, ok_bind]
  unfold runPipelineOut
  rw [some_of_val hpl rfl]
  dsimp only
  rw [C60_known_modes_run_all_stages _ _ pairs m hm hmpi hp d hd hmode hct, hkinds, q3,
    q5 "epsilon" (by decide), q5 "dimensions" (by decide), q5 "collapse" (by decide)]
  have hhas : (newPacket (d.complexType.apply (m.val "complexType"))
      (⟨data, data, [], newComplex (d.complexType.apply (m.val "complexType")), [], [], []⟩ :
        Work (List ℝ) ℝ)).hasComplex = true := by
    simp only [List.mem_cons, List.not_mem_nil, or_false] at hct'
    unfold newPacket
    simp only [decide_eq_true_eq]
    tauto
  rw [fold_wrappers _ _ _ hhas, bind_assoc]
  congr 1
  funext w
  rw [pure_eq_ok, ok_bind]
  unfold pipelineFiles
  rw [hout']
  simp only [hcon, if_false]
  rfl

theorem signed_plain (sys : System ℝ ℝ) (atoi : String → Int) (pairs : List (String × String)) (m : ArgMap)
    (ct f : String) (data : List (List ℝ))
    (hct : ct ∈ ["simplexArrayList", "simplexTree", "indSimplexTree"])
    (h : PlainCommand sys pairs m ct f data) :
    mainProgramSigned sys atoi (commandLine pairs) =
      (fastKinds.foldlM (fun d k => signedStages sys.lib (sys.atof (m.val "epsilon"))
          (atoi (m.val "dimensions")) (m.val "collapse") k d)
        ⟨data, data, [], newComplex ct, [], [], []⟩ >>=
      fun w => pure ⟨⟨fastNames, true, w⟩,
        [(f ++ "_stats.csv", .stats fastNames),
          (f ++ ".csv", .text (barcodeText sys.io w.bettiOutput))]⟩) := by
  have hct' : m.val "complexType" ∈ ["simplexArrayList", "simplexTree", "indSimplexTree"] := by
    rw [h.complex]; exact hct
  rcases h.mode with hmode | ⟨hmode, hc⟩
  · rw [signed_default sys atoi pairs m h.parsed h.mpi h.pipeline
      ⟨"standard", fastStages, .keep, .keep, .keep⟩ (by simp [modes]) hmode rfl (by decide) h.pre
      h.upscale hct' f h.output h.console data h.input h.rows]
    rw [show Setting.keep.apply (m.val "complexType") = ct from h.complex]
  · rw [signed_default sys atoi pairs m h.parsed h.mpi h.pipeline
      ⟨"fast", fastStages, .keep, .force "simplexTree", .force "false"⟩ (by simp [modes]) hmode rfl
      (by decide) h.pre (show "false" ≠ "true" by decide) hct' f h.output h.console data h.input h.rows]
    rw [show (Setting.force "simplexTree").apply (m.val "complexType") = ct from hc.symm]

/-! ### The trees -/

theorem signed_tree (lib : Lib ℝ ℝ) (hdist : lib.dist = vectorsDistance) (eps : ℝ) (d : Int) (collapse : String)
    (k : Nat) (hk : 0 < k) (data : List (List ℝ)) (hdim : ∀ p ∈ data, p.length = k) :
    ∃ ws, fastKinds.foldlM (fun w k => signedStages lib eps d collapse k w)
        ⟨data, data, [], newComplex "simplexTree", [], [], []⟩ =
      (do
        let t ← neighGraphTree eps (asSize d) (pairTable k data) data Tree.fresh
        let r ← fastPersistence lib.mode d.toNat eps (t.getAllEdges lib.sort).1 [] []
        pure ⟨data, data, [], .tree (t.getAllEdges lib.sort).2 (pairTable k data), ws, r.2, r.1⟩) := by
  obtain ⟨ws, h1, -, -⟩ := C11_distance_matrix_euclidean k hk data hdim eps
  refine ⟨ws, ?_⟩
  unfold fastKinds
  simp only [List.foldlM_cons, List.foldlM_nil]
  have e1 : signedStages lib eps d collapse .distMatrix ⟨data, data, [], newComplex "simplexTree", [], [], []⟩ =
      .ok ⟨data, data, [], .tree Tree.fresh (pairTable k data), ws, [], []⟩ := by
    unfold signedStages newComplex
    rw [if_pos rfl]
    unfold runStages
    dsimp only
    rw [hdist, h1]
    rfl
  rw [e1, ok_bind]
  have e2 : signedStages lib eps d collapse .neighGraph ⟨data, data, [], .tree Tree.fresh (pairTable k data), ws, [], []⟩ =
      (neighGraphTree eps (asSize d) (pairTable k data) data Tree.fresh >>= fun t =>
        pure ⟨data, data, [], .tree t (pairTable k data), ws, [], []⟩) := rfl
  rw [e2, bind_assoc]
  congr 1
  funext t
  rw [pure_eq_ok, ok_bind]
  have e3 : signedStages lib eps d collapse .rips ⟨data, data, [], .tree t (pairTable k data), ws, [], []⟩ =
      .ok ⟨data, data, [], .tree t (pairTable k data), ws, [], []⟩ := by
    unfold signedStages runStages
    dsimp only
    unfold ripsPipeTree Tree.reduceComplex Tree.dimensions
    cases t.roots <;> simp [pure_eq_ok, ok_bind]
  rw [e3, ok_bind]
  show (signedStages lib eps d collapse .fastPersistence _ >>= _) = _
  unfold signedStages runStages
  dsimp only
  rw [bind_assoc]
  rfl

theorem tree_inserted (sort : SortBySecond (List Nat) ℝ) (eps : ℝ) (dim : Nat)
    (k : Nat) (hk : 0 < k) (data : List (List ℝ)) (hdim : ∀ p ∈ data, p.length = k) :
    ∃ t, neighGraphTree eps dim (pairTable k data) data Tree.fresh = .ok t ∧
      SortedLayers (t.getAllEdges sort).1 t.weg ∧
      StoresRips t.weg data.length (rowDist k data) (fun i j => rowDist k data i j < eps) (max 1 dim) := by
  have hne : data.length ≠ 0 → pairTable k data ≠ [] := by
    intro h
    apply List.ne_nil_of_length_pos
    rw [pairTable_length]; omega
  obtain ⟨t, h2, h3, h4⟩ := insertN_inv (D := rowDist k data) (eps := eps) (maxDim := dim)
    (fun _ _ => dist_nonneg) (fresh_inv _ eps dim) data.length hne (by
      intro i j _ hij hj
      have := at2_table (d := rowDist k data) hij (show j < data.length by omega)
      exact this)
  rw [Nat.zero_add] at h3
  refine ⟨t, ?_, C20_tree_first_query_partial t h4 sort, inv_stores h3⟩
  rw [neighGraphTree_eq _ _ _ _ (rows_ne_nil hk hdim), h2]

theorem fast_zero (mode : EndRead) {eps : ℝ} {g edges : List (List (List Nat × ℝ))} {n D : Nat}
    {d : Nat → Nat → ℝ} (h0 : ∀ i j, 0 ≤ d i j) (h : StoresRips g n d (fun i j => d i j < eps) D) (hD : 1 ≤ D)
    (ho : SortedLayers edges g) (he : ∃ i j, i < j ∧ j < n ∧ d i j < eps) :
    ∃ lines T, fastPersistence mode 0 eps edges [] [] = .ok (lines, T) ∧ (∀ l ∈ lines, l.1 = 0) ∧
      DescribesRips n d (· < eps) eps 0 lines := by
  have hlen := rips_two_layers h hD ho he
  have hF := filtered_of_rips h ho
  have hsome : ∃ r, fastPersistence mode 0 eps edges [] [] = .ok r := by
    rcases C25_terminates mode 0 eps hF hlen [] [] with h | ⟨hm, -⟩
    · exact h
    · subst hm
      rw [(fast_undefined 0 eps hF hlen [] []).1 (fun k h1 h2 => by omega)]
      rcases C25_terminates .noPivot 0 eps hF hlen [] [] with h | ⟨h, -⟩
      · exact h
      · cases h
  obtain ⟨⟨lines, T⟩, hr⟩ := hsome
  have hdesc := describes_of_rips h hD (by omega) h0 ho he
      (fun _ k h1 h2 => by omega) (· < eps) (fun t ht i j hij => lt_of_le_of_lt hij ht) (fun _ _ hij => hij) hr
  refine ⟨lines, T, hr, fun l hl => ?_, hdesc⟩
  rcases hdesc.only l hl with h | h
  · exact h
  · omega

/-- The program with a negative value on a simplexTree. -/
theorem signed_tree_run (sys : System ℝ ℝ) (hdist : sys.lib.dist = vectorsDistance) (atoi : String → Int)
    (pairs : List (String × String)) (m : ArgMap) (f : String)
    (data : List (List ℝ)) (h : PlainCommand sys pairs m "simplexTree" f data)
    (hneg : atoi (m.val "dimensions") < 0)
    (k : Nat) (hk : 0 < k) (hdim : ∀ p ∈ data, p.length = k)
    (hedge : ∃ i j, i < j ∧ j < data.length ∧ rowDist k data i j < sys.atof (m.val "epsilon")) :
    ∃ w lines t, mainProgramSigned sys atoi (commandLine pairs) = .ok w ∧ WritesBarcode sys.io f lines w ∧
      (∀ l ∈ lines, l.1 = 0) ∧
      DescribesRips data.length (rowDist k data) (· < sys.atof (m.val "epsilon"))
        (sys.atof (m.val "epsilon")) 0 lines ∧
      neighGraphTree (sys.atof (m.val "epsilon")) (asSize (atoi (m.val "dimensions"))) (pairTable k data) data
        Tree.fresh = .ok t ∧
      w.packet.data.complex = .tree (t.getAllEdges sys.lib.sort).2 (pairTable k data) := by
  obtain ⟨t, h1, h2, h3⟩ := tree_inserted sys.lib.sort (sys.atof (m.val "epsilon"))
    (asSize (atoi (m.val "dimensions"))) k hk data hdim
  obtain ⟨lines, T, h4, h5, h6⟩ := fast_zero sys.lib.mode (fun _ _ => dist_nonneg) h3 (by omega) h2 hedge
  obtain ⟨ws, h7⟩ := signed_tree sys.lib hdist (sys.atof (m.val "epsilon")) (atoi (m.val "dimensions"))
    (m.val "collapse") k hk data hdim
  rw [h1, ok_bind, show (atoi (m.val "dimensions")).toNat = 0 by omega, h4, ok_bind] at h7
  have h8 := signed_plain sys atoi pairs m _ f data (by decide) h
  rw [h7, pure_eq_ok, ok_bind, pure_eq_ok] at h8
  refine ⟨_, lines, t, h8, ?_, h5, h6, h1, rfl⟩
  unfold WritesBarcode
  rw [← barcodeText_eq]
  rfl

/-- C127 for simplexTree: with a negative value the program ends and writes the barcode it writes for 0: the components,
described at every scale below `epsilon`, and nothing of a higher dimension. -/
theorem C127_tree_barcode (sys : System ℝ ℝ) (hdist : sys.lib.dist = vectorsDistance) (atoi : String → Int)
    (pairs : List (String × String)) (m : ArgMap) (f : String)
    (data : List (List ℝ)) (h : PlainCommand sys pairs m "simplexTree" f data)
    (hneg : atoi (m.val "dimensions") < 0)
    (k : Nat) (hk : 0 < k) (hdim : ∀ p ∈ data, p.length = k)
    (hedge : ∃ i j, i < j ∧ j < data.length ∧ rowDist k data i j < sys.atof (m.val "epsilon")) :
    ∃ w lines, mainProgramSigned sys atoi (commandLine pairs) = .ok w ∧ WritesBarcode sys.io f lines w ∧
      (∀ l ∈ lines, l.1 = 0) ∧
      DescribesRips data.length (rowDist k data) (· < sys.atof (m.val "epsilon"))
        (sys.atof (m.val "epsilon")) 0 lines := by
  obtain ⟨w, lines, t, h1, h2, h3, h4, -⟩ := signed_tree_run sys hdist atoi pairs m f data h hneg k hk hdim hedge
  exact ⟨w, lines, h1, h2, h3, h4⟩

theorem simplex_length {n : Nat} {near : Nat → Nat → Prop} {s : List Nat} (h : IsSimplex n near s) : s.length ≤ n := by
  have h1 : s.Nodup := h.2.1.imp (fun hab => Nat.ne_of_lt hab)
  have h2 : s ⊆ List.range n := fun a ha => List.mem_range.2 (h.2.2.1 a ha)
  simpa using (h1.subperm h2).length_le

/-- The nonempty sets of numbers below `n`, as increasing lists. -/
theorem all_simplices_count (n : Nat) :
    Set.ncard {s : List Nat | IsSimplex n (fun _ _ => True) s} = 2 ^ n - 1 := by
  have h : {s : List Nat | IsSimplex n (fun _ _ => True) s} =
      (fun x : Finset Nat => x.sort (· ≤ ·)) '' (((Finset.range n).powerset.erase ∅ : Finset (Finset Nat)) : Set (Finset Nat)) := by
    ext s
    simp only [Set.mem_setOf_eq, Set.mem_image, Finset.mem_coe, Finset.mem_erase, Finset.mem_powerset]
    constructor
    · rintro ⟨h1, h2, h3, -⟩
      refine ⟨s.toFinset, ⟨?_, ?_⟩, ?_⟩
      · intro he
        exact h1 (List.toFinset_eq_empty_iff _ |>.1 he)
      · intro a ha
        exact Finset.mem_range.2 (h3 a (List.mem_toFinset.1 ha))
      · exact (List.toFinset_sort (· ≤ ·) (h2.imp (fun hab => Nat.ne_of_lt hab))).2 (h2.imp Nat.le_of_lt)
    · rintro ⟨x, ⟨h1, h2⟩, rfl⟩
      refine ⟨?_, ?_, ?_, fun _ _ _ _ _ => trivial⟩
      · intro he
        apply h1
        have := congrArg List.length he
        rw [Finset.length_sort] at this
        exact Finset.card_eq_zero.1 this
      · exact Finset.sortedLT_sort x |>.pairwise
      · intro v hv
        exact Finset.mem_range.1 (h2 ((Finset.mem_sort _).1 hv))
  rw [h, Set.ncard_image_of_injective _ (fun x y hxy => by
    have := congrArg List.toFinset hxy
    simpa using this), Set.ncard_coe_finset, Finset.card_erase_of_mem (by simp), Finset.card_powerset,
    Finset.card_range]

/-- C127 is violated for simplexTree: with a negative value the complex is not bounded at all, while it has at most edges with
0: it holds every set of points that are pairwise closer than `epsilon`, of whatever size, and counts all of them. -/
theorem C127_tree_size_violated (sys : System ℝ ℝ) (hdist : sys.lib.dist = vectorsDistance) (atoi : String → Int)
    (pairs : List (String × String)) (m : ArgMap) (f : String)
    (data : List (List ℝ)) (h : PlainCommand sys pairs m "simplexTree" f data)
    (hneg : atoi (m.val "dimensions") < 0) (hint : -2 ^ 31 ≤ atoi (m.val "dimensions"))
    (k : Nat) (hk : 0 < k) (hdim : ∀ p ∈ data, p.length = k)
    (hedge : ∃ i j, i < j ∧ j < data.length ∧ rowDist k data i j < sys.atof (m.val "epsilon"))
    (hlen : data.length < 2 ^ 63) :
    ∃ w t dm, mainProgramSigned sys atoi (commandLine pairs) = .ok w ∧ w.packet.data.complex = .tree t dm ∧
      (∀ s, IsSimplex data.length (fun i j => rowDist k data i j < sys.atof (m.val "epsilon")) s →
        ∃ layer ∈ t.weg, (s, diam (rowDist k data) s) ∈ layer) ∧
      w.packet.data.complex.simplexCount = (Set.ncard {s : List Nat | IsSimplex data.length
        (fun i j => rowDist k data i j < sys.atof (m.val "epsilon")) s} : Nat) := by
  obtain ⟨w, lines, t, h1, -, -, -, h5, h6⟩ := signed_tree_run sys hdist atoi pairs m f data h hneg k hk hdim hedge
  obtain ⟨c1, c2, -⟩ := tree_of_rows_counts sys.lib.sort _ _ k hk data hdim t h5
  have hbig := asSize_neg hneg hint
  refine ⟨w, _, _, h1, h6, ?_, ?_⟩
  · intro s hs
    have hl := simplex_length hs
    have hpos : s.length ≠ 0 := by
      have := hs.1
      simpa using this
    obtain ⟨layer, e1, e2⟩ := (c1.exact (s.length - 1) s _ (by omega)).2 ⟨by omega, hs, rfl⟩
    unfold Tree.getAllEdges at e1 ⊢
    split at e1
    · rename_i hs'
      rw [if_pos hs']
      exact ⟨layer, List.mem_of_getElem? e1, e2⟩
    · rename_i hs'
      rw [if_neg hs']
      exact ⟨layer, List.mem_of_getElem? e1, e2⟩
  · rw [h6]
    show (t.getAllEdges sys.lib.sort).2.nodeCount = _
    have h7 : (t.getAllEdges sys.lib.sort).2.nodeCount = t.nodeCount := by
      unfold Tree.getAllEdges
      split <;> rfl
    rw [h7, show t.nodeCount = _ from c2]
    unfold simplexTotal; congr 2
    ext s
    constructor
    · exact fun hs => hs.1
    · exact fun hs => ⟨hs, by have := simplex_length hs; omega⟩

/-- C127: so for `n` points that are all close to each other a negative value makes the program store 2^n - 1 simplices. -/
theorem C127_tree_explosion_violated (sys : System ℝ ℝ) (hdist : sys.lib.dist = vectorsDistance) (atoi : String → Int)
    (pairs : List (String × String)) (m : ArgMap) (f : String)
    (data : List (List ℝ)) (h : PlainCommand sys pairs m "simplexTree" f data)
    (hneg : atoi (m.val "dimensions") < 0) (hint : -2 ^ 31 ≤ atoi (m.val "dimensions"))
    (k : Nat) (hk : 0 < k) (hdim : ∀ p ∈ data, p.length = k) (htwo : 2 ≤ data.length)
    (hclose : ∀ i j, i < j → j < data.length → rowDist k data i j < sys.atof (m.val "epsilon"))
    (hlen : data.length < 2 ^ 63) :
    ∃ w, mainProgramSigned sys atoi (commandLine pairs) = .ok w ∧
      w.packet.data.complex.simplexCount = 2 ^ data.length - 1 := by
  obtain ⟨w, t, dm, h1, -, -, h2⟩ := C127_tree_size_violated sys hdist atoi pairs m f data h hneg hint k hk hdim
    ⟨0, 1, by omega, by omega, hclose 0 1 (by omega) (by omega)⟩ hlen
  refine ⟨w, h1, ?_⟩
  rw [h2, show {s : List Nat | IsSimplex data.length
        (fun i j => rowDist k data i j < sys.atof (m.val "epsilon")) s} =
      {s : List Nat | IsSimplex data.length (fun _ _ => True) s} from ?_, all_simplices_count]
  · have : 1 ≤ 2 ^ data.length := Nat.one_le_two_pow
    push_cast [Nat.cast_sub this]
    rfl
  · ext s
    constructor
    · rintro ⟨a, b, c, -⟩
      exact ⟨a, b, c, fun _ _ _ _ _ => trivial⟩
    · rintro ⟨a, b, c, -⟩
      exact ⟨a, b, c, fun i _ j hj hij => hclose i j hij (c j hj)⟩

/-! ### The indexed tree -/

theorem signed_indexed (lib : Lib ℝ ℝ) (hdist : lib.dist = vectorsDistance) (eps : ℝ) (d : Int) (collapse : String)
    (hcol : collapse ≠ "true" ∧ collapse ≠ "1")
    (k : Nat) (hk : 0 < k) (data : List (List ℝ)) (hdim : ∀ p ∈ data, p.length = k) :
    ∃ ws, fastKinds.foldlM (fun w k => signedStages lib eps d collapse k w)
        ⟨data, data, [], newComplex "indSimplexTree", [], [], []⟩ =
      (do
        let t ← ITree.insertN eps (asSize d) (pairTable k data) data.length ITree.fresh
        let e ← t.getAllEdges lib.isort
        let r ← fastPersistence lib.mode d.toNat eps e.1 [] []
        pure ⟨data, data, [], .indexed e.2 (pairTable k data), ws, r.2, r.1⟩) := by
  obtain ⟨ws, h1, -, -⟩ := C11_distance_matrix_euclidean k hk data hdim eps
  refine ⟨ws, ?_⟩
  unfold fastKinds
  simp only [List.foldlM_cons, List.foldlM_nil]
  have e1 : signedStages lib eps d collapse .distMatrix ⟨data, data, [], newComplex "indSimplexTree", [], [], []⟩ =
      .ok ⟨data, data, [], .indexed ITree.fresh (pairTable k data), ws, [], []⟩ := by
    show (distMatrixPipe lib.dist eps [] data >>= _) = _
    rw [hdist, h1]
    rfl
  rw [e1, ok_bind]
  have e2 : signedStages lib eps d collapse .neighGraph
      ⟨data, data, [], .indexed ITree.fresh (pairTable k data), ws, [], []⟩ =
      (ITree.insertN eps (asSize d) (pairTable k data) data.length ITree.fresh >>= fun t =>
        pure ⟨data, data, [], .indexed t (pairTable k data), ws, [], []⟩) := by
    rw [← neighGraphIndexed_eq _ _ _ _ (rows_ne_nil hk hdim)]
    rfl
  rw [e2, bind_assoc]
  congr 1
  funext t
  rw [pure_eq_ok, ok_bind]
  have e3 : signedStages lib eps d collapse .rips ⟨data, data, [], .indexed t (pairTable k data), ws, [], []⟩ =
      .ok ⟨data, data, [], .indexed t (pairTable k data), ws, [], []⟩ := by
    unfold signedStages runStages ripsPipeIndexed
    dsimp only
    rw [if_neg (by rintro (c | c); exacts [hcol.1 c, hcol.2 c])]
    rfl
  rw [e3, ok_bind]
  show (signedStages lib eps d collapse .fastPersistence _ >>= _) = _
  unfold signedStages runStages
  dsimp only
  rw [bind_assoc]
  congr 1
  funext e
  rw [bind_assoc]
  rfl

/-- C127 for indSimplexTree (partial: no four points that are pairwise closer than `epsilon`, see `C127_indexed_violated`): with
a negative value the program ends and writes the barcode it writes for 0. -/
theorem C127_indexed_barcode_partial (sys : System ℝ ℝ) (hdist : sys.lib.dist = vectorsDistance) (atoi : String → Int)
    (pairs : List (String × String)) (m : ArgMap) (f : String)
    (data : List (List ℝ)) (h : PlainCommand sys pairs m "indSimplexTree" f data)
    (hcol : m.val "collapse" ≠ "true" ∧ m.val "collapse" ≠ "1")
    (hneg : atoi (m.val "dimensions") < 0)
    (k : Nat) (hk : 0 < k) (hdim : ∀ p ∈ data, p.length = k)
    (hedge : ∃ i j, i < j ∧ j < data.length ∧ rowDist k data i j < sys.atof (m.val "epsilon"))
    (h4 : ¬ ∃ s, IsSimplex data.length
      (fun i j => rowDist k data i j < sys.atof (m.val "epsilon")) s ∧ s.length = 4) :
    ∃ w lines, mainProgramSigned sys atoi (commandLine pairs) = .ok w ∧ WritesBarcode sys.io f lines w ∧
      (∀ l ∈ lines, l.1 = 0) ∧
      DescribesRips data.length (rowDist k data) (· < sys.atof (m.val "epsilon"))
        (sys.atof (m.val "epsilon")) 0 lines := by
  have hn : data.length ≠ 0 := by simpa using h.rows
  have hne : pairTable k data ≠ [] := by
    apply List.ne_nil_of_length_pos
    rw [pairTable_length]; omega
  obtain ⟨g, t2, g1, g2, -, g4⟩ := C76_indexed_is_rips_partial (sys.atof (m.val "epsilon"))
    (asSize (atoi (m.val "dimensions"))) _ (rowDist k data) (fun _ _ => dist_nonneg) sys.lib.isort
    data.length hn hne (fun i j hij hj => at2_table hij hj) (Or.inr h4)
  have hso : SortedLayers g g := by
    unfold SortedLayers
    rw [List.forall₂_same]
    exact fun l hl => ⟨List.Perm.refl _, g4 l hl⟩
  obtain ⟨lines, T, h5, h6, h7⟩ := fast_zero sys.lib.mode (fun _ _ => dist_nonneg) g2 (by omega) hso hedge
  obtain ⟨ws, h8⟩ := signed_indexed sys.lib hdist (sys.atof (m.val "epsilon")) (atoi (m.val "dimensions"))
    (m.val "collapse") hcol k hk data hdim
  unfold buildIndexed at g1
  rw [bind_ok] at g1
  obtain ⟨t1, g5, g6⟩ := g1
  rw [g5, ok_bind, g6, ok_bind, show (atoi (m.val "dimensions")).toNat = 0 by omega, h5, ok_bind] at h8
  have h9 := signed_plain sys atoi pairs m _ f data (by decide) h
  rw [h8, pure_eq_ok, ok_bind, pure_eq_ok] at h9
  refine ⟨_, lines, h9, ?_, h6, h7⟩
  unfold WritesBarcode
  rw [← barcodeText_eq]
  rfl

/-- C127 is violated for indSimplexTree: with a negative value, as soon as four points are pairwise closer than `epsilon` the program
writes past the end of a vector. With 0 it ends (`C92_indexed_program_default`). -/
theorem C127_indexed_violated (sys : System ℝ ℝ) (hdist : sys.lib.dist = vectorsDistance) (atoi : String → Int)
    (pairs : List (String × String)) (m : ArgMap) (f : String)
    (data : List (List ℝ)) (h : PlainCommand sys pairs m "indSimplexTree" f data)
    (hcol : m.val "collapse" ≠ "true" ∧ m.val "collapse" ≠ "1")
    (hneg : atoi (m.val "dimensions") < 0) (hint : -2 ^ 31 ≤ atoi (m.val "dimensions"))
    (k : Nat) (hk : 0 < k) (hdim : ∀ p ∈ data, p.length = k)
    (h4 : ∃ s, IsSimplex data.length
      (fun i j => rowDist k data i j < sys.atof (m.val "epsilon")) s ∧ s.length = 4) :
    mainProgramSigned sys atoi (commandLine pairs) = .error .oob := by
  have hn : data.length ≠ 0 := by simpa using h.rows
  have hne : pairTable k data ≠ [] := by
    apply List.ne_nil_of_length_pos
    rw [pairTable_length]; omega
  have hbig := asSize_neg hneg hint
  rw [signed_plain sys atoi pairs m _ f data (by decide) h]
  obtain ⟨ws, h8⟩ := signed_indexed sys.lib hdist (sys.atof (m.val "epsilon")) (atoi (m.val "dimensions"))
    (m.val "collapse") hcol k hk data hdim
  rw [h8, C76_four_points_violated _ _ _ (rowDist k data) (fun _ _ => dist_nonneg) data.length hne
    (fun i j hij hj => at2_table hij hj) (by omega) h4]
  rfl

/-! ### The array -/

theorem insertAll_points (eps : ℝ) (dm : List (List ℝ)) (k : Nat) (hk : 0 < k) (data : List (List ℝ))
    (hne : data ≠ []) (hdim : ∀ p ∈ data, p.length = k) :
    ∃ vs, vs ≠ [] ∧ arrayInsertAll eps 0 dm data [] = .ok [vs] := by
  have hins : ∀ (l : List (List ℝ)) (vs : List (List Nat × ℝ)), vs ≠ [] → (∀ p ∈ l, p.length = k) →
      ∃ vs', vs' ≠ [] ∧ arrayInsertAll eps 0 dm l [vs] = .ok [vs'] := by
    intro l
    induction l with
    | nil => intro vs hvs _; exact ⟨vs, hvs, rfl⟩
    | cons p l ih =>
      intro vs hvs hl
      have hp : p.isEmpty = false := by
        have := hl p (by simp)
        cases p with
        | nil => simp at this; omega
        | cons => rfl
      obtain ⟨vs', g1, g2⟩ := ih (vs ++ [([vs.length], 0)]) (by simp) (fun q hq => hl q (by simp [hq]))
      refine ⟨vs', g1, ?_⟩
      unfold arrayInsertAll at g2 ⊢
      rw [List.foldlM_cons, hp]
      unfold arrayInsert
      rw [hp]
      exact g2
  cases data with
  | nil => exact absurd rfl hne
  | cons p l =>
    have hp : p.isEmpty = false := by
      have := hdim p (by simp)
      cases p with
      | nil => simp at this; omega
      | cons => rfl
    obtain ⟨vs', g1, g2⟩ := hins l [([0], 0)] (by simp) (fun q hq => hdim q (by simp [hq]))
    refine ⟨vs', g1, ?_⟩
    unfold arrayInsertAll at g2 ⊢
    rw [List.foldlM_cons, hp]
    unfold arrayInsert
    rw [hp]
    exact g2

theorem expand_points (dim : Nat) (vs : List (List Nat × ℝ)) : expandDimensions dim [vs] = .ok [vs] := by
  unfold expandDimensions
  cases hd : dim - 1 with
  | zero => rfl
  | succ n =>
    rw [List.range'_succ]
    unfold expandLoop
    rw [if_pos (by simp)]
    rfl

/-- C127 for simplexArrayList: a negative value does what 0 does (`C85_array_dimension_zero_violated`): the program reads past the
end of a vector on every input. -/
theorem C127_array_violated (sys : System ℝ ℝ) (hdist : sys.lib.dist = vectorsDistance) (atoi : String → Int)
    (pairs : List (String × String)) (m : ArgMap) (f : String)
    (data : List (List ℝ)) (h : PlainCommand sys pairs m "simplexArrayList" f data)
    (hcol : m.val "collapse" ≠ "true" ∧ m.val "collapse" ≠ "1")
    (hneg : atoi (m.val "dimensions") ≤ 0)
    (k : Nat) (hk : 0 < k) (hdim : ∀ p ∈ data, p.length = k) :
    mainProgramSigned sys atoi (commandLine pairs) = .error .oob := by
  rw [signed_plain sys atoi pairs m _ f data (by decide) h]
  generalize atoi (m.val "dimensions") = d at hneg
  have hz : d.toNat = 0 := by omega
  obtain ⟨ws, h1, -, -⟩ := C11_distance_matrix_euclidean k hk data hdim (sys.atof (m.val "epsilon"))
  obtain ⟨vs, hvs, h2⟩ := insertAll_points (sys.atof (m.val "epsilon")) (pairTable k data) k hk data h.rows hdim
  have e1 : signedStages sys.lib (sys.atof (m.val "epsilon")) d (m.val "collapse") .distMatrix
      (⟨data, data, [], newComplex "simplexArrayList", [], [], []⟩ : Work (List ℝ) ℝ) =
      .ok ⟨data, data, [], .array [] (pairTable k data), ws, [], []⟩ := by
    show (distMatrixPipe sys.lib.dist (sys.atof (m.val "epsilon")) [] data >>= _) = _
    rw [hdist, h1, ok_bind]
    rfl
  have e2 : signedStages sys.lib (sys.atof (m.val "epsilon")) d (m.val "collapse") .neighGraph
      (⟨data, data, [], .array [] (pairTable k data), ws, [], []⟩ : Work (List ℝ) ℝ) =
      .ok ⟨data, data, [], .array [vs] (pairTable k data), ws, [], []⟩ := by
    show (arrayInsertAll (sys.atof (m.val "epsilon")) d.toNat (pairTable k data) data [] >>= _) = _
    rw [hz, h2, ok_bind]
    rfl
  have e3 : signedStages sys.lib (sys.atof (m.val "epsilon")) d (m.val "collapse") .rips
      (⟨data, data, [], .array [vs] (pairTable k data), ws, [], []⟩ : Work (List ℝ) ℝ) =
      .ok ⟨data, data, [], .array [vs] (pairTable k data), ws, [], []⟩ := by
    show (ripsPipeArray (asUnsigned d) (m.val "collapse") [vs] >>= _) = _
    unfold ripsPipeArray
    rw [expand_points, ok_bind, if_neg (by rintro (c | c); exacts [hcol.1 c, hcol.2 c])]
    rfl
  have e4 : signedStages sys.lib (sys.atof (m.val "epsilon")) d (m.val "collapse") .fastPersistence
      (⟨data, data, [], .array [vs] (pairTable k data), ws, [], []⟩ : Work (List ℝ) ℝ) = .error .oob := by
    have hlen : ∃ l, arrayGetAllEdges sys.lib.sort [vs] = [l] := by
      unfold arrayGetAllEdges
      rw [List.filterMap_cons]
      dsimp only
      rw [if_pos (by simpa using List.length_pos_of_ne_nil hvs)]
      exact ⟨_, rfl⟩
    obtain ⟨l, hl⟩ := hlen
    unfold signedStages signedDim
    rw [show d.toNat = 0 from hz]
    show (fastPersistence sys.lib.mode 0 (sys.atof (m.val "epsilon")) (arrayGetAllEdges sys.lib.sort [vs])
      [] [] >>= _) = _
    rw [hl]
    rfl
  unfold fastKinds
  simp only [List.foldlM_cons, List.foldlM_nil]
  rw [e1, ok_bind, e2, ok_bind, e3, ok_bind, e4]
  rfl

/-! ### Examples -/

/-- The hypotheses of C127: `-d -1` with each complex type. -/
example : ∀ c ∈ ["simplexTree", "indSimplexTree", "simplexArrayList"],
    ∃ m, PlainCommand (realSystem [] [] "00\n03\n04\n02\n09")
      [("-i", "data.csv"), ("-o", "bars"), ("-c", c), ("-d", "-1")] m
      c "bars" [[((0 : Nat) : ℝ)], [((3 : Nat) : ℝ)], [((4 : Nat) : ℝ)],
        [((2 : Nat) : ℝ)], [((9 : Nat) : ℝ)]] ∧
    m.val "collapse" ≠ "true" ∧ m.val "collapse" ≠ "1" ∧
    (fun s : String => if s = "-1" then (-1 : Int) else 0) (m.val "dimensions") < 0 := by
  intro c hc
  simp only [List.mem_cons, List.not_mem_nil, or_false] at hc
  rcases hc with rfl | rfl | rfl <;>
  exact ⟨_, ⟨rfl, by decide, by decide, Or.inl (by decide), by decide, by decide, by decide, by decide,
    by decide, rfl, by simp⟩, by decide, by decide, by decide⟩

/-- Four points on a line that are all closer than 5, as `C127_tree_explosion_violated` asks. -/
example : ∀ i j, i < j → j < 4 → rowDist 1 [[(0 : ℝ)], [3], [4], [2]] i j < 5 := by
  intro i j hij hj
  have hx : ∀ i < 4, ∃ x : ℝ, ([[(0 : ℝ)], [3], [4], [2]] : List (List ℝ)).getD i [] = [x] ∧ 0 ≤ x ∧ x ≤ 4 := by
    intro i hi
    match i, hi with
    | 0, _ => exact ⟨_, rfl, by norm_num, by norm_num⟩
    | 1, _ => exact ⟨_, rfl, by norm_num, by norm_num⟩
    | 2, _ => exact ⟨_, rfl, by norm_num, by norm_num⟩
    | 3, _ => exact ⟨_, rfl, by norm_num, by norm_num⟩
  obtain ⟨x, h1, h2, h3⟩ := hx i (by omega)
  obtain ⟨y, h4, h5, h6⟩ := hx j hj
  rw [rowDist_line _ i j x y h1 h4, abs_lt]
  constructor <;> linarith

/-- -1 as a `size_t` and as an `unsigned`. -/
example : asSize (-1) = 2 ^ 64 - 1 ∧ asUnsigned (-1) = 2 ^ 32 - 1 ∧ asSize 3 = 3 := by decide

end LHF
