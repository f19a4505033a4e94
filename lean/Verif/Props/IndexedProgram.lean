import Verif.Props.Reduced
import Verif.Props.IndexedTree

/-! C92, C93: the program with the complex type `indSimplexTree`. -/

namespace LHF
open Spec

/-! ### The stages -/

/-- Inserting the rows one by one is inserting as many points as there are rows. -/
theorem neighGraphIndexed_eq {K W : Type} [LinearOrder W] [Zero W] (eps : W) (dim : Nat)
    (dm : List (List W)) (data : List (List K)) (hne : ∀ p ∈ data, p ≠ []) (t : ITree W) :
    neighGraphIndexed eps dim dm data t = ITree.insertN eps dim dm data.length t := by
  have shift : ∀ n (t : ITree W), ITree.insertN eps dim dm (n + 1) t =
      (t.insert eps dim dm >>= fun t => ITree.insertN eps dim dm n t) := by
    intro n
    induction n with
    | zero =>
      intro t
      show (pure t >>= fun t => t.insert eps dim dm) = _
      rw [pure_bind]
      show _ = (t.insert eps dim dm >>= pure)
      rw [bind_pure]
    | succ n ih =>
      intro t
      show (ITree.insertN eps dim dm (n + 1) t >>= fun t => t.insert eps dim dm) = _
      rw [ih, bind_assoc]
      rfl
  induction data generalizing t with
  | nil => rfl
  | cons p l ih =>
    have hp : p.isEmpty = false := by simpa using hne p (by simp)
    unfold neighGraphIndexed at ih ⊢
    rw [List.foldlM_cons, hp, List.length_cons, shift]
    simp only [Bool.false_eq_true, if_false]
    congr 1
    funext t
    exact ih (fun q hq => hne q (by simp [hq])) t

/-- What the stages do with a packet that holds an indexed tree. -/
theorem indexed_stages (lib : Lib ℝ ℝ) (s : Settings ℝ) (hdist : lib.dist = vectorsDistance)
    (hcol : s.collapse ≠ "true" ∧ s.collapse ≠ "1") (k : Nat) (hk : 0 < k)
    (w : Work (List ℝ) ℝ) (t : ITree ℝ) (dm0 : List (List ℝ)) (hcx : w.complex = .indexed t dm0)
    (hdim : ∀ p ∈ w.originalData, p.length = k) :
    ∃ ws, fastKinds.foldlM (fun d k => runStages lib s k d) w =
      (do
        let dm := table w.originalData.length (fun i j =>
          if i < j then rowDist k w.originalData i j else 0)
        let t ← ITree.insertN s.eps s.dim dm w.originalData.length t
        let e ← t.getAllEdges lib.isort
        let r ← fastPersistence lib.mode s.dim s.eps e.1 w.bettiOutput w.bettiTable
        pure { w with complex := .indexed e.2 dm, weights := ws, bettiOutput := r.1,
                      bettiTable := r.2 }) := by
  obtain ⟨ws0, h1, -, -⟩ := C11_distance_matrix_euclidean k hk w.originalData hdim s.eps
  obtain ⟨⟨dm, ws⟩, h2, (h3 : dm = _)⟩ := (distMatrixPipe_weights vectorsDistance s.eps w.weights []
    w.originalData).of_ok h1
  have h3 : dm = table w.originalData.length (fun i j =>
      if i < j then rowDist k w.originalData i j else 0) := h3
  refine ⟨ws, ?_⟩
  dsimp only
  rw [← h3]
  unfold fastKinds
  simp only [List.foldlM_cons, List.foldlM_nil]
  have e1 : runStages lib s .distMatrix w =
      .ok { w with complex := .indexed t dm, weights := ws } := by
    unfold runStages; rw [hcx, hdist]; dsimp only; rw [h2]; rfl
  have e2 : runStages lib s .neighGraph { w with complex := .indexed t dm, weights := ws } =
      (ITree.insertN s.eps s.dim dm w.originalData.length t >>= fun t =>
        pure { w with complex := .indexed t dm, weights := ws }) := by
    rw [← neighGraphIndexed_eq _ _ _ _ (rows_ne_nil hk hdim)]
    unfold runStages; rfl
  rw [e1, ok_bind, e2, bind_assoc]
  congr 1
  funext t'
  rw [pure_eq_ok, ok_bind]
  have e3 : runStages lib s .rips { w with complex := .indexed t' dm, weights := ws } =
      .ok { w with complex := .indexed t' dm, weights := ws } := by
    unfold runStages ripsPipeIndexed
    dsimp only
    rw [if_neg (by rintro (c | c); exacts [hcol.1 c, hcol.2 c])]
    rfl
  rw [e3, ok_bind]
  unfold runStages
  dsimp only
  rw [bind_assoc]
  congr 1
  funext e
  rw [bind_assoc]
  congr 1

/-! ### C92 -/

/-- The program on an `indSimplexTree`, when a fourth layer is not needed. -/
theorem main_indexed (sys : System ℝ ℝ) (hdist : sys.lib.dist = vectorsDistance)
    (pairs : List (String × String)) (m : ArgMap) (f : String) (data : List (List ℝ))
    (h : PlainCommand sys pairs m "indSimplexTree" f data)
    (hcol : m.val "collapse" ≠ "true" ∧ m.val "collapse" ≠ "1") (k : Nat) (hk : 0 < k)
    (hdim : ∀ p ∈ data, p.length = k)
    (hsmall : sys.atoi (m.val "dimensions") ≤ 2 ∨ ¬ ∃ s, IsSimplex data.length
      (fun i j => rowDist k data i j < sys.atof (m.val "epsilon")) s ∧ s.length = 4) :
    ∃ g : Graph ℝ, SortedLayers g g ∧ NoEmpty g ∧
      StoresRips g data.length (rowDist k data)
        (fun i j => rowDist k data i j < sys.atof (m.val "epsilon"))
        (max 1 (sys.atoi (m.val "dimensions"))) ∧
      SameRes (fun (w : World (List ℝ) ℝ) (r : List (Line ℝ) × List (BettiEntry ℝ)) =>
          WritesBarcode sys.io f r.1 w)
        (mainProgram sys (commandLine pairs))
        (fastPersistence sys.lib.mode (sys.atoi (m.val "dimensions")) (sys.atof (m.val "epsilon"))
          g [] []) := by
  have hn : data.length ≠ 0 := by simpa using h.rows
  have hne : table data.length (fun i j => if i < j then rowDist k data i j else 0) ≠ [] := by
    apply List.ne_nil_of_length_pos
    simp [table]; omega
  have hdm : ∀ i j, i < j → j < data.length → at2 (table data.length (fun i j =>
      if i < j then rowDist k data i j else 0)) i j = .ok (rowDist k data i j) :=
    fun i j hij hj => at2_table hij hj
  obtain ⟨g, t2, h1, h2, -, h4⟩ := C76_indexed_is_rips_partial (sys.atof (m.val "epsilon"))
    (sys.atoi (m.val "dimensions")) _ (rowDist k data) (fun _ _ => dist_nonneg) sys.lib.isort
    data.length hn hne hdm hsmall
  obtain ⟨t, t', tt, g1, g2, q⟩ := indexed_run (fun _ _ => dist_nonneg) data.length hn hne hdm
    sys.lib.isort hsmall
  obtain ⟨tt', k1, k2, k3, -⟩ := insertNI_rel (D := rowDist k data)
    (eps := sys.atof (m.val "epsilon")) (maxDim := sys.atoi (m.val "dimensions"))
    (fun _ _ => dist_nonneg) data.length (fun _ => hne) hdm
  have hb := h1
  unfold buildIndexed ITree.getAllEdges at hb
  rw [g1, ok_bind, g2, ok_bind] at hb
  have hg : g = shown t'.graph := by
    have := (Except.ok.inj hb)
    exact (congrArg Prod.fst this).symm
  have hnoempty : NoEmpty g := by
    have hle : tt'.weg.length ≤ 3 := by
      by_contra hc
      obtain ⟨q1, q2⟩ := (four_layers k1 k2).1 (by omega)
      rcases hsmall with h | h
      · omega
      · exact h q2
    obtain ⟨t3, r1, r2, r3⟩ := k3 hle
    rw [g1] at r1
    cases r1
    have q' : Queried data.length (rowDist k data) (sys.atof (m.val "epsilon"))
        (sys.atoi (m.val "dimensions")) sys.lib.isort t t' tt' := ⟨k1, r2, q.built⟩
    intro l hl hnil
    rw [hg] at hl
    obtain ⟨i, hi, e⟩ := List.mem_iff_getElem.1 hl
    obtain ⟨p1, p2⟩ := shown_graph q' i
    rw [List.getD_eq_getElem?_getD, List.getElem?_eq_getElem hi, Option.getD_some, e, hnil] at p1
    have hlt : i < tt'.weg.length := by
      by_contra hc
      have := p2.2 (List.getElem?_eq_none (by omega))
      rw [List.getElem?_eq_getElem hi] at this
      cases this
    rw [List.getD_eq_getElem?_getD, List.getElem?_eq_getElem hlt, Option.getD_some] at p1
    exact k2 _ (List.getElem_mem hlt) p1.symm.eq_nil
  refine ⟨g, ?_, hnoempty, h2, ?_⟩
  · unfold SortedLayers
    rw [List.forall₂_same]
    exact fun l hl => ⟨List.Perm.refl _, h4 l hl⟩
  · rw [main_plain sys pairs m _ f data (by decide) h]
    obtain ⟨ws, e⟩ := indexed_stages sys.lib ⟨sys.atof (m.val "epsilon"),
      sys.atoi (m.val "dimensions"), m.val "collapse"⟩ hdist hcol k hk
      ⟨data, data, [], newComplex "indSimplexTree", [], [], []⟩ ITree.fresh [] rfl hdim
    rw [e]
    dsimp only
    unfold buildIndexed at h1
    rw [bind_ok] at h1
    obtain ⟨t1, h5, h6⟩ := h1
    rw [h5, ok_bind, h6, ok_bind]
    cases fastPersistence sys.lib.mode (sys.atoi (m.val "dimensions")) (sys.atof (m.val "epsilon"))
      g [] [] with
    | error e => rfl
    | ok r =>
      show _ = _
      rw [← barcodeText_eq]
      rfl

/-- C92 (partial: the end iterator is read as "not a pivot", see C29; no simplices with four vertices,
see `C92_four_points_violated`): with the complex type `indSimplexTree`, for every input file whose rows
are points of ℝ^k of which some two are closer than `epsilon`, the program ends, having written the
statistics of the four stages and a barcode that describes the Rips filtration of the points. -/
theorem C92_indexed_program_partial (sys : System ℝ ℝ) (hdist : sys.lib.dist = vectorsDistance)
    (hread : sys.lib.mode = .noPivot) (pairs : List (String × String)) (m : ArgMap) (f : String)
    (data : List (List ℝ)) (h : PlainCommand sys pairs m "indSimplexTree" f data)
    (hcol : m.val "collapse" ≠ "true" ∧ m.val "collapse" ≠ "1")
    (k : Nat) (hk : 0 < k) (hdim : ∀ p ∈ data, p.length = k)
    (hsmall : sys.atoi (m.val "dimensions") ≤ 2 ∨ ¬ ∃ s, IsSimplex data.length
      (fun i j => rowDist k data i j < sys.atof (m.val "epsilon")) s ∧ s.length = 4)
    (hedge : ∃ i j, i < j ∧ j < data.length ∧ rowDist k data i j < sys.atof (m.val "epsilon")) :
    ∃ w lines, mainProgram sys (commandLine pairs) = .ok w ∧ WritesBarcode sys.io f lines w ∧
      DescribesRips data.length (rowDist k data) (· < sys.atof (m.val "epsilon"))
        (sys.atof (m.val "epsilon")) (sys.atoi (m.val "dimensions")) lines := by
  obtain ⟨g, h1, -, h3, h4⟩ := main_indexed sys hdist pairs m f data h hcol k hk hdim hsmall
  have hlen := rips_two_layers h3 (by omega) h1 hedge
  rw [hread] at h4
  rcases C25_terminates .noPivot (sys.atoi (m.val "dimensions")) (sys.atof (m.val "epsilon"))
    (filtered_of_rips h3 h1) hlen [] [] with ⟨⟨lines, T⟩, h5⟩ | h5
  · obtain ⟨w, h6, h7⟩ := h4.of_ok h5
    exact ⟨w, lines, h6, h7, describes_of_rips h3 (by omega) (by omega) (fun _ _ => dist_nonneg) h1
      hedge (fun h => by cases h) _ (fun t ht i j hij => lt_of_le_of_lt hij ht) (fun _ _ hij => hij) h5⟩
  · exact absurd h5.1 (by simp)

/-- C92: the code as written: a program that ends has written the barcode; the only other outcome is
the undefined read. -/
theorem C92_indexed_program_or_undefined (sys : System ℝ ℝ) (hdist : sys.lib.dist = vectorsDistance)
    (hread : sys.lib.mode = .undefined) (pairs : List (String × String)) (m : ArgMap) (f : String)
    (data : List (List ℝ)) (h : PlainCommand sys pairs m "indSimplexTree" f data)
    (hcol : m.val "collapse" ≠ "true" ∧ m.val "collapse" ≠ "1")
    (k : Nat) (hk : 0 < k) (hdim : ∀ p ∈ data, p.length = k)
    (hsmall : sys.atoi (m.val "dimensions") ≤ 2 ∨ ¬ ∃ s, IsSimplex data.length
      (fun i j => rowDist k data i j < sys.atof (m.val "epsilon")) s ∧ s.length = 4)
    (hedge : ∃ i j, i < j ∧ j < data.length ∧ rowDist k data i j < sys.atof (m.val "epsilon")) :
    mainProgram sys (commandLine pairs) = .error .endDeref ∨
    ∃ w lines, mainProgram sys (commandLine pairs) = .ok w ∧ WritesBarcode sys.io f lines w ∧
      DescribesRips data.length (rowDist k data) (· < sys.atof (m.val "epsilon"))
        (sys.atof (m.val "epsilon")) (sys.atoi (m.val "dimensions")) lines := by
  obtain ⟨g, h1, -, h3, h4⟩ := main_indexed sys hdist pairs m f data h hcol k hk hdim hsmall
  have hlen := rips_two_layers h3 (by omega) h1 hedge
  rw [hread] at h4
  rcases C25_terminates .undefined (sys.atoi (m.val "dimensions")) (sys.atof (m.val "epsilon"))
    (filtered_of_rips h3 h1) hlen [] [] with ⟨⟨lines, T⟩, h5⟩ | h5
  · obtain ⟨w, h6, h7⟩ := h4.of_ok h5
    exact Or.inr ⟨w, lines, h6, h7, describes_of_rips h3 (by omega) (by omega)
      (fun _ _ => dist_nonneg) h1 hedge (fun h => by cases h) _
      (fun t ht i j hij => lt_of_le_of_lt hij ht) (fun _ _ hij => hij) h5⟩
  · exact Or.inl (h4.error_of h5.2)

/-- C92, with `dimensions` at most 1 (the default): nothing is assumed about reading past the end, nor
about the points. -/
theorem C92_indexed_program_default (sys : System ℝ ℝ) (hdist : sys.lib.dist = vectorsDistance)
    (pairs : List (String × String)) (m : ArgMap) (f : String)
    (data : List (List ℝ)) (h : PlainCommand sys pairs m "indSimplexTree" f data)
    (hcol : m.val "collapse" ≠ "true" ∧ m.val "collapse" ≠ "1")
    (hd : sys.atoi (m.val "dimensions") ≤ 1)
    (k : Nat) (hk : 0 < k) (hdim : ∀ p ∈ data, p.length = k)
    (hedge : ∃ i j, i < j ∧ j < data.length ∧ rowDist k data i j < sys.atof (m.val "epsilon")) :
    ∃ w lines, mainProgram sys (commandLine pairs) = .ok w ∧ WritesBarcode sys.io f lines w ∧
      (∀ l ∈ lines, l.1 = 0) ∧
      DescribesRips data.length (rowDist k data) (· < sys.atof (m.val "epsilon"))
        (sys.atof (m.val "epsilon")) (sys.atoi (m.val "dimensions")) lines := by
  obtain ⟨g, h1, -, h3, h4⟩ := main_indexed sys hdist pairs m f data h hcol k hk hdim
    (Or.inl (by omega))
  have hlen := rips_two_layers h3 (by omega) h1 hedge
  have hF := filtered_of_rips h3 h1
  have hsome : ∃ r, fastPersistence sys.lib.mode (sys.atoi (m.val "dimensions"))
      (sys.atof (m.val "epsilon")) g [] [] = .ok r := by
    rcases C25_terminates sys.lib.mode (sys.atoi (m.val "dimensions")) (sys.atof (m.val "epsilon"))
      hF hlen [] [] with h | ⟨hm, -⟩
    · exact h
    · rw [hm, (fast_undefined _ _ hF hlen [] []).1 (fun k h1 h2 => by omega)]
      rcases C25_terminates .noPivot (sys.atoi (m.val "dimensions")) (sys.atof (m.val "epsilon"))
        hF hlen [] [] with h | ⟨h, -⟩
      · exact h
      · cases h
  obtain ⟨⟨lines, T⟩, h5⟩ := hsome
  obtain ⟨w, h6, h7⟩ := h4.of_ok h5
  have hdesc := describes_of_rips h3 (by omega) (by omega) (fun _ _ => dist_nonneg) h1 hedge
    (fun _ k h1 h2 => by omega) (· < sys.atof (m.val "epsilon"))
    (fun t ht i j hij => lt_of_le_of_lt hij ht) (fun _ _ hij => hij) h5
  refine ⟨w, lines, h6, h7, fun l hl => ?_, hdesc⟩
  rcases hdesc.only l hl with h | h
  · exact h
  · omega

/-- C92 is violated when `dimensions` is at least 3: as soon as four points are close to each other, the
program writes past the end of a vector with three entries. -/
theorem C92_four_points_violated (sys : System ℝ ℝ) (hdist : sys.lib.dist = vectorsDistance)
    (pairs : List (String × String)) (m : ArgMap) (f : String)
    (data : List (List ℝ)) (h : PlainCommand sys pairs m "indSimplexTree" f data)
    (hcol : m.val "collapse" ≠ "true" ∧ m.val "collapse" ≠ "1")
    (k : Nat) (hk : 0 < k) (hdim : ∀ p ∈ data, p.length = k)
    (hd : 3 ≤ sys.atoi (m.val "dimensions"))
    (h4 : ∃ s, IsSimplex data.length
      (fun i j => rowDist k data i j < sys.atof (m.val "epsilon")) s ∧ s.length = 4) :
    mainProgram sys (commandLine pairs) = .error .oob := by
  have hn : data.length ≠ 0 := by simpa using h.rows
  have hne : table data.length (fun i j => if i < j then rowDist k data i j else 0) ≠ [] := by
    apply List.ne_nil_of_length_pos
    simp [table]; omega
  rw [main_plain sys pairs m _ f data (by decide) h]
  obtain ⟨ws, e⟩ := indexed_stages sys.lib ⟨sys.atof (m.val "epsilon"),
    sys.atoi (m.val "dimensions"), m.val "collapse"⟩ hdist hcol k hk
    ⟨data, data, [], newComplex "indSimplexTree", [], [], []⟩ ITree.fresh [] rfl hdim
  rw [e]
  dsimp only
  rw [C76_four_points_violated _ _ _ (rowDist k data) (fun _ _ => dist_nonneg) data.length hne
    (fun i j hij hj => at2_table hij hj) hd h4]
  rfl

/-- C92 is violated when no two points are closer than `epsilon`: the program reads past the end of a
vector, and nothing is written. -/
theorem C92_no_close_pair_violated (sys : System ℝ ℝ) (hdist : sys.lib.dist = vectorsDistance)
    (pairs : List (String × String)) (m : ArgMap) (f : String)
    (data : List (List ℝ)) (h : PlainCommand sys pairs m "indSimplexTree" f data)
    (hcol : m.val "collapse" ≠ "true" ∧ m.val "collapse" ≠ "1")
    (k : Nat) (hk : 0 < k) (hdim : ∀ p ∈ data, p.length = k)
    (hfar : ∀ i j, i < j → j < data.length → sys.atof (m.val "epsilon") ≤ rowDist k data i j) :
    mainProgram sys (commandLine pairs) = .error .oob := by
  obtain ⟨g, h1, h2, h3, h4⟩ := main_indexed sys hdist pairs m f data h hcol k hk hdim (by
    right
    rintro ⟨s, hs, hl⟩
    match s, hl with
    | [a, b, c, d], _ =>
      have hab : a < b := by
        have := hs.2.1
        simp only [List.pairwise_cons] at this
        exact this.1 b (by simp)
      exact absurd (hs.2.2.2 a (by simp) b (by simp) hab)
        (not_lt.2 (hfar a b hab (hs.2.2.1 b (by simp)))))
  have hl := rips_one_layer h3 (List.length_pos_of_ne_nil h.rows) h2
    (fun i j hij hj => not_lt.2 (hfar i j hij hj))
  obtain ⟨v, rfl⟩ := List.length_eq_one_iff.1 hl
  exact h4.error_of (C55_no_edges_out_of_range _ _ _ v [] [])

/-! ### C93 -/

/-- Points have been inserted. -/
def ITree.Live {W : Type} (t : ITree W) : Prop := t.roots ≠ .nil ∧ 1 ≤ t.indexCounter

theorem insertI_live {W : Type} [LinearOrder W] [Zero W] {eps : W} {dim : Nat} {dm : List (List W)}
    {t t' : ITree W} (hne : dm ≠ []) (h : t.insert eps dim dm = .ok t') :
    t'.roots ≠ .nil ∧ t'.indexCounter = t.indexCounter + 1 := by
  unfold ITree.insert at h
  rw [if_neg (by simpa using hne)] at h
  split at h
  · rw [bind_ok] at h
    obtain ⟨c, -, h⟩ := h
    rw [pure_eq_ok] at h
    cases h
    exact ⟨by simp, rfl⟩
  · rw [bind_ok] at h
    obtain ⟨⟨roots, st⟩, -, h⟩ := h
    rw [bind_ok] at h
    obtain ⟨dims, -, h⟩ := h
    rw [bind_ok] at h
    obtain ⟨c, -, h⟩ := h
    rw [pure_eq_ok] at h
    cases h
    refine ⟨?_, rfl⟩
    cases roots <;> simp [appendRootI]

theorem insertNI_live {W : Type} [LinearOrder W] [Zero W] {eps : W} {dim : Nat} {dm : List (List W)}
    {t t' : ITree W} (hne : dm ≠ []) (n : Nat) (h : ITree.insertN eps dim dm n t = .ok t') :
    t'.indexCounter = t.indexCounter + n ∧ (n ≠ 0 ∨ t.roots ≠ .nil → t'.roots ≠ .nil) := by
  induction n generalizing t' with
  | zero =>
    rw [ITree.insertN, pure_eq_ok] at h
    cases h
    exact ⟨rfl, fun h => h.resolve_left (by simp)⟩
  | succ n ih =>
    rw [ITree.insertN, bind_ok] at h
    obtain ⟨t1, h1, h2⟩ := h
    obtain ⟨h3, h4⟩ := insertI_live hne h2
    exact ⟨by rw [h4, (ih h1).1]; rfl, fun _ => h3⟩

/-- A second load of points reads past the end of the rows of its distance matrix. -/
theorem insertNI_again {W : Type} [LinearOrder W] [Zero W] {eps : W} {dim n : Nat}
    (D : Nat → Nat → W) {t : ITree W} (ht : t.Live) (hn : n ≠ 0) (t' : ITree W) :
    ITree.insertN eps dim (table n D) n t ≠ .ok t' := by
  obtain ⟨m, rfl⟩ := Nat.exists_eq_succ_of_ne_zero hn
  have hne : table (m + 1) D ≠ [] := by
    apply List.ne_nil_of_length_pos
    simp [table]
  intro h
  rw [ITree.insertN, bind_ok] at h
  obtain ⟨t1, h1, h2⟩ := h
  obtain ⟨h3, h4⟩ := insertNI_live hne m h1
  have h4 := h4 (Or.inr ht.1)
  unfold ITree.insert at h2
  rw [if_neg (by simpa using hne)] at h2
  split at h2
  · rename_i hr
    exact h4 hr
  · rw [bind_ok] at h2
    obtain ⟨r, h5, -⟩ := h2
    unfold recurseInsertI at h5
    dsimp only at h5
    rw [bind_ok] at h5
    obtain ⟨d, h6, -⟩ := h5
    unfold at2 at h6
    rw [bind_ok] at h6
    obtain ⟨row, h7, h8⟩ := h6
    rw [vget_ok] at h7 h8
    have hlen : row.length = m + 1 := by
      have := List.mem_of_getElem? h7
      unfold table at this
      obtain ⟨i, -, rfl⟩ := List.mem_map.1 this
      simp
    have := (List.getElem?_eq_some_iff.1 h8).1
    have := ht.2
    omega

theorem getAllEdges_live {W : Type} [LinearOrder W] {sort : SortBySecond (Nat × List Nat) W}
    {t : ITree W} {r : Graph W × ITree W} (h : t.getAllEdges sort = .ok r) (ht : t.Live) : r.2.Live := by
  unfold ITree.getAllEdges at h
  rw [bind_ok] at h
  obtain ⟨⟨g, t1⟩, h1, h2⟩ := h
  cases h2
  unfold ITree.getIndexEdges at h1
  split at h1
  · rw [pure_eq_ok] at h1; cases h1; exact ht
  · split at h1
    · rw [pure_eq_ok] at h1; cases h1; exact ht
    · rw [bind_ok] at h1
      obtain ⟨t2, h3, h4⟩ := h1
      rw [pure_eq_ok] at h4
      cases h4
      unfold ITree.sortAndBuildGraph at h3
      split at h3
      · cases h3
      · rw [bind_ok] at h3
        obtain ⟨x, -, h5⟩ := h3
        rw [pure_eq_ok] at h5
        cases h5
        exact ht

/-- A run of the pipeline on a packet with an indexed tree: if it ends, the tree had no points before. -/
theorem run_indexed (io : TextNum ℝ) (lib : Lib ℝ ℝ) (s : Settings ℝ)
    (hdist : lib.dist = vectorsDistance)
    (hcol : s.collapse ≠ "true" ∧ s.collapse ≠ "1") (k : Nat) (hk : 0 < k) (args : ArgMap)
    (hpl : args "pipeline" = some (pipelineOf fastStages))
    (hcfg : ∀ k, configPipe k args = true)
    (w w' : World (List ℝ) ℝ) (hc : w.packet.hasComplex = true) (t : ITree ℝ) (dm0 : List (List ℝ))
    (hcx : w.packet.data.complex = .indexed t dm0)
    (hdim : ∀ p ∈ w.packet.data.originalData, p.length = k) (hne : w.packet.data.originalData ≠ [])
    (h : runPipelineOut io (runStages lib s) args w = .ok w') :
    ¬ t.Live ∧ w'.packet.hasComplex = true ∧
      ∃ t' dm, w'.packet.data.complex = .indexed t' dm ∧ t'.Live := by
  have hen : fastStages.filterMap (enabledStage args) = fastKinds := by
    have : ∀ s k, newPipe s (args.val "complexType") = some k → enabledStage args s = some k := by
      intro s k h
      unfold enabledStage
      rw [h, Option.filter_some, if_pos (hcfg k)]
    unfold fastStages fastKinds
    simp only [List.filterMap_cons, List.filterMap_nil]
    rw [this "distMatrix" .distMatrix (by simp [newPipe]),
      this "neighGraph" .neighGraph (by simp [newPipe]),
      this "rips" .rips (by simp [newPipe]),
      this "fastPersistence" .fastPersistence (by simp [newPipe])]
  unfold runPipelineOut at h
  rw [hpl] at h
  dsimp only at h
  obtain ⟨ws, e⟩ := indexed_stages lib s hdist hcol k hk w.packet.data t dm0 hcx hdim
  rw [C39_runs_components_in_order _ _ _ fastStages (by decide) (by decide) hpl, hen,
    fold_wrappers _ _ _ hc, e] at h
  dsimp only at h
  rw [bind_ok] at h
  obtain ⟨p, h, hp⟩ := h
  rw [pure_eq_ok] at hp
  cases hp
  rw [bind_ok] at h
  obtain ⟨d, h, hd⟩ := h
  rw [pure_eq_ok] at hd
  cases hd
  rw [bind_ok] at h
  obtain ⟨t1, h1, h⟩ := h
  rw [bind_ok] at h
  obtain ⟨r, h2, h⟩ := h
  rw [bind_ok] at h
  obtain ⟨l, -, h⟩ := h
  rw [pure_eq_ok] at h
  cases h
  have hn : w.packet.data.originalData.length ≠ 0 := by simpa using hne
  have htn : table w.packet.data.originalData.length (fun i j =>
      if i < j then rowDist k w.packet.data.originalData i j else 0) ≠ [] := by
    apply List.ne_nil_of_length_pos
    simp [table]; omega
  refine ⟨fun ht => insertNI_again _ ht hn _ h1, rfl, _, _, rfl, getAllEdges_live h2 ?_⟩
  obtain ⟨h3, h4⟩ := insertNI_live htn _ h1
  exact ⟨h4 (Or.inl hn), by omega⟩

/-- After the runs on the first `n` clouds the tree holds points, if one of the clouds does. -/
theorem runs_indexed (io : TextNum ℝ) (lib : Lib ℝ ℝ) (s : Settings ℝ)
    (hdist : lib.dist = vectorsDistance)
    (hcol : s.collapse ≠ "true" ∧ s.collapse ≠ "1") (k : Nat) (hk : 0 < k) (args : ArgMap)
    (hpl : args "pipeline" = some (pipelineOf fastStages))
    (hcfg : ∀ k, configPipe k args = true) (strict : Bool) (p : Packet (Work (List ℝ) ℝ))
    (hpc : p.hasComplex = true ∧ p.data.complex = .indexed ITree.fresh [])
    (parts : List (List Nat)) (clouds : List (List (List ℝ)))
    (hrows : ∀ c ∈ clouds, ∀ q ∈ c, q.length = k) (n : Nat) (hn : n ≤ clouds.length)
    (st : World (List ℝ) ℝ × List (BettiEntry ℝ))
    (hst : (List.range n).foldlM (reducedStep strict (runPipelineOut io (runStages lib s) args)
        (parts, clouds)) (⟨p, []⟩, []) = .ok st) :
    st.1.packet.hasComplex = true ∧ ∃ t dm, st.1.packet.data.complex = .indexed t dm ∧
      ((∃ c ∈ clouds.take n, c ≠ []) → t.Live) := by
  revert hn st
  induction n with
  | zero =>
    intro _ st hst
    rw [List.range_zero, List.foldlM_nil, pure_eq_ok] at hst
    cases hst
    exact ⟨hpc.1, _, _, hpc.2, by simp⟩
  | succ n ih =>
    intro hn st hst
    rw [List.range_succ, List.foldlM_append, bind_ok] at hst
    obtain ⟨a, ha, hst⟩ := hst
    obtain ⟨g1, t, dm, g2, g3⟩ := ih (by omega) a ha
    simp only [List.foldlM_cons, List.foldlM_nil, bind_pure] at hst
    unfold reducedStep at hst
    rw [bind_ok] at hst
    obtain ⟨pts, hpts, hst⟩ := hst
    rw [vget_ok] at hpts
    dsimp only at hpts
    have hmem := List.mem_of_getElem? hpts
    rw [List.take_add_one, hpts]
    split at hst
    · rename_i hpos
      rw [bind_ok] at hst
      obtain ⟨b, hb, hst⟩ := hst
      obtain ⟨-, g4, t', dm', g5, g6⟩ := run_indexed io lib s hdist hcol k hk args hpl hcfg
          (a.1.mapWork (fun d => { d with originalData := pts })) b
        g1 t dm g2 (hrows pts hmem) (List.ne_nil_of_length_pos hpos) hb
      rw [bind_ok] at hst
      obtain ⟨c, hc, hst⟩ := hst
      unfold clearComplex at hc
      rw [if_pos g4, g5] at hc
      dsimp only at hc
      rw [pure_eq_ok] at hc
      cases hc
      rw [bind_ok] at hst
      obtain ⟨labels, -, hst⟩ := hst
      rw [bind_ok] at hst
      obtain ⟨table, -, hst⟩ := hst
      rw [pure_eq_ok] at hst
      cases hst
      exact ⟨g4, t', dm', g5, fun _ => g6⟩
    · rename_i hpos
      rw [pure_eq_ok] at hst
      cases hst
      have : pts = [] := by simpa using hpos
      refine ⟨g1, t, dm, g2, ?_⟩
      rintro ⟨c, hc, hcn⟩
      rcases List.mem_append.1 hc with hc | hc
      · exact g3 ⟨c, hc, hcn⟩
      · simp only [Option.toList_some, List.mem_singleton] at hc
        exact absurd (hc.trans this) hcn

/-- C93 is violated by the complex type `indSimplexTree`: its `clear` does nothing, so the second run of
the pipeline adds its points to those of the first and reads past the end of the rows of its own distance
matrix. In the mode "reduced", as soon as there are two clouds to run on, for example one partition and
the centroids, the program has no defined end. -/
theorem C93_second_run_violated (sys : System ℝ ℝ) (hdist : sys.lib.dist = vectorsDistance)
    (pairs : List (String × String)) (m : ArgMap) (hm : parseArgs (commandLine pairs) = .ok m)
    (hmpi : m.val "mpi" ≠ "1")
    (hp : m.val "pipeline" = "distMatrix.neighGraph.rips.fastPersistence")
    (hmode : m.val "mode" = "reduced") (hup : m.val "upscale" ≠ "true")
    (hcol : m.val "collapse" ≠ "true" ∧ m.val "collapse" ≠ "1")
    (data : List (List ℝ)) (hread : readCSV sys.inIO (sys.files (m.val "inputFile")) = .ok data)
    (hne : data ≠ []) (p : Packet (Work (List ℝ) ℝ))
    (hpre : preprocess (sys.pre (setPipeline m)) (setPipeline m) (initialPacket (setPipeline m) data)
      = .ok p) (hpc : p.hasComplex = true ∧ p.data.complex = .indexed ITree.fresh [])
    (k : Nat) (hk : 0 < k) (hcd : ∀ q ∈ p.data.originalData, q.length = k)
    (hfd : ∀ q ∈ p.data.fullData, q.length = k) (r : ℝ)
    (hr : computeMaxRadius vectorsDistance p.data.originalData p.data.fullData p.data.labels = .ok r)
    (htwo : 2 ≤ (reducedClouds k r p).length) (w : World (List ℝ) ℝ) :
    mainProgram sys (commandLine pairs) ≠ .ok w := by
  have hpe : m.val "pipeline" ≠ "" := by rw [hp]; decide
  have q := C38_explicit_pipeline_kept_partial m hmpi hpe
  have hsome : ∀ o ∈ options, ((setPipeline m) o.1).isSome :=
    fun o ho => setPipeline_isSome m _ (parse_isSome pairs m hm o ho)
  have heps : ((setPipeline m) "epsilon").isSome := hsome ("epsilon", "e", "5") (by decide)
  have hdim : ((setPipeline m) "dimensions").isSome := hsome ("dimensions", "d", "1") (by decide)
  have htw : ((setPipeline m) "twist").isSome := hsome ("twist", "t", "false") (by decide)
  have hpl : ((setPipeline m) "pipeline").isSome := hsome ("pipeline", "p", "") (by decide)
  have hout : ((setPipeline m) "outputFile").isSome :=
    hsome ("outputFile", "o", "output.csv") (by decide)
  have hcfg : ∀ k, configPipe k (setPipeline m) = true := by
    intro k
    unfold configPipe
    cases k <;> simp [requiredKeys, heps, hdim, htw]
  have hpl' : (setPipeline m) "pipeline" = some (pipelineOf fastStages) :=
    some_of_val hpl (by rw [q, hp]; decide)
  intro h
  unfold mainProgram at h
  rw [hm, ok_bind] at h
  dsimp only at h
  rw [if_pos (by rw [q, hp]; decide), q "inputFile", hread, ok_bind] at h
  unfold dispatch at h
  rw [if_pos (by exact Or.inl (List.length_pos_of_ne_nil hne)), if_neg (by rw [q]; exact hup),
    if_pos (by rw [q]; exact hmode)] at h
  unfold processReduced at h
  unfold initialPacket at hpre
  rw [hpre, ok_bind, bind_ok, q "epsilon", q "dimensions", q "collapse"] at h
  obtain ⟨res, h, -⟩ := h
  have hl : p.data.labels.length ≤ p.data.fullData.length := by
    by_contra hcc
    obtain ⟨⟨-, hb⟩, -⟩ := C07_max_radius _ _ _ _ _ hr
    obtain ⟨p, c, x, hp, -⟩ := hb p.data.fullData.length (by omega)
    simp at hp
  obtain ⟨parts, hparts, -⟩ := clouds_eq k (2 * r) p.data.originalData p.data.fullData
    p.data.labels hcd hfd hl
  unfold reducedRuns at h
  dsimp only at h
  rw [hdist, hr, ok_bind, ← two_mul, hparts, ok_bind] at h
  dsimp only at h
  have hrows : ∀ c ∈ p.data.originalData.map
      (cloud k (2 * r) p.data.fullData p.data.labels.length), ∀ q ∈ c, q.length = k := by
    intro c hc q hq
    obtain ⟨x, -, rfl⟩ := List.mem_map.1 hc
    unfold cloud at hq
    exact hfd q (List.mem_of_mem_take (List.mem_filter.1 hq).1)
  have hcen : p.data.originalData ≠ [] := by
    intro hcc
    unfold reducedClouds at htwo
    rw [hcc] at htwo
    simp at htwo
  have hex : ∃ c ∈ p.data.originalData.map
      (cloud k (2 * r) p.data.fullData p.data.labels.length), c ≠ [] := by
    by_contra hcc
    push Not at hcc
    unfold reducedClouds at htwo
    rw [List.filter_append, List.filter_eq_nil_iff.2 (by simpa using hcc)] at htwo
    have := (List.length_filter_le (fun c => decide (c ≠ [])) [p.data.originalData]).trans
      (le_refl 1)
    rw [List.nil_append] at htwo
    have hh : (List.filter (fun c => decide (c ≠ [])) [p.data.originalData]).length ≤ 1 := by
      exact (List.length_filter_le _ _).trans (by simp)
    omega
  generalize p.data.originalData.map
      (cloud k (2 * r) p.data.fullData p.data.labels.length) = clouds at *
  rw [bind_ok] at h
  obtain ⟨st, h1, h⟩ := h
  rw [if_pos (List.length_pos_of_ne_nil hcen), bind_ok] at h
  obtain ⟨w1, h2, -⟩ := h
  obtain ⟨g1, t, dm, g2, g3⟩ := runs_indexed sys.io sys.lib _ hdist hcol k hk _ hpl' hcfg sys.strict p
    hpc parts clouds hrows clouds.length le_rfl st h1
  rw [List.take_length] at g3
  exact (run_indexed sys.io sys.lib _ hdist hcol k hk _ hpl' hcfg
    (st.1.mapWork (fun d => { d with originalData := p.data.originalData })) w1 g1 t dm g2 hcd hcen h2).1
    (g3 hex)

/-! ### Examples -/

/-- The hypotheses of C92 on the command line: the defaults, two dimensions, three dimensions. -/
example : ∀ d ∈ ["1", "2", "3"], ∃ m, PlainCommand (realSystem [] [] "00\n03\n04\n02\n09")
    [("-i", "data.csv"), ("-o", "bars"), ("-c", "indSimplexTree"), ("-d", d)] m
    "indSimplexTree" "bars" [[((0 : Nat) : ℝ)], [((3 : Nat) : ℝ)], [((4 : Nat) : ℝ)],
      [((2 : Nat) : ℝ)], [((9 : Nat) : ℝ)]] ∧
    m.val "collapse" ≠ "true" ∧ m.val "collapse" ≠ "1" ∧ m.val "dimensions" = d := by
  intro d hd
  simp only [List.mem_cons, List.not_mem_nil, or_false] at hd
  rcases hd with rfl | rfl | rfl <;>
  exact ⟨_, ⟨rfl, by decide, by decide, Or.inl (by decide), by decide, by decide, by decide, by decide,
    by decide, rfl, by simp⟩, by decide, by decide, by decide⟩

/-- The distance of two points on the line. -/
theorem rowDist_line (data : List (List ℝ)) (i j : Nat) (x y : ℝ) (hi : data.getD i [] = [x])
    (hj : data.getD j [] = [y]) : rowDist 1 data i j = |x - y| := by
  unfold rowDist
  rw [hi, hj]
  have h := C10_distance_is_euclidean (k := 1) [x] [y] rfl rfl
  have h' : vectorsDistance [x] [y] = .ok |x - y| := by
    simp only [vectorsDistance, sqDistance, sqDiffs]
    simp [← pow_two, Real.sqrt_sq_eq_abs]
  rw [h'] at h
  exact (Except.ok.inj h).symm

/-- Four of the five points of the example are closer than 5 to each other. -/
example : ∃ s, IsSimplex 5 (fun i j => rowDist 1 [[((0 : Nat) : ℝ)], [((3 : Nat) : ℝ)],
    [((4 : Nat) : ℝ)], [((2 : Nat) : ℝ)], [((9 : Nat) : ℝ)]] i j < 5) s ∧ s.length = 4 := by
  refine ⟨[0, 1, 2, 3], ⟨by simp, by decide, by decide, ?_⟩, rfl⟩
  intro i hi j hj hij
  have hx : ∀ i ∈ [0, 1, 2, 3], ∃ x : ℝ, ([[((0 : Nat) : ℝ)], [((3 : Nat) : ℝ)],
      [((4 : Nat) : ℝ)], [((2 : Nat) : ℝ)], [((9 : Nat) : ℝ)]] : List (List ℝ)).getD i [] = [x] ∧
      0 ≤ x ∧ x ≤ 4 := by
    intro i hi
    simp only [List.mem_cons, List.not_mem_nil, or_false] at hi
    rcases hi with rfl | rfl | rfl | rfl
    · exact ⟨_, rfl, by norm_num, by norm_num⟩
    · exact ⟨_, rfl, by norm_num, by norm_num⟩
    · exact ⟨_, rfl, by norm_num, by norm_num⟩
    · exact ⟨_, rfl, by norm_num, by norm_num⟩
  obtain ⟨x, h1, h2, h3⟩ := hx i hi
  obtain ⟨y, h4, h5, h6⟩ := hx j hj
  show rowDist 1 _ i j < 5
  rw [rowDist_line _ i j x y h1 h4, abs_lt]
  constructor <;> linarith

/-- A run with an `indSimplexTree` that gets to its end, and, with the mode "reduced", one that does
not: there are two partitions and the centroids to run on. -/
example :
    let sys := lineSystem [[11], [203]] [0, 0, 1, 1, 1] "10\n12\n200\n206\n202\n201"
    (mainProgram sys ["-c", "indSimplexTree"]).toOption.map (fun w => barcodeFiles "output.csv" w)
      = some [.text (barcodeText sys.io [(0, 0, 1), (0, 0, 1), (0, 0, 2), (0, 0, 4), (0, 0, 188),
          (0, 0, 500)])] ∧
    (mainProgram sys ["-m", "reduced", "-p", "distMatrix.neighGraph.rips.fastPersistence",
      "-c", "indSimplexTree", "-pre", "kmeans++"] matches .error .oob) := by
  decide +kernel

/-- The hypotheses of C93: three rows, one cluster with the centroid 1, two labels. -/
example : ∃ (sys : System ℝ ℝ) (m : ArgMap) (p : Packet (Work (List ℝ) ℝ)),
    parseArgs (commandLine [("-m", "reduced"), ("-p", "distMatrix.neighGraph.rips.fastPersistence"),
      ("-c", "indSimplexTree"), ("-pre", "kmeans")]) = .ok m ∧ m.val "mpi" ≠ "1" ∧
    m.val "pipeline" = "distMatrix.neighGraph.rips.fastPersistence" ∧ m.val "mode" = "reduced" ∧
    m.val "upscale" ≠ "true" ∧ m.val "collapse" ≠ "true" ∧ m.val "collapse" ≠ "1" ∧
    readCSV sys.inIO (sys.files (m.val "inputFile")) =
      .ok [[((0 : Nat) : ℝ)], [((2 : Nat) : ℝ)], [((1 : Nat) : ℝ)]] ∧
    preprocess (sys.pre (setPipeline m)) (setPipeline m) (initialPacket (setPipeline m)
      [[((0 : Nat) : ℝ)], [((2 : Nat) : ℝ)], [((1 : Nat) : ℝ)]]) = .ok p ∧
    p.hasComplex = true ∧ p.data.complex = .indexed ITree.fresh [] ∧
    computeMaxRadius vectorsDistance p.data.originalData p.data.fullData p.data.labels = .ok 1 ∧
    2 ≤ (reducedClouds 1 1 p).length := by
  have h1 : vectorsDistance [(0 : ℝ)] [1] = .ok 1 := by
    simp [vectorsDistance, sqDistance, sqDiffs]
  have h2 : vectorsDistance [(2 : ℝ)] [1] = .ok 1 := by
    simp [vectorsDistance, sqDistance, sqDiffs]; norm_num
  refine ⟨realSystem [[1]] [0, 0] "00\n02\n01", _,
    ⟨["k-means++"], true, ⟨[[1]], [[((0 : Nat) : ℝ)], [((2 : Nat) : ℝ)], [((1 : Nat) : ℝ)]], [0, 0],
      .indexed ITree.fresh [], [], [], []⟩⟩, rfl, by decide, by decide, by decide, by decide, by decide,
      by decide, rfl, rfl, rfl, rfl, ?_, ?_⟩
  · simp [computeMaxRadius, vget, h1, h2, List.range_succ, pure_eq_ok]
  · have hd : dist (point 1 [((0 : Nat) : ℝ)]) (point 1 [(1 : ℝ)]) < 2 * 1 := by
      have := rowDist_line [[((0 : Nat) : ℝ)], [1]] 0 1 _ _ rfl rfl
      unfold rowDist at this
      rw [show [[((0 : Nat) : ℝ)], [1]].getD 0 [] = [((0 : Nat) : ℝ)] from rfl,
        show [[((0 : Nat) : ℝ)], [1]].getD 1 [] = [(1 : ℝ)] from rfl] at this
      rw [this]
      norm_num
    unfold reducedClouds
    dsimp only
    have hne : cloud 1 (2 * 1) [[((0 : Nat) : ℝ)], [((2 : Nat) : ℝ)], [((1 : Nat) : ℝ)]] 2 [1] ≠ [] := by
      unfold cloud
      apply List.ne_nil_of_mem (a := [((0 : Nat) : ℝ)])
      rw [List.mem_filter]
      exact ⟨by simp, by simpa using hd⟩
    rw [List.map_cons, List.map_nil, List.singleton_append,
      List.filter_cons_of_pos (by simpa using hne), List.filter_cons_of_pos (by simp)]
    simp

end LHF
