import Verif.Lemmas.StandardRun

/-! C70, C71: the whole default pipeline, from the points to the printed barcode. -/

namespace LHF
open Spec

/-- The points of ℝ^k held by the rows of the data, as a distance on indices. -/
noncomputable def Spec.rowDist (k : Nat) (data : List (List ℝ)) (i j : Nat) : ℝ :=
  dist (Spec.point k (data.getD i [])) (Spec.point k (data.getD j []))

theorem at2_table {n : Nat} {d : Nat → Nat → ℝ} {i j : Nat} (hij : i < j) (hj : j < n) :
    at2 (table n (fun i j => if i < j then d i j else 0)) i j = .ok (d i j) := by
  have hi : i < n := by omega
  unfold at2
  have e : vget (table n (fun i j => if i < j then d i j else 0)) i =
      .ok ((List.range n).map (fun j => if i < j then d i j else 0)) := by
    rw [vget_ok]; simp [table, hi]
  rw [e, ok_bind, vget_ok]
  simp [hj, hij]

theorem rows_ne_nil {k : Nat} (hk : 0 < k) {data : List (List ℝ)}
    (hdim : ∀ p ∈ data, p.length = k) : ∀ p ∈ data, p ≠ [] := by
  intro p hp h
  have := hdim p hp
  rw [h] at this
  simp at this
  omega

/-! ### C70 -/

/-- The tree that the first pipes build. -/
theorem tree_built (sort : SortBySecond (List Nat) ℝ) (mode : EndRead) (eps : ℝ) (dim : Nat)
    (k : Nat) (hk : 0 < k) (data : List (List ℝ)) (hdim : ∀ p ∈ data, p.length = k) :
    ∃ (g edges : List (List (List Nat × ℝ))),
      treeRun vectorsDistance sort mode eps dim data = fastPersistence mode dim eps edges [] [] ∧
      SortedLayers edges g ∧ NoEmpty g ∧
      StoresRips g data.length (rowDist k data) (fun i j => rowDist k data i j < eps) (max 1 dim) ∧
      (data = [] → edges = []) := by
  obtain ⟨ws, h1, -, -⟩ := C11_distance_matrix_euclidean k hk data hdim eps
  have hne : data.length ≠ 0 → table data.length (fun i j =>
      if i < j then rowDist k data i j else 0) ≠ [] := by
    intro h
    apply List.ne_nil_of_length_pos
    simp [table]; omega
  obtain ⟨t, h2, h3, h4⟩ := insertN_inv (D := rowDist k data) (eps := eps) (maxDim := dim)
    (fun _ _ => dist_nonneg) (fresh_inv _ eps dim) data.length hne (by
      intro i j _ hij hj
      simpa using at2_table hij (by omega))
  rw [Nat.zero_add] at h3
  refine ⟨t.weg, (t.getAllEdges sort).1, ?_, C20_tree_first_query_partial t h4 sort,
    insertN_noEmpty _ _ _ h2 (by intro l hl; cases hl), inv_stores h3, ?_⟩
  · unfold treeRun
    rw [h1, ok_bind]
    show (neighGraphTree eps dim (table data.length (fun i j =>
      if i < j then rowDist k data i j else 0)) data Tree.fresh >>= _) = _
    rw [neighGraphTree_eq _ _ _ _ (rows_ne_nil hk hdim), h2, ok_bind]
  · rintro rfl
    cases h2
    rfl

/-- C70 (partial: the end iterator is read as "not a pivot", see C29): on every cloud of points of
ℝ^k in which some pair is closer than `eps`, the default pipeline on a `simplexTree` returns a
barcode, and it describes the Rips filtration of the points at every scale below `eps`: components by
the dimension-0 bars, Betti numbers over Z/2 by the bars of dimension `1 ≤ k < dimensions`. -/
theorem C70_tree_run_partial (sort : SortBySecond (List Nat) ℝ) (eps : ℝ) (dim : Nat)
    (k : Nat) (hk : 0 < k) (data : List (List ℝ)) (hdim : ∀ p ∈ data, p.length = k)
    (hedge : ∃ i j, i < j ∧ j < data.length ∧ rowDist k data i j < eps) :
    ∃ lines table, treeRun vectorsDistance sort .noPivot eps dim data = .ok (lines, table) ∧
      DescribesRips data.length (rowDist k data) (· < eps) eps dim lines := by
  obtain ⟨g, edges, h1, h2, -, h4, -⟩ := tree_built sort .noPivot eps dim k hk data hdim
  have hlen := rips_two_layers h4 (by omega) h2 hedge
  rcases C25_terminates .noPivot dim eps (filtered_of_rips h4 h2) hlen [] [] with ⟨⟨lines, T⟩, h⟩ | h
  · refine ⟨lines, T, h1.trans h, ?_⟩
    exact describes_of_rips h4 (by omega) (by omega) (fun _ _ => dist_nonneg) h2 hedge
      (fun h => by cases h) _ (fun t ht i j hij => lt_of_le_of_lt hij ht) (fun _ _ hij => hij) h
  · exact absurd h.1 (by simp)

/-- C70: as the code is written (dereferencing the end iterator is undefined), a run that returns
returns the same barcode; the only other outcome is that dereference. -/
theorem C70_tree_run_or_undefined (sort : SortBySecond (List Nat) ℝ) (eps : ℝ) (dim : Nat)
    (k : Nat) (hk : 0 < k) (data : List (List ℝ)) (hdim : ∀ p ∈ data, p.length = k)
    (hedge : ∃ i j, i < j ∧ j < data.length ∧ rowDist k data i j < eps) :
    treeRun vectorsDistance sort .undefined eps dim data = .error .endDeref ∨
    ∃ lines table, treeRun vectorsDistance sort .undefined eps dim data = .ok (lines, table) ∧
      DescribesRips data.length (rowDist k data) (· < eps) eps dim lines := by
  obtain ⟨g, edges, h1, h2, -, h4, -⟩ := tree_built sort .undefined eps dim k hk data hdim
  have hlen := rips_two_layers h4 (by omega) h2 hedge
  rcases C25_terminates .undefined dim eps (filtered_of_rips h4 h2) hlen [] [] with
    ⟨⟨lines, T⟩, h⟩ | h
  · refine Or.inr ⟨lines, T, h1.trans h, ?_⟩
    exact describes_of_rips h4 (by omega) (by omega) (fun _ _ => dist_nonneg) h2 hedge
      (fun h => by cases h) _ (fun t ht i j hij => lt_of_le_of_lt hij ht) (fun _ _ hij => hij) h
  · exact Or.inl (h1.trans h.2)

/-- C70, up to dimension 1 (the default of the setting `dimensions` is 1): no undefined read can
happen. Only components are reported. -/
theorem C70_tree_run_default (sort : SortBySecond (List Nat) ℝ) (mode : EndRead) (eps : ℝ) (dim : Nat)
    (hd : dim ≤ 1) (k : Nat) (hk : 0 < k) (data : List (List ℝ)) (hdim : ∀ p ∈ data, p.length = k)
    (hedge : ∃ i j, i < j ∧ j < data.length ∧ rowDist k data i j < eps) :
    ∃ lines table, treeRun vectorsDistance sort mode eps dim data = .ok (lines, table) ∧
      (∀ l ∈ lines, l.1 = 0) ∧ DescribesRips data.length (rowDist k data) (· < eps) eps dim lines := by
  obtain ⟨g, edges, h1, h2, -, h4, -⟩ := tree_built sort mode eps dim k hk data hdim
  have hlen := rips_two_layers h4 (by omega) h2 hedge
  have hF := filtered_of_rips h4 h2
  have hsome : ∃ r, fastPersistence mode dim eps edges [] [] = .ok r := by
    rcases C25_terminates mode dim eps hF hlen [] [] with h | ⟨hm, -⟩
    · exact h
    · subst hm
      rw [(fast_undefined dim eps hF hlen [] []).1 (fun k h1 h2 => by omega)]
      rcases C25_terminates .noPivot dim eps hF hlen [] [] with h | ⟨h, -⟩
      · exact h
      · cases h
  obtain ⟨⟨lines, T⟩, h⟩ := hsome
  have hdesc := describes_of_rips h4 (by omega) (by omega) (fun _ _ => dist_nonneg) h2 hedge
      (fun _ k h1 h2 => by omega) (· < eps) (fun t ht i j hij => lt_of_le_of_lt hij ht) (fun _ _ hij => hij) h
  refine ⟨lines, T, h1.trans h, fun l hl => ?_, hdesc⟩
  rcases hdesc.only l hl with h | h
  · exact h
  · omega

/-- C70: on an empty cloud nothing is printed; on a cloud without a pair closer than `eps` the code
reads past the end of a vector (C55). -/
theorem C70_tree_run_no_edge (sort : SortBySecond (List Nat) ℝ) (mode : EndRead) (eps : ℝ) (dim : Nat)
    (k : Nat) (hk : 0 < k) (data : List (List ℝ)) (hdim : ∀ p ∈ data, p.length = k)
    (hfar : ∀ i j, i < j → j < data.length → eps ≤ rowDist k data i j) :
    treeRun vectorsDistance sort mode eps dim data =
      if data = [] then .ok ([], []) else .error .oob := by
  obtain ⟨g, edges, h1, h2, h3, h4, h5⟩ := tree_built sort mode eps dim k hk data hdim
  rw [h1]
  split_ifs with h
  · rw [h5 h]; rfl
  · have hl := rips_one_layer h4 (List.length_pos_of_ne_nil h) h3
      (fun i j hij hj => not_lt.2 (hfar i j hij hj))
    rw [← h2.length_eq] at hl
    obtain ⟨v, rfl⟩ := List.length_eq_one_iff.1 hl
    exact C55_no_edges_out_of_range mode dim eps v [] []

/-- C70, C71: the hypotheses hold for example for four points in the plane, at the corners of a unit
square, and `eps = 2`. -/
example : (∀ p ∈ [[0, 0], [1, 0], [1, 1], [0, (1 : ℝ)]], p.length = 2) ∧
    ∃ i j, i < j ∧ j < [[0, 0], [1, 0], [1, 1], [0, (1 : ℝ)]].length ∧
      rowDist 2 [[0, 0], [1, 0], [1, 1], [0, (1 : ℝ)]] i j < 2 := by
  refine ⟨by simp, 0, 1, by decide, by simp, ?_⟩
  unfold rowDist Spec.point
  rw [EuclideanSpace.dist_eq]
  simp [Fin.sum_univ_two, Real.dist_eq]

/-! ### C71 -/

/-- The complex that the first pipes and the expansion build. -/
theorem array_built (sort : SortBySecond (List Nat) ℝ) (mode : EndRead) (eps : ℝ) (dim : Nat)
    (hd : 0 < dim) (k : Nat) (hk : 0 < k) (data : List (List ℝ)) (hdim : ∀ p ∈ data, p.length = k) :
    ∃ g : Graph ℝ,
      arrayRun vectorsDistance sort mode eps dim data =
        fastPersistence mode dim eps (arrayGetAllEdges sort g) [] [] ∧
      StoresRips g data.length (rowDist k data) (fun i j => rowDist k data i j ≤ eps) (dim + 1) ∧
      (data = [] → g = []) := by
  obtain ⟨ws, h1, -, -⟩ := C11_distance_matrix_euclidean k hk data hdim eps
  have hdm : ∀ i j, j < i → i < data.length → at2 (table data.length (fun i j =>
      if i < j then rowDist k data i j else 0)) j i = .ok (rowDist k data j i) :=
    fun i j hji hi => at2_table hji hi
  obtain ⟨ga, gb, h2, h3, -, h5, -⟩ := C16_expand_idempotent_monotone eps dim dim (dim + 1) hd _
    (rowDist k data) (fun _ _ => dist_nonneg) data (rows_ne_nil hk hdim) hdm (by omega)
  obtain ⟨gb', h6, h7⟩ := C13_expansion_is_rips eps dim (dim + 1) hd _
    (rowDist k data) (fun _ _ => dist_nonneg) data (rows_ne_nil hk hdim) hdm
  rw [h3] at h6
  cases h6
  rw [show max 1 (dim + 1) = dim + 1 by omega] at h7
  refine ⟨gb, ?_, h7, ?_⟩
  · unfold arrayRun
    rw [h1, ok_bind]
    unfold Spec.buildArray at h2
    rw [bind_ok] at h2
    obtain ⟨g0, h8, h9⟩ := h2
    show (arrayInsertAll eps dim (table data.length (fun i j =>
      if i < j then rowDist k data i j else 0)) data [] >>= _) = _
    rw [h8, ok_bind, h9, ok_bind, if_pos hd, h5, ok_bind]
  · rintro rfl
    have : Spec.buildArray eps dim (dim + 1) (table ([] : List (List ℝ)).length (fun i j =>
      if i < j then rowDist k [] i j else 0)) ([] : List (List ℝ)) = .ok [] := by
      show expandLoop (List.range' 2 (dim + 1 - 1)) ([] : Graph ℝ) = _
      cases dim with
      | zero => omega
      | succ m =>
        rw [show m + 1 + 1 - 1 = m + 1 by omega, List.range'_succ, expandLoop]
        rfl
    rw [this] at h3
    cases h3
    rfl

/-- C71 (partial: the end iterator is read as "not a pivot", see C29): the same for the default
pipeline on a `simplexArrayList` with `dimensions ≥ 1`, whose complex has the edges of length at most
`eps`: the barcode describes the Rips filtration at every scale up to and including `eps`. -/
theorem C71_array_run_partial (sort : SortBySecond (List Nat) ℝ) (eps : ℝ) (dim : Nat)
    (hd : 0 < dim) (k : Nat) (hk : 0 < k) (data : List (List ℝ)) (hdim : ∀ p ∈ data, p.length = k)
    (hedge : ∃ i j, i < j ∧ j < data.length ∧ rowDist k data i j ≤ eps) :
    ∃ lines table, arrayRun vectorsDistance sort .noPivot eps dim data = .ok (lines, table) ∧
      DescribesRips data.length (rowDist k data) (· ≤ eps) eps dim lines := by
  obtain ⟨g, h1, h2, -⟩ := array_built sort .noPivot eps dim hd k hk data hdim
  obtain ⟨hF, hS⟩ := filtered_array h2 sort
  have hlen := rips_two_layers (rips_nonempty h2) (by omega) hS hedge
  rcases C25_terminates .noPivot dim eps hF hlen [] [] with ⟨⟨lines, T⟩, h⟩ | h
  · refine ⟨lines, T, h1.trans h, ?_⟩
    exact describes_of_rips (rips_nonempty h2) (by omega) (by omega) (fun _ _ => dist_nonneg) hS hedge
      (fun h => by cases h) _ (fun t ht i j hij => hij.trans ht) (fun _ _ hij => hij) h
  · exact absurd h.1 (by simp)

/-- C71: as the code is written, a run that returns returns the same barcode; the only other outcome
is the dereference of the end iterator. -/
theorem C71_array_run_or_undefined (sort : SortBySecond (List Nat) ℝ) (eps : ℝ) (dim : Nat)
    (hd : 0 < dim) (k : Nat) (hk : 0 < k) (data : List (List ℝ)) (hdim : ∀ p ∈ data, p.length = k)
    (hedge : ∃ i j, i < j ∧ j < data.length ∧ rowDist k data i j ≤ eps) :
    arrayRun vectorsDistance sort .undefined eps dim data = .error .endDeref ∨
    ∃ lines table, arrayRun vectorsDistance sort .undefined eps dim data = .ok (lines, table) ∧
      DescribesRips data.length (rowDist k data) (· ≤ eps) eps dim lines := by
  obtain ⟨g, h1, h2, -⟩ := array_built sort .undefined eps dim hd k hk data hdim
  obtain ⟨hF, hS⟩ := filtered_array h2 sort
  have hlen := rips_two_layers (rips_nonempty h2) (by omega) hS hedge
  rcases C25_terminates .undefined dim eps hF hlen [] [] with ⟨⟨lines, T⟩, h⟩ | h
  · refine Or.inr ⟨lines, T, h1.trans h, ?_⟩
    exact describes_of_rips (rips_nonempty h2) (by omega) (by omega) (fun _ _ => dist_nonneg) hS hedge
      (fun h => by cases h) _ (fun t ht i j hij => hij.trans ht) (fun _ _ hij => hij) h
  · exact Or.inl (h1.trans h.2)

/-- C71: without a pair at distance at most `eps` the code reads past the end of a vector, unless
there are no points. -/
theorem C71_array_run_no_edge (sort : SortBySecond (List Nat) ℝ) (mode : EndRead) (eps : ℝ) (dim : Nat)
    (hd : 0 < dim) (k : Nat) (hk : 0 < k) (data : List (List ℝ)) (hdim : ∀ p ∈ data, p.length = k)
    (hfar : ∀ i j, i < j → j < data.length → eps < rowDist k data i j) :
    arrayRun vectorsDistance sort mode eps dim data =
      if data = [] then .ok ([], []) else .error .oob := by
  obtain ⟨g, h1, h2, h3⟩ := array_built sort mode eps dim hd k hk data hdim
  rw [h1]
  split_ifs with h
  · rw [h3 h]; rfl
  · obtain ⟨hF, hS⟩ := filtered_array h2 sort
    have hl := rips_one_layer (rips_nonempty h2) (List.length_pos_of_ne_nil h)
      (fun l hl => by simpa using (List.mem_filter.1 hl).2)
      (fun i j hij hj => not_le.2 (hfar i j hij hj))
    rw [← hS.length_eq] at hl
    obtain ⟨v, hv⟩ := List.length_eq_one_iff.1 hl
    rw [hv]
    exact C55_no_edges_out_of_range mode dim eps v [] []

end LHF
