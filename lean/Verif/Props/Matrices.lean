import Verif.Spec.BinaryMatrix
import Verif.Lemmas.OptPairs
import Verif.Lemmas.ReduceMatrix
import Verif.Props.PersistenceCases

/-! C31–C33, C56–C59: the matrix computations of persistencePairs, optPersistencePairs and
boundaryPipe. -/

namespace LHF
open Spec

theorem bits_eq_rowVec {row : List Nat} (h : ∀ x ∈ row, x = 0 ∨ x = 1) : bits row = rowVec row := by
  funext c
  unfold bits rowVec
  rw [List.getD_eq_getElem?_getD]
  rcases hc : row[c]? with _ | x
  · simp
  · rcases h x (List.mem_of_getElem? hc) with rfl | rfl <;> simp

theorem map_bits {m : List (List Nat)} {n : Nat} (hm : IsBinary m n) : m.map bits = m.map rowVec := by
  apply List.map_congr_left
  intro r hr
  exact bits_eq_rowVec (hm r hr).2

theorem mem_indep_iff {l : List (Nat → ZMod 2)} {j : Nat} : j ∈ indep (ZMod 2) l ↔ NewRow l j := by
  rw [mem_indep]
  unfold NewRow
  constructor
  · rintro ⟨h1, h2⟩
    refine ⟨_, List.getElem?_eq_getElem h1, ?_⟩
    rwa [List.getD_eq_getElem?_getD, List.getElem?_eq_getElem h1] at h2
  · rintro ⟨v, h1, h2⟩
    obtain ⟨h, rfl⟩ := List.getElem?_eq_some_iff.1 h1
    refine ⟨h, ?_⟩
    rwa [List.getD_eq_getElem?_getD, h1]

/-! ### C31 -/

/-- C31: `getRankNull` lists, in increasing order, exactly the rows that are not a combination of
earlier rows; their number is the rank. -/
theorem C31_independent_rows {m : List (List Nat)} {n : Nat} (hne : m ≠ []) (hm : IsBinary m n) :
    ∃ r, getRankNull m = .ok r ∧ r.Pairwise (· < ·) ∧ (∀ j, j ∈ r ↔ NewRow (m.map bits) j) ∧
      r.length = rank m := by
  refine ⟨_, getRankNull_spec hne hm, inc_indep _, ?_, ?_⟩
  · intro j; rw [mem_indep_iff, map_bits hm]
  · rw [indep_length]; unfold rank; rw [map_bits hm]; rfl

/-- C31: the matrix must not be empty: its first row is read. -/
theorem C31_empty_matrix : getRankNull [] = .error .oob := rfl

/-- The hypotheses of C31 on the boundary matrix of a triangle. -/
example : IsBinary [[1, 1, 0], [1, 0, 1], [0, 1, 1]] 3 ∧
    getRankNull [[1, 1, 0], [1, 0, 1], [0, 1, 1]] = .ok [0, 1] := by
  constructor
  · unfold IsBinary; decide
  · rfl

/-! ### C32 -/

/-- C32: `checkFace` on sets decides whether a set is a facet of a set with one more element. -/
theorem C32_checkFace_sets {f s : List Nat} (hf : f.Pairwise (· < ·)) (hs : s.Pairwise (· < ·))
    (hl : s.length = f.length + 1) :
    (checkFaceS f s = 1 ↔ ∀ v ∈ f, v ∈ s) ∧ (checkFaceS f s = 0 ↔ ¬ ∀ v ∈ f, v ∈ s) := by
  rw [checkFaceS_eq hf hs hl]
  by_cases h : ∀ v ∈ f, v ∈ s
  · rw [if_pos h]; exact ⟨by simpa using h, by simpa using h⟩
  · rw [if_neg h]; exact ⟨by simpa using h, by simpa using h⟩

/-- C32: `checkFace` on vectors, in any order, without repetitions. -/
theorem C32_checkFace_vectors {f s : List Nat} (hf : f.Nodup) (hs : s.Nodup)
    (hl : s.length = f.length + 1) :
    (checkFaceV f s = 1 ↔ ∀ v ∈ f, v ∈ s) ∧ (checkFaceV f s = 0 ↔ ¬ ∀ v ∈ f, v ∈ s) := by
  have hf' := inc_stdSort hf
  have hs' := inc_stdSort hs
  have e1 : (stdSort f).length = f.length := (perm_stdSort f).length_eq
  have e2 : (stdSort s).length = s.length := (perm_stdSort s).length_eq
  have key : checkFaceV f s = checkFaceS (stdSort f) (stdSort s) := by
    unfold checkFaceV checkFaceS symmetricDiffV symmetricDiffS
    rw [e2, if_neg (by rintro rfl; omega : ¬ f = s),
      if_neg (by intro h; have := congrArg List.length h; omega : ¬ stdSort f = stdSort s)]
    simp
  rw [key]
  have := C32_checkFace_sets hf' hs' (by omega)
  simpa only [mem_stdSort] using this

/-- C32: without the length condition `checkFace` is symmetric: a set one element larger also counts,
and against the empty simplex it always answers 1. -/
theorem C32_checkFace_general {f s : List Nat} (hf : f.Pairwise (· < ·)) (hs : s.Pairwise (· < ·)) :
    checkFaceS f s = 1 ↔ s = [] ∨ ((∀ v ∈ f, v ∈ s) ∧ s.length = f.length + 1) ∨
      ((∀ v ∈ s, v ∈ f) ∧ f.length = s.length + 1) := by
  unfold checkFaceS symmetricDiffS
  by_cases h0 : s = []
  · subst h0; simp
  have h1 : ¬ s.length = 0 := by simpa using h0
  rw [if_neg h1]
  by_cases hfs : f = s
  · subst hfs
    simp [h0]
  · rw [if_neg hfs, ← symDiff_one hf hs]
    split_ifs with h <;> simp [h, h0]

theorem sum_map_range (f : Nat → Nat) (n : Nat) :
    ((List.range n).map f).sum = ∑ j ∈ Finset.range n, f j := by
  induction n with
  | zero => rfl
  | succ n ih => rw [List.range_succ, List.map_append, List.sum_append, ih, Finset.sum_range_succ]; simp

section
variable {W : Type} [LinearOrder W]

/-- C32: the boundary matrix of a layer has one row for each simplex, one column for each simplex of
the layer below, and a 1 exactly where the column's simplex is a facet of the row's simplex. -/
theorem C32_boundary_matrix {edges : List (List (List Nat × W))} (hF : FilteredComplex edges)
    {d : Nat} {lower upper : List (List Nat × W)} (h : edges[d]? = some lower)
    (h' : edges[d + 1]? = some upper) :
    IsBinary (boundaryRows lower upper) lower.length ∧
    (boundaryRows lower upper).length = upper.length ∧
    ∀ i (hi : i < upper.length) j (hj : j < lower.length),
      (((boundaryRows lower upper).getD i []).getD j 0 = 1 ↔ ∀ v ∈ lower[j].1, v ∈ upper[i].1) := by
  obtain ⟨h1, h2, h3, h4⟩ := layer_facts hF h h'
  refine ⟨boundaryRows_binary lower upper, by simp [boundaryRows], ?_⟩
  intro i hi j hj
  have hr := h1 lower[j] (List.getElem_mem hj)
  have hc := h3 upper[i] (List.getElem_mem hi)
  rw [← (C32_checkFace_sets hr.1 hc.1 (by omega)).1]
  simp [boundaryRows, hi, hj]

/-- C32: the product of consecutive boundary matrices is zero modulo 2. -/
theorem C32_boundary_of_boundary {edges : List (List (List Nat × W))} (hF : FilteredComplex edges)
    {d : Nat} {l0 l1 l2 : List (List Nat × W)} (h0 : edges[d]? = some l0)
    (h1 : edges[d + 1]? = some l1) (h2 : edges[d + 2]? = some l2) {i c : Nat} (hi : i < l2.length)
    (hc : c < l0.length) :
    ((List.range l1.length).map (fun j => ((boundaryRows l1 l2).getD i []).getD j 0 *
      ((boundaryRows l0 l1).getD j []).getD c 0)).sum % 2 = 0 := by
  obtain ⟨a1, a2, a3, a4⟩ := layer_facts hF h0 h1
  obtain ⟨b1, b2, b3, b4⟩ := layer_facts hF h1 h2
  have hp := b3 l2[i] (List.getElem_mem hi)
  have he := a1 l0[c] (List.getElem_mem hc)
  have entry : ∀ {f s : List Nat}, Inc f → Inc s → s.length = f.length + 1 →
      ((checkFaceS f s : Nat) : ZMod 2) = boundaryOf s f := by
    intro f s hf hs hl
    rw [checkFaceS_eq hf hs hl, boundaryOf_apply hs]
    have := facet_iff hs hf (by omega)
    by_cases hh : ∀ v ∈ f, v ∈ s
    · rw [if_pos hh, if_pos (this.2 hh)]; simp
    · rw [if_neg hh, if_neg (fun x => hh (this.1 x))]; simp
  have hmem : boundaryOf l2[i].1 ∈ chains (l1.map Prod.fst) := by
    apply bvecs_chains b3 b4
    apply mem_spanL
    unfold bvecs
    rw [List.mem_map]
    exact ⟨l2[i].1, List.mem_map_of_mem (List.getElem_mem hi), rfl⟩
  have hexp := chain_expand b2 hmem
  have hzero : boundary (boundaryOf l2[i].1) l0[c].1 = 0 := by
    rw [← boundary_single, boundary_boundary]; rfl
  rw [hexp, map_sum, Finsupp.finsetSum_apply] at hzero
  have hsum : ((((List.range l1.length).map (fun j => ((boundaryRows l1 l2).getD i []).getD j 0 *
      ((boundaryRows l0 l1).getD j []).getD c 0)).sum : Nat) : ZMod 2) = 0 := by
    rw [sum_map_range, Nat.cast_sum, ← hzero, List.length_map]
    apply Finset.sum_congr rfl
    intro j hj
    rw [Finset.mem_range] at hj
    have hf := b1 l1[j] (List.getElem_mem hj)
    have hg : (l1.map Prod.fst).getD j [] = l1[j].1 := by simp [hj]
    have e1 : ((boundaryRows l1 l2).getD i []).getD j 0 = checkFaceS l1[j].1 l2[i].1 := by
      simp [boundaryRows, hi, hj]
    have e2 : ((boundaryRows l0 l1).getD j []).getD c 0 = checkFaceS l0[c].1 l1[j].1 := by
      simp [boundaryRows, hc, hj]
    rw [e1, e2, hg, Nat.cast_mul, entry hf.1 hp.1 (by omega), entry he.1 hf.1 (by omega), map_smul,
      Finsupp.smul_apply, boundary_single, smul_eq_mul]
  have := (ZMod.natCast_eq_zero_iff _ 2).1 hsum
  omega

/-- The hypotheses of the C32 theorems on the complex `square`. -/
example : FilteredComplex square ∧ square[1]?.map List.length = some 6 ∧
    (boundaryRows (square.getD 1 []) (square.getD 2 [])).getD 0 [] = [1, 0, 1, 0, 1, 0] :=
  ⟨square_filtered, rfl, rfl⟩

/-! ### C33 -/

omit [LinearOrder W] in
theorem reduce_spec {m : List (List Nat)} {n : Nat} (hne : m ≠ []) (hm : IsBinary m n) :
    (rank m = m.length → reduceBoundaryMatrix m = .error .oob) ∧
    (rank m < m.length → ∃ rows, reduceBoundaryMatrix m = .ok (rows, rank m, (n : Int) - rank m) ∧
      IsBinary rows n ∧ rows.length = m.length ∧ spanOf (rows.map bits) = spanOf (m.map bits) ∧
      ∀ i, rank m ≤ i → i < rows.length → rows.getD i [] = List.replicate n 0) := by
  obtain ⟨first, rest, rfl⟩ := List.exists_cons_of_ne_nil hne
  have hl : first.length = n := (hm first (by simp)).1
  have hrank : rank (first :: rest) =
      Module.finrank (ZMod 2) (spanL (ZMod 2) ((first :: rest).map rowVec)) := by
    unfold rank; rw [map_bits hm]; rfl
  have key := reduceLoop_spec (m0 := first :: rest) (n := n) (n + 1) 0 (first :: rest) [] 0 (by omega)
    (by omega) hm (by intro r hr; simp at hr) (by intro c hc; omega) rfl (by simp) (by simp) (by simp)
    (by simp)
  rw [← hrank] at key
  unfold reduceBoundaryMatrix
  dsimp only
  rw [hl]
  refine ⟨fun h => ?_, fun h => ?_⟩
  · rw [key.1 h]; rfl
  · obtain ⟨m', ret, e1, e2, e3, e4, e5, e6⟩ := key.2 h
    rw [e1]
    have hb : IsBinary (ret ++ m') n := e2
    obtain ⟨r0, rs, hr⟩ : ∃ r0 rs, ret ++ m' = r0 :: rs :=
      List.exists_cons_of_ne_nil (by intro hh; rw [hh] at e3; simp at e3)
    have hr0 : r0.length = n := (e2 r0 (by rw [hr]; simp)).1
    refine ⟨ret ++ m', ?_, e2, e3, ?_, ?_⟩
    · simp only [bind, Except.bind]
      rw [hr]
      simp only [vget, List.getElem?_cons_zero]
      rw [← hr0]
      rfl
    · rw [map_bits hb, map_bits hm]; exact e6.symm
    · intro i hi1 hi2
      have hm' : i - ret.length < m'.length := by simp at hi2; omega
      have hg : (ret ++ m').getD i [] = m'[i - ret.length] := by
        rw [List.getD_eq_getElem?_getD, List.getElem?_append_right (by omega),
          List.getElem?_eq_getElem hm']
        rfl
      rw [hg]
      have hz := e5 _ (List.getElem_mem hm')
      have hbin := hb m'[i - ret.length] (by simp)
      apply List.ext_getElem
      · simp [hbin.1]
      · intro c h1 h2
        have := congrFun hz c
        unfold rowVec at this
        rcases hbin.2 _ (List.getElem_mem h1) with h | h
        · simp [h]
        · rw [List.getElem?_eq_getElem h1, h] at this; simp at this

/-- C33 (partial): on every non-empty 0/1 matrix whose rows are linearly dependent, the reported rank
is the rank, the nullity is the number of columns minus the rank, and the returned rows span the row
space, with zero rows after the first `rank` rows. Missing: matrices with independent rows, see
`C33_independent_rows_violated`. -/
theorem C33_reduce_partial {m : List (List Nat)} {n : Nat} (hm : IsBinary m n)
    (hdep : rank m < m.length) :
    ∃ rows, reduceBoundaryMatrix m = .ok (rows, rank m, (n : Int) - rank m) ∧
      IsBinary rows n ∧ rows.length = m.length ∧ spanOf (rows.map bits) = spanOf (m.map bits) ∧
      ∀ i, rank m ≤ i → i < rows.length → rows.getD i [] = List.replicate n 0 :=
  (reduce_spec (by rintro rfl; simp at hdep) hm).2 hdep

/-- C33 is violated: on every non-empty 0/1 matrix with linearly independent rows the loop condition
reads the first row of a matrix from which all rows have been removed. -/
theorem C33_independent_rows_violated {m : List (List Nat)} {n : Nat} (hne : m ≠ [])
    (hm : IsBinary m n) (hind : rank m = m.length) : reduceBoundaryMatrix m = .error .oob :=
  (reduce_spec hne hm).1 hind

/-- C33: the rank never exceeds the number of rows, so the two theorems above cover all matrices. -/
theorem C33_cases (m : List (List Nat)) :
    rank m < m.length ∨ rank m = m.length := by
  have : rank m = (indep (ZMod 2) (m.map bits)).length := by rw [indep_length]; rfl
  have h2 : (indep (ZMod 2) (m.map bits)).length ≤ (m.map bits).length := by
    unfold indep
    exact (List.length_filter_le _ _).trans (by simp)
  rw [List.length_map] at h2
  omega

/-- The matrices of C33: the boundary matrix of a triangle has rank 2; that of a single edge has two
equal rows; a single vertex row is out of bounds. -/
example : reduceBoundaryMatrix [[1, 1, 0], [1, 0, 1], [0, 1, 1]] =
      .ok ([[1, 1, 0], [0, 1, 1], [0, 0, 0]], 2, 1) ∧
    reduceBoundaryMatrix [[1], [1]] = .ok ([[1], [0]], 1, 0) ∧
    reduceBoundaryMatrix [[1, 1]] = .error .oob := by
  refine ⟨rfl, rfl, rfl⟩

/-! ### C56 -/

/-- C56: `createBoundaryMatrix` returns, in increasing order, the places of exactly the negative
simplices of dimension at least 1 in the list of all simplices. -/
theorem C56_negative_simplices {edges : List (List (List Nat × W))} (hF : FilteredComplex edges)
    (hne : ∀ l ∈ edges, l ≠ []) :
    ∃ r, createBoundaryMatrix edges = .ok r ∧ r.Pairwise (· < ·) ∧
      ∀ x, x ∈ r ↔ ∃ k i, 1 ≤ k ∧ Negative edges k i ∧ x = offset edges k + i := by
  unfold createBoundaryMatrix
  by_cases h0 : edges = []
  · subst h0
    refine ⟨[], rfl, List.Pairwise.nil, ?_⟩
    intro x
    simp only [List.not_mem_nil, false_iff, not_exists]
    rintro k i ⟨-, ⟨e, he, -⟩, -⟩
    simp at he
  · have hpos : 0 < edges.length := List.length_pos_of_ne_nil h0
    obtain ⟨r, h1, h2, h3⟩ := pivotLoop_spec hF hne (edges.length - 1) (by omega) [] List.Pairwise.nil
    have hoff : offset edges (edges.length - 1 + 1) = (edges.map List.length).sum := by
      unfold offset
      rw [Nat.sub_add_cancel hpos, List.take_length]
    rw [hoff] at h1
    refine ⟨r, h1, h2, ?_⟩
    intro x
    rw [h3]
    constructor
    · rintro (h | ⟨k, j, a1, a2, a3, a4⟩)
      · simp at h
      · exact ⟨k, j, a1, mem_negatives.1 a3, a4⟩
    · rintro ⟨k, j, a1, a2, a3⟩
      refine Or.inr ⟨k, j, a1, ?_, mem_negatives.2 a2, a3⟩
      obtain ⟨e, he, -⟩ := a2
      by_contra hk
      have hn : edges[k]? = none := List.getElem?_eq_none (by omega)
      rw [List.getD_eq_getElem?_getD, hn] at he
      simp at he

omit [LinearOrder W] in
/-- C56: an empty layer above dimension 0 makes it read the first row of an empty matrix. -/
theorem C56_empty_layer_violated {edges : List (List (List Nat × W))} {d : Nat}
    (hd : edges.length = d + 2) (h : edges[d + 1]? = some []) :
    createBoundaryMatrix edges = .error .oob := by
  unfold createBoundaryMatrix
  have : edges.length - 1 = d + 1 := by omega
  rw [this]
  obtain ⟨lower, hl⟩ : ∃ l, edges[d]? = some l := ⟨_, List.getElem?_eq_getElem (by omega)⟩
  simp only [pivotLoop, vget, h, hl]
  rfl

example : FilteredComplex square ∧ (∀ l ∈ square, l ≠ []) ∧
    createBoundaryMatrix square = .ok [4, 5, 6, 10, 11, 12] :=
  ⟨square_filtered, by decide, rfl⟩

/-! ### C57 -/

/-- C57: clearing in optPersistencePairs loses nothing: if the complex has layers up to `dim`, the
pivots are exactly the negative simplices of dimensions 1 to `dim`. The simplices of higher layers,
if there are any, shift all places. -/
theorem C57_clearing_sound {edges : List (List (List Nat × W))} (hF : FilteredComplex edges)
    (hne : ∀ l ∈ edges, l ≠ []) {dim : Nat} (hdim : dim < edges.length) :
    ∃ r, optAllPivots dim edges = .ok r ∧ r.Pairwise (· < ·) ∧
      ∀ x, x ∈ r ↔ ∃ k i, 1 ≤ k ∧ k ≤ dim ∧ Negative edges k i ∧
        x = offset edges k + (offset edges edges.length - offset edges (dim + 1)) + i := by
  have hsplit : (edges.map List.length).sum = offset edges (dim + 1) +
      (offset edges edges.length - offset edges (dim + 1)) := by
    have h1 : offset edges edges.length = (edges.map List.length).sum := by
      unfold offset; rw [List.take_length]
    have h2 : offset edges (dim + 1) ≤ (edges.map List.length).sum := by
      unfold offset
      conv_rhs => rw [← List.take_append_drop (dim + 1) edges, List.map_append, List.sum_append]
      omega
    omega
  obtain ⟨r, h1, h2, h3⟩ := optPivotLoop_spec hF hne dim hdim
    (offset edges edges.length - offset edges (dim + 1)) [] [] List.Pairwise.nil List.Pairwise.nil
    (by simp)
  unfold optAllPivots
  rw [hsplit]
  refine ⟨r, h1, h2, ?_⟩
  intro x
  rw [h3]
  constructor
  · rintro (h | ⟨k, j, a1, a2, a3, a4⟩)
    · simp at h
    · exact ⟨k, j, a1, a2, mem_negatives.1 a3, a4⟩
  · rintro ⟨k, j, a1, a2, a3, a4⟩
    exact Or.inr ⟨k, j, a1, a2, mem_negatives.2 a3, a4⟩

/-- C57: with a top layer of dimension `dim` the places agree with those of C56, so the two pipes
compute the same pivots. -/
theorem C57_same_as_persistencePairs {edges : List (List (List Nat × W))} (hF : FilteredComplex edges)
    (hne : ∀ l ∈ edges, l ≠ []) {dim : Nat} (hdim : edges.length = dim + 1) :
    optAllPivots dim edges = createBoundaryMatrix edges := by
  obtain ⟨r, h1, h2, h3⟩ := C57_clearing_sound hF hne (dim := dim) (by omega)
  obtain ⟨r', h1', h2', h3'⟩ := C56_negative_simplices hF hne
  rw [h1, h1']
  congr 1
  apply Inc.ext h2 h2'
  intro x
  rw [h3, h3', hdim, Nat.sub_self]
  constructor
  · rintro ⟨k, i, a1, a2, a3, a4⟩
    exact ⟨k, i, a1, a3, a4⟩
  · rintro ⟨k, i, a1, a2, a3⟩
    refine ⟨k, i, a1, ?_, a2, a3⟩
    obtain ⟨e, he, -⟩ := a2
    by_contra hk
    have hn : edges[k]? = none := List.getElem?_eq_none (by omega)
    rw [List.getD_eq_getElem?_getD, hn] at he
    simp at he

omit [LinearOrder W] in
/-- C57 is violated when the complex has no layer `dim`: the missing layer is read. -/
theorem C57_missing_layer_violated {edges : List (List (List Nat × W))} {dim : Nat} (h0 : 0 < dim)
    (hdim : edges.length ≤ dim) : optAllPivots dim edges = .error .oob := by
  obtain ⟨d, rfl⟩ : ∃ d, dim = d + 1 := ⟨dim - 1, by omega⟩
  unfold optAllPivots
  simp only [optPivotLoop, vget, List.getElem?_eq_none hdim]
  rfl

example : FilteredComplex square ∧ (∀ l ∈ square, l ≠ []) ∧ 2 < square.length ∧
    optAllPivots 2 square = .ok [4, 5, 6, 10, 11, 12] :=
  ⟨square_filtered, by decide, by decide, rfl⟩

/-! ### C58 -/

omit [LinearOrder W] in
/-- C58 (partial): the set-based elimination reports only columns that are not combinations of earlier
ones, and all of them if every row index is smaller than the number of columns. -/
theorem C58_set_elimination_partial {m : List (List Nat)} (hinc : ∀ c ∈ m, c.Pairwise (· < ·)) :
    (optGetRankNullSets m).1.Pairwise (· < ·) ∧
    (∀ j ∈ (optGetRankNullSets m).1, NewRow (m.map bitsOfSet) j) ∧
    ((∀ c ∈ m, ∀ x ∈ c, x < m.length) →
      ∀ j, j ∈ (optGetRankNullSets m).1 ↔ NewRow (m.map bitsOfSet) j) := by
  obtain ⟨h1, h2, h3⟩ := optGetRankNullSets_spec hinc
  refine ⟨h1, fun j hj => mem_indep_iff.1 (h2 j hj), fun h j => ?_⟩
  rw [h3 h]
  exact mem_indep_iff

/-- C58 is violated: the edge between the second and the third of three vertices is a column with row
indices 1 and 2 and is not found, because only row index 0 is looked at. -/
theorem C58_few_columns_violated : (optGetRankNullSets [[1, 2]]).1 = [] ∧
    NewRow ([[1, 2]].map bitsOfSet) 0 := by
  refine ⟨rfl, _, rfl, ?_⟩
  intro h
  have h' : bitsOfSet [1, 2] ∈ Submodule.span (ZMod 2) (∅ : Set (Nat → ZMod 2)) := by
    simpa [spanOf] using h
  rw [Submodule.span_empty, Submodule.mem_bot] at h'
  have := congrFun h' 1
  simp [bitsOfSet] at this

example : (∀ c ∈ [[0, 1], [0, 2], [1, 2]], c.Pairwise (· < ·)) ∧
    (∀ c ∈ [[0, 1], [0, 2], [1, 2]], ∀ x ∈ c, x < 3) ∧
    (optGetRankNullSets [[0, 1], [0, 2], [1, 2]]).1 = [0, 1] := by decide

/-! ### C59 -/

/-- The turns of the loop over vertices: entries are appended, nothing else changes. -/
theorem pairStep_vertices (short : Bool) (ks : List (List Nat)) (l : List (List Nat × W)) :
    ∀ (s : PairState W) (a : Nat), a = s.t.length → (∀ e ∈ l, e.1.length = 1) →
    ((List.range' a l.length).zip l).foldlM (pairStep short ks) s =
      .ok { s with t := s.t ++ l.map (fun e => ⟨true, some e.2, none, e.1⟩) } := by
  induction l with
  | nil => intro s a _ _; simp [pure, Except.pure]
  | cons e l ih =>
    intro s a ha hl
    rw [List.length_cons, List.range'_succ, List.zip_cons_cons, List.foldlM_cons]
    have h1 : pairStep short ks s (a, e) =
        .ok { s with t := s.t ++ [⟨true, some e.2, none, e.1⟩] } := by
      unfold pairStep
      dsimp only
      rw [if_pos (Or.inl (hl e (by simp)))]
      subst ha
      have hm : ∀ (t : List (TEntry W)) (x : TEntry W) (f : TEntry W → TEntry W),
          (t ++ [x]).modify t.length f = t ++ [f x] := by
        intro t x f
        induction t with
        | nil => rfl
        | cons y t iht => simp [iht]
      simp [vmodify, bind, Except.bind, pure, Except.pure, hm]
    rw [h1]
    simp only [bind, Except.bind]
    rw [ih _ (a + 1) (by simp [ha]) (fun e he => hl e (by simp [he]))]
    simp

/-- The first edge of a filtered complex is negative. -/
theorem first_edge_negative {edges : List (List (List Nat × W))} (hF : FilteredComplex edges)
    {upper : List (List Nat × W)} (h : edges[1]? = some upper) (hne : upper ≠ []) :
    Negative edges 1 0 := by
  obtain ⟨e, rest, rfl⟩ := List.exists_cons_of_ne_nil hne
  have hd : edges.getD 1 [] = e :: rest := by rw [List.getD_eq_getElem?_getD, h]; rfl
  refine ⟨e, by rw [hd]; rfl, ?_⟩
  rw [hd, List.take_zero, List.map_nil, map_boundary_chains]
  intro hmem
  have hz : boundaryOf e.1 = 0 := by
    have : spanL (ZMod 2) (bvecs []) = ⊥ := by simp [spanL, bvecs]
    rw [this] at hmem
    exact (Submodule.mem_bot _).1 hmem
  obtain ⟨hinc, hl⟩ := hF.shape 1 _ h e (by simp)
  have := DFunLike.congr_fun hz (e.1.eraseIdx 0)
  rw [boundaryOf_apply hinc, if_pos ⟨0, by omega, rfl⟩] at this
  exact one_ne_zero this

/-- The loop of both pipes reads one entry past the T-array at the first edge. -/
theorem pair_loop_oob (short : Bool) {edges : List (List (List Nat × W))}
    (hF : FilteredComplex edges) {lower upper : List (List Nat × W)} (h0 : edges[0]? = some lower)
    (h1 : edges[1]? = some upper) (hne : upper ≠ []) (pivots : List Nat) :
    ((List.range edges.flatten.length).zip edges.flatten).foldlM
      (pairStep short (edges.flatten.map Prod.fst)) ⟨[], pivots, some lower.length, []⟩ =
      .error .oob := by
  obtain ⟨e, rest, rfl⟩ := List.exists_cons_of_ne_nil hne
  obtain ⟨tail, rfl⟩ : ∃ tail, edges = lower :: (e :: rest) :: tail := by
    cases edges with
    | nil => simp at h0
    | cons a t =>
      cases t with
      | nil => simp at h1
      | cons b t => simp at h0 h1; exact ⟨t, by rw [h0, h1]⟩
  have hflat : (lower :: (e :: rest) :: tail).flatten = lower ++ e :: (rest ++ tail.flatten) := by simp
  rw [hflat, List.length_append, List.range_eq_range', ← List.range'_append_1,
    List.zip_append (by simp), List.foldlM_append]
  rw [pairStep_vertices short _ lower _ 0 rfl (fun e he => (hF.shape 0 lower h0 e he).2)]
  simp only [bind, Except.bind]
  rw [List.length_cons, List.range'_succ, List.zip_cons_cons, List.foldlM_cons]
  have hstep : pairStep short ((lower ++ e :: (rest ++ tail.flatten)).map Prod.fst)
      (⟨[] ++ lower.map (fun e => ⟨true, some e.2, none, e.1⟩), pivots, some lower.length, []⟩ :
        PairState W) (0 + lower.length, e) = .error .oob := by
    have hl := (hF.shape 1 _ h1 e (by simp)).2
    unfold pairStep
    dsimp only
    rw [if_neg (by rw [hl]; simp)]
    have hfind : ∀ (t : List (TEntry W)) ks cur, 0 < t.length →
        findPartner short t ks cur t.length = .error .oob := by
      intro t ks cur ht
      obtain ⟨n, hn⟩ : ∃ n, t.length = n + 1 := ⟨t.length - 1, by omega⟩
      have hv : vget t (n + 1) = .error .oob := by
        unfold vget
        rw [List.getElem?_eq_none (by omega)]
      rw [hn]
      simp only [findPartner, isPartner, hv, bind, Except.bind]
    rw [hfind _ _ _ (by simp)]
    rfl
  rw [hstep]
  rfl

theorem head_first_edge {r : List Nat} {n : Nat} (hr : r.Pairwise (· < ·))
    (hmem : n ∈ r) (hge : ∀ x ∈ r, n ≤ x) : r.head? = some n := by
  cases r with
  | nil => simp at hmem
  | cons a r =>
    rw [List.head?_cons]
    congr 1
    have := hge a (by simp)
    rcases List.mem_cons.1 hmem with h | h
    · exact h.symm
    · have := (List.pairwise_cons.1 hr).1 _ h
      omega

omit [LinearOrder W] in
theorem offset_one {edges : List (List (List Nat × W))} {lower : List (List Nat × W)}
    (h0 : edges[0]? = some lower) : offset edges 1 = lower.length := by
  rw [offset_succ h0]; simp [offset]

omit [LinearOrder W] in
theorem offset_mono (edges : List (List (List Nat × W))) {k : Nat} (hk : 1 ≤ k) :
    offset edges 1 ≤ offset edges k := by
  unfold offset
  have : edges.take 1 = (edges.take k).take 1 := by rw [List.take_take, Nat.min_eq_left hk]
  rw [this]
  conv_rhs => rw [← List.take_append_drop 1 (edges.take k), List.map_append, List.sum_append]
  omega

/-- C59 is violated: on every filtered complex with an edge (and no empty layer), persistencePairs
reads past the end of its table. -/
theorem C59_persistencePairs_violated (dim : Nat) (eps : W) {edges : List (List (List Nat × W))}
    (hF : FilteredComplex edges) (hne : ∀ l ∈ edges, l ≠ []) (hedge : 2 ≤ edges.length) :
    runPersistencePairs dim eps edges = .error .oob := by
  obtain ⟨r, hr, hinc, hmem⟩ := C56_negative_simplices hF hne
  have h0 : edges[0]? = some edges[0] := List.getElem?_eq_getElem _
  have h1 : edges[1]? = some edges[1] := List.getElem?_eq_getElem _
  have hne1 : edges[1] ≠ [] := hne _ (List.getElem_mem _)
  have hhead := head_first_edge (n := edges[0].length) hinc
    ((hmem _).2 ⟨1, 0, le_refl _, first_edge_negative hF h1 hne1, by rw [offset_one h0]; rfl⟩) (by
      intro x hx
      obtain ⟨k, i, a1, -, rfl⟩ := (hmem x).1 hx
      have := offset_mono edges a1
      rw [offset_one h0] at this
      omega)
  unfold runPersistencePairs
  rw [hr]
  simp only [bind, Except.bind]
  rw [hhead]
  rw [pair_loop_oob false hF h0 h1 hne1 r]

/-- C59 is violated by optPersistencePairs in the same way, on every filtered complex whose top layer
has dimension `dim ≥ 1`. -/
theorem C59_optPersistencePairs_violated {dim : Nat} (eps : W) {edges : List (List (List Nat × W))}
    (hF : FilteredComplex edges) (hne : ∀ l ∈ edges, l ≠ []) (hdim : 1 ≤ dim)
    (hlen : edges.length = dim + 1) : runOptPersistencePairs dim eps edges = .error .oob := by
  obtain ⟨r, hr, hinc, hmem⟩ := C56_negative_simplices hF hne
  have h0 : edges[0]? = some edges[0] := List.getElem?_eq_getElem (by omega)
  have h1 : edges[1]? = some edges[1] := List.getElem?_eq_getElem (by omega)
  have hne1 : edges[1] ≠ [] := hne _ (List.getElem_mem _)
  have hhead := head_first_edge (n := edges[0].length) hinc
    ((hmem _).2 ⟨1, 0, le_refl _, first_edge_negative hF h1 hne1, by rw [offset_one h0]; rfl⟩) (by
      intro x hx
      obtain ⟨k, i, a1, -, rfl⟩ := (hmem x).1 hx
      have := offset_mono edges a1
      rw [offset_one h0] at this
      omega)
  unfold runOptPersistencePairs
  rw [C57_same_as_persistencePairs hF hne hlen, hr]
  simp only [bind, Except.bind]
  rw [hhead]
  rw [pair_loop_oob true hF h0 h1 hne1 r]

/-- C59 (partial): on isolated vertices persistencePairs stays in bounds; it writes one interval of
dimension 0 for each vertex if `dim` is at least 2, and nothing otherwise. -/
theorem C59_isolated_points_partial (dim : Nat) (eps : W) {verts : List (List Nat × W)}
    (hv : ∀ e ∈ verts, e.1.length = 1) :
    runPersistencePairs dim eps [verts] =
      .ok (if 2 ≤ dim then verts.map (fun e => (0, e.2, eps)) else []) := by
  unfold runPersistencePairs
  have hc : createBoundaryMatrix [verts] = .ok [] := rfl
  rw [hc]
  simp only [bind, Except.bind, List.flatten_cons, List.flatten_nil, List.append_nil]
  have h := pairStep_vertices false (verts.map Prod.fst) verts ⟨[], [], none, []⟩ 0 rfl hv
  rw [List.range_eq_range', List.head?_nil]
  rw [h]
  dsimp only
  rw [List.nil_append]
  have key : ∀ (pre l : List (List Nat × W)) (lines : List (Nat × W × W)), verts = pre ++ l →
      ((List.range' pre.length l.length).zip l).foldlM (fun lines e => do
        let x ← vget (verts.map (fun e => (⟨true, some e.2, none, e.1⟩ : TEntry W))) e.1
        if x.marked ∧ x.death.isNone ∧ x.simplex.length < dim then
          pure (lines ++ (match x.birth with | some b => [(0, b, eps)] | none => []))
        else pure lines) lines =
      (.ok (lines ++ if 2 ≤ dim then l.map (fun e => (0, e.2, eps)) else []) : Res _) := by
    intro pre l
    induction l generalizing pre with
    | nil => intro lines _; simp [pure, Except.pure]
    | cons e l ih =>
      intro lines hpre
      rw [List.length_cons, List.range'_succ, List.zip_cons_cons, List.foldlM_cons]
      have hg : vget (verts.map (fun e => (⟨true, some e.2, none, e.1⟩ : TEntry W))) pre.length =
          .ok ⟨true, some e.2, none, e.1⟩ := by
        rw [hpre]; simp [vget]
      have he := hv e (by rw [hpre]; simp)
      simp only [hg, bind, Except.bind]
      have := ih (pre ++ [e])
      simp only [List.length_append, List.length_singleton, bind, Except.bind] at this
      by_cases hd : 2 ≤ dim
      · simp only [he, show 1 < dim by omega, Option.isNone_none, and_self, if_true]
        simp only [pure, Except.pure]
        simp only [pure, Except.pure] at this
        rw [this _ (by rw [hpre]; simp)]
        simp [hd]
      · simp only [he, show ¬ 1 < dim by omega, and_false, if_false]
        simp only [pure, Except.pure]
        simp only [pure, Except.pure] at this
        rw [this _ (by rw [hpre]; simp)]
        simp [hd]
  have := key [] verts [] rfl
  simp only [bind, Except.bind, List.length_nil, List.nil_append] at this
  exact this

example : FilteredComplex square ∧ (∀ l ∈ square, l ≠ []) ∧ 2 ≤ square.length ∧
    runPersistencePairs 2 9 square = .error .oob ∧
    runOptPersistencePairs 2 9 square = .error .oob ∧
    runPersistencePairs 2 9 (square.take 1) = .ok [(0, 0, 9), (0, 0, 9), (0, 0, 9), (0, 0, 9)] :=
  ⟨square_filtered, by decide, by decide, rfl, rfl, rfl⟩

end

end LHF
