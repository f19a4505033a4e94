import Verif.Lemmas.ArrayInsert
import Verif.Props.Distance
import Mathlib.Data.Set.Card

/-! C12–C16, C19–C21 (array part): `simplexArrayList`. -/

namespace LHF
open Spec

/-- Insert the cloud into an empty complex, then `expandDimensions(dim)`. -/
def Spec.buildArray {K W : Type _} [LinearOrder W] [Ring W] (eps : W) (maxDim dim : Nat)
    (dm : List (List W)) (data : List (List K)) : Res (Graph W) := do
  let g ← arrayInsertAll eps maxDim dm data []
  expandDimensions dim g

/-! ### C12 -/

/-- C12: with `maxDimension > 0`, the vertices are `0..n-1`, each once and with weight 0, and the
edges are exactly the pairs `j < i` at distance `≤ eps`, each once, with their distance. -/
theorem C12_insert_builds_graph {K W : Type _} [LinearOrder W] [Zero W] (eps : W) (maxDim : Nat)
    (hm : 0 < maxDim) (dm : List (List W)) (d : Nat → Nat → W) (data : List (List K))
    (hne : ∀ p ∈ data, p ≠ [])
    (hdm : ∀ i j, j < i → i < data.length → at2 dm j i = .ok (d j i)) :
    ∃ vertices edges rest, arrayInsertAll eps maxDim dm data [] = .ok rest ∧
      rest = [vertices, edges].filter (fun l => l ≠ []) ∧
      vertices = (List.range data.length).map (fun i => ([i], 0)) ∧
      (edges.map Prod.fst).Nodup ∧
      ∀ s w, (s, w) ∈ edges ↔
        ∃ j i, j < i ∧ i < data.length ∧ d j i ≤ eps ∧ s = [j, i] ∧ w = d j i := by
  have hpc : pointCount data = data.length := by
    unfold pointCount
    rw [List.filter_eq_self.2]
    intro p hp; simpa using hne p hp
  have h := arrayInsertAll_spec (eps := eps) (d := d) (dm := dm) (maxDim := maxDim) data 0
    (fun _ i j hji hi => hdm i j hji (by omega))
  rw [hpc, Nat.zero_add] at h
  refine ⟨vertsOf data.length, edgesOf eps d data.length, _, h, ?_, rfl, ?_, ?_⟩
  · unfold insertedGraph
    by_cases h0 : data.length = 0
    · simp [h0, vertsOf, edgesOf]
    · have hv : vertsOf (W := W) data.length ≠ [] := by
        apply List.ne_nil_of_length_pos; simp [vertsOf]; omega
      rw [if_neg h0, if_pos hm]
      cases he : edgesOf eps d data.length with
      | nil => simp [hv, optLayer_nil]
      | cons x xs => simp [hv, optLayer_cons]
  · unfold edgesOf
    rw [List.map_flatMap, List.nodup_flatMap]
    constructor
    · intro i _
      unfold edgesTo
      rw [List.map_map]
      refine List.Nodup.map ?_ (List.nodup_range.filter _)
      intro a b h; simpa using h
    · refine List.Pairwise.imp ?_ (List.nodup_range (n := data.length))
      intro a b hab
      rw [Function.onFun, List.disjoint_left]
      intro s hs hs'
      obtain ⟨e, he, rfl⟩ := List.mem_map.1 hs
      obtain ⟨e', he', h⟩ := List.mem_map.1 hs'
      obtain ⟨j, _, _, rfl⟩ := mem_edgesTo.1 he
      obtain ⟨j', _, _, rfl⟩ := mem_edgesTo.1 he'
      simp at h
      exact hab h.2.symm
  · intro s w
    rw [mem_edgesOf]
    simp only [Prod.mk.injEq]

/-- C12: with `maxDimension = 0` only vertices are stored, and the matrix is not read. -/
theorem C12_dimension_zero {K W : Type _} [LinearOrder W] [Zero W] (eps : W)
    (dm : List (List W)) (data : List (List K)) (hne : ∀ p ∈ data, p ≠ []) (hd : data ≠ []) :
    arrayInsertAll eps 0 dm data [] =
      .ok [(List.range data.length).map (fun i => ([i], 0))] := by
  have hpc : pointCount data = data.length := by
    unfold pointCount
    rw [List.filter_eq_self.2]
    intro p hp; simpa using hne p hp
  have h := arrayInsertAll_spec (eps := eps) (d := fun _ _ => (0 : W)) (dm := dm) (maxDim := 0)
    data 0 (fun h => absurd h (by omega))
  rw [hpc, Nat.zero_add] at h
  have hl : data.length ≠ 0 := by simpa using hd
  have e : insertedGraph eps (fun _ _ => (0 : W)) 0 data.length =
      [(List.range data.length).map (fun i => ([i], 0))] := by
    simp [insertedGraph, vertsOf, hl]
  have e0 : insertedGraph eps (fun _ _ => (0 : W)) 0 0 = [] := by simp [insertedGraph]
  rw [e, e0] at h
  exact h

/-- C12: the boundary case is inclusive: an edge of length exactly epsilon is stored. -/
example : arrayInsertAll (3 : Int) 1 [[0, 3, 4], [0, 0, 2], [0, 0, 0]] [['a'], ['b'], ['c']] [] =
    .ok [[([0], 0), ([1], 0), ([2], 0)], [([0, 1], 3), ([1, 2], 2)]] := by decide

/-! ### C13, C14 -/

section
variable {K W : Type _} [LinearOrder W] [Ring W] [IsStrictOrderedRing W]

/-- C13, C14: inserting a cloud and expanding to `dim` stores exactly the simplices with at most
`max 1 dim + 1` vertices of the Vietoris–Rips complex at scale `eps` (pairwise distances `≤ eps`),
each once, in increasing vertex order, with its diameter as weight. -/
theorem C13_expansion_is_rips (eps : W) (maxDim dim : Nat) (hm : 0 < maxDim)
    (dm : List (List W)) (d : Nat → Nat → W) (h0 : ∀ i j, 0 ≤ d i j) (data : List (List K))
    (hne : ∀ p ∈ data, p ≠ [])
    (hdm : ∀ i j, j < i → i < data.length → at2 dm j i = .ok (d j i)) :
    ∃ g, Spec.buildArray eps maxDim dim dm data = .ok g ∧
      StoresRips g data.length d (fun i j => d i j ≤ eps) (max 1 dim) := by
  have hpc : pointCount data = data.length := by
    unfold pointCount
    rw [List.filter_eq_self.2]
    intro p hp; simpa using hne p hp
  have h := arrayInsertAll_spec (eps := eps) (d := d) (dm := dm) (maxDim := maxDim) data 0
    (fun _ i j hji hi => hdm i j hji (by omega))
  rw [hpc, Nat.zero_add, show insertedGraph eps d maxDim 0 = [] by simp [insertedGraph]] at h
  obtain ⟨g', h1, h2, -, -⟩ := expandLoop_spec (dim - 1) _ 1 2
    (insertedGraph_stores (n := data.length) (eps := eps) hm h0) (by omega) (by omega)
  refine ⟨g', ?_, ?_⟩
  · unfold Spec.buildArray expandDimensions
    rw [h, ok_bind, h1]
  · have e : max 1 (2 + (dim - 1) - 1) = max 1 dim := by omega
    rwa [e] at h2

/-- C13 for a cloud of points of ℝ^k, from the raw data: distance matrix pipe, insertion and
expansion give the Vietoris–Rips complex of the Euclidean distance. -/
theorem C13_rips_of_euclidean_cloud (eps : ℝ) (maxDim dim : Nat) (hm : 0 < maxDim) (k : Nat)
    (hk : 0 < k) (data : List (List ℝ)) (hdim : ∀ p ∈ data, p.length = k) :
    ∃ dm ws g, distMatrixPipe vectorsDistance eps [] data = .ok (dm, ws) ∧
      Spec.buildArray eps maxDim dim dm data = .ok g ∧
      StoresRips g data.length
        (fun i j => dist (Spec.point k (data.getD i [])) (Spec.point k (data.getD j [])))
        (fun i j => dist (Spec.point k (data.getD i [])) (Spec.point k (data.getD j [])) ≤ eps)
        (max 1 dim) := by
  obtain ⟨ws, h1, -, -⟩ := C11_distance_matrix_euclidean k hk data hdim eps
  obtain ⟨g, h2, h3⟩ := C13_expansion_is_rips eps maxDim dim hm _
    (fun i j => dist (Spec.point k (data.getD i [])) (Spec.point k (data.getD j [])))
    (fun i j => dist_nonneg) data
    (by
      intro p hp h
      have := hdim p hp
      rw [h] at this; simp at this; omega)
    (by
      intro i j hji hi
      have hj : j < data.length := by omega
      unfold at2
      have e : vget (table data.length (fun i j =>
          if i < j then dist (Spec.point k (data.getD i [])) (Spec.point k (data.getD j []))
          else 0)) j = .ok ((List.range data.length).map (fun i =>
            if j < i then dist (Spec.point k (data.getD j [])) (Spec.point k (data.getD i []))
            else 0)) := by
        rw [vget_ok]; simp [table, hj]
      rw [e, ok_bind, vget_ok]
      simp [hi, hji])
  exact ⟨_, ws, g, h1, h2, h3⟩

omit [IsStrictOrderedRing W] in
/-- C14: in a stored Rips complex a face never has a larger weight than a coface, and the weight of
a simplex with at least two vertices is the distance of one of its pairs of vertices. -/
theorem C14_face_weight_le {g : Graph W} {n D : Nat} {d : Nat → Nat → W}
    {near : Nat → Nat → Prop} (h : StoresRips g n d near D) {l l' : List (List Nat × W)}
    (hl : l ∈ g) (hl' : l' ∈ g) {s t : List Nat} {w w' : W} (hs : (s, w) ∈ l) (ht : (t, w') ∈ l')
    (hsub : ∀ v ∈ s, v ∈ t) : w ≤ w' := by
  have key : ∀ {l : List (List Nat × W)} {s w}, l ∈ g → (s, w) ∈ l → w = diam d s := by
    intro l s w hl hs
    obtain ⟨k, hk, e⟩ := List.mem_iff_getElem.1 hl
    have := h.only
    exact ((h.exact k s w (by omega)).1 ⟨l, by rw [← e]; exact List.getElem?_eq_getElem hk, hs⟩).2.2
  rw [key hl hs, key hl' ht]
  exact diam_mono d hsub

omit [Ring W] [IsStrictOrderedRing W] in
/-- C14: the diameter, as specified, is the least upper bound of the distances of pairs: it bounds
all of them, and it is attained (or 0 for a single vertex). -/
theorem C14_weight_is_largest_distance [Zero W] (d : Nat → Nat → W) (h0 : ∀ i j, 0 ≤ d i j)
    (s : List Nat) :
    (∀ i ∈ s, ∀ j ∈ s, i < j → d i j ≤ diam d s) ∧
    ((∃ i ∈ s, ∃ j ∈ s, i < j) → ∃ i ∈ s, ∃ j ∈ s, i < j ∧ diam d s = d i j) := by
  refine ⟨((diam_le_iff d s _).1 le_rfl).2, ?_⟩
  rintro ⟨i0, hi0, j0, hj0, hij0⟩
  have key : ∀ l : List W, (∀ x ∈ l, 0 ≤ x) → l ≠ [] → ∃ x ∈ l, l.foldr max 0 = x := by
    intro l hl hne
    induction l with
    | nil => exact absurd rfl hne
    | cons a l ih =>
      by_cases hl' : l = []
      · subst hl'; exact ⟨a, by simp, by simpa using hl a (by simp)⟩
      · obtain ⟨x, hx, e⟩ := ih (fun y hy => hl y (by simp [hy])) hl'
        rcases le_total a x with h | h
        · exact ⟨x, by simp [hx], by simp [e, h]⟩
        · exact ⟨a, by simp, by simp [e, h]⟩
  obtain ⟨x, hx, e⟩ := key (s.flatMap (fun i => (s.filter (fun j => i < j)).map (fun j => d i j)))
    (by
      intro x hx
      simp only [List.mem_flatMap, List.mem_map, List.mem_filter] at hx
      obtain ⟨i, _, j, _, rfl⟩ := hx
      exact h0 i j)
    (by
      apply List.ne_nil_of_mem (a := d i0 j0)
      simp only [List.mem_flatMap, List.mem_map, List.mem_filter, decide_eq_true_eq]
      exact ⟨i0, hi0, j0, ⟨hj0, hij0⟩, rfl⟩)
  simp only [List.mem_flatMap, List.mem_map, List.mem_filter, decide_eq_true_eq] at hx
  obtain ⟨i, hi, j, ⟨hj, hij⟩, rfl⟩ := hx
  exact ⟨i, hi, j, hj, hij, e⟩

/-- A square with one diagonal within epsilon: two triangles, no tetrahedron. -/
example : Spec.buildArray (6 : Int) 3 3 [[0, 4, 5, 4], [0, 0, 4, 7], [0, 0, 0, 4], [0, 0, 0, 0]]
    [['a'], ['b'], ['c'], ['d']] = .ok
    [[([0], 0), ([1], 0), ([2], 0), ([3], 0)],
     [([0, 1], 4), ([0, 2], 5), ([1, 2], 4), ([0, 3], 4), ([2, 3], 4)],
     [([0, 1, 2], 5), ([0, 2, 3], 5)]] := by decide

/-! ### C15 -/

omit [IsStrictOrderedRing W] in
/-- C15: every non-empty subset of a stored simplex is stored. (`StoresRips` is what
`C13_expansion_is_rips` establishes for every build.) -/
theorem C15_downward_closed {g : Graph W} {n D : Nat} {d : Nat → Nat → W}
    {near : Nat → Nat → Prop} (h : StoresRips g n d near D) {l : List (List Nat × W)}
    (hl : l ∈ g) {s t : List Nat} {w : W} (hs : (s, w) ∈ l) (ht : t.Pairwise (· < ·))
    (hne : t ≠ []) (hsub : ∀ v ∈ t, v ∈ s) : ∃ l' ∈ g, ∃ w', (t, w') ∈ l' := by
  obtain ⟨k, hk, e⟩ := List.mem_iff_getElem.1 hl
  have := h.only
  have hs' := (h.exact k s w (by omega)).1 ⟨l, by rw [← e]; exact List.getElem?_eq_getElem hk, hs⟩
  have hts : t.Sublist s := (sublist_iff_of_inc hs'.2.1.inc).2 ⟨ht, hsub⟩
  have hlen := hts.length_le
  have hpos : 0 < t.length := List.length_pos_iff.2 hne
  obtain ⟨l', h1, h2⟩ := (h.exact (t.length - 1) t (diam d t) (by omega)).2
    ⟨by omega, hs'.2.1.sub hne ht hsub, rfl⟩
  exact ⟨l', List.mem_of_getElem? h1, _, h2⟩

/-- C15 for the built complex. -/
theorem C15_build_is_simplicial_complex (eps : W) (maxDim dim : Nat) (hm : 0 < maxDim)
    (dm : List (List W)) (d : Nat → Nat → W) (h0 : ∀ i j, 0 ≤ d i j) (data : List (List K))
    (hne : ∀ p ∈ data, p ≠ [])
    (hdm : ∀ i j, j < i → i < data.length → at2 dm j i = .ok (d j i)) :
    ∃ g, Spec.buildArray eps maxDim dim dm data = .ok g ∧
      ∀ s t : List Nat, t.Pairwise (· < ·) → t ≠ [] → (∀ v ∈ t, v ∈ s) →
        (∃ l ∈ g, ∃ w, (s, w) ∈ l) → ∃ l ∈ g, ∃ w, (t, w) ∈ l := by
  obtain ⟨g, h1, h2⟩ := C13_expansion_is_rips eps maxDim dim hm dm d h0 data hne hdm
  refine ⟨g, h1, ?_⟩
  rintro s t ht hne' hsub ⟨l, hl, w, hs⟩
  exact C15_downward_closed h2 hl hs ht hne' hsub

/-! ### C16 -/

/-- C16: expanding again to the same or a smaller dimension changes nothing at all (not even the
order of the simplices), and expanding to `a` and then to `b ≥ a` gives the same lists as expanding
to `b` directly. -/
theorem C16_expand_idempotent_monotone (eps : W) (maxDim a b : Nat) (hm : 0 < maxDim)
    (dm : List (List W)) (d : Nat → Nat → W) (h0 : ∀ i j, 0 ≤ d i j) (data : List (List K))
    (hne : ∀ p ∈ data, p ≠ [])
    (hdm : ∀ i j, j < i → i < data.length → at2 dm j i = .ok (d j i)) (hab : a ≤ b) :
    ∃ ga gb, Spec.buildArray eps maxDim a dm data = .ok ga ∧
      Spec.buildArray eps maxDim b dm data = .ok gb ∧
      expandDimensions a gb = .ok gb ∧ expandDimensions b ga = .ok gb ∧ ∃ more, gb = ga ++ more := by
  obtain ⟨ga, h1, h2⟩ := C13_expansion_is_rips eps maxDim a hm dm d h0 data hne hdm
  obtain ⟨gb, h3, h4⟩ := C13_expansion_is_rips eps maxDim b hm dm d h0 data hne hdm
  refine ⟨ga, gb, h1, h3, ?_⟩
  obtain ⟨g', e1, -, -, e2⟩ := expandLoop_spec (a - 1) gb (max 1 b) 2 h4 (by omega) (by omega)
  have e3 := e2 (by omega)
  subst e3
  obtain ⟨ga', f1, -, -, f2⟩ := expandLoop_spec (a - 1) ga (max 1 a) 2 h2 (by omega) (by omega)
  have f3 := f2 (by omega)
  subst f3
  obtain ⟨x, p1, -, p2, -⟩ := expandLoop_spec (b - 1) ga' (max 1 a) 2 h2 (by omega) (by omega)
  have hmain : expandDimensions b ga' = .ok g' := by
    unfold Spec.buildArray at h1 h3
    rw [bind_ok] at h1 h3
    obtain ⟨g0, q1, q2⟩ := h1
    obtain ⟨g0', q3, q4⟩ := h3
    rw [q1] at q3
    cases q3
    unfold expandDimensions at q2 q4 ⊢
    have r1 := expandLoop_append (a - 1) (b - 1 - (a - 1)) _ _ _ q2
    have r2 := expandLoop_append (a - 1) (b - 1 - (a - 1)) _ _ _ f1
    rw [show a - 1 + (b - 1 - (a - 1)) = b - 1 by omega] at r1 r2
    rw [r2, ← r1, q4]
  refine ⟨e1, hmain, ?_⟩
  unfold expandDimensions at hmain
  rw [p1] at hmain
  cases hmain
  exact p2

/-! ### C19 (array part) -/

theorem foldl_length_sum {E : Type _} (g : List (List E)) (n : Nat) :
    g.foldl (fun n layer => n + layer.length) n = n + g.flatten.length := by
  induction g generalizing n with
  | nil => simp
  | cons l g ih => rw [List.foldl_cons, ih, List.flatten_cons, List.length_append]; omega

omit [IsStrictOrderedRing W] in
theorem mem_flatten_iff {g : Graph W} {n D : Nat} {d : Nat → Nat → W}
    {near : Nat → Nat → Prop} (h : StoresRips g n d near D) (s : List Nat) :
    s ∈ g.flatten.map Prod.fst ↔ IsSimplex n near s ∧ s.length ≤ D + 1 := by
  rw [List.mem_map]
  constructor
  · rintro ⟨⟨s', w⟩, he, rfl⟩
    obtain ⟨l, hl, hs⟩ := List.mem_flatten.1 he
    obtain ⟨k, hk, e⟩ := List.mem_iff_getElem.1 hl
    have := h.only
    have h2 := (h.exact k s' w (by omega)).1 ⟨l, by rw [← e]; exact List.getElem?_eq_getElem hk, hs⟩
    exact ⟨h2.2.1, by simp only; omega⟩
  · rintro ⟨h1, h2⟩
    have hpos : 0 < s.length := List.length_pos_iff.2 h1.1
    obtain ⟨l, e1, e2⟩ := (h.exact (s.length - 1) s (diam d s) (by omega)).2 ⟨by omega, h1, rfl⟩
    exact ⟨(s, diam d s), List.mem_flatten.2 ⟨l, List.mem_of_getElem? e1, e2⟩, rfl⟩

omit [IsStrictOrderedRing W] in
theorem nodup_flatten {g : Graph W} {n D : Nat} {d : Nat → Nat → W}
    {near : Nat → Nat → Prop} (h : StoresRips g n d near D) : (g.flatten.map Prod.fst).Nodup := by
  rw [List.map_flatten, List.nodup_flatten]
  constructor
  · intro l hl
    obtain ⟨l', h', rfl⟩ := List.mem_map.1 hl
    exact h.once l' h'
  · rw [List.pairwise_map, List.pairwise_iff_getElem]
    intro i j hi hj hij
    rw [List.disjoint_left]
    intro s hs hs'
    obtain ⟨⟨s1, w1⟩, m1, rfl⟩ := List.mem_map.1 hs
    obtain ⟨⟨s2, w2⟩, m2, e⟩ := List.mem_map.1 hs'
    have := h.only
    have r1 := (h.exact i s1 w1 (by omega)).1 ⟨_, List.getElem?_eq_getElem hi, m1⟩
    have r2 := (h.exact j s2 w2 (by omega)).1 ⟨_, List.getElem?_eq_getElem hj, m2⟩
    simp only at e
    subst e
    omega

omit [IsStrictOrderedRing W] in
/-- C19, array complex: `simplexCount` is the number of simplices of the Rips complex up to the
dimension that was built, and `vertexCount` the number of points. -/
theorem C19_array_counts {g : Graph W} {n D : Nat} {d : Nat → Nat → W}
    {near : Nat → Nat → Prop} (h : StoresRips g n d near D) :
    arraySimplexCount g = Set.ncard {s : List Nat | IsSimplex n near s ∧ s.length ≤ D + 1} ∧
    arrayVertexCount g = .ok n := by
  constructor
  · unfold arraySimplexCount
    rw [foldl_length_sum, Nat.zero_add]
    have : {s : List Nat | IsSimplex n near s ∧ s.length ≤ D + 1} =
        ((g.flatten.map Prod.fst).toFinset : Set (List Nat)) := by
      ext s
      rw [Set.mem_ofPred_eq, ← mem_flatten_iff h]
      simp only [List.coe_toFinset, Set.mem_ofPred_eq]
    rw [this, Set.ncard_coe_finset, List.toFinset_card_of_nodup (nodup_flatten h),
      List.length_map]
  · have key : ∀ s, (∃ l w, g[0]? = some l ∧ (s, w) ∈ l) ↔ ∃ i < n, s = [i] := by
      intro s
      constructor
      · rintro ⟨l, w, h1, h2⟩
        have := (h.exact 0 s w (Nat.zero_le _)).1 ⟨l, h1, h2⟩
        obtain ⟨i, rfl⟩ := List.length_eq_one_iff.1 this.1
        exact ⟨i, this.2.1.2.2.1 i (by simp), rfl⟩
      · rintro ⟨i, hi, rfl⟩
        obtain ⟨l, h1, h2⟩ := (h.exact 0 [i] (diam d [i]) (Nat.zero_le _)).2 ⟨rfl,
          ⟨by simp, by simp, by simpa using hi, by
            intro a ha b hb hab
            simp only [List.mem_singleton] at ha hb
            omega⟩, rfl⟩
        exact ⟨l, _, h1, h2⟩
    unfold arrayVertexCount
    cases g with
    | nil =>
      have : n = 0 := by
        by_contra hn
        obtain ⟨l, w, h1, -⟩ := (key [0]).2 ⟨0, by omega, rfl⟩
        simp at h1
      simp [this, pure_eq_ok]
    | cons l g =>
      rw [if_neg (by simp)]
      have hv : vget (l :: g) 0 = .ok l := rfl
      rw [hv, ok_bind, pure_eq_ok]
      have hperm : (l.map Prod.fst).Perm ((List.range n).map (fun i => [i])) := by
        rw [List.perm_ext_iff_of_nodup (h.once l (by simp))
          (List.Nodup.map (fun a b h => by simpa using h) List.nodup_range)]
        intro s
        rw [List.mem_map, List.mem_map]
        have := key s
        simp only [List.getElem?_cons_zero, Option.some.injEq] at this
        constructor
        · rintro ⟨⟨s', w⟩, h1, rfl⟩
          obtain ⟨i, hi, e⟩ := this.1 ⟨l, w, rfl, h1⟩
          exact ⟨i, by simpa using hi, e.symm⟩
        · rintro ⟨i, hi, rfl⟩
          obtain ⟨l', w, rfl, h2⟩ := this.2 ⟨i, by simpa using hi, rfl⟩
          exact ⟨_, h2, rfl⟩
      have := hperm.length_eq
      simp at this
      rw [this]

end

/-! ### C20 (array part) -/

/-- C20, array complex: `getAllEdges` returns, for each non-empty layer and in that order, a
permutation of its simplices in non-decreasing weight order. It holds for every stored state whose
simplices are increasing vertex lists and for every sorting algorithm. -/
theorem C20_array_filtration_order {W : Type _} [LinearOrder W]
    (sort : SortBySecond (List Nat) W) (g : Graph W)
    (hg : ∀ l ∈ g, ∀ e ∈ l, e.1.Pairwise (· < ·)) :
    List.Forall₂ (fun out layer => out.Perm layer ∧ out.Pairwise (fun a b => a.2 ≤ b.2))
      (arrayGetAllEdges sort g) (g.filter (fun l => l ≠ [])) := by
  induction g with
  | nil => exact List.Forall₂.nil
  | cons l g ih =>
    have ih' := ih (fun l' h => hg l' (by simp [h]))
    have hmap : l.map (fun e => (toSet e.1, e.2)) = l := by
      conv_rhs => rw [← List.map_id l]
      apply List.map_congr_left
      intro e he
      rw [toSet_of_inc (hg l (by simp) e he)]; rfl
    unfold arrayGetAllEdges at ih' ⊢
    cases l with
    | nil => simpa using ih'
    | cons x xs =>
      rw [List.filterMap_cons]
      simp only [hmap, List.length_cons, gt_iff_lt, Nat.zero_lt_succ, if_true]
      rw [List.filter_cons_of_pos (by simp)]
      exact List.Forall₂.cons ⟨sort.perm _, sort.sorted _⟩ ih'

example : arrayGetAllEdges (SortBySecond.insertion (List Nat) Int)
    [[([0], 0), ([1], 0), ([2], 0)], [([0, 1], 3), ([1, 2], 2)]] =
    [[([0], 0), ([1], 0), ([2], 0)], [([1, 2], 2), ([0, 1], 3)]] := by decide

/-! ### C21 -/

/-- The vertex list `v` is stored with weight `w`. -/
def Spec.Stored {W : Type _} (g : Graph W) (v : List Nat) (w : W) : Prop :=
  ∃ layer ∈ g, (v, w) ∈ layer

/-- Simplices are in the layer of their dimension and stored once. -/
def Spec.Layered {W : Type _} (g : Graph W) : Prop :=
  ∀ k layer, g[k]? = some layer →
    (∀ e ∈ layer, e.1.length = k + 1) ∧ (layer.map Prod.fst).Nodup

theorem Spec.StoresRips.layered {W : Type _} [LinearOrder W] [Zero W] {g : Graph W} {n D : Nat}
    {d : Nat → Nat → W} {near : Nat → Nat → Prop} (h : StoresRips g n d near D) : Layered g := by
  intro k layer hk
  refine ⟨?_, h.once _ (List.mem_of_getElem? hk)⟩
  rintro ⟨s, w⟩ he
  have := h.only
  have hlt := (List.getElem?_eq_some_iff.1 hk).1
  exact ((h.exact k s w (by omega)).1 ⟨layer, hk, he⟩).1

theorem stored_iff {W : Type _} {g : Graph W} (hg : Layered g) {v : List Nat} {w : W} :
    Stored g v w ↔ ∃ layer, v ≠ [] ∧ g[v.length - 1]? = some layer ∧ (v, w) ∈ layer := by
  constructor
  · rintro ⟨layer, h1, h2⟩
    obtain ⟨k, hk, e⟩ := List.mem_iff_getElem.1 h1
    have hk' : g[k]? = some layer := by rw [← e]; exact List.getElem?_eq_getElem hk
    have := (hg k layer hk').1 _ h2
    simp only at this
    refine ⟨layer, List.ne_nil_of_length_pos (by omega), ?_, h2⟩
    rw [this, Nat.add_sub_cancel]; exact hk'
  · rintro ⟨layer, -, h1, h2⟩
    exact ⟨layer, List.mem_of_getElem? h1, h2⟩

/-- C21: `find` answers exactly whether the (non-empty) simplex is stored, for every vector. -/
theorem C21_find_exact {W : Type _} (g : Graph W) (hg : Layered g) (v : List Nat) (hv : v ≠ []) :
    ∃ b, arrayFind g v = .ok b ∧ (b = true ↔ ∃ w, Stored g v w) := by
  have hpos : 0 < v.length := List.length_pos_iff.2 hv
  unfold arrayFind
  rw [szPred_pos hpos]
  split_ifs with h
  · rw [vget_of_lt (by omega), ok_bind, pure_eq_ok]
    refine ⟨_, rfl, ?_⟩
    rw [List.any_eq_true]
    constructor
    · rintro ⟨⟨s, w⟩, h1, h2⟩
      simp only [decide_eq_true_eq] at h2
      subst h2
      exact ⟨w, _, List.getElem_mem _, h1⟩
    · rintro ⟨w, hs⟩
      obtain ⟨layer, -, h1, h2⟩ := (stored_iff hg).1 hs
      obtain ⟨h3, h4⟩ := List.getElem?_eq_some_iff.1 h1
      exact ⟨(v, w), by rw [h4]; exact h2, by simp⟩
  · refine ⟨false, rfl, ?_⟩
    simp only [Bool.false_eq_true, false_iff, not_exists]
    intro w hs
    obtain ⟨layer, -, h1, h2⟩ := (stored_iff hg).1 hs
    have := (List.getElem?_eq_some_iff.1 h1).1
    omega

/-- C21: `find` of the empty vector reads out of range, even on an empty complex. -/
theorem C21_find_empty {W : Type _} (g : Graph W) (hsz : g.length < 2 ^ 64 - 1) :
    arrayFind g [] = .error .oob := by
  have h : szPred 0 ≥ g.length := by
    have : szPred 0 = 2 ^ 64 - 1 := by decide
    omega
  unfold arrayFind
  rw [if_pos (by simp), List.length_nil, vget_error h]; rfl

/-- C21: `findWeight` of a vector with at most as many vertices as there are layers returns its
weight if stored and -1 otherwise. -/
theorem C21_findWeight_exact {W : Type _} [Neg W] [One W] (g : Graph W) (hg : Layered g)
    (v : List Nat) (hv : v ≠ []) (hl : v.length ≤ g.length) :
    ∃ w, findWeight g v = .ok w ∧ (∀ w', Stored g v w' → w = w') ∧
      ((¬ ∃ w', Stored g v w') → w = -1) := by
  have hpos : 0 < v.length := List.length_pos_iff.2 hv
  have hlt : v.length - 1 < g.length := by omega
  unfold findWeight
  rw [szPred_pos hpos, vget_of_lt hlt, ok_bind]
  have hnd := (hg _ _ (List.getElem?_eq_getElem hlt)).2
  cases hf : (g[v.length - 1]).find? (fun e => decide (e.1 = v)) with
  | none =>
    rw [List.find?_eq_none] at hf
    refine ⟨-1, rfl, ?_, fun _ => rfl⟩
    intro w' hs
    obtain ⟨layer, -, h1, h2⟩ := (stored_iff hg).1 hs
    obtain ⟨h3, h4⟩ := List.getElem?_eq_some_iff.1 h1
    rw [h4] at hf
    exact absurd (hf _ h2) (by simp)
  | some e =>
    have h1 := List.find?_some hf
    have h2 := List.mem_of_find?_eq_some hf
    simp only [decide_eq_true_eq] at h1
    obtain ⟨s, w⟩ := e
    simp only at h1
    subst h1
    refine ⟨w, rfl, ?_, fun h => absurd ⟨w, _, List.getElem_mem _, h2⟩ h⟩
    intro w' hs
    obtain ⟨layer, -, h3, h4⟩ := (stored_iff hg).1 hs
    obtain ⟨h5, h6⟩ := List.getElem?_eq_some_iff.1 h3
    rw [← h6] at h4
    have := List.inj_on_of_nodup_map hnd h2 h4 rfl
    exact (Prod.ext_iff.1 this).2

/-- C21: with non-negative weights `findWeight` is -1 exactly for absent simplices. -/
theorem C21_findWeight_negative_iff {W : Type _} [LinearOrder W] [Ring W] [IsStrictOrderedRing W]
    (g : Graph W) (hg : Layered g) (hw : ∀ l ∈ g, ∀ e ∈ l, 0 ≤ e.2)
    (v : List Nat) (hv : v ≠ []) (hl : v.length ≤ g.length) :
    findWeight g v = .ok (-1) ↔ ¬ ∃ w, Stored g v w := by
  obtain ⟨w, h1, h2, h3⟩ := C21_findWeight_exact g hg v hv hl
  rw [h1]
  constructor
  · intro h
    cases h
    rintro ⟨w', hs⟩
    have e := h2 w' hs
    obtain ⟨l, hl', hm⟩ := hs
    have := hw l hl' _ hm
    rw [← e] at this
    exact absurd this (not_le.2 neg_one_lt_zero')
  · intro h; rw [h3 h]

/-- C21: outside that range `findWeight` reads out of range. -/
theorem C21_findWeight_oob {W : Type _} [Neg W] [One W] (g : Graph W) (v : List Nat)
    (hl : g.length < v.length) : findWeight g v = .error .oob := by
  unfold findWeight
  rw [szPred_pos (by omega), vget_error (by omega)]; rfl

/-- C21: `deletion` removes exactly the given simplex, and reports whether it was there. -/
theorem C21_deletion_exact {W : Type _} (g : Graph W) (hg : Layered g) (v : List Nat)
    (hv : v ≠ []) (hl : v.length ≤ g.length) :
    ∃ g' b, arrayDeletion g v = .ok (g', b) ∧ (b = true ↔ ∃ w, Stored g v w) ∧
      (∀ s w, Stored g' s w ↔ Stored g s w ∧ s ≠ v) ∧ Layered g' := by
  have hpos : 0 < v.length := List.length_pos_iff.2 hv
  have hlt : v.length - 1 < g.length := by omega
  have hlay := List.getElem?_eq_getElem hlt
  have hnd := (hg _ _ hlay).2
  unfold arrayDeletion
  rw [szPred_pos hpos, vget_of_lt hlt, ok_bind]
  split_ifs with h
  · have hm : vmodify g (v.length - 1) (fun l => l.eraseP (fun e => decide (e.1 = v))) =
        .ok (g.modify (v.length - 1) (fun l => l.eraseP (fun e => decide (e.1 = v)))) := by
      unfold vmodify; rw [if_pos hlt]
    rw [hm, ok_bind, pure_eq_ok]
    -- in a duplicate-free layer erasing the first match is filtering
    have herase : ∀ l : List (List Nat × W), (l.map Prod.fst).Nodup → ∀ e,
        e ∈ l.eraseP (fun e => decide (e.1 = v)) ↔ e ∈ l ∧ e.1 ≠ v := by
      intro l
      induction l with
      | nil => simp
      | cons x xs ih =>
        intro hx e
        rw [List.map_cons, List.nodup_cons] at hx
        rw [List.eraseP_cons]
        by_cases hxv : x.1 = v
        · simp only [hxv, decide_true, cond_true, List.mem_cons]
          constructor
          · intro he
            refine ⟨Or.inr he, ?_⟩
            rintro h'
            exact hx.1 (List.mem_map.2 ⟨e, he, by rw [h', hxv]⟩)
          · rintro ⟨rfl | he, hne⟩
            · exact absurd hxv hne
            · exact he
        · simp only [hxv, decide_false, cond_false, List.mem_cons, ih hx.2]
          constructor
          · rintro (rfl | ⟨h1, h2⟩)
            · exact ⟨Or.inl rfl, hxv⟩
            · exact ⟨Or.inr h1, h2⟩
          · rintro ⟨rfl | h1, h2⟩
            · exact Or.inl rfl
            · exact Or.inr ⟨h1, h2⟩
    have hget : ∀ k, (g.modify (v.length - 1) (fun l => l.eraseP (fun e => decide (e.1 = v))))[k]? =
        if v.length - 1 = k then (g[k]?).map (fun l => l.eraseP (fun e => decide (e.1 = v)))
        else g[k]? := by
      intro k
      rw [List.getElem?_modify]
      split_ifs <;> simp
    have hlayered : Layered (g.modify (v.length - 1) (fun l => l.eraseP (fun e => decide (e.1 = v)))) := by
      intro k layer hk
      rw [hget] at hk
      split_ifs at hk with hc
      · rw [Option.map_eq_some_iff] at hk
        obtain ⟨l, h1, rfl⟩ := hk
        obtain ⟨h2, h3⟩ := hg k l h1
        exact ⟨fun e he => h2 e (List.mem_of_mem_eraseP he),
          h3.sublist (List.Sublist.map _ List.eraseP_sublist)⟩
      · exact hg k layer hk
    refine ⟨_, true, rfl, ?_, ?_, hlayered⟩
    · simp only [true_iff]
      rw [List.any_eq_true] at h
      obtain ⟨⟨s, w⟩, h1, h2⟩ := h
      simp only [decide_eq_true_eq] at h2
      subst h2
      exact ⟨w, _, List.getElem_mem _, h1⟩
    · intro s w
      rw [stored_iff hlayered, stored_iff hg]
      constructor
      · rintro ⟨layer, h1, h2, h3⟩
        rw [hget] at h2
        split_ifs at h2 with hc
        · rw [Option.map_eq_some_iff] at h2
          obtain ⟨l, h4, rfl⟩ := h2
          have := (herase l (hg _ _ h4).2 _).1 h3
          exact ⟨⟨l, h1, h4, this.1⟩, this.2⟩
        · refine ⟨⟨layer, h1, h2, h3⟩, ?_⟩
          rintro rfl; exact hc rfl
      · rintro ⟨⟨layer, h1, h2, h3⟩, hne⟩
        by_cases hc : v.length - 1 = s.length - 1
        · refine ⟨layer.eraseP (fun e => decide (e.1 = v)), h1, ?_, ?_⟩
          · rw [hget, if_pos hc, h2]; rfl
          · exact (herase layer (hg _ _ h2).2 _).2 ⟨h3, hne⟩
        · exact ⟨layer, h1, by rw [hget, if_neg hc]; exact h2, h3⟩
  · refine ⟨g, false, rfl, ?_, ?_, hg⟩
    · simp only [Bool.false_eq_true, false_iff]
      rintro ⟨w, hs⟩
      apply h
      obtain ⟨layer, -, h3, h4⟩ := (stored_iff hg).1 hs
      obtain ⟨h5, h6⟩ := List.getElem?_eq_some_iff.1 h3
      rw [List.any_eq_true]
      exact ⟨(v, w), by rw [h6]; exact h4, by simp⟩
    · intro s w
      constructor
      · intro hs
        refine ⟨hs, ?_⟩
        rintro rfl
        apply h
        obtain ⟨layer, -, h3, h4⟩ := (stored_iff hg).1 hs
        obtain ⟨h5, h6⟩ := List.getElem?_eq_some_iff.1 h3
        rw [List.any_eq_true]
        exact ⟨(s, w), by rw [h6]; exact h4, by simp⟩
      · intro hs; exact hs.1

/-- C21: after `clear` nothing is stored and inserting a new cloud builds what it builds in a fresh
object. -/
theorem C21_clear {K W : Type _} [LinearOrder W] [Zero W] (g : Graph W) (eps : W) (maxDim : Nat)
    (dm : List (List W)) (data : List (List K)) :
    (∀ v w, ¬ Stored (arrayClear g) v w) ∧ arraySimplexCount (arrayClear g) = 0 ∧
    arrayInsertAll eps maxDim dm data (arrayClear g) = arrayInsertAll eps maxDim dm data [] := by
  refine ⟨?_, rfl, rfl⟩
  rintro v w ⟨l, hl, -⟩
  simp [arrayClear] at hl

/-- `Layered` states with several layers exist (and every built complex is one, by
`Spec.StoresRips.layered` and C13). -/
example : arrayDeletion [[([0], (0 : Int)), ([1], 0)], [([0, 1], 3)]] [0, 1] =
    .ok ([[([0], 0), ([1], 0)], []], true) := by decide

end LHF
