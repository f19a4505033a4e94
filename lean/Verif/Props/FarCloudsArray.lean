import Verif.Props.FarClouds
import Verif.Lemmas.FarArray

/-! C111 in all dimensions for `simplexArrayList`. -/

namespace LHF
open Spec

theorem vertsOf_far (n m : Nat) : (vertsOf (n + m) : List (List Nat × ℝ)) =
    vertsOf n ++ (vertsOf m).map (mapE (· + n)) := by
  unfold vertsOf
  rw [List.range_add, List.map_append, List.map_map, List.map_map]
  congr 1
  apply List.map_congr_left
  intro i _
  simp [mapE, Nat.add_comm]

theorem edgesOf_far {eps : ℝ} {d dA dB : Nat → Nat → ℝ} {n m : Nat}
    (hA : ∀ j i, j < i → i < n → d j i = dA j i) (hB : ∀ j i, j < i → i < m → d (j + n) (i + n) = dB j i)
    (hfar : ∀ j i, j < n → i < m → eps < d j (i + n)) :
    edgesOf eps d (n + m) = edgesOf eps dA n ++ (edgesOf eps dB m).map (mapE (· + n)) := by
  unfold edgesOf
  rw [List.range_add, List.flatMap_append, List.flatMap_map, List.map_flatMap]
  congr 1
  · refine List.flatMap_congr fun i hi => ?_
    rw [List.mem_range] at hi
    unfold edgesTo
    rw [List.filter_congr (q := fun j => decide (dA j i ≤ eps)) (by
      intro j hj
      rw [List.mem_range] at hj
      rw [hA j i hj hi])]
    apply List.map_congr_left
    intro j hj
    have := List.mem_range.1 (List.mem_filter.1 hj).1
    rw [hA j i this hi]
  · refine List.flatMap_congr fun i hi => ?_
    rw [List.mem_range] at hi
    unfold edgesTo
    rw [List.range_add, List.filter_append, List.map_append, List.filter_map, List.map_map, List.map_map]
    rw [List.filter_eq_nil_iff.2 (by
      intro j hj
      rw [List.mem_range] at hj
      have := hfar j i hj hi
      rw [Nat.add_comm n i]
      simpa using this), List.map_nil, List.nil_append]
    rw [List.filter_congr (q := fun j => decide (dB j i ≤ eps)) (by
      intro j hj
      rw [List.mem_range] at hj
      show decide (d (n + j) (n + i) ≤ eps) = _
      rw [Nat.add_comm n j, Nat.add_comm n i, hB j i hj hi])]
    apply List.map_congr_left
    intro j hj
    have := List.mem_range.1 (List.mem_filter.1 hj).1
    simp only [Function.comp, mapE, List.map_cons, List.map_nil]
    rw [Nat.add_comm n j, Nat.add_comm n i, hB j i this hi]

/-- All vertices below `n`. -/
def belowV (n : Nat) (v : List Nat) : Bool := v.all (fun x => decide (x < n))

theorem belowV_iff {n : Nat} {v : List Nat} : belowV n v = true ↔ ∀ x ∈ v, x < n := by
  simp [belowV]

theorem getD_optLayer (L : List (List Nat × ℝ)) (k : Nat) : (optLayer L).getD k [] = if k = 0 then L else [] := by
  cases L with
  | nil => simp [optLayer_nil]
  | cons x L =>
    cases k with
    | zero => rfl
    | succ k => simp [optLayer_cons]

theorem mapE_id : mapE (W := ℝ) (fun x => x) = id := by
  funext e
  simp [mapE]

theorem inserted_layer {eps : ℝ} {d : Nat → Nat → ℝ} {dim n : Nat} (hd : 0 < dim) (k : Nat) :
    (insertedGraph eps d dim n).getD k [] = if k = 0 then vertsOf n else if k = 1 then edgesOf eps d n else [] := by
  unfold insertedGraph
  by_cases hn : n = 0
  · rw [if_pos hn]
    subst hn
    match k with
    | 0 => simp [vertsOf]
    | 1 => simp [edgesOf]
    | k + 2 => simp
  · rw [if_neg hn, if_pos hd]
    match k with
    | 0 => simp
    | 1 => rw [List.getD_cons_succ, getD_optLayer]; simp
    | k + 2 => rw [List.getD_cons_succ, getD_optLayer]; simp

theorem inserted_full {eps : ℝ} {d : Nat → Nat → ℝ} {dim n : Nat} (hd : 0 < dim) :
    Full (insertedGraph eps d dim n) := by
  unfold insertedGraph
  by_cases hn : n = 0
  · rw [if_pos hn]
    intro l hl
    cases hl
  · rw [if_neg hn, if_pos hd]
    intro l hl
    rcases List.mem_cons.1 hl with rfl | hl
    · unfold vertsOf
      simpa using hn
    · unfold optLayer at hl
      split_ifs at hl with h
      · cases hl
      · rw [List.mem_singleton.1 hl]
        simpa using h

/-- The graph of all the rows and those of the two clouds. -/
theorem inserted_parts {eps : ℝ} {d dA dB : Nat → Nat → ℝ} {n m dim : Nat} (hd : 0 < dim)
    (hA : ∀ j i, j < i → i < n → d j i = dA j i) (hB : ∀ j i, j < i → i < m → d (j + n) (i + n) = dB j i)
    (hfar : ∀ j i, j < n → i < m → eps < d j (i + n)) :
    PartOf (fun x => x) (belowV n) (insertedGraph eps dA dim n) (insertedGraph eps d dim (n + m)) ∧
    PartOf (· + n) (fun v => !belowV n v) (insertedGraph eps dB dim m) (insertedGraph eps d dim (n + m)) := by
  have split : ∀ (LA LB : List (List Nat × ℝ)), (∀ e ∈ LA, ∀ x ∈ e.1, x < n) → (∀ e ∈ LB, e.1 ≠ []) →
      (LA ++ LB.map (mapE (· + n))).filter (fun e => belowV n e.1) = LA ∧
      (LA ++ LB.map (mapE (· + n))).filter (fun e => !belowV n e.1) = LB.map (mapE (· + n)) := by
    intro LA LB h1 h2
    have a : ∀ e ∈ LA, belowV n e.1 = true := fun e he => belowV_iff.2 (h1 e he)
    have b : ∀ e ∈ LB.map (mapE (· + n)), belowV n e.1 = false := by
      intro e he
      obtain ⟨e0, he0, rfl⟩ := List.mem_map.1 he
      obtain ⟨x, hx⟩ := List.exists_mem_of_ne_nil _ (h2 e0 he0)
      rw [← Bool.not_eq_true, belowV_iff]
      intro h
      have := h (x + n) (List.mem_map.2 ⟨x, hx, rfl⟩)
      omega
    constructor
    · rw [List.filter_append, List.filter_eq_self.2 a, List.filter_eq_nil_iff.2 (fun e he => by simp [b e he]),
        List.append_nil]
    · rw [List.filter_append, List.filter_eq_nil_iff.2 (fun e he => by simp [a e he]),
        List.filter_eq_self.2 (fun e he => by simp [b e he]), List.nil_append]
  obtain ⟨v1, v2⟩ := split (vertsOf n) (vertsOf m) (by
      intro e he x hx
      unfold vertsOf at he
      obtain ⟨i, hi, rfl⟩ := List.mem_map.1 he
      rw [List.mem_singleton] at hx
      rw [hx]
      exact List.mem_range.1 hi) (by
      intro e he
      unfold vertsOf at he
      obtain ⟨i, hi, rfl⟩ := List.mem_map.1 he
      simp)
  obtain ⟨e1, e2⟩ := split (edgesOf eps dA n) (edgesOf eps dB m) (by
      intro e he x hx
      obtain ⟨j, i, h1, h2, -, rfl⟩ := mem_edgesOf.1 he
      simp only [List.mem_cons, List.not_mem_nil, or_false] at hx
      omega) (by
      intro e he
      obtain ⟨j, i, h1, h2, -, rfl⟩ := mem_edgesOf.1 he
      simp)
  rw [← vertsOf_far] at v1 v2
  rw [← edgesOf_far hA hB hfar] at e1 e2
  constructor
  · intro k
    rw [inserted_layer hd, inserted_layer hd, mapE_id, List.map_id]
    split_ifs
    · exact v1.symm
    · exact e1.symm
    · rfl
  · intro k
    rw [inserted_layer hd, inserted_layer hd]
    split_ifs
    · exact v2.symm
    · exact e2.symm
    · rfl

/-- The sorted complexes of the two clouds and of all the rows. -/
theorem array_parts {sort : SortBySecond (List Nat) ℝ} (hsort : Stable sort) {mode : EndRead} {eps : ℝ}
    {dim k : Nat} (hd : 0 < dim) (hk : 0 < k) {data data' : List (List ℝ)} (hne : data ≠ []) (hne' : data' ≠ [])
    (hdim : ∀ p ∈ data, p.length = k) (hdim' : ∀ p ∈ data', p.length = k)
    (hfar : ∀ p ∈ data, ∀ q ∈ data', eps < dist (Spec.point k p) (Spec.point k q)) :
    ∃ eU eA eB : Graph ℝ, Interleaved data.length eU eA eB ∧ FilteredComplex eU ∧ FilteredComplex eA ∧
      FilteredComplex eB ∧ eA.length ≠ 0 ∧ eB.length ≠ 0 ∧
      arrayRun vectorsDistance sort mode eps dim data = fastPersistence mode dim eps eA [] [] ∧
      arrayRun vectorsDistance sort mode eps dim data' = fastPersistence mode dim eps eB [] [] ∧
      arrayRun vectorsDistance sort mode eps dim (data ++ data') = fastPersistence mode dim eps eU [] [] := by
  have hdim'' : ∀ p ∈ data ++ data', p.length = k := by
    intro p hp
    rcases List.mem_append.1 hp with h | h
    · exact hdim _ h
    · exact hdim' _ h
  obtain ⟨gA, a1, a2, a3⟩ := array_expanded sort mode eps dim hd k hk data hdim
  obtain ⟨gB, b1, b2, b3⟩ := array_expanded sort mode eps dim hd k hk data' hdim'
  obtain ⟨gU, u1, u2, u3⟩ := array_expanded sort mode eps dim hd k hk (data ++ data') hdim''
  have hcross : ∀ j i, j < data.length → i < data'.length →
      eps < rowDist k (data ++ data') j (i + data.length) := by
    intro i j hi hj
    unfold rowDist
    rw [List.getD_append _ _ _ _ hi, getD_append_shift, List.getD_eq_getElem _ _ hi,
      List.getD_eq_getElem _ _ hj]
    exact hfar _ (List.getElem_mem _) _ (List.getElem_mem _)
  rw [List.length_append] at u2 u3
  obtain ⟨pA, pB⟩ := inserted_parts (eps := eps) (d := rowDist k (data ++ data')) (dA := rowDist k data)
    (dB := rowDist k data') (n := data.length) (m := data'.length) hd
    (fun j i h1 h2 => rowDist_append_left k (by omega) h2) (fun j i _ _ => rowDist_append_right k data data' j i)
    hcross
  have sA := insertedGraph_stores (eps := eps) (d := rowDist k data) (maxDim := dim) (n := data.length) hd
    (fun _ _ => dist_nonneg)
  have sB := insertedGraph_stores (eps := eps) (d := rowDist k data') (maxDim := dim) (n := data'.length) hd
    (fun _ _ => dist_nonneg)
  have sU := insertedGraph_stores (eps := eps) (d := rowDist k (data ++ data')) (maxDim := dim)
    (n := data.length + data'.length) hd (fun _ _ => dist_nonneg)
  -- a simplex has its vertices on one side
  have side : ∀ v : List Nat, IsSimplex (data.length + data'.length)
      (fun i j => rowDist k (data ++ data') i j ≤ eps) v → ∀ x ∈ v, ∀ y ∈ v,
      x < data.length → y < data.length := by
    intro v hv x hx y hy hxn
    by_contra hyn
    have h1 := hv.2.2.1 y hy
    have h2 := hv.2.2.2 x hx y hy (by omega)
    have h3 := hcross x (y - data.length) hxn (by omega)
    rw [show y - data.length + data.length = y by omega] at h3
    exact absurd h2 (not_le.2 h3)
  have qA : PartOf (fun x => x) (belowV data.length) gA gU := by
    refine expandLoop_part (φ := fun x => x) (fun a b h => h) (M := data.length) ?_ ?_ dim 1 _ _ _ _ le_rfl sA sU
      (inserted_full hd) pA a3 u3
    · intro v _ hv
      rw [List.map_id', belowV_iff]
      exact hv
    · intro q
      refine mix_of (S := fun x => x < data.length) ?_
      intro v hv x hx
      rw [belowV_iff]
      exact ⟨fun h => h x hx, fun h y hy => side v hv x hx y hy h⟩
  have qB : PartOf (· + data.length) (fun v => !belowV data.length v) gB gU := by
    refine expandLoop_part (φ := (· + data.length)) (fun a b h => Nat.add_lt_add_right h _) (M := data'.length) ?_ ?_
      dim 1 _ _ _ _ le_rfl sB sU (inserted_full hd) pB b3 u3
    · intro v hv _
      obtain ⟨x, hx⟩ := List.exists_mem_of_ne_nil _ hv
      rw [Bool.not_eq_true', ← Bool.not_eq_true, belowV_iff]
      intro h
      have := h (x + data.length) (List.mem_map.2 ⟨x, hx, rfl⟩)
      omega
    · intro q
      refine mix_of (S := fun x => ¬ x < data.length) ?_
      intro v hv x hx
      rw [Bool.not_eq_true', ← Bool.not_eq_true, belowV_iff]
      exact ⟨fun h hx' => h (fun y hy => side v hv x hx y hy hx'), fun h h' => h (h' x hx)⟩
  obtain ⟨fA, soA⟩ := filtered_array a2 sort
  obtain ⟨fB, soB⟩ := filtered_array b2 sort
  obtain ⟨fU, soU⟩ := filtered_array u2 sort
  obtain ⟨gA1, gA2⟩ := arrayEdges_getD a2 sort
  obtain ⟨gB1, gB2⟩ := arrayEdges_getD b2 sort
  obtain ⟨gU1, gU2⟩ := arrayEdges_getD u2 sort
  have hfirst : ∀ q, ((arrayGetAllEdges sort gU).getD q []).filter (below data.length) =
      (arrayGetAllEdges sort gA).getD q [] := by
    intro q
    rw [gU1, gA1, ← stable_filter_of hsort]
    have := qA q
    rw [mapE_id, List.map_id] at this
    rw [this]
    rfl
  have hsecond : ∀ q, ((arrayGetAllEdges sort gU).getD q []).filter (fun e => !below data.length e) =
      ((arrayGetAllEdges sort gB).getD q []).map (shiftE data.length) := by
    intro q
    rw [gU1, gB1, ← stable_filter_of hsort, ← stable_map hsort (shiftE data.length) (fun _ => rfl)]
    have := qB q
    congr 1
    exact this.symm
  have hempty : ∀ q, (arrayGetAllEdges sort gU).getD q [] = [] ↔
      (arrayGetAllEdges sort gA).getD q [] = [] ∧ (arrayGetAllEdges sort gB).getD q [] = [] := by
    intro q
    rw [← hfirst q]
    have h2 := hsecond q
    constructor
    · intro h
      rw [h] at h2 ⊢
      exact ⟨rfl, List.map_eq_nil_iff.1 h2.symm⟩
    · rintro ⟨h, h'⟩
      rw [h', List.map_nil] at h2
      rw [List.filter_eq_nil_iff] at h h2
      rw [List.eq_nil_iff_forall_not_mem]
      intro e he
      have x1 := h e he
      have x2 := h2 e he
      cases hb : below data.length e <;> simp [hb] at x1 x2
  have hlayer : ∀ (G : Graph ℝ), (∀ l ∈ G, l ≠ []) → ∀ q, G.getD q [] = [] ↔ G.length ≤ q := by
    intro G hG q
    constructor
    · intro h
      by_contra hq
      rw [not_le] at hq
      rw [List.getD_eq_getElem _ _ hq] at h
      exact hG _ (List.getElem_mem hq) h
    · intro h
      exact List.getD_eq_default _ _ h
  have hlen : (arrayGetAllEdges sort gU).length = max (arrayGetAllEdges sort gA).length
      (arrayGetAllEdges sort gB).length := by
    have h : ∀ q, (arrayGetAllEdges sort gU).length ≤ q ↔ (arrayGetAllEdges sort gA).length ≤ q ∧
        (arrayGetAllEdges sort gB).length ≤ q := by
      intro q
      rw [← hlayer _ gU2, ← hlayer _ gA2, ← hlayer _ gB2]
      exact hempty q
    apply le_antisymm
    · exact (h _).2 ⟨le_max_left _ _, le_max_right _ _⟩
    · exact max_le_iff.2 ((h _).1 le_rfl)
  have hpos : ∀ {n : Nat} {d : Nat → Nat → ℝ} {near : Nat → Nat → Prop} {g : Graph ℝ}, 0 < n →
      StoresRips g n d near (dim + 1) → (∀ q, (arrayGetAllEdges sort g).getD q [] = sort.run (g.getD q [])) →
      (arrayGetAllEdges sort g).length ≠ 0 := by
    intro n d near g hn hg hrun h0
    obtain ⟨l, h1, h2⟩ := (hg.exact 0 [0] (diam d [0]) (by omega)).2 ⟨rfl, ⟨by simp, by simp, by simpa using hn, by
      intro i hi j hj hij
      simp only [List.mem_singleton] at hi hj
      omega⟩, rfl⟩
    have h3 := hrun 0
    rw [List.getD_eq_default _ _ (by omega), List.getD_eq_getElem?_getD, h1] at h3
    have h4 := (sort.perm l).mem_iff.2 h2
    rw [show sort.run l = [] from h3.symm] at h4
    cases h4
  exact ⟨_, _, _, ⟨hfirst, hsecond, hlen⟩, fU, fA, fB, hpos (List.length_pos_of_ne_nil hne) a2 gA1,
    hpos (List.length_pos_of_ne_nil hne') b2 gB1, a1, b1, u1⟩

/-- C111 (simplexArrayList, dimension 1 and up): with a stable sort and no further pivot past the end, if the runs on
the two clouds end, so does the run on all the rows, and its bars of dimension at least 1 are those of the two
clouds. -/
theorem C111_far_clouds_array_runs (sort : SortBySecond (List Nat) ℝ) (hsort : Stable sort) (eps : ℝ) (dim k : Nat)
    (hd : 0 < dim) (hk : 0 < k) (data data' : List (List ℝ)) (hne : data ≠ []) (hne' : data' ≠ [])
    (hdim : ∀ p ∈ data, p.length = k) (hdim' : ∀ p ∈ data', p.length = k)
    (hfar : ∀ p ∈ data, ∀ q ∈ data', eps < dist (Spec.point k p) (Spec.point k q))
    {lines lines' : List (Line ℝ)} {T T' : List (BettiEntry ℝ)}
    (hok : arrayRun vectorsDistance sort .noPivot eps dim data = .ok (lines, T))
    (hok' : arrayRun vectorsDistance sort .noPivot eps dim data' = .ok (lines', T')) :
    ∃ lines'' T'', arrayRun vectorsDistance sort .noPivot eps dim (data ++ data') = .ok (lines'', T'') ∧
      (lines''.filter (fun l => 1 ≤ l.1)).Perm
        (lines.filter (fun l => 1 ≤ l.1) ++ lines'.filter (fun l => 1 ≤ l.1)) := by
  obtain ⟨eU, eA, eB, h1, h2, h3, h4, h5, h6, h7, h8, h9⟩ := array_parts hsort (mode := .noPivot) (eps := eps) hd hk
    hne hne' hdim hdim' hfar
  rw [h7] at hok
  rw [h8] at hok'
  obtain ⟨rU, c1, c2⟩ := fast_far h1 h2 h3 h4 (fast_layers h5 hok) (fast_layers h6 hok') hok hok'
  exact ⟨rU.1, rU.2, by rw [h9, c1], c2⟩

/-- A run that ends without reading through the end iterator as libstdc++ does is the run without further
pivots. -/
theorem arrayRun_noPivot {sort : SortBySecond (List Nat) ℝ} {mode : EndRead} (hmode : mode ≠ .libstdcxx) {eps : ℝ}
    {dim k : Nat} (hd : 0 < dim) (hk : 0 < k) {data : List (List ℝ)} (hdim : ∀ p ∈ data, p.length = k)
    {r : List (Line ℝ) × List (BettiEntry ℝ)}
    (h : arrayRun vectorsDistance sort mode eps dim data = .ok r) :
    arrayRun vectorsDistance sort .noPivot eps dim data = .ok r := by
  obtain ⟨g, a1, a2, a3⟩ := array_expanded sort mode eps dim hd k hk data hdim
  obtain ⟨g', b1, b2, b3⟩ := array_expanded sort .noPivot eps dim hd k hk data hdim
  rw [a3] at b3
  cases b3
  rw [a1] at h
  rw [b1]
  by_cases h0 : (arrayGetAllEdges sort g).length = 0
  · unfold fastPersistence at h ⊢
    rw [if_pos h0] at h ⊢
    exact h
  · exact fast_noPivot hmode (filtered_array a2 sort).1 (fast_layers h0 h) h

/-- C111 (simplexArrayList, whole barcode), for runs that end. -/
theorem C111_far_clouds_array_all_partial (sort : SortBySecond (List Nat) ℝ) (hsort : Stable sort)
    (mode mode' mode'' : EndRead) (hmode : mode ≠ .libstdcxx) (hmode' : mode' ≠ .libstdcxx)
    (hmode'' : mode'' ≠ .libstdcxx) (eps : ℝ) (dim k : Nat) (hd : 0 < dim)
    (hk : 0 < k) (data data' : List (List ℝ)) (hne : data ≠ []) (hne' : data' ≠ [])
    (hdim : ∀ p ∈ data, p.length = k) (hdim' : ∀ p ∈ data', p.length = k)
    (hfar : ∀ p ∈ data, ∀ q ∈ data', eps < dist (Spec.point k p) (Spec.point k q))
    {lines lines' lines'' : List (Line ℝ)} {T T' T'' : List (BettiEntry ℝ)}
    (hok : arrayRun vectorsDistance sort mode eps dim data = .ok (lines, T))
    (hok' : arrayRun vectorsDistance sort mode' eps dim data' = .ok (lines', T'))
    (hok'' : arrayRun vectorsDistance sort mode'' eps dim (data ++ data') = .ok (lines'', T'')) :
    ((0, 0, eps) :: lines'').Perm (lines ++ lines') := by
  have h0 := C111_far_clouds_array_partial sort sort sort mode mode' mode'' eps dim dim dim k hd hd hd hk data data'
    hne hne' hdim hdim' hfar hok hok' hok''
  obtain ⟨l, T3, h1, h2⟩ := C111_far_clouds_array_runs sort hsort eps dim k hd hk data data' hne hne' hdim hdim' hfar
    (arrayRun_noPivot hmode hd hk hdim hok) (arrayRun_noPivot hmode' hd hk hdim' hok')
  have h3 := arrayRun_noPivot hmode'' hd hk (by
    intro p hp
    rcases List.mem_append.1 hp with h | h
    · exact hdim _ h
    · exact hdim' _ h) hok''
  rw [h1] at h3
  cases h3
  exact join_dims h0 h2

/-- C111 (simplexArrayList, whole barcode), with no assumption that runs end. -/
theorem C111_far_clouds_array_end_partial (sort : SortBySecond (List Nat) ℝ) (hsort : Stable sort) (eps : ℝ)
    (dim k : Nat) (hd : 0 < dim)
    (hk : 0 < k) (data data' : List (List ℝ)) (hdim : ∀ p ∈ data, p.length = k)
    (hdim' : ∀ p ∈ data', p.length = k)
    (hedge : ∃ i j, i < j ∧ j < data.length ∧ rowDist k data i j ≤ eps)
    (hedge' : ∃ i j, i < j ∧ j < data'.length ∧ rowDist k data' i j ≤ eps)
    (hfar : ∀ p ∈ data, ∀ q ∈ data', eps < dist (Spec.point k p) (Spec.point k q)) :
    ∃ lines lines' lines'' T T' T'', arrayRun vectorsDistance sort .noPivot eps dim data = .ok (lines, T) ∧
      arrayRun vectorsDistance sort .noPivot eps dim data' = .ok (lines', T') ∧
      arrayRun vectorsDistance sort .noPivot eps dim (data ++ data') = .ok (lines'', T'') ∧
      ((0, 0, eps) :: lines'').Perm (lines ++ lines') := by
  have hne : data ≠ [] := by
    rintro rfl
    obtain ⟨i, j, -, h, -⟩ := hedge
    simp at h
  have hne' : data' ≠ [] := by
    rintro rfl
    obtain ⟨i, j, -, h, -⟩ := hedge'
    simp at h
  obtain ⟨lines, T, h1, -⟩ := C71_array_run_partial sort eps dim hd k hk data hdim hedge
  obtain ⟨lines', T', h2, -⟩ := C71_array_run_partial sort eps dim hd k hk data' hdim' hedge'
  obtain ⟨lines'', T'', h3, -⟩ := C111_far_clouds_array_runs sort hsort eps dim k hd hk data data' hne hne' hdim hdim'
    hfar h1 h2
  exact ⟨lines, lines', lines'', T, T', T'', h1, h2, h3, C111_far_clouds_array_all_partial sort hsort _ _ _
    (by simp) (by simp) (by simp) eps dim k hd hk data data' hne hne' hdim hdim' hfar h1 h2 h3⟩

/-- C111 (whole program on a simplexArrayList, without collapse). -/
theorem C111_program_array_partial (sys : System ℝ ℝ) (hdist : sys.lib.dist = vectorsDistance)
    (hsort : Stable sys.lib.sort) (hmode : sys.lib.mode = .noPivot)
    (pairs pairs' pairs'' : List (String × String)) (m m' m'' : ArgMap) (f f' f'' : String)
    (data data' : List (List ℝ))
    (h : PlainCommand sys pairs m "simplexArrayList" f data)
    (h' : PlainCommand sys pairs' m' "simplexArrayList" f' data')
    (h'' : PlainCommand sys pairs'' m'' "simplexArrayList" f'' (data ++ data'))
    (hcol : m.val "collapse" ≠ "true" ∧ m.val "collapse" ≠ "1")
    (hcol' : m'.val "collapse" ≠ "true" ∧ m'.val "collapse" ≠ "1")
    (hcol'' : m''.val "collapse" ≠ "true" ∧ m''.val "collapse" ≠ "1")
    (heps' : sys.atof (m'.val "epsilon") = sys.atof (m.val "epsilon"))
    (heps'' : sys.atof (m''.val "epsilon") = sys.atof (m.val "epsilon"))
    (hd : 0 < sys.atoi (m.val "dimensions"))
    (hd' : sys.atoi (m'.val "dimensions") = sys.atoi (m.val "dimensions"))
    (hd'' : sys.atoi (m''.val "dimensions") = sys.atoi (m.val "dimensions"))
    (k : Nat) (hk : 0 < k) (hdim : ∀ p ∈ data, p.length = k) (hdim' : ∀ p ∈ data', p.length = k)
    (hedge : ∃ i j, i < j ∧ j < data.length ∧ rowDist k data i j ≤ sys.atof (m.val "epsilon"))
    (hedge' : ∃ i j, i < j ∧ j < data'.length ∧ rowDist k data' i j ≤ sys.atof (m.val "epsilon"))
    (hfar : ∀ p ∈ data, ∀ q ∈ data',
      sys.atof (m.val "epsilon") < dist (Spec.point k p) (Spec.point k q)) :
    ∃ w w' w'' lines lines' lines'', mainProgram sys (commandLine pairs) = .ok w ∧
      mainProgram sys (commandLine pairs') = .ok w' ∧ mainProgram sys (commandLine pairs'') = .ok w'' ∧
      WritesBarcode sys.io f lines w ∧ WritesBarcode sys.io f' lines' w' ∧
      WritesBarcode sys.io f'' lines'' w'' ∧
      ((0, 0, sys.atof (m.val "epsilon")) :: lines'').Perm (lines ++ lines') := by
  obtain ⟨lines, lines', lines'', T, T', T'', h1, h2, h3, h4⟩ := C111_far_clouds_array_end_partial sys.lib.sort hsort
    (sys.atof (m.val "epsilon")) (sys.atoi (m.val "dimensions")) k hd hk data data' hdim hdim' hedge hedge' hfar
  rw [← hmode] at h1 h2 h3
  rw [← hd', ← heps'] at h2
  rw [← hd'', ← heps''] at h3
  have hdim'' : ∀ p ∈ data ++ data', p.length = k := by
    intro p hp
    rcases List.mem_append.1 hp with h | h
    · exact hdim _ h
    · exact hdim' _ h
  obtain ⟨w, a1, a2⟩ := (main_array sys hdist pairs m f data h hcol hd k hk hdim).of_ok h1
  obtain ⟨w', b1, b2⟩ := (main_array sys hdist pairs' m' f' data' h' hcol' (by omega) k hk hdim').of_ok h2
  obtain ⟨w'', c1, c2⟩ :=
    (main_array sys hdist pairs'' m'' f'' (data ++ data') h'' hcol'' (by omega) k hk hdim'').of_ok h3
  exact ⟨w, w', w'', lines, lines', lines'', a1, b1, c1, a2, b2, c2, h4⟩

/-! ### Cases that meet the hypotheses -/

/-- Two clouds on the line, with a triangle in the first. -/
example : Stable (SortBySecond.insertion (List Nat) ℝ) ∧
    (∀ p ∈ [[0], [2], [(3 : ℝ)]], p.length = 1) ∧ (∀ p ∈ [[50], [(54 : ℝ)]], p.length = 1) ∧
    (∃ i j, i < j ∧ j < [[0], [2], [(3 : ℝ)]].length ∧ rowDist 1 [[0], [2], [(3 : ℝ)]] i j ≤ 9) ∧
    (∃ i j, i < j ∧ j < [[50], [(54 : ℝ)]].length ∧ rowDist 1 [[50], [(54 : ℝ)]] i j ≤ 9) ∧
    ∀ p ∈ [[0], [2], [(3 : ℝ)]], ∀ q ∈ [[50], [(54 : ℝ)]],
      (9 : ℝ) < dist (Spec.point 1 p) (Spec.point 1 q) := by
  refine ⟨insertion_stable _, by simp, by simp, ⟨0, 1, by decide, by simp, ?_⟩, ⟨0, 1, by decide, by simp, ?_⟩, ?_⟩
  · unfold rowDist
    simp only [List.getD_cons_zero, List.getD_cons_succ]
    rw [line_dist]
    norm_num [abs_of_neg]
  · unfold rowDist
    simp only [List.getD_cons_zero, List.getD_cons_succ]
    rw [line_dist]
    norm_num [abs_of_neg]
  · intro p hp q hq
    simp only [List.mem_cons, List.not_mem_nil, or_false] at hp hq
    rcases hp with rfl | rfl | rfl <;> rcases hq with rfl | rfl <;> rw [line_dist] <;> norm_num [abs_of_neg]

/-- Three command lines with the hypotheses of the theorem about the whole program. -/
example : threeFiles.lib.mode = .noPivot ∧ Stable threeFiles.lib.sort ∧
    (∃ m, PlainCommand threeFiles
      [("-i", "a.csv"), ("-o", "a"), ("-c", "simplexArrayList"), ("-e", "9"), ("-d", "2")] m "simplexArrayList" "a"
      [[((0 : Nat) : ℝ)], [((2 : Nat) : ℝ)], [((3 : Nat) : ℝ)]] ∧ m.val "epsilon" = "9" ∧
      (m.val "collapse" ≠ "true" ∧ m.val "collapse" ≠ "1")) ∧
    (∃ m, PlainCommand threeFiles
      [("-i", "b.csv"), ("-o", "b"), ("-c", "simplexArrayList"), ("-e", "9"), ("-d", "2")] m "simplexArrayList" "b"
      [[((50 : Nat) : ℝ)], [((54 : Nat) : ℝ)]] ∧ m.val "epsilon" = "9" ∧
      (m.val "collapse" ≠ "true" ∧ m.val "collapse" ≠ "1")) ∧
    (∃ m, PlainCommand threeFiles
      [("-i", "ab.csv"), ("-o", "ab"), ("-c", "simplexArrayList"), ("-e", "9"), ("-d", "2")] m "simplexArrayList" "ab"
      ([[((0 : Nat) : ℝ)], [((2 : Nat) : ℝ)], [((3 : Nat) : ℝ)]] ++ [[((50 : Nat) : ℝ)], [((54 : Nat) : ℝ)]]) ∧
      m.val "epsilon" = "9" ∧ (m.val "collapse" ≠ "true" ∧ m.val "collapse" ≠ "1")) := by
  refine ⟨rfl, insertion_stable _, ⟨_, ⟨rfl, by decide, by decide, Or.inl (by decide), by decide, by decide,
    by decide, by decide, by decide, rfl, by simp⟩, by decide, by decide, by decide⟩, ⟨_, ⟨rfl, by decide, by decide,
    Or.inl (by decide), by decide, by decide, by decide, by decide, by decide, rfl, by simp⟩, by decide, by decide,
    by decide⟩, ⟨_, ⟨rfl, by decide, by decide, Or.inl (by decide),
    by decide, by decide, by decide, by decide, by decide, rfl, by simp⟩, by decide, by decide, by decide⟩⟩

end LHF
