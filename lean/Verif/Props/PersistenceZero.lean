import Verif.Lemmas.Mst
import Verif.Lemmas.Filtered

/-! C22–C24: dimension 0 of fastPersistence. Inputs are filtered complexes as specified in
`Spec/Filtered.lean`; `filtered_array` and `filtered_of_rips` show that this is what both complexes
produce, and `C22_single_linkage` states the result for the points themselves. -/

namespace LHF
open Spec

section
variable {W : Type} [LinearOrder W] [Zero W]

/-- `fast_spec` for all modes, given that the run succeeds. -/
theorem fast_ok {mode : EndRead} {dim : Nat} {eps : W}
    {edges : List (List (List Nat × W))} (hF : FilteredComplex edges) (hlen : 2 ≤ edges.length)
    {output : List (Line W)} {T0 : List (BettiEntry W)} {lines : List (Line W)}
    {table : List (BettiEntry W)}
    (hok : fastPersistence mode dim eps edges output T0 = .ok (lines, table)) :
    ∃ (F : List (List Nat × W)) (piv : Nat → List Nat)
      (pr : Nat → List (Nat × Nat)) (T : List (BettiEntry W)),
      KInv (vertices edges) (edges.getD 1 []) F
        (kruskalAll (edges.getD 1 []) (Kruskal.init T0)) ∧
      lines = F.map (fun e => (0, 0, e.2)) ++ [(0, 0, eps)] ++
          higherLines edges (min dim (edges.length - 1) - 1) pr ∧
      table = (kruskalAll (edges.getD 1 []) (Kruskal.init T0)).table ++ [⟨0, 0, eps, []⟩] ++ T ∧
      T.map toLine = higherLines edges (min dim (edges.length - 1) - 1) pr ∧
      piv 1 = negatives edges 1 ∧
      ∀ j, 1 ≤ j → j < 1 + (min dim (edges.length - 1) - 1) → piv (j + 1) = (pr j).map Prod.snd ∧
        DimOut (cleared mode (piv j)) (edges.getD j []) (edges.getD (j + 1) []) (pr j) := by
  obtain ⟨mode', hm, hcl, hok'⟩ : ∃ mode' : EndRead, mode' ≠ .undefined ∧
      (∀ P, cleared mode' P = cleared mode P) ∧
      fastPersistence mode' dim eps edges output T0 = .ok (lines, table) := by
    cases mode with
    | noPivot => exact ⟨.noPivot, by simp, fun _ => rfl, hok⟩
    | libstdcxx => exact ⟨.libstdcxx, by simp, fun _ => rfl, hok⟩
    | undefined =>
      obtain ⟨u1, u2⟩ := fast_undefined dim eps hF hlen output T0
      by_cases hs : ∃ k, 1 ≤ k ∧ k < dim ∧ k + 1 < edges.length ∧ ¬ SafeDim edges k
      · rw [u2 hs] at hok; cases hok
      · push Not at hs
        rw [u1 hs] at hok
        exact ⟨.noPivot, by simp, fun _ => rfl, hok⟩
  obtain ⟨F, k, piv, pr, T, h1, h2, h3, h4, h5, h6⟩ := fast_spec hm dim eps hF hlen output T0
  rw [hok'] at h3
  simp only [Except.ok.injEq, Prod.mk.injEq] at h3
  subst h1
  refine ⟨F, piv, pr, T, h2, h3.1, h3.2, h4, h5, ?_⟩
  intro j hj1 hj2
  have := h6 j hj1 hj2
  rw [hcl] at this
  exact this

omit [Zero W] in
theorem higher_dim {edges : List (List (List Nat × W))} {n : Nat} {pr : Nat → List (Nat × Nat)}
    {l : Line W} (h : l ∈ higherLines edges n pr) : 1 ≤ l.1 ∧ l.1 < 1 + n ∧
      l ∈ (pr l.1).filterMap (lineOf l.1 (edges.getD l.1 []) (edges.getD (l.1 + 1) [])) := by
  unfold higherLines at h
  rw [List.mem_flatMap] at h
  obtain ⟨k, hk, hl⟩ := h
  rw [List.mem_range'_1] at hk
  have : l.1 = k := by
    rw [List.mem_filterMap] at hl
    obtain ⟨pj, -, h⟩ := hl
    unfold lineOf at h
    split at h
    · split_ifs at h
      · cases h; rfl
    · cases h
  subst this
  exact ⟨hk.1, hk.2, hl⟩

theorem dim_zero_lines {edges : List (List (List Nat × W))} {n : Nat} {pr : Nat → List (Nat × Nat)}
    (F : List (List Nat × W)) (eps : W) :
    ((F.map (fun e : List Nat × W => ((0, 0, e.2) : Line W)) ++ [(0, 0, eps)] ++ higherLines edges n pr).filter
      (fun l => l.1 = 0)) = (F.map Prod.snd).map (fun w => ((0, 0, w) : Line W)) ++ [(0, 0, eps)] := by
  rw [List.filter_append]
  have h1 : (higherLines edges n pr).filter (fun l => decide (l.1 = 0)) = [] := by
    rw [List.filter_eq_nil_iff]
    intro l hl
    have := (higher_dim hl).1
    simp only [decide_eq_true_eq]
    omega
  rw [h1, List.append_nil, List.filter_eq_self.2, List.map_map]
  · rfl
  · intro l hl
    rw [List.mem_append, List.mem_map, List.mem_singleton] at hl
    rcases hl with ⟨e, -, rfl⟩ | rfl <;> simp

/-- C22: the dimension-0 lines are the finite bars followed by one bar that ends at `eps`; the finite
bars are in order of death, and for every threshold `t` the number of finite bars with death at most
`t` is the number of vertices minus the number of components of the graph of the edges of weight at
most `t`. -/
theorem C22_h0_merge_times {mode : EndRead} {dim : Nat} {eps : W}
    {edges : List (List (List Nat × W))} (hF : FilteredComplex edges) (hlen : 2 ≤ edges.length)
    {output : List (Line W)} {T0 : List (BettiEntry W)} {lines : List (Line W)}
    {table : List (BettiEntry W)}
    (hok : fastPersistence mode dim eps edges output T0 = .ok (lines, table)) :
    ∃ deaths : List W,
      lines.filter (fun l => l.1 = 0) = deaths.map (fun w => (0, 0, w)) ++ [(0, 0, eps)] ∧
      deaths.Pairwise (· ≤ ·) ∧
      ∀ t, (deaths.filter (fun w => w ≤ t)).length +
        components (edgeGraph (vertices edges) ((edges.getD 1 []).filter (fun e => e.2 ≤ t))) =
        (vertices edges).length := by
  obtain ⟨F, piv, pr, T, h1, h2, -⟩ := fast_ok hF hlen hok
  have g0 := getD_layer (edges := edges) (k := 0) (by omega)
  have g1 := getD_layer (edges := edges) (k := 1) (by omega)
  refine ⟨F.map Prod.snd, by rw [h2]; exact dim_zero_lines F eps, ?_, ?_⟩
  · rw [List.pairwise_map]
    exact (hF.layer g1).2.2.sublist h1.sub
  · intro t
    have := kruskal_threshold (hF.verts g0).2.1 (hF.isEdge g1) (hF.layer g1).2.2 h1
      (p := fun w => decide (w ≤ t)) (by
        intro a b hab hb
        simp only [decide_eq_true_eq] at hb ⊢
        exact hab.trans hb)
    rw [← this, List.filter_map, List.length_map]
    rfl

/-- The graph on `n` points that joins the pairs at distance at most `t`. -/
def Spec.proximity (n : Nat) (d : Nat → Nat → W) (near : Nat → Nat → Prop) (t : W) :
    SimpleGraph (Fin n) where
  Adj x y := (x < y ∧ near x y ∧ d x y ≤ t) ∨ (y < x ∧ near y x ∧ d y x ≤ t)
  symm := ⟨fun _ _ h => h.symm⟩
  loopless := ⟨fun x h => by rcases h with h | h <;> exact absurd h.1 (lt_irrefl x)⟩

theorem rips_graph {g edges : List (List (List Nat × W))} {n D : Nat} {d : Nat → Nat → W}
    {near : Nat → Nat → Prop} (h : StoresRips g n d near D) (hD : 1 ≤ D) (h0 : ∀ i j, 0 ≤ d i j)
    (ho : SortedLayers edges g) (hlen : 2 ≤ edges.length) (t : W) :
    (vertices edges).length = n ∧
    components (edgeGraph (vertices edges) ((edges.getD 1 []).filter (fun e => e.2 ≤ t))) =
      components (proximity n d near t) := by
  have hF := filtered_of_rips h ho
  have g0 := getD_layer (edges := edges) (k := 0) (by omega)
  have g1 := getD_layer (edges := edges) (k := 1) (by omega)
  obtain ⟨v1, v2, v3⟩ := hF.verts g0
  have hmem : ∀ v, v ∈ vertices edges ↔ v < n := by
    intro v
    have e : v ∈ vertices edges ↔ [v] ∈ (edges.getD 0 []).map Prod.fst := by
      rw [v3]; simp
    rw [e]
    obtain ⟨l, hl1, hl2⟩ := (sortedLayers_get ho 0).1 _ g0
    constructor
    · intro hv
      rw [List.mem_map] at hv
      obtain ⟨⟨s, w⟩, hx, rfl⟩ := hv
      exact ((h.exact 0 [v] w (by omega)).1 ⟨l, hl1, hl2.mem_iff.1 hx⟩).2.1.2.2.1 v (by simp)
    · intro hv
      obtain ⟨l', h1, h2⟩ := (h.exact 0 [v] (diam d [v]) (by omega)).2 ⟨rfl,
        ⟨by simp, by simp, by simpa using hv, by simp⟩, rfl⟩
      rw [hl1, Option.some.injEq] at h1
      subst h1
      exact List.mem_map.2 ⟨_, hl2.mem_iff.2 h2, rfl⟩
  have hedge : ∀ s w, (s, w) ∈ edges.getD 1 [] ↔
      ∃ i j, i < j ∧ j < n ∧ near i j ∧ s = [i, j] ∧ w = d i j := by
    intro s w
    obtain ⟨l, hl1, hl2⟩ := (sortedLayers_get ho 1).1 _ g1
    rw [hl2.mem_iff]
    have e : (s, w) ∈ l ↔ ∃ layer, g[1]? = some layer ∧ (s, w) ∈ layer := by
      constructor
      · intro hx; exact ⟨l, hl1, hx⟩
      · rintro ⟨l', h1, h2⟩
        rw [hl1, Option.some.injEq] at h1
        subst h1
        exact h2
    rw [e, h.exact 1 s w hD]
    constructor
    · rintro ⟨hl, hs, hw⟩
      obtain ⟨i, j, rfl⟩ := List.length_eq_two.1 hl
      have hij : i < j := by simpa using hs.2.1
      refine ⟨i, j, hij, hs.2.2.1 j (by simp), hs.2.2.2 i (by simp) j (by simp) hij, rfl, ?_⟩
      rw [hw, diam_pair d hij (h0 i j)]
    · rintro ⟨i, j, hij, hj, hn, rfl, rfl⟩
      refine ⟨rfl, ⟨by simp, by simpa using hij, ?_, ?_⟩, (diam_pair d hij (h0 i j)).symm⟩
      · intro v hv
        simp only [List.mem_cons, List.not_mem_nil, or_false] at hv
        omega
      · intro a ha b hb hab
        simp only [List.mem_cons, List.not_mem_nil, or_false] at ha hb
        have : a = i ∧ b = j := by omega
        rw [this.1, this.2]; exact hn
  have hlenv : (vertices edges).length = n := by
    have : (vertices edges).Perm (List.range n) := by
      rw [List.perm_ext_iff_of_nodup v2 List.nodup_range]
      intro v; rw [hmem, List.mem_range]
    rw [this.length_eq, List.length_range]
  refine ⟨hlenv, ?_⟩
  unfold components
  let e : {v // v ∈ vertices edges} ≃ Fin n :=
    ⟨fun v => ⟨v.1, (hmem v.1).1 v.2⟩, fun v => ⟨v.1, (hmem v.1).2 v.2⟩, fun _ => rfl, fun _ => rfl⟩
  let iso : edgeGraph (vertices edges) ((edges.getD 1 []).filter (fun e => e.2 ≤ t)) ≃g
      proximity n d near t := ⟨e, by
    intro x y
    show ((x.1 : Nat) < y.1 ∧ near x.1 y.1 ∧ d x.1 y.1 ≤ t) ∨ (y.1 < x.1 ∧ near y.1 x.1 ∧
      d y.1 x.1 ≤ t) ↔ x ≠ y ∧ ∃ e ∈ (edges.getD 1 []).filter (fun e => decide (e.2 ≤ t)),
        x.1 ∈ e.1 ∧ y.1 ∈ e.1
    have hx := (hmem x.1).1 x.2
    have hy := (hmem y.1).1 y.2
    constructor
    · rintro (⟨a, b, c⟩ | ⟨a, b, c⟩)
      · refine ⟨fun h => by rw [h] at a; omega, ([x.1, y.1], d x.1 y.1), ?_, by simp, by simp⟩
        exact List.mem_filter.2 ⟨(hedge _ _).2 ⟨_, _, a, hy, b, rfl, rfl⟩, by simpa using c⟩
      · refine ⟨fun h => by rw [h] at a; omega, ([y.1, x.1], d y.1 x.1), ?_, by simp, by simp⟩
        exact List.mem_filter.2 ⟨(hedge _ _).2 ⟨_, _, a, hx, b, rfl, rfl⟩, by simpa using c⟩
    · rintro ⟨hne, ⟨s, w⟩, hm, hx', hy'⟩
      rw [List.mem_filter, decide_eq_true_eq] at hm
      obtain ⟨hm, hw⟩ := hm
      obtain ⟨i, j, hij, hj, hn, rfl, rfl⟩ := (hedge _ _).1 hm
      simp only [List.mem_cons, List.not_mem_nil, or_false] at hx' hy'
      have hne' : x.1 ≠ y.1 := fun h => hne (Subtype.ext h)
      rcases hx' with hx' | hx' <;> rcases hy' with hy' | hy'
      · omega
      · left; rw [hx', hy']; exact ⟨hij, hn, hw⟩
      · right; rw [hx', hy']; exact ⟨hij, hn, hw⟩
      · omega⟩
  exact Nat.card_congr iso.connectedComponentEquiv

/-- C22 in terms of the points: run on what either complex hands over for `n` points (any layered
list that stores the Rips complex and is sorted by weight), the number of finite dimension-0 bars with
death at most `t` is `n` minus the number of components of the graph of the pairs at distance at most
`t` (among the pairs that are edges of the complex): the deaths are the single-linkage merge
heights. -/
theorem C22_single_linkage {mode : EndRead} {dim : Nat} {eps : W}
    {g edges : List (List (List Nat × W))} {n D : Nat} {d : Nat → Nat → W}
    {near : Nat → Nat → Prop} (h : StoresRips g n d near D) (hD : 1 ≤ D) (h0 : ∀ i j, 0 ≤ d i j)
    (ho : SortedLayers edges g) (hlen : 2 ≤ edges.length)
    {output : List (Line W)} {T0 : List (BettiEntry W)} {lines : List (Line W)}
    {table : List (BettiEntry W)}
    (hok : fastPersistence mode dim eps edges output T0 = .ok (lines, table)) :
    ∃ deaths : List W,
      lines.filter (fun l => l.1 = 0) = deaths.map (fun w => (0, 0, w)) ++ [(0, 0, eps)] ∧
      deaths.Pairwise (· ≤ ·) ∧
      ∀ t, (deaths.filter (fun w => w ≤ t)).length + components (proximity n d near t) = n := by
  obtain ⟨deaths, h1, h2, h3⟩ := C22_h0_merge_times (filtered_of_rips h ho) hlen hok
  refine ⟨deaths, h1, h2, fun t => ?_⟩
  obtain ⟨e1, e2⟩ := rips_graph h hD h0 ho hlen t
  have := h3 t
  rwa [e1, e2] at this

/-! ### C23 -/

/-- C23 (partial: only for connected input): there is one dimension-0 bar per vertex, of which exactly
one, for the one component, ends at `eps`. In general the number of bars exceeds the number of
vertices minus the number of components by exactly one, see `C23_bar_count`. -/
theorem C23_one_infinite_bar_partial {mode : EndRead} {dim : Nat} {eps : W}
    {edges : List (List (List Nat × W))} (hF : FilteredComplex edges) (hlen : 2 ≤ edges.length)
    {output : List (Line W)} {T0 : List (BettiEntry W)} {lines : List (Line W)}
    {table : List (BettiEntry W)}
    (hok : fastPersistence mode dim eps edges output T0 = .ok (lines, table))
    (hcon : components (edgeGraph (vertices edges) (edges.getD 1 [])) = 1) :
    ∃ finite : List (Line W), lines.filter (fun l => l.1 = 0) = finite ++ [(0, 0, eps)] ∧
      finite.length + components (edgeGraph (vertices edges) (edges.getD 1 [])) =
        (vertices edges).length ∧
      (lines.filter (fun l => l.1 = 0)).length = (vertices edges).length := by
  obtain ⟨F, piv, pr, T, h1, h2, -⟩ := fast_ok hF hlen hok
  have hc := h1.count
  rw [h1.mst, List.length_map] at hc
  have hl : lines.filter (fun l => l.1 = 0) = (F.map Prod.snd).map (fun w => ((0, 0, w) : Line W)) ++
      [(0, 0, eps)] := by rw [h2]; exact dim_zero_lines F eps
  refine ⟨_, hl, by simpa using hc, ?_⟩
  rw [hl]
  simp
  omega

/-- C23: the exact number of dimension-0 bars, for every input. -/
theorem C23_bar_count {mode : EndRead} {dim : Nat} {eps : W}
    {edges : List (List (List Nat × W))} (hF : FilteredComplex edges) (hlen : 2 ≤ edges.length)
    {output : List (Line W)} {T0 : List (BettiEntry W)} {lines : List (Line W)}
    {table : List (BettiEntry W)}
    (hok : fastPersistence mode dim eps edges output T0 = .ok (lines, table)) :
    (lines.filter (fun l => l.1 = 0)).length +
      components (edgeGraph (vertices edges) (edges.getD 1 [])) = (vertices edges).length + 1 := by
  obtain ⟨F, piv, pr, T, h1, h2, -⟩ := fast_ok hF hlen hok
  have hc := h1.count
  rw [h1.mst, List.length_map] at hc
  rw [h2, dim_zero_lines F eps, List.length_append, List.length_map, List.length_map,
    List.length_singleton]
  omega

end

/-- A path of three edges in one component and a second component: five vertices. -/
def twoPieces : List (List (List Nat × Int)) :=
  [[([0], 0), ([1], 0), ([2], 0), ([3], 0), ([4], 0)], [([0, 1], 1), ([1, 2], 2), ([3, 4], 2)]]

theorem twoPieces_filtered : FilteredComplex twoPieces := by
  refine ⟨?_, ?_, ?_, ?_⟩
  · intro k l hl
    match k with
    | 0 => cases hl; decide
    | 1 => cases hl; decide
    | k + 2 => cases hl
  · decide
  · decide
  · intro k l hl
    match k with
    | 0 =>
      cases hl
      intro e he s hs hsl
      obtain ⟨v, rfl⟩ := List.length_eq_one_iff.1 hsl
      have hv : v ∈ e.1 := by simpa using hs
      have hall : ∀ e ∈ [(([0, 1] : List Nat), (1 : Int)), ([1, 2], 2), ([3, 4], 2)], ∀ v ∈ e.1,
          ([v], (0 : Int)) ∈ [(([0] : List Nat), (0 : Int)), ([1], 0), ([2], 0), ([3], 0), ([4], 0)] ∧
            0 ≤ e.2 := by decide
      obtain ⟨a, b⟩ := hall e he v hv
      exact ⟨_, 0, rfl, a, b⟩
    | k + 1 => cases hl

/-- C23 is violated for disconnected input: two components, but one bar at `maxEpsilon` only, so four
bars for five vertices. -/
theorem C23_violated : ∃ lines table,
    fastPersistence .noPivot 1 (9 : Int) twoPieces [] [] = .ok (lines, table) ∧
    lines = [(0, 0, 1), (0, 0, 2), (0, 0, 2), (0, 0, 9)] ∧
    (lines.filter (fun l => l.2.2 = 9)).length = 1 ∧
    components (edgeGraph (vertices twoPieces) (twoPieces.getD 1 [])) = 2 := by
  refine ⟨_, _, rfl, by decide, by decide, ?_⟩
  have h := C23_bar_count (mode := .noPivot) (dim := 1) (eps := (9 : Int)) twoPieces_filtered
    (by decide) (output := []) (T0 := []) rfl
  have e1 : (vertices twoPieces).length = 5 := by decide
  rw [e1] at h
  have e2 : ∀ x, x + components (edgeGraph (vertices twoPieces) (twoPieces.getD 1 [])) = 5 + 1 →
      x = 4 → components (edgeGraph (vertices twoPieces) (twoPieces.getD 1 [])) = 2 := by
    intro x hx hx'; omega
  exact e2 _ h (by decide)

/-- C22, a concrete case: hypotheses met by a two-component graph. -/
example : ∃ deaths : List Int, (deaths.filter (fun w => w ≤ 1)).length +
      components (edgeGraph (vertices twoPieces) ((twoPieces.getD 1 []).filter (fun e => e.2 ≤ 1))) =
        (vertices twoPieces).length := by
  obtain ⟨deaths, -, -, h⟩ := C22_h0_merge_times (mode := .noPivot) (dim := 1) (eps := (9 : Int))
    twoPieces_filtered (by decide) (output := []) (T0 := []) rfl
  exact ⟨deaths, h 1⟩

/-! ### C24 -/

section
variable {W : Type} [LinearOrder W]

/-- C24: the finite dimension-0 bars are the weights of a minimum spanning forest: the selected edges
`F` are edges of the complex, form no cycle, connect the same vertices as all edges, number at most
`V - 1`, and no list of edges that connects the same vertices has a smaller total weight. -/
theorem C24_minimum_spanning_forest [AddCommMonoid W] [IsOrderedAddMonoid W]
    {mode : EndRead} {dim : Nat} {eps : W}
    {edges : List (List (List Nat × W))} (hF : FilteredComplex edges) (hlen : 2 ≤ edges.length)
    (hpos : ∀ e ∈ edges.getD 1 [], 0 ≤ e.2)
    {output : List (Line W)} {T0 : List (BettiEntry W)} {lines : List (Line W)}
    {table : List (BettiEntry W)}
    (hok : fastPersistence mode dim eps edges output T0 = .ok (lines, table)) :
    ∃ F : List (List Nat × W), F.Sublist (edges.getD 1 []) ∧
      lines.filter (fun l => l.1 = 0) = F.map (fun e => (0, 0, e.2)) ++ [(0, 0, eps)] ∧
      (edgeGraph (vertices edges) F).IsAcyclic ∧
      (∀ x y, (edgeGraph (vertices edges) F).Reachable x y ↔
        (edgeGraph (vertices edges) (edges.getD 1 [])).Reachable x y) ∧
      F.length ≤ (vertices edges).length - 1 ∧
      ∀ F' : List (List Nat × W), (∀ e ∈ F', e ∈ edges.getD 1 []) →
        (∀ x y, (edgeGraph (vertices edges) (edges.getD 1 [])).Reachable x y →
          (edgeGraph (vertices edges) F').Reachable x y) →
        (F.map (·.2)).sum ≤ (F'.map (·.2)).sum := by
  obtain ⟨F, piv, pr, T, h1, h2, -⟩ := fast_ok hF hlen hok
  have g0 := getD_layer (edges := edges) (k := 0) (by omega)
  have g1 := getD_layer (edges := edges) (k := 1) (by omega)
  have hv := (hF.verts g0).2.1
  have hE := hF.isEdge g1
  have hs := (hF.layer g1).2.2
  have hc := h1.count
  rw [h1.mst, List.length_map] at hc
  refine ⟨F, h1.sub, ?_, h1.acyclic, h1.span, ?_, ?_⟩
  · rw [h2, dim_zero_lines F eps, List.map_map]; rfl
  · by_cases he : (vertices edges) = []
    · rw [he] at hc ⊢; simp at hc ⊢; simpa using hc.1
    · obtain ⟨v, hv'⟩ := List.exists_mem_of_ne_nil _ he
      have : 0 < components (edgeGraph (vertices edges) (edges.getD 1 [])) := by
        unfold components
        rw [Nat.card_pos_iff]
        exact ⟨⟨SimpleGraph.connectedComponentMk _ ⟨v, hv'⟩⟩, inferInstance⟩
      omega
  · intro F' hF1 hF2
    apply sum_dominated
    · intro x hx
      rw [List.mem_map] at hx
      obtain ⟨e, he, rfl⟩ := hx
      exact hpos e (hF1 e he)
    · intro t
      rw [List.filter_map, List.filter_map, List.length_map, List.length_map]
      have hdown : ∀ a b : W, a ≤ b → decide (b < t) = true → decide (a < t) = true := by
        intro a b hab hb
        simp only [decide_eq_true_eq] at hb ⊢
        exact lt_of_le_of_lt hab hb
      have k1 := kruskal_threshold hv hE hs h1 (p := fun w => decide (w < t)) hdown
      -- the heavy edges of F'
      have k2 := components_append (F'.filter (fun e => decide (e.2 < t)))
        (F'.filter (fun e => decide (t ≤ e.2))) (verts := vertices edges)
        (fun e he => hE e (hF1 e (List.mem_of_mem_filter he)))
      have k3 : edgeGraph (vertices edges) (F'.filter (fun e => decide (e.2 < t)) ++
          F'.filter (fun e => decide (t ≤ e.2))) = edgeGraph (vertices edges) F' := by
        apply edgeGraph_congr
        intro e
        rw [List.mem_append, List.mem_filter, List.mem_filter, decide_eq_true_eq, decide_eq_true_eq]
        constructor
        · rintro (h | h) <;> exact h.1
        · intro h
          rcases lt_or_ge e.2 t with h' | h'
          · exact Or.inl ⟨h, h'⟩
          · exact Or.inr ⟨h, h'⟩
      rw [k3] at k2
      have k4 : components (edgeGraph (vertices edges) F') ≤
          components (edgeGraph (vertices edges) (edges.getD 1 [])) := components_mono hF2
      have k5 : components (edgeGraph (vertices edges)
          ((edges.getD 1 []).filter (fun e => decide (e.2 < t)))) ≤
          components (edgeGraph (vertices edges) (F'.filter (fun e => decide (e.2 < t)))) := by
        apply components_mono
        intro x y hxy
        refine hxy.mono (edgeGraph_mono ?_)
        intro e he
        rw [List.mem_filter] at he ⊢
        exact ⟨hF1 e he.1, he.2⟩
      have k6 : (F.filter (fun e => decide (e.2 < t))).length +
          (F.filter (fun e => decide (t ≤ e.2))).length = F.length := by
        have := List.length_eq_length_filter_add (l := F) (fun e => decide (e.2 < t))
        rw [this]
        congr 2
        apply List.filter_congr
        intro e _
        rw [← decide_not, decide_eq_decide, not_lt]
      show (F.filter (fun e => decide (t ≤ e.2))).length ≤
        (F'.filter (fun e => decide (t ≤ e.2))).length
      omega

/-- C24: leaving the loop as soon as `V - 1` edges are selected changes nothing: the selected weights
are those of the loop over all edges. -/
theorem C24_early_exit [Zero W] {edges : List (List (List Nat × W))} (hF : FilteredComplex edges)
    (hlen : 2 ≤ edges.length) (T0 : List (BettiEntry W)) :
    (kruskalLoop (edges.getD 0 []).length (edges.getD 1 []) (Kruskal.init T0)).mst =
      ((edges.getD 1 []).foldl (fun k e => kruskalStep e k) (Kruskal.init T0)).mst := by
  have g0 := getD_layer (edges := edges) (k := 0) (by omega)
  have g1 := getD_layer (edges := edges) (k := 1) (by omega)
  obtain ⟨v1, v2, -⟩ := hF.verts g0
  have := (kruskalLoop_eq (edges.getD 1 []) (hF.isEdge g1) (kinv_init v2 T0)).1
  rw [v1] at this
  exact this

end

/-- C24, a concrete case: the hypotheses hold for `twoPieces`. -/
example : ∃ F : List (List Nat × Int), F.Sublist (twoPieces.getD 1 []) ∧ F.length ≤ 4 := by
  obtain ⟨F, h1, -, -, -, h5, -⟩ := C24_minimum_spanning_forest (mode := .noPivot) (dim := 1)
    (eps := (9 : Int)) twoPieces_filtered (by decide) (by decide) (output := []) (T0 := []) rfl
  exact ⟨F, h1, h5⟩

end LHF
