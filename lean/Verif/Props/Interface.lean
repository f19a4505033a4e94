import Verif.Model.Interface
import Verif.Props.IndexedTree
import Verif.Props.ArrayComplex
import Verif.Props.TreeComplex

/-! C117: queries through the common interface of the complexes. -/

namespace LHF
open Spec

/-- C117 (array): `find` with a vector of vertices answers yes exactly for the simplices. -/
theorem C117_find_vector_array_partial {K W : Type} [LinearOrder W] [Ring W] [IsStrictOrderedRing W] (eps : W)
    (maxDim dim : Nat) (hm : 0 < maxDim) (dm : List (List W)) (d : Nat → Nat → W) (h0 : ∀ i j, 0 ≤ d i j)
    (data : List (List K)) (hne : ∀ p ∈ data, p ≠ [])
    (hdm : ∀ i j, j < i → i < data.length → at2 dm j i = .ok (d j i)) :
    ∃ g, buildArray eps maxDim dim dm data = .ok g ∧ ∀ v : List Nat, v ≠ [] →
      ∃ b, (AnyComplex.array g dm).findVector v = .ok b ∧
        (b = true ↔ IsSimplex data.length (fun i j => d i j ≤ eps) v ∧ v.length ≤ max 1 dim + 1) := by
  obtain ⟨g, h1, h2⟩ := C13_expansion_is_rips eps maxDim dim hm dm d h0 data hne hdm
  refine ⟨g, h1, fun v hv => ?_⟩
  obtain ⟨b, h3, h4⟩ := C21_find_exact g h2.layered v hv
  refine ⟨b, h3, h4.trans ?_⟩
  have hpos := List.length_pos_iff.2 hv
  constructor
  · rintro ⟨w, l, hl, hs⟩
    obtain ⟨k, hk, e⟩ := List.mem_iff_getElem.1 hl
    have ho := h2.only
    have := (h2.exact k v w (by omega)).1 ⟨l, by rw [← e]; exact List.getElem?_eq_getElem hk, hs⟩
    exact ⟨this.2.1, by omega⟩
  · rintro ⟨hs, hl⟩
    obtain ⟨l, a, b⟩ := (h2.exact (v.length - 1) v (diam d v) (by omega)).2 ⟨by omega, hs, rfl⟩
    exact ⟨_, l, List.mem_of_getElem? a, b⟩

/-- C117 is violated for sets of vertices: a `simplexArrayList` answers no for each of its simplices. -/
theorem C117_find_set_array_violated {K W : Type} [LinearOrder W] [Ring W] [IsStrictOrderedRing W] (eps : W)
    (maxDim dim : Nat) (hm : 0 < maxDim) (dm : List (List W)) (d : Nat → Nat → W) (h0 : ∀ i j, 0 ≤ d i j)
    (data : List (List K)) (hne : ∀ p ∈ data, p ≠ [])
    (hdm : ∀ i j, j < i → i < data.length → at2 dm j i = .ok (d j i)) :
    ∃ g, buildArray eps maxDim dim dm data = .ok g ∧ ∀ v, IsSimplex data.length (fun i j => d i j ≤ eps) v →
      v.length ≤ max 1 dim + 1 → (∃ w, Stored g v w) ∧ (AnyComplex.array g dm).findSet v = .ok false := by
  obtain ⟨g, h1, h2⟩ := C13_expansion_is_rips eps maxDim dim hm dm d h0 data hne hdm
  refine ⟨g, h1, fun v hs hl => ⟨?_, rfl⟩⟩
  have hpos := List.length_pos_iff.2 hs.1
  obtain ⟨l, a, b⟩ := (h2.exact (v.length - 1) v (diam d v) (by omega)).2 ⟨by omega, hs, rfl⟩
  exact ⟨_, l, List.mem_of_getElem? a, b⟩

/-- C117 is violated for `simplexTree`: after every history of insertions and queries, the answer is no for each
simplex that the tree holds, whichever way it is asked, and the weight it gives is 1. -/
theorem C117_find_tree_violated {W : Type} [LinearOrder W] [Zero W] [One W] (eps : W) (maxDim : Nat)
    (dm : List (List W)) (d : Nat → Nat → W) (h0 : ∀ i j, 0 ≤ d i j) (sort : SortBySecond (List Nat) W)
    (ops : List TreeOp) (hne : inserts ops ≠ 0 → dm ≠ [])
    (hdm : ∀ i j, i < j → j < inserts ops → at2 dm i j = .ok (d i j)) :
    ∃ t, runTree eps maxDim dm sort ops Tree.fresh = .ok t ∧
      ∀ s, IsSimplex (inserts ops) (fun i j => d i j < eps) s → s.length ≤ max 1 maxDim + 1 →
        (∃ w, Stored (t.getAllEdges sort).1 s w) ∧ (AnyComplex.tree t dm).findVector s = .ok false ∧
        (AnyComplex.tree t dm).findSet s = .ok false ∧ t.findWeightSet s = 1 := by
  obtain ⟨t, h1, h2⟩ := C17_tree_is_rips eps maxDim dm d h0 sort ops hne hdm
  refine ⟨t, h1, fun s hs hl => ⟨?_, rfl, rfl, rfl⟩⟩
  have hpos := List.length_pos_iff.2 hs.1
  obtain ⟨l, a, b⟩ := (h2.exact (s.length - 1) s (diam d s) (by omega)).2 ⟨by omega, hs, rfl⟩
  exact ⟨_, l, List.mem_of_getElem? a, b⟩

/-- C117 is violated for vectors of vertices and `indSimplexTree`: the answer is no for each simplex of the tree. -/
theorem C117_find_vector_indexed_violated {W : Type} [LinearOrder W] [Zero W] (eps : W) (maxDim : Nat)
    (dm : List (List W)) (d : Nat → Nat → W) (h0 : ∀ i j, 0 ≤ d i j) (sort : SortBySecond (Nat × List Nat) W) (n : Nat)
    (hn : n ≠ 0) (hne : dm ≠ []) (hdm : ∀ i j, i < j → j < n → at2 dm i j = .ok (d i j))
    (hsmall : maxDim ≤ 2 ∨ ¬ ∃ s, IsSimplex n (fun i j => d i j < eps) s ∧ s.length = 4) :
    ∃ g t, buildIndexed eps maxDim dm sort n = .ok (g, t) ∧ ∀ s, Held n d eps maxDim s →
      (∃ w, Stored g s w) ∧ (AnyComplex.indexed t dm).findVector s = .ok false := by
  obtain ⟨g, t, h1, h2, -⟩ := C76_indexed_is_rips_partial eps maxDim dm d h0 sort n hn hne hdm hsmall
  refine ⟨g, t, h1, fun s hs => ⟨?_, rfl⟩⟩
  have hpos := List.length_pos_iff.2 hs.1.1
  have hl := hs.2
  obtain ⟨l, a, b⟩ := (h2.exact (s.length - 1) s (diam d s) (by omega)).2 ⟨by omega, hs.1, rfl⟩
  exact ⟨_, l, List.mem_of_getElem? a, b⟩

theorem searchWait_stuck {W : Type} {a j i : Nat} {w : W} {s : List Nat} {c sib : INode W} (h : j ≠ i) :
    ∀ fuel, searchWait (.node a j w s c sib) i fuel = .error .exn := by
  intro fuel
  induction fuel with
  | zero => rfl
  | succ fuel ih =>
    rw [searchWait]
    rw [if_pos h, ih]

/-- The first node of the tree is that of the point 0. -/
theorem search_start {W : Type} [LinearOrder W] [Zero W] {n : Nat} {D : Nat → Nat → W} {eps : W} {maxDim : Nat}
    {t : ITree W} {tt : Tree W} (inv : TreeInv 0 n D eps maxDim 0 tt) (rel : RelI n t tt) (hn : n ≠ 0) :
    ∃ (a : Nat) (w : W) (s : List Nat) (c sib : INode W), ∀ fuel simplex, t.search fuel simplex = searchLoop fuel (.node a 0 w s c sib) simplex := by
  obtain ⟨points, layers, e, h1, h2, h3, h4, h5⟩ := find_start inv rel (v := 0) (by omega)
  obtain ⟨n1, -⟩ := rel_nodup inv rel
  obtain ⟨a, w, ss, c, sib, g1, -⟩ := scan_found (p := []) (i := 0) (rest := []) n1 h4 (by simp)
  refine ⟨a, w, ss, c, sib, fun fuel simplex => ?_⟩
  unfold ITree.search
  rw [h1, show vget (points :: layers) 0 = .ok points from rfl, ok_bind, h2, ok_bind, h3, g1]

/-- C117 is violated: `search` of the indexed tree never returns for a simplex without the point 0, whether the tree
holds it or not. -/
theorem C117_search_violated {W : Type} [LinearOrder W] [Zero W] (eps : W) (maxDim : Nat)
    (dm : List (List W)) (d : Nat → Nat → W) (h0 : ∀ i j, 0 ≤ d i j) (n : Nat)
    (hn : n ≠ 0) (hne : dm ≠ []) (hdm : ∀ i j, i < j → j < n → at2 dm i j = .ok (d i j)) {t : ITree W}
    (ht : ITree.insertN eps maxDim dm n ITree.fresh = .ok t) :
    (∀ fuel v rest, v ≠ 0 → t.search fuel (v :: rest) = .error .exn) ∧ t.search 1 [0] = .ok true := by
  obtain ⟨tt, i1, i2, i3, i4⟩ := insertNI_rel (eps := eps) (maxDim := maxDim) h0 n (fun _ => hne) hdm
  by_cases hl : tt.weg.length ≤ 3
  · obtain ⟨t', h1, h2, -⟩ := i3 hl
    rw [h1] at ht
    cases ht
    obtain ⟨a, w, s, c, sib, h⟩ := search_start i1 h2 hn
    constructor
    · intro fuel v rest hv
      rw [h, searchLoop, searchWait_stuck (Ne.symm hv)]
      rfl
    · rw [h]
      rfl
  · rw [i4 (by omega)] at ht
    cases ht

/-- C117 is violated: `getd0Pairs` lists nothing, whatever the complex. -/
theorem C117_d0pairs_violated {W : Type} (c : AnyComplex W) : c.getd0Pairs = [] := by
  cases c <;> rfl

/-! ### Cases that meet the hypotheses -/

/-- Four points with two triangles, in an array complex: the triangle is found as a vector, not as a set. -/
example : (buildArray (6 : Int) 3 3 fourPoints [[0], [1], [2], [3]]).toOption.bind (fun g =>
    some ((AnyComplex.array g fourPoints).findVector [0, 1, 2], (AnyComplex.array g fourPoints).findVector [0, 1, 3],
      (AnyComplex.array g fourPoints).findSet [0, 1, 2])) = some (.ok true, .ok false, .ok false) := by decide

/-- The same points in an indexed tree: the edge from 1 to 2 is held and `search` does not come back. -/
example : Held 4 fourDist 6 2 [1, 2] ∧
    (ITree.insertN (6 : Int) 2 fourPoints 4 ITree.fresh).toOption.bind (fun t =>
      some (t.search 100 [1, 2], t.search 100 [0])) = some (.error .exn, .ok true) := by
  refine ⟨⟨⟨by simp, by simp, by simp, ?_⟩, by decide⟩, by decide⟩
  intro i hi j hj hij
  simp only [List.mem_cons, List.not_mem_nil, or_false] at hi hj
  rcases hi with rfl | rfl <;> rcases hj with rfl | rfl <;> first | omega | decide

end LHF
