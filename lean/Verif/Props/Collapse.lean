import Verif.Lemmas.Collapse
import Verif.Props.ArrayComplex
import Verif.Lemmas.Homology
import Mathlib.Tactic.Module
import Mathlib.Algebra.CharP.Two
import Mathlib.Tactic.IntervalCases
import Mathlib.Data.Prod.Lex
import Mathlib.Order.WellFounded

/-! C81–C84: the option `collapse`. -/

namespace LHF
open Spec

/-! ### C81: the default complex -/

/-- C81: on the default complex (simplexTree) the option `collapse` has no effect: the complex after
ripsPipe is the complex before it, whatever the option says, and whatever the code that reduces a layer
does. -/
theorem C81_collapse_no_effect {W : Type} (body : Nat → Tree W → Res (Tree W)) (collapse : String)
    (t : Tree W) : ripsPipeTree body collapse t = .ok t := by
  unfold ripsPipeTree Tree.reduceComplex
  by_cases hc : collapse = "true" ∨ collapse = "1"
  · rw [if_pos hc]
    by_cases h0 : t.weg.length = 0
    · rw [if_pos h0]; rfl
    · rw [if_neg h0]
      have h1 : t.dimensions ≤ 1 := by
        unfold Tree.dimensions
        split <;> omega
      by_cases h2 : t.dimensions > 0
      · rw [if_pos h2]
        have : t.dimensions - 1 - 1 = 0 := by omega
        rw [this]
        rfl
      · rw [if_neg h2]; rfl
  · rw [if_neg hc]; rfl

/-! ### C82: simplexArrayList -/

section
variable {W : Type} [LinearOrder W] [Ring W] [IsStrictOrderedRing W]

/-- A stored Rips complex meets the hypotheses of the collapse. -/
theorem Spec.StoresRips.collapsible {g : Graph W} {n D : Nat} {d : Nat → Nat → W}
    {near : Nat → Nat → Prop} (h : StoresRips g n d near D) (h0 : ∀ i j, 0 ≤ d i j) :
    Collapsible g := by
  have key : ∀ k layer, g[k]? = some layer → ∀ e ∈ layer,
      e.1.length = k + 1 ∧ IsSimplex n near e.1 ∧ e.2 = diam d e.1 := by
    intro k layer hk e he
    have := (List.getElem?_eq_some_iff.1 hk).1
    have := h.only
    exact (h.exact k e.1 e.2 (by omega)).1 ⟨layer, hk, he⟩
  refine ⟨fun k layer hk e he => ⟨(key k layer hk e he).2.1.2.1, (key k layer hk e he).1⟩, h.once, ?_, ?_⟩
  · intro layer hl e he
    obtain ⟨k, hk⟩ := List.getElem?_of_mem hl
    rw [(key k layer hk e he).2.2]
    exact diam_nonneg d _
  · intro k lower layer hlow hlay e he
    obtain ⟨hlen, ⟨hne, hinc, hlt, hnear⟩, hw⟩ := key _ _ hlay e he
    obtain ⟨hle, hat⟩ := C14_weight_is_largest_distance d h0 e.1
    obtain ⟨i, hi, j, hj, hij, hd⟩ := hat (by
      refine ⟨e.1[0], List.getElem_mem _, e.1[1], List.getElem_mem _, ?_⟩
      exact List.pairwise_iff_getElem.1 hinc 0 1 (by omega) (by omega) (by omega))
    obtain ⟨a, ha, hai⟩ := List.getElem_of_mem hi
    obtain ⟨b, hb, hbj⟩ := List.getElem_of_mem hj
    obtain ⟨c, hc, hca, hcb⟩ : ∃ c, c < e.1.length ∧ c ≠ a ∧ c ≠ b := by
      by_cases h0 : 0 ≠ a ∧ 0 ≠ b
      · exact ⟨0, by omega, h0⟩
      · by_cases h1 : 1 ≠ a ∧ 1 ≠ b
        · exact ⟨1, by omega, h1⟩
        · exact ⟨2, by omega, by omega, by omega⟩
    refine ⟨c, hc, ?_⟩
    have hsub : ∀ x ∈ e.1.eraseIdx c, x ∈ e.1 := fun x hx => (List.eraseIdx_sublist _ _).subset hx
    have hlen' : (e.1.eraseIdx c).length = k + 1 + 1 := by
      rw [List.length_eraseIdx_of_lt hc]; omega
    have hi' : i ∈ e.1.eraseIdx c := by
      rw [List.mem_eraseIdx_iff_getElem]
      exact ⟨a, ha, by omega, hai⟩
    have hj' : j ∈ e.1.eraseIdx c := by
      rw [List.mem_eraseIdx_iff_getElem]
      exact ⟨b, hb, by omega, hbj⟩
    have hdiam : e.2 = diam d (e.1.eraseIdx c) := by
      rw [hw]
      apply le_antisymm
      · rw [hd]
        exact (C14_weight_is_largest_distance d h0 (e.1.eraseIdx c)).1 i hi' j hj' hij
      · exact diam_mono d hsub
    have hD := (List.getElem?_eq_some_iff.1 hlay).1
    have := h.only
    obtain ⟨l, hl, hm⟩ := (h.exact (k + 1) (e.1.eraseIdx c) e.2 (by omega)).2
      ⟨hlen', ⟨by intro h0; rw [h0] at hlen'; simp at hlen',
        hinc.sublist (List.eraseIdx_sublist _ _), fun v hv => hlt v (hsub v hv),
        fun i hi j hj hij => hnear i (hsub i hi) j (hsub j hj) hij⟩, hdiam⟩
    rw [hlow] at hl
    cases hl
    exact hm

/-- C82: on the Vietoris–Rips complex of a cloud the collapse is defined, and its result is exactly the
collapsed complex of the specification: all points, and the edges that no remaining triangle chooses. -/
theorem C82_collapse_exact {K : Type} (eps : W) (maxDim dim : Nat) (hm : 0 < maxDim)
    (dm : List (List W)) (d : Nat → Nat → W) (h0 : ∀ i j, 0 ≤ d i j) (data : List (List K))
    (hne : ∀ p ∈ data, p ≠ [])
    (hdm : ∀ i j, j < i → i < data.length → at2 dm j i = .ok (d j i)) (collapse : String)
    (hc : collapse = "true" ∨ collapse = "1") :
    ∃ inserted g, arrayInsertAll eps maxDim dm data [] = .ok inserted ∧
      expandDimensions dim inserted = .ok g ∧
      StoresRips g data.length d (fun i j => d i j ≤ eps) (max 1 dim) ∧
      ripsPipeArray dim collapse inserted = .ok (collapsed g) := by
  obtain ⟨g, hg, hr⟩ := C13_expansion_is_rips eps maxDim dim hm dm d h0 data hne hdm
  unfold Spec.buildArray at hg
  obtain ⟨ins, h1, h2⟩ := bind_ok.1 hg
  refine ⟨ins, g, h1, h2, hr, ?_⟩
  unfold ripsPipeArray
  rw [h2, ok_bind, if_pos hc]
  exact reduceComplex_eq (hr.collapsible h0)

/-- C82: any other value of the option leaves the expanded complex as it is. -/
theorem C82_no_collapse (dim : Nat) (collapse : String) (hc : collapse ≠ "true" ∧ collapse ≠ "1")
    (g : Graph W) : ripsPipeArray dim collapse g = expandDimensions dim g := by
  unfold ripsPipeArray
  cases expandDimensions dim g with
  | error e => rfl
  | ok g' => rw [ok_bind, if_neg (by rintro (h | h); exacts [hc.1 h, hc.2 h])]; rfl

omit [LinearOrder W] [Ring W] [IsStrictOrderedRing W] in
/-- The parts of a collapsed complex. -/
theorem collapsed_parts (g : Graph W) :
    (collapsed g)[0]? = g[0]? ∧
    (∀ edges, (collapsed g)[1]? = some edges → ∃ all, g[1]? = some all ∧ edges.Sublist all ∧
      ∀ f, f ∈ edges ↔ f ∈ all ∧ ¬ ∃ e ∈ (remaining (g.drop 2)).headD [], Chosen all e f.1) ∧
    (∀ k layer, (collapsed g)[k + 2]? = some layer → layer = []) ∧
    (collapsed g).length = g.length := by
  cases g with
  | nil => simp [collapsed, keepLowest, remaining]
  | cons points rest =>
    cases rest with
    | nil => simp [collapsed, keepLowest, remaining]
    | cons all upper =>
      obtain ⟨l, hl, hm, hs⟩ := remaining_head all upper
      have e : collapsed (points :: all :: upper) =
          points :: l :: (remaining upper).map (fun _ => []) := by
        unfold collapsed keepLowest
        rw [List.drop_one, List.tail_cons, hl]
        rfl
      rw [e]
      refine ⟨rfl, ?_, ?_, ?_⟩
      · intro edges he
        have : edges = l := by simpa using he.symm
        subst this
        exact ⟨all, rfl, hs, hm⟩
      · intro k layer hk
        simp only [List.getElem?_cons_succ, List.getElem?_map, Option.map_eq_some_iff] at hk
        obtain ⟨_, _, h⟩ := hk
        exact h.symm
      · simp [(remaining_sub upper).length_eq]

omit [LinearOrder W] [Ring W] [IsStrictOrderedRing W] in
/-- All points stay, the edges that stay are edges of the complex with their weights and in their
order, and no simplex with more than two vertices stays. -/
theorem collapsed_what_stays (g : Graph W) :
    (collapsed g)[0]? = g[0]? ∧
    (∀ edges, (collapsed g)[1]? = some edges → ∃ all, g[1]? = some all ∧ edges.Sublist all) ∧
    (∀ k layer, (collapsed g)[k + 2]? = some layer → layer = []) := by
  obtain ⟨h1, h2, h3, -⟩ := collapsed_parts g
  refine ⟨h1, fun edges he => ?_, h3⟩
  obtain ⟨all, ha, hs, _⟩ := h2 edges he
  exact ⟨all, ha, hs⟩

/-- Edges of a stored Rips complex. -/
theorem mem_edge_iff {g : Graph W} {n D : Nat} {d : Nat → Nat → W} {near : Nat → Nat → Prop}
    (h : StoresRips g n d near D) (hD : 1 ≤ D) (h0 : ∀ i j, 0 ≤ d i j) {all : List (List Nat × W)}
    (ha : g[1]? = some all) {a b : Nat} (hab : a < b) (w : W) :
    ([a, b], w) ∈ all ↔ IsSimplex n near [a, b] ∧ w = d a b := by
  have := h.exact 1 [a, b] w hD
  rw [diam_pair d hab (h0 a b)] at this
  constructor
  · intro hm
    exact (this.1 ⟨all, ha, hm⟩).2
  · intro hm
    obtain ⟨l, hl, hml⟩ := this.2 ⟨rfl, hm⟩
    rw [ha] at hl
    cases hl
    exact hml

/-- The diameter of a triangle. -/
theorem diam_triple {d : Nat → Nat → W} (h0 : ∀ i j, 0 ≤ d i j) {x y z : Nat} (hxy : x < y) (hyz : y < z) :
    d x y ≤ diam d [x, y, z] ∧ d x z ≤ diam d [x, y, z] ∧ d y z ≤ diam d [x, y, z] ∧
    ∀ u, d x y ≤ u → d x z ≤ u → d y z ≤ u → diam d [x, y, z] ≤ u := by
  obtain ⟨h1, -⟩ := C14_weight_is_largest_distance d h0 [x, y, z]
  refine ⟨h1 x (by simp) y (by simp) hxy, h1 x (by simp) z (by simp) (by omega),
    h1 y (by simp) z (by simp) hyz, ?_⟩
  intro u hu1 hu2 hu3
  rw [diam_le_iff]
  refine ⟨(h0 x y).trans hu1, ?_⟩
  intro i hi j hj hij
  simp only [List.mem_cons, List.not_mem_nil, or_false] at hi hj
  rcases hi with rfl | rfl | rfl <;> rcases hj with rfl | rfl | rfl <;>
    first | assumption | (exfalso; omega)

omit [LinearOrder W] [Ring W] [IsStrictOrderedRing W] in
theorem isSimplex_pairs {n : Nat} {near : Nat → Nat → Prop} {x y z : Nat} (hxy : x < y) (hyz : y < z)
    (h : IsSimplex n near [x, y, z]) :
    IsSimplex n near [y, z] ∧ IsSimplex n near [x, z] ∧ IsSimplex n near [x, y] := by
  obtain ⟨-, -, h2, h3⟩ := h
  have sub : ∀ a b, a < b → a ∈ [x, y, z] → b ∈ [x, y, z] → IsSimplex n near [a, b] := by
    intro a b hab ha hb
    refine ⟨by simp, by simpa using hab, ?_, ?_⟩
    · intro v hv
      simp only [List.mem_cons, List.not_mem_nil, or_false] at hv
      rcases hv with rfl | rfl
      · exact h2 _ ha
      · exact h2 _ hb
    · intro i hi j hj hij
      simp only [List.mem_cons, List.not_mem_nil, or_false] at hi hj
      rcases hi with rfl | rfl <;> rcases hj with rfl | rfl
      · omega
      · exact h3 _ ha _ hb hij
      · omega
      · omega
  exact ⟨sub y z hyz (by simp) (by simp), sub x z (by omega) (by simp) (by simp),
    sub x y hxy (by simp) (by simp)⟩

/-- The edge that a triangle chooses. -/
theorem chosen_triangle {g : Graph W} {n D : Nat} {d : Nat → Nat → W} {near : Nat → Nat → Prop}
    (h : StoresRips g n d near D) (hD : 1 ≤ D) (h0 : ∀ i j, 0 ≤ d i j) {all : List (List Nat × W)}
    (ha : g[1]? = some all) {x y z : Nat} (hxy : x < y) (hyz : y < z) (hs : IsSimplex n near [x, y, z])
    (f : List Nat) :
    Chosen all ([x, y, z], diam d [x, y, z]) f ↔
      ((f = [y, z] ∧ d x y ≤ d y z ∧ d x z ≤ d y z) ∨
       (f = [x, z] ∧ d x y ≤ d x z ∧ d y z < d x z) ∨
       (f = [x, y] ∧ d x z < d x y ∧ d y z < d x y)) := by
  obtain ⟨s1, s2, s3⟩ := isSimplex_pairs hxy hyz hs
  obtain ⟨d1, d2, d3, d4⟩ := diam_triple h0 hxy hyz
  have m0 : ([y, z], diam d [x, y, z]) ∈ all ↔ diam d [x, y, z] = d y z := by
    rw [mem_edge_iff h hD h0 ha hyz]; exact and_iff_right s1
  have m1 : ([x, z], diam d [x, y, z]) ∈ all ↔ diam d [x, y, z] = d x z := by
    rw [mem_edge_iff h hD h0 ha (by omega)]; exact and_iff_right s2
  have m2 : ([x, y], diam d [x, y, z]) ∈ all ↔ diam d [x, y, z] = d x y := by
    rw [mem_edge_iff h hD h0 ha hxy]; exact and_iff_right s3
  unfold Chosen
  constructor
  · rintro ⟨k, hk, hf, hm, hmin⟩
    have hk3 : k < 3 := hk
    match k, hk3 with
    | 0, _ =>
      have hf' : f = [y, z] := hf
      subst hf'
      have e := m0.1 hm
      exact Or.inl ⟨rfl, e ▸ d1, e ▸ d2⟩
    | 1, _ =>
      have hf' : f = [x, z] := hf
      subst hf'
      have e := m1.1 hm
      have n0 : diam d [x, y, z] ≠ d y z := fun e' => hmin 0 (by omega) (m0.2 e')
      exact Or.inr (Or.inl ⟨rfl, e ▸ d1, lt_of_le_of_ne (e ▸ d3) (fun h => n0 (by rw [e, h]))⟩)
    | 2, _ =>
      have hf' : f = [x, y] := hf
      subst hf'
      have e := m2.1 hm
      have n0 : diam d [x, y, z] ≠ d y z := fun e' => hmin 0 (by omega) (m0.2 e')
      have n1 : diam d [x, y, z] ≠ d x z := fun e' => hmin 1 (by omega) (m1.2 e')
      exact Or.inr (Or.inr ⟨rfl, lt_of_le_of_ne (e ▸ d2) (fun h => n1 (by rw [e, h])),
        lt_of_le_of_ne (e ▸ d3) (fun h => n0 (by rw [e, h]))⟩)
  · rintro (⟨rfl, h1, h2⟩ | ⟨rfl, h1, h2⟩ | ⟨rfl, h1, h2⟩)
    · refine ⟨0, by simp, rfl, m0.2 (le_antisymm (d4 _ h1 h2 le_rfl) d3), ?_⟩
      intro j hj; omega
    · have e : diam d [x, y, z] = d x z := le_antisymm (d4 _ h1 le_rfl h2.le) d2
      refine ⟨1, by simp, rfl, m1.2 e, ?_⟩
      intro j hj
      have : j = 0 := by omega
      subst this
      intro hm
      exact absurd ((m0.1 hm).symm.trans e) h2.ne
    · have e : diam d [x, y, z] = d x y := le_antisymm (d4 _ le_rfl h1.le h2.le) d1
      refine ⟨2, by simp, rfl, m2.2 e, ?_⟩
      intro j hj
      rcases (by omega : j = 0 ∨ j = 1) with rfl | rfl
      · intro hm
        exact absurd ((m0.1 hm).symm.trans e) h2.ne
      · intro hm
        exact absurd ((m1.1 hm).symm.trans e) h1.ne

omit [IsStrictOrderedRing W] in
/-- Entries of the layer of triangles. -/
theorem triangle_cases {g : Graph W} {n D : Nat} {d : Nat → Nat → W} {near : Nat → Nat → Prop}
    (h : StoresRips g n d near D) {tri : List (List Nat × W)} (ht : g[2]? = some tri)
    {e : List Nat × W} (he : e ∈ tri) :
    ∃ x y z, x < y ∧ y < z ∧ IsSimplex n near [x, y, z] ∧ e = ([x, y, z], diam d [x, y, z]) := by
  have h1 := (List.getElem?_eq_some_iff.1 ht).1
  have h2 := h.only
  obtain ⟨hl, hs, hw⟩ := (h.exact 2 e.1 e.2 (by omega)).1 ⟨tri, ht, he⟩
  obtain ⟨x, y, z, hxyz⟩ := List.length_eq_three.1 hl
  rw [hxyz] at hs hw
  have hp := hs.2.1
  simp only [List.pairwise_cons, List.mem_cons, List.not_mem_nil, or_false] at hp
  exact ⟨x, y, z, hp.1 y (Or.inl rfl), hp.2.1 z rfl, hs, Prod.ext hxyz hw⟩

/-- When the complex has no simplices with more than three vertices, the removed edges are exactly
the edges that are the longest edge of a triangle, where of equally long edges the last one in
lexicographic order counts. -/
theorem collapsed_removed_edges {g : Graph W} {n : Nat} {d : Nat → Nat → W} {near : Nat → Nat → Prop}
    (h : StoresRips g n d near 2) (h0 : ∀ i j, 0 ≤ d i j) {edges all : List (List Nat × W)}
    (he : (collapsed g)[1]? = some edges) (ha : g[1]? = some all) (f : List Nat × W) (hf : f ∈ all) :
    f ∉ edges ↔ ∃ x y z, x < y ∧ y < z ∧ IsSimplex n near [x, y, z] ∧
      ((f.1 = [y, z] ∧ d x y ≤ d y z ∧ d x z ≤ d y z) ∨
       (f.1 = [x, z] ∧ d x y ≤ d x z ∧ d y z < d x z) ∨
       (f.1 = [x, y] ∧ d x z < d x y ∧ d y z < d x y)) := by
  obtain ⟨all', ha', -, hm⟩ := (collapsed_parts g).2.1 edges he
  rw [ha] at ha'
  cases ha'
  have hlen := h.only
  have hhead : ∀ e, e ∈ (remaining (g.drop 2)).headD [] ↔ ∃ tri, g[2]? = some tri ∧ e ∈ tri := by
    intro e
    by_cases h2 : 2 < g.length
    · have hd : g.drop 2 = [g[2]] := by
        rw [List.drop_eq_getElem_cons h2, List.drop_eq_nil_of_le (by omega)]
      rw [hd, List.getElem?_eq_getElem h2]
      simp [remaining]
    · rw [List.drop_eq_nil_of_le (by omega), List.getElem?_eq_none (by omega)]
      simp [remaining]
  rw [hm, not_and, not_not]
  constructor
  · intro hh
    obtain ⟨e, hee, hc⟩ := hh hf
    obtain ⟨tri, ht, het⟩ := (hhead e).1 hee
    obtain ⟨x, y, z, hxy, hyz, hs, rfl⟩ := triangle_cases h ht het
    exact ⟨x, y, z, hxy, hyz, hs, (chosen_triangle h (by omega) h0 ha hxy hyz hs f.1).1 hc⟩
  · rintro ⟨x, y, z, hxy, hyz, hs, hcase⟩ -
    obtain ⟨tri, ht, het⟩ := (h.exact 2 [x, y, z] (diam d [x, y, z]) le_rfl).2 ⟨rfl, hs, rfl⟩
    exact ⟨_, (hhead _).2 ⟨tri, ht, het⟩, (chosen_triangle h (by omega) h0 ha hxy hyz hs f.1).2 hcase⟩

/-! ### C83: connected components -/

/-- The collapse keeps the connected components at every scale: two points are joined by edges of
weight at most `t` in the collapsed complex exactly when they are in the complex. -/
theorem collapsed_components {g : Graph W} {n D : Nat} {d : Nat → Nat → W} {near : Nat → Nat → Prop}
    (h : StoresRips g n d near D) (hD : 1 ≤ D) (h0 : ∀ i j, 0 ≤ d i j)
    {edges all : List (List Nat × W)} (he : (collapsed g)[1]? = some edges) (ha : g[1]? = some all)
    (t : W) (a b : Nat) : Linked edges t a b ↔ Linked all t a b := by
  obtain ⟨all', ha', hsub, hm⟩ := (collapsed_parts g).2.1 edges he
  rw [ha] at ha'
  cases ha'
  constructor
  · intro hl
    induction hl with
    | rel p q hpq =>
      obtain ⟨w, hw, hmem⟩ := hpq
      exact Relation.EqvGen.rel _ _ ⟨w, hw, hsub.subset hmem⟩
    | refl p => exact Relation.EqvGen.refl p
    | symm p q _ ih => exact Relation.EqvGen.symm _ _ ih
    | trans p q s _ _ ih1 ih2 => exact Relation.EqvGen.trans _ _ _ ih1 ih2
  · let r : {f // f ∈ all} → {f // f ∈ all} → Prop := fun x y =>
      toLex (x.1.2, x.1.1) < toLex (y.1.2, y.1.1)
    have hwf : WellFounded r := by
      have : IsTrans _ r := ⟨fun _ _ _ h1 h2 => lt_trans h1 h2⟩
      have : Std.Irrefl r := ⟨fun _ => lt_irrefl _⟩
      exact Finite.wellFounded_of_trans_of_irrefl r
    have key : ∀ f : {f // f ∈ all}, ∀ a b, f.1.1 = [a, b] → f.1.2 ≤ t → Linked edges t a b := by
      intro f
      induction f using hwf.induction with
      | h f ih =>
        intro a b hab hw
        by_cases hin : f.1 ∈ edges
        · exact Relation.EqvGen.rel _ _ ⟨f.1.2, hw, by rw [← hab]; exact hin⟩
        · have hex : ∃ e ∈ (remaining (g.drop 2)).headD [], Chosen all e f.1.1 := by
            by_contra hno
            exact hin ((hm f.1).2 ⟨f.2, hno⟩)
          obtain ⟨e, hee, hc⟩ := hex
          obtain ⟨tri, ht, het⟩ : ∃ tri, g[2]? = some tri ∧ e ∈ tri := by
            cases hd : g.drop 2 with
            | nil => rw [hd] at hee; simp [remaining] at hee
            | cons tri upper =>
              rw [hd] at hee
              obtain ⟨l, hl, -, hls⟩ := remaining_head tri upper
              rw [hl] at hee
              refine ⟨tri, ?_, hls.subset hee⟩
              have : (g.drop 2)[0]? = some tri := by rw [hd]; rfl
              rwa [List.getElem?_drop] at this
          obtain ⟨x, y, z, hxy, hyz, hs, rfl⟩ := triangle_cases h ht het
          obtain ⟨s1, s2, s3⟩ := isSimplex_pairs hxy hyz hs
          have hc' := (chosen_triangle h hD h0 ha hxy hyz hs _).1 hc
          have use : ∀ p q, (hpq : p < q) → IsSimplex n near [p, q] →
              (d p q < f.1.2 ∨ d p q = f.1.2 ∧ [p, q] < f.1.1) → Linked edges t p q := by
            intro p q hpq hsp hlt
            have hmem := (mem_edge_iff h hD h0 ha hpq (d p q)).2 ⟨hsp, rfl⟩
            refine ih ⟨_, hmem⟩ ?_ p q rfl ?_
            · exact Prod.Lex.toLex_lt_toLex.2 hlt
            · rcases hlt with h1 | h1
              · exact h1.le.trans hw
              · exact h1.1.le.trans hw
          have wt : ∀ p q, p < q → f.1.1 = [p, q] → f.1.2 = d p q := by
            intro p q hpq hfe
            have : ([p, q], f.1.2) ∈ all := by rw [← hfe]; exact f.2
            exact ((mem_edge_iff h hD h0 ha hpq _).1 this).2
          have le' : ∀ {u v : W} {P : Prop}, u ≤ v → P → u < v ∨ u = v ∧ P := fun huv hP =>
            (lt_or_eq_of_le huv).imp_right (fun e => ⟨e, hP⟩)
          rcases hc' with ⟨hf, h1, h2⟩ | ⟨hf, h1, h2⟩ | ⟨hf, h1, h2⟩
          · have hwt := wt y z hyz hf
            obtain ⟨rfl, rfl⟩ : a = y ∧ b = z := by rw [hf] at hab; simpa [eq_comm] using hab
            have l1 := use x a hxy s3 (by rw [hwt, hf]; exact le' h1 (List.cons_lt_cons_iff.2 (Or.inl hxy)))
            have l2 := use x b (by omega) s2
              (by rw [hwt, hf]; exact le' h2 (List.cons_lt_cons_iff.2 (Or.inl hxy)))
            exact Relation.EqvGen.trans _ _ _ (Relation.EqvGen.symm _ _ l1) l2
          · have hwt := wt x z (by omega) hf
            obtain ⟨rfl, rfl⟩ : a = x ∧ b = z := by rw [hf] at hab; simpa [eq_comm] using hab
            have l1 := use a y hxy s3 (by
              rw [hwt, hf]
              exact le' h1 (List.cons_lt_cons_iff.2 (Or.inr ⟨rfl, List.cons_lt_cons_iff.2 (Or.inl hyz)⟩)))
            have l2 := use y b hyz s1 (Or.inl (by rw [hwt]; exact h2))
            exact Relation.EqvGen.trans _ _ _ l1 l2
          · have hwt := wt x y hxy hf
            obtain ⟨rfl, rfl⟩ : a = x ∧ b = y := by rw [hf] at hab; simpa [eq_comm] using hab
            have l1 := use a z (by omega) s2 (Or.inl (by rw [hwt]; exact h1))
            have l2 := use b z hyz s1 (Or.inl (by rw [hwt]; exact h2))
            exact Relation.EqvGen.trans _ _ _ l1 (Relation.EqvGen.symm _ _ l2)
    intro hl
    induction hl with
    | rel p q hpq =>
      obtain ⟨w, hw, hmem⟩ := hpq
      exact key ⟨_, hmem⟩ p q rfl hw
    | refl p => exact Relation.EqvGen.refl p
    | symm p q _ ih => exact Relation.EqvGen.symm _ _ ih
    | trans p q s _ _ ih1 ih2 => exact Relation.EqvGen.trans _ _ _ ih1 ih2

/-! ### C84: loops and cavities -/

omit [Ring W] [IsStrictOrderedRing W] in
/-- In a collapsed complex nothing is ever filled: in every dimension `k ≥ 1` and at every scale the
only boundary is zero. -/
theorem collapsed_nothing_filled (g : Graph W) {k : Nat} (hk : 1 ≤ k) (t : W) :
    boundaries (collapsed g) k t = ⊥ := by
  obtain ⟨j, rfl⟩ : ∃ j, k = j + 1 := ⟨k - 1, by omega⟩
  have h : (collapsed g).getD (j + 1 + 1) [] = [] := by
    rw [List.getD_eq_getElem?_getD]
    cases hl : (collapsed g)[j + 2]? with
    | none => rfl
    | some layer => exact (collapsed_parts g).2.2.1 j layer hl
  unfold boundaries sublevel chains
  rw [h]
  simp

omit [Ring W] [IsStrictOrderedRing W] in
/-- A collapsed complex has no homology in the dimensions above one. -/
theorem collapsed_no_cavities (g : Graph W) {k : Nat} (hk : 2 ≤ k) (s t : W) :
    persistentBetti (collapsed g) k s t = 0 := by
  obtain ⟨j, rfl⟩ : ∃ j, k = j + 2 := ⟨k - 2, by omega⟩
  have h : (collapsed g).getD (j + 2) [] = [] := by
    rw [List.getD_eq_getElem?_getD]
    cases hl : (collapsed g)[j + 2]? with
    | none => rfl
    | some layer => exact (collapsed_parts g).2.2.1 j layer hl
  have hc : chains (sublevel (collapsed g) (j + 2) s) = ⊥ := by
    unfold sublevel chains
    rw [h]
    simp
  unfold persistentBetti cycles
  rw [hc, bot_inf_eq, Submodule.map_bot]
  simp

/-! ### The same about `reduceComplex` -/

/-- C82: in what `reduceComplex` leaves of a Rips complex all points stay, the edges that stay are edges of
the complex with their weights and in their order, and no simplex with more than two vertices stays. -/
theorem C82_what_stays {g c : Graph W} {n D : Nat} {d : Nat → Nat → W} {near : Nat → Nat → Prop}
    (h : StoresRips g n d near D) (h0 : ∀ i j, 0 ≤ d i j) (hrun : arrayReduceComplex g = .ok c) :
    c[0]? = g[0]? ∧
    (∀ edges, c[1]? = some edges → ∃ all, g[1]? = some all ∧ edges.Sublist all) ∧
    (∀ k layer, c[k + 2]? = some layer → layer = []) := by
  rw [reduceComplex_eq (h.collapsible h0)] at hrun
  cases hrun
  exact collapsed_what_stays g

/-- C82: when the complex has no simplices with more than three vertices, the removed edges are exactly
the edges that are the longest edge of a triangle, where of equally long edges the last one in
lexicographic order counts. -/
theorem C82_removed_edges_dim2 {g c : Graph W} {n : Nat} {d : Nat → Nat → W} {near : Nat → Nat → Prop}
    (h : StoresRips g n d near 2) (h0 : ∀ i j, 0 ≤ d i j) (hrun : arrayReduceComplex g = .ok c)
    {edges all : List (List Nat × W)} (he : c[1]? = some edges) (ha : g[1]? = some all)
    (f : List Nat × W) (hf : f ∈ all) :
    f ∉ edges ↔ ∃ x y z, x < y ∧ y < z ∧ IsSimplex n near [x, y, z] ∧
      ((f.1 = [y, z] ∧ d x y ≤ d y z ∧ d x z ≤ d y z) ∨
       (f.1 = [x, z] ∧ d x y ≤ d x z ∧ d y z < d x z) ∨
       (f.1 = [x, y] ∧ d x z < d x y ∧ d y z < d x y)) := by
  rw [reduceComplex_eq (h.collapsible h0)] at hrun
  cases hrun
  exact collapsed_removed_edges h h0 he ha f hf

/-- C83: `reduceComplex` keeps the connected components at every scale: two points are joined by edges of
weight at most `t` afterwards exactly when they were before. -/
theorem C83_components {g c : Graph W} {n D : Nat} {d : Nat → Nat → W} {near : Nat → Nat → Prop}
    (h : StoresRips g n d near D) (hD : 1 ≤ D) (h0 : ∀ i j, 0 ≤ d i j)
    (hrun : arrayReduceComplex g = .ok c)
    {edges all : List (List Nat × W)} (he : c[1]? = some edges) (ha : g[1]? = some all)
    (t : W) (a b : Nat) : Linked edges t a b ↔ Linked all t a b := by
  rw [reduceComplex_eq (h.collapsible h0)] at hrun
  cases hrun
  exact collapsed_components h hD h0 he ha t a b

/-- C84: after `reduceComplex` nothing is ever filled: in every dimension `k ≥ 1` and at every scale the
only boundary is zero. -/
theorem C84_nothing_filled {g c : Graph W} {n D : Nat} {d : Nat → Nat → W} {near : Nat → Nat → Prop}
    (h : StoresRips g n d near D) (h0 : ∀ i j, 0 ≤ d i j) (hrun : arrayReduceComplex g = .ok c)
    {k : Nat} (hk : 1 ≤ k) (t : W) : boundaries c k t = ⊥ := by
  rw [reduceComplex_eq (h.collapsible h0)] at hrun
  cases hrun
  exact collapsed_nothing_filled g hk t

/-- C84: after `reduceComplex` there is no homology in the dimensions above one. -/
theorem C84_no_cavities {g c : Graph W} {n D : Nat} {d : Nat → Nat → W} {near : Nat → Nat → Prop}
    (h : StoresRips g n d near D) (h0 : ∀ i j, 0 ≤ d i j) (hrun : arrayReduceComplex g = .ok c)
    {k : Nat} (hk : 2 ≤ k) (s t : W) : persistentBetti c k s t = 0 := by
  rw [reduceComplex_eq (h.collapsible h0)] at hrun
  cases hrun
  exact collapsed_no_cavities g hk s t

end

/-- Four points on a square: sides 2, diagonals 3. -/
def squareMatrix : List (List Int) := [[0, 2, 3, 2], [0, 0, 2, 3], [0, 0, 0, 2], [0, 0, 0, 0]]

/-- The Rips complex of the square at scale 4, up to triangles. -/
def squareRips : Graph Int :=
  [[([0], 0), ([1], 0), ([2], 0), ([3], 0)],
   [([0, 1], 2), ([0, 2], 3), ([1, 2], 2), ([0, 3], 2), ([1, 3], 3), ([2, 3], 2)],
   [([0, 1, 2], 3), ([0, 1, 3], 3), ([0, 2, 3], 3), ([1, 2, 3], 3)]]

/-- The collapsed complex of the square. -/
def squareCollapsed : Graph Int :=
  [[([0], 0), ([1], 0), ([2], 0), ([3], 0)],
   [([0, 1], 2), ([1, 2], 2), ([0, 3], 2), ([2, 3], 2)], []]

theorem square_rips_betti : betti squareRips 1 3 = 0 := by
  have hle : cycles squareRips 1 3 ≤ boundaries squareRips 1 3 := by
    rintro x ⟨hx, hker⟩
    have hset : {x : Chain | ∃ s ∈ sublevel squareRips 1 (3 : Int), x = Finsupp.single s 1} =
        {Finsupp.single [0, 1] 1, Finsupp.single [0, 2] 1, Finsupp.single [1, 2] 1,
          Finsupp.single [0, 3] 1, Finsupp.single [1, 3] 1, Finsupp.single [2, 3] 1} := by
      have hs : sublevel squareRips 1 (3 : Int) = [[0, 1], [0, 2], [1, 2], [0, 3], [1, 3], [2, 3]] := by
        decide
      rw [hs]
      ext y
      simp
    have hx' : x ∈ Submodule.span (ZMod 2) {x : Chain | ∃ s ∈ sublevel squareRips 1 (3 : Int),
      x = Finsupp.single s 1} := hx
    rw [hset] at hx'
    obtain ⟨a, _, ha, rfl⟩ := Submodule.mem_span_insert.1 hx'
    obtain ⟨b, _, hb, rfl⟩ := Submodule.mem_span_insert.1 ha
    obtain ⟨c, _, hc, rfl⟩ := Submodule.mem_span_insert.1 hb
    obtain ⟨e, _, he, rfl⟩ := Submodule.mem_span_insert.1 hc
    obtain ⟨f, _, hf, rfl⟩ := Submodule.mem_span_insert.1 he
    obtain ⟨h, rfl⟩ := Submodule.mem_span_singleton.1 hf
    have hk : boundary (a • Finsupp.single [0, 1] 1 + (b • Finsupp.single [0, 2] 1 +
      (c • Finsupp.single [1, 2] 1 + (e • Finsupp.single [0, 3] 1 + (f • Finsupp.single [1, 3] 1 +
        h • Finsupp.single [2, 3] 1))))) = 0 := hker
    simp only [map_add, map_smul, boundary_single] at hk
    have h1 := DFunLike.congr_fun hk [1]
    have h2 := DFunLike.congr_fun hk [2]
    have h3 := DFunLike.congr_fun hk [3]
    simp [boundaryOf, Finset.sum_range_succ] at h1 h2 h3
    have t3 : ∀ p q r : ZMod 2, p + (q + r) = 0 → p = q + r := by decide
    rw [t3 _ _ _ h1, t3 _ _ _ h2, t3 _ _ _ h3]
    refine ⟨c • Finsupp.single [0, 1, 2] 1 + (f • Finsupp.single [0, 1, 3] 1 +
      h • Finsupp.single [0, 2, 3] 1), ?_, ?_⟩
    · have hs : sublevel squareRips 2 (3 : Int) = [[0, 1, 2], [0, 1, 3], [0, 2, 3], [1, 2, 3]] := by
        decide
      have hm : ∀ s ∈ sublevel squareRips (1 + 1) (3 : Int), (Finsupp.single s 1 : Chain) ∈
          chains (sublevel squareRips (1 + 1) (3 : Int)) := fun s hs => Submodule.subset_span ⟨s, hs, rfl⟩
      refine Submodule.add_mem _ (Submodule.smul_mem _ _ (hm _ ?_))
        (Submodule.add_mem _ (Submodule.smul_mem _ _ (hm _ ?_)) (Submodule.smul_mem _ _ (hm _ ?_))) <;>
        decide
    · simp only [map_add, map_smul, boundary_single]
      simp only [boundaryOf, Finset.sum_range_succ, Finset.sum_range_zero, List.length_cons,
        List.length_nil, List.eraseIdx, zero_add]
      module
  unfold betti persistentBetti
  have : (cycles squareRips 1 3).map (boundaries squareRips 1 3).mkQ = ⊥ := by
    rw [eq_bot_iff, Submodule.map_le_iff_le_comap]
    intro x hx
    rw [Submodule.mem_comap, Submodule.mem_bot, Submodule.mkQ_apply, Submodule.Quotient.mk_eq_zero]
    exact hle hx
  rw [this]
  simp

theorem square_collapsed_betti : 0 < betti squareCollapsed 1 3 := by
  have hmem : ∀ s ∈ sublevel squareCollapsed 1 (3 : Int), (Finsupp.single s 1 : Chain) ∈
      chains (sublevel squareCollapsed 1 (3 : Int)) := fun s hs => Submodule.subset_span ⟨s, hs, rfl⟩
  let z : Chain := Finsupp.single [0, 1] 1 + (Finsupp.single [1, 2] 1 +
    (Finsupp.single [0, 3] 1 + Finsupp.single [2, 3] 1))
  have hz : z ∈ cycles squareCollapsed 1 3 := by
    refine ⟨?_, ?_⟩
    · refine Submodule.add_mem _ (hmem _ ?_) (Submodule.add_mem _ (hmem _ ?_)
        (Submodule.add_mem _ (hmem _ ?_) (hmem _ ?_))) <;> decide
    · change boundary z = 0
      simp only [z, map_add, boundary_single]
      simp only [boundaryOf, Finset.sum_range_succ, Finset.sum_range_zero, List.length_cons,
        List.length_nil, List.eraseIdx, zero_add]
      have h2 : ∀ x : Chain, x + x = 0 := by
        intro x
        ext i
        exact CharTwo.add_self_eq_zero (x i)
      generalize (Finsupp.single [0] 1 : Chain) = p0
      generalize (Finsupp.single [1] 1 : Chain) = p1
      generalize (Finsupp.single [2] 1 : Chain) = p2
      generalize (Finsupp.single [3] 1 : Chain) = p3
      have : p1 + p0 + (p2 + p1 + (p3 + p0 + (p3 + p2))) =
          (p0 + p0) + (p1 + p1) + (p2 + p2) + (p3 + p3) := by abel
      rw [this]
      simp only [h2, add_zero]
  have hb : boundaries squareCollapsed 1 3 = ⊥ := by
    unfold boundaries
    have : chains (sublevel squareCollapsed (1 + 1) (3 : Int)) = ⊥ := by
      have hs : sublevel squareCollapsed (1 + 1) (3 : Int) = [] := by decide
      rw [hs]
      simp [chains]
    rw [this, Submodule.map_bot]
  unfold betti persistentBetti
  have : FiniteDimensional (ZMod 2) (cycles squareCollapsed 1 (3 : Int)) :=
    Submodule.finiteDimensional_of_le (inf_le_left)
  have hne : (cycles squareCollapsed 1 3).map (boundaries squareCollapsed 1 3).mkQ ≠ ⊥ := by
    intro h
    have hz' : (boundaries squareCollapsed 1 3).mkQ z ∈
        (cycles squareCollapsed 1 3).map (boundaries squareCollapsed 1 3).mkQ := ⟨z, hz, rfl⟩
    rw [h, Submodule.mem_bot, Submodule.mkQ_apply, Submodule.Quotient.mk_eq_zero, hb,
      Submodule.mem_bot] at hz'
    have := DFunLike.congr_fun hz' [0, 1]
    simp [z] at this
  rw [Module.finrank_pos_iff, Submodule.nontrivial_iff_ne_bot]
  exact hne

/-- C84, violated: the collapse does not keep the homology. Four points on a square of side 2, at scale
4: every loop of the Rips complex at scale 3 is filled, but the collapsed complex has a loop that never
closes. -/
theorem C84_loops_violated :
    ∃ inserted, arrayInsertAll (4 : Int) 2 squareMatrix [['a'], ['b'], ['c'], ['d']] [] = .ok inserted ∧
      ripsPipeArray 2 "false" inserted = .ok squareRips ∧
      ripsPipeArray 2 "true" inserted = .ok squareCollapsed ∧
      betti squareRips 1 3 = 0 ∧ 0 < betti squareCollapsed 1 3 :=
  ⟨squareRips.take 2, by decide +kernel, by decide +kernel, by decide +kernel, square_rips_betti,
    square_collapsed_betti⟩

/-! ### Examples -/

/-- C82–C83: the square meets the hypotheses (distances, matrix, cloud). -/
example : (∀ i j, j < i → i < [['a'], ['b'], ['c'], ['d']].length →
    at2 squareMatrix j i = .ok (if (j = 0 ∧ i = 2) ∨ (j = 1 ∧ i = 3) then 3 else 2)) := by
  intro i j hji hi
  have : i < 4 := hi
  interval_cases i <;> interval_cases j <;> rfl

/-- C82: the removed edges of the square are its diagonals: `[0, 2]` because of the triangle 0, 1, 2 and
`[1, 3]` because of 0, 1, 3. -/
example : arrayReduceComplex squareRips = .ok squareCollapsed := by decide +kernel

/-- C82: with tetrahedra the same edges go. -/
example : (do
    let g ← arrayInsertAll (4 : Int) 3 squareMatrix [['a'], ['b'], ['c'], ['d']] []
    ripsPipeArray 3 "1" g) = .ok (squareCollapsed ++ [[]]) := by decide +kernel

/-- C82: of equally long edges of a triangle the last one goes. -/
example : arrayReduceComplex ([[([0], 0), ([1], 0), ([2], 0)],
    [([0, 1], 5), ([0, 2], 5), ([1, 2], 5)], [([0, 1, 2], 5)]] : Graph Int) =
    .ok [[([0], 0), ([1], 0), ([2], 0)], [([0, 1], 5), ([0, 2], 5)], []] := by decide +kernel

/-- Outside of Rips complexes the collapse can leave the range of the list: a simplex that is heavier
than all its faces. -/
example : arrayReduceComplex ([[([0], 0), ([1], 0), ([2], 0)],
    [([0, 1], 5), ([0, 2], 5), ([1, 2], 5)], [([0, 1, 2], 6)]] : Graph Int) = .error .oob := by
  decide +kernel

/-- C81: the default complex of the square, whatever the code for a layer does. -/
example : (do
    let t ← Tree.insertN (4 : Int) 2 squareMatrix 4 Tree.fresh
    ripsPipeTree (fun _ _ => .error .null) "true" t) =
    Tree.insertN (4 : Int) 2 squareMatrix 4 Tree.fresh := by
  cases Tree.insertN (4 : Int) 2 squareMatrix 4 Tree.fresh with
  | error e => rfl
  | ok t => rw [ok_bind]; exact C81_collapse_no_effect _ _ _

end LHF
