import Verif.Props.Collapse
import Verif.Lemmas.StandardRun

/-! The collapsed complex has no triangles, not even as boundaries: it is the clique complex of its edges. -/

namespace LHF
open Spec

section
variable {W : Type} [LinearOrder W] [Ring W] [IsStrictOrderedRing W]

/-- The edge `p q` is the one that the triangle `p q r` chooses. -/
def Longest (d : Nat → Nat → W) (p q r : Nat) : Prop :=
  (r < p ∧ d r p ≤ d p q ∧ d r q ≤ d p q) ∨ (p < r ∧ r < q ∧ d p r ≤ d p q ∧ d r q < d p q) ∨
    (q < r ∧ d p r < d p q ∧ d q r < d p q)

/-- The triangle `p q r` with `p < q`, sorted. -/
def triangleOf (p q r : Nat) : List Nat :=
  if r < p then [r, p, q] else if r < q then [p, r, q] else [p, q, r]

theorem longest_chosen {g : Graph W} {n D : Nat} {d : Nat → Nat → W} {near : Nat → Nat → Prop}
    (h : StoresRips g n d near D) (hD : 1 ≤ D) (h0 : ∀ i j, 0 ≤ d i j) {all : List (List Nat × W)}
    (ha : g[1]? = some all) {p q r : Nat} (hpq : p < q) (hl : Longest d p q r)
    (hs : IsSimplex n near (triangleOf p q r)) :
    Chosen all (triangleOf p q r, diam d (triangleOf p q r)) [p, q] := by
  unfold triangleOf at *
  rcases hl with ⟨h1, h2, h3⟩ | ⟨h1, h1', h2, h3⟩ | ⟨h1, h2, h3⟩
  · rw [if_pos h1] at *
    exact (chosen_triangle h hD h0 ha h1 hpq hs _).2 (Or.inl ⟨rfl, h2, h3⟩)
  · rw [if_neg (by omega), if_pos h1'] at *
    exact (chosen_triangle h hD h0 ha h1 h1' hs _).2 (Or.inr (Or.inl ⟨rfl, h2, h3⟩))
  · rw [if_neg (by omega), if_neg (by omega)] at *
    exact (chosen_triangle h hD h0 ha hpq h1 hs _).2 (Or.inr (Or.inr ⟨rfl, h2, h3⟩))

/-- A tetrahedron that chooses the triangle `p q r` contains a triangle `p q s` with a smaller `s`, of which
`p q` is the longest edge again. -/
theorem longest_descends {g : Graph W} {n D : Nat} {d : Nat → Nat → W} {near : Nat → Nat → Prop}
    (h : StoresRips g n d near D) (hD : 3 ≤ D) (h0 : ∀ i j, 0 ≤ d i j) {tri : List (List Nat × W)}
    (ht : g[2]? = some tri) {p q r : Nat} (hpq : p < q) (hl : Longest d p q r)
    {e : List Nat × W} {tet : List (List Nat × W)} (hg3 : g[3]? = some tet) (he : e ∈ tet)
    (hc : Chosen tri e (triangleOf p q r)) :
    ∃ s, s < r ∧ Longest d p q s ∧ IsSimplex n near (triangleOf p q s) := by
  obtain ⟨hlen, hs, hw⟩ := (h.exact 3 e.1 e.2 hD).1 ⟨tet, hg3, he⟩
  obtain ⟨k, hk, hf, hm, hmin⟩ := hc
  obtain ⟨e1, M⟩ := e
  dsimp only at *
  obtain ⟨x, y, z, u, rfl⟩ : ∃ x y z u, e1 = [x, y, z, u] := by
    match e1, hlen with
    | [x, y, z, u], _ => exact ⟨x, y, z, u, rfl⟩
  have hinc := hs.2.1
  simp only [List.pairwise_cons, List.mem_cons, List.not_mem_nil, or_false, forall_eq_or_imp, forall_eq] at hinc
  obtain ⟨⟨hxy, hxz, hxu⟩, ⟨hyz, hyu⟩, hzu, -⟩ := hinc
  obtain ⟨hle, -⟩ := C14_weight_is_largest_distance d h0 [x, y, z, u]
  rw [← hw] at hle
  have lxy := hle x (by simp) y (by simp) hxy
  have lxz := hle x (by simp) z (by simp) hxz
  have lxu := hle x (by simp) u (by simp) hxu
  have lyz := hle y (by simp) z (by simp) hyz
  have lyu := hle y (by simp) u (by simp) hyu
  have lzu := hle z (by simp) u (by simp) hzu
  have face : ∀ a b c, a < b → b < c → a ∈ [x, y, z, u] → b ∈ [x, y, z, u] → c ∈ [x, y, z, u] →
      IsSimplex n near [a, b, c] := by
    intro a b c hab hbc ha hb hc
    refine hs.sub (by simp) (by simp; omega) ?_
    intro v hv
    simp only [List.mem_cons, List.not_mem_nil, or_false] at hv
    rcases hv with rfl | rfl | rfl <;> assumption
  have wt : ∀ a b c, IsSimplex n near [a, b, c] → (([a, b, c], M) ∈ tri ↔ M = diam d [a, b, c]) := by
    intro a b c habc
    constructor
    · intro hmm
      exact ((h.exact 2 [a, b, c] M (by omega)).1 ⟨tri, ht, hmm⟩).2.2
    · intro hmm
      obtain ⟨l, h1, h2⟩ := (h.exact 2 [a, b, c] M (by omega)).2 ⟨rfl, habc, hmm⟩
      rw [ht] at h1
      cases h1
      exact h2
  -- a face that does not have the full weight has only shorter edges
  have short : ∀ a b c, a < b → b < c → a ∈ [x, y, z, u] → b ∈ [x, y, z, u] → c ∈ [x, y, z, u] →
      ([a, b, c], M) ∉ tri → d a b < M ∧ d a c < M ∧ d b c < M := by
    intro a b c hab hbc ha hb hc hno
    obtain ⟨d1, d2, d3, d4⟩ := diam_triple h0 hab hbc
    have hne : diam d [a, b, c] ≠ M := fun e => hno ((wt a b c (face a b c hab hbc ha hb hc)).2 e.symm)
    have hlM : diam d [a, b, c] ≤ M := d4 M (hle a ha b hb hab) (hle a ha c hc (by omega)) (hle b hb c hc hbc)
    have hlt := lt_of_le_of_ne hlM hne
    exact ⟨d1.trans_lt hlt, d2.trans_lt hlt, d3.trans_lt hlt⟩
  -- the chosen triangle has the full weight, so its longest edge has it
  have full : M = d p q := by
    have hT : IsSimplex n near (triangleOf p q r) :=
      ((h.exact 2 (triangleOf p q r) M (by omega)).1 ⟨tri, ht, hm⟩).2.1
    have hMT : M = diam d (triangleOf p q r) :=
      ((h.exact 2 (triangleOf p q r) M (by omega)).1 ⟨tri, ht, hm⟩).2.2
    rw [hMT]
    unfold triangleOf
    rcases hl with ⟨h1, h2, h3⟩ | ⟨h1, h1', h2, h3⟩ | ⟨h1, h2, h3⟩
    · rw [if_pos h1]
      obtain ⟨d1, d2, d3, d4⟩ := diam_triple h0 h1 hpq
      exact le_antisymm (d4 _ h2 h3 le_rfl) d3
    · rw [if_neg (by omega), if_pos h1']
      obtain ⟨d1, d2, d3, d4⟩ := diam_triple h0 h1 h1'
      exact le_antisymm (d4 _ h2 le_rfl h3.le) d2
    · rw [if_neg (by omega), if_neg (by omega)]
      obtain ⟨d1, d2, d3, d4⟩ := diam_triple h0 hpq h1
      exact le_antisymm (d4 _ le_rfl h2.le h3.le) d1
  have cases3 : ∀ a b c, triangleOf p q r = [a, b, c] → a < b → b < c →
      (p = b ∧ q = c ∧ r = a) ∨ (p = a ∧ q = c ∧ r = b) ∨ (p = a ∧ q = b ∧ r = c) := by
    intro a b c hT hab hbc
    unfold triangleOf at hT
    split_ifs at hT with c1 c2
    · simp only [List.cons.injEq, and_true] at hT; omega
    · simp only [List.cons.injEq, and_true] at hT; omega
    · simp only [List.cons.injEq, and_true] at hT; omega
  have mk1 : ∀ s, s < p → IsSimplex n near [s, p, q] → IsSimplex n near (triangleOf p q s) := by
    intro s hsp hh; unfold triangleOf; rwa [if_pos hsp]
  have mk2 : ∀ s, p < s → s < q → IsSimplex n near [p, s, q] → IsSimplex n near (triangleOf p q s) := by
    intro s h1 h2 hh; unfold triangleOf; rwa [if_neg (by omega), if_pos h2]
  have mk3 : ∀ s, q < s → IsSimplex n near [p, q, s] → IsSimplex n near (triangleOf p q s) := by
    intro s h1 hh; unfold triangleOf; rwa [if_neg (by omega), if_neg (by omega)]
  have hk4 : k < 4 := hk
  match k, hk4 with
  | 0, _ =>
    have hT : triangleOf p q r = [y, z, u] := hf
    rcases cases3 y z u hT hyz hzu with ⟨rfl, rfl, rfl⟩ | ⟨rfl, rfl, rfl⟩ | ⟨rfl, rfl, rfl⟩
    · exact ⟨x, hxy, Or.inl ⟨hxz, full ▸ lxz, full ▸ lxu⟩, mk1 x hxz (face _ _ _ hxz hzu (by simp) (by simp) (by simp))⟩
    · exact ⟨x, hxz, Or.inl ⟨hxy, full ▸ lxy, full ▸ lxu⟩, mk1 x hxy (face _ _ _ hxy hyu (by simp) (by simp) (by simp))⟩
    · exact ⟨x, hxu, Or.inl ⟨hxy, full ▸ lxy, full ▸ lxz⟩, mk1 x hxy (face _ _ _ hxy hyz (by simp) (by simp) (by simp))⟩
  | 1, _ =>
    have hT : triangleOf p q r = [x, z, u] := hf
    obtain ⟨s1, s2, s3⟩ := short y z u hyz hzu (by simp) (by simp) (by simp) (hmin 0 (by omega))
    rcases cases3 x z u hT hxz hzu with ⟨rfl, rfl, rfl⟩ | ⟨rfl, rfl, rfl⟩ | ⟨rfl, rfl, rfl⟩
    · exact absurd full s3.ne'
    · exact ⟨y, hyz, Or.inr (Or.inl ⟨hxy, hyu, full ▸ lxy, full ▸ s2⟩),
        mk2 y hxy hyu (face _ _ _ hxy hyu (by simp) (by simp) (by simp))⟩
    · exact ⟨y, hyu, Or.inr (Or.inl ⟨hxy, hyz, full ▸ lxy, full ▸ s1⟩),
        mk2 y hxy hyz (face _ _ _ hxy hyz (by simp) (by simp) (by simp))⟩
  | 2, _ =>
    have hT : triangleOf p q r = [x, y, u] := hf
    obtain ⟨s1, s2, s3⟩ := short y z u hyz hzu (by simp) (by simp) (by simp) (hmin 0 (by omega))
    obtain ⟨t1, t2, t3⟩ := short x z u hxz hzu (by simp) (by simp) (by simp) (hmin 1 (by omega))
    rcases cases3 x y u hT hxy hyu with ⟨rfl, rfl, rfl⟩ | ⟨rfl, rfl, rfl⟩ | ⟨rfl, rfl, rfl⟩
    · exact absurd full s2.ne'
    · exact absurd full t2.ne'
    · exact ⟨z, hzu, Or.inr (Or.inr ⟨hyz, full ▸ t1, full ▸ s1⟩),
        mk3 z hyz (face _ _ _ hxy hyz (by simp) (by simp) (by simp))⟩
  | 3, _ =>
    have hT : triangleOf p q r = [x, y, z] := hf
    obtain ⟨s1, s2, s3⟩ := short y z u hyz hzu (by simp) (by simp) (by simp) (hmin 0 (by omega))
    obtain ⟨t1, t2, t3⟩ := short x z u hxz hzu (by simp) (by simp) (by simp) (hmin 1 (by omega))
    obtain ⟨v1, v2, v3⟩ := short x y u hxy hyu (by simp) (by simp) (by simp) (hmin 2 (by omega))
    rcases cases3 x y z hT hxy hyz with ⟨rfl, rfl, rfl⟩ | ⟨rfl, rfl, rfl⟩ | ⟨rfl, rfl, rfl⟩
    · exact absurd full s1.ne'
    · exact absurd full t1.ne'
    · exact absurd full v1.ne'

/-- The longest edge of a triangle of the complex is removed. -/
theorem longest_removed {g : Graph W} {n D : Nat} {d : Nat → Nat → W} {near : Nat → Nat → Prop}
    (h : StoresRips g n d near D) (hD : 2 ≤ D) (h0 : ∀ i j, 0 ≤ d i j)
    {edges : List (List Nat × W)} (he : (collapsed g)[1]? = some edges) {p q : Nat} (hpq : p < q) (r : Nat) :
    Longest d p q r → IsSimplex n near (triangleOf p q r) → ∀ w, ([p, q], w) ∉ edges := by
  obtain ⟨all, ha, -, hm⟩ := (collapsed_parts g).2.1 edges he
  induction r using Nat.strong_induction_on with
  | _ r ih =>
    intro hl hs w hmem
    have hlen : (triangleOf p q r).length = 3 := by unfold triangleOf; split_ifs <;> rfl
    obtain ⟨tri, ht, hin⟩ := (h.exact 2 (triangleOf p q r) _ hD).2 ⟨hlen, hs, rfl⟩
    have h2 := (List.getElem?_eq_some_iff.1 ht).1
    have hd2 : g.drop 2 = tri :: g.drop 3 := by
      rw [List.drop_eq_getElem_cons h2]
      congr 1
      exact (List.getElem?_eq_some_iff.1 ht).2
    obtain ⟨l, hrem, hml, -⟩ := remaining_head tri (g.drop 3)
    have hno := ((hm _).1 hmem).2
    rw [hd2, hrem] at hno
    by_cases hin' : (triangleOf p q r, diam d (triangleOf p q r)) ∈ l
    · exact hno ⟨_, hin', longest_chosen h (by omega) h0 ha hpq hl hs⟩
    · rw [hml] at hin'
      push Not at hin'
      obtain ⟨e, hee, hc⟩ := hin' hin
      obtain ⟨tet, h3, het⟩ : ∃ tet, g[3]? = some tet ∧ e ∈ tet := by
        cases hd : g.drop 3 with
        | nil => rw [hd] at hee; simp [remaining] at hee
        | cons tet upper =>
          rw [hd] at hee
          obtain ⟨l', hl', -, hls⟩ := remaining_head tet upper
          rw [hl'] at hee
          refine ⟨tet, ?_, hls.subset hee⟩
          have : (g.drop 3)[0]? = some tet := by rw [hd]; rfl
          rwa [List.getElem?_drop] at this
      have hD3 : 3 ≤ D := by
        have := (List.getElem?_eq_some_iff.1 h3).1
        have := h.only
        omega
      obtain ⟨s, hsr, hls, hss⟩ := longest_descends h hD3 h0 ht hpq hl h3 het hc
      exact ih s hsr hls hss w hmem

/-- Every triangle has a longest edge. -/
theorem exists_longest (d : Nat → Nat → W) {x y z : Nat} (hxy : x < y) (hyz : y < z) :
    Longest d y z x ∨ Longest d x z y ∨ Longest d x y z := by
  unfold Longest
  rcases le_total (d x y) (d y z) with h1 | h1
  · rcases le_or_gt (d x z) (d y z) with h2 | h2
    · exact Or.inl (Or.inl ⟨hxy, h1, h2⟩)
    · exact Or.inr (Or.inl (Or.inr (Or.inl ⟨hxy, hyz, h1.trans h2.le, h2⟩)))
  · rcases lt_or_eq_of_le h1 with h1 | h1
    · rcases lt_or_ge (d x z) (d x y) with h2 | h2
      · exact Or.inr (Or.inr (Or.inr (Or.inr ⟨hyz, h2, h1⟩)))
      · exact Or.inr (Or.inl (Or.inr (Or.inl ⟨hxy, hyz, h2, h1.trans_le h2⟩)))
    · rcases le_or_gt (d x z) (d y z) with h2 | h2
      · exact Or.inl (Or.inl ⟨hxy, h1.ge, h2⟩)
      · exact Or.inr (Or.inl (Or.inr (Or.inl ⟨hxy, hyz, h1 ▸ h2.le, h2⟩)))

/-- The collapsed complex has no three mutually joined points. -/
theorem collapsed_no_triangle {g : Graph W} {n D : Nat} {d : Nat → Nat → W} {near : Nat → Nat → Prop}
    (h : StoresRips g n d near D) (hD : 2 ≤ D) (h0 : ∀ i j, 0 ≤ d i j)
    {edges : List (List Nat × W)} (he : (collapsed g)[1]? = some edges) {x y z : Nat} (hxy : x < y) (hyz : y < z)
    {w1 w2 w3 : W} (h1 : ([x, y], w1) ∈ edges) (h2 : ([x, z], w2) ∈ edges) (h3 : ([y, z], w3) ∈ edges) : False := by
  obtain ⟨all, ha, hsub, -⟩ := (collapsed_parts g).2.1 edges he
  have nearOf : ∀ a b w, a < b → ([a, b], w) ∈ edges → IsSimplex n near [a, b] := fun a b w hab hm =>
    ((mem_edge_iff h (by omega) h0 ha hab w).1 (hsub.subset hm)).1
  have n1 := nearOf x y w1 hxy h1
  have n2 := nearOf x z w2 (by omega) h2
  have n3 := nearOf y z w3 hyz h3
  have hs : IsSimplex n near [x, y, z] := by
    refine ⟨by simp, by simp; omega, ?_, ?_⟩
    · intro v hv
      simp only [List.mem_cons, List.not_mem_nil, or_false] at hv
      rcases hv with rfl | rfl | rfl
      · exact n1.2.2.1 _ (by simp)
      · exact n1.2.2.1 _ (by simp)
      · exact n2.2.2.1 _ (by simp)
    · intro i hi j hj hij
      simp only [List.mem_cons, List.not_mem_nil, or_false] at hi hj
      have m1 : near x y := n1.2.2.2 x (by simp) y (by simp) hxy
      have m2 : near x z := n2.2.2.2 x (by simp) z (by simp) (by omega)
      have m3 : near y z := n3.2.2.2 y (by simp) z (by simp) hyz
      rcases hi with rfl | rfl | rfl <;> rcases hj with rfl | rfl | rfl <;>
        first
          | (exfalso; omega)
          | assumption
  have t1 : triangleOf y z x = [x, y, z] := by unfold triangleOf; rw [if_pos hxy]
  have t2 : triangleOf x z y = [x, y, z] := by unfold triangleOf; rw [if_neg (by omega), if_pos hyz]
  have t3 : triangleOf x y z = [x, y, z] := by unfold triangleOf; rw [if_neg (by omega), if_neg (by omega)]
  rcases exists_longest d hxy hyz with hl | hl | hl
  · exact longest_removed h hD h0 he hyz x hl (t1 ▸ hs) w3 h3
  · exact longest_removed h hD h0 he (by omega) y hl (t2 ▸ hs) w2 h2
  · exact longest_removed h hD h0 he hxy z hl (t3 ▸ hs) w1 h1

/-- The pairs joined after the collapse. -/
def Kept (g : Graph W) (i j : Nat) : Prop := ∃ edges w, (collapsed g)[1]? = some edges ∧ ([i, j], w) ∈ edges

theorem kept_near {g : Graph W} {n D : Nat} {d : Nat → Nat → W} {near : Nat → Nat → Prop}
    (h : StoresRips g n d near D) (hD : 1 ≤ D) (h0 : ∀ i j, 0 ≤ d i j) {i j : Nat} (hij : i < j)
    (hk : Kept g i j) : IsSimplex n near [i, j] := by
  obtain ⟨edges, w, he, hm⟩ := hk
  obtain ⟨all, ha, hsub, -⟩ := (collapsed_parts g).2.1 edges he
  exact ((mem_edge_iff h hD h0 ha hij w).1 (hsub.subset hm)).1

/-- The collapsed complex is the clique complex of the pairs that are kept. -/
theorem collapsed_stores {g : Graph W} {n D : Nat} {d : Nat → Nat → W} {near : Nat → Nat → Prop}
    (h : StoresRips g n d near D) (hD : 1 ≤ D) (h0 : ∀ i j, 0 ≤ d i j) :
    StoresRips (collapsed g) n d (Kept g) D := by
  obtain ⟨p0, p1, p2, p3⟩ := collapsed_parts g
  refine ⟨?_, ?_, by rw [p3]; exact h.only⟩
  · intro k s w hk
    match k with
    | 0 =>
      rw [p0, h.exact 0 s w (by omega)]
      constructor
      · rintro ⟨hl, hs, hw⟩
        obtain ⟨v, rfl⟩ := List.length_eq_one_iff.1 hl
        refine ⟨rfl, ⟨by simp, by simp, hs.2.2.1, ?_⟩, hw⟩
        intro i hi j hj hij
        simp only [List.mem_cons, List.not_mem_nil, or_false] at hi hj
        omega
      · rintro ⟨hl, hs, hw⟩
        obtain ⟨v, rfl⟩ := List.length_eq_one_iff.1 hl
        refine ⟨rfl, ⟨by simp, by simp, hs.2.2.1, ?_⟩, hw⟩
        intro i hi j hj hij
        simp only [List.mem_cons, List.not_mem_nil, or_false] at hi hj
        omega
    | 1 =>
      constructor
      · rintro ⟨edges, he, hm⟩
        obtain ⟨all, ha, hsub, -⟩ := p1 edges he
        obtain ⟨hl, hs, hw⟩ := (h.exact 1 s w hD).1 ⟨all, ha, hsub.subset hm⟩
        obtain ⟨a, b, rfl⟩ := List.length_eq_two.1 hl
        refine ⟨rfl, ⟨by simp, hs.2.1, hs.2.2.1, ?_⟩, hw⟩
        have hab : a < b := by simpa using hs.2.1
        intro i hi j hj hij
        simp only [List.mem_cons, List.not_mem_nil, or_false] at hi hj
        obtain ⟨rfl, rfl⟩ : i = a ∧ j = b := by omega
        exact ⟨edges, w, he, hm⟩
      · rintro ⟨hl, hs, hw⟩
        obtain ⟨a, b, rfl⟩ := List.length_eq_two.1 hl
        have hab : a < b := by simpa using hs.2.1
        obtain ⟨edges, w', he, hm⟩ := hs.2.2.2 a (by simp) b (by simp) hab
        obtain ⟨all, ha, hsub, -⟩ := p1 edges he
        have hw' := ((mem_edge_iff h hD h0 ha hab w').1 (hsub.subset hm)).2
        rw [diam_pair d hab (h0 a b), ← hw'] at hw
        exact ⟨edges, he, hw ▸ hm⟩
    | k + 2 =>
      constructor
      · rintro ⟨layer, hlay, hm⟩
        rw [p2 k layer hlay] at hm
        cases hm
      · rintro ⟨hl, hs, hw⟩
        exfalso
        match s, hl with
        | x :: y :: z :: s, _ =>
          have hinc := hs.2.1
          simp only [List.pairwise_cons, List.mem_cons] at hinc
          have hxy : x < y := hinc.1 y (by simp)
          have hyz : y < z := hinc.2.1 z (by simp)
          obtain ⟨e1, w1, he1, m1⟩ := hs.2.2.2 x (by simp) y (by simp) hxy
          obtain ⟨e2, w2, he2, m2⟩ := hs.2.2.2 x (by simp) z (by simp) (by omega)
          obtain ⟨e3, w3, he3, m3⟩ := hs.2.2.2 y (by simp) z (by simp) hyz
          rw [he1] at he2 he3
          cases he2
          cases he3
          exact collapsed_no_triangle h (by omega) h0 he1 hxy hyz m1 m2 m3
  · intro layer hlay
    obtain ⟨k, hk⟩ := List.getElem?_of_mem hlay
    match k with
    | 0 => rw [p0] at hk; exact h.once layer (List.mem_of_getElem? hk)
    | 1 =>
      obtain ⟨all, ha, hsub, -⟩ := p1 layer hk
      exact (h.once all (List.mem_of_getElem? ha)).sublist (hsub.map _)
    | k + 2 => rw [p2 k layer hk]; simp

end
end LHF
