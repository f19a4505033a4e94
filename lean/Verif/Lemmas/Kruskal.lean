import Verif.Model.FastPersistence
import Verif.Spec.Graph
import Verif.Lemmas.Merge
import Mathlib.Combinatorics.SimpleGraph.Acyclic
import Mathlib.Combinatorics.SimpleGraph.Connectivity.Finite

/-! Correctness of the dimension-0 loop of fastPersistence. -/

namespace LHF
open Spec

/-! ### Graph facts -/

theorem reachable_add_edge {V : Type} {G G' : SimpleGraph V} {a b : V}
    (h : ∀ x y, G'.Adj x y ↔ G.Adj x y ∨ (x = a ∧ y = b) ∨ (x = b ∧ y = a)) (x y : V) :
    G'.Reachable x y ↔ G.Reachable x y ∨ (G.Reachable x a ∧ G.Reachable b y) ∨
      (G.Reachable x b ∧ G.Reachable a y) := by
  have hle : G ≤ G' := fun x y hxy => (h x y).2 (Or.inl hxy)
  have hab : G'.Reachable a b := by
    by_cases e : a = b
    · subst e; exact SimpleGraph.Reachable.refl _
    · exact ((h a b).2 (Or.inr (Or.inl ⟨rfl, rfl⟩))).reachable
  constructor
  · rintro ⟨p⟩
    induction p with
    | nil => exact Or.inl (SimpleGraph.Reachable.refl _)
    | @cons u v w huv p ih =>
      rcases (h u v).1 huv with h1 | ⟨rfl, rfl⟩ | ⟨rfl, rfl⟩
      · rcases ih with h2 | ⟨h2, h3⟩ | ⟨h2, h3⟩
        · exact Or.inl (h1.reachable.trans h2)
        · exact Or.inr (Or.inl ⟨h1.reachable.trans h2, h3⟩)
        · exact Or.inr (Or.inr ⟨h1.reachable.trans h2, h3⟩)
      · rcases ih with h2 | ⟨h2, h3⟩ | ⟨h2, h3⟩
        · exact Or.inr (Or.inl ⟨SimpleGraph.Reachable.refl _, h2⟩)
        · exact Or.inr (Or.inl ⟨SimpleGraph.Reachable.refl _, h3⟩)
        · exact Or.inl h3
      · rcases ih with h2 | ⟨h2, h3⟩ | ⟨h2, h3⟩
        · exact Or.inr (Or.inr ⟨SimpleGraph.Reachable.refl _, h2⟩)
        · exact Or.inl h3
        · exact Or.inr (Or.inr ⟨SimpleGraph.Reachable.refl _, h3⟩)
  · rintro (h1 | ⟨h1, h2⟩ | ⟨h1, h2⟩)
    · exact h1.mono hle
    · exact (h1.mono hle).trans (hab.trans (h2.mono hle))
    · exact (h1.mono hle).trans (hab.symm.trans (h2.mono hle))

theorem components_add_edge {V : Type} [Finite V] {G G' : SimpleGraph V} {a b : V}
    (hab : ¬ G.Reachable a b)
    (h : ∀ x y, G'.Reachable x y ↔ G.Reachable x y ∨ (G.Reachable x a ∧ G.Reachable b y) ∨
      (G.Reachable x b ∧ G.Reachable a y)) : components G' + 1 = components G := by
  classical
  unfold components
  have hsub : ∀ x y, G.Reachable x y → G'.Reachable x y := fun x y hxy => (h x y).2 (Or.inl hxy)
  let f : {c : G.ConnectedComponent // c ≠ G.connectedComponentMk b} → G'.ConnectedComponent :=
    fun c => c.1.lift (fun v => G'.connectedComponentMk v)
      (fun v w p _ => SimpleGraph.ConnectedComponent.sound (hsub v w ⟨p⟩))
  have hf : Function.Bijective f := by
    constructor
    · rintro ⟨c1, h1⟩ ⟨c2, h2⟩ he
      induction c1 using SimpleGraph.ConnectedComponent.ind with | h x => ?_
      induction c2 using SimpleGraph.ConnectedComponent.ind with | h y => ?_
      have he' : G'.Reachable x y := SimpleGraph.ConnectedComponent.exact he
      apply Subtype.ext
      apply SimpleGraph.ConnectedComponent.sound
      have h1' : ¬ G.Reachable x b := fun hh => h1 (SimpleGraph.ConnectedComponent.sound hh)
      have h2' : ¬ G.Reachable y b := fun hh => h2 (SimpleGraph.ConnectedComponent.sound hh)
      rcases (h x y).1 he' with h3 | ⟨h3, h4⟩ | ⟨h3, h4⟩
      · exact h3
      · exact absurd h4.symm h2'
      · exact absurd h3 h1'
    · intro c
      induction c using SimpleGraph.ConnectedComponent.ind with | h x => ?_
      by_cases hx : G.Reachable x b
      · refine ⟨⟨G.connectedComponentMk a, fun hh => hab (SimpleGraph.ConnectedComponent.exact hh)⟩,
          ?_⟩
        apply SimpleGraph.ConnectedComponent.sound
        exact (h a x).2 (Or.inr (Or.inl ⟨SimpleGraph.Reachable.refl _, hx.symm⟩))
      · exact ⟨⟨G.connectedComponentMk x, fun hh => hx (SimpleGraph.ConnectedComponent.exact hh)⟩,
          rfl⟩
  have : Finite G.ConnectedComponent := Quot.finite _
  have := Fintype.ofFinite G.ConnectedComponent
  rw [← Nat.card_eq_of_bijective f hf]
  rw [Nat.card_eq_fintype_card, Nat.card_eq_fintype_card, Fintype.card_subtype_compl,
    Fintype.card_subtype_eq]
  have : 0 < Fintype.card G.ConnectedComponent := Fintype.card_pos_iff.2 ⟨G.connectedComponentMk a⟩
  omega

/-! ### The scan over the connected sets -/

section
variable {W : Type} [Zero W]

/-- Number of common vertices. -/
def hit (e c : List Nat) : Nat := (setIntersectS e c).length

theorem mem_setIntersectS {e c : List Nat} (he : Inc e) (hc : Inc c) (x : Nat) :
    x ∈ setIntersectS e c ↔ x ∈ e ∧ x ∈ c := by
  unfold setIntersectS
  split_ifs with h
  · subst h; simp
  · exact mem_stdInter he hc x

theorem inc_setIntersectS {e c : List Nat} (he : Inc e) (hc : Inc c) :
    Inc (setIntersectS e c) := by
  unfold setIntersectS
  split_ifs with h
  · exact he
  · exact inc_stdInter he hc

theorem hit_pair {a b : Nat} (hab : a < b) {c : List Nat} (hc : Inc c) :
    hit [a, b] c = (if a ∈ c then 1 else 0) + (if b ∈ c then 1 else 0) := by
  have he : Inc [a, b] := by simp [Inc, hab]
  have h1 : setIntersectS [a, b] c = [a, b].filter (fun x => decide (x ∈ c)) := by
    apply Inc.ext (inc_setIntersectS he hc)
    · exact he.sublist List.filter_sublist
    · intro x; rw [mem_setIntersectS he hc]; simp
  unfold hit
  rw [h1]
  by_cases ha : a ∈ c <;> by_cases hb : b ∈ c <;> simp [ha, hb]

theorem scan_spec (edge : List Nat × W) (T : List (BettiEntry W)) (L : List (List Nat)) :
    let s := L.foldl (scanSet edge) ⟨false, false, [], [], T⟩
    (s.found = true ↔ ∃ c ∈ L, hit edge.1 c = 1) ∧ (s.br = true ↔ ∃ c ∈ L, hit edge.1 c = 2) ∧
    s.conTemp = L.filter (fun c => hit edge.1 c ≠ 1) ∧
    (s.found = true → ∀ x, x ∈ s.tempset ↔ x ∈ edge.1 ∨ ∃ c ∈ L, hit edge.1 c = 1 ∧ x ∈ c) ∧
    (Inc edge.1 → (∀ c ∈ L, Inc c) → Inc s.tempset) ∧
    s.table = T ++ ((L.find? (fun c => hit edge.1 c = 1)).map
      (fun c => (⟨0, 0, edge.2, setIntersectS edge.1 c⟩ : BettiEntry W))).toList := by
  induction L using List.reverseRecOn with
  | nil => simp
  | append_singleton L c ih =>
    rw [List.foldl_append, List.foldl_cons, List.foldl_nil]
    dsimp only at ih ⊢
    generalize hs : L.foldl (scanSet edge) ⟨false, false, [], [], T⟩ = s at ih ⊢
    obtain ⟨i1, i2, i3, i4, i5, i6⟩ := ih
    have hfind : s.found = false → L.find? (fun c => decide (hit edge.1 c = 1)) = none := by
      intro hf
      rw [List.find?_eq_none]
      intro c' hc' hh
      have := i1.2 ⟨c', hc', by simpa using hh⟩
      rw [hf] at this; exact absurd this (by simp)
    have hfind' : s.found = true → ∃ c', L.find? (fun c => decide (hit edge.1 c = 1)) = some c' := by
      intro hf
      obtain ⟨c', hc', hh⟩ := i1.1 hf
      rw [← Option.isSome_iff_exists, List.find?_isSome]
      exact ⟨c', hc', by simpa using hh⟩
    unfold scanSet
    have hlen : (setIntersectS edge.1 c).length = hit edge.1 c := rfl
    simp only [hlen]
    by_cases h1 : hit edge.1 c = 1
    · by_cases hf : s.found = true
      · obtain ⟨c', hc'⟩ := hfind' hf
        simp only [hf, h1, Bool.not_true, Bool.false_and, Bool.false_eq_true, if_false,
          beq_self_eq_true, if_true]
        refine ⟨?_, ?_, ?_, ?_, ?_, ?_⟩
        · simp only [true_iff]; exact ⟨c, by simp, h1⟩
        · rw [i2]
          constructor
          · rintro ⟨x, hx, hx'⟩; exact ⟨x, by simp [hx], hx'⟩
          · rintro ⟨x, hx, hx'⟩
            rw [List.mem_append, List.mem_singleton] at hx
            rcases hx with hx | rfl
            · exact ⟨x, hx, hx'⟩
            · omega
        · rw [i3, List.filter_append]; simp [h1]
        · intro _ x
          rw [mem_stdUnion, mem_stdUnion, i4 hf]
          simp only [List.mem_append, List.mem_singleton]
          constructor
          · rintro (h | ((h | ⟨c', hc', h⟩) | h))
            · exact Or.inl h
            · exact Or.inl h
            · exact Or.inr ⟨c', Or.inl hc', h⟩
            · exact Or.inr ⟨c, Or.inr rfl, h1, h⟩
          · rintro (h | ⟨c', (hc' | rfl), h, h'⟩)
            · exact Or.inl h
            · exact Or.inr (Or.inl (Or.inr ⟨c', hc', h, h'⟩))
            · exact Or.inr (Or.inr h')
        · intro he hL
          exact inc_stdUnion he (inc_stdUnion (i5 he fun x hx => hL x (by simp [hx]))
            (hL c (by simp)))
        · rw [i6, List.find?_append, hc']; rfl
      · have hf' : s.found = false := by simpa using hf
        simp only [hf', h1, Bool.not_false, Bool.true_and, beq_self_eq_true, if_true]
        have hnone : ∀ c' ∈ L, hit edge.1 c' ≠ 1 := fun c' hc' hh => hf (i1.2 ⟨c', hc', hh⟩)
        refine ⟨?_, ?_, ?_, ?_, ?_, ?_⟩
        · simp only [true_iff]; exact ⟨c, by simp, h1⟩
        · rw [i2]
          constructor
          · rintro ⟨x, hx, hx'⟩; exact ⟨x, by simp [hx], hx'⟩
          · rintro ⟨x, hx, hx'⟩
            rw [List.mem_append, List.mem_singleton] at hx
            rcases hx with hx | rfl
            · exact ⟨x, hx, hx'⟩
            · omega
        · rw [i3, List.filter_append]; simp [h1]
        · intro _ x
          rw [mem_stdUnion]
          simp only [List.mem_append, List.mem_singleton]
          constructor
          · rintro (h | h)
            · exact Or.inl h
            · exact Or.inr ⟨c, Or.inr rfl, h1, h⟩
          · rintro (h | ⟨c', (hc' | rfl), h, h'⟩)
            · exact Or.inl h
            · exact absurd h (hnone c' hc')
            · exact Or.inr h'
        · intro he hL
          exact inc_stdUnion he (hL c (by simp))
        · rw [i6, List.find?_append, hfind hf']; simp [h1]
    · have hb1 : (hit edge.1 c == 1) = false := by simpa using h1
      simp only [hb1, Bool.and_false, Bool.false_eq_true, if_false]
      have e1 : (∃ c' ∈ L ++ [c], hit edge.1 c' = 1) ↔ ∃ c' ∈ L, hit edge.1 c' = 1 := by
        constructor
        · rintro ⟨x, hx, hx'⟩
          rw [List.mem_append, List.mem_singleton] at hx
          rcases hx with hx | rfl
          · exact ⟨x, hx, hx'⟩
          · exact absurd hx' h1
        · rintro ⟨x, hx, hx'⟩; exact ⟨x, by simp [hx], hx'⟩
      have e2 : ∀ x, (∃ c' ∈ L ++ [c], hit edge.1 c' = 1 ∧ x ∈ c') ↔
          ∃ c' ∈ L, hit edge.1 c' = 1 ∧ x ∈ c' := by
        intro z
        constructor
        · rintro ⟨x, hx, hx', h⟩
          rw [List.mem_append, List.mem_singleton] at hx
          rcases hx with hx | rfl
          · exact ⟨x, hx, hx', h⟩
          · exact absurd hx' h1
        · rintro ⟨x, hx, hx'⟩; exact ⟨x, by simp [hx], hx'⟩
      have e3 : (L ++ [c]).find? (fun c => decide (hit edge.1 c = 1)) =
          L.find? (fun c => decide (hit edge.1 c = 1)) := by
        rw [List.find?_append]; simp [h1]
      have e4 : (L ++ [c]).filter (fun c => decide (hit edge.1 c ≠ 1)) =
          L.filter (fun c => decide (hit edge.1 c ≠ 1)) ++ [c] := by
        rw [List.filter_append]; simp [h1]
      by_cases h2 : hit edge.1 c = 2
      · simp only [h2, beq_self_eq_true, if_true]
        refine ⟨by rw [e1]; exact i1, ?_, by rw [e4, i3], fun hf x => by rw [e2]; exact i4 hf x,
          fun he hL => i5 he fun x hx => hL x (by simp [hx]), by rw [e3]; exact i6⟩
        simp only [true_iff]; exact ⟨c, by simp, h2⟩
      · have hb2 : (hit edge.1 c == 2) = false := by simpa using h2
        simp only [hb2, Bool.false_eq_true, if_false]
        refine ⟨by rw [e1]; exact i1, ?_, by rw [e4, i3], fun hf x => by rw [e2]; exact i4 hf x,
          fun he hL => i5 he fun x hx => hL x (by simp [hx]), by rw [e3]; exact i6⟩
        rw [i2]
        constructor
        · rintro ⟨x, hx, hx'⟩; exact ⟨x, by simp [hx], hx'⟩
        · rintro ⟨x, hx, hx'⟩
          rw [List.mem_append, List.mem_singleton] at hx
          rcases hx with hx | rfl
          · exact ⟨x, hx, hx'⟩
          · exact absurd hx' h2

/-! ### One edge -/

/-- Being in the same class: equal, or in a common connected set. -/
def Same (C : List (List Nat)) (x y : Nat) : Prop := x = y ∨ ∃ c ∈ C, x ∈ c ∧ y ∈ c

/-- The connected sets are increasing and disjoint. -/
structure Classes (C : List (List Nat)) : Prop where
  /-- increasing -/
  inc : ∀ c ∈ C, Inc c
  /-- disjoint -/
  disj : C.Pairwise (fun c c' => ∀ x, x ∈ c → x ∉ c')

theorem Classes.eq {C : List (List Nat)} (h : Classes C) {c c' : List Nat} (hc : c ∈ C)
    (hc' : c' ∈ C) {x : Nat} (hx : x ∈ c) (hx' : x ∈ c') : c = c' := by
  have hd := h.disj
  have : Std.Symm (fun c c' : List Nat => ∀ x, x ∈ c → x ∉ c') :=
    ⟨fun a b hab y hy hy' => hab y hy' hy⟩
  by_contra hne
  exact (hd.forall hc hc' hne) x hx hx'

theorem Same.symm {C : List (List Nat)} {x y : Nat} (h : Same C x y) : Same C y x := by
  rcases h with rfl | ⟨c, hc, hx, hy⟩
  · exact Or.inl rfl
  · exact Or.inr ⟨c, hc, hy, hx⟩

theorem Same.trans {C : List (List Nat)} (hC : Classes C) {x y z : Nat} (h : Same C x y)
    (h' : Same C y z) : Same C x z := by
  rcases h with rfl | ⟨c, hc, hx, hy⟩
  · exact h'
  · rcases h' with rfl | ⟨c', hc', hy', hz⟩
    · exact Or.inr ⟨c, hc, hx, hy⟩
    · obtain rfl := hC.eq hc hc' hy hy'
      exact Or.inr ⟨c, hc, hx, hz⟩

/-- An edge inside a class changes nothing; an edge between two classes is selected and merges
them. -/
theorem kruskalStep_spec {k : Kruskal W} (hC : Classes k.conSet) {a b : Nat} (hab : a < b) (w : W) :
    (Same k.conSet a b → kruskalStep ([a, b], w) k = { k with pivotIndex := k.pivotIndex + 1 }) ∧
    (¬ Same k.conSet a b →
      (kruskalStep ([a, b], w) k).mst = k.mst ++ [w] ∧
      (kruskalStep ([a, b], w) k).pivots = k.pivots ++ [k.pivotIndex] ∧
      (kruskalStep ([a, b], w) k).pivotIndex = k.pivotIndex + 1 ∧
      Classes (kruskalStep ([a, b], w) k).conSet ∧
      ∀ x y, Same (kruskalStep ([a, b], w) k).conSet x y ↔ Same k.conSet x y ∨
        (Same k.conSet x a ∧ Same k.conSet b y) ∨ (Same k.conSet x b ∧ Same k.conSet a y)) := by
  have hsc := scan_spec ([a, b], w) k.table k.conSet
  unfold kruskalStep
  dsimp only at hsc ⊢
  generalize k.conSet.foldl (scanSet ([a, b], w)) ⟨false, false, [], [], k.table⟩ = s at hsc ⊢
  obtain ⟨i1, i2, i3, i4, i5, i6⟩ := hsc
  have hhit : ∀ c ∈ k.conSet, hit [a, b] c = (if a ∈ c then 1 else 0) + (if b ∈ c then 1 else 0) :=
    fun c hc => hit_pair hab (hC.inc c hc)
  have hh1 : ∀ c ∈ k.conSet, (hit [a, b] c = 1 ↔ (a ∈ c ∧ b ∉ c) ∨ (a ∉ c ∧ b ∈ c)) := by
    intro c hc
    rw [hhit c hc]
    by_cases h1 : a ∈ c <;> by_cases h2 : b ∈ c <;> simp [h1, h2]
  have hh2 : ∀ c ∈ k.conSet, (hit [a, b] c = 2 ↔ a ∈ c ∧ b ∈ c) := by
    intro c hc
    rw [hhit c hc]
    by_cases h1 : a ∈ c <;> by_cases h2 : b ∈ c <;> simp [h1, h2]
  constructor
  · rintro (h | ⟨c, hc, ha, hb⟩)
    · omega
    have hbr : s.br = true := i2.2 ⟨c, hc, (hh2 c hc).2 ⟨ha, hb⟩⟩
    have hnone : ∀ c' ∈ k.conSet, hit [a, b] c' ≠ 1 := by
      intro c' hc' h
      rcases (hh1 c' hc').1 h with ⟨h1, h2⟩ | ⟨h1, h2⟩
      · rw [hC.eq hc' hc h1 ha] at h2; exact h2 hb
      · rw [hC.eq hc' hc h2 hb] at h1; exact h1 ha
    have hf : s.found = false := by
      by_contra hh
      obtain ⟨c', hc', h⟩ := i1.1 (by simpa using hh)
      exact hnone c' hc' h
    rw [hf, hbr]
    simp only [Bool.false_eq_true, if_false, Bool.not_true]
    have e1 : s.conTemp = k.conSet := by
      rw [i3, List.filter_eq_self]
      intro c' hc'; simpa using hnone c' hc'
    have e2 : s.table = k.table := by
      rw [i6]
      have : k.conSet.find? (fun c => decide (hit [a, b] c = 1)) = none := by
        rw [List.find?_eq_none]
        intro c' hc'; simpa using hnone c' hc'
      rw [this]; simp
    rw [e1, e2]
  · intro hns
    have hno2 : ∀ c ∈ k.conSet, ¬ (a ∈ c ∧ b ∈ c) := fun c hc h =>
      hns (Or.inr ⟨c, hc, h.1, h.2⟩)
    have hbr : s.br = false := by
      by_contra hh
      obtain ⟨c', hc', h⟩ := i2.1 (by simpa using hh)
      exact hno2 c' hc' ((hh2 c' hc').1 h)
    -- the new class
    have hT : ∃ T, (if s.found = true then
        (⟨k.mst ++ [w], s.conTemp ++ [s.tempset], k.pivots ++ [k.pivotIndex], k.pivotIndex + 1,
          s.table⟩ : Kruskal W)
      else if (!s.br) = true then
        ⟨k.mst ++ [w], s.conTemp ++ [[a, b]], k.pivots ++ [k.pivotIndex], k.pivotIndex + 1,
          s.table⟩
      else ⟨k.mst, s.conTemp, k.pivots, k.pivotIndex + 1, s.table⟩) =
        ⟨k.mst ++ [w], k.conSet.filter (fun c => hit [a, b] c ≠ 1) ++ [T],
          k.pivots ++ [k.pivotIndex], k.pivotIndex + 1, s.table⟩ ∧ Inc T ∧
        ∀ z, z ∈ T ↔ Same k.conSet z a ∨ Same k.conSet z b := by
      have hinc : Inc [a, b] := by simp [Inc, hab]
      by_cases hf : s.found = true
      · refine ⟨s.tempset, by rw [if_pos hf, i3], i5 hinc hC.inc, ?_⟩
        intro z
        rw [i4 hf]
        constructor
        · rintro (h | ⟨c, hc, h1, h2⟩)
          · simp only [List.mem_cons, List.not_mem_nil, or_false] at h
            rcases h with rfl | rfl
            · exact Or.inl (Or.inl rfl)
            · exact Or.inr (Or.inl rfl)
          · rcases (hh1 c hc).1 h1 with ⟨h3, -⟩ | ⟨-, h3⟩
            · exact Or.inl (Or.inr ⟨c, hc, h2, h3⟩)
            · exact Or.inr (Or.inr ⟨c, hc, h2, h3⟩)
        · rintro ((rfl | ⟨c, hc, h1, h2⟩) | (rfl | ⟨c, hc, h1, h2⟩))
          · simp
          · exact Or.inr ⟨c, hc, (hh1 c hc).2 (Or.inl ⟨h2, fun h => hno2 c hc ⟨h2, h⟩⟩), h1⟩
          · simp
          · exact Or.inr ⟨c, hc, (hh1 c hc).2 (Or.inr ⟨fun h => hno2 c hc ⟨h, h2⟩, h2⟩), h1⟩
      · refine ⟨[a, b], by rw [if_neg hf, hbr, if_pos (by rfl), i3], hinc, ?_⟩
        have hnone : ∀ c ∈ k.conSet, a ∉ c ∧ b ∉ c := by
          intro c hc
          have h1 : hit [a, b] c ≠ 1 := fun h => hf (i1.2 ⟨c, hc, h⟩)
          rw [Ne, hh1 c hc] at h1
          have h2 := hno2 c hc
          by_cases h3 : a ∈ c <;> by_cases h4 : b ∈ c <;> simp_all
        intro z
        simp only [List.mem_cons, List.not_mem_nil, or_false]
        constructor
        · rintro (rfl | rfl)
          · exact Or.inl (Or.inl rfl)
          · exact Or.inr (Or.inl rfl)
        · rintro ((rfl | ⟨c, hc, h1, h2⟩) | (rfl | ⟨c, hc, h1, h2⟩))
          · exact Or.inl rfl
          · exact absurd h2 (hnone c hc).1
          · exact Or.inr rfl
          · exact absurd h2 (hnone c hc).2
    obtain ⟨T, hT1, hT2, hT3⟩ := hT
    rw [hT1]
    refine ⟨rfl, rfl, rfl, ⟨?_, ?_⟩, ?_⟩
    · intro c hc
      rw [List.mem_append, List.mem_singleton, List.mem_filter] at hc
      rcases hc with hc | rfl
      · exact hC.inc c hc.1
      · exact hT2
    · rw [List.pairwise_append]
      refine ⟨hC.disj.sublist List.filter_sublist, by simp, ?_⟩
      intro c hc c' hc' x hx hx'
      rw [List.mem_filter] at hc
      rw [List.mem_singleton] at hc'
      subst hc'
      have h1 : ¬ hit [a, b] c = 1 := by simpa using hc.2
      rw [hh1 c hc.1] at h1
      have h2 := hno2 c hc.1
      have h3 : a ∉ c ∧ b ∉ c := by
        by_cases h3 : a ∈ c <;> by_cases h4 : b ∈ c <;> simp_all
      rcases (hT3 x).1 hx' with (rfl | ⟨c', hc', h4, h5⟩) | (rfl | ⟨c', hc', h4, h5⟩)
      · exact h3.1 hx
      · rw [hC.eq hc' hc.1 h4 hx] at h5; exact h3.1 h5
      · exact h3.2 hx
      · rw [hC.eq hc' hc.1 h4 hx] at h5; exact h3.2 h5
    · intro x y
      constructor
      · rintro (rfl | ⟨c, hc, hx, hy⟩)
        · exact Or.inl (Or.inl rfl)
        · rw [List.mem_append, List.mem_singleton, List.mem_filter] at hc
          rcases hc with hc | rfl
          · exact Or.inl (Or.inr ⟨c, hc.1, hx, hy⟩)
          · rcases (hT3 x).1 hx with h1 | h1 <;> rcases (hT3 y).1 hy with h2 | h2
            · exact Or.inl (h1.trans hC h2.symm)
            · exact Or.inr (Or.inl ⟨h1, h2.symm⟩)
            · exact Or.inr (Or.inr ⟨h1, h2.symm⟩)
            · exact Or.inl (h1.trans hC h2.symm)
      · have hTm : T ∈ k.conSet.filter (fun c => hit [a, b] c ≠ 1) ++ [T] := by simp
        rintro ((rfl | ⟨c, hc, hx, hy⟩) | ⟨h1, h2⟩ | ⟨h1, h2⟩)
        · exact Or.inl rfl
        · by_cases h1 : hit [a, b] c = 1
          · have hcT : ∀ z ∈ c, z ∈ T := by
              intro z hz
              rw [hT3]
              rcases (hh1 c hc).1 h1 with ⟨h3, -⟩ | ⟨-, h3⟩
              · exact Or.inl (Or.inr ⟨c, hc, hz, h3⟩)
              · exact Or.inr (Or.inr ⟨c, hc, hz, h3⟩)
            exact Or.inr ⟨T, hTm, hcT x hx, hcT y hy⟩
          · refine Or.inr ⟨c, ?_, hx, hy⟩
            rw [List.mem_append, List.mem_filter]
            exact Or.inl ⟨hc, by simpa using h1⟩
        · exact Or.inr ⟨T, hTm, (hT3 x).2 (Or.inl h1), (hT3 y).2 (Or.inr h2.symm)⟩
        · exact Or.inr ⟨T, hTm, (hT3 x).2 (Or.inr h1), (hT3 y).2 (Or.inl h2.symm)⟩

/-! ### The loop -/

/-- Invariant of the loop after the edges `E`, of which `F` were selected. -/
structure KInv (verts : List Nat) (E F : List (List Nat × W)) (k : Kruskal W) : Prop where
  /-- the connected sets are disjoint -/
  classes : Classes k.conSet
  /-- they are the components of the graph -/
  reach : ∀ x y : {v // v ∈ verts}, (edgeGraph verts E).Reachable x y ↔ Same k.conSet x y
  /-- one component less per selected edge -/
  count : k.mst.length + components (edgeGraph verts E) = verts.length
  /-- position -/
  idx : k.pivotIndex = E.length
  /-- selected edges -/
  mst : k.mst = F.map (·.2)
  /-- selected positions -/
  piv : F = k.pivots.filterMap (fun i => E[i]?)
  /-- positions are increasing -/
  pinc : Inc k.pivots
  /-- positions are in range -/
  plt : ∀ i ∈ k.pivots, i < E.length
  /-- a position is selected iff the edge joins two components of the earlier edges -/
  pmem : ∀ i (hi : i < E.length), (i ∈ k.pivots ↔ ∃ x y : {v // v ∈ verts}, x.1 ∈ E[i].1 ∧
    y.1 ∈ E[i].1 ∧ ¬ (edgeGraph verts (E.take i)).Reachable x y)
  /-- same components -/
  span : ∀ x y, (edgeGraph verts F).Reachable x y ↔ (edgeGraph verts E).Reachable x y
  /-- no cycle -/
  acyclic : (edgeGraph verts F).IsAcyclic
  /-- selected edges are edges, in order -/
  sub : F.Sublist E

omit [Zero W] in
theorem edgeGraph_snoc {verts : List Nat} {E : List (List Nat × W)} {a b : Nat} (hab : a < b)
    (ha : a ∈ verts) (hb : b ∈ verts) (w : W) (x y : {v // v ∈ verts}) :
    (edgeGraph verts (E ++ [([a, b], w)])).Adj x y ↔ (edgeGraph verts E).Adj x y ∨
      (x = ⟨a, ha⟩ ∧ y = ⟨b, hb⟩) ∨ (x = ⟨b, hb⟩ ∧ y = ⟨a, ha⟩) := by
  simp only [edgeGraph, Subtype.ext_iff, ne_eq]
  constructor
  · rintro ⟨h, e, he, hx, hy⟩
    rw [List.mem_append, List.mem_singleton] at he
    rcases he with he | rfl
    · exact Or.inl ⟨h, e, he, hx, hy⟩
    · simp only [List.mem_cons, List.not_mem_nil, or_false] at hx hy
      omega
  · rintro (⟨h, e, he, hx, hy⟩ | ⟨h1, h2⟩ | ⟨h1, h2⟩)
    · exact ⟨h, e, by simp [he], hx, hy⟩
    · exact ⟨by omega, ([a, b], w), by simp, by simp [h1], by simp [h2]⟩
    · exact ⟨by omega, ([a, b], w), by simp, by simp [h1], by simp [h2]⟩

theorem kinv_init {verts : List Nat} (hv : verts.Nodup) (T : List (BettiEntry W)) :
    KInv verts [] [] (Kruskal.init T) := by
  have hbot : (edgeGraph verts ([] : List (List Nat × W))) = ⊥ := by
    ext x y; simp [edgeGraph]
  refine ⟨⟨by simp [Kruskal.init], by simp [Kruskal.init]⟩, ?_, ?_, rfl, rfl, rfl,
    by simp [Kruskal.init], by simp [Kruskal.init], by simp, by simp, ?_, List.Sublist.refl _⟩
  · intro x y
    rw [hbot, SimpleGraph.reachable_bot]
    simp [Same, Kruskal.init, Subtype.ext_iff]
  · rw [hbot]
    have : components (⊥ : SimpleGraph {v // v ∈ verts}) = Nat.card {v // v ∈ verts} := by
      unfold components
      symm
      refine Nat.card_eq_of_bijective (fun v => SimpleGraph.connectedComponentMk ⊥ v) ⟨?_, ?_⟩
      · intro x y h
        exact SimpleGraph.reachable_bot.1 (SimpleGraph.ConnectedComponent.exact h)
      · intro c
        induction c using SimpleGraph.ConnectedComponent.ind with | h x => exact ⟨x, rfl⟩
    rw [this]
    have h2 : Nat.card {v // v ∈ verts} = verts.length := by
      rw [show {v // v ∈ verts} = {v // v ∈ verts.toFinset} by simp, Nat.card_eq_fintype_card,
        Fintype.card_coe, List.toFinset_card_of_nodup hv]
    rw [h2]; simp [Kruskal.init]
  · rw [hbot]; exact SimpleGraph.isAcyclic_bot

theorem kinv_step {verts : List Nat} {E F : List (List Nat × W)} {k : Kruskal W}
    (h : KInv verts E F k) {e : List Nat × W} (he : IsEdge verts e.1) :
    ∃ F', KInv verts (E ++ [e]) F' (kruskalStep e k) := by
  obtain ⟨e, w⟩ := e
  obtain ⟨a, b, hab, ha, hb, rfl⟩ := he
  obtain ⟨hs1, hs2⟩ := kruskalStep_spec h.classes hab w
  have hadj := edgeGraph_snoc (E := E) hab ha hb w
  have hreach := reachable_add_edge hadj
  have hge : ∀ {i : Nat}, i < E.length → (E ++ [([a, b], w)])[i]? = E[i]? := fun hi =>
    List.getElem?_append_left hi
  have hpmem : ∀ i (hi : i < E.length), (i ∈ k.pivots ↔ ∃ x y : {v // v ∈ verts},
      x.1 ∈ ((E ++ [([a, b], w)])[i]'(by simp; omega)).1 ∧
      y.1 ∈ ((E ++ [([a, b], w)])[i]'(by simp; omega)).1 ∧
      ¬ (edgeGraph verts ((E ++ [([a, b], w)]).take i)).Reachable x y) := by
    intro i hi
    rw [h.pmem i hi, List.getElem_append_left hi, List.take_append_of_le_length hi.le]
  have hlast : (∃ x y : {v // v ∈ verts},
      x.1 ∈ [a, b] ∧ y.1 ∈ [a, b] ∧ ¬ (edgeGraph verts E).Reachable x y) ↔
        ¬ Same k.conSet a b := by
    constructor
    · rintro ⟨x, y, hx, hy, hxy⟩ hs
      apply hxy
      rw [h.reach]
      simp only [List.mem_cons, List.not_mem_nil, or_false] at hx hy
      rcases hx with hx | hx <;> rcases hy with hy | hy <;> rw [hx, hy]
      · exact Or.inl rfl
      · exact hs
      · exact hs.symm
      · exact Or.inl rfl
    · intro hs
      exact ⟨⟨a, ha⟩, ⟨b, hb⟩, by simp, by simp, fun hh => hs ((h.reach _ _).1 hh)⟩
  have hfm : ∀ l : List Nat, (∀ i ∈ l, i < E.length) →
      l.filterMap (fun i => (E ++ [([a, b], w)])[i]?) = l.filterMap (fun i => E[i]?) := by
    intro l hl
    apply List.filterMap_congr
    intro i hi
    exact hge (hl i hi)
  by_cases hsame : Same k.conSet a b
  · have hR : (edgeGraph verts E).Reachable ⟨a, ha⟩ ⟨b, hb⟩ := (h.reach _ _).2 hsame
    have hre : ∀ x y, (edgeGraph verts (E ++ [([a, b], w)])).Reachable x y ↔
        (edgeGraph verts E).Reachable x y := by
      intro x y
      rw [hreach]
      constructor
      · rintro (h1 | ⟨h1, h2⟩ | ⟨h1, h2⟩)
        · exact h1
        · exact h1.trans (hR.trans h2)
        · exact h1.trans (hR.symm.trans h2)
      · exact Or.inl
    rw [hs1 hsame]
    refine ⟨F, h.classes, fun x y => (hre x y).trans (h.reach x y), ?_, by simp [h.idx], h.mst, ?_,
      h.pinc, fun i hi => by have := h.plt i hi; simp; omega, ?_,
      fun x y => (h.span x y).trans (hre x y).symm, h.acyclic,
      h.sub.trans (List.sublist_append_left _ _)⟩
    · rw [show components (edgeGraph verts (E ++ [([a, b], w)])) = components (edgeGraph verts E)
        from ?_]
      · exact h.count
      · unfold components
        refine Nat.card_congr (Quot.congrRight ?_)
        exact hre
    · rw [hfm _ h.plt]; exact h.piv
    · intro i hi
      by_cases hi' : i < E.length
      · exact hpmem i hi'
      · obtain rfl : i = E.length := by simp at hi; omega
        simp only [List.getElem_concat_length, List.take_left]
        rw [hlast]
        constructor
        · intro hp; exact absurd (h.plt _ hp) (by omega)
        · intro hh; exact absurd hsame hh
  · have hR : ¬ (edgeGraph verts E).Reachable ⟨a, ha⟩ ⟨b, hb⟩ := fun hh =>
      hsame ((h.reach _ _).1 hh)
    obtain ⟨j1, j2, j3, j4, j5⟩ := hs2 hsame
    have hfin : Finite {v // v ∈ verts} := by
      rw [show {v // v ∈ verts} = {v // v ∈ verts.toFinset} by simp]
      infer_instance
    refine ⟨F ++ [([a, b], w)], j4, ?_, ?_, by rw [j3, h.idx]; simp, by rw [j1, h.mst]; simp,
      ?_, ?_, ?_, ?_, ?_, ?_, ?_⟩
    · intro x y
      rw [hreach, j5, h.reach, h.reach, h.reach, h.reach, h.reach]
    · have := components_add_edge hR hreach
      have hc := h.count
      rw [j1, List.length_append, List.length_singleton]
      omega
    · rw [j2, List.filterMap_append, hfm _ h.plt, ← h.piv, h.idx]; simp
    · rw [j2]
      unfold Inc
      rw [List.pairwise_append]
      refine ⟨h.pinc, by simp, ?_⟩
      intro i hi j hj
      rw [List.mem_singleton] at hj
      subst hj
      rw [h.idx]; exact h.plt i hi
    · intro i hi
      rw [j2, List.mem_append, List.mem_singleton, h.idx] at hi
      rw [List.length_append, List.length_singleton]
      rcases hi with hi | rfl
      · have := h.plt i hi; omega
      · omega
    · intro i hi
      rw [j2, List.mem_append, List.mem_singleton, h.idx]
      by_cases hi' : i < E.length
      · rw [← hpmem i hi']
        constructor
        · rintro (h1 | h1)
          · exact h1
          · omega
        · exact Or.inl
      · obtain rfl : i = E.length := by simp at hi; omega
        simp only [List.getElem_concat_length, List.take_left]
        rw [hlast]
        simp [hsame]
    · intro x y
      rw [hreach, reachable_add_edge (edgeGraph_snoc (E := F) hab ha hb w), h.span, h.span, h.span,
        h.span, h.span]
    · have heq : edgeGraph verts (F ++ [([a, b], w)]) =
          edgeGraph verts F ⊔ SimpleGraph.edge ⟨a, ha⟩ ⟨b, hb⟩ := by
        ext x y
        rw [edgeGraph_snoc hab ha hb w, SimpleGraph.sup_adj, SimpleGraph.edge_adj]
        simp only [Subtype.ext_iff, ne_eq]
        constructor
        · rintro (h1 | h1 | h1)
          · exact Or.inl h1
          · exact Or.inr ⟨by omega, by omega⟩
          · exact Or.inr ⟨by omega, by omega⟩
        · rintro (h1 | ⟨h1, h2⟩)
          · exact Or.inl h1
          · omega
      rw [heq]
      exact h.acyclic.sup_edge_of_not_reachable (fun hh => hR ((h.span _ _).1 hh))
    · exact h.sub.append (List.Sublist.refl _)

/-- Processing all edges, without the early exit. -/
def kruskalAll (E : List (List Nat × W)) (k : Kruskal W) : Kruskal W :=
  E.foldl (fun k e => kruskalStep e k) k

theorem kinv_all {verts : List Nat} (E : List (List Nat × W)) (hE : ∀ e ∈ E, IsEdge verts e.1) :
    ∀ {E0 F0 : List (List Nat × W)} {k : Kruskal W}, KInv verts E0 F0 k →
    ∃ F, KInv verts (E0 ++ E) F (kruskalAll E k) := by
  induction E with
  | nil => intro E0 F0 k h; exact ⟨F0, by rw [List.append_nil]; exact h⟩
  | cons e E ih =>
    intro E0 F0 k h
    obtain ⟨F1, h1⟩ := kinv_step h (hE e (by simp))
    obtain ⟨F2, h2⟩ := ih (fun e he => hE e (by simp [he])) h1
    exact ⟨F2, by rw [List.append_cons]; exact h2⟩

/-- The early exit does not change what is selected. -/
theorem kruskalLoop_eq {verts : List Nat} (E : List (List Nat × W))
    (hE : ∀ e ∈ E, IsEdge verts e.1) :
    ∀ {E0 F0 : List (List Nat × W)} {k : Kruskal W}, KInv verts E0 F0 k →
    (kruskalLoop verts.length E k).mst = (kruskalAll E k).mst ∧
    (kruskalLoop verts.length E k).pivots = (kruskalAll E k).pivots ∧
    (kruskalLoop verts.length E k).table = (kruskalAll E k).table := by
  induction E with
  | nil => intro E0 F0 k h; exact ⟨rfl, rfl, rfl⟩
  | cons e E ih =>
    intro E0 F0 k h
    obtain ⟨F1, h1⟩ := kinv_step h (hE e (by simp))
    unfold kruskalLoop
    dsimp only
    by_cases hx : (kruskalStep e k).mst.length = szPred verts.length
    · rw [if_pos hx]
      -- all vertices are connected
      have hpos : verts.length ≠ 0 := by
        obtain ⟨a, b, -, ha, -⟩ := hE e (by simp)
        intro h0
        rw [List.length_eq_zero_iff.1 h0] at ha
        exact absurd ha (by simp)
      rw [szPred, if_neg hpos] at hx
      have hc := h1.count
      have hone : components (edgeGraph verts (E0 ++ [e])) = 1 := by omega
      have hall : ∀ x y, (edgeGraph verts (E0 ++ [e])).Reachable x y := by
        intro x y
        have hfin : Finite {v // v ∈ verts} := by
          rw [show {v // v ∈ verts} = {v // v ∈ verts.toFinset} by simp]
          infer_instance
        have : Finite (edgeGraph verts (E0 ++ [e])).ConnectedComponent := Quot.finite _
        have hs := (Nat.card_eq_one_iff_unique.1 hone).1
        exact SimpleGraph.ConnectedComponent.exact (hs.elim _ _)
      have hnext : ∀ (E' : List (List Nat × W)), (∀ e ∈ E', IsEdge verts e.1) →
          ∀ (k' : Kruskal W), Classes k'.conSet → (∀ x y : {v // v ∈ verts}, Same k'.conSet x y) →
          k'.mst = (kruskalAll E' k').mst ∧ k'.pivots = (kruskalAll E' k').pivots ∧
            k'.table = (kruskalAll E' k').table := by
        intro E'
        induction E' with
        | nil => intro _ k' _ _; exact ⟨rfl, rfl, rfl⟩
        | cons e' E' ih' =>
          intro hE' k' hC hs
          obtain ⟨e', w'⟩ := e'
          obtain ⟨a, b, hab, ha, hb, he⟩ := hE' (e', w') (by simp)
          obtain rfl : e' = [a, b] := he
          have hst := (kruskalStep_spec (k := k') hC hab w').1 (hs ⟨a, ha⟩ ⟨b, hb⟩)
          unfold kruskalAll
          rw [List.foldl_cons, hst]
          exact ih' (fun e he => hE' e (by simp [he])) { k' with pivotIndex := k'.pivotIndex + 1 }
            hC hs
      exact hnext E (fun e he => hE e (by simp [he])) _ h1.classes
        (fun x y => (h1.reach x y).1 (hall x y))
    · rw [if_neg hx]
      exact ih (fun e he => hE e (by simp [he])) h1

end
end LHF
