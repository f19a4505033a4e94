import Verif.Spec.Rips
import Verif.Lemmas.Merge
import Verif.Lemmas.Subsets

/-! Lemmas about simplices and diameters. -/

namespace LHF
open Spec

section
variable {W : Type _} [LinearOrder W] [Zero W]

theorem foldr_max_le_iff (l : List W) (w : W) :
    l.foldr max 0 ≤ w ↔ 0 ≤ w ∧ ∀ x ∈ l, x ≤ w := by
  induction l with
  | nil => simp
  | cons a l ih => simp [ih]; tauto

theorem diam_le_iff (d : Nat → Nat → W) (s : List Nat) (w : W) :
    diam d s ≤ w ↔ 0 ≤ w ∧ ∀ i ∈ s, ∀ j ∈ s, i < j → d i j ≤ w := by
  unfold diam
  rw [foldr_max_le_iff]
  simp only [List.mem_flatMap, List.mem_map, List.mem_filter, decide_eq_true_eq]
  constructor
  · rintro ⟨h0, h⟩
    exact ⟨h0, fun i hi j hj hij => h _ ⟨i, hi, j, ⟨hj, hij⟩, rfl⟩⟩
  · rintro ⟨h0, h⟩
    refine ⟨h0, ?_⟩
    rintro x ⟨i, hi, j, ⟨hj, hij⟩, rfl⟩
    exact h i hi j hj hij

theorem foldr_max_lt_iff (l : List W) (w : W) :
    l.foldr max 0 < w ↔ 0 < w ∧ ∀ x ∈ l, x < w := by
  induction l with
  | nil => simp
  | cons a l ih => simp [ih]; tauto

theorem diam_lt_iff (d : Nat → Nat → W) (s : List Nat) (w : W) :
    diam d s < w ↔ 0 < w ∧ ∀ i ∈ s, ∀ j ∈ s, i < j → d i j < w := by
  unfold diam
  rw [foldr_max_lt_iff]
  simp only [List.mem_flatMap, List.mem_map, List.mem_filter, decide_eq_true_eq]
  constructor
  · rintro ⟨h0, h⟩
    exact ⟨h0, fun i hi j hj hij => h _ ⟨i, hi, j, ⟨hj, hij⟩, rfl⟩⟩
  · rintro ⟨h0, h⟩
    refine ⟨h0, ?_⟩
    rintro x ⟨i, hi, j, ⟨hj, hij⟩, rfl⟩
    exact h i hi j hj hij

theorem diam_nonneg (d : Nat → Nat → W) (s : List Nat) : 0 ≤ diam d s :=
  ((diam_le_iff d s _).1 le_rfl).1

theorem diam_mono (d : Nat → Nat → W) {s t : List Nat} (h : ∀ x ∈ t, x ∈ s) :
    diam d t ≤ diam d s := by
  rw [diam_le_iff]
  exact ⟨diam_nonneg d s, fun i hi j hj hij =>
    ((diam_le_iff d s _).1 le_rfl).2 i (h i hi) j (h j hj) hij⟩

theorem diam_congr (d : Nat → Nat → W) {s t : List Nat} (h : ∀ x, x ∈ t ↔ x ∈ s) :
    diam d t = diam d s :=
  le_antisymm (diam_mono d fun x hx => (h x).1 hx) (diam_mono d fun x hx => (h x).2 hx)

theorem diam_singleton (d : Nat → Nat → W) (i : Nat) : diam d [i] = 0 := by
  simp [diam]

theorem diam_pair (d : Nat → Nat → W) {i j : Nat} (h : i < j) (hd : 0 ≤ d i j) :
    diam d [i, j] = d i j := by
  apply le_antisymm
  · rw [diam_le_iff]
    refine ⟨hd, ?_⟩
    intro a ha b hb hab
    simp only [List.mem_cons, List.not_mem_nil, or_false] at ha hb
    rcases ha with rfl | rfl <;> rcases hb with rfl | rfl
    · exact absurd hab (lt_irrefl _)
    · exact le_rfl
    · exact absurd (lt_trans h hab) (lt_irrefl _)
    · exact absurd hab (lt_irrefl _)
  · exact ((diam_le_iff d [i, j] _).1 le_rfl).2 i (by simp) j (by simp) h

theorem diam_union {d : Nat → Nat → W} {a b t c : List Nat}
    (hmem : ∀ x, x ∈ t ↔ x ∈ a ∨ x ∈ b) (hct : ∀ x ∈ c, x ∈ t)
    (hcov : ∀ x ∈ a, ∀ y ∈ b, x ∉ b → y ∉ a → x ∈ c ∧ y ∈ c) (u : W) :
    diam d t ≤ u ↔ diam d a ≤ u ∧ diam d b ≤ u ∧ diam d c ≤ u := by
  constructor
  · intro h
    exact ⟨(diam_mono d fun x hx => (hmem x).2 (Or.inl hx)).trans h,
      (diam_mono d fun x hx => (hmem x).2 (Or.inr hx)).trans h, (diam_mono d hct).trans h⟩
  · rintro ⟨ha, hb, hc⟩
    rw [diam_le_iff] at ha hb hc ⊢
    refine ⟨ha.1, ?_⟩
    intro i hi j hj hij
    by_cases h1 : i ∈ a
    · by_cases h2 : j ∈ a
      · exact ha.2 i h1 j h2 hij
      · have h3 : j ∈ b := ((hmem j).1 hj).resolve_left h2
        by_cases h4 : i ∈ b
        · exact hb.2 i h4 j h3 hij
        · obtain ⟨h5, h6⟩ := hcov i h1 j h3 h4 h2
          exact hc.2 i h5 j h6 hij
    · have h3 : i ∈ b := ((hmem i).1 hi).resolve_left h1
      by_cases h2 : j ∈ b
      · exact hb.2 i h3 j h2 hij
      · have h4 : j ∈ a := ((hmem j).1 hj).resolve_right h2
        obtain ⟨h5, h6⟩ := hcov j h4 i h3 h2 h1
        exact hc.2 i h6 j h5 hij

end

theorem Spec.IsSimplex.sub {n : Nat} {near : Nat → Nat → Prop} {s t : List Nat}
    (hs : IsSimplex n near s) (hne : t ≠ []) (ht : Inc t) (hsub : ∀ x ∈ t, x ∈ s) :
    IsSimplex n near t :=
  ⟨hne, ht, fun v hv => hs.2.2.1 v (hsub v hv),
    fun i hi j hj hij => hs.2.2.2 i (hsub i hi) j (hsub j hj) hij⟩

theorem Spec.IsSimplex.inc {n : Nat} {near : Nat → Nat → Prop} {s : List Nat}
    (hs : IsSimplex n near s) : Inc s := hs.2.1

theorem inc_length_eq {s t : List Nat} (hs : Inc s) (ht : t.Nodup) (h : ∀ x, x ∈ s ↔ x ∈ t) :
    s.length = t.length :=
  ((List.perm_ext_iff_of_nodup hs.nodup ht).2 h).length_eq

/-- Sizes: two sets of equal size `k` whose symmetric difference has two elements share `k-1`. -/
theorem inter_length {a b : List Nat} (ha : Inc a) (hb : Inc b) (hl : a.length = b.length)
    (h2 : (stdSymDiff a b).length = 2) : (stdInter a b).length + 1 = a.length := by
  have e1 : (stdInter a b).length = (a.toFinset ∩ b.toFinset).card := by
    rw [← List.toFinset_card_of_nodup (inc_stdInter ha hb).nodup]
    congr 1
    ext x; simp [mem_stdInter ha hb]
  have e2 : (stdSymDiff a b).length = (a.toFinset \ b.toFinset).card + (b.toFinset \ a.toFinset).card := by
    rw [← List.toFinset_card_of_nodup (inc_stdSymDiff ha hb).nodup]
    rw [← Finset.card_union_of_disjoint]
    · congr 1
      ext x; simp [mem_stdSymDiff ha hb]
    · rw [Finset.disjoint_left]
      intro x hx hx'
      simp at hx hx'
      exact hx.2 hx'.1
  have e3 := Finset.card_sdiff_add_card_inter a.toFinset b.toFinset
  have e4 := Finset.card_sdiff_add_card_inter b.toFinset a.toFinset
  rw [Finset.inter_comm b.toFinset] at e4
  rw [List.toFinset_card_of_nodup ha.nodup] at e3
  rw [List.toFinset_card_of_nodup hb.nodup] at e4
  omega

end LHF
