import Verif.Lemmas.Homology
import Verif.Lemmas.Merge
import Verif.Lemmas.Res
import Verif.Model.PersistencePairs
import Mathlib.Algebra.CharP.Two
import Mathlib.LinearAlgebra.Pi

/-! Gaussian elimination: the step on lists of vectors, and its instances in the code. -/

namespace LHF
open Spec

section Abstract
variable {K V : Type} [Field K] [AddCommGroup V] [Module K V]

/-- Clearing with the vector `x` along the functional `φ`. -/
def clearWith (φ : V →ₗ[K] K) (x y : V) : V := y - φ y • x

theorem clearWith_self {φ : V →ₗ[K] K} {x : V} (h : φ x = 1) : clearWith φ x x = 0 := by
  simp [clearWith, h]

theorem clearWith_ker {φ : V →ₗ[K] K} {x : V} (h : φ x = 1) (y : V) : φ (clearWith φ x y) = 0 := by
  simp [clearWith, h]

theorem spanL_clear {φ : V →ₗ[K] K} {x : V} {pre post : List V} :
    spanL K (pre ++ x :: post) = spanL K (pre ++ post.map (clearWith φ x)) ⊔ Submodule.span K {x} := by
  apply le_antisymm
  · unfold spanL
    rw [Submodule.span_le]
    intro y hy
    simp only [Set.mem_ofPred_eq, List.mem_append, List.mem_cons] at hy
    rcases hy with hy | rfl | hy
    · exact Submodule.mem_sup_left (Submodule.subset_span (by simp [hy]))
    · exact Submodule.mem_sup_right (Submodule.mem_span_singleton_self _)
    · have : y = clearWith φ x y + φ y • x := by simp [clearWith]
      rw [this]
      refine Submodule.add_mem _ (Submodule.mem_sup_left (Submodule.subset_span ?_))
        (Submodule.mem_sup_right (Submodule.smul_mem _ _ (Submodule.mem_span_singleton_self _)))
      exact List.mem_append.2 (Or.inr (List.mem_map_of_mem hy))
  · rw [sup_le_iff]
    constructor
    · unfold spanL
      rw [Submodule.span_le]
      intro y hy
      simp only [Set.mem_ofPred_eq, List.mem_append, List.mem_map] at hy
      rcases hy with hy | ⟨y, hy, rfl⟩
      · exact Submodule.subset_span (by simp [hy])
      · exact Submodule.sub_mem _ (Submodule.subset_span (by simp [hy]))
          (Submodule.smul_mem _ _ (Submodule.subset_span (by simp)))
    · rw [Submodule.span_le, Set.singleton_subset_iff]
      exact Submodule.subset_span (by simp)

theorem ker_spanL {φ : V →ₗ[K] K} {l : List V} (h : ∀ y ∈ l, φ y = 0) :
    ∀ y ∈ spanL K l, φ y = 0 := by
  intro y hy
  unfold spanL at hy
  induction hy using Submodule.span_induction with
  | mem y hy => exact h y hy
  | zero => simp
  | add y z _ _ h1 h2 => rw [map_add, h1, h2, add_zero]
  | smul a y _ h1 => rw [map_smul, h1, smul_zero]

theorem mem_sup_ker {φ : V →ₗ[K] K} {x : V} (hx : φ x = 1) {l : List V} (h : ∀ y ∈ l, φ y = 0)
    {z : V} (hz : φ z = 0) : z ∈ spanL K l ⊔ Submodule.span K {x} ↔ z ∈ spanL K l := by
  constructor
  · intro hm
    obtain ⟨y, hy, w, hw, rfl⟩ := Submodule.mem_sup.1 hm
    obtain ⟨a, rfl⟩ := Submodule.mem_span_singleton.1 hw
    have h1 := ker_spanL h y hy
    rw [map_add, h1, map_smul, hx, smul_eq_mul, mul_one, zero_add] at hz
    rw [hz, zero_smul, add_zero]; exact hy
  · exact fun h => Submodule.mem_sup_left h

/-- One elimination step: the pivot position is independent, and the other positions keep their
status. -/
theorem indep_step {φ : V →ₗ[K] K} {x : V} {pre post : List V} (hpre : ∀ y ∈ pre, φ y = 0)
    (hx : φ x = 1) (j : Nat) :
    j ∈ indep K (pre ++ x :: post) ↔
      j = pre.length ∨ j ∈ indep K (pre ++ (x :: post).map (clearWith φ x)) := by
  rw [List.map_cons, clearWith_self hx, mem_indep, mem_indep]
  rcases lt_trichotomy j pre.length with hj | rfl | hj
  · rw [List.getD_append _ _ _ _ hj, List.getD_append _ _ _ _ hj,
      List.take_append_of_le_length hj.le, List.take_append_of_le_length hj.le]
    simp only [List.length_append, List.length_cons, List.length_map]
    constructor
    · exact fun h => Or.inr h
    · rintro (h | h)
      · omega
      · exact h
  · simp only [true_or, iff_true]
    refine ⟨by simp, ?_⟩
    rw [List.take_left, List.getD_append_right _ _ _ _ le_rfl]
    simp only [Nat.sub_self, List.getD_cons_zero]
    intro h
    have := ker_spanL hpre x h
    rw [hx] at this
    exact one_ne_zero this
  · obtain ⟨m, rfl⟩ : ∃ m, j = pre.length + (m + 1) := ⟨j - pre.length - 1, by omega⟩
    rw [List.getD_append_right _ _ _ _ (by omega), List.getD_append_right _ _ _ _ (by omega),
      List.take_length_add_append, List.take_length_add_append]
    simp only [Nat.add_sub_cancel_left, List.getD_cons_succ, List.take_succ_cons,
      List.length_append, List.length_cons, List.length_map]
    have hne : ¬ (pre.length + (m + 1) = pre.length) := by omega
    simp only [hne, false_or]
    by_cases hm : m < post.length
    · have e1 : pre.length + (m + 1) < pre.length + (post.length + 1) := by omega
      simp only [e1, true_and]
      have e2 : (post.map (clearWith φ x)).getD m 0 = clearWith φ x (post.getD m 0) := by
        rw [List.getD_eq_getElem?_getD, List.getD_eq_getElem?_getD, List.getElem?_map,
          List.getElem?_eq_getElem hm]
        rfl
      have e3 : spanL K (pre ++ 0 :: (post.map (clearWith φ x)).take m) =
          spanL K (pre ++ (post.take m).map (clearWith φ x)) := by
        rw [← List.map_take]
        apply le_antisymm
        · unfold spanL
          rw [Submodule.span_le]
          intro y hy
          simp only [Set.mem_ofPred_eq, List.mem_append, List.mem_cons] at hy
          rcases hy with hy | rfl | hy
          · exact Submodule.subset_span (by simp [hy])
          · exact Submodule.zero_mem _
          · exact Submodule.subset_span (List.mem_append.2 (Or.inr hy))
        · apply spanL_mono
          intro y hy
          rw [List.mem_append] at hy ⊢
          rcases hy with hy | hy
          · exact Or.inl hy
          · exact Or.inr (List.mem_cons_of_mem _ hy)
      rw [e2, e3, spanL_clear (φ := φ), not_iff_not]
      have hker : ∀ y ∈ pre ++ (post.take m).map (clearWith φ x), φ y = 0 := by
        intro y hy
        rw [List.mem_append, List.mem_map] at hy
        rcases hy with hy | ⟨y, -, rfl⟩
        · exact hpre y hy
        · exact clearWith_ker hx y
      rw [← mem_sup_ker hx hker (clearWith_ker hx _)]
      have hxm : φ (post.getD m 0) • x ∈ spanL K (pre ++ (post.take m).map (clearWith φ x)) ⊔
          Submodule.span K {x} :=
        Submodule.mem_sup_right (Submodule.smul_mem _ _ (Submodule.mem_span_singleton_self _))
      have e4 : clearWith φ x (post.getD m 0) = post.getD m 0 - φ (post.getD m 0) • x := rfl
      rw [e4, Submodule.sub_mem_iff_left _ hxm]
    · have e1 : ¬ pre.length + (m + 1) < pre.length + (post.length + 1) := by omega
      simp only [e1, false_and]

theorem indep_zero {l : List V} (h : ∀ y ∈ l, y = 0) : indep K l = [] := by
  rw [List.eq_nil_iff_forall_not_mem]
  intro j hj
  rw [mem_indep] at hj
  obtain ⟨h1, h2⟩ := hj
  apply h2
  have : l.getD j 0 = 0 := by
    have hm : l.getD j 0 = l[j] := by
      rw [List.getD_eq_getElem?_getD, List.getElem?_eq_getElem h1]; rfl
    rw [hm]
    exact h _ (List.getElem_mem _)
  rw [this]
  exact Submodule.zero_mem _

/-- The pivot of a step is no longer independent afterwards. -/
theorem not_indep_step {φ : V →ₗ[K] K} {x : V} {pre post : List V} (hx : φ x = 1) :
    pre.length ∉ indep K (pre ++ (x :: post).map (clearWith φ x)) := by
  rw [List.map_cons, clearWith_self hx, mem_indep]
  rintro ⟨-, h⟩
  apply h
  rw [List.getD_append_right _ _ _ _ le_rfl]
  simp

/-- Replacing dependent vectors of a list by zero changes neither the spans nor the independent
positions. -/
theorem indep_replace {l l' : List V} (hlen : l'.length = l.length)
    (h : ∀ j < l.length, l'.getD j 0 = l.getD j 0 ∨ (l'.getD j 0 = 0 ∧ j ∉ indep K l)) :
    indep K l' = indep K l := by
  have hspan : ∀ n ≤ l.length, spanL K (l'.take n) = spanL K (l.take n) := by
    intro n
    induction n with
    | zero => intro _; simp
    | succ n ih =>
      intro hn
      have hn' : n < l.length := by omega
      have t1 : ∀ m : List V, n < m.length → m.take (n + 1) = m.take n ++ [m.getD n 0] := by
        intro m hm
        rw [List.take_add_one, List.getD_eq_getElem?_getD, List.getElem?_eq_getElem hm]
        rfl
      rw [t1 l hn', t1 l' (by omega), spanL_append, spanL_append, ih (by omega)]
      rcases h n hn' with h1 | ⟨h1, h2⟩
      · rw [h1]
      · rw [h1, spanL_singleton, Submodule.span_zero_singleton, sup_bot_eq]
        rw [mem_indep] at h2
        have : l.getD n 0 ∈ spanL K (l.take n) := by
          by_contra hc; exact h2 ⟨hn', hc⟩
        rw [spanL_singleton]
        refine (sup_eq_left.2 ?_).symm
        rw [Submodule.span_le, Set.singleton_subset_iff]
        exact this
  apply Inc.ext (inc_indep _) (inc_indep _)
  intro j
  by_cases hj : j < l.length
  · rw [mem_indep, mem_indep, hspan j hj.le]
    rcases h j hj with h1 | ⟨h1, h2⟩
    · rw [h1, hlen]
    · rw [mem_indep] at h2
      rw [h1]
      constructor
      · rintro ⟨-, h3⟩; exact absurd (Submodule.zero_mem _) h3
      · intro h3; exact absurd h3 h2
  · constructor
    · intro h1; have := indep_lt h1; omega
    · intro h1; have := indep_lt h1; omega

end Abstract

/-! ### Matrices of the code -/

/-- The vector over Z/2 of a row of zeros and ones. -/
def rowVec (row : List Nat) : Nat → ZMod 2 := fun x => if row[x]? = some 1 then 1 else 0

/-- All rows have length `n` and entries 0 or 1. -/
def Binary (m : List (List Nat)) (n : Nat) : Prop :=
  ∀ row ∈ m, row.length = n ∧ ∀ x ∈ row, x = 0 ∨ x = 1

theorem xorRow_spec : ∀ (n : Nat) (a b : List Nat), a.length = n → b.length = n →
    (∀ x ∈ a, x = 0 ∨ x = 1) → (∀ x ∈ b, x = 0 ∨ x = 1) →
    ∃ c, xorRow n a b = .ok c ∧ c.length = n ∧ (∀ x ∈ c, x = 0 ∨ x = 1) ∧
      rowVec c = rowVec a + rowVec b := by
  intro n
  induction n with
  | zero =>
    intro a b ha hb _ _
    rw [List.length_eq_zero_iff] at ha hb
    subst ha hb
    refine ⟨[], rfl, rfl, by simp, ?_⟩
    funext x; simp [rowVec]
  | succ n ih =>
    intro a b ha hb h1 h2
    cases a with
    | nil => cases ha
    | cons x a =>
      cases b with
      | nil => cases hb
      | cons y b =>
        obtain ⟨c, h3, h4, h5, h6⟩ := ih a b (by simpa using ha) (by simpa using hb)
          (fun z hz => h1 z (by simp [hz])) (fun z hz => h2 z (by simp [hz]))
        have hx := h1 x (by simp)
        have hy := h2 y (by simp)
        refine ⟨(x ^^^ y) :: c, by rw [xorRow, h3]; rfl, by simp [h4], ?_, ?_⟩
        · intro z hz
          rw [List.mem_cons] at hz
          rcases hz with rfl | hz
          · rcases hx with rfl | rfl <;> rcases hy with rfl | rfl <;> decide
          · exact h5 z hz
        · funext i
          cases i with
          | zero =>
            have h11 : (1 : ZMod 2) + 1 = 0 := by decide
            rcases hx with rfl | rfl <;> rcases hy with rfl | rfl <;> simp [rowVec, h11]
          | succ i =>
            have := congrFun h6 i
            simpa [rowVec] using this

theorem rowVec_apply {row : List Nat} {i : Nat} (h : i < row.length)
    (hb : ∀ x ∈ row, x = 0 ∨ x = 1) : ∃ x, vget row i = .ok x ∧
      ((x = 1 ∧ rowVec row i = 1) ∨ (x ≠ 1 ∧ rowVec row i = 0)) := by
  refine ⟨row[i], vget_of_lt h, ?_⟩
  unfold rowVec
  rw [List.getElem?_eq_getElem h]
  rcases hb row[i] (List.getElem_mem h) with h0 | h0 <;> rw [h0] <;> simp

theorem rowVec_beyond {row : List Nat} {i : Nat} (h : row.length ≤ i) : rowVec row i = 0 := by
  unfold rowVec
  rw [List.getElem?_eq_none h]
  simp

/-- Coordinate `i`. -/
abbrev coord (i : Nat) : (Nat → ZMod 2) →ₗ[ZMod 2] ZMod 2 := LinearMap.proj i

theorem clearRows_spec {n i : Nat} {temp : List Nat} (hi : i < n) (ht : temp.length = n)
    (hb : ∀ x ∈ temp, x = 0 ∨ x = 1) : ∀ m, Binary m n →
    ∃ m', clearRows n i temp m = .ok m' ∧ Binary m' n ∧
      m'.map rowVec = (m.map rowVec).map (clearWith (coord i) (rowVec temp)) := by
  intro m
  induction m with
  | nil => intro _; exact ⟨[], rfl, by intro r hr; simp at hr, rfl⟩
  | cons row rest ih =>
    intro hm
    obtain ⟨rest', h1, h2, h3⟩ := ih (fun r hr => hm r (by simp [hr]))
    obtain ⟨hl, hrb⟩ := hm row (by simp)
    obtain ⟨x, hx, hcase⟩ := rowVec_apply (i := i) (by omega) hrb
    rcases hcase with ⟨rfl, hv⟩ | ⟨hne, hv⟩
    · obtain ⟨c, c1, c2, c3, c4⟩ := xorRow_spec n row temp hl ht hrb hb
      refine ⟨c :: rest', ?_, ?_, ?_⟩
      · rw [clearRows, hx]
        simp only [bind, Except.bind, if_true, c1, h1]
        rfl
      · intro r hr
        rw [List.mem_cons] at hr
        rcases hr with rfl | hr
        · exact ⟨c2, c3⟩
        · exact h2 r hr
      · rw [List.map_cons, List.map_cons, List.map_cons, h3, c4]
        congr 1
        unfold clearWith
        rw [LinearMap.proj_apply, hv, one_smul]
        funext z
        rw [Pi.add_apply, Pi.sub_apply, CharTwo.sub_eq_add]
    · refine ⟨row :: rest', ?_, ?_, ?_⟩
      · rw [clearRows, hx]
        simp only [bind, Except.bind, if_neg hne, pure, Except.pure, h1]
      · intro r hr
        rw [List.mem_cons] at hr
        rcases hr with rfl | hr
        · exact ⟨hl, hrb⟩
        · exact h2 r hr
      · rw [List.map_cons, List.map_cons, List.map_cons, h3]
        congr 1
        unfold clearWith
        rw [LinearMap.proj_apply, hv, zero_smul, sub_zero]

/-- What one pass over the rows does. -/
theorem elimColumn_spec {n i : Nat} (hi : i < n) : ∀ (m : List (List Nat)) (j : Nat), Binary m n →
    ∃ m' p, elimColumn n i m j = .ok (m', p) ∧ Binary m' n ∧
      ((p = none ∧ m' = m ∧ ∀ y ∈ m.map rowVec, coord i y = 0) ∨
       ∃ pre row post, p = some (j + pre.length, row) ∧ m = pre ++ row :: post ∧
        (∀ y ∈ pre.map rowVec, coord i y = 0) ∧ coord i (rowVec row) = 1 ∧
        m'.map rowVec = pre.map rowVec ++
          (rowVec row :: post.map rowVec).map (clearWith (coord i) (rowVec row))) := by
  intro m
  induction m with
  | nil =>
    intro j _
    exact ⟨[], none, rfl, by intro r hr; simp at hr, Or.inl ⟨rfl, rfl, by simp⟩⟩
  | cons row rest ih =>
    intro j hm
    obtain ⟨hl, hrb⟩ := hm row (by simp)
    obtain ⟨x, hx, hcase⟩ := rowVec_apply (i := i) (by omega) hrb
    rcases hcase with ⟨rfl, hv⟩ | ⟨hne, hv⟩
    · obtain ⟨m', h1, h2, h3⟩ := clearRows_spec hi hl hrb (row :: rest) hm
      refine ⟨m', some (j, row), ?_, h2, Or.inr ⟨[], row, rest, by simp, rfl, by simp, hv, ?_⟩⟩
      · rw [elimColumn, hx]
        simp only [bind, Except.bind, if_true, h1]
        rfl
      · rw [h3]; rfl
    · obtain ⟨m', p, h1, h2, h3⟩ := ih (j + 1) (fun r hr => hm r (by simp [hr]))
      refine ⟨row :: m', p, ?_, ?_, ?_⟩
      · rw [elimColumn, hx]
        simp only [bind, Except.bind, if_neg hne, h1]
        rfl
      · intro r hr
        rw [List.mem_cons] at hr
        rcases hr with rfl | hr
        · exact ⟨hl, hrb⟩
        · exact h2 r hr
      · rcases h3 with ⟨a1, a2, a3⟩ | ⟨pre, row', post, a1, a2, a3, a4, a5⟩
        · refine Or.inl ⟨a1, by rw [a2], ?_⟩
          intro y hy
          rw [List.map_cons, List.mem_cons] at hy
          rcases hy with rfl | hy
          · exact hv
          · exact a3 y hy
        · refine Or.inr ⟨row :: pre, row', post, ?_, by rw [a2]; rfl, ?_, a4, ?_⟩
          · rw [a1, List.length_cons]; congr 2; omega
          · intro y hy
            rw [List.map_cons, List.mem_cons] at hy
            rcases hy with rfl | hy
            · exact hv
            · exact a3 y hy
          · rw [List.map_cons, a5]; rfl

/-- Consequences of one pass for the elimination: columns that are zero stay zero, column `i` becomes
zero, and the independent positions are the pivot and those that remain. -/
theorem elimColumn_indep {n i : Nat} (hi : i < n) {m : List (List Nat)} (hm : Binary m n) :
    ∃ m' p, elimColumn n i m 0 = .ok (m', p) ∧ Binary m' n ∧
      (∀ y ∈ m'.map rowVec, y i = 0) ∧
      (∀ c, (∀ y ∈ m.map rowVec, y c = 0) → ∀ y ∈ m'.map rowVec, y c = 0) ∧
      (∀ j, j ∈ indep (ZMod 2) (m.map rowVec) ↔
        (∃ row, p = some (j, row)) ∨ j ∈ indep (ZMod 2) (m'.map rowVec)) := by
  obtain ⟨m', p, h1, h2, h3⟩ := elimColumn_spec hi m 0 hm
  refine ⟨m', p, h1, h2, ?_⟩
  rcases h3 with ⟨rfl, rfl, a3⟩ | ⟨pre, row, post, rfl, rfl, a3, a4, a5⟩
  · refine ⟨a3, fun c h => h, ?_⟩
    intro j; simp
  · refine ⟨?_, ?_, ?_⟩
    · intro y hy
      rw [a5] at hy
      rcases List.mem_append.1 hy with hy | hy
      · exact a3 y hy
      · obtain ⟨z, -, rfl⟩ := List.mem_map.1 hy
        exact clearWith_ker (φ := coord i) a4 z
    · intro c hc y hy
      rw [a5] at hy
      rw [List.map_append, List.map_cons] at hc
      rcases List.mem_append.1 hy with hy | hy
      · exact hc y (by rw [List.mem_append]; exact Or.inl hy)
      · obtain ⟨z, hz, rfl⟩ := List.mem_map.1 hy
        have c1 := hc z (by rw [List.mem_append]; exact Or.inr hz)
        have c2 := hc (rowVec row) (by simp)
        unfold clearWith
        rw [Pi.sub_apply, Pi.smul_apply, c1, c2, smul_zero, sub_zero]
    · intro j
      rw [a5, List.map_append, List.map_cons, indep_step (φ := coord i) a3 a4]
      rw [List.length_map, Nat.zero_add]
      constructor
      · rintro (rfl | h)
        · exact Or.inl ⟨row, rfl⟩
        · exact Or.inr h
      · rintro (⟨_, h⟩ | h)
        · cases h; exact Or.inl rfl
        · exact Or.inr h

/-- `getRankNull` returns the independent positions. -/
theorem getRankNull_spec {m : List (List Nat)} {n : Nat} (hne : m ≠ []) (hm : Binary m n) :
    getRankNull m = .ok (indep (ZMod 2) (m.map rowVec)) := by
  obtain ⟨first, rest, rfl⟩ := List.exists_cons_of_ne_nil hne
  have hlen : first.length = n := (hm first (by simp)).1
  set m0 := first :: rest with hm0
  unfold getRankNull
  have h0 : vget m0 0 = .ok first := rfl
  rw [h0]
  simp only [bind, Except.bind]
  rw [hlen]
  have key := foldlM_range_total (rankStep n)
    (fun i s => Binary s.1 n ∧ (∀ c < i, ∀ y ∈ s.1.map rowVec, y c = 0) ∧ Inc s.2 ∧
      ∀ j, j ∈ indep (ZMod 2) (m0.map rowVec) ↔ j ∈ s.2 ∨ j ∈ indep (ZMod 2) (s.1.map rowVec))
    n (m0, [])
  obtain ⟨s, h1, ⟨h2, h3, h4, h5⟩⟩ := by
    apply key
    · exact ⟨hm, by intro c hc; omega, List.Pairwise.nil, by intro j; simp⟩
    · intro i s hi hs
      obtain ⟨b1, b2, b3, b4⟩ := hs
      obtain ⟨m', p, e1, e2, e3, e4, e5⟩ := elimColumn_indep hi b1
      refine ⟨_, by unfold rankStep; simp only [bind, Except.bind, e1]; rfl, e2, ?_, ?_, ?_⟩
      · intro c hc
        by_cases h : c = i
        · subst h; exact e3
        · exact e4 c (b2 c (by omega))
      · cases p with
        | none => exact b3
        | some p => exact inc_setInsert _ b3
      · intro j
        rw [b4 j, e5 j]
        cases p with
        | none => simp
        | some p =>
          dsimp only [Option.map_some, Option.elim_some]
          rw [mem_setInsert]
          constructor
          · rintro (h | ⟨row, h⟩ | h)
            · exact Or.inl (Or.inr h)
            · cases h; exact Or.inl (Or.inl rfl)
            · exact Or.inr h
          · rintro ((h | h) | h)
            · exact Or.inr (Or.inl ⟨p.2, by rw [h]⟩)
            · exact Or.inl h
            · exact Or.inr (Or.inr h)
  rw [h1]
  simp only [pure, Except.pure, Except.ok.injEq]
  apply Inc.ext h4 (inc_indep _)
  intro j
  rw [h5 j, indep_zero (l := s.1.map rowVec)]
  · simp
  · intro y hy
    funext c
    by_cases hc : c < n
    · exact h3 c hc y hy
    · obtain ⟨row, hr, rfl⟩ := List.mem_map.1 hy
      exact rowVec_beyond (by rw [(h2 row hr).1]; omega)

end LHF
