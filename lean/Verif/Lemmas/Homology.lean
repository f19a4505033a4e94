import Verif.Spec.Homology
import Mathlib.LinearAlgebra.FiniteDimensional.Lemmas
import Mathlib.LinearAlgebra.Finsupp.VectorSpace
import Mathlib.Algebra.Field.ZMod
import Mathlib.Data.List.GetD

/-! Linear algebra over Z/2: independent prefixes, boundary of a boundary, rank and nullity. -/

namespace LHF
open Spec

instance : Fact (Nat.Prime 2) := ⟨Nat.prime_two⟩

section
variable {K V : Type} [Field K] [AddCommGroup V] [Module K V]

/-- The span of the vectors of a list. -/
def spanL (K : Type) {V : Type} [Field K] [AddCommGroup V] [Module K V] (l : List V) :
    Submodule K V := Submodule.span K {x | x ∈ l}

theorem spanL_append (l l' : List V) : spanL K (l ++ l') = spanL K l ⊔ spanL K l' := by
  unfold spanL
  rw [← Submodule.span_union]
  congr 1
  ext x; simp

theorem spanL_singleton (x : V) : spanL K [x] = Submodule.span K {x} := by
  unfold spanL
  congr 1
  ext y; simp

theorem mem_spanL {l : List V} {x : V} (h : x ∈ l) : x ∈ spanL K l := Submodule.subset_span h

theorem spanL_mono {l l' : List V} (h : ∀ x ∈ l, x ∈ l') : spanL K l ≤ spanL K l' :=
  Submodule.span_mono h

instance (l : List V) : FiniteDimensional K (spanL K l) :=
  FiniteDimensional.span_of_finite K (List.finite_toSet l)

open Classical in
/-- Positions of a list of vectors that are not combinations of earlier vectors. -/
noncomputable def indep (K : Type) {V : Type} [Field K] [AddCommGroup V] [Module K V] (l : List V) :
    List Nat :=
  (List.range l.length).filter (fun j => l.getD j 0 ∉ spanL K (l.take j))

theorem mem_indep {l : List V} {j : Nat} :
    j ∈ indep K l ↔ j < l.length ∧ l.getD j 0 ∉ spanL K (l.take j) := by
  unfold indep
  simp only [List.mem_filter, List.mem_range, decide_eq_true_eq]

open Classical in
theorem indep_snoc (l : List V) (x : V) :
    indep K (l ++ [x]) = indep K l ++ (if x ∈ spanL K l then [] else [l.length]) := by
  unfold indep
  rw [List.length_append, List.length_singleton, List.range_succ, List.filter_append]
  congr 1
  · apply List.filter_congr
    intro j hj
    rw [List.mem_range] at hj
    rw [List.take_append_of_le_length hj.le, List.getD_append _ _ _ _ hj]
  · by_cases h : x ∈ spanL K l <;> simp [h]

theorem indep_length (l : List V) : (indep K l).length = Module.finrank K (spanL K l) := by
  induction l using List.reverseRecOn with
  | nil =>
    have : spanL K ([] : List V) = ⊥ := by
      unfold spanL
      rw [Submodule.span_eq_bot]; simp
    rw [this, finrank_bot]; rfl
  | append_singleton l x ih =>
    rw [indep_snoc, List.length_append, ih, spanL_append, spanL_singleton]
    by_cases h : x ∈ spanL K l
    · rw [if_pos h, sup_eq_left.2]
      · simp
      · rw [Submodule.span_singleton_le_iff_mem]; exact h
    · rw [if_neg h]
      have h0 : x ≠ 0 := fun h0 => h (h0 ▸ Submodule.zero_mem _)
      have h1 := Submodule.finrank_sup_add_finrank_inf_eq (spanL K l) (Submodule.span K {x})
      have h2 : spanL K l ⊓ Submodule.span K {x} = ⊥ := by
        rw [← disjoint_iff, Submodule.disjoint_span_singleton' h0]
        exact h
      rw [h2, finrank_bot, finrank_span_singleton h0] at h1
      rw [List.length_singleton, ← h1]; rfl

theorem indep_take (l : List V) (n : Nat) (hn : n ≤ l.length) :
    indep K (l.take n) = (indep K l).filter (fun j => j < n) := by
  unfold indep
  rw [List.filter_filter, List.length_take, Nat.min_eq_left hn]
  have : List.range n = (List.range l.length).filter (fun j => j < n) := by
    apply List.Pairwise.eq_of_mem_iff (r := (· < ·)) List.pairwise_lt_range
      (List.pairwise_lt_range.sublist List.filter_sublist)
    intro x
    simp only [List.mem_range, List.mem_filter, decide_eq_true_eq]; omega
  rw [this, List.filter_filter]
  apply List.filter_congr
  intro j hj
  rw [List.mem_range] at hj
  by_cases hjn : j < n
  · have e : (l.take n).take j = l.take j := by rw [List.take_take, Nat.min_eq_left hjn.le]
    have e2 : (l.take n).getD j 0 = l.getD j 0 := by
      rw [List.getD_eq_getElem?_getD, List.getD_eq_getElem?_getD, List.getElem?_take_of_lt hjn]
    rw [e, e2]; simp [hjn]
  · simp [hjn]

theorem inc_indep (l : List V) : (indep K l).Pairwise (· < ·) :=
  List.pairwise_lt_range.sublist List.filter_sublist

theorem indep_lt {l : List V} {j : Nat} (h : j ∈ indep K l) : j < l.length := (mem_indep.1 h).1

/-- A linear map that is injective on the span keeps the independent positions. -/
theorem indep_map {V' : Type} [AddCommGroup V'] [Module K V'] (f : V →ₗ[K] V') (l : List V)
    (hf : ∀ x ∈ spanL K l, f x = 0 → x = 0) : indep K (l.map f) = indep K l := by
  unfold indep
  rw [List.length_map]
  apply List.filter_congr
  intro j hj
  rw [List.mem_range] at hj
  rw [decide_eq_decide, not_iff_not, ← List.map_take]
  have e0 : (l.map f).getD j 0 = f l[j] := by simp [hj]
  have e1 : l.getD j 0 = l[j] := by simp [hj]
  rw [e0, e1]
  have e : spanL K ((l.take j).map f) = (spanL K (l.take j)).map f := by
    unfold spanL
    rw [Submodule.map_span]
    congr 1
    ext x
    simp only [Set.mem_ofPred_eq, List.mem_map, Set.mem_image]
  rw [e, Submodule.mem_map]
  constructor
  · rintro ⟨y, hy, hxy⟩
    have hy' : y ∈ spanL K l := spanL_mono (fun x hx => List.mem_of_mem_take hx) hy
    have := hf (y - l[j]) (Submodule.sub_mem _ hy' (mem_spanL (List.getElem_mem hj)))
      (by rw [map_sub, hxy, sub_self])
    rw [sub_eq_zero] at this
    rw [← this]; exact hy
  · intro h'; exact ⟨_, h', rfl⟩

/-- A combination of the vectors at independent positions vanishes only trivially: if `∑ z i • l[i]`
over positions `i ∈ indep l` is zero then all coefficients are zero. -/
theorem indep_coeff (l : List V) (z : Nat → K) (hz : ∀ i, i < l.length → i ∉ indep K l → z i = 0)
    (h0 : ∑ i ∈ Finset.range l.length, z i • l.getD i 0 = 0) : ∀ i, i < l.length → z i = 0 := by
  induction l using List.reverseRecOn with
  | nil => intro i hi; simp at hi
  | append_singleton l x ih =>
    have hlen : (l ++ [x]).length = l.length + 1 := by simp
    rw [hlen, Finset.sum_range_succ] at h0
    have e1 : ∑ i ∈ Finset.range l.length, z i • (l ++ [x]).getD i 0 =
        ∑ i ∈ Finset.range l.length, z i • l.getD i 0 := by
      apply Finset.sum_congr rfl
      intro i hi
      rw [Finset.mem_range] at hi
      rw [List.getD_append _ _ _ _ hi]
    have e2 : (l ++ [x]).getD l.length 0 = x := by simp
    rw [e1, e2] at h0
    have hmem : ∑ i ∈ Finset.range l.length, z i • l.getD i 0 ∈ spanL K l := by
      apply Submodule.sum_mem
      intro i hi
      rw [Finset.mem_range] at hi
      apply Submodule.smul_mem
      rw [List.getD_eq_getElem _ _ hi]
      exact mem_spanL (List.getElem_mem hi)
    have hx : z l.length = 0 := by
      by_contra hne
      have hnot : x ∉ spanL K l := by
        intro hx
        apply hne
        apply hz l.length (by simp)
        rw [indep_snoc, if_pos hx, List.append_nil]
        intro hh; exact absurd (indep_lt hh) (by omega)
      apply hnot
      have : z l.length • x ∈ spanL K l := by
        rw [show z l.length • x = -(∑ i ∈ Finset.range l.length, z i • l.getD i 0) from
          eq_neg_of_add_eq_zero_right h0]
        exact Submodule.neg_mem _ hmem
      rwa [Submodule.smul_mem_iff _ hne] at this
    intro i hi
    rw [hlen] at hi
    rcases Nat.lt_or_eq_of_le (Nat.le_of_lt_succ hi) with h | h
    · refine ih ?_ ?_ i h
      · intro j hj hj'
        apply hz j (by omega)
        rw [indep_snoc, List.mem_append]
        rintro (hh | hh)
        · exact hj' hh
        · split_ifs at hh
          · simp at hh
          · rw [List.mem_singleton] at hh; omega
      · rw [hx, zero_smul, add_zero] at h0; exact h0
    · rw [h]; exact hx

theorem rank_nullity {V' : Type} [AddCommGroup V'] [Module K V'] (f : V →ₗ[K] V')
    (S : Submodule K V) [FiniteDimensional K S] :
    Module.finrank K ↥(S ⊓ LinearMap.ker f) + Module.finrank K (S.map f) = Module.finrank K S := by
  have h1 := LinearMap.finrank_range_add_finrank_ker (f.domRestrict S)
  rw [LinearMap.range_domRestrict] at h1
  rw [← h1, Nat.add_comm]
  congr 1
  have e : LinearMap.ker (f.domRestrict S) = (S ⊓ LinearMap.ker f).comap S.subtype := by
    ext x; simp
  rw [e]
  exact (Submodule.comapSubtypeEquivOfLe (p := S ⊓ LinearMap.ker f) (q := S)
    inf_le_left).finrank_eq.symm

end

/-! ### The boundary map -/

theorem boundary_single (s : List Nat) : boundary (Finsupp.single s 1) = boundaryOf s := by
  unfold boundary
  rw [Finsupp.linearCombination_single, one_smul]

theorem eraseIdx_comm {l : List Nat} {i j : Nat} (h : j < i) :
    (l.eraseIdx i).eraseIdx j = (l.eraseIdx j).eraseIdx (i - 1) := by
  induction l generalizing i j with
  | nil => simp
  | cons x l ih =>
    cases i with
    | zero => omega
    | succ i =>
      cases j with
      | zero => simp
      | succ j =>
        cases i with
        | zero => omega
        | succ i =>
          have h' : j < i + 1 := by omega
          have := ih h'
          simp only [List.eraseIdx_cons_succ, Nat.add_sub_cancel] at this ⊢
          rw [this]

theorem boundary_boundary (x : Chain) : boundary (boundary x) = 0 := by
  suffices h : boundary ∘ₗ boundary = 0 by
    exact LinearMap.congr_fun h x
  apply Finsupp.lhom_ext'
  intro s
  apply LinearMap.ext_ring
  simp only [LinearMap.comp_apply, LinearMap.zero_apply, Finsupp.lsingle_apply]
  rw [boundary_single]
  unfold boundaryOf
  rw [map_sum]
  simp_rw [boundary_single]
  unfold boundaryOf
  have hl : ∀ i ∈ Finset.range s.length, (s.eraseIdx i).length = s.length - 1 := by
    intro i hi
    rw [Finset.mem_range] at hi
    rw [List.length_eraseIdx_of_lt hi]
  rw [Finset.sum_congr rfl (fun i hi => by rw [hl i hi])]
  rw [← Finset.sum_product']
  have h2 : ∀ c : Chain, c + c = 0 := by
    intro c
    ext t
    have : ∀ z : ZMod 2, z + z = 0 := by decide
    exact this _
  refine Finset.sum_involution (fun p _ => if p.2 < p.1 then (p.2, p.1 - 1) else (p.2 + 1, p.1))
    ?_ ?_ ?_ ?_
  · rintro ⟨i, j⟩ hp
    by_cases hlt : j < i
    · simp only [hlt, if_true]
      rw [eraseIdx_comm hlt]
      exact h2 _
    · simp only [hlt, if_false]
      have := eraseIdx_comm (l := s) (i := j + 1) (j := i) (by omega)
      rw [this, Nat.add_sub_cancel]
      exact h2 _
  · rintro ⟨i, j⟩ hp _
    by_cases hlt : j < i
    · simp only [hlt, if_true]; intro h; rw [Prod.mk.injEq] at h; omega
    · simp only [hlt, if_false]; intro h; rw [Prod.mk.injEq] at h; omega
  · rintro ⟨i, j⟩ hp
    rw [Finset.mem_product, Finset.mem_range, Finset.mem_range] at hp
    by_cases hlt : j < i
    · simp only [hlt, if_true, Finset.mem_product, Finset.mem_range]; simp at hp; omega
    · simp only [hlt, if_false, Finset.mem_product, Finset.mem_range]; simp at hp; omega
  · rintro ⟨i, j⟩ hp
    by_cases hlt : j < i
    · simp only [hlt, if_true]
      rw [if_neg (by omega), Prod.mk.injEq]; omega
    · simp only [hlt, if_false]
      rw [if_pos (by omega)]; rfl

/-- The boundary vectors of a list of simplices. -/
noncomputable def bvecs (l : List (List Nat)) : List Chain := l.map boundaryOf

theorem map_boundary_chains (l : List (List Nat)) :
    (chains l).map boundary = spanL (ZMod 2) (bvecs l) := by
  unfold chains spanL bvecs
  rw [Submodule.map_span]
  congr 1
  ext x
  simp only [Set.mem_image, Set.mem_ofPred_eq, List.mem_map]
  constructor
  · rintro ⟨y, ⟨s, hs, rfl⟩, rfl⟩
    exact ⟨s, hs, (boundary_single s).symm⟩
  · rintro ⟨s, hs, rfl⟩
    exact ⟨_, ⟨s, hs, rfl⟩, boundary_single s⟩

theorem chains_eq (l : List (List Nat)) :
    chains l = Finsupp.supported (ZMod 2) (ZMod 2) {s | s ∈ l} := by
  unfold chains
  rw [Finsupp.supported_eq_span_single]
  congr 1
  ext x
  simp only [Set.mem_ofPred_eq, Set.mem_image]
  constructor
  · rintro ⟨s, hs, rfl⟩; exact ⟨s, hs, rfl⟩
  · rintro ⟨s, hs, rfl⟩; exact ⟨s, hs, rfl⟩

instance (l : List (List Nat)) : FiniteDimensional (ZMod 2) (chains l) := by
  have : chains l = spanL (ZMod 2) (l.map (fun s => Finsupp.single s 1)) := by
    unfold chains spanL
    congr 1
    ext x; simp [eq_comm]
  rw [this]; infer_instance

theorem finrank_chains {l : List (List Nat)} (h : l.Nodup) :
    Module.finrank (ZMod 2) (chains l) = l.length := by
  rw [chains_eq, (Finsupp.supportedEquivFinsupp (M := ZMod 2) (R := ZMod 2)
    {s : List Nat | s ∈ l}).finrank_eq]
  have hf : {s : List Nat | s ∈ l} = (l.toFinset : Set (List Nat)) := by ext x; simp
  rw [hf, Module.finrank_finsupp_self, ← Set.toFinset_card, Finset.toFinset_coe,
    List.toFinset_card_of_nodup h]

/-- Rank and nullity: cycles plus rank of the boundary make up all chains. -/
theorem cycles_add_rank {l : List (List Nat)} (h : l.Nodup) :
    Module.finrank (ZMod 2) ↥(chains l ⊓ LinearMap.ker boundary) +
      Module.finrank (ZMod 2) (spanL (ZMod 2) (bvecs l)) = l.length := by
  rw [← map_boundary_chains, ← finrank_chains h]
  exact rank_nullity boundary (chains l)

end LHF
