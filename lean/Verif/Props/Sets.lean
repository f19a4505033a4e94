import Verif.Model.Utils
import Verif.Spec.Sets
import Verif.Lemmas.Subsets
import Mathlib.Data.Set.Card

/-! C01–C05: set algebra and subset enumeration of Utils/utils.cpp. -/

namespace LHF
open Spec

/-- The precondition of the vector overloads: duplicate-free, and ascending if the caller says so. -/
def VecArg (v : List Nat) (A : Set Nat) (isSorted : Bool) : Prop :=
  if isSorted then Lists v A else Enumerates v A

private theorem lists_sort {v : List Nat} {A : Set Nat} (h : Enumerates v A) :
    Lists (stdSort v) A :=
  ⟨inc_stdSort h.1, fun x => by rw [mem_stdSort]; exact h.2 x⟩

private theorem lists_ext {v w : List Nat} {A : Set Nat} (h : Lists v A) (h' : Lists w A) :
    v = w :=
  Inc.ext h.1 h'.1 (fun x => (h.2 x).trans (h'.2 x).symm)

private theorem vecArg_norm {v : List Nat} {A : Set Nat} {b : Bool} (h : VecArg v A b) :
    Lists (if b then v else stdSort v) A := by
  cases b with
  | true => exact h
  | false => exact lists_sort h

private theorem vecArg_mem {v : List Nat} {A : Set Nat} {b : Bool} (h : VecArg v A b) (x : Nat) :
    x ∈ v ↔ x ∈ A := by
  cases b with
  | true => exact h.2 x
  | false => exact h.2 x

private theorem lists_empty {A : Set Nat} (h : A = ∅) : Lists [] A := by
  subst h; exact ⟨List.Pairwise.nil, by simp⟩

/-! ### C01 -/

/-- C01: `setXOR` lists exactly the symmetric difference. -/
theorem C01_setXOR_exact {a b : List Nat} {A B : Set Nat} (ha : Lists a A) (hb : Lists b B) :
    Lists (setXOR a b) ((A \ B) ∪ (B \ A)) := by
  refine ⟨inc_stdSymDiff ha.1 hb.1, fun x => ?_⟩
  rw [setXOR, mem_stdSymDiff ha.1 hb.1, ha.2, hb.2]
  rfl

/-- C01: `setXOR` is commutative. -/
theorem C01_setXOR_comm {a b : List Nat} {A B : Set Nat} (ha : Lists a A) (hb : Lists b B) :
    setXOR a b = setXOR b a := by
  have h1 := C01_setXOR_exact ha hb
  have h2 := C01_setXOR_exact hb ha
  rw [Set.union_comm] at h2
  exact lists_ext h1 h2

/-- C01: `setXOR` is associative. -/
theorem C01_setXOR_assoc {a b c : List Nat} {A B C : Set Nat} (ha : Lists a A) (hb : Lists b B)
    (hc : Lists c C) : setXOR (setXOR a b) c = setXOR a (setXOR b c) := by
  have h1 := C01_setXOR_exact (C01_setXOR_exact ha hb) hc
  have h2 := C01_setXOR_exact ha (C01_setXOR_exact hb hc)
  refine Inc.ext h1.1 h2.1 (fun x => ?_)
  rw [h1.2, h2.2]
  simp only [Set.mem_union, Set.mem_sdiff]
  tauto

/-- C01: adding a set twice gives back the other one (it is its own inverse). -/
theorem C01_setXOR_cancel {a b : List Nat} {A B : Set Nat} (ha : Lists a A) (hb : Lists b B) :
    setXOR a (setXOR a b) = b := by
  have h1 := C01_setXOR_exact ha (C01_setXOR_exact ha hb)
  refine Inc.ext h1.1 hb.1 (fun x => ?_)
  rw [h1.2, hb.2]
  simp only [Set.mem_union, Set.mem_sdiff]
  tauto

/-- C01: `symmetricDiff` on vectors. -/
theorem C01_symmetricDiff_vector {v w : List Nat} {A B : Set Nat} {s : Bool}
    (hv : VecArg v A s) (hw : VecArg w B s) :
    Lists (symmetricDiffV v w s) ((A \ B) ∪ (B \ A)) := by
  unfold symmetricDiffV
  split_ifs with h1 h2
  · apply lists_empty
    subst h1
    ext x
    have e1 := vecArg_mem hv x
    have e2 := vecArg_mem hw x
    simp only [Set.mem_union, Set.mem_sdiff, Set.mem_empty_iff_false]
    tauto
  · subst h2; exact C01_setXOR_exact (vecArg_norm hv) (vecArg_norm hw)
  · have : s = false := by simpa using h2
    subst this; exact C01_setXOR_exact (vecArg_norm hv) (vecArg_norm hw)

/-- C01: `symmetricDiff` on sets. -/
theorem C01_symmetricDiff_set {v w : List Nat} {A B : Set Nat} (hv : Lists v A) (hw : Lists w B) :
    Lists (symmetricDiffS v w) ((A \ B) ∪ (B \ A)) := by
  have := C01_symmetricDiff_vector (s := true) (v := v) (w := w) (A := A) (B := B) hv hw
  simpa [symmetricDiffV, symmetricDiffS] using this

example : Lists [1, 3, 5] {1, 3, 5} ∧ Lists [3, 4] {3, 4} ∧ setXOR [1, 3, 5] [3, 4] = [1, 4, 5] := by
  refine ⟨⟨by decide, fun x => by simp⟩, ⟨by decide, fun x => by simp⟩, by decide⟩

example : VecArg [5, 1, 3] {1, 3, 5} false ∧ symmetricDiffV [5, 1, 3] [4, 3] false = [1, 4, 5] := by
  refine ⟨⟨by decide, fun x => ?_⟩, by decide⟩
  simp; tauto

/-! ### C02 -/

/-- C02: `setIntersect` on sets lists exactly the intersection. -/
theorem C02_setIntersect_set {v w : List Nat} {A B : Set Nat} (hv : Lists v A) (hw : Lists w B) :
    Lists (setIntersectS v w) (A ∩ B) := by
  unfold setIntersectS
  split_ifs with h
  · subst h
    refine ⟨hv.1, fun x => ?_⟩
    have e1 := hv.2 x
    have e2 := hw.2 x
    simp only [Set.mem_inter_iff]; tauto
  · refine ⟨inc_stdInter hv.1 hw.1, fun x => ?_⟩
    rw [mem_stdInter hv.1 hw.1, hv.2, hw.2]; rfl

/-- C02: `setIntersect` on two different vectors lists exactly the intersection, sorted. -/
theorem C02_setIntersect_vector {v w : List Nat} {A B : Set Nat} {s : Bool} (hne : v ≠ w)
    (hv : VecArg v A s) (hw : VecArg w B s) :
    Lists (setIntersectV v w s) (A ∩ B) := by
  have key : ∀ {a b : List Nat}, Lists a A → Lists b B → Lists (stdInter a b) (A ∩ B) := by
    intro a b ha hb
    refine ⟨inc_stdInter ha.1 hb.1, fun x => ?_⟩
    rw [mem_stdInter ha.1 hb.1, ha.2, hb.2]; rfl
  unfold setIntersectV
  rw [if_neg hne]
  split_ifs with h2
  · subst h2; exact key (vecArg_norm hv) (vecArg_norm hw)
  · have : s = false := by simpa using h2
    subst this; exact key (vecArg_norm hv) (vecArg_norm hw)

/-- C02: in every case the elements returned are those of the intersection, each once. -/
theorem C02_setIntersect_vector_elements {v w : List Nat} {A B : Set Nat} {s : Bool}
    (hv : VecArg v A s) (hw : VecArg w B s) :
    Enumerates (setIntersectV v w s) (A ∩ B) := by
  by_cases h : v = w
  · subst h
    have hn : v.Nodup := by
      cases s with
      | true => exact Inc.nodup hv.1
      | false => exact hv.1
    refine ⟨by simpa [setIntersectV] using hn, fun x => ?_⟩
    have e1 := vecArg_mem hv x
    have e2 := vecArg_mem hw x
    simp only [setIntersectV, Set.mem_inter_iff, if_true]; tauto
  · have := C02_setIntersect_vector h hv hw
    exact ⟨Inc.nodup this.1, this.2⟩

/-- C02: for two identical vectors the input comes back as it is. -/
theorem C02_setIntersect_vector_same (v : List Nat) (s : Bool) : setIntersectV v v s = v := by
  simp [setIntersectV]

/-- C02: consequently the result need not be sorted. -/
theorem C02_same_vectors_unsorted :
    ∃ v, v.Nodup ∧ ¬ (setIntersectV v v false).Pairwise (· < ·) :=
  ⟨[2, 1], by decide, by decide⟩

example : VecArg [5, 1, 3] {1, 3, 5} false ∧ setIntersectV [5, 1, 3] [3, 5, 7] false = [3, 5] := by
  refine ⟨⟨by decide, fun x => ?_⟩, by decide⟩
  simp; tauto

/-! ### C03 -/

/-- C03 (proved part): `setUnion` of two *different* vectors lists exactly the union. -/
theorem C03_setUnion_partial {v w : List Nat} {A B : Set Nat} {s : Bool} (hne : v ≠ w)
    (hv : VecArg v A s) (hw : VecArg w B s) : Lists (setUnion v w s) (A ∪ B) := by
  have key : ∀ {a b : List Nat}, Lists a A → Lists b B → Lists (stdUnion a b) (A ∪ B) := by
    intro a b ha hb
    refine ⟨inc_stdUnion ha.1 hb.1, fun x => ?_⟩
    rw [mem_stdUnion, ha.2, hb.2]; rfl
  unfold setUnion
  rw [if_neg hne]
  split_ifs with h2
  · subst h2; exact key (vecArg_norm hv) (vecArg_norm hw)
  · have : s = false := by simpa using h2
    subst this; exact key (vecArg_norm hv) (vecArg_norm hw)

/-- C03: the full statement fails, `setUnion` of a non-empty vector with itself loses everything. -/
theorem C03_setUnion_self_lost (v : List Nat) (s : Bool) : setUnion v v s = [] := by
  simp [setUnion]

/-- C03: the full statement ("for all arguments the union is returned") is false of the code. -/
theorem C03_setUnion_violated :
    ¬ ∀ (v w : List Nat) (A B : Set Nat) (s : Bool), VecArg v A s → VecArg w B s →
      Lists (setUnion v w s) (A ∪ B) := by
  intro h
  have h1 : VecArg [0] {0} true := ⟨by decide, fun x => by simp⟩
  have h2 := (h [0] [0] {0} {0} true h1 h1).2 0
  simp [setUnion] at h2

example : VecArg [5, 1, 3] {1, 3, 5} false ∧ setUnion [5, 1, 3] [3, 4] false = [1, 3, 4, 5] := by
  refine ⟨⟨by decide, fun x => ?_⟩, by decide⟩
  simp; tauto

/-! ### C04 -/

/-- C04: `intersect` recognises exactly the pairs that differ in two indices, and then returns these
two indices and the union. -/
theorem C04_intersect_exact {v w : List Nat} {A B : Set Nat} {s : Bool}
    (hv : VecArg v A s) (hw : VecArg w B s) :
    (((A \ B) ∪ (B \ A)).ncard = 2 →
      Lists (intersect v w s).1 ((A \ B) ∪ (B \ A)) ∧ Lists (intersect v w s).2 (A ∪ B)) ∧
    (((A \ B) ∪ (B \ A)).ncard ≠ 2 → intersect v w s = ([], [])) := by
  have n1 := vecArg_norm hv
  have n2 := vecArg_norm hw
  have hsd := C01_setXOR_exact n1 n2
  have hun : Lists (stdUnion (if s then v else stdSort v) (if s then w else stdSort w)) (A ∪ B) := by
    refine ⟨inc_stdUnion n1.1 n2.1, fun x => ?_⟩
    rw [mem_stdUnion, n1.2, n2.2]; rfl
  have hcard : ((A \ B) ∪ (B \ A)).ncard =
      (setXOR (if s then v else stdSort v) (if s then w else stdSort w)).length := by
    have : ((A \ B) ∪ (B \ A)) =
        ((setXOR (if s then v else stdSort v) (if s then w else stdSort w)).toFinset : Set Nat) := by
      ext x; rw [← hsd.2]; simp
    rw [this, Set.ncard_coe_finset, List.toFinset_card_of_nodup (Inc.nodup hsd.1)]
  unfold intersect
  by_cases h : v = w
  · subst h
    have : ((A \ B) ∪ (B \ A)) = ∅ := by
      ext x
      have e1 := vecArg_mem hv x
      have e2 := vecArg_mem hw x
      simp only [Set.mem_union, Set.mem_sdiff, Set.mem_empty_iff_false]; tauto
    simp [this]
  · rw [if_neg h, hcard]
    refine ⟨fun h2 => ?_, fun h2 => ?_⟩
    · change (stdSymDiff _ _).length = 2 at h2
      simp only [h2, if_true]
      exact ⟨hsd, hun⟩
    · change (stdSymDiff _ _).length ≠ 2 at h2
      simp only [h2, if_false]

example : intersect [3, 1] [2, 1] false = ([2, 3], [1, 2, 3]) ∧
    intersect [3, 1] [2, 4] false = ([], []) := by decide

/-! ### C05 -/

/-- C05: the facets of a simplex given as a `std::set` are enumerated exactly once each. -/
theorem C05_facets_set {s : List Nat} (hs : s.Pairwise (· < ·)) (hne : s ≠ []) :
    (getSubsetsS s).Nodup ∧ (∀ z, z ∈ getSubsetsS s ↔ ∃ v ∈ s, z = s.erase v) ∧
    (getSubsetsS s).length = s.length := by
  rw [getSubsetsS_eq_V hs]
  refine ⟨getSubsetsV_nodup (Inc.nodup hs), getSubsetsV_mem (Inc.nodup hs) hne, ?_⟩
  have hpos : 0 < s.length := List.length_pos_iff.2 hne
  rw [getSubsetsV, allSubsetsV_eq, szPred_pos hpos, filter_sublists_length]
  have : s.length - 1 = s.length - 1 := rfl
  rw [← Nat.choose_symm (by omega)]
  have : s.length - (s.length - 1) = 1 := by omega
  rw [this, Nat.choose_one_right]

/-- C05: the same for a simplex given as a duplicate-free vector; vertex order is kept. -/
theorem C05_facets_vector {s : List Nat} (hs : s.Nodup) (hne : s ≠ []) :
    (getSubsetsV s).Nodup ∧ (∀ z, z ∈ getSubsetsV s ↔ ∃ v ∈ s, z = s.erase v) ∧
    (getSubsetsV s).length = s.length := by
  refine ⟨getSubsetsV_nodup hs, getSubsetsV_mem hs hne, ?_⟩
  have hpos : 0 < s.length := List.length_pos_iff.2 hne
  rw [getSubsetsV, allSubsetsV_eq, szPred_pos hpos, filter_sublists_length]
  rw [← Nat.choose_symm (by omega)]
  have : s.length - (s.length - 1) = 1 := by omega
  rw [this, Nat.choose_one_right]

/-- C05: with a size argument, every subset of that size exactly once. -/
theorem C05_subsets_of_size {s : List Nat} (hs : s.Pairwise (· < ·)) (k : Nat) :
    (getSubsetsDim s k).Nodup ∧
    (∀ z, z ∈ getSubsetsDim s k ↔ z.Pairwise (· < ·) ∧ (∀ x ∈ z, x ∈ s) ∧ z.length = k) ∧
    (getSubsetsDim s k).length = s.length.choose k := by
  have e : getSubsetsDim s k = s.sublists.filter (fun z => z.length = k) := by
    rw [getSubsetsDim, allSubsetsS_eq hs]; simp
  rw [e]
  refine ⟨(List.nodup_sublists.2 (Inc.nodup hs)).filter _, fun z => ?_, filter_sublists_length s k⟩
  rw [List.mem_filter, List.mem_sublists, sublist_iff_of_inc hs]
  simp [and_assoc]

/-- C05: a negative size selects nothing. -/
theorem C05_subsets_negative (s : List Nat) (k : Int) (hk : k < 0) : getSubsetsDim s k = [] := by
  rw [getSubsetsDim, List.filter_eq_nil_iff]
  intro z _
  simp only [decide_eq_true_eq]
  omega

/-- C05: on the empty simplex nothing is returned (`size() - 1` wraps around). -/
theorem C05_facets_empty : getSubsetsS [] = [] ∧ getSubsetsV [] = [] := by
  constructor <;> decide

example : getSubsetsS [1, 4, 6] = [[1, 4], [1, 6], [4, 6]] ∧
    getSubsetsDim [1, 4, 6] 1 = [[1], [4], [6]] := by decide

end LHF
