import Verif.Spec.RipsHomology
import Mathlib.Logic.Equiv.Fintype
import Mathlib.Data.List.Sort
import Mathlib.Data.List.GetD
import Mathlib.Data.List.Nodup
import Mathlib.LinearAlgebra.Quotient.Basic
import Mathlib.LinearAlgebra.Finsupp.Defs
import Mathlib.LinearAlgebra.Dimension.Finrank

/-! The components and the Betti numbers of a Rips complex do not depend on the numbering of the
points. -/

namespace LHF
open Spec

section
variable {W : Type} [LinearOrder W]

/-- The number of components does not depend on the numbering. -/
theorem components_relabel {n : Nat} {d d' : Nat → Nat → W} (hs : ∀ i j, d i j = d j i)
    (hs' : ∀ i j, d' i j = d' j i) (σ : Equiv.Perm (Fin n))
    (h : ∀ i j : Fin n, d' (σ i) (σ j) = d i j) (t : W) :
    components (scaleGraph n d' t) = components (scaleGraph n d t) := by
  have hadj : ∀ (e : Nat → Nat → W) (_ : ∀ i j, e i j = e j i) (x y : Fin n),
      (scaleGraph n e t).Adj x y ↔ x ≠ y ∧ e x y ≤ t := by
    intro e he x y
    show ((x < y ∧ e x y ≤ t) ∨ (y < x ∧ e y x ≤ t)) ↔ _
    rw [he y x]
    constructor
    · rintro (⟨h1, h2⟩ | ⟨h1, h2⟩)
      · exact ⟨ne_of_lt h1, h2⟩
      · exact ⟨ne_of_gt h1, h2⟩
    · rintro ⟨h1, h2⟩
      rcases lt_or_gt_of_ne h1 with h | h
      · exact Or.inl ⟨h, h2⟩
      · exact Or.inr ⟨h, h2⟩
  have iso : scaleGraph n d t ≃g scaleGraph n d' t := by
    refine ⟨σ, ?_⟩
    intro a b
    rw [hadj d' hs', hadj d hs, h]
    simp
  exact (Nat.card_congr iso.connectedComponentEquiv).symm

/-! ### Chains -/

/-- The renamed vertex list, in increasing order. -/
def renameList (π : Nat → Nat) (s : List Nat) : List Nat := (s.map π).insertionSort (· ≤ ·)

theorem renameList_perm (π : Nat → Nat) (s : List Nat) : (renameList π s).Perm (s.map π) :=
  List.perm_insertionSort _ _

theorem renameList_sorted (π : Equiv.Perm Nat) {s : List Nat} (hs : s.Pairwise (· < ·)) :
    (renameList π s).Pairwise (· < ·) := by
  have h1 : (renameList π s).Pairwise (· ≤ ·) := List.pairwise_insertionSort _ _
  have h2 : (renameList π s).Nodup := by
    rw [(renameList_perm π s).nodup_iff]
    exact List.Nodup.map π.injective (hs.imp (fun h => ne_of_lt h))
  exact (h1.and h2).imp (fun h => lt_of_le_of_ne h.1 h.2)

theorem sorted_unique {a b : List Nat} (ha : a.Pairwise (· < ·)) (hb : b.Pairwise (· < ·))
    (h : a.Perm b) : a = b :=
  List.Perm.eq_of_pairwise (fun _ _ _ _ h1 h2 => absurd h1 (lt_asymm h2)) ha hb h

theorem renameList_symm (π : Equiv.Perm Nat) {s : List Nat} (hs : s.Pairwise (· < ·)) :
    renameList π.symm (renameList π s) = s := by
  apply sorted_unique (renameList_sorted _ (renameList_sorted π hs)) hs
  refine (renameList_perm _ _).trans (((renameList_perm π s).map _).trans ?_)
  simp

open Classical in
/-- Renaming the vertices of increasing lists, as a bijection of all lists. -/
noncomputable def renameEquiv (π : Equiv.Perm Nat) : List Nat ≃ List Nat where
  toFun s := if s.Pairwise (· < ·) then renameList π s else s
  invFun s := if s.Pairwise (· < ·) then renameList π.symm s else s
  left_inv s := by
    by_cases h : s.Pairwise (· < ·)
    · simp only [if_pos h, if_pos (renameList_sorted π h), renameList_symm π h]
    · simp only [if_neg h]
  right_inv s := by
    by_cases h : s.Pairwise (· < ·)
    · have := renameList_symm π.symm h
      rw [Equiv.symm_symm] at this
      simp only [if_pos h, if_pos (renameList_sorted π.symm h), this]
    · simp only [if_neg h]

theorem renameEquiv_sorted (π : Equiv.Perm Nat) {s : List Nat} (hs : s.Pairwise (· < ·)) :
    renameEquiv π s = renameList π s := if_pos hs

/-- The boundary as a sum over the vertices. -/
theorem boundaryOf_vertices {s : List Nat} (hs : s.Nodup) :
    boundaryOf s = ∑ v ∈ s.toFinset, Finsupp.single (s.erase v) 1 := by
  unfold boundaryOf
  symm
  refine Finset.sum_bij' (fun v _ => s.idxOf v) (fun i _ => s.getD i 0) ?_ ?_ ?_ ?_ ?_
  · intro v hv
    rw [Finset.mem_range]
    exact List.idxOf_lt_length_of_mem (List.mem_toFinset.1 hv)
  · intro i hi
    have hi := Finset.mem_range.1 hi
    rw [List.mem_toFinset, List.getD_eq_getElem _ _ hi]
    exact List.getElem_mem hi
  · intro v hv
    have := List.idxOf_lt_length_of_mem (List.mem_toFinset.1 hv)
    rw [List.getD_eq_getElem _ _ this]
    exact List.getElem_idxOf this
  · intro i hi
    have hi := Finset.mem_range.1 hi
    rw [List.getD_eq_getElem _ _ hi]
    exact hs.idxOf_getElem i hi
  · intro v hv
    rw [List.erase_eq_eraseIdx_of_idxOf rfl]

/-- Chains with renamed vertices. -/
noncomputable def renameChain (π : Equiv.Perm Nat) : Chain ≃ₗ[ZMod 2] Chain :=
  Finsupp.domLCongr (renameEquiv π)

theorem renameChain_single (π : Equiv.Perm Nat) {s : List Nat} (hs : s.Pairwise (· < ·)) (a : ZMod 2) :
    renameChain π (Finsupp.single s a) = Finsupp.single (renameList π s) a := by
  unfold renameChain
  rw [Finsupp.domLCongr_single, renameEquiv_sorted π hs]

theorem renameChain_boundaryOf (π : Equiv.Perm Nat) {s : List Nat} (hs : s.Pairwise (· < ·)) :
    renameChain π (boundaryOf s) = boundaryOf (renameList π s) := by
  have hn : s.Nodup := hs.imp (fun h => ne_of_lt h)
  have hn' : (renameList π s).Nodup := (renameList_sorted π hs).imp (fun h => ne_of_lt h)
  rw [boundaryOf_vertices hn, boundaryOf_vertices hn', map_sum]
  refine Finset.sum_bij (fun v _ => π v) ?_ ?_ ?_ ?_
  · intro v hv
    rw [List.mem_toFinset] at hv ⊢
    exact (renameList_perm π s).mem_iff.2 (List.mem_map_of_mem hv)
  · intro a _ b _ h
    exact π.injective h
  · intro w hw
    rw [List.mem_toFinset, (renameList_perm π s).mem_iff, List.mem_map] at hw
    obtain ⟨v, hv, rfl⟩ := hw
    exact ⟨v, List.mem_toFinset.2 hv, rfl⟩
  · intro v hv
    have h1 : (s.erase v).Pairwise (· < ·) := hs.sublist List.erase_sublist
    rw [renameChain_single π h1]
    congr 1
    apply sorted_unique (renameList_sorted π h1) ((renameList_sorted π hs).sublist List.erase_sublist)
    refine (renameList_perm π _).trans ?_
    rw [List.map_erase π.injective]
    exact ((renameList_perm π s).erase _).symm

/-- On chains of increasing lists renaming commutes with the boundary. -/
theorem renameChain_boundary (π : Equiv.Perm Nat) {S : Set Chain}
    (hS : ∀ x ∈ S, ∃ s : List Nat, s.Pairwise (· < ·) ∧ x = Finsupp.single s 1) {x : Chain}
    (hx : x ∈ Submodule.span (ZMod 2) S) :
    boundary (renameChain π x) = renameChain π (boundary x) := by
  have single : ∀ s : List Nat, boundary (Finsupp.single s 1) = boundaryOf s := by
    intro s
    unfold boundary
    rw [Finsupp.linearCombination_single, one_smul]
  induction hx using Submodule.span_induction with
  | mem x hx =>
    obtain ⟨s, hs, rfl⟩ := hS x hx
    rw [renameChain_single π hs, single, single, renameChain_boundaryOf π hs]
  | zero => simp
  | add x y _ _ hx hy => simp only [map_add, hx, hy]
  | smul a x _ hx => simp only [map_smul, hx]

/-- A renaming of all the vertices that carries the points to the points. -/
theorem ripsChains_rename {n : Nat} {d d' : Nat → Nat → W} (hs : ∀ i j, d i j = d j i)
    (hs' : ∀ i j, d' i j = d' j i) (π : Equiv.Perm Nat) (hπ : ∀ v, π v < n ↔ v < n)
    (h : ∀ i j, i < n → j < n → d' (π i) (π j) = d i j) (k : Nat) (t : W) :
    (ripsChains n d k t).map (renameChain π : Chain →ₗ[ZMod 2] Chain) = ripsChains n d' k t := by
  have key : ∀ (e e' : Nat → Nat → W) (_ : ∀ i j, e' i j = e' j i) (_ : ∀ i j, e i j = e j i)
      (ρ : Equiv.Perm Nat) (_ : ∀ v, ρ v < n ↔ v < n)
      (_ : ∀ i j, i < n → j < n → e' (ρ i) (ρ j) = e i j) (s : List Nat),
      IsSimplex n (fun i j => e i j ≤ t) s → IsSimplex n (fun i j => e' i j ≤ t) (renameList ρ s) := by
    intro e e' he' he ρ hρ h s hs
    have hmem : ∀ w, w ∈ renameList ρ s ↔ ∃ v ∈ s, ρ v = w := by
      intro w
      rw [(renameList_perm ρ s).mem_iff, List.mem_map]
    refine ⟨?_, renameList_sorted ρ hs.2.1, ?_, ?_⟩
    · intro h0
      have := (renameList_perm ρ s).length_eq
      rw [h0, List.length_map] at this
      exact hs.1 (List.length_eq_zero_iff.1 this.symm)
    · intro w hw
      obtain ⟨v, hv, rfl⟩ := (hmem w).1 hw
      exact (hρ v).2 (hs.2.2.1 v hv)
    · intro i hi j hj hij
      obtain ⟨a, ha, rfl⟩ := (hmem i).1 hi
      obtain ⟨b, hb, rfl⟩ := (hmem j).1 hj
      rw [h a b (hs.2.2.1 a ha) (hs.2.2.1 b hb)]
      rcases lt_trichotomy a b with hab | hab | hab
      · exact hs.2.2.2 a ha b hb hab
      · subst hab; omega
      · rw [he]
        exact hs.2.2.2 b hb a ha hab
  unfold ripsChains
  rw [Submodule.map_span]
  congr 1
  ext x
  constructor
  · rintro ⟨y, ⟨s, h1, h2, rfl⟩, rfl⟩
    refine ⟨renameList π s, ?_, key d d' hs' hs π hπ h s h2, renameChain_single π h2.2.1 1⟩
    rw [(renameList_perm π s).length_eq, List.length_map, h1]
  · rintro ⟨s, h1, h2, rfl⟩
    have hπ' : ∀ v, π.symm v < n ↔ v < n := fun v => by
      rw [← hπ (π.symm v), Equiv.apply_symm_apply]
    have h' : ∀ i j, i < n → j < n → d (π.symm i) (π.symm j) = d' i j := by
      intro i j hi hj
      rw [← h _ _ ((hπ' i).2 hi) ((hπ' j).2 hj), Equiv.apply_symm_apply, Equiv.apply_symm_apply]
    have h3 := key d' d hs hs' π.symm hπ' h' s h2
    refine ⟨Finsupp.single (renameList π.symm s) 1, ⟨_, ?_, h3, rfl⟩, ?_⟩
    · rw [(renameList_perm _ s).length_eq, List.length_map, h1]
    · show renameChain π _ = _
      rw [renameChain_single π h3.2.1]
      have := renameList_symm π.symm h2.2.1
      rw [Equiv.symm_symm] at this
      rw [this]

theorem ripsChains_sorted {n : Nat} {d : Nat → Nat → W} {k : Nat} {t : W} {x : Chain}
    (π : Equiv.Perm Nat) (hx : x ∈ ripsChains n d k t) :
    boundary (renameChain π x) = renameChain π (boundary x) :=
  renameChain_boundary π (by rintro x ⟨s, -, h2, rfl⟩; exact ⟨s, h2.2.1, rfl⟩) hx

/-- The Betti numbers do not depend on the numbering. -/
theorem ripsBetti_rename {n : Nat} {d d' : Nat → Nat → W} (hs : ∀ i j, d i j = d j i)
    (hs' : ∀ i j, d' i j = d' j i) (π : Equiv.Perm Nat) (hπ : ∀ v, π v < n ↔ v < n)
    (h : ∀ i j, i < n → j < n → d' (π i) (π j) = d i j) (k : Nat) (t : W) :
    ripsBetti n d' k t = ripsBetti n d k t := by
  have hA := ripsChains_rename hs hs' π hπ h k t
  have hB := ripsChains_rename hs hs' π hπ h (k + 1) t
  have hZ : (ripsChains n d k t ⊓ LinearMap.ker boundary).map
      (renameChain π : Chain →ₗ[ZMod 2] Chain) = ripsChains n d' k t ⊓ LinearMap.ker boundary := by
    ext y
    constructor
    · rintro ⟨x, ⟨hx1, hx2⟩, rfl⟩
      refine ⟨hA ▸ Submodule.mem_map_of_mem hx1, ?_⟩
      show boundary (renameChain π x) = 0
      rw [ripsChains_sorted π hx1, show boundary x = 0 from hx2, map_zero]
    · rintro ⟨hy1, hy2⟩
      rw [← hA] at hy1
      obtain ⟨x, hx, rfl⟩ := hy1
      refine ⟨x, ⟨hx, ?_⟩, rfl⟩
      have : boundary (renameChain π x) = 0 := hy2
      rw [ripsChains_sorted π hx] at this
      exact (renameChain π).map_eq_zero_iff.1 this
  have hBd : ((ripsChains n d (k + 1) t).map boundary).map (renameChain π : Chain →ₗ[ZMod 2] Chain) =
      (ripsChains n d' (k + 1) t).map boundary := by
    rw [← hB]
    ext y
    constructor
    · rintro ⟨_, ⟨x, hx, rfl⟩, rfl⟩
      exact ⟨renameChain π x, Submodule.mem_map_of_mem hx, ripsChains_sorted π hx⟩
    · rintro ⟨_, ⟨x, hx, rfl⟩, rfl⟩
      exact ⟨boundary x, Submodule.mem_map_of_mem hx, (ripsChains_sorted π hx).symm⟩
  unfold ripsBetti
  have e := Submodule.Quotient.equiv _ _ (renameChain π) hBd
  have hmap : (ripsChains n d' k t ⊓ LinearMap.ker boundary).map
        ((ripsChains n d' (k + 1) t).map boundary).mkQ =
      ((ripsChains n d k t ⊓ LinearMap.ker boundary).map
        ((ripsChains n d (k + 1) t).map boundary).mkQ).map
        (Submodule.Quotient.equiv _ _ (renameChain π) hBd : _ →ₗ[ZMod 2] _) := by
    rw [← hZ, ← Submodule.map_comp, ← Submodule.map_comp]
    congr 1
  rw [hmap]
  exact LinearEquiv.finrank_map_eq (Submodule.Quotient.equiv _ _ (renameChain π) hBd) _

/-- The Betti numbers do not depend on the numbering of the points. -/
theorem ripsBetti_relabel {n : Nat} {d d' : Nat → Nat → W} (hs : ∀ i j, d i j = d j i)
    (hs' : ∀ i j, d' i j = d' j i) (σ : Equiv.Perm (Fin n))
    (h : ∀ i j : Fin n, d' (σ i) (σ j) = d i j) (k : Nat) (t : W) :
    ripsBetti n d' k t = ripsBetti n d k t := by
  have hlt : ∀ v (hv : v < n), (σ.extendDomain Fin.equivSubtype : Equiv.Perm Nat) v = (σ ⟨v, hv⟩ : Nat) := by
    intro v hv
    have := Equiv.Perm.extendDomain_apply_image σ (Fin.equivSubtype (n := n)) ⟨v, hv⟩
    exact this
  have hge : ∀ v, ¬ v < n → (σ.extendDomain Fin.equivSubtype : Equiv.Perm Nat) v = v := fun v hv =>
    Equiv.Perm.extendDomain_apply_not_subtype σ (Fin.equivSubtype (n := n)) hv
  refine ripsBetti_rename hs hs' (σ.extendDomain Fin.equivSubtype) (fun v => ?_)
    (fun i j hi hj => ?_) k t
  · by_cases hv : v < n
    · rw [hlt v hv]
      exact ⟨fun _ => hv, fun _ => (σ ⟨v, hv⟩).2⟩
    · rw [hge v hv]
  · rw [hlt i hi, hlt j hj]
    exact h ⟨i, hi⟩ ⟨j, hj⟩

end
end LHF
