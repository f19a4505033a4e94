import Verif.Model.BoundaryPipe
import Verif.Props.Matrices
import Mathlib.LinearAlgebra.Matrix.Rank

/-! Rank and nullity of the boundary matrices of boundaryPipe. -/

namespace LHF
open Spec

/-- A matrix given by its entries. -/
def grid (m n : Nat) (f : Nat → Nat → Nat) : List (List Nat) :=
  (List.range m).map (fun i => (List.range n).map (fun j => f i j))

/-- The row rank of a list of rows is the rank of the matrix. -/
theorem rank_grid (m n : Nat) (f : Nat → Nat → Nat) :
    rank (grid m n f) = (Matrix.of (fun (i : Fin m) (j : Fin n) => ((f i j : Nat) : ZMod 2))).rank := by
  rw [Matrix.rank_eq_finrank_span_row]
  unfold rank
  let E : (Fin n → ZMod 2) →ₗ[ZMod 2] (Nat → ZMod 2) :=
    Function.ExtendByZero.linearMap (ZMod 2) (fun i : Fin n => (i : Nat))
  have hap : ∀ x c, E x c = Function.extend (fun i : Fin n => (i : Nat)) x 0 c := fun _ _ => rfl
  have hE : Function.Injective E := by
    intro x y h
    funext j
    have := congrFun h (j : Nat)
    rw [hap, hap] at this
    rw [Fin.val_injective.extend_apply, Fin.val_injective.extend_apply] at this
    exact this
  have hspan : spanOf ((grid m n f).map bits) = (Submodule.span (ZMod 2) (Set.range
      (Matrix.of (fun (i : Fin m) (j : Fin n) => ((f i j : Nat) : ZMod 2))).row)).map E := by
    rw [Submodule.map_span]
    unfold spanOf
    congr 1
    ext v
    have hrow : ∀ i : Fin m, E ((Matrix.of (fun (i : Fin m) (j : Fin n) =>
        ((f i j : Nat) : ZMod 2))).row i) = bits ((List.range n).map (fun j => f i j)) := by
      intro i
      funext c
      rw [hap]
      unfold bits
      by_cases hc : c < n
      · have e1 : (fun i : Fin n => (i : Nat)) ⟨c, hc⟩ = c := rfl
        have := Fin.val_injective.extend_apply (fun j : Fin n => ((f i j : Nat) : ZMod 2))
          (0 : Nat → ZMod 2) (⟨c, hc⟩ : Fin n)
        rw [List.getD_eq_getElem?_getD]
        simp only [List.getElem?_map, List.getElem?_range hc, Option.map_some, Option.getD_some]
        exact this
      · rw [Function.extend_apply' _ _ _ (by rintro ⟨a, ha⟩; have := a.2; omega),
          List.getD_eq_getElem?_getD, List.getElem?_eq_none (by simp; omega)]
        simp
    constructor
    · intro hv
      obtain ⟨r, hr, rfl⟩ := List.mem_map.1 hv
      obtain ⟨i, hi, rfl⟩ := List.mem_map.1 hr
      rw [List.mem_range] at hi
      exact ⟨_, ⟨⟨i, hi⟩, rfl⟩, hrow ⟨i, hi⟩⟩
    · rintro ⟨_, ⟨i, rfl⟩, rfl⟩
      rw [hrow i]
      exact List.mem_map.2 ⟨_, List.mem_map.2 ⟨i, List.mem_range.2 i.2, rfl⟩, rfl⟩
  rw [hspan]
  exact ((Submodule.equivMapOfInjective E hE _).finrank_eq).symm

/-- Row rank and column rank agree. -/
theorem rank_swap (m n : Nat) (f : Nat → Nat → Nat) :
    rank (grid m n f) = rank (grid n m (fun j i => f i j)) := by
  rw [rank_grid, rank_grid, ← Matrix.rank_transpose]
  rfl

theorem grid_of_lists {α β : Type} (l : List α) (l' : List β) (f : α → β → Nat) :
    l.map (fun a => l'.map (fun b => f a b)) = grid l.length l'.length (fun i j =>
      match l[i]?, l'[j]? with | some a, some b => f a b | _, _ => 0) := by
  unfold grid
  apply List.ext_getElem
  · simp
  · intro i h1 h2
    simp only [List.getElem_map, List.getElem_range]
    have hi : i < l.length := by simpa using h1
    apply List.ext_getElem
    · simp
    · intro j h3 h4
      have hj : j < l'.length := by simpa using h3
      simp [List.getElem?_eq_getElem hi, List.getElem?_eq_getElem hj]

/-- The face matrix of boundaryPipe is the transpose of the one of persistencePairs. -/
theorem rank_faces {faces simplices : List (List Nat)} {d : Nat}
    (hf : ∀ f ∈ faces, Inc f ∧ f.length = d + 1) (hs : ∀ s ∈ simplices, Inc s ∧ s.length = d + 2)
    (hnd : faces.Nodup) (hfac : ∀ c ∈ simplices, ∀ s : List Nat, s.Sublist c → s.length = d + 1 →
      s ∈ faces) :
    rank (faces.map (fun f => simplices.map (fun p => checkFaceV f p))) =
      Module.finrank (ZMod 2) ↥((chains simplices).map boundary) := by
  let rows : List (List Nat × Unit) := faces.map (fun f => (f, ()))
  let cols : List (List Nat × Unit) := simplices.map (fun f => (f, ()))
  have er : rows.map Prod.fst = faces := by simp only [rows, List.map_map]; exact List.map_id _
  have ec : cols.map Prod.fst = simplices := by simp only [cols, List.map_map]; exact List.map_id _
  have hr : ∀ r ∈ rows, Inc r.1 ∧ r.1.length = d + 1 := by
    intro r h
    obtain ⟨f, h1, rfl⟩ := List.mem_map.1 h
    exact hf f h1
  have hc : ∀ r ∈ cols, Inc r.1 ∧ r.1.length = d + 2 := by
    intro r h
    obtain ⟨f, h1, rfl⟩ := List.mem_map.1 h
    exact hs f h1
  have hi := boundaryRows_indep hr (by rw [er]; exact hnd) hc (by
    intro c h s h1 h2
    obtain ⟨f, h3, rfl⟩ := List.mem_map.1 h
    rw [er]
    exact hfac f h3 s h1 h2)
  have hrank : rank (boundaryRows rows cols) =
      Module.finrank (ZMod 2) ↥((chains simplices).map boundary) := by
    rw [map_boundary_chains, ← indep_length, ← ec, ← hi, indep_length]
    unfold rank
    rw [map_bits (boundaryRows_binary rows cols)]
    rfl
  rw [← hrank]
  have e1 : boundaryRows rows cols = simplices.map (fun p => faces.map (fun f => checkFaceV f p)) := by
    unfold boundaryRows
    simp only [rows, cols, List.map_map]
    apply List.map_congr_left
    intro p hp
    simp only [Function.comp_apply]
    apply List.map_congr_left
    intro f hff
    simp only [Function.comp_apply]
    have hp' := hs p hp
    have hf' := hf f hff
    have a := C32_checkFace_sets hf'.1 hp'.1 (by omega)
    have b := C32_checkFace_vectors hf'.1.nodup hp'.1.nodup (by omega)
    by_cases h : ∀ v ∈ f, v ∈ p
    · rw [a.1.2 h, b.1.2 h]
    · rw [a.2.2 h, b.2.2 h]
  rw [e1, grid_of_lists, grid_of_lists, rank_swap]
  congr 2
  funext j i
  rcases faces[i]? with _ | a <;> rcases simplices[j]? with _ | b <;> rfl

/-- Boundaries of simplices with all facets in `faces` are cycles on `faces`. -/
theorem boundaries_le_cycles {faces simplices : List (List Nat)} {d : Nat}
    (hs : ∀ s ∈ simplices, Inc s ∧ s.length = d + 2)
    (hfac : ∀ c ∈ simplices, ∀ s : List Nat, s.Sublist c → s.length = d + 1 → s ∈ faces) :
    (chains simplices).map boundary ≤ chains faces ⊓ LinearMap.ker boundary := by
  refine le_inf ?_ ?_
  · have := bvecs_chains (rows := faces.map (fun f => (f, ()))) (cols := simplices.map (fun f => (f, ())))
      (d := d)
    have er : ∀ l : List (List Nat), (l.map (fun f => (f, ()))).map Prod.fst = l := by
      intro l; rw [List.map_map]; exact List.map_id _
    rw [er, er] at this
    rw [map_boundary_chains]
    apply this
    · intro r h
      obtain ⟨f, h1, rfl⟩ := List.mem_map.1 h
      exact hs f h1
    · intro c h s h1 h2
      obtain ⟨f, h3, rfl⟩ := List.mem_map.1 h
      exact hfac f h3 s h1 h2
  · rintro _ ⟨x, -, rfl⟩
    exact boundary_boundary x

/-- The rows of a boundary matrix are linearly dependent. -/
theorem faces_dependent {faces simplices : List (List Nat)} {d : Nat}
    (hf : ∀ f ∈ faces, Inc f ∧ f.length = d + 1) (hs : ∀ s ∈ simplices, Inc s ∧ s.length = d + 2)
    (hnd : faces.Nodup) (hne : faces ≠ [])
    (hfac : ∀ c ∈ simplices, ∀ s : List Nat, s.Sublist c → s.length = d + 1 → s ∈ faces) :
    Module.finrank (ZMod 2) ↥((chains simplices).map boundary) < faces.length := by
  have h1 := Submodule.finrank_mono (boundaries_le_cycles hs hfac)
  have h2 := cycles_add_rank hnd
  have h3 : 0 < Module.finrank (ZMod 2) (spanL (ZMod 2) (bvecs faces)) := by
    rw [Module.finrank_pos_iff_exists_ne_zero]
    obtain ⟨f, hff⟩ := List.exists_mem_of_ne_nil _ hne
    refine ⟨⟨boundaryOf f, Submodule.subset_span (List.mem_map.2 ⟨f, hff, rfl⟩)⟩, ?_⟩
    intro h
    have h4 : boundaryOf f = 0 := congrArg Subtype.val h
    have ha := boundaryOf_apply (s := f) (f := f.eraseIdx 0) (hf f hff).1
    rw [if_pos ⟨0, by have := (hf f hff).2; omega, rfl⟩, h4] at ha
    simp at ha
  omega

/-- The dimension of a quotient of a subspace. -/
theorem finrank_quot_add {B Z : Submodule (ZMod 2) Chain} [FiniteDimensional (ZMod 2) Z] (h : B ≤ Z) :
    Module.finrank (ZMod 2) ↥(Z.map B.mkQ) + Module.finrank (ZMod 2) B =
      Module.finrank (ZMod 2) Z := by
  have := rank_nullity B.mkQ Z
  rw [Submodule.ker_mkQ, inf_eq_right.2 h] at this
  omega

end LHF
