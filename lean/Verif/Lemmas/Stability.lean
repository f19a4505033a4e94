import Verif.Spec.RipsHomology
import Verif.Lemmas.Mst

/-! Connected components under maps of graphs, and sorted lists known by their counts. -/

namespace LHF
open Spec

theorem components_of_map {V V' : Type} [Finite V] {G : SimpleGraph V} {G' : SimpleGraph V'} (f : V → V')
    (hadj : ∀ x y, G.Adj x y → G'.Reachable (f x) (f y)) (hsurj : ∀ v', ∃ v, G'.Reachable (f v) v') :
    components G' ≤ components G := by
  have hreach : ∀ x y, G.Reachable x y → G'.Reachable (f x) (f y) := by
    rintro x y ⟨p⟩
    induction p with
    | nil => exact SimpleGraph.Reachable.refl _
    | cons h _ ih => exact (hadj _ _ h).trans ih
  unfold components
  let g : G.ConnectedComponent → G'.ConnectedComponent := fun c =>
    c.lift (fun v => G'.connectedComponentMk (f v))
      (fun v w p _ => SimpleGraph.ConnectedComponent.sound (hreach v w ⟨p⟩))
  apply Nat.card_le_card_of_surjective g
  intro c
  induction c using SimpleGraph.ConnectedComponent.ind with
  | h v =>
    obtain ⟨w, hw⟩ := hsurj v
    exact ⟨G.connectedComponentMk w, SimpleGraph.ConnectedComponent.sound hw⟩

/-- Disjoint union: no edge between the images of `f` and of `g`, which are everything. -/
theorem components_sum {A B V : Type} [Finite A] [Finite B] [Finite V] {G : SimpleGraph A} {H : SimpleGraph B}
    {K : SimpleGraph V} (e : A ⊕ B ≃ V) (hA : ∀ x y, K.Adj (e (.inl x)) (e (.inl y)) ↔ G.Adj x y)
    (hB : ∀ x y, K.Adj (e (.inr x)) (e (.inr y)) ↔ H.Adj x y)
    (hAB : ∀ x y, ¬ K.Adj (e (.inl x)) (e (.inr y))) :
    components K = components G + components H := by
  unfold components
  rw [← Nat.card_sum]
  have hK : ∀ u v, K.Reachable u v →
      ((e.symm u).map G.connectedComponentMk H.connectedComponentMk =
        (e.symm v).map G.connectedComponentMk H.connectedComponentMk) := by
    rintro u v ⟨p⟩
    induction p with
    | nil => rfl
    | @cons u v w h _ ih =>
      rw [← ih]
      obtain ⟨a, rfl⟩ := e.surjective u
      obtain ⟨b, rfl⟩ := e.surjective v
      rw [e.symm_apply_apply, e.symm_apply_apply]
      rcases a with a | a <;> rcases b with b | b
      · exact congrArg Sum.inl (SimpleGraph.ConnectedComponent.sound ((hA a b).1 h).reachable)
      · exact absurd h (hAB a b)
      · exact absurd h.symm (hAB b a)
      · exact congrArg Sum.inr (SimpleGraph.ConnectedComponent.sound ((hB a b).1 h).reachable)
  have hG : ∀ x y, G.Reachable x y → K.Reachable (e (.inl x)) (e (.inl y)) := by
    rintro x y ⟨p⟩
    induction p with
    | nil => exact SimpleGraph.Reachable.refl _
    | cons h _ ih => exact ((hA _ _).2 h).reachable.trans ih
  have hH : ∀ x y, H.Reachable x y → K.Reachable (e (.inr x)) (e (.inr y)) := by
    rintro x y ⟨p⟩
    induction p with
    | nil => exact SimpleGraph.Reachable.refl _
    | cons h _ ih => exact ((hB _ _).2 h).reachable.trans ih
  refine Nat.card_congr (Equiv.ofBijective (fun c : K.ConnectedComponent =>
    c.lift (fun v => (e.symm v).map G.connectedComponentMk H.connectedComponentMk)
      (fun v w p _ => hK v w ⟨p⟩)) ⟨?_, ?_⟩)
  · intro c c'
    induction c using SimpleGraph.ConnectedComponent.ind with
    | h u =>
    induction c' using SimpleGraph.ConnectedComponent.ind with
    | h v =>
    intro h
    have h : (e.symm u).map G.connectedComponentMk H.connectedComponentMk =
        (e.symm v).map G.connectedComponentMk H.connectedComponentMk := h
    obtain ⟨a, rfl⟩ := e.surjective u
    obtain ⟨b, rfl⟩ := e.surjective v
    rw [e.symm_apply_apply, e.symm_apply_apply] at h
    apply SimpleGraph.ConnectedComponent.sound
    rcases a with a | a <;> rcases b with b | b
    · simp only [Sum.map_inl, Sum.inl.injEq] at h
      exact hG a b (SimpleGraph.ConnectedComponent.exact h)
    · simp at h
    · simp at h
    · simp only [Sum.map_inr, Sum.inr.injEq] at h
      exact hH a b (SimpleGraph.ConnectedComponent.exact h)
  · rintro (c | c)
    · induction c using SimpleGraph.ConnectedComponent.ind with
      | h v => exact ⟨K.connectedComponentMk (e (.inl v)), by
          show (e.symm (e (.inl v))).map _ _ = _
          rw [e.symm_apply_apply]; rfl⟩
    · induction c using SimpleGraph.ConnectedComponent.ind with
      | h v => exact ⟨K.connectedComponentMk (e (.inr v)), by
          show (e.symm (e (.inr v))).map _ _ = _
          rw [e.symm_apply_apply]; rfl⟩

section
variable {W : Type} [LinearOrder W]

/-- In a sorted list the first elements are the ones up to a bound. -/
theorem sorted_get_le {l : List W} (hl : l.Pairwise (· ≤ ·)) (t : W) {i : Nat} (hi : i < l.length) :
    l[i] ≤ t ↔ i < (l.filter (fun w => w ≤ t)).length := by
  induction l generalizing i with
  | nil => simp at hi
  | cons a l ih =>
    obtain ⟨h1, h2⟩ := List.pairwise_cons.1 hl
    by_cases hat : a ≤ t
    · rw [List.filter_cons_of_pos (by simpa using hat), List.length_cons]
      cases i with
      | zero => simp [hat]
      | succ i =>
        rw [List.getElem_cons_succ, ih h2 (by simpa using hi)]
        omega
    · rw [List.filter_cons_of_neg (by simpa using hat)]
      have hnil : l.filter (fun w => decide (w ≤ t)) = [] := by
        rw [List.filter_eq_nil_iff]
        intro x hx
        simpa using lt_of_lt_of_le (not_le.1 hat) (h1 x hx)
      rw [hnil, List.length_nil]
      refine ⟨fun h => ?_, fun h => absurd h (by omega)⟩
      have : a ≤ (a :: l)[i] := by
        cases i with
        | zero => exact le_refl _
        | succ i => exact h1 _ (List.getElem_mem _)
      exact absurd (this.trans h) hat

variable [Zero W]

/-- `deaths` are the scales, in order and as far as they are in range, at which the components of `n` points
with distances `d` merge. -/
structure Spec.MergeTimes (n : Nat) (d : Nat → Nat → W) (inRange : W → Prop) (deaths : List W) : Prop where
  /-- in order -/
  sorted : deaths.Pairwise (· ≤ ·)
  /-- in range -/
  range : ∀ w ∈ deaths, 0 ≤ w ∧ inRange w
  /-- one for each component less -/
  count : ∀ t, 0 ≤ t → inRange t → components (scaleGraph n d t) + (deaths.filter (fun w => w ≤ t)).length = n

end

end LHF
