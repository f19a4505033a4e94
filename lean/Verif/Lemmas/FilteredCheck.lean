import Verif.Spec.Filtered
import Mathlib.Data.List.Sublists

/-! A test that establishes `FilteredComplex` for concrete complexes. -/

namespace LHF
open Spec

/-- Layer `k` of `edges` is a correct layer over layer `k - 1`. -/
def layerOk {W : Type} [LinearOrder W] (edges : List (List (List Nat × W))) (k : Nat) : Prop :=
  (∀ e ∈ edges.getD k [], e.1.Pairwise (· < ·) ∧ e.1.length = k + 1) ∧
  ((edges.getD k []).map Prod.fst).Nodup ∧
  (edges.getD k []).Pairwise (fun a b => a.2 ≤ b.2) ∧
  (1 ≤ k → ∀ e ∈ edges.getD k [], ∀ s ∈ e.1.sublists, s.length = k →
    ∃ e' ∈ edges.getD (k - 1) [], e'.1 = s ∧ e'.2 ≤ e.2)

instance {W : Type} [LinearOrder W] (edges : List (List (List Nat × W))) (k : Nat) :
    Decidable (layerOk edges k) := by
  unfold layerOk; infer_instance

theorem filtered_of_check {W : Type} [LinearOrder W] {edges : List (List (List Nat × W))}
    (h : ∀ k < edges.length, layerOk edges k) : FilteredComplex edges := by
  have hg : ∀ {k : Nat} {l : List (List Nat × W)}, edges[k]? = some l →
      layerOk edges k ∧ edges.getD k [] = l := by
    intro k l hl
    refine ⟨h k (List.getElem?_eq_some_iff.1 hl).1, ?_⟩
    rw [List.getD_eq_getElem?_getD, hl]; rfl
  refine ⟨?_, ?_, ?_, ?_⟩
  · intro k l hl
    obtain ⟨h1, h2⟩ := hg hl
    rw [← h2]; exact h1.1
  · intro l hl
    obtain ⟨k, hk⟩ := List.mem_iff_getElem?.1 hl
    obtain ⟨h1, h2⟩ := hg hk
    rw [← h2]; exact h1.2.1
  · intro l hl
    obtain ⟨k, hk⟩ := List.mem_iff_getElem?.1 hl
    obtain ⟨h1, h2⟩ := hg hk
    rw [← h2]; exact h1.2.2.1
  · intro k l hl e he s hs hlen
    obtain ⟨h1, h2⟩ := hg hl
    obtain ⟨e', h3, h4, h5⟩ := h1.2.2.2 (by omega) e (by rw [h2]; exact he) s
      (List.mem_sublists.2 hs) hlen
    have hk : k < edges.length := by have := (List.getElem?_eq_some_iff.1 hl).1; omega
    refine ⟨edges[k], e'.2, List.getElem?_eq_getElem hk, ?_, h5⟩
    rw [← h4]
    have : edges.getD (k + 1 - 1) [] = edges[k] := by simp [hk]
    rw [this] at h3
    exact h3

end LHF
