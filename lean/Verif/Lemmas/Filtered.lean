import Verif.Spec.Filtered
import Verif.Spec.Rips
import Verif.Lemmas.Rips
import Verif.Props.ArrayComplex
import Verif.Props.TreeComplex

/-! What the two complexes hand to the persistence stage is a filtered complex. -/

namespace LHF
open Spec

section
variable {W : Type} [LinearOrder W] [Zero W]

/-- Two layered lists agree up to the order within layers, and the first is sorted. -/
abbrev SortedLayers (out g : List (List (List Nat × W))) : Prop :=
  List.Forall₂ (fun out layer => out.Perm layer ∧ out.Pairwise (fun a b => a.2 ≤ b.2)) out g

omit [Zero W] in
theorem sortedLayers_get {out g : List (List (List Nat × W))} (h : SortedLayers out g) (k : Nat) :
    (∀ l, out[k]? = some l → ∃ l', g[k]? = some l' ∧ l.Perm l') ∧
    (∀ l, g[k]? = some l → ∃ l', out[k]? = some l' ∧ l'.Perm l) := by
  induction h generalizing k with
  | nil => simp
  | cons h t ih =>
    cases k with
    | zero => simpa using h.1
    | succ k => simpa using ih k

theorem filtered_of_rips {g out : List (List (List Nat × W))} {n D : Nat} {d : Nat → Nat → W}
    {near : Nat → Nat → Prop} (h : StoresRips g n d near D) (ho : SortedLayers out g) :
    FilteredComplex out := by
  have hlen : ∀ {k l}, g[k]? = some l → k ≤ D := by
    intro k l hk
    have := (List.getElem?_eq_some_iff.1 hk).1
    have := h.only
    omega
  refine ⟨?_, ?_, ?_, ?_⟩
  · intro k l hl e he
    obtain ⟨l', h1, h2⟩ := (sortedLayers_get ho k).1 l hl
    have := (h.exact k e.1 e.2 (hlen h1)).1 ⟨l', h1, h2.mem_iff.1 he⟩
    exact ⟨this.2.1.2.1, this.1⟩
  · intro l hl
    obtain ⟨k, hk⟩ := List.mem_iff_getElem?.1 hl
    obtain ⟨l', h1, h2⟩ := (sortedLayers_get ho k).1 l hk
    exact (h2.map Prod.fst).nodup_iff.2 (h.once l' (List.mem_of_getElem? h1))
  · intro l hl
    clear hlen h
    induction ho with
    | nil => simp at hl
    | cons h t ih =>
      rw [List.mem_cons] at hl
      rcases hl with rfl | hl
      · exact h.2
      · exact ih hl
  · intro k l hl e he s hs hsl
    obtain ⟨l', h1, h2⟩ := (sortedLayers_get ho (k + 1)).1 l hl
    have hk := hlen h1
    have hx := (h.exact (k + 1) e.1 e.2 hk).1 ⟨l', h1, h2.mem_iff.1 he⟩
    obtain ⟨m, h3, h4⟩ := (h.exact k s (diam d s) (by omega)).2 ⟨hsl, by
      refine hx.2.1.sub ?_ ?_ hs.subset
      · intro h; rw [h] at hsl; simp at hsl
      · exact hx.2.1.2.1.sublist hs, rfl⟩
    obtain ⟨m', h5, h6⟩ := (sortedLayers_get ho k).2 m h3
    refine ⟨m', _, h5, h6.mem_iff.2 h4, ?_⟩
    rw [hx.2.2]
    exact diam_mono d hs.subset

/-- Empty layers of a stored Rips complex are trailing. -/
theorem rips_trailing {g : List (List (List Nat × W))} {n D : Nat} {d : Nat → Nat → W}
    {near : Nat → Nat → Prop} (h : StoresRips g n d near D) :
    ∃ m, g = g.filter (fun l => l ≠ []) ++ List.replicate m [] := by
  have hstep : ∀ k l, g[k]? = some [] → g[k + 1]? = some l → l = [] := by
    intro k l hk hl
    rw [List.eq_nil_iff_forall_not_mem]
    intro e he
    have hlt := (List.getElem?_eq_some_iff.1 hl).1
    have := h.only
    have hx := (h.exact (k + 1) e.1 e.2 (by omega)).1 ⟨l, hl, he⟩
    have hs := List.take_sublist (k + 1) e.1
    have hsl : (e.1.take (k + 1)).length = k + 1 := by rw [List.length_take]; omega
    obtain ⟨m, h3, h4⟩ := (h.exact k (e.1.take (k + 1)) (diam d (e.1.take (k + 1))) (by omega)).2
      ⟨hsl, by
      refine hx.2.1.sub ?_ ?_ hs.subset
      · intro h; rw [h] at hsl; simp at hsl
      · exact hx.2.1.2.1.sublist hs, rfl⟩
    rw [hk, Option.some.injEq] at h3
    rw [← h3] at h4
    simp at h4
  clear h
  induction g with
  | nil => exact ⟨0, rfl⟩
  | cons l g ih =>
    obtain ⟨m, hm⟩ := ih (fun k l hk hl => hstep (k + 1) l (by simpa using hk) (by simpa using hl))
    by_cases hl : l = []
    · subst hl
      have hall : ∀ (k : Nat) (l : List (List Nat × W)), g[k]? = some l → l = [] := by
        intro k
        induction k with
        | zero => intro l hl; exact hstep 0 l rfl (by simpa using hl)
        | succ k ihk =>
          intro l hl
          have hlt := (List.getElem?_eq_some_iff.1 hl).1
          have e : g[k]? = some [] := by
            rw [List.getElem?_eq_getElem (by omega)]
            rw [ihk _ (List.getElem?_eq_getElem (by omega))]
          exact hstep (k + 1) l (by simpa using e) (by simpa using hl)
      have hf : g.filter (fun l => decide (l ≠ [])) = [] := by
        rw [List.filter_eq_nil_iff]
        intro x hx
        obtain ⟨k, hk⟩ := List.mem_iff_getElem?.1 hx
        simpa using hall k x hk
      refine ⟨m + 1, ?_⟩
      rw [hf, List.nil_append] at hm
      rw [List.filter_cons_of_neg (by simp), hf, List.nil_append, List.replicate_succ, ← hm]
    · exact ⟨m, by rw [List.filter_cons_of_pos (by simpa using hl), List.cons_append, ← hm]⟩

theorem rips_nonempty {g : List (List (List Nat × W))} {n D : Nat} {d : Nat → Nat → W}
    {near : Nat → Nat → Prop} (h : StoresRips g n d near D) :
    StoresRips (g.filter (fun l => l ≠ [])) n d near D := by
  obtain ⟨m, hm⟩ := rips_trailing h
  refine ⟨?_, ?_, ?_⟩
  · intro k s w hk
    rw [← h.exact k s w hk]
    conv_rhs => rw [hm]
    constructor
    · rintro ⟨l, h1, h2⟩
      exact ⟨l, by rw [List.getElem?_append_left (List.getElem?_eq_some_iff.1 h1).1]; exact h1, h2⟩
    · rintro ⟨l, h1, h2⟩
      by_cases hlt : k < (g.filter (fun l => l ≠ [])).length
      · rw [List.getElem?_append_left hlt] at h1
        exact ⟨l, h1, h2⟩
      · rw [List.getElem?_append_right (by omega), List.getElem?_replicate] at h1
        split_ifs at h1
        cases h1
        simp at h2
  · intro l hl; exact h.once l (List.mem_of_mem_filter hl)
  · exact (List.length_filter_le _ _).trans h.only

theorem filtered_array {g : Graph W} {n D : Nat} {d : Nat → Nat → W}
    {near : Nat → Nat → Prop} (h : StoresRips g n d near D) (sort : SortBySecond (List Nat) W) :
    FilteredComplex (arrayGetAllEdges sort g) ∧
      SortedLayers (arrayGetAllEdges sort g) (g.filter (fun l => l ≠ [])) := by
  have hs := C20_array_filtration_order sort g (by
    intro l hl e he
    obtain ⟨k, hk⟩ := List.mem_iff_getElem?.1 hl
    have := (List.getElem?_eq_some_iff.1 hk).1
    have := h.only
    exact ((h.exact k e.1 e.2 (by omega)).1 ⟨l, hk, he⟩).2.1.2.1)
  exact ⟨filtered_of_rips (rips_nonempty h) hs, hs⟩

end
end LHF
