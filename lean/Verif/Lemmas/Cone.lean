import Verif.Lemmas.Line
import Mathlib.Combinatorics.SimpleGraph.Connectivity.Connected

/-! The Rips complex at a scale at which one point is near all others. -/

namespace LHF
open Spec

section
variable {W : Type} [LinearOrder W]

/-- No homology where every cycle is a boundary. -/
theorem ripsBetti_eq_zero {n : Nat} {d : Nat → Nat → W} {t : W} {k : Nat}
    (h : ∀ z ∈ ripsChains n d k t, boundary z = 0 → ∃ w ∈ ripsChains n d (k + 1) t, boundary w = z) :
    ripsBetti n d k t = 0 := by
  have hle : ripsChains n d k t ⊓ LinearMap.ker boundary ≤ (ripsChains n d (k + 1) t).map boundary := by
    rintro z ⟨hz, hz0⟩
    obtain ⟨w, h1, h2⟩ := h z hz hz0
    exact ⟨w, h1, h2⟩
  unfold ripsBetti
  have : (ripsChains n d k t ⊓ LinearMap.ker boundary).map
      ((ripsChains n d (k + 1) t).map boundary).mkQ = ⊥ := by
    rw [← LinearMap.le_ker_iff_map, Submodule.ker_mkQ]
    exact hle
  rw [this]
  exact finrank_bot _ _

/-- The first point is near all others. -/
theorem ripsBetti_cone {n : Nat} {d : Nat → Nat → W} {t : W} (hn : 0 < n) (h : ∀ i, 0 < i → i < n → d 0 i ≤ t)
    (k : Nat) : ripsBetti n d k t = 0 := by
  refine ripsBetti_eq_zero (fun z hz hz0 => ⟨coneChain 0 z, ?_, ?_⟩)
  · have : ripsChains n d k t ≤ (ripsChains n d (k + 1) t).comap (coneChain 0) := by
      unfold ripsChains
      rw [Submodule.span_le]
      rintro _ ⟨s, h1, h2, rfl⟩
      rw [SetLike.mem_coe, Submodule.mem_comap, coneChain_single]
      split_ifs with h0
      · exact Submodule.zero_mem _
      · refine Submodule.subset_span ⟨0 :: s, by simp [h1], ⟨by simp, ?_, ?_, ?_⟩, rfl⟩
        · have hpos : ∀ v ∈ s, 0 < v := by
            intro v hv
            rcases Nat.eq_zero_or_pos v with h3 | h3
            · exfalso
              subst h3
              have hs := h2.2.1
              cases s with
              | nil => cases hv
              | cons a r =>
                rw [List.pairwise_cons] at hs
                rcases List.mem_cons.1 hv with h4 | h4
                · subst h4; exact h0 rfl
                · exact absurd (hs.1 0 h4) (by omega)
            · exact h3
          exact List.pairwise_cons.2 ⟨hpos, h2.2.1⟩
        · intro v hv
          rcases List.mem_cons.1 hv with rfl | hv
          · exact hn
          · exact h2.2.2.1 v hv
        · intro a ha b hb hab
          have hb' : b ∈ s := (List.mem_cons.1 hb).resolve_left (by omega)
          rcases List.mem_cons.1 ha with rfl | ha
          · exact h b hab (h2.2.2.1 b hb')
          · exact h2.2.2.2 a ha b hb' hab
    exact this hz
  · have hz' : z ∈ chainsOn (fun s => s.Pairwise (· < ·) ∧ ∀ v ∈ s, 0 ≤ v) := by
      refine (show ripsChains n d k t ≤ _ from ?_) hz
      unfold ripsChains
      rw [Submodule.span_le]
      rintro _ ⟨s, h1, h2, rfl⟩
      exact single_chainsOn ⟨h2.2.1, fun _ _ => Nat.zero_le _⟩
    have := cone_homotopy hz'
    rwa [hz0, map_zero, add_zero] at this

/-- One point is near all others. -/
theorem ripsBetti_star {n : Nat} {d : Nat → Nat → W} (hs : ∀ i j, d i j = d j i) {t : W} {p : Nat} (hp : p < n)
    (h : ∀ q, q < n → q ≠ p → d p q ≤ t) (k : Nat) : ripsBetti n d k t = 0 := by
  let σ : Equiv.Perm (Fin n) := Equiv.swap ⟨0, by omega⟩ ⟨p, hp⟩
  let e : Nat → Nat := fun i => if hi : i < n then (σ ⟨i, hi⟩ : Nat) else i
  have he : ∀ i : Fin n, e i = (σ i : Nat) := fun i => by simp [e]
  rw [ripsBetti_relabel (d := fun i j => d (e i) (e j)) (fun i j => hs _ _) hs σ
    (fun i j => by rw [he, he]) k t]
  have h0 : e 0 = p := by
    have := he ⟨0, by omega⟩
    dsimp only at this
    rw [this]
    simp [σ]
  refine ripsBetti_cone (by omega) (fun i hi hin => ?_) k
  rw [h0]
  refine h _ ?_ ?_
  · rw [he ⟨i, hin⟩]; exact (σ ⟨i, hin⟩).2
  · intro hc
    rw [he ⟨i, hin⟩] at hc
    have h1 : σ ⟨i, hin⟩ = σ ⟨0, by omega⟩ := by
      apply Fin.ext
      rw [hc]
      simp [σ]
    have := congrArg Fin.val (σ.injective h1)
    dsimp only at this
    omega

/-- All points are connected. -/
theorem components_star {n : Nat} {d : Nat → Nat → W} (hs : ∀ i j, d i j = d j i) {t : W} {p : Nat} (hp : p < n)
    (h : ∀ q, q < n → q ≠ p → d p q ≤ t) : components (scaleGraph n d t) = 1 := by
  have reach : ∀ v : Fin n, (scaleGraph n d t).Reachable ⟨p, hp⟩ v := by
    intro v
    by_cases hv : v = ⟨p, hp⟩
    · rw [hv]
    · have hv' : v.1 ≠ p := fun h => hv (Fin.ext h)
      refine SimpleGraph.Adj.reachable ?_
      rcases lt_or_gt_of_ne hv' with hlt | hlt
      · exact Or.inr ⟨hlt, by rw [hs]; exact h v v.2 hv'⟩
      · exact Or.inl ⟨hlt, h v v.2 hv'⟩
  unfold components
  rw [Nat.card_eq_one_iff_unique]
  refine ⟨⟨fun a b => ?_⟩, ⟨SimpleGraph.connectedComponentMk _ ⟨p, hp⟩⟩⟩
  refine SimpleGraph.ConnectedComponent.ind₂ (fun u v => ?_) a b
  rw [SimpleGraph.ConnectedComponent.eq]
  exact (reach u).symm.trans (reach v)

end
end LHF
