import Verif.Lemmas.Cone

/-! A clique complex with few vertices has no homology in high dimensions: a cycle of `l` vertices per
simplex that is not a boundary needs at least `2 * l` points. -/

namespace LHF
open Spec

/-- The cliques of `l` vertices in `S`. -/
def CliqueIn (near : Nat → Nat → Prop) (S : Finset Nat) (l : Nat) (s : List Nat) : Prop :=
  s.length = l ∧ s.Pairwise (· < ·) ∧ (∀ v ∈ s, v ∈ S) ∧ ∀ i ∈ s, ∀ j ∈ s, i < j → near i j

section
variable {near : Nat → Nat → Prop}

theorem cliqueIn_mono {S T : Finset Nat} (h : S ⊆ T) (l : Nat) :
    chainsOn (CliqueIn near S l) ≤ chainsOn (CliqueIn near T l) :=
  chainsOn_le (fun _ hs => single_chainsOn ⟨hs.1, hs.2.1, fun v hv => h (hs.2.2.1 v hv), hs.2.2.2⟩)

/-- The smallest point put in front of simplices of points near it. -/
theorem cons_cliqueIn {S L : Finset Nat} {m : Nat} (hmS : m ∈ S) (hL : L ⊆ S) (hm : ∀ v ∈ L, m < v)
    (hn : ∀ v ∈ L, near m v) (l : Nat) :
    chainsOn (CliqueIn near L l) ≤ (chainsOn (CliqueIn near S (l + 1))).comap (consChain m) := by
  refine chainsOn_le (fun s hs => ?_)
  rw [Submodule.mem_comap, consChain_single]
  obtain ⟨h1, h2, h3, h4⟩ := hs
  refine single_chainsOn ⟨by simp [h1], List.pairwise_cons.2 ⟨fun v hv => hm v (h3 v hv), h2⟩, ?_, ?_⟩
  · intro v hv
    rcases List.mem_cons.1 hv with rfl | hv
    · exact hmS
    · exact hL (h3 v hv)
  · intro i hi j hj hij
    rcases List.mem_cons.1 hi with rfl | hi
    · rcases List.mem_cons.1 hj with rfl | hj
      · omega
      · exact hn j (h3 j hj)
    · rcases List.mem_cons.1 hj with h5 | hj
      · have := hm i (h3 i hi); omega
      · exact h4 i hi j hj hij

/-- Every cycle is a boundary if there are fewer than twice as many points as vertices in its
simplices. -/
theorem few_acyclic [∀ i j, Decidable (near i j)] : ∀ (c : Nat) (S : Finset Nat), S.card = c → ∀ l, c < 2 * l →
    ∀ z ∈ chainsOn (CliqueIn near S l), boundary z = 0 →
      ∃ w ∈ chainsOn (CliqueIn near S (l + 1)), boundary w = z := by
  intro c
  induction c using Nat.strong_induction_on with
  | _ c ih =>
  intro S hc l hl z hz hz0
  rcases S.eq_empty_or_nonempty with he | hne
  · subst he
    have : z ∈ (⊥ : Submodule (ZMod 2) Chain) := by
      refine chainsOn_le (S := ⊥) (fun s hs => ?_) hz
      exfalso
      obtain ⟨a, ha⟩ := List.exists_mem_of_ne_nil s (List.ne_nil_of_length_pos (by have := hs.1; omega))
      exact absurd (hs.2.2.1 a ha) (by simp)
    rw [Submodule.mem_bot] at this
    exact ⟨0, Submodule.zero_mem _, by rw [this, map_zero]⟩
  obtain ⟨l, rfl⟩ : ∃ l', l = l' + 1 := ⟨l - 1, by omega⟩
  set m := S.min' hne with hm
  have hmS : m ∈ S := S.min'_mem hne
  set R := S.erase m with hR
  have hRlt : ∀ v ∈ R, m < v := fun v hv => by
    obtain ⟨h1, h2⟩ := Finset.mem_erase.1 hv
    exact lt_of_le_of_ne (S.min'_le v h2) (Ne.symm h1)
  have hRS : R ⊆ S := Finset.erase_subset _ _
  have hRc : R.card = c - 1 := by rw [hR, Finset.card_erase_of_mem hmS, hc]
  have hpos : 0 < c := by rw [← hc]; exact Finset.card_pos.2 hne
  set L := R.filter (near m) with hL
  have hLR : L ⊆ R := Finset.filter_subset _ _
  have hLn : ∀ v ∈ L, near m v := fun v hv => (Finset.mem_filter.1 hv).2
  -- the simplices with `m` and those without
  have hsplit : chainsOn (CliqueIn near S (l + 1)) ≤
      (chainsOn (CliqueIn near L l)).map (consChain m) ⊔ chainsOn (CliqueIn near R (l + 1)) := by
    refine chainsOn_le (fun s hs => ?_)
    obtain ⟨h1, h2, h3, h4⟩ := hs
    cases s with
    | nil => simp at h1
    | cons v r =>
      have hp := List.pairwise_cons.1 h2
      by_cases hv : v = m
      · subst hv
        refine Submodule.mem_sup_left ⟨Finsupp.single r 1, single_chainsOn ⟨by simpa using h1, hp.2, ?_,
          fun i hi j hj => h4 i (by simp [hi]) j (by simp [hj])⟩, consChain_single _ _⟩
        intro u hu
        have hlt := hp.1 u hu
        exact Finset.mem_filter.2 ⟨Finset.mem_erase.2 ⟨by omega, h3 u (by simp [hu])⟩,
          h4 _ (by simp) u (by simp [hu]) hlt⟩
      · refine Submodule.mem_sup_right (single_chainsOn ⟨h1, h2, ?_, h4⟩)
        have hvm : m < v := hRlt v (Finset.mem_erase.2 ⟨hv, h3 v (by simp)⟩)
        intro u hu
        refine Finset.mem_erase.2 ⟨?_, h3 u hu⟩
        rcases List.mem_cons.1 hu with rfl | hu
        · omega
        · have := hp.1 u hu; omega
  obtain ⟨_, ⟨a, ha, rfl⟩, b, hb, hab⟩ := Submodule.mem_sup.1 (hsplit hz)
  have noHead : ∀ s : List Nat, (∀ v ∈ s, v ∈ R) → s.head? ≠ some m := by
    intro s hs h
    have := List.mem_of_mem_head? (by rw [h]; rfl : m ∈ s.head?)
    exact absurd (hRlt m (hs m this)) (lt_irrefl _)
  have strip0 : ∀ {P : List Nat → Prop} {x : Chain}, (∀ s, P s → s.head? ≠ some m) → x ∈ chainsOn P →
      stripChain m x = 0 := by
    intro P x hP hx
    have : chainsOn P ≤ LinearMap.ker (stripChain m) := by
      refine chainsOn_le (fun s hs => ?_)
      rw [LinearMap.mem_ker, stripChain_single, if_neg (hP s hs)]
    exact this hx
  have e : a + consChain m (boundary a) + boundary b = 0 := by
    rw [← boundary_cons, ← map_add, hab]; exact hz0
  have hda : boundary a = 0 := by
    have e2 := congrArg (stripChain m) e
    rw [map_add, map_add, strip_cons, map_zero,
      strip0 (fun s hs => noHead s (fun v hv => hLR (hs.2.2.1 v hv))) ha] at e2
    have e3 : stripChain m (boundary b) = 0 := by
      have : chainsOn (CliqueIn near R (l + 1)) ≤ LinearMap.ker (stripChain m ∘ₗ boundary) := by
        refine chainsOn_le (fun s hs => ?_)
        rw [LinearMap.mem_ker, LinearMap.comp_apply, boundary_single]
        unfold boundaryOf
        rw [map_sum]
        refine Finset.sum_eq_zero (fun i _ => ?_)
        rw [stripChain_single, if_neg]
        exact noHead _ (fun v hv => hs.2.2.1 v (List.mem_of_mem_eraseIdx hv))
      exact this hb
    rw [e3, zero_add, add_zero] at e2
    exact e2
  have hdb : boundary b = a := by
    rw [hda, map_zero, add_zero] at e
    have := chain_add_self a
    calc boundary b = (a + a) + boundary b := by rw [this, zero_add]
      _ = a + (a + boundary b) := by rw [add_assoc]
      _ = a := by rw [e, add_zero]
  by_cases hall : L = R
  · -- all points are near `m`
    refine ⟨consChain m b, cons_cliqueIn hmS hRS hRlt (fun v hv => hLn v (hall ▸ hv)) _ hb, ?_⟩
    rw [boundary_cons, hdb, ← hab, add_comm]
  · have hlt : L.card < R.card := Finset.card_lt_card (lt_of_le_of_ne hLR hall)
    obtain ⟨x, hx1, hx2⟩ := ih L.card (by omega) L rfl l (by omega) a ha hda
    have hxc : consChain m x ∈ chainsOn (CliqueIn near S (l + 1 + 1)) :=
      cons_cliqueIn hmS (hLR.trans hRS) (fun v hv => hRlt v (hLR hv)) hLn _ hx1
    have hbx : boundary (b + x) = 0 := by rw [map_add, hdb, hx2, chain_add_self]
    obtain ⟨y, hy1, hy2⟩ := ih R.card (by omega) R rfl (l + 1) (by omega) (b + x)
      (Submodule.add_mem _ hb (cliqueIn_mono hLR _ hx1)) hbx
    refine ⟨consChain m x + y, Submodule.add_mem _ hxc (cliqueIn_mono hRS _ hy1), ?_⟩
    rw [map_add, boundary_cons, hx2, hy2, ← hab]
    have := chain_add_self x
    calc x + consChain m a + (b + x) = (x + x) + (consChain m a + b) := by abel
      _ = _ := by rw [this, zero_add]

end

/-- No homology in dimension `k` with fewer than `2 * k + 2` points. -/
theorem ripsBetti_few {W : Type} [LinearOrder W] {n : Nat} {d : Nat → Nat → W} {t : W} {k : Nat}
    (hk : n < 2 * k + 2) : ripsBetti n d k t = 0 := by
  have e : ∀ k, ripsChains n d k t = chainsOn (CliqueIn (fun i j => d i j ≤ t) (Finset.range n) (k + 1)) := by
    intro k
    unfold ripsChains chainsOn CliqueIn
    congr 1
    ext x
    constructor
    · rintro ⟨s, h1, h2, h3⟩
      exact ⟨s, ⟨h1, h2.2.1, fun v hv => Finset.mem_range.2 (h2.2.2.1 v hv), h2.2.2.2⟩, h3⟩
    · rintro ⟨s, ⟨h1, h2, h4, h5⟩, h3⟩
      exact ⟨s, h1, ⟨List.ne_nil_of_length_pos (by omega), h2, fun v hv => Finset.mem_range.1 (h4 v hv), h5⟩, h3⟩
  refine ripsBetti_eq_zero (fun z hz hz0 => ?_)
  rw [e] at hz ⊢
  exact few_acyclic n _ (Finset.card_range n) (k + 1) (by omega) z hz hz0

end LHF
