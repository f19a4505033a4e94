import Verif.Spec.Oldest
import Verif.Props.Persistence
import Verif.Lemmas.Persist

/-! The pairs are determined by the filtration: column `q` is paired with row `p` if `p` becomes the
smallest entry of a combination of the columns with column `q`. -/

namespace LHF
open Spec

section
variable {W : Type} [LinearOrder W]

/-- The combinations of the first `j` columns. -/
noncomputable def firstCols (edges : List (List (List Nat × W))) (k j : Nat) :
    Submodule (ZMod 2) (Nat → ZMod 2) :=
  spanL (ZMod 2) (((edges.getD (k + 1) []).take j).map
    (fun c => ind (colOf (edges.getD k []) (negatives edges k) c.1)))

/-- `p` is the smallest entry of `x`. -/
def LeadsAt (x : Nat → ZMod 2) (p : Nat) : Prop := x p ≠ 0 ∧ ∀ i < p, x i = 0

theorem LeadsAt.unique {x : Nat → ZMod 2} {p q : Nat} (h : LeadsAt x p) (h' : LeadsAt x q) : p = q := by
  rcases Nat.lt_trichotomy p q with hpq | hpq | hpq
  · exact absurd (h'.2 p hpq) h.1
  · exact hpq
  · exact absurd (h.2 q hpq) h'.1

theorem firstCols_eq {edges : List (List (List Nat × W))} (hF : FilteredComplex edges) (k j : Nat) :
    firstCols edges k j = ((chains (((edges.getD (k + 1) []).take j).map Prod.fst)).map boundary).map
      (coords (edges.getD k []) (negatives edges k)) := by
  rw [map_boundary_chains]
  unfold firstCols spanL
  rw [Submodule.map_span]
  congr 1
  ext y
  simp only [bvecs, Set.mem_ofPred_eq, List.mem_map, Set.mem_image]
  constructor
  · rintro ⟨c, hc, rfl⟩
    have hs := layer_shape hF (k + 1) c (List.mem_of_mem_take hc)
    exact ⟨_, ⟨_, ⟨c, hc, rfl⟩, rfl⟩, coords_boundary (layer_shape hF k) hs.1 hs.2⟩
  · rintro ⟨_, ⟨_, ⟨c, hc, rfl⟩, rfl⟩, rfl⟩
    have hs := layer_shape hF (k + 1) c (List.mem_of_mem_take hc)
    exact ⟨c, hc, (coords_boundary (layer_shape hF k) hs.1 hs.2).symm⟩

theorem oldest_iff (edges : List (List (List Nat × W))) (k : Nat) (c : Chain) (p : Nat) :
    LeadsAt (coords (edges.getD k []) (negatives edges k) c) p ↔ OldestPositive edges k c p := by
  have hval : ∀ i e, (edges.getD k [])[i]? = some e → ¬ Negative edges k i →
      coords (edges.getD k []) (negatives edges k) c i = c e.1 := by
    intro i e he hn
    simp only [coords, LinearMap.coe_mk, AddHom.coe_mk]
    rw [if_pos ⟨(List.getElem?_eq_some_iff.1 he).1, fun h => hn (mem_negatives.1 h)⟩,
      List.getD_eq_getElem?_getD, List.getElem?_map, he]
    rfl
  have hzero : ∀ i, coords (edges.getD k []) (negatives edges k) c i ≠ 0 →
      ¬ Negative edges k i ∧ ∃ e, (edges.getD k [])[i]? = some e := by
    intro i hi
    simp only [coords, LinearMap.coe_mk, AddHom.coe_mk] at hi
    split_ifs at hi with h
    · exact ⟨fun hn => h.2 (mem_negatives.2 hn), _, List.getElem?_eq_getElem h.1⟩
    · exact absurd rfl hi
  constructor
  · rintro ⟨h1, h2⟩
    obtain ⟨hn, e, he⟩ := hzero p h1
    refine ⟨hn, ⟨e, he, by rwa [← hval p e he hn]⟩, fun i e' hi hn' he' => ?_⟩
    rw [← hval i e' he' hn']
    exact h2 i hi
  · rintro ⟨hn, ⟨e, he, hne⟩, h⟩
    refine ⟨by rwa [hval p e he hn], fun i hi => ?_⟩
    by_contra hc
    obtain ⟨hn', e', he'⟩ := hzero i hc
    exact hc ((hval i e' he' hn').trans (h i e' hi hn' he'))

theorem closes_iff {edges : List (List (List Nat × W))} (hF : FilteredComplex edges) (k p j : Nat) :
    (∃ x ∈ firstCols edges k j, LeadsAt x p) ↔
    ∃ c ∈ chains (((edges.getD (k + 1) []).take j).map Prod.fst), OldestPositive edges k (boundary c) p := by
  rw [firstCols_eq hF]
  constructor
  · rintro ⟨_, ⟨_, ⟨c, hc, rfl⟩, rfl⟩, h⟩
    exact ⟨c, hc, (oldest_iff edges k _ p).1 h⟩
  · rintro ⟨c, hc, h⟩
    exact ⟨_, ⟨_, ⟨c, hc, rfl⟩, rfl⟩, (oldest_iff edges k _ p).2 h⟩

theorem firstCols_mono (edges : List (List (List Nat × W))) (k : Nat) {i j : Nat} (h : i ≤ j) :
    firstCols edges k i ≤ firstCols edges k j := by
  unfold firstCols spanL
  apply Submodule.span_mono
  intro x hx
  simp only [Set.mem_ofPred_eq, List.mem_map] at hx ⊢
  obtain ⟨c, hc, rfl⟩ := hx
  exact ⟨c, (List.take_prefix_take_left (l := edges.getD (k + 1) []) h).subset hc, rfl⟩

/-- As many pairs as the rank of the columns. -/
theorem firstCols_rank {edges : List (List (List Nat × W))} (hF : FilteredComplex edges) {k : Nat}
    {pairs : List (Nat × Nat)} (hp : Pairing edges k pairs) (hk : k + 1 < edges.length) {j : Nat}
    (hj : j ≤ (edges.getD (k + 1) []).length) :
    Module.finrank (ZMod 2) (firstCols edges k j) = (pairs.filter (fun pj => pj.2 < j)).length := by
  have g1 := getD_layer (edges := edges) (k := k) (by omega)
  have g2 := getD_layer hk
  have hind : indep (ZMod 2) ((edges.getD (k + 1) []).map (fun c =>
      ind (colOf (edges.getD k []) (negatives edges k) c.1))) = negatives edges (k + 1) := by
    apply indep_cleared (d := k) (fun r hr => (hF.layer g1).1 r hr) (hF.layer g1).2.1
      (fun r hr => (hF.layer g2).1 r hr)
    intro c hc s hs hl
    obtain ⟨w, hw, -⟩ := hF.facet g1 g2 hc hs hl
    exact List.mem_map.2 ⟨_, hw, rfl⟩
  unfold firstCols
  rw [List.map_take, ← indep_length, indep_take _ _ (by simpa using hj), hind, ← hp.columns,
    List.filter_map, List.length_map]
  rfl

/-- The row of a pair is the smallest entry of a combination of the columns up to that of the pair. -/
theorem pair_leads {edges : List (List (List Nat × W))} (hF : FilteredComplex edges) {k : Nat}
    {pairs : List (Nat × Nat)} (hp : Pairing edges k pairs) (hk : k + 1 < edges.length)
    {p q : Nat} (hpq : (p, q) ∈ pairs) : ∃ x ∈ firstCols edges k (q + 1), LeadsAt x p := by
  obtain ⟨row, col, hr, hc, -⟩ := hp.births _ hpq
  have hq : q + 1 ≤ (edges.getD (k + 1) []).length := (List.getElem?_eq_some_iff.1 hc).1
  have hrank := firstCols_rank hF hp hk hq
  by_contra hno
  push Not at hno
  set R : Finset Nat := ((pairs.filter (fun pj => pj.2 < q + 1)).map Prod.fst).toFinset with hR
  have hcard : R.card = (pairs.filter (fun pj => pj.2 < q + 1)).length := by
    rw [hR, List.toFinset_card_of_nodup, List.length_map]
    exact hp.rows_nodup.sublist (List.filter_sublist.map _)
  have hpR : p ∈ R := by
    rw [hR, List.mem_toFinset, List.mem_map]
    exact ⟨(p, q), List.mem_filter.2 ⟨hpq, by simp⟩, rfl⟩
  let φ : ↥(firstCols edges k (q + 1)) →ₗ[ZMod 2] (↥(R.erase p) → ZMod 2) :=
    (LinearMap.funLeft (ZMod 2) (ZMod 2) (fun r : ↥(R.erase p) => (r : Nat))).comp (Submodule.subtype _)
  have hinj : Function.Injective φ := by
    rw [← LinearMap.ker_eq_bot, LinearMap.ker_eq_bot']
    rintro ⟨x, hx⟩ h0
    by_contra hne
    have hx0 : x ≠ 0 := fun h => hne (by simp [h])
    obtain ⟨pj, hpj, h1, h2, h3⟩ := hp.leads (q + 1) hq x hx hx0
    have hne' : pj.1 ≠ p := by
      intro h
      exact hno x hx (by rw [← h]; exact ⟨h2, h3⟩)
    apply h2
    have hr : pj.1 ∈ R.erase p := by
      rw [Finset.mem_erase, hR, List.mem_toFinset, List.mem_map]
      exact ⟨hne', pj, List.mem_filter.2 ⟨hpj, by simpa using h1⟩, rfl⟩
    exact congrFun h0 ⟨pj.1, hr⟩
  have h1 := LinearMap.finrank_le_finrank_of_injective hinj
  rw [Module.finrank_fintype_fun_eq_card, Fintype.card_coe, Finset.card_erase_of_mem hpR, hrank,
    ← hcard] at h1
  have := Finset.card_pos.2 ⟨p, hpR⟩
  omega

/-- The pairs are those of a simplex and the simplex that closes it. -/
theorem pairs_exact {edges : List (List (List Nat × W))} (hF : FilteredComplex edges) {k : Nat}
    {pairs : List (Nat × Nat)} (hp : Pairing edges k pairs) (p q : Nat) :
    (p, q) ∈ pairs ↔ ClosesOldest edges k p q := by
  have hcl : ClosesOldest edges k p q ↔ q < (edges.getD (k + 1) []).length ∧
      (∃ x ∈ firstCols edges k (q + 1), LeadsAt x p) ∧ ¬ ∃ x ∈ firstCols edges k q, LeadsAt x p := by
    rw [closes_iff hF, closes_iff hF]
    rfl
  rw [hcl]
  have hkk : q < (edges.getD (k + 1) []).length → k + 1 < edges.length := by
    intro h
    by_contra hc
    rw [List.getD_eq_getElem?_getD, List.getElem?_eq_none (by omega)] at h
    simp at h
  have hlen : ∀ p q, (p, q) ∈ pairs → q < (edges.getD (k + 1) []).length := by
    intro p q hpq
    obtain ⟨row, col, -, hc, -⟩ := hp.births _ hpq
    exact (List.getElem?_eq_some_iff.1 hc).1
  have huniq : ∀ p q q', (p, q) ∈ pairs → (p, q') ∈ pairs → q = q' := by
    intro p q q' h h'
    have := List.inj_on_of_nodup_map hp.rows_nodup h h' rfl
    exact congrArg Prod.snd this
  constructor
  · intro hpq
    refine ⟨hlen p q hpq, pair_leads hF hp (hkk (hlen p q hpq)) hpq, ?_⟩
    rintro ⟨x, hx, hl⟩
    obtain ⟨pj, hpj, h1, h2, h3⟩ := hp.leads q (hlen p q hpq).le x hx (by
      intro h; exact hl.1 (by rw [h]; rfl))
    have : pj.1 = p := LeadsAt.unique ⟨h2, h3⟩ hl
    have := huniq p q pj.2 hpq (by rw [← this]; exact hpj)
    omega
  · rintro ⟨hq, ⟨x, hx, hl⟩, hno⟩
    obtain ⟨pj, hpj, h1, h2, h3⟩ := hp.leads (q + 1) hq x hx (by
      intro h; exact hl.1 (by rw [h]; rfl))
    have hpe : pj.1 = p := LeadsAt.unique ⟨h2, h3⟩ hl
    have hmem : (p, pj.2) ∈ pairs := by rw [← hpe]; exact hpj
    by_cases hlt : pj.2 < q
    · exfalso
      obtain ⟨y, hy, hy'⟩ := pair_leads hF hp (hkk hq) hmem
      exact hno ⟨y, firstCols_mono edges k (by omega) hy, hy'⟩
    · have : pj.2 = q := by omega
      rwa [this] at hmem

end
end LHF
