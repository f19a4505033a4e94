import Verif.Lemmas.BettiCurve

/-! The pairs of one dimension and the persistent Betti numbers. -/

namespace LHF
open Spec

section
variable {W : Type} [LinearOrder W]

theorem layer_shape {edges : List (List (List Nat × W))} (hF : FilteredComplex edges) (k : Nat) :
    ∀ e ∈ edges.getD k [], Inc e.1 ∧ e.1.length = k + 1 := by
  by_cases h : k < edges.length
  · exact (hF.layer (getD_layer h)).1
  · rw [List.getD_eq_getElem?_getD, List.getElem?_eq_none (by omega)]
    simp

theorem sublevel_sub (edges : List (List (List Nat × W))) (k : Nat) (t : W) :
    chains (sublevel edges k t) ≤ chains ((edges.getD k []).map Prod.fst) := by
  rw [chains_eq, chains_eq]
  apply Finsupp.supported_mono
  intro s hs
  simp only [sublevel, Set.mem_ofPred_eq, List.mem_map] at hs ⊢
  obtain ⟨e, he, rfl⟩ := hs
  exact ⟨e, (List.mem_filter.1 he).1, rfl⟩

/-- A cycle at `s` that is a boundary at `t` has a coordinate at the row of a pair born by `s` and
closed by `t`. -/
theorem lead_pair {edges : List (List (List Nat × W))} (hF : FilteredComplex edges) {k : Nat}
    {pairs : List (Nat × Nat)} (hp : Pairing edges k pairs) {s t : W} {z : Chain}
    (hz : z ∈ cycles edges k s ⊓ boundaries edges k t) (hz0 : z ≠ 0) :
    ∃ pj ∈ pairs, wLe edges k s pj.1 ∧ wLe edges (k + 1) t pj.2 ∧
      coords (edges.getD k []) (negatives edges k) z pj.1 ≠ 0 := by
  obtain ⟨⟨hz1, hz2⟩, hz3⟩ := hz
  obtain ⟨hsort, -⟩ := layer_sorted hF (k + 1)
  obtain ⟨-, hnd⟩ := layer_sorted hF k
  obtain ⟨f1, f2⟩ := filter_le_take hsort t
  set rows := edges.getD k [] with hrows
  set cols := edges.getD (k + 1) [] with hcols
  set j := (cols.filter (fun e => decide (e.2 ≤ t))).length with hj
  have hx0 : coords rows (negatives edges k) z ≠ 0 := fun h =>
    hz0 (coords_cycle hnd (sublevel_sub edges k s hz1) hz2 h)
  have hmem : coords rows (negatives edges k) z ∈ spanL (ZMod 2) ((cols.take j).map
      (fun c => ind (colOf rows (negatives edges k) c.1))) := by
    have h1 : z ∈ (chains (sublevel edges (k + 1) t)).map boundary := hz3
    rw [map_boundary_chains] at h1
    have h2 : (spanL (ZMod 2) (bvecs (sublevel edges (k + 1) t))).map
        (coords rows (negatives edges k)) ≤ spanL (ZMod 2) ((cols.take j).map
      (fun c => ind (colOf rows (negatives edges k) c.1))) := by
      unfold spanL
      rw [Submodule.map_span, Submodule.span_le]
      rintro y ⟨b, hb, rfl⟩
      simp only [bvecs, sublevel, Set.mem_ofPred_eq, List.mem_map] at hb
      obtain ⟨c, ⟨e, he, rfl⟩, rfl⟩ := hb
      apply Submodule.subset_span
      have hec := layer_shape hF (k + 1) e (List.mem_filter.1 he).1
      rw [coords_boundary (layer_shape hF k) hec.1 hec.2]
      rw [f1] at he
      exact List.mem_map_of_mem (f := fun c : List Nat × W =>
        ind (colOf rows (negatives edges k) c.1)) he
    exact h2 (Submodule.mem_map_of_mem h1)
  obtain ⟨pj, hpj, h1, h2, -⟩ := hp.leads j (List.length_filter_le _ _) _ hmem hx0
  obtain ⟨row, col, hr, hc, -⟩ := hp.births pj hpj
  refine ⟨pj, hpj, ⟨row, hr, ?_⟩, ⟨col, hc, (f2 _ _ hc).1 h1⟩, h2⟩
  simp only [coords, LinearMap.coe_mk, AddHom.coe_mk] at h2
  split_ifs at h2 with h3
  · have hg : (rows.map Prod.fst).getD pj.1 [] = row.1 := by
      rw [List.getD_eq_getElem?_getD, List.getElem?_map, hr]; rfl
    rw [hg] at h2
    have h4 : z ∈ chains (sublevel edges k s) := hz1
    rw [chains_eq, Finsupp.mem_supported] at h4
    have h5 := h4 (Finsupp.mem_support_iff.2 h2)
    simp only [sublevel, Set.mem_ofPred_eq, List.mem_map] at h5
    obtain ⟨e, he, hee⟩ := h5
    rw [List.mem_filter, decide_eq_true_eq] at he
    have := snd_unique hnd he.1 (List.mem_of_getElem? hr) hee
    rw [← this]
    exact he.2
  · exact absurd rfl h2

open Classical in
/-- The dimension of the cycles at `s` that are boundaries at `t` is at most the number of pairs born
by `s` and closed by `t`. -/
theorem closed_le {edges : List (List (List Nat × W))} (hF : FilteredComplex edges) {k : Nat}
    {pairs : List (Nat × Nat)} (hp : Pairing edges k pairs) (s t : W) :
    Module.finrank (ZMod 2) ↥(cycles edges k s ⊓ boundaries edges k t) ≤
      (pairs.filter (fun pj => decide (wLe edges k s pj.1 ∧ wLe edges (k + 1) t pj.2))).length := by
  set R : Finset Nat := ((pairs.filter (fun pj => decide (wLe edges k s pj.1 ∧
    wLe edges (k + 1) t pj.2))).map Prod.fst).toFinset with hR
  let φ : ↥(cycles edges k s ⊓ boundaries edges k t) →ₗ[ZMod 2] (R → ZMod 2) :=
    (LinearMap.funLeft (ZMod 2) (ZMod 2) (fun r : R => (r : Nat))).comp
      ((coords (edges.getD k []) (negatives edges k)).comp (Submodule.subtype _))
  have hinj : Function.Injective φ := by
    rw [← LinearMap.ker_eq_bot, LinearMap.ker_eq_bot']
    rintro ⟨z, hz⟩ h0
    by_contra hne
    have hz0 : z ≠ 0 := fun h => hne (by simp [h])
    obtain ⟨pj, hpj, h1, h2, h3⟩ := lead_pair hF hp hz hz0
    apply h3
    have hr : pj.1 ∈ R := by
      rw [hR, List.mem_toFinset, List.mem_map]
      exact ⟨pj, List.mem_filter.2 ⟨hpj, by simpa using ⟨h1, h2⟩⟩, rfl⟩
    exact congrFun h0 ⟨pj.1, hr⟩
  have h1 := LinearMap.finrank_le_finrank_of_injective hinj
  rw [Module.finrank_fintype_fun_eq_card, Fintype.card_coe] at h1
  refine h1.trans ((List.toFinset_card_le _).trans ?_)
  rw [List.length_map]

open Classical in
/-- The pairs born by `s` and not closed by `t`, and the unpaired positions born by `s`, are at most as
many as the persistent Betti number. -/
theorem covering_le {edges : List (List (List Nat × W))} (hF : FilteredComplex edges) {k : Nat}
    {pairs : List (Nat × Nat)} (hp : Pairing edges k pairs) {s t : W} (hst : s ≤ t) :
    covering (pairs.filterMap (lineOf k (edges.getD k []) (edges.getD (k + 1) []))) k s t +
      countLe edges k s ((List.range (edges.getD k []).length).filter (fun i =>
        i ∉ negatives edges k ∧ i ∉ pairs.map Prod.fst)) ≤ persistentBetti edges k s t := by
  have h1 := covering_pairs hp hst
  have h2 := pairs_split edges k s t pairs
  have h3 := positions_split hp s
  have h4 := closed_le hF hp s t
  have h5 := rank_nullity (boundaries edges k t).mkQ (cycles edges k s)
  rw [Submodule.ker_mkQ] at h5
  have hnd : (sublevel edges k s).Nodup := by
    unfold sublevel
    exact (layer_sorted hF k).2.sublist (List.filter_sublist.map _)
  have h6 := cycles_add_rank hnd
  rw [rank_sublevel hF, length_sublevel hF] at h6
  have h7 : Module.finrank (ZMod 2) (cycles edges k s) = Module.finrank (ZMod 2)
    ↥(chains (sublevel edges k s) ⊓ LinearMap.ker boundary) := rfl
  unfold persistentBetti
  omega

end
end LHF
