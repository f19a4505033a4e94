import Verif.Lemmas.FastSpec

/-! Counting: the pairs of one dimension and the Betti curve. -/

namespace LHF
open Spec

section
variable {W : Type} [LinearOrder W]

theorem filter_le_take {l : List (List Nat × W)} (h : l.Pairwise (fun a b => a.2 ≤ b.2)) (t : W) :
    l.filter (fun e => e.2 ≤ t) = l.take (l.filter (fun e => e.2 ≤ t)).length ∧
    ∀ i e, l[i]? = some e → (i < (l.filter (fun e => e.2 ≤ t)).length ↔ e.2 ≤ t) := by
  induction l with
  | nil => simp
  | cons a l ih =>
    rw [List.pairwise_cons] at h
    obtain ⟨h1, h2⟩ := ih h.2
    by_cases ha : a.2 ≤ t
    · rw [List.filter_cons_of_pos (by simpa using ha)]
      refine ⟨by rw [List.length_cons, List.take_succ_cons, ← h1], ?_⟩
      intro i e hi
      cases i with
      | zero =>
        rw [List.getElem?_cons_zero, Option.some.injEq] at hi
        subst hi
        simp [ha]
      | succ i =>
        rw [List.getElem?_cons_succ] at hi
        rw [List.length_cons, Nat.succ_lt_succ_iff]
        exact h2 i e hi
    · have hno : l.filter (fun e => decide (e.2 ≤ t)) = [] := by
        rw [List.filter_eq_nil_iff]
        intro e he
        have := h.1 e he
        simp only [decide_eq_true_eq]
        intro h'
        exact ha (this.trans h')
      rw [List.filter_cons_of_neg (by simpa using ha), hno]
      refine ⟨by simp, ?_⟩
      intro i e hi
      have he : e ∈ a :: l := List.mem_of_getElem? hi
      rw [List.mem_cons] at he
      have : ¬ e.2 ≤ t := by
        rcases he with rfl | he
        · exact ha
        · intro h'; exact ha ((h.1 e he).trans h')
      simp [this]

/-- Weight of position `i` of a layer is at most `t`. -/
def wLe (edges : List (List (List Nat × W))) (k : Nat) (t : W) (i : Nat) : Prop :=
  ∃ e, (edges.getD k [])[i]? = some e ∧ e.2 ≤ t

open Classical in
/-- Number of positions in `l` with weight at most `t`. -/
noncomputable def countLe (edges : List (List (List Nat × W))) (k : Nat) (t : W) (l : List Nat) :
    Nat :=
  (l.filter (fun i => decide (wLe edges k t i))).length

omit [LinearOrder W] in
theorem getD_layer {edges : List (List (List Nat × W))} {k : Nat} (h : k < edges.length) :
    edges[k]? = some (edges.getD k []) := by
  rw [List.getD_eq_getElem?_getD, List.getElem?_eq_getElem h]; rfl

theorem layer_sorted {edges : List (List (List Nat × W))} (hF : FilteredComplex edges) (k : Nat) :
    (edges.getD k []).Pairwise (fun a b => a.2 ≤ b.2) ∧
      ((edges.getD k []).map Prod.fst).Nodup := by
  by_cases h : k < edges.length
  · exact ⟨(hF.layer (getD_layer h)).2.2, (hF.layer (getD_layer h)).2.1⟩
  · rw [List.getD_eq_getElem?_getD, List.getElem?_eq_none (by omega)]
    simp

open Classical in
/-- The rank of the boundary at threshold `t`. -/
theorem rank_sublevel {edges : List (List (List Nat × W))} (hF : FilteredComplex edges) (k : Nat)
    (t : W) : Module.finrank (ZMod 2) (spanL (ZMod 2) (bvecs (sublevel edges k t))) =
      countLe edges k t (negatives edges k) := by
  obtain ⟨hs, -⟩ := layer_sorted hF k
  obtain ⟨h1, h2⟩ := filter_le_take hs t
  rw [← indep_length]
  have hle : (List.filter (fun e : List Nat × W => decide (e.2 ≤ t)) (edges.getD k [])).length ≤
      (edges.getD k []).length := List.length_filter_le _ _
  have e : bvecs (sublevel edges k t) = (bvecs ((edges.getD k []).map Prod.fst)).take
      ((edges.getD k []).filter (fun e => e.2 ≤ t)).length := by
    unfold sublevel bvecs
    rw [h1]
    rw [List.length_take, Nat.min_eq_left hle]
    simp [List.map_take]
  rw [e, indep_take _ _ (by simpa [bvecs] using hle)]
  unfold countLe negatives
  congr 1
  apply List.filter_congr
  intro i hi
  have hlt : i < (edges.getD k []).length := by simpa [bvecs] using indep_lt hi
  rw [decide_eq_decide, h2 i _ (List.getElem?_eq_getElem hlt)]
  unfold wLe
  constructor
  · intro h; exact ⟨_, List.getElem?_eq_getElem hlt, h⟩
  · rintro ⟨e, he, hw⟩
    rw [List.getElem?_eq_getElem hlt, Option.some.injEq] at he
    rw [he]; exact hw

open Classical in
theorem length_sublevel {edges : List (List (List Nat × W))} (hF : FilteredComplex edges) (k : Nat)
    (t : W) : (sublevel edges k t).length =
      countLe edges k t (List.range (edges.getD k []).length) := by
  obtain ⟨hs, -⟩ := layer_sorted hF k
  obtain ⟨-, h2⟩ := filter_le_take hs t
  have hle : (List.filter (fun e : List Nat × W => decide (e.2 ≤ t)) (edges.getD k [])).length ≤
      (edges.getD k []).length := List.length_filter_le _ _
  unfold sublevel countLe
  rw [List.length_map]
  have : (List.range (edges.getD k []).length).filter (fun i => decide (wLe edges k t i)) =
      List.range ((edges.getD k []).filter (fun e => e.2 ≤ t)).length := by
    apply Inc.ext (List.pairwise_lt_range.sublist List.filter_sublist) List.pairwise_lt_range
    intro i
    simp only [List.mem_filter, List.mem_range, decide_eq_true_eq]
    constructor
    · rintro ⟨hi, e, he, hw⟩
      exact (h2 i e he).2 hw
    · intro hi
      have hlt : i < (edges.getD k []).length := by omega
      exact ⟨hlt, _, List.getElem?_eq_getElem hlt, (h2 i _ (List.getElem?_eq_getElem hlt)).1 hi⟩
  rw [this, List.length_range]

theorem boundaries_le {edges : List (List (List Nat × W))} (hF : FilteredComplex edges) {k : Nat}
    {t : W} : boundaries edges k t ≤ cycles edges k t := by
  unfold boundaries cycles
  rw [Submodule.map_le_iff_le_comap]
  intro x hx
  rw [Submodule.mem_comap, Submodule.mem_inf, LinearMap.mem_ker]
  refine ⟨?_, boundary_boundary x⟩
  have hb : boundary x ∈ (chains (sublevel edges (k + 1) t)).map boundary :=
    Submodule.mem_map_of_mem hx
  rw [map_boundary_chains] at hb
  have hle : spanL (ZMod 2) (bvecs (sublevel edges (k + 1) t)) ≤ chains (sublevel edges k t) := by
    unfold spanL
    rw [Submodule.span_le]
    intro y hy
    simp only [bvecs, Set.mem_ofPred_eq, List.mem_map] at hy
    obtain ⟨s, hs, rfl⟩ := hy
    unfold sublevel at hs
    rw [List.mem_map] at hs
    obtain ⟨e, he, rfl⟩ := hs
    rw [List.mem_filter, decide_eq_true_eq] at he
    obtain ⟨he, hw⟩ := he
    by_cases hk : k + 1 < edges.length
    · have g2 := getD_layer hk
      have g1 := getD_layer (edges := edges) (k := k) (by omega)
      obtain ⟨-, hl⟩ := (hF.layer g2).1 e he
      unfold boundaryOf
      apply Submodule.sum_mem
      intro i hi
      rw [Finset.mem_range] at hi
      obtain ⟨w, hw1, hw2⟩ := hF.facet g1 g2 he (List.eraseIdx_sublist e.1 i)
        (by rw [List.length_eraseIdx_of_lt hi, hl]; omega)
      apply Submodule.subset_span
      refine ⟨_, ?_, rfl⟩
      unfold sublevel
      rw [List.mem_map]
      exact ⟨_, List.mem_filter.2 ⟨hw1, by simpa using hw2.trans hw⟩, rfl⟩
    · rw [List.getD_eq_getElem?_getD, List.getElem?_eq_none (by omega)] at he
      simp at he
  exact hle hb

instance (l : List (List Nat)) : FiniteDimensional (ZMod 2) (chains l) := by
  unfold chains
  apply FiniteDimensional.span_of_finite
  have : {x : Chain | ∃ s ∈ l, x = Finsupp.single s 1} =
      {x | x ∈ l.map (fun s => (Finsupp.single s 1 : Chain))} := by
    ext x
    simp only [Set.mem_ofPred_eq, List.mem_map]
    constructor
    · rintro ⟨s, h, rfl⟩; exact ⟨s, h, rfl⟩
    · rintro ⟨s, h, rfl⟩; exact ⟨s, h, rfl⟩
  rw [this]
  exact List.finite_toSet _

instance (edges : List (List (List Nat × W))) (k : Nat) (t : W) :
    FiniteDimensional (ZMod 2) (cycles edges k t) := by
  unfold cycles
  exact Submodule.finiteDimensional_inf_left _ _

/-- Betti number by counting: positive simplices minus negative simplices one dimension up. -/
theorem betti_count {edges : List (List (List Nat × W))} (hF : FilteredComplex edges) (k : Nat)
    (t : W) : betti edges k t + countLe edges (k + 1) t (negatives edges (k + 1)) +
      countLe edges k t (negatives edges k) =
      countLe edges k t (List.range (edges.getD k []).length) := by
  have h1 : Module.finrank (ZMod 2) (boundaries edges k t) =
      countLe edges (k + 1) t (negatives edges (k + 1)) := by
    unfold boundaries
    rw [map_boundary_chains, rank_sublevel hF]
  have h3 := rank_nullity (boundaries edges k t).mkQ (cycles edges k t)
  rw [Submodule.ker_mkQ, inf_eq_right.2 (boundaries_le hF), h1] at h3
  have hnd : (sublevel edges k t).Nodup := by
    unfold sublevel
    exact (layer_sorted hF k).2.sublist (List.filter_sublist.map _)
  have h4 := cycles_add_rank hnd
  rw [rank_sublevel hF, length_sublevel hF] at h4
  unfold betti persistentBetti
  have h5 : Module.finrank (ZMod 2) (cycles edges k t) = Module.finrank (ZMod 2)
    ↥(chains (sublevel edges k t) ⊓ LinearMap.ker boundary) := rfl
  omega

/-! ### Lines of one dimension -/

/-- Number of printed intervals of dimension `k` that contain `t`. -/
def alive (lines : List (Line W)) (k : Nat) (t : W) : Nat :=
  (lines.filter (fun l => l.1 = k ∧ l.2.1 ≤ t ∧ t < l.2.2)).length

theorem alive_append (a b : List (Line W)) (k : Nat) (t : W) :
    alive (a ++ b) k t = alive a k t + alive b k t := by
  simp [alive]

theorem alive_higher (edges : List (List (List Nat × W))) (n : Nat) (pr : Nat → List (Nat × Nat))
    (k : Nat) (t : W) : alive (higherLines edges n pr) k t =
      if 1 ≤ k ∧ k < 1 + n then alive ((pr k).filterMap
        (lineOf k (edges.getD k []) (edges.getD (k + 1) []))) k t else 0 := by
  have hdim : ∀ j, ∀ l ∈ (pr j).filterMap (lineOf j (edges.getD j []) (edges.getD (j + 1) [])),
      l.1 = j := by
    intro j l hl
    rw [List.mem_filterMap] at hl
    obtain ⟨pj, -, h⟩ := hl
    unfold lineOf at h
    split at h
    · split_ifs at h
      · cases h; rfl
    · cases h
  have hother : ∀ j, j ≠ k → alive ((pr j).filterMap
      (lineOf j (edges.getD j []) (edges.getD (j + 1) []))) k t = 0 := by
    intro j hj
    unfold alive
    rw [List.length_eq_zero_iff, List.filter_eq_nil_iff]
    intro l hl
    have := hdim j l hl
    simp only [decide_eq_true_eq]
    rintro ⟨h, -⟩
    omega
  unfold higherLines
  have gen : ∀ n d, alive ((List.range' d n).flatMap (fun k =>
      (pr k).filterMap (lineOf k (edges.getD k []) (edges.getD (k + 1) [])))) k t =
      if d ≤ k ∧ k < d + n then alive ((pr k).filterMap
        (lineOf k (edges.getD k []) (edges.getD (k + 1) []))) k t else 0 := by
    intro n
    induction n with
    | zero => intro d; rw [if_neg (by omega)]; rfl
    | succ n ih =>
      intro d
      rw [List.range'_succ, List.flatMap_cons, alive_append, ih]
      by_cases hd : d = k
      · subst hd
        rw [if_neg (by omega), if_pos (by omega), Nat.add_zero]
      · rw [hother d hd, Nat.zero_add]
        by_cases h : d + 1 ≤ k ∧ k < d + 1 + n
        · rw [if_pos h, if_pos (by omega)]
        · rw [if_neg h, if_neg (by omega)]
  exact gen n 1

/-- Number of printed intervals of dimension `k` that contain both `s` and `t`. -/
def covering (lines : List (Line W)) (k : Nat) (s t : W) : Nat :=
  (lines.filter (fun l => l.1 = k ∧ l.2.1 ≤ s ∧ t < l.2.2)).length

open Classical in
/-- The covering lines are the pairs with weights around `s` and `t`. -/
theorem covering_pairs {edges : List (List (List Nat × W))} {k : Nat}
    {pairs : List (Nat × Nat)} (hp : Pairing edges k pairs) {s t : W} (hst : s ≤ t) :
    covering (pairs.filterMap (lineOf k (edges.getD k []) (edges.getD (k + 1) []))) k s t =
      (pairs.filter (fun pj => decide (wLe edges k s pj.1 ∧ ¬ wLe edges (k + 1) t pj.2))).length := by
  have key : ∀ ps : List (Nat × Nat), (∀ pj ∈ ps, pj ∈ pairs) →
      covering (ps.filterMap (lineOf k (edges.getD k []) (edges.getD (k + 1) []))) k s t =
      (ps.filter (fun pj => decide (wLe edges k s pj.1 ∧ ¬ wLe edges (k + 1) t pj.2))).length := by
    intro ps
    induction ps with
    | nil => intro _; rfl
    | cons pj ps ih =>
      intro hps
      have ih := ih (fun q hq => hps q (by simp [hq]))
      obtain ⟨row, col, hr, hc, hw, -⟩ := hp.births pj (hps pj (by simp))
      have e1 : wLe edges k s pj.1 ↔ row.2 ≤ s := by
        unfold wLe
        rw [hr]
        constructor
        · rintro ⟨e, he, h⟩; cases he; exact h
        · intro h; exact ⟨row, rfl, h⟩
      have e2 : wLe edges (k + 1) t pj.2 ↔ col.2 ≤ t := by
        unfold wLe
        rw [hc]
        constructor
        · rintro ⟨e, he, h⟩; cases he; exact h
        · intro h; exact ⟨col, rfl, h⟩
      have e3 : lineOf k (edges.getD k []) (edges.getD (k + 1) []) pj =
          if row.2 ≠ col.2 then some (k, row.2, col.2) else none := by
        unfold lineOf; rw [hr, hc]
      rw [List.filterMap_cons, e3]
      by_cases hne : row.2 ≠ col.2
      · rw [if_pos hne]
        have : covering ((k, row.2, col.2) :: ps.filterMap
            (lineOf k (edges.getD k []) (edges.getD (k + 1) []))) k s t =
            (if row.2 ≤ s ∧ t < col.2 then 1 else 0) + covering (ps.filterMap
            (lineOf k (edges.getD k []) (edges.getD (k + 1) []))) k s t := by
          unfold covering
          rw [List.filter_cons]
          by_cases hh : row.2 ≤ s ∧ t < col.2
          · rw [if_pos (by simpa using hh), if_pos hh, List.length_cons, Nat.add_comm]
          · rw [if_neg (by simpa using hh), if_neg hh, Nat.zero_add]
        simp only [this, ih]
        rw [List.filter_cons]
        by_cases hh : row.2 ≤ s ∧ t < col.2
        · rw [if_pos hh, if_pos (by rw [e1, e2]; simpa using hh), List.length_cons, Nat.add_comm]
        · rw [if_neg hh, if_neg (by rw [e1, e2]; simpa using hh), Nat.zero_add]
      · rw [if_neg hne]
        simp only [ne_eq, not_not] at hne
        simp only [ih]
        rw [List.filter_cons, if_neg]
        rw [e1, e2, hne]
        simp only [decide_eq_true_eq, not_and, not_not]
        exact fun h => h.trans hst
  exact key pairs (fun _ h => h)

open Classical in
theorem pairs_split (edges : List (List (List Nat × W))) (k : Nat) (s t : W)
    (pairs : List (Nat × Nat)) :
    (pairs.filter (fun pj => decide (wLe edges k s pj.1))).length =
      (pairs.filter (fun pj => decide (wLe edges k s pj.1 ∧ ¬ wLe edges (k + 1) t pj.2))).length +
      (pairs.filter (fun pj => decide (wLe edges k s pj.1 ∧ wLe edges (k + 1) t pj.2))).length := by
  induction pairs with
  | nil => rfl
  | cons q ps ih =>
    rw [List.filter_cons, List.filter_cons, List.filter_cons]
    by_cases ha : wLe edges k s q.1 <;> by_cases hb : wLe edges (k + 1) t q.2 <;>
      simp only [ha, hb, true_and, false_and, not_true_eq_false, not_false_eq_true,
        decide_true, decide_false, if_true, if_false, List.length_cons, Bool.false_eq_true] <;>
      omega

open Classical in
/-- The positions split into negative, paired and the others. -/
theorem positions_split {edges : List (List (List Nat × W))} {k : Nat}
    {pairs : List (Nat × Nat)} (hp : Pairing edges k pairs) (t : W) :
    countLe edges k t (List.range (edges.getD k []).length) =
      countLe edges k t (negatives edges k) +
      (pairs.filter (fun pj => decide (wLe edges k t pj.1))).length +
      countLe edges k t ((List.range (edges.getD k []).length).filter (fun i =>
      i ∉ negatives edges k ∧ i ∉ pairs.map Prod.fst)) := by
  have hpn : (pairs.filter (fun pj => decide (wLe edges k t pj.1))).length =
      countLe edges k t (pairs.map Prod.fst) := by
    unfold countLe
    rw [List.filter_map, List.length_map]
    rfl
  rw [hpn]
  unfold countLe
  have c : ∀ l : List Nat, l.Nodup → (l.filter (fun i => decide (wLe edges k t i))).length =
      ((l.filter (fun i => decide (wLe edges k t i))).toFinset).card := by
    intro l hl
    rw [List.toFinset_card_of_nodup (hl.filter _)]
  have nd1 : (negatives edges k).Nodup := (negatives_inc edges k).nodup
  rw [c _ List.nodup_range, c _ nd1, c _ hp.rows_nodup, c _ (List.nodup_range.filter _)]
  rw [← Finset.card_union_of_disjoint, ← Finset.card_union_of_disjoint]
  · congr 1
    ext i
    simp only [List.mem_toFinset, List.mem_filter, List.mem_range, decide_eq_true_eq,
      Finset.mem_union]
    constructor
    · rintro ⟨hi, hw⟩
      by_cases a : i ∈ negatives edges k
      · exact Or.inl (Or.inl ⟨a, hw⟩)
      · by_cases b : i ∈ pairs.map Prod.fst
        · exact Or.inl (Or.inr ⟨b, hw⟩)
        · exact Or.inr ⟨⟨hi, a, b⟩, hw⟩
    · rintro ((⟨a, hw⟩ | ⟨a, hw⟩) | ⟨⟨hi, -⟩, hw⟩)
      · exact ⟨negatives_lt a, hw⟩
      · rw [List.mem_map] at a
        obtain ⟨pj, hpj, rfl⟩ := a
        obtain ⟨row, col, hr, -⟩ := hp.births pj hpj
        exact ⟨(List.getElem?_eq_some_iff.1 hr).1, hw⟩
      · exact ⟨hi, hw⟩
  · rw [Finset.disjoint_left]
    intro i hi hi'
    simp only [List.mem_toFinset, List.mem_filter, decide_eq_true_eq,
      Finset.mem_union] at hi hi'
    rcases hi with h | h
    · exact hi'.1.2.1 h.1
    · exact hi'.1.2.2 h.1
  · rw [Finset.disjoint_left]
    intro i hi hi'
    simp only [List.mem_toFinset, List.mem_filter, decide_eq_true_eq] at hi hi'
    have a := hi'.1
    rw [List.mem_map] at a
    obtain ⟨pj, hpj, rfl⟩ := a
    obtain ⟨-, -, -, -, -, h⟩ := hp.births pj hpj
    exact h hi.1

open Classical in
/-- The printed intervals of one dimension, plus the unpaired positive simplices, make up the Betti
number at every threshold. -/
theorem alive_pairs {edges : List (List (List Nat × W))} (hF : FilteredComplex edges) {k : Nat}
    {pairs : List (Nat × Nat)} (hp : Pairing edges k pairs) (t : W) :
    betti edges k t = alive (pairs.filterMap
        (lineOf k (edges.getD k []) (edges.getD (k + 1) []))) k t +
      countLe edges k t ((List.range (edges.getD k []).length).filter (fun i =>
        i ∉ negatives edges k ∧ i ∉ pairs.map Prod.fst)) := by
  have hb := betti_count hF k t
  have h1 : alive (pairs.filterMap (lineOf k (edges.getD k []) (edges.getD (k + 1) []))) k t =
      (pairs.filter (fun pj => decide (wLe edges k t pj.1 ∧ ¬ wLe edges (k + 1) t pj.2))).length :=
    covering_pairs hp (le_refl t)
  -- deaths up to t
  have h2 : countLe edges (k + 1) t (negatives edges (k + 1)) =
      (pairs.filter (fun pj => decide (wLe edges k t pj.1 ∧ wLe edges (k + 1) t pj.2))).length := by
    unfold countLe
    rw [← hp.columns, List.filter_map, List.length_map]
    congr 1
    apply List.filter_congr
    intro pj hpj
    obtain ⟨row, col, hr, hc, hw, -⟩ := hp.births pj hpj
    rw [Function.comp_apply, decide_eq_decide]
    constructor
    · rintro ⟨e, he, h⟩
      rw [hc, Option.some.injEq] at he
      subst he
      exact ⟨⟨row, hr, hw.trans h⟩, ⟨col, hc, h⟩⟩
    · exact fun h => h.2
  have h3 := pairs_split edges k t t pairs
  have h4 := positions_split hp t
  omega

end
end LHF
