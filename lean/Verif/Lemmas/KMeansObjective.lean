import Verif.Lemmas.KMeans
import Mathlib.Analysis.InnerProductSpace.Basic
import Mathlib.Algebra.BigOperators.Group.List.Lemmas
import Mathlib.Algebra.Order.BigOperators.Group.Finset
import Mathlib.Data.Set.Finite.List

/-! The k-means objective: it never increases, and the rounds reach a fixed point. -/

namespace LHF
open Spec

section Mean
variable {E : Type} [NormedAddCommGroup E] [InnerProductSpace ℝ E]

theorem sum_sq_dist_split (vs : List E) (m y : E) :
    (vs.map (fun v => dist v y ^ 2)).sum = (vs.map (fun v => dist v m ^ 2)).sum +
      2 * inner ℝ (vs.sum - (vs.length : ℝ) • m) (m - y) + (vs.length : ℝ) * dist m y ^ 2 := by
  induction vs with
  | nil => simp
  | cons v vs ih =>
    simp only [List.map_cons, List.sum_cons, ih, List.length_cons, Nat.cast_add, Nat.cast_one]
    have h1 : dist v y ^ 2 = dist v m ^ 2 + 2 * inner ℝ (v - m) (m - y) + dist m y ^ 2 := by
      rw [dist_eq_norm, dist_eq_norm, dist_eq_norm, show v - y = (v - m) + (m - y) by abel,
        norm_add_sq_real]
    have h2 : v + vs.sum - ((vs.length : ℝ) + 1) • m =
        (vs.sum - (vs.length : ℝ) • m) + (v - m) := by
      rw [add_smul, one_smul]; abel
    rw [h1, h2, inner_add_left]
    ring

/-- The mean minimises the sum of the squared distances. -/
theorem mean_minimises (vs : List E) (hvs : vs ≠ []) (y : E) :
    (vs.map (fun v => dist v ((vs.length : ℝ)⁻¹ • vs.sum) ^ 2)).sum ≤
      (vs.map (fun v => dist v y ^ 2)).sum := by
  have hn : (vs.length : ℝ) ≠ 0 := by
    simpa [List.length_eq_zero_iff] using hvs
  rw [sum_sq_dist_split vs ((vs.length : ℝ)⁻¹ • vs.sum) y, smul_smul, mul_inv_cancel₀ hn, one_smul,
    sub_self, inner_zero_left]
  have : 0 ≤ (vs.length : ℝ) * dist ((vs.length : ℝ)⁻¹ • vs.sum) y ^ 2 := by positivity
  linarith

end Mean

theorem sum_by_class {X : Type} (Z : List (X × Nat)) (K : Nat) (hZ : ∀ p ∈ Z, p.2 < K)
    (f : X × Nat → ℝ) :
    (Z.map f).sum = ∑ i ∈ Finset.range K, ((Z.filter (fun p => p.2 = i)).map f).sum := by
  induction Z with
  | nil => simp
  | cons p Z ih =>
    have h1 : ∀ i : Nat, (((p :: Z).filter (fun p => p.2 = i)).map f).sum =
        (if p.2 = i then f p else 0) + ((Z.filter (fun p => p.2 = i)).map f).sum := by
      intro i
      by_cases h : p.2 = i <;> simp [h]
    simp only [h1, Finset.sum_add_distrib, List.map_cons, List.sum_cons]
    rw [ih (fun q hq => hZ q (by simp [hq]))]
    congr 1
    rw [Finset.sum_ite_eq, if_pos (by simpa using hZ p (by simp))]

theorem sse_mean_le {k : Nat} {data : List (List ℝ)} {labels : List Nat}
    {cents cents' : List (List (Option ℝ))} (hl : ∀ p ∈ data.zip labels, p.2 < cents'.length)
    (hm : CentroidsAreMeans k data labels cents') :
    sse k data labels cents' ≤ sse k data labels cents := by
  unfold sse
  rw [sum_by_class _ cents'.length hl, sum_by_class _ cents'.length hl]
  apply Finset.sum_le_sum
  intro i hi
  rw [Finset.mem_range] at hi
  have key : ∀ y : List (List (Option ℝ)),
      (((data.zip labels).filter (fun p => p.2 = i)).map (fun p =>
        dist (point k p.1) (point k ((y.getD p.2 []).map (·.getD 0))) ^ 2)).sum =
      (((classPoints data labels i).map (point k)).map (fun v =>
        dist v (point k ((y.getD i []).map (·.getD 0))) ^ 2)).sum := by
    intro y
    unfold classPoints
    rw [List.map_map, List.map_map]
    congr 1
    apply List.map_congr_left
    intro p hp
    have := (List.mem_filter.1 hp).2
    simp only [decide_eq_true_eq] at this
    simp [this]
  rw [key, key]
  by_cases he : classPoints data labels i = []
  · simp [he]
  · obtain ⟨q, hq, hq1, hq2⟩ := (hm i hi).2 he
    have hgq : (cents'.getD i []).map (·.getD 0) = q := by
      unfold CentroidAt at hq
      rw [List.getD_eq_getElem?_getD, hq]
      exact map_some_getD q
    rw [hgq, hq2, ← List.length_map (f := point k) (as := classPoints data labels i)]
    exact mean_minimises _ (by simpa using he) _

theorem sse_eq_sum {k : Nat} (data : List (List ℝ)) (labels : List Nat)
    (cents : List (List (Option ℝ))) (h : labels.length ≤ data.length) :
    sse k data labels cents = ∑ j ∈ Finset.range labels.length,
      dist (point k (data.getD j [])) (point k ((cents.getD (labels.getD j 0) []).map (·.getD 0))) ^ 2 := by
  unfold sse
  induction labels generalizing data with
  | nil => simp
  | cons l ls ih =>
    cases data with
    | nil => simp at h
    | cons x xs =>
      rw [List.zip_cons_cons, List.map_cons, List.sum_cons, ih xs (by simpa using h),
        List.length_cons, Finset.sum_range_succ']
      simp [add_comm]

/-- The label lists compare as in the termination argument: the objective drops, or it stays and the
labels get smaller. -/
theorem sse_assign {k : Nat} {data : List (List ℝ)} {labels labels' : List Nat}
    {cents : List (List (Option ℝ))} (h : labels.length ≤ data.length)
    (hlen : labels'.length = labels.length)
    (hdef : ∀ p ∈ data.zip labels, ∃ q, CentroidAt cents p.2 q)
    (hnear : LabelsAreNearest k data labels' cents) :
    sse k data labels' cents < sse k data labels cents ∨
      (sse k data labels' cents = sse k data labels cents ∧
        ∀ j < labels.length, labels'.getD j 0 ≤ labels.getD j 0) := by
  have hpt : ∀ j < labels.length, ∃ q q' : List ℝ,
      (cents.getD (labels.getD j 0) []).map (·.getD 0) = q ∧
      (cents.getD (labels'.getD j 0) []).map (·.getD 0) = q' ∧
      dist (point k (data.getD j [])) (point k q') ≤ dist (point k (data.getD j [])) (point k q) ∧
      (labels.getD j 0 < labels'.getD j 0 →
        dist (point k (data.getD j [])) (point k q') < dist (point k (data.getD j [])) (point k q)) := by
    intro j hj
    have hjd : j < data.length := by omega
    have hj' : j < labels'.length := by omega
    obtain ⟨q, hq⟩ := hdef (data[j], labels[j]) (by
      rw [List.mem_iff_getElem]; exact ⟨j, by simp; omega, by simp⟩)
    obtain ⟨q', hq', hall⟩ := hnear (data[j], labels'[j]) (by
      rw [List.mem_iff_getElem]; exact ⟨j, by simp; omega, by simp⟩)
    have e1 : data.getD j [] = data[j] := by simp [hjd]
    have e2 : labels.getD j 0 = labels[j] := by simp [hj]
    have e3 : labels'.getD j 0 = labels'[j] := by simp [hj']
    rw [e1, e2, e3]
    unfold CentroidAt at hq hq'
    refine ⟨q, q', ?_, ?_, (hall _ q hq).1, fun hlt => (hall _ q hq).2 hlt⟩
    · simp only at hq; rw [List.getD_eq_getElem?_getD, hq]; exact map_some_getD q
    · simp only at hq'; rw [List.getD_eq_getElem?_getD, hq']; exact map_some_getD q'
  rw [sse_eq_sum data labels' cents (by omega), sse_eq_sum data labels cents h, hlen]
  have hle : ∀ j ∈ Finset.range labels.length,
      dist (point k (data.getD j [])) (point k ((cents.getD (labels'.getD j 0) []).map (·.getD 0))) ^ 2 ≤
      dist (point k (data.getD j [])) (point k ((cents.getD (labels.getD j 0) []).map (·.getD 0))) ^ 2 := by
    intro j hj
    obtain ⟨q, q', h1, h2, h3, _⟩ := hpt j (Finset.mem_range.1 hj)
    rw [h1, h2]
    exact pow_le_pow_left₀ dist_nonneg h3 2
  by_cases hx : ∀ j < labels.length, labels'.getD j 0 ≤ labels.getD j 0
  · rcases (Finset.sum_le_sum hle).lt_or_eq with h' | h'
    · exact Or.inl h'
    · exact Or.inr ⟨h', hx⟩
  · left
    push Not at hx
    obtain ⟨j, hj, hlt⟩ := hx
    refine Finset.sum_lt_sum hle ⟨j, Finset.mem_range.2 hj, ?_⟩
    obtain ⟨q, q', h1, h2, _, h4⟩ := hpt j hj
    rw [h1, h2]
    exact pow_lt_pow_left₀ (h4 hlt) dist_nonneg (by norm_num)

/-- The centroids a round of k-means can start from. -/
def KmGood (k K : Nat) (data : List (List ℝ)) (cents : List (List (Option ℝ))) : Prop :=
  cents.length = K ∧ (∀ c ∈ cents, c.length = k) ∧ (data.length = 1 ∨ ∃ c q, CentroidAt cents c q)

theorem means_unique {k : Nat} {data : List (List ℝ)} {labels : List Nat}
    {c c' : List (List (Option ℝ))} (hlen : c.length = c'.length)
    (h : CentroidsAreMeans k data labels c) (h' : CentroidsAreMeans k data labels c') : c = c' := by
  apply List.ext_getElem?
  intro i
  by_cases hi : i < c.length
  · by_cases he : classPoints data labels i = []
    · rw [(h i hi).1 he, (h' i (by omega)).1 he]
    · obtain ⟨q, h1, h2, h3⟩ := (h i hi).2 he
      obtain ⟨q', h1', h2', h3'⟩ := (h' i (by omega)).2 he
      have : q = q' := point_inj q q' h2 h2' (by rw [h3, h3'])
      subst this
      unfold CentroidAt at h1 h1'
      rw [h1, h1']
  · rw [List.getElem?_eq_none (by omega), List.getElem?_eq_none (by omega)]

section Iterate
variable {k K : Nat} {data : List (List ℝ)}

/-- The labels and centroids after `m` rounds without any stopping test. -/
noncomputable def kmSeq (data : List (List ℝ)) (K : Nat) (l0 : List Nat)
    (c0 : List (List (Option ℝ))) : Nat → List Nat × List (List (Option ℝ))
  | 0 => (l0, c0)
  | m + 1 => ((kmRound data K (kmSeq data K l0 c0 m).2).toOption).getD ([], [])

theorem kmSeq_good (hdata : data ≠ []) (hrow : ∀ x ∈ data, x.length = k) (l0 : List Nat)
    {c0 : List (List (Option ℝ))} (h0 : KmGood k K data c0) (m : Nat) :
    KmGood k K data (kmSeq data K l0 c0 m).2 := by
  induction m with
  | zero => exact h0
  | succ m ih =>
    obtain ⟨l, c, h1, h2, h3, h4, h5, _⟩ := kmRound_spec hdata hrow ih.2.1 ih.1 ih.2.2
    simp only [kmSeq, h1, Except.toOption, Option.getD_some]
    exact ⟨h3, h4, h5⟩

theorem kmSeq_succ (hdata : data ≠ []) (hrow : ∀ x ∈ data, x.length = k) (l0 : List Nat)
    {c0 : List (List (Option ℝ))} (h0 : KmGood k K data c0) (m : Nat) :
    kmRound data K (kmSeq data K l0 c0 m).2 = .ok (kmSeq data K l0 c0 (m + 1)) ∧
    (kmSeq data K l0 c0 (m + 1)).1.length = data.length - 1 ∧
    LabelsAreNearest k data (kmSeq data K l0 c0 (m + 1)).1 (kmSeq data K l0 c0 m).2 ∧
    CentroidsAreMeans k data (kmSeq data K l0 c0 (m + 1)).1 (kmSeq data K l0 c0 (m + 1)).2 := by
  have hg := kmSeq_good hdata hrow l0 h0 m
  obtain ⟨l, c, h1, h2, h3, h4, h5, h6, h7⟩ := kmRound_spec hdata hrow hg.2.1 hg.1 hg.2.2
  have : kmSeq data K l0 c0 (m + 1) = (l, c) := by
    simp only [kmSeq, h1, Except.toOption, Option.getD_some]
  rw [this]
  exact ⟨h1, h2, h6, h7⟩

theorem kmSeq_shift (l0 : List Nat) (c0 : List (List (Option ℝ))) (m : Nat) :
    kmSeq data K (kmSeq data K l0 c0 1).1 (kmSeq data K l0 c0 1).2 m = kmSeq data K l0 c0 (m + 1) := by
  induction m with
  | zero => rfl
  | succ m ih => simp only [kmSeq] at ih ⊢; rw [ih]

theorem kmRounds_stops (hdata : data ≠ []) (hrow : ∀ x ∈ data, x.length = k) (m : Nat) :
    ∀ (l0 : List Nat) (c0 : List (List (Option ℝ))), KmGood k K data c0 →
    (∀ i < m, (kmSeq data K l0 c0 (i + 1)).1 ≠ (kmSeq data K l0 c0 i).1) →
    (kmSeq data K l0 c0 (m + 1)).1 = (kmSeq data K l0 c0 m).1 →
    ∀ n > m, kmRounds data K n c0 l0 =
      .ok ((kmSeq data K l0 c0 (m + 1)).2, (kmSeq data K l0 c0 m).1) := by
  induction m with
  | zero =>
    intro l0 c0 h0 _ hm n hn
    obtain ⟨n, rfl⟩ := Nat.exists_eq_succ_of_ne_zero (by omega : n ≠ 0)
    have h1 := (kmSeq_succ hdata hrow l0 h0 0).1
    rw [kmRounds, show kmRound data K c0 = .ok (kmSeq data K l0 c0 1) from h1]
    exact if_pos hm
  | succ m ih =>
    intro l0 c0 h0 hne hm n hn
    obtain ⟨n, rfl⟩ := Nat.exists_eq_succ_of_ne_zero (by omega : n ≠ 0)
    have h1 := (kmSeq_succ hdata hrow l0 h0 0).1
    have h2 := hne 0 (by omega)
    have hg := kmSeq_good hdata hrow l0 h0 1
    have h3 := ih (kmSeq data K l0 c0 1).1 (kmSeq data K l0 c0 1).2 hg
      (fun i hi => by rw [kmSeq_shift, kmSeq_shift]; exact hne (i + 1) (by omega))
      (by rw [kmSeq_shift, kmSeq_shift]; exact hm) n (by omega)
    rw [kmSeq_shift, kmSeq_shift] at h3
    rw [kmRounds, show kmRound data K c0 = .ok (kmSeq data K l0 c0 1) from h1]
    exact (if_neg h2).trans h3

theorem kmRounds_runs (hdata : data ≠ []) (hrow : ∀ x ∈ data, x.length = k) (m : Nat) :
    ∀ (l0 : List Nat) (c0 : List (List (Option ℝ))), KmGood k K data c0 →
    (∀ i < m, (kmSeq data K l0 c0 (i + 1)).1 ≠ (kmSeq data K l0 c0 i).1) →
    kmRounds data K m c0 l0 = .ok ((kmSeq data K l0 c0 m).2, (kmSeq data K l0 c0 m).1) := by
  induction m with
  | zero => intro l0 c0 _ _; rfl
  | succ m ih =>
    intro l0 c0 h0 hne
    have h1 := (kmSeq_succ hdata hrow l0 h0 0).1
    have h2 := hne 0 (by omega)
    have hg := kmSeq_good hdata hrow l0 h0 1
    have h3 := ih (kmSeq data K l0 c0 1).1 (kmSeq data K l0 c0 1).2 hg
      (fun i hi => by rw [kmSeq_shift, kmSeq_shift]; exact hne (i + 1) (by omega))
    rw [kmSeq_shift] at h3
    rw [kmRounds, show kmRound data K c0 = .ok (kmSeq data K l0 c0 1) from h1]
    exact (if_neg h2).trans h3

theorem label_lt {cents : List (List (Option ℝ))} {labels : List Nat}
    (h : LabelsAreNearest k data labels cents) : ∀ p ∈ data.zip labels, p.2 < cents.length :=
  fun p hp => firstNearest_lt (h p hp)

theorem means_defined {cents : List (List (Option ℝ))} {labels : List Nat}
    (hm : CentroidsAreMeans k data labels cents) (hl : ∀ p ∈ data.zip labels, p.2 < cents.length) :
    ∀ p ∈ data.zip labels, ∃ q, CentroidAt cents p.2 q := by
  intro p hp
  obtain ⟨q, hq, _⟩ := (hm p.2 (hl p hp)).2 (by
    intro he
    have : p.1 ∈ classPoints data labels p.2 :=
      List.mem_map.2 ⟨p, List.mem_filter.2 ⟨hp, by simp⟩, rfl⟩
    rw [he] at this
    simp at this)
  exact ⟨q, hq⟩

/-- The objective after two consecutive rounds. -/
theorem kmSeq_sse (hdata : data ≠ []) (hrow : ∀ x ∈ data, x.length = k) (l0 : List Nat)
    {c0 : List (List (Option ℝ))} (h0 : KmGood k K data c0) (m : Nat) :
    sse k data (kmSeq data K l0 c0 (m + 2)).1 (kmSeq data K l0 c0 (m + 2)).2 <
      sse k data (kmSeq data K l0 c0 (m + 1)).1 (kmSeq data K l0 c0 (m + 1)).2 ∨
    (sse k data (kmSeq data K l0 c0 (m + 2)).1 (kmSeq data K l0 c0 (m + 2)).2 ≤
      sse k data (kmSeq data K l0 c0 (m + 1)).1 (kmSeq data K l0 c0 (m + 1)).2 ∧
     ∀ j < data.length - 1, (kmSeq data K l0 c0 (m + 2)).1.getD j 0 ≤
      (kmSeq data K l0 c0 (m + 1)).1.getD j 0) := by
  have s1 := kmSeq_succ hdata hrow l0 h0 m
  have s2 := kmSeq_succ hdata hrow l0 h0 (m + 1)
  have g0 := kmSeq_good hdata hrow l0 h0 m
  have g1 := kmSeq_good hdata hrow l0 h0 (m + 1)
  have g2 := kmSeq_good hdata hrow l0 h0 (m + 2)
  have l1 := label_lt s1.2.2.1
  have l2 := label_lt s2.2.2.1
  replace l1 : ∀ p ∈ data.zip (kmSeq data K l0 c0 (m + 1)).1,
      p.2 < (kmSeq data K l0 c0 (m + 1)).2.length := fun p hp => by
    have := l1 p hp; rw [g0.1] at this; rw [g1.1]; exact this
  replace l2 : ∀ p ∈ data.zip (kmSeq data K l0 c0 (m + 2)).1,
      p.2 < (kmSeq data K l0 c0 (m + 2)).2.length := fun p hp => by
    have := l2 p hp; rw [g1.1] at this; rw [g2.1]; exact this
  have hmean := sse_mean_le (cents := (kmSeq data K l0 c0 (m + 1)).2) l2 s2.2.2.2
  have := sse_assign (labels := (kmSeq data K l0 c0 (m + 1)).1)
    (labels' := (kmSeq data K l0 c0 (m + 2)).1) (cents := (kmSeq data K l0 c0 (m + 1)).2)
    (by rw [s1.2.1]; omega) (by rw [s1.2.1, s2.2.1]) (means_defined s1.2.2.2 l1) s2.2.2.1
  rw [s1.2.1] at this
  rcases this with h | ⟨h, h'⟩
  · exact Or.inl (lt_of_le_of_lt hmean h)
  · exact Or.inr ⟨hmean.trans h.le, h'⟩

theorem sum_lt_of_le_ne (l l' : List Nat) (hlen : l.length = l'.length)
    (h : ∀ j < l'.length, l.getD j 0 ≤ l'.getD j 0) (hne : l ≠ l') : l.sum < l'.sum := by
  induction l generalizing l' with
  | nil => cases l' with
    | nil => exact absurd rfl hne
    | cons => simp at hlen
  | cons a l ih => cases l' with
    | nil => simp at hlen
    | cons b l' =>
      have h0 : a ≤ b := by simpa using h 0 (by simp)
      have ht : ∀ j < l'.length, l.getD j 0 ≤ l'.getD j 0 := by
        intro j hj; simpa using h (j + 1) (by simpa using hj)
      have hlen' : l.length = l'.length := by simpa using hlen
      by_cases hl : l = l'
      · subst hl
        have : a ≠ b := fun e => hne (by rw [e])
        simp only [List.sum_cons]; omega
      · have := ih l' hlen' ht hl
        simp only [List.sum_cons]; omega

theorem finite_labels (n K : Nat) : Set.Finite {l : List Nat | l.length = n ∧ ∀ x ∈ l, x < K} := by
  refine Set.Finite.subset (Set.Finite.image (List.map Fin.val) (List.finite_length_eq (Fin K) n)) ?_
  rintro l ⟨h1, h2⟩
  refine ⟨l.attach.map (fun x => ⟨x.1, h2 x.1 x.2⟩), ?_, ?_⟩
  · simpa using h1
  · simp [List.map_map, Function.comp_def]

theorem mem_label_lt {cents : List (List (Option ℝ))} {labels : List Nat}
    (hlen : labels.length ≤ data.length) (h : ∀ p ∈ data.zip labels, p.2 < cents.length) :
    ∀ x ∈ labels, x < cents.length := by
  intro x hx
  obtain ⟨j, hj, rfl⟩ := List.mem_iff_getElem.1 hx
  exact h (data[j], labels[j]) (by
    rw [List.mem_iff_getElem]; exact ⟨j, by simp; omega, by simp⟩)

/-- The rounds reach a point where the labels do not change. -/
theorem kmSeq_fixed (hdata : data ≠ []) (hrow : ∀ x ∈ data, x.length = k) (l0 : List Nat)
    {c0 : List (List (Option ℝ))} (h0 : KmGood k K data c0) :
    ∃ m, (kmSeq data K l0 c0 (m + 1)).1 = (kmSeq data K l0 c0 m).1 := by
  by_contra hno
  push Not at hno
  set L := fun m => (kmSeq data K l0 c0 (m + 1)).1 with hL
  set C := fun m => (kmSeq data K l0 c0 (m + 1)).2 with hC
  have hlen : ∀ m, (L m).length = data.length - 1 := fun m =>
    (kmSeq_succ hdata hrow l0 h0 m).2.1
  have hlab : ∀ m, ∀ p ∈ data.zip (L m), p.2 < K := by
    intro m
    have := label_lt (kmSeq_succ hdata hrow l0 h0 m).2.2.1
    rwa [(kmSeq_good hdata hrow l0 h0 m).1] at this
  -- strict decrease
  have hdec : ∀ m d, sse k data (L (m + d + 1)) (C (m + d + 1)) < sse k data (L m) (C m) ∨
      (sse k data (L (m + d + 1)) (C (m + d + 1)) ≤ sse k data (L m) (C m) ∧
        (L (m + d + 1)).sum < (L m).sum) := by
    have hone : ∀ m, sse k data (L (m + 1)) (C (m + 1)) < sse k data (L m) (C m) ∨
        (sse k data (L (m + 1)) (C (m + 1)) ≤ sse k data (L m) (C m) ∧
          (L (m + 1)).sum < (L m).sum) := by
      intro m
      rcases kmSeq_sse hdata hrow l0 h0 m with h | ⟨h, h'⟩
      · exact Or.inl h
      · refine Or.inr ⟨h, sum_lt_of_le_ne _ _ (by rw [hlen, hlen]) ?_ (hno (m + 1))⟩
        rw [hlen]; exact h'
    intro m d
    induction d with
    | zero => exact hone m
    | succ d ih =>
      have h1 := hone (m + d + 1)
      rw [show m + (d + 1) + 1 = m + d + 1 + 1 by omega]
      rcases ih with h | ⟨h, h'⟩ <;> rcases h1 with g | ⟨g, g'⟩
      · exact Or.inl (g.trans h)
      · exact Or.inl (lt_of_le_of_lt g h)
      · exact Or.inl (lt_of_lt_of_le g h)
      · exact Or.inr ⟨g.trans h, g'.trans h'⟩
  have hinj : Function.Injective L := by
    have aux : ∀ m d, L (m + d + 1) ≠ L m := by
      intro m d he
      have hc1 : (C m).length = K := (kmSeq_good hdata hrow l0 h0 (m + 1)).1
      have hm1 := (kmSeq_succ hdata hrow l0 h0 m).2.2.2
      have := sse_mean_le (cents := C (m + d + 1)) (cents' := C m)
        (by rw [hc1]; exact hlab m) hm1
      rcases hdec m d with h | ⟨_, h⟩
      · rw [he] at h
        exact absurd h (not_lt.2 this)
      · rw [he] at h; omega
    intro a b hab
    rcases lt_trichotomy a b with h | h | h
    · obtain ⟨d, rfl⟩ : ∃ d, b = a + d + 1 := ⟨b - a - 1, by omega⟩
      exact absurd hab.symm (aux a d)
    · exact h
    · obtain ⟨d, rfl⟩ : ∃ d, a = b + d + 1 := ⟨a - b - 1, by omega⟩
      exact absurd hab (aux b d)
  have hfin : (Set.range L).Finite := (finite_labels (data.length - 1) K).subset (by
    rintro _ ⟨m, rfl⟩
    refine ⟨hlen m, ?_⟩
    have hg := (kmSeq_good hdata hrow l0 h0 m).1
    have := mem_label_lt (data := data) (cents := (kmSeq data K l0 c0 m).2) (labels := L m)
      (by rw [hlen]; omega) (by rw [hg]; exact hlab m)
    rwa [hg] at this)
  exact Set.infinite_range_of_injective hinj hfin

/-- The result of the rounds when the limit is large enough: a fixed point of k-means. -/
theorem kmRounds_converges (hdata : data ≠ []) (hrow : ∀ x ∈ data, x.length = k)
    {c0 : List (List (Option ℝ))} (h0 : KmGood k K data c0) :
    ∃ N cents labels, (∀ n ≥ N, kmRounds data K n c0 [] = .ok (cents, labels)) ∧
      labels.length = data.length - 1 ∧
      LabelsAreNearest k data labels cents ∧ CentroidsAreMeans k data labels cents := by
  classical
  have hex := kmSeq_fixed (K := K) hdata hrow [] h0
  have hm := Nat.find_spec hex
  have hmin : ∀ i < Nat.find hex, (kmSeq data K [] c0 (i + 1)).1 ≠ (kmSeq data K [] c0 i).1 :=
    fun i hi => Nat.find_min hex hi
  generalize Nat.find hex = m at hm hmin
  have hs := kmSeq_succ hdata hrow [] h0 m
  refine ⟨m + 1, (kmSeq data K [] c0 (m + 1)).2, (kmSeq data K [] c0 m).1,
    fun n hn => kmRounds_stops hdata hrow m [] c0 h0 hmin hm n hn, ?_, ?_, ?_⟩
  · rw [← hm]; exact hs.2.1
  · cases m with
    | zero => intro p hp; simp [kmSeq] at hp
    | succ m =>
      have hs' := kmSeq_succ hdata hrow [] h0 m
      have := means_unique (data := data) (k := k) (labels := (kmSeq data K [] c0 (m + 1)).1)
        (c := (kmSeq data K [] c0 (m + 1)).2) (c' := (kmSeq data K [] c0 (m + 1 + 1)).2)
        (by rw [(kmSeq_good hdata hrow [] h0 (m + 1)).1, (kmSeq_good hdata hrow [] h0 (m + 1 + 1)).1])
        hs'.2.2.2 (by rw [← hm]; exact hs.2.2.2)
      rw [← this, ← hm]
      exact hs.2.2.1
  · rw [← hm]; exact hs.2.2.2

end Iterate

end LHF
