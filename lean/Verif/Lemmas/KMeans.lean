import Verif.Model.KMeans
import Verif.Spec.KMeans

namespace LHF
open Spec

theorem defined_or_nan (b : List (Option ℝ)) : none ∈ b ∨ ∃ q : List ℝ, b = q.map some := by
  induction b with
  | nil => exact Or.inr ⟨[], rfl⟩
  | cons x xs ih =>
    rcases ih with h | ⟨q, rfl⟩
    · exact Or.inl (by simp [h])
    · cases x with
      | none => exact Or.inl (by simp)
      | some v => exact Or.inr ⟨v :: q, rfl⟩

theorem none_notMem_map_some (q : List ℝ) : (none : Option ℝ) ∉ q.map some := by simp

theorem map_some_getD (q : List ℝ) : (q.map some).map (·.getD 0) = q := by
  simp [List.map_map, Function.comp_def]

theorem vectorsDistanceNaN_some {k : Nat} (x q : List ℝ) (hx : x.length = k) (hq : q.length = k) :
    vectorsDistanceNaN x (q.map some) = .ok (some (dist (point k x) (point k q))) := by
  unfold vectorsDistanceNaN
  rw [map_some_getD, C10_distance_is_euclidean x q hx hq]
  have : (none : Option ℝ) ∉ (q.map some).take x.length :=
    fun h => none_notMem_map_some q (List.mem_of_mem_take h)
  simp only [if_neg this]

theorem vectorsDistanceNaN_none {k : Nat} (x : List ℝ) (b : List (Option ℝ)) (hx : x.length = k)
    (hb : b.length = k) (h : none ∈ b) : vectorsDistanceNaN x b = .ok none := by
  unfold vectorsDistanceNaN
  rw [C10_distance_is_euclidean x _ hx (by simpa using hb)]
  have : none ∈ b.take x.length := by rwa [List.take_of_length_le (by omega)]
  simp only [if_pos this]

/-- The state of the search for the nearest centroid after the first `m` centroids. -/
def NearInv (k : Nat) (x : List ℝ) (cents : List (List (Option ℝ))) (m : Nat)
    (st : Nat × Option ℝ) : Prop :=
  (st = (0, none) ∧ ∀ c' q', c' < m → ¬ CentroidAt cents c' q') ∨
  ∃ q, CentroidAt cents st.1 q ∧ st.2 = some (dist (point k x) (point k q)) ∧
    ∀ c' q', c' < m → CentroidAt cents c' q' →
      dist (point k x) (point k q) ≤ dist (point k x) (point k q') ∧
      (c' < st.1 → dist (point k x) (point k q) < dist (point k x) (point k q'))

theorem centroidAt_inj {cents : List (List (Option ℝ))} {c : Nat} {q q' : List ℝ}
    (h : CentroidAt cents c q) (h' : CentroidAt cents c q') : q = q' := by
  unfold CentroidAt at h h'
  rw [h] at h'
  have := Option.some.inj h'
  exact List.map_injective_iff.2 (Option.some_injective _) this

theorem kmNearest_spec {k : Nat} (x : List ℝ) (cents : List (List (Option ℝ)))
    (hx : x.length = k) (hc : ∀ c ∈ cents, c.length = k) (hd : ∃ c q, CentroidAt cents c q) :
    ∃ c, kmNearest x cents = .ok c ∧ FirstNearest k x cents c := by
  obtain ⟨r, h1, h2⟩ := foldlM_range_total (kmNearestStep x cents)
    (fun m st => m ≤ cents.length ∧ st.1 ≤ m - 1 ∧ NearInv k x cents m st) cents.length (0, none)
    ⟨by omega, by simp, Or.inl ⟨rfl, fun _ _ h => absurd h (by omega)⟩⟩ (by
    rintro m ⟨ci, md⟩ hm ⟨_, hst, hinv⟩
    simp only at hst
    have hg : vget cents m = .ok cents[m] := vget_of_lt hm
    have hlen := hc _ (List.getElem_mem hm)
    unfold kmNearestStep
    rw [hg, ok_bind]
    rcases defined_or_nan cents[m] with hn | ⟨q, hq⟩
    · rw [vectorsDistanceNaN_none x _ hx hlen hn, ok_bind]
      refine ⟨(ci, md), rfl, by omega, by simp only; omega, ?_⟩
      have hno : ∀ q', ¬ CentroidAt cents m q' := by
        intro q' hq'
        unfold CentroidAt at hq'
        rw [List.getElem?_eq_getElem hm] at hq'
        rw [Option.some.inj hq'] at hn
        exact none_notMem_map_some _ hn
      rcases hinv with ⟨h1, h2⟩ | ⟨q, h1, h2, h3⟩
      · left
        refine ⟨h1, fun c' q' hc' => ?_⟩
        rcases Nat.lt_succ_iff_lt_or_eq.1 hc' with h | rfl
        · exact h2 c' q' h
        · exact hno q'
      · right
        refine ⟨q, h1, h2, fun c' q' hc' hq' => ?_⟩
        rcases Nat.lt_succ_iff_lt_or_eq.1 hc' with h | rfl
        · exact h3 c' q' h hq'
        · exact absurd hq' (hno q')
    · have hat : CentroidAt cents m q := by
        unfold CentroidAt; rw [List.getElem?_eq_getElem hm, hq]
      have hql : q.length = k := by rw [hq] at hlen; simpa using hlen
      rw [hq, vectorsDistanceNaN_some x q hx hql, ok_bind]
      rcases hinv with ⟨h1, h2⟩ | ⟨q0, h1, h2, h3⟩
      · cases h1
        refine ⟨(m, some _), rfl, by omega, by simp only; omega, Or.inr ⟨q, hat, rfl, ?_⟩⟩
        intro c' q' hc' hq'
        rcases Nat.lt_succ_iff_lt_or_eq.1 hc' with h | rfl
        · exact absurd hq' (h2 c' q' h)
        · rw [centroidAt_inj hat hq']
          exact ⟨le_rfl, fun h => absurd h (by simp)⟩
      · simp only at h1 h2 h3
        subst h2
        by_cases hlt : dist (point k x) (point k q) < dist (point k x) (point k q0)
        · simp only [if_pos hlt]
          refine ⟨(m, some _), rfl, by omega, by simp only; omega, Or.inr ⟨q, hat, rfl, ?_⟩⟩
          intro c' q' hc' hq'
          rcases Nat.lt_succ_iff_lt_or_eq.1 hc' with h | rfl
          · have := (h3 c' q' h hq').1
            exact ⟨by linarith, fun _ => by linarith⟩
          · rw [centroidAt_inj hat hq']
            exact ⟨le_rfl, fun h => absurd h (by simp)⟩
        · simp only [if_neg hlt]
          refine ⟨(ci, some _), rfl, by omega, by simp only; omega, Or.inr ⟨q0, h1, rfl, ?_⟩⟩
          intro c' q' hc' hq'
          rcases Nat.lt_succ_iff_lt_or_eq.1 hc' with h | rfl
          · exact h3 c' q' h hq'
          · have := centroidAt_inj hat hq'
            subst this
            refine ⟨not_lt.1 hlt, fun h => ?_⟩
            simp only at h
            have : c' < ci := h
            have h1' : ci < cents.length := by
              unfold CentroidAt at h1
              exact (List.getElem?_eq_some_iff.1 h1).1
            omega)
  refine ⟨r.1, by unfold kmNearest; rw [h1]; rfl, ?_⟩
  rcases h2.2.2 with ⟨_, h⟩ | ⟨q, h4, _, h6⟩
  · obtain ⟨c, q, hq⟩ := hd
    exact absurd hq (h c q (List.getElem?_eq_some_iff.1 hq).1)
  · exact ⟨q, h4, fun c' q' hq' => h6 c' q' (List.getElem?_eq_some_iff.1 hq').1 hq'⟩

theorem addRow_ok (row x : List ℝ) (h : x.length = row.length) :
    addRow row x = .ok (List.zipWith (· + ·) row x) := by
  induction row generalizing x with
  | nil => cases x with
    | nil => rfl
    | cons => simp at h
  | cons r row ih => cases x with
    | nil => simp at h
    | cons a xs => rw [addRow, ih xs (by simpa using h)]; rfl

theorem classPoints_append (pre : List (List ℝ)) (x : List ℝ) (labels : List Nat) (c i : Nat)
    (h : labels.length = pre.length) :
    classPoints (pre ++ [x]) (labels ++ [c]) i =
      classPoints pre labels i ++ (if c = i then [x] else []) := by
  unfold classPoints
  rw [List.zip_append h.symm]
  by_cases hc : c = i <;> simp [hc]

theorem firstNearest_lt {k : Nat} {x : List ℝ} {cents : List (List (Option ℝ))} {c : Nat}
    (h : FirstNearest k x cents c) : c < cents.length := by
  obtain ⟨q, h, _⟩ := h
  exact (List.getElem?_eq_some_iff.1 h).1

/-- The state after the points `pre` have been classified. -/
structure SumsInv (k K : Nat) (cents : List (List (Option ℝ))) (pre : List (List ℝ)) (st : KmSums) :
    Prop where
  llen : st.labels.length = pre.length
  slen : st.sums.length = K
  clen : st.counts.length = K
  rows : ∀ i < K, ∃ row, st.sums[i]? = some row ∧ row.length = k ∧
    point k row = ((classPoints pre st.labels i).map (point k)).sum
  cnt : ∀ i < K, st.counts[i]? = some (classPoints pre st.labels i).length
  near : LabelsAreNearest k pre st.labels cents

theorem point_zipWith_add (k : Nat) (a b : List ℝ) (ha : a.length = k) (hb : b.length = k) :
    point k (List.zipWith (· + ·) a b) = point k a + point k b := by
  ext i
  have h1 : (i : Nat) < a.length := by omega
  have h2 : (i : Nat) < b.length := by omega
  simp [point, List.getElem?_zipWith, List.getElem?_eq_getElem h1, List.getElem?_eq_getElem h2]

theorem kmClassifyStep_spec {k K : Nat} {cents : List (List (Option ℝ))} {pre : List (List ℝ)}
    {st : KmSums} (hc : ∀ c ∈ cents, c.length = k) (hK : cents.length = K)
    (hd : ∃ c q, CentroidAt cents c q) (hinv : SumsInv k K cents pre st) (x : List ℝ)
    (hx : x.length = k) :
    ∃ st', kmClassifyStep cents st x = .ok st' ∧ SumsInv k K cents (pre ++ [x]) st' := by
  obtain ⟨c, h1, h2⟩ := kmNearest_spec x cents hx hc hd
  have hcK : c < K := hK ▸ firstNearest_lt h2
  obtain ⟨row, hr1, hr2, hr3⟩ := hinv.rows c hcK
  have hs : c < st.sums.length := by rw [hinv.slen]; exact hcK
  have hn : c < st.counts.length := by rw [hinv.clen]; exact hcK
  refine ⟨⟨st.sums.modify c (fun _ => List.zipWith (· + ·) row x), st.counts.modify c (· + 1),
    st.labels ++ [c]⟩, ?_, ?_⟩
  · unfold kmClassifyStep
    rw [h1, ok_bind, vget_ok.2 hr1, ok_bind, addRow_ok row x (by omega), ok_bind]
    unfold vmodify
    rw [if_pos hs, ok_bind, if_pos hn, ok_bind]
    rfl
  · refine ⟨by simp [hinv.llen], by simp [hinv.slen], by simp [hinv.clen], ?_, ?_, ?_⟩
    · intro i hi
      rw [classPoints_append _ _ _ _ _ hinv.llen]
      by_cases hci : c = i
      · subst hci
        refine ⟨List.zipWith (· + ·) row x, by simp [hs], by simp [hr2, hx], ?_⟩
        rw [point_zipWith_add k row x hr2 hx, hr3]
        simp
      · obtain ⟨row', h3, h4, h5⟩ := hinv.rows i hi
        exact ⟨row', by simp [hci, h3], h4, by simp [hci, h5]⟩
    · intro i hi
      rw [classPoints_append _ _ _ _ _ hinv.llen]
      have := hinv.cnt i hi
      by_cases hci : c = i
      · subst hci; simp [this]
      · simp [this, hci]
    · intro p hp
      rw [List.zip_append hinv.llen.symm] at hp
      rcases List.mem_append.1 hp with h | h
      · exact hinv.near p h
      · simp only [List.zip_cons_cons, List.zip_nil_right, List.mem_singleton] at h
        subst h; exact h2

theorem kmClassify_spec {k K : Nat} {cents : List (List (Option ℝ))}
    (hc : ∀ c ∈ cents, c.length = k) (hK : cents.length = K)
    (xs : List (List ℝ)) (hd : xs = [] ∨ ∃ c q, CentroidAt cents c q) (hxs : ∀ x ∈ xs, x.length = k) :
    ∀ (pre : List (List ℝ)) (st : KmSums), SumsInv k K cents pre st →
    ∃ st', xs.foldlM (kmClassifyStep cents) st = .ok st' ∧ SumsInv k K cents (pre ++ xs) st' := by
  induction xs with
  | nil => intro pre st h; exact ⟨st, rfl, by simpa using h⟩
  | cons x xs ih =>
    intro pre st h
    have hd' : ∃ c q, CentroidAt cents c q := by simpa using hd
    obtain ⟨st1, h1, h2⟩ := kmClassifyStep_spec hc hK hd' h x (hxs x (by simp))
    obtain ⟨st2, h3, h4⟩ := ih (Or.inr hd') (fun y hy => hxs y (by simp [hy])) _ _ h2
    exact ⟨st2, by rw [List.foldlM_cons, h1, ok_bind, h3], by simpa using h4⟩

theorem point_replicate_zero (k m : Nat) : point k (List.replicate m (0 : ℝ)) = 0 := by
  ext i
  simp only [point, List.getD_eq_getElem?_getD, List.getElem?_replicate]
  split_ifs <;> simp

theorem sumsInv_init (k K : Nat) (cents : List (List (Option ℝ))) :
    SumsInv k K cents [] ⟨List.replicate K (List.replicate k 0), List.replicate K 0, []⟩ := by
  refine ⟨rfl, by simp, by simp, ?_, ?_, ?_⟩
  · intro i hi
    exact ⟨List.replicate k 0, by simp [hi], by simp,
      by rw [point_replicate_zero]; simp [classPoints]⟩
  · intro i hi; simp [hi, classPoints]
  · intro p hp; simp at hp

theorem zip_take_left (data : List (List ℝ)) (labels : List Nat) (n : Nat)
    (h : labels.length ≤ n) : (data.take n).zip labels = data.zip labels := by
  induction data generalizing labels n with
  | nil => simp
  | cons x xs ih =>
    cases labels with
    | nil => simp
    | cons l ls =>
      cases n with
      | zero => simp at h
      | succ n => simp [ih ls n (by simpa using h)]

theorem classPoints_take (data : List (List ℝ)) (labels : List Nat) (n i : Nat)
    (h : labels.length ≤ n) :
    classPoints (data.take n) labels i = classPoints data labels i := by
  unfold classPoints
  rw [zip_take_left data labels n h]

/-- One round of k-means. -/
theorem kmRound_spec {k K : Nat} {data : List (List ℝ)} {cents : List (List (Option ℝ))}
    (hdata : data ≠ []) (hrow : ∀ x ∈ data, x.length = k)
    (hc : ∀ c ∈ cents, c.length = k) (hK : cents.length = K)
    (hd : data.length = 1 ∨ ∃ c q, CentroidAt cents c q) :
    ∃ labels cents', kmRound data K cents = .ok (labels, cents') ∧
      labels.length = data.length - 1 ∧ cents'.length = K ∧ (∀ c ∈ cents', c.length = k) ∧
      (data.length = 1 ∨ ∃ c q, CentroidAt cents' c q) ∧
      LabelsAreNearest k data labels cents ∧ CentroidsAreMeans k data labels cents' := by
  have h0 : 0 < data.length := List.length_pos_iff.2 hdata
  have hrow0 : data[0].length = k := hrow _ (List.getElem_mem h0)
  have hd' : data.take (data.length - 1) = [] ∨ ∃ c q, CentroidAt cents c q := by
    rcases hd with h | h
    · left; rw [h]; rfl
    · exact Or.inr h
  obtain ⟨st, h1, h2⟩ := kmClassify_spec hc hK (data.take (data.length - 1)) hd'
    (fun x hx => hrow x (List.mem_of_mem_take hx)) [] _ (sumsInv_init k K cents)
  rw [List.nil_append] at h2
  have hl : st.labels.length = data.length - 1 := by rw [h2.llen]; simp
  have hget : ∀ i < K, ∃ row, st.sums[i]? = some row ∧ row.length = k ∧
      point k row = ((classPoints data st.labels i).map (point k)).sum ∧
      (List.zipWith kmDivide st.sums st.counts)[i]? =
        some (kmDivide row (classPoints data st.labels i).length) := by
    intro i hi
    obtain ⟨row, r1, r2, r3⟩ := h2.rows i hi
    have r4 := h2.cnt i hi
    rw [classPoints_take data _ _ _ hl.le] at r3 r4
    exact ⟨row, r1, r2, r3, by rw [List.getElem?_zipWith, r1, r4]⟩
  have hlen : (List.zipWith kmDivide st.sums st.counts).length = K := by
    simp [h2.slen, h2.clen]
  have hmeans : CentroidsAreMeans k data st.labels (List.zipWith kmDivide st.sums st.counts) := by
    intro i hi
    rw [hlen] at hi
    obtain ⟨row, r1, r2, r3, r4⟩ := hget i hi
    constructor
    · intro he
      rw [r4, he]
      simp [kmDivide, ← r2]
    · intro hne
      have hn : (classPoints data st.labels i).length ≠ 0 := by
        simpa [List.length_eq_zero_iff] using hne
      refine ⟨row.map (fun s => s / ((classPoints data st.labels i).length : ℝ)), ?_, by simpa using r2,
        ?_⟩
      · unfold CentroidAt
        rw [r4]
        simp [kmDivide, hn]
      · rw [← r3]
        ext j
        have hj : (j : Nat) < row.length := by omega
        simp [point, List.getElem?_eq_getElem hj]
        field_simp
  refine ⟨st.labels, List.zipWith kmDivide st.sums st.counts, ?_, hl, hlen, ?_, ?_, ?_, hmeans⟩
  · unfold kmRound
    rw [vget_of_lt h0, ok_bind, hrow0, h1]
    rfl
  · intro c hcm
    obtain ⟨i, hi, rfl⟩ := List.mem_iff_getElem.1 hcm
    rw [hlen] at hi
    obtain ⟨row, r1, r2, r3, r4⟩ := hget i hi
    rw [List.getElem?_eq_getElem (by rw [hlen]; exact hi)] at r4
    rw [Option.some.inj r4]
    simpa [kmDivide] using r2
  · by_cases h1' : data.length = 1
    · exact Or.inl h1'
    · right
      have hzip : 0 < (data.zip st.labels).length := by
        rw [List.length_zip, hl]; omega
      have hp := List.getElem_mem hzip
      have hnear := h2.near
      rw [LabelsAreNearest, zip_take_left data _ _ hl.le] at hnear
      have hlt := firstNearest_lt (hnear _ hp)
      rw [hK] at hlt
      obtain ⟨q, hq, _⟩ := (hmeans _ (by rw [hlen]; exact hlt)).2 (by
        intro he
        have : (data.zip st.labels)[0].1 ∈ classPoints data st.labels (data.zip st.labels)[0].2 := by
          unfold classPoints
          exact List.mem_map.2 ⟨_, List.mem_filter.2 ⟨hp, by simp⟩, rfl⟩
        rw [he] at this
        simp at this)
      exact ⟨_, q, hq⟩
  · have hnear := h2.near
    rwa [LabelsAreNearest, zip_take_left data _ _ hl.le] at hnear

end LHF
