import Verif.Model.DenStream
import Verif.Spec.DenStream

/-! Micro-clusters summarise the history of their insertions. -/

namespace LHF
open Spec

theorem rowUpdate_ok (f : ℝ → ℝ → ℝ) (row x : List ℝ) (h : x.length = row.length) :
    rowUpdate f row x = .ok (List.zipWith f row x) := by
  induction row generalizing x with
  | nil => cases x with
    | nil => rfl
    | cons => simp at h
  | cons r row ih => cases x with
    | nil => simp at h
    | cons a xs => rw [rowUpdate, ih xs (by simpa using h)]; rfl

theorem decay_pos (l : ℝ) (t s : Int) : 0 < decay l t s := Real.rpow_pos_of_pos (by norm_num) _

theorem decay_self (l : ℝ) (t : Int) : decay l t t = 1 := by simp [decay]

theorem decay_mul (l : ℝ) (t s r : Int) : decay l t s * decay l s r = decay l t r := by
  unfold decay
  rw [← Real.rpow_add (by norm_num)]
  congr 1
  push_cast
  ring

theorem sum_map_decay_mul (l : ℝ) (t s : Int) (h : History) (f : List ℝ × Int → ℝ) :
    (h.map (fun p => decay l t p.2 * f p)).sum =
      decay l t s * (h.map (fun p => decay l s p.2 * f p)).sum := by
  rw [← List.sum_map_mul_left]
  congr 1
  apply List.map_congr_left
  intro p _
  rw [← mul_assoc, decay_mul]

theorem totalWeight_shift (l : ℝ) (t s : Int) (h : History) :
    totalWeight l h t = decay l t s * totalWeight l h s := by
  have := sum_map_decay_mul l t s h (fun _ => 1)
  simpa [totalWeight] using this

theorem sum_smul_shift (k : Nat) (l : ℝ) (t s : Int) (h : History) :
    (h.map (fun p => decay l t p.2 • point k p.1)).sum =
      decay l t s • (h.map (fun p => decay l s p.2 • point k p.1)).sum := by
  induction h with
  | nil => simp
  | cons p h ih =>
    simp only [List.map_cons, List.sum_cons, ih, smul_add, smul_smul, decay_mul]

theorem totalWeight_pos (l : ℝ) (h : History) (t : Int) (hh : h ≠ []) : 0 < totalWeight l h t := by
  unfold totalWeight
  cases h with
  | nil => exact absurd rfl hh
  | cons p h =>
    simp only [List.map_cons, List.sum_cons]
    have : 0 ≤ (h.map (fun p => decay l t p.2)).sum := by
      apply List.sum_nonneg
      intro x hx
      obtain ⟨p, _, rfl⟩ := List.mem_map.1 hx
      exact (decay_pos _ _ _).le
    have := decay_pos l t p.2
    linarith

theorem totalWeight_nonneg (l : ℝ) (h : History) (t : Int) : 0 ≤ totalWeight l h t := by
  by_cases hh : h = []
  · simp [hh, totalWeight]
  · exact (totalWeight_pos l h t hh).le

/-- The invariant of a micro-cluster with the given history. -/
structure MCInv (k : Nat) (l : ℝ) (h : History) (m : MicroCluster) : Prop where
  lam : m.lambda = l
  clen : m.center.length = k
  alen : m.avgSquares.length = k
  weight : m.weight = totalWeight l h m.editTime
  center : m.weight • point k m.center =
    (h.map (fun p => decay l m.editTime p.2 • point k p.1)).sum
  avg : m.weight * m.avgSquares.sum =
    (h.map (fun p => decay l m.editTime p.2 * ‖point k p.1‖ ^ 2)).sum
  empty : h = [] → m.center = List.replicate k 0 ∧ m.avgSquares = List.replicate k 0

theorem MCInv.weight_eq_zero {k : Nat} {l : ℝ} {h : History} {m : MicroCluster}
    (hm : MCInv k l h m) : m.weight = 0 ↔ h = [] := by
  rw [hm.weight]
  constructor
  · intro h0
    by_contra hne
    exact (totalWeight_pos l h m.editTime hne).ne' h0
  · rintro rfl; simp [totalWeight]

theorem mcInv_new (k : Nat) (l : ℝ) (t : Int) : MCInv k l [] (MicroCluster.new t k l) := by
  refine ⟨rfl, by simp [MicroCluster.new], by simp [MicroCluster.new], ?_, ?_, ?_, ?_⟩ <;>
    simp [MicroCluster.new, totalWeight]

theorem MCInv.getWeight {k : Nat} {l : ℝ} {h : History} {m : MicroCluster}
    (hm : MCInv k l h m) (t : Int) : m.getWeight t = totalWeight l h t := by
  unfold MicroCluster.getWeight
  rw [hm.weight, totalWeight_shift l t m.editTime h, mul_comm, hm.lam]
  rfl

theorem norm_sq_point (k : Nat) (x : List ℝ) (hx : x.length = k) :
    ‖point k x‖ ^ 2 = (x.map (fun a => a * a)).sum := by
  rw [EuclideanSpace.norm_sq_eq]
  subst hx
  induction x with
  | nil => simp
  | cons a x ih =>
    simp only [List.length_cons, List.map_cons, List.sum_cons]
    rw [Fin.sum_univ_succ, ← ih]
    congr 1
    simp [point, sq]

theorem sum_zipWith_update (w : ℝ) (a x : List ℝ) (h : x.length = a.length) :
    (List.zipWith (fun a p => a + (p * p - a) / w) a x).sum =
      a.sum + ((x.map (fun p => p * p)).sum - a.sum) / w := by
  induction a generalizing x with
  | nil => cases x with
    | nil => simp
    | cons => simp at h
  | cons r a ih => cases x with
    | nil => simp at h
    | cons y x =>
      simp only [List.zipWith_cons_cons, List.sum_cons, List.map_cons]
      rw [ih x (by simpa using h)]
      ring

theorem point_zipWith_center (k : Nat) (w : ℝ) (c x : List ℝ) (hc : c.length = k)
    (hx : x.length = k) :
    point k (List.zipWith (fun c p => c + (p - c) / w) c x) =
      point k c + w⁻¹ • (point k x - point k c) := by
  ext i
  have h1 : (i : Nat) < c.length := by omega
  have h2 : (i : Nat) < x.length := by omega
  simp [point, List.getElem?_zipWith, List.getElem?_eq_getElem h1, List.getElem?_eq_getElem h2]
  ring

/-- An insertion extends the history. -/
theorem MCInv.insertPoint {k : Nat} {l : ℝ} {h : History} {m : MicroCluster}
    (hm : MCInv k l h m) (x : List ℝ) (hx : x.length = k) (t : Int) :
    ∃ m', m.insertPoint x t = .ok m' ∧ MCInv k l (h ++ [(x, t)]) m' ∧
      m'.creationTime = m.creationTime := by
  have hw : m.getWeight t = totalWeight l h t := hm.getWeight t
  have htw : totalWeight l (h ++ [(x, t)]) t = totalWeight l h t + 1 := by
    simp [totalWeight, decay_self]
  have hsum : ((h ++ [(x, t)]).map (fun p => decay l t p.2 • point k p.1)).sum =
      (h.map (fun p => decay l t p.2 • point k p.1)).sum + point k x := by
    simp [decay_self]
  have hsq : ((h ++ [(x, t)]).map (fun p => decay l t p.2 * ‖point k p.1‖ ^ 2)).sum =
      (h.map (fun p => decay l t p.2 * ‖point k p.1‖ ^ 2)).sum + ‖point k x‖ ^ 2 := by
    simp [decay_self]
  by_cases h0 : m.weight = 0
  · have hh : h = [] := hm.weight_eq_zero.1 h0
    subst hh
    refine ⟨{ m with
        center := x,
        avgSquares := List.zipWith (fun _ p => p * p) m.avgSquares x,
        editTime := t, weight := m.getWeight t + 1 }, ?_, ?_, rfl⟩
    · unfold MicroCluster.insertPoint
      rw [rowUpdate_ok _ _ _ (by rw [hx, hm.alen])]
      simp [h0, pure_eq_ok]
    · refine ⟨hm.lam, hx, by simp [hm.alen, hx], ?_, ?_, ?_, by simp⟩
      · simp only; rw [htw, hw]
      · simp only; rw [hsum, hw]; simp [totalWeight]
      · simp only
        rw [hsq, hw, norm_sq_point k x hx]
        have : List.zipWith (fun _ p => p * p) m.avgSquares x = x.map (fun p => p * p) := by
          apply List.ext_getElem
          · simp [hm.alen, hx]
          · intro i h1 h2; simp
        rw [this]; simp [totalWeight]
  · have hne : h ≠ [] := fun e => h0 (hm.weight_eq_zero.2 e)
    have hpos : 0 < m.getWeight t + 1 := by
      rw [hw]; have := totalWeight_nonneg l h t; linarith
    refine ⟨{ m with
        center := List.zipWith (fun c p => c + (p - c) / (m.getWeight t + 1)) m.center x,
        avgSquares := List.zipWith (fun a p => a + (p * p - a) / (m.getWeight t + 1)) m.avgSquares x,
        editTime := t, weight := m.getWeight t + 1 }, ?_, ?_, rfl⟩
    · unfold MicroCluster.insertPoint
      dsimp only
      rw [if_neg h0, rowUpdate_ok _ m.center _ (by rw [hx, hm.clen]), ok_bind,
        rowUpdate_ok _ m.avgSquares _ (by rw [hx, hm.alen]), ok_bind]
      rfl
    · have hgw : m.getWeight t = decay l t m.editTime * m.weight := by
        rw [hw, totalWeight_shift l t m.editTime, hm.weight]
      refine ⟨hm.lam, by simp [hm.clen, hx], by simp [hm.alen, hx], ?_, ?_, ?_, by simp⟩
      · simp only; rw [htw, hw]
      · simp only
        rw [hsum, sum_smul_shift k l t m.editTime, ← hm.center,
          point_zipWith_center k _ _ _ hm.clen hx, smul_add, smul_smul, mul_inv_cancel₀ hpos.ne',
          one_smul, smul_smul, ← hgw, add_smul, one_smul]
        abel
      · simp only
        rw [hsq, sum_map_decay_mul l t m.editTime h (fun p => ‖point k p.1‖ ^ 2), ← hm.avg,
          norm_sq_point k x hx, sum_zipWith_update _ _ _ (by rw [hx, hm.alen]), ← mul_assoc, ← hgw]
        field_simp
        ring

theorem foldlM_sum_range (n : Nat) (g : ℝ → Nat → Res ℝ) (f : Nat → ℝ)
    (h : ∀ r, ∀ i < n, g r i = .ok (r + f i)) :
    (List.range n).foldlM g 0 = .ok (∑ i ∈ Finset.range n, f i) := by
  have := foldlM_range_ok g n (fun m => ∑ i ∈ Finset.range m, f i) (fun i hi => by
    rw [h _ i hi, Finset.sum_range_succ])
  simpa using this

theorem sum_range_getD (x : List ℝ) : ∑ i ∈ Finset.range x.length, x.getD i 0 = x.sum := by
  induction x with
  | nil => simp
  | cons a x ih =>
    rw [List.length_cons, Finset.sum_range_succ', List.sum_cons, ← ih]
    simp [add_comm]

/-- The number under the square root of `getRadius`. -/
theorem getRadius_eq {k : Nat} (m : MicroCluster) (hc : m.center.length = k)
    (ha : m.avgSquares.length = k) :
    m.getRadius = .ok (Real.sqrt (m.avgSquares.sum - ‖point k m.center‖ ^ 2)) := by
  unfold MicroCluster.getRadius
  rw [foldlM_sum_range _ _ (fun i => m.avgSquares.getD i 0 - (m.center.map (fun a => a * a)).getD i 0)]
  · rw [ok_bind, pure_eq_ok]
    congr 2
    rw [Finset.sum_sub_distrib, norm_sq_point k _ hc]
    congr 1
    · rw [hc, ← ha, sum_range_getD]
    · rw [← sum_range_getD, List.length_map]
  · intro r i hi
    have h2 : i < m.avgSquares.length := by omega
    rw [vget_of_lt h2, ok_bind, vget_of_lt hi, ok_bind, pure_eq_ok]
    simp [List.getElem?_eq_getElem h2, List.getElem?_eq_getElem hi]

/-- `mergeRadius` is the radius after the insertion. -/
theorem MCInv.mergeRadius {k : Nat} {l : ℝ} {h : History} {m m' : MicroCluster}
    (hm : MCInv k l h m) (x : List ℝ) (hx : x.length = k) (t : Int)
    (hins : m.insertPoint x t = .ok m') : m.mergeRadius x t = m'.getRadius := by
  have hrow : ∀ i < k, m.center.length > i ∧ m.avgSquares.length > i ∧ x.length > i := by
    intro i hi; rw [hm.clen, hm.alen, hx]; exact ⟨hi, hi, hi⟩
  unfold MicroCluster.mergeRadius
  dsimp only
  rw [foldlM_sum_range _ _ (fun i =>
    (m.avgSquares.getD i 0 + (x.getD i 0 * x.getD i 0 - m.avgSquares.getD i 0) / (m.getWeight t + 1)) -
    (m.center.getD i 0 + (x.getD i 0 - m.center.getD i 0) / (m.getWeight t + 1)) *
    (m.center.getD i 0 + (x.getD i 0 - m.center.getD i 0) / (m.getWeight t + 1)))]
  · rw [ok_bind, pure_eq_ok]
    have hex : ∀ (c a : List ℝ), m'.center = c → m'.avgSquares = a → c.length = k → a.length = k →
        (∀ i < k, a.getD i 0 = m.avgSquares.getD i 0 +
          (x.getD i 0 * x.getD i 0 - m.avgSquares.getD i 0) / (m.getWeight t + 1) ∧
          c.getD i 0 = m.center.getD i 0 + (x.getD i 0 - m.center.getD i 0) / (m.getWeight t + 1)) →
        Except.ok (Real.sqrt (∑ i ∈ Finset.range m.center.length,
          ((m.avgSquares.getD i 0 + (x.getD i 0 * x.getD i 0 - m.avgSquares.getD i 0) /
            (m.getWeight t + 1)) -
          (m.center.getD i 0 + (x.getD i 0 - m.center.getD i 0) / (m.getWeight t + 1)) *
          (m.center.getD i 0 + (x.getD i 0 - m.center.getD i 0) / (m.getWeight t + 1))))) =
          m'.getRadius := by
      intro c a hc ha hcl hal hall
      rw [getRadius_eq m' (by rw [hc, hcl]) (by rw [ha, hal]), hc, ha, norm_sq_point k c hcl,
        ← sum_range_getD a, ← sum_range_getD (c.map _), List.length_map, hal, hcl, hm.clen,
        ← Finset.sum_sub_distrib]
      congr 2
      apply Finset.sum_congr rfl
      intro i hi
      rw [Finset.mem_range] at hi
      obtain ⟨h1, h2⟩ := hall i hi
      have h3 : (c.map (fun a => a * a)).getD i 0 = c.getD i 0 * c.getD i 0 := by
        have : i < c.length := by omega
        simp [List.getElem?_eq_getElem this]
      rw [h3, h1, h2]
    unfold MicroCluster.insertPoint at hins
    dsimp only at hins
    by_cases h0 : m.weight = 0
    · rw [if_pos h0, rowUpdate_ok _ _ _ (by rw [hx, hm.alen]), ok_bind, pure_eq_ok] at hins
      have hins' := Except.ok.inj hins
      have hw1 : m.getWeight t + 1 = 1 := by simp [MicroCluster.getWeight, h0]
      refine hex x (List.zipWith (fun _ p => p * p) m.avgSquares x) (by rw [← hins'])
        (by rw [← hins']) hx (by simp [hx, hm.alen]) ?_
      intro i hi
      obtain ⟨b1, b2, b3⟩ := hrow i hi
      rw [hw1]
      simp [List.getElem?_eq_getElem b1, List.getElem?_eq_getElem b2, List.getElem?_eq_getElem b3,
        List.getElem?_zipWith]
    · rw [if_neg h0, rowUpdate_ok _ m.center _ (by rw [hx, hm.clen]), ok_bind,
        rowUpdate_ok _ m.avgSquares _ (by rw [hx, hm.alen]), ok_bind, pure_eq_ok] at hins
      have hins' := Except.ok.inj hins
      refine hex _ _ (by rw [← hins']) (by rw [← hins']) (by simp [hx, hm.clen])
        (by simp [hx, hm.alen]) ?_
      intro i hi
      obtain ⟨b1, b2, b3⟩ := hrow i hi
      simp [List.getElem?_eq_getElem b1, List.getElem?_eq_getElem b2, List.getElem?_eq_getElem b3,
        List.getElem?_zipWith]
  · intro r i hi
    rw [hm.clen] at hi
    obtain ⟨b1, b2, b3⟩ := hrow i hi
    rw [vget_of_lt b1, ok_bind, vget_of_lt b3, ok_bind, vget_of_lt b2, ok_bind, pure_eq_ok]
    simp [List.getElem?_eq_getElem b1, List.getElem?_eq_getElem b2, List.getElem?_eq_getElem b3]

theorem sum_decay_dist (k : Nat) (l : ℝ) (h : History) (t : Int) (c : EuclideanSpace ℝ (Fin k)) :
    (h.map (fun p => decay l t p.2 * dist (point k p.1) c ^ 2)).sum =
      (h.map (fun p => decay l t p.2 * ‖point k p.1‖ ^ 2)).sum -
        2 * inner ℝ (h.map (fun p => decay l t p.2 • point k p.1)).sum c +
        totalWeight l h t * ‖c‖ ^ 2 := by
  unfold totalWeight
  induction h with
  | nil => simp
  | cons p h ih =>
    simp only [List.map_cons, List.sum_cons]
    rw [ih, inner_add_left, inner_smul_left, dist_eq_norm, norm_sub_sq_real]
    simp only [conj_trivial]
    ring

theorem MCInv.mean {k : Nat} {l : ℝ} {h : History} {m : MicroCluster} (hm : MCInv k l h m)
    (hh : h ≠ []) (t : Int) : point k m.center = decayedMean k l h t := by
  have hpos := totalWeight_pos l h m.editTime hh
  have hd := decay_pos l t m.editTime
  unfold decayedMean
  rw [totalWeight_shift l t m.editTime, sum_smul_shift k l t m.editTime, ← hm.center, hm.weight,
    smul_smul, smul_smul, mul_assoc, inv_mul_cancel₀ (mul_pos hd hpos).ne', one_smul]

theorem MCInv.variance {k : Nat} {l : ℝ} {h : History} {m : MicroCluster} (hm : MCInv k l h m)
    (hh : h ≠ []) (t : Int) :
    m.avgSquares.sum - ‖point k m.center‖ ^ 2 = decayedVariance k l h t := by
  have hpos := totalWeight_pos l h m.editTime hh
  have hd := decay_pos l t m.editTime
  unfold decayedVariance
  rw [← hm.mean hh t, sum_map_decay_mul l t m.editTime h
      (fun p => dist (point k p.1) (point k m.center) ^ 2), sum_decay_dist, ← hm.avg, ← hm.center,
    totalWeight_shift l t m.editTime, hm.weight, inner_smul_left, real_inner_self_eq_norm_sq]
  simp only [conj_trivial]
  field_simp
  ring

theorem decayedVariance_nonneg (k : Nat) (l : ℝ) (h : History) (t : Int) :
    0 ≤ decayedVariance k l h t := by
  unfold decayedVariance
  refine mul_nonneg (inv_nonneg.2 (totalWeight_nonneg _ _ _)) (List.sum_nonneg ?_)
  intro x hx
  obtain ⟨p, _, rfl⟩ := List.mem_map.1 hx
  exact mul_nonneg (decay_pos _ _ _).le (sq_nonneg _)

theorem MCInv.getRadius {k : Nat} {l : ℝ} {h : History} {m : MicroCluster} (hm : MCInv k l h m)
    (t : Int) : m.getRadius = .ok (Real.sqrt (decayedVariance k l h t)) := by
  rw [getRadius_eq m hm.clen hm.alen]
  by_cases hh : h = []
  · obtain ⟨h1, h2⟩ := hm.empty hh
    rw [h1, h2, norm_sq_point k _ (by simp), hh]
    simp [decayedVariance]
  · rw [hm.variance hh t]

end LHF
