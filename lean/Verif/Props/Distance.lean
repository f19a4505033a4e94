import Verif.Model.DistMatrix
import Verif.Spec.Matrix
import Verif.Lemmas.Res
import Verif.Lemmas.Merge
import Mathlib.Analysis.InnerProductSpace.PiL2

/-! C10, C11: distances and the distance matrix. -/

namespace LHF
open Spec

/-! ### C10 -/

theorem sqDiffs_eq {K : Type _} [Ring K] (a b : List K) (h : a.length ≤ b.length) :
    sqDiffs a b = .ok (List.zipWith (fun x y => (x - y) ^ 2) a b) := by
  induction a generalizing b with
  | nil => simp [sqDiffs]
  | cons x xs ih =>
    cases b with
    | nil => simp at h
    | cons y ys => rw [sqDiffs, ih ys (by simpa using h)]; rfl

theorem sqDiffs_oob {K : Type _} [Ring K] (a b : List K) (h : b.length < a.length) :
    sqDiffs a b = .error .oob := by
  induction a generalizing b with
  | nil => simp at h
  | cons x xs ih =>
    cases b with
    | nil => rfl
    | cons y ys => rw [sqDiffs, ih ys (by simpa using h)]

/-- The point of Euclidean space with the given coordinates. -/
noncomputable def Spec.point (k : Nat) (a : List ℝ) : EuclideanSpace ℝ (Fin k) :=
  WithLp.toLp 2 (fun i => a.getD i 0)

/-- C10: on points with the same number of coordinates, `vectors_distance` is the Euclidean
distance. -/
theorem C10_distance_is_euclidean {k : Nat} (a b : List ℝ) (ha : a.length = k)
    (hb : b.length = k) :
    vectorsDistance a b = .ok (dist (Spec.point k a) (Spec.point k b)) := by
  have hs : (List.zipWith (fun x y => (x - y) ^ 2) a b).foldl (· + ·) 0 =
      ∑ i : Fin k, (a.getD i 0 - b.getD i 0) ^ 2 := by
    rw [← List.sum_eq_foldl]
    subst ha
    induction a generalizing b with
    | nil => simp
    | cons x xs ih =>
      cases b with
      | nil => simp at hb
      | cons y ys =>
        rw [List.zipWith_cons_cons, List.sum_cons, ih ys (by simpa using hb)]
        rw [show (x :: xs).length = xs.length + 1 from rfl, Fin.sum_univ_succ]
        simp
  unfold vectorsDistance sqDistance
  rw [EuclideanSpace.dist_eq]
  by_cases h0 : b.length = 0
  · rw [if_pos h0]
    have hk : k = 0 := by omega
    subst hk
    simp
  · rw [if_neg h0, sqDiffs_eq a b (by omega)]
    simp only [hs]
    congr 2
    apply Finset.sum_congr rfl
    intro i _
    simp [Spec.point, Real.dist_eq, sq_abs]

theorem point_inj {k : Nat} (a b : List ℝ) (ha : a.length = k) (hb : b.length = k)
    (h : Spec.point k a = Spec.point k b) : a = b := by
  apply List.ext_getElem (by omega)
  intro i h1 h2
  have := congrArg (fun p => p ⟨i, by omega⟩) h
  simpa [Spec.point, List.getD_eq_getElem?_getD, h1, h2] using this

/-- C10: non-negativity, identity of indiscernibles, symmetry, triangle inequality. -/
theorem C10_metric {k : Nat} (a b c : List ℝ) (ha : a.length = k) (hb : b.length = k)
    (hc : c.length = k) :
    ∃ ab ba bc ac, vectorsDistance a b = .ok ab ∧ vectorsDistance b a = .ok ba ∧
      vectorsDistance b c = .ok bc ∧ vectorsDistance a c = .ok ac ∧
      0 ≤ ab ∧ (ab = 0 ↔ a = b) ∧ ab = ba ∧ ac ≤ ab + bc := by
  refine ⟨_, _, _, _, C10_distance_is_euclidean a b ha hb, C10_distance_is_euclidean b a hb ha,
    C10_distance_is_euclidean b c hb hc, C10_distance_is_euclidean a c ha hc, dist_nonneg, ?_,
    dist_comm _ _, dist_triangle _ _ _⟩
  rw [dist_eq_zero]
  exact ⟨point_inj a b ha hb, fun h => by rw [h]⟩

/-- C10: the read past the end happens exactly when `0 < |b| < |a|`. -/
theorem C10_out_of_range_iff (a b : List ℝ) :
    (∃ r, vectorsDistance a b = .ok r) ↔ ¬ (0 < b.length ∧ b.length < a.length) := by
  unfold vectorsDistance sqDistance
  by_cases h0 : b.length = 0
  · simp [h0]
  · rw [if_neg h0]
    rcases le_or_gt a.length b.length with h | h
    · rw [sqDiffs_eq a b h]
      simp only [Except.ok.injEq, exists_eq', true_iff]
      omega
    · rw [sqDiffs_oob a b h]
      simp only [reduceCtorEq, exists_false, false_iff, not_not]
      omega

/-- C10: with an empty second point the result is 0, whatever the first one is. -/
theorem C10_empty_second (a : List ℝ) : vectorsDistance a [] = .ok 0 := by
  simp [vectorsDistance, sqDistance]

/-- C10: the scalar overload is the square of the distance, not the distance. -/
theorem C10_scalar_overload (a b : ℝ) :
    ∃ d, vectorsDistance [a] [b] = .ok d ∧ scalarDistance a b = d ^ 2 := by
  refine ⟨Real.sqrt ((a - b) ^ 2), ?_, ?_⟩
  · simp [vectorsDistance, sqDistance, sqDiffs]
  · rw [Real.sq_sqrt (sq_nonneg _)]; rfl

example : vectorsDistance [0, 0] [3, 4] = .ok 5 := by
  have : Real.sqrt 25 = 5 := by
    rw [show (25 : ℝ) = 5 ^ 2 by norm_num]; exact Real.sqrt_sq (by norm_num)
  simp [vectorsDistance, sqDistance, sqDiffs]
  norm_num [this]

/-! ### C11 -/

theorem set2_table {W : Type _} {n i j : Nat} (hi : i < n) (hj : j < n)
    (f : Nat → Nat → W) (x : W) :
    set2 (table n f) i j x =
      .ok (table n (fun a b => if a = i ∧ b = j then x else f a b)) := by
  unfold set2
  have h1 : vget (table n f) i = .ok ((List.range n).map (f i)) := by
    rw [vget_ok]; simp [table, hi]
  rw [h1, ok_bind, vmodify_map_range hj, ok_bind]
  unfold table
  rw [vmodify_map_range hi]
  congr 1
  apply List.map_congr_left
  intro a _
  by_cases h : a = i
  · subst h; simp
  · simp [h]

/-- The value computed for the pair `(a, b)`: the distance if `a < b` and point `a` is non-empty. -/
def Spec.entry {K W : Type _} [Zero W] (dist : List K → List K → W) (data : List (List K))
    (a b : Nat) : W :=
  match data[a]?, data[b]? with
  | some p, some q => if a < b ∧ p ≠ [] then dist p q else 0
  | _, _ => 0

/-- C11, general form: entry `(a,b)` is the distance of points `a < b` (0 when point `a` is empty)
and 0 on and below the diagonal; the weight set is the previous one plus 0, epsilon and the
distances below epsilon. -/
theorem C11_distance_matrix {K W : Type _} [LinearOrder W] [Zero W]
    (d : List K → List K → Res W) (dist : List K → List K → W) (eps : W) (weights0 : List W)
    (hw0 : weights0.Pairwise (· < ·)) (data : List (List K))
    (hd : ∀ p ∈ data, ∀ q ∈ data, p ≠ [] → d p q = .ok (dist p q)) :
    ∃ weights, distMatrixPipe d eps weights0 data =
        .ok (table data.length (Spec.entry dist data), weights) ∧
      weights.Pairwise (· < ·) ∧
      ∀ w, w ∈ weights ↔ w ∈ weights0 ∨ w = 0 ∨ w = eps ∨
        ∃ (a b : Nat) (p q : List K), a < b ∧ data[a]? = some p ∧ data[b]? = some q ∧ p ≠ [] ∧
          w = dist p q ∧ dist p q < eps := by
  set n := data.length with hn
  -- which pairs have been handled when the loops are at `(i, m)`
  let doneF : Nat → Nat → Nat → Nat → Prop := fun i m a b => a < i ∨ (a = i ∧ b < m)
  let F : Nat → Nat → Nat → Nat → W := fun i m a b =>
    if a < i ∨ (a = i ∧ b < m) then Spec.entry dist data a b else 0
  let Inv : Nat → Nat → (List (List W) × List W) → Prop := fun i m st =>
    st.1 = table n (F i m) ∧ st.2.Pairwise (· < ·) ∧
    ∀ w, w ∈ st.2 ↔ w ∈ weights0 ∨ ∃ a b p q, doneF i m a b ∧ a < b ∧ data[a]? = some p ∧
      data[b]? = some q ∧ p ≠ [] ∧ w = dist p q ∧ dist p q < eps
  have hFeq : ∀ i, table n (F (i + 1) 0) = table n (F i n) := by
    intro i
    unfold table
    apply List.map_congr_left
    intro a ha
    apply List.map_congr_left
    intro b hb
    have hb := List.mem_range.1 hb
    have : (a < i + 1 ∨ (a = i + 1 ∧ b < 0)) ↔ (a < i ∨ (a = i ∧ b < n)) := by omega
    simp only [F, this]
  have hInvEq : ∀ i st, Inv i n st → Inv (i + 1) 0 st := by
    rintro i st ⟨h1, h2, h3⟩
    refine ⟨by rw [hFeq]; exact h1, h2, fun w => ?_⟩
    rw [h3]
    apply or_congr Iff.rfl
    constructor
    · rintro ⟨a, b, p, q, hdn, hab, hp, hq, hne⟩
      exact ⟨a, b, p, q, by simp only [doneF] at hdn ⊢; omega, hab, hp, hq, hne⟩
    · rintro ⟨a, b, p, q, hdn, hab, hp, hq, hne⟩
      have hbn : b < n := (List.getElem?_eq_some_iff.1 hq).1
      exact ⟨a, b, p, q, by simp only [doneF] at hdn ⊢; omega, hab, hp, hq, hne⟩
  obtain ⟨r, hr, h1, h2, h3⟩ := foldlM_range_total (σ := List (List W) × List W)
    (fun st i => do
      let row ← vget data i
      if row.isEmpty then pure st
      else distMatrixRow d eps data i st)
    (fun i st => Inv i 0 st) n (List.replicate n (List.replicate n 0), weights0)
    (by
      refine ⟨?_, hw0, ?_⟩
      · simp [table, F]
      · intro w
        constructor
        · intro h; exact Or.inl h
        · rintro (h | ⟨a, b, p, q, hdn, _⟩)
          · exact h
          · simp only [doneF] at hdn; omega)
    (by
      intro i st hi hInv
      have hid : i < data.length := hi
      rw [vget_of_lt hid, ok_bind]
      by_cases hemp : data[i] = []
      · rw [if_pos (by simp [hemp])]
        refine ⟨st, rfl, ?_⟩
        apply hInvEq
        obtain ⟨h1, h2, h3⟩ := hInv
        refine ⟨?_, h2, fun w => ?_⟩
        · rw [h1]
          unfold table
          apply List.map_congr_left
          intro a _
          apply List.map_congr_left
          intro b _
          by_cases hai : a = i
          · subst hai
            have he : Spec.entry dist data a b = 0 := by
              unfold Spec.entry
              rw [List.getElem?_eq_getElem hid, hemp]
              cases data[b]? <;> simp
            simp [F, he]
          · simp [F, hai]
        · rw [h3]
          apply or_congr Iff.rfl
          constructor
          · rintro ⟨a, b, p, q, hdn, hr⟩
            exact ⟨a, b, p, q, by simp only [doneF] at hdn ⊢; omega, hr⟩
          · rintro ⟨a, b, p, q, hdn, hab, hp, hq, hne, hr⟩
            refine ⟨a, b, p, q, ?_, hab, hp, hq, hne, hr⟩
            simp only [doneF] at hdn ⊢
            rcases hdn with hdn | ⟨rfl, _⟩
            · exact Or.inl hdn
            · rw [List.getElem?_eq_getElem hid, hemp] at hp
              cases hp
              exact absurd rfl hne
      · rw [if_neg (by simpa using hemp)]
        unfold distMatrixRow
        -- the part of the row up to the diagonal is already right
        have hstart : Inv i (i + 1) st := by
          obtain ⟨h1, h2, h3⟩ := hInv
          refine ⟨?_, h2, fun w => ?_⟩
          · rw [h1]
            unfold table
            apply List.map_congr_left
            intro a _
            apply List.map_congr_left
            intro b _
            by_cases hai : a = i
            · subst hai
              by_cases hb : b < a + 1
              · have he : Spec.entry dist data a b = 0 := by
                  unfold Spec.entry
                  cases data[a]? <;> cases data[b]? <;> simp
                  intro h; omega
                simp [F, he]
              · simp [F, hb]
            · simp [F, hai]
          · rw [h3]
            apply or_congr Iff.rfl
            constructor
            · rintro ⟨a, b, p, q, hdn, hr⟩
              exact ⟨a, b, p, q, by simp only [doneF] at hdn ⊢; omega, hr⟩
            · rintro ⟨a, b, p, q, hdn, hab, hr⟩
              exact ⟨a, b, p, q, by simp only [doneF] at hdn ⊢; omega, hab, hr⟩
        have := foldlM_range'_total (σ := List (List W) × List W)
          (fun st j => do
            let a ← vget data i
            let b ← vget data j
            let dd ← d a b
            let weights := if dd < eps then setInsert dd st.2 else st.2
            let m ← set2 st.1 i j dd
            pure (m, weights)) (fun m st => Inv i m st) (n - (i + 1)) (i + 1) st hstart
          (by
            rintro j ⟨M, ws⟩ hj1 hj2 ⟨h1, h2, h3⟩
            simp only at h1 h2 h3
            have hjn : j < data.length := by omega
            have hjn' : j < n := hjn
            rw [vget_of_lt hid, ok_bind, vget_of_lt hjn, ok_bind,
              hd _ (List.getElem_mem hid) _ (List.getElem_mem hjn) hemp, ok_bind]
            simp only []
            rw [h1, set2_table hi hjn', ok_bind, pure_eq_ok]
            refine ⟨_, rfl, ?_, ?_, ?_⟩
            · simp only
              unfold table
              apply List.map_congr_left
              intro a _
              apply List.map_congr_left
              intro b _
              by_cases hai : a = i
              · subst hai
                by_cases hbj : b = j
                · subst hbj
                  have hab : a < b := by omega
                  simp [F, Spec.entry, hid, hjn, hab, hemp]
                · have : b < j + 1 ↔ b < j := by omega
                  simp [F, hbj, this]
              · simp [F, hai]
            · simp only
              split_ifs
              · exact inc_setInsert _ h2
              · exact h2
            · intro w
              simp only
              have hold : (∃ a b p q, doneF i (j + 1) a b ∧ a < b ∧ data[a]? = some p ∧
                  data[b]? = some q ∧ p ≠ [] ∧ w = dist p q ∧ dist p q < eps) ↔
                  ((∃ a b p q, doneF i j a b ∧ a < b ∧ data[a]? = some p ∧
                  data[b]? = some q ∧ p ≠ [] ∧ w = dist p q ∧ dist p q < eps) ∨
                  (w = dist data[i] data[j] ∧ dist data[i] data[j] < eps)) := by
                constructor
                · rintro ⟨a, b, p, q, hdn, hab, hp, hq, hr⟩
                  by_cases hcur : a = i ∧ b = j
                  · obtain ⟨rfl, rfl⟩ := hcur
                    rw [List.getElem?_eq_getElem hid] at hp
                    rw [List.getElem?_eq_getElem hjn] at hq
                    cases hp; cases hq
                    exact Or.inr hr.2
                  · exact Or.inl ⟨a, b, p, q, by simp only [doneF] at hdn ⊢; omega, hab, hp, hq, hr⟩
                · rintro (⟨a, b, p, q, hdn, hr⟩ | hr)
                  · exact ⟨a, b, p, q, by simp only [doneF] at hdn ⊢; omega, hr⟩
                  · exact ⟨i, j, data[i], data[j], Or.inr ⟨rfl, Nat.lt_succ_self j⟩, hj1,
                      List.getElem?_eq_getElem hid, List.getElem?_eq_getElem hjn, hemp, hr⟩
              rw [hold]
              split_ifs with hlt
              · rw [mem_setInsert, h3]
                clear hold h3
                constructor
                · rintro (h | h | h)
                  · exact Or.inr (Or.inr ⟨h, hlt⟩)
                  · exact Or.inl h
                  · exact Or.inr (Or.inl h)
                · rintro (h | h | h)
                  · exact Or.inr (Or.inl h)
                  · exact Or.inr (Or.inr h)
                  · exact Or.inl h.1
              · rw [h3]
                clear hold h3
                constructor
                · rintro (h | h)
                  · exact Or.inl h
                  · exact Or.inr (Or.inl h)
                · rintro (h | h | h)
                  · exact Or.inl h
                  · exact Or.inr h
                  · exact absurd h.2 hlt)
        obtain ⟨r, hr, hI⟩ := this
        rw [show i + 1 + (n - (i + 1)) = n by omega] at hI
        exact ⟨r, hr, hInvEq i r hI⟩)
  refine ⟨setInsert eps (setInsert 0 r.2), ?_, inc_setInsert _ (inc_setInsert _ h2), fun w => ?_⟩
  · unfold distMatrixPipe
    rw [← hn]
    dsimp only
    rw [hr, ok_bind, pure_eq_ok, h1]
    congr 2
    unfold table
    apply List.map_congr_left
    intro a ha
    apply List.map_congr_left
    intro b _
    simp [F, List.mem_range.1 ha]
  · rw [mem_setInsert, mem_setInsert, h3]
    have : (∃ a b p q, doneF n 0 a b ∧ a < b ∧ data[a]? = some p ∧
        data[b]? = some q ∧ p ≠ [] ∧ w = dist p q ∧ dist p q < eps) ↔
        (∃ (a b : Nat) (p q : List K), a < b ∧ data[a]? = some p ∧ data[b]? = some q ∧ p ≠ [] ∧
          w = dist p q ∧ dist p q < eps) := by
      constructor
      · rintro ⟨a, b, p, q, _, hr⟩; exact ⟨a, b, p, q, hr⟩
      · rintro ⟨a, b, p, q, hab, hp, hr⟩
        have : a < n := (List.getElem?_eq_some_iff.1 hp).1
        exact ⟨a, b, p, q, by simp only [doneF]; omega, hab, hp, hr⟩
    rw [this]
    clear this h3
    constructor
    · rintro (h | h | h | h)
      · exact Or.inr (Or.inr (Or.inl h))
      · exact Or.inr (Or.inl h)
      · exact Or.inl h
      · exact Or.inr (Or.inr (Or.inr h))
    · rintro (h | h | h | h)
      · exact Or.inr (Or.inr (Or.inl h))
      · exact Or.inr (Or.inl h)
      · exact Or.inl h
      · exact Or.inr (Or.inr (Or.inr h))

/-- C11 for a cloud of points of one dimension `k > 0` in a fresh packet: entry `(i,j)`, `i<j`, is
the Euclidean distance, all other entries are 0, and the weights are 0, epsilon and the distances
below epsilon. -/
theorem C11_distance_matrix_euclidean (k : Nat) (hk : 0 < k) (data : List (List ℝ))
    (hdim : ∀ p ∈ data, p.length = k) (eps : ℝ) :
    ∃ weights, distMatrixPipe vectorsDistance eps [] data =
        .ok (table data.length (fun i j =>
          if i < j then dist (Spec.point k (data.getD i [])) (Spec.point k (data.getD j []))
          else 0), weights) ∧
      weights.Pairwise (· < ·) ∧
      ∀ w, w ∈ weights ↔ w = 0 ∨ w = eps ∨ ∃ (i j : Nat) (p q : List ℝ), i < j ∧ data[i]? = some p ∧
        data[j]? = some q ∧ w = dist (Spec.point k p) (Spec.point k q) ∧ w < eps := by
  obtain ⟨ws, h1, h2, h3⟩ := C11_distance_matrix vectorsDistance
    (fun p q => dist (Spec.point k p) (Spec.point k q)) eps [] List.Pairwise.nil data
    (fun p hp q hq _ => C10_distance_is_euclidean p q (hdim p hp) (hdim q hq))
  refine ⟨ws, ?_, h2, fun w => ?_⟩
  · rw [h1]
    congr 2
    unfold table
    apply List.map_congr_left
    intro i hi
    apply List.map_congr_left
    intro j hj
    have hi := List.mem_range.1 hi
    have hj := List.mem_range.1 hj
    have hne : data[i] ≠ [] := by
      intro h
      have := hdim _ (List.getElem_mem hi)
      rw [h] at this
      simp at this; omega
    simp [Spec.entry, hi, hj, hne]
  · rw [h3]
    simp only [List.not_mem_nil, false_or]
    apply or_congr Iff.rfl
    apply or_congr Iff.rfl
    constructor
    · rintro ⟨a, b, p, q, hab, hp, hq, _, rfl, hlt⟩
      exact ⟨a, b, p, q, hab, hp, hq, rfl, hlt⟩
    · rintro ⟨a, b, p, q, hab, hp, hq, rfl, hlt⟩
      refine ⟨a, b, p, q, hab, hp, hq, ?_, rfl, hlt⟩
      rintro rfl
      have := hdim _ (List.mem_of_getElem? hp)
      simp at this; omega

/-- A concrete non-trivial run (with an integer-valued stand-in for the distance). -/
example : distMatrixPipe (fun p q => (sqDistance p q : Res Int)) 10 [] [[0, 0], [1, 2], [4, 4]] =
    .ok ([[0, 5, 32], [0, 0, 13], [0, 0, 0]], [0, 5, 10]) := by decide

end LHF
