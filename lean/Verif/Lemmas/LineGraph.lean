import Verif.Lemmas.Relabel
import Verif.Props.IndexedProgram
import Verif.Props.Invariance
import Mathlib.SetTheory.Cardinal.Finite
import Mathlib.Order.Interval.Finset.Nat

/-! The components of points on a line. -/

namespace LHF
open Spec

/-- How many of the first `i` gaps of `x` are longer than `t`. -/
noncomputable def jumps (t : ℝ) (x : Nat → ℝ) : Nat → Nat
  | 0 => 0
  | i + 1 => jumps t x i + if x (i + 1) - x i ≤ t then 0 else 1

theorem jumps_le (t : ℝ) (x : Nat → ℝ) (i k : Nat) : jumps t x i ≤ jumps t x (i + k) := by
  induction k with
  | zero => exact le_rfl
  | succ k ih => exact ih.trans (by rw [← Nat.add_assoc]; simp only [jumps]; omega)

theorem jumps_mono (t : ℝ) (x : Nat → ℝ) {i j : Nat} (h : i ≤ j) : jumps t x i ≤ jumps t x j := by
  obtain ⟨k, rfl⟩ := Nat.exists_eq_add_of_le h
  exact jumps_le t x i k

theorem jumps_near {t : ℝ} {x : Nat → ℝ} (hx : Monotone x) {i j : Nat} (hij : i ≤ j) (h : x j - x i ≤ t) :
    jumps t x i = jumps t x j := by
  induction j, hij using Nat.le_induction with
  | base => rfl
  | succ j hij ih =>
    have h1 := hx hij
    have h2 := hx (Nat.le_succ j)
    have e : x (j + 1) - x j ≤ t := by linarith
    rw [ih (by linarith)]
    simp [jumps, e]

theorem jumps_onto (t : ℝ) (x : Nat → ℝ) : ∀ (m v : Nat), v ≤ jumps t x m → ∃ i, i ≤ m ∧ jumps t x i = v
  | 0, v, h => ⟨0, le_rfl, by simp only [jumps] at h ⊢; omega⟩
  | m + 1, v, h => by
    by_cases hv : v ≤ jumps t x m
    · obtain ⟨i, h1, h2⟩ := jumps_onto t x m v hv
      exact ⟨i, by omega, h2⟩
    · refine ⟨m + 1, le_rfl, ?_⟩
      simp only [jumps] at h ⊢
      split_ifs at h ⊢ <;> omega

theorem reachable_of_jumps {t : ℝ} {x : Nat → ℝ} (hx : Monotone x) {n : Nat} {i j : Nat} (hij : i ≤ j) (hj : j < n)
    (h : jumps t x i = jumps t x j) :
    (scaleGraph n (fun i j => |x i - x j|) t).Reachable ⟨i, by omega⟩ ⟨j, hj⟩ := by
  induction j, hij using Nat.le_induction with
  | base => exact SimpleGraph.Reachable.refl _
  | succ j hij ih =>
    have h1 := jumps_mono t x hij
    have h2 : jumps t x j ≤ jumps t x (j + 1) := jumps_mono t x (Nat.le_succ j)
    refine (ih (by omega) (by omega)).trans (SimpleGraph.Adj.reachable (Or.inl ⟨by simp, ?_⟩))
    have h3 : jumps t x j = jumps t x (j + 1) := by omega
    have h4 : x (j + 1) - x j ≤ t := by
      by_contra hc
      simp [jumps, hc] at h3
    have h5 := hx (Nat.le_succ j)
    show |x j - x (j + 1)| ≤ t
    rw [abs_sub_comm, abs_of_nonneg (by linarith)]
    exact h4

theorem jumps_of_reachable {t : ℝ} {x : Nat → ℝ} (hx : Monotone x) {n : Nat} {u v : Fin n}
    (h : (scaleGraph n (fun i j => |x i - x j|) t).Reachable u v) : jumps t x u = jumps t x v := by
  have adj : ∀ u v : Fin n, u < v → |x u - x v| ≤ t → jumps t x u = jumps t x v := by
    intro u v huv hd
    have h1 := hx (le_of_lt (show u.1 < v.1 from huv))
    rw [abs_sub_comm, abs_of_nonneg (by linarith)] at hd
    exact jumps_near hx (le_of_lt (show u.1 < v.1 from huv)) hd
  obtain ⟨p⟩ := h
  induction p with
  | nil => rfl
  | cons e _ ih =>
    rw [← ih]
    rcases e with ⟨h1, h2⟩ | ⟨h1, h2⟩
    · exact adj _ _ h1 h2
    · exact (adj _ _ h1 h2).symm

/-- The components of points on a line: one more than the gaps longer than the scale. -/
theorem components_line {t : ℝ} {x : Nat → ℝ} (hx : Monotone x) (n : Nat) :
    components (scaleGraph (n + 1) (fun i j => |x i - x j|) t) = jumps t x n + 1 := by
  have hf : ∀ u v : Fin (n + 1), (scaleGraph (n + 1) (fun i j => |x i - x j|) t).Reachable u v →
      jumps t x u = jumps t x v := fun u v h => jumps_of_reachable hx h
  let f : (scaleGraph (n + 1) (fun i j => |x i - x j|) t).ConnectedComponent → Fin (jumps t x n + 1) :=
    fun c => c.lift (fun u : Fin (n + 1) => ⟨jumps t x u, by have := jumps_mono t x (show u.1 ≤ n by omega); omega⟩)
      (fun u v p _ => Fin.ext (hf u v p.reachable))
  have hb : Function.Bijective f := by
    constructor
    · intro c c'
      refine SimpleGraph.ConnectedComponent.ind₂ (fun u v h => ?_) c c'
      have h' : jumps t x u = jumps t x v := congrArg Fin.val h
      rw [SimpleGraph.ConnectedComponent.eq]
      rcases le_total u v with huv | huv
      · exact reachable_of_jumps hx (show u.1 ≤ v.1 from huv) v.2 h'
      · exact (reachable_of_jumps hx (show v.1 ≤ u.1 from huv) u.2 h'.symm).symm
    · rintro ⟨v, hv⟩
      obtain ⟨i, h1, h2⟩ := jumps_onto t x n v (by omega)
      exact ⟨SimpleGraph.connectedComponentMk _ ⟨i, by omega⟩, Fin.ext h2⟩
  unfold components
  rw [Nat.card_congr (Equiv.ofBijective f hb), Nat.card_eq_fintype_card, Fintype.card_fin]

/-- The differences of neighbours in a list. -/
def Spec.gaps : List ℝ → List ℝ
  | a :: b :: r => (b - a) :: Spec.gaps (b :: r)
  | _ => []

theorem gaps_length : ∀ ys : List ℝ, (gaps ys).length = ys.length - 1
  | [] => rfl
  | [_] => rfl
  | a :: b :: r => by simp [gaps, gaps_length (b :: r)]

theorem gaps_get : ∀ (ys : List ℝ) (i : Nat), i + 1 < ys.length →
    (gaps ys)[i]? = some (ys.getD (i + 1) 0 - ys.getD i 0)
  | [], _, h => by simp at h
  | [_], _, h => by simp at h
  | a :: b :: r, 0, _ => by simp [gaps]
  | a :: b :: r, i + 1, h => by
    simp only [gaps, List.getElem?_cons_succ]
    rw [gaps_get (b :: r) i (by simpa using h)]
    simp

theorem gaps_range (ys : List ℝ) : gaps ys =
    (List.range (ys.length - 1)).map (fun i => ys.getD (i + 1) 0 - ys.getD i 0) := by
  apply List.ext_getElem?
  intro i
  by_cases h : i + 1 < ys.length
  · rw [gaps_get ys i h, List.getElem?_map, List.getElem?_range (by omega)]; rfl
  · rw [List.getElem?_eq_none (by rw [gaps_length]; omega), List.getElem?_eq_none (by simp; omega)]

theorem jumps_count (t : ℝ) (x : Nat → ℝ) (n : Nat) :
    jumps t x n + (((List.range n).map (fun i => x (i + 1) - x i)).filter (fun w => w ≤ t)).length = n := by
  induction n with
  | zero => rfl
  | succ n ih =>
    rw [List.range_succ, List.map_append, List.filter_append, List.length_append]
    simp only [jumps, List.map_cons, List.map_nil]
    split_ifs with h
    · rw [List.filter_cons_of_pos (by simpa using h)]; simp; omega
    · rw [List.filter_cons_of_neg (by simpa using h)]; simp; omega

/-- The values in increasing order, as a function on all indices. -/
noncomputable def lineAt (ys : List ℝ) (i : Nat) : ℝ := ys.getD (min i (ys.length - 1)) 0

theorem lineAt_mono {ys : List ℝ} (h : ys.Pairwise (· ≤ ·)) : Monotone (lineAt ys) := by
  intro i j hij
  unfold lineAt
  rcases Nat.eq_zero_or_pos ys.length with h0 | h0
  · rw [List.length_eq_zero_iff.1 h0]; simp
  · have h1 : min i (ys.length - 1) < ys.length := by omega
    have h2 : min j (ys.length - 1) < ys.length := by omega
    rw [List.getD_eq_getElem _ _ h1, List.getD_eq_getElem _ _ h2]
    rcases Nat.lt_or_ge (min i (ys.length - 1)) (min j (ys.length - 1)) with hlt | hge
    · exact List.pairwise_iff_getElem.1 h _ _ h1 h2 hlt
    · have e : min i (ys.length - 1) = min j (ys.length - 1) := by omega
      simp only [e, le_refl]

theorem rowDist_lineAt (ys : List ℝ) (i j : Fin ys.length) :
    rowDist 1 (ys.map (fun y => [y])) i j = |lineAt ys i - lineAt ys j| := by
  have e : ∀ i : Fin ys.length, (ys.map (fun y => [y])).getD i [] = [lineAt ys i] := by
    intro i
    have hi : min i.1 (ys.length - 1) = i.1 := by omega
    unfold lineAt
    rw [hi, List.getD_eq_getElem _ _ (by simp), List.getD_eq_getElem _ _ i.2, List.getElem_map]
  exact rowDist_line _ i j _ _ (e i) (e j)

theorem rowDist_components (ys : List ℝ) (t : ℝ) :
    components (scaleGraph ys.length (rowDist 1 (ys.map (fun y => [y]))) t) =
      components (scaleGraph ys.length (fun i j => |lineAt ys i - lineAt ys j|) t) :=
  components_relabel (fun _ _ => abs_sub_comm _ _) (rowDist_symm 1 _) (Equiv.refl _)
    (fun i j => rowDist_lineAt ys i j) t

theorem components_gaps {ys : List ℝ} (h : ys.Pairwise (· ≤ ·)) (t : ℝ) :
    components (scaleGraph ys.length (rowDist 1 (ys.map (fun y => [y]))) t) +
      ((gaps ys).filter (fun w => w ≤ t)).length = ys.length := by
  rw [rowDist_components]
  rcases Nat.eq_zero_or_pos ys.length with h0 | h0
  · rw [List.length_eq_zero_iff.1 h0]
    simp only [gaps, List.filter_nil, List.length_nil, Nat.add_zero, components]
    rw [Nat.card_eq_zero]
    left
    constructor
    intro c
    exact c.ind (fun v => v.elim0)
  · obtain ⟨n, hn⟩ : ∃ n, ys.length = n + 1 := ⟨ys.length - 1, by omega⟩
    have e : gaps ys = (List.range n).map (fun i => lineAt ys (i + 1) - lineAt ys i) := by
      rw [gaps_range, hn, Nat.add_sub_cancel]
      apply List.map_congr_left
      intro i hi
      have hi' := List.mem_range.1 hi
      unfold lineAt
      rw [hn, Nat.add_sub_cancel, Nat.min_eq_left (by omega), Nat.min_eq_left (by omega)]
    rw [hn, components_line (lineAt_mono h) n, e]
    have := jumps_count t (lineAt ys) n
    omega

end LHF
