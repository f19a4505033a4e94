import Verif.Model.StreamEval
import Verif.Props.KdTree
import Verif.Lemmas.Res

/-!
The stream evaluator of the base class and `insertIterative` (C114), the k-means variants of streamingUtils
(C115), and the queries of the kd-tree that return points (C41, C42).
-/

namespace LHF

/-! ### Specification -/

/-- The mean of a list of numbers. -/
noncomputable def Spec.mean (l : List ℝ) : ℝ := l.sum / l.length

/-- The standard deviation of a list of numbers. -/
noncomputable def Spec.stdev (l : List ℝ) : ℝ :=
  Real.sqrt ((l.map (fun x => (x - Spec.mean l) ^ 2)).sum / l.length)

/-- The Euclidean distances from a point to the rows of a window. -/
noncomputable def Spec.distances (k : Nat) (v : List ℝ) (window : List (List ℝ)) : List ℝ :=
  window.map (fun row => dist (Spec.point k v) (Spec.point k row))

/-- `near` are `n` of the smallest entries of `l`. -/
def Spec.Smallest (n : Nat) (l near : List ℝ) : Prop :=
  near.length = n ∧ ∃ far : List ℝ, (near ++ far).Perm l ∧ ∀ a ∈ near, ∀ b ∈ far, a ≤ b

/-! ### C114 -/

theorem accumulate_sum (l : List ℝ) : accumulate l = l.sum := by
  unfold accumulate
  rw [List.sum_eq_foldl]

theorem meanOf_eq (l : List ℝ) : meanOf l = Spec.mean l := by
  unfold meanOf Spec.mean
  rw [accumulate_sum]

theorem innerProduct_sum (l : List ℝ) : innerProduct l = (l.map (fun x => x ^ 2)).sum := by
  unfold innerProduct
  have : ∀ (l : List ℝ) (a : ℝ), (l.zip l).foldl (fun a p => a + p.1 * p.2) a =
      a + (l.map (fun x => x ^ 2)).sum := by
    intro l
    induction l with
    | nil => intro a; simp
    | cons x l ih =>
      intro a
      simp only [List.zip_cons_cons, List.foldl_cons, List.map_cons, List.sum_cons]
      rw [ih]
      ring
  rw [this]
  simp

theorem stdevOf_eq (l : List ℝ) : stdevOf l = Spec.stdev l := by
  unfold stdevOf Spec.stdev
  simp only [innerProduct_sum, meanOf_eq, List.map_map]
  rfl

theorem firstEntries_ok (l : List ℝ) (k : Nat) (h : k ≤ l.length) : firstEntries l k = .ok (l.take k) := by
  induction k with
  | zero => rfl
  | succ k ih =>
    unfold firstEntries
    rw [ih (by omega)]
    simp only [vget, bind, Except.bind]
    rw [List.getElem?_eq_getElem (by omega)]
    simp only [pure, Except.pure]
    rw [List.take_add_one]
    rw [List.getElem?_eq_getElem (by omega)]
    rfl

theorem firstEntries_oob (l : List ℝ) (k : Nat) (h : l.length < k) : firstEntries l k = .error .oob := by
  induction k with
  | zero => omega
  | succ k ih =>
    unfold firstEntries
    by_cases hk : l.length < k
    · rw [ih hk]
      rfl
    · rw [firstEntries_ok l k (by omega)]
      simp only [vget, bind, Except.bind]
      rw [List.getElem?_eq_none (by omega)]

theorem nearestNeighbors_distances (k : Nat) (v : List ℝ) (hv : v.length = k) (window : List (List ℝ))
    (hw : ∀ row ∈ window, row.length = k) :
    nearestNeighbors vectorsDistance v window = .ok (Spec.distances k v window) := by
  unfold nearestNeighbors Spec.distances
  induction window with
  | nil => rfl
  | cons r w ih =>
    rw [List.mapM_cons, C10_distance_is_euclidean v r hv (hw r (by simp)),
      ih (fun row h => hw row (by simp [h]))]
    rfl

/-- C114: for every window of at least 20 rows the evaluator of the base class is defined; the line it writes
holds the number of the vector, the mean and the standard deviation of all Euclidean distances from the new
row to the window, and the mean and the standard deviation of the 20 smallest of them. The answer is always
to accept. -/
theorem C114_evaluator_partial (count k : Nat) (v : List ℝ) (hv : v.length = k) (window : List (List ℝ))
    (hw : ∀ row ∈ window, row.length = k) (h20 : 20 ≤ window.length) :
    ∃ (near : List ℝ) (line : EvalLine), streamEvaluator count v window = .ok (true, line) ∧
      Spec.Smallest 20 (Spec.distances k v window) near ∧
      line.count = count ∧ line.k = 20 ∧ line.accept = true ∧
      line.mean = Spec.mean (Spec.distances k v window) ∧
      line.stdev = Spec.stdev (Spec.distances k v window) ∧
      line.meanNN = Spec.mean near ∧ line.stdevNN = Spec.stdev near := by
  set D := Spec.distances k v window with hD
  have hlen : D.length = window.length := by simp [hD, Spec.distances]
  have hsl : (stdSort D).length = D.length := by
    unfold stdSort
    exact List.length_insertionSort _ D
  refine ⟨(stdSort D).take 20, ⟨count, meanOf D, stdevOf D, 20, meanOf ((stdSort D).take 20),
    stdevOf ((stdSort D).take 20), true⟩, ?_, ⟨?_, (stdSort D).drop 20, ?_, ?_⟩, rfl, rfl, rfl, meanOf_eq D,
    stdevOf_eq D, meanOf_eq _, stdevOf_eq _⟩
  · unfold streamEvaluator
    rw [nearestNeighbors_distances k v hv window hw, ← hD]
    simp only [bind, Except.bind]
    rw [firstEntries_ok _ 20 (by omega)]
    rfl
  · rw [List.length_take]
    omega
  · rw [List.take_append_drop]
    exact List.perm_insertionSort _ D
  · have hs : (stdSort D).Pairwise (· ≤ ·) := List.pairwise_insertionSort _ D
    rw [← List.take_append_drop 20 (stdSort D)] at hs
    exact (List.pairwise_append.1 hs).2.2

/-- C114 is violated for every window of fewer than 20 rows: distances beyond the end of the list are
read. -/
theorem C114_small_window_violated (count k : Nat) (v : List ℝ) (hv : v.length = k) (window : List (List ℝ))
    (hw : ∀ row ∈ window, row.length = k) (h20 : window.length < 20) :
    streamEvaluator count v window = .error .oob := by
  unfold streamEvaluator
  rw [nearestNeighbors_distances k v hv window hw]
  simp only [bind, Except.bind]
  rw [firstEntries_oob _ 20 ?_]
  unfold stdSort
  rw [List.length_insertionSort]
  simpa [Spec.distances] using h20

/-- A window that meets the hypotheses of C114. -/
example : ∃ (v : List ℝ) (window : List (List ℝ)), v.length = 2 ∧ (∀ row ∈ window, row.length = 2) ∧
    20 ≤ window.length :=
  ⟨[0, 0], (List.range 25).map (fun i => [(i : ℝ), 1]), rfl, by simp, by simp⟩

/-- A stream of rows, each offered together with the window of that moment: the answers and the final value of
`removedSimplices`. -/
def Spec.offer (kind : InsertKind) : List (List ℝ × List (List ℝ)) → Nat → Res (List Bool × Nat)
  | [], n => pure ([], n)
  | r :: rest, n => do
    let a ← insertIterative kind n r.1 r.2
    let b ← Spec.offer kind rest a.2
    pure (a.1 :: b.1, b.2)

/-- C114: a simplexTree to which an evaluator has been given accepts exactly the rows offered with an empty
window and those the evaluator accepts, in every history, and counts the latter. -/
theorem C114_tree_history (f : List ℝ → List (List ℝ) → Bool) (rows : List (List ℝ × List (List ℝ)))
    (n : Nat) :
    Spec.offer (.tree (some f)) rows n =
      .ok (rows.map (fun r => decide (r.2 = []) || f r.1 r.2),
        n + rows.countP (fun r => decide (r.2 ≠ []) && f r.1 r.2)) := by
  induction rows generalizing n with
  | nil => rfl
  | cons r rest ih =>
    unfold Spec.offer insertIterative
    by_cases h : r.2 = []
    · simp only [h, List.length_nil, ↓reduceIte, pure, Except.pure, bind, Except.bind]
      rw [ih]
      simp [h]
    · have h' : ¬ r.2.length = 0 := by simpa using h
      simp only [h', ↓reduceIte]
      cases hf : f r.1 r.2
      · simp only [Bool.false_eq_true, ↓reduceIte, pure, Except.pure, bind, Except.bind]
        rw [ih]
        simp [h, hf]
      · simp only [↓reduceIte, pure, Except.pure, bind, Except.bind]
        rw [ih]
        simp [h, hf]
        omega

/-- C114: a simplexArrayList and an indSimplexTree refuse every row, in every history. -/
theorem C114_base_history (rows : List (List ℝ × List (List ℝ))) (n : Nat) :
    Spec.offer .base rows n = .ok (rows.map (fun _ => false), n) := by
  induction rows generalizing n with
  | nil => rfl
  | cons r rest ih =>
    unfold Spec.offer insertIterative
    simp only [pure, Except.pure, bind, Except.bind]
    rw [ih]
    rfl

/-- C114: a simplexTree to which no evaluator has been given calls through a pointer without a value, for every
row offered with a window that is not empty. -/
theorem C114_unset_evaluator_violated (n : Nat) (v : List ℝ) (window : List (List ℝ)) (hw : window ≠ []) :
    insertIterative (.tree none) n v window = .error .uninit := by
  unfold insertIterative
  have h' : ¬ window.length = 0 := by simpa using hw
  simp only [h', ↓reduceIte]

/-! ### C115 -/

/-- C115 is violated: `kMeans` of streamingUtils has no defined execution. -/
theorem C115_kmeans_violated (kHat : List (List ℝ)) (r : List (List ℝ)) : utilsKMeans kHat ≠ .ok r := by
  unfold utilsKMeans
  cases h : vget kHat 0 <;> simp [bind, Except.bind]

theorem ballTurn_error (clusters : List (List ℝ)) (h : clusters ≠ []) (rad : ℝ) (c i : Nat)
    (r : List (List ℝ) × List ℝ) : ballTurn clusters rad c ([], []) i ≠ .ok r := by
  intro he
  unfold ballTurn at he
  obtain ⟨row, -, he⟩ := bind_ok.1 he
  obtain ⟨d, -, he⟩ := bind_ok.1 he
  obtain ⟨s, hs, he⟩ := bind_ok.1 he
  obtain ⟨n, hn⟩ : ∃ n, clusters.length = n + 1 := by
    cases clusters with
    | nil => exact absurd rfl h
    | cons a l => exact ⟨l.length, rfl⟩
  rw [hn, List.range_succ_eq_map, List.foldlM_cons] at hs
  obtain ⟨s', hs', -⟩ := bind_ok.1 hs
  obtain ⟨x, -, hs'⟩ := bind_ok.1 hs'
  simp [vget, bind, Except.bind] at hs'

/-- C115: exactly when `ballKmeans` is defined: there is one row and both random numbers are 0; then the
result has no centroids. (The random numbers may be 1 too, which is out of range.) With two or more rows there
is no defined execution. -/
theorem C115_ball_defined_iff (i j : Nat) (clusters r : List (List ℝ)) :
    ballKmeans i j clusters = .ok r ↔ clusters.length = 1 ∧ i = 0 ∧ j = 0 ∧ r = [] := by
  constructor
  · intro h
    unfold ballKmeans at h
    obtain ⟨c0, h0, h⟩ := bind_ok.1 h
    obtain ⟨c1, h1, h⟩ := bind_ok.1 h
    obtain ⟨d, -, h⟩ := bind_ok.1 h
    obtain ⟨s, hs, h⟩ := bind_ok.1 h
    rcases clusters with _ | ⟨a, _ | ⟨b, l⟩⟩
    · simp [vget] at h0
    · have hi : i = 0 := by
        by_contra hi
        obtain ⟨i', rfl⟩ := Nat.exists_eq_succ_of_ne_zero hi
        simp [vget] at h0
      have hj : j = 0 := by
        by_contra hj
        obtain ⟨j', rfl⟩ := Nat.exists_eq_succ_of_ne_zero hj
        simp [vget] at h1
      refine ⟨rfl, hi, hj, ?_⟩
      simp only [List.length_singleton, szPred] at hs
      simp [pure, Except.pure] at hs
      subst hs
      simp [pure, Except.pure, bind, Except.bind] at h
      exact h
    · exfalso
      have hlen : szPred (a :: b :: l).length = l.length + 1 := by simp [szPred]
      rw [hlen, List.range_succ_eq_map, List.foldlM_cons] at hs
      obtain ⟨s', hs', -⟩ := bind_ok.1 hs
      exact ballTurn_error _ (by simp) _ _ _ _ hs'
  · rintro ⟨h, rfl, rfl, rfl⟩
    obtain ⟨a, rfl⟩ := List.length_eq_one_iff.1 h
    unfold ballKmeans
    simp only [vget, List.getElem?_cons_zero, bind, Except.bind]
    rw [C10_distance_is_euclidean (k := a.length) a a rfl rfl]
    simp [szPred, pure, Except.pure]

/-- C115 is violated: `ballKmeans` has no defined execution on two or more rows, whatever the random
numbers. -/
theorem C115_ball_violated (i j : Nat) (clusters r : List (List ℝ)) (h : 2 ≤ clusters.length) :
    ballKmeans i j clusters ≠ .ok r := by
  intro he
  have := (C115_ball_defined_iff i j clusters r).1 he
  omega

/-! ### C41 and C42 for the queries that return points -/

/-- C41: `nearestPointIndex` returns a stored point with its index in the data, `nearestPoint` the same point
and `nearestIndex` the same index, and no stored point is nearer. -/
theorem C41_nearest_point (S : SortByLevel ℝ) (ab : ℝ → ℝ) (hab : ∀ x, ab x ≤ |x|)
    (k : Nat) (hk : 0 < k) (data : List (List ℝ)) (hlen : ∀ x ∈ data, x.length = k)
    (size : Nat) (hsize : size ≤ data.length) (hne : data ≠ [])
    (pt : List ℝ) (hpt : pt.length = k) :
    ∃ t i x, kdTreeOf S data size = .ok t ∧ nearestPointIndex vectorsDistance ab t pt = .ok (x, i) ∧
      nearestPoint vectorsDistance ab t pt = .ok x ∧ nearestIndex vectorsDistance ab t pt = .ok i ∧
      i < Spec.treeSize data size ∧ data[i]? = some x ∧
      ∀ j y, j < Spec.treeSize data size → data[j]? = some y →
        dist (Spec.point k x) (Spec.point k pt) ≤ dist (Spec.point k y) (Spec.point k pt) := by
  obtain ⟨t, h1, h2, h3⟩ := kdTreeOf_spec S k hk data hlen size hsize
  have hlens : ∀ p ∈ t.points, p.1.length = k := by
    intro p hp
    have := (mem_zipIdx_take.1 (h3.mem_iff.1 hp)).2
    exact hlen _ (List.mem_of_getElem? this)
  have hd := distTo_euclidean (k := k) pt hpt
  rcases t with _ | ⟨x, i, l, r⟩
  · exfalso
    have hl := h3.length_eq
    have h0 : 0 < data.length := List.length_pos_iff.2 hne
    simp only [KdTree.points, List.length_nil, List.length_zipIdx, List.length_take] at hl
    split_ifs at hl <;> omega
  · have hroot : (x, i) ∈ (KdTree.node x i l r).points := by simp [KdTree.points]
    obtain ⟨o, e, n1, s1⟩ := findNearest_spec hk hd hab (KdTree.node x i l r) 0 (x, i) hk h2 hlens
      (hlens _ hroot)
    rcases o with _ | q
    · have := n1 rfl
      rw [this] at hroot
      cases hroot
    · obtain ⟨hm, -, hmin⟩ := s1 q rfl
      have hq : q ∈ (KdTree.node x i l r).points := by
        rcases hm with rfl | h
        · exact hroot
        · exact h
      have hq' := mem_zipIdx_take.1 (h3.mem_iff.1 hq)
      have hnear : nearest vectorsDistance ab (KdTree.node x i l r) pt = .ok (some q) := by
        unfold nearest KdTree.root?
        dsimp only
        rw [hd.val x (hlens _ hroot)]
        simp only [bind, Except.bind]
        rw [e]
      refine ⟨_, q.2, q.1, h1, ?_, ?_, ?_, hq'.1, hq'.2, fun j y hj hy => ?_⟩
      · unfold nearestPointIndex
        rw [hnear]
        rfl
      · unfold nearestPoint
        rw [hnear]
        rfl
      · unfold nearestIndex
        rw [hnear]
        rfl
      · exact hmin (y, j) (h3.mem_iff.2 (mem_zipIdx_take.2 ⟨hj, hy⟩))

/-- C42: `neighborhoodPoints` returns the rows whose indices `neighborhoodIndices` returns, one by one: each
within the radius, and all that are strictly within it. -/
theorem C42_range_query_points_partial (S : SortByLevel ℝ) (ab : ℝ → ℝ) (hab : ∀ x, ab x ≤ |x|)
    (k : Nat) (hk : 0 < k) (data : List (List ℝ)) (hlen : ∀ x ∈ data, x.length = k)
    (size : Nat) (hsize : size ≤ data.length) (pt : List ℝ) (hpt : pt.length = k) (rad : ℝ) :
    ∃ t res idx, kdTreeOf S data size = .ok t ∧
      neighborhoodPoints vectorsDistance ab t pt rad = .ok res ∧
      neighborhoodIndices vectorsDistance ab t pt rad = .ok idx ∧
      res.map some = idx.map (fun i => data[i]?) ∧
      (∀ x ∈ res, dist (Spec.point k x) (Spec.point k pt) ≤ rad) ∧
      ∀ i x, i < Spec.treeSize data size → data[i]? = some x →
        dist (Spec.point k x) (Spec.point k pt) < rad → x ∈ res := by
  obtain ⟨t, h1, h2, h3⟩ := kdTreeOf_spec S k hk data hlen size hsize
  have hlens : ∀ p ∈ t.points, p.1.length = k := by
    intro p hp
    have := (mem_zipIdx_take.1 (h3.mem_iff.1 hp)).2
    exact hlen _ (List.mem_of_getElem? this)
  have hd := distTo_euclidean (k := k) pt hpt
  obtain ⟨res, e, hs, hb, hc⟩ := neighborhood_spec hk hd hab rad t 0 hk h2 hlens
  refine ⟨t, res.map Prod.fst, res.map Prod.snd, h1, ?_, ?_, ?_, ?_, ?_⟩
  · unfold neighborhoodPoints
    rw [e]
    rfl
  · unfold neighborhoodIndices
    rw [e]
    rfl
  · rw [List.map_map, List.map_map]
    apply List.map_congr_left
    intro p hp
    exact (mem_zipIdx_take.1 (h3.mem_iff.1 (hs.subset hp))).2.symm
  · intro x hx
    obtain ⟨p, hp, rfl⟩ := List.mem_map.1 hx
    exact hb p hp
  · intro i x hi hx hlt
    exact List.mem_map.2 ⟨(x, i), hc (x, i) (h3.mem_iff.2 (mem_zipIdx_take.2 ⟨hi, hx⟩)) hlt, rfl⟩

end LHF
