import Verif.Lemmas.Dbscan
import Verif.Props.KdTree

/-!
Properties of DBSCAN (C43): the loops for every neighbourhood query, and the whole function on points of
Euclidean space.
-/

namespace LHF

open Spec

theorem isClustering_of_clustered {N : Nat → List Nat} {minPoints n m : Nat} {L : List Int}
    (h : Clustered N minPoints n n m L) : IsClustering N minPoints n m (labelAt L) := by
  have hcore : ∀ i, i < n → Core N minPoints i → 1 ≤ labelAt L i := by
    intro i hi hc
    have h1 := h.low i hi
    have h2 := h.done i hi
    by_contra h3
    exact h.noise i hi (by omega) hc
  refine ⟨fun i hi => ?_, h.used, fun i hi => ⟨fun hl => ⟨h.noise i hi hl, ?_⟩, ?_⟩, h.near, ?_⟩
  · have h1 := h.low i hi
    have h2 := h.done i hi
    have h3 := h.high i hi
    omega
  · intro j hj hc hij
    have := h.closed j hj hc (hcore j hj hc) i hij
    omega
  · rintro ⟨h1, h2⟩
    by_contra h3
    have h4 := h.low i hi
    have h5 := h.done i hi
    obtain ⟨j, hj, hjc, -, hij⟩ := h.near i hi (by omega)
    exact h2 j hj hjc hij
  · intro i j hi hj hci hcj he
    exact h.conn i j hi hj hci hcj (hcore i hi hci) he

/-- C43: for every neighbourhood query under which each point is its own neighbour and all neighbours
are points, with at most `B` neighbours per point, the expansion of a cluster ends after at most
`(n + 1) * B` turns and the labels are a density-based clustering: -1 and 1, ..., m, noise is exactly
what is neither a core point nor a neighbour of one, points of a cluster are neighbours of its core
points, and its core points are connected. -/
theorem C43_clustering (N : Nat → List Nat) (nb : Nat → Res (List Nat)) (minPoints n B fuel : Nat)
    (hval : ∀ i, i < n → nb i = .ok (N i)) (hlt : ∀ i, i < n → ∀ j ∈ N i, j < n)
    (hself : ∀ i, i < n → i ∈ N i) (hB : ∀ i, i < n → (N i).length ≤ B)
    (hfuel : (n + 1) * B ≤ fuel) :
    ∃ labels m, clusterPoints nb minPoints fuel n = .ok (some (labels, m)) ∧ labels.length = n ∧
      IsClustering N minPoints n m (fun i => labels.getD i 0) := by
  obtain ⟨L, m, he, h⟩ := clusterPoints_spec ⟨hval, hlt⟩ hself hB (minPoints := minPoints) hfuel
  exact ⟨L, m, he, h.len, isClustering_of_clustered h⟩

/-- C43: if moreover the neighbourhoods are symmetric, two core points are in the same cluster exactly
if they are connected. -/
theorem C43_clusters_are_components (N : Nat → List Nat) (nb : Nat → Res (List Nat))
    (minPoints n B fuel : Nat) (hval : ∀ i, i < n → nb i = .ok (N i))
    (hlt : ∀ i, i < n → ∀ j ∈ N i, j < n) (hself : ∀ i, i < n → i ∈ N i)
    (hB : ∀ i, i < n → (N i).length ≤ B) (hfuel : (n + 1) * B ≤ fuel)
    (hsym : ∀ i j, i < n → j < n → j ∈ N i → i ∈ N j) :
    ∃ labels m, clusterPoints nb minPoints fuel n = .ok (some (labels, m)) ∧
      ∀ i j, i < n → j < n → Core N minPoints i → Core N minPoints j →
        (labels.getD i 0 = labels.getD j 0 ↔ Connected N minPoints n i j) := by
  obtain ⟨L, m, he, h⟩ := clusterPoints_spec ⟨hval, hlt⟩ hself hB (minPoints := minPoints) hfuel
  have hcl := isClustering_of_clustered h
  refine ⟨L, m, he, fun i j hi hj hci hcj => ⟨fun e => hcl.connected i j hi hj hci hcj e, ?_⟩⟩
  intro hc
  clear hi hj hci hcj
  induction hc with
  | rel a b hab =>
    obtain ⟨ha, hb, hca, hcb, hab⟩ := hab
    have h1 := h.low a ha
    have h2 := h.done a ha
    have h3 : ¬ labelAt L a = -1 := fun e => h.noise a ha e hca
    exact (h.same hsym a b ha hca hcb hab (by omega)).symm
  | refl a => rfl
  | symm a b _ ih => exact ih.symm
  | trans a b c _ _ ih1 ih2 => exact ih1.trans ih2

/-- The hypotheses of C43 are met: five points on a line with distance 1 between neighbours, of which
the last is far away, and `minPoints` 3. -/
example : let N : Nat → List Nat := fun i => ([[0, 1], [0, 1, 2], [1, 2, 3], [2, 3], [4]].getD i [])
    (∀ i, i < 5 → ∀ j ∈ N i, j < 5) ∧ (∀ i, i < 5 → i ∈ N i) ∧ (∀ i, i < 5 → (N i).length ≤ 3) ∧
    (∀ i j, i < 5 → j < 5 → j ∈ N i → i ∈ N j) ∧
    clusterPoints (fun i => .ok (N i)) 3 18 5 = .ok (some ([1, 1, 1, 1, -1], 1)) := by
  refine ⟨by decide, by decide, by decide, ?_, by decide⟩
  intro i j hi hj
  interval_cases i <;> interval_cases j <;> decide

/-! ### On points -/

theorem dbscan_neighbours (S : SortByLevel ℝ) (ab : ℝ → ℝ) (hab : ∀ x, ab x ≤ |x|) (k : Nat)
    (hk : 0 < k) (data : List (List ℝ)) (hlen : ∀ x ∈ data, x.length = k) (size : Nat)
    (hsize : size ≤ data.length) (rad : ℝ) :
    ∃ (t : KdTree ℝ) (N : Nat → List Nat), kdTreeOf S data size = .ok t ∧
      ∀ i x, data[i]? = some x →
        neighborhoodIndices vectorsDistance ab t x rad = .ok (N i) ∧ (N i).Nodup ∧
        (∀ j ∈ N i, j < Spec.treeSize data size ∧ ∃ y, data[j]? = some y ∧
          dist (Spec.point k y) (Spec.point k x) ≤ rad) ∧
        ∀ j y, j < Spec.treeSize data size → data[j]? = some y →
          dist (Spec.point k y) (Spec.point k x) < rad → j ∈ N i := by
  obtain ⟨t, h1, -, -⟩ := kdTreeOf_spec S k hk data hlen size hsize
  have hex : ∀ i : Nat, ∃ l : List Nat, ∀ x : List ℝ, data[i]? = some x →
      neighborhoodIndices vectorsDistance ab t x rad = .ok l ∧ l.Nodup ∧
        (∀ j ∈ l, j < Spec.treeSize data size ∧ ∃ y, data[j]? = some y ∧
          dist (Spec.point k y) (Spec.point k x) ≤ rad) ∧
        ∀ j y, j < Spec.treeSize data size → data[j]? = some y →
          dist (Spec.point k y) (Spec.point k x) < rad → j ∈ l := by
    intro i
    rcases hx : data[i]? with _ | x
    · exact ⟨[], by simp⟩
    · obtain ⟨t', res, e1, e2, e3, e4, e5⟩ := C42_range_query_partial S ab hab k hk data hlen size
        hsize x (hlen x (List.mem_of_getElem? hx)) rad
      rw [h1] at e1
      cases e1
      exact ⟨res, fun x' hx' => by cases hx'; exact ⟨e2, e3, e4, e5⟩⟩
  choose N hN using hex
  exact ⟨t, N, h1, fun i x hx => hN i x hx⟩

theorem treeSize_treeSize (data : List (List ℝ)) (size : Nat) :
    Spec.treeSize data (Spec.treeSize data size) = Spec.treeSize data size := by
  unfold Spec.treeSize
  split_ifs <;> simp_all

/-- C43: on every set of points with `k` coordinates and for every positive epsilon, DBSCAN ends within
the stated number of turns and its labels are a density-based clustering for neighbourhoods that contain
every point at distance less than epsilon and no point at a larger distance. -/
theorem C43_dbscan_euclidean (S : SortByLevel ℝ) (ab : ℝ → ℝ) (hab : ∀ x, ab x ≤ |x|) (k : Nat)
    (hk : 0 < k) (data : List (List ℝ)) (hlen : ∀ x ∈ data, x.length = k) (size : Nat)
    (hsize : size ≤ data.length) (minPoints : Nat) (epsilon : ℝ) (heps : 0 < epsilon) (n : Nat)
    (hn : n = Spec.treeSize data size) (fuel : Nat) (hfuel : (n + 1) * n ≤ fuel) :
    ∃ (labels : List Int) (m : Nat) (N : Nat → List Nat),
      dbscanCluster S vectorsDistance ab data minPoints epsilon size fuel = .ok (some labels) ∧
      labels.length = n ∧
      (∀ i j x y, i < n → j < n → data[i]? = some x → data[j]? = some y →
        (dist (Spec.point k y) (Spec.point k x) < epsilon → j ∈ N i) ∧
        (j ∈ N i → dist (Spec.point k y) (Spec.point k x) ≤ epsilon)) ∧
      (∀ i, i < n → (N i).Nodup ∧ ∀ j ∈ N i, j < n) ∧
      IsClustering N minPoints n m (fun i => labels.getD i 0) := by
  have hnl : n ≤ data.length := by
    rw [hn]; unfold Spec.treeSize; split_ifs <;> omega
  have hts : Spec.treeSize data n = n := by rw [hn]; exact treeSize_treeSize data size
  obtain ⟨t, N, ht, hN⟩ := dbscan_neighbours S ab hab k hk data hlen n hnl epsilon
  rw [hts] at hN
  have hget : ∀ i, i < n → ∃ x, data[i]? = some x := by
    intro i hi
    exact ⟨_, List.getElem?_eq_getElem (by omega)⟩
  set nb : Nat → Res (List Nat) := fun i => do
    let x ← vget data i
    neighborhoodIndices vectorsDistance ab t x epsilon with hnb
  have hval : ∀ i, i < n → nb i = .ok (N i) := by
    intro i hi
    obtain ⟨x, hx⟩ := hget i hi
    have : vget data i = .ok x := by unfold vget; rw [hx]
    rw [hnb]
    simp only [this, bind, Except.bind]
    exact (hN i x hx).1
  have hlt : ∀ i, i < n → ∀ j ∈ N i, j < n := by
    intro i hi j hj
    obtain ⟨x, hx⟩ := hget i hi
    exact ((hN i x hx).2.2.1 j hj).1
  have hnd : ∀ i, i < n → (N i).Nodup := by
    intro i hi
    obtain ⟨x, hx⟩ := hget i hi
    exact (hN i x hx).2.1
  have hself : ∀ i, i < n → i ∈ N i := by
    intro i hi
    obtain ⟨x, hx⟩ := hget i hi
    exact (hN i x hx).2.2.2 i x hi hx (by rw [dist_self]; exact heps)
  have hB : ∀ i, i < n → (N i).length ≤ n := by
    intro i hi
    have : (N i).Subperm (List.range n) :=
      List.subperm_of_subset (hnd i hi) (fun j hj => List.mem_range.2 (hlt i hi j hj))
    simpa using this.length_le
  obtain ⟨labels, m, he, hl, hcl⟩ := C43_clustering N nb minPoints n n fuel hval hlt hself hB hfuel
  refine ⟨labels, m, N, ?_, hl, ?_, fun i hi => ⟨hnd i hi, hlt i hi⟩, hcl⟩
  · unfold dbscanCluster
    dsimp only
    have hnn : (if size = 0 then data.length else size) = n := by rw [hn]; rfl
    rw [hnn, ht]
    have hb : ∀ (f : KdTree ℝ → Res (Option (List Int))),
        ((Except.ok t : Res (KdTree ℝ)) >>= f) = f t := fun _ => rfl
    rw [hb, ← hnb, he]
    rfl
  · intro i j x y hi hj hx hy
    refine ⟨(hN i x hx).2.2.2 j y hj hy, fun h => ?_⟩
    obtain ⟨-, y', hy', hd⟩ := (hN i x hx).2.2.1 j h
    rw [hy] at hy'
    cases hy'
    exact hd

/-- The neighbours of a point: the points at distance at most epsilon. -/
noncomputable def Spec.ball (k : Nat) (data : List (List ℝ)) (n : Nat) (epsilon : ℝ) (i : Nat) :
    List Nat :=
  open Classical in
  (List.range n).filter (fun j =>
    dist (Spec.point k (data.getD j [])) (Spec.point k (data.getD i [])) ≤ epsilon)

theorem IsClustering.congr {N N' : Nat → List Nat} {minPoints n m : Nat} {label : Nat → Int}
    (h : IsClustering N minPoints n m label) (hp : ∀ i, i < n → (N i).Perm (N' i)) :
    IsClustering N' minPoints n m label := by
  have hc : ∀ i, i < n → (Core N minPoints i ↔ Core N' minPoints i) := by
    intro i hi
    unfold Core
    rw [(hp i hi).length_eq]
  have hstep : CoreStep N minPoints n = CoreStep N' minPoints n := by
    funext i j
    unfold CoreStep
    apply propext
    constructor
    · rintro ⟨h1, h2, h3, h4, h5⟩
      exact ⟨h1, h2, (hc i h1).1 h3, (hc j h2).1 h4, (hp i h1).mem_iff.1 h5⟩
    · rintro ⟨h1, h2, h3, h4, h5⟩
      exact ⟨h1, h2, (hc i h1).2 h3, (hc j h2).2 h4, (hp i h1).mem_iff.2 h5⟩
  refine ⟨h.range, h.used, ?_, ?_, ?_⟩
  · intro i hi
    rw [h.noise i hi, hc i hi]
    refine and_congr Iff.rfl ⟨fun h1 j hj hcj hij => ?_, fun h1 j hj hcj hij => ?_⟩
    · exact h1 j hj ((hc j hj).2 hcj) ((hp j hj).mem_iff.2 hij)
    · exact h1 j hj ((hc j hj).1 hcj) ((hp j hj).mem_iff.1 hij)
  · intro i hi hl
    obtain ⟨j, hj, hcj, he, hij⟩ := h.reachable i hi hl
    exact ⟨j, hj, (hc j hj).1 hcj, he, (hp j hj).mem_iff.1 hij⟩
  · intro i j hi hj hci hcj he
    have := h.connected i j hi hj ((hc i hi).2 hci) ((hc j hj).2 hcj) he
    unfold Connected at this ⊢
    rw [← hstep]
    exact this

/-- C43: if no two points are at distance exactly epsilon, DBSCAN is density-based clustering for the
neighbourhoods of all points at distance at most epsilon. -/
theorem C43_dbscan_exact (S : SortByLevel ℝ) (ab : ℝ → ℝ) (hab : ∀ x, ab x ≤ |x|) (k : Nat)
    (hk : 0 < k) (data : List (List ℝ)) (hlen : ∀ x ∈ data, x.length = k) (size : Nat)
    (hsize : size ≤ data.length) (minPoints : Nat) (epsilon : ℝ) (heps : 0 < epsilon) (n : Nat)
    (hn : n = Spec.treeSize data size) (fuel : Nat) (hfuel : (n + 1) * n ≤ fuel)
    (hgen : ∀ x ∈ data, ∀ y ∈ data, dist (Spec.point k x) (Spec.point k y) ≠ epsilon) :
    ∃ (labels : List Int) (m : Nat),
      dbscanCluster S vectorsDistance ab data minPoints epsilon size fuel = .ok (some labels) ∧
      labels.length = n ∧
      IsClustering (Spec.ball k data n epsilon) minPoints n m (fun i => labels.getD i 0) := by
  obtain ⟨labels, m, N, h1, h2, h3, h4, h5⟩ := C43_dbscan_euclidean S ab hab k hk data hlen size hsize
    minPoints epsilon heps n hn fuel hfuel
  refine ⟨labels, m, h1, h2, IsClustering.congr h5 (fun i hi => ?_)⟩
  have hnl : n ≤ data.length := by
    rw [hn]; unfold Spec.treeSize; split_ifs <;> omega
  have hget : ∀ j, j < n → data[j]? = some (data.getD j []) := by
    intro j hj
    rw [List.getD_eq_getElem?_getD, List.getElem?_eq_getElem (by omega)]
    rfl
  have hnd : (Spec.ball k data n epsilon i).Nodup := List.nodup_range.filter _
  rw [List.perm_ext_iff_of_nodup (h4 i hi).1 hnd]
  intro j
  unfold Spec.ball
  rw [List.mem_filter, List.mem_range, decide_eq_true_iff]
  constructor
  · intro hj
    have hjn := (h4 i hi).2 j hj
    exact ⟨hjn, (h3 i j _ _ hi hjn (hget i hi) (hget j hjn)).2 hj⟩
  · rintro ⟨hjn, hd⟩
    refine (h3 i j _ _ hi hjn (hget i hi) (hget j hjn)).1 (lt_of_le_of_ne hd ?_)
    exact hgen _ (List.mem_of_getElem? (hget j hjn)) _ (List.mem_of_getElem? (hget i hi))

/-- The hypotheses of `C43_dbscan_exact` are met by three points on a line. -/
example : (∀ x ∈ [[0], [1], [(7 : ℝ)]], x.length = 1) ∧ (0 : ℝ) < 2 ∧
    ∀ x ∈ [[0], [1], [(7 : ℝ)]], ∀ y ∈ [[0], [1], [(7 : ℝ)]],
      dist (Spec.point 1 x) (Spec.point 1 y) ≠ 2 := by
  refine ⟨by simp, by norm_num, ?_⟩
  have key : ∀ a b : ℝ, dist (Spec.point 1 [a]) (Spec.point 1 [b]) = |a - b| := by
    intro a b
    rw [EuclideanSpace.dist_eq]
    simp [Spec.point, Real.dist_eq, Real.sqrt_sq_eq_abs]
  intro x hx y hy
  simp only [List.mem_cons, List.not_mem_nil, or_false] at hx hy
  rcases hx with rfl | rfl | rfl <;> rcases hy with rfl | rfl | rfl <;> rw [key] <;> norm_num

/-- C43 is violated for epsilon 0: of two equal points, both core points, one keeps the label 0, which
stands for "not visited", whatever the sort does with ties. -/
theorem C43_zero_epsilon_violated (S : SortByLevel ℝ) (ab : ℝ → ℝ) (hab : ab 0 = 0) (fuel : Nat)
    (hfuel : 2 ≤ fuel) :
    ∃ labels, dbscanCluster S vectorsDistance ab [[0], [0]] 1 0 0 fuel = .ok (some labels) ∧
      ∃ i, i < 2 ∧ labels[i]? = some 0 := by
  obtain ⟨i, j, hi, he⟩ := kdTree_two_equal S
  have hval : vectorsDistance [0] [0] = .ok 0 := by
    unfold vectorsDistance sqDistance
    simp [sqDiffs]
  have hq : neighborhoodIndices vectorsDistance ab
      (.node [0] i (.node [0] j .empty .empty) .empty) [0] 0 = .ok [i] := by
    unfold neighborhoodIndices
    simp [neighborhood, hval, vat, hab, bind, Except.bind, pure, Except.pure]
  obtain ⟨f, rfl⟩ : ∃ f, fuel = f + 2 := ⟨fuel - 2, by omega⟩
  have hr : List.range 2 = [0, 1] := rfl
  unfold dbscanCluster clusterPoints
  simp only [List.length_cons, List.length_nil, if_true]
  rw [he]
  rcases hi with rfl | rfl
  · refine ⟨[1, 0], ?_, 1, by omega, rfl⟩
    simp [hr, clusterLoop, clusterStep, vget, hq, expandCluster, vmodify, bind, Except.bind, pure,
      Except.pure]
  · refine ⟨[0, 1], ?_, 0, by omega, rfl⟩
    simp [hr, clusterLoop, clusterStep, vget, hq, expandCluster, vmodify, bind, Except.bind, pure,
      Except.pure]

end LHF
