import Verif.Lemmas.KdTree
import Verif.Props.Distance
import Mathlib.Algebra.Order.Floor.Ring
import Mathlib.Algebra.Order.Group.Int

/-!
Properties of the kd-tree (C41, C42), for points of Euclidean space of any dimension.
-/

namespace LHF

open Spec

/-- The coordinate difference is at most the Euclidean distance. -/
theorem coord_le_dist {k : Nat} (a b : List ℝ) (i : Nat) (hi : i < k) :
    |a.getD i 0 - b.getD i 0| ≤ dist (Spec.point k a) (Spec.point k b) := by
  have := EuclideanSpace.dist_eq (Spec.point k a) (Spec.point k b)
  rw [this]
  rw [← Real.sqrt_sq_eq_abs]
  apply Real.sqrt_le_sqrt
  have h := Finset.single_le_sum (f := fun j : Fin k =>
    dist ((Spec.point k a) j) ((Spec.point k b) j) ^ 2) (s := Finset.univ)
    (fun j _ => sq_nonneg _) (Finset.mem_univ (⟨i, hi⟩ : Fin k))
  refine le_trans (le_of_eq ?_) h
  simp only [Spec.point, Real.dist_eq, sq_abs]

theorem distTo_euclidean {k : Nat} (pt : List ℝ) (hpt : pt.length = k) :
    DistTo k vectorsDistance pt (fun a => dist (Spec.point k a) (Spec.point k pt)) where
  len := hpt
  val a ha := C10_distance_is_euclidean a pt ha hpt
  coord a _ i hi := coord_le_dist a pt i hi

/-- The number of points in the tree. -/
def Spec.treeSize (data : List (List ℝ)) (size : Nat) : Nat :=
  if size = 0 then data.length else size

theorem mem_zipIdx_take {data : List (List ℝ)} {n : Nat} {p : PointIndex ℝ} :
    p ∈ (data.take n).zipIdx ↔ p.2 < n ∧ data[p.2]? = some p.1 := by
  obtain ⟨x, i⟩ := p
  rw [List.mem_zipIdx_iff_getElem?]
  simp only [List.getElem?_take]
  by_cases h : i < n <;> simp [h]

/-- C41: on every non-empty set of points with `k` coordinates, for every query point with `k`
coordinates and whatever the sort does with ties, the kd-tree is built and its nearest neighbour query
returns the index of a stored point at minimal Euclidean distance. This holds for both readings of the
unqualified `abs`. -/
theorem C41_nearest_is_exact (S : SortByLevel ℝ) (ab : ℝ → ℝ) (hab : ∀ x, ab x ≤ |x|)
    (k : Nat) (hk : 0 < k) (data : List (List ℝ)) (hlen : ∀ x ∈ data, x.length = k)
    (size : Nat) (hsize : size ≤ data.length) (hne : data ≠ [])
    (pt : List ℝ) (hpt : pt.length = k) :
    ∃ t i x, kdTreeOf S data size = .ok t ∧ nearestIndex vectorsDistance ab t pt = .ok i ∧
      i < Spec.treeSize data size ∧ data[i]? = some x ∧
      ∀ j y, j < Spec.treeSize data size → data[j]? = some y →
        dist (Spec.point k x) (Spec.point k pt) ≤ dist (Spec.point k y) (Spec.point k pt) := by
  obtain ⟨t, h1, h2, h3⟩ := kdTreeOf_spec S k hk data hlen size hsize
  have hlens : ∀ p ∈ t.points, p.1.length = k := by
    intro p hp
    have := (mem_zipIdx_take.1 (h3.mem_iff.1 hp)).2
    exact hlen _ (List.mem_of_getElem? this)
  have hd := distTo_euclidean (k := k) pt hpt
  rcases t with _ | ⟨x, i, l, r⟩
  · exfalso
    have hl := h3.length_eq
    have h0 : 0 < data.length := List.length_pos_iff.2 hne
    simp only [KdTree.points, List.length_nil, List.length_zipIdx, List.length_take] at hl
    split_ifs at hl <;> omega
  · have hroot : (x, i) ∈ (KdTree.node x i l r).points := by simp [KdTree.points]
    obtain ⟨o, e, n1, s1⟩ := findNearest_spec hk hd hab (KdTree.node x i l r) 0 (x, i) hk h2 hlens
      (hlens _ hroot)
    rcases o with _ | q
    · have := n1 rfl
      rw [this] at hroot
      cases hroot
    · obtain ⟨hm, -, hmin⟩ := s1 q rfl
      have hq : q ∈ (KdTree.node x i l r).points := by
        rcases hm with rfl | h
        · exact hroot
        · exact h
      have hq' := mem_zipIdx_take.1 (h3.mem_iff.1 hq)
      refine ⟨_, q.2, q.1, h1, ?_, hq'.1, hq'.2, fun j y hj hy => ?_⟩
      · unfold nearestIndex nearest KdTree.root?
        dsimp only
        rw [hd.val x (hlens _ hroot)]
        simp only [bind, Except.bind]
        rw [e]
        rfl
      · exact hmin (y, j) (h3.mem_iff.2 (mem_zipIdx_take.2 ⟨hj, hy⟩))

/-- C41: on an empty tree the index that is returned is not initialised. -/
theorem C41_empty_tree (S : SortByLevel ℝ) (ab : ℝ → ℝ) (pt : List ℝ) :
    kdTreeOf S [] 0 = .ok .empty ∧ nearestIndex vectorsDistance ab .empty pt = .error .uninit := by
  refine ⟨rfl, ?_⟩
  unfold nearestIndex nearest KdTree.root? vectorsDistance sqDistance sqDiffs
  by_cases h : pt.length = 0
  · simp [h, bind, Except.bind, pure, Except.pure]
  · simp [h, bind, Except.bind, pure, Except.pure]

/-- Both readings of `abs` meet the hypothesis of C41 and C42: the absolute value, and the one of the
truncated number. -/
example : (∀ x : ℝ, id |x| ≤ |x|) ∧ ∀ x : ℝ, ((⌊|x|⌋ : ℤ) : ℝ) ≤ |x| :=
  ⟨fun _ => le_refl _, fun _ => Int.floor_le _⟩

/-- The other hypotheses of C41 are met by three points of the plane. -/
example : (0 < 2) ∧ (∀ x ∈ [[0, 0], [3, 4], [1, (1 : ℝ)]], x.length = 2) ∧
    [[0, 0], [3, 4], [1, (1 : ℝ)]] ≠ [] ∧ [(2 : ℝ), 2].length = 2 := by simp

/-- C42: on every set of points with `k` coordinates, for every query point and radius, the range query
returns no index twice, only indices of stored points at Euclidean distance at most `rad`, and every
index of a stored point at distance less than `rad`. Missing: points at distance exactly `rad`. -/
theorem C42_range_query_partial (S : SortByLevel ℝ) (ab : ℝ → ℝ) (hab : ∀ x, ab x ≤ |x|)
    (k : Nat) (hk : 0 < k) (data : List (List ℝ)) (hlen : ∀ x ∈ data, x.length = k)
    (size : Nat) (hsize : size ≤ data.length) (pt : List ℝ) (hpt : pt.length = k) (rad : ℝ) :
    ∃ t res, kdTreeOf S data size = .ok t ∧
      neighborhoodIndices vectorsDistance ab t pt rad = .ok res ∧ res.Nodup ∧
      (∀ i ∈ res, i < Spec.treeSize data size ∧ ∃ x, data[i]? = some x ∧
        dist (Spec.point k x) (Spec.point k pt) ≤ rad) ∧
      ∀ i x, i < Spec.treeSize data size → data[i]? = some x →
        dist (Spec.point k x) (Spec.point k pt) < rad → i ∈ res := by
  obtain ⟨t, h1, h2, h3⟩ := kdTreeOf_spec S k hk data hlen size hsize
  have hlens : ∀ p ∈ t.points, p.1.length = k := by
    intro p hp
    have := (mem_zipIdx_take.1 (h3.mem_iff.1 hp)).2
    exact hlen _ (List.mem_of_getElem? this)
  have hd := distTo_euclidean (k := k) pt hpt
  obtain ⟨res, e, hs, hb, hc⟩ := neighborhood_spec hk hd hab rad t 0 hk h2 hlens
  refine ⟨t, res.map Prod.snd, h1, ?_, ?_, ?_, ?_⟩
  · unfold neighborhoodIndices
    rw [e]
    rfl
  · have hnd : ((((data.take (if size = 0 then data.length else size)).zipIdx)).map Prod.snd).Nodup := by
      rw [List.zipIdx_map_snd]
      exact List.nodup_range'
    have hnd' : (t.points.map Prod.snd).Nodup := (h3.map Prod.snd).nodup_iff.2 hnd
    obtain ⟨l, hp, hsl⟩ := hs
    exact (hp.map Prod.snd).nodup_iff.1 (hnd'.sublist (hsl.map Prod.snd))
  · intro i hi
    obtain ⟨p, hp, rfl⟩ := List.mem_map.1 hi
    have := mem_zipIdx_take.1 (h3.mem_iff.1 (hs.subset hp))
    exact ⟨this.1, p.1, this.2, hb p hp⟩
  · intro i x hi hx hlt
    exact List.mem_map.2 ⟨(x, i), hc (x, i) (h3.mem_iff.2 (mem_zipIdx_take.2 ⟨hi, hx⟩)) hlt, rfl⟩

/-- The tree of two equal points on a line. -/
theorem kdTree_two_equal (S : SortByLevel ℝ) :
    ∃ i j, (i = 0 ∨ i = 1) ∧
      kdTreeOf S [[0], [0]] 2 = .ok (.node [0] i (.node [0] j .empty .empty) .empty) := by
  have hperm := S.perm 0 [([0], 0), ([0], 1)]
  have hcase : ∃ i j : Nat, (i = 0 ∨ i = 1) ∧
      S.run 0 [([0], 0), ([0], 1)] = [([0], j), ([0], i)] := by
    have hl := hperm.length_eq
    have hm : ∀ p ∈ S.run 0 [([(0 : ℝ)], 0), ([0], 1)], p = ([0], 0) ∨ p = ([0], 1) := by
      intro p hp
      have := hperm.mem_iff.1 hp
      simpa using this
    rcases hr : S.run 0 [([(0 : ℝ)], 0), ([0], 1)] with _ | ⟨a, _ | ⟨b, _ | ⟨c, l⟩⟩⟩
    · rw [hr] at hl; simp at hl
    · rw [hr] at hl; simp at hl
    · rw [hr] at hm
      have ha := hm a (by simp)
      have hb := hm b (by simp)
      rcases ha with rfl | rfl <;> rcases hb with rfl | rfl
      · exact ⟨0, 0, Or.inl rfl, rfl⟩
      · exact ⟨1, 0, Or.inr rfl, rfl⟩
      · exact ⟨0, 1, Or.inl rfl, rfl⟩
      · exact ⟨1, 1, Or.inr rfl, rfl⟩
    · rw [hr] at hl; simp at hl
  obtain ⟨i, j, hi, hrun⟩ := hcase
  refine ⟨i, j, hi, ?_⟩
  unfold kdTreeOf
  have h2 : (if 2 = 0 then [[(0 : ℝ)], [0]].length else 2) = 2 := rfl
  simp only [h2]
  rw [if_neg (by simp)]
  have hz : (List.take 2 [[(0 : ℝ)], [0]]).zipIdx = [([0], 0), ([0], 1)] := rfl
  rw [hz]
  simp [makeTree, hrun, vget, bind, Except.bind, pure, Except.pure]

/-- C42 is violated for points at distance exactly `rad`: of two equal points at this distance, one is
returned and the other is not, whatever the sort does with ties and for both readings of `abs`. -/
theorem C42_boundary_violated (S : SortByLevel ℝ) (ab : ℝ → ℝ) (hab : ab (-2) = 2) :
    ∃ t i, kdTreeOf S [[0], [0]] 2 = .ok t ∧ (i = 0 ∨ i = 1) ∧
      neighborhoodIndices vectorsDistance ab t [2] 2 = .ok [i] := by
  obtain ⟨i, j, hi, he⟩ := kdTree_two_equal S
  refine ⟨_, i, he, hi, ?_⟩
  unfold neighborhoodIndices
  have hval : vectorsDistance [0] [2] = .ok 2 := by
    unfold vectorsDistance sqDistance
    simp [sqDiffs]
  have h20 : ¬ (2 : ℝ) < 0 := by norm_num
  simp [neighborhood, hval, vat, hab, h20, bind, Except.bind, pure, Except.pure]

/-- Both readings of `abs` meet the hypothesis of the counterexample. -/
example : |(-2 : ℝ)| = 2 ∧ ((⌊|(-2 : ℝ)|⌋ : ℤ) : ℝ) = 2 := by
  have : |(-2 : ℝ)| = 2 := by rw [abs_neg]; exact abs_of_pos two_pos
  refine ⟨this, ?_⟩
  rw [this]
  norm_num

/-- A sort that meets the contract exists. -/
noncomputable example : SortByLevel ℝ := SortByLevel.insertion ℝ

end LHF
