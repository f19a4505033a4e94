import Verif.Model.Utils
import Verif.Spec.Partition
import Verif.Lemmas.Res
import Verif.Lemmas.Merge

/-! C06–C09: partitions of the data (Utils/utils.cpp). -/

namespace LHF
open Spec

/-! ### C06 -/

private theorem indicesWhere_succ (n : Nat) (p : Nat → Prop) [DecidablePred p] :
    indicesWhere (n + 1) p = indicesWhere n p ++ (if p n then [n] else []) := by
  unfold indicesWhere
  rw [List.range_succ, List.filter_append]
  congr 1
  by_cases h : p n <;> simp [h]

private theorem pointsAt_append {P : Type _} (data : List P) (a b : List Nat) :
    pointsAt data (a ++ b) = pointsAt data a ++ pointsAt data b := by
  simp [pointsAt]

private theorem pointsAt_single {P : Type _} {data : List P} {i : Nat} (h : i < data.length) :
    pointsAt data [i] = [data[i]] := by
  simp [pointsAt, h]

/-- C06: `separatePartitions(k, data, labels)` is defined when every label is below `k` and every
labelled point exists, and then partition `j` holds exactly the points labelled `j`, in input
order, together with their indices. -/
theorem C06_partition_exact {P : Type _} (k : Nat) (data : List P) (labels : List Nat)
    (hl : labels.length ≤ data.length) (hk : ∀ l ∈ labels, l < k) :
    separateByLabel k data labels = .ok
      ((List.range k).map (fun j => indicesWhere labels.length (fun i => labels[i]? = some j)),
       (List.range k).map (fun j =>
         pointsAt data (indicesWhere labels.length (fun i => labels[i]? = some j)))) := by
  unfold separateByLabel
  have h0 : ((List.replicate k [], List.replicate k []) : List (List Nat) × List (List P)) =
      ((List.range k).map (fun j => indicesWhere 0 (fun i => labels[i]? = some j)),
       (List.range k).map (fun j =>
         pointsAt data (indicesWhere 0 (fun i => labels[i]? = some j)))) := by
    simp [indicesWhere, pointsAt]
  rw [h0]
  apply foldlM_range_ok _ labels.length (fun m =>
      ((List.range k).map (fun j => indicesWhere m (fun i => labels[i]? = some j)),
       (List.range k).map (fun j =>
         pointsAt data (indicesWhere m (fun i => labels[i]? = some j)))))
  intro i hi
  have hid : i < data.length := lt_of_lt_of_le hi hl
  have hlk : labels[i] < k := hk _ (List.getElem_mem hi)
  rw [vget_of_lt hi, ok_bind, vget_of_lt hid, ok_bind]
  simp only []
  rw [vmodify_map_range hlk, ok_bind, vmodify_map_range hlk, ok_bind, pure_eq_ok]
  congr 2
  · apply List.map_congr_left
    intro j _
    rw [indicesWhere_succ, List.getElem?_eq_getElem hi]
    by_cases h : j = labels[i]
    · subst h; simp
    · rw [if_neg h, if_neg (by simpa using fun h' => h h'.symm), List.append_nil]
  · apply List.map_congr_left
    intro j _
    rw [indicesWhere_succ, List.getElem?_eq_getElem hi, pointsAt_append]
    by_cases h : j = labels[i]
    · subst h; simp [pointsAt_single hid]
    · rw [if_neg h, if_neg (by simpa using fun h' => h h'.symm)]; simp [pointsAt]

/-- C06: the call stays in bounds exactly under that condition. -/
theorem C06_partition_defined_iff {P : Type _} (k : Nat) (data : List P) (labels : List Nat) :
    (∃ r, separateByLabel k data labels = .ok r) ↔
      labels.length ≤ data.length ∧ ∀ l ∈ labels, l < k := by
  constructor
  · rintro ⟨r, h⟩
    have hm := foldlM_ok_mem h
    constructor
    · by_contra hc
      have hc : data.length < labels.length := by omega
      obtain ⟨s, s', hs⟩ := hm data.length (by simpa using hc)
      rw [vget_of_lt hc, ok_bind, vget_error le_rfl, error_bind] at hs
      cases hs
    · intro l hlm
      obtain ⟨i, hi, rfl⟩ := List.getElem_of_mem hlm
      -- the number of partitions never changes
      have hinv : ∀ (l : List Nat) (s r : List (List Nat) × List (List P)),
          l.foldlM (fun st i => do
            let li ← vget labels i
            let p ← vget data i
            let res ← vmodify st.2 li (· ++ [p])
            let labres ← vmodify st.1 li (· ++ [i])
            pure (labres, res)) s = .ok r → s.2.length = k → i ∈ l → labels[i] < k := by
        intro l
        induction l with
        | nil => intro _ _ _ _ hx; simp at hx
        | cons x xs ih =>
          intro s r hf hsl hx
          rw [List.foldlM_cons, bind_ok] at hf
          obtain ⟨s', h1, h2⟩ := hf
          rw [bind_ok] at h1
          obtain ⟨li, hli, h1⟩ := h1
          rw [bind_ok] at h1
          obtain ⟨p, _, h1⟩ := h1
          rw [bind_ok] at h1
          obtain ⟨res, hres, h1⟩ := h1
          rw [bind_ok] at h1
          obtain ⟨labres, _, h1⟩ := h1
          rw [pure_eq_ok] at h1
          cases h1
          have hlt := vmodify_ok_lt hres
          have hreslen : res.length = k := by
            unfold vmodify at hres
            rw [if_pos hlt] at hres
            cases hres
            simpa using hsl
          rcases List.mem_cons.1 hx with rfl | hx
          · rw [vget_of_lt hi] at hli
            cases hli
            rwa [hsl] at hlt
          · exact ih _ r h2 hreslen hx
      exact hinv _ _ _ h (by simp) (by simpa using hi)
  · rintro ⟨h1, h2⟩
    exact ⟨_, C06_partition_exact k data labels h1 h2⟩

/-- C06: every labelled point lies in exactly one partition, the one of its label. -/
theorem C06_each_point_in_one_partition {P : Type _} (k : Nat) (data : List P) (labels : List Nat)
    (parts : List (List Nat)) (pts : List (List P))
    (h : separateByLabel k data labels = .ok (parts, pts)) (i : Nat) (hi : i < labels.length) :
    ∀ j (hj : j < parts.length), i ∈ parts[j] ↔ j = labels[i] := by
  obtain ⟨h1, h2⟩ := (C06_partition_defined_iff k data labels).1 ⟨_, h⟩
  rw [C06_partition_exact k data labels h1 h2] at h
  cases h
  intro j hj
  simp [indicesWhere, hi, eq_comm]

example : separateByLabel 3 ["a", "b", "c", "d"] [2, 0, 2] =
    .ok ([[1], [], [0, 2]], [["b"], [], ["a", "c"]]) := by decide

example : separateByLabel 2 ["a", "b"] [2] = .error .oob := by decide

/-! ### C07 -/

open Classical in
/-- C07: point `i` is put in partition `j` iff it is strictly closer than `rad` to centroid `j`.
`d` is the distance routine and `dist` its value on the points at hand. -/
theorem C07_radius_partition_exact {P W : Type _} [LinearOrder W] (d : P → P → Res W)
    (dist : P → P → W) (rad : W) (centroids data : List P) (labels : List Nat)
    (hd : ∀ p ∈ data, ∀ c ∈ centroids, d p c = .ok (dist p c))
    (hl : labels.length ≤ data.length) :
    separateByRadius d rad centroids data labels = .ok
      ((List.range centroids.length).map (fun j => indicesWhere labels.length (fun i =>
          ∃ p c, data[i]? = some p ∧ centroids[j]? = some c ∧ dist p c < rad)),
       (List.range centroids.length).map (fun j => pointsAt data (indicesWhere labels.length
          (fun i => ∃ p c, data[i]? = some p ∧ centroids[j]? = some c ∧ dist p c < rad)))) := by
  set near : Nat → Nat → Prop := fun j i =>
    ∃ p c, data[i]? = some p ∧ centroids[j]? = some c ∧ dist p c < rad with hnear
  set k := centroids.length with hk
  unfold separateByRadius
  have h0 : ((List.replicate k [], List.replicate k []) : List (List Nat) × List (List P)) =
      ((List.range k).map (fun j => indicesWhere 0 (near j)),
       (List.range k).map (fun j => pointsAt data (indicesWhere 0 (near j)))) := by
    simp [indicesWhere, pointsAt]
  rw [← hk, h0]
  apply foldlM_range_ok _ labels.length (fun m =>
      ((List.range k).map (fun j => indicesWhere m (near j)),
       (List.range k).map (fun j => pointsAt data (indicesWhere m (near j)))))
  intro i hi
  have hid : i < data.length := lt_of_lt_of_le hi hl
  -- inner loop
  set S : Nat → Nat → List Nat := fun m j => indicesWhere (if j < m then i + 1 else i) (near j)
    with hS
  have e0 : ((List.range k).map (fun j => indicesWhere i (near j)),
       (List.range k).map (fun j => pointsAt data (indicesWhere i (near j)))) =
       ((List.range k).map (S 0), (List.range k).map (fun j => pointsAt data (S 0 j))) := by
    simp [hS]
  have e1 : ((List.range k).map (fun j => indicesWhere (i + 1) (near j)),
       (List.range k).map (fun j => pointsAt data (indicesWhere (i + 1) (near j)))) =
       ((List.range k).map (S k), (List.range k).map (fun j => pointsAt data (S k j))) := by
    congr 1 <;>
    · apply List.map_congr_left
      intro j hj
      simp [hS, List.mem_range.1 hj]
  rw [e0, e1]
  apply foldlM_range_ok _ k (fun m =>
    ((List.range k).map (S m), (List.range k).map (fun j => pointsAt data (S m j))))
  intro j hj
  have hjc : j < centroids.length := hj
  rw [vget_of_lt hid, ok_bind, vget_of_lt hjc, ok_bind,
    hd _ (List.getElem_mem hid) _ (List.getElem_mem hjc), ok_bind]
  have hnj : near j i ↔ dist data[i] centroids[j] < rad := by
    simp [hnear, List.getElem?_eq_getElem hid, List.getElem?_eq_getElem hjc]
  have hSother : ∀ x, x ≠ j → S (j + 1) x = S j x := by
    intro x hx
    have : x < j + 1 ↔ x < j := by omega
    simp [hS, this]
  have hSj : S (j + 1) j = S j j ++ (if near j i then [i] else []) := by
    simp only [hS, Nat.lt_succ_self, if_true, lt_irrefl, if_false]
    exact indicesWhere_succ i (near j)
  by_cases hlt : dist data[i] centroids[j] < rad
  · rw [if_pos hlt]
    simp only []
    rw [vmodify_map_range hj, ok_bind, vmodify_map_range hj, ok_bind, pure_eq_ok]
    congr 2 <;>
    · apply List.map_congr_left
      intro x _
      by_cases hx : x = j
      · subst hx
        rw [if_pos rfl, hSj, if_pos (hnj.2 hlt)]
        try rw [pointsAt_append, pointsAt_single hid]
      · rw [if_neg hx, hSother x hx]
  · rw [if_neg hlt, pure_eq_ok]
    congr 2 <;>
    · apply List.map_congr_left
      intro x _
      by_cases hx : x = j
      · subst hx
        rw [hSj, if_neg (fun h => hlt (hnj.1 h)), List.append_nil]
      · rw [hSother x hx]

/-- The maximum radius is an upper bound on the distance of every labelled point to its centroid. -/
private theorem maxRadius_bound {P W : Type _} [LinearOrder W] [Zero W] (d : P → P → Res W)
    (centroids data : List P) (labels : List Nat) (r : W)
    (h : computeMaxRadius d centroids data labels = .ok r) :
    0 ≤ r ∧ ∀ i (hi : i < labels.length), ∃ p c w, data[i]? = some p ∧
      centroids[labels[i]]? = some c ∧ d p c = .ok w ∧ w ≤ r := by
  unfold computeMaxRadius at h
  have key : ∀ (l : List Nat) (s r : W), (∀ i ∈ l, i < labels.length) →
      l.foldlM (fun maxRadius i => do
        let li ← vget labels i
        let p ← vget data i
        let c ← vget centroids li
        let curRadius ← d p c
        pure (if curRadius > maxRadius then curRadius else maxRadius)) s = .ok r →
      s ≤ r ∧ ∀ i (hi : i < labels.length), i ∈ l → ∃ p c w, data[i]? = some p ∧
        centroids[labels[i]]? = some c ∧ d p c = .ok w ∧ w ≤ r := by
    intro l
    induction l with
    | nil =>
      intro s r _ h
      rw [List.foldlM_nil, pure_eq_ok] at h
      cases h
      exact ⟨le_rfl, by simp⟩
    | cons x xs ih =>
      intro s r hx h
      rw [List.foldlM_cons, bind_ok] at h
      obtain ⟨s', h1, h2⟩ := h
      obtain ⟨hle, hrest⟩ := ih s' r (fun i hi => hx i (by simp [hi])) h2
      have hxl : x < labels.length := hx x (by simp)
      rw [vget_of_lt hxl, ok_bind, bind_ok] at h1
      obtain ⟨p, hp, h1⟩ := h1
      rw [bind_ok] at h1
      obtain ⟨c, hc, h1⟩ := h1
      rw [bind_ok] at h1
      obtain ⟨w, hw, h1⟩ := h1
      rw [pure_eq_ok] at h1
      cases h1
      have hb : s ≤ (if w > s then w else s) ∧ w ≤ (if w > s then w else s) := by
        split_ifs with hws
        · exact ⟨hws.le, le_rfl⟩
        · exact ⟨le_rfl, not_lt.1 hws⟩
      refine ⟨hb.1.trans hle, fun i hi hm => ?_⟩
      rcases List.mem_cons.1 hm with rfl | hm
      · exact ⟨p, c, w, vget_ok.1 hp, vget_ok.1 hc, hw, hb.2.trans hle⟩
      · exact hrest i hi hm
  obtain ⟨h1, h2⟩ := key _ _ _ (by simp) h
  exact ⟨h1, fun i hi => h2 i hi (by simpa using hi)⟩

/-- C07: the maximum radius is the largest distance of a labelled point to its centroid, or 0 if there
is no labelled point. -/
theorem C07_max_radius {P W : Type _} [LinearOrder W] [Zero W] (d : P → P → Res W)
    (centroids data : List P) (labels : List Nat) (r : W)
    (h : computeMaxRadius d centroids data labels = .ok r) :
    (0 ≤ r ∧ ∀ i (hi : i < labels.length), ∃ p c w, data[i]? = some p ∧
      centroids[labels[i]]? = some c ∧ d p c = .ok w ∧ w ≤ r) ∧
    (r = 0 ∨ ∃ (i : Nat) (hi : i < labels.length), ∃ p c, data[i]? = some p ∧
      centroids[labels[i]]? = some c ∧ d p c = .ok r) := by
  refine ⟨maxRadius_bound d centroids data labels r h, ?_⟩
  unfold computeMaxRadius at h
  refine foldlM_inv (P := fun r => r = 0 ∨ ∃ (i : Nat) (hi : i < labels.length), ∃ p c,
    data[i]? = some p ∧ centroids[labels[i]]? = some c ∧ d p c = .ok r) (Or.inl rfl) ?_ h
  intro s i s' hi hs hf
  have hi : i < labels.length := by simpa using hi
  rw [vget_of_lt hi, ok_bind, bind_ok] at hf
  obtain ⟨p, hp, hf⟩ := hf
  rw [bind_ok] at hf
  obtain ⟨c, hc, hf⟩ := hf
  rw [bind_ok] at hf
  obtain ⟨w, hw, hf⟩ := hf
  rw [pure_eq_ok] at hf
  cases hf
  split_ifs
  · exact Or.inr ⟨i, hi, p, c, vget_ok.1 hp, vget_ok.1 hc, hw⟩
  · exact hs

/-- C07 (proved part): with the cutoff `2 * maxRadius`, as the upscaling wrapper uses it, and a
positive maximum radius, every labelled point is in the partition of its own centroid. -/
theorem C07_coverage_partial {P : Type _} (d : P → P → Res ℝ) (dist : P → P → ℝ)
    (centroids data : List P) (labels : List Nat)
    (hd : ∀ p ∈ data, ∀ c ∈ centroids, d p c = .ok (dist p c))
    (r : ℝ) (hr : computeMaxRadius d centroids data labels = .ok r) (hpos : 0 < r) :
    ∃ parts pts, separateByRadius d (2 * r) centroids data labels = .ok (parts, pts) ∧
      ∀ i (hi : i < labels.length), ∃ hj : labels[i] < parts.length, i ∈ parts[labels[i]] := by
  obtain ⟨-, hb⟩ := maxRadius_bound d centroids data labels r hr
  have hl : labels.length ≤ data.length := by
    by_contra hc
    obtain ⟨p, c, w, hp, -⟩ := hb data.length (by omega)
    simp at hp
  refine ⟨_, _, C07_radius_partition_exact d dist (2 * r) centroids data labels hd hl, ?_⟩
  intro i hi
  obtain ⟨p, c, w, hp, hc, hw, hle⟩ := hb i hi
  have hlt : labels[i] < centroids.length := (List.getElem?_eq_some_iff.1 hc).1
  refine ⟨by simpa using hlt, ?_⟩
  simp only [List.getElem_map, List.getElem_range, indicesWhere, List.mem_filter, List.mem_range]
  refine ⟨hi, ?_⟩
  simp only [decide_eq_true_eq]
  refine ⟨p, c, hp, by simpa using hc, ?_⟩
  rw [hd p (List.mem_of_getElem? hp) c (List.mem_of_getElem? hc)] at hw
  cases hw
  linarith

open Classical in
/-- C07: when the maximum radius is 0 (every labelled point sits on its centroid), the cutoff is 0
and *every* point is dropped from *every* partition. -/
theorem C07_zero_radius_drops_all {P : Type _} (d : P → P → Res ℝ) (dist : P → P → ℝ)
    (centroids data : List P) (labels : List Nat)
    (hd : ∀ p ∈ data, ∀ c ∈ centroids, d p c = .ok (dist p c)) (hnn : ∀ p c, 0 ≤ dist p c)
    (hr : computeMaxRadius d centroids data labels = .ok 0) :
    separateByRadius d (2 * 0) centroids data labels =
      .ok (List.replicate centroids.length [], List.replicate centroids.length []) := by
  obtain ⟨-, hb⟩ := maxRadius_bound d centroids data labels 0 hr
  have hl : labels.length ≤ data.length := by
    by_contra hc
    obtain ⟨p, c, w, hp, -⟩ := hb data.length (by omega)
    simp at hp
  rw [C07_radius_partition_exact d dist (2 * 0) centroids data labels hd hl]
  have : ∀ j : Nat, indicesWhere labels.length (fun i =>
      ∃ p c, data[i]? = some p ∧ centroids[j]? = some c ∧ dist p c < 2 * 0) = [] := by
    intro j
    unfold indicesWhere
    rw [List.filter_eq_nil_iff]
    intro i _
    simp only [decide_eq_true_eq, not_exists, not_and, not_lt]
    intro p c _ _
    simpa using hnn p c
  simp only [this]
  simp [pointsAt]

/-- C07: the full coverage claim is false of the code: two coinciding points with their common
position as the only centroid are both lost. -/
theorem C07_coverage_violated :
    computeMaxRadius vectorsDistance [[0]] [[0], [0]] [0, 0] = .ok 0 ∧
    separateByRadius vectorsDistance (2 * 0) [[0]] [[0], [0]] [0, 0] = .ok ([[]], [[]]) := by
  have hd : vectorsDistance [0] [0] = .ok 0 := by
    simp [vectorsDistance, sqDistance, sqDiffs]
  have h1 : computeMaxRadius vectorsDistance [[0]] [[0], [0]] [0, 0] = .ok 0 := by
    simp [computeMaxRadius, vget, hd, List.range_succ, pure_eq_ok]
  refine ⟨h1, ?_⟩
  apply C07_zero_radius_drops_all vectorsDistance (fun _ _ => 0) [[0]] [[0], [0]] [0, 0] _ _ h1
  · intro p hp c hc
    simp at hp hc
    subst hp hc; exact hd
  · intros; exact le_rfl

/-- The hypotheses of `C07_coverage_partial` are met by a real data set. -/
example : computeMaxRadius vectorsDistance [[0], [5]] [[0], [1], [5]] [0, 0, 1] = .ok 1 := by
  have h1 : vectorsDistance [0] [0] = .ok 0 := by simp [vectorsDistance, sqDistance, sqDiffs]
  have h2 : vectorsDistance [1] [0] = .ok 1 := by simp [vectorsDistance, sqDistance, sqDiffs]
  have h3 : vectorsDistance [5] [5] = .ok 0 := by simp [vectorsDistance, sqDistance, sqDiffs]
  simp [computeMaxRadius, vget, h1, h2, h3, List.range_succ, pure_eq_ok]

/-! ### C08 -/

open Classical in
/-- C08: a point is put in partition `j` iff its label is in the `j`-th list; input order is kept. -/
theorem C08_boundary_partition_exact {P : Type _} (lists : List (List Nat)) (data : List P)
    (labels : List Nat) (hl : data.length ≤ labels.length) :
    separateBoundary lists data labels = .ok
      ((List.range lists.length).map (fun j => pointsAt data (indicesWhere data.length
        (fun i => ∃ l bl, labels[i]? = some l ∧ lists[j]? = some bl ∧ l ∈ bl)))) := by
  set near : Nat → Nat → Prop := fun j i =>
    ∃ l bl, labels[i]? = some l ∧ lists[j]? = some bl ∧ l ∈ bl with hnear
  set k := lists.length with hk
  unfold separateBoundary
  have h0 : (List.replicate k [] : List (List P)) =
      (List.range k).map (fun j => pointsAt data (indicesWhere 0 (near j))) := by
    simp [indicesWhere, pointsAt]
  rw [← hk, h0]
  apply foldlM_range_ok _ data.length (fun m =>
      (List.range k).map (fun j => pointsAt data (indicesWhere m (near j))))
  intro i hi
  have hil : i < labels.length := lt_of_lt_of_le hi hl
  set S : Nat → Nat → List Nat := fun m j => indicesWhere (if j < m then i + 1 else i) (near j)
    with hS
  have e0 : (List.range k).map (fun j => pointsAt data (indicesWhere i (near j))) =
       (List.range k).map (fun j => pointsAt data (S 0 j)) := by
    simp [hS]
  have e1 : (List.range k).map (fun j => pointsAt data (indicesWhere (i + 1) (near j))) =
       (List.range k).map (fun j => pointsAt data (S k j)) := by
    apply List.map_congr_left
    intro j hj
    simp [hS, List.mem_range.1 hj]
  rw [e0, e1]
  apply foldlM_range_ok _ k (fun m => (List.range k).map (fun j => pointsAt data (S m j)))
  intro j hj
  have hjc : j < lists.length := hj
  rw [vget_of_lt hjc, ok_bind, vget_of_lt hil, ok_bind]
  have hnj : near j i ↔ labels[i] ∈ lists[j] := by
    simp [hnear, List.getElem?_eq_getElem hil, List.getElem?_eq_getElem hjc]
  have hSother : ∀ x, x ≠ j → S (j + 1) x = S j x := by
    intro x hx
    have : x < j + 1 ↔ x < j := by omega
    simp [hS, this]
  have hSj : S (j + 1) j = S j j ++ (if near j i then [i] else []) := by
    simp only [hS, Nat.lt_succ_self, if_true, lt_irrefl, if_false]
    exact indicesWhere_succ i (near j)
  by_cases hlt : labels[i] ∈ lists[j]
  · rw [if_pos hlt, vget_of_lt hi, ok_bind, vmodify_map_range hj]
    congr 1
    apply List.map_congr_left
    intro x _
    by_cases hx : x = j
    · subst hx
      rw [if_pos rfl, hSj, if_pos (hnj.2 hlt), pointsAt_append, pointsAt_single hi]
    · rw [if_neg hx, hSother x hx]
  · rw [if_neg hlt, pure_eq_ok]
    congr 1
    apply List.map_congr_left
    intro x _
    by_cases hx : x = j
    · subst hx
      rw [hSj, if_neg (fun h => hlt (hnj.1 h)), List.append_nil]
    · rw [hSother x hx]

/-- C08: with at least one boundary list, fewer labels than points is an out-of-range read. -/
theorem C08_short_labels_oob {P : Type _} (lists : List (List Nat)) (data : List P)
    (labels : List Nat) (hl : labels.length < data.length) (hne : lists ≠ []) :
    ∀ r, separateBoundary lists data labels ≠ .ok r := by
  intro r h
  obtain ⟨s, s', hs⟩ := foldlM_ok_mem h labels.length (by simpa using hl)
  obtain ⟨t, t', ht⟩ := foldlM_ok_mem hs 0 (by simpa using List.length_pos_iff.2 hne)
  rw [vget_of_lt (List.length_pos_iff.2 hne), ok_bind, vget_error le_rfl, error_bind] at ht
  cases ht

example : separateBoundary [[0, 2], [1], []] ["a", "b", "c", "d"] [0, 1, 2, 3] =
    .ok [["a", "c"], ["b"], []] := by decide

/-! ### C09 -/

/-- C09: whatever the arguments, if the call completes the table is unchanged. -/
theorem C09_mapPartitionIndexing_no_effect {W : Type _} (labels : List Nat)
    (table r : List (BettiEntry W)) (h : mapPartitionIndexing labels table = .ok r) :
    r = table := by
  refine foldlM_inv (P := fun s => s = table) rfl ?_ h
  intro s x s' _ hs hf
  rw [bind_ok] at hf
  obtain ⟨_, _, hf⟩ := hf
  rw [pure_eq_ok] at hf
  cases hf
  exact hs

/-- The intended effect of C09: every boundary point of every entry is replaced by its label. -/
def Spec.Mapped {W : Type _} (labels : List Nat) (table r : List (BettiEntry W)) : Prop :=
  List.Forall₂ (fun b b' => b'.dim = b.dim ∧ b'.birth = b.birth ∧ b'.death = b.death ∧
    ∀ x, x ∈ b'.boundary ↔ ∃ i ∈ b.boundary, labels[i]? = some x) table r

/-- C09 (proved part): the property holds exactly for tables that the relabelling would not change:
the only table the call can produce is the input. -/
theorem C09_mapped_iff_fixed_partial {W : Type _} (labels : List Nat)
    (table r : List (BettiEntry W)) (h : mapPartitionIndexing labels table = .ok r) :
    Spec.Mapped labels table r ↔ Spec.Mapped labels table table := by
  rw [C09_mapPartitionIndexing_no_effect labels table r h]

/-- C09: the full property is false of the code. -/
theorem C09_mapping_violated :
    ∃ (labels : List Nat) (table r : List (BettiEntry Nat)),
      mapPartitionIndexing labels table = .ok r ∧ ¬ Spec.Mapped labels table r := by
  refine ⟨[7, 9], [⟨1, 0, 1, [0, 1]⟩], [⟨1, 0, 1, [0, 1]⟩], by decide, ?_⟩
  intro h
  cases h with
  | cons h _ =>
    have := (h.2.2.2 0).1 (by simp)
    simp at this

end LHF
