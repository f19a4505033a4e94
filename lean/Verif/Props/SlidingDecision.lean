import Verif.Props.SlidingWindow

/-! C67: the streams on which the sliding window is a defined execution. -/

namespace LHF
open Spec

theorem nearestDist_eq {k : Nat} {w : List (List ℝ)} {x : List ℝ} {d : ℝ}
    (h1 : ∃ y ∈ w, d = dist (point k x) (point k y))
    (h2 : ∀ y ∈ w, d ≤ dist (point k x) (point k y)) : nearestDist k w x = d := by
  unfold nearestDist
  apply IsLeast.csInf_eq
  refine ⟨h1, ?_⟩
  rintro e ⟨y, hy, rfl⟩
  exact h2 y hy

/-- The distances from `x` and their minimum. -/
theorem nearest_run {k : Nat} {w : List (List ℝ)} {x : List ℝ} (hw : ∀ y ∈ w, y.length = k)
    (hx : x.length = k) (hne : w ≠ []) :
    ∃ ds, nearestNeighbors vectorsDistance x w = .ok ds ∧ ds.length = w.length ∧
      minElementDeref ds = .ok (nearestDist k w x) := by
  have h1 : ∀ l : List (List ℝ), (∀ y ∈ l, y.length = k) → l.mapM (vectorsDistance x) =
      .ok (l.map (fun y => dist (point k x) (point k y))) := by
    intro l hl
    induction l with
    | nil => rfl
    | cons y l ih =>
      rw [List.mapM_cons, C10_distance_is_euclidean _ _ hx (hl y (by simp)), ok_bind,
        ih (fun z hz => hl z (by simp [hz]))]
      rfl
  refine ⟨_, h1 w hw, by simp, ?_⟩
  obtain ⟨t, v, h2, h3, h4⟩ := minElement_spec (w.map (fun y => dist (point k x) (point k y)))
    (by simpa using hne)
  unfold minElementDeref
  rw [h2]
  dsimp only
  congr 1
  refine (nearestDist_eq ?_ ?_).symm
  · obtain ⟨y, hy, e⟩ := List.mem_map.1 (List.mem_of_getElem? h3)
    exact ⟨y, hy, e.symm⟩
  · intro y hy
    obtain ⟨s, hs, e⟩ := List.mem_iff_getElem.1 (List.mem_map_of_mem
      (f := fun y => dist (point k x) (point k y)) hy)
    have := (h4 s _ (by rw [List.getElem?_eq_getElem hs, e])).1
    exact this

theorem foldl_add_sum (l : List ℝ) : l.foldl (· + ·) 0 = l.sum := by
  rw [List.sum_eq_foldl]

/-- The upper triangular matrix of the distances of the rows. -/
noncomputable def pairTable (k : Nat) (w : List (List ℝ)) : List (List ℝ) :=
  table w.length (fun i j =>
    if i < j then dist (Spec.point k (w.getD i [])) (Spec.point k (w.getD j [])) else 0)

theorem pairTable_length (k : Nat) (w : List (List ℝ)) : (pairTable k w).length = w.length := by
  simp [pairTable, table]

/-- The mean of the nearest-neighbour distances that `runComplexInitializer` finds. -/
theorem initial_mean {k : Nat} (hk : 0 < k) {w : List (List ℝ)} (hw : ∀ y ∈ w, y.length = k)
    (hn : 2 ≤ w.length) :
    ∃ m nnI nnD, runComplexInitializer w [] [] = .ok (m, nnI, nnD) ∧ m = pairTable k w ∧
      nnI.length = w.length ∧ nnD.length = w.length ∧
      nnD.foldl (· + ·) 0 / (nnD.length : ℝ) = meanNearest k w := by
  obtain ⟨nnI, nnD, h1, h2, h3, h4⟩ := C68_initial_statistics k hk w hw hn
  refine ⟨_, nnI, nnD, h1, rfl, h2, h3, ?_⟩
  rw [foldl_add_sum, h3]
  unfold meanNearest
  congr 1
  have : nnD = (List.range w.length).map (fun i => nearestDist k (w.eraseIdx i) (w.getD i [])) := by
    apply List.ext_getElem?
    intro i
    by_cases hi : i < w.length
    · obtain ⟨j, g1, -, g3⟩ := h4 i hi
      rw [g3, List.getElem?_map, List.getElem?_range hi]
      simp only [Option.map_some, Option.some.injEq]
      have hmem : ∀ y, y ∈ w.eraseIdx i ↔ ∃ j, j < w.length ∧ j ≠ i ∧ y = w.getD j [] := by
        intro y
        rw [List.mem_eraseIdx_iff_getElem?]
        constructor
        · rintro ⟨j, hj, e⟩
          obtain ⟨hj', e⟩ := List.getElem?_eq_some_iff.1 e
          exact ⟨j, hj', hj, by simp [hj', e]⟩
        · rintro ⟨j, hj, hji, e⟩
          exact ⟨j, hji, by rw [e]; simp [hj]⟩
      refine (nearestDist_eq ?_ ?_).symm
      · exact ⟨_, (hmem _).2 ⟨j, g1.lt, g1.ne, rfl⟩, rfl⟩
      · intro y hy
        obtain ⟨l, hl, hli, rfl⟩ := (hmem y).1 hy
        exact g1.min l hl hli
    · rw [List.getElem?_eq_none (by omega), List.getElem?_eq_none (by simpa using hi)]
  rw [this]
  rfl

/-- The state of a full window that has not replaced any point. -/
structure FullWindow (k cap : Nat) (w : List (List ℝ)) (s : SlidingState) : Prop where
  window : s.window = w
  labels : s.partitionLabels = List.replicate cap 0
  avg : s.stats.avgNNDistPartitions = [(0, meanNearest k w)]
  matrix : s.stats.distMatrix = pairTable k w
  data : s.originalData = w

theorem slide_snoc (cap : Nat) (upd : SlidingState → Res NNStats) (data0 rows : List (List ℝ))
    (x : List ℝ) {s : SlidingState} (h : slidingRun cap upd data0 rows = .ok s) :
    slidingRun cap upd data0 (rows ++ [x]) = slidingStep cap upd s x := by
  unfold slidingRun at h ⊢
  rw [List.foldlM_append, h, ok_bind, List.foldlM_cons]
  exact bind_pure _

/-- Filling the window. -/
theorem filling_run (cap : Nat) (upd : SlidingState → Res NNStats) (data0 rows : List (List ℝ))
    (hl : rows.length < cap) :
    ∃ s, slidingRun cap upd data0 rows = .ok s ∧ s.window = rows ∧
      s.partitionLabels = List.replicate rows.length 0 ∧ s.targetPartition = 0 ∧
      s.stats = ⟨[], [], [], [], []⟩ ∧ s.key = rows.length ∧ s.maxKeys = [] ∧
      s.windowKeys = List.range rows.length ∧ s.originalData = data0 ∧
      s.pointCounter = rows.length + 1 := by
  induction rows using List.reverseRecOn with
  | nil => exact ⟨_, rfl, rfl, rfl, rfl, rfl, rfl, rfl, rfl, rfl, rfl⟩
  | append_singleton rows x ih =>
    have hlen : (rows ++ [x]).length = rows.length + 1 := by simp
    obtain ⟨s, h1, h2, h3, h4, h5, h6, h7, h8, h9, h10⟩ := ih (by omega)
    rw [slide_snoc cap upd data0 rows x h1]
    unfold slidingStep
    rw [if_pos (by rw [h2]; omega)]
    unfold slidingFill
    dsimp only
    rw [if_neg (by rw [h2]; omega)]
    refine ⟨_, rfl, ?_⟩
    dsimp only
    have e : s.partitionLabels ++ [s.targetPartition] = List.replicate (rows ++ [x]).length 0 := by
      rw [h3, h4, hlen, List.replicate_succ']
    rw [if_neg (by rw [h10]; omega)]
    exact ⟨by dsimp only; rw [h2], e, h4, h5, by dsimp only; rw [h6, hlen], h7,
      by dsimp only; rw [h8, h6, hlen, List.range_succ], h9, by dsimp only; rw [h10, hlen]⟩

/-- The moment when the window becomes full. -/
theorem full_run {k cap : Nat} (hk : 0 < k) (hc : 2 ≤ cap) (upd : SlidingState → Res NNStats)
    (data0 rows : List (List ℝ)) (hrow : ∀ x ∈ rows, x.length = k) (hl : rows.length = cap) :
    ∃ s, slidingRun cap upd data0 rows = .ok s ∧ FullWindow k cap rows s ∧
      s.stats.numPointsPartn = [(0, (cap : Int))] ∧ s.maxKeys = [(0, cap - 1)] ∧
      s.windowKeys = List.range cap ∧ s.key = cap ∧ s.pointCounter = cap + 1 := by
  obtain ⟨front, x, rfl⟩ : ∃ front x, rows = front ++ [x] := by
    rcases List.eq_nil_or_concat rows with rfl | ⟨f, x, rfl⟩
    · simp at hl; omega
    · exact ⟨f, x, by simp⟩
  have hlen : (front ++ [x]).length = front.length + 1 := by simp
  obtain ⟨s, h1, h2, h3, h4, h5, h6, h7, h8, -, h10⟩ := filling_run cap upd data0 front (by omega)
  rw [slide_snoc cap upd data0 front x h1]
  obtain ⟨m, nnI, nnD, g1, g2, g3, g4, g5⟩ := initial_mean hk hrow (by omega)
  unfold slidingStep
  rw [if_pos (by rw [h2]; omega)]
  unfold slidingFill
  dsimp only
  rw [if_pos (by rw [h2]; exact hl), h2, h5, h4]
  dsimp only
  rw [g1, ok_bind]
  refine ⟨_, rfl, ?_⟩
  dsimp only
  have e : s.partitionLabels ++ [0] = List.replicate cap 0 := by
    rw [h3, ← hl, hlen, List.replicate_succ']
  have e2 : mapSet (0 : Int) (nnD.foldl (· + ·) 0 / (nnD.length : ℝ)) [] =
      [(0, meanNearest k (front ++ [x]))] := by rw [g5]; rfl
  have e3 : s.key + 1 = cap := by rw [h6, ← hl, hlen]
  have e4 : mapSet (0 : Int) (s.key + 1 - 1) s.maxKeys = [(0, cap - 1)] := by rw [h7, e3]; rfl
  have e5 : s.windowKeys ++ [s.key] = List.range cap := by
    rw [h8, h6, ← hl, hlen, List.range_succ]
  have e6 : s.pointCounter + 1 = cap + 1 := by rw [h10, ← hl, hlen]
  rw [if_neg (by omega)]
  exact ⟨⟨rfl, e, e2, g2, rfl⟩, rfl, e4, e5, e3, e6⟩

theorem meanNearest_nonneg (k : Nat) (w : List (List ℝ)) : 0 ≤ meanNearest k w := by
  unfold meanNearest
  apply div_nonneg _ (Nat.cast_nonneg _)
  apply Finset.sum_nonneg
  intro i _
  unfold nearestDist
  apply Real.sInf_nonneg
  rintro _ ⟨y, _, rfl⟩
  exact dist_nonneg

/-- One row for a full window: an ordinary row changes nothing, any other row leaves the defined
behaviour. -/
theorem full_step {k cap : Nat} (hc : 2 ≤ cap) (body : SlidingState → Nat → NNStats → Res NNStats)
    (after : SlidingState → NNStats → Res NNStats) {w : List (List ℝ)} (hw : ∀ y ∈ w, y.length = k)
    (hl : w.length = cap) {s : SlidingState} (hs : FullWindow k cap w s) {x : List ℝ}
    (hx : x.length = k) :
    (Ordinary k w x → ∃ s', slidingStep cap (updateStats body after) s x = .ok s' ∧
      FullWindow k cap w s' ∧ s'.pointCounter = s.pointCounter + 1) ∧
    (¬ Ordinary k w x → ∀ s', slidingStep cap (updateStats body after) s x ≠ .ok s') := by
  obtain ⟨a1, a2, a3, a4, a5⟩ := hs
  obtain ⟨ds, d1, d2, d3⟩ := nearest_run hw hx (by rintro rfl; simp at hl; omega)
  have hlab : vget s.partitionLabels 0 = .ok 0 := by
    rw [a2]
    obtain ⟨c, rfl⟩ : ∃ c, cap = c + 1 := ⟨cap - 1, by omega⟩
    rfl
  have hmr : mapRead s.stats.avgNNDistPartitions 0 = (meanNearest k w, s.stats.avgNNDistPartitions) := by
    rw [a3]; rfl
  have hnn := meanNearest_nonneg k w
  have h14 : (0.25 : ℝ) = 1 / 4 := by norm_num
  have hdiv : 0 < meanNearest k w → (nearestDist k w x / meanNearest k w > 4 ↔
      ¬ nearestDist k w x ≤ 4 * meanNearest k w) := by
    intro h
    rw [gt_iff_lt, lt_div_iff₀ h, not_le]
  unfold slidingStep
  rw [if_neg (by rw [a1]; omega), if_neg (by rw [a1]; omega)]
  unfold nnBasedEvaluator
  rw [a1, d1, ok_bind]
  dsimp only
  rw [d3, ok_bind, if_pos (by rw [a3]; rfl)]
  constructor
  · intro ho
    by_cases hz : nearestDist k w x = 0
    · rw [if_pos hz]
      refine ⟨_, rfl, ?_⟩
      dsimp only
      split_ifs <;> first | exact ⟨⟨rfl, a2, a3, a4, a5⟩, rfl⟩ | exact ⟨⟨rfl, a2, a3, a4, rfl⟩, rfl⟩
    · rw [if_neg hz, hlab, ok_bind, hmr]
      dsimp only
      by_cases hq : meanNearest k w ≤ 0.25 ∧ nearestDist k w x ≤ 1
      · rw [if_pos hq]
        refine ⟨_, rfl, ?_⟩
        dsimp only
        split_ifs <;> first | exact ⟨⟨rfl, a2, a3, a4, a5⟩, rfl⟩ | exact ⟨⟨rfl, a2, a3, a4, rfl⟩, rfl⟩
      · rcases ho with ho | ho | ho
        · exact absurd ho hz
        · rw [← h14] at ho; exact absurd ho hq
        · have hpos := lt_of_le_of_ne hnn (Ne.symm ho.1)
          rw [if_neg hq, if_neg (by
            rintro (h | h)
            · exact ho.1 h
            · exact (hdiv hpos).1 h ho.2)]
          refine ⟨_, rfl, ?_⟩
          dsimp only
          split_ifs <;> first | exact ⟨⟨rfl, a2, a3, a4, a5⟩, rfl⟩ | exact ⟨⟨rfl, a2, a3, a4, rfl⟩, rfl⟩
  · intro ho s' hr
    unfold Ordinary at ho
    rw [not_or, not_or] at ho
    obtain ⟨o1, o2, o3⟩ := ho
    rw [if_neg o1, hlab, ok_bind, hmr] at hr
    dsimp only at hr
    rw [h14, if_neg o2, if_pos (by
      by_cases h0 : meanNearest k w = 0
      · exact Or.inl h0
      · have hpos := lt_of_le_of_ne hnn (Ne.symm h0)
        exact Or.inr ((hdiv hpos).2 (fun h => o3 ⟨h0, h⟩)))] at hr
    obtain ⟨t, ht, -⟩ := bind_ok.1 hr
    obtain ⟨⟨ok, s1⟩, he, -⟩ := bind_ok.1 ht
    obtain ⟨s2, hdel, he⟩ := bind_ok.1 he
    obtain ⟨w', -, he⟩ := bind_ok.1 he
    obtain ⟨st, hst, -⟩ := bind_ok.1 he
    have hdel := deleteNNstats_ok hdel
    dsimp only at hdel
    obtain ⟨-, -, -, ⟨d4, d4'⟩, -, -, -, -, -, d10⟩ := hdel
    refine absurd hst (updateStats_short body after _ ?_ st)
    change s2.distsFromCurrVec.length < s2.stats.distMatrix.length
    rw [d10, d4', List.length_eraseIdx_of_lt d4, a4, pairTable_length, d2, hl]
    omega

/-- C67, exactly: on a stream of at least 200 rows with the same number of coordinates the sliding
window is a defined execution if and only if every row after the 200th is ordinary with respect to
the first 200 rows; then the window holds the first 200 rows at the end. -/
theorem C67_defined_iff (body : SlidingState → Nat → NNStats → Res NNStats)
    (after : SlidingState → NNStats → Res NNStats) {k : Nat} (hk : 0 < k)
    (data0 rows : List (List ℝ)) (hrow : ∀ x ∈ rows, x.length = k) (hn : 200 ≤ rows.length) :
    (∃ s, slidingRun 200 (updateStats body after) data0 rows = .ok s) ↔
      ∀ x ∈ rows.drop 200, Ordinary k (rows.take 200) x := by
  have hlt : (rows.take 200).length = 200 := by rw [List.length_take]; omega
  have hrow' : ∀ x ∈ rows.take 200, x.length = k := fun x hx => hrow x (List.mem_of_mem_take hx)
  obtain ⟨s0, h0, f0, -⟩ := full_run hk (by norm_num : 2 ≤ 200) (updateStats body after) data0
    (rows.take 200) hrow' hlt
  have key : ∀ l : List (List ℝ), (∀ x ∈ l, x.length = k) → ∀ s, FullWindow k 200 (rows.take 200) s →
      ((∃ s', l.foldlM (slidingStep 200 (updateStats body after)) s = .ok s') ↔
        ∀ x ∈ l, Ordinary k (rows.take 200) x) := by
    intro l
    induction l with
    | nil => intro _ s _; exact ⟨fun _ x hx => absurd hx (by simp), fun _ => ⟨s, rfl⟩⟩
    | cons x l ih =>
      intro hl s hs
      obtain ⟨g1, g2⟩ := full_step (by norm_num : 2 ≤ 200) body after hrow' hlt hs (hl x (by simp))
      rw [List.foldlM_cons]
      by_cases ho : Ordinary k (rows.take 200) x
      · obtain ⟨s1, e1, f1, -⟩ := g1 ho
        rw [e1, ok_bind, ih (fun y hy => hl y (by simp [hy])) s1 f1]
        constructor
        · intro h y hy
          rcases List.mem_cons.1 hy with rfl | hy
          · exact ho
          · exact h y hy
        · exact fun h y hy => h y (by simp [hy])
      · constructor
        · rintro ⟨s', hs'⟩
          obtain ⟨s1, e1, -⟩ := bind_ok.1 hs'
          exact absurd e1 (g2 ho s1)
        · exact fun h => absurd (h x (by simp)) ho
  have hrun : slidingRun 200 (updateStats body after) data0 rows =
      (rows.drop 200).foldlM (slidingStep 200 (updateStats body after)) s0 := by
    conv_lhs => rw [← List.take_append_drop 200 rows]
    unfold slidingRun at h0 ⊢
    rw [List.foldlM_append, h0, ok_bind]
  rw [hrun]
  exact key _ (fun x hx => hrow x (List.mem_of_mem_drop hx)) s0 f0

/-- C68, in a run: when the 200th row has been read, the recorded mean is the mean distance of the 200
points from their nearest neighbours, and the bookkeeping says that the only partition, 0, has 200 points
of which the last one has key 199; the keys of the window are 0, ..., 199. -/
theorem C68_mean (upd : SlidingState → Res NNStats) {k : Nat} (hk : 0 < k)
    (data0 rows : List (List ℝ)) (hrow : ∀ x ∈ rows, x.length = k) (hn : rows.length = 200) :
    ∃ s, slidingRun 200 upd data0 rows = .ok s ∧ s.window = rows ∧
      s.stats.avgNNDistPartitions = [(0, meanNearest k rows)] ∧
      s.stats.numPointsPartn = [(0, 200)] ∧ s.maxKeys = [(0, 199)] ∧
      s.windowKeys = List.range 200 ∧ s.key = 200 ∧ s.partitionLabels = List.replicate 200 0 := by
  obtain ⟨s, h, f, f1, f2, f3, f4, -⟩ := full_run hk (by norm_num : 2 ≤ 200) upd data0 rows hrow hn
  exact ⟨s, h, f.window, f.avg, f1, f2, f3, f4, f.labels⟩

/-- C69: the partition rule. With `a` the mean recorded for the partition of the nearest point (0 if
there is none), the new point joins that partition if it is at distance 0, or at distance at most 5 and
the mean is unknown (-1), or the partition is dense and the point at most 1 away, or it is at most four
times the mean away; otherwise it founds a new partition. -/
theorem C69_partition_rule (dmin : ℝ) (nearest maxLabel : Int) (avg : List (Int × ℝ))
    (hlab : nearest ≤ maxLabel) :
    (choosePartition dmin nearest maxLabel avg).1 = nearest ↔
      dmin = 0 ∨ (dmin ≤ 5 ∧ ((avg.lookup nearest).getD 0 = -1 ∨
        ((avg.lookup nearest).getD 0 ≤ 1 / 4 ∧ dmin ≤ 1) ∨
        (0 < (avg.lookup nearest).getD 0 ∧ dmin ≤ 4 * (avg.lookup nearest).getD 0))) := by
  have hne : maxLabel + 1 ≠ nearest := by omega
  have hm : (mapRead avg nearest).1 = (avg.lookup nearest).getD 0 := by
    unfold mapRead
    cases avg.lookup nearest <;> rfl
  have h14 : (0.25 : ℝ) = 1 / 4 := by norm_num
  unfold choosePartition
  by_cases h0 : dmin = 0
  · simp [h0]
  · rw [if_neg h0]
    by_cases h5 : dmin > 5
    · rw [if_pos h5]
      simp only [hne, false_iff, not_or, not_and]
      exact ⟨h0, fun h => absurd h5 (not_lt.2 h)⟩
    · rw [if_neg h5]
      dsimp only
      rw [hm]
      have h5' := not_lt.1 h5
      generalize (avg.lookup nearest).getD 0 = a
      by_cases ha : a = -1
      · rw [if_pos ha]; simp [ha, h5']
      · rw [if_neg ha, h14]
        by_cases hb : a ≤ 1 / 4 ∧ dmin ≤ 1
        · rw [if_pos hb]; simp [h5']; right; right; left; simpa using hb
        · rw [if_neg hb]
          by_cases hc : a > 0 ∧ dmin / a ≤ 4
          · rw [if_pos hc]
            have := (div_le_iff₀ hc.1).1 hc.2
            simp only [true_iff]
            exact Or.inr ⟨h5', Or.inr (Or.inr ⟨hc.1, this⟩)⟩
          · rw [if_neg hc]
            simp only [hne, false_iff]
            rintro (h | ⟨-, h | h | ⟨h, h'⟩⟩)
            · exact h0 h
            · exact ha h
            · exact hb h
            · exact hc ⟨h, (div_le_iff₀ h).2 h'⟩

theorem lookup_mapSet {V : Type} (k l : Int) (v : V) (m : List (Int × V)) :
    (mapSet k v m).lookup l = if l = k then some v else m.lookup l := by
  induction m with
  | nil =>
    by_cases h : l = k
    · simp [mapSet, h]
    · have hb : (l == k) = false := beq_eq_false_iff_ne.2 h
      simp [mapSet, List.lookup_cons, h, hb]
  | cons e m ih =>
    obtain ⟨a, b⟩ := e
    unfold mapSet
    dsimp only
    by_cases h1 : k < a
    · rw [if_pos h1]
      by_cases h : l = k
      · simp [h]
      · have hb : (l == k) = false := beq_eq_false_iff_ne.2 h
        simp [List.lookup_cons, h, hb]
    · rw [if_neg h1]
      by_cases h2 : k = a
      · rw [if_pos h2]
        subst h2
        by_cases h : l = k
        · simp [h]
        · have hb : (l == k) = false := beq_eq_false_iff_ne.2 h
          simp [List.lookup_cons, h, hb]
      · rw [if_neg h2, List.lookup_cons, List.lookup_cons, ih]
        by_cases h : l = k
        · subst h
          have hb : (l == a) = false := beq_eq_false_iff_ne.2 h2
          simp [hb]
        · rw [if_neg h, if_neg h]

theorem mapRead_fst {V : Type} [Zero V] (m : List (Int × V)) (k : Int) :
    (mapRead m k).1 = (m.lookup k).getD 0 := by
  unfold mapRead
  cases m.lookup k <;> rfl

theorem mapRead_snd {V : Type} [Zero V] (m : List (Int × V)) (k l : Int) :
    ((mapRead m k).2.lookup l).getD 0 = (m.lookup l).getD 0 := by
  unfold mapRead
  cases h : m.lookup k with
  | some v => rfl
  | none =>
    dsimp only
    rw [lookup_mapSet]
    by_cases e : l = k
    · rw [if_pos e, e, h]; rfl
    · rw [if_neg e]

/-- C69: the search for an outdated partition, a partition whose last point was read more than 25
accepted points ago. It finds none exactly when there is none; otherwise it finds one with the fewest
points. `num` is the recorded number of points of each partition. -/
theorem C69_outdated (key : Nat) (maxKeys : List (Int × Nat)) (num : List (Int × Int))
    (hlab : ∀ e ∈ maxKeys, e.1 ≠ -1) (hnum : ∀ l, 0 ≤ (num.lookup l).getD 0) :
    ((maxKeys.foldl (outdatedStep key) (-1, -1, num)).2.1 = -1 ↔
      ∀ e ∈ maxKeys, key ≤ e.2 + 25) ∧
    ((maxKeys.foldl (outdatedStep key) (-1, -1, num)).2.1 ≠ -1 →
      (∃ e ∈ maxKeys, e.2 + 25 < key ∧ e.1 = (maxKeys.foldl (outdatedStep key) (-1, -1, num)).2.1) ∧
      ∀ e ∈ maxKeys, e.2 + 25 < key →
        (num.lookup (maxKeys.foldl (outdatedStep key) (-1, -1, num)).2.1).getD 0 ≤
          (num.lookup e.1).getD 0) := by
  have key' : ∀ l : List (Int × Nat), (∀ e ∈ l, e.1 ≠ -1) →
      (∀ x, ((l.foldl (outdatedStep key) (-1, -1, num)).2.2.lookup x).getD 0 =
        (num.lookup x).getD 0) ∧
      (((l.foldl (outdatedStep key) (-1, -1, num)).1 = -1 ∧
        (l.foldl (outdatedStep key) (-1, -1, num)).2.1 = -1 ∧ ∀ e ∈ l, key ≤ e.2 + 25) ∨
      ((l.foldl (outdatedStep key) (-1, -1, num)).1 =
          (num.lookup (l.foldl (outdatedStep key) (-1, -1, num)).2.1).getD 0 ∧
        (∃ e ∈ l, e.2 + 25 < key ∧ e.1 = (l.foldl (outdatedStep key) (-1, -1, num)).2.1) ∧
        ∀ e ∈ l, e.2 + 25 < key → (l.foldl (outdatedStep key) (-1, -1, num)).1 ≤
          (num.lookup e.1).getD 0)) := by
    intro l
    induction l using List.reverseRecOn with
    | nil => intro _; exact ⟨fun _ => rfl, Or.inl ⟨rfl, rfl, by simp⟩⟩
    | append_singleton l x ih =>
      intro hl
      obtain ⟨h1, h2⟩ := ih (fun e he => hl e (by simp [he]))
      rw [List.foldl_append]
      generalize l.foldl (outdatedStep key) (-1, -1, num) = st at h1 h2 ⊢
      obtain ⟨n, lab, m⟩ := st
      dsimp only at h1 h2
      simp only [List.foldl_cons, List.foldl_nil]
      unfold outdatedStep
      by_cases hx : x.2 + 25 < key
      · rw [if_pos (by omega)]
        dsimp only
        have e1 : (mapRead m x.1).1 = (num.lookup x.1).getD 0 := by rw [mapRead_fst, h1]
        have e2 : ∀ y, ((mapRead m x.1).2.lookup y).getD 0 = (num.lookup y).getD 0 :=
          fun y => by rw [mapRead_snd, h1]
        rcases h2 with ⟨a, b, c⟩ | ⟨a, b, c⟩
        · rw [if_pos a]
          refine ⟨e2, Or.inr ⟨e1, ⟨x, by simp, hx, rfl⟩, ?_⟩⟩
          intro e he hk
          rcases List.mem_append.1 he with he | he
          · exact absurd (c e he) (by omega)
          · rw [List.mem_singleton] at he; rw [he, ← e1]
        · have hn : n ≠ -1 := by
            have := hnum lab
            omega
          rw [if_neg hn]
          by_cases hlt : (mapRead m x.1).1 < n
          · rw [if_pos hlt]
            refine ⟨e2, Or.inr ⟨e1, ⟨x, by simp, hx, rfl⟩, ?_⟩⟩
            intro e he hk
            rcases List.mem_append.1 he with he | he
            · exact le_trans hlt.le (c e he hk)
            · rw [List.mem_singleton] at he; rw [he, ← e1]
          · rw [if_neg hlt]
            refine ⟨e2, Or.inr ⟨a, ?_, ?_⟩⟩
            · obtain ⟨e, he, h⟩ := b
              exact ⟨e, by simp [he], h⟩
            · intro e he hk
              rcases List.mem_append.1 he with he | he
              · exact c e he hk
              · rw [List.mem_singleton] at he; rw [he, ← e1]; exact not_lt.1 hlt
      · rw [if_neg (by omega)]
        refine ⟨h1, ?_⟩
        rcases h2 with ⟨a, b, c⟩ | ⟨a, b, c⟩
        · refine Or.inl ⟨a, b, ?_⟩
          intro e he
          rcases List.mem_append.1 he with he | he
          · exact c e he
          · rw [List.mem_singleton] at he; rw [he]; omega
        · refine Or.inr ⟨a, ?_, ?_⟩
          · obtain ⟨e, he, h⟩ := b
            exact ⟨e, by simp [he], h⟩
          · intro e he hk
            rcases List.mem_append.1 he with he | he
            · exact c e he hk
            · rw [List.mem_singleton] at he; rw [he] at hk; exact absurd hk hx
  obtain ⟨-, h2⟩ := key' maxKeys hlab
  generalize maxKeys.foldl (outdatedStep key) (-1, -1, num) = st at h2 ⊢
  rcases h2 with ⟨-, b, c⟩ | ⟨a, b, c⟩
  · exact ⟨⟨fun _ => c, fun _ => b⟩, fun h => absurd b h⟩
  · refine ⟨⟨?_, ?_⟩, fun _ => ⟨b, ?_⟩⟩
    · intro h
      obtain ⟨e, he, -, h'⟩ := b
      exact absurd (h'.trans h) (hlab e he)
    · intro h
      obtain ⟨e, he, hk, -⟩ := b
      exact absurd (h e he) (by omega)
    · intro e he hk
      rw [← a]
      exact c e he hk

/-- The hypotheses of `C69_outdated` are met: three partitions, of which 0 and 2 are outdated at key 40;
partition 2, the smaller one, is found. -/
example : (∀ e ∈ ([(0, 10), (1, 39), (2, 12)] : List (Int × Nat)), e.1 ≠ -1) ∧
    (([(0, 10), (1, 39), (2, 12)] : List (Int × Nat)).foldl (outdatedStep 40)
      (-1, -1, [(0, 5), (1, 4), (2, 3)])).2.1 = 2 := by decide

/-- C69: when a partition is outdated, the point that goes is the first, so the oldest, point of the
window that belongs to it. -/
theorem C69_victim_outdated (labels : List Int) (target nearest l : Int) (hl : l ≠ -1)
    (hmem : l ∈ labels) :
    ∃ i, chooseVictim labels target nearest l = .ok (i, l) ∧ labels[i]? = some l ∧
      ∀ j < i, labels[j]? ≠ some l := by
  refine ⟨labels.idxOf l, by unfold chooseVictim; rw [if_pos hl], ?_, ?_⟩
  · rw [List.getElem?_eq_getElem (List.idxOf_lt_length_iff.2 hmem), List.getElem_idxOf]
  · intro j hj h
    obtain ⟨hlt, e⟩ := List.getElem?_eq_some_iff.1 h
    have := List.not_of_lt_findIdx (p := fun x => x == l) (xs := labels) hj
    simp [e] at this

/-- The hypotheses of `C67_defined_iff` are met by a stream that leaves the defined behaviour and by one
that does not: 200 equal points followed by a point 2 away, or by the same point. -/
example : ¬ Ordinary 1 (List.replicate 200 [0]) [2] ∧ Ordinary 1 (List.replicate 200 [0]) [0] := by
  have hd : ∀ x y : ℝ, dist (point 1 [x]) (point 1 [y]) = |x - y| := by
    intro x y
    rw [EuclideanSpace.dist_eq]
    simp [point, Real.dist_eq, Real.sqrt_sq_eq_abs]
  have hn : ∀ n, 0 < n → ∀ x : ℝ, nearestDist 1 (List.replicate n [0]) [x] = |x| := by
    intro n hn x
    refine nearestDist_eq ⟨[0], List.mem_replicate.2 ⟨by omega, rfl⟩, ?_⟩ ?_
    · rw [hd]; simp
    · intro y hy
      rw [(List.mem_replicate.1 hy).2, hd]; simp
  have hm : meanNearest 1 (List.replicate 200 [0]) = 0 := by
    unfold meanNearest
    rw [Finset.sum_eq_zero, zero_div]
    intro i hi
    have hi : i < 200 := by rwa [Finset.mem_range, List.length_replicate] at hi
    have e1 : (List.replicate 200 ([0] : List ℝ)).getD i [] = [0] := by
      rw [List.getD_eq_getElem?_getD, List.getElem?_replicate, if_pos hi]; rfl
    have e2 : (List.replicate 200 ([0] : List ℝ)).eraseIdx i = List.replicate 199 [0] := by
      rw [List.eraseIdx_replicate, if_pos hi]
    rw [e1, e2, hn 199 (by norm_num)]
    simp
  constructor
  · unfold Ordinary
    rw [hm, hn 200 (by norm_num)]
    norm_num
  · left
    rw [hn 200 (by norm_num)]
    simp

end LHF
