import Verif.Lemmas.Windows
import Verif.Props.Distance

/-!
Properties C51, C67, C68 and C69: the sliding window.
-/

namespace LHF
open Spec

/-! ### C51 -/

/-- C51: after any rows, whatever the evaluator accepted and whatever `updateStats` did to the
statistics, the window, its keys and its labels have the same length, which is the smaller of the
capacity and the number of rows read, the keys increase strictly, and the window consists of rows
that were read, in reading order. The capacity is 200 in the code. -/
theorem C51_aligned (cap : Nat) (hc : 0 < cap) (upd : SlidingState → Res NNStats)
    (data0 rows : List (List ℝ)) (s : SlidingState) (h : slidingRun cap upd data0 rows = .ok s) :
    s.window.length = min cap rows.length ∧ s.windowKeys.length = s.window.length ∧
      s.partitionLabels.length = s.window.length ∧ s.windowKeys.Pairwise (· < ·) ∧
      s.window.Sublist rows := by
  have key : Aligned cap rows s := by
    induction rows using List.reverseRecOn generalizing s with
    | nil =>
      cases h
      exact ⟨by simp [SlidingState.initial], rfl, rfl, List.Pairwise.nil, by
        simp [SlidingState.initial], List.Sublist.refl _⟩
    | append_singleton rows x ih =>
      unfold slidingRun at h
      rw [List.foldlM_append] at h
      obtain ⟨s', h1, h2⟩ := bind_ok.1 h
      rw [List.foldlM_cons, bind_ok] at h2
      obtain ⟨s'', h2, h3⟩ := h2
      cases h3
      exact aligned_step hc (ih s' h1) h2
  exact ⟨key.len, key.keys, key.labels, key.incr, key.sub⟩

/-! ### C67 -/

theorem mapM_length {α β : Type} {f : α → Res β} {l : List α} {r : List β}
    (h : l.mapM f = .ok r) : r.length = l.length := by
  induction l generalizing r with
  | nil => cases h; rfl
  | cons x xs ih =>
    rw [List.mapM_cons] at h
    obtain ⟨a, -, h⟩ := bind_ok.1 h
    obtain ⟨b, hb, h⟩ := bind_ok.1 h
    cases h
    rw [List.length_cons, List.length_cons, ih hb]

/-- If the distance matrix has more rows than there are distances, `updateStats` reads past the end
of the distances. -/
theorem updateStats_short (body : SlidingState → Nat → NNStats → Res NNStats)
    (after : SlidingState → NNStats → Res NNStats) (s : SlidingState)
    (h : s.distsFromCurrVec.length < s.stats.distMatrix.length) (r : NNStats) :
    updateStats body after s ≠ .ok r := by
  intro hr
  unfold updateStats at hr
  obtain ⟨st, hst, -⟩ := bind_ok.1 hr
  have := foldlM_ok_mem hst s.distsFromCurrVec.length (List.mem_range.2 h)
  obtain ⟨a, b, hb⟩ := this
  obtain ⟨d, hd, -⟩ := bind_ok.1 hb
  have := vget_ok.1 hd
  simp at this

theorem set2_length {W : Type} {m r : List (List W)} {i j : Nat} {x : W}
    (h : set2 m i j x = .ok r) : r.length = m.length := by
  unfold set2 at h
  obtain ⟨_, -, h⟩ := bind_ok.1 h
  obtain ⟨_, -, h⟩ := bind_ok.1 h
  unfold vmodify at h
  split_ifs at h
  cases h
  simp

theorem runComplexInitializer_length {data : List (List ℝ)} {nnI : List Int} {nnD : List ℝ}
    {r : List (List ℝ) × List Int × List ℝ} (h : runComplexInitializer data nnI nnD = .ok r) :
    r.1.length = data.length := by
  unfold runComplexInitializer at h
  refine foldlM_inv (fun st : List (List ℝ) × List Int × List ℝ => st.1.length = data.length)
    (by simp) ?_ h
  intro a i b _ ha hb
  unfold initStep at hb
  obtain ⟨row, -, hb⟩ := bind_ok.1 hb
  split_ifs at hb
  · cases hb
    exact ha
  · obtain ⟨⟨m, ds⟩, hm, hb⟩ := bind_ok.1 hb
    obtain ⟨_, -, hb⟩ := bind_ok.1 hb
    cases hb
    unfold initRow at hm
    refine foldlM_inv (fun st : List (List ℝ) × List ℝ => st.1.length = data.length) ha ?_ hm
    intro a j b _ ha hb
    unfold initRowStep at hb
    split_ifs at hb
    · obtain ⟨_, -, hb⟩ := bind_ok.1 hb
      cases hb
      exact ha
    · obtain ⟨_, -, hb⟩ := bind_ok.1 hb
      obtain ⟨_, -, hb⟩ := bind_ok.1 hb
      obtain ⟨_, -, hb⟩ := bind_ok.1 hb
      obtain ⟨m', hm', hb⟩ := bind_ok.1 hb
      cases hb
      rw [← ha]
      exact set2_length hm'
    · cases hb
      exact ha

/-- The state of a sliding window that has not replaced any point. -/
structure Frozen (cap : Nat) (rows : List (List ℝ)) (s : SlidingState) : Prop where
  window : s.window = rows.take cap
  keys : s.windowKeys = List.range (min cap rows.length)
  key : s.key = min cap rows.length
  labels : s.partitionLabels = List.replicate (min cap rows.length) 0
  target : s.targetPartition = 0
  before : rows.length < cap → s.stats.avgNNDistPartitions = []
  avg : cap ≤ rows.length → ∃ a, s.stats.avgNNDistPartitions = [(0, a)]
  matrix : cap ≤ rows.length → s.stats.distMatrix.length = cap

theorem frozen_run (cap : Nat) (hc : 0 < cap)
    (body : SlidingState → Nat → NNStats → Res NNStats)
    (after : SlidingState → NNStats → Res NNStats)
    (data0 rows : List (List ℝ)) (s : SlidingState)
    (h : slidingRun cap (updateStats body after) data0 rows = .ok s) : Frozen cap rows s := by
  induction rows using List.reverseRecOn generalizing s with
  | nil =>
    cases h
    exact ⟨by simp [SlidingState.initial], by simp [SlidingState.initial],
      by simp [SlidingState.initial], by simp [SlidingState.initial], rfl, fun _ => rfl,
      fun h => absurd h (by simp; omega), fun h => absurd h (by simp; omega)⟩
  | append_singleton rows x ih =>
    unfold slidingRun at h
    rw [List.foldlM_append] at h
    obtain ⟨s', h1, h2⟩ := bind_ok.1 h
    rw [List.foldlM_cons, bind_ok] at h2
    obtain ⟨s'', h2, h3⟩ := h2
    cases h3
    have hF := ih s' h1
    unfold slidingStep at h2
    obtain ⟨t, ht, h2⟩ := bind_ok.1 h2
    have hwl : s'.window.length = min cap rows.length := by rw [hF.window, List.length_take]
    have hlen : (rows ++ [x]).length = rows.length + 1 := by simp
    have key : Frozen cap (rows ++ [x]) t := by
      by_cases hlt : s'.window.length < cap
      · rw [if_pos hlt] at ht
        have hr : rows.length < cap := by omega
        have hm : min cap rows.length = rows.length := by omega
        have hm' : min cap (rows ++ [x]).length = rows.length + 1 := by omega
        obtain ⟨f1, f2, f3, f4, -⟩ := slidingFill_ok ht
        have hwr : s'.window = rows := by rw [hF.window, List.take_of_length_le hr.le]
        have b1 : t.window = (rows ++ [x]).take cap := by
          rw [f1, hwr, List.take_of_length_le (by omega)]
        have b2 : t.windowKeys = List.range (min cap (rows ++ [x]).length) := by
          rw [f2, hF.keys, hF.key, hm, hm', List.range_succ]
        have b3 : t.key = min cap (rows ++ [x]).length := by rw [f4, hF.key, hm, hm']
        have b4 : t.partitionLabels = List.replicate (min cap (rows ++ [x]).length) 0 := by
          rw [f3, hF.labels, hF.target, hm, hm', List.replicate_succ']
        unfold slidingFill at ht
        dsimp only at ht
        split_ifs at ht with hcap
        · obtain ⟨⟨m, a, b⟩, hini, ht⟩ := bind_ok.1 ht
          have hml := runComplexInitializer_length hini
          cases ht
          refine ⟨b1, b2, b3, b4, hF.target, fun hl => ?_, fun _ => ?_, fun _ => ?_⟩
          · rw [hwr, hlen] at hcap
            omega
          · refine ⟨b.foldl (· + ·) 0 / (b.length : ℝ), ?_⟩
            change mapSet s'.targetPartition _ s'.stats.avgNNDistPartitions = _
            rw [hF.target, hF.before hr]
            rfl
          · exact hml.trans hcap
        · cases ht
          refine ⟨b1, b2, b3, b4, hF.target, fun _ => hF.before hr, fun hl => ?_, fun hl => ?_⟩
          · rw [hwr] at hcap
            omega
          · rw [hwr] at hcap
            omega
      · rw [if_neg hlt] at ht
        have hr : cap ≤ rows.length := by omega
        obtain ⟨⟨ok, s1⟩, he, ht⟩ := bind_ok.1 ht
        rw [if_neg (by omega)] at he
        obtain ⟨a, ha⟩ := hF.avg hr
        have hmat := hF.matrix hr
        have base : Frozen cap (rows ++ [x]) s' := by
          have hmin : min cap (rows ++ [x]).length = min cap rows.length := by omega
          refine ⟨?_, ?_, ?_, ?_, hF.target, fun hl => ?_, fun _ => ⟨a, ha⟩, fun _ => hmat⟩
          · rw [hF.window, List.take_append_of_le_length hr]
          · rw [hmin]; exact hF.keys
          · rw [hmin]; exact hF.key
          · rw [hmin]; exact hF.labels
          · omega
        unfold nnBasedEvaluator at he
        obtain ⟨dists, hd, he⟩ := bind_ok.1 he
        have hdl : dists.length = s'.window.length := mapM_length hd
        obtain ⟨dmin, -, he⟩ := bind_ok.1 he
        dsimp only at he
        rw [if_pos (by rw [ha]; rfl)] at he
        have keep : ∀ s2 : SlidingState, s2.window = s'.window → s2.windowKeys = s'.windowKeys →
            s2.key = s'.key → s2.partitionLabels = s'.partitionLabels →
            s2.targetPartition = s'.targetPartition → s2.stats = s'.stats →
            Frozen cap (rows ++ [x]) s2 := by
          intro s2 e1 e2 e3 e4 e5 e6
          obtain ⟨c1, c2, c3, c4, c5, c6, c7, c8⟩ := base
          exact ⟨e1 ▸ c1, e2 ▸ c2, e3 ▸ c3, e4 ▸ c4, e5 ▸ c5, e6 ▸ c6, e6 ▸ c7, e6 ▸ c8⟩
        split_ifs at he with hz
        · cases he
          cases ht
          exact keep _ rfl rfl rfl rfl rfl rfl
        · obtain ⟨label, hlab, he⟩ := bind_ok.1 he
          have hl0 : label = 0 := by
            have := vget_ok.1 hlab
            rw [hF.labels] at this
            exact List.eq_of_mem_replicate (List.mem_of_getElem? this)
          subst hl0
          have hmr : mapRead s'.stats.avgNNDistPartitions 0 =
              (a, s'.stats.avgNNDistPartitions) := by
            rw [ha]
            rfl
          rw [hmr] at he
          dsimp only at he
          split_ifs at he with hq1 hq2
          · cases he
            cases ht
            exact keep _ rfl rfl rfl rfl rfl rfl
          · obtain ⟨s2, hdel, he⟩ := bind_ok.1 he
            obtain ⟨w, hw, he⟩ := bind_ok.1 he
            obtain ⟨st, hst, he⟩ := bind_ok.1 he
            have hdel := deleteNNstats_ok hdel
            dsimp only at hdel
            obtain ⟨-, -, -, ⟨d4, d4'⟩, -, -, -, -, -, d10⟩ := hdel
            refine absurd hst (updateStats_short body after _ ?_ st)
            change s2.distsFromCurrVec.length < s2.stats.distMatrix.length
            rw [d10, d4', List.length_eraseIdx_of_lt d4]
            rw [hmat, hdl]
            omega
          · cases he
            cases ht
            exact keep _ rfl rfl rfl rfl rfl rfl
    cases h2
    obtain ⟨c1, c2, c3, c4, c5, c6, c7, c8⟩ := key
    split_ifs <;> exact ⟨c1, c2, c3, c4, c5, c6, c7, c8⟩

/-- C67 (violated): a sliding window never replaces a point. In every execution that stays within the
defined behaviour the window holds the first 200 rows read, whatever comes later. The remainder of
`updateStats` (`body` and `after`) is arbitrary. -/
theorem C67_window_never_moves_violated (body : SlidingState → Nat → NNStats → Res NNStats)
    (after : SlidingState → NNStats → Res NNStats) (data0 rows : List (List ℝ)) (s : SlidingState)
    (h : slidingRun 200 (updateStats body after) data0 rows = .ok s) :
    s.window = rows.take 200 ∧ s.windowKeys = List.range (min 200 rows.length) :=
  let hF := frozen_run 200 (by decide) body after data0 rows s h
  ⟨hF.window, hF.keys⟩

/-- C67: accepting a point when the window is full and pure reads past the end of the list of
distances: it is never a defined execution. -/
theorem C67_accept_fails_violated (body : SlidingState → Nat → NNStats → Res NNStats)
    (after : SlidingState → NNStats → Res NNStats) (data0 rows : List (List ℝ)) (s r : SlidingState)
    (row : List ℝ) (hfull : 200 ≤ rows.length)
    (h : slidingRun 200 (updateStats body after) data0 rows = .ok s) :
    nnBasedEvaluator (updateStats body after) row s ≠ .ok (true, r) := by
  intro he
  have hF := frozen_run 200 (by decide) body after data0 rows s h
  have h' : ∃ s', slidingRun 200 (updateStats body after) data0 (rows ++ [row]) = .ok s' ∧
      s'.window.getLast? = some row ∧ s'.key = s.key + 1 := by
    unfold slidingRun at h ⊢
    rw [List.foldlM_append, h, ok_bind, List.foldlM_cons]
    unfold slidingStep
    have hl : s.window.length = 200 := by rw [hF.window, List.length_take]; omega
    rw [if_neg (by omega), if_neg (by omega), he]
    refine ⟨_, rfl, ?_⟩
    have := (nnBasedEvaluator_ok he).1
    dsimp only
    split_ifs <;> simp [this]
  obtain ⟨s', hs', -, hk⟩ := h'
  have hF' := frozen_run 200 (by decide) body after data0 _ s' hs'
  have h1 := hF.key
  have h2 := hF'.key
  rw [List.length_append, List.length_singleton] at h2
  omega

/-! ### C68 -/

theorem minElement_spec {W : Type} [LinearOrder W] (l : List W) (hl : l ≠ []) :
    ∃ t v, minElement l = some (t, v) ∧ l[t]? = some v ∧
      ∀ s w, l[s]? = some w → v ≤ w ∧ (s < t → v < w) := by
  induction l with
  | nil => exact absurd rfl hl
  | cons x xs ih =>
    unfold minElement
    by_cases hx : xs = []
    · subst hx
      refine ⟨0, x, rfl, rfl, ?_⟩
      intro s w hs
      cases s with
      | zero => cases hs; exact ⟨le_refl _, fun h => absurd h (by omega)⟩
      | succ s => simp at hs
    · obtain ⟨t, v, h1, h2, h3⟩ := ih hx
      rw [h1]
      dsimp only
      by_cases hv : v < x
      · rw [if_pos hv]
        refine ⟨t + 1, v, rfl, by simpa using h2, ?_⟩
        intro s w hs
        cases s with
        | zero => cases hs; exact ⟨hv.le, fun _ => hv⟩
        | succ s =>
          have := h3 s w (by simpa using hs)
          exact ⟨this.1, fun h => this.2 (by omega)⟩
      · rw [if_neg hv]
        refine ⟨0, x, rfl, rfl, ?_⟩
        intro s w hs
        cases s with
        | zero => cases hs; exact ⟨le_refl _, fun h => absurd h (by omega)⟩
        | succ s =>
          have := h3 s w (by simpa using hs)
          exact ⟨(not_lt.1 hv).trans this.1, fun h => absurd h (by omega)⟩

/-- The `t`-th index other than `i`. -/
def skip (i t : Nat) : Nat := if t < i then t else t + 1

/-- C68: `runComplexInitializer` on `n ≥ 2` points with the same number of coordinates gives the
complex the upper triangular matrix of Euclidean distances and computes, for every point, the
distance to its nearest neighbour and the (smallest) index of a nearest neighbour. -/
theorem C68_initial_statistics (k : Nat) (hk : 0 < k) (data : List (List ℝ))
    (hdim : ∀ p ∈ data, p.length = k) (hn : 2 ≤ data.length) :
    let D : Nat → Nat → ℝ := fun i j =>
      dist (Spec.point k (data.getD i [])) (Spec.point k (data.getD j []))
    ∃ nnI nnD, runComplexInitializer data [] [] =
        .ok (table data.length (fun i j => if i < j then D i j else 0), nnI, nnD) ∧
      nnI.length = data.length ∧ nnD.length = data.length ∧
      ∀ i, i < data.length → ∃ j : Nat, NearestOther data.length (D i) i j ∧
        nnI[i]? = some (j : Int) ∧ nnD[i]? = some (D i j) := by
  intro D
  set n := data.length with hnn
  have hD : ∀ i j, i < n → j < n → ∃ a b, vget data i = .ok a ∧ vget data j = .ok b ∧
      a.length = k ∧ vectorsDistance a b = .ok (D i j) := by
    intro i j hi hj
    refine ⟨data[i], data[j], vget_of_lt hi, vget_of_lt hj, hdim _ (List.getElem_mem _), ?_⟩
    rw [C10_distance_is_euclidean (k := k) _ _ (hdim _ (List.getElem_mem _))
      (hdim _ (List.getElem_mem _))]
    simp only [D]
    rw [List.getD_eq_getElem?_getD, List.getD_eq_getElem?_getD, List.getElem?_eq_getElem hi,
      List.getElem?_eq_getElem hj]
    rfl
  have hsym : ∀ i j, D i j = D j i := fun i j => dist_comm _ _
  let F : Nat → Nat → Nat → Nat → ℝ := fun i m a b =>
    if a < b ∧ (a < i ∨ (a = i ∧ b < m)) then D a b else 0
  let G : Nat → Nat → List ℝ := fun i c => (List.range c).map (fun t => D i (skip i t))
  have hrow : ∀ i, i < n → initRow data i (table n (F i 0)) =
      .ok (table n (F (i + 1) 0), G i (n - 1)) := by
    intro i hi
    unfold initRow
    obtain ⟨r, hr, hP⟩ := foldlM_range_total (σ := List (List ℝ) × List ℝ) (initRowStep data i)
      (fun j st => st = (table n (F i j), G i (if j ≤ i then j else j - 1))) n
      (table n (F i 0), []) (by simp [G]) (by
        intro j st hj hst
        subst hst
        unfold initRowStep
        rcases lt_trichotomy j i with hji | hji | hji
        · rw [if_pos hji]
          have hat : at2 (table n (F i j)) j i = .ok (D j i) := by
            unfold at2 table
            rw [vget_ok.2 (show _ = some _ by rw [List.getElem?_map, List.getElem?_range hj]; rfl),
              ok_bind, vget_ok]
            rw [List.getElem?_map, List.getElem?_range hi]
            simp only [Option.map_some, F]
            rw [if_pos ⟨hji, .inl hji⟩]
          rw [hat]
          refine ⟨_, rfl, ?_⟩
          rw [if_pos (by omega), if_pos (by omega)]
          congr 1
          · unfold table
            apply List.map_congr_left
            intro a _
            apply List.map_congr_left
            intro b _
            simp only [F]
            apply if_congr _ rfl rfl
            omega
          · simp only [G]
            rw [List.range_succ, List.map_append, List.map_singleton, skip, if_pos hji, hsym]
        · subst hji
          rw [if_neg (by omega), if_neg (by omega)]
          refine ⟨_, rfl, ?_⟩
          rw [if_pos (by omega), if_neg (by omega)]
          congr 1
          unfold table
          apply List.map_congr_left
          intro a _
          apply List.map_congr_left
          intro b _
          simp only [F]
          apply if_congr _ rfl rfl
          omega
        · rw [if_neg (by omega), if_pos hji]
          obtain ⟨a, b, ha, hb, -, hd⟩ := hD i j hi hj
          rw [ha, ok_bind, hb, ok_bind, hd, ok_bind, set2_table hi hj, ok_bind]
          refine ⟨_, rfl, ?_⟩
          rw [if_neg (by omega), if_neg (by omega)]
          congr 1
          · unfold table
            apply List.map_congr_left
            intro a' _
            apply List.map_congr_left
            intro b' _
            simp only [F]
            by_cases hab : a' = i ∧ b' = j
            · rw [if_pos hab, if_pos (by omega), hab.1, hab.2]
            · rw [if_neg hab]
              apply if_congr _ rfl rfl
              omega
          · simp only [G]
            have : j + 1 - 1 = (j - 1) + 1 := by omega
            rw [this, List.range_succ, List.map_append, List.map_singleton, skip,
              if_neg (by omega)]
            congr 3)
    rw [hr, hP]
    congr 2
    · unfold table
      apply List.map_congr_left
      intro a _
      apply List.map_congr_left
      intro b hb
      have hb := List.mem_range.1 hb
      simp only [F]
      apply if_congr _ rfl rfl
      omega
    · rw [if_neg (by omega)]
  obtain ⟨r, hr, h1, h2, h3, h4⟩ := foldlM_range_total
    (σ := List (List ℝ) × List Int × List ℝ) (initStep data)
    (fun i st => st.1 = table n (F i 0) ∧ st.2.1.length = i ∧ st.2.2.length = i ∧
      ∀ i', i' < i → ∃ j : Nat, NearestOther n (D i') i' j ∧ st.2.1[i']? = some (j : Int) ∧
        st.2.2[i']? = some (D i' j)) n
    (List.replicate n (List.replicate n 0), [], [])
    (by
      refine ⟨?_, rfl, rfl, fun i' h => absurd h (by omega)⟩
      simp [table, F])
    (by
      rintro i ⟨m, nnI, nnD⟩ hi ⟨g1, g2, g3, g4⟩
      dsimp only at g1 g2 g3 g4
      obtain ⟨a, -, ha, -, hak, -⟩ := hD i i hi hi
      unfold initStep
      rw [ha, ok_bind, if_neg (by cases a <;> simp_all)]
      dsimp only
      rw [g1, hrow i hi, ok_bind]
      dsimp only
      have hne : G i (n - 1) ≠ [] := by
        simp only [G, ne_eq, List.map_eq_nil_iff, List.range_eq_nil]
        omega
      obtain ⟨t, v, e1, e2, e3⟩ := minElement_spec (G i (n - 1)) hne
      have hGget : ∀ t, t < n - 1 → (G i (n - 1))[t]? = some (D i (skip i t)) := by
        intro t ht
        simp only [G]
        rw [List.getElem?_map, List.getElem?_range ht]
        rfl
      have ht : t < n - 1 := by
        have := (List.getElem?_eq_some_iff.1 e2).1
        simpa [G] using this
      have hv : v = D i (skip i t) := by
        have := hGget t ht
        rw [e2] at this
        exact Option.some.inj this
      unfold minElementDeref
      rw [e1]
      refine ⟨_, rfl, rfl, by simp [g2], by simp [g3], ?_⟩
      intro i' hi'
      rcases Nat.lt_succ_iff_lt_or_eq.1 hi' with hlt | rfl
      · obtain ⟨j, j1, j2, j3⟩ := g4 i' hlt
        refine ⟨j, j1, ?_, ?_⟩
        · rw [List.getElem?_append_left (by omega)]; exact j2
        · rw [List.getElem?_append_left (by omega)]; exact j3
      · refine ⟨skip i' t, ⟨?_, ?_, ?_, ?_⟩, ?_, ?_⟩
        · unfold skip; split_ifs <;> omega
        · unfold skip; split_ifs <;> omega
        · intro j hj hne'
          rw [← hv]
          by_cases hji : j < i'
          · have := hGget j (by omega)
            rw [skip, if_pos hji] at this
            exact (e3 _ _ this).1
          · have := hGget (j - 1) (by omega)
            rw [skip, if_neg (by omega), Nat.sub_add_cancel (by omega)] at this
            exact (e3 _ _ this).1
        · intro j hj hne'
          rw [← hv]
          by_cases hji : j < i'
          · have := hGget j (by omega)
            rw [skip, if_pos hji] at this
            refine (e3 _ _ this).2 ?_
            unfold skip at hj
            split_ifs at hj <;> omega
          · have hjt : j - 1 < t := by
              unfold skip at hj
              split_ifs at hj <;> omega
            have := hGget (j - 1) (by omega)
            rw [skip, if_neg (by omega), Nat.sub_add_cancel (by omega)] at this
            exact (e3 _ _ this).2 hjt
        · rw [List.getElem?_append_right (by omega), g2, Nat.sub_self]
          simp only [Option.map_some, Option.getD_some, List.getElem?_cons_zero]
          unfold skip
          split_ifs <;> simp
        · rw [List.getElem?_append_right (by omega), g3, Nat.sub_self, ← hv]
          rfl)
  refine ⟨r.2.1, r.2.2, ?_, h2, h3, h4⟩
  unfold runComplexInitializer
  rw [hr]
  congr 1
  refine Prod.ext ?_ rfl
  rw [h1]
  unfold table
  apply List.map_congr_left
  intro a ha
  have ha := List.mem_range.1 ha
  apply List.map_congr_left
  intro b _
  simp only [F]
  apply if_congr _ rfl rfl
  omega

/-- The hypotheses of `C68_initial_statistics` are met by three points of the plane. -/
example : 0 < 2 ∧ (∀ p ∈ ([[0, 0], [3, 4], [0, 1]] : List (List ℝ)), p.length = 2) ∧
    2 ≤ ([[0, 0], [3, 4], [0, 1]] : List (List ℝ)).length := by
  simp

theorem nearest_const (n : Nat) (x d : ℝ) (h : vectorsDistance [x] [0] = .ok d) :
    nearestNeighbors vectorsDistance [x] (List.replicate n [0]) = .ok (List.replicate n d) := by
  unfold nearestNeighbors
  induction n with
  | zero => rfl
  | succ n ih =>
    rw [List.replicate_succ, List.mapM_cons, h, ok_bind, ih]
    rfl

theorem minElementDeref_const (n : Nat) (d : ℝ) (hn : 0 < n) :
    minElementDeref (List.replicate n d) = .ok d := by
  obtain ⟨t, v, h1, h2, -⟩ := minElement_spec (List.replicate n d) (by simp; omega)
  unfold minElementDeref
  rw [h1]
  have := List.eq_of_mem_replicate (List.mem_of_getElem? h2)
  rw [this]

/-- The hypothesis of C67 is met by streams of any length: a sliding window over equal points is a
defined execution. -/
theorem C67_constant_stream (upd : SlidingState → Res NNStats) (data0 : List (List ℝ)) (n : Nat) :
    ∃ s, slidingRun 200 upd data0 (List.replicate n [0]) = .ok s ∧
      s.window = List.replicate (min 200 n) [0] ∧
      (n < 200 → s.stats = ⟨[], [], [], [], []⟩ ∧ s.targetPartition = 0) ∧
      (200 ≤ n → ∃ a, s.stats.avgNNDistPartitions = [(0, a)] ∧ a = 0 ∧
        s.stats.distMatrix.length = 200) := by
  have hv : vectorsDistance [0] [0] = .ok 0 := by simp [vectorsDistance, sqDistance, sqDiffs]
  induction n with
  | zero => exact ⟨_, rfl, rfl, fun _ => ⟨rfl, rfl⟩, fun h => absurd h (by omega)⟩
  | succ n ih =>
    obtain ⟨s, h1, h2, h3, h4⟩ := ih
    have hrun : slidingRun 200 upd data0 (List.replicate (n + 1) [0]) = slidingStep 200 upd s [0] := by
      unfold slidingRun at h1 ⊢
      rw [List.replicate_succ', List.foldlM_append, h1, ok_bind, List.foldlM_cons]
      exact bind_pure _
    have hwl : s.window.length = min 200 n := by rw [h2, List.length_replicate]
    rw [hrun]
    by_cases hn : n < 200
    · obtain ⟨hst, htg⟩ := h3 hn
      have hw' : s.window ++ [[0]] = List.replicate (n + 1) [0] := by
        rw [h2, Nat.min_eq_right hn.le, List.replicate_succ']
      unfold slidingStep
      rw [if_pos (by omega)]
      unfold slidingFill
      dsimp only
      by_cases he : n + 1 = 200
      · rw [if_pos (by rw [hw', List.length_replicate]; exact he), hw', hst]
        dsimp only
        obtain ⟨nnI, nnD, i1, -, i3, i4⟩ := C68_initial_statistics 1 (by decide)
          (List.replicate (n + 1) [0]) (by
            intro p hp
            rw [List.eq_of_mem_replicate hp]
            rfl) (by rw [List.length_replicate]; omega)
        rw [i1]
        have hz : nnD = List.replicate nnD.length 0 := by
          rw [List.eq_replicate_iff]
          refine ⟨rfl, fun b hb => ?_⟩
          obtain ⟨i, hi, hib⟩ := List.mem_iff_getElem.1 hb
          obtain ⟨j, j1, -, j3⟩ := i4 i (by omega)
          rw [List.getElem?_eq_getElem hi, hib] at j3
          rw [Option.some.inj j3]
          have g : ∀ t, t < (List.replicate (n + 1) ([0] : List ℝ)).length →
              (List.replicate (n + 1) ([0] : List ℝ)).getD t [] = [0] := by
            intro t ht
            rw [List.getD_eq_getElem?_getD, List.getElem?_eq_getElem ht]
            simp
          change dist _ _ = (0 : ℝ)
          rw [g i (by omega), g j j1.lt, dist_self]
        refine ⟨_, rfl, ?_⟩
        have hsum : ∀ m : Nat, (List.replicate m (0 : ℝ)).foldl (· + ·) 0 = 0 := by
          intro m
          induction m with
          | zero => rfl
          | succ m ih => rw [List.replicate_succ, List.foldl_cons, add_zero, ih]
        have hres : (nnD.foldl (· + ·) 0 : ℝ) / (nnD.length : ℝ) = 0 := by
          rw [hz, hsum, zero_div]
        have hmin : min 200 (n + 1) = n + 1 := by omega
        dsimp only
        split_ifs
        all_goals
          refine ⟨by rw [hmin], fun h => absurd h (by omega), fun _ => ⟨_, ?_, hres, ?_⟩⟩
          · rw [htg]; rfl
          · rw [table, List.length_map, List.length_range, List.length_replicate]
            exact he
      · rw [if_neg (by rw [hw', List.length_replicate]; exact he)]
        refine ⟨_, rfl, ?_⟩
        have hmin : min 200 (n + 1) = n + 1 := by omega
        dsimp only
        split_ifs
        all_goals
          refine ⟨by rw [hw', hmin], fun _ => ⟨hst, htg⟩, fun h => absurd h (by omega)⟩
    · obtain ⟨a, ha, ha0, hm⟩ := h4 (by omega)
      have hmin : min 200 n = 200 := by omega
      rw [hmin] at h2 hwl
      unfold slidingStep
      rw [if_neg (by omega), if_neg (by omega)]
      unfold nnBasedEvaluator
      rw [h2, nearest_const 200 0 0 hv, ok_bind]
      dsimp only
      rw [minElementDeref_const 200 0 (by decide), ok_bind, if_pos (by rw [ha]; rfl), if_pos rfl]
      refine ⟨_, rfl, ?_⟩
      dsimp only
      have hmin : min 200 (n + 1) = 200 := by omega
      split_ifs
      all_goals
        exact ⟨by rw [hmin], fun h => absurd h (by omega), fun _ => ⟨a, ha, ha0, hm⟩⟩

/-- C67 on a concrete stream: 200 equal points followed by a point at distance 2. The new point is
accepted, and the execution leaves the defined behaviour. -/
theorem C67_replacement_fails_violated (body : SlidingState → Nat → NNStats → Res NNStats)
    (after : SlidingState → NNStats → Res NNStats) (data0 : List (List ℝ)) :
    ∃ e, slidingRun 200 (updateStats body after) data0 (List.replicate 200 [0] ++ [[2]]) =
      .error e := by
  obtain ⟨s, h1, h2, -, h4⟩ := C67_constant_stream (updateStats body after) data0 200
  obtain ⟨a, ha, ha0, -⟩ := h4 le_rfl
  cases hres : slidingRun 200 (updateStats body after) data0 (List.replicate 200 [0] ++ [[2]]) with
  | error e => exact ⟨e, rfl⟩
  | ok r =>
    exfalso
    have hF := frozen_run 200 (by decide) body after data0 _ s h1
    have hr := hres
    unfold slidingRun at h1 hr
    rw [List.foldlM_append, h1, ok_bind, List.foldlM_cons] at hr
    obtain ⟨r', hr', hr⟩ := bind_ok.1 hr
    unfold slidingStep at hr'
    obtain ⟨t, ht, -⟩ := bind_ok.1 hr'
    have hwl : s.window.length = 200 := by rw [h2, List.length_replicate]; rfl
    rw [if_neg (by omega)] at ht
    obtain ⟨⟨ok, s1⟩, he, -⟩ := bind_ok.1 ht
    rw [if_neg (by omega)] at he
    have hno := C67_accept_fails_violated body after data0 _ s s1 [2]
      (by rw [List.length_replicate]) h1
    have hok : ok = true := by
      have hv : vectorsDistance [2] [0] = .ok (Real.sqrt (2 ^ 2)) := by
        simp [vectorsDistance, sqDistance, sqDiffs]
      have h2' : Real.sqrt (2 ^ 2) = 2 := Real.sqrt_sq (by norm_num)
      rw [h2'] at hv
      unfold nnBasedEvaluator at he
      rw [h2, nearest_const _ 2 2 hv, ok_bind] at he
      dsimp only at he
      rw [minElementDeref_const _ 2 (by decide), ok_bind, if_pos (by rw [ha]; rfl),
        if_neg (by norm_num)] at he
      obtain ⟨label, hlab, he⟩ := bind_ok.1 he
      have hl0 : label = 0 := by
        have := vget_ok.1 hlab
        rw [hF.labels] at this
        exact List.eq_of_mem_replicate (List.mem_of_getElem? this)
      subst hl0
      have hmr : mapRead s.stats.avgNNDistPartitions 0 = (a, s.stats.avgNNDistPartitions) := by
        rw [ha]
        rfl
      rw [hmr] at he
      dsimp only at he
      rw [if_neg (by norm_num), if_pos (.inl ha0)] at he
      obtain ⟨_, -, he⟩ := bind_ok.1 he
      obtain ⟨_, -, he⟩ := bind_ok.1 he
      obtain ⟨_, -, he⟩ := bind_ok.1 he
      cases he
      rfl
    exact hno (hok ▸ he)

/-! ### C69 -/

/-- C69: a new point is put into the partition of its nearest point or into a partition whose label
exceeds every label in the window. -/
theorem C69_partition (dmin : ℝ) (nearest maxLabel : Int) (avg : List (Int × ℝ)) :
    (choosePartition dmin nearest maxLabel avg).1 = nearest ∨
      (choosePartition dmin nearest maxLabel avg).1 = maxLabel + 1 := by
  unfold choosePartition
  dsimp only
  split_ifs <;> simp

/-- C69: a point at distance 0 of a point of the window joins that point's partition, and a point
farther than 5 from the whole window founds a new one. -/
theorem C69_partition_extremes (dmin : ℝ) (nearest maxLabel : Int) (avg : List (Int × ℝ)) :
    (dmin = 0 → (choosePartition dmin nearest maxLabel avg).1 = nearest) ∧
      (5 < dmin → (choosePartition dmin nearest maxLabel avg).1 = maxLabel + 1) := by
  constructor
  · intro h
    unfold choosePartition
    rw [if_pos h]
  · intro h
    unfold choosePartition
    rw [if_neg (by intro h0; rw [h0] at h; norm_num at h), if_pos h]

/-- C69: when no partition is outdated and the new point joins an existing partition, the point that
is deleted does not belong to that partition. -/
theorem C69_victim_elsewhere (labels : List Int) (target : Int) (i : Nat) (l : Int)
    (h : chooseVictim labels target target (-1) = .ok (i, l)) :
    labels[i]? = some l ∧ l ≠ target := by
  unfold chooseVictim at h
  rw [if_neg (by simp), if_neg (by simp)] at h
  obtain ⟨l', hl, h⟩ := bind_ok.1 h
  cases h
  have hl := vget_ok.1 hl
  refine ⟨hl, ?_⟩
  obtain ⟨hlt, he⟩ := List.getElem?_eq_some_iff.1 hl
  rw [List.getElem_idxOf] at he
  rw [← he]
  split_ifs with h0
  · rw [h0]; decide
  · exact fun h => h0 h.symm

/-- C69 (violated): "the oldest point of another partition is deleted" fails. If the new point joins a
partition other than 0 and there is no partition 0 in the window, no position is found and the
execution leaves the defined behaviour, even though other partitions are present. -/
theorem C69_oldest_violated (labels : List Int) (target : Int) (ht : target ≠ 0)
    (h0 : (0 : Int) ∉ labels) : chooseVictim labels target target (-1) = .error .oob := by
  unfold chooseVictim
  rw [if_neg (by simp), if_neg (by simp), if_neg ht]
  dsimp only
  rw [List.idxOf_eq_length_iff.2 h0]
  rw [vget_error le_rfl]
  rfl

/-- Such a window exists: labels 2 and 1, with the new point joining partition 1. -/
example : (1 : Int) ≠ 0 ∧ (0 : Int) ∉ ([2, 1, 1] : List Int) := by decide

/-- And a younger point is chosen before the oldest one: with labels 2, 0, 1 and the new point joining
partition 1, position 1 is deleted although position 0 is older and in another partition. -/
theorem C69_not_oldest_violated : chooseVictim [2, 0, 1] 1 1 (-1) = .ok (1, 0) := rfl

end LHF
