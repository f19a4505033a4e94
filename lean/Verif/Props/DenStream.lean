import Verif.Lemmas.DenExact

/-! C46, C47, C65, C66: denStream. -/

namespace LHF
open Spec

/-! ### C46: the statistics of a micro-cluster -/

/-- Insert the points of a history one after the other. -/
noncomputable def insertAll : History → MicroCluster → Res MicroCluster
  | [], m => .ok m
  | (x, t) :: h, m => do
    let m ← m.insertPoint x t
    insertAll h m

theorem insertAll_inv {k : Nat} {l : ℝ} (h : History) (hk : ∀ p ∈ h, p.1.length = k) :
    ∀ (h0 : History) (m : MicroCluster), MCInv k l h0 m →
    ∃ m', insertAll h m = .ok m' ∧ MCInv k l (h0 ++ h) m' := by
  induction h with
  | nil => intro h0 m hm; exact ⟨m, rfl, by simpa using hm⟩
  | cons p h ih =>
    intro h0 m hm
    obtain ⟨x, t⟩ := p
    obtain ⟨m1, e1, e2, _⟩ := hm.insertPoint x (hk (x, t) (by simp)) t
    obtain ⟨m2, e3, e4⟩ := ih (fun p hp => hk p (by simp [hp])) _ _ e2
    exact ⟨m2, by rw [insertAll, e1, ok_bind, e3], by simpa using e4⟩

/-- C46: after any sequence of insertions (at any times), at every time the weight of a micro-cluster
is the sum of the decayed weights of its points. If there is a point, then the center is their
weighted mean and the radius is the square root of their weighted variance, which is not negative. -/
theorem C46_statistics {k : Nat} (l : ℝ) (t0 : Int) (h : History) (hk : ∀ p ∈ h, p.1.length = k) :
    ∃ m, insertAll h (MicroCluster.new t0 k l) = .ok m ∧
      (∀ t, m.getWeight t = totalWeight l h t) ∧
      (h ≠ [] → m.center.length = k ∧ ∀ t, point k m.center = decayedMean k l h t) ∧
      (∀ t, m.getRadius = .ok (Real.sqrt (decayedVariance k l h t)) ∧ 0 ≤ decayedVariance k l h t) := by
  obtain ⟨m, h1, h2⟩ := insertAll_inv h hk [] _ (mcInv_new k l t0)
  rw [List.nil_append] at h2
  exact ⟨m, h1, fun t => h2.getWeight t, fun hh => ⟨h2.clen, fun t => h2.mean hh t⟩,
    fun t => ⟨h2.getRadius t, decayedVariance_nonneg k l h t⟩⟩

/-- C46: `mergeRadius` returns, without changing the micro-cluster, the radius that it would have with
the new point. -/
theorem C46_merge_radius {k : Nat} (l : ℝ) (t0 : Int) (h : History) (hk : ∀ p ∈ h, p.1.length = k)
    (x : List ℝ) (hx : x.length = k) (t : Int) {m : MicroCluster}
    (hm : insertAll h (MicroCluster.new t0 k l) = .ok m) :
    m.mergeRadius x t = .ok (Real.sqrt (decayedVariance k l (h ++ [(x, t)]) t)) := by
  obtain ⟨m', h1, h2⟩ := insertAll_inv h hk [] _ (mcInv_new k l t0)
  rw [hm] at h1
  cases h1
  obtain ⟨_, _, _, h3, _⟩ := MCInv.merge h2 x hx t
  exact h3

/-- A concrete history: two points, the first one halved in weight at time 1. -/
example : ∃ m, insertAll [([0, 0], 0), ([3, 3], 1)] (MicroCluster.new 0 2 1) = .ok m ∧
    m.getWeight 1 = 3 / 2 ∧ point 2 m.center = point 2 [2, 2] := by
  obtain ⟨m, h1, h2, h3, _⟩ := C46_statistics (k := 2) 1 0 [([0, 0], 0), ([3, 3], 1)] (by simp)
  have hd : decay 1 1 0 = 1 / 2 := by
    simp only [decay]
    norm_num [Real.rpow_neg_one]
  have hw : totalWeight 1 [([0, 0], 0), ([3, 3], 1)] 1 = 3 / 2 := by
    simp [totalWeight, hd, decay_self]; norm_num
  refine ⟨m, h1, by rw [h2, hw], ?_⟩
  rw [(h3 (by simp)).2 1]
  unfold decayedMean
  rw [hw]
  ext i
  fin_cases i <;> simp [decay_self, point]

/-! ### C47: the choice of the micro-cluster and the merge rule -/

/-- C47: on a non-empty list of micro-clusters the search returns the first index at which the
distance of the center from the point is minimal. (Without micro-clusters it reads element 0 of an
empty vector; the code only calls it otherwise.) -/
theorem C47_nearest {k : Nat} (cs : List MicroCluster) (hc : ∀ m ∈ cs, m.center.length = k)
    (x : List ℝ) (hx : x.length = k) (hne : cs ≠ []) :
    ∃ i m, nearestCluster cs x = .ok i ∧ cs[i]? = some m ∧ ∀ j m', cs[j]? = some m' →
      dist (point k m.center) (point k x) ≤ dist (point k m'.center) (point k x) ∧
      (j < i → dist (point k m.center) (point k x) < dist (point k m'.center) (point k x)) :=
  nearestCluster_spec cs hc x hx hne

theorem C47_nearest_empty (x : List ℝ) : nearestCluster [] x = .error .oob := rfl

/-- Micro-clusters that have been built by the given insertions. -/
def Built (k : Nat) (l : ℝ) (h : History) (m : MicroCluster) : Prop :=
  (∀ p ∈ h, p.1.length = k) ∧ ∃ t0, insertAll h (MicroCluster.new t0 k l) = .ok m

theorem Built.inv {k : Nat} {l : ℝ} {h : History} {m : MicroCluster} (hb : Built k l h m) :
    MCInv k l h m := by
  obtain ⟨hk, t0, he⟩ := hb
  obtain ⟨m', h1, h2⟩ := insertAll_inv h hk [] _ (mcInv_new k l t0)
  rw [he] at h1
  cases h1
  simpa using h2

/-- The observable statistics of a micro-cluster are those of the history. -/
def HasStatistics (k : Nat) (l : ℝ) (h : History) (m : MicroCluster) : Prop :=
  (∀ t, m.getWeight t = totalWeight l h t) ∧ (∀ t, point k m.center = decayedMean k l h t) ∧
    ∀ t, m.getRadius = .ok (radius k l h t)

theorem MCInv.statistics {k : Nat} {l : ℝ} {h : History} {m : MicroCluster} (hm : MCInv k l h m) :
    HasStatistics k l h m :=
  ⟨hm.getWeight, hm.point_center, fun t => hm.getRadius t⟩

/-- C47: adding a point of the stream follows the rule `Absorb`, whatever the state: the nearest
potential micro-cluster takes it if its radius stays within epsilon; otherwise the nearest outlier
micro-cluster does under the same condition, and becomes a potential one if it gets heavy enough;
otherwise the point forms a new outlier micro-cluster. The new micro-clusters have the statistics of
the new histories. -/
theorem C47_merging {k : Nat} (cfg : DenConfig) (p o : List History) (st : DenState)
    (hp : List.Forall₂ (Built k cfg.lambda) p st.p) (ho : List.Forall₂ (Built k cfg.lambda) o st.o)
    (x : List ℝ) (hx : x.length = k) (t : Int) :
    ∃ st' p' o', denMerging cfg k st x t = .ok st' ∧
      Absorb k cfg.lambda cfg.epsilon cfg.betaMu p o x t p' o' ∧
      List.Forall₂ (HasStatistics k cfg.lambda) p' st'.p ∧
      List.Forall₂ (HasStatistics k cfg.lambda) o' st'.o := by
  obtain ⟨st', p', o', h1, h2, h3, h4, -⟩ := denMerging_spec cfg (hp.imp fun _ _ h => h.inv)
    (ho.imp fun _ _ h => h.inv) x hx t
  exact ⟨st', p', o', h1, h2, h3.imp fun _ _ h => h.statistics, h4.imp fun _ _ h => h.statistics⟩

/-- C47: the rule puts the point into exactly one history and changes no other one. -/
theorem C47_exactly_one {k : Nat} {l e w : ℝ} {p o p' o' : List History} {x : List ℝ} {t : Int}
    (h : Absorb k l e w p o x t p' o') :
    (p'.flatten ++ o'.flatten).Perm ((x, t) :: (p.flatten ++ o.flatten)) := h.perm

/-- The hypotheses of `C47_merging` can be met: one potential micro-cluster with one point. -/
example : ∃ m, Built 1 1 [([0], 0)] m ∧ ∃ st',
    denMerging (denConfig 1 1) 1 ⟨[m], []⟩ [5] 3 = .ok st' := by
  obtain ⟨m, h, _⟩ := C46_statistics (k := 1) 1 0 [([0], 0)] (by simp)
  have hb : Built 1 1 [([0], 0)] m := ⟨by simp, 0, h⟩
  obtain ⟨st', _, _, h1, _⟩ := C47_merging (k := 1) (denConfig 1 1) [[([0], 0)]] [] ⟨[m], []⟩
    (List.Forall₂.cons hb List.Forall₂.nil) List.Forall₂.nil [5] rfl 3
  exact ⟨m, hb, st', h1⟩

/-! ### C65: the result of a run -/

theorem denConfig_Tp_ne (epsilon lambda : ℝ) (hl : 0 < lambda) : (denConfig epsilon lambda).Tp ≠ 0 := by
  have h1 : 0 < (1 / lambda) * Real.log (2 / (2 - 1)) := by
    apply mul_pos (by positivity)
    apply Real.log_pos
    norm_num
  have := Int.ceil_pos.2 h1
  simp only [denConfig]
  omega

/-- The run with general settings. -/
theorem denRun_spec (S : SortByLevel ℝ) (ab : ℝ → ℝ) (hab : ∀ x, ab x ≤ |x|) {k : Nat} (hk : 0 < k)
    (cfg : DenConfig) (hpos : 0 < cfg.initPoints) (hTp : cfg.Tp ≠ 0) (heps : 0 < cfg.epsilon)
    (data : List (List ℝ)) (hrow : ∀ x ∈ data, x.length = k) (hn : cfg.initPoints ≤ data.length)
    (fuel : Nat) (hfuel : (cfg.initPoints + 1) * cfg.initPoints ≤ fuel) :
    ∃ (labels : List Int) (m : Nat) (N : Nat → List Nat) (groups : List History)
      (cs : List MicroCluster),
      denRun S ab cfg data fuel = .ok (some (cs.map MicroCluster.center)) ∧
      Reps k cfg.lambda groups cs ∧ (groups.flatten.map Prod.fst).Subperm data ∧
      (0 < m → NonEmptyGroups groups) ∧
      (∀ i j x y, i < cfg.initPoints → j < cfg.initPoints → data[i]? = some x → data[j]? = some y →
        (dist (point k y) (point k x) < cfg.epsilon → j ∈ N i) ∧
        (j ∈ N i → dist (point k y) (point k x) ≤ cfg.epsilon)) ∧
      (∀ i, i < cfg.initPoints → (N i).Nodup ∧ ∀ j ∈ N i, j < cfg.initPoints) ∧
      IsClustering N cfg.minPoints cfg.initPoints m (fun i => labels.getD i 0) ∧
      (data.length = cfg.initPoints → groups = initGroups data labels
        (cfg.initPoints / cfg.streamSpeed) (initCount m) cfg.initPoints) := by
  have hts : Spec.treeSize data cfg.initPoints = cfg.initPoints := by
    unfold Spec.treeSize; rw [if_neg (by omega)]
  obtain ⟨labels, m, N, h1, h2, h3, h4, h5⟩ := C43_dbscan_euclidean S ab hab k hk data hrow
    cfg.initPoints hn cfg.minPoints cfg.epsilon heps cfg.initPoints hts.symm fuel hfuel
  obtain ⟨cs, h6, h7⟩ := denInit_spec cfg data labels hpos h2 hn hrow h5
  have h0 : 0 < data.length := by omega
  obtain ⟨st', p', o', h8, h9, h10, h11, h12⟩ := denStreamLoop_spec (k := k) cfg hTp
    (data.drop cfg.initPoints) (fun x hx => hrow x (List.mem_of_mem_drop hx)) ⟨cs, []⟩ _ []
    (cfg.initPoints % cfg.streamSpeed) (cfg.initPoints / cfg.streamSpeed) h7 List.Forall₂.nil
  have hrun : denRun S ab cfg data fuel = .ok (some (st'.p.map MicroCluster.center)) := by
    unfold denRun
    rw [h1, ok_bind]
    simp only
    rw [h6, ok_bind, vget_of_lt h0, ok_bind, hrow _ (List.getElem_mem h0), h8, ok_bind]
    rfl
  have hsub : (p'.flatten.map Prod.fst).Subperm data := by
    have a : (p'.flatten.map Prod.fst).Subperm ((p'.flatten ++ o'.flatten).map Prod.fst) := by
      rw [List.map_append]; exact (List.sublist_append_left _ _).subperm
    refine a.trans (h11.trans ?_)
    have b := initGroups_subperm data labels (cfg.initPoints / cfg.streamSpeed) (initCount m)
      cfg.initPoints hn
    have c := (List.subperm_append_left (data.drop cfg.initPoints)).2 b
    have d : (data.drop cfg.initPoints ++ data.take cfg.initPoints).Perm data := by
      refine List.perm_append_comm.trans ?_
      rw [List.take_append_drop]
    simpa using c.trans d.subperm
  by_cases hlen : data.length = cfg.initPoints
  · refine ⟨labels, m, N, initGroups data labels (cfg.initPoints / cfg.streamSpeed) (initCount m)
      cfg.initPoints, cs, ?_, h7, ?_, ?_, h3, h4, h5, fun _ => rfl⟩
    · rw [hrun]
      rw [List.drop_of_length_le (by omega)] at h8
      rw [denStreamLoop] at h8
      cases h8
      rfl
    · exact (initGroups_subperm data labels _ _ _ hn).trans (List.take_sublist _ _).subperm
    · intro hm
      refine initGroups_nonEmpty data labels _ _ _ (fun c hc1 hc2 => h5.used c hc1 ?_)
      unfold initCount at hc2
      rw [if_neg (by omega)] at hc2
      exact hc2
  · refine ⟨labels, m, N, p', st'.p, hrun, h9, hsub, ?_, h3, h4, h5, fun e => absurd e hlen⟩
    intro hm
    refine (h12 (initGroups_nonEmpty data labels _ _ _ (fun c hc1 hc2 => h5.used c hc1 ?_))
      (fun _ h => absurd h (by simp))).1
    unfold initCount at hc2
    rw [if_neg (by omega)] at hc2
    exact hc2

/-- A row of the first 1000 with at least 20 of them nearer than epsilon. -/
def DenseStart (k : Nat) (epsilon : ℝ) (data : List (List ℝ)) : Prop :=
  ∃ i, i < 1000 ∧ ∃ js : Finset Nat, 20 ≤ js.card ∧ ∀ j ∈ js, j < 1000 ∧
    dist (point k (data.getD j [])) (point k (data.getD i [])) < epsilon

/-- C65: on at least 1000 rows, if one of the first 1000 has 20 of them within epsilon, the run
succeeds, and the returned points are the decayed weighted means of non-empty groups of rows; no row
is used more often than it occurs in the data. Missing for the property: data without such a row. -/
theorem C65_result_partial (S : SortByLevel ℝ) (ab : ℝ → ℝ) (hab : ∀ x, ab x ≤ |x|) {k : Nat}
    (hk : 0 < k) (epsilon lambda : ℝ) (heps : 0 < epsilon) (hl : 0 < lambda) (data : List (List ℝ))
    (hrow : ∀ x ∈ data, x.length = k) (hn : 1000 ≤ data.length) (hdense : DenseStart k epsilon data)
    (fuel : Nat) (hfuel : 1001000 ≤ fuel) :
    ∃ (centers : List (List ℝ)) (groups : List History),
      denRun S ab (denConfig epsilon lambda) data fuel = .ok (some centers) ∧
      (groups.flatten.map Prod.fst).Subperm data ∧
      List.Forall₂ (fun h c => h ≠ [] ∧ c.length = k ∧ ∀ t, point k c = decayedMean k lambda h t)
        groups centers := by
  obtain ⟨labels, m, N, groups, cs, h1, h2, h3, h4, h5, h6, h7, h8⟩ := denRun_spec S ab hab hk
    (denConfig epsilon lambda) (by simp [denConfig]) (denConfig_Tp_ne epsilon lambda hl) heps data hrow
    (by simpa [denConfig] using hn) fuel (by simpa [denConfig] using hfuel)
  have hget : ∀ j, j < 1000 → data[j]? = some (data.getD j []) := by
    intro j hj
    rw [List.getD_eq_getElem?_getD, List.getElem?_eq_getElem (by omega)]
    rfl
  have hm : 0 < m := by
    obtain ⟨i, hi, js, hc, hjs⟩ := hdense
    have hcore : Core N 20 i := by
      unfold Core
      refine hc.trans ?_
      have : js ⊆ (N i).toFinset := by
        intro j hj
        obtain ⟨hj1, hj2⟩ := hjs j hj
        rw [List.mem_toFinset]
        exact (h5 i j _ _ hi hj1 (hget i hi) (hget j hj1)).1 hj2
      exact (Finset.card_le_card this).trans (List.toFinset_card_le _)
    have hnoise := h7.noise i hi
    have hr := h7.range i hi
    rcases hr with h | h
    · exact absurd hcore (hnoise.1 h).1
    · omega
  refine ⟨_, groups, h1, h3, ?_⟩
  rw [List.forall₂_map_right_iff]
  have hne := h4 hm
  clear h1 h3 h4 h5 h6 h7 h8
  induction h2 with
  | nil => exact List.Forall₂.nil
  | cons a b ih =>
    refine List.Forall₂.cons ⟨hne _ (by simp), a.clen, fun t => a.point_center t⟩
      (ih (fun h hh => hne h (by simp [hh])))

/-- C65 is violated: on 1000 rows that are farther than epsilon from each other, the result is the
origin, whatever the rows are. -/
theorem C65_no_cluster_violated (S : SortByLevel ℝ) (ab : ℝ → ℝ) (hab : ∀ x, ab x ≤ |x|) {k : Nat}
    (hk : 0 < k) (epsilon lambda : ℝ) (heps : 0 < epsilon) (hl : 0 < lambda) (data : List (List ℝ))
    (hrow : ∀ x ∈ data, x.length = k) (hn : data.length = 1000)
    (hfar : ∀ i j, i < 1000 → j < 1000 → i ≠ j →
      epsilon < dist (point k (data.getD j [])) (point k (data.getD i [])))
    (fuel : Nat) (hfuel : 1001000 ≤ fuel) :
    denRun S ab (denConfig epsilon lambda) data fuel = .ok (some [List.replicate k 0]) := by
  obtain ⟨labels, m, N, groups, cs, h1, h2, h3, h4, h5, h6, h7, h8⟩ := denRun_spec S ab hab hk
    (denConfig epsilon lambda) (by simp [denConfig]) (denConfig_Tp_ne epsilon lambda hl) heps data hrow
    (by simp [denConfig, hn]) fuel (by simpa [denConfig] using hfuel)
  have hget : ∀ j, j < 1000 → data[j]? = some (data.getD j []) := by
    intro j hj
    rw [List.getD_eq_getElem?_getD, List.getElem?_eq_getElem (by omega)]
    rfl
  change ∀ i, i < 1000 → (N i).Nodup ∧ ∀ j ∈ N i, j < 1000 at h6
  have hnc : ∀ i, i < 1000 → ¬ Core N 20 i := by
    intro i hi hc
    have hsub : (N i).toFinset ⊆ {i} := by
      intro j hj
      rw [List.mem_toFinset] at hj
      have hj1 := (h6 i hi).2 j hj
      have := (h5 i j _ _ hi hj1 (hget i hi) (hget j hj1)).2 hj
      rw [Finset.mem_singleton]
      by_contra hne
      exact absurd (hfar i j hi hj1 (Ne.symm hne)) (not_lt.2 this)
    have := Finset.card_le_card hsub
    rw [List.toFinset_card_of_nodup (h6 i hi).1, Finset.card_singleton] at this
    unfold Core at hc
    omega
  have hall : ∀ i, i < 1000 → labels.getD i 0 = -1 := by
    intro i hi
    exact (h7.noise i hi).2 ⟨hnc i hi, fun j hj hc => absurd hc (hnc j hj)⟩
  have hm : m = 0 := by
    by_contra hm
    obtain ⟨i, hi, e⟩ := h7.used 1 le_rfl (by omega)
    have := hall i hi
    omega
  have hg := h8 hn
  rw [hm] at hg
  have : groups = [[]] := by
    rw [hg]
    change initGroups data labels _ 1 1000 = [[]]
    unfold initGroups
    simp only [List.range_one, List.map_cons, List.map_nil, List.cons.injEq, and_true,
      List.map_eq_nil_iff, List.filter_eq_nil_iff, List.mem_range, decide_eq_true_eq]
    intro i hi
    rw [hall i hi]
    simp
  subst this
  rw [h1]
  cases h2 with
  | cons a b =>
    cases b
    simp [(a.empty rfl).1]

/-- The hypotheses of `C65_result_partial` can be met: 1000 times the same row. -/
example : ∃ centers, denRun (SortByLevel.insertion ℝ) (fun x => |x|) (denConfig 1 1)
    (List.replicate 1000 [5]) 1001000 = .ok (some centers) := by
  obtain ⟨c, _, h, _⟩ := C65_result_partial (SortByLevel.insertion ℝ) (fun x => |x|) (fun _ => le_rfl)
    (k := 1) one_pos 1 1 one_pos one_pos (List.replicate 1000 [5])
    (fun x hx => by rw [(List.mem_replicate.1 hx).2]; rfl)
    (by rw [List.length_replicate])
    ⟨0, by norm_num, Finset.range 20, by simp, fun j hj => by
      have : j < 20 := Finset.mem_range.1 hj
      refine ⟨by omega, ?_⟩
      have h1 : (List.replicate 1000 [(5 : ℝ)]).getD j [] = [5] := by
        rw [List.getD_eq_getElem?_getD, List.getElem?_replicate, if_pos (by omega)]; rfl
      have h2 : (List.replicate 1000 [(5 : ℝ)]).getD 0 [] = [5] := by
        rw [List.getD_eq_getElem?_getD, List.getElem?_replicate, if_pos (by omega)]; rfl
      rw [h1, h2, dist_self]
      exact one_pos⟩ 1001000 le_rfl
  exact ⟨c, h⟩

/-- The hypotheses of `C65_no_cluster_violated` can be met: the rows 10, 20, ..., 10000 with epsilon 1
give the origin. -/
example : denRun (SortByLevel.insertion ℝ) (fun x => |x|) (denConfig 1 1)
    ((List.range 1000).map (fun i : Nat => [10 * ((i : ℝ) + 1)])) 1001000 = .ok (some [[0]]) := by
  have := C65_no_cluster_violated (SortByLevel.insertion ℝ) (fun x => |x|) (fun _ => le_rfl)
    (k := 1) one_pos 1 1 one_pos one_pos ((List.range 1000).map (fun i : Nat => [10 * ((i : ℝ) + 1)]))
    (fun x hx => by obtain ⟨i, _, rfl⟩ := List.mem_map.1 hx; rfl)
    (by rw [List.length_map, List.length_range]) (fun i j hi hj hij => by
      have hg : ∀ i : Nat, i < 1000 →
          ((List.range 1000).map (fun i : Nat => [10 * ((i : ℝ) + 1)])).getD i [] =
            [10 * ((i : ℝ) + 1)] := by
        intro i hi
        rw [List.getD_eq_getElem?_getD, List.getElem?_map, List.getElem?_range hi]
        rfl
      rw [hg i hi, hg j hj]
      rw [EuclideanSpace.dist_eq]
      simp only [point, Finset.univ_unique, Fin.default_eq_zero, Finset.sum_singleton]
      rw [Real.sqrt_sq dist_nonneg, Real.dist_eq]
      have hz : (1 : ℝ) ≤ |((j : ℝ) - i)| := by
        have : (1 : Int) ≤ |(j : Int) - i| := Int.one_le_abs (by omega)
        exact_mod_cast this
      have : |10 * ((j : ℝ) + 1) - 10 * ((i : ℝ) + 1)| = 10 * |(j : ℝ) - i| := by
        rw [← mul_sub, add_sub_add_right_eq_sub, abs_mul]; norm_num
      simp only [Fin.val_zero, List.getD_cons_zero]
      rw [this]
      linarith) 1001000 le_rfl
  simpa using this

/-! ### C75: the whole run -/

/-- C75: on at least 1000 rows the run is a run of the specified algorithm. The first 1000 rows are
clustered (`IsClustering`, with at least 20 rows in the neighbourhoods `N` of radius epsilon); the
clusters, taken at time 50, are the first potential groups (one empty group if there is no cluster).
The remaining rows are streamed, 20 in a unit of time, with weight threshold 2 and a check of the groups
after every `⌈log 2 / lambda⌉` units of time. The returned points are the decayed means of the
potential groups at the end. -/
theorem C75_algorithm (S : SortByLevel ℝ) (ab : ℝ → ℝ) (hab : ∀ x, ab x ≤ |x|) {k : Nat}
    (hk : 0 < k) (epsilon lambda : ℝ) (heps : 0 < epsilon) (hl : 0 < lambda) (data : List (List ℝ))
    (hrow : ∀ x ∈ data, x.length = k) (hn : 1000 ≤ data.length) (fuel : Nat)
    (hfuel : 1001000 ≤ fuel) :
    ∃ (labels : List Int) (m : Nat) (N : Nat → List Nat) (centers : List (List ℝ))
      (p o : List History),
      denRun S ab (denConfig epsilon lambda) data fuel = .ok (some centers) ∧
      (∀ i j x y, i < 1000 → j < 1000 → data[i]? = some x → data[j]? = some y →
        (dist (point k y) (point k x) < epsilon → j ∈ N i) ∧
        (j ∈ N i → dist (point k y) (point k x) ≤ epsilon)) ∧
      (∀ i, i < 1000 → (N i).Nodup ∧ ∀ j ∈ N i, j < 1000) ∧
      IsClustering N 20 1000 m (fun i => labels.getD i 0) ∧
      Streamed k lambda epsilon 2 20 ⌈Real.log 2 / lambda⌉ 1000 (data.drop 1000)
        (initGroups data labels 50 (max 1 m) 1000) [] p o ∧
      List.Forall₂ (fun h c => c.length = k ∧ ∀ t, point k c = decayedMean k lambda h t) p centers := by
  have hts : Spec.treeSize data 1000 = 1000 := by
    unfold Spec.treeSize; rw [if_neg (by omega)]
  obtain ⟨labels, m, N, h1, h2, h3, h4, h5⟩ := C43_dbscan_euclidean S ab hab k hk data hrow
    1000 hn 20 epsilon heps 1000 hts.symm fuel (by omega)
  obtain ⟨cs, h6, h7⟩ := denInit_spec (denConfig epsilon lambda) data labels (by simp [denConfig]) h2 hn
    hrow h5
  have h0 : 0 < data.length := by omega
  obtain ⟨st', p', o', h8, h9, h10⟩ := denStreamLoop_exact (k := k) (denConfig epsilon lambda)
    (denConfig_Tp_ne epsilon lambda hl) (by simp [denConfig])
    (data.drop 1000) (fun x hx => hrow x (List.mem_of_mem_drop hx)) ⟨cs, []⟩ _ [] 1000 h7
    List.Forall₂.nil List.Forall₂.nil
  have hTp : (denConfig epsilon lambda).Tp = ⌈Real.log 2 / lambda⌉ := by
    simp only [denConfig]
    congr 1
    rw [show (2 : ℝ) / (2 - 1) = 2 by norm_num]
    ring
  have hc : initCount m = max 1 m := by
    unfold initCount
    split_ifs <;> omega
  refine ⟨labels, m, N, st'.p.map MicroCluster.center, p', o', ?_, h3, h4, h5, ?_, ?_⟩
  · unfold denRun
    change (dbscanCluster S vectorsDistance ab data 20 epsilon 1000 fuel >>= _) = _
    rw [h1, ok_bind]
    simp only
    rw [h6, ok_bind, vget_of_lt h0, ok_bind, hrow _ (List.getElem_mem h0)]
    have e : denStreamLoop (denConfig epsilon lambda) k (data.drop (denConfig epsilon lambda).initPoints)
        ⟨cs, []⟩ ((denConfig epsilon lambda).initPoints % (denConfig epsilon lambda).streamSpeed)
        ((denConfig epsilon lambda).initPoints / (denConfig epsilon lambda).streamSpeed) = .ok st' := h8
    rw [e, ok_bind]
    rfl
  · have ht : ((denConfig epsilon lambda).initPoints : Int) / ((denConfig epsilon lambda).streamSpeed : Int)
        = 50 := by simp [denConfig]
    have hi : (denConfig epsilon lambda).initPoints = 1000 := rfl
    rw [hTp, hc, ht, hi] at h10
    exact h10
  · rw [List.forall₂_map_right_iff]
    exact h9.imp fun h m hm => ⟨hm.clen, fun t => hm.point_center t⟩

/-- C65, also without a cluster in the first 1000 rows: if the stream is long enough for one check of
the groups, the returned points are the decayed means of non-empty groups of rows. -/
theorem C65_result_after_check (S : SortByLevel ℝ) (ab : ℝ → ℝ) (hab : ∀ x, ab x ≤ |x|) {k : Nat}
    (hk : 0 < k) (epsilon lambda : ℝ) (heps : 0 < epsilon) (hl : 0 < lambda) (data : List (List ℝ))
    (hrow : ∀ x ∈ data, x.length = k)
    (hcheck : ∃ T : Nat, 50 < T ∧ 20 * T ≤ data.length ∧ ⌈Real.log 2 / lambda⌉ ∣ (T : Int))
    (fuel : Nat) (hfuel : 1001000 ≤ fuel) :
    ∃ (centers : List (List ℝ)) (groups : List History),
      denRun S ab (denConfig epsilon lambda) data fuel = .ok (some centers) ∧
      List.Forall₂ (fun h c => h ≠ [] ∧ c.length = k ∧ ∀ t, point k c = decayedMean k lambda h t)
        groups centers := by
  obtain ⟨T, hT1, hT2, hT3⟩ := hcheck
  obtain ⟨labels, m, N, centers, p, o, h1, -, -, -, h5, h6⟩ := C75_algorithm S ab hab hk epsilon lambda
    heps hl data hrow (by omega) fuel hfuel
  have hne := h5.nonEmpty (by norm_num) (by norm_num) (fun _ h => absurd h (by simp))
    (Or.inr ⟨T, by omega, by rw [List.length_drop]; omega, hT3⟩)
  refine ⟨centers, p, h1, ?_⟩
  clear h1 h5
  induction h6 with
  | nil => exact List.Forall₂.nil
  | cons a b ih =>
    exact List.Forall₂.cons ⟨hne _ (by simp), a⟩ (ih fun h hh => hne h (by simp [hh]))

/-- Such streams exist: with lambda = 1 the groups are checked after every unit of time, and 1020 rows
are enough. -/
example : ∃ T : Nat, 50 < T ∧ 20 * T ≤ 1020 ∧ ⌈Real.log 2 / 1⌉ ∣ (T : Int) := by
  refine ⟨51, by norm_num, by norm_num, ?_⟩
  have h1 := Real.log_le_sub_one_of_pos (show (0 : ℝ) < 2 by norm_num)
  have h2 := Real.log_pos (show (1 : ℝ) < 2 by norm_num)
  have : ⌈Real.log 2 / 1⌉ = 1 := by
    rw [Int.ceil_eq_iff]
    constructor <;> push_cast <;> linarith
  rw [this]
  exact one_dvd _

/-! ### C66: small data sets -/

/-- C66 is violated: with fewer than 1000 rows the run reads past the end of the data. -/
theorem C66_small_input_violated (S : SortByLevel ℝ) (ab : ℝ → ℝ) (epsilon lambda : ℝ)
    (data : List (List ℝ)) (hn : data.length < 1000) (fuel : Nat) :
    denRun S ab (denConfig epsilon lambda) data fuel = .error .oob := by
  have : kdTreeOf S data 1000 = .error .oob := by
    unfold kdTreeOf
    simp only
    rw [if_neg (by norm_num : ¬ (1000 : Nat) = 0), if_pos hn]
  have h2 : dbscanCluster S vectorsDistance ab data (denConfig epsilon lambda).minPoints
      (denConfig epsilon lambda).epsilon (denConfig epsilon lambda).initPoints fuel = .error .oob := by
    unfold dbscanCluster
    change (kdTreeOf S data 1000 >>= _) = _
    rw [this]
    rfl
  unfold denRun
  rw [h2]
  rfl

end LHF
