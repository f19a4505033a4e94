import Verif.Props.Invariance
import Verif.Lemmas.Stability

/-! C109–C111: the components of the barcode when the cloud is perturbed, when a row is repeated and when
two clouds are put far apart. -/

namespace LHF
open Spec

/-- The ends of the dimension-0 bars, in the order in which they are printed. -/
def Spec.componentEnds (lines : List (Line ℝ)) : List ℝ :=
  (lines.filter (fun l => l.1 = 0)).map (fun l => l.2.2)

/-- Two clouds are `δ`-close: there is a bijection of their points that changes no distance by more than `δ`. -/
def Spec.Close (δ : ℝ) (k : Nat) (data : List (List ℝ)) (k' : Nat) (data' : List (List ℝ)) : Prop :=
  ∃ σ : Fin data.length ≃ Fin data'.length,
    ∀ i j, |rowDist k' data' (σ i) (σ j) - rowDist k data i j| ≤ δ

theorem Spec.Close.symm {δ : ℝ} {k k' : Nat} {data data' : List (List ℝ)} (h : Close δ k data k' data') :
    Close δ k' data' k data := by
  obtain ⟨σ, h⟩ := h
  refine ⟨σ.symm, fun i j => ?_⟩
  have := h (σ.symm i) (σ.symm j)
  rwa [σ.apply_symm_apply, σ.apply_symm_apply, abs_sub_comm] at this

theorem scaleGraph_adj {n : Nat} {d : Nat → Nat → ℝ} (hs : ∀ i j, d i j = d j i) (t : ℝ) (x y : Fin n) :
    (scaleGraph n d t).Adj x y ↔ x ≠ y ∧ d x y ≤ t := by
  show (x < y ∧ d x y ≤ t) ∨ (y < x ∧ d y x ≤ t) ↔ _
  rw [hs y x]
  constructor
  · rintro (h | h)
    · exact ⟨h.1.ne, h.2⟩
    · exact ⟨h.1.ne', h.2⟩
  · rintro ⟨h, h'⟩
    rcases lt_or_gt_of_ne h with h | h
    · exact .inl ⟨h, h'⟩
    · exact .inr ⟨h, h'⟩

theorem close_components {δ : ℝ} {k k' : Nat} {data data' : List (List ℝ)} (h : Close δ k data k' data')
    (t : ℝ) : components (scaleGraph data'.length (rowDist k' data') (t + δ)) ≤
      components (scaleGraph data.length (rowDist k data) t) := by
  obtain ⟨σ, h⟩ := h
  refine components_of_map σ (fun x y hxy => ?_) (fun v => ⟨σ.symm v, by
    rw [σ.apply_symm_apply]⟩)
  rw [scaleGraph_adj (rowDist_symm k data)] at hxy
  apply SimpleGraph.Adj.reachable
  rw [scaleGraph_adj (rowDist_symm k' data')]
  refine ⟨fun e => hxy.1 (σ.injective e), ?_⟩
  have := abs_le.1 (h x y)
  linarith [hxy.2]

theorem close_length {δ : ℝ} {k k' : Nat} {data data' : List (List ℝ)} (h : Close δ k data k' data') :
    data.length = data'.length := by
  obtain ⟨σ, -⟩ := h
  simpa using Fintype.card_congr σ

/-- One side of the stability. -/
theorem merge_close {eps δ : ℝ} (hδ : 0 ≤ δ) {inRange : ℝ → Prop} (hr : ∀ t, t < eps → inRange t)
    {k k' : Nat} {data data' : List (List ℝ)} (h : Close δ k data k' data') {ds ds' : List ℝ}
    (h1 : MergeTimes data.length (rowDist k data) inRange ds)
    (h2 : MergeTimes data'.length (rowDist k' data') inRange ds')
    {i : Nat} (hi : i < ds.length) (hlt : ds[i] + δ < eps) :
    ∃ hi' : i < ds'.length, ds'[i] ≤ ds[i] + δ := by
  have h0 := h1.range _ (List.getElem_mem hi)
  have c1 := h1.count ds[i] h0.1 h0.2
  have c2 := h2.count (ds[i] + δ) (by linarith [h0.1]) (hr _ hlt)
  have hc := close_components h ds[i]
  have hl := close_length h
  have hn := (sorted_get_le h1.sorted ds[i] hi).1 le_rfl
  have hlen : (ds'.filter (fun w => decide (w ≤ ds[i] + δ))).length ≤ ds'.length := List.length_filter_le _ _
  have hi' : i < (ds'.filter (fun w => decide (w ≤ ds[i] + δ))).length := by omega
  exact ⟨by omega, (sorted_get_le h2.sorted _ (by omega)).2 hi'⟩

theorem merge_stable {eps δ : ℝ} (hδ : 0 ≤ δ) {inRange : ℝ → Prop} (hr : ∀ t, t < eps → inRange t)
    (hr' : ∀ t, inRange t → t ≤ eps)
    {k k' : Nat} {data data' : List (List ℝ)} (h : Close δ k data k' data') {ds ds' : List ℝ}
    (h1 : MergeTimes data.length (rowDist k data) inRange ds)
    (h2 : MergeTimes data'.length (rowDist k' data') inRange ds') (i : Nat) :
    |(ds' ++ [eps]).getD i eps - (ds ++ [eps]).getD i eps| ≤ δ := by
  have pad : ∀ ds : List ℝ, (ds ++ [eps]).getD i eps = ds.getD i eps := by
    intro ds
    rcases lt_trichotomy i ds.length with hi | hi | hi
    · rw [List.getD_append _ _ _ _ hi]
    · rw [List.getD_append_right _ _ _ _ hi.ge, List.getD_eq_default _ _ hi.ge]; simp [hi]
    · rw [List.getD_append_right _ _ _ _ hi.le, List.getD_eq_default _ _ hi.le,
        List.getD_eq_default _ _ (by simp; omega)]
  have one : ∀ {k k' : Nat} {data data' : List (List ℝ)} (_ : Close δ k data k' data') {ds ds' : List ℝ}
      (_ : MergeTimes data.length (rowDist k data) inRange ds)
      (_ : MergeTimes data'.length (rowDist k' data') inRange ds'),
      ds'.getD i eps ≤ ds.getD i eps + δ := by
    intro k k' data data' h ds ds' h1 h2
    have hle : ds'.getD i eps ≤ eps := by
      by_cases hi : i < ds'.length
      · rw [List.getD_eq_getElem _ _ hi]
        exact hr' _ (h2.range _ (List.getElem_mem hi)).2
      · rw [List.getD_eq_default _ _ (by omega)]
    by_cases hi : i < ds.length
    · rw [List.getD_eq_getElem ds _ hi]
      by_cases hlt : ds[i] + δ < eps
      · obtain ⟨hi', h3⟩ := merge_close hδ hr h h1 h2 hi hlt
        rw [List.getD_eq_getElem _ _ hi']
        exact h3
      · linarith [not_lt.1 hlt]
    · rw [List.getD_eq_default ds _ (by omega)]
      linarith
  rw [pad, pad, abs_le]
  have a := one h h1 h2
  have b := one h.symm h2 h1
  constructor <;> linarith

/-- The dimension-0 lines of a default run are merge times. -/
theorem tree_merge {sort : SortBySecond (List Nat) ℝ} {mode : EndRead} {eps : ℝ} {dim : Nat}
    {k : Nat} (hk : 0 < k) {data : List (List ℝ)} (hne : data ≠ []) (hdim : ∀ p ∈ data, p.length = k)
    {lines : List (Line ℝ)} {T : List (BettiEntry ℝ)}
    (hok : treeRun vectorsDistance sort mode eps dim data = .ok (lines, T)) :
    (∃ i j, i < j ∧ j < data.length ∧ rowDist k data i j < eps) ∧ ∃ ds : List ℝ,
      lines.filter (fun l => l.1 = 0) = ds.map (fun w => (0, 0, w)) ++ [(0, 0, eps)] ∧
      MergeTimes data.length (rowDist k data) (· < eps) ds := by
  have hedge : ∃ i j, i < j ∧ j < data.length ∧ rowDist k data i j < eps := by
    by_contra h
    push Not at h
    have := C70_tree_run_no_edge sort mode eps dim k hk data hdim h
    rw [if_neg hne, hok] at this
    cases this
  obtain ⟨ds, h1, h2, h3, h4⟩ := tree_zero sort mode eps dim k hk data hdim hedge hok
  exact ⟨hedge, ds, h1, h2, h3, h4⟩

/-- The dimension-0 lines of a run with the array complex are merge times. -/
theorem array_merge {sort : SortBySecond (List Nat) ℝ} {mode : EndRead} {eps : ℝ} {dim : Nat} (hd : 0 < dim)
    {k : Nat} (hk : 0 < k) {data : List (List ℝ)} (hne : data ≠ []) (hdim : ∀ p ∈ data, p.length = k)
    {lines : List (Line ℝ)} {T : List (BettiEntry ℝ)}
    (hok : arrayRun vectorsDistance sort mode eps dim data = .ok (lines, T)) :
    (∃ i j, i < j ∧ j < data.length ∧ rowDist k data i j ≤ eps) ∧ ∃ ds : List ℝ,
      lines.filter (fun l => l.1 = 0) = ds.map (fun w => (0, 0, w)) ++ [(0, 0, eps)] ∧
      MergeTimes data.length (rowDist k data) (· ≤ eps) ds := by
  have hedge : ∃ i j, i < j ∧ j < data.length ∧ rowDist k data i j ≤ eps := by
    by_contra h
    push Not at h
    have := C71_array_run_no_edge sort mode eps dim hd k hk data hdim h
    rw [if_neg hne, hok] at this
    cases this
  obtain ⟨g, h1, h2, -⟩ := array_built sort mode eps dim hd k hk data hdim
  rw [h1] at hok
  obtain ⟨hF, hS⟩ := filtered_array h2 sort
  obtain ⟨ds, h3, h4, h5, h6⟩ := zero_of_rips (rips_nonempty h2) (by omega) (fun _ _ => dist_nonneg) hS hedge
    (· ≤ eps) (fun t ht i j hij => hij.trans ht) (fun _ _ hij => hij) hok
  exact ⟨hedge, ds, h3, h4, h5, h6⟩

theorem componentEnds_eq {lines : List (Line ℝ)} {ds : List ℝ} {eps : ℝ}
    (h : lines.filter (fun l => l.1 = 0) = ds.map (fun w => (0, 0, w)) ++ [(0, 0, eps)]) :
    componentEnds lines = ds ++ [eps] := by
  unfold componentEnds
  rw [h, List.map_append, List.map_map]
  congr 1
  exact List.map_id _

/-- C109 (dimension 0): if no distance changes by more than `δ`, then in the two barcodes of the default
pipeline the ends of the dimension-0 bars, in the order printed, differ by at most `δ`, one by one; a bar
that only one of the files has (they are counted as ending at `epsilon`) ends within `δ` of `epsilon`. -/
theorem C109_components_stable_partial (sort sort' : SortBySecond (List Nat) ℝ) (mode mode' : EndRead)
    (eps δ : ℝ) (hδ : 0 ≤ δ) (dim dim' k k' : Nat) (hk : 0 < k) (hk' : 0 < k') (data data' : List (List ℝ))
    (hdim : ∀ p ∈ data, p.length = k) (hdim' : ∀ p ∈ data', p.length = k')
    (hclose : Close δ k data k' data')
    {lines lines' : List (Line ℝ)} {T T' : List (BettiEntry ℝ)}
    (hok : treeRun vectorsDistance sort mode eps dim data = .ok (lines, T))
    (hok' : treeRun vectorsDistance sort' mode' eps dim' data' = .ok (lines', T')) (i : Nat) :
    |(componentEnds lines').getD i eps - (componentEnds lines).getD i eps| ≤ δ := by
  by_cases hne : data = []
  · subst hne
    have hne' : data' = [] := List.eq_nil_of_length_eq_zero (close_length hclose).symm
    subst hne'
    have e1 := C70_tree_run_no_edge sort mode eps dim k hk [] hdim (fun i j _ h => by simp at h)
    have e2 := C70_tree_run_no_edge sort' mode' eps dim' k' hk' [] hdim' (fun i j _ h => by simp at h)
    rw [hok, if_pos rfl] at e1
    rw [hok', if_pos rfl] at e2
    cases e1
    cases e2
    simpa [componentEnds] using hδ
  · have hne' : data' ≠ [] := by
      rintro rfl
      exact hne (List.eq_nil_of_length_eq_zero (close_length hclose))
    obtain ⟨-, ds, h1, h2⟩ := tree_merge hk hne hdim hok
    obtain ⟨-, ds', h1', h2'⟩ := tree_merge hk' hne' hdim' hok'
    rw [componentEnds_eq h1, componentEnds_eq h1']
    exact merge_stable hδ (fun _ h => h) (fun _ h => le_of_lt h) hclose h2 h2' i

/-- C109 for the array complex. -/
theorem C109_components_stable_array_partial (sort sort' : SortBySecond (List Nat) ℝ) (mode mode' : EndRead)
    (eps δ : ℝ) (hδ : 0 ≤ δ) (dim dim' k k' : Nat) (hd : 0 < dim) (hd' : 0 < dim') (hk : 0 < k) (hk' : 0 < k')
    (data data' : List (List ℝ))
    (hdim : ∀ p ∈ data, p.length = k) (hdim' : ∀ p ∈ data', p.length = k')
    (hclose : Close δ k data k' data')
    {lines lines' : List (Line ℝ)} {T T' : List (BettiEntry ℝ)}
    (hok : arrayRun vectorsDistance sort mode eps dim data = .ok (lines, T))
    (hok' : arrayRun vectorsDistance sort' mode' eps dim' data' = .ok (lines', T')) (i : Nat) :
    |(componentEnds lines').getD i eps - (componentEnds lines).getD i eps| ≤ δ := by
  by_cases hne : data = []
  · subst hne
    have hne' : data' = [] := List.eq_nil_of_length_eq_zero (close_length hclose).symm
    subst hne'
    have e1 := C71_array_run_no_edge sort mode eps dim hd k hk [] hdim (fun i j _ h => by simp at h)
    have e2 := C71_array_run_no_edge sort' mode' eps dim' hd' k' hk' [] hdim' (fun i j _ h => by simp at h)
    rw [hok, if_pos rfl] at e1
    rw [hok', if_pos rfl] at e2
    cases e1
    cases e2
    simpa [componentEnds] using hδ
  · have hne' : data' ≠ [] := by
      rintro rfl
      exact hne (List.eq_nil_of_length_eq_zero (close_length hclose))
    obtain ⟨-, ds, h1, h2⟩ := array_merge hd hk hne hdim hok
    obtain ⟨-, ds', h1', h2'⟩ := array_merge hd' hk' hne' hdim' hok'
    rw [componentEnds_eq h1, componentEnds_eq h1']
    exact merge_stable hδ (fun _ h => le_of_lt h) (fun _ h => h) hclose h2 h2' i

/-- Moving every point by at most `δ` changes no distance by more than `2 δ`. -/
theorem close_of_moved {δ : ℝ} (k : Nat) {data data' : List (List ℝ)} (hlen : data.length = data'.length)
    (hmove : ∀ i, i < data.length → dist (Spec.point k (data.getD i [])) (Spec.point k (data'.getD i [])) ≤ δ) :
    Close (2 * δ) k data k data' := by
  refine ⟨finCongr hlen, fun i j => ?_⟩
  have hi := hmove i i.2
  have hj := hmove j j.2
  show |dist (Spec.point k (data'.getD i [])) (Spec.point k (data'.getD j [])) -
    dist (Spec.point k (data.getD i [])) (Spec.point k (data.getD j []))| ≤ 2 * δ
  generalize Spec.point k (data'.getD i []) = a' at *
  generalize Spec.point k (data'.getD j []) = b' at *
  generalize Spec.point k (data.getD i []) = a at *
  generalize Spec.point k (data.getD j []) = b at *
  rw [abs_le]
  have t1 := dist_triangle4 a' a b b'
  have t2 := dist_triangle4 a a' b' b
  rw [dist_comm a' a] at t1
  rw [dist_comm b' b] at t2
  constructor <;> linarith

/-- C109, the whole program: two runs with the same `epsilon` on files whose points are pairwise within `δ`
of each other write barcodes whose dimension-0 ends differ by at most `2 δ`. -/
theorem C109_program_partial (sys : System ℝ ℝ) (hdist : sys.lib.dist = vectorsDistance)
    (pairs pairs' : List (String × String)) (m m' : ArgMap) (f f' : String) (data data' : List (List ℝ))
    (h : PlainCommand sys pairs m "simplexTree" f data)
    (h' : PlainCommand sys pairs' m' "simplexTree" f' data')
    (heps : sys.atof (m'.val "epsilon") = sys.atof (m.val "epsilon"))
    (k : Nat) (hk : 0 < k) (hdim : ∀ p ∈ data, p.length = k) (hdim' : ∀ p ∈ data', p.length = k)
    (δ : ℝ) (hδ : 0 ≤ δ) (hlen : data.length = data'.length)
    (hmove : ∀ i, i < data.length → dist (Spec.point k (data.getD i [])) (Spec.point k (data'.getD i [])) ≤ δ)
    {w w' : World (List ℝ) ℝ}
    (hok : mainProgram sys (commandLine pairs) = .ok w) (hok' : mainProgram sys (commandLine pairs') = .ok w') :
    ∃ lines lines', WritesBarcode sys.io f lines w ∧ WritesBarcode sys.io f' lines' w' ∧
      ∀ i, |(componentEnds lines').getD i (sys.atof (m.val "epsilon")) -
        (componentEnds lines).getD i (sys.atof (m.val "epsilon"))| ≤ 2 * δ := by
  obtain ⟨⟨lines, T⟩, h1, h2⟩ := (main_tree sys hdist pairs m f data h).ok_of hok
  obtain ⟨⟨lines', T'⟩, h1', h2'⟩ := (main_tree sys hdist pairs' m' f' data' h').ok_of hok'
  rw [heps] at h1'
  exact ⟨lines, lines', h2, h2', C109_components_stable_partial _ _ _ _ _ _ (by linarith) _ _ k k hk hk
    data data' hdim hdim' (close_of_moved k hlen hmove) h1 h1'⟩

/-- C109 does not hold from dimension 1 on: two clouds with the same distances (`δ = 0`) and bars of
dimension 1 that are not the same. -/
theorem C109_loops_violated (mode : EndRead) (hm : mode ≠ .undefined) :
    ∃ data data' : List (List ℝ), Close 0 2 data 2 data' ∧ (∀ p ∈ data, p.length = 2) ∧
    ∃ lines T lines' T',
      treeRun vectorsDistance (SortBySecond.insertion (List Nat) ℝ) mode (Real.sqrt (100 : ℕ)) 2 data =
        .ok (lines, T) ∧
      treeRun vectorsDistance (SortBySecond.insertion (List Nat) ℝ) mode (Real.sqrt (100 : ℕ)) 2 data' =
        .ok (lines', T') ∧
      lines.drop 5 = [(1, Real.sqrt (5 : ℕ), Real.sqrt (8 : ℕ)), (1, Real.sqrt (8 : ℕ), Real.sqrt (9 : ℕ))] ∧
      lines'.drop 5 = [(1, Real.sqrt (5 : ℕ), Real.sqrt (9 : ℕ))] := by
  obtain ⟨data, data', h1, h2, lines, T, lines', T', h3, h4, h5, h6, -⟩ := C94_row_order_violated mode hm
  refine ⟨data, data', ?_, h2, lines, T, lines', T', h3, h4, h5, h6⟩
  obtain ⟨σ, hσ⟩ := congruent_of_perm 2 h1
  exact ⟨σ, fun i j => by rw [hσ, sub_self, abs_zero]⟩

/-- A row that is repeated changes no number of components from scale 0 on. -/
theorem components_repeat {k : Nat} {data : List (List ℝ)} {p : List ℝ} (hp : p ∈ data) {t : ℝ} (ht : 0 ≤ t) :
    components (scaleGraph (p :: data).length (rowDist k (p :: data)) t) =
      components (scaleGraph data.length (rowDist k data) t) := by
  obtain ⟨a, ha, hpa⟩ := List.mem_iff_getElem.1 hp
  have hs := rowDist_symm k data
  have hs' := rowDist_symm k (p :: data)
  have hcons : ∀ i j, rowDist k (p :: data) (i + 1) (j + 1) = rowDist k data i j := fun i j => rfl
  have h0 : ∀ j, rowDist k (p :: data) 0 j = rowDist k (p :: data) (a + 1) j := by
    intro j
    unfold rowDist
    have : (p :: data).getD (a + 1) [] = p := by
      rw [List.getD_cons_succ, List.getD_eq_getElem _ _ ha, hpa]
    rw [this]; rfl
  apply le_antisymm
  · refine components_of_map (fun i : Fin data.length => (⟨i + 1, by simp⟩ : Fin (p :: data).length))
      (fun x y h => ?_) ?_
    · rw [scaleGraph_adj hs] at h
      apply SimpleGraph.Adj.reachable
      rw [scaleGraph_adj hs']
      exact ⟨fun e => h.1 (Fin.ext (by simpa using congrArg Fin.val e)), h.2⟩
    · rintro ⟨v, hv⟩
      cases v with
      | succ v => exact ⟨⟨v, by simpa using hv⟩, SimpleGraph.Reachable.refl _⟩
      | zero =>
        refine ⟨⟨a, ha⟩, SimpleGraph.Adj.reachable ?_⟩
        rw [scaleGraph_adj hs']
        refine ⟨fun e => absurd (congrArg Fin.val e) (by simp), ?_⟩
        show rowDist k (p :: data) (a + 1) 0 ≤ t
        rw [← h0, ]
        exact (dist_self _).le.trans ht
  · refine components_of_map (fun i : Fin (p :: data).length =>
      if h : (i : Nat) = 0 then (⟨a, ha⟩ : Fin data.length) else ⟨i - 1, by
        have := i.2; simp only [List.length_cons] at this; omega⟩) ?_ ?_
    · rintro ⟨x, hx⟩ ⟨y, hy⟩ h
      rw [scaleGraph_adj hs'] at h
      obtain ⟨hne, h⟩ := h
      have main : ∀ x y : Fin data.length, rowDist k data x y ≤ t →
          (scaleGraph data.length (rowDist k data) t).Reachable x y := by
        intro x y hxy
        by_cases e : x = y
        · rw [e]
        · exact SimpleGraph.Adj.reachable ((scaleGraph_adj hs _ _ _).2 ⟨e, hxy⟩)
      cases x with
      | zero =>
        cases y with
        | zero => exact absurd rfl hne
        | succ y =>
          apply main
          have : rowDist k (p :: data) 0 (y + 1) ≤ t := h
          rw [h0] at this
          exact this
      | succ x =>
        cases y with
        | zero =>
          apply main
          have : rowDist k (p :: data) (x + 1) 0 ≤ t := h
          rw [hs', h0, hs'] at this
          exact this
        | succ y => exact main _ _ h
    · intro v
      exact ⟨⟨v + 1, by simp⟩, SimpleGraph.Reachable.refl _⟩

theorem merge_repeat {k : Nat} {data data' : List (List ℝ)} {p : List ℝ} (hp : p ∈ data)
    (hperm : data'.Perm (p :: data)) {inRange : ℝ → Prop} (h00 : inRange 0) {ds ds' : List ℝ}
    (h1 : MergeTimes data.length (rowDist k data) inRange ds)
    (h2 : MergeTimes data'.length (rowDist k data') inRange ds') : ds' = 0 :: ds := by
  obtain ⟨hlen, hcomp⟩ := congruent_components (congruent_of_perm k hperm)
  refine sorted_counts_unique (P := fun w => 0 ≤ w ∧ inRange w) h2.sorted
    (List.pairwise_cons.2 ⟨fun w hw => (h1.range w hw).1, h1.sorted⟩) h2.range ?_ (fun t ht => ?_)
  · intro w hw
    rcases List.mem_cons.1 hw with rfl | hw
    · exact ⟨le_rfl, h00⟩
    · exact h1.range w hw
  · have c1 := h1.count t ht.1 ht.2
    have c2 := h2.count t ht.1 ht.2
    rw [hcomp, components_repeat hp ht.1] at c2
    rw [List.filter_cons_of_pos (by simpa using ht.1), List.length_cons]
    rw [hlen, List.length_cons] at c2
    omega

/-- C110 (dimension 0): writing one of the rows a second time, anywhere in the file, adds one bar `0,0,0`
in front of the dimension-0 bars and changes none of them. -/
theorem C110_repeated_row_partial (sort sort' : SortBySecond (List Nat) ℝ) (mode mode' : EndRead)
    (eps : ℝ) (dim dim' k : Nat) (hk : 0 < k) (data data' : List (List ℝ))
    (hdim : ∀ p ∈ data, p.length = k) (p : List ℝ) (hp : p ∈ data) (hperm : data'.Perm (p :: data))
    {lines lines' : List (Line ℝ)} {T T' : List (BettiEntry ℝ)}
    (hok : treeRun vectorsDistance sort mode eps dim data = .ok (lines, T))
    (hok' : treeRun vectorsDistance sort' mode' eps dim' data' = .ok (lines', T')) :
    lines'.filter (fun l => l.1 = 0) = (0, 0, 0) :: lines.filter (fun l => l.1 = 0) := by
  have hne : data ≠ [] := List.ne_nil_of_mem hp
  have hne' : data' ≠ [] := by rintro rfl; exact absurd hperm.length_eq (by simp)
  have hdim' : ∀ q ∈ data', q.length = k := by
    intro q hq
    rcases List.mem_cons.1 (hperm.mem_iff.1 hq) with rfl | h
    · exact hdim _ hp
    · exact hdim _ h
  obtain ⟨⟨i, j, -, -, he⟩, ds, h1, h2⟩ := tree_merge hk hne hdim hok
  obtain ⟨-, ds', h1', h2'⟩ := tree_merge hk hne' hdim' hok'
  have := merge_repeat (inRange := (· < eps)) hp hperm (lt_of_le_of_lt dist_nonneg he) h2 h2'
  rw [h1, h1', this]
  rfl

/-- C110 for the array complex. -/
theorem C110_repeated_row_array_partial (sort sort' : SortBySecond (List Nat) ℝ) (mode mode' : EndRead)
    (eps : ℝ) (dim dim' k : Nat) (hd : 0 < dim) (hd' : 0 < dim') (hk : 0 < k) (data data' : List (List ℝ))
    (hdim : ∀ p ∈ data, p.length = k) (p : List ℝ) (hp : p ∈ data) (hperm : data'.Perm (p :: data))
    {lines lines' : List (Line ℝ)} {T T' : List (BettiEntry ℝ)}
    (hok : arrayRun vectorsDistance sort mode eps dim data = .ok (lines, T))
    (hok' : arrayRun vectorsDistance sort' mode' eps dim' data' = .ok (lines', T')) :
    lines'.filter (fun l => l.1 = 0) = (0, 0, 0) :: lines.filter (fun l => l.1 = 0) := by
  have hne : data ≠ [] := List.ne_nil_of_mem hp
  have hne' : data' ≠ [] := by rintro rfl; exact absurd hperm.length_eq (by simp)
  have hdim' : ∀ q ∈ data', q.length = k := by
    intro q hq
    rcases List.mem_cons.1 (hperm.mem_iff.1 hq) with rfl | h
    · exact hdim _ hp
    · exact hdim _ h
  obtain ⟨⟨i, j, -, -, he⟩, ds, h1, h2⟩ := array_merge hd hk hne hdim hok
  obtain ⟨-, ds', h1', h2'⟩ := array_merge hd' hk hne' hdim' hok'
  have := merge_repeat (inRange := (· ≤ eps)) hp hperm (le_trans dist_nonneg he) h2 h2'
  rw [h1, h1', this]
  rfl

/-- A run on points of the plane with integer coordinates is a run on the squares of the distances. -/
theorem plane_run (mode : EndRead) (P : List (ℤ × ℤ)) :
    treeRun vectorsDistance (SortBySecond.insertion (List Nat) ℝ) mode (Real.sqrt (100 : ℕ)) 2 (planeRows P) =
      Prod.map (List.map (mapL (fun n : ℕ => Real.sqrt (n : ℝ))))
        (List.map (mapB (fun n : ℕ => Real.sqrt (n : ℝ)))) <$>
      (Tree.insertN 100 2 (table P.length (fun i j => if i < j then planeSq P i j else 0))
        P.length Tree.fresh >>= fun t =>
        fastPersistence mode 2 100 (t.getAllEdges (SortBySecond.insertion (List Nat) ℕ)).1 [] []) := by
  have := treeRun_natural (φ := fun n : ℕ => Real.sqrt (n : ℝ)) sqrt_nat_strictMono (by simp)
    (SortBySecond.insertion (List Nat) ℕ) (SortBySecond.insertion (List Nat) ℝ)
    (insertion_natural sqrt_nat_strictMono) mode 100 2 (planeSq P) 2 (by decide) (planeRows P)
    (by
      intro p hp
      obtain ⟨q, -, rfl⟩ := List.mem_map.1 hp
      rfl)
    (fun i j hij hj => rowDist_plane P i j (by
      rw [planeRows, List.length_map] at hj; omega) (by
      rw [planeRows, List.length_map] at hj; omega))
  rw [this]
  simp only [planeRows, List.length_map]

/-- C110 does not hold from dimension 1 on: with the row `0,1` written a second time, the two bars
`[√5, √8)`, `[√8, √9)` of the five points become the one bar `[√5, √9)` (with a stable sort). -/
theorem C110_loops_violated (mode : EndRead) (hm : mode ≠ .undefined) :
    ∃ (data : List (List ℝ)) (p : List ℝ), p ∈ data ∧ (∀ p ∈ data, p.length = 2) ∧
    ∃ lines T lines' T',
      treeRun vectorsDistance (SortBySecond.insertion (List Nat) ℝ) mode (Real.sqrt (100 : ℕ)) 2 data =
        .ok (lines, T) ∧
      treeRun vectorsDistance (SortBySecond.insertion (List Nat) ℝ) mode (Real.sqrt (100 : ℕ)) 2 (p :: data) =
        .ok (lines', T') ∧
      lines.drop 5 = [(1, Real.sqrt (5 : ℕ), Real.sqrt (8 : ℕ)), (1, Real.sqrt (8 : ℕ), Real.sqrt (9 : ℕ))] ∧
      lines'.drop 6 = [(1, Real.sqrt (5 : ℕ), Real.sqrt (9 : ℕ))] := by
  have r1 : ∃ T, (Tree.insertN 100 2 (table 5 (fun i j => if i < j then
        planeSq [(3, 2), (0, 2), (1, 3), (0, 1), (2, 0)] i j else 0)) 5 Tree.fresh >>= fun t =>
        fastPersistence mode 2 100 (t.getAllEdges (SortBySecond.insertion (List Nat) ℕ)).1 [] []) =
      .ok ([(0, 0, 1), (0, 0, 2), (0, 0, 5), (0, 0, 5), (0, 0, 100), (1, 5, 8), (1, 8, 9)], T) := by
    cases mode with
    | undefined => exact absurd rfl hm
    | noPivot => exact ok_of_toOption (by decide +kernel)
    | libstdcxx => exact ok_of_toOption (by decide +kernel)
  have r2 : ∃ T, (Tree.insertN 100 2 (table 6 (fun i j => if i < j then
        planeSq [(0, 1), (3, 2), (0, 2), (1, 3), (0, 1), (2, 0)] i j else 0)) 6 Tree.fresh >>= fun t =>
        fastPersistence mode 2 100 (t.getAllEdges (SortBySecond.insertion (List Nat) ℕ)).1 [] []) =
      .ok ([(0, 0, 0), (0, 0, 1), (0, 0, 2), (0, 0, 5), (0, 0, 5), (0, 0, 100), (1, 5, 9)], T) := by
    cases mode with
    | undefined => exact absurd rfl hm
    | noPivot => exact ok_of_toOption (by decide +kernel)
    | libstdcxx => exact ok_of_toOption (by decide +kernel)
  obtain ⟨T1, r1⟩ := r1
  obtain ⟨T2, r2⟩ := r2
  have e1 := (plane_run mode [(3, 2), (0, 2), (1, 3), (0, 1), (2, 0)]).trans (congrArg _ r1)
  have e2 := (plane_run mode [(0, 1), (3, 2), (0, 2), (1, 3), (0, 1), (2, 0)]).trans (congrArg _ r2)
  refine ⟨planeRows [(3, 2), (0, 2), (1, 3), (0, 1), (2, 0)], [((0 : ℤ) : ℝ), ((1 : ℤ) : ℝ)],
    List.mem_map.2 ⟨(0, 1), by simp, rfl⟩, ?_, _, _, _, _, e1, e2, rfl, rfl⟩
  intro p hp
  obtain ⟨q, -, rfl⟩ := List.mem_map.1 hp
  rfl

/-- Two clouds with no pair of near points between them have the components of both. -/
theorem components_far {k : Nat} {data data' : List (List ℝ)} {t : ℝ}
    (hfar : ∀ p ∈ data, ∀ q ∈ data', t < dist (Spec.point k p) (Spec.point k q)) :
    components (scaleGraph (data ++ data').length (rowDist k (data ++ data')) t) =
      components (scaleGraph data.length (rowDist k data) t) +
        components (scaleGraph data'.length (rowDist k data') t) := by
  have hl : ∀ i, i < data.length → (data ++ data').getD i [] = data.getD i [] :=
    fun i hi => List.getD_append _ _ _ _ hi
  have hr : ∀ i, (data ++ data').getD (data.length + i) [] = data'.getD i [] := by
    intro i
    rw [List.getD_append_right _ _ _ _ (by omega), Nat.add_sub_cancel_left]
  let e : Fin data.length ⊕ Fin data'.length ≃ Fin (data ++ data').length :=
    finSumFinEquiv.trans (finCongr List.length_append.symm)
  have el : ∀ x : Fin data.length, ((e (.inl x) : Fin _) : Nat) = x := fun x => rfl
  have er : ∀ x : Fin data'.length, ((e (.inr x) : Fin _) : Nat) = data.length + x := fun x => rfl
  refine components_sum e (fun x y => ?_) (fun x y => ?_) (fun x y h => ?_)
  · rw [scaleGraph_adj (rowDist_symm k _), scaleGraph_adj (rowDist_symm k _)]
    rw [el, el]
    unfold rowDist
    rw [hl x x.2, hl y y.2, e.injective.ne_iff, Sum.inl_injective.ne_iff]
  · rw [scaleGraph_adj (rowDist_symm k _), scaleGraph_adj (rowDist_symm k _)]
    rw [er, er]
    unfold rowDist
    rw [hr, hr, e.injective.ne_iff, Sum.inr_injective.ne_iff]
  · rw [scaleGraph_adj (rowDist_symm k _), el, er] at h
    have h := h.2
    unfold rowDist at h
    rw [hl x x.2, hr, List.getD_eq_getElem _ _ x.2, List.getD_eq_getElem _ _ y.2] at h
    exact absurd h (not_le.2 (hfar _ (List.getElem_mem _) _ (List.getElem_mem _)))

theorem merge_far {k : Nat} {data data' : List (List ℝ)} {inRange : ℝ → Prop}
    (hfar : ∀ t, inRange t → ∀ p ∈ data, ∀ q ∈ data', t < dist (Spec.point k p) (Spec.point k q))
    {ds ds' es : List ℝ}
    (h1 : MergeTimes data.length (rowDist k data) inRange ds)
    (h2 : MergeTimes data'.length (rowDist k data') inRange ds')
    (h3 : MergeTimes (data ++ data').length (rowDist k (data ++ data')) inRange es) : es.Perm (ds ++ ds') := by
  have hm : ((ds ++ ds').mergeSort (fun a b => decide (a ≤ b))).Perm (ds ++ ds') := List.mergeSort_perm _ _
  have hs : ((ds ++ ds').mergeSort (fun a b => decide (a ≤ b))).Pairwise (· ≤ ·) := by
    have := List.pairwise_mergeSort (le := fun a b : ℝ => decide (a ≤ b))
      (fun a b c hab hbc => by simp at *; exact hab.trans hbc)
      (fun a b => by simpa using le_total a b) (ds ++ ds')
    exact this.imp (by simp)
  refine (List.Perm.of_eq ?_).trans hm
  refine sorted_counts_unique (P := fun w => 0 ≤ w ∧ inRange w) h3.sorted hs h3.range ?_ (fun t ht => ?_)
  · intro w hw
    rcases List.mem_append.1 (hm.mem_iff.1 hw) with h | h
    · exact h1.range w h
    · exact h2.range w h
  · rw [(hm.filter _).length_eq, List.filter_append, List.length_append]
    have c1 := h1.count t ht.1 ht.2
    have c2 := h2.count t ht.1 ht.2
    have c3 := h3.count t ht.1 ht.2
    rw [components_far (hfar t ht.2), List.length_append] at c3
    omega

theorem far_lines {ds ds' es : List ℝ} (h : es.Perm (ds ++ ds')) {eps : ℝ} :
    (((0, 0, eps) : Line ℝ) :: (es.map (fun w => ((0, 0, w) : Line ℝ)) ++ [(0, 0, eps)])).Perm
      ((ds.map (fun w => ((0, 0, w) : Line ℝ)) ++ [(0, 0, eps)]) ++
        (ds'.map (fun w => ((0, 0, w) : Line ℝ)) ++ [(0, 0, eps)])) := by
  have h5 := h.map (fun w : ℝ => ((0, 0, w) : Line ℝ))
  rw [List.map_append] at h5
  generalize es.map (fun w : ℝ => ((0, 0, w) : Line ℝ)) = E at *
  generalize ds.map (fun w : ℝ => ((0, 0, w) : Line ℝ)) = D at *
  generalize ds'.map (fun w : ℝ => ((0, 0, w) : Line ℝ)) = D' at *
  rw [List.perm_iff_count] at h5 ⊢
  intro l
  have := h5 l
  simp only [List.count_cons, List.count_append] at this ⊢
  simp only [List.count_nil]
  omega

/-- C111 (dimension 0): two clouds whose points are at least `epsilon` apart: the dimension-0 bars of the
file with all the rows are those of the two clouds together, except that the bar up to `epsilon`, which each
cloud has, is there once. -/
theorem C111_far_clouds_partial (sort sort' sort'' : SortBySecond (List Nat) ℝ) (mode mode' mode'' : EndRead)
    (eps : ℝ) (dim dim' dim'' k : Nat) (hk : 0 < k) (data data' : List (List ℝ)) (hne : data ≠ [])
    (hne' : data' ≠ []) (hdim : ∀ p ∈ data, p.length = k) (hdim' : ∀ p ∈ data', p.length = k)
    (hfar : ∀ p ∈ data, ∀ q ∈ data', eps ≤ dist (Spec.point k p) (Spec.point k q))
    {lines lines' lines'' : List (Line ℝ)} {T T' T'' : List (BettiEntry ℝ)}
    (hok : treeRun vectorsDistance sort mode eps dim data = .ok (lines, T))
    (hok' : treeRun vectorsDistance sort' mode' eps dim' data' = .ok (lines', T'))
    (hok'' : treeRun vectorsDistance sort'' mode'' eps dim'' (data ++ data') = .ok (lines'', T'')) :
    ((0, 0, eps) :: lines''.filter (fun l => l.1 = 0)).Perm
      (lines.filter (fun l => l.1 = 0) ++ lines'.filter (fun l => l.1 = 0)) := by
  obtain ⟨-, ds, h1, h2⟩ := tree_merge hk hne hdim hok
  obtain ⟨-, ds', h1', h2'⟩ := tree_merge hk hne' hdim' hok'
  obtain ⟨-, es, h1'', h2''⟩ := tree_merge hk (by simp [hne]) (fun p hp => by
    rcases List.mem_append.1 hp with h | h
    · exact hdim _ h
    · exact hdim' _ h) hok''
  have := merge_far (fun t ht p hp q hq => lt_of_lt_of_le ht (hfar p hp q hq)) h2 h2' h2''
  rw [h1, h1', h1'']
  exact far_lines this

/-- C111 for the array complex, with the points more than `epsilon` apart. -/
theorem C111_far_clouds_array_partial (sort sort' sort'' : SortBySecond (List Nat) ℝ)
    (mode mode' mode'' : EndRead) (eps : ℝ) (dim dim' dim'' k : Nat) (hd : 0 < dim) (hd' : 0 < dim')
    (hd'' : 0 < dim'') (hk : 0 < k) (data data' : List (List ℝ)) (hne : data ≠ [])
    (hne' : data' ≠ []) (hdim : ∀ p ∈ data, p.length = k) (hdim' : ∀ p ∈ data', p.length = k)
    (hfar : ∀ p ∈ data, ∀ q ∈ data', eps < dist (Spec.point k p) (Spec.point k q))
    {lines lines' lines'' : List (Line ℝ)} {T T' T'' : List (BettiEntry ℝ)}
    (hok : arrayRun vectorsDistance sort mode eps dim data = .ok (lines, T))
    (hok' : arrayRun vectorsDistance sort' mode' eps dim' data' = .ok (lines', T'))
    (hok'' : arrayRun vectorsDistance sort'' mode'' eps dim'' (data ++ data') = .ok (lines'', T'')) :
    ((0, 0, eps) :: lines''.filter (fun l => l.1 = 0)).Perm
      (lines.filter (fun l => l.1 = 0) ++ lines'.filter (fun l => l.1 = 0)) := by
  obtain ⟨-, ds, h1, h2⟩ := array_merge hd hk hne hdim hok
  obtain ⟨-, ds', h1', h2'⟩ := array_merge hd' hk hne' hdim' hok'
  obtain ⟨-, es, h1'', h2''⟩ := array_merge hd'' hk (by simp [hne]) (fun p hp => by
    rcases List.mem_append.1 hp with h | h
    · exact hdim _ h
    · exact hdim' _ h) hok''
  have := merge_far (fun t ht p hp q hq => lt_of_le_of_lt ht (hfar p hp q hq)) h2 h2' h2''
  rw [h1, h1', h1'']
  exact far_lines this

/-! The hypotheses are met: clouds on the line with `epsilon` 5. -/

theorem line_dist (a b : ℝ) : dist (Spec.point 1 [a]) (Spec.point 1 [b]) = |a - b| := by
  unfold Spec.point
  rw [EuclideanSpace.dist_eq]
  simp [Real.dist_eq, Real.sqrt_sq_eq_abs]

theorem line_runs (sort : SortBySecond (List Nat) ℝ) (mode : EndRead) (a b : ℝ) (l : List (List ℝ))
    (hl : ∀ p ∈ l, p.length = 1) (h : |a - b| < 5) :
    ∃ lines T, treeRun vectorsDistance sort mode 5 1 ([a] :: [b] :: l) = .ok (lines, T) := by
  obtain ⟨lines, T, h, -⟩ := C70_tree_run_default sort mode 5 1 le_rfl 1 one_pos ([a] :: [b] :: l)
    (by simpa using hl) ⟨0, 1, by decide, by simp, by
      show dist (Spec.point 1 [a]) (Spec.point 1 [b]) < 5
      rw [line_dist]; exact h⟩
  exact ⟨lines, T, h⟩

/-- C109: 0, 1, 3 and 0.25, 1, 2.75: no point moves by more than 0.25; both runs end. -/
example (sort : SortBySecond (List Nat) ℝ) (mode : EndRead) :
    Close (2 * (1 / 4)) 1 [[0], [1], [3]] 1 [[1 / 4], [1], [11 / 4]] ∧
    (∃ lines T, treeRun vectorsDistance sort mode 5 1 [[0], [1], [3]] = .ok (lines, T)) ∧
    ∃ lines T, treeRun vectorsDistance sort mode 5 1 [[1 / 4], [1], [11 / 4]] = .ok (lines, T) := by
  refine ⟨close_of_moved 1 rfl ?_, line_runs sort mode _ _ _ (by simp) (by norm_num),
    line_runs sort mode _ _ _ (by simp) (by norm_num [abs_of_neg])⟩
  intro i hi
  have hi : i < 3 := hi
  interval_cases i
  · show dist (Spec.point 1 [(0 : ℝ)]) (Spec.point 1 [1 / 4]) ≤ _
    rw [line_dist]; norm_num
  · show dist (Spec.point 1 [(1 : ℝ)]) (Spec.point 1 [1]) ≤ _
    rw [line_dist]; norm_num
  · show dist (Spec.point 1 [(3 : ℝ)]) (Spec.point 1 [11 / 4]) ≤ _
    rw [line_dist]; norm_num

/-- C110: 0, 1, 3 with the 1 repeated at the end; both runs end. -/
example (sort : SortBySecond (List Nat) ℝ) (mode : EndRead) :
    [[0], [1], [3], [(1 : ℝ)]].Perm ([1] :: [[0], [1], [3]]) ∧
    (∃ lines T, treeRun vectorsDistance sort mode 5 1 [[0], [1], [3]] = .ok (lines, T)) ∧
    ∃ lines T, treeRun vectorsDistance sort mode 5 1 [[0], [1], [3], [1]] = .ok (lines, T) :=
  ⟨List.perm_append_comm (l₁ := [[0], [1], [3]]) (l₂ := [[(1 : ℝ)]]),
    line_runs sort mode _ _ _ (by simp) (by norm_num), line_runs sort mode _ _ _ (by simp) (by norm_num)⟩

/-- C111: 0, 1 and 10, 12 are at least 5 apart; the three runs end. -/
example (sort : SortBySecond (List Nat) ℝ) (mode : EndRead) :
    (∀ p ∈ [[0], [(1 : ℝ)]], ∀ q ∈ [[10], [(12 : ℝ)]], 5 ≤ dist (Spec.point 1 p) (Spec.point 1 q)) ∧
    (∃ lines T, treeRun vectorsDistance sort mode 5 1 [[0], [1]] = .ok (lines, T)) ∧
    (∃ lines T, treeRun vectorsDistance sort mode 5 1 [[10], [12]] = .ok (lines, T)) ∧
    ∃ lines T, treeRun vectorsDistance sort mode 5 1 ([[0], [1]] ++ [[10], [12]]) = .ok (lines, T) := by
  refine ⟨?_, line_runs sort mode _ _ _ (by simp) (by norm_num),
    line_runs sort mode _ _ _ (by simp) (by norm_num [abs_of_neg]),
    line_runs sort mode 0 1 [[10], [12]] (by simp) (by norm_num)⟩
  simp only [List.mem_cons, List.not_mem_nil, or_false, forall_eq_or_imp, forall_eq, line_dist]
  norm_num

end LHF
