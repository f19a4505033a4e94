import Verif.Lemmas.ArrayNatural
import Verif.Props.Stability

/-! C94, C95, C109 and C110 for the default pipeline on a `simplexArrayList`. -/

namespace LHF
open Spec

/-- C94 on a `simplexArrayList` (partial: dimension 0): on congruent clouds two runs that end print the same
dimension-0 lines, in the same order. -/
theorem C94_components_array_partial (sort sort' : SortBySecond (List Nat) ℝ) (mode mode' : EndRead)
    (eps : ℝ) (dim dim' : Nat) (hd : 0 < dim) (hd' : 0 < dim') (k k' : Nat) (hk : 0 < k) (hk' : 0 < k')
    (data data' : List (List ℝ)) (hne : data ≠ [])
    (hdim : ∀ p ∈ data, p.length = k) (hdim' : ∀ p ∈ data', p.length = k')
    (hcong : Congruent k data k' data')
    {lines lines' : List (Line ℝ)} {T T' : List (BettiEntry ℝ)}
    (hok : arrayRun vectorsDistance sort mode eps dim data = .ok (lines, T))
    (hok' : arrayRun vectorsDistance sort' mode' eps dim' data' = .ok (lines', T')) :
    lines.filter (fun l => l.1 = 0) = lines'.filter (fun l => l.1 = 0) := by
  obtain ⟨hlen, hcomp⟩ := congruent_components hcong
  have hne' : data' ≠ [] := by
    intro h
    rw [h] at hlen
    exact hne (List.length_eq_zero_iff.1 hlen.symm)
  obtain ⟨-, ds, h1, h2⟩ := array_merge hd hk hne hdim hok
  obtain ⟨-, ds', h1', h2'⟩ := array_merge hd' hk' hne' hdim' hok'
  have : ds = ds' := by
    refine sorted_counts_unique (P := fun w => 0 ≤ w ∧ w ≤ eps) h2.sorted h2'.sorted h2.range h2'.range
      (fun t ht => ?_)
    have e1 := h2.count t ht.1 ht.2
    have e2 := h2'.count t ht.1 ht.2
    rw [hcomp] at e2
    omega
  rw [h1, h1', this]

/-- C94 on a `simplexArrayList` (partial: the number of bars at each scale): on congruent clouds the runs
print, in every dimension and at every scale, the same number of bars that contain the scale, up to the
classes that are still open at `eps` and are never printed; there are as many of those as the Betti number at
`eps` says. The end iterator is read as "not a pivot" (C29). -/
theorem C94_betti_curve_array_partial (sort sort' : SortBySecond (List Nat) ℝ) (eps : ℝ) (dim : Nat)
    (hd : 0 < dim) (k k' : Nat) (hk : 0 < k) (hk' : 0 < k') (data data' : List (List ℝ))
    (hdim : ∀ p ∈ data, p.length = k) (hdim' : ∀ p ∈ data', p.length = k')
    (hcong : Congruent k data k' data')
    (hedge : ∃ i j, i < j ∧ j < data.length ∧ rowDist k data i j ≤ eps) :
    ∃ lines lines' T T', arrayRun vectorsDistance sort .noPivot eps dim data = .ok (lines, T) ∧
      arrayRun vectorsDistance sort' .noPivot eps dim data' = .ok (lines', T') ∧
      ∀ q, 1 ≤ q → q < dim → ∃ unprinted unprinted' : List ℝ,
        unprinted.length = ripsBetti data.length (rowDist k data) q eps ∧
        unprinted'.length = ripsBetti data.length (rowDist k data) q eps ∧
        ∀ t, 0 ≤ t → t ≤ eps →
          (lines.filter (fun l => l.1 = q ∧ l.2.1 ≤ t ∧ t < l.2.2)).length +
            (unprinted.filter (fun w => w ≤ t)).length =
          (lines'.filter (fun l => l.1 = q ∧ l.2.1 ≤ t ∧ t < l.2.2)).length +
            (unprinted'.filter (fun w => w ≤ t)).length := by
  obtain ⟨lines, T, h1, h2⟩ := C71_array_run_partial sort eps dim hd k hk data hdim hedge
  obtain ⟨lines', T', h1', h2'⟩ := C71_array_run_partial sort' eps dim hd k' hk' data' hdim'
    (congruent_edge (P := (· ≤ eps)) hcong hedge)
  have heps : 0 ≤ eps := by
    obtain ⟨i, j, -, -, h⟩ := hedge
    exact le_trans dist_nonneg h
  refine ⟨lines, lines', T, T', h1, h1', fun q hq1 hq2 => ?_⟩
  obtain ⟨u, hu, h3⟩ := h2.higher q hq1 hq2
  obtain ⟨u', hu', h3'⟩ := h2'.higher q hq1 hq2
  have ended : ∀ ls : List (Line ℝ), (∀ l ∈ ls, 1 ≤ l.1 → 0 ≤ l.2.1 ∧ l.2.1 < l.2.2 ∧ l.2.2 ≤ eps) →
      (ls.filter (fun l => l.1 = q ∧ l.2.1 ≤ eps ∧ eps < l.2.2)).length = 0 := by
    intro ls hls
    rw [List.length_eq_zero_iff, List.filter_eq_nil_iff]
    intro l hl
    simp only [decide_eq_true_eq]
    rintro ⟨ha, -, hb⟩
    exact absurd (hls l hl (by omega)).2.2 (not_le.2 hb)
  have all : ∀ v : List ℝ, (∀ x ∈ v, 0 ≤ x ∧ x ≤ eps) → (v.filter (fun w => w ≤ eps)).length = v.length := by
    intro v hv
    rw [List.filter_eq_self.2 (fun x hx => by simpa using (hv x hx).2)]
  refine ⟨u, u', ?_, ?_, fun t ht0 ht => ?_⟩
  · rw [h3 eps heps le_rfl, ended lines h2.bars, all u hu, Nat.zero_add]
  · rw [← congruent_betti hcong, h3' eps heps le_rfl, ended lines' h2'.bars, all u' hu', Nat.zero_add]
  · rw [← h3 t ht0 ht, ← h3' t ht0 ht, congruent_betti hcong]

/-! ### Changes of scale -/

/-- The runs on two tables of weights that differ by a strictly increasing map that keeps zero. -/
theorem arrayRun_natural {W : Type} [LinearOrder W] [Ring W] [IsStrictOrderedRing W] {φ : W → ℝ}
    (hφ : StrictMono φ) (h0 : φ 0 = 0) (sort : SortBySecond (List Nat) W) (sort' : SortBySecond (List Nat) ℝ)
    (hsort : ∀ l, sort'.run (l.map (mapW φ)) = (sort.run l).map (mapW φ)) (mode : EndRead) (eps : W)
    (dim : Nat) (d : Nat → Nat → W) (k : Nat) (hk : 0 < k) (data : List (List ℝ))
    (hdim : ∀ p ∈ data, p.length = k)
    (hd : ∀ i j, i < j → j < data.length → rowDist k data i j = φ (d i j)) :
    arrayRun vectorsDistance sort' mode (φ eps) dim data =
      Prod.map (List.map (mapL φ)) (List.map (mapB φ)) <$>
      (arrayInsertAll eps dim (table data.length (fun i j => if i < j then d i j else 0)) data [] >>= fun g =>
        expandDimensions dim g >>= fun g =>
        (if dim > 0 then expandDimensions (dim + 1) g else pure g) >>= fun g =>
        fastPersistence mode dim eps (arrayGetAllEdges sort g) [] []) := by
  obtain ⟨ws, h1, -, -⟩ := C11_distance_matrix_euclidean k hk data hdim (φ eps)
  have ht : table data.length (fun i j => if i < j then
        dist (Spec.point k (data.getD i [])) (Spec.point k (data.getD j [])) else (0 : ℝ)) =
      (table data.length (fun i j => if i < j then d i j else 0)).map (List.map φ) := by
    rw [table_congr (f' := fun i j => φ (if i < j then d i j else 0))]
    · simp [table, Function.comp_def]
    · intro i j hi hj
      by_cases hij : i < j
      · rw [if_pos hij, if_pos hij, ← hd i j hij hj]
        rfl
      · rw [if_neg hij, if_neg hij, h0]
  have hrun : arrayRun vectorsDistance sort' mode (φ eps) dim data =
      (arrayInsertAll (φ eps) dim ((table data.length (fun i j => if i < j then d i j else 0)).map (List.map φ))
          data (mapG φ []) >>= fun g => expandDimensions dim g >>= fun g =>
        (if dim > 0 then expandDimensions (dim + 1) g else pure g) >>= fun g =>
        fastPersistence mode dim (φ eps) (arrayGetAllEdges sort' g) [] []) := by
    unfold arrayRun
    rw [h1, ok_bind, ht]
    have e : ∀ (g : Graph ℝ) (f : Graph ℝ → Res (List (Line ℝ) × List (BettiEntry ℝ))),
        ((if dim > 0 then expandDimensions (dim + 1) g else pure g) >>= f) =
          if dim > 0 then expandDimensions (dim + 1) g >>= f else f g := by
      intro g f
      split <;> rfl
    simp only [e]
    rfl
  rw [hrun]
  refine natural_bind (mapG φ) _ (natural_arrayInsertAll hφ h0 eps dim _ data []) (fun g => ?_)
  refine natural_bind (mapG φ) _ (natural_expandDimensions hφ h0 dim g) (fun g => ?_)
  have hif : (if dim > 0 then expandDimensions (dim + 1) (mapG φ g) else pure (mapG φ g) : Res _) =
      mapG φ <$> (if dim > 0 then expandDimensions (dim + 1) g else pure g : Res _) := by
    by_cases h : dim > 0
    · rw [if_pos h, if_pos h]
      exact natural_expandDimensions hφ h0 _ g
    · rw [if_neg h, if_neg h]
      rfl
  refine natural_bind (mapG φ) _ hif (fun g => ?_)
  rw [natural_arrayGetAllEdges sort sort' hsort]
  exact natural_fastPersistence hφ h0 mode dim eps _ [] []

/-- The identity changes nothing. -/
theorem arrayRun_table (sort : SortBySecond (List Nat) ℝ) (mode : EndRead) (eps : ℝ) (dim : Nat)
    (k : Nat) (hk : 0 < k) (data : List (List ℝ)) (hdim : ∀ p ∈ data, p.length = k) :
    arrayRun vectorsDistance sort mode eps dim data =
      (arrayInsertAll eps dim (table data.length (fun i j => if i < j then rowDist k data i j else 0)) data []
        >>= fun g => expandDimensions dim g >>= fun g =>
        (if dim > 0 then expandDimensions (dim + 1) g else pure g) >>= fun g =>
        fastPersistence mode dim eps (arrayGetAllEdges sort g) [] []) := by
  have e1 : mapL (id : ℝ → ℝ) = id := by funext l; rfl
  have e2 : mapB (id : ℝ → ℝ) = id := by funext l; rfl
  have e3 : mapW (id : ℝ → ℝ) = id := by funext l; rfl
  have := arrayRun_natural (φ := (id : ℝ → ℝ)) strictMono_id rfl sort sort (fun l => by simp [e3]) mode eps dim
    (rowDist k data) k hk data hdim (fun _ _ _ _ => rfl)
  rw [e1, e2, List.map_id_fun, List.map_id_fun, Prod.map_id, id_map] at this
  exact this

/-- C95 on a `simplexArrayList`: multiplying all the coordinates and `epsilon` by `c > 0` multiplies every
birth and death by `c` and changes nothing else, for every sorting that only looks at the order of the
weights. -/
theorem C95_scale_array (sort : SortBySecond (List Nat) ℝ) (mode : EndRead) (eps c : ℝ) (hc : 0 < c)
    (hsort : ∀ l, sort.run (l.map (fun e => (e.1, c * e.2))) =
      (sort.run l).map (fun e => (e.1, c * e.2)))
    (dim k : Nat) (hk : 0 < k) (data : List (List ℝ)) (hdim : ∀ p ∈ data, p.length = k) :
    (arrayRun vectorsDistance sort mode (c * eps) dim (data.map (List.map (c * ·)))).map (·.1) =
      (arrayRun vectorsDistance sort mode eps dim data).map (fun r =>
        r.1.map (fun l => (l.1, c * l.2.1, c * l.2.2))) := by
  have hdim' : ∀ p ∈ data.map (List.map (c * ·)), p.length = k := by
    intro p hp
    obtain ⟨q, hq, rfl⟩ := List.mem_map.1 hp
    rw [List.length_map, hdim q hq]
  have hd : ∀ i j, i < j → j < (data.map (List.map (c * ·))).length →
      rowDist k (data.map (List.map (c * ·))) i j = c * rowDist k data i j := by
    intro i j hij hj
    have e : ∀ i, Spec.point k ((data.map (List.map (c * ·))).getD i []) =
        c • Spec.point k (data.getD i []) := by
      intro i
      have h1 : (data.map (List.map (c * ·))).getD i [] = (data.getD i []).map (c * ·) := by
        simp only [List.getD_eq_getElem?_getD, List.getElem?_map]
        cases data[i]? <;> rfl
      rw [h1]
      ext x
      simp only [Spec.point, PiLp.smul_apply, smul_eq_mul]
      simp only [List.getD_eq_getElem?_getD, List.getElem?_map]
      cases (data[i]?.getD [])[x.1]? with
      | none => simp
      | some => simp
    unfold rowDist
    rw [e i, e j, dist_smul₀, Real.norm_of_nonneg hc.le]
  have h := arrayRun_natural (φ := fun x => c * x) (fun a b h => mul_lt_mul_of_pos_left h hc)
    (mul_zero c) sort sort hsort mode eps dim (rowDist k data) k hk _ hdim' hd
  rw [h, List.length_map, arrayInsertAll_rows eps dim _ data (data.map (List.map (c * ·))) []
    (List.length_map _) (rows_ne_nil hk hdim) (rows_ne_nil hk hdim'),
    ← arrayRun_table sort mode eps dim k hk data hdim]
  cases arrayRun vectorsDistance sort mode eps dim data with
  | error e => rfl
  | ok r => rfl

/-! ### Points of the plane with integer coordinates -/

/-- The square root, continued so that it increases strictly on the integers. -/
noncomputable def rootOf (z : ℤ) : ℝ := if 0 ≤ z then Real.sqrt z else z

theorem rootOf_strictMono : StrictMono rootOf := by
  intro a b h
  unfold rootOf
  by_cases ha : 0 ≤ a
  · rw [if_pos ha, if_pos (ha.trans h.le)]
    exact Real.sqrt_lt_sqrt (by exact_mod_cast ha) (by exact_mod_cast h)
  · rw [if_neg ha]
    by_cases hb : 0 ≤ b
    · rw [if_pos hb]
      refine lt_of_lt_of_le ?_ (Real.sqrt_nonneg _)
      exact_mod_cast (not_le.1 ha)
    · rw [if_neg hb]
      exact_mod_cast h

theorem rootOf_nat (n : ℕ) : rootOf n = Real.sqrt n := by
  unfold rootOf
  rw [if_pos (by positivity)]
  simp

/-- The array pipeline on squared distances of points of the plane, with `epsilon` 10 and `dimensions` 2. -/
def planeArray (mode : EndRead) (P : List (ℤ × ℤ)) : Res (List (Line ℤ) × List (BettiEntry ℤ)) :=
  arrayInsertAll 100 2 (table P.length (fun i j => if i < j then (planeSq P i j : ℤ) else 0))
    (P.map (fun p => [p.1, p.2])) [] >>= fun g =>
    expandDimensions 2 g >>= fun g => expandDimensions 3 g >>= fun g =>
    fastPersistence mode 2 100 (arrayGetAllEdges (SortBySecond.insertion (List Nat) ℤ) g) [] []

theorem arrayInsertAll_other {K K' W : Type} [LinearOrder W] [Zero W] (eps : W) (dim : Nat)
    (dm : List (List W)) : ∀ (data : List (List K)) (data' : List (List K')) (g : Graph W),
      data'.length = data.length → (∀ p ∈ data, p ≠ []) → (∀ p ∈ data', p ≠ []) →
      arrayInsertAll eps dim dm data' g = arrayInsertAll eps dim dm data g := by
  intro data
  induction data with
  | nil =>
    intro data' g hlen _ _
    rw [List.length_eq_zero_iff.1 hlen]
    rfl
  | cons p data ih =>
    intro data' g hlen h h'
    cases data' with
    | nil => simp at hlen
    | cons p' data' =>
      have hp : p.isEmpty = false := by
        cases p with
        | nil => exact absurd rfl (h [] (by simp))
        | cons => rfl
      have hp' : p'.isEmpty = false := by
        cases p' with
        | nil => exact absurd rfl (h' [] (by simp))
        | cons => rfl
      unfold arrayInsertAll at ih ⊢
      rw [List.foldlM_cons, List.foldlM_cons, hp, hp']
      have : arrayInsert eps dim dm p' g = arrayInsert eps dim dm p g := by
        unfold arrayInsert
        rw [hp, hp']
      simp only [Bool.false_eq_true, if_false, this]
      congr 1
      funext g
      exact ih data' g (by simpa using hlen) (fun q hq => h q (by simp [hq]))
        (fun q hq => h' q (by simp [hq]))

theorem plane_array_run (mode : EndRead) (P : List (ℤ × ℤ)) :
    arrayRun vectorsDistance (SortBySecond.insertion (List Nat) ℝ) mode (rootOf 100) 2 (planeRows P) =
      Prod.map (List.map (mapL rootOf)) (List.map (mapB rootOf)) <$> planeArray mode P := by
  have := arrayRun_natural rootOf_strictMono (by simp [rootOf])
    (SortBySecond.insertion (List Nat) ℤ) (SortBySecond.insertion (List Nat) ℝ)
    (insertion_natural rootOf_strictMono) mode 100 2 (fun i j => (planeSq P i j : ℤ)) 2 (by decide) (planeRows P)
    (by
      intro p hp
      obtain ⟨q, -, rfl⟩ := List.mem_map.1 hp
      rfl)
    (fun i j hij hj => by
      rw [planeRows, List.length_map] at hj
      rw [rootOf_nat]
      exact rowDist_plane P i j (by omega) hj)
  rw [this, arrayInsertAll_other _ _ _ (P.map (fun p => [p.1, p.2])) (planeRows P) [] (by simp [planeRows])
    (by
      intro p hp
      obtain ⟨q, -, rfl⟩ := List.mem_map.1 hp
      simp)
    (by
      intro p hp
      obtain ⟨q, -, rfl⟩ := List.mem_map.1 hp
      simp)]
  simp only [planeRows, List.length_map]
  rfl

/-- C94 and C109 do not hold from dimension 1 on, on a `simplexArrayList` either: the same five points of the
plane, in two orders, with `epsilon` 10 and `dimensions` 2, give two bars `[√5, √8)`, `[√8, √9)` in one order
and the one bar `[√5, √9)` in the other. -/
theorem C94_row_order_array_violated (mode : EndRead) (hm : mode ≠ .undefined) :
    ∃ data data' : List (List ℝ), data'.Perm data ∧ (∀ p ∈ data, p.length = 2) ∧
    ∃ lines T lines' T',
      arrayRun vectorsDistance (SortBySecond.insertion (List Nat) ℝ) mode (rootOf 100) 2 data =
        .ok (lines, T) ∧
      arrayRun vectorsDistance (SortBySecond.insertion (List Nat) ℝ) mode (rootOf 100) 2 data' =
        .ok (lines', T') ∧
      lines.drop 5 = [(1, rootOf 5, rootOf 8), (1, rootOf 8, rootOf 9)] ∧
      lines'.drop 5 = [(1, rootOf 5, rootOf 9)] ∧ ¬ lines.Perm lines' := by
  have r1 : ∃ T, planeArray mode [(3, 2), (0, 2), (1, 3), (0, 1), (2, 0)] =
      .ok ([(0, 0, 1), (0, 0, 2), (0, 0, 5), (0, 0, 5), (0, 0, 100), (1, 5, 8), (1, 8, 9)], T) := by
    cases mode with
    | undefined => exact absurd rfl hm
    | noPivot => exact ok_of_toOption (by decide +kernel)
    | libstdcxx => exact ok_of_toOption (by decide +kernel)
  have r2 : ∃ T, planeArray mode [(2, 0), (0, 1), (0, 2), (1, 3), (3, 2)] =
      .ok ([(0, 0, 1), (0, 0, 2), (0, 0, 5), (0, 0, 5), (0, 0, 100), (1, 5, 9)], T) := by
    cases mode with
    | undefined => exact absurd rfl hm
    | noPivot => exact ok_of_toOption (by decide +kernel)
    | libstdcxx => exact ok_of_toOption (by decide +kernel)
  obtain ⟨T1, r1⟩ := r1
  obtain ⟨T2, r2⟩ := r2
  have e1 := (plane_array_run mode [(3, 2), (0, 2), (1, 3), (0, 1), (2, 0)]).trans (congrArg _ r1)
  have e2 := (plane_array_run mode [(2, 0), (0, 1), (0, 2), (1, 3), (3, 2)]).trans (congrArg _ r2)
  refine ⟨planeRows [(3, 2), (0, 2), (1, 3), (0, 1), (2, 0)],
    planeRows [(2, 0), (0, 1), (0, 2), (1, 3), (3, 2)], List.Perm.map _ (by decide), ?_,
    _, _, _, _, e1, e2, rfl, rfl, ?_⟩
  · intro p hp
    obtain ⟨q, -, rfl⟩ := List.mem_map.1 hp
    rfl
  · intro h
    have := h.length_eq
    simp at this

/-- C110 does not hold from dimension 1 on, on a `simplexArrayList` either: with the row `0,1` written a second
time, the two bars `[√5, √8)`, `[√8, √9)` become the one bar `[√5, √9)`. -/
theorem C110_loops_array_violated (mode : EndRead) (hm : mode ≠ .undefined) :
    ∃ (data : List (List ℝ)) (p : List ℝ), p ∈ data ∧ (∀ p ∈ data, p.length = 2) ∧
    ∃ lines T lines' T',
      arrayRun vectorsDistance (SortBySecond.insertion (List Nat) ℝ) mode (rootOf 100) 2 data =
        .ok (lines, T) ∧
      arrayRun vectorsDistance (SortBySecond.insertion (List Nat) ℝ) mode (rootOf 100) 2 (p :: data) =
        .ok (lines', T') ∧
      lines.drop 5 = [(1, rootOf 5, rootOf 8), (1, rootOf 8, rootOf 9)] ∧
      lines'.drop 6 = [(1, rootOf 5, rootOf 9)] := by
  have r1 : ∃ T, planeArray mode [(3, 2), (0, 2), (1, 3), (0, 1), (2, 0)] =
      .ok ([(0, 0, 1), (0, 0, 2), (0, 0, 5), (0, 0, 5), (0, 0, 100), (1, 5, 8), (1, 8, 9)], T) := by
    cases mode with
    | undefined => exact absurd rfl hm
    | noPivot => exact ok_of_toOption (by decide +kernel)
    | libstdcxx => exact ok_of_toOption (by decide +kernel)
  have r2 : ∃ T, planeArray mode [(0, 1), (3, 2), (0, 2), (1, 3), (0, 1), (2, 0)] =
      .ok ([(0, 0, 0), (0, 0, 1), (0, 0, 2), (0, 0, 5), (0, 0, 5), (0, 0, 100), (1, 5, 9)], T) := by
    cases mode with
    | undefined => exact absurd rfl hm
    | noPivot => exact ok_of_toOption (by decide +kernel)
    | libstdcxx => exact ok_of_toOption (by decide +kernel)
  obtain ⟨T1, r1⟩ := r1
  obtain ⟨T2, r2⟩ := r2
  have e1 := (plane_array_run mode [(3, 2), (0, 2), (1, 3), (0, 1), (2, 0)]).trans (congrArg _ r1)
  have e2 := (plane_array_run mode [(0, 1), (3, 2), (0, 2), (1, 3), (0, 1), (2, 0)]).trans (congrArg _ r2)
  refine ⟨planeRows [(3, 2), (0, 2), (1, 3), (0, 1), (2, 0)], [((0 : ℤ) : ℝ), ((1 : ℤ) : ℝ)],
    List.mem_map.2 ⟨(0, 1), by simp, rfl⟩, ?_, _, _, _, _, e1, e2, rfl, rfl⟩
  intro p hp
  obtain ⟨q, -, rfl⟩ := List.mem_map.1 hp
  rfl

/-- The hypotheses of C94 are met by three points of the plane in two orders, and both runs complete. -/
example : ∃ lines lines' T T',
    arrayRun vectorsDistance (SortBySecond.insertion (List Nat) ℝ) .noPivot 2 2
      [[0, 0], [1, 0], [5, (1 : ℝ)]] = .ok (lines, T) ∧
    arrayRun vectorsDistance (SortBySecond.insertion (List Nat) ℝ) .noPivot 2 2
      [[5, 1], [0, 0], [1, (0 : ℝ)]] = .ok (lines', T') ∧
    lines.filter (fun l => l.1 = 0) = lines'.filter (fun l => l.1 = 0) := by
  have hc : Congruent 2 [[0, 0], [1, 0], [5, (1 : ℝ)]] 2 [[5, 1], [0, 0], [1, 0]] :=
    congruent_of_perm 2 (List.perm_append_comm (l₁ := [[5, (1 : ℝ)]]) (l₂ := [[0, 0], [1, 0]]))
  have he : rowDist 2 [[0, 0], [1, 0], [5, (1 : ℝ)]] 0 1 ≤ 2 := by
    unfold rowDist Spec.point
    rw [EuclideanSpace.dist_eq]
    simp [Fin.sum_univ_two, Real.dist_eq]
  obtain ⟨lines, lines', T, T', h1, h2, -⟩ := C94_betti_curve_array_partial
    (SortBySecond.insertion (List Nat) ℝ) (SortBySecond.insertion (List Nat) ℝ) 2 2 (by decide) 2 2
    (by decide) (by decide) _ _ (by simp) (by simp) hc ⟨0, 1, by decide, by simp, he⟩
  exact ⟨lines, lines', T, T', h1, h2, C94_components_array_partial _ _ _ _ _ _ _ (by decide) (by decide) 2 2
    (by decide) (by decide) _ _ (by simp) (by simp) (by simp) hc h1 h2⟩

end LHF
