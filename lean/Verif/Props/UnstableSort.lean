import Verif.Props.ArrayInvariance
import Verif.Props.ArrayTruncation
import Verif.Props.FarCloudsArray

/-!
C99, C111: why the theorems about the whole barcode ask for a stable sort. `std::sort` keeps the order of equal
entries in short ranges (libstdc++ sorts at most 16 elements by insertion) and promises nothing for longer ones.
A sort of this kind makes the loops of a cloud depend on points that are far away.
-/

namespace LHF
open Spec

/-- A sort by weight that keeps the order of equal weights in lists of at most 16 entries and reverses it in
longer ones. -/
def Spec.shortStable (W : Type) [LinearOrder W] : SortBySecond (List Nat) W where
  run l := (SortBySecond.insertion (List Nat) W).run (if l.length ≤ 16 then l else l.reverse)
  perm l := by
    split
    · exact (SortBySecond.insertion (List Nat) W).perm l
    · exact ((SortBySecond.insertion (List Nat) W).perm _).trans (List.reverse_perm l)
  sorted l := (SortBySecond.insertion (List Nat) W).sorted _

theorem shortStable_natural {W V : Type} [LinearOrder W] [LinearOrder V] {φ : W → V} (hφ : StrictMono φ)
    (l : List (List Nat × W)) : (shortStable V).run (l.map (mapW φ)) = ((shortStable W).run l).map (mapW φ) := by
  show (SortBySecond.insertion (List Nat) V).run (if (l.map (mapW φ)).length ≤ 16 then _ else _) =
    ((SortBySecond.insertion (List Nat) W).run (if l.length ≤ 16 then l else l.reverse)).map (mapW φ)
  rw [List.length_map, ← insertion_natural hφ]
  by_cases h : l.length ≤ 16
  · rw [if_pos h, if_pos h]
  · rw [if_neg h, if_neg h, List.map_reverse]

/-- The tree pipeline on squared distances of points of the plane, with `dimensions` 2. -/
def shortTree (mode : EndRead) (eps : ℤ) (P : List (ℤ × ℤ)) : Res (List (Line ℤ) × List (BettiEntry ℤ)) :=
  Tree.insertN eps 2 (table P.length (fun i j => if i < j then (planeSq P i j : ℤ) else 0)) P.length
    Tree.fresh >>= fun t => fastPersistence mode 2 eps (t.getAllEdges (shortStable ℤ)).1 [] []

/-- The array pipeline on squared distances of points of the plane, with `dimensions` 2. -/
def shortArray (mode : EndRead) (eps : ℤ) (P : List (ℤ × ℤ)) : Res (List (Line ℤ) × List (BettiEntry ℤ)) :=
  arrayInsertAll eps 2 (table P.length (fun i j => if i < j then (planeSq P i j : ℤ) else 0))
    (P.map (fun p => [p.1, p.2])) [] >>= fun g =>
    expandDimensions 2 g >>= fun g => expandDimensions 3 g >>= fun g =>
    fastPersistence mode 2 eps (arrayGetAllEdges (shortStable ℤ) g) [] []

theorem planeRows_length {P : List (ℤ × ℤ)} : ∀ p ∈ planeRows P, p.length = 2 := by
  intro p hp
  obtain ⟨q, -, rfl⟩ := List.mem_map.1 hp
  rfl

theorem short_tree_run (mode : EndRead) (eps : ℤ) (P : List (ℤ × ℤ)) :
    treeRun vectorsDistance (shortStable ℝ) mode (rootOf eps) 2 (planeRows P) =
      Prod.map (List.map (mapL rootOf)) (List.map (mapB rootOf)) <$> shortTree mode eps P := by
  have := treeRun_natural rootOf_strictMono (by simp [rootOf]) (shortStable ℤ) (shortStable ℝ)
    (shortStable_natural rootOf_strictMono) mode eps 2 (fun i j => (planeSq P i j : ℤ)) 2 (by decide)
    (planeRows P) planeRows_length
    (fun i j hij hj => by
      rw [planeRows, List.length_map] at hj
      rw [rootOf_nat]
      exact rowDist_plane P i j (by omega) hj)
  rw [this]
  simp only [planeRows, List.length_map]
  rfl

theorem short_array_run (mode : EndRead) (eps : ℤ) (P : List (ℤ × ℤ)) :
    arrayRun vectorsDistance (shortStable ℝ) mode (rootOf eps) 2 (planeRows P) =
      Prod.map (List.map (mapL rootOf)) (List.map (mapB rootOf)) <$> shortArray mode eps P := by
  have := arrayRun_natural rootOf_strictMono (by simp [rootOf]) (shortStable ℤ) (shortStable ℝ)
    (shortStable_natural rootOf_strictMono) mode eps 2 (fun i j => (planeSq P i j : ℤ)) 2 (by decide)
    (planeRows P) planeRows_length
    (fun i j hij hj => by
      rw [planeRows, List.length_map] at hj
      rw [rootOf_nat]
      exact rowDist_plane P i j (by omega) hj)
  rw [this, arrayInsertAll_other _ _ _ (P.map (fun p => [p.1, p.2])) (planeRows P) [] (by simp [planeRows])
    (by
      intro p hp
      obtain ⟨q, -, rfl⟩ := List.mem_map.1 hp
      simp)
    (by
      intro p hp
      obtain ⟨q, -, rfl⟩ := List.mem_map.1 hp
      simp)]
  simp only [planeRows, List.length_map]
  rfl

/-- Five points of the plane. -/
def Spec.fivePoints : List (ℤ × ℤ) := [(0, 1), (3, 1), (2, 0), (2, 3), (1, 3)]

/-- Seven points in a row, 11 apart, the first of them 11 from one of the five points and more than 12 from the
others. -/
def Spec.farPath : List (ℤ × ℤ) := [(14, 1), (25, 1), (36, 1), (47, 1), (58, 1), (69, 1), (80, 1)]

/-- Eight points in a row, 9 apart, far from the five points. -/
def Spec.nearPath : List (ℤ × ℤ) :=
  [(40, 1), (49, 1), (58, 1), (67, 1), (76, 1), (85, 1), (94, 1), (103, 1)]

theorem short_five :
    (∃ T, shortTree .noPivot 100 fivePoints =
      .ok ([(0, 0, 1), (0, 0, 2), (0, 0, 5), (0, 0, 5), (0, 0, 100), (1, 5, 8), (1, 8, 9)], T)) ∧
    (∃ T, shortArray .noPivot 100 fivePoints =
      .ok ([(0, 0, 1), (0, 0, 2), (0, 0, 5), (0, 0, 5), (0, 0, 100), (1, 5, 8), (1, 8, 9)], T)) := by
  exact ⟨ok_of_toOption (by decide +kernel), ok_of_toOption (by decide +kernel)⟩

theorem short_near :
    (∃ T, shortTree .noPivot 100 nearPath =
      .ok ([(0, 0, 81), (0, 0, 81), (0, 0, 81), (0, 0, 81), (0, 0, 81), (0, 0, 81), (0, 0, 81), (0, 0, 100)], T)) ∧
    (∃ T, shortArray .noPivot 100 nearPath =
      .ok ([(0, 0, 81), (0, 0, 81), (0, 0, 81), (0, 0, 81), (0, 0, 81), (0, 0, 81), (0, 0, 81), (0, 0, 100)], T)) := by
  exact ⟨ok_of_toOption (by decide +kernel), ok_of_toOption (by decide +kernel)⟩

theorem short_far :
    (∃ T, shortTree .noPivot 100 (fivePoints ++ farPath) =
      .ok ([(0, 0, 1), (0, 0, 2), (0, 0, 5), (0, 0, 5), (0, 0, 100), (1, 5, 8), (1, 8, 9)], T)) ∧
    (∃ T, shortArray .noPivot 100 (fivePoints ++ farPath) =
      .ok ([(0, 0, 1), (0, 0, 2), (0, 0, 5), (0, 0, 5), (0, 0, 100), (1, 5, 8), (1, 8, 9)], T)) := by
  exact ⟨ok_of_toOption (by decide +kernel), ok_of_toOption (by decide +kernel)⟩

theorem short_far_large :
    (∃ T, shortTree .noPivot 144 (fivePoints ++ farPath) =
      .ok ([(0, 0, 1), (0, 0, 2), (0, 0, 5), (0, 0, 5), (0, 0, 121), (0, 0, 121), (0, 0, 121), (0, 0, 121), (0, 0, 121),
        (0, 0, 121), (0, 0, 121), (0, 0, 144), (1, 5, 9)], T)) ∧
    (∃ T, shortArray .noPivot 144 (fivePoints ++ farPath) =
      .ok ([(0, 0, 1), (0, 0, 2), (0, 0, 5), (0, 0, 5), (0, 0, 121), (0, 0, 121), (0, 0, 121), (0, 0, 121), (0, 0, 121),
        (0, 0, 121), (0, 0, 121), (0, 0, 144), (1, 5, 9)], T)) := by
  exact ⟨ok_of_toOption (by decide +kernel), ok_of_toOption (by decide +kernel)⟩

theorem short_both :
    (∃ T, shortTree .noPivot 100 (fivePoints ++ nearPath) =
      .ok ([(0, 0, 1), (0, 0, 2), (0, 0, 5), (0, 0, 5), (0, 0, 81), (0, 0, 81), (0, 0, 81), (0, 0, 81), (0, 0, 81),
        (0, 0, 81), (0, 0, 81), (0, 0, 100), (1, 5, 9)], T)) ∧
    (∃ T, shortArray .noPivot 100 (fivePoints ++ nearPath) =
      .ok ([(0, 0, 1), (0, 0, 2), (0, 0, 5), (0, 0, 5), (0, 0, 81), (0, 0, 81), (0, 0, 81), (0, 0, 81), (0, 0, 81),
        (0, 0, 81), (0, 0, 81), (0, 0, 100), (1, 5, 9)], T)) := by
  exact ⟨ok_of_toOption (by decide +kernel), ok_of_toOption (by decide +kernel)⟩

/-- A bar that is in one list of lines and not in the other. -/
theorem bar_missing {L : List (Line ℤ)} {l : Line ℤ} (h : l ∉ L) : mapL rootOf l ∉ L.map (mapL rootOf) := by
  intro hm
  obtain ⟨x, hx, e⟩ := List.mem_map.1 hm
  have h1 : (mapL rootOf x).1 = (mapL rootOf l).1 := by rw [e]
  have h2 : (mapL rootOf x).2.1 = (mapL rootOf l).2.1 := by rw [e]
  have h3 : (mapL rootOf x).2.2 = (mapL rootOf l).2.2 := by rw [e]
  have : x = l := Prod.ext h1 (Prod.ext (rootOf_strictMono.injective h2) (rootOf_strictMono.injective h3))
  exact h (this ▸ hx)

theorem shortStable_short (l : List (List Nat × ℝ)) (h : l.length ≤ 16) :
    (shortStable ℝ).run l = (SortBySecond.insertion (List Nat) ℝ).run l := by
  show (SortBySecond.insertion (List Nat) ℝ).run (if l.length ≤ 16 then l else l.reverse) = _
  rw [if_pos h]

/-- C99 does not hold for every sort: there is a sort that is stable on lists of at most 16 entries and twelve
points of the plane such that the bar `[√8, √9)` in dimension 1 is written with `epsilon` 10 and not with
`epsilon` 12. For a simplexTree and a simplexArrayList, with
the past-the-end read taken as no pivot, as in the theorems. -/
theorem C99_unstable_sort_violated :
    ∃ sort : SortBySecond (List Nat) ℝ,
      (∀ l, l.length ≤ 16 → sort.run l = (SortBySecond.insertion (List Nat) ℝ).run l) ∧
    ∃ data : List (List ℝ), (∀ p ∈ data, p.length = 2) ∧ ∃ lines lines' T T' Ta Ta',
      treeRun vectorsDistance sort .noPivot (rootOf 144) 2 data = .ok (lines, T) ∧
      treeRun vectorsDistance sort .noPivot (rootOf 100) 2 data = .ok (lines', T') ∧
      arrayRun vectorsDistance sort .noPivot (rootOf 144) 2 data = .ok (lines, Ta) ∧
      arrayRun vectorsDistance sort .noPivot (rootOf 100) 2 data = .ok (lines', Ta') ∧
      (1, rootOf 8, rootOf 9) ∈ lines' ∧ (1, rootOf 8, rootOf 9) ∉ lines ∧
      ¬ lines'.Perm (truncated (rootOf 100) lines) ∧ ¬ lines'.Perm (truncatedAt (rootOf 100) lines) := by
  obtain ⟨⟨T, h1⟩, Ta, h2⟩ := short_far_large
  obtain ⟨⟨T', h3⟩, Ta', h4⟩ := short_far
  have e1 := (short_tree_run .noPivot 144 (fivePoints ++ farPath)).trans (congrArg _ h1)
  have e2 := (short_array_run .noPivot 144 (fivePoints ++ farPath)).trans (congrArg _ h2)
  have e3 := (short_tree_run .noPivot 100 (fivePoints ++ farPath)).trans (congrArg _ h3)
  have e4 := (short_array_run .noPivot 100 (fivePoints ++ farPath)).trans (congrArg _ h4)
  have hin : ((1, rootOf 8, rootOf 9) : Line ℝ) ∈ List.map (mapL rootOf)
      [(0, 0, 1), (0, 0, 2), (0, 0, 5), (0, 0, 5), (0, 0, 100), (1, 5, 8), (1, 8, 9)] :=
    List.mem_map.2 ⟨(1, 8, 9), by simp, rfl⟩
  have hout : ((1, rootOf 8, rootOf 9) : Line ℝ) ∉ List.map (mapL rootOf)
      [(0, 0, 1), (0, 0, 2), (0, 0, 5), (0, 0, 5), (0, 0, 121), (0, 0, 121), (0, 0, 121), (0, 0, 121), (0, 0, 121),
        (0, 0, 121), (0, 0, 121), (0, 0, 144), (1, 5, 9)] :=
    bar_missing (l := (1, 8, 9)) (by decide +kernel)
  refine ⟨shortStable ℝ, shortStable_short, planeRows (fivePoints ++ farPath), planeRows_length, _, _, _, _, _, _,
    e1, e3, e2, e4, hin, hout, fun h => ?_, fun h => ?_⟩
  · have := h.mem_iff.1 hin
    unfold truncated at this
    rw [List.mem_append, List.mem_append, List.mem_filter, List.mem_filter, List.mem_singleton] at this
    rcases this with (⟨h, -⟩ | h) | ⟨h, -⟩
    · exact hout h
    · cases congrArg Prod.fst h
    · exact hout h
  · have := h.mem_iff.1 hin
    unfold truncatedAt at this
    rw [List.mem_append, List.mem_append, List.mem_filter, List.mem_filter, List.mem_singleton] at this
    rcases this with (⟨h, -⟩ | h) | ⟨h, -⟩
    · exact hout h
    · cases congrArg Prod.fst h
    · exact hout h

theorem five_far : ∀ p ∈ planeRows fivePoints, ∀ q ∈ planeRows nearPath,
    rootOf 100 < dist (Spec.point 2 p) (Spec.point 2 q) := by
  intro p hp q hq
  obtain ⟨P, hP, rfl⟩ := List.mem_map.1 hp
  obtain ⟨Q, hQ, rfl⟩ := List.mem_map.1 hq
  have h := rowDist_plane [P, Q] 0 1 (by simp) (by simp)
  have e : rowDist 2 (planeRows [P, Q]) 0 1 = dist (Spec.point 2 [(P.1 : ℝ), (P.2 : ℝ)])
      (Spec.point 2 [(Q.1 : ℝ), (Q.2 : ℝ)]) := rfl
  rw [e, ← rootOf_nat] at h
  rw [h]
  refine rootOf_strictMono ?_
  have : ∀ P ∈ fivePoints, ∀ Q ∈ nearPath, (100 : ℤ) < planeSq [P, Q] 0 1 := by decide +kernel
  exact this P hP Q hQ

/-- C111 does not hold for every sort: there is a sort that is stable on lists of at most 16 entries and two
clouds of five and eight points, more than `epsilon` apart, such that the first alone has the bars `[√5, √8)` and
`[√8, √9)` in dimension 1 and both together have the one bar `[√5, √9)`. For a simplexTree and a simplexArrayList, with
the past-the-end read taken as no pivot, as in the theorems. -/
theorem C111_unstable_sort_violated :
    ∃ sort : SortBySecond (List Nat) ℝ,
      (∀ l, l.length ≤ 16 → sort.run l = (SortBySecond.insertion (List Nat) ℝ).run l) ∧
    ∃ data data' : List (List ℝ), (∀ p ∈ data, p.length = 2) ∧ (∀ p ∈ data', p.length = 2) ∧
      (∀ p ∈ data, ∀ q ∈ data', rootOf 100 < dist (Spec.point 2 p) (Spec.point 2 q)) ∧
    ∃ lines lines' lines'' T T' T'' Ta Ta' Ta'',
      treeRun vectorsDistance sort .noPivot (rootOf 100) 2 data = .ok (lines, T) ∧
      treeRun vectorsDistance sort .noPivot (rootOf 100) 2 data' = .ok (lines', T') ∧
      treeRun vectorsDistance sort .noPivot (rootOf 100) 2 (data ++ data') = .ok (lines'', T'') ∧
      arrayRun vectorsDistance sort .noPivot (rootOf 100) 2 data = .ok (lines, Ta) ∧
      arrayRun vectorsDistance sort .noPivot (rootOf 100) 2 data' = .ok (lines', Ta') ∧
      arrayRun vectorsDistance sort .noPivot (rootOf 100) 2 (data ++ data') = .ok (lines'', Ta'') ∧
      (1, rootOf 8, rootOf 9) ∈ lines ∧ (1, rootOf 8, rootOf 9) ∉ lines'' ∧ ¬ ((0, 0, rootOf 100) :: lines'').Perm (lines ++ lines') := by
  obtain ⟨⟨T, h1⟩, Ta, h2⟩ := short_five
  obtain ⟨⟨T', h3⟩, Ta', h4⟩ := short_near
  obtain ⟨⟨T'', h5⟩, Ta'', h6⟩ := short_both
  have e1 := (short_tree_run .noPivot 100 fivePoints).trans (congrArg _ h1)
  have e2 := (short_array_run .noPivot 100 fivePoints).trans (congrArg _ h2)
  have e3 := (short_tree_run .noPivot 100 nearPath).trans (congrArg _ h3)
  have e4 := (short_array_run .noPivot 100 nearPath).trans (congrArg _ h4)
  have e5 := (short_tree_run .noPivot 100 (fivePoints ++ nearPath)).trans (congrArg _ h5)
  have e6 := (short_array_run .noPivot 100 (fivePoints ++ nearPath)).trans (congrArg _ h6)
  have hcat : planeRows (fivePoints ++ nearPath) = planeRows fivePoints ++ planeRows nearPath :=
    List.map_append
  rw [hcat] at e5 e6
  have hin : ((1, rootOf 8, rootOf 9) : Line ℝ) ∈ List.map (mapL rootOf)
      [(0, 0, 1), (0, 0, 2), (0, 0, 5), (0, 0, 5), (0, 0, 100), (1, 5, 8), (1, 8, 9)] :=
    List.mem_map.2 ⟨(1, 8, 9), by simp, rfl⟩
  have hout : ((1, rootOf 8, rootOf 9) : Line ℝ) ∉ List.map (mapL rootOf)
      [(0, 0, 1), (0, 0, 2), (0, 0, 5), (0, 0, 5), (0, 0, 81), (0, 0, 81), (0, 0, 81), (0, 0, 81), (0, 0, 81),
        (0, 0, 81), (0, 0, 81), (0, 0, 100), (1, 5, 9)] :=
    bar_missing (l := (1, 8, 9)) (by decide +kernel)
  refine ⟨shortStable ℝ, shortStable_short, planeRows fivePoints, planeRows nearPath, planeRows_length,
    planeRows_length, five_far, _, _, _, _, _, _, _, _, _, e1, e3, e5, e2, e4, e6, hin, hout, fun h => ?_⟩
  have := h.mem_iff.2 (List.mem_append_left _ hin)
  rcases List.mem_cons.1 this with h | h
  · cases congrArg Prod.fst h
  · exact hout h

end LHF
