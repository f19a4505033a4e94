import Verif.Props.FewPoints
import Verif.Props.IndexedProgram

/-! C134: a bar of dimension at least 1 is a class of the Rips filtration that lives at least as long. -/

namespace LHF
open Spec

/-- What makes the bars of a barcode real: whatever two scales `s ≤ t` one takes, there are at most as many
bars of dimension `k ≥ 1` across both as there are classes of dimension `k` that live from `s` to `t`; and
each bar is a class that is there where the bar begins and that lives as long as the bar. -/
structure Spec.RealBars (n : Nat) (d : Nat → Nat → ℝ) (inRange : ℝ → Prop) (dim : Nat)
    (lines : List (Line ℝ)) : Prop where
  /-- across two scales -/
  across : ∀ k s t, 1 ≤ k → k < dim → 0 ≤ s → s ≤ t → inRange t →
    (lines.filter (fun l => l.1 = k ∧ l.2.1 ≤ s ∧ t < l.2.2)).length ≤ ripsPersistent n d k s t
  /-- each bar -/
  each : ∀ l ∈ lines, 1 ≤ l.1 → ∀ t, l.2.1 ≤ t → t < l.2.2 → 1 ≤ ripsPersistent n d l.1 l.2.1 t

theorem real_of_describes {n : Nat} {d : Nat → Nat → ℝ} {inRange : ℝ → Prop}
    (hP : ∀ s t, s ≤ t → inRange t → inRange s) {eps : ℝ} {dim : Nat} {lines : List (Line ℝ)}
    (hD : DescribesRips n d inRange eps dim lines) : RealBars n d inRange dim lines := by
  refine ⟨hD.real, fun l hl h1 t ht1 ht2 => ?_⟩
  obtain ⟨b1, b2, b3⟩ := hD.bars l hl h1
  refine le_trans ?_ (hD.real l.1 l.2.1 t h1 ((hD.only l hl).resolve_left (by omega)) b1 ht1
    (hP _ _ ht2.le b3))
  exact List.length_pos_of_mem (List.mem_filter.2 ⟨hl, by simpa using ht2⟩)

/-- C134, the run of the default pipeline (partial: there may be fewer bars across two scales than classes,
see below; the reading past the end finds no pivot). -/
theorem C134_real_run_partial (sort : SortBySecond (List Nat) ℝ) (eps : ℝ) (dim : Nat)
    (k : Nat) (hk : 0 < k) (data : List (List ℝ)) (hdim : ∀ p ∈ data, p.length = k)
    (hedge : ∃ i j, i < j ∧ j < data.length ∧ rowDist k data i j < eps) :
    ∃ lines table, treeRun vectorsDistance sort .noPivot eps dim data = .ok (lines, table) ∧
      RealBars data.length (rowDist k data) (· < eps) dim lines := by
  obtain ⟨lines, T, h1, h2⟩ := C70_tree_run_partial sort eps dim k hk data hdim hedge
  exact ⟨lines, T, h1, real_of_describes (fun s t h h' => lt_of_le_of_lt h h') h2⟩

/-- C134, the whole program with a `simplexTree` (partial: at most, and the reading past the end finds no
pivot). -/
theorem C134_real_program_partial (sys : System ℝ ℝ) (hdist : sys.lib.dist = vectorsDistance)
    (hread : sys.lib.mode = .noPivot) (pairs : List (String × String)) (m : ArgMap) (f : String)
    (data : List (List ℝ)) (h : PlainCommand sys pairs m "simplexTree" f data)
    (k : Nat) (hk : 0 < k) (hdim : ∀ p ∈ data, p.length = k)
    (hedge : ∃ i j, i < j ∧ j < data.length ∧ rowDist k data i j < sys.atof (m.val "epsilon")) :
    ∃ w lines, mainProgram sys (commandLine pairs) = .ok w ∧ WritesBarcode sys.io f lines w ∧
      RealBars data.length (rowDist k data) (· < sys.atof (m.val "epsilon"))
        (sys.atoi (m.val "dimensions")) lines := by
  obtain ⟨w, lines, h1, h2, h3⟩ := C85_standard_program_partial sys hdist hread pairs m f data h k hk hdim hedge
  exact ⟨w, lines, h1, h2, real_of_describes (fun s t h h' => lt_of_le_of_lt h h') h3⟩

/-- C134: as the code is written, the only other outcome of the program is that it reads past the end
(partial: at most). -/
theorem C134_real_program_or_undefined_partial (sys : System ℝ ℝ) (hdist : sys.lib.dist = vectorsDistance)
    (hread : sys.lib.mode = .undefined) (pairs : List (String × String)) (m : ArgMap) (f : String)
    (data : List (List ℝ)) (h : PlainCommand sys pairs m "simplexTree" f data)
    (k : Nat) (hk : 0 < k) (hdim : ∀ p ∈ data, p.length = k)
    (hedge : ∃ i j, i < j ∧ j < data.length ∧ rowDist k data i j < sys.atof (m.val "epsilon")) :
    mainProgram sys (commandLine pairs) = .error .endDeref ∨
    ∃ w lines, mainProgram sys (commandLine pairs) = .ok w ∧ WritesBarcode sys.io f lines w ∧
      RealBars data.length (rowDist k data) (· < sys.atof (m.val "epsilon"))
        (sys.atoi (m.val "dimensions")) lines := by
  rcases C85_standard_program_or_undefined sys hdist hread pairs m f data h k hk hdim hedge with
    h1 | ⟨w, lines, h1, h2, h3⟩
  · exact Or.inl h1
  · exact Or.inr ⟨w, lines, h1, h2, real_of_describes (fun s t h h' => lt_of_le_of_lt h h') h3⟩

/-- C134, the complex type `simplexArrayList` (partial: at most, `dimensions` is positive and the reading
past the end finds no pivot). -/
theorem C134_real_program_array_partial (sys : System ℝ ℝ) (hdist : sys.lib.dist = vectorsDistance)
    (hread : sys.lib.mode = .noPivot) (pairs : List (String × String)) (m : ArgMap) (f : String)
    (data : List (List ℝ)) (h : PlainCommand sys pairs m "simplexArrayList" f data)
    (hcol : m.val "collapse" ≠ "true" ∧ m.val "collapse" ≠ "1")
    (hd : 0 < sys.atoi (m.val "dimensions"))
    (k : Nat) (hk : 0 < k) (hdim : ∀ p ∈ data, p.length = k)
    (hedge : ∃ i j, i < j ∧ j < data.length ∧ rowDist k data i j ≤ sys.atof (m.val "epsilon")) :
    ∃ w lines, mainProgram sys (commandLine pairs) = .ok w ∧ WritesBarcode sys.io f lines w ∧
      RealBars data.length (rowDist k data) (· ≤ sys.atof (m.val "epsilon"))
        (sys.atoi (m.val "dimensions")) lines := by
  obtain ⟨w, lines, h1, h2, h3⟩ := C85_standard_program_array_partial sys hdist hread pairs m f data h hcol
    hd k hk hdim hedge
  exact ⟨w, lines, h1, h2, real_of_describes (fun s t h h' => le_trans h h') h3⟩

/-- C134, the complex type `indSimplexTree` (partial: at most, `dimensions` is at most 2 or no four points
are pairwise close, the collapse is off and the reading past the end finds no pivot). -/
theorem C134_real_program_indexed_partial (sys : System ℝ ℝ) (hdist : sys.lib.dist = vectorsDistance)
    (hread : sys.lib.mode = .noPivot) (pairs : List (String × String)) (m : ArgMap) (f : String)
    (data : List (List ℝ)) (h : PlainCommand sys pairs m "indSimplexTree" f data)
    (hcol : m.val "collapse" ≠ "true" ∧ m.val "collapse" ≠ "1")
    (k : Nat) (hk : 0 < k) (hdim : ∀ p ∈ data, p.length = k)
    (hsmall : sys.atoi (m.val "dimensions") ≤ 2 ∨ ¬ ∃ s, IsSimplex data.length
      (fun i j => rowDist k data i j < sys.atof (m.val "epsilon")) s ∧ s.length = 4)
    (hedge : ∃ i j, i < j ∧ j < data.length ∧ rowDist k data i j < sys.atof (m.val "epsilon")) :
    ∃ w lines, mainProgram sys (commandLine pairs) = .ok w ∧ WritesBarcode sys.io f lines w ∧
      RealBars data.length (rowDist k data) (· < sys.atof (m.val "epsilon"))
        (sys.atoi (m.val "dimensions")) lines := by
  obtain ⟨w, lines, h1, h2, h3⟩ := C92_indexed_program_partial sys hdist hread pairs m f data h hcol k hk
    hdim hsmall hedge
  exact ⟨w, lines, h1, h2, real_of_describes (fun s t h h' => lt_of_le_of_lt h h') h3⟩

/-! ### Classes that live from one scale to another -/

theorem finite_ripsChains (n : Nat) (d : Nat → Nat → ℝ) (k : Nat) (t : ℝ) :
    FiniteDimensional (ZMod 2) (ripsChains n d k t) := by
  unfold ripsChains
  apply FiniteDimensional.span_of_finite
  apply Set.Finite.subset
    (List.finite_toSet ((List.range n).sublists.map (fun s => (Finsupp.single s 1 : Chain))))
  rintro x ⟨s, -, hs, rfl⟩
  refine List.mem_map.2 ⟨s, List.mem_sublists.2 ?_, rfl⟩
  exact sublist_of_subset_inc hs.2.1 List.pairwise_lt_range (fun v hv => List.mem_range.2 (hs.2.2.1 v hv))

theorem one_le_persistent {n : Nat} {d : Nat → Nat → ℝ} {k : Nat} {s t : ℝ} {z : Chain}
    (hz : z ∈ ripsChains n d k s) (hc : boundary z = 0)
    (hn : z ∉ (ripsChains n d (k + 1) t).map boundary) : 1 ≤ ripsPersistent n d k s t := by
  have := finite_ripsChains n d k s
  have : FiniteDimensional (ZMod 2) ↥(ripsChains n d k s ⊓ LinearMap.ker boundary) :=
    Submodule.finiteDimensional_inf_left _ _
  unfold ripsPersistent
  rw [Submodule.one_le_finrank_iff]
  intro h
  apply hn
  rw [Submodule.eq_bot_iff] at h
  have h1 := h _ (Submodule.mem_map_of_mem (f := ((ripsChains n d (k + 1) t).map boundary).mkQ)
    (⟨hz, hc⟩ : z ∈ ripsChains n d k s ⊓ LinearMap.ker boundary))
  rwa [Submodule.mkQ_apply, Submodule.Quotient.mk_eq_zero] at h1

/-- Five points of the plane around a hole. -/
def fiveAround : List (ℤ × ℤ) := [(3, 2), (0, 2), (1, 3), (0, 1), (2, 0)]

theorem five_edge {i j : Nat} {e : Nat} (hij : i < j) (hj : j < 5) (h : planeSq fiveAround i j ≤ e) :
    (Finsupp.single [i, j] 1 : Chain) ∈ ripsChains 5 (rowDist 2 (planeRows fiveAround)) 1
      (Real.sqrt (e : ℕ)) := by
  apply Submodule.subset_span
  refine ⟨[i, j], rfl, ⟨by simp, by simpa using hij, ?_, ?_⟩, rfl⟩
  · intro v hv
    simp only [List.mem_cons, List.not_mem_nil, or_false] at hv
    omega
  · intro a ha b hb hab
    simp only [List.mem_cons, List.not_mem_nil, or_false] at ha hb
    have : a = i ∧ b = j := by omega
    rw [this.1, this.2]
    show rowDist 2 (planeRows fiveAround) i j ≤ _
    rw [rowDist_plane fiveAround i j (show i < 5 by omega) hj]
    exact sqrt_nat_strictMono.monotone h

/-- The loop around the hole is there at the scale √5 and is not filled at the scale √8. -/
theorem five_loop : 1 ≤ ripsPersistent 5 (rowDist 2 (planeRows fiveAround)) 1
    (Real.sqrt (5 : ℕ)) (Real.sqrt (8 : ℕ)) := by
  apply one_le_persistent (z := Finsupp.single [0, 2] 1 + Finsupp.single [2, 3] 1 +
    Finsupp.single [3, 4] 1 + Finsupp.single [0, 4] 1)
  · exact Submodule.add_mem _ (Submodule.add_mem _ (Submodule.add_mem _
      (five_edge (by decide) (by decide) (by decide)) (five_edge (by decide) (by decide) (by decide)))
      (five_edge (by decide) (by decide) (by decide))) (five_edge (by decide) (by decide) (by decide))
  · have e : ∀ a b : Nat, boundary (Finsupp.single [a, b] 1) =
        Finsupp.single [a] 1 + Finsupp.single [b] 1 := by
      intro a b
      rw [boundary_single]
      simp [boundaryOf, Finset.sum_range_succ, add_comm]
    rw [map_add, map_add, map_add, e, e, e, e]
    have h : ∀ a b c d : Chain, a + b + (b + c) + (c + d) + (a + d) =
        (a + a) + (b + b) + (c + c) + (d + d) := by intro a b c d; abel
    rw [h]
    simp only [chain_add_self, add_zero]
  · intro hz
    have hle : (ripsChains 5 (rowDist 2 (planeRows fiveAround)) 2 (Real.sqrt (8 : ℕ))).map boundary ≤
        LinearMap.ker (Finsupp.lapply [0, 2] : Chain →ₗ[ZMod 2] ZMod 2) := by
      unfold ripsChains
      rw [Submodule.map_span, Submodule.span_le]
      rintro y ⟨x, ⟨s, hl, ⟨-, hs1, hs2, hs3⟩, rfl⟩, rfl⟩
      show (Finsupp.lapply [0, 2] : Chain →ₗ[ZMod 2] ZMod 2) _ = 0
      rw [boundary_single, Finsupp.lapply_apply, boundaryOf_apply hs1, if_neg]
      rintro ⟨i, -, hi⟩
      have m0 : 0 ∈ s := List.mem_of_mem_eraseIdx (i := i) (by rw [hi]; simp)
      have m2 : 2 ∈ s := List.mem_of_mem_eraseIdx (i := i) (by rw [hi]; simp)
      obtain ⟨v, hv, hv0, hv2⟩ : ∃ v ∈ s, v ≠ 0 ∧ v ≠ 2 := by
        by_contra hc
        push Not at hc
        have hsub : s ⊆ [0, 2] := by
          intro v hv
          by_cases h0 : v = 0
          · simp [h0]
          · simp [hc v hv h0]
        have hnd : s.Nodup := hs1.imp (fun h => Nat.ne_of_lt h)
        have := (hnd.subperm hsub).length_le
        rw [hl] at this
        simp at this
      have far : ∀ i j : Nat, i < j → j < 5 → i ∈ s → j ∈ s → planeSq fiveAround i j ≤ 8 := by
        intro i j hij hj hi hj'
        have : rowDist 2 (planeRows fiveAround) i j ≤ Real.sqrt (8 : ℕ) := hs3 i hi j hj' hij
        rw [rowDist_plane fiveAround i j (show i < 5 by omega) hj] at this
        exact sqrt_nat_strictMono.le_iff_le.1 this
      have hv5 := hs2 v hv
      have f01 : ¬ planeSq fiveAround 0 1 ≤ 8 := by decide
      have f03 : ¬ planeSq fiveAround 0 3 ≤ 8 := by decide
      have f24 : ¬ planeSq fiveAround 2 4 ≤ 8 := by decide
      have : v = 1 ∨ v = 3 ∨ v = 4 := by omega
      rcases this with rfl | rfl | rfl
      · exact f01 (far 0 1 (by decide) (by decide) m0 hv)
      · exact f03 (far 0 3 (by decide) (by decide) m0 hv)
      · exact f24 (far 2 4 (by decide) (by decide) m2 hv)
    have h0 := hle hz
    rw [LinearMap.mem_ker, Finsupp.lapply_apply] at h0
    simp [Finsupp.single_apply] at h0

/-- C134 fails in the other direction: of five points around a hole, the loop that is there from the scale
√5 to the scale 3 is written as two bars, `[√5, √8)` and `[√8, 3)`, so that no bar is across both √5 and √8,
although a class lives from √5 to √8. -/
theorem C134_split_bar_violated (mode : EndRead) (hm : mode ≠ .undefined) : ∃ lines T,
    treeRun vectorsDistance (SortBySecond.insertion (List Nat) ℝ) mode (Real.sqrt (100 : ℕ)) 2
      (planeRows fiveAround) = .ok (lines, T) ∧
    lines.filter (fun l => l.1 = 1) = [(1, Real.sqrt (5 : ℕ), Real.sqrt (8 : ℕ)),
      (1, Real.sqrt (8 : ℕ), Real.sqrt (9 : ℕ))] ∧
    (lines.filter (fun l => l.1 = 1 ∧ l.2.1 ≤ Real.sqrt (5 : ℕ) ∧ Real.sqrt (8 : ℕ) < l.2.2)).length = 0 ∧
    1 ≤ ripsPersistent 5 (rowDist 2 (planeRows fiveAround)) 1 (Real.sqrt (5 : ℕ)) (Real.sqrt (8 : ℕ)) := by
  obtain ⟨T, r⟩ : ∃ T, planeRunAt mode 100 2 fiveAround =
      .ok ([(0, 0, 1), (0, 0, 2), (0, 0, 5), (0, 0, 5), (0, 0, 100), (1, 5, 8), (1, 8, 9)], T) := by
    cases mode with
    | undefined => exact absurd rfl hm
    | noPivot => exact ok_of_toOption (by decide +kernel)
    | libstdcxx => exact ok_of_toOption (by decide +kernel)
  have e := (plane_run_at mode 100 2 fiveAround).trans (congrArg _ r)
  have h58 : ¬ Real.sqrt (8 : ℕ) ≤ Real.sqrt (5 : ℕ) := not_le.2 (sqrt_nat_strictMono (by decide))
  refine ⟨_, _, e, ?_, ?_, five_loop⟩
  · simp [mapL]
  · rw [List.length_eq_zero_iff, List.filter_eq_nil_iff]
    intro l hl
    obtain ⟨l', hl', rfl⟩ := List.mem_map.1 hl
    rw [decide_eq_true_eq]
    rintro ⟨h1, h2, h3⟩
    have h2' := sqrt_nat_strictMono.le_iff_le.1 h2
    have h3' := sqrt_nat_strictMono.lt_iff_lt.1 h3
    have key : ∀ l' ∈ [((0 : Nat), (0 : Nat), (1 : Nat)), (0, 0, 2), (0, 0, 5), (0, 0, 5), (0, 0, 100),
        (1, 5, 8), (1, 8, 9)], ¬ (l'.1 = 1 ∧ l'.2.1 ≤ 5 ∧ 8 < l'.2.2) := by decide
    exact key l' hl' ⟨h1, h2', h3'⟩

/-- The hypotheses of C134: two of the five points are closer than 10; and the barcode of the five points has
bars of dimension 1 (above), each of them a class. -/
example : (∀ p ∈ planeRows fiveAround, p.length = 2) ∧ ∃ i j, i < j ∧ j < (planeRows fiveAround).length ∧
    rowDist 2 (planeRows fiveAround) i j < Real.sqrt (100 : ℕ) := by
  refine ⟨?_, 0, 2, by decide, by decide, ?_⟩
  · intro p hp
    obtain ⟨q, -, rfl⟩ := List.mem_map.1 hp
    rfl
  · rw [rowDist_plane fiveAround 0 2 (by decide) (by decide)]
    exact sqrt_nat_strictMono (by decide)

/-- C134 at the five points: the class that the bar `[√8, 3)` stands for. -/
example : 1 ≤ ripsPersistent 5 (rowDist 2 (planeRows fiveAround)) 1 (Real.sqrt (8 : ℕ)) (Real.sqrt (8 : ℕ)) := by
  obtain ⟨lines, T, h1, h2, -, -⟩ := C134_split_bar_violated .noPivot (by simp)
  obtain ⟨lines', T', h3, h4⟩ := C134_real_run_partial (SortBySecond.insertion (List Nat) ℝ)
    (Real.sqrt (100 : ℕ)) 2 2 (by decide) (planeRows fiveAround) (by
      intro p hp
      obtain ⟨q, -, rfl⟩ := List.mem_map.1 hp
      rfl) ⟨0, 2, by decide, by decide, by
        rw [rowDist_plane fiveAround 0 2 (by decide) (by decide)]
        exact sqrt_nat_strictMono (by decide)⟩
  rw [h1] at h3
  cases h3
  have hm : (1, Real.sqrt (8 : ℕ), Real.sqrt (9 : ℕ)) ∈ lines :=
    (List.mem_filter.1 (by rw [h2]; simp : (1, Real.sqrt (8 : ℕ), Real.sqrt (9 : ℕ)) ∈
      lines.filter (fun l => l.1 = 1))).1
  exact h4.each _ hm le_rfl _ le_rfl (sqrt_nat_strictMono (by decide))

end LHF
