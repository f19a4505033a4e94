import Verif.Props.RealBars

/-! C136: a complete barcode in which no bar begins during another one and outlasts it is the persistence
barcode of the points. -/

namespace LHF
open Spec

/-- No bar of dimension `k` begins after the beginning of another one, not after its end, and ends after
it. -/
def Spec.NoCrossing (k : Nat) (lines : List (Line ℝ)) : Prop :=
  ∀ l ∈ lines, ∀ l' ∈ lines, l.1 = k → l'.1 = k → ¬ (l.2.1 < l'.2.1 ∧ l'.2.1 ≤ l.2.2 ∧ l.2.2 < l'.2.2)

/-- The bars of dimension `k` are the persistence barcode of dimension `k`: whatever two scales `s ≤ t` one
takes in range, the bars across both are as many as the classes that live from `s` to `t`. -/
def Spec.TrueBars (n : Nat) (d : Nat → Nat → ℝ) (inRange : ℝ → Prop) (k : Nat)
    (lines : List (Line ℝ)) : Prop :=
  ∀ s t, 0 ≤ s → s ≤ t → inRange t →
    (lines.filter (fun l => l.1 = k ∧ l.2.1 ≤ s ∧ t < l.2.2)).length = ripsPersistent n d k s t

theorem ripsChains_mono (n : Nat) (d : Nat → Nat → ℝ) (k : Nat) {s t : ℝ} (h : s ≤ t) :
    ripsChains n d k s ≤ ripsChains n d k t := by
  apply Submodule.span_mono
  rintro x ⟨v, hv, ⟨h1, h2, h3, h4⟩, rfl⟩
  exact ⟨v, hv, ⟨h1, h2, h3, fun a ha b hb hab => le_trans (h4 a ha b hb hab) h⟩, rfl⟩

/-- Classes that live from `s` to `t` are there at each scale between. -/
theorem persistent_le_betti (n : Nat) (d : Nat → Nat → ℝ) (k : Nat) {s u t : ℝ} (h1 : s ≤ u) (h2 : u ≤ t) :
    ripsPersistent n d k s t ≤ ripsBetti n d k u := by
  have f1 := finite_ripsChains n d k u
  have f2 : FiniteDimensional (ZMod 2) ↥(ripsChains n d k u ⊓ LinearMap.ker boundary) :=
    Submodule.finiteDimensional_inf_left _ _
  unfold ripsPersistent ripsBetti
  set Bu := (ripsChains n d (k + 1) u).map boundary with hBu
  set Bt := (ripsChains n d (k + 1) t).map boundary with hBt
  have hB : Bu ≤ Bt := Submodule.map_mono (ripsChains_mono n d (k + 1) h2)
  have e : (ripsChains n d k u ⊓ LinearMap.ker boundary).map Bt.mkQ =
      ((ripsChains n d k u ⊓ LinearMap.ker boundary).map Bu.mkQ).map (Submodule.factor hB) := by
    rw [← Submodule.map_comp]
    congr 1
  have hle : (ripsChains n d k s ⊓ LinearMap.ker boundary).map Bt.mkQ ≤
      (ripsChains n d k u ⊓ LinearMap.ker boundary).map Bt.mkQ :=
    Submodule.map_mono (inf_le_inf_right _ (ripsChains_mono n d k h1))
  refine (Submodule.finrank_mono hle).trans ?_
  rw [e]
  exact Submodule.finrank_map_le _ _

/-- A scale between `s` and `t` at which all bars of dimension `k` are across `s` and `t`. -/
theorem clear_scale {k : Nat} {lines : List (Line ℝ)} (hN : NoCrossing k lines) {s t : ℝ} (hst : s ≤ t) :
    ∃ u, s ≤ u ∧ u ≤ t ∧ ∀ l ∈ lines, l.1 = k → l.2.1 ≤ u → u < l.2.2 → l.2.1 ≤ s ∧ t < l.2.2 := by
  let L := lines.filter (fun l => l.1 = k ∧ l.2.1 ≤ s ∧ s < l.2.2 ∧ l.2.2 ≤ t)
  have hL : ∀ l, l ∈ L ↔ l ∈ lines ∧ l.1 = k ∧ l.2.1 ≤ s ∧ s < l.2.2 ∧ l.2.2 ≤ t := by
    intro l
    simp [L, List.mem_filter]
  by_cases hne : L = []
  · refine ⟨s, le_refl _, hst, fun l hl hk h1 h2 => ⟨h1, ?_⟩⟩
    by_contra h3
    have := (hL l).2 ⟨hl, hk, h1, h2, not_lt.1 h3⟩
    rw [hne] at this
    simp at this
  · obtain ⟨m, hm, hmax⟩ : ∃ m ∈ L, ∀ l ∈ L, l.2.2 ≤ m.2.2 := by
      obtain ⟨x, hx⟩ := List.exists_mem_of_ne_nil L hne
      obtain ⟨m, hm, h⟩ := L.toFinset.exists_max_image (fun l => l.2.2) ⟨x, by simpa using hx⟩
      exact ⟨m, by simpa using hm, fun l hl => h l (by simpa using hl)⟩
    obtain ⟨m1, m2, m3, m4, m5⟩ := (hL m).1 hm
    refine ⟨m.2.2, m4.le, m5, fun l hl hk h1 h2 => ?_⟩
    have h3 : l.2.1 ≤ s := by
      by_contra h3
      exact hN m m1 l hl m2 hk ⟨lt_of_le_of_lt m3 (not_le.1 h3), h1, h2⟩
    refine ⟨h3, ?_⟩
    by_contra h4
    have := hmax l ((hL l).2 ⟨hl, hk, h3, m4.trans h2, not_lt.1 h4⟩)
    exact absurd h2 (not_lt.2 this)

theorem true_of_complete {n : Nat} {d : Nat → Nat → ℝ} {inRange : ℝ → Prop}
    (hP : ∀ s t, s ≤ t → inRange t → inRange s) {R eps : ℝ} {dim : Nat} {lines : List (Line ℝ)}
    (hC : CompleteBarcode n d inRange R eps dim lines) (hR : RealBars n d inRange dim lines)
    {k : Nat} (h1 : 1 ≤ k) (hk : k < dim) (hN : NoCrossing k lines) : TrueBars n d inRange k lines := by
  intro s t h0 hst ht
  refine le_antisymm (hR.across k s t h1 hk h0 hst ht) ?_
  obtain ⟨u, hu1, hu2, hu⟩ := clear_scale hN hst
  refine (persistent_le_betti n d k hu1 hu2).trans ?_
  rw [hC.higher k h1 hk u (h0.trans hu1) (hP _ _ hu2 ht)]
  rw [← List.countP_eq_length_filter, ← List.countP_eq_length_filter]
  apply List.countP_mono_left
  intro l hl h
  simp only [decide_eq_true_eq] at h ⊢
  exact ⟨h.1, hu l hl h.1 h.2.1 h.2.2⟩

/-- With at most one bar of dimension `k` no bars cross. -/
theorem noCrossing_single {k : Nat} {lines : List (Line ℝ)}
    (h : (lines.filter (fun l => l.1 = k)).length ≤ 1) : NoCrossing k lines := by
  intro l hl l' hl' hk hk' hc
  have m : l ∈ lines.filter (fun l => l.1 = k) := List.mem_filter.2 ⟨hl, by simpa using hk⟩
  have m' : l' ∈ lines.filter (fun l => l.1 = k) := List.mem_filter.2 ⟨hl', by simpa using hk'⟩
  have e : l = l' := by
    match hL : lines.filter (fun l => l.1 = k) with
    | [] => rw [hL] at m; simp at m
    | [x] =>
      rw [hL, List.mem_singleton] at m m'
      rw [m, m']
    | _ :: _ :: _ => rw [hL] at h; simp at h
  subst e
  exact lt_irrefl _ hc.1

/-- C136, the run of the default pipeline (partial: the reading past the end finds no pivot). -/
theorem C136_true_run_partial (sort : SortBySecond (List Nat) ℝ) (eps : ℝ) (dim : Nat)
    (k : Nat) (hk : 0 < k) (data : List (List ℝ)) (hdim : ∀ p ∈ data, p.length = k)
    (h2 : 2 ≤ data.length) (R : ℝ) (hw : Within k data R) (hR : R < eps) :
    ∃ lines table, treeRun vectorsDistance sort .noPivot eps dim data = .ok (lines, table) ∧
      ∀ q, 1 ≤ q → q < dim → NoCrossing q lines →
        TrueBars data.length (rowDist k data) (· < eps) q lines := by
  have hP : ∀ s t : ℝ, s ≤ t → t < eps → s < eps := fun s t h h' => lt_of_le_of_lt h h'
  obtain ⟨lines, T, h3, h4⟩ := C70_tree_run_partial sort eps dim k hk data hdim
    (within_edge (P := (· < eps)) hw h2 hP hR)
  exact ⟨lines, T, h3, fun q h1 hq hN => true_of_complete (inRange := (· < eps)) hP
    (complete_of_within hw hR hP h4) (real_of_describes hP h4) h1 hq hN⟩

/-- C136, the whole program with a `simplexTree` (partial: the reading past the end finds no pivot). -/
theorem C136_true_program_partial (sys : System ℝ ℝ) (hdist : sys.lib.dist = vectorsDistance)
    (hread : sys.lib.mode = .noPivot) (pairs : List (String × String)) (m : ArgMap) (f : String)
    (data : List (List ℝ)) (h : PlainCommand sys pairs m "simplexTree" f data)
    (k : Nat) (hk : 0 < k) (hdim : ∀ p ∈ data, p.length = k) (h2 : 2 ≤ data.length)
    (R : ℝ) (hw : Within k data R) (hR : R < sys.atof (m.val "epsilon")) :
    ∃ w lines, mainProgram sys (commandLine pairs) = .ok w ∧ WritesBarcode sys.io f lines w ∧
      ∀ q, 1 ≤ q → q < sys.atoi (m.val "dimensions") → NoCrossing q lines →
        TrueBars data.length (rowDist k data) (· < sys.atof (m.val "epsilon")) q lines := by
  have hP : ∀ s t : ℝ, s ≤ t → t < sys.atof (m.val "epsilon") → s < sys.atof (m.val "epsilon") :=
    fun s t h h' => lt_of_le_of_lt h h'
  obtain ⟨w, lines, h3, h4, h5⟩ := C85_standard_program_partial sys hdist hread pairs m f data h k hk hdim
    (within_edge (P := (· < sys.atof (m.val "epsilon"))) hw h2 hP hR)
  exact ⟨w, lines, h3, h4, fun q h1 hq hN => true_of_complete
    (inRange := (· < sys.atof (m.val "epsilon"))) hP
    (complete_of_within hw hR hP h5) (real_of_describes hP h5) h1 hq hN⟩

/-- C136: as the code is written, the only other outcome of the program is that it reads past the end. -/
theorem C136_true_program_or_undefined (sys : System ℝ ℝ) (hdist : sys.lib.dist = vectorsDistance)
    (hread : sys.lib.mode = .undefined) (pairs : List (String × String)) (m : ArgMap) (f : String)
    (data : List (List ℝ)) (h : PlainCommand sys pairs m "simplexTree" f data)
    (k : Nat) (hk : 0 < k) (hdim : ∀ p ∈ data, p.length = k) (h2 : 2 ≤ data.length)
    (R : ℝ) (hw : Within k data R) (hR : R < sys.atof (m.val "epsilon")) :
    mainProgram sys (commandLine pairs) = .error .endDeref ∨
    ∃ w lines, mainProgram sys (commandLine pairs) = .ok w ∧ WritesBarcode sys.io f lines w ∧
      ∀ q, 1 ≤ q → q < sys.atoi (m.val "dimensions") → NoCrossing q lines →
        TrueBars data.length (rowDist k data) (· < sys.atof (m.val "epsilon")) q lines := by
  have hP : ∀ s t : ℝ, s ≤ t → t < sys.atof (m.val "epsilon") → s < sys.atof (m.val "epsilon") :=
    fun s t h h' => lt_of_le_of_lt h h'
  rcases C85_standard_program_or_undefined sys hdist hread pairs m f data h k hk hdim
    (within_edge (P := (· < sys.atof (m.val "epsilon"))) hw h2 hP hR) with h3 | ⟨w, lines, h3, h4, h5⟩
  · exact Or.inl h3
  · exact Or.inr ⟨w, lines, h3, h4, fun q h1 hq hN => true_of_complete
      (inRange := (· < sys.atof (m.val "epsilon"))) hP
      (complete_of_within hw hR hP h5) (real_of_describes hP h5) h1 hq hN⟩

/-- C136, the complex type `simplexArrayList` (partial: `dimensions` is positive and the reading past the
end finds no pivot): the radius may be equal to `epsilon`. -/
theorem C136_true_program_array_partial (sys : System ℝ ℝ) (hdist : sys.lib.dist = vectorsDistance)
    (hread : sys.lib.mode = .noPivot) (pairs : List (String × String)) (m : ArgMap) (f : String)
    (data : List (List ℝ)) (h : PlainCommand sys pairs m "simplexArrayList" f data)
    (hcol : m.val "collapse" ≠ "true" ∧ m.val "collapse" ≠ "1")
    (hd : 0 < sys.atoi (m.val "dimensions"))
    (k : Nat) (hk : 0 < k) (hdim : ∀ p ∈ data, p.length = k) (h2 : 2 ≤ data.length)
    (R : ℝ) (hw : Within k data R) (hR : R ≤ sys.atof (m.val "epsilon")) :
    ∃ w lines, mainProgram sys (commandLine pairs) = .ok w ∧ WritesBarcode sys.io f lines w ∧
      ∀ q, 1 ≤ q → q < sys.atoi (m.val "dimensions") → NoCrossing q lines →
        TrueBars data.length (rowDist k data) (· ≤ sys.atof (m.val "epsilon")) q lines := by
  have hP : ∀ s t : ℝ, s ≤ t → t ≤ sys.atof (m.val "epsilon") → s ≤ sys.atof (m.val "epsilon") :=
    fun s t h h' => le_trans h h'
  obtain ⟨w, lines, h3, h4, h5⟩ := C85_standard_program_array_partial sys hdist hread pairs m f data h hcol
    hd k hk hdim (within_edge (P := (· ≤ sys.atof (m.val "epsilon"))) hw h2 hP hR)
  exact ⟨w, lines, h3, h4, fun q h1 hq hN => true_of_complete
    (inRange := (· ≤ sys.atof (m.val "epsilon"))) hP
    (complete_of_within hw hR hP h5) (real_of_describes hP h5) h1 hq hN⟩

/-- C136, the complex type `indSimplexTree` (partial: `dimensions` is at most 2 or no four points are
pairwise close, the collapse is off and the reading past the end finds no pivot). -/
theorem C136_true_program_indexed_partial (sys : System ℝ ℝ) (hdist : sys.lib.dist = vectorsDistance)
    (hread : sys.lib.mode = .noPivot) (pairs : List (String × String)) (m : ArgMap) (f : String)
    (data : List (List ℝ)) (h : PlainCommand sys pairs m "indSimplexTree" f data)
    (hcol : m.val "collapse" ≠ "true" ∧ m.val "collapse" ≠ "1")
    (k : Nat) (hk : 0 < k) (hdim : ∀ p ∈ data, p.length = k)
    (hsmall : sys.atoi (m.val "dimensions") ≤ 2 ∨ ¬ ∃ s, IsSimplex data.length
      (fun i j => rowDist k data i j < sys.atof (m.val "epsilon")) s ∧ s.length = 4)
    (h2 : 2 ≤ data.length) (R : ℝ) (hw : Within k data R) (hR : R < sys.atof (m.val "epsilon")) :
    ∃ w lines, mainProgram sys (commandLine pairs) = .ok w ∧ WritesBarcode sys.io f lines w ∧
      ∀ q, 1 ≤ q → q < sys.atoi (m.val "dimensions") → NoCrossing q lines →
        TrueBars data.length (rowDist k data) (· < sys.atof (m.val "epsilon")) q lines := by
  have hP : ∀ s t : ℝ, s ≤ t → t < sys.atof (m.val "epsilon") → s < sys.atof (m.val "epsilon") :=
    fun s t h h' => lt_of_le_of_lt h h'
  obtain ⟨w, lines, h3, h4, h5⟩ := C92_indexed_program_partial sys hdist hread pairs m f data h hcol k hk
    hdim hsmall (within_edge (P := (· < sys.atof (m.val "epsilon"))) hw h2 hP hR)
  exact ⟨w, lines, h3, h4, fun q h1 hq hN => true_of_complete
    (inRange := (· < sys.atof (m.val "epsilon"))) hP
    (complete_of_within hw hR hP h5) (real_of_describes hP h5) h1 hq hN⟩

/-- C136 does not extend to bars that touch: the two bars of the five points around a hole, one of which
begins where the other ends, are not the persistence barcode. -/
theorem C136_touching_bars_violated (mode : EndRead) (hm : mode ≠ .undefined) : ∃ lines T,
    treeRun vectorsDistance (SortBySecond.insertion (List Nat) ℝ) mode (Real.sqrt (100 : ℕ)) 2
      (planeRows fiveAround) = .ok (lines, T) ∧
    lines.filter (fun l => l.1 = 1) = [(1, Real.sqrt (5 : ℕ), Real.sqrt (8 : ℕ)),
      (1, Real.sqrt (8 : ℕ), Real.sqrt (9 : ℕ))] ∧
    ¬ TrueBars 5 (rowDist 2 (planeRows fiveAround)) (· < Real.sqrt (100 : ℕ)) 1 lines := by
  obtain ⟨lines, T, h1, h2, h3, h4⟩ := C134_split_bar_violated mode hm
  refine ⟨lines, T, h1, h2, fun hT => ?_⟩
  have := hT (Real.sqrt (5 : ℕ)) (Real.sqrt (8 : ℕ)) (Real.sqrt_nonneg _)
    (sqrt_nat_strictMono.monotone (by decide)) (sqrt_nat_strictMono (by decide))
  omega

/-- C136 at the corners of a square: the one bar of dimension 1, `[1, √2)`, is the persistence barcode of
dimension 1; no class lives from a scale below 1 to another, and none is there at √2. -/
example : ∃ lines T, treeRun vectorsDistance (SortBySecond.insertion (List Nat) ℝ) .noPivot
      (Real.sqrt (100 : ℕ)) 2 (planeRows unitSquare) = .ok (lines, T) ∧
    lines.filter (fun l => l.1 = 1) = [(1, Real.sqrt (1 : ℕ), Real.sqrt (2 : ℕ))] ∧
    NoCrossing 1 lines ∧
    TrueBars 4 (rowDist 2 (planeRows unitSquare)) (· < Real.sqrt (100 : ℕ)) 1 lines := by
  obtain ⟨T, r⟩ : ∃ T, planeRunAt .noPivot 100 2 unitSquare =
      .ok ([(0, 0, 1), (0, 0, 1), (0, 0, 1), (0, 0, 100), (1, 1, 2)], T) := ok_of_toOption (by decide +kernel)
  have e := (plane_run_at .noPivot 100 2 unitSquare).trans (congrArg _ r)
  obtain ⟨lines, T', h1, h2⟩ := C136_true_run_partial (SortBySecond.insertion (List Nat) ℝ)
    (Real.sqrt (100 : ℕ)) 2 2 (by decide) (planeRows unitSquare) (by
      intro p hp
      obtain ⟨q, -, rfl⟩ := List.mem_map.1 hp
      rfl) (by decide) (Real.sqrt (2 : ℕ)) square_within (sqrt_nat_strictMono (by decide))
  have h1' := h1
  rw [e] at h1
  cases h1
  have hf : List.filter (fun l : Line ℝ => l.1 = 1) (List.map (mapL (fun n : ℕ => Real.sqrt (n : ℝ)))
      [((0 : Nat), (0 : Nat), (1 : Nat)), (0, 0, 1), (0, 0, 1), (0, 0, 100), (1, 1, 2)]) =
      [(1, Real.sqrt (1 : ℕ), Real.sqrt (2 : ℕ))] := by simp [mapL]
  have hN : NoCrossing 1 (List.map (mapL (fun n : ℕ => Real.sqrt (n : ℝ)))
      [((0 : Nat), (0 : Nat), (1 : Nat)), (0, 0, 1), (0, 0, 1), (0, 0, 100), (1, 1, 2)]) :=
    noCrossing_single (by rw [hf]; simp)
  exact ⟨_, _, h1', hf, hN, h2 1 le_rfl (by decide) hN⟩

end LHF
