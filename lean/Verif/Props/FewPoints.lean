import Verif.Lemmas.Few
import Verif.Props.Complete
import Verif.Props.ArrayTruncation

/-! C133: a class of dimension `k` needs `2 * k + 2` points. -/

namespace LHF
open Spec

/-- What the number of points says about a barcode: a line of dimension `k ≥ 1` is there only if there
are at least `2 * k + 2` points. -/
def Spec.EnoughPoints (n : Nat) (lines : List (Line ℝ)) : Prop :=
  ∀ l ∈ lines, l.1 = 0 ∨ 2 * l.1 + 2 ≤ n

theorem enough_of_describes {n : Nat} {d : Nat → Nat → ℝ} {inRange : ℝ → Prop}
    (hP : ∀ s t, s ≤ t → inRange t → inRange s) {eps : ℝ} {dim : Nat} {lines : List (Line ℝ)}
    (hD : DescribesRips n d inRange eps dim lines) : EnoughPoints n lines := by
  intro l hl
  by_contra hc
  rw [not_or] at hc
  obtain ⟨h0, h1⟩ := hc
  obtain ⟨b1, b2, b3⟩ := hD.bars l hl (by omega)
  obtain ⟨op, -, h2⟩ := hD.higher l.1 (by omega) ((hD.only l hl).resolve_left h0)
  have h3 := h2 l.2.1 b1 (hP _ _ b2.le b3)
  rw [ripsBetti_few (by omega)] at h3
  have h5 := List.filter_eq_nil_iff.1 (List.length_eq_zero_iff.1 (Nat.add_eq_zero_iff.1 h3.symm).1)
  exact h5 l hl (by simpa using b2)

/-- C133, the run of the default pipeline (partial: the reading past the end finds no pivot). -/
theorem C133_few_run_partial (sort : SortBySecond (List Nat) ℝ) (eps : ℝ) (dim : Nat)
    (k : Nat) (hk : 0 < k) (data : List (List ℝ)) (hdim : ∀ p ∈ data, p.length = k)
    (hedge : ∃ i j, i < j ∧ j < data.length ∧ rowDist k data i j < eps) :
    ∃ lines table, treeRun vectorsDistance sort .noPivot eps dim data = .ok (lines, table) ∧
      EnoughPoints data.length lines := by
  obtain ⟨lines, T, h1, h2⟩ := C70_tree_run_partial sort eps dim k hk data hdim hedge
  exact ⟨lines, T, h1, enough_of_describes (fun s t h h' => lt_of_le_of_lt h h') h2⟩

/-- C133, the whole program with a `simplexTree` (partial: the reading past the end finds no pivot). -/
theorem C133_few_program_partial (sys : System ℝ ℝ) (hdist : sys.lib.dist = vectorsDistance)
    (hread : sys.lib.mode = .noPivot) (pairs : List (String × String)) (m : ArgMap) (f : String)
    (data : List (List ℝ)) (h : PlainCommand sys pairs m "simplexTree" f data)
    (k : Nat) (hk : 0 < k) (hdim : ∀ p ∈ data, p.length = k)
    (hedge : ∃ i j, i < j ∧ j < data.length ∧ rowDist k data i j < sys.atof (m.val "epsilon")) :
    ∃ w lines, mainProgram sys (commandLine pairs) = .ok w ∧ WritesBarcode sys.io f lines w ∧
      EnoughPoints data.length lines := by
  obtain ⟨w, lines, h1, h2, h3⟩ := C85_standard_program_partial sys hdist hread pairs m f data h k hk hdim hedge
  exact ⟨w, lines, h1, h2, enough_of_describes (fun s t h h' => lt_of_le_of_lt h h') h3⟩

/-- C133: as the code is written, the only other outcome of the program is that it reads past the end. -/
theorem C133_few_program_or_undefined (sys : System ℝ ℝ) (hdist : sys.lib.dist = vectorsDistance)
    (hread : sys.lib.mode = .undefined) (pairs : List (String × String)) (m : ArgMap) (f : String)
    (data : List (List ℝ)) (h : PlainCommand sys pairs m "simplexTree" f data)
    (k : Nat) (hk : 0 < k) (hdim : ∀ p ∈ data, p.length = k)
    (hedge : ∃ i j, i < j ∧ j < data.length ∧ rowDist k data i j < sys.atof (m.val "epsilon")) :
    mainProgram sys (commandLine pairs) = .error .endDeref ∨
    ∃ w lines, mainProgram sys (commandLine pairs) = .ok w ∧ WritesBarcode sys.io f lines w ∧
      EnoughPoints data.length lines := by
  rcases C85_standard_program_or_undefined sys hdist hread pairs m f data h k hk hdim hedge with
    h1 | ⟨w, lines, h1, h2, h3⟩
  · exact Or.inl h1
  · exact Or.inr ⟨w, lines, h1, h2, enough_of_describes (fun s t h h' => lt_of_le_of_lt h h') h3⟩

/-- C133, the complex type `simplexArrayList` (partial: `dimensions` is positive and the reading past the
end finds no pivot). -/
theorem C133_few_program_array_partial (sys : System ℝ ℝ) (hdist : sys.lib.dist = vectorsDistance)
    (hread : sys.lib.mode = .noPivot) (pairs : List (String × String)) (m : ArgMap) (f : String)
    (data : List (List ℝ)) (h : PlainCommand sys pairs m "simplexArrayList" f data)
    (hcol : m.val "collapse" ≠ "true" ∧ m.val "collapse" ≠ "1")
    (hd : 0 < sys.atoi (m.val "dimensions"))
    (k : Nat) (hk : 0 < k) (hdim : ∀ p ∈ data, p.length = k)
    (hedge : ∃ i j, i < j ∧ j < data.length ∧ rowDist k data i j ≤ sys.atof (m.val "epsilon")) :
    ∃ w lines, mainProgram sys (commandLine pairs) = .ok w ∧ WritesBarcode sys.io f lines w ∧
      EnoughPoints data.length lines := by
  obtain ⟨w, lines, h1, h2, h3⟩ := C85_standard_program_array_partial sys hdist hread pairs m f data h hcol
    hd k hk hdim hedge
  exact ⟨w, lines, h1, h2, enough_of_describes (fun s t h h' => le_trans h h') h3⟩

/-- C133, the complex type `indSimplexTree` (partial: at most 2 dimensions, or no four points within
`epsilon` of each other; the reading past the end finds no pivot). -/
theorem C133_few_program_indexed_partial (sys : System ℝ ℝ) (hdist : sys.lib.dist = vectorsDistance)
    (hread : sys.lib.mode = .noPivot) (pairs : List (String × String)) (m : ArgMap) (f : String)
    (data : List (List ℝ)) (h : PlainCommand sys pairs m "indSimplexTree" f data)
    (hcol : m.val "collapse" ≠ "true" ∧ m.val "collapse" ≠ "1")
    (k : Nat) (hk : 0 < k) (hdim : ∀ p ∈ data, p.length = k)
    (hsmall : sys.atoi (m.val "dimensions") ≤ 2 ∨ ¬ ∃ s, IsSimplex data.length
      (fun i j => rowDist k data i j < sys.atof (m.val "epsilon")) s ∧ s.length = 4)
    (hedge : ∃ i j, i < j ∧ j < data.length ∧ rowDist k data i j < sys.atof (m.val "epsilon")) :
    ∃ w lines, mainProgram sys (commandLine pairs) = .ok w ∧ WritesBarcode sys.io f lines w ∧
      EnoughPoints data.length lines := by
  obtain ⟨w, lines, h1, h2, h3⟩ := C92_indexed_program_partial sys hdist hread pairs m f data h hcol k hk hdim
    hsmall hedge
  exact ⟨w, lines, h1, h2, enough_of_describes (fun s t h h' => lt_of_le_of_lt h h') h3⟩

/-! ### Raising `dimensions` beyond half the number of points -/

/-- C133, the runs (partial: the reading past the end finds no pivot): once `dimensions` is half the number
of points, a larger value gives the same lines. -/
theorem C133_enough_dimensions_partial (sort : SortBySecond (List Nat) ℝ) (eps : ℝ) {dim dim' : Nat}
    (k : Nat) (hk : 0 < k) (data : List (List ℝ)) (hdim : ∀ p ∈ data, p.length = k)
    (hedge : ∃ i j, i < j ∧ j < data.length ∧ rowDist k data i j < eps)
    (hd' : data.length < 2 * dim' + 2) (hdd : dim' ≤ dim) :
    ∃ lines T T', treeRun vectorsDistance sort .noPivot eps dim' data = .ok (lines, T') ∧
      treeRun vectorsDistance sort .noPivot eps dim data = .ok (lines, T) := by
  obtain ⟨lines, more, T, T', h1, h2, h3⟩ := C100_dimensions_partial sort eps hdd k hk data hdim hedge
  obtain ⟨_, _, h4, h5⟩ := C133_few_run_partial sort eps dim k hk data hdim hedge
  rw [h2] at h4
  cases h4
  have : more = [] := by
    rw [List.eq_nil_iff_forall_not_mem]
    intro l hl
    have := h3 l hl
    have := h5 l (by simp [hl])
    omega
  rw [this, List.append_nil] at h2
  exact ⟨lines, T, T', h1, h2⟩

/-- C133, the whole program (partial: the reading past the end finds no pivot): two command lines with the
same `epsilon` on the same file, whose `dimensions` are both at least half the number of rows, write the
same barcode. -/
theorem C133_enough_program_partial (sys : System ℝ ℝ) (hdist : sys.lib.dist = vectorsDistance)
    (hread : sys.lib.mode = .noPivot) (pairs pairs' : List (String × String)) (m m' : ArgMap) (f f' : String)
    (data : List (List ℝ)) (h : PlainCommand sys pairs m "simplexTree" f data)
    (h' : PlainCommand sys pairs' m' "simplexTree" f' data)
    (heps : sys.atof (m'.val "epsilon") = sys.atof (m.val "epsilon"))
    (hd : data.length < 2 * sys.atoi (m.val "dimensions") + 2)
    (hd' : data.length < 2 * sys.atoi (m'.val "dimensions") + 2)
    (k : Nat) (hk : 0 < k) (hdim : ∀ p ∈ data, p.length = k)
    (hedge : ∃ i j, i < j ∧ j < data.length ∧ rowDist k data i j < sys.atof (m.val "epsilon")) :
    ∃ w w' lines, mainProgram sys (commandLine pairs) = .ok w ∧ mainProgram sys (commandLine pairs') = .ok w' ∧
      WritesBarcode sys.io f lines w ∧ WritesBarcode sys.io f' lines w' := by
  have runs : ∃ lines T T', treeRun vectorsDistance sys.lib.sort .noPivot (sys.atof (m'.val "epsilon"))
      (sys.atoi (m'.val "dimensions")) data = .ok (lines, T') ∧
      treeRun vectorsDistance sys.lib.sort .noPivot (sys.atof (m.val "epsilon"))
      (sys.atoi (m.val "dimensions")) data = .ok (lines, T) := by
    rw [heps]
    rcases le_total (sys.atoi (m'.val "dimensions")) (sys.atoi (m.val "dimensions")) with hle | hle
    · exact C133_enough_dimensions_partial sys.lib.sort _ k hk data hdim hedge hd' hle
    · obtain ⟨lines, T, T', h1, h2⟩ := C133_enough_dimensions_partial sys.lib.sort _ k hk data hdim hedge hd hle
      exact ⟨lines, T', T, h2, h1⟩
  obtain ⟨lines, T, T', h1, h2⟩ := runs
  rw [← hread] at h1 h2
  obtain ⟨w, h3, h4⟩ := (main_tree sys hdist pairs m f data h).of_ok h2
  obtain ⟨w', h5, h6⟩ := (main_tree sys hdist pairs' m' f' data h').of_ok h1
  exact ⟨w, w', lines, h3, h5, h4, h6⟩

/-- C133 with a `simplexArrayList` (partial: the reading past the end finds no pivot). -/
theorem C133_enough_program_array_partial (sys : System ℝ ℝ) (hdist : sys.lib.dist = vectorsDistance)
    (hread : sys.lib.mode = .noPivot) (pairs pairs' : List (String × String)) (m m' : ArgMap) (f f' : String)
    (data : List (List ℝ)) (h : PlainCommand sys pairs m "simplexArrayList" f data)
    (h' : PlainCommand sys pairs' m' "simplexArrayList" f' data)
    (hcol : m.val "collapse" ≠ "true" ∧ m.val "collapse" ≠ "1")
    (hcol' : m'.val "collapse" ≠ "true" ∧ m'.val "collapse" ≠ "1")
    (heps : sys.atof (m'.val "epsilon") = sys.atof (m.val "epsilon"))
    (hd : data.length < 2 * sys.atoi (m.val "dimensions") + 2)
    (hd' : data.length < 2 * sys.atoi (m'.val "dimensions") + 2)
    (k : Nat) (hk : 0 < k) (hdim : ∀ p ∈ data, p.length = k)
    (hedge : ∃ i j, i < j ∧ j < data.length ∧ rowDist k data i j ≤ sys.atof (m.val "epsilon")) :
    ∃ w w' lines, mainProgram sys (commandLine pairs) = .ok w ∧ mainProgram sys (commandLine pairs') = .ok w' ∧
      WritesBarcode sys.io f lines w ∧ WritesBarcode sys.io f' lines w' := by
  have hn : 2 ≤ data.length := by obtain ⟨i, j, h1, h2, -⟩ := hedge; omega
  have one : ∀ dim dim', data.length < 2 * dim' + 2 → dim' ≤ dim → ∃ lines T T',
      arrayRun vectorsDistance sys.lib.sort .noPivot (sys.atof (m.val "epsilon")) dim' data = .ok (lines, T') ∧
      arrayRun vectorsDistance sys.lib.sort .noPivot (sys.atof (m.val "epsilon")) dim data = .ok (lines, T) := by
    intro dim dim' h1 h2
    obtain ⟨lines, more, T, T', h3, h4, h5⟩ := C100_dimensions_array_partial sys.lib.sort
      (sys.atof (m.val "epsilon")) (by omega) h2 k hk data hdim hedge
    obtain ⟨_, _, h6, h7⟩ := C71_array_run_partial sys.lib.sort (sys.atof (m.val "epsilon")) dim (by omega)
      k hk data hdim hedge
    rw [h4] at h6
    cases h6
    have h8 := enough_of_describes (inRange := (· ≤ sys.atof (m.val "epsilon"))) (fun s t h h' => le_trans h h') h7
    have : more = [] := by
      rw [List.eq_nil_iff_forall_not_mem]
      intro l hl
      have := h5 l hl
      have := h8 l (by simp [hl])
      omega
    rw [this, List.append_nil] at h4
    exact ⟨lines, T, T', h3, h4⟩
  have runs : ∃ lines T T', arrayRun vectorsDistance sys.lib.sort .noPivot (sys.atof (m'.val "epsilon"))
      (sys.atoi (m'.val "dimensions")) data = .ok (lines, T') ∧
      arrayRun vectorsDistance sys.lib.sort .noPivot (sys.atof (m.val "epsilon"))
      (sys.atoi (m.val "dimensions")) data = .ok (lines, T) := by
    rw [heps]
    rcases le_total (sys.atoi (m'.val "dimensions")) (sys.atoi (m.val "dimensions")) with hle | hle
    · exact one _ _ hd' hle
    · obtain ⟨lines, T, T', h1, h2⟩ := one _ _ hd hle
      exact ⟨lines, T', T, h2, h1⟩
  obtain ⟨lines, T, T', h1, h2⟩ := runs
  rw [← hread] at h1 h2
  obtain ⟨w, h3, h4⟩ := (main_array sys hdist pairs m f data h hcol (by omega) k hk hdim).of_ok h2
  obtain ⟨w', h5, h6⟩ := (main_array sys hdist pairs' m' f' data h' hcol' (by omega) k hk hdim).of_ok h1
  exact ⟨w, w', lines, h3, h5, h4, h6⟩

/-! ### Cases -/

/-- The bound is sharp: the four corners of a square have a line of dimension 1, and four points are
`2 * 1 + 2`. -/
example : ∃ lines T, treeRun vectorsDistance (SortBySecond.insertion (List Nat) ℝ) .noPivot
      (Real.sqrt (100 : ℕ)) 2 (planeRows unitSquare) = .ok (lines, T) ∧
    EnoughPoints 4 lines ∧ ∃ l ∈ lines, l.1 = 1 ∧ 2 * l.1 + 2 = 4 := by
  obtain ⟨T, r⟩ : ∃ T, planeRunAt .noPivot 100 2 unitSquare =
      .ok ([(0, 0, 1), (0, 0, 1), (0, 0, 1), (0, 0, 100), (1, 1, 2)], T) := ok_of_toOption (by decide +kernel)
  have e := (plane_run_at .noPivot 100 2 unitSquare).trans (congrArg _ r)
  refine ⟨_, _, e, ?_, (1, Real.sqrt (1 : ℕ), Real.sqrt (2 : ℕ)), ?_, rfl, rfl⟩
  · intro l hl
    obtain ⟨l', hl', rfl⟩ := List.mem_map.1 hl
    have : ∀ l' ∈ [((0 : Nat), (0 : Nat), (1 : Nat)), (0, 0, 1), (0, 0, 1), (0, 0, 100), (1, 1, 2)],
        l'.1 = 0 ∨ 2 * l'.1 + 2 ≤ 4 := by decide
    exact this l' hl'
  · exact List.mem_map.2 ⟨(1, 1, 2), by simp, rfl⟩

/-- Two command lines that meet the hypotheses: 5 rows, and `dimensions` 2 and 7. -/
example : ∃ m m', PlainCommand (realSystem [] [] "00\n03\n04\n02\n09")
      [("-i", "data.csv"), ("-o", "bars"), ("-d", "2")] m "simplexTree" "bars"
      [[((0 : Nat) : ℝ)], [((3 : Nat) : ℝ)], [((4 : Nat) : ℝ)], [((2 : Nat) : ℝ)], [((9 : Nat) : ℝ)]] ∧
    PlainCommand (realSystem [] [] "00\n03\n04\n02\n09")
      [("-i", "data.csv"), ("-o", "more"), ("-d", "7")] m' "simplexTree" "more"
      [[((0 : Nat) : ℝ)], [((3 : Nat) : ℝ)], [((4 : Nat) : ℝ)], [((2 : Nat) : ℝ)], [((9 : Nat) : ℝ)]] ∧
    m.val "dimensions" = "2" ∧ m'.val "dimensions" = "7" ∧ m.val "epsilon" = m'.val "epsilon" :=
  ⟨_, _, ⟨rfl, by decide, by decide, Or.inl (by decide), by decide, by decide, by decide, by decide,
    by decide, rfl, by simp⟩, ⟨rfl, by decide, by decide, Or.inl (by decide), by decide, by decide, by decide,
    by decide, by decide, rfl, by simp⟩, by decide, by decide, by decide⟩

end LHF
