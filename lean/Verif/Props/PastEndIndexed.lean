import Verif.Props.PastEnd
import Verif.Props.IndexedProgram

/-! C85, C92: the files on which the program with a `simplexArrayList` or an `indSimplexTree` is correct as written,
and those on which it reads past the end of a list. -/

namespace LHF
open Spec

/-- C92 fails, as the code is written, for every input file with three or more rows that are all closer than
`epsilon` to each other, as soon as `dimensions` is 2 or more: the program reads past the end of a list. -/
theorem C92_past_end_violated (sys : System ℝ ℝ) (hdist : sys.lib.dist = vectorsDistance)
    (hread : sys.lib.mode = .undefined) (pairs : List (String × String)) (m : ArgMap) (f : String)
    (data : List (List ℝ)) (h : PlainCommand sys pairs m "indSimplexTree" f data)
    (hcol : m.val "collapse" ≠ "true" ∧ m.val "collapse" ≠ "1")
    (hd : 2 ≤ sys.atoi (m.val "dimensions"))
    (k : Nat) (hk : 0 < k) (hdim : ∀ p ∈ data, p.length = k) (h3 : 3 ≤ data.length)
    (hall : ∀ i j, i < j → j < data.length → rowDist k data i j < sys.atof (m.val "epsilon")) :
    mainProgram sys (commandLine pairs) = .error .endDeref ∨
      (3 ≤ sys.atoi (m.val "dimensions") ∧ mainProgram sys (commandLine pairs) = .error .oob) := by
  by_cases hsmall : sys.atoi (m.val "dimensions") ≤ 2 ∨ ¬ ∃ s, IsSimplex data.length
      (fun i j => rowDist k data i j < sys.atof (m.val "epsilon")) s ∧ s.length = 4
  · obtain ⟨g, h1, -, h4, h5⟩ := main_indexed sys hdist pairs m f data h hcol k hk hdim hsmall
    rw [hread] at h5
    exact Or.inl (h5.error_of (rips_past_end h4 (by omega) (fun _ _ => dist_nonneg) h1 hd
      (sys.atof (m.val "epsilon")) ⟨0, 1, by omega, by omega, hall 0 1 (by omega) (by omega)⟩
      (widest_of_all_near h3 hall) [] []))
  · rw [not_or, not_not] at hsmall
    exact Or.inr ⟨by omega, C92_four_points_violated sys hdist pairs m f data h hcol k hk hdim (by omega) hsmall.2⟩

/-- C92 on an input file in which no three rows are closer than `epsilon` to each other: the program as written is
correct for every number of dimensions. -/
theorem C92_no_triangle (sys : System ℝ ℝ) (hdist : sys.lib.dist = vectorsDistance)
    (pairs : List (String × String)) (m : ArgMap) (f : String)
    (data : List (List ℝ)) (h : PlainCommand sys pairs m "indSimplexTree" f data)
    (hcol : m.val "collapse" ≠ "true" ∧ m.val "collapse" ≠ "1")
    (k : Nat) (hk : 0 < k) (hdim : ∀ p ∈ data, p.length = k)
    (hedge : ∃ i j, i < j ∧ j < data.length ∧ rowDist k data i j < sys.atof (m.val "epsilon"))
    (hno : NoTriangle data.length (fun i j => rowDist k data i j < sys.atof (m.val "epsilon"))) :
    ∃ w lines, mainProgram sys (commandLine pairs) = .ok w ∧ WritesBarcode sys.io f lines w ∧
      (∀ l ∈ lines, l.1 = 0) ∧
      DescribesRips data.length (rowDist k data) (· < sys.atof (m.val "epsilon"))
        (sys.atof (m.val "epsilon")) (sys.atoi (m.val "dimensions")) lines := by
  rcases Nat.lt_or_ge 1 (sys.atoi (m.val "dimensions")) with hd | hd
  · obtain ⟨g, h1, h2, h3, h4⟩ := main_indexed sys hdist pairs m f data h hcol k hk hdim (by
      right
      rintro ⟨s, hs, hl⟩
      match s, hl with
      | [a, b, c, e], _ =>
        have hab : a < b := (List.pairwise_cons.1 hs.2.1).1 b (by simp)
        have hbc : b < c := (List.pairwise_cons.1 (List.pairwise_cons.1 hs.2.1).2).1 c (by simp)
        exact hno a b c hab hbc (hs.2.2.1 c (by simp)) (hs.2.2.2 a (by simp) b (by simp) hab)
          (hs.2.2.2 a (by simp) c (by simp) (by omega)) (hs.2.2.2 b (by simp) c (by simp) hbc))
    obtain ⟨lines, T, h5, h6, h7⟩ := no_triangle_run h3 sys.lib.mode (dim := sys.atoi (m.val "dimensions")) (by omega)
      (by omega) (by omega) (sys.atof (m.val "epsilon")) (fun _ _ => dist_nonneg) h1 h2 hedge hno
      (· < sys.atof (m.val "epsilon")) (fun t ht i j hij => lt_of_le_of_lt hij ht) (fun _ _ hij => hij)
    obtain ⟨w, h8, h9⟩ := h4.of_ok h5
    exact ⟨w, lines, h8, h9, h6, h7⟩
  · exact C92_indexed_program_default sys hdist pairs m f data h hcol hd k hk hdim hedge

/-- C85 on an input file in which no three rows are within `epsilon` of each other, with a `simplexArrayList`: the
program as written is correct for every positive number of dimensions. -/
theorem C85_no_triangle_array (sys : System ℝ ℝ) (hdist : sys.lib.dist = vectorsDistance)
    (pairs : List (String × String)) (m : ArgMap) (f : String)
    (data : List (List ℝ)) (h : PlainCommand sys pairs m "simplexArrayList" f data)
    (hcol : m.val "collapse" ≠ "true" ∧ m.val "collapse" ≠ "1")
    (hd : 0 < sys.atoi (m.val "dimensions"))
    (k : Nat) (hk : 0 < k) (hdim : ∀ p ∈ data, p.length = k)
    (hedge : ∃ i j, i < j ∧ j < data.length ∧ rowDist k data i j ≤ sys.atof (m.val "epsilon"))
    (hno : NoTriangle data.length (fun i j => rowDist k data i j ≤ sys.atof (m.val "epsilon"))) :
    ∃ w lines, mainProgram sys (commandLine pairs) = .ok w ∧ WritesBarcode sys.io f lines w ∧
      (∀ l ∈ lines, l.1 = 0) ∧
      DescribesRips data.length (rowDist k data) (· ≤ sys.atof (m.val "epsilon"))
        (sys.atof (m.val "epsilon")) (sys.atoi (m.val "dimensions")) lines := by
  obtain ⟨lines, T, h1, h2, h3⟩ := C71_no_triangle sys.lib.sort sys.lib.mode (sys.atof (m.val "epsilon"))
    (sys.atoi (m.val "dimensions")) hd k hk data hdim hedge hno
  obtain ⟨w, h4, h5⟩ := (main_array sys hdist pairs m f data h hcol hd k hk hdim).of_ok h1
  exact ⟨w, lines, h4, h5, h2, h3⟩

end LHF
