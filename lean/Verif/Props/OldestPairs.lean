import Verif.Lemmas.Oldest
import Verif.Props.RealBars
import Verif.Props.PersistenceCases

/-! C135: exactly which bars are written. -/

namespace LHF
open Spec

/-- The bars of dimension `k` of a filtration: one bar for each simplex `q` of dimension `k + 1` that closes
some simplex `p` of dimension `k`, from the weight of `p` to the weight of `q`, in the order of the `q`,
without the bars of length 0. -/
def Spec.OldestBars {W : Type} [LinearOrder W] (edges : List (List (List Nat × W))) (k : Nat)
    (bars : List (Line W)) : Prop :=
  ∃ pairs : List (Nat × Nat), (pairs.map Prod.snd).Pairwise (· < ·) ∧
    (∀ p q, (p, q) ∈ pairs ↔ ClosesOldest edges k p q) ∧
    bars = pairs.filterMap (fun pj =>
      match (edges.getD k [])[pj.1]?, (edges.getD (k + 1) [])[pj.2]? with
      | some row, some col => if row.2 ≠ col.2 then some (k, row.2, col.2) else none
      | _, _ => none)

/-- The bars of a filtration are determined. -/
theorem Spec.OldestBars.unique {W : Type} [LinearOrder W] {edges : List (List (List Nat × W))} {k : Nat}
    {bars bars' : List (Line W)} (h : OldestBars edges k bars) (h' : OldestBars edges k bars') :
    bars = bars' := by
  obtain ⟨ps, h1, h2, rfl⟩ := h
  obtain ⟨ps', h1', h2', rfl⟩ := h'
  have : ps = ps' := by
    have hs : ∀ ps : List (Nat × Nat), (ps.map Prod.snd).Pairwise (· < ·) →
        ps.Pairwise (fun a b => a.2 < b.2) := fun ps h => List.pairwise_map.1 h
    have hperm : ps.Perm ps' := by
      rw [List.perm_ext_iff_of_nodup]
      · intro a; rw [h2 a.1 a.2, h2' a.1 a.2]
      · exact (hs ps h1).imp (fun h e => by rw [e] at h; exact lt_irrefl _ h)
      · exact (hs ps' h1').imp (fun h e => by rw [e] at h; exact lt_irrefl _ h)
    exact hperm.eq_of_pairwise (fun a b _ _ h h' => absurd (lt_trans h h') (lt_irrefl _)) (hs ps h1) (hs ps' h1')
  rw [this]

/-- C135 (with libstdc++ under the condition of C28 on the skipped rows): a run of the reduction that returns
writes, in every dimension from 1, exactly the bars of the simplices and the simplices that close them. -/
theorem C135_exact_bars {W : Type} [LinearOrder W] [Zero W] {mode : EndRead} {dim : Nat} {eps : W}
    {edges : List (List (List Nat × W))} (hF : FilteredComplex edges) (hlen : 2 ≤ edges.length)
    (hskip : SkipsNegatives mode dim edges)
    {output : List (Line W)} {T0 : List (BettiEntry W)} {lines : List (Line W)}
    {table : List (BettiEntry W)}
    (hok : fastPersistence mode dim eps edges output T0 = .ok (lines, table)) {k : Nat}
    (hk : 1 ≤ k) (hk2 : k < dim) : OldestBars edges k (lines.filter (fun l => l.1 = k)) := by
  obtain ⟨pairs, hP, hl⟩ := fast_pairing hF hlen hskip hok hk hk2
  refine ⟨pairs, ?_, pairs_exact hF hP, hl⟩
  rw [hP.columns]
  exact negatives_inc _ _

/-- C135, the run of the default pipeline (partial: the reading past the end finds no pivot): the bars are
those of the Rips complex of the points, in the order in which the simplices are stored. -/
theorem C135_exact_run_partial (sort : SortBySecond (List Nat) ℝ) (eps : ℝ) (dim : Nat)
    (k : Nat) (hk : 0 < k) (data : List (List ℝ)) (hdim : ∀ p ∈ data, p.length = k)
    (hedge : ∃ i j, i < j ∧ j < data.length ∧ rowDist k data i j < eps) :
    ∃ lines table g edges, treeRun vectorsDistance sort .noPivot eps dim data = .ok (lines, table) ∧
      StoresRips g data.length (rowDist k data) (fun i j => rowDist k data i j < eps) (max 1 dim) ∧
      SortedLayers edges g ∧
      ∀ j, 1 ≤ j → j < dim → OldestBars edges j (lines.filter (fun l => l.1 = j)) := by
  obtain ⟨g, edges, h1, h2, -, h4, -⟩ := tree_built sort .noPivot eps dim k hk data hdim
  have hlen := rips_two_layers h4 (by omega) h2 hedge
  have hF := filtered_of_rips h4 h2
  rcases C25_terminates .noPivot dim eps hF hlen [] [] with ⟨⟨lines, T⟩, h⟩ | h
  · exact ⟨lines, T, g, edges, h1.trans h, h4, h2, fun j hj1 hj2 =>
      C135_exact_bars hF hlen (fun h => by cases h) h hj1 hj2⟩
  · exact absurd h.1 (by simp)

/-- C135: as the code is written, the only other outcome of the run is that it reads past the end. -/
theorem C135_exact_run_or_undefined (sort : SortBySecond (List Nat) ℝ) (eps : ℝ) (dim : Nat)
    (k : Nat) (hk : 0 < k) (data : List (List ℝ)) (hdim : ∀ p ∈ data, p.length = k)
    (hedge : ∃ i j, i < j ∧ j < data.length ∧ rowDist k data i j < eps) :
    treeRun vectorsDistance sort .undefined eps dim data = .error .endDeref ∨
    ∃ lines table g edges, treeRun vectorsDistance sort .undefined eps dim data = .ok (lines, table) ∧
      StoresRips g data.length (rowDist k data) (fun i j => rowDist k data i j < eps) (max 1 dim) ∧
      SortedLayers edges g ∧
      ∀ j, 1 ≤ j → j < dim → OldestBars edges j (lines.filter (fun l => l.1 = j)) := by
  obtain ⟨g, edges, h1, h2, -, h4, -⟩ := tree_built sort .undefined eps dim k hk data hdim
  have hlen := rips_two_layers h4 (by omega) h2 hedge
  have hF := filtered_of_rips h4 h2
  rcases C25_terminates .undefined dim eps hF hlen [] [] with ⟨⟨lines, T⟩, h⟩ | h
  · exact Or.inr ⟨lines, T, g, edges, h1.trans h, h4, h2, fun j hj1 hj2 =>
      C135_exact_bars hF hlen (fun h => by cases h) h hj1 hj2⟩
  · exact Or.inl (h1.trans h.2)

/-- C135, the complex type `simplexArrayList` (partial: the reading past the end finds no pivot). -/
theorem C135_exact_run_array_partial (sort : SortBySecond (List Nat) ℝ) (eps : ℝ) (dim : Nat) (hd : 0 < dim)
    (k : Nat) (hk : 0 < k) (data : List (List ℝ)) (hdim : ∀ p ∈ data, p.length = k)
    (hedge : ∃ i j, i < j ∧ j < data.length ∧ rowDist k data i j ≤ eps) :
    ∃ lines table g, arrayRun vectorsDistance sort .noPivot eps dim data = .ok (lines, table) ∧
      StoresRips g data.length (rowDist k data) (fun i j => rowDist k data i j ≤ eps) (dim + 1) ∧
      ∀ j, 1 ≤ j → j < dim →
        OldestBars (arrayGetAllEdges sort g) j (lines.filter (fun l => l.1 = j)) := by
  obtain ⟨g, h1, h2, -⟩ := array_built sort .noPivot eps dim hd k hk data hdim
  obtain ⟨hF, hS⟩ := filtered_array h2 sort
  have hlen := rips_two_layers (rips_nonempty h2) (by omega) hS hedge
  rcases C25_terminates .noPivot dim eps hF hlen [] [] with ⟨⟨lines, T⟩, h⟩ | h
  · exact ⟨lines, T, g, h1.trans h, h2, fun j hj1 hj2 =>
      C135_exact_bars hF hlen (fun h => by cases h) h hj1 hj2⟩
  · exact absurd h.1 (by simp)

/-- C135, the whole program with a `simplexTree` (partial: the reading past the end finds no pivot): the bars
in the file. -/
theorem C135_exact_program_partial (sys : System ℝ ℝ) (hdist : sys.lib.dist = vectorsDistance)
    (hread : sys.lib.mode = .noPivot) (pairs : List (String × String)) (m : ArgMap) (f : String)
    (data : List (List ℝ)) (h : PlainCommand sys pairs m "simplexTree" f data)
    (k : Nat) (hk : 0 < k) (hdim : ∀ p ∈ data, p.length = k)
    (hedge : ∃ i j, i < j ∧ j < data.length ∧ rowDist k data i j < sys.atof (m.val "epsilon")) :
    ∃ w lines g edges, mainProgram sys (commandLine pairs) = .ok w ∧ WritesBarcode sys.io f lines w ∧
      StoresRips g data.length (rowDist k data) (fun i j => rowDist k data i j < sys.atof (m.val "epsilon"))
        (max 1 (sys.atoi (m.val "dimensions"))) ∧
      SortedLayers edges g ∧
      ∀ j, 1 ≤ j → j < sys.atoi (m.val "dimensions") →
        OldestBars edges j (lines.filter (fun l => l.1 = j)) := by
  obtain ⟨lines, T, g, edges, h1, h2⟩ := C135_exact_run_partial sys.lib.sort (sys.atof (m.val "epsilon"))
    (sys.atoi (m.val "dimensions")) k hk data hdim hedge
  rw [← hread] at h1
  obtain ⟨w, h3, h4⟩ := (main_tree sys hdist pairs m f data h).of_ok h1
  exact ⟨w, lines, g, edges, h3, h4, h2⟩

/-- C135, the whole program with an `indSimplexTree` (partial: `dimensions` is at most 2 or no four points
are pairwise close, the collapse is off and the reading past the end finds no pivot). -/
theorem C135_exact_program_indexed_partial (sys : System ℝ ℝ) (hdist : sys.lib.dist = vectorsDistance)
    (hread : sys.lib.mode = .noPivot) (pairs : List (String × String)) (m : ArgMap) (f : String)
    (data : List (List ℝ)) (h : PlainCommand sys pairs m "indSimplexTree" f data)
    (hcol : m.val "collapse" ≠ "true" ∧ m.val "collapse" ≠ "1")
    (k : Nat) (hk : 0 < k) (hdim : ∀ p ∈ data, p.length = k)
    (hsmall : sys.atoi (m.val "dimensions") ≤ 2 ∨ ¬ ∃ s, IsSimplex data.length
      (fun i j => rowDist k data i j < sys.atof (m.val "epsilon")) s ∧ s.length = 4)
    (hedge : ∃ i j, i < j ∧ j < data.length ∧ rowDist k data i j < sys.atof (m.val "epsilon")) :
    ∃ w lines g, mainProgram sys (commandLine pairs) = .ok w ∧ WritesBarcode sys.io f lines w ∧
      StoresRips g data.length (rowDist k data) (fun i j => rowDist k data i j < sys.atof (m.val "epsilon"))
        (max 1 (sys.atoi (m.val "dimensions"))) ∧
      SortedLayers g g ∧
      ∀ j, 1 ≤ j → j < sys.atoi (m.val "dimensions") →
        OldestBars g j (lines.filter (fun l => l.1 = j)) := by
  obtain ⟨g, h1, -, h3, h4⟩ := main_indexed sys hdist pairs m f data h hcol k hk hdim hsmall
  have hlen := rips_two_layers h3 (by omega) h1 hedge
  have hF := filtered_of_rips h3 h1
  rw [hread] at h4
  rcases C25_terminates .noPivot (sys.atoi (m.val "dimensions")) (sys.atof (m.val "epsilon"))
    hF hlen [] [] with ⟨⟨lines, T⟩, h5⟩ | h5
  · obtain ⟨w, h6, h7⟩ := h4.of_ok h5
    exact ⟨w, lines, g, h6, h7, h3, h1, fun j hj1 hj2 =>
      C135_exact_bars hF hlen (fun h => by cases h) h5 hj1 hj2⟩
  · exact absurd h5.1 (by simp)

/-- C135, the whole program with a `simplexArrayList` (partial: `dimensions` is positive, the collapse is
off and the reading past the end finds no pivot). -/
theorem C135_exact_program_array_partial (sys : System ℝ ℝ) (hdist : sys.lib.dist = vectorsDistance)
    (hread : sys.lib.mode = .noPivot) (pairs : List (String × String)) (m : ArgMap) (f : String)
    (data : List (List ℝ)) (h : PlainCommand sys pairs m "simplexArrayList" f data)
    (hcol : m.val "collapse" ≠ "true" ∧ m.val "collapse" ≠ "1")
    (hd : 0 < sys.atoi (m.val "dimensions"))
    (k : Nat) (hk : 0 < k) (hdim : ∀ p ∈ data, p.length = k)
    (hedge : ∃ i j, i < j ∧ j < data.length ∧ rowDist k data i j ≤ sys.atof (m.val "epsilon")) :
    ∃ w lines g, mainProgram sys (commandLine pairs) = .ok w ∧ WritesBarcode sys.io f lines w ∧
      StoresRips g data.length (rowDist k data) (fun i j => rowDist k data i j ≤ sys.atof (m.val "epsilon"))
        (sys.atoi (m.val "dimensions") + 1) ∧
      ∀ j, 1 ≤ j → j < sys.atoi (m.val "dimensions") →
        OldestBars (arrayGetAllEdges sys.lib.sort g) j (lines.filter (fun l => l.1 = j)) := by
  obtain ⟨lines, T, g, h1, h2⟩ := C135_exact_run_array_partial sys.lib.sort (sys.atof (m.val "epsilon"))
    (sys.atoi (m.val "dimensions")) hd k hk data hdim hedge
  rw [← hread] at h1
  obtain ⟨w, h3, h4⟩ := (main_array sys hdist pairs m f data h hcol hd k hk hdim).of_ok h1
  exact ⟨w, lines, g, h3, h4, h2⟩

/-- C135 on `house`: two simplices close two edges, the edge of weight 4 and the older one of weight 3. -/
example : OldestBars house 1 [(1, 4, 5), (1, 3, 5)] ∧ ¬ OldestBars house 1 [(1, 4, 5)] := by
  have h : ∃ lines table, fastPersistence .noPivot 2 (9 : Int) house [] [] = .ok (lines, table) ∧
      lines.filter (fun l => l.1 = 1) = [(1, 4, 5), (1, 3, 5)] := ⟨_, _, rfl, by decide⟩
  obtain ⟨lines, table, h, hl⟩ := h
  have h1 := C135_exact_bars house_filtered (by decide) (fun h => by cases h) h (k := 1) le_rfl (by decide)
  rw [hl] at h1
  exact ⟨h1, fun h2 => by simpa using h1.unique h2⟩

end LHF
