import Verif.Lemmas.Line
import Verif.Lemmas.LineGraph
import Verif.Props.CollapsedProgram

/-! C131: the barcode of points on a line. -/

namespace LHF
open Spec

/-- The rows of `data` are, in some order, points of a straight line: there is a bijection with the
numbers `ys`, which are in increasing order, under which the distance of two points is the difference of
their numbers. -/
def Spec.OnLine (k : Nat) (data : List (List ℝ)) (ys : List ℝ) : Prop :=
  ys.Pairwise (· ≤ ·) ∧ Congruent 1 (ys.map (fun y => [y])) k data

/-- What a barcode must say about points of a line with the numbers `ys`: it lists, in increasing order,
the gaps between neighbours that are in range, then the bar that stays open, and nothing else. -/
def Spec.ListsGaps (ys : List ℝ) (inRange : ℝ → Prop) [DecidablePred inRange] (eps : ℝ)
    (lines : List (Line ℝ)) : Prop :=
  ∃ deaths : List ℝ, deaths.Pairwise (· ≤ ·) ∧ deaths.Perm ((gaps ys).filter (fun w => inRange w)) ∧
    lines = deaths.map (fun w => (0, 0, w)) ++ [(0, 0, eps)]

/-- A file with one number in each row. -/
theorem onLine_column {data : List (List ℝ)} {ys : List ℝ} (hs : ys.Pairwise (· ≤ ·))
    (h : data.Perm (ys.map (fun y => [y]))) : OnLine 1 data ys :=
  ⟨hs, congruent_of_perm 1 h⟩

theorem congruent_symm {k k' : Nat} {data data' : List (List ℝ)} (h : Congruent k data k' data') :
    Congruent k' data' k data := by
  obtain ⟨σ, hσ⟩ := h
  refine ⟨σ.symm, fun i j => ?_⟩
  have := hσ (σ.symm i) (σ.symm j)
  rw [σ.apply_symm_apply, σ.apply_symm_apply] at this
  exact this.symm

theorem gaps_nonneg : ∀ {ys : List ℝ}, ys.Pairwise (· ≤ ·) → ∀ w ∈ gaps ys, 0 ≤ w
  | [], _, w, hw => by simp [gaps] at hw
  | [_], _, w, hw => by simp [gaps] at hw
  | a :: b :: r, h, w, hw => by
    simp only [gaps, List.mem_cons] at hw
    rcases hw with rfl | hw
    · have := (List.pairwise_cons.1 h).1 b (by simp)
      linarith
    · exact gaps_nonneg (List.pairwise_cons.1 h).2 w hw

/-- Two points of a line are in range if and only if two neighbours are. -/
theorem gap_iff_edge {k : Nat} {data : List (List ℝ)} {ys : List ℝ} (h : OnLine k data ys)
    {P : ℝ → Prop} (hP : ∀ s t, s ≤ t → P t → P s) :
    (∃ i j, i < j ∧ j < data.length ∧ P (rowDist k data i j)) ↔ ∃ w ∈ gaps ys, P w := by
  obtain ⟨hs, hc⟩ := h
  have hm := lineAt_mono hs
  have val : ∀ i, i < ys.length → lineAt ys i = ys.getD i 0 := by
    intro i hi
    unfold lineAt
    rw [Nat.min_eq_left (by omega)]
  constructor
  · intro he
    obtain ⟨i, j, hij, hj, hp⟩ := congruent_edge (congruent_symm hc) he
    rw [List.length_map] at hj
    have e := rowDist_lineAt ys ⟨i, by omega⟩ ⟨j, hj⟩
    dsimp only at e
    rw [e, abs_sub_comm, abs_of_nonneg (by have := hm hij.le; linarith)] at hp
    refine ⟨ys.getD (i + 1) 0 - ys.getD i 0, List.mem_of_getElem? (gaps_get ys i (by omega)), ?_⟩
    refine hP _ _ ?_ hp
    rw [← val (i + 1) (by omega), ← val i (by omega)]
    have := hm (show i + 1 ≤ j from hij)
    linarith
  · rintro ⟨w, hw, hp⟩
    obtain ⟨i, hi⟩ := List.mem_iff_getElem?.1 hw
    have hlt : i + 1 < ys.length := by
      have := (List.getElem?_eq_some_iff.1 hi).1
      rw [gaps_length] at this
      omega
    rw [gaps_get ys i hlt] at hi
    refine congruent_edge hc ⟨i, i + 1, by omega, by simpa using hlt, ?_⟩
    have e := rowDist_lineAt ys ⟨i, by omega⟩ ⟨i + 1, hlt⟩
    dsimp only at e
    rw [e, abs_sub_comm, abs_of_nonneg (by have := hm (Nat.le_succ i); linarith), val _ hlt, val _ (by omega)]
    rw [Option.some.inj hi]
    exact hp

/-- The scales at which components of points on a line merge are the gaps. -/
theorem merge_gaps {k : Nat} {data : List (List ℝ)} {ys : List ℝ} (h : OnLine k data ys)
    {inRange : ℝ → Prop} [DecidablePred inRange] (hP : ∀ s t, s ≤ t → inRange t → inRange s)
    {deaths : List ℝ} (hM : MergeTimes data.length (rowDist k data) inRange deaths) :
    deaths.Perm ((gaps ys).filter (fun w => inRange w)) := by
  obtain ⟨hs, hc⟩ := h
  obtain ⟨hlen, hcomp⟩ := congruent_components hc
  rw [List.length_map] at hlen hcomp
  obtain ⟨h2, h3, h4⟩ := hM
  set g := (gaps ys).filter (fun w => inRange w) with hg
  have hperm := List.perm_insertionSort (· ≤ ·) g
  have e : deaths = g.insertionSort (· ≤ ·) := by
    refine sorted_counts_unique (P := fun w => 0 ≤ w ∧ inRange w) h2 (List.pairwise_insertionSort _ _) h3 ?_ ?_
    · intro w hw
      have := List.mem_filter.1 (hperm.mem_iff.1 hw)
      exact ⟨gaps_nonneg hs w this.1, by simpa using this.2⟩
    · rintro t ⟨t0, t1⟩
      have e1 := h4 t t0 t1
      have e2 := components_gaps hs t
      rw [hcomp t] at e1
      have e3 : ((g.insertionSort (· ≤ ·)).filter (fun w => w ≤ t)).length =
          ((gaps ys).filter (fun w => w ≤ t)).length := by
        rw [(hperm.filter _).length_eq, hg, List.filter_filter]
        congr 1
        apply List.filter_congr
        intro w _
        by_cases hw : w ≤ t
        · simp [hw, hP w t hw t1]
        · simp [hw]
      omega
  rw [e]
  exact hperm

/-- What a barcode that describes the Rips complex of points of a line looks like. -/
theorem listsGaps_of_describes {k : Nat} {data : List (List ℝ)} {ys : List ℝ} (h : OnLine k data ys)
    {inRange : ℝ → Prop} [DecidablePred inRange] (hP : ∀ s t, s ≤ t → inRange t → inRange s)
    {eps : ℝ} {dim : Nat} {lines : List (Line ℝ)}
    (hD : DescribesRips data.length (rowDist k data) inRange eps dim lines) :
    ListsGaps ys inRange eps lines := by
  obtain ⟨hs, hc⟩ := h
  have hb : ∀ q t, 1 ≤ q → ripsBetti data.length (rowDist k data) q t = 0 := by
    intro q t hq
    rw [congruent_betti hc, List.length_map,
      ripsBetti_relabel (d := fun i j => |lineAt ys i - lineAt ys j|) (fun _ _ => abs_sub_comm _ _)
        (rowDist_symm 1 _) (Equiv.refl _) (fun i j => rowDist_lineAt ys i j) q t]
    refine ripsBetti_line ?_ hq
    intro i j l hij hjl hil
    have h1 := lineAt_mono hs hij.le
    have h2 := lineAt_mono hs hjl.le
    dsimp only at hil ⊢
    rw [abs_sub_comm, abs_of_nonneg (by linarith)] at hil
    rw [abs_sub_comm, abs_of_nonneg (by linarith), abs_sub_comm, abs_of_nonneg (by linarith)]
    constructor <;> linarith
  have hzero : ∀ l ∈ lines, l.1 = 0 := by
    intro l hl
    by_contra h0
    obtain ⟨b1, b2, b3⟩ := hD.bars l hl (by omega)
    have hk := (hD.only l hl).resolve_left h0
    obtain ⟨op, -, h2⟩ := hD.higher l.1 (by omega) hk
    have h3 := h2 l.2.1 b1 (hP _ _ b2.le b3)
    rw [hb _ _ (by omega)] at h3
    have h5 := List.filter_eq_nil_iff.1 (List.length_eq_zero_iff.1 (Nat.add_eq_zero_iff.1 h3.symm).1)
    exact h5 l hl (by simpa using b2)
  obtain ⟨deaths, h1, h2, h3, h4⟩ := hD.zero
  rw [List.filter_eq_self.2 (fun l hl => by simpa using hzero l hl)] at h1
  exact ⟨deaths, h2, merge_gaps ⟨hs, hc⟩ hP ⟨h2, h3, h4⟩, h1⟩

/-- C131, the run of the default pipeline (partial: the reading past the end finds no pivot). -/
theorem C131_line_run_partial (sort : SortBySecond (List Nat) ℝ) (eps : ℝ) (dim : Nat)
    (k : Nat) (hk : 0 < k) (data : List (List ℝ)) (hdim : ∀ p ∈ data, p.length = k)
    (ys : List ℝ) (hline : OnLine k data ys) (hgap : ∃ w ∈ gaps ys, w < eps) :
    ∃ lines table, treeRun vectorsDistance sort .noPivot eps dim data = .ok (lines, table) ∧
      ListsGaps ys (· < eps) eps lines := by
  have hP : ∀ s t : ℝ, s ≤ t → t < eps → s < eps := fun s t h h' => lt_of_le_of_lt h h'
  obtain ⟨lines, T, h1, h2⟩ := C70_tree_run_partial sort eps dim k hk data hdim
    ((gap_iff_edge hline (P := (· < eps)) hP).2 hgap)
  exact ⟨lines, T, h1, listsGaps_of_describes hline hP h2⟩

/-- C131, the whole program with a `simplexTree` (partial: the reading past the end finds no pivot): for
every `dimensions`, the file holds the gaps shorter than `epsilon` in increasing order, then the open
bar, and no line of a higher dimension. -/
theorem C131_line_program_partial (sys : System ℝ ℝ) (hdist : sys.lib.dist = vectorsDistance)
    (hread : sys.lib.mode = .noPivot) (pairs : List (String × String)) (m : ArgMap) (f : String)
    (data : List (List ℝ)) (h : PlainCommand sys pairs m "simplexTree" f data)
    (k : Nat) (hk : 0 < k) (hdim : ∀ p ∈ data, p.length = k)
    (ys : List ℝ) (hline : OnLine k data ys) (hgap : ∃ w ∈ gaps ys, w < sys.atof (m.val "epsilon")) :
    ∃ w lines, mainProgram sys (commandLine pairs) = .ok w ∧ WritesBarcode sys.io f lines w ∧
      ListsGaps ys (· < sys.atof (m.val "epsilon")) (sys.atof (m.val "epsilon")) lines := by
  have hP : ∀ s t : ℝ, s ≤ t → t < sys.atof (m.val "epsilon") → s < sys.atof (m.val "epsilon") :=
    fun s t h h' => lt_of_le_of_lt h h'
  obtain ⟨w, lines, h1, h2, h3⟩ := C85_standard_program_partial sys hdist hread pairs m f data h k hk hdim
    ((gap_iff_edge hline (P := (· < sys.atof (m.val "epsilon"))) hP).2 hgap)
  exact ⟨w, lines, h1, h2, listsGaps_of_describes hline hP h3⟩

/-- C131, with `dimensions` at most 1 (the default): nothing is assumed about reading past the end. -/
theorem C131_line_program_default (sys : System ℝ ℝ) (hdist : sys.lib.dist = vectorsDistance)
    (pairs : List (String × String)) (m : ArgMap) (f : String)
    (data : List (List ℝ)) (h : PlainCommand sys pairs m "simplexTree" f data)
    (hd : sys.atoi (m.val "dimensions") ≤ 1)
    (k : Nat) (hk : 0 < k) (hdim : ∀ p ∈ data, p.length = k)
    (ys : List ℝ) (hline : OnLine k data ys) (hgap : ∃ w ∈ gaps ys, w < sys.atof (m.val "epsilon")) :
    ∃ w lines, mainProgram sys (commandLine pairs) = .ok w ∧ WritesBarcode sys.io f lines w ∧
      ListsGaps ys (· < sys.atof (m.val "epsilon")) (sys.atof (m.val "epsilon")) lines := by
  have hP : ∀ s t : ℝ, s ≤ t → t < sys.atof (m.val "epsilon") → s < sys.atof (m.val "epsilon") :=
    fun s t h h' => lt_of_le_of_lt h h'
  obtain ⟨w, lines, h1, h2, -, h3⟩ := C85_standard_program_default sys hdist pairs m f data h hd k hk hdim
    ((gap_iff_edge hline (P := (· < sys.atof (m.val "epsilon"))) hP).2 hgap)
  exact ⟨w, lines, h1, h2, listsGaps_of_describes hline hP h3⟩

/-- C131: as the code is written, the only other outcome of the program is that it reads past the end. -/
theorem C131_line_program_or_undefined (sys : System ℝ ℝ) (hdist : sys.lib.dist = vectorsDistance)
    (hread : sys.lib.mode = .undefined) (pairs : List (String × String)) (m : ArgMap) (f : String)
    (data : List (List ℝ)) (h : PlainCommand sys pairs m "simplexTree" f data)
    (k : Nat) (hk : 0 < k) (hdim : ∀ p ∈ data, p.length = k)
    (ys : List ℝ) (hline : OnLine k data ys) (hgap : ∃ w ∈ gaps ys, w < sys.atof (m.val "epsilon")) :
    mainProgram sys (commandLine pairs) = .error .endDeref ∨
    ∃ w lines, mainProgram sys (commandLine pairs) = .ok w ∧ WritesBarcode sys.io f lines w ∧
      ListsGaps ys (· < sys.atof (m.val "epsilon")) (sys.atof (m.val "epsilon")) lines := by
  have hP : ∀ s t : ℝ, s ≤ t → t < sys.atof (m.val "epsilon") → s < sys.atof (m.val "epsilon") :=
    fun s t h h' => lt_of_le_of_lt h h'
  rcases C85_standard_program_or_undefined sys hdist hread pairs m f data h k hk hdim
    ((gap_iff_edge hline (P := (· < sys.atof (m.val "epsilon"))) hP).2 hgap) with h1 | ⟨w, lines, h1, h2, h3⟩
  · exact Or.inl h1
  · exact Or.inr ⟨w, lines, h1, h2, listsGaps_of_describes hline hP h3⟩

/-- C131, the complex type `simplexArrayList` (partial: `dimensions` is positive and the reading past the
end finds no pivot): gaps equal to `epsilon` are listed too. -/
theorem C131_line_program_array_partial (sys : System ℝ ℝ) (hdist : sys.lib.dist = vectorsDistance)
    (hread : sys.lib.mode = .noPivot) (pairs : List (String × String)) (m : ArgMap) (f : String)
    (data : List (List ℝ)) (h : PlainCommand sys pairs m "simplexArrayList" f data)
    (hcol : m.val "collapse" ≠ "true" ∧ m.val "collapse" ≠ "1")
    (hd : 0 < sys.atoi (m.val "dimensions"))
    (k : Nat) (hk : 0 < k) (hdim : ∀ p ∈ data, p.length = k)
    (ys : List ℝ) (hline : OnLine k data ys) (hgap : ∃ w ∈ gaps ys, w ≤ sys.atof (m.val "epsilon")) :
    ∃ w lines, mainProgram sys (commandLine pairs) = .ok w ∧ WritesBarcode sys.io f lines w ∧
      ListsGaps ys (· ≤ sys.atof (m.val "epsilon")) (sys.atof (m.val "epsilon")) lines := by
  have hP : ∀ s t : ℝ, s ≤ t → t ≤ sys.atof (m.val "epsilon") → s ≤ sys.atof (m.val "epsilon") :=
    fun s t h h' => le_trans h h'
  obtain ⟨w, lines, h1, h2, h3⟩ := C85_standard_program_array_partial sys hdist hread pairs m f data h hcol
    hd k hk hdim ((gap_iff_edge hline (P := (· ≤ sys.atof (m.val "epsilon"))) hP).2 hgap)
  exact ⟨w, lines, h1, h2, listsGaps_of_describes hline hP h3⟩

/-- C131, the complex type `simplexArrayList` with the option `collapse`: nothing is assumed about reading
past the end, since nothing is read there. -/
theorem C131_line_program_collapse (sys : System ℝ ℝ) (hdist : sys.lib.dist = vectorsDistance)
    (pairs : List (String × String)) (m : ArgMap) (f : String)
    (data : List (List ℝ)) (h : PlainCommand sys pairs m "simplexArrayList" f data)
    (hcol : m.val "collapse" = "true" ∨ m.val "collapse" = "1")
    (hd : 0 < sys.atoi (m.val "dimensions"))
    (k : Nat) (hk : 0 < k) (hdim : ∀ p ∈ data, p.length = k)
    (ys : List ℝ) (hline : OnLine k data ys) (hgap : ∃ w ∈ gaps ys, w ≤ sys.atof (m.val "epsilon")) :
    ∃ w lines, mainProgram sys (commandLine pairs) = .ok w ∧ WritesBarcode sys.io f lines w ∧
      ListsGaps ys (· ≤ sys.atof (m.val "epsilon")) (sys.atof (m.val "epsilon")) lines := by
  have hP : ∀ s t : ℝ, s ≤ t → t ≤ sys.atof (m.val "epsilon") → s ≤ sys.atof (m.val "epsilon") :=
    fun s t h h' => le_trans h h'
  obtain ⟨w, ds, h1, h2, h3⟩ := C116_program sys hdist pairs m f data h hcol hd k hk hdim
    ((gap_iff_edge hline (P := (· ≤ sys.atof (m.val "epsilon"))) hP).2 hgap)
  exact ⟨w, _, h1, h2, ds, h3.sorted, merge_gaps hline hP h3, rfl⟩

/-- C131, the complex type `indSimplexTree` (partial: at most 2 dimensions, or no four points within
`epsilon` of each other; the reading past the end finds no pivot). -/
theorem C131_line_program_indexed_partial (sys : System ℝ ℝ) (hdist : sys.lib.dist = vectorsDistance)
    (hread : sys.lib.mode = .noPivot) (pairs : List (String × String)) (m : ArgMap) (f : String)
    (data : List (List ℝ)) (h : PlainCommand sys pairs m "indSimplexTree" f data)
    (hcol : m.val "collapse" ≠ "true" ∧ m.val "collapse" ≠ "1")
    (k : Nat) (hk : 0 < k) (hdim : ∀ p ∈ data, p.length = k)
    (hsmall : sys.atoi (m.val "dimensions") ≤ 2 ∨ ¬ ∃ s, IsSimplex data.length
      (fun i j => rowDist k data i j < sys.atof (m.val "epsilon")) s ∧ s.length = 4)
    (ys : List ℝ) (hline : OnLine k data ys) (hgap : ∃ w ∈ gaps ys, w < sys.atof (m.val "epsilon")) :
    ∃ w lines, mainProgram sys (commandLine pairs) = .ok w ∧ WritesBarcode sys.io f lines w ∧
      ListsGaps ys (· < sys.atof (m.val "epsilon")) (sys.atof (m.val "epsilon")) lines := by
  have hP : ∀ s t : ℝ, s ≤ t → t < sys.atof (m.val "epsilon") → s < sys.atof (m.val "epsilon") :=
    fun s t h h' => lt_of_le_of_lt h h'
  obtain ⟨w, lines, h1, h2, h3⟩ := C92_indexed_program_partial sys hdist hread pairs m f data h hcol k hk hdim
    hsmall ((gap_iff_edge hline (P := (· < sys.atof (m.val "epsilon"))) hP).2 hgap)
  exact ⟨w, lines, h1, h2, listsGaps_of_describes hline hP h3⟩

/-- C131 fails when no gap is shorter than `epsilon`: instead of writing the open bar the program reads
outside of a list. -/
theorem C131_no_short_gap_violated (sys : System ℝ ℝ) (hdist : sys.lib.dist = vectorsDistance)
    (pairs : List (String × String)) (m : ArgMap) (f : String)
    (data : List (List ℝ)) (h : PlainCommand sys pairs m "simplexTree" f data)
    (k : Nat) (hk : 0 < k) (hdim : ∀ p ∈ data, p.length = k)
    (ys : List ℝ) (hline : OnLine k data ys) (hgap : ∀ w ∈ gaps ys, sys.atof (m.val "epsilon") ≤ w) :
    mainProgram sys (commandLine pairs) = .error .oob := by
  refine C85_no_close_pair_violated sys hdist pairs m f data h k hk hdim (fun i j hij hj => ?_)
  by_contra hc
  obtain ⟨w, hw, hlt⟩ := (gap_iff_edge hline (P := (· < sys.atof (m.val "epsilon")))
    (fun s t h h' => lt_of_le_of_lt h h')).1 ⟨i, j, hij, hj, not_le.1 hc⟩
  exact absurd hlt (not_lt.2 (hgap w hw))

/-- The hypotheses of C131: five numbers, not in order, with the gaps 2, 1, 1 and 5, and `epsilon` 5. -/
example : OnLine 1 [[0], [3], [4], [2], [(9 : ℝ)]] [0, 2, 3, 4, 9] ∧
    gaps [0, 2, 3, 4, 9] = [2, 1, 1, 5] ∧ ∃ w ∈ gaps [0, 2, 3, 4, 9], w < 5 := by
  have e : gaps [0, 2, 3, 4, 9] = [2, 1, 1, 5] := by norm_num [gaps]
  refine ⟨onLine_column (by norm_num) ?_, e, 2, by rw [e]; simp, by norm_num⟩
  have h1 : [[3], [4], [2], [(9 : ℝ)]].Perm [[2], [3], [4], [9]] := by
    refine List.Perm.trans (List.Perm.cons _ (List.Perm.swap _ _ _)) (List.Perm.swap _ _ _)
  exact List.Perm.cons _ h1

/-- What C131 says about them. -/
example (lines : List (Line ℝ)) (h : ListsGaps [0, 2, 3, 4, 9] (· < 5) 5 lines) :
    lines = [(0, 0, 1), (0, 0, 1), (0, 0, 2), (0, 0, 5)] := by
  obtain ⟨deaths, h1, h2, rfl⟩ := h
  have e : (gaps [0, 2, 3, 4, 9]).filter (fun w => decide (w < 5)) = [2, 1, 1] := by
    have : gaps [0, 2, 3, 4, 9] = [2, 1, 1, 5] := by norm_num [gaps]
    rw [this]
    norm_num [List.filter]
  rw [e] at h2
  have h3 : [(1 : ℝ), 1, 2].Perm [2, 1, 1] :=
    (List.Perm.cons _ (List.Perm.swap _ _ _)).trans (List.Perm.swap _ _ _)
  have : deaths = [1, 1, 2] :=
    List.Perm.eq_of_pairwise (fun a b _ _ h h' => le_antisymm h h') h1 (by norm_num) (h2.trans h3.symm)
  subst this
  rfl

/-- A command and an input file that meet them, with `dimensions` 1, 2 and 3. -/
example : ∀ d ∈ ["1", "2", "3"], ∃ m, PlainCommand (realSystem [] [] "00\n03\n04\n02\n09")
    [("-i", "data.csv"), ("-o", "bars"), ("-d", d)] m "simplexTree" "bars"
    [[((0 : Nat) : ℝ)], [((3 : Nat) : ℝ)], [((4 : Nat) : ℝ)], [((2 : Nat) : ℝ)], [((9 : Nat) : ℝ)]] ∧
    m.val "dimensions" = d := by
  intro d hd
  simp only [List.mem_cons, List.not_mem_nil, or_false] at hd
  rcases hd with rfl | rfl | rfl <;>
  exact ⟨_, ⟨rfl, by decide, by decide, Or.inl (by decide), by decide, by decide, by decide, by decide,
    by decide, rfl, by simp⟩, by decide⟩

end LHF
