import Verif.Lemmas.Cone
import Verif.Props.Line

/-! C132: when epsilon is large enough the barcode is complete. -/

namespace LHF
open Spec

/-- A barcode without open ends: there is one bar of dimension 0 for each of the `n` points; in each
higher dimension below `dim`, and at each scale in range, the Betti number of the Rips complex is the number
of bars that hold the scale; and all bars but the last one of dimension 0 end at the scale `R` or
before. -/
structure Spec.CompleteBarcode (n : Nat) (d : Nat → Nat → ℝ) (inRange : ℝ → Prop) (R eps : ℝ) (dim : Nat)
    (lines : List (Line ℝ)) : Prop where
  zero : (lines.filter (fun l => l.1 = 0)).length = n
  higher : ∀ k, 1 ≤ k → k < dim → ∀ t, 0 ≤ t → inRange t →
    ripsBetti n d k t = (lines.filter (fun l => l.1 = k ∧ l.2.1 ≤ t ∧ t < l.2.2)).length
  ends : ∀ l ∈ lines, l = (0, 0, eps) ∨ l.2.2 ≤ R

theorem complete_of_describes {n : Nat} {d : Nat → Nat → ℝ} (hs : ∀ i j, d i j = d j i)
    {inRange : ℝ → Prop} {R eps : ℝ} (hR : inRange R) (h0 : 0 ≤ R) {p : Nat} (hp : p < n)
    (hnear : ∀ q, q < n → q ≠ p → d p q ≤ R) (hP : ∀ s t, s ≤ t → inRange t → inRange s)
    {dim : Nat} {lines : List (Line ℝ)} (hD : DescribesRips n d inRange eps dim lines) :
    CompleteBarcode n d inRange R eps dim lines := by
  have hmax : ∀ t, inRange t → inRange (max t R) := by
    intro t ht
    rcases max_choice t R with h | h <;> rw [h]
    · exact ht
    · exact hR
  have hb : ∀ k t, ripsBetti n d k (max t R) = 0 := fun k t =>
    ripsBetti_star hs hp (fun q hq hqp => (hnear q hq hqp).trans (le_max_right _ _)) k
  have hc : ∀ t, components (scaleGraph n d (max t R)) = 1 := fun t =>
    components_star hs hp (fun q hq hqp => (hnear q hq hqp).trans (le_max_right _ _))
  obtain ⟨deaths, h1, h2, h3, h4⟩ := hD.zero
  have hshort : ∀ w ∈ deaths, w ≤ R := by
    intro w hw
    by_contra hlt
    have e1 := h4 R h0 hR
    have e2 := h4 (max w R) (le_max_of_le_right h0) (hmax w (h3 w hw).2)
    rw [hc w] at e2
    have hcR := hc R
    rw [max_self] at hcR
    rw [hcR] at e1
    have hsub : ((deaths.filter (fun w' => w' ≤ R)).length <
        (deaths.filter (fun w' => w' ≤ max w R)).length) := by
      have e3 : deaths.filter (fun w' => w' ≤ R) =
          (deaths.filter (fun w' => w' ≤ max w R)).filter (fun w' => w' ≤ R) := by
        rw [List.filter_filter]
        apply List.filter_congr
        intro x _
        by_cases hx : x ≤ R
        · simp [hx]
        · simp [hx]
      rw [e3]
      refine lt_of_le_of_ne (List.length_filter_le _ _) (fun he => ?_)
      have := List.length_filter_eq_length_iff.1 he w (List.mem_filter.2 ⟨hw, by simp⟩)
      exact hlt (by simpa using this)
    omega
  refine ⟨?_, ?_, ?_⟩
  · have e1 := h4 R h0 hR
    have hcR := hc R
    rw [max_self] at hcR
    rw [hcR, List.filter_eq_self.2 (fun w hw => by simpa using hshort w hw)] at e1
    rw [h1]
    simp
    omega
  · intro k hk1 hk2 t ht0 ht
    obtain ⟨op, g1, g2⟩ := hD.higher k hk1 hk2
    have hop : op = [] := by
      by_contra hne
      obtain ⟨w, hw⟩ := List.exists_mem_of_ne_nil op hne
      have e := g2 (max w R) (le_max_of_le_right h0) (hmax w (g1 w hw).2)
      rw [hb] at e
      have e2 := List.filter_eq_nil_iff.1 (List.length_eq_zero_iff.1 (Nat.add_eq_zero_iff.1 e.symm).2) w hw
      exact e2 (by simp)
    rw [g2 t ht0 ht, hop]
    rfl
  · intro l hl
    rcases Nat.eq_zero_or_pos l.1 with hl0 | hl0
    · have : l ∈ lines.filter (fun l => l.1 = 0) := List.mem_filter.2 ⟨hl, by simpa using hl0⟩
      rw [h1, List.mem_append, List.mem_map, List.mem_singleton] at this
      rcases this with ⟨w, hw, rfl⟩ | h
      · exact Or.inr (hshort w hw)
      · exact Or.inl h
    · right
      by_contra hlt
      obtain ⟨b1, b2, b3⟩ := hD.bars l hl hl0
      obtain ⟨op, -, g2⟩ := hD.higher l.1 hl0 ((hD.only l hl).resolve_left (by omega))
      have e := g2 (max l.2.1 R) (le_max_of_le_right h0) (hmax _ (hP _ _ b2.le b3))
      rw [hb] at e
      have e2 := List.filter_eq_nil_iff.1 (List.length_eq_zero_iff.1 (Nat.add_eq_zero_iff.1 e.symm).1) l hl
      refine e2 ?_
      have : max l.2.1 R < l.2.2 := max_lt b2 (not_le.1 hlt)
      simpa using this

/-- One row is at distance at most `R` from all others. -/
def Spec.Within (k : Nat) (data : List (List ℝ)) (R : ℝ) : Prop :=
  ∃ p, p < data.length ∧ ∀ q, q < data.length → rowDist k data p q ≤ R

theorem Spec.Within.nonneg {k : Nat} {data : List (List ℝ)} {R : ℝ} (h : Within k data R) : 0 ≤ R := by
  obtain ⟨p, hp, hq⟩ := h
  exact dist_nonneg.trans (hq p hp)

theorem within_edge {k : Nat} {data : List (List ℝ)} {R : ℝ} (h : Within k data R) (h2 : 2 ≤ data.length)
    {P : ℝ → Prop} (hP : ∀ s t, s ≤ t → P t → P s) (hR : P R) :
    ∃ i j, i < j ∧ j < data.length ∧ P (rowDist k data i j) := by
  obtain ⟨p, hp, hq⟩ := h
  rcases Nat.eq_zero_or_pos p with h0 | h0
  · subst h0
    exact ⟨0, 1, by omega, by omega, hP _ _ (hq 1 (by omega)) hR⟩
  · exact ⟨0, p, h0, hp, by rw [rowDist_symm]; exact hP _ _ (hq 0 (by omega)) hR⟩

theorem complete_of_within {k : Nat} {data : List (List ℝ)} {R : ℝ} (h : Within k data R)
    {inRange : ℝ → Prop} (hR : inRange R) (hP : ∀ s t, s ≤ t → inRange t → inRange s) {eps : ℝ}
    {dim : Nat} {lines : List (Line ℝ)}
    (hD : DescribesRips data.length (rowDist k data) inRange eps dim lines) :
    CompleteBarcode data.length (rowDist k data) inRange R eps dim lines := by
  have h0 := h.nonneg
  obtain ⟨p, hp, hq⟩ := h
  exact complete_of_describes (rowDist_symm k data) hR h0 hp (fun q h _ => hq q h) hP hD

/-- C132, the run of the default pipeline (partial: the reading past the end finds no pivot). -/
theorem C132_complete_run_partial (sort : SortBySecond (List Nat) ℝ) (eps : ℝ) (dim : Nat)
    (k : Nat) (hk : 0 < k) (data : List (List ℝ)) (hdim : ∀ p ∈ data, p.length = k)
    (h2 : 2 ≤ data.length) (R : ℝ) (hw : Within k data R) (hR : R < eps) :
    ∃ lines table, treeRun vectorsDistance sort .noPivot eps dim data = .ok (lines, table) ∧
      CompleteBarcode data.length (rowDist k data) (· < eps) R eps dim lines := by
  have hP : ∀ s t : ℝ, s ≤ t → t < eps → s < eps := fun s t h h' => lt_of_le_of_lt h h'
  obtain ⟨lines, T, h3, h4⟩ := C70_tree_run_partial sort eps dim k hk data hdim
    (within_edge (P := (· < eps)) hw h2 hP hR)
  exact ⟨lines, T, h3, complete_of_within hw hR hP h4⟩

/-- C132, the whole program with a `simplexTree` (partial: the reading past the end finds no pivot). -/
theorem C132_complete_program_partial (sys : System ℝ ℝ) (hdist : sys.lib.dist = vectorsDistance)
    (hread : sys.lib.mode = .noPivot) (pairs : List (String × String)) (m : ArgMap) (f : String)
    (data : List (List ℝ)) (h : PlainCommand sys pairs m "simplexTree" f data)
    (k : Nat) (hk : 0 < k) (hdim : ∀ p ∈ data, p.length = k) (h2 : 2 ≤ data.length)
    (R : ℝ) (hw : Within k data R) (hR : R < sys.atof (m.val "epsilon")) :
    ∃ w lines, mainProgram sys (commandLine pairs) = .ok w ∧ WritesBarcode sys.io f lines w ∧
      CompleteBarcode data.length (rowDist k data) (· < sys.atof (m.val "epsilon")) R
        (sys.atof (m.val "epsilon")) (sys.atoi (m.val "dimensions")) lines := by
  have hP : ∀ s t : ℝ, s ≤ t → t < sys.atof (m.val "epsilon") → s < sys.atof (m.val "epsilon") :=
    fun s t h h' => lt_of_le_of_lt h h'
  obtain ⟨w, lines, h3, h4, h5⟩ := C85_standard_program_partial sys hdist hread pairs m f data h k hk hdim
    (within_edge (P := (· < sys.atof (m.val "epsilon"))) hw h2 hP hR)
  exact ⟨w, lines, h3, h4, complete_of_within (inRange := (· < sys.atof (m.val "epsilon"))) hw hR hP h5⟩

/-- C132, with `dimensions` at most 1 (the default): nothing is assumed about reading past the end. -/
theorem C132_complete_program_default (sys : System ℝ ℝ) (hdist : sys.lib.dist = vectorsDistance)
    (pairs : List (String × String)) (m : ArgMap) (f : String)
    (data : List (List ℝ)) (h : PlainCommand sys pairs m "simplexTree" f data)
    (hd : sys.atoi (m.val "dimensions") ≤ 1)
    (k : Nat) (hk : 0 < k) (hdim : ∀ p ∈ data, p.length = k) (h2 : 2 ≤ data.length)
    (R : ℝ) (hw : Within k data R) (hR : R < sys.atof (m.val "epsilon")) :
    ∃ w lines, mainProgram sys (commandLine pairs) = .ok w ∧ WritesBarcode sys.io f lines w ∧
      lines.length = data.length ∧
      CompleteBarcode data.length (rowDist k data) (· < sys.atof (m.val "epsilon")) R
        (sys.atof (m.val "epsilon")) (sys.atoi (m.val "dimensions")) lines := by
  have hP : ∀ s t : ℝ, s ≤ t → t < sys.atof (m.val "epsilon") → s < sys.atof (m.val "epsilon") :=
    fun s t h h' => lt_of_le_of_lt h h'
  obtain ⟨w, lines, h3, h4, h6, h5⟩ := C85_standard_program_default sys hdist pairs m f data h hd k hk hdim
    (within_edge (P := (· < sys.atof (m.val "epsilon"))) hw h2 hP hR)
  have hC := complete_of_within (inRange := (· < sys.atof (m.val "epsilon"))) hw hR hP h5
  refine ⟨w, lines, h3, h4, ?_, hC⟩
  have := hC.zero
  rwa [List.filter_eq_self.2 (fun l hl => by simpa using h6 l hl)] at this

/-- C132: as the code is written, the only other outcome of the program is that it reads past the end. -/
theorem C132_complete_program_or_undefined (sys : System ℝ ℝ) (hdist : sys.lib.dist = vectorsDistance)
    (hread : sys.lib.mode = .undefined) (pairs : List (String × String)) (m : ArgMap) (f : String)
    (data : List (List ℝ)) (h : PlainCommand sys pairs m "simplexTree" f data)
    (k : Nat) (hk : 0 < k) (hdim : ∀ p ∈ data, p.length = k) (h2 : 2 ≤ data.length)
    (R : ℝ) (hw : Within k data R) (hR : R < sys.atof (m.val "epsilon")) :
    mainProgram sys (commandLine pairs) = .error .endDeref ∨
    ∃ w lines, mainProgram sys (commandLine pairs) = .ok w ∧ WritesBarcode sys.io f lines w ∧
      CompleteBarcode data.length (rowDist k data) (· < sys.atof (m.val "epsilon")) R
        (sys.atof (m.val "epsilon")) (sys.atoi (m.val "dimensions")) lines := by
  have hP : ∀ s t : ℝ, s ≤ t → t < sys.atof (m.val "epsilon") → s < sys.atof (m.val "epsilon") :=
    fun s t h h' => lt_of_le_of_lt h h'
  rcases C85_standard_program_or_undefined sys hdist hread pairs m f data h k hk hdim
    (within_edge (P := (· < sys.atof (m.val "epsilon"))) hw h2 hP hR) with h3 | ⟨w, lines, h3, h4, h5⟩
  · exact Or.inl h3
  · exact Or.inr ⟨w, lines, h3, h4,
      complete_of_within (inRange := (· < sys.atof (m.val "epsilon"))) hw hR hP h5⟩

/-- C132, the complex type `simplexArrayList` (partial: `dimensions` is positive and the reading past the
end finds no pivot): the radius may be equal to `epsilon`. -/
theorem C132_complete_program_array_partial (sys : System ℝ ℝ) (hdist : sys.lib.dist = vectorsDistance)
    (hread : sys.lib.mode = .noPivot) (pairs : List (String × String)) (m : ArgMap) (f : String)
    (data : List (List ℝ)) (h : PlainCommand sys pairs m "simplexArrayList" f data)
    (hcol : m.val "collapse" ≠ "true" ∧ m.val "collapse" ≠ "1")
    (hd : 0 < sys.atoi (m.val "dimensions"))
    (k : Nat) (hk : 0 < k) (hdim : ∀ p ∈ data, p.length = k) (h2 : 2 ≤ data.length)
    (R : ℝ) (hw : Within k data R) (hR : R ≤ sys.atof (m.val "epsilon")) :
    ∃ w lines, mainProgram sys (commandLine pairs) = .ok w ∧ WritesBarcode sys.io f lines w ∧
      CompleteBarcode data.length (rowDist k data) (· ≤ sys.atof (m.val "epsilon")) R
        (sys.atof (m.val "epsilon")) (sys.atoi (m.val "dimensions")) lines := by
  have hP : ∀ s t : ℝ, s ≤ t → t ≤ sys.atof (m.val "epsilon") → s ≤ sys.atof (m.val "epsilon") :=
    fun s t h h' => le_trans h h'
  obtain ⟨w, lines, h3, h4, h5⟩ := C85_standard_program_array_partial sys hdist hread pairs m f data h hcol
    hd k hk hdim (within_edge (P := (· ≤ sys.atof (m.val "epsilon"))) hw h2 hP hR)
  exact ⟨w, lines, h3, h4, complete_of_within (inRange := (· ≤ sys.atof (m.val "epsilon"))) hw hR hP h5⟩

/-! ### Loops that are still open -/

/-- The four corners of a square. -/
def unitSquare : List (ℤ × ℤ) := [(0, 0), (1, 0), (0, 1), (1, 1)]

/-- A run on points of the plane with integer coordinates, with the squares of the distances. -/
def planeRunAt (mode : EndRead) (e dim : Nat) (P : List (ℤ × ℤ)) : Res (List (Line Nat) × List (BettiEntry Nat)) :=
  Tree.insertN e dim (table P.length (fun i j => if i < j then planeSq P i j else 0)) P.length Tree.fresh >>=
    fun t => fastPersistence mode dim e (t.getAllEdges (SortBySecond.insertion (List Nat) ℕ)).1 [] []

theorem plane_run_at (mode : EndRead) (e dim : Nat) (P : List (ℤ × ℤ)) :
    treeRun vectorsDistance (SortBySecond.insertion (List Nat) ℝ) mode (Real.sqrt (e : ℕ)) dim (planeRows P) =
      Prod.map (List.map (mapL (fun n : ℕ => Real.sqrt (n : ℝ))))
        (List.map (mapB (fun n : ℕ => Real.sqrt (n : ℝ)))) <$> planeRunAt mode e dim P := by
  have := treeRun_natural (φ := fun n : ℕ => Real.sqrt (n : ℝ)) sqrt_nat_strictMono (by simp)
    (SortBySecond.insertion (List Nat) ℕ) (SortBySecond.insertion (List Nat) ℝ)
    (insertion_natural sqrt_nat_strictMono) mode e dim (planeSq P) 2 (by decide) (planeRows P)
    (by
      intro p hp
      obtain ⟨q, -, rfl⟩ := List.mem_map.1 hp
      rfl)
    (fun i j hij hj => rowDist_plane P i j (by
      rw [planeRows, List.length_map] at hj; omega) (by
      rw [planeRows, List.length_map] at hj; omega))
  rw [this]
  simp only [planeRows, List.length_map]
  rfl

theorem square_within : Within 2 (planeRows unitSquare) (Real.sqrt (2 : ℕ)) := by
  refine ⟨0, by decide, fun q hq => ?_⟩
  have hq' : q < unitSquare.length := by simpa [planeRows] using hq
  rw [rowDist_plane unitSquare 0 q (by decide) hq']
  refine sqrt_nat_strictMono.monotone ?_
  have : ∀ q < 4, planeSq unitSquare 0 q ≤ 2 := by decide
  exact this q hq'

/-- The loop of the square is there from the scale 1 on. -/
theorem square_loop : ripsBetti 4 (rowDist 2 (planeRows unitSquare)) 1 (Real.sqrt (1 : ℕ)) = 1 := by
  obtain ⟨T, r⟩ : ∃ T, planeRunAt .noPivot 100 2 unitSquare =
      .ok ([(0, 0, 1), (0, 0, 1), (0, 0, 1), (0, 0, 100), (1, 1, 2)], T) := ok_of_toOption (by decide +kernel)
  have e := (plane_run_at .noPivot 100 2 unitSquare).trans (congrArg _ r)
  obtain ⟨lines, T', h1, h2⟩ := C132_complete_run_partial (SortBySecond.insertion (List Nat) ℝ)
    (Real.sqrt (100 : ℕ)) 2 2 (by decide) (planeRows unitSquare) (by
      intro p hp
      obtain ⟨q, -, rfl⟩ := List.mem_map.1 hp
      rfl) (by decide) (Real.sqrt (2 : ℕ)) square_within (sqrt_nat_strictMono (by decide))
  rw [e] at h1
  cases h1
  have h3 := h2.higher 1 le_rfl (by decide) (Real.sqrt (1 : ℕ)) (Real.sqrt_nonneg _)
    (sqrt_nat_strictMono (by decide : 1 < 100))
  have hlen : (planeRows unitSquare).length = 4 := rfl
  rw [hlen] at h3
  rw [h3]
  have hlt : (1 : ℝ) < Real.sqrt 2 := by
    have h : Real.sqrt (1 : ℕ) < Real.sqrt (2 : ℕ) := sqrt_nat_strictMono (by decide)
    simpa using h
  simp [List.filter, mapL, decide_eq_true hlt]

/-- C132 fails for a smaller `epsilon`: the loop of a square with the sides 1 is still open at the scale
√2, and then it is not written at all: the barcode up to √2 has no line of dimension 1, although the Betti
number is 1. -/
theorem C132_open_loop_violated (mode : EndRead) : ∃ lines T,
    treeRun vectorsDistance (SortBySecond.insertion (List Nat) ℝ) mode (Real.sqrt (2 : ℕ)) 2
      (planeRows unitSquare) = .ok (lines, T) ∧
    (∀ l ∈ lines, l.1 = 0) ∧ Real.sqrt (1 : ℕ) < Real.sqrt (2 : ℕ) ∧
    ripsBetti 4 (rowDist 2 (planeRows unitSquare)) 1 (Real.sqrt (1 : ℕ)) = 1 := by
  obtain ⟨T, r⟩ : ∃ T, planeRunAt mode 2 2 unitSquare =
      .ok ([(0, 0, 1), (0, 0, 1), (0, 0, 1), (0, 0, 2)], T) := by
    cases mode <;> exact ok_of_toOption (by decide +kernel)
  have e := (plane_run_at mode 2 2 unitSquare).trans (congrArg _ r)
  refine ⟨_, _, e, ?_, sqrt_nat_strictMono (by decide), square_loop⟩
  intro l hl
  obtain ⟨l', hl', rfl⟩ := List.mem_map.1 hl
  have : ∀ l' ∈ [((0 : Nat), (0 : Nat), (1 : Nat)), (0, 0, 1), (0, 0, 1), (0, 0, 2)], l'.1 = 0 := by decide
  exact this l' hl'

/-- The hypotheses of C132: the corners of the square, within √2 of the first one. -/
example : 2 ≤ (planeRows unitSquare).length ∧ Within 2 (planeRows unitSquare) (Real.sqrt (2 : ℕ)) ∧
    Real.sqrt (2 : ℕ) < Real.sqrt (100 : ℕ) :=
  ⟨by decide, square_within, sqrt_nat_strictMono (by decide)⟩

end LHF
