import Verif.Props.Truncation
import Verif.Lemmas.TruncateArray
import Verif.Props.Stability
import Verif.Props.Reduced

/-! C99, C100 for the default pipeline on a `simplexArrayList`. -/

namespace LHF
open Spec

section
variable {W : Type} [LinearOrder W]

/-- A state with more lines. -/
def Reduction.preL (L : List (Line W)) (r : Reduction W) : Reduction W :=
  { r with lines := L ++ r.lines }

theorem columnStep_preL (L : List (Line W)) (mode : EndRead) (d : Nat) (pivots : List Nat)
    (rows : List (List Nat × W)) (r : Reduction W) (col : List Nat × W) :
    columnStep mode d pivots rows (r.preL L) col =
      (columnStep mode d pivots rows r col >>= fun r => pure (r.preL L)) := by
  unfold columnStep
  cases buildColumn mode pivots col.1 rows 0 pivots [] with
  | error e => rfl
  | ok coface =>
    rw [ok_bind, ok_bind]
    show (match reduceCol r.v (rows.length + 1) coface with
      | none => _ | some .dropped => _ | some (.stored p c) => _) = _
    cases reduceCol r.v (rows.length + 1) coface with
    | none => rfl
    | some x =>
      cases x with
      | dropped => rfl
      | stored p c =>
        dsimp only
        cases vget rows p with
        | error e => rfl
        | ok row =>
          rw [ok_bind, ok_bind]
          by_cases hw : row.2 ≠ col.2
          · rw [if_pos hw, if_pos hw, pure_eq_ok, pure_eq_ok, ok_bind, pure_eq_ok]
            unfold Reduction.preL
            simp
          · rw [if_neg hw, if_neg hw]; rfl

theorem reduceDim_preL (L : List (Line W)) (mode : EndRead) (d : Nat) (pivots : List Nat)
    (rows cols : List (List Nat × W)) (r : Reduction W) :
    cols.foldlM (columnStep mode d pivots rows) (r.preL L) =
      (cols.foldlM (columnStep mode d pivots rows) r >>= fun r => pure (r.preL L)) := by
  induction cols generalizing r with
  | nil => rfl
  | cons c cols ih =>
    rw [List.foldlM_cons, List.foldlM_cons, columnStep_preL]
    cases columnStep mode d pivots rows r c with
    | error e => rfl
    | ok r' => rw [ok_bind, ok_bind, pure_eq_ok, ok_bind, ih]

theorem reduceDims_preL (mode : EndRead) (edges : Graph W) (n d : Nat)
    (pivots : List Nat) (L lines : List (Line W)) (table : List (BettiEntry W)) :
    reduceDims mode edges n d pivots (L ++ lines) table =
      (reduceDims mode edges n d pivots lines table >>= fun r => pure (L ++ r.1, r.2)) := by
  induction n generalizing d pivots lines table with
  | zero => rfl
  | succ n ih =>
    rw [reduceDims, reduceDims]
    cases vget edges d with
    | error e => rfl
    | ok rows =>
      rw [ok_bind, ok_bind]
      cases vget edges (d + 1) with
      | error e => rfl
      | ok cols =>
        rw [ok_bind, ok_bind]
        have h := reduceDim_preL L mode d pivots rows cols ⟨[], [], 0, lines, table⟩
        unfold reduceDim
        rw [show (⟨[], [], 0, L ++ lines, table⟩ : Reduction W) =
          Reduction.preL L ⟨[], [], 0, lines, table⟩ from rfl, h]
        cases List.foldlM (columnStep mode d pivots rows) ⟨[], [], 0, lines, table⟩ cols with
        | error e => rfl
        | ok r =>
          rw [ok_bind, ok_bind, pure_eq_ok, ok_bind]
          exact ih _ _ _ _

/-- The reduction of the dimensions from 1 on, started without lines. -/
def loopLines (mode : EndRead) (dim : Nat) (edges : Graph W) (piv : List Nat) :
    Res (List (Line W) × List (BettiEntry W)) :=
  if dim > 0 then reduceDims mode edges (min dim (edges.length - 1) - 1) 1 piv [] [] else pure ([], [])

/-- `maxEpsilon` occurs in the barcode only as the end of the last line of dimension 0. -/
theorem fast_change_eps [Zero W] {mode : EndRead} {dim : Nat} {eps : W} {edges : Graph W} (hne : edges ≠ [])
    {r : List (Line W) × List (BettiEntry W)} (h : fastPersistence mode dim eps edges [] [] = .ok r) :
    ∃ A B : List (Line W), r.1 = A ++ [(0, 0, eps)] ++ B ∧ (∀ l ∈ A, l.1 = 0) ∧ (∀ l ∈ B, 1 ≤ l.1) ∧
      ∀ eps', ∃ r', fastPersistence mode dim eps' edges [] [] = .ok r' ∧ r'.1 = A ++ [(0, 0, eps')] ++ B := by
  have hl : ¬ edges.length = 0 := by simpa using hne
  have main : ∀ eps, fastPersistence mode dim eps edges [] [] = (do
      let verts ← vget edges 0
      let es ← vget edges 1
      let k := kruskalLoop verts.length es (Kruskal.init [])
      let r ← loopLines mode dim edges k.pivots
      pure (k.mst.map (fun z => ((0, 0, z) : Line W)) ++ [(0, 0, eps)] ++ r.1,
        k.table ++ [⟨0, 0, eps, []⟩] ++ r.2)) := by
    intro eps
    unfold fastPersistence
    rw [if_neg hl]
    cases vget edges 0 with
    | error e => rfl
    | ok verts =>
      rw [ok_bind, ok_bind]
      cases vget edges 1 with
      | error e => rfl
      | ok es =>
        rw [ok_bind, ok_bind]
        dsimp only
        unfold loopLines
        by_cases hd : dim > 0
        · rw [if_pos hd, if_pos hd]
          have e1 := reduceDims_preL mode edges (min dim (edges.length - 1) - 1) 1
            (kruskalLoop verts.length es (Kruskal.init [])).pivots
            ((kruskalLoop verts.length es (Kruskal.init [])).mst.map (fun z => ((0, 0, z) : Line W)) ++
              [(0, 0, eps)]) []
            ((kruskalLoop verts.length es (Kruskal.init [])).table ++ [⟨0, 0, eps, []⟩])
          rw [List.append_nil] at e1
          have e2 := reduceDims_pre
            ((kruskalLoop verts.length es (Kruskal.init ([] : List (BettiEntry W)))).table ++
              [(⟨0, 0, eps, []⟩ : BettiEntry W)]) mode edges
            (min dim (edges.length - 1) - 1) 1 (kruskalLoop verts.length es (Kruskal.init [])).pivots [] []
          rw [List.append_nil] at e2
          rw [e1, e2]
          cases reduceDims mode edges (min dim (edges.length - 1) - 1) 1
            (kruskalLoop verts.length es (Kruskal.init [])).pivots [] [] with
          | error e => rfl
          | ok r => rfl
        · rw [if_neg hd, if_neg hd, pure_bind]
          simp
  rw [main eps] at h
  obtain ⟨verts, h1, h⟩ := bind_ok.1 h
  obtain ⟨es, h2, h⟩ := bind_ok.1 h
  dsimp only at h
  obtain ⟨q, h3, h⟩ := bind_ok.1 h
  cases h
  refine ⟨_, _, rfl, ?_, ?_, fun eps' => ?_⟩
  · intro l hl
    obtain ⟨z, -, rfl⟩ := List.mem_map.1 hl
    rfl
  · intro l hl
    unfold loopLines at h3
    by_cases hd : dim > 0
    · rw [if_pos hd] at h3
      obtain ⟨y, y1, y2⟩ := reduceDims_grow _ _ _ _ _ _ h3
      rw [y1, List.nil_append] at hl
      exact (y2 l hl).1
    · rw [if_neg hd] at h3
      cases h3
      cases hl
  · rw [main eps', h1, ok_bind, h2, ok_bind]
    dsimp only
    rw [h3, ok_bind]
    exact ⟨_, rfl, rfl⟩

end

/-- A bound just above `e`, in view of finitely many numbers. -/
theorem exists_cut (F : List ℝ) (e : ℝ) : ∃ c, e < c ∧ ∀ x ∈ F, x < c ↔ x ≤ e := by
  induction F with
  | nil => exact ⟨e + 1, by linarith, by simp⟩
  | cons a F ih =>
    obtain ⟨c, h1, h2⟩ := ih
    by_cases ha : a ≤ e
    · refine ⟨c, h1, fun x hx => ?_⟩
      rcases List.mem_cons.1 hx with rfl | hx
      · exact ⟨fun _ => ha, fun _ => ha.trans_lt h1⟩
      · exact h2 x hx
    · rw [not_le] at ha
      refine ⟨min c a, lt_min h1 ha, fun x hx => ?_⟩
      rcases List.mem_cons.1 hx with rfl | hx
      · exact ⟨fun h => absurd (lt_of_lt_of_le h (min_le_right _ _)) (lt_irrefl _), fun h => absurd h (not_le.2 ha)⟩
      · rw [lt_min_iff, h2 x hx]
        exact ⟨fun h => h.1, fun h => ⟨h, h.trans_lt ha⟩⟩

/-- The complex that the pipeline builds, as one expansion of the inserted graph. -/
theorem array_expanded (sort : SortBySecond (List Nat) ℝ) (mode : EndRead) (eps : ℝ) (dim : Nat)
    (hd : 0 < dim) (k : Nat) (hk : 0 < k) (data : List (List ℝ)) (hdim : ∀ p ∈ data, p.length = k) :
    ∃ g : Graph ℝ,
      arrayRun vectorsDistance sort mode eps dim data =
        fastPersistence mode dim eps (arrayGetAllEdges sort g) [] [] ∧
      StoresRips g data.length (rowDist k data) (fun i j => rowDist k data i j ≤ eps) (dim + 1) ∧
      expandLoop (List.range' 2 dim) (insertedGraph eps (rowDist k data) dim data.length) = .ok g := by
  obtain ⟨ws, h1, -, -⟩ := C11_distance_matrix_euclidean k hk data hdim eps
  have hdm : ∀ i j, j < i → i < data.length → at2 (table data.length (fun i j =>
      if i < j then rowDist k data i j else 0)) j i = .ok (rowDist k data j i) :=
    fun i j hji hi => at2_table hji hi
  obtain ⟨ga, gb, h2, h3, -, h5, -⟩ := C16_expand_idempotent_monotone eps dim dim (dim + 1) hd _
    (rowDist k data) (fun _ _ => dist_nonneg) data (rows_ne_nil hk hdim) hdm (by omega)
  obtain ⟨gb', h6, h7⟩ := C13_expansion_is_rips eps dim (dim + 1) hd _
    (rowDist k data) (fun _ _ => dist_nonneg) data (rows_ne_nil hk hdim) hdm
  rw [h3] at h6
  cases h6
  rw [show max 1 (dim + 1) = dim + 1 by omega] at h7
  refine ⟨gb, ?_, h7, ?_⟩
  · unfold arrayRun
    rw [h1, ok_bind]
    unfold Spec.buildArray at h2
    rw [bind_ok] at h2
    obtain ⟨g0, h8, h9⟩ := h2
    show (arrayInsertAll eps dim (table data.length (fun i j =>
      if i < j then rowDist k data i j else 0)) data [] >>= _) = _
    rw [h8, ok_bind, h9, ok_bind, if_pos hd, h5, ok_bind]
  · have hpc : pointCount data = data.length := by
      unfold pointCount
      rw [List.filter_eq_self.2]
      intro p hp
      simpa using rows_ne_nil hk hdim p hp
    have h := arrayInsertAll_spec (eps := eps) (d := rowDist k data) (dm := table data.length (fun i j =>
      if i < j then rowDist k data i j else 0)) (maxDim := dim) data 0 (fun _ i j hji hi => hdm i j hji (by omega))
    rw [hpc, Nat.zero_add, show insertedGraph eps (rowDist k data) dim 0 = [] by simp [insertedGraph]] at h
    unfold Spec.buildArray at h3
    rw [h, ok_bind] at h3
    exact h3

theorem arrayEdges_getD {g : Graph ℝ} {n D : Nat} {d : Nat → Nat → ℝ} {near : Nat → Nat → Prop}
    (h : StoresRips g n d near D) (sort : SortBySecond (List Nat) ℝ) :
    (∀ k, (arrayGetAllEdges sort g).getD k [] = sort.run (g.getD k [])) ∧
      ∀ l ∈ arrayGetAllEdges sort g, l ≠ [] := by
  have runnil : sort.run [] = [] := List.perm_nil.1 (sort.perm [])
  have hinc : ∀ l ∈ g, ∀ e ∈ l, e.1.Pairwise (· < ·) := by
    intro l hl e he
    obtain ⟨k, hk⟩ := List.mem_iff_getElem?.1 hl
    have := (List.getElem?_eq_some_iff.1 hk).1
    have := h.only
    exact ((h.exact k e.1 e.2 (by omega)).1 ⟨l, hk, he⟩).2.1.2.1
  have hmap : arrayGetAllEdges sort g = (g.filter (fun l => l ≠ [])).map sort.run := by
    have : ∀ g : Graph ℝ, (∀ l ∈ g, ∀ e ∈ l, e.1.Pairwise (· < ·)) →
        arrayGetAllEdges sort g = (g.filter (fun l => l ≠ [])).map sort.run := by
      intro g
      induction g with
      | nil => intro _; rfl
      | cons l g ih =>
        intro hg
        have ih' := ih (fun l' h => hg l' (by simp [h]))
        have hmap : l.map (fun e => (toSet e.1, e.2)) = l := by
          conv_rhs => rw [← List.map_id l]
          apply List.map_congr_left
          intro e he
          rw [toSet_of_inc (hg l (by simp) e he)]; rfl
        unfold arrayGetAllEdges at ih' ⊢
        cases l with
        | nil => simpa using ih'
        | cons x xs =>
          rw [List.filterMap_cons]
          simp only [hmap, List.length_cons, gt_iff_lt, Nat.zero_lt_succ, if_true]
          rw [List.filter_cons_of_pos (by simp), List.map_cons, ih']
    exact this g hinc
  obtain ⟨m, hm⟩ := rips_trailing h
  refine ⟨fun k => ?_, fun l hl hnil => ?_⟩
  · rw [hmap]
    conv_rhs => rw [hm]
    generalize g.filter (fun l => l ≠ []) = G
    rw [List.getD_eq_getElem?_getD, List.getElem?_map, List.getD_eq_getElem?_getD]
    by_cases hk : k < G.length
    · rw [List.getElem?_append_left hk, List.getElem?_eq_getElem hk]
      rfl
    · rw [List.getElem?_append_right (by omega), List.getElem?_eq_none (by omega : G.length ≤ k),
        List.getElem?_replicate]
      split_ifs <;> exact runnil.symm
  · rw [hmap] at hl
    obtain ⟨a, ha, rfl⟩ := List.mem_map.1 hl
    have h1 := (List.mem_filter.1 ha).2
    have h2 := (sort.perm a).symm
    rw [hnil] at h2
    exact absurd (List.perm_nil.1 h2) (by simpa using h1)

/-- Two runs, the first with the smaller bounds: the lines of the first are those lines of the second that end
at or before the smaller bound and have a smaller dimension. -/
theorem array_trunc (sort : SortBySecond (List Nat) ℝ) {mode mode' : EndRead}
    (hmode : mode ≠ .libstdcxx) (hmode' : mode' ≠ .libstdcxx) {epsS epsL : ℝ}
    {dimS dimL : Nat} (heps : epsS ≤ epsL) (hdS : 0 < dimS) (hdimn : dimS ≤ dimL)
    (hsort : epsS = epsL ∨ Stable sort)
    (k : Nat) (hk : 0 < k) (data : List (List ℝ)) (hdim : ∀ p ∈ data, p.length = k)
    (hedge : ∃ i j, i < j ∧ j < data.length ∧ rowDist k data i j ≤ epsS)
    {rS rL : List (Line ℝ) × List (BettiEntry ℝ)}
    (hS : arrayRun vectorsDistance sort mode epsS dimS data = .ok rS)
    (hL : arrayRun vectorsDistance sort mode' epsL dimL data = .ok rL) :
    ∃ AS BS AL BL : List (Line ℝ), rS.1 = AS ++ [(0, 0, epsS)] ++ BS ∧ rL.1 = AL ++ [(0, 0, epsL)] ++ BL ∧
      (∀ l ∈ AL, l.1 = 0) ∧ (∀ l ∈ BL, 1 ≤ l.1) ∧ (∀ l ∈ AS, l.1 = 0) ∧ (∀ l ∈ BS, 1 ≤ l.1) ∧
      AS = AL.filter (fun l => l.2.2 ≤ epsS) ∧
      ∀ q, 1 ≤ q → q < dimS → BS.filter (fun l => l.1 = q) = BL.filter (fun l => l.1 = q ∧ l.2.2 ≤ epsS) := by
  obtain ⟨gS, s1, s2, s3⟩ := array_expanded sort mode epsS dimS hdS k hk data hdim
  obtain ⟨gL, l1, l2, l3⟩ := array_expanded sort mode' epsL dimL (by omega) k hk data hdim
  rw [s1] at hS
  rw [l1] at hL
  obtain ⟨c, hc1, hc2⟩ := exists_cut
    (((List.range data.length).flatMap (fun i => (List.range data.length).map (fun j => rowDist k data i j))) ++
      rL.1.map (fun l => l.2.2)) epsS
  have hc0 : 0 < c := by
    obtain ⟨i, j, -, -, h⟩ := hedge
    exact lt_of_le_of_lt (dist_nonneg.trans h) hc1
  have hcd : ∀ i j, i < data.length → j < data.length →
      (rowDist k data i j < c ↔ rowDist k data i j ≤ epsS) := by
    intro i j hi hj
    refine hc2 _ (List.mem_append_left _ (List.mem_flatMap.2 ⟨i, List.mem_range.2 hi,
      List.mem_map.2 ⟨j, List.mem_range.2 hj, rfl⟩⟩))
  have hcl : ∀ l ∈ rL.1, (l.2.2 < c ↔ l.2.2 ≤ epsS) := by
    intro l hl
    exact hc2 _ (List.mem_append_right _ (List.mem_map.2 ⟨l, hl, rfl⟩))
  have hinsS := insertedGraph_stores (eps := epsS) (d := rowDist k data) (maxDim := dimS) (n := data.length) hdS
    (fun _ _ => dist_nonneg)
  have hinsL := insertedGraph_stores (eps := epsL) (d := rowDist k data) (maxDim := dimL) (n := data.length)
    (by omega) (fun _ _ => dist_nonneg)
  obtain ⟨hb0, hf0⟩ := inserted_below (c := c) (epsS := epsS) (epsL := epsL) hc0 (d := rowDist k data)
    (n := data.length) (dimS := dimS) (dimL := dimL) hdS (by omega) (by
      intro i j hji hi
      rw [hcd j i (by omega) hi]
      exact ⟨fun h => ⟨h.trans heps, h⟩, fun h => h.2⟩)
  obtain ⟨gM, m1, m2, -, -⟩ := expandLoop_spec dimS _ 1 2 hinsL (by omega) (by omega)
  rw [show max 1 (2 + dimS - 1) = dimS + 1 by omega] at m2
  have hbM : Below c gS gM := expandLoop_below hc0 dimS 1 _ _ _ _ le_rfl hinsS hinsL hf0 hb0 s3 m1
  obtain ⟨t, rfl⟩ : ∃ t, dimL = dimS + t := ⟨dimL - dimS, by omega⟩
  rw [expandLoop_append dimS t _ _ 2 m1] at l3
  obtain ⟨gL', n1, -, ⟨x, n2⟩, -⟩ := expandLoop_spec t gM (dimS + 1) (2 + dimS) m2 (by omega) (by omega)
  rw [l3] at n1
  cases n1
  have hlayers : ∀ q, q ≤ dimS + 1 → gL.getD q [] = gM.getD q [] := by
    intro q hq
    rw [n2, List.getD_eq_getElem?_getD, List.getD_eq_getElem?_getD]
    by_cases hlt : q < gM.length
    · rw [List.getElem?_append_left hlt]
    · have : x = [] := by
        cases t with
        | zero => cases l3; simpa using n2
        | succ t =>
          rw [List.range'_succ, expandLoop, if_pos (by omega)] at l3
          cases l3
          simpa using n2
      rw [this, List.append_nil]
  obtain ⟨eS1, eS2⟩ := arrayEdges_getD s2 sort
  obtain ⟨eL1, -⟩ := arrayEdges_getD l2 sort
  obtain ⟨fS, soS⟩ := filtered_array s2 sort
  obtain ⟨fL, soL⟩ := filtered_array l2 sort
  have lenS := rips_two_layers (rips_nonempty s2) (by omega) soS hedge
  have lenL := rips_two_layers (rips_nonempty l2) (by omega) soL (by
    obtain ⟨i, j, h1, h2, h3⟩ := hedge
    exact ⟨i, j, h1, h2, h3.trans heps⟩)
  have hT : Trunc c (dimS + 2) (arrayGetAllEdges sort gS) (arrayGetAllEdges sort gL) := by
    intro q hq
    rw [eS1, eL1, hbM q, hlayers q (by omega)]
    rcases hsort with rfl | hsort
    · have hall : ∀ e ∈ gM.getD q [], decide (e.2 < c) = true := by
        intro e he
        have hw := rips_weighs m2 q e he
        by_cases hlt : q < gM.length
        · rw [List.getD_eq_getElem _ _ hlt] at he
          obtain ⟨-, a2, -⟩ := (m2.exact q e.1 e.2 (by omega)).1 ⟨_, List.getElem?_eq_getElem hlt, he⟩
          rw [decide_eq_true_eq, hw]
          refine lt_of_le_of_lt ?_ hc1
          rw [diam_le_iff]
          exact ⟨(by
            obtain ⟨i, j, -, -, h⟩ := hedge
            exact dist_nonneg.trans h), fun i hi j hj hij => a2.2.2.2 i hi j hj hij⟩
        · rw [List.getD_eq_default _ _ (by omega)] at he
          cases he
      rw [List.filter_eq_self.2 hall, List.filter_eq_self.2]
      intro e he
      exact hall e ((sort.perm _).mem_iff.1 he)
    · exact stable_filter hsort _ _
  have hneS : arrayGetAllEdges sort gS ≠ [] := by
    intro h
    rw [h] at lenS
    simp at lenS
  have hneL : arrayGetAllEdges sort gL ≠ [] := by
    intro h
    rw [h] at lenL
    simp at lenL
  have hlen : (arrayGetAllEdges sort gS).length ≤ (arrayGetAllEdges sort gL).length := by
    by_contra hlt
    rw [not_le] at hlt
    have hSlen : (arrayGetAllEdges sort gS).length ≤ dimS + 2 := by
      have h1 : (arrayGetAllEdges sort gS).length ≤ gS.length := by
        unfold arrayGetAllEdges
        exact List.length_filterMap_le _ _
      have := s2.only
      omega
    have h2 := hT (arrayGetAllEdges sort gL).length (by omega)
    rw [List.getD_eq_default (arrayGetAllEdges sort gL) _ le_rfl, List.getD_eq_getElem _ _ hlt] at h2
    exact eS2 _ (List.getElem_mem hlt) h2
  have hS' := fast_noPivot hmode fS lenS hS
  have hL' := fast_noPivot hmode' fL lenL hL
  obtain ⟨AS, BS, a1, a2, a3, a4⟩ := fast_change_eps hneS hS'
  obtain ⟨AL, BL, b1, b2, b3, b4⟩ := fast_change_eps hneL hL'
  obtain ⟨rS', a5, a6⟩ := a4 c
  obtain ⟨rL', b5, b6⟩ := b4 c
  have key := fastPersistence_trunc (c := c) (epsL := c) fL
    (fun q hq => hT q (by omega) : Trunc c (max 1 dimS + 1) _ _) le_rfl hdimn hlen hneS (by
      intro e he
      rw [eL1] at he
      have he' := (sort.perm _).mem_iff.1 he
      by_cases hlt : 0 < gL.length
      · rw [List.getD_eq_getElem _ _ hlt] at he'
        obtain ⟨q1, q2, q3⟩ := (l2.exact 0 e.1 e.2 (by omega)).1 ⟨_, List.getElem?_eq_getElem hlt, he'⟩
        obtain ⟨v, hv⟩ := List.length_eq_one_iff.1 q1
        rw [q3, hv, diam_singleton]
        exact hc0
      · rw [List.getD_eq_default _ _ (by omega)] at he'
        cases he') a5 b5
  rw [a6, b6] at key
  have zero : ∀ B : List (Line ℝ), (∀ l ∈ B, 1 ≤ l.1) → B.filter (fun l => l.1 = 0) = [] := by
    intro B hB
    rw [List.filter_eq_nil_iff]
    intro l hl
    have := hB l hl
    rw [decide_eq_true_eq]
    omega
  refine ⟨AS, BS, AL, BL, a1, b1, b2, b3, a2, a3, ?_, fun q hq1 hq2 => ?_⟩
  · have h0 := key 0 (by omega)
    rw [if_pos rfl] at h0
    have e1 : (AS ++ [((0, 0, c) : Line ℝ)] ++ BS).filter (fun l => l.1 = 0) = AS ++ [(0, 0, c)] := by
      rw [List.filter_append, List.filter_append, zero BS a3,
        List.filter_eq_self.2 (fun l hl => by simpa using a2 l hl)]
      simp
    have e2 : (AL ++ [((0, 0, c) : Line ℝ)] ++ BL).filter (fun l => l.1 = 0 ∧ l.2.2 < c) =
        AL.filter (fun l => l.2.2 < c) := by
      rw [List.filter_append, List.filter_append]
      have z1 : BL.filter (fun l => l.1 = 0 ∧ l.2.2 < c) = [] := by
        rw [List.filter_eq_nil_iff]
        intro l hl
        have := b3 l hl
        simp only [decide_eq_true_eq]
        rintro ⟨h, -⟩
        omega
      rw [z1]
      simp only [List.append_nil, lt_irrefl, and_false, decide_false, Bool.false_eq_true,
        not_false_eq_true, List.filter_cons_of_neg, List.filter_nil]
      apply List.filter_congr
      intro l hl
      simp [b2 l hl]
    rw [e1, e2] at h0
    rw [List.append_cancel_right h0]
    apply List.filter_congr
    intro l hl
    simp only [decide_eq_decide]
    exact hcl l (by rw [b1]; simp [hl])
  · have h0 := key q (by omega)
    rw [if_neg (by omega), List.append_nil] at h0
    have e1 : (AS ++ [((0, 0, c) : Line ℝ)] ++ BS).filter (fun l => l.1 = q) =
        BS.filter (fun l => l.1 = q) := by
      rw [List.filter_append, List.filter_append]
      have z1 : AS.filter (fun l => l.1 = q) = [] := by
        rw [List.filter_eq_nil_iff]
        intro l hl
        have := a2 l hl
        rw [decide_eq_true_eq]
        omega
      have : (0 : Nat) ≠ q := by omega
      rw [z1]
      simp [this]
    have e2 : (AL ++ [((0, 0, c) : Line ℝ)] ++ BL).filter (fun l => l.1 = q ∧ l.2.2 < c) =
        BL.filter (fun l => l.1 = q ∧ l.2.2 ≤ epsS) := by
      rw [List.filter_append, List.filter_append]
      have z1 : AL.filter (fun l => l.1 = q ∧ l.2.2 < c) = [] := by
        rw [List.filter_eq_nil_iff]
        intro l hl
        have := b2 l hl
        simp only [decide_eq_true_eq]
        rintro ⟨h, -⟩
        omega
      have : (0 : Nat) ≠ q := by omega
      rw [z1]
      simp only [List.nil_append, this, false_and, decide_false, Bool.false_eq_true,
        not_false_eq_true, List.filter_cons_of_neg, List.filter_nil]
      apply List.filter_congr
      intro l hl
      simp only [decide_eq_decide]
      rw [hcl l (by rw [b1]; simp [hl])]
    rw [e1, e2] at h0
    exact h0

theorem array_range (sort : SortBySecond (List Nat) ℝ) {mode : EndRead} (hmode : mode ≠ .libstdcxx)
    {eps : ℝ} {dim : Nat} (hd : 0 < dim) (k : Nat) (hk : 0 < k) (data : List (List ℝ))
    (hdim : ∀ p ∈ data, p.length = k)
    (hedge : ∃ i j, i < j ∧ j < data.length ∧ rowDist k data i j ≤ eps)
    {r : List (Line ℝ) × List (BettiEntry ℝ)}
    (hok : arrayRun vectorsDistance sort mode eps dim data = .ok r) :
    r.1.Pairwise (fun a b => a.1 ≤ b.1) ∧ ∀ l ∈ r.1, l.1 < dim ∧ (1 ≤ l.1 → l.2.2 ≤ eps) := by
  refine ⟨?_, fun l hl => ?_⟩
  · obtain ⟨g, h1, -, -⟩ := array_built sort mode eps dim hd k hk data hdim
    rw [h1] at hok
    exact fast_ordered hok
  have fin : ∀ ls, DescribesRips data.length (rowDist k data) (· ≤ eps) eps dim ls → l ∈ ls →
      l.1 < dim ∧ (1 ≤ l.1 → l.2.2 ≤ eps) := by
    intro ls h hl
    refine ⟨?_, fun h1 => ?_⟩
    · rcases h.only l hl with h | h <;> omega
    · exact (h.bars l hl h1).2.2
  cases mode with
  | libstdcxx => exact absurd rfl hmode
  | noPivot =>
    obtain ⟨ls, T, h4, h5⟩ := C71_array_run_partial sort eps dim hd k hk data hdim hedge
    rw [h4] at hok
    cases hok
    exact fin ls h5 hl
  | undefined =>
    rcases C71_array_run_or_undefined sort eps dim hd k hk data hdim hedge with h4 | ⟨ls, T, h4, h5⟩
    · rw [h4] at hok; cases hok
    · rw [h4] at hok
      cases hok
      exact fin ls h5 hl

/-! ### C99 -/

/-- The barcode at the bound `eps`, in terms of the barcode `lines` of a larger one: the components that
have merged at or below `eps`, the one that never does, the other bars that end at or below `eps`. (A
`simplexArrayList` keeps the edges of length equal to the bound.) -/
noncomputable def Spec.truncatedAt (eps : ℝ) (lines : List (Line ℝ)) : List (Line ℝ) :=
  lines.filter (fun l => l.1 = 0 ∧ l.2.2 ≤ eps) ++ [(0, 0, eps)] ++
    lines.filter (fun l => 1 ≤ l.1 ∧ l.2.2 ≤ eps)

/-- C99 for a `simplexArrayList`, for every run that returns: with a stable sort the barcode for a smaller
`epsilon` is the barcode for the larger one without the bars that end after the smaller one. -/
theorem C99_smaller_epsilon_array_runs (sort : SortBySecond (List Nat) ℝ) (hsort : Stable sort)
    {mode mode' : EndRead} (hmode : mode ≠ .libstdcxx) (hmode' : mode' ≠ .libstdcxx)
    {eps eps' : ℝ} (heps : eps' < eps) (dim : Nat) (hd : 0 < dim)
    (k : Nat) (hk : 0 < k) (data : List (List ℝ)) (hdim : ∀ p ∈ data, p.length = k)
    (hedge : ∃ i j, i < j ∧ j < data.length ∧ rowDist k data i j ≤ eps')
    {lines lines' : List (Line ℝ)} {T T' : List (BettiEntry ℝ)}
    (hok' : arrayRun vectorsDistance sort mode' eps' dim data = .ok (lines', T'))
    (hok : arrayRun vectorsDistance sort mode eps dim data = .ok (lines, T)) :
    lines' = truncatedAt eps' lines := by
  obtain ⟨AS, BS, AL, BL, h1, h2, h3, h4, -, h6, h7, h8⟩ := array_trunc sort hmode' hmode heps.le hd le_rfl
    (.inr hsort) k hk data hdim hedge hok' hok
  obtain ⟨o1', o2'⟩ := array_range sort hmode' hd k hk data hdim hedge hok'
  obtain ⟨o1, o2⟩ := array_range sort hmode hd k hk data hdim (by
    obtain ⟨i, j, h1, h2, h3⟩ := hedge
    exact ⟨i, j, h1, h2, h3.trans heps.le⟩) hok
  dsimp only at h1 h2 o1 o2 o1' o2'
  have hB : BS = BL.filter (fun l => l.2.2 ≤ eps') := by
    refine eq_of_keys (fun l : Line ℝ => l.1) ?_ ?_ (fun q => ?_)
    · rw [h1] at o1'
      exact (List.pairwise_append.1 o1').2.1
    · rw [h2] at o1
      exact (List.pairwise_append.1 o1).2.1.filter _
    · by_cases hq : 1 ≤ q ∧ q < dim
      · rw [h8 q hq.1 hq.2, List.filter_filter]
        apply List.filter_congr
        intro l _
        by_cases a : l.1 = q <;> simp [a]
      · have e1 : BS.filter (fun l => l.1 = q) = [] := by
          rw [List.filter_eq_nil_iff]
          intro l hl
          have a := h6 l hl
          have b := (o2' l (by rw [h1]; simp [hl])).1
          rw [decide_eq_true_eq]
          omega
        have e2 : (BL.filter (fun l => decide (l.2.2 ≤ eps'))).filter (fun l => l.1 = q) = [] := by
          rw [List.filter_eq_nil_iff]
          intro l hl
          have hl := (List.mem_filter.1 hl).1
          have a := h4 l hl
          have b := (o2 l (by rw [h2]; simp [hl])).1
          rw [decide_eq_true_eq]
          omega
        rw [e1, e2]
  have f1 : (AL ++ [((0, 0, eps) : Line ℝ)] ++ BL).filter (fun l => l.1 = 0 ∧ l.2.2 ≤ eps') =
      AL.filter (fun l => l.2.2 ≤ eps') := by
    rw [List.filter_append, List.filter_append]
    have z : BL.filter (fun l => l.1 = 0 ∧ l.2.2 ≤ eps') = [] := by
      rw [List.filter_eq_nil_iff]
      intro l hl
      have := h4 l hl
      simp only [decide_eq_true_eq]
      rintro ⟨h, -⟩
      omega
    have z2 : [((0, 0, eps) : Line ℝ)].filter (fun l => l.1 = 0 ∧ l.2.2 ≤ eps') = [] := by simp [heps]
    rw [z, z2, List.append_nil, List.append_nil]
    apply List.filter_congr
    intro l hl
    simp [h3 l hl]
  have f2 : (AL ++ [((0, 0, eps) : Line ℝ)] ++ BL).filter (fun l => 1 ≤ l.1 ∧ l.2.2 ≤ eps') =
      BL.filter (fun l => l.2.2 ≤ eps') := by
    rw [List.filter_append, List.filter_append]
    have z : AL.filter (fun l => 1 ≤ l.1 ∧ l.2.2 ≤ eps') = [] := by
      rw [List.filter_eq_nil_iff]
      intro l hl
      have := h3 l hl
      simp only [decide_eq_true_eq]
      rintro ⟨h, -⟩
      omega
    rw [z]
    simp only [Nat.not_ofNat_le_one, nonpos_iff_eq_zero, one_ne_zero, false_and, decide_false, Bool.false_eq_true,
        not_false_eq_true, List.filter_cons_of_neg, List.filter_nil, List.nil_append]
    apply List.filter_congr
    intro l hl
    simp [h4 l hl]
  rw [h1, h2]
  unfold truncatedAt
  rw [f1, f2, h7, hB]

/-- C99 for a `simplexArrayList` (partial: a stable sort, the end iterator is not read): both runs return. -/
theorem C99_smaller_epsilon_array_partial (sort : SortBySecond (List Nat) ℝ) (hsort : Stable sort)
    {eps eps' : ℝ} (heps : eps' < eps) (dim : Nat) (hd : 0 < dim)
    (k : Nat) (hk : 0 < k) (data : List (List ℝ)) (hdim : ∀ p ∈ data, p.length = k)
    (hedge : ∃ i j, i < j ∧ j < data.length ∧ rowDist k data i j ≤ eps') :
    ∃ lines T T', arrayRun vectorsDistance sort .noPivot eps dim data = .ok (lines, T) ∧
      arrayRun vectorsDistance sort .noPivot eps' dim data = .ok (truncatedAt eps' lines, T') := by
  have hedgeL : ∃ i j, i < j ∧ j < data.length ∧ rowDist k data i j ≤ eps := by
    obtain ⟨i, j, h1, h2, h3⟩ := hedge
    exact ⟨i, j, h1, h2, h3.trans heps.le⟩
  obtain ⟨lines, T, h1, -⟩ := C71_array_run_partial sort eps dim hd k hk data hdim hedgeL
  obtain ⟨lines', T', h2, -⟩ := C71_array_run_partial sort eps' dim hd k hk data hdim hedge
  have := C99_smaller_epsilon_array_runs sort hsort (by simp) (by simp) heps dim hd k hk data hdim hedge h2 h1
  rw [this] at h2
  exact ⟨lines, T, T', h1, h2⟩

/-- C99 for the components (dimension 0) of a `simplexArrayList`: whatever the sorts, the values of
`dimensions` and the reading of the end iterator. -/
theorem C99_components_array (sort sort' : SortBySecond (List Nat) ℝ) (mode mode' : EndRead)
    {eps eps' : ℝ} (heps : eps' < eps) (dim dim' : Nat) (hd : 0 < dim) (hd' : 0 < dim')
    (k : Nat) (hk : 0 < k) (data : List (List ℝ)) (hne : data ≠ []) (hdim : ∀ p ∈ data, p.length = k)
    {lines lines' : List (Line ℝ)} {T T' : List (BettiEntry ℝ)}
    (hok' : arrayRun vectorsDistance sort' mode' eps' dim' data = .ok (lines', T'))
    (hok : arrayRun vectorsDistance sort mode eps dim data = .ok (lines, T)) :
    lines'.filter (fun l => l.1 = 0) =
      lines.filter (fun l => l.1 = 0 ∧ l.2.2 ≤ eps') ++ [(0, 0, eps')] := by
  obtain ⟨-, ds, h1, h2⟩ := array_merge hd hk hne hdim hok
  obtain ⟨-, ds', h1', h2'⟩ := array_merge hd' hk hne hdim hok'
  have hds : ds' = ds.filter (fun w => w ≤ eps') := by
    refine sorted_counts_unique (P := fun w => 0 ≤ w ∧ w ≤ eps') h2'.sorted (h2.sorted.filter _) h2'.range ?_ ?_
    · intro w hw
      obtain ⟨a, b⟩ := List.mem_filter.1 hw
      exact ⟨(h2.range w a).1, by simpa using b⟩
    · intro t ht
      have e1 := h2.count t ht.1 (ht.2.trans heps.le)
      have e2 := h2'.count t ht.1 ht.2
      rw [List.filter_filter]
      have : ds.filter (fun a => decide (a ≤ t) && decide (a ≤ eps')) = ds.filter (fun w => w ≤ t) := by
        apply List.filter_congr
        intro a _
        by_cases ha : a ≤ t
        · simp [ha, ha.trans ht.2]
        · simp [ha]
      rw [this]
      omega
  have key : lines.filter (fun l => decide (l.1 = 0 ∧ l.2.2 ≤ eps')) =
      (lines.filter (fun l => l.1 = 0)).filter (fun l => l.2.2 ≤ eps') := by
    rw [List.filter_filter]
    apply List.filter_congr
    intro a _
    by_cases ha : a.1 = 0 <;> simp [ha]
  rw [h1', key, h1, hds, List.filter_append]
  have e2 : [((0, 0, eps) : Line ℝ)].filter (fun l => l.2.2 ≤ eps') = [] := by
    simp [heps]
  rw [e2, List.append_nil, List.filter_map]
  rfl

/-- C99 for the whole program on a `simplexArrayList` (partial: a stable sort). -/
theorem C99_program_array_partial (sys : System ℝ ℝ) (hdist : sys.lib.dist = vectorsDistance)
    (hsort : Stable sys.lib.sort) (hmode : sys.lib.mode = .noPivot)
    (pairs pairs' : List (String × String)) (m m' : ArgMap) (f f' : String) (data : List (List ℝ))
    (h : PlainCommand sys pairs m "simplexArrayList" f data)
    (h' : PlainCommand sys pairs' m' "simplexArrayList" f' data)
    (hcol : m.val "collapse" ≠ "true" ∧ m.val "collapse" ≠ "1")
    (hcol' : m'.val "collapse" ≠ "true" ∧ m'.val "collapse" ≠ "1")
    (heps : sys.atof (m'.val "epsilon") < sys.atof (m.val "epsilon"))
    (hd : sys.atoi (m'.val "dimensions") = sys.atoi (m.val "dimensions"))
    (hd0 : 0 < sys.atoi (m.val "dimensions"))
    (k : Nat) (hk : 0 < k) (hdim : ∀ p ∈ data, p.length = k)
    (hedge : ∃ i j, i < j ∧ j < data.length ∧ rowDist k data i j ≤ sys.atof (m'.val "epsilon")) :
    ∃ w w' lines, mainProgram sys (commandLine pairs) = .ok w ∧
      mainProgram sys (commandLine pairs') = .ok w' ∧ WritesBarcode sys.io f lines w ∧
      WritesBarcode sys.io f' (truncatedAt (sys.atof (m'.val "epsilon")) lines) w' := by
  obtain ⟨lines, T, T', h1, h2⟩ := C99_smaller_epsilon_array_partial sys.lib.sort hsort heps
    (sys.atoi (m.val "dimensions")) hd0 k hk data hdim hedge
  rw [← hmode] at h1 h2
  rw [← hd] at h2
  obtain ⟨w, h3, h4⟩ := (main_array sys hdist pairs m f data h hcol hd0 k hk hdim).of_ok h1
  obtain ⟨w', h5, h6⟩ := (main_array sys hdist pairs' m' f' data h' hcol' (by omega) k hk hdim).of_ok h2
  exact ⟨w, w', lines, h3, h5, h4, h6⟩

/-! ### C100 -/

/-- C100 for a `simplexArrayList`, for every run that returns: the barcode for a smaller value of
`dimensions` consists of the lines of lower dimension of the barcode for the larger value, and these come
first in it. -/
theorem C100_dimensions_array_runs (sort : SortBySecond (List Nat) ℝ)
    {mode mode' : EndRead} (hmode : mode ≠ .libstdcxx) (hmode' : mode' ≠ .libstdcxx)
    (eps : ℝ) {dim dim' : Nat} (hd' : 0 < dim') (hdimn : dim' ≤ dim)
    (k : Nat) (hk : 0 < k) (data : List (List ℝ)) (hdim : ∀ p ∈ data, p.length = k)
    (hedge : ∃ i j, i < j ∧ j < data.length ∧ rowDist k data i j ≤ eps)
    {lines lines' : List (Line ℝ)} {T T' : List (BettiEntry ℝ)}
    (hok' : arrayRun vectorsDistance sort mode' eps dim' data = .ok (lines', T'))
    (hok : arrayRun vectorsDistance sort mode eps dim data = .ok (lines, T)) :
    lines' = lines.filter (fun l => l.1 < dim') ∧ lines' <+: lines := by
  obtain ⟨AS, BS, AL, BL, h1, h2, h3, h4, -, h6, h7, h8⟩ := array_trunc sort hmode' hmode le_rfl hd' hdimn
    (.inl rfl) k hk data hdim hedge hok' hok
  obtain ⟨o1', o2'⟩ := array_range sort hmode' hd' k hk data hdim hedge hok'
  obtain ⟨o1, o2⟩ := array_range sort hmode (by omega) k hk data hdim hedge hok
  have hne : data ≠ [] := by
    obtain ⟨i, j, -, hj, -⟩ := hedge
    rintro rfl
    simp at hj
  obtain ⟨-, ds, m1, m2⟩ := array_merge (by omega) hk hne hdim hok
  dsimp only at h1 h2 o1 o2 o1' o2'
  have hA : AL.filter (fun l => l.2.2 ≤ eps) = AL := by
    rw [List.filter_eq_self]
    intro l hl
    have hmem : l ∈ lines.filter (fun l => l.1 = 0) := by
      rw [List.mem_filter]
      exact ⟨by rw [h2]; simp [hl], by simpa using h3 l hl⟩
    rw [m1] at hmem
    rw [decide_eq_true_eq]
    rcases List.mem_append.1 hmem with hm | hm
    · obtain ⟨w, hw, rfl⟩ := List.mem_map.1 hm
      exact (m2.range w hw).2
    · rw [List.mem_singleton.1 hm]
  have hB : BS = BL.filter (fun l => l.1 < dim') := by
    refine eq_of_keys (fun l : Line ℝ => l.1) ?_ ?_ (fun q => ?_)
    · rw [h1] at o1'
      exact (List.pairwise_append.1 o1').2.1
    · rw [h2] at o1
      exact (List.pairwise_append.1 o1).2.1.filter _
    · by_cases hq : 1 ≤ q ∧ q < dim'
      · rw [h8 q hq.1 hq.2, List.filter_filter]
        apply List.filter_congr
        intro l hl
        have := (o2 l (by rw [h2]; simp [hl])).2 (h4 l hl)
        by_cases a : l.1 = q
        · simp [a, this, hq.2]
        · simp [a]
      · have e1 : BS.filter (fun l => l.1 = q) = [] := by
          rw [List.filter_eq_nil_iff]
          intro l hl
          have a := h6 l hl
          have b := (o2' l (by rw [h1]; simp [hl])).1
          rw [decide_eq_true_eq]
          omega
        have e2 : (BL.filter (fun l => decide (l.1 < dim'))).filter (fun l => l.1 = q) = [] := by
          rw [List.filter_eq_nil_iff]
          intro l hl
          obtain ⟨hl, b⟩ := List.mem_filter.1 hl
          have a := h4 l hl
          rw [decide_eq_true_eq] at b ⊢
          omega
        rw [e1, e2]
  have key : lines' = lines.filter (fun l => l.1 < dim') := by
    rw [h1, h2, List.filter_append, List.filter_append, ← hB, h7, hA]
    have e1 : AL.filter (fun l => l.1 < dim') = AL := by
      rw [List.filter_eq_self]
      intro l hl
      rw [h3 l hl]
      simpa using hd'
    rw [e1]
    simp [hd']
  refine ⟨key, ?_⟩
  rw [key]
  exact prefix_of_ordered dim' lines o1

/-- C100 for a `simplexArrayList` (partial: the end iterator is not read): both runs return, and the larger
value only appends lines of the new dimensions. -/
theorem C100_dimensions_array_partial (sort : SortBySecond (List Nat) ℝ) (eps : ℝ) {dim dim' : Nat}
    (hd' : 0 < dim') (hdimn : dim' ≤ dim) (k : Nat) (hk : 0 < k) (data : List (List ℝ))
    (hdim : ∀ p ∈ data, p.length = k)
    (hedge : ∃ i j, i < j ∧ j < data.length ∧ rowDist k data i j ≤ eps) :
    ∃ lines more T T', arrayRun vectorsDistance sort .noPivot eps dim' data = .ok (lines, T') ∧
      arrayRun vectorsDistance sort .noPivot eps dim data = .ok (lines ++ more, T) ∧
      ∀ l ∈ more, dim' ≤ l.1 ∧ l.1 < dim := by
  obtain ⟨lines, T, h1, -⟩ := C71_array_run_partial sort eps dim (by omega) k hk data hdim hedge
  obtain ⟨lines', T', h2, -⟩ := C71_array_run_partial sort eps dim' hd' k hk data hdim hedge
  obtain ⟨h3, more, h4⟩ := C100_dimensions_array_runs sort (by simp) (by simp) eps hd' hdimn k hk data hdim
    hedge h2 h1
  refine ⟨lines', more, T, T', h2, by rw [h4]; exact h1, ?_⟩
  intro l hl
  have o := ((array_range sort (by simp) (by omega) k hk data hdim hedge h1).2 l (by rw [← h4]; simp [hl])).1
  refine ⟨?_, o⟩
  by_contra hlt
  rw [← h4, List.filter_append] at h3
  have e : lines'.filter (fun l => l.1 < dim') = lines' := by
    rw [List.filter_eq_self]
    intro a ha
    rw [decide_eq_true_eq]
    exact ((array_range sort (by simp) hd' k hk data hdim hedge h2).2 a ha).1
  rw [e] at h3
  have h5 := List.self_eq_append_right.1 h3
  have := List.filter_eq_nil_iff.1 h5 l hl
  rw [decide_eq_true_eq] at this
  omega

/-- C100 for the whole program on a `simplexArrayList` (partial: the end iterator is not read). -/
theorem C100_program_array_partial (sys : System ℝ ℝ) (hdist : sys.lib.dist = vectorsDistance)
    (hmode : sys.lib.mode = .noPivot)
    (pairs pairs' : List (String × String)) (m m' : ArgMap) (f f' : String) (data : List (List ℝ))
    (h : PlainCommand sys pairs m "simplexArrayList" f data)
    (h' : PlainCommand sys pairs' m' "simplexArrayList" f' data)
    (hcol : m.val "collapse" ≠ "true" ∧ m.val "collapse" ≠ "1")
    (hcol' : m'.val "collapse" ≠ "true" ∧ m'.val "collapse" ≠ "1")
    (heps : sys.atof (m'.val "epsilon") = sys.atof (m.val "epsilon"))
    (hd' : 0 < sys.atoi (m'.val "dimensions"))
    (hd : sys.atoi (m'.val "dimensions") ≤ sys.atoi (m.val "dimensions"))
    (k : Nat) (hk : 0 < k) (hdim : ∀ p ∈ data, p.length = k)
    (hedge : ∃ i j, i < j ∧ j < data.length ∧ rowDist k data i j ≤ sys.atof (m.val "epsilon")) :
    ∃ w w' lines lines', mainProgram sys (commandLine pairs) = .ok w ∧
      mainProgram sys (commandLine pairs') = .ok w' ∧ WritesBarcode sys.io f lines w ∧
      WritesBarcode sys.io f' lines' w' ∧
      barcodeContent sys.io lines' <+: barcodeContent sys.io lines := by
  obtain ⟨lines, more, T, T', h1, h2, -⟩ := C100_dimensions_array_partial sys.lib.sort
    (sys.atof (m.val "epsilon")) hd' hd k hk data hdim hedge
  rw [← hmode] at h1 h2
  rw [← heps] at h1
  obtain ⟨w, h3, h4⟩ := (main_array sys hdist pairs m f data h hcol (by omega) k hk hdim).of_ok h2
  obtain ⟨w', h5, h6⟩ := (main_array sys hdist pairs' m' f' data h' hcol' hd' k hk hdim).of_ok h1
  refine ⟨w, w', _, _, h3, h5, h4, h6, ?_⟩
  unfold barcodeContent
  rw [List.map_append, List.flatten_append, ← List.append_assoc]
  exact List.prefix_append _ _

/-! ### Cases that meet the hypotheses -/

/-- An edge of length 2 is kept at the bound 2. -/
example : Stable (SortBySecond.insertion (List Nat) ℝ) ∧
    (∀ p ∈ [[0], [2], [5], [(9 : ℝ)]], p.length = 1) ∧ (2 : ℝ) < 4 ∧
    ∃ i j, i < j ∧ j < [[0], [2], [5], [(9 : ℝ)]].length ∧
      rowDist 1 [[0], [2], [5], [(9 : ℝ)]] i j ≤ 2 := by
  refine ⟨insertion_stable _, by simp, by norm_num, 0, 1, by decide, by simp, ?_⟩
  unfold rowDist Spec.point
  rw [EuclideanSpace.dist_eq]
  simp

/-- A system that reads the value of `-e` and does not read the end iterator. -/
noncomputable def Spec.readingSystem (text : String) : System ℝ ℝ :=
  { realSystem [] [] text with
    atof := fun s => ((s.toList.foldl (fun n c => 10 * n + (c.toNat - 48)) 0 : Nat) : ℝ)
    lib := { (realSystem [] [] text).lib with mode := .noPivot } }

/-- Command lines that differ in `-e`, `-d` and the output only, with the hypotheses of the theorems about
the whole program. -/
example : (readingSystem "00\n02\n05\n09").lib.mode = .noPivot ∧
    Stable (readingSystem "00\n02\n05\n09").lib.sort ∧
    ∀ e ∈ ["2", "4"], ∀ d ∈ ["1", "2", "3"],
    ∃ m, PlainCommand (readingSystem "00\n02\n05\n09")
      [("-i", "data.csv"), ("-o", "bars"), ("-c", "simplexArrayList"), ("-e", e), ("-d", d)] m
      "simplexArrayList" "bars"
      [[((0 : Nat) : ℝ)], [((2 : Nat) : ℝ)], [((5 : Nat) : ℝ)], [((9 : Nat) : ℝ)]] ∧
    (m.val "collapse" ≠ "true" ∧ m.val "collapse" ≠ "1") ∧ m.val "epsilon" = e ∧ m.val "dimensions" = d ∧
    0 < (readingSystem "00\n02\n05\n09").atoi d := by
  refine ⟨rfl, insertion_stable _, ?_⟩
  intro e he d hd
  simp only [List.mem_cons, List.not_mem_nil, or_false] at he hd
  rcases he with rfl | rfl <;> rcases hd with rfl | rfl | rfl <;>
  exact ⟨_, ⟨rfl, by decide, by decide, Or.inl (by decide), by decide, by decide, by decide, by decide,
    by decide, rfl, by simp⟩, ⟨by decide, by decide⟩, by decide, by decide, by decide⟩

example : (readingSystem "00").atof "2" < (readingSystem "00").atof "4" := by
  show (((2 : Nat) : ℝ)) < ((4 : Nat) : ℝ)
  norm_num

end LHF
