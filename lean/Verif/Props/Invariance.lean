import Verif.Props.Program
import Verif.Lemmas.Natural
import Verif.Lemmas.Relabel
import Mathlib.Data.List.Perm.Basic
import Mathlib.Tactic.NormNum

/-! C94, C95: what the barcode depends on: the order of the rows, isometries and changes of scale. -/

namespace LHF
open Spec

/-- Two clouds are congruent: there is a bijection of their points that preserves the distances. -/
def Spec.Congruent (k : Nat) (data : List (List ℝ)) (k' : Nat) (data' : List (List ℝ)) : Prop :=
  ∃ σ : Fin data.length ≃ Fin data'.length,
    ∀ i j, rowDist k' data' (σ i) (σ j) = rowDist k data i j

theorem rowDist_symm (k : Nat) (data : List (List ℝ)) (i j : Nat) :
    rowDist k data i j = rowDist k data j i := dist_comm _ _

/-- The same rows in another order are congruent. -/
theorem congruent_of_perm (k : Nat) {data data' : List (List ℝ)} (h : data'.Perm data) :
    Congruent k data k data' := by
  have hmap : data = (List.range data.length).map (fun i => data.getD i []) := by
    apply List.ext_getElem?
    intro i
    rw [List.getElem?_map]
    by_cases hi : i < data.length
    · rw [List.getElem?_range hi, Option.map_some, List.getD_eq_getElem?_getD,
        List.getElem?_eq_getElem hi]
      rfl
    · rw [List.getElem?_eq_none (by omega), List.getElem?_eq_none (by simpa using hi)]
      rfl
  have hF : List.Forall₂ (fun (a : List ℝ) (i : Nat) => a = data.getD i []) data
      (List.range data.length) := by
    conv_lhs => rw [hmap]
    rw [List.forall₂_map_left_iff, List.forall₂_same]
    intro i _
    rfl
  obtain ⟨p, hp1, hp2⟩ := List.perm_comp_forall₂ h hF
  have hlen : p.length = data.length := by rw [hp2.length_eq, List.length_range]
  have hlen' : data'.length = data.length := h.length_eq
  have hnd : p.Nodup := hp2.nodup_iff.2 List.nodup_range
  have hget : ∀ i, i < data'.length → data'.getD i [] = data.getD (p.getD i 0) [] := by
    intro i hi
    have hi' : i < p.length := by omega
    have := List.forall₂_iff_get.1 hp1
    have h2 := this.2 i hi hi'
    rw [List.getD_eq_getElem _ _ hi, List.getD_eq_getElem p _ hi']
    simpa using h2
  have hlt : ∀ i, i < data'.length → p.getD i 0 < data.length := by
    intro i hi
    have hi' : i < p.length := by omega
    rw [List.getD_eq_getElem _ _ hi']
    exact List.mem_range.1 (hp2.mem_iff.1 (List.getElem_mem hi'))
  have hinj : Function.Injective (fun i : Fin data'.length =>
      (⟨p.getD i 0, hlt i i.2⟩ : Fin data.length)) := by
    intro a b hab
    have ha : a.1 < p.length := by have := a.2; omega
    have hb : b.1 < p.length := by have := b.2; omega
    have hab' : p.getD a 0 = p.getD b 0 := congrArg Fin.val hab
    rw [List.getD_eq_getElem _ _ ha, List.getD_eq_getElem _ _ hb] at hab'
    exact Fin.ext ((List.Nodup.getElem_inj_iff hnd).1 hab')
  have hbij := (Fintype.bijective_iff_injective_and_card _).2 ⟨hinj, by simp [hlen']⟩
  refine ⟨(Equiv.ofBijective _ hbij).symm, fun i j => ?_⟩
  obtain ⟨a, rfl⟩ := hbij.2 i
  obtain ⟨b, rfl⟩ := hbij.2 j
  have e : ∀ a, (Equiv.ofBijective _ hbij).symm ((fun i : Fin data'.length =>
      (⟨p.getD i 0, hlt i i.2⟩ : Fin data.length)) a) = a :=
    fun a => (Equiv.ofBijective _ hbij).symm_apply_apply a
  rw [e, e]
  unfold rowDist
  rw [hget a a.2, hget b b.2]

/-- A sorted list is known from the number of elements up to each bound. -/
theorem sorted_counts_unique {W : Type} [LinearOrder W] {P : W → Prop} :
    ∀ {l m : List W}, l.Pairwise (· ≤ ·) → m.Pairwise (· ≤ ·) → (∀ w ∈ l, P w) → (∀ w ∈ m, P w) →
      (∀ t, P t → (l.filter (fun w => w ≤ t)).length = (m.filter (fun w => w ≤ t)).length) → l = m := by
  have empty : ∀ (b : W) (m : List W),
      ((b :: m).filter (fun w => decide (w ≤ b))).length ≠ 0 := by
    intro b m
    simp
  have none : ∀ (a b : W) (m : List W), (b :: m).Pairwise (· ≤ ·) → a < b →
      ((b :: m).filter (fun w => decide (w ≤ a))).length = 0 := by
    intro a b m hm hab
    rw [List.length_eq_zero_iff, List.filter_eq_nil_iff]
    intro x hx
    have : b ≤ x := by
      rcases List.mem_cons.1 hx with rfl | hx
      · exact le_refl _
      · exact (List.pairwise_cons.1 hm).1 x hx
    simpa using lt_of_lt_of_le hab this
  intro l
  induction l with
  | nil =>
    intro m _ _ _ hPm h
    cases m with
    | nil => rfl
    | cons b m => exact absurd (h b (hPm b (by simp))).symm (empty b m)
  | cons a l ih =>
    intro m hl hm hPl hPm h
    cases m with
    | nil => exact absurd (h a (hPl a (by simp))) (empty a l)
    | cons b m =>
      have hab : a = b := by
        rcases lt_trichotomy a b with hlt | heq | hgt
        · have := h a (hPl a (by simp))
          rw [none a b m hm hlt] at this
          exact absurd this (empty a l)
        · exact heq
        · have := h b (hPm b (by simp))
          rw [none b a l hl hgt] at this
          exact absurd this.symm (empty b m)
      subst hab
      rw [ih (List.pairwise_cons.1 hl).2 (List.pairwise_cons.1 hm).2
        (fun w hw => hPl w (by simp [hw])) (fun w hw => hPm w (by simp [hw])) (fun t ht => ?_)]
      have := h t ht
      by_cases hat : a ≤ t
      · rw [List.filter_cons_of_pos (by simpa using hat),
          List.filter_cons_of_pos (by simpa using hat)] at this
        simpa using this
      · rw [List.filter_cons_of_neg (by simpa using hat),
          List.filter_cons_of_neg (by simpa using hat)] at this
        exact this

theorem congruent_components {k k' : Nat} {data data' : List (List ℝ)}
    (h : Congruent k data k' data') : data'.length = data.length ∧
    ∀ t, components (scaleGraph data'.length (rowDist k' data') t) =
      components (scaleGraph data.length (rowDist k data) t) := by
  obtain ⟨σ, hσ⟩ := h
  have hlen : data.length = data'.length := by simpa using Fintype.card_congr σ
  refine ⟨hlen.symm, fun t => ?_⟩
  have hs := rowDist_symm k data
  have hs' := rowDist_symm k' data'
  generalize rowDist k' data' = d' at hσ hs' ⊢
  generalize rowDist k data = d at hσ hs ⊢
  generalize data'.length = n at hlen σ hσ ⊢
  generalize data.length = m at hlen σ hσ ⊢
  subst hlen
  exact components_relabel hs hs' σ hσ t

theorem congruent_betti {k k' : Nat} {data data' : List (List ℝ)}
    (h : Congruent k data k' data') (q : Nat) (t : ℝ) :
    ripsBetti data'.length (rowDist k' data') q t = ripsBetti data.length (rowDist k data) q t := by
  obtain ⟨σ, hσ⟩ := h
  have hlen : data.length = data'.length := by simpa using Fintype.card_congr σ
  have hs := rowDist_symm k data
  have hs' := rowDist_symm k' data'
  generalize rowDist k' data' = d' at hσ hs' ⊢
  generalize rowDist k data = d at hσ hs ⊢
  generalize data'.length = n at hlen σ hσ ⊢
  generalize data.length = m at hlen σ hσ ⊢
  subst hlen
  exact ripsBetti_relabel hs hs' σ hσ q t

theorem congruent_edge {k k' : Nat} {data data' : List (List ℝ)} (h : Congruent k data k' data')
    {P : ℝ → Prop} (he : ∃ i j, i < j ∧ j < data.length ∧ P (rowDist k data i j)) :
    ∃ i j, i < j ∧ j < data'.length ∧ P (rowDist k' data' i j) := by
  obtain ⟨σ, hσ⟩ := h
  obtain ⟨i, j, hij, hj, hP⟩ := he
  have hi : i < data.length := by omega
  have hne : (σ ⟨i, hi⟩ : Nat) ≠ (σ ⟨j, hj⟩ : Nat) := by
    intro h
    have := σ.injective (Fin.ext h)
    have := congrArg Fin.val this
    dsimp only at this
    omega
  have h1 := hσ ⟨i, hi⟩ ⟨j, hj⟩
  dsimp only at h1
  rcases lt_or_gt_of_ne hne with hlt | hlt
  · exact ⟨_, _, hlt, (σ ⟨j, hj⟩).2, by rw [h1]; exact hP⟩
  · exact ⟨_, _, hlt, (σ ⟨i, hi⟩).2, by rw [rowDist_symm, h1]; exact hP⟩

/-- The dimension-0 lines that the default pipeline prints. -/
theorem tree_zero (sort : SortBySecond (List Nat) ℝ) (mode : EndRead) (eps : ℝ) (dim : Nat)
    (k : Nat) (hk : 0 < k) (data : List (List ℝ)) (hdim : ∀ p ∈ data, p.length = k)
    (hedge : ∃ i j, i < j ∧ j < data.length ∧ rowDist k data i j < eps)
    {lines : List (Line ℝ)} {T : List (BettiEntry ℝ)}
    (hok : treeRun vectorsDistance sort mode eps dim data = .ok (lines, T)) :
    ∃ deaths : List ℝ,
      lines.filter (fun l => l.1 = 0) = deaths.map (fun w => (0, 0, w)) ++ [(0, 0, eps)] ∧
      deaths.Pairwise (· ≤ ·) ∧ (∀ w ∈ deaths, 0 ≤ w ∧ w < eps) ∧
      ∀ t, 0 ≤ t → t < eps → components (scaleGraph data.length (rowDist k data) t) +
        (deaths.filter (fun w => w ≤ t)).length = data.length := by
  obtain ⟨g, edges, h1, h2, -, h4, -⟩ := tree_built sort mode eps dim k hk data hdim
  rw [h1] at hok
  exact zero_of_rips h4 (by omega) (fun _ _ => dist_nonneg) h2 hedge (· < eps)
    (fun t ht i j hij => lt_of_le_of_lt hij ht) (fun _ _ hij => hij) hok

/-- C94 (partial: dimension 0): on congruent clouds, in particular on the same rows in another order,
two runs of the default pipeline that end print the same dimension-0 lines, in the same order,
whatever the sorting of equal weights and the other settings are. -/
theorem C94_components_partial (sort sort' : SortBySecond (List Nat) ℝ) (mode mode' : EndRead)
    (eps : ℝ) (dim dim' k k' : Nat) (hk : 0 < k) (hk' : 0 < k') (data data' : List (List ℝ))
    (hdim : ∀ p ∈ data, p.length = k) (hdim' : ∀ p ∈ data', p.length = k')
    (hcong : Congruent k data k' data')
    {lines lines' : List (Line ℝ)} {T T' : List (BettiEntry ℝ)}
    (hok : treeRun vectorsDistance sort mode eps dim data = .ok (lines, T))
    (hok' : treeRun vectorsDistance sort' mode' eps dim' data' = .ok (lines', T')) :
    lines.filter (fun l => l.1 = 0) = lines'.filter (fun l => l.1 = 0) := by
  obtain ⟨hlen, hcomp⟩ := congruent_components hcong
  by_cases hedge : ∃ i j, i < j ∧ j < data.length ∧ rowDist k data i j < eps
  · obtain ⟨ds, h1, h2, h3, h4⟩ := tree_zero sort mode eps dim k hk data hdim hedge hok
    obtain ⟨ds', h1', h2', h3', h4'⟩ := tree_zero sort' mode' eps dim' k' hk' data' hdim'
      (congruent_edge (P := (· < eps)) hcong hedge) hok'
    have : ds = ds' := by
      refine sorted_counts_unique (P := fun w => 0 ≤ w ∧ w < eps) h2 h2' h3 h3' (fun t ht => ?_)
      have e1 := h4 t ht.1 ht.2
      have e2 := h4' t ht.1 ht.2
      rw [hcomp] at e2
      omega
    rw [h1, h1', this]
  · have hfar : ∀ i j, i < j → j < data.length → eps ≤ rowDist k data i j := fun i j hij hj =>
      not_lt.1 (fun h => hedge ⟨i, j, hij, hj, h⟩)
    rw [C70_tree_run_no_edge sort mode eps dim k hk data hdim hfar] at hok
    split_ifs at hok with h
    cases hok
    have h' : data' = [] := by
      apply List.length_eq_zero_iff.1
      rw [hlen, h]
      rfl
    rw [C70_tree_run_no_edge sort' mode' eps dim' k' hk' data' hdim' (by
      rw [h']; intro i j _ hj; simp at hj), if_pos h'] at hok'
    cases hok'
    rfl

/-- C94, with `dimensions` at most 1 (the default): the whole barcode is the same for congruent
clouds. -/
theorem C94_whole_barcode_default (sort sort' : SortBySecond (List Nat) ℝ) (mode mode' : EndRead)
    (eps : ℝ) (dim dim' : Nat) (hd : dim ≤ 1) (hd' : dim' ≤ 1) (k k' : Nat) (hk : 0 < k)
    (hk' : 0 < k') (data data' : List (List ℝ))
    (hdim : ∀ p ∈ data, p.length = k) (hdim' : ∀ p ∈ data', p.length = k')
    (hcong : Congruent k data k' data')
    (hedge : ∃ i j, i < j ∧ j < data.length ∧ rowDist k data i j < eps) :
    ∃ lines T T', treeRun vectorsDistance sort mode eps dim data = .ok (lines, T) ∧
      treeRun vectorsDistance sort' mode' eps dim' data' = .ok (lines, T') := by
  obtain ⟨lines, T, h1, h2, -⟩ := C70_tree_run_default sort mode eps dim hd k hk data hdim hedge
  obtain ⟨lines', T', h1', h2', -⟩ := C70_tree_run_default sort' mode' eps dim' hd' k' hk' data'
    hdim' (congruent_edge (P := (· < eps)) hcong hedge)
  have := C94_components_partial sort sort' mode mode' eps dim dim' k k' hk hk' data data' hdim hdim'
    hcong h1 h1'
  rw [List.filter_eq_self.2 (fun l hl => by simpa using h2 l hl),
    List.filter_eq_self.2 (fun l hl => by simpa using h2' l hl)] at this
  subst this
  exact ⟨lines, T, T', h1, h1'⟩

/-- C94 for the whole program, with `dimensions` at most 1 (the default): if the input file of one run
holds the rows of the input file of another run in any order, and `epsilon` is the same, both runs
write the same barcode. -/
theorem C94_row_order_program_default (sys sys' : System ℝ ℝ)
    (hdist : sys.lib.dist = vectorsDistance) (hdist' : sys'.lib.dist = vectorsDistance)
    (pairs pairs' : List (String × String)) (m m' : ArgMap) (f f' : String)
    (data data' : List (List ℝ)) (h : PlainCommand sys pairs m "simplexTree" f data)
    (h' : PlainCommand sys' pairs' m' "simplexTree" f' data')
    (heps : sys'.atof (m'.val "epsilon") = sys.atof (m.val "epsilon"))
    (hd : sys.atoi (m.val "dimensions") ≤ 1) (hd' : sys'.atoi (m'.val "dimensions") ≤ 1)
    (k : Nat) (hk : 0 < k) (hdim : ∀ p ∈ data, p.length = k) (hrows : data'.Perm data)
    (hedge : ∃ i j, i < j ∧ j < data.length ∧ rowDist k data i j < sys.atof (m.val "epsilon")) :
    ∃ w w' lines, mainProgram sys (commandLine pairs) = .ok w ∧
      mainProgram sys' (commandLine pairs') = .ok w' ∧
      WritesBarcode sys.io f lines w ∧ WritesBarcode sys'.io f' lines w' := by
  obtain ⟨lines, T, T', h1, h2⟩ := C94_whole_barcode_default sys.lib.sort sys'.lib.sort sys.lib.mode
    sys'.lib.mode (sys.atof (m.val "epsilon")) _ _ hd hd' k k hk hk data data' hdim
    (fun p hp => hdim p (hrows.mem_iff.1 hp)) (congruent_of_perm k hrows) hedge
  rw [← heps] at h2
  obtain ⟨w, h3, h4⟩ := (main_tree sys hdist pairs m f data h).of_ok h1
  obtain ⟨w', h5, h6⟩ := (main_tree sys' hdist' pairs' m' f' data' h').of_ok h2
  exact ⟨w, w', lines, h3, h5, h4, h6⟩

theorem le_foldr_max {W : Type} [LinearOrder W] [Zero W] (l : List W) :
    0 ≤ l.foldr max 0 ∧ (∀ x ∈ l, x ≤ l.foldr max 0) ∧
      (l.foldr max 0 = 0 ∨ l.foldr max 0 ∈ l) := by
  induction l with
  | nil => simp
  | cons a l ih =>
    obtain ⟨h1, h2, h3⟩ := ih
    rw [List.foldr_cons]
    refine ⟨le_max_of_le_right h1, ?_, ?_⟩
    · intro x hx
      rcases List.mem_cons.1 hx with rfl | hx
      · exact le_max_left _ _
      · exact le_max_of_le_right (h2 x hx)
    · rcases max_choice a (l.foldr max 0) with e | e <;> rw [e]
      · exact Or.inr (by simp)
      · rcases h3 with h3 | h3
        · exact Or.inl h3
        · exact Or.inr (by simp [h3])

/-- C94 (partial): in every dimension that is printed, congruent clouds have, at every scale, the same
number of printed bars that contain the scale, up to the classes that are never closed and not
printed; there are as many of those as the Betti number at the largest scales says. The end iterator
is read as "not a pivot" (C29). -/
theorem C94_betti_curve_partial (sort sort' : SortBySecond (List Nat) ℝ) (eps : ℝ) (dim k k' : Nat)
    (hk : 0 < k) (hk' : 0 < k') (data data' : List (List ℝ))
    (hdim : ∀ p ∈ data, p.length = k) (hdim' : ∀ p ∈ data', p.length = k')
    (hcong : Congruent k data k' data')
    (hedge : ∃ i j, i < j ∧ j < data.length ∧ rowDist k data i j < eps) :
    ∃ lines lines' T T', treeRun vectorsDistance sort .noPivot eps dim data = .ok (lines, T) ∧
      treeRun vectorsDistance sort' .noPivot eps dim data' = .ok (lines', T') ∧
      ∀ q, 1 ≤ q → q < dim → ∃ unprinted unprinted' : List ℝ,
        unprinted.length = unprinted'.length ∧
        (∃ s, s < eps ∧ ∀ t, s ≤ t → t < eps →
          ripsBetti data.length (rowDist k data) q t = unprinted.length) ∧
        ∀ t, 0 ≤ t → t < eps →
          (lines.filter (fun l => l.1 = q ∧ l.2.1 ≤ t ∧ t < l.2.2)).length +
            (unprinted.filter (fun w => w ≤ t)).length =
          (lines'.filter (fun l => l.1 = q ∧ l.2.1 ≤ t ∧ t < l.2.2)).length +
            (unprinted'.filter (fun w => w ≤ t)).length := by
  obtain ⟨lines, T, h1, h2⟩ := C70_tree_run_partial sort eps dim k hk data hdim hedge
  obtain ⟨lines', T', h1', h2'⟩ := C70_tree_run_partial sort' eps dim k' hk' data' hdim'
    (congruent_edge (P := (· < eps)) hcong hedge)
  refine ⟨lines, lines', T, T', h1, h1', fun q hq1 hq2 => ?_⟩
  obtain ⟨u, hu, h3⟩ := h2.higher q hq1 hq2
  obtain ⟨u', hu', h3'⟩ := h2'.higher q hq1 hq2
  have heps : 0 < eps := by
    obtain ⟨i, j, -, -, h⟩ := hedge
    exact lt_of_le_of_lt dist_nonneg h
  have key : ∀ t, 0 ≤ t → t < eps →
      (lines.filter (fun l => l.1 = q ∧ l.2.1 ≤ t ∧ t < l.2.2)).length +
        (u.filter (fun w => w ≤ t)).length =
      (lines'.filter (fun l => l.1 = q ∧ l.2.1 ≤ t ∧ t < l.2.2)).length +
        (u'.filter (fun w => w ≤ t)).length := by
    intro t ht0 ht
    rw [← h3 t ht0 ht, ← h3' t ht0 ht, congruent_betti hcong]
  -- the largest value that occurs
  obtain ⟨vals, hvals⟩ : ∃ vals : List ℝ, vals =
    u ++ u' ++ (lines.filter (fun l => 1 ≤ l.1)).map (fun l => l.2.2) ++
      (lines'.filter (fun l => 1 ≤ l.1)).map (fun l => l.2.2) := ⟨_, rfl⟩
  obtain ⟨top0, topLe, topIn⟩ := le_foldr_max vals
  have hlt : vals.foldr max 0 < eps := by
    rcases topIn with h | h
    · rw [h]; exact heps
    · rw [hvals] at h
      simp only [List.mem_append, List.mem_map, List.mem_filter, decide_eq_true_eq] at h
      rw [← hvals] at h
      rcases h with ((h | h) | ⟨l, ⟨hl, hl1⟩, h⟩) | ⟨l, ⟨hl, hl1⟩, h⟩
      · exact (hu _ h).2
      · exact (hu' _ h).2
      · rw [← h]; exact (h2.bars l hl hl1).2.2
      · rw [← h]; exact (h2'.bars l hl hl1).2.2
  generalize vals.foldr max 0 = top at top0 topLe hlt
  have none : ∀ t, top ≤ t → ∀ ls : List (Line ℝ), (∀ l ∈ ls, 1 ≤ l.1 → l.2.2 ≤ top) →
      (ls.filter (fun l => l.1 = q ∧ l.2.1 ≤ t ∧ t < l.2.2)).length = 0 := by
    intro t ht ls hls
    rw [List.length_eq_zero_iff, List.filter_eq_nil_iff]
    intro l hl
    simp only [decide_eq_true_eq]
    rintro ⟨ha, -, hb⟩
    exact absurd (le_trans (hls l hl (by omega)) ht) (not_le.2 hb)
  have all : ∀ t, top ≤ t → ∀ v : List ℝ, (∀ x ∈ v, x ≤ top) → v.filter (fun w => w ≤ t) = v := by
    intro t ht v hv
    rw [List.filter_eq_self]
    intro x hx
    simpa using le_trans (hv x hx) ht
  have n1 : ∀ l ∈ lines, 1 ≤ l.1 → l.2.2 ≤ top := fun l hl hl1 => topLe _ (by
    rw [hvals]; simp only [List.mem_append, List.mem_map, List.mem_filter, decide_eq_true_eq]
    exact Or.inl (Or.inr ⟨l, ⟨hl, hl1⟩, rfl⟩))
  have n2 : ∀ l ∈ lines', 1 ≤ l.1 → l.2.2 ≤ top := fun l hl hl1 => topLe _ (by
    rw [hvals]; simp only [List.mem_append, List.mem_map, List.mem_filter, decide_eq_true_eq]
    exact Or.inr ⟨l, ⟨hl, hl1⟩, rfl⟩)
  have a1 : ∀ x ∈ u, x ≤ top := fun x hx => topLe _ (by rw [hvals]; simp [hx])
  have a2 : ∀ x ∈ u', x ≤ top := fun x hx => topLe _ (by rw [hvals]; simp [hx])
  refine ⟨u, u', ?_, ⟨top, hlt, fun t ht hte => ?_⟩, key⟩
  · have hend := key _ top0 hlt
    rw [none _ le_rfl _ n1, none _ le_rfl _ n2, all _ le_rfl _ a1, all _ le_rfl _ a2] at hend
    omega
  · rw [h3 t (le_trans top0 ht) hte, none _ ht _ n1, all _ ht _ a1, Nat.zero_add]

/-- C94 (partial): in a dimension where the homology vanishes at the largest scales, so that every
class is closed, the runs on two congruent clouds print at every scale the same number of bars that
contain it. The end iterator is read as "not a pivot" (C29). -/
theorem C94_closed_betti_curve_partial (sort sort' : SortBySecond (List Nat) ℝ) (eps : ℝ)
    (dim k k' : Nat) (hk : 0 < k) (hk' : 0 < k') (data data' : List (List ℝ))
    (hdim : ∀ p ∈ data, p.length = k) (hdim' : ∀ p ∈ data', p.length = k')
    (hcong : Congruent k data k' data')
    (hedge : ∃ i j, i < j ∧ j < data.length ∧ rowDist k data i j < eps) :
    ∃ lines lines' T T', treeRun vectorsDistance sort .noPivot eps dim data = .ok (lines, T) ∧
      treeRun vectorsDistance sort' .noPivot eps dim data' = .ok (lines', T') ∧
      ∀ q, 1 ≤ q → q < dim →
        (∀ s, s < eps → ∃ t, s ≤ t ∧ t < eps ∧ ripsBetti data.length (rowDist k data) q t = 0) →
        ∀ t, 0 ≤ t → t < eps →
          (lines.filter (fun l => l.1 = q ∧ l.2.1 ≤ t ∧ t < l.2.2)).length =
          (lines'.filter (fun l => l.1 = q ∧ l.2.1 ≤ t ∧ t < l.2.2)).length := by
  obtain ⟨lines, lines', T, T', h1, h2, h3⟩ := C94_betti_curve_partial sort sort' eps dim k k' hk hk'
    data data' hdim hdim' hcong hedge
  refine ⟨lines, lines', T, T', h1, h2, fun q hq1 hq2 hz t ht0 ht => ?_⟩
  obtain ⟨u, u', hl, ⟨s, hs, hb⟩, h⟩ := h3 q hq1 hq2
  obtain ⟨r, hr, hre, h0⟩ := hz s hs
  have e : u.length = 0 := by rw [← hb r hr hre, h0]
  have e' : u'.length = 0 := by omega
  rw [List.length_eq_zero_iff.1 e, List.length_eq_zero_iff.1 e'] at h
  simpa using h t ht0 ht

/-! ### Isometries and changes of scale -/

/-- The default pipeline on a `simplexTree` only sees the distances. -/
theorem treeRun_table (sort : SortBySecond (List Nat) ℝ) (mode : EndRead) (eps : ℝ) (dim : Nat)
    (k : Nat) (hk : 0 < k) (data : List (List ℝ)) (hdim : ∀ p ∈ data, p.length = k) :
    treeRun vectorsDistance sort mode eps dim data =
      (Tree.insertN eps dim (table data.length (fun i j => if i < j then rowDist k data i j else 0))
        data.length Tree.fresh >>= fun t =>
        fastPersistence mode dim eps (t.getAllEdges sort).1 [] []) := by
  obtain ⟨ws, h1, -, -⟩ := C11_distance_matrix_euclidean k hk data hdim eps
  unfold treeRun
  rw [h1, ok_bind]
  show (neighGraphTree eps dim (table data.length (fun i j =>
      if i < j then rowDist k data i j else 0)) data Tree.fresh >>= _) = _
  rw [neighGraphTree_eq _ _ _ _ (rows_ne_nil hk hdim)]

theorem table_congr {W : Type} {n : Nat} {f f' : Nat → Nat → W}
    (h : ∀ i j, i < n → j < n → f i j = f' i j) : table n f = table n f' := by
  unfold table
  apply List.map_congr_left
  intro i hi
  apply List.map_congr_left
  intro j hj
  exact h i j (List.mem_range.1 hi) (List.mem_range.1 hj)

/-- C95: an isometry changes nothing: if the points of two clouds, taken in the order of their rows,
have the same distances, the default pipeline does the same on both (same barcode, same table, or same
undefined behaviour), for every sorting of equal weights. -/
theorem C95_isometry_tree (sort : SortBySecond (List Nat) ℝ) (mode : EndRead) (eps : ℝ)
    (dim k k' : Nat) (hk : 0 < k) (hk' : 0 < k') (data data' : List (List ℝ))
    (hdim : ∀ p ∈ data, p.length = k) (hdim' : ∀ p ∈ data', p.length = k')
    (hlen : data'.length = data.length)
    (hiso : ∀ i j, i < data.length → j < data.length →
      rowDist k' data' i j = rowDist k data i j) :
    treeRun vectorsDistance sort mode eps dim data' =
      treeRun vectorsDistance sort mode eps dim data := by
  rw [treeRun_table sort mode eps dim k hk data hdim,
    treeRun_table sort mode eps dim k' hk' data' hdim', hlen,
    table_congr (fun i j hi hj => by rw [hiso i j hi hj])]

theorem arrayInsertAll_rows {K : Type} {W : Type} [LinearOrder W] [Zero W] (eps : W) (dim : Nat)
    (dm : List (List W)) :
    ∀ (data data' : List (List K)) (g : Graph W), data'.length = data.length →
      (∀ p ∈ data, p ≠ []) → (∀ p ∈ data', p ≠ []) →
      arrayInsertAll eps dim dm data' g = arrayInsertAll eps dim dm data g := by
  intro data
  induction data with
  | nil =>
    intro data' g hlen _ _
    rw [List.length_eq_zero_iff.1 hlen]
  | cons p data ih =>
    intro data' g hlen h h'
    cases data' with
    | nil => simp at hlen
    | cons p' data' =>
      have e : ∀ q : List K, q ≠ [] → q.isEmpty = false := by
        intro q hq
        cases q with
        | nil => exact absurd rfl hq
        | cons => rfl
      have hp := e p (h p (by simp))
      have hp' := e p' (h' p' (by simp))
      unfold arrayInsertAll at ih ⊢
      rw [List.foldlM_cons, List.foldlM_cons, hp, hp']
      have : arrayInsert eps dim dm p' g = arrayInsert eps dim dm p g := by
        unfold arrayInsert
        rw [hp, hp']
      simp only [Bool.false_eq_true, if_false, this]
      congr 1
      funext g
      exact ih data' g (by simpa using hlen) (fun q hq => h q (by simp [hq]))
        (fun q hq => h' q (by simp [hq]))

/-- C95: the same for the default pipeline on a `simplexArrayList`. -/
theorem C95_isometry_array (sort : SortBySecond (List Nat) ℝ) (mode : EndRead) (eps : ℝ)
    (dim k k' : Nat) (hk : 0 < k) (hk' : 0 < k') (data data' : List (List ℝ))
    (hdim : ∀ p ∈ data, p.length = k) (hdim' : ∀ p ∈ data', p.length = k')
    (hlen : data'.length = data.length)
    (hiso : ∀ i j, i < data.length → j < data.length →
      rowDist k' data' i j = rowDist k data i j) :
    arrayRun vectorsDistance sort mode eps dim data' =
      arrayRun vectorsDistance sort mode eps dim data := by
  obtain ⟨ws, h1, -, -⟩ := C11_distance_matrix_euclidean k hk data hdim eps
  obtain ⟨ws', h1', -, -⟩ := C11_distance_matrix_euclidean k' hk' data' hdim' eps
  have ht : table data'.length (fun i j => if i < j then
        dist (Spec.point k' (data'.getD i [])) (Spec.point k' (data'.getD j [])) else (0 : ℝ)) =
      table data.length (fun i j => if i < j then
        dist (Spec.point k (data.getD i [])) (Spec.point k (data.getD j [])) else (0 : ℝ)) := by
    rw [hlen]
    exact table_congr (fun i j hi hj => by
      have := hiso i j hi hj
      unfold rowDist at this
      rw [this])
  unfold arrayRun
  rw [h1, h1', ok_bind, ok_bind, ht]
  dsimp only
  rw [arrayInsertAll_rows eps dim _ data data' [] hlen (rows_ne_nil hk hdim) (rows_ne_nil hk' hdim')]

/-- C95: translating all the points by a vector `v` changes nothing. -/
theorem C95_translation_tree (sort : SortBySecond (List Nat) ℝ) (mode : EndRead) (eps : ℝ)
    (dim k : Nat) (hk : 0 < k) (data : List (List ℝ)) (hdim : ∀ p ∈ data, p.length = k)
    (v : List ℝ) (hv : v.length = k) :
    treeRun vectorsDistance sort mode eps dim (data.map (fun p => p.zipWith (· + ·) v)) =
      treeRun vectorsDistance sort mode eps dim data := by
  refine C95_isometry_tree sort mode eps dim k k hk hk data _ hdim ?_ (List.length_map _) ?_
  · intro p hp
    obtain ⟨q, hq, rfl⟩ := List.mem_map.1 hp
    rw [List.length_zipWith, hdim q hq, hv, Nat.min_self]
  · have e : ∀ i, i < data.length →
        Spec.point k ((data.map (fun p => p.zipWith (· + ·) v)).getD i []) =
          Spec.point k (data.getD i []) + Spec.point k v := by
      intro i hi
      have h1 : (data.map (fun p => p.zipWith (· + ·) v)).getD i [] =
          (data.getD i []).zipWith (· + ·) v := by
        simp only [List.getD_eq_getElem?_getD, List.getElem?_map, List.getElem?_eq_getElem hi]
        rfl
      have h2 : (data.getD i []).length = k := by
        rw [List.getD_eq_getElem _ _ hi]
        exact hdim _ (List.getElem_mem hi)
      rw [h1]
      ext x
      have hx : x.1 < (data.getD i []).length := by rw [h2]; exact x.2
      have hx' : x.1 < v.length := by rw [hv]; exact x.2
      simp only [Spec.point, PiLp.add_apply]
      rw [List.getD_eq_getElem _ _ (by rw [List.length_zipWith]; omega), List.getElem_zipWith,
        List.getD_eq_getElem (data.getD i []) _ hx, List.getD_eq_getElem v _ hx']
    intro i j hi hj
    unfold rowDist
    rw [e i hi, e j hj, dist_add_right]

/-- Insertion sort only looks at the order of the weights. -/
theorem insertion_natural {W V : Type} [LinearOrder W] [LinearOrder V] {φ : W → V} (hφ : StrictMono φ)
    (l : List (List Nat × W)) : (SortBySecond.insertion (List Nat) V).run (l.map (mapW φ)) =
      ((SortBySecond.insertion (List Nat) W).run l).map (mapW φ) := by
  show (l.map (mapW φ)).insertionSort _ = (l.insertionSort _).map (mapW φ)
  exact (List.map_insertionSort _ _ (mapW φ) l (fun a _ b _ => (hφ.le_iff_le).symm)).symm

/-- The runs on two tables of weights that differ by a strictly increasing map. -/
theorem treeRun_natural {W : Type} [LinearOrder W] [Zero W] {φ : W → ℝ} (hφ : StrictMono φ)
    (h0 : φ 0 = 0) (sort : SortBySecond (List Nat) W) (sort' : SortBySecond (List Nat) ℝ)
    (hsort : ∀ l, sort'.run (l.map (mapW φ)) = (sort.run l).map (mapW φ)) (mode : EndRead) (eps : W)
    (dim : Nat) (d : Nat → Nat → W) (k : Nat) (hk : 0 < k) (data : List (List ℝ))
    (hdim : ∀ p ∈ data, p.length = k)
    (hd : ∀ i j, i < j → j < data.length → rowDist k data i j = φ (d i j)) :
    treeRun vectorsDistance sort' mode (φ eps) dim data =
      Prod.map (List.map (mapL φ)) (List.map (mapB φ)) <$>
      (Tree.insertN eps dim (table data.length (fun i j => if i < j then d i j else 0))
        data.length Tree.fresh >>= fun t =>
        fastPersistence mode dim eps (t.getAllEdges sort).1 [] []) := by
  rw [treeRun_table sort' mode _ dim k hk data hdim]
  have ht : table data.length (fun i j => if i < j then rowDist k data i j else 0) =
      (table data.length (fun i j => if i < j then d i j else 0)).map (List.map φ) := by
    rw [table_congr (f' := fun i j => φ (if i < j then d i j else 0))]
    · simp [table, Function.comp_def]
    · intro i j hi hj
      by_cases hij : i < j
      · rw [if_pos hij, if_pos hij, hd i j hij hj]
      · rw [if_neg hij, if_neg hij, h0]
  rw [ht]
  refine natural_bind (Tree.mapT φ) _ (natural_insertN hφ h0 eps dim _ _ Tree.fresh) (fun t => ?_)
  have hg : ((t.mapT φ).getAllEdges sort').1 = mapG φ (t.getAllEdges sort).1 := by
    unfold Tree.getAllEdges
    by_cases h : t.isSorted = true
    · rw [if_pos h, if_pos (show (t.mapT φ).isSorted = true from h)]
      rfl
    · rw [if_neg h, if_neg (show ¬ (t.mapT φ).isSorted = true from h)]
      show (mapG φ t.weg).map sort'.run = mapG φ (t.weg.map sort.run)
      unfold mapG
      rw [List.map_map, List.map_map]
      apply List.map_congr_left
      intro l _
      exact hsort l
  rw [hg]
  exact natural_fastPersistence hφ h0 mode dim eps _ [] []

/-- C95: multiplying all the coordinates and `epsilon` by `c > 0` multiplies every birth and death by
`c` and changes nothing else, for every sorting that only looks at the order of the weights. -/
theorem C95_scale_tree (sort : SortBySecond (List Nat) ℝ) (mode : EndRead) (eps c : ℝ) (hc : 0 < c)
    (hsort : ∀ l, sort.run (l.map (fun e => (e.1, c * e.2))) =
      (sort.run l).map (fun e => (e.1, c * e.2)))
    (dim k : Nat) (hk : 0 < k) (data : List (List ℝ)) (hdim : ∀ p ∈ data, p.length = k) :
    (treeRun vectorsDistance sort mode (c * eps) dim (data.map (List.map (c * ·)))).map (·.1) =
      (treeRun vectorsDistance sort mode eps dim data).map (fun r =>
        r.1.map (fun l => (l.1, c * l.2.1, c * l.2.2))) := by
  have hdim' : ∀ p ∈ data.map (List.map (c * ·)), p.length = k := by
    intro p hp
    obtain ⟨q, hq, rfl⟩ := List.mem_map.1 hp
    rw [List.length_map, hdim q hq]
  have hd : ∀ i j, i < j → j < (data.map (List.map (c * ·))).length →
      rowDist k (data.map (List.map (c * ·))) i j = c * rowDist k data i j := by
    intro i j hij hj
    rw [List.length_map] at hj
    have e : ∀ i, Spec.point k ((data.map (List.map (c * ·))).getD i []) =
        c • Spec.point k (data.getD i []) := by
      intro i
      have h1 : (data.map (List.map (c * ·))).getD i [] = (data.getD i []).map (c * ·) := by
        simp only [List.getD_eq_getElem?_getD, List.getElem?_map]
        cases data[i]? <;> rfl
      rw [h1]
      ext x
      simp only [Spec.point, PiLp.smul_apply, smul_eq_mul]
      simp only [List.getD_eq_getElem?_getD, List.getElem?_map]
      cases (data[i]?.getD [])[x.1]? with
      | none => simp
      | some => simp
    unfold rowDist
    rw [e i, e j, dist_smul₀, Real.norm_of_nonneg hc.le]
  have h := treeRun_natural (φ := fun x => c * x) (fun a b h => mul_lt_mul_of_pos_left h hc)
    (mul_zero c) sort sort hsort mode eps dim (rowDist k data) k hk _ hdim' hd
  rw [h, List.length_map, ← treeRun_table sort mode eps dim k hk data hdim]
  cases treeRun vectorsDistance sort mode eps dim data with
  | error e => rfl
  | ok r => rfl

/-- The hypothesis on the sorting is met by insertion sort. -/
example (c : ℝ) (hc : 0 < c) (l : List (List Nat × ℝ)) :
    (SortBySecond.insertion (List Nat) ℝ).run (l.map (fun e => (e.1, c * e.2))) =
      ((SortBySecond.insertion (List Nat) ℝ).run l).map (fun e => (e.1, c * e.2)) :=
  insertion_natural (φ := fun x => c * x) (fun _ _ h => mul_lt_mul_of_pos_left h hc) l

/-- The hypotheses of C94 are met by three points of the plane in two orders, with a pair closer
than 2. -/
example : Congruent 2 [[0, 0], [1, 0], [5, (1 : ℝ)]] 2 [[5, 1], [0, 0], [1, 0]] ∧
    ∃ i j, i < j ∧ j < [[0, 0], [1, 0], [5, (1 : ℝ)]].length ∧
      rowDist 2 [[0, 0], [1, 0], [5, (1 : ℝ)]] i j < 2 := by
  refine ⟨congruent_of_perm 2 ?_, 0, 1, by decide, by simp, ?_⟩
  · exact (List.perm_append_comm (l₁ := [[5, (1 : ℝ)]]) (l₂ := [[0, 0], [1, 0]]))
  · unfold rowDist Spec.point
    rw [EuclideanSpace.dist_eq]
    simp [Fin.sum_univ_two, Real.dist_eq]

/-! ### The order of the rows matters from dimension 1 on -/

/-- The rows for points of the plane with integer coordinates. -/
def planeRows (P : List (ℤ × ℤ)) : List (List ℝ) := P.map (fun p => [(p.1 : ℝ), (p.2 : ℝ)])

/-- The square of the distance of two points of the plane. -/
def planeSq (P : List (ℤ × ℤ)) (i j : Nat) : Nat :=
  (((P.getD i 0).1 - (P.getD j 0).1) ^ 2 + ((P.getD i 0).2 - (P.getD j 0).2) ^ 2).natAbs

theorem rowDist_plane (P : List (ℤ × ℤ)) (i j : Nat) (hi : i < P.length) (hj : j < P.length) :
    rowDist 2 (planeRows P) i j = Real.sqrt (planeSq P i j : ℕ) := by
  have e : ∀ i (_ : i < P.length), (planeRows P).getD i [] =
      [((P.getD i 0).1 : ℝ), ((P.getD i 0).2 : ℝ)] := by
    intro i hi
    simp only [planeRows, List.getD_eq_getElem?_getD, List.getElem?_map,
      List.getElem?_eq_getElem hi]
    rfl
  unfold rowDist
  rw [e i hi, e j hj]
  unfold Spec.point
  rw [EuclideanSpace.dist_eq]
  congr 1
  simp only [Fin.sum_univ_two, Real.dist_eq, sq_abs]
  have h : ((planeSq P i j : ℕ) : ℝ) = (((P.getD i 0).1 - (P.getD j 0).1) ^ 2 +
      ((P.getD i 0).2 - (P.getD j 0).2) ^ 2 : ℤ) := by
    unfold planeSq
    rw [← Int.cast_natCast, Int.natAbs_of_nonneg (by positivity)]
  rw [h]
  push_cast
  simp

theorem sqrt_nat_strictMono : StrictMono (fun n : ℕ => Real.sqrt (n : ℝ)) := by
  intro a b h
  exact Real.sqrt_lt_sqrt (Nat.cast_nonneg a) (by exact_mod_cast h)

theorem ok_of_toOption {α β : Type} {x : Res (α × β)} {a : α} (h : x.toOption.map (·.1) = some a) :
    ∃ b, x = .ok (a, b) := by
  cases x with
  | error e => cases h
  | ok r =>
    obtain ⟨a', b⟩ := r
    cases h
    exact ⟨b, rfl⟩

/-- C94 does not hold from dimension 1 on: the same five points of the plane, in two orders, with
`epsilon` 10 and `dimensions` 2, give two bars `[√5, √8)`, `[√8, √9)` in one order and the one bar
`[√5, √9)` in the other. (`std::sort` of at most 16 elements is insertion sort, and there are ten
edges and ten triangles.) -/
theorem C94_row_order_violated (mode : EndRead) (hm : mode ≠ .undefined) :
    ∃ data data' : List (List ℝ), data'.Perm data ∧ (∀ p ∈ data, p.length = 2) ∧
    ∃ lines T lines' T',
      treeRun vectorsDistance (SortBySecond.insertion (List Nat) ℝ) mode (Real.sqrt (100 : ℕ)) 2 data =
        .ok (lines, T) ∧
      treeRun vectorsDistance (SortBySecond.insertion (List Nat) ℝ) mode (Real.sqrt (100 : ℕ)) 2 data' =
        .ok (lines', T') ∧
      lines.drop 5 = [(1, Real.sqrt (5 : ℕ), Real.sqrt (8 : ℕ)), (1, Real.sqrt (8 : ℕ), Real.sqrt (9 : ℕ))] ∧
      lines'.drop 5 = [(1, Real.sqrt (5 : ℕ), Real.sqrt (9 : ℕ))] ∧ ¬ lines.Perm lines' := by
  have run : ∀ P : List (ℤ × ℤ), treeRun vectorsDistance (SortBySecond.insertion (List Nat) ℝ) mode
      (Real.sqrt (100 : ℕ)) 2 (planeRows P) =
      Prod.map (List.map (mapL (fun n : ℕ => Real.sqrt (n : ℝ))))
        (List.map (mapB (fun n : ℕ => Real.sqrt (n : ℝ)))) <$>
      (Tree.insertN 100 2 (table P.length (fun i j => if i < j then planeSq P i j else 0))
        P.length Tree.fresh >>= fun t =>
        fastPersistence mode 2 100 (t.getAllEdges (SortBySecond.insertion (List Nat) ℕ)).1 [] []) := by
    intro P
    have := treeRun_natural (φ := fun n : ℕ => Real.sqrt (n : ℝ)) sqrt_nat_strictMono (by simp)
      (SortBySecond.insertion (List Nat) ℕ) (SortBySecond.insertion (List Nat) ℝ)
      (insertion_natural sqrt_nat_strictMono) mode 100 2 (planeSq P) 2 (by decide) (planeRows P)
      (by
        intro p hp
        obtain ⟨q, -, rfl⟩ := List.mem_map.1 hp
        rfl)
      (fun i j hij hj => rowDist_plane P i j (by
        rw [planeRows, List.length_map] at hj; omega) (by
        rw [planeRows, List.length_map] at hj; omega))
    rw [this]
    simp only [planeRows, List.length_map]
  have r1 : ∃ T, (Tree.insertN 100 2 (table 5 (fun i j => if i < j then
        planeSq [(3, 2), (0, 2), (1, 3), (0, 1), (2, 0)] i j else 0)) 5 Tree.fresh >>= fun t =>
        fastPersistence mode 2 100 (t.getAllEdges (SortBySecond.insertion (List Nat) ℕ)).1 [] []) =
      .ok ([(0, 0, 1), (0, 0, 2), (0, 0, 5), (0, 0, 5), (0, 0, 100), (1, 5, 8), (1, 8, 9)], T) := by
    cases mode with
    | undefined => exact absurd rfl hm
    | noPivot => exact ok_of_toOption (by decide +kernel)
    | libstdcxx => exact ok_of_toOption (by decide +kernel)
  have r2 : ∃ T, (Tree.insertN 100 2 (table 5 (fun i j => if i < j then
        planeSq [(2, 0), (0, 1), (0, 2), (1, 3), (3, 2)] i j else 0)) 5 Tree.fresh >>= fun t =>
        fastPersistence mode 2 100 (t.getAllEdges (SortBySecond.insertion (List Nat) ℕ)).1 [] []) =
      .ok ([(0, 0, 1), (0, 0, 2), (0, 0, 5), (0, 0, 5), (0, 0, 100), (1, 5, 9)], T) := by
    cases mode with
    | undefined => exact absurd rfl hm
    | noPivot => exact ok_of_toOption (by decide +kernel)
    | libstdcxx => exact ok_of_toOption (by decide +kernel)
  obtain ⟨T1, r1⟩ := r1
  obtain ⟨T2, r2⟩ := r2
  have s1 := run [(3, 2), (0, 2), (1, 3), (0, 1), (2, 0)]
  have s2 := run [(2, 0), (0, 1), (0, 2), (1, 3), (3, 2)]
  have e1 := s1.trans (congrArg _ r1)
  have e2 := s2.trans (congrArg _ r2)
  refine ⟨planeRows [(3, 2), (0, 2), (1, 3), (0, 1), (2, 0)],
    planeRows [(2, 0), (0, 1), (0, 2), (1, 3), (3, 2)], List.Perm.map _ (by decide), ?_,
    _, _, _, _, e1, e2, rfl, rfl, ?_⟩
  · intro p hp
    obtain ⟨q, -, rfl⟩ := List.mem_map.1 hp
    rfl
  · intro h
    have := h.length_eq
    simp at this

end LHF
