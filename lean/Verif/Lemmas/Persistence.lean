import Verif.Lemmas.Pivots
import Verif.Lemmas.Res

/-! All dimensions of fastPersistence. -/

namespace LHF
open Spec

section
variable {W : Type} [LinearOrder W]

/-! ### Filtered complexes -/

theorem Spec.FilteredComplex.layer {edges : List (List (List Nat × W))} (hF : FilteredComplex edges)
    {k : Nat} {l : List (List Nat × W)} (h : edges[k]? = some l) :
    (∀ e ∈ l, Inc e.1 ∧ e.1.length = k + 1) ∧ (l.map Prod.fst).Nodup ∧
      l.Pairwise (fun a b => a.2 ≤ b.2) :=
  ⟨fun e he => hF.shape k l h e he, hF.once l (List.mem_of_getElem? h),
    hF.sorted l (List.mem_of_getElem? h)⟩

theorem Spec.FilteredComplex.facet {edges : List (List (List Nat × W))} (hF : FilteredComplex edges)
    {k : Nat} {rows cols : List (List Nat × W)} (h : edges[k]? = some rows)
    (h' : edges[k + 1]? = some cols) {c : List Nat × W} (hc : c ∈ cols) {s : List Nat}
    (hs : s.Sublist c.1) (hl : s.length = k + 1) : ∃ w, (s, w) ∈ rows ∧ w ≤ c.2 := by
  obtain ⟨l, w, h1, h2, h3⟩ := hF.facets k cols h' c hc s hs hl
  rw [h, Option.some.injEq] at h1
  subst h1
  exact ⟨w, h2, h3⟩

theorem sublist_of_subset_inc {a b : List Nat} (ha : Inc a) (hb : Inc b) (h : ∀ v ∈ a, v ∈ b) :
    a.Sublist b := by
  have : a = b.filter (fun v => v ∈ a) := by
    apply Inc.ext ha (hb.sublist List.filter_sublist)
    intro x
    simp only [List.mem_filter, decide_eq_true_eq]
    exact ⟨fun hx => ⟨h x hx, hx⟩, fun hx => hx.2⟩
  rw [this]
  exact List.filter_sublist

omit [LinearOrder W] in
theorem snd_unique {l : List (List Nat × W)} (h : (l.map Prod.fst).Nodup) {a b : List Nat × W}
    (ha : a ∈ l) (hb : b ∈ l) (hab : a.1 = b.1) : a = b := by
  exact List.inj_on_of_nodup_map h ha hb hab

/-- The rows in a column of a filtered complex are not heavier than the column. -/
theorem colOf_ok {edges : List (List (List Nat × W))} (hF : FilteredComplex edges)
    {k : Nat} {rows cols : List (List Nat × W)} (h : edges[k]? = some rows)
    (h' : edges[k + 1]? = some cols) {c : List Nat × W} (hc : c ∈ cols) (P : List Nat) {x : Nat}
    (hx : x ∈ colOf rows P c.1) : RowOK rows P c.2 x := by
  rw [mem_colOf] at hx
  obtain ⟨h1, row, h2, h3⟩ := hx
  have hr := (hF.layer h).1 row (List.mem_of_getElem? h2)
  have hc' := (hF.layer h').1 c hc
  obtain ⟨w, h4, h5⟩ := hF.facet h h' hc (sublist_of_subset_inc hr.1 hc'.1 h3) hr.2
  have := snd_unique (hF.layer h).2.1 (List.mem_of_getElem? h2) h4 rfl
  exact ⟨h1, row, h2, by rw [this]; exact h5⟩

/-! ### One dimension -/

/-- What is known about the pairs (row, column) found in one dimension. -/
structure DimOut (P : List Nat) (rows cols : List (List Nat × W)) (pairs : List (Nat × Nat)) :
    Prop where
  /-- paired columns are the independent ones -/
  columns : pairs.map Prod.snd =
    indep (ZMod 2) (cols.map (fun c => ind (colOf rows P c.1)))
  /-- each row is paired once -/
  rows_nodup : (pairs.map Prod.fst).Nodup
  /-- births before deaths -/
  births : ∀ pj ∈ pairs, ∃ row col, rows[pj.1]? = some row ∧ cols[pj.2]? = some col ∧
    row.2 ≤ col.2 ∧ pj.1 ∉ P
  /-- a combination of the first columns has its smallest entry in a row paired with one of them -/
  leads : ∀ j ≤ cols.length,
    ∀ x ∈ spanL (ZMod 2) ((cols.take j).map (fun c => ind (colOf rows P c.1))),
    x ≠ 0 → ∃ pj ∈ pairs, pj.2 < j ∧ x pj.1 ≠ 0 ∧ ∀ i < pj.1, x i = 0

theorem reduceDim_mode {mode : EndRead} {edges : List (List (List Nat × W))}
    (hF : FilteredComplex edges) {d : Nat}
    {rows cols : List (List Nat × W)} (h : edges[d]? = some rows)
    (h' : edges[d + 1]? = some cols) {pivots : List Nat} (hp : Inc pivots)
    (hmode : mode = .undefined → cols ≠ [] → ∀ i, i < rows.length → ∃ p ∈ pivots, i ≤ p)
    (L0 : List (Line W)) (T0 : List (BettiEntry W)) :
    ∃ r pairs, reduceDim mode d pivots rows cols L0 T0 = .ok r ∧ r.nextPivots = pairs.map Prod.snd ∧
      DimOut (cleared mode pivots) rows cols pairs ∧
      r.lines = L0 ++ pairs.filterMap (lineOf d rows cols) ∧
      ∃ T, r.table = T0 ++ T ∧ T.map toLine = pairs.filterMap (lineOf d rows cols) := by
  obtain ⟨r, pairs, h1, h2⟩ := reduceDim_spec (mode := mode) (d := d) (pivots := pivots)
    (rows := rows) (cols := cols) (P := cleared mode pivots)
    (B := colOf rows (cleared mode pivots)) L0 T0
    (fun col hc => build_mode hp (fun r hr => ((hF.layer h).1 r hr).1)
      (fun hm => hmode hm (List.ne_nil_of_mem hc)) ((hF.layer h').1 col hc).1)
    (fun col _ => inc_colOf _ _ _) (fun col hc x hx => colOf_ok hF h h' hc _ hx) (hF.layer h').2.2
  refine ⟨r, pairs, h1, h2.piv, ⟨?_, ?_, ?_, h2.leads⟩, h2.lines, h2.table⟩
  · rw [← h2.piv]; exact h2.ind_piv
  · rcases List.eq_nil_or_concat cols with rfl | ⟨init, last, rfl⟩
    · have : pairs = [] := by
        rw [List.eq_nil_iff_forall_not_mem]
        intro pj hpj
        obtain ⟨col, hc, -⟩ := h2.births pj hpj
        simp at hc
      rw [this]; simp
    · have hs := (hF.layer h').2.2
      rw [List.concat_eq_append, List.pairwise_append] at hs
      have hv := (h2.vinv last.2 (by
        intro c hc
        rw [List.concat_eq_append, List.mem_append, List.mem_singleton] at hc
        rcases hc with hc | rfl
        · exact hs.2.2 c hc last (by simp)
        · exact le_refl _)).keys
      rw [h2.keys, List.nodup_reverse] at hv
      exact hv
  · intro pj hpj
    obtain ⟨col, hc, hP, row, hr, hw⟩ := h2.births pj hpj
    exact ⟨row, col, hr, hc, hw, hP⟩

/-- In the strict mode a row after the last pivot is an error. -/
theorem reduceDim_undefined {d : Nat} {rows cols : List (List Nat × W)} {pivots : List Nat}
    (hp : Inc pivots) (hc : cols ≠ []) {i : Nat} (hi : i < rows.length)
    (hi' : ∀ p ∈ pivots, p < i) (L0 : List (Line W)) (T0 : List (BettiEntry W)) :
    reduceDim .undefined d pivots rows cols L0 T0 = .error .endDeref := by
  cases cols with
  | nil => exact absurd rfl hc
  | cons c cols =>
    unfold reduceDim
    rw [List.foldlM_cons]
    unfold columnStep
    rw [(buildColumn_undefined c.1 pivots rows 0 pivots [] hp (by simp)).2 ⟨i, hi, by simpa using hi'⟩]
    rfl

/-! ### All dimensions -/

theorem reduceDims_spec {mode : EndRead} (hmode : mode ≠ .undefined)
    {edges : List (List (List Nat × W))} (hF : FilteredComplex edges) (n : Nat) :
    ∀ (d : Nat) (_ : d + n < edges.length) (pivots : List Nat) (_ : Inc pivots)
      (L0 : List (Line W)) (T0 : List (BettiEntry W)),
    ∃ (piv : Nat → List Nat) (pr : Nat → List (Nat × Nat)) (T : List (BettiEntry W)),
      reduceDims mode edges n d pivots L0 T0 =
        .ok (L0 ++ (List.range' d n).flatMap (fun k =>
          (pr k).filterMap (lineOf k (edges.getD k []) (edges.getD (k + 1) []))), T0 ++ T) ∧
      T.map toLine = (List.range' d n).flatMap (fun k =>
          (pr k).filterMap (lineOf k (edges.getD k []) (edges.getD (k + 1) []))) ∧
      piv d = pivots ∧
      ∀ k, d ≤ k → k < d + n → piv (k + 1) = (pr k).map Prod.snd ∧
        DimOut (cleared mode (piv k)) (edges.getD k []) (edges.getD (k + 1) []) (pr k) := by
  induction n with
  | zero =>
    intro d _ pivots _ L0 T0
    refine ⟨fun _ => pivots, fun _ => [], [], ?_, rfl, rfl, ?_⟩
    · simp [reduceDims, pure_eq_ok]
    · intro k h1 h2; omega
  | succ n ih =>
    intro d hd pivots hp L0 T0
    have g1 : edges[d]? = some (edges.getD d []) := by
      rw [List.getD_eq_getElem?_getD, List.getElem?_eq_getElem (by omega)]; rfl
    have g2 : edges[d + 1]? = some (edges.getD (d + 1) []) := by
      rw [List.getD_eq_getElem?_getD, List.getElem?_eq_getElem (by omega)]; rfl
    obtain ⟨r, pairs, h1, h2, h3, h4, T1, h5, h6⟩ := reduceDim_mode (mode := mode) hF g1 g2 hp
      (fun h => absurd h hmode) L0 T0
    have hinc : Inc r.nextPivots := by
      rw [h2, h3.columns]; exact inc_indep _
    obtain ⟨piv, pr, T2, k1, k2, k3, k4⟩ := ih (d + 1) (by omega) r.nextPivots hinc r.lines r.table
    refine ⟨fun k => if k = d then pivots else piv k, fun k => if k = d then pairs else pr k,
      T1 ++ T2, ?_, ?_, by simp, ?_⟩
    · rw [reduceDims, vget_ok.2 g1, ok_bind, vget_ok.2 g2, ok_bind, h1, ok_bind, k1, h4, h5]
      congr 2
      · rw [List.range'_succ, List.flatMap_cons, List.append_assoc]
        simp only [if_true]
        congr 2
        apply List.flatMap_congr
        intro k hk
        rw [List.mem_range'_1] at hk
        rw [if_neg (by omega)]
      · rw [List.append_assoc]
    · rw [List.map_append, h6, k2, List.range'_succ, List.flatMap_cons]
      simp only [if_true]
      congr 1
      apply List.flatMap_congr
      intro k hk
      rw [List.mem_range'_1] at hk
      rw [if_neg (by omega)]
    · intro k hk1 hk2
      by_cases hkd : k = d
      · subst hkd
        refine ⟨?_, ?_⟩
        · simp only [if_true]
          rw [if_neg (by omega), k3, h2]
        · simp only [if_true]
          exact h3
      · obtain ⟨j1, j2⟩ := k4 k (by omega) (by omega)
        refine ⟨?_, ?_⟩
        · simp only [hkd, if_false]
          rw [if_neg (by omega), j1]
        · simp only [hkd, if_false]
          exact j2

/-- Positions of the simplices of a layer whose boundary is not a combination of the boundaries of
earlier simplices of the layer. -/
noncomputable def negatives (edges : List (List (List Nat × W))) (k : Nat) : List Nat :=
  indep (ZMod 2) (bvecs ((edges.getD k []).map Prod.fst))

/-- The pairs of one dimension, when exactly the pivots are cleared and the pivots are the negative
simplices. -/
structure Pairing (edges : List (List (List Nat × W))) (k : Nat) (pairs : List (Nat × Nat)) :
    Prop where
  /-- paired columns are the negative simplices -/
  columns : pairs.map Prod.snd = negatives edges (k + 1)
  /-- each row is paired once -/
  rows_nodup : (pairs.map Prod.fst).Nodup
  /-- births before deaths, rows are positive -/
  births : ∀ pj ∈ pairs, ∃ row col, (edges.getD k [])[pj.1]? = some row ∧
    (edges.getD (k + 1) [])[pj.2]? = some col ∧ row.2 ≤ col.2 ∧ pj.1 ∉ negatives edges k
  /-- a combination of the first columns has its smallest entry in a row paired with one of them -/
  leads : ∀ j ≤ (edges.getD (k + 1) []).length,
    ∀ x ∈ spanL (ZMod 2) (((edges.getD (k + 1) []).take j).map
      (fun c => ind (colOf (edges.getD k []) (negatives edges k) c.1))),
    x ≠ 0 → ∃ pj ∈ pairs, pj.2 < j ∧ x pj.1 ≠ 0 ∧ ∀ i < pj.1, x i = 0

theorem DimOut.pairing {edges : List (List (List Nat × W))} (hF : FilteredComplex edges) {k : Nat}
    (hk : k + 1 < edges.length) {pairs : List (Nat × Nat)}
    (h : DimOut (negatives edges k) (edges.getD k []) (edges.getD (k + 1) []) pairs) :
    Pairing edges k pairs := by
  have g1 : edges[k]? = some (edges.getD k []) := by
    rw [List.getD_eq_getElem?_getD, List.getElem?_eq_getElem (by omega)]; rfl
  have g2 : edges[k + 1]? = some (edges.getD (k + 1) []) := by
    rw [List.getD_eq_getElem?_getD, List.getElem?_eq_getElem (by omega)]; rfl
  refine ⟨?_, h.rows_nodup, h.births, h.leads⟩
  rw [h.columns]
  unfold negatives
  apply indep_cleared (d := k) (fun r hr => (hF.layer g1).1 r hr) (hF.layer g1).2.1
    (fun r hr => (hF.layer g2).1 r hr)
  intro c hc s hs hl
  obtain ⟨w, hw, -⟩ := hF.facet g1 g2 hc hs hl
  exact List.mem_map.2 ⟨_, hw, rfl⟩

/-- The rows are exactly cleared in the intended mode, and in libstdc++ unless the pivots are a
proper initial segment of the rows. -/
def ClearsExactly (mode : EndRead) (edges : List (List (List Nat × W))) (k : Nat) : Prop :=
  match mode with
  | .libstdcxx => ∀ m, m < (edges.getD k []).length → negatives edges k ≠ List.range m
  | _ => True

omit [LinearOrder W] in
theorem negatives_inc (edges : List (List (List Nat × W))) (k : Nat) : Inc (negatives edges k) :=
  inc_indep _

omit [LinearOrder W] in
theorem negatives_lt {edges : List (List (List Nat × W))} {k i : Nat} (h : i ∈ negatives edges k) :
    i < (edges.getD k []).length := by
  have := indep_lt h
  simpa [bvecs] using this

omit [LinearOrder W] in
/-- With the negative simplices as pivots, the columns are those of the intended mode. -/
theorem colOf_cleared {mode : EndRead} {edges : List (List (List Nat × W))} {k : Nat}
    (h : ClearsExactly mode edges k) (s : List Nat) :
    colOf (edges.getD k []) (cleared mode (negatives edges k)) s =
      colOf (edges.getD k []) (negatives edges k) s := by
  cases mode with
  | undefined => rfl
  | noPivot => rfl
  | libstdcxx =>
    show colOf _ (skipped (negatives edges k)) s = _
    unfold skipped
    split_ifs with hr
    · apply Inc.ext (inc_colOf _ _ _) (inc_colOf _ _ _)
      intro x
      rw [mem_colOf, mem_colOf]
      have : (edges.getD k []).length ≤ (negatives edges k).length := by
        by_contra hlt
        exact h _ (by omega) hr
      constructor
      · rintro ⟨h1, h2⟩
        exact ⟨fun hm => h1 (by simp [hm]), h2⟩
      · rintro ⟨h1, row, h2, h3⟩
        refine ⟨?_, row, h2, h3⟩
        have hx := (List.getElem?_eq_some_iff.1 h2).1
        intro hm
        rw [List.mem_append, List.mem_singleton] at hm
        rcases hm with hm | hm
        · exact h1 hm
        · omega
    · rfl

theorem pairing_chain {mode : EndRead} {edges : List (List (List Nat × W))}
    (hF : FilteredComplex edges) {d n : Nat} (hn : d + n < edges.length) {piv : Nat → List Nat}
    {pr : Nat → List (Nat × Nat)} (h0 : piv d = negatives edges d)
    (hcl : ∀ k, d ≤ k → k < d + n → ClearsExactly mode edges k)
    (h : ∀ k, d ≤ k → k < d + n → piv (k + 1) = (pr k).map Prod.snd ∧
        DimOut (cleared mode (piv k)) (edges.getD k []) (edges.getD (k + 1) []) (pr k)) :
    ∀ k, d ≤ k → k < d + n → piv k = negatives edges k ∧ Pairing edges k (pr k) := by
  have key : ∀ j, j < n → piv (d + j) = negatives edges (d + j) ∧
      Pairing edges (d + j) (pr (d + j)) := by
    intro j
    induction j with
    | zero =>
      intro hj
      rw [Nat.add_zero]
      refine ⟨h0, ?_⟩
      have := (h d (le_refl _) (by omega)).2
      rw [h0] at this
      have hcols := colOf_cleared (hcl d (le_refl _) (by omega))
      refine DimOut.pairing hF (by omega) ⟨?_, this.rows_nodup, ?_, by
        simp only [← hcols]; exact this.leads⟩
      · rw [this.columns]
        congr 1
        apply List.map_congr_left
        intro c _
        rw [colOf_cleared (hcl d (le_refl _) (by omega))]
      · intro pj hpj
        obtain ⟨row, col, h1, h2, h3, h4⟩ := this.births pj hpj
        refine ⟨row, col, h1, h2, h3, ?_⟩
        cases mode with
        | undefined => exact h4
        | noPivot => exact h4
        | libstdcxx =>
          intro hm
          apply h4
          show pj.1 ∈ skipped _
          unfold skipped
          split_ifs
          · simp; left; exact hm
          · exact hm
    | succ j ih =>
      intro hj
      obtain ⟨i1, i2⟩ := ih (by omega)
      have hp : piv (d + j + 1) = negatives edges (d + j + 1) := by
        rw [(h (d + j) (by omega) (by omega)).1, i2.columns]
      have e : d + (j + 1) = d + j + 1 := rfl
      rw [e]
      refine ⟨hp, ?_⟩
      have := (h (d + j + 1) (by omega) (by omega)).2
      rw [hp] at this
      have hcols := colOf_cleared (hcl (d + j + 1) (by omega) (by omega))
      refine DimOut.pairing hF (by omega) ⟨?_, this.rows_nodup, ?_, by
        simp only [← hcols]; exact this.leads⟩
      · rw [this.columns]
        congr 1
        apply List.map_congr_left
        intro c _
        rw [colOf_cleared (hcl (d + j + 1) (by omega) (by omega))]
      · intro pj hpj
        obtain ⟨row, col, h1, h2, h3, h4⟩ := this.births pj hpj
        refine ⟨row, col, h1, h2, h3, ?_⟩
        cases mode with
        | undefined => exact h4
        | noPivot => exact h4
        | libstdcxx =>
          intro hm
          apply h4
          show pj.1 ∈ skipped _
          unfold skipped
          split_ifs
          · simp; left; exact hm
          · exact hm
  intro k hk1 hk2
  obtain ⟨j, rfl⟩ := Nat.exists_eq_add_of_le hk1
  exact key j (by omega)

/-- No row follows the last pivot in this dimension, or there is no column to build. -/
def SafeDim (edges : List (List (List Nat × W))) (k : Nat) : Prop :=
  edges.getD (k + 1) [] ≠ [] → ∀ i, i < (edges.getD k []).length → ∃ p ∈ negatives edges k, i ≤ p

/-- The strict mode: the same as the intended mode as long as no row follows the last pivot, otherwise
an error. -/
theorem reduceDims_undefined {edges : List (List (List Nat × W))} (hF : FilteredComplex edges)
    (n : Nat) : ∀ (d : Nat) (_ : d + n < edges.length) (L0 : List (Line W))
      (T0 : List (BettiEntry W)),
    ((∀ k, d ≤ k → k < d + n → SafeDim edges k) →
      reduceDims .undefined edges n d (negatives edges d) L0 T0 =
        reduceDims .noPivot edges n d (negatives edges d) L0 T0) ∧
    ((∃ k, d ≤ k ∧ k < d + n ∧ ¬ SafeDim edges k) →
      reduceDims .undefined edges n d (negatives edges d) L0 T0 = .error .endDeref) := by
  induction n with
  | zero =>
    intro d _ L0 T0
    exact ⟨fun _ => rfl, by rintro ⟨k, h1, h2, -⟩; omega⟩
  | succ n ih =>
    intro d hd L0 T0
    have g1 : edges[d]? = some (edges.getD d []) := by
      rw [List.getD_eq_getElem?_getD, List.getElem?_eq_getElem (by omega)]; rfl
    have g2 : edges[d + 1]? = some (edges.getD (d + 1) []) := by
      rw [List.getD_eq_getElem?_getD, List.getElem?_eq_getElem (by omega)]; rfl
    have hp := negatives_inc edges d
    rw [reduceDims, reduceDims, vget_ok.2 g1, ok_bind, vget_ok.2 g2, ok_bind, ok_bind, ok_bind]
    by_cases hs : SafeDim edges d
    · obtain ⟨r, pairs, h1, h2, h3, -⟩ := reduceDim_mode (mode := .noPivot) hF g1 g2 hp
        (fun h => by cases h) L0 T0
      have hb : ∀ c ∈ edges.getD (d + 1) [],
          buildColumn .undefined (negatives edges d) c.1 (edges.getD d []) 0 (negatives edges d) [] =
          buildColumn .noPivot (negatives edges d) c.1 (edges.getD d []) 0 (negatives edges d) [] := by
        intro c hc
        apply (buildColumn_undefined c.1 _ _ 0 _ [] hp (by simp)).1
        simpa using hs (List.ne_nil_of_mem hc)
      have heq : reduceDim .undefined d (negatives edges d) (edges.getD d []) (edges.getD (d + 1) [])
          L0 T0 = reduceDim .noPivot d (negatives edges d) (edges.getD d [])
          (edges.getD (d + 1) []) L0 T0 := by
        unfold reduceDim
        have key : ∀ (l : List (List Nat × W)) (r : Reduction W),
            (∀ c ∈ l, c ∈ edges.getD (d + 1) []) →
            l.foldlM (columnStep .undefined d (negatives edges d) (edges.getD d [])) r =
            l.foldlM (columnStep .noPivot d (negatives edges d) (edges.getD d [])) r := by
          intro l
          induction l with
          | nil => intro r _; rfl
          | cons c l ihl =>
            intro r hl
            rw [List.foldlM_cons, List.foldlM_cons]
            have : columnStep .undefined d (negatives edges d) (edges.getD d []) r c =
                columnStep .noPivot d (negatives edges d) (edges.getD d []) r c := by
              unfold columnStep
              rw [hb c (hl c (by simp))]
            rw [this]
            congr 1
            funext r'
            exact ihl r' (fun c hc => hl c (by simp [hc]))
        exact key _ _ (fun c hc => hc)
      have hneg : r.nextPivots = negatives edges (d + 1) := by
        rw [h2]
        exact (DimOut.pairing hF (by omega) h3).columns
      rw [heq, h1, ok_bind, ok_bind, hneg]
      obtain ⟨i1, i2⟩ := ih (d + 1) (by omega) r.lines r.table
      refine ⟨fun h => i1 (fun k hk1 hk2 => h k (by omega) (by omega)), ?_⟩
      rintro ⟨k, hk1, hk2, hk3⟩
      have : k ≠ d := by rintro rfl; exact hk3 hs
      exact i2 ⟨k, by omega, by omega, hk3⟩
    · refine ⟨fun h => absurd (h d (le_refl _) (by omega)) hs, fun _ => ?_⟩
      unfold SafeDim at hs
      push Not at hs
      obtain ⟨hc, i, hi, hi'⟩ := hs
      rw [reduceDim_undefined hp hc hi hi']
      rfl

end
end LHF
