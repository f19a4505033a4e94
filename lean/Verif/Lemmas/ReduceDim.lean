import Verif.Lemmas.Reduction

/-! One dimension of the reduction of fastPersistence. -/

namespace LHF
open Spec

section
variable {W : Type} [LinearOrder W]

/-- The line printed for the pairing of row `p` with column `j`. -/
def lineOf (d : Nat) (rows cols : List (List Nat × W)) (pj : Nat × Nat) : Option (Line W) :=
  match rows[pj.1]?, cols[pj.2]? with
  | some r, some c => if r.2 ≠ c.2 then some (d, r.2, c.2) else none
  | _, _ => none

/-- The line of a table entry. -/
def toLine (e : BettiEntry W) : Line W := (e.dim, e.birth, e.death)

/-- A row that is allowed in a column of weight `w`: existing, not in `P`, of weight at most `w`. -/
def RowOK (rows : List (List Nat × W)) (P : List Nat) (w : W) (x : Nat) : Prop :=
  x ∉ P ∧ ∃ row, rows[x]? = some row ∧ row.2 ≤ w

/-- Invariant of the loop over the columns after the columns `done`. -/
structure RInv (d : Nat) (rows : List (List Nat × W)) (P : List Nat) (B : List Nat → List Nat)
    (L0 : List (Line W)) (T0 : List (BettiEntry W)) (done : List (List Nat × W))
    (pairs : List (Nat × Nat)) (r : Reduction W) : Prop where
  /-- position -/
  idx : r.columnIndex = done.length
  /-- paired columns -/
  piv : r.nextPivots = pairs.map Prod.snd
  /-- paired rows -/
  keys : r.v.map Prod.fst = (pairs.map Prod.fst).reverse
  /-- stored columns -/
  vinv : ∀ w, (∀ c ∈ done, c.2 ≤ w) → VInv r.v (RowOK rows P w)
  /-- stored columns span the same space as the columns -/
  span : spanL (ZMod 2) (vvecs r.v) = spanL (ZMod 2) (done.map (fun c => ind (B c.1)))
  /-- paired columns are the independent ones -/
  ind_piv : r.nextPivots = indep (ZMod 2) (done.map (fun c => ind (B c.1)))
  /-- birth before death -/
  births : ∀ pj ∈ pairs, ∃ col, done[pj.2]? = some col ∧ RowOK rows P col.2 pj.1
  /-- printed lines -/
  lines : r.lines = L0 ++ pairs.filterMap (lineOf d rows done)
  /-- table entries -/
  table : ∃ T, r.table = T0 ++ T ∧ T.map toLine = pairs.filterMap (lineOf d rows done)
  /-- a combination of the first columns has its smallest entry in a row paired with one of them -/
  leads : ∀ j ≤ done.length, ∀ x ∈ spanL (ZMod 2) ((done.take j).map (fun c => ind (B c.1))),
    x ≠ 0 → ∃ pj ∈ pairs, pj.2 < j ∧ x pj.1 ≠ 0 ∧ ∀ i < pj.1, x i = 0

theorem VInv.mono {v : List (Nat × List Nat)} {Q Q' : Nat → Prop} (h : VInv v Q)
    (hQ : ∀ x, Q x → Q' x) : VInv v Q' :=
  ⟨fun e he => ⟨(h.head e he).1, (h.head e he).2.1, fun x hx => hQ x ((h.head e he).2.2 x hx)⟩,
    h.keys⟩

theorem spanL_cons (x : Nat → ZMod 2) (l : List (Nat → ZMod 2)) :
    spanL (ZMod 2) (x :: l) = spanL (ZMod 2) l ⊔ spanL (ZMod 2) [x] := by
  rw [sup_comm, ← spanL_append]; rfl

theorem lineOf_append {d : Nat} {rows done : List (List Nat × W)} (c : List Nat × W)
    {pairs : List (Nat × Nat)} (h : ∀ pj ∈ pairs, pj.2 < done.length) :
    pairs.filterMap (lineOf d rows (done ++ [c])) = pairs.filterMap (lineOf d rows done) := by
  apply List.filterMap_congr
  intro pj hpj
  unfold lineOf
  rw [List.getElem?_append_left (h pj hpj)]

theorem leads_step {rows : List (List Nat × W)} {P : List Nat} {B : List Nat → List Nat}
    {done : List (List Nat × W)} {col : List Nat × W} {pairs pairs' : List (Nat × Nat)}
    {v : List (Nat × List Nat)} {w : W}
    (hold : ∀ j ≤ done.length, ∀ x ∈ spanL (ZMod 2) ((done.take j).map (fun c => ind (B c.1))),
      x ≠ 0 → ∃ pj ∈ pairs, pj.2 < j ∧ x pj.1 ≠ 0 ∧ ∀ i < pj.1, x i = 0)
    (hsub : ∀ pj ∈ pairs, pj ∈ pairs') (hlt : ∀ pj ∈ pairs', pj.2 < (done ++ [col]).length)
    (hv : VInv v (RowOK rows P w)) (hkeys : v.map Prod.fst = (pairs'.map Prod.fst).reverse)
    (hspan : spanL (ZMod 2) (vvecs v) =
      spanL (ZMod 2) ((done ++ [col]).map (fun c => ind (B c.1)))) :
    ∀ j ≤ (done ++ [col]).length,
      ∀ x ∈ spanL (ZMod 2) (((done ++ [col]).take j).map (fun c => ind (B c.1))),
      x ≠ 0 → ∃ pj ∈ pairs', pj.2 < j ∧ x pj.1 ≠ 0 ∧ ∀ i < pj.1, x i = 0 := by
  intro j hj x hx hx0
  by_cases hjd : j ≤ done.length
  · rw [List.take_append_of_le_length hjd] at hx
    obtain ⟨pj, h1, h2⟩ := hold j hjd x hx hx0
    exact ⟨pj, hsub pj h1, h2⟩
  · have hje : j = (done ++ [col]).length := by
      rw [List.length_append, List.length_singleton] at hj ⊢
      omega
    rw [hje, List.take_length, ← hspan] at hx
    obtain ⟨q, hq, hq1, hq2⟩ := span_lead hv x hx hx0
    rw [hkeys, List.mem_reverse, List.mem_map] at hq
    obtain ⟨pj, h1, rfl⟩ := hq
    exact ⟨pj, h1, by rw [hje]; exact hlt pj h1, hq1, hq2⟩

theorem columnStep_spec {mode : EndRead} {d : Nat} {pivots : List Nat}
    {rows : List (List Nat × W)} {P : List Nat} {B : List Nat → List Nat} {L0 : List (Line W)}
    {T0 : List (BettiEntry W)} {done : List (List Nat × W)} {pairs : List (Nat × Nat)}
    {r : Reduction W} (h : RInv d rows P B L0 T0 done pairs r) {col : List Nat × W}
    (hb : buildColumn mode pivots col.1 rows 0 pivots [] = .ok (B col.1)) (hinc : Inc (B col.1))
    (hrow : ∀ x ∈ B col.1, RowOK rows P col.2 x) (hsort : ∀ c ∈ done, c.2 ≤ col.2) :
    ∃ r' pairs', columnStep mode d pivots rows r col = .ok r' ∧
      RInv d rows P B L0 T0 (done ++ [col]) pairs' r' := by
  have hv := h.vinv col.2 hsort
  have hR : ∀ x, RowOK rows P col.2 x → x < rows.length := by
    rintro x ⟨-, row, hx, -⟩
    exact (List.getElem?_eq_some_iff.1 hx).1
  have hplt : ∀ pj ∈ pairs, pj.2 < done.length := by
    intro pj hpj
    obtain ⟨c, hc, -⟩ := h.births pj hpj
    exact (List.getElem?_eq_some_iff.1 hc).1
  obtain ⟨res, hr1, hr2, hr3⟩ := reduceCol_spec hv hR (rows.length + 1) (B col.1) hinc hrow
    (fun x _ => by omega) (by omega)
  have hwv : ∀ w, (∀ c ∈ done ++ [col], c.2 ≤ w) →
      (∀ c ∈ done, c.2 ≤ w) ∧ col.2 ≤ w := fun w hw =>
    ⟨fun c hc => hw c (by simp [hc]), hw col (by simp)⟩
  unfold columnStep
  rw [hb, ok_bind, hr1]
  cases res with
  | dropped =>
    have hmem := hr2 rfl
    refine ⟨_, pairs, rfl, ?_⟩
    have hmem' : ind (B col.1) ∈ spanL (ZMod 2) (done.map (fun c => ind (B c.1))) := by
      rw [← h.span]; exact hmem
    have hspan : spanL (ZMod 2) (vvecs r.v) =
        spanL (ZMod 2) ((done ++ [col]).map (fun c => ind (B c.1))) := by
      rw [List.map_append, List.map_singleton, spanL_append, spanL_singleton, ← h.span, sup_eq_left.2]
      rw [Submodule.span_singleton_le_iff_mem]; exact hmem
    refine ⟨by simp [h.idx], h.piv, h.keys, fun w hw => h.vinv w (hwv w hw).1, hspan, ?_, ?_, ?_, ?_,
      leads_step h.leads (fun _ h => h) (fun pj hpj => by
        have := hplt pj hpj
        rw [List.length_append]; omega) hv h.keys hspan⟩
    · rw [List.map_append, List.map_singleton, indep_snoc, if_pos hmem', List.append_nil]
      exact h.ind_piv
    · intro pj hpj
      obtain ⟨c, hc, hc'⟩ := h.births pj hpj
      exact ⟨c, by rw [List.getElem?_append_left (hplt pj hpj)]; exact hc, hc'⟩
    · rw [lineOf_append _ hplt]; exact h.lines
    · rw [lineOf_append _ hplt]; exact h.table
  | stored p c =>
    obtain ⟨j1, j2, j3, j4, j5⟩ := hr3 p c rfl
    have hpc : p ∈ c := List.mem_of_head? j2
    have hpOK := j3 p hpc
    obtain ⟨hpP, row, hrowp, hroww⟩ := hpOK
    have hlt : p < rows.length := (List.getElem?_eq_some_iff.1 hrowp).1
    have hg : vget rows p = .ok row := vget_ok.2 hrowp
    have h2 : ∀ z : Nat → ZMod 2, z + z = 0 := by
      intro z
      funext t
      have : ∀ z : ZMod 2, z + z = 0 := by decide
      exact this _
    have hnot : ind (B col.1) ∉ spanL (ZMod 2) (vvecs r.v) := by
      intro hmem
      apply j4
      apply head_of_span hv j1 j2
      have : ind c = (ind c + ind (B col.1)) + ind (B col.1) := by rw [add_assoc, h2, add_zero]
      rw [this]
      exact Submodule.add_mem _ j5 hmem
    have hnot' : ind (B col.1) ∉ spanL (ZMod 2) (done.map (fun c => ind (B c.1))) := by
      rw [← h.span]; exact hnot
    have hvlt : ∀ w, (∀ c ∈ done ++ [col], c.2 ≤ w) → VInv ((p, c) :: r.v) (RowOK rows P w) := by
      intro w hw
      obtain ⟨hw1, hw2⟩ := hwv w hw
      have := h.vinv w hw1
      refine ⟨?_, ?_⟩
      · intro e he
        rw [List.mem_cons] at he
        rcases he with rfl | he
        · refine ⟨j1, j2, fun x hx => ?_⟩
          obtain ⟨hxP, row', hx1, hx2⟩ := j3 x hx
          exact ⟨hxP, row', hx1, hx2.trans hw2⟩
        · exact this.head e he
      · rw [List.map_cons, List.nodup_cons]
        exact ⟨j4, this.keys⟩
    have hspan : spanL (ZMod 2) (vvecs ((p, c) :: r.v)) =
        spanL (ZMod 2) ((done ++ [col]).map (fun c => ind (B c.1))) := by
      have e1 : vvecs ((p, c) :: r.v) = ind c :: vvecs r.v := rfl
      rw [e1, spanL_cons, List.map_append, List.map_singleton, spanL_append, ← h.span,
        spanL_singleton, spanL_singleton]
      apply le_antisymm
      · refine sup_le le_sup_left ?_
        rw [Submodule.span_singleton_le_iff_mem]
        have : ind c = (ind c + ind (B col.1)) + ind (B col.1) := by rw [add_assoc, h2, add_zero]
        rw [this]
        exact Submodule.add_mem _ ((le_sup_left : _ ≤ _ ⊔ Submodule.span (ZMod 2) {ind (B col.1)}) j5)
          (Submodule.mem_sup_right (Submodule.mem_span_singleton_self _))
      · refine sup_le le_sup_left ?_
        rw [Submodule.span_singleton_le_iff_mem]
        have : ind (B col.1) = (ind c + ind (B col.1)) + ind c := by
          rw [add_comm (ind c), add_assoc, h2, add_zero]
        rw [this]
        exact Submodule.add_mem _ (Submodule.mem_sup_left j5)
          (Submodule.mem_sup_right (Submodule.mem_span_singleton_self _))
    have hindep : r.nextPivots ++ [r.columnIndex] =
        LHF.indep (ZMod 2) ((done ++ [col]).map (fun c => ind (B c.1))) := by
      rw [List.map_append, List.map_singleton, indep_snoc, if_neg hnot', ← h.ind_piv, List.length_map,
        h.idx]
    have hgl : (done ++ [col])[done.length]? = some col := by simp
    have hpairs : ∀ pj ∈ pairs ++ [(p, done.length)], ∃ col', (done ++ [col])[pj.2]? = some col' ∧
        RowOK rows P col'.2 pj.1 := by
      intro pj hpj
      rw [List.mem_append, List.mem_singleton] at hpj
      rcases hpj with hpj | rfl
      · obtain ⟨c, hc, hc'⟩ := h.births pj hpj
        exact ⟨c, by rw [List.getElem?_append_left (hplt pj hpj)]; exact hc, hc'⟩
      · exact ⟨col, hgl, hpP, row, hrowp, hroww⟩
    have hleads := leads_step (pairs' := pairs ++ [(p, done.length)]) h.leads
      (fun pj hpj => List.mem_append_left _ hpj)
      (fun pj hpj => by
        obtain ⟨c, hc, -⟩ := hpairs pj hpj
        exact (List.getElem?_eq_some_iff.1 hc).1)
      (hvlt col.2 (by
        intro c hc
        rw [List.mem_append, List.mem_singleton] at hc
        rcases hc with hc | rfl
        · exact hsort c hc
        · exact le_refl _))
      (by simp [h.keys]) hspan
    have hlo : lineOf d rows (done ++ [col]) (p, done.length) =
        if row.2 ≠ col.2 then some (d, row.2, col.2) else none := by
      unfold lineOf
      rw [hgl, hrowp]
    simp only [hg, ok_bind]
    by_cases hw : row.2 ≠ col.2
    · rw [if_pos hw]
      refine ⟨_, pairs ++ [(p, done.length)], rfl, by simp [h.idx], by simp [h.piv, h.idx],
        by simp [h.keys], hvlt, hspan, hindep, hpairs, ?_, ?_,
        hleads⟩
      · rw [List.filterMap_append, lineOf_append _ hplt, h.lines, List.append_assoc]
        simp [hlo, hw]
      · obtain ⟨T, hT1, hT2⟩ := h.table
        refine ⟨T ++ [⟨d, row.2, col.2, c⟩], by simp [hT1], ?_⟩
        rw [List.filterMap_append, lineOf_append _ hplt, List.map_append, hT2]
        simp [hlo, hw, toLine]
    · rw [if_neg hw]
      refine ⟨_, pairs ++ [(p, done.length)], rfl, by simp [h.idx], by simp [h.piv, h.idx],
        by simp [h.keys], hvlt, hspan, hindep, hpairs, ?_, ?_,
        hleads⟩
      · rw [List.filterMap_append, lineOf_append _ hplt, h.lines]
        simp only [ne_eq, not_not] at hw
        simp [hlo, hw]
      · obtain ⟨T, hT1, hT2⟩ := h.table
        refine ⟨T, hT1, ?_⟩
        rw [List.filterMap_append, lineOf_append _ hplt, hT2]
        simp only [ne_eq, not_not] at hw
        simp [hlo, hw]

theorem reduceDim_spec {mode : EndRead} {d : Nat} {pivots : List Nat}
    {rows cols : List (List Nat × W)} {P : List Nat} {B : List Nat → List Nat}
    (L0 : List (Line W)) (T0 : List (BettiEntry W))
    (hb : ∀ col ∈ cols, buildColumn mode pivots col.1 rows 0 pivots [] = .ok (B col.1))
    (hinc : ∀ col ∈ cols, Inc (B col.1))
    (hrow : ∀ col ∈ cols, ∀ x ∈ B col.1, RowOK rows P col.2 x)
    (hsort : cols.Pairwise (fun a b => a.2 ≤ b.2)) :
    ∃ r pairs, reduceDim mode d pivots rows cols L0 T0 = .ok r ∧
      RInv d rows P B L0 T0 cols pairs r := by
  unfold reduceDim
  have key : ∀ (rest done : List (List Nat × W)) (r : Reduction W) (pairs : List (Nat × Nat)),
      cols = done ++ rest → RInv d rows P B L0 T0 done pairs r →
      ∃ r' pairs', rest.foldlM (columnStep mode d pivots rows) r = .ok r' ∧
        RInv d rows P B L0 T0 cols pairs' r' := by
    intro rest
    induction rest with
    | nil =>
      intro done r pairs he h
      rw [List.append_nil] at he
      subst he
      exact ⟨r, pairs, rfl, h⟩
    | cons c rest ih =>
      intro done r pairs he h
      have hc : c ∈ cols := by rw [he]; simp
      have hs : ∀ c' ∈ done, c'.2 ≤ c.2 := by
        intro c' hc'
        rw [he, List.pairwise_append] at hsort
        exact hsort.2.2 c' hc' c (by simp)
      obtain ⟨r1, p1, h1, h2⟩ := columnStep_spec h (hb c hc) (hinc c hc) (hrow c hc) hs
      obtain ⟨r2, p2, h3, h4⟩ := ih (done ++ [c]) r1 p1 (by simp [he]) h2
      exact ⟨r2, p2, by rw [List.foldlM_cons, h1, ok_bind, h3], h4⟩
  apply key cols [] ⟨[], [], 0, L0, T0⟩ [] rfl
  refine ⟨rfl, rfl, rfl, fun w _ => ⟨by simp, by simp⟩, rfl, by simp [indep], by simp, by simp,
    ⟨[], by simp, rfl⟩, by
      intro j _ x hx hx0
      simp only [List.take_nil, List.map_nil, spanL] at hx
      simp at hx
      exact absurd hx hx0⟩

end
end LHF
