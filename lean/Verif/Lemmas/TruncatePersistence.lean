import Verif.Lemmas.Truncate
import Verif.Lemmas.Filtered
import Verif.Lemmas.Persistence
import Verif.Model.FastPersistence

/-!
The persistence stage on the part of a filtered complex that lies below a bound: its lines are the
lines of the whole complex with deaths below the bound.
-/

namespace LHF
open Spec

section
variable {W : Type} [LinearOrder W] [Zero W]

theorem kruskalStep_grow (e : List Nat × W) (k : Kruskal W) :
    ∃ m p, (kruskalStep e k).mst = k.mst ++ m ∧ (kruskalStep e k).pivots = k.pivots ++ p ∧
      (∀ x ∈ m, x = e.2) ∧ (∀ x ∈ p, x = k.pivotIndex) ∧
      (kruskalStep e k).pivotIndex = k.pivotIndex + 1 := by
  unfold kruskalStep
  dsimp only
  split_ifs
  · exact ⟨[e.2], [k.pivotIndex], rfl, rfl, by simp, by simp, rfl⟩
  · exact ⟨[e.2], [k.pivotIndex], rfl, rfl, by simp, by simp, rfl⟩
  · exact ⟨[], [], by simp, by simp, by simp, by simp, rfl⟩

theorem kruskalLoop_grow (n : Nat) (B : List (List Nat × W)) : ∀ k : Kruskal W,
    ∃ m p, (kruskalLoop n B k).mst = k.mst ++ m ∧ (kruskalLoop n B k).pivots = k.pivots ++ p ∧
      (∀ x ∈ m, ∃ e ∈ B, x = e.2) ∧ (∀ x ∈ p, k.pivotIndex ≤ x) := by
  induction B with
  | nil => intro k; exact ⟨[], [], by simp [kruskalLoop], by simp [kruskalLoop], by simp, by simp⟩
  | cons e B ih =>
    intro k
    obtain ⟨m, p, h1, h2, h3, h4, h5⟩ := kruskalStep_grow e k
    rw [kruskalLoop]
    by_cases hb : (kruskalStep e k).mst.length = szPred n
    · rw [if_pos hb]
      exact ⟨m, p, h1, h2, fun x hx => ⟨e, by simp, h3 x hx⟩, fun x hx => (h4 x hx).ge⟩
    · rw [if_neg hb]
      obtain ⟨m', p', g1, g2, g3, g4⟩ := ih (kruskalStep e k)
      refine ⟨m ++ m', p ++ p', by rw [g1, h1, List.append_assoc],
        by rw [g2, h2, List.append_assoc], ?_, ?_⟩
      · intro x hx
        rcases List.mem_append.1 hx with hx | hx
        · exact ⟨e, by simp, h3 x hx⟩
        · obtain ⟨e', he', hxe⟩ := g3 x hx
          exact ⟨e', by simp [he'], hxe⟩
      · intro x hx
        rcases List.mem_append.1 hx with hx | hx
        · exact (h4 x hx).ge
        · have := g4 x hx
          omega

theorem kruskalLoop_append (n : Nat) (A B : List (List Nat × W)) : ∀ k : Kruskal W,
    kruskalLoop n (A ++ B) k = kruskalLoop n A k ∨
      (kruskalLoop n (A ++ B) k = kruskalLoop n B (kruskalLoop n A k) ∧
        (kruskalLoop n A k).pivotIndex = k.pivotIndex + A.length) := by
  induction A with
  | nil => intro k; exact .inr ⟨rfl, rfl⟩
  | cons e A ih =>
    intro k
    rw [List.cons_append, kruskalLoop, kruskalLoop]
    by_cases hb : (kruskalStep e k).mst.length = szPred n
    · rw [if_pos hb, if_pos hb]
      exact .inl rfl
    · rw [if_neg hb, if_neg hb]
      obtain ⟨m, p, -, -, -, -, h5⟩ := kruskalStep_grow e k
      rcases ih (kruskalStep e k) with h | ⟨h, h'⟩
      · exact .inl h
      · refine .inr ⟨h, ?_⟩
        rw [h', h5, List.length_cons]
        omega

/-- Dimension 0 on the first edges. -/
theorem kruskal_trunc {c : W} (n : Nat) (A B : List (List Nat × W)) (tbl : List (BettiEntry W))
    (hB : ∀ e ∈ B, c ≤ e.2) :
    ∃ m p, (kruskalLoop n (A ++ B) (Kruskal.init tbl)).mst =
        (kruskalLoop n A (Kruskal.init tbl)).mst ++ m ∧
      (kruskalLoop n (A ++ B) (Kruskal.init tbl)).pivots =
        (kruskalLoop n A (Kruskal.init tbl)).pivots ++ p ∧
      (∀ x ∈ m, c ≤ x) ∧ (∀ x ∈ p, A.length ≤ x) := by
  rcases kruskalLoop_append n A B (Kruskal.init tbl) with h | ⟨h, h'⟩
  · exact ⟨[], [], by rw [h, List.append_nil], by rw [h, List.append_nil], by simp, by simp⟩
  · obtain ⟨m, p, g1, g2, g3, g4⟩ := kruskalLoop_grow n B (kruskalLoop n A (Kruskal.init tbl))
    refine ⟨m, p, by rw [h, g1], by rw [h, g2], ?_, ?_⟩
    · intro x hx
      obtain ⟨e, he, rfl⟩ := g3 x hx
      exact hB e he
    · intro x hx
      have := g4 x hx
      rw [h'] at this
      simpa [Kruskal.init] using this

omit [LinearOrder W] [Zero W] in
theorem buildColumn_end (piv col : List Nat) (r : List Nat × W) (rows : List (List Nat × W))
    (idx : Nat) (cf : List Nat) :
    buildColumn .noPivot piv col (r :: rows) idx [] cf =
      buildColumn .noPivot piv col rows (idx + 1) []
        (if stdIncludes col r.1 then setInsert idx cf else cf) := by
  rw [buildColumn]
  show (pure none >>= _) = _
  rw [pure_bind, if_pos (by simp)]
  split_ifs <;> rfl

omit [LinearOrder W] [Zero W] in
theorem buildColumn_next (piv col : List Nat) (r : List Nat × W) (rows : List (List Nat × W))
    (idx q : Nat) (ptr cf : List Nat) :
    buildColumn .noPivot piv col (r :: rows) idx (q :: ptr) cf =
      if q = idx then buildColumn .noPivot piv col rows (idx + 1) ptr cf
      else buildColumn .noPivot piv col rows (idx + 1) (q :: ptr)
        (if stdIncludes col r.1 then setInsert idx cf else cf) := by
  rw [buildColumn]
  show (pure (some q) >>= _) = _
  rw [pure_bind]
  by_cases h : q = idx
  · rw [if_neg (by simp [h]), if_pos h]; rfl
  · rw [if_pos (by simpa using h), if_neg h]
    split_ifs <;> rfl

omit [LinearOrder W] [Zero W] in
/-- Rows that are no faces of the column contribute nothing. -/
theorem buildColumn_rest (piv col : List Nat) (rows : List (List Nat × W))
    (hr : ∀ r ∈ rows, stdIncludes col r.1 = false) : ∀ idx rest coface,
    buildColumn .noPivot piv col rows idx rest coface = .ok coface := by
  induction rows with
  | nil => intro idx rest coface; rfl
  | cons r rows ih =>
    intro idx rest coface
    have ih := ih (fun r hr' => hr r (by simp [hr']))
    have h := hr r (by simp)
    cases rest with
    | nil =>
      rw [buildColumn_end, h]
      exact ih _ _ _
    | cons q rest =>
      rw [buildColumn_next, h, ih, ih]
      simp

omit [LinearOrder W] [Zero W] in
/-- Only the rows and the pivots below the bound count. -/
theorem buildColumn_trunc (pivS pivL col extra : List Nat) (rest : List (List Nat × W))
    (hr : ∀ r ∈ rest, stdIncludes col r.1 = false) (rows : List (List Nat × W)) :
    ∀ idx ptr coface, (∀ x ∈ extra, idx + rows.length ≤ x) →
    buildColumn .noPivot pivL col (rows ++ rest) idx (ptr ++ extra) coface =
      buildColumn .noPivot pivS col rows idx ptr coface := by
  induction rows with
  | nil =>
    intro idx ptr coface _
    rw [List.nil_append, buildColumn_rest _ _ _ hr]
    rfl
  | cons r rows ih =>
    intro idx ptr coface he
    have he' : ∀ x ∈ extra, idx + 1 + rows.length ≤ x := by
      intro x hx; have := he x hx; rw [List.length_cons] at this; omega
    rw [List.cons_append]
    cases ptr with
    | cons q ptr =>
      rw [List.cons_append, buildColumn_next, buildColumn_next, ih _ _ _ he', ← List.cons_append,
        ih _ _ _ he']
    | nil =>
      have hend := fun cf => ih (idx + 1) [] cf he'
      rw [List.nil_append] at hend ⊢
      rw [buildColumn_end, ← hend]
      cases extra with
      | nil => rw [buildColumn_end]
      | cons x extra =>
        have hx := he x (by simp)
        rw [List.length_cons] at hx
        rw [buildColumn_next, if_neg (by omega)]

theorem reduceCol_fuel (v : List (Nat × List Nat)) : ∀ (f : Nat) (x : List Nat) (y : ColResult)
    (f' : Nat), reduceCol v f x = some y → f ≤ f' → reduceCol v f' x = some y := by
  intro f
  induction f with
  | zero => intro x y f' h; cases h
  | succ f ih =>
    intro x y f' h hf
    obtain ⟨f'', rfl⟩ : ∃ f'', f' = f'' + 1 := ⟨f' - 1, by omega⟩
    cases x with
    | nil => exact h
    | cons p x =>
      rw [reduceCol] at h ⊢
      dsimp only at h ⊢
      cases hv : lookupCol v p with
      | none => rw [hv] at h; exact h
      | some c =>
        rw [hv] at h
        dsimp only at h ⊢
        by_cases ho : setXOR c (p :: x) = p :: x
        · rw [if_pos ho] at h ⊢; exact h
        · rw [if_neg ho] at h ⊢
          exact ih _ _ _ h (by omega)

/-- The two runs within one dimension. -/
structure TruncRed (c : W) (d : Nat) (LS LL : List (Line W)) (rS rL : Reduction W) : Prop where
  v : rS.v = rL.v
  next : rS.nextPivots = rL.nextPivots
  index : rS.columnIndex = rL.columnIndex
  lines : ∃ x, rS.lines = LS ++ x ∧ rL.lines = LL ++ x ∧ ∀ l ∈ x, l.1 = d ∧ l.2.2 < c

omit [Zero W] in
theorem columnStep_trunc {c : W} {d : Nat} {LS LL : List (Line W)} {pivS extra : List Nat}
    {rowsS rest : List (List Nat × W)} {rS rL rS' : Reduction W} {col : List Nat × W}
    (hr : ∀ r ∈ rest, stdIncludes col.1 r.1 = false) (he : ∀ x ∈ extra, rowsS.length ≤ x)
    (hc : col.2 < c) (h : TruncRed c d LS LL rS rL)
    (hS : columnStep .noPivot d pivS rowsS rS col = .ok rS') :
    ∃ rL', columnStep .noPivot d (pivS ++ extra) (rowsS ++ rest) rL col = .ok rL' ∧
      TruncRed c d LS LL rS' rL' := by
  obtain ⟨v, next, index, x, l1, l2, l3⟩ := h
  unfold columnStep at hS ⊢
  rw [buildColumn_trunc pivS (pivS ++ extra) col.1 extra rest hr rowsS 0 pivS [] (by simpa using he)]
  obtain ⟨coface, hb, hS⟩ := bind_ok.1 hS
  rw [hb, ok_bind, ← v]
  cases hred : reduceCol rS.v (rowsS.length + 1) coface with
  | none => rw [hred] at hS; cases hS
  | some y =>
    rw [hred] at hS
    rw [reduceCol_fuel _ _ _ _ ((rowsS ++ rest).length + 1) hred (by simp)]
    cases y with
    | dropped =>
      dsimp only at hS ⊢
      cases hS
      exact ⟨_, rfl, rfl, next, by simp [index], x, l1, l2, l3⟩
    | stored p cf =>
      dsimp only at hS ⊢
      obtain ⟨row, hrow, hS⟩ := bind_ok.1 hS
      have hrow' : vget (rowsS ++ rest) p = .ok row := by
        rw [vget_ok] at hrow ⊢
        rw [List.getElem?_append_left (List.getElem?_eq_some_iff.1 hrow).1]
        exact hrow
      rw [hrow', ok_bind]
      by_cases hne : row.2 ≠ col.2
      · rw [if_pos hne] at hS ⊢
        cases hS
        refine ⟨_, rfl, by simp, by simp [next, index], by simp [index], x ++ [(d, row.2, col.2)],
          by simp [l1], by simp [l2], ?_⟩
        intro l hl
        rcases List.mem_append.1 hl with hl | hl
        · exact l3 l hl
        · rw [List.mem_singleton.1 hl]
          exact ⟨rfl, hc⟩
      · rw [if_neg hne] at hS ⊢
        cases hS
        exact ⟨_, rfl, by simp, by simp [next, index], by simp [index], x, l1, l2, l3⟩

omit [Zero W] in
theorem columnStep_grow {mode : EndRead} {d : Nat} {piv : List Nat} {rows : List (List Nat × W)}
    {r r' : Reduction W} {col : List Nat × W} (h : columnStep mode d piv rows r col = .ok r') :
    ∃ p y, r'.nextPivots = r.nextPivots ++ p ∧ r'.lines = r.lines ++ y ∧
      r'.columnIndex = r.columnIndex + 1 ∧ (∀ x ∈ p, x = r.columnIndex) ∧
      (∀ l ∈ y, l.1 = d ∧ l.2.2 = col.2) := by
  unfold columnStep at h
  obtain ⟨coface, hb, h⟩ := bind_ok.1 h
  cases hred : reduceCol r.v (rows.length + 1) coface with
  | none => rw [hred] at h; cases h
  | some y =>
    rw [hred] at h
    cases y with
    | dropped =>
      dsimp only at h
      cases h
      exact ⟨[], [], by simp, by simp, rfl, by simp, by simp⟩
    | stored p cf =>
      dsimp only at h
      obtain ⟨row, hrow, h⟩ := bind_ok.1 h
      by_cases hne : row.2 ≠ col.2
      · rw [if_pos hne] at h
        cases h
        exact ⟨_, _, rfl, rfl, rfl, by simp, by simp⟩
      · rw [if_neg hne] at h
        cases h
        exact ⟨_, [], rfl, by simp, rfl, by simp, by simp⟩

omit [Zero W] in
theorem columns_grow {mode : EndRead} {d : Nat} {piv : List Nat} {rows : List (List Nat × W)}
    (cols : List (List Nat × W)) : ∀ {r r' : Reduction W},
    cols.foldlM (columnStep mode d piv rows) r = .ok r' →
    ∃ p y, r'.nextPivots = r.nextPivots ++ p ∧ r'.lines = r.lines ++ y ∧
      r'.columnIndex = r.columnIndex + cols.length ∧ (∀ x ∈ p, r.columnIndex ≤ x) ∧
      (∀ l ∈ y, l.1 = d ∧ ∃ col ∈ cols, l.2.2 = col.2) := by
  induction cols with
  | nil => intro r r' h; cases h; exact ⟨[], [], by simp, by simp, rfl, by simp, by simp⟩
  | cons col cols ih =>
    intro r r' h
    rw [List.foldlM_cons] at h
    obtain ⟨r1, h1, h2⟩ := bind_ok.1 h
    obtain ⟨p, y, a1, a2, a3, a4, a5⟩ := columnStep_grow h1
    obtain ⟨p', y', b1, b2, b3, b4, b5⟩ := ih h2
    refine ⟨p ++ p', y ++ y', by rw [b1, a1, List.append_assoc], by rw [b2, a2, List.append_assoc],
      by rw [b3, a3, List.length_cons]; omega, ?_, ?_⟩
    · intro x hx
      rcases List.mem_append.1 hx with hx | hx
      · exact (a4 x hx).ge
      · have := b4 x hx; omega
    · intro l hl
      rcases List.mem_append.1 hl with hl | hl
      · exact ⟨(a5 l hl).1, col, by simp, (a5 l hl).2⟩
      · obtain ⟨q1, q2, q3, q4⟩ := b5 l hl
        exact ⟨q1, q2, by simp [q3], q4⟩

omit [Zero W] in
theorem columns_trunc {c : W} {d : Nat} {LS LL : List (Line W)} {pivS extra : List Nat}
    {rowsS rest : List (List Nat × W)} (he : ∀ x ∈ extra, rowsS.length ≤ x)
    (cols : List (List Nat × W)) : ∀ {rS rL rS' : Reduction W},
    (∀ col ∈ cols, col.2 < c ∧ ∀ r ∈ rest, stdIncludes col.1 r.1 = false) →
    TruncRed c d LS LL rS rL →
    cols.foldlM (columnStep .noPivot d pivS rowsS) rS = .ok rS' →
    ∃ rL', cols.foldlM (columnStep .noPivot d (pivS ++ extra) (rowsS ++ rest)) rL = .ok rL' ∧
      TruncRed c d LS LL rS' rL' := by
  induction cols with
  | nil => intro rS rL rS' _ h hS; cases hS; exact ⟨rL, rfl, h⟩
  | cons col cols ih =>
    intro rS rL rS' hc h hS
    rw [List.foldlM_cons] at hS
    obtain ⟨r1, h1, h2⟩ := bind_ok.1 hS
    obtain ⟨q1, h3, h4⟩ := columnStep_trunc (hc col (by simp)).2 he (hc col (by simp)).1 h h1
    obtain ⟨q2, h5, h6⟩ := ih (fun x hx => hc x (by simp [hx])) h4 h2
    exact ⟨q2, by rw [List.foldlM_cons, h3, ok_bind, h5], h6⟩

omit [Zero W] in
/-- One dimension. -/
theorem reduceDim_trunc {c : W} {d : Nat} {LS LL : List (Line W)} {tS tL : List (BettiEntry W)}
    {pivS extra : List Nat} {rowsS rest colsS tail : List (List Nat × W)}
    (he : ∀ x ∈ extra, rowsS.length ≤ x)
    (hc : ∀ col ∈ colsS, col.2 < c ∧ ∀ r ∈ rest, stdIncludes col.1 r.1 = false)
    (ht : ∀ col ∈ tail, c ≤ col.2) {rS rL : Reduction W}
    (hS : reduceDim .noPivot d pivS rowsS colsS LS tS = .ok rS)
    (hL : reduceDim .noPivot d (pivS ++ extra) (rowsS ++ rest) (colsS ++ tail) LL tL = .ok rL) :
    ∃ p x y, rL.nextPivots = rS.nextPivots ++ p ∧ (∀ q ∈ p, colsS.length ≤ q) ∧
      rS.lines = LS ++ x ∧ rL.lines = LL ++ (x ++ y) ∧ (∀ l ∈ x, l.1 = d ∧ l.2.2 < c) ∧
      (∀ l ∈ y, l.1 = d ∧ c ≤ l.2.2) := by
  unfold reduceDim at hS hL
  rw [List.foldlM_append] at hL
  obtain ⟨r1, h1, h2⟩ := bind_ok.1 hL
  obtain ⟨r2, h3, h4⟩ := columns_trunc (LS := LS) (LL := LL) (rS := ⟨[], [], 0, LS, tS⟩) (rL := ⟨[], [], 0, LL, tL⟩) he colsS hc
    ⟨rfl, rfl, rfl, [], by simp, by simp, by simp⟩ hS
  rw [h3] at h1
  cases h1
  obtain ⟨-, -, -, -, a3, -, -⟩ := columns_grow colsS h3
  obtain ⟨p, y, b1, b2, b3, b4, b5⟩ := columns_grow tail h2
  obtain ⟨v, next, index, x, l1, l2, l3⟩ := h4
  refine ⟨p, x, y, by rw [b1, next], ?_, l1, by rw [b2, l2, List.append_assoc], l3, ?_⟩
  · intro q hq
    have := b4 q hq
    rw [a3] at this
    simpa using this
  · intro l hl
    obtain ⟨q1, col, q2, q3⟩ := b5 l hl
    exact ⟨q1, by rw [q3]; exact ht col q2⟩

omit [Zero W] in
/-- A sorted list starts with its elements below `c`. -/
theorem sorted_split (c : W) (l : List (List Nat × W)) (h : l.Pairwise (fun a b => a.2 ≤ b.2)) :
    ∃ tail, l = l.filter (fun e => e.2 < c) ++ tail ∧ ∀ e ∈ tail, c ≤ e.2 := by
  induction l with
  | nil => exact ⟨[], rfl, by simp⟩
  | cons a l ih =>
    rw [List.pairwise_cons] at h
    by_cases ha : a.2 < c
    · obtain ⟨tail, h1, h2⟩ := ih h.2
      refine ⟨tail, ?_, h2⟩
      rw [List.filter_cons_of_pos (by simpa using ha), List.cons_append, ← h1]
    · refine ⟨a :: l, ?_, ?_⟩
      · rw [List.filter_eq_nil_iff.2, List.nil_append]
        intro e he
        rcases List.mem_cons.1 he with rfl | he
        · simpa using ha
        · simpa using (not_lt.1 ha).trans (h.1 e he)
      · intro e he
        rcases List.mem_cons.1 he with rfl | he
        · exact not_lt.1 ha
        · exact (not_lt.1 ha).trans (h.1 e he)

omit [Zero W] in
theorem layer_split {c : W} {cap k : Nat} {eS eL : Graph W} (hf : FilteredComplex eL)
    (hT : Trunc c cap eS eL) (hk : k < cap) :
    ∃ tail, eL.getD k [] = eS.getD k [] ++ tail ∧ (∀ e ∈ tail, c ≤ e.2) ∧
      (∀ e ∈ eS.getD k [], e.2 < c) := by
  have hs : (eL.getD k []).Pairwise (fun a b => a.2 ≤ b.2) := by
    by_cases h : k < eL.length
    · rw [List.getD_eq_getElem _ _ h]
      exact hf.sorted _ (List.getElem_mem h)
    · rw [List.getD_eq_default _ _ (by omega)]
      exact List.Pairwise.nil
  obtain ⟨tail, h1, h2⟩ := sorted_split c _ hs
  refine ⟨tail, by rw [hT k hk]; exact h1, h2, ?_⟩
  intro e he
  rw [hT k hk] at he
  simpa using (List.mem_filter.1 he).2

omit [Zero W] in
/-- A face of a column weighs at most as much as the column. -/
theorem face_weight {edges : Graph W} (hf : FilteredComplex edges) {d : Nat}
    {row col : List Nat × W} (hr : row ∈ edges.getD d []) (hc : col ∈ edges.getD (d + 1) [])
    (hi : stdIncludes col.1 row.1 = true) : row.2 ≤ col.2 := by
  have hd : d < edges.length := by
    by_contra h
    rw [List.getD_eq_default _ _ (by omega)] at hr
    cases hr
  have hd1 : d + 1 < edges.length := by
    by_contra h
    rw [List.getD_eq_default _ _ (by omega)] at hc
    cases hc
  rw [List.getD_eq_getElem _ _ hd] at hr
  rw [List.getD_eq_getElem _ _ hd1] at hc
  obtain ⟨r1, r2⟩ := hf.shape d _ (List.getElem?_eq_getElem hd) row hr
  obtain ⟨c1, c2⟩ := hf.shape (d + 1) _ (List.getElem?_eq_getElem hd1) col hc
  have hsub := sublist_of_subset_inc r1 c1 ((stdIncludes_iff c1 r1).1 hi)
  obtain ⟨layer, w, h1, h2, h3⟩ := hf.facets d _ (List.getElem?_eq_getElem hd1) col hc row.1 hsub r2
  rw [List.getElem?_eq_getElem hd, Option.some.injEq] at h1
  subst h1
  have hn := hf.once _ (List.getElem_mem hd)
  have := List.inj_on_of_nodup_map hn hr h2 rfl
  rw [this]
  exact h3

/-- What the lines of the run below the bound `c` are in terms of those of the larger run, for the
dimensions below `K`. -/
def LinesTrunc (c : W) (K : Nat) (lS lL : List (Line W)) : Prop :=
  ∀ k, k < K → lS.filter (fun l => l.1 = k) =
    lL.filter (fun l => l.1 = k ∧ l.2.2 < c) ++ (if k = 0 then [(0, 0, c)] else [])

theorem LinesTrunc.step {c : W} {K d : Nat} {lS lL x y : List (Line W)} (h : LinesTrunc c K lS lL)
    (hd : 1 ≤ d) (hx : ∀ l ∈ x, l.1 = d ∧ l.2.2 < c) (hy : ∀ l ∈ y, l.1 = 0 ∨ K ≤ l.1 ∨ c ≤ l.2.2)
    (hy0 : ∀ l ∈ y, l.1 ≠ 0) : LinesTrunc c K (lS ++ x) (lL ++ (x ++ y)) := by
  intro k hk
  have hyk : y.filter (fun l => l.1 = k ∧ l.2.2 < c) = [] := by
    rw [List.filter_eq_nil_iff]
    intro l hl
    simp only [decide_eq_true_eq]
    rintro ⟨h1, h2⟩
    rcases hy l hl with h | h | h
    · exact hy0 l hl h
    · omega
    · exact absurd h2 (not_lt.2 h)
  rw [List.filter_append, List.filter_append, List.filter_append, hyk, List.append_nil, h k hk]
  have hxk : x.filter (fun l => decide (l.1 = k ∧ l.2.2 < c)) = x.filter (fun l => l.1 = k) := by
    apply List.filter_congr
    intro l hl
    simp [(hx l hl).2]
  rw [hxk]
  by_cases h0 : k = 0
  · have : x.filter (fun l => l.1 = k) = [] := by
      rw [List.filter_eq_nil_iff]
      intro l hl
      simp only [decide_eq_true_eq]
      have := (hx l hl).1
      omega
    rw [this]
    simp
  · rw [if_neg h0]
    simp

omit [Zero W] in
/-- The lines that further dimensions add. -/
theorem reduceDims_grow {mode : EndRead} {edges : Graph W} (n : Nat) : ∀ (d : Nat) (piv : List Nat)
    (lines : List (Line W)) (tbl : List (BettiEntry W)) (r : List (Line W) × List (BettiEntry W)),
    reduceDims mode edges n d piv lines tbl = .ok r →
    ∃ y, r.1 = lines ++ y ∧ ∀ l ∈ y, d ≤ l.1 ∧ ∃ e ∈ edges.getD (l.1 + 1) [], l.2.2 = e.2 := by
  induction n with
  | zero => intro d piv lines tbl r h; cases h; exact ⟨[], by simp, by simp⟩
  | succ n ih =>
    intro d piv lines tbl r h
    rw [reduceDims] at h
    obtain ⟨rows, h1, h⟩ := bind_ok.1 h
    obtain ⟨cols, h2, h⟩ := bind_ok.1 h
    obtain ⟨q, h3, h⟩ := bind_ok.1 h
    obtain ⟨-, y, -, a2, -, -, a5⟩ := columns_grow cols h3
    obtain ⟨y', b1, b2⟩ := ih _ _ _ _ _ h
    refine ⟨y ++ y', by rw [b1, a2]; simp, ?_⟩
    intro l hl
    rcases List.mem_append.1 hl with hl | hl
    · obtain ⟨c1, col, c2, c3⟩ := a5 l hl
      refine ⟨c1.ge, col, ?_, c3⟩
      rw [vget_ok] at h2
      rw [c1, List.getD_eq_getElem?_getD, h2]
      exact c2
    · obtain ⟨c1, c2⟩ := b2 l hl
      exact ⟨by omega, c2⟩

theorem reduceDims_trunc {c : W} {cap K : Nat} {eS eL : Graph W} (hf : FilteredComplex eL)
    (hT : Trunc c cap eS eL) (hK : K + 1 ≤ cap) (nS : Nat) : ∀ (nL d : Nat) (pivS extra : List Nat)
    (lS lL : List (Line W)) (tS tL : List (BettiEntry W))
    (rS rL : List (Line W) × List (BettiEntry W)),
    nS ≤ nL → 1 ≤ d → d + nS ≤ K ∨ nS = 0 → (∀ k, d + nS ≤ k → k < K → eS.getD (k + 1) [] = []) →
    (∀ x ∈ extra, (eS.getD d []).length ≤ x) → LinesTrunc c K lS lL →
    reduceDims .noPivot eS nS d pivS lS tS = .ok rS →
    reduceDims .noPivot eL nL d (pivS ++ extra) lL tL = .ok rL → LinesTrunc c K rS.1 rL.1 := by
  induction nS with
  | zero =>
    intro nL d pivS extra lS lL tS tL rS rL _ hd _ hend _ h hS hL
    cases hS
    obtain ⟨y, h1, h2⟩ := reduceDims_grow _ _ _ _ _ _ hL
    have := h.step (d := d) (x := []) (y := y) hd (by simp) (by
      intro l hl
      obtain ⟨a1, e, a2, a3⟩ := h2 l hl
      by_cases hk : l.1 < K
      · right; right
        obtain ⟨tail, b1, b2, -⟩ := layer_split hf hT (k := l.1 + 1) (by omega)
        rw [b1, hend l.1 (by omega) hk, List.nil_append] at a2
        rw [a3]
        exact b2 e a2
      · right; left; omega) (by intro l hl; have := (h2 l hl).1; omega)
    rw [h1]
    simpa using this
  | succ nS ih =>
    intro nL d pivS extra lS lL tS tL rS rL hn hd hdK hend hx h hS hL
    obtain ⟨nL', rfl⟩ : ∃ m, nL = m + 1 := ⟨nL - 1, by omega⟩
    rw [reduceDims] at hS hL
    obtain ⟨rowsS, s1, hS⟩ := bind_ok.1 hS
    obtain ⟨colsS, s2, hS⟩ := bind_ok.1 hS
    obtain ⟨qS, s3, hS3⟩ := bind_ok.1 hS
    obtain ⟨rowsL, t1, hL⟩ := bind_ok.1 hL
    obtain ⟨colsL, t2, hL⟩ := bind_ok.1 hL
    obtain ⟨qL, t3, hL3⟩ := bind_ok.1 hL
    have conv : ∀ {g : Graph W} {k : Nat} {l : List (List Nat × W)}, vget g k = .ok l →
        g.getD k [] = l := by
      intro g k l hv
      rw [vget_ok] at hv
      rw [List.getD_eq_getElem?_getD, hv]
      rfl
    have e1 := conv s1
    have e2 := conv s2
    have e3 := conv t1
    have e4 := conv t2
    obtain ⟨rest, a1, a2, a3⟩ := layer_split hf hT (k := d) (by omega)
    obtain ⟨tail, b1, b2, b3⟩ := layer_split hf hT (k := d + 1) (by omega)
    have hcol : ∀ col ∈ colsS, col.2 < c ∧ ∀ r ∈ rest, stdIncludes col.1 r.1 = false := by
      intro col hcol
      have hlt := b3 col (by rw [e2]; exact hcol)
      refine ⟨hlt, fun r hr => ?_⟩
      by_contra hi
      rw [Bool.not_eq_false] at hi
      have := face_weight hf (d := d) (row := r) (col := col) (by rw [a1]; simp [hr])
        (by rw [b1, e2]; simp [hcol]) hi
      exact absurd ((a2 r hr).trans this) (not_le.2 hlt)
    rw [e1, e3] at a1
    rw [e2, e4] at b1
    subst a1 b1
    obtain ⟨p, x, y, c1, c2, c3, c4, c5, c6⟩ := reduceDim_trunc (by rw [← e1]; exact hx) hcol b2 s3 t3
    rw [c1] at hL3
    refine ih nL' (d + 1) qS.nextPivots p qS.lines qL.lines qS.table qL.table rS rL (by omega)
      (by omega) (by omega) (fun k hk => hend k (by omega)) (by rw [e2]; exact c2) ?_ hS3 hL3
    rw [c3, c4]
    exact h.step hd c5 (fun l hl => .inr (.inr (c6 l hl).2)) (fun l hl => by
      have := (c6 l hl).1; omega)

/-- The persistence stage on the part of a complex below a bound. -/
theorem fastPersistence_trunc {c epsL : W} {dimS dimL : Nat} {eS eL : Graph W}
    (hf : FilteredComplex eL) (hT : Trunc c (max 1 dimS + 1) eS eL) (heps : c ≤ epsL)
    (hdim : dimS ≤ dimL) (hlen : eS.length ≤ eL.length) (hne : eS ≠ [])
    (hv : ∀ e ∈ eL.getD 0 [], e.2 < c) {rS rL : List (Line W) × List (BettiEntry W)}
    (hS : fastPersistence .noPivot dimS c eS [] [] = .ok rS)
    (hL : fastPersistence .noPivot dimL epsL eL [] [] = .ok rL) :
    LinesTrunc c (max 1 dimS) rS.1 rL.1 := by
  have hpos : eS.length ≠ 0 := by simpa using hne
  unfold fastPersistence at hS hL
  rw [if_neg hpos] at hS
  rw [if_neg (by omega)] at hL
  obtain ⟨vS, s1, hS⟩ := bind_ok.1 hS
  obtain ⟨esS, s2, hS3⟩ := bind_ok.1 hS
  obtain ⟨vL, t1, hL⟩ := bind_ok.1 hL
  obtain ⟨esL, t2, hL3⟩ := bind_ok.1 hL
  have conv : ∀ {g : Graph W} {k : Nat} {l : List (List Nat × W)}, vget g k = .ok l →
      g.getD k [] = l := by
    intro g k l hv
    rw [vget_ok] at hv
    rw [List.getD_eq_getElem?_getD, hv]
    rfl
  have e1 := conv s1
  have e2 := conv s2
  have e3 := conv t1
  have e4 := conv t2
  have h0 := hT 0 (by omega)
  rw [List.filter_eq_self.2 (by simpa using hv), e1, e3] at h0
  subst h0
  obtain ⟨tail, b1, b2, b3⟩ := layer_split hf hT (k := 1) (by omega)
  rw [e2, e4] at b1
  subst b1
  obtain ⟨m, p, k1, k2, k3, k4⟩ := kruskal_trunc (c := c) vS.length esS tail [] b2
  have hmst : ∀ x ∈ (kruskalLoop vS.length esS (Kruskal.init [])).mst, x < c := by
    obtain ⟨m', p', g1, g2, g3, g4⟩ := kruskalLoop_grow vS.length esS (Kruskal.init ([] : List (BettiEntry W)))
    intro x hx
    rw [g1] at hx
    simp only [Kruskal.init, List.nil_append] at hx
    obtain ⟨e, he, rfl⟩ := g3 x hx
    exact b3 e (by rw [e2]; exact he)
  dsimp only at hS3 hL3
  rw [k1, k2] at hL3
  have hbase : LinesTrunc c (max 1 dimS)
      ((kruskalLoop vS.length esS (Kruskal.init [])).mst.map (fun z => ((0, 0, z) : Line W)) ++
        [(0, 0, c)])
      (((kruskalLoop vS.length esS (Kruskal.init [])).mst ++ m).map (fun z => ((0, 0, z) : Line W)) ++
        [(0, 0, epsL)]) := by
    intro k _
    generalize (kruskalLoop vS.length esS (Kruskal.init ([] : List (BettiEntry W)))).mst = M at hmst
    have hM : ∀ x ∈ M.map (fun z => ((0, 0, z) : Line W)), x.1 = 0 ∧ x.2.2 < c := by
      intro x hx
      obtain ⟨z, hz, rfl⟩ := List.mem_map.1 hx
      exact ⟨rfl, hmst z hz⟩
    have hm : ∀ x ∈ m.map (fun z => ((0, 0, z) : Line W)), x.1 = 0 ∧ c ≤ x.2.2 := by
      intro x hx
      obtain ⟨z, hz, rfl⟩ := List.mem_map.1 hx
      exact ⟨rfl, k3 z hz⟩
    rw [List.map_append, List.filter_append, List.filter_append, List.filter_append]
    have z2 : (m.map (fun z => ((0, 0, z) : Line W))).filter (fun l => l.1 = k ∧ l.2.2 < c) = [] := by
      rw [List.filter_eq_nil_iff]
      intro l hl
      simp only [decide_eq_true_eq]
      rintro ⟨-, h⟩
      exact absurd h (not_lt.2 (hm l hl).2)
    have z3 : [((0, 0, epsL) : Line W)].filter (fun l => l.1 = k ∧ l.2.2 < c) = [] := by
      simp [not_lt.2 heps]
    rw [z2, z3, List.append_nil, List.append_nil]
    congr 1
    · apply List.filter_congr
      intro l hl
      simp [(hM l hl).2]
    · by_cases hk : k = 0
      · simp [hk]
      · simp [hk, Ne.symm hk]
  by_cases hd : dimS > 0
  · rw [if_pos hd] at hS3
    rw [if_pos (by omega)] at hL3
    have hmax : max 1 dimS = dimS := by omega
    rw [hmax] at hbase hT ⊢
    refine reduceDims_trunc hf hT (by omega) (min dimS (eS.length - 1) - 1) _ 1 _ p _ _ _ _ rS rL
      (by omega) le_rfl (by omega) ?_ ?_ hbase hS3 hL3
    · intro k h1 h2
      apply List.getD_eq_default
      omega
    · rw [e2]; exact k4
  · rw [if_neg hd] at hS3
    cases hS3
    by_cases hd' : dimL > 0
    · rw [if_pos hd'] at hL3
      obtain ⟨y, y1, y2⟩ := reduceDims_grow _ _ _ _ _ _ hL3
      have := hbase.step (d := 1) (x := []) (y := y) le_rfl (by simp) (by
        intro l hl
        have := (y2 l hl).1
        right; left; omega) (by intro l hl; have := (y2 l hl).1; omega)
      rw [y1]
      simpa using this
    · rw [if_neg hd'] at hL3
      cases hL3
      exact hbase

end
end LHF
