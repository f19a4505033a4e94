import Verif.Props.PersistenceCases
import Verif.Props.Reduced

/-! C130: what the numbers are that fastPersistence records as the boundary points of an interval. -/

namespace LHF
open Spec

section
variable {W : Type} [LinearOrder W]

/-! ### One column -/

/-- What is known of a table entry that is made for a column of a dimension. -/
def EntryOf (d : Nat) (rows : List (List Nat × W)) (P : List Nat) (B : List Nat → List Nat)
    (cols : List (List Nat × W)) (e : BettiEntry W) : Prop :=
  e.dim = d ∧ Inc e.boundary ∧
    (∃ p row, e.boundary.head? = some p ∧ rows[p]? = some row ∧ e.birth = row.2) ∧
    (∀ x ∈ e.boundary, RowOK rows P e.death x) ∧
    ∃ done rest, cols = done ++ rest ∧ (∀ c ∈ done, c.2 ≤ e.death) ∧
      ind e.boundary ∈ spanL (ZMod 2) (done.map (fun c => ind (B c.1)))

theorem columnStep_entries {mode : EndRead} {d : Nat} {pivots : List Nat}
    {rows : List (List Nat × W)} {P : List Nat} {B : List Nat → List Nat} {L0 : List (Line W)}
    {T0 : List (BettiEntry W)} {done : List (List Nat × W)} {pairs : List (Nat × Nat)}
    {r r' : Reduction W} (h : RInv d rows P B L0 T0 done pairs r) {col : List Nat × W}
    (hb : buildColumn mode pivots col.1 rows 0 pivots [] = .ok (B col.1)) (hinc : Inc (B col.1))
    (hrow : ∀ x ∈ B col.1, RowOK rows P col.2 x) (hsort : ∀ c ∈ done, c.2 ≤ col.2)
    (hr : columnStep mode d pivots rows r col = .ok r') {e : BettiEntry W} (he : e ∈ r'.table) :
    e ∈ r.table ∨ EntryOf d rows P B (done ++ [col]) e := by
  have hv := h.vinv col.2 hsort
  have hR : ∀ x, RowOK rows P col.2 x → x < rows.length := by
    rintro x ⟨-, row, hx, -⟩
    exact (List.getElem?_eq_some_iff.1 hx).1
  obtain ⟨res, hr1, hr2, hr3⟩ := reduceCol_spec hv hR (rows.length + 1) (B col.1) hinc hrow
    (fun x _ => by omega) (by omega)
  unfold columnStep at hr
  rw [hb, ok_bind, hr1] at hr
  cases res with
  | dropped =>
    rw [pure_eq_ok] at hr
    cases hr
    exact Or.inl he
  | stored p c =>
    obtain ⟨j1, j2, j3, j4, j5⟩ := hr3 p c rfl
    have hpc : p ∈ c := List.mem_of_head? j2
    obtain ⟨hpP, row, hrowp, hroww⟩ := j3 p hpc
    have hg : vget rows p = .ok row := vget_ok.2 hrowp
    simp only [hg, ok_bind] at hr
    by_cases hw : row.2 ≠ col.2
    · rw [if_pos hw, pure_eq_ok] at hr
      cases hr
      rw [List.mem_append, List.mem_singleton] at he
      rcases he with he | rfl
      · exact Or.inl he
      refine Or.inr ⟨rfl, j1, ⟨p, row, j2, hrowp, rfl⟩, j3, done ++ [col], [], by simp, ?_, ?_⟩
      · intro c hc
        rw [List.mem_append, List.mem_singleton] at hc
        rcases hc with hc | rfl
        · exact hsort c hc
        · exact le_refl _
      · have h2 : ∀ z : Nat → ZMod 2, z + z = 0 := by
          intro z
          funext t
          have : ∀ z : ZMod 2, z + z = 0 := by decide
          exact this _
        have : ind c = (ind c + ind (B col.1)) + ind (B col.1) := by rw [add_assoc, h2, add_zero]
        show ind c ∈ _
        rw [this, List.map_append, List.map_singleton, spanL_append, ← h.span, spanL_singleton]
        exact Submodule.add_mem _ (Submodule.mem_sup_left j5)
          (Submodule.mem_sup_right (Submodule.mem_span_singleton_self _))
    · rw [if_neg hw, pure_eq_ok] at hr
      cases hr
      exact Or.inl he

omit [LinearOrder W] in
theorem EntryOf.mono [LinearOrder W] {d : Nat} {rows : List (List Nat × W)} {P : List Nat} {B : List Nat → List Nat}
    {cols more : List (List Nat × W)} {e : BettiEntry W} (h : EntryOf d rows P B cols e) :
    EntryOf d rows P B (cols ++ more) e := by
  obtain ⟨h1, h2, h3, h4, done, rest, h5, h6, h7⟩ := h
  exact ⟨h1, h2, h3, h4, done, rest ++ more, by rw [h5, List.append_assoc], h6, h7⟩

/-! ### One dimension -/

theorem reduceDim_entries {mode : EndRead} {d : Nat} {pivots : List Nat}
    {rows cols : List (List Nat × W)} {P : List Nat} {B : List Nat → List Nat}
    (L0 : List (Line W)) (T0 : List (BettiEntry W))
    (hb : ∀ col ∈ cols, buildColumn mode pivots col.1 rows 0 pivots [] = .ok (B col.1))
    (hinc : ∀ col ∈ cols, Inc (B col.1))
    (hrow : ∀ col ∈ cols, ∀ x ∈ B col.1, RowOK rows P col.2 x)
    (hsort : cols.Pairwise (fun a b => a.2 ≤ b.2)) {r : Reduction W}
    (hr : reduceDim mode d pivots rows cols L0 T0 = .ok r) {e : BettiEntry W} (he : e ∈ r.table) :
    e ∈ T0 ∨ EntryOf d rows P B cols e := by
  unfold reduceDim at hr
  have key : ∀ (rest done : List (List Nat × W)) (q : Reduction W) (pairs : List (Nat × Nat)),
      cols = done ++ rest → RInv d rows P B L0 T0 done pairs q →
      rest.foldlM (columnStep mode d pivots rows) q = .ok r →
      e ∈ q.table ∨ EntryOf d rows P B cols e := by
    intro rest
    induction rest with
    | nil =>
      intro done q pairs _ _ hq
      rw [List.foldlM_nil, pure_eq_ok] at hq
      cases hq
      exact Or.inl he
    | cons c rest ih =>
      intro done q pairs hd h hq
      have hc : c ∈ cols := by rw [hd]; simp
      have hs : ∀ c' ∈ done, c'.2 ≤ c.2 := by
        intro c' hc'
        rw [hd, List.pairwise_append] at hsort
        exact hsort.2.2 c' hc' c (by simp)
      obtain ⟨r1, p1, h1, h2⟩ := columnStep_spec h (hb c hc) (hinc c hc) (hrow c hc) hs
      rw [List.foldlM_cons, h1, ok_bind] at hq
      rcases ih (done ++ [c]) r1 p1 (by simp [hd]) h2 hq with h3 | h3
      · rcases columnStep_entries h (hb c hc) (hinc c hc) (hrow c hc) hs h1 h3 with h4 | h4
        · exact Or.inl h4
        · right
          rw [hd, List.append_cons]
          exact h4.mono
      · exact Or.inr h3
  exact key cols [] ⟨[], [], 0, L0, T0⟩ [] rfl ⟨rfl, rfl, rfl, fun w _ => ⟨by simp, by simp⟩, rfl,
    by simp [indep], by simp, by simp, ⟨[], by simp, rfl⟩, by
      intro j _ x hx hx0
      simp only [List.take_nil, List.map_nil, spanL] at hx
      simp at hx
      exact absurd hx hx0⟩ hr

/-! ### All dimensions -/

theorem reduceDims_entries {mode : EndRead} (hmode : mode ≠ .undefined)
    {edges : List (List (List Nat × W))} (hF : FilteredComplex edges) (n : Nat) :
    ∀ (d : Nat) (_ : d + n < edges.length) (_ : ∀ k, d ≤ k → k < d + n → ClearsExactly mode edges k)
      (L0 : List (Line W)) (T0 : List (BettiEntry W)) (r : List (Line W) × List (BettiEntry W)),
      reduceDims mode edges n d (negatives edges d) L0 T0 = .ok r → ∀ e ∈ r.2, e ∈ T0 ∨
        (d ≤ e.dim ∧ e.dim < d + n ∧
          EntryOf e.dim (edges.getD e.dim []) (cleared mode (negatives edges e.dim))
            (colOf (edges.getD e.dim []) (negatives edges e.dim)) (edges.getD (e.dim + 1) []) e) := by
  induction n with
  | zero =>
    intro d _ _ L0 T0 r hr e he
    rw [reduceDims, pure_eq_ok] at hr
    cases hr
    exact Or.inl he
  | succ n ih =>
    intro d hd hcl L0 T0 r hr e he
    have g1 : edges[d]? = some (edges.getD d []) := by
      rw [List.getD_eq_getElem?_getD, List.getElem?_eq_getElem (by omega)]; rfl
    have g2 : edges[d + 1]? = some (edges.getD (d + 1) []) := by
      rw [List.getD_eq_getElem?_getD, List.getElem?_eq_getElem (by omega)]; rfl
    have hp := negatives_inc edges d
    obtain ⟨q, pairs, h1, h2, h3, -⟩ := reduceDim_mode (mode := mode) hF g1 g2 hp
      (fun h => absurd h hmode) L0 T0
    have hnext : q.nextPivots = negatives edges (d + 1) := by
      have := pairing_chain (mode := mode) (d := d) (n := 1) hF (by omega)
        (piv := fun k => if k = d then negatives edges d else q.nextPivots)
        (pr := fun _ => pairs) (by simp) (fun k hk1 hk2 => hcl k hk1 (by omega))
        (fun k hk1 hk2 => by
          obtain rfl : k = d := by omega
          refine ⟨by simp [h2], by simpa using h3⟩) d (le_refl _) (by omega)
      rw [h2]
      exact this.2.columns
    rw [reduceDims, vget_ok.2 g1, ok_bind, vget_ok.2 g2, ok_bind, h1, ok_bind, hnext] at hr
    rcases ih (d + 1) (by omega) (fun k hk1 hk2 => hcl k (by omega) (by omega)) _ _ r hr e he with
      h4 | ⟨h4, h5, h6⟩
    · have := reduceDim_entries (mode := mode) (d := d) (pivots := negatives edges d)
        (rows := edges.getD d []) (cols := edges.getD (d + 1) [])
        (P := cleared mode (negatives edges d))
        (B := colOf (edges.getD d []) (cleared mode (negatives edges d))) L0 T0
        (fun col hc => build_mode hp (fun r hr => ((hF.layer g1).1 r hr).1)
          (fun hm => absurd hm hmode) ((hF.layer g2).1 col hc).1)
        (fun col _ => inc_colOf _ _ _) (fun col hc x hx => colOf_ok hF g1 g2 hc _ hx)
        (hF.layer g2).2.2 h1 h4
      rcases this with h5 | h5
      · exact Or.inl h5
      · right
        have hed := h5.1
        have : (colOf (edges.getD d []) (cleared mode (negatives edges d))) =
            colOf (edges.getD d []) (negatives edges d) :=
          funext (fun s => colOf_cleared (hcl d (le_refl _) (by omega)) s)
        rw [this] at h5
        rw [hed]
        exact ⟨le_refl _, by omega, h5⟩
    · exact Or.inr ⟨by omega, by omega, h6⟩

/-- A combination of columns is, away from the rows left out, the boundary of a chain. -/
theorem boundary_of_span {edges : List (List (List Nat × W))} (hF : FilteredComplex edges) {k : Nat}
    (hk : k + 1 < edges.length) (P : List Nat) {done rest : List (List Nat × W)}
    (hc : edges.getD (k + 1) [] = done ++ rest) {t : W} (ht : ∀ c ∈ done, c.2 ≤ t)
    {v : Nat → ZMod 2}
    (hv : v ∈ spanL (ZMod 2) (done.map (fun c => ind (colOf (edges.getD k []) P c.1)))) :
    ∃ z ∈ boundaries edges k t, ∀ x row, (edges.getD k [])[x]? = some row → x ∉ P →
      z row.1 = v x := by
  have g1 : edges[k]? = some (edges.getD k []) := by
    rw [List.getD_eq_getElem?_getD, List.getElem?_eq_getElem (by omega)]; rfl
  have g2 : edges[k + 1]? = some (edges.getD (k + 1) []) := by
    rw [List.getD_eq_getElem?_getD, List.getElem?_eq_getElem (by omega)]; rfl
  unfold spanL at hv
  induction hv using Submodule.span_induction with
  | mem v hv =>
    obtain ⟨c, hcd, rfl⟩ := List.mem_map.1 (show v ∈ _ from hv)
    have hcc : c ∈ edges.getD (k + 1) [] := by rw [hc]; simp [hcd]
    refine ⟨boundaryOf c.1, ⟨Finsupp.single c.1 1, Submodule.subset_span ⟨c.1, ?_, rfl⟩,
      by simp [boundary]⟩, ?_⟩
    · unfold sublevel
      exact List.mem_map.2 ⟨c, List.mem_filter.2 ⟨hcc, by simpa using ht c hcd⟩, rfl⟩
    · intro x row hx hxP
      have := congrFun (coords_boundary (P := P) (d := k) (fun r hr => (hF.layer g1).1 r hr)
        ((hF.layer g2).1 c hcc).1 ((hF.layer g2).1 c hcc).2) x
      rw [← this]
      simp only [coords, LinearMap.coe_mk, AddHom.coe_mk]
      rw [if_pos ⟨(List.getElem?_eq_some_iff.1 hx).1, hxP⟩, List.getD_eq_getElem?_getD,
        List.getElem?_map, hx]
      rfl
  | zero => exact ⟨0, Submodule.zero_mem _, fun _ _ _ _ => rfl⟩
  | add a b _ _ ha hb =>
    obtain ⟨y, hy1, hy2⟩ := ha
    obtain ⟨z, hz1, hz2⟩ := hb
    refine ⟨y + z, Submodule.add_mem _ hy1 hz1, fun x row hx hxP => ?_⟩
    rw [Finsupp.add_apply, hy2 x row hx hxP, hz2 x row hx hxP, Pi.add_apply]
  | smul a b _ hb =>
    obtain ⟨y, hy1, hy2⟩ := hb
    refine ⟨a • y, Submodule.smul_mem _ _ hy1, fun x row hx hxP => ?_⟩
    rw [Finsupp.smul_apply, hy2 x row hx hxP, Pi.smul_apply]

/-! ### Dimension 0 -/

/-- A table entry made for an edge. -/
def EdgeEntry [Zero W] (E : List (List Nat × W)) (e : BettiEntry W) : Prop :=
  ∃ edge ∈ E, ∃ v ∈ edge.1, e = ⟨0, 0, edge.2, [v]⟩

theorem interStep_subset {x : Nat} {rest : List Nat → List Nat} {xs : List Nat}
    (h : ∀ l, ∀ z ∈ rest l, z ∈ xs) (l : List Nat) : ∀ z ∈ interStep x rest l, z ∈ x :: xs := by
  induction l with
  | nil => intro z hz; simp [interStep] at hz
  | cons y ys ih =>
    intro z hz
    unfold interStep at hz
    split_ifs at hz
    · exact List.mem_cons_of_mem _ (h _ z hz)
    · exact ih z hz
    · rw [List.mem_cons] at hz
      rcases hz with rfl | hz
      · simp
      · exact List.mem_cons_of_mem _ (h _ z hz)

theorem stdInter_subset (a b : List Nat) : ∀ z ∈ stdInter a b, z ∈ a := by
  induction a generalizing b with
  | nil => intro z hz; simp [stdInter] at hz
  | cons x xs ih => exact interStep_subset ih b

theorem setIntersectS_subset (a b : List Nat) : ∀ z ∈ setIntersectS a b, z ∈ a := by
  unfold setIntersectS
  split_ifs
  · exact fun z hz => hz
  · exact stdInter_subset a b

omit [LinearOrder W] in
theorem scan_entries [Zero W] (edge : List Nat × W) (sets : List (List Nat)) :
    ∀ (s : Scan W), ∀ e ∈ (sets.foldl (scanSet edge) s).table, e ∈ s.table ∨ EdgeEntry [edge] e := by
  induction sets with
  | nil => intro s e he; exact Or.inl he
  | cons c sets ih =>
    intro s e he
    rw [List.foldl_cons] at he
    rcases ih _ e he with h | h
    · unfold scanSet at h
      dsimp only at h
      split_ifs at h with h1 h2 h3
      · rw [List.mem_append, List.mem_singleton] at h
        rcases h with h | rfl
        · exact Or.inl h
        · right
          simp only [Bool.and_eq_true, beq_iff_eq] at h1
          obtain ⟨v, hv⟩ := List.length_eq_one_iff.1 h1.2
          refine ⟨edge, by simp, v, ?_, by rw [hv]⟩
          exact setIntersectS_subset edge.1 c v (by rw [hv]; simp)
      all_goals exact Or.inl h
    · exact Or.inr h

omit [LinearOrder W] in
theorem kruskal_entries [Zero W] (E : List (List Nat × W)) :
    ∀ (k : Kruskal W), ∀ e ∈ (kruskalAll E k).table, e ∈ k.table ∨ EdgeEntry E e := by
  induction E with
  | nil => intro k e he; exact Or.inl he
  | cons edge E ih =>
    intro k e he
    rcases ih (kruskalStep edge k) e he with h | ⟨f, h1, h2⟩
    · have ht : (kruskalStep edge k).table =
          (k.conSet.foldl (scanSet edge) ⟨false, false, [], [], k.table⟩).table := by
        unfold kruskalStep
        dsimp only
        split_ifs <;> rfl
      rw [ht] at h
      rcases scan_entries edge _ _ e h with h | ⟨f, h1, h2⟩
      · exact Or.inl h
      · rw [List.mem_singleton] at h1
        exact Or.inr ⟨f, by simp [h1], h2⟩
    · exact Or.inr ⟨f, List.mem_cons_of_mem _ h1, h2⟩

end

section
variable {W : Type} [LinearOrder W] [Zero W]

/-! ### C130 -/

omit [LinearOrder W] [Zero W] in
theorem cleared_mem {mode : EndRead} {P : List Nat} {x : Nat} (h : x ∈ P) : x ∈ cleared mode P := by
  cases mode with
  | undefined => exact h
  | noPivot => exact h
  | libstdcxx =>
    show x ∈ skipped _
    unfold skipped
    split_ifs
    · simp [h]
    · exact h

theorem head_le {l : List Nat} (hl : Inc l) {p x : Nat} (hp : l.head? = some p) (hx : x ∈ l) :
    p ≤ x := by
  cases l with
  | nil => simp at hp
  | cons a l =>
    simp only [List.head?_cons, Option.some.injEq] at hp
    subst hp
    rw [List.mem_cons] at hx
    rcases hx with rfl | hx
    · exact le_refl _
    · exact ((List.pairwise_cons.1 hl).1 x hx).le

/-- The entries that a run adds. -/
theorem fast_entries {mode : EndRead} {dim : Nat} {eps : W}
    {edges : List (List (List Nat × W))} (hF : FilteredComplex edges) (hlen : 2 ≤ edges.length)
    (hskip : SkipsNegatives mode dim edges) {lines : List (Line W)} {table : List (BettiEntry W)}
    (hok : fastPersistence mode dim eps edges [] [] = .ok (lines, table)) :
    ∀ e ∈ table, e = ⟨0, 0, eps, []⟩ ∨ EdgeEntry (edges.getD 1 []) e ∨
      (1 ≤ e.dim ∧ e.dim + 1 < edges.length ∧
        EntryOf e.dim (edges.getD e.dim []) (cleared mode (negatives edges e.dim))
            (colOf (edges.getD e.dim []) (negatives edges e.dim)) (edges.getD (e.dim + 1) []) e) := by
  obtain ⟨mode', hm, hcl, hsk, hok'⟩ : ∃ mode' : EndRead, mode' ≠ .undefined ∧
      (∀ P, cleared mode' P = cleared mode P) ∧ SkipsNegatives mode' dim edges ∧
      fastPersistence mode' dim eps edges [] [] = .ok (lines, table) := by
    cases mode with
    | noPivot => exact ⟨.noPivot, by simp, fun _ => rfl, hskip, hok⟩
    | libstdcxx => exact ⟨.libstdcxx, by simp, fun _ => rfl, hskip, hok⟩
    | undefined =>
      obtain ⟨u1, u2⟩ := fast_undefined dim eps hF hlen [] []
      by_cases hs : ∃ k, 1 ≤ k ∧ k < dim ∧ k + 1 < edges.length ∧ ¬ SafeDim edges k
      · rw [u2 hs] at hok; cases hok
      · push Not at hs
        rw [u1 hs] at hok
        exact ⟨.noPivot, by simp, fun _ => rfl, (fun h => by cases h), hok⟩
  have g0 := getD_layer (edges := edges) (k := 0) (by omega)
  have g1 := getD_layer (edges := edges) (k := 1) (by omega)
  obtain ⟨F, h1, h2, h3, h4⟩ := kruskal_result hF g0 g1 ([] : List (BettiEntry W))
  have hz : ∀ e ∈ (kruskalAll (edges.getD 1 []) (Kruskal.init ([] : List (BettiEntry W)))).table ++
      [(⟨0, 0, eps, []⟩ : BettiEntry W)], e = ⟨0, 0, eps, []⟩ ∨ EdgeEntry (edges.getD 1 []) e := by
    intro e he
    rw [List.mem_append, List.mem_singleton] at he
    rcases he with he | he
    · rcases kruskal_entries _ _ e he with h | h
      · simp [Kruskal.init] at h
      · exact Or.inr h
    · exact Or.inl he
  intro e he
  unfold fastPersistence at hok'
  rw [if_neg (by omega), vget_ok.2 g0, ok_bind, vget_ok.2 g1, ok_bind] at hok'
  dsimp only at hok'
  rw [h2, h3, h4, List.map_map] at hok'
  by_cases hd : dim > 0
  · rw [if_pos hd] at hok'
    rcases reduceDims_entries hm hF _ 1 (by omega)
      (fun k hk1 hk2 => clears_of hsk hk1 (by omega) (by omega)) _ _ _ hok' e he with h | ⟨k1, k2, k3⟩
    · rcases hz e h with h | h
      · exact Or.inl h
      · exact Or.inr (Or.inl h)
    · rw [hcl] at k3
      exact Or.inr (Or.inr ⟨k1, by omega, k3⟩)
  · rw [if_neg hd, pure_eq_ok] at hok'
    cases hok'
    rcases hz e he with h | h
    · exact Or.inl h
    · exact Or.inr (Or.inl h)

/-- C130 (partial: the numbers recorded in dimension `d ≥ 1` are positions in the list of simplices of
dimension `d`, not points): the boundary of a recorded interval.

In dimension 0 it is one end of an edge whose length is the end of the interval, or empty for the
interval that ends at epsilon. In a dimension `d ≥ 1` the numbers are positions of simplices of
dimension `d`, in increasing order. The first one is a simplex that appears at the start of the
interval, the others appear no earlier and no later than its end, and none is negative. Together with
negative simplices they are the boundary of a chain of simplices of dimension `d + 1` that are there
at the end of the interval: the interval ends where this cycle is filled. -/
theorem C130_boundary_partial {mode : EndRead} {dim : Nat} {eps : W}
    {edges : List (List (List Nat × W))} (hF : FilteredComplex edges) (hlen : 2 ≤ edges.length)
    (hskip : SkipsNegatives mode dim edges)
    {output : List (Line W)} {T0 : List (BettiEntry W)} {lines : List (Line W)}
    {table : List (BettiEntry W)}
    (hok : fastPersistence mode dim eps edges output T0 = .ok (lines, table)) :
    ∃ added, table = T0 ++ added ∧ ∀ e ∈ added,
      (e.dim = 0 → (e.death = eps ∧ e.boundary = []) ∨
        ∃ edge ∈ edges.getD 1 [], ∃ v ∈ edge.1, e.boundary = [v] ∧ e.death = edge.2) ∧
      (1 ≤ e.dim →
        e.boundary.Pairwise (· < ·) ∧
        (∃ p simplex, e.boundary.head? = some p ∧
          (edges.getD e.dim [])[p]? = some (simplex, e.birth)) ∧
        (∀ x ∈ e.boundary, ¬ Negative edges e.dim x ∧ ∃ simplex w,
          (edges.getD e.dim [])[x]? = some (simplex, w) ∧ e.birth ≤ w ∧ w ≤ e.death) ∧
        ∃ z ∈ boundaries edges e.dim e.death, ∀ x simplex w,
          (edges.getD e.dim [])[x]? = some (simplex, w) → ¬ Negative edges e.dim x →
          (z simplex = 1 ↔ x ∈ e.boundary)) := by
  have hne : edges ≠ [] := by rintro rfl; simp at hlen
  rw [fastPersistence_pre mode dim eps edges hne, bind_ok] at hok
  obtain ⟨⟨lines', added⟩, hok, hr⟩ := hok
  rw [pure_eq_ok] at hr
  cases hr
  refine ⟨added, rfl, fun e he => ?_⟩
  rcases fast_entries hF hlen hskip hok e he with rfl | ⟨edge, h1, v, h2, rfl⟩ |
    ⟨h1, h2, h3, h4, ⟨p, row, h5, h6, h7⟩, h8, done, rest, h9, h10, h11⟩
  · exact ⟨fun _ => Or.inl ⟨rfl, rfl⟩, fun h => absurd h (by simp)⟩
  · exact ⟨fun _ => Or.inr ⟨edge, h1, v, h2, rfl, rfl⟩, fun h => absurd h (by simp)⟩
  · refine ⟨fun h => by omega, fun _ => ?_⟩
    have hcl : ∀ x, x ∉ cleared mode (negatives edges e.dim) → ¬ Negative edges e.dim x := by
      intro x hx hn
      exact hx (cleared_mem (mem_negatives.2 hn))
    refine ⟨h4, ⟨p, row.1, h5, by rw [h7]; exact h6⟩, ?_, ?_⟩
    · intro x hx
      obtain ⟨k1, row', k2, k3⟩ := h8 x hx
      refine ⟨hcl x k1, row'.1, row'.2, k2, ?_, k3⟩
      rw [h7]
      have hp : p ∈ e.boundary := List.mem_of_head? h5
      rcases eq_or_lt_of_le (head_le h4 h5 hx) with hpx | hpx
      · rw [hpx, k2] at h6
        cases h6
        exact le_refl _
      · have hs := (hF.layer (getD_layer (edges := edges) (k := e.dim) (by omega))).2.2
        obtain ⟨l1, e1⟩ := List.getElem?_eq_some_iff.1 h6
        obtain ⟨l2, e2⟩ := List.getElem?_eq_some_iff.1 k2
        have := List.pairwise_iff_getElem.1 hs p x l1 l2 hpx
        rw [e1, e2] at this
        exact this
    · obtain ⟨z, hz1, hz2⟩ := boundary_of_span hF h2 (negatives edges e.dim) h9 h10 h11
      refine ⟨z, hz1, fun x simplex w hx hn => ?_⟩
      rw [hz2 x (simplex, w) hx (fun hm => hn (mem_negatives.1 hm))]
      unfold ind
      split_ifs with h
      · simp [h]
      · simp [h]

/-- C130 does not hold: for four points in a square the interval in dimension 1 is recorded with the
number 4, which is not a point; its boundary points 3 and 4 are the edges 2-3 and 0-2. -/
theorem C130_violated :
    ∃ lines table, fastPersistence .noPivot 2 (9 : Int) square [] [] = .ok (lines, table) ∧
      (⟨1, 5, 7, [3, 4]⟩ : BettiEntry Int) ∈ table ∧ [4] ∉ (square.getD 0 []).map Prod.fst ∧
      ((square.getD 1 []).map Prod.fst)[3]? = some [2, 3] ∧
      ((square.getD 1 []).map Prod.fst)[4]? = some [0, 2] :=
  ⟨_, _, rfl, by decide, by decide, by decide, by decide⟩

/-- Points in the plane with the distance |x - x'| + |y - y'|. -/
def Spec.planeSystem (cents : List (List Int)) (labels : List Nat) (text : String) : System Int Int :=
  { lineSystem cents labels text with
    atoi := fun _ => 2
    lib := ⟨.insertion _ _, .insertion _ _, .noPivot,
      fun p q => match p, q with
        | [x, y], [x', y'] => .ok (|x - x'| + |y - y'|)
        | _, _ => .error .oob,
      fun _ t => .ok t, fun _ w => .ok w⟩ }

/-- C130: therefore mode reduced fails for a partition of four points in a square although the
persistence of the partition is computed: the relabelling takes the numbers of edges for points and
reads past the end of the labels. -/
theorem C130_reduced_violated :
    let sys := planeSystem [[10, 10], [90, 90]] [0, 0, 0, 0, 1] "10,10\n13,10\n10,13\n13,13\n90,90\n91,90"
    (mainProgram sys ["-m", "reduced", "-p", "distMatrix.neighGraph.rips.fastPersistence",
      "-c", "simplexArrayList", "-pre", "kmeans++"] matches .error .oob) ∧
    ((arrayRun sys.lib.dist sys.lib.sort sys.lib.mode 500 2
      [[10, 10], [13, 10], [10, 13], [13, 13]]).toOption.map (fun r => r.2.filter (fun e => 1 ≤ e.dim))
      = some [⟨1, 3, 6, [3, 5]⟩]) := by
  decide +kernel

/-- The hypotheses of `C130_boundary_partial` are met. -/
example : ∃ (lines : List (Line Int)) (table : List (BettiEntry Int)) (added : List (BettiEntry Int)),
    fastPersistence .noPivot 2 (9 : Int) square [] [⟨0, 0, 1, []⟩] = .ok (lines, table) ∧
    table = [⟨0, 0, 1, []⟩] ++ added ∧ ∃ e ∈ added, e.dim = 1 ∧ e.boundary = [3, 4] := by
  obtain ⟨lines, table, h, hm⟩ : ∃ lines table,
      fastPersistence .noPivot 2 (9 : Int) square [] [⟨0, 0, 1, []⟩] = .ok (lines, table) ∧
      (⟨1, 5, 7, [3, 4]⟩ : BettiEntry Int) ∈ table := ⟨_, _, rfl, by decide⟩
  obtain ⟨added, rfl, -⟩ := C130_boundary_partial square_filtered (by decide) (fun h => by cases h) h
  refine ⟨lines, _, added, h, rfl, ⟨1, 5, 7, [3, 4]⟩, ?_, rfl, rfl⟩
  rw [List.mem_append] at hm
  rcases hm with hm | hm
  · simp at hm
  · exact hm

end
end LHF
