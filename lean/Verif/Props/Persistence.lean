import Verif.Props.PersistenceZero

/-! C25–C30, C54, C55: dimensions at least 1 of fastPersistence. -/

namespace LHF
open Spec

section
variable {W : Type}

theorem mem_negatives {edges : List (List (List Nat × W))} {k i : Nat} :
    i ∈ negatives edges k ↔ Negative edges k i := by
  unfold negatives Negative
  rw [mem_indep]
  have e1 : ∀ i, (bvecs ((edges.getD k []).map Prod.fst)).take i =
      bvecs (((edges.getD k []).take i).map Prod.fst) := by
    intro i; simp [bvecs, List.map_take]
  rw [e1, ← map_boundary_chains]
  constructor
  · rintro ⟨h1, h2⟩
    have h1' : i < (edges.getD k []).length := by simpa [bvecs] using h1
    refine ⟨_, List.getElem?_eq_getElem h1', ?_⟩
    have : (bvecs ((edges.getD k []).map Prod.fst)).getD i 0 =
        boundaryOf ((edges.getD k [])[i]).1 := by
      rw [List.getD_eq_getElem?_getD, bvecs, List.getElem?_map, List.getElem?_map,
        List.getElem?_eq_getElem h1']
      rfl
    rwa [this] at h2
  · rintro ⟨e, h1, h2⟩
    obtain ⟨h1', he⟩ := List.getElem?_eq_some_iff.1 h1
    refine ⟨by simpa [bvecs] using h1', ?_⟩
    have : (bvecs ((edges.getD k []).map Prod.fst)).getD i 0 = boundaryOf e.1 := by
      rw [List.getD_eq_getElem?_getD, bvecs, List.getElem?_map, List.getElem?_map, h1]
      rfl
    rwa [this]

end

section
variable {W : Type} [LinearOrder W] [Zero W]

/-! ### C25 -/

/-- C25: the reason for termination: adding a stored column (an increasing list whose first entry is
its key) to a column with the same first entry makes the first entry larger. -/
theorem C25_head_increases {p : Nat} {stored column : List Nat} (hs : stored.Pairwise (· < ·))
    (hc : column.Pairwise (· < ·)) (h1 : stored.head? = some p) (h2 : column.head? = some p) :
    ∀ x ∈ setXOR stored column, p < x := by
  cases stored with
  | nil => simp at h1
  | cons a s =>
    cases column with
    | nil => simp at h2
    | cons b c =>
      simp only [List.head?_cons, Option.some.injEq] at h1 h2
      subst h1 h2
      intro x hx
      have hx' := (mem_stdSymDiff hs hc x).1 hx
      rw [List.pairwise_cons] at hs hc
      rcases hx' with ⟨h3, h4⟩ | ⟨h3, h4⟩
      · rw [List.mem_cons] at h3
        rcases h3 with rfl | h3
        · simp at h4
        · exact hs.1 x h3
      · rw [List.mem_cons] at h3
        rcases h3 with rfl | h3
        · simp at h4
        · exact hc.1 x h3

/-- C25: the cut-off of the model does not influence the result of the loop. -/
theorem C25_fuel_irrelevant (v : List (Nat × List Nat)) :
    ∀ (fuel : Nat) (c : List Nat) (r : ColResult), reduceCol v fuel c = some r →
    ∀ more, reduceCol v (fuel + more) c = some r := by
  intro fuel
  induction fuel with
  | zero => intro c r h; cases c <;> cases h
  | succ fuel ih =>
    intro c r h more
    rw [show fuel + 1 + more = (fuel + more) + 1 by omega]
    cases c with
    | nil => exact h
    | cons p c =>
      rw [reduceCol] at h ⊢
      cases hl : lookupCol v p with
      | none => rw [hl] at h; exact h
      | some c' =>
        rw [hl] at h
        dsimp only at h ⊢
        split_ifs at h ⊢
        · exact h
        · exact ih _ _ h more

/-- C25: on every filtered complex with edges the computation terminates normally: it is never cut
off (`.exn`), and with a defined meaning of reading the end iterator it returns a result. -/
theorem C25_terminates (mode : EndRead) (dim : Nat) (eps : W)
    {edges : List (List (List Nat × W))} (hF : FilteredComplex edges) (hlen : 2 ≤ edges.length)
    (output : List (Line W)) (T0 : List (BettiEntry W)) :
    (∃ r, fastPersistence mode dim eps edges output T0 = .ok r) ∨
    (mode = .undefined ∧ fastPersistence mode dim eps edges output T0 = .error .endDeref) := by
  by_cases hm : mode = .undefined
  · subst hm
    obtain ⟨u1, u2⟩ := fast_undefined dim eps hF hlen output T0
    by_cases hs : ∃ k, 1 ≤ k ∧ k < dim ∧ k + 1 < edges.length ∧ ¬ SafeDim edges k
    · exact Or.inr ⟨rfl, u2 hs⟩
    · push Not at hs
      obtain ⟨F, k, piv, pr, T, -, -, h, -⟩ := fast_spec (mode := .noPivot) (by simp) dim eps hF hlen
        output T0
      rw [u1 hs]
      exact Or.inl ⟨_, h⟩
  · obtain ⟨F, k, piv, pr, T, -, -, h, -⟩ := fast_spec hm dim eps hF hlen output T0
    exact Or.inl ⟨_, h⟩

/-! ### C26 -/

theorem filterMap_forall₂ {α β : Type} (f : α → Option β) (l : List α) :
    ∃ sub, sub.Sublist l ∧ List.Forall₂ (fun b a => f a = some b) (l.filterMap f) sub := by
  induction l with
  | nil => exact ⟨[], by simp, by simp⟩
  | cons a l ih =>
    obtain ⟨sub, h1, h2⟩ := ih
    cases ha : f a with
    | none => exact ⟨sub, h1.cons _, by rw [List.filterMap_cons, ha]; exact h2⟩
    | some b => exact ⟨a :: sub, h1.cons_cons _, by rw [List.filterMap_cons, ha]; exact .cons ha h2⟩

omit [Zero W] in
theorem higher_filter (edges : List (List (List Nat × W))) (n : Nat) (pr : Nat → List (Nat × Nat))
    (k : Nat) (hk : 1 ≤ k) : (higherLines edges n pr).filter (fun l => l.1 = k) =
      if k < 1 + n then (pr k).filterMap (lineOf k (edges.getD k []) (edges.getD (k + 1) []))
      else [] := by
  have hdim : ∀ j, ∀ l ∈ (pr j).filterMap (lineOf j (edges.getD j []) (edges.getD (j + 1) [])),
      l.1 = j := by
    intro j l hl
    rw [List.mem_filterMap] at hl
    obtain ⟨pj, -, h⟩ := hl
    unfold lineOf at h
    split at h
    · split_ifs at h
      · cases h; rfl
    · cases h
  have gen : ∀ n d, ((List.range' d n).flatMap (fun k =>
      (pr k).filterMap (lineOf k (edges.getD k []) (edges.getD (k + 1) [])))).filter
        (fun l => decide (l.1 = k)) =
      if d ≤ k ∧ k < d + n then (pr k).filterMap
        (lineOf k (edges.getD k []) (edges.getD (k + 1) [])) else [] := by
    intro n
    induction n with
    | zero => intro d; rw [if_neg (by omega)]; rfl
    | succ n ih =>
      intro d
      rw [List.range'_succ, List.flatMap_cons, List.filter_append, ih]
      by_cases hd : d = k
      · subst hd
        rw [if_neg (by omega), if_pos (by omega), List.append_nil, List.filter_eq_self.2]
        intro l hl
        simpa using hdim _ l hl
      · have : List.filter (fun l => decide (l.1 = k)) ((pr d).filterMap
            (lineOf d (edges.getD d []) (edges.getD (d + 1) []))) = [] := by
          rw [List.filter_eq_nil_iff]
          intro l hl
          have := hdim d l hl
          simp only [decide_eq_true_eq]
          omega
        rw [this, List.nil_append]
        by_cases h : d + 1 ≤ k ∧ k < d + 1 + n
        · rw [if_pos h, if_pos (by omega)]
        · rw [if_neg h, if_neg (by omega)]
  unfold higherLines
  rw [gen n 1]
  simp only [hk, true_and]

omit [Zero W] in
theorem dim_lines {edges : List (List (List Nat × W))} {n : Nat} {pr : Nat → List (Nat × Nat)}
    {L : List (Line W)} (hL : ∀ l ∈ L, l.1 = 0) (k : Nat) (hk : 1 ≤ k) :
    (L ++ higherLines edges n pr).filter (fun l => l.1 = k) =
      if k < 1 + n then (pr k).filterMap (lineOf k (edges.getD k []) (edges.getD (k + 1) []))
      else [] := by
  rw [List.filter_append, higher_filter edges n pr k hk]
  have : L.filter (fun l => decide (l.1 = k)) = [] := by
    rw [List.filter_eq_nil_iff]
    intro l hl
    have := hL l hl
    simp only [decide_eq_true_eq]
    omega
  rw [this, List.nil_append]

omit [LinearOrder W] in
theorem zero_lines (F : List (List Nat × W)) (eps : W) :
    ∀ l ∈ F.map (fun e => ((0, 0, e.2) : Line W)) ++ [(0, 0, eps)], l.1 = 0 := by
  intro l hl
  rw [List.mem_append, List.mem_map, List.mem_singleton] at hl
  rcases hl with ⟨e, -, rfl⟩ | rfl <;> rfl

/-- C26: the lines of a dimension `k ≥ 1` come from pairs of a `k`-simplex and a `(k+1)`-simplex
(given by their positions): each line shows the weights of its pair, the birth is smaller than the
death, and neither a `k`-simplex nor a `(k+1)`-simplex occurs in two pairs. -/
theorem C26_intervals_well_formed {mode : EndRead} {dim : Nat} {eps : W}
    {edges : List (List (List Nat × W))} (hF : FilteredComplex edges) (hlen : 2 ≤ edges.length)
    {output : List (Line W)} {T0 : List (BettiEntry W)} {lines : List (Line W)}
    {table : List (BettiEntry W)}
    (hok : fastPersistence mode dim eps edges output T0 = .ok (lines, table)) (k : Nat)
    (hk : 1 ≤ k) :
    ∃ pairs : List (Nat × Nat),
      List.Forall₂ (fun (l : Line W) (pj : Nat × Nat) => ∃ s t b w,
        (edges.getD k [])[pj.1]? = some (s, b) ∧ (edges.getD (k + 1) [])[pj.2]? = some (t, w) ∧
        l = (k, b, w) ∧ b < w) (lines.filter (fun l => l.1 = k)) pairs ∧
      (pairs.map Prod.fst).Nodup ∧ (pairs.map Prod.snd).Nodup := by
  obtain ⟨F, piv, pr, T, -, h2, -, -, -, h6⟩ := fast_ok hF hlen hok
  rw [h2, dim_lines (zero_lines F eps) k hk]
  by_cases hlt : k < 1 + (min dim (edges.length - 1) - 1)
  · rw [if_pos hlt]
    obtain ⟨-, hD⟩ := h6 k hk hlt
    obtain ⟨sub, hs1, hs2⟩ := filterMap_forall₂
      (lineOf k (edges.getD k []) (edges.getD (k + 1) [])) (pr k)
    refine ⟨sub, ?_, (hD.rows_nodup).sublist (hs1.map _), ?_⟩
    · have hall : ∀ pj ∈ sub, pj ∈ pr k := fun pj h => hs1.subset h
      clear hs1
      generalize (pr k).filterMap
        (lineOf k (edges.getD k []) (edges.getD (k + 1) [])) = ls0 at hs2
      induction hs2 with
      | nil => exact .nil
      | @cons l pj ls pjs h t ih =>
        refine .cons ?_ (ih (fun q hq => hall q (by simp [hq])))
        obtain ⟨row, col, hr, hc, hw, -⟩ := hD.births pj (hall pj (by simp))
        unfold lineOf at h
        rw [hr, hc] at h
        dsimp only at h
        split_ifs at h with hne
        cases h
        exact ⟨row.1, col.1, row.2, col.2, hr, hc, rfl, lt_of_le_of_ne hw hne⟩
    · have : ((pr k).map Prod.snd).Nodup := by
        rw [hD.columns]; exact (inc_indep _).nodup
      exact this.sublist (hs1.map _)
  · rw [if_neg hlt]
    exact ⟨[], .nil, by simp, by simp⟩

/-! ### C27 -/

/-- The column of a simplex in the boundary matrix without the rows `P`, over Z/2. -/
def Spec.restrictedColumn (rows : List (List Nat × W)) (P : List Nat) (s : List Nat) :
    Nat → ZMod 2 :=
  fun x => if x ∉ P ∧ ∃ row, rows[x]? = some row ∧ ∀ v ∈ row.1, v ∈ s then 1 else 0

omit [LinearOrder W] [Zero W] in
theorem restricted_eq (rows : List (List Nat × W)) (P : List Nat) (s : List Nat) :
    restrictedColumn rows P s = ind (colOf rows P s) := by
  funext x
  unfold restrictedColumn ind
  simp only [mem_colOf]

omit [Zero W] in
/-- C27: in one dimension, with the rows that are skipped left out of the boundary matrix, the number
of columns that are paired is the rank of the matrix, and a column is paired iff it is not a sum of
earlier columns. (`cleared mode pivots` are the pivots of the previous dimension, see `C28` for the
additional row that libstdc++ may skip.) -/
theorem C27_pairs_are_rank {mode : EndRead} {edges : List (List (List Nat × W))}
    (hF : FilteredComplex edges) {d : Nat}
    {rows cols : List (List Nat × W)} (h : edges[d]? = some rows)
    (h' : edges[d + 1]? = some cols) {pivots : List Nat} (hp : pivots.Pairwise (· < ·))
    {L0 : List (Line W)} {T0 : List (BettiEntry W)} {r : Reduction W}
    (hok : reduceDim mode d pivots rows cols L0 T0 = .ok r) :
    r.nextPivots.length = Module.finrank (ZMod 2) (Submodule.span (ZMod 2)
      {x | x ∈ cols.map (fun c => restrictedColumn rows (cleared mode pivots) c.1)}) ∧
    ∀ j, j ∈ r.nextPivots ↔ ∃ c, cols[j]? = some c ∧
      restrictedColumn rows (cleared mode pivots) c.1 ∉ Submodule.span (ZMod 2)
        {x | x ∈ (cols.take j).map (fun c => restrictedColumn rows (cleared mode pivots) c.1)} := by
  have hmode : mode = .undefined → cols ≠ [] → ∀ i, i < rows.length → ∃ p ∈ pivots, i ≤ p := by
    intro hm hc i hi
    by_contra hcon
    push Not at hcon
    subst hm
    rw [reduceDim_undefined hp hc hi hcon] at hok
    cases hok
  obtain ⟨r', pairs, h1, h2, h3, -⟩ := reduceDim_mode hF h h' hp hmode L0 T0
  rw [hok, Except.ok.injEq] at h1
  subst h1
  have e : ∀ l : List (List Nat × W),
      l.map (fun c => restrictedColumn rows (cleared mode pivots) c.1) =
      l.map (fun c => ind (colOf rows (cleared mode pivots) c.1)) := by
    intro l
    apply List.map_congr_left
    intro c _
    rw [restricted_eq]
  rw [h2, h3.columns, e]
  refine ⟨indep_length _, ?_⟩
  intro j
  rw [mem_indep, List.length_map, ← List.map_take, ← e]
  constructor
  · rintro ⟨h1, h2⟩
    refine ⟨_, List.getElem?_eq_getElem h1, ?_⟩
    have : (cols.map (fun c => ind (colOf rows (cleared mode pivots) c.1))).getD j 0 =
        restrictedColumn rows (cleared mode pivots) cols[j].1 := by
      rw [← e]; simp [h1]
    rwa [this] at h2
  · rintro ⟨c, h1, h2⟩
    obtain ⟨h1', hc⟩ := List.getElem?_eq_some_iff.1 h1
    refine ⟨h1', ?_⟩
    have : (cols.map (fun c => ind (colOf rows (cleared mode pivots) c.1))).getD j 0 =
        restrictedColumn rows (cleared mode pivots) c.1 := by
      rw [← e, List.getD_eq_getElem?_getD, List.getElem?_map, h1]; rfl
    rwa [this]

omit [Zero W] in
/-- C27: clearing loses nothing: when the skipped rows are the negative simplices of the previous
dimension, the paired columns are exactly the negative simplices of the next one, so their number is
the rank of the full boundary matrix. -/
theorem C27_rank_of_boundary {edges : List (List (List Nat × W))}
    (hF : FilteredComplex edges) {d : Nat}
    {rows cols : List (List Nat × W)} (h : edges[d]? = some rows)
    (h' : edges[d + 1]? = some cols) {pivots : List Nat} (hp : pivots.Pairwise (· < ·))
    (hneg : ∀ i, i ∈ pivots ↔ Negative edges d i)
    {L0 : List (Line W)} {T0 : List (BettiEntry W)} {r : Reduction W}
    (hok : reduceDim .noPivot d pivots rows cols L0 T0 = .ok r) :
    (∀ j, j ∈ r.nextPivots ↔ Negative edges (d + 1) j) ∧
    r.nextPivots.length =
      Module.finrank (ZMod 2) ((chains (cols.map Prod.fst)).map boundary) := by
  have hpe : pivots = negatives edges d := by
    apply Inc.ext hp (negatives_inc _ _)
    intro i; rw [hneg, mem_negatives]
  obtain ⟨r', pairs, h1, h2, h3, -⟩ := reduceDim_mode (mode := .noPivot) hF h h' hp
    (fun h => by cases h) L0 T0
  rw [hok, Except.ok.injEq] at h1
  subst h1
  have er : edges.getD d [] = rows := by rw [List.getD_eq_getElem?_getD, h]; rfl
  have ec : edges.getD (d + 1) [] = cols := by rw [List.getD_eq_getElem?_getD, h']; rfl
  have hlt := (List.getElem?_eq_some_iff.1 h').1
  have hP : Pairing edges d pairs := by
    apply DimOut.pairing hF hlt
    rw [er, ec, ← hpe]
    exact h3
  have hc : r.nextPivots = negatives edges (d + 1) := by rw [h2, hP.columns]
  rw [hc]
  refine ⟨fun j => mem_negatives, ?_⟩
  unfold negatives
  rw [indep_length, ← map_boundary_chains, ec]

/-! ### C29 -/

omit [Zero W] in
theorem safeDim_iff {edges : List (List (List Nat × W))} (hF : FilteredComplex edges) {k : Nat}
    (hk : k + 1 < edges.length) : ¬ SafeDim edges k ↔ edges.getD (k + 1) [] ≠ [] ∧
      ¬ Negative edges k ((edges.getD k []).length - 1) := by
  have g1 := getD_layer (edges := edges) (k := k) (by omega)
  have g2 := getD_layer hk
  have hne : edges.getD (k + 1) [] ≠ [] → 0 < (edges.getD k []).length := by
    intro hc
    obtain ⟨c, hc⟩ := List.exists_mem_of_ne_nil _ hc
    obtain ⟨-, hl⟩ := (hF.layer g2).1 c hc
    obtain ⟨w, hw, -⟩ := hF.facet g1 g2 hc (List.take_sublist (k + 1) c.1)
      (by rw [List.length_take]; omega)
    exact List.length_pos_of_mem hw
  rw [← mem_negatives]
  unfold SafeDim
  push Not
  constructor
  · rintro ⟨hc, i, hi, h⟩
    refine ⟨hc, fun hm => ?_⟩
    have := h _ hm
    omega
  · rintro ⟨hc, h⟩
    refine ⟨hc, (edges.getD k []).length - 1, ?_, ?_⟩
    · have := hne hc; omega
    · intro p hp
      have h1 := negatives_lt hp
      have : p ≠ (edges.getD k []).length - 1 := by rintro rfl; exact h hp
      omega

/-- C29 (exact condition; the property fails): with the strict reading of the C++ standard the end of
the pivot list is dereferenced iff in some dimension `k` that is processed there is a `(k+1)`-simplex
and the last `k`-simplex in filtration order is not negative. -/
theorem C29_end_dereference_iff_partial (dim : Nat) (eps : W) {edges : List (List (List Nat × W))}
    (hF : FilteredComplex edges) (hlen : 2 ≤ edges.length) (output : List (Line W))
    (T0 : List (BettiEntry W)) :
    fastPersistence .undefined dim eps edges output T0 = .error .endDeref ↔
      ∃ k, 1 ≤ k ∧ k < dim ∧ k + 1 < edges.length ∧ edges.getD (k + 1) [] ≠ [] ∧
        ¬ Negative edges k ((edges.getD k []).length - 1) := by
  obtain ⟨u1, u2⟩ := fast_undefined dim eps hF hlen output T0
  constructor
  · intro he
    by_contra hcon
    push Not at hcon
    have hs : ∀ k, 1 ≤ k → k < dim → k + 1 < edges.length → SafeDim edges k := by
      intro k h1 h2 h3
      by_contra hns
      obtain ⟨a, b⟩ := (safeDim_iff hF h3).1 hns
      exact b (hcon k h1 h2 h3 a)
    rw [u1 hs] at he
    obtain ⟨F, k, piv, pr, T, -, -, h, -⟩ := fast_spec (mode := .noPivot) (by simp) dim eps hF hlen
      output T0
    rw [h] at he
    cases he
  · rintro ⟨k, h1, h2, h3, h4⟩
    exact u2 ⟨k, h1, h2, h3, (safeDim_iff hF h3).2 h4⟩

/-- C29: otherwise the strict reading, the intended reading and (unless the negative simplices are
exactly the first `m` simplices of a layer, with `m` less than its length) the libstdc++ reading
agree. -/
theorem C29_readings_agree (dim : Nat) (eps : W) {edges : List (List (List Nat × W))}
    (hF : FilteredComplex edges) (hlen : 2 ≤ edges.length) (output : List (Line W))
    (T0 : List (BettiEntry W)) :
    ((∀ k, 1 ≤ k → k < dim → k + 1 < edges.length → edges.getD (k + 1) [] ≠ [] →
        Negative edges k ((edges.getD k []).length - 1)) →
      fastPersistence .undefined dim eps edges output T0 =
        fastPersistence .noPivot dim eps edges output T0) := by
  intro h
  apply (fast_undefined dim eps hF hlen output T0).1
  intro k h1 h2 h3
  by_contra hns
  obtain ⟨a, b⟩ := (safeDim_iff hF h3).1 hns
  exact b (h k h1 h2 h3 a)

/-! ### C54 -/

/-- Exactly the negative simplices are skipped: always so in the intended reading; with libstdc++
unless the negative simplices of a layer are exactly its first `m` simplices, with `m` less than its
length. -/
def Spec.SkipsNegatives (mode : EndRead) (dim : Nat) (edges : List (List (List Nat × W))) : Prop :=
  mode = .libstdcxx → ∀ k, 1 ≤ k → k < dim → k + 1 < edges.length →
    ¬ ∃ m, m < (edges.getD k []).length ∧ ∀ i, Negative edges k i ↔ i < m

omit [LinearOrder W] [Zero W] in
theorem clears_of {mode : EndRead} {dim : Nat} {edges : List (List (List Nat × W))}
    (h : SkipsNegatives mode dim edges) {k : Nat} (h1 : 1 ≤ k) (h2 : k < dim)
    (h3 : k + 1 < edges.length) : ClearsExactly mode edges k := by
  cases mode with
  | undefined => trivial
  | noPivot => trivial
  | libstdcxx =>
    intro m hm he
    apply h rfl k h1 h2 h3
    refine ⟨m, hm, fun i => ?_⟩
    rw [← mem_negatives, he, List.mem_range]

/-- All pairs (including those of equal weight) of a successful run. -/
theorem fast_pairing {mode : EndRead} {dim : Nat} {eps : W}
    {edges : List (List (List Nat × W))} (hF : FilteredComplex edges) (hlen : 2 ≤ edges.length)
    (hskip : SkipsNegatives mode dim edges)
    {output : List (Line W)} {T0 : List (BettiEntry W)} {lines : List (Line W)}
    {table : List (BettiEntry W)}
    (hok : fastPersistence mode dim eps edges output T0 = .ok (lines, table)) {k : Nat}
    (hk : 1 ≤ k) (hk2 : k < dim) :
    ∃ pairs, Pairing edges k pairs ∧ lines.filter (fun l => l.1 = k) =
      pairs.filterMap (lineOf k (edges.getD k []) (edges.getD (k + 1) [])) := by
  obtain ⟨F, piv, pr, T, -, h2, -, -, h5, h6⟩ := fast_ok hF hlen hok
  by_cases hk3 : k + 1 < edges.length
  · have := pairing_chain hF (d := 1) (n := min dim (edges.length - 1) - 1) (by omega) h5
      (fun j h1 h2 => clears_of hskip h1 (by omega) (by omega)) h6
    refine ⟨pr k, (this k hk (by omega)).2, ?_⟩
    rw [h2, dim_lines (zero_lines F eps) k hk, if_pos (by omega)]
  · have e : edges.getD (k + 1) [] = [] := by
      rw [List.getD_eq_getElem?_getD, List.getElem?_eq_none (by omega)]; rfl
    refine ⟨[], ⟨?_, by simp, by simp, by
      intro j _ x hx hx0
      rw [e] at hx
      simp only [List.take_nil, List.map_nil, spanL] at hx
      simp at hx
      exact absurd hx hx0⟩, ?_⟩
    · symm
      rw [List.map_nil, List.eq_nil_iff_forall_not_mem]
      intro i hi
      obtain ⟨x, hx, -⟩ := mem_negatives.1 hi
      rw [e] at hx
      simp at hx
    · rw [h2, dim_lines (zero_lines F eps) k hk, if_neg (by omega)]
      rfl

omit [Zero W] in
theorem alive_filter (lines : List (Line W)) (k : Nat) (t : W) :
    alive lines k t = alive (lines.filter (fun l => l.1 = k)) k t := by
  unfold alive
  rw [List.filter_filter]
  congr 1
  apply List.filter_congr
  intro l _
  by_cases h : l.1 = k <;> simp [h]

/-- C54: the Betti curve. In every dimension `1 ≤ k < dim` there are weights (births of
classes that the code leaves unpaired and does not print) such that for every threshold `t` the `k`-th
Betti number of the complex at `t` is the number of printed `k`-dimensional intervals `[b, w)` that
contain `t` plus the number of those weights up to `t`. -/
theorem C54_betti_curve {mode : EndRead} {dim : Nat} {eps : W}
    {edges : List (List (List Nat × W))} (hF : FilteredComplex edges) (hlen : 2 ≤ edges.length)
    (hskip : SkipsNegatives mode dim edges)
    {output : List (Line W)} {T0 : List (BettiEntry W)} {lines : List (Line W)}
    {table : List (BettiEntry W)}
    (hok : fastPersistence mode dim eps edges output T0 = .ok (lines, table)) {k : Nat}
    (hk : 1 ≤ k) (hk2 : k < dim) :
    ∃ unprinted : List W, (∀ w ∈ unprinted, ∃ s, (s, w) ∈ edges.getD k []) ∧
      ∀ t, betti edges k t =
        (lines.filter (fun l => l.1 = k ∧ l.2.1 ≤ t ∧ t < l.2.2)).length +
        (unprinted.filter (fun w => w ≤ t)).length := by
  classical
  obtain ⟨pairs, hP, hl⟩ := fast_pairing hF hlen hskip hok hk hk2
  refine ⟨((List.range (edges.getD k []).length).filter (fun i =>
        i ∉ negatives edges k ∧ i ∉ pairs.map Prod.fst)).filterMap
          (fun i => ((edges.getD k [])[i]?).map Prod.snd), ?_, ?_⟩
  · intro w hw
    rw [List.mem_filterMap] at hw
    obtain ⟨i, -, hi⟩ := hw
    rw [Option.map_eq_some_iff] at hi
    obtain ⟨e, he, rfl⟩ := hi
    exact ⟨e.1, List.mem_of_getElem? he⟩
  · intro t
    have h1 := alive_pairs hF hP t
    rw [← hl, ← alive_filter] at h1
    have h2 : ∀ l : List Nat, (∀ i ∈ l, i < (edges.getD k []).length) →
        countLe edges k t l = ((l.filterMap
          (fun i => ((edges.getD k [])[i]?).map Prod.snd)).filter (fun w => decide (w ≤ t))).length := by
      intro l hl
      unfold countLe
      induction l with
      | nil => rfl
      | cons i l ih =>
        have ih := ih (fun j hj => hl j (by simp [hj]))
        have hi := hl i (by simp)
        have e1 : wLe edges k t i ↔ ((edges.getD k [])[i]).2 ≤ t := by
          unfold wLe
          rw [List.getElem?_eq_getElem hi]
          constructor
          · rintro ⟨e, he, h⟩; cases he; exact h
          · intro h; exact ⟨_, rfl, h⟩
        rw [List.filterMap_cons, List.getElem?_eq_getElem hi]
        dsimp only [Option.map_some]
        rw [List.filter_cons, List.filter_cons]
        by_cases hw : ((edges.getD k [])[i]).2 ≤ t
        · rw [if_pos (by rw [decide_eq_true_eq, e1]; exact hw), if_pos (by simpa using hw),
            List.length_cons, List.length_cons, ih]
        · rw [if_neg (by rw [decide_eq_true_eq, e1]; exact hw), if_neg (by simpa using hw), ih]
    rw [h2 _ (fun i hi => by simpa using (List.mem_filter.1 hi).1)] at h1
    exact h1

/-- C54: if the whole complex has no homology in dimension `k`, the printed intervals give the exact
Betti number at every threshold. -/
theorem C54_betti_curve_exact {mode : EndRead} {dim : Nat} {eps : W}
    {edges : List (List (List Nat × W))} (hF : FilteredComplex edges) (hlen : 2 ≤ edges.length)
    (hskip : SkipsNegatives mode dim edges)
    {output : List (Line W)} {T0 : List (BettiEntry W)} {lines : List (Line W)}
    {table : List (BettiEntry W)}
    (hok : fastPersistence mode dim eps edges output T0 = .ok (lines, table)) {k : Nat}
    (hk : 1 ≤ k) (hk2 : k < dim) {top : W}
    (htop : ∀ e ∈ edges.getD k [], e.2 ≤ top) (h0 : betti edges k top = 0) :
    ∀ t, betti edges k t =
      (lines.filter (fun l => l.1 = k ∧ l.2.1 ≤ t ∧ t < l.2.2)).length := by
  obtain ⟨u, h1, h2⟩ := C54_betti_curve hF hlen hskip hok hk hk2
  have hu : u = [] := by
    have h3 := h2 top
    rw [h0] at h3
    have h4 : (u.filter (fun w => decide (w ≤ top))).length = 0 := by omega
    rw [List.filter_eq_self.2] at h4
    · exact List.length_eq_zero_iff.1 h4
    · intro w hw
      obtain ⟨s, hs⟩ := h1 w hw
      simpa using htop _ hs
  intro t
  rw [h2 t, hu]
  rfl

/-! ### C28 -/

/-- C28 (partial: which birth is matched with which death is not determined): the pairs, of which the
printed lines are those with different weights, have as deaths exactly the negative `(k+1)`-simplices
(as in the standard pairing) and as births different `k`-simplices that are not negative and not
heavier than their partner. -/
theorem C28_standard_deaths_partial {mode : EndRead} {dim : Nat} {eps : W}
    {edges : List (List (List Nat × W))} (hF : FilteredComplex edges) (hlen : 2 ≤ edges.length)
    (hskip : SkipsNegatives mode dim edges)
    {output : List (Line W)} {T0 : List (BettiEntry W)} {lines : List (Line W)}
    {table : List (BettiEntry W)}
    (hok : fastPersistence mode dim eps edges output T0 = .ok (lines, table)) {k : Nat}
    (hk : 1 ≤ k) (hk2 : k < dim) :
    ∃ pairs : List (Nat × Nat),
      (lines.filter (fun l => l.1 = k) = pairs.filterMap (fun pj =>
        match (edges.getD k [])[pj.1]?, (edges.getD (k + 1) [])[pj.2]? with
        | some row, some col => if row.2 ≠ col.2 then some (k, row.2, col.2) else none
        | _, _ => none)) ∧
      (pairs.map Prod.snd).Pairwise (· < ·) ∧
      (∀ j, j ∈ pairs.map Prod.snd ↔ Negative edges (k + 1) j) ∧
      (pairs.map Prod.fst).Nodup ∧
      ∀ pj ∈ pairs, ¬ Negative edges k pj.1 ∧ ∃ row col, (edges.getD k [])[pj.1]? = some row ∧
        (edges.getD (k + 1) [])[pj.2]? = some col ∧ row.2 ≤ col.2 := by
  obtain ⟨pairs, hP, hl⟩ := fast_pairing hF hlen hskip hok hk hk2
  refine ⟨pairs, hl, ?_, ?_, hP.rows_nodup, ?_⟩
  · rw [hP.columns]; exact negatives_inc _ _
  · intro j; rw [hP.columns, mem_negatives]
  · intro pj hpj
    obtain ⟨row, col, h1, h2, h3, h4⟩ := hP.births pj hpj
    exact ⟨fun h => h4 (mem_negatives.2 h), row, col, h1, h2, h3⟩

/-! ### C30 -/

/-- C30 (partial: in dimension 0 the table may lack entries): the table entries that are added are,
as intervals, a sublist of the printed lines, and in the dimensions at least 1 they are all of
them. -/
theorem C30_table_agrees_partial {mode : EndRead} {dim : Nat} {eps : W}
    {edges : List (List (List Nat × W))} (hF : FilteredComplex edges) (hlen : 2 ≤ edges.length)
    {output : List (Line W)} {T0 : List (BettiEntry W)} {lines : List (Line W)}
    {table : List (BettiEntry W)}
    (hok : fastPersistence mode dim eps edges output T0 = .ok (lines, table)) :
    ∃ added, table = T0 ++ added ∧
      (added.map (fun e => (e.dim, e.birth, e.death))).Sublist lines ∧
      (added.map (fun e => ((e.dim, e.birth, e.death) : Line W))).filter (fun l => 1 ≤ l.1) =
        lines.filter (fun l => 1 ≤ l.1) := by
  obtain ⟨F, piv, pr, T, h1, h2, h3, h4, -⟩ := fast_ok hF hlen hok
  obtain ⟨T1, M, a1, a2, a3⟩ := kruskalAll_table (edges.getD 1 []) (Kruskal.init T0)
  have hM : M = F.map Prod.snd := by
    rw [h1.mst] at a2
    simpa [Kruskal.init] using a2.symm
  have e0 : (Kruskal.init T0 : Kruskal W).table = T0 := rfl
  have e1 : ∀ L : List (BettiEntry W), L.map (fun e => ((e.dim, e.birth, e.death) : Line W)) = L.map toLine :=
    fun _ => rfl
  refine ⟨T1 ++ [⟨0, 0, eps, []⟩] ++ T, ?_, ?_, ?_⟩
  · rw [h3, a1, e0]; simp [List.append_assoc]
  · rw [e1, List.map_append, List.map_append, h2, h4]
    refine List.Sublist.append (List.Sublist.append ?_ (List.Sublist.refl _)) (List.Sublist.refl _)
    rw [hM, List.map_map] at a3
    exact a3
  · rw [e1, List.map_append, List.map_append, h2, h4]
    have z1 : (F.map (fun e : List Nat × W => ((0, 0, e.2) : Line W)) ++ [(0, 0, eps)]).filter
        (fun l : Line W => decide (1 ≤ l.1)) = [] := by
      rw [List.filter_eq_nil_iff]
      intro l hl
      rw [zero_lines F eps l hl]; simp
    have z2 : (T1.map toLine ++ [toLine (⟨0, 0, eps, []⟩ : BettiEntry W)]).filter
        (fun l => decide (1 ≤ l.1)) = [] := by
      rw [List.filter_eq_nil_iff]
      intro l hl
      rw [List.mem_append, List.mem_singleton] at hl
      have : l.1 = 0 := by
        rcases hl with hl | rfl
        · have := a3.subset hl
          rw [List.mem_map] at this
          obtain ⟨z, -, rfl⟩ := this
          rfl
        · rfl
      rw [this]; simp
    rw [List.map_singleton]
    have f1 : ∀ A B : List (Line W), A.filter (fun l => decide (1 ≤ l.1)) = [] →
        (A ++ B).filter (fun l => decide (1 ≤ l.1)) = B.filter (fun l => decide (1 ≤ l.1)) := by
      intro A B h
      rw [List.filter_append, h, List.nil_append]
    rw [f1 _ _ z2, f1 _ _ z1]

/-! ### C55 -/

/-- C55 (the property fails): on a complex that has vertices but no edges layer the code reads
`edges[1]` out of range. -/
theorem C55_no_edges_out_of_range (mode : EndRead) (dim : Nat) (eps : W)
    (verts : List (List Nat × W)) (output : List (Line W)) (T0 : List (BettiEntry W)) :
    fastPersistence mode dim eps [verts] output T0 = .error .oob := by
  unfold fastPersistence
  rw [if_neg (by simp)]
  rfl

/-- C55: this is what happens for every nonempty point set without a pair within `epsilon`, in the
array representation. -/
theorem C55_isolated_points_violated {g : Graph W} {n D : Nat} {d : Nat → Nat → W}
    {near : Nat → Nat → Prop} (h : StoresRips g n d near D) (hn : 0 < n)
    (hfar : ∀ i j, i < j → ¬ near i j) (sort : SortBySecond (List Nat) W) (mode : EndRead)
    (dim : Nat) (eps : W) (output : List (Line W)) (T0 : List (BettiEntry W)) :
    fastPersistence mode dim eps (arrayGetAllEdges sort g) output T0 = .error .oob := by
  obtain ⟨hF, hS⟩ := filtered_array h sort
  have hr := rips_nonempty h
  have hlen : (arrayGetAllEdges sort g).length = 1 := by
    rw [hS.length_eq]
    obtain ⟨l, h1, -⟩ := (hr.exact 0 [0] (diam d [0]) (by omega)).2 ⟨rfl,
      ⟨by simp, by simp, by simpa using hn, by simp⟩, rfl⟩
    have hge : 1 ≤ (g.filter (fun l => decide (l ≠ []))).length := by
      have := (List.getElem?_eq_some_iff.1 h1).1; omega
    by_contra hne
    have hlt : 1 < (g.filter (fun l => decide (l ≠ []))).length := by omega
    have hg := List.getElem?_eq_getElem hlt
    have hmem := List.getElem_mem hlt
    have hne' := (List.mem_filter.1 hmem).2
    simp only [decide_eq_true_eq] at hne'
    obtain ⟨e, he⟩ := List.exists_mem_of_ne_nil _ hne'
    have hD := hr.only
    obtain ⟨hl, hs, -⟩ := (hr.exact 1 e.1 e.2 (by omega)).1 ⟨_, hg, he⟩
    obtain ⟨i, j, hij⟩ := List.length_eq_two.1 hl
    rw [hij] at hs
    have hlt' : i < j := by simpa using hs.2.1
    exact hfar i j hlt' (hs.2.2.2 i (by simp) j (by simp) hlt')
  obtain ⟨v, hv⟩ := List.length_eq_one_iff.1 hlen
  rw [hv]
  exact C55_no_edges_out_of_range mode dim eps v output T0

/-- C55: an empty complex is returned as it is. -/
theorem C55_empty_complex (mode : EndRead) (dim : Nat) (eps : W) (output : List (Line W))
    (T0 : List (BettiEntry W)) :
    fastPersistence mode dim eps [] output T0 = .ok (output, T0) := rfl

end
end LHF
