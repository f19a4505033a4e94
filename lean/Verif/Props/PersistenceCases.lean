import Verif.Props.Persistence
import Verif.Lemmas.FilteredCheck

/-! Concrete complexes for C25–C30 and C54: they meet the hypotheses of the theorems and refute the
parts of the properties that do not hold. -/

namespace LHF
open Spec

/-- Five vertices; the cycle 0-1-2-3 at weight 3, and two triangles at weight 5 that fill another
cycle, 1-2-3-4, which appears at weight 4. -/
def house : List (List (List Nat × Int)) :=
  [[([0], 0), ([1], 0), ([2], 0), ([3], 0), ([4], 0)],
   [([0, 1], 3), ([0, 3], 3), ([1, 2], 3), ([2, 3], 3), ([3, 4], 3), ([1, 4], 4), ([2, 4], 5)],
   [([1, 2, 4], 5), ([2, 3, 4], 5)]]

theorem house_filtered : FilteredComplex house := filtered_of_check (by decide)

/-- The square: four sides of weight 5, two diagonals of weight 7, four triangles. -/
def square : List (List (List Nat × Int)) :=
  [[([0], 0), ([1], 0), ([2], 0), ([3], 0)],
   [([0, 1], 5), ([0, 3], 5), ([1, 2], 5), ([2, 3], 5), ([0, 2], 7), ([1, 3], 7)],
   [([0, 1, 2], 7), ([0, 1, 3], 7), ([0, 2, 3], 7), ([1, 2, 3], 7)]]

theorem square_filtered : FilteredComplex square := filtered_of_check (by decide)

/-- Over a threshold at which no cycle of `s` becomes a boundary, the persistent Betti number does not
change. -/
theorem persistentBetti_eq {W : Type} [LinearOrder W] {edges : List (List (List Nat × W))} {k : Nat}
    {s t u : W} (h1 : cycles edges k s ⊓ boundaries edges k t = ⊥)
    (h2 : cycles edges k s ⊓ boundaries edges k u = ⊥) :
    persistentBetti edges k s t = persistentBetti edges k s u := by
  have key : ∀ v, cycles edges k s ⊓ boundaries edges k v = ⊥ →
      persistentBetti edges k s v = Module.finrank (ZMod 2) (cycles edges k s) := by
    intro v hv
    unfold persistentBetti
    apply LinearEquiv.finrank_eq
    refine (LinearEquiv.ofBijective
      (((boundaries edges k v).mkQ.domRestrict (cycles edges k s)).codRestrict
        ((cycles edges k s).map (boundaries edges k v).mkQ)
        (fun x => ⟨x.1, x.2, rfl⟩)) ⟨?_, ?_⟩).symm
    · rintro ⟨x, hx⟩ ⟨y, hy⟩ hxy
      have h3 := congrArg Subtype.val hxy
      have h4 : (boundaries edges k v).mkQ x = (boundaries edges k v).mkQ y := h3
      rw [Submodule.mkQ_apply, Submodule.mkQ_apply, Submodule.Quotient.eq] at h4
      have : x - y ∈ cycles edges k s ⊓ boundaries edges k v :=
        ⟨Submodule.sub_mem _ hx hy, h4⟩
      rw [hv, Submodule.mem_bot, sub_eq_zero] at this
      exact Subtype.ext this
    · rintro ⟨y, x, hx, rfl⟩
      exact ⟨⟨x, hx⟩, rfl⟩
  rw [key t h1, key u h2]

theorem chains_support {names : List (List Nat)} {x : Chain} (hx : x ∈ chains names) {s : List Nat}
    (hs : s ∉ names) : x s = 0 := by
  unfold chains at hx
  induction hx using Submodule.span_induction with
  | mem x h =>
    obtain ⟨s', h1, rfl⟩ := h
    rw [Finsupp.single_apply, if_neg]
    rintro rfl; exact hs h1
  | zero => rfl
  | add x y _ _ h1 h2 => rw [Finsupp.add_apply, h1, h2, add_zero]
  | smul a x _ h => rw [Finsupp.smul_apply, h, smul_zero]

theorem house_bot {t : Int} : cycles house 1 3 ⊓ boundaries house 1 t = ⊥ := by
  rw [eq_bot_iff]
  rintro z ⟨⟨hz, -⟩, hb⟩
  rw [Submodule.mem_bot]
  have hsub : boundaries house 1 t ≤ Submodule.span (ZMod 2)
      {boundaryOf [1, 2, 4], boundaryOf [2, 3, 4]} := by
    unfold boundaries chains
    rw [Submodule.map_span]
    apply Submodule.span_mono
    rintro x ⟨y, ⟨s, hs, rfl⟩, rfl⟩
    have : s = [1, 2, 4] ∨ s = [2, 3, 4] := by
      unfold sublevel at hs
      rw [List.mem_map] at hs
      obtain ⟨e, he, rfl⟩ := hs
      have he := (List.mem_filter.1 he).1
      change e ∈ [([1, 2, 4], (5 : Int)), ([2, 3, 4], 5)] at he
      rw [List.mem_cons, List.mem_singleton] at he
      rcases he with rfl | rfl <;> simp
    have e : ∀ s, boundary (Finsupp.single s 1) = boundaryOf s := by
      intro s; simp [boundary]
    rw [e]
    rcases this with rfl | rfl <;> simp
  have hb := hsub hb
  rw [Submodule.mem_span_pair] at hb
  obtain ⟨a, b, rfl⟩ := hb
  have n1 : ([1, 4] : List Nat) ∉ sublevel house 1 3 := by decide
  have n2 : ([2, 4] : List Nat) ∉ sublevel house 1 3 := by decide
  have z1 := chains_support hz n1
  have z2 := chains_support hz n2
  simp only [Finsupp.add_apply, Finsupp.smul_apply, smul_eq_mul, boundaryOf, List.length_cons,
    List.length_nil, Finset.sum_range_succ, Finset.sum_range_zero, List.eraseIdx_zero,
    List.eraseIdx_cons_succ, List.tail_cons, zero_add, Finsupp.single_apply] at z1 z2
  simp at z1 z2
  subst z1
  simp at z2
  subst z2
  simp

/-- C28 does not hold: on `house` the code prints the interval from 3 to 5 in dimension 1, although
every homology class that is present at 3 is still present at 5. (The standard pairing has the single
interval from 4 to 5.) -/
theorem C28_violated (mode : EndRead) (hm : mode ≠ .undefined) :
    ∃ lines table, fastPersistence mode 2 (9 : Int) house [] [] = .ok (lines, table) ∧
      lines.filter (fun l => l.1 = 1) = [(1, 4, 5), (1, 3, 5)] ∧
      persistentBetti house 1 3 5 = betti house 1 3 := by
  cases mode with
  | undefined => exact absurd rfl hm
  | noPivot =>
    exact ⟨_, _, rfl, by decide, persistentBetti_eq house_bot house_bot⟩
  | libstdcxx =>
    exact ⟨_, _, rfl, by decide, persistentBetti_eq house_bot house_bot⟩

/-- C28: with libstdc++ the square loses its one-dimensional hole: no line of dimension 1 is printed,
although the complex has a hole at weight 5; the intended reading prints it. -/
theorem C28_square_violated :
    (∃ lines table, fastPersistence .libstdcxx 2 (9 : Int) square [] [] = .ok (lines, table) ∧
      lines.filter (fun l => l.1 = 1) = []) ∧
    (∃ lines table, fastPersistence .noPivot 2 (9 : Int) square [] [] = .ok (lines, table) ∧
      lines.filter (fun l => l.1 = 1) = [(1, 5, 7)]) ∧
    1 ≤ betti square 1 5 := by
  refine ⟨⟨_, _, rfl, by decide⟩, ⟨_, _, rfl, by decide⟩, ?_⟩
  obtain ⟨u, -, h⟩ := C54_betti_curve (mode := .noPivot) (dim := 2) (eps := (9 : Int))
    square_filtered (by decide) (fun h => by cases h) (output := []) (T0 := []) rfl (k := 1)
    (by decide) (by decide)
  rw [h 5]
  exact Nat.le_trans (by decide) (Nat.le_add_right _ _)

/-- C29 does not hold: on the square the end of the pivot list is dereferenced. -/
theorem C29_violated :
    fastPersistence .undefined 2 (9 : Int) square [] [] = .error .endDeref := rfl

/-- A path of two edges: the last edge is negative and there are no triangles, so nothing is
dereferenced. -/
example : ∃ r, fastPersistence .undefined 2 (9 : Int)
    [[([0], 0), ([1], 0), ([2], 0)], [([0, 1], 1), ([1, 2], 2)], []] [] [] = .ok r := ⟨_, rfl⟩

/-- C30 does not hold in dimension 0: for two points and one edge the lines hold the death of a
component that the table does not have. -/
theorem C30_violated : ∃ lines table, fastPersistence .noPivot 1 (9 : Int)
      [[([0], 0), ([1], 0)], [([0, 1], 1)]] [] [] = .ok (lines, table) ∧
    (0, 0, 1) ∈ lines ∧ (0, 0, 1) ∉ table.map (fun e => (e.dim, e.birth, e.death)) :=
  ⟨_, _, rfl, by decide, by decide⟩

/-- C26, C27, C30: `house` and `square` meet the hypotheses. -/
example : ∃ (lines : List (Line Int)) (pairs : List (Nat × Nat)), (1, 4, 5) ∈ lines ∧
    (pairs.map Prod.fst).Nodup ∧ (pairs.map Prod.snd).Nodup := by
  have h : ∃ lines table, fastPersistence .noPivot 2 (9 : Int) house [] [] = .ok (lines, table) ∧
      (1, 4, 5) ∈ lines := ⟨_, _, rfl, by decide⟩
  obtain ⟨lines, table, h, hm⟩ := h
  obtain ⟨pairs, -, h1⟩ := C26_intervals_well_formed house_filtered (by decide) h 1 (by decide)
  exact ⟨lines, pairs, hm, h1⟩

example : Module.finrank (ZMod 2) (Submodule.span (ZMod 2)
      {x | x ∈ (square.getD 2 []).map (fun c =>
        restrictedColumn (square.getD 1 []) (cleared .noPivot [0, 1, 2]) c.1)}) = 3 := by
  have h : ∃ r : Reduction Int, reduceDim .noPivot 1 [0, 1, 2] (square.getD 1 []) (square.getD 2 [])
      [] [] = .ok r ∧ r.nextPivots.length = 3 := ⟨_, rfl, by decide⟩
  obtain ⟨r, h, h3⟩ := h
  rw [← h3]
  exact (C27_pairs_are_rank (d := 1) (rows := square.getD 1 []) (cols := square.getD 2 [])
    square_filtered rfl rfl (by decide) h).1.symm

end LHF
