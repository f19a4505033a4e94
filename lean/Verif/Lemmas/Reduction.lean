import Verif.Model.FastPersistence
import Verif.Lemmas.Merge
import Verif.Lemmas.Res
import Verif.Lemmas.Homology

/-! The column reduction of fastPersistence. -/

namespace LHF
open Spec

/-! ### Building a column -/

section
variable {W : Type}

theorem buildColumn_noPivot {col : List Nat} (pivots : List Nat) (hcol : Inc col)
    (rows : List (List Nat × W)) (hrows : ∀ r ∈ rows, Inc r.1) :
    ∀ (idx : Nat) (rest coface : List Nat), Inc rest → (∀ p ∈ rest, idx ≤ p) → Inc coface →
    ∃ c, buildColumn .noPivot pivots col rows idx rest coface = .ok c ∧ Inc c ∧
      ∀ x, x ∈ c ↔ x ∈ coface ∨ ∃ i, ∃ h : i < rows.length, x = idx + i ∧ x ∉ rest ∧
        ∀ v ∈ rows[i].1, v ∈ col := by
  induction rows with
  | nil =>
    intro idx rest coface _ _ hc
    exact ⟨coface, rfl, hc, by simp⟩
  | cons row rows ih =>
    intro idx rest coface hr hge hc
    have hinc : stdIncludes col row.1 = true ↔ ∀ v ∈ row.1, v ∈ col :=
      stdIncludes_iff hcol (hrows row (by simp))
    have ih' := ih (fun r hr => hrows r (by simp [hr]))
    have hsplit : ∀ (P : List Nat × W → Nat → Prop) (x : Nat),
        (∃ i, ∃ h : i < (row :: rows).length, x = idx + i ∧ P (row :: rows)[i] x) ↔
        (x = idx ∧ P row x) ∨ ∃ i, ∃ h : i < rows.length, x = (idx + 1) + i ∧ P rows[i] x := by
      intro P x
      constructor
      · rintro ⟨i, hi, hx, hp⟩
        cases i with
        | zero => exact Or.inl ⟨hx, hp⟩
        | succ i =>
          refine Or.inr ⟨i, ?_, by omega, hp⟩
          simp only [List.length_cons] at hi; omega
      · rintro (⟨rfl, hp⟩ | ⟨i, hi, hx, hp⟩)
        · exact ⟨0, by simp, rfl, hp⟩
        · exact ⟨i + 1, by simp only [List.length_cons]; omega, by omega, hp⟩
    have hsplit' := fun x => hsplit (fun r x => x ∉ rest ∧ ∀ v ∈ r.1, v ∈ col) x
    rw [buildColumn]
    cases rest with
    | nil =>
      simp only [derefPivot, pure_eq_ok, ok_bind, ne_eq, reduceCtorEq, not_false_eq_true, if_true]
      by_cases hi : stdIncludes col row.1 = true
      · rw [if_pos hi]
        obtain ⟨c, h1, h2, h3⟩ := ih' (idx + 1) [] (setInsert idx coface) hr (by simp)
          (inc_setInsert _ hc)
        refine ⟨c, h1, h2, ?_⟩
        intro x
        rw [h3, hsplit', mem_setInsert]
        constructor
        · rintro ((rfl | h) | h)
          · exact Or.inr (Or.inl ⟨rfl, by simp, hinc.1 hi⟩)
          · exact Or.inl h
          · exact Or.inr (Or.inr h)
        · rintro (h | ⟨rfl, -⟩ | h)
          · exact Or.inl (Or.inr h)
          · exact Or.inl (Or.inl rfl)
          · exact Or.inr h
      · rw [if_neg hi]
        obtain ⟨c, h1, h2, h3⟩ := ih' (idx + 1) [] coface hr (by simp) hc
        refine ⟨c, h1, h2, ?_⟩
        intro x
        rw [h3, hsplit']
        constructor
        · rintro (h | h)
          · exact Or.inl h
          · exact Or.inr (Or.inr h)
        · rintro (h | ⟨rfl, -, h⟩ | h)
          · exact Or.inl h
          · exact absurd (hinc.2 h) hi
          · exact Or.inr h
    | cons p rest =>
      have hp1 : idx ≤ p := hge p (by simp)
      have hprest := (List.pairwise_cons.1 hr)
      simp only [derefPivot, pure_eq_ok, ok_bind, ne_eq, Option.some.injEq]
      by_cases hpi : p = idx
      · subst hpi
        simp only [not_true_eq_false, if_false, nextPivot]
        obtain ⟨c, h1, h2, h3⟩ := ih' (p + 1) rest coface hprest.2
          (fun q hq => hprest.1 q hq) hc
        refine ⟨c, h1, h2, ?_⟩
        intro x
        rw [h3, hsplit']
        constructor
        · rintro (h | ⟨i, hi, hx, hx', h⟩)
          · exact Or.inl h
          · refine Or.inr (Or.inr ⟨i, hi, hx, ?_, h⟩)
            rw [List.mem_cons]; rintro (h' | h')
            · omega
            · exact hx' h'
        · rintro (h | ⟨rfl, h, -⟩ | ⟨i, hi, hx, hx', h⟩)
          · exact Or.inl h
          · simp at h
          · exact Or.inr ⟨i, hi, hx, fun hh => hx' (by simp [hh]), h⟩
      · simp only [hpi, not_false_eq_true, if_true]
        have hge' : ∀ q ∈ p :: rest, idx + 1 ≤ q := by
          intro q hq
          rw [List.mem_cons] at hq
          rcases hq with rfl | hq
          · omega
          · have := hprest.1 q hq; omega
        have hidx : idx ∉ p :: rest := fun h => by have := hge' idx h; omega
        by_cases hi : stdIncludes col row.1 = true
        · rw [if_pos hi]
          obtain ⟨c, h1, h2, h3⟩ := ih' (idx + 1) (p :: rest) (setInsert idx coface) hr hge'
            (inc_setInsert _ hc)
          refine ⟨c, h1, h2, ?_⟩
          intro x
          rw [h3, hsplit', mem_setInsert]
          constructor
          · rintro ((rfl | h) | h)
            · exact Or.inr (Or.inl ⟨rfl, hidx, hinc.1 hi⟩)
            · exact Or.inl h
            · exact Or.inr (Or.inr h)
          · rintro (h | ⟨rfl, -⟩ | h)
            · exact Or.inl (Or.inr h)
            · exact Or.inl (Or.inl rfl)
            · exact Or.inr h
        · rw [if_neg hi]
          obtain ⟨c, h1, h2, h3⟩ := ih' (idx + 1) (p :: rest) coface hr hge' hc
          refine ⟨c, h1, h2, ?_⟩
          intro x
          rw [h3, hsplit']
          constructor
          · rintro (h | h)
            · exact Or.inl h
            · exact Or.inr (Or.inr h)
          · rintro (h | ⟨rfl, -, h⟩ | h)
            · exact Or.inl h
            · exact absurd (hinc.2 h) hi
            · exact Or.inr h

/-- With undefined end reads the loop is defined iff no row lies beyond the last pivot, and then it
computes the intended column. -/
theorem buildColumn_undefined (col : List Nat) (pivots : List Nat) (rows : List (List Nat × W)) :
    ∀ (idx : Nat) (rest coface : List Nat), Inc rest → (∀ p ∈ rest, idx ≤ p) →
    ((∀ i, i < rows.length → ∃ p ∈ rest, idx + i ≤ p) →
      buildColumn .undefined pivots col rows idx rest coface =
        buildColumn .noPivot pivots col rows idx rest coface) ∧
    ((∃ i, i < rows.length ∧ ∀ p ∈ rest, p < idx + i) →
      buildColumn .undefined pivots col rows idx rest coface = .error .endDeref) := by
  induction rows with
  | nil => intro idx rest coface _ _; exact ⟨fun _ => rfl, by simp⟩
  | cons row rows ih =>
    intro idx rest coface hr hge
    cases rest with
    | nil =>
      refine ⟨fun h => ?_, fun _ => by rw [buildColumn]; rfl⟩
      obtain ⟨p, hp, -⟩ := h 0 (by simp)
      simp at hp
    | cons p rest =>
      have hprest := (List.pairwise_cons.1 hr)
      have hp1 : idx ≤ p := hge p (by simp)
      rw [buildColumn, buildColumn]
      simp only [derefPivot, pure_eq_ok, ok_bind, ne_eq, Option.some.injEq]
      by_cases hpi : p = idx
      · subst hpi
        simp only [not_true_eq_false, if_false, nextPivot]
        obtain ⟨i1, i2⟩ := ih (p + 1) rest coface hprest.2 (fun q hq => hprest.1 q hq)
        constructor
        · intro h
          apply i1
          intro i hi
          obtain ⟨q, hq, hq'⟩ := h (i + 1) (by simp only [List.length_cons]; omega)
          rw [List.mem_cons] at hq
          rcases hq with rfl | hq
          · omega
          · exact ⟨q, hq, by omega⟩
        · rintro ⟨i, hi, h⟩
          apply i2
          cases i with
          | zero => have := h p (by simp); omega
          | succ i =>
            refine ⟨i, by simp only [List.length_cons] at hi; omega, fun q hq => ?_⟩
            have := h q (by simp [hq]); omega
      · simp only [hpi, not_false_eq_true, if_true]
        have hge' : ∀ q ∈ p :: rest, idx + 1 ≤ q := by
          intro q hq
          rw [List.mem_cons] at hq
          rcases hq with rfl | hq
          · omega
          · have := hprest.1 q hq; omega
        have key : ∀ coface', ((∀ i, i < (row :: rows).length → ∃ q ∈ p :: rest, idx + i ≤ q) →
            buildColumn .undefined pivots col rows (idx + 1) (p :: rest) coface' =
              buildColumn .noPivot pivots col rows (idx + 1) (p :: rest) coface') ∧
            ((∃ i, i < (row :: rows).length ∧ ∀ q ∈ p :: rest, q < idx + i) →
              buildColumn .undefined pivots col rows (idx + 1) (p :: rest) coface' =
                .error .endDeref) := by
          intro coface'
          obtain ⟨i1, i2⟩ := ih (idx + 1) (p :: rest) coface' hr hge'
          constructor
          · intro h
            apply i1
            intro i hi
            obtain ⟨q, hq, hq'⟩ := h (i + 1) (by simp only [List.length_cons]; omega)
            exact ⟨q, hq, by omega⟩
          · rintro ⟨i, hi, h⟩
            apply i2
            cases i with
            | zero => have := h p (by simp); omega
            | succ i =>
              refine ⟨i, by simp only [List.length_cons] at hi; omega, fun q hq => ?_⟩
              have := h q hq; omega
        split_ifs with hi
        · exact key _
        · exact key _

/-- What libstdc++ skips: the cleared rows, and one row more if these are exactly the first ones. -/
def skipped (pivots : List Nat) : List Nat :=
  if pivots = List.range pivots.length then pivots ++ [pivots.length] else pivots

theorem inc_skipped {pivots : List Nat} (h : Inc pivots) : Inc (skipped pivots) := by
  unfold skipped
  split_ifs with e
  · unfold Inc
    rw [List.pairwise_append]
    refine ⟨h, by simp, ?_⟩
    intro a ha b hb
    rw [List.mem_singleton] at hb
    rw [e, List.mem_range] at ha
    omega
  · exact h

theorem inc_length_le {l : List Nat} (h : Inc l) {n : Nat} (hn : ∀ x ∈ l, x < n) :
    l.length ≤ n := by
  have h1 : l.toFinset ⊆ Finset.range n := by
    intro x hx; simp at hx ⊢; exact hn x hx
  have h2 := Finset.card_le_card h1
  rwa [List.toFinset_card_of_nodup h.nodup, Finset.card_range] at h2

theorem inc_eq_range {l : List Nat} (h : Inc l) (hn : ∀ x ∈ l, x < l.length) :
    l = List.range l.length := by
  apply Inc.ext h List.pairwise_lt_range
  intro x
  rw [List.mem_range]
  refine ⟨hn x, ?_⟩
  intro hx
  have h1 : l.toFinset = Finset.range l.length := by
    apply Finset.eq_of_subset_of_card_le
    · intro y hy; simp at hy ⊢; exact hn y hy
    · rw [List.toFinset_card_of_nodup h.nodup, Finset.card_range]
  rw [← List.mem_toFinset, h1]; simpa using hx

/-- After wrapping around, the libstdc++ iterator never matches again. -/
theorem buildColumn_wrapped {pivots : List Nat} (hp : Inc pivots)
    (col : List Nat) (rows : List (List Nat × W)) :
    ∀ (idx : Nat) (coface : List Nat), (∀ p ∈ pivots, p < idx) → pivots.length < idx →
    buildColumn .libstdcxx pivots col rows idx pivots coface =
      buildColumn .noPivot [] col rows idx [] coface := by
  induction rows with
  | nil => intro idx coface _ _; rfl
  | cons row rows ih =>
    intro idx coface h1 h2
    rw [buildColumn, buildColumn]
    have e : ∀ r : Option Nat → Res (List Nat), ((derefPivot .libstdcxx pivots pivots >>= fun p => r p) : Res (List Nat)) =
        r (some (pivots.headD pivots.length)) := by
      intro r
      cases pivots <;> rfl
    rw [e]
    have hne : some (pivots.headD pivots.length) ≠ some idx := by
      rw [ne_eq, Option.some.injEq]
      cases hpv : pivots with
      | nil => rw [hpv] at h2; simp at h2 ⊢; omega
      | cons p ps => have := h1 p (by simp [hpv]); simp; omega
    rw [if_pos hne]
    simp only [derefPivot, pure_eq_ok, ok_bind, ne_eq, reduceCtorEq, not_false_eq_true, if_true]
    have h1' : ∀ p ∈ pivots, p < idx + 1 := fun p hp => by have := h1 p hp; omega
    rw [ih _ _ h1' (by omega), ih _ _ h1' (by omega)]

theorem buildColumn_noPivot_arg (P P' : List Nat) (col : List Nat) (rows : List (List Nat × W)) :
    ∀ (idx : Nat) (rest coface : List Nat),
    buildColumn .noPivot P col rows idx rest coface =
      buildColumn .noPivot P' col rows idx rest coface := by
  induction rows with
  | nil => intros; rfl
  | cons row rows ih =>
    intro idx rest coface
    rw [buildColumn, buildColumn]
    cases rest with
    | nil =>
      simp only [derefPivot, pure_eq_ok, ok_bind, ne_eq, reduceCtorEq, not_false_eq_true, if_true]
      rw [ih, ih]
    | cons p rest =>
      simp only [derefPivot, pure_eq_ok, ok_bind, nextPivot]
      rw [ih, ih, ih]

theorem buildColumn_libstdcxx_aux {pivots : List Nat} (hp : Inc pivots)
    (col : List Nat) (rows : List (List Nat × W)) :
    ∀ (idx : Nat) (done rest coface : List Nat), pivots = done ++ rest → (∀ p ∈ rest, idx ≤ p) →
    (∀ p ∈ done, p < idx) → (rest = [] → idx ≤ pivots.length ∨ pivots ≠ List.range pivots.length) →
    buildColumn .libstdcxx pivots col rows idx rest coface =
      buildColumn .noPivot [] col rows idx
        (rest ++ if pivots = List.range pivots.length then [pivots.length] else []) coface := by
  induction rows with
  | nil => intros; rfl
  | cons row rows ih =>
    intro idx done rest coface hsplit hge hlt hend
    rw [buildColumn, buildColumn]
    cases rest with
    | cons p rest =>
      simp only [derefPivot, pure_eq_ok, ok_bind, List.cons_append, nextPivot, ne_eq,
        Option.some.injEq]
      have hinc : Inc (p :: rest) := by
        rw [hsplit] at hp; exact hp.sublist (List.sublist_append_right _ _)
      have hprest := List.pairwise_cons.1 hinc
      by_cases hpi : p = idx
      · subst hpi
        simp only [not_true_eq_false, if_false]
        refine ih (p + 1) (done ++ [p]) rest coface (by simp [hsplit])
          (fun q hq => hprest.1 q hq) ?_ ?_
        · intro q hq
          rw [List.mem_append, List.mem_singleton] at hq
          rcases hq with hq | rfl
          · have := hlt q hq; omega
          · omega
        · rintro rfl
          by_cases hr : pivots = List.range pivots.length
          · left
            have : p ∈ pivots := by rw [hsplit]; simp
            rw [hr, List.mem_range] at this
            omega
          · exact Or.inr hr
      · simp only [hpi, not_false_eq_true, if_true]
        have hge' : ∀ q ∈ p :: rest, idx + 1 ≤ q := by
          intro q hq
          have h0 := hge p (by simp)
          rw [List.mem_cons] at hq
          rcases hq with rfl | hq
          · omega
          · have := hprest.1 q hq; omega
        have hlt' : ∀ q ∈ done, q < idx + 1 := fun q hq => by have := hlt q hq; omega
        rw [ih (idx + 1) done (p :: rest) _ hsplit hge' hlt' (by simp),
          ih (idx + 1) done (p :: rest) _ hsplit hge' hlt' (by simp)]
        rfl
    | nil =>
      simp only [derefPivot, pure_eq_ok, ok_bind, nextPivot, List.nil_append, ne_eq,
        Option.some.injEq]
      rw [List.append_nil] at hsplit
      subst hsplit
      by_cases hr : pivots = List.range pivots.length
      · rw [if_pos hr]
        have hidx : idx ≤ pivots.length := (hend rfl).resolve_right (fun h => h hr)
        have hge2 : pivots.length ≤ idx := inc_length_le hp hlt
        have he : pivots.length = idx := by omega
        simp only [he, not_true_eq_false, if_false, ok_bind]
        exact buildColumn_wrapped hp col rows (idx + 1) coface
          (fun p h => by have := hlt p h; omega) (by omega)
      · rw [if_neg hr]
        have hne : ¬ pivots.length = idx := by
          intro he
          exact hr (inc_eq_range hp (fun x hx => by have := hlt x hx; omega))
        simp only [hne, not_false_eq_true, if_true, reduceCtorEq, ok_bind]
        have hlt' : ∀ q ∈ pivots, q < idx + 1 := fun q hq => by have := hlt q hq; omega
        have ih1 := fun c => ih (idx + 1) pivots [] c (by simp) (by simp) hlt' (fun _ => Or.inr hr)
        simp only [if_neg hr, List.append_nil] at ih1
        rw [ih1, ih1]

/-- With the libstdc++ end node the loop computes the column with the rows of `skipped` left out. -/
theorem buildColumn_libstdcxx {pivots : List Nat} (hp : Inc pivots)
    (col : List Nat) (rows : List (List Nat × W)) :
    buildColumn .libstdcxx pivots col rows 0 pivots [] =
      buildColumn .noPivot [] col rows 0 (skipped pivots) [] := by
  rw [buildColumn_libstdcxx_aux hp col rows 0 [] pivots [] (by simp) (by simp) (by simp)
    (by intro _; left; omega)]
  unfold skipped
  split_ifs <;> simp

end

/-! ### Reducing a column -/

/-- The vector of a column. -/
def ind (c : List Nat) : Nat → ZMod 2 := fun x => if x ∈ c then 1 else 0

theorem ind_xor {a b : List Nat} (ha : Inc a) (hb : Inc b) :
    ind (setXOR a b) = ind a + ind b := by
  funext x
  unfold ind setXOR
  rw [Pi.add_apply]
  have := mem_stdSymDiff ha hb x
  by_cases h1 : x ∈ a <;> by_cases h2 : x ∈ b <;> simp [h1, h2] at this <;> simp [h1, h2, this]
  decide

/-- The stored columns: increasing, keyed by their smallest entry, all entries allowed. -/
structure VInv (v : List (Nat × List Nat)) (Q : Nat → Prop) : Prop where
  /-- keyed by the smallest entry -/
  head : ∀ e ∈ v, Inc e.2 ∧ e.2.head? = some e.1 ∧ ∀ x ∈ e.2, Q x
  /-- keys are distinct -/
  keys : (v.map Prod.fst).Nodup

/-- The vectors of the stored columns. -/
def vvecs (v : List (Nat × List Nat)) : List (Nat → ZMod 2) := v.map (fun e => ind e.2)

theorem lookupCol_some {v : List (Nat × List Nat)} {p : Nat} {c : List Nat}
    (h : lookupCol v p = some c) : (p, c) ∈ v := by
  unfold lookupCol at h
  rw [Option.map_eq_some_iff] at h
  obtain ⟨⟨q, c'⟩, h1, h2⟩ := h
  have h3 := List.mem_of_find?_eq_some h1
  have h4 := List.find?_some h1
  simp at h4 h2
  subst h4; subst h2; exact h3

theorem lookupCol_none {v : List (Nat × List Nat)} {p : Nat} (h : lookupCol v p = none) :
    p ∉ v.map Prod.fst := by
  unfold lookupCol at h
  rw [Option.map_eq_none_iff, List.find?_eq_none] at h
  intro hp
  rw [List.mem_map] at hp
  obtain ⟨e, he, rfl⟩ := hp
  exact h e he (by simp)

/-- Each pass through the loop removes the smallest entry and adds only larger ones. -/
theorem xor_head {p : Nat} {c d : List Nat} (hc : Inc (p :: c)) (hd : Inc (p :: d)) :
    Inc (setXOR (p :: c) (p :: d)) ∧ ∀ x ∈ setXOR (p :: c) (p :: d), p < x := by
  refine ⟨inc_stdSymDiff hc hd, ?_⟩
  intro x hx
  unfold setXOR at hx
  rw [mem_stdSymDiff hc hd] at hx
  have h1 := (List.pairwise_cons.1 hc).1
  have h2 := (List.pairwise_cons.1 hd).1
  simp only [List.mem_cons] at hx
  rcases hx with ⟨hx | hx, hn⟩ | ⟨hx | hx, hn⟩
  · exact absurd (Or.inl hx) hn
  · exact h1 x hx
  · exact absurd (Or.inl hx) hn
  · exact h2 x hx

theorem reduceCol_spec {v : List (Nat × List Nat)} {Q : Nat → Prop} (hv : VInv v Q) {R : Nat}
    (hR : ∀ x, Q x → x < R) :
    ∀ (fuel : Nat) (c : List Nat), Inc c → (∀ x ∈ c, Q x) → (∀ x ∈ c, R + 1 ≤ x + fuel) →
    1 ≤ fuel →
    ∃ r, reduceCol v fuel c = some r ∧
      (r = .dropped → ind c ∈ spanL (ZMod 2) (vvecs v)) ∧
      (∀ p c', r = .stored p c' → Inc c' ∧ c'.head? = some p ∧ (∀ x ∈ c', Q x) ∧
        p ∉ v.map Prod.fst ∧ ind c' + ind c ∈ spanL (ZMod 2) (vvecs v)) := by
  have h2 : ∀ z : Nat → ZMod 2, z + z = 0 := by
    intro z
    funext t
    have : ∀ z : ZMod 2, z + z = 0 := by decide
    exact this _
  intro fuel
  induction fuel with
  | zero => intro c _ _ _ h; omega
  | succ fuel ih =>
    intro c hc hQ hf _
    cases c with
    | nil =>
      rw [reduceCol]
      refine ⟨.dropped, rfl, fun _ => ?_, by simp⟩
      have : ind [] = 0 := by funext x; simp [ind]
      rw [this]; exact Submodule.zero_mem _
    | cons p c =>
      rw [reduceCol]
      cases hl : lookupCol v p with
      | none =>
        refine ⟨_, rfl, by simp, ?_⟩
        intro p' c' he
        simp only [ColResult.stored.injEq] at he
        obtain ⟨rfl, rfl⟩ := he
        refine ⟨hc, rfl, hQ, lookupCol_none hl, ?_⟩
        rw [h2]; exact Submodule.zero_mem _
      | some e =>
        have hmem := lookupCol_some hl
        obtain ⟨he1, he2, he3⟩ := hv.head _ hmem
        simp only at he1 he2 he3
        cases e with
        | nil => simp at he2
        | cons p' e =>
          simp only [List.head?_cons, Option.some.injEq] at he2
          subst he2
          obtain ⟨hx1, hx2⟩ := xor_head he1 hc
          have hne : ¬ setXOR (p' :: e) (p' :: c) = p' :: c := by
            intro hh
            have := hx2 p' (by rw [hh]; simp)
            omega
          simp only [hne, if_false]
          have hQ' : ∀ x ∈ setXOR (p' :: e) (p' :: c), Q x := by
            intro x hx
            unfold setXOR at hx
            rw [mem_stdSymDiff he1 hc] at hx
            rcases hx with ⟨hx, -⟩ | ⟨hx, -⟩
            · exact he3 x hx
            · exact hQ x hx
          have hpR := hR p' (hQ p' (by simp))
          have hfp := hf p' (by simp)
          obtain ⟨r, h3, h4, h5⟩ := ih _ hx1 hQ'
            (fun x hx => by have := hx2 x hx; omega) (by omega)
          have hev : ind (p' :: e) ∈ spanL (ZMod 2) (vvecs v) :=
            mem_spanL (List.mem_map.2 ⟨_, hmem, rfl⟩)
          have hadd : ind (p' :: c) = ind (setXOR (p' :: e) (p' :: c)) + ind (p' :: e) := by
            rw [ind_xor he1 hc, add_comm (ind (p' :: e)), add_assoc, h2, add_zero]
          refine ⟨r, h3, ?_, ?_⟩
          · intro hr
            rw [hadd]
            exact Submodule.add_mem _ (h4 hr) hev
          · intro q c' hr
            obtain ⟨j1, j2, j3, j4, j5⟩ := h5 q c' hr
            refine ⟨j1, j2, j3, j4, ?_⟩
            rw [hadd, ← add_assoc]
            exact Submodule.add_mem _ j5 hev

/-- Every element of the span of the stored columns is zero or has its smallest non-zero position
among the keys. -/
theorem span_lead {v : List (Nat × List Nat)} {Q : Nat → Prop} (hv : VInv v Q) :
    ∀ x ∈ spanL (ZMod 2) (vvecs v), x ≠ 0 →
      ∃ q ∈ v.map Prod.fst, x q ≠ 0 ∧ ∀ i < q, x i = 0 := by
  intro x hx hx0
  -- write x as a sum
  have hsum : ∀ x ∈ spanL (ZMod 2) (vvecs v), ∃ a : Nat × List Nat → ZMod 2,
      x = ∑ e ∈ v.toFinset, a e • ind e.2 := by
    intro x hx
    unfold spanL at hx
    induction hx using Submodule.span_induction with
    | mem x hx =>
      simp only [vvecs, Set.mem_ofPred_eq, List.mem_map] at hx
      obtain ⟨e, he, rfl⟩ := hx
      refine ⟨fun e' => if e' = e then 1 else 0, ?_⟩
      rw [Finset.sum_eq_single e]
      · simp
      · intro b _ hb; simp [hb]
      · intro hh; exact absurd (List.mem_toFinset.2 he) hh
    | zero => exact ⟨fun _ => 0, by simp⟩
    | add x y _ _ hx hy =>
      obtain ⟨a, rfl⟩ := hx
      obtain ⟨b, rfl⟩ := hy
      exact ⟨fun e => a e + b e, by simp [add_smul, Finset.sum_add_distrib]⟩
    | smul r x _ hx =>
      obtain ⟨a, rfl⟩ := hx
      exact ⟨fun e => r * a e, by rw [Finset.smul_sum]; simp [mul_smul]⟩
  obtain ⟨a, rfl⟩ := hsum x hx
  let S := v.toFinset.filter (fun e => a e ≠ 0)
  have hS : S.Nonempty := by
    by_contra hh
    rw [Finset.not_nonempty_iff_eq_empty, Finset.filter_eq_empty_iff] at hh
    apply hx0
    apply Finset.sum_eq_zero
    intro e he
    have := hh he
    simp only [ne_eq, not_not] at this
    rw [this, zero_smul]
  obtain ⟨e, heS, hmin⟩ := Finset.exists_min_image S (fun e => e.1) hS
  rw [Finset.mem_filter, List.mem_toFinset] at heS
  have hzero : ∀ e' ∈ v.toFinset, ∀ i, i ≤ e.1 → e' ≠ e → (a e' • ind e'.2) i = 0 := by
    intro e' he' i hi hne
    rw [Pi.smul_apply, smul_eq_mul]
    by_cases ha : a e' = 0
    · rw [ha, zero_mul]
    · have h1 : e.1 ≤ e'.1 := hmin e' (Finset.mem_filter.2 ⟨he', ha⟩)
      rw [List.mem_toFinset] at he'
      have h2 : e.1 ≠ e'.1 := by
        intro h2
        apply hne
        exact (List.inj_on_of_nodup_map hv.keys heS.1 he' h2).symm
      obtain ⟨j1, j2, -⟩ := hv.head e' he'
      have : i ∉ e'.2 := by
        intro hm
        cases hc' : e'.2 with
        | nil => rw [hc'] at hm; simp at hm
        | cons q c' =>
          rw [hc'] at j1 j2 hm
          simp only [List.head?_cons, Option.some.injEq] at j2
          rw [List.mem_cons] at hm
          rcases hm with hm | hm
          · omega
          · have := (List.pairwise_cons.1 j1).1 i hm; omega
      unfold ind
      rw [if_neg this, mul_zero]
  obtain ⟨j1, j2, -⟩ := hv.head e heS.1
  refine ⟨e.1, List.mem_map.2 ⟨e, heS.1, rfl⟩, ?_, ?_⟩
  · rw [Finset.sum_apply, Finset.sum_eq_single e]
    · rw [Pi.smul_apply, smul_eq_mul]
      have : ind e.2 e.1 = 1 := by
        unfold ind
        rw [if_pos (List.mem_of_head? j2)]
      rw [this, mul_one]; exact heS.2
    · intro e' he' hne; exact hzero e' he' _ le_rfl hne
    · intro hh; exact absurd (List.mem_toFinset.2 heS.1) hh
  · intro i hi
    rw [Finset.sum_apply]
    apply Finset.sum_eq_zero
    intro e' he'
    by_cases hne : e' = e
    · subst hne
      rw [Pi.smul_apply, smul_eq_mul]
      have : i ∉ e'.2 := by
        intro hm
        cases hc' : e'.2 with
        | nil => rw [hc'] at hm; simp at hm
        | cons q c' =>
          rw [hc'] at j1 j2 hm
          simp only [List.head?_cons, Option.some.injEq] at j2
          rw [List.mem_cons] at hm
          rcases hm with hm | hm
          · omega
          · have := (List.pairwise_cons.1 j1).1 i hm; omega
      unfold ind
      rw [if_neg this, mul_zero]
    · exact hzero e' he' i hi.le hne

/-- The smallest entry of a non-zero combination of stored columns is a key. -/
theorem head_of_span {v : List (Nat × List Nat)} {Q : Nat → Prop} (hv : VInv v Q) {c : List Nat}
    {p : Nat} (hc : Inc c) (hp : c.head? = some p) (h : ind c ∈ spanL (ZMod 2) (vvecs v)) :
    p ∈ v.map Prod.fst := by
  have H := span_lead hv
  cases c with
  | nil => simp at hp
  | cons p' c =>
    simp only [List.head?_cons, Option.some.injEq] at hp
    subst hp
    have hp1 : ind (p' :: c) p' = 1 := by simp [ind]
    obtain ⟨q, hq, hq1, hq2⟩ := H _ h (by
      intro h0; rw [h0] at hp1; exact absurd hp1 (by simp))
    have : q = p' := by
      rcases Nat.lt_trichotomy q p' with h1 | h1 | h1
      · exfalso
        apply hq1
        unfold ind
        rw [if_neg]
        intro hm
        rw [List.mem_cons] at hm
        rcases hm with hm | hm
        · omega
        · have := (List.pairwise_cons.1 hc).1 q hm; omega
      · exact h1
      · have := hq2 p' h1; rw [hp1] at this; exact absurd this (by simp)
    rw [← this]; exact hq

end LHF
