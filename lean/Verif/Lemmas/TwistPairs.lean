import Verif.Model.TwistPairs
import Verif.Lemmas.OptPairs
import Verif.Lemmas.Reduction

/-! The buffered elimination of optPersistencePairs. -/

namespace LHF
open Spec

theorem two_zero (z : Nat → ZMod 2) : z + z = 0 := by
  funext t
  have : ∀ z : ZMod 2, z + z = 0 := by decide
  exact this _

theorem ind_nil : ind [] = 0 := by funext x; simp [ind]

theorem inc_xor {a b : List Nat} (ha : Inc a) (hb : Inc b) : Inc (setXOR a b) := inc_stdSymDiff ha hb

theorem mem_xor {a b : List Nat} (ha : Inc a) (hb : Inc b) {x : Nat} (hx : x ∈ setXOR a b) :
    x ∈ a ∨ x ∈ b := by
  unfold setXOR at hx
  rw [mem_stdSymDiff ha hb] at hx
  rcases hx with ⟨h, -⟩ | ⟨h, -⟩
  · exact Or.inl h
  · exact Or.inr h

/-- A new column is reduced by the stored pivots to one that starts at `i` or later. -/
theorem reduceNew_spec {px : List (List Nat)} {i n : Nat} {S : Submodule (ZMod 2) (Nat → ZMod 2)}
    (hpx : ∀ k < i, ∃ x, px[k]? = some x ∧ Inc x ∧ x.head? = some k ∧ (∀ y ∈ x, y < n) ∧ ind x ∈ S) :
    ∀ (fuel : Nat) (c : List Nat), Inc c → (∀ x ∈ c, x < n) → (∀ x ∈ c, i + 1 ≤ x + fuel) →
    1 ≤ fuel → ∃ c', reduceNew px i fuel c = .ok c' ∧ Inc c' ∧ (∀ x ∈ c', x < n) ∧
      (∀ x ∈ c', i ≤ x) ∧ ind c' + ind c ∈ S := by
  intro fuel
  induction fuel with
  | zero => intro c _ _ _ h; omega
  | succ fuel ih =>
    intro c hc hn hf _
    cases c with
    | nil =>
      refine ⟨[], rfl, hc, by simp, by simp, ?_⟩
      rw [two_zero]
      exact Submodule.zero_mem _
    | cons p c =>
      rw [reduceNew]
      by_cases hp : p < i
      · obtain ⟨x, h1, h2, h3, h4, h5⟩ := hpx p hp
        simp only [if_pos hp]
        rw [vget_ok.2 h1, ok_bind]
        cases x with
        | nil => simp at h3
        | cons q x =>
          simp only [List.head?_cons, Option.some.injEq] at h3
          subst h3
          obtain ⟨g1, g2⟩ := xor_head hc h2
          have hfp := hf q (by simp)
          obtain ⟨c', e1, e2, e3, e4, e5⟩ := ih (setXOR (q :: c) (q :: x)) g1 (by
              intro y hy
              rcases mem_xor hc h2 hy with h | h
              · exact hn y h
              · exact h4 y h)
            (fun y hy => by have := g2 y hy; omega) (by omega)
          refine ⟨c', e1, e2, e3, e4, ?_⟩
          rw [ind_xor hc h2, ← add_assoc] at e5
          have := Submodule.add_mem _ e5 h5
          rwa [add_assoc, two_zero, add_zero] at this
      · simp only [if_neg hp]
        refine ⟨_, rfl, hc, hn, ?_, ?_⟩
        · intro x hx
          rcases List.mem_cons.1 hx with rfl | hx
          · omega
          · have := (List.pairwise_cons.1 hc).1 x hx
            omega
        · rw [two_zero]
          exact Submodule.zero_mem _

/-- The state before row `i`: `ρ j` is what has become of column `j`. -/
structure TwInv (C : List (Nat → ZMod 2)) (n off : Nat) (P : List Nat) (i : Nat) (s : Twist)
    (ρ : Nat → List Nat) : Prop where
  le : s.curCount ≤ C.length
  inc : ∀ j < s.curCount, Inc (ρ j)
  lt : ∀ j < s.curCount, ∀ x ∈ ρ j, x < n
  red : ∀ j < s.curCount, ind (ρ j) + C.getD j 0 ∈ spanL (ZMod 2) (C.take j)
  px : s.pivotXOR.length = n
  later : ∀ k, i ≤ k → k < n → s.pivotXOR[k]? = some []
  buf : ∀ b ∈ s.buffer, b.1 < s.curCount ∧ b.2 = ρ b.1 ∧ ∀ x ∈ b.2, i ≤ x
  bsort : (s.buffer.map Prod.fst).Pairwise (· < ·)
  piv : ∀ k < i, (s.pivotXOR[k]? = some [] ∧ s.curCount = C.length) ∨
    ∃ j < s.curCount, (ρ j).head? = some k ∧ s.pivotXOR[k]? = some (ρ j)
  np : ∀ x ∈ s.nextPivots, ∃ j < s.curCount, x = j + off ∧ ∃ k < i, (ρ j).head? = some k
  cover : ∀ j < s.curCount, ρ j = [] ∨ j ∈ s.buffer.map Prod.fst ∨ j + off ∈ s.nextPivots
  uniq : ∀ j j' k, j < s.curCount → j' < s.curCount → k < i → (ρ j).head? = some k →
    (ρ j').head? = some k → j = j'
  faces : s.curFaces = P.filter (fun f => s.curCount ≤ f)
  npinc : Inc s.nextPivots
  nfinc : Inc s.nextFaces
  nf : ∀ f ∈ s.nextFaces, 0 < f ∧ ∃ y ∈ spanL (ZMod 2) C, TopOrUnit y f

section
variable {C : List (Nat → ZMod 2)} {n off : Nat} {P : List Nat} {i : Nat} {s : Twist}
  {ρ : Nat → List Nat}

theorem take_span_mono {a b : Nat} (h : a ≤ b) :
    spanL (ZMod 2) (C.take a) ≤ spanL (ZMod 2) (C.take b) := by
  apply spanL_mono
  intro y hy
  obtain ⟨j, hj, rfl⟩ := List.mem_take_iff_getElem.1 hy
  exact List.mem_take_iff_getElem.2 ⟨j, by omega, rfl⟩

theorem col_mem {j m : Nat} (h : j < m) (hj : j < C.length) :
    C.getD j 0 ∈ spanL (ZMod 2) (C.take m) := by
  apply mem_spanL
  rw [List.getD_eq_getElem?_getD, List.getElem?_eq_getElem hj]
  exact List.mem_take_iff_getElem.2 ⟨j, by omega, rfl⟩

theorem TwInv.mem (h : TwInv C n off P i s ρ) {j m : Nat} (hj : j < s.curCount) (hm : j < m) :
    ind (ρ j) ∈ spanL (ZMod 2) (C.take m) := by
  have h1 := take_span_mono (le_of_lt hm) (h.red j hj)
  have h2 := col_mem (C := C) hm (lt_of_lt_of_le hj h.le)
  have := Submodule.add_mem _ h1 h2
  rwa [add_assoc, two_zero, add_zero] at this

theorem TwInv.pivots (h : TwInv C n off P i s ρ) {m : Nat} (hlt : s.curCount < C.length)
    (hm : s.curCount ≤ m) : ∀ k < i, ∃ x, s.pivotXOR[k]? = some x ∧ Inc x ∧ x.head? = some k ∧
      (∀ y ∈ x, y < n) ∧ ind x ∈ spanL (ZMod 2) (C.take m) := by
  intro k hk
  rcases h.piv k hk with ⟨-, h1⟩ | ⟨j, hj, h1, h2⟩
  · omega
  · exact ⟨_, h2, h.inc j hj, h1, h.lt j hj, h.mem hj (by omega)⟩

theorem filter_step {P : List Nat} (hP : Inc P) (m : Nat) :
    P.filter (fun f => m ≤ f) = if m ∈ P then m :: P.filter (fun f => m + 1 ≤ f)
      else P.filter (fun f => m + 1 ≤ f) := by
  induction P with
  | nil => simp
  | cons p P ih =>
    have hP' := List.pairwise_cons.1 hP
    have ih := ih hP'.2
    rcases Nat.lt_trichotomy p m with h | h | h
    · have e1 : ¬ m ≤ p := by omega
      have e2 : ¬ m + 1 ≤ p := by omega
      have e3 : m ≠ p := by omega
      simp only [List.filter_cons, e1, e2, decide_false, Bool.false_eq_true, if_false,
        List.mem_cons, e3, false_or]
      exact ih
    · subst h
      have e1 : P.filter (fun f => p ≤ f) = P.filter (fun f => p + 1 ≤ f) := by
        apply List.filter_congr
        intro x hx
        have := hP'.1 x hx
        simp only [decide_eq_decide]
        omega
      simp [e1]
    · have e1 : m ≤ p := by omega
      have e2 : m + 1 ≤ p := by omega
      have e3 : m ∉ p :: P := by
        intro hm
        rcases List.mem_cons.1 hm with h' | h'
        · omega
        · have := hP'.1 m h'
          omega
      have e4 : m ∉ P := fun h => e3 (List.mem_cons_of_mem _ h)
      rw [if_neg e4] at ih
      rw [if_neg e3]
      simp only [List.filter_cons, e1, e2, decide_true, if_true]
      rw [ih]

/-- One more column is taken, which becomes `c`. -/
theorem TwInv.advance (h : TwInv C n off P i s ρ) (hlt : s.curCount < C.length)
    {c : List Nat} (hc : Inc c) (hn : ∀ x ∈ c, x < n) (hi : ∀ x ∈ c, i ≤ x)
    (hr : ind c + C.getD s.curCount 0 ∈ spanL (ZMod 2) (C.take s.curCount))
    {buffer : List (Nat × List Nat)}
    (hb : (buffer = s.buffer ∧ c = []) ∨ buffer = s.buffer ++ [(s.curCount, c)]) :
    TwInv C n off P i { s with buffer := buffer, curCount := s.curCount + 1,
                               curFaces := P.filter (fun f => s.curCount + 1 ≤ f) }
      (fun j => if j = s.curCount then c else ρ j) := by
  have old : ∀ j, j < s.curCount → (if j = s.curCount then c else ρ j) = ρ j := fun j hj =>
    if_neg (by omega)
  have hkey : ∀ k, k < i → c.head? ≠ some k := by
    intro k hk hh
    have := hi k (List.mem_of_head? hh)
    omega
  have both : ∀ {Q : Nat → List Nat → Prop}, (∀ j < s.curCount, Q j (ρ j)) → Q s.curCount c →
      ∀ j < s.curCount + 1, Q j (if j = s.curCount then c else ρ j) := by
    intro Q h1 h2 j hj
    by_cases e : j = s.curCount
    · rw [if_pos e, e]; exact h2
    · rw [if_neg e]; exact h1 j (by omega)
  have hold : ∀ b ∈ s.buffer, b.1 < s.curCount + 1 ∧
      b.2 = (if b.1 = s.curCount then c else ρ b.1) ∧ ∀ x ∈ b.2, i ≤ x := by
    intro b hb'
    obtain ⟨h1, h2, h3⟩ := h.buf b hb'
    exact ⟨by omega, by rw [old _ h1]; exact h2, h3⟩
  refine ⟨hlt, both h.inc hc, both (Q := fun _ r => ∀ x ∈ r, x < n) h.lt hn,
    both (Q := fun j r => ind r + C.getD j 0 ∈ spanL (ZMod 2) (C.take j)) h.red hr, h.px, h.later,
    ?_, ?_, ?_, ?_, ?_, ?_, rfl, h.npinc, h.nfinc, h.nf⟩
  · rcases hb with ⟨rfl, -⟩ | rfl
    · exact hold
    · intro b hb'
      rcases List.mem_append.1 hb' with hb' | hb'
      · exact hold b hb'
      · rw [List.mem_singleton] at hb'
        subst hb'
        exact ⟨Nat.lt_succ_self _, by simp, hi⟩
  · rcases hb with ⟨rfl, -⟩ | rfl
    · exact h.bsort
    · dsimp only
      rw [List.map_append, List.pairwise_append]
      refine ⟨h.bsort, by simp, ?_⟩
      intro a ha b hb'
      obtain ⟨x, hx, rfl⟩ := List.mem_map.1 ha
      simp only [List.map_cons, List.map_nil, List.mem_singleton] at hb'
      subst hb'
      exact (h.buf x hx).1
  · intro k hk
    rcases h.piv k hk with ⟨-, h1⟩ | ⟨j, hj, h1, h2⟩
    · omega
    · refine Or.inr ⟨j, Nat.lt_succ_of_lt hj, ?_, ?_⟩
      · rw [old j hj]; exact h1
      · rw [old j hj]; exact h2
  · intro x hx
    obtain ⟨j, hj, h1, k, hk, h2⟩ := h.np x hx
    refine ⟨j, Nat.lt_succ_of_lt hj, h1, k, hk, ?_⟩
    rw [old j hj]
    exact h2
  · intro j hj
    by_cases e : j = s.curCount
    · rw [if_pos e]
      rcases hb with ⟨-, rfl⟩ | rfl
      · exact Or.inl rfl
      · refine Or.inr (Or.inl ?_)
        rw [e]
        simp
    · rw [if_neg e]
      rcases h.cover j (by have : j < s.curCount + 1 := hj; omega) with h1 | h1 | h1
      · exact Or.inl h1
      · refine Or.inr (Or.inl ?_)
        rcases hb with ⟨rfl, -⟩ | rfl
        · exact h1
        · dsimp only
          rw [List.map_append]
          exact List.mem_append.2 (Or.inl h1)
      · exact Or.inr (Or.inr h1)
  · intro j j' k hj hj' hk h1 h2
    dsimp only at hj hj'
    by_cases e : j = s.curCount
    · rw [if_pos e] at h1
      exact absurd h1 (hkey k hk)
    · by_cases e' : j' = s.curCount
      · rw [if_pos e'] at h2
        exact absurd h2 (hkey k hk)
      · rw [if_neg e] at h1
        rw [if_neg e'] at h2
        exact h.uniq j j' k (by omega) (by omega) hk h1 h2

theorem getElem?_modify_const {α : Type} (l : List α) (i k : Nat) (c : α) (hi : i < l.length) :
    (l.modify i (fun _ => c))[k]? = if k = i then some c else l[k]? := by
  rw [List.getElem?_modify]
  by_cases h : i = k
  · subst h
    rw [if_pos rfl, List.getElem?_eq_getElem hi]
    simp
  · rw [if_neg (fun e => h e.symm)]
    simp [h]

/-- Column `p` becomes the pivot of row `i`, and the other columns start later. -/
theorem TwInv.pivot (h : TwInv C n off P i s ρ) (hi : i < n) {p : Nat} (hp : p < s.curCount)
    (hhead : (ρ p).head? = some i)
    (hothers : ∀ j < s.curCount, j ≠ p → (ρ j).head? ≠ some i)
    {buffer : List (Nat × List Nat)} (hsub : ∀ b ∈ buffer, b.1 < s.curCount ∧ b.2 = ρ b.1 ∧
      ∀ x ∈ b.2, i + 1 ≤ x) (hsort : (buffer.map Prod.fst).Pairwise (· < ·))
    (hcov : ∀ j ∈ s.buffer.map Prod.fst, j = p ∨ j ∈ buffer.map Prod.fst)
    {nf : List Nat} (hnfi : Inc nf) (hnf : ∀ f ∈ nf, 0 < f ∧ ∃ y ∈ spanL (ZMod 2) C, TopOrUnit y f) :
    TwInv C n off P (i + 1) { s with
      buffer := buffer
      pivotXOR := s.pivotXOR.modify i (fun _ => ρ p)
      nextPivots := setInsert (p + off) s.nextPivots
      nextFaces := nf } ρ := by
  have hpx := h.px
  refine ⟨h.le, h.inc, h.lt, h.red, by simp [hpx], ?_, hsub, hsort, ?_, ?_, ?_, ?_, h.faces,
    inc_setInsert _ h.npinc, hnfi, hnf⟩
  · intro k hk hkn
    dsimp only
    rw [getElem?_modify_const _ _ _ _ (by omega), if_neg (by omega)]
    exact h.later k (by omega) hkn
  · intro k hk
    dsimp only
    rw [getElem?_modify_const _ _ _ _ (by omega)]
    by_cases e : k = i
    · subst e
      rw [if_pos rfl]
      exact Or.inr ⟨p, hp, hhead, rfl⟩
    · rw [if_neg e]
      exact h.piv k (by omega)
  · intro x hx
    dsimp only at hx
    rw [mem_setInsert] at hx
    rcases hx with rfl | hx
    · exact ⟨p, hp, rfl, i, by omega, hhead⟩
    · obtain ⟨j, hj, h1, k, hk, h2⟩ := h.np x hx
      exact ⟨j, hj, h1, k, by omega, h2⟩
  · intro j hj
    rcases h.cover j hj with h1 | h1 | h1
    · exact Or.inl h1
    · rcases hcov j h1 with rfl | h2
      · exact Or.inr (Or.inr ((mem_setInsert _ _ _).2 (Or.inl rfl)))
      · exact Or.inr (Or.inl h2)
    · exact Or.inr (Or.inr ((mem_setInsert _ _ _).2 (Or.inr h1)))
  · intro j j' k hj hj' hk h1 h2
    by_cases e : k = i
    · subst e
      have a : j = p := by
        by_contra hne
        exact hothers j hj hne h1
      have b : j' = p := by
        by_contra hne
        exact hothers j' hj' hne h2
      rw [a, b]
    · exact h.uniq j j' k hj hj' (by omega) h1 h2

end

theorem vmodify_const {α : Type} {l : List α} {i : Nat} (h : i < l.length) (c : α) :
    vmodify l i (fun _ => c) = .ok (l.modify i (fun _ => c)) := by
  unfold vmodify
  rw [if_pos h]

theorem bufferScan_none {i : Nat} : ∀ {l : List (Nat × List Nat)}, bufferScan i l = none →
    ∀ b ∈ l, b.2.head? ≠ some i := by
  intro l
  induction l with
  | nil => intro _ b hb; simp at hb
  | cons a l ih =>
    intro h b hb
    rw [bufferScan] at h
    by_cases ha : a.2.head? = some i
    · rw [if_pos ha] at h
      cases h
    · rw [if_neg ha, Option.map_eq_none_iff] at h
      rcases List.mem_cons.1 hb with rfl | hb
      · exact ha
      · exact ih h b hb

theorem bufferScan_some {i : Nat} : ∀ {l : List (Nat × List Nat)} {r}, bufferScan i l = some r →
    ∃ pre post, l = pre ++ r.1 :: post ∧ r.1.2.head? = some i ∧ (∀ t ∈ pre, t.2.head? ≠ some i) ∧
      r.2 = pre ++ post.map (fun t => if t.2.head? = some i then (t.1, setXOR r.1.2 t.2) else t) := by
  intro l
  induction l with
  | nil => intro r h; simp [bufferScan] at h
  | cons a l ih =>
    intro r h
    rw [bufferScan] at h
    by_cases ha : a.2.head? = some i
    · rw [if_pos ha, Option.some.injEq] at h
      subst h
      exact ⟨[], l, rfl, ha, by simp, rfl⟩
    · rw [if_neg ha, Option.map_eq_some_iff] at h
      obtain ⟨r', h1, rfl⟩ := h
      obtain ⟨pre, post, e1, e2, e3, e4⟩ := ih h1
      refine ⟨a :: pre, post, by rw [e1]; rfl, e2, ?_, by dsimp only; rw [e4]; rfl⟩
      intro t ht
      rcases List.mem_cons.1 ht with rfl | ht
      · exact ha
      · exact e3 t ht

section
variable {C : List (Nat → ZMod 2)} {n off : Nat} {P : List Nat} {i : Nat} {s : Twist}
  {ρ : Nat → List Nat}

/-- The columns that start with `i` are in the buffer. -/
theorem TwInv.buffered (h : TwInv C n off P i s ρ) {j : Nat} (hj : j < s.curCount)
    (hh : (ρ j).head? = some i) : (j, ρ j) ∈ s.buffer := by
  rcases h.cover j hj with h1 | h1 | h1
  · rw [h1] at hh; simp at hh
  · obtain ⟨b, hb, rfl⟩ := List.mem_map.1 h1
    rw [← (h.buf b hb).2.1]
    exact hb
  · obtain ⟨j', -, h2, k, hk, h3⟩ := h.np _ h1
    have : j = j' := by omega
    subst this
    rw [hh, Option.some.injEq] at h3
    omega

theorem head_later {i : Nat} {c : List Nat} (hc : Inc c) (hi : ∀ x ∈ c, i ≤ x)
    (hh : c.head? ≠ some i) : ∀ x ∈ c, i + 1 ≤ x := by
  cases c with
  | nil => simp
  | cons p c =>
    have hp := hi p (by simp)
    have : p ≠ i := fun e => hh (by simp [e])
    intro x hx
    rcases List.mem_cons.1 hx with rfl | hx
    · omega
    · have := (List.pairwise_cons.1 hc).1 x hx
      omega

theorem xor_later {i : Nat} {a b : List Nat} (ha : Inc a) (hb : Inc b) (h1 : a.head? = some i)
    (h2 : b.head? = some i) : ∀ x ∈ setXOR a b, i + 1 ≤ x := by
  cases a with
  | nil => simp at h1
  | cons p a =>
    cases b with
    | nil => simp at h2
    | cons q b =>
      simp only [List.head?_cons, Option.some.injEq] at h1 h2
      subst h1 h2
      exact (xor_head ha hb).2

/-- The row whose pivot is in the buffer. -/
theorem TwInv.combine (h : TwInv C n off P i s ρ) (hi : i < n) {r : (Nat × List Nat) × List (Nat × List Nat)}
    (hr : bufferScan i s.buffer = some r) {nf : List Nat} (hnfi : Inc nf)
    (hnf : ∀ f ∈ nf, 0 < f ∧ ∃ y ∈ spanL (ZMod 2) C, TopOrUnit y f) :
    ∃ ρ', TwInv C n off P (i + 1) { s with
      buffer := r.2
      pivotXOR := s.pivotXOR.modify i (fun _ => r.1.2)
      nextPivots := setInsert (r.1.1 + off) s.nextPivots
      nextFaces := nf } ρ' := by
  obtain ⟨pre, post, e1, e2, e3, e4⟩ := bufferScan_some hr
  obtain ⟨⟨p, c⟩, rest⟩ := r
  dsimp only at e1 e2 e4 ⊢
  subst e4
  have hpmem : (p, c) ∈ s.buffer := by rw [e1]; simp
  obtain ⟨hp, hc, hge⟩ := h.buf _ hpmem
  dsimp only at hp hc hge
  have hs := h.bsort
  rw [e1, List.map_append, List.map_cons, List.pairwise_append, List.pairwise_cons] at hs
  obtain ⟨s1, ⟨s2, s3⟩, s4⟩ := hs
  have hpost : ∀ t ∈ post, p < t.1 := fun t ht => s2 t.1 (List.mem_map.2 ⟨t, ht, rfl⟩)
  have hpre : ∀ t ∈ pre, t.1 < p := fun t ht => s4 t.1 (List.mem_map.2 ⟨t, ht, rfl⟩) p (by simp)
  -- the other columns that start with `i` come later
  have hlater : ∀ j < s.curCount, (ρ j).head? = some i → j ≠ p → p < j := by
    intro j hj hh hne
    have hb := h.buffered hj hh
    rw [e1, List.mem_append, List.mem_cons] at hb
    rcases hb with hb | hb | hb
    · exact absurd hh (e3 _ hb)
    · exact absurd (congrArg Prod.fst hb) hne
    · exact hpost _ hb
  let ρ' : Nat → List Nat := fun j =>
    if p < j ∧ (ρ j).head? = some i then setXOR c (ρ j) else ρ j
  have hρp : ρ' p = c := by
    show (if p < p ∧ _ then _ else ρ p) = c
    rw [if_neg (by omega), hc]
  have hci := h.inc p hp
  rw [← hc] at hci
  have hcl := h.lt p hp
  rw [← hc] at hcl
  have hsame : ∀ j, (ρ j).head? ≠ some i → ρ' j = ρ j := fun j hj => if_neg (fun hh => hj hh.2)
  -- heads below `i` do not change
  have hheadlt : ∀ j < s.curCount, ∀ k < i, (ρ' j).head? = some k ↔ (ρ j).head? = some k := by
    intro j hj k hk
    by_cases hh : p < j ∧ (ρ j).head? = some i
    · have e : ρ' j = setXOR c (ρ j) := if_pos hh
      rw [e]
      constructor
      · intro h1
        have := xor_later hci (h.inc j hj) e2 hh.2 k (List.mem_of_head? h1)
        omega
      · intro h1
        rw [hh.2, Option.some.injEq] at h1
        omega
    · have e : ρ' j = ρ j := if_neg hh
      rw [e]
  have hbuf' : ∀ b ∈ pre ++ post.map (fun t => if t.2.head? = some i then (t.1, setXOR c t.2) else t),
      b.1 < s.curCount ∧ b.2 = ρ' b.1 ∧ ∀ x ∈ b.2, i + 1 ≤ x := by
    intro b hb
    rcases List.mem_append.1 hb with hb | hb
    · obtain ⟨g1, g2, g3⟩ := h.buf b (by rw [e1]; simp [hb])
      refine ⟨g1, ?_, head_later (by rw [g2]; exact h.inc _ g1) g3 (e3 b hb)⟩
      rw [hsame _ (by rw [← g2]; exact e3 b hb)]
      exact g2
    · obtain ⟨t, ht, rfl⟩ := List.mem_map.1 hb
      obtain ⟨g1, g2, g3⟩ := h.buf t (by rw [e1]; simp [ht])
      by_cases hh : t.2.head? = some i
      · rw [if_pos hh]
        have e : ρ' t.1 = setXOR c (ρ t.1) := if_pos ⟨hpost t ht, by rw [← g2]; exact hh⟩
        refine ⟨g1, by rw [e, ← g2], ?_⟩
        exact xor_later hci (by rw [g2]; exact h.inc _ g1) e2 hh
      · rw [if_neg hh]
        refine ⟨g1, ?_, head_later (by rw [g2]; exact h.inc _ g1) g3 hh⟩
        rw [hsame _ (by rw [← g2]; exact hh)]
        exact g2
  have hkeys : (pre ++ post.map (fun t => if t.2.head? = some i then (t.1, setXOR c t.2) else t)).map
      Prod.fst = pre.map Prod.fst ++ post.map Prod.fst := by
    rw [List.map_append, List.map_map]
    congr 1
    apply List.map_congr_left
    intro t _
    simp only [Function.comp_apply]
    split_ifs <;> rfl
  refine ⟨ρ', ⟨h.le, ?_, ?_, ?_, by simp [h.px], ?_, hbuf', ?_, ?_, ?_, ?_, ?_, h.faces,
    inc_setInsert _ h.npinc, hnfi, hnf⟩⟩
  · intro j hj
    by_cases hh : p < j ∧ (ρ j).head? = some i
    · rw [show ρ' j = setXOR c (ρ j) from if_pos hh]
      exact inc_xor hci (h.inc j hj)
    · rw [show ρ' j = ρ j from if_neg hh]
      exact h.inc j hj
  · intro j hj
    by_cases hh : p < j ∧ (ρ j).head? = some i
    · rw [show ρ' j = setXOR c (ρ j) from if_pos hh]
      intro x hx
      rcases mem_xor hci (h.inc j hj) hx with h1 | h1
      · exact hcl x h1
      · exact h.lt j hj x h1
    · rw [show ρ' j = ρ j from if_neg hh]
      exact h.lt j hj
  · intro j hj
    by_cases hh : p < j ∧ (ρ j).head? = some i
    · rw [show ρ' j = setXOR c (ρ j) from if_pos hh, ind_xor hci (h.inc j hj), add_assoc]
      refine Submodule.add_mem _ ?_ (h.red j hj)
      rw [hc]
      exact h.mem hp hh.1
    · rw [show ρ' j = ρ j from if_neg hh]
      exact h.red j hj
  · intro k hk hkn
    dsimp only
    rw [getElem?_modify_const _ _ _ _ (by rw [h.px]; exact hi), if_neg (by omega)]
    exact h.later k (by omega) hkn
  · dsimp only
    rw [hkeys, List.pairwise_append]
    refine ⟨s1, s3, ?_⟩
    intro a ha b hb
    exact s4 a ha b (List.mem_cons_of_mem _ hb)
  · intro k hk
    dsimp only
    rw [getElem?_modify_const _ _ _ _ (by rw [h.px]; exact hi)]
    by_cases e : k = i
    · subst e
      rw [if_pos rfl]
      exact Or.inr ⟨p, hp, by rw [hρp]; exact e2, by rw [hρp]⟩
    · rw [if_neg e]
      have hki : k < i := by omega
      rcases h.piv k hki with h1 | ⟨j, hj, h1, h2⟩
      · exact Or.inl h1
      · refine Or.inr ⟨j, hj, (hheadlt j hj k hki).2 h1, ?_⟩
        rw [hsame j (by rw [h1]; intro hh; exact e (Option.some.inj hh))]
        exact h2
  · intro x hx
    dsimp only at hx
    rw [mem_setInsert] at hx
    rcases hx with rfl | hx
    · exact ⟨p, hp, rfl, i, by omega, by rw [hρp]; exact e2⟩
    · obtain ⟨j, hj, h1, k, hk, h2⟩ := h.np x hx
      exact ⟨j, hj, h1, k, by omega, (hheadlt j hj k hk).2 h2⟩
  · intro j hj
    dsimp only
    rw [hkeys]
    rcases h.cover j hj with h1 | h1 | h1
    · refine Or.inl ?_
      rw [hsame j (by rw [h1]; simp)]
      exact h1
    · rw [e1, List.map_append, List.map_cons, List.mem_append, List.mem_cons] at h1
      rcases h1 with h1 | h1 | h1
      · exact Or.inr (Or.inl (List.mem_append.2 (Or.inl h1)))
      · refine Or.inr (Or.inr ((mem_setInsert _ _ _).2 (Or.inl ?_)))
        rw [h1]
      · exact Or.inr (Or.inl (List.mem_append.2 (Or.inr h1)))
    · exact Or.inr (Or.inr ((mem_setInsert _ _ _).2 (Or.inr h1)))
  · intro j j' k hj hj' hk h1 h2
    dsimp only at hj hj'
    by_cases e : k = i
    · subst e
      have only : ∀ j < s.curCount, (ρ' j).head? = some k → j = p := by
        intro j hj h1
        by_contra hne
        by_cases hh : (ρ j).head? = some k
        · have hpj := hlater j hj hh hne
          rw [show ρ' j = setXOR c (ρ j) from if_pos ⟨hpj, hh⟩] at h1
          have := xor_later hci (h.inc j hj) e2 hh k (List.mem_of_head? h1)
          omega
        · rw [hsame j hh] at h1
          exact hh h1
      rw [only j hj h1, only j' hj' h2]
    · have hki : k < i := by omega
      exact h.uniq j j' k hj hj' hki ((hheadlt j hj k hki).1 h1) ((hheadlt j' hj' k hki).1 h2)

/-- The row is finished: no column that has been taken starts with `i`. -/
theorem TwInv.without (h : TwInv C n off P i s ρ) (hi : i < n)
    (hb : ∀ b ∈ s.buffer, b.2.head? ≠ some i) (hall : s.curCount = C.length) :
    TwInv C n off P (i + 1) s ρ := by
  have none : ∀ j < s.curCount, (ρ j).head? ≠ some i := fun j hj hh =>
    hb _ (h.buffered hj hh) hh
  refine ⟨h.le, h.inc, h.lt, h.red, h.px, fun k hk hkn => h.later k (by omega) hkn, ?_, h.bsort, ?_, ?_,
    h.cover, ?_, h.faces, h.npinc, h.nfinc, h.nf⟩
  · intro b hb'
    obtain ⟨g1, g2, g3⟩ := h.buf b hb'
    exact ⟨g1, g2, head_later (by rw [g2]; exact h.inc _ g1) g3 (hb b hb')⟩
  · intro k hk
    by_cases e : k = i
    · subst e
      exact Or.inl ⟨h.later k le_rfl hi, hall⟩
    · exact h.piv k (by omega)
  · intro x hx
    obtain ⟨j, hj, h1, k, hk, h2⟩ := h.np x hx
    exact ⟨j, hj, h1, k, by omega, h2⟩
  · intro j j' k hj hj' hk h1 h2
    by_cases e : k = i
    · subst e
      exact absurd h1 (none j hj)
    · exact h.uniq j j' k hj hj' (by omega) h1 h2

end

section
variable {W : Type} {C : List (Nat → ZMod 2)} {n off : Nat} {P : List Nat} {i : Nat}
  {faces : List Nat → Res (List Nat)} {pChain : List (List Nat × W)}

/-- Taking new columns for row `i`. -/
theorem popChain_spec (hP : Inc P) (hlen : pChain.length = C.length) (hi : i < n)
    (hcol : ∀ j e, pChain[j]? = some e → j ∉ P → ∃ F, faces e.1 = .ok F ∧ F ≠ [] ∧ Inc F ∧
      (∀ x ∈ F, x < n) ∧ ind F = C.getD j 0)
    (hclr : ∀ j ∈ P, j < C.length → C.getD j 0 ∈ spanL (ZMod 2) (C.take j)) :
    ∀ (l : List (List Nat × W)) (s : Twist) (ρ : Nat → List Nat), l = pChain.drop s.curCount →
    TwInv C n off P i s ρ → (∀ b ∈ s.buffer, b.2.head? ≠ some i) →
    ∃ s' ρ', popChain faces off i l s.curCount s = .ok s' ∧ TwInv C n off P (i + 1) s' ρ' := by
  intro l
  induction l with
  | nil =>
    intro s ρ hl h hb
    refine ⟨s, ρ, rfl, h.without hi hb ?_⟩
    have := congrArg List.length hl
    rw [List.length_drop] at this
    have := h.le
    simp at *
    omega
  | cons e l ih =>
    intro s ρ hl h hb
    have hlt : s.curCount < C.length := by
      have := congrArg List.length hl
      rw [List.length_drop] at this
      simp at this
      omega
    have he : pChain[s.curCount]? = some e := by
      have : (pChain.drop s.curCount)[0]? = some e := by rw [← hl]; rfl
      rwa [List.getElem?_drop, Nat.add_zero] at this
    have hl' : l = pChain.drop (s.curCount + 1) := by
      have := congrArg List.tail hl
      rwa [List.tail_cons, List.tail_drop] at this
    have hf := h.faces
    rw [filter_step hP] at hf
    rw [popChain]
    by_cases hc : s.curCount ∈ P
    · rw [if_pos hc] at hf
      rw [if_pos (by rw [hf]; rfl)]
      have hadv := h.advance hlt (c := []) List.Pairwise.nil (by simp) (by simp)
        (by rw [ind_nil, zero_add]; exact hclr _ hc hlt) (Or.inl ⟨rfl, rfl⟩)
      have ht : s.curFaces.tail = P.filter (fun f => s.curCount + 1 ≤ f) := by rw [hf]; rfl
      rw [ht]
      exact ih _ _ hl' hadv hb
    · rw [if_neg hc] at hf
      have hne : s.curFaces.head? ≠ some s.curCount := by
        rw [hf]
        intro hh
        have := List.mem_of_head? hh
        simp at this
      rw [if_neg hne]
      obtain ⟨F, f1, f2, f3, f4, f5⟩ := hcol _ _ he hc
      obtain ⟨c, c1, c2, c3, c4, c5⟩ := reduceNew_spec (h.pivots hlt le_rfl) (i + 1) F f3 f4
        (fun x _ => by omega) (by omega)
      rw [f1, ok_bind]
      simp only [if_neg f2]
      rw [c1, ok_bind]
      rw [f5] at c5
      have hadv := h.advance hlt c2 c3 c4 c5 (Or.inr rfl)
      rw [← hf] at hadv
      by_cases hh : c.head? = some i
      · rw [if_pos hh, vmodify_const (by rw [h.px]; exact hi), ok_bind]
        refine ⟨_, fun j => if j = s.curCount then c else ρ j, rfl, ?_⟩
        have hpv := hadv.pivot (p := s.curCount) hi (Nat.lt_succ_self _) (by simpa using hh) (by
            intro j hj hne hhd
            rw [if_neg hne] at hhd
            have hj' : j < s.curCount := by
              have : j < s.curCount + 1 := hj
              omega
            exact hb _ (h.buffered hj' hhd) hhd) (buffer := s.buffer) (by
            intro b hb'
            obtain ⟨g1, g2, g3⟩ := h.buf b hb'
            refine ⟨Nat.lt_succ_of_lt g1, ?_, head_later (by rw [g2]; exact h.inc _ g1) g3 (hb b hb')⟩
            rw [if_neg (by omega)]
            exact g2) h.bsort (by
            intro j hj
            dsimp only at hj
            rw [List.map_append, List.mem_append] at hj
            rcases hj with hj | hj
            · exact Or.inr hj
            · exact Or.inl (by simpa using hj)) h.nfinc h.nf
        simp only [if_true] at hpv
        exact hpv
      · rw [if_neg hh]
        refine ih _ _ hl' hadv ?_
        intro b hb'
        rcases List.mem_append.1 hb' with hb' | hb'
        · exact hb b hb'
        · rw [List.mem_singleton] at hb'
          subst hb'
          exact hh

/-- One row. -/
theorem twistRow_spec (hP : Inc P) (hlen : pChain.length = C.length) (hi : i < n)
    (hcol : ∀ j e, pChain[j]? = some e → j ∉ P → ∃ F, faces e.1 = .ok F ∧ F ≠ [] ∧ Inc F ∧
      (∀ x ∈ F, x < n) ∧ ind F = C.getD j 0)
    (hclr : ∀ j ∈ P, j < C.length → C.getD j 0 ∈ spanL (ZMod 2) (C.take j))
    {s : Twist} {ρ : Nat → List Nat} (h : TwInv C n off P i s ρ) :
    ∃ s', twistRow faces off pChain s i = .ok s' ∧ ∃ ρ', TwInv C n off P (i + 1) s' ρ' := by
  unfold twistRow
  cases hr : bufferScan i s.buffer with
  | none =>
    obtain ⟨s', ρ', h1, h2⟩ := popChain_spec hP hlen hi hcol hclr _ s ρ rfl h (bufferScan_none hr)
    exact ⟨s', h1, ρ', h2⟩
  | some r =>
    simp only []
    rw [vmodify_const (by rw [h.px]; exact hi), ok_bind]
    obtain ⟨pre, post, e1, e2, -, -⟩ := bufferScan_some hr
    obtain ⟨hp, hc, hge⟩ := h.buf r.1 (by rw [e1]; simp)
    refine ⟨_, rfl, h.combine hi hr ?_ ?_⟩
    · split
      · split_ifs
        · exact inc_setInsert _ h.nfinc
        · exact h.nfinc
      · exact h.nfinc
    · intro f hf
      cases hlast : r.1.2.getLast? with
      | none =>
        rw [hlast] at hf
        exact h.nf f hf
      | some last =>
        rw [hlast] at hf
        simp only [] at hf
        by_cases hl : last ≠ i
        · rw [if_pos hl, mem_setInsert] at hf
          rcases hf with rfl | hf
          · refine ⟨?_, ind r.1.2, ?_, Or.inl ⟨?_, ?_⟩⟩
            · have := hge f (List.mem_of_getLast? hlast)
              omega
            · have := h.mem hp (lt_of_lt_of_le hp h.le)
              rw [List.take_length, ← hc] at this
              exact this
            · unfold ind
              exact if_pos (List.mem_of_getLast? hlast)
            · intro c hlt
              unfold ind
              refine if_neg (fun hm => ?_)
              have hinc := h.inc _ hp
              rw [← hc] at hinc
              obtain ⟨l', hl'⟩ := List.getLast?_eq_some_iff.1 hlast
              rw [hl'] at hm hinc
              rcases List.mem_append.1 hm with hm | hm
              · have := (List.pairwise_append.1 hinc).2.2 c hm f (by simp)
                omega
              · simp at hm
                omega
          · exact h.nf f hf
        · rw [if_neg hl] at hf
          exact h.nf f hf

/-- The combinations of the first columns are combinations of what they have become. -/
theorem TwInv.take_le {s : Twist} {ρ : Nat → List Nat} (h : TwInv C n off P i s ρ) :
    ∀ j ≤ s.curCount, spanL (ZMod 2) (C.take j) ≤
      spanL (ZMod 2) ((List.range j).map (fun j => ind (ρ j))) := by
  intro j
  induction j with
  | zero => intro _; simp [spanL]
  | succ j ih =>
    intro hj
    have ih := ih (by omega)
    have hmono : spanL (ZMod 2) ((List.range j).map (fun j => ind (ρ j))) ≤
        spanL (ZMod 2) ((List.range (j + 1)).map (fun j => ind (ρ j))) := by
      apply spanL_mono
      intro y hy
      obtain ⟨k, hk, rfl⟩ := List.mem_map.1 hy
      exact List.mem_map.2 ⟨k, List.mem_range.2 (by have := List.mem_range.1 hk; omega), rfl⟩
    unfold spanL
    rw [Submodule.span_le]
    intro y hy
    obtain ⟨k, hk, rfl⟩ := List.mem_take_iff_getElem.1 hy
    have hjl := h.le
    by_cases e : k = j
    · subst e
      have h1 := hmono (ih (h.red k hj))
      have h2 : ind (ρ k) ∈ spanL (ZMod 2) ((List.range (k + 1)).map (fun j => ind (ρ j))) :=
        mem_spanL (List.mem_map.2 ⟨k, by simp, rfl⟩)
      have := Submodule.add_mem _ h2 h1
      rw [← add_assoc, two_zero, zero_add, List.getD_eq_getElem?_getD,
        List.getElem?_eq_getElem (by omega)] at this
      exact this
    · apply hmono
      apply ih
      exact mem_spanL (List.mem_take_iff_getElem.2 ⟨k, by omega, rfl⟩)

/-- After the last row the pivots are the independent columns. -/
theorem TwInv.final {s : Twist} {ρ : Nat → List Nat} (h : TwInv C n off P n s ρ)
    (hvec : ∀ j < C.length, ∃ F, Inc F ∧ (∀ x ∈ F, x < n) ∧ ind F = C.getD j 0) :
    ∀ x, x ∈ s.nextPivots ↔ ∃ j ∈ indep (ZMod 2) C, x = j + off := by
  -- a column that has not become zero is independent of the earlier ones
  have hpos : ∀ j < s.curCount, ρ j ≠ [] → j ∈ indep (ZMod 2) C := by
    intro j hj hne
    rw [mem_indep]
    refine ⟨lt_of_lt_of_le hj h.le, ?_⟩
    intro hmem
    have h1 : ind (ρ j) ∈ spanL (ZMod 2) (C.take j) := by
      have := Submodule.add_mem _ (h.red j hj) hmem
      rwa [add_assoc, two_zero, add_zero] at this
    have h2 := h.take_le j (by omega) h1
    let v : List (Nat × List Nat) := ((List.range j).filter (fun t => ρ t ≠ [])).map
      (fun t => ((ρ t).headD 0, ρ t))
    have hv : VInv v (fun x => x < n) := by
      constructor
      · intro e he
        obtain ⟨t, ht, rfl⟩ := List.mem_map.1 he
        rw [List.mem_filter, List.mem_range] at ht
        have htn : ρ t ≠ [] := by simpa using ht.2
        refine ⟨h.inc t (by omega), ?_, h.lt t (by omega)⟩
        cases hρ : ρ t with
        | nil => exact absurd hρ htn
        | cons a l => rfl
      · show (List.map Prod.fst (List.map _ _)).Nodup
        rw [List.map_map]
        apply List.Nodup.map_on
        · intro a ha b hb hab
          rw [List.mem_filter, List.mem_range] at ha hb
          have han : ρ a ≠ [] := by simpa using ha.2
          have hbn : ρ b ≠ [] := by simpa using hb.2
          simp only [Function.comp_apply] at hab
          obtain ⟨p, la, hpa⟩ := List.exists_cons_of_ne_nil han
          obtain ⟨q, lb, hqb⟩ := List.exists_cons_of_ne_nil hbn
          rw [hpa, hqb] at hab
          simp only [List.headD_cons] at hab
          subst hab
          exact h.uniq a b p (by omega) (by omega) (h.lt a (by omega) p (by rw [hpa]; simp))
            (by rw [hpa]; rfl) (by rw [hqb]; rfl)
        · exact List.nodup_range.filter _
    have h3 : ind (ρ j) ∈ spanL (ZMod 2) (vvecs v) := by
      refine Submodule.span_le.2 ?_ h2
      intro y hy
      obtain ⟨t, ht, rfl⟩ := List.mem_map.1 hy
      by_cases hz : ρ t = []
      · rw [hz, ind_nil]
        exact Submodule.zero_mem _
      · apply mem_spanL
        refine List.mem_map.2 ⟨((ρ t).headD 0, ρ t), List.mem_map.2 ⟨t, ?_, rfl⟩, rfl⟩
        rw [List.mem_filter]
        exact ⟨ht, by simpa using hz⟩
    obtain ⟨p, l, hpl⟩ := List.exists_cons_of_ne_nil hne
    have h4 := head_of_span hv (h.inc j hj) (by rw [hpl]; rfl : (ρ j).head? = some p) h3
    obtain ⟨e, he, hep⟩ := List.mem_map.1 h4
    obtain ⟨t, ht, rfl⟩ := List.mem_map.1 he
    rw [List.mem_filter, List.mem_range] at ht
    have htn : ρ t ≠ [] := by simpa using ht.2
    obtain ⟨q, lq, hq⟩ := List.exists_cons_of_ne_nil htn
    dsimp only at hep
    rw [hq, List.headD_cons] at hep
    subst hep
    have := h.uniq j t q hj (by omega) (h.lt j hj q (by rw [hpl]; simp)) (by rw [hpl]; rfl)
      (by rw [hq]; rfl)
    omega
  intro x
  constructor
  · intro hx
    obtain ⟨j, hj, h1, k, -, h2⟩ := h.np x hx
    exact ⟨j, hpos j hj (by intro e; rw [e] at h2; simp at h2), h1⟩
  · rintro ⟨j, hj, rfl⟩
    have hj' := mem_indep.1 hj
    by_cases hcc : j < s.curCount
    · rcases h.cover j hcc with h1 | h1 | h1
      · have := h.red j hcc
        rw [h1, ind_nil, zero_add] at this
        exact absurd this hj'.2
      · obtain ⟨b, hb, rfl⟩ := List.mem_map.1 h1
        obtain ⟨g1, g2, g3⟩ := h.buf b hb
        have hz : ρ b.1 = [] := by
          rw [List.eq_nil_iff_forall_not_mem]
          intro y hy
          have a1 := h.lt _ g1 y hy
          rw [← g2] at hy
          have a2 := g3 y hy
          omega
        have := h.red _ hcc
        rw [hz, ind_nil, zero_add] at this
        exact absurd this hj'.2
      · exact h1
    · obtain ⟨F, f1, f2, f3⟩ := hvec j hj'.1
      obtain ⟨c, -, c2, c3, c4, c5⟩ := reduceNew_spec
        (h.pivots (lt_of_le_of_lt (not_lt.1 hcc) hj'.1) (not_lt.1 hcc)) (n + 1) F f1 f2
        (fun y _ => by omega) (by omega)
      have hz : c = [] := by
        rw [List.eq_nil_iff_forall_not_mem]
        intro y hy
        have a1 := c3 y hy
        have a2 := c4 y hy
        omega
      rw [hz, ind_nil, zero_add, f3] at c5
      exact absurd c5 hj'.2

/-- One dimension. -/
theorem twistDim_spec {rows : List (List Nat × W)} (hP : Inc P) (hlen : pChain.length = C.length)
    (hcol : ∀ j e, pChain[j]? = some e → j ∉ P → ∃ F, faces e.1 = .ok F ∧ F ≠ [] ∧ Inc F ∧
      (∀ x ∈ F, x < rows.length) ∧ ind F = C.getD j 0)
    (hvec : ∀ j < C.length, ∃ F, Inc F ∧ (∀ x ∈ F, x < rows.length) ∧ ind F = C.getD j 0)
    (hclr : ∀ j ∈ P, j < C.length → C.getD j 0 ∈ spanL (ZMod 2) (C.take j)) :
    ∃ s, (List.range rows.length).foldlM (twistRow faces off pChain)
        ⟨[], rows.map (fun _ => []), 0, P, [], []⟩ = .ok s ∧ Inc s.nextPivots ∧ Inc s.nextFaces ∧
      (∀ x, x ∈ s.nextPivots ↔ ∃ j ∈ indep (ZMod 2) C, x = j + off) ∧
      ∀ f ∈ s.nextFaces, 0 < f ∧ ∃ y ∈ spanL (ZMod 2) C, TopOrUnit y f := by
  obtain ⟨s, h1, ρ, h2⟩ := foldlM_range_total (twistRow faces off pChain)
    (fun i s => ∃ ρ, TwInv C rows.length off P i s ρ) rows.length
    ⟨[], rows.map (fun _ => []), 0, P, [], []⟩ ⟨fun _ => [],
      ⟨Nat.zero_le _, by intro j hj; exact absurd hj (Nat.not_lt_zero _),
       by intro j hj; exact absurd hj (Nat.not_lt_zero _),
       by intro j hj; exact absurd hj (Nat.not_lt_zero _), by simp,
       by
        intro k _ hk
        dsimp only
        rw [List.getElem?_map, List.getElem?_eq_getElem hk]
        rfl,
       by intro b hb; simp at hb, List.Pairwise.nil, by intro k hk; omega,
       by intro x hx; simp at hx, by intro j hj; exact absurd hj (Nat.not_lt_zero _),
       by intro j j' k hj; exact absurd hj (Nat.not_lt_zero _), by simp,
       List.Pairwise.nil, List.Pairwise.nil, by intro f hf; simp at hf⟩⟩
    (by
      rintro i s hi ⟨ρ, h⟩
      exact twistRow_spec hP hlen hi hcol hclr h)
  exact ⟨s, h1, h2.npinc, h2.nfinc, h2.final hvec, h2.nf⟩

end

end LHF
