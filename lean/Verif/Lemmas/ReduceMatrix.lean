import Verif.Lemmas.Elimination
import Verif.Lemmas.Reduction
import Mathlib.LinearAlgebra.Dimension.Constructions
import Mathlib.LinearAlgebra.FiniteDimensional.Lemmas

/-! reduceBoundaryMatrix of boundaryPipe and the set variant of getRankNull. -/

namespace LHF
open Spec

section Abstract
variable {K V : Type} [Field K] [AddCommGroup V] [Module K V]

theorem finrank_clear {φ : V →ₗ[K] K} {x : V} {pre post : List V} (hpre : ∀ y ∈ pre, φ y = 0)
    (hx : φ x = 1) : Module.finrank K (spanL K (pre ++ x :: post)) =
      Module.finrank K (spanL K (pre ++ post.map (clearWith φ x))) + 1 := by
  have hker : ∀ y ∈ pre ++ post.map (clearWith φ x), φ y = 0 := by
    intro y hy
    rw [List.mem_append, List.mem_map] at hy
    rcases hy with hy | ⟨y, -, rfl⟩
    · exact hpre y hy
    · exact clearWith_ker hx y
  have hx0 : x ≠ 0 := by rintro rfl; simp at hx
  have hinf : spanL K (pre ++ post.map (clearWith φ x)) ⊓ Submodule.span K {x} = ⊥ := by
    rw [eq_bot_iff]
    rintro z ⟨h1, h2⟩
    obtain ⟨a, rfl⟩ := Submodule.mem_span_singleton.1 h2
    have := ker_spanL hker _ h1
    rw [map_smul, hx, smul_eq_mul, mul_one] at this
    rw [this, zero_smul]; exact Submodule.zero_mem _
  have h := Submodule.finrank_sup_add_finrank_inf_eq (spanL K (pre ++ post.map (clearWith φ x)))
    (Submodule.span K {x})
  rw [hinf, finrank_bot, add_zero, finrank_span_singleton hx0] at h
  rw [spanL_clear (φ := φ), h]

theorem finrank_zero {l : List V} (h : ∀ y ∈ l, y = 0) : Module.finrank K (spanL K l) = 0 := by
  rw [← indep_length, indep_zero h]; rfl

end Abstract

theorem reduceColumn_spec {n i : Nat} (hi : i < n) : ∀ (m : List (List Nat)), Binary m n →
    ∃ m' p, reduceColumn i m = .ok (m', p) ∧ Binary m' n ∧
      ((p = none ∧ m' = m ∧ ∀ y ∈ m.map rowVec, coord i y = 0) ∨
       ∃ pre row post, p = some row ∧ m = pre ++ row :: post ∧
        (∀ y ∈ pre.map rowVec, coord i y = 0) ∧ coord i (rowVec row) = 1 ∧
        m'.map rowVec = pre.map rowVec ++
          (post.map rowVec).map (clearWith (coord i) (rowVec row))) := by
  intro m
  induction m with
  | nil =>
    intro _
    exact ⟨[], none, rfl, by intro r hr; simp at hr, Or.inl ⟨rfl, rfl, by simp⟩⟩
  | cons row rest ih =>
    intro hm
    obtain ⟨hl, hrb⟩ := hm row (by simp)
    obtain ⟨x, hx, hcase⟩ := rowVec_apply (i := i) (by omega) hrb
    rcases hcase with ⟨rfl, hv⟩ | ⟨hne, hv⟩
    · obtain ⟨m', h1, h2, h3⟩ := clearRows_spec hi hl hrb rest (fun r hr => hm r (by simp [hr]))
      refine ⟨m', some row, ?_, h2, Or.inr ⟨[], row, rest, by simp, rfl, by simp, hv, ?_⟩⟩
      · rw [reduceColumn, hx, hl]
        simp only [bind, Except.bind, if_true, h1]
        rfl
      · rw [h3]; rfl
    · obtain ⟨m', p, h1, h2, h3⟩ := ih (fun r hr => hm r (by simp [hr]))
      refine ⟨row :: m', p, ?_, ?_, ?_⟩
      · rw [reduceColumn, hx]
        simp only [bind, Except.bind, if_neg hne, h1]
        rfl
      · intro r hr
        rw [List.mem_cons] at hr
        rcases hr with rfl | hr
        · exact ⟨hl, hrb⟩
        · exact h2 r hr
      · rcases h3 with ⟨a1, a2, a3⟩ | ⟨pre, row', post, a1, a2, a3, a4, a5⟩
        · refine Or.inl ⟨a1, by rw [a2], ?_⟩
          intro y hy
          rw [List.map_cons, List.mem_cons] at hy
          rcases hy with rfl | hy
          · exact hv
          · exact a3 y hy
        · refine Or.inr ⟨row :: pre, row', post, a1, by rw [a2]; rfl, ?_, a4, ?_⟩
          · intro y hy
            rw [List.map_cons, List.mem_cons] at hy
            rcases hy with rfl | hy
            · exact hv
            · exact a3 y hy
          · rw [List.map_cons, a5]; rfl

theorem forM_ok {α : Type} {l : List α} {f : α → Res Unit} (h : ∀ a ∈ l, f a = .ok ()) :
    l.forM f = .ok () := by
  induction l with
  | nil => rfl
  | cons a l ih =>
    rw [List.forM, h a (by simp)]
    exact ih (fun b hb => h b (by simp [hb]))

theorem checkCopies_ok {n i : Nat} {ret : List (List Nat)} {row : List Nat} (hi : i < n)
    (hret : Binary ret n) (hrow : row.length = n) (hlen : ret.length ≤ n) :
    checkCopies i ret row = .ok () := by
  unfold checkCopies
  apply forM_ok
  intro a ha
  have h1 := (hret a ha).1
  rw [vget_of_lt (show i < a.length by omega)]
  simp only [bind, Except.bind]
  split_ifs
  · apply forM_ok
    intro d hd
    rw [List.mem_range] at hd
    rw [vget_of_lt (show d < a.length by omega), vget_of_lt (show d < row.length by omega)]
    rfl
  · rfl

/-- The loop over the columns. -/
theorem reduceLoop_spec {m0 : List (List Nat)} {n : Nat} : ∀ (fuel i : Nat)
    (m ret : List (List Nat)) (rank : Nat), i + fuel = n + 1 → 0 < fuel → Binary m n → Binary ret n →
    (∀ c < i, ∀ y ∈ m.map rowVec, y c = 0) → rank = ret.length → ret.length ≤ i →
    ret.length + m.length = m0.length →
    Module.finrank (ZMod 2) (spanL (ZMod 2) (m0.map rowVec)) =
      rank + Module.finrank (ZMod 2) (spanL (ZMod 2) (m.map rowVec)) →
    spanL (ZMod 2) (m0.map rowVec) = spanL (ZMod 2) ((ret ++ m).map rowVec) →
    (Module.finrank (ZMod 2) (spanL (ZMod 2) (m0.map rowVec)) = m0.length →
      reduceLoop fuel i m ret rank = .error .oob) ∧
    (Module.finrank (ZMod 2) (spanL (ZMod 2) (m0.map rowVec)) < m0.length →
      ∃ m' ret', reduceLoop fuel i m ret rank =
        .ok (m', ret', Module.finrank (ZMod 2) (spanL (ZMod 2) (m0.map rowVec))) ∧
        Binary (ret' ++ m') n ∧ (ret' ++ m').length = m0.length ∧
        ret'.length = Module.finrank (ZMod 2) (spanL (ZMod 2) (m0.map rowVec)) ∧
        (∀ r ∈ m', rowVec r = 0) ∧
        spanL (ZMod 2) (m0.map rowVec) = spanL (ZMod 2) ((ret' ++ m').map rowVec)) := by
  intro fuel
  induction fuel with
  | zero => intro i m ret rank _ h; omega
  | succ fuel ih =>
    intro i m ret rank hf _ hm hret hz hrank hri hlen hfr hspan
    cases m with
    | nil =>
      have h0 : Module.finrank (ZMod 2) (spanL (ZMod 2) (([] : List (List Nat)).map rowVec)) = 0 :=
        finrank_zero (by simp)
      rw [h0] at hfr
      simp only [List.length_nil] at hlen
      refine ⟨fun _ => rfl, fun h => ?_⟩
      omega
    | cons first rest =>
      have hfl : first.length = n := (hm first (by simp)).1
      rw [reduceLoop]
      have hv : vget (first :: rest) 0 = .ok first := rfl
      rw [hv]
      simp only [bind, Except.bind]
      rw [hfl]
      by_cases hi : i < n
      · rw [if_pos hi]
        obtain ⟨m', p, e1, e2, hdec⟩ := reduceColumn_spec hi (first :: rest) hm
        rw [e1]
        dsimp only
        rcases hdec with ⟨rfl, rfl, a3⟩ | ⟨pre, row, post, rfl, hs1, a3, a4, a5⟩
        · dsimp only
          refine ih (i + 1) _ ret rank (by omega) (by omega) e2 hret ?_ hrank (by omega) hlen hfr hspan
          intro c hc
          by_cases h : c = i
          · subst h; exact a3
          · exact hz c (by omega)
        · have hrb := hm row (by rw [hs1]; simp)
          have hb' : Binary (ret ++ [row]) n := by
            intro r hr
            rw [List.mem_append, List.mem_singleton] at hr
            rcases hr with hr | rfl
            · exact hret r hr
            · exact hrb
          dsimp only
          rw [checkCopies_ok hi hb' hrb.1 (by simp; omega)]
          dsimp only
          have hlm : m'.length + 1 = (first :: rest).length := by
            have := congrArg List.length a5
            rw [hs1]
            simp at this ⊢
            omega
          refine ih (i + 1) m' (ret ++ [row]) (rank + 1) (by omega) (by omega) e2 hb' ?_
            (by simp [hrank]) (by simp; omega) ?_ ?_ ?_
          · intro c hc y hy
            rw [a5] at hy
            have hmem : ∀ z, z ∈ pre.map rowVec ∨ z = rowVec row ∨ z ∈ post.map rowVec →
                z ∈ (first :: rest).map rowVec := by
              intro z hz
              rw [hs1, List.map_append, List.map_cons, List.mem_append, List.mem_cons]
              exact hz
            rcases List.mem_append.1 hy with hy' | hy'
            · by_cases h : c = i
              · subst h; exact a3 y hy'
              · exact hz c (by omega) y (hmem y (Or.inl hy'))
            · obtain ⟨z, hz', rfl⟩ := List.mem_map.1 hy'
              by_cases h : c = i
              · subst h; exact clearWith_ker (φ := coord c) a4 z
              · have c1 := hz c (by omega) z (hmem z (Or.inr (Or.inr hz')))
                have c2 := hz c (by omega) _ (hmem (rowVec row) (Or.inr (Or.inl rfl)))
                unfold clearWith
                rw [Pi.sub_apply, Pi.smul_apply, c1, c2, smul_zero, sub_zero]
          · simp only [List.length_append, List.length_singleton]
            omega
          · rw [hfr, hs1, List.map_append, List.map_cons, finrank_clear (φ := coord i) a3 a4, a5]
            omega
          · have e3 : spanL (ZMod 2) ((first :: rest).map rowVec) =
                spanL (ZMod 2) (m'.map rowVec) ⊔ Submodule.span (ZMod 2) {rowVec row} := by
              rw [hs1, List.map_append, List.map_cons, spanL_clear (φ := coord i), a5]
            have e4 : spanL (ZMod 2) ([row].map rowVec) = Submodule.span (ZMod 2) {rowVec row} := by
              unfold spanL
              congr 1
              ext y
              simp
            rw [hspan, List.map_append, List.map_append, List.map_append, spanL_append, spanL_append,
              spanL_append, e3, e4, sup_assoc, sup_comm (Submodule.span (ZMod 2) {rowVec row})]
      · rw [if_neg hi]
        have hin : i = n := by omega
        have hzero : ∀ r ∈ first :: rest, rowVec r = 0 := by
          intro r hr
          funext c
          by_cases hc : c < n
          · exact hz c (by omega) _ (List.mem_map_of_mem hr)
          · exact rowVec_beyond (by rw [(hm r hr).1]; omega)
        have h0 : Module.finrank (ZMod 2) (spanL (ZMod 2) ((first :: rest).map rowVec)) = 0 := by
          apply finrank_zero
          intro y hy
          obtain ⟨r, hr, rfl⟩ := List.mem_map.1 hy
          exact hzero r hr
        rw [h0, add_zero] at hfr
        simp only [List.length_cons] at hlen
        refine ⟨fun h => by omega, fun _ => ⟨first :: rest, ret, ?_, ?_, ?_, ?_, hzero, hspan⟩⟩
        · rw [hfr]; rfl
        · intro r hr
          rw [List.mem_append] at hr
          rcases hr with hr | hr
          · exact hret r hr
          · exact hm r hr
        · simp; omega
        · omega

/-! ### The set variant -/

theorem elimSets_spec {i : Nat} : ∀ (m : List (List Nat)) (j : Nat), (∀ c ∈ m, Inc c) →
    (∀ c ∈ m, ∀ x ∈ c, i ≤ x) → ∃ m' p, elimSets i m j = (m', p) ∧ (∀ c ∈ m', Inc c) ∧
      ((p = none ∧ m' = m ∧ ∀ y ∈ m.map ind, coord i y = 0) ∨
       ∃ pre c post, p = some (j + pre.length, c) ∧ m = pre ++ c :: post ∧
        (∀ y ∈ pre.map ind, coord i y = 0) ∧ coord i (ind c) = 1 ∧
        m'.map ind = pre.map ind ++
          (ind c :: post.map ind).map (clearWith (coord i) (ind c))) := by
  intro m
  have head_iff : ∀ c : List Nat, Inc c → (∀ x ∈ c, i ≤ x) → (c.head? = some i ↔ i ∈ c) := by
    intro c hc hge
    cases c with
    | nil => simp
    | cons a c =>
      rw [List.head?_cons, Option.some.injEq, List.mem_cons]
      constructor
      · rintro rfl; exact Or.inl rfl
      · rintro (h | h)
        · exact h.symm
        · have h1 := (List.pairwise_cons.1 hc).1 i h
          have h2 := hge a (by simp)
          omega
  induction m with
  | nil =>
    intro j _ _
    exact ⟨[], none, rfl, by simp, Or.inl ⟨rfl, rfl, by simp⟩⟩
  | cons c rest ih =>
    intro j hinc hge
    have hci := head_iff c (hinc c (by simp)) (hge c (by simp))
    by_cases hc : c.head? = some i
    · refine ⟨_, _, by rw [elimSets, if_pos hc], ?_, Or.inr ⟨[], c, rest, by simp, rfl, by simp, ?_,
        ?_⟩⟩
      · intro c' hc'
        obtain ⟨c'', h1, rfl⟩ := List.mem_map.1 hc'
        split_ifs
        · exact inc_stdSymDiff (hinc c (by simp)) (hinc c'' h1)
        · exact hinc c'' h1
      · simp [ind, hci.1 hc]
      · rw [List.map_nil, List.nil_append, ← List.map_cons, List.map_map, List.map_map]
        apply List.map_congr_left
        intro c' hc'
        have hci' := head_iff c' (hinc c' hc') (hge c' hc')
        simp only [Function.comp_apply, clearWith]
        by_cases h : c'.head? = some i
        · rw [if_pos h, ind_xor (hinc c (by simp)) (hinc c' hc')]
          have : coord i (ind c') = 1 := by simp [ind, hci'.1 h]
          rw [this, one_smul]
          funext z
          rw [Pi.add_apply, Pi.sub_apply, CharTwo.sub_eq_add, add_comm]
        · rw [if_neg h]
          have : coord i (ind c') = 0 := by
            simp only [LinearMap.proj_apply, ind]
            rw [if_neg (fun h' => h (hci'.2 h'))]
          rw [this, zero_smul, sub_zero]
    · obtain ⟨m', p, h1, h2, h3⟩ := ih (j + 1) (fun c hc => hinc c (by simp [hc]))
        (fun c hc => hge c (by simp [hc]))
      have hv : coord i (ind c) = 0 := by
        simp only [LinearMap.proj_apply, ind]
        rw [if_neg (fun h' => hc (hci.2 h'))]
      refine ⟨c :: m', p, by rw [elimSets, if_neg hc, h1], ?_, ?_⟩
      · intro c' hc'
        rw [List.mem_cons] at hc'
        rcases hc' with rfl | hc'
        · exact hinc _ (by simp)
        · exact h2 c' hc'
      · rcases h3 with ⟨a1, a2, a3⟩ | ⟨pre, row', post, a1, a2, a3, a4, a5⟩
        · refine Or.inl ⟨a1, by rw [a2], ?_⟩
          intro y hy
          rw [List.map_cons, List.mem_cons] at hy
          rcases hy with rfl | hy
          · exact hv
          · exact a3 y hy
        · refine Or.inr ⟨c :: pre, row', post, ?_, by rw [a2]; rfl, ?_, a4, ?_⟩
          · rw [a1, List.length_cons]; congr 2; omega
          · intro y hy
            rw [List.map_cons, List.mem_cons] at hy
            rcases hy with rfl | hy
            · exact hv
            · exact a3 y hy
          · rw [List.map_cons, a5]; rfl

theorem ind_zero_of {c : List Nat} {x : Nat} (h : ind c x = 0) : x ∉ c := by
  intro hx
  unfold ind at h
  rw [if_pos hx] at h
  exact one_ne_zero h

/-- The set variant finds independent columns, and all of them if the row indices are smaller than the
number of columns. -/
theorem optGetRankNullSets_spec {m : List (List Nat)} (hinc : ∀ c ∈ m, Inc c) :
    Inc (optGetRankNullSets m).1 ∧
    (∀ j ∈ (optGetRankNullSets m).1, j ∈ indep (ZMod 2) (m.map ind)) ∧
    ((∀ c ∈ m, ∀ x ∈ c, x < m.length) →
      (optGetRankNullSets m).1 = indep (ZMod 2) (m.map ind)) := by
  have key : ∀ n, ∃ s, (List.range n).foldl optSetStep (m, [], []) = s ∧
      (∀ c ∈ s.1, Inc c) ∧ (∀ c < n, ∀ y ∈ s.1.map ind, y c = 0) ∧ Inc s.2.1 ∧
      (∀ j, j ∈ indep (ZMod 2) (m.map ind) ↔ j ∈ s.2.1 ∨ j ∈ indep (ZMod 2) (s.1.map ind)) ∧
      (∀ c, (∀ y ∈ m.map ind, y c = 0) → ∀ y ∈ s.1.map ind, y c = 0) := by
    intro n
    induction n with
    | zero => exact ⟨_, rfl, hinc, by intro c hc; omega, List.Pairwise.nil, by simp, fun c h => h⟩
    | succ n ih =>
      obtain ⟨s, h1, h2, h3, h4, h5, h6⟩ := ih
      rw [List.range_succ, List.foldl_append, h1]
      simp only [List.foldl_cons, List.foldl_nil]
      obtain ⟨m', p, e1, e2, hdec⟩ := elimSets_spec (i := n) s.1 0 h2 (by
        intro c hc x hx
        by_contra hlt
        exact ind_zero_of (h3 x (by omega) _ (List.mem_map_of_mem hc)) hx)
      rcases hdec with ⟨rfl, rfl, a3⟩ | ⟨pre, c, post, rfl, hs1, a3, a4, a5⟩
      · refine ⟨_, rfl, ?_⟩
        unfold optSetStep
        rw [e1]
        refine ⟨h2, ?_, h4, h5, h6⟩
        intro c hc
        by_cases h : c = n
        · subst h; exact a3
        · exact h3 c (by omega)
      · have hmem : ∀ z, z ∈ pre.map ind ∨ z = ind c ∨ z ∈ post.map ind → z ∈ s.1.map ind := by
          intro z hz
          rw [hs1, List.map_append, List.map_cons, List.mem_append, List.mem_cons]
          exact hz
        have hpres : ∀ x, (∀ y ∈ s.1.map ind, y x = 0) → ∀ y ∈ m'.map ind, y x = 0 := by
          intro x hx y hy
          rw [a5] at hy
          rcases List.mem_append.1 hy with hy | hy
          · exact hx y (hmem y (Or.inl hy))
          · obtain ⟨z, hz, rfl⟩ := List.mem_map.1 hy
            have c1 := hx z (hmem z (Or.inr (List.mem_cons.1 hz)))
            have c2 := hx _ (hmem (ind c) (Or.inr (Or.inl rfl)))
            unfold clearWith
            rw [Pi.sub_apply, Pi.smul_apply, c1, c2, smul_zero, sub_zero]
        refine ⟨_, rfl, ?_⟩
        unfold optSetStep
        rw [e1]
        dsimp only
        refine ⟨e2, ?_, inc_setInsert _ h4, ?_, ?_⟩
        · intro x hx y hy
          by_cases h : x = n
          · subst h
            rw [a5] at hy
            rcases List.mem_append.1 hy with hy' | hy'
            · exact a3 y hy'
            · obtain ⟨z, -, rfl⟩ := List.mem_map.1 hy'
              exact clearWith_ker (φ := coord x) a4 z
          · exact hpres x (h3 x (by omega)) y hy
        · intro j
          rw [h5 j, mem_setInsert, a5, hs1, List.map_append, List.map_cons,
            indep_step (φ := coord n) a3 a4, List.length_map, Nat.zero_add]
          tauto
        · intro x hx
          exact hpres x (h6 x hx)
  obtain ⟨s, h1, h2, h3, h4, h5, h6⟩ := key m.length
  unfold optGetRankNullSets
  rw [h1]
  refine ⟨h4, fun j hj => (h5 j).2 (Or.inl hj), ?_⟩
  intro hlt
  apply Inc.ext h4 (inc_indep _)
  intro j
  rw [h5 j, indep_zero (l := s.1.map ind)]
  · simp
  · intro y hy
    funext c
    by_cases hc : c < m.length
    · exact h3 c hc y hy
    · apply h6 c _ y hy
      intro z hz
      obtain ⟨c', hc', rfl⟩ := List.mem_map.1 hz
      unfold ind
      rw [if_neg]
      intro h
      have := hlt c' hc' c h
      omega

end LHF
