import Verif.Model.ArrayComplex
import Verif.Lemmas.Rips
import Verif.Lemmas.Res
import Mathlib.Algebra.Order.Ring.Defs
import Mathlib.Data.List.Nodup

/-! Lemmas about `expandDimensions` of the array complex. -/

namespace LHF
open Spec

section
variable {W : Type _} [LinearOrder W] [Ring W] [IsStrictOrderedRing W]

theorem neg_one_lt_zero' : (-1 : W) < 0 := by
  have : (0 : W) < 1 := one_pos
  exact neg_lt_zero.2 this

omit [Ring W] [IsStrictOrderedRing W] in
theorem max_if (a b : W) : (if a > b then a else b) = max a b := by
  rcases le_total a b with h | h
  · rw [max_eq_right h, if_neg (not_lt.2 h)]
  · rcases eq_or_lt_of_le h with h' | h'
    · subst h'; simp
    · rw [max_eq_left h, if_pos h']

/-- Layer `k` of `g` is exactly the set of `k`-dimensional simplices. -/
def LayerExact (g : Graph W) (k n : Nat) (d : Nat → Nat → W) (near : Nat → Nat → Prop) : Prop :=
  ∃ layer, g[k]? = some layer ∧ (layer.map Prod.fst).Nodup ∧
    ∀ s w, (s, w) ∈ layer ↔ s.length = k + 1 ∧ IsSimplex n near s ∧ w = diam d s

omit [IsStrictOrderedRing W] in
open Classical in
theorem findWeight_layer {g : Graph W} {k n : Nat} {d : Nat → Nat → W} {near : Nat → Nat → Prop}
    (h : LayerExact g k n d near) {v : List Nat} (hv : v.length = k + 1) :
    findWeight g v = .ok (if IsSimplex n near v then diam d v else -1) := by
  obtain ⟨layer, hl, -, hm⟩ := h
  unfold findWeight
  rw [hv, szPred_pos (by omega), Nat.add_sub_cancel, vget_ok.2 hl, ok_bind]
  cases hf : layer.find? (fun e => decide (e.1 = v)) with
  | none =>
    rw [List.find?_eq_none] at hf
    have : ¬ IsSimplex n near v := by
      intro hs
      have := hf (v, diam d v) ((hm _ _).2 ⟨hv, hs, rfl⟩)
      simp at this
    simp [this, pure_eq_ok]
  | some e =>
    have h1 := List.find?_some hf
    have h2 := List.mem_of_find?_eq_some hf
    simp at h1
    obtain ⟨s, w⟩ := e
    subst h1
    obtain ⟨-, hs, hw⟩ := (hm _ _).1 h2
    simp [hs, hw, pure_eq_ok]

open Classical in
theorem faceLoop_spec {g : Graph W} {d : Nat → Nat → W} {Q : List Nat → Prop} {simp : List Nat}
    {k : Nat} (hk : 1 ≤ k) (hQ : ∀ v, Q v → Inc v) (zs : List (List Nat)) :
    ∀ (ps : List (List Nat)) (total : List Nat) (mw : W),
    Inc total → (∀ x, x ∈ total ↔ x ∈ simp ∨ ∃ z ∈ ps, x ∈ z) → (ps = [] → total = simp) →
    (ps ++ zs).Nodup → (∀ z ∈ ps ++ zs, z.length = k ∧ Inc z ∧ ∀ x ∈ z, x ∉ simp) →
    (∀ z ∈ zs, findWeight g (simp ++ z) = .ok (if Q (simp ++ z) then diam d (simp ++ z) else -1)) →
    ((∀ z ∈ zs, Q (simp ++ z)) → ∃ t w, faceLoop g simp zs total mw = .ok (some (t, w)) ∧ Inc t ∧
      (∀ x, x ∈ t ↔ x ∈ simp ∨ ∃ z ∈ ps ++ zs, x ∈ z) ∧
      ∀ u, w ≤ u ↔ mw ≤ u ∧ ∀ z ∈ zs, diam d (simp ++ z) ≤ u) ∧
    ((¬ ∀ z ∈ zs, Q (simp ++ z)) → faceLoop g simp zs total mw = .ok none) := by
  induction zs with
  | nil =>
    intro ps total mw hi hm _ _ _ _
    refine ⟨fun _ => ⟨total, mw, rfl, hi, ?_, ?_⟩, ?_⟩
    · simpa using hm
    · simp
    · intro h; simp at h
  | cons z zs ih =>
    intro ps total mw hi hm hp hnd hz hf
    have hfz := hf z (by simp)
    obtain ⟨hzl, hzi, hzd⟩ := hz z (by simp)
    by_cases hq : Q (simp ++ z)
    · have hne : total ≠ simp ++ z := by
        intro he
        rcases ps with _ | ⟨p, ps⟩
        · have := hp rfl
          rw [he] at this
          have : z = [] := by simpa using this
          subst this; simp at hzl; omega
        · obtain ⟨hpl, hpi, hpd⟩ := hz p (by simp)
          have hsub : ∀ x ∈ p, x ∈ z := by
            intro x hx
            have h1 : x ∈ total := (hm x).2 (Or.inr ⟨p, by simp, hx⟩)
            rw [he, List.mem_append] at h1
            exact h1.resolve_left (hpd x hx)
          have : p = z := ((sublist_iff_of_inc hzi).2 ⟨hpi, hsub⟩).eq_of_length (by omega)
          subst this
          simp at hnd
      have hiu : Inc (stdUnion total (simp ++ z)) := inc_stdUnion hi (hQ _ hq)
      have e1 : faceLoop g simp (z :: zs) total mw =
          faceLoop g simp zs (stdUnion total (simp ++ z)) (max (diam d (simp ++ z)) mw) := by
        rw [faceLoop]
        simp only [hfz, if_pos hq, ok_bind, setUnion, if_neg hne, if_true]
        rw [if_neg (not_lt.2 (diam_nonneg d _)), max_if]
      have := ih (ps ++ [z]) (stdUnion total (simp ++ z)) (max (diam d (simp ++ z)) mw) hiu
        (by
          intro x
          rw [mem_stdUnion, hm, List.mem_append]
          simp only [List.mem_append, List.mem_singleton]
          constructor
          · rintro ((h | ⟨z', h1, h2⟩) | h | h)
            · exact Or.inl h
            · exact Or.inr ⟨z', Or.inl h1, h2⟩
            · exact Or.inl h
            · exact Or.inr ⟨z, Or.inr rfl, h⟩
          · rintro (h | ⟨z', h1 | rfl, h2⟩)
            · exact Or.inl (Or.inl h)
            · exact Or.inl (Or.inr ⟨z', h1, h2⟩)
            · exact Or.inr (Or.inr h2))
        (by simp) (by simpa using hnd) (by simpa using hz) (fun z' h => hf z' (by simp [h]))
      rw [e1]
      constructor
      · intro hall
        obtain ⟨t, w, h1, h2, h3, h4⟩ := this.1 (fun z' h => hall z' (by simp [h]))
        refine ⟨t, w, h1, h2, by simpa using h3, ?_⟩
        intro u
        rw [h4, max_le_iff]
        simp only [List.mem_cons, forall_eq_or_imp]
        tauto
      · intro hall
        apply this.2
        intro h
        apply hall
        intro z' hz'
        rcases List.mem_cons.1 hz' with rfl | h'
        · exact hq
        · exact h z' h'
    · refine ⟨fun h => absurd (h z (by simp)) hq, fun _ => ?_⟩
      rw [faceLoop]
      simp only [hfz, if_neg hq, ok_bind, if_pos (neg_one_lt_zero' (W := W))]
      rfl

/-- Union of two simplices sharing all but one vertex each, when the two odd vertices are near. -/
theorem isSimplex_union {n : Nat} {near : Nat → Nat → Prop} {a b t : List Nat}
    (ha : IsSimplex n near a) (hb : IsSimplex n near b) (ht : Inc t)
    (hmem : ∀ x, x ∈ t ↔ x ∈ a ∨ x ∈ b) {c : List Nat} (hc : IsSimplex n near c)
    (hcov : ∀ x ∈ a, ∀ y ∈ b, x ∉ b → y ∉ a → x ∈ c ∧ y ∈ c) : IsSimplex n near t := by
  refine ⟨?_, ht, ?_, ?_⟩
  · obtain ⟨x, hx⟩ := List.exists_mem_of_ne_nil _ ha.1
    exact List.ne_nil_of_mem ((hmem x).2 (Or.inl hx))
  · intro v hv
    rcases (hmem v).1 hv with h | h
    · exact ha.2.2.1 v h
    · exact hb.2.2.1 v h
  · intro i hi j hj hij
    by_cases h1 : i ∈ a
    · by_cases h2 : j ∈ a
      · exact ha.2.2.2 i h1 j h2 hij
      · have h3 : j ∈ b := ((hmem j).1 hj).resolve_left h2
        by_cases h4 : i ∈ b
        · exact hb.2.2.2 i h4 j h3 hij
        · obtain ⟨h5, h6⟩ := hcov i h1 j h3 h4 h2
          exact hc.2.2.2 i h5 j h6 hij
    · have h3 : i ∈ b := ((hmem i).1 hi).resolve_left h1
      by_cases h2 : j ∈ b
      · exact hb.2.2.2 i h3 j h2 hij
      · have h4 : j ∈ a := ((hmem j).1 hj).resolve_right h2
        obtain ⟨h5, h6⟩ := hcov j h4 i h3 h2 h1
        exact hc.2.2.2 i h6 j h5 hij

/-- What `candidate` computes for two simplices of the same complete layer. -/
theorem candidate_spec {g : Graph W} {k n : Nat} {d : Nat → Nat → W} {near : Nat → Nat → Prop}
    (hk : 1 ≤ k) (h : LayerExact g k n d near) {a b : List Nat}
    (ha : IsSimplex n near a) (hb : IsSimplex n near b) (hal : a.length = k + 1)
    (hbl : b.length = k + 1) (hab : a ≠ b) :
    ∃ c, candidate g (a, diam d a) (b, diam d b) = .ok c ∧
      (∀ e, c = some e → e.1.length = k + 2 ∧ IsSimplex n near e.1 ∧ e.2 = diam d e.1) ∧
      (∀ s, s.length = k + 2 → IsSimplex n near s →
        stdSymDiff a b = s.take 2 → stdInter a b = s.drop 2 → c = some (s, diam d s)) := by
  have hai := ha.inc
  have hbi := hb.inc
  unfold candidate
  simp only [symmetricDiffV, if_neg hab, if_true, setIntersectV, max_if]
  by_cases h2 : (stdSymDiff a b).length = 2
  swap
  · rw [if_neg h2]
    refine ⟨none, rfl, by simp, ?_⟩
    intro s hs _ h1 _
    rw [h1, List.length_take] at h2
    omega
  rw [if_pos h2]
  have hml := inter_length hai hbi (by omega) h2
  have hsi : Inc (stdSymDiff a b) := inc_stdSymDiff hai hbi
  have hmi : Inc (stdInter a b) := inc_stdInter hai hbi
  have hms := mem_stdSymDiff hai hbi
  have hmm := mem_stdInter hai hbi
  generalize hsd : stdSymDiff a b = simp at *
  generalize hin : stdInter a b = m at *
  have hlen : ∀ t, Inc t → (∀ x, x ∈ t ↔ x ∈ a ∨ x ∈ b) → t.length = k + 2 := by
    intro t ht hmem
    have := inc_length_eq (t := simp ++ m) ht
      (by
        rw [List.nodup_append]
        refine ⟨hsi.nodup, hmi.nodup, ?_⟩
        rintro x hx y hy rfl
        rw [hms] at hx; rw [hmm] at hy
        tauto)
      (by
        intro x
        rw [hmem, List.mem_append, hms, hmm]
        tauto)
    rw [this, List.length_append]; omega
  by_cases hm1 : m.length = 1
  · rw [if_pos hm1, stdSort_of_inc hsi]
    have hk1 : k = 1 := by omega
    subst hk1
    rw [findWeight_layer h (v := simp) (by omega), ok_bind]
    have hnd : (simp ++ m).Nodup := by
      rw [List.nodup_append]
      refine ⟨hsi.nodup, hmi.nodup, ?_⟩
      rintro x hx y hy rfl
      rw [hms] at hx; rw [hmm] at hy
      tauto
    have hti := inc_stdSort hnd
    have htm : ∀ x, x ∈ stdSort (simp ++ m) ↔ x ∈ a ∨ x ∈ b := by
      intro x
      rw [mem_stdSort, List.mem_append, hms, hmm]
      tauto
    have hcov : ∀ x ∈ a, ∀ y ∈ b, x ∉ b → y ∉ a → x ∈ simp ∧ y ∈ simp := by
      intro x hx y hy hxb hya
      exact ⟨(hms x).2 (Or.inl ⟨hx, hxb⟩), (hms y).2 (Or.inr ⟨hy, hya⟩)⟩
    have hct : ∀ x ∈ simp, x ∈ stdSort (simp ++ m) := by
      intro x hx; rw [mem_stdSort]; simp [hx]
    by_cases hq : IsSimplex n near simp
    · rw [if_pos hq, if_neg (not_lt.2 (diam_nonneg d _))]
      have hw : max (diam d simp) (max (diam d a) (diam d b)) = diam d (stdSort (simp ++ m)) := by
        apply le_antisymm
        · have := (diam_union (d := d) htm hct hcov _).1 le_rfl
          exact max_le this.2.2 (max_le this.1 this.2.1)
        · rw [diam_union htm hct hcov]
          refine ⟨?_, ?_, le_max_left _ _⟩
          · exact (le_max_left _ _).trans (le_max_right _ _)
          · exact (le_max_right _ _).trans (le_max_right _ _)
      refine ⟨_, rfl, ?_, ?_⟩
      · intro e he
        simp only [Option.some.injEq] at he
        subst he
        exact ⟨hlen _ hti htm, isSimplex_union ha hb hti htm hq hcov, hw⟩
      · intro s hs hss h1 h2'
        have : stdSort (simp ++ m) = s := by
          rw [h1, h2', List.take_append_drop]; exact stdSort_of_inc hss.inc
        rw [hw, this]
    · rw [if_neg hq, if_pos (neg_one_lt_zero' (W := W))]
      refine ⟨none, rfl, by simp, ?_⟩
      intro s hs hss h1 _
      exfalso; apply hq
      rw [h1]
      exact hss.sub (by rw [← h1]; exact List.ne_nil_of_length_pos (by omega))
        (hss.inc.sublist (List.take_sublist _ _)) (fun x hx => List.mem_of_mem_take hx)
  · have hm2 : m.length > 1 := by omega
    rw [if_neg hm1, if_pos hm2]
    have hmne : m ≠ [] := List.ne_nil_of_length_pos (by omega)
    have hzs := getSubsetsV_mem hmi.nodup hmne
    have hz : ∀ z ∈ [] ++ getSubsetsV m, z.length = k - 1 ∧ Inc z ∧ ∀ x ∈ z, x ∉ simp := by
      intro z hz
      simp only [List.nil_append] at hz
      obtain ⟨v, hv, rfl⟩ := (hzs z).1 hz
      refine ⟨?_, hmi.sublist (List.erase_sublist), ?_⟩
      · rw [List.length_erase_of_mem hv]; omega
      · intro x hx hx'
        have := List.mem_of_mem_erase hx
        rw [hmm] at this; rw [hms] at hx'
        tauto
    have hf : ∀ z ∈ getSubsetsV m, findWeight g (simp ++ z) =
        .ok (@ite _ (IsSimplex n near (simp ++ z)) (Classical.propDecidable _) (diam d (simp ++ z)) (-1)) := by
      intro z hz'
      rw [findWeight_layer h]
      rw [List.length_append, h2, (hz z (by simpa using hz')).1]; omega
    have spec := faceLoop_spec (d := d) (Q := IsSimplex n near) (k := k - 1) (by omega)
      (fun v hv => hv.inc) (getSubsetsV m) [] simp (max (diam d a) (diam d b)) hsi (by simp)
      (by simp) (by simpa using getSubsetsV_nodup hmi.nodup) hz hf
    obtain ⟨x0, hx0⟩ := List.exists_mem_of_ne_nil _ hmne
    -- every element of m occurs in some facet
    have hfac : ∀ x ∈ m, ∃ z ∈ getSubsetsV m, x ∈ z := by
      intro x hx
      obtain ⟨y, hy, hyx⟩ : ∃ y ∈ m, y ≠ x := by
        by_contra hcon
        push Not at hcon
        have : m.length ≤ [x].length := (List.subperm_of_subset hmi.nodup
          (fun y hy => by rw [hcon y hy]; simp)).length_le
        simp at this; omega
      exact ⟨m.erase y, (hzs _).2 ⟨y, hy, rfl⟩, (List.mem_erase_of_ne (Ne.symm hyx)).2 hx⟩
    have hsubm : ∀ z ∈ getSubsetsV m, ∀ x ∈ z, x ∈ m := by
      intro z hz' x hx
      obtain ⟨v, hv, rfl⟩ := (hzs z).1 hz'
      exact List.mem_of_mem_erase hx
    by_cases hall : ∀ z ∈ getSubsetsV m, IsSimplex n near (simp ++ z)
    · obtain ⟨t, w, h1, h3, h4, h5⟩ := spec.1 hall
      have htm : ∀ x, x ∈ t ↔ x ∈ a ∨ x ∈ b := by
        intro x
        rw [h4, hms]
        simp only [List.nil_append]
        constructor
        · rintro (h' | ⟨z, hz1, hz2⟩)
          · tauto
          · have := hsubm z hz1 x hz2
            rw [hmm] at this; exact Or.inl this.1
        · intro h'
          by_cases hx : x ∈ m
          · exact Or.inr (hfac x hx)
          · rw [hmm] at hx; left; tauto
      obtain ⟨z0, hz0, -⟩ := hfac x0 hx0
      have hcov : ∀ z, ∀ x ∈ a, ∀ y ∈ b, x ∉ b → y ∉ a → x ∈ simp ++ z ∧ y ∈ simp ++ z := by
        intro z x hx y hy hxb hya
        exact ⟨List.mem_append.2 (Or.inl ((hms x).2 (Or.inl ⟨hx, hxb⟩))),
          List.mem_append.2 (Or.inl ((hms y).2 (Or.inr ⟨hy, hya⟩)))⟩
      have hct : ∀ z ∈ getSubsetsV m, ∀ x ∈ simp ++ z, x ∈ t := by
        intro z hz' x hx
        rw [h4]
        rcases List.mem_append.1 hx with h' | h'
        · exact Or.inl h'
        · exact Or.inr ⟨z, by simpa using hz', h'⟩
      have hw : w = diam d t := by
        apply le_antisymm
        · rw [h5, max_le_iff]
          exact ⟨⟨diam_mono d fun x hx => (htm x).2 (Or.inl hx),
            diam_mono d fun x hx => (htm x).2 (Or.inr hx)⟩, fun z hz' => diam_mono d (hct z hz')⟩
        · rw [diam_union htm (hct z0 hz0) (hcov z0)]
          have := (h5 w).1 le_rfl
          rw [max_le_iff] at this
          exact ⟨this.1.1, this.1.2, this.2 z0 hz0⟩
      refine ⟨_, h1, ?_, ?_⟩
      · intro e he
        simp only [Option.some.injEq] at he
        subst he
        exact ⟨hlen _ h3 htm, isSimplex_union ha hb h3 htm (hall z0 hz0) (hcov z0), hw⟩
      · intro s hs hss e1 e2
        have : t = s := by
          apply h3.ext hss.inc
          intro x
          rw [htm, ← List.take_append_drop 2 s, ← e1, ← e2, List.mem_append, hms, hmm]
          tauto
        rw [hw, this]
    · refine ⟨none, spec.2 hall, by simp, ?_⟩
      intro s hs hss e1 e2
      exfalso; apply hall
      intro z hz'
      obtain ⟨v, hv, rfl⟩ := (hzs z).1 hz'
      have hsub : (simp ++ m.erase v).Sublist s := by
        rw [← List.take_append_drop 2 s, ← e1, ← e2]
        exact (List.Sublist.refl _).append List.erase_sublist
      exact hss.sub (by
        apply List.ne_nil_of_length_pos; rw [List.length_append]; omega)
        (hss.inc.sublist hsub) (fun x hx => hsub.subset hx)

end

end LHF
