import Verif.Model.TreeComplex
import Verif.Lemmas.Rips
import Verif.Lemmas.Res
import Verif.Lemmas.ArrayExpand

/-! Lemmas about insertion into the simplex tree. -/

namespace LHF
open Spec

section
variable {W : Type} [LinearOrder W] [Zero W]

omit [LinearOrder W] [Zero W] in
/-- The simplices represented by a tree: the vertices on the way to each node, with its weight. -/
def paths (p : List Nat) : Sib W → List (List Nat × W)
  | .nil => []
  | .node i w c s => (p ++ [i], w) :: (paths (p ++ [i]) c ++ paths p s)

omit [LinearOrder W] [Zero W] in
theorem prefix_of_mem_paths {p : List Nat} {s : Sib W} {e : List Nat × W} (h : e ∈ paths p s) :
    p <+: e.1 ∧ p.length < e.1.length := by
  induction s generalizing p with
  | nil => simp [paths] at h
  | node i w c s ihc ihs =>
    rw [paths, List.mem_cons, List.mem_append] at h
    rcases h with rfl | h | h
    · exact ⟨List.prefix_append _ _, by simp⟩
    · obtain ⟨h1, h2⟩ := ihc h
      exact ⟨(List.prefix_append _ _).trans h1, by simp at h2; omega⟩
    · exact ihs h

theorem diam_snoc2 (D : Nat → Nat → W) {p : List Nat} {i n : Nat} (hi : i < n) :
    diam D (p ++ [i] ++ [n]) =
      max (max (max (D i n) 0) (diam D (p ++ [n]))) (diam D (p ++ [i])) := by
  have h2 : ∀ u, diam D [i, n] ≤ u ↔ max (D i n) 0 ≤ u := by
    intro u
    rw [diam_le_iff, max_le_iff]
    constructor
    · rintro ⟨h0, h⟩; exact ⟨h i (by simp) n (by simp) hi, h0⟩
    · rintro ⟨h, h0⟩
      refine ⟨h0, ?_⟩
      intro a ha b hb hab
      simp only [List.mem_cons, List.not_mem_nil, or_false] at ha hb
      have : a = i ∧ b = n := by omega
      rw [this.1, this.2]; exact h
  have key : ∀ u, diam D (p ++ [i] ++ [n]) ≤ u ↔
      max (max (max (D i n) 0) (diam D (p ++ [n]))) (diam D (p ++ [i])) ≤ u := by
    intro u
    rw [diam_union (a := p ++ [n]) (b := p ++ [i]) (c := [i, n])
      (by intro x; simp only [List.mem_append, List.mem_singleton]; tauto)
      (by intro x; simp only [List.mem_append, List.mem_cons, List.not_mem_nil]; tauto)
      (by
        intro x hx y hy hxb hya
        simp only [List.mem_append, List.mem_singleton] at hx hy hxb hya
        simp only [List.mem_cons, List.not_mem_nil, or_false]
        tauto), h2]
    simp only [max_le_iff]
    tauto
  exact le_antisymm ((key _).2 le_rfl) ((key _).1 le_rfl)

theorem inc_snoc {p : List Nat} {n : Nat} (hp : Inc p) (h : ∀ x ∈ p, x < n) : Inc (p ++ [n]) := by
  unfold Inc
  rw [List.pairwise_append]
  refine ⟨hp, by simp, ?_⟩
  intro a ha b hb
  rw [List.mem_singleton.1 hb]; exact h a ha

theorem setInsert_snoc {p : List Nat} {i n : Nat} (hpi : Inc (p ++ [i])) (hi : i < n) :
    setInsert i (p ++ [n]) = p ++ [i] ++ [n] := by
  have hp : Inc p := hpi.sublist (by simp)
  have hlt : ∀ x ∈ p, x < i := by
    intro x hx
    exact (List.pairwise_append.1 hpi).2.2 x hx i (by simp)
  have h1 : Inc (p ++ [n]) := inc_snoc hp fun x hx => (hlt x hx).trans hi
  have h2 : Inc (p ++ [i] ++ [n]) := inc_snoc hpi (by
    intro x hx
    rcases List.mem_append.1 hx with h | h
    · exact (hlt x h).trans hi
    · rw [List.mem_singleton.1 h]; exact hi)
  apply (inc_setInsert i h1).ext h2
  intro x
  rw [mem_setInsert]
  simp only [List.mem_append, List.mem_singleton]
  tauto

/-- Is the simplex `q` extended by the new vertex? -/
def extOK (D : Nat → Nat → W) (eps : W) (maxDim n : Nat) (q : List Nat) : Prop :=
  (∀ i ∈ q, D i n < eps) ∧ q.length ≤ max 1 maxDim

instance (D : Nat → Nat → W) (eps : W) (maxDim n : Nat) : DecidablePred (extOK D eps maxDim n) :=
  fun q => by unfold extOK; infer_instance

/-- The simplices that inserting `n` adds. -/
def emit (D : Nat → Nat → W) (eps : W) (maxDim n : Nat) (l : List (List Nat × W)) :
    List (List Nat × W) :=
  (l.filter (fun e => extOK D eps maxDim n e.1)).map (fun e => (e.1 ++ [n], diam D (e.1 ++ [n])))

omit [LinearOrder W] [Zero W] in
theorem pushWEG_spec {weg : Graph W} {e : List Nat × W} {m : Nat} (hl : e.1.length = m + 1)
    (hw : m ≤ weg.length) :
    ∃ weg', pushWEG weg e = .ok weg' ∧
      (∀ k, weg'.getD k [] = weg.getD k [] ++ (if e.1.length = k + 1 then [e] else [])) ∧
      weg.length ≤ weg'.length ∧ weg'.length ≤ max weg.length (m + 1) ∧ m + 1 ≤ weg'.length := by
  unfold pushWEG
  rw [hl]
  split_ifs with h
  · have hm : weg.length = m := by omega
    refine ⟨_, rfl, ?_, by simp, by simp; omega, by simp; omega⟩
    intro k
    simp only [List.getD_eq_getElem?_getD]
    rcases Nat.lt_trichotomy k m with hk | hk | hk
    · rw [List.getElem?_append_left (by omega), if_neg (by omega), List.append_nil]
    · subst hk
      rw [← hm]; simp
    · rw [List.getElem?_eq_none (by simp; omega), List.getElem?_eq_none (by omega),
        if_neg (by omega)]
      rfl
  · have hp : szPred (m + 1) = m := by simp [szPred]
    rw [hp]
    have hv : vmodify weg m (· ++ [e]) = .ok (weg.modify m (· ++ [e])) := by
      unfold vmodify; rw [if_pos (by omega)]
    refine ⟨_, hv, ?_, by simp, by simp, by simp; omega⟩
    intro k
    simp only [List.getD_eq_getElem?_getD, List.getElem?_modify]
    by_cases hk : m = k
    · subst hk
      rw [List.getElem?_eq_getElem (by omega)]; simp
    · rw [if_neg (by omega), List.append_nil]; simp [hk]

/-- What one call of `recurseInsert` on a sibling list does. -/
theorem recurseInsert_spec (env : InsertEnv W) (D : Nat → Nat → W) (h0 : ∀ i j, 0 ≤ D i j)
    (s : Sib W) : ∀ (p : List Nat) (weg : Graph W) (c : Int),
    (∀ e ∈ paths p s, e.2 = diam D e.1 ∧ e.2 < env.maxEpsilon ∨ e.1.length = 1 ∧ e.2 = diam D e.1) →
    (∀ e ∈ paths p s, Inc e.1 ∧ ∀ i ∈ e.1, i < env.curIndex ∧
      env.dist i = .ok (D i env.curIndex)) →
    (∀ i ∈ p, D i env.curIndex < env.maxEpsilon) →
    (p ≠ [] → diam D (p ++ [env.curIndex]) < env.maxEpsilon) →
    p.length + 1 ≤ weg.length → p.length + 1 ≤ max 1 env.maxDimension →
    ∃ s' weg', recurseInsert env (diam D (p ++ [env.curIndex])) (p ++ [env.curIndex]) s (weg, c) =
        .ok (s', weg', c + (emit D env.maxEpsilon env.maxDimension env.curIndex (paths p s)).length) ∧
      (paths p s').Perm (paths p s ++
        emit D env.maxEpsilon env.maxDimension env.curIndex (paths p s)) ∧
      (∀ k, weg'.getD k [] = weg.getD k [] ++
        (emit D env.maxEpsilon env.maxDimension env.curIndex (paths p s)).filter
          (fun e => e.1.length = k + 1)) ∧
      weg.length ≤ weg'.length ∧ weg'.length ≤ max weg.length (max 1 env.maxDimension + 1) ∧
      s'.count = s.count := by
  set n := env.curIndex with hn
  set eps := env.maxEpsilon with heps
  induction s with
  | nil =>
    intro p weg c _ _ _ _ _ _
    exact ⟨.nil, weg, by simp [recurseInsert, paths, emit, pure_eq_ok], by simp [paths, emit],
      by simp [paths, emit], le_rfl, le_max_left _ _, rfl⟩
  | node i w child sib ihc ihs =>
    intro p weg c hw hq hp hpd hl hdep
    have hself : (p ++ [i], w) ∈ paths p (.node i w child sib) := by simp [paths]
    obtain ⟨hinc, hlt⟩ := hq _ hself
    simp only at hinc hlt
    obtain ⟨hin, hdist⟩ := hlt i (by simp)
    have hwd : w = diam D (p ++ [i]) := by
      rcases hw _ hself with h | h
      · exact h.1
      · exact h.2
    have hemit : emit D eps env.maxDimension n (paths p (.node i w child sib)) =
        emit D eps env.maxDimension n [(p ++ [i], w)] ++
        emit D eps env.maxDimension n (paths (p ++ [i]) child) ++
        emit D eps env.maxDimension n (paths p sib) := by
      rw [paths, ← List.singleton_append]
      unfold emit
      rw [List.filter_append, List.filter_append, List.map_append, List.map_append,
        List.append_assoc]
    have hmemc : ∀ e ∈ paths (p ++ [i]) child, e ∈ paths p (.node i w child sib) := by
      intro e he; rw [paths]; simp [he]
    have hmems : ∀ e ∈ paths p sib, e ∈ paths p (.node i w child sib) := by
      intro e he; rw [paths]; simp [he]
    have hcur : (if D i n > diam D (p ++ [n]) then D i n else diam D (p ++ [n])) =
        max (D i n) (diam D (p ++ [n])) := by
      rcases le_or_gt (D i n) (diam D (p ++ [n])) with h | h
      · rw [if_neg (not_lt.2 h), max_eq_right h]
      · rw [if_pos h, max_eq_left h.le]
    have hcureps : max (D i n) (diam D (p ++ [n])) < eps ↔ D i n < eps := by
      by_cases hpe : p = []
      · subst hpe
        rw [List.nil_append, diam_singleton, max_eq_left (h0 _ _)]
      · rw [max_lt_iff]
        exact ⟨fun h => h.1, fun h => ⟨h, hpd hpe⟩⟩
    have hmaxE : (if max (D i n) (diam D (p ++ [n])) > w then max (D i n) (diam D (p ++ [n])) else w) =
        diam D (p ++ [i] ++ [n]) := by
      rw [diam_snoc2 D hin, max_eq_left (h0 i n), ← hwd]
      rcases le_or_gt (max (D i n) (diam D (p ++ [n]))) w with h | h
      · rw [if_neg (not_lt.2 h), max_eq_right h]
      · rw [if_pos h, max_eq_left h.le]
    by_cases hD : D i n < eps
    · -- the node is extended
      obtain ⟨weg1, e1, e2, e3, e4, e5⟩ := pushWEG_spec (weg := weg)
        (e := (p ++ [i] ++ [n], diam D (p ++ [i] ++ [n]))) (m := p.length + 1) (by simp) hl
      have hp' : ∀ j ∈ p ++ [i], D j n < eps := by
        intro j hj
        rcases List.mem_append.1 hj with h | h
        · exact hp j h
        · rw [List.mem_singleton.1 h]; exact hD
      have hdia : diam D (p ++ [i] ++ [n]) < eps := by
        rw [diam_snoc2 D hin, max_eq_left (h0 i n), max_lt_iff]
        refine ⟨hcureps.2 hD, ?_⟩
        rcases hw _ hself with h | h
        · rw [← h.1]; exact h.2
        · simp only at h
          have : p = [] := by
            have := h.1; simp at this; exact this
          subst this
          simp only [List.nil_append, diam_singleton]
          exact lt_of_le_of_lt (h0 i n) hD
      -- the children
      have hchild : ∃ old weg2, (if (p ++ [i] ++ [n]).length ≤ env.maxDimension then
              recurseInsert env (diam D (p ++ [i] ++ [n])) (p ++ [i] ++ [n]) child (weg1, c + 1)
            else pure (child, (weg1, c + 1)) : Res (Sib W × (Graph W × Int))) = .ok (old, weg2,
              c + 1 + (emit D eps env.maxDimension n (paths (p ++ [i]) child)).length) ∧
          (paths (p ++ [i]) old).Perm
            (paths (p ++ [i]) child ++ emit D eps env.maxDimension n (paths (p ++ [i]) child)) ∧
          (∀ k, weg2.getD k [] = weg1.getD k [] ++
            (emit D eps env.maxDimension n (paths (p ++ [i]) child)).filter
              (fun e => e.1.length = k + 1)) ∧
          weg1.length ≤ weg2.length ∧ weg2.length ≤ max weg1.length (max 1 env.maxDimension + 1) := by
        by_cases hdim : (p ++ [i] ++ [n]).length ≤ env.maxDimension
        · obtain ⟨old, weg2, q1, q2, q3, q4, q5, -⟩ := ihc (p ++ [i]) weg1 (c + 1)
            (fun e he => hw e (hmemc e he)) (fun e he => hq e (hmemc e he)) hp'
            (fun _ => hdia) (by simp; omega) (by simp at hdim ⊢; omega)
          refine ⟨old, weg2, ?_, q2, q3, q4, q5⟩
          rw [if_pos hdim, q1]
        · have hempty : emit D eps env.maxDimension n (paths (p ++ [i]) child) = [] := by
            unfold emit
            rw [List.map_eq_nil_iff, List.filter_eq_nil_iff]
            intro e he
            simp only [decide_eq_true_eq]
            rintro ⟨-, h2⟩
            have := (prefix_of_mem_paths he).2
            simp at this hdim
            omega
          refine ⟨child, weg1, ?_, ?_, ?_, le_rfl, le_max_left _ _⟩
          · rw [if_neg hdim, hempty]
            simp [pure_eq_ok]
          · rw [hempty, List.append_nil]
          · simp [hempty]
      obtain ⟨old, weg2, q1, q2, q3, q4, q5⟩ := hchild
      obtain ⟨sib', weg3, r1, r2, r3, r4, r5, r6⟩ := ihs p weg2
        (c + 1 + (emit D eps env.maxDimension n (paths (p ++ [i]) child)).length)
        (fun e he => hw e (hmems e he)) (fun e he => hq e (hmems e he)) hp hpd (by omega) hdep
      have hone : emit D eps env.maxDimension n [(p ++ [i], w)] =
          [(p ++ [i] ++ [n], diam D (p ++ [i] ++ [n]))] := by
        have : extOK D eps env.maxDimension n (p ++ [i]) := ⟨hp', by simpa using hdep⟩
        simp [emit, this]
      refine ⟨.node i w (.node n (diam D (p ++ [i] ++ [n])) .nil old) sib', weg3, ?_, ?_, ?_, by omega, by omega,
        by simp [Sib.count, r6]⟩
      · rw [recurseInsert, hdist, ok_bind]
        dsimp only
        rw [hcur, if_pos (hcureps.2 hD), hmaxE, setInsert_snoc hinc hin, e1, ok_bind, q1, ok_bind]
        rw [r1, ok_bind, hemit, hone]
        simp only [pure_eq_ok, List.length_append, List.length_singleton]
        congr 3
        push_cast
        ring
      · rw [hemit, hone, paths, paths, paths, paths, List.nil_append]
        have a1 := q2.append r2
        refine (List.Perm.cons _ (List.Perm.cons _ a1)).trans ?_
        generalize emit D eps env.maxDimension n (paths (p ++ [i]) child) = E1
        generalize emit D eps env.maxDimension n (paths p sib) = E2
        generalize paths (p ++ [i]) child = P1
        generalize paths p sib = P2
        rw [List.cons_append (a := (p ++ [i], w))]
        refine List.Perm.cons _ ?_
        rw [List.perm_iff_count]
        intro x
        simp only [List.count_append, List.count_cons, List.count_nil]
        omega
      · intro k
        rw [r3, q3, e2, hemit, hone]
        simp only [List.filter_append, List.append_assoc]
        congr 1
        simp only [List.filter_cons, List.filter_nil, decide_eq_true_eq]
    · -- the node is not extended, nor is anything below it
      have hempty : emit D eps env.maxDimension n (paths (p ++ [i]) child) = [] := by
        unfold emit
        rw [List.map_eq_nil_iff, List.filter_eq_nil_iff]
        intro e he
        simp only [decide_eq_true_eq]
        rintro ⟨h1, -⟩
        exact hD (h1 i ((prefix_of_mem_paths he).1.subset (by simp)))
      have hone : emit D eps env.maxDimension n [(p ++ [i], w)] = [] := by
        have : ¬ extOK D eps env.maxDimension n (p ++ [i]) := fun h => hD (h.1 i (by simp))
        simp [emit, this]
      obtain ⟨sib', weg3, r1, r2, r3, r4, r5, r6⟩ := ihs p weg c
        (fun e he => hw e (hmems e he)) (fun e he => hq e (hmems e he)) hp hpd hl hdep
      rw [hone, hempty, List.nil_append, List.nil_append] at hemit
      refine ⟨.node i w child sib', weg3, ?_, ?_, ?_, r4, r5, by simp [Sib.count, r6]⟩
      · rw [recurseInsert, hdist, ok_bind]
        dsimp only
        rw [hcur, if_neg (fun h => hD (hcureps.1 h)), r1, ok_bind, hemit]
        rfl
      · rw [hemit, paths, paths, List.cons_append, List.append_assoc]
        exact List.Perm.cons _ (List.Perm.append_left _ r2)
      · intro k
        rw [r3, hemit]

end

end LHF
