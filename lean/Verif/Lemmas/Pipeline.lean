import Verif.Spec.Args
import Mathlib.Tactic.SplitIfs
import Mathlib.Tactic.Tauto

/-!
Lemmas on argument maps, the argument loop and the stage loop.
-/

namespace LHF

open Spec

theorem ArgMap.set_apply (m : ArgMap) (k v k' : String) :
    m.set k v k' = if k' = k then some v else m k' := rfl

theorem ArgMap.erase_apply (m : ArgMap) (k k' : String) :
    m.erase k k' = if k' = k then none else m k' := rfl

theorem parseLoop_cons (a v : String) (rest : List String) (m : ArgMap) :
    (∃ n, Names a n ∧ parseLoop (a :: v :: rest) m = parseLoop rest (m.set n v)) ∨
    ((∀ n, ¬ Names a n) ∧ parseLoop (a :: v :: rest) m = parseLoop rest m) := by
  rw [parseLoop]
  rcases hl : a.toList with _ | ⟨c, cs⟩
  · right
    refine ⟨fun n hn => ?_, by simp⟩
    rcases hn with h | h
    · simp [hl] at h
    · simp [hl] at h
  · rcases cs with _ | ⟨d, ds⟩
    · by_cases hc : c = '-'
      · subst hc
        left
        refine ⟨"", Or.inr ⟨by simp [hl], by simp⟩, by simp⟩
      · right
        refine ⟨fun n hn => ?_, by simp [hc]⟩
        rcases hn with h | h
        · simp [hl] at h
        · simp [hl] at h; exact hc h.1.1
    · by_cases hc : c = '-'
      · subst hc
        by_cases hd : d = '-'
        · subst hd
          left
          refine ⟨String.ofList ds, Or.inl (by simp [hl]), by simp⟩
        · left
          refine ⟨String.ofList (d :: ds), Or.inr ⟨by simp [hl], by simpa using hd⟩, by simp [hd]⟩
      · right
        refine ⟨fun n hn => ?_, by simp [hc]⟩
        rcases hn with h | h
        · rw [hl] at h; simp at h; exact hc h.1
        · rw [hl] at h; simp at h; exact hc h.1.1

theorem exists_names_of_dash {a : String} (h : a.toList.take 1 = ['-']) : ∃ n, Names a n := by
  rcases hl : a.toList with _ | ⟨c, cs⟩
  · rw [hl] at h; simp at h
  · rw [hl] at h
    simp at h
    subst h
    rcases cs with _ | ⟨d, ds⟩
    · exact ⟨"", Or.inr ⟨by simp [hl], by simp⟩⟩
    · by_cases hd : d = '-'
      · subst hd
        exact ⟨String.ofList ds, Or.inl (by simp [hl])⟩
      · exact ⟨String.ofList (d :: ds), Or.inr ⟨by simp [hl], by simpa using hd⟩⟩

theorem names_unique {a n n' : String} (h : Names a n) (h' : Names a n') : n = n' := by
  apply String.toList_inj.1
  rcases h with h | ⟨h, hn⟩ <;> rcases h' with h' | ⟨h', hn'⟩ <;> rw [h] at h'
  · simpa using h'
  · simp at h'; rw [← h'] at hn'; simp at hn'
  · simp at h'; rw [h'] at hn; simp at hn
  · simpa using h'

theorem lastValue_cons {p : String × String} {ps : List (String × String)} {n v : String}
    (h : LastValue (p :: ps) n v) :
    LastValue ps n v ∨ (Names p.1 n ∧ v = p.2 ∧ NotGiven ps n) := by
  obtain ⟨b, a, c, he, hn, hng⟩ := h
  rcases b with _ | ⟨x, b⟩
  · simp at he
    obtain ⟨rfl, rfl⟩ := he
    exact Or.inr ⟨hn, rfl, hng⟩
  · simp at he
    obtain ⟨rfl, rfl⟩ := he
    exact Or.inl ⟨b, a, c, rfl, hn, hng⟩

theorem given_or_not (ps : List (String × String)) (n : String) :
    NotGiven ps n ∨ ∃ v, LastValue ps n v := by
  induction ps with
  | nil => exact Or.inl (by intro p hp; simp at hp)
  | cons p ps ih =>
    rcases ih with h | ⟨v, b, a, c, rfl, hn, hng⟩
    · by_cases hp : Names p.1 n
      · exact Or.inr ⟨p.2, [], p.1, ps, rfl, hp, h⟩
      · left
        intro q hq
        rcases List.mem_cons.1 hq with rfl | hq
        · exact hp
        · exact h q hq
    · exact Or.inr ⟨v, p :: b, a, c, rfl, hn, hng⟩

theorem parseLoop_pairs (pairs : List (String × String)) (m : ArgMap) (tail : List String) :
    ∃ m', parseLoop (commandLine pairs ++ tail) m = parseLoop tail m' ∧
      ∀ n, (∀ v, LastValue pairs n v → m' n = some v) ∧ (NotGiven pairs n → m' n = m n) := by
  induction pairs generalizing m with
  | nil =>
    refine ⟨m, rfl, fun n => ⟨?_, fun _ => rfl⟩⟩
    rintro v ⟨b, a, c, he, _⟩
    simp at he
  | cons p ps ih =>
    have hcl : commandLine (p :: ps) ++ tail = p.1 :: p.2 :: (commandLine ps ++ tail) := rfl
    rw [hcl]
    rcases parseLoop_cons p.1 p.2 (commandLine ps ++ tail) m with ⟨n0, hn0, he⟩ | ⟨hno, he⟩
    · obtain ⟨m', hm', hs⟩ := ih (m.set n0 p.2)
      refine ⟨m', he.trans hm', fun n => ⟨fun v hv => ?_, fun hng => ?_⟩⟩
      · rcases lastValue_cons hv with h | ⟨h, rfl, hng⟩
        · exact (hs n).1 v h
        · rw [(hs n).2 hng, ArgMap.set_apply, if_pos (names_unique h hn0)]
      · rw [(hs n).2 (fun q hq => hng q (List.mem_cons_of_mem _ hq)), ArgMap.set_apply, if_neg]
        rintro rfl
        exact hng p (by simp) hn0
    · obtain ⟨m', hm', hs⟩ := ih m
      refine ⟨m', he.trans hm', fun n => ⟨fun v hv => ?_, fun hng => ?_⟩⟩
      · rcases lastValue_cons hv with h | ⟨h, rfl, hng⟩
        · exact (hs n).1 v h
        · exact absurd h (hno n)
      · exact (hs n).2 (fun q hq => hng q (List.mem_cons_of_mem _ hq))

/-! ### Defaults -/

theorem defaultStep_apply (m : ArgMap) (o : String × String × String) (hne : o.1 ≠ o.2.1) (k : String) :
    defaultStep m o k =
      if k = o.2.1 then none
      else if k = o.1 then (match m o.2.1 with
        | some v => some v
        | none => match m o.1 with
          | some v => some v
          | none => some o.2.2)
      else m k := by
  unfold defaultStep
  rcases hs : m o.2.1 with _ | v
  · rcases hl : m o.1 with _ | w
    · simp only [if_true, ArgMap.set_apply]
      by_cases h1 : k = o.2.1
      · subst h1; simp [Ne.symm hne, hs]
      · by_cases h2 : k = o.1 <;> simp [h1, h2, hne]
    · simp only [reduceCtorEq, if_false]
      by_cases h1 : k = o.2.1
      · subst h1; simp [hs]
      · by_cases h2 : k = o.1
        · subst h2; simp [h1, hl]
        · simp [h1, h2]
  · simp only [ArgMap.erase_apply, ArgMap.set_apply]

/-- The loop over a table of options whose names are all different. -/
theorem defaults_foldl (os : List (String × String × String)) (m : ArgMap)
    (hnd : (os.flatMap (fun o => [o.1, o.2.1])).Nodup) :
    (∀ o ∈ os, os.foldl defaultStep m o.2.1 = none ∧
      os.foldl defaultStep m o.1 = (match m o.2.1 with
        | some v => some v
        | none => match m o.1 with
          | some v => some v
          | none => some o.2.2)) ∧
    ∀ k, k ∉ os.flatMap (fun o => [o.1, o.2.1]) → os.foldl defaultStep m k = m k := by
  induction os generalizing m with
  | nil => exact ⟨by simp, fun k _ => rfl⟩
  | cons o os ih =>
    rw [List.flatMap_cons] at hnd
    have h1 := hnd
    rw [List.nodup_append] at h1
    obtain ⟨ha, hb, hdis⟩ := h1
    have hne : o.1 ≠ o.2.1 := by
      intro h
      rw [h] at ha
      simp at ha
    obtain ⟨hin, hout⟩ := ih (defaultStep m o) hb
    have hl : o.1 ∉ os.flatMap (fun o => [o.1, o.2.1]) := fun h => hdis o.1 (by simp) o.1 h rfl
    have hs : o.2.1 ∉ os.flatMap (fun o => [o.1, o.2.1]) :=
      fun h => hdis o.2.1 (by simp) o.2.1 h rfl
    refine ⟨fun q hq => ?_, fun k hk => ?_⟩
    · rw [List.foldl_cons]
      rcases List.mem_cons.1 hq with rfl | hq
      · rw [hout _ hs, hout _ hl, defaultStep_apply _ _ hne, defaultStep_apply _ _ hne]
        simp [hne]
      · have hq1 : q.1 ∈ os.flatMap (fun o => [o.1, o.2.1]) :=
          List.mem_flatMap.2 ⟨q, hq, by simp⟩
        have hq2 : q.2.1 ∈ os.flatMap (fun o => [o.1, o.2.1]) :=
          List.mem_flatMap.2 ⟨q, hq, by simp⟩
        have e1 : defaultStep m o q.1 = m q.1 := by
          rw [defaultStep_apply _ _ hne, if_neg, if_neg]
          · exact fun h => hl (h ▸ hq1)
          · exact fun h => hs (h ▸ hq1)
        have e2 : defaultStep m o q.2.1 = m q.2.1 := by
          rw [defaultStep_apply _ _ hne, if_neg, if_neg]
          · exact fun h => hl (h ▸ hq2)
          · exact fun h => hs (h ▸ hq2)
        have := hin q hq
        rw [e1, e2] at this
        exact this
    · rw [List.flatMap_cons, List.mem_append] at hk
      rw [List.foldl_cons, hout k (fun h => hk (Or.inr h)), defaultStep_apply _ _ hne, if_neg, if_neg]
      · rintro rfl; exact hk (Or.inl (by simp))
      · rintro rfl; exact hk (Or.inl (by simp))

theorem optionTable_nodup : (optionTable.flatMap (fun o => [o.1, o.2.1])).Nodup := by decide

/-! ### Stages -/

theorem cutStage_dot (c rest : List Char) (hc : '.' ∉ c) :
    cutStage (c ++ '.' :: rest) = (c, rest) := by
  unfold cutStage
  have h : (c ++ '.' :: rest).findIdx? (· = '.') = some c.length := by
    rw [List.findIdx?_eq_some_iff_getElem]
    refine ⟨by simp, by simp, ?_⟩
    intro j hj
    rw [List.getElem_append_left hj]
    simp only [decide_eq_true_eq]
    intro h
    exact hc (h ▸ List.getElem_mem hj)
  simp only [h]
  rw [List.take_left, List.drop_append]
  simp

theorem cutStage_none (c : List Char) (hc : '.' ∉ c) : (cutStage c).1 = c := by
  unfold cutStage
  have h : c.findIdx? (· = '.') = none := by
    rw [List.findIdx?_eq_none_iff]
    intro x hx
    simp only [decide_eq_false_iff_not]
    rintro rfl
    exact hc hx
  simp only [h]

theorem count_joinDots (cs : List (List Char)) (hne : cs ≠ []) (h : ∀ c ∈ cs, '.' ∉ c) :
    (joinDots cs).count '.' + 1 = cs.length := by
  induction cs with
  | nil => exact absurd rfl hne
  | cons c cs ih =>
    rcases cs with _ | ⟨d, cs⟩
    · simp [joinDots, List.count_eq_zero_of_not_mem (h c (by simp))]
    · rw [joinDots, List.count_append, List.count_eq_zero_of_not_mem (h c (by simp)),
        List.count_cons_self, Nat.zero_add, ih (by simp) (fun x hx => h x (List.mem_cons_of_mem _ hx))]
      simp

theorem stageNames_joinDots (cs : List (List Char)) (hne : cs ≠ []) (h : ∀ c ∈ cs, '.' ∉ c) :
    stageNames cs.length (joinDots cs) = cs := by
  induction cs with
  | nil => exact absurd rfl hne
  | cons c cs ih =>
    rcases cs with _ | ⟨d, cs⟩
    · simp [joinDots, stageNames, cutStage_none c (h c (by simp))]
    · rw [joinDots, List.length_cons, stageNames, cutStage_dot c _ (h c (by simp)),
        ih (by simp) (fun x hx => h x (List.mem_cons_of_mem _ hx))]

/-- Every text is the join of dot-free names. -/
theorem exists_joinDots (s : List Char) :
    ∃ cs, cs ≠ [] ∧ (∀ c ∈ cs, '.' ∉ c) ∧ joinDots cs = s := by
  induction s with
  | nil => exact ⟨[[]], by simp, by simp, rfl⟩
  | cons a s ih =>
    obtain ⟨cs, hne, h, rfl⟩ := ih
    rcases cs with _ | ⟨c, cs⟩
    · exact absurd rfl hne
    · by_cases ha : a = '.'
      · subst ha
        exact ⟨[] :: c :: cs, by simp, by simpa using h, rfl⟩
      · refine ⟨(a :: c) :: cs, by simp, ?_, ?_⟩
        · intro x hx
          rcases List.mem_cons.1 hx with rfl | hx
          · simp only [List.mem_cons, not_or]
            exact ⟨fun h' => ha h'.symm, h c (by simp)⟩
          · exact h x (List.mem_cons_of_mem _ hx)
        · cases cs <;> rfl

end LHF
