import Verif.Lemmas.DenRun

/-! The stream loop of denStream follows the specified algorithm. -/

namespace LHF
open Spec

open Classical in
theorem forall₂_filter {α β : Type} {R : α → β → Prop} {l : List α} {l' : List β}
    (h : List.Forall₂ R l l') (P : α → Prop) (Q : β → Prop) (hPQ : ∀ a b, R a b → (P a ↔ Q b)) :
    List.Forall₂ R (l.filter (fun a => P a)) (l'.filter (fun b => Q b)) := by
  induction h with
  | nil => exact List.Forall₂.nil
  | @cons a b as bs h1 h2 ih =>
    by_cases hP : P a
    · have hQ := (hPQ a b h1).1 hP
      rw [List.filter_cons_of_pos (by simpa using hP), List.filter_cons_of_pos (by simpa using hQ)]
      exact List.Forall₂.cons h1 ih
    · have hQ : ¬ Q b := fun hq => hP ((hPQ a b h1).2 hq)
      rw [List.filter_cons_of_neg (by simpa using hP), List.filter_cons_of_neg (by simpa using hQ)]
      exact ih

theorem prune_spec {k : Nat} (cfg : DenConfig) {st : DenState} {p o : List History}
    (hp : Reps k cfg.lambda p st.p) (ho : Reps k cfg.lambda o st.o) (hb : List.Forall₂ Born o st.o)
    (t : Int) :
    Reps k cfg.lambda (checkedPotential cfg.lambda cfg.betaMu t p) (denPrune cfg st t).p ∧
    Reps k cfg.lambda (checkedOutliers cfg.lambda cfg.Tp t o) (denPrune cfg st t).o ∧
    List.Forall₂ Born (checkedOutliers cfg.lambda cfg.Tp t o) (denPrune cfg st t).o := by
  have hlim : ∀ h m, Born h m → ((2 : ℝ) ^ (-cfg.lambda * ((t - m.creationTime + cfg.Tp : Int) : ℝ)) - 1) /
      ((2 : ℝ) ^ (-(cfg.Tp : ℝ) * cfg.lambda) - 1) = outlierLimit cfg.lambda cfg.Tp t (founded h) := by
    rintro h m ⟨e, h1, h2⟩
    unfold outlierLimit founded
    rw [h1, h2]
    have : -(cfg.Tp : ℝ) * cfg.lambda = -cfg.lambda * (cfg.Tp : ℝ) := by ring
    rw [this]
    rfl
  have hboth : List.Forall₂ (fun h m => MCInv k cfg.lambda h m ∧ Born h m) o st.o := by
    clear hp
    generalize st.o = cs at ho hb
    induction hb with
    | nil => exact List.Forall₂.nil
    | cons h1 h2 ih =>
      cases ho with
      | cons g1 g2 => exact List.Forall₂.cons ⟨g1, h1⟩ (ih g2)
  have h2 := forall₂_filter hboth
    (fun h => outlierLimit cfg.lambda cfg.Tp t (founded h) ≤ totalWeight cfg.lambda h t)
    (fun m => ¬ m.getWeight t < ((2 : ℝ) ^ (-cfg.lambda * ((t - m.creationTime + cfg.Tp : Int) : ℝ)) - 1) /
      ((2 : ℝ) ^ (-(cfg.Tp : ℝ) * cfg.lambda) - 1)) (by
      rintro h m ⟨h1, h2⟩
      rw [h1.getWeight t, hlim h m h2, not_lt])
  unfold checkedPotential checkedOutliers denPrune Reps
  refine ⟨?_, ?_, ?_⟩
  rotate_left
  · convert h2.imp fun _ _ h => h.1 using 2
    funext m
    congr
  · convert h2.imp fun _ _ h => h.2 using 2
    funext m
    congr
  convert forall₂_filter hp (fun h => cfg.betaMu ≤ totalWeight cfg.lambda h t)
    (fun m => ¬ m.getWeight t < cfg.betaMu) (by
      intro h m h1
      rw [h1.getWeight t, not_lt]) using 2
  · funext m
    congr

/-- One more row: the unit of time and the rows seen in it. -/
theorem tick_spec {speed : Nat} (hs : 0 < speed) (i : Nat) :
    (if decide (i % speed + 1 = speed) = true then 0 else i % speed + 1) = (i + 1) % speed ∧
    (if decide (i % speed + 1 = speed) = true then ((i / speed : Nat) : Int) + 1
      else ((i / speed : Nat) : Int)) = (((i + 1) / speed : Nat) : Int) := by
  have h := Nat.mod_add_div i speed
  have hlt := Nat.mod_lt i hs
  by_cases hc : i % speed + 1 = speed
  · have e : i + 1 = speed * (i / speed + 1) := by
      rw [Nat.mul_add, Nat.mul_one]; omega
    rw [if_pos (by simpa using hc), if_pos (by simpa using hc), e]
    rw [Nat.mul_mod_right, Nat.mul_div_cancel_left _ hs]
    exact ⟨rfl, by push_cast; rfl⟩
  · have e : i + 1 = (i % speed + 1) + speed * (i / speed) := by omega
    have hlt' : i % speed + 1 < speed := by omega
    rw [if_neg (by simpa using hc), if_neg (by simpa using hc)]
    constructor
    · rw [e, Nat.add_mul_mod_self_left, Nat.mod_eq_of_lt hlt']
    · congr 1
      rw [e, Nat.add_mul_div_left _ _ hs, Nat.div_eq_of_lt hlt', Nat.zero_add]

theorem denStreamLoop_exact {k : Nat} (cfg : DenConfig) (hTp : cfg.Tp ≠ 0) (hs : 0 < cfg.streamSpeed)
    (xs : List (List ℝ)) (hxs : ∀ x ∈ xs, x.length = k) :
    ∀ (st : DenState) (p o : List History) (i : Nat),
    Reps k cfg.lambda p st.p → Reps k cfg.lambda o st.o → List.Forall₂ Born o st.o →
    ∃ st' p' o', denStreamLoop cfg k xs st (i % cfg.streamSpeed) (i / cfg.streamSpeed : Nat) = .ok st' ∧
      Reps k cfg.lambda p' st'.p ∧
      Streamed k cfg.lambda cfg.epsilon cfg.betaMu cfg.streamSpeed cfg.Tp i xs p o p' o' := by
  induction xs with
  | nil =>
    intro st p o i hp ho hb
    exact ⟨st, p, o, rfl, hp, Streamed.done i p o⟩
  | cons x xs ih =>
    intro st p o i hp ho hb
    rw [denStreamLoop]
    dsimp only
    obtain ⟨e1, e2⟩ := tick_spec hs i
    rw [e1, e2]
    obtain ⟨st1, p1, o1, h1, h2, h3, h4, h5⟩ :=
      denMerging_spec cfg hp ho x (hxs x (by simp)) (((i + 1) / cfg.streamSpeed : Nat) : Int)
    rw [h1, ok_bind, if_neg hTp]
    by_cases hc : cfg.Tp ∣ (((i + 1) / cfg.streamSpeed : Nat) : Int) ∧ (i + 1) % cfg.streamSpeed = 0
    · rw [if_pos hc]
      obtain ⟨g1, g2, g3⟩ := prune_spec cfg h3 h4 (h5 hb) (((i + 1) / cfg.streamSpeed : Nat) : Int)
      obtain ⟨st3, p3, o3, k1, k2, k3⟩ := ih (fun y hy => hxs y (by simp [hy])) _ _ _ (i + 1) g1 g2 g3
      exact ⟨st3, p3, o3, k1, k2, Streamed.check h2 (Nat.dvd_of_mod_eq_zero hc.2) hc.1 k3⟩
    · rw [if_neg hc]
      obtain ⟨st3, p3, o3, k1, k2, k3⟩ := ih (fun y hy => hxs y (by simp [hy])) _ _ _ (i + 1) h3 h4 (h5 hb)
      refine ⟨st3, p3, o3, k1, k2, Streamed.row h2 ?_ k3⟩
      rintro ⟨a, b⟩
      exact hc ⟨b, Nat.mod_eq_zero_of_dvd a⟩

/-- A check leaves no empty group among the potential ones. -/
theorem Spec.Streamed.nonEmpty {k : Nat} {l e w : ℝ} (hw : 0 < w) {speed : Nat} (hs : 0 < speed)
    {Tp : Int} {i : Nat} {xs : List (List ℝ)} {p o p' o' : List History}
    (h : Streamed k l e w speed Tp i xs p o p' o') (ho : NonEmptyGroups o)
    (hc : NonEmptyGroups p ∨ ∃ T : Nat, i < speed * T ∧ speed * T ≤ i + xs.length ∧ Tp ∣ (T : Int)) :
    NonEmptyGroups p' := by
  have habs : ∀ {p o p1 o1 : List History} {x : List ℝ} {t : Int}, Absorb k l e w p o x t p1 o1 →
      NonEmptyGroups o → NonEmptyGroups o1 := by
    intro p o p1 o1 x t h ho
    cases h with
    | potential i h => exact ho
    | outlier i h =>
      intro a ha
      rcases List.mem_or_eq_of_mem_set ha with h' | h'
      · exact ho a h'
      · rw [h']; simp
    | promote i h => exact fun a ha => ho a (List.mem_of_mem_eraseIdx ha)
    | new =>
      intro a ha
      rcases List.mem_append.1 ha with h' | h'
      · exact ho a h'
      · rw [List.mem_singleton] at h'; rw [h']; simp
  induction h with
  | done i p o =>
    rcases hc with hc | ⟨T, h1, h2, -⟩
    · exact hc
    · simp only [List.length_nil, Nat.add_zero] at h2; omega
  | @row i x xs p o p1 o1 p' o' h1 h2 h3 ih =>
    refine ih (habs h1 ho) ?_
    rcases hc with hc | ⟨T, g1, g2, g3⟩
    · exact Or.inl (h1.nonEmpty hc ho).1
    · refine Or.inr ⟨T, ?_, by rw [List.length_cons] at g2; omega, g3⟩
      rcases Nat.lt_or_ge (i + 1) (speed * T) with h | h
      · exact h
      · exfalso
        have e : i + 1 = speed * T := by omega
        apply h2
        rw [e, Nat.mul_div_cancel_left _ hs]
        exact ⟨⟨T, rfl⟩, g3⟩
  | @check i x xs p o p1 o1 p' o' h1 h2 h3 h4 ih =>
    refine ih (fun h hh => habs h1 ho h (List.mem_of_mem_filter hh)) (Or.inl ?_)
    intro h hh he
    have := (List.mem_filter.1 hh).2
    simp only [decide_eq_true_eq] at this
    rw [he] at this
    simp only [totalWeight, List.map_nil, List.sum_nil] at this
    linarith

end LHF
