import Verif.Model.Dbscan
import Verif.Spec.Dbscan
import Verif.Lemmas.Res
import Mathlib.Tactic.SplitIfs
import Mathlib.Tactic.Ring
import Mathlib.Algebra.Order.Ring.Int

/-!
The loops of DBSCAN: invariants and the number of turns.
-/

namespace LHF

open Spec

/-- The label of a point. -/
def labelAt (labels : List Int) (i : Nat) : Int := labels.getD i 0

theorem vget_label {labels : List Int} {i : Nat} (h : i < labels.length) :
    vget labels i = .ok (labelAt labels i) := by
  rw [vget_of_lt h]
  unfold labelAt
  simp [h]

theorem vmodify_label {labels : List Int} {i : Nat} (h : i < labels.length) (c : Int) :
    vmodify labels i (fun _ => c) = .ok (labels.modify i (fun _ => c)) := by
  unfold vmodify
  rw [if_pos h]

theorem labelAt_modify {labels : List Int} {i : Nat} (h : i < labels.length) (c : Int) (j : Nat) :
    labelAt (labels.modify i (fun _ => c)) j = if j = i then c else labelAt labels j := by
  unfold labelAt
  rw [List.getD_eq_getElem?_getD, List.getD_eq_getElem?_getD, List.getElem?_modify]
  by_cases hj : j = i
  · subst hj
    simp [h]
  · have : ¬ i = j := fun e => hj e.symm
    simp [hj, this]

/-- The number of points without a label. -/
def unlabelled (labels : List Int) : Nat := labels.countP (· = 0)

theorem unlabelled_modify {labels : List Int} {i : Nat} (h : i < labels.length) {c : Int} (hc : c ≠ 0) :
    unlabelled (labels.modify i (fun _ => c)) + (if labelAt labels i = 0 then 1 else 0)
      = unlabelled labels := by
  induction labels generalizing i with
  | nil => simp at h
  | cons a l ih =>
    cases i with
    | zero =>
      have hm : (a :: l).modify 0 (fun _ => c) = c :: l := by simp [List.modify_zero_cons]
      rw [hm]
      unfold unlabelled labelAt
      by_cases ha : a = 0 <;> simp [hc, ha]
    | succ i =>
      rw [List.modify_succ_cons]
      have hl : i < l.length := by simpa using h
      have := ih hl
      have e : labelAt (a :: l) (i + 1) = labelAt l i := by unfold labelAt; simp
      unfold unlabelled at this ⊢
      rw [e, List.countP_cons, List.countP_cons]
      omega

theorem unlabelled_le (labels : List Int) : unlabelled labels ≤ labels.length :=
  List.countP_le_length

/-- What is assumed of the neighbourhoods. -/
structure Neighbours (N : Nat → List Nat) (nb : Nat → Res (List Nat)) (n : Nat) : Prop where
  val : ∀ i, i < n → nb i = .ok (N i)
  lt : ∀ i, i < n → ∀ j ∈ N i, j < n

/-- The invariant of `expandCluster` with the start label list `L0`, the new label `c` and the core
point `s` whose neighbours are in the queue at first. `R` are the core points found so far. -/
structure Expanding (N : Nat → List Nat) (minPoints n : Nat) (L0 : List Int) (c : Int) (s : Nat)
    (L : List Int) (q : List Nat) (R : Nat → Prop) : Prop where
  len : L.length = n
  qlt : ∀ i ∈ q, i < n
  old : ∀ i, i < n → 1 ≤ labelAt L0 i → labelAt L i = labelAt L0 i
  new : ∀ i, i < n → labelAt L i = labelAt L0 i ∨
    (labelAt L i = c ∧ (labelAt L0 i = 0 ∨ labelAt L0 i = -1))
  found : ∀ i, R i → i < n ∧ Core N minPoints i ∧ Connected N minPoints n s i
  foundLabel : ∀ i, R i → i ≠ s → labelAt L i = c
  seed : R s ∧ (labelAt L s = c ∨ s ∈ q)
  near : ∀ i, (i < n ∧ labelAt L i = c) ∨ i ∈ q → ∃ j, R j ∧ i ∈ N j
  closed : ∀ j, R j → ∀ i ∈ N j, 1 ≤ labelAt L i ∨ i ∈ q
  core : ∀ i, i < n → Core N minPoints i → labelAt L i = c → R i

theorem expandCluster_spec {N : Nat → List Nat} {nb : Nat → Res (List Nat)} {minPoints n : Nat}
    (hN : Neighbours N nb n) {L0 : List Int} {c : Int} (hc : 1 ≤ c) {s : Nat} {B : Nat}
    (hB : ∀ i, i < n → (N i).length ≤ B)
    (hlow : ∀ i, i < n → -1 ≤ labelAt L0 i) (hs0 : labelAt L0 s = 0)
    (hnoise : ∀ i, i < n → labelAt L0 i = -1 → ¬ Core N minPoints i) :
    ∀ (fuel : Nat) (L : List Int) (q : List Nat) (R : Nat → Prop),
      Expanding N minPoints n L0 c s L q R → q.length + unlabelled L * B ≤ fuel →
      ∃ L' R', expandCluster nb minPoints c fuel L q = .ok (some L') ∧
        Expanding N minPoints n L0 c s L' [] R' := by
  intro fuel
  induction fuel with
  | zero =>
    intro L q R hI hf
    have : q = [] := List.length_eq_zero_iff.1 (by omega)
    subst this
    exact ⟨L, R, rfl, hI⟩
  | succ fuel ih =>
    intro L q R hI hf
    rcases q with _ | ⟨pt, q⟩
    · exact ⟨L, R, by rw [expandCluster]; rfl, hI⟩
    · have hpt : pt < n := hI.qlt pt (by simp)
      have hptL : pt < L.length := by rw [hI.len]; exact hpt
      rw [expandCluster, vget_label hptL]
      simp only [bind, Except.bind]
      have hlm := labelAt_modify hptL c
      have hptnear := hI.near pt (Or.inr (by simp))
      -- the state after giving `pt` the label `c`
      by_cases h1 : labelAt L pt = -1
      · rw [if_pos h1, vmodify_label hptL]
        simp only
        have h0 : labelAt L0 pt = -1 := by
          rcases hI.new pt hpt with h | h
          · rw [← h]; exact h1
          · omega
        have hs : pt ≠ s := by
          rintro rfl
          exact hnoise pt hpt h0 (hI.found pt hI.seed.1).2.1
        refine ih _ q R ?_ ?_
        · refine ⟨by rw [List.length_modify]; exact hI.len,
            fun i hi => hI.qlt i (List.mem_cons_of_mem _ hi), ?_, ?_, hI.found, ?_, ?_, ?_, ?_, ?_⟩
          · intro i hi h
            rw [hlm]
            split_ifs with e
            · subst e; omega
            · exact hI.old i hi h
          · intro i hi
            rw [hlm]
            split_ifs with e
            · subst e; exact Or.inr ⟨rfl, Or.inr h0⟩
            · exact hI.new i hi
          · intro i hi hne
            rw [hlm]
            split_ifs
            · rfl
            · exact hI.foundLabel i hi hne
          · refine ⟨hI.seed.1, ?_⟩
            rcases hI.seed.2 with h | h
            · left
              rw [hlm]
              split_ifs
              · rfl
              · exact h
            · rcases List.mem_cons.1 h with h | h
              · exact absurd h.symm hs
              · exact Or.inr h
          · intro i hi
            rcases hi with ⟨hi, h⟩ | h
            · rw [hlm] at h
              split_ifs at h with e
              · subst e; exact hptnear
              · exact hI.near i (Or.inl ⟨hi, h⟩)
            · exact hI.near i (Or.inr (List.mem_cons_of_mem _ h))
          · intro j hj i hi
            rw [hlm]
            split_ifs with e
            · exact Or.inl hc
            · rcases hI.closed j hj i hi with h | h
              · exact Or.inl h
              · rcases List.mem_cons.1 h with h | h
                · exact absurd h e
                · exact Or.inr h
          · intro i hi hcore h
            rw [hlm] at h
            split_ifs at h with e
            · subst e; exact absurd hcore (hnoise i hi h0)
            · exact hI.core i hi hcore h
        · have := unlabelled_modify hptL (c := c) (by omega)
          rw [if_neg (by omega), Nat.add_zero] at this
          rw [this]
          simp only [List.length_cons] at hf
          omega
      · rw [if_neg h1]
        by_cases h2 : labelAt L pt = 0
        · rw [if_pos h2, vmodify_label hptL, hN.val pt hpt]
          simp only
          have h0 : labelAt L0 pt = 0 := by
            rcases hI.new pt hpt with h | h
            · rw [← h]; exact h2
            · omega
          have hun := unlabelled_modify hptL (c := c) (by omega)
          rw [if_pos h2] at hun
          have hBp := hB pt hpt
          simp only [List.length_cons] at hf
          rw [← hun, Nat.add_mul, Nat.one_mul] at hf
          by_cases hcore : (N pt).length ≥ minPoints
          · rw [if_pos hcore]
            obtain ⟨j0, hj0, hptj0⟩ := hptnear
            have hconn : Connected N minPoints n s pt :=
              Relation.EqvGen.trans _ _ _ (hI.found j0 hj0).2.2
                (Relation.EqvGen.rel _ _ ⟨(hI.found j0 hj0).1, hpt,
                  (hI.found j0 hj0).2.1, hcore, hptj0⟩)
            refine ih _ (q ++ N pt) (fun i => R i ∨ i = pt) ?_ ?_
            · refine ⟨by rw [List.length_modify]; exact hI.len, ?_, ?_, ?_, ?_, ?_, ?_, ?_, ?_, ?_⟩
              · intro i hi
                rcases List.mem_append.1 hi with h | h
                · exact hI.qlt i (List.mem_cons_of_mem _ h)
                · exact hN.lt pt hpt i h
              · intro i hi h
                rw [hlm]
                split_ifs with e
                · subst e; omega
                · exact hI.old i hi h
              · intro i hi
                rw [hlm]
                split_ifs with e
                · subst e; exact Or.inr ⟨rfl, Or.inl h0⟩
                · exact hI.new i hi
              · rintro i (hi | rfl)
                · exact hI.found i hi
                · exact ⟨hpt, hcore, hconn⟩
              · rintro i (hi | rfl) hne
                · rw [hlm]
                  split_ifs
                  · rfl
                  · exact hI.foundLabel i hi hne
                · rw [hlm, if_pos rfl]
              · refine ⟨Or.inl hI.seed.1, ?_⟩
                rcases hI.seed.2 with h | h
                · left
                  rw [hlm]
                  split_ifs
                  · rfl
                  · exact h
                · rcases List.mem_cons.1 h with h | h
                  · left; rw [hlm, if_pos h]
                  · exact Or.inr (List.mem_append_left _ h)
              · intro i hi
                rcases hi with ⟨hi, h⟩ | h
                · rw [hlm] at h
                  split_ifs at h with e
                  · subst e; exact ⟨j0, Or.inl hj0, hptj0⟩
                  · obtain ⟨j, hj, hij⟩ := hI.near i (Or.inl ⟨hi, h⟩)
                    exact ⟨j, Or.inl hj, hij⟩
                · rcases List.mem_append.1 h with h' | h'
                  · obtain ⟨j, hj, hij⟩ := hI.near i (Or.inr (List.mem_cons_of_mem _ h'))
                    exact ⟨j, Or.inl hj, hij⟩
                  · exact ⟨pt, Or.inr rfl, h'⟩
              · rintro j (hj | rfl) i hi
                · rw [hlm]
                  split_ifs with e
                  · exact Or.inl hc
                  · rcases hI.closed j hj i hi with h | h
                    · exact Or.inl h
                    · rcases List.mem_cons.1 h with h | h
                      · exact absurd h e
                      · exact Or.inr (List.mem_append_left _ h)
                · exact Or.inr (List.mem_append_right _ hi)
              · intro i hi hcore' h
                rw [hlm] at h
                split_ifs at h with e
                · exact Or.inr e
                · exact Or.inl (hI.core i hi hcore' h)
            · rw [List.length_append]
              omega
          · rw [if_neg hcore]
            have hs : pt ≠ s := by
              rintro rfl
              exact hcore (hI.found pt hI.seed.1).2.1
            refine ih _ q R ?_ (by omega)
            refine ⟨by rw [List.length_modify]; exact hI.len,
              fun i hi => hI.qlt i (List.mem_cons_of_mem _ hi), ?_, ?_, hI.found, ?_, ?_, ?_, ?_, ?_⟩
            · intro i hi h
              rw [hlm]
              split_ifs with e
              · subst e; omega
              · exact hI.old i hi h
            · intro i hi
              rw [hlm]
              split_ifs with e
              · subst e; exact Or.inr ⟨rfl, Or.inl h0⟩
              · exact hI.new i hi
            · intro i hi hne
              rw [hlm]
              split_ifs
              · rfl
              · exact hI.foundLabel i hi hne
            · refine ⟨hI.seed.1, ?_⟩
              rcases hI.seed.2 with h | h
              · left
                rw [hlm]
                split_ifs
                · rfl
                · exact h
              · rcases List.mem_cons.1 h with h | h
                · exact absurd h.symm hs
                · exact Or.inr h
            · intro i hi
              rcases hi with ⟨hi, h⟩ | h
              · rw [hlm] at h
                split_ifs at h with e
                · subst e; exact hptnear
                · exact hI.near i (Or.inl ⟨hi, h⟩)
              · exact hI.near i (Or.inr (List.mem_cons_of_mem _ h))
            · intro j hj i hi
              rw [hlm]
              split_ifs with e
              · exact Or.inl hc
              · rcases hI.closed j hj i hi with h | h
                · exact Or.inl h
                · rcases List.mem_cons.1 h with h | h
                  · exact absurd h e
                  · exact Or.inr h
            · intro i hi hcore' h
              rw [hlm] at h
              split_ifs at h with e
              · subst e; exact absurd hcore' hcore
              · exact hI.core i hi hcore' h
        · rw [if_neg h2]
          -- `pt` has a label already
          have hneg : 1 ≤ labelAt L pt := by
            have := hlow pt hpt
            rcases hI.new pt hpt with h | h
            · omega
            · omega
          refine ih _ q R ?_ (by simp only [List.length_cons] at hf; omega)
          refine ⟨hI.len, fun i hi => hI.qlt i (List.mem_cons_of_mem _ hi), hI.old, hI.new,
            hI.found, hI.foundLabel, ⟨hI.seed.1, ?_⟩, ?_, ?_, hI.core⟩
          · rcases hI.seed.2 with h | h
            · exact Or.inl h
            · rcases List.mem_cons.1 h with h | h
              · subst h
                left
                rcases hI.new s hpt with h' | h'
                · omega
                · exact h'.1
              · exact Or.inr h
          · intro i hi
            rcases hi with h | h
            · exact hI.near i (Or.inl h)
            · exact hI.near i (Or.inr (List.mem_cons_of_mem _ h))
          · intro j hj i hi
            rcases hI.closed j hj i hi with h | h
            · exact Or.inl h
            · rcases List.mem_cons.1 h with rfl | h
              · exact Or.inl hneg
              · exact Or.inr h

/-- The invariant of `cluster` after the points below `t`, with `m` clusters. -/
structure Clustered (N : Nat → List Nat) (minPoints n t m : Nat) (L : List Int) : Prop where
  len : L.length = n
  low : ∀ i, i < n → -1 ≤ labelAt L i
  high : ∀ i, i < n → labelAt L i ≤ m
  done : ∀ i, i < t → labelAt L i ≠ 0
  noise : ∀ i, i < n → labelAt L i = -1 → ¬ Core N minPoints i
  closed : ∀ i, i < n → Core N minPoints i → 1 ≤ labelAt L i → ∀ j ∈ N i, 1 ≤ labelAt L j
  near : ∀ i, i < n → 1 ≤ labelAt L i →
    ∃ j, j < n ∧ Core N minPoints j ∧ labelAt L j = labelAt L i ∧ i ∈ N j
  conn : ∀ i j, i < n → j < n → Core N minPoints i → Core N minPoints j → 1 ≤ labelAt L i →
    labelAt L i = labelAt L j → Connected N minPoints n i j
  used : ∀ c : Int, 1 ≤ c → c ≤ m → ∃ i, i < n ∧ labelAt L i = c
  same : (∀ i j, i < n → j < n → j ∈ N i → i ∈ N j) → ∀ i j, i < n → Core N minPoints i →
    Core N minPoints j → j ∈ N i → 1 ≤ labelAt L i → labelAt L j = labelAt L i

theorem clusterStep_spec {N : Nat → List Nat} {nb : Nat → Res (List Nat)} {minPoints n : Nat}
    (hN : Neighbours N nb n) (hself : ∀ i, i < n → i ∈ N i) {B : Nat}
    (hB : ∀ i, i < n → (N i).length ≤ B) {fuel : Nat} (hfuel : (n + 1) * B ≤ fuel)
    {t m : Nat} {L : List Int} (ht : t < n) (hI : Clustered N minPoints n t m L) :
    ∃ L' m', clusterStep nb minPoints fuel (L, m) t = .ok (some (L', m')) ∧
      Clustered N minPoints n (t + 1) m' L' := by
  have htL : t < L.length := by rw [hI.len]; exact ht
  unfold clusterStep
  dsimp only
  rw [vget_label htL]
  simp only [bind, Except.bind]
  by_cases h0 : labelAt L t = 0
  · rw [if_neg (not_not.2 h0), hN.val t ht]
    simp only
    by_cases hcore : (N t).length < minPoints
    · rw [if_pos hcore, vmodify_label htL]
      simp only
      have hlm := labelAt_modify htL (-1)
      have hlm1 : ∀ i, 1 ≤ labelAt (L.modify t (fun _ => -1)) i → 1 ≤ labelAt L i ∧
          labelAt (L.modify t (fun _ => -1)) i = labelAt L i := by
        intro i h
        rw [hlm] at h ⊢
        split_ifs at h ⊢ with e
        · omega
        · exact ⟨h, rfl⟩
      have hlm2 : ∀ i, 1 ≤ labelAt L i →
          labelAt (L.modify t (fun _ => -1)) i = labelAt L i := by
        intro i h
        rw [hlm]
        split_ifs with e
        · subst e; omega
        · rfl
      refine ⟨_, _, rfl, by rw [List.length_modify]; exact hI.len, ?_, ?_, ?_, ?_, ?_, ?_, ?_, ?_, ?_⟩
      · intro i hi
        rw [hlm]
        split_ifs
        · omega
        · exact hI.low i hi
      · intro i hi
        rw [hlm]
        split_ifs
        · omega
        · exact hI.high i hi
      · intro i hi
        rw [hlm]
        split_ifs with e
        · omega
        · exact hI.done i (by omega)
      · intro i hi h
        rw [hlm] at h
        split_ifs at h with e
        · subst e; unfold Core; omega
        · exact hI.noise i hi h
      · intro i hi hc h j hj
        obtain ⟨h1, -⟩ := hlm1 i h
        have := hI.closed i hi hc h1 j hj
        rw [hlm2 j this]
        exact this
      · intro i hi h
        obtain ⟨h1, h2⟩ := hlm1 i h
        obtain ⟨j, hj, hjc, hjl, hij⟩ := hI.near i hi h1
        exact ⟨j, hj, hjc, by rw [hlm2 j (by omega), h2, hjl], hij⟩
      · intro i j hi hj hci hcj h he
        obtain ⟨h1, h2⟩ := hlm1 i h
        obtain ⟨h3, h4⟩ := hlm1 j (by omega)
        exact hI.conn i j hi hj hci hcj h1 (by omega)
      · intro c h1 h2
        obtain ⟨i, hi, h⟩ := hI.used c h1 h2
        exact ⟨i, hi, by rw [hlm2 i (by omega), h]⟩
      · intro hsym i j hi hci hcj hij h
        obtain ⟨h1, h2⟩ := hlm1 i h
        have := hI.same hsym i j hi hci hcj hij h1
        rw [hlm2 j (by omega), h2, this]
    · rw [if_neg hcore]
      have hct : Core N minPoints t := by unfold Core; omega
      have hBt := hB t ht
      have hun := unlabelled_le L
      have hstart : Expanding N minPoints n L ((m : Int) + 1) t L (N t) (fun i => i = t) := by
        refine ⟨hI.len, hN.lt t ht, fun _ _ _ => rfl, fun i _ => Or.inl rfl, ?_, ?_, ?_, ?_, ?_, ?_⟩
        · rintro i rfl
          exact ⟨ht, hct, Relation.EqvGen.refl _⟩
        · exact fun i hi hne => absurd hi hne
        · exact ⟨rfl, Or.inr (hself t ht)⟩
        · rintro i (⟨hi, h⟩ | h)
          · have := hI.high i hi; omega
          · exact ⟨t, rfl, h⟩
        · rintro j rfl i hi
          exact Or.inr hi
        · intro i hi _ h
          have := hI.high i hi; omega
      obtain ⟨L', R, he, hE⟩ := expandCluster_spec hN (c := (m : Int) + 1) (by omega) hB hI.low h0
        hI.noise fuel L (N t) _ hstart (by
          have : unlabelled L * B ≤ n * B := Nat.mul_le_mul_right _ (by rw [← hI.len]; exact hun)
          rw [Nat.add_mul, Nat.one_mul] at hfuel
          omega)
      rw [he]
      refine ⟨L', m + 1, rfl, ?_⟩
      have hs : labelAt L' t = (m : Int) + 1 := by
        rcases hE.seed.2 with h | h
        · exact h
        · cases h
      have hR : ∀ i, R i → labelAt L' i = (m : Int) + 1 := by
        intro i hi
        by_cases e : i = t
        · rw [e]; exact hs
        · exact hE.foundLabel i hi e
      -- a positive label is an old one or the new one
      have hpos : ∀ i, i < n → 1 ≤ labelAt L' i →
          (1 ≤ labelAt L i ∧ labelAt L' i = labelAt L i) ∨ labelAt L' i = (m : Int) + 1 := by
        intro i hi h
        rcases hE.new i hi with h' | h'
        · exact Or.inl ⟨by omega, h'⟩
        · exact Or.inr h'.1
      refine ⟨hE.len, ?_, ?_, ?_, ?_, ?_, ?_, ?_, ?_, ?_⟩
      · intro i hi
        have := hI.low i hi
        rcases hE.new i hi with h | h <;> omega
      · intro i hi
        have := hI.high i hi
        rcases hE.new i hi with h | h <;> push_cast <;> omega
      · intro i hi
        by_cases e : i = t
        · rw [e, hs]; omega
        · have := hI.done i (by omega)
          rcases hE.new i (by omega) with h | h <;> omega
      · intro i hi h
        rcases hE.new i hi with h' | h'
        · exact hI.noise i hi (by omega)
        · omega
      · intro i hi hc h j hj
        rcases hpos i hi h with ⟨h1, h2⟩ | h1
        · have := hI.closed i hi hc h1 j hj
          rw [hE.old j (hN.lt i hi j hj) this]
          exact this
        · rcases hE.closed i (hE.core i hi hc h1) j hj with h | h
          · exact h
          · cases h
      · intro i hi h
        rcases hpos i hi h with ⟨h1, h2⟩ | h1
        · obtain ⟨j, hj, hjc, hjl, hij⟩ := hI.near i hi h1
          exact ⟨j, hj, hjc, by rw [hE.old j hj (by omega), h2, hjl], hij⟩
        · obtain ⟨j, hj, hij⟩ := hE.near i (Or.inl ⟨hi, h1⟩)
          have := hE.found j hj
          exact ⟨j, this.1, this.2.1, by rw [hR j hj, h1], hij⟩
      · intro i j hi hj hci hcj h heq
        rcases hpos i hi h with ⟨h1, h2⟩ | h1
        · have hm := hI.high i hi
          rcases hpos j hj (by omega) with ⟨h3, h4⟩ | h3
          · exact hI.conn i j hi hj hci hcj h1 (by omega)
          · omega
        · have r1 := hE.core i hi hci h1
          have r2 := hE.core j hj hcj (by omega)
          exact Relation.EqvGen.trans _ _ _ (Relation.EqvGen.symm _ _ (hE.found i r1).2.2)
            (hE.found j r2).2.2
      · intro c h1 h2
        by_cases e : c = (m : Int) + 1
        · exact ⟨t, ht, by rw [hs, e]⟩
        · push_cast at h2
          obtain ⟨i, hi, h⟩ := hI.used c h1 (by omega)
          exact ⟨i, hi, by rw [hE.old i hi (by omega), h]⟩
      · intro hsym i j hi hci hcj hij h
        have hj : j < n := hN.lt i hi j hij
        rcases hpos i hi h with ⟨h1, h2⟩ | h1
        · have := hI.same hsym i j hi hci hcj hij h1
          rw [hE.old j hj (by omega), h2, this]
        · have hj1 : 1 ≤ labelAt L' j := by
            rcases hE.closed i (hE.core i hi hci h1) j hij with h | h
            · exact h
            · cases h
          rcases hpos j hj hj1 with ⟨h3, h4⟩ | h3
          · have h5 := hI.closed j hj hcj h3 i (hsym i j hi hj hij)
            have h6 := hE.old i hi h5
            have h7 := hI.high i hi
            omega
          · omega
  · rw [if_pos h0]
    refine ⟨L, m, rfl, hI.len, hI.low, hI.high, ?_, hI.noise, hI.closed, hI.near, hI.conn, hI.used,
      hI.same⟩
    intro i hi
    by_cases e : i = t
    · rw [e]; exact h0
    · exact hI.done i (by omega)

theorem clusterLoop_spec {N : Nat → List Nat} {nb : Nat → Res (List Nat)} {minPoints n : Nat}
    (hN : Neighbours N nb n) (hself : ∀ i, i < n → i ∈ N i) {B : Nat}
    (hB : ∀ i, i < n → (N i).length ≤ B) {fuel : Nat} (hfuel : (n + 1) * B ≤ fuel) :
    ∀ (k t m : Nat) (L : List Int), t + k = n → Clustered N minPoints n t m L →
      ∃ L' m', clusterLoop nb minPoints fuel (List.range' t k) (L, m) = .ok (some (L', m')) ∧
        Clustered N minPoints n n m' L' := by
  intro k
  induction k with
  | zero =>
    intro t m L ht hI
    have : t = n := by omega
    subst this
    exact ⟨L, m, rfl, hI⟩
  | succ k ih =>
    intro t m L ht hI
    obtain ⟨L', m', he, hI'⟩ := clusterStep_spec hN hself hB hfuel (by omega) hI
    obtain ⟨L'', m'', he', hI''⟩ := ih (t + 1) m' L' (by omega) hI'
    refine ⟨L'', m'', ?_, hI''⟩
    rw [List.range'_succ, clusterLoop, he]
    exact he'

theorem clusterPoints_spec {N : Nat → List Nat} {nb : Nat → Res (List Nat)} {minPoints n : Nat}
    (hN : Neighbours N nb n) (hself : ∀ i, i < n → i ∈ N i) {B : Nat}
    (hB : ∀ i, i < n → (N i).length ≤ B) {fuel : Nat} (hfuel : (n + 1) * B ≤ fuel) :
    ∃ L m, clusterPoints nb minPoints fuel n = .ok (some (L, m)) ∧
      Clustered N minPoints n n m L := by
  unfold clusterPoints
  rw [List.range_eq_range']
  have h0 : ∀ i, labelAt (List.replicate n 0) i = 0 := by
    intro i
    unfold labelAt
    rw [List.getD_eq_getElem?_getD, List.getElem?_replicate]
    split_ifs <;> rfl
  refine clusterLoop_spec hN hself hB hfuel n 0 0 _ (by omega) ⟨by simp, ?_, ?_, ?_, ?_, ?_, ?_, ?_, ?_, ?_⟩
  · intro i _; rw [h0]; omega
  · intro i _; rw [h0]; simp
  · intro i h; omega
  · intro i _ h; rw [h0] at h; omega
  · intro i _ _ h; rw [h0] at h; omega
  · intro i _ h; rw [h0] at h; omega
  · intro i j _ _ _ _ h; rw [h0] at h; omega
  · intro c h1 h2; simp at h2; omega
  · intro _ i j _ _ _ _ h; rw [h0] at h; omega

end LHF
