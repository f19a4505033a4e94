import Verif.Model.Basic
import Mathlib.Tactic.Tauto

/-! Lemmas about the merge loops of the standard library. -/

namespace LHF
variable {α : Type _} [LinearOrder α]

/-- A strictly increasing list, the representation of a `std::set`. -/
abbrev Inc (l : List α) : Prop := l.Pairwise (· < ·)

theorem Inc.not_mem {x : α} {l : List α} (h : Inc (x :: l)) : x ∉ l := fun hx =>
  lt_irrefl _ ((List.pairwise_cons.1 h).1 x hx)

theorem Inc.nodup {l : List α} (h : Inc l) : l.Nodup :=
  List.Pairwise.imp (fun h => ne_of_lt h) h

theorem Inc.ext {a b : List α} (ha : Inc a) (hb : Inc b) (h : ∀ x, x ∈ a ↔ x ∈ b) : a = b := by
  have hp : a.Perm b := (List.perm_ext_iff_of_nodup ha.nodup hb.nodup).2 h
  exact hp.eq_of_pairwise (le := (· < ·))
    (fun x y _ _ h1 h2 => absurd (lt_trans h1 h2) (lt_irrefl _)) ha hb

theorem mem_stdSymDiff {a b : List α} (ha : Inc a) (hb : Inc b) (z : α) :
    z ∈ stdSymDiff a b ↔ (z ∈ a ∧ z ∉ b) ∨ (z ∈ b ∧ z ∉ a) := by
  induction a generalizing b with
  | nil => simp [stdSymDiff]
  | cons x xs ih =>
    have hx := (List.pairwise_cons.1 ha).1
    have hxs := (List.pairwise_cons.1 ha).2
    induction b with
    | nil => simp [stdSymDiff, symDiffStep, ih hxs]
    | cons y ys ihb =>
      have hy := (List.pairwise_cons.1 hb).1
      have hys := (List.pairwise_cons.1 hb).2
      have key : stdSymDiff (x :: xs) (y :: ys) =
        if x < y then x :: stdSymDiff xs (y :: ys)
        else if y < x then y :: stdSymDiff (x :: xs) ys else stdSymDiff xs ys := rfl
      rw [key]
      by_cases h1 : x < y
      · rw [if_pos h1, List.mem_cons, ih hxs hb]
        have hn : x ∉ y :: ys := by
          intro h
          rcases List.mem_cons.1 h with rfl | h
          · exact lt_irrefl _ h1
          · exact lt_irrefl _ (lt_trans h1 (hy _ h))
        by_cases hzx : z = x
        · subst hzx
          simp only [true_or, true_iff, List.mem_cons, true_and]
          exact Or.inl (by simpa using hn)
        · simp [hzx]
      · rw [if_neg h1]
        by_cases h2 : y < x
        · have e : z ∈ stdSymDiff (x :: xs) ys ↔ _ := ihb hys
          rw [if_pos h2, List.mem_cons, e]
          have hn : y ∉ x :: xs := by
            intro h
            rcases List.mem_cons.1 h with rfl | h
            · exact lt_irrefl _ h2
            · exact lt_irrefl _ (lt_trans h2 (hx _ h))
          by_cases hzy : z = y
          · subst hzy
            simp only [true_or, true_iff, List.mem_cons, true_and]
            exact Or.inr (by simpa using hn)
          · simp [hzy]
        · rw [if_neg h2]
          have hxy : x = y := le_antisymm (not_lt.1 h2) (not_lt.1 h1)
          subst hxy
          rw [ih hxs hys]
          have := hb.not_mem
          have := ha.not_mem
          by_cases hzx : z = x
          · subst hzx; simp_all
          · simp [hzx]

theorem inc_stdSymDiff {a b : List α} (ha : Inc a) (hb : Inc b) : Inc (stdSymDiff a b) := by
  induction a generalizing b with
  | nil => simpa [stdSymDiff] using hb
  | cons x xs ih =>
    have hx := (List.pairwise_cons.1 ha).1
    have hxs := (List.pairwise_cons.1 ha).2
    induction b with
    | nil =>
      have : stdSymDiff (x :: xs) [] = x :: stdSymDiff xs [] := rfl
      rw [this, Inc, List.pairwise_cons]
      refine ⟨fun z hz => ?_, ih hxs hb⟩
      rw [mem_stdSymDiff hxs hb] at hz
      exact hx z (by simpa using hz)
    | cons y ys ihb =>
      have hy := (List.pairwise_cons.1 hb).1
      have hys := (List.pairwise_cons.1 hb).2
      have key : stdSymDiff (x :: xs) (y :: ys) =
        if x < y then x :: stdSymDiff xs (y :: ys)
        else if y < x then y :: stdSymDiff (x :: xs) ys else stdSymDiff xs ys := rfl
      rw [key]
      split_ifs with h1 h2
      · rw [Inc, List.pairwise_cons]
        refine ⟨fun z hz => ?_, ih hxs hb⟩
        rw [mem_stdSymDiff hxs hb] at hz
        rcases hz with ⟨h, -⟩ | ⟨h, -⟩
        · exact hx z h
        · rcases List.mem_cons.1 h with rfl | h
          · exact h1
          · exact lt_trans h1 (hy z h)
      · rw [Inc, List.pairwise_cons]
        refine ⟨fun z hz => ?_, ihb hys⟩
        rw [mem_stdSymDiff ha hys] at hz
        rcases hz with ⟨h, -⟩ | ⟨h, -⟩
        · rcases List.mem_cons.1 h with rfl | h
          · exact h2
          · exact lt_trans h2 (hx z h)
        · exact hy z h
      · exact ih hxs hys

theorem mem_stdInter {a b : List α} (ha : Inc a) (hb : Inc b) (z : α) :
    z ∈ stdInter a b ↔ z ∈ a ∧ z ∈ b := by
  induction a generalizing b with
  | nil => simp [stdInter]
  | cons x xs ih =>
    have hx := (List.pairwise_cons.1 ha).1
    have hxs := (List.pairwise_cons.1 ha).2
    induction b with
    | nil => simp [stdInter, interStep]
    | cons y ys ihb =>
      have hy := (List.pairwise_cons.1 hb).1
      have hys := (List.pairwise_cons.1 hb).2
      have key : stdInter (x :: xs) (y :: ys) =
        if x < y then stdInter xs (y :: ys)
        else if y < x then stdInter (x :: xs) ys else x :: stdInter xs ys := rfl
      rw [key]
      by_cases h1 : x < y
      · rw [if_pos h1, ih hxs hb]
        have hn : x ∉ y :: ys := by
          intro h
          rcases List.mem_cons.1 h with rfl | h
          · exact lt_irrefl _ h1
          · exact lt_irrefl _ (lt_trans h1 (hy _ h))
        by_cases hzx : z = x
        · subst hzx; simp [hn]
        · simp [hzx]
      · rw [if_neg h1]
        by_cases h2 : y < x
        · have e : z ∈ stdInter (x :: xs) ys ↔ _ := ihb hys
          rw [if_pos h2, e]
          have hn : y ∉ x :: xs := by
            intro h
            rcases List.mem_cons.1 h with rfl | h
            · exact lt_irrefl _ h2
            · exact lt_irrefl _ (lt_trans h2 (hx _ h))
          by_cases hzy : z = y
          · subst hzy; simp [hn]
          · simp [hzy]
        · rw [if_neg h2, List.mem_cons, ih hxs hys]
          have hxy : x = y := le_antisymm (not_lt.1 h2) (not_lt.1 h1)
          subst hxy
          by_cases hzx : z = x
          · subst hzx; simp
          · simp [hzx]

theorem inc_stdInter {a b : List α} (ha : Inc a) (hb : Inc b) : Inc (stdInter a b) := by
  induction a generalizing b with
  | nil => simp [stdInter]
  | cons x xs ih =>
    have hx := (List.pairwise_cons.1 ha).1
    have hxs := (List.pairwise_cons.1 ha).2
    induction b with
    | nil => simp [stdInter, interStep]
    | cons y ys ihb =>
      have hys := (List.pairwise_cons.1 hb).2
      have key : stdInter (x :: xs) (y :: ys) =
        if x < y then stdInter xs (y :: ys)
        else if y < x then stdInter (x :: xs) ys else x :: stdInter xs ys := rfl
      rw [key]
      split_ifs with h1 h2
      · exact ih hxs hb
      · exact ihb hys
      · rw [Inc, List.pairwise_cons]
        refine ⟨fun z hz => ?_, ih hxs hys⟩
        rw [mem_stdInter hxs hys] at hz
        exact hx z hz.1

theorem mem_stdUnion (a b : List α) (z : α) :
    z ∈ stdUnion a b ↔ z ∈ a ∨ z ∈ b := by
  induction a generalizing b with
  | nil => simp [stdUnion]
  | cons x xs ih =>
    induction b with
    | nil =>
      have : stdUnion (x :: xs) [] = x :: stdUnion xs [] := rfl
      rw [this]; simp [ih]
    | cons y ys ihb =>
      have key : stdUnion (x :: xs) (y :: ys) =
        if x < y then x :: stdUnion xs (y :: ys)
        else if y < x then y :: stdUnion (x :: xs) ys else x :: stdUnion xs ys := rfl
      rw [key]
      split_ifs with h1 h2
      · simp [ih]; tauto
      · rw [List.mem_cons, ihb]; simp; tauto
      · have hxy : x = y := le_antisymm (not_lt.1 h2) (not_lt.1 h1)
        subst hxy
        simp [ih]; tauto

theorem inc_stdUnion {a b : List α} (ha : Inc a) (hb : Inc b) : Inc (stdUnion a b) := by
  induction a generalizing b with
  | nil => simpa [stdUnion] using hb
  | cons x xs ih =>
    have hx := (List.pairwise_cons.1 ha).1
    have hxs := (List.pairwise_cons.1 ha).2
    induction b with
    | nil =>
      have : stdUnion (x :: xs) [] = x :: stdUnion xs [] := rfl
      rw [this, Inc, List.pairwise_cons]
      refine ⟨fun z hz => ?_, ih hxs hb⟩
      rw [mem_stdUnion] at hz
      exact hx z (by simpa using hz)
    | cons y ys ihb =>
      have hy := (List.pairwise_cons.1 hb).1
      have hys := (List.pairwise_cons.1 hb).2
      have key : stdUnion (x :: xs) (y :: ys) =
        if x < y then x :: stdUnion xs (y :: ys)
        else if y < x then y :: stdUnion (x :: xs) ys else x :: stdUnion xs ys := rfl
      rw [key]
      split_ifs with h1 h2
      · rw [Inc, List.pairwise_cons]
        refine ⟨fun z hz => ?_, ih hxs hb⟩
        rw [mem_stdUnion] at hz
        rcases hz with h | h
        · exact hx z h
        · rcases List.mem_cons.1 h with rfl | h
          · exact h1
          · exact lt_trans h1 (hy z h)
      · rw [Inc, List.pairwise_cons]
        refine ⟨fun z hz => ?_, ihb hys⟩
        rw [mem_stdUnion] at hz
        rcases hz with h | h
        · rcases List.mem_cons.1 h with rfl | h
          · exact h2
          · exact lt_trans h2 (hx z h)
        · exact hy z h
      · have hxy : x = y := le_antisymm (not_lt.1 h2) (not_lt.1 h1)
        subst hxy
        rw [Inc, List.pairwise_cons]
        refine ⟨fun z hz => ?_, ih hxs hys⟩
        rw [mem_stdUnion] at hz
        rcases hz with h | h
        · exact hx z h
        · exact hy z h

theorem mem_setInsert (x : α) (l : List α) (z : α) : z ∈ setInsert x l ↔ z = x ∨ z ∈ l := by
  induction l with
  | nil => simp [setInsert]
  | cons y ys ih =>
    rw [setInsert]
    split_ifs with h1 h2
    · simp
    · simp [ih]; tauto
    · have hxy : x = y := le_antisymm (not_lt.1 h2) (not_lt.1 h1)
      subst hxy; simp

theorem inc_setInsert (x : α) {l : List α} (hl : Inc l) : Inc (setInsert x l) := by
  induction l with
  | nil => simp [setInsert]
  | cons y ys ih =>
    have hy := (List.pairwise_cons.1 hl).1
    have hys := (List.pairwise_cons.1 hl).2
    rw [setInsert]
    split_ifs with h1 h2
    · rw [Inc, List.pairwise_cons]
      refine ⟨fun z hz => ?_, hl⟩
      rcases List.mem_cons.1 hz with rfl | h
      · exact h1
      · exact lt_trans h1 (hy z h)
    · rw [Inc, List.pairwise_cons]
      refine ⟨fun z hz => ?_, ih hys⟩
      rcases (mem_setInsert x ys z).1 hz with rfl | h
      · exact h2
      · exact hy z h
    · exact hl

theorem inc_foldl_setInsert (l s : List α) (hs : Inc s) :
    Inc (l.foldl (fun s x => setInsert x s) s) := by
  induction l generalizing s with
  | nil => exact hs
  | cons x xs ih => exact ih _ (inc_setInsert x hs)

theorem mem_foldl_setInsert (l s : List α) (z : α) :
    z ∈ l.foldl (fun s x => setInsert x s) s ↔ z ∈ l ∨ z ∈ s := by
  induction l generalizing s with
  | nil => simp
  | cons x xs ih => simp [ih, mem_setInsert]; tauto

theorem inc_toSet (l : List α) : Inc (toSet l) := inc_foldl_setInsert l [] List.Pairwise.nil

theorem mem_toSet (l : List α) (z : α) : z ∈ toSet l ↔ z ∈ l := by
  simp [toSet, mem_foldl_setInsert]

theorem toSet_of_inc {l : List α} (h : Inc l) : toSet l = l :=
  (inc_toSet l).ext h (mem_toSet l)

theorem mem_stdSort (l : List α) (z : α) : z ∈ stdSort l ↔ z ∈ l :=
  (List.perm_insertionSort _ l).mem_iff

theorem perm_stdSort (l : List α) : (stdSort l).Perm l := List.perm_insertionSort _ l

theorem inc_stdSort {l : List α} (h : l.Nodup) : Inc (stdSort l) := by
  have h1 : (stdSort l).Pairwise (· ≤ ·) := List.pairwise_insertionSort _ l
  have h2 : (stdSort l).Nodup := (List.perm_insertionSort (· ≤ ·) l).nodup_iff.2 h
  exact (h1.and h2).imp (fun h => lt_of_le_of_ne h.1 h.2)

theorem stdSort_of_inc {l : List α} (h : Inc l) : stdSort l = l :=
  (inc_stdSort h.nodup).ext h (mem_stdSort l)

theorem stdIncludes_iff {a b : List α} (ha : Inc a) (hb : Inc b) :
    stdIncludes a b = true ↔ ∀ x ∈ b, x ∈ a := by
  have : ∀ (b a : List α), Inc a → Inc b → (stdIncludes.go b a = true ↔ ∀ x ∈ b, x ∈ a) := by
    intro b
    induction b with
    | nil => intro a _ _; simp [stdIncludes.go]
    | cons y ys ih =>
      intro a ha hb
      have hy := (List.pairwise_cons.1 hb).1
      have hys := (List.pairwise_cons.1 hb).2
      induction a with
      | nil => simpa [stdIncludes.go, includesStep] using ⟨y, fun h => absurd rfl h⟩
      | cons x xs iha =>
        have hx := (List.pairwise_cons.1 ha).1
        have hxs := (List.pairwise_cons.1 ha).2
        have key : stdIncludes.go (y :: ys) (x :: xs) =
          if y < x then false else if x < y then stdIncludes.go (y :: ys) xs
          else stdIncludes.go ys xs := rfl
        rw [key]
        split_ifs with h1 h2
        · simp only [false_iff]
          intro h
          rcases List.mem_cons.1 (h y (by simp)) with rfl | h'
          · exact lt_irrefl _ h1
          · exact lt_irrefl _ (lt_trans h1 (hx _ h'))
        · have e : stdIncludes.go (y :: ys) xs = true ↔ _ := iha hxs
          rw [e]
          constructor
          · intro h z hz; exact List.mem_cons_of_mem _ (h z hz)
          · intro h z hz
            rcases List.mem_cons.1 (h z hz) with rfl | h'
            · exfalso
              rcases List.mem_cons.1 hz with rfl | hz
              · exact lt_irrefl _ h2
              · exact lt_irrefl _ (lt_trans h2 (hy _ hz))
            · exact h'
        · have hxy : y = x := le_antisymm (not_lt.1 h2) (not_lt.1 h1)
          subst hxy
          rw [ih xs hxs hys]
          constructor
          · intro h z hz
            rcases List.mem_cons.1 hz with rfl | hz
            · simp
            · exact List.mem_cons_of_mem _ (h z hz)
          · intro h z hz
            rcases List.mem_cons.1 (h z (List.mem_cons_of_mem _ hz)) with rfl | h'
            · exact absurd hz hb.not_mem
            · exact h'
  exact this b a ha hb

end LHF
