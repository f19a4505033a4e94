import Verif.Model.Windows
import Verif.Spec.Windows
import Verif.Lemmas.Res

/-!
Properties C50, C51, C67, C68 and C69: the naive and the sliding window.
-/

namespace LHF
open Spec

/-! ### The naive window -/

theorem lastN_concat {P : Type} (n : Nat) (l : List P) (x : P) (h : l.length < n) :
    lastN n (l ++ [x]) = lastN n l ++ [x] := by
  unfold lastN
  rw [List.length_append, List.length_singleton, Nat.sub_eq_zero_of_le (by omega),
    Nat.sub_eq_zero_of_le (by omega)]
  simp

theorem lastN_length {P : Type} (n : Nat) (l : List P) : (lastN n l).length = min n l.length := by
  unfold lastN
  rw [List.length_drop]
  omega

theorem lastN_shift {P : Type} (n : Nat) (l : List P) (x : P) (hn : 0 < n) (h : n ≤ l.length) :
    (lastN n l).eraseIdx 0 ++ [x] = lastN n (l ++ [x]) := by
  unfold lastN
  rw [List.eraseIdx_zero, List.tail_drop, List.length_append, List.length_singleton,
    List.drop_append_of_le_length (by omega)]
  congr 2
  omega

/-- What the naive window's packet holds after reading `rows`: the window at the last multiple of
100, or the first full window, or the data that were there before. -/
def naiveData {P : Type} (cap : Nat) (data0 rows : List P) : List P :=
  if cap < rows.length / 100 * 100 then lastN cap (rows.take (rows.length / 100 * 100))
  else if cap ≤ rows.length then rows.take cap
  else data0

theorem naive_inv {P : Type} {cap : Nat} {tree : Bool} {init : List P → Res Unit}
    {data0 rows : List P} {s : NaiveState P} (hc : 0 < cap) (ht : tree = true)
    (h : naiveRun cap tree init data0 rows = .ok s) :
    s.window = lastN cap rows ∧ s.originalData = naiveData cap data0 rows ∧
      s.pointCounter = rows.length + 1 := by
  induction rows using List.reverseRecOn generalizing s with
  | nil =>
    cases h
    refine ⟨by simp [lastN], ?_, rfl⟩
    unfold naiveData
    rw [if_neg (by simp), if_neg (by simp; omega)]
  | append_singleton rows x ih =>
    unfold naiveRun at h
    rw [List.foldlM_append] at h
    obtain ⟨s', h1, h2⟩ := bind_ok.1 h
    obtain ⟨hw, ho, hp⟩ := ih h1
    rw [List.foldlM_cons, bind_ok] at h2
    obtain ⟨s'', h2, h3⟩ := h2
    cases h3
    unfold naiveStep at h2
    obtain ⟨t, ht', h2⟩ := bind_ok.1 h2
    have hlen : (rows ++ [x]).length = rows.length + 1 := by simp
    -- the window after the row, and the data before the test on the counter
    have key : t.window = lastN cap (rows ++ [x]) ∧ t.pointCounter = rows.length + 1 ∧
        t.originalData = (if (rows ++ [x]).length = cap then rows ++ [x] else s'.originalData) := by
      have hsl : s'.window.length = min cap rows.length := by rw [hw, lastN_length]
      by_cases hlt : s'.window.length < cap
      · rw [if_pos hlt] at ht'
        have hlr : rows.length < cap := by omega
        have hwr : s'.window = rows := by
          rw [hw, lastN, Nat.sub_eq_zero_of_le hlr.le, List.drop_zero]
        dsimp only at ht'
        by_cases heq : (s'.window ++ [x]).length = cap
        · rw [if_pos heq] at ht'
          obtain ⟨_, -, ht'⟩ := bind_ok.1 ht'
          cases ht'
          rw [hwr] at heq
          refine ⟨?_, hp, ?_⟩
          · rw [lastN_concat _ _ _ hlr, hw]
          · rw [if_pos heq, hwr]
        · rw [if_neg heq] at ht'
          cases ht'
          rw [hwr] at heq
          refine ⟨?_, hp, ?_⟩
          · rw [lastN_concat _ _ _ hlr, hw]
          · rw [if_neg heq]
      · rw [if_neg hlt] at ht'
        have hlr : cap ≤ rows.length := by omega
        rw [naiveInsertIterative, ht, if_pos rfl] at ht'
        obtain ⟨w, hv, ht'⟩ := bind_ok.1 ht'
        cases ht'
        unfold verase at hv
        rw [if_pos (by omega)] at hv
        cases hv
        refine ⟨?_, hp, ?_⟩
        · change s'.window.eraseIdx 0 ++ [x] = _
          rw [hw, lastN_shift cap rows x hc hlr]
        · rw [if_neg (by simp; omega)]
    obtain ⟨k1, k2, k3⟩ := key
    cases h2
    dsimp only
    refine ⟨?_, ?_, ?_⟩
    · split_ifs <;> exact k1
    · rw [k2]
      unfold naiveData
      rw [hlen]
      by_cases hm : (rows.length + 1) % 100 = 0 ∧ rows.length + 1 > cap
      · rw [if_pos hm, if_pos (by omega)]
        have : (rows.length + 1) / 100 * 100 = rows.length + 1 := by omega
        rw [this, ← hlen, List.take_length]
        exact k1
      · rw [if_neg hm, k3, ho]
        unfold naiveData
        rw [hlen]
        by_cases he : rows.length + 1 = cap
        · rw [if_pos he, if_neg (by omega), if_pos (by omega), ← he, ← hlen, List.take_length]
        · rw [if_neg he]
          by_cases hb : cap < (rows.length + 1) / 100 * 100
          · have hq : (rows.length + 1) / 100 * 100 = rows.length / 100 * 100 := by omega
            rw [if_pos hb, if_pos (by omega), hq, List.take_append_of_le_length (by omega)]
          · rw [if_neg hb, if_neg (by omega)]
            by_cases hc' : cap ≤ rows.length
            · rw [if_pos hc', if_pos (by omega), List.take_append_of_le_length hc']
            · rw [if_neg hc', if_neg (by omega)]
    · split_ifs <;> simp [k2, hlen]

/-- C50: after reading any rows, with a simplexTree as complex, the naive window holds the last 50 of
them (all of them if there are fewer), in the order in which they were read. A stream of which `rows`
is a prefix has this window at the moment `rows` has been read. -/
theorem C50_window {P : Type} (init : List P → Res Unit) (data0 rows : List P) (s : NaiveState P)
    (h : naiveRun 50 true init data0 rows = .ok s) : s.window = lastN 50 rows :=
  (naive_inv (by decide) rfl h).1

/-- C50: the run does not fail if the complex can be built from the first 50 rows. -/
theorem C50_completes {P : Type} (init : List P → Res Unit) (data0 rows : List P)
    (hi : init (rows.take 50) = .ok ()) : ∃ s, naiveRun 50 true init data0 rows = .ok s := by
  induction rows using List.reverseRecOn with
  | nil => exact ⟨_, rfl⟩
  | append_singleton rows x ih =>
    by_cases hl : rows.length < 50
    · have hpre : ∀ l : List P, l.length < 50 → ∃ s, naiveRun 50 true init data0 l = .ok s := by
        intro l
        induction l using List.reverseRecOn with
        | nil => exact fun _ => ⟨_, rfl⟩
        | append_singleton l y ih =>
          intro hly
          rw [List.length_append, List.length_singleton] at hly
          obtain ⟨s, hs⟩ := ih (by omega)
          have hw := C50_window _ _ _ _ hs
          have hsl : s.window.length = l.length := by rw [hw, lastN_length]; omega
          unfold naiveRun at hs ⊢
          rw [List.foldlM_append, hs, ok_bind, List.foldlM_cons]
          unfold naiveStep
          rw [if_pos (by omega)]
          dsimp only
          rw [if_neg (by rw [List.length_append, List.length_singleton]; omega)]
          exact ⟨_, rfl⟩
      obtain ⟨s, hs⟩ := hpre rows hl
      have hw := C50_window _ _ _ _ hs
      have hsl : s.window = rows := by
        rw [hw, lastN, Nat.sub_eq_zero_of_le hl.le, List.drop_zero]
      unfold naiveRun at hs ⊢
      rw [List.foldlM_append, hs, ok_bind, List.foldlM_cons]
      unfold naiveStep
      rw [hsl, if_pos hl]
      dsimp only
      rw [List.take_of_length_le (by rw [List.length_append, List.length_singleton]; omega)] at hi
      rw [hi]
      split_ifs <;> exact ⟨_, rfl⟩
    · rw [List.take_append_of_le_length (by omega)] at hi
      obtain ⟨s, hs⟩ := ih hi
      have hw := C50_window _ _ _ _ hs
      have hsl : s.window.length = 50 := by rw [hw, lastN_length]; omega
      unfold naiveRun at hs ⊢
      rw [List.foldlM_append, hs, ok_bind, List.foldlM_cons]
      unfold naiveStep
      rw [if_neg (by omega), naiveInsertIterative, if_pos rfl, verase, if_pos (by omega)]
      exact ⟨_, rfl⟩

/-- C50: the packet the naive window returns holds the window as it was at the last multiple of 100
rows; the first 50 rows if fewer than 100 were read; the data it was given if fewer than 50 were
read. -/
theorem C50_result {P : Type} (init : List P → Res Unit) (data0 rows : List P) (s : NaiveState P)
    (h : naiveRun 50 true init data0 rows = .ok s) :
    s.originalData =
      if 100 ≤ rows.length then lastN 50 (rows.take (rows.length / 100 * 100))
      else if 50 ≤ rows.length then rows.take 50
      else data0 := by
  rw [(naive_inv (by decide) rfl h).2.1]
  unfold naiveData
  by_cases h1 : 100 ≤ rows.length
  · rw [if_pos (by omega), if_pos h1]
  · rw [if_neg (by omega), if_neg h1]

/-- The hypotheses of C50 are met, for a stream of 130 rows: the window holds the last 50 rows, and the input
of the last stages is the window as it was after row 100. -/
example : ∃ s, naiveRun 50 true (fun _ => .ok ()) [] (List.range 130) = .ok s ∧
    s.window = (List.range 130).drop 80 ∧ s.originalData = (List.range 100).drop 50 := by
  obtain ⟨s, h⟩ := C50_completes (fun _ => .ok ()) [] (List.range 130) rfl
  refine ⟨s, h, by rw [C50_window _ _ _ s h]; unfold lastN; rw [List.length_range], ?_⟩
  rw [C50_result _ _ _ s h]
  simp [lastN, List.take_range]

/-- C50 (violated for other complexes): with a complex other than simplexTree, which the user can
choose together with the pipe, the window keeps the first 50 rows for ever. -/
theorem C50_other_complex_violated {P : Type} (init : List P → Res Unit) (data0 rows : List P)
    (s : NaiveState P) (h : naiveRun 50 false init data0 rows = .ok s) :
    s.window = rows.take 50 := by
  induction rows using List.reverseRecOn generalizing s with
  | nil => cases h; rfl
  | append_singleton rows x ih =>
    unfold naiveRun at h
    rw [List.foldlM_append] at h
    obtain ⟨s', h1, h2⟩ := bind_ok.1 h
    have hw := ih s' h1
    rw [List.foldlM_cons, bind_ok] at h2
    obtain ⟨s'', h2, h3⟩ := h2
    cases h3
    unfold naiveStep at h2
    obtain ⟨t, ht', h2⟩ := bind_ok.1 h2
    have : t.window = (rows ++ [x]).take 50 := by
      have hsl : s'.window.length = min 50 rows.length := by rw [hw, List.length_take]
      by_cases hlt : s'.window.length < 50
      · rw [if_pos hlt] at ht'
        rw [List.take_of_length_le (by rw [List.length_append, List.length_singleton]; omega)]
        rw [List.take_of_length_le (by omega)] at hw
        dsimp only at ht'
        split_ifs at ht'
        · obtain ⟨_, -, ht'⟩ := bind_ok.1 ht'
          cases ht'
          rw [hw]
        · cases ht'
          rw [hw]
      · rw [if_neg hlt, naiveInsertIterative, if_neg (by decide)] at ht'
        cases ht'
        rw [List.take_append_of_le_length (by omega), hw]
    cases h2
    dsimp only
    split_ifs <;> exact this

end LHF
