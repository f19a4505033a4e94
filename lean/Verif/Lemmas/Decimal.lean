import Verif.Spec.Text
import Mathlib.Tactic.Ring

/-! A concrete conversion between numbers and text that meets the assumptions of `Spec.Text`: numbers
are whole millionths, printed with six decimals as `std::to_string` does. -/

namespace LHF
open Spec

/-- The digits of a number below a million, with leading zeros. -/
def pad6 (n : Nat) : List Char :=
  List.replicate (6 - (Nat.toDigits 10 n).length) '0' ++ Nat.toDigits 10 n

/-- The absolute value in millionths printed with six decimals. -/
def millionthsStr (n : Nat) : List Char :=
  Nat.toDigits 10 (n / 1000000) ++ '.' :: pad6 (n % 1000000)

/-- Reads digits, a point and up to six digits; the rest is ignored. -/
def millionthsOf (s : List Char) : Res Nat :=
  let whole := s.takeWhile Char.isDigit
  if whole = [] then .error .exn
  else
    match s.dropWhile Char.isDigit with
    | '.' :: rest =>
      let frac := (rest.takeWhile Char.isDigit).take 6
      .ok (Nat.ofDigitChars 10 whole 0 * 1000000 +
        Nat.ofDigitChars 10 frac 0 * 10 ^ (6 - frac.length))
    | _ => .ok (Nat.ofDigitChars 10 whole 0 * 1000000)

/-- Numbers in millionths. -/
def decimal : TextNum Int where
  toStr k := (if k < 0 then ['-'] else []) ++ millionthsStr k.natAbs
  stod s := match s with
    | '-' :: rest => (millionthsOf rest).map (fun n => -(n : Int))
    | _ => (millionthsOf s).map (fun n => (n : Int))
  sizeStr n := Nat.toDigits 10 n
  stoi s :=
    let whole := s.takeWhile Char.isDigit
    if whole = [] then .error .exn else .ok (Nat.ofDigitChars 10 whole 0)

theorem toDigits_digit {n : Nat} {c : Char} (h : c ∈ Nat.toDigits 10 n) : c.isDigit = true :=
  Nat.isDigit_of_mem_toDigits (by omega) (by omega) h

theorem pad6_digit {n : Nat} {c : Char} (h : c ∈ pad6 n) : c.isDigit = true := by
  rcases List.mem_append.1 h with h | h
  · rw [List.eq_of_mem_replicate h]; rfl
  · exact toDigits_digit h

theorem pad6_length {n : Nat} (h : n < 1000000) : (pad6 n).length = 6 := by
  have : (Nat.toDigits 10 n).length ≤ 6 :=
    (Nat.length_toDigits_le_iff (b := 10) (by omega) (by omega)).2 (by omega)
  unfold pad6
  simp
  omega

theorem pad6_value (n : Nat) : Nat.ofDigitChars 10 (pad6 n) 0 = n := by
  unfold pad6
  rw [Nat.ofDigitChars_append, Nat.ofDigitChars_replicate_zero, Nat.mul_zero,
    Nat.ofDigitChars_ten_toDigits]

theorem takeWhile_digits {l r : List Char} (h : ∀ c ∈ l, c.isDigit = true)
    (hr : ∀ c, r.head? = some c → c.isDigit = false) :
    (l ++ r).takeWhile Char.isDigit = l ∧ (l ++ r).dropWhile Char.isDigit = r := by
  induction l with
  | nil =>
    cases r with
    | nil => exact ⟨rfl, rfl⟩
    | cons c r =>
      have := hr c rfl
      simp [this]
  | cons c l ih =>
    have h1 := h c (by simp)
    obtain ⟨a, b⟩ := ih (fun c hc => h c (by simp [hc]))
    simp [h1, a, b]

theorem millionths_back (n : Nat) : millionthsOf (millionthsStr n) = .ok n := by
  unfold millionthsOf millionthsStr
  obtain ⟨h1, h2⟩ := takeWhile_digits (l := Nat.toDigits 10 (n / 1000000))
    (r := '.' :: pad6 (n % 1000000)) (fun c hc => toDigits_digit hc)
    (by intro c hc; simp at hc; subst hc; rfl)
  rw [h1, h2]
  dsimp only
  rw [if_neg Nat.toDigits_ne_nil]
  have h3 : (pad6 (n % 1000000)).takeWhile Char.isDigit = pad6 (n % 1000000) := by
    have := (takeWhile_digits (l := pad6 (n % 1000000)) (r := []) (fun c hc => pad6_digit hc)
      (by simp)).1
    simpa using this
  have h4 := pad6_length (Nat.mod_lt n (by omega : 0 < 1000000))
  simp only [h3]
  rw [List.take_of_length_le (by omega), h4, pad6_value, Nat.ofDigitChars_ten_toDigits]
  congr 1
  have := Nat.div_add_mod n 1000000
  omega

theorem millionthsOf_newline (s : List Char) :
    millionthsOf (s ++ ['\n']) = millionthsOf s := by
  have htw : ∀ t : List Char, (t ++ ['\n']).takeWhile Char.isDigit = t.takeWhile Char.isDigit := by
    intro t
    induction t with
    | nil => rfl
    | cons c t ih =>
      simp only [List.cons_append, List.takeWhile]
      cases c.isDigit <;> simp [ih]
  have hdw : ∀ t : List Char, (t ++ ['\n']).dropWhile Char.isDigit =
      t.dropWhile Char.isDigit ++ ['\n'] := by
    intro t
    induction t with
    | nil => rfl
    | cons c t ih =>
      simp only [List.cons_append, List.dropWhile]
      cases c.isDigit <;> simp [ih]
  unfold millionthsOf
  rw [htw, hdw]
  dsimp only
  split_ifs with h0
  · rfl
  · rcases hd : s.dropWhile Char.isDigit with _ | ⟨c, r⟩
    · rfl
    · by_cases hc : c = '.'
      · subst hc
        simp only [List.cons_append]
        rw [htw]
      · have e1 : ∀ (x : List Char), (match c :: x with
            | '.' :: rest =>
              let frac := (rest.takeWhile Char.isDigit).take 6
              (.ok (Nat.ofDigitChars 10 (s.takeWhile Char.isDigit) 0 * 1000000 +
                Nat.ofDigitChars 10 frac 0 * 10 ^ (6 - frac.length)) : Res Nat)
            | _ => .ok (Nat.ofDigitChars 10 (s.takeWhile Char.isDigit) 0 * 1000000)) =
            .ok (Nat.ofDigitChars 10 (s.takeWhile Char.isDigit) 0 * 1000000) := by
          intro x
          split
          · rename_i hh; simp at hh; exact absurd hh.1 hc
          · rfl
        rw [List.cons_append]
        exact (e1 _).trans (e1 _).symm

theorem isDigit_ne {c : Char} (h : c.isDigit = true) : c ≠ ',' ∧ c ≠ ' ' ∧ c ≠ '\n' ∧ c ≠ '-' := by
  refine ⟨?_, ?_, ?_, ?_⟩ <;> (rintro rfl; revert h; decide)

theorem millionthsStr_clean {n : Nat} {c : Char} (h : c ∈ millionthsStr n) :
    c ≠ ',' ∧ c ≠ ' ' ∧ c ≠ '\n' ∧ c ≠ '-' := by
  rcases List.mem_append.1 h with h | h
  · exact isDigit_ne (toDigits_digit h)
  · rcases List.mem_cons.1 h with rfl | h
    · decide
    · exact isDigit_ne (pad6_digit h)

theorem decimal_numbers : PrintsNumbers decimal id where
  ne v := by
    unfold decimal millionthsStr
    simp
  clean v c hc := by
    unfold decimal at hc
    dsimp only at hc
    rcases List.mem_append.1 hc with hc | hc
    · split_ifs at hc
      · simp at hc; subst hc; decide
      · simp at hc
    · have := millionthsStr_clean hc
      exact ⟨this.1, this.2.1, this.2.2.1⟩
  back v := by
    unfold decimal
    dsimp only
    by_cases hv : v < 0
    · rw [if_pos hv]
      simp only [List.singleton_append, millionths_back, Except.map, id_eq]
      exact congrArg Except.ok (show -((v.natAbs : Nat) : Int) = v by omega)
    · rw [if_neg hv, List.nil_append]
      have hh : ∀ s, millionthsStr v.natAbs ≠ '-' :: s := by
        intro s hs
        exact (millionthsStr_clean (n := v.natAbs) (c := '-') (by rw [hs]; simp)).2.2.2 rfl
      split
      · rename_i rest heq; exact absurd heq (hh rest)
      · rw [millionths_back]
        simp only [Except.map, id_eq]
        exact congrArg Except.ok (show ((v.natAbs : Nat) : Int) = v by omega)

theorem decimal_sizes : PrintsSizes decimal where
  ne n := Nat.toDigits_ne_nil
  clean n c hc := by
    have := isDigit_ne (toDigits_digit (n := n) hc)
    exact ⟨this.2.1, this.2.2.1⟩
  back n _ := by
    unfold decimal
    dsimp only
    have := (takeWhile_digits (l := Nat.toDigits 10 n) (r := []) (fun c hc => toDigits_digit hc)
      (by simp)).1
    rw [List.append_nil] at this
    rw [this, if_neg Nat.toDigits_ne_nil, Nat.ofDigitChars_ten_toDigits]

theorem decimal_stod : StodLaws decimal where
  newline s hs _ := by
    unfold decimal
    dsimp only
    cases s with
    | nil => exact absurd rfl hs
    | cons c s =>
      by_cases hc : c = '-'
      · subst hc
        simp only [List.cons_append]
        rw [millionthsOf_newline]
      · have e1 : ∀ x : List Char, (match c :: x with
            | '-' :: rest => (millionthsOf rest).map (fun n => -(n : Int))
            | _ => (millionthsOf (c :: x)).map (fun n => (n : Int))) =
            (millionthsOf (c :: x)).map (fun n => (n : Int)) := by
          intro x
          split
          · rename_i hh; simp at hh; exact absurd hh.1 hc
          · rfl
        rw [List.cons_append, e1, e1, ← List.cons_append, millionthsOf_newline]
  lone := rfl
  exn s e h := by
    have hm : ∀ s e, millionthsOf s = .error e → e = .exn := by
      intro s e h
      unfold millionthsOf at h
      dsimp only at h
      split_ifs at h
      · cases h; rfl
      · split at h <;> cases h
    unfold decimal at h
    dsimp only at h
    split at h
    · rename_i rest
      cases hr : millionthsOf rest with
      | error e' => rw [hr] at h; cases h; exact hm _ _ hr
      | ok v => rw [hr] at h; cases h
    · cases hr : millionthsOf s with
      | error e' => rw [hr] at h; cases h; exact hm _ _ hr
      | ok v => rw [hr] at h; cases h

end LHF
