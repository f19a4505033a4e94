import Verif.Spec.Text

/-! Lemmas on splitting and buffering. -/

namespace LHF
open Spec
variable {V : Type}

theorem splitOn_ne (sep : Char) (l : List Char) : splitOn sep l ≠ [] := by
  induction l with
  | nil => simp [splitOn]
  | cons c cs ih =>
    unfold splitOn
    cases h : splitOn sep cs with
    | nil => simp
    | cons p ps => dsimp only; split_ifs <;> simp

theorem splitOn_none {sep : Char} {l : List Char} (h : sep ∉ l) : splitOn sep l = [l] := by
  induction l with
  | nil => rfl
  | cons c cs ih =>
    rw [List.mem_cons, not_or] at h
    unfold splitOn
    rw [ih h.2]
    dsimp only
    rw [if_neg (fun hh => h.1 hh.symm)]

theorem splitOn_append {sep : Char} {l : List Char} (h : sep ∉ l) (r : List Char) :
    splitOn sep (l ++ sep :: r) = l :: splitOn sep r := by
  induction l with
  | nil =>
    rw [List.nil_append, splitOn]
    cases hr : splitOn sep r with
    | nil => exact absurd hr (splitOn_ne sep r)
    | cons p ps => simp
  | cons c cs ih =>
    rw [List.mem_cons, not_or] at h
    rw [List.cons_append, splitOn, ih h.2]
    dsimp only
    rw [if_neg (fun hh => h.1 hh.symm)]

theorem splitOn_lines {lines : List (List Char)} (h : ∀ l ∈ lines, '\n' ∉ l) (r : List Char) :
    splitOn '\n' (fileOf lines ++ r) = lines ++ splitOn '\n' r := by
  induction lines with
  | nil => rfl
  | cons l ls ih =>
    have : fileOf (l :: ls) ++ r = l ++ '\n' :: (fileOf ls ++ r) := by simp [fileOf]
    rw [this, splitOn_append (h l (by simp)), ih (fun l hl => h l (by simp [hl]))]
    rfl

theorem stripSpaces_eq {l : List Char} (h : ' ' ∉ l) : stripSpaces l = l := by
  unfold stripSpaces
  rw [List.filter_eq_self]
  intro c hc
  simp only [decide_eq_true_eq]
  rintro rfl
  exact h hc

/-- The pieces of a printed row. -/
theorem splitOn_values {io : TextNum V} {rounded : V → V} (hio : PrintsNumbers io rounded)
    (row : List V) :
    splitOn ',' (row.flatMap (fun v => io.toStr v ++ [','])) = row.map io.toStr ++ [[]] := by
  induction row with
  | nil => rfl
  | cons v row ih =>
    rw [List.flatMap_cons, List.append_assoc, List.singleton_append,
      splitOn_append (fun h => (hio.clean v _ h).1 rfl), ih]
    rfl

theorem parsePieces_cons (io : TextNum V) (p : List Char) {rest : List (List Char)}
    (h : rest ≠ []) : parsePieces io (p :: rest) = (do
      let v ← io.stod p
      let vs ← parsePieces io rest
      pure (v :: vs)) := by
  cases rest with
  | nil => exact absurd rfl h
  | cons q rest => rfl

theorem parsePieces_values {io : TextNum V} {rounded : V → V} (hio : PrintsNumbers io rounded)
    (row : List V) : parsePieces io (row.map io.toStr ++ [[]]) = .ok (row.map rounded) := by
  induction row with
  | nil => rfl
  | cons v row ih =>
    rw [List.map_cons, List.cons_append, parsePieces_cons _ _ (by simp), hio.back, ih]
    rfl

theorem parse_csvRow {io : TextNum V} {rounded : V → V} (hio : PrintsNumbers io rounded)
    (row : List V) : parseDoubleVector io (row.flatMap (fun v => io.toStr v ++ [','])) =
      .ok (if row = [] then none else some (row.map rounded)) := by
  have hs : ' ' ∉ row.flatMap (fun v => io.toStr v ++ [',']) := by
    intro h
    obtain ⟨v, -, hv⟩ := List.mem_flatMap.1 h
    rcases List.mem_append.1 hv with hv | hv
    · exact (hio.clean v _ hv).2.1 rfl
    · simp at hv
  unfold parseDoubleVector
  dsimp only
  rw [stripSpaces_eq hs, splitOn_values hio, parsePieces_values hio]
  cases row with
  | nil => rfl
  | cons v row =>
    have h1 := List.length_pos_of_ne_nil (hio.ne v)
    have : (List.flatMap (fun v => io.toStr v ++ [',']) (v :: row)).length > 1 := by
      rw [List.flatMap_cons]
      simp only [List.length_append, List.length_singleton]
      omega
    rw [if_pos this]
    simp [bind, Except.bind, pure, Except.pure]

theorem newline_not_mem_csvRow {io : TextNum V} {rounded : V → V} (hio : PrintsNumbers io rounded)
    (row : List V) : '\n' ∉ row.flatMap (fun v => io.toStr v ++ [',']) := by
  intro h
  obtain ⟨v, -, hv⟩ := List.mem_flatMap.1 h
  rcases List.mem_append.1 hv with hv | hv
  · exact (hio.clean v _ hv).2.2 rfl
  · simp at hv

theorem writeCSV_eq (io : TextNum V) (data : List (List V)) : writeCSV io data =
    fileOf (data.map (fun row => row.flatMap (fun v => io.toStr v ++ [',']))) := by
  unfold writeCSV fileOf csvRow
  rw [List.flatMap_map]

theorem readLines_rows {io : TextNum V} {rounded : V → V} (hio : PrintsNumbers io rounded)
    (data : List (List V)) :
    readLines io (data.map (fun row => row.flatMap (fun v => io.toStr v ++ [','])) ++ [[]]) =
      .ok ((data.filter (· ≠ [])).map (·.map rounded)) := by
  induction data with
  | nil => rfl
  | cons row data ih =>
    rw [List.map_cons, List.cons_append, readLines, parse_csvRow hio, ih]
    by_cases h : row = []
    · subst h; rfl
    · simp [h, bind, Except.bind, pure, Except.pure]

/-! ### MAT -/

theorem readMatRow_values {io : TextNum V} {rounded : V → V} (hio : PrintsNumbers io rounded)
    (row : List V) : ∀ (rest : List (List Char)) (line : List Char), ∃ line',
    readMatRow io row.length (row.map io.toStr ++ rest) line = .ok (row.map rounded, rest, line') := by
  induction row with
  | nil => intro rest line; exact ⟨line, rfl⟩
  | cons v row ih =>
    intro rest line
    have hs : stripSpaces (io.toStr v) = io.toStr v :=
      stripSpaces_eq (fun h => (hio.clean v _ h).2.1 rfl)
    obtain ⟨line', h⟩ := ih rest (io.toStr v)
    refine ⟨line', ?_⟩
    rw [List.length_cons, List.map_cons, List.cons_append, readMatRow]
    dsimp only
    rw [hs, if_pos (List.length_pos_of_ne_nil (hio.ne v)), hio.back]
    simp only [bind, Except.bind, pure, Except.pure]
    rw [h]
    rfl

theorem readMatRows_values {io : TextNum V} {rounded : V → V} (hio : PrintsNumbers io rounded)
    {d : Nat} (data : List (List V)) : (∀ row ∈ data, row.length = d) →
    ∀ (rest : List (List Char)) (line : List Char),
    readMatRows io d data.length (data.flatMap (fun row => row.map io.toStr) ++ rest) line =
      .ok (data.map (·.map rounded)) := by
  induction data with
  | nil => intro _ rest line; rfl
  | cons row data ih =>
    intro hd rest line
    obtain ⟨line', h⟩ := readMatRow_values hio row
      (data.flatMap (fun row => row.map io.toStr) ++ rest) line
    rw [List.length_cons, List.flatMap_cons, readMatRows, List.append_assoc]
    rw [hd row (by simp)] at h
    rw [h]
    simp only [bind, Except.bind, pure, Except.pure]
    rw [ih (fun r hr => hd r (by simp [hr]))]
    rfl

/-! ### Streaming -/

theorem fgetsAll_line {l : List Char} (h : '\n' ∉ l) : ∀ (room : Nat) (buf r : List Char),
    l.length < room → fgetsAll room buf (l ++ '\n' :: r) = (buf ++ l ++ ['\n']) :: fgetsAll 999 [] r := by
  induction l with
  | nil =>
    intro room buf r _
    rw [List.nil_append, fgetsAll, if_pos (Or.inl rfl), List.append_nil]
  | cons c cs ih =>
    intro room buf r hr
    rw [List.mem_cons, not_or] at h
    rw [List.length_cons] at hr
    rw [List.cons_append, fgetsAll, if_neg, ih h.2 _ _ _ (by omega)]
    · simp
    · rintro (hh | hh)
      · exact h.1 hh.symm
      · omega

theorem fgetsAll_last {l : List Char} (h : '\n' ∉ l) : ∀ (room : Nat) (buf : List Char),
    l.length < room → fgetsAll room buf l = if buf ++ l = [] then [] else [buf ++ l] := by
  induction l with
  | nil => intro room buf _; simp [fgetsAll]
  | cons c cs ih =>
    intro room buf hr
    rw [List.mem_cons, not_or] at h
    rw [List.length_cons] at hr
    rw [fgetsAll, if_neg, ih h.2 _ _ (by omega)]
    · simp
    · rintro (hh | hh)
      · exact h.1 hh.symm
      · omega

theorem fgetsAll_full {l : List Char} (h : '\n' ∉ l) (hl : l ≠ []) :
    ∀ (room : Nat) (buf r : List Char), l.length = room →
    fgetsAll room buf (l ++ r) = (buf ++ l) :: fgetsAll 999 [] r := by
  induction l with
  | nil => exact absurd rfl hl
  | cons c cs ih =>
    intro room buf r hr
    rw [List.mem_cons, not_or] at h
    rw [List.length_cons] at hr
    by_cases hc : cs = []
    · subst hc
      rw [List.singleton_append, fgetsAll, if_pos (Or.inr (by simp at hr; omega))]
    · have := List.length_pos_of_ne_nil hc
      rw [List.cons_append, fgetsAll, if_neg, ih h.2 hc _ _ _ (by omega)]
      · simp
      · rintro (hh | hh)
        · exact h.1 hh.symm
        · omega

theorem splitOn_newline {sep : Char} (hsep : sep ≠ '\n') (l : List Char) :
    ∃ init last, splitOn sep l = init ++ [last] ∧
      splitOn sep (l ++ ['\n']) = init ++ [last ++ ['\n']] := by
  induction l with
  | nil =>
    refine ⟨[], [], rfl, ?_⟩
    simp [splitOn, hsep.symm]
  | cons c cs ih =>
    obtain ⟨init, last, h1, h2⟩ := ih
    rw [List.cons_append, splitOn, splitOn, h1, h2]
    cases init with
    | nil =>
      by_cases hc : c = sep
      · refine ⟨[[]], last, ?_, ?_⟩ <;> simp [hc]
      · refine ⟨[], c :: last, ?_, ?_⟩ <;> simp [hc]
    | cons p ps =>
      by_cases hc : c = sep
      · refine ⟨[] :: p :: ps, last, ?_, ?_⟩ <;> simp [hc]
      · refine ⟨(c :: p) :: ps, last, ?_, ?_⟩ <;> simp [hc]

theorem parsePieces_last (io : TextNum V) (init : List (List Char)) {a b : List Char}
    (ha : a ≠ []) (hb : b ≠ []) (h : io.stod a = io.stod b) :
    parsePieces io (init ++ [a]) = parsePieces io (init ++ [b]) := by
  induction init with
  | nil =>
    simp only [List.nil_append, parsePieces]
    rw [if_pos (List.length_pos_of_ne_nil ha), if_pos (List.length_pos_of_ne_nil hb), h]
  | cons p init ih =>
    rw [List.cons_append, List.cons_append, parsePieces_cons _ _ (by simp),
      parsePieces_cons _ _ (by simp), ih]

theorem splitOn_last_eq_nil {sep : Char} {l : List Char} {init : List (List Char)}
    (h : splitOn sep l = init ++ [[]]) (hl : l ≠ []) : l.getLast? = some sep := by
  induction l generalizing init with
  | nil => exact absurd rfl hl
  | cons c cs ih =>
    obtain ⟨init', last, h1⟩ : ∃ i l, splitOn sep cs = i ++ [l] :=
      ⟨_, _, (List.dropLast_append_getLast (splitOn_ne sep cs)).symm⟩
    rw [splitOn, h1] at h
    by_cases hcs : cs = []
    · subst hcs
      simp only [splitOn] at h1
      by_cases hc : c = sep
      · simp [hc]
      · exfalso
        cases init' with
        | nil => 
          simp at h1
          subst h1
          simp only [List.nil_append, if_neg hc] at h
          cases init with
          | nil => simp at h
          | cons p ps => simp at h
        | cons q qs => simp at h1
    · have hlast : last = [] := by
        cases init' with
        | nil =>
          by_cases hc : c = sep
          · simp only [List.nil_append, if_pos hc] at h
            have := congrArg List.getLast? h
            simpa using this
          · simp only [List.nil_append, if_neg hc] at h
            have := congrArg List.getLast? h
            simp at this
        | cons q qs =>
          by_cases hc : c = sep
          · simp only [List.cons_append, if_pos hc] at h
            have := congrArg List.getLast? h
            rw [← List.cons_append, ← List.cons_append, List.getLast?_concat,
              List.getLast?_concat] at this
            exact Option.some.inj this
          · simp only [List.cons_append, if_neg hc] at h
            have := congrArg List.getLast? h
            rw [← List.cons_append, List.getLast?_concat, List.getLast?_concat] at this
            exact Option.some.inj this
      subst hlast
      rw [List.getLast?_cons, ih h1 hcs]
      rfl

theorem mem_of_splitOn {sep : Char} {l p : List Char} (h : p ∈ splitOn sep l) : ∀ c ∈ p, c ∈ l := by
  induction l generalizing p with
  | nil => simp [splitOn] at h; subst h; simp
  | cons c cs ih =>
    rw [splitOn] at h
    cases hs : splitOn sep cs with
    | nil => exact absurd hs (splitOn_ne sep cs)
    | cons q qs =>
      rw [hs] at h ih
      dsimp only at h
      split_ifs at h with hc
      · rcases List.mem_cons.1 h with rfl | h
        · simp
        · intro x hx; exact List.mem_cons_of_mem _ (ih h x hx)
      · rcases List.mem_cons.1 h with rfl | h
        · intro x hx
          rcases List.mem_cons.1 hx with rfl | hx
          · simp
          · exact List.mem_cons_of_mem _ (ih (by simp) x hx)
        · intro x hx; exact List.mem_cons_of_mem _ (ih (by simp [h]) x hx)

/-- A good line is parsed alike with and without its newline. -/
theorem parse_good {io : TextNum V} (hio : StodLaws io) {l : List Char} (h : GoodLine l) :
    parseDoubleVector io (l ++ ['\n']) = parseDoubleVector io l ∧
    parseDoubleVector io l = (do pure (some (← parsePieces io (splitOn ',' (stripSpaces l))))) := by
  obtain ⟨h1, h2, h3, h4⟩ := h
  have e1 : stripSpaces (l ++ ['\n']) = stripSpaces l ++ ['\n'] := by simp [stripSpaces]
  have e2 : stripSpaces l = noSpaces l := rfl
  have hn : '\n' ∉ noSpaces l := fun hh => h1 (List.mem_of_mem_filter hh)
  obtain ⟨init, last, a1, a2⟩ := splitOn_newline (sep := ',') (by decide) (noSpaces l)
  have hlast : last ≠ [] := by
    rintro rfl
    exact h4 (splitOn_last_eq_nil a1 (by intro hh; rw [hh] at h3; simp at h3))
  have hnl : '\n' ∉ last := by
    intro hh
    exact hn (mem_of_splitOn (p := last) (by rw [a1]; simp) _ hh)
  have key : parsePieces io (splitOn ',' (noSpaces l ++ ['\n'])) =
      parsePieces io (splitOn ',' (noSpaces l)) := by
    rw [a1, a2]
    exact parsePieces_last io init (by simp) hlast (hio.newline last hlast hnl)
  unfold parseDoubleVector
  rw [e1, e2]
  dsimp only
  rw [if_pos (by simp; omega), if_pos (by omega), key]
  exact ⟨rfl, rfl⟩

end LHF
