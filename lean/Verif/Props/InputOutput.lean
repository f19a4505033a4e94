import Verif.Lemmas.InputOutput
import Verif.Lemmas.Res
import Verif.Lemmas.Decimal

/-! C34–C36: reading and writing files. -/

namespace LHF
open Spec
variable {V : Type}

/-! ### C34 -/

/-- C34: reading back a file written by `writeCSV` gives the rows that were written, each number as
printed with six decimals; empty rows are dropped. -/
theorem C34_csv_roundtrip {io : TextNum V} {rounded : V → V} (hio : PrintsNumbers io rounded)
    (data : List (List V)) :
    readCSV io (some (writeCSV io data)) =
      .ok ((data.filter (· ≠ [])).map (fun row => row.map rounded)) := by
  have hn : ∀ l ∈ data.map (fun row => row.flatMap (fun v => io.toStr v ++ [','])), '\n' ∉ l := by
    intro l hl
    obtain ⟨row, -, rfl⟩ := List.mem_map.1 hl
    exact newline_not_mem_csvRow hio row
  have h := splitOn_lines hn []
  rw [List.append_nil] at h
  unfold readCSV
  dsimp only
  rw [writeCSV_eq, h]
  exact readLines_rows hio data

/-- C34: a table without empty rows whose numbers have at most six decimals is read back exactly. -/
theorem C34_csv_exact {io : TextNum V} {rounded : V → V} (hio : PrintsNumbers io rounded)
    {data : List (List V)} (hne : ∀ row ∈ data, row ≠ []) (hr : ∀ row ∈ data, ∀ v ∈ row, rounded v = v) :
    readCSV io (some (writeCSV io data)) = .ok data := by
  rw [C34_csv_roundtrip hio, List.filter_eq_self.2 (by simpa using hne)]
  congr 1
  have : data.map (fun row => row.map rounded) = data.map id := by
    apply List.map_congr_left
    intro row hrow
    have : row.map rounded = row.map id := List.map_congr_left (fun v hv => hr row hrow v hv)
    rw [this, List.map_id]; rfl
  rw [this, List.map_id]

/-- C34: a file with the barcode header cannot be read back: the first header word is not a number. -/
theorem C34_barcodes_not_readable {io : TextNum V}
    (h : io.stod "dimension".toList = .error .exn) (data : List (List V)) :
    readCSV io (some (writeBarcodes io data)) = .error .exn := by
  have hsplit : splitOn '\n' (writeBarcodes io data) =
      "dimension,birth,death".toList :: splitOn '\n' (writeCSV io data) := by
    have : writeBarcodes io data = "dimension,birth,death".toList ++ '\n' :: writeCSV io data := by
      unfold writeBarcodes writeCSVHeader
      have : barcodeHeader = "dimension,birth,death".toList ++ ['\n'] := by decide
      rw [this, List.append_assoc]; rfl
    rw [this, splitOn_append (by decide)]
  unfold readCSV
  dsimp only
  rw [hsplit, readLines]
  have hp : parseDoubleVector io "dimension,birth,death".toList = .error .exn := by
    have e1 : stripSpaces "dimension,birth,death".toList = "dimension,birth,death".toList := by decide
    have e2 : splitOn ',' "dimension,birth,death".toList =
        ["dimension".toList, "birth".toList, "death".toList] := by decide
    unfold parseDoubleVector
    dsimp only
    rw [e1, if_pos (by decide), e2, parsePieces_cons _ _ (by simp), h]
    rfl
  rw [hp]
  rfl

/-- C34: a file that cannot be opened is read as an empty table. -/
theorem C34_missing_file (io : TextNum V) : readCSV io none = .ok [] := rfl

/-- The assumptions of C34–C36 are met by numbers in millionths; a round trip. -/
example : PrintsNumbers decimal id ∧ PrintsSizes decimal ∧ StodLaws decimal ∧
    readCSV decimal (some (writeCSV decimal [[1500000, -250000], [], [7]])) =
      .ok [[1500000, -250000], [7]] :=
  ⟨decimal_numbers, decimal_sizes, decimal_stod,
    by rw [C34_csv_roundtrip decimal_numbers]; rfl⟩

/-! ### C74 -/

/-- The text of a cell of a CSV file and the value it stands for: no separators, not blank, and
`std::stod` reads the value from the text without spaces. -/
def Spec.CellValue (io : TextNum V) (cell : List Char) (v : V) : Prop :=
  ',' ∉ cell ∧ '\n' ∉ cell ∧ noSpaces cell ≠ [] ∧ io.stod (noSpaces cell) = .ok v

/-- The line made of cells separated by commas. -/
def Spec.lineOf (cells : List (List Char)) : List Char := List.intercalate [','] cells

theorem forall₂_left {α β : Type} {R : α → β → Prop} {l : List α} {l' : List β}
    (h : List.Forall₂ R l l') {a : α} (ha : a ∈ l) : ∃ b, b ∈ l' ∧ R a b := by
  induction h with
  | nil => simp at ha
  | cons h1 h2 ih =>
    rcases List.mem_cons.1 ha with rfl | ha
    · exact ⟨_, by simp, h1⟩
    · obtain ⟨b, hb, hr⟩ := ih ha
      exact ⟨b, by simp [hb], hr⟩

theorem lineOf_cons (a b : List Char) (cells : List (List Char)) :
    lineOf (a :: b :: cells) = a ++ ',' :: lineOf (b :: cells) := by
  unfold lineOf
  rw [List.intercalate_cons_cons]
  simp

theorem lineOf_one (a : List Char) : lineOf [a] = a := by simp [lineOf]

theorem not_newline_lineOf {cells : List (List Char)} (h : ∀ c ∈ cells, '\n' ∉ c) :
    '\n' ∉ lineOf cells := by
  induction cells with
  | nil => simp [lineOf]
  | cons a cells ih =>
    cases cells with
    | nil => rw [lineOf_one]; exact h a (by simp)
    | cons b cells =>
      rw [lineOf_cons]
      simp only [List.mem_append, List.mem_cons, not_or]
      exact ⟨h a (by simp), by decide, ih (fun c hc => h c (by simp [hc]))⟩

theorem strip_lineOf (cells : List (List Char)) :
    stripSpaces (lineOf cells) = lineOf (cells.map noSpaces) := by
  induction cells with
  | nil => rfl
  | cons a cells ih =>
    cases cells with
    | nil => simp only [lineOf_one, List.map_cons, List.map_nil]; rfl
    | cons b cells =>
      rw [lineOf_cons, List.map_cons, List.map_cons, lineOf_cons, ← List.map_cons, ← ih]
      unfold stripSpaces noSpaces
      rw [List.filter_append, List.filter_cons_of_pos (by decide)]

theorem split_lineOf {cells : List (List Char)} (hne : cells ≠ []) (h : ∀ c ∈ cells, ',' ∉ c) :
    splitOn ',' (lineOf cells) = cells := by
  induction cells with
  | nil => exact absurd rfl hne
  | cons a cells ih =>
    cases cells with
    | nil => rw [lineOf_one, splitOn_none (h a (by simp))]
    | cons b cells =>
      rw [lineOf_cons, splitOn_append (h a (by simp)), ih (by simp) (fun c hc => h c (by simp [hc]))]

theorem parse_cells {io : TextNum V} {cells : List (List Char)} {values : List V}
    (h : List.Forall₂ (CellValue io) cells values) (hne : cells ≠ []) :
    parsePieces io (cells.map noSpaces) = .ok values := by
  induction h with
  | nil => exact absurd rfl hne
  | @cons a v cells vs h1 h2 ih =>
    cases cells with
    | nil =>
      cases h2
      simp only [List.map_cons, List.map_nil, parsePieces]
      rw [if_pos (List.length_pos_iff.2 h1.2.2.1), h1.2.2.2]
      rfl
    | cons b cells =>
      rw [List.map_cons, parsePieces_cons _ _ (by simp), h1.2.2.2, ok_bind, ih (by simp)]
      rfl

theorem parse_line {io : TextNum V} {cells : List (List Char)} {values : List V}
    (h : List.Forall₂ (CellValue io) cells values) (hlen : 2 ≤ (noSpaces (lineOf cells)).length) :
    parseDoubleVector io (lineOf cells) = .ok (some values) := by
  have hne : cells ≠ [] := by
    rintro rfl
    simp [lineOf, noSpaces] at hlen
  unfold parseDoubleVector
  dsimp only
  have hl : (stripSpaces (lineOf cells)).length > 1 := hlen
  rw [if_pos hl, strip_lineOf, split_lineOf (by simpa using hne) ?_, parse_cells h hne]
  · rfl
  · intro c hc
    obtain ⟨d, hd, rfl⟩ := List.mem_map.1 hc
    intro hm
    have : ',' ∈ d := List.mem_of_mem_filter hm
    obtain ⟨v, -, hv⟩ := forall₂_left h hd
    exact hv.1 this

/-- C74: every value of a CSV file is read. The rows of the file are given by the texts of their cells,
with spaces anywhere, and the rows are at least two characters long; the result is the table of the
values. -/
theorem C74_csv_values_partial {io : TextNum V} {cells : List (List (List Char))} {values : List (List V)}
    (h : List.Forall₂ (List.Forall₂ (CellValue io)) cells values)
    (hlen : ∀ row ∈ cells, 2 ≤ (noSpaces (lineOf row)).length) :
    readCSV io (some (fileOf (cells.map lineOf))) = .ok values := by
  have hcell : ∀ row ∈ cells, ∀ c ∈ row, '\n' ∉ c := by
    intro row hrow c hc
    obtain ⟨vs, -, hv⟩ := forall₂_left h hrow
    obtain ⟨v, -, hv⟩ := forall₂_left hv hc
    exact hv.2.1
  have hsp := splitOn_lines (lines := cells.map lineOf) (by
    intro l hl
    obtain ⟨row, hrow, rfl⟩ := List.mem_map.1 hl
    exact not_newline_lineOf (hcell row hrow)) []
  rw [List.append_nil] at hsp
  unfold readCSV
  dsimp only
  rw [hsp]
  clear hsp hcell
  induction h with
  | nil => rfl
  | cons h1 h2 ih =>
    rw [List.map_cons, List.cons_append, readLines, parse_line h1 (hlen _ (by simp)), ok_bind,
      ih (fun row hrow => hlen row (by simp [hrow]))]
    rfl

/-- C74: the last line may lack its newline. -/
theorem C74_no_final_newline_partial {io : TextNum V} {cells : List (List (List Char))}
    {values : List (List V)} {last : List (List Char)} {lastValues : List V}
    (h : List.Forall₂ (List.Forall₂ (CellValue io)) cells values)
    (hlen : ∀ row ∈ cells, 2 ≤ (noSpaces (lineOf row)).length)
    (hlast : List.Forall₂ (CellValue io) last lastValues) (hll : 2 ≤ (noSpaces (lineOf last)).length) :
    readCSV io (some (fileOf (cells.map lineOf) ++ lineOf last)) = .ok (values ++ [lastValues]) := by
  have hcell : ∀ row ∈ cells, ∀ c ∈ row, '\n' ∉ c := by
    intro row hrow c hc
    obtain ⟨vs, -, hv⟩ := forall₂_left h hrow
    obtain ⟨v, -, hv⟩ := forall₂_left hv hc
    exact hv.2.1
  have hsp := splitOn_lines (lines := cells.map lineOf) (by
    intro l hl
    obtain ⟨row, hrow, rfl⟩ := List.mem_map.1 hl
    exact not_newline_lineOf (hcell row hrow)) (lineOf last)
  have hnl : '\n' ∉ lineOf last := not_newline_lineOf (by
    intro c hc
    obtain ⟨v, -, hv⟩ := forall₂_left hlast hc
    exact hv.2.1)
  unfold readCSV
  dsimp only
  rw [hsp, splitOn_none hnl]
  clear hsp hcell
  induction h with
  | nil => rw [List.map_nil, List.nil_append, readLines, parse_line hlast hll]; rfl
  | cons h1 h2 ih =>
    rw [List.map_cons, List.cons_append, readLines, parse_line h1 (hlen _ (by simp)), ok_bind,
      ih (fun row hrow => hlen row (by simp [hrow]))]
    rfl

/-- C74 is violated by rows of one character, such as a one-digit number in a file with one column:
they are dropped wherever they stand, whatever the rest of the file is. -/
theorem C74_one_digit_violated {io : TextNum V} (c : Char) (hc : c ≠ '\n') (rest : List Char) :
    readCSV io (some (c :: '\n' :: rest)) = readCSV io (some rest) := by
  unfold readCSV
  dsimp only
  have h := splitOn_append (sep := '\n') (l := [c]) (by simpa using hc.symm) rest
  rw [List.singleton_append] at h
  rw [h, readLines]
  have hp : parseDoubleVector io [c] = .ok none := by
    unfold parseDoubleVector
    dsimp only
    rw [if_neg]
    · rfl
    · have := List.length_filter_le (· ≠ ' ') [c]
      unfold stripSpaces
      simp only [List.length_singleton] at this
      omega
  rw [hp, ok_bind]
  cases readLines io (splitOn '\n' rest) <;> rfl

/-- The hypotheses of C74 are met by the two-line file "1.5, -2" / " 7,0.25". -/
example : readCSV decimal (some "1.500000, -2.000000\n 7.000000,0.250000\n".toList) =
    .ok [[1500000, -2000000], [7000000, 250000]] := by
  have h := C74_csv_values_partial (io := decimal)
    (cells := [["1.500000".toList, " -2.000000".toList], [" 7.000000".toList, "0.250000".toList]])
    (values := [[1500000, -2000000], [7000000, 250000]]) (by
      refine List.Forall₂.cons ?_ (List.Forall₂.cons ?_ List.Forall₂.nil)
      · exact List.Forall₂.cons ⟨by decide, by decide, by decide, by rfl⟩
          (List.Forall₂.cons ⟨by decide, by decide, by decide, by rfl⟩ List.Forall₂.nil)
      · exact List.Forall₂.cons ⟨by decide, by decide, by decide, by rfl⟩
          (List.Forall₂.cons ⟨by decide, by decide, by decide, by rfl⟩ List.Forall₂.nil)) (by decide)
  exact h

/-! ### C35 -/

/-- C35: reading back a file written by `writeMAT` gives the table that was written, each number as
printed with six decimals, for every non-empty rectangular table. -/
theorem C35_mat_roundtrip {io : TextNum V} {rounded : V → V} (hio : PrintsNumbers io rounded)
    (hs : PrintsSizes io) {data : List (List V)} {d : Nat} (hne : data ≠ [])
    (hd : ∀ row ∈ data, row.length = d) (hl : data.length < 2 ^ 31) (hdl : d < 2 ^ 31) :
    ∃ content, writeMAT io data = .ok content ∧
      readMAT io (some content) = .ok (data.map (fun row => row.map rounded)) := by
  obtain ⟨first, rest, hdata⟩ := List.exists_cons_of_ne_nil hne
  have hfl : first.length = d := hd first (by rw [hdata]; simp)
  have hv : vget data 0 = .ok first := by rw [hdata]; rfl
  refine ⟨_, by unfold writeMAT; rw [hv]; rfl, ?_⟩
  have hn1 : ∀ n, '\n' ∉ io.sizeStr n := fun n h => (hs.clean n _ h).2 rfl
  have hs1 : ∀ n, stripSpaces (io.sizeStr n) = io.sizeStr n :=
    fun n => stripSpaces_eq (fun h => (hs.clean n _ h).1 rfl)
  have hbody : data.flatMap (fun row => row.flatMap (fun v => io.toStr v ++ ['\n'])) =
      fileOf (data.flatMap (fun row => row.map io.toStr)) := by
    unfold fileOf
    rw [List.flatMap_assoc]
    congr 1
    funext row
    rw [List.flatMap_map]
  have hlines := splitOn_lines (lines := data.flatMap (fun row => row.map io.toStr)) (by
    intro l hl
    obtain ⟨row, -, hl⟩ := List.mem_flatMap.1 hl
    obtain ⟨v, -, rfl⟩ := List.mem_map.1 hl
    exact fun h => (hio.clean v _ h).2.2 rfl) []
  rw [List.append_nil, show splitOn '\n' [] = [[]] from rfl] at hlines
  rw [hbody, hfl]
  have hsplit : splitOn '\n' (io.sizeStr data.length ++ ['\n'] ++ io.sizeStr d ++ ['\n'] ++
      fileOf (data.flatMap (fun row => row.map io.toStr))) =
      io.sizeStr data.length :: io.sizeStr d :: (data.flatMap (fun row => row.map io.toStr) ++ [[]]) := by
    rw [show io.sizeStr data.length ++ ['\n'] ++ io.sizeStr d ++ ['\n'] ++
      fileOf (data.flatMap (fun row => row.map io.toStr)) = io.sizeStr data.length ++ '\n' ::
        (io.sizeStr d ++ '\n' :: fileOf (data.flatMap (fun row => row.map io.toStr))) by simp,
      splitOn_append (hn1 _), splitOn_append (hn1 _), hlines]
  unfold readMAT
  dsimp only
  rw [hsplit]
  dsimp only
  rw [if_neg (by simp), hs1, hs.back _ hl]
  simp only [bind, Except.bind]
  rw [if_neg (by simp), hs1, hs.back _ hdl]
  dsimp only
  rw [Int.toNat_natCast, Int.toNat_natCast]
  exact readMatRows_values hio data hd [[]] _

/-- C35: an empty table cannot be written: its first row is read. -/
theorem C35_empty_table (io : TextNum V) : writeMAT io [] = .error .oob := rfl

/-- C35: a file that ends early without a final newline is not reported: the last value is repeated. -/
theorem C35_truncated_file_repeats_value :
    readMAT decimal (some "2\n2\n1.000000\n2.000000\n3.000000".toList) =
      .ok [[1000000, 2000000], [3000000, 3000000]] := by rfl

example : ∃ content, writeMAT decimal [[1500000, -250000], [0, 7]] = .ok content ∧
    readMAT decimal (some content) = .ok [[1500000, -250000], [0, 7]] :=
  C35_mat_roundtrip decimal_numbers decimal_sizes (d := 2) (by simp) (by simp) (by simp) (by simp)

/-! ### C36 -/

theorem good_streamRows {io : TextNum V} (hio : StodLaws io) {lines : List (List Char)}
    (h : ∀ l ∈ lines, GoodLine l) (bufs : List (List Char)) (rest : List (List Char))
    (hrest : streamRows io bufs = readLines io rest) :
    streamRows io (lines.map (· ++ ['\n']) ++ bufs) = readLines io (lines ++ rest) := by
  induction lines with
  | nil => exact hrest
  | cons l lines ih =>
    obtain ⟨h1, h2⟩ := parse_good hio (h l (by simp))
    rw [List.map_cons, List.cons_append, List.cons_append, streamRows, readLines, h1, h2,
      ih (fun l hl => h l (by simp [hl]))]
    cases parsePieces io (splitOn ',' (stripSpaces l)) with
    | error e => rfl
    | ok row => rfl

theorem fgets_lines {lines : List (List Char)} (h : ∀ l ∈ lines, GoodLine l) (r : List Char) :
    fgetsAll 999 [] (fileOf lines ++ r) = lines.map (· ++ ['\n']) ++ fgetsAll 999 [] r := by
  induction lines with
  | nil => rfl
  | cons l lines ih =>
    have hl := h l (by simp)
    have : fileOf (l :: lines) ++ r = l ++ '\n' :: (fileOf lines ++ r) := by simp [fileOf]
    have hlen := hl.2.1
    rw [this, fgetsAll_line hl.1 999 [] _ (by omega), ih (fun l hl => h l (by simp [hl]))]
    simp

/-- C36 (partial): on a file of good lines, `streamRead` called until it fails yields exactly the rows
of `readCSV`, with the same exception if a value cannot be converted. The last line may lack its
newline. Missing: other files, on which the two readers differ, see the theorems below. -/
theorem C36_stream_agrees_partial {io : TextNum V} (hio : StodLaws io) {lines : List (List Char)}
    (h : ∀ l ∈ lines, GoodLine l) {last : List Char} (hlast : last = [] ∨ GoodLine last) :
    streamAll io (some (fileOf lines ++ last)) = readCSV io (some (fileOf lines ++ last)) := by
  unfold streamAll readCSV
  have hnl : '\n' ∉ last := by
    rcases hlast with rfl | hl
    · simp
    · exact hl.1
  have hlen : last.length < 999 := by
    rcases hlast with rfl | hl
    · simp
    · have := hl.2.1; omega
  dsimp only
  rw [splitOn_lines (fun l hl => (h l hl).1), fgets_lines h, splitOn_none hnl,
    fgetsAll_last hnl 999 [] hlen]
  apply good_streamRows hio h
  rcases hlast with rfl | hl
  · rfl
  · have hne : last ≠ [] := by rintro rfl; have := hl.2.2.1; simp [noSpaces] at this
    rw [List.nil_append, if_neg hne, streamRows, readLines, (parse_good hio hl).2]
    cases parsePieces io (splitOn ',' (stripSpaces last)) with
    | error e => rfl
    | ok row => rfl

/-- C36 is violated by blank lines: streaming stops there, whatever follows; `readCSV` goes on. -/
theorem C36_blank_line_violated {io : TextNum V} (hio : StodLaws io) {lines : List (List Char)}
    (h : ∀ l ∈ lines, GoodLine l) (rest : List Char) :
    streamAll io (some (fileOf lines ++ '\n' :: rest)) = readCSV io (some (fileOf lines)) ∧
    readCSV io (some (fileOf lines ++ '\n' :: rest)) =
      readLines io (lines ++ splitOn '\n' rest) := by
  have hnl : ∀ l ∈ lines, '\n' ∉ l := fun l hl => (h l hl).1
  constructor
  · unfold streamAll readCSV
    dsimp only
    have e := splitOn_lines hnl []
    rw [List.append_nil] at e
    rw [fgets_lines h, e]
    apply good_streamRows hio h
    have := fgetsAll_line (l := []) (by simp) 999 [] rest (by simp)
    rw [List.nil_append] at this
    rw [this]
    rfl
  · unfold readCSV
    dsimp only
    rw [splitOn_lines hnl]
    have := splitOn_append (sep := '\n') (l := []) (by simp) rest
    rw [List.nil_append] at this
    rw [this]
    clear this
    induction lines with
    | nil =>
      rw [List.nil_append, List.nil_append, readLines]
      have : parseDoubleVector io [] = .ok none := rfl
      rw [this]
      cases readLines io (splitOn '\n' rest) <;> rfl
    | cons l lines ih =>
      rw [List.cons_append, List.cons_append, readLines, readLines,
        ih (fun l hl => h l (by simp [hl])) (fun l hl => hnl l (by simp [hl]))]

/-- C36 is violated by rows that end with a comma: streaming throws. -/
theorem C36_trailing_comma_violated {io : TextNum V} (hio : StodLaws io) {l : List Char}
    (hnl : '\n' ∉ l) (hlen : l.length ≤ 998) (hcomma : (noSpaces l).getLast? = some ',')
    (rest : List Char) : streamAll io (some (l ++ '\n' :: rest)) = .error .exn := by
  unfold streamAll
  dsimp only
  rw [fgetsAll_line hnl 999 [] _ (by omega), List.nil_append, streamRows]
  have e1 : stripSpaces (l ++ ['\n']) = noSpaces l ++ ['\n'] := by simp [stripSpaces, noSpaces]
  obtain ⟨front, hf⟩ : ∃ front, noSpaces l = front ++ [','] := by
    rw [List.getLast?_eq_some_iff] at hcomma
    exact hcomma
  have key : ∀ t : List Char, ∃ init, splitOn ',' (t ++ [',', '\n']) = init ++ [['\n']] ∧ init ≠ [] := by
    intro t
    induction t with
    | nil => exact ⟨[[]], by decide, by simp⟩
    | cons c t ih =>
      obtain ⟨init, hi, hne⟩ := ih
      obtain ⟨p, ps, rfl⟩ := List.exists_cons_of_ne_nil hne
      rw [List.cons_append, splitOn, hi]
      by_cases hc : c = ','
      · exact ⟨[] :: p :: ps, by simp [hc], by simp⟩
      · exact ⟨(c :: p) :: ps, by simp [hc], by simp⟩
  obtain ⟨init, hi, hne⟩ := key front
  have herr : ∀ init : List (List Char), parsePieces io (init ++ [['\n']]) = .error .exn := by
    intro init
    induction init with
    | nil =>
      simp only [List.nil_append, parsePieces]
      rw [if_pos (by simp), hio.lone]
      rfl
    | cons p init ih =>
      rw [List.cons_append, parsePieces_cons _ _ (by simp), ih]
      cases hp : io.stod p with
      | error e => rw [hio.exn p e hp]; rfl
      | ok v => rfl
  have hparse : parseDoubleVector io (l ++ ['\n']) = .error .exn := by
    unfold parseDoubleVector
    dsimp only
    rw [e1, if_pos (by rw [hf]; simp), hf, List.append_assoc]
    have : front ++ ([','] ++ ['\n']) = front ++ [',', '\n'] := rfl
    rw [this, hi, herr]
    rfl
  rw [hparse]
  rfl

/-- C36: in particular no file written by `writeCSV` can be streamed: every row it writes ends with a
comma. -/
theorem C36_written_files_violated {io : TextNum V} {rounded : V → V} (hio : StodLaws io)
    (hp : PrintsNumbers io rounded) {row : List V} (hrow : row ≠ []) (data : List (List V))
    (hlen : (row.flatMap (fun v => io.toStr v ++ [','])).length ≤ 998) :
    streamAll io (some (writeCSV io (row :: data))) = .error .exn := by
  have : writeCSV io (row :: data) =
      row.flatMap (fun v => io.toStr v ++ [',']) ++ '\n' :: writeCSV io data := by
    simp [writeCSV, csvRow]
  rw [this]
  apply C36_trailing_comma_violated hio (newline_not_mem_csvRow hp row) hlen
  have hs : ' ' ∉ row.flatMap (fun v => io.toStr v ++ [',']) := by
    intro h
    obtain ⟨v, -, hv⟩ := List.mem_flatMap.1 h
    rcases List.mem_append.1 hv with hv | hv
    · exact (hp.clean v _ hv).2.1 rfl
    · simp at hv
  have e : noSpaces (row.flatMap (fun v => io.toStr v ++ [','])) =
      row.flatMap (fun v => io.toStr v ++ [',']) := stripSpaces_eq hs
  rw [e, List.eq_nil_or_concat row |>.resolve_left hrow |>.choose_spec.choose_spec]
  simp [List.flatMap_append]

/-- C36 is violated by one-character lines: `readCSV` drops them, streaming keeps them. -/
theorem C36_one_character_violated {io : TextNum V} (hio : StodLaws io) {c : Char} {v : V}
    (hc : c ≠ ',' ∧ c ≠ ' ' ∧ c ≠ '\n') (hv : io.stod [c] = .ok v) :
    readCSV io (some [c, '\n']) = .ok [] ∧ streamAll io (some [c, '\n']) = .ok [[v]] := by
  obtain ⟨h1, h2, h3⟩ := hc
  constructor
  · have : splitOn '\n' [c, '\n'] = [[c], []] := by simp [splitOn, h3]
    unfold readCSV
    dsimp only
    rw [this]
    simp [readLines, parseDoubleVector, stripSpaces, h2, bind, Except.bind, pure, Except.pure]
  · have hf : fgetsAll 999 [] [c, '\n'] = [[c, '\n']] := by simp [fgetsAll, h3]
    have hs : stripSpaces [c, '\n'] = [c, '\n'] := by simp [stripSpaces, h2]
    have hsp : splitOn ',' [c, '\n'] = [[c, '\n']] := by simp [splitOn, h1]
    have hst : io.stod [c, '\n'] = .ok v := by
      rw [← hv]; exact hio.newline [c] (by simp) (by simpa using h3.symm)
    unfold streamAll
    dsimp only
    rw [hf]
    simp [streamRows, parseDoubleVector, hs, hsp, parsePieces, hst, bind, Except.bind, pure,
      Except.pure]

/-- C36 is violated by lines of more than 999 characters: they are cut after 999 characters and each
part is read as a row. -/
theorem C36_long_line_violated {io : TextNum V} (hio : StodLaws io) {a b : List Char} {x y z : V}
    (ha : a.length = 999) (hb : b ≠ []) (hbl : b.length ≤ 998)
    (hc : ∀ c ∈ a ++ b, c ≠ ',' ∧ c ≠ ' ' ∧ c ≠ '\n')
    (hx : io.stod a = .ok x) (hy : io.stod b = .ok y) (hz : io.stod (a ++ b) = .ok z) :
    readCSV io (some (fileOf [a ++ b])) = .ok [[z]] ∧
    streamAll io (some (fileOf [a ++ b])) = .ok [[x], [y]] := by
  have hn : '\n' ∉ a ++ b := fun h => (hc _ h).2.2 rfl
  have hsp : ' ' ∉ a ++ b := fun h => (hc _ h).2.1 rfl
  have hcm : ',' ∉ a ++ b := fun h => (hc _ h).1 rfl
  rw [List.mem_append, not_or] at hn hsp hcm
  have one : ∀ (t : List Char) (v : V), ',' ∉ t → ' ' ∉ t → 1 < t.length → io.stod t = .ok v →
      parseDoubleVector io t = .ok (some [v]) := by
    intro t v h1 h2 h3 h4
    unfold parseDoubleVector
    dsimp only
    rw [stripSpaces_eq h2, if_pos h3, splitOn_none h1]
    simp only [parsePieces]
    rw [if_pos (by omega), h4]
    rfl
  constructor
  · have := splitOn_lines (lines := [a ++ b]) (by simpa using hn) []
    rw [List.append_nil] at this
    unfold readCSV
    dsimp only
    rw [this, List.singleton_append, readLines, one (a ++ b) z (by simp [hcm]) (by simp [hsp])
      (by simp; omega) hz]
    rfl
  · have e : fileOf [a ++ b] = a ++ (b ++ '\n' :: []) := by simp [fileOf]
    unfold streamAll
    dsimp only
    have hane : a ≠ [] := by rintro rfl; simp at ha
    have h2 := fgetsAll_line hn.2 999 [] [] (by omega)
    rw [e, fgetsAll_full hn.1 hane 999 [] _ ha, h2]
    have hbpos := List.length_pos_of_ne_nil hb
    have p1 := one a x hcm.1 hsp.1 (by omega) hx
    have p2 := one (b ++ ['\n']) y (by simp [hcm.2]) (by simp [hsp.2]) (by simp; omega)
      (by rw [hio.newline b hb hn.2, hy])
    simp only [List.nil_append, streamRows, p1, p2, fgetsAll, bind, Except.bind, pure, Except.pure]
    rfl

/-- Good lines, a blank line and a long line exist. -/
example : GoodLine "1.5, 2".toList ∧ GoodLine "12".toList ∧
    streamAll decimal (some "1.5, 2\n\n3,4\n".toList) = .ok [[1500000, 2000000]] ∧
    readCSV decimal (some "1.5, 2\n\n3,4\n".toList) =
      .ok [[1500000, 2000000], [3000000, 4000000]] := by
  refine ⟨?_, ?_, by rfl, by rfl⟩ <;> (unfold GoodLine; decide)

example : (List.replicate 999 '1').length = 999 ∧
    ∀ c ∈ List.replicate 999 '1' ++ ['1'], c ≠ ',' ∧ c ≠ ' ' ∧ c ≠ '\n' := by
  refine ⟨List.length_replicate, ?_⟩
  intro c hc
  have : c = '1' := by
    rcases List.mem_append.1 hc with h | h
    · exact List.eq_of_mem_replicate h
    · exact List.mem_singleton.1 h
  subst this
  decide

end LHF
