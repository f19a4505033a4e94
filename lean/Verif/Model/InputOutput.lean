import Verif.Model.Basic

/-!
Model of Utils/readInput.cpp and Utils/writeOutput.cpp. A file is the list of its characters (no NUL
character), a file that cannot be opened is `none`. The conversions of the standard library between
numbers and text are parameters (`TextNum`); what is assumed about them is stated with the theorems.
-/

namespace LHF

/-- The library conversions: `std::to_string(double)`, `std::stod`, `std::to_string(size_t)` and
`std::stoi`. An exception is `Err.exn`. -/
structure TextNum (V : Type) where
  /-- std::to_string of a double -/
  toStr : V → List Char
  /-- std::stod -/
  stod : List Char → Res V
  /-- std::to_string of a size -/
  sizeStr : Nat → List Char
  /-- std::stoi -/
  stoi : List Char → Res Int

variable {V : Type}

/-! ### Writing -/

/-- Utils/writeOutput.cpp:49-52: one row of `writeCSV`. -/
def csvRow (io : TextNum V) (row : List V) : List Char :=
  row.flatMap (fun v => io.toStr v ++ [',']) ++ ['\n']

/-- Utils/writeOutput.cpp:45-57 `writeCSV`: the content of the file. -/
def writeCSV (io : TextNum V) (data : List (List V)) : List Char := data.flatMap (csvRow io)

/-- Utils/writeOutput.cpp:68-83 `writeCSV` with a header. -/
def writeCSVHeader (io : TextNum V) (data : List (List V)) (header : List Char) : List Char :=
  header ++ writeCSV io data

/-- The header of Utils/writeOutput.cpp:33, 39. -/
def barcodeHeader : List Char := "dimension,birth,death\n".toList

/-- Utils/writeOutput.cpp:32-36 `writeBarcodes`. -/
def writeBarcodes (io : TextNum V) (data : List (List V)) : List Char :=
  writeCSVHeader io data barcodeHeader

/-- Utils/writeOutput.cpp:97-109 `writeMAT`; `data[0]` is read. -/
def writeMAT (io : TextNum V) (data : List (List V)) : Res (List Char) := do
  let first ← vget data 0
  pure (io.sizeStr data.length ++ ['\n'] ++ io.sizeStr first.length ++ ['\n'] ++
    data.flatMap (fun row => row.flatMap (fun v => io.toStr v ++ ['\n'])))

/-! ### Reading -/

/-- Splits at every occurrence of `sep`; `std::getline` on the separator `'\n'`, and the pieces found
by `find_first_of(",")`. There is always at least one piece. -/
def splitOn (sep : Char) : List Char → List (List Char)
  | [] => [[]]
  | c :: cs =>
    match splitOn sep cs with
    | [] => [[]]
    | p :: ps => if c = sep then [] :: p :: ps else (c :: p) :: ps

/-- Utils/readInput.cpp:65, 112, 118, 130: `regex_replace(line, " ", "")`. -/
def stripSpaces (line : List Char) : List Char := line.filter (· ≠ ' ')

/-- Utils/readInput.cpp:71-79: the pieces before commas are converted; the last piece is converted if
it is not empty. -/
def parsePieces (io : TextNum V) : List (List Char) → Res (List V)
  | [] => pure []
  | [last] => if last.length > 0 then do pure [← io.stod last] else pure []
  | piece :: rest => do
    let v ← io.stod piece
    let vs ← parsePieces io rest
    pure (v :: vs)

/-- Utils/readInput.cpp:61-85 `parseDoubleVector`: `none` is the result `false`; otherwise the values
appended to `row`. -/
def parseDoubleVector (io : TextNum V) (line : List Char) : Res (Option (List V)) :=
  let line := stripSpaces line
  if line.length > 1 then do pure (some (← parsePieces io (splitOn ',' line))) else pure none

/-- Utils/readInput.cpp:45-55: the loop over the lines. -/
def readLines (io : TextNum V) : List (List Char) → Res (List (List V))
  | [] => pure []
  | line :: rest => do
    let r ← parseDoubleVector io line
    let rs ← readLines io rest
    pure (match r with | some row => row :: rs | none => rs)

/-- Utils/readInput.cpp:36-58 `readCSV`. The loop tests `eof` before every `getline`, so every piece
between newlines is one turn, also the last one. -/
def readCSV (io : TextNum V) : Option (List Char) → Res (List (List V))
  | none => pure []
  | some content => readLines io (splitOn '\n' content)

/-- Utils/readInput.cpp:124-137: the inner loop of `readMAT`, over the dimensions. `lines` are the
lines not read yet and `line` is the variable `line`: when no line is left, `getline` leaves it
unchanged. -/
def readMatRow (io : TextNum V) : Nat → List (List Char) → List Char →
    Res (List V × List (List Char) × List Char)
  | 0, lines, line => pure ([], lines, line)
  | dim + 1, lines, line => do
    let (line, lines) := match lines with
      | [] => (line, [])
      | l :: ls => (l, ls)
    let line := stripSpaces line
    let v ← if line.length > 0 then do pure [← io.stod line] else pure []
    let r ← readMatRow io dim lines line
    pure (v ++ r.1, r.2)

/-- Utils/readInput.cpp:122-142: the outer loop of `readMAT`. -/
def readMatRows (io : TextNum V) (dims : Nat) : Nat → List (List Char) → List Char →
    Res (List (List V))
  | 0, _, _ => pure []
  | vect + 1, lines, line => do
    let r ← readMatRow io dims lines line
    let rs ← readMatRows io dims vect r.2.1 r.2.2
    pure (r.1 :: rs)

/-- Utils/readInput.cpp:102-146 `readMAT`. The first two `getline` fail if nothing is left to read;
only then is the result returned early. Negative counts give no turns. -/
def readMAT (io : TextNum V) : Option (List Char) → Res (List (List V))
  | none => pure []
  | some content =>
    match splitOn '\n' content with
    | [] => pure []
    | first :: lines =>
      if lines = [] ∧ first = [] then pure []
      else do
        let vectors ← io.stoi (stripSpaces first)
        match lines with
        | [] => pure []
        | second :: lines' =>
          if lines' = [] ∧ second = [] then pure []
          else do
            let dims ← io.stoi (stripSpaces second)
            readMatRows io dims.toNat vectors.toNat lines' (stripSpaces second)

/-! ### Streaming -/

/-- Utils/readInput.cpp:165: the buffers filled by successive `fgets(streamBuffer, 1000, pFile)`: up
to 999 characters, or up to and including a newline. `room` is the space left, `buf` the characters
read so far. -/
def fgetsAll : Nat → List Char → List Char → List (List Char)
  | _, buf, [] => if buf = [] then [] else [buf]
  | room, buf, c :: cs =>
    if c = '\n' ∨ room ≤ 1 then (buf ++ [c]) :: fgetsAll 999 [] cs
    else fgetsAll (room - 1) (buf ++ [c]) cs

/-- Utils/readInput.cpp:160-173: the rows obtained by calling `streamRead` until it returns false (as
Pipes/slidingWindow.cpp and Pipes/naiveWindow.cpp do). -/
def streamRows (io : TextNum V) : List (List Char) → Res (List (List V))
  | [] => pure []
  | buf :: rest => do
    match ← parseDoubleVector io buf with
    | none => pure []
    | some row => do
      let rs ← streamRows io rest
      pure (row :: rs)

/-- Utils/readInput.cpp:149-173: `streamInit` and then `streamRead` until it returns false. -/
def streamAll (io : TextNum V) : Option (List Char) → Res (List (List V))
  | none => pure []
  | some content => streamRows io (fgetsAll 999 [] content)

end LHF
