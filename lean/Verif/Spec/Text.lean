import Verif.Model.InputOutput

/-! Specification: what the theorems about files assume of the library conversions, and the kinds of
lines they speak about. -/

namespace LHF.Spec
variable {V : Type}

/-- Printed numbers: `std::to_string` of a double gives a non-empty text without comma, space or
newline, and `std::stod` reads `rounded v` back from the text of `v` (six decimals are printed). -/
structure PrintsNumbers (io : TextNum V) (rounded : V → V) : Prop where
  /-- not empty -/
  ne : ∀ v, io.toStr v ≠ []
  /-- no separators -/
  clean : ∀ v, ∀ c ∈ io.toStr v, c ≠ ',' ∧ c ≠ ' ' ∧ c ≠ '\n'
  /-- reading back -/
  back : ∀ v, io.stod (io.toStr v) = .ok (rounded v)

/-- Printed sizes: the same for `std::to_string` of a size below 2^31 and `std::stoi`. -/
structure PrintsSizes (io : TextNum V) : Prop where
  /-- not empty -/
  ne : ∀ n, io.sizeStr n ≠ []
  /-- no separators -/
  clean : ∀ n, ∀ c ∈ io.sizeStr n, c ≠ ' ' ∧ c ≠ '\n'
  /-- reading back -/
  back : ∀ n, n < 2 ^ 31 → io.stoi (io.sizeStr n) = .ok (n : Int)

/-- `std::stod` ignores a newline after a number and throws on an empty text and on a lone newline;
its failures are exceptions. -/
structure StodLaws (io : TextNum V) : Prop where
  /-- a newline after a text changes nothing -/
  newline : ∀ s, s ≠ [] → '\n' ∉ s → io.stod (s ++ ['\n']) = io.stod s
  /-- no conversion of a lone newline -/
  lone : io.stod ['\n'] = .error .exn
  /-- failures are exceptions -/
  exn : ∀ s e, io.stod s = .error e → e = .exn

/-- The line without its spaces. -/
def noSpaces (l : List Char) : List Char := l.filter (· ≠ ' ')

/-- A line that both readers treat alike: at most 998 characters, at least two of them not spaces, and
no comma at its end. -/
def GoodLine (l : List Char) : Prop :=
  '\n' ∉ l ∧ l.length ≤ 998 ∧ 2 ≤ (noSpaces l).length ∧ (noSpaces l).getLast? ≠ some ','

/-- The file with the given lines. -/
def fileOf (lines : List (List Char)) : List Char := lines.flatMap (fun l => l ++ ['\n'])

end LHF.Spec
