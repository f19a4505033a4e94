import Verif.Model.Effects
import Verif.Model.Collapse

/-!
Model of the [DEBUG] messages: who writes them when. A text is a list of characters; a byte is a character
with a code below 256.
-/

namespace LHF

/-- The settings of a `utils` object (Utils/utils.hpp:21-22). -/
structure MessageSettings where
  /-- debug -/
  debug : List Char
  /-- outputFile -/
  outputFile : List Char

/-- Utils/utils.hpp:21-22: the settings of an object made without arguments. -/
def MessageSettings.standard : MessageSettings := ⟨"0".toList, "console".toList⟩

/-- Utils/utils.cpp:415-426 `writeDebug`: the line, wherever it goes. -/
def writeDebug (ut : MessageSettings) (module' message : List Char) : List Char :=
  if ut.debug = "0".toList ∨ ut.debug = "false".toList then []
  else "[DEBUG]\t".toList ++ logLine module' message

/-- Assignment of an `int` to a `std::string`: the conversion to `char` gives a string of one byte. -/
def stringOfInt (n : Int) : List Char := [Char.ofNat (n % 256).toNat]

/-- The settings of a stage, e.g. Pipes/ripsPipe.cpp:48-60 or Pipes/distMatrixPipe.cpp:64-77: the value of the
option itself. -/
def stageMessages (args : ArgMap) : MessageSettings :=
  ⟨((args "debug").getD "").toList, ((args "outputFile").getD "").toList⟩

/-- Complex/simplexBase.cpp:24-47 `setConfig`: the local variable `debug` is a string, so the assignment of
line 30 goes through `char`. Without `dimensions` or `epsilon` the object keeps its standard settings. -/
def complexMessages (atoi : String → Int) (args : ArgMap) : MessageSettings :=
  let debug := match args "debug" with
    | some s => stringOfInt (atoi s)
    | none => []
  let outputFile := ((args "outputFile").getD "").toList
  match args "dimensions", args "epsilon" with
  | some _, some _ => ⟨debug, outputFile⟩
  | _, _ => .standard

/-- Complex/simplexArrayList.cpp:291-325 `reduceComplex` with its messages. -/
def arrayReduceSays {W : Type} [LinearOrder W] [Ring W] (count : Nat → List Char) (ut : MessageSettings)
    (g : Graph W) : Res (Graph W × List Char) := do
  let start := writeDebug ut "simplexArrayList".toList
    ("Reducing complex, starting simplex count: ".toList ++ count (arraySimplexCount g))
  let c ← arrayReduceComplex g
  if g.length = 0 then pure (c, start)
  else pure (c, start ++ writeDebug ut "simplexArrayList".toList
    ("Finished reducing complex, reduced simplex count: ".toList ++ count (arraySimplexCount c)))

/-- Pipes/ripsPipe.cpp:29-43 `runPipe` on a simplexArrayList with its messages; `size` is the number of bytes of
the complex. -/
def ripsArraySays {W : Type} [LinearOrder W] [Ring W] (count : Nat → List Char) (size : Graph W → List Char)
    (stage complex : MessageSettings) (dim : Nat) (collapse : String) (g : Graph W) :
    Res (Graph W × List Char) := do
  let g ← expandDimensions dim g
  let expanded := writeDebug stage "ripsPipe".toList
      ("Expanded Complex Size: ".toList ++ count (arraySimplexCount g)) ++
    writeDebug stage "ripsPipe".toList ("Expanded Complex Mem: ".toList ++ size g)
  if collapse = "true" ∨ collapse = "1" then do
    let r ← arrayReduceSays count complex g
    pure (r.1, expanded ++ r.2 ++ writeDebug stage "ripsPipe".toList
        ("Reduced Complex Size: ".toList ++ count (arraySimplexCount r.1)) ++
      writeDebug stage "ripsPipe".toList ("Reduced Complex Mem: ".toList ++ size r.1))
  else pure (g, expanded)

end LHF
