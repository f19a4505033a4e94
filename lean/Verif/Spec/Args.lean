import Verif.Model.Pipeline

/-!
Specification of the command line: what it means that an option is given, and the documented options.
-/

namespace LHF.Spec

/-- The argument `a` names the option `n`: it is `--n`, or it is `-n` and `n` does not start with a
dash. -/
def Names (a n : String) : Prop :=
  a.toList = '-' :: '-' :: n.toList ∨ (a.toList = '-' :: n.toList ∧ n.toList.head? ≠ some '-')

/-- The option `n` is not given. -/
def NotGiven (pairs : List (String × String)) (n : String) : Prop :=
  ∀ p ∈ pairs, ¬ Names p.1 n

/-- The last value given for the option `n` is `v`. -/
def LastValue (pairs : List (String × String)) (n v : String) : Prop :=
  ∃ before a after, pairs = before ++ (a, v) :: after ∧ Names a n ∧ NotGiven after n

/-- The command line made of pairs of a name and a value. -/
def commandLine (pairs : List (String × String)) : List String :=
  pairs.flatMap (fun p => [p.1, p.2])

/-- The options with their long names, short names and defaults. -/
def options : List (String × String × String) :=
  [("mpi", "a", "0"), ("mode", "m", "standard"), ("dimensions", "d", "1"), ("iterations", "r", "250"),
   ("pipeline", "p", ""), ("inputFile", "i", "None"), ("outputFile", "o", "output.csv"),
   ("epsilon", "e", "5"), ("lambda", "l", ".25"), ("debug", "x", "0"),
   ("complexType", "c", "simplexTree"), ("clusters", "k", "20"), ("preprocessor", "pre", ""),
   ("upscale", "u", "false"), ("twist", "t", "false"), ("collapse", "z", "false")]

/-- The names joined with dots. -/
def joinDots : List (List Char) → List Char
  | [] => []
  | [c] => c
  | c :: d :: cs => c ++ '.' :: joinDots (d :: cs)

/-- The pipeline text with the given stages. -/
def pipelineOf (stages : List String) : String :=
  String.ofList (joinDots (stages.map String.toList))

/-- The four stages of most pipelines. -/
def fastStages : List String := ["distMatrix", "neighGraph", "rips", "fastPersistence"]

/-- What a mode does with an option. -/
inductive Setting where
  /-- the option is left as it is -/
  | keep
  /-- the option gets this value if it is empty -/
  | fill (v : String)
  /-- the option gets this value -/
  | force (v : String)

/-- The value of an option after a mode has been applied to its value before. -/
def Setting.apply : Setting → String → String
  | .keep, old => old
  | .fill v, old => if old = "" then v else old
  | .force v, _ => v

/-- A mode: its name, its stages and its effect on the options. -/
structure Mode where
  name : String
  stages : List String
  preprocessor : Setting
  complexType : Setting
  upscale : Setting

/-- The modes. -/
def modes : List Mode :=
  [⟨"standard", fastStages, .keep, .keep, .keep⟩,
   ⟨"reduced", fastStages, .fill "kmeans++", .force "simplexTree", .force "false"⟩,
   ⟨"upscaleBound", ["distMatrix", "neighGraph", "rips", "persistence", "boundary", "upscale"],
     .fill "kmeans++", .keep, .force "true"⟩,
   ⟨"stream", fastStages, .fill "streamingkmeans", .keep, .keep⟩,
   ⟨"sw", ["slidingwindow"], .force "", .force "simplexTree", .force "false"⟩,
   ⟨"slidingwindow", ["slidingwindow"], .force "", .force "simplexTree", .force "false"⟩,
   ⟨"fast", fastStages, .keep, .force "simplexTree", .force "false"⟩,
   ⟨"naive", ["naivewindow"], .force "", .force "simplexTree", .force "false"⟩,
   ⟨"naivewindow", ["naivewindow"], .force "", .force "simplexTree", .force "false"⟩]

end LHF.Spec
