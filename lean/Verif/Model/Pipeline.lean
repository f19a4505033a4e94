import Verif.Model.Basic

/-!
Model of Utils/argParser.cpp, of the stage dispatch in Pipes/basePipe.cpp and
Preprocessing/preprocessor.cpp, and of LHFmain/main.cpp. Text printed to the console and timings are
left out. A `std::map<string,string>` is a partial function.
-/

namespace LHF

/-- `std::map<std::string, std::string>`. -/
abbrev ArgMap := String → Option String

/-- The empty map. -/
def ArgMap.empty : ArgMap := fun _ => none

/-- Assignment `map[key] = value`. -/
def ArgMap.set (m : ArgMap) (k v : String) : ArgMap := fun k' => if k' = k then some v else m k'

/-- `map.erase(find(key))`. -/
def ArgMap.erase (m : ArgMap) (k : String) : ArgMap := fun k' => if k' = k then none else m k'

/-- Reading `map[key]`: a missing key is inserted with the empty string. -/
def ArgMap.touch (m : ArgMap) (k : String) : ArgMap := if m k = none then m.set k "" else m

/-- The value of the expression `map[key]`. -/
def ArgMap.val (m : ArgMap) (k : String) : String := (m k).getD ""

/-! ### argParser -/

/-- Utils/argParser.cpp:12-13: the recognised options in the order of the map: long name, short
name, default. (The two maps have the same keys.) -/
def optionTable : List (String × String × String) :=
  [("clusters", "k", "20"), ("collapse", "z", "false"), ("complexType", "c", "simplexTree"),
   ("debug", "x", "0"), ("dimensions", "d", "1"), ("epsilon", "e", "5"), ("inputFile", "i", "None"),
   ("iterations", "r", "250"), ("lambda", "l", ".25"), ("mode", "m", "standard"), ("mpi", "a", "0"),
   ("outputFile", "o", "output.csv"), ("pipeline", "p", ""), ("preprocessor", "pre", ""),
   ("twist", "t", "false"), ("upscale", "u", "false")]

/-- Utils/argParser.cpp:26-37: the body of the loop of `defaultArguments`. -/
def defaultStep (m : ArgMap) (o : String × String × String) : ArgMap :=
  match m o.2.1 with
  | some v => (m.set o.1 v).erase o.2.1
  | none => if m o.1 = none then m.set o.1 o.2.2 else m

/-- Utils/argParser.cpp:21-40 `defaultArguments`. -/
def defaultArguments (m : ArgMap) : ArgMap := optionTable.foldl defaultStep m

/-- Utils/argParser.cpp:83-92: the loop of `parse`, over the arguments after the program name. If the
last name has no value, `argv[argc]`, a null pointer, is converted to a string. A name without a
leading `-` is reported and skipped with its value. -/
def parseLoop : List String → ArgMap → Res ArgMap
  | [], m => pure m
  | [a], m => if a.toList.take 1 = ['-'] then .error .null else pure m
  | a :: v :: rest, m =>
    if a.toList.take 2 = ['-', '-'] then parseLoop rest (m.set (String.ofList (a.toList.drop 2)) v)
    else if a.toList.take 1 = ['-'] then
      parseLoop rest (m.set (String.ofList (a.toList.drop 1)) v)
    else parseLoop rest m

/-- Utils/argParser.cpp:80-98 `parse`. -/
def parseArgs (argv : List String) : Res ArgMap := do
  let m ← parseLoop argv ArgMap.empty
  pure (defaultArguments m)

/-- The pipeline of most modes. -/
def fastPipeline : String := "distMatrix.neighGraph.rips.fastPersistence"

/-- Utils/argParser.cpp:115-117, 124, 130, 135: `if(args["preprocessor"] == "") args["preprocessor"] = p`. -/
def fillPreprocessor (m : ArgMap) (p : String) : ArgMap :=
  if m.val "preprocessor" = "" then m.set "preprocessor" p else m.touch "preprocessor"

/-- Utils/argParser.cpp:121-152: the chain of comparisons with `args["mode"]`. -/
def setMode (m : ArgMap) : ArgMap :=
  let m := m.touch "mode"
  let mode := m.val "mode"
  if mode = "standard" then m.set "pipeline" fastPipeline
  else if mode = "reduced" then
    (((fillPreprocessor m "kmeans++").set "pipeline" fastPipeline).set "upscale" "false").set
      "complexType" "simplexTree"
  else if mode = "upscaleBound" then
    ((fillPreprocessor m "kmeans++").set "upscale" "true").set "pipeline"
      "distMatrix.neighGraph.rips.persistence.boundary.upscale"
  else if mode = "stream" then
    (fillPreprocessor m "streamingkmeans").set "pipeline" fastPipeline
  else if mode = "sw" ∨ mode = "slidingwindow" then
    (((m.set "preprocessor" "").set "pipeline" "slidingwindow").set "upscale" "false").set
      "complexType" "simplexTree"
  else if mode = "fast" then
    ((m.set "pipeline" fastPipeline).set "upscale" "false").set "complexType" "simplexTree"
  else if mode = "naive" ∨ mode = "naivewindow" then
    (((m.set "preprocessor" "").set "pipeline" "naivewindow").set "upscale" "false").set
      "complexType" "simplexTree"
  else m

/-- Utils/argParser.cpp:111-156 `setPipeline`. -/
def setPipeline (m : ArgMap) : ArgMap :=
  let m := m.touch "mpi"
  if m.val "mpi" = "1" then
    (fillPreprocessor (m.set "pipeline" fastPipeline) "kmeans++").set "upscale" "true"
  else
    let m := m.touch "pipeline"
    if m.val "pipeline" = "" then setMode m else m

/-! ### Stages -/

/-- The pipe classes. -/
inductive PipeKind where
  | distMatrix | neighGraph | rips | upscale | boundary | persistencePairs | optPersistencePairs
  | slidingWindow | fastPersistence | naiveWindow
deriving DecidableEq

/-- Pipes/basePipe.cpp:24-50 `newPipe`; `none` is the null pointer. -/
def newPipe (name complexType : String) : Option PipeKind :=
  if name = "distMatrix" then some .distMatrix
  else if name = "neighGraph" then some .neighGraph
  else if name = "rips" then some .rips
  else if name = "upscale" then some .upscale
  else if name = "boundary" then some .boundary
  else if name = "persistence" ∧ (complexType = "simplexArrayList" ∨ complexType = "simplexTree")
    then some .persistencePairs
  else if name = "persistence" ∧ complexType = "indSimplexTree" then some .optPersistencePairs
  else if name = "slidingwindow" ∨ name = "sliding" then some .slidingWindow
  else if name = "fastPersistence" ∨ name = "fast" then some .fastPersistence
  else if name = "naivewindow" ∨ name = "naive" then some .naiveWindow
  else none

/-- The keys whose absence makes `configPipe` return false before `configured` is set:
boundaryPipe.cpp:344-372, distMatrixPipe.cpp:64-86, neighGraphPipe.cpp:39-67, ripsPipe.cpp:47-74,
upscalePipe.cpp:52-70, persistencePairs.cpp:313-357, optPersistencePairs.cpp:755-799,
fastPersistence.cpp:307-350, slidingWindow.cpp:718-769, naiveWindow.cpp:172-225. -/
def requiredKeys : PipeKind → List String
  | .distMatrix => ["epsilon"]
  | .neighGraph => ["epsilon", "dimensions"]
  | .rips => []
  | .upscale => []
  | .boundary => ["dimensions", "epsilon"]
  | .persistencePairs => ["dimensions", "epsilon", "twist"]
  | .optPersistencePairs => ["dimensions", "epsilon", "twist"]
  | .slidingWindow => ["epsilon", "dimensions"]
  | .fastPersistence => ["dimensions", "epsilon", "twist"]
  | .naiveWindow => ["epsilon", "dimensions"]

/-- The result of `configPipe`, which is also the value of `configured` afterwards. -/
def configPipe (k : PipeKind) (args : ArgMap) : Bool :=
  (requiredKeys k).all (fun key => (args key).isSome)

/-- The name that a pipe writes into the statistics (the constructors of the pipe classes, e.g.
distMatrixPipe.cpp:23). -/
def pipeType : PipeKind → String
  | .distMatrix => "DistMatrix"
  | .neighGraph => "neighGraph"
  | .rips => "ripsPipe"
  | .upscale => "Upscale"
  | .boundary => "Boundary"
  | .persistencePairs => "PersistencePairs"
  | .optPersistencePairs => "PersistencePairs"
  | .slidingWindow => "SlidingWindow"
  | .fastPersistence => "FastPersistence"
  | .naiveWindow => "NaiveWindow"

/-- Pipes/pipePacket.hpp: the packet: the statistics lines (only the stage names), whether the pointer
`complex` is not null, and everything else. -/
structure Packet (D : Type) where
  /-- stats -/
  stats : List String
  /-- complex is not null -/
  hasComplex : Bool
  /-- all other members -/
  data : D

/-- Pipes/pipePacket.cpp:16-20, Complex/simplexBase.cpp:56-77: the packet made by `main`: the complex is
null if its type is unknown. -/
def newPacket {D : Type} (complexType : String) (d : D) : Packet D :=
  ⟨[], complexType = "simplexArrayList" ∨ complexType = "simplexTree"
    ∨ complexType = "indSimplexTree", d⟩

/-- Pipes/basePipe.cpp:53-100 `runPipeWrapper`: an unconfigured pipe returns the packet; otherwise
`runPipe` is called, then the complex is asked for its size and its counts (lines 73 and 91), and a line
is added to the statistics. -/
def runPipeWrapper {D : Type} (configured : Bool) (name : String) (runPipe : D → Res D)
    (p : Packet D) : Res (Packet D) :=
  if configured then do
    let d ← runPipe p.data
    if p.hasComplex then pure ⟨p.stats ++ [name], p.hasComplex, d⟩ else .error .null
  else pure p

/-! ### main -/

/-- LHFmain/main.cpp:31-32: the text before the first `.` (all of it if there is none) and the text
after it: `find` returns `npos` if there is none, and `npos + 1` is 0. -/
def cutStage (s : List Char) : List Char × List Char :=
  match s.findIdx? (· = '.') with
  | some i => (s.take i, s.drop (i + 1))
  | none => (s, s.drop 0)

/-- LHFmain/main.cpp:30-32: the names cut off in `n` turns. -/
def stageNames : Nat → List Char → List (List Char)
  | 0, _ => []
  | n + 1, s => (cutStage s).1 :: stageNames n (cutStage s).2

/-- LHFmain/main.cpp:34-44: one turn: the stage is created, configured and run. -/
def runStage {D : Type} (run : PipeKind → D → Res D) (args : ArgMap) (p : Packet D)
    (name : List Char) : Res (Packet D) :=
  match newPipe (String.ofList name) (args.val "complexType") with
  | some k =>
    if configPipe k args then runPipeWrapper true (pipeType k) (run k) p else pure p
  | none => pure p

/-- LHFmain/main.cpp:18-51 `runPipeline` up to the output: `lim` turns, one more than there are dots. -/
def runPipeline {D : Type} (run : PipeKind → D → Res D) (args : ArgMap) (p : Packet D) :
    Res (Packet D) :=
  match args "pipeline" with
  | some s => (stageNames (s.toList.count '.' + 1) s.toList).foldlM (runStage run args) p
  | none => pure p

end LHF
