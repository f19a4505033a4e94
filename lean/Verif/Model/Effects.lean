import Verif.Model.Program

/-!
Model of what a run of LHFmain/main.cpp writes besides its results: the log, the statistics with their
columns, the files that the stages write when `debug` is on and those of the preprocessors. The state of
Model/Program.lean is kept and a record of the effects is carried along.

Times, the texts of the debug messages, `sizeof`, and the files of the stages that Model/Program.lean
leaves to `lib.rest` are parameters (`Surround`). Writing to the console is left out.
-/

namespace LHF

/-- What happens to a file: opened with truncation and written (`std::ofstream file(name)`), or opened
with `std::ios_base::app` and written. -/
inductive WriteKind where
  | replace | append
deriving DecidableEq

/-- One opening of a file for writing, with the text written before it is closed. -/
structure FileWrite where
  /-- name -/
  name : String
  /-- truncation or not -/
  kind : WriteKind
  /-- text -/
  text : List Char
deriving DecidableEq

/-- The content of the file `name` after the writes, `before` being its content at the start. `opens` says
which files can be opened (the directory `output` need not exist); writing to one that cannot does
nothing, the code never checks. -/
def contentAfter (opens : String → Bool) (name : String) (before : Option (List Char)) :
    List FileWrite → Option (List Char)
  | [] => before
  | w :: rest =>
    contentAfter opens name
      (if w.name = name ∧ opens name then
        match w.kind with
        | .replace => some w.text
        | .append => some (before.getD [] ++ w.text)
      else before) rest

/-- A row of the statistics: Pipes/basePipe.cpp:91 for a stage (the size in bytes, before it is converted to
a unit), Preprocessing/preprocessor.cpp:82 for a preprocessor. -/
inductive StatRow where
  | stage (name : String) (bytes : Nat) (vertices simplices : Int)
  | pre (name : String)
deriving DecidableEq

/-- The effects so far: the rows of `stats` and the writes, in order. -/
structure Effects where
  /-- stats -/
  rows : List StatRow
  /-- writes -/
  writes : List FileWrite

/-- What the effects depend on besides the program: the times (the n-th row gets `clock n`), `operator<<` for
a double, `std::to_string` of an int and of a number of bytes divided by 10^3, 10^6 or 10^9, the debug
messages and the messages of the complex during a stage (as one text), those of a preprocessor, `sizeof`
of a node, of an entry of a `simplexArrayList`, and of a node and an entry of an `indSimplexTree`, and the
files of the stages that are not modelled. The texts of the messages are taken as given by the arguments:
with `debug` some of them name sizes (Pipes/ripsPipe.cpp:33-40, Pipes/distMatrixPipe.cpp:58), which is left
out. -/
structure Surround (K W : Type) where
  /-- std::to_string of the elapsed seconds -/
  clock : Nat → List Char
  /-- operator<< of a double -/
  shows : W → List Char
  /-- std::to_string of an int -/
  intStr : Int → List Char
  /-- std::to_string of the size: bytes, divisor -/
  sizeText : Nat → Nat → List Char
  /-- messages in the log during a stage -/
  messages : PipeKind → ArgMap → List Char
  /-- messages in the log during the configuration of a preprocessor -/
  preMessages : PreKind → ArgMap → List Char
  /-- sizeof(treeNode) -/
  nodeSize : Nat
  /-- sizeof(std::pair<std::vector<unsigned>, double>) -/
  pairSize : Nat
  /-- sizeof(indTreeNode) + sizeof(graphEntry) -/
  indSize : Nat
  /-- outputData of the other stages -/
  restFiles : PipeKind → Work (List K) W → List FileWrite

section
variable {K W : Type}

/-- `complex->vertexCount()`: Complex/simplexTree.cpp:350-355, Complex/simplexArrayList.cpp:181-185,
Complex/indSimplexTree.cpp:566-569; a plain `simplexBase` answers -1 (Complex/simplexBase.cpp:125-128). -/
def AnyComplex.vertexCount : AnyComplex W → Res Int
  | .tree t _ => pure (t.vertexCount : Int)
  | .array g _ => do
    let n ← arrayVertexCount g
    pure (n : Int)
  | .indexed t _ => pure t.vertexCount
  | .other => pure (-1)

/-- `complex->simplexCount()`: Complex/simplexTree.cpp:357-360, Complex/simplexArrayList.cpp:170-178,
Complex/indSimplexTree.cpp:571-574; a plain `simplexBase` answers -1 (Complex/simplexBase.cpp:130-133). -/
def AnyComplex.simplexCount : AnyComplex W → Int
  | .tree t _ => t.simplexCount
  | .array g _ => (arraySimplexCount g : Int)
  | .indexed t _ => t.simplexCount
  | .other => -1

/-- `complex->getSize()`: Complex/simplexTree.cpp:362-365, Complex/simplexArrayList.cpp:15-27,
Complex/indSimplexTree.cpp:603-606. The count of the trees is taken to be not negative; the -1
of a plain `simplexBase` is left out. -/
def AnyComplex.getSize (env : Surround K W) : AnyComplex W → Nat
  | .tree t _ => t.nodeCount.toNat * env.nodeSize
  | .array g _ => g.foldl (fun size layer => size + layer.length * env.pairSize) 0
  | .indexed t _ => t.store.nodeCount.toNat * env.indSize
  | .other => 0

/-- Pipes/pipePacket.cpp:24-38 `getSize`: `sizeof(double)` is 8. -/
def packetSize (env : Surround K W) (w : Work (List K) W) : Nat :=
  w.originalData.foldl (fun size row => row.foldl (fun size _ => size + 8) size) 0 +
    w.complex.getSize env

/-- Pipes/basePipe.cpp:73-89: the number by which the size is divided, and the unit. -/
def sizeUnit (bytes : Nat) : Nat × String :=
  if bytes > 1000000000 then (1000000000, "GB")
  else if bytes > 1000000 then (1000000, "MB")
  else if bytes > 1000 then (1000, "KB")
  else (1, "B")

/-- The text of the n-th row of the statistics (Pipes/basePipe.cpp:91, Preprocessing/preprocessor.cpp:82). -/
def statText (env : Surround K W) (n : Nat) : StatRow → List Char
  | .stage name bytes v s =>
    name.toList ++ [','] ++ env.clock n ++ [','] ++ env.sizeText bytes (sizeUnit bytes).1 ++ [','] ++
      (sizeUnit bytes).2.toList ++ [','] ++ env.intStr v ++ [','] ++ env.intStr s ++ ['\n']
  | .pre name => name.toList ++ [','] ++ env.clock n ++ ['\n']

/-- Utils/writeOutput.cpp:24-30 `writeStats`: the content of the file. -/
def statsText (env : Surround K W) (rows : List StatRow) : List Char :=
  "PipeName,PhysExecutionTime,MemorySize,MemoryUnits,VertexCount,SimplexCount\n".toList ++
    (rows.zipIdx.map (fun r => statText env r.2 r.1)).flatten

/-- Utils/utils.cpp:406-436 `writeLog` and `writeFile`: the module and the message as one line. -/
def logLine (module' message : List Char) : List Char :=
  ['['] ++ module' ++ "]:\t".toList ++ message ++ ['\n']

/-- Utils/utils.cpp:406-436: messages go to the file `outputFile` itself, at its end, unless it is
"console". -/
def logWrite (args : ArgMap) (text : List Char) : List FileWrite :=
  if args.val "outputFile" = "console" then [] else [⟨args.val "outputFile", .append, text⟩]

/-- Pipes/basePipe.cpp:71 and 93-94: the two lines in the log for a stage. -/
def stageLog (env : Surround K W) (n : Nat) (name : String) (bytes : Nat) : List Char :=
  logLine name.toList ("\tPipeline ".toList ++ name.toList ++ " executed in ".toList ++ env.clock n ++
      " seconds (physical time)".toList) ++
    logLine name.toList ("\t\tData size: ".toList ++ env.sizeText bytes (sizeUnit bytes).1 ++ [' '] ++
      (sizeUnit bytes).2.toList ++ ['\n'])

/-! ### The debug files -/

/-- A simplex with its weight as a line (Pipes/neighGraphPipe.cpp:77-80, Pipes/ripsPipe.cpp:86-89). -/
def simplexLine (env : Surround K W) (io : TextNum W) (e : List Nat × W) : List Char :=
  e.1.flatMap (fun d => io.sizeStr d ++ [',']) ++ env.shows e.2 ++ ['\n']

/-- A row of numbers, each followed by a comma (Pipes/distMatrixPipe.cpp:95-99). -/
def numberLine (env : Surround K W) (row : List W) : List Char :=
  row.flatMap (fun d => env.shows d ++ [',']) ++ ['\n']

/-- The distance matrix that a complex stores. -/
def AnyComplex.distMatrix : AnyComplex W → List (List W)
  | .tree _ dm => dm
  | .array _ dm => dm
  | .indexed _ dm => dm
  | .other => []

/-- `outputData` of the four default stages: Pipes/distMatrixPipe.cpp:90-104, Pipes/neighGraphPipe.cpp:71-99,
Pipes/ripsPipe.cpp:78-96, Pipes/fastPersistence.cpp:281-307 (`tArray` is never filled by this stage).
The pipe works on a copy of the packet, but the copy points to the same complex: `getAllEdges` in
neighGraphPipe.cpp:84 sorts the layers of the complex. -/
def outputData [LinearOrder W] [Zero W] (env : Surround K W) (io : TextNum W) (lib : Lib K W) (args : ArgMap)
    (k : PipeKind) (w : Work (List K) W) : Res (Work (List K) W × List FileWrite) :=
  match k, w.complex with
  | .distMatrix, c =>
    pure (w, [⟨"output/DistMatrix_output.csv", .replace, (c.distMatrix.map (numberLine env)).flatten⟩])
  | .neighGraph, .array g _ => do
    let text ← (if g.length > 1 then do
        let layer ← vget g 1
        pure (layer.map (simplexLine env io)).flatten
      else pure [])
    pure (w, [⟨"output/neighGraph_output.csv", .replace, text ++ ['\n']⟩])
  | .neighGraph, .tree t dm =>
    let e := t.getAllEdges lib.sort
    pure ({ w with complex := .tree e.2 dm },
      [⟨"output/neighGraph_output.csv", .replace,
        (e.1.flatten.map (simplexLine env io)).flatten ++ ['\n']⟩])
  | .neighGraph, .indexed t dm => do
    let e ← t.getAllEdges lib.isort
    pure ({ w with complex := .indexed e.2 dm },
      [⟨"output/neighGraph_output.csv", .replace,
        (e.1.flatten.map (simplexLine env io)).flatten ++ ['\n']⟩])
  | .rips, .array g _ =>
    pure (w, [⟨"output/ripsPipe_output.csv", .replace, (g.flatten.map (simplexLine env io)).flatten⟩])
  | .rips, _ => pure (w, [])
  | .fastPersistence, _ =>
    pure (w, [⟨"output/FastPersistence_bettis_output" ++ args.val "fn" ++ ".csv", .replace,
        w.bettiOutput.flatMap (lineText io)⟩,
      ⟨"output/tArray.csv", .replace, "ti,Dim,Marked,Birth,Death,Simplex\n".toList⟩])
  | k, _ => pure (w, env.restFiles k w)

/-- Preprocessing/preprocessor.cpp:91-118: the two files of a preprocessor. -/
def preFiles (inIO : TextNum K) (io : TextNum W) (k : PreKind) (w : Work (List K) W) : List FileWrite :=
  [⟨"output/" ++ procName k ++ "_centroid_output.csv", .replace, writeCSV inIO w.originalData⟩,
    ⟨"output/" ++ procName k ++ "_label_output.csv", .replace,
      w.labels.flatMap (fun a => io.sizeStr a ++ ['\n'])⟩]

/-! ### The program -/

/-- Pipes/basePipe.cpp:53-100: a stage with its effects: the log, the row of the statistics, and with `debug`
the files. -/
def stageWithEffects [LinearOrder W] [Zero W] (env : Surround K W) (io : TextNum W) (lib : Lib K W)
    (args : ArgMap) (debug : Bool) (run : PipeKind → Work (List K) W → Res (Work (List K) W)) (k : PipeKind)
    (x : Work (List K) W × Effects) : Res (Work (List K) W × Effects) := do
  let w ← run k x.1
  let bytes := packetSize env w
  let v ← w.complex.vertexCount
  let e : Effects := ⟨x.2.rows ++ [.stage (pipeType k) bytes v w.complex.simplexCount],
    x.2.writes ++ logWrite args (env.messages k args ++ stageLog env x.2.rows.length (pipeType k) bytes)⟩
  if debug then do
    let r ← outputData env io lib args k w
    pure (r.1, { e with writes := e.writes ++ r.2 })
  else pure (w, e)

/-- Preprocessing/preprocessor.cpp:41-90: a preprocessor with its effects. -/
def preWithEffects (env : Surround K W) (inIO : TextNum K) (io : TextNum W) (args : ArgMap)
    (pre : PreKind → Work (List K) W → Res (Work (List K) W)) (k : PreKind)
    (x : Work (List K) W × Effects) : Res (Work (List K) W × Effects) := do
  let w ← pre k x.1
  pure (w, ⟨x.2.rows ++ [.pre (procName k)],
    x.2.writes ++ logWrite args (env.preMessages k args) ++ preFiles inIO io k w⟩)

/-- The packet with the effects so far, as the loop over the stages sees it. -/
def withEffects (p : Packet (Work (List K) W)) (e : Effects) : Packet (Work (List K) W × Effects) :=
  ⟨p.stats, p.hasComplex, (p.data, e)⟩

/-- The packet of `withEffects`. -/
def dropEffects (p : Packet (Work (List K) W × Effects)) : Packet (Work (List K) W) :=
  ⟨p.stats, p.hasComplex, p.data.1⟩

/-- LHFmain/main.cpp:53-63: the two files at the end of `runPipeline`. -/
def pipelineWrites (env : Surround K W) (io : TextNum W) (args : ArgMap) (w : Work (List K) W)
    (rows : List StatRow) : List FileWrite :=
  match args "outputFile" with
  | some f =>
    if f = "console" then []
    else [⟨f ++ "_stats.csv", .replace, statsText env rows⟩,
      ⟨f ++ ".csv", .replace, barcodeText io w.bettiOutput⟩]
  | none => []

/-- LHFmain/main.cpp:18-66 `runPipeline` with its effects. -/
def runPipelineEff (env : Surround K W) (io : TextNum W)
    (stages : PipeKind → Work (List K) W × Effects → Res (Work (List K) W × Effects)) (args : ArgMap)
    (x : World (List K) W × Effects) : Res (World (List K) W × Effects) :=
  match args "pipeline" with
  | some _ => do
    let p ← runPipeline stages args (withEffects x.1.packet x.2)
    let q := dropEffects p
    pure (⟨q, x.1.files ++ pipelineFiles io args q⟩,
      { p.data.2 with writes := p.data.2.writes ++ pipelineWrites env io args p.data.1 p.data.2.rows })
  | none => pure x

/-- LHFmain/main.cpp:116-134, as `reducedStep`. -/
def reducedStepEff [LinearOrder W] [Zero W] (strict : Bool)
    (runOne : World (List K) W × Effects → Res (World (List K) W × Effects))
    (parts : List (List Nat) × List (List (List K)))
    (st : (World (List K) W × Effects) × List (BettiEntry W)) (z : Nat) :
    Res ((World (List K) W × Effects) × List (BettiEntry W)) := do
  let pts ← vget parts.2 z
  if pts.length > 0 then do
    let x ← runOne (st.1.1.mapWork (fun d => { d with originalData := pts }), st.1.2)
    let w ← clearComplex strict x.1
    let labels ← vget parts.1 z
    let table ← mapPartitionIndexing labels w.packet.data.bettiTable
    let w := w.mapWork (fun d => { d with bettiTable := table })
    pure ((w, x.2), st.2 ++ table)
  else pure st

/-- LHFmain/main.cpp:107-154, as `reducedRuns`. -/
def reducedRunsEff [LinearOrder W] [AddMonoid W] (strict : Bool) (dist : List K → List K → Res W)
    (runOne : World (List K) W × Effects → Res (World (List K) W × Effects))
    (x : World (List K) W × Effects) :
    Res ((World (List K) W × Effects) × List (BettiEntry W)) := do
  let d := x.1.packet.data
  let maxRadius ← computeMaxRadius dist d.originalData d.fullData d.labels
  let centroids := d.originalData
  let parts ← separateByRadius dist (maxRadius + maxRadius) d.originalData d.fullData d.labels
  let st ← (List.range parts.2.length).foldlM (reducedStepEff strict runOne parts) (x, [])
  if centroids.length > 0 then do
    let y ← runOne (st.1.1.mapWork (fun d => { d with originalData := centroids }), st.1.2)
    let w ← clearComplex strict y.1
    pure ((w, y.2), st.2)
  else pure st

/-- LHFmain/main.cpp:90-155 `processReducedWrapper` with its effects. -/
def processReducedEff [LinearOrder W] [AddMonoid W] (strict : Bool) (dist : List K → List K → Res W)
    (pre : PreKind → Work (List K) W × Effects → Res (Work (List K) W × Effects))
    (runOne : World (List K) W × Effects → Res (World (List K) W × Effects))
    (args : ArgMap) (x : World (List K) W × Effects) : Res (World (List K) W × Effects) := do
  let p ← preprocess pre args (withEffects x.1.packet x.2)
  let r ← reducedRunsEff strict dist runOne ({ x.1 with packet := dropEffects p }, p.data.2)
  pure r.1

/-- LHFmain/main.cpp:70-88 `processDataWrapper` with its effects. -/
def processDataEff (pre : PreKind → Work (List K) W × Effects → Res (Work (List K) W × Effects))
    (runOne : World (List K) W × Effects → Res (World (List K) W × Effects))
    (args : ArgMap) (x : World (List K) W × Effects) : Res (World (List K) W × Effects) := do
  let p ← preprocess pre args (withEffects x.1.packet x.2)
  runOne ({ x.1 with packet := dropEffects p }, p.data.2)

/-- LHFmain/main.cpp:161-230 `processUpscaleWrapper` with its effects. -/
def processUpscaleEff (pre : PreKind → Work (List K) W × Effects → Res (Work (List K) W × Effects))
    (clusters : Nat) (args : ArgMap) (x : World (List K) W × Effects) :
    Res (World (List K) W × Effects) := do
  let p ← preprocess pre args (withEffects x.1.packet x.2)
  let _ ← separateByLabel clusters p.data.1.fullData p.data.1.labels
  pure ({ x.1 with packet := dropEffects p }, p.data.2)

/-- LHFmain/main.cpp:284-300, as `dispatch`. -/
def dispatchEff [LinearOrder W] [AddMonoid W] (strict : Bool) (dist : List K → List K → Res W)
    (pre : PreKind → Work (List K) W × Effects → Res (Work (List K) W × Effects))
    (runOne : World (List K) W × Effects → Res (World (List K) W × Effects))
    (clusters : Nat) (args : ArgMap) (x : World (List K) W × Effects) :
    Res (World (List K) W × Effects) :=
  if x.1.packet.data.originalData.length > 0 ∨ args.val "pipeline" = "slidingwindow" then
    if args.val "upscale" = "true" then processUpscaleEff pre clusters args x
    else if args.val "mode" = "reduced" then processReducedEff strict dist pre runOne args x
    else processDataEff pre runOne args x
  else pure x

/-- Whether the stages write their files: `debug = std::atoi(configMap["debug"])` in the `configPipe`
functions, e.g. Pipes/distMatrixPipe.cpp:67-71; 0 without the key (Pipes/basePipe.hpp:15). -/
def debugFiles [LinearOrder W] (sys : System K W) (args : ArgMap) : Bool :=
  match args "debug" with
  | some s => sys.atoi s ≠ 0
  | none => false

/-- LHFmain/main.cpp:232-304 `main` with its effects. -/
def mainEffects [LinearOrder W] [Ring W] (sys : System K W) (env : Surround K W) (argv : List String) :
    Res (World (List K) W × Effects) := do
  let args ← parseArgs argv
  let args := setPipeline args
  let complexType := args.val "complexType"
  let data ← (if args.val "pipeline" ≠ "slidingwindow" then
    readCSV sys.inIO (sys.files (args.val "inputFile")) else pure [])
  let work : Work (List K) W := ⟨data, data, [], newComplex complexType, [], [], []⟩
  let settings : Settings W :=
    ⟨sys.atof (args.val "epsilon"), sys.atoi (args.val "dimensions"), args.val "collapse"⟩
  dispatchEff sys.strict sys.lib.dist (preWithEffects env sys.inIO sys.io args (sys.pre args))
    (runPipelineEff env sys.io (stageWithEffects env sys.io sys.lib args (debugFiles sys args)
      (runStages sys.lib settings)) args) (sys.atoi (args.val "clusters")) args
    (⟨newPacket complexType work, []⟩, ⟨[], []⟩)

end

end LHF
