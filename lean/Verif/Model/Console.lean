import Verif.Model.Effects

/-!
Model of what a run of LHFmain/main.cpp prints: the log, if the output name is "console", and the
messages that `main`, the preprocessors and the stages print in any case. The state of Model/Program.lean is
kept and the printed text is carried along. The files of `debug` are left out (C102 shows that they do not
influence the results).
-/

namespace LHF

/-- The number of stages and preprocessors so far, and the text printed so far. -/
structure Shown where
  /-- rows of `stats` -/
  timed : Nat
  /-- text -/
  text : List Char

/-- What the printed text depends on besides the program and `Surround`: what streamingKmeans prints
(Preprocessing/streamingKmeans.cpp:48, 253-281), the times, and what the stages print that are not followed
(see `stageDirect`). -/
structure Terminal (K W : Type) where
  /-- the output of a preprocessor that is not followed: the work before and after it -/
  preSays : PreKind → Work (List K) W → Work (List K) W → List Char
  /-- the output of a stage: the work before and after it -/
  stageSays : PipeKind → Work (List K) W → Work (List K) W → List Char
  /-- operator<< of the elapsed seconds, by the number of stages and preprocessors so far -/
  seconds : Nat → List Char

/-! ### The lines before the input is read -/

/-- Utils/argParser.cpp:43-72 `printUsage`. -/
def usageText : List Char :=
  ("Usage: \n\n\t ./LHF -i <inputfile> -o <outputfile>\n\nAdditional Options:\n" ++
    "\t -i,--inputFile <filename>\n\t\tFilename (csv) for LHF input\n\n" ++
    "\t -o,--outputFile <filename>\n\t\tFilename for LHF output\n\n" ++
    "\t -e,--epsilon <int>\n\t\tMaximum epsilon threshold\n\t\tdefault: 5\n\n" ++
    "\t -l,--lambda <double>\n\t\tDecay factor lambda for DenStream\n\t\tdefault: .25\n\n" ++
    "\t -m,--mode (standard|reduced|upscale|sw)\n\t\tSets the mode for LHF to run in\n" ++
    "\t\t\tdefault: standard\n\n" ++
    "\t -d,--dimensions <int>\n\t\tSets the maximum homology dimension to compute (H_d)\n" ++
    "\t\t\tdefault: 1\n\n").toList

/-- Utils/argParser.cpp:89-90: the message for an argument that should be a name and has no leading `-`. -/
def invalidText (a : String) : List Char :=
  if a.toList.take 1 = ['-'] then [] else
    "Invalid argument: ".toList ++ a.toList ++ "\n\n".toList ++ usageText

/-- Utils/argParser.cpp:83-92: what the loop of `parse` prints. -/
def parseShown : List String → List Char
  | [] => []
  | [a] => invalidText a
  | a :: _ :: rest => invalidText a ++ parseShown rest

/-- Utils/argParser.cpp:84-87: the keys that the loop of `parse` writes, as in `parseLoop`. -/
def givenKeys : List String → List String
  | [] => []
  | [_] => []
  | a :: _ :: rest =>
    if a.toList.take 2 = ['-', '-'] then String.ofList (a.toList.drop 2) :: givenKeys rest
    else if a.toList.take 1 = ['-'] then String.ofList (a.toList.drop 1) :: givenKeys rest
    else givenKeys rest

/-- The place of a key in a `std::map`: increasing, each key once. Strings are compared by their bytes, which for
UTF-8 is the order of the code points. -/
def addKey (k : String) : List String → List String
  | [] => [k]
  | a :: l => if k.toList < a.toList then k :: a :: l else if k = a then a :: l else a :: addKey k l

/-- The entries of the map in the order in which LHFmain/main.cpp:274 goes through them. A map is a partial function
here (`ArgMap`); its keys are among those given and those of the options (proved: `C139_settings_shown`). -/
def settingsList (argv : List String) (args : ArgMap) : List (String × String) :=
  ((givenKeys argv ++ optionTable.map (·.1)).foldr addKey []).filterMap
    (fun k => (args k).map (fun v => (k, v)))

/-- LHFmain/main.cpp:275. -/
def settingLine (p : String × String) : List Char := p.1.toList ++ '\t' :: p.2.toList ++ ['\n']

/-- Complex/simplexBase.cpp:25-47 `setConfig`: the line is printed if both keys are there. -/
def configText (args : ArgMap) (simplexType : String) : List Char :=
  if (args "dimensions").isSome ∧ (args "epsilon").isSome then
    "Setting utils for : ".toList ++ simplexType.toList ++ ['\n'] else []

/-- Pipes/pipePacket.cpp:16-20 with Complex/simplexBase.cpp:13-17, 56-73: a plain `simplexBase` and then the complex
are configured. -/
def packetText (args : ArgMap) : List Char :=
  configText args "simplexBase" ++
    (if args.val "complexType" = "simplexTree" ∨ args.val "complexType" = "simplexArrayList" ∨
        args.val "complexType" = "indSimplexTree" then configText args (args.val "complexType") else [])

/-- Utils/argParser.cpp:80-98 and LHFmain/main.cpp:265-278: what is printed before the input is read. -/
def headerShown (argv : List String) (args : ArgMap) : List Char :=
  parseShown argv ++ (settingsList argv args).flatMap settingLine ++ packetText args

section
variable {K W : Type}

/-- Utils/utils.cpp:406-436: messages are printed if `outputFile` is "console". -/
def logShown (args : ArgMap) (text : List Char) : List Char :=
  if args.val "outputFile" = "console" then text else []

/-- Complex/indSimplexTree.cpp:614. -/
def sortingLine : List Char :=
  "========================    SORTING    ===============================\n".toList

/-- What a stage prints whatever the output name is. An indSimplexTree prints a line when it sorts its simplices
(Complex/indSimplexTree.cpp:614, 679-684), which is in the stage fastPersistence, or in the files of neighGraph if
`debug` is on (not followed), and messages when it is reduced (lines 720-834, not followed). `reduceComplex` of a
simplexTree prints for the layers above the second (Complex/simplexTree.cpp:388-411), of which there are none
(`Tree.dimensions`). persistencePairs prints its intervals if `debug` is on (Pipes/persistencePairs.cpp:278-279, not
followed). The other stages have their own messages, which are not followed either. -/
def stageDirect (term : Terminal K W) (args : ArgMap) (k : PipeKind) (before after : Work (List K) W) :
    List Char :=
  match k with
  | .distMatrix => []
  | .upscale => []
  | .neighGraph =>
    if args.val "complexType" = "indSimplexTree" ∧ args.val "debug" ≠ "0" then term.stageSays k before after else []
  | .rips =>
    if args.val "complexType" = "indSimplexTree" ∧ (args.val "collapse" = "true" ∨ args.val "collapse" = "1") then
      term.stageSays k before after else []
  | .fastPersistence =>
    if args.val "complexType" = "indSimplexTree" then
      if args.val "debug" ≠ "0" then term.stageSays k before after
      else match before.complex with
        | .indexed t _ => if t.store.dims.length = 0 ∨ t.isSorted = true then [] else sortingLine
        | _ => []
    else []
  | .persistencePairs =>
    if args.val "complexType" = "indSimplexTree" ∨ args.val "debug" ≠ "0" then term.stageSays k before after else []
  | k => term.stageSays k before after

/-- Pipes/basePipe.cpp:53-100: a stage and what it prints. -/
def stageShown (env : Surround K W) (term : Terminal K W) (args : ArgMap)
    (run : PipeKind → Work (List K) W → Res (Work (List K) W))
    (k : PipeKind) (x : Work (List K) W × Shown) : Res (Work (List K) W × Shown) := do
  let w ← run k x.1
  pure (w, ⟨x.2.timed + 1, x.2.text ++ logShown args (env.messages k args) ++ stageDirect term args k x.1 w ++
    logShown args (stageLog env x.2.timed (pipeType k) (packetSize env w))⟩)

/-- What a preprocessor prints whatever the output name is: Preprocessing/kMeansPlusPlus.cpp:159 and
Preprocessing/preprocessor.cpp:60. DenStream (Preprocessing/denStream.cpp, dbscan.cpp, kdTree.cpp) has no messages of
its own; those of streamingKmeans are not followed. -/
def preDirect (term : Terminal K W) (k : PreKind) (timed : Nat) (before after : Work (List K) W) : List Char :=
  (match k with
    | .kmeans => "Clustered data...\n".toList
    | .denStream => []
    | k => term.preSays k before after) ++
    "\tPipeline ".toList ++ (procName k).toList ++ " executed in ".toList ++ term.seconds timed ++
    " seconds (physical time)\n\n".toList

/-- Preprocessing/preprocessor.cpp:41-90: a preprocessor and what it prints. -/
def preShown (env : Surround K W) (term : Terminal K W) (args : ArgMap)
    (pre : PreKind → Work (List K) W → Res (Work (List K) W)) (k : PreKind)
    (x : Work (List K) W × Shown) : Res (Work (List K) W × Shown) := do
  let w ← pre k x.1
  pure (w, ⟨x.2.timed + 1, x.2.text ++ logShown args (env.preMessages k args) ++
    preDirect term k x.2.timed x.1 w⟩)

/-- The packet with the text so far, as the loop over the stages sees it. -/
def withShown (p : Packet (Work (List K) W)) (s : Shown) : Packet (Work (List K) W × Shown) :=
  ⟨p.stats, p.hasComplex, (p.data, s)⟩

/-- The packet of `withShown`. -/
def dropShown (p : Packet (Work (List K) W × Shown)) : Packet (Work (List K) W) :=
  ⟨p.stats, p.hasComplex, p.data.1⟩

/-- Printing more. -/
def Shown.say (s : Shown) (text : List Char) : Shown := { s with text := s.text ++ text }

/-- LHFmain/main.cpp:47, 81, 103, 172. -/
def failText (args : ArgMap) : List Char :=
  "LHF : Failed to configure pipeline: ".toList ++ (args.val "pipeline").toList ++ ['\n']

/-- LHFmain/main.cpp:43: no stage of this name, or it cannot be configured. -/
def stageFailed (args : ArgMap) (name : List Char) : Bool :=
  match newPipe (String.ofList name) (args.val "complexType") with
  | some k => !configPipe k args
  | none => true

/-- LHFmain/main.cpp:32-49, as `runStage`, with the message for a name that is not run. -/
def runStageShown (run : PipeKind → Work (List K) W × Shown → Res (Work (List K) W × Shown)) (args : ArgMap)
    (p : Packet (Work (List K) W × Shown)) (name : List Char) : Res (Packet (Work (List K) W × Shown)) := do
  let q ← runStage run args p name
  pure (if stageFailed args name then { q with data := (q.data.1, q.data.2.say (failText args)) } else q)

/-- LHFmain/main.cpp:18-51, as `runPipeline`, with the messages. -/
def runNamesShown (run : PipeKind → Work (List K) W × Shown → Res (Work (List K) W × Shown)) (args : ArgMap)
    (p : Packet (Work (List K) W × Shown)) : Res (Packet (Work (List K) W × Shown)) :=
  match args "pipeline" with
  | some s => (stageNames (s.toList.count '.' + 1) s.toList).foldlM (runStageShown run args) p
  | none => pure p

/-- LHFmain/main.cpp:73-83, 95-105, 164-174 with Preprocessing/preprocessor.cpp:43-46, 127-132: what is printed
for a preprocessor that is not run. The base class is never configured, and its `ut` prints (Utils/utils.hpp:22). -/
def preFailText (args : ArgMap) : List Char :=
  if args.val "preprocessor" ≠ "" then
    match newPreprocessor (args.val "preprocessor") with
    | some k =>
      if configPreprocessor k args then
        if preConfigured k then [] else
          "No configure function defined for: preprocessor\n[preprocessor]:\tPreprocessor not configured\n".toList
      else failText args
    | none => failText args
  else []

/-- LHFmain/main.cpp:73-83, 95-105, 164-174, as `preprocess`, with the messages. -/
def preprocessShown (pre : PreKind → Work (List K) W × Shown → Res (Work (List K) W × Shown)) (args : ArgMap)
    (p : Packet (Work (List K) W × Shown)) : Res (Packet (Work (List K) W × Shown)) := do
  let q ← preprocess pre args p
  pure { q with data := (q.data.1, q.data.2.say (preFailText args)) }

/-- LHFmain/main.cpp:18-66 `runPipeline` and what it prints: with the output name "console" the barcode is
not printed, since line 56 is commented out. -/
def runPipelineShown (io : TextNum W)
    (stages : PipeKind → Work (List K) W × Shown → Res (Work (List K) W × Shown)) (args : ArgMap)
    (x : World (List K) W × Shown) : Res (World (List K) W × Shown) :=
  match args "pipeline" with
  | some _ => do
    let p ← runNamesShown stages args (withShown x.1.packet x.2)
    let q := dropShown p
    pure (⟨q, x.1.files ++ pipelineFiles io args q⟩, p.data.2)
  | none => pure (x.1, { x.2 with
      text := x.2.text ++ "LHF : Failed to find a suitable pipeline, exiting...\n".toList })

/-- LHFmain/main.cpp:118, 141. -/
def runningText (io : TextNum W) (n : Nat) : List Char :=
  "Running Pipeline with : ".toList ++ io.sizeStr n ++ " vectors\n".toList

/-- LHFmain/main.cpp:148-151 with `print1DVector` (Utils/utils.cpp:137-142): a line of the table. -/
def tableLine (env : Surround K W) (io : TextNum W) (e : BettiEntry W) : List Char :=
  io.sizeStr e.dim ++ ",\t".toList ++ env.shows e.birth ++ ",\t".toList ++ env.shows e.death ++ ",\t".toList ++
    e.boundary.flatMap (fun z => io.sizeStr z ++ [',']) ++ ['\n']

/-- LHFmain/main.cpp:116-134, as `reducedStep`. -/
def reducedStepShown [LinearOrder W] [Zero W] (io : TextNum W) (strict : Bool)
    (runOne : World (List K) W × Shown → Res (World (List K) W × Shown))
    (parts : List (List Nat) × List (List (List K)))
    (st : (World (List K) W × Shown) × List (BettiEntry W)) (z : Nat) :
    Res ((World (List K) W × Shown) × List (BettiEntry W)) := do
  let pts ← vget parts.2 z
  if pts.length > 0 then do
    let x ← runOne (st.1.1.mapWork (fun d => { d with originalData := pts }),
      st.1.2.say (runningText io pts.length))
    let w ← clearComplex strict x.1
    let labels ← vget parts.1 z
    let table ← mapPartitionIndexing labels w.packet.data.bettiTable
    let w := w.mapWork (fun d => { d with bettiTable := table })
    pure ((w, x.2), st.2 ++ table)
  else pure ((st.1.1, st.1.2.say "skipping\n".toList), st.2)

/-- LHFmain/main.cpp:107-154, as `reducedRuns`, with the table printed at the end. -/
def reducedRunsShown [LinearOrder W] [AddMonoid W] (env : Surround K W) (io : TextNum W) (strict : Bool)
    (dist : List K → List K → Res W)
    (runOne : World (List K) W × Shown → Res (World (List K) W × Shown))
    (x : World (List K) W × Shown) :
    Res ((World (List K) W × Shown) × List (BettiEntry W)) := do
  let d := x.1.packet.data
  let maxRadius ← computeMaxRadius dist d.originalData d.fullData d.labels
  let centroids := d.originalData
  let parts ← separateByRadius dist (maxRadius + maxRadius) d.originalData d.fullData d.labels
  let s := x.2.say ("Using maxRadius: ".toList ++ env.shows maxRadius ++ "\nPartitions: ".toList ++
    io.sizeStr parts.2.length ++ "\nCounts: ".toList)
  let st ← (List.range parts.2.length).foldlM (reducedStepShown io strict runOne parts) ((x.1, s), [])
  let s := st.1.2.say ("Full Data: ".toList ++ io.sizeStr centroids.length ++ ['\n'])
  let r ← (if centroids.length > 0 then do
      let y ← runOne (st.1.1.mapWork (fun d => { d with originalData := centroids }),
        s.say (runningText io centroids.length))
      let w ← clearComplex strict y.1
      pure ((w, y.2), st.2)
    else pure ((st.1.1, s.say "skipping\n".toList), st.2))
  pure ((r.1.1, r.1.2.say ("\n_______BETTIS_______\n".toList ++
    r.1.1.packet.data.bettiTable.flatMap (tableLine env io))), r.2)

/-- LHFmain/main.cpp:90-155 `processReducedWrapper` and what it prints. -/
def processReducedShown [LinearOrder W] [AddMonoid W] (env : Surround K W) (io : TextNum W) (strict : Bool)
    (dist : List K → List K → Res W)
    (pre : PreKind → Work (List K) W × Shown → Res (Work (List K) W × Shown))
    (runOne : World (List K) W × Shown → Res (World (List K) W × Shown))
    (args : ArgMap) (x : World (List K) W × Shown) : Res (World (List K) W × Shown) := do
  let p ← preprocessShown pre args (withShown x.1.packet x.2)
  let r ← reducedRunsShown env io strict dist runOne ({ x.1 with packet := dropShown p }, p.data.2)
  pure r.1

/-- LHFmain/main.cpp:70-88 `processDataWrapper` and what it prints. -/
def processDataShown (pre : PreKind → Work (List K) W × Shown → Res (Work (List K) W × Shown))
    (runOne : World (List K) W × Shown → Res (World (List K) W × Shown))
    (args : ArgMap) (x : World (List K) W × Shown) : Res (World (List K) W × Shown) := do
  let p ← preprocessShown pre args (withShown x.1.packet x.2)
  runOne ({ x.1 with packet := dropShown p }, p.data.2)

/-- LHFmain/main.cpp:161-230 `processUpscaleWrapper` and what it prints: the sizes of the partitions. -/
def processUpscaleShown (io : TextNum W)
    (pre : PreKind → Work (List K) W × Shown → Res (Work (List K) W × Shown))
    (clusters : Nat) (args : ArgMap) (x : World (List K) W × Shown) :
    Res (World (List K) W × Shown) := do
  let p ← preprocessShown pre args (withShown x.1.packet x.2)
  let parts ← separateByLabel clusters p.data.1.fullData p.data.1.labels
  pure ({ x.1 with packet := dropShown p }, p.data.2.say ("Partitions: ".toList ++
    io.sizeStr parts.2.length ++ "\nCounts: ".toList ++
    parts.2.flatMap (fun a => io.sizeStr a.length ++ ['\t']) ++ ['\n']))

/-- LHFmain/main.cpp:284-300, as `dispatch`. -/
def dispatchShown [LinearOrder W] [AddMonoid W] (env : Surround K W) (io : TextNum W)
    (strict : Bool) (dist : List K → List K → Res W)
    (pre : PreKind → Work (List K) W × Shown → Res (Work (List K) W × Shown))
    (runOne : World (List K) W × Shown → Res (World (List K) W × Shown))
    (clusters : Nat) (args : ArgMap) (x : World (List K) W × Shown) :
    Res (World (List K) W × Shown) :=
  if x.1.packet.data.originalData.length > 0 ∨ args.val "pipeline" = "slidingwindow" then
    if args.val "upscale" = "true" then processUpscaleShown io pre clusters args x
    else if args.val "mode" = "reduced" then processReducedShown env io strict dist pre runOne args x
    else processDataShown pre runOne args x
  else pure (x.1, x.2.say usageText)

/-- LHFmain/main.cpp:232-304 `main` and what it prints; a file that cannot be opened is reported by
Utils/readInput.cpp:41-43. -/
def mainShown [LinearOrder W] [Ring W] (sys : System K W) (env : Surround K W) (term : Terminal K W)
    (argv : List String) : Res (World (List K) W × Shown) := do
  let args ← parseArgs argv
  let args := setPipeline args
  let complexType := args.val "complexType"
  let data ← (if args.val "pipeline" ≠ "slidingwindow" then
    readCSV sys.inIO (sys.files (args.val "inputFile")) else pure [])
  let missing : List Char := if args.val "pipeline" ≠ "slidingwindow" ∧
      sys.files (args.val "inputFile") = none then
    "Failed to open file: ".toList ++ (args.val "inputFile").toList ++ ['\n'] else []
  let work : Work (List K) W := ⟨data, data, [], newComplex complexType, [], [], []⟩
  let settings : Settings W :=
    ⟨sys.atof (args.val "epsilon"), sys.atoi (args.val "dimensions"), args.val "collapse"⟩
  dispatchShown env sys.io sys.strict sys.lib.dist (preShown env term args (sys.pre args))
    (runPipelineShown sys.io (stageShown env term args (runStages sys.lib settings)) args)
    (sys.atoi (args.val "clusters")) args
    (⟨newPacket complexType work, []⟩, ⟨0, headerShown argv args ++ missing⟩)

end

end LHF
