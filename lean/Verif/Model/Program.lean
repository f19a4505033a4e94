import Verif.Model.IndexedCollapse
import Verif.Model.Pipeline
import Verif.Model.StandardRun
import Verif.Model.Collapse
import Verif.Model.InputOutput
import Verif.Model.Utils
import Verif.Model.KMeans
import Verif.Model.DenStream
import Verif.Model.IndexedTree

/-!
Model of LHFmain/main.cpp as one program: the packet with its members, the preprocessing step
(Preprocessing/preprocessor.cpp), the pipeline with the files it writes, the three functions that
`main` chooses from, and `main` itself. Console output is left out except the table that
`processReducedWrapper` prints, which is the packet's `bettiTable` at the end. The files that the stages
write when `debug` is on, and those of the preprocessors, are left out.
-/

namespace LHF

/-! ### The packet -/

/-- The complex a packet points to, with the distance matrix that the complex stores
(Complex/simplexBase.cpp:50-53): a `simplexTree`, a `simplexArrayList`, an `indSimplexTree`, or anything
else. -/
inductive AnyComplex (W : Type) where
  | tree (t : Tree W) (dm : List (List W))
  | array (g : Graph W) (dm : List (List W))
  | indexed (t : ITree W) (dm : List (List W))
  | other

/-- Pipes/pipePacket.hpp:13-26: the members of the packet except `stats`; `boundaries` is not used by
the code modelled here. `P` is the type of a row of the data. -/
structure Work (P W : Type) where
  /-- originalData -/
  originalData : List P
  /-- fullData -/
  fullData : List P
  /-- originalLabels -/
  labels : List Nat
  /-- complex -/
  complex : AnyComplex W
  /-- weights -/
  weights : List W
  /-- bettiTable -/
  bettiTable : List (BettiEntry W)
  /-- bettiOutput, as lines -/
  bettiOutput : List (Line W)

/-- What is written to a file: the statistics (only the stage names, the times and sizes are left out)
or a text. -/
inductive FileBody where
  | stats (stages : List String)
  | text (content : List Char)
deriving DecidableEq

/-- The state of the program: the packet and the files written so far, as (name, content) in the order
of writing; every one is opened with truncation. -/
structure World (P W : Type) where
  /-- wD -/
  packet : Packet (Work P W)
  /-- the files written so far -/
  files : List (String × FileBody)

/-- Changing the members of the packet. -/
def World.mapWork {P W : Type} (f : Work P W → Work P W) (w : World P W) : World P W :=
  { w with packet := { w.packet with data := f w.packet.data } }

/-! ### Preprocessing -/

/-- The preprocessor classes; `base` is the class `preprocessor` itself. -/
inductive PreKind where
  | base | kmeans | streamingKmeans | denStream
deriving DecidableEq

/-- Preprocessing/preprocessor.cpp:22-38 `newPreprocessor`; `none` is the null pointer. -/
def newPreprocessor (name : String) : Option PreKind :=
  if name = "none" then some .base
  else if name = "kmeansplusplus" ∨ name = "kmeans++" ∨ name = "kmeans" then some .kmeans
  else if name = "streamingKmeans" ∨ name = "streamingkmeans" ∨ name = "streamKM" then
    some .streamingKmeans
  else if name = "denStream" ∨ name = "denstream" ∨ name = "DenStream" then some .denStream
  else none

/-- The keys whose absence makes `configPreprocessor` return false: kMeansPlusPlus.cpp:180-188,
streamingKmeans.cpp:316-324, denStream.cpp:246-254; the base class (preprocessor.cpp:127-132) reads
none. -/
def preRequiredKeys : PreKind → List String
  | .base => []
  | .kmeans => ["clusters", "iterations"]
  | .streamingKmeans => ["clusters", "iterations"]
  | .denStream => ["epsilon", "lambda"]

/-- The result of `configPreprocessor`. -/
def configPreprocessor (k : PreKind) (args : ArgMap) : Bool :=
  (preRequiredKeys k).all (fun key => (args key).isSome)

/-- `configured` after a successful `configPreprocessor`: the base class never sets it
(preprocessor.hpp:10, preprocessor.cpp:127-132). -/
def preConfigured : PreKind → Bool
  | .base => false
  | .kmeans => true
  | .streamingKmeans => true
  | .denStream => true

/-- `procName` (kMeansPlusPlus.cpp:21, streamingKmeans.cpp:24, denStream.cpp:85). -/
def procName : PreKind → String
  | .base => "preprocessor"
  | .kmeans => "k-means++"
  | .streamingKmeans => "streamingKmeans"
  | .denStream => "DenStream"

/-- Preprocessing/preprocessor.cpp:41-90 `runPreprocessorWrapper`. -/
def runPreprocessorWrapper {D : Type} (configured : Bool) (name : String) (run : D → Res D)
    (p : Packet D) : Res (Packet D) :=
  if configured then do
    let d ← run p.data
    pure ⟨p.stats ++ [name], p.hasComplex, d⟩
  else pure p

/-- LHFmain/main.cpp:73-83, 95-105, 164-174: the preprocessing step at the start of each of the three
functions. -/
def preprocess {D : Type} (pre : PreKind → D → Res D) (args : ArgMap) (p : Packet D) :
    Res (Packet D) :=
  if args.val "preprocessor" ≠ "" then
    match newPreprocessor (args.val "preprocessor") with
    | some k =>
      if configPreprocessor k args then runPreprocessorWrapper (preConfigured k) (procName k) (pre k) p
      else pure p
    | none => pure p
  else pure p

section
variable {P W : Type}

/-! ### The pipeline and its output files -/

/-- Pipes/fastPersistence.cpp:143-146, 225: the text of a line of `bettiOutput`. -/
def lineText (io : TextNum W) (l : Line W) : List Char :=
  if l.1 = 0 then "0,0,".toList ++ io.toStr l.2.2 ++ ['\n']
  else io.sizeStr l.1 ++ [','] ++ io.toStr l.2.1 ++ [','] ++ io.toStr l.2.2 ++ ['\n']

/-- Utils/writeOutput.cpp:38-42, 86-93 `writeBarcodes(string, filename)`: the content. -/
def barcodeText (io : TextNum W) (lines : List (Line W)) : List Char :=
  barcodeHeader ++ lines.flatMap (lineText io)

/-- LHFmain/main.cpp:53-63: the files written at the end of `runPipeline`; `writeStats`
(Utils/writeOutput.cpp:24-30) and `writeBarcodes`. -/
def pipelineFiles (io : TextNum W) (args : ArgMap) (p : Packet (Work P W)) :
    List (String × FileBody) :=
  match args "outputFile" with
  | some f =>
    if f = "console" then []
    else [(f ++ "_stats.csv", .stats p.stats),
      (f ++ ".csv", .text (barcodeText io p.data.bettiOutput))]
  | none => []

/-- LHFmain/main.cpp:18-66 `runPipeline`. -/
def runPipelineOut (io : TextNum W) (run : PipeKind → Work P W → Res (Work P W)) (args : ArgMap)
    (w : World P W) : Res (World P W) :=
  match args "pipeline" with
  | some _ => do
    let p ← runPipeline run args w.packet
    pure ⟨p, w.files ++ pipelineFiles io args p⟩
  | none => pure w

/-! ### The three functions -/

/-- `complex->clear()`: `simplexTree` (Complex/simplexTree.cpp:564-582; `strict` as in `Tree.clear`),
`simplexArrayList` (Complex/simplexArrayList.cpp:389-397). `indSimplexTree` does not define it, so
`simplexBase::clear` (Complex/simplexBase.cpp:207-211) runs, which changes nothing. A null pointer is an
error. -/
def clearComplex [LinearOrder W] [Zero W] (strict : Bool) (w : World P W) : Res (World P W) :=
  if w.packet.hasComplex then
    match w.packet.data.complex with
    | .tree t dm => do
      let t ← t.clear strict
      pure (w.mapWork (fun d => { d with complex := .tree t dm }))
    | .array _ dm => pure (w.mapWork (fun d => { d with complex := .array [] dm }))
    | .indexed _ _ => pure w
    | .other => pure w
  else .error .null

/-- LHFmain/main.cpp:116-134: one turn of the loop over the partitions. `runOne` is `runPipeline(args, wD)`. The
state is the world and `mergedBettiTable`. -/
def reducedStep [LinearOrder W] [Zero W] (strict : Bool) (runOne : World P W → Res (World P W))
    (parts : List (List Nat) × List (List P)) (st : World P W × List (BettiEntry W)) (z : Nat) :
    Res (World P W × List (BettiEntry W)) := do
  let pts ← vget parts.2 z
  if pts.length > 0 then do
    let w ← runOne (st.1.mapWork (fun d => { d with originalData := pts }))
    let w ← clearComplex strict w
    let labels ← vget parts.1 z
    let table ← mapPartitionIndexing labels w.packet.data.bettiTable
    let w := w.mapWork (fun d => { d with bettiTable := table })
    pure (w, st.2 ++ table)
  else pure st

/-- LHFmain/main.cpp:107-154: what `processReducedWrapper` does after preprocessing; `add` doubles
the radius (`2*maxRadius`). The second component is `mergedBettiTable`, which the code does not use. -/
def reducedRuns [LinearOrder W] [AddMonoid W] (strict : Bool) (dist : P → P → Res W)
    (runOne : World P W → Res (World P W)) (w : World P W) :
    Res (World P W × List (BettiEntry W)) := do
  let d := w.packet.data
  let maxRadius ← computeMaxRadius dist d.originalData d.fullData d.labels
  let centroids := d.originalData
  let parts ← separateByRadius dist (maxRadius + maxRadius) d.originalData d.fullData d.labels
  let st ← (List.range parts.2.length).foldlM (reducedStep strict runOne parts) (w, [])
  if centroids.length > 0 then do
    let w ← runOne (st.1.mapWork (fun d => { d with originalData := centroids }))
    let w ← clearComplex strict w
    pure (w, st.2)
  else pure st

/-- LHFmain/main.cpp:90-155 `processReducedWrapper`. -/
def processReduced [LinearOrder W] [AddMonoid W] (strict : Bool) (dist : P → P → Res W)
    (pre : PreKind → Work P W → Res (Work P W)) (runOne : World P W → Res (World P W))
    (args : ArgMap) (w : World P W) : Res (World P W) := do
  let p ← preprocess pre args w.packet
  let r ← reducedRuns strict dist runOne { w with packet := p }
  pure r.1

/-- LHFmain/main.cpp:70-88 `processDataWrapper`. -/
def processData (pre : PreKind → Work P W → Res (Work P W)) (runOne : World P W → Res (World P W))
    (args : ArgMap) (w : World P W) : Res (World P W) := do
  let p ← preprocess pre args w.packet
  runOne { w with packet := p }

/-- LHFmain/main.cpp:161-230 `processUpscaleWrapper`: the partitions are computed and their sizes
printed; everything after that is commented out. `clusters` is `atoi(args["clusters"])`. -/
def processUpscale (pre : PreKind → Work P W → Res (Work P W)) (clusters : Nat)
    (args : ArgMap) (w : World P W) : Res (World P W) := do
  let p ← preprocess pre args w.packet
  let _ ← separateByLabel clusters p.data.fullData p.data.labels
  pure { w with packet := p }

/-- LHFmain/main.cpp:284-300: the branches of `main` after the input has been read. -/
def dispatch [LinearOrder W] [AddMonoid W] (strict : Bool) (dist : P → P → Res W)
    (pre : PreKind → Work P W → Res (Work P W)) (runOne : World P W → Res (World P W))
    (clusters : Nat) (args : ArgMap) (w : World P W) : Res (World P W) :=
  if w.packet.data.originalData.length > 0 ∨ args.val "pipeline" = "slidingwindow" then
    if args.val "upscale" = "true" then processUpscale pre clusters args w
    else if args.val "mode" = "reduced" then processReduced strict dist pre runOne args w
    else processData pre runOne args w
  else pure w

/-! ### The stages of the default pipeline on a packet -/

/-- Pipes/neighGraphPipe.cpp:24-35 `runPipe` on an `indSimplexTree`: one insertion per non-empty row. -/
def neighGraphIndexed {K W : Type} [LinearOrder W] [Zero W] (eps : W) (dim : Nat) (dm : List (List W))
    (data : List (List K)) (t : ITree W) : Res (ITree W) :=
  data.foldlM (fun t p => if p.isEmpty then pure t else t.insert eps dim dm) t

/-- Complex/simplexBase.cpp:56-77 `newSimplex`: the complex that `main` puts in the packet. -/
def newComplex [LinearOrder W] [Zero W] (complexType : String) : AnyComplex W :=
  if complexType = "simplexTree" then .tree Tree.fresh []
  else if complexType = "simplexArrayList" then .array [] []
  else if complexType = "indSimplexTree" then .indexed ITree.fresh []
  else .other

/-- The settings that the stages and the complex read (the `configPipe` functions,
Complex/simplexBase.cpp:24-48), converted by `atof` and `atoi`. -/
structure Settings (W : Type) where
  /-- epsilon -/
  eps : W
  /-- dimensions -/
  dim : Nat
  /-- collapse -/
  collapse : String

/-- What the stages use besides the packet: `std::sort` by weight, the reading of the end iterator in
fastPersistence, `utils::vectors_distance`, the layer reduction of the tree, and the stages and
complexes that are modelled elsewhere. -/
structure Lib (K W : Type) [LinearOrder W] where
  /-- std::sort -/
  sort : SortBySecond (List Nat) W
  /-- std::sort of the graph entries of an indexed tree, by weight -/
  isort : SortBySecond (Nat × List Nat) W
  /-- see `EndRead` -/
  mode : EndRead
  /-- vectors_distance -/
  dist : List K → List K → Res W
  /-- Complex/simplexTree.cpp:390-411 -/
  treeBody : Nat → Tree W → Res (Tree W)
  /-- all other stages, and all stages on other complexes -/
  rest : PipeKind → Work (List K) W → Res (Work (List K) W)

variable {K : Type}

/-- The stages distMatrix (Pipes/distMatrixPipe.cpp:28-60), neighGraph (Pipes/neighGraphPipe.cpp:24-35),
rips (Pipes/ripsPipe.cpp:29-43) and fastPersistence (Pipes/fastPersistence.cpp:33-276) on a packet whose
complex is a `simplexTree`, a `simplexArrayList` or an `indSimplexTree`. `expandDimensions` does nothing on the
two trees (Complex/simplexTree.hpp:49, Complex/indSimplexTree.hpp:54). -/
def runStages [LinearOrder W] [Ring W] (lib : Lib K W) (s : Settings W) (k : PipeKind)
    (w : Work (List K) W) : Res (Work (List K) W) :=
  match k, w.complex with
  | .distMatrix, .tree t _ => do
    let r ← distMatrixPipe lib.dist s.eps w.weights w.originalData
    pure { w with complex := .tree t r.1, weights := r.2 }
  | .distMatrix, .array g _ => do
    let r ← distMatrixPipe lib.dist s.eps w.weights w.originalData
    pure { w with complex := .array g r.1, weights := r.2 }
  | .neighGraph, .tree t dm => do
    let t ← neighGraphTree s.eps s.dim dm w.originalData t
    pure { w with complex := .tree t dm }
  | .neighGraph, .array g dm => do
    let g ← arrayInsertAll s.eps s.dim dm w.originalData g
    pure { w with complex := .array g dm }
  | .rips, .tree t dm => do
    let t ← ripsPipeTree lib.treeBody s.collapse t
    pure { w with complex := .tree t dm }
  | .rips, .array g dm => do
    let g ← ripsPipeArray s.dim s.collapse g
    pure { w with complex := .array g dm }
  | .fastPersistence, .tree t dm => do
    let e := t.getAllEdges lib.sort
    let r ← fastPersistence lib.mode s.dim s.eps e.1 w.bettiOutput w.bettiTable
    pure { w with complex := .tree e.2 dm, bettiOutput := r.1, bettiTable := r.2 }
  | .fastPersistence, .array g dm => do
    let g ← if s.dim > 0 then expandDimensions (s.dim + 1) g else pure g
    let r ← fastPersistence lib.mode s.dim s.eps (arrayGetAllEdges lib.sort g) w.bettiOutput w.bettiTable
    pure { w with complex := .array g dm, bettiOutput := r.1, bettiTable := r.2 }
  | .distMatrix, .indexed t _ => do
    let r ← distMatrixPipe lib.dist s.eps w.weights w.originalData
    pure { w with complex := .indexed t r.1, weights := r.2 }
  | .neighGraph, .indexed t dm => do
    let t ← neighGraphIndexed s.eps s.dim dm w.originalData t
    pure { w with complex := .indexed t dm }
  | .rips, .indexed t dm => do
    let r ← ripsPipeIndexed ((10000 : ℕ) : W) s.dim s.collapse t
    pure { w with complex := .indexed r.1 dm }
  | .fastPersistence, .indexed t dm => do
    let e ← t.getAllEdges lib.isort
    let r ← fastPersistence lib.mode s.dim s.eps e.1 w.bettiOutput w.bettiTable
    pure { w with complex := .indexed e.2 dm, bettiOutput := r.1, bettiTable := r.2 }
  | k, _ => lib.rest k w

/-- Preprocessing/kMeansPlusPlus.cpp:159-163: what k-means puts in the packet; `fullData` is left alone.
`first` and `picks` are the random choices, see `kmRun`. A centroid with a NaN coordinate (an empty
class) is not followed: it is an error here. -/
noncomputable def kmWork (numClusters iterations first : Nat) (picks : List (Nat × Bool))
    (w : Work (List ℝ) ℝ) : Res (Work (List ℝ) ℝ) := do
  let r ← kmRun w.originalData numClusters iterations first picks
  match r.1.mapM (fun row => row.mapM id) with
  | some cents => pure { w with originalData := cents, labels := r.2 }
  | none => .error .exn

/-- Preprocessing/denStream.cpp:92-164: what DenStream puts in the packet: only `originalData` changes. See
`denRun` for the parameters; a clustering that does not finish within `fuel` turns is an error here. -/
noncomputable def denWork (S : SortByLevel ℝ) (ab : ℝ → ℝ) (epsilon lambda : ℝ) (fuel : Nat)
    (w : Work (List ℝ) ℝ) : Res (Work (List ℝ) ℝ) := do
  match ← denRun S ab (denConfig epsilon lambda) w.originalData fuel with
  | some centers => pure { w with originalData := centers }
  | none => .error .exn

/-! ### main -/

/-- What `main` uses besides its arguments: the files of the system, `std::atof`, `std::atoi` (as a
number of dimensions or clusters; negative values are left out) and the preprocessors. -/
structure System (K W : Type) [LinearOrder W] where
  /-- the content of a file, if it can be opened -/
  files : String → Option (List Char)
  /-- conversions -/
  io : TextNum W
  /-- conversions of the input -/
  inIO : TextNum K
  /-- std::atof -/
  atof : String → W
  /-- std::atoi -/
  atoi : String → Nat
  /-- see `Tree.clear` -/
  strict : Bool
  /-- what the stages use -/
  lib : Lib K W
  /-- the preprocessors -/
  pre : ArgMap → PreKind → Work (List K) W → Res (Work (List K) W)

/-- LHFmain/main.cpp:232-304 `main`: the arguments are parsed, the pipeline is chosen, the packet is
created, the input is read (unless the pipeline is the sliding window) and one of the three functions is
called. The result is the state at the end. -/
def mainProgram [LinearOrder W] [Ring W] (sys : System K W) (argv : List String) :
    Res (World (List K) W) := do
  let args ← parseArgs argv
  let args := setPipeline args
  let complexType := args.val "complexType"
  let data ← (if args.val "pipeline" ≠ "slidingwindow" then
    readCSV sys.inIO (sys.files (args.val "inputFile")) else pure [])
  let work : Work (List K) W := ⟨data, data, [], newComplex complexType, [], [], []⟩
  let settings : Settings W :=
    ⟨sys.atof (args.val "epsilon"), sys.atoi (args.val "dimensions"), args.val "collapse"⟩
  dispatch sys.strict sys.lib.dist (sys.pre args)
    (runPipelineOut sys.io (runStages sys.lib settings) args) (sys.atoi (args.val "clusters")) args
    ⟨newPacket complexType work, []⟩

end

end LHF
