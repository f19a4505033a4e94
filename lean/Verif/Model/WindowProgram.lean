import Verif.Model.Program
import Verif.Model.Windows
import Verif.Model.PersistencePairs

/-!
The two window pipes with the complex they build and the sub-pipelines they run, as stages of the whole
program (Verif.Model.Program), for a packet whose complex is a `simplexTree`: the modes `sw` and `naive`
always use this complex (Utils/argParser.cpp:145-166). The files in the directory `output` that
`runSubPipeline` and `writeComplexStats` write (Pipes/slidingWindow.cpp:598-610, 617, 774-791), the console
and the packet's `weights` are left out.
-/

namespace LHF

section
variable {K W : Type} [LinearOrder W] [Ring W]

/-- Pipes/persistencePairs.cpp:173-284 `runPipe` on a packet. The text of `bettiOutput` has a header of its
own and its own format of the lines (lines 210, 250, 265); only the lines are kept here. -/
def persistWork (lib : Lib K W) (s : Settings W) (w : Work (List K) W) : Res (Work (List K) W) :=
  match w.complex with
  | .tree t dm => do
    let e := t.getAllEdges lib.sort
    let lines ← runPersistencePairs s.dim s.eps e.1
    pure { w with complex := .tree e.2 dm, bettiOutput := lines }
  | .array g dm => do
    let lines ← runPersistencePairs s.dim s.eps (arrayGetAllEdges lib.sort g)
    pure { w with complex := .array g dm, bettiOutput := lines }
  | .indexed t dm => do
    let e ← t.getAllEdges lib.isort
    let lines ← runPersistencePairs s.dim s.eps e.1
    pure { w with complex := .indexed e.2 dm, bettiOutput := lines }
  | .other => lib.rest .persistencePairs w

/-- The stages of the sub-pipelines. -/
def subStages (lib : Lib K W) (s : Settings W) (k : PipeKind) (w : Work (List K) W) :
    Res (Work (List K) W) :=
  match k with
  | .persistencePairs => persistWork lib s w
  | k => runStages lib s k w

/-- The loop over the stages of a sub-pipeline (Pipes/slidingWindow.cpp:625-646,
Pipes/naiveWindow.cpp:150-165), which is the loop of `runPipeline` (LHFmain/main.cpp:30-44) with another
text, with `simplexTree` as the type of the complex and with the settings of the window pipe. -/
def runSub (lib : Lib K W) (s : Settings W) (args : ArgMap) (text : String)
    (w : Work (List K) W) : Res (Work (List K) W) := do
  let p ← runPipeline (subStages lib s) ((args.set "pipeline" text).set "complexType" "simplexTree")
    ⟨[], true, w⟩
  pure p.data

/-- Pipes/slidingWindow.cpp:611-649 `runSubPipeline`: it works on a copy of the packet, so only the
complex, which the copy shares, can change. -/
def slidingSub (lib : Lib K W) (s : Settings W) (args : ArgMap) (w : Work (List K) W) :
    Res (AnyComplex W) :=
  if w.originalData.length = 0 then pure w.complex
  else do
    let w ← runSub lib s args "rips.persistence" w
    pure w.complex

end

/-! ### slidingWindow -/

/-- The state of the sliding window pipe: what `slidingStep` follows, and the complex without its distance
matrix, which is `stats.distMatrix`. -/
structure SlidingTree where
  st : SlidingState
  tree : Tree ℝ

/-- The packet that `runSubPipeline` copies; `w` is the packet that the pipe was given. -/
def SlidingTree.work (w : Work (List ℝ) ℝ) (x : SlidingTree) : Work (List ℝ) ℝ :=
  { w with originalData := x.st.originalData, complex := .tree x.tree x.st.stats.distMatrix }

/-- `runSubPipeline(inData)`. -/
noncomputable def SlidingTree.sub (lib : Lib ℝ ℝ) (s : Settings ℝ) (args : ArgMap) (w : Work (List ℝ) ℝ)
    (x : SlidingTree) : Res SlidingTree := do
  let c ← slidingSub lib s args (x.work w)
  match c with
  | .tree t _ => pure { x with tree := t }
  | _ => pure x

/-- Pipes/slidingWindow.cpp:520-582, one row: `slidingStep`, the insertion of the window into the complex
(lines 714-721) when the window becomes full, and the sub-pipeline (lines 568-578). In the code the insertion
comes before the statistics of the partition (lines 543-546), which it does not read. -/
noncomputable def slidingTreeStep (cap : Nat) (upd : SlidingState → Res NNStats) (lib : Lib ℝ ℝ)
    (s : Settings ℝ) (args : ArgMap) (w : Work (List ℝ) ℝ) (x : SlidingTree) (row : List ℝ) :
    Res SlidingTree := do
  let st ← slidingStep cap upd x.st row
  let t ← (if x.st.window.length < cap ∧ st.window.length = cap then
    neighGraphTree s.eps s.dim st.stats.distMatrix st.window x.tree else pure x.tree : Res (Tree ℝ))
  if x.st.pointCounter % 100 = 0 ∧ x.st.pointCounter > cap then
    SlidingTree.sub lib s args w ⟨st, t⟩
  else pure ⟨st, t⟩

/-- Pipes/slidingWindow.cpp:499-596 `runPipe` on the rows read from the stream, from a packet `w` whose
complex is the tree `t` with the distance matrix `dm`: the loop over the rows and the last sub-pipeline (lines
583-589). -/
noncomputable def slidingTreeRun (cap : Nat) (upd : SlidingState → Res NNStats) (lib : Lib ℝ ℝ)
    (s : Settings ℝ) (args : ArgMap) (w : Work (List ℝ) ℝ) (t : Tree ℝ) (dm : List (List ℝ))
    (rows : List (List ℝ)) : Res SlidingTree := do
  let st0 := SlidingState.initial w.originalData
  let x ← rows.foldlM (slidingTreeStep cap upd lib s args w)
    ⟨{ st0 with stats := { st0.stats with distMatrix := dm } }, t⟩
  if (x.st.pointCounter - 1) % 100 ≠ 0 then x.sub lib s args w else pure x

/-- Pipes/slidingWindow.cpp:499-596 `runPipe` on a packet whose complex is a `simplexTree`: the rows are
read from the file (here all before the first is used; a row that cannot be read is an error in both orders),
the capacity is 200 (line 494) and the packet is returned. -/
noncomputable def slidingWork (upd : SlidingState → Res NNStats) (io : TextNum ℝ)
    (file : Option (List Char)) (lib : Lib ℝ ℝ) (s : Settings ℝ) (args : ArgMap)
    (w : Work (List ℝ) ℝ) (t : Tree ℝ) (dm : List (List ℝ)) : Res (Work (List ℝ) ℝ) := do
  let rows ← streamAll io file
  let x ← slidingTreeRun 200 upd lib s args w t dm rows
  pure (x.work w)

/-! ### naiveWindow -/

/-- Pipes/naiveWindow.cpp:52-102, one row: `naiveStep`, and `runComplexInitializer` (lines 163-189), which
runs the pipeline `distMatrix.neighGraph` on the packet, when the window becomes full. The lines that these
stages add to the statistics are left out. -/
noncomputable def naiveTreeStep (cap : Nat) (lib : Lib ℝ ℝ) (s : Settings ℝ) (args : ArgMap)
    (x : NaiveState (List ℝ) × Work (List ℝ) ℝ) (row : List ℝ) :
    Res (NaiveState (List ℝ) × Work (List ℝ) ℝ) := do
  let st ← naiveStep cap true (fun _ => pure ()) x.1 row
  if x.1.window.length < cap ∧ st.window.length = cap then do
    let w ← (if st.window.length = 0 then pure x.2
      else runSub lib s args "distMatrix.neighGraph" { x.2 with originalData := st.window })
    pure (st, w)
  else pure (st, x.2)

/-- Pipes/naiveWindow.cpp:31-115 `runPipe` on a packet whose complex is a `simplexTree`; the capacity is 50
(line 35). -/
noncomputable def naiveWork (io : TextNum ℝ) (file : Option (List Char)) (lib : Lib ℝ ℝ) (s : Settings ℝ)
    (args : ArgMap) (w : Work (List ℝ) ℝ) : Res (Work (List ℝ) ℝ) := do
  let rows ← streamAll io file
  let x ← rows.foldlM (naiveTreeStep 50 lib s args) (⟨[], w.originalData, 1⟩, w)
  pure { x.2 with originalData := x.1.originalData }

end LHF
