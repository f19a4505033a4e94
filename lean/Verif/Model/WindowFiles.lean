import Verif.Model.WindowProgram
import Verif.Model.Effects

/-!
The files in which the sliding window pipe saves its window (Pipes/slidingWindow.cpp:611-624, 774-791). The
run is that of Model/WindowProgram.lean; the writes are carried along. `writeComplexStats`
(Pipes/slidingWindow.cpp:598-609) is left out: it writes nothing unless `complex->stats` is longer than 30
characters, and only the built-in evaluator (Complex/simplexBase.cpp:170-195), which this pipe replaces, adds
to it.
-/

namespace LHF

/-- Pipes/slidingWindow.cpp:776-788: the text of a saved window. `std::endl` adds an empty line. -/
def windowText (shows : ℝ → List Char) (rows : List (List ℝ)) : List Char :=
  (rows.map (fun a => a.flatMap (fun d => shows d ++ [',']) ++ ['\n'])).flatten ++ ['\n']

/-- Pipes/slidingWindow.cpp:776 and 24: the name of the file. -/
def reportName (n : Nat) : String := "output/SlidingWindow_" ++ toString n ++ "_output.csv"

/-- Pipes/slidingWindow.cpp:611-624, the part of `runSubPipeline` before its stages: nothing for a packet
without rows, otherwise the rows of the packet are saved under the number `repCounter`, which is then
increased. `before` are the writes so far, so their number is `repCounter`. -/
def saveWindow (shows : ℝ → List Char) (before : List FileWrite) (x : SlidingTree) : List FileWrite :=
  if x.st.originalData.length = 0 then before
  else before ++ [⟨reportName before.length, .replace, windowText shows x.st.originalData⟩]

/-- Pipes/slidingWindow.cpp:520-582, one row, with the saved windows. The sub-pipeline works on a copy, so the
rows are those of the packet after the step. -/
noncomputable def slidingFilesStep (shows : ℝ → List Char) (cap : Nat) (upd : SlidingState → Res NNStats)
    (lib : Lib ℝ ℝ) (s : Settings ℝ) (args : ArgMap) (w : Work (List ℝ) ℝ)
    (p : SlidingTree × List FileWrite) (row : List ℝ) : Res (SlidingTree × List FileWrite) := do
  let y ← slidingTreeStep cap upd lib s args w p.1 row
  if p.1.st.pointCounter % 100 = 0 ∧ p.1.st.pointCounter > cap then
    pure (y, saveWindow shows p.2 y)
  else pure (y, p.2)

/-- Pipes/slidingWindow.cpp:499-596 `runPipe` with the saved windows. -/
noncomputable def slidingFilesRun (shows : ℝ → List Char) (cap : Nat) (upd : SlidingState → Res NNStats)
    (lib : Lib ℝ ℝ) (s : Settings ℝ) (args : ArgMap) (w : Work (List ℝ) ℝ) (t : Tree ℝ)
    (dm : List (List ℝ)) (rows : List (List ℝ)) : Res (SlidingTree × List FileWrite) := do
  let st0 := SlidingState.initial w.originalData
  let p ← rows.foldlM (slidingFilesStep shows cap upd lib s args w)
    (⟨{ st0 with stats := { st0.stats with distMatrix := dm } }, t⟩, [])
  if (p.1.st.pointCounter - 1) % 100 ≠ 0 then do
    let y ← p.1.sub lib s args w
    pure (y, saveWindow shows p.2 p.1)
  else pure p

end LHF
