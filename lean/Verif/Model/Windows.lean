import Verif.Model.Utils
import Verif.Model.DistMatrix

/-!
Model of the two window pipes, Pipes/naiveWindow.cpp and Pipes/slidingWindow.cpp, over the reals.
The input is the list of rows that `readInput::streamRead` returns one by one (`streamAll` in
Verif.Model.InputOutput). Printing, logging and files are not modelled. The sub-pipeline that
slidingWindow runs on a copy of its packet (`runSubPipeline`) is not modelled: it cannot change the
window. The capacity of the window is the parameter `cap`: 50 for naiveWindow (line 35), 200 for
slidingWindow (line 494).
-/

namespace LHF

/-! ### Library -/

/-- `v.erase(v.begin() + i)`: undefined behaviour if there is no element `i`. -/
def verase {α : Type} (l : List α) (i : Nat) : Res (List α) :=
  if i < l.length then .ok (l.eraseIdx i) else .error .oob

/-- `m[k] = v` on a `std::map<int, V>`, kept as the list of its entries in increasing order of the
key. The same representation is used for `std::unordered_map`, whose order is never observed. -/
def mapSet {V : Type} (k : Int) (v : V) : List (Int × V) → List (Int × V)
  | [] => [(k, v)]
  | e :: m => if k < e.1 then (k, v) :: e :: m else if k = e.1 then (k, v) :: m else e :: mapSet k v m

/-- `m[k]` on a `std::map<int, V>`: inserts `0` if the key is absent. -/
def mapRead {V : Type} [Zero V] (m : List (Int × V)) (k : Int) : V × List (Int × V) :=
  match m.lookup k with
  | some v => (v, m)
  | none => (0, mapSet k 0 m)

/-- `m.erase(k)`. -/
def mapErase {V : Type} (m : List (Int × V)) (k : Int) : List (Int × V) :=
  m.filter (fun e => e.1 ≠ k)

/-- `std::min_element` on a vector of numbers: the first position of the minimum, with its value
(`none`: the end iterator of an empty range). -/
def minElement {W : Type} [LinearOrder W] : List W → Option (Nat × W)
  | [] => none
  | x :: xs =>
    match minElement xs with
    | none => some (0, x)
    | some (i, y) => if y < x then some (i + 1, y) else some (0, x)

/-- `*std::min_element(...)`. -/
def minElementDeref {W : Type} [LinearOrder W] (l : List W) : Res W :=
  match minElement l with
  | some e => .ok e.2
  | none => .error .endDeref

/-! ### naiveWindow -/

/-- What Pipes/naiveWindow.cpp:31-115 keeps: `windowValues`, `inData.originalData`, `pointCounter`. -/
structure NaiveState (P : Type) where
  window : List P
  originalData : List P
  pointCounter : Nat

/-- `inData.complex->insertIterative(currentVector, windowValues)` as naiveWindow uses it: simplexTree
(Complex/simplexTree.cpp:193-210) asks the stream evaluator, which accepts every point
(Pipes/naiveWindow.cpp:25-28); simplexArrayList and indSimplexTree have the version of the base class
(Complex/simplexBase.cpp:99-102), which refuses. -/
def naiveInsertIterative (tree : Bool) : Bool := tree

/-- Pipes/naiveWindow.cpp:52-102, one row. `init` is `runComplexInitializer`, which builds the
complex from the window and can fail. -/
def naiveStep {P : Type} (cap : Nat) (tree : Bool) (init : List P → Res Unit) (s : NaiveState P)
    (row : P) : Res (NaiveState P) := do
  let s ← (if s.window.length < cap then
      let w := s.window ++ [row]
      if w.length = cap then do
        init w
        pure { s with window := w, originalData := w }
      else pure { s with window := w }
    else if naiveInsertIterative tree then do
      let w ← verase s.window 0
      pure { s with window := w ++ [row] }
    else pure s : Res (NaiveState P))
  let s := if s.pointCounter % 100 = 0 ∧ s.pointCounter > cap then
      { s with originalData := s.window } else s
  pure { s with pointCounter := s.pointCounter + 1 }

/-- Pipes/naiveWindow.cpp:31-115 `runPipe` on a stream that can be opened, from a packet holding
`data0`. -/
def naiveRun {P : Type} (cap : Nat) (tree : Bool) (init : List P → Res Unit) (data0 rows : List P) :
    Res (NaiveState P) :=
  rows.foldlM (naiveStep cap tree init) ⟨[], data0, 1⟩

/-! ### slidingWindow -/

/-- The part of `slidingWindow::EvalParams` (Pipes/slidingWindow.hpp:19-37) and of the complex that
`updateStats` can change. -/
structure NNStats where
  nnIndices : List Int
  nnDists : List ℝ
  avgNNDistPartitions : List (Int × ℝ)
  numPointsPartn : List (Int × Int)
  /-- `complex->distMatrix` -/
  distMatrix : List (List ℝ)

/-- The state of the sliding window: `windowValues`, the remaining fields of `EvalParams`,
`inData.originalData` and `pointCounter`. -/
structure SlidingState where
  window : List (List ℝ)
  windowKeys : List Nat
  partitionLabels : List Int
  key : Nat
  targetPartition : Int
  stats : NNStats
  maxKeys : List (Int × Nat)
  distsFromCurrVec : List ℝ
  labelToBeDeleted : Int
  indexToBeDeleted : Nat
  nnDistToBeDeleted : ℝ
  originalData : List (List ℝ)
  pointCounter : Nat

/-- Pipes/slidingWindow.cpp:494: `EvalParams{ 200, 0, 0 }` before the first row, for a packet holding
`data0`. -/
def SlidingState.initial (data0 : List (List ℝ)) : SlidingState :=
  { window := [], windowKeys := [], partitionLabels := [], key := 0, targetPartition := 0
    stats := ⟨[], [], [], [], []⟩, maxKeys := [], distsFromCurrVec := []
    labelToBeDeleted := 0, indexToBeDeleted := 0, nnDistToBeDeleted := 0
    originalData := data0, pointCounter := 1 }

/-- Pipes/slidingWindow.cpp:28-54 `deleteNNstats` (the deleted key is stored and never read). -/
def deleteNNstats (s : SlidingState) : Res SlidingState := do
  let i := s.indexToBeDeleted
  let _ ← vget s.windowKeys i
  let keys ← verase s.windowKeys i
  let labels ← verase s.partitionLabels i
  let nnI ← verase s.stats.nnIndices i
  let nnD ← vget s.stats.nnDists i
  let nnDs ← verase s.stats.nnDists i
  let ds ← verase s.distsFromCurrVec i
  let l := s.labelToBeDeleted
  let (n, m) := mapRead s.stats.numPointsPartn l
  let num := mapSet l (n - 1) m
  let last : Prop := n - 1 = 0
  pure { s with
    windowKeys := keys
    partitionLabels := labels
    distsFromCurrVec := ds
    nnDistToBeDeleted := nnD
    maxKeys := if last then mapErase s.maxKeys l else s.maxKeys
    stats := { s.stats with
      nnIndices := nnI
      nnDists := nnDs
      avgNNDistPartitions :=
        if last then mapErase s.stats.avgNNDistPartitions l else s.stats.avgNNDistPartitions
      numPointsPartn := if last then mapErase num l else num } }

/-- Pipes/slidingWindow.cpp:56-304 `updateStats`. The loop runs over the rows of the distance matrix
and first reads `distsFromCurrVec[i]` and appends it to row `i` (line 76). What the loop does with
the nearest-neighbour statistics (lines 78-241) and what follows the loop (lines 244-301) are the
parameters `body` and `after`: the theorems hold whatever they do. -/
def updateStats (body : SlidingState → Nat → NNStats → Res NNStats)
    (after : SlidingState → NNStats → Res NNStats) (s : SlidingState) : Res NNStats := do
  let st ← (List.range s.stats.distMatrix.length).foldlM (fun st i => do
    let d ← vget s.distsFromCurrVec i
    let m ← vmodify st.distMatrix i (· ++ [d])
    body s i { st with distMatrix := m }) s.stats
  after s st

/-- Pipes/slidingWindow.cpp:397-409, one step of the search for the smallest outdated partition. The
state is `numPtsSmallestOutdated`, `smallestOutdated` and `numPointsPartn`. -/
def outdatedStep (key : Nat) (st : Int × Int × List (Int × Int)) (op : Int × Nat) :
    Int × Int × List (Int × Int) :=
  if (key : Int) - (op.2 : Int) > 25 then
    let (n, m) := mapRead st.2.2 op.1
    if st.1 = -1 then (n, op.1, m)
    else if n < st.1 then (n, op.1, m)
    else (st.1, st.2.1, m)
  else st

/-- Pipes/slidingWindow.cpp:367-387: the partition the current vector is assigned to, with the map
`avgNNDistPartitions` after the reads. `dmin` is the distance to the nearest point of the window,
whose label is `nearest`. -/
noncomputable def choosePartition (dmin : ℝ) (nearest maxLabel : Int) (avg : List (Int × ℝ)) :
    Int × List (Int × ℝ) :=
  if dmin = 0 then (nearest, avg)
  else if dmin > 5 then (maxLabel + 1, avg)
  else
    let (a, avg) := mapRead avg nearest
    if a = -1 then (nearest, avg)
    else if a ≤ 0.25 ∧ dmin ≤ 1 then (nearest, avg)
    else if a > 0 ∧ dmin / a ≤ 4 then (nearest, avg)
    else (maxLabel + 1, avg)

/-- Pipes/slidingWindow.cpp:411-446: which position of the window is deleted, and its label. Line 440
looks for the value `!targetPartition`, which is 0 or 1. -/
def chooseVictim (labels : List Int) (target nearest smallestOutdated : Int) : Res (Nat × Int) :=
  if smallestOutdated ≠ -1 then .ok (labels.idxOf smallestOutdated, smallestOutdated)
  else if target ≠ nearest then do
    let l ← vget labels 0
    pure (0, l)
  else do
    let i := labels.idxOf (if target = 0 then 1 else 0)
    let l ← vget labels i
    pure (i, l)

/-- Pipes/slidingWindow.cpp:306-452 `nnBasedEvaluator`: whether the point is accepted, and the state
afterwards. `upd` is `updateStats`. -/
noncomputable def nnBasedEvaluator (upd : SlidingState → Res NNStats) (row : List ℝ)
    (s : SlidingState) : Res (Bool × SlidingState) := do
  let dists ← nearestNeighbors vectorsDistance row s.window
  let s := { s with distsFromCurrVec := dists }
  let dmin ← minElementDeref dists
  if s.stats.avgNNDistPartitions.length = 1 then
    if dmin = 0 then pure (false, s)
    else
      let label ← vget s.partitionLabels 0
      let (avg, m) := mapRead s.stats.avgNNDistPartitions label
      let s := { s with stats := { s.stats with avgNNDistPartitions := m } }
      if avg ≤ 0.25 ∧ dmin ≤ 1 then pure (false, s)
      else if avg = 0 ∨ dmin / avg > 4 then
        let s := { s with
          labelToBeDeleted := label
          indexToBeDeleted := 0
          targetPartition := label + 1 }
        let s ← deleteNNstats s
        let w ← verase s.window 0
        let s := { s with window := w }
        let stats ← upd s
        pure (true, { s with stats := stats })
      else pure (false, s)
  else
    let nearestIdx := ((minElement dists).map (·.1)).getD 0
    let nearest ← vget s.partitionLabels nearestIdx
    let maxLabel ← (match s.partitionLabels.max? with
      | some m => .ok m
      | none => .error .endDeref : Res Int)
    let (target, avg) := choosePartition dmin nearest maxLabel s.stats.avgNNDistPartitions
    let (_, outdated, num) := s.maxKeys.foldl (outdatedStep s.key) (-1, -1, s.stats.numPointsPartn)
    let (i, l) ← chooseVictim s.partitionLabels target nearest outdated
    let s := { s with
      targetPartition := target
      indexToBeDeleted := i
      labelToBeDeleted := l
      stats := { s.stats with avgNNDistPartitions := avg, numPointsPartn := num } }
    let s ← deleteNNstats s
    let w ← verase s.window i
    pure (true, { s with window := w })

/-- Pipes/slidingWindow.cpp:675-687, one step of the inner loop of `runComplexInitializer` for row
`i`. The state is the matrix and the distances from row `i` found so far. The packet's weights are
left out (see `distMatrixRow`). -/
noncomputable def initRowStep (data : List (List ℝ)) (i : Nat) (st : List (List ℝ) × List ℝ)
    (j : Nat) : Res (List (List ℝ) × List ℝ) := do
  if j < i then
    let d ← at2 st.1 j i
    pure (st.1, st.2 ++ [d])
  else if i < j then
    let a ← vget data i
    let b ← vget data j
    let d ← vectorsDistance a b
    let m ← set2 st.1 i j d
    pure (m, st.2 ++ [d])
  else pure st

/-- Pipes/slidingWindow.cpp:673-688, the inner loop of `runComplexInitializer` for row `i`: the
matrix after the loop and the distances from row `i` to the others, in order. -/
noncomputable def initRow (data : List (List ℝ)) (i : Nat) (m : List (List ℝ)) :
    Res (List (List ℝ) × List ℝ) :=
  (List.range data.length).foldlM (initRowStep data i) (m, [])

/-- Pipes/slidingWindow.cpp:667-699, row `i`: the state is the matrix, `nnIndices` and `nnDists`. -/
noncomputable def initStep (data : List (List ℝ)) (st : List (List ℝ) × List Int × List ℝ)
    (i : Nat) : Res (List (List ℝ) × List Int × List ℝ) := do
  let row ← vget data i
  if row.isEmpty then pure st
  else
    let (m, ds) ← initRow data i st.1
    let tempIndex := ((minElement ds).map (·.1)).getD 0
    let dmin ← minElementDeref ds
    pure (m, st.2.1 ++ [if tempIndex < i then (tempIndex : Int) else (tempIndex : Int) + 1],
      st.2.2 ++ [dmin])

/-- Pipes/slidingWindow.cpp:650-727 `runComplexInitializer`: the distance matrix given to the complex
and the lists `nnIndices` and `nnDists`. Inserting the rows into the complex (lines 714-721) is
`neighGraphPipe` and is left out here. -/
noncomputable def runComplexInitializer (data : List (List ℝ)) (nnI : List Int) (nnD : List ℝ) :
    Res (List (List ℝ) × List Int × List ℝ) :=
  (List.range data.length).foldlM (initStep data)
    (List.replicate data.length (List.replicate data.length 0), nnI, nnD)

/-- Pipes/slidingWindow.cpp:526-549: a row that arrives while the window is not full. -/
noncomputable def slidingFill (cap : Nat) (row : List ℝ) (s : SlidingState) : Res SlidingState := do
  let s := { s with
    window := s.window ++ [row]
    windowKeys := s.windowKeys ++ [s.key]
    partitionLabels := s.partitionLabels ++ [s.targetPartition]
    key := s.key + 1 }
  if s.window.length = cap then
    let (m, nnI, nnD) ← runComplexInitializer s.window s.stats.nnIndices s.stats.nnDists
    let avg := (nnD.foldl (· + ·) 0 : ℝ) / (nnD.length : ℝ)
    pure { s with
      originalData := s.window
      stats := {
        nnIndices := nnI
        nnDists := nnD
        distMatrix := m
        avgNNDistPartitions := mapSet s.targetPartition avg s.stats.avgNNDistPartitions
        numPointsPartn := mapSet s.targetPartition (cap : Int) s.stats.numPointsPartn }
      maxKeys := mapSet s.targetPartition (s.key - 1) s.maxKeys }
  else pure s

/-- Pipes/slidingWindow.cpp:520-582, one row, for a complex of type simplexTree (the only one the
`sw` mode uses): `insertIterative` is Complex/simplexTree.cpp:193-210. -/
noncomputable def slidingStep (cap : Nat) (upd : SlidingState → Res NNStats) (s : SlidingState)
    (row : List ℝ) : Res SlidingState := do
  let s ← (if s.window.length < cap then slidingFill cap row s
    else do
      let (ok, s) ← (if s.window.length = 0 then pure (true, s) else nnBasedEvaluator upd row s :
        Res (Bool × SlidingState))
      if ok then
        pure { s with
          window := s.window ++ [row]
          windowKeys := s.windowKeys ++ [s.key]
          partitionLabels := s.partitionLabels ++ [s.targetPartition]
          maxKeys := mapSet s.targetPartition s.key s.maxKeys
          key := s.key + 1 }
      else pure s : Res SlidingState)
  let s := if s.pointCounter % 100 = 0 ∧ s.pointCounter > cap then
      { s with originalData := s.window } else s
  pure { s with pointCounter := s.pointCounter + 1 }

/-- Pipes/slidingWindow.cpp:499-596 `runPipe` on a stream that can be opened. -/
noncomputable def slidingRun (cap : Nat) (upd : SlidingState → Res NNStats)
    (data0 rows : List (List ℝ)) : Res SlidingState :=
  rows.foldlM (slidingStep cap upd) (SlidingState.initial data0)

end LHF
