import Verif.Model.IndexedTree
import Verif.Model.Windows

/-!
Model of `reduceComplex` (option `collapse`) of Complex/indSimplexTree.cpp.

The tree of nodes is not touched by the reduction: it erases entries of `dimensions`, and `delete`s some of the
nodes, to which the tree still points. The addresses of these nodes are collected in a list. Messages on the
console are left out.
-/

namespace LHF

/-- `processedSimplices` and `removalSimplices` (Complex/indSimplexTree.cpp:774-775). -/
structure IReduceState where
  /-- `processedSimplices` -/
  processed : List (List Nat)
  /-- `removalSimplices` -/
  removals : List (List Nat)

section
variable {W : Type}

/-- Complex/indSimplexTree.cpp:455-468 `getWeight`: the first node of the layer with this set. `big` is the
constant 10000 of line 468. -/
def ITree.getWeight (big : W) (dims : List (List (IEntry W))) (search : List Nat) : Res W := do
  let points ← vget dims 0
  let _ ← vget points 0
  let layer ← vget dims (szPred search.length)
  match layer.find? (fun a => search = a.1.2) with
  | some a => pure a.2
  | none => pure big

/-- Complex/indSimplexTree.cpp:30-55: the first simplex of the layer that is neither processed nor to be removed
and shares this face. -/
def iSharedWith (layer : List (IEntry W)) (st : IReduceState) (subset : List Nat) : Option (List Nat) :=
  (layer.find? (fun z => decide (z.1.2 ∉ st.removals ∧ z.1.2 ∉ st.processed ∧
    (setIntersectS z.1.2 subset).length = szPred z.1.2.length))).map (·.1.2)

/-- Complex/indSimplexTree.cpp:28-56: `localBuf` and `localFaces`, as pairs. -/
def iLocal (layer : List (IEntry W)) (st : IReduceState) (subsets : List (List Nat)) :
    List (List Nat × List Nat) :=
  subsets.filterMap (fun s => (iSharedWith layer st s).map (fun f => (s, f)))

variable [LinearOrder W]

/-- Complex/indSimplexTree.cpp:86-100: the turn of the choice for one face; the state is `minVal` and `non_min`.
`minVal` starts at -1 and weights are not negative, so `minVal < 0` says that it has not been set. -/
def iChoose (big : W) (dims : List (List (IEntry W))) (s : Option W × List Nat) (z : List Nat) :
    Res (Option W × List Nat) := do
  let d ← ITree.getWeight big dims z
  match s.1 with
  | none => pure (some d, z)
  | some m => if d > m then pure (some m, z) else pure (some d, s.2)

/-- Complex/indSimplexTree.cpp:62-70: the turn for one face of the loop with the recursive calls; the state is
`recurse` and the lists. -/
def iVisit (call : List Nat → IReduceState → Res IReduceState) (s : Bool × IReduceState)
    (face : List Nat × List Nat) : Res (Bool × IReduceState) := do
  let a ← call face.2 s.2
  pure (s.1 || decide (a.removals.length > s.2.removals.length), a)

/-- Complex/indSimplexTree.cpp:19-117 `recurseReduce`. `sourceSet` and `fc` have no effect and are left out; the
second condition of line 79 always holds there. The result of the call of line 74 is not used. `fuel` bounds the
depth of the recursion. -/
def iRecurseReduce (big : W) (dims : List (List (IEntry W))) (d : Nat) :
    Nat → List Nat → IReduceState → Res IReduceState
  | 0, _, _ => .error .exn
  | fuel + 1, cur, st => do
    let st : IReduceState := { st with processed := st.processed ++ [cur] }
    let layer ← vget dims d
    let subsets := getSubsetsDim cur d
    let loc := iLocal layer st subsets
    if loc.length = subsets.length then do
      let r ← loc.foldlM (iVisit (iRecurseReduce big dims d fuel)) (false, st)
      if r.1 then do
        let _ ← iRecurseReduce big dims d fuel cur r.2
        pure r.2
      else pure r.2
    else do
      let c ← (subsets.filter (fun z => z ∉ loc.map Prod.fst)).foldlM (iChoose big dims) (none, [])
      if c.2.length > 0 then pure { st with removals := st.removals ++ [c.2, cur] }
      else pure st

/-- Complex/indSimplexTree.cpp:779-804: the turn for one simplex of the layer. -/
def iReduceTurn (big : W) (dims : List (List (IEntry W))) (d fuel : Nat) (st : IReduceState) (e : IEntry W) :
    Res IReduceState :=
  if e.1.2 ∉ st.processed then iRecurseReduce big dims d fuel e.1.2 st else pure st

omit [LinearOrder W] in
/-- Complex/indSimplexTree.cpp:815-820: erasing while counting up; after an erasure the next element is skipped.
The result is the layer and the number of erasures. -/
def iEraseEqual (r : List Nat) : List (IEntry W) → List (IEntry W) × Int
  | [] => ([], 0)
  | [e] => if r = e.1.2 then ([], 1) else ([e], 0)
  | e :: e' :: rest =>
    if r = e.1.2 then (e' :: (iEraseEqual r rest).1, (iEraseEqual r rest).2 + 1)
    else (e :: (iEraseEqual r (e' :: rest)).1, (iEraseEqual r (e' :: rest)).2)

/-- The parts of the tree that the reduction changes: `dimensions`, `nodeCount`, and the addresses of the nodes
that were deleted. -/
structure IReduced (W : Type) where
  /-- `dimensions` -/
  dims : List (List (IEntry W))
  /-- `nodeCount` -/
  nodeCount : Int
  /-- deleted nodes -/
  freed : List Nat

omit [LinearOrder W] in
/-- Complex/indSimplexTree.cpp:493-507 `deletion(set)` with 538-564 `deletion(node)`: the first node of the
layer with this set is erased and deleted. -/
def iDeletion (r : List Nat) (s : IReduced W) : Res (IReduced W) := do
  let points ← vget s.dims 0
  let _ ← vget points 0
  let layer ← vget s.dims (szPred r.length)
  match layer.find? (fun a => r = a.1.2) with
  | some a => do
    let dims ← vmodify s.dims (szPred r.length) (fun l => l.eraseP (fun a => r = a.1.2))
    pure ⟨dims, s.nodeCount - 1, s.freed ++ [a.1.1]⟩
  | none => pure s

omit [LinearOrder W] in
/-- Complex/indSimplexTree.cpp:814-822: the turn for one simplex that is to be removed. -/
def iRemove (d : Nat) (s : IReduced W) (r : List Nat) : Res (IReduced W) := do
  let layer ← vget s.dims d
  let e := iEraseEqual r layer
  let dims ← vmodify s.dims d (fun _ => e.1)
  iDeletion r ⟨dims, s.nodeCount - e.2, s.freed⟩

/-- Complex/indSimplexTree.cpp:771-825: the reduction of layer `d`. The recursion never gets deeper than the
layer is long (proved), which bounds the fuel. -/
def iReduceDim (big : W) (d : Nat) (s : IReduced W) : Res (IReduced W) := do
  let layer ← vget s.dims d
  let st ← layer.foldlM (iReduceTurn big s.dims d (layer.length + 2)) ⟨[], []⟩
  st.removals.foldlM (iRemove d) s

/-- Complex/indSimplexTree.cpp:771: the loop over the layers `d, d-1, ..., 2`. -/
def iReduceLoop (big : W) : Nat → IReduced W → Res (IReduced W)
  | 0, s => pure s
  | 1, s => pure s
  | d + 2, s => do
    let s ← iReduceDim big (d + 2) s
    iReduceLoop big (d + 1) s

omit [LinearOrder W] in
/-- Complex/indSimplexTree.cpp:119-174 `coreduction`: the loop over the queue. `bds` and `cbds` (lines 135, 138)
are declared and never filled, so nothing is ever appended to the queue or removed from the graph. -/
def iCoreduction (graph : List (List (IEntry W))) : Nat → List (IEntry W) → Res (List (List (IEntry W)))
  | _, [] => pure graph
  | 0, _ :: _ => .error .exn
  | fuel + 1, _ :: rest =>
    let bds : List (IEntry W) := []
    let cbds : List (IEntry W) := []
    let queue := if bds.length = 1 then rest ++ cbds else rest
    let queue := if bds.length = 0 then queue ++ cbds else queue
    iCoreduction graph fuel queue

/-- Complex/indSimplexTree.cpp:716-838 `reduceComplex`: the tree afterwards and the addresses of the deleted
nodes. -/
def ITree.reduceComplex (big : W) (maxDim : Nat) (t : ITree W) : Res (ITree W × List Nat) :=
  if maxDim < 2 then pure (t, [])
  else do
    let s ← iReduceLoop big (t.store.dims.length - 1) ⟨t.store.dims, t.store.nodeCount, []⟩
    t.graph.forM (fun a => a.forM (fun b => do
      let _ ← iCoreduction t.graph 1 [b]
      pure ⟨⟩))
    pure ({ t with store := { t.store with dims := s.dims, nodeCount := s.nodeCount } }, s.freed)

/-- Pipes/ripsPipe.cpp:29-43 `runPipe` on an `indSimplexTree`, whose `expandDimensions` does nothing
(Complex/indSimplexTree.hpp:54). -/
def ripsPipeIndexed (big : W) (dim : Nat) (collapse : String) (t : ITree W) : Res (ITree W × List Nat) :=
  if collapse = "true" ∨ collapse = "1" then t.reduceComplex big dim else pure (t, [])

end

end LHF
