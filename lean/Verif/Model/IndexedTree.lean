import Verif.Model.TreeComplex
import Verif.Model.PersistencePairs

/-!
Model of Complex/indSimplexTree.cpp (insertion, queries, `find`), of `graphEntry::getFaces`
(Complex/simplexBase.hpp:35-78) and of the index branch of Pipes/optPersistencePairs.cpp.

A node has an address. Its fields `index`, `weight` and `simplexSet` are set when it is created and do
not change, so they are copied wherever the code keeps a pointer to the node (`dimensions`, the field
`entry` of a graph entry). The links `child` and `sibling` form a first-child / next-sibling tree with
value semantics. The field `sortedIndex`, which is changed later through pointers, is kept in a table
indexed by addresses. `parent` is never read by the functions modelled here.
-/

namespace LHF

/-- Complex/simplexBase.hpp:17-25 `indTreeNode`: `node address index weight simplexSet child sibling`. -/
inductive INode (W : Type) where
  | nil : INode W
  | node (addr index : Nat) (weight : W) (simplexSet : List Nat) (child sibling : INode W) : INode W

/-- A pointer to a node, and a `graphEntry` (Complex/simplexBase.hpp:27-35), which copies the fields of
the node it points to: address, `simplexSet` and `weight`. -/
abbrev IEntry (W : Type) := (Nat × List Nat) × W

/-- What `recurseInsert` changes besides the tree: `dimensions`, `dimCounts`, the fields `sortedIndex`
of all nodes allocated so far (`none`: not initialised) and `nodeCount`. -/
structure IStore (W : Type) where
  /-- `dimensions` -/
  dims : List (List (IEntry W))
  /-- `dimCounts` -/
  dimCounts : List Nat
  /-- `sortedIndex` of the node at every address -/
  sidx : List (Option Nat)
  /-- `nodeCount` -/
  nodeCount : Int

/-- Complex/indSimplexTree.cpp:201-209: append to the layer of the simplex, creating the layer if it is
the next one. `m` is `depth + 1`. -/
def pushDims {W : Type} (dims : List (List (IEntry W))) (m : Nat) (e : IEntry W) :
    Res (List (List (IEntry W))) :=
  if m = dims.length then pure (dims ++ [[e]]) else vmodify dims m (· ++ [e])

section
variable {W : Type} [LinearOrder W] [Zero W]

/-- Complex/indSimplexTree.cpp:176-232 `recurseInsert`, together with the `do ... while` loop over the
siblings that calls it (lines 224-226 and 415-417). The first argument list is `maxE` and `simp` of the
call; `depth` is recomputed as `simp.size() - 1`. `env.dist i` is `distMatrix[i][indexCounter]`. -/
def recurseInsertI (env : InsertEnv W) (maxE : W) (simp : List Nat) :
    INode W → IStore W → Res (INode W × IStore W)
  | .nil, st => pure (.nil, st)
  | .node a index weight sset child sibling, st => do
    let d ← env.dist index
    let curE := if d > maxE then d else maxE
    if curE < env.maxEpsilon then do
      let newSimp := setInsert index simp
      let addr := st.sidx.length
      let counts ← vmodify st.dimCounts simp.length (· + 1)
      let maxE' := if curE > weight then curE else weight
      let dims ← pushDims st.dims simp.length ((addr, newSimp), maxE')
      let st : IStore W := ⟨dims, counts, st.sidx ++ [none], st.nodeCount + 1⟩
      let r ← (if newSimp.length ≤ env.maxDimension then recurseInsertI env maxE' newSimp child st
        else pure (child, st) : Res (INode W × IStore W))
      let child' := INode.node addr env.curIndex maxE' newSimp .nil r.1
      let t ← recurseInsertI env maxE simp sibling r.2
      pure (.node a index weight sset child' t.1, t.2)
    else do
      let t ← recurseInsertI env maxE simp sibling st
      pure (.node a index weight sset child t.1, t.2)

/-- Complex/indSimplexTree.cpp:419-428: append a root at the right end. -/
def appendRootI (addr i : Nat) : INode W → INode W
  | .nil => .node addr i 0 [i] .nil .nil
  | .node b j w s c sib => .node b j w s c (appendRootI addr i sib)

/-- Complex/indSimplexTree.hpp and the fields of simplexBase it uses. -/
structure ITree (W : Type) where
  /-- `head` and its siblings -/
  roots : INode W
  /-- dimensions, dimCounts, sortedIndex, nodeCount -/
  store : IStore W
  /-- `indexCounter` -/
  indexCounter : Nat
  /-- `isSorted` -/
  isSorted : Bool
  /-- `indexedGraph` -/
  graph : List (List (IEntry W))

/-- Complex/indSimplexTree.cpp:10-17, the constructor; Complex/simplexBase.hpp:82 for `dimCounts`. The
code leaves `head` and `nodeCount` uninitialised; they are taken to be null and 0 here. -/
def ITree.fresh : ITree W := ⟨.nil, ⟨[], [6, 15, 20], [], 0⟩, 0, false, []⟩

/-- Complex/indSimplexTree.cpp:349-438 `insert`. The inserted vector itself is not used by the code. -/
def ITree.insert (maxEpsilon : W) (maxDim : Nat) (dm : List (List W)) (t : ITree W) :
    Res (ITree W) :=
  if dm.length = 0 then pure t
  else
    match t.roots with
    | .nil => do
      let addr := t.store.sidx.length
      let counts ← vmodify t.store.dimCounts 0 (· + 1)
      pure { t with
        roots := .node addr t.indexCounter 0 [t.indexCounter] .nil .nil
        store := ⟨t.store.dims ++ [[((addr, [t.indexCounter]), 0)]], counts,
          t.store.sidx ++ [some t.indexCounter], t.store.nodeCount + 1⟩
        indexCounter := t.indexCounter + 1 }
    | .node a i w s c sib => do
      let env : InsertEnv W := ⟨t.indexCounter, fun i => at2 dm i t.indexCounter, maxEpsilon, maxDim⟩
      let (roots, st) ← recurseInsertI env 0 [t.indexCounter] (.node a i w s c sib) t.store
      let addr := st.sidx.length
      let dims ← vmodify st.dims 0 (· ++ [((addr, [t.indexCounter]), 0)])
      let counts ← vmodify st.dimCounts 0 (· + 1)
      pure { t with
        roots := appendRootI addr t.indexCounter roots
        store := ⟨dims, counts, st.sidx ++ [some t.indexCounter], st.nodeCount + 1⟩
        indexCounter := t.indexCounter + 1 }

/-- Inserting `n` points (Pipes/neighGraphPipe.cpp:24-35). -/
def ITree.insertN (maxEpsilon : W) (maxDim : Nat) (dm : List (List W)) : Nat → ITree W → Res (ITree W)
  | 0, t => pure t
  | n + 1, t => do
    let t ← ITree.insertN maxEpsilon maxDim dm n t
    t.insert maxEpsilon maxDim dm

end

/-- Complex/indSimplexTree.cpp:566-569 `vertexCount`. -/
def ITree.vertexCount {W : Type} (t : ITree W) : Int := t.store.nodeCount

/-- Complex/indSimplexTree.cpp:571-574 `simplexCount`. -/
def ITree.simplexCount {W : Type} (t : ITree W) : Int := t.store.nodeCount

/-- Complex/indSimplexTree.cpp:651-657: `sortedIndex` of the nodes of a sorted layer becomes their
position; `it` is the position of the first entry of the list. -/
def setSorted {W : Type} : List (IEntry W) → Nat → List (Option Nat) → Res (List (Option Nat))
  | [], _, sidx => pure sidx
  | e :: rest, it, sidx => do
    let sidx ← vmodify sidx e.1.1 (fun _ => some it)
    setSorted rest (it + 1) sidx

/-- Complex/indSimplexTree.cpp:612-667 `sortAndBuildGraph`: the points keep their order, the other
layers are sorted by weight. -/
def ITree.sortAndBuildGraph {W : Type} [LinearOrder W] (sort : SortBySecond (Nat × List Nat) W)
    (t : ITree W) : Res (ITree W) :=
  match t.store.dims with
  | [] => .error .oob
  | points :: layers => do
    let layers := layers.map sort.run
    let sidx ← layers.foldlM (fun sidx layer => setSorted layer 0 sidx) t.store.sidx
    pure { t with store := { t.store with sidx := sidx }, graph := points :: layers }

/-- Complex/indSimplexTree.cpp:701-714 `getIndexEdges`: the graph is built on the first call only. -/
def ITree.getIndexEdges {W : Type} [LinearOrder W] (sort : SortBySecond (Nat × List Nat) W)
    (t : ITree W) : Res (List (List (IEntry W)) × ITree W) :=
  if t.store.dims.length = 0 then pure ([], t)
  else if t.isSorted then pure (t.graph, t)
  else do
    let t ← t.sortAndBuildGraph sort
    pure (t.graph, { t with isSorted := true })

/-- Complex/indSimplexTree.cpp:670-697 `getAllEdges`. -/
def ITree.getAllEdges {W : Type} [LinearOrder W] (sort : SortBySecond (Nat × List Nat) W)
    (t : ITree W) : Res (Graph W × ITree W) := do
  let (g, t) ← t.getIndexEdges sort
  pure (g.map (fun layer => layer.map (fun e => (e.1.2, e.2))), t)

/-- Following a pointer: the node at an address, with its links. -/
def INode.deref {W : Type} (x : Nat) : INode W → INode W
  | .nil => .nil
  | .node a i w s c sib =>
    if a = x then .node a i w s c sib
    else match c.deref x with
      | .nil => sib.deref x
      | n => n

/-- Complex/indSimplexTree.cpp:588-596: the search among the siblings for an index. -/
def INode.scan {W : Type} (x : Nat) : INode W → INode W
  | .nil => .nil
  | .node a i w s c sib => if i ≠ x then sib.scan x else .node a i w s c sib

/-- Complex/indSimplexTree.cpp:585-597: the turn for an element that is not the first one. -/
def findStepI {W : Type} (cur : INode W) (x : Nat) : Res (INode W) :=
  match cur with
  | .nil => .error .null
  | .node _ _ _ _ .nil _ => pure cur
  | .node _ _ _ _ c _ => pure (c.scan x)

/-- Complex/indSimplexTree.cpp:576-601 `find`: the field `sortedIndex`, which is unsigned, converted to
the result type `bool`. -/
def ITree.find {W : Type} (t : ITree W) (simplex : List Nat) : Res Bool :=
  match t.store.dims with
  | [] => pure false
  | points :: _ =>
    match simplex with
    | [] => .error .endDeref
    | v :: rest => do
      let e ← vget points v
      let cur ← rest.foldlM findStepI (t.roots.deref e.1.1)
      match cur with
      | .nil => .error .null
      | .node a _ _ _ _ _ => do
        match ← vget t.store.sidx a with
        | none => .error .uninit
        | some k => pure (decide (k ≠ 0))

/-- Complex/simplexBase.hpp:38-78 `getAllSubsets` and `getFaces`: the set of the results of `find`, a
`bool` that is converted to `unsigned`. -/
def ITree.getFaces {W : Type} (t : ITree W) (simplex : List Nat) : Res (List Nat) :=
  (getSubsetsS simplex).foldlM (fun faces z => do
    let b ← t.find z
    pure (setInsert (if b then 1 else 0) faces)) []

/-- Pipes/optPersistencePairs.cpp:378-404: the columns of the boundary matrix, where columns listed in
`pivots` stay empty. `i` is the index of the first simplex of the list. -/
def faceColumns {W : Type} (t : ITree W) : Nat → List Nat → List (IEntry W) → Res (List (List Nat))
  | _, _, [] => pure []
  | i, pivots, e :: rest =>
    if pivots.head? = some i then do
      let cols ← faceColumns t (i + 1) pivots.tail rest
      pure ([] :: cols)
    else do
      let c ← t.getFaces e.1.2
      let cols ← faceColumns t (i + 1) pivots rest
      pure (c :: cols)

/-- Pipes/optPersistencePairs.cpp:555-578: the loop over the dimensions `d, d-1, ..., 1` in the branch
for the indexed tree, with `createBoundarySets` (lines 362-427). -/
def indexPivotLoop {W : Type} (t : ITree W) (ge : List (List (IEntry W))) :
    Nat → Nat → List Nat → List Nat → Res (List Nat)
  | 0, _, _, allPivots => pure allPivots
  | d + 1, pivotOffset, maxFaces, allPivots => do
    let pChain ← vget ge (d + 1)
    let _ ← vget ge d
    let cols ← faceColumns t 0 maxFaces pChain
    let r := optGetRankNullSets cols
    let pivotOffset := pivotOffset - pChain.length
    indexPivotLoop t ge d pivotOffset r.2
      (r.1.foldl (fun s a => setInsert (a + pivotOffset) s) allPivots)

/-- Pipes/optPersistencePairs.cpp:547-578: all pivots, in the branch for the indexed tree. -/
def indexAllPivots {W : Type} [LinearOrder W] (sort : SortBySecond (Nat × List Nat) W) (dim : Nat)
    (t : ITree W) : Res (List Nat) := do
  let (ge, t) ← t.getIndexEdges sort
  indexPivotLoop t ge dim (ge.map List.length).sum [] []

/-- Pipes/optPersistencePairs.cpp:547-705 `runPipe` of a pipe object that has not been run before, in the
branch for the indexed tree: the lines written to `bettiOutput`. -/
def runIndexPersistencePairs {W : Type} [LinearOrder W] (sort : SortBySecond (Nat × List Nat) W)
    (dim : Nat) (maxEpsilon : W) (t : ITree W) : Res (List (Nat × W × W)) := do
  let (ge, _) ← t.getIndexEdges sort
  let allPivots ← indexAllPivots sort dim t
  let flat := ge.flatten.map (fun e => (e.1.2, e.2))
  let ks := flat.map Prod.fst
  let s ← ((List.range flat.length).zip flat).foldlM (pairStep true ks)
    ⟨[], allPivots, allPivots.head?, []⟩
  ((List.range flat.length).zip flat).foldlM (fun lines e => do
    let x ← vget s.t e.1
    if x.marked ∧ x.death.isNone ∧ x.simplex.length ≤ dim then
      pure (lines ++ (match x.birth with
        | some b => [(x.simplex.length - 1, b, maxEpsilon)] | none => []))
    else pure lines) s.lines

end LHF
