import Verif.Model.ArrayComplex

/-!
Model of Complex/simplexTree.cpp. The pointer structure reachable from `head` is a first-child /
next-sibling tree: the code uses the field `parent` for the first child (line 53 "remember parent ==
child for incremental") and never sets `child` while inserting. Nodes are never shared, so the
structure is modelled by an inductive type with value semantics.
-/

namespace LHF

/-- Complex/simplexTree.hpp:18-25 `treeNode`: `node index weight firstChild sibling`. The field
`simplex` is only read by `reduceComplex` and is left out. -/
inductive Sib (W : Type) where
  | nil : Sib W
  | node (index : Nat) (weight : W) (firstChild sibling : Sib W) : Sib W

/-- Complex/simplexTree.cpp:51-58: append to the layer of the simplex, creating the layer if it is
the next one. -/
def pushWEG {W : Type} (weg : Graph W) (e : List Nat × W) : Res (Graph W) :=
  if weg.length < e.1.length then pure (weg ++ [[e]])
  else vmodify weg (szPred e.1.length) (· ++ [e])

section
variable {W : Type} [LinearOrder W] [Zero W]

/-- What `recurseInsert` reads from the object (Complex/simplexTree.cpp:20-79): the new vertex
`curIndex` (= `indexCounter`), the distance of a node to it, `maxEpsilon`, `maxDimension`. -/
structure InsertEnv (W : Type) where
  /-- `indexCounter` -/
  curIndex : Nat
  /-- lines 28-34, see `nodeDist` -/
  dist : Nat → Res W
  /-- `maxEpsilon` -/
  maxEpsilon : W
  /-- `maxDimension` -/
  maxDimension : Nat

/-- Complex/simplexTree.cpp:28-34: the matrix entry used for a node, with the offset branch taken
after `clear`. `rviSize` is `runningVectorIndices.size()`, `rvc` is `runningVectorCount`. -/
def nodeDist (dm : List (List W)) (rviSize rvc indexCounter nodeIndex : Nat) : Res W :=
  if rviSize < rvc + 1 then
    let offset := rvc + 1 - rviSize
    if nodeIndex < offset ∨ indexCounter < offset then .error .oob
    else at2 dm (nodeIndex - offset) (indexCounter - offset)
  else at2 dm nodeIndex indexCounter

/-- Complex/simplexTree.cpp:20-79 `recurseInsert`, together with the `do ... while` loop over the
siblings that calls it (lines 70-72 and 321-323). The state is `weightEdgeGraph` and `nodeCount`.
The first argument list is `maxE` and `simp` of the call. The new node is put in front of the old
children; the test `node->parent == nullptr` (no children) only avoids an empty loop, so it needs no
case of its own. -/
def recurseInsert (env : InsertEnv W) (maxE : W) (simp : List Nat) :
    Sib W → Graph W × Int → Res (Sib W × (Graph W × Int))
  | .nil, st => pure (.nil, st)
  | .node index weight child sibling, st => do
    let d ← env.dist index
    let curE := if d > maxE then d else maxE
    if curE < env.maxEpsilon then do
      let simp' := setInsert index simp
      let maxE' := if curE > weight then curE else weight
      let weg ← pushWEG st.1 (simp', maxE')
      let st := (weg, st.2 + 1)
      let r ← (if simp'.length ≤ env.maxDimension then recurseInsert env maxE' simp' child st
        else pure (child, st) : Res (Sib W × (Graph W × Int)))
      let child' := Sib.node env.curIndex maxE' .nil r.1
      let t ← recurseInsert env maxE simp sibling r.2
      pure (.node index weight child' t.1, t.2)
    else do
      let t ← recurseInsert env maxE simp sibling st
      pure (.node index weight child t.1, t.2)

/-- Complex/simplexTree.cpp:326-333: append a root at the right end. -/
def appendRoot (i : Nat) : Sib W → Sib W
  | .nil => .node i 0 .nil .nil
  | .node j w c s => .node j w c (appendRoot i s)

/-- Complex/simplexTree.hpp and the fields of simplexBase it uses. `head == nullptr` is
`roots = .nil`; `dimensions[0]` is always `head`. -/
structure Tree (W : Type) where
  /-- `head` and its siblings -/
  roots : Sib W
  /-- `weightEdgeGraph` -/
  weg : Graph W
  /-- `nodeCount` -/
  nodeCount : Int
  /-- `indexCounter` -/
  indexCounter : Nat
  /-- `runningVectorIndices.size()` (its contents are never read) -/
  rviSize : Nat
  /-- `runningVectorCount` -/
  rvc : Nat
  /-- `isSorted` -/
  isSorted : Bool

/-- Complex/simplexTree.cpp:8-15, the constructor. The code leaves `head` and `nodeCount`
uninitialised; they are taken to be null and 0 here. -/
def Tree.fresh : Tree W := ⟨.nil, [], 0, 0, 0, 0, false⟩

/-- Complex/simplexTree.cpp:273-347 `insert`. The inserted vector itself is not used by the code. -/
def Tree.insert (maxEpsilon : W) (maxDimension : Nat) (dm : List (List W)) (t : Tree W) :
    Res (Tree W) :=
  if dm.length = 0 then pure t
  else
    let rviSize := t.rviSize + 1
    match t.roots with
    | .nil => pure { t with
        roots := .node t.indexCounter 0 .nil .nil
        weg := t.weg ++ [[([t.indexCounter], 0)]]
        nodeCount := t.nodeCount + 1
        indexCounter := t.indexCounter + 1
        rviSize := rviSize
        rvc := t.rvc + 1 }
    | .node i w c s => do
      let env : InsertEnv W := ⟨t.indexCounter, nodeDist dm rviSize t.rvc t.indexCounter,
        maxEpsilon, maxDimension⟩
      let (roots, weg, nodeCount) ←
        recurseInsert env 0 [t.indexCounter] (.node i w c s) (t.weg, t.nodeCount)
      let weg ← vmodify weg 0 (· ++ [([t.indexCounter], 0)])
      pure { t with
        roots := appendRoot t.indexCounter roots
        weg := weg
        nodeCount := nodeCount + 1
        indexCounter := t.indexCounter + 1
        rviSize := rviSize
        rvc := t.rvc + 1 }

/-- Inserting `n` points (Pipes/neighGraphPipe.cpp:24-35). -/
def Tree.insertN (maxEpsilon : W) (maxDimension : Nat) (dm : List (List W)) :
    Nat → Tree W → Res (Tree W)
  | 0, t => pure t
  | n + 1, t => do
    let t ← Tree.insertN maxEpsilon maxDimension dm n t
    t.insert maxEpsilon maxDimension dm

/-- Complex/simplexTree.cpp:350-355 `vertexCount`. -/
def Tree.vertexCount (t : Tree W) : Nat := if t.rviSize < t.rvc + 1 then t.rviSize else t.indexCounter

/-- Complex/simplexTree.cpp:357-360 `simplexCount`. -/
def Tree.simplexCount (t : Tree W) : Int := t.nodeCount

/-- Complex/simplexTree.cpp:368-377 `getAllEdges`: sorts the layers in place on the first call only.
Returns the layers and the object afterwards. -/
def Tree.getAllEdges (sort : SortBySecond (List Nat) W) (t : Tree W) :
    Graph W × Tree W :=
  if t.isSorted then (t.weg, t)
  else
    let weg := t.weg.map sort.run
    (weg, { t with weg := weg, isSorted := true })

/-- Complex/simplexTree.cpp:470-482 `getDimEdges` (0-based; the distance argument is ignored). -/
def Tree.getDimEdges (t : Tree W) (d : Nat) : Res (List (List Nat)) :=
  if t.weg.length ≥ d then do
    let layer ← vget t.weg d
    pure (layer.map (·.1))
  else pure []

/-- Number of siblings of a node, itself included. -/
def Sib.count : Sib W → Nat
  | .nil => 0
  | .node _ _ _ s => s.count + 1

/-- Complex/simplexTree.cpp:514-548 `deletion(node)` as called by `clear`: since `child` is never
set, it deletes the node and, recursively, its siblings. Line 546 writes to the node that line 544
deleted. `strict` makes that write an error; otherwise it is taken to have no effect. The result is
the number of deleted nodes. -/
def deletionNode (strict : Bool) : Sib W → Res Nat
  | .nil => .error .null
  | .node _ _ _ .nil => if strict then .error .freed else pure 1
  | .node _ _ _ (.node i w c s) => do
    let k ← deletionNode strict (.node i w c s)
    if strict then .error .freed else pure (k + 1)

/-- Complex/simplexTree.cpp:564-582 `clear`. -/
def Tree.clear (strict : Bool) (t : Tree W) : Res (Tree W) := do
  let k ← deletionNode strict t.roots
  pure { t with roots := .nil, weg := [], nodeCount := t.nodeCount - k, rviSize := 0 }

end

end LHF
