import Verif.Model.TreeComplex
import Verif.Model.Windows

/-!
Model of Complex/simplexTree.cpp at the level of pointers: nodes are cells of a heap, `new` appends a cell,
`delete` marks it as freed, and every `->` is a read or write of a cell. `Model/TreeComplex` is the same code
with an inductive type in place of the pointers; Props/TreeHeap.lean proves that the two agree.
-/

namespace LHF

/-- Complex/simplexTree.hpp:18-25 `treeNode`. A pointer is `none` (null) or the number of a cell. -/
structure HNode (W : Type) where
  /-- index -/
  index : Nat
  /-- simplex -/
  simplex : List Nat
  /-- weight -/
  weight : W
  /-- child -/
  child : Option Nat
  /-- sibling -/
  sibling : Option Nat
  /-- parent -/
  parent : Option Nat

/-- The heap; `none` is a cell that was freed. Not in /repo: the memory of the C++ program. -/
abbrev Heap (W : Type) := List (Option (HNode W))

section
variable {W : Type}

/-- Reading through a pointer. -/
def hload (h : Heap W) : Option Nat → Res (HNode W)
  | none => .error .null
  | some a => match h[a]? with
    | some (some n) => pure n
    | some none => .error .freed
    | none => .error .oob

/-- Writing a field through a pointer. -/
def hstore (h : Heap W) (p : Option Nat) (f : HNode W → HNode W) : Res (Heap W) := do
  let n ← hload h p
  match p with
  | none => .error .null
  | some a => pure (h.set a (some (f n)))

/-- `new treeNode`: the address and the heap afterwards. -/
def hnew (h : Heap W) (n : HNode W) : Nat × Heap W := (h.length, h ++ [some n])

/-- `delete p`: nothing for null, an error for a cell that was freed before. -/
def hfree (h : Heap W) : Option Nat → Res (Heap W)
  | none => pure h
  | some a => match h[a]? with
    | some (some _) => pure (h.set a none)
    | some none => .error .freed
    | none => .error .oob

/-- The heap with `weightEdgeGraph` and `nodeCount`. -/
structure HState (W : Type) where
  /-- heap -/
  heap : Heap W
  /-- weightEdgeGraph -/
  weg : Graph W
  /-- nodeCount -/
  count : Int

variable [LinearOrder W] [Zero W]

/-- Complex/simplexTree.cpp:20-79 `recurseInsert(temp, ...)` for `temp` = `p` and all siblings after it: the
loops at lines 70-72 and 321-323. `fuel` bounds the number of nested calls and turns; without fuel the
outcome is `exn`, which the code never has here. -/
def hInsertLoop (env : InsertEnv W) : Nat → Option Nat → W → List Nat → HState W → Res (HState W)
  | 0, _, _, _, _ => .error .exn
  | fuel + 1, p, maxE, simp, st => do
    let node ← hload st.heap p
    let d ← env.dist node.index
    let curE := if d > maxE then d else maxE
    let st ← (if curE < env.maxEpsilon then do
        let simp' := setInsert node.index simp
        let maxE' := if curE > node.weight then curE else node.weight
        let new := hnew st.heap ⟨env.curIndex, setInsert env.curIndex simp, maxE', none, none, none⟩
        let weg ← pushWEG st.weg (simp', maxE')
        match node.parent with
        | none => do
          let heap ← hstore new.2 p (fun n => { n with parent := some new.1 })
          pure ⟨heap, weg, st.count + 1⟩
        | some c => do
          let heap ← hstore new.2 (some new.1) (fun n => { n with sibling := some c })
          let heap ← hstore heap p (fun n => { n with parent := some new.1 })
          let ins ← hload heap (some new.1)
          if simp'.length ≤ env.maxDimension then
            hInsertLoop env fuel ins.sibling maxE' simp' ⟨heap, weg, st.count + 1⟩
          else pure ⟨heap, weg, st.count + 1⟩
      else pure st : Res (HState W))
    let node ← hload st.heap p
    match node.sibling with
    | none => pure st
    | some q => hInsertLoop env fuel (some q) maxE simp st

/-- Complex/simplexTree.cpp:328: the last sibling. -/
def hLast (h : Heap W) : Nat → Option Nat → Res (Option Nat)
  | 0, _ => .error .exn
  | fuel + 1, p => do
    let node ← hload h p
    match node.sibling with
    | none => pure p
    | some q => hLast h fuel (some q)

/-- Complex/simplexTree.hpp and the fields of simplexBase it uses, with pointers. -/
structure HTree (W : Type) where
  /-- the memory -/
  heap : Heap W
  /-- head -/
  head : Option Nat
  /-- dimensions -/
  dimensions : List (Option Nat)
  /-- weightEdgeGraph -/
  weg : Graph W
  /-- nodeCount -/
  nodeCount : Int
  /-- indexCounter -/
  indexCounter : Nat
  /-- runningVectorIndices.size() -/
  rviSize : Nat
  /-- runningVectorCount -/
  rvc : Nat
  /-- isSorted -/
  isSorted : Bool

/-- Complex/simplexTree.cpp:8-15, the constructor, in a memory without other nodes. `head` and `nodeCount` are
taken to be null and 0 (they are not initialised). -/
def HTree.fresh : HTree W := ⟨[], none, [], [], 0, 0, 0, 0, false⟩

/-- Complex/simplexTree.cpp:273-347 `insert`. Line 281 allocates a node that is used only if the tree is
empty; line 327 allocates another one. -/
def HTree.insert (fuel : Nat) (maxEpsilon : W) (maxDimension : Nat) (dm : List (List W)) (t : HTree W) :
    Res (HTree W) :=
  if dm.length = 0 then pure t
  else
    let cur := hnew t.heap ⟨t.indexCounter, [], 0, none, none, none⟩
    let rviSize := t.rviSize + 1
    match t.head with
    | none => pure { t with
        heap := cur.2
        head := some cur.1
        dimensions := t.dimensions ++ [some cur.1]
        weg := t.weg ++ [[([t.indexCounter], 0)]]
        nodeCount := t.nodeCount + 1
        indexCounter := t.indexCounter + 1
        rviSize := rviSize
        rvc := t.rvc + 1 }
    | some _ => do
      let env : InsertEnv W := ⟨t.indexCounter, nodeDist dm rviSize t.rvc t.indexCounter,
        maxEpsilon, maxDimension⟩
      let temp ← vget t.dimensions 0
      let st ← hInsertLoop env fuel temp 0 [t.indexCounter] ⟨cur.2, t.weg, t.nodeCount⟩
      let temp ← vget t.dimensions 0
      let ins := hnew st.heap ⟨t.indexCounter, [], 0, none, none, none⟩
      let last ← hLast ins.2 fuel temp
      let heap ← hstore ins.2 last (fun n => { n with sibling := some ins.1 })
      let weg ← vmodify st.weg 0 (· ++ [([t.indexCounter], 0)])
      pure { t with
        heap := heap
        weg := weg
        nodeCount := st.count + 1
        indexCounter := t.indexCounter + 1
        rviSize := rviSize
        rvc := t.rvc + 1 }

/-- Inserting `n` points (Pipes/neighGraphPipe.cpp:24-35). -/
def HTree.insertN (fuel : Nat) (maxEpsilon : W) (maxDimension : Nat) (dm : List (List W)) :
    Nat → HTree W → Res (HTree W)
  | 0, t => pure t
  | n + 1, t => do
    let t ← HTree.insertN fuel maxEpsilon maxDimension dm n t
    t.insert fuel maxEpsilon maxDimension dm

/-- Complex/simplexTree.cpp:519-523: down the first children, setting `parent` on the way. -/
def hDescend : Nat → Heap W → Option Nat → Res (Heap W × Option Nat)
  | 0, _, _ => .error .exn
  | fuel + 1, h, cur => do
    let n ← hload h cur
    match n.child with
    | none => pure (h, cur)
    | some c => do
      let h ← hstore h (some c) (fun m => { m with parent := cur })
      hDescend fuel h (some c)

mutual

/-- Complex/simplexTree.cpp:515-548 `deletion(treeNode*)`. The state is the heap and `nodeCount`. Line 546
writes to the node that line 544 deleted: an error with `strict`, no effect otherwise. -/
def hDeletion (strict : Bool) : Nat → Option Nat → Heap W × Int → Res (Heap W × Int)
  | 0, _, _ => .error .exn
  | fuel + 1, entry, st => do
    let d ← hDescend fuel st.1 entry
    let n ← hload d.1 d.2
    let st ← (match n.sibling with
      | none => pure (d.1, st.2)
      | some s => hDeletion strict fuel (some s) (d.1, st.2) : Res (Heap W × Int))
    let st ← hClimb strict fuel entry d.2 st
    let h ← hfree st.1 entry
    if strict then .error .freed else pure (h, st.2 - 1)

/-- Complex/simplexTree.cpp:530-541: the way back up. -/
def hClimb (strict : Bool) : Nat → Option Nat → Option Nat → Heap W × Int → Res (Heap W × Int)
  | 0, _, _, _ => .error .exn
  | fuel + 1, entry, cur, st =>
    if cur = entry then pure st
    else do
      let m ← hload st.1 cur
      let cur := m.parent
      let n ← hload st.1 cur
      let st ← (match n.sibling with
        | none => pure st
        | some s => hDeletion strict fuel (some s) st : Res (Heap W × Int))
      let n ← hload st.1 cur
      let h ← hfree st.1 n.child
      let h ← hstore h cur (fun n => { n with child := none })
      hClimb strict fuel entry cur (h, st.2)

end

/-- Complex/simplexTree.cpp:564-582 `clear`. -/
def HTree.clear (strict : Bool) (fuel : Nat) (t : HTree W) : Res (HTree W) := do
  let st ← hDeletion strict fuel t.head (t.heap, t.nodeCount)
  pure { t with heap := st.1, head := none, dimensions := [], weg := [], nodeCount := st.2, rviSize := 0 }

/-- Complex/simplexTree.cpp:232-268 `deleteIndexRecurse`. -/
def hDeleteIndex (strict : Bool) (key : Nat) : Nat → Option Nat → HTree W → Res (HTree W)
  | 0, _, _ => .error .exn
  | _ + 1, none, t => pure t
  | fuel + 1, some a, t => do
    let cur ← hload t.heap (some a)
    let t ← (match cur.sibling with
      | none => pure t
      | some s => do
        let sib ← hload t.heap (some s)
        if sib.index = key then do
          let h ← hstore t.heap (some a) (fun n => { n with sibling := sib.sibling })
          hDeleteIndex strict key fuel sib.sibling { t with heap := h }
        else hDeleteIndex strict key fuel (some s) t : Res (HTree W))
    let cur ← hload t.heap (some a)
    if cur.index = key then do
      let t ← (if some a = t.head then do
          let dims ← vmodify t.dimensions 0 (fun _ => cur.sibling)
          pure { t with head := cur.sibling, dimensions := dims }
        else pure t : Res (HTree W))
      let st ← hDeletion strict fuel (some a) (t.heap, t.nodeCount)
      pure { t with heap := st.1, nodeCount := st.2 }
    else
      match cur.child with
      | none => pure t
      | some c => do
        let ch ← hload t.heap (some c)
        if ch.index = key then do
          let h ← hstore t.heap (some a) (fun n => { n with child := ch.sibling })
          let st ← hDeletion strict fuel (some c) (h, t.nodeCount)
          pure { t with heap := st.1, nodeCount := st.2 }
        else hDeleteIndex strict key fuel (some c) t

/-- Complex/simplexTree.cpp:213-229 `deleteIterative(key, index)`: the loop over the rows erases in copies
only. Returns the distance matrix and the tree. -/
def HTree.deleteIterative (strict : Bool) (fuel : Nat) (key index : Nat) (dm : List (List W)) (t : HTree W) :
    Res (List (List W) × HTree W) := do
  let dm ← verase dm index
  dm.forM (fun z => do
    if z.length ≥ index then do
      let _ ← verase z index
      pure ()
    else pure ())
  let t ← hDeleteIndex strict key fuel t.head t
  pure (dm, t)

end

end LHF
