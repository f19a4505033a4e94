import Verif.Model.Utils
import Verif.Model.ArrayComplex

/-!
Model of Pipes/fastPersistence.cpp `runPipe`. Simplices are the strictly increasing lists of their
vertices. The printed lines `d,birth,death` are modelled as triples: the decimal rendering of
`std::to_string(double)` is not modelled.
-/

namespace LHF

/-- A printed line `dimension,birth,death`. -/
abbrev Line (W : Type) := Nat × W × W

section
variable {W : Type} [LinearOrder W]

/-! ### Dimension 0 (lines 81-155) -/

/-- Local variables of the loop over the connected sets, Pipes/fastPersistence.cpp:82-85 and 68-69. -/
structure Scan (W : Type) where
  /-- `foundPivot` -/
  found : Bool
  /-- `br` -/
  br : Bool
  /-- `conSetTemp` -/
  conTemp : List (List Nat)
  /-- `tempset` -/
  tempset : List Nat
  /-- `inData.bettiTable` -/
  table : List (BettiEntry W)

/-- Pipes/fastPersistence.cpp:86-118: one connected set. Lines 107-108 call `std::set_union` with
`tempset` both as input and as the target of the inserter; as inserting into a `std::set` does not
disturb its iterators this is modelled as the union. The pushes to `pivots` and `mst` (lines 92-93)
happen at most once per edge, exactly when `found` becomes true, and are done in `kruskalStep`. -/
def scanSet [Zero W] (edge : List Nat × W) (s : Scan W) (cSet : List Nat) : Scan W :=
  let wset := setIntersectS edge.1 cSet
  if !s.found && wset.length == 1 then
    { s with found := true, tempset := stdUnion edge.1 cSet,
             table := s.table ++ [⟨0, 0, edge.2, wset⟩] }
  else if wset.length == 1 then
    { s with tempset := stdUnion edge.1 (stdUnion s.tempset cSet) }
  else if wset.length == 2 then
    { s with conTemp := s.conTemp ++ [cSet], br := true }
  else { s with conTemp := s.conTemp ++ [cSet] }

/-- State of the loop over the edges, Pipes/fastPersistence.cpp:64-71. -/
structure Kruskal (W : Type) where
  /-- `mst` -/
  mst : List W
  /-- `conSet` -/
  conSet : List (List Nat)
  /-- `pivots` -/
  pivots : List Nat
  /-- `pivotIndex` -/
  pivotIndex : Nat
  /-- `inData.bettiTable` -/
  table : List (BettiEntry W)

/-- Pipes/fastPersistence.cpp:81-140: the body of the loop over the edges, without the `break`. -/
def kruskalStep [Zero W] (edge : List Nat × W) (k : Kruskal W) : Kruskal W :=
  let s := k.conSet.foldl (scanSet edge) ⟨false, false, [], [], k.table⟩
  if s.found then
    ⟨k.mst ++ [edge.2], s.conTemp ++ [s.tempset], k.pivots ++ [k.pivotIndex], k.pivotIndex + 1,
      s.table⟩
  else if !s.br then
    ⟨k.mst ++ [edge.2], s.conTemp ++ [edge.1], k.pivots ++ [k.pivotIndex], k.pivotIndex + 1,
      s.table⟩
  else ⟨k.mst, s.conTemp, k.pivots, k.pivotIndex + 1, s.table⟩

/-- Pipes/fastPersistence.cpp:81-140: the loop over the edges; `nverts` is `edges[0].size()`. (After
the `break` neither `conSet` nor `pivotIndex` is read again, so it does not matter that the model
has updated them.) -/
def kruskalLoop [Zero W] (nverts : Nat) : List (List Nat × W) → Kruskal W → Kruskal W
  | [], k => k
  | e :: es, k =>
    let k' := kruskalStep e k
    if k'.mst.length = szPred nverts then k' else kruskalLoop nverts es k'

/-- The state before the loop over the edges. -/
def Kruskal.init (table : List (BettiEntry W)) : Kruskal W := ⟨[], [], [], 0, table⟩

/-! ### Higher dimensions (lines 166-247) -/

/-- What reading through the end iterator of a `std::list` does (line 206). -/
inductive EndRead where
  /-- undefined behaviour, as the C++ standard has it -/
  | undefined
  /-- libstdc++: the end node holds the size of the list, and incrementing past it gives `begin` -/
  | libstdcxx
  /-- the evident intention: there is no further pivot -/
  | noPivot

/-- `*pivotPointer` (line 206): `rest` is the part of `pivots` from the iterator on. -/
def derefPivot (mode : EndRead) (pivots rest : List Nat) : Res (Option Nat) :=
  match rest with
  | p :: _ => pure (some p)
  | [] =>
    match mode with
    | .undefined => .error .endDeref
    | .libstdcxx => pure (some pivots.length)
    | .noPivot => pure none

/-- `pivotPointer++` (line 215). -/
def nextPivot (pivots rest : List Nat) : List Nat :=
  match rest with
  | _ :: rest => rest
  | [] => pivots

/-- Pipes/fastPersistence.cpp:201-220: the loop over the rows, building `cofaceList`. `rest` is the
part of `pivots` from `pivotPointer` on, `idx` is `pivotIndex`. -/
def buildColumn (mode : EndRead) (pivots : List Nat) (col : List Nat) :
    List (List Nat × W) → Nat → List Nat → List Nat → Res (List Nat)
  | [], _, _, coface => pure coface
  | row :: rows, idx, rest, coface => do
    let p ← derefPivot mode pivots rest
    if p ≠ some idx then
      if stdIncludes col row.1 then
        buildColumn mode pivots col rows (idx + 1) rest (setInsert idx coface)
      else buildColumn mode pivots col rows (idx + 1) rest coface
    else buildColumn mode pivots col rows (idx + 1) (nextPivot pivots rest) coface

/-- `v.find(p)` on the `unordered_map` of stored columns. -/
def lookupCol (v : List (Nat × List Nat)) (p : Nat) : Option (List Nat) :=
  (v.find? (fun e => e.1 == p)).map (·.2)

/-- What the `while` loop of lines 224-245 does with a column. -/
inductive ColResult where
  /-- stored under its smallest row index -/
  | stored (p : Nat) (coface : List Nat)
  /-- reduced to nothing (or left by the `break` of line 241) -/
  | dropped
  deriving DecidableEq

/-- Pipes/fastPersistence.cpp:223-245: the `while` loop, cut off after `fuel` iterations (`none`).
That a cut-off never happens with `fuel` above the number of rows is part of C25. -/
def reduceCol (v : List (Nat × List Nat)) : Nat → List Nat → Option ColResult
  | 0, _ => none
  | fuel + 1, coface =>
    match coface with
    | [] => some .dropped
    | p :: _ =>
      match lookupCol v p with
      | none => some (.stored p coface)
      | some c =>
        let old := setXOR c coface
        if old = coface then some .dropped else reduceCol v fuel old

/-- State of the loop over the columns, Pipes/fastPersistence.cpp:173-187. -/
structure Reduction (W : Type) where
  /-- `v` -/
  v : List (Nat × List Nat)
  /-- `nextPivots` -/
  nextPivots : List Nat
  /-- `columnIndex` -/
  columnIndex : Nat
  /-- `bettis` -/
  lines : List (Line W)
  /-- `inData.bettiTable` -/
  table : List (BettiEntry W)

/-- Pipes/fastPersistence.cpp:190-249: one column. `rows` is `edges[d]` and the column is
`edges[d+1][columnIndex]`. -/
def columnStep (mode : EndRead) (d : Nat) (pivots : List Nat) (rows : List (List Nat × W))
    (r : Reduction W) (col : List Nat × W) : Res (Reduction W) := do
  let coface ← buildColumn mode pivots col.1 rows 0 pivots []
  match reduceCol r.v (rows.length + 1) coface with
  | none => .error .exn
  | some .dropped => pure { r with columnIndex := r.columnIndex + 1 }
  | some (.stored p c) => do
    let row ← vget rows p
    if row.2 ≠ col.2 then
      pure ⟨(p, c) :: r.v, r.nextPivots ++ [r.columnIndex], r.columnIndex + 1,
        r.lines ++ [(d, row.2, col.2)], r.table ++ [⟨d, row.2, col.2, c⟩]⟩
    else
      pure ⟨(p, c) :: r.v, r.nextPivots ++ [r.columnIndex], r.columnIndex + 1, r.lines, r.table⟩

/-- Pipes/fastPersistence.cpp:172-253: one dimension. -/
def reduceDim (mode : EndRead) (d : Nat) (pivots : List Nat) (rows cols : List (List Nat × W))
    (lines : List (Line W)) (table : List (BettiEntry W)) : Res (Reduction W) :=
  cols.foldlM (columnStep mode d pivots rows) ⟨[], [], 0, lines, table⟩

/-- Pipes/fastPersistence.cpp:171-254: the loop over the dimensions `d, d+1, ...`, `n` of them. -/
def reduceDims (mode : EndRead) (edges : Graph W) :
    Nat → Nat → List Nat → List (Line W) → List (BettiEntry W) →
    Res (List (Line W) × List (BettiEntry W))
  | 0, _, _, lines, table => pure (lines, table)
  | n + 1, d, pivots, lines, table => do
    let rows ← vget edges d
    let cols ← vget edges (d + 1)
    let r ← reduceDim mode d pivots rows cols lines table
    reduceDims mode edges n (d + 1) r.nextPivots r.lines r.table

/-- Pipes/fastPersistence.cpp:33-276 `runPipe` on the result `edges` of `getAllEdges`: printed lines
and betti table. With no simplices at all the packet is returned as it is (line 43); `output` is the
previous content of `bettiOutput`. The loop of line 171 runs for `1 ≤ d < min dim (edges.size()-1)`.
(`expandDimensions` of line 36 belongs to the complex.) -/
def fastPersistence [Zero W] (mode : EndRead) (dim : Nat) (maxEpsilon : W) (edges : Graph W)
    (output : List (Line W)) (table : List (BettiEntry W)) :
    Res (List (Line W) × List (BettiEntry W)) :=
  if edges.length = 0 then pure (output, table)
  else do
    let verts ← vget edges 0
    let es ← vget edges 1
    let k := kruskalLoop verts.length es (Kruskal.init table)
    let lines := k.mst.map (fun z => (0, 0, z)) ++ [(0, 0, maxEpsilon)]
    let table := k.table ++ [⟨0, 0, maxEpsilon, []⟩]
    if dim > 0 then
      reduceDims mode edges (min dim (edges.length - 1) - 1) 1 k.pivots lines table
    else pure (lines, table)

end
end LHF
