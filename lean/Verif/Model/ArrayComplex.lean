import Verif.Model.DistMatrix
import Mathlib.Algebra.Order.Ring.Defs

/-!
Model of Complex/simplexArrayList.cpp. The state that matters is `weightedGraph`: for each number of
vertices (minus one) the list of simplices (vertex vector, weight). `maxEpsilon`, `maxDimension` and
`distMatrix` are arguments of the operations that read them.
-/

namespace LHF

/-- Complex/simplexBase.hpp `weightedGraph`: `weightedGraph[k]` holds simplices with `k+1` vertices. -/
abbrev Graph (W : Type _) := List (List (List Nat × W))

section Insert
variable {W : Type _} [LinearOrder W] [Zero W]

/-- Complex/simplexArrayList.cpp:59-75: the loop of `insert` over the existing vertices, for the new
vertex `i`. -/
def insertEdges (maxEpsilon : W) (dm : List (List W)) (i : Nat) (g : Graph W) : Res (Graph W) :=
  (List.range i).foldlM (fun g j => do
    let dist ← at2 dm j i
    if dist ≤ maxEpsilon then
      if g.length = 1 then pure (g ++ [[([j, i], dist)]])
      else do
        let edges ← vget g 1
        if ([j, i], dist) ∈ edges then pure g
        else vmodify g 1 (· ++ [([j, i], dist)])
    else pure g) g

/-- Complex/simplexArrayList.cpp:34-82 `insert`. Only the emptiness of the inserted point is used;
the distances come from the matrix. `maxDimension` is a natural number here. -/
def arrayInsert {K : Type _} (maxEpsilon : W) (maxDimension : Nat) (dm : List (List W))
    (point : List K) (g : Graph W) : Res (Graph W) :=
  if point.isEmpty then pure g
  else match g with
    | [] => pure [[([0], 0)]]
    | verts :: rest => do
      let i := verts.length
      let g ← if maxDimension > 0 then insertEdges maxEpsilon dm i (verts :: rest)
        else pure (verts :: rest)
      vmodify g 0 (· ++ [([i], 0)])

/-- Repeated `insert` (Pipes/neighGraphPipe.cpp:24-35 inserts every non-empty row of the data). -/
def arrayInsertAll {K : Type _} (maxEpsilon : W) (maxDimension : Nat) (dm : List (List W))
    (data : List (List K)) (g : Graph W) : Res (Graph W) :=
  data.foldlM (fun g p => if p.isEmpty then pure g else arrayInsert maxEpsilon maxDimension dm p g) g

end Insert

section Query
variable {W : Type _}

/-- Complex/simplexArrayList.cpp:140-153 `find`. The test `size() >= vector.size()` is passed by the
empty vector, for which `vector.size() - 1` wraps and the access is out of range. -/
def arrayFind (g : Graph W) (vector : List Nat) : Res Bool :=
  if g.length ≥ vector.length then do
    let layer ← vget g (szPred vector.length)
    pure (layer.any (fun e => e.1 = vector))
  else pure false

/-- Complex/simplexArrayList.cpp:157-167 `findWeight`: the weight of the first entry with this
vector, or -1. -/
def findWeight [Neg W] [One W] (g : Graph W) (vector : List Nat) : Res W := do
  let layer ← vget g (szPred vector.length)
  match layer.find? (fun e => e.1 = vector) with
  | some e => pure e.2
  | none => pure (-1)

/-- Complex/simplexArrayList.cpp:170-178 `simplexCount`. -/
def arraySimplexCount (g : Graph W) : Nat := g.foldl (fun n layer => n + layer.length) 0

/-- Complex/simplexArrayList.cpp:181-185 `vertexCount`. -/
def arrayVertexCount (g : Graph W) : Res Nat :=
  if g.length = 0 then pure 0 else do
    let layer ← vget g 0
    pure layer.length

/-- Complex/simplexArrayList.cpp:376-387 `deletion`: erases the first entry with this vector. -/
def arrayDeletion (g : Graph W) (vector : List Nat) : Res (Graph W × Bool) := do
  let layer ← vget g (szPred vector.length)
  if layer.any (fun e => e.1 = vector) then do
    let g' ← vmodify g (szPred vector.length) (fun l => l.eraseP (fun e => e.1 = vector))
    pure (g', true)
  else pure (g, false)

/-- Complex/simplexArrayList.cpp:389-397 `clear`. -/
def arrayClear (_ : Graph W) : Graph W := []

/-- Complex/simplexArrayList.cpp:115-136 `getAllEdges`: every non-empty layer with its vertex
vectors turned into sets, sorted by weight. (`epsilon` is not used by the code.) -/
def arrayGetAllEdges [LinearOrder W] (sort : SortBySecond (List Nat) W) (g : Graph W) :
    List (List (List Nat × W)) :=
  g.filterMap (fun layer =>
    let dimGraph := layer.map (fun e => (toSet e.1, e.2))
    if dimGraph.length > 0 then some (sort.run dimGraph) else none)

/-- Complex/simplexArrayList.cpp:95-104: do all pairs of positions have distance `<= epsilon`? (The
`break` only leaves the inner loop, which does not change the answer.) -/
def allPairsWithin [LinearOrder W] (dm : List (List W)) (epsilon : W) (v : List Nat) : Res Bool :=
  (List.range v.length).foldlM (fun ok i =>
    (List.range' (i + 1) (v.length - (i + 1))).foldlM (fun ok j => do
      let a ← vget v i
      let b ← vget v j
      let d ← at2 dm a b
      pure (if d > epsilon then false else ok)) ok) true

/-- Complex/simplexArrayList.cpp:86-112 `getDimEdges` (1-based dimension). -/
def arrayGetDimEdges [LinearOrder W] (dm : List (List W)) (g : Graph W) (dim : Nat) (epsilon : W) :
    Res (List (List Nat)) :=
  if dim = 0 then pure []
  else if g.length < dim then pure []
  else do
    let layer ← vget g (dim - 1)
    layer.foldlM (fun ret e => do
      let ok ← allPairsWithin dm epsilon e.1
      pure (if ok then ret ++ [e.1] else ret)) []

end Query

section Expand
variable {W : Type _} [LinearOrder W] [Ring W]

/-- Complex/simplexArrayList.cpp:250-265: the loop over the facets of the common part `m`, with
`break`. `simp` is the symmetric difference. The state is `(totalVector, maxWeight)`; `none` means
`create == false`. -/
def faceLoop (g : Graph W) (simp : List Nat) :
    List (List Nat) → List Nat → W → Res (Option (List Nat × W))
  | [], total, maxWeight => pure (some (total, maxWeight))
  | z :: zs, total, maxWeight => do
    let searchVector := simp ++ z
    let total := setUnion total searchVector true
    let wt ← findWeight g searchVector
    if wt < 0 then pure none
    else faceLoop g simp zs total (if wt > maxWeight then wt else maxWeight)

/-- Complex/simplexArrayList.cpp:217-266: the simplex proposed by the two entries `a`, `b`
of the same layer, if any. -/
def candidate (g : Graph W) (a b : List Nat × W) : Res (Option (List Nat × W)) :=
  let simp := symmetricDiffV a.1 b.1 true
  let maxWeight := if a.2 > b.2 then a.2 else b.2
  if simp.length = 2 then
    let m := setIntersectV a.1 b.1 true
    if m.length = 1 then do
      let searchVector := stdSort simp
      let total := stdSort (searchVector ++ m)
      let wt ← findWeight g searchVector
      if wt < 0 then pure none
      else pure (some (total, if wt > maxWeight then wt else maxWeight))
    else if m.length > 1 then faceLoop g simp (getSubsetsV m) simp maxWeight
    else pure (some (simp, maxWeight))
  else pure none

/-- Complex/simplexArrayList.cpp:268-277: store a new simplex in layer `d`. -/
def storeSimplex (d : Nat) (e : List Nat × W) (g : Graph W) : Res (Graph W) :=
  if g.length = d then pure (g ++ [[e]])
  else do
    let layer ← vget g d
    if e ∈ layer then pure g else vmodify g d (· ++ [e])

/-- Complex/simplexArrayList.cpp:217-278: the body of the double loop. -/
def expandPair (d j t : Nat) (g : Graph W) : Res (Graph W) := do
  let layer ← vget g (d - 1)
  let a ← vget layer j
  let b ← vget layer t
  let c ← candidate g a b
  match c with
  | none => pure g
  | some e => storeSimplex d e g

/-- Complex/simplexArrayList.cpp:211-280: the double loop over layer `d-1`. That layer is not changed
by the loop, so its length is read once. -/
def expandDim (d : Nat) (g : Graph W) : Res (Graph W) := do
  let layer ← vget g (d - 1)
  let n := layer.length
  (List.range n).foldlM (fun g j =>
    (List.range' (j + 1) (n - (j + 1))).foldlM (fun g t => expandPair d j t g) g) g

/-- Complex/simplexArrayList.cpp:201-281: the loop over dimensions, with its `break`. -/
def expandLoop : List Nat → Graph W → Res (Graph W)
  | [], g => pure g
  | d :: ds, g =>
    if g.length < d then pure g
    else do
      let g ← expandDim d g
      expandLoop ds g

/-- Complex/simplexArrayList.cpp:196-289 `expandDimensions(dim)` for `dim >= 0`. The final sorting
loop (284-286) works on copies of the layers and has no effect. -/
def expandDimensions (dim : Nat) (g : Graph W) : Res (Graph W) :=
  expandLoop (List.range' 2 (dim - 1)) g

end Expand

end LHF
