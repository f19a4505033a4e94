import Verif.Model.Basic
import Mathlib.Analysis.Real.Sqrt

/-!
Model of Utils/utils.cpp.
-/

namespace LHF

/-! ### Set algebra on vertex indices -/

/-- Utils/utils.cpp:155-166 `setXOR`. -/
def setXOR (a b : List Nat) : List Nat := stdSymDiff a b

/-- Utils/utils.cpp:181-209 `setIntersect` on vectors: equal arguments are returned as they are. -/
def setIntersectV (v1 v2 : List Nat) (isSorted : Bool) : List Nat :=
  if v1 = v2 then v1
  else if isSorted then stdInter v1 v2
  else stdInter (stdSort v1) (stdSort v2)

/-- Utils/utils.cpp:211-239 `setIntersect` on sets; `isSorted` is not used by the code. -/
def setIntersectS (v1 v2 : List Nat) : List Nat :=
  if v1 = v2 then v1 else stdInter v1 v2

/-- Utils/utils.cpp:244-283 `intersect`: (symmetric difference, union) if the symmetric difference
has two elements, otherwise two empty vectors. -/
def intersect (v1 v2 : List Nat) (isSorted : Bool) : List Nat × List Nat :=
  if v1 = v2 then ([], [])
  else
    let w1 := if isSorted then v1 else stdSort v1
    let w2 := if isSorted then v2 else stdSort v2
    let sd := stdSymDiff w1 w2
    let un := stdUnion w1 w2
    if sd.length = 2 then (sd, un) else ([], [])

/-- Utils/utils.cpp:286-313 `symmetricDiff` on vectors. -/
def symmetricDiffV (v1 v2 : List Nat) (isSorted : Bool) : List Nat :=
  if v1 = v2 then []
  else if isSorted then stdSymDiff v1 v2
  else stdSymDiff (stdSort v1) (stdSort v2)

/-- Utils/utils.cpp:316-343 `symmetricDiff` on sets. -/
def symmetricDiffS (v1 v2 : List Nat) : List Nat :=
  if v1 = v2 then [] else stdSymDiff v1 v2

/-- Utils/utils.cpp:377-404 `setUnion`: for equal arguments the *empty* vector is returned. -/
def setUnion (v1 v2 : List Nat) (isSorted : Bool) : List Nat :=
  if v1 = v2 then []
  else if isSorted then stdUnion v1 v2
  else stdUnion (stdSort v1) (stdSort v2)

/-! ### Subsets -/

/-- Utils/utils.cpp:351-365 / 449-463: the doubling loop building all subsets of a `std::set`. -/
def allSubsetsS (s : List Nat) : List (List Nat) :=
  s.foldl (fun subset entry => subset ++ subset.map (setInsert entry)) [[]]

/-- Utils/utils.cpp:480-494: the doubling loop for vectors (`push_back`). -/
def allSubsetsV (s : List Nat) : List (List Nat) :=
  s.foldl (fun subset entry => subset ++ subset.map (· ++ [entry])) [[]]

/-- Utils/utils.cpp:346-374 `getSubsets(set, dim)`: the subsets with `dim` elements (the comparison
of `size_t` with a negative `int` never holds for sets that fit in memory). -/
def getSubsetsDim (s : List Nat) (dim : Int) : List (List Nat) :=
  (allSubsetsS s).filter (fun z => (z.length : Int) = dim)

/-- Utils/utils.cpp:444-472 `getSubsets(set)`: subsets with `set.size() - 1` elements. -/
def getSubsetsS (s : List Nat) : List (List Nat) :=
  (allSubsetsS s).filter (fun z => z.length = szPred s.length)

/-- Utils/utils.cpp:475-503 `getSubsets(vector)`. -/
def getSubsetsV (s : List Nat) : List (List Nat) :=
  (allSubsetsV s).filter (fun z => z.length = szPred s.length)

/-! ### Distances -/

/-- The `std::transform(a.begin(), a.end(), b.begin(), ...)` of Utils/utils.cpp:174: it reads one
element of `b` per element of `a`, so it runs out of range when `b` is shorter. -/
def sqDiffs {K : Type _} [Ring K] : List K → List K → Res (List K)
  | [], _ => .ok []
  | _ :: _, [] => .error .oob
  | x :: xs, y :: ys =>
    match sqDiffs xs ys with
    | .ok t => .ok ((x - y) ^ 2 :: t)
    | .error e => .error e

/-- The value under the square root in Utils/utils.cpp:168-179: 0 if `b` is empty, otherwise the sum
of the squared differences. -/
def sqDistance {K : Type _} [Ring K] (a b : List K) : Res K :=
  if b.length = 0 then .ok 0
  else match sqDiffs a b with
    | .ok t => .ok (t.foldl (· + ·) 0)
    | .error e => .error e

/-- Utils/utils.cpp:168-179 `vectors_distance` on vectors, over the reals. -/
noncomputable def vectorsDistance (a b : List ℝ) : Res ℝ :=
  match sqDistance a b with
  | .ok s => .ok (Real.sqrt s)
  | .error e => .error e

/-- Utils/utils.cpp:151-153 `vectors_distance` on scalars: the *squared* difference. -/
def scalarDistance {K : Type _} [Ring K] (a b : K) : K := (a - b) ^ 2

/-- Utils/utils.cpp:506-518 `nearestNeighbors`: the list of distances to all points. -/
def nearestNeighbors {P W : Type _} (dist : P → P → Res W) (point : P) (cloud : List P) :
    Res (List W) :=
  cloud.mapM (dist point)

/-! ### Partitions. The distance is a parameter (`vectorsDistance` in the code). -/

/-- Utils/utils.cpp:20-31 `computeMaxRadius`. -/
def computeMaxRadius {P W : Type _} [LinearOrder W] [Zero W] (dist : P → P → Res W)
    (centroids data : List P) (labels : List Nat) : Res W :=
  (List.range labels.length).foldlM (fun maxRadius i => do
    let li ← vget labels i
    let p ← vget data i
    let c ← vget centroids li
    let curRadius ← dist p c
    pure (if curRadius > maxRadius then curRadius else maxRadius)) 0

/-- Utils/utils.cpp:33-45 `separatePartitions(k, originalData, labels)`. -/
def separateByLabel {P : Type _} (k : Nat) (data : List P) (labels : List Nat) :
    Res (List (List Nat) × List (List P)) :=
  (List.range labels.length).foldlM (fun st i => do
    let li ← vget labels i
    let p ← vget data i
    let res ← vmodify st.2 li (· ++ [p])
    let labres ← vmodify st.1 li (· ++ [i])
    pure (labres, res)) (List.replicate k [], List.replicate k [])

/-- Utils/utils.cpp:47-67 `separatePartitions(rad, centroids, originalData, labels)`. -/
def separateByRadius {P W : Type _} [LinearOrder W] (dist : P → P → Res W) (rad : W)
    (centroids data : List P) (labels : List Nat) : Res (List (List Nat) × List (List P)) :=
  (List.range labels.length).foldlM (fun st i =>
    (List.range centroids.length).foldlM (fun st j => do
      let p ← vget data i
      let c ← vget centroids j
      let curRad ← dist p c
      if curRad < rad then do
        let res ← vmodify st.2 j (· ++ [p])
        let labres ← vmodify st.1 j (· ++ [i])
        pure (labres, res)
      else pure st) st)
    (List.replicate centroids.length [], List.replicate centroids.length [])

/-- Utils/utils.cpp:69-83 `separateBoundaryPartitions`; the boundary lists are sets, `find` is
membership. -/
def separateBoundary {P : Type _} (boundaryLists : List (List Nat)) (data : List P)
    (labels : List Nat) : Res (List (List P)) :=
  (List.range data.length).foldlM (fun res i =>
    (List.range boundaryLists.length).foldlM (fun res j => do
      let bl ← vget boundaryLists j
      let li ← vget labels i
      if li ∈ bl then do
        let p ← vget data i
        vmodify res j (· ++ [p])
      else pure res) res)
    (List.replicate boundaryLists.length [])

/-- Utils/utils.hpp:11-16 `bettiBoundaryTableEntry`: dimension, birth, death, boundary points (a set). -/
structure BettiEntry (W : Type _) where
  /-- `bettiDim` -/
  dim : Nat
  /-- `birth` -/
  birth : W
  /-- `death` -/
  death : W
  /-- `boundaryPoints` -/
  boundary : List Nat
  deriving DecidableEq, Repr

/-- Utils/utils.cpp:90-96: the conversion of one entry of the table. -/
def convertEntry {W : Type _} (labels : List Nat) (bet : BettiEntry W) : Res (BettiEntry W) := do
  let convBound ← bet.boundary.foldlM (fun conv ind => do
    let l ← vget labels ind
    pure (setInsert l conv)) []
  pure { bet with boundary := convBound }

/-- Utils/utils.cpp:85-100 `mapPartitionIndexing`: the loop variable `bet` is a copy of the entry,
so the converted entry is dropped at the end of each iteration; the table that the caller sees is
the one passed in. -/
def mapPartitionIndexing {W : Type _} (labels : List Nat) (table : List (BettiEntry W)) :
    Res (List (BettiEntry W)) :=
  table.foldlM (fun seen bet => do
    let _bet ← convertEntry labels bet
    pure seen) table

end LHF
