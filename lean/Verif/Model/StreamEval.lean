import Verif.Model.Utils
import Verif.Model.KdTree

/-!
Model of the stream evaluator of Complex/simplexBase.cpp, of `insertIterative`
(Complex/simplexBase.cpp:99-102, Complex/simplexTree.cpp:193-210), of Preprocessing/streamingUtils.cpp and
of the remaining queries of Preprocessing/kdTree.cpp, over the reals.
-/

namespace LHF

/-! ### The stream evaluator -/

/-- `std::accumulate(l.begin(), l.end(), 0.0)` (Complex/simplexBase.cpp:162, 180). -/
noncomputable def accumulate (l : List ℝ) : ℝ := l.foldl (· + ·) 0

/-- `std::inner_product(l.begin(), l.end(), l.begin(), 0.0)` (Complex/simplexBase.cpp:167, 185). -/
noncomputable def innerProduct (l : List ℝ) : ℝ := (l.zip l).foldl (fun a p => a + p.1 * p.2) 0

/-- Complex/simplexBase.cpp:162-163 and 180-181: `mean`. (Dividing by zero gives 0 here and NaN in the
code; the theorems only use it for lists that are not empty.) -/
noncomputable def meanOf (l : List ℝ) : ℝ := accumulate l / l.length

/-- Complex/simplexBase.cpp:165-168 and 183-186: `stdev`. -/
noncomputable def stdevOf (l : List ℝ) : ℝ :=
  let mean := meanOf l
  let diff := l.map (fun x => x - mean)
  Real.sqrt (innerProduct diff / l.length)

/-- One line of `stats` (Complex/simplexBase.cpp:170, 188, 192, 195); the decimal rendering is left out. -/
structure EvalLine where
  /-- `runningVectorCount` -/
  count : Nat
  /-- `mean` -/
  mean : ℝ
  /-- `stdev` -/
  stdev : ℝ
  /-- `k` -/
  k : Nat
  /-- `mean_NN` -/
  meanNN : ℝ
  /-- `stdev_NN` -/
  stdevNN : ℝ
  /-- `Accept` or `Reject` -/
  accept : Bool

/-- Complex/simplexBase.cpp:177-179: the first `k` entries of the sorted distances, read one by one. -/
def firstEntries (reps : List ℝ) : Nat → Res (List ℝ)
  | 0 => pure []
  | k + 1 => do
    let l ← firstEntries reps k
    let x ← vget reps k
    pure (l ++ [x])

/-- Complex/simplexBase.cpp:156-199 `streamEvaluator`: the answer and the line added to `stats`. -/
noncomputable def streamEvaluator (count : Nat) (vector : List ℝ) (window : List (List ℝ)) :
    Res (Bool × EvalLine) := do
  let reps ← nearestNeighbors vectorsDistance vector window
  let mean := meanOf reps
  let stdev := stdevOf reps
  let k := 20
  let kNN ← firstEntries (stdSort reps) k
  let accept := true
  pure (accept, ⟨count, mean, stdev, k, meanOf kNN, stdevOf kNN, accept⟩)

/-- The three complex types as `insertIterative` tells them apart: only simplexTree has its own version. -/
inductive InsertKind where
  /-- Complex/simplexTree.cpp:193-210; the function stored by `setStreamEvaluator`
  (Complex/simplexBase.cpp:150-154), if one has been stored: the pointer is not initialised -/
  | tree (eval : Option (List ℝ → List (List ℝ) → Bool))
  /-- Complex/simplexBase.cpp:99-102, used by simplexArrayList and indSimplexTree -/
  | base

/-- `insertIterative`: the answer and the new value of `removedSimplices`. No other member changes: the
calls that would change the complex are comments (Complex/simplexTree.cpp:200-203). -/
def insertIterative (kind : InsertKind) (removed : Nat) (vector : List ℝ) (window : List (List ℝ)) :
    Res (Bool × Nat) :=
  match kind with
  | .base => pure (false, removed)
  | .tree eval =>
    if window.length = 0 then pure (true, removed)
    else
      match eval with
      | none => .error .uninit
      | some f => if f vector window then pure (true, removed + 1) else pure (false, removed)

/-! ### streamingUtils -/

/-- Preprocessing/streamingUtils.cpp:25-100 `kMeans`. Line 33 reads the first row; line 36 reads
`numClusters`, which has no value (line 28). What comes after is not modelled. -/
def utilsKMeans (kHat : List (List ℝ)) : Res (List (List ℝ)) := do
  let _ ← vget kHat 0
  .error .uninit

/-- Preprocessing/streamingUtils.cpp:124-142: the turn for row `i`. `summed` and `counts` are
`summedCentroidVectors` and `counts`; `centroids` is the number of entries of `tempCentroids`. The loop over
`c` leaves the last `c` for which the distance is small; as the distance does not depend on `c` this is the
last `c` of all. -/
noncomputable def ballTurn (clusters : List (List ℝ)) (ballRadius : ℝ) (centroids : Nat)
    (s : List (List ℝ) × List ℝ) (i : Nat) : Res (List (List ℝ) × List ℝ) := do
  let row ← vget clusters i
  let curDist ← vectorsDistance row [ballRadius]
  let clusterIndex := if curDist < ballRadius then centroids - 1 else 0
  let summed ← (List.range clusters.length).foldlM (fun summed j => do
    let x ← vget row j
    let sums ← vget summed clusterIndex
    let sums ← vmodify sums j (· + x)
    vmodify summed clusterIndex (fun _ => sums)) s.1
  let counts ← vmodify s.2 clusterIndex (· + 1)
  pure (summed, counts)

/-- Preprocessing/streamingUtils.cpp:103-163 `ballKmeans`; `i` and `j` are the two random numbers of line
112, each from 0 to the number of rows inclusive (line 110). Lines 147-151 divide the entries of
`summedCentroidVectors`. -/
noncomputable def ballKmeans (i j : Nat) (clusters : List (List ℝ)) : Res (List (List ℝ)) := do
  let c0 ← vget clusters i
  let c1 ← vget clusters j
  let d ← vectorsDistance c0 c1
  let ballRadius := d / 3
  let s ← (List.range (szPred clusters.length)).foldlM (ballTurn clusters ballRadius 2) ([], [])
  let sums ← (List.range s.1.length).mapM (fun i => do
    let v ← vget s.1 i
    (List.range v.length).mapM (fun d => do
      let x ← vget v d
      let n ← vget s.2 i
      pure (x / n)))
  pure sums

/-! ### Further queries of the kd-tree -/

section
variable {K : Type} [AddCommGroup K] [LinearOrder K]

/-- Preprocessing/kdTree.cpp:227-229 `nearestPoint`; an empty node holds the empty point. -/
def nearestPoint (dist : List K → List K → Res K) (ab : K → K) (root : KdTree K) (pt : List K) :
    Res (List K) := do
  match ← nearest dist ab root pt with
  | some p => pure p.1
  | none => pure []

/-- Preprocessing/kdTree.cpp:235-238 `nearestPointIndex`; the index of an empty node is not initialised. -/
def nearestPointIndex (dist : List K → List K → Res K) (ab : K → K) (root : KdTree K) (pt : List K) :
    Res (PointIndex K) := do
  match ← nearest dist ab root pt with
  | some p => pure p
  | none => .error .uninit

/-- Preprocessing/kdTree.cpp:285-290 `neighborhoodPoints`, which calls lines 281-283. -/
def neighborhoodPoints (dist : List K → List K → Res K) (ab : K → K) (root : KdTree K)
    (pt : List K) (rad : K) : Res (List (List K)) := do
  let nbh ← neighborhood dist ab pt rad root 0
  pure (nbh.map Prod.fst)

end

end LHF
