import Verif.Model.Utils

/-!
Model of Preprocessing/kMeansPlusPlus.cpp over the reals.

A `double` that can be NaN is an `Option ℝ`, `none` being NaN. Rounding is not modelled, and
distances are below `std::numeric_limits<double>::max()`.
-/

namespace LHF

/-- `ut.vectors_distance(point, centroid)` (Utils/utils.cpp:168-179) where coordinates of the
centroid can be NaN: the result is NaN as soon as one of the coordinates read is. -/
noncomputable def vectorsDistanceNaN (a : List ℝ) (b : List (Option ℝ)) : Res (Option ℝ) :=
  match vectorsDistance a (b.map (·.getD 0)) with
  | .error e => .error e
  | .ok d => .ok (if none ∈ b.take a.length then none else some d)

/-- One turn of the loop at Preprocessing/kMeansPlusPlus.cpp:120-128 for the centroid number `c`. The
state is `(clusterIndex, minDist)`; `minDist = none` is the initial
`std::numeric_limits<double>::max()`. A comparison with NaN is false. -/
noncomputable def kmNearestStep (x : List ℝ) (cents : List (List (Option ℝ)))
    (st : Nat × Option ℝ) (c : Nat) : Res (Nat × Option ℝ) := do
  let cent ← vget cents c
  let d ← vectorsDistanceNaN x cent
  match d with
  | none => pure st
  | some curDist =>
    match st.2 with
    | none => pure (c, some curDist)
    | some minDist => pure (if curDist < minDist then (c, some curDist) else st)

/-- Preprocessing/kMeansPlusPlus.cpp:116-128: the index of the closest centroid, 0 if there is none.
-/
noncomputable def kmNearest (x : List ℝ) (cents : List (List (Option ℝ))) : Res Nat := do
  let st ← (List.range cents.length).foldlM (kmNearestStep x cents) (0, none)
  pure st.1

/-- Preprocessing/kMeansPlusPlus.cpp:130-132: `row[d] += x[d]` for every `d < x.size()`. -/
noncomputable def addRow : List ℝ → List ℝ → Res (List ℝ)
  | row, [] => .ok row
  | [], _ :: _ => .error .oob
  | r :: row, x :: xs =>
    match addRow row xs with
    | .ok t => .ok ((r + x) :: t)
    | .error e => .error e

/-- `summedCentroidVectors`, `counts` and `curLabels` of Preprocessing/kMeansPlusPlus.cpp:110-112.
(`summedClusters` is written but never read.) -/
structure KmSums where
  sums : List (List ℝ)
  counts : List Nat
  labels : List Nat

/-- Preprocessing/kMeansPlusPlus.cpp:115-137, the loop body for the point `x`. -/
noncomputable def kmClassifyStep (cents : List (List (Option ℝ))) (st : KmSums) (x : List ℝ) :
    Res KmSums := do
  let c ← kmNearest x cents
  let row ← vget st.sums c
  let row' ← addRow row x
  let sums ← vmodify st.sums c (fun _ => row')
  let counts ← vmodify st.counts c (· + 1)
  pure ⟨sums, counts, st.labels ++ [c]⟩

/-- Preprocessing/kMeansPlusPlus.cpp:141-145: every sum is divided by the count of its class. The
sums of an empty class are zero, and `0.0 / 0` is NaN. -/
noncomputable def kmDivide (row : List ℝ) (count : Nat) : List (Option ℝ) :=
  row.map (fun s => if count = 0 then none else some (s / count))

/-- Preprocessing/kMeansPlusPlus.cpp:109-147, one round: the labels and the new centroids. The loop
bound `originalData.size() - 1` leaves out the last point; `data` is not empty here (otherwise the
read of `originalData[0]` at line 110 is out of range). -/
noncomputable def kmRound (data : List (List ℝ)) (numClusters : Nat)
    (cents : List (List (Option ℝ))) : Res (List Nat × List (List (Option ℝ))) := do
  let row0 ← vget data 0
  let st ← (data.take (data.length - 1)).foldlM (kmClassifyStep cents)
    ⟨List.replicate numClusters (List.replicate row0.length 0), List.replicate numClusters 0, []⟩
  pure (st.labels, List.zipWith kmDivide st.sums st.counts)

/-- Preprocessing/kMeansPlusPlus.cpp:107-157: the rounds, until the labels do not change or
`num_iterations` rounds are done. The result is `(tempCentroids, lastLabels)`. -/
noncomputable def kmRounds (data : List (List ℝ)) (numClusters : Nat) :
    Nat → List (List (Option ℝ)) → List Nat → Res (List (List (Option ℝ)) × List Nat)
  | 0, cents, lastLabels => .ok (cents, lastLabels)
  | n + 1, cents, lastLabels =>
    match kmRound data numClusters cents with
    | .error e => .error e
    | .ok (curLabels, cents') =>
      if curLabels = lastLabels then .ok (cents', lastLabels)
      else kmRounds data numClusters n cents' curLabels

/-- Preprocessing/kMeansPlusPlus.cpp:63-81: the random part of the seeding. Each turn draws an index
and a number of further random values; only whether one of the tests `valid_center` succeeds
matters. Both are given by the list `picks`, so every theorem about all lists covers every outcome of
the random generators. -/
noncomputable def kmSeedPicks (data : List (List ℝ)) :
    List (Nat × Bool) → List (List ℝ) → Res (List (List ℝ))
  | [], cents => .ok cents
  | (idx, valid) :: picks, cents =>
    match vget data idx with
    | .error e => .error e
    | .ok x => kmSeedPicks data picks (if valid = true ∧ x ∉ cents then cents ++ [x] else cents)

/-- Preprocessing/kMeansPlusPlus.cpp:83-89: the list of seeds is filled up with the first data rows
that are not in it yet; the argument `rest` is the part of the data not read so far, and
reading past its end is undefined behaviour. -/
noncomputable def kmSeedFill (numClusters : Nat) :
    List (List ℝ) → List (List ℝ) → Res (List (List ℝ))
  | [], cents => if cents.length < numClusters then .error .oob else .ok cents
  | x :: rest, cents =>
    if cents.length < numClusters then
      kmSeedFill numClusters rest (if x ∉ cents then cents ++ [x] else cents)
    else .ok cents

/-- Preprocessing/kMeansPlusPlus.cpp:48-89: the seeding. `first` is the index drawn at line 49. -/
noncomputable def kmSeed (data : List (List ℝ)) (numClusters first : Nat) (picks : List (Nat × Bool)) :
    Res (List (List ℝ)) := do
  let x ← vget data first
  let cents ← kmSeedPicks data picks [x]
  kmSeedFill numClusters data cents

/-- Preprocessing/kMeansPlusPlus.cpp:28-164 `runPreprocessor` of a configured preprocessor: the new
`originalData` (the centroids) and `originalLabels`. -/
noncomputable def kmRun (data : List (List ℝ)) (numClusters iterations first : Nat)
    (picks : List (Nat × Bool)) : Res (List (List (Option ℝ)) × List Nat) := do
  let seeds ← kmSeed data numClusters first picks
  kmRounds data numClusters iterations (seeds.map (·.map some)) []

end LHF
