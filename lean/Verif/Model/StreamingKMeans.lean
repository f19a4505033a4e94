import Verif.Model.Utils
import Mathlib.Analysis.SpecialFunctions.Log.Basic
import Mathlib.Analysis.SpecialFunctions.Exp

/-!
Model of Preprocessing/streamingKmeans.cpp over the reals. Rounding is not modelled. The random
numbers of `randDouble` are a parameter: `draw k` is the value of the `k`-th call. Printing is left
out. Memory errors are explicit outcomes, as everywhere.
-/

namespace LHF

/-- Preprocessing/streamingKmeans.cpp:435-443, the loop of `binarySearch`. `round((high+low)/2)`
rounds an integer quotient, so it has no effect. Both bounds move when the entry equals the
projection. -/
def binarySearchLoop {W : Type} [LinearOrder W] (sorted : List (W × Nat)) (projection : W)
    (low high : Nat) : Res Nat :=
  if _h : high - low > 1 then
    match sorted[(high + low) / 2]? with
    | none => .error .oob
    | some e =>
      binarySearchLoop sorted projection
        (if e.1 ≤ projection then (high + low) / 2 else low)
        (if e.1 ≥ projection then (high + low) / 2 else high)
  else .ok low
termination_by high - low
decreasing_by
  rcases le_total e.1 projection with h1 | h1 <;> split_ifs <;> omega

/-- Preprocessing/streamingKmeans.cpp:419-447 `binarySearch` (the argument `omega` is not used). -/
def binarySearch {W : Type} [LinearOrder W] (sorted : List (W × Nat)) (n : Nat) (projection : W) :
    Res Int := do
  let first ← vget sorted 0
  if projection ≤ first.1 then pure (-1)
  else
    let last ← vget sorted (szPred n)
    if projection > last.1 then pure ((n : Int) - 1)
    else
      let low ← binarySearchLoop sorted projection 0 (n - 1)
      pure low

/-- Preprocessing/streamingKmeans.cpp:451-459 `dotProd`: reads past the end of `b` if it is the
shorter vector. -/
noncomputable def dotProd (a b : List ℝ) : Res ℝ :=
  if b.length < a.length then .error .oob
  else .ok ((List.zipWith (· * ·) a b).foldl (· + ·) 0)

/-- `operator<` on `std::pair<double,int>`, as a weak order, for `std::sort` at lines 91, 123, 191
and 238. -/
def pairLE (p q : ℝ × Nat) : Prop := p.1 < q.1 ∨ (p.1 = q.1 ∧ p.2 ≤ q.2)

open Classical in
/-- `std::sort` on `std::pair<double,int>` (total order, so the result is determined). -/
noncomputable def sortPairs (l : List (ℝ × Nat)) : List (ℝ × Nat) := l.insertionSort pairLE

/-- `facilities[sorted[loc].second]` of lines 346-366 and 385-411. -/
def facilityAt (facilities : List (List ℝ)) (sorted : List (ℝ × Nat)) (loc : Nat) :
    Res (List ℝ) := do
  let e ← vget sorted loc
  vget facilities e.2

/-- Preprocessing/streamingKmeans.cpp:333-370 `approxNearestNeighbor` and 372-415 `approxHat`. The
two differ in the table searched: here `table` is `facilities` (resp. `summedCentroidVectors`),
`point` the row `x` of the data (resp. of `summedCentroidVectors`), `n` the size given to
`binarySearch` and `size` the last argument. Distances that are computed and not used are kept, as
they can read out of range. -/
noncomputable def approxNearest (table : List (List ℝ)) (sorted : List (ℝ × Nat)) (omega : List ℝ)
    (x : Nat) (point : List ℝ) (n size : Nat) : Res (List ℝ) := do
  let projection ← dotProd point omega
  let loc ← binarySearch sorted n projection
  if loc = -1 then
    let y ← facilityAt table sorted 0
    let _ ← vectorsDistance point y
    pure point
  else if loc = (x : Int) - 1 then
    let y ← facilityAt table sorted (szPred size)
    let _ ← vectorsDistance point y
    pure y
  else
    let y ← facilityAt table sorted loc.toNat
    let squareDist ← vectorsDistance point y
    let y' ← facilityAt table sorted (loc.toNat + 1)
    let dist ← vectorsDistance point y'
    if squareDist ≤ dist then pure y else pure y'

/-- The local variables of `streamingKmeans::runPreprocessor` that its main loop changes
(Preprocessing/streamingKmeans.cpp:59-98). `calls` counts the calls of `randDouble`. -/
structure StreamKM where
  facilities : List (List ℝ)
  approxFacilities : List ℝ
  sortedApproxFacils : List (ℝ × Nat)
  counts : List ℝ
  tempCounts : List Nat
  clustered : List (List ℝ × Nat)
  kHat : List (List ℝ)
  kHatClustered : List (List ℝ × Nat)
  summed : List (List ℝ)
  f : ℝ
  calls : Nat

/-- `for(a) sorted.push_back(make_pair(approx[a], a)); sort(...)`: lines 119-123, 186-191 and
234-238. The old contents of `sorted` are kept. -/
noncomputable def resort (sorted : List (ℝ × Nat)) (approx : List ℝ) : List (ℝ × Nat) :=
  sortPairs (sorted ++ approx.zipIdx)

/-- Preprocessing/streamingKmeans.cpp:87-94, one step of the initialisation. -/
noncomputable def streamInitStep (data : List (List ℝ)) (omega : List ℝ) (s : StreamKM) (i : Nat) :
    Res StreamKM := do
  let row ← vget data i
  let p ← dotProd row omega
  let approx := s.approxFacilities ++ [p]
  let e ← vget approx i
  let counts ← vmodify s.counts i (· + 1)
  pure { s with
    facilities := s.facilities ++ [row]
    approxFacilities := approx
    sortedApproxFacils := sortPairs (s.sortedApproxFacils ++ [(e, i)])
    clustered := s.clustered ++ [(row, i)]
    counts := counts }

/-- Preprocessing/streamingKmeans.cpp:131-139, one step of the search for the closest facility. The
state is the best distance so far (`none`: the maximal double), `clustered` and `counts`. -/
noncomputable def streamAssignStep (facilities : List (List ℝ)) (row : List ℝ)
    (st : Option ℝ × List (List ℝ × Nat) × List ℝ) (c : Nat) :
    Res (Option ℝ × List (List ℝ × Nat) × List ℝ) := do
  let fac ← vget facilities c
  let d ← vectorsDistance row fac
  if st.1.all (fun m => d < m) then
    let counts ← vmodify st.2.2 c (· + 1)
    pure (some d, st.2.1 ++ [(row, c)], counts)
  else pure st

/-- Preprocessing/streamingKmeans.cpp:107-141, a point that arrives while there are at most
`maxFacilities` facilities. `numFacilities` is the number of facilities before the loop (line 96)
and `approxSize` is `sortedApproxFacils.size()` before the loop (line 95). -/
noncomputable def streamPoint (data : List (List ℝ)) (omega : List ℝ) (draw : Nat → ℝ)
    (numFacilities approxSize : Nat) (s : StreamKM) (x : Nat) : Res StreamKM := do
  let row ← vget data x
  let y ← approxNearest s.facilities s.sortedApproxFacils omega x row s.facilities.length approxSize
  let delta ← vectorsDistance row y
  let s := { s with calls := s.calls + 1 }
  if draw (s.calls - 1) < delta / s.f then
    let p ← dotProd row omega
    let approx := s.approxFacilities ++ [p]
    pure { s with
      facilities := s.facilities ++ [row]
      approxFacilities := approx
      sortedApproxFacils := resort s.sortedApproxFacils approx }
  else
    let r ← (List.range numFacilities).foldlM (streamAssignStep s.facilities row)
      (none, s.clustered, s.counts)
    pure { s with clustered := r.2.1, counts := r.2.2 }

/-- Preprocessing/streamingKmeans.cpp:147-151: `summed[q][dim] += clustered[q].first[dim]`. -/
noncomputable def streamAddRow (width : Nat) (target source : List ℝ) : Res (List ℝ) :=
  (List.range width).foldlM (fun t dim => do
    let v ← vget source dim
    vmodify t dim (· + v)) target

/-- Preprocessing/streamingKmeans.cpp:145-157, one step of the summation. -/
noncomputable def streamSumStep (s : StreamKM) (st : List (List ℝ) × List Nat) (q : Nat) :
    Res (List (List ℝ) × List Nat) := do
  let c ← vget s.clustered q
  if c.2 = q then
    let f0 ← vget s.facilities 0
    let t ← (if f0.length = 0 then pure st.1 else do
      let row ← vget st.1 q
      let row' ← streamAddRow f0.length row c.1
      vmodify st.1 q (fun _ => row') : Res (List (List ℝ)))
    let tc ← vmodify st.2 q (· + 1)
    pure (t, tc)
  else pure st

/-- `std::vector::resize` with empty new rows (line 169). -/
def resizeRows (l : List (List ℝ)) (n : Nat) : List (List ℝ) :=
  l.take n ++ List.replicate (n - l.length) []

/-- Preprocessing/streamingKmeans.cpp:172-179, one row: the first `width` entries are divided by the
count. Over the reals a division by zero gives 0 instead of NaN. -/
noncomputable def divideStep (width : Nat) (tempCounts : List Nat) (t : List (List ℝ)) (i : Nat) :
    Res (List (List ℝ)) := do
  if width = 0 then pure t
  else
    let row ← vget t i
    let c ← vget tempCounts i
    let row' ← (List.range width).foldlM (fun r dim => vmodify r dim (· / (c : ℝ))) row
    vmodify t i (fun _ => row')

/-- Preprocessing/streamingKmeans.cpp:211-223: every centroid is paired with every `k`, once for each
coordinate of a data row. -/
noncomputable def pairAll (data summed kHat : List (List ℝ)) (acc : List (List ℝ × Nat)) :
    Res (List (List ℝ × Nat)) :=
  (List.range summed.length).foldlM (fun acc x => do
    let c ← vget summed x
    (List.range kHat.length).foldlM (fun acc k => do
      let h ← vget kHat k
      let _ ← vectorsDistance c h
      let row ← vget data x
      pure (acc ++ List.replicate row.length (c, k))) acc) acc

/-- Preprocessing/streamingKmeans.cpp:196-239, one iteration of the loop over `xHat`. Line 230 clears
`kHatClustered`. -/
noncomputable def streamHatStep (data : List (List ℝ)) (omega : List ℝ) (draw : Nat → ℝ)
    (weight : List ℝ) (sortedHat : List (ℝ × Nat)) (s : StreamKM) (xHat : Nat) :
    Res StreamKM := do
  let c ← vget s.summed xHat
  let yHat ← approxNearest s.summed sortedHat omega xHat c sortedHat.length sortedHat.length
  let deltaHat ← vectorsDistance c yHat
  let w ← vget weight xHat
  let s := { s with calls := s.calls + 1 }
  let s ← (if draw (s.calls - 1) < w * deltaHat / s.f then
      pure { s with kHat := s.kHat ++ [c] }
    else do
      let k ← pairAll data s.summed s.kHat s.kHatClustered
      pure { s with kHatClustered := k } : Res StreamKM)
  let facilities := s.facilities ++ s.kHatClustered.map (·.1)
  let projections ← facilities.mapM (fun r => dotProd r omega)
  let approx := s.approxFacilities ++ projections
  pure { s with
    facilities := facilities
    kHatClustered := []
    approxFacilities := approx
    sortedApproxFacils := resort s.sortedApproxFacils approx }

/-- The constant `beta` of Preprocessing/streamingKmeans.cpp:51-54 with
`E = 2.718281828`. -/
noncomputable def streamBeta : ℝ :=
  2 * 2 * 2 * (3 * 2 + 2 * (2.718281828 / (2.718281828 - 1))) + 2 * 2

/-- Preprocessing/streamingKmeans.cpp:143-248: a point that arrives when there are more than
`maxFacilities` facilities. The point itself is dropped. -/
noncomputable def streamConsolidate (data : List (List ℝ)) (omega : List ℝ) (draw : Nat → ℝ)
    (s : StreamKM) : Res StreamKM := do
  let s := { s with f := streamBeta * s.f }
  let (t, tc) ← (List.range s.facilities.length).foldlM (streamSumStep s) (s.summed, s.tempCounts)
  let tracker := ((List.range (tc.length - 1)).filter (fun i => 0 < tc.getD i 0)).length
  let t := resizeRows t tracker
  let width := (t.headD []).length
  let t ← (List.range t.length).foldlM (divideStep width tc) t
  let weight := s.counts
  if t.length = 0 then .error .oob
  else
    let hats ← (t.take (t.length - 1)).mapM (fun r => dotProd r omega)
    let sortedHat := resort [] hats
    let first ← vget t 0
    let s := { s with summed := t, tempCounts := tc, kHat := s.kHat ++ [first] }
    let s ← (List.range t.length).foldlM (streamHatStep data omega draw weight sortedHat) s
    pure { s with facilities := [], sortedApproxFacils := [], approxFacilities := [] }

/-- Preprocessing/streamingKmeans.cpp:106-260, one iteration of the main loop. -/
noncomputable def streamStep (data : List (List ℝ)) (omega : List ℝ) (draw : Nat → ℝ)
    (numFacilities approxSize : Nat) (s : StreamKM) (x : Nat) : Res StreamKM :=
  if s.facilities.length ≤ 20 then streamPoint data omega draw numFacilities approxSize s x
  else streamConsolidate data omega draw s

/-- Preprocessing/streamingKmeans.cpp:261-269, one step: small or negative coordinates of
`kHatClustered[c]` are set to zero (`std::abs` is applied to the result of the comparison). -/
noncomputable def streamZeroStep (k : List (List ℝ × Nat)) (c : Nat) : Res (List (List ℝ × Nat)) := do
  let e ← vget k c
  vmodify k c (fun _ => (e.1.map (fun v => if v < 4.65825e-20 then 0 else v), e.2))

/-- Preprocessing/streamingKmeans.cpp:31-296 `runPreprocessor`: the new `originalData`. The local
`numClusters` is the constant 20 of line 40, which hides the configured value. -/
noncomputable def streamingKmeansRun (configured : Bool) (draw : Nat → ℝ) (data : List (List ℝ)) :
    Res (List (List ℝ)) := do
  if !configured then pure data
  else
    let row0 ← vget data 0
    let dim := row0.length
    let omega := (List.range dim).map draw
    let s0 : StreamKM :=
      { facilities := [], approxFacilities := [], sortedApproxFacils := []
        counts := List.replicate 20 0, tempCounts := List.replicate 20 0
        clustered := [], kHat := [], kHatClustered := []
        summed := List.replicate 20 (List.replicate dim 0)
        f := 1 / (20 * (1 + Real.log data.length)), calls := dim }
    let s ← (List.range 10).foldlM (streamInitStep data omega) s0
    let s ← (List.range' 10 (data.length - 1 - 10)).foldlM
      (streamStep data omega draw s.facilities.length s.sortedApproxFacils.length) s
    let k ← (List.range 20).foldlM streamZeroStep s.kHatClustered
    (List.range 20).mapM (fun f => do
      let e ← vget k f
      pure e.1)

end LHF
