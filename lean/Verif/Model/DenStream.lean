import Verif.Model.Utils
import Verif.Model.Dbscan
import Mathlib.Analysis.SpecialFunctions.Pow.Real
import Mathlib.Analysis.SpecialFunctions.Log.Basic

/-!
Model of Preprocessing/denStream.cpp over the reals. Rounding is not modelled. Times are ints of
unbounded size.
-/

namespace LHF

/-- Preprocessing/denStream.hpp:8-15 `microCluster`. -/
structure MicroCluster where
  center : List ℝ
  avgSquares : List ℝ
  weight : ℝ
  lambda : ℝ
  creationTime : Int
  editTime : Int

/-- Preprocessing/denStream.cpp:21-28, the constructor. -/
noncomputable def MicroCluster.new (t : Int) (dim : Nat) (l : ℝ) : MicroCluster :=
  { creationTime := t, lambda := l, center := List.replicate dim 0,
    avgSquares := List.replicate dim 0, weight := 0, editTime := 0 }

/-- `for(i < point.size()) row[i] = f(row[i], point[i])`, as in Preprocessing/denStream.cpp:35-37 and
39-42: undefined behaviour if the row is shorter than the point. -/
def rowUpdate (f : ℝ → ℝ → ℝ) : List ℝ → List ℝ → Res (List ℝ)
  | row, [] => .ok row
  | [], _ :: _ => .error .oob
  | r :: row, x :: xs =>
    match rowUpdate f row xs with
    | .ok t => .ok (f r x :: t)
    | .error e => .error e

/-- The decayed weight `weight*pow(2, -lambda*(timestamp - editTime))` of
Preprocessing/denStream.cpp:57-59 `getWeight`, also at lines 31 and 71. -/
noncomputable def MicroCluster.getWeight (m : MicroCluster) (timestamp : Int) : ℝ :=
  m.weight * (2 : ℝ) ^ (-m.lambda * ((timestamp - m.editTime : Int) : ℝ))

/-- Preprocessing/denStream.cpp:30-47 `insertPoint`. The two updates of the loop at lines 39-42 are
two passes here; they write different vectors. -/
noncomputable def MicroCluster.insertPoint (m : MicroCluster) (point : List ℝ) (timestamp : Int) :
    Res MicroCluster := do
  let newWeight := m.getWeight timestamp + 1
  if m.weight = 0 then
    let avg ← rowUpdate (fun _ p => p * p) m.avgSquares point
    pure { m with center := point, avgSquares := avg, editTime := timestamp, weight := newWeight }
  else
    let center ← rowUpdate (fun c p => c + (p - c) / newWeight) m.center point
    let avg ← rowUpdate (fun a p => a + (p * p - a) / newWeight) m.avgSquares point
    pure { m with center := center, avgSquares := avg, editTime := timestamp, weight := newWeight }

/-- Preprocessing/denStream.cpp:61-68 `getRadius`. The square root of a negative number would be NaN;
here it is 0, and the theorems show that the argument is never negative. -/
noncomputable def MicroCluster.getRadius (m : MicroCluster) : Res ℝ := do
  let r2 ← (List.range m.center.length).foldlM (fun r2 i => do
    let a ← vget m.avgSquares i
    let c ← vget m.center i
    pure (r2 + (a - c * c))) (0 : ℝ)
  pure (Real.sqrt r2)

/-- Preprocessing/denStream.cpp:70-81 `mergeRadius`. -/
noncomputable def MicroCluster.mergeRadius (m : MicroCluster) (point : List ℝ) (timestamp : Int) :
    Res ℝ := do
  let newWeight := m.getWeight timestamp + 1
  let r2 ← (List.range m.center.length).foldlM (fun r2 i => do
    let c ← vget m.center i
    let p ← vget point i
    let a ← vget m.avgSquares i
    let newCenter := c + (p - c) / newWeight
    let newAvgSquare := a + (p * p - a) / newWeight
    pure (r2 + (newAvgSquare - newCenter * newCenter))) (0 : ℝ)
  pure (Real.sqrt r2)

/-- One turn of the loop at Preprocessing/denStream.cpp:173-179 (and 191-197). The state is
`(min, minDist)`. -/
noncomputable def nearestClusterStep (cs : List MicroCluster) (point : List ℝ) (st : Nat × ℝ)
    (i : Nat) : Res (Nat × ℝ) := do
  let m ← vget cs i
  let d ← vectorsDistance m.center point
  pure (if d < st.2 then (i, d) else st)

/-- Preprocessing/denStream.cpp:167-182 `nearestPCluster` and 185-200 `nearestOCluster`, which differ
only in the list they search. -/
noncomputable def nearestCluster (cs : List MicroCluster) (point : List ℝ) : Res Nat := do
  let m ← vget cs 0
  let d ← vectorsDistance m.center point
  let st ← (List.range' 1 (cs.length - 1)).foldlM (nearestClusterStep cs point) (0, d)
  pure st.1

/-- `v[i].f()` on a `std::vector` of objects for a method that can fail. -/
def vupdate {α : Type _} (l : List α) (i : Nat) (f : α → Res α) : Res (List α) := do
  let a ← vget l i
  let b ← f a
  pure (l.set i b)

/-- The settings of a `denStream` (Preprocessing/denStream.hpp:29-37). -/
structure DenConfig where
  initPoints : Nat
  minPoints : Nat
  streamSpeed : Nat
  /-- the product `beta*mu` -/
  betaMu : ℝ
  epsilon : ℝ
  lambda : ℝ
  Tp : Int

/-- Preprocessing/denStream.cpp:94-100: the settings used by `runPreprocessor`. (`0.2 * 10` is exactly 2
in double arithmetic.) -/
noncomputable def denConfig (epsilon lambda : ℝ) : DenConfig :=
  { initPoints := 1000, minPoints := 20, streamSpeed := 20, betaMu := 2, epsilon := epsilon,
    lambda := lambda, Tp := ⌈(1 / lambda) * Real.log (2 / (2 - 1))⌉ }

/-- `pMicroClusters` and `oMicroClusters`. -/
structure DenState where
  p : List MicroCluster
  o : List MicroCluster

/-- Preprocessing/denStream.cpp:212-226: the part of `merging` after the p-micro-clusters have been
tried. `dim` is `data[0].size()`. -/
noncomputable def mergeOutlier (cfg : DenConfig) (dim : Nat) (st : DenState) (x : List ℝ)
    (timestamp : Int) : Res DenState := do
  let new := do
    let m ← (MicroCluster.new timestamp dim cfg.lambda).insertPoint x timestamp
    pure { st with o := st.o ++ [m] }
  if st.o.length > 0 then
    let nearestO ← nearestCluster st.o x
    let m ← vget st.o nearestO
    let r ← m.mergeRadius x timestamp
    if r ≤ cfg.epsilon then
      let o ← vupdate st.o nearestO (fun m => m.insertPoint x timestamp)
      let m ← vget o nearestO
      if m.getWeight timestamp > cfg.betaMu then
        pure { p := st.p ++ [m], o := o.eraseIdx nearestO }
      else pure { st with o := o }
    else new
  else new

/-- Preprocessing/denStream.cpp:203-227 `merging`, for the point `x = data[p]`. -/
noncomputable def denMerging (cfg : DenConfig) (dim : Nat) (st : DenState) (x : List ℝ)
    (timestamp : Int) : Res DenState := do
  if st.p.length > 0 then
    let nearestP ← nearestCluster st.p x
    let m ← vget st.p nearestP
    let r ← m.mergeRadius x timestamp
    if r ≤ cfg.epsilon then
      let p ← vupdate st.p nearestP (fun m => m.insertPoint x timestamp)
      pure { st with p := p }
    else mergeOutlier cfg dim st x timestamp
  else mergeOutlier cfg dim st x timestamp

open Classical in
/-- Preprocessing/denStream.cpp:133-153: the removal of micro-clusters of low weight. -/
noncomputable def denPrune (cfg : DenConfig) (st : DenState) (timestamp : Int) : DenState :=
  let xiDen := (2 : ℝ) ^ (-(cfg.Tp : ℝ) * cfg.lambda) - 1
  let xi := fun m : MicroCluster =>
    ((2 : ℝ) ^ (-cfg.lambda * ((timestamp - m.creationTime + cfg.Tp : Int) : ℝ)) - 1) / xiDen
  { p := st.p.filter (fun m => ¬ m.getWeight timestamp < cfg.betaMu),
    o := st.o.filter (fun m => ¬ m.getWeight timestamp < xi m) }

/-- Preprocessing/denStream.cpp:123-155: the stream loop over the remaining rows. The state is the
micro-clusters, `numPerTime` and `timestamp`. `timestamp % Tp` with `Tp = 0` is undefined behaviour (a
division by zero; recorded as an exception). -/
noncomputable def denStreamLoop (cfg : DenConfig) (dim : Nat) :
    List (List ℝ) → DenState → Nat → Int → Res DenState
  | [], st, _, _ => .ok st
  | x :: xs, st, numPerTime, timestamp => do
    let tick : Bool := numPerTime + 1 = cfg.streamSpeed
    let numPerTime := if tick then 0 else numPerTime + 1
    let timestamp := if tick then timestamp + 1 else timestamp
    let st ← denMerging cfg dim st x timestamp
    if cfg.Tp = 0 then .error .exn
    else
      let st := if cfg.Tp ∣ timestamp ∧ numPerTime = 0 then denPrune cfg st timestamp else st
      denStreamLoop cfg dim xs st numPerTime timestamp

/-- Preprocessing/denStream.cpp:117-121, the turn for the point `i`. -/
noncomputable def denInitStep (data : List (List ℝ)) (labels : List Int) (timestamp : Int)
    (cs : List MicroCluster) (i : Nat) : Res (List MicroCluster) := do
  let l ← vget labels i
  if l ≠ -1 then
    let x ← vget data i
    if l ≤ 0 then .error .oob
    else vupdate cs (l - 1).toNat (fun m => m.insertPoint x timestamp)
  else pure cs

/-- Preprocessing/denStream.cpp:107-121: the first micro-clusters, from the labels of `dbscan::cluster`.
A negative size of a vector throws. -/
noncomputable def denInit (cfg : DenConfig) (data : List (List ℝ)) (labels : List Int) :
    Res (List MicroCluster) := do
  match labels with
  | [] => .error .endDeref
  | l :: ls =>
    let pClusters := ls.foldl max l
    let pClusters := if pClusters = -1 then 1 else pClusters
    if pClusters < 0 then .error .exn
    else
      let timestamp : Int := cfg.initPoints / cfg.streamSpeed
      let row0 ← vget data 0
      (List.range cfg.initPoints).foldlM (denInitStep data labels timestamp)
        (List.replicate pClusters.toNat (MicroCluster.new timestamp row0.length cfg.lambda))

/-- Preprocessing/denStream.cpp:92-164 `runPreprocessor` of a configured preprocessor whose
micro-cluster lists are empty: the new `originalData`. `none`: the clustering did not finish within
`fuel` turns (see `expandCluster`). The sort and `abs` are those of the kd-tree. -/
noncomputable def denRun (S : SortByLevel ℝ) (ab : ℝ → ℝ) (cfg : DenConfig) (data : List (List ℝ))
    (fuel : Nat) : Res (Option (List (List ℝ))) := do
  match ← dbscanCluster S vectorsDistance ab data cfg.minPoints cfg.epsilon cfg.initPoints fuel with
  | none => pure none
  | some labels =>
    let p ← denInit cfg data labels
    let row0 ← vget data 0
    let st ← denStreamLoop cfg row0.length (data.drop cfg.initPoints) ⟨p, []⟩
      (cfg.initPoints % cfg.streamSpeed) (cfg.initPoints / cfg.streamSpeed)
    pure (some (st.p.map MicroCluster.center))

end LHF
