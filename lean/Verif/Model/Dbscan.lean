import Verif.Model.KdTree

/-!
Model of Preprocessing/dbscan.cpp. The neighbourhood query of the kd-tree is a parameter of the loops.
`minPoints`, an int that is compared with a `size_t`, is not negative.
-/

namespace LHF

/-- Preprocessing/dbscan.cpp:45-66 `expandCluster`. The list is the part of `neighbors` from position
`i` on; new neighbours go to its end. `none`: not finished after the given number of turns. -/
def expandCluster (nb : Nat → Res (List Nat)) (minPoints : Nat) (clusterLabel : Int) :
    Nat → List Int → List Nat → Res (Option (List Int))
  | _, labels, [] => pure (some labels)
  | 0, _, _ :: _ => pure none
  | fuel + 1, labels, pt :: queue => do
    let l ← vget labels pt
    if l = -1 then
      let labels ← vmodify labels pt (fun _ => clusterLabel)
      expandCluster nb minPoints clusterLabel fuel labels queue
    else if l = 0 then
      let labels ← vmodify labels pt (fun _ => clusterLabel)
      let ptNeighbors ← nb pt
      if ptNeighbors.length ≥ minPoints then
        expandCluster nb minPoints clusterLabel fuel labels (queue ++ ptNeighbors)
      else expandCluster nb minPoints clusterLabel fuel labels queue
    else expandCluster nb minPoints clusterLabel fuel labels queue

/-- Preprocessing/dbscan.cpp:31-40: the turn for the point `i` of the loop of `cluster`. The state is
the labels and the number of clusters. -/
def clusterStep (nb : Nat → Res (List Nat)) (minPoints fuel : Nat) (st : List Int × Nat) (i : Nat) :
    Res (Option (List Int × Nat)) := do
  let l ← vget st.1 i
  if l ≠ 0 then pure (some st)
  else
    let neighbors ← nb i
    if neighbors.length < minPoints then
      let labels ← vmodify st.1 i (fun _ => -1)
      pure (some (labels, st.2))
    else
      match ← expandCluster nb minPoints (st.2 + 1) fuel st.1 neighbors with
      | some labels => pure (some (labels, st.2 + 1))
      | none => pure none

/-- The loop of `cluster` over a list of points. -/
def clusterLoop (nb : Nat → Res (List Nat)) (minPoints fuel : Nat) :
    List Nat → List Int × Nat → Res (Option (List Int × Nat))
  | [], st => pure (some st)
  | i :: is, st => do
    match ← clusterStep nb minPoints fuel st i with
    | some st' => clusterLoop nb minPoints fuel is st'
    | none => pure none

/-- Preprocessing/dbscan.cpp:21-43 `cluster` on `size` points with a given neighbourhood query: the
labels and the number of clusters. -/
def clusterPoints (nb : Nat → Res (List Nat)) (minPoints fuel size : Nat) :
    Res (Option (List Int × Nat)) :=
  clusterLoop nb minPoints fuel (List.range size) (List.replicate size 0, 0)

/-- Preprocessing/dbscan.cpp:21-43 `cluster`: the labels. -/
def dbscanCluster {K : Type} [AddCommGroup K] [LinearOrder K] (S : SortByLevel K)
    (dist : List K → List K → Res K) (ab : K → K) (data : List (List K)) (minPoints : Nat)
    (epsilon : K) (size fuel : Nat) : Res (Option (List Int)) := do
  let n := if size = 0 then data.length else size
  let tree ← kdTreeOf S data n
  let nb := fun i => do
    let x ← vget data i
    neighborhoodIndices dist ab tree x epsilon
  let st ← clusterPoints nb minPoints fuel n
  pure (st.map Prod.fst)

end LHF
