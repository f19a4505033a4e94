import Verif.Model.Utils

/-!
Model of Pipes/distMatrixPipe.cpp (runPipe).
-/

namespace LHF

/-- `m[i][j]` on a vector of vectors. -/
def at2 {W : Type _} (m : List (List W)) (i j : Nat) : Res W := do
  let row ← vget m i
  vget row j

/-- `m[i][j] = x` on a vector of vectors. -/
def set2 {W : Type _} (m : List (List W)) (i j : Nat) (x : W) : Res (List (List W)) := do
  let row ← vget m i
  let row' ← vmodify row j (fun _ => x)
  vmodify m i (fun _ => row')

/-- Pipes/distMatrixPipe.cpp:40-48, the inner loop for a fixed `i`. The state is the matrix and the
set `inData.weights`. -/
def distMatrixRow {K W : Type _} [LinearOrder W] (dist : List K → List K → Res W) (maxEpsilon : W)
    (data : List (List K)) (i : Nat) (st : List (List W) × List W) :
    Res (List (List W) × List W) :=
  (List.range' (i + 1) (data.length - (i + 1))).foldlM (fun st j => do
    let a ← vget data i
    let b ← vget data j
    let d ← dist a b
    let weights := if d < maxEpsilon then setInsert d st.2 else st.2
    let m ← set2 st.1 i j d
    pure (m, weights)) st

/-- Pipes/distMatrixPipe.cpp:28-60 `runPipe`: returns the distance matrix handed to the complex and
the packet's weight set, starting from the weight set `weights0` already in the packet. The
distance (`utils::vectors_distance` in the code) is a parameter. Logging is not modelled. -/
def distMatrixPipe {K W : Type _} [LinearOrder W] [Zero W] (dist : List K → List K → Res W)
    (maxEpsilon : W) (weights0 : List W) (data : List (List K)) : Res (List (List W) × List W) := do
  let n := data.length
  let st ← (List.range n).foldlM (fun st i => do
    let row ← vget data i
    if row.isEmpty then pure st
    else distMatrixRow dist maxEpsilon data i st)
    (List.replicate n (List.replicate n 0), weights0)
  pure (st.1, setInsert maxEpsilon (setInsert 0 st.2))

end LHF
