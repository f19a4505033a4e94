import Verif.Model.PersistencePairs

/-!
Model of Pipes/boundaryPipe.cpp (runPipe). The matrix functions of this pipe are in
Model/PersistencePairs.lean; `runPipe` does not call them, the calls are commented out
(Pipes/boundaryPipe.cpp:237-258).
-/

namespace LHF

/-- Pipes/boundaryPipe.cpp:197-201 `bettiDef_t`. -/
structure BettiDef (W : Type) where
  /-- epsilon -/
  epsilon : W
  /-- dim -/
  dim : Nat
  /-- betti -/
  betti : Int

/-- Pipes/boundaryPipe.cpp:230-277: the loop over the dimensions `d, d-1, ..., 0` for one weight. The
pair `bound_rank_nul` is value-initialised to zeros and stays so; `last` is `last_rank_nul`. With
`debug` the array `bettiOutput`, which has three entries, is written at `d`. -/
def bettiDims {W : Type} (debug : Bool) (dim : Nat) (eps : W) :
    Nat → Int × Int → List (BettiDef W) → Res (List (BettiDef W))
  | d, last, bettis => do
    let rankNul : Int × Int := (0, 0)
    let bettis := if d ≠ dim then bettis ++ [⟨eps, d, rankNul.2 - last.1⟩] else bettis
    if debug ∧ 3 ≤ d then .error .oob
    else match d with
      | 0 => pure bettis
      | d + 1 => bettiDims debug dim eps d rankNul bettis

/-- Pipes/boundaryPipe.cpp:220-280: the loop over the weights of the packet, which skips a weight that
equals the previous one (initially 0). `getAllEdges` is called for every weight; its result is not
used. -/
def bettiWeights {W : Type} [LinearOrder W] (debug : Bool) (dim : Nat) :
    List W → W → List (BettiDef W) → Res (List (BettiDef W))
  | [], _, bettis => pure bettis
  | eps :: rest, epsilon, bettis =>
    if epsilon ≠ eps then do
      let bettis ← bettiDims debug dim eps dim (0, 0) bettis
      bettiWeights debug dim rest eps bettis
    else bettiWeights debug dim rest epsilon bettis

/-- `bettis[j]`. One past the end the code reads `past`; `none` makes this read undefined. -/
def readBetti {W : Type} (past : Option (BettiDef W)) (bettis : List (BettiDef W)) (j : Nat) :
    Res (BettiDef W) :=
  match bettis[j]?, past with
  | some b, _ => pure b
  | none, some b => pure b
  | none, none => .error .oob

/-- Pipes/boundaryPipe.cpp:286-310: the body of the loop for one `j`. The state is the written rows
and `lastBetti` (its epsilon and its count). -/
def bettiTurn {W : Type} (maxEpsilon : W) (i j : Nat) (b : BettiDef W)
    (s : List (Nat × W × W) × W × Int) : List (Nat × W × W) × W × Int :=
  let s := if b.dim = i then
      let s := if b.betti < s.2.2 then
          (s.1 ++ List.replicate (s.2.2 - b.betti).toNat (i, s.2.1, b.epsilon), s.2.1, b.betti)
        else s
      if b.betti > s.2.2 then (s.1, b.epsilon, b.betti) else s
    else s
  if j = 0 then (s.1 ++ List.replicate s.2.2.toNat (i, s.2.1, maxEpsilon), s.2.1, min s.2.2 0) else s

/-- Pipes/boundaryPipe.cpp:285-311: the loop over `j`, downwards from `bettis.size()`. -/
def bettiLoop {W : Type} (past : Option (BettiDef W)) (maxEpsilon : W) (bettis : List (BettiDef W))
    (i : Nat) : Nat → List (Nat × W × W) × W × Int → Res (List (Nat × W × W) × W × Int)
  | 0, s => do
    let b ← readBetti past bettis 0
    pure (bettiTurn maxEpsilon i 0 b s)
  | j + 1, s => do
    let b ← readBetti past bettis (j + 1)
    bettiLoop past maxEpsilon bettis i j (bettiTurn maxEpsilon i (j + 1) b s)

/-- Pipes/boundaryPipe.cpp:189-334 `runPipe`: the rows written to `bettiOutput` after the header
"Dim,Birth,Death". `weights` is the packet's weight set. -/
def boundaryRun {W : Type} [LinearOrder W] [Zero W] (past : Option (BettiDef W)) (debug : Bool)
    (dim : Nat) (maxEpsilon : W) (weights : List W) : Res (List (Nat × W × W)) := do
  let bettis ← bettiWeights debug dim weights 0 []
  (List.range dim).foldlM (fun rows i => do
    let s ← bettiLoop past maxEpsilon bettis i bettis.length (rows, 0, 0)
    pure s.1) []

end LHF
