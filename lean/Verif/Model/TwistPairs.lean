import Verif.Model.IndexedTree

/-!
Model of the branch `twist` of Pipes/optPersistencePairs.cpp: the buffered elimination `getRankNull` of
lines 171-358 and the part of `runPipe` that uses it. The function `getFaces` of the graph entries is a
parameter; `runTwistPairs` takes the one of the indexed tree.
-/

namespace LHF

/-- Local variables of the loop over the rows, Pipes/optPersistencePairs.cpp:196-215. `curFace` is the
head of `curFaces`: it is -1 if there is none at the start, and after the last face it keeps a value
that is smaller than all later column numbers. `tempBoundary` is not used by the code. -/
structure Twist where
  /-- `tempBuffer` -/
  buffer : List (Nat × List Nat)
  /-- `pivotXOR` -/
  pivotXOR : List (List Nat)
  /-- `curCount` -/
  curCount : Nat
  /-- `curFaces` -/
  curFaces : List Nat
  /-- `nextPivots` -/
  nextPivots : List Nat
  /-- `nextFaces` -/
  nextFaces : List Nat

/-- Pipes/optPersistencePairs.cpp:239-268: the first buffered column that starts with `i`, and the
buffer without it, where the later columns that start with `i` have been combined with it. -/
def bufferScan (i : Nat) : List (Nat × List Nat) →
    Option ((Nat × List Nat) × List (Nat × List Nat))
  | [] => none
  | b :: rest =>
    if b.2.head? = some i then
      some (b, rest.map (fun t => if t.2.head? = some i then (t.1, setXOR b.2 t.2) else t))
    else (bufferScan i rest).map (fun r => (r.1, b :: r.2))

/-- Pipes/optPersistencePairs.cpp:292-300: a new column is combined with the pivots of the rows below
`i`, cut off after `fuel` turns. -/
def reduceNew (pivotXOR : List (List Nat)) (i : Nat) : Nat → List Nat → Res (List Nat)
  | 0, _ => .error .exn
  | fuel + 1, c =>
    match c with
    | [] => pure []
    | p :: _ =>
      if p < i then do
        let x ← vget pivotXOR p
        reduceNew pivotXOR i fuel (setXOR c x)
      else pure c

section
variable {W : Type}

/-- Pipes/optPersistencePairs.cpp:277-321: columns are taken from the chain, from column number `j` on,
until one starts with `i`; the others go to the buffer and the columns listed in `curFaces` are skipped.
Line 292 reads the first element of the column even if it is empty. -/
def popChain (faces : List Nat → Res (List Nat)) (offset i : Nat) :
    List (List Nat × W) → Nat → Twist → Res Twist
  | [], _, s => pure s
  | e :: rest, j, s =>
    if s.curFaces.head? = some j then
      popChain faces offset i rest (j + 1)
        { s with curFaces := s.curFaces.tail, curCount := s.curCount + 1 }
    else do
      let c ← faces e.1
      let c ← (if c = [] then .error .endDeref else reduceNew s.pivotXOR i (i + 1) c)
      if c.head? = some i then
        do
          let px ← vmodify s.pivotXOR i (fun _ => c)
          pure { s with pivotXOR := px, nextPivots := setInsert (j + offset) s.nextPivots,
                        curCount := s.curCount + 1 }
      else
        popChain faces offset i rest (j + 1)
          { s with buffer := s.buffer ++ [(j, c)], curCount := s.curCount + 1 }

/-- Pipes/optPersistencePairs.cpp:229-328: the turn for row `i`. When the pivot comes from the buffer its
last element is recorded, unless it is `i` itself. -/
def twistRow (faces : List Nat → Res (List Nat)) (offset : Nat) (pChain : List (List Nat × W))
    (s : Twist) (i : Nat) : Res Twist :=
  match bufferScan i s.buffer with
  | some r => do
    let px ← vmodify s.pivotXOR i (fun _ => r.1.2)
    pure { s with
      buffer := r.2
      pivotXOR := px
      nextPivots := setInsert (r.1.1 + offset) s.nextPivots
      nextFaces := match r.1.2.getLast? with
        | some last => if last ≠ i then setInsert last s.nextFaces else s.nextFaces
        | none => s.nextFaces }
  | none => popChain faces offset i (pChain.drop s.curCount) s.curCount s

/-- Pipes/optPersistencePairs.cpp:186-355: the loop over the dimensions `d, d-1, ..., 1`. -/
def twistLoop (faces : List Nat → Res (List Nat)) (ge : List (List (List Nat × W))) :
    Nat → Nat → List Nat → List Nat → Res (List Nat)
  | 0, _, _, allPivots => pure allPivots
  | d + 1, pivotOffset, curFaces, allPivots => do
    let nChain ← vget ge d
    let pChain ← vget ge (d + 1)
    let pivotOffset := pivotOffset - pChain.length
    let s ← (List.range nChain.length).foldlM (twistRow faces pivotOffset pChain)
      ⟨[], nChain.map (fun _ => []), 0, curFaces, [], []⟩
    twistLoop faces ge d pivotOffset s.nextFaces
      (s.nextPivots.foldl (fun r a => setInsert a r) allPivots)

/-- Pipes/optPersistencePairs.cpp:171-358 `getRankNull` on the graph entries: all pivots. -/
def twistAllPivots (faces : List Nat → Res (List Nat)) (dim : Nat) (ge : List (List (List Nat × W))) :
    Res (List Nat) :=
  twistLoop faces ge dim (ge.map List.length).sum [] []

/-- Pipes/optPersistencePairs.cpp:533-546, 641-705 `runPipe` of a pipe object that has not been run
before, with `twist` on an indexed tree: the lines written to `bettiOutput`. -/
def runTwistPairs [LinearOrder W] (sort : SortBySecond (Nat × List Nat) W)
    (dim : Nat) (maxEpsilon : W) (t : ITree W) : Res (List (Nat × W × W)) := do
  let (ge, t) ← t.getIndexEdges sort
  let flat := ge.flatten.map (fun e => (e.1.2, e.2))
  let allPivots ← twistAllPivots t.getFaces dim (ge.map (fun l => l.map (fun e => (e.1.2, e.2))))
  let ks := flat.map Prod.fst
  let s ← ((List.range flat.length).zip flat).foldlM (pairStep true ks)
    ⟨[], allPivots, allPivots.head?, []⟩
  ((List.range flat.length).zip flat).foldlM (fun lines e => do
    let x ← vget s.t e.1
    if x.marked ∧ x.death.isNone ∧ x.simplex.length ≤ dim then
      pure (lines ++ (match x.birth with
        | some b => [(x.simplex.length - 1, b, maxEpsilon)] | none => []))
    else pure lines) s.lines

end

end LHF
