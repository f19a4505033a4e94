import Verif.Model.ArrayComplex
import Verif.Model.Utils

/-!
Model of Pipes/persistencePairs.cpp, of the matrix branch of Pipes/optPersistencePairs.cpp and of the
matrix functions of Pipes/boundaryPipe.cpp. Debug output and timing are left out. `std::set` is a
strictly increasing list, `unsigned` entries of matrices are natural numbers.
-/

namespace LHF

/-! ### Faces and elimination -/

/-- Pipes/persistencePairs.cpp:58-67 `checkFace` on sets (Pipes/optPersistencePairs.cpp:54-63 is the
same). -/
def checkFaceS (face simplex : List Nat) : Nat :=
  if simplex.length = 0 then 1 else if (symmetricDiffS face simplex).length = 1 then 1 else 0

/-- Pipes/boundaryPipe.cpp:41-50 `checkFace` on vectors (also persistencePairs.cpp:46-55 and
optPersistencePairs.cpp:42-51). -/
def checkFaceV (face simplex : List Nat) : Nat :=
  if simplex.length = 0 then 1
  else if (symmetricDiffV face simplex false).length = 1 then 1 else 0

/-- Pipes/persistencePairs.cpp:99-100: `for d < n: row[d] = row[d] ^ temp[d]`. -/
def xorRow : Nat → List Nat → List Nat → Res (List Nat)
  | 0, row, _ => pure row
  | n + 1, a :: row, b :: temp => do pure ((a ^^^ b) :: (← xorRow n row temp))
  | _ + 1, _, _ => .error .oob

/-- Pipes/persistencePairs.cpp:96-103: the while loop that clears column `i` in the remaining rows
with the row `temp`. -/
def clearRows (n i : Nat) (temp : List Nat) : List (List Nat) → Res (List (List Nat))
  | [] => pure []
  | row :: rest => do
    let x ← vget row i
    let row' ← if x = 1 then xorRow n row temp else pure row
    let rest' ← clearRows n i temp rest
    pure (row' :: rest')

/-- Pipes/persistencePairs.cpp:80-105: one pass over the rows for column `i`. The first row with a 1
is the pivot; the loop over the rows ends with it, because the while loop runs `j` to the end. `n` is
`boundaryMatrix[0].size()` and `j` the index of the first row of the list. -/
def elimColumn (n i : Nat) : List (List Nat) → Nat → Res (List (List Nat) × Option (Nat × List Nat))
  | [], _ => pure ([], none)
  | row :: rest, j => do
    let x ← vget row i
    if x = 1 then do
      let rows' ← clearRows n i row (row :: rest)
      pure (rows', some (j, row))
    else do
      let r ← elimColumn n i rest (j + 1)
      pure (row :: r.1, r.2)

/-- Pipes/persistencePairs.cpp:77-106: the turn for column `i`, with the insertion of the pivot into
`ret` (line 84). -/
def rankStep (n : Nat) (s : List (List Nat) × List Nat) (i : Nat) :
    Res (List (List Nat) × List Nat) := do
  let e ← elimColumn n i s.1 0
  pure (e.1, (e.2.map Prod.fst).elim s.2 (fun j => setInsert j s.2))

/-- Pipes/persistencePairs.cpp:69-109 `getRankNull` (the parameter `offset` is not used). -/
def getRankNull (m : List (List Nat)) : Res (List Nat) := do
  let first ← vget m 0
  let r ← (List.range first.length).foldlM (rankStep first.length) (m, [])
  pure r.2

/-- Pipes/persistencePairs.cpp:135-143: the boundary matrix of one dimension: one row for each
`d`-simplex, one column for each `(d-1)`-simplex. -/
def boundaryRows {W : Type} (nChain pChain : List (List Nat × W)) : List (List Nat) :=
  pChain.map (fun p => nChain.map (fun f => checkFaceS f.1 p.1))

/-- Pipes/persistencePairs.cpp:122-164: the loop over the dimensions `d, d-1, ..., 1`. `lastCount` is
`int`; it does not become negative because it starts at the total count. -/
def pivotLoop {W : Type} (edges : Graph W) : Nat → Nat → List Nat → Res (List Nat)
  | 0, _, pivots => pure pivots
  | d + 1, lastCount, pivots => do
    let pChain ← vget edges (d + 1)
    let nChain ← vget edges d
    let lastPivots ← getRankNull (boundaryRows nChain pChain)
    let lastCount := lastCount - pChain.length
    pivotLoop edges d lastCount (lastPivots.foldl (fun s a => setInsert (lastCount + a) s) pivots)

/-- Pipes/persistencePairs.cpp:111-166 `createBoundaryMatrix`. -/
def createBoundaryMatrix {W : Type} (edges : Graph W) : Res (List Nat) :=
  pivotLoop edges (edges.length - 1) (edges.map List.length).sum []

/-! ### The T-array -/

/-- Pipes/persistencePairs.hpp:17-23 `tArrayEntry_t` without the unused field `ti`; `death = -1` is
`none` (weights are not negative), an unset birth is `none`. -/
structure TEntry (W : Type) where
  /-- marked -/
  marked : Bool
  /-- birth -/
  birth : Option W
  /-- death -/
  death : Option W
  /-- the simplex -/
  simplex : List Nat

/-- Pipes/persistencePairs.cpp:241: the test at one position. `short` is the shortcut for edges of
optPersistencePairs.cpp:674. -/
def isPartner {W : Type} (short : Bool) (t : List (TEntry W)) (ks : List (List Nat))
    (cur : List Nat) (iter : Nat) : Res Bool := do
  let e ← vget t iter
  if e.marked ∧ e.death.isNone then do
    let s ← vget ks iter
    pure (decide (cur.length ≠ s.length) &&
      ((short && decide (cur.length = 2)) ||
        decide ((setIntersectS s cur).length = cur.length - 1)))
  else pure false

/-- Pipes/persistencePairs.cpp:239-243: the search for the partner, downwards from `iter`. `none` is
`iter = -1`. -/
def findPartner {W : Type} (short : Bool) (t : List (TEntry W)) (ks : List (List Nat))
    (cur : List Nat) : Nat → Res (Option Nat)
  | 0 => do
    let hit ← isPartner short t ks cur 0
    pure (if hit then some 0 else none)
  | i + 1 => do
    let hit ← isPartner short t ks cur (i + 1)
    if hit then pure (some (i + 1)) else findPartner short t ks cur i

/-- State of the loop Pipes/persistencePairs.cpp:224-258. -/
structure PairState (W : Type) where
  /-- tArray -/
  t : List (TEntry W)
  /-- kPivots -/
  pivots : List Nat
  /-- curPivot; `none` is the initial `(unsigned) -1` -/
  cur : Option Nat
  /-- the finite intervals written to `bettis` -/
  lines : List (Nat × W × W)

/-- Pipes/persistencePairs.cpp:224-258: one turn of the loop. `short` is the variant of
optPersistencePairs.cpp:658-697, which also tests for the end after the last pivot. -/
def pairStep {W : Type} [LinearOrder W] (short : Bool) (ks : List (List Nat)) (s : PairState W)
    (e : Nat × List Nat × W) : Res (PairState W) :=
  let t := s.t ++ [⟨false, none, none, e.2.1⟩]
  if e.2.1.length = 1 ∨ some e.1 ≠ s.cur then do
    let t ← vmodify t e.1 (fun x => { x with birth := some e.2.2, marked := true })
    pure { s with t := t }
  else do
    let iter ← findPartner short t ks e.2.1 t.length
    let (t, lines) ← (match iter with
      | none => .error .oob
      | some 0 => pure (t, s.lines)
      | some (i + 1) => do
        let x ← vget t (i + 1)
        if x.death.isNone then do
          let t ← vmodify t (i + 1) (fun x => { x with death := some e.2.2 })
          pure (t, match x.birth with
            | some b => if b ≠ e.2.2 then s.lines ++ [(e.2.1.length - 2, b, e.2.2)] else s.lines
            | none => s.lines)
        else pure (t, s.lines) : Res (List (TEntry W) × List (Nat × W × W)))
    match s.pivots with
    | [] => pure { s with t := t, lines := lines }
    | _ :: [] =>
      if short then pure { s with t := t, pivots := [], lines := lines } else .error .endDeref
    | _ :: p :: rest => pure { t := t, pivots := p :: rest, cur := some p, lines := lines }

/-- Pipes/persistencePairs.cpp:173-284 `runPipe` of a pipe object that has not been run before: the
lines written to `bettiOutput`. -/
def runPersistencePairs {W : Type} [LinearOrder W] (dim : Nat) (maxEpsilon : W) (edges : Graph W) :
    Res (List (Nat × W × W)) := do
  let kPivots ← createBoundaryMatrix edges
  let flat := edges.flatten
  let ks := flat.map Prod.fst
  let s ← ((List.range flat.length).zip flat).foldlM (pairStep false ks) ⟨[], kPivots, kPivots.head?, []⟩
  ((List.range flat.length).zip flat).foldlM (fun lines e => do
    let x ← vget s.t e.1
    if x.marked ∧ x.death.isNone ∧ x.simplex.length < dim then
      pure (lines ++ (match x.birth with | some b => [(0, b, maxEpsilon)] | none => []))
    else pure lines) s.lines

/-! ### optPersistencePairs, matrix branch -/

/-- Pipes/optPersistencePairs.cpp:140-146: the last column with a 1 in the pivot row, or the row
number `j` if there is none after the pivot. -/
def lastMaximal (n i j : Nat) (row : List Nat) : Res Nat :=
  (List.range' (i + 1) (n - (i + 1))).foldlM (fun last mf => do
    let x ← vget row mf
    pure (if x = 1 then mf else last)) j

/-- Pipes/optPersistencePairs.cpp:128-163: the turn for column `i`. -/
def optRankStep (n : Nat) (s : List (List Nat) × List Nat × List Nat) (i : Nat) :
    Res (List (List Nat) × List Nat × List Nat) := do
  let e ← elimColumn n i s.1 0
  match e.2 with
  | some p => do
    let f ← lastMaximal n i p.1 p.2
    pure (e.1, setInsert p.1 s.2.1, setInsert f s.2.2)
  | none => pure (e.1, s.2)

/-- Pipes/optPersistencePairs.cpp:118-169 `getRankNull` on a matrix: the pivots, and the faces used
for clearing the next dimension. -/
def optGetRankNull (m : List (List Nat)) : Res (List Nat × List Nat) := do
  let first ← vget m 0
  let r ← (List.range first.length).foldlM (optRankStep first.length) (m, [], [])
  pure r.2

/-- Pipes/optPersistencePairs.cpp:453-483: the rows of the boundary matrix, where rows listed in
`pivots` stay zero. `i` is the index of the first simplex of the list. After the last pivot `curPivot`
keeps its value, which is smaller than all later `i`. -/
def clearedRows {W : Type} (nChain : List (List Nat × W)) :
    Nat → List Nat → List (List Nat × W) → List (List Nat)
  | _, _, [] => []
  | i, pivots, p :: rest =>
    if pivots.head? = some i then
      nChain.map (fun _ => 0) :: clearedRows nChain (i + 1) pivots.tail rest
    else nChain.map (fun f => checkFaceS f.1 p.1) :: clearedRows nChain (i + 1) pivots rest

/-- Pipes/optPersistencePairs.cpp:606-631: the loop over the dimensions `d, d-1, ..., 1`. -/
def optPivotLoop {W : Type} (edges : Graph W) :
    Nat → Nat → List Nat → List Nat → Res (List Nat)
  | 0, _, _, allPivots => pure allPivots
  | d + 1, pivotOffset, maxFaces, allPivots => do
    let pChain ← vget edges (d + 1)
    let nChain ← vget edges d
    let r ← optGetRankNull (clearedRows nChain 0 maxFaces pChain)
    let pivotOffset := pivotOffset - pChain.length
    optPivotLoop edges d pivotOffset r.2
      (r.1.foldl (fun s a => setInsert (a + pivotOffset) s) allPivots)

/-- Pipes/optPersistencePairs.cpp:590-631: all pivots, in the branch for complexes without index. -/
def optAllPivots {W : Type} (dim : Nat) (edges : Graph W) : Res (List Nat) :=
  optPivotLoop edges dim (edges.map List.length).sum [] []

/-- Pipes/optPersistencePairs.cpp:590-705 `runPipe` of a pipe object that has not been run before, in
the branch for complexes without index: the lines written to `bettiOutput`. -/
def runOptPersistencePairs {W : Type} [LinearOrder W] (dim : Nat) (maxEpsilon : W)
    (edges : Graph W) : Res (List (Nat × W × W)) := do
  let allPivots ← optAllPivots dim edges
  let flat := edges.flatten
  let ks := flat.map Prod.fst
  let s ← ((List.range flat.length).zip flat).foldlM (pairStep true ks)
    ⟨[], allPivots, allPivots.head?, []⟩
  ((List.range flat.length).zip flat).foldlM (fun lines e => do
    let x ← vget s.t e.1
    if x.marked ∧ x.death.isNone ∧ x.simplex.length ≤ dim then
      pure (lines ++ (match x.birth with
        | some b => [(x.simplex.length - 1, b, maxEpsilon)] | none => []))
    else pure lines) s.lines

/-- Pipes/optPersistencePairs.cpp:65-116 `getRankNull` on sets: one pass over the columns for row
index `i`; like `elimColumn`, but the test is that the smallest entry of the set is `i`. -/
def elimSets (i : Nat) : List (List Nat) → Nat → List (List Nat) × Option (Nat × List Nat)
  | [], _ => ([], none)
  | c :: rest, j =>
    if c.head? = some i then
      ((c :: rest).map (fun c' => if c'.head? = some i then setXOR c c' else c'), some (j, c))
    else
      let r := elimSets i rest (j + 1)
      (c :: r.1, r.2)

/-- Pipes/optPersistencePairs.cpp:76-108: the turn for row index `i`. The last entry of a non-empty
set is recorded unless it is `i` itself. -/
def optSetStep (s : List (List Nat) × List Nat × List Nat) (i : Nat) :
    List (List Nat) × List Nat × List Nat :=
  let e := elimSets i s.1 0
  match e.2 with
  | some p => (e.1, setInsert p.1 s.2.1,
      match p.2.getLast? with
      | some last => if last ≠ i then setInsert last s.2.2 else s.2.2
      | none => s.2.2)
  | none => (e.1, s.2)

/-- Pipes/optPersistencePairs.cpp:65-116 `getRankNull` on sets. The outer loop runs over
`boundaryMatrix.size()`, the number of columns. -/
def optGetRankNullSets (m : List (List Nat)) : List Nat × List Nat :=
  ((List.range m.length).foldl optSetStep (m, [], [])).2

/-! ### boundaryPipe -/

/-- Pipes/boundaryPipe.cpp:63-93: one pass over the rows for column `i`. The pivot row is moved out of
the matrix and the rows after it are cleared. (The loop 86-91 changes copies only; its reads are
`checkCopies`.) -/
def reduceColumn (i : Nat) : List (List Nat) → Res (List (List Nat) × Option (List Nat))
  | [] => pure ([], none)
  | row :: rest => do
    let x ← vget row i
    if x = 1 then do
      let rest' ← clearRows row.length i row rest
      pure (rest', some row)
    else do
      let r ← reduceColumn i rest
      pure (row :: r.1, r.2)

/-- Pipes/boundaryPipe.cpp:86-91: the loop over copies of the rows of `ret`: it has no effect, but it
reads `a[i]`, and `a[d]` and `tempRow[d]` for all `d < ret.size()`. -/
def checkCopies (i : Nat) (ret : List (List Nat)) (tempRow : List Nat) : Res Unit :=
  ret.forM (fun a => do
    let x ← vget a i
    if x = 1 then
      (List.range ret.length).forM (fun d => do
        let _ ← vget a d
        let _ ← vget tempRow d
        pure ())
    else pure ())

/-- Pipes/boundaryPipe.cpp:61-94: the loop over the columns; its condition reads
`boundaryMatrix[0].size()` before every turn. `fuel` bounds the number of turns. -/
def reduceLoop : Nat → Nat → List (List Nat) → List (List Nat) → Nat →
    Res (List (List Nat) × List (List Nat) × Nat)
  | 0, _, _, _, _ => .error .exn
  | fuel + 1, i, m, ret, rank => do
    let first ← vget m 0
    if i < first.length then do
      let e ← reduceColumn i m
      match e.2 with
      | some row => do
        checkCopies i (ret ++ [row]) row
        reduceLoop fuel (i + 1) e.1 (ret ++ [row]) (rank + 1)
      | none => reduceLoop fuel (i + 1) e.1 ret rank
    else pure (m, ret, rank)

/-- Pipes/boundaryPipe.cpp:53-102 `reduceBoundaryMatrix`: the reduced rows, the rank and the nullity.
(In `clearRows` the length of the pivot row is used for `boundaryMatrix[0].size()`; the rows have equal
lengths.) -/
def reduceBoundaryMatrix (m : List (List Nat)) : Res (List (List Nat) × Nat × Int) :=
  match m with
  | [] => pure ([], 0, 0)
  | row :: _ => do
    let r ← reduceLoop (row.length + 1) 0 m [] 0
    let ret := r.2.1 ++ r.1
    let first ← vget ret 0
    pure (ret, r.2.2, (first.length : Int) - r.2.2)

/-- Pipes/boundaryPipe.cpp:105-133 `boundaryMatrix`: one row for each face, one column for each
simplex. -/
def boundaryMatrixPipe (nChain pChain : List (List Nat)) : Res (List (List Nat) × Nat × Int) :=
  if nChain.length = 0 then pure ([], 0, (pChain.length : Int))
  else reduceBoundaryMatrix (nChain.map (fun f => pChain.map (fun p => checkFaceV f p)))

end LHF
