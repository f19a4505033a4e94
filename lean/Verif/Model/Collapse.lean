import Verif.Model.ArrayComplex
import Verif.Model.TreeComplex

/-!
Model of `reduceComplex` (option `collapse`) of Complex/simplexArrayList.cpp and Complex/simplexTree.cpp,
and of Pipes/ripsPipe.cpp.
-/

namespace LHF

/-- `removals` and `checked` of Complex/simplexArrayList.cpp:301-302. -/
structure CollapseState where
  /-- `removals` -/
  removals : List (List Nat)
  /-- `checked` -/
  checked : List (List Nat)

section
variable {W : Type} [DecidableEq W]

/-- Complex/simplexArrayList.cpp:338-356: the loop over the simplices of the same dimension, for one
face. `call` is the recursive call; the second component is `canRemove`. -/
def collapseShared (call : List Nat × W → CollapseState → Res CollapseState) (simplex : List Nat × W)
    (face : List Nat) :
    List (List Nat × W) → CollapseState → Bool → Res (CollapseState × Bool)
  | [], st, can => pure (st, can)
  | simp :: rest, st, can =>
    if simp ≠ simplex ∧ simp.1 ∉ st.checked then
      if (symmetricDiffV simp.1 face true).length = 1 then do
        let st ← call simp st
        if simp.1 ∉ st.removals then pure (st, false)
        else collapseShared call simplex face rest st can
      else collapseShared call simplex face rest st can
    else collapseShared call simplex face rest st can

variable [Neg W] [One W]

/-- Complex/simplexArrayList.cpp:335-364: the turn for one face. The state is `(st, canRemove)` and
`maxFace`. -/
def collapseFace (call : List Nat × W → CollapseState → Res CollapseState) (g : Graph W)
    (simplex : List Nat × W) (s : (CollapseState × Bool) × List Nat) (face : List Nat) :
    Res ((CollapseState × Bool) × List Nat) := do
  let layer ← vget g (szPred simplex.1.length)
  let r ← collapseShared call simplex face layer s.1.1 s.1.2
  let wt ← findWeight g face
  pure (r, if wt = simplex.2 then face else s.2)

/-- Complex/simplexArrayList.cpp:327-373 `recurseReduce`. `fuel` bounds the depth of the recursion. -/
def collapseRec (g : Graph W) : Nat → List Nat × W → CollapseState → Res CollapseState
  | 0, _, _ => .error .exn
  | fuel + 1, simplex, st => do
    let st : CollapseState := { st with checked := st.checked ++ [simplex.1] }
    let r ← (getSubsetsV simplex.1).foldlM (collapseFace (collapseRec g fuel) g simplex) ((st, true), [])
    if r.1.2 then
      pure { r.1.1 with removals := r.1.1.removals ++ [simplex.1, r.2] }
    else pure r.1.1

/-- Complex/simplexArrayList.cpp:306-312: one turn of the loop over the simplices of a layer. -/
def collapseTurn (g : Graph W) (fuel : Nat) (st : CollapseState) (l : List Nat × W) :
    Res CollapseState :=
  if l.1 ∉ st.checked then collapseRec g fuel l st else pure st

/-- Complex/simplexArrayList.cpp:305-313: the `while` loop. The first argument bounds the number of its
turns. -/
def collapseWhile (g : Graph W) (fuel : Nat) (layer : List (List Nat × W)) :
    Nat → CollapseState → Res CollapseState
  | 0, _ => .error .exn
  | k + 1, st =>
    if st.checked.length ≠ layer.length then do
      let st ← layer.foldlM (collapseTurn g fuel) st
      collapseWhile g fuel layer k st
    else pure st

/-- Complex/simplexArrayList.cpp:299-320: the reduction of layer `i`. -/
def collapseDim (i : Nat) (g : Graph W) : Res (Graph W) := do
  let layer ← vget g i
  let st ← collapseWhile g (layer.length + 1) layer (layer.length + 2) ⟨[], []⟩
  st.removals.foldlM (fun g rem => do
    let r ← arrayDeletion g rem
    pure r.1) g

/-- Complex/simplexArrayList.cpp:299: the loop over the layers `i, i-1, ..., 2`. -/
def collapseLoop : Nat → Graph W → Res (Graph W)
  | 0, g => pure g
  | 1, g => pure g
  | i + 2, g => do
    let g ← collapseDim (i + 2) g
    collapseLoop (i + 1) g

/-- Complex/simplexArrayList.cpp:291-325 `reduceComplex`. -/
def arrayReduceComplex (g : Graph W) : Res (Graph W) :=
  if g.length = 0 then pure g else collapseLoop (g.length - 1) g

/-- Pipes/ripsPipe.cpp:29-43 `runPipe` on a simplexArrayList. -/
def ripsPipeArray {W : Type} [LinearOrder W] [Ring W] (dim : Nat) (collapse : String) (g : Graph W) :
    Res (Graph W) := do
  let g ← expandDimensions dim g
  if collapse = "true" ∨ collapse = "1" then arrayReduceComplex g else pure g

end

/-- The length of `dimensions` of a simplexTree: `insert` appends `head` when the tree is empty
(Complex/simplexTree.cpp:293) and nothing else changes it but `clear`. -/
def Tree.dimensions {W : Type} (t : Tree W) : Nat :=
  match t.roots with
  | .nil => 0
  | .node _ _ _ _ => 1

/-- Complex/simplexTree.cpp:379-417 `reduceComplex`. `body i` is the reduction of layer `i` (lines
390-411); it is a parameter, and the theorems hold for every value. -/
def Tree.reduceComplex {W : Type} (body : Nat → Tree W → Res (Tree W)) (t : Tree W) : Res (Tree W) :=
  if t.weg.length = 0 then pure t
  else if t.dimensions > 0 then
    (List.range' 2 (t.dimensions - 1 - 1)).reverse.foldlM (fun t i => body i t) t
  else pure t

/-- Pipes/ripsPipe.cpp:29-43 `runPipe` on a simplexTree, whose `expandDimensions` does nothing
(Complex/simplexTree.hpp:49). -/
def ripsPipeTree {W : Type} (body : Nat → Tree W → Res (Tree W)) (collapse : String) (t : Tree W) :
    Res (Tree W) :=
  if collapse = "true" ∨ collapse = "1" then t.reduceComplex body else pure t

end LHF
