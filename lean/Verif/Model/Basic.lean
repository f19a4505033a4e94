import Mathlib.Order.Defs.LinearOrder
import Mathlib.Data.List.Sort

/-!
Outcomes of a C++ computation and the pieces of the C++ standard library used by lhf.
-/

namespace LHF

/-- Ways in which a C++ execution can leave the defined behaviour (or throw). Not a function of
/repo: undefined behaviour of the language is made an explicit outcome. -/
inductive Err where
  /-- out-of-range `operator[]` (undefined behaviour) -/
  | oob
  /-- dereference of an end iterator (undefined behaviour) -/
  | endDeref
  /-- dereference of a null pointer (undefined behaviour) -/
  | null
  /-- use of a freed object (undefined behaviour) -/
  | freed
  /-- a C++ exception is thrown (e.g. by `std::stod`) -/
  | exn
  /-- an indeterminate value is read (undefined behaviour) -/
  | uninit
  deriving DecidableEq, Repr

/-- The outcome of a C++ computation. -/
abbrev Res (α : Type _) := Except Err α

/-- `v[i]` on a `std::vector`: undefined behaviour outside the range. -/
def vget {α : Type _} (l : List α) (i : Nat) : Res α :=
  match l[i]? with
  | some a => .ok a
  | none => .error .oob

/-- `v[i] = f(v[i])` on a `std::vector`: undefined behaviour outside the range. -/
def vmodify {α : Type _} (l : List α) (i : Nat) (f : α → α) : Res (List α) :=
  if i < l.length then .ok (l.modify i f) else .error .oob

/-- `size_t` subtraction `n - 1`, which wraps at zero. -/
def szPred (n : Nat) : Nat := if n = 0 then 2 ^ 64 - 1 else n - 1

section Merge
variable {α : Type _} [LinearOrder α]

/-- Inner loop of `std::set_symmetric_difference` for a fixed head `x` of the first range; `rest`
processes the remainder of the first range. -/
def symDiffStep (x : α) (rest : List α → List α) : List α → List α
  | [] => x :: rest []
  | y :: ys =>
    if x < y then x :: rest (y :: ys)
    else if y < x then y :: symDiffStep x rest ys
    else rest ys

/-- `std::set_symmetric_difference` (libstdc++ merge loop) writing to an empty output. -/
def stdSymDiff : List α → List α → List α
  | [] => fun ys => ys
  | x :: xs => symDiffStep x (stdSymDiff xs)

/-- Inner loop of `std::set_intersection` for a fixed head `x` of the first range. -/
def interStep (x : α) (rest : List α → List α) : List α → List α
  | [] => []
  | y :: ys =>
    if x < y then rest (y :: ys)
    else if y < x then interStep x rest ys
    else x :: rest ys

/-- `std::set_intersection` (libstdc++ merge loop) writing to an empty output. -/
def stdInter : List α → List α → List α
  | [] => fun _ => []
  | x :: xs => interStep x (stdInter xs)

/-- Inner loop of `std::set_union` for a fixed head `x` of the first range. -/
def unionStep (x : α) (rest : List α → List α) : List α → List α
  | [] => x :: rest []
  | y :: ys =>
    if x < y then x :: rest (y :: ys)
    else if y < x then y :: unionStep x rest ys
    else x :: rest ys

/-- `std::set_union` (libstdc++ merge loop) writing to an empty output. -/
def stdUnion : List α → List α → List α
  | [] => fun ys => ys
  | x :: xs => unionStep x (stdUnion xs)

/-- Inner loop of `std::includes` for a fixed head `y` of the second range: advances the first
range. `rest` checks the remainder of the second range. -/
def includesStep (y : α) (rest : List α → Bool) : List α → Bool
  | [] => false
  | x :: xs =>
    if y < x then false
    else if x < y then includesStep y rest xs
    else rest xs

/-- `std::includes(first, second)`: does the first (sorted) range include the second one? -/
def stdIncludes (xs : List α) : List α → Bool
  | ys => go ys xs
where
  /-- recursion over the second range -/
  go : List α → List α → Bool
    | [] => fun _ => true
    | y :: ys => includesStep y (go ys)

/-- `std::set::insert` on a set represented by its strictly increasing list. -/
def setInsert (x : α) : List α → List α
  | [] => [x]
  | y :: ys => if x < y then x :: y :: ys else if y < x then y :: setInsert x ys else y :: ys

/-- Building a `std::set` from a range (`std::copy` into an `inserter`, or repeated `insert`). -/
def toSet (l : List α) : List α := l.foldl (fun s x => setInsert x s) []

/-- `std::sort` with `operator<` on integers: the result is determined, so it is a function. -/
def stdSort (l : List α) : List α := l.insertionSort (· ≤ ·)

end Merge

/-- The contract of `std::sort(begin, end, sortBySecond)` on a list of weighted items
(Utils/utils.cpp:436-438 compares the second components with `<`): the result is *some*
permutation in non-decreasing order of the second component. The sort is not stable, so which one
is left open. -/
structure SortBySecond (α W : Type _) [LinearOrder W] where
  /-- the sorting function -/
  run : List (α × W) → List (α × W)
  /-- it permutes its input -/
  perm : ∀ l, (run l).Perm l
  /-- it sorts by weight -/
  sorted : ∀ l, (run l).Pairwise (fun a b => a.2 ≤ b.2)

/-- A concrete sort that meets the contract (stable insertion sort), used in examples. -/
def SortBySecond.insertion (α W : Type _) [LinearOrder W] : SortBySecond α W where
  run l := l.insertionSort (fun a b => a.2 ≤ b.2)
  perm l := List.perm_insertionSort _ l
  sorted l := by
    have : Std.Total (fun a b : α × W => a.2 ≤ b.2) := ⟨fun a b => le_total a.2 b.2⟩
    have : IsTrans (α × W) (fun a b : α × W => a.2 ≤ b.2) := ⟨fun a b c => le_trans⟩
    exact List.pairwise_insertionSort _ l

end LHF
