import Verif.Model.Basic
import Mathlib.Algebra.Order.Group.Defs

/-!
Model of Preprocessing/kdTree.cpp. Coordinates and distances are in an ordered group `K`. The distance
(`utils::vectors_distance`), the sort and the function `abs` are parameters: the unqualified `abs` of
lines 204 and 271 is, depending on the headers, the absolute value of a double or the one of an int,
which cuts off the decimals.
-/

namespace LHF

/-- A point with its index in the data. -/
abbrev PointIndex (K : Type) := List K × Nat

/-- Preprocessing/kdTree.cpp:47-61: a node; `empty` is a default node, whose point has no
coordinates. -/
inductive KdTree (K : Type) where
  | empty
  | node (x : List K) (index : Nat) (left right : KdTree K)

section
variable {K : Type} [AddCommGroup K] [LinearOrder K]

/-- The contract of `std::sort` with `sortByLevel` (Preprocessing/kdTree.cpp:73-75, 87) on points that
have the coordinate `level`: some permutation in non-decreasing order of this coordinate. -/
structure SortByLevel (K : Type) [AddCommGroup K] [LinearOrder K] where
  /-- the sorting function -/
  run : Nat → List (PointIndex K) → List (PointIndex K)
  /-- it permutes its input -/
  perm : ∀ level l, (run level l).Perm l
  /-- it sorts by the coordinate -/
  sorted : ∀ level l, (∀ p ∈ l, level < p.1.length) →
    (run level l).Pairwise (fun a b => a.1.getD level 0 ≤ b.1.getD level 0)

/-- A concrete sort that meets the contract, used in examples. -/
def SortByLevel.insertion (K : Type) [AddCommGroup K] [LinearOrder K] : SortByLevel K where
  run level l := l.insertionSort (fun a b => a.1.getD level 0 ≤ b.1.getD level 0)
  perm level l := List.perm_insertionSort _ l
  sorted level l _ := by
    have : Std.Total (fun a b : PointIndex K => a.1.getD level 0 ≤ b.1.getD level 0) :=
      ⟨fun a b => le_total _ _⟩
    have : IsTrans (PointIndex K) (fun a b => a.1.getD level 0 ≤ b.1.getD level 0) :=
      ⟨fun a b c => le_trans⟩
    exact List.pairwise_insertionSort _ l

/-- Preprocessing/kdTree.cpp:78-116 `makeTree` on a range of points. The range shrinks in every call;
the first argument bounds the depth, and the number of points is enough. Sorting two or more points
reads the coordinate `level` of each of them. -/
def makeTree (S : SortByLevel K) : Nat → List (PointIndex K) → Nat → Res (KdTree K)
  | 0, _, _ => pure .empty
  | _ + 1, [], _ => pure .empty
  | fuel + 1, p :: ps, level =>
    let dim := p.1.length
    let length := ps.length + 1
    if length > 1 ∧ (p :: ps).any (fun q => q.1.length ≤ level) then .error .oob
    else do
      let pts := if length > 1 then S.run level (p :: ps) else p :: ps
      let half := length / 2
      let middle ← vget pts half
      let left ←
        if half > 0 ∧ dim > 0 then makeTree S fuel (pts.take half) ((level + 1) % dim)
        else pure .empty
      let right ←
        if length - half - 1 > 0 ∧ dim > 0 then
          makeTree S fuel (pts.drop (half + 1)) ((level + 1) % dim)
        else pure .empty
      pure (.node middle.1 middle.2 left right)

/-- Preprocessing/kdTree.cpp:136-156: the constructor from the first `size` points of the data, all of
them if `size` is 0. -/
def kdTreeOf (S : SortByLevel K) (data : List (List K)) (size : Nat) : Res (KdTree K) :=
  let size := if size = 0 then data.length else size
  if size > data.length then .error .oob
  else makeTree S size ((data.take size).zipIdx) 0

/-- `v.at(i)`: an exception outside the range. -/
def vat {α : Type _} (l : List α) (i : Nat) : Res α :=
  match l[i]? with
  | some a => .ok a
  | none => .error .exn

/-- Preprocessing/kdTree.cpp:196-202 and 206-212: `further` replaces the best node if it is nearer. -/
def improve (dist : List K → List K → Res K) (pt : List K) (best : PointIndex K) (bestDist : K) :
    Option (PointIndex K) → Res (PointIndex K × K)
  | none => pure (best, bestDist)
  | some q =>
    if q.1.isEmpty then pure (best, bestDist)
    else do
      let dl ← dist q.1 pt
      if dl < bestDist then pure (q, dl) else pure (best, bestDist)

/-- Preprocessing/kdTree.cpp:160-216 `findNearest`; `none` is an empty node. The left subtree is
`section` and the right one `other` if `dx > 0`, otherwise they are swapped. -/
def findNearest (dist : List K → List K → Res K) (ab : K → K) (pt : List K) :
    KdTree K → Nat → PointIndex K → K → Res (Option (PointIndex K))
  | .empty, _, _, _ => pure none
  | .node x i l r, level, best, bestDist =>
    if x.isEmpty then pure none
    else do
      let d ← dist x pt
      let xl ← vat x level
      let pl ← vat pt level
      let dx := xl - pl
      let bestL := if d < bestDist then (x, i) else best
      let bestDistL := if d < bestDist then d else bestDist
      let nextLv := (level + 1) % x.length
      let further ←
        if dx > 0 then findNearest dist ab pt l nextLv bestL bestDistL
        else findNearest dist ab pt r nextLv bestL bestDistL
      let b ← improve dist pt bestL bestDistL further
      if ab dx < b.2 then do
        let further ←
          if dx > 0 then findNearest dist ab pt r nextLv b.1 b.2
          else findNearest dist ab pt l nextLv b.1 b.2
        let b' ← improve dist pt b.1 b.2 further
        pure (some b'.1)
      else pure (some b.1)

/-- The point and the index stored in a node; the index of an empty node is not initialised. -/
def KdTree.root? : KdTree K → Option (PointIndex K)
  | .empty => none
  | .node x i _ _ => some (x, i)

/-- Preprocessing/kdTree.cpp:220-224 `nearest`. For an empty tree the distance of the empty point is
computed and an empty node is returned. -/
def nearest (dist : List K → List K → Res K) (ab : K → K) (root : KdTree K) (pt : List K) :
    Res (Option (PointIndex K)) :=
  match root.root? with
  | none => do
    let _ ← dist [] pt
    pure none
  | some p => do
    let d ← dist p.1 pt
    findNearest dist ab pt root 0 p d

/-- Preprocessing/kdTree.cpp:231-233 `nearestIndex`. -/
def nearestIndex (dist : List K → List K → Res K) (ab : K → K) (root : KdTree K) (pt : List K) :
    Res Nat := do
  match ← nearest dist ab root pt with
  | some p => pure p.2
  | none => .error .uninit

/-- Preprocessing/kdTree.cpp:240-278 `neighborhood`. -/
def neighborhood (dist : List K → List K → Res K) (ab : K → K) (pt : List K) (rad : K) :
    KdTree K → Nat → Res (List (PointIndex K))
  | .empty, _ => pure []
  | .node x i l r, level =>
    if x.isEmpty then pure []
    else do
      let d ← dist x pt
      let xl ← vat x level
      let pl ← vat pt level
      let dx := xl - pl
      let nbh := if d ≤ rad then [(x, i)] else []
      let next := (level + 1) % pt.length
      let nbhS ←
        if dx > 0 then neighborhood dist ab pt rad l next else neighborhood dist ab pt rad r next
      if ab dx < rad then do
        let nbhO ←
          if dx > 0 then neighborhood dist ab pt rad r next else neighborhood dist ab pt rad l next
        pure (nbh ++ nbhS ++ nbhO)
      else pure (nbh ++ nbhS)

/-- Preprocessing/kdTree.cpp:292-297 `neighborhoodIndices`. -/
def neighborhoodIndices (dist : List K → List K → Res K) (ab : K → K) (root : KdTree K)
    (pt : List K) (rad : K) : Res (List Nat) := do
  let nbh ← neighborhood dist ab pt rad root 0
  pure (nbh.map Prod.snd)

end

end LHF
