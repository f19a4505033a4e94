import Mathlib.Data.List.Basic

/-! Specification vocabulary for partitions of a point list. -/

namespace LHF.Spec

/-- The indices `0..n-1` that satisfy `p`, in increasing order. -/
def indicesWhere (n : Nat) (p : Nat → Prop) [DecidablePred p] : List Nat :=
  (List.range n).filter (fun i => p i)

/-- The points with the given indices, in that order. -/
def pointsAt {P : Type _} (data : List P) (idx : List Nat) : List P :=
  idx.filterMap (fun i => data[i]?)

end LHF.Spec
