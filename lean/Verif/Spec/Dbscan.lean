import Mathlib.Logic.Relation
import Mathlib.Data.List.Basic

/-!
Specification of density-based clustering on the points `0, ..., n-1`, of which `N i` are the
neighbours.
-/

namespace LHF.Spec

/-- A core point has at least `minPoints` neighbours. -/
def Core (N : Nat → List Nat) (minPoints : Nat) (i : Nat) : Prop := minPoints ≤ (N i).length

/-- A step from a core point to a core point in its neighbourhood. -/
def CoreStep (N : Nat → List Nat) (minPoints n : Nat) (i j : Nat) : Prop :=
  i < n ∧ j < n ∧ Core N minPoints i ∧ Core N minPoints j ∧ j ∈ N i

/-- Two core points are connected: there is a chain of steps between them, in either direction. -/
def Connected (N : Nat → List Nat) (minPoints n : Nat) (i j : Nat) : Prop :=
  Relation.EqvGen (CoreStep N minPoints n) i j

/-- A labelling of `n` points with `m` clusters is a density-based clustering. -/
structure IsClustering (N : Nat → List Nat) (minPoints n m : Nat) (label : Nat → Int) : Prop where
  /-- the labels are -1 and 1, ..., m -/
  range : ∀ i, i < n → label i = -1 ∨ (1 ≤ label i ∧ label i ≤ m)
  /-- every cluster has a point -/
  used : ∀ c : Int, 1 ≤ c → c ≤ m → ∃ i, i < n ∧ label i = c
  /-- noise: neither a core point nor a neighbour of one -/
  noise : ∀ i, i < n → (label i = -1 ↔
    ¬ Core N minPoints i ∧ ∀ j, j < n → Core N minPoints j → i ∉ N j)
  /-- a point of a cluster is a neighbour of a core point of the cluster -/
  reachable : ∀ i, i < n → 1 ≤ label i →
    ∃ j, j < n ∧ Core N minPoints j ∧ label j = label i ∧ i ∈ N j
  /-- core points of a cluster are connected -/
  connected : ∀ i j, i < n → j < n → Core N minPoints i → Core N minPoints j → label i = label j →
    Connected N minPoints n i j

end LHF.Spec
