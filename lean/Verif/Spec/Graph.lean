import Mathlib.Combinatorics.SimpleGraph.Connectivity.Connected
import Mathlib.SetTheory.Cardinal.Finite

/-! Specification: the graph of a list of weighted edges and its connected components. -/

namespace LHF.Spec

/-- The graph on the given vertices whose edges are the listed vertex pairs. -/
def edgeGraph {W : Type} (verts : List Nat) (E : List (List Nat × W)) :
    SimpleGraph {v // v ∈ verts} where
  Adj x y := x ≠ y ∧ ∃ e ∈ E, x.1 ∈ e.1 ∧ y.1 ∈ e.1
  symm := ⟨fun _ _ ⟨h, e, he, hx, hy⟩ => ⟨h.symm, e, he, hy, hx⟩⟩
  loopless := ⟨fun _ h => h.1 rfl⟩

/-- Number of connected components. -/
noncomputable def components {V : Type} (G : SimpleGraph V) : Nat := Nat.card G.ConnectedComponent

/-- `e` joins two distinct vertices of `verts`, written in increasing order. -/
def IsEdge (verts : List Nat) (e : List Nat) : Prop :=
  ∃ a b, a < b ∧ a ∈ verts ∧ b ∈ verts ∧ e = [a, b]

end LHF.Spec
