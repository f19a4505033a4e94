import Mathlib.Order.Defs.LinearOrder
import Mathlib.Data.List.Sort

/-! Specification: a filtered simplicial complex, given as one weight-sorted list per dimension. -/

namespace LHF.Spec

/-- `edges[k]` lists the `k`-simplices (strictly increasing vertex lists) in non-decreasing weight
order, each once; every facet of a listed simplex is listed, with a weight that is not larger. -/
structure FilteredComplex {W : Type} [LinearOrder W] (edges : List (List (List Nat × W))) :
    Prop where
  /-- layer `k` holds increasing vertex lists of length `k + 1` -/
  shape : ∀ k layer, edges[k]? = some layer → ∀ e ∈ layer,
    e.1.Pairwise (· < ·) ∧ e.1.length = k + 1
  /-- no repetitions -/
  once : ∀ layer ∈ edges, (layer.map Prod.fst).Nodup
  /-- sorted by weight -/
  sorted : ∀ layer ∈ edges, layer.Pairwise (fun a b => a.2 ≤ b.2)
  /-- closed under facets, with monotone weights -/
  facets : ∀ k layer, edges[k + 1]? = some layer → ∀ e ∈ layer, ∀ s : List Nat,
    s.Sublist e.1 → s.length = k + 1 →
    ∃ layer' w, edges[k]? = some layer' ∧ (s, w) ∈ layer' ∧ w ≤ e.2

/-- The vertices of a complex. -/
def vertices {W : Type} (edges : List (List (List Nat × W))) : List Nat :=
  (edges.getD 0 []).flatMap (·.1)

/-- The number of simplices in the layers before layer `d`: the place of the first simplex of layer
`d` in the list of all simplices. -/
def offset {W : Type} (edges : List (List (List Nat × W))) (d : Nat) : Nat :=
  ((edges.take d).map List.length).sum

end LHF.Spec
