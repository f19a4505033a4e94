import Mathlib.Data.List.Basic
import Mathlib.Order.Defs.LinearOrder
import Mathlib.Logic.Relation

/-! Specification: what the option `collapse` does to a simplexArrayList. -/

namespace LHF.Spec

variable {W : Type}

/-- `f` is the face that goes together with the simplex `e`: of the facets of `e` that have the weight
of `e`, the one that misses the smallest vertex. `lower` is the list of the simplices one dimension
below. -/
def Chosen (lower : List (List Nat × W)) (e : List Nat × W) (f : List Nat) : Prop :=
  ∃ k, k < e.1.length ∧ f = e.1.eraseIdx k ∧ (f, e.2) ∈ lower ∧
    ∀ j, j < k → (e.1.eraseIdx j, e.2) ∉ lower

open Classical in
/-- From the highest dimension downwards, drop the faces chosen by the simplices that remain one
dimension above. -/
noncomputable def remaining : List (List (List Nat × W)) → List (List (List Nat × W))
  | [] => []
  | layer :: upper =>
    layer.filter (fun f => decide (¬ ∃ e ∈ (remaining upper).headD [], Chosen layer e f.1)) ::
      remaining upper

/-- The layers `edges, triangles, ...` after the collapse: of the remaining simplices only the edges are
kept. -/
noncomputable def keepLowest (g : List (List (List Nat × W))) : List (List (List Nat × W)) :=
  match remaining g with
  | [] => []
  | layer :: upper => layer :: upper.map (fun _ => [])

/-- The collapsed complex: all points, the edges not chosen by a remaining triangle, nothing else. -/
noncomputable def collapsed (g : List (List (List Nat × W))) : List (List (List Nat × W)) :=
  g.take 1 ++ keepLowest (g.drop 1)

/-- Layers hold increasing vertex lists of the right length, without repetitions, with weights that are
not negative, and every simplex with at least three vertices has a facet with its weight. -/
structure Collapsible [LinearOrder W] [Zero W] (g : List (List (List Nat × W))) : Prop where
  shape : ∀ k layer, g[k]? = some layer → ∀ e ∈ layer, e.1.Pairwise (· < ·) ∧ e.1.length = k + 1
  once : ∀ layer ∈ g, (layer.map Prod.fst).Nodup
  nonneg : ∀ layer ∈ g, ∀ e ∈ layer, 0 ≤ e.2
  heavy : ∀ k lower layer, g[k + 1]? = some lower → g[k + 2]? = some layer → ∀ e ∈ layer,
    ∃ j, j < e.1.length ∧ (e.1.eraseIdx j, e.2) ∈ lower

end LHF.Spec

namespace LHF.Spec

/-- Two points are linked at scale `t`: a path of edges with weight at most `t` joins them. -/
def Linked {W : Type} [LinearOrder W] (edges : List (List Nat × W)) (t : W) : Nat → Nat → Prop :=
  Relation.EqvGen (fun a b => ∃ w, w ≤ t ∧ ([a, b], w) ∈ edges)

end LHF.Spec
