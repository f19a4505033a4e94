import Mathlib.Order.Lattice
import Mathlib.Data.List.Basic

/-! Specification: the Vietoris–Rips complex of `n` points. Simplices are strictly increasing lists
of vertices. -/

namespace LHF.Spec

/-- `s` is a simplex of the flag (clique) complex on vertices `0..n-1` whose edges are the pairs
`i < j` with `near i j`. -/
def IsSimplex (n : Nat) (near : Nat → Nat → Prop) (s : List Nat) : Prop :=
  s ≠ [] ∧ s.Pairwise (· < ·) ∧ (∀ v ∈ s, v < n) ∧ ∀ i ∈ s, ∀ j ∈ s, i < j → near i j

/-- The diameter of a vertex set: the largest distance of a pair of its vertices (0 for a single
vertex). -/
def diam {W : Type _} [LinearOrder W] [Zero W] (d : Nat → Nat → W) (s : List Nat) : W :=
  (s.flatMap (fun i => (s.filter (fun j => i < j)).map (fun j => d i j))).foldr max 0

/-- The layered list `g` stores exactly the simplices with at most `D+1` vertices of the clique
complex, each once, in the layer of its dimension and with its diameter as weight. -/
structure StoresRips {W : Type _} [LinearOrder W] [Zero W] (g : List (List (List Nat × W)))
    (n : Nat) (d : Nat → Nat → W) (near : Nat → Nat → Prop) (D : Nat) : Prop where
  /-- layer `k` holds exactly the `k`-dimensional simplices, with their diameters -/
  exact : ∀ k s w, k ≤ D → ((∃ layer, g[k]? = some layer ∧ (s, w) ∈ layer) ↔
    s.length = k + 1 ∧ IsSimplex n near s ∧ w = diam d s)
  /-- no simplex is stored twice -/
  once : ∀ layer ∈ g, (layer.map Prod.fst).Nodup
  /-- there are no further layers -/
  only : g.length ≤ D + 1

end LHF.Spec
