import Mathlib.LinearAlgebra.Finsupp.LinearCombination
import Mathlib.LinearAlgebra.Dimension.Finrank
import Mathlib.LinearAlgebra.Quotient.Basic
import Mathlib.Data.ZMod.Basic
import Mathlib.Algebra.BigOperators.Group.Finset.Basic

/-! Specification: simplicial homology over Z/2 of a weighted complex. A chain is a finite formal sum
of vertex lists. -/

namespace LHF.Spec

/-- Chains over Z/2. -/
abbrev Chain := List Nat →₀ ZMod 2

/-- The boundary of a simplex: the sum of the simplices obtained by leaving out one vertex. (The
boundary of a vertex is the empty simplex: in dimension 0 the homology below is reduced homology.) -/
noncomputable def boundaryOf (s : List Nat) : Chain :=
  ∑ i ∈ Finset.range s.length, Finsupp.single (s.eraseIdx i) 1

/-- The boundary map. -/
noncomputable def boundary : Chain →ₗ[ZMod 2] Chain :=
  Finsupp.linearCombination (ZMod 2) boundaryOf

/-- The chains on the simplices of a list. -/
noncomputable def chains (simplices : List (List Nat)) : Submodule (ZMod 2) Chain :=
  Submodule.span (ZMod 2) {x | ∃ s ∈ simplices, x = Finsupp.single s 1}

/-- The simplices of dimension `k` with weight at most `t`. -/
def sublevel {W : Type} [LinearOrder W] (edges : List (List (List Nat × W))) (k : Nat) (t : W) :
    List (List Nat) :=
  ((edges.getD k []).filter (fun e => e.2 ≤ t)).map (·.1)

/-- The `k`-cycles at threshold `t`. -/
noncomputable def cycles {W : Type} [LinearOrder W] (edges : List (List (List Nat × W)))
    (k : Nat) (t : W) : Submodule (ZMod 2) Chain :=
  chains (sublevel edges k t) ⊓ LinearMap.ker boundary

/-- The `k`-boundaries at threshold `t`. -/
noncomputable def boundaries {W : Type} [LinearOrder W] (edges : List (List (List Nat × W)))
    (k : Nat) (t : W) : Submodule (ZMod 2) Chain :=
  (chains (sublevel edges (k + 1) t)).map boundary

/-- The `k`-th persistent Betti number from `s` to `t`: the dimension of the image of the cycles at `s`
in the chains modulo the boundaries at `t`. -/
noncomputable def persistentBetti {W : Type} [LinearOrder W] (edges : List (List (List Nat × W)))
    (k : Nat) (s t : W) : Nat :=
  Module.finrank (ZMod 2) ↥((cycles edges k s).map (boundaries edges k t).mkQ)

/-- The `k`-th Betti number at threshold `t`: the dimension of cycles modulo boundaries. -/
noncomputable def betti {W : Type} [LinearOrder W] (edges : List (List (List Nat × W)))
    (k : Nat) (t : W) : Nat :=
  persistentBetti edges k t t

/-- Position `i` of layer `k` holds a negative simplex: its boundary is not a sum of boundaries of
earlier simplices of the layer. -/
def Negative {W : Type} (edges : List (List (List Nat × W))) (k i : Nat) : Prop :=
  ∃ e, (edges.getD k [])[i]? = some e ∧
    boundaryOf e.1 ∉ (chains (((edges.getD k []).take i).map Prod.fst)).map boundary

end LHF.Spec
