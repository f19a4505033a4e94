import Mathlib.LinearAlgebra.Dimension.Finrank
import Mathlib.LinearAlgebra.Pi
import Mathlib.Data.ZMod.Basic

/-! Specification: linear algebra over Z/2 on 0/1 matrices given as lists of rows. -/

namespace LHF.Spec

/-- All rows have length `n` and entries 0 or 1. -/
def IsBinary (m : List (List Nat)) (n : Nat) : Prop :=
  ∀ row ∈ m, row.length = n ∧ ∀ x ∈ row, x = 0 ∨ x = 1

/-- A row as a vector over Z/2, zero beyond its length. -/
def bits (row : List Nat) : Nat → ZMod 2 := fun c => (row.getD c 0 : ZMod 2)

/-- A set of row indices as a vector over Z/2. -/
def bitsOfSet (c : List Nat) : Nat → ZMod 2 := fun x => if x ∈ c then 1 else 0

/-- The span of a list of vectors. -/
def spanOf (l : List (Nat → ZMod 2)) : Submodule (ZMod 2) (Nat → ZMod 2) :=
  Submodule.span (ZMod 2) {x | x ∈ l}

/-- The rank over Z/2 of a 0/1 matrix: the dimension of the span of its rows. -/
noncomputable def rank (m : List (List Nat)) : Nat :=
  Module.finrank (ZMod 2) (spanOf (m.map bits))

/-- Row `j` of the list of vectors is not a Z/2-combination of the rows before it. -/
def NewRow (l : List (Nat → ZMod 2)) (j : Nat) : Prop :=
  ∃ v, l[j]? = some v ∧ v ∉ spanOf (l.take j)

end LHF.Spec
