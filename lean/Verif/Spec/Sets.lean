import Mathlib.Data.Set.Basic
import Mathlib.Data.List.Nodup

/-! Specification vocabulary for lists that stand for sets of vertex indices. -/

namespace LHF.Spec

/-- `l` lists the elements of the set `S` in strictly increasing order. -/
def Lists (l : List Nat) (S : Set Nat) : Prop :=
  l.Pairwise (· < ·) ∧ ∀ x, x ∈ l ↔ x ∈ S

/-- `v` lists the elements of the set `S`, each once, in any order. -/
def Enumerates (v : List Nat) (S : Set Nat) : Prop :=
  v.Nodup ∧ ∀ x, x ∈ v ↔ x ∈ S

end LHF.Spec
