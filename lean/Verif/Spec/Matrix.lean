import Mathlib.Data.List.Basic

/-! Specification vocabulary: square tables. -/

namespace LHF.Spec

/-- The `n × n` table with entry `f i j` in row `i`, column `j`. -/
def table {W : Type _} (n : Nat) (f : Nat → Nat → W) : List (List W) :=
  (List.range n).map (fun i => (List.range n).map (fun j => f i j))

end LHF.Spec
