import Verif.Spec.Homology

/-! Specification: which simplex closes a bar when every boundary is named after its oldest simplex. -/

namespace LHF.Spec

variable {W : Type}

/-- `p` is the oldest simplex of the chain `c` among the simplices of layer `k` that are not negative. -/
def OldestPositive (edges : List (List (List Nat × W))) (k : Nat) (c : Chain) (p : Nat) : Prop :=
  ¬ Negative edges k p ∧ (∃ e, (edges.getD k [])[p]? = some e ∧ c e.1 ≠ 0) ∧
  ∀ i e, i < p → ¬ Negative edges k i → (edges.getD k [])[i]? = some e → c e.1 = 0

/-- Simplex `q` of layer `k + 1` closes simplex `p` of layer `k`: with `q`, and not before, there is a
boundary whose oldest simplex is `p`. -/
def ClosesOldest (edges : List (List (List Nat × W))) (k p q : Nat) : Prop :=
  q < (edges.getD (k + 1) []).length ∧
  (∃ c ∈ chains (((edges.getD (k + 1) []).take (q + 1)).map Prod.fst),
    OldestPositive edges k (boundary c) p) ∧
  ¬ ∃ c ∈ chains (((edges.getD (k + 1) []).take q).map Prod.fst),
    OldestPositive edges k (boundary c) p

end LHF.Spec
