import Verif.Spec.Rips
import Verif.Spec.Homology
import Verif.Spec.Graph

/-! Specification: homology of the Vietoris–Rips complex of `n` points at a scale, stated from the
distances alone. -/

namespace LHF.Spec

variable {W : Type} [LinearOrder W]

/-- The `k`-chains of the Rips complex at scale `t`: formal sums of vertex sets of size `k + 1` whose
pairwise distances are at most `t`. -/
noncomputable def ripsChains (n : Nat) (d : Nat → Nat → W) (k : Nat) (t : W) :
    Submodule (ZMod 2) Chain :=
  Submodule.span (ZMod 2)
    {x | ∃ s, s.length = k + 1 ∧ IsSimplex n (fun i j => d i j ≤ t) s ∧ x = Finsupp.single s 1}

/-- The `k`-th Betti number over Z/2 of the Rips complex at scale `t`: the dimension of cycles modulo
boundaries. -/
noncomputable def ripsBetti (n : Nat) (d : Nat → Nat → W) (k : Nat) (t : W) : Nat :=
  Module.finrank (ZMod 2)
    ↥((ripsChains n d k t ⊓ LinearMap.ker boundary).map
      ((ripsChains n d (k + 1) t).map boundary).mkQ)

/-- The `k`-th persistent Betti number over Z/2 of the Rips complexes from scale `s` to scale `t`: the
number of classes of dimension `k` at scale `s` that are still there, and still different, at scale
`t` (the dimension of the image of the cycles at `s` modulo the boundaries at `t`). -/
noncomputable def ripsPersistent (n : Nat) (d : Nat → Nat → W) (k : Nat) (s t : W) : Nat :=
  Module.finrank (ZMod 2)
    ↥((ripsChains n d k s ⊓ LinearMap.ker boundary).map
      ((ripsChains n d (k + 1) t).map boundary).mkQ)

/-- The graph on `n` points that joins the pairs at distance at most `t`. -/
def scaleGraph (n : Nat) (d : Nat → Nat → W) (t : W) : SimpleGraph (Fin n) where
  Adj x y := (x < y ∧ d x y ≤ t) ∨ (y < x ∧ d y x ≤ t)
  symm := ⟨fun _ _ h => h.symm⟩
  loopless := ⟨fun x h => by rcases h with h | h <;> exact absurd h.1 (lt_irrefl x)⟩

/-- What a barcode must say about `n` points with distances `d`, for the scales `0 ≤ t` with
`inRange t` and in the dimensions below `dim`:
the dimension-0 lines are finite bars `(0, 0, w)`, in order of `w`, with `w` in range, then the bar up
to `eps`; at every scale the number of components is `n` minus the number of finite bars that have
ended; in dimension `1 ≤ k < dim` the Betti number is the number of bars `[b, w)` that contain the
scale plus the number of never-closed classes (not printed) that were born, in range; there are never
more bars across two scales than classes that live from one to the other; the bars of dimension at
least 1 are not empty and end in range. -/
structure DescribesRips (n : Nat) (d : Nat → Nat → W) [Zero W] (inRange : W → Prop) (eps : W) (dim : Nat)
    (lines : List (Nat × W × W)) : Prop where
  /-- components -/
  zero : ∃ deaths : List W,
    lines.filter (fun l => l.1 = 0) = deaths.map (fun w => (0, 0, w)) ++ [(0, 0, eps)] ∧
    deaths.Pairwise (· ≤ ·) ∧ (∀ w ∈ deaths, 0 ≤ w ∧ inRange w) ∧
    ∀ t, 0 ≤ t → inRange t →
      components (scaleGraph n d t) + (deaths.filter (fun w => w ≤ t)).length = n
  /-- higher homology -/
  higher : ∀ k, 1 ≤ k → k < dim → ∃ open_ : List W, (∀ w ∈ open_, 0 ≤ w ∧ inRange w) ∧
    ∀ t, 0 ≤ t → inRange t → ripsBetti n d k t =
      (lines.filter (fun l => l.1 = k ∧ l.2.1 ≤ t ∧ t < l.2.2)).length +
      (open_.filter (fun w => w ≤ t)).length
  /-- bars do not last longer than classes live -/
  real : ∀ k s t, 1 ≤ k → k < dim → 0 ≤ s → s ≤ t → inRange t →
    (lines.filter (fun l => l.1 = k ∧ l.2.1 ≤ s ∧ t < l.2.2)).length ≤ ripsPersistent n d k s t
  /-- the bars of dimension at least 1 are intervals of the range -/
  bars : ∀ l ∈ lines, 1 ≤ l.1 → 0 ≤ l.2.1 ∧ l.2.1 < l.2.2 ∧ inRange l.2.2
  /-- no lines in other dimensions -/
  only : ∀ l ∈ lines, l.1 = 0 ∨ l.1 < dim

end LHF.Spec
