import Mathlib.Data.List.Basic
import Verif.Props.Distance
import Mathlib.Order.Defs.LinearOrder

/-!
Vocabulary for the window properties, independent of the model.
-/

namespace LHF.Spec

/-- The last `min n l.length` elements of a list, in order. -/
def lastN {P : Type} (n : Nat) (l : List P) : List P := l.drop (l.length - n)

/-- `l` holds an element attaining the smallest value of `f` among the indices below `n` other than
`i`: the nearest neighbour of `i`, and the smallest index among equals. -/
structure NearestOther {W : Type} [LinearOrder W] (n : Nat) (f : Nat → W) (i j : Nat) : Prop where
  lt : j < n
  ne : j ≠ i
  min : ∀ k, k < n → k ≠ i → f j ≤ f k
  first : ∀ k, k < j → k ≠ i → f j < f k

/-- The distance of `x` from the nearest point of `w`. -/
noncomputable def nearestDist (k : Nat) (w : List (List ℝ)) (x : List ℝ) : ℝ :=
  sInf {d | ∃ y ∈ w, d = dist (point k x) (point k y)}

/-- The mean, over the points of `w`, of the distance to the nearest other point of `w`. -/
noncomputable def meanNearest (k : Nat) (w : List (List ℝ)) : ℝ :=
  (∑ i ∈ Finset.range w.length, nearestDist k (w.eraseIdx i) (w.getD i [])) / w.length

/-- A row that does not stand out from the window `w`: it equals a point of the window, or it is at most
1 away and the window is dense, or it is at most four times the mean distance of neighbours away. -/
def Ordinary (k : Nat) (w : List (List ℝ)) (x : List ℝ) : Prop :=
  nearestDist k w x = 0 ∨ (meanNearest k w ≤ 1 / 4 ∧ nearestDist k w x ≤ 1) ∨
    (meanNearest k w ≠ 0 ∧ nearestDist k w x ≤ 4 * meanNearest k w)

end LHF.Spec
