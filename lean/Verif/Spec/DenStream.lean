import Verif.Props.Distance
import Mathlib.Analysis.SpecialFunctions.Pow.Real

/-! Specification of the statistics kept for a decaying stream of points. -/

namespace LHF.Spec

/-- Points with the times at which they were inserted, in any order. -/
abbrev History := List (List ℝ × Int)

/-- What an insertion at time `s` counts at time `t`: `2^(-lambda*(t-s))`. -/
noncomputable def decay (lambda : ℝ) (t s : Int) : ℝ := (2 : ℝ) ^ (-lambda * ((t - s : Int) : ℝ))

/-- The sum of the decayed weights at time `t`. -/
noncomputable def totalWeight (lambda : ℝ) (h : History) (t : Int) : ℝ :=
  (h.map (fun p => decay lambda t p.2)).sum

/-- The mean of the points, weighted with the decayed weights at time `t`. -/
noncomputable def decayedMean (k : Nat) (lambda : ℝ) (h : History) (t : Int) :
    EuclideanSpace ℝ (Fin k) :=
  (totalWeight lambda h t)⁻¹ • (h.map (fun p => decay lambda t p.2 • point k p.1)).sum

/-- The variance of the points: the weighted mean of their squared distances from the weighted mean.
-/
noncomputable def decayedVariance (k : Nat) (lambda : ℝ) (h : History) (t : Int) : ℝ :=
  (totalWeight lambda h t)⁻¹ *
    (h.map (fun p => decay lambda t p.2 * dist (point k p.1) (decayedMean k lambda h t) ^ 2)).sum

/-- The radius: the standard deviation. -/
noncomputable def radius (k : Nat) (lambda : ℝ) (h : History) (t : Int) : ℝ :=
  Real.sqrt (decayedVariance k lambda h t)

/-- Among groups of points, given by their histories, `i` is the first one whose mean is nearest to
`x`. -/
def NearestGroup (k : Nat) (lambda : ℝ) (hs : List History) (x : List ℝ) (t : Int) (i : Nat) : Prop :=
  ∃ h, hs[i]? = some h ∧ ∀ j h', hs[j]? = some h' →
    dist (decayedMean k lambda h t) (point k x) ≤ dist (decayedMean k lambda h' t) (point k x) ∧
    (j < i → dist (decayedMean k lambda h t) (point k x) <
      dist (decayedMean k lambda h' t) (point k x))

/-- The nearest group, if there is one, would get too large with `x`. -/
def Refused (k : Nat) (lambda epsilon : ℝ) (hs : List History) (x : List ℝ) (t : Int) : Prop :=
  ∀ i h, NearestGroup k lambda hs x t i → hs[i]? = some h →
    epsilon < radius k lambda (h ++ [(x, t)]) t

/-- The rule by which a point `x` of the stream is added at time `t`. The state is the histories of
the potential groups `p` and of the outlier groups `o`. -/
inductive Absorb (k : Nat) (lambda epsilon threshold : ℝ) (p o : List History) (x : List ℝ) (t : Int) :
    List History → List History → Prop
  /-- the nearest potential group takes the point -/
  | potential (i : Nat) (h : History) : NearestGroup k lambda p x t i → p[i]? = some h →
      radius k lambda (h ++ [(x, t)]) t ≤ epsilon →
      Absorb k lambda epsilon threshold p o x t (p.set i (h ++ [(x, t)])) o
  /-- otherwise the nearest outlier group takes it -/
  | outlier (i : Nat) (h : History) : Refused k lambda epsilon p x t →
      NearestGroup k lambda o x t i → o[i]? = some h →
      radius k lambda (h ++ [(x, t)]) t ≤ epsilon →
      totalWeight lambda (h ++ [(x, t)]) t ≤ threshold →
      Absorb k lambda epsilon threshold p o x t p (o.set i (h ++ [(x, t)]))
  /-- and if this group is heavy enough, it becomes a potential group -/
  | promote (i : Nat) (h : History) : Refused k lambda epsilon p x t →
      NearestGroup k lambda o x t i → o[i]? = some h →
      radius k lambda (h ++ [(x, t)]) t ≤ epsilon →
      threshold < totalWeight lambda (h ++ [(x, t)]) t →
      Absorb k lambda epsilon threshold p o x t (p ++ [h ++ [(x, t)]]) (o.eraseIdx i)
  /-- otherwise the point forms a new outlier group -/
  | new : Refused k lambda epsilon p x t → Refused k lambda epsilon o x t →
      Absorb k lambda epsilon threshold p o x t p (o ++ [[(x, t)]])

/-- The histories of the first groups: the rows with each of the labels `1, ..., M`. -/
def initGroups (data : List (List ℝ)) (labels : List Int) (t : Int) (M n : Nat) : List History :=
  (List.range M).map (fun c : Nat => ((List.range n).filter (fun i => labels.getD i 0 = (c : Int) + 1)).map
    (fun i => (data.getD i [], t)))

/-- The time at which a group was founded: the time of its first point. -/
def founded (h : History) : Int := (h.head?.map Prod.snd).getD 0

/-- The weight below which an outlier group founded at time `t0` is dropped by a check at time `t`, if
checks are `Tp` apart. -/
noncomputable def outlierLimit (lambda : ℝ) (Tp t t0 : Int) : ℝ :=
  ((2 : ℝ) ^ (-lambda * ((t - t0 + Tp : Int) : ℝ)) - 1) / ((2 : ℝ) ^ (-lambda * (Tp : ℝ)) - 1)

open Classical in
/-- The potential groups that survive a check at time `t`: those with at least the threshold weight. -/
noncomputable def checkedPotential (lambda threshold : ℝ) (t : Int) (p : List History) : List History :=
  p.filter (fun h => threshold ≤ totalWeight lambda h t)

open Classical in
/-- The outlier groups that survive a check at time `t`. -/
noncomputable def checkedOutliers (lambda : ℝ) (Tp t : Int) (o : List History) : List History :=
  o.filter (fun h => outlierLimit lambda Tp t (founded h) ≤ totalWeight lambda h t)

/-- The streaming phase: row number `i` (from 0) and the following rows `xs` are added to the groups.
`speed` rows arrive in a unit of time, so row `i` has the time `(i + 1) / speed`. It is added by the
rule `Absorb`; at the end of every `Tp`-th unit of time the groups are checked. -/
inductive Streamed (k : Nat) (lambda epsilon threshold : ℝ) (speed : Nat) (Tp : Int) :
    Nat → List (List ℝ) → List History → List History → List History → List History → Prop
  /-- no row is left -/
  | done (i : Nat) (p o : List History) : Streamed k lambda epsilon threshold speed Tp i [] p o p o
  /-- a row without check -/
  | row {i : Nat} {x : List ℝ} {xs : List (List ℝ)} {p o p1 o1 p' o' : List History} :
      Absorb k lambda epsilon threshold p o x ((i + 1) / speed : Nat) p1 o1 →
      ¬ (speed ∣ i + 1 ∧ Tp ∣ (((i + 1) / speed : Nat) : Int)) →
      Streamed k lambda epsilon threshold speed Tp (i + 1) xs p1 o1 p' o' →
      Streamed k lambda epsilon threshold speed Tp i (x :: xs) p o p' o'
  /-- a row with check -/
  | check {i : Nat} {x : List ℝ} {xs : List (List ℝ)} {p o p1 o1 p' o' : List History} :
      Absorb k lambda epsilon threshold p o x ((i + 1) / speed : Nat) p1 o1 →
      speed ∣ i + 1 → Tp ∣ (((i + 1) / speed : Nat) : Int) →
      Streamed k lambda epsilon threshold speed Tp (i + 1) xs
        (checkedPotential lambda threshold ((i + 1) / speed : Nat) p1)
        (checkedOutliers lambda Tp ((i + 1) / speed : Nat) o1) p' o' →
      Streamed k lambda epsilon threshold speed Tp i (x :: xs) p o p' o'

end LHF.Spec
