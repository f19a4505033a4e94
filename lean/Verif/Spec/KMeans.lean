import Verif.Props.Distance

/-! Specification of k-means, independent of the model. A centroid is a list of coordinates, each of
which can be undefined. -/

namespace LHF.Spec

/-- The centroid number `c` is defined and has the coordinates `q`. -/
def CentroidAt (cents : List (List (Option ℝ))) (c : Nat) (q : List ℝ) : Prop :=
  cents[c]? = some (q.map some)

/-- `c` is the first of the defined centroids at minimal distance from `x`. -/
def FirstNearest (k : Nat) (x : List ℝ) (cents : List (List (Option ℝ))) (c : Nat) : Prop :=
  ∃ q, CentroidAt cents c q ∧ ∀ c' q', CentroidAt cents c' q' →
    dist (point k x) (point k q) ≤ dist (point k x) (point k q') ∧
    (c' < c → dist (point k x) (point k q) < dist (point k x) (point k q'))

/-- The points labelled `i`. A point without label belongs to no class. -/
def classPoints (data : List (List ℝ)) (labels : List Nat) (i : Nat) : List (List ℝ) :=
  ((data.zip labels).filter (fun p => p.2 = i)).map Prod.fst

/-- `q` is the mean of the points. -/
def IsMean (k : Nat) (pts : List (List ℝ)) (q : List ℝ) : Prop :=
  q.length = k ∧ point k q = (pts.length : ℝ)⁻¹ • (pts.map (point k)).sum

/-- The centroids are the means of the classes; the centroid of an empty class is undefined. -/
def CentroidsAreMeans (k : Nat) (data : List (List ℝ)) (labels : List Nat)
    (cents : List (List (Option ℝ))) : Prop :=
  ∀ i < cents.length,
    (classPoints data labels i = [] → cents[i]? = some (List.replicate k none)) ∧
    (classPoints data labels i ≠ [] → ∃ q, CentroidAt cents i q ∧
      IsMean k (classPoints data labels i) q)

/-- Every labelled point is labelled with the first nearest centroid. -/
def LabelsAreNearest (k : Nat) (data : List (List ℝ)) (labels : List Nat)
    (cents : List (List (Option ℝ))) : Prop :=
  ∀ p ∈ data.zip labels, FirstNearest k p.1 cents p.2

/-- The sum of the squared distances of the labelled points to the centroids of their classes. -/
noncomputable def sse (k : Nat) (data : List (List ℝ)) (labels : List Nat)
    (cents : List (List (Option ℝ))) : ℝ :=
  ((data.zip labels).map (fun p =>
    dist (point k p.1) (point k ((cents.getD p.2 []).map (·.getD 0))) ^ 2)).sum

end LHF.Spec
