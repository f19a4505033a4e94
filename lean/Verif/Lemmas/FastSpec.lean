import Verif.Lemmas.Persistence

/-! fastPersistence as a whole. -/

namespace LHF
open Spec

section
variable {W : Type} [LinearOrder W]

omit [LinearOrder W] in
theorem layer0_verts {l : List (List Nat × W)} (h : ∀ e ∈ l, e.1.length = 1) :
    (l.flatMap (·.1)).length = l.length ∧ l.map Prod.fst = (l.flatMap (·.1)).map (fun v => [v]) := by
  induction l with
  | nil => simp
  | cons e l ih =>
    obtain ⟨h1, h2⟩ := ih (fun e he => h e (by simp [he]))
    obtain ⟨v, hv⟩ := List.length_eq_one_iff.1 (h e (by simp))
    rw [List.flatMap_cons, List.length_append, h1, hv, List.map_cons, h2, hv]
    simp; omega

theorem Spec.FilteredComplex.verts {edges : List (List (List Nat × W))} (hF : FilteredComplex edges)
    {l : List (List Nat × W)} (h : edges[0]? = some l) :
    (vertices edges).length = l.length ∧ (vertices edges).Nodup ∧
      l.map Prod.fst = (vertices edges).map (fun v => [v]) := by
  obtain ⟨h1, h2⟩ := layer0_verts (fun e he => ((hF.layer h).1 e he).2)
  have e : vertices edges = l.flatMap (·.1) := by
    unfold vertices; rw [List.getD_eq_getElem?_getD, h]; rfl
  rw [e]
  refine ⟨h1, ?_, h2⟩
  have := (hF.layer h).2.1
  rw [h2] at this
  exact List.Nodup.of_map _ this

theorem Spec.FilteredComplex.isEdge {edges : List (List (List Nat × W))} (hF : FilteredComplex edges)
    {l : List (List Nat × W)} (h : edges[1]? = some l) :
    ∀ e ∈ l, IsEdge (vertices edges) e.1 := by
  intro e he
  obtain ⟨h1, h2⟩ := (hF.layer h).1 e he
  obtain ⟨a, b, hab⟩ := List.length_eq_two.1 h2
  obtain ⟨l0, hl0⟩ : ∃ l0, edges[0]? = some l0 := by
    obtain ⟨l', w, h3, -⟩ := hF.facets 0 l h e he [a] (by rw [hab]; simp) rfl
    exact ⟨l', h3⟩
  have hv : ∀ v ∈ e.1, v ∈ vertices edges := by
    intro v hv
    obtain ⟨w, h3, -⟩ := hF.facet hl0 h he (s := [v]) (by simpa using hv) rfl
    have : [v] ∈ l0.map Prod.fst := List.mem_map.2 ⟨_, h3, rfl⟩
    rw [(hF.verts hl0).2.2] at this
    simpa using this
  rw [hab] at h1 hv
  refine ⟨a, b, ?_, hv a (by simp), hv b (by simp), hab⟩
  simpa [Inc] using h1

variable [Zero W]

/-- The result of the loop over the edges. -/
theorem kruskal_result {edges : List (List (List Nat × W))} (hF : FilteredComplex edges)
    {vs es : List (List Nat × W)} (h0 : edges[0]? = some vs) (h1 : edges[1]? = some es)
    (T0 : List (BettiEntry W)) :
    ∃ F, KInv (vertices edges) es F (kruskalAll es (Kruskal.init T0)) ∧
      (kruskalLoop vs.length es (Kruskal.init T0)).mst = F.map (·.2) ∧
      (kruskalLoop vs.length es (Kruskal.init T0)).pivots = negatives edges 1 ∧
      (kruskalLoop vs.length es (Kruskal.init T0)).table = (kruskalAll es (Kruskal.init T0)).table := by
  obtain ⟨v1, v2, -⟩ := hF.verts h0
  have hE := hF.isEdge h1
  obtain ⟨F, hF'⟩ := kinv_all es hE (kinv_init v2 T0)
  obtain ⟨k1, k2, k3⟩ := kruskalLoop_eq es hE (kinv_init v2 T0)
  rw [List.nil_append] at hF'
  rw [v1] at k1 k2 k3
  refine ⟨F, hF', by rw [k1, hF'.mst], ?_, k3⟩
  rw [k2, kruskal_indep hE hF']
  unfold negatives
  rw [List.getD_eq_getElem?_getD, h1]
  rfl

/-- Lines of the dimensions at least 1. -/
def higherLines (edges : List (List (List Nat × W))) (n : Nat) (pr : Nat → List (Nat × Nat)) :
    List (Line W) :=
  (List.range' 1 n).flatMap (fun k =>
    (pr k).filterMap (lineOf k (edges.getD k []) (edges.getD (k + 1) [])))

theorem fast_spec {mode : EndRead} (hmode : mode ≠ .undefined) (dim : Nat) (eps : W)
    {edges : List (List (List Nat × W))} (hF : FilteredComplex edges) (hlen : 2 ≤ edges.length)
    (output : List (Line W)) (T0 : List (BettiEntry W)) :
    ∃ (F : List (List Nat × W)) (k : Kruskal W) (piv : Nat → List Nat)
      (pr : Nat → List (Nat × Nat)) (T : List (BettiEntry W)),
      k = kruskalAll (edges.getD 1 []) (Kruskal.init T0) ∧
      KInv (vertices edges) (edges.getD 1 []) F k ∧
      fastPersistence mode dim eps edges output T0 =
        .ok (F.map (fun e => (0, 0, e.2)) ++ [(0, 0, eps)] ++
          higherLines edges (min dim (edges.length - 1) - 1) pr,
          k.table ++ [⟨0, 0, eps, []⟩] ++ T) ∧
      T.map toLine = higherLines edges (min dim (edges.length - 1) - 1) pr ∧
      piv 1 = negatives edges 1 ∧
      ∀ j, 1 ≤ j → j < 1 + (min dim (edges.length - 1) - 1) → piv (j + 1) = (pr j).map Prod.snd ∧
        DimOut (cleared mode (piv j)) (edges.getD j []) (edges.getD (j + 1) []) (pr j) := by
  have g0 : edges[0]? = some (edges.getD 0 []) := by
    rw [List.getD_eq_getElem?_getD, List.getElem?_eq_getElem (by omega)]; rfl
  have g1 : edges[1]? = some (edges.getD 1 []) := by
    rw [List.getD_eq_getElem?_getD, List.getElem?_eq_getElem (by omega)]; rfl
  obtain ⟨F, h1, h2, h3, h4⟩ := kruskal_result hF g0 g1 T0
  obtain ⟨piv, pr, T, k1, k2, k3, k4⟩ := reduceDims_spec hmode hF
    (min dim (edges.length - 1) - 1) 1 (by omega) (negatives edges 1) (negatives_inc _ _)
    (F.map (fun e => (0, 0, e.2)) ++ [(0, 0, eps)])
    ((kruskalAll (edges.getD 1 []) (Kruskal.init T0)).table ++ [⟨0, 0, eps, []⟩])
  refine ⟨F, _, piv, pr, T, rfl, h1, ?_, k2, k3, k4⟩
  unfold fastPersistence
  rw [if_neg (by omega), vget_ok.2 g0, ok_bind, vget_ok.2 g1, ok_bind]
  dsimp only
  rw [h2, h3, h4, List.map_map]
  by_cases hd : dim > 0
  · rw [if_pos hd]
    exact k1
  · rw [if_neg hd]
    have : dim = 0 := by omega
    subst this
    have e : min 0 (edges.length - 1) - 1 = 0 := by omega
    rw [e] at k1
    rw [e]
    exact k1

theorem fast_undefined (dim : Nat) (eps : W)
    {edges : List (List (List Nat × W))} (hF : FilteredComplex edges) (hlen : 2 ≤ edges.length)
    (output : List (Line W)) (T0 : List (BettiEntry W)) :
    ((∀ k, 1 ≤ k → k < dim → k + 1 < edges.length → SafeDim edges k) →
      fastPersistence .undefined dim eps edges output T0 =
        fastPersistence .noPivot dim eps edges output T0) ∧
    ((∃ k, 1 ≤ k ∧ k < dim ∧ k + 1 < edges.length ∧ ¬ SafeDim edges k) →
      fastPersistence .undefined dim eps edges output T0 = .error .endDeref) := by
  have g0 : edges[0]? = some (edges.getD 0 []) := by
    rw [List.getD_eq_getElem?_getD, List.getElem?_eq_getElem (by omega)]; rfl
  have g1 : edges[1]? = some (edges.getD 1 []) := by
    rw [List.getD_eq_getElem?_getD, List.getElem?_eq_getElem (by omega)]; rfl
  obtain ⟨F, h1, h2, h3, h4⟩ := kruskal_result hF g0 g1 T0
  obtain ⟨u1, u2⟩ := reduceDims_undefined hF (min dim (edges.length - 1) - 1) 1 (by omega)
    (F.map (fun e => (0, 0, e.2)) ++ [(0, 0, eps)])
    ((kruskalAll (edges.getD 1 []) (Kruskal.init T0)).table ++ [⟨0, 0, eps, []⟩])
  unfold fastPersistence
  rw [if_neg (by omega), if_neg (by omega), vget_ok.2 g0, ok_bind, vget_ok.2 g1, ok_bind, ok_bind,
    ok_bind]
  dsimp only
  rw [h2, h3, h4, List.map_map]
  by_cases hd : dim > 0
  · rw [if_pos hd, if_pos hd]
    refine ⟨fun h => u1 (fun k hk1 hk2 => h k hk1 (by omega) (by omega)), ?_⟩
    rintro ⟨k, hk1, hk2, hk3, hk4⟩
    exact u2 ⟨k, hk1, by omega, hk4⟩
  · rw [if_neg hd, if_neg hd]
    refine ⟨fun _ => rfl, ?_⟩
    rintro ⟨k, hk1, hk2, hk3, hk4⟩
    omega

end
end LHF
