import Verif.Lemmas.Natural

/-! The array complex only compares and copies weights: under a strictly increasing change of the weights
that keeps zero, the result changes in the same way. -/

namespace LHF

section
variable {W V : Type} [LinearOrder W] [LinearOrder V]

theorem mapW_injective {φ : W → V} (hφ : StrictMono φ) : Function.Injective (mapW φ) := by
  intro a b h
  have h1 : (mapW φ a).1 = (mapW φ b).1 := by rw [h]
  have h2 : (mapW φ a).2 = (mapW φ b).2 := by rw [h]
  exact Prod.ext h1 (hφ.injective h2)

theorem mem_mapW {φ : W → V} (hφ : StrictMono φ) (e : List Nat × W) (l : List (List Nat × W)) :
    mapW φ e ∈ l.map (mapW φ) ↔ e ∈ l := List.mem_map_of_injective (mapW_injective hφ)

theorem natural_range_fold {β β' : Type} (g : β → β') {step : β → Nat → Res β} {step' : β' → Nat → Res β'}
    (hs : ∀ b a, step' (g b) a = g <$> step b a) (l : List Nat) (b : β) :
    l.foldlM step' (g b) = g <$> l.foldlM step b := by
  have := natural_foldlM g id hs l b
  rwa [List.map_id] at this

omit [LinearOrder W] [LinearOrder V] in
theorem natural_pushLayer (φ : W → V) (g : Graph W) (i : Nat) (e : List Nat × W) :
    vmodify (mapG φ g) i (· ++ [mapW φ e]) = mapG φ <$> vmodify g i (· ++ [e]) :=
  natural_vmodify (List.map (mapW φ)) (fun a => by simp) g i

theorem natural_insertEdges {φ : W → V} (hφ : StrictMono φ) (eps : W) (dm : List (List W)) (i : Nat) (g : Graph W) :
    insertEdges (φ eps) (dm.map (List.map φ)) i (mapG φ g) = mapG φ <$> insertEdges eps dm i g := by
  unfold insertEdges
  refine natural_range_fold (mapG φ) (fun g j => ?_) _ g
  refine natural_bind φ _ (natural_at2 φ dm j i) (fun d => ?_)
  by_cases hd : d ≤ eps
  · rw [if_pos hd, if_pos (hφ.monotone hd)]
    have e1 : (mapG φ g).length = g.length := List.length_map _
    rw [e1]
    by_cases h1 : g.length = 1
    · rw [if_pos h1, if_pos h1]
      show Except.ok _ = Except.ok _
      simp [mapG, mapW]
    · rw [if_neg h1, if_neg h1]
      refine natural_bind (List.map (mapW φ)) _ (natural_vget _ g 1) (fun edges => ?_)
      have hm := mem_mapW hφ ([j, i], d) edges
      by_cases he : ([j, i], d) ∈ edges
      · rw [if_pos he, if_pos (show ([j, i], φ d) ∈ edges.map (mapW φ) from hm.2 he)]
        rfl
      · rw [if_neg he, if_neg (show ¬ ([j, i], φ d) ∈ edges.map (mapW φ) from fun h => he (hm.1 h))]
        exact natural_pushLayer φ g 1 ([j, i], d)
  · rw [if_neg hd, if_neg (fun h => hd (hφ.le_iff_le.1 h))]
    rfl

section
variable [Zero W] [Zero V]

theorem natural_arrayInsert {K : Type} {φ : W → V} (hφ : StrictMono φ) (h0 : φ 0 = 0) (eps : W) (dim : Nat)
    (dm : List (List W)) (p : List K) (g : Graph W) :
    arrayInsert (φ eps) dim (dm.map (List.map φ)) p (mapG φ g) = mapG φ <$> arrayInsert eps dim dm p g := by
  unfold arrayInsert
  by_cases hp : p.isEmpty = true
  · rw [if_pos hp, if_pos hp]
    rfl
  · rw [if_neg hp, if_neg hp]
    cases g with
    | nil =>
      show Except.ok _ = Except.ok _
      simp [mapG, mapW, h0]
    | cons verts rest =>
      have hl : (verts.map (mapW φ)).length = verts.length := List.length_map _
      have push : ∀ g : Graph W, vmodify (mapG φ g) 0 (· ++ [([(verts.map (mapW φ)).length], (0 : V))]) =
          mapG φ <$> vmodify g 0 (· ++ [([verts.length], (0 : W))]) := by
        intro g
        have := natural_pushLayer φ g 0 ([verts.length], (0 : W))
        rw [hl]
        rwa [show mapW φ ([verts.length], (0 : W)) = ([verts.length], (0 : V)) from by simp [mapW, h0]] at this
      by_cases hd : dim > 0
      · show (if dim > 0 then _ else _) = mapG φ <$> (if dim > 0 then _ else _)
        rw [if_pos hd, if_pos hd]
        refine natural_bind (mapG φ) _ ?_ push
        rw [hl]
        exact natural_insertEdges hφ eps dm verts.length (verts :: rest)
      · show (if dim > 0 then _ else _) = mapG φ <$> (if dim > 0 then _ else _)
        rw [if_neg hd, if_neg hd]
        exact push (verts :: rest)

theorem natural_arrayInsertAll {K : Type} {φ : W → V} (hφ : StrictMono φ) (h0 : φ 0 = 0) (eps : W) (dim : Nat)
    (dm : List (List W)) (data : List (List K)) (g : Graph W) :
    arrayInsertAll (φ eps) dim (dm.map (List.map φ)) data (mapG φ g) =
      mapG φ <$> arrayInsertAll eps dim dm data g := by
  unfold arrayInsertAll
  have := natural_foldlM (mapG φ) (id : List K → List K)
    (step := fun g p => if p.isEmpty then pure g else arrayInsert eps dim dm p g)
    (step' := fun g p => if p.isEmpty then pure g else arrayInsert (φ eps) dim (dm.map (List.map φ)) p g)
    (fun g p => by
      show (if p.isEmpty then pure (mapG φ g) else arrayInsert (φ eps) dim (dm.map (List.map φ)) p (mapG φ g)) = _
      by_cases hp : p.isEmpty = true
      · rw [if_pos hp, if_pos hp]
        rfl
      · rw [if_neg hp, if_neg hp]
        exact natural_arrayInsert hφ h0 eps dim dm p g) data g
  rwa [List.map_id] at this

end

/-- The sorted layers. -/
theorem natural_arrayGetAllEdges {φ : W → V} (sort : SortBySecond (List Nat) W) (sort' : SortBySecond (List Nat) V)
    (hsort : ∀ l, sort'.run (l.map (mapW φ)) = (sort.run l).map (mapW φ)) (g : Graph W) :
    arrayGetAllEdges sort' (mapG φ g) = mapG φ (arrayGetAllEdges sort g) := by
  unfold arrayGetAllEdges mapG
  rw [List.filterMap_map, List.map_filterMap]
  apply List.filterMap_congr
  intro layer _
  have e : (layer.map (mapW φ)).map (fun e => (toSet e.1, e.2)) =
      (layer.map (fun e => (toSet e.1, e.2))).map (mapW φ) := by
    rw [List.map_map, List.map_map]
    rfl
  simp only [Function.comp]
  rw [e, List.length_map]
  by_cases hl : (layer.map (fun e => (toSet e.1, e.2))).length > 0
  · rw [if_pos hl, if_pos hl, hsort]
    rfl
  · rw [if_neg hl, if_neg hl]
    rfl

variable [Ring W] [IsStrictOrderedRing W] [Ring V] [IsStrictOrderedRing V]

omit [LinearOrder W] [LinearOrder V] [IsStrictOrderedRing W] [IsStrictOrderedRing V] in
/-- What `findWeight` returns after the change: the changed weight, or -1 as before. -/
theorem natural_findWeight {φ : W → V} (g : Graph W) (v : List Nat) :
    (∃ e, findWeight g v = .error e ∧ findWeight (mapG φ g) v = .error e) ∨
    (∃ w, findWeight g v = .ok w ∧ findWeight (mapG φ g) v = .ok (φ w)) ∨
    (findWeight g v = .ok (-1) ∧ findWeight (mapG φ g) v = .ok (-1)) := by
  unfold findWeight
  have hv : vget (mapG φ g) (szPred v.length) = List.map (mapW φ) <$> vget g (szPred v.length) :=
    natural_vget _ g _
  rw [hv]
  cases hg : vget g (szPred v.length) with
  | error e => exact .inl ⟨e, rfl, rfl⟩
  | ok layer =>
    simp only [Functor.map, Except.map, bind, Except.bind]
    have : (layer.map (mapW φ)).find? (fun e => decide (e.1 = v)) =
        (layer.find? (fun e => decide (e.1 = v))).map (mapW φ) := by
      rw [List.find?_map]
      rfl
    rw [this]
    cases layer.find? (fun e => decide (e.1 = v)) with
    | none => exact .inr (.inr ⟨rfl, rfl⟩)
    | some e => exact .inr (.inl ⟨e.2, rfl, rfl⟩)

theorem natural_faceLoop {φ : W → V} (hφ : StrictMono φ) (h0 : φ 0 = 0) (g : Graph W) (simp : List Nat)
    (zs : List (List Nat)) : ∀ (total : List Nat) (m : W),
    faceLoop (mapG φ g) simp zs total (φ m) = Option.map (mapW φ) <$> faceLoop g simp zs total m := by
  induction zs with
  | nil => intro total m; rfl
  | cons z zs ih =>
    intro total m
    rw [faceLoop, faceLoop]
    rcases (natural_findWeight (φ := φ) g (simp ++ z)) with ⟨e, h1, h2⟩ | ⟨w, h1, h2⟩ | ⟨h1, h2⟩
    · rw [h1, h2]; rfl
    · rw [h1, h2, ok_bind, ok_bind]
      by_cases hw : w < 0
      · rw [if_pos hw, if_pos (h0 ▸ hφ hw)]
        rfl
      · rw [if_neg hw, if_neg (fun h => hw (hφ.lt_iff_lt.1 (h0.symm ▸ h))), natural_if_gt hφ]
        exact ih _ _
    · rw [h1, h2, ok_bind, ok_bind, if_pos (by simp), if_pos (by simp)]
      rfl

theorem natural_candidate {φ : W → V} (hφ : StrictMono φ) (h0 : φ 0 = 0) (g : Graph W) (a b : List Nat × W) :
    candidate (mapG φ g) (mapW φ a) (mapW φ b) = Option.map (mapW φ) <$> candidate g a b := by
  unfold candidate
  have ea : (mapW φ a).1 = a.1 := rfl
  have eb : (mapW φ b).1 = b.1 := rfl
  have ea' : (mapW φ a).2 = φ a.2 := rfl
  have eb' : (mapW φ b).2 = φ b.2 := rfl
  simp only [ea, eb, ea', eb']
  rw [natural_if_gt hφ]
  by_cases h1 : (symmetricDiffV a.1 b.1 true).length = 2
  · rw [if_pos h1, if_pos h1]
    by_cases h2 : (setIntersectV a.1 b.1 true).length = 1
    · rw [if_pos h2, if_pos h2]
      rcases (natural_findWeight (φ := φ) g (stdSort (symmetricDiffV a.1 b.1 true))) with
        ⟨e, h1, h2⟩ | ⟨w, h1, h2⟩ | ⟨h1, h2⟩
      · rw [h1, h2]; rfl
      · rw [h1, h2, ok_bind, ok_bind]
        by_cases hw : w < 0
        · rw [if_pos hw, if_pos (h0 ▸ hφ hw)]
          rfl
        · rw [if_neg hw, if_neg (fun h => hw (hφ.lt_iff_lt.1 (h0.symm ▸ h))), natural_if_gt hφ]
          rfl
      · rw [h1, h2, ok_bind, ok_bind, if_pos (by simp), if_pos (by simp)]
        rfl
    · rw [if_neg h2, if_neg h2]
      by_cases h3 : (setIntersectV a.1 b.1 true).length > 1
      · rw [if_pos h3, if_pos h3]
        exact natural_faceLoop hφ h0 g _ _ _ _
      · rw [if_neg h3, if_neg h3]
        rfl
  · rw [if_neg h1, if_neg h1]
    rfl

omit [Ring W] [IsStrictOrderedRing W] [Ring V] [IsStrictOrderedRing V] in
theorem natural_storeSimplex {φ : W → V} (hφ : StrictMono φ) (d : Nat) (e : List Nat × W) (g : Graph W) :
    storeSimplex d (mapW φ e) (mapG φ g) = mapG φ <$> storeSimplex d e g := by
  unfold storeSimplex
  have e1 : (mapG φ g).length = g.length := List.length_map _
  rw [e1]
  by_cases h : g.length = d
  · rw [if_pos h, if_pos h]
    show Except.ok _ = Except.ok _
    simp [mapG]
  · rw [if_neg h, if_neg h]
    refine natural_bind (List.map (mapW φ)) _ (natural_vget _ g d) (fun layer => ?_)
    have hm := mem_mapW hφ e layer
    by_cases he : e ∈ layer
    · rw [if_pos he, if_pos (hm.2 he)]
      rfl
    · rw [if_neg he, if_neg (fun h => he (hm.1 h))]
      exact natural_pushLayer φ g d e

theorem natural_expandDimensions {φ : W → V} (hφ : StrictMono φ) (h0 : φ 0 = 0) (dim : Nat) (g : Graph W) :
    expandDimensions dim (mapG φ g) = mapG φ <$> expandDimensions dim g := by
  have pair : ∀ d j t (g : Graph W), expandPair d j t (mapG φ g) = mapG φ <$> expandPair d j t g := by
    intro d j t g
    unfold expandPair
    refine natural_bind (List.map (mapW φ)) _ (natural_vget _ g (d - 1)) (fun layer => ?_)
    refine natural_bind (mapW φ) _ (natural_vget _ layer j) (fun a => ?_)
    refine natural_bind (mapW φ) _ (natural_vget _ layer t) (fun b => ?_)
    refine natural_bind (Option.map (mapW φ)) _ (natural_candidate hφ h0 g a b) (fun c => ?_)
    cases c with
    | none => rfl
    | some e => exact natural_storeSimplex hφ d e g
  have dimStep : ∀ d (g : Graph W), expandDim d (mapG φ g) = mapG φ <$> expandDim d g := by
    intro d g
    unfold expandDim
    refine natural_bind (List.map (mapW φ)) _ (natural_vget _ g (d - 1)) (fun layer => ?_)
    dsimp only
    rw [List.length_map]
    exact natural_range_fold (mapG φ) (fun g j => natural_range_fold (mapG φ) (fun g t => pair d j t g) _ g) _ g
  have loop : ∀ (ds : List Nat) (g : Graph W), expandLoop ds (mapG φ g) = mapG φ <$> expandLoop ds g := by
    intro ds
    induction ds with
    | nil => intro g; rfl
    | cons d ds ih =>
      intro g
      rw [expandLoop, expandLoop]
      have e1 : (mapG φ g).length = g.length := List.length_map _
      rw [e1]
      by_cases h : g.length < d
      · rw [if_pos h, if_pos h]
        rfl
      · rw [if_neg h, if_neg h]
        exact natural_bind (mapG φ) _ (dimStep d g) (fun g => ih g)
  exact loop _ g

end
end LHF
