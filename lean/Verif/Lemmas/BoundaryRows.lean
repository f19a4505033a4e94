import Verif.Lemmas.Elimination
import Verif.Lemmas.Persistence
import Mathlib.Data.Finset.SymmDiff

/-! The boundary matrices of persistencePairs and optPersistencePairs. -/

namespace LHF
open Spec

theorem length_symDiff_subset {f s : List Nat} (hf : Inc f) (hs : Inc s)
    (hsub : ∀ v ∈ f, v ∈ s) : (stdSymDiff f s).length + f.length = s.length := by
  have h1 : (stdSymDiff f s).toFinset = s.toFinset \ f.toFinset := by
    ext z
    rw [List.mem_toFinset, mem_stdSymDiff hf hs, Finset.mem_sdiff, List.mem_toFinset,
      List.mem_toFinset]
    constructor
    · rintro (⟨h1, h2⟩ | ⟨h1, h2⟩)
      · exact absurd (hsub z h1) h2
      · exact ⟨h1, h2⟩
    · exact fun h => Or.inr h
  have h2 : (stdSymDiff f s).length = (stdSymDiff f s).toFinset.card :=
    (List.toFinset_card_of_nodup (inc_stdSymDiff hf hs).nodup).symm
  have h3 : f.toFinset ⊆ s.toFinset := by
    intro z hz; rw [List.mem_toFinset] at hz ⊢; exact hsub z hz
  rw [h2, h1, Finset.card_sdiff_of_subset h3, List.toFinset_card_of_nodup hs.nodup,
    List.toFinset_card_of_nodup hf.nodup]
  have := Finset.card_le_card h3
  rw [List.toFinset_card_of_nodup hs.nodup, List.toFinset_card_of_nodup hf.nodup] at this
  omega

/-- The symmetric difference of two sets is a single element iff one is the other with one element
added. -/
theorem symDiff_one {f s : List Nat} (hf : Inc f) (hs : Inc s) :
    (stdSymDiff f s).length = 1 ↔
      ((∀ v ∈ f, v ∈ s) ∧ s.length = f.length + 1) ∨ ((∀ v ∈ s, v ∈ f) ∧ f.length = s.length + 1) := by
  have hcomm : stdSymDiff f s = stdSymDiff s f := by
    apply Inc.ext (inc_stdSymDiff hf hs) (inc_stdSymDiff hs hf)
    intro z
    rw [mem_stdSymDiff hf hs, mem_stdSymDiff hs hf]
    tauto
  constructor
  · intro h
    obtain ⟨z, hz⟩ := List.length_eq_one_iff.1 h
    have hm : ∀ w, (w ∈ f ∧ w ∉ s) ∨ (w ∈ s ∧ w ∉ f) ↔ w = z := by
      intro w
      rw [← mem_stdSymDiff hf hs, hz, List.mem_singleton]
    by_cases hsub : ∀ v ∈ f, v ∈ s
    · have := length_symDiff_subset hf hs hsub
      exact Or.inl ⟨hsub, by omega⟩
    · push Not at hsub
      obtain ⟨v, hv1, hv2⟩ := hsub
      have hvz := (hm v).1 (Or.inl ⟨hv1, hv2⟩)
      have hsub' : ∀ w ∈ s, w ∈ f := by
        intro w hw
        by_contra hwf
        have := (hm w).1 (Or.inr ⟨hw, hwf⟩)
        subst this
        subst hvz
        exact hv2 hw
      have := length_symDiff_subset hs hf hsub'
      rw [← hcomm] at this
      exact Or.inr ⟨hsub', by omega⟩
  · rintro (⟨h1, h2⟩ | ⟨h1, h2⟩)
    · have := length_symDiff_subset hf hs h1; omega
    · have := length_symDiff_subset hs hf h1; rw [hcomm]; omega

theorem checkFaceS_eq {f s : List Nat} (hf : Inc f) (hs : Inc s) (hl : s.length = f.length + 1) :
    checkFaceS f s = if ∀ v ∈ f, v ∈ s then 1 else 0 := by
  unfold checkFaceS symmetricDiffS
  have hne : f ≠ s := by rintro rfl; omega
  rw [if_neg (by omega), if_neg hne]
  have h := symDiff_one hf hs
  by_cases hsub : ∀ v ∈ f, v ∈ s
  · rw [if_pos (h.2 (Or.inl ⟨hsub, hl⟩)), if_pos hsub]
  · rw [if_neg hsub, if_neg]
    intro h1
    rcases h.1 h1 with ⟨h2, -⟩ | ⟨-, h2⟩
    · exact hsub h2
    · omega

theorem checkFaceS_binary (f s : List Nat) : checkFaceS f s = 0 ∨ checkFaceS f s = 1 := by
  unfold checkFaceS; split_ifs <;> simp

section
variable {W : Type}

theorem boundaryRows_binary (rows cols : List (List Nat × W)) :
    Binary (boundaryRows rows cols) rows.length := by
  intro r hr
  unfold boundaryRows at hr
  obtain ⟨c, -, rfl⟩ := List.mem_map.1 hr
  refine ⟨by simp, ?_⟩
  intro x hx
  obtain ⟨f, -, rfl⟩ := List.mem_map.1 hx
  exact checkFaceS_binary _ _

theorem rowVec_faces {rows : List (List Nat × W)} {d : Nat}
    (hrows : ∀ r ∈ rows, Inc r.1 ∧ r.1.length = d + 1) {s : List Nat} (hs : Inc s)
    (hl : s.length = d + 2) :
    rowVec (rows.map (fun f => checkFaceS f.1 s)) = ind (colOf rows [] s) := by
  funext x
  unfold rowVec ind
  rw [List.getElem?_map]
  by_cases hx : x < rows.length
  · have hr := hrows rows[x] (List.getElem_mem hx)
    rw [List.getElem?_eq_getElem hx, Option.map_some, checkFaceS_eq hr.1 hs (by omega)]
    have h2 : x ∈ colOf rows [] s ↔ ∀ v ∈ rows[x].1, v ∈ s := by
      rw [mem_colOf]
      constructor
      · rintro ⟨-, row, h3, h4⟩
        rw [List.getElem?_eq_getElem hx, Option.some.injEq] at h3
        rw [h3]; exact h4
      · intro h; exact ⟨by simp, rows[x], List.getElem?_eq_getElem hx, h⟩
    by_cases h : ∀ v ∈ rows[x].1, v ∈ s
    · rw [if_pos h, if_pos rfl, if_pos (h2.2 h)]
    · rw [if_neg h, if_neg (by simp), if_neg (fun h' => h (h2.1 h'))]
  · rw [List.getElem?_eq_none (by omega), if_neg (by simp), if_neg]
    rw [mem_colOf]
    rintro ⟨-, row, h2, -⟩
    exact hx (List.getElem?_eq_some_iff.1 h2).1

/-- Chains whose coordinates on the rows vanish are zero. -/
theorem coords_inj {rows : List (List Nat × W)} (hnd : (rows.map Prod.fst).Nodup) {x : Chain}
    (hx : x ∈ chains (rows.map Prod.fst)) (h : coords rows [] x = 0) : x = 0 := by
  rw [chain_expand hnd hx]
  apply Finset.sum_eq_zero
  intro i hi
  rw [Finset.mem_range, List.length_map] at hi
  have := congrFun h i
  simp only [coords, LinearMap.coe_mk, AddHom.coe_mk, List.not_mem_nil, not_false_eq_true, and_true,
    hi, if_true, Pi.zero_apply] at this
  rw [this, zero_smul]

theorem bvecs_chains {rows cols : List (List Nat × W)} {d : Nat}
    (hcols : ∀ c ∈ cols, Inc c.1 ∧ c.1.length = d + 2)
    (hfac : ∀ c ∈ cols, ∀ s : List Nat, s.Sublist c.1 → s.length = d + 1 →
      s ∈ rows.map Prod.fst) :
    spanL (ZMod 2) (bvecs (cols.map Prod.fst)) ≤ chains (rows.map Prod.fst) := by
  unfold spanL
  rw [Submodule.span_le]
  intro y hy
  simp only [bvecs, List.map_map, Set.mem_ofPred_eq, List.mem_map, Function.comp_apply] at hy
  obtain ⟨c, hc, rfl⟩ := hy
  unfold boundaryOf
  apply Submodule.sum_mem
  intro i hi
  rw [Finset.mem_range] at hi
  apply Submodule.subset_span
  refine ⟨_, hfac c hc _ (List.eraseIdx_sublist _ i) ?_, rfl⟩
  rw [List.length_eraseIdx_of_lt hi, (hcols c hc).2]; omega

/-- The rows of the boundary matrix represent the boundaries. -/
theorem boundaryRows_vec {rows cols : List (List Nat × W)} {d : Nat}
    (hrows : ∀ r ∈ rows, Inc r.1 ∧ r.1.length = d + 1)
    (hcols : ∀ c ∈ cols, Inc c.1 ∧ c.1.length = d + 2) :
    (boundaryRows rows cols).map rowVec = (bvecs (cols.map Prod.fst)).map (coords rows []) := by
  unfold boundaryRows bvecs
  rw [List.map_map, List.map_map, List.map_map]
  apply List.map_congr_left
  intro c hc
  have h := hcols c hc
  simp only [Function.comp_apply]
  rw [rowVec_faces hrows h.1 h.2, coords_boundary hrows h.1 h.2]

theorem boundaryRows_indep {rows cols : List (List Nat × W)} {d : Nat}
    (hrows : ∀ r ∈ rows, Inc r.1 ∧ r.1.length = d + 1) (hnd : (rows.map Prod.fst).Nodup)
    (hcols : ∀ c ∈ cols, Inc c.1 ∧ c.1.length = d + 2)
    (hfac : ∀ c ∈ cols, ∀ s : List Nat, s.Sublist c.1 → s.length = d + 1 →
      s ∈ rows.map Prod.fst) :
    indep (ZMod 2) ((boundaryRows rows cols).map rowVec) =
      indep (ZMod 2) (bvecs (cols.map Prod.fst)) := by
  rw [boundaryRows_vec hrows hcols]
  apply indep_map
  intro x hx hx0
  exact coords_inj hnd (bvecs_chains hcols hfac hx) hx0

end

section
variable {W : Type} [LinearOrder W]

theorem layer_facts {edges : List (List (List Nat × W))} (hF : FilteredComplex edges) {d : Nat}
    {rows cols : List (List Nat × W)} (h : edges[d]? = some rows) (h' : edges[d + 1]? = some cols) :
    (∀ r ∈ rows, Inc r.1 ∧ r.1.length = d + 1) ∧ (rows.map Prod.fst).Nodup ∧
    (∀ c ∈ cols, Inc c.1 ∧ c.1.length = d + 2) ∧
    (∀ c ∈ cols, ∀ s : List Nat, s.Sublist c.1 → s.length = d + 1 → s ∈ rows.map Prod.fst) := by
  refine ⟨hF.shape d rows h, hF.once rows (List.mem_of_getElem? h), hF.shape _ cols h', ?_⟩
  intro c hc s hs hl
  obtain ⟨layer', w, h1, h2, -⟩ := hF.facets d cols h' c hc s hs hl
  rw [h, Option.some.injEq] at h1
  subst h1
  exact List.mem_map.2 ⟨_, h2, rfl⟩

/-- The pivots that `getRankNull` finds in a boundary matrix are the negative simplices. -/
theorem getRankNull_boundary {edges : List (List (List Nat × W))} (hF : FilteredComplex edges)
    {d : Nat} {rows cols : List (List Nat × W)} (h : edges[d]? = some rows)
    (h' : edges[d + 1]? = some cols) (hne : cols ≠ []) :
    getRankNull (boundaryRows rows cols) = .ok (negatives edges (d + 1)) := by
  obtain ⟨h1, h2, h3, h4⟩ := layer_facts hF h h'
  rw [getRankNull_spec (by simpa [boundaryRows] using hne) (boundaryRows_binary rows cols),
    boundaryRows_indep h1 h2 h3 h4]
  unfold negatives
  rw [List.getD_eq_getElem?_getD, h']
  rfl

omit [LinearOrder W] in
theorem offset_succ {edges : List (List (List Nat × W))} {d : Nat} {l : List (List Nat × W)}
    (h : edges[d]? = some l) : offset edges (d + 1) = offset edges d + l.length := by
  unfold offset
  rw [List.take_add_one, h, List.map_append, List.sum_append]
  simp

theorem pivotLoop_spec {edges : List (List (List Nat × W))} (hF : FilteredComplex edges)
    (hne : ∀ l ∈ edges, l ≠ []) : ∀ d, d < edges.length → ∀ pivots, Inc pivots →
    ∃ r, pivotLoop edges d (offset edges (d + 1)) pivots = .ok r ∧ Inc r ∧
      ∀ x, x ∈ r ↔ x ∈ pivots ∨ ∃ k j, 1 ≤ k ∧ k ≤ d ∧ j ∈ negatives edges k ∧
        x = offset edges k + j := by
  intro d
  induction d with
  | zero =>
    intro _ pivots hp
    refine ⟨pivots, rfl, hp, ?_⟩
    intro x
    constructor
    · exact fun h => Or.inl h
    · rintro (h | ⟨k, j, h1, h2, -⟩)
      · exact h
      · omega
  | succ d ih =>
    intro hd pivots hp
    have g1 := List.getElem?_eq_getElem (l := edges) (i := d) (by omega)
    have g2 := List.getElem?_eq_getElem hd
    have hoff := offset_succ g2
    rw [pivotLoop, vget_of_lt hd, vget_of_lt (show d < edges.length by omega)]
    simp only [bind, Except.bind]
    rw [getRankNull_boundary hF g1 g2 (hne _ (List.getElem_mem hd)), hoff, Nat.add_sub_cancel]
    dsimp only
    obtain ⟨r, h1, h2, h3⟩ := ih (by omega)
      ((negatives edges (d + 1)).foldl (fun s a => setInsert (offset edges (d + 1) + a) s) pivots) (by
        have := inc_foldl_setInsert ((negatives edges (d + 1)).map (fun a => offset edges (d + 1) + a))
          pivots hp
        rwa [List.foldl_map] at this)
    refine ⟨r, h1, h2, ?_⟩
    intro x
    have hm := mem_foldl_setInsert ((negatives edges (d + 1)).map
      (fun a => offset edges (d + 1) + a)) pivots x
    rw [List.foldl_map] at hm
    rw [h3, hm, List.mem_map]
    constructor
    · rintro ((⟨a, ha, rfl⟩ | h) | ⟨k, j, h1, h2, h3, h4⟩)
      · exact Or.inr ⟨d + 1, a, by omega, by omega, ha, rfl⟩
      · exact Or.inl h
      · exact Or.inr ⟨k, j, h1, by omega, h3, h4⟩
    · rintro (h | ⟨k, j, h1, h2, h3, h4⟩)
      · exact Or.inl (Or.inr h)
      · by_cases hk : k = d + 1
        · subst hk
          exact Or.inl (Or.inl ⟨j, h3, h4.symm⟩)
        · exact Or.inr ⟨k, j, h1, by omega, h3, h4⟩

end
end LHF
