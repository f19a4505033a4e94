import Verif.Lemmas.TwistPairs
import Verif.Props.IndexedPivots

/-! C96: the `twist` branch of optPersistencePairs. -/

namespace LHF.Spec

/-- `faces` returns, for each simplex, the positions of its facets in the layer below. -/
def FindsFacets {W : Type} (edges : List (List (List Nat × W))) (faces : List Nat → Res (List Nat)) :
    Prop :=
  ∀ k rows cols, edges[k]? = some rows → edges[k + 1]? = some cols → ∀ c ∈ cols,
    ∃ F, faces c.1 = .ok F ∧ F.Pairwise (· < ·) ∧
      ∀ x, x ∈ F ↔ ∃ r, rows[x]? = some r ∧ r.1.Sublist c.1

end LHF.Spec

namespace LHF
open Spec

section
variable {W : Type} [LinearOrder W]

theorem sublist_of_inc_subset {a b : List Nat} (ha : Inc a) (hb : Inc b) :
    a.Sublist b ↔ ∀ v ∈ a, v ∈ b := by
  constructor
  · exact fun h v hv => h.subset hv
  · intro h
    have := List.subperm_of_subset ha.nodup h
    exact List.sublist_of_subperm_of_pairwise this ha hb

/-- The column of a simplex. -/
theorem facets_colOf {edges : List (List (List Nat × W))} (hF : FilteredComplex edges) {d : Nat}
    {rows cols : List (List Nat × W)} (h : edges[d]? = some rows) (h' : edges[d + 1]? = some cols)
    {faces : List Nat → Res (List Nat)} (hf : FindsFacets edges faces) {c : List Nat × W} (hc : c ∈ cols) :
    faces c.1 = .ok (colOf rows [] c.1) ∧ colOf rows [] c.1 ≠ [] := by
  obtain ⟨h1, h2, h3, h4⟩ := layer_facts hF h h'
  obtain ⟨F, f1, f2, f3⟩ := hf d rows cols h h' c hc
  have hmem : ∀ x, x ∈ F ↔ x ∈ colOf rows [] c.1 := by
    intro x
    rw [f3, mem_colOf]
    constructor
    · rintro ⟨r, a1, a2⟩
      exact ⟨by simp, r, a1, fun v hv => a2.subset hv⟩
    · rintro ⟨-, r, a1, a2⟩
      exact ⟨r, a1, (sublist_of_inc_subset (h1 r (List.mem_of_getElem? a1)).1 (h3 c hc).1).2 a2⟩
  have e : F = colOf rows [] c.1 := Inc.ext f2 (inc_colOf _ _ _) hmem
  refine ⟨by rw [f1, e], ?_⟩
  have hl := (h3 c hc).2
  have := h4 c hc c.1.tail (List.tail_sublist _) (by rw [List.length_tail]; omega)
  obtain ⟨r, hr, hrt⟩ := List.mem_map.1 this
  obtain ⟨x, hx⟩ := List.getElem?_of_mem hr
  have hxm : x ∈ colOf rows [] c.1 := by
    rw [mem_colOf]
    exact ⟨by simp, r, hx, fun v hv => by rw [hrt] at hv; exact List.mem_of_mem_tail hv⟩
  exact List.ne_nil_of_mem hxm

theorem twistLoop_spec {edges : List (List (List Nat × W))} (hF : FilteredComplex edges)
    {faces : List Nat → Res (List Nat)} (hf : FindsFacets edges faces) :
    ∀ d, d < edges.length → ∀ extra P pivots, Inc pivots → Inc P →
    (∀ f ∈ P, f ∉ negatives edges d) →
    ∃ r, twistLoop faces edges d (offset edges (d + 1) + extra) P pivots = .ok r ∧ Inc r ∧
      ∀ x, x ∈ r ↔ x ∈ pivots ∨ ∃ k j, 1 ≤ k ∧ k ≤ d ∧ j ∈ negatives edges k ∧
        x = offset edges k + extra + j := by
  intro d
  induction d with
  | zero =>
    intro _ extra P pivots hp _ _
    refine ⟨pivots, rfl, hp, ?_⟩
    intro x
    constructor
    · exact fun h => Or.inl h
    · rintro (h | ⟨k, j, h1, h2, -⟩)
      · exact h
      · omega
  | succ d ih =>
    intro hd extra P pivots hp hP hpos
    obtain ⟨rows, g1⟩ : ∃ rows, edges[d]? = some rows := ⟨_, List.getElem?_eq_getElem (by omega)⟩
    obtain ⟨cols, g2⟩ : ∃ cols, edges[d + 1]? = some cols := ⟨_, List.getElem?_eq_getElem hd⟩
    have hoff := offset_succ g2
    obtain ⟨h1, h2, h3, h4⟩ := layer_facts hF g1 g2
    have hneg : indep (ZMod 2) ((boundaryRows rows cols).map rowVec) = negatives edges (d + 1) := by
      rw [boundaryRows_indep h1 h2 h3 h4]
      unfold negatives
      rw [List.getD_eq_getElem?_getD, g2]; rfl
    have hlen : ((boundaryRows rows cols).map rowVec).length = cols.length := by
      simp [boundaryRows]
    have hget : ∀ j (hj : j < cols.length), ((boundaryRows rows cols).map rowVec).getD j 0 =
        ind (colOf rows [] cols[j].1) := by
      intro j hj
      have hs := h3 cols[j] (List.getElem_mem hj)
      rw [← rowVec_faces h1 hs.1 hs.2, List.getD_eq_getElem?_getD, List.getElem?_map]
      unfold boundaryRows
      rw [List.getElem?_map, List.getElem?_eq_getElem hj]
      rfl
    have hlt : ∀ s, ∀ x ∈ colOf rows [] s, x < rows.length := by
      intro s x hx
      obtain ⟨-, r, hr, -⟩ := mem_colOf.1 hx
      exact (List.getElem?_eq_some_iff.1 hr).1
    obtain ⟨s, s1, s2, s3, s4, s5⟩ := twistDim_spec (C := (boundaryRows rows cols).map rowVec)
      (off := offset edges (d + 1) + extra) (faces := faces) (pChain := cols) (rows := rows) hP
      (by rw [hlen]) (by
        intro j e he hj
        obtain ⟨hlt', rfl⟩ := List.getElem?_eq_some_iff.1 he
        obtain ⟨a1, a2⟩ := facets_colOf hF g1 g2 hf (List.getElem_mem hlt')
        exact ⟨_, a1, a2, inc_colOf _ _ _, hlt _, (hget j hlt').symm⟩) (by
        intro j hj
        rw [hlen] at hj
        exact ⟨_, inc_colOf _ _ _, hlt _, (hget j hj).symm⟩) (by
        intro j hj hjl
        by_contra hc
        exact hpos j hj (by rw [← hneg]; exact mem_indep.2 ⟨hjl, hc⟩))
    rw [twistLoop, vget_ok.2 g1, ok_bind, vget_ok.2 g2, ok_bind]
    dsimp only
    have e : offset edges (d + 1 + 1) + extra - cols.length = offset edges (d + 1) + extra := by
      omega
    rw [e, s1, ok_bind]
    obtain ⟨r, r1, r2, r3⟩ := ih (by omega) extra s.nextFaces _
      (inc_foldl_setInsert s.nextPivots pivots hp) s3 (by
        intro f hfm
        obtain ⟨-, y, hy, ht⟩ := s5 f hfm
        exact face_positive hF g1 g2 hy ht)
    refine ⟨r, r1, r2, ?_⟩
    intro x
    rw [r3, mem_foldl_setInsert, s4, hneg]
    constructor
    · rintro ((⟨a, ha, rfl⟩ | h) | ⟨k, j, h1, h2, h3, h4⟩)
      · exact Or.inr ⟨d + 1, a, by omega, by omega, ha, by omega⟩
      · exact Or.inl h
      · exact Or.inr ⟨k, j, h1, by omega, h3, h4⟩
    · rintro (h | ⟨k, j, h1, h2, h3, h4⟩)
      · exact Or.inl (Or.inr h)
      · by_cases hk : k = d + 1
        · subst hk
          exact Or.inl (Or.inl ⟨j, h3, by omega⟩)
        · exact Or.inr ⟨k, j, h1, by omega, h3, h4⟩

/-- C96 (partial): if the positions of the facets are found, the buffered elimination of
optPersistencePairs finds exactly the negative simplices of the dimensions 1 to `dim`, for every
filtered complex that has these layers. (What is missing: `getFaces` of the indexed tree does not find
the positions, see `C96_tree_violated`.) -/
theorem C96_twist_pivots_partial {edges : List (List (List Nat × W))} (hF : FilteredComplex edges)
    {faces : List Nat → Res (List Nat)} (hf : FindsFacets edges faces) {dim : Nat}
    (hdim : dim < edges.length) :
    ∃ r, twistAllPivots faces dim edges = .ok r ∧ r.Pairwise (· < ·) ∧
      ∀ x, x ∈ r ↔ ∃ k i, 1 ≤ k ∧ k ≤ dim ∧ Negative edges k i ∧
        x = offset edges k + (offset edges edges.length - offset edges (dim + 1)) + i := by
  have hsplit : (edges.map List.length).sum = offset edges (dim + 1) +
      (offset edges edges.length - offset edges (dim + 1)) := by
    have h1 : offset edges edges.length = (edges.map List.length).sum := by
      unfold offset; rw [List.take_length]
    have h2 : offset edges (dim + 1) ≤ (edges.map List.length).sum := by
      unfold offset
      conv_rhs => rw [← List.take_append_drop (dim + 1) edges, List.map_append, List.sum_append]
      omega
    omega
  obtain ⟨r, h1, h2, h3⟩ := twistLoop_spec hF hf dim hdim
    (offset edges edges.length - offset edges (dim + 1)) [] [] List.Pairwise.nil List.Pairwise.nil
    (by simp)
  unfold twistAllPivots
  rw [hsplit]
  refine ⟨r, h1, h2, ?_⟩
  intro x
  rw [h3]
  constructor
  · rintro (h | ⟨k, j, a1, a2, a3, a4⟩)
    · simp at h
    · exact ⟨k, j, a1, a2, mem_negatives.1 a3, a4⟩
  · rintro ⟨k, j, a1, a2, a3, a4⟩
    exact Or.inr ⟨k, j, a1, a2, mem_negatives.2 a3, a4⟩

/-- C96: in that case the buffered elimination and the plain one find the same pivots. -/
theorem C96_same_as_plain {edges : List (List (List Nat × W))} (hF : FilteredComplex edges)
    (hne : ∀ l ∈ edges, l ≠ []) {faces : List Nat → Res (List Nat)} (hf : FindsFacets edges faces)
    {dim : Nat} (hdim : dim < edges.length) :
    twistAllPivots faces dim edges = optAllPivots dim edges := by
  obtain ⟨r, h1, h2, h3⟩ := C96_twist_pivots_partial hF hf hdim
  obtain ⟨r', h1', h2', h3'⟩ := C57_clearing_sound hF hne hdim
  rw [h1, h1', Inc.ext h2 h2' (fun x => by rw [h3, h3'])]

/-! ### With the faces of an indexed tree -/

theorem small_indep_le {l : List (Nat → ZMod 2)} (h : ∀ y ∈ l, ∃ c : List Nat, (∀ x ∈ c, x ≤ 1) ∧ y = ind c) :
    (indep (ZMod 2) l).length ≤ 2 := by
  classical
  rw [indep_length]
  have hsub : spanL (ZMod 2) l ≤
      Submodule.span (ZMod 2) (({ind [0], ind [1]} : Finset (Nat → ZMod 2)) : Set (Nat → ZMod 2)) := by
    unfold spanL
    rw [Submodule.span_le]
    intro y hy
    obtain ⟨c, hc, rfl⟩ := h y hy
    have e : ind c = ind c 0 • ind [0] + ind c 1 • ind [1] := by
      funext x
      simp only [Pi.add_apply, Pi.smul_apply, smul_eq_mul]
      match x with
      | 0 => simp [ind]
      | 1 => simp [ind]
      | x + 2 =>
        have : x + 2 ∉ c := fun hx => by have := hc _ hx; omega
        simp [ind, this]
    rw [e]
    exact Submodule.add_mem _
      (Submodule.smul_mem _ _ (Submodule.subset_span (by simp)))
      (Submodule.smul_mem _ _ (Submodule.subset_span (by simp)))
  refine (Submodule.finrank_mono hsub).trans ?_
  exact (finrank_span_finset_le_card _).trans Finset.card_le_two

omit [LinearOrder W] in
theorem twistLoop_small (faces : List Nat → Res (List Nat)) (ge : List (List (List Nat × W)))
    (hfaces : ∀ k rows layer, ge[k]? = some rows → ge[k + 1]? = some layer → ∀ e ∈ layer,
      ∃ F, faces e.1 = .ok F ∧ Inc F ∧ F ≠ [] ∧ ∀ x ∈ F, x ≤ 1 ∧ x < rows.length) :
    ∀ (d off : Nat) (P acc : List Nat), Inc acc → Inc P → 0 ∉ P →
      (d < ge.length → ((ge.take (d + 1)).map List.length).sum ≤ off ∧ off ≤ ge.flatten.length) →
      (∀ x ∈ acc, (ge.getD 0 []).length ≤ x ∧ x < ge.flatten.length) →
      twistLoop faces ge d off P acc = .error .oob ∨
      ∃ r, twistLoop faces ge d off P acc = .ok r ∧ Inc r ∧ r.length ≤ acc.length + 2 * d ∧
        (∀ x ∈ r, (ge.getD 0 []).length ≤ x ∧ x < ge.flatten.length) ∧
        (acc ≠ [] → r ≠ []) ∧ (1 ≤ d → ∀ l, ge[1]? = some l → l ≠ [] → r ≠ []) := by
  intro d
  induction d with
  | zero =>
    intro off P acc h1 h2 h3 h4 h5
    exact Or.inr ⟨acc, rfl, h1, by simp, h5, id, by omega⟩
  | succ d ih =>
    intro off P acc h1 hP h0P h2 h4
    by_cases hd : d + 1 < ge.length
    swap
    · left
      have e1 : vget ge (d + 1) = .error .oob := by
        unfold vget
        rw [List.getElem?_eq_none (by omega)]
      rw [twistLoop, e1]
      cases hv : vget ge d with
      | ok rows => rfl
      | error e =>
        unfold vget at hv
        split at hv
        · cases hv
        · cases hv; rfl
    obtain ⟨rows, e0⟩ : ∃ rows, ge[d]? = some rows := ⟨_, List.getElem?_eq_getElem (by omega)⟩
    obtain ⟨cols, e1⟩ : ∃ cols, ge[d + 1]? = some cols := ⟨_, List.getElem?_eq_getElem hd⟩
    have hstep : ((ge.take (d + 1 + 1)).map List.length).sum =
        ((ge.take (d + 1)).map List.length).sum + cols.length := by
      rw [List.take_add_one (i := d + 1), e1, List.map_append, List.sum_append]
      simp
    obtain ⟨o1, o2⟩ := h2 hd
    rw [hstep] at o1
    have hlow : (ge.getD 0 []).length ≤ ((ge.take (d + 1)).map List.length).sum := by
      cases ge with
      | nil => simp
      | cons a l => simp
    have hfc := hfaces d rows cols e0 e1
    -- the columns, with the cleared ones left out
    let col : Nat → List Nat := fun j => if j ∈ P then [] else
      match cols[j]? with
      | some e => (match faces e.1 with | .ok F => F | .error _ => [])
      | none => []
    have hcolP : ∀ j ∈ P, col j = [] := fun j hj => if_pos hj
    have hcoln : ∀ j e, cols[j]? = some e → j ∉ P → ∃ F, faces e.1 = .ok F ∧ Inc F ∧ F ≠ [] ∧
        (∀ x ∈ F, x ≤ 1 ∧ x < rows.length) ∧ col j = F := by
      intro j e he hj
      obtain ⟨F, f1, f2, f3, f4⟩ := hfc e (List.mem_of_getElem? he)
      refine ⟨F, f1, f2, f3, f4, ?_⟩
      show (if j ∈ P then [] else _) = F
      rw [if_neg hj, he]
      dsimp only
      rw [f1]
    have hcolall : ∀ j < cols.length, Inc (col j) ∧ ∀ x ∈ col j, x ≤ 1 ∧ x < rows.length := by
      intro j hj
      by_cases hjP : j ∈ P
      · rw [hcolP j hjP]
        exact ⟨List.Pairwise.nil, by simp⟩
      · obtain ⟨F, -, f2, -, f4, f5⟩ := hcoln j _ (List.getElem?_eq_getElem hj) hjP
        rw [f5]
        exact ⟨f2, f4⟩
    let C : List (Nat → ZMod 2) := (List.range cols.length).map (fun j => ind (col j))
    have hlen : C.length = cols.length := by simp [C]
    have hget : ∀ j < cols.length, C.getD j 0 = ind (col j) := by
      intro j hj
      simp [C, List.getD_eq_getElem?_getD, hj]
    obtain ⟨s, s1, s2, s3, s4, s5⟩ := twistDim_spec (C := C) (off := off - cols.length)
      (faces := faces) (pChain := cols) (rows := rows) hP hlen.symm (by
        intro j e he hj
        have hjl := (List.getElem?_eq_some_iff.1 he).1
        obtain ⟨F, f1, f2, f3, f4, f5⟩ := hcoln j e he hj
        exact ⟨F, f1, f3, f2, fun x hx => (f4 x hx).2, by rw [hget j hjl, f5]⟩) (by
        intro j hj
        rw [hlen] at hj
        exact ⟨col j, (hcolall j hj).1, fun x hx => ((hcolall j hj).2 x hx).2, (hget j hj).symm⟩) (by
        intro j hj hjl
        rw [hlen] at hjl
        rw [hget j hjl, hcolP j hj, ind_nil]
        exact Submodule.zero_mem _)
    rw [twistLoop, vget_ok.2 e0, ok_bind, vget_ok.2 e1, ok_bind]
    dsimp only
    rw [s1, ok_bind]
    have hsmall : s.nextPivots.length ≤ 2 := by
      have hsub : s.nextPivots ⊆ (indep (ZMod 2) C).map (fun j => j + (off - cols.length)) := by
        intro x hx
        obtain ⟨j, hj, rfl⟩ := (s4 x).1 hx
        exact List.mem_map.2 ⟨j, hj, rfl⟩
      have := (List.subperm_of_subset s2.nodup hsub).length_le
      rw [List.length_map] at this
      refine this.trans (small_indep_le ?_)
      intro y hy
      obtain ⟨j, hj, rfl⟩ := List.mem_map.1 hy
      exact ⟨col j, fun x hx => ((hcolall j (List.mem_range.1 hj)).2 x hx).1, rfl⟩
    have hacc := foldl_pivots 0 s.nextPivots acc h1
    simp only [Nat.add_zero] at hacc
    obtain ⟨q1, q2, q3⟩ := hacc
    rcases ih (off - cols.length) s.nextFaces _ q1 s3 (fun h => absurd (s5 0 h).1 (lt_irrefl 0))
        (fun _ => by omega) (by
        intro x hx
        rcases (q2 x).1 hx with hx | ⟨a, ha, rfl⟩
        · exact h4 x hx
        · obtain ⟨j, hj, rfl⟩ := (s4 _).1 ha
          have := indep_lt hj
          rw [hlen] at this
          omega) with hr | ⟨r, r1, r2, r3, r4, r5, r6⟩
    · exact Or.inl hr
    · refine Or.inr ⟨r, r1, r2, by omega, r4, ?_, ?_⟩
      · intro hacc
        apply r5
        obtain ⟨a, ha⟩ := List.exists_mem_of_ne_nil _ hacc
        intro hc
        have := (q2 a).2 (Or.inl ha)
        rw [hc] at this
        simp at this
      · intro _ l hl hl2
        by_cases hd0 : 1 ≤ d
        · exact r6 hd0 l hl hl2
        · obtain rfl : d = 0 := by omega
          apply r5
          rw [e1, Option.some.injEq] at hl
          subst hl
          have hpos := List.length_pos_of_ne_nil hl2
          obtain ⟨F, -, -, f3, -, f5⟩ := hcoln 0 _ (List.getElem?_eq_getElem hpos) h0P
          have hind : 0 ∈ indep (ZMod 2) C := by
            rw [mem_indep]
            refine ⟨by rw [hlen]; exact hpos, ?_⟩
            rw [hget 0 hpos, f5, List.take_zero]
            intro hm
            have hz : ind F = 0 := by simpa [spanL] using hm
            obtain ⟨x, hx⟩ := List.exists_mem_of_ne_nil _ f3
            have := congrFun hz x
            unfold ind at this
            rw [if_pos hx] at this
            exact one_ne_zero this
          intro hnil
          have := (q2 _).2 (Or.inr ⟨_, (s4 _).2 ⟨0, hind, rfl⟩, rfl⟩)
          rw [hnil] at this
          simp at this

end

section
variable {W : Type} [LinearOrder W] [Zero W]

/-- What the buffered elimination finds on a tree built by insertions. -/
theorem twistTree_spec {eps : W} {maxDim : Nat} {dm : List (List W)} {d : Nat → Nat → W}
    (h0 : ∀ i j, 0 ≤ d i j) (sort : SortBySecond (Nat × List Nat) W) {n : Nat} (hn : n ≠ 0)
    (hne : dm ≠ []) (hdm : ∀ i j, i < j → j < n → at2 dm i j = .ok (d i j)) {t : ITree W}
    (hrun : ITree.insertN eps maxDim dm n ITree.fresh = .ok t) (dim : Nat) :
    ∃ t' tt, t.getIndexEdges sort = .ok (t'.graph, t') ∧ Queried n d eps maxDim sort t t' tt ∧
    (twistAllPivots t'.getFaces dim (shown t'.graph) = .error .oob ∨
      ∃ r, twistAllPivots t'.getFaces dim (shown t'.graph) = .ok r ∧ Inc r ∧ r.length ≤ 2 * dim ∧
        (∀ x ∈ r, ((shown t'.graph).getD 0 []).length ≤ x ∧ x < (shown t'.graph).flatten.length) ∧
        (1 ≤ dim → ∀ l, (shown t'.graph)[1]? = some l → l ≠ [] → r ≠ [])) := by
  obtain ⟨tt, i1, i2, i3, i4⟩ := insertNI_rel (D := d) (eps := eps) (maxDim := maxDim) h0 n
    (fun _ => hne) hdm
  have hle : tt.weg.length ≤ 3 := by
    by_contra hc
    rw [i4 (by omega)] at hrun
    cases hrun
  obtain ⟨t1, k1, k2, k3⟩ := i3 hle
  rw [hrun] at k1
  cases k1
  obtain ⟨t', g1, g2⟩ := getIndexEdges_built k2 k3 (rel_dims_ne i1 k2 hn) sort
  have q : Queried n d eps maxDim sort t t' tt := ⟨i1, k2, g2⟩
  refine ⟨t', tt, g1, q, ?_⟩
  have hst := shown_stores q
  have honly := hst.only
  have hfaces : ∀ k rows layer, (shown t'.graph)[k]? = some rows →
      (shown t'.graph)[k + 1]? = some layer → ∀ e ∈ layer,
      ∃ F, t'.getFaces e.1 = .ok F ∧ Inc F ∧ F ≠ [] ∧ ∀ x ∈ F, x ≤ 1 ∧ x < rows.length := by
    intro k rows layer hr hl e he
    have hk := (List.getElem?_eq_some_iff.1 hl).1
    obtain ⟨a1, a2, -⟩ := (hst.exact (k + 1) e.1 e.2 (by omega)).1 ⟨_, hl, he⟩
    have hheld : Held n d eps maxDim e.1 := ⟨a2, by omega⟩
    obtain ⟨F, f1, f2, f3⟩ := faces_spec hn q hheld (by omega)
    refine ⟨F, f1, f2, ?_, ?_⟩
    · obtain ⟨k', j, h⟩ := (held_at q).1 (held_erase hheld (by omega) 0 (by omega))
      have := (f3 _).2 ⟨0, k', j, by omega, h, rfl⟩
      intro hc
      rw [hc] at this
      simp at this
    · intro x hx
      obtain ⟨i, k', j, hi, ⟨layer', w, hl', hj'⟩, rfl⟩ := (f3 x).1 hx
      have hk' := (List.getElem?_eq_some_iff.1 hl').1
      obtain ⟨b1, -, -⟩ := (hst.exact k' _ w (by omega)).1 ⟨_, hl', List.mem_of_getElem? hj'⟩
      rw [List.length_eraseIdx_of_lt hi] at b1
      have : k' = k := by omega
      subst this
      rw [hr, Option.some.injEq] at hl'
      subst hl'
      have hjl := (List.getElem?_eq_some_iff.1 hj').1
      by_cases hj : j = 0
      · simp only [if_pos hj]; omega
      · simp only [if_neg hj]; omega
  have htake : (((shown t'.graph).take (dim + 1)).map List.length).sum ≤
      ((shown t'.graph).map List.length).sum := by
    conv_rhs => rw [← List.take_append_drop (dim + 1) (shown t'.graph), List.map_append, List.sum_append]
    omega
  have := twistLoop_small t'.getFaces (shown t'.graph) hfaces dim
    ((shown t'.graph).map List.length).sum [] [] List.Pairwise.nil List.Pairwise.nil (by simp)
    (fun _ => ⟨htake, by rw [List.length_flatten]⟩) (by simp)
  unfold twistAllPivots
  rcases this with h | ⟨r, r1, r2, r3, r4, -, r6⟩
  · exact Or.inl h
  · exact Or.inr ⟨r, r1, r2, by simpa using r3, r4, r6⟩

/-- C96 is violated: with the faces of an indexed tree at most two negative simplices are found in each
dimension. -/
theorem C96_tree_violated (eps : W) (maxDim : Nat) (dm : List (List W)) (d : Nat → Nat → W)
    (h0 : ∀ i j, 0 ≤ d i j) (sort : SortBySecond (Nat × List Nat) W) (n : Nat) (hn : n ≠ 0)
    (hne : dm ≠ []) (hdm : ∀ i j, i < j → j < n → at2 dm i j = .ok (d i j)) {g : Graph W} {t : ITree W}
    (hrun : buildIndexed eps maxDim dm sort n = .ok (g, t)) (dim : Nat) :
    twistAllPivots t.getFaces dim g = .error .oob ∨
      ∃ r, twistAllPivots t.getFaces dim g = .ok r ∧ r.length ≤ 2 * dim := by
  unfold buildIndexed ITree.getAllEdges at hrun
  rw [bind_ok] at hrun
  obtain ⟨t0, hi, hrun⟩ := hrun
  obtain ⟨t', tt, g1, q, h⟩ := twistTree_spec h0 sort hn hne hdm hi dim
  rw [g1, ok_bind] at hrun
  cases hrun
  rcases h with h | ⟨r, r1, -, r2, -⟩
  · exact Or.inl h
  · exact Or.inr ⟨r, r1, r2⟩

/-- C96 is violated: on an indexed tree with an edge the run of optPersistencePairs with `twist` leaves
its table, whatever the order of equal weights is. -/
theorem C96_run_violated (eps : W) (maxDim : Nat) (dm : List (List W)) (d : Nat → Nat → W)
    (h0 : ∀ i j, 0 ≤ d i j) (sort : SortBySecond (Nat × List Nat) W) (n : Nat)
    (hne : dm ≠ []) (hdm : ∀ i j, i < j → j < n → at2 dm i j = .ok (d i j)) {t : ITree W}
    (hrun : ITree.insertN eps maxDim dm n ITree.fresh = .ok t) (dim : Nat) (hdim : 1 ≤ dim)
    {s : List Nat} (hs : Held n d eps maxDim s) (hlen : s.length = 2) (maxEpsilon : W) :
    runTwistPairs sort dim maxEpsilon t = .error .oob := by
  have hn : n ≠ 0 := by
    rintro rfl
    obtain ⟨v, hv⟩ := List.exists_mem_of_ne_nil _ hs.1.1
    exact absurd (hs.1.2.2.1 v hv) (by omega)
  obtain ⟨t', tt, g1, q, h⟩ := twistTree_spec h0 sort hn hne hdm hrun dim
  have hflat : t'.graph.flatten.map (fun e => (e.1.2, e.2)) = (shown t'.graph).flatten := by
    unfold shown
    rw [List.map_flatten]
  unfold runTwistPairs
  rw [g1, ok_bind]
  dsimp only
  rw [hflat]
  change (twistAllPivots t'.getFaces dim (shown t'.graph) >>= _) = _
  rcases h with h | ⟨r, r1, r2, -, r4, r5⟩
  · rw [h]; rfl
  have hst := shown_stores q
  obtain ⟨l, hl, hm⟩ := (hst.exact 1 s (diam d s) (by omega)).2 ⟨hlen, hs.1, rfl⟩
  have hr := r5 hdim l hl (List.ne_nil_of_mem hm)
  obtain ⟨x, rest, rfl⟩ := List.exists_cons_of_ne_nil hr
  obtain ⟨x1, x2⟩ := r4 x (by simp)
  rw [r1, ok_bind, List.head?_cons]
  rw [pair_loop_pivot_oob true (List.getElem?_eq_getElem x2) (by
    generalize hg : shown t'.graph = g at *
    obtain ⟨p, g', rfl⟩ := List.exists_cons_of_ne_nil (l := g) (by
      intro hc; rw [hc] at hl; simp at hl)
    have hmem : (p :: g').flatten[x] ∈ g'.flatten := by
      have e : (p :: g').flatten = p ++ g'.flatten := rfl
      have hp : p.length ≤ x := by simpa using x1
      have : (p :: g').flatten[x]? = g'.flatten[x - p.length]? := by
        rw [e, List.getElem?_append_right hp]
      rw [List.getElem?_eq_getElem x2] at this
      exact List.mem_of_getElem? this.symm
    obtain ⟨layer, hlm, hel⟩ := List.mem_flatten.1 hmem
    obtain ⟨k, hk⟩ := List.getElem?_of_mem hlm
    have hl2 : (p :: g')[k + 1]? = some layer := by
      rw [List.getElem?_cons_succ, hk]
    have hk2 := (List.getElem?_eq_some_iff.1 hl2).1
    have honly := hst.only
    obtain ⟨a1, -, -⟩ := (hst.exact (k + 1) _ _ (by omega)).1 ⟨_, hl2, hel⟩
    exact fun hc => absurd (hc.symm.trans a1) (by omega))]
  rfl

end


/-- The positions of the facets, found by looking through the layers. -/
private def searchFaces (edges : List (List (List Nat × Int))) (s : List Nat) : Res (List Nat) :=
  .ok ((List.range (edges.getD (s.length - 2) []).length).filter (fun x =>
    stdIncludes s (((edges.getD (s.length - 2) []).map Prod.fst).getD x [])))

private def twistEdges : List (List (List Nat × Int)) :=
  [[([0], 0), ([1], 0), ([2], 0), ([3], 0)],
   [([0, 1], 1), ([1, 2], 1), ([2, 3], 1), ([0, 3], 1), ([0, 2], 2), ([1, 3], 2)],
   [([0, 1, 2], 2), ([0, 1, 3], 2), ([0, 2, 3], 2), ([1, 2, 3], 2)]]

private theorem twistFiltered : FilteredComplex twistEdges := by
  refine ⟨?_, by decide, by decide, ?_⟩
  · intro k layer hk
    match k, hk with
    | 0, hk => cases hk; decide
    | 1, hk => cases hk; decide
    | 2, hk => cases hk; decide
  · intro k layer hk e he s hs hl
    match k, hk with
    | 0, hk =>
      cases hk
      have hall : ∀ e ∈ twistEdges.getD 1 [], ∀ s ∈ e.1.sublistsLen 1,
          ∃ w ∈ ([0, 1, 2] : List Int), (s, w) ∈ twistEdges.getD 0 [] ∧ w ≤ e.2 := by decide
      obtain ⟨w, -, h1, h2⟩ := hall e he s (List.mem_sublistsLen.2 ⟨hs, hl⟩)
      exact ⟨_, w, rfl, h1, h2⟩
    | 1, hk =>
      cases hk
      have hall : ∀ e ∈ twistEdges.getD 2 [], ∀ s ∈ e.1.sublistsLen 2,
          ∃ w ∈ ([0, 1, 2] : List Int), (s, w) ∈ twistEdges.getD 1 [] ∧ w ≤ e.2 := by decide
      obtain ⟨w, -, h1, h2⟩ := hall e he s (List.mem_sublistsLen.2 ⟨hs, hl⟩)
      exact ⟨_, w, rfl, h1, h2⟩

/-- The hypotheses of C96 can be met: a square with its diagonals and its four triangles. The places
of the negative simplices are the three edges of a spanning tree and three of the four triangles. -/
example : FilteredComplex twistEdges ∧ FindsFacets twistEdges (searchFaces twistEdges) ∧
    2 < twistEdges.length ∧
    twistAllPivots (searchFaces twistEdges) 2 twistEdges = .ok [4, 5, 6, 10, 11, 12] := by
  refine ⟨twistFiltered, ?_, by decide, by decide +kernel⟩
  intro k rows cols hr hc c hcm
  refine ⟨_, rfl, List.pairwise_lt_range.filter _, ?_⟩
  have hF := twistFiltered
  obtain ⟨h1, h2, h3, h4⟩ := layer_facts hF hr hc
  have hl := (h3 c hcm)
  have hget : twistEdges.getD (c.1.length - 2) [] = rows := by
    rw [hl.2, show k + 2 - 2 = k by omega, List.getD_eq_getElem?_getD, hr]
    rfl
  intro x
  rw [hget, List.mem_filter, List.mem_range]
  constructor
  · rintro ⟨hx, hi⟩
    refine ⟨rows[x], List.getElem?_eq_getElem hx, ?_⟩
    rw [sublist_of_inc_subset (h1 _ (List.getElem_mem hx)).1 hl.1]
    rw [List.getD_eq_getElem?_getD, List.getElem?_map, List.getElem?_eq_getElem hx] at hi
    exact (stdIncludes_iff hl.1 (h1 _ (List.getElem_mem hx)).1).1 hi
  · rintro ⟨r, hr', hs⟩
    obtain ⟨hx, rfl⟩ := List.getElem?_eq_some_iff.1 hr'
    refine ⟨hx, ?_⟩
    rw [List.getD_eq_getElem?_getD, List.getElem?_map, List.getElem?_eq_getElem hx]
    exact (stdIncludes_iff hl.1 (h1 _ (List.getElem_mem hx)).1).2 (fun v hv => hs.subset hv)

/-- On the four points of C79 five simplices are negative, with the faces of the tree four are found. -/
example : ((buildIndexed (6 : Int) 2 fourPoints (SortBySecond.insertion _ _) 4).bind fun r =>
    twistAllPivots r.2.getFaces 2 r.1) = .ok [4, 5, 9, 10] := by decide +kernel

example : ((ITree.insertN (6 : Int) 2 fourPoints 4 ITree.fresh).bind
    (runTwistPairs (SortBySecond.insertion _ _) 2 6)) = .error .oob ∧
    Held 4 fourDist 6 2 [0, 1] := by
  refine ⟨by decide +kernel, ⟨⟨by decide, by decide, by decide, by decide⟩, by decide⟩⟩

end LHF
