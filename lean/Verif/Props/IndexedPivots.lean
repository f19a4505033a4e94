import Verif.Props.IndexedTree
import Verif.Props.Matrices

/-! C79: the faces and the pivots that optPersistencePairs takes from an indexed tree. -/

namespace LHF
open Spec

section
variable {W : Type} [LinearOrder W] [Zero W]

theorem held_at {n : Nat} {D : Nat → Nat → W} {eps : W} {maxDim : Nat}
    {sort : SortBySecond (Nat × List Nat) W} {t t' : ITree W} {tt : Tree W}
    (q : Queried n D eps maxDim sort t t' tt) {s : List Nat} :
    Held n D eps maxDim s ↔ ∃ k j, At (shown t'.graph) s k j := by
  have hst := shown_stores q
  constructor
  · rintro ⟨h1, h2⟩
    have hpos := List.length_pos_of_ne_nil h1.1
    obtain ⟨layer, hl, hm⟩ := (hst.exact (s.length - 1) s (diam D s) (by omega)).2
      ⟨by omega, h1, rfl⟩
    obtain ⟨j, hj⟩ := List.getElem?_of_mem hm
    exact ⟨_, j, layer, _, hl, hj⟩
  · rintro ⟨k, j, layer, w, hl, hj⟩
    have hk := (List.getElem?_eq_some_iff.1 hl).1
    have hlen := hst.only
    obtain ⟨h1, h2, -⟩ := (hst.exact k s w (by omega)).1 ⟨layer, hl, List.mem_of_getElem? hj⟩
    exact ⟨h2, by omega⟩

theorem at_find {n : Nat} {D : Nat → Nat → W} {eps : W} {maxDim : Nat}
    {sort : SortBySecond (Nat × List Nat) W} {t t' : ITree W} {tt : Tree W} (hn : n ≠ 0)
    (q : Queried n D eps maxDim sort t t' tt) {s : List Nat} {k j : Nat}
    (hs : At (shown t'.graph) s k j) : t'.find s = .ok (decide (j ≠ 0)) := by
  obtain ⟨e, h1, h2⟩ := at_node hn q hs
  rw [find_stored q.inv q.rel q.built.roots q.built.dims h1, vget_ok.2 h2, ok_bind]
  rfl

theorem held_erase {n : Nat} {D : Nat → Nat → W} {eps : W} {maxDim : Nat} {s : List Nat}
    (h : Held n D eps maxDim s) (h2 : 2 ≤ s.length) (i : Nat) (hi : i < s.length) :
    Held n D eps maxDim (s.eraseIdx i) := by
  have hl : (s.eraseIdx i).length = s.length - 1 := List.length_eraseIdx_of_lt hi
  have hne : s.eraseIdx i ≠ [] := by
    intro hc
    rw [hc] at hl
    simp at hl
    omega
  obtain ⟨h1, h3⟩ := h
  refine ⟨⟨hne, h1.2.1.sublist (List.eraseIdx_sublist ..), ?_, ?_⟩, by omega⟩
  · intro v hv
    exact h1.2.2.1 v ((List.eraseIdx_sublist ..).subset hv)
  · intro a ha b hb
    exact h1.2.2.2 a ((List.eraseIdx_sublist ..).subset ha) b ((List.eraseIdx_sublist ..).subset hb)

theorem getFaces_fold (t : ITree W) : ∀ (l : List (List Nat)) (acc : List Nat), Inc acc →
    (∀ z ∈ l, ∃ b, t.find z = .ok b) →
    ∃ F, l.foldlM (fun faces z => do
      let b ← t.find z
      pure (setInsert (if b then 1 else 0) faces)) acc = (.ok F : Res (List Nat)) ∧ Inc F ∧
      ∀ x, x ∈ F ↔ x ∈ acc ∨ ∃ z ∈ l, ∃ b, t.find z = .ok b ∧ x = if b then 1 else 0 := by
  intro l
  induction l with
  | nil => intro acc h _; exact ⟨acc, rfl, h, by simp⟩
  | cons z l ih =>
    intro acc h hz
    obtain ⟨b, hb⟩ := hz z (by simp)
    obtain ⟨F, h1, h2, h3⟩ := ih (setInsert (if b then 1 else 0) acc) (inc_setInsert _ h)
      (fun z hz' => hz z (by simp [hz']))
    refine ⟨F, ?_, h2, ?_⟩
    · rw [List.foldlM_cons, hb, ok_bind, pure_eq_ok, ok_bind]
      exact h1
    · intro x
      rw [h3 x, mem_setInsert]
      constructor
      · rintro ((h | h) | ⟨z', hz', h⟩)
        · exact Or.inr ⟨z, by simp, b, hb, h⟩
        · exact Or.inl h
        · exact Or.inr ⟨z', by simp [hz'], h⟩
      · rintro (h | ⟨z', hz', b', hb', h⟩)
        · exact Or.inl (Or.inr h)
        · rcases List.mem_cons.1 hz' with rfl | hz'
          · rw [hb] at hb'; cases hb'; exact Or.inl (Or.inl h)
          · exact Or.inr ⟨z', hz', b', hb', h⟩

theorem faces_spec {n : Nat} {D : Nat → Nat → W} {eps : W} {maxDim : Nat}
    {sort : SortBySecond (Nat × List Nat) W} {t t' : ITree W} {tt : Tree W} (hn : n ≠ 0)
    (q : Queried n D eps maxDim sort t t' tt) {s : List Nat} (hs : Held n D eps maxDim s)
    (h2 : 2 ≤ s.length) :
    ∃ F, t'.getFaces s = .ok F ∧ F.Pairwise (· < ·) ∧
      ∀ x, x ∈ F ↔ ∃ i k j, i < s.length ∧ At (shown t'.graph) (s.eraseIdx i) k j ∧
        x = if j = 0 then 0 else 1 := by
  have hinc : Inc s := hs.1.2.1
  have hmem : ∀ z, z ∈ getSubsetsS s ↔ ∃ i, i < s.length ∧ z = s.eraseIdx i := by
    intro z
    rw [getSubsetsS_eq_V hinc, getSubsetsV_mem hinc.nodup hs.1.1]
    constructor
    · rintro ⟨v, hv, rfl⟩
      obtain ⟨i, hi, rfl⟩ := List.mem_iff_getElem.1 hv
      exact ⟨i, hi, hinc.nodup.erase_getElem i hi⟩
    · rintro ⟨i, hi, rfl⟩
      exact ⟨s[i], List.getElem_mem hi, (hinc.nodup.erase_getElem i hi).symm⟩
  have hfind : ∀ i, i < s.length → ∃ k j, At (shown t'.graph) (s.eraseIdx i) k j ∧
      t'.find (s.eraseIdx i) = .ok (decide (j ≠ 0)) := by
    intro i hi
    obtain ⟨k, j, h⟩ := (held_at q).1 (held_erase hs h2 i hi)
    exact ⟨k, j, h, at_find hn q h⟩
  obtain ⟨F, h3, h4, h5⟩ := getFaces_fold t' (getSubsetsS s) [] List.Pairwise.nil (by
    intro z hz
    obtain ⟨i, hi, rfl⟩ := (hmem z).1 hz
    obtain ⟨k, j, -, h⟩ := hfind i hi
    exact ⟨_, h⟩)
  refine ⟨F, h3, h4, ?_⟩
  intro x
  rw [h5 x]
  constructor
  · rintro (h | ⟨z, hz, b, hb, rfl⟩)
    · simp at h
    · obtain ⟨i, hi, rfl⟩ := (hmem z).1 hz
      obtain ⟨k, j, ha, h⟩ := hfind i hi
      rw [h] at hb
      cases hb
      refine ⟨i, k, j, hi, ha, ?_⟩
      by_cases hj : j = 0 <;> simp [hj]
  · rintro ⟨i, k, j, hi, ha, rfl⟩
    refine Or.inr ⟨_, (hmem _).2 ⟨i, hi, rfl⟩, _, at_find hn q ha, ?_⟩
    by_cases hj : j = 0 <;> simp [hj]

/-- C79 (exact behaviour): for a simplex with at least two vertices that the complex holds, `getFaces`
returns 0 if one of its faces is the first of its layer and 1 if one of its faces is not. -/
theorem C79_faces (eps : W) (maxDim : Nat) (dm : List (List W)) (d : Nat → Nat → W)
    (h0 : ∀ i j, 0 ≤ d i j) (sort : SortBySecond (Nat × List Nat) W) (n : Nat)
    (hne : dm ≠ []) (hdm : ∀ i j, i < j → j < n → at2 dm i j = .ok (d i j))
    {g : Graph W} {t : ITree W} (hrun : buildIndexed eps maxDim dm sort n = .ok (g, t))
    {s : List Nat} (hs : Held n d eps maxDim s) (h2 : 2 ≤ s.length) :
    ∃ F, t.getFaces s = .ok F ∧ F.Pairwise (· < ·) ∧
      ∀ x, x ∈ F ↔ ∃ i k j, i < s.length ∧ At g (s.eraseIdx i) k j ∧ x = if j = 0 then 0 else 1 := by
  have hn : n ≠ 0 := by
    rintro rfl
    obtain ⟨v, hv⟩ := List.exists_mem_of_ne_nil _ hs.1.1
    exact absurd (hs.1.2.2.1 v hv) (by omega)
  obtain ⟨t0, tt, q, rfl⟩ := queried_of_run h0 hn hne hdm hrun
  exact faces_spec hn q hs h2

/-- C79 is violated: the position of a face is not in the result if it is larger than 1. -/
theorem C79_faces_violated (eps : W) (maxDim : Nat) (dm : List (List W)) (d : Nat → Nat → W)
    (h0 : ∀ i j, 0 ≤ d i j) (sort : SortBySecond (Nat × List Nat) W) (n : Nat)
    (hne : dm ≠ []) (hdm : ∀ i j, i < j → j < n → at2 dm i j = .ok (d i j))
    {g : Graph W} {t : ITree W} (hrun : buildIndexed eps maxDim dm sort n = .ok (g, t))
    {s : List Nat} (hs : Held n d eps maxDim s) (h2 : 2 ≤ s.length) {i k j : Nat} (hi : i < s.length)
    (hj : At g (s.eraseIdx i) k j) (hlarge : 2 ≤ j) :
    ∃ F, t.getFaces s = .ok F ∧ j ∉ F ∧ 1 ∈ F := by
  obtain ⟨F, h1, -, h3⟩ := C79_faces eps maxDim dm d h0 sort n hne hdm hrun hs h2
  refine ⟨F, h1, ?_, ?_⟩
  · rw [h3]
    rintro ⟨i', k', j', -, -, h⟩
    by_cases hj' : j' = 0
    · rw [if_pos hj'] at h; omega
    · rw [if_neg hj'] at h; omega
  · rw [h3]
    exact ⟨i, k, j, hi, hj, by rw [if_neg (by omega)]⟩

/-! ### Pivots -/

/-- Columns whose row indices are 0 and 1 have rank at most 2. -/
theorem small_columns_le {m : List (List Nat)} (hinc : ∀ c ∈ m, Inc c) (h : ∀ c ∈ m, ∀ x ∈ c, x ≤ 1) :
    (optGetRankNullSets m).1.length ≤ 2 := by
  obtain ⟨h1, h2, -⟩ := optGetRankNullSets_spec hinc
  have hle : (optGetRankNullSets m).1.length ≤ (indep (ZMod 2) (m.map ind)).length :=
    (List.subperm_of_subset h1.nodup h2).length_le
  refine hle.trans ?_
  classical
  rw [indep_length]
  have hsub : spanL (ZMod 2) (m.map ind) ≤
      Submodule.span (ZMod 2) (({ind [0], ind [1]} : Finset (Nat → ZMod 2)) : Set (Nat → ZMod 2)) := by
    unfold spanL
    rw [Submodule.span_le]
    intro y hy
    obtain ⟨c, hc, rfl⟩ := List.mem_map.1 hy
    have e : ind c = ind c 0 • ind [0] + ind c 1 • ind [1] := by
      funext x
      simp only [Pi.add_apply, Pi.smul_apply, smul_eq_mul]
      match x with
      | 0 => simp [ind]
      | 1 => simp [ind]
      | x + 2 =>
        have : x + 2 ∉ c := fun hx => by have := h c hc _ hx; omega
        simp [ind, this]
    rw [e]
    exact Submodule.add_mem _
      (Submodule.smul_mem _ _ (Submodule.subset_span (by simp)))
      (Submodule.smul_mem _ _ (Submodule.subset_span (by simp)))
  refine (Submodule.finrank_mono hsub).trans ?_
  exact (finrank_span_finset_le_card _).trans Finset.card_le_two

theorem optSets_faces (m : List (List Nat)) :
    (optGetRankNullSets m).1 = [] → (optGetRankNullSets m).2 = [] := by
  have key : ∀ (l : List Nat) (s : List (List Nat) × List Nat × List Nat),
      (s.2.1 = [] → s.2.2 = []) → ((l.foldl optSetStep s).2.1 = [] → (l.foldl optSetStep s).2.2 = []) := by
    intro l
    induction l with
    | nil => intro s h; exact h
    | cons i l ih =>
      intro s h
      rw [List.foldl_cons]
      apply ih
      unfold optSetStep
      dsimp only
      cases (elimSets i s.1 0).2 with
      | none => exact h
      | some p =>
        intro hc
        dsimp only at hc
        have : p.1 ∈ setInsert p.1 s.2.1 := (mem_setInsert _ _ _).2 (Or.inl rfl)
        rw [hc] at this
        simp at this
  exact key _ (m, [], []) (fun _ => rfl)

/-- With two columns or more, one of them not empty, there is a pivot. -/
theorem small_columns_pivot {m : List (List Nat)} (hinc : ∀ c ∈ m, Inc c)
    (h : ∀ c ∈ m, ∀ x ∈ c, x ≤ 1) (h2 : 2 ≤ m.length) {c : List Nat} (hc : c ∈ m) (hne : c ≠ []) :
    (optGetRankNullSets m).1 ≠ [] := by
  obtain ⟨-, -, h3⟩ := optGetRankNullSets_spec hinc
  rw [h3 (by intro c hc x hx; have := h c hc x hx; omega)]
  intro hnil
  have hlen := indep_length (K := ZMod 2) (m.map ind)
  rw [hnil, List.length_nil] at hlen
  have hfin : Module.Finite (ZMod 2) (spanL (ZMod 2) (m.map ind)) := by
    unfold spanL
    exact Module.Finite.span_of_finite _ (List.finite_toSet _)
  have hbot := Submodule.finrank_eq_zero.1 hlen.symm
  have hmem : ind c ∈ spanL (ZMod 2) (m.map ind) :=
    Submodule.subset_span (List.mem_map_of_mem hc)
  rw [hbot, Submodule.mem_bot] at hmem
  obtain ⟨x, hx⟩ := List.exists_mem_of_ne_nil _ hne
  have := congrFun hmem x
  unfold ind at this
  rw [if_pos hx] at this
  exact one_ne_zero this

omit [LinearOrder W] [Zero W] in
theorem faceColumns_spec (t : ITree W) : ∀ (l : List (IEntry W)) (i : Nat) (pivots : List Nat),
    (∀ e ∈ l, ∃ F, t.getFaces e.1.2 = .ok F ∧ Inc F ∧ F ≠ [] ∧ ∀ x ∈ F, x ≤ 1) →
    ∃ cols, faceColumns t i pivots l = .ok cols ∧ cols.length = l.length ∧ (∀ c ∈ cols, Inc c) ∧
      (∀ c ∈ cols, ∀ x ∈ c, x ≤ 1) ∧ (pivots = [] → ∀ c ∈ cols, c ≠ []) := by
  intro l
  induction l with
  | nil => intro i p _; exact ⟨[], rfl, rfl, by simp, by simp, by simp⟩
  | cons e l ih =>
    intro i p he
    rw [faceColumns]
    by_cases hp : p.head? = some i
    · rw [if_pos hp]
      obtain ⟨cols, h1, h2, h3, h4, h5⟩ := ih (i + 1) p.tail (fun e h => he e (by simp [h]))
      rw [h1, ok_bind]
      refine ⟨_, rfl, by simp [h2], ?_, ?_, ?_⟩
      · intro c hc
        rcases List.mem_cons.1 hc with rfl | hc
        · exact List.Pairwise.nil
        · exact h3 c hc
      · intro c hc
        rcases List.mem_cons.1 hc with rfl | hc
        · simp
        · exact h4 c hc
      · rintro rfl
        simp at hp
    · rw [if_neg hp]
      obtain ⟨F, f1, f2, f3, f4⟩ := he e (by simp)
      obtain ⟨cols, h1, h2, h3, h4, h5⟩ := ih (i + 1) p (fun e h => he e (by simp [h]))
      rw [f1, ok_bind, h1, ok_bind]
      refine ⟨_, rfl, by simp [h2], ?_, ?_, ?_⟩
      · intro c hc
        rcases List.mem_cons.1 hc with rfl | hc
        · exact f2
        · exact h3 c hc
      · intro c hc
        rcases List.mem_cons.1 hc with rfl | hc
        · exact f4
        · exact h4 c hc
      · intro hp' c hc
        rcases List.mem_cons.1 hc with rfl | hc
        · exact f3
        · exact h5 hp' c hc

theorem foldl_pivots (off : Nat) : ∀ (l acc : List Nat), Inc acc →
    Inc (l.foldl (fun s a => setInsert (a + off) s) acc) ∧
    (∀ x, x ∈ l.foldl (fun s a => setInsert (a + off) s) acc ↔ x ∈ acc ∨ ∃ a ∈ l, x = a + off) ∧
    (l.foldl (fun s a => setInsert (a + off) s) acc).length ≤ acc.length + l.length := by
  intro l
  induction l with
  | nil => intro acc h; exact ⟨h, by simp, by simp⟩
  | cons a l ih =>
    intro acc h
    obtain ⟨h1, h2, h3⟩ := ih (setInsert (a + off) acc) (inc_setInsert _ h)
    rw [List.foldl_cons]
    refine ⟨h1, ?_, ?_⟩
    · intro x
      rw [h2, mem_setInsert]
      simp only [List.mem_cons, exists_eq_or_imp]
      tauto
    · refine h3.trans ?_
      have : (setInsert (a + off) acc).length ≤ acc.length + 1 := by
        have hs : setInsert (a + off) acc ⊆ (a + off) :: acc := by
          intro z hz
          rw [List.mem_cons]
          exact (mem_setInsert _ _ _).1 hz
        simpa using (List.subperm_of_subset (inc_setInsert _ h).nodup hs).length_le
      simp only [List.length_cons]
      omega

omit [LinearOrder W] [Zero W] in
theorem indexPivotLoop_spec (t : ITree W) (ge : List (List (IEntry W)))
    (hfaces : ∀ k layer, ge[k + 1]? = some layer → ∀ e ∈ layer,
      ∃ F, t.getFaces e.1.2 = .ok F ∧ Inc F ∧ F ≠ [] ∧ ∀ x ∈ F, x ≤ 1) :
    ∀ (d off : Nat) (maxFaces acc : List Nat), Inc acc →
      (d < ge.length → ((ge.take (d + 1)).map List.length).sum ≤ off ∧ off ≤ ge.flatten.length) →
      (acc = [] → maxFaces = []) →
      (∀ x ∈ acc, (ge.getD 0 []).length ≤ x ∧ x < ge.flatten.length) →
      indexPivotLoop t ge d off maxFaces acc = .error .oob ∨
      ∃ r, indexPivotLoop t ge d off maxFaces acc = .ok r ∧ Inc r ∧ r.length ≤ acc.length + 2 * d ∧
        (∀ x ∈ r, (ge.getD 0 []).length ≤ x ∧ x < ge.flatten.length) ∧
        (acc ≠ [] → r ≠ []) ∧ (1 ≤ d → ∀ l, ge[1]? = some l → 2 ≤ l.length → r ≠ []) := by
  intro d
  induction d with
  | zero =>
    intro off mf acc h1 h2 h3 h4
    exact Or.inr ⟨acc, rfl, h1, by simp, h4, id, by omega⟩
  | succ d ih =>
    intro off mf acc h1 h2 h3 h4
    by_cases hd : d + 1 < ge.length
    swap
    · left
      rw [indexPivotLoop]
      have : vget ge (d + 1) = .error .oob := by
        unfold vget
        rw [List.getElem?_eq_none (by omega)]
      rw [this]; rfl
    have e1 : ge[d + 1]? = some ge[d + 1] := List.getElem?_eq_getElem hd
    have e0 : ge[d]? = some ge[d] := List.getElem?_eq_getElem (by omega)
    have hstep : ((ge.take (d + 1 + 1)).map List.length).sum =
        ((ge.take (d + 1)).map List.length).sum + ge[d + 1].length := by
      rw [List.take_add_one (i := d + 1), e1, List.map_append, List.sum_append]
      simp
    obtain ⟨o1, o2⟩ := h2 hd
    rw [hstep] at o1
    have hlow : (ge.getD 0 []).length ≤ ((ge.take (d + 1)).map List.length).sum := by
      cases ge with
      | nil => simp
      | cons a l => simp
    obtain ⟨cols, c1, c2, c3, c4, c5⟩ := faceColumns_spec t ge[d + 1] 0 mf (hfaces d _ e1)
    rw [indexPivotLoop, vget_ok.2 e1, ok_bind, vget_ok.2 e0, ok_bind, c1, ok_bind]
    dsimp only
    obtain ⟨p1, p2, -⟩ := optGetRankNullSets_spec c3
    obtain ⟨q1, q2, q3⟩ := foldl_pivots (off - ge[d + 1].length)
      (optGetRankNullSets cols).1 acc h1
    have hsmall := small_columns_le c3 c4
    rcases ih (off - ge[d + 1].length) (optGetRankNullSets cols).2 _ q1 (fun _ => by omega) (by
        intro hnil
        apply optSets_faces
        by_contra hc
        obtain ⟨a, ha⟩ := List.exists_mem_of_ne_nil _ hc
        have := (q2 _).2 (Or.inr ⟨a, ha, rfl⟩)
        rw [hnil] at this
        simp at this) (by
        intro x hx
        rcases (q2 x).1 hx with hx | ⟨a, ha, rfl⟩
        · exact h4 x hx
        · have := indep_lt (p2 a ha)
          rw [List.length_map, c2] at this
          omega) with hr | ⟨r, r1, r2, r3, r4, r5, r6⟩
    · exact Or.inl hr
    · refine Or.inr ⟨r, r1, r2, by omega, r4, ?_, ?_⟩
      · intro hacc
        apply r5
        obtain ⟨a, ha⟩ := List.exists_mem_of_ne_nil _ hacc
        intro hc
        have := (q2 a).2 (Or.inl ha)
        rw [hc] at this
        simp at this
      · intro _ l hl hl2
        by_cases hd0 : 1 ≤ d
        · exact r6 hd0 l hl hl2
        · obtain rfl : d = 0 := by omega
          apply r5
          by_cases hacc : acc = []
          · have hmf := h3 hacc
            have hll : l = ge[0 + 1] := by
              rw [e1] at hl; exact (Option.some.inj hl).symm
            obtain ⟨c, hc⟩ := List.exists_mem_of_length_pos (l := cols) (by rw [c2, ← hll]; omega)
            have := small_columns_pivot c3 c4 (by rw [c2, ← hll]; exact hl2) hc (c5 hmf c hc)
            obtain ⟨a, ha⟩ := List.exists_mem_of_ne_nil _ this
            intro hnil
            have := (q2 _).2 (Or.inr ⟨a, ha, rfl⟩)
            rw [hnil] at this
            simp at this
          · obtain ⟨a, ha⟩ := List.exists_mem_of_ne_nil _ hacc
            intro hc
            have := (q2 a).2 (Or.inl ha)
            rw [hc] at this
            simp at this

/-- What the loop over the dimensions finds on a tree built by insertions. -/
theorem indexAllPivots_spec {eps : W} {maxDim : Nat} {dm : List (List W)} {d : Nat → Nat → W}
    (h0 : ∀ i j, 0 ≤ d i j) (sort : SortBySecond (Nat × List Nat) W) {n : Nat} (hn : n ≠ 0)
    (hne : dm ≠ []) (hdm : ∀ i j, i < j → j < n → at2 dm i j = .ok (d i j)) {t : ITree W}
    (hrun : ITree.insertN eps maxDim dm n ITree.fresh = .ok t) (dim : Nat) :
    ∃ t' tt, t.getIndexEdges sort = .ok (t'.graph, t') ∧ Queried n d eps maxDim sort t t' tt ∧
    (indexAllPivots sort dim t = .error .oob ∨
      ∃ r, indexAllPivots sort dim t = .ok r ∧ Inc r ∧ r.length ≤ 2 * dim ∧
        (∀ x ∈ r, (t'.graph.getD 0 []).length ≤ x ∧ x < t'.graph.flatten.length) ∧
        (1 ≤ dim → ∀ l, t'.graph[1]? = some l → 2 ≤ l.length → r ≠ [])) := by
  obtain ⟨tt, i1, i2, i3, i4⟩ := insertNI_rel (D := d) (eps := eps) (maxDim := maxDim) h0 n
    (fun _ => hne) hdm
  have hle : tt.weg.length ≤ 3 := by
    by_contra hc
    rw [i4 (by omega)] at hrun
    cases hrun
  obtain ⟨t1, k1, k2, k3⟩ := i3 hle
  rw [hrun] at k1
  cases k1
  obtain ⟨t', g1, g2⟩ := getIndexEdges_built k2 k3 (rel_dims_ne i1 k2 hn) sort
  have q : Queried n d eps maxDim sort t t' tt := ⟨i1, k2, g2⟩
  refine ⟨t', tt, g1, q, ?_⟩
  unfold indexAllPivots
  rw [g1, ok_bind]
  dsimp only
  have hfaces : ∀ k layer, t'.graph[k + 1]? = some layer → ∀ e ∈ layer,
      ∃ F, t'.getFaces e.1.2 = .ok F ∧ Inc F ∧ F ≠ [] ∧ ∀ x ∈ F, x ≤ 1 := by
    intro k layer hl e he
    have hst := shown_stores q
    have hl' : (shown t'.graph)[k + 1]? = some (layer.map (fun e => (e.1.2, e.2))) := by
      unfold shown
      rw [List.getElem?_map, hl]
      rfl
    have hk := (List.getElem?_eq_some_iff.1 hl').1
    have honly := hst.only
    obtain ⟨a1, a2, -⟩ := (hst.exact (k + 1) e.1.2 e.2 (by omega)).1
      ⟨_, hl', List.mem_map.2 ⟨e, he, rfl⟩⟩
    have hheld : Held n d eps maxDim e.1.2 := ⟨a2, by omega⟩
    obtain ⟨F, f1, f2, f3⟩ := faces_spec hn q hheld (by omega)
    refine ⟨F, f1, f2, ?_, ?_⟩
    · obtain ⟨k', j, h⟩ := (held_at q).1 (held_erase hheld (by omega) 0 (by omega))
      have := (f3 _).2 ⟨0, k', j, by omega, h, rfl⟩
      intro hc
      rw [hc] at this
      simp at this
    · intro x hx
      obtain ⟨i, k', j, -, -, rfl⟩ := (f3 x).1 hx
      by_cases hj : j = 0 <;> simp [hj]
  have htake : ((t'.graph.take (dim + 1)).map List.length).sum ≤ (t'.graph.map List.length).sum := by
    conv_rhs => rw [← List.take_append_drop (dim + 1) t'.graph, List.map_append, List.sum_append]
    omega
  have := indexPivotLoop_spec t' t'.graph hfaces dim (t'.graph.map List.length).sum [] []
    List.Pairwise.nil (fun _ => ⟨htake, by rw [List.length_flatten]⟩) (fun _ => rfl) (by simp)
  rcases this with h | ⟨r, r1, r2, r3, r4, -, r6⟩
  · exact Or.inl h
  · exact Or.inr ⟨r, r1, r2, by simpa using r3, r4, r6⟩

/-- C79 is violated: optPersistencePairs finds at most two negative simplices in each dimension of an
indexed tree. -/
theorem C79_pivots_violated (eps : W) (maxDim : Nat) (dm : List (List W)) (d : Nat → Nat → W)
    (h0 : ∀ i j, 0 ≤ d i j) (sort : SortBySecond (Nat × List Nat) W) (n : Nat) (hn : n ≠ 0)
    (hne : dm ≠ []) (hdm : ∀ i j, i < j → j < n → at2 dm i j = .ok (d i j)) {t : ITree W}
    (hrun : ITree.insertN eps maxDim dm n ITree.fresh = .ok t) (dim : Nat) :
    indexAllPivots sort dim t = .error .oob ∨
      ∃ r, indexAllPivots sort dim t = .ok r ∧ r.length ≤ 2 * dim := by
  obtain ⟨t', tt, -, -, h | ⟨r, h1, -, h2, -⟩⟩ := indexAllPivots_spec h0 sort hn hne hdm hrun dim
  · exact Or.inl h
  · exact Or.inr ⟨r, h1, h2⟩

omit [Zero W] in
theorem pairStep_unpaired (short : Bool) (ks : List (List Nat)) (l : List (List Nat × W)) :
    ∀ (s : PairState W) (a : Nat), a = s.t.length →
    (∀ i, i < l.length → s.cur ≠ some (a + i)) →
    ((List.range' a l.length).zip l).foldlM (pairStep short ks) s =
      .ok { s with t := s.t ++ l.map (fun e => ⟨true, some e.2, none, e.1⟩) } := by
  induction l with
  | nil => intro s a _ _; simp [pure, Except.pure]
  | cons e l ih =>
    intro s a ha hl
    rw [List.length_cons, List.range'_succ, List.zip_cons_cons, List.foldlM_cons]
    have h1 : pairStep short ks s (a, e) =
        .ok { s with t := s.t ++ [⟨true, some e.2, none, e.1⟩] } := by
      unfold pairStep
      dsimp only
      rw [if_pos (Or.inr (fun h => hl 0 (by simp) h.symm))]
      subst ha
      have hm : ∀ (t : List (TEntry W)) (x : TEntry W) (f : TEntry W → TEntry W),
          (t ++ [x]).modify t.length f = t ++ [f x] := by
        intro t x f
        induction t with
        | nil => rfl
        | cons y t iht => simp [iht]
      simp [vmodify, bind, Except.bind, pure, Except.pure, hm]
    rw [h1]
    simp only [bind, Except.bind]
    rw [ih _ (a + 1) (by simp [ha]) (fun i hi => by
      have := hl (i + 1) (by simpa using hi)
      intro h
      exact this (by rw [h]; congr 1; omega))]
    simp

omit [Zero W] in
/-- The loop reads one entry past the T-array at the first pivot, wherever it is. -/
theorem pair_loop_pivot_oob (short : Bool) {flat : List (List Nat × W)} {x : Nat}
    {e : List Nat × W} (hx : flat[x]? = some e) (he : e.1.length ≠ 1) (pivots : List Nat) :
    ((List.range flat.length).zip flat).foldlM (pairStep short (flat.map Prod.fst))
      ⟨[], pivots, some x, []⟩ = .error .oob := by
  obtain ⟨hlt, rfl⟩ := List.getElem?_eq_some_iff.1 hx
  have hsplit : flat = flat.take x ++ flat[x] :: flat.drop (x + 1) := by simp
  have hlen : (flat.take x).length = x := by rw [List.length_take]; omega
  generalize hks : flat.map Prod.fst = ks
  generalize flat[x] = e at *
  rw [hsplit, List.length_append, List.range_eq_range', ← List.range'_append_1,
    List.zip_append (by simp), List.foldlM_append]
  rw [pairStep_unpaired short _ _ _ 0 rfl (by
    intro i hi h
    rw [hlen] at hi
    have : x = 0 + i := by simpa using h
    omega)]
  simp only [bind, Except.bind]
  rw [List.length_cons, List.range'_succ, List.zip_cons_cons, List.foldlM_cons]
  have hfind : ∀ (t : List (TEntry W)) ks cur, 0 < t.length →
      findPartner short t ks cur t.length = .error .oob := by
    intro t ks cur ht
    obtain ⟨n, hn⟩ : ∃ n, t.length = n + 1 := ⟨t.length - 1, by omega⟩
    have hv : vget t (n + 1) = .error .oob := by
      unfold vget
      rw [List.getElem?_eq_none (by omega)]
    rw [hn]
    simp only [findPartner, isPartner, hv, bind, Except.bind]
  have hstep : ∀ t : List (TEntry W), pairStep short ks
      (⟨t, pivots, some x, []⟩ : PairState W) (0 + (flat.take x).length, e) = .error .oob := by
    intro t
    unfold pairStep
    dsimp only
    rw [if_neg (by rw [hlen]; simp [he]), hfind _ _ _ (by simp)]
    rfl
  rw [hstep]
  rfl

/-- C79 is violated: on an indexed tree with at least two edges the run of optPersistencePairs leaves
its table, whatever the order of equal weights is. -/
theorem C79_run_violated (eps : W) (maxDim : Nat) (dm : List (List W)) (d : Nat → Nat → W)
    (h0 : ∀ i j, 0 ≤ d i j) (sort : SortBySecond (Nat × List Nat) W) (n : Nat)
    (hne : dm ≠ []) (hdm : ∀ i j, i < j → j < n → at2 dm i j = .ok (d i j)) {t : ITree W}
    (hrun : ITree.insertN eps maxDim dm n ITree.fresh = .ok t) (dim : Nat) (hdim : 1 ≤ dim)
    {s s' : List Nat} (hs : Held n d eps maxDim s) (hs' : Held n d eps maxDim s')
    (hlen : s.length = 2) (hlen' : s'.length = 2) (hss : s ≠ s') (maxEpsilon : W) :
    runIndexPersistencePairs sort dim maxEpsilon t = .error .oob := by
  have hn : n ≠ 0 := by
    rintro rfl
    obtain ⟨v, hv⟩ := List.exists_mem_of_ne_nil _ hs.1.1
    exact absurd (hs.1.2.2.1 v hv) (by omega)
  obtain ⟨t', tt, g1, q, h⟩ := indexAllPivots_spec h0 sort hn hne hdm hrun dim
  unfold runIndexPersistencePairs
  rw [g1, ok_bind]
  dsimp only
  rcases h with h | ⟨r, r1, r2, -, r4, r5⟩
  · rw [h]; rfl
  have hst := shown_stores q
  have hlayer : ∀ z, Held n d eps maxDim z → z.length = 2 →
      ∃ l, t'.graph[1]? = some l ∧ z ∈ l.map (fun e => e.1.2) := by
    intro z hz hz2
    obtain ⟨layer, hl, hm⟩ := (hst.exact 1 z (diam d z) (by omega)).2 ⟨hz2, hz.1, rfl⟩
    unfold shown at hl
    rw [List.getElem?_map, Option.map_eq_some_iff] at hl
    obtain ⟨l, hl, rfl⟩ := hl
    obtain ⟨e, he, hez⟩ := List.mem_map.1 hm
    exact ⟨l, hl, List.mem_map.2 ⟨e, he, congrArg Prod.fst hez⟩⟩
  obtain ⟨l, hl, hm⟩ := hlayer s hs hlen
  obtain ⟨l', hl', hm'⟩ := hlayer s' hs' hlen'
  rw [hl] at hl'
  cases hl'
  have h2 : 2 ≤ l.length := by
    have hsub : [s, s'] ⊆ l.map (fun e => e.1.2) := by
      intro z hz
      simp only [List.mem_cons, List.not_mem_nil, or_false] at hz
      rcases hz with rfl | rfl
      · exact hm
      · exact hm'
    have := (List.subperm_of_subset (by simpa using hss) hsub).length_le
    simpa using this
  have hr := r5 hdim l hl h2
  obtain ⟨x, rest, rfl⟩ := List.exists_cons_of_ne_nil hr
  obtain ⟨x1, x2⟩ := r4 x (by simp)
  rw [r1, ok_bind, List.head?_cons]
  have hget : (t'.graph.flatten.map (fun e => (e.1.2, e.2)))[x]? =
      some ((t'.graph.flatten[x]).1.2, (t'.graph.flatten[x]).2) := by
    rw [List.getElem?_map, List.getElem?_eq_getElem x2]
    rfl
  rw [pair_loop_pivot_oob true hget (by
    obtain ⟨p, g', hg⟩ := List.exists_cons_of_ne_nil (l := t'.graph) (by
      intro hc; rw [hc] at hl; simp at hl)
    have hmem : t'.graph.flatten[x] ∈ g'.flatten := by
      have e : t'.graph.flatten = p ++ g'.flatten := by rw [hg]; rfl
      have hp : p.length ≤ x := by rw [hg] at x1; simpa using x1
      have : t'.graph.flatten[x]? = g'.flatten[x - p.length]? := by
        rw [e, List.getElem?_append_right hp]
      rw [List.getElem?_eq_getElem x2] at this
      exact List.mem_of_getElem? this.symm
    obtain ⟨layer, hlm, hel⟩ := List.mem_flatten.1 hmem
    obtain ⟨k, hk⟩ := List.getElem?_of_mem hlm
    have hl2 : (shown t'.graph)[k + 1]? = some (layer.map (fun e => (e.1.2, e.2))) := by
      unfold shown
      rw [List.getElem?_map, hg, List.getElem?_cons_succ, hk]
      rfl
    have hk2 := (List.getElem?_eq_some_iff.1 hl2).1
    have honly := hst.only
    obtain ⟨a1, -, -⟩ := (hst.exact (k + 1) _ _ (by omega)).1
      ⟨_, hl2, List.mem_map.2 ⟨_, hel, rfl⟩⟩
    intro hc
    dsimp only at hc
    omega)]
  rfl

end

example : ((buildIndexed (6 : Int) 2 fourPoints (SortBySecond.insertion _ _) 4).bind fun r =>
    r.2.getFaces [0, 2, 3]) = .ok [0, 1] ∧
  ((buildIndexed (6 : Int) 2 fourPoints (SortBySecond.insertion _ _) 4).bind fun r =>
    r.2.getFaces [2, 3]) = .ok [1] := by decide

/-- `fourPoints` has two triangles and a spanning tree with three edges, so five simplices are negative;
two edges and two triangles are found. -/
example : ((ITree.insertN (6 : Int) 2 fourPoints 4 ITree.fresh).bind
    (indexAllPivots (SortBySecond.insertion _ _) 2)) = .ok [4, 7, 9, 10] := by decide +kernel

example : ((ITree.insertN (6 : Int) 2 fourPoints 4 ITree.fresh).bind
    (runIndexPersistencePairs (SortBySecond.insertion _ _) 2 6)) = .error .oob ∧
    Held 4 fourDist 6 2 [0, 1] ∧ Held 4 fourDist 6 2 [2, 3] := by
  refine ⟨by decide +kernel, ⟨⟨by decide, by decide, by decide, by decide⟩, by decide⟩,
    ⟨⟨by decide, by decide, by decide, by decide⟩, by decide⟩⟩

end LHF
