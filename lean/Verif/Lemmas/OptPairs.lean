import Verif.Lemmas.BoundaryRows

/-! The clearing of optPersistencePairs. -/

namespace LHF
open Spec

/-- `f` is the last nonzero coordinate of `y`, or `y` has a single nonzero coordinate. -/
def TopOrUnit (y : Nat → ZMod 2) (f : Nat) : Prop :=
  (y f = 1 ∧ ∀ c, f < c → y c = 0) ∨ ∃ i, y i = 1 ∧ ∀ c, c ≠ i → y c = 0

theorem lastMaximal_spec {n i j : Nat} {row : List Nat} (hl : row.length = n)
    (hb : ∀ x ∈ row, x = 0 ∨ x = 1) : ∃ f, lastMaximal n i j row = .ok f ∧
      ((f = j ∧ ∀ c, i < c → rowVec row c = 0) ∨
       (i < f ∧ rowVec row f = 1 ∧ ∀ c, f < c → rowVec row c = 0)) := by
  unfold lastMaximal
  have key : ∀ (k a : Nat) (last : Nat), i < a → a + k = max n a →
      ((last = j ∧ ∀ c, i < c → c < a → rowVec row c = 0) ∨
       (i < last ∧ rowVec row last = 1 ∧ ∀ c, last < c → c < a → rowVec row c = 0)) →
      ∃ f, (List.range' a k).foldlM (fun last mf => do
          let x ← vget row mf
          pure (if x = 1 then mf else last)) last = (.ok f : Res Nat) ∧
        ((f = j ∧ ∀ c, i < c → rowVec row c = 0) ∨
         (i < f ∧ rowVec row f = 1 ∧ ∀ c, f < c → rowVec row c = 0)) := by
    intro k
    induction k with
    | zero =>
      intro a last ha hk h
      refine ⟨last, rfl, ?_⟩
      have hbey : ∀ c, a ≤ c → rowVec row c = 0 := fun c hc => rowVec_beyond (by omega)
      rcases h with ⟨h1, h2⟩ | ⟨h1, h2, h3⟩
      · refine Or.inl ⟨h1, fun c hc => ?_⟩
        by_cases h : c < a
        · exact h2 c hc h
        · exact hbey c (by omega)
      · refine Or.inr ⟨h1, h2, fun c hc => ?_⟩
        by_cases h : c < a
        · exact h3 c hc h
        · exact hbey c (by omega)
    | succ k ih =>
      intro a last ha hk h
      rw [List.range'_succ, List.foldlM_cons]
      obtain ⟨x, hx, hcase⟩ := rowVec_apply (i := a) (by omega) hb
      rw [hx]
      simp only [bind, Except.bind, pure, Except.pure]
      have := ih (a + 1) (if x = 1 then a else last) (by omega) (by omega) ?_
      · simpa [bind, Except.bind, pure, Except.pure] using this
      · rcases hcase with ⟨rfl, hv⟩ | ⟨hne, hv⟩
        · rw [if_pos rfl]
          exact Or.inr ⟨ha, hv, fun c h1 h2 => by omega⟩
        · rw [if_neg hne]
          rcases h with ⟨h1, h2⟩ | ⟨h1, h2, h3⟩
          · refine Or.inl ⟨h1, fun c hc hc' => ?_⟩
            by_cases h : c = a
            · rw [h]; exact hv
            · exact h2 c hc (by omega)
          · refine Or.inr ⟨h1, h2, fun c hc hc' => ?_⟩
            by_cases h : c = a
            · rw [h]; exact hv
            · exact h3 c hc (by omega)
  exact key (n - (i + 1)) (i + 1) j (by omega) (by omega) (Or.inl ⟨rfl, fun c h1 h2 => by omega⟩)

theorem optGetRankNull_spec {m : List (List Nat)} {n : Nat} (hne : m ≠ []) (hm : Binary m n) :
    ∃ faces, optGetRankNull m = .ok (indep (ZMod 2) (m.map rowVec), faces) ∧ Inc faces ∧
      ∀ f ∈ faces, ∃ y ∈ spanL (ZMod 2) (m.map rowVec), TopOrUnit y f := by
  obtain ⟨first, rest, rfl⟩ := List.exists_cons_of_ne_nil hne
  have hlen : first.length = n := (hm first (by simp)).1
  set m0 := first :: rest with hm0
  unfold optGetRankNull
  have h0 : vget m0 0 = .ok first := rfl
  rw [h0]
  simp only [bind, Except.bind]
  rw [hlen]
  have key := foldlM_range_total (optRankStep n)
    (fun i s => Binary s.1 n ∧ (∀ c < i, ∀ y ∈ s.1.map rowVec, y c = 0) ∧ Inc s.2.1 ∧
      (∀ j, j ∈ indep (ZMod 2) (m0.map rowVec) ↔
        j ∈ s.2.1 ∨ j ∈ indep (ZMod 2) (s.1.map rowVec)) ∧
      (∀ y ∈ s.1.map rowVec, y ∈ spanL (ZMod 2) (m0.map rowVec)) ∧ Inc s.2.2 ∧
      ∀ f ∈ s.2.2, ∃ y ∈ spanL (ZMod 2) (m0.map rowVec), TopOrUnit y f)
    n (m0, [], [])
  obtain ⟨s, h1, ⟨h2, h3, h4, h5, -, h6, h7⟩⟩ := by
    apply key
    · exact ⟨hm, by intro c hc; omega, List.Pairwise.nil, by intro j; simp,
        fun y hy => mem_spanL hy, List.Pairwise.nil, by simp⟩
    · intro i s hi hs
      obtain ⟨b1, b2, b3, b4, b5, b6, b7⟩ := hs
      obtain ⟨m', p, e1, e2, e3, e4, e5⟩ := elimColumn_indep hi b1
      obtain ⟨m'', p', e1', -, hdec⟩ := elimColumn_spec hi s.1 0 b1
      rw [e1, Except.ok.injEq, Prod.mk.injEq] at e1'
      obtain ⟨rfl, rfl⟩ := e1'
      have c2 : ∀ c < i + 1, ∀ y ∈ m'.map rowVec, y c = 0 := by
        intro c hc
        by_cases h : c = i
        · subst h; exact e3
        · exact e4 c (b2 c (by omega))
      cases p with
      | none =>
        refine ⟨(m', s.2), by unfold optRankStep; simp only [bind, Except.bind, e1]; rfl, e2, c2, b3,
          ?_, ?_, b6, b7⟩
        · intro j
          rw [b4 j, e5 j]; simp
        · rcases hdec with ⟨-, rfl, -⟩ | ⟨pre, row, post, h, -⟩
          · exact b5
          · cases h
      | some p =>
        rcases hdec with ⟨h, -⟩ | ⟨pre, row, post, hp, hs1, hpre, hrow, hm'⟩
        · cases h
        · rw [Option.some.injEq] at hp
          subst hp
          have hrb := b1 row (by rw [hs1]; simp)
          have hrm : rowVec row ∈ s.1.map rowVec := by rw [hs1]; simp
          obtain ⟨f, hf, hfc⟩ := lastMaximal_spec (i := i) (j := 0 + pre.length) hrb.1 hrb.2
          refine ⟨(m', setInsert (0 + pre.length) s.2.1, setInsert f s.2.2), ?_, e2, c2,
            inc_setInsert _ b3, ?_, ?_, inc_setInsert _ b6, ?_⟩
          · unfold optRankStep; simp only [bind, Except.bind, e1, hf]; rfl
          · intro j
            rw [b4 j, e5 j]
            dsimp only
            rw [mem_setInsert]
            constructor
            · rintro (h | ⟨row, h⟩ | h)
              · exact Or.inl (Or.inr h)
              · cases h; exact Or.inl (Or.inl rfl)
              · exact Or.inr h
            · rintro ((h | h) | h)
              · exact Or.inr (Or.inl ⟨row, by rw [h]⟩)
              · exact Or.inl h
              · exact Or.inr (Or.inr h)
          · intro y hy
            dsimp only at hy
            rw [hm'] at hy
            rcases List.mem_append.1 hy with hy | hy
            · exact b5 y (by rw [hs1, List.map_append]; exact List.mem_append.2 (Or.inl hy))
            · obtain ⟨z, hz, rfl⟩ := List.mem_map.1 hy
              refine Submodule.sub_mem _ (b5 z ?_) (Submodule.smul_mem _ _ (b5 _ hrm))
              rw [hs1, List.map_append, List.map_cons]
              exact List.mem_append.2 (Or.inr hz)
          · intro g hg
            dsimp only at hg
            rw [mem_setInsert] at hg
            rcases hg with rfl | hg
            · refine ⟨rowVec row, b5 _ hrm, ?_⟩
              rcases hfc with ⟨-, hz⟩ | ⟨-, h1, h2⟩
              · refine Or.inr ⟨i, hrow, fun c hc => ?_⟩
                rcases Nat.lt_or_gt_of_ne hc with h | h
                · exact b2 c h _ hrm
                · exact hz c h
              · exact Or.inl ⟨h1, h2⟩
            · exact b7 g hg
  rw [h1]
  refine ⟨s.2.2, ?_, h6, h7⟩
  simp only [pure, Except.pure, Except.ok.injEq]
  rw [← Prod.mk.eta (p := s.2), Prod.mk.injEq]
  refine ⟨?_, rfl⟩
  apply Inc.ext h4 (inc_indep _)
  intro j
  rw [h5 j, indep_zero (l := s.1.map rowVec)]
  · simp
  · intro y hy
    funext c
    by_cases hc : c < n
    · exact h3 c hc y hy
    · obtain ⟨row, hr, rfl⟩ := List.mem_map.1 hy
      exact rowVec_beyond (by rw [(h2 row hr).1]; omega)

section
variable {W : Type}

theorem clearedRows_eq (nChain : List (List Nat × W)) : ∀ (cols : List (List Nat × W)) (i : Nat)
    (P : List Nat), Inc P → (∀ x ∈ P, i ≤ x) →
    clearedRows nChain i P cols = (List.range cols.length).map (fun k =>
      if i + k ∈ P then nChain.map (fun _ => 0) else (boundaryRows nChain cols).getD k []) := by
  intro cols
  induction cols with
  | nil => intro i P _ _; rfl
  | cons c cols ih =>
    intro i P hP hge
    rw [clearedRows, List.length_cons, List.range_succ_eq_map, List.map_cons, List.map_map]
    have hsucc : ∀ Q : List Nat, (∀ x, x ∈ Q ↔ x ∈ P ∧ x ≠ i) → Inc Q →
        clearedRows nChain (i + 1) Q cols = (List.range cols.length).map
          ((fun k => if i + k ∈ P then nChain.map (fun _ => 0) else
            (boundaryRows nChain (c :: cols)).getD k []) ∘ Nat.succ) := by
      intro Q hQ hQi
      rw [ih (i + 1) Q hQi (fun x hx => by
        have := (hQ x).1 hx; have := hge x this.1; omega)]
      apply List.map_congr_left
      intro k _
      simp only [Function.comp_apply]
      have e : i + 1 + k = i + k.succ := by omega
      have h1 : i + 1 + k ∈ Q ↔ i + k.succ ∈ P := by
        rw [hQ, e]
        exact ⟨fun h => h.1, fun h => ⟨h, by omega⟩⟩
      simp only [h1]
      rfl
    cases P with
    | nil =>
      rw [if_neg (by simp), hsucc [] (by simp) hP]
      simp [boundaryRows]
    | cons p P =>
      by_cases hp : p = i
      · subst hp
        rw [if_pos (by simp), List.tail_cons, hsucc P _ (List.pairwise_cons.1 hP).2]
        · simp
        · intro x
          rw [List.mem_cons]
          constructor
          · intro h; exact ⟨Or.inr h, by have := (List.pairwise_cons.1 hP).1 x h; omega⟩
          · rintro ⟨h | h, h2⟩
            · exact absurd h h2
            · exact h
      · have hni : i ∉ p :: P := by
          intro h
          rw [List.mem_cons] at h
          rcases h with h | h
          · exact hp h.symm
          · have h1 := (List.pairwise_cons.1 hP).1 i h
            have h2 := hge p (by simp)
            omega
        rw [if_neg (by simpa using hp), hsucc (p :: P) _ hP]
        · congr 1
          rw [if_neg (by simpa using hni)]
          simp [boundaryRows]
        · intro x
          constructor
          · intro h; exact ⟨h, by rintro rfl; exact hni h⟩
          · exact fun h => h.1

end

section
variable {W : Type} [LinearOrder W]

/-- A face used for clearing is not negative. -/
theorem face_positive {edges : List (List (List Nat × W))} (hF : FilteredComplex edges) {d : Nat}
    {rows cols : List (List Nat × W)} (h : edges[d]? = some rows) (h' : edges[d + 1]? = some cols)
    {y : Nat → ZMod 2} (hy : y ∈ spanL (ZMod 2) ((boundaryRows rows cols).map rowVec)) {f : Nat}
    (hf : TopOrUnit y f) : f ∉ negatives edges d := by
  obtain ⟨h1, h2, h3, h4⟩ := layer_facts hF h h'
  rw [boundaryRows_vec h1 h3] at hy
  have hspan : spanL (ZMod 2) ((bvecs (cols.map Prod.fst)).map (coords rows [])) =
      (spanL (ZMod 2) (bvecs (cols.map Prod.fst))).map (coords rows []) := by
    unfold spanL
    rw [Submodule.map_span]
    congr 1
    ext z
    simp
  rw [hspan] at hy
  obtain ⟨z, hz, rfl⟩ := hy
  have hzc := bvecs_chains h3 h4 hz
  have hbz : boundary z = 0 := by
    have hz' : z ∈ spanL (ZMod 2) (bvecs (cols.map Prod.fst)) := hz
    rw [← map_boundary_chains, Submodule.mem_map] at hz'
    obtain ⟨w, -, rfl⟩ := hz'
    exact boundary_boundary w
  have hexp := chain_expand h2 hzc
  rw [List.length_map] at hexp
  have hcoord : ∀ i, i < rows.length → coords rows [] z i = z ((rows.map Prod.fst).getD i []) := by
    intro i hi
    simp [coords, hi]
  have hcoord0 : ∀ i, rows.length ≤ i → coords rows [] z i = 0 := by
    intro i hi
    simp [coords, show ¬ i < rows.length by omega]
  have hsum : ∑ i ∈ Finset.range rows.length,
      coords rows [] z i • boundaryOf ((rows.map Prod.fst).getD i []) = 0 := by
    rw [← hbz]
    conv_rhs => rw [hexp, map_sum]
    apply Finset.sum_congr rfl
    intro i hi
    rw [Finset.mem_range] at hi
    rw [map_smul, boundary_single, hcoord i hi]
  rcases hf with ⟨hf1, hf2⟩ | ⟨i, hi1, hi2⟩
  · -- the last simplex of a cycle
    have hfl : f < rows.length := by
      by_contra hc
      have := hcoord0 f (by omega)
      rw [hf1] at this
      exact one_ne_zero this
    unfold negatives
    have er : edges.getD d [] = rows := by rw [List.getD_eq_getElem?_getD, h]; rfl
    rw [er, mem_indep]
    rintro ⟨-, hn⟩
    apply hn
    have e1 : (bvecs (rows.map Prod.fst)).getD f 0 = boundaryOf ((rows.map Prod.fst).getD f []) := by
      rw [List.getD_eq_getElem?_getD, List.getD_eq_getElem?_getD, bvecs, List.getElem?_map,
        List.getElem?_eq_getElem (by simpa using hfl)]
      rfl
    have hsplit : ∑ i ∈ Finset.range f,
        coords rows [] z i • boundaryOf ((rows.map Prod.fst).getD i []) +
        boundaryOf ((rows.map Prod.fst).getD f []) = 0 := by
      rw [← hsum]
      rw [← Finset.sum_range_add_sum_Ico _ (show f + 1 ≤ rows.length by omega),
        Finset.sum_range_succ, hf1, one_smul]
      rw [Finset.sum_eq_zero (s := Finset.Ico (f + 1) rows.length), add_zero]
      intro i hi
      rw [Finset.mem_Ico] at hi
      rw [hf2 i (by omega), zero_smul]
    rw [e1, eq_neg_of_add_eq_zero_right hsplit]
    apply Submodule.neg_mem
    apply Submodule.sum_mem
    intro i hi
    rw [Finset.mem_range] at hi
    apply Submodule.smul_mem
    apply mem_spanL
    have e2 : boundaryOf ((rows.map Prod.fst).getD i []) =
        (bvecs (rows.map Prod.fst))[i]'(by simp [bvecs]; omega) := by
      rw [List.getD_eq_getElem?_getD, List.getElem?_eq_getElem (by simp; omega)]
      simp [bvecs]
    rw [e2]
    exact List.mem_take_iff_getElem.2 ⟨i, by simp [bvecs]; omega, rfl⟩
  · -- a single simplex is not a cycle
    exfalso
    have hil : i < rows.length := by
      by_contra hc
      have := hcoord0 i (by omega)
      rw [hi1] at this
      exact one_ne_zero this
    rw [Finset.sum_eq_single i] at hsum
    · rw [hi1, one_smul] at hsum
      have hs : (rows.map Prod.fst).getD i [] = rows[i].1 := by
        rw [List.getD_eq_getElem?_getD, List.getElem?_map, List.getElem?_eq_getElem hil]; rfl
      have hr := h1 rows[i] (List.getElem_mem hil)
      rw [hs] at hsum
      have hne : rows[i].1 ≠ [] := by
        intro hnil; have := hr.2; rw [hnil] at this; simp at this
      have ha := boundaryOf_apply (s := rows[i].1) (f := rows[i].1.eraseIdx 0) hr.1
      rw [hsum, if_pos ⟨0, List.length_pos_iff.2 hne, rfl⟩] at ha
      simp at ha
    · intro c _ hc
      rw [hi2 c hc, zero_smul]
    · intro hc
      exact absurd (Finset.mem_range.2 hil) hc

omit [LinearOrder W] in
theorem clearedRows_binary (rows cols : List (List Nat × W)) {P : List Nat} (hP : Inc P) :
    Binary (clearedRows rows 0 P cols) rows.length := by
  rw [clearedRows_eq rows cols 0 P hP (by simp)]
  intro r hr
  obtain ⟨k, hk, rfl⟩ := List.mem_map.1 hr
  rw [List.mem_range] at hk
  split_ifs
  · refine ⟨by simp, ?_⟩
    intro x hx
    obtain ⟨_, -, rfl⟩ := List.mem_map.1 hx
    exact Or.inl rfl
  · apply boundaryRows_binary rows cols
    have hk' : k < (boundaryRows rows cols).length := by simpa [boundaryRows] using hk
    rw [List.getD_eq_getElem?_getD, List.getElem?_eq_getElem hk']
    exact List.getElem_mem _

theorem rowVec_zeros {α : Type} (l : List α) : rowVec (l.map (fun _ => 0)) = 0 := by
  funext x
  unfold rowVec
  rw [List.getElem?_map]
  cases l[x]? <;> simp

omit [LinearOrder W] in
theorem clearedRows_getD (rows cols : List (List Nat × W)) {P : List Nat} (hP : Inc P) {j : Nat}
    (hj : j < cols.length) : ((clearedRows rows 0 P cols).map rowVec).getD j 0 =
      if j ∈ P then 0 else ((boundaryRows rows cols).map rowVec).getD j 0 := by
  rw [clearedRows_eq rows cols 0 P hP (by simp), List.map_map, List.getD_eq_getElem?_getD,
    List.getElem?_map, List.getElem?_range hj, Option.map_some, Option.getD_some,
    Function.comp_apply, Nat.zero_add]
  have hj' : j < (boundaryRows rows cols).length := by simpa [boundaryRows] using hj
  split_ifs with h
  · exact rowVec_zeros rows
  · rw [List.getD_eq_getElem?_getD, List.getD_eq_getElem?_getD, List.getElem?_map,
      List.getElem?_eq_getElem hj']
    rfl

omit [LinearOrder W] in
theorem clearedRows_span (rows cols : List (List Nat × W)) {P : List Nat} (hP : Inc P) :
    spanL (ZMod 2) ((clearedRows rows 0 P cols).map rowVec) ≤
      spanL (ZMod 2) ((boundaryRows rows cols).map rowVec) := by
  unfold spanL
  rw [Submodule.span_le]
  intro y hy
  have hlen : ((clearedRows rows 0 P cols).map rowVec).length = cols.length := by
    rw [clearedRows_eq rows cols 0 P hP (by simp)]; simp
  obtain ⟨j, hj, rfl⟩ := List.mem_iff_getElem.1 hy
  have hj' : j < cols.length := by omega
  have e : ((clearedRows rows 0 P cols).map rowVec)[j] =
      ((clearedRows rows 0 P cols).map rowVec).getD j 0 := by
    rw [List.getD_eq_getElem?_getD, List.getElem?_eq_getElem hj]; rfl
  rw [e, clearedRows_getD rows cols hP hj']
  have hj'' : j < ((boundaryRows rows cols).map rowVec).length := by simpa [boundaryRows] using hj'
  split_ifs
  · exact Submodule.zero_mem _
  · rw [List.getD_eq_getElem?_getD, List.getElem?_eq_getElem hj'']
    exact Submodule.subset_span (List.getElem_mem _)

/-- With clearing of non-negative simplices, `getRankNull` still finds the negative simplices, and the
faces it returns are not negative. -/
theorem optGetRankNull_boundary {edges : List (List (List Nat × W))} (hF : FilteredComplex edges)
    {d : Nat} {rows cols : List (List Nat × W)} (h : edges[d]? = some rows)
    (h' : edges[d + 1]? = some cols) (hne : cols ≠ []) {P : List Nat} (hP : Inc P)
    (hpos : ∀ f ∈ P, f ∉ negatives edges (d + 1)) :
    ∃ faces, optGetRankNull (clearedRows rows 0 P cols) = .ok (negatives edges (d + 1), faces) ∧
      Inc faces ∧ ∀ f ∈ faces, f ∉ negatives edges d := by
  obtain ⟨h1, h2, h3, h4⟩ := layer_facts hF h h'
  have hlen : (clearedRows rows 0 P cols).length = cols.length := by
    rw [clearedRows_eq rows cols 0 P hP (by simp)]; simp
  have hne' : clearedRows rows 0 P cols ≠ [] := by
    intro hc; rw [hc] at hlen; exact hne (List.length_eq_zero_iff.1 hlen.symm)
  obtain ⟨faces, f1, f2, f3⟩ := optGetRankNull_spec hne' (clearedRows_binary rows cols hP)
  have hneg : indep (ZMod 2) ((boundaryRows rows cols).map rowVec) = negatives edges (d + 1) := by
    rw [boundaryRows_indep h1 h2 h3 h4]
    unfold negatives
    rw [List.getD_eq_getElem?_getD, h']; rfl
  refine ⟨faces, ?_, f2, ?_⟩
  · rw [f1, indep_replace (l := (boundaryRows rows cols).map rowVec), hneg]
    · simp [hlen, boundaryRows]
    · intro j hj
      have hj' : j < cols.length := by simpa [boundaryRows] using hj
      rw [clearedRows_getD rows cols hP hj']
      split_ifs with hjP
      · exact Or.inr ⟨rfl, by rw [hneg]; exact hpos j hjP⟩
      · exact Or.inl rfl
  · intro f hf
    obtain ⟨y, hy, ht⟩ := f3 f hf
    exact face_positive hF h h' (clearedRows_span rows cols hP hy) ht

theorem optPivotLoop_spec {edges : List (List (List Nat × W))} (hF : FilteredComplex edges)
    (hne : ∀ l ∈ edges, l ≠ []) : ∀ d, d < edges.length → ∀ extra maxFaces pivots, Inc pivots →
    Inc maxFaces → (∀ f ∈ maxFaces, f ∉ negatives edges d) →
    ∃ r, optPivotLoop edges d (offset edges (d + 1) + extra) maxFaces pivots = .ok r ∧ Inc r ∧
      ∀ x, x ∈ r ↔ x ∈ pivots ∨ ∃ k j, 1 ≤ k ∧ k ≤ d ∧ j ∈ negatives edges k ∧
        x = offset edges k + extra + j := by
  intro d
  induction d with
  | zero =>
    intro _ extra maxFaces pivots hp _ _
    refine ⟨pivots, rfl, hp, ?_⟩
    intro x
    constructor
    · exact fun h => Or.inl h
    · rintro (h | ⟨k, j, h1, h2, -⟩)
      · exact h
      · omega
  | succ d ih =>
    intro hd extra maxFaces pivots hp hmf hpos
    have g1 := List.getElem?_eq_getElem (l := edges) (i := d) (by omega)
    have g2 := List.getElem?_eq_getElem hd
    have hoff := offset_succ g2
    obtain ⟨faces, f1, f2, f3⟩ := optGetRankNull_boundary hF g1 g2 (hne _ (List.getElem_mem hd)) hmf
      hpos
    rw [optPivotLoop, vget_of_lt hd, vget_of_lt (show d < edges.length by omega)]
    simp only [bind, Except.bind]
    have e : offset edges (d + 1 + 1) + extra - edges[d + 1].length = offset edges (d + 1) + extra := by
      omega
    rw [f1, e]
    dsimp only
    have hf : ∀ l : List Nat, l.foldl (fun s a => setInsert (a + (offset edges (d + 1) + extra)) s)
        pivots = (l.map (fun a => a + (offset edges (d + 1) + extra))).foldl
          (fun s a => setInsert a s) pivots := by
      intro l; rw [List.foldl_map]
    rw [hf]
    obtain ⟨r, h1, h2, h3⟩ := ih (by omega) extra faces _
      (inc_foldl_setInsert ((negatives edges (d + 1)).map
        (fun a => a + (offset edges (d + 1) + extra))) pivots hp) f2 f3
    refine ⟨r, h1, h2, ?_⟩
    intro x
    rw [h3, mem_foldl_setInsert, List.mem_map]
    constructor
    · rintro ((⟨a, ha, rfl⟩ | h) | ⟨k, j, h1, h2, h3, h4⟩)
      · exact Or.inr ⟨d + 1, a, by omega, by omega, ha, by omega⟩
      · exact Or.inl h
      · exact Or.inr ⟨k, j, h1, by omega, h3, h4⟩
    · rintro (h | ⟨k, j, h1, h2, h3, h4⟩)
      · exact Or.inl (Or.inr h)
      · by_cases hk : k = d + 1
        · subst hk
          exact Or.inl (Or.inl ⟨j, h3, by omega⟩)
        · exact Or.inr ⟨k, j, h1, by omega, h3, h4⟩

end
end LHF
