import Verif.Lemmas.TreeComplex

/-! The invariant of the simplex tree under insertion. -/

namespace LHF
open Spec

section
variable {W : Type} [LinearOrder W] [Zero W]

/-- Simplices on the vertices `R..N-1`. -/
def SimpR (R N : Nat) (near : Nat → Nat → Prop) (s : List Nat) : Prop :=
  s ≠ [] ∧ Inc s ∧ (∀ v ∈ s, R ≤ v ∧ v < N) ∧ ∀ i ∈ s, ∀ j ∈ s, i < j → near i j

theorem simpR_zero {N : Nat} {near : Nat → Nat → Prop} {s : List Nat} :
    SimpR 0 N near s ↔ IsSimplex N near s := by
  unfold SimpR IsSimplex Inc; simp

/-- The tree `t`, whose vertices are `R..N-1`, represents the clique complex. -/
structure TreeInv (R N : Nat) (D : Nat → Nat → W) (eps : W) (maxDim : Nat) (c0 : Int)
    (t : Tree W) : Prop where
  nodup : ((paths [] t.roots).map Prod.fst).Nodup
  mem : ∀ q w, (q, w) ∈ paths [] t.roots ↔
    SimpR R N (fun i j => D i j < eps) q ∧ q.length ≤ max 1 maxDim + 1 ∧ w = diam D q
  weg : ∀ k, (t.weg.getD k []).Perm ((paths [] t.roots).filter (fun e => e.1.length = k + 1))
  len : t.weg.length ≤ max 1 maxDim + 1
  pos : R < N → 1 ≤ t.weg.length
  idx : t.indexCounter = N
  rvc : t.rvc = N
  rvi : t.rviSize = N - R
  le : R ≤ N
  count : t.nodeCount = c0 + (paths [] t.roots).length
  nil : t.roots = .nil ↔ N = R
  empty : N = R → t.weg = []
  rootc : t.roots.count = N - R

omit [LinearOrder W] in
theorem paths_appendRoot (n : Nat) (s : Sib W) :
    paths [] (appendRoot n s) = paths [] s ++ [([n], 0)] := by
  induction s with
  | nil => simp [appendRoot, paths]
  | node i w c s ihc ihs => simp [appendRoot, paths, ihs]

omit [LinearOrder W] in
theorem count_appendRoot (n : Nat) (s : Sib W) : (appendRoot n s).count = s.count + 1 := by
  induction s with
  | nil => rfl
  | node i w c s ihc ihs => simp [appendRoot, Sib.count, ihs]

omit [LinearOrder W] [Zero W] in
theorem deletionNode_lenient (s : Sib W) (h : s ≠ .nil) : deletionNode false s = .ok s.count := by
  induction s with
  | nil => exact absurd rfl h
  | node i w c s ihc ihs =>
    cases s with
    | nil => rfl
    | node i' w' c' s' =>
      rw [deletionNode, ihs (by simp)]
      rfl

theorem inc_split_last {q : List Nat} {N : Nat} (hq : Inc q) (hN : N ∈ q)
    (hlt : ∀ v ∈ q, v < N + 1) : ∃ q', q = q' ++ [N] ∧ Inc q' ∧ ∀ v ∈ q', v < N := by
  have hne : q ≠ [] := List.ne_nil_of_mem hN
  refine ⟨q.dropLast, ?_, hq.sublist (List.dropLast_sublist _), ?_⟩
  · have e := List.dropLast_append_getLast hne
    have hlast : q.getLast hne = N := by
      rw [← e, List.mem_append, List.mem_singleton] at hN
      rcases hN with h | h
      · have h1 : Inc (q.dropLast ++ [q.getLast hne]) := by rw [e]; exact hq
        have h2 := (List.pairwise_append.1 h1).2.2 N h (q.getLast hne) (by simp)
        have h3 := hlt _ (List.getLast_mem hne)
        omega
      · exact h.symm
    rw [← hlast]; exact e.symm
  · intro v hv
    have e := List.dropLast_append_getLast hne
    have h1 : Inc (q.dropLast ++ [q.getLast hne]) := by rw [e]; exact hq
    have h2 := (List.pairwise_append.1 h1).2.2 v hv (q.getLast hne) (by simp)
    have h3 := hlt _ (List.getLast_mem hne)
    omega

/-- Extending a simplex by the new largest vertex. -/
theorem simpR_snoc {R N : Nat} {near : Nat → Nat → Prop} {q : List Nat} (hR : R ≤ N) :
    SimpR R (N + 1) near (q ++ [N]) ↔
      (q = [] ∨ SimpR R N near q) ∧ ∀ i ∈ q, near i N := by
  constructor
  · rintro ⟨-, h1, h2, h3⟩
    have hlt : ∀ i ∈ q, i < N := fun i hi =>
      (List.pairwise_append.1 h1).2.2 i hi N (by simp)
    refine ⟨?_, fun i hi => h3 i (by simp [hi]) N (by simp) (hlt i hi)⟩
    by_cases hq : q = []
    · exact Or.inl hq
    · right
      refine ⟨hq, h1.sublist (by simp), fun v hv => ⟨(h2 v (by simp [hv])).1, hlt v hv⟩, ?_⟩
      intro i hi j hj hij
      exact h3 i (by simp [hi]) j (by simp [hj]) hij
  · rintro ⟨h1, h2⟩
    have hlt : ∀ i ∈ q, R ≤ i ∧ i < N := by
      rcases h1 with rfl | h1
      · simp
      · exact h1.2.2.1
    have hinc : Inc q := by
      rcases h1 with rfl | h1
      · simp [Inc]
      · exact h1.2.1
    refine ⟨by simp, inc_snoc hinc fun i hi => (hlt i hi).2, ?_, ?_⟩
    · intro v hv
      rcases List.mem_append.1 hv with h | h
      · have := hlt v h; omega
      · rw [List.mem_singleton.1 h]; omega
    · intro i hi j hj hij
      rw [List.mem_append, List.mem_singleton] at hi hj
      rcases hi with hi | rfl
      · rcases hj with hj | rfl
        · rcases h1 with rfl | h1
          · simp at hi
          · exact h1.2.2.2 i hi j hj hij
        · exact h2 i hi
      · rcases hj with hj | rfl
        · have := hlt j hj; omega
        · omega

theorem simpR_old {R N : Nat} {near : Nat → Nat → Prop} {q : List Nat} (hN : N ∉ q) :
    SimpR R (N + 1) near q ↔ SimpR R N near q := by
  unfold SimpR
  constructor
  · rintro ⟨h1, h2, h3, h4⟩
    refine ⟨h1, h2, fun v hv => ⟨(h3 v hv).1, ?_⟩, h4⟩
    have := (h3 v hv).2
    have : v ≠ N := by rintro rfl; exact hN hv
    omega
  · rintro ⟨h1, h2, h3, h4⟩
    exact ⟨h1, h2, fun v hv => ⟨(h3 v hv).1, by have := (h3 v hv).2; omega⟩, h4⟩

theorem mem_emit {D : Nat → Nat → W} {eps : W} {maxDim N : Nat} {l : List (List Nat × W)}
    {q : List Nat} {w : W} : (q, w) ∈ emit D eps maxDim N l ↔
      ∃ q' w', (q', w') ∈ l ∧ extOK D eps maxDim N q' ∧ q = q' ++ [N] ∧ w = diam D q := by
  unfold emit
  simp only [List.mem_map, List.mem_filter, decide_eq_true_eq, Prod.mk.injEq, Prod.exists]
  constructor
  · rintro ⟨a, b, ⟨h1, h2⟩, rfl, rfl⟩; exact ⟨a, b, h1, h2, rfl, rfl⟩
  · rintro ⟨a, b, h1, h2, rfl, rfl⟩; exact ⟨a, b, ⟨h1, h2⟩, rfl, rfl⟩

theorem fresh_inv (D : Nat → Nat → W) (eps : W) (maxDim : Nat) :
    TreeInv 0 0 D eps maxDim 0 (Tree.fresh : Tree W) := by
  refine ⟨by simp [Tree.fresh, paths], ?_, ?_, by simp [Tree.fresh], by simp, rfl, rfl, rfl,
    le_rfl, by simp [Tree.fresh, paths], by simp [Tree.fresh], fun _ => rfl, rfl⟩
  · intro q w
    simp only [Tree.fresh, paths, List.not_mem_nil, false_iff]
    rintro ⟨⟨h1, -, h3, -⟩, -⟩
    obtain ⟨x, hx⟩ := List.exists_mem_of_ne_nil _ h1
    have := h3 x hx; omega
  · intro k; simp [Tree.fresh, paths]

/-- Semantics of the enlarged list of simplices. -/
theorem extended_paths {R N : Nat} {D : Nat → Nat → W} {eps : W} {maxDim : Nat}
    {P P' : List (List Nat × W)} (hR : R ≤ N)
    (hnd : (P.map Prod.fst).Nodup)
    (hmem : ∀ q w, (q, w) ∈ P ↔
      SimpR R N (fun i j => D i j < eps) q ∧ q.length ≤ max 1 maxDim + 1 ∧ w = diam D q)
    (hP' : P'.Perm (P ++ emit D eps maxDim N P ++ [([N], 0)])) :
    (P'.map Prod.fst).Nodup ∧ ∀ q w, (q, w) ∈ P' ↔
      SimpR R (N + 1) (fun i j => D i j < eps) q ∧ q.length ≤ max 1 maxDim + 1 ∧ w = diam D q := by
  have hnotP : ∀ q w, (q, w) ∈ P → N ∉ q := by
    intro q w h hN
    have := (((hmem q w).1 h).1.2.2.1 N hN).2
    omega
  have hneP : ∀ q w, (q, w) ∈ P → q ≠ [] := fun q w h => ((hmem q w).1 h).1.1
  constructor
  · rw [(hP'.map Prod.fst).nodup_iff, List.map_append, List.map_append, List.nodup_append,
      List.nodup_append]
    have he : ((emit D eps maxDim N P).map Prod.fst).Nodup := by
      unfold emit
      rw [List.map_map]
      have : (Prod.fst ∘ fun e : List Nat × W => (e.1 ++ [N], diam D (e.1 ++ [N]))) =
          (fun q => q ++ [N]) ∘ Prod.fst := rfl
      rw [this, ← List.map_map]
      refine List.Nodup.map (fun a b h => by simpa using h) ?_
      exact hnd.sublist (List.Sublist.map _ List.filter_sublist)
    refine ⟨⟨hnd, he, ?_⟩, by simp, ?_⟩
    · rintro a ha b hb rfl
      obtain ⟨⟨a, w⟩, h1, rfl⟩ := List.mem_map.1 ha
      obtain ⟨⟨b, w'⟩, h2, e⟩ := List.mem_map.1 hb
      obtain ⟨q', w'', -, -, h3, -⟩ := mem_emit.1 h2
      simp only at e
      apply hnotP a w h1
      rw [← e, h3]; simp
    · rintro a ha b hb rfl
      simp only [List.map_cons, List.map_nil, List.mem_singleton] at hb
      subst hb
      rcases List.mem_append.1 ha with h | h
      · obtain ⟨⟨a, w⟩, h1, e⟩ := List.mem_map.1 h
        simp only at e
        apply hnotP a w h1
        rw [e]; simp
      · obtain ⟨⟨b, w'⟩, h2, e⟩ := List.mem_map.1 h
        obtain ⟨q', w'', h4, -, h3, -⟩ := mem_emit.1 h2
        simp only at e
        rw [e] at h3
        have : q' = [] := by
          have := congrArg List.length h3
          simp at this
          exact this
        exact hneP _ _ h4 this
  · intro q w
    rw [hP'.mem_iff, List.mem_append, List.mem_append, List.mem_singleton, Prod.mk.injEq]
    by_cases hN : N ∈ q
    · constructor
      · rintro ((h | h) | h)
        · exact absurd hN (hnotP q w h)
        · obtain ⟨q', w', h1, h2, rfl, rfl⟩ := mem_emit.1 h
          obtain ⟨h3, -, -⟩ := (hmem q' w').1 h1
          refine ⟨(simpR_snoc hR).2 ⟨Or.inr h3, h2.1⟩, ?_, rfl⟩
          have := h2.2
          simp
          omega
        · obtain ⟨rfl, rfl⟩ := h
          refine ⟨?_, by simp, (diam_singleton D N).symm⟩
          have := (simpR_snoc (q := []) (near := fun i j => D i j < eps) hR).2 ⟨Or.inl rfl, by simp⟩
          simpa using this
      · rintro ⟨h1, h2, rfl⟩
        obtain ⟨q', rfl, -, -⟩ := inc_split_last h1.2.1 hN (fun v hv => (h1.2.2.1 v hv).2)
        obtain ⟨h3, h4⟩ := (simpR_snoc hR).1 h1
        rcases h3 with rfl | h3
        · right; exact ⟨rfl, by rw [List.nil_append]; exact diam_singleton D N⟩
        · left; right
          refine mem_emit.2 ⟨q', diam D q', (hmem _ _).2 ⟨h3, ?_, rfl⟩, ⟨h4, ?_⟩, rfl, rfl⟩
          · simp at h2; omega
          · simp at h2; omega
    · rw [simpR_old hN, ← hmem]
      constructor
      · rintro ((h | h) | h)
        · exact h
        · obtain ⟨q', w', h1, h2, rfl, rfl⟩ := mem_emit.1 h
          simp at hN
        · rw [h.1] at hN; simp at hN
      · intro h; exact Or.inl (Or.inl h)

theorem insert_inv {R N : Nat} {D : Nat → Nat → W} {eps : W} {maxDim : Nat} {c0 : Int}
    {t : Tree W} (h0 : ∀ i j, 0 ≤ D i j) (h : TreeInv R N D eps maxDim c0 t) {dm : List (List W)}
    (hne : dm ≠ []) (hdm : ∀ i, R ≤ i → i < N → at2 dm (i - R) (N - R) = .ok (D i N)) :
    ∃ t', t.insert eps maxDim dm = .ok t' ∧ TreeInv R (N + 1) D eps maxDim c0 t' ∧
      t'.isSorted = t.isSorted := by
  have hlen : dm.length ≠ 0 := by simpa using hne
  have hR := h.le
  unfold Tree.insert
  rw [if_neg hlen]
  cases hroots : t.roots with
  | nil =>
    dsimp only
    refine ⟨_, rfl, ?_, rfl⟩
    have hNR : N = R := h.nil.1 hroots
    have hP : paths [] t.roots = [] := by rw [hroots]; rfl
    have hweg : t.weg = [] := h.empty hNR
    have hext := extended_paths (P := paths [] t.roots) (P' := [([N], 0)]) hR h.nodup h.mem
      (by rw [hP]; simp [emit])
    have hidx := h.idx
    refine ⟨?_, ?_, ?_, ?_, ?_, ?_, ?_, ?_, by omega, ?_, ?_, ?_, ?_⟩
    · simp [paths]
    · simpa [paths, hidx] using hext.2
    · intro k
      cases k with
      | zero => simp [hweg, paths]
      | succ k => simp [hweg, paths]
    · simp [hweg]
    · intro _; simp
    · simp [hidx]
    · simp [h.rvc]
    · simp [h.rvi]; omega
    · simp [h.count, hP, paths]
    · simp; omega
    · omega
    · simp [Sib.count]; omega
  | node i w c s =>
    dsimp only
    have hNR : R < N := by
      have : N ≠ R := fun e => by
        have := h.nil.2 e
        rw [hroots] at this
        exact absurd this (by simp)
      omega
    rw [h.idx, h.rvc, h.rvi, ← hroots]
    have hnode : ∀ i, R ≤ i → i < N → nodeDist dm (N - R + 1) N N i = .ok (D i N) := by
      intro i hi1 hi2
      unfold nodeDist
      have := hdm i hi1 hi2
      split_ifs with hlt
      · dsimp only
        rw [show N + 1 - (N - R + 1) = R by omega, if_neg (by omega)]
        exact this
      · have : R = 0 := by omega
        subst this
        simpa using hdm i hi1 hi2
    obtain ⟨s', weg', e1, e2, e3, e4, e5, e6⟩ := recurseInsert_spec
      ⟨N, nodeDist dm (N - R + 1) N N, eps, maxDim⟩ D h0 t.roots [] t.weg t.nodeCount
      (by
        rintro ⟨q, w⟩ he
        obtain ⟨h1, h2, h3⟩ := (h.mem q w).1 he
        by_cases hq1 : q.length = 1
        · right; exact ⟨hq1, h3⟩
        · left
          refine ⟨h3, ?_⟩
          simp only
          rw [h3, diam_lt_iff]
          have hpos : 0 < q.length := List.length_pos_iff.2 h1.1
          have h01 : q[0]'hpos < q[1]'(by omega) :=
            List.pairwise_iff_getElem.1 h1.2.1 0 1 (by omega) (by omega) (by omega)
          have := h1.2.2.2 _ (List.getElem_mem hpos) _ (List.getElem_mem (by omega)) h01
          exact ⟨lt_of_le_of_lt (h0 _ _) this, h1.2.2.2⟩)
      (by
        rintro ⟨q, w⟩ he
        obtain ⟨h1, -, -⟩ := (h.mem q w).1 he
        exact ⟨h1.2.1, fun i hi => ⟨(h1.2.2.1 i hi).2,
          hnode i (h1.2.2.1 i hi).1 (h1.2.2.1 i hi).2⟩⟩)
      (by simp) (by simp) (by simpa using h.pos hNR) (by simp)
    simp only [List.nil_append, diam_singleton] at e1 e2 e3 e5
    rw [e1, ok_bind]
    dsimp only
    have hlen' : 0 < weg'.length := by have := h.pos hNR; omega
    have hmod : vmodify weg' 0 (· ++ [([N], (0 : W))]) = .ok (weg'.modify 0 (· ++ [([N], 0)])) := by
      unfold vmodify; rw [if_pos hlen']
    rw [hmod, ok_bind]
    refine ⟨_, rfl, ?_, rfl⟩
    have hpaths : (paths [] (appendRoot N s')).Perm (paths [] t.roots ++
        emit D eps maxDim N (paths [] t.roots) ++ [([N], 0)]) := by
      rw [paths_appendRoot]
      exact e2.append_right _
    have hext := extended_paths hR h.nodup h.mem hpaths
    refine ⟨hext.1, hext.2, ?_, ?_, ?_, rfl, rfl, ?_, by omega, ?_, ?_, ?_, ?_⟩
    · intro k
      refine List.Perm.trans ?_ (hpaths.filter _).symm
      rw [List.filter_append, List.filter_append]
      have hget : (weg'.modify 0 (· ++ [([N], (0 : W))])).getD k [] =
          weg'.getD k [] ++ List.filter (fun e => decide (e.1.length = k + 1)) [([N], (0 : W))] := by
        cases weg' with
        | nil => simp at hlen'
        | cons x xs =>
          cases k with
          | zero => simp
          | succ k => simp
      simp only
      rw [hget, e3]
      exact List.Perm.append_right _ (List.Perm.append_right _ (h.weg k))
    · have := h.len
      simp only [List.length_modify]
      omega
    · intro _; simp only [List.length_modify]; omega
    · simp only; omega
    · simp only [hpaths.length_eq, h.count, List.length_append, List.length_singleton]
      push_cast
      ring
    · constructor
      · intro he
        exfalso
        cases s' <;> simp [appendRoot] at he
      · intro he; omega
    · intro he; omega
    · rw [count_appendRoot, e6, h.rootc]; omega

theorem insertN_inv {R N : Nat} {D : Nat → Nat → W} {eps : W} {maxDim : Nat} {c0 : Int}
    {t : Tree W} (h0 : ∀ i j, 0 ≤ D i j) (h : TreeInv R N D eps maxDim c0 t) {dm : List (List W)}
    (m : Nat) (hne : m ≠ 0 → dm ≠ [])
    (hdm : ∀ i j, R ≤ i → i < j → j < N + m → at2 dm (i - R) (j - R) = .ok (D i j)) :
    ∃ t', Tree.insertN eps maxDim dm m t = .ok t' ∧ TreeInv R (N + m) D eps maxDim c0 t' ∧
      t'.isSorted = t.isSorted := by
  induction m with
  | zero => exact ⟨t, rfl, h, rfl⟩
  | succ m ih =>
    obtain ⟨t1, h1, h2, h3⟩ := ih (fun _ => hne (by omega)) (fun i j hi hij hj => hdm i j hi hij (by omega))
    obtain ⟨t2, h4, h5, h6⟩ := insert_inv h0 h2 (hne (by omega))
      (fun i hi hi' => hdm i (N + m) hi hi' (by omega))
    refine ⟨t2, ?_, h5, h6.trans h3⟩
    rw [Tree.insertN, h1, ok_bind, h4]

end

end LHF
