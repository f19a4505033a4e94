import Verif.Lemmas.Truncate

/-! The tree of two clouds without pairs below `maxEpsilon` between them: the layers are those of the two
trees one after the other, with the vertices of the second shifted. -/

namespace LHF

section
variable {W : Type}

/-- The nodes with the vertices moved by `n`. -/
def Sib.shift (n : Nat) : Sib W → Sib W
  | .nil => .nil
  | .node i w c s => .node (i + n) w (c.shift n) (s.shift n)

/-- Siblings one after the other. -/
def Sib.app : Sib W → Sib W → Sib W
  | .nil, t => t
  | .node i w c s, t => .node i w c (s.app t)

/-- A simplex with the vertices moved by `n`. -/
def shiftE (n : Nat) (e : List Nat × W) : List Nat × W := (e.1.map (· + n), e.2)

theorem Sib.app_nil (s : Sib W) : s.app .nil = s := by
  induction s with
  | nil => rfl
  | node i w c s _ ih => rw [Sib.app, ih]

theorem setInsert_shift (n i : Nat) (l : List Nat) :
    setInsert (i + n) (l.map (· + n)) = (setInsert i l).map (· + n) := by
  induction l with
  | nil => rfl
  | cons a l ih =>
    simp only [List.map_cons, setInsert, Nat.add_lt_add_iff_right]
    split_ifs
    · simp
    · simp [ih]
    · simp

/-- The layers of `gU` are those of `gA`, then those of `gB` moved by `n`. -/
structure Joined (n : Nat) (gA gB gU : Graph W) : Prop where
  /-- every layer -/
  layers : ∀ k, gU.getD k [] = gA.getD k [] ++ (gB.getD k []).map (shiftE n)
  /-- number of layers -/
  len : gU.length = max gA.length gB.length

theorem Joined.push {n m : Nat} {gA gB gU gB' : Graph W} {e : List Nat × W} (h : Joined n gA gB gU)
    (hl : e.1.length = m + 1) (hm : m ≤ gB.length) (hB : pushWEG gB e = .ok gB') :
    ∃ gU', pushWEG gU (shiftE n e) = .ok gU' ∧ Joined n gA gB' gU' ∧ gB.length ≤ gB'.length ∧
      m + 1 ≤ gB'.length := by
  obtain ⟨x, h1, h2, h3, h4, h5⟩ := pushWEG_spec hl hm
  rw [h1] at hB
  cases hB
  have hlU : (shiftE n e).1.length = m + 1 := by simp [shiftE, hl]
  obtain ⟨y, g1, g2, g3, g4, g5⟩ := pushWEG_spec hlU (by rw [h.len]; omega : m ≤ gU.length)
  refine ⟨y, g1, ⟨fun k => ?_, ?_⟩, h3, h5⟩
  · rw [g2, h2, h.layers, List.map_append, ← List.append_assoc, hlU, hl]
    congr 1
    split_ifs <;> rfl
  · have := h.len
    omega

end

section
variable {W : Type} [LinearOrder W] [Zero W]

omit [Zero W] in
/-- Siblings that are all too far from the new vertex stay as they are. -/
theorem recurseInsert_far (env : InsertEnv W) (maxE : W) (simp : List Nat) {lo a : Nat}
    (hfar : ∀ i, i < a → ∃ d, env.dist i = .ok d ∧ env.maxEpsilon ≤ d) (t : Sib W)
    (st : Graph W × Int) (r : Sib W × (Graph W × Int))
    (h : recurseInsert env maxE simp t st = .ok r) (s : Sib W) (hs : s.WF lo a) :
    recurseInsert env maxE simp (s.app t) st = .ok (s.app r.1, r.2) := by
  induction s with
  | nil => exact h
  | node i w c s _ ih =>
    obtain ⟨d, hd, hd'⟩ := hfar i hs.2.1
    rw [Sib.app, recurseInsert, hd, ok_bind]
    dsimp only
    have hn : ¬ (if d > maxE then d else maxE) < env.maxEpsilon := by
      rw [nodeMax_eq, not_lt]
      exact hd'.trans (le_max_left _ _)
    rw [if_neg hn, ih hs.2.2.2, ok_bind]
    rfl

omit [Zero W] in
/-- The insertion into the moved tree does what the insertion into the tree does. -/
theorem recurseInsert_shift {n : Nat} {gA : Graph W} (envB envU : InsertEnv W)
    (hcur : envU.curIndex = envB.curIndex + n) (heps : envU.maxEpsilon = envB.maxEpsilon)
    (hdim : envU.maxDimension = envB.maxDimension)
    (hdist : ∀ i, i < envB.curIndex → envU.dist (i + n) = envB.dist i) (s : Sib W) :
    ∀ (lo : Nat) (maxE : W) (simp : List Nat) (gB gU : Graph W) (nB nU : Int)
      (r : Sib W × (Graph W × Int)), s.WF lo envB.curIndex →
    (∀ x ∈ simp, x < lo ∨ x = envB.curIndex) → simp.length ≤ gB.length →
    Joined n gA gB gU → recurseInsert envB maxE simp s (gB, nB) = .ok r →
    ∃ gU', recurseInsert envU maxE (simp.map (· + n)) (s.shift n) (gU, nU) =
        .ok (r.1.shift n, (gU', nU + (r.2.2 - nB))) ∧ Joined n gA r.2.1 gU' ∧
      gB.length ≤ r.2.1.length := by
  induction s with
  | nil =>
    intro lo maxE simp gB gU nB nU r _ _ _ hj h
    cases h
    exact ⟨gU, by simp [Sib.shift, recurseInsert, pure_eq_ok], hj, le_refl _⟩
  | node i w ch s ihc ihs =>
    intro lo maxE simp gB gU nB nU r hwf hsimp hlen hj h
    have hway := way_step hsimp hwf.1 hwf.2.1
    rw [recurseInsert] at h
    obtain ⟨d, hd, h⟩ := bind_ok.1 h
    dsimp only at h
    rw [nodeMax_eq d maxE, nodeMax_eq (max d maxE) w] at h
    rw [Sib.shift, recurseInsert, hdist i hwf.2.1, hd, ok_bind]
    dsimp only
    rw [nodeMax_eq d maxE, nodeMax_eq (max d maxE) w, heps, hdim, setInsert_shift, List.length_map]
    by_cases h1 : max d maxE < envB.maxEpsilon
    · rw [if_pos h1] at h ⊢
      obtain ⟨g, hg, h⟩ := bind_ok.1 h
      obtain ⟨q, hq, h⟩ := bind_ok.1 h
      obtain ⟨t, ht, h⟩ := bind_ok.1 h
      cases h
      obtain ⟨gU1, u1, u2, u3, u4⟩ := hj.push hway.1 hlen hg
      have u1' : pushWEG gU ((setInsert i simp).map (· + n), max (max d maxE) w) = .ok gU1 := u1
      rw [u1', ok_bind]
      have hq' : ∃ gU2, (if (setInsert i simp).length ≤ envB.maxDimension then
            recurseInsert envU (max (max d maxE) w) ((setInsert i simp).map (· + n)) (ch.shift n)
              (gU1, nU + 1)
          else pure (ch.shift n, (gU1, nU + 1)) : Res (Sib W × (Graph W × Int))) =
            .ok (q.1.shift n, (gU2, nU + (q.2.2 - nB))) ∧ Joined n gA q.2.1 gU2 ∧
          g.length ≤ q.2.1.length := by
        by_cases h2 : (setInsert i simp).length ≤ envB.maxDimension
        · rw [if_pos h2] at hq ⊢
          obtain ⟨gU2, e1, e2, e3⟩ := ihc (i + 1) _ _ g gU1 (nB + 1) (nU + 1) q hwf.2.2.1 hway.2
            (by rw [hway.1]; exact u4) u2 hq
          refine ⟨gU2, ?_, e2, e3⟩
          rw [e1]
          congr 3
          ring
        · rw [if_neg h2] at hq ⊢
          cases hq
          refine ⟨gU1, ?_, u2, le_refl _⟩
          rw [pure_eq_ok]
          congr 3
          ring
      obtain ⟨gU2, v1, v2, v3⟩ := hq'
      rw [v1, ok_bind]
      dsimp only
      obtain ⟨gU3, z1, z2, z3⟩ := ihs lo maxE simp q.2.1 gU2 q.2.2 (nU + (q.2.2 - nB)) t hwf.2.2.2
        hsimp (by omega) v2 ht
      rw [z1, ok_bind]
      refine ⟨gU3, ?_, z2, by omega⟩
      rw [pure_eq_ok, hcur]
      simp only [Sib.shift]
      congr 3
      ring
    · rw [if_neg h1] at h ⊢
      obtain ⟨t, ht, h⟩ := bind_ok.1 h
      cases h
      obtain ⟨gU3, z1, z2, z3⟩ := ihs lo maxE simp gB gU nB nU t hwf.2.2.2 hsimp hlen hj ht
      rw [z1, ok_bind]
      exact ⟨gU3, by simp [Sib.shift, pure_eq_ok], z2, z3⟩

omit [Zero W] in
/-- The insertion only reads the distances to the vertices of the tree. -/
theorem recurseInsert_congr (env : InsertEnv W) (dist' : Nat → Res W)
    (hdist : ∀ i, i < env.curIndex → dist' i = env.dist i) (s : Sib W) :
    ∀ (lo : Nat) (maxE : W) (simp : List Nat) (st : Graph W × Int), s.WF lo env.curIndex →
    recurseInsert { env with dist := dist' } maxE simp s st = recurseInsert env maxE simp s st := by
  induction s with
  | nil => intro lo maxE simp st _; rfl
  | node i w ch s ihc ihs =>
    intro lo maxE simp st hwf
    rw [recurseInsert, recurseInsert]
    dsimp only
    rw [hdist i hwf.2.1]
    simp only [ihc _ _ _ _ hwf.2.2.1, ihs _ _ _ _ hwf.2.2.2]

/-- A tree after `n` insertions into a new object. -/
structure GrownTree (n : Nat) (t : Tree W) : Prop where
  /-- counters -/
  index : t.indexCounter = n
  /-- counters -/
  rvi : t.rviSize = n
  /-- counters -/
  rvc : t.rvc = n
  /-- no query yet -/
  sorted : t.isSorted = false
  /-- vertices -/
  wf : t.roots.WF 0 n
  /-- a first layer -/
  head : t.roots ≠ .nil → 1 ≤ t.weg.length
  /-- nothing yet -/
  empty : t.roots = .nil → t.weg = []
  /-- vertices -/
  some : 0 < n → t.roots ≠ .nil

omit [LinearOrder W] in
theorem grown_fresh : GrownTree 0 (Tree.fresh : Tree W) :=
  ⟨rfl, rfl, rfl, rfl, trivial, fun h => absurd rfl h, fun _ => rfl, fun h => absurd h (lt_irrefl _)⟩

omit [LinearOrder W] [Zero W] in
theorem nodeDist_plain (dm : List (List W)) (n i : Nat) : nodeDist dm (n + 1) n n i = at2 dm i n := by
  unfold nodeDist
  rw [if_neg (by omega)]

theorem recurseInsert_len_far (env : InsertEnv W) (s : Sib W) : ∀ (lo : Nat) (maxE : W) (simp : List Nat)
    (st : Graph W × Int) (r : Sib W × (Graph W × Int)), s.WF lo env.curIndex →
    (∀ x ∈ simp, x < lo ∨ x = env.curIndex) → simp.length ≤ st.1.length →
    recurseInsert env maxE simp s st = .ok r → st.1.length ≤ r.2.1.length := by
  intro lo maxE simp st r h1 h2 h3 h4
  obtain ⟨g, n⟩ := st
  obtain ⟨_, _, _, h⟩ := recurseInsert_shift (n := 0) (gA := []) env env rfl rfl rfl
    (fun i _ => rfl) s lo maxE simp g g n n r h1 h2 h3 ⟨fun k => by
      have e : (shiftE 0 : List Nat × W → List Nat × W) = id := by funext e; simp [shiftE]
      simp [e], by simp⟩ h4
  exact h

theorem GrownTree.insert {n : Nat} {t t' : Tree W} (h : GrownTree n t) {eps : W} {dim : Nat}
    {dm : List (List W)} (hdm : dm.length ≠ 0) (hi : t.insert eps dim dm = .ok t') :
    GrownTree (n + 1) t' := by
  unfold Tree.insert at hi
  rw [if_neg hdm] at hi
  dsimp only at hi
  cases hr : t.roots with
  | nil =>
    rw [hr] at hi
    cases hi
    refine ⟨by simp [h.index], by simp [h.rvi], by simp [h.rvc], h.sorted, ?_, by simp, by simp, by simp⟩
    exact ⟨Nat.zero_le _, by rw [h.index]; omega, trivial, trivial⟩
  | node i w c s =>
    rw [hr] at hi
    dsimp only at hi
    obtain ⟨r, hrec, hi⟩ := bind_ok.1 hi
    rw [← hr] at hrec
    have hwf : t.roots.WF 0 t.indexCounter := by rw [h.index]; exact h.wf
    have h1 := h.head (by rw [hr]; simp)
    have hwf' := recurseInsert_wf _ _ 0 _ _ _ _ hwf hrec
    have hlen := recurseInsert_len_far _ _ 0 _ _ _ _ hwf (by simp) (by simpa using h1) hrec
    obtain ⟨roots, weg, cnt⟩ := r
    dsimp only at hi hwf' hlen
    obtain ⟨weg', hv, hi⟩ := bind_ok.1 hi
    cases hi
    obtain ⟨g, v1, v2, -⟩ := vmodify_zero (([t.indexCounter], 0) : List Nat × W) (h1.trans hlen)
    rw [v1] at hv
    cases hv
    refine ⟨by simp [h.index], by simp [h.rvi], by simp [h.rvc], h.sorted, ?_, ?_, ?_, ?_⟩
    · have := wf_appendRoot (Nat.zero_le _) hwf'
      rwa [h.index] at this ⊢
    · intro _
      dsimp only
      omega
    · intro hx
      exact absurd hx (appendRoot_ne _)
    · intro _
      exact appendRoot_ne _

/-- An insertion reads the column of the new vertex only. -/
theorem GrownTree.agree {n : Nat} {t : Tree W} (h : GrownTree n t) {eps : W} {dim : Nat}
    {dm dm' : List (List W)} (hdm : dm.length ≠ 0) (hdm' : dm'.length ≠ 0)
    (heq : ∀ i, i < n → at2 dm' i n = at2 dm i n) : t.insert eps dim dm' = t.insert eps dim dm := by
  unfold Tree.insert
  rw [if_neg hdm, if_neg hdm']
  dsimp only
  cases hr : t.roots with
  | nil => rfl
  | node i w c s =>
    dsimp only
    have := recurseInsert_congr
      ⟨t.indexCounter, nodeDist dm (t.rviSize + 1) t.rvc t.indexCounter, eps, dim⟩
      (nodeDist dm' (t.rviSize + 1) t.rvc t.indexCounter)
      (fun i hi => by
        dsimp only at hi
        rw [h.index, h.rvi, h.rvc] at *
        dsimp only
        rw [nodeDist_plain, nodeDist_plain, heq i hi]) t.roots 0 0 [t.indexCounter]
      (t.weg, t.nodeCount) (by dsimp only; rw [h.index]; exact h.wf)
    rw [hr] at this
    dsimp only at this
    rw [this]

theorem insertN_grown {eps : W} {dim : Nat} {dm : List (List W)} (hdm : dm.length ≠ 0) (n : Nat) :
    ∀ {t : Tree W}, Tree.insertN eps dim dm n Tree.fresh = .ok t → GrownTree n t := by
  induction n with
  | zero => intro t h; cases h; exact grown_fresh
  | succ n ih =>
    intro t h
    obtain ⟨t1, h1, h2⟩ := bind_ok.1 h
    exact (ih h1).insert hdm h2

theorem insertN_agree {eps : W} {dim : Nat} {dm dm' : List (List W)} (hdm : dm.length ≠ 0)
    (hdm' : dm'.length ≠ 0) (n : Nat)
    (heq : ∀ i j, i < j → j < n → at2 dm' i j = at2 dm i j) :
    ∀ {t : Tree W}, Tree.insertN eps dim dm n Tree.fresh = .ok t →
    Tree.insertN eps dim dm' n Tree.fresh = .ok t := by
  induction n with
  | zero => intro t h; exact h
  | succ n ih =>
    intro t h
    obtain ⟨t1, h1, h2⟩ := bind_ok.1 h
    rw [Tree.insertN, ih (fun i j hi hj => heq i j hi (by omega)) h1, ok_bind,
      (insertN_grown hdm n h1).agree hdm hdm' (fun i hi => heq i n hi (by omega)), h2]

/-- The tree of both clouds while the second one is inserted. -/
structure FarTree (a : Nat) (tA tB tU : Tree W) : Prop where
  /-- the roots -/
  roots : tU.roots = tA.roots.app (tB.roots.shift a)
  /-- the layers -/
  weg : Joined a tA.weg tB.weg tU.weg

omit [LinearOrder W] in
theorem appendRoot_app (i : Nat) (s t : Sib W) : appendRoot i (s.app t) = s.app (appendRoot i t) := by
  induction s with
  | nil => rfl
  | node j w c s _ ih => rw [Sib.app, appendRoot, ih, Sib.app]

omit [LinearOrder W] in
theorem appendRoot_shift (i n : Nat) (s : Sib W) :
    appendRoot (i + n) (s.shift n) = (appendRoot i s).shift n := by
  induction s with
  | nil => rfl
  | node j w c s _ ih => rw [Sib.shift, appendRoot, ih, appendRoot, Sib.shift]

theorem FarTree.insert {eps : W} {dim a n : Nat} {tA tB tU tB' : Tree W} (ha : 0 < a)
    (hA : GrownTree a tA) (hB : GrownTree n tB) (hU : GrownTree (n + a) tU) (h : FarTree a tA tB tU)
    {dmB dmU : List (List W)} (hdm : dmB.length ≠ 0) (hdm' : dmU.length ≠ 0)
    (heq : ∀ i, i < n → at2 dmU (i + a) (n + a) = at2 dmB i n)
    (hfar : ∀ i, i < a → ∃ d, at2 dmU i (n + a) = .ok d ∧ eps ≤ d)
    (hi : tB.insert eps dim dmB = .ok tB') :
    ∃ tU', tU.insert eps dim dmU = .ok tU' ∧ FarTree a tA tB' tU' := by
  have hne := hU.some (by omega)
  have hlenU := hU.head hne
  have hlenA := hA.head (hA.some ha)
  set envU : InsertEnv W := ⟨tU.indexCounter, nodeDist dmU (tU.rviSize + 1) tU.rvc tU.indexCounter,
    eps, dim⟩ with henvU
  have hfar' : ∀ i, i < a → ∃ d, envU.dist i = .ok d ∧ envU.maxEpsilon ≤ d := by
    intro i hi
    obtain ⟨d, h1, h2⟩ := hfar i hi
    refine ⟨d, ?_, h2⟩
    rw [henvU]
    dsimp only
    rw [hU.index, hU.rvi, hU.rvc, nodeDist_plain, h1]
  -- what the insertion into the tree of both comes down to
  have key : ∀ (sib : Sib W) (g : Graph W) (c : Int) (rb : Sib W),
      recurseInsert envU 0 [tU.indexCounter] (tB.roots.shift a) (tU.weg, tU.nodeCount) =
        .ok (rb, (g, c)) → 1 ≤ g.length →
      appendRoot tU.indexCounter rb = sib →
      ∃ g', g'.length = g.length ∧
        (∀ k, g'.getD k [] = g.getD k [] ++ (if k = 0 then [([tU.indexCounter], 0)] else [])) ∧
        ∃ tU', tU.insert eps dim dmU = .ok tU' ∧ tU'.weg = g' ∧ tU'.roots = tA.roots.app sib := by
    intro sib g c rb hrec hg hsib
    obtain ⟨g', v1, v2, v3⟩ := vmodify_zero (([tU.indexCounter], 0) : List Nat × W) hg
    refine ⟨g', v2, v3, ?_⟩
    have := recurseInsert_far envU 0 [tU.indexCounter] hfar' _ _ _ hrec tA.roots hA.wf
    rw [← h.roots] at this
    unfold Tree.insert
    rw [if_neg hdm']
    dsimp only
    cases hr : tU.roots with
    | nil => exact absurd hr hne
    | node i w c s =>
      rw [hr] at this
      dsimp only
      rw [← henvU, this, ok_bind]
      dsimp only
      rw [v1, ok_bind]
      exact ⟨_, rfl, rfl, by dsimp only; rw [appendRoot_app, hsib]⟩
  unfold Tree.insert at hi
  rw [if_neg hdm] at hi
  dsimp only at hi
  cases hr : tB.roots with
  | nil =>
    rw [hr] at hi
    cases hi
    obtain ⟨g', e1, e2, tU', e3, e4, e5⟩ := key (.node tU.indexCounter 0 .nil .nil) tU.weg
      tU.nodeCount .nil (by rw [hr]; rfl) hlenU rfl
    refine ⟨tU', e3, ?_, ?_⟩
    · rw [e5, hU.index]
      simp [Sib.shift, hB.index]
    · rw [e4]
      have hj := h.weg
      have hnil := hB.empty hr
      refine ⟨fun k => ?_, ?_⟩
      · rw [e2, hj.layers, hnil, hU.index]
        dsimp only
        rw [hB.index]
        cases k <;> simp [shiftE]
      · rw [e1, hj.len, hnil]
        simp
        omega
  | node i w c s =>
    rw [hr] at hi
    dsimp only at hi
    obtain ⟨r, hrec, hi⟩ := bind_ok.1 hi
    rw [← hr] at hrec
    have h1 := hB.head (by rw [hr]; simp)
    obtain ⟨gU', z1, z2, z3⟩ := recurseInsert_shift (n := a) (gA := tA.weg)
      ⟨tB.indexCounter, nodeDist dmB (tB.rviSize + 1) tB.rvc tB.indexCounter, eps, dim⟩ envU
      (by rw [henvU]; dsimp only; rw [hU.index, hB.index]) rfl rfl
      (fun i hi => by
        dsimp only at hi ⊢
        rw [henvU]
        dsimp only
        rw [hU.index, hU.rvi, hU.rvc, hB.index, hB.rvi, hB.rvc, nodeDist_plain, nodeDist_plain]
        exact heq i (by rw [← hB.index]; exact hi)) tB.roots 0 0 [tB.indexCounter] tB.weg tU.weg
      tB.nodeCount tU.nodeCount r (by dsimp only; rw [hB.index]; exact hB.wf) (by simp)
      (by simpa using h1) h.weg hrec
    obtain ⟨roots, weg, cnt⟩ := r
    dsimp only at hi z1 z2 z3
    obtain ⟨weg', hv, hi⟩ := bind_ok.1 hi
    cases hi
    obtain ⟨gB, v1, v2, v3⟩ := vmodify_zero (([tB.indexCounter], 0) : List Nat × W) (h1.trans z3)
    rw [v1] at hv
    cases hv
    have z1' : recurseInsert envU 0 [tU.indexCounter] (tB.roots.shift a) (tU.weg, tU.nodeCount) =
        .ok (roots.shift a, (gU', tU.nodeCount + (cnt - tB.nodeCount))) := by
      rw [← z1]
      simp [hU.index, hB.index]
    obtain ⟨g', e1, e2, tU', e3, e4, e5⟩ := key _ gU' _ _ z1' (by rw [z2.len]; omega) rfl
    refine ⟨tU', e3, ?_, ?_⟩
    · rw [e5, hU.index, appendRoot_shift, hB.index]
    · rw [e4]
      refine ⟨fun k => ?_, ?_⟩
      · rw [e2, z2.layers, hU.index]
        dsimp only
        rw [v3, hB.index, List.map_append, List.append_assoc]
        cases k <;> simp [shiftE]
      · rw [e1, z2.len]
        dsimp only
        omega

/-- All insertions of both clouds. -/
theorem insertN_far {eps : W} {dim a : Nat} (ha : 0 < a) {dmA dmB dmU : List (List W)}
    (hdmA : dmA.length ≠ 0) (hdmB : dmB.length ≠ 0) (hdmU : dmU.length ≠ 0) {tA : Tree W}
    (hA : Tree.insertN eps dim dmA a Tree.fresh = .ok tA)
    (heqA : ∀ i j, i < j → j < a → at2 dmU i j = at2 dmA i j) (n : Nat)
    (heqB : ∀ i j, i < j → j < n → at2 dmU (i + a) (j + a) = at2 dmB i j)
    (hfar : ∀ i j, i < a → j < n → ∃ d, at2 dmU i (j + a) = .ok d ∧ eps ≤ d) :
    ∀ {tB : Tree W}, Tree.insertN eps dim dmB n Tree.fresh = .ok tB →
    ∃ tU, Tree.insertN eps dim dmU (n + a) Tree.fresh = .ok tU ∧ FarTree a tA tB tU := by
  induction n with
  | zero =>
    intro tB hB
    cases hB
    refine ⟨tA, ?_, ?_, ?_, ?_⟩
    · rw [Nat.zero_add]
      exact insertN_agree hdmA hdmU a heqA hA
    · simp [Tree.fresh, Sib.shift, Sib.app_nil]
    · intro k; simp [Tree.fresh]
    · simp [Tree.fresh]
  | succ n ih =>
    intro tB' hB
    obtain ⟨tB, h1, h2⟩ := bind_ok.1 hB
    obtain ⟨tU, g1, g2⟩ := ih (fun i j hi hj => heqB i j hi (by omega))
      (fun i j hi hj => hfar i j hi (by omega)) h1
    obtain ⟨tU', g3, g4⟩ := g2.insert ha (insertN_grown hdmA a hA) (insertN_grown hdmB n h1)
      (insertN_grown hdmU (n + a) g1) hdmB hdmU (fun i hi => heqB i n hi (by omega))
      (fun i hi => hfar i n hi (by omega)) h2
    refine ⟨tU', ?_, g4⟩
    rw [show n + 1 + a = n + a + 1 by omega, Tree.insertN, g1, ok_bind, g3]

end
end LHF
