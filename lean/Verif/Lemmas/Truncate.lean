import Verif.Lemmas.TreeInv

/-!
Building the tree with a smaller `epsilon` or a smaller `dimensions` builds the part of it that lies
below these bounds, in the same order.
-/

namespace LHF
open Spec

section
variable {W : Type} [LinearOrder W]

/-- The part of the tree of weight below `c`, with at most `n` levels below the siblings. -/
def Sib.cut (c : W) : Nat → Sib W → Sib W
  | _, .nil => .nil
  | n, .node i w ch s =>
    if w < c then .node i w (if n = 0 then .nil else ch.cut c (n - 1)) (s.cut c n) else s.cut c n

/-- The vertices along a path increase, starting from `lo`, and lie below `hi`. -/
def Sib.WF (lo hi : Nat) : Sib W → Prop
  | .nil => True
  | .node i _ ch s => lo ≤ i ∧ i < hi ∧ ch.WF (i + 1) hi ∧ s.WF lo hi

omit [LinearOrder W] in
theorem Sib.WF.mono {lo hi : Nat} {s : Sib W} (h : s.WF lo hi) : s.WF lo (hi + 1) := by
  induction s generalizing lo with
  | nil => trivial
  | node i w ch s ihc ihs => exact ⟨h.1, by have := h.2.1; omega, ihc h.2.2.1, ihs h.2.2.2⟩

/-- The first `cap` layers of `gS` are those of `gL` below `c`. -/
def Trunc (c : W) (cap : Nat) (gS gL : Graph W) : Prop :=
  ∀ k, k < cap → gS.getD k [] = (gL.getD k []).filter (fun e => e.2 < c)

/-- An element that is not visible below `c` and `cap` changes nothing. -/
theorem Trunc.hidden {c : W} {cap : Nat} {gS gL gL' : Graph W} {e : List Nat × W}
    (h : Trunc c cap gS gL) (he : c ≤ e.2 ∨ cap < e.1.length)
    (hp : ∀ k, gL'.getD k [] = gL.getD k [] ++ (if e.1.length = k + 1 then [e] else [])) :
    Trunc c cap gS gL' := by
  intro k hk
  rw [hp, List.filter_append, ← h k hk]
  split_ifs with h1
  · rcases he with he | he
    · simp [not_lt.2 he]
    · omega
  · simp

/-- A visible element is added to both. -/
theorem Trunc.shown {c : W} {cap : Nat} {gS gS' gL gL' : Graph W} {e : List Nat × W}
    (h : Trunc c cap gS gL) (he : e.2 < c)
    (hp : ∀ k, gL'.getD k [] = gL.getD k [] ++ (if e.1.length = k + 1 then [e] else []))
    (hq : ∀ k, gS'.getD k [] = gS.getD k [] ++ (if e.1.length = k + 1 then [e] else [])) :
    Trunc c cap gS' gL' := by
  intro k hk
  rw [hp, hq, List.filter_append, ← h k hk]
  split_ifs with h1
  · simp [he]
  · simp

end

section
variable {W : Type} [LinearOrder W] [Zero W]

omit [Zero W] in
theorem nodeMax_eq (a b : W) : (if a > b then a else b) = max a b := by
  rcases le_or_gt a b with h | h
  · rw [if_neg (not_lt.2 h), max_eq_right h]
  · rw [if_pos h, max_eq_left h.le]

omit [Zero W] in
theorem Sib.cut_node_pos {c : W} {n i : Nat} {w : W} {ch s : Sib W} (h : w < c) :
    (Sib.node i w ch s).cut c n =
      .node i w (if n = 0 then .nil else ch.cut c (n - 1)) (s.cut c n) := by
  rw [Sib.cut, if_pos h]

omit [Zero W] in
theorem Sib.cut_node_neg {c : W} {n i : Nat} {w : W} {ch s : Sib W} (h : c ≤ w) :
    (Sib.node i w ch s).cut c n = s.cut c n := by
  rw [Sib.cut, if_neg (not_lt.2 h)]

omit [Zero W] in
/-- The insertion keeps the vertices along the paths increasing. -/
theorem recurseInsert_wf (env : InsertEnv W) (s : Sib W) : ∀ (lo : Nat) (maxE : W)
    (simp : List Nat) (st : Graph W × Int) (r : Sib W × (Graph W × Int)),
    s.WF lo env.curIndex → recurseInsert env maxE simp s st = .ok r →
    r.1.WF lo (env.curIndex + 1) := by
  induction s with
  | nil => intro lo maxE simp st r _ h; cases h; trivial
  | node i w ch s ihc ihs =>
    intro lo maxE simp st r hwf h
    rw [recurseInsert] at h
    obtain ⟨d, hd, h⟩ := bind_ok.1 h
    dsimp only at h
    rw [nodeMax_eq d maxE, nodeMax_eq (max d maxE) w] at h
    by_cases h1 : max d maxE < env.maxEpsilon
    · rw [if_pos h1] at h
      obtain ⟨g, hg, h⟩ := bind_ok.1 h
      obtain ⟨q, hq, h⟩ := bind_ok.1 h
      obtain ⟨t, ht, h⟩ := bind_ok.1 h
      cases h
      have := hwf.2.1
      have hq' : q.1.WF (i + 1) (env.curIndex + 1) := by
        by_cases h2 : (setInsert i simp).length ≤ env.maxDimension
        · rw [if_pos h2] at hq
          exact ihc _ _ _ _ _ hwf.2.2.1 hq
        · rw [if_neg h2] at hq
          cases hq
          exact hwf.2.2.1.mono
      exact ⟨hwf.1, by omega, ⟨by omega, by omega, trivial, hq'⟩, ihs _ _ _ _ _ hwf.2.2.2 ht⟩
    · rw [if_neg h1] at h
      obtain ⟨t, ht, h⟩ := bind_ok.1 h
      cases h
      have := hwf.2.1
      exact ⟨hwf.1, by omega, hwf.2.2.1.mono, ihs _ _ _ _ _ hwf.2.2.2 ht⟩

omit [LinearOrder W] [Zero W] in
theorem setInsert_length {i : Nat} {l : List Nat} (h : i ∉ l) :
    (setInsert i l).length = l.length + 1 := by
  induction l with
  | nil => rfl
  | cons a l ih =>
    rw [List.mem_cons, not_or] at h
    rw [setInsert]
    split_ifs with h1 h2
    · rfl
    · simp [ih h.2]
    · exact absurd (by omega) h.1

omit [LinearOrder W] [Zero W] in
/-- Vertices on the way to a node. -/
theorem way_step {lo i cur : Nat} {simp : List Nat} (hs : ∀ x ∈ simp, x < lo ∨ x = cur)
    (h1 : lo ≤ i) (h2 : i < cur) :
    (setInsert i simp).length = simp.length + 1 ∧
      ∀ x ∈ setInsert i simp, x < i + 1 ∨ x = cur := by
  refine ⟨setInsert_length (fun h => ?_), fun x hx => ?_⟩
  · rcases hs i h with h | h <;> omega
  · rcases (mem_setInsert i simp x).1 hx with h | h
    · omega
    · rcases hs x h with h | h <;> omega

omit [Zero W] in
/-- An insertion that starts above the bounds leaves what lies below them as it is. -/
theorem recurseInsert_hidden (env : InsertEnv W) (c : W) (cap : Nat) (s : Sib W) :
    ∀ (lo : Nat) (maxE : W) (simp : List Nat) (gS gL : Graph W) (n : Int)
      (r : Sib W × (Graph W × Int)),
    s.WF lo env.curIndex → (∀ x ∈ simp, x < lo ∨ x = env.curIndex) →
    simp.length ≤ gL.length → (c ≤ maxE ∨ cap ≤ simp.length) → Trunc c cap gS gL →
    recurseInsert env maxE simp s (gL, n) = .ok r →
    r.1.cut c (cap - simp.length) = s.cut c (cap - simp.length) ∧ Trunc c cap gS r.2.1 ∧
      gL.length ≤ r.2.1.length := by
  induction s with
  | nil => intro lo maxE simp gS gL n r _ _ _ _ ht h; cases h; exact ⟨rfl, ht, le_rfl⟩
  | node i w ch s ihc ihs =>
    intro lo maxE simp gS gL n r hwf hs hlen hb ht h
    obtain ⟨w1, w2, w3, w4⟩ := hwf
    obtain ⟨l1, l2⟩ := way_step hs w1 w2
    rw [recurseInsert] at h
    obtain ⟨d, hd, h⟩ := bind_ok.1 h
    dsimp only at h
    rw [nodeMax_eq d maxE, nodeMax_eq (max d maxE) w] at h
    by_cases h1 : max d maxE < env.maxEpsilon
    · rw [if_pos h1] at h
      obtain ⟨g1, e1, e2, e3, -, e5⟩ := pushWEG_spec (weg := gL)
        (e := (setInsert i simp, max (max d maxE) w)) (m := simp.length) l1 hlen
      rw [e1, ok_bind] at h
      have hb' : c ≤ max (max d maxE) w ∨ cap ≤ (setInsert i simp).length := by
        rcases hb with hb | hb
        · exact .inl (hb.trans ((le_max_right _ _).trans (le_max_left _ _)))
        · exact .inr (by omega)
      have ht1 : Trunc c cap gS g1 := by
        refine ht.hidden (e := (setInsert i simp, max (max d maxE) w)) ?_ e2
        rcases hb with hb | hb
        · exact .inl (hb.trans ((le_max_right _ _).trans (le_max_left _ _)))
        · exact .inr (by simp only; omega)
      obtain ⟨q, hq, h⟩ := bind_ok.1 h
      obtain ⟨t, htt, h⟩ := bind_ok.1 h
      cases h
      have hchild : q.1.cut c (cap - (setInsert i simp).length) =
          ch.cut c (cap - (setInsert i simp).length) ∧ Trunc c cap gS q.2.1 ∧
          g1.length ≤ q.2.1.length := by
        by_cases h2 : (setInsert i simp).length ≤ env.maxDimension
        · rw [if_pos h2] at hq
          exact ihc _ _ _ _ _ _ _ w3 l2 (by omega) hb' ht1 hq
        · rw [if_neg h2] at hq
          cases hq
          exact ⟨rfl, ht1, le_rfl⟩
      obtain ⟨c1, c2, c3⟩ := hchild
      obtain ⟨s1, s2, s3⟩ := ihs _ _ _ gS q.2.1 q.2.2 t w4 hs (by omega) hb c2 htt
      refine ⟨?_, s2, (e3.trans c3).trans s3⟩
      rw [l1] at c1
      by_cases hw : w < c
      · rw [Sib.cut_node_pos hw, Sib.cut_node_pos hw, s1]
        congr 1
        split_ifs with h0
        · rfl
        · have : c ≤ max (max d maxE) w := by
            rcases hb with hb | hb
            · exact hb.trans ((le_max_right _ _).trans (le_max_left _ _))
            · omega
          rw [Sib.cut_node_neg this, Nat.sub_sub, c1]
      · rw [Sib.cut_node_neg (not_lt.1 hw), Sib.cut_node_neg (not_lt.1 hw), s1]
    · rw [if_neg h1] at h
      obtain ⟨t, htt, h⟩ := bind_ok.1 h
      cases h
      obtain ⟨s1, s2, s3⟩ := ihs _ _ _ gS gL n t w4 hs hlen hb ht htt
      refine ⟨?_, s2, s3⟩
      simp only [Sib.cut, s1]

omit [Zero W] in
/-- An insertion with smaller bounds does, below these bounds, what the insertion with the larger
ones does. -/
theorem recurseInsert_trunc (envL envS : InsertEnv W) (hcur : envS.curIndex = envL.curIndex)
    (hdist : envS.dist = envL.dist) (heps : envS.maxEpsilon ≤ envL.maxEpsilon)
    (hdim : envS.maxDimension ≤ envL.maxDimension) (cap : Nat)
    (hcap : cap = max 1 envS.maxDimension + 1) (s : Sib W) :
    ∀ (lo : Nat) (maxE : W) (simp : List Nat) (gS gL : Graph W) (nS nL : Int)
      (r : Sib W × (Graph W × Int)),
    s.WF lo envL.curIndex → (∀ x ∈ simp, x < lo ∨ x = envL.curIndex) →
    simp.length ≤ gS.length → simp.length ≤ gL.length → 1 ≤ simp.length → simp.length + 1 ≤ cap →
    Trunc envS.maxEpsilon cap gS gL →
    recurseInsert envL maxE simp s (gL, nL) = .ok r →
    ∃ gS' nS', recurseInsert envS maxE simp (s.cut envS.maxEpsilon (cap - simp.length)) (gS, nS) =
        .ok (r.1.cut envS.maxEpsilon (cap - simp.length), gS', nS') ∧
      Trunc envS.maxEpsilon cap gS' r.2.1 ∧ gS.length ≤ gS'.length ∧
      gL.length ≤ r.2.1.length := by
  induction s with
  | nil =>
    intro lo maxE simp gS gL nS nL r _ _ _ _ _ _ ht h
    cases h
    exact ⟨gS, nS, rfl, ht, le_rfl, le_rfl⟩
  | node i w ch s ihc ihs =>
    intro lo maxE simp gS gL nS nL r hwf hs hlS hlL hpos hc ht h
    obtain ⟨w1, w2, w3, w4⟩ := hwf
    obtain ⟨l1, l2⟩ := way_step hs w1 w2
    rw [recurseInsert] at h
    obtain ⟨d, hd, h⟩ := bind_ok.1 h
    dsimp only at h
    rw [nodeMax_eq d maxE, nodeMax_eq (max d maxE) w] at h
    by_cases hsee : max (max d maxE) w < envS.maxEpsilon
    · -- the new simplex is seen by both
      have hw : w < envS.maxEpsilon := lt_of_le_of_lt (le_max_right _ _) hsee
      have h1S : max d maxE < envS.maxEpsilon := lt_of_le_of_lt (le_max_left _ _) hsee
      have h1 : max d maxE < envL.maxEpsilon := lt_of_lt_of_le h1S heps
      rw [if_pos h1] at h
      obtain ⟨g1, e1, e2, e3, -, e5⟩ := pushWEG_spec (weg := gL)
        (e := (setInsert i simp, max (max d maxE) w)) (m := simp.length) l1 hlL
      obtain ⟨f1, k1, k2, k3, -, k5⟩ := pushWEG_spec (weg := gS)
        (e := (setInsert i simp, max (max d maxE) w)) (m := simp.length) l1 hlS
      have ht1 := ht.shown (e := (setInsert i simp, max (max d maxE) w)) hsee e2 k2
      rw [e1, ok_bind] at h
      obtain ⟨q, hq, h⟩ := bind_ok.1 h
      obtain ⟨t, htt, h⟩ := bind_ok.1 h
      cases h
      have hchild : ∃ f2 m2, (if (setInsert i simp).length ≤ envS.maxDimension then
            recurseInsert envS (max (max d maxE) w) (setInsert i simp)
              (ch.cut envS.maxEpsilon (cap - simp.length - 1)) (f1, nS + 1)
          else pure (ch.cut envS.maxEpsilon (cap - simp.length - 1), (f1, nS + 1)) :
            Res (Sib W × (Graph W × Int))) =
            .ok (q.1.cut envS.maxEpsilon (cap - simp.length - 1), f2, m2) ∧
          Trunc envS.maxEpsilon cap f2 q.2.1 ∧ f1.length ≤ f2.length ∧
          g1.length ≤ q.2.1.length := by
        by_cases h2S : (setInsert i simp).length ≤ envS.maxDimension
        · have h2 : (setInsert i simp).length ≤ envL.maxDimension := h2S.trans hdim
          rw [if_pos h2] at hq
          obtain ⟨f2, m2, a1, a2, a3, a4⟩ := ihc _ _ _ f1 _ (nS + 1) _ _ w3 l2 (by omega) (by omega)
            (by omega) (by omega) ht1 hq
          rw [l1, ← Nat.sub_sub] at a1
          exact ⟨f2, m2, by rw [if_pos h2S]; exact a1, a2, a3, a4⟩
        · rw [if_neg h2S]
          by_cases h2 : (setInsert i simp).length ≤ envL.maxDimension
          · rw [if_pos h2] at hq
            obtain ⟨a1, a2, a3⟩ := recurseInsert_hidden envL envS.maxEpsilon cap ch _ _ _ f1 _ _ _ w3 l2
              (by omega) (.inr (by omega)) ht1 hq
            rw [l1, ← Nat.sub_sub] at a1
            exact ⟨f1, nS + 1, by rw [a1]; rfl, a2, le_rfl, a3⟩
          · rw [if_neg h2] at hq
            cases hq
            exact ⟨f1, nS + 1, rfl, ht1, le_rfl, le_rfl⟩
      obtain ⟨f2, m2, c1, c2, c3, c4⟩ := hchild
      obtain ⟨gS', nS', s1, s2, s3, s4⟩ := ihs _ _ _ f2 q.2.1 m2 q.2.2 t w4 hs (by omega) (by omega)
        hpos hc c2 htt
      refine ⟨gS', nS', ?_, s2, (k3.trans c3).trans s3, (e3.trans c4).trans s4⟩
      rw [Sib.cut_node_pos hw, Sib.cut_node_pos hw, if_neg (by omega), if_neg (by omega),
        Sib.cut_node_pos hsee, recurseInsert, hdist, hd, ok_bind]
      dsimp only
      rw [nodeMax_eq d maxE, nodeMax_eq (max d maxE) w, if_pos h1S, k1, ok_bind, c1, ok_bind]
      dsimp only
      rw [s1, ok_bind, hcur]
      have : (if cap - simp.length - 1 = 0 then Sib.nil else
        Sib.cut envS.maxEpsilon (cap - simp.length - 1 - 1) (Sib.nil : Sib W)) = Sib.nil := by
        split_ifs <;> rfl
      rw [this]
      rfl
    · -- the new simplex, if there is one, is not seen
      have hsee' := not_lt.1 hsee
      have hstep : ∃ g1 n1 ch', (recurseInsert envL maxE simp s (g1, n1) >>=
            fun t => pure (Sib.node i w ch' t.1, t.2)) = Except.ok r ∧
          ch'.cut envS.maxEpsilon (cap - simp.length - 1) =
            ch.cut envS.maxEpsilon (cap - simp.length - 1) ∧
          Trunc envS.maxEpsilon cap gS g1 ∧ gL.length ≤ g1.length := by
        by_cases h1 : max d maxE < envL.maxEpsilon
        · rw [if_pos h1] at h
          obtain ⟨g1, e1, e2, e3, -, e5⟩ := pushWEG_spec (weg := gL)
            (e := (setInsert i simp, max (max d maxE) w)) (m := simp.length) l1 hlL
          rw [e1, ok_bind] at h
          have ht1 : Trunc envS.maxEpsilon cap gS g1 :=
            ht.hidden (e := (setInsert i simp, max (max d maxE) w)) (.inl hsee') e2
          obtain ⟨q, hq, h⟩ := bind_ok.1 h
          by_cases h2 : (setInsert i simp).length ≤ envL.maxDimension
          · rw [if_pos h2] at hq
            obtain ⟨a1, a2, a3⟩ := recurseInsert_hidden envL envS.maxEpsilon cap ch _ _ _ gS _ _ _ w3 l2
              (by omega) (.inl hsee') ht1 hq
            rw [l1, ← Nat.sub_sub] at a1
            exact ⟨q.2.1, q.2.2, _, h, by rw [Sib.cut_node_neg hsee', a1], a2, by omega⟩
          · rw [if_neg h2] at hq
            cases hq
            exact ⟨g1, nL + 1, _, h, by rw [Sib.cut_node_neg hsee'], ht1, by omega⟩
        · rw [if_neg h1] at h
          exact ⟨gL, nL, ch, h, rfl, ht, le_rfl⟩
      obtain ⟨g1, n1, ch', h', c1, c2, c3⟩ := hstep
      obtain ⟨t, htt, h'⟩ := bind_ok.1 h'
      cases h'
      obtain ⟨gS', nS', s1, s2, s3, s4⟩ := ihs _ _ _ gS g1 nS n1 t w4 hs hlS (by omega) hpos hc c2 htt
      refine ⟨gS', nS', ?_, s2, s3, c3.trans s4⟩
      by_cases hw : w < envS.maxEpsilon
      · have h1S : ¬ max d maxE < envS.maxEpsilon := by
          intro h1
          exact hsee (max_lt h1 hw)
        rw [Sib.cut_node_pos hw, Sib.cut_node_pos hw, if_neg (by omega), if_neg (by omega),
          recurseInsert, hdist, hd, ok_bind]
        dsimp only
        rw [nodeMax_eq d maxE, if_neg h1S, s1, ok_bind, c1]
        rfl
      · rw [Sib.cut_node_neg (not_lt.1 hw), Sib.cut_node_neg (not_lt.1 hw), s1]

/-- The tree `tS` is the part of `tL` below `c` with simplices of at most `cap` vertices. -/
structure TruncTree (c : W) (cap : Nat) (tS tL : Tree W) : Prop where
  roots : tS.roots = tL.roots.cut c (cap - 1)
  weg : Trunc c cap tS.weg tL.weg
  index : tS.indexCounter = tL.indexCounter
  rvi : tS.rviSize = tL.rviSize
  rvc : tS.rvc = tL.rvc
  sorted : tS.isSorted = tL.isSorted
  wf : tL.roots.WF 0 tL.indexCounter
  head : tL.roots ≠ .nil → tS.roots ≠ .nil ∧ 1 ≤ tS.weg.length ∧ 1 ≤ tL.weg.length
  empty : tL.roots = .nil → tS.weg = [] ∧ tL.weg = []

theorem truncTree_fresh (c : W) (cap : Nat) : TruncTree c cap (Tree.fresh : Tree W) Tree.fresh :=
  ⟨rfl, by intro k _; simp [Tree.fresh], rfl, rfl, rfl, rfl, trivial, fun h => absurd rfl h,
    fun _ => ⟨rfl, rfl⟩⟩

theorem cut_appendRoot {c : W} (hc : 0 < c) (n i : Nat) (s : Sib W) :
    (appendRoot i s).cut c n = appendRoot i (s.cut c n) := by
  induction s with
  | nil => simp [appendRoot, Sib.cut, hc]
  | node j w ch s _ ihs =>
    rw [appendRoot]
    by_cases hw : w < c
    · rw [Sib.cut_node_pos hw, Sib.cut_node_pos hw, ihs, appendRoot]
    · rw [Sib.cut_node_neg (not_lt.1 hw), Sib.cut_node_neg (not_lt.1 hw), ihs]

omit [LinearOrder W] in
theorem wf_appendRoot {lo i : Nat} {s : Sib W} (hl : lo ≤ i) (h : s.WF lo (i + 1)) :
    (appendRoot i s).WF lo (i + 1) := by
  induction s with
  | nil => exact ⟨hl, by omega, trivial, trivial⟩
  | node j w ch s _ ihs => exact ⟨h.1, h.2.1, h.2.2.1, ihs h.2.2.2⟩

omit [LinearOrder W] in
theorem appendRoot_ne {i : Nat} (s : Sib W) : appendRoot i s ≠ .nil := by
  cases s <;> simp [appendRoot]

omit [LinearOrder W] [Zero W] in
theorem vmodify_zero {g : Graph W} (e : List Nat × W) (h : 1 ≤ g.length) :
    ∃ g', vmodify g 0 (· ++ [e]) = .ok g' ∧ g'.length = g.length ∧
      ∀ k, g'.getD k [] = g.getD k [] ++ (if k = 0 then [e] else []) := by
  refine ⟨_, by unfold vmodify; rw [if_pos (by omega)], by simp, ?_⟩
  intro k
  cases g with
  | nil => simp at h
  | cons l g => cases k <;> simp

/-- One insertion. -/
theorem insert_trunc {epsS epsL : W} {dimS dimL cap : Nat} (h0 : 0 < epsS) (heps : epsS ≤ epsL)
    (hdim : dimS ≤ dimL) (hcap : cap = max 1 dimS + 1) {dm : List (List W)} {tS tL tL' : Tree W}
    (h : TruncTree epsS cap tS tL) (hL : tL.insert epsL dimL dm = .ok tL') :
    ∃ tS', tS.insert epsS dimS dm = .ok tS' ∧ TruncTree epsS cap tS' tL' := by
  unfold Tree.insert at hL ⊢
  by_cases hdm : dm.length = 0
  · rw [if_pos hdm] at hL ⊢
    cases hL
    exact ⟨tS, rfl, h⟩
  · rw [if_neg hdm] at hL ⊢
    dsimp only at hL ⊢
    cases hr : tL.roots with
    | nil =>
      have hrS : tS.roots = .nil := by rw [h.roots, hr]; rfl
      rw [hr] at hL
      rw [hrS]
      dsimp only at hL ⊢
      cases hL
      obtain ⟨g1, g2⟩ := h.empty hr
      refine ⟨_, rfl, ?_⟩
      refine ⟨?_, ?_, by simp [h.index], by simp [h.rvi], by simp [h.rvc], h.sorted, ?_, ?_, ?_⟩
      · dsimp only
        rw [Sib.cut_node_pos h0, h.index]
        congr 1
        split_ifs <;> rfl
      · intro k _
        rw [g1, g2, h.index]
        cases k <;> simp [h0]
      · exact ⟨Nat.zero_le _, Nat.lt_succ_self _, trivial, trivial⟩
      · intro _
        refine ⟨by simp, by simp, by simp⟩
      · intro hx; cases hx
    | node i w ch s =>
      obtain ⟨h1, h2, h3⟩ := h.head (by rw [hr]; simp)
      rw [hr] at hL
      dsimp only at hL
      obtain ⟨r, hrec, hL⟩ := bind_ok.1 hL
      rw [← hr] at hrec
      have hwf' := recurseInsert_wf _ _ 0 _ _ _ _ h.wf hrec
      obtain ⟨gS', nS', a1, a2, a3, a4⟩ := recurseInsert_trunc
        ⟨tL.indexCounter, nodeDist dm (tL.rviSize + 1) tL.rvc tL.indexCounter, epsL, dimL⟩
        ⟨tS.indexCounter, nodeDist dm (tS.rviSize + 1) tS.rvc tS.indexCounter, epsS, dimS⟩
        h.index (by rw [h.rvi, h.rvc, h.index]) heps hdim cap hcap tL.roots 0 0 [tL.indexCounter]
        tS.weg tL.weg tS.nodeCount tL.nodeCount r h.wf (by simp) (by simpa using h2)
        (by simpa using h3) (by simp) (by simp; omega) h.weg hrec
      rw [List.length_singleton] at a1
      obtain ⟨roots, weg, cnt⟩ := r
      dsimp only at hL a1 a2 a4 hwf'
      obtain ⟨weg', hv, hL⟩ := bind_ok.1 hL
      cases hL
      obtain ⟨gL'', v1, v2, v3⟩ := vmodify_zero (([tL.indexCounter], 0) : List Nat × W)
        (h3.trans a4)
      obtain ⟨gS'', u1, u2, u3⟩ := vmodify_zero (([tS.indexCounter], 0) : List Nat × W)
        (h2.trans a3)
      rw [v1] at hv
      cases hv
      rw [← h.roots, ← h.index] at a1
      cases hrS : tS.roots with
      | nil => exact absurd hrS h1
      | node i' w' ch' s' =>
        rw [hrS] at a1
        dsimp only
        rw [a1, ok_bind]
        dsimp only
        rw [u1, ok_bind]
        refine ⟨_, rfl, ?_⟩
        refine ⟨?_, ?_, by simp [h.index], by simp [h.rvi], by simp [h.rvc], h.sorted, ?_, ?_, ?_⟩
        · dsimp only
          rw [cut_appendRoot h0, h.index]
        · intro k hk
          dsimp only
          rw [u3, v3, a2 k hk, h.index, List.filter_append]
          congr 1
          split_ifs
          · simp [h0]
          · rfl
        · exact wf_appendRoot (Nat.zero_le _) hwf'
        · intro _
          exact ⟨appendRoot_ne _, by dsimp only; omega, by dsimp only; omega⟩
        · intro hx
          exact absurd hx (appendRoot_ne _)

/-- All insertions. -/
theorem insertN_trunc {epsS epsL : W} {dimS dimL cap : Nat} (h0 : 0 < epsS) (heps : epsS ≤ epsL)
    (hdim : dimS ≤ dimL) (hcap : cap = max 1 dimS + 1) {dm : List (List W)} (n : Nat) :
    ∀ {tS tL tL' : Tree W}, TruncTree epsS cap tS tL → Tree.insertN epsL dimL dm n tL = .ok tL' →
    ∃ tS', Tree.insertN epsS dimS dm n tS = .ok tS' ∧ TruncTree epsS cap tS' tL' := by
  induction n with
  | zero => intro tS tL tL' h hL; cases hL; exact ⟨tS, rfl, h⟩
  | succ n ih =>
    intro tS tL tL' h hL
    obtain ⟨t, h1, h2⟩ := bind_ok.1 hL
    obtain ⟨t', h3, h4⟩ := ih h h1
    obtain ⟨t'', h5, h6⟩ := insert_trunc h0 heps hdim hcap h4 h2
    exact ⟨t'', by rw [Tree.insertN, h3, ok_bind, h5], h6⟩

end
end LHF
