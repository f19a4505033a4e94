import Verif.Model.IndexedTree
import Verif.Lemmas.TreeInv

/-! The indexed tree simulates the simplex tree; addresses and labels of its nodes. -/

namespace LHF
open Spec

section
variable {W : Type}

/-- Forget addresses and labels. -/
def INode.erase : INode W → Sib W
  | .nil => .nil
  | .node _ i w _ c s => .node i w c.erase s.erase

/-- Pointers to all nodes. -/
def INode.entries : INode W → List (IEntry W)
  | .nil => []
  | .node a _ w s c sib => ((a, s), w) :: (c.entries ++ sib.entries)

/-- The vertices on the way to every node, with the pointer to it. -/
def ipaths (p : List Nat) : INode W → List (List Nat × IEntry W)
  | .nil => []
  | .node a i w s c sib => (p ++ [i], ((a, s), w)) :: (ipaths (p ++ [i]) c ++ ipaths p sib)

/-- Pointers to the first node of a list and its siblings. -/
def INode.tops : INode W → List (IEntry W)
  | .nil => []
  | .node a _ w s _ sib => ((a, s), w) :: sib.tops

/-- What `dimensions` says about simplices and weights. -/
def eraseDims (dims : List (List (IEntry W))) : Graph W :=
  dims.map (fun layer => layer.map (fun e => (e.1.2, e.2)))

theorem eraseDims_length (dims : List (List (IEntry W))) : (eraseDims dims).length = dims.length := by
  simp [eraseDims]

theorem ipaths_snd (s : INode W) : ∀ p, (ipaths p s).map Prod.snd = s.entries := by
  induction s with
  | nil => intro p; rfl
  | node a i w ss c sib ihc ihs => intro p; simp [ipaths, INode.entries, ihc, ihs]

theorem paths_erase (s : INode W) : ∀ p, paths p s.erase = (ipaths p s).map (fun x => (x.1, x.2.2)) := by
  induction s with
  | nil => intro p; rfl
  | node a i w ss c sib ihc ihs => intro p; simp [ipaths, INode.erase, paths, ihc, ihs]

theorem mem_paths_of_ipaths {p : List Nat} {s : INode W} {x : List Nat × IEntry W}
    (h : x ∈ ipaths p s) : (x.1, x.2.2) ∈ paths p s.erase := by
  rw [paths_erase]; exact List.mem_map.2 ⟨x, h, rfl⟩

theorem flatten_modify_perm {α : Type} (dims : List (List α)) (e : α) : ∀ m, m < dims.length →
    (dims.modify m (· ++ [e])).flatten.Perm (dims.flatten ++ [e]) := by
  induction dims with
  | nil => intro m h; simp at h
  | cons l dims ih =>
    intro m h
    cases m with
    | zero =>
      simp only [List.modify_zero_cons, List.flatten_cons, List.append_assoc]
      exact List.Perm.append_left _ List.perm_append_comm
    | succ m =>
      simp only [List.modify_succ_cons, List.flatten_cons, List.append_assoc]
      exact List.Perm.append_left _ (ih m (by simpa using h))

theorem pushDims_erase {dims : List (List (IEntry W))} {m : Nat} {e : IEntry W}
    (he : e.1.2.length = m + 1) (hm : m ≤ dims.length) :
    ∃ dims', pushDims dims m e = .ok dims' ∧
      pushWEG (eraseDims dims) (e.1.2, e.2) = .ok (eraseDims dims') ∧
      dims'.flatten.Perm (dims.flatten ++ [e]) ∧ (1 ≤ m → dims'[0]? = dims[0]?) ∧
      m + 1 ≤ dims'.length ∧ dims.length ≤ dims'.length := by
  unfold pushDims pushWEG
  rw [eraseDims_length]
  simp only [he]
  by_cases h : m = dims.length
  · rw [if_pos h, if_pos (by omega)]
    refine ⟨_, rfl, ?_, ?_, ?_, by simp; omega, by simp⟩
    · simp [eraseDims, pure_eq_ok]
    · simp
    · intro hm1; rw [List.getElem?_append_left (by omega)]
  · have hlt : m < dims.length := by omega
    rw [if_neg h, if_neg (by omega)]
    have hp : szPred (m + 1) = m := by simp [szPred]
    rw [hp]
    unfold vmodify
    rw [if_pos hlt, if_pos (by rw [eraseDims_length]; omega)]
    refine ⟨_, rfl, ?_, ?_, ?_, by simp; omega, by simp⟩
    · congr 1
      unfold eraseDims
      apply List.ext_getElem?
      intro k
      simp only [List.getElem?_modify, List.getElem?_map]
      by_cases hk : m = k
      · subst hk; rw [List.getElem?_eq_getElem hlt]; simp
      · simp [hk]
    · exact flatten_modify_perm dims e m hlt
    · intro hm1; have : m ≠ 0 := by omega
      simp [this]

theorem pushWEG_len {weg weg' : Graph W} {e : List Nat × W} (h : pushWEG weg e = .ok weg') :
    weg.length ≤ weg'.length := by
  unfold pushWEG at h
  by_cases hl : weg.length < e.1.length
  · rw [if_pos hl, pure_eq_ok] at h
    cases h; simp
  · rw [if_neg hl] at h
    unfold vmodify at h
    split_ifs at h
    cases h; simp

end

section
variable {W : Type} [LinearOrder W] [Zero W]

/-- The number of layers never shrinks. -/
theorem recurseInsert_len (env : InsertEnv W) (s : Sib W) : ∀ (maxE : W) (simp : List Nat)
    (weg : Graph W) (c : Int) (r : Sib W × (Graph W × Int)),
    recurseInsert env maxE simp s (weg, c) = .ok r → weg.length ≤ r.2.1.length := by
  induction s with
  | nil =>
    intro maxE simp weg c r h
    rw [recurseInsert, pure_eq_ok] at h
    cases h; exact le_rfl
  | node i w child sib ihc ihs =>
    intro maxE simp weg c r h
    rw [recurseInsert] at h
    obtain ⟨d, -, h⟩ := bind_ok.1 h
    dsimp only at h
    by_cases hc : (if d > maxE then d else maxE) < env.maxEpsilon
    · rw [if_pos hc] at h
      obtain ⟨weg1, h1, h⟩ := bind_ok.1 h
      obtain ⟨⟨r1, weg2, c2⟩, h2, h⟩ := bind_ok.1 h
      obtain ⟨⟨r3, weg3, c3⟩, h3, h⟩ := bind_ok.1 h
      rw [pure_eq_ok] at h
      cases h
      have l1 := pushWEG_len h1
      have l3 := ihs _ _ _ _ _ h3
      have l2 : weg1.length ≤ weg2.length := by
        by_cases hd : (setInsert i simp).length ≤ env.maxDimension
        · rw [if_pos hd] at h2; exact ihc _ _ _ _ _ h2
        · rw [if_neg hd, pure_eq_ok] at h2; cases h2; exact le_rfl
      dsimp only at l3 ⊢
      omega
    · rw [if_neg hc] at h
      obtain ⟨⟨r3, weg3, c3⟩, h3, h⟩ := bind_ok.1 h
      rw [pure_eq_ok] at h
      cases h
      exact ihs _ _ _ _ (r3, weg3, c3) h3

/-- What a call of `recurseInsert` of the indexed tree does, compared with the simplex tree. -/
structure Grown (p : List Nat) (s s' : INode W) (st st' : IStore W) : Prop where
  new : ∃ new : List (IEntry W), s'.entries.Perm (s.entries ++ new) ∧
    st'.dims.flatten.Perm (st.dims.flatten ++ new) ∧
    st'.sidx = st.sidx ++ List.replicate new.length none ∧
    new.map (fun e => e.1.1) = List.range' st.sidx.length new.length
  label : (∀ x ∈ ipaths p s, x.2.1.2 = x.1) → ∀ x ∈ ipaths p s', x.2.1.2 = x.1
  tops : s'.tops = s.tops
  layer0 : st'.dims[0]? = st.dims[0]?
  counts : st'.dimCounts.length = st.dimCounts.length
  len : st.dims.length ≤ st'.dims.length

theorem recurseInsertI_sim (env : InsertEnv W) (s : INode W) : ∀ (p : List Nat) (maxE : W)
    (st : IStore W) (r : Sib W × (Graph W × Int)),
    (∀ e ∈ paths p s.erase, Inc e.1 ∧ ∀ i ∈ e.1, i < env.curIndex) →
    p.length + 1 ≤ st.dims.length →
    recurseInsert env maxE (p ++ [env.curIndex]) s.erase (eraseDims st.dims, st.nodeCount) = .ok r →
    (r.2.1.length ≤ st.dimCounts.length → ∃ s' st',
      recurseInsertI env maxE (p ++ [env.curIndex]) s st = .ok (s', st') ∧
      r = (s'.erase, eraseDims st'.dims, st'.nodeCount) ∧ Grown p s s' st st') ∧
    (st.dimCounts.length < r.2.1.length → st.dims.length ≤ st.dimCounts.length →
      recurseInsertI env maxE (p ++ [env.curIndex]) s st = .error .oob) := by
  induction s with
  | nil =>
    intro p maxE st r _ _ h
    rw [INode.erase, recurseInsert, pure_eq_ok] at h
    cases h
    refine ⟨fun _ => ⟨.nil, st, rfl, rfl, ⟨⟨[], ?_, ?_, ?_, rfl⟩, ?_, rfl, rfl, rfl, le_rfl⟩⟩, ?_⟩
    · simp
    · simp
    · simp
    · exact fun h => h
    · intro h1 h2
      dsimp only at h1
      rw [eraseDims_length] at h1
      omega
  | node a i w ss child sib ihc ihs =>
    intro p maxE st r hq hl h
    have hself : (p ++ [i], w) ∈ paths p (INode.node a i w ss child sib).erase := by
      simp [paths, INode.erase]
    obtain ⟨hinc, hlt⟩ := hq _ hself
    dsimp only at hinc hlt
    have hin : i < env.curIndex := hlt i (by simp)
    have hmemc : ∀ e ∈ paths (p ++ [i]) child.erase, Inc e.1 ∧ ∀ i ∈ e.1, i < env.curIndex := by
      intro e he; apply hq; rw [INode.erase, paths]; simp [he]
    have hmems : ∀ e ∈ paths p sib.erase, Inc e.1 ∧ ∀ i ∈ e.1, i < env.curIndex := by
      intro e he; apply hq; rw [INode.erase, paths]; simp [he]
    rw [INode.erase, recurseInsert] at h
    rw [recurseInsertI]
    obtain ⟨d, hd, h⟩ := bind_ok.1 h
    rw [hd, ok_bind]
    dsimp only at h ⊢
    by_cases hc : (if d > maxE then d else maxE) < env.maxEpsilon
    · rw [if_pos hc] at h
      rw [if_pos hc]
      rw [setInsert_snoc hinc hin] at h ⊢
      obtain ⟨weg1, h1, h⟩ := bind_ok.1 h
      obtain ⟨⟨r1, weg2, c2⟩, h2, h⟩ := bind_ok.1 h
      obtain ⟨⟨r3, weg3, c3⟩, h3, h⟩ := bind_ok.1 h
      rw [pure_eq_ok] at h
      cases h
      generalize hmx : (if (if d > maxE then d else maxE) > w then (if d > maxE then d else maxE) else w) = mx at *
      obtain ⟨dims1, d1, d2, d3, d4, d5, d6⟩ := pushDims_erase (dims := st.dims) (m := p.length + 1)
        (e := ((st.sidx.length, p ++ [i] ++ [env.curIndex]), mx)) (by simp) hl
      dsimp only at d2
      rw [d2] at h1
      cases h1
      have hlen : (p ++ [env.curIndex]).length = p.length + 1 := by simp
      rw [hlen]
      have m3 := recurseInsert_len _ _ _ _ _ _ _ h3
      have m2 : (eraseDims dims1).length ≤ weg2.length := by
        by_cases hdd : (p ++ [i] ++ [env.curIndex]).length ≤ env.maxDimension
        · rw [if_pos hdd] at h2; exact recurseInsert_len _ _ _ _ _ _ _ h2
        · rw [if_neg hdd, pure_eq_ok] at h2; cases h2; exact le_rfl
      rw [eraseDims_length] at m2
      dsimp only at m3 ⊢
      by_cases hL : p.length + 1 < st.dimCounts.length
      · have hv : vmodify st.dimCounts (p.length + 1) (· + 1) =
            .ok (st.dimCounts.modify (p.length + 1) (· + 1)) := by
          unfold vmodify; rw [if_pos hL]
        rw [hv, ok_bind, d1, ok_bind]
        -- the children
        have key : (weg2.length ≤ st.dimCounts.length → ∃ s2 st2,
            (if (p ++ [i] ++ [env.curIndex]).length ≤ env.maxDimension then
                recurseInsertI env mx (p ++ [i] ++ [env.curIndex]) child
                  ⟨dims1, st.dimCounts.modify (p.length + 1) (· + 1), st.sidx ++ [none],
                    st.nodeCount + 1⟩
              else pure (child, ⟨dims1, st.dimCounts.modify (p.length + 1) (· + 1), st.sidx ++ [none],
                    st.nodeCount + 1⟩) : Res (INode W × IStore W)) = .ok (s2, st2) ∧
            (r1, weg2, c2) = (s2.erase, eraseDims st2.dims, st2.nodeCount) ∧
            Grown (p ++ [i]) child s2 ⟨dims1, st.dimCounts.modify (p.length + 1) (· + 1),
              st.sidx ++ [none], st.nodeCount + 1⟩ st2) ∧
            (st.dimCounts.length < weg2.length → dims1.length ≤ st.dimCounts.length →
              (if (p ++ [i] ++ [env.curIndex]).length ≤ env.maxDimension then
                recurseInsertI env mx (p ++ [i] ++ [env.curIndex]) child
                  ⟨dims1, st.dimCounts.modify (p.length + 1) (· + 1), st.sidx ++ [none],
                    st.nodeCount + 1⟩
              else pure (child, ⟨dims1, st.dimCounts.modify (p.length + 1) (· + 1), st.sidx ++ [none],
                    st.nodeCount + 1⟩) : Res (INode W × IStore W)) = .error .oob) := by
          by_cases hdd : (p ++ [i] ++ [env.curIndex]).length ≤ env.maxDimension
          · rw [if_pos hdd] at h2 ⊢
            have := ihc (p ++ [i]) mx ⟨dims1, st.dimCounts.modify (p.length + 1) (· + 1),
              st.sidx ++ [none], st.nodeCount + 1⟩ _ hmemc (by simp; omega) h2
            simpa using this
          · rw [if_neg hdd] at h2 ⊢
            rw [pure_eq_ok] at h2
            cases h2
            refine ⟨fun _ => ⟨child, _, rfl, rfl, ⟨⟨[], ?_, ?_, ?_, rfl⟩, ?_, rfl, rfl, rfl,
              le_rfl⟩⟩, ?_⟩
            · simp
            · simp
            · simp
            · exact fun h => h
            · intro g1 g2
              rw [eraseDims_length] at g1
              omega
        obtain ⟨key1, key2⟩ := key
        constructor
        · intro hle
          obtain ⟨s2, st2, k1, k2, k3⟩ := key1 (by omega)
          rw [k1, ok_bind]
          dsimp only
          cases k2
          have hc2 : st2.dimCounts.length = st.dimCounts.length := by
            rw [k3.counts]; simp
          obtain ⟨s3, st3, g1, g2, g3⟩ := (ihs p maxE st2 _ hmems
            (by have := k3.len; dsimp only at this; omega) h3).1 (by rw [hc2]; exact hle)
          rw [g1, ok_bind]
          cases g2
          refine ⟨_, st3, rfl, rfl, ?_⟩
          obtain ⟨n1, a1, a2, a3, a4⟩ := k3.new
          obtain ⟨n2, b1, b2, b3, b4⟩ := g3.new
          dsimp only at a2 a3 a4
          refine ⟨⟨((st.sidx.length, p ++ [i] ++ [env.curIndex]), mx) :: (n1 ++ n2), ?_, ?_, ?_, ?_⟩,
            ?_, ?_, ?_, ?_, ?_⟩
          · simp only [INode.entries, List.nil_append]
            rw [List.perm_iff_count]
            intro x
            have c1 := List.perm_iff_count.1 a1 x
            have c2 := List.perm_iff_count.1 b1 x
            simp only [List.count_append, List.count_cons] at c1 c2 ⊢
            omega
          · rw [List.perm_iff_count]
            intro x
            have c1 := List.perm_iff_count.1 a2 x
            have c2 := List.perm_iff_count.1 b2 x
            have c3 := List.perm_iff_count.1 d3 x
            simp only [List.count_append, List.count_cons, List.count_nil] at c1 c2 c3 ⊢
            omega
          · rw [b3, a3]
            rw [List.length_cons, List.length_append, List.replicate_succ, List.replicate_add]
            simp
          · rw [List.map_cons, List.map_append, a4, b4, a3, List.length_cons, List.length_append,
              List.range'_succ]
            simp only [List.length_append, List.length_singleton, List.length_replicate]
            rw [← List.range'_append_1]
          · intro hlab x hx
            rw [ipaths, ipaths, ipaths] at hx
            simp only [List.nil_append, List.mem_cons, List.mem_append] at hx
            rcases hx with rfl | (rfl | hx) | hx
            · exact hlab (p ++ [i], ((a, ss), w)) (by simp [ipaths])
            · rfl
            · exact k3.label (fun y hy => hlab y (by simp [ipaths, hy])) x hx
            · exact g3.label (fun y hy => hlab y (by simp [ipaths, hy])) x hx
          · rw [INode.tops, INode.tops, g3.tops]
          · rw [g3.layer0, k3.layer0]; exact d4 (by omega)
          · rw [g3.counts, hc2]
          · have := g3.len; have := k3.len; dsimp only at this; omega
        · intro hgt hdl
          by_cases hw2 : weg2.length ≤ st.dimCounts.length
          · obtain ⟨s2, st2, k1, k2, k3⟩ := key1 hw2
            rw [k1, ok_bind]
            dsimp only
            cases k2
            have hc2 : st2.dimCounts.length = st.dimCounts.length := by
              rw [k3.counts]; simp
            rw [(ihs p maxE st2 _ hmems (by have := k3.len; dsimp only at this; omega) h3).2
              (by rw [hc2]; exact hgt) (by rw [hc2, ← eraseDims_length]; exact hw2)]
            rfl
          · rw [key2 (by omega) (by
              by_contra hcon
              have hl1 : dims1.length ≤ max st.dims.length (p.length + 2) := by
                unfold pushDims at d1
                split_ifs at d1
                · rw [pure_eq_ok] at d1; cases d1; simp; omega
                · unfold vmodify at d1
                  split_ifs at d1
                  cases d1; simp
              omega)]
            rfl
      · constructor
        · intro hle; omega
        · intro _ _
          have hv : vmodify st.dimCounts (p.length + 1) (· + 1) = .error .oob := by
            unfold vmodify; rw [if_neg hL]
          rw [hv]
          rfl
    · rw [if_neg hc] at h ⊢
      obtain ⟨⟨r3, weg3, c3⟩, h3, h⟩ := bind_ok.1 h
      rw [pure_eq_ok] at h
      cases h
      obtain ⟨i1, i2⟩ := ihs p maxE st _ hmems hl h3
      dsimp only at i1 i2 ⊢
      constructor
      · intro hle
        obtain ⟨s3, st3, g1, g2, g3⟩ := i1 hle
        cases g2
        rw [g1, ok_bind]
        refine ⟨_, st3, rfl, rfl, ?_⟩
        obtain ⟨n2, b1, b2, b3, b4⟩ := g3.new
        refine ⟨⟨n2, ?_, b2, b3, b4⟩, ?_, ?_, g3.layer0, g3.counts, g3.len⟩
        · simp only [INode.entries, List.cons_append, List.append_assoc]
          exact List.Perm.cons _ (List.Perm.append_left _ b1)
        · intro hlab x hx
          rw [ipaths] at hx
          simp only [List.mem_cons, List.mem_append] at hx
          rcases hx with rfl | hx | hx
          · exact hlab (p ++ [i], ((a, ss), w)) (by simp [ipaths])
          · exact hlab x (by simp [ipaths, hx])
          · exact g3.label (fun y hy => hlab y (by simp [ipaths, hy])) x hx
        · rw [INode.tops, INode.tops, g3.tops]
      · intro hgt hdl
        rw [i2 hgt hdl]
        rfl

/-- The indexed tree `t` holds what the simplex tree `tt` holds (if `tt` has not been queried). -/
structure RelI (N : Nat) (t : ITree W) (tt : Tree W) : Prop where
  erase : t.roots.erase = tt.roots
  dims : eraseDims t.store.dims = tt.weg
  cnt : t.store.nodeCount = tt.nodeCount
  idx : t.indexCounter = N
  counts : t.store.dimCounts.length = 3
  flat : t.store.dims.flatten.Perm t.roots.entries
  addrs : (t.roots.entries.map (fun e => e.1.1)).Perm (List.range t.store.sidx.length)
  label : ∀ x ∈ ipaths [] t.roots, x.2.1.2 = x.1
  layer0 : t.store.dims.getD 0 [] = t.roots.tops
  tops : t.roots.tops.map (fun e => e.1.2) = (List.range N).map (fun k => [k])
  topIdx : ∀ (k : Nat) (e : IEntry W), t.roots.tops[k]? = some e → t.store.sidx[e.1.1]? = some (some k)
  unset : t.isSorted = false → ∀ e ∈ t.roots.entries, 2 ≤ e.1.2.length →
    t.store.sidx[e.1.1]? = some none

omit [LinearOrder W] in
theorem erase_appendRoot (a n : Nat) (s : INode W) :
    (appendRootI a n s).erase = appendRoot n s.erase := by
  induction s with
  | nil => rfl
  | node b j w ss c sib ihc ihs => simp [appendRootI, INode.erase, appendRoot, ihs]

omit [LinearOrder W] in
theorem entries_appendRoot (a n : Nat) (s : INode W) :
    (appendRootI a n s).entries = s.entries ++ [((a, [n]), 0)] := by
  induction s with
  | nil => rfl
  | node b j w ss c sib ihc ihs => simp [appendRootI, INode.entries, ihs]

omit [LinearOrder W] in
theorem ipaths_appendRoot (a n : Nat) (s : INode W) :
    ipaths [] (appendRootI a n s) = ipaths [] s ++ [([n], ((a, [n]), 0))] := by
  induction s with
  | nil => rfl
  | node b j w ss c sib ihc ihs => simp [appendRootI, ipaths, ihs]

omit [LinearOrder W] in
theorem tops_appendRoot (a n : Nat) (s : INode W) :
    (appendRootI a n s).tops = s.tops ++ [((a, [n]), 0)] := by
  induction s with
  | nil => rfl
  | node b j w ss c sib ihc ihs => simp [appendRootI, INode.tops, ihs]

omit [LinearOrder W] [Zero W] in
theorem tops_subset (s : INode W) : ∀ e ∈ s.tops, e ∈ s.entries := by
  induction s with
  | nil => intro e he; simp [INode.tops] at he
  | node b j w ss c sib ihc ihs =>
    intro e he
    simp only [INode.tops, List.mem_cons] at he
    simp only [INode.entries, List.mem_cons, List.mem_append]
    rcases he with rfl | he
    · exact Or.inl rfl
    · exact Or.inr (Or.inr (ihs e he))

theorem fresh_rel : RelI 0 (ITree.fresh : ITree W) Tree.fresh := by
  refine ⟨rfl, rfl, rfl, rfl, rfl, ?_, ?_, ?_, rfl, rfl, ?_, ?_⟩
  · exact List.Perm.refl _
  · exact List.Perm.refl _
  · intro x hx; exact absurd hx (by simp [ITree.fresh, ipaths])
  · intro k e he; exact absurd he (by simp [ITree.fresh, INode.tops])
  · intro _ e he; exact absurd he (by simp [ITree.fresh, INode.entries])

theorem RelI.addr_lt {N : Nat} {t : ITree W} {tt : Tree W} (h : RelI N t tt) {e : IEntry W}
    (he : e ∈ t.roots.entries) : e.1.1 < t.store.sidx.length :=
  List.mem_range.1 (h.addrs.mem_iff.1 (List.mem_map.2 ⟨e, he, rfl⟩))

/-- One insertion. -/
theorem insertI_rel {N : Nat} {D : Nat → Nat → W} {eps : W} {maxDim : Nat} {t : ITree W}
    {tt tt' : Tree W} (hinv : TreeInv 0 N D eps maxDim 0 tt) (rel : RelI N t tt)
    {dm : List (List W)} (hne : dm ≠ []) (hins : tt.insert eps maxDim dm = .ok tt') :
    (tt'.weg.length ≤ 3 → ∃ t', t.insert eps maxDim dm = .ok t' ∧ RelI (N + 1) t' tt' ∧
      t'.isSorted = t.isSorted ∧ t'.graph = t.graph) ∧
    (3 < tt'.weg.length → tt.weg.length ≤ 3 → t.insert eps maxDim dm = .error .oob) := by
  have hlen : dm.length ≠ 0 := by simpa using hne
  unfold Tree.insert at hins
  unfold ITree.insert
  rw [if_neg hlen] at hins ⊢
  cases hr : t.roots with
  | nil =>
    have hrr : tt.roots = .nil := by rw [← rel.erase, hr]; rfl
    have hN : N = 0 := by simpa using hinv.nil.1 hrr
    have hweg : tt.weg = [] := hinv.empty hN
    have hd : t.store.dims = [] := by
      have := rel.dims
      rw [hweg] at this
      simpa [eraseDims] using this
    rw [hrr] at hins
    dsimp only at hins ⊢
    rw [pure_eq_ok] at hins
    cases hins
    have hs : t.store.sidx = [] := by
      have := rel.addrs
      rw [hr] at this
      have := this.length_eq
      simpa [INode.entries] using this.symm
    have hidx := rel.idx
    constructor
    · intro _
      have hv : vmodify t.store.dimCounts 0 (· + 1) = .ok (t.store.dimCounts.modify 0 (· + 1)) := by
        unfold vmodify; rw [if_pos (by rw [rel.counts]; omega)]
      rw [hv, ok_bind]
      refine ⟨_, rfl, ?_, rfl, rfl⟩
      have e1 : tt.indexCounter = N := hinv.idx
      refine ⟨?_, ?_, ?_, ?_, ?_, ?_, ?_, ?_, ?_, ?_, ?_, ?_⟩
      · simp [INode.erase, hidx, e1]
      · simp [eraseDims, hd, hweg, hidx, e1]
      · simp [rel.cnt]
      · simp [hidx]
      · simp [rel.counts]
      · simp [hd, INode.entries]
      · simp [hs, INode.entries]
      · intro x hx
        simp only [ipaths, List.nil_append, List.append_nil, List.mem_singleton] at hx
        rw [hx]
      · simp [hd, INode.tops]
      · simp [INode.tops, hidx, hN]
      · intro k e he
        simp only [INode.tops] at he
        cases k with
        | zero =>
          simp only [List.getElem?_cons_zero, Option.some.injEq] at he
          subst he
          simp [hs, hidx, hN]
        | succ k => simp at he
      · intro _ e he h2
        simp only [INode.entries, List.append_nil, List.mem_singleton] at he
        subst he
        simp at h2
    · intro h3 _
      exfalso
      simp [hweg] at h3
  | node a i w ss c sib =>
    have hrr : tt.roots = .node i w c.erase sib.erase := by rw [← rel.erase, hr]; rfl
    have hNpos : 0 < N := by
      rcases Nat.eq_zero_or_pos N with h | h
      · have := hinv.nil.2 h
        rw [hrr] at this; exact absurd this (by simp)
      · exact h
    rw [hrr] at hins
    dsimp only at hins ⊢
    have e1 : tt.indexCounter = N := hinv.idx
    have hnd : nodeDist dm (tt.rviSize + 1) tt.rvc N = fun i => at2 dm i N := by
      funext j
      unfold nodeDist
      rw [if_neg (by rw [hinv.rvc, hinv.rvi]; omega)]
    rw [e1, hnd, ← hrr] at hins
    obtain ⟨⟨r1, weg1, c1⟩, h1, hins⟩ := bind_ok.1 hins
    dsimp only at hins
    obtain ⟨weg2, h2, hins⟩ := bind_ok.1 hins
    rw [pure_eq_ok] at hins
    cases hins
    have hwl : weg2.length = weg1.length := by
      unfold vmodify at h2
      split_ifs at h2
      cases h2; simp
    have hm := recurseInsert_len _ _ _ _ _ _ _ h1
    dsimp only at hm ⊢
    rw [hwl]
    have hq : ∀ e ∈ paths [] t.roots.erase, Inc e.1 ∧ ∀ i ∈ e.1, i < N := by
      rintro ⟨q, v⟩ he
      rw [rel.erase] at he
      obtain ⟨g1, -, -⟩ := (hinv.mem q v).1 he
      exact ⟨g1.2.1, fun i hi => (g1.2.2.1 i hi).2⟩
    have hdl : t.store.dims.length = tt.weg.length := by rw [← rel.dims, eraseDims_length]
    have hpos := hinv.pos hNpos
    rw [← rel.dims, ← rel.cnt, ← rel.erase] at h1
    have hsim := recurseInsertI_sim ⟨N, fun i => at2 dm i N, eps, maxDim⟩ t.roots [] 0 t.store
      (r1, weg1, c1) hq (by rw [hdl]; simpa using hpos) h1
    rw [List.nil_append, rel.counts] at hsim
    rw [rel.idx, ← hr]
    obtain ⟨s1, s2⟩ := hsim
    constructor
    · intro hle
      obtain ⟨s', st', g1, g2, g3⟩ := s1 hle
      rw [g1, ok_bind]
      dsimp only
      cases g2
      have hv0 : vmodify st'.dims 0 (· ++ [((st'.sidx.length, [N]), (0 : W))]) =
          .ok (st'.dims.modify 0 (· ++ [((st'.sidx.length, [N]), 0)])) := by
        unfold vmodify
        rw [if_pos (by have := g3.len; omega)]
      have hvc : vmodify st'.dimCounts 0 (· + 1) = .ok (st'.dimCounts.modify 0 (· + 1)) := by
        unfold vmodify; rw [if_pos (by rw [g3.counts, rel.counts]; omega)]
      rw [hv0, ok_bind, hvc, ok_bind]
      refine ⟨_, rfl, ?_, rfl, rfl⟩
      obtain ⟨new, n1, n2, n3, n4⟩ := g3.new
      have hdpos : 0 < st'.dims.length := by have := g3.len; omega
      refine ⟨?_, ?_, ?_, rfl, ?_, ?_, ?_, ?_, ?_, ?_, ?_, ?_⟩
      · dsimp only
        rw [erase_appendRoot]
      · dsimp only
        unfold vmodify at h2
        rw [if_pos (by rw [eraseDims_length]; exact hdpos)] at h2
        cases h2
        unfold eraseDims
        cases hx : st'.dims with
        | nil => rw [hx] at hdpos; simp at hdpos
        | cons x xs => simp
      · rfl
      · simp [g3.counts, rel.counts]
      · dsimp only
        rw [entries_appendRoot]
        refine (flatten_modify_perm st'.dims _ 0 hdpos).trans (List.Perm.append_right _ ?_)
        exact (n2.trans (rel.flat.append_right _)).trans n1.symm
      · dsimp only
        rw [entries_appendRoot, List.map_append, List.length_append]
        simp only [List.map_cons, List.map_nil, List.length_singleton]
        rw [List.range_succ]
        refine List.Perm.append_right _ ?_
        refine (n1.map _).trans ?_
        rw [List.map_append, n4, n3, List.length_append, List.length_replicate]
        rw [List.range_add]
        refine (rel.addrs.append_right _).trans ?_
        rw [List.range'_eq_map_range]
      · intro x hx
        dsimp only at hx
        rw [ipaths_appendRoot, List.mem_append, List.mem_singleton] at hx
        rcases hx with hx | rfl
        · exact g3.label rel.label x hx
        · rfl
      · dsimp only
        rw [tops_appendRoot, g3.tops, ← rel.layer0]
        have := g3.layer0
        simp only [List.getD_eq_getElem?_getD]
        rw [← this]
        cases hx : st'.dims with
        | nil => rw [hx] at hdpos; simp at hdpos
        | cons x xs => simp
      · dsimp only
        rw [tops_appendRoot, g3.tops, List.map_append, rel.tops, List.range_succ, List.map_append]
        rfl
      · intro k e he
        dsimp only at he ⊢
        rw [tops_appendRoot, g3.tops] at he
        have htl : t.roots.tops.length = N := by
          have := congrArg List.length rel.tops
          simpa using this
        by_cases hk : k < t.roots.tops.length
        · rw [List.getElem?_append_left hk] at he
          have := rel.topIdx k e he
          have hlt := (List.getElem?_eq_some_iff.1 this).1
          have hlt' : e.1.1 < st'.sidx.length := by rw [n3, List.length_append]; omega
          rw [List.getElem?_append_left hlt', n3, List.getElem?_append_left hlt]
          exact this
        · rw [List.getElem?_append_right (by omega)] at he
          have hk0 : k = N := by
            by_contra hkn
            rw [List.getElem?_eq_none (by simp; omega)] at he
            exact absurd he (by simp)
          subst hk0
          rw [htl, Nat.sub_self] at he
          simp only [List.getElem?_cons_zero, Option.some.injEq] at he
          subst he
          simp
      · intro hso e he he2
        dsimp only at hso he ⊢
        rw [entries_appendRoot, List.mem_append, List.mem_singleton] at he
        rcases he with he | rfl
        · have he := n1.mem_iff.1 he
          rcases List.mem_append.1 he with he | he
          · have hlt := rel.addr_lt he
            have hlt' : e.1.1 < st'.sidx.length := by rw [n3, List.length_append]; omega
            rw [List.getElem?_append_left hlt', n3, List.getElem?_append_left hlt]
            exact rel.unset hso e he he2
          · have : e.1.1 ∈ new.map (fun e => e.1.1) := List.mem_map.2 ⟨e, he, rfl⟩
            rw [n4, List.mem_range'_1] at this
            have hlt' : e.1.1 < st'.sidx.length := by
              rw [n3, List.length_append, List.length_replicate]; omega
            rw [List.getElem?_append_left hlt', n3, List.getElem?_append_right (by omega),
              List.getElem?_replicate, if_pos (by omega)]
        · simp at he2
    · intro hgt hle3
      rw [s2 hgt (by omega)]
      rfl

end

end LHF
