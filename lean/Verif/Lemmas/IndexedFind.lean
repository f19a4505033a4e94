import Verif.Lemmas.IndexedTree

/-! Building the sorted graph of an indexed tree, and walking down the tree. -/

namespace LHF
open Spec

section
variable {W : Type}

/-! ### All layers have an element -/

theorem pushWEG_ne {weg weg' : Graph W} {e : List Nat × W} (h : pushWEG weg e = .ok weg')
    (hn : ∀ l ∈ weg, l ≠ []) : ∀ l ∈ weg', l ≠ [] := by
  unfold pushWEG at h
  by_cases hl : weg.length < e.1.length
  · rw [if_pos hl, pure_eq_ok] at h
    cases h
    intro l hl
    rcases List.mem_append.1 hl with hl | hl
    · exact hn l hl
    · rw [List.mem_singleton.1 hl]; simp
  · rw [if_neg hl] at h
    unfold vmodify at h
    split_ifs at h
    cases h
    intro l hl
    obtain ⟨k, hk, e⟩ := List.mem_iff_getElem.1 hl
    rw [List.getElem_modify] at e
    split_ifs at e
    · rw [← e]; simp
    · rw [← e]; exact hn _ (List.getElem_mem _)

variable [LinearOrder W] [Zero W]

theorem recurseInsert_ne (env : InsertEnv W) (s : Sib W) : ∀ (maxE : W) (simp : List Nat)
    (weg : Graph W) (c : Int) (r : Sib W × (Graph W × Int)),
    recurseInsert env maxE simp s (weg, c) = .ok r → (∀ l ∈ weg, l ≠ []) → ∀ l ∈ r.2.1, l ≠ [] := by
  induction s with
  | nil =>
    intro maxE simp weg c r h hn
    rw [recurseInsert, pure_eq_ok] at h
    cases h; exact hn
  | node i w child sib ihc ihs =>
    intro maxE simp weg c r h hn
    rw [recurseInsert] at h
    obtain ⟨d, -, h⟩ := bind_ok.1 h
    dsimp only at h
    by_cases hc : (if d > maxE then d else maxE) < env.maxEpsilon
    · rw [if_pos hc] at h
      obtain ⟨weg1, h1, h⟩ := bind_ok.1 h
      obtain ⟨⟨r1, weg2, c2⟩, h2, h⟩ := bind_ok.1 h
      obtain ⟨⟨r3, weg3, c3⟩, h3, h⟩ := bind_ok.1 h
      rw [pure_eq_ok] at h
      cases h
      have l1 := pushWEG_ne h1 hn
      have l2 : ∀ l ∈ weg2, l ≠ [] := by
        by_cases hd : (setInsert i simp).length ≤ env.maxDimension
        · rw [if_pos hd] at h2; exact ihc _ _ _ _ _ h2 l1
        · rw [if_neg hd, pure_eq_ok] at h2; cases h2; exact l1
      exact ihs _ _ _ _ (r3, weg3, c3) h3 l2
    · rw [if_neg hc] at h
      obtain ⟨⟨r3, weg3, c3⟩, h3, h⟩ := bind_ok.1 h
      rw [pure_eq_ok] at h
      cases h
      exact ihs _ _ _ _ (r3, weg3, c3) h3 hn

/-- Insertion does not remove layers and leaves no layer empty. -/
theorem insert_layers {eps : W} {maxDim : Nat} {dm : List (List W)} {t t' : Tree W}
    (h : t.insert eps maxDim dm = .ok t') :
    t.weg.length ≤ t'.weg.length ∧ ((∀ l ∈ t.weg, l ≠ []) → ∀ l ∈ t'.weg, l ≠ []) := by
  unfold Tree.insert at h
  by_cases hl : dm.length = 0
  · rw [if_pos hl, pure_eq_ok] at h
    cases h; exact ⟨le_rfl, fun h => h⟩
  · rw [if_neg hl] at h
    cases hr : t.roots with
    | nil =>
      rw [hr] at h
      dsimp only at h
      rw [pure_eq_ok] at h
      cases h
      refine ⟨by simp, fun hn l hl => ?_⟩
      rcases List.mem_append.1 hl with hl | hl
      · exact hn l hl
      · rw [List.mem_singleton.1 hl]; simp
    | node i w c s =>
      rw [hr] at h
      dsimp only at h
      obtain ⟨⟨r1, weg1, c1⟩, h1, h⟩ := bind_ok.1 h
      dsimp only at h
      obtain ⟨weg2, h2, h⟩ := bind_ok.1 h
      rw [pure_eq_ok] at h
      cases h
      have l1 := recurseInsert_len _ _ _ _ _ _ _ h1
      unfold vmodify at h2
      split_ifs at h2
      cases h2
      refine ⟨by simpa using l1, fun hn l hl => ?_⟩
      have l2 := recurseInsert_ne _ _ _ _ _ _ _ h1 hn
      obtain ⟨k, hk, e⟩ := List.mem_iff_getElem.1 hl
      dsimp only at e
      rw [List.getElem_modify] at e
      split_ifs at e
      · rw [← e]; simp
      · rw [← e]; exact l2 _ (List.getElem_mem _)

/-- Inserting `m` points: the indexed tree holds the same simplices as the simplex tree, unless a
fourth layer would be needed. -/
theorem insertNI_rel {D : Nat → Nat → W} {eps : W} {maxDim : Nat} (h0 : ∀ i j, 0 ≤ D i j)
    {dm : List (List W)} (m : Nat) (hne : m ≠ 0 → dm ≠ [])
    (hdm : ∀ i j, i < j → j < m → at2 dm i j = .ok (D i j)) :
    ∃ tt : Tree W, TreeInv 0 m D eps maxDim 0 tt ∧ (∀ l ∈ tt.weg, l ≠ []) ∧
      (tt.weg.length ≤ 3 → ∃ t, ITree.insertN eps maxDim dm m ITree.fresh = .ok t ∧ RelI m t tt ∧
        t.isSorted = false) ∧
      (3 < tt.weg.length → ITree.insertN eps maxDim dm m ITree.fresh = .error .oob) := by
  induction m with
  | zero =>
    refine ⟨Tree.fresh, fresh_inv D eps maxDim, by simp [Tree.fresh], ?_, ?_⟩
    · intro _; exact ⟨_, rfl, fresh_rel, rfl⟩
    · intro h; simp [Tree.fresh] at h
  | succ m ih =>
    obtain ⟨tt, h1, h2, h3, h4⟩ := ih (fun _ => hne (by omega)) (fun i j hij hj => hdm i j hij (by omega))
    obtain ⟨tt', g1, g2, -⟩ := insert_inv h0 h1 (hne (by omega))
      (fun i hi hi' => by simpa using hdm i m hi' (by omega))
    obtain ⟨l1, l2⟩ := insert_layers g1
    refine ⟨tt', g2, l2 h2, ?_, ?_⟩
    · intro hle
      obtain ⟨t, k1, k2, k3⟩ := h3 (by omega)
      obtain ⟨t', q1, q2, q3, -⟩ := (insertI_rel h1 k2 (hne (by omega)) g1).1 hle
      refine ⟨t', ?_, q2, q3.trans k3⟩
      rw [ITree.insertN, k1, ok_bind, q1]
    · intro hgt
      by_cases hw : tt.weg.length ≤ 3
      · obtain ⟨t, k1, k2, k3⟩ := h3 hw
        rw [ITree.insertN, k1, ok_bind]
        exact (insertI_rel h1 k2 (hne (by omega)) g1).2 hgt hw
      · rw [ITree.insertN, h4 (by omega)]
        rfl

omit [Zero W] [LinearOrder W] in
/-- `sortedIndex` after numbering one layer. -/
theorem setSorted_spec (l : List (IEntry W)) : ∀ (it : Nat) (sidx : List (Option Nat)),
    (∀ e ∈ l, e.1.1 < sidx.length) → (l.map (fun e => e.1.1)).Nodup →
    ∃ sidx', setSorted l it sidx = .ok sidx' ∧ sidx'.length = sidx.length ∧
      (∀ (j : Nat) (e : IEntry W), l[j]? = some e → sidx'[e.1.1]? = some (some (it + j))) ∧
      ∀ a, a ∉ l.map (fun e => e.1.1) → sidx'[a]? = sidx[a]? := by
  induction l with
  | nil => intro it sidx _ _; exact ⟨sidx, rfl, rfl, by simp, fun _ _ => rfl⟩
  | cons e l ih =>
    intro it sidx hlt hnd
    rw [List.map_cons, List.nodup_cons] at hnd
    have hv : vmodify sidx e.1.1 (fun _ => some it) = .ok (sidx.modify e.1.1 (fun _ => some it)) := by
      unfold vmodify; rw [if_pos (hlt e (by simp))]
    obtain ⟨s', h1, h2, h3, h4⟩ := ih (it + 1) (sidx.modify e.1.1 (fun _ => some it))
      (fun e' he' => by rw [List.length_modify]; exact hlt e' (by simp [he'])) hnd.2
    refine ⟨s', ?_, by rw [h2, List.length_modify], ?_, ?_⟩
    · rw [setSorted, hv, ok_bind, h1]
    · intro j e' he'
      cases j with
      | zero =>
        simp only [List.getElem?_cons_zero, Option.some.injEq] at he'
        subst he'
        rw [h4 _ hnd.1, List.getElem?_modify, List.getElem?_eq_getElem (hlt e (by simp))]
        simp
      | succ j =>
        rw [h3 j e' (by simpa using he')]
        congr 2; omega
    · intro a ha
      rw [List.map_cons, List.mem_cons, not_or] at ha
      rw [h4 a ha.2, List.getElem?_modify]
      simp [Ne.symm ha.1]

omit [Zero W] [LinearOrder W] in
/-- `sortedIndex` after numbering all layers. -/
theorem setSorted_layers (layers : List (List (IEntry W))) : ∀ (sidx : List (Option Nat)),
    (∀ e ∈ layers.flatten, e.1.1 < sidx.length) → (layers.flatten.map (fun e => e.1.1)).Nodup →
    ∃ sidx', layers.foldlM (fun sidx layer => setSorted layer 0 sidx) sidx = .ok sidx' ∧
      sidx'.length = sidx.length ∧
      (∀ l ∈ layers, ∀ (j : Nat) (e : IEntry W), l[j]? = some e → sidx'[e.1.1]? = some (some j)) ∧
      ∀ a, a ∉ layers.flatten.map (fun e => e.1.1) → sidx'[a]? = sidx[a]? := by
  induction layers with
  | nil => intro sidx _ _; exact ⟨sidx, rfl, rfl, by simp, fun _ _ => rfl⟩
  | cons l layers ih =>
    intro sidx hlt hnd
    rw [List.flatten_cons, List.map_append, List.nodup_append] at hnd
    obtain ⟨n1, n2, n3⟩ := hnd
    obtain ⟨s1, a1, a2, a3, a4⟩ := setSorted_spec l 0 sidx (fun e he => hlt e (by simp [he])) n1
    obtain ⟨s2, b1, b2, b3, b4⟩ := ih s1 (fun e he => by
      rw [a2]; exact hlt e (by rw [List.flatten_cons]; exact List.mem_append_right _ he)) n2
    refine ⟨s2, ?_, b2.trans a2, ?_, ?_⟩
    · rw [List.foldlM_cons, a1, ok_bind, b1]
    · intro l' hl' j e he
      rcases List.mem_cons.1 hl' with rfl | hl'
      · rw [b4 _ (fun hc => n3 _ (List.mem_map.2 ⟨e, List.mem_of_getElem? he, rfl⟩) _ hc rfl),
          a3 j e he, Nat.zero_add]
      · exact b3 l' hl' j e he
    · intro a ha
      rw [List.flatten_cons, List.map_append, List.mem_append, not_or] at ha
      rw [b4 a ha.2, a4 a ha.1]

/-- The graph of an unsorted tree. -/
structure IndexBuilt (sort : SortBySecond (Nat × List Nat) W) (t t' : ITree W) : Prop where
  roots : t'.roots = t.roots
  dims : t'.store.dims = t.store.dims
  counts : t'.store.dimCounts = t.store.dimCounts
  cnt : t'.store.nodeCount = t.store.nodeCount
  idx : t'.indexCounter = t.indexCounter
  sorted : t'.isSorted = true
  graph : t'.graph = t.store.dims.take 1 ++ (t.store.dims.drop 1).map sort.run
  len : t'.store.sidx.length = t.store.sidx.length
  topIdx : ∀ (k : Nat) (e : IEntry W), t'.roots.tops[k]? = some e →
    t'.store.sidx[e.1.1]? = some (some k)
  pos : ∀ l ∈ t'.graph.drop 1, ∀ (j : Nat) (e : IEntry W), l[j]? = some e →
    t'.store.sidx[e.1.1]? = some (some j)

omit [Zero W] in
theorem flatten_sort_perm (sort : SortBySecond (Nat × List Nat) W) (ls : List (List (IEntry W))) :
    (ls.map sort.run).flatten.Perm ls.flatten := by
  induction ls with
  | nil => exact List.Perm.refl _
  | cons l ls ih => exact (sort.perm l).append ih

theorem getIndexEdges_built {N : Nat} {t : ITree W} {tt : Tree W} (rel : RelI N t tt)
    (hs : t.isSorted = false) (hd : t.store.dims ≠ []) (sort : SortBySecond (Nat × List Nat) W) :
    ∃ t', t.getIndexEdges sort = .ok (t'.graph, t') ∧ IndexBuilt sort t t' := by
  unfold ITree.getIndexEdges
  rw [if_neg (by simpa using hd), hs]
  simp only [Bool.false_eq_true, if_false]
  unfold ITree.sortAndBuildGraph
  cases hdims : t.store.dims with
  | nil => exact absurd hdims hd
  | cons points layers =>
    dsimp only
    have hflat := rel.flat
    rw [hdims, List.flatten_cons] at hflat
    have hnd : ((points ++ layers.flatten).map (fun e => e.1.1)).Nodup := by
      rw [(hflat.map _).nodup_iff, rel.addrs.nodup_iff]
      exact List.nodup_range
    have hperm := flatten_sort_perm sort layers
    rw [List.map_append, List.nodup_append] at hnd
    obtain ⟨sidx', h1, h2, h3, h4⟩ := setSorted_layers (layers.map sort.run) t.store.sidx
      (fun e he => rel.addr_lt (hflat.mem_iff.1 (List.mem_append_right _ (hperm.mem_iff.1 he))))
      (by rw [(hperm.map _).nodup_iff]; exact hnd.2.1)
    rw [h1]
    refine ⟨{ t with store := { t.store with sidx := sidx' }, graph := points :: layers.map sort.run, isSorted := true }, rfl,
      ⟨rfl, rfl, rfl, rfl, rfl, rfl, by simp [hdims], h2, ?_, ?_⟩⟩
    · intro k e he
      have := rel.layer0
      rw [hdims, List.getD_cons_zero] at this
      dsimp only at he ⊢
      rw [h4, rel.topIdx k e he]
      rw [(hperm.map _).mem_iff]
      intro hc
      refine hnd.2.2 e.1.1 (List.mem_map.2 ⟨e, ?_, rfl⟩) e.1.1 hc rfl
      rw [this]
      exact List.mem_of_getElem? he
    · intro l hl j e he
      exact h3 l (by simpa using hl) j e he

/-! ### Walking down the tree -/

omit [LinearOrder W] [Zero W] in
theorem prefix_of_mem_ipaths {p : List Nat} {s : INode W} {x : List Nat × IEntry W}
    (h : x ∈ ipaths p s) : p <+: x.1 ∧ p.length < x.1.length :=
  prefix_of_mem_paths (e := (x.1, x.2.2)) (mem_paths_of_ipaths h)

omit [LinearOrder W] [Zero W] in
/-- With a path, its first step is there. -/
theorem ipaths_first {s : INode W} : ∀ {p : List Nat} {x : List Nat × IEntry W} {i : Nat}
    {rest : List Nat}, x ∈ ipaths p s → x.1 = p ++ i :: rest → p ++ [i] ∈ (ipaths p s).map Prod.fst := by
  induction s with
  | nil => intro p x i rest h; simp [ipaths] at h
  | node a j w ss c sib ihc ihs =>
    intro p x i rest h e
    rw [ipaths] at h ⊢
    simp only [List.mem_cons, List.mem_append, List.map_cons, List.map_append] at h ⊢
    rcases h with rfl | h | h
    · left
      simp only [List.append_cancel_left_eq, List.cons.injEq] at e
      rw [e.1]
    · left
      obtain ⟨⟨r, hr⟩, -⟩ := prefix_of_mem_ipaths h
      rw [e] at hr
      simp only [List.append_assoc, List.append_cancel_left_eq, List.singleton_append,
        List.cons.injEq] at hr
      rw [hr.1]
    · exact Or.inr (Or.inr (ihs h e))

omit [LinearOrder W] [Zero W] in
/-- Searching a sibling list for the next vertex of a stored path. -/
theorem scan_found {s : INode W} : ∀ {p : List Nat} {x : List Nat × IEntry W} {i : Nat}
    {rest : List Nat}, ((ipaths p s).map Prod.fst).Nodup → x ∈ ipaths p s → x.1 = p ++ i :: rest →
    ∃ a w ss c sib, s.scan i = .node a i w ss c sib ∧
      (rest = [] → x.2 = ((a, ss), w)) ∧ (rest ≠ [] → x ∈ ipaths (p ++ [i]) c) ∧
      ((ipaths (p ++ [i]) c).map Prod.fst).Nodup ∧
      (∀ y ∈ ipaths (p ++ [i]) c, y ∈ ipaths p s) ∧
      (∀ y ∈ ipaths p s, p ++ [i] <+: y.1 → y.1 ≠ p ++ [i] → y ∈ ipaths (p ++ [i]) c) := by
  induction s with
  | nil => intro p x i rest _ h; simp [ipaths] at h
  | node b j w ss c sib ihc ihs =>
    intro p x i rest hnd h e
    have hnd' := hnd
    rw [ipaths] at h hnd
    simp only [List.map_cons, List.map_append, List.nodup_cons, List.nodup_append, List.mem_append,
      not_or] at hnd
    obtain ⟨⟨n1, n2⟩, n3, n4, n5⟩ := hnd
    simp only [List.mem_cons, List.mem_append] at h
    have hself : ∀ (hij : j = i), (rest = [] → x.2 = ((b, ss), w)) →
        (rest ≠ [] → x ∈ ipaths (p ++ [i]) c) →
        ∃ a w' ss' c' sib', (INode.node b j w ss c sib).scan i = .node a i w' ss' c' sib' ∧
          (rest = [] → x.2 = ((a, ss'), w')) ∧ (rest ≠ [] → x ∈ ipaths (p ++ [i]) c') ∧
          ((ipaths (p ++ [i]) c').map Prod.fst).Nodup ∧
          (∀ y ∈ ipaths (p ++ [i]) c', y ∈ ipaths p (.node b j w ss c sib)) ∧
          (∀ y ∈ ipaths p (.node b j w ss c sib), p ++ [i] <+: y.1 → y.1 ≠ p ++ [i] →
            y ∈ ipaths (p ++ [i]) c') := by
      intro hij h1 h2
      subst hij
      refine ⟨b, w, ss, c, sib, by simp [INode.scan], h1, h2, n3, ?_, ?_⟩
      · intro y hy; rw [ipaths]; simp [hy]
      · intro y hy hp hne
        rw [ipaths] at hy
        simp only [List.mem_cons, List.mem_append] at hy
        rcases hy with rfl | hy | hy
        · exact absurd rfl hne
        · exact hy
        · exfalso
          obtain ⟨r, hr⟩ := hp
          exact n2 (ipaths_first (rest := r) hy (by rw [← hr]; simp))
    rcases h with rfl | h | h
    · simp only [List.append_cancel_left_eq, List.cons.injEq] at e
      exact hself e.1 (fun _ => rfl) (fun hr => absurd e.2.symm hr)
    · obtain ⟨⟨r, hr⟩, hl⟩ := prefix_of_mem_ipaths h
      rw [e] at hr hl
      simp only [List.append_assoc, List.append_cancel_left_eq, List.singleton_append,
        List.cons.injEq] at hr
      obtain ⟨rfl, rfl⟩ := hr
      refine hself rfl (fun hr => ?_) (fun _ => h)
      rw [hr] at hl; simp at hl
    · have hij : j ≠ i := by
        rintro rfl
        exact n2 (ipaths_first h e)
      obtain ⟨a, w', ss', c', sib', g1, g2, g3, g4, g5, g6⟩ := ihs n4 h e
      refine ⟨a, w', ss', c', sib', ?_, g2, g3, g4, ?_, ?_⟩
      · rw [INode.scan, if_pos hij, g1]
      · intro y hy; rw [ipaths]; simp [g5 y hy]
      · intro y hy hp hne
        rw [ipaths] at hy
        simp only [List.mem_cons, List.mem_append] at hy
        obtain ⟨r, hr⟩ := hp
        rcases hy with rfl | hy | hy
        · exfalso
          simp only [List.append_assoc, List.append_cancel_left_eq, List.singleton_append,
            List.cons.injEq] at hr
          exact hij hr.1.symm
        · exfalso
          obtain ⟨⟨r', hr'⟩, -⟩ := prefix_of_mem_ipaths hy
          rw [← hr] at hr'
          simp only [List.append_assoc, List.append_cancel_left_eq, List.singleton_append,
            List.cons.injEq] at hr'
          exact hij hr'.1
        · exact g6 y hy ⟨r, hr⟩ hne

omit [LinearOrder W] [Zero W] in
/-- Searching a sibling list for a vertex that is not there. -/
theorem scan_missing {s : INode W} : ∀ {p : List Nat} {i : Nat},
    p ++ [i] ∉ (ipaths p s).map Prod.fst → s.scan i = .nil := by
  induction s with
  | nil => intro p i _; rfl
  | node b j w ss c sib ihc ihs =>
    intro p i h
    rw [ipaths] at h
    simp only [List.map_cons, List.map_append, List.mem_cons, List.mem_append, not_or] at h
    have hij : j ≠ i := by
      rintro rfl; exact h.1 rfl
    rw [INode.scan, if_pos hij]
    exact ihs h.2.2

omit [LinearOrder W] [Zero W] in
theorem ipaths_nonempty {p : List Nat} {s : INode W} {y : List Nat × IEntry W} (h : y ∈ ipaths p s) :
    s ≠ .nil := by
  rintro rfl; simp [ipaths] at h

omit [LinearOrder W] [Zero W] in
/-- The way of a stored path. -/
theorem walk_found (rest : List Nat) : ∀ {p : List Nat} {s : INode W} {i : Nat}
    {x : List Nat × IEntry W}, ((ipaths p s).map Prod.fst).Nodup → x ∈ ipaths p s →
    x.1 = p ++ i :: rest → ∃ j c sib, rest.foldlM findStepI (s.scan i) =
        .ok (.node x.2.1.1 j x.2.2 x.2.1.2 c sib) ∧
      (∀ y ∈ ipaths x.1 c, y ∈ ipaths p s) ∧
      (∀ y ∈ ipaths p s, x.1 <+: y.1 → y.1 ≠ x.1 → y ∈ ipaths x.1 c) := by
  induction rest with
  | nil =>
    intro p s i x hnd hx e
    obtain ⟨a, w, ss, c, sib, h1, h2, -, -, h5, h6⟩ := scan_found hnd hx e
    refine ⟨i, c, sib, ?_, ?_, ?_⟩
    · rw [List.foldlM_nil, h1, pure_eq_ok, h2 rfl]
    · rw [e]; exact h5
    · rw [e]; exact h6
  | cons r rest ih =>
    intro p s i x hnd hx e
    obtain ⟨a, w, ss, c, sib, h1, -, h3, h4, h5, h6⟩ := scan_found hnd hx e
    have hxc := h3 (by simp)
    have hcn := ipaths_nonempty hxc
    have hstep : findStepI (INode.node a i w ss c sib) r = .ok (c.scan r) := by
      cases c with
      | nil => exact absurd rfl hcn
      | node => rfl
    obtain ⟨j, c', sib', g1, g2, g3⟩ := ih (p := p ++ [i]) (s := c) (i := r) h4 hxc (by rw [e]; simp)
    refine ⟨j, c', sib', ?_, fun y hy => h5 y (g2 y hy), ?_⟩
    · rw [List.foldlM_cons, h1, hstep, ok_bind, g1]
    · intro y hy hp hne
      have hp2 : p ++ [i] <+: x.1 := ⟨r :: rest, by rw [e]; simp⟩
      refine g3 y (h6 y hy (hp2.trans hp) ?_) hp hne
      intro hc
      have := hp.length_le
      rw [hc, e] at this
      simp at this

omit [LinearOrder W] [Zero W] in
/-- Steps that find no child stay where they are. -/
theorem walk_stuck (rest : List Nat) {a i : Nat} {w : W} {ss : List Nat} {sib : INode W} :
    rest.foldlM findStepI (.node a i w ss .nil sib) = .ok (.node a i w ss .nil sib) := by
  induction rest with
  | nil => rfl
  | cons r rest ih =>
    rw [List.foldlM_cons]
    change (Except.ok _ >>= _ : Res (INode W)) = _
    rw [ok_bind, ih]

omit [LinearOrder W] [Zero W] in
theorem walk_null (rest : List Nat) :
    rest.foldlM findStepI (.nil : INode W) = if rest = [] then .ok .nil else .error .null := by
  cases rest with
  | nil => rfl
  | cons r rest => rfl

omit [LinearOrder W] [Zero W] in
theorem deref_none {s : INode W} {x : Nat} (h : x ∉ s.entries.map (fun e => e.1.1)) :
    s.deref x = .nil := by
  induction s with
  | nil => rfl
  | node a i w ss c sib ihc ihs =>
    simp only [INode.entries, List.map_cons, List.map_append, List.mem_cons, List.mem_append,
      not_or] at h
    rw [INode.deref, if_neg (Ne.symm h.1), ihc h.2.1, ihs h.2.2]

omit [LinearOrder W] [Zero W] in
/-- The pointers kept for the points lead to the nodes a search for their indices finds. -/
theorem deref_top {p : List Nat} {s : INode W} {e : IEntry W}
    (ha : (s.entries.map (fun e => e.1.1)).Nodup) (hn : ((ipaths p s).map Prod.fst).Nodup)
    (he : e ∈ s.tops) : ∃ i, (p ++ [i], e) ∈ ipaths p s ∧ s.deref e.1.1 = s.scan i := by
  induction s with
  | nil => simp [INode.tops] at he
  | node a j w ss c sib ihc ihs =>
    rw [ipaths] at hn
    simp only [INode.entries, List.map_cons, List.map_append, List.nodup_cons, List.nodup_append,
      List.mem_append, not_or] at ha hn
    obtain ⟨⟨a1, a2⟩, a3, a4, a5⟩ := ha
    obtain ⟨⟨n1, n2⟩, n3, n4, n5⟩ := hn
    simp only [INode.tops, List.mem_cons] at he
    rcases he with rfl | he
    · refine ⟨j, by simp [ipaths], ?_⟩
      simp [INode.deref, INode.scan]
    · obtain ⟨i, h1, h2⟩ := ihs a4 n4 he
      have hm : e.1.1 ∈ sib.entries.map (fun e => e.1.1) :=
        List.mem_map.2 ⟨e, tops_subset sib e he, rfl⟩
      have hae : a ≠ e.1.1 := by rintro rfl; exact a2 hm
      have hij : j ≠ i := by
        rintro rfl
        exact n2 (List.mem_map.2 ⟨_, h1, rfl⟩)
      refine ⟨i, by rw [ipaths]; simp [h1], ?_⟩
      rw [INode.deref, if_neg hae, deref_none (fun hc => a5 _ hc _ hm rfl), INode.scan, if_pos hij, h2]

end

end LHF
