import Verif.Lemmas.IndexedCollapse
import Verif.Props.IndexedTree
import Verif.Props.SideFiles
import Verif.Props.Reduced
import Verif.Spec.Collapse

/-! C112, C113: the option `collapse` with the complex type `indSimplexTree`. -/

namespace LHF
open Spec

/-- Insert `n` points into a fresh indexed tree, collapse it and ask for all simplices; the last component holds
the nodes that were deleted. -/
def Spec.collapseIndexed {W : Type} [LinearOrder W] [Zero W] (big eps : W) (maxDim : Nat) (dm : List (List W))
    (sort : SortBySecond (Nat × List Nat) W) (n : Nat) : Res (Graph W × ITree W × List Nat) := do
  let t ← ITree.insertN eps maxDim dm n ITree.fresh
  let r ← t.reduceComplex big maxDim
  let q ← r.1.getAllEdges sort
  pure (q.1, q.2, r.2)

section
variable {W : Type} [LinearOrder W] [Zero W]

theorem rel_sized {n : Nat} {D : Nat → Nat → W} {eps : W} {maxDim : Nat} {t : ITree W} {tt : Tree W}
    (inv : TreeInv 0 n D eps maxDim 0 tt) (rel : RelI n t tt) : WellSized t.store.dims := by
  intro d layer hl e he
  have h1 : tt.weg[d]? = some (layer.map (fun e => (e.1.2, e.2))) := by
    rw [← rel.dims, eraseDims, List.getElem?_map, hl]
    rfl
  obtain ⟨h2, h3, -, -⟩ := (inv_layer inv d e.1.2 e.2).1 ⟨_, h1, List.mem_map.2 ⟨e, he, rfl⟩⟩
  exact ⟨(simpR_zero.1 h3).2.1, h2⟩

omit [Zero W] in
theorem coreduction_forM (graph : List (List (IEntry W))) (gs : List (List (IEntry W))) :
    (gs.forM (fun a => a.forM (fun b => do
      let _ ← iCoreduction graph 1 [b]
      pure ⟨⟩)) : Res PUnit) = .ok ⟨⟩ := by
  have inner : ∀ l : List (IEntry W), (l.forM (fun b => do
      let _ ← iCoreduction graph 1 [b]
      pure ⟨⟩) : Res PUnit) = .ok ⟨⟩ := by
    intro l
    induction l with
    | nil => rfl
    | cons b l ih => exact ih
  induction gs with
  | nil => rfl
  | cons a l ih =>
    show ((a.forM (fun b => do
      let _ ← iCoreduction graph 1 [b]
      pure ⟨⟩) : Res PUnit) >>= fun _ => l.forM _) = _
    rw [inner, ok_bind]
    exact ih

/-- The collapse of a tree that insertions have built. -/
structure CollapsedI (t t' : ITree W) (freed : List Nat) : Prop where
  roots : t'.roots = t.roots
  sidx : t'.store.sidx = t.store.sidx
  sorted : t'.isSorted = t.isSorted
  graph : t'.graph = t.graph
  erased : Erased ⟨t.store.dims, t.store.nodeCount, []⟩ ⟨t'.store.dims, t'.store.nodeCount, freed⟩

theorem reduce_run {n : Nat} {D : Nat → Nat → W} {eps : W} {maxDim : Nat} {t : ITree W} {tt : Tree W}
    (big : W) (inv : TreeInv 0 n D eps maxDim 0 tt) (rel : RelI n t tt) (hn : n ≠ 0) :
    ∃ t' freed, t.reduceComplex big maxDim = .ok (t', freed) ∧ CollapsedI t t' freed ∧
      (maxDim < 2 → t' = t) ∧
      (2 ≤ maxDim → 3 ≤ t.store.dims.length → ∀ layer, t.store.dims[t.store.dims.length - 1]? = some layer →
        layer ≠ [] → ∃ layer', t'.store.dims[t.store.dims.length - 1]? = some layer' ∧
          layer'.length < layer.length) := by
  unfold ITree.reduceComplex
  by_cases h2 : maxDim < 2
  · rw [if_pos h2]
    exact ⟨t, [], rfl, ⟨rfl, rfl, rfl, rfl, Erased.refl _⟩, fun _ => rfl, fun h => absurd h (by omega)⟩
  · rw [if_neg h2]
    have hd := rel_dims_ne inv rel hn
    have hlen : 0 < t.store.dims.length := List.length_pos_of_ne_nil hd
    have hp : ∃ p ps, t.store.dims[0]? = some (p :: ps) := by
      obtain ⟨a, l, hal⟩ := List.exists_cons_of_ne_nil hd
      have h0 := rel.layer0
      have ht := rel.tops
      rw [hal, List.getD_cons_zero] at h0
      rw [← h0] at ht
      have : a ≠ [] := by
        rintro rfl
        have := congrArg List.length ht
        simp at this
        omega
      obtain ⟨p, ps, rfl⟩ := List.exists_cons_of_ne_nil this
      exact ⟨p, ps, by rw [hal]; rfl⟩
    obtain ⟨s, h3, h4, -, h5⟩ := iReduceLoop_ok (big := big) (t.store.dims.length - 1)
      ⟨t.store.dims, t.store.nodeCount, []⟩ hp (rel_sized inv rel) (by dsimp only; omega)
    rw [h3, ok_bind, coreduction_forM, ok_bind]
    exact ⟨_, _, rfl, ⟨rfl, rfl, rfl, rfl, h4⟩, fun h => absurd h h2, fun _ h6 => h5 (by omega)⟩

/-- The query after the collapse. -/
theorem collapsed_query {n : Nat} {D : Nat → Nat → W} {eps : W} {maxDim : Nat} {t t' : ITree W} {tt : Tree W}
    {freed : List Nat} (inv : TreeInv 0 n D eps maxDim 0 tt) (rel : RelI n t tt) (hn : n ≠ 0)
    (hs : t.isSorted = false) (c : CollapsedI t t' freed) (sort : SortBySecond (Nat × List Nat) W) :
    ∃ t'', t'.getAllEdges sort = .ok (shown t''.graph, t'') ∧
      t''.graph = t'.store.dims.take 1 ++ (t'.store.dims.drop 1).map sort.run ∧
      t''.store.nodeCount = t'.store.nodeCount ∧ t''.store.dims = t'.store.dims ∧ t''.roots = t'.roots := by
  have hd := rel_dims_ne inv rel hn
  have hd' : t'.store.dims ≠ [] := by
    intro hc
    have := c.erased.length
    rw [hc] at this
    exact hd (List.length_eq_zero_iff.1 this.symm)
  obtain ⟨de, dr, hperm, -, -⟩ := c.erased.gone
  have hsub : t'.store.dims.flatten.Subperm t.store.dims.flatten :=
    ((List.sublist_append_left _ _).subperm).trans hperm.symm.subperm
  have hnd : (t'.store.dims.flatten.map (fun e => e.1.1)).Nodup := by
    have h1 : (t.store.dims.flatten.map (fun e => e.1.1)).Nodup := by
      rw [(rel.flat.map _).nodup_iff, rel.addrs.nodup_iff]
      exact List.nodup_range
    have h2 := (hperm.map (fun e => e.1.1)).nodup_iff.1 h1
    rw [List.map_append, List.nodup_append] at h2
    exact h2.1
  have hlt : ∀ e ∈ t'.store.dims.flatten, e.1.1 < t'.store.sidx.length := by
    intro e he
    rw [c.sidx]
    exact rel.addr_lt (rel.flat.mem_iff.1 (hsub.subset he))
  obtain ⟨points, layers, hal⟩ := List.exists_cons_of_ne_nil hd'
  rw [hal, List.flatten_cons] at hnd hlt
  have hp := flatten_sort_perm sort layers
  obtain ⟨sidx', h1, -⟩ := setSorted_layers (layers.map sort.run) t'.store.sidx
    (fun e he => hlt e (List.mem_append_right _ (hp.mem_iff.1 he)))
    (by rw [(hp.map _).nodup_iff]; rw [List.map_append, List.nodup_append] at hnd; exact hnd.2.1)
  refine ⟨{ t' with store := { t'.store with sidx := sidx' }, graph := points :: layers.map sort.run, isSorted := true },
    ?_, by simp [hal], rfl, rfl, rfl⟩
  unfold ITree.getAllEdges ITree.getIndexEdges
  rw [if_neg (by simpa using hd'), c.sorted, hs]
  simp only [Bool.false_eq_true, if_false]
  unfold ITree.sortAndBuildGraph
  rw [hal]
  dsimp only
  rw [h1, ← hal]
  rfl

theorem subperm_map {α β : Type} (f : α → β) {l l' : List α} (h : l.Subperm l') : (l.map f).Subperm (l'.map f) := by
  obtain ⟨m, h1, h2⟩ := h
  exact ⟨m.map f, h1.map f, h2.map f⟩

omit [Zero W] in
theorem shown_getElem? (dims : List (List (IEntry W))) (sort : SortBySecond (Nat × List Nat) W) (k : Nat) :
    (shown (dims.take 1 ++ (dims.drop 1).map sort.run))[k]? =
      (dims[k]?).map (fun l => ((if k = 0 then l else sort.run l).map (fun e => (e.1.2, e.2)))) := by
  unfold shown
  cases dims with
  | nil => simp
  | cons a l => cases k with
    | zero => simp
    | succ k => simp [Function.comp_def]

omit [Zero W] in
theorem shown_sum (dims : List (List (IEntry W))) (sort : SortBySecond (Nat × List Nat) W) :
    ((shown (dims.take 1 ++ (dims.drop 1).map sort.run)).map List.length).sum = dims.flatten.length := by
  have e2 : ((shown (dims.take 1 ++ (dims.drop 1).map sort.run)).map List.length).sum =
      (dims.take 1 ++ (dims.drop 1).map sort.run).flatten.length := by
    unfold shown
    rw [List.map_map, List.length_flatten]
    congr 1
    apply List.map_congr_left
    intro l _
    simp
  rw [e2, List.flatten_append, List.length_append, (flatten_sort_perm sort _).length_eq, ← List.length_append,
    ← List.flatten_append, List.take_append_drop]

/-- C112 (partial): if the complex has at most triangles, the collapse of an `indSimplexTree` ends without
undefined behaviour and only erases. The query afterwards has as many layers as before; all points stay, in
their order; each layer is a part of the layer before, with the weights it had, in the order of weight; both
counts are the number of simplices that stayed. If `maxDim < 2` nothing is erased; otherwise, if there is a
triangle, at least one triangle is erased. -/
theorem C112_collapse_erases_partial (big eps : W) (maxDim : Nat) (dm : List (List W)) (d : Nat → Nat → W)
    (h0 : ∀ i j, 0 ≤ d i j) (sort : SortBySecond (Nat × List Nat) W) (n : Nat) (hn : n ≠ 0)
    (hne : dm ≠ []) (hdm : ∀ i j, i < j → j < n → at2 dm i j = .ok (d i j))
    (hsmall : maxDim ≤ 2 ∨ ¬ ∃ s, IsSimplex n (fun i j => d i j < eps) s ∧ s.length = 4) :
    ∃ g t g' t' freed, buildIndexed eps maxDim dm sort n = .ok (g, t) ∧
      collapseIndexed big eps maxDim dm sort n = .ok (g', t', freed) ∧
      g'.length = g.length ∧ g'[0]? = some ((List.range n).map (fun v => ([v], 0))) ∧
      (∀ (k : Nat) (layer' : List (List Nat × W)), g'[k]? = some layer' → ∃ layer, g[k]? = some layer ∧ layer'.Subperm layer) ∧
      (∀ layer ∈ g', layer.Pairwise (fun a b => a.2 ≤ b.2)) ∧
      t'.simplexCount = (g'.map List.length).sum ∧ t'.vertexCount = (g'.map List.length).sum ∧
      (maxDim < 2 → g' = g) ∧
      (2 ≤ maxDim → ∀ triangles, g[2]? = some triangles →
        ∃ triangles', g'[2]? = some triangles' ∧ triangles'.length < triangles.length) := by
  obtain ⟨tt, i1, i2, i3, -⟩ := insertNI_rel (D := d) (eps := eps) (maxDim := maxDim) h0 n (fun _ => hne) hdm
  have hle : tt.weg.length ≤ 3 := by
    by_contra hc
    obtain ⟨q1, q2⟩ := (four_layers i1 i2).1 (by omega)
    rcases hsmall with h | h
    · omega
    · exact h q2
  obtain ⟨t, k1, rel, k3⟩ := i3 hle
  obtain ⟨u, g1, b⟩ := getIndexEdges_built rel k3 (rel_dims_ne i1 rel hn) sort
  obtain ⟨t', freed, r1, c, r2, r3⟩ := reduce_run big i1 rel hn
  obtain ⟨t'', e1, e2, e3, e4, -⟩ := collapsed_query i1 rel hn k3 c sort
  have hg : ∀ k, (shown u.graph)[k]? = (t.store.dims[k]?).map
      (fun l => ((if k = 0 then l else sort.run l).map (fun e => (e.1.2, e.2)))) := by
    intro k; rw [b.graph]; exact shown_getElem? _ _ _
  have hg' : ∀ k, (shown t''.graph)[k]? = (t'.store.dims[k]?).map
      (fun l => ((if k = 0 then l else sort.run l).map (fun e => (e.1.2, e.2)))) := by
    intro k; rw [e2]; exact shown_getElem? _ _ _
  have hbuild : buildIndexed eps maxDim dm sort n = .ok (shown u.graph, u) := by
    unfold buildIndexed ITree.getAllEdges
    rw [k1, ok_bind, g1, ok_bind]
    rfl
  obtain ⟨g0, t0, z1, -, z2, -⟩ := C76_indexed_is_rips_partial eps maxDim dm d h0 sort n hn hne hdm hsmall
  rw [hbuild] at z1
  cases z1
  have hpts : (shown t''.graph)[0]? = (shown u.graph)[0]? := by
    rw [hg, hg', c.erased.points]
  have hlens : t'.store.dims.length = t.store.dims.length := c.erased.length
  have hcount : t''.store.nodeCount = ((shown t''.graph).map List.length).sum := by
    obtain ⟨de, dr, p1, -, p2⟩ := c.erased.gone
    have p2 : t'.store.nodeCount = t.store.nodeCount - ((de ++ dr).length : Int) := p2
    rw [e2, shown_sum, e3, p2, rel.cnt, i1.count, zero_add]
    have q1 : (paths [] tt.roots).length = t.store.dims.flatten.length := by
      rw [← rel.erase, paths_erase, List.length_map, ← List.length_map (f := Prod.snd), ipaths_snd,
        rel.flat.length_eq]
    have p1 : t.store.dims.flatten.Perm (t'.store.dims.flatten ++ (de ++ dr)) := p1
    have q2 := p1.length_eq
    rw [List.length_append] at q2
    rw [q1]
    omega
  refine ⟨shown u.graph, u, shown t''.graph, t'', freed, hbuild, ?_, ?_, hpts.trans z2, ?_, ?_, hcount, hcount,
    ?_, ?_⟩
  · unfold collapseIndexed
    rw [k1, ok_bind, r1, ok_bind, e1]
    rfl
  · rw [e2, b.graph]
    simp only [shown, List.length_map, List.length_append, List.length_take, List.length_drop, hlens]
  · intro k layer' hl
    rw [hg'] at hl
    obtain ⟨m', hm', rfl⟩ := Option.map_eq_some_iff.1 hl
    obtain ⟨m, hm, hsub⟩ := c.erased.layers k m' hm'
    have hm : t.store.dims[k]? = some m := hm
    refine ⟨_, by rw [hg, hm]; rfl, ?_⟩
    apply subperm_map
    by_cases hk : k = 0
    · rw [if_pos hk, if_pos hk]; exact hsub.subperm
    · rw [if_neg hk, if_neg hk]
      exact (sort.perm m').subperm.trans (hsub.subperm.trans (sort.perm m).symm.subperm)
  · intro layer hl
    obtain ⟨k, hk⟩ := List.mem_iff_getElem?.1 hl
    by_cases hk0 : k = 0
    · subst hk0
      rw [hpts, z2] at hk
      cases hk
      rw [List.pairwise_map]
      exact List.pairwise_of_forall (fun _ _ => le_refl _)
    · rw [hg'] at hk
      obtain ⟨m', -, rfl⟩ := Option.map_eq_some_iff.1 hk
      rw [if_neg hk0, List.pairwise_map]
      exact sort.sorted m'
  · intro hd
    rw [r2 hd] at e2
    rw [e2, b.graph]
  · intro hd triangles ht
    rw [hg] at ht
    obtain ⟨m, hm, rfl⟩ := Option.map_eq_some_iff.1 ht
    have hdl : t.store.dims.length = tt.weg.length := by rw [← rel.dims, eraseDims_length]
    have hlt := (List.getElem?_eq_some_iff.1 hm).1
    have h3 : t.store.dims.length - 1 = 2 := by omega
    have hmne : m ≠ [] := by
      rintro rfl
      refine i2 [] ?_ rfl
      rw [← rel.dims]
      exact List.mem_map.2 ⟨[], List.mem_of_getElem? hm, rfl⟩
    have := r3 hd (by omega)
    rw [h3] at this
    obtain ⟨m', s1, s2⟩ := this m hm hmne
    refine ⟨_, by rw [hg', s1]; rfl, ?_⟩
    dsimp only
    rw [if_neg (by omega), if_neg (by omega), List.length_map, List.length_map, (sort.perm m').length_eq,
      (sort.perm m).length_eq]
    exact s2

/-- C112 (partial): no node is deleted twice, and none that the tree still lists is deleted. -/
theorem C112_deleted_once_partial (big eps : W) (maxDim : Nat) (dm : List (List W)) (d : Nat → Nat → W)
    (h0 : ∀ i j, 0 ≤ d i j) (sort : SortBySecond (Nat × List Nat) W) (n : Nat) (hn : n ≠ 0)
    (hne : dm ≠ []) (hdm : ∀ i j, i < j → j < n → at2 dm i j = .ok (d i j))
    {g' : Graph W} {t' : ITree W} {freed : List Nat}
    (hrun : collapseIndexed big eps maxDim dm sort n = .ok (g', t', freed)) :
    freed.Nodup ∧ (∀ layer ∈ t'.store.dims, ∀ e ∈ layer, e.1.1 ∉ freed) ∧
      ∀ a ∈ freed, ∃ e ∈ t'.roots.entries, e.1.1 = a := by
  obtain ⟨tt, i1, i2, i3, i4⟩ := insertNI_rel (D := d) (eps := eps) (maxDim := maxDim) h0 n (fun _ => hne) hdm
  have hle : tt.weg.length ≤ 3 := by
    by_contra hc
    unfold collapseIndexed at hrun
    rw [i4 (by omega)] at hrun
    cases hrun
  obtain ⟨t, k1, rel, k3⟩ := i3 hle
  obtain ⟨t1, fr, r1, c, -, -⟩ := reduce_run big i1 rel hn
  obtain ⟨t'', e1, e2, e3, e4, e5⟩ := collapsed_query i1 rel hn k3 c sort
  unfold collapseIndexed at hrun
  rw [k1, ok_bind, r1, ok_bind] at hrun
  dsimp only at hrun
  rw [e1, ok_bind] at hrun
  cases hrun
  obtain ⟨de, dr, p1, p2, -⟩ := c.erased.gone
  have p1 : t.store.dims.flatten.Perm (t1.store.dims.flatten ++ (de ++ dr)) := p1
  have p2 : freed = [] ++ de.map (fun e => e.1.1) := p2
  rw [List.nil_append] at p2
  have h1 : (t.store.dims.flatten.map (fun e => e.1.1)).Nodup := by
    rw [(rel.flat.map _).nodup_iff, rel.addrs.nodup_iff]
    exact List.nodup_range
  have h2 := (p1.map (fun e => e.1.1)).nodup_iff.1 h1
  rw [List.map_append, List.map_append, List.nodup_append, List.nodup_append] at h2
  subst p2
  refine ⟨h2.2.1.1, fun layer hl e he hf => ?_, fun a ha => ?_⟩
  · rw [e4] at hl
    exact h2.2.2 e.1.1 (List.mem_map.2 ⟨e, List.mem_flatten.2 ⟨layer, hl, he⟩, rfl⟩) e.1.1
      (List.mem_append_left _ hf) rfl
  · obtain ⟨e, he, rfl⟩ := List.mem_map.1 ha
    refine ⟨e, ?_, rfl⟩
    rw [e5, c.roots]
    exact rel.flat.mem_iff.1 (p1.mem_iff.2 (by simp [he]))

/-! ### Three points -/

/-- `dimensions` for three points at the distances `a` (01), `b` (12) and `c` (02). -/
def tripleDims (a b c : W) : List (List (IEntry W)) :=
  [[((0, [0]), 0), ((2, [1]), 0), ((6, [2]), 0)], [((1, [0, 1]), a), ((3, [0, 2]), c), ((5, [1, 2]), b)],
    [((4, [0, 1, 2]), c)]]

/-- The tree for three points. -/
def tripleTree (a b c : W) : ITree W :=
  ⟨.node 0 0 0 [0] (.node 3 2 c [0, 2] .nil (.node 1 1 a [0, 1] (.node 4 2 c [0, 1, 2] .nil .nil) .nil))
      (.node 2 1 0 [1] (.node 5 2 b [1, 2] .nil .nil) (.node 6 2 0 [2] .nil .nil)),
    ⟨tripleDims a b c, [9, 18, 21], [some 0, none, some 1, none, none, none, some 2], 7⟩, 3, false, []⟩

theorem triple_built {a b c eps : W} {dm : List (List W)} (ha : 0 < a) (hab : a < b) (hbc : b < c) (hce : c < eps)
    (hne : dm ≠ []) (h01 : at2 dm 0 1 = .ok a) (h12 : at2 dm 1 2 = .ok b) (h02 : at2 dm 0 2 = .ok c) :
    ITree.insertN eps 2 dm 3 ITree.fresh = .ok (tripleTree a b c) := by
  have hb : 0 < b := ha.trans hab
  have hc : 0 < c := hb.trans hbc
  have hbe := hbc.trans hce
  have hae := hab.trans hbe
  have hac := hab.trans hbc
  have hl : dm.length ≠ 0 := by simpa using hne
  simp [ITree.insertN, ITree.insert, ITree.fresh, recurseInsertI, vmodify, pushDims, setInsert, appendRootI, hl,
    h01, h12, h02, hce, hbe, hae, hac, ok_bind, pure_eq_ok, ha, hb, hc, hbc.not_gt, tripleTree, tripleDims]

omit [LinearOrder W] in
theorem triple_weights (a b c big : W) : ITree.getWeight big (tripleDims a b c) [0, 1] = .ok a ∧
    ITree.getWeight big (tripleDims a b c) [0, 2] = .ok c ∧ ITree.getWeight big (tripleDims a b c) [1, 2] = .ok b :=
  ⟨rfl, rfl, rfl⟩

theorem triple_removals {a b c big : W} (hab : a < b) (hbc : b < c) :
    iRecurseReduce big (tripleDims a b c) 2 3 [0, 1, 2] ⟨[], []⟩ = .ok ⟨[[0, 1, 2]], [[1, 2], [0, 1, 2]]⟩ := by
  obtain ⟨g1, g2, g3⟩ := triple_weights a b c big
  have e1 : getSubsetsDim [0, 1, 2] ((2 : Nat) : Int) = [[0, 1], [0, 2], [1, 2]] := by decide
  have e2 : iLocal [((4, [0, 1, 2]), c)] ⟨[[0, 1, 2]], []⟩ [[0, 1], [0, 2], [1, 2]] = [] := by
    simp [iLocal, iSharedWith]
  rw [iRecurseReduce]
  dsimp only
  rw [show vget (tripleDims a b c) 2 = .ok [((4, [0, 1, 2]), c)] from rfl, ok_bind, e1, List.nil_append, e2,
    if_neg (by simp)]
  simp [iChoose, g1, g2, g3, ok_bind, pure_eq_ok, hab, hab.trans hbc, hbc.not_gt]

/-- The tree for three points after the collapse. -/
def tripleCollapsed (a b c : W) : ITree W :=
  { tripleTree a b c with store := ⟨[[((0, [0]), 0), ((2, [1]), 0), ((6, [2]), 0)],
      [((1, [0, 1]), a), ((3, [0, 2]), c)], []], [9, 18, 21],
      [some 0, none, some 1, none, none, none, some 2], 5⟩ }

theorem triple_collapse {a b c big : W} (hab : a < b) (hbc : b < c) :
    (tripleTree a b c).reduceComplex big 2 = .ok (tripleCollapsed a b c, [5]) := by
  unfold ITree.reduceComplex
  rw [if_neg (by omega)]
  have h1 : iReduceLoop big 2 ⟨tripleDims a b c, 7, []⟩ = .ok ⟨(tripleCollapsed a b c).store.dims, 5, [5]⟩ := by
    show (iReduceDim big 2 ⟨tripleDims a b c, 7, []⟩ >>= fun s => pure s) = _
    unfold iReduceDim
    dsimp only
    rw [show vget (tripleDims a b c) 2 = .ok [((4, [0, 1, 2]), c)] from rfl, ok_bind]
    have h2 : iReduceTurn big (tripleDims a b c) 2 3 ⟨[], []⟩ ((4, [0, 1, 2]), c) =
        .ok ⟨[[0, 1, 2]], [[1, 2], [0, 1, 2]]⟩ := by
      unfold iReduceTurn
      rw [if_pos (by simp)]
      exact triple_removals hab hbc
    show ((([((4, [0, 1, 2]), c)] : List (IEntry W)).foldlM (iReduceTurn big (tripleDims a b c) 2 3) ⟨[], []⟩ >>=
      fun st => st.removals.foldlM (iRemove 2) ⟨tripleDims a b c, 7, []⟩) >>= fun s => pure s) = _
    rw [List.foldlM_cons, h2, ok_bind]
    rfl
  show (iReduceLoop big 2 ⟨tripleDims a b c, 7, []⟩ >>= _) = _
  rw [h1]
  rfl

theorem linked_respects {edges : List (List Nat × W)} {t : W} (f : Nat → Prop)
    (h : ∀ a b w, w ≤ t → ([a, b], w) ∈ edges → (f a ↔ f b)) {x y : Nat} (hl : Linked edges t x y) : f x ↔ f y := by
  induction hl with
  | rel a b hab => obtain ⟨w, h1, h2⟩ := hab; exact h a b w h1 h2
  | refl => exact Iff.rfl
  | symm _ _ _ ih => exact ih.symm
  | trans _ _ _ _ _ ih1 ih2 => exact ih1.trans ih2

/-- C112, violated: three points at the distances 0 < `d01` < `d12` < `d02` < `eps`. The collapse deletes the node of
the edge {1, 2}, and the tree still has a pointer to it (every later walk through the children of the point 1
reads it). -/
theorem C112_dangling_violated (big eps a b c : W) (dm : List (List W)) (ha : 0 < a) (hab : a < b) (hbc : b < c)
    (hce : c < eps) (hne : dm ≠ []) (h01 : at2 dm 0 1 = .ok a) (h12 : at2 dm 1 2 = .ok b)
    (h02 : at2 dm 0 2 = .ok c) (sort : SortBySecond (Nat × List Nat) W) :
    ∃ g t x, collapseIndexed big eps 2 dm sort 3 = .ok (g, t, [x]) ∧ ((x, [1, 2]), b) ∈ t.roots.entries := by
  unfold collapseIndexed
  rw [triple_built ha hab hbc hce hne h01 h12 h02, ok_bind, triple_collapse hab hbc, ok_bind]
  have h : ∃ q, (tripleCollapsed a b c).getAllEdges sort = .ok q ∧ q.2.roots = (tripleTree a b c).roots := by
    have hd : (tripleCollapsed a b c).store.dims.length ≠ 0 := by simp [tripleCollapsed]
    have hs : (tripleCollapsed a b c).isSorted = false := rfl
    have hp : (sort.run [((1, [0, 1]), a), ((3, [0, 2]), c)]) = [((1, [0, 1]), a), ((3, [0, 2]), c)] := by
      have h1 := sort.perm [((1, [0, 1]), a), ((3, [0, 2]), c)]
      have h2 := sort.sorted [((1, [0, 1]), a), ((3, [0, 2]), c)]
      have h3 : ([((1, [0, 1]), a), ((3, [0, 2]), c)] : List (IEntry W)).Pairwise (fun x y => x.2 ≤ y.2) := by
        simpa using (hab.trans hbc).le
      refine h1.eq_of_pairwise ?_ h2 h3
      intro x y hx hy hxy hyx
      have hx := h1.mem_iff.1 hx
      simp only [List.mem_cons, List.not_mem_nil, or_false] at hx hy
      have hac := (hab.trans hbc).not_ge
      rcases hx with rfl | rfl <;> rcases hy with rfl | rfl
      · rfl
      · exact absurd hyx hac
      · exact absurd hxy hac
      · rfl
    have hp0 : sort.run [] = [] := (sort.perm []).eq_nil
    unfold ITree.getAllEdges ITree.getIndexEdges
    rw [if_neg hd, hs]
    simp only [Bool.false_eq_true, if_false]
    unfold ITree.sortAndBuildGraph
    have hdd : (tripleCollapsed a b c).store.dims = [((0, [0]), 0), ((2, [1]), 0), ((6, [2]), 0)] ::
      [[((1, [0, 1]), a), ((3, [0, 2]), c)], []] := rfl
    rw [hdd]
    dsimp only
    rw [List.map_cons, List.map_cons, List.map_nil, hp, hp0]
    exact ⟨_, rfl, rfl⟩
  obtain ⟨q, h1, h2⟩ := h
  dsimp only
  rw [h1, ok_bind]
  refine ⟨q.1, q.2, 5, rfl, ?_⟩
  rw [h2]
  simp [tripleTree, INode.entries]

/-- C113, violated: the collapse does not keep the connected components. For three points at the distances
0 < `d01` < `d12` < `d02` < `eps` the points 1 and 2 are joined at scale `d12`, but not after the collapse. -/
theorem C113_components_violated (big eps a b c : W) (dm : List (List W)) (ha : 0 < a) (hab : a < b) (hbc : b < c)
    (hce : c < eps) (hne : dm ≠ []) (h01 : at2 dm 0 1 = .ok a) (h12 : at2 dm 1 2 = .ok b)
    (h02 : at2 dm 0 2 = .ok c) (sort : SortBySecond (Nat × List Nat) W) :
    ∃ g t g' t' freed edges edges', buildIndexed eps 2 dm sort 3 = .ok (g, t) ∧
      collapseIndexed big eps 2 dm sort 3 = .ok (g', t', freed) ∧ g[1]? = some edges ∧ g'[1]? = some edges' ∧
      Linked edges b 1 2 ∧ ¬ Linked edges' b 1 2 := by
  have h0 : ∀ i j, 0 ≤ (fun i j => if i = 0 ∧ j = 1 then a else if i = 1 ∧ j = 2 then b else if i = 0 ∧ j = 2 then c
      else 0 : Nat → Nat → W) i j := by
    intro i j
    dsimp only
    have hb := (ha.trans hab).le
    have hc := ((ha.trans hab).trans hbc).le
    split
    · exact ha.le
    · split
      · exact hb
      · split
        · exact hc
        · exact le_refl _
  have hdm : ∀ i j, i < j → j < 3 → at2 dm i j = .ok ((fun i j => if i = 0 ∧ j = 1 then a else
      if i = 1 ∧ j = 2 then b else if i = 0 ∧ j = 2 then c else 0 : Nat → Nat → W) i j) := by
    intro i j hij hj
    have : (i = 0 ∧ j = 1) ∨ (i = 1 ∧ j = 2) ∨ (i = 0 ∧ j = 2) := by omega
    rcases this with ⟨rfl, rfl⟩ | ⟨rfl, rfl⟩ | ⟨rfl, rfl⟩
    · simpa using h01
    · simpa using h12
    · simpa using h02
  obtain ⟨tt, i1, i2, i3, i4⟩ := insertNI_rel (D := fun i j => if i = 0 ∧ j = 1 then a else
    if i = 1 ∧ j = 2 then b else if i = 0 ∧ j = 2 then c else 0) (eps := eps) (maxDim := 2) h0 3 (fun _ => hne) hdm
  have hbuilt := triple_built ha hab hbc hce hne h01 h12 h02
  have hle : tt.weg.length ≤ 3 := by
    by_contra hc
    rw [hbuilt] at i4
    have := i4 (by omega)
    cases this
  obtain ⟨t, k1, rel, k3⟩ := i3 hle
  rw [hbuilt] at k1
  cases k1
  obtain ⟨u, g1, b1⟩ := getIndexEdges_built rel k3 (rel_dims_ne i1 rel (by omega)) sort
  have hcol := triple_collapse (big := big) hab hbc
  obtain ⟨t', freed, r1, cc, -, -⟩ := reduce_run big i1 rel (by omega)
  rw [hcol] at r1
  cases r1
  obtain ⟨t'', e1, e2, -, -, -⟩ := collapsed_query i1 rel (by omega) k3 cc sort
  refine ⟨shown u.graph, u, shown t''.graph, t'', [5], _, _, ?_, ?_, by rw [b1.graph, shown_getElem?]; rfl,
    by rw [e2, shown_getElem?]; rfl, ?_, ?_⟩
  · unfold buildIndexed ITree.getAllEdges
    rw [hbuilt, ok_bind, g1, ok_bind]
    rfl
  · unfold collapseIndexed
    rw [hbuilt, ok_bind, hcol, ok_bind, e1]
    rfl
  · refine .rel _ _ ⟨b, le_refl _, ?_⟩
    exact List.mem_map.2 ⟨((5, [1, 2]), b), (sort.perm _).mem_iff.2 (by simp), rfl⟩
  · intro hl
    have := (linked_respects (fun v => v = 2) (fun x y w hw hm => ?_) hl).2 rfl
    · omega
    · obtain ⟨e, he, hee⟩ := List.mem_map.1 hm
      have he : e ∈ ([((1, [0, 1]), a), ((3, [0, 2]), c)] : List (IEntry W)) := (sort.perm _).mem_iff.1 he
      simp only [List.mem_cons, List.not_mem_nil, or_false] at he
      rcases he with rfl | rfl
      · simp only [Prod.mk.injEq, List.cons.injEq] at hee
        omega
      · simp only [Prod.mk.injEq] at hee
        exact absurd hw (by rw [← hee.2]; exact hbc.not_ge)

/-- A query before the collapse hides it: the graph of the first query is kept, so the query after the collapse
returns the complex as it was before. -/
theorem C113_earlier_query_hides (big : W) (maxDim : Nat) (t t' : ITree W) (freed : List Nat)
    (hs : t.isSorted = true) (hrun : t.reduceComplex big maxDim = .ok (t', freed))
    (hne : t.store.dims ≠ []) (hne' : t'.store.dims ≠ []) (sort : SortBySecond (Nat × List Nat) W) :
    (t'.getAllEdges sort).map Prod.fst = (t.getAllEdges sort).map Prod.fst := by
  have h : t'.isSorted = t.isSorted ∧ t'.graph = t.graph := by
    unfold ITree.reduceComplex at hrun
    by_cases h2 : maxDim < 2
    · rw [if_pos h2] at hrun
      cases hrun
      exact ⟨rfl, rfl⟩
    · rw [if_neg h2, bind_ok] at hrun
      obtain ⟨s, -, hrun⟩ := hrun
      rw [bind_ok] at hrun
      obtain ⟨_, -, hrun⟩ := hrun
      cases hrun
      exact ⟨rfl, rfl⟩
  unfold ITree.getAllEdges ITree.getIndexEdges
  have e1 : ¬ t'.store.dims.length = 0 := by simpa using hne'
  have e2 : ¬ t.store.dims.length = 0 := by simpa using hne
  rw [if_neg e1, if_neg e2, h.1, hs, h.2]
  rfl

end

/-! ### Points on a line -/

/-- The distances of points on a line. -/
def Spec.lineMatrix (xs : List Int) : List (List Int) := xs.map (fun x => xs.map (fun y => |x - y|))

/-- C113, violated: the collapse does not leave a complex. For the points 0, 1, 3, 7 the triangle {0, 1, 2} stays
and its side {0, 1} goes. -/
theorem C113_not_closed_violated :
    ((collapseIndexed (10000 : Int) 1000 2 (lineMatrix [0, 1, 3, 7]) (SortBySecond.insertion _ _) 4).map Prod.fst)
      = .ok [[([0], 0), ([1], 0), ([2], 0), ([3], 0)], [([1, 2], 2), ([0, 2], 3), ([1, 3], 6)],
        [([0, 1, 2], 3)]] := by
  decide +kernel

/-- C113, violated: the collapse can tear a complex apart. For the points 0, 1, 3, 7, 15, of which any two are
joined by an edge, the points 0 and 2 are not joined at any scale after the collapse. -/
theorem C113_disconnected_violated :
    ∃ g t g' t' freed edges edges',
      buildIndexed (1000 : Int) 2 (lineMatrix [0, 1, 3, 7, 15]) (SortBySecond.insertion _ _) 5 = .ok (g, t) ∧
      collapseIndexed (10000 : Int) 1000 2 (lineMatrix [0, 1, 3, 7, 15]) (SortBySecond.insertion _ _) 5 =
        .ok (g', t', freed) ∧ g[1]? = some edges ∧ g'[1]? = some edges' ∧
      Linked edges 3 0 2 ∧ ∀ scale, ¬ Linked edges' scale 0 2 := by
  have h1 : (buildIndexed (1000 : Int) 2 (lineMatrix [0, 1, 3, 7, 15]) (SortBySecond.insertion _ _) 5).map
      (fun r => r.1[1]?) = .ok (some [([0, 1], 1), ([1, 2], 2), ([0, 2], 3), ([2, 3], 4), ([1, 3], 6), ([0, 3], 7),
        ([3, 4], 8), ([2, 4], 12), ([1, 4], 14), ([0, 4], 15)]) := by decide +kernel
  have h2 : (collapseIndexed (10000 : Int) 1000 2 (lineMatrix [0, 1, 3, 7, 15]) (SortBySecond.insertion _ _) 5).map
      (fun r => r.1[1]?) = .ok (some [([1, 3], 6), ([0, 3], 7), ([2, 4], 12)]) := by decide +kernel
  cases e1 : buildIndexed (1000 : Int) 2 (lineMatrix [0, 1, 3, 7, 15]) (SortBySecond.insertion _ _) 5 with
  | error e => rw [e1] at h1; cases h1
  | ok r =>
    cases e2 : collapseIndexed (10000 : Int) 1000 2 (lineMatrix [0, 1, 3, 7, 15]) (SortBySecond.insertion _ _) 5 with
    | error e => rw [e2] at h2; cases h2
    | ok r' =>
      rw [e1] at h1
      rw [e2] at h2
      refine ⟨r.1, r.2, r'.1, r'.2.1, r'.2.2, _, _, rfl, rfl, Except.ok.inj h1, Except.ok.inj h2, ?_, ?_⟩
      · exact .rel _ _ ⟨3, le_refl _, by simp⟩
      · intro scale hl
        have := (linked_respects (fun v => v = 2 ∨ v = 4) (fun x y w hw hm => ?_) hl).2 (.inl rfl)
        · omega
        · simp only [List.mem_cons, Prod.mk.injEq, List.cons.injEq, List.not_mem_nil, or_false] at hm
          omega

/-- A system for points on a line, with `dimensions` and `debug` read from the command line. -/
def Spec.collapseSystem (text : String) : System Int Int :=
  { lineSystem [] [] text with
    atoi := fun s => if s = "2" then 2 else if s = "1" then 1 else 0
    lib := { (lineSystem [] [] "").lib with mode := .libstdcxx } }

/-- C113, violated, for the whole program: the points 0, 1, 3. Without collapse the components merge at 1 and 2, with
collapse at 1 and 3. -/
theorem C113_program_violated :
    let sys := collapseSystem "00\n01\n03"
    (mainProgram sys ["-c", "indSimplexTree", "-d", "2"]).toOption.map (fun w => barcodeFiles "output.csv" w) =
      some [.text (barcodeText sys.io [(0, 0, 1), (0, 0, 2), (0, 0, 500)])] ∧
    (mainProgram sys ["-c", "indSimplexTree", "-d", "2", "-z", "true"]).toOption.map
        (fun w => barcodeFiles "output.csv" w) =
      some [.text (barcodeText sys.io [(0, 0, 1), (0, 0, 3), (0, 0, 500)])] := by
  decide +kernel

/-- What surrounds the program in the next theorem: nothing is shown, sizes are 1. -/
def Spec.quietSurround : Surround Int Int :=
  ⟨fun _ => [], fun _ => [], fun _ => [], fun _ _ => [], fun _ _ => [], fun _ _ => [], 1, 1, 1, fun _ _ => []⟩

/-- C102, violated: the option `debug` changes the barcode if `collapse` is on and the complex is an
`indSimplexTree`: the file of the neighbourhood graph queries the tree, and the collapse has no effect any more. -/
theorem C102_debug_collapse_violated :
    let sys := collapseSystem "00\n01\n03"
    (mainEffects sys quietSurround ["-c", "indSimplexTree", "-d", "2", "-z", "true", "-x", "0"]).toOption.map
        (fun r => barcodeFiles "output.csv" r.1) =
      some [.text (barcodeText sys.io [(0, 0, 1), (0, 0, 3), (0, 0, 500)])] ∧
    (mainEffects sys quietSurround ["-c", "indSimplexTree", "-d", "2", "-z", "true", "-x", "1"]).toOption.map
        (fun r => barcodeFiles "output.csv" r.1) =
      some [.text (barcodeText sys.io [(0, 0, 1), (0, 0, 2), (0, 0, 500)])] := by
  decide +kernel

/-! ### The hypotheses are met -/

example : (0 : Int) < 1 ∧ (1 : Int) < 2 ∧ (2 : Int) < 3 ∧ (3 : Int) < 500 ∧ lineMatrix [0, 1, 3] ≠ [] ∧
    at2 (lineMatrix [0, 1, 3]) 0 1 = .ok 1 ∧ at2 (lineMatrix [0, 1, 3]) 1 2 = .ok 2 ∧
    at2 (lineMatrix [0, 1, 3]) 0 2 = .ok 3 := by
  decide

/-- C112 for the five points, which have ten triangles: two stay. -/
example : (collapseIndexed (10000 : Int) 1000 2 (lineMatrix [0, 1, 3, 7, 15]) (SortBySecond.insertion _ _) 5).map
    (fun r => (r.1[2]?, r.2.1.simplexCount, r.2.2.length)) =
      .ok (some [([0, 1, 2], 3), ([0, 1, 3], 7)], 10, 7) := by decide +kernel

example : (∀ i j, (0 : Int) ≤ |([0, 1, 3, 7, 15] : List Int).getD i 0 - [0, 1, 3, 7, 15].getD j 0|) ∧
    ∀ i j, i < j → j < 5 → at2 (lineMatrix [0, 1, 3, 7, 15]) i j =
      .ok |([0, 1, 3, 7, 15] : List Int).getD i 0 - [0, 1, 3, 7, 15].getD j 0| := by
  refine ⟨fun _ _ => abs_nonneg _, ?_⟩
  intro i j hij hj
  interval_cases j <;> interval_cases i <;> rfl

end LHF
