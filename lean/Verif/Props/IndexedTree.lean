import Verif.Lemmas.IndexedFind
import Verif.Props.TreeComplex

/-! C76–C80: `indSimplexTree`. -/

namespace LHF
open Spec

/-- Insert `n` points into a fresh indexed tree and ask for all simplices. -/
def Spec.buildIndexed {W : Type} [LinearOrder W] [Zero W] (eps : W) (maxDim : Nat) (dm : List (List W))
    (sort : SortBySecond (Nat × List Nat) W) (n : Nat) : Res (Graph W × ITree W) := do
  let t ← ITree.insertN eps maxDim dm n ITree.fresh
  t.getAllEdges sort

/-- Run a history of insertions and queries on an indexed tree. -/
def Spec.runIndexed {W : Type} [LinearOrder W] [Zero W] (eps : W) (maxDim : Nat) (dm : List (List W))
    (sort : SortBySecond (Nat × List Nat) W) : List TreeOp → ITree W → Res (ITree W)
  | [], t => pure t
  | .insert :: ops, t => do
    let t ← t.insert eps maxDim dm
    runIndexed eps maxDim dm sort ops t
  | .query :: ops, t => do
    let (_, t) ← t.getAllEdges sort
    runIndexed eps maxDim dm sort ops t

section
variable {W : Type} [LinearOrder W] [Zero W]

/-- A fourth layer appears exactly when there are four points close to each other and the complex may
hold simplices with four vertices. -/
theorem four_layers {n : Nat} {D : Nat → Nat → W} {eps : W} {maxDim : Nat} {tt : Tree W}
    (h : TreeInv 0 n D eps maxDim 0 tt) (hne : ∀ l ∈ tt.weg, l ≠ []) :
    3 < tt.weg.length ↔ 3 ≤ maxDim ∧ ∃ s, IsSimplex n (fun i j => D i j < eps) s ∧ s.length = 4 := by
  constructor
  · intro hl
    have hlen := h.len
    refine ⟨by omega, ?_⟩
    have e : tt.weg[3]? = some tt.weg[3] := List.getElem?_eq_getElem hl
    obtain ⟨⟨s, w⟩, hs⟩ := List.exists_mem_of_ne_nil _ (hne _ (List.getElem_mem hl))
    obtain ⟨h1, h2, -, -⟩ := (inv_layer h 3 s w).1 ⟨_, e, hs⟩
    exact ⟨s, simpR_zero.1 h2, h1⟩
  · rintro ⟨h3, s, h1, h2⟩
    obtain ⟨layer, hl, -⟩ := (inv_layer h 3 s (diam D s)).2
      ⟨h2, simpR_zero.2 h1, by omega, rfl⟩
    exact (List.getElem?_eq_some_iff.1 hl).1

theorem rel_dims_ne {n : Nat} {D : Nat → Nat → W} {eps : W} {maxDim : Nat} {t : ITree W} {tt : Tree W}
    (h : TreeInv 0 n D eps maxDim 0 tt) (rel : RelI n t tt) (hn : n ≠ 0) : t.store.dims ≠ [] := by
  intro hc
  have := h.pos (by omega)
  rw [← rel.dims, hc] at this
  simp [eraseDims] at this

/-- The state after the insertions and one query. -/
structure Queried (n : Nat) (D : Nat → Nat → W) (eps : W) (maxDim : Nat)
    (sort : SortBySecond (Nat × List Nat) W) (t t' : ITree W) (tt : Tree W) : Prop where
  inv : TreeInv 0 n D eps maxDim 0 tt
  rel : RelI n t tt
  built : IndexBuilt sort t t'

theorem indexed_run {D : Nat → Nat → W} {eps : W} {maxDim : Nat} (h0 : ∀ i j, 0 ≤ D i j)
    {dm : List (List W)} (n : Nat) (hn : n ≠ 0) (hne : dm ≠ [])
    (hdm : ∀ i j, i < j → j < n → at2 dm i j = .ok (D i j))
    (sort : SortBySecond (Nat × List Nat) W)
    (hsmall : maxDim ≤ 2 ∨ ¬ ∃ s, IsSimplex n (fun i j => D i j < eps) s ∧ s.length = 4) :
    ∃ t t' tt, ITree.insertN eps maxDim dm n ITree.fresh = .ok t ∧
      t.getIndexEdges sort = .ok (t'.graph, t') ∧ Queried n D eps maxDim sort t t' tt := by
  obtain ⟨tt, h1, h2, h3, -⟩ := insertNI_rel (D := D) (eps := eps) (maxDim := maxDim) h0 n
    (fun _ => hne) hdm
  have hle : tt.weg.length ≤ 3 := by
    by_contra hc
    obtain ⟨q1, q2⟩ := (four_layers h1 h2).1 (by omega)
    rcases hsmall with h | h
    · omega
    · exact h q2
  obtain ⟨t, k1, k2, k3⟩ := h3 hle
  obtain ⟨t', g1, g2⟩ := getIndexEdges_built k2 k3 (rel_dims_ne h1 k2 hn) sort
  exact ⟨t, t', tt, k1, g1, h1, k2, g2⟩

/-- What a query returns. -/
def shown (g : List (List (IEntry W))) : Graph W := g.map (fun layer => layer.map (fun e => (e.1.2, e.2)))

theorem shown_graph {n : Nat} {D : Nat → Nat → W} {eps : W} {maxDim : Nat}
    {sort : SortBySecond (Nat × List Nat) W} {t t' : ITree W} {tt : Tree W}
    (q : Queried n D eps maxDim sort t t' tt) (k : Nat) :
    ((shown t'.graph).getD k []).Perm (tt.weg.getD k []) ∧
      ((shown t'.graph)[k]? = none ↔ tt.weg[k]? = none) := by
  rw [q.built.graph, ← q.rel.dims]
  unfold shown eraseDims
  cases t.store.dims with
  | nil => simp
  | cons a l =>
    cases k with
    | zero => simp
    | succ k =>
      simp only [List.take_succ_cons, List.take_zero, List.drop_succ_cons, List.drop_zero,
        List.singleton_append, List.map_cons, List.getD_eq_getElem?_getD, List.getElem?_cons_succ,
        List.getElem?_map]
      cases l[k]? with
      | none => simp
      | some x =>
        simp only [Option.map_some, Option.getD_some]
        exact ⟨(sort.perm x).map _, by simp⟩

theorem shown_stores {n : Nat} {D : Nat → Nat → W} {eps : W} {maxDim : Nat}
    {sort : SortBySecond (Nat × List Nat) W} {t t' : ITree W} {tt : Tree W}
    (q : Queried n D eps maxDim sort t t' tt) :
    StoresRips (shown t'.graph) n D (fun i j => D i j < eps) (max 1 maxDim) := by
  have hst := inv_stores q.inv
  have hmem : ∀ (g : Graph W) (k : Nat) (x : List Nat × W),
      (∃ layer, g[k]? = some layer ∧ x ∈ layer) ↔ x ∈ g.getD k [] := by
    intro g k x
    rw [List.getD_eq_getElem?_getD]
    cases g[k]? <;> simp
  refine ⟨?_, ?_, ?_⟩
  · intro k s w hk
    rw [hmem, (shown_graph q k).1.mem_iff, ← hmem]
    exact hst.exact k s w hk
  · intro layer hl
    obtain ⟨k, hk, e⟩ := List.mem_iff_getElem.1 hl
    have hp := (shown_graph q k).1
    rw [List.getD_eq_getElem?_getD, List.getElem?_eq_getElem hk, Option.getD_some, e] at hp
    rw [(hp.map Prod.fst).nodup_iff, List.getD_eq_getElem?_getD]
    cases hk2 : tt.weg[k]? with
    | none => simp
    | some x => exact hst.once x (List.mem_of_getElem? hk2)
  · have h2 := (shown_graph q tt.weg.length).2.2 (by simp)
    have := List.getElem?_eq_none_iff.1 h2
    exact this.trans hst.only

/-! ### C76 -/

/-- C76 (partial): if the complex has at most triangles (`maxDim ≤ 2`, or no four points are close to
each other), then after `n` insertions the query returns exactly the simplices of the clique complex of
the pairs at distance `< eps` with at most `max 1 maxDim + 1` vertices, each once, with its diameter; the
points come in the order of insertion and the other layers in the order of their weights. For four
points close to each other and `maxDim ≥ 3` see `C76_four_points_violated`. -/
theorem C76_indexed_is_rips_partial (eps : W) (maxDim : Nat) (dm : List (List W)) (d : Nat → Nat → W)
    (h0 : ∀ i j, 0 ≤ d i j) (sort : SortBySecond (Nat × List Nat) W) (n : Nat) (hn : n ≠ 0)
    (hne : dm ≠ []) (hdm : ∀ i j, i < j → j < n → at2 dm i j = .ok (d i j))
    (hsmall : maxDim ≤ 2 ∨ ¬ ∃ s, IsSimplex n (fun i j => d i j < eps) s ∧ s.length = 4) :
    ∃ g t, buildIndexed eps maxDim dm sort n = .ok (g, t) ∧
      StoresRips g n d (fun i j => d i j < eps) (max 1 maxDim) ∧
      g[0]? = some ((List.range n).map (fun v => ([v], 0))) ∧
      ∀ layer ∈ g, layer.Pairwise (fun a b => a.2 ≤ b.2) := by
  obtain ⟨t, t', tt, h1, h2, q⟩ := indexed_run h0 n hn hne hdm sort hsmall
  have hd := rel_dims_ne q.inv q.rel hn
  have hst := shown_stores q
  refine ⟨shown t'.graph, t', ?_, hst, ?_, ?_⟩
  · unfold buildIndexed ITree.getAllEdges
    rw [h1, ok_bind, h2, ok_bind]
    rfl
  · obtain ⟨a, l, hal⟩ := List.exists_cons_of_ne_nil hd
    have hlab := q.rel.tops
    have hl0 := q.rel.layer0
    rw [hal, List.getD_cons_zero] at hl0
    have hg : (shown t'.graph)[0]? = some (a.map (fun e => (e.1.2, e.2))) := by
      unfold shown
      rw [q.built.graph, hal]; simp
    rw [hg]
    congr 1
    apply List.ext_getElem?
    intro k
    have hk := congrArg (fun l => l[k]?) hlab
    simp only [List.getElem?_map] at hk ⊢
    rw [← hl0] at hk
    cases ha : a[k]? with
    | none =>
      rw [ha] at hk
      cases hr : (List.range n)[k]? with
      | none => rfl
      | some x => rw [hr] at hk; simp at hk
    | some e =>
      rw [ha] at hk
      cases hr : (List.range n)[k]? with
      | none => rw [hr] at hk; simp at hk
      | some x =>
        rw [hr] at hk
        simp only [Option.map_some, Option.some.injEq] at hk
        have : (e.1.2, e.2) ∈ a.map (fun e => (e.1.2, e.2)) :=
          List.mem_map.2 ⟨e, List.mem_of_getElem? ha, rfl⟩
        have := ((hst.exact 0 e.1.2 e.2 (by omega)).1 ⟨_, hg, this⟩).2.2
        rw [hk, diam_singleton] at this
        simp [hk, this]
  · intro layer hl
    unfold shown at hl
    obtain ⟨l, hl2, rfl⟩ := List.mem_map.1 hl
    clear hl
    rw [q.built.graph] at hl2
    rw [List.pairwise_map]
    rcases List.mem_append.1 hl2 with hl | hl
    · -- the points
      obtain ⟨a, l', hal⟩ := List.exists_cons_of_ne_nil hd
      rw [hal] at hl
      simp only [List.take_succ_cons, List.take_zero, List.mem_singleton] at hl
      subst hl
      have hzero : ∀ e ∈ l, e.2 = 0 := by
        intro e he
        have hg : (shown t'.graph)[0]? = some (l.map (fun e => (e.1.2, e.2))) := by
          unfold shown
          rw [q.built.graph, hal]; simp
        have h := (hst.exact 0 e.1.2 e.2 (by omega)).1 ⟨_, hg, List.mem_map.2 ⟨e, he, rfl⟩⟩
        obtain ⟨v, hv⟩ := List.length_eq_one_iff.1 h.1
        rw [h.2.2, hv, diam_singleton]
      refine List.Pairwise.imp_of_mem ?_ (List.pairwise_of_forall (fun _ _ => trivial) :
        l.Pairwise (fun _ _ => True))
      intro x y hx hy _
      rw [hzero x hx, hzero y hy]
    · obtain ⟨l0, -, rfl⟩ := List.mem_map.1 hl
      exact sort.sorted l0

/-- C76 is violated for `maxDim ≥ 3`: as soon as four of the points are close to each other, inserting
them writes past the end of the table of counts, which has three entries. -/
theorem C76_four_points_violated (eps : W) (maxDim : Nat) (dm : List (List W)) (d : Nat → Nat → W)
    (h0 : ∀ i j, 0 ≤ d i j) (n : Nat) (hne : dm ≠ [])
    (hdm : ∀ i j, i < j → j < n → at2 dm i j = .ok (d i j)) (hdim : 3 ≤ maxDim)
    (h4 : ∃ s, IsSimplex n (fun i j => d i j < eps) s ∧ s.length = 4) :
    ITree.insertN eps maxDim dm n ITree.fresh = .error .oob := by
  obtain ⟨tt, h1, h2, -, h3⟩ := insertNI_rel (D := d) (eps := eps) (maxDim := maxDim) h0 n
    (fun _ => hne) hdm
  exact h3 ((four_layers h1 h2).2 ⟨hdim, h4⟩)

/-- C76: a query of an empty tree returns nothing. -/
theorem C76_empty (eps : W) (maxDim : Nat) (dm : List (List W))
    (sort : SortBySecond (Nat × List Nat) W) :
    buildIndexed eps maxDim dm sort 0 = .ok ([], ITree.fresh) := rfl

/-! ### C77 -/

omit [LinearOrder W] [Zero W] in
theorem pushDims_len {dims dims' : List (List (IEntry W))} {m : Nat} {e : IEntry W}
    (h : pushDims dims m e = .ok dims') : dims.length ≤ dims'.length := by
  unfold pushDims at h
  by_cases hm : m = dims.length
  · rw [if_pos hm, pure_eq_ok] at h; cases h; simp
  · rw [if_neg hm] at h
    unfold vmodify at h
    split_ifs at h
    cases h; simp

theorem insert_keeps_graph {eps : W} {maxDim : Nat} {dm : List (List W)} {t t' : ITree W}
    (h : t.insert eps maxDim dm = .ok t') :
    t'.graph = t.graph ∧ t'.isSorted = t.isSorted ∧
      (t.store.dims.length ≠ 0 → t'.store.dims.length ≠ 0) := by
  have hmono : ∀ (env : InsertEnv W) (s : INode W) (maxE : W) (simp : List Nat) (st : IStore W)
      (r : INode W × IStore W), recurseInsertI env maxE simp s st = .ok r →
      st.dims.length ≤ r.2.dims.length := by
    intro env s
    induction s with
    | nil =>
      intro maxE simp st r h
      rw [recurseInsertI, pure_eq_ok] at h
      cases h; exact le_rfl
    | node a i w ss c sib ihc ihs =>
      intro maxE simp st r h
      rw [recurseInsertI] at h
      obtain ⟨d, -, h⟩ := bind_ok.1 h
      dsimp only at h
      by_cases hc : (if d > maxE then d else maxE) < env.maxEpsilon
      · rw [if_pos hc] at h
        obtain ⟨counts, -, h⟩ := bind_ok.1 h
        obtain ⟨dims, h2, h⟩ := bind_ok.1 h
        obtain ⟨⟨c1, st1⟩, h3, h⟩ := bind_ok.1 h
        obtain ⟨⟨c2, st2⟩, h4, h⟩ := bind_ok.1 h
        rw [pure_eq_ok] at h
        cases h
        have l1 : st.dims.length ≤ dims.length := by
          exact pushDims_len h2
        have l2 : dims.length ≤ st1.dims.length := by
          by_cases hd : (setInsert i simp).length ≤ env.maxDimension
          · rw [if_pos hd] at h3; exact ihc _ _ _ _ h3
          · rw [if_neg hd, pure_eq_ok] at h3; cases h3; exact le_rfl
        have l3 := ihs _ _ _ _ h4
        dsimp only at l3 ⊢
        omega
      · rw [if_neg hc] at h
        obtain ⟨⟨c2, st2⟩, h4, h⟩ := bind_ok.1 h
        rw [pure_eq_ok] at h
        cases h
        exact ihs _ _ _ (c2, st2) h4
  unfold ITree.insert at h
  by_cases hl : dm.length = 0
  · rw [if_pos hl, pure_eq_ok] at h
    cases h; exact ⟨rfl, rfl, fun h => h⟩
  · rw [if_neg hl] at h
    cases hr : t.roots with
    | nil =>
      rw [hr] at h
      dsimp only at h
      obtain ⟨c, -, h⟩ := bind_ok.1 h
      rw [pure_eq_ok] at h
      cases h
      exact ⟨rfl, rfl, fun _ => by simp⟩
    | node a i w ss c sib =>
      rw [hr] at h
      dsimp only at h
      obtain ⟨⟨r, st⟩, h1, h⟩ := bind_ok.1 h
      dsimp only at h
      obtain ⟨dims, h2, h⟩ := bind_ok.1 h
      obtain ⟨c, -, h⟩ := bind_ok.1 h
      rw [pure_eq_ok] at h
      cases h
      refine ⟨rfl, rfl, fun hd => ?_⟩
      have := hmono _ _ _ _ _ _ h1
      unfold vmodify at h2
      split_ifs at h2
      cases h2
      dsimp only at this ⊢
      rw [List.length_modify]
      omega

/-- C77: once a query has been answered, the tree gives the same answer for ever, whatever is inserted
afterwards. -/
theorem C77_answer_frozen (eps : W) (maxDim : Nat) (dm : List (List W))
    (sort : SortBySecond (Nat × List Nat) W) {t t1 t2 : ITree W} {g : Graph W} (hg : g ≠ [])
    (h1 : t.getAllEdges sort = .ok (g, t1)) (ops : List TreeOp)
    (h2 : runIndexed eps maxDim dm sort ops t1 = .ok t2) : t2.getAllEdges sort = .ok (g, t2) := by
  have hstart : t1.isSorted = true ∧ t1.store.dims.length ≠ 0 ∧ shown t1.graph = g := by
    unfold ITree.getAllEdges at h1
    obtain ⟨⟨ge, t'⟩, e1, e2⟩ := bind_ok.1 h1
    dsimp only at e2
    rw [pure_eq_ok] at e2
    cases e2
    unfold ITree.getIndexEdges at e1
    by_cases hd : t.store.dims.length = 0
    · rw [if_pos hd, pure_eq_ok] at e1
      cases e1
      simp at hg
    · rw [if_neg hd] at e1
      by_cases hs : t.isSorted = true
      · rw [if_pos hs, pure_eq_ok] at e1
        cases e1
        exact ⟨hs, hd, rfl⟩
      · rw [if_neg hs] at e1
        obtain ⟨t', e3, e4⟩ := bind_ok.1 e1
        rw [pure_eq_ok] at e4
        cases e4
        refine ⟨rfl, ?_, rfl⟩
        unfold ITree.sortAndBuildGraph at e3
        split at e3
        · cases e3
        · obtain ⟨_, -, e5⟩ := bind_ok.1 e3
          rw [pure_eq_ok] at e5
          cases e5
          exact hd
  have hans : ∀ t : ITree W, t.isSorted = true → t.store.dims.length ≠ 0 →
      t.getAllEdges sort = .ok (shown t.graph, t) := by
    intro t a b
    unfold ITree.getAllEdges ITree.getIndexEdges
    rw [if_neg b, if_pos a]
    rfl
  clear h1
  induction ops generalizing t1 with
  | nil =>
    rw [runIndexed, pure_eq_ok] at h2
    cases h2
    rw [hans _ hstart.1 hstart.2.1, hstart.2.2]
  | cons op ops ih =>
    cases op with
    | insert =>
      rw [runIndexed] at h2
      obtain ⟨t', e1, e2⟩ := bind_ok.1 h2
      obtain ⟨k1, k2, k3⟩ := insert_keeps_graph e1
      exact ih e2 ⟨k2.trans hstart.1, k3 hstart.2.1, by rw [k1]; exact hstart.2.2⟩
    | query =>
      rw [runIndexed, hans t1 hstart.1 hstart.2.1, ok_bind] at h2
      exact ih h2 hstart

/-- C77 is violated: two points 1 apart are inserted and asked for, then a third point is inserted: the
second query still returns one edge and two points. -/
theorem C77_stale_violated :
    ((runIndexed (6 : Int) 2 [[0, 1, 1], [0, 0, 1], [0, 0, 0]] (SortBySecond.insertion _ _)
      [.insert, .insert, .query, .insert] ITree.fresh).bind
      (fun t => (t.getAllEdges (SortBySecond.insertion _ _)).map
        (fun r => (r.1, t.store.nodeCount)))) =
      .ok ([[([0], 0), ([1], 0)], [([0, 1], 1)]], 7) := by decide

/-! ### C80 -/

/-- C80: both counting functions return the number of all simplices. -/
theorem C80_counts (eps : W) (maxDim : Nat) (dm : List (List W)) (d : Nat → Nat → W)
    (h0 : ∀ i j, 0 ≤ d i j) (sort : SortBySecond (Nat × List Nat) W) (n : Nat) (hn : n ≠ 0)
    (hne : dm ≠ []) (hdm : ∀ i j, i < j → j < n → at2 dm i j = .ok (d i j))
    (hsmall : maxDim ≤ 2 ∨ ¬ ∃ s, IsSimplex n (fun i j => d i j < eps) s ∧ s.length = 4) :
    ∃ g t, buildIndexed eps maxDim dm sort n = .ok (g, t) ∧
      t.simplexCount = (g.map List.length).sum ∧ t.vertexCount = (g.map List.length).sum := by
  obtain ⟨t, t', tt, h1, h2, q⟩ := indexed_run h0 n hn hne hdm sort hsmall
  have hc : t'.store.nodeCount = ((shown t'.graph).map List.length).sum := by
    rw [q.built.cnt, q.rel.cnt, q.inv.count, zero_add]
    have e1 : (paths [] tt.roots).length = t.store.dims.flatten.length := by
      rw [← q.rel.erase, paths_erase, List.length_map, ← List.length_map (f := Prod.snd), ipaths_snd,
        q.rel.flat.length_eq]
    have e2 : ((shown t'.graph).map List.length).sum = t'.graph.flatten.length := by
      unfold shown
      rw [List.map_map, List.length_flatten]
      congr 1
      apply List.map_congr_left
      intro l _
      simp
    rw [e1, e2, q.built.graph, List.flatten_append, List.length_append,
      (flatten_sort_perm sort _).length_eq, ← List.length_append, ← List.flatten_append,
      List.take_append_drop]
  refine ⟨shown t'.graph, t', ?_, hc, hc⟩
  unfold buildIndexed ITree.getAllEdges
  rw [h1, ok_bind, h2, ok_bind]
  rfl

/-- C80 is violated by `vertexCount`: it differs from the number of points as soon as two points are
close to each other. -/
theorem C80_vertexCount_violated (eps : W) (maxDim : Nat) (dm : List (List W)) (d : Nat → Nat → W)
    (h0 : ∀ i j, 0 ≤ d i j) (sort : SortBySecond (Nat × List Nat) W) (n : Nat)
    (hne : dm ≠ []) (hdm : ∀ i j, i < j → j < n → at2 dm i j = .ok (d i j))
    (hsmall : maxDim ≤ 2 ∨ ¬ ∃ s, IsSimplex n (fun i j => d i j < eps) s ∧ s.length = 4)
    {i j : Nat} (hij : i < j) (hj : j < n) (hnear : d i j < eps) :
    ∃ g t, buildIndexed eps maxDim dm sort n = .ok (g, t) ∧ (n : Int) < t.vertexCount := by
  obtain ⟨g, t, h1, -, h3⟩ := C80_counts eps maxDim dm d h0 sort n (by omega) hne hdm hsmall
  obtain ⟨g', t', k1, k2, k3, -⟩ := C76_indexed_is_rips_partial eps maxDim dm d h0 sort n (by omega)
    hne hdm hsmall
  rw [h1] at k1
  cases k1
  refine ⟨g, t, h1, ?_⟩
  rw [h3]
  obtain ⟨layer, hl, he⟩ := (k2.exact 1 [i, j] (diam d [i, j]) (by omega)).2
    ⟨rfl, ⟨by simp, by simpa using hij, by intro v hv; simp at hv; omega, by
      intro a ha b hb hab
      simp only [List.mem_cons, List.not_mem_nil, or_false] at ha hb
      have : a = i ∧ b = j := by omega
      rw [this.1, this.2]; exact hnear⟩, rfl⟩
  cases g with
  | nil => simp at k3
  | cons a g =>
    cases g with
    | nil => simp at hl
    | cons b g =>
      simp only [List.getElem?_cons_zero, Option.some.injEq] at k3
      simp only [List.getElem?_cons_succ, List.getElem?_cons_zero, Option.some.injEq] at hl
      subst hl
      have hb : 0 < b.length := List.length_pos_of_mem he
      have ha : a.length = n := by rw [k3]; simp
      simp only [List.map_cons, List.sum_cons, ha]
      have : 0 ≤ (g.map List.length).sum := Nat.zero_le _
      omega

/-! ### C78 -/

/-- The simplex `s` is at position `j` of layer `k` of the answer. -/
def Spec.At {W : Type} (g : Graph W) (s : List Nat) (k j : Nat) : Prop :=
  ∃ layer w, g[k]? = some layer ∧ layer[j]? = some (s, w)

/-- The complex holds `s`. -/
def Spec.Held {W : Type} [LinearOrder W] (n : Nat) (d : Nat → Nat → W) (eps : W) (maxDim : Nat)
    (s : List Nat) : Prop :=
  IsSimplex n (fun i j => d i j < eps) s ∧ s.length ≤ max 1 maxDim + 1

theorem held_iff {n : Nat} {D : Nat → Nat → W} {eps : W} {maxDim : Nat} {t : ITree W} {tt : Tree W}
    (inv : TreeInv 0 n D eps maxDim 0 tt) (rel : RelI n t tt) (s : List Nat) :
    Held n D eps maxDim s ↔ ∃ e, (s, e) ∈ ipaths [] t.roots := by
  constructor
  · rintro ⟨h1, h2⟩
    have := (inv.mem s (diam D s)).2 ⟨simpR_zero.2 h1, h2, rfl⟩
    rw [← rel.erase, paths_erase] at this
    obtain ⟨⟨s', e⟩, hx, he⟩ := List.mem_map.1 this
    simp only [Prod.mk.injEq] at he
    exact ⟨e, by rw [← he.1]; exact hx⟩
  · rintro ⟨e, he⟩
    have := mem_paths_of_ipaths he
    rw [rel.erase] at this
    obtain ⟨h1, h2, -⟩ := (inv.mem s e.2).1 this
    exact ⟨simpR_zero.1 h1, h2⟩

theorem rel_nodup {n : Nat} {D : Nat → Nat → W} {eps : W} {maxDim : Nat} {t : ITree W} {tt : Tree W}
    (inv : TreeInv 0 n D eps maxDim 0 tt) (rel : RelI n t tt) :
    ((ipaths [] t.roots).map Prod.fst).Nodup ∧ (t.roots.entries.map (fun e => e.1.1)).Nodup := by
  constructor
  · have := inv.nodup
    rw [← rel.erase, paths_erase, List.map_map] at this
    exact this
  · rw [rel.addrs.nodup_iff]; exact List.nodup_range

/-- The node where `find` starts. -/
theorem find_start {n : Nat} {D : Nat → Nat → W} {eps : W} {maxDim : Nat} {t : ITree W} {tt : Tree W}
    (inv : TreeInv 0 n D eps maxDim 0 tt) (rel : RelI n t tt) {v : Nat} (hv : v < n) :
    ∃ points layers e, t.store.dims = points :: layers ∧ vget points v = .ok e ∧
      t.roots.deref e.1.1 = t.roots.scan v ∧ ([v], e) ∈ ipaths [] t.roots ∧
      t.roots.tops[v]? = some e := by
  obtain ⟨points, layers, hd⟩ := List.exists_cons_of_ne_nil (rel_dims_ne inv rel (by omega : n ≠ 0))
  have hl0 := rel.layer0
  rw [hd, List.getD_cons_zero] at hl0
  have hlen : t.roots.tops.length = n := by
    have := congrArg List.length rel.tops
    simpa using this
  have he : t.roots.tops[v]? = some t.roots.tops[v] := List.getElem?_eq_getElem (by omega)
  obtain ⟨n1, n2⟩ := rel_nodup inv rel
  obtain ⟨i, h1, h2⟩ := deref_top (p := []) n2 n1 (List.getElem_mem (by omega : v < t.roots.tops.length))
  rw [List.nil_append] at h1
  have hlab := rel.label _ h1
  have hset : t.roots.tops[v].1.2 = [v] := by
    have := congrArg (fun l => l[v]?) rel.tops
    simp only [List.getElem?_map, he, Option.map_some, List.getElem?_range hv, Option.some.injEq] at this
    exact this
  dsimp only at hlab
  rw [hset] at hlab
  cases hlab
  refine ⟨points, layers, t.roots.tops[v], hd, ?_, h2, h1, he⟩
  rw [vget_ok, hl0]
  exact he

/-- `find` for a stored simplex reads the field `sortedIndex` of its node. -/
theorem find_stored {n : Nat} {D : Nat → Nat → W} {eps : W} {maxDim : Nat} {t t' : ITree W}
    {tt : Tree W} (inv : TreeInv 0 n D eps maxDim 0 tt) (rel : RelI n t tt)
    (hr : t'.roots = t.roots) (hd : t'.store.dims = t.store.dims)
    {x : List Nat × IEntry W} (hx : x ∈ ipaths [] t.roots) :
    t'.find x.1 = (do
      match ← vget t'.store.sidx x.2.1.1 with
      | none => .error .uninit
      | some k => pure (decide (k ≠ 0))) := by
  have hh := (held_iff inv rel x.1).2 ⟨x.2, hx⟩
  obtain ⟨v, rest, hq⟩ := List.exists_cons_of_ne_nil hh.1.1
  have hv : v < n := hh.1.2.2.1 v (by rw [hq]; simp)
  obtain ⟨points, layers, e, h1, h2, h3, -, -⟩ := find_start inv rel hv
  obtain ⟨n1, -⟩ := rel_nodup inv rel
  obtain ⟨j, c, sib, g1, -, -⟩ := walk_found rest (p := []) (i := v) n1 hx (by simpa using hq)
  unfold ITree.find
  rw [hd, h1, hq, hr]
  dsimp only
  rw [h2, ok_bind, h3, g1, ok_bind]
  rfl

theorem queried_of_run {D : Nat → Nat → W} {eps : W} {maxDim : Nat} (h0 : ∀ i j, 0 ≤ D i j)
    {dm : List (List W)} {n : Nat} (hn : n ≠ 0) (hne : dm ≠ [])
    (hdm : ∀ i j, i < j → j < n → at2 dm i j = .ok (D i j))
    {sort : SortBySecond (Nat × List Nat) W} {g : Graph W} {t' : ITree W}
    (hrun : buildIndexed eps maxDim dm sort n = .ok (g, t')) :
    ∃ t tt, Queried n D eps maxDim sort t t' tt ∧ g = shown t'.graph := by
  obtain ⟨tt, h1, h2, h3, h4⟩ := insertNI_rel (D := D) (eps := eps) (maxDim := maxDim) h0 n
    (fun _ => hne) hdm
  unfold buildIndexed at hrun
  obtain ⟨t, r1, r2⟩ := bind_ok.1 hrun
  have hle : tt.weg.length ≤ 3 := by
    by_contra hc
    rw [h4 (by omega)] at r1
    cases r1
  obtain ⟨t1, k1, k2, k3⟩ := h3 hle
  rw [r1] at k1
  cases k1
  obtain ⟨t2, g1, g2⟩ := getIndexEdges_built k2 k3 (rel_dims_ne h1 k2 hn) sort
  unfold ITree.getAllEdges at r2
  rw [g1, ok_bind] at r2
  dsimp only at r2
  rw [pure_eq_ok] at r2
  cases r2
  exact ⟨t, tt, ⟨h1, k2, g2⟩, rfl⟩

omit [Zero W] in
theorem graph_mem {sort : SortBySecond (Nat × List Nat) W} {t t' : ITree W} (b : IndexBuilt sort t t')
    {e : IEntry W} : e ∈ t'.graph.flatten ↔ e ∈ t.store.dims.flatten := by
  rw [b.graph, List.flatten_append, List.mem_append, (flatten_sort_perm sort _).mem_iff,
    ← List.mem_append, ← List.flatten_append, List.take_append_drop]

/-- The node behind an entry of the answer. -/
theorem at_node {n : Nat} {D : Nat → Nat → W} {eps : W} {maxDim : Nat}
    {sort : SortBySecond (Nat × List Nat) W} {t t' : ITree W} {tt : Tree W} (hn : n ≠ 0)
    (q : Queried n D eps maxDim sort t t' tt) {s : List Nat} {k j : Nat}
    (hs : At (shown t'.graph) s k j) :
    ∃ e, (s, e) ∈ ipaths [] t.roots ∧ t'.store.sidx[e.1.1]? = some (some j) := by
  obtain ⟨layer, w, hk, hj⟩ := hs
  unfold shown at hk
  rw [List.getElem?_map] at hk
  cases hl : t'.graph[k]? with
  | none => rw [hl] at hk; simp at hk
  | some l =>
    rw [hl] at hk
    simp only [Option.map_some, Option.some.injEq] at hk
    subst hk
    rw [List.getElem?_map] at hj
    cases he : l[j]? with
    | none => rw [he] at hj; simp at hj
    | some e =>
      rw [he] at hj
      simp only [Option.map_some, Option.some.injEq, Prod.mk.injEq] at hj
      have hmem : e ∈ t'.graph.flatten :=
        List.mem_flatten.2 ⟨l, List.mem_of_getElem? hl, List.mem_of_getElem? he⟩
      rw [graph_mem q.built, q.rel.flat.mem_iff, ← ipaths_snd _ []] at hmem
      obtain ⟨x, hx, hxe⟩ := List.mem_map.1 hmem
      have hlab := q.rel.label x hx
      refine ⟨e, ?_, ?_⟩
      · have : x = (s, e) := by
          rw [← hj.1, ← hxe, hlab]
        rw [← this]; exact hx
      · obtain ⟨points, layers, hd⟩ :=
          List.exists_cons_of_ne_nil (rel_dims_ne q.inv q.rel hn)
        have hl0 := q.rel.layer0
        rw [hd, List.getD_cons_zero] at hl0
        cases k with
        | zero =>
          rw [q.built.graph, hd] at hl
          simp only [List.take_succ_cons, List.take_zero, List.singleton_append,
            List.getElem?_cons_zero, Option.some.injEq] at hl
          apply q.built.topIdx j e
          rw [q.built.roots, ← hl0, hl]
          exact he
        | succ k =>
          apply q.built.pos l _ j e he
          apply List.mem_of_getElem? (i := k)
          rw [List.getElem?_drop, Nat.add_comm]; exact hl

/-- C78: for a simplex that the complex holds, `find` says whether its position in the answer to the
query is different from 0. -/
theorem C78_find_held (eps : W) (maxDim : Nat) (dm : List (List W)) (d : Nat → Nat → W)
    (h0 : ∀ i j, 0 ≤ d i j) (sort : SortBySecond (Nat × List Nat) W) (n : Nat)
    (hne : dm ≠ []) (hdm : ∀ i j, i < j → j < n → at2 dm i j = .ok (d i j))
    {g : Graph W} {t : ITree W} (hrun : buildIndexed eps maxDim dm sort n = .ok (g, t))
    {s : List Nat} {k j : Nat} (hs : At g s k j) : t.find s = .ok (decide (j ≠ 0)) := by
  have hn : n ≠ 0 := by
    rintro rfl
    rw [C76_empty] at hrun
    cases hrun
    obtain ⟨layer, w, h, -⟩ := hs
    simp at h
  obtain ⟨t0, tt, q, rfl⟩ := queried_of_run h0 hn hne hdm hrun
  obtain ⟨e, h1, h2⟩ := at_node hn q hs
  rw [find_stored q.inv q.rel q.built.roots q.built.dims h1, vget_ok.2 h2, ok_bind]
  rfl

/-- C78: before the first query the answer for a simplex with at least two vertices is read from a field
that has not been set. -/
theorem C78_before_query_violated (eps : W) (maxDim : Nat) (dm : List (List W)) (d : Nat → Nat → W)
    (h0 : ∀ i j, 0 ≤ d i j) (n : Nat)
    (hne : dm ≠ []) (hdm : ∀ i j, i < j → j < n → at2 dm i j = .ok (d i j)) {t : ITree W}
    (hrun : ITree.insertN eps maxDim dm n ITree.fresh = .ok t)
    {s : List Nat} (hs : Held n d eps maxDim s) (h2 : 2 ≤ s.length) : t.find s = .error .uninit := by
  obtain ⟨tt, i1, i2, i3, i4⟩ := insertNI_rel (D := d) (eps := eps) (maxDim := maxDim) h0 n
    (fun _ => hne) hdm
  have hle : tt.weg.length ≤ 3 := by
    by_contra hc
    rw [i4 (by omega)] at hrun
    cases hrun
  obtain ⟨t1, k1, k2, k3⟩ := i3 hle
  rw [hrun] at k1
  cases k1
  obtain ⟨e, he⟩ := (held_iff i1 k2 s).1 hs
  have hm : e ∈ t.roots.entries := by
    rw [← ipaths_snd _ []]; exact List.mem_map.2 ⟨_, he, rfl⟩
  have hlab := k2.label _ he
  have := k2.unset k3 e hm (by rw [hlab]; exact h2)
  rw [find_stored i1 k2 rfl rfl he, vget_ok.2 this]
  rfl

/-- C78: a point that has not been inserted cannot be looked for. -/
theorem C78_unknown_point (eps : W) (maxDim : Nat) (dm : List (List W)) (d : Nat → Nat → W)
    (h0 : ∀ i j, 0 ≤ d i j) (sort : SortBySecond (Nat × List Nat) W) (n : Nat) (hn : n ≠ 0)
    (hne : dm ≠ []) (hdm : ∀ i j, i < j → j < n → at2 dm i j = .ok (d i j))
    {g : Graph W} {t : ITree W} (hrun : buildIndexed eps maxDim dm sort n = .ok (g, t))
    {v : Nat} (rest : List Nat) (hv : n ≤ v) : t.find (v :: rest) = .error .oob := by
  obtain ⟨t0, tt, q, rfl⟩ := queried_of_run h0 hn hne hdm hrun
  obtain ⟨points, layers, hd⟩ := List.exists_cons_of_ne_nil (rel_dims_ne q.inv q.rel hn)
  have hl0 := q.rel.layer0
  rw [hd, List.getD_cons_zero] at hl0
  have hlen : t0.roots.tops.length = n := by
    have := congrArg List.length q.rel.tops
    simpa using this
  unfold ITree.find
  rw [q.built.dims, hd]
  dsimp only
  have : vget points v = .error .oob := by
    unfold vget
    rw [List.getElem?_eq_none (by rw [hl0, hlen]; exact hv)]
  rw [this]
  rfl

/-- C78: where the way of `find` for a simplex that is not held leaves the tree: `p` is the longest
prefix that the complex holds. -/
theorem find_absent {n : Nat} {D : Nat → Nat → W} {eps : W} {maxDim : Nat}
    {sort : SortBySecond (Nat × List Nat) W} {t t' : ITree W} {tt : Tree W}
    (q : Queried n D eps maxDim sort t t' tt) {p rest : List Nat} {i : Nat}
    (hp : Held n D eps maxDim p) (hi : ¬ Held n D eps maxDim (p ++ [i])) :
    ((∃ j, Held n D eps maxDim (p ++ [j])) → t'.find (p ++ i :: rest) = .error .null) ∧
    ((∀ j, ¬ Held n D eps maxDim (p ++ [j])) → t'.find (p ++ i :: rest) = t'.find p) := by
  obtain ⟨e, he⟩ := (held_iff q.inv q.rel p).1 hp
  obtain ⟨v, r, hq⟩ := List.exists_cons_of_ne_nil hp.1.1
  have hv : v < n := hp.1.2.2.1 v (by rw [hq]; simp)
  obtain ⟨points, layers, e0, h1, h2, h3, -, -⟩ := find_start q.inv q.rel hv
  obtain ⟨n1, -⟩ := rel_nodup q.inv q.rel
  obtain ⟨j0, c, sib, g1, g2, g3⟩ := walk_found r (p := []) (i := v) n1 he (by simpa using hq)
  dsimp only at g1 g2 g3
  have hfind : ∀ tail, t'.find (p ++ tail) = (do
      let cur ← tail.foldlM findStepI (.node e.1.1 j0 e.2 e.1.2 c sib)
      match cur with
      | .nil => .error .null
      | .node a _ _ _ _ _ => do
        match ← vget t'.store.sidx a with
        | none => .error .uninit
        | some k => pure (decide (k ≠ 0))) := by
    intro tail
    unfold ITree.find
    rw [q.built.dims, h1, hq, q.built.roots, List.cons_append]
    dsimp only
    rw [h2, ok_bind, h3, List.foldlM_append, g1, ok_bind]
    rfl
  have hnil := hfind []
  rw [List.append_nil] at hnil
  constructor
  · rintro ⟨j, hj⟩
    obtain ⟨ej, hej⟩ := (held_iff q.inv q.rel _).1 hj
    have hc : c ≠ .nil := ipaths_nonempty (g3 _ hej ⟨[j], rfl⟩ (by simp))
    have hmiss : c.scan i = .nil := by
      apply scan_missing (p := p)
      intro hm
      obtain ⟨y, hy, hye⟩ := List.mem_map.1 hm
      apply hi
      rw [held_iff q.inv q.rel]
      exact ⟨y.2, by rw [← hye]; exact g2 y hy⟩
    have hstep : findStepI (.node e.1.1 j0 e.2 e.1.2 c sib) i = .ok (.nil : INode W) := by
      cases c with
      | nil => exact absurd rfl hc
      | node => rw [← hmiss]; rfl
    rw [hfind, List.foldlM_cons, hstep, ok_bind, walk_null]
    by_cases hr : rest = []
    · rw [if_pos hr]; rfl
    · rw [if_neg hr]; rfl
  · intro hall
    have hc : c = .nil := by
      cases c with
      | nil => rfl
      | node a j w ss c' sib' =>
        exfalso
        have hy : (p ++ [j], ((a, ss), w)) ∈ ipaths p (INode.node a j w ss c' sib') := by
          simp [ipaths]
        exact hall j ((held_iff q.inv q.rel _).2 ⟨_, g2 _ hy⟩)
    subst hc
    rw [hfind, hnil, walk_stuck]
    rfl

/-- C78 is violated for simplices the complex does not hold: if some prefix `p` of the simplex is held,
`p` with the next vertex is not, but `p` has another extension, then `find` follows a null pointer. -/
theorem C78_absent_null_violated (eps : W) (maxDim : Nat) (dm : List (List W)) (d : Nat → Nat → W)
    (h0 : ∀ i j, 0 ≤ d i j) (sort : SortBySecond (Nat × List Nat) W) (n : Nat)
    (hne : dm ≠ []) (hdm : ∀ i j, i < j → j < n → at2 dm i j = .ok (d i j))
    {g : Graph W} {t : ITree W} (hrun : buildIndexed eps maxDim dm sort n = .ok (g, t))
    {p : List Nat} {i j : Nat} (rest : List Nat) (hp : Held n d eps maxDim p)
    (hi : ¬ Held n d eps maxDim (p ++ [i])) (hj : Held n d eps maxDim (p ++ [j])) :
    t.find (p ++ i :: rest) = .error .null := by
  have hn : n ≠ 0 := by
    rintro rfl
    obtain ⟨v, hv⟩ := List.exists_mem_of_ne_nil _ hp.1.1
    exact absurd (hp.1.2.2.1 v hv) (by omega)
  obtain ⟨t0, tt, q, rfl⟩ := queried_of_run h0 hn hne hdm hrun
  exact (find_absent q hp hi).1 ⟨j, hj⟩

/-- C78: otherwise the answer is the one for `p`. -/
theorem C78_absent_prefix (eps : W) (maxDim : Nat) (dm : List (List W)) (d : Nat → Nat → W)
    (h0 : ∀ i j, 0 ≤ d i j) (sort : SortBySecond (Nat × List Nat) W) (n : Nat)
    (hne : dm ≠ []) (hdm : ∀ i j, i < j → j < n → at2 dm i j = .ok (d i j))
    {g : Graph W} {t : ITree W} (hrun : buildIndexed eps maxDim dm sort n = .ok (g, t))
    {p : List Nat} {i : Nat} (rest : List Nat) (hp : Held n d eps maxDim p)
    (hi : ∀ j, ¬ Held n d eps maxDim (p ++ [j])) :
    t.find (p ++ i :: rest) = t.find p := by
  have hn : n ≠ 0 := by
    rintro rfl
    obtain ⟨v, hv⟩ := List.exists_mem_of_ne_nil _ hp.1.1
    exact absurd (hp.1.2.2.1 v hv) (by omega)
  obtain ⟨t0, tt, q, rfl⟩ := queried_of_run h0 hn hne hdm hrun
  exact (find_absent q hp (hi i)).2 hi

/-- C78 is violated for simplices the complex holds: the first simplex of every layer is not found. -/
theorem C78_first_not_found_violated (eps : W) (maxDim : Nat) (dm : List (List W)) (d : Nat → Nat → W)
    (h0 : ∀ i j, 0 ≤ d i j) (sort : SortBySecond (Nat × List Nat) W) (n : Nat)
    (hne : dm ≠ []) (hdm : ∀ i j, i < j → j < n → at2 dm i j = .ok (d i j))
    {g : Graph W} {t : ITree W} (hrun : buildIndexed eps maxDim dm sort n = .ok (g, t))
    {s : List Nat} {k : Nat} (hs : At g s k 0) : t.find s = .ok false := by
  simpa using C78_find_held eps maxDim dm d h0 sort n hne hdm hrun hs

/-- C78 is violated: with at least two points, any set that starts with the last point is found. -/
theorem C78_absent_found_violated (eps : W) (maxDim : Nat) (dm : List (List W)) (d : Nat → Nat → W)
    (h0 : ∀ i j, 0 ≤ d i j) (sort : SortBySecond (Nat × List Nat) W) (n : Nat)
    (hne : dm ≠ []) (hdm : ∀ i j, i < j → j < n + 2 → at2 dm i j = .ok (d i j))
    {g : Graph W} {t : ITree W} (hrun : buildIndexed eps maxDim dm sort (n + 2) = .ok (g, t))
    (rest : List Nat) : t.find ((n + 1) :: rest) = .ok true := by
  obtain ⟨t0, tt, q, rfl⟩ := queried_of_run h0 (by omega) hne hdm hrun
  obtain ⟨points, layers, e, h1, h2, h3, h4, h5⟩ := find_start q.inv q.rel (by omega : n + 1 < n + 2)
  have hlast : t.find [n + 1] = .ok true := by
    have := q.built.topIdx (n + 1) e (by rw [q.built.roots]; exact h5)
    have hf := find_stored q.inv q.rel q.built.roots q.built.dims h4
    dsimp only at hf
    rw [hf, vget_ok.2 this]
    rfl
  cases rest with
  | nil => exact hlast
  | cons i rest =>
    have hheld : Held (n + 2) d eps maxDim [n + 1] := (held_iff q.inv q.rel _).2 ⟨e, h4⟩
    have hno : ∀ j, ¬ Held (n + 2) d eps maxDim ([n + 1] ++ [j]) := by
      intro j hj
      have h6 := hj.1.2.2.1 j (by simp)
      have h7 := hj.1.2.1
      simp at h7
      omega
    rw [← hlast]
    exact (find_absent (rest := rest) q hheld (hno i)).2 hno

end

/-- Four points, where all pairs but one are closer than 6. -/
def fourPoints : List (List Int) := [[0, 4, 5, 4], [0, 0, 4, 7], [0, 0, 0, 3], [0, 0, 0, 0]]

/-- The distances of `fourPoints`. -/
def fourDist (i j : Nat) : Int := ((fourPoints.getD i []).getD j 0)

theorem fourDist_ok : (∀ i j, 0 ≤ fourDist i j) ∧ fourPoints ≠ [] ∧
    ∀ i j, i < j → j < 4 → at2 fourPoints i j = .ok (fourDist i j) := by
  refine ⟨?_, by decide, ?_⟩
  · intro i j
    match i, j with
    | 0, 0 | 0, 1 | 0, 2 | 0, 3 | 1, 0 | 1, 1 | 1, 2 | 1, 3 => decide
    | 2, 0 | 2, 1 | 2, 2 | 2, 3 | 3, 0 | 3, 1 | 3, 2 | 3, 3 => decide
    | 0, j + 4 | 1, j + 4 | 2, j + 4 | 3, j + 4 => exact le_refl _
    | i + 4, j => exact le_refl _
  · have : ∀ j < 4, ∀ i < j, at2 fourPoints i j = .ok (fourDist i j) := by decide
    intro i j hi hj
    exact this j hj i hi

/-- The complex of `fourPoints` with `maxDim = 2`. -/
theorem fourPoints_built : ((buildIndexed (6 : Int) 2 fourPoints (SortBySecond.insertion _ _) 4).map
    Prod.fst) = .ok
    [[([0], 0), ([1], 0), ([2], 0), ([3], 0)],
     [([2, 3], 3), ([0, 1], 4), ([1, 2], 4), ([0, 3], 4), ([0, 2], 5)],
     [([0, 1, 2], 5), ([0, 2, 3], 5)]] := by decide

example : ((buildIndexed (6 : Int) 2 fourPoints (SortBySecond.insertion _ _) 4).bind fun r =>
    r.2.find [0, 1]) = .ok true ∧
  ((buildIndexed (6 : Int) 2 fourPoints (SortBySecond.insertion _ _) 4).bind fun r =>
    r.2.find [2, 3]) = .ok false ∧
  ((buildIndexed (6 : Int) 2 fourPoints (SortBySecond.insertion _ _) 4).bind fun r =>
    r.2.find [1, 3]) = .error .null ∧
  ((buildIndexed (6 : Int) 2 fourPoints (SortBySecond.insertion _ _) 4).bind fun r =>
    r.2.find [3, 8]) = .ok true ∧
  ((ITree.insertN (6 : Int) 2 fourPoints 4 ITree.fresh).bind fun t => t.find [0, 1]) =
    .error .uninit := by decide

end LHF
