import Verif.Model.WindowProgram
import Verif.Props.Reduced
import Verif.Props.Matrices
import Verif.Props.SlidingDecision
import Verif.Props.Windows

/-! C89–C91: the window modes as whole programs. -/

namespace LHF
open Spec

/-! ### The sub-pipelines -/

/-- Which stages a pipeline of known stages runs. -/
theorem runPipeline_kinds {D : Type} (run : PipeKind → D → Res D) (args : ArgMap) (ct : String)
    (hct : args.val "complexType" = ct) (stages : List String) (kinds : List PipeKind)
    (hp : args "pipeline" = some (pipelineOf stages)) (hne : stages ≠ [])
    (hdot : ∀ s ∈ stages, '.' ∉ s.toList)
    (hk : stages.map (fun n => newPipe n ct) = kinds.map some)
    (hdim : (args "dimensions").isSome) (heps : (args "epsilon").isSome) (htw : (args "twist").isSome)
    (p : Packet D) :
    runPipeline run args p = kinds.foldlM (fun q k => runPipeWrapper true (pipeType k) (run k) q) p := by
  rw [C39_runs_components_in_order _ _ _ stages hne hdot hp]
  have hcfg : ∀ k, configPipe k args = true := by
    intro k
    cases k <;> simp [configPipe, requiredKeys, hdim, heps, htw]
  have hen : stages.filterMap (enabledStage args) = kinds := by
    clear hne hdot hp
    induction stages generalizing kinds with
    | nil =>
      cases kinds with
      | nil => rfl
      | cons => simp at hk
    | cons n ns ih =>
      cases kinds with
      | nil => simp at hk
      | cons k ks =>
        simp only [List.map_cons, List.cons.injEq] at hk
        rw [List.filterMap_cons]
        have : enabledStage args n = some k := by
          unfold enabledStage
          rw [hct, hk.1]
          simp [Option.filter, hcfg]
        rw [this]
        dsimp only
        rw [ih ks hk.2]
  rw [hen]

/-- Which stages a sub-pipeline runs. -/
theorem runSub_eq {K W : Type} [LinearOrder W] [Ring W] (lib : Lib K W) (s : Settings W) (args : ArgMap)
    (stages : List String) (kinds : List PipeKind) (hne : stages ≠ [])
    (hdot : ∀ s ∈ stages, '.' ∉ s.toList)
    (hk : stages.map (fun n => newPipe n "simplexTree") = kinds.map some)
    (hdim : (args "dimensions").isSome) (heps : (args "epsilon").isSome) (htw : (args "twist").isSome)
    (w : Work (List K) W) :
    runSub lib s args (pipelineOf stages) w = kinds.foldlM (fun d k => subStages lib s k d) w := by
  unfold runSub
  rw [runPipeline_kinds _ _ "simplexTree" (by simp [ArgMap.val, ArgMap.set]) stages kinds
    (by simp [ArgMap.set]) hne hdot hk (by simpa [ArgMap.set] using hdim)
    (by simpa [ArgMap.set] using heps) (by simpa [ArgMap.set] using htw),
    fold_wrappers _ _ _ rfl, bind_assoc]
  exact bind_pure _

/-- The sub-pipeline of the sliding window on a tree. -/
theorem slidingSub_tree (lib : Lib ℝ ℝ) (s : Settings ℝ) (args : ArgMap)
    (hdim : (args "dimensions").isSome) (heps : (args "epsilon").isSome) (htw : (args "twist").isSome)
    (w : Work (List ℝ) ℝ) (t : Tree ℝ) (dm : List (List ℝ)) (hw : w.complex = .tree t dm) :
    slidingSub lib s args w = if w.originalData = [] then pure (.tree t dm) else
      (runPersistencePairs s.dim s.eps (t.getAllEdges lib.sort).1 >>= fun _ =>
        pure (.tree (t.getAllEdges lib.sort).2 dm)) := by
  unfold slidingSub
  by_cases h : w.originalData = []
  · rw [if_pos (by rw [h]; rfl), if_pos h, hw]
  rw [if_neg (by rw [List.length_eq_zero_iff]; exact h), if_neg h]
  rw [show "rips.persistence" = pipelineOf ["rips", "persistence"] by decide,
    runSub_eq lib s args ["rips", "persistence"] [.rips, .persistencePairs] (by decide) (by decide)
      (by decide) hdim heps htw]
  simp only [List.foldlM_cons, List.foldlM_nil]
  have e3 : subStages lib s .rips w = .ok w := by
    unfold subStages runStages; dsimp only; rw [hw]; dsimp only; rw [C81_collapse_no_effect]
    rw [ok_bind, pure_eq_ok, ← hw]
  rw [e3, ok_bind]
  unfold subStages persistWork
  dsimp only
  rw [hw]
  dsimp only
  cases runPersistencePairs s.dim s.eps (t.getAllEdges lib.sort).1 <;> rfl

/-- The tree that the window pipes build from the rows of the window. -/
theorem tree_of_rows (sort : SortBySecond (List Nat) ℝ) (eps : ℝ) (dim : Nat)
    (k : Nat) (hk : 0 < k) (data : List (List ℝ)) (hdim : ∀ p ∈ data, p.length = k) :
    ∃ t : Tree ℝ, neighGraphTree eps dim (pairTable k data) data Tree.fresh = .ok t ∧
      SortedLayers (t.getAllEdges sort).1 t.weg ∧ NoEmpty t.weg ∧
      StoresRips t.weg data.length (rowDist k data) (fun i j => rowDist k data i j < eps) (max 1 dim) := by
  have hne : data.length ≠ 0 → pairTable k data ≠ [] := by
    intro h
    apply List.ne_nil_of_length_pos
    rw [pairTable_length]; omega
  obtain ⟨t, h2, h3, h4⟩ := insertN_inv (D := rowDist k data) (eps := eps) (maxDim := dim)
    (fun _ _ => dist_nonneg) (fresh_inv _ eps dim) data.length hne (by
      intro i j _ hij hj
      have := at2_table (d := rowDist k data) hij (show j < data.length by omega)
      exact this)
  rw [Nat.zero_add] at h3
  refine ⟨t, ?_, C20_tree_first_query_partial t h4 sort,
    insertN_noEmpty _ _ _ h2 (by intro l hl; cases hl), inv_stores h3⟩
  rw [neighGraphTree_eq _ _ _ _ (rows_ne_nil hk hdim), h2]

theorem getAllEdges_again (sort : SortBySecond (List Nat) ℝ) (t : Tree ℝ) :
    ((t.getAllEdges sort).2.getAllEdges sort) = t.getAllEdges sort := by
  unfold Tree.getAllEdges
  split_ifs <;> simp_all

/-! ### The run of the sliding window -/

theorem sliding_sub_eq (lib : Lib ℝ ℝ) (s : Settings ℝ) (args : ArgMap)
    (hdim : (args "dimensions").isSome) (heps : (args "epsilon").isSome) (htw : (args "twist").isSome)
    (w : Work (List ℝ) ℝ) (x : SlidingTree) :
    x.sub lib s args w = if x.st.originalData = [] then pure x else
      (runPersistencePairs s.dim s.eps (x.tree.getAllEdges lib.sort).1 >>= fun _ =>
        pure { x with tree := (x.tree.getAllEdges lib.sort).2 }) := by
  unfold SlidingTree.sub
  rw [slidingSub_tree lib s args hdim heps htw (x.work w) x.tree x.st.stats.distMatrix rfl]
  change (if x.st.originalData = [] then _ else _) >>= _ = _
  split_ifs
  · rfl
  · cases runPersistencePairs s.dim s.eps (x.tree.getAllEdges lib.sort).1 <;> rfl

theorem slidingTree_snoc (cap : Nat) (upd : SlidingState → Res NNStats) (lib : Lib ℝ ℝ) (s : Settings ℝ)
    (args : ArgMap) (w : Work (List ℝ) ℝ) (x : SlidingTree) (rows : List (List ℝ)) (row : List ℝ) :
    (rows ++ [row]).foldlM (slidingTreeStep cap upd lib s args w) x =
      (rows.foldlM (slidingTreeStep cap upd lib s args w) x >>= fun y =>
        slidingTreeStep cap upd lib s args w y row) := by
  rw [List.foldlM_append]
  congr 1
  funext y
  rw [List.foldlM_cons]
  exact bind_pure _

/-- Filling the window does not touch the complex. -/
theorem filling_tree (cap : Nat) (upd : SlidingState → Res NNStats) (lib : Lib ℝ ℝ) (s : Settings ℝ)
    (args : ArgMap) (w : Work (List ℝ) ℝ) (t : Tree ℝ) (rows : List (List ℝ)) (hl : rows.length < cap) :
    ∃ st, slidingRun cap upd w.originalData rows = .ok st ∧
      rows.foldlM (slidingTreeStep cap upd lib s args w) ⟨SlidingState.initial w.originalData, t⟩ =
        .ok ⟨st, t⟩ := by
  induction rows using List.reverseRecOn with
  | nil => exact ⟨_, rfl, rfl⟩
  | append_singleton rows x ih =>
    have hlen : (rows ++ [x]).length = rows.length + 1 := by simp
    obtain ⟨st, h1, h2⟩ := ih (by omega)
    obtain ⟨st0, g1, g2, -, -, -, -, -, -, -, g10⟩ := filling_run cap upd w.originalData rows (by omega)
    rw [h1] at g1; cases g1
    obtain ⟨st', k1, k2, -⟩ := filling_run cap upd w.originalData (rows ++ [x]) hl
    refine ⟨st', k1, ?_⟩
    rw [slide_snoc _ _ _ _ _ h1] at k1
    rw [slidingTree_snoc, h2, ok_bind]
    unfold slidingTreeStep
    dsimp only
    rw [k1, ok_bind, if_neg (by rw [k2]; omega), pure_eq_ok, ok_bind, if_neg (by rw [g10]; omega)]
    rfl

/-- When the window becomes full the complex is built. -/
theorem full_tree {k cap : Nat} (hk : 0 < k) (hc : 2 ≤ cap) (upd : SlidingState → Res NNStats)
    (lib : Lib ℝ ℝ) (s : Settings ℝ) (args : ArgMap) (w : Work (List ℝ) ℝ) (rows : List (List ℝ))
    (hrow : ∀ x ∈ rows, x.length = k) (hl : rows.length = cap) :
    ∃ st t, rows.foldlM (slidingTreeStep cap upd lib s args w)
        ⟨SlidingState.initial w.originalData, Tree.fresh⟩ = .ok ⟨st, t⟩ ∧
      neighGraphTree s.eps s.dim (pairTable k rows) rows Tree.fresh = .ok t ∧
      FullWindow k cap rows st ∧ st.pointCounter = cap + 1 := by
  obtain ⟨t, ht, -⟩ := tree_of_rows lib.sort s.eps s.dim k hk rows hrow
  obtain ⟨st', k1, k2, -, -, -, -, k3⟩ := full_run hk hc upd w.originalData rows hrow hl
  refine ⟨st', t, ?_, ht, k2, k3⟩
  obtain ⟨front, x, rfl⟩ : ∃ front x, rows = front ++ [x] := by
    rcases List.eq_nil_or_concat rows with rfl | ⟨f, x, rfl⟩
    · simp at hl; omega
    · exact ⟨f, x, by simp⟩
  have hlen : (front ++ [x]).length = front.length + 1 := by simp
  obtain ⟨st, h1, h2⟩ := filling_tree cap upd lib s args w Tree.fresh front (by omega)
  obtain ⟨st0, g1, g2, -, -, -, -, -, -, -, g10⟩ := filling_run cap upd w.originalData front (by omega)
  rw [h1] at g1; cases g1
  rw [slide_snoc _ _ _ _ _ h1] at k1
  rw [slidingTree_snoc, h2, ok_bind]
  unfold slidingTreeStep
  dsimp only
  rw [k1, ok_bind, k2.window, k2.matrix, if_pos ⟨by rw [g2]; omega, hl⟩, ht, ok_bind,
    if_neg (by rw [g10]; omega)]
  rfl

/-- The full window with the complex built from it, possibly sorted. -/
structure FullTree (k cap : Nat) (sort : SortBySecond (List Nat) ℝ) (rows : List (List ℝ)) (t : Tree ℝ)
    (x : SlidingTree) : Prop where
  full : FullWindow k cap rows x.st
  tree : x.tree = t ∨ x.tree = (t.getAllEdges sort).2

theorem FullTree.sub {k cap : Nat} {lib : Lib ℝ ℝ} {s : Settings ℝ} {args : ArgMap}
    (hdim : (args "dimensions").isSome) (heps : (args "epsilon").isSome) (htw : (args "twist").isSome)
    {w : Work (List ℝ) ℝ} {rows : List (List ℝ)} (hne : rows ≠ []) {t : Tree ℝ} {x : SlidingTree}
    (h : FullTree k cap lib.sort rows t x) :
    x.sub lib s args w = (runPersistencePairs s.dim s.eps (t.getAllEdges lib.sort).1 >>= fun _ =>
      pure { x with tree := (t.getAllEdges lib.sort).2 }) := by
  have e : x.tree.getAllEdges lib.sort = t.getAllEdges lib.sort := by
    rcases h.tree with h | h
    · rw [h]
    · rw [h, getAllEdges_again]
  rw [sliding_sub_eq lib s args hdim heps htw, h.full.data, if_neg hne, e]

/-- The persistence stage on the complex of the window. -/
theorem window_pairs (sort : SortBySecond (List Nat) ℝ) (eps : ℝ) (dim : Nat)
    (k : Nat) (hk : 0 < k) (data : List (List ℝ)) (hne : data ≠ []) (hdim : ∀ p ∈ data, p.length = k)
    (t : Tree ℝ) (ht : neighGraphTree eps dim (pairTable k data) data Tree.fresh = .ok t) :
    ((∃ i j, i < j ∧ j < data.length ∧ rowDist k data i j < eps) →
      runPersistencePairs dim eps (t.getAllEdges sort).1 = .error .oob) ∧
    ((∀ i j, i < j → j < data.length → eps ≤ rowDist k data i j) →
      ∃ lines, runPersistencePairs dim eps (t.getAllEdges sort).1 = .ok lines) := by
  obtain ⟨t', h1, h2, h3, h4⟩ := tree_of_rows sort eps dim k hk data hdim
  rw [ht] at h1; cases h1
  have hmax : 1 ≤ max 1 dim := le_max_left _ _
  constructor
  · intro he
    refine C59_persistencePairs_violated dim eps (filtered_of_rips h4 h2) ?_
      (rips_two_layers h4 hmax h2 he)
    intro l hl
    obtain ⟨n, hn⟩ := List.mem_iff_getElem?.1 hl
    obtain ⟨l', g1, g2⟩ := (sortedLayers_get h2 n).1 l hn
    intro e
    rw [e] at g2
    exact h3 l' (List.mem_of_getElem? g1) g2.symm.eq_nil
  · intro hfar
    have hone := rips_one_layer h4 (List.length_pos_of_ne_nil hne) h3
      (fun i j hij hj => not_lt.2 (hfar i j hij hj))
    have hl : (t.getAllEdges sort).1.length = 1 := by
      rw [← hone]; exact h2.length_eq
    obtain ⟨v, hv⟩ := List.length_eq_one_iff.1 hl
    rw [hv]
    refine ⟨_, C59_isolated_points_partial dim eps ?_⟩
    intro e he
    have := (filtered_of_rips h4 h2).1 0 v (by rw [hv]; rfl) e he
    exact this.2

/-- The stage `persistence` on isolated points, for every complex that holds them. -/
theorem isolated_edges {g edges : List (List (List Nat × ℝ))} {n D : Nat} {d : Nat → Nat → ℝ}
    {near : Nat → Nat → Prop} (eps : ℝ) (dim : Nat) (hn : 0 < n) (h2 : SortedLayers edges g)
    (h3 : NoEmpty g) (h4 : StoresRips g n d near D) (hfar : ∀ i j, i < j → j < n → ¬ near i j) :
    runPersistencePairs dim eps edges =
      .ok (if 2 ≤ dim then List.replicate n (0, 0, eps) else []) := by
  have hone := rips_one_layer h4 hn h3
    hfar
  have hl : edges.length = 1 := by
    rw [← hone]; exact h2.length_eq
  obtain ⟨v, hv⟩ := List.length_eq_one_iff.1 hl
  obtain ⟨u, hu⟩ := List.length_eq_one_iff.1 hone
  have hperm : v.Perm u := by
    rw [hv, hu] at h2
    cases h2 with
    | cons h _ => exact h.1
  have hmem : ∀ s x, (s, x) ∈ v ↔ s.length = 1 ∧ IsSimplex n
      near s ∧ x = diam (d) s := by
    intro s x
    rw [hperm.mem_iff, ← h4.exact 0 s x (by omega), hu]
    simp
  have hzero : ∀ e ∈ v, e.2 = 0 := by
    rintro ⟨s, x⟩ he
    obtain ⟨g1, -, g3⟩ := (hmem s x).1 he
    obtain ⟨i, rfl⟩ := List.length_eq_one_iff.1 g1
    rw [g3, diam_singleton]
  have hlen : v.length = n := by
    have hp : (v.map Prod.fst).Perm ((List.range n).map (fun i => [i])) := by
      rw [List.perm_ext_iff_of_nodup]
      · intro s
        simp only [List.mem_map, List.mem_range]
        constructor
        · rintro ⟨⟨s, x⟩, he, rfl⟩
          obtain ⟨g1, g2, -⟩ := (hmem s x).1 he
          obtain ⟨i, rfl⟩ := List.length_eq_one_iff.1 g1
          exact ⟨i, g2.2.2.1 i (by simp), rfl⟩
        · rintro ⟨i, hi, rfl⟩
          refine ⟨([i], _), (hmem _ _).2 ⟨rfl, ⟨by simp, by simp, by simpa using hi, ?_⟩, rfl⟩, rfl⟩
          intro a ha b hb hab
          simp only [List.mem_singleton] at ha hb
          omega
      · rw [(hperm.map Prod.fst).nodup_iff]
        exact h4.once u (by rw [hu]; simp)
      · exact List.Nodup.map (fun a b h => by simpa using h) List.nodup_range
    simpa using hp.length_eq
  rw [hv, C59_isolated_points_partial dim eps (fun e he => ((hmem e.1 e.2).1 he).1)]
  congr 2
  rw [← hlen]
  apply List.eq_replicate_iff.2
  refine ⟨by simp, ?_⟩
  intro b hb
  obtain ⟨e, he, rfl⟩ := List.mem_map.1 hb
  rw [hzero e he]

/-- The stage `persistence` on isolated points. -/
theorem isolated_pairs (sort : SortBySecond (List Nat) ℝ) (eps : ℝ) (dim : Nat)
    (k : Nat) (hk : 0 < k) (data : List (List ℝ)) (hne : data ≠ []) (hdim : ∀ p ∈ data, p.length = k)
    (t : Tree ℝ) (ht : neighGraphTree eps dim (pairTable k data) data Tree.fresh = .ok t)
    (hfar : ∀ i j, i < j → j < data.length → eps ≤ rowDist k data i j) :
    runPersistencePairs dim eps (t.getAllEdges sort).1 =
      .ok (if 2 ≤ dim then List.replicate data.length (0, 0, eps) else []) := by
  obtain ⟨t', h1, h2, h3, h4⟩ := tree_of_rows sort eps dim k hk data hdim
  rw [ht] at h1; cases h1
  exact isolated_edges eps dim (List.length_pos_of_ne_nil hne) h2 h3 h4
    (fun i j hij hj => not_lt.2 (hfar i j hij hj))

/-- One row for a full window. -/
theorem full_tree_step {k cap : Nat} (hc : 2 ≤ cap) (body : SlidingState → Nat → NNStats → Res NNStats)
    (after : SlidingState → NNStats → Res NNStats) {lib : Lib ℝ ℝ} {s : Settings ℝ} {args : ArgMap}
    (hdim : (args "dimensions").isSome) (heps : (args "epsilon").isSome) (htw : (args "twist").isSome)
    {w : Work (List ℝ) ℝ} {rows : List (List ℝ)} (hrow : ∀ y ∈ rows, y.length = k)
    (hl : rows.length = cap) {t : Tree ℝ} {x : SlidingTree} (h : FullTree k cap lib.sort rows t x)
    {row : List ℝ} (hx : row.length = k) :
    (∀ y, slidingTreeStep cap (updateStats body after) lib s args w x row = .ok y →
      Ordinary k rows row ∧ FullTree k cap lib.sort rows t y ∧
      y.st.pointCounter = x.st.pointCounter + 1 ∧
      (x.st.pointCounter % 100 = 0 ∧ x.st.pointCounter > cap →
        ∃ lines, runPersistencePairs s.dim s.eps (t.getAllEdges lib.sort).1 = .ok lines)) ∧
    (Ordinary k rows row →
      (∃ lines, runPersistencePairs s.dim s.eps (t.getAllEdges lib.sort).1 = .ok lines) →
      ∃ y, slidingTreeStep cap (updateStats body after) lib s args w x row = .ok y) := by
  have hne : rows ≠ [] := by rintro rfl; simp at hl; omega
  obtain ⟨g1, g2⟩ := full_step hc body after hrow hl h.full hx
  have hwin : ¬ x.st.window.length < cap := by rw [h.full.window]; omega
  have e : ∀ st, slidingStep cap (updateStats body after) x.st row = .ok st →
      slidingTreeStep cap (updateStats body after) lib s args w x row =
        if x.st.pointCounter % 100 = 0 ∧ x.st.pointCounter > cap then
          SlidingTree.sub lib s args w ⟨st, x.tree⟩ else pure ⟨st, x.tree⟩ := by
    intro st hst
    unfold slidingTreeStep
    rw [hst, ok_bind, if_neg (fun c => hwin c.1)]
    rfl
  by_cases ho : Ordinary k rows row
  · obtain ⟨st, hst, f, hp⟩ := g1 ho
    have hf : FullTree k cap lib.sort rows t ⟨st, x.tree⟩ := ⟨f, h.tree⟩
    rw [e st hst, hf.sub hdim heps htw hne]
    constructor
    · intro y hy
      refine ⟨ho, ?_⟩
      by_cases hcond : x.st.pointCounter % 100 = 0 ∧ x.st.pointCounter > cap
      · rw [if_pos hcond] at hy
        obtain ⟨lines, hlines, hy⟩ := bind_ok.1 hy
        cases hy
        exact ⟨⟨f, Or.inr rfl⟩, hp, fun _ => ⟨lines, hlines⟩⟩
      · rw [if_neg hcond] at hy
        cases hy
        exact ⟨hf, hp, fun c => absurd c hcond⟩
    · rintro - ⟨lines, hlines⟩
      rw [hlines, ok_bind]
      split_ifs
      · exact ⟨_, rfl⟩
      · exact ⟨_, rfl⟩
  · constructor
    · intro y hy
      obtain ⟨st, hst, -⟩ := bind_ok.1 hy
      exact absurd hst (g2 ho st)
    · exact fun h => absurd h ho

/-- Many rows for a full window. -/
theorem full_tree_run {k cap : Nat} (hc : 2 ≤ cap) (body : SlidingState → Nat → NNStats → Res NNStats)
    (after : SlidingState → NNStats → Res NNStats) {lib : Lib ℝ ℝ} {s : Settings ℝ} {args : ArgMap}
    (hdim : (args "dimensions").isSome) (heps : (args "epsilon").isSome) (htw : (args "twist").isSome)
    {w : Work (List ℝ) ℝ} {rows : List (List ℝ)} (hrow : ∀ y ∈ rows, y.length = k)
    (hl : rows.length = cap) {t : Tree ℝ} (l : List (List ℝ)) (hx : ∀ row ∈ l, row.length = k)
    {x : SlidingTree} (h : FullTree k cap lib.sort rows t x) :
    (∀ y, l.foldlM (slidingTreeStep cap (updateStats body after) lib s args w) x = .ok y →
      (∀ row ∈ l, Ordinary k rows row) ∧ FullTree k cap lib.sort rows t y ∧
      y.st.pointCounter = x.st.pointCounter + l.length ∧
      (∀ i < l.length, (x.st.pointCounter + i) % 100 = 0 ∧ x.st.pointCounter + i > cap →
        ∃ lines, runPersistencePairs s.dim s.eps (t.getAllEdges lib.sort).1 = .ok lines)) ∧
    ((∀ row ∈ l, Ordinary k rows row) →
      (∃ lines, runPersistencePairs s.dim s.eps (t.getAllEdges lib.sort).1 = .ok lines) →
      ∃ y, l.foldlM (slidingTreeStep cap (updateStats body after) lib s args w) x = .ok y) := by
  induction l generalizing x with
  | nil =>
    constructor
    · intro y hy
      cases hy
      exact ⟨by simp, h, rfl, by simp⟩
    · exact fun _ _ => ⟨x, rfl⟩
  | cons row l ih =>
    obtain ⟨g1, g2⟩ := full_tree_step (w := w) (s := s) hc body after hdim heps htw hrow hl h
      (hx row (by simp))
    rw [List.foldlM_cons]
    constructor
    · intro y hy
      obtain ⟨z, hz, hy⟩ := bind_ok.1 hy
      obtain ⟨a1, a2, a3, a4⟩ := g1 z hz
      obtain ⟨b1, b2, b3, b4⟩ := (ih (fun r hr => hx r (by simp [hr])) a2).1 y hy
      refine ⟨?_, b2, by rw [b3, a3, List.length_cons]; omega, ?_⟩
      · intro r hr
        rcases List.mem_cons.1 hr with rfl | hr
        · exact a1
        · exact b1 r hr
      · intro i hi hcond
        cases i with
        | zero => exact a4 hcond
        | succ i =>
          refine b4 i (by simpa using hi) ?_
          rw [a3]
          have : x.st.pointCounter + 1 + i = x.st.pointCounter + (i + 1) := by omega
          rw [this]
          exact hcond
    · intro ho hP
      obtain ⟨z, hz⟩ := g2 (ho row (by simp)) hP
      rw [hz, ok_bind]
      exact (ih (fun r hr => hx r (by simp [hr])) (g1 z hz).2.1).2 (fun r hr => ho r (by simp [hr])) hP

/-- The sliding window pipe on a stream of more than 200 rows. -/
theorem sliding_tree_iff (body : SlidingState → Nat → NNStats → Res NNStats)
    (after : SlidingState → NNStats → Res NNStats) (lib : Lib ℝ ℝ) (s : Settings ℝ) (args : ArgMap)
    (hdim : (args "dimensions").isSome) (heps : (args "epsilon").isSome) (htw : (args "twist").isSome)
    (w : Work (List ℝ) ℝ) {k : Nat} (hk : 0 < k)
    (rows : List (List ℝ)) (hrow : ∀ x ∈ rows, x.length = k) (hn : 200 < rows.length) :
    (∃ x, slidingTreeRun 200 (updateStats body after) lib s args w Tree.fresh [] rows = .ok x) ↔
      (∀ x ∈ rows.drop 200, Ordinary k (rows.take 200) x) ∧
      ∀ i j, i < j → j < 200 → s.eps ≤ rowDist k (rows.take 200) i j := by
  have hlt : (rows.take 200).length = 200 := by rw [List.length_take]; omega
  have hrow' : ∀ x ∈ rows.take 200, x.length = k := fun x hx => hrow x (List.mem_of_mem_take hx)
  have hne : rows.take 200 ≠ [] := by intro h; rw [h] at hlt; simp at hlt
  obtain ⟨st, t, h1, h2, h3, h4⟩ := full_tree hk (by norm_num : 2 ≤ 200) (updateStats body after) lib s
    args w (rows.take 200) hrow' hlt
  have hP := window_pairs lib.sort s.eps s.dim k hk (rows.take 200) hne hrow' t h2
  rw [hlt] at hP
  have hP' : (∃ lines, runPersistencePairs s.dim s.eps (t.getAllEdges lib.sort).1 = .ok lines) ↔
      ∀ i j, i < j → j < 200 → s.eps ≤ rowDist k (rows.take 200) i j := by
    constructor
    · rintro ⟨lines, hlines⟩ i j hij hj
      by_contra hc
      rw [hP.1 ⟨i, j, hij, hj, not_le.1 hc⟩] at hlines
      cases hlines
    · exact hP.2
  rw [← hP']
  have hfull : FullTree k 200 lib.sort (rows.take 200) t ⟨st, t⟩ := ⟨h3, Or.inl rfl⟩
  obtain ⟨g1, g2⟩ := full_tree_run (w := w) (s := s) (by norm_num : 2 ≤ 200) body after hdim heps htw
    hrow' hlt (rows.drop 200) (fun x hx => hrow x (List.mem_of_mem_drop hx)) hfull
  have hrun : slidingTreeRun 200 (updateStats body after) lib s args w Tree.fresh [] rows =
      ((rows.drop 200).foldlM (slidingTreeStep 200 (updateStats body after) lib s args w) ⟨st, t⟩ >>=
        fun x => if (x.st.pointCounter - 1) % 100 ≠ 0 then x.sub lib s args w else pure x) := by
    unfold slidingTreeRun
    dsimp only
    conv_lhs => rw [← List.take_append_drop 200 rows]
    rw [List.foldlM_append]
    have h1' := h1
    unfold SlidingState.initial at h1' ⊢
    rw [h1', ok_bind]
  have hdl : (rows.drop 200).length = rows.length - 200 := List.length_drop
  rw [hrun]
  constructor
  · rintro ⟨x, hx⟩
    obtain ⟨y, hy, hx⟩ := bind_ok.1 hx
    obtain ⟨a1, a2, a3, a4⟩ := g1 y hy
    refine ⟨a1, ?_⟩
    have a3' : y.st.pointCounter = rows.length + 1 := by
      rw [a3, hdl]; dsimp only; rw [h4]; omega
    by_cases hc : rows.length % 100 = 0
    · refine a4 (rows.length - 201) (by omega) ?_
      dsimp only
      rw [h4]
      have : 200 + 1 + (rows.length - 201) = rows.length := by omega
      rw [this]
      exact ⟨hc, hn⟩
    · rw [if_pos (by rw [a3']; exact hc), a2.sub hdim heps htw hne] at hx
      obtain ⟨lines, hlines, -⟩ := bind_ok.1 hx
      exact ⟨lines, hlines⟩
  · rintro ⟨ho, hp⟩
    obtain ⟨y, hy⟩ := g2 ho hp
    obtain ⟨lines, hlines⟩ := hp
    rw [hy, ok_bind, (g1 y hy).2.1.sub hdim heps htw hne, hlines, ok_bind]
    split_ifs
    · exact ⟨_, rfl⟩
    · exact ⟨_, rfl⟩

/-- The sliding window pipe on a stream of at most 200 rows. -/
theorem sliding_tree_short (upd : SlidingState → Res NNStats) (lib : Lib ℝ ℝ) (s : Settings ℝ)
    (args : ArgMap)
    (hdim : (args "dimensions").isSome) (heps : (args "epsilon").isSome) (htw : (args "twist").isSome)
    (w : Work (List ℝ) ℝ) (hw : w.originalData = []) {k : Nat} (hk : 0 < k)
    (rows : List (List ℝ)) (hrow : ∀ x ∈ rows, x.length = k) (hn : rows.length ≤ 200) :
    ∃ x, slidingTreeRun 200 upd lib s args w Tree.fresh [] rows = .ok x := by
  rcases Nat.lt_or_ge rows.length 200 with hlt | hge
  · obtain ⟨st, h1, h2⟩ := filling_tree 200 upd lib s args w Tree.fresh rows hlt
    obtain ⟨st0, g1, -, -, -, -, -, -, -, g9, -⟩ := filling_run 200 upd w.originalData rows hlt
    rw [h1] at g1; cases g1
    unfold slidingTreeRun
    unfold SlidingState.initial at h2 ⊢
    dsimp only
    rw [h2, ok_bind, sliding_sub_eq lib s args hdim heps htw]
    have e : st.originalData = [] := by rw [g9, hw]
    by_cases hc : (st.pointCounter - 1) % 100 ≠ 0
    · rw [if_pos hc, if_pos e]; exact ⟨_, rfl⟩
    · rw [if_neg hc]; exact ⟨_, rfl⟩
  · obtain ⟨st, t, h1, -, -, h4⟩ := full_tree hk (by norm_num : 2 ≤ 200) upd lib s args w rows hrow
      (by omega)
    unfold slidingTreeRun
    unfold SlidingState.initial at h1 ⊢
    dsimp only
    rw [h1, ok_bind, if_neg (by dsimp only; rw [h4]; decide)]
    exact ⟨_, rfl⟩

/-! ### The whole program -/

theorem main_window (sys : System ℝ ℝ) (pairs : List (String × String)) (m : ArgMap)
    (hm : parseArgs (commandLine pairs) = .ok m) (hmpi : m.val "mpi" ≠ "1")
    (hp : m.val "pipeline" = "") (d : Mode) (hd : d ∈ modes) (hmode : m.val "mode" = d.name)
    (kind : PipeKind) (hst : (d.stages = ["slidingwindow"] ∧ kind = .slidingWindow) ∨
      (d.stages = ["naivewindow"] ∧ kind = .naiveWindow))
    (hct : m.val "complexType" ∈ ["simplexArrayList", "simplexTree", "indSimplexTree"])
    (f : String) (hf : m.val "outputFile" = f) (hcon : f ≠ "console")
    (data : List (List ℝ)) (hread : (kind = .slidingWindow ∧ data = []) ∨
      (readCSV sys.inIO (sys.files (m.val "inputFile")) = .ok data ∧ data ≠ [] ∧ kind = .naiveWindow)) :
    mainProgram sys (commandLine pairs) =
      (sys.lib.rest kind ⟨data, data, [], .tree Tree.fresh [], [], [], []⟩ >>=
      fun w => pure ⟨⟨[pipeType kind], true, w⟩,
        [(f ++ "_stats.csv", .stats [pipeType kind]),
          (f ++ ".csv", .text (barcodeText sys.io w.bettiOutput))]⟩) := by
  obtain ⟨q1, q2, q3, q4, q5⟩ := C38_mode_selection m hmpi hp d hd hmode
  have hsome : ∀ o ∈ options, ((setPipeline m) o.1).isSome :=
    fun o ho => setPipeline_isSome m _ (parse_isSome pairs m hm o ho)
  have hpl : ((setPipeline m) "pipeline").isSome := hsome ("pipeline", "p", "") (by decide)
  have hout : ((setPipeline m) "outputFile").isSome :=
    hsome ("outputFile", "o", "output.csv") (by decide)
  have hout' : (setPipeline m) "outputFile" = some f := by
    apply some_of_val hout
    rw [q5 _ (by decide), hf]
  have hset : d.complexType = .force "simplexTree" ∧ d.upscale = .force "false" ∧
      d.preprocessor = .force "" ∧ d.name ≠ "reduced" := by
    clear q1 q2 q3 q4 q5 hmode hread
    have hst' : d.stages = ["slidingwindow"] ∨ d.stages = ["naivewindow"] := by tauto
    clear hst
    simp only [modes, List.mem_cons, List.not_mem_nil, or_false] at hd
    rcases hd with rfl | rfl | rfl | rfl | rfl | rfl | rfl | rfl | rfl <;>
      first
      | exact ⟨rfl, rfl, rfl, by decide⟩
      | (exfalso; revert hst'; decide)
  have hkinds : modeKinds d (m.val "complexType") = [kind] := by
    unfold modeKinds
    rcases hst with ⟨hst, rfl⟩ | ⟨hst, rfl⟩ <;> rw [hst] <;> rfl
  have hpipe : (setPipeline m).val "pipeline" = (if kind = .slidingWindow then "slidingwindow" else
      "naivewindow") := by
    rw [q1]
    rcases hst with ⟨hst, rfl⟩ | ⟨hst, rfl⟩ <;> rw [hst] <;> decide
  have hdata : (if (setPipeline m).val "pipeline" ≠ "slidingwindow" then
      readCSV sys.inIO (sys.files ((setPipeline m).val "inputFile")) else pure []) = .ok data := by
    rw [hpipe, q5 "inputFile" (by decide)]
    rcases hread with ⟨rfl, rfl⟩ | ⟨h, -, rfl⟩
    · rfl
    · simpa using h
  have hrun : data.length > 0 ∨ (setPipeline m).val "pipeline" = "slidingwindow" := by
    rcases hread with ⟨rfl, rfl⟩ | ⟨-, h, -⟩
    · exact Or.inr hpipe
    · exact Or.inl (List.length_pos_of_ne_nil h)
  have hq3 : (setPipeline m).val "complexType" = "simplexTree" := by rw [q3, hset.1]; rfl
  unfold mainProgram
  rw [hm, ok_bind]
  dsimp only
  rw [hdata, ok_bind]
  unfold dispatch
  rw [if_pos (by exact hrun), q4, hset.2.1, if_neg (show ¬ (Setting.force "false").apply (m.val "upscale") = "true" from
    (by decide : "false" ≠ "true")), q5 "mode" (by decide), hmode, if_neg hset.2.2.2]
  unfold processData preprocess
  rw [q2, hset.2.2.1, if_neg (show ¬ (Setting.force "").apply (m.val "preprocessor") ≠ "" from
    (by decide : ¬ "" ≠ "")), pure_eq_ok, ok_bind]
  unfold runPipelineOut
  rw [some_of_val hpl rfl]
  dsimp only
  rw [C60_known_modes_run_all_stages _ _ pairs m hm hmpi hp d hd hmode hct, hkinds, hq3]
  rw [fold_wrappers _ _ _ rfl, bind_assoc, List.foldlM_cons, bind_assoc]
  have hk : ∀ s (w : Work (List ℝ) ℝ), runStages sys.lib s kind w = sys.lib.rest kind w := by
    intro s w
    rcases hst with ⟨-, rfl⟩ | ⟨-, rfl⟩ <;> rfl
  rw [hk]
  congr 1
  funext w
  rw [List.foldlM_nil, pure_eq_ok, ok_bind, pure_eq_ok, ok_bind]
  unfold pipelineFiles
  rw [hout']
  simp only [hcon, if_false]
  rfl

/-- The command lines of C89 and C90: one of the given modes, a barcode file. -/
structure Spec.WindowCommand (pairs : List (String × String)) (m : ArgMap) (names : List String)
    (f : String) : Prop where
  parsed : parseArgs (commandLine pairs) = .ok m
  mpi : m.val "mpi" ≠ "1"
  pipeline : m.val "pipeline" = ""
  mode : m.val "mode" ∈ names
  complex : m.val "complexType" ∈ ["simplexArrayList", "simplexTree", "indSimplexTree"]
  output : m.val "outputFile" = f
  console : f ≠ "console"

/-- The stage `slidingwindow` of the system is the sliding window pipe; the rest of `updateStats` (`body`,
`after`) and what the sub-pipelines use (`lib`) can be anything. -/
def Spec.RunsSlidingWindow (sys : System ℝ ℝ) (m : ArgMap)
    (body : SlidingState → Nat → NNStats → Res NNStats) (after : SlidingState → NNStats → Res NNStats)
    (lib : Lib ℝ ℝ) : Prop :=
  ∀ w t dm, w.complex = .tree t dm → sys.lib.rest .slidingWindow w =
    slidingWork (updateStats body after) sys.inIO (sys.files (m.val "inputFile")) lib (settingsOf sys m)
      (setPipeline m) w t dm

/-- The stage `naivewindow` of the system is the naive window pipe. -/
def Spec.RunsNaiveWindow (sys : System ℝ ℝ) (m : ArgMap) (lib : Lib ℝ ℝ) : Prop :=
  ∀ w t dm, w.complex = .tree t dm → sys.lib.rest .naiveWindow w =
    naiveWork sys.inIO (sys.files (m.val "inputFile")) lib (settingsOf sys m) (setPipeline m) w

/-- The files of a program that found no interval. -/
def Spec.WritesOnlyHeader (f stage : String) (w : World (List ℝ) ℝ) : Prop :=
  w.files = [(f ++ "_stats.csv", .stats [stage]), (f ++ ".csv", .text "dimension,birth,death\n".toList)]

theorem header_only (io : TextNum ℝ) : barcodeText io [] = "dimension,birth,death\n".toList := by
  rw [barcodeText_eq]
  unfold barcodeContent
  rw [List.map_nil, List.flatten_nil, List.append_nil]

theorem sliding_mode {pairs : List (String × String)} {m : ArgMap} {f : String}
    (h : WindowCommand pairs m ["sw", "slidingwindow"] f) :
    ∃ d ∈ modes, m.val "mode" = d.name ∧ d.stages = ["slidingwindow"] := by
  have := h.mode
  simp only [List.mem_cons, List.not_mem_nil, or_false] at this
  rcases this with h | h
  · exact ⟨⟨"sw", ["slidingwindow"], .force "", .force "simplexTree", .force "false"⟩,
      by simp [modes], h, rfl⟩
  · exact ⟨⟨"slidingwindow", ["slidingwindow"], .force "", .force "simplexTree", .force "false"⟩,
      by simp [modes], h, rfl⟩

theorem naive_mode {pairs : List (String × String)} {m : ArgMap} {f : String}
    (h : WindowCommand pairs m ["naive", "naivewindow"] f) :
    ∃ d ∈ modes, m.val "mode" = d.name ∧ d.stages = ["naivewindow"] := by
  have := h.mode
  simp only [List.mem_cons, List.not_mem_nil, or_false] at this
  rcases this with h | h
  · exact ⟨⟨"naive", ["naivewindow"], .force "", .force "simplexTree", .force "false"⟩,
      by simp [modes], h, rfl⟩
  · exact ⟨⟨"naivewindow", ["naivewindow"], .force "", .force "simplexTree", .force "false"⟩,
      by simp [modes], h, rfl⟩

theorem window_keys {pairs : List (String × String)} {m : ArgMap}
    (hm : parseArgs (commandLine pairs) = .ok m) :
    ((setPipeline m) "dimensions").isSome ∧ ((setPipeline m) "epsilon").isSome ∧
      ((setPipeline m) "twist").isSome :=
  ⟨setPipeline_isSome m _ (parse_isSome pairs m hm ("dimensions", "d", "1") (by decide)),
    setPipeline_isSome m _ (parse_isSome pairs m hm ("epsilon", "e", "5") (by decide)),
    setPipeline_isSome m _ (parse_isSome pairs m hm ("twist", "t", "false") (by decide))⟩

/-- The program in the sliding window mode. -/
theorem main_sliding (sys : System ℝ ℝ) (pairs : List (String × String)) (m : ArgMap) (f : String)
    (h : WindowCommand pairs m ["sw", "slidingwindow"] f)
    (body : SlidingState → Nat → NNStats → Res NNStats) (after : SlidingState → NNStats → Res NNStats)
    (lib : Lib ℝ ℝ) (hrun : RunsSlidingWindow sys m body after lib) :
    mainProgram sys (commandLine pairs) =
      (streamAll sys.inIO (sys.files (m.val "inputFile")) >>= fun rows =>
      slidingTreeRun 200 (updateStats body after) lib (settingsOf sys m) (setPipeline m)
        ⟨[], [], [], .tree Tree.fresh [], [], [], []⟩ Tree.fresh [] rows >>= fun x =>
      pure ⟨⟨["SlidingWindow"], true, x.work ⟨[], [], [], .tree Tree.fresh [], [], [], []⟩⟩,
        [(f ++ "_stats.csv", .stats ["SlidingWindow"]),
          (f ++ ".csv", .text "dimension,birth,death\n".toList)]⟩) := by
  obtain ⟨d, hd, h1, h2⟩ := sliding_mode h
  rw [main_window sys pairs m h.parsed h.mpi h.pipeline d hd h1 .slidingWindow (Or.inl ⟨h2, rfl⟩) h.complex
    f h.output h.console [] (Or.inl ⟨rfl, rfl⟩), hrun _ _ _ rfl]
  unfold slidingWork
  rw [bind_assoc]
  congr 1
  funext rows
  rw [bind_assoc]
  congr 1

/-- C89, the claim that the code violates (the barcode file of the sliding window mode holds the intervals of
a window): whenever the program ends in this mode, the barcode file holds only its header, whatever the
stream. -/
theorem C89_no_interval_violated (sys : System ℝ ℝ) (pairs : List (String × String)) (m : ArgMap)
    (f : String) (h : WindowCommand pairs m ["sw", "slidingwindow"] f)
    (body : SlidingState → Nat → NNStats → Res NNStats) (after : SlidingState → NNStats → Res NNStats)
    (lib : Lib ℝ ℝ) (hrun : RunsSlidingWindow sys m body after lib)
    (w : World (List ℝ) ℝ) (hw : mainProgram sys (commandLine pairs) = .ok w) :
    WritesOnlyHeader f "SlidingWindow" w := by
  rw [main_sliding sys pairs m f h body after lib hrun] at hw
  obtain ⟨rows, -, hw⟩ := bind_ok.1 hw
  obtain ⟨x, -, hw⟩ := bind_ok.1 hw
  cases hw
  rfl

/-- C89: with at most 200 rows the program ends. -/
theorem C89_short_stream_partial (sys : System ℝ ℝ) (pairs : List (String × String)) (m : ArgMap)
    (f : String) (h : WindowCommand pairs m ["sw", "slidingwindow"] f)
    (body : SlidingState → Nat → NNStats → Res NNStats) (after : SlidingState → NNStats → Res NNStats)
    (lib : Lib ℝ ℝ) (hrun : RunsSlidingWindow sys m body after lib)
    (rows : List (List ℝ)) (hrows : streamAll sys.inIO (sys.files (m.val "inputFile")) = .ok rows)
    (k : Nat) (hk : 0 < k) (hdim : ∀ x ∈ rows, x.length = k) (hn : rows.length ≤ 200) :
    ∃ w, mainProgram sys (commandLine pairs) = .ok w ∧ WritesOnlyHeader f "SlidingWindow" w := by
  obtain ⟨k1, k2, k3⟩ := window_keys h.parsed
  obtain ⟨x, hx⟩ := sliding_tree_short (updateStats body after) lib (settingsOf sys m) (setPipeline m)
    k1 k2 k3 ⟨[], [], [], .tree Tree.fresh [], [], [], []⟩ rfl hk rows hdim hn
  rw [main_sliding sys pairs m f h body after lib hrun, hrows, ok_bind, hx, ok_bind]
  exact ⟨_, rfl, rfl⟩

/-- C89, exactly: with more than 200 rows the program ends if and only if every row after the 200th is
ordinary with respect to the first 200 (C67) and no two of the first 200 are closer than `epsilon`. -/
theorem C89_ends_iff (sys : System ℝ ℝ) (pairs : List (String × String)) (m : ArgMap)
    (f : String) (h : WindowCommand pairs m ["sw", "slidingwindow"] f)
    (body : SlidingState → Nat → NNStats → Res NNStats) (after : SlidingState → NNStats → Res NNStats)
    (lib : Lib ℝ ℝ) (hrun : RunsSlidingWindow sys m body after lib)
    (rows : List (List ℝ)) (hrows : streamAll sys.inIO (sys.files (m.val "inputFile")) = .ok rows)
    (k : Nat) (hk : 0 < k) (hdim : ∀ x ∈ rows, x.length = k) (hn : 200 < rows.length) :
    (∃ w, mainProgram sys (commandLine pairs) = .ok w) ↔
      (∀ x ∈ rows.drop 200, Ordinary k (rows.take 200) x) ∧
      ∀ i j, i < j → j < 200 → sys.atof (m.val "epsilon") ≤ rowDist k (rows.take 200) i j := by
  obtain ⟨k1, k2, k3⟩ := window_keys h.parsed
  have := sliding_tree_iff body after lib (settingsOf sys m) (setPipeline m) k1 k2 k3
    ⟨[], [], [], .tree Tree.fresh [], [], [], []⟩ hk rows hdim hn
  rw [main_sliding sys pairs m f h body after lib hrun, hrows, ok_bind]
  refine Iff.trans ?_ this
  constructor
  · rintro ⟨w, hw⟩
    obtain ⟨x, hx, -⟩ := bind_ok.1 hw
    exact ⟨x, hx⟩
  · rintro ⟨x, hx⟩
    rw [hx]
    exact ⟨_, rfl⟩

/-- C89: so a stream of more than 200 rows with two of the first 200 closer than `epsilon` is never
processed to the end. -/
theorem C89_close_points_violated (sys : System ℝ ℝ) (pairs : List (String × String)) (m : ArgMap)
    (f : String) (h : WindowCommand pairs m ["sw", "slidingwindow"] f)
    (body : SlidingState → Nat → NNStats → Res NNStats) (after : SlidingState → NNStats → Res NNStats)
    (lib : Lib ℝ ℝ) (hrun : RunsSlidingWindow sys m body after lib)
    (rows : List (List ℝ)) (hrows : streamAll sys.inIO (sys.files (m.val "inputFile")) = .ok rows)
    (k : Nat) (hk : 0 < k) (hdim : ∀ x ∈ rows, x.length = k) (hn : 200 < rows.length)
    (hclose : ∃ i j, i < j ∧ j < 200 ∧ rowDist k (rows.take 200) i j < sys.atof (m.val "epsilon")) :
    ∃ e, mainProgram sys (commandLine pairs) = .error e := by
  rcases hr : mainProgram sys (commandLine pairs) with e | w
  · exact ⟨e, rfl⟩
  · obtain ⟨i, j, hij, hj, hc⟩ := hclose
    exact absurd hc (not_lt.2 (((C89_ends_iff sys pairs m f h body after lib hrun rows hrows k hk hdim
      hn).1 ⟨w, hr⟩).2 i j hij hj))

/-! ### C90 -/

/-- Building the complex in the naive window. -/
theorem naive_init (lib : Lib ℝ ℝ) (hdist : lib.dist = vectorsDistance) (s : Settings ℝ) (args : ArgMap)
    (hdim : (args "dimensions").isSome) (heps : (args "epsilon").isSome) (htw : (args "twist").isSome)
    (w : Work (List ℝ) ℝ) (dm : List (List ℝ)) (hw : w.complex = .tree Tree.fresh dm)
    (k : Nat) (hk : 0 < k) (hrow : ∀ p ∈ w.originalData, p.length = k) :
    ∃ w', runSub lib s args "distMatrix.neighGraph" w = .ok w' := by
  rw [show "distMatrix.neighGraph" = pipelineOf ["distMatrix", "neighGraph"] by decide,
    runSub_eq lib s args ["distMatrix", "neighGraph"] [.distMatrix, .neighGraph] (by decide) (by decide)
      (by decide) hdim heps htw]
  obtain ⟨ws, h1, -, -⟩ := C11_distance_matrix_euclidean k hk w.originalData hrow s.eps
  obtain ⟨r, h1', e⟩ := (distMatrixPipe_weights vectorsDistance s.eps w.weights []
    w.originalData).of_ok h1
  obtain ⟨t, ht, -⟩ := tree_of_rows lib.sort s.eps s.dim k hk w.originalData hrow
  simp only [List.foldlM_cons, List.foldlM_nil]
  have e1 : subStages lib s .distMatrix w = .ok { w with
      complex := .tree Tree.fresh (pairTable k w.originalData), weights := r.2 } := by
    unfold subStages runStages
    dsimp only
    rw [hw]
    dsimp only
    rw [hdist, h1', ok_bind, e]
    rfl
  rw [e1, ok_bind]
  unfold subStages runStages
  dsimp only
  rw [ht]
  exact ⟨_, rfl⟩

/-- It leaves the intervals alone. -/
theorem naive_init_keeps (lib : Lib ℝ ℝ) (s : Settings ℝ) (args : ArgMap)
    (hdim : (args "dimensions").isSome) (heps : (args "epsilon").isSome) (htw : (args "twist").isSome)
    (w w' : Work (List ℝ) ℝ) (hw : ∃ t dm, w.complex = .tree t dm)
    (h : runSub lib s args "distMatrix.neighGraph" w = .ok w') :
    w'.bettiOutput = w.bettiOutput ∧ ∃ t dm, w'.complex = .tree t dm := by
  rw [show "distMatrix.neighGraph" = pipelineOf ["distMatrix", "neighGraph"] by decide,
    runSub_eq lib s args ["distMatrix", "neighGraph"] [.distMatrix, .neighGraph] (by decide) (by decide)
      (by decide) hdim heps htw] at h
  simp only [List.foldlM_cons, List.foldlM_nil] at h
  obtain ⟨t, dm, hw⟩ := hw
  obtain ⟨w1, h1, h⟩ := bind_ok.1 h
  obtain ⟨w2, h2, h⟩ := bind_ok.1 h
  cases h
  unfold subStages runStages at h1
  dsimp only at h1
  rw [hw] at h1
  obtain ⟨r, -, h1⟩ := bind_ok.1 h1
  cases h1
  unfold subStages runStages at h2
  obtain ⟨r, -, h2⟩ := bind_ok.1 h2
  cases h2
  exact ⟨rfl, _, _, rfl⟩

theorem naive_step_keeps (cap : Nat) (lib : Lib ℝ ℝ) (s : Settings ℝ) (args : ArgMap)
    (hdim : (args "dimensions").isSome) (heps : (args "epsilon").isSome) (htw : (args "twist").isSome)
    (rows : List (List ℝ)) (x y : NaiveState (List ℝ) × Work (List ℝ) ℝ)
    (hb : x.2.bettiOutput = []) (hc : ∃ t dm, x.2.complex = .tree t dm)
    (h : rows.foldlM (naiveTreeStep cap lib s args) x = .ok y) : y.2.bettiOutput = [] := by
  induction rows generalizing x with
  | nil => cases h; exact hb
  | cons row rows ih =>
    rw [List.foldlM_cons] at h
    obtain ⟨z, h1, h2⟩ := bind_ok.1 h
    have : z.2.bettiOutput = [] ∧ ∃ t dm, z.2.complex = .tree t dm := by
      unfold naiveTreeStep at h1
      obtain ⟨st, -, h1⟩ := bind_ok.1 h1
      split_ifs at h1 with c1 c2
      · obtain ⟨w, hw, h1⟩ := bind_ok.1 h1
        cases h1; cases hw
        exact ⟨hb, hc⟩
      · obtain ⟨w, hw, h1⟩ := bind_ok.1 h1
        cases h1
        have := naive_init_keeps lib s args hdim heps htw
          { x.2 with originalData := st.window } _ hc hw
        exact ⟨this.1.trans hb, this.2⟩
      · cases h1
        exact ⟨hb, hc⟩
    exact ih z this.1 this.2 h2

theorem naive_step_total (cap : Nat) (hcap : 0 < cap) (lib : Lib ℝ ℝ) (hdist : lib.dist = vectorsDistance)
    (s : Settings ℝ) (args : ArgMap)
    (hdim : (args "dimensions").isSome) (heps : (args "epsilon").isSome) (htw : (args "twist").isSome)
    (k : Nat) (hk : 0 < k)
    (rows : List (List ℝ)) (hrow : ∀ p ∈ rows, p.length = k) (x : NaiveState (List ℝ) × Work (List ℝ) ℝ)
    (hwin : ∀ p ∈ x.1.window, p.length = k) (hlen : x.1.window.length ≤ cap)
    (hc : x.1.window.length < cap → ∃ dm, x.2.complex = .tree Tree.fresh dm) :
    ∃ y, rows.foldlM (naiveTreeStep cap lib s args) x = .ok y := by
  induction rows generalizing x with
  | nil => exact ⟨x, rfl⟩
  | cons row rows ih =>
    rw [List.foldlM_cons]
    have hr := hrow row (by simp)
    have hstep : ∃ st, naiveStep cap true (fun _ => pure ()) x.1 row = .ok st ∧
        (∀ p ∈ st.window, p.length = k) ∧
        st.window.length = if x.1.window.length < cap then x.1.window.length + 1 else cap := by
      unfold naiveStep
      by_cases h1 : x.1.window.length < cap
      · rw [if_pos h1, if_pos h1]
        have hw2 : ∀ p ∈ x.1.window ++ [row], p.length = k := by
          intro p hp
          rcases List.mem_append.1 hp with hp | hp
          · exact hwin p hp
          · rw [List.mem_singleton.1 hp]; exact hr
        by_cases h2 : (x.1.window ++ [row]).length = cap
        · dsimp only
          rw [if_pos h2]
          refine ⟨_, rfl, ?_, ?_⟩
          · dsimp only; split_ifs <;> exact hw2
          · dsimp only; split_ifs <;> simp
        · dsimp only
          rw [if_neg h2]
          refine ⟨_, rfl, ?_, ?_⟩
          · dsimp only; split_ifs <;> exact hw2
          · dsimp only; split_ifs <;> simp
      · rw [if_neg h1, if_neg h1, naiveInsertIterative, if_pos rfl]
        unfold verase
        rw [if_pos (by omega), ok_bind]
        refine ⟨_, rfl, ?_, ?_⟩
        · have : ∀ p ∈ x.1.window.eraseIdx 0 ++ [row], p.length = k := by
            intro p hp
            rcases List.mem_append.1 hp with hp | hp
            · exact hwin p (List.mem_of_mem_eraseIdx hp)
            · rw [List.mem_singleton.1 hp]; exact hr
          dsimp only; split_ifs <;> exact this
        · have : (x.1.window.eraseIdx 0 ++ [row]).length = cap := by
            rw [List.length_append, List.length_eraseIdx_of_lt (by omega), List.length_singleton]
            omega
          dsimp only; split_ifs <;> exact this
    obtain ⟨st, h1, h2, h3⟩ := hstep
    have hst : st.window.length ≤ cap := by split_ifs at h3 <;> omega
    unfold naiveTreeStep
    rw [h1, ok_bind]
    by_cases hf : x.1.window.length < cap ∧ st.window.length = cap
    · obtain ⟨dm, hdm⟩ := hc hf.1
      obtain ⟨w', hw'⟩ := naive_init lib hdist s args hdim heps htw
        { x.2 with originalData := st.window } dm hdm k hk h2
      rw [if_pos hf, if_neg (by omega), hw', ok_bind]
      exact ih (fun p hp => hrow p (by simp [hp])) _ h2 hst (fun h => absurd hf.2 (ne_of_lt h))
    · rw [if_neg hf]
      refine ih (fun p hp => hrow p (by simp [hp])) _ h2 hst ?_
      intro h
      apply hc
      by_contra h4
      rw [if_neg h4] at h3
      exact absurd h3 (ne_of_lt h)

/-- The program in the naive window mode. -/
theorem main_naive (sys : System ℝ ℝ) (pairs : List (String × String)) (m : ArgMap) (f : String)
    (h : WindowCommand pairs m ["naive", "naivewindow"] f)
    (lib : Lib ℝ ℝ) (hrun : RunsNaiveWindow sys m lib) (data : List (List ℝ))
    (hread : readCSV sys.inIO (sys.files (m.val "inputFile")) = .ok data) (hne : data ≠ []) :
    mainProgram sys (commandLine pairs) =
      (naiveWork sys.inIO (sys.files (m.val "inputFile")) lib (settingsOf sys m) (setPipeline m)
        ⟨data, data, [], .tree Tree.fresh [], [], [], []⟩ >>= fun w =>
      pure ⟨⟨["NaiveWindow"], true, w⟩,
        [(f ++ "_stats.csv", .stats ["NaiveWindow"]),
          (f ++ ".csv", .text (barcodeText sys.io w.bettiOutput))]⟩) := by
  obtain ⟨d, hd, h1, h2⟩ := naive_mode h
  rw [main_window sys pairs m h.parsed h.mpi h.pipeline d hd h1 .naiveWindow (Or.inr ⟨h2, rfl⟩) h.complex
    f h.output h.console data (Or.inr ⟨hread, hne, rfl⟩), hrun _ _ _ rfl]
  rfl

theorem naiveWork_keeps (io : TextNum ℝ) (file : Option (List Char)) (lib : Lib ℝ ℝ) (s : Settings ℝ)
    (args : ArgMap)
    (hdim : (args "dimensions").isSome) (heps : (args "epsilon").isSome) (htw : (args "twist").isSome)
    (w w' : Work (List ℝ) ℝ)
    (hb : w.bettiOutput = []) (hc : ∃ t dm, w.complex = .tree t dm)
    (h : naiveWork io file lib s args w = .ok w') : w'.bettiOutput = [] := by
  unfold naiveWork at h
  obtain ⟨rows, -, h⟩ := bind_ok.1 h
  obtain ⟨x, hx, h⟩ := bind_ok.1 h
  cases h
  exact naive_step_keeps 50 lib s args hdim heps htw rows (⟨[], w.originalData, 1⟩, w) x hb hc hx

/-- C90, the claim that the code violates (the naive window mode reports the persistence intervals of the
window): whenever the program ends in this mode, the barcode file holds only its header. -/
theorem C90_no_interval_violated (sys : System ℝ ℝ) (pairs : List (String × String)) (m : ArgMap)
    (f : String) (h : WindowCommand pairs m ["naive", "naivewindow"] f)
    (lib : Lib ℝ ℝ) (hrun : RunsNaiveWindow sys m lib) (data : List (List ℝ))
    (hread : readCSV sys.inIO (sys.files (m.val "inputFile")) = .ok data) (hne : data ≠ [])
    (w : World (List ℝ) ℝ) (hw : mainProgram sys (commandLine pairs) = .ok w) :
    WritesOnlyHeader f "NaiveWindow" w := by
  rw [main_naive sys pairs m f h lib hrun data hread hne] at hw
  obtain ⟨w', h1, hw⟩ := bind_ok.1 hw
  cases hw
  obtain ⟨k1, k2, k3⟩ := window_keys h.parsed
  unfold WritesOnlyHeader
  rw [naiveWork_keeps _ _ lib _ _ k1 k2 k3 _ w' rfl ⟨_, _, rfl⟩ h1, header_only]

/-- C90: on rows with the same positive number of coordinates the program ends, whatever their number. -/
theorem C90_ends_partial (sys : System ℝ ℝ) (pairs : List (String × String)) (m : ArgMap)
    (f : String) (h : WindowCommand pairs m ["naive", "naivewindow"] f)
    (lib : Lib ℝ ℝ) (hdist : lib.dist = vectorsDistance)
    (hrun : RunsNaiveWindow sys m lib) (data rows : List (List ℝ))
    (hread : readCSV sys.inIO (sys.files (m.val "inputFile")) = .ok data) (hne : data ≠ [])
    (hrows : streamAll sys.inIO (sys.files (m.val "inputFile")) = .ok rows)
    (k : Nat) (hk : 0 < k) (hdim : ∀ x ∈ rows, x.length = k) :
    ∃ w, mainProgram sys (commandLine pairs) = .ok w ∧ WritesOnlyHeader f "NaiveWindow" w := by
  obtain ⟨k1, k2, k3⟩ := window_keys h.parsed
  have : ∃ w, mainProgram sys (commandLine pairs) = .ok w := by
    obtain ⟨y, hy⟩ := naive_step_total 50 (by norm_num) lib hdist (settingsOf sys m) (setPipeline m)
      k1 k2 k3 k hk rows hdim (⟨[], data, 1⟩, ⟨data, data, [], .tree Tree.fresh [], [], [], []⟩)
      (by simp) (by simp) (fun _ => ⟨_, rfl⟩)
    rw [main_naive sys pairs m f h lib hrun data hread hne]
    unfold naiveWork
    rw [hrows, ok_bind, hy, ok_bind]
    exact ⟨_, rfl⟩
  obtain ⟨w, hw⟩ := this
  exact ⟨w, hw, C90_no_interval_violated sys pairs m f h lib hrun data hread hne w hw⟩

/-! ### C91 -/

/-- The program with the pipeline distMatrix.neighGraph.rips.persistence. -/
theorem main_persistence (sys : System ℝ ℝ) (hdist : sys.lib.dist = vectorsDistance)
    (pairs : List (String × String)) (m : ArgMap) (hm : parseArgs (commandLine pairs) = .ok m)
    (hmpi : m.val "mpi" ≠ "1")
    (hp : m.val "pipeline" = "distMatrix.neighGraph.rips.persistence")
    (hmode : m.val "mode" ≠ "reduced") (hup : m.val "upscale" ≠ "true")
    (hpre : m.val "preprocessor" = "") (hct : m.val "complexType" = "simplexTree")
    (hcon : m.val "outputFile" ≠ "console")
    (lib : Lib ℝ ℝ) (hrun : ∀ w t dm, w.complex = .tree t dm →
      sys.lib.rest .persistencePairs w = persistWork lib (settingsOf sys m) w)
    (data : List (List ℝ)) (hread : readCSV sys.inIO (sys.files (m.val "inputFile")) = .ok data)
    (k : Nat) (hk : 0 < k) (hdim : ∀ x ∈ data, x.length = k)
    (hne : data ≠ []) :
    ∃ t, neighGraphTree (settingsOf sys m).eps (settingsOf sys m).dim (pairTable k data) data Tree.fresh
        = .ok t ∧
      SameRes (fun (w : World (List ℝ) ℝ) (lines : List (Line ℝ)) =>
          w.packet.data.bettiOutput = lines ∧
          w.packet.stats = ["DistMatrix", "neighGraph", "ripsPipe", "PersistencePairs"] ∧
          w.files.map Prod.fst = [m.val "outputFile" ++ "_stats.csv", m.val "outputFile" ++ ".csv"])
        (mainProgram sys (commandLine pairs))
        (runPersistencePairs (settingsOf sys m).dim (settingsOf sys m).eps
          (t.getAllEdges lib.sort).1) := by
  have hval := C38_explicit_pipeline_kept_partial m hmpi (by rw [hp]; decide)
  obtain ⟨k1, k2, k3⟩ := window_keys hm
  have hpl : (setPipeline m) "pipeline" =
      some (pipelineOf ["distMatrix", "neighGraph", "rips", "persistence"]) := by
    refine some_of_val (setPipeline_isSome m _ (parse_isSome pairs m hm ("pipeline", "p", "")
      (by decide))) ?_
    rw [hval, hp]; decide
  have hset : settingsOf sys (setPipeline m) = settingsOf sys m := by
    unfold settingsOf
    rw [hval, hval, hval]
  obtain ⟨ws, h1, -, -⟩ := C11_distance_matrix_euclidean k hk data hdim (settingsOf sys m).eps
  obtain ⟨t, ht, -⟩ := tree_of_rows lib.sort (settingsOf sys m).eps (settingsOf sys m).dim k hk data hdim
  refine ⟨t, ht, ?_⟩
  unfold mainProgram
  rw [hm, ok_bind]
  dsimp only
  rw [hval "pipeline", hp, if_pos (by decide), hval "inputFile", hread, ok_bind]
  unfold dispatch
  rw [if_pos (by exact Or.inl (List.length_pos_of_ne_nil hne)), hval "upscale", if_neg hup,
    hval "mode", if_neg hmode]
  unfold processData preprocess
  rw [hval "preprocessor", hpre, if_neg (by decide), pure_eq_ok, ok_bind]
  unfold runPipelineOut
  rw [hpl]
  dsimp only
  rw [runPipeline_kinds _ _ "simplexTree" (by rw [hval, hct]) _
    [.distMatrix, .neighGraph, .rips, .persistencePairs] hpl (by decide) (by decide) (by decide) k1 k2 k3,
    hval "complexType", hct, fold_wrappers _ _ _ rfl, bind_assoc]
  change SameRes _ (List.foldlM (fun d k => runStages sys.lib (settingsOf sys (setPipeline m)) k d) _ _ >>= _) _
  rw [hset]
  simp only [List.foldlM_cons, List.foldlM_nil]
  have e1 : runStages sys.lib (settingsOf sys m) .distMatrix (newPacket "simplexTree"
      (⟨data, data, [], newComplex "simplexTree", [], [], []⟩ : Work (List ℝ) ℝ)).data =
      .ok ⟨data, data, [], .tree Tree.fresh (pairTable k data), ws, [], []⟩ := by
    show (distMatrixPipe sys.lib.dist (settingsOf sys m).eps [] data >>= _) = _
    rw [hdist, h1, ok_bind]
    rfl
  have e2 : runStages sys.lib (settingsOf sys m) .neighGraph
      (⟨data, data, [], .tree Tree.fresh (pairTable k data), ws, [], []⟩ : Work (List ℝ) ℝ) =
      .ok ⟨data, data, [], .tree t (pairTable k data), ws, [], []⟩ := by
    show (neighGraphTree (settingsOf sys m).eps (settingsOf sys m).dim (pairTable k data) data
      Tree.fresh >>= _) = _
    rw [ht, ok_bind]
    rfl
  have e3 : runStages sys.lib (settingsOf sys m) .rips
      (⟨data, data, [], .tree t (pairTable k data), ws, [], []⟩ : Work (List ℝ) ℝ) =
      .ok ⟨data, data, [], .tree t (pairTable k data), ws, [], []⟩ := by
    show (ripsPipeTree sys.lib.treeBody (settingsOf sys m).collapse t >>= _) = _
    rw [C81_collapse_no_effect]
    rfl
  have e4 : runStages sys.lib (settingsOf sys m) .persistencePairs
      (⟨data, data, [], .tree t (pairTable k data), ws, [], []⟩ : Work (List ℝ) ℝ) =
      (runPersistencePairs (settingsOf sys m).dim (settingsOf sys m).eps (t.getAllEdges lib.sort).1 >>=
      fun lines => pure ⟨data, data, [], .tree (t.getAllEdges lib.sort).2 (pairTable k data), ws, [],
        lines⟩) := by
    show sys.lib.rest .persistencePairs _ = _
    rw [hrun _ _ _ rfl]
    rfl
  rw [e1, ok_bind, e2, ok_bind, e3, ok_bind, e4]
  have hout : (setPipeline m) "outputFile" = some (m.val "outputFile") := by
    refine some_of_val (setPipeline_isSome m _ (parse_isSome pairs m hm ("outputFile", "o", "output.csv")
      (by decide))) ?_
    rw [hval]
  cases runPersistencePairs (settingsOf sys m).dim (settingsOf sys m).eps (t.getAllEdges lib.sort).1 with
  | error e => rfl
  | ok lines =>
    simp only [pure_eq_ok, ok_bind]
    unfold pipelineFiles
    rw [hout]
    simp only [hcon, if_false]
    exact ⟨rfl, rfl, rfl⟩

/-- C91, the claim that the code violates (the stage `persistence` yields the barcode of the complex before
it): for every command line that gives the pipeline distMatrix.neighGraph.rips.persistence with the default
complex, and every input file whose rows are points of ℝ^k of which some two are closer than `epsilon`, the
program does not get to its end: the stage reads past the end of a vector. -/
theorem C91_persistence_pipeline_violated (sys : System ℝ ℝ) (hdist : sys.lib.dist = vectorsDistance)
    (pairs : List (String × String)) (m : ArgMap) (hm : parseArgs (commandLine pairs) = .ok m)
    (hmpi : m.val "mpi" ≠ "1")
    (hp : m.val "pipeline" = "distMatrix.neighGraph.rips.persistence")
    (hmode : m.val "mode" ≠ "reduced") (hup : m.val "upscale" ≠ "true")
    (hpre : m.val "preprocessor" = "") (hct : m.val "complexType" = "simplexTree")
    (hcon : m.val "outputFile" ≠ "console")
    (lib : Lib ℝ ℝ) (hrun : ∀ w t dm, w.complex = .tree t dm →
      sys.lib.rest .persistencePairs w = persistWork lib (settingsOf sys m) w)
    (data : List (List ℝ)) (hread : readCSV sys.inIO (sys.files (m.val "inputFile")) = .ok data)
    (k : Nat) (hk : 0 < k) (hdim : ∀ x ∈ data, x.length = k)
    (hclose : ∃ i j, i < j ∧ j < data.length ∧ rowDist k data i j < sys.atof (m.val "epsilon")) :
    mainProgram sys (commandLine pairs) = .error .oob := by
  have hne : data ≠ [] := by
    obtain ⟨i, j, -, hj, -⟩ := hclose
    rintro rfl
    simp at hj
  obtain ⟨t, ht, h⟩ := main_persistence sys hdist pairs m hm hmpi hp hmode hup hpre hct hcon lib hrun data
    hread k hk hdim hne
  exact h.error_of ((window_pairs lib.sort (settingsOf sys m).eps (settingsOf sys m).dim k hk data hne
    hdim t ht).1 hclose)

/-- C91 (partial): when no two points are closer than `epsilon`, the program ends and writes its two files; the
intervals for the barcode file are one from 0 to `epsilon` for each point if `dimensions` is at least 2, and
none otherwise. -/
theorem C91_isolated_points_partial (sys : System ℝ ℝ) (hdist : sys.lib.dist = vectorsDistance)
    (pairs : List (String × String)) (m : ArgMap) (hm : parseArgs (commandLine pairs) = .ok m)
    (hmpi : m.val "mpi" ≠ "1")
    (hp : m.val "pipeline" = "distMatrix.neighGraph.rips.persistence")
    (hmode : m.val "mode" ≠ "reduced") (hup : m.val "upscale" ≠ "true")
    (hpre : m.val "preprocessor" = "") (hct : m.val "complexType" = "simplexTree")
    (hcon : m.val "outputFile" ≠ "console")
    (lib : Lib ℝ ℝ) (hrun : ∀ w t dm, w.complex = .tree t dm →
      sys.lib.rest .persistencePairs w = persistWork lib (settingsOf sys m) w)
    (data : List (List ℝ)) (hread : readCSV sys.inIO (sys.files (m.val "inputFile")) = .ok data)
    (k : Nat) (hk : 0 < k) (hdim : ∀ x ∈ data, x.length = k)
    (hne : data ≠ [])
    (hfar : ∀ i j, i < j → j < data.length → sys.atof (m.val "epsilon") ≤ rowDist k data i j) :
    ∃ w, mainProgram sys (commandLine pairs) = .ok w ∧
      w.packet.data.bettiOutput = (if 2 ≤ sys.atoi (m.val "dimensions") then
        List.replicate data.length (0, 0, sys.atof (m.val "epsilon")) else []) ∧
      w.packet.stats = ["DistMatrix", "neighGraph", "ripsPipe", "PersistencePairs"] ∧
      w.files.map Prod.fst = [m.val "outputFile" ++ "_stats.csv", m.val "outputFile" ++ ".csv"] := by
  obtain ⟨t, ht, h⟩ := main_persistence sys hdist pairs m hm hmpi hp hmode hup hpre hct hcon lib hrun data
    hread k hk hdim hne
  obtain ⟨w, h1, h2⟩ := h.of_ok (isolated_pairs lib.sort (settingsOf sys m).eps (settingsOf sys m).dim k hk
    data hne hdim t ht hfar)
  exact ⟨w, h1, h2⟩

/-- The hypotheses of C91. -/
example : ∃ m, parseArgs (commandLine [("-p", "distMatrix.neighGraph.rips.persistence")]) = .ok m ∧
    m.val "mpi" ≠ "1" ∧ m.val "pipeline" = "distMatrix.neighGraph.rips.persistence" ∧
    m.val "mode" ≠ "reduced" ∧ m.val "upscale" ≠ "true" ∧ m.val "preprocessor" = "" ∧
    m.val "complexType" = "simplexTree" ∧ m.val "outputFile" ≠ "console" :=
  ⟨_, rfl, by decide, by decide, by decide, by decide, by decide, by decide, by decide⟩

/-! ### Examples -/

/-- `realSystem` with the two window stages, reading only the digits of a number. -/
noncomputable def Spec.windowSystem (m : ArgMap) (text : String) : System ℝ ℝ :=
  let sys : System ℝ ℝ := { realSystem [] [] text with
    inIO := ⟨fun _ => [], fun s => .ok
      (((s.filter Char.isDigit).foldl (fun n c => 10 * n + (c.toNat - 48)) 0 : Nat) : ℝ),
      fun _ => [], fun _ => .error .exn⟩ }
  { sys with lib := { sys.lib with rest := fun k w =>
    match k, w.complex with
    | .slidingWindow, .tree t dm => slidingWork (updateStats (fun _ _ s => .ok s) (fun _ s => .ok s))
        sys.inIO (sys.files (m.val "inputFile")) sys.lib (settingsOf sys m) (setPipeline m) w t dm
    | .naiveWindow, .tree _ _ => naiveWork
        sys.inIO (sys.files (m.val "inputFile")) sys.lib (settingsOf sys m) (setPipeline m) w
    | _, _ => .ok w } }

theorem windowSystem_sliding (m : ArgMap) (text : String) :
    RunsSlidingWindow (windowSystem m text) m (fun _ _ s => .ok s) (fun _ s => .ok s)
      (realSystem [] [] text).lib := by
  intro w t dm hw
  unfold windowSystem
  dsimp only
  rw [hw]
  rfl

theorem windowSystem_naive (m : ArgMap) (text : String) :
    RunsNaiveWindow (windowSystem m text) m (realSystem [] [] text).lib := by
  intro w t dm hw
  unfold windowSystem
  dsimp only
  rw [hw]
  rfl

/-- A file of 201 equal lines. -/
def Spec.longText : String := String.ofList (List.replicate 201 ['1', '0', '\n']).flatten

theorem longText_rows (m : ArgMap) :
    streamAll (windowSystem m longText).inIO ((windowSystem m longText).files (m.val "inputFile")) =
      .ok (List.replicate 201 [((10 : Nat) : ℝ)]) := by
  have h1 : fgetsAll 999 [] longText.toList = List.replicate 201 ['1', '0', '\n'] := by decide +kernel
  have h2 : ∀ n, streamRows (windowSystem m longText).inIO (List.replicate n ['1', '0', '\n']) =
      .ok (List.replicate n [((10 : Nat) : ℝ)]) := by
    intro n
    induction n with
    | zero => rfl
    | succ n ih =>
      rw [List.replicate_succ, streamRows]
      have : parseDoubleVector (windowSystem m longText).inIO ['1', '0', '\n'] =
          .ok (some [((10 : Nat) : ℝ)]) := rfl
      rw [this, ok_bind]
      dsimp only
      rw [ih, ok_bind]
      rfl
  have h3 : (windowSystem m longText).files (m.val "inputFile") = some longText.toList := rfl
  rw [h3, streamAll, h1, h2]

/-- The hypotheses of C89, with 201 rows of which two of the first 200 are closer than 5. -/
example : ∃ m, WindowCommand [("-i", "data.csv"), ("-m", "sw"), ("-o", "bars")] m
      ["sw", "slidingwindow"] "bars" ∧
    RunsSlidingWindow (windowSystem m longText) m (fun _ _ s => .ok s) (fun _ s => .ok s)
      (realSystem [] [] longText).lib ∧
    streamAll (windowSystem m longText).inIO ((windowSystem m longText).files (m.val "inputFile")) =
      .ok (List.replicate 201 [((10 : Nat) : ℝ)]) ∧
    rowDist 1 ((List.replicate 201 [((10 : Nat) : ℝ)]).take 200) 0 1 <
      (windowSystem m longText).atof (m.val "epsilon") := by
  refine ⟨_, ⟨rfl, by decide, by decide, by decide, by decide, by decide, by decide⟩,
    windowSystem_sliding _ _, longText_rows _, ?_⟩
  show dist (point 1 [((10 : Nat) : ℝ)]) (point 1 [((10 : Nat) : ℝ)]) < 5
  rw [dist_self]; norm_num

/-- The hypotheses of `C89_short_stream_partial` and of C90. -/
example : ∃ m, WindowCommand [("-i", "data.csv"), ("-m", "naive"), ("-o", "bars")] m
      ["naive", "naivewindow"] "bars" ∧
    RunsNaiveWindow (windowSystem m "00\n03\n09") m (realSystem [] [] "00\n03\n09").lib ∧
    streamAll (windowSystem m "00\n03\n09").inIO
        ((windowSystem m "00\n03\n09").files (m.val "inputFile")) =
      .ok [[((0 : Nat) : ℝ)], [((3 : Nat) : ℝ)], [((9 : Nat) : ℝ)]] ∧
    readCSV (windowSystem m "00\n03\n09").inIO
        ((windowSystem m "00\n03\n09").files (m.val "inputFile")) =
      .ok [[((0 : Nat) : ℝ)], [((3 : Nat) : ℝ)], [((9 : Nat) : ℝ)]] :=
  ⟨_, ⟨rfl, by decide, by decide, by decide, by decide, by decide, by decide⟩,
    windowSystem_naive _ _, rfl, rfl⟩

end LHF
