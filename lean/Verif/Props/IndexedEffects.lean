import Verif.Props.SideFiles
import Verif.Props.Log
import Verif.Props.IndexedPivots
import Verif.Props.IndexedProgram

/-! C101, C104 and C105 on an `indSimplexTree`. -/

namespace LHF
open Spec

section
variable {env : Surround ℝ ℝ} {io : TextNum ℝ} {lib : Lib ℝ ℝ} {args : ArgMap} {debug : Bool}
  {s : Settings ℝ}

/-- The four default stages on an unused `indSimplexTree`, with their effects. -/
theorem indexed_effects (hdist : lib.dist = vectorsDistance) (x : Work (List ℝ) ℝ × Effects)
    (dm0 : List (List ℝ)) (hcx : x.1.complex = .indexed ITree.fresh dm0)
    (hcol : s.collapse ≠ "true" ∧ s.collapse ≠ "1") (hn : x.1.originalData ≠ [])
    (k : Nat) (hk : 0 < k) (hdim : ∀ p ∈ x.1.originalData, p.length = k)
    (y : Work (List ℝ) ℝ × Effects)
    (hy : fastKinds.foldlM (fun d k => stageWithEffects env io lib args debug (runStages lib s) k d) x =
      .ok y) :
    ∃ (n N : Nat) (L : List (List Nat × ℝ)),
      n = x.1.originalData.length ∧
      N = simplexTotal n (fun i j => rowDist k x.1.originalData i j < s.eps) (max 1 s.dim + 1) ∧
      ListsSimplices L n (rowDist k x.1.originalData)
        (fun i j => rowDist k x.1.originalData i j < s.eps) 1 (max 1 s.dim + 1) ∧
      y.2.rows = x.2.rows ++ fourRows (8 * (n * k)) env.indSize N N N N ∧
      y.2.writes = x.2.writes ++ fourWrites env args debug x.2.rows.length (8 * (n * k)) env.indSize N N N
        [matrixFile env k x.1.originalData]
        [⟨"output/neighGraph_output.csv", .replace, simplexText env io L ++ ['\n']⟩] []
        (bettiFiles io args y.1.bettiOutput) := by
  obtain ⟨ws0, c1, -, -⟩ := C11_distance_matrix_euclidean k hk x.1.originalData hdim s.eps
  obtain ⟨⟨dm, ws⟩, d1, (d2 : dm = _)⟩ :=
    (distMatrixPipe_weights vectorsDistance s.eps x.1.weights [] x.1.originalData).of_ok c1
  have hdm : dm = table x.1.originalData.length (fun i j =>
      if i < j then rowDist k x.1.originalData i j else 0) := d2
  clear d2
  have hn0 : x.1.originalData.length ≠ 0 := by simpa using hn
  have hne : dm ≠ [] := by
    apply List.ne_nil_of_length_pos
    rw [hdm]
    simp [table]; omega
  have hat : ∀ i j, i < j → j < x.1.originalData.length →
      at2 dm i j = .ok (rowDist k x.1.originalData i j) := by
    intro i j hij hj
    rw [hdm]
    exact at2_table hij hj
  have e1 : runStages lib s .distMatrix x.1 =
      .ok { x.1 with complex := .indexed ITree.fresh dm, weights := ws } := by
    unfold runStages; rw [hcx, hdist]; dsimp only; rw [d1]; rfl
  unfold fastKinds at hy
  simp only [List.foldlM_cons, List.foldlM_nil] at hy
  rw [stage_ok (bytes := 8 * (x.1.originalData.length * k)) (v := 0) (c := 0)
    (w := { x.1 with complex := .indexed ITree.fresh dm, weights := ws })
    (r := ({ x.1 with complex := .indexed ITree.fresh dm, weights := ws }, [matrixFile env k x.1.originalData]))
    (by
      rw [packetSize_eq (k := k) env _ (by exact hdim)]
      simp [AnyComplex.getSize, ITree.fresh]) e1 rfl rfl (by
      unfold outputData; dsimp only
      rw [← matrix_text, ← hdm]; rfl), ok_bind] at hy
  simp only [ite_self] at hy
  have e2' : runStages lib s .neighGraph { x.1 with complex := .indexed ITree.fresh dm, weights := ws } =
      (ITree.insertN s.eps s.dim dm x.1.originalData.length ITree.fresh >>= fun t =>
        pure { x.1 with complex := .indexed t dm, weights := ws }) := by
    rw [← neighGraphIndexed_eq _ _ _ _ (rows_ne_nil hk hdim)]
    unfold runStages; rfl
  cases hins : ITree.insertN s.eps s.dim dm x.1.originalData.length ITree.fresh with
  | error e =>
    rw [hins, error_bind] at e2'
    unfold stageWithEffects at hy
    simp only [e2', error_bind] at hy
    cases hy
  | ok t =>
  have e2 : runStages lib s .neighGraph { x.1 with complex := .indexed ITree.fresh dm, weights := ws } =
      .ok { x.1 with complex := .indexed t dm, weights := ws } := by
    rw [e2', hins]; rfl
  obtain ⟨u, tt, g1, q, -⟩ := indexAllPivots_spec (fun _ _ => dist_nonneg) lib.isort hn0 hne hat hins s.dim
  set N := simplexTotal x.1.originalData.length (fun i j => rowDist k x.1.originalData i j < s.eps)
    (max 1 s.dim + 1) with hNdef
  set L := (shown u.graph).flatten with hL
  have hN : t.store.nodeCount = N := by
    rw [q.rel.cnt]; exact (inv_counts q.inv).1
  have hu : u.store.nodeCount = N := by rw [q.built.cnt, hN]
  have hlist : ListsSimplices L x.1.originalData.length (rowDist k x.1.originalData)
        (fun i j => rowDist k x.1.originalData i j < s.eps) 1 (max 1 s.dim + 1) :=
    lists_of_stores (shown_stores q)
  have ht1 : t.getAllEdges lib.isort = .ok (shown u.graph, u) := by
    unfold ITree.getAllEdges
    rw [g1, ok_bind]
    rfl
  have hu1 : u.getAllEdges lib.isort = .ok (shown u.graph, u) := by
    unfold ITree.getAllEdges ITree.getIndexEdges
    rw [if_neg (by
      rw [q.built.dims]
      simpa using rel_dims_ne q.inv q.rel hn0), if_pos q.built.sorted]
    rfl
  have size : ∀ (w : Work (List ℝ) ℝ) (t' : ITree ℝ), w.originalData = x.1.originalData →
      w.complex = .indexed t' dm → t'.store.nodeCount = N →
      packetSize env w = 8 * (x.1.originalData.length * k) + N * env.indSize := by
    intro w t' hw hc hn
    rw [packetSize_eq env w (by rw [hw]; exact hdim), hw, hc]
    show _ + t'.store.nodeCount.toNat * env.indSize = _
    rw [hn, Int.toNat_natCast]
  refine ⟨_, N, L, rfl, hNdef, hlist, ?_⟩
  rw [stage_ok (bytes := 8 * (x.1.originalData.length * k) + N * env.indSize)
    (v := (N : Int)) (c := (N : Int))
    (w := { x.1 with complex := .indexed t dm, weights := ws })
    (r := ({ x.1 with complex := .indexed u dm, weights := ws },
      [⟨"output/neighGraph_output.csv", .replace, simplexText env io L ++ ['\n']⟩]))
    (size _ t rfl rfl hN) e2 (by
      show (Except.ok t.store.nodeCount : Res Int) = _
      rw [hN]) hN (by
      unfold outputData; dsimp only
      rw [ht1, ok_bind, ← simplexText_eq]; rfl), ok_bind] at hy
  obtain ⟨t', ht', hcnt, hw⟩ : ∃ t' : ITree ℝ, t'.getAllEdges lib.isort = .ok (shown u.graph, u) ∧
      t'.store.nodeCount = N ∧
      (if debug = true then ({ x.1 with complex := .indexed u dm, weights := ws } :
        Work (List ℝ) ℝ) else { x.1 with complex := .indexed t dm, weights := ws }) =
      { x.1 with complex := .indexed t' dm, weights := ws } := by
    cases debug
    · exact ⟨t, ht1, hN, rfl⟩
    · exact ⟨u, hu1, hu, rfl⟩
  simp only [hw] at hy
  have e3 : runStages lib s .rips { x.1 with complex := .indexed t' dm, weights := ws } =
      .ok { x.1 with complex := .indexed t' dm, weights := ws } := by
    unfold runStages ripsPipeIndexed
    dsimp only
    rw [if_neg (by rintro (c | c); exacts [hcol.1 c, hcol.2 c])]
    rfl
  rw [stage_ok (bytes := 8 * (x.1.originalData.length * k) + N * env.indSize)
    (v := (N : Int)) (c := (N : Int))
    (w := { x.1 with complex := .indexed t' dm, weights := ws })
    (r := ({ x.1 with complex := .indexed t' dm, weights := ws }, []))
    (size _ t' rfl rfl hcnt) e3 (by
      show (Except.ok t'.store.nodeCount : Res Int) = _
      rw [hcnt]) hcnt (by
      unfold outputData; rfl), ok_bind] at hy
  simp only [ite_self] at hy
  have e4 : runStages lib s .fastPersistence { x.1 with complex := .indexed t' dm, weights := ws } =
      (fastPersistence lib.mode s.dim s.eps (shown u.graph) x.1.bettiOutput x.1.bettiTable >>= fun r =>
        pure { x.1 with complex := .indexed u dm, weights := ws,
                        bettiOutput := r.1, bettiTable := r.2 }) := by
    unfold runStages; dsimp only; rw [ht', ok_bind]
  cases hf : fastPersistence lib.mode s.dim s.eps (shown u.graph) x.1.bettiOutput x.1.bettiTable with
  | error e =>
    rw [hf, error_bind] at e4
    unfold stageWithEffects at hy
    simp only [e4, error_bind] at hy
    cases hy
  | ok r =>
    rw [hf, ok_bind, pure_eq_ok] at e4
    rw [stage_ok (bytes := 8 * (x.1.originalData.length * k) + N * env.indSize)
      (v := (N : Int)) (c := (N : Int))
      (w := { x.1 with complex := .indexed u dm, weights := ws,
                       bettiOutput := r.1, bettiTable := r.2 })
      (r := ({ x.1 with complex := .indexed u dm, weights := ws,
                        bettiOutput := r.1, bettiTable := r.2 }, bettiFiles io args r.1))
      (size _ _ rfl rfl hu) e4 (by
        show (Except.ok u.store.nodeCount : Res Int) = _
        rw [hu]) hu (by
        unfold outputData; dsimp only
        rw [bettiFiles_eq]; rfl), ok_bind] at hy
    simp only [ite_self] at hy
    rw [pure_eq_ok] at hy
    cases hy
    constructor
    · simp only [List.append_assoc, List.cons_append, List.nil_append]
      rfl
    · simp only [List.append_assoc, List.length_append, List.length_cons, List.length_nil, fourWrites,
        Nat.zero_add]
      rfl

end

/-- There are more simplices than points as soon as two points are close. -/
theorem total_gt {L : List (List Nat × ℝ)} {n c : Nat} {d : Nat → Nat → ℝ} {near : Nat → Nat → Prop}
    (hL : ListsSimplices L n d near 1 c) (hc : 2 ≤ c) {i j : Nat} (hij : i < j) (hj : j < n)
    (hnear : near i j) : n < simplexTotal n near c := by
  have hone : ∀ a, a < n → IsSimplex n near [a] := by
    intro a ha
    refine ⟨by simp, by simp, by simpa using ha, ?_⟩
    intro x hx y hy hxy
    simp only [List.mem_singleton] at hx hy
    omega
  have htwo : IsSimplex n near [i, j] := by
    refine ⟨by simp, by simpa using hij, by intro v hv; simp at hv; omega, ?_⟩
    intro a ha b hb hab
    simp only [List.mem_cons, List.not_mem_nil, or_false] at ha hb
    have : a = i ∧ b = j := by omega
    rw [this.1, this.2]
    exact hnear
  have hsub : ((insert [i, j] ((Finset.range n).image fun a => [a]) : Finset (List Nat)) : Set (List Nat)) ⊆
      {s : List Nat | IsSimplex n near s ∧ s.length ≤ c} := by
    intro s hs
    simp only [Finset.coe_insert, Finset.coe_image, Finset.coe_range, Set.mem_insert_iff, Set.mem_image,
      Set.mem_Iio] at hs
    rcases hs with rfl | ⟨a, ha, rfl⟩
    · exact ⟨htwo, hc⟩
    · exact ⟨hone a ha, by simp; omega⟩
  have hfin : {s : List Nat | IsSimplex n near s ∧ s.length ≤ c}.Finite := by
    apply ((L.map Prod.fst).toFinset.finite_toSet).subset
    intro s hs
    simp only [List.coe_toFinset, Set.mem_ofPred_eq, List.mem_map]
    exact ⟨(s, diam d s), (hL.exact s _).2 ⟨hs.1, List.length_pos_of_ne_nil hs.1.1, hs.2, rfl⟩, rfl⟩
  have h1 := Set.ncard_le_ncard hsub hfin
  rw [Set.ncard_coe_finset, Finset.card_insert_of_notMem (by simp),
    Finset.card_image_of_injective _ (fun a b h => by simpa using h), Finset.card_range] at h1
  exact h1

section
variable {sys : System ℝ ℝ} {env : Surround ℝ ℝ} {pairs : List (String × String)} {m : ArgMap}
  {f : String} {data : List (List ℝ)} {kind : Option PreKind} {pts : List (List ℝ)} {labels : List Nat}

/-- C101, `indSimplexTree` (no collapse): the statistics file has the header, a row for the preprocessor if there
is one, and one row for each stage in order, with the size of points and complex and the number of simplices
(pairwise distances `< epsilon`) at the end of the stage. But the number of simplices is also given as the
number of vertices. -/
theorem C101_indexed_statistics_partial (hdist : sys.lib.dist = vectorsDistance)
    (h : StandardCommand sys pairs m "indSimplexTree" f data) (hpts : PointsOf sys m data pts labels kind)
    (hcol : m.val "collapse" ≠ "true" ∧ m.val "collapse" ≠ "1") (hne : pts ≠ [])
    (k : Nat) (hk : 0 < k) (hdim : ∀ p ∈ pts, p.length = k) (y : World (List ℝ) ℝ × Effects)
    (hy : mainEffects sys env (commandLine pairs) = .ok y) :
    let n := pts.length
    let N := simplexTotal n (fun i j => rowDist k pts i j < sys.atof (m.val "epsilon"))
      (max 1 (sys.atoi (m.val "dimensions")) + 1)
    ∀ opens before, opens (f ++ "_stats.csv") = true →
      contentAfter opens (f ++ "_stats.csv") before y.2.writes = some (statsContent env
        (preRows kind ++ fourRows (8 * (n * k)) env.indSize N N N N)) := by
  intro n N opens before hopen
  obtain ⟨z, h1, -, -, h4, -⟩ := main_effects_points (by decide) h hpts y hy
  obtain ⟨n', N', L, rfl, rfl, -, h5, -⟩ := indexed_effects hdist _ [] rfl hcol hne k hk hdim z h1
  rw [h4, contentAfter_last hopen (by
    intro w hw
    rw [List.mem_singleton] at hw
    subst hw
    exact name_ne (by decide)), h5, statsText_eq]

/-- C101 fails on an `indSimplexTree` as soon as two points are close: the number of vertices in the rows of
`neighGraph`, `ripsPipe` and `FastPersistence` is larger than the number of points. -/
theorem C101_indexed_vertices_violated (hdist : sys.lib.dist = vectorsDistance)
    (h : StandardCommand sys pairs m "indSimplexTree" f data) (hpts : PointsOf sys m data pts labels kind)
    (hcol : m.val "collapse" ≠ "true" ∧ m.val "collapse" ≠ "1")
    (k : Nat) (hk : 0 < k) (hdim : ∀ p ∈ pts, p.length = k)
    (hedge : ∃ i j, i < j ∧ j < pts.length ∧ rowDist k pts i j < sys.atof (m.val "epsilon"))
    (y : World (List ℝ) ℝ × Effects) (hy : mainEffects sys env (commandLine pairs) = .ok y)
    (opens : String → Bool) (before : Option (List Char)) (hopen : opens (f ++ "_stats.csv") = true) :
    ∃ b1 b2 v s : Nat, pts.length < v ∧
      contentAfter opens (f ++ "_stats.csv") before y.2.writes = some (statsContent env
        (preRows kind ++ [.stage "DistMatrix" b1 0 0, .stage "neighGraph" b2 v s, .stage "ripsPipe" b2 v s,
          .stage "FastPersistence" b2 v s])) := by
  obtain ⟨i, j, hij, hj, hnear⟩ := hedge
  have hne : pts ≠ [] := by rintro rfl; simp at hj
  have key := C101_indexed_statistics_partial hdist h hpts hcol hne k hk hdim y hy opens before hopen
  obtain ⟨z, h1, -, -, h4, -⟩ := main_effects_points (by decide) h hpts y hy
  obtain ⟨n', N', L, rfl, rfl, hL, -, -⟩ := indexed_effects hdist _ [] rfl hcol hne k hk hdim z h1
  exact ⟨_, _, _, _, total_gt hL (by omega) hij hj hnear, key⟩

/-- C104, `indSimplexTree` (no collapse): with `debug` on, the file of the distance matrix has the distances, that
of `fastPersistence` the lines of the barcode, those of the preprocessor its points and labels. The file of
`neighGraph` lists not the edges but all simplices of the complex. -/
theorem C104_indexed_files_partial (hdist : sys.lib.dist = vectorsDistance)
    (h : StandardCommand sys pairs m "indSimplexTree" f data) (hpts : PointsOf sys m data pts labels kind)
    (hcol : m.val "collapse" ≠ "true" ∧ m.val "collapse" ≠ "1") (hne : pts ≠ [])
    (hdebug : sys.atoi (m.val "debug") ≠ 0) (hout : Outside f)
    (k : Nat) (hk : 0 < k) (hdim : ∀ p ∈ pts, p.length = k) (y : World (List ℝ) ℝ × Effects)
    (hy : mainEffects sys env (commandLine pairs) = .ok y)
    (opens : String → Bool) (ho : OutputOpens opens) (before : Option (List Char)) :
    ∃ lines t L, WritesBarcodeAfter (preStats kind) sys.io f lines y.1 ∧
      barcodeContent sys.io lines = "dimension,birth,death\n".toList ++ t ∧
      ListsSimplices L pts.length (rowDist k pts)
        (fun i j => rowDist k pts i j < sys.atof (m.val "epsilon")) 1 (max 1 (sys.atoi (m.val "dimensions")) + 1) ∧
      contentAfter opens "output/DistMatrix_output.csv" before y.2.writes =
          some (matrixFile env k pts).text ∧
        contentAfter opens "output/neighGraph_output.csv" before y.2.writes =
          some (simplexText env sys.io L ++ ['\n']) ∧
        contentAfter opens ("output/FastPersistence_bettis_output" ++ (setPipeline m).val "fn" ++ ".csv") before
          y.2.writes = some t ∧
        ∀ w ∈ preFilesOf sys.inIO sys.io pts labels kind,
          contentAfter opens w.name before y.2.writes = some w.text := by
  obtain ⟨z, h1, -, -, h4, h5⟩ := main_effects_points (by decide) h hpts y hy
  obtain ⟨n', N', L, rfl, -, hL, -, h6⟩ := indexed_effects hdist _ [] rfl hcol hne k hk hdim z h1
  obtain ⟨t, hbf, hbt⟩ := betti_text sys.io (setPipeline m) z.1.bettiOutput
  rw [debug_on h hdebug, hbf] at h6
  rw [h6] at h4
  have key := fun {name : String} (hn : "output/".toList <+: name.toList) {text : List Char} hm hu =>
    debug_content (text := text) hout ho (output_name h) h4 hn hm hu before
  have hF := betti_take ((setPipeline m).val "fn")
  refine ⟨z.1.bettiOutput, t, L, ?_, hbt, hL, ?_, ?_, ?_, ?_⟩
  · show _ = _
    rw [h5, barcodeText_eq]
    rfl
  · refine key (by decide) (by simp [matrixFile]) ?_
    intro w hw hn
    simp only [List.mem_append, List.mem_cons, List.not_mem_nil, or_false] at hw
    rcases hw with hw | ((rfl | rfl) | (rfl | rfl))
    · exact absurd hn (pre_take hw).2.2.2.1
    · rfl
    · exact absurd hn (by first | decide | (dsimp only; decide))
    · exact absurd hn (take_ne 8 (by rw [hF]; decide))
    · exact absurd hn (by first | decide | (dsimp only; decide))
  · refine key (by decide) (by simp [matrixFile]) ?_
    intro w hw hn
    simp only [List.mem_append, List.mem_cons, List.not_mem_nil, or_false] at hw
    rcases hw with hw | ((rfl | rfl) | (rfl | rfl))
    · exact absurd hn (pre_take hw).2.2.2.2.1
    · exact absurd hn (by unfold matrixFile; dsimp only; decide)
    · rfl
    · exact absurd hn (take_ne 8 (by rw [hF]; decide))
    · exact absurd hn (by first | decide | (dsimp only; decide))
  · refine key (List.IsPrefix.trans (by decide) (hF ▸ List.take_prefix 8 _)) (by simp) ?_
    intro w hw hn
    simp only [List.mem_append, List.mem_cons, List.not_mem_nil, or_false] at hw
    rcases hw with hw | ((rfl | rfl) | (rfl | rfl))
    · exact absurd (by rw [hn, hF]) (pre_take hw).2.2.1
    · exact absurd hn.symm (take_ne 8 (by rw [hF]; unfold matrixFile; dsimp only; decide))
    · exact absurd hn.symm (take_ne 8 (by rw [hF]; dsimp only; decide))
    · rfl
    · exact absurd hn.symm (take_ne 8 (by rw [hF]; dsimp only; decide))
  · intro v hv
    obtain ⟨v1, v2, v3, v4, v5, v6, v7⟩ := pre_take hv
    have hv' : v = ⟨v.name, .replace, v.text⟩ := by rw [← v1]
    refine key v2 (List.mem_append.2 (Or.inl (hv' ▸ hv))) ?_
    intro w hw hn
    simp only [List.mem_append, List.mem_cons, List.not_mem_nil, or_false] at hw
    rcases hw with hw | ((rfl | rfl) | (rfl | rfl))
    · rw [pre_once hw hv hn]; exact hv'
    · exact absurd hn.symm v4
    · exact absurd hn.symm v5
    · exact absurd (by rw [← hn]; exact hF) v3
    · exact absurd hn.symm v7

/-- C105, `indSimplexTree` (no collapse): the log has its content from before, the messages of the preprocessor
if there is one, and then for each stage, in order, its messages, its time and the size of the points and the
complex at its end. -/
theorem C105_indexed_log_partial (hdist : sys.lib.dist = vectorsDistance)
    (h : StandardCommand sys pairs m "indSimplexTree" f data) (hpts : PointsOf sys m data pts labels kind)
    (hcol : m.val "collapse" ≠ "true" ∧ m.val "collapse" ≠ "1") (hne : pts ≠ [])
    (hout : Outside f) (hrest : ∀ k w, ∀ v ∈ env.restFiles k w, "output/".toList <+: v.name.toList)
    (k : Nat) (hk : 0 < k) (hdim : ∀ p ∈ pts, p.length = k) (y : World (List ℝ) ℝ × Effects)
    (hy : mainEffects sys env (commandLine pairs) = .ok y)
    (opens : String → Bool) (ho : opens f = true) (before : Option (List Char)) :
    let n := pts.length
    let N := simplexTotal n (fun i j => rowDist k pts i j < sys.atof (m.val "epsilon"))
      (max 1 (sys.atoi (m.val "dimensions")) + 1)
    contentAfter opens f before y.2.writes =
      some (before.getD [] ++ preText env (setPipeline m) kind ++
        stagesLog env (setPipeline m) (preRows kind).length (fourStages (8 * (n * k)) env.indSize N N N)) := by
  intro n N
  obtain ⟨z, h1, -, -, h4, -⟩ := main_effects_points (by decide) h hpts y hy
  obtain ⟨n', N', L, rfl, rfl, -, -, h6⟩ := indexed_effects hdist _ [] rfl hcol hne k hk hdim z h1
  have hf := output_name h
  rw [h6] at h4
  refine log_content hout ho h.console hf h4 ?_ ?_ before
  · intro w hw
    simp only [List.append_nil, List.mem_append, List.mem_singleton, bettiFiles, List.mem_cons,
      List.not_mem_nil, or_false] at hw
    rcases hw with (rfl | rfl) | rfl | rfl
    · unfold matrixFile; dsimp only; decide
    · dsimp only; decide
    · exact List.IsPrefix.trans (by decide)
        (betti_take ((setPipeline m).val "fn") ▸ List.take_prefix 8 _)
    · dsimp only; decide
  · intro w hw he
    have := main_may sys env _ m h.parsed hrest y hy w hw
    rw [hf] at this
    rcases this with ⟨-, ⟨-, h⟩ | h | h⟩ | h
    · exact h
    · exact absurd (h.symm.trans he) (name_ne_self (by decide))
    · exact absurd (h.symm.trans he) (name_ne_self (by decide))
    · exact absurd (he ▸ h) (by simpa using hout "" (by simp))

end

/-- The hypotheses of the theorems above are met: three points on a line, two of them close, `debug` on. -/
theorem indexed_side_example (env : Surround ℝ ℝ) :
    ∃ (sys : System ℝ ℝ) (m : ArgMap) (y : World (List ℝ) ℝ × Effects),
    sys.lib.dist = vectorsDistance ∧
    StandardCommand sys [("-i", "data.csv"), ("-o", "bars"), ("-x", "1"), ("-c", "indSimplexTree")]
      m "indSimplexTree" "bars" [[((0 : Nat) : ℝ)], [((2 : Nat) : ℝ)], [((9 : Nat) : ℝ)]] ∧
    PointsOf sys m [[((0 : Nat) : ℝ)], [((2 : Nat) : ℝ)], [((9 : Nat) : ℝ)]]
      [[((0 : Nat) : ℝ)], [((2 : Nat) : ℝ)], [((9 : Nat) : ℝ)]] [] none ∧
    (m.val "collapse" ≠ "true" ∧ m.val "collapse" ≠ "1") ∧
    (∃ i j, i < j ∧ j < [[((0 : Nat) : ℝ)], [((2 : Nat) : ℝ)], [((9 : Nat) : ℝ)]].length ∧
      rowDist 1 [[((0 : Nat) : ℝ)], [((2 : Nat) : ℝ)], [((9 : Nat) : ℝ)]] i j < sys.atof (m.val "epsilon")) ∧
    sys.atoi (m.val "debug") ≠ 0 ∧ Outside "bars" ∧
    mainEffects sys env (commandLine [("-i", "data.csv"), ("-o", "bars"), ("-x", "1"), ("-c", "indSimplexTree")]) =
      .ok y := by
  let sys : System ℝ ℝ := { realSystem [] [] "00\n02\n09" with
    lib := ⟨.insertion _ _, .insertion _ _, .noPivot, vectorsDistance, fun _ t => .ok t, fun _ w => .ok w⟩ }
  obtain ⟨m, hm⟩ : ∃ m, parseArgs (commandLine
      [("-i", "data.csv"), ("-o", "bars"), ("-x", "1"), ("-c", "indSimplexTree")]) = .ok m := ⟨_, rfl⟩
  have hS : StandardCommand sys [("-i", "data.csv"), ("-o", "bars"), ("-x", "1"), ("-c", "indSimplexTree")]
      m "indSimplexTree" "bars" [[((0 : Nat) : ℝ)], [((2 : Nat) : ℝ)], [((9 : Nat) : ℝ)]] := by
    cases hm
    exact ⟨rfl, by decide, by decide, Or.inl (by decide), by decide, by decide, by decide, by decide,
      rfl, by simp⟩
  have hP : m.val "preprocessor" = "" := by cases hm; decide
  have hc : (setPipeline m).val "pipeline" = pipelineOf fastStages ∧
      (setPipeline m).val "collapse" ≠ "true" ∧ (setPipeline m).val "collapse" ≠ "1" := by
    cases hm; decide
  have hcol : m.val "collapse" ≠ "true" ∧ m.val "collapse" ≠ "1" := by cases hm; decide
  have hd : sys.atoi (m.val "dimensions") ≤ 1 := by cases hm; decide
  have hplain : PlainCommand sys [("-i", "data.csv"), ("-o", "bars"), ("-x", "1"), ("-c", "indSimplexTree")]
      m "indSimplexTree" "bars" [[((0 : Nat) : ℝ)], [((2 : Nat) : ℝ)], [((9 : Nat) : ℝ)]] := by
    exact ⟨hS.parsed, hS.mpi, hS.pipeline, hS.mode, hP, hS.upscale, hS.complex, hS.output, hS.console, hS.input,
      hS.rows⟩
  have hedge : rowDist 1 [[((0 : Nat) : ℝ)], [((2 : Nat) : ℝ)], [((9 : Nat) : ℝ)]] 0 1 < 5 := by
    have h := C10_distance_is_euclidean (k := 1) [((0 : Nat) : ℝ)] [((2 : Nat) : ℝ)] rfl rfl
    have h' : vectorsDistance [((0 : Nat) : ℝ)] [((2 : Nat) : ℝ)] = .ok 2 := by
      simp [vectorsDistance, sqDistance, sqDiffs]
    rw [h'] at h
    show dist (point 1 [((0 : Nat) : ℝ)]) (point 1 [((2 : Nat) : ℝ)]) < 5
    rw [← Except.ok.inj h]
    norm_num
  obtain ⟨w, lines, hw, -⟩ := C92_indexed_program_default sys rfl _ m "bars" _ hplain hcol hd 1 (by decide)
    (by simp) ⟨0, 1, by decide, by decide, hedge⟩
  obtain ⟨y, hy, -⟩ := (C102_recording_partial sys env _ m hS.parsed (Or.inr hc)).of_ok hw
  refine ⟨sys, m, y, rfl, hS, ⟨hP, rfl, rfl⟩, hcol, ⟨0, 1, by decide, by decide, hedge⟩, ?_, ?_, hy⟩
  · cases hm; decide
  · unfold Outside; decide

example (env : Surround ℝ ℝ) (hrest : ∀ k w, ∀ v ∈ env.restFiles k w, "output/".toList <+: v.name.toList) :
    ∃ (m : ArgMap) (y : World (List ℝ) ℝ × Effects) (v s b1 b2 : Nat) (text : List Char),
      3 < v ∧ contentAfter (fun _ => true) "bars_stats.csv" none y.2.writes = some (statsContent env
        [.stage "DistMatrix" b1 0 0, .stage "neighGraph" b2 v s, .stage "ripsPipe" b2 v s,
          .stage "FastPersistence" b2 v s]) ∧
      contentAfter (fun _ => true) "bars" none y.2.writes =
        some ((env.messages .distMatrix m ++ stageLines env "DistMatrix" (env.clock 0) 24) ++ text) := by
  obtain ⟨sys, m, y, h1, h2, h3, h4, h5, h6, h7, h8⟩ := indexed_side_example env
  obtain ⟨b1, b2, v, s, hv, hs⟩ := C101_indexed_vertices_violated h1 h2 h3 h4 1 (by decide) (by simp) h5 y h8
    (fun _ => true) none rfl
  have := C105_indexed_log_partial h1 h2 h3 h4 (by simp) h7 hrest 1 (by decide) (by simp) y h8 (fun _ => true) rfl none
  exact ⟨setPipeline m, y, v, s, b1, b2, _, hv, hs, this⟩

example (env : Surround ℝ ℝ) : ∃ (y : World (List ℝ) ℝ × Effects),
    contentAfter (fun _ => true) "output/DistMatrix_output.csv" none y.2.writes =
      some (matrixFile env 1 [[((0 : Nat) : ℝ)], [((2 : Nat) : ℝ)], [((9 : Nat) : ℝ)]]).text := by
  obtain ⟨sys, m, y, h1, h2, h3, h4, h5, h6, h7, h8⟩ := indexed_side_example env
  obtain ⟨lines, t, L, -, -, -, h, -⟩ := C104_indexed_files_partial h1 h2 h3 h4 (by simp) h6 h7 1 (by decide)
    (by simp) y h8 (fun _ => true) (fun _ _ => rfl) none
  exact ⟨y, h⟩

end LHF
