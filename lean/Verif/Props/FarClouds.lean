import Verif.Props.Stability
import Verif.Props.Truncation
import Verif.Props.ArrayTruncation
import Verif.Props.Invariance
import Verif.Lemmas.FarFast

/-! C111 in all dimensions: two clouds that are at least `epsilon` apart do not influence each other. The
orders of simplices of equal weight decide how the code pairs them (C28), so this is for a stable sort. -/

namespace LHF
open Spec

/-- A stable sort of the entries with a property gives the entries with the property of the sort. -/
theorem stable_filter_of {α : Type} {sort : SortBySecond α ℝ} (h : Stable sort) (P : α × ℝ → Bool)
    (l : List (α × ℝ)) : sort.run (l.filter P) = (sort.run l).filter P := by
  refine eq_of_keys (fun e : α × ℝ => e.2) (sort.sorted _) ((sort.sorted _).filter _) (fun w => ?_)
  rw [h, List.filter_filter, List.filter_filter]
  have e : ∀ m : List (α × ℝ), m.filter (fun e => decide (e.2 = w) && P e) =
      (m.filter (fun e => e.2 = w)).filter P := by
    intro m
    rw [List.filter_filter]
    exact List.filter_congr (fun e _ => Bool.and_comm _ _)
  rw [e, e, h]

/-- A stable sort commutes with a change of the entries that keeps their weights. -/
theorem stable_map {α : Type} {sort : SortBySecond α ℝ} (h : Stable sort) (f : α × ℝ → α × ℝ)
    (hf : ∀ e, (f e).2 = e.2) (l : List (α × ℝ)) : sort.run (l.map f) = (sort.run l).map f := by
  refine eq_of_keys (fun e : α × ℝ => e.2) (sort.sorted _) ?_ (fun w => ?_)
  · rw [List.pairwise_map]
    exact (sort.sorted l).imp (fun {a b} hab => by rw [hf, hf]; exact hab)
  · rw [h, List.filter_map, List.filter_map]
    have e : ((fun e : α × ℝ => decide (e.2 = w)) ∘ f) = fun e => decide (e.2 = w) := by
      funext e; simp [hf]
    rw [e, h]

theorem treeEdges_getD (sort : SortBySecond (List Nat) ℝ) (t : Tree ℝ) (k : Nat) (ht : t.isSorted = false) :
    (t.getAllEdges sort).1.getD k [] = sort.run (t.weg.getD k []) := by
  have runnil : sort.run [] = [] := List.perm_nil.1 (sort.perm [])
  unfold Tree.getAllEdges
  rw [if_neg (by simp [ht])]
  dsimp only
  rw [List.getD_eq_getElem?_getD, List.getD_eq_getElem?_getD, List.getElem?_map]
  cases t.weg[k]? with
  | none => exact runnil.symm
  | some l => rfl

theorem treeEdges_length (sort : SortBySecond (List Nat) ℝ) (t : Tree ℝ) (ht : t.isSorted = false) :
    (t.getAllEdges sort).1.length = t.weg.length := by
  unfold Tree.getAllEdges
  rw [ht]
  exact List.length_map ..

/-- Layers one after the other, sorted by a stable sort. -/
theorem interleaved_of_joined {sort : SortBySecond (List Nat) ℝ} (hs : Stable sort) {n : Nat}
    {gU gA gB eU eA eB : Graph ℝ} (h : Joined n gA gB gU)
    (hU : ∀ k, eU.getD k [] = sort.run (gU.getD k [])) (hA : ∀ k, eA.getD k [] = sort.run (gA.getD k []))
    (hB : ∀ k, eB.getD k [] = sort.run (gB.getD k [])) (lU : eU.length = gU.length)
    (lA : eA.length = gA.length) (lB : eB.length = gB.length)
    (bA : ∀ k, ∀ e ∈ gA.getD k [], ∀ v ∈ e.1, v < n) (bB : ∀ k, ∀ e ∈ gB.getD k [], e.1 ≠ []) :
    Interleaved n eU eA eB := by
  have fA : ∀ k, (gA.getD k []).filter (below n) = gA.getD k [] := fun k =>
    List.filter_eq_self.2 (fun e he => below_iff.2 (bA k e he))
  have fA' : ∀ k, (gA.getD k []).filter (fun e => !below n e) = [] := fun k => by
    rw [List.filter_eq_nil_iff]
    intro e he
    simp [below_iff.2 (bA k e he)]
  have hb : ∀ k, ∀ e ∈ (gB.getD k []).map (shiftE n), below n e = false := by
    intro k e he
    obtain ⟨e0, h0, rfl⟩ := List.mem_map.1 he
    cases hx : below n (shiftE n e0) with
    | false => rfl
    | true =>
      obtain ⟨v, hv⟩ := List.exists_mem_of_ne_nil _ (bB k e0 h0)
      have := below_iff.1 hx (v + n) (List.mem_map.2 ⟨v, hv, rfl⟩)
      omega
  have fB : ∀ k, ((gB.getD k []).map (shiftE n)).filter (below n) = [] := fun k => by
    rw [List.filter_eq_nil_iff]
    intro e he
    simp [hb k e he]
  have fB' : ∀ k, ((gB.getD k []).map (shiftE n)).filter (fun e => !below n e) =
      (gB.getD k []).map (shiftE n) := fun k =>
    List.filter_eq_self.2 (fun e he => by simp [hb k e he])
  refine ⟨fun k => ?_, fun k => ?_, by rw [lU, lA, lB, h.len]⟩
  · rw [hU, hA, ← stable_filter_of hs, h.layers, List.filter_append, fA, fB, List.append_nil]
  · rw [hU, hB, ← stable_filter_of hs, h.layers, List.filter_append, fA', fB', List.nil_append]
    exact stable_map hs (shiftE n) (fun _ => rfl) _

theorem rowDist_append_left (k : Nat) {data data' : List (List ℝ)} {i j : Nat} (hi : i < data.length)
    (hj : j < data.length) : rowDist k (data ++ data') i j = rowDist k data i j := by
  unfold rowDist
  rw [List.getD_append _ _ _ _ hi, List.getD_append _ _ _ _ hj]

theorem getD_append_shift (data data' : List (List ℝ)) (i : Nat) :
    (data ++ data').getD (i + data.length) [] = data'.getD i [] := by
  rw [List.getD_append_right _ _ _ _ (by omega), Nat.add_sub_cancel]

theorem rowDist_append_right (k : Nat) (data data' : List (List ℝ)) (i j : Nat) :
    rowDist k (data ++ data') (i + data.length) (j + data.length) = rowDist k data' i j := by
  unfold rowDist
  rw [getD_append_shift, getD_append_shift]

theorem rowDist_append_cross (k : Nat) {data data' : List (List ℝ)} {eps : ℝ}
    (hfar : ∀ p ∈ data, ∀ q ∈ data', eps ≤ dist (Spec.point k p) (Spec.point k q)) {i j : Nat}
    (hi : i < data.length) (hj : j < data'.length) :
    eps ≤ rowDist k (data ++ data') i (j + data.length) := by
  unfold rowDist
  rw [List.getD_append _ _ _ _ hi, getD_append_shift, List.getD_eq_getElem _ _ hi,
    List.getD_eq_getElem _ _ hj]
  exact hfar _ (List.getElem_mem _) _ (List.getElem_mem _)

/-- What a run on a tree is, with the facts about the tree. -/
theorem tree_parts {sort : SortBySecond (List Nat) ℝ} {mode : EndRead} {eps : ℝ} {dim k : Nat} (hk : 0 < k)
    {data : List (List ℝ)} (hne : data ≠ []) (hdim : ∀ p ∈ data, p.length = k) :
    ∃ t, Tree.insertN eps dim (table data.length (fun i j => if i < j then rowDist k data i j else 0))
        data.length Tree.fresh = .ok t ∧ t.isSorted = false ∧ t.weg ≠ [] ∧
      FilteredComplex (t.getAllEdges sort).1 ∧
      (∀ q, ∀ e ∈ t.weg.getD q [], e.1 ≠ [] ∧ ∀ v ∈ e.1, v < data.length) ∧
      treeRun vectorsDistance sort mode eps dim data =
        fastPersistence mode dim eps (t.getAllEdges sort).1 [] [] := by
  have hpos : 0 < data.length := List.length_pos_of_ne_nil hne
  have hdm : table data.length (fun i j => if i < j then rowDist k data i j else 0) ≠ [] := by
    apply List.ne_nil_of_length_pos
    simp [table]; omega
  obtain ⟨t, l2, l3, l4⟩ := insertN_inv (D := rowDist k data) (eps := eps) (maxDim := dim)
    (fun _ _ => dist_nonneg) (fresh_inv _ eps dim) data.length (fun _ => hdm) (by
      intro i j _ hij hj
      simpa using at2_table hij (by omega))
  rw [Nat.zero_add] at l3
  have st := inv_stores l3
  have so := C20_tree_first_query_partial t l4 sort
  refine ⟨t, l2, l4, ?_, filtered_of_rips st so, ?_, ?_⟩
  · have hg := insertN_grown (by simpa using hdm) _ l2
    have := hg.head (hg.some hpos)
    intro h
    rw [h] at this
    simp at this
  · intro q e he
    rw [List.getD_eq_getElem?_getD] at he
    cases hg : t.weg[q]? with
    | none => rw [hg] at he; cases he
    | some l =>
      rw [hg] at he
      have hq : q ≤ max 1 dim := by
        have := (List.getElem?_eq_some_iff.1 hg).1
        have := st.only
        omega
      obtain ⟨a1, a2, -⟩ := (st.exact q e.1 e.2 hq).1 ⟨l, hg, he⟩
      refine ⟨fun h => by rw [h] at a1; simp at a1, ?_⟩
      exact a2.2.2.1
  · rw [treeRun_table sort mode eps dim k hk data hdim, l2, ok_bind]

theorem fast_layers {W : Type} [LinearOrder W] [Zero W] {mode : EndRead} {dim : Nat} {eps : W} {e : Graph W}
    (hne : e.length ≠ 0)
    {r : List (Line W) × List (BettiEntry W)} (h : fastPersistence mode dim eps e [] [] = .ok r) :
    2 ≤ e.length := by
  unfold fastPersistence at h
  rw [if_neg hne] at h
  obtain ⟨vs, -, h⟩ := bind_ok.1 h
  obtain ⟨es, s2, -⟩ := bind_ok.1 h
  rw [vget_ok] at s2
  have := (List.getElem?_eq_some_iff.1 s2).1
  omega

/-- C111 (dimensions at least 1, simplexTree): if the run on each of two clouds that are at least `epsilon`
apart ends, the run on all the rows ends, and its bars of dimension at least 1 are those of the two runs
together. -/
theorem C111_far_clouds_runs (sort : SortBySecond (List Nat) ℝ) (hsort : Stable sort) (eps : ℝ) (dim k : Nat)
    (hk : 0 < k) (data data' : List (List ℝ)) (hne : data ≠ []) (hne' : data' ≠ [])
    (hdim : ∀ p ∈ data, p.length = k) (hdim' : ∀ p ∈ data', p.length = k)
    (hfar : ∀ p ∈ data, ∀ q ∈ data', eps ≤ dist (Spec.point k p) (Spec.point k q))
    {lines lines' : List (Line ℝ)} {T T' : List (BettiEntry ℝ)}
    (hok : treeRun vectorsDistance sort .noPivot eps dim data = .ok (lines, T))
    (hok' : treeRun vectorsDistance sort .noPivot eps dim data' = .ok (lines', T')) :
    ∃ lines'' T'', treeRun vectorsDistance sort .noPivot eps dim (data ++ data') = .ok (lines'', T'') ∧
      (lines''.filter (fun l => 1 ≤ l.1)).Perm
        (lines.filter (fun l => 1 ≤ l.1) ++ lines'.filter (fun l => 1 ≤ l.1)) := by
  have hne'' : data ++ data' ≠ [] := by simp [hne]
  have hdim'' : ∀ p ∈ data ++ data', p.length = k := by
    intro p hp
    rcases List.mem_append.1 hp with h | h
    · exact hdim _ h
    · exact hdim' _ h
  obtain ⟨tA, a1, a2, a3, a4, a5, a6⟩ := tree_parts (sort := sort) (mode := .noPivot) (eps := eps) (dim := dim) hk hne hdim
  obtain ⟨tB, b1, b2, b3, b4, b5, b6⟩ := tree_parts (sort := sort) (mode := .noPivot) (eps := eps) (dim := dim) hk hne' hdim'
  obtain ⟨tU, u1, u2, u3, u4, u5, u6⟩ := tree_parts (sort := sort) (mode := .noPivot) (eps := eps) (dim := dim) hk hne'' hdim''
  have hpos : 0 < data.length := List.length_pos_of_ne_nil hne
  have hpos' : 0 < data'.length := List.length_pos_of_ne_nil hne'
  have hlen : (data ++ data').length = data'.length + data.length := by
    rw [List.length_append, Nat.add_comm]
  have dmne : ∀ (m : Nat) (f : Nat → Nat → ℝ), 0 < m → (table m f).length ≠ 0 := by
    intro m f hm
    simp [table]; omega
  obtain ⟨t, z1, z2⟩ := insertN_far (eps := eps) (dim := dim) hpos (dmne _ _ hpos) (dmne _ _ hpos')
    (dmne _ _ (by rw [hlen]; omega) :
      (table (data ++ data').length (fun i j => if i < j then rowDist k (data ++ data') i j else 0)).length ≠ 0) a1
    (by
      intro i j hij hj
      rw [at2_table hij hj, at2_table hij (by omega), rowDist_append_left k (by omega) hj])
    data'.length
    (by
      intro i j hij hj
      rw [at2_table hij hj, at2_table (by omega) (by omega), rowDist_append_right])
    (by
      intro i j hi hj
      exact ⟨_, at2_table (by omega) (by omega), rowDist_append_cross k hfar hi hj⟩) b1
  rw [← hlen, u1] at z1
  cases z1
  have hint : Interleaved data.length (tU.getAllEdges sort).1 (tA.getAllEdges sort).1
      (tB.getAllEdges sort).1 :=
    interleaved_of_joined hsort z2.weg (fun q => treeEdges_getD sort tU q u2)
      (fun q => treeEdges_getD sort tA q a2) (fun q => treeEdges_getD sort tB q b2)
      (treeEdges_length sort tU u2) (treeEdges_length sort tA a2) (treeEdges_length sort tB b2)
      (fun q e he => (a5 q e he).2) (fun q e he => (b5 q e he).1)
  have lne : ∀ t : Tree ℝ, t.isSorted = false → t.weg ≠ [] → (t.getAllEdges sort).1.length ≠ 0 := by
    intro t h1 h2 h3
    rw [treeEdges_length sort t h1] at h3
    exact h2 (List.length_eq_zero_iff.1 h3)
  rw [a6] at hok
  rw [b6] at hok'
  obtain ⟨rU, c1, c2⟩ := fast_far hint u4 a4 b4 (fast_layers (lne tA a2 a3) hok)
    (fast_layers (lne tB b2 b3) hok') hok hok'
  exact ⟨rU.1, rU.2, by rw [u6, c1], c2⟩

/-- A run that ends without reading through the end iterator as libstdc++ does is the run without further
pivots. -/
theorem treeRun_noPivot {sort : SortBySecond (List Nat) ℝ} {mode : EndRead} (hmode : mode ≠ .libstdcxx) {eps : ℝ}
    {dim k : Nat} (hk : 0 < k) {data : List (List ℝ)} (hne : data ≠ []) (hdim : ∀ p ∈ data, p.length = k)
    {r : List (Line ℝ) × List (BettiEntry ℝ)}
    (h : treeRun vectorsDistance sort mode eps dim data = .ok r) :
    treeRun vectorsDistance sort .noPivot eps dim data = .ok r := by
  obtain ⟨t, a1, a2, a3, a4, a5, a6⟩ := tree_parts (sort := sort) (mode := mode) (eps := eps) (dim := dim) hk hne hdim
  obtain ⟨t', b1, b2, b3, b4, b5, b6⟩ := tree_parts (sort := sort) (mode := .noPivot) (eps := eps) (dim := dim) hk hne hdim
  rw [a1] at b1
  cases b1
  rw [a6] at h
  rw [b6]
  refine fast_noPivot hmode a4 (fast_layers ?_ h) h
  rw [treeEdges_length sort t a2]
  exact fun e => a3 (List.length_eq_zero_iff.1 e)

/-- Lines with the dimensions 0 and at least 1. -/
theorem split_dims (l : List (Line ℝ)) :
    (l.filter (fun x => x.1 = 0) ++ l.filter (fun x => 1 ≤ x.1)).Perm l := by
  have e : l.filter (fun x => 1 ≤ x.1) = l.filter (fun x => !decide (x.1 = 0)) := by
    apply List.filter_congr
    intro x _
    by_cases h : x.1 = 0
    · simp [h]
    · simp [h]; omega
  rw [e]
  exact List.filter_append_perm _ _

/-- The bars of dimension 0 and the others. -/
theorem join_dims {eps : ℝ} {lines lines' lines'' : List (Line ℝ)}
    (h0 : ((0, 0, eps) :: lines''.filter (fun l => l.1 = 0)).Perm
      (lines.filter (fun l => l.1 = 0) ++ lines'.filter (fun l => l.1 = 0)))
    (h1 : (lines''.filter (fun l => 1 ≤ l.1)).Perm
        (lines.filter (fun l => 1 ≤ l.1) ++ lines'.filter (fun l => 1 ≤ l.1))) :
    ((0, 0, eps) :: lines'').Perm (lines ++ lines') := by
  refine ((split_dims lines'').symm.cons (0, 0, eps)).trans ?_
  rw [← List.cons_append]
  refine (h0.append h1).trans ?_
  refine List.Perm.trans ?_ ((split_dims lines).append (split_dims lines'))
  rw [List.append_assoc, List.append_assoc]
  refine List.Perm.append_left _ ?_
  rw [← List.append_assoc, ← List.append_assoc]
  exact List.perm_append_comm.append_right _

/-- C111 (simplexTree, whole barcode): for runs that end, with a stable sort and the end iterator not read as
libstdc++ does: the bars of all the rows are those of the two clouds together, except that the bar up to
`epsilon`, which each cloud has, is there once. -/
theorem C111_far_clouds_all_partial (sort : SortBySecond (List Nat) ℝ) (hsort : Stable sort)
    (mode mode' mode'' : EndRead) (hmode : mode ≠ .libstdcxx) (hmode' : mode' ≠ .libstdcxx)
    (hmode'' : mode'' ≠ .libstdcxx) (eps : ℝ) (dim k : Nat)
    (hk : 0 < k) (data data' : List (List ℝ)) (hne : data ≠ []) (hne' : data' ≠ [])
    (hdim : ∀ p ∈ data, p.length = k) (hdim' : ∀ p ∈ data', p.length = k)
    (hfar : ∀ p ∈ data, ∀ q ∈ data', eps ≤ dist (Spec.point k p) (Spec.point k q))
    {lines lines' lines'' : List (Line ℝ)} {T T' T'' : List (BettiEntry ℝ)}
    (hok : treeRun vectorsDistance sort mode eps dim data = .ok (lines, T))
    (hok' : treeRun vectorsDistance sort mode' eps dim data' = .ok (lines', T'))
    (hok'' : treeRun vectorsDistance sort mode'' eps dim (data ++ data') = .ok (lines'', T'')) :
    ((0, 0, eps) :: lines'').Perm (lines ++ lines') := by
  have h0 := C111_far_clouds_partial sort sort sort mode mode' mode'' eps dim dim dim k hk data data' hne hne'
    hdim hdim' hfar hok hok' hok''
  obtain ⟨l, T3, h1, h2⟩ := C111_far_clouds_runs sort hsort eps dim k hk data data' hne hne' hdim hdim' hfar
    (treeRun_noPivot hmode hk hne hdim hok) (treeRun_noPivot hmode' hk hne' hdim' hok')
  have h3 := treeRun_noPivot hmode'' hk (by simp [hne]) (by
    intro p hp
    rcases List.mem_append.1 hp with h | h
    · exact hdim _ h
    · exact hdim' _ h) hok''
  rw [h1] at h3
  cases h3
  exact join_dims h0 h2

/-- C111 (simplexTree, whole barcode), with no assumption that runs end: if each cloud has two points closer than
`epsilon`, then with a stable sort and no further pivot past the end the three runs end, and the bars of all
the rows are those of the two clouds together, except that the bar up to `epsilon` is there once. -/
theorem C111_far_clouds_end_partial (sort : SortBySecond (List Nat) ℝ) (hsort : Stable sort) (eps : ℝ) (dim k : Nat)
    (hk : 0 < k) (data data' : List (List ℝ)) (hdim : ∀ p ∈ data, p.length = k)
    (hdim' : ∀ p ∈ data', p.length = k)
    (hedge : ∃ i j, i < j ∧ j < data.length ∧ rowDist k data i j < eps)
    (hedge' : ∃ i j, i < j ∧ j < data'.length ∧ rowDist k data' i j < eps)
    (hfar : ∀ p ∈ data, ∀ q ∈ data', eps ≤ dist (Spec.point k p) (Spec.point k q)) :
    ∃ lines lines' lines'' T T' T'', treeRun vectorsDistance sort .noPivot eps dim data = .ok (lines, T) ∧
      treeRun vectorsDistance sort .noPivot eps dim data' = .ok (lines', T') ∧
      treeRun vectorsDistance sort .noPivot eps dim (data ++ data') = .ok (lines'', T'') ∧
      ((0, 0, eps) :: lines'').Perm (lines ++ lines') := by
  have hne : data ≠ [] := by
    rintro rfl
    obtain ⟨i, j, -, h, -⟩ := hedge
    simp at h
  have hne' : data' ≠ [] := by
    rintro rfl
    obtain ⟨i, j, -, h, -⟩ := hedge'
    simp at h
  obtain ⟨lines, T, h1, -⟩ := C70_tree_run_partial sort eps dim k hk data hdim hedge
  obtain ⟨lines', T', h2, -⟩ := C70_tree_run_partial sort eps dim k hk data' hdim' hedge'
  obtain ⟨lines'', T'', h3, -⟩ := C111_far_clouds_runs sort hsort eps dim k hk data data' hne hne' hdim hdim' hfar
    h1 h2
  exact ⟨lines, lines', lines'', T, T', T'', h1, h2, h3, C111_far_clouds_all_partial sort hsort _ _ _
    (by simp) (by simp) (by simp) eps dim k hk data data' hne hne' hdim hdim' hfar h1 h2 h3⟩

/-- C111 (whole program on a simplexTree): three command lines with the same `epsilon` and `dimensions`, for two
files and for the file with the rows of both. -/
theorem C111_program_partial (sys : System ℝ ℝ) (hdist : sys.lib.dist = vectorsDistance)
    (hsort : Stable sys.lib.sort) (hmode : sys.lib.mode = .noPivot)
    (pairs pairs' pairs'' : List (String × String)) (m m' m'' : ArgMap) (f f' f'' : String)
    (data data' : List (List ℝ))
    (h : PlainCommand sys pairs m "simplexTree" f data)
    (h' : PlainCommand sys pairs' m' "simplexTree" f' data')
    (h'' : PlainCommand sys pairs'' m'' "simplexTree" f'' (data ++ data'))
    (heps' : sys.atof (m'.val "epsilon") = sys.atof (m.val "epsilon"))
    (heps'' : sys.atof (m''.val "epsilon") = sys.atof (m.val "epsilon"))
    (hd' : sys.atoi (m'.val "dimensions") = sys.atoi (m.val "dimensions"))
    (hd'' : sys.atoi (m''.val "dimensions") = sys.atoi (m.val "dimensions"))
    (k : Nat) (hk : 0 < k) (hdim : ∀ p ∈ data, p.length = k) (hdim' : ∀ p ∈ data', p.length = k)
    (hedge : ∃ i j, i < j ∧ j < data.length ∧ rowDist k data i j < sys.atof (m.val "epsilon"))
    (hedge' : ∃ i j, i < j ∧ j < data'.length ∧ rowDist k data' i j < sys.atof (m.val "epsilon"))
    (hfar : ∀ p ∈ data, ∀ q ∈ data',
      sys.atof (m.val "epsilon") ≤ dist (Spec.point k p) (Spec.point k q)) :
    ∃ w w' w'' lines lines' lines'', mainProgram sys (commandLine pairs) = .ok w ∧
      mainProgram sys (commandLine pairs') = .ok w' ∧ mainProgram sys (commandLine pairs'') = .ok w'' ∧
      WritesBarcode sys.io f lines w ∧ WritesBarcode sys.io f' lines' w' ∧
      WritesBarcode sys.io f'' lines'' w'' ∧
      ((0, 0, sys.atof (m.val "epsilon")) :: lines'').Perm (lines ++ lines') := by
  obtain ⟨lines, lines', lines'', T, T', T'', h1, h2, h3, h4⟩ := C111_far_clouds_end_partial sys.lib.sort hsort
    (sys.atof (m.val "epsilon")) (sys.atoi (m.val "dimensions")) k hk data data' hdim hdim' hedge hedge' hfar
  rw [← hmode] at h1 h2 h3
  rw [← hd', ← heps'] at h2
  rw [← hd'', ← heps''] at h3
  obtain ⟨w, a1, a2⟩ := (main_tree sys hdist pairs m f data h).of_ok h1
  obtain ⟨w', b1, b2⟩ := (main_tree sys hdist pairs' m' f' data' h').of_ok h2
  obtain ⟨w'', c1, c2⟩ := (main_tree sys hdist pairs'' m'' f'' (data ++ data') h'').of_ok h3
  exact ⟨w, w', w'', lines, lines', lines'', a1, b1, c1, a2, b2, c2, h4⟩

/-- C111 with `dimensions` at most 1 (the default), for every sort and every reading of the end iterator: the
whole barcode. -/
theorem C111_far_clouds_default (sort sort' sort'' : SortBySecond (List Nat) ℝ) (mode mode' mode'' : EndRead)
    (eps : ℝ) (dim dim' dim'' k : Nat) (hd : dim ≤ 1) (hd' : dim' ≤ 1) (hd'' : dim'' ≤ 1)
    (hk : 0 < k) (data data' : List (List ℝ)) (hdim : ∀ p ∈ data, p.length = k)
    (hdim' : ∀ p ∈ data', p.length = k)
    (hedge : ∃ i j, i < j ∧ j < data.length ∧ rowDist k data i j < eps)
    (hedge' : ∃ i j, i < j ∧ j < data'.length ∧ rowDist k data' i j < eps)
    (hfar : ∀ p ∈ data, ∀ q ∈ data', eps ≤ dist (Spec.point k p) (Spec.point k q)) :
    ∃ lines lines' lines'' T T' T'', treeRun vectorsDistance sort mode eps dim data = .ok (lines, T) ∧
      treeRun vectorsDistance sort' mode' eps dim' data' = .ok (lines', T') ∧
      treeRun vectorsDistance sort'' mode'' eps dim'' (data ++ data') = .ok (lines'', T'') ∧
      ((0, 0, eps) :: lines'').Perm (lines ++ lines') := by
  have hne : data ≠ [] := by
    rintro rfl
    obtain ⟨i, j, -, h, -⟩ := hedge
    simp at h
  have hne' : data' ≠ [] := by
    rintro rfl
    obtain ⟨i, j, -, h, -⟩ := hedge'
    simp at h
  have hdim'' : ∀ p ∈ data ++ data', p.length = k := by
    intro p hp
    rcases List.mem_append.1 hp with h | h
    · exact hdim _ h
    · exact hdim' _ h
  have hedge'' : ∃ i j, i < j ∧ j < (data ++ data').length ∧ rowDist k (data ++ data') i j < eps := by
    obtain ⟨i, j, h1, h2, h3⟩ := hedge
    refine ⟨i, j, h1, by rw [List.length_append]; omega, ?_⟩
    rw [rowDist_append_left k (by omega) h2]
    exact h3
  obtain ⟨lines, T, h1, z1, -⟩ := C70_tree_run_default sort mode eps dim hd k hk data hdim hedge
  obtain ⟨lines', T', h2, z2, -⟩ := C70_tree_run_default sort' mode' eps dim' hd' k hk data' hdim' hedge'
  obtain ⟨lines'', T'', h3, z3, -⟩ := C70_tree_run_default sort'' mode'' eps dim'' hd'' k hk _ hdim'' hedge''
  have := C111_far_clouds_partial sort sort' sort'' mode mode' mode'' eps dim dim' dim'' k hk data data' hne hne'
    hdim hdim' hfar h1 h2 h3
  rw [List.filter_eq_self.2 (fun l hl => by simpa using z3 l hl),
    List.filter_eq_self.2 (fun l hl => by simpa using z1 l hl),
    List.filter_eq_self.2 (fun l hl => by simpa using z2 l hl)] at this
  exact ⟨lines, lines', lines'', T, T', T'', h1, h2, h3, this⟩

/-! ### Cases that meet the hypotheses -/

/-- Two squares in the plane, 1000 apart, with `epsilon` 10: the runs end, and the barcode of each square has a bar
of dimension 1, so that the barcode of all eight points has two. -/
example : ∃ lines lines' lines'' T T' T'',
    treeRun vectorsDistance (SortBySecond.insertion (List Nat) ℝ) .noPivot (Real.sqrt (100 : ℕ)) 2
      (planeRows [(0, 0), (0, 1), (1, 1), (1, 0)]) = .ok (lines, T) ∧
    treeRun vectorsDistance (SortBySecond.insertion (List Nat) ℝ) .noPivot (Real.sqrt (100 : ℕ)) 2
      (planeRows [(1000, 0), (1000, 2), (1002, 2), (1002, 0)]) = .ok (lines', T') ∧
    treeRun vectorsDistance (SortBySecond.insertion (List Nat) ℝ) .noPivot (Real.sqrt (100 : ℕ)) 2
      (planeRows [(0, 0), (0, 1), (1, 1), (1, 0)] ++ planeRows [(1000, 0), (1000, 2), (1002, 2), (1002, 0)]) =
        .ok (lines'', T'') ∧
    (1, Real.sqrt (1 : ℕ), Real.sqrt (2 : ℕ)) ∈ lines ∧ (1, Real.sqrt (4 : ℕ), Real.sqrt (8 : ℕ)) ∈ lines' ∧
    ((0, 0, Real.sqrt (100 : ℕ)) :: lines'').Perm (lines ++ lines') := by
  have run : ∀ P : List (ℤ × ℤ), treeRun vectorsDistance (SortBySecond.insertion (List Nat) ℝ) .noPivot
      (Real.sqrt (100 : ℕ)) 2 (planeRows P) =
      Prod.map (List.map (mapL (fun n : ℕ => Real.sqrt (n : ℝ))))
        (List.map (mapB (fun n : ℕ => Real.sqrt (n : ℝ)))) <$>
      (Tree.insertN 100 2 (table P.length (fun i j => if i < j then planeSq P i j else 0))
        P.length Tree.fresh >>= fun t =>
        fastPersistence .noPivot 2 100 (t.getAllEdges (SortBySecond.insertion (List Nat) ℕ)).1 [] []) := by
    intro P
    have := treeRun_natural (φ := fun n : ℕ => Real.sqrt (n : ℝ)) sqrt_nat_strictMono (by simp)
      (SortBySecond.insertion (List Nat) ℕ) (SortBySecond.insertion (List Nat) ℝ)
      (insertion_natural sqrt_nat_strictMono) .noPivot 100 2 (planeSq P) 2 (by decide) (planeRows P)
      (by
        intro p hp
        obtain ⟨q, -, rfl⟩ := List.mem_map.1 hp
        rfl)
      (fun i j hij hj => rowDist_plane P i j (by
        rw [planeRows, List.length_map] at hj; omega) (by
        rw [planeRows, List.length_map] at hj; omega))
    rw [this]
    simp only [planeRows, List.length_map]
  have r1 : ∃ T, (Tree.insertN 100 2 (table 4 (fun i j => if i < j then
        planeSq [(0, 0), (0, 1), (1, 1), (1, 0)] i j else 0)) 4 Tree.fresh >>= fun t =>
        fastPersistence .noPivot 2 100 (t.getAllEdges (SortBySecond.insertion (List Nat) ℕ)).1 [] []) =
      .ok ([(0, 0, 1), (0, 0, 1), (0, 0, 1), (0, 0, 100), (1, 1, 2)], T) :=
    ok_of_toOption (by decide +kernel)
  have r2 : ∃ T, (Tree.insertN 100 2 (table 4 (fun i j => if i < j then
        planeSq [(1000, 0), (1000, 2), (1002, 2), (1002, 0)] i j else 0)) 4 Tree.fresh >>= fun t =>
        fastPersistence .noPivot 2 100 (t.getAllEdges (SortBySecond.insertion (List Nat) ℕ)).1 [] []) =
      .ok ([(0, 0, 4), (0, 0, 4), (0, 0, 4), (0, 0, 100), (1, 4, 8)], T) :=
    ok_of_toOption (by decide +kernel)
  obtain ⟨T1, r1⟩ := r1
  obtain ⟨T2, r2⟩ := r2
  have s1 := run [(0, 0), (0, 1), (1, 1), (1, 0)]
  have s2 := run [(1000, 0), (1000, 2), (1002, 2), (1002, 0)]
  rw [show [((0 : ℤ), (0 : ℤ)), (0, 1), (1, 1), (1, 0)].length = 4 from rfl, r1] at s1
  rw [show [((1000 : ℤ), (0 : ℤ)), (1000, 2), (1002, 2), (1002, 0)].length = 4 from rfl, r2] at s2
  have two : ∀ P : List (ℤ × ℤ), ∀ p ∈ planeRows P, p.length = 2 := by
    intro P p hp
    obtain ⟨q, -, rfl⟩ := List.mem_map.1 hp
    rfl
  have far : ∀ p ∈ planeRows [(0, 0), (0, 1), (1, 1), (1, 0)],
      ∀ q ∈ planeRows [(1000, 0), (1000, 2), (1002, 2), (1002, 0)],
      Real.sqrt (100 : ℕ) ≤ dist (Spec.point 2 p) (Spec.point 2 q) := by
    intro p hp q hq
    simp only [planeRows, List.map_cons, List.map_nil, List.mem_cons, List.not_mem_nil, or_false] at hp hq
    rcases hp with rfl | rfl | rfl | rfl <;> rcases hq with rfl | rfl | rfl | rfl <;>
    · unfold Spec.point
      rw [EuclideanSpace.dist_eq]
      apply Real.sqrt_le_sqrt
      simp only [Fin.sum_univ_two, Real.dist_eq, sq_abs]
      norm_num
  obtain ⟨lines'', T'', h3, -⟩ := C111_far_clouds_runs _ (insertion_stable _) _ 2 2 (by decide) _ _ (by simp [planeRows])
    (by simp [planeRows]) (two _) (two _) far s1 s2
  exact ⟨_, _, lines'', _, _, T'', s1, s2, h3, by simp [mapL], by simp [mapL],
    C111_far_clouds_all_partial _ (insertion_stable _) _ _ _ (by simp) (by simp) (by simp) _ 2 2 (by decide) _ _
      (by simp [planeRows]) (by simp [planeRows]) (two _) (two _) far s1 s2 h3⟩

/-- A system with three files. -/
noncomputable def Spec.threeFiles : System ℝ ℝ :=
  { readingSystem "" with
    files := fun s => if s = "a.csv" then some "00\n02\n03".toList
      else if s = "b.csv" then some "50\n54".toList else some "00\n02\n03\n50\n54".toList }

/-- Three command lines with the hypotheses of the theorem about the whole program. -/
example : threeFiles.lib.mode = .noPivot ∧ Stable threeFiles.lib.sort ∧
    (∃ m, PlainCommand threeFiles
      [("-i", "a.csv"), ("-o", "a"), ("-c", "simplexTree"), ("-e", "9"), ("-d", "2")] m "simplexTree" "a"
      [[((0 : Nat) : ℝ)], [((2 : Nat) : ℝ)], [((3 : Nat) : ℝ)]] ∧ m.val "epsilon" = "9") ∧
    (∃ m, PlainCommand threeFiles
      [("-i", "b.csv"), ("-o", "b"), ("-c", "simplexTree"), ("-e", "9"), ("-d", "2")] m "simplexTree" "b"
      [[((50 : Nat) : ℝ)], [((54 : Nat) : ℝ)]] ∧ m.val "epsilon" = "9") ∧
    (∃ m, PlainCommand threeFiles
      [("-i", "ab.csv"), ("-o", "ab"), ("-c", "simplexTree"), ("-e", "9"), ("-d", "2")] m "simplexTree" "ab"
      ([[((0 : Nat) : ℝ)], [((2 : Nat) : ℝ)], [((3 : Nat) : ℝ)]] ++ [[((50 : Nat) : ℝ)], [((54 : Nat) : ℝ)]]) ∧
      m.val "epsilon" = "9") := by
  refine ⟨rfl, insertion_stable _, ⟨_, ⟨rfl, by decide, by decide, Or.inl (by decide), by decide, by decide,
    by decide, by decide, by decide, rfl, by simp⟩, by decide⟩, ⟨_, ⟨rfl, by decide, by decide, Or.inl (by decide),
    by decide, by decide, by decide, by decide, by decide, rfl, by simp⟩, by decide⟩,
    ⟨_, ⟨rfl, by decide, by decide, Or.inl (by decide),
    by decide, by decide, by decide, by decide, by decide, rfl, by simp⟩, by decide⟩⟩

end LHF
