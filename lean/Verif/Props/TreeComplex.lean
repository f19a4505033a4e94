import Verif.Lemmas.TreeInv
import Verif.Props.ArrayComplex

/-! C17, C18, C19–C20 (tree part), C52, C53: `simplexTree`. -/

namespace LHF
open Spec

/-- The public operations used on a tree under construction. -/
inductive Spec.TreeOp where
  /-- `insert` -/
  | insert
  /-- `getAllEdges` -/
  | query

/-- Run a history of operations. -/
def Spec.runTree {W : Type} [LinearOrder W] [Zero W] (eps : W) (maxDim : Nat) (dm : List (List W))
    (sort : SortBySecond (List Nat) W) : List TreeOp → Tree W → Res (Tree W)
  | [], t => pure t
  | .insert :: ops, t => do
    let t ← t.insert eps maxDim dm
    runTree eps maxDim dm sort ops t
  | .query :: ops, t => runTree eps maxDim dm sort ops (t.getAllEdges sort).2

/-- Number of insertions of a history. -/
def Spec.inserts : List TreeOp → Nat
  | [] => 0
  | .insert :: ops => inserts ops + 1
  | .query :: ops => inserts ops

section
variable {W : Type} [LinearOrder W] [Zero W]

theorem getAllEdges_inv {R N : Nat} {D : Nat → Nat → W} {eps : W} {maxDim : Nat} {c0 : Int}
    {t : Tree W} (sort : SortBySecond (List Nat) W) (h : TreeInv R N D eps maxDim c0 t) :
    TreeInv R N D eps maxDim c0 (t.getAllEdges sort).2 ∧
      (t.getAllEdges sort).1 = (t.getAllEdges sort).2.weg := by
  unfold Tree.getAllEdges
  by_cases hs : t.isSorted
  · simp only [hs, if_true]; exact ⟨h, trivial⟩
  · simp only [hs, Bool.false_eq_true, if_false]
    refine ⟨⟨h.nodup, h.mem, ?_, by simpa using h.len, by simpa using h.pos, h.idx, h.rvc, h.rvi,
      h.le, h.count, h.nil, ?_, h.rootc⟩, trivial⟩
    · intro k
      refine List.Perm.trans ?_ (h.weg k)
      simp only [List.getD_eq_getElem?_getD, List.getElem?_map]
      cases t.weg[k]? with
      | none => simp
      | some l => simpa using sort.perm l
    · intro e; simp [h.empty e]

theorem runTree_inv {R : Nat} {D : Nat → Nat → W} {eps : W} {maxDim : Nat} {c0 : Int}
    (sort : SortBySecond (List Nat) W) (h0 : ∀ i j, 0 ≤ D i j) {dm : List (List W)}
    (ops : List TreeOp) : ∀ (N : Nat) (t : Tree W), TreeInv R N D eps maxDim c0 t →
    (inserts ops ≠ 0 → dm ≠ []) →
    (∀ i j, R ≤ i → i < j → j < N + inserts ops → at2 dm (i - R) (j - R) = .ok (D i j)) →
    ∃ t', runTree eps maxDim dm sort ops t = .ok t' ∧
      TreeInv R (N + inserts ops) D eps maxDim c0 t' ∧
      ((∀ op ∈ ops, op = .insert) → t'.isSorted = t.isSorted) := by
  induction ops with
  | nil => intro N t h _ _; exact ⟨t, rfl, h, fun _ => rfl⟩
  | cons op ops ih =>
    intro N t h hne hdm
    cases op with
    | insert =>
      simp only [inserts] at hne hdm ⊢
      obtain ⟨t1, h1, h2, h3⟩ := insert_inv h0 h (hne (by omega))
        (fun i hi hi' => hdm i N hi hi' (by omega))
      obtain ⟨t2, h4, h5, h6⟩ := ih (N + 1) t1 h2 (fun _ => hne (by omega))
        (fun i j hi hij hj => hdm i j hi hij (by omega))
      refine ⟨t2, ?_, ?_, fun ha => (h6 fun op ho => ha op (by simp [ho])).trans h3⟩
      · rw [runTree, h1, ok_bind, h4]
      · rw [show N + (inserts ops + 1) = N + 1 + inserts ops by omega]; exact h5
    | query =>
      simp only [inserts] at hne hdm ⊢
      obtain ⟨t2, h4, h5, -⟩ := ih N _ (getAllEdges_inv sort h).1 hne hdm
      exact ⟨t2, h4, h5, fun ha => absurd (ha .query (by simp)) (by simp)⟩

theorem inv_layer {R N : Nat} {D : Nat → Nat → W} {eps : W} {maxDim : Nat} {c0 : Int}
    {t : Tree W} (h : TreeInv R N D eps maxDim c0 t) (k : Nat) (s : List Nat) (w : W) :
    (∃ layer, t.weg[k]? = some layer ∧ (s, w) ∈ layer) ↔
      s.length = k + 1 ∧ SimpR R N (fun i j => D i j < eps) s ∧ s.length ≤ max 1 maxDim + 1 ∧
      w = diam D s := by
  have e1 : (∃ layer, t.weg[k]? = some layer ∧ (s, w) ∈ layer) ↔ (s, w) ∈ t.weg.getD k [] := by
    rw [List.getD_eq_getElem?_getD]
    cases t.weg[k]? <;> simp
  rw [e1, (h.weg k).mem_iff, List.mem_filter, h.mem]
  simp only [decide_eq_true_eq]
  tauto

theorem inv_stores {N : Nat} {D : Nat → Nat → W} {eps : W} {maxDim : Nat} {c0 : Int}
    {t : Tree W} (h : TreeInv 0 N D eps maxDim c0 t) :
    StoresRips t.weg N D (fun i j => D i j < eps) (max 1 maxDim) := by
  refine ⟨?_, ?_, h.len⟩
  · intro k s w hk
    rw [inv_layer h, simpR_zero]
    constructor
    · rintro ⟨h1, h2, -, h3⟩; exact ⟨h1, h2, h3⟩
    · rintro ⟨h1, h2, h3⟩; exact ⟨h1, h2, by omega, h3⟩
  · intro layer hl
    obtain ⟨k, hk, e⟩ := List.mem_iff_getElem.1 hl
    have hp := h.weg k
    rw [List.getD_eq_getElem?_getD, List.getElem?_eq_getElem hk, Option.getD_some, e] at hp
    rw [(hp.map Prod.fst).nodup_iff]
    exact h.nodup.sublist (List.Sublist.map _ List.filter_sublist)

/-! ### C17 -/

/-- C17: after any history of insertions and queries on a fresh tree (all distances read from the
matrix, which is non-empty as soon as something is inserted), `getAllEdges` returns exactly the
simplices with at most `max 1 maxDim + 1` vertices of the clique complex of the pairs at distance
`< eps`, each once, with its diameter. -/
theorem C17_tree_is_rips (eps : W) (maxDim : Nat) (dm : List (List W)) (d : Nat → Nat → W)
    (h0 : ∀ i j, 0 ≤ d i j) (sort : SortBySecond (List Nat) W) (ops : List TreeOp)
    (hne : inserts ops ≠ 0 → dm ≠ [])
    (hdm : ∀ i j, i < j → j < inserts ops → at2 dm i j = .ok (d i j)) :
    ∃ t, runTree eps maxDim dm sort ops Tree.fresh = .ok t ∧
      StoresRips (t.getAllEdges sort).1 (inserts ops) d (fun i j => d i j < eps) (max 1 maxDim) := by
  obtain ⟨t, h1, h2, -⟩ := runTree_inv sort h0 ops 0 _ (fresh_inv d eps maxDim) hne
    (fun i j _ hij hj => by simpa using hdm i j hij (by omega))
  rw [Nat.zero_add] at h2
  refine ⟨t, h1, ?_⟩
  obtain ⟨h3, h4⟩ := getAllEdges_inv sort h2
  rw [h4]
  exact inv_stores h3

/-- C17 from the raw data: the distance matrix pipe followed by one insertion per point of a cloud
in ℝ^k. -/
theorem C17_rips_of_euclidean_cloud (eps : ℝ) (maxDim : Nat) (k : Nat)
    (hk : 0 < k) (data : List (List ℝ)) (hdim : ∀ p ∈ data, p.length = k)
    (sort : SortBySecond (List Nat) ℝ) :
    ∃ dm ws t, distMatrixPipe vectorsDistance eps [] data = .ok (dm, ws) ∧
      runTree eps maxDim dm sort (List.replicate data.length .insert) Tree.fresh = .ok t ∧
      StoresRips (t.getAllEdges sort).1 data.length
        (fun i j => dist (Spec.point k (data.getD i [])) (Spec.point k (data.getD j [])))
        (fun i j => dist (Spec.point k (data.getD i [])) (Spec.point k (data.getD j [])) < eps)
        (max 1 maxDim) := by
  obtain ⟨ws, h1, -, -⟩ := C11_distance_matrix_euclidean k hk data hdim eps
  have hins : ∀ m, inserts (List.replicate m TreeOp.insert) = m := by
    intro m
    induction m with
    | zero => rfl
    | succ m ih => rw [List.replicate_succ, inserts, ih]
  have h := C17_tree_is_rips eps maxDim (table data.length (fun i j =>
          if i < j then dist (Spec.point k (data.getD i [])) (Spec.point k (data.getD j []))
          else 0))
    (fun i j => dist (Spec.point k (data.getD i [])) (Spec.point k (data.getD j [])))
    (fun i j => dist_nonneg) sort (List.replicate data.length .insert)
    (by
      rw [hins]
      intro h
      apply List.ne_nil_of_length_pos
      simp [table]; omega)
    (by
      rw [hins]
      intro j i hji hi
      have hj : j < data.length := by omega
      unfold at2
      have e : vget (table data.length (fun i j =>
          if i < j then dist (Spec.point k (data.getD i [])) (Spec.point k (data.getD j []))
          else 0)) j = .ok ((List.range data.length).map (fun i =>
            if j < i then dist (Spec.point k (data.getD j [])) (Spec.point k (data.getD i []))
            else 0)) := by
        rw [vget_ok]; simp [table, hj]
      rw [e, ok_bind, vget_ok]
      simp [hi, hji])
  rw [hins] at h
  obtain ⟨t, h2, h3⟩ := h
  exact ⟨_, ws, t, h1, h2, h3⟩

/-- C17: with an empty distance matrix nothing is inserted. -/
theorem C17_empty_matrix (eps : W) (maxDim : Nat) (t : Tree W) :
    t.insert eps maxDim [] = .ok t := rfl

end

/-- C17, a concrete history: four points, two triangles, with a query in between. -/
example : ((runTree (6 : Int) 3 [[0, 4, 5, 4], [0, 0, 4, 7], [0, 0, 0, 4], [0, 0, 0, 0]]
    (SortBySecond.insertion _ _) [.insert, .insert, .insert, .query, .insert] Tree.fresh).map
      (fun t => t.weg)) = .ok
    [[([0], 0), ([1], 0), ([2], 0), ([3], 0)],
     [([0, 1], 4), ([1, 2], 4), ([0, 2], 5), ([0, 3], 4), ([2, 3], 4)],
     [([0, 1, 2], 5), ([0, 2, 3], 5)]] := by decide

/-! ### C18 -/

/-- C18: for `maxDimension = D ≥ 1` and no distance equal to epsilon, the tree and the array complex
expanded to `D` hold the same simplices with the same weights, layer by layer. -/
theorem C18_tree_array_agree {K W : Type} [LinearOrder W] [Ring W] [IsStrictOrderedRing W]
    (eps : W) (D : Nat) (hD : 1 ≤ D) (dm : List (List W)) (d : Nat → Nat → W)
    (h0 : ∀ i j, 0 ≤ d i j) (sort : SortBySecond (List Nat) W) (data : List (List K))
    (hne : ∀ p ∈ data, p ≠ []) (hdm0 : data ≠ [] → dm ≠ [])
    (hdm : ∀ i j, i < j → j < data.length → at2 dm i j = .ok (d i j))
    (heps : ∀ i j, i < j → j < data.length → d i j ≠ eps) :
    ∃ t g, runTree eps D dm sort (List.replicate data.length .insert) Tree.fresh = .ok t ∧
      Spec.buildArray eps D D dm data = .ok g ∧
      ∀ k, ((t.getAllEdges sort).1.getD k []).Perm (g.getD k []) := by
  have hins : inserts (List.replicate data.length TreeOp.insert) = data.length := by
    induction data.length with
    | zero => rfl
    | succ m ih => rw [List.replicate_succ, inserts, ih]
  obtain ⟨t, h1, h2⟩ := C17_tree_is_rips eps D dm d h0 sort
    (List.replicate data.length TreeOp.insert)
    (by rw [hins]; intro h; exact hdm0 (by rintro rfl; simp at h)) (by rw [hins]; exact hdm)
  rw [hins] at h2
  obtain ⟨g, h3, h4⟩ := C13_expansion_is_rips eps D D (by omega) dm d h0 data hne
    (fun i j hji hi => hdm j i hji hi)
  refine ⟨t, g, h1, h3, ?_⟩
  intro k
  have hsame : ∀ s, IsSimplex data.length (fun i j => d i j < eps) s ↔
      IsSimplex data.length (fun i j => d i j ≤ eps) s := by
    intro s
    unfold IsSimplex
    constructor
    · rintro ⟨a, b, c, e⟩
      exact ⟨a, b, c, fun i hi j hj hij => (e i hi j hj hij).le⟩
    · rintro ⟨a, b, c, e⟩
      exact ⟨a, b, c, fun i hi j hj hij =>
        lt_of_le_of_ne (e i hi j hj hij) (heps i j hij (c j hj))⟩
  have hnd : ∀ (g : Graph W), (∀ layer ∈ g, (layer.map Prod.fst).Nodup) →
      (g.getD k []).Nodup := by
    intro g hg
    rw [List.getD_eq_getElem?_getD]
    cases hl : g[k]? with
    | none => simp
    | some l => exact List.Nodup.of_map _ (hg l (List.mem_of_getElem? hl))
  have hmem : ∀ (g : Graph W) e, e ∈ g.getD k [] ↔ ∃ layer, g[k]? = some layer ∧ e ∈ layer := by
    intro g e
    rw [List.getD_eq_getElem?_getD]
    cases g[k]? <;> simp
  rw [List.perm_ext_iff_of_nodup (hnd _ h2.once) (hnd _ h4.once)]
  rintro ⟨s, w⟩
  rw [hmem, hmem]
  by_cases hk : k ≤ max 1 D
  · rw [h2.exact k s w hk, h4.exact k s w hk, hsame]
  · have h5 := h2.only
    have h6 := h4.only
    rw [List.getElem?_eq_none (by omega), List.getElem?_eq_none (by omega)]

/-- C18: at a distance equal to epsilon they differ. -/
theorem C18_differ_at_epsilon : ∃ (dm : List (List Int)) (t : Tree Int) (g : Graph Int),
    Tree.insertN 3 1 dm 2 Tree.fresh = .ok t ∧
    Spec.buildArray 3 1 1 dm [['a'], ['b']] = .ok g ∧
    Stored g [0, 1] 3 ∧ ¬ ∃ w, Stored t.weg [0, 1] w := by
  refine ⟨[[0, 3], [0, 0]], ⟨.node 0 0 .nil (.node 1 0 .nil .nil), [[([0], 0), ([1], 0)]], 2, 2, 2,
    2, false⟩, [[([0], 0), ([1], 0)], [([0, 1], 3)]], rfl, by decide, ?_, ?_⟩
  · exact ⟨[([0, 1], 3)], by simp, by simp⟩
  · rintro ⟨w, l, hl, hm⟩
    simp only [List.mem_singleton] at hl
    subst hl
    simp at hm

section
variable {W : Type} [LinearOrder W] [Zero W]

/-! ### C19 (tree part) -/

/-- C19, tree: after any history of insertions and queries `simplexCount` is the number of simplices
of the complex and `vertexCount` the number of inserted points. -/
theorem C19_tree_counts (eps : W) (maxDim : Nat) (dm : List (List W)) (d : Nat → Nat → W)
    (h0 : ∀ i j, 0 ≤ d i j) (sort : SortBySecond (List Nat) W) (ops : List TreeOp)
    (hne : inserts ops ≠ 0 → dm ≠ [])
    (hdm : ∀ i j, i < j → j < inserts ops → at2 dm i j = .ok (d i j)) :
    ∃ t, runTree eps maxDim dm sort ops Tree.fresh = .ok t ∧
      t.simplexCount = Set.ncard {s : List Nat |
        IsSimplex (inserts ops) (fun i j => d i j < eps) s ∧ s.length ≤ max 1 maxDim + 1} ∧
      t.vertexCount = inserts ops := by
  obtain ⟨t, h1, h2, -⟩ := runTree_inv sort h0 ops 0 _ (fresh_inv d eps maxDim) hne
    (fun i j _ hij hj => by simpa using hdm i j hij (by omega))
  rw [Nat.zero_add] at h2
  refine ⟨t, h1, ?_, ?_⟩
  · unfold Tree.simplexCount
    rw [h2.count, Int.zero_add]
    congr 1
    have : {s : List Nat | IsSimplex (inserts ops) (fun i j => d i j < eps) s ∧
        s.length ≤ max 1 maxDim + 1} =
        (((paths [] t.roots).map Prod.fst).toFinset : Set (List Nat)) := by
      ext s
      rw [Set.mem_ofPred_eq, ← simpR_zero]
      simp only [List.coe_toFinset, Set.mem_ofPred_eq, List.mem_map, Prod.exists,
        exists_and_right, exists_eq_right, h2.mem]
      constructor
      · rintro ⟨a, b⟩; exact ⟨_, a, b, rfl⟩
      · rintro ⟨_, a, b, _⟩; exact ⟨a, b⟩
    rw [this, Set.ncard_coe_finset, List.toFinset_card_of_nodup h2.nodup, List.length_map]
  · unfold Tree.vertexCount
    rw [h2.rvi, h2.rvc, h2.idx]
    split_ifs <;> simp

/-! ### C20 (tree part) -/

omit [Zero W] in
/-- C20, tree: on the first query after a history of insertions every returned list is a permutation
of the stored simplices of that dimension in non-decreasing weight order. -/
theorem C20_tree_first_query_partial (t : Tree W) (ht : t.isSorted = false)
    (sort : SortBySecond (List Nat) W) :
    List.Forall₂ (fun out layer => out.Perm layer ∧ out.Pairwise (fun a b => a.2 ≤ b.2))
      (t.getAllEdges sort).1 t.weg := by
  unfold Tree.getAllEdges
  simp only [ht, Bool.false_eq_true, if_false]
  generalize t.weg = g
  induction g with
  | nil => exact List.Forall₂.nil
  | cons l g ih => exact List.Forall₂.cons ⟨sort.perm l, sort.sorted l⟩ ih

/-- The hypothesis of `C20_tree_first_query_partial` holds after every history of insertions. -/
theorem C20_tree_unqueried (eps : W) (maxDim : Nat) (dm : List (List W)) (d : Nat → Nat → W)
    (h0 : ∀ i j, 0 ≤ d i j) (n : Nat) (hne : n ≠ 0 → dm ≠ [])
    (hdm : ∀ i j, i < j → j < n → at2 dm i j = .ok (d i j)) :
    ∃ t, Tree.insertN eps maxDim dm n Tree.fresh = .ok t ∧ t.isSorted = false := by
  obtain ⟨t, h1, -, h3⟩ := insertN_inv h0 (fresh_inv d eps maxDim) (dm := dm) n hne
    (fun i j _ hij hj => by simpa using hdm i j hij (by omega))
  exact ⟨t, h1, h3⟩

end

/-- C20, tree: after a query, later insertions are returned unsorted: with edges of lengths 5 and
then 4 the second query returns them in that order. (Full property: every query is sorted.) -/
theorem C20_tree_violated : ∃ (dm : List (List Int)) (t : Tree Int),
    runTree 10 1 dm (SortBySecond.insertion _ _) [.insert, .insert, .query, .insert] Tree.fresh =
      .ok t ∧
    (t.getAllEdges (SortBySecond.insertion _ _)).1.getD 1 [] = [([0, 1], 5), ([0, 2], 4)] := by
  exact ⟨[[0, 5, 4], [0, 0, 12], [0, 0, 0]], _, rfl, by decide⟩

section
variable {W : Type} [LinearOrder W] [Zero W]

/-! ### C52 -/

omit [LinearOrder W] [Zero W] in
/-- C52: `clear` is undefined on every tree: null dereference on an empty one, a write to a deleted
node on any other. -/
theorem C52_clear_undefined (t : Tree W) : ∃ e, t.clear true = .error e ∧
    (t.roots = .nil → e = .null) ∧ (t.roots ≠ .nil → e = .freed) := by
  have key : ∀ s : Sib W, s ≠ .nil → deletionNode true s = .error .freed := by
    intro s
    induction s with
    | nil => intro h; exact absurd rfl h
    | node i w c s ihc ihs =>
      intro _
      cases s with
      | nil => rfl
      | node i' w' c' s' => rw [deletionNode, ihs (by simp)]; rfl
  unfold Tree.clear
  cases hr : t.roots with
  | nil => exact ⟨.null, rfl, fun _ => rfl, fun h => absurd rfl h⟩
  | node i w c s =>
    rw [key _ (by simp)]
    exact ⟨.freed, rfl, fun h => by simp at h, fun _ => rfl⟩

/-- C52, the part that holds if the write to freed memory is harmless: after any history on a
non-empty first cloud of `n` points, `clear`, and inserting `m` points with a new matrix, the stored
simplices are those of the new cloud with every vertex label shifted by `n`, with the right weights,
and `vertexCount` is `m`; but `simplexCount` is too large by the number of simplices of the first
cloud minus `n`. (Missing: labels start at 0, counts are right, `clear` is defined.) -/
theorem C52_reuse_partial (eps : W) (maxDim : Nat) (dm dm' : List (List W))
    (d d' : Nat → Nat → W) (h0 : ∀ i j, 0 ≤ d i j) (h0' : ∀ i j, 0 ≤ d' i j)
    (sort : SortBySecond (List Nat) W) (ops ops' : List TreeOp)
    (hpos : inserts ops ≠ 0) (hne : dm ≠ [])
    (hdm : ∀ i j, i < j → j < inserts ops → at2 dm i j = .ok (d i j))
    (hne' : dm' ≠ []) (hdm' : ∀ i j, i < j → j < inserts ops' → at2 dm' i j = .ok (d' i j)) :
    ∃ t1 t2 t3, runTree eps maxDim dm sort ops Tree.fresh = .ok t1 ∧ t1.clear false = .ok t2 ∧
      runTree eps maxDim dm' sort ops' t2 = .ok t3 ∧
      (∀ k s w, (∃ layer, t3.weg[k]? = some layer ∧ (s, w) ∈ layer) ↔
        ∃ s', s = s'.map (· + inserts ops) ∧ s'.length = k + 1 ∧ k ≤ max 1 maxDim ∧
          IsSimplex (inserts ops') (fun i j => d' i j < eps) s' ∧ w = diam d' s') ∧
      t3.vertexCount = inserts ops' ∧
      t3.simplexCount = (t1.simplexCount - inserts ops) + (t3.weg.flatten.length : Int) := by
  obtain ⟨t1, h1, h2, -⟩ := runTree_inv sort h0 ops 0 _ (fresh_inv d eps maxDim) (fun _ => hne)
    (fun i j _ hij hj => by simpa using hdm i j hij (by omega))
  rw [Nat.zero_add] at h2
  set n := inserts ops with hn
  have hroots : t1.roots ≠ .nil := fun h => hpos (h2.nil.1 h)
  let D : Nat → Nat → W := fun i j => d' (i - n) (j - n)
  let t2 : Tree W := { t1 with roots := .nil, weg := [], nodeCount := t1.nodeCount - t1.roots.count,
                               rviSize := 0 }
  have hc : t1.clear false = .ok t2 := by
    unfold Tree.clear
    rw [deletionNode_lenient _ hroots]; rfl
  have hinv : TreeInv n n D eps maxDim (t1.nodeCount - n) t2 := by
    refine ⟨by simp [t2, paths], ?_, by simp [t2, paths], by simp [t2], by omega, h2.idx,
      h2.rvc, by simp [t2], le_rfl, ?_, by simp [t2], fun _ => rfl, by simp [t2, Sib.count]⟩
    · intro q w
      simp only [t2, paths, List.not_mem_nil, false_iff]
      rintro ⟨⟨a, -, c, -⟩, -⟩
      obtain ⟨x, hx⟩ := List.exists_mem_of_ne_nil _ a
      have := c x hx; omega
    · have := h2.rootc
      simp [t2, paths, this]
  obtain ⟨t3, h3, h4, -⟩ := runTree_inv sort (fun i j => h0' _ _) ops' n t2 hinv (fun _ => hne')
    (fun i j hi hij hj => hdm' (i - n) (j - n) (by omega) (by omega))
  refine ⟨t1, t2, t3, h1, hc, h3, ?_, ?_, ?_⟩
  · intro k s w
    rw [inv_layer h4]
    have hdiam : ∀ s' : List Nat, diam D (s'.map (· + n)) = diam d' s' := by
      intro s'
      have : ∀ u, diam D (s'.map (· + n)) ≤ u ↔ diam d' s' ≤ u := by
        intro u
        rw [diam_le_iff, diam_le_iff]
        simp only [List.mem_map, forall_exists_index, and_imp, forall_apply_eq_imp_iff₂, D,
          Nat.add_sub_cancel, Nat.add_lt_add_iff_right]
      exact le_antisymm ((this _).2 le_rfl) ((this _).1 le_rfl)
    constructor
    · rintro ⟨e1, e2, e3, e4⟩
      have hs : s = (s.map (· - n)).map (· + n) := by
        rw [List.map_map]
        conv_lhs => rw [← List.map_id s]
        apply List.map_congr_left
        intro x hx
        have := (e2.2.2.1 x hx).1
        simp; omega
      refine ⟨s.map (· - n), hs, by simpa using e1, by omega, ⟨?_, ?_, ?_, ?_⟩, ?_⟩
      · simpa using e2.1
      · rw [List.pairwise_map]
        refine List.Pairwise.imp_of_mem ?_ e2.2.1
        intro a b ha hb hab
        have := (e2.2.2.1 a ha).1
        omega
      · intro v hv
        obtain ⟨x, hx, rfl⟩ := List.mem_map.1 hv
        have := e2.2.2.1 x hx
        omega
      · intro i hi j hj hij
        obtain ⟨x, hx, rfl⟩ := List.mem_map.1 hi
        obtain ⟨y, hy, rfl⟩ := List.mem_map.1 hj
        exact e2.2.2.2 x hx y hy (by omega)
      · rw [← hdiam, ← hs]; exact e4
    · rintro ⟨s', rfl, e1, e2, e3, e4⟩
      refine ⟨by simpa using e1, ⟨?_, ?_, ?_, ?_⟩, by simp; omega, by rw [hdiam]; exact e4⟩
      · simpa using e3.1
      · unfold Inc
        rw [List.pairwise_map]
        exact e3.2.1.imp (fun h => by omega)
      · intro v hv
        obtain ⟨x, hx, rfl⟩ := List.mem_map.1 hv
        have := e3.2.2.1 x hx
        omega
      · intro i hi j hj hij
        obtain ⟨x, hx, rfl⟩ := List.mem_map.1 hi
        obtain ⟨y, hy, rfl⟩ := List.mem_map.1 hj
        simp only [Nat.add_sub_cancel]
        exact e3.2.2.2 x hx y hy (by omega)
  · unfold Tree.vertexCount
    rw [h4.rvi, h4.rvc, h4.idx, if_pos (by omega)]
    omega
  · unfold Tree.simplexCount
    rw [h4.count]
    congr 2
    -- the layers partition the list of simplices
    have hcount : ∀ (g : Graph W) (P : List (List Nat × W)),
        (∀ k, (g.getD k []).length = (P.filter (fun e => e.1.length = k + 1)).length) →
        (∀ e ∈ P, 1 ≤ e.1.length ∧ e.1.length ≤ g.length) → g.flatten.length = P.length := by
      intro g
      induction g using List.reverseRecOn with
      | nil =>
        intro P _ hP
        cases P with
        | nil => rfl
        | cons x xs => have := hP x (by simp); simp only [List.length_nil] at this; omega
      | append_singleton g l ih =>
        intro P hg hP
        have hl := hg g.length
        rw [List.getD_eq_getElem?_getD, List.getElem?_append_right (le_refl _)] at hl
        simp only [Nat.sub_self, List.getElem?_cons_zero, Option.getD_some] at hl
        have h1 := ih (P.filter (fun e => e.1.length ≠ g.length + 1)) (by
          intro k
          have := hg k
          rw [List.filter_filter]
          by_cases hk : k < g.length
          · rw [List.getD_eq_getElem?_getD, List.getElem?_append_left hk,
              ← List.getD_eq_getElem?_getD] at this
            rw [this]
            congr 1
            apply List.filter_congr
            intro e _
            simp; omega
          · rw [List.getD_eq_getElem?_getD, List.getElem?_eq_none (by omega)]
            symm
            simp only [Option.getD_none, List.length_nil, List.length_eq_zero_iff,
              List.filter_eq_nil_iff]
            intro e he
            have := (hP e he).2
            simp at this ⊢
            intro h5; omega)
          (by
            intro e he
            rw [List.mem_filter] at he
            have := hP e he.1
            simp at this he
            omega)
        rw [List.flatten_append, List.length_append, h1]
        simp only [List.flatten_cons, List.flatten_nil, List.append_nil, hl]
        rw [Nat.add_comm]
        have := List.length_eq_length_filter_add (l := P) (fun e => decide (e.1.length = g.length + 1))
        rw [this]
        congr 3
        funext e
        simp
    symm
    apply hcount
    · intro k; exact (h4.weg k).length_eq
    · rintro ⟨q, w⟩ he
      have := (h4.mem q w).1 he
      refine ⟨List.length_pos_iff.2 this.1.1, ?_⟩
      obtain ⟨layer, hl, -⟩ := (inv_layer h4 (q.length - 1) q w).2
        ⟨by have := List.length_pos_iff.2 this.1.1; omega, this⟩
      have h5 := (List.getElem?_eq_some_iff.1 hl).1
      have h6 := List.length_pos_iff.2 this.1.1
      simp only
      omega

end

/-- C52, concrete: two points, clear, two points. The second complex has labels 2 and 3, and
`simplexCount` reports 4 for a complex of 3 simplices. -/
theorem C52_labels_and_count_violated : ∃ (dm : List (List Int)) (t1 t2 t3 : Tree Int),
    Tree.insertN 3 1 dm 2 Tree.fresh = .ok t1 ∧ t1.clear false = .ok t2 ∧
    Tree.insertN 3 1 dm 2 t2 = .ok t3 ∧
    t3.weg = [[([2], 0), ([3], 0)], [([2, 3], 1)]] ∧ t3.simplexCount = 4 := by
  exact ⟨[[0, 1], [0, 0]], _, _, _, rfl, rfl, rfl, by decide, by decide⟩

end LHF
