import Verif.Lemmas.TreeMemory
import Verif.Props.TreeComplex

/-! C106–C108: the nodes of `simplexTree` in memory. -/

namespace LHF
open Spec

section
variable {W : Type} [LinearOrder W] [Zero W]

/-- The simplices a tree for `n` points has to hold. -/
def Spec.Rips (n : Nat) (d : Nat → Nat → W) (eps : W) (maxDim : Nat) : Set (List Nat) :=
  {s | IsSimplex n (fun i j => d i j < eps) s ∧ s.length ≤ max 1 maxDim + 1}

/-- What `n` insertions leave, at both levels. -/
theorem inserted (eps : W) (maxDim : Nat) (dm : List (List W)) (d : Nat → Nat → W) (h0 : ∀ i j, 0 ≤ d i j)
    (n : Nat) (hne : dm ≠ []) (hdm : ∀ i j, i < j → j < n → at2 dm i j = .ok (d i j)) {fuel : Nat}
    (hfuel : 2 ^ n ≤ fuel) :
    ∃ m t, HTree.insertN fuel eps maxDim dm n HTree.fresh = .ok m ∧
      Tree.insertN eps maxDim dm n Tree.fresh = .ok t ∧ Represents (n - 1) m t ∧
      TreeInv 0 n d eps maxDim 0 t ∧ t.roots.count = n ∧ t.roots.labels = List.range n ∧ n < 2 ^ n := by
  obtain ⟨t, h1, h2, -⟩ := insertN_inv h0 (fresh_inv d eps maxDim) n (fun _ => hne)
    (fun i j _ hij hj => by simpa using hdm i j hij (by omega))
  rw [Nat.zero_add] at h2
  obtain ⟨m, h3, h4, -, h6, h7, -⟩ := (insertN_represents eps maxDim dm hne n hfuel).of_ok h1
  exact ⟨m, t, h3, h1, h4, h2, h6, h7, Nat.lt_two_pow_self⟩

theorem rips_ncard {n : Nat} {d : Nat → Nat → W} {eps : W} {maxDim : Nat} {c0 : Int} {t : Tree W}
    (h : TreeInv 0 n d eps maxDim c0 t) : (Rips n d eps maxDim).ncard = t.roots.nodes := by
  have : Rips n d eps maxDim = (((paths [] t.roots).map Prod.fst).toFinset : Set (List Nat)) := by
    ext s
    unfold Rips
    rw [Set.mem_ofPred_eq, ← simpR_zero]
    simp only [List.coe_toFinset, Set.mem_ofPred_eq, List.mem_map, Prod.exists,
      exists_and_right, exists_eq_right, h.mem]
    constructor
    · rintro ⟨a, b⟩; exact ⟨_, a, b, rfl⟩
    · rintro ⟨_, a, b, _⟩; exact ⟨a, b⟩
  rw [this, Set.ncard_coe_finset, List.toFinset_card_of_nodup h.nodup, List.length_map, length_paths]

/-! ### C106 -/

/-- C106: after inserting any `n` points, no pointer that is null, freed or wild having been followed, the cells
reached from `head` are one for each simplex of the Vietoris–Rips complex and no others, and the weight in the
cell of a simplex is its diameter. No cell is shared by two simplices. `fuel` only makes the model's recursion
total: every number from `2 ^ n` on gives this. -/
theorem C106_one_cell_per_simplex (eps : W) (maxDim : Nat) (dm : List (List W)) (d : Nat → Nat → W)
    (h0 : ∀ i j, 0 ≤ d i j) (n : Nat) (hne : dm ≠ []) (hdm : ∀ i j, i < j → j < n → at2 dm i j = .ok (d i j))
    {fuel : Nat} (hfuel : 2 ^ n ≤ fuel) :
    ∃ m, HTree.insertN fuel eps maxDim dm n HTree.fresh = .ok m ∧
      (∀ s w, (∃ a, Reach m.heap m.head s w a) ↔ s ∈ Rips n d eps maxDim ∧ w = diam d s) ∧
      (∀ s w a, Reach m.heap m.head s w a → ∀ s' w' a', Reach m.heap m.head s' w' a' → (s = s' ↔ a = a')) := by
  obtain ⟨m, t, h1, -, h3, h4, -⟩ := inserted eps maxDim dm d h0 n hne hdm hfuel
  obtain ⟨A, hA, -⟩ := h3.cells
  have hr := hA.reach []
  simp only [List.nil_append] at hr
  have hlen : (paths [] t.roots).length = A.length := by rw [length_paths, hA.length]
  refine ⟨m, h1, ?_, ?_⟩
  · intro s w
    unfold Rips
    rw [Set.mem_ofPred_eq, ← simpR_zero, and_assoc, ← h4.mem]
    constructor
    · rintro ⟨a, ha⟩
      exact (List.of_mem_zip ((hr s w a).1 ha)).1
    · intro hm
      obtain ⟨a, ha⟩ := zip_left hlen hm
      exact ⟨a, (hr s w a).2 ha⟩
  · intro s w a ha s' w' a' ha'
    have k1 := (hr s w a).1 ha
    have k2 := (hr s' w' a').1 ha'
    constructor
    · rintro rfl
      have e1 := ((h4.mem s w).1 (List.of_mem_zip k1).1).2.2
      have e2 := ((h4.mem s w').1 (List.of_mem_zip k2).1).2.2
      rw [← e1] at e2
      subst e2
      exact zip_inj_left (List.Nodup.of_map _ h4.nodup) k1 k2
    · rintro rfl
      exact congrArg Prod.fst (zip_inj_right hA.nodup k1 k2)

/-- C106, the other observable fields: what `getAllEdges`, `simplexCount` and `vertexCount` are computed from is
the same as in the model without pointers, for which C17–C20 are proved; in particular the two fail together. -/
theorem C106_observables (eps : W) (maxDim : Nat) (dm : List (List W)) (hne : dm ≠ []) (n : Nat) {fuel : Nat}
    (hfuel : 2 ^ n ≤ fuel) :
    SameRes (fun m t => m.weg = t.weg ∧ m.nodeCount = t.nodeCount ∧ m.indexCounter = t.indexCounter ∧
        m.rviSize = t.rviSize ∧ m.rvc = t.rvc ∧ m.isSorted = t.isSorted ∧ (m.head = none ↔ t.roots = .nil))
      (HTree.insertN fuel eps maxDim dm n HTree.fresh) (Tree.insertN eps maxDim dm n Tree.fresh) := by
  refine (insertN_represents eps maxDim dm hne n hfuel).mono ?_
  rintro m t ⟨h, -⟩
  obtain ⟨A, hA, -⟩ := h.cells
  exact ⟨h.weg, h.count, h.idx, h.rvi, h.rvc, h.sorted, hA.none_iff⟩

/-! ### C107 -/

/-- C107: `n ≥ 1` insertions allocate one cell for each simplex and `n - 1` more, which are not reached from
`head` (line 281 allocates a node that only the first insertion uses). -/
theorem C107_cells_in_use (eps : W) (maxDim : Nat) (dm : List (List W)) (d : Nat → Nat → W)
    (h0 : ∀ i j, 0 ≤ d i j) (n : Nat) (hne : dm ≠ [])
    (hdm : ∀ i j, i < j → j < n → at2 dm i j = .ok (d i j)) {fuel : Nat} (hfuel : 2 ^ n ≤ fuel) :
    ∃ m, HTree.insertN fuel eps maxDim dm n HTree.fresh = .ok m ∧
      liveCells m.heap = (Rips n d eps maxDim).ncard + (n - 1) := by
  obtain ⟨m, t, h1, -, h3, h4, -⟩ := inserted eps maxDim dm d h0 n hne hdm hfuel
  obtain ⟨A, hA, hl⟩ := h3.cells
  refine ⟨m, h1, ?_⟩
  rw [liveCells_all h3.live, hl, hA.length, rips_ncard h4]

/-- C107: `clear` writes to a node that it deleted. -/
theorem C107_clear_undefined (eps : W) (maxDim : Nat) (dm : List (List W)) (d : Nat → Nat → W)
    (h0 : ∀ i j, 0 ≤ d i j) (n : Nat) (hn : n ≠ 0) (hne : dm ≠ [])
    (hdm : ∀ i j, i < j → j < n → at2 dm i j = .ok (d i j)) {fuel : Nat} (hfuel : 2 ^ n ≤ fuel) :
    ∃ m, HTree.insertN fuel eps maxDim dm n HTree.fresh = .ok m ∧ m.clear true fuel = .error .freed := by
  obtain ⟨m, t, h1, -, h3, h4, h5, -, h7⟩ := inserted eps maxDim dm d h0 n hne hdm hfuel
  obtain ⟨A, hA, -⟩ := h3.cells
  have hnil : t.roots ≠ .nil := fun h => by
    rw [h] at h5
    exact hn h5.symm
  refine ⟨m, h1, ?_⟩
  unfold HTree.clear
  rw [(deletion_roots t.roots hnil fuel (by omega) _ _ _ m.nodeCount hA).1]
  rfl

/-- C107, violated: if that write does no harm, `clear` frees no cell twice, and the tree is empty afterwards,
but only the cells of the `n` points are freed: as many cells as there are simplices, less one, stay allocated
with no pointer to them. -/
theorem C107_clear_leaks_violated (eps : W) (maxDim : Nat) (dm : List (List W)) (d : Nat → Nat → W)
    (h0 : ∀ i j, 0 ≤ d i j) (n : Nat) (hn : n ≠ 0) (hne : dm ≠ [])
    (hdm : ∀ i j, i < j → j < n → at2 dm i j = .ok (d i j)) {fuel : Nat} (hfuel : 2 ^ n ≤ fuel) :
    ∃ m m', HTree.insertN fuel eps maxDim dm n HTree.fresh = .ok m ∧ m.clear false fuel = .ok m' ∧
      m'.head = none ∧ m'.dimensions = [] ∧ liveCells m'.heap + n = liveCells m.heap ∧
      liveCells m'.heap + 1 = (Rips n d eps maxDim).ncard := by
  obtain ⟨m, t, h1, -, h3, h4, h5, -, h7⟩ := inserted eps maxDim dm d h0 n hne hdm hfuel
  obtain ⟨A, hA, hl⟩ := h3.cells
  have hnil : t.roots ≠ .nil := fun h => by
    rw [h] at h5
    exact hn h5.symm
  obtain ⟨-, h', e2, e3, -, e5, -⟩ := deletion_roots t.roots hnil fuel (by omega) _ _ _ m.nodeCount hA
  have hlive := liveCells_all h3.live
  have hA' := hA.length
  have hcard := rips_ncard h4
  refine ⟨m, { m with heap := h', head := none, dimensions := [], weg := [],
                      nodeCount := m.nodeCount - t.roots.count, rviSize := 0 }, h1, ?_, rfl, rfl, ?_, ?_⟩
  · unfold HTree.clear
    rw [e2]
    rfl
  · dsimp only
    omega
  · dsimp only
    omega

/-! ### C108 -/

theorem erase_columns {dm : List (List W)} {index : Nat} (h : ∀ z ∈ dm, index < z.length) :
    dm.forM (fun z => do
      if z.length ≥ index then do
        let _ ← verase z index
        pure ()
      else pure ()) = (.ok () : Res Unit) := by
  induction dm with
  | nil => rfl
  | cons z dm ih =>
    have hz := h z (by simp)
    have hv : verase z index = .ok (z.eraseIdx index) := by
      unfold verase
      rw [if_pos hz]
    rw [List.forM, if_pos (by omega), hv, ok_bind, pure_eq_ok, ok_bind]
    exact ih (fun z hz => h z (by simp [hz]))

/-- C108, the part that holds and what is wrong with it: `deleteIterative(key, index)` for a vertex that is not
the first one removes row `index` of the matrix (no column) and cuts off the simplices whose smallest vertex is
`key`; every other simplex that has `key` as a vertex stays in the tree, the list of simplices by dimension and
the counters are as before, and no memory is given back. -/
theorem C108_other_vertex_partial (eps : W) (maxDim : Nat) (dm : List (List W)) (d : Nat → Nat → W)
    (h0 : ∀ i j, 0 ≤ d i j) (n : Nat) (hne : dm ≠ [])
    (hdm : ∀ i j, i < j → j < n → at2 dm i j = .ok (d i j)) {fuel : Nat} (hfuel : 2 ^ n ≤ fuel)
    (strict : Bool) (key index : Nat) (hkey : 0 < key) (hn : n ≠ 0) (dm2 : List (List W))
    (hi : index < dm2.length) (hrows : ∀ z ∈ dm2, index < z.length) :
    ∃ m m', HTree.insertN fuel eps maxDim dm n HTree.fresh = .ok m ∧
      m.deleteIterative strict fuel key index dm2 = .ok (dm2.eraseIdx index, m') ∧
      (∀ s w, (∃ a, Reach m'.heap m'.head s w a) ↔
        s ∈ Rips n d eps maxDim ∧ w = diam d s ∧ s.head? ≠ some key) ∧
      m'.weg = m.weg ∧ m'.nodeCount = m.nodeCount ∧ m'.indexCounter = m.indexCounter ∧
      liveCells m'.heap = liveCells m.heap := by
  obtain ⟨m, t, h1, -, h3, h4, h5, h6, h7⟩ := inserted eps maxDim dm d h0 n hne hdm hfuel
  obtain ⟨A, hA, hl⟩ := h3.cells
  have hnil : t.roots ≠ .nil := fun h => by
    rw [h] at h5
    exact hn h5.symm
  have hhead : t.roots.labels.head? ≠ some key := by
    rw [h6]
    cases n with
    | zero => exact absurd rfl hn
    | succ n =>
      rw [List.range_succ_eq_map]
      simp
      omega
  obtain ⟨h', A', k1, k2, k3, k4, k5, k6⟩ := delete_other strict key t.roots hnil
    (by rw [h6]; exact List.nodup_range) hhead fuel (by omega) m.head A m hA
  refine ⟨m, { m with heap := h' }, h1, ?_, ?_, rfl, rfl, rfl, ?_⟩
  · unfold HTree.deleteIterative
    have hv : verase dm2 index = .ok (dm2.eraseIdx index) := by
      unfold verase
      rw [if_pos hi]
    rw [hv, ok_bind]
    rw [erase_columns (fun z hz => hrows z (List.mem_of_mem_eraseIdx hz)), ok_bind, k1]
    rfl
  · have hr := k2.reach []
    simp only [List.nil_append, paths_dropRoot] at hr
    have hlen : (paths [] (t.roots.dropRoot key)).length = A'.length := by rw [length_paths, k2.length]
    rw [paths_dropRoot] at hlen
    intro s w
    have hm := h4.mem s w
    unfold Rips
    rw [Set.mem_ofPred_eq, ← simpR_zero]
    constructor
    · rintro ⟨a, ha⟩
      have hx := (List.of_mem_zip ((hr s w a).1 ha)).1
      rw [List.mem_filter, hm] at hx
      exact ⟨⟨hx.1.1, hx.1.2.1⟩, hx.1.2.2, by simpa using hx.2⟩
    · rintro ⟨⟨e1, e2⟩, e3, e4⟩
      obtain ⟨a, ha⟩ := zip_left hlen (x := (s, w)) (by
        rw [List.mem_filter, hm]
        exact ⟨⟨e1, e2, e3⟩, by simpa using e4⟩)
      exact ⟨a, (hr s w a).2 ha⟩
  · dsimp only
    rw [liveCells_all h3.live, liveCells_all, k4]
    intro x hx
    rw [k4] at hx
    obtain ⟨n', hn'⟩ := h3.live x hx
    exact k6 x n' hn'

/-- C108, violated: for the first vertex the call writes to a deleted node. If that does no harm, all points are
freed, `head` points to a freed node, and the next insertion follows it. -/
theorem C108_first_vertex_violated (eps : W) (maxDim : Nat) (dm : List (List W)) (d : Nat → Nat → W)
    (h0 : ∀ i j, 0 ≤ d i j) (n : Nat) (hne : dm ≠ [])
    (hdm : ∀ i j, i < j → j < n → at2 dm i j = .ok (d i j)) {fuel : Nat} (hfuel : 2 ^ n ≤ fuel)
    (index : Nat) (hn : 2 ≤ n) (dm2 : List (List W))
    (hi : index < dm2.length) (hrows : ∀ z ∈ dm2, index < z.length) :
    ∃ m, HTree.insertN fuel eps maxDim dm n HTree.fresh = .ok m ∧
      m.deleteIterative true fuel 0 index dm2 = .error .freed ∧
      ∃ m' a, m.deleteIterative false fuel 0 index dm2 = .ok (dm2.eraseIdx index, m') ∧
        m'.head = some a ∧ m'.heap[a]? = some none ∧ liveCells m'.heap + n = liveCells m.heap ∧
        m'.insert fuel eps maxDim dm = .error .freed := by
  obtain ⟨m, t, h1, -, h3, h4, h5, h6, h7⟩ := inserted eps maxDim dm d h0 n hne hdm hfuel
  obtain ⟨A, hA, hl⟩ := h3.cells
  refine ⟨m, h1, ?_⟩
  have hv : verase dm2 index = .ok (dm2.eraseIdx index) := by
    unfold verase
    rw [if_pos hi]
  have hfor := erase_columns (dm := dm2.eraseIdx index) (index := index)
    (fun z hz => hrows z (List.mem_of_mem_eraseIdx hz))
  unfold HTree.deleteIterative
  rw [hv]
  simp only [ok_bind]
  rw [hfor]
  simp only [ok_bind]
  have hdims := h3.dims
  cases hroots : t.roots with
  | nil =>
    rw [hroots] at h5
    simp [Sib.count] at h5
    omega
  | node i w c s =>
  rw [hroots] at hA h5 h6
  cases s with
  | nil =>
    simp [Sib.count] at h5
    omega
  | node i' w' c' s' =>
  obtain ⟨j, rfl⟩ : ∃ j, n = j + 2 := ⟨n - 2, by omega⟩
  have hi0 : i = 0 := by
    rw [List.range_succ_eq_map] at h6
    simp only [Sib.labels, List.cons.injEq] at h6
    exact h6.1
  subst hi0
  have hlab : 0 ∉ (Sib.node i' w' c' s').labels := by
    rw [List.range_succ_eq_map, Sib.labels, List.cons.injEq] at h6
    rw [h6.2]
    simp
  have hpow : j + 4 ≤ 2 ^ (j + 2) := by
    have := Nat.lt_two_pow_self (n := j)
    rw [pow_add]
    omega
  have hdel := fun p => deletion_roots (.node 0 w c (.node i' w' c' s')) (by simp) (fuel - 1) (by omega)
    p A m.heap m.nodeCount
  have hA0 := hA
  obtain ⟨a, sx, q, r, B, C, hhead, ha, hB, hC, rfl, hnd⟩ := hA
  obtain ⟨b, sy, q', r', B', C', rfl, hb, -⟩ := id hC
  rw [hhead] at hA0 hdims ⊢
  obtain ⟨e1, h', e2, e3, -, e5, e6⟩ := hdel (some a) hA0
  have hfr := (e6 a _ rfl ha).2 b rfl
  have habs := fun strict => delete_absent strict 0 (.node i' w' c' s') (fuel - 1) (by simp only [Sib.count] at h5 ⊢; omega)
    hlab (some b) C m hC
  obtain ⟨f, hf⟩ : ∃ f, fuel = f + 1 := ⟨fuel - 1, by omega⟩
  subst hf
  rw [Nat.add_sub_cancel] at habs e1 e2
  have hlab' : i' ≠ 0 := fun e => hlab (by simp [Sib.labels, e])
  have step : ∀ strict, hDeleteIndex strict 0 (f + 1) (some a) m = (do
      let st ← hDeletion strict f (some a) (m.heap, m.nodeCount)
      pure { m with head := some b, dimensions := [some b], heap := st.1, nodeCount := st.2 }) := by
    intro strict
    unfold hDeleteIndex
    rw [hload_some ha]
    simp only [ok_bind]
    rw [hload_some hb]
    simp only [ok_bind]
    rw [if_neg hlab', habs]
    simp only [ok_bind]
    rw [hload_some ha]
    simp only [ok_bind]
    rw [if_pos trivial, if_pos hhead.symm]
    have : vmodify m.dimensions 0 (fun _ => some b) = .ok [some b] := by
      rw [hdims]; rfl
    rw [this]
    rfl
  rw [step, step, e1, e2]
  refine ⟨rfl, { m with head := some b, dimensions := [some b], heap := h', nodeCount := _ }, b, rfl, rfl, hfr,
    ?_, ?_⟩
  · dsimp only
    omega
  · have hd : dm.length ≠ 0 := by simpa using hne
    unfold HTree.insert
    rw [if_neg hd]
    dsimp only [hnew]
    unfold hInsertLoop hload
    have : (h' ++ [some (⟨m.indexCounter, [], 0, none, none, none⟩ : HNode W)])[b]? = some none := by
      rw [List.getElem?_append_left (lt_of_live hfr), hfr]
    have hv0 : vget [some b] 0 = .ok (some b) := rfl
    rw [hv0]
    simp only [ok_bind]
    rw [this]
    rfl

/-- Three points in a row at distances 1, 1 and 2, with radius 2: five simplices in memory. -/
example : ∃ m : HTree Int, HTree.insertN 8 2 2 [[0, 1, 2], [1, 0, 1], [2, 1, 0]] 3 HTree.fresh = .ok m ∧
    m.heap.length = 7 ∧ liveCells m.heap = 7 ∧ m.head = some 0 :=
  ⟨_, rfl, by decide +kernel, by decide +kernel, rfl⟩

/-- The hypotheses of the theorems of this file for those points. -/
example : (∀ i j : Nat, (0 : Int) ≤ (if i = j then 0 else if i + 1 = j ∨ j + 1 = i then 1 else 2)) ∧
    (∀ i j : Nat, i < j → j < 3 → at2 [[(0 : Int), 1, 2], [1, 0, 1], [2, 1, 0]] i j =
      .ok (if i = j then 0 else if i + 1 = j ∨ j + 1 = i then 1 else 2)) := by
  constructor
  · intro i j
    split_ifs <;> decide
  · intro i j hij hj
    have : (i = 0 ∧ j = 1) ∨ (i = 0 ∧ j = 2) ∨ (i = 1 ∧ j = 2) := by omega
    rcases this with ⟨rfl, rfl⟩ | ⟨rfl, rfl⟩ | ⟨rfl, rfl⟩ <;> rfl

/-- After `clear` four of the seven cells are left. -/
example : ∃ m m' : HTree Int, HTree.insertN 8 2 2 [[0, 1, 2], [1, 0, 1], [2, 1, 0]] 3 HTree.fresh = .ok m ∧
    m.clear false 8 = .ok m' ∧ liveCells m'.heap = 4 ∧ m'.nodeCount = 2 :=
  ⟨_, _, rfl, rfl, by decide +kernel, by decide +kernel⟩

/-- After deleting vertex 1 the edge from 0 to 1 is still in memory, and all five simplices are still listed. -/
theorem C108_edge_stays_violated : ∃ (dm : List (List Int)) (m m' : HTree Int) (a : Nat),
    HTree.insertN 8 2 2 dm 3 HTree.fresh = .ok m ∧
    m.deleteIterative true 8 1 1 dm = .ok (dm.eraseIdx 1, m') ∧ Reach m'.heap m'.head [0, 1] 1 a ∧
    (m'.weg.map (fun l => l.map Prod.fst)) = [[[0], [1], [2]], [[0, 1], [1, 2]]] ∧ m'.nodeCount = 5 :=
  ⟨[[0, 1, 2], [1, 0, 1], [2, 1, 0]], _, _, 2, rfl, rfl,
    Reach.down (n := ⟨0, [], 0, none, some 6, some 2⟩) rfl (Reach.here (n := ⟨1, [1], 1, none, none, none⟩) rfl),
    by decide +kernel, by decide +kernel⟩

end

end LHF
