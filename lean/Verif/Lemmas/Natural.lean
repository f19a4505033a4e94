import Verif.Model.StandardRun
import Verif.Lemmas.Res

/-! The tree and the reduction only compare and copy weights: under a strictly increasing change of the
weights the result changes in the same way. -/

namespace LHF

section
variable {W V : Type} [LinearOrder W] [LinearOrder V]

theorem natural_bind {α β α' β' : Type} (g : α → α') (f : β → β') {x : Res α} {x' : Res α'}
    {k : α → Res β} {k' : α' → Res β'} (hx : x' = g <$> x) (hk : ∀ a, k' (g a) = f <$> k a) :
    (x' >>= k') = f <$> (x >>= k) := by
  subst hx
  cases x with
  | error e => rfl
  | ok a => exact hk a

theorem natural_foldlM {α β α' β' : Type} (g : β → β') (h : α → α') {step : β → α → Res β}
    {step' : β' → α' → Res β'} (hs : ∀ b a, step' (g b) (h a) = g <$> step b a) (l : List α) (b : β) :
    (l.map h).foldlM step' (g b) = g <$> l.foldlM step b := by
  induction l generalizing b with
  | nil => rfl
  | cons a l ih =>
    rw [List.map_cons, List.foldlM_cons, List.foldlM_cons]
    exact natural_bind g g (hs b a) (fun b => ih b)

theorem natural_vget {α β : Type} (f : α → β) (l : List α) (i : Nat) :
    vget (l.map f) i = f <$> vget l i := by
  unfold vget
  rw [List.getElem?_map]
  cases l[i]? <;> rfl

theorem natural_vmodify {α β : Type} (f : α → β) {u : α → α} {u' : β → β}
    (hu : ∀ a, u' (f a) = f (u a)) (l : List α) (i : Nat) :
    vmodify (l.map f) i u' = List.map f <$> vmodify l i u := by
  unfold vmodify
  rw [List.length_map]
  by_cases h : i < l.length
  · rw [if_pos h, if_pos h]
    show Except.ok _ = Except.ok _
    congr 1
    apply List.ext_getElem?
    intro j
    rw [List.getElem?_modify, List.getElem?_map, List.getElem?_map, List.getElem?_modify]
    cases l[j]? with
    | none => rfl
    | some a =>
      by_cases hj : i = j
      · simp [hj, hu]
      · simp [hj]
  · rw [if_neg h, if_neg h]
    rfl

theorem natural_at2 (φ : W → V) (m : List (List W)) (i j : Nat) :
    at2 (m.map (List.map φ)) i j = φ <$> at2 m i j := by
  unfold at2
  exact natural_bind (List.map φ) φ (natural_vget _ m i) (fun row => natural_vget φ row j)

/-- A weighted simplex with changed weight. -/
def mapW (φ : W → V) (e : List Nat × W) : List Nat × V := (e.1, φ e.2)

/-- A layered list with changed weights. -/
def mapG (φ : W → V) (g : Graph W) : Graph V := g.map (List.map (mapW φ))

/-- A tree with changed weights. -/
def Sib.mapS (φ : W → V) : Sib W → Sib V
  | .nil => .nil
  | .node i w c s => .node i (φ w) (c.mapS φ) (s.mapS φ)

omit [LinearOrder W] [LinearOrder V] in
theorem natural_pushWEG (φ : W → V) (g : Graph W) (e : List Nat × W) :
    pushWEG (mapG φ g) (mapW φ e) = mapG φ <$> pushWEG g e := by
  unfold pushWEG
  have e1 : (mapG φ g).length = g.length := List.length_map _
  have e2 : (mapW φ e).1 = e.1 := rfl
  rw [e1, e2]
  by_cases h : g.length < e.1.length
  · rw [if_pos h, if_pos h]
    show Except.ok _ = Except.ok _
    congr 1
    simp [mapG]
  · rw [if_neg h, if_neg h]
    exact natural_vmodify (List.map (mapW φ)) (fun a => by simp) g _

theorem natural_if_gt {φ : W → V} (hφ : StrictMono φ) (a b : W) :
    (if φ a > φ b then φ a else φ b) = φ (if a > b then a else b) := by
  by_cases h : a > b
  · rw [if_pos h, if_pos (hφ h)]
  · rw [if_neg h, if_neg (fun h' => h (hφ.lt_iff_lt.1 h'))]

/-- The state of `recurseInsert` with changed weights. -/
def mapSt (φ : W → V) (r : Sib W × (Graph W × Int)) : Sib V × (Graph V × Int) :=
  (r.1.mapS φ, (mapG φ r.2.1, r.2.2))

theorem natural_recurseInsert {φ : W → V} (hφ : StrictMono φ) {env : InsertEnv W}
    {env' : InsertEnv V} (h1 : env'.curIndex = env.curIndex) (h2 : ∀ i, env'.dist i = φ <$> env.dist i)
    (h3 : env'.maxEpsilon = φ env.maxEpsilon) (h4 : env'.maxDimension = env.maxDimension) (s : Sib W) :
    ∀ (maxE : W) (simp : List Nat) (st : Graph W × Int),
    recurseInsert env' (φ maxE) simp (s.mapS φ) (mapG φ st.1, st.2) =
      mapSt φ <$> recurseInsert env maxE simp s st := by
  induction s with
  | nil => intro maxE simp st; rfl
  | node i w c s ihc ihs =>
    intro maxE simp st
    rw [Sib.mapS, recurseInsert, recurseInsert]
    refine natural_bind φ _ (h2 i) (fun d => ?_)
    dsimp only
    rw [natural_if_gt hφ, h3, h4, h1]
    generalize (if d > maxE then d else maxE) = curE
    by_cases hc : curE < env.maxEpsilon
    · rw [if_pos hc, if_pos (hφ hc), natural_if_gt hφ]
      generalize (if curE > w then curE else w) = maxE'
      refine natural_bind (mapG φ) _ (natural_pushWEG φ st.1 (setInsert i simp, maxE')) (fun weg => ?_)
      have hr : (if (setInsert i simp).length ≤ env.maxDimension then
            recurseInsert env' (φ maxE') (setInsert i simp) (c.mapS φ) (mapG φ weg, st.2 + 1)
          else pure (c.mapS φ, (mapG φ weg, st.2 + 1)) : Res _) =
          mapSt φ <$> (if (setInsert i simp).length ≤ env.maxDimension then
            recurseInsert env maxE' (setInsert i simp) c (weg, st.2 + 1)
          else pure (c, (weg, st.2 + 1)) : Res _) := by
        by_cases hl : (setInsert i simp).length ≤ env.maxDimension
        · rw [if_pos hl, if_pos hl]
          exact ihc maxE' _ (weg, st.2 + 1)
        · rw [if_neg hl, if_neg hl]
          rfl
      refine natural_bind (mapSt φ) _ hr (fun r => ?_)
      refine natural_bind (mapSt φ) _ (ihs maxE simp r.2) (fun t => ?_)
      rfl
    · rw [if_neg hc, if_neg (fun h' => hc (hφ.lt_iff_lt.1 h'))]
      refine natural_bind (mapSt φ) _ (ihs maxE simp st) (fun t => ?_)
      rfl

variable [Zero W] [Zero V]

omit [LinearOrder W] [LinearOrder V] in
theorem natural_appendRoot {φ : W → V} (h0 : φ 0 = 0) (i : Nat) (s : Sib W) :
    appendRoot i (s.mapS φ) = (appendRoot i s).mapS φ := by
  induction s with
  | nil => simp [Sib.mapS, appendRoot, h0]
  | node j w c s _ ih => simp [Sib.mapS, appendRoot, ih]

/-- A tree object with changed weights. -/
def Tree.mapT (φ : W → V) (t : Tree W) : Tree V :=
  ⟨t.roots.mapS φ, mapG φ t.weg, t.nodeCount, t.indexCounter, t.rviSize, t.rvc, t.isSorted⟩

omit [Zero W] [Zero V] in
theorem natural_nodeDist (φ : W → V) (dm : List (List W)) (a b c i : Nat) :
    nodeDist (dm.map (List.map φ)) a b c i = φ <$> nodeDist dm a b c i := by
  unfold nodeDist
  dsimp only
  split_ifs
  · rfl
  · exact natural_at2 _ _ _ _
  · exact natural_at2 _ _ _ _

theorem natural_insert {φ : W → V} (hφ : StrictMono φ) (h0 : φ 0 = 0) (eps : W) (dim : Nat)
    (dm : List (List W)) (t : Tree W) :
    (t.mapT φ).insert (φ eps) dim (dm.map (List.map φ)) = Tree.mapT φ <$> t.insert eps dim dm := by
  obtain ⟨roots, weg, nc, ic, rs, rvc, srt⟩ := t
  unfold Tree.insert
  rw [List.length_map]
  by_cases hd : dm.length = 0
  · rw [if_pos hd, if_pos hd]
    rfl
  · rw [if_neg hd, if_neg hd]
    cases roots with
    | nil =>
      show Except.ok _ = Except.ok _
      congr 1
      simp [Tree.mapT, Sib.mapS, mapG, mapW, h0]
    | node i w c s =>
      have hrec := natural_recurseInsert hφ
        (env := ⟨ic, nodeDist dm (rs + 1) rvc ic, eps, dim⟩)
        (env' := ⟨ic, nodeDist (dm.map (List.map φ)) (rs + 1) rvc ic, φ eps, dim⟩)
        rfl (natural_nodeDist φ dm _ _ _) rfl rfl (.node i w c s) 0 [ic] (weg, nc)
      rw [h0] at hrec
      refine natural_bind (mapSt φ) _ hrec (fun r => ?_)
      obtain ⟨r, weg', nc'⟩ := r
      refine natural_bind (mapG φ) _ (natural_vmodify (List.map (mapW φ)) (fun a => ?_) weg' 0)
        (fun weg'' => ?_)
      · simp [mapW, h0]
        rfl
      · show Except.ok _ = Except.ok _
        congr 1
        simp [Tree.mapT, natural_appendRoot h0]

theorem natural_insertN {φ : W → V} (hφ : StrictMono φ) (h0 : φ 0 = 0) (eps : W) (dim : Nat)
    (dm : List (List W)) (n : Nat) (t : Tree W) :
    Tree.insertN (φ eps) dim (dm.map (List.map φ)) n (t.mapT φ) =
      Tree.mapT φ <$> Tree.insertN eps dim dm n t := by
  induction n with
  | zero => rfl
  | succ n ih =>
    rw [Tree.insertN, Tree.insertN]
    exact natural_bind (Tree.mapT φ) _ ih (fun t => natural_insert hφ h0 eps dim dm t)

/-! ### The reduction -/

/-- A table entry with changed weights. -/
def mapB (φ : W → V) (e : BettiEntry W) : BettiEntry V := ⟨e.dim, φ e.birth, φ e.death, e.boundary⟩

/-- A printed line with changed weights. -/
def mapL (φ : W → V) (l : Line W) : Line V := (l.1, φ l.2.1, φ l.2.2)

/-- The state of the scan with changed weights. -/
def mapScan (φ : W → V) (s : Scan W) : Scan V := ⟨s.found, s.br, s.conTemp, s.tempset, s.table.map (mapB φ)⟩

/-- The state of the loop over the edges with changed weights. -/
def mapK (φ : W → V) (k : Kruskal W) : Kruskal V :=
  ⟨k.mst.map φ, k.conSet, k.pivots, k.pivotIndex, k.table.map (mapB φ)⟩

theorem natural_scan {φ : W → V} (h0 : φ 0 = 0) (e : List Nat × W) (sets : List (List Nat))
    (s : Scan W) : sets.foldl (scanSet (mapW φ e)) (mapScan φ s) =
      mapScan φ (sets.foldl (scanSet e) s) := by
  induction sets generalizing s with
  | nil => rfl
  | cons c sets ih =>
    rw [List.foldl_cons, List.foldl_cons, ← ih]
    congr 1
    obtain ⟨found, br, con, tmp, tab⟩ := s
    by_cases h1 : (setIntersectS e.1 c).length = 1
    · cases found <;> simp [scanSet, mapScan, mapB, mapW, h0, h1]
    · by_cases h2 : (setIntersectS e.1 c).length = 2
      · cases found <;> simp [scanSet, mapScan, mapW, h2]
      · cases found <;> simp [scanSet, mapScan, mapW, h1, h2]

theorem natural_kruskalStep {φ : W → V} (h0 : φ 0 = 0) (e : List Nat × W) (k : Kruskal W) :
    kruskalStep (mapW φ e) (mapK φ k) = mapK φ (kruskalStep e k) := by
  have h := natural_scan h0 e k.conSet ⟨false, false, [], [], k.table⟩
  unfold kruskalStep
  have e1 : (mapK φ k).conSet = k.conSet := rfl
  have e2 : (⟨false, false, [], [], (mapK φ k).table⟩ : Scan V) =
    mapScan φ ⟨false, false, [], [], k.table⟩ := rfl
  rw [e1, e2, h]
  generalize k.conSet.foldl (scanSet e) ⟨false, false, [], [], k.table⟩ = s
  obtain ⟨found, br, con, tmp, tab⟩ := s
  dsimp only [mapScan]
  split_ifs <;> simp [mapK, mapW]

theorem natural_kruskalLoop {φ : W → V} (h0 : φ 0 = 0) (n : Nat) (es : List (List Nat × W))
    (k : Kruskal W) : kruskalLoop n (es.map (mapW φ)) (mapK φ k) = mapK φ (kruskalLoop n es k) := by
  induction es generalizing k with
  | nil => rfl
  | cons e es ih =>
    rw [List.map_cons, kruskalLoop, kruskalLoop]
    rw [natural_kruskalStep h0]
    have : (mapK φ (kruskalStep e k)).mst.length = (kruskalStep e k).mst.length := by simp [mapK]
    rw [this]
    split_ifs
    · rfl
    · exact ih _

omit [LinearOrder W] [LinearOrder V] [Zero W] [Zero V] in
theorem natural_buildColumn (φ : W → V) (mode : EndRead) (pivots col : List Nat)
    (rows : List (List Nat × W)) : ∀ (idx : Nat) (rest coface : List Nat),
    buildColumn mode pivots col (rows.map (mapW φ)) idx rest coface =
      buildColumn mode pivots col rows idx rest coface := by
  induction rows with
  | nil => intro idx rest coface; rfl
  | cons row rows ih =>
    intro idx rest coface
    rw [List.map_cons, buildColumn, buildColumn]
    have : (mapW φ row).1 = row.1 := rfl
    rw [this]
    congr 1
    funext p
    rw [ih, ih, ih]

/-- The state of the loop over the columns with changed weights. -/
def mapRed (φ : W → V) (r : Reduction W) : Reduction V :=
  ⟨r.v, r.nextPivots, r.columnIndex, r.lines.map (mapL φ), r.table.map (mapB φ)⟩

omit [Zero W] [Zero V] in
theorem natural_columnStep {φ : W → V} (hφ : StrictMono φ) (mode : EndRead) (d : Nat)
    (pivots : List Nat) (rows : List (List Nat × W)) (r : Reduction W) (col : List Nat × W) :
    columnStep mode d pivots (rows.map (mapW φ)) (mapRed φ r) (mapW φ col) =
      mapRed φ <$> columnStep mode d pivots rows r col := by
  unfold columnStep
  refine natural_bind id _ (by
    show buildColumn mode pivots (mapW φ col).1 _ 0 pivots [] = _
    rw [natural_buildColumn, id_map]; rfl) (fun coface => ?_)
  rw [List.length_map]
  have e : (mapRed φ r).v = r.v := rfl
  rw [e, id]
  cases hred : reduceCol r.v (rows.length + 1) coface with
  | none => rfl
  | some x =>
    cases x with
    | dropped => rfl
    | stored p c =>
      refine natural_bind (mapW φ) _ (natural_vget (mapW φ) rows p) (fun row => ?_)
      by_cases h : row.2 ≠ col.2
      · rw [if_pos h, if_pos (show (mapW φ row).2 ≠ (mapW φ col).2 from fun h' => h (hφ.injective h'))]
        show Except.ok _ = Except.ok _
        congr 1
        simp [mapRed, mapL, mapB, mapW]
      · rw [if_neg h, if_neg (show ¬ (mapW φ row).2 ≠ (mapW φ col).2 from
          fun h' => h (fun h'' => h' (congrArg φ h'')))]
        rfl

omit [Zero W] [Zero V] in
theorem natural_reduceDims {φ : W → V} (hφ : StrictMono φ) (mode : EndRead) (edges : Graph W) (n : Nat) :
    ∀ (d : Nat) (pivots : List Nat) (lines : List (Line W)) (table : List (BettiEntry W)),
    reduceDims mode (mapG φ edges) n d pivots (lines.map (mapL φ)) (table.map (mapB φ)) =
      Prod.map (List.map (mapL φ)) (List.map (mapB φ)) <$>
        reduceDims mode edges n d pivots lines table := by
  induction n with
  | zero => intro d pivots lines table; rfl
  | succ n ih =>
    intro d pivots lines table
    rw [reduceDims, reduceDims]
    refine natural_bind (List.map (mapW φ)) _ (natural_vget _ edges d) (fun rows => ?_)
    refine natural_bind (List.map (mapW φ)) _ (natural_vget _ edges (d + 1)) (fun cols => ?_)
    refine natural_bind (mapRed φ) _ ?_ (fun r => ih _ _ _ _)
    unfold reduceDim
    exact natural_foldlM (mapRed φ) (mapW φ)
      (fun r col => natural_columnStep hφ mode d pivots rows r col) cols ⟨[], [], 0, lines, table⟩

theorem natural_fastPersistence {φ : W → V} (hφ : StrictMono φ) (h0 : φ 0 = 0) (mode : EndRead)
    (dim : Nat) (eps : W) (edges : Graph W) (output : List (Line W)) (table : List (BettiEntry W)) :
    fastPersistence mode dim (φ eps) (mapG φ edges) (output.map (mapL φ)) (table.map (mapB φ)) =
      Prod.map (List.map (mapL φ)) (List.map (mapB φ)) <$>
        fastPersistence mode dim eps edges output table := by
  unfold fastPersistence
  have e1 : (mapG φ edges).length = edges.length := List.length_map _
  rw [e1]
  by_cases h : edges.length = 0
  · rw [if_pos h, if_pos h]
    rfl
  · rw [if_neg h, if_neg h]
    refine natural_bind (List.map (mapW φ)) _ (natural_vget _ edges 0) (fun verts => ?_)
    refine natural_bind (List.map (mapW φ)) _ (natural_vget _ edges 1) (fun es => ?_)
    have hk := natural_kruskalLoop h0 verts.length es (Kruskal.init table)
    have hi : (Kruskal.init (table.map (mapB φ)) : Kruskal V) = mapK φ (Kruskal.init table) := rfl
    dsimp only
    rw [hi, List.length_map, hk]
    generalize kruskalLoop verts.length es (Kruskal.init table) = K
    have hl : ((mapK φ K).mst.map (fun z => (0, 0, z)) ++ [(0, 0, φ eps)] : List (Line V)) =
        (K.mst.map (fun z => (0, 0, z)) ++ [(0, 0, eps)] : List (Line W)).map (mapL φ) := by
      simp [mapK, mapL, h0]
    have ht : (mapK φ K).table ++ [⟨0, 0, φ eps, []⟩] =
        (K.table ++ [⟨0, 0, eps, []⟩] : List (BettiEntry W)).map (mapB φ) := by
      simp [mapK, mapB, h0]
    rw [hl, ht]
    by_cases hd : dim > 0
    · rw [if_pos hd, if_pos hd]
      exact natural_reduceDims hφ mode edges _ 1 K.pivots _ _
    · rw [if_neg hd, if_neg hd]
      rfl

end

end LHF
