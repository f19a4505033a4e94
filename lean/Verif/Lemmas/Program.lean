import Verif.Model.Program
import Verif.Lemmas.Res
import Verif.Props.StandardRun
import Verif.Props.Collapse
import Verif.Props.Partition

/-! The table of fastPersistence is only appended to, and the stages of the default pipeline on a
packet. -/

namespace LHF
open Spec

section
variable {W : Type} [LinearOrder W] [Zero W]

/-- A state with a longer table. -/
def Scan.pre (T : List (BettiEntry W)) (s : Scan W) : Scan W := { s with table := T ++ s.table }

/-- A state with a longer table. -/
def Kruskal.pre (T : List (BettiEntry W)) (k : Kruskal W) : Kruskal W :=
  { k with table := T ++ k.table }

/-- A state with a longer table. -/
def Reduction.pre (T : List (BettiEntry W)) (r : Reduction W) : Reduction W :=
  { r with table := T ++ r.table }

omit [LinearOrder W] in
theorem scanSet_pre (T : List (BettiEntry W)) (e : List Nat × W) (s : Scan W) (c : List Nat) :
    scanSet e (s.pre T) c = (scanSet e s c).pre T := by
  unfold scanSet Scan.pre
  dsimp only
  by_cases h1 : (!s.found && (setIntersectS e.1 c).length == 1) = true
  · rw [if_pos h1, if_pos h1]; simp
  · rw [if_neg h1, if_neg h1]
    split_ifs <;> rfl

omit [LinearOrder W] in
theorem scan_pre (T : List (BettiEntry W)) (e : List Nat × W) (cs : List (List Nat)) (s : Scan W) :
    cs.foldl (scanSet e) (s.pre T) = (cs.foldl (scanSet e) s).pre T := by
  induction cs generalizing s with
  | nil => rfl
  | cons c cs ih => rw [List.foldl_cons, List.foldl_cons, scanSet_pre, ih]

omit [LinearOrder W] in
theorem kruskalStep_pre (T : List (BettiEntry W)) (e : List Nat × W) (k : Kruskal W) :
    kruskalStep e (k.pre T) = (kruskalStep e k).pre T := by
  have h := scan_pre T e k.conSet ⟨false, false, [], [], k.table⟩
  unfold kruskalStep
  dsimp only
  rw [show (k.pre T).conSet.foldl (scanSet e) ⟨false, false, [], [], (k.pre T).table⟩ = _ from h]
  generalize k.conSet.foldl (scanSet e) ⟨false, false, [], [], k.table⟩ = s
  show (if s.found = true then _ else if (!s.br) = true then _ else _) = _
  split_ifs <;> rfl

omit [LinearOrder W] in
theorem kruskalLoop_pre (T : List (BettiEntry W)) (n : Nat) (es : List (List Nat × W))
    (k : Kruskal W) : kruskalLoop n es (k.pre T) = (kruskalLoop n es k).pre T := by
  induction es generalizing k with
  | nil => rfl
  | cons e es ih =>
    unfold kruskalLoop
    dsimp only
    rw [kruskalStep_pre, ih]
    show (if (kruskalStep e k).mst.length = szPred n then _ else _) = _
    split_ifs <;> rfl

theorem columnStep_pre (T : List (BettiEntry W)) (mode : EndRead) (d : Nat) (pivots : List Nat)
    (rows : List (List Nat × W)) (r : Reduction W) (col : List Nat × W) :
    columnStep mode d pivots rows (r.pre T) col =
      (columnStep mode d pivots rows r col >>= fun r => pure (r.pre T)) := by
  unfold columnStep
  cases buildColumn mode pivots col.1 rows 0 pivots [] with
  | error e => rfl
  | ok coface =>
    rw [ok_bind, ok_bind]
    show (match reduceCol r.v (rows.length + 1) coface with
      | none => _ | some .dropped => _ | some (.stored p c) => _) = _
    cases reduceCol r.v (rows.length + 1) coface with
    | none => rfl
    | some x =>
      cases x with
      | dropped => rfl
      | stored p c =>
        dsimp only
        cases vget rows p with
        | error e => rfl
        | ok row =>
          rw [ok_bind, ok_bind]
          by_cases hw : row.2 ≠ col.2
          · rw [if_pos hw, if_pos hw, pure_eq_ok, pure_eq_ok, ok_bind, pure_eq_ok]
            unfold Reduction.pre
            simp
          · rw [if_neg hw, if_neg hw]; rfl

theorem reduceDim_pre (T : List (BettiEntry W)) (mode : EndRead) (d : Nat) (pivots : List Nat)
    (rows cols : List (List Nat × W)) (r : Reduction W) :
    cols.foldlM (columnStep mode d pivots rows) (r.pre T) =
      (cols.foldlM (columnStep mode d pivots rows) r >>= fun r => pure (r.pre T)) := by
  induction cols generalizing r with
  | nil => rfl
  | cons c cols ih =>
    rw [List.foldlM_cons, List.foldlM_cons, columnStep_pre]
    cases columnStep mode d pivots rows r c with
    | error e => rfl
    | ok r' => rw [ok_bind, ok_bind, pure_eq_ok, ok_bind, ih]

theorem reduceDims_pre (T : List (BettiEntry W)) (mode : EndRead) (edges : Graph W) (n d : Nat)
    (pivots : List Nat) (lines : List (Line W)) (table : List (BettiEntry W)) :
    reduceDims mode edges n d pivots lines (T ++ table) =
      (reduceDims mode edges n d pivots lines table >>= fun r => pure (r.1, T ++ r.2)) := by
  induction n generalizing d pivots lines table with
  | zero => rfl
  | succ n ih =>
    rw [reduceDims, reduceDims]
    cases vget edges d with
    | error e => rfl
    | ok rows =>
      rw [ok_bind, ok_bind]
      cases vget edges (d + 1) with
      | error e => rfl
      | ok cols =>
        rw [ok_bind, ok_bind]
        have h := reduceDim_pre T mode d pivots rows cols ⟨[], [], 0, lines, table⟩
        unfold reduceDim
        rw [show (⟨[], [], 0, lines, T ++ table⟩ : Reduction W) =
          Reduction.pre T ⟨[], [], 0, lines, table⟩ from rfl, h]
        cases List.foldlM (columnStep mode d pivots rows) ⟨[], [], 0, lines, table⟩ cols with
        | error e => rfl
        | ok r =>
          rw [ok_bind, ok_bind, pure_eq_ok, ok_bind]
          exact ih _ _ _ _

/-- On a complex with simplices, fastPersistence prints the same lines whatever the packet held
before, and appends the same entries to the table. -/
theorem fastPersistence_pre (mode : EndRead) (dim : Nat) (eps : W) (edges : Graph W)
    (hne : edges ≠ []) (output : List (Line W)) (T : List (BettiEntry W)) :
    fastPersistence mode dim eps edges output T =
      (fastPersistence mode dim eps edges [] [] >>= fun r => pure (r.1, T ++ r.2)) := by
  unfold fastPersistence
  have hl : ¬ edges.length = 0 := by simpa using hne
  rw [if_neg hl, if_neg hl]
  cases vget edges 0 with
  | error e => rfl
  | ok verts =>
    rw [ok_bind, ok_bind]
    cases vget edges 1 with
    | error e => rfl
    | ok es =>
      rw [ok_bind, ok_bind]
      dsimp only
      have hk := kruskalLoop_pre T verts.length es (Kruskal.init [])
      rw [show (Kruskal.init ([] : List (BettiEntry W))).pre T = Kruskal.init T by
        simp [Kruskal.pre, Kruskal.init]] at hk
      rw [hk]
      generalize kruskalLoop verts.length es (Kruskal.init []) = k
      show (if dim > 0 then reduceDims mode edges _ 1 k.pivots
        (k.mst.map (fun z => (0, 0, z)) ++ [(0, 0, eps)]) ((T ++ k.table) ++ [⟨0, 0, eps, []⟩])
        else pure (_, (T ++ k.table) ++ [⟨0, 0, eps, []⟩])) = _
      rw [List.append_assoc]
      split_ifs
      · exact reduceDims_pre _ _ _ _ _ _ _ _
      · rfl

end

/-! ### Comparing two computations -/

/-- Both fail with the same error, or both return and the results are related. -/
def SameRes {A B : Type _} (R : A → B → Prop) : Res A → Res B → Prop
  | .ok a, .ok b => R a b
  | .error e, .error e' => e = e'
  | _, _ => False

theorem SameRes.bind {A B A' B' : Type _} {R : A → B → Prop} {S : A' → B' → Prop} {x : Res A}
    {y : Res B} {f : A → Res A'} {g : B → Res B'} (h : SameRes R x y)
    (hfg : ∀ a b, x = .ok a → y = .ok b → R a b → SameRes S (f a) (g b)) :
    SameRes S (x >>= f) (y >>= g) := by
  cases x with
  | error e =>
    cases y with
    | error e' => exact h
    | ok b => exact h.elim
  | ok a =>
    cases y with
    | error e' => exact h.elim
    | ok b => exact hfg a b rfl rfl h

theorem SameRes.refl {A : Type _} {R : A → A → Prop} (x : Res A) (h : ∀ a, x = .ok a → R a a) :
    SameRes R x x := by
  cases x with
  | error e => rfl
  | ok a => exact h a rfl

theorem SameRes.of_ok {A B : Type _} {R : A → B → Prop} {x : Res A} {y : Res B} {b : B}
    (h : SameRes R x y) (hy : y = .ok b) : ∃ a, x = .ok a ∧ R a b := by
  subst hy
  cases x with
  | error e => exact h.elim
  | ok a => exact ⟨a, rfl, h⟩

theorem SameRes.ok_of {A B : Type _} {R : A → B → Prop} {x : Res A} {y : Res B} {a : A}
    (h : SameRes R x y) (hx : x = .ok a) : ∃ b, y = .ok b ∧ R a b := by
  subst hx
  cases y with
  | error e => exact h.elim
  | ok b => exact ⟨b, rfl, h⟩

theorem SameRes.error_of {A B : Type _} {R : A → B → Prop} {x : Res A} {y : Res B} {e : Err}
    (h : SameRes R x y) (hy : y = .error e) : x = .error e := by
  subst hy
  cases x with
  | error e' => exact congrArg _ h
  | ok a => exact h.elim

theorem SameRes.mono {A B : Type _} {R S : A → B → Prop} {x : Res A} {y : Res B}
    (h : SameRes R x y) (hRS : ∀ a b, R a b → S a b) : SameRes S x y := by
  cases x with
  | error e =>
    cases y with
    | error e' => exact h
    | ok b => exact h.elim
  | ok a =>
    cases y with
    | error e' => exact h.elim
    | ok b => exact hRS _ _ h

theorem SameRes.foldlM {A B X : Type _} {R : A → B → Prop} {f : A → X → Res A} {g : B → X → Res B}
    (l : List X) (h : ∀ a b, ∀ x ∈ l, R a b → SameRes R (f a x) (g b x)) (a : A) (b : B) (hab : R a b) :
    SameRes R (l.foldlM f a) (l.foldlM g b) := by
  induction l generalizing a b with
  | nil => exact hab
  | cons x l ih =>
    rw [List.foldlM_cons, List.foldlM_cons]
    exact (h a b x (List.mem_cons_self ..) hab).bind
      (fun a' b' _ _ hr => ih (fun a b y hy => h a b y (List.mem_cons_of_mem _ hy)) a' b' hr)

/-- The distance matrix does not depend on the weights already in the packet. -/
theorem distMatrixPipe_weights {K W : Type _} [LinearOrder W] [Zero W] (d : List K → List K → Res W)
    (eps : W) (ws ws' : List W) (data : List (List K)) :
    SameRes (fun a b => a.1 = b.1) (distMatrixPipe d eps ws data) (distMatrixPipe d eps ws' data) := by
  unfold distMatrixPipe
  dsimp only
  refine SameRes.bind (R := fun a b => a.1 = b.1) ?_ (fun a b _ _ (h : a.1 = b.1) => h)
  refine SameRes.foldlM _ ?_ _ _ rfl
  intro a b i _ hab
  refine SameRes.bind (R := fun x y => x = y) (SameRes.refl _ (fun _ _ => rfl)) ?_
  rintro row _ - - rfl
  by_cases hr : row.isEmpty = true
  · rw [if_pos hr, if_pos hr]; exact hab
  · rw [if_neg hr, if_neg hr]
    unfold distMatrixRow
    refine SameRes.foldlM _ ?_ _ _ hab
    intro a b j _ hab
    refine SameRes.bind (R := fun x y => x = y) (SameRes.refl _ (fun _ _ => rfl)) ?_
    rintro p _ - - rfl
    refine SameRes.bind (R := fun x y => x = y) (SameRes.refl _ (fun _ _ => rfl)) ?_
    rintro q _ - - rfl
    refine SameRes.bind (R := fun x y => x = y) (SameRes.refl _ (fun _ _ => rfl)) ?_
    rintro x _ - - rfl
    dsimp only
    rw [hab]
    refine SameRes.bind (R := fun x y => x = y) (SameRes.refl _ (fun _ _ => rfl)) ?_
    rintro m _ - - rfl
    rfl

/-! ### The stages -/

/-- The stages of the default pipeline. -/
def Spec.fastKinds : List PipeKind := [.distMatrix, .neighGraph, .rips, .fastPersistence]

/-- The names of the stages of the default pipeline in the statistics. -/
def Spec.fastNames : List String := ["DistMatrix", "neighGraph", "ripsPipe", "FastPersistence"]

theorem fold_wrappers {D : Type} (run : PipeKind → D → Res D) (ks : List PipeKind) (p : Packet D)
    (hc : p.hasComplex = true) :
    ks.foldlM (fun q k => runPipeWrapper true (pipeType k) (run k) q) p =
      (ks.foldlM (fun d k => run k d) p.data >>= fun d =>
        pure ⟨p.stats ++ ks.map pipeType, true, d⟩) := by
  induction ks generalizing p with
  | nil =>
    obtain ⟨a, b, c⟩ := p
    cases hc
    simp [pure_eq_ok]
  | cons k ks ih =>
    rw [List.foldlM_cons, List.foldlM_cons]
    unfold runPipeWrapper
    rw [if_pos rfl]
    cases run k p.data with
    | error e => rfl
    | ok d =>
      rw [ok_bind, ok_bind, if_pos hc, pure_eq_ok, ok_bind]
      show List.foldlM (fun q k => runPipeWrapper true (pipeType k) (run k) q) _ ks = _
      rw [ih ⟨_, _, d⟩ hc]
      simp [List.append_assoc]

/-- The complexes that the stages build. -/
theorem array_chain (eps : ℝ) (dim : Nat) (hd : 0 < dim) (k : Nat) (hk : 0 < k)
    (data : List (List ℝ)) (hdim : ∀ p ∈ data, p.length = k) :
    ∃ (dm : List (List ℝ)) (ws : List ℝ) (g0 ga gb : Graph ℝ),
      distMatrixPipe vectorsDistance eps [] data = .ok (dm, ws) ∧
      arrayInsertAll eps dim dm data [] = .ok g0 ∧ expandDimensions dim g0 = .ok ga ∧
      expandDimensions (dim + 1) ga = .ok gb ∧
      StoresRips gb data.length (rowDist k data) (fun i j => rowDist k data i j ≤ eps) (dim + 1) := by
  obtain ⟨ws, h1, -, -⟩ := C11_distance_matrix_euclidean k hk data hdim eps
  have hdm : ∀ i j, j < i → i < data.length → at2 (table data.length (fun i j =>
      if i < j then rowDist k data i j else 0)) j i = .ok (rowDist k data j i) :=
    fun i j hji hi => at2_table hji hi
  obtain ⟨ga, gb, h2, h3, -, h5, -⟩ := C16_expand_idempotent_monotone eps dim dim (dim + 1) hd _
    (rowDist k data) (fun _ _ => dist_nonneg) data (rows_ne_nil hk hdim) hdm (by omega)
  obtain ⟨gb', h6, h7⟩ := C13_expansion_is_rips eps dim (dim + 1) hd _
    (rowDist k data) (fun _ _ => dist_nonneg) data (rows_ne_nil hk hdim) hdm
  rw [h3] at h6
  cases h6
  rw [show max 1 (dim + 1) = dim + 1 by omega] at h7
  unfold Spec.buildArray at h2
  rw [bind_ok] at h2
  obtain ⟨g0, h8, h9⟩ := h2
  exact ⟨_, ws, g0, ga, gb, h1, h8, h9, h5, h7⟩

section
variable (lib : Lib ℝ ℝ) (s : Settings ℝ)

/-- The default pipeline on a packet with an empty `simplexArrayList`, without collapse. -/
theorem array_stages (hdist : lib.dist = vectorsDistance) (hd : 0 < s.dim)
    (hcol : s.collapse ≠ "true" ∧ s.collapse ≠ "1") (k : Nat) (hk : 0 < k)
    (w : Work (List ℝ) ℝ) (dm0 : List (List ℝ)) (hcx : w.complex = .array [] dm0)
    (hdim : ∀ p ∈ w.originalData, p.length = k) (hne : w.originalData ≠ []) :
    SameRes (fun (d : Work (List ℝ) ℝ) (r : List (Line ℝ) × List (BettiEntry ℝ)) =>
        ∃ g dm ws, d = { w with complex := .array g dm, weights := ws, bettiOutput := r.1,
                                bettiTable := w.bettiTable ++ r.2 })
      (Spec.fastKinds.foldlM (fun d k => runStages lib s k d) w)
      (arrayRun vectorsDistance lib.sort lib.mode s.eps s.dim w.originalData) := by
  obtain ⟨dm, ws0, g0, ga, gb, c1, c2, c3, c4, hS⟩ :=
    array_chain s.eps s.dim hd k hk w.originalData hdim
  have hedges : arrayGetAllEdges lib.sort gb ≠ [] := by
    obtain ⟨-, hS'⟩ := filtered_array hS lib.sort
    obtain ⟨l, h1, -⟩ := ((rips_nonempty hS).exact 0 [0] (diam (rowDist k w.originalData) [0])
      (by omega)).2 ⟨rfl, ⟨by simp, by simp, by
        simpa using List.length_pos_of_ne_nil hne, by simp⟩, rfl⟩
    have := (List.getElem?_eq_some_iff.1 h1).1
    rw [← hS'.length_eq] at this
    exact List.ne_nil_of_length_pos this
  obtain ⟨⟨dm', ws⟩, h1, (h2 : dm' = dm)⟩ :=
    (distMatrixPipe_weights vectorsDistance s.eps w.weights [] w.originalData).of_ok c1
  subst h2
  have hrun : arrayRun vectorsDistance lib.sort lib.mode s.eps s.dim w.originalData =
      fastPersistence lib.mode s.dim s.eps (arrayGetAllEdges lib.sort gb) [] [] := by
    unfold arrayRun
    rw [c1, ok_bind]
    dsimp only
    rw [c2, ok_bind, c3, ok_bind, if_pos hd, c4, ok_bind]
  have e1 : runStages lib s .distMatrix w =
      .ok { w with complex := .array [] dm', weights := ws } := by
    unfold runStages; rw [hcx, hdist]; dsimp only; rw [h1]; rfl
  have e2 : runStages lib s .neighGraph { w with complex := .array [] dm', weights := ws } =
      .ok { w with complex := .array g0 dm', weights := ws } := by
    unfold runStages; dsimp only; rw [c2]; rfl
  have e3 : runStages lib s .rips { w with complex := .array g0 dm', weights := ws } =
      .ok { w with complex := .array ga dm', weights := ws } := by
    unfold runStages ripsPipeArray; dsimp only
    rw [c3, ok_bind, if_neg (by rintro (h | h); exacts [hcol.1 h, hcol.2 h])]; rfl
  unfold Spec.fastKinds
  simp only [List.foldlM_cons, List.foldlM_nil]
  rw [e1, ok_bind, e2, ok_bind, e3, ok_bind, hrun]
  unfold runStages
  dsimp only
  rw [if_pos hd, c4, ok_bind, fastPersistence_pre _ _ _ _ hedges]
  cases fastPersistence lib.mode s.dim s.eps (arrayGetAllEdges lib.sort gb) [] [] with
  | error e => rfl
  | ok r => exact ⟨gb, dm', ws, rfl⟩

/-- The default pipeline on a packet with an unused `simplexTree`, nothing printed so far. -/
theorem tree_stages (hdist : lib.dist = vectorsDistance)
    (w : Work (List ℝ) ℝ) (dm0 : List (List ℝ)) (hcx : w.complex = .tree Tree.fresh dm0)
    (ho : w.bettiOutput = []) (ht : w.bettiTable = []) :
    SameRes (fun (d : Work (List ℝ) ℝ) (r : List (Line ℝ) × List (BettiEntry ℝ)) =>
        ∃ t dm ws, d = { w with complex := .tree t dm, weights := ws, bettiOutput := r.1,
                                bettiTable := r.2 })
      (Spec.fastKinds.foldlM (fun d k => runStages lib s k d) w)
      (treeRun vectorsDistance lib.sort lib.mode s.eps s.dim w.originalData) := by
  unfold treeRun
  unfold Spec.fastKinds
  simp only [List.foldlM_cons, List.foldlM_nil]
  have e1 : runStages lib s .distMatrix w =
      (distMatrixPipe vectorsDistance s.eps w.weights w.originalData >>= fun r =>
        pure { w with complex := .tree Tree.fresh r.1, weights := r.2 }) := by
    unfold runStages; rw [hcx, hdist]
  rw [e1, bind_assoc]
  refine SameRes.bind (distMatrixPipe_weights _ _ _ _ _) ?_
  rintro ⟨dm, ws⟩ ⟨dm', ws'⟩ - - (rfl : dm = dm')
  rw [pure_eq_ok, ok_bind]
  have e2 : runStages lib s .neighGraph { w with complex := .tree Tree.fresh dm, weights := ws } =
      (neighGraphTree s.eps s.dim dm w.originalData Tree.fresh >>= fun t =>
        pure { w with complex := .tree t dm, weights := ws }) := by
    unfold runStages; rfl
  dsimp only
  rw [e2, bind_assoc]
  refine SameRes.bind (R := fun x y => x = y) (SameRes.refl _ (fun _ _ => rfl)) ?_
  rintro t _ - - rfl
  have e3 : runStages lib s .rips { w with complex := .tree t dm, weights := ws } =
      .ok { w with complex := .tree t dm, weights := ws } := by
    unfold runStages; dsimp only; rw [C81_collapse_no_effect]; rfl
  rw [pure_eq_ok, ok_bind, e3, ok_bind]
  unfold runStages
  dsimp only
  rw [ho, ht]
  cases fastPersistence lib.mode s.dim s.eps (t.getAllEdges lib.sort).1 [] [] with
  | error e => rfl
  | ok r => exact ⟨_, dm, ws, rfl⟩

end

end LHF
