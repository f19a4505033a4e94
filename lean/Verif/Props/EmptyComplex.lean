import Verif.Model.Interface
import Verif.Model.Effects
import Verif.Props.TreeComplex

/-! C124: complexes without points. C125: inserted points are in the complex. -/

namespace LHF
open Spec

/-- The operations of a complex that add no points. -/
inductive QuietOp where
  | allEdges
  | indexEdges
  | dimEdges (dim : Nat)
  | expand (dim : Nat)
  | reduce (maxDim : Nat)

/-- The three complex types. -/
def complexTypes : List String := ["simplexTree", "simplexArrayList", "indSimplexTree"]

section
variable {W : Type} [LinearOrder W] [Ring W] (sort : SortBySecond (List Nat) W)
  (isort : SortBySecond (Nat × List Nat) W) (body : Nat → Tree W → Res (Tree W)) (big eps : W)

/-- One operation on a complex. -/
def quietStep (c : AnyComplex W) : QuietOp → Res (AnyComplex W)
  | .allEdges => do
    let r ← c.getAllEdges sort isort
    pure r.2
  | .indexEdges => do
    let r ← c.getIndexEdges isort
    pure r.2
  | .dimEdges dim => do
    let _ ← c.getDimEdges dim eps
    pure c
  | .expand dim => c.expand dim
  | .reduce maxDim => c.reduce body big maxDim

/-- A state without points. -/
def Blank : AnyComplex W → Prop
  | .other => False
  | .array g _ => g = []
  | .tree t _ => t.roots = .nil ∧ t.weg = [] ∧ t.nodeCount = 0 ∧ t.rviSize = 0
  | .indexed t _ => t.roots = .nil ∧ t.store.dims = [] ∧ t.store.nodeCount = 0 ∧ t.graph = []

theorem blank_new {name : String} (h : name ∈ complexTypes) (dm : List (List W)) :
    Blank ((newComplex name : AnyComplex W).setMatrix dm) := by
  simp only [complexTypes, List.mem_cons, List.not_mem_nil, or_false] at h
  rcases h with rfl | rfl | rfl
  · exact ⟨rfl, rfl, rfl, rfl⟩
  · exact rfl
  · exact ⟨rfl, rfl, rfl, rfl⟩

theorem expandLoop_nil (dims : List Nat) (h : ∀ d ∈ dims, 0 < d) : expandLoop dims ([] : Graph W) = .ok [] := by
  cases dims with
  | nil => rfl
  | cons d ds =>
    rw [expandLoop, if_pos (by exact h d (by simp))]
    rfl

theorem blank_step {c : AnyComplex W} (h : Blank c) (op : QuietOp) (hop : op ≠ .dimEdges 0) :
    ∃ c', quietStep sort isort body big eps c op = .ok c' ∧ Blank c' := by
  cases c with
  | other => exact h.elim
  | array g dm =>
    cases (h : g = [])
    cases op with
    | allEdges => exact ⟨_, rfl, rfl⟩
    | indexEdges => exact ⟨_, rfl, rfl⟩
    | dimEdges dim =>
      refine ⟨.array [] dm, ?_, rfl⟩
      cases dim with
      | zero => exact absurd rfl hop
      | succ k => rfl
    | expand dim =>
      refine ⟨.array [] dm, ?_, rfl⟩
      show (expandDimensions dim [] >>= fun g => pure (AnyComplex.array g dm)) = _
      rw [expandDimensions, expandLoop_nil _ (fun d hd => by have := (List.mem_range'_1.1 hd).1; omega)]
      rfl
    | reduce m => exact ⟨_, rfl, rfl⟩
  | tree t dm =>
    obtain ⟨h1, h2, h3, h4⟩ := h
    cases op with
    | allEdges =>
      refine ⟨_, rfl, ?_⟩
      show Blank (AnyComplex.tree (t.getAllEdges sort).2 dm)
      unfold Tree.getAllEdges
      split
      · exact ⟨h1, h2, h3, h4⟩
      · refine ⟨h1, ?_, h3, h4⟩
        simp [h2]
    | indexEdges => exact ⟨_, rfl, h1, h2, h3, h4⟩
    | dimEdges dim =>
      refine ⟨.tree t dm, ?_, h1, h2, h3, h4⟩
      cases dim with
      | zero => exact absurd rfl hop
      | succ k =>
        show (t.getDimEdges (k + 1) >>= fun _ => pure (AnyComplex.tree t dm)) = _
        unfold Tree.getDimEdges
        rw [h2]
        rfl
    | expand dim => exact ⟨_, rfl, h1, h2, h3, h4⟩
    | reduce m =>
      refine ⟨.tree t dm, ?_, h1, h2, h3, h4⟩
      show (t.reduceComplex body >>= fun t => pure (AnyComplex.tree t dm)) = _
      unfold Tree.reduceComplex
      rw [h2]
      rfl
  | indexed t dm =>
    obtain ⟨h1, h2, h3, h4⟩ := h
    have hi : t.getIndexEdges isort = .ok ([], t) := by
      unfold ITree.getIndexEdges
      rw [h2]
      rfl
    cases op with
    | allEdges =>
      refine ⟨.indexed t dm, ?_, h1, h2, h3, h4⟩
      show ((t.getAllEdges isort >>= fun r => pure (r.1, AnyComplex.indexed r.2 dm)) >>= fun r => pure r.2) = _
      unfold ITree.getAllEdges
      rw [hi]
      rfl
    | indexEdges =>
      refine ⟨.indexed t dm, ?_, h1, h2, h3, h4⟩
      show ((t.getIndexEdges isort >>= fun r => pure (r.1, AnyComplex.indexed r.2 dm)) >>= fun r => pure r.2) = _
      rw [hi]
      rfl
    | dimEdges dim => exact ⟨_, rfl, h1, h2, h3, h4⟩
    | expand dim => exact ⟨_, rfl, h1, h2, h3, h4⟩
    | reduce m =>
      show ∃ c', (t.reduceComplex big m >>= fun r => pure (AnyComplex.indexed r.1 dm)) = .ok c' ∧ _
      unfold ITree.reduceComplex
      rw [h2, h4]
      by_cases hm : m < 2
      · rw [if_pos hm]
        exact ⟨_, rfl, h1, h2, h3, h4⟩
      · rw [if_neg hm]
        exact ⟨_, rfl, h1, rfl, h3, rfl⟩

omit [Ring W] in
theorem blank_answers {c : AnyComplex W} (h : Blank c) :
    c.simplexCount = 0 ∧ c.vertexCount = .ok 0 ∧ (∀ v, v ≠ [] → c.findVector v = .ok false) ∧
      (∀ v, c.findSet v = .ok false) ∧ (∃ c', c.getAllEdges sort isort = .ok ([], c')) ∧
      (∃ c', c.getIndexEdges isort = .ok ([], c')) ∧ (∀ dim e, dim ≠ 0 → c.getDimEdges dim e = .ok []) := by
  cases c with
  | other => exact h.elim
  | array g dm =>
    cases (h : g = [])
    refine ⟨rfl, rfl, fun v hv => ?_, fun v => rfl, ⟨_, rfl⟩, ⟨_, rfl⟩, fun dim e hd => ?_⟩
    · cases v with
      | nil => exact absurd rfl hv
      | cons a v => rfl
    · cases dim with
      | zero => exact absurd rfl hd
      | succ k => rfl
  | tree t dm =>
    obtain ⟨h1, h2, h3, h4⟩ := h
    refine ⟨h3, ?_, fun _ _ => rfl, fun _ => rfl, ⟨.tree (t.getAllEdges sort).2 dm, ?_⟩, ⟨_, rfl⟩, fun dim e hd => ?_⟩
    · show Except.ok ((t.vertexCount : Nat) : Int) = _
      unfold Tree.vertexCount
      rw [h4, if_pos (by omega)]
      rfl
    · show Except.ok ((t.getAllEdges sort).1, _) = _
      unfold Tree.getAllEdges
      split
      · rw [h2]
      · simp [h2]
    · show t.getDimEdges dim = _
      unfold Tree.getDimEdges
      rw [h2, if_neg (by simpa using hd)]
      rfl
  | indexed t dm =>
    obtain ⟨h1, h2, h3, h4⟩ := h
    have hi : t.getIndexEdges isort = .ok ([], t) := by
      unfold ITree.getIndexEdges
      rw [h2]
      rfl
    refine ⟨h3, congrArg Except.ok h3, fun _ _ => rfl, fun v => ?_, ⟨.indexed t dm, ?_⟩,
      ⟨.indexed t dm, ?_⟩, fun _ _ _ => rfl⟩
    · show t.find v = _
      unfold ITree.find
      rw [h2]
      rfl
    · show (t.getAllEdges isort >>= fun r => pure (r.1, AnyComplex.indexed r.2 dm)) = _
      unfold ITree.getAllEdges
      rw [hi]
      rfl
    · show (t.getIndexEdges isort >>= fun r => pure (r.1, AnyComplex.indexed r.2 dm)) = _
      rw [hi]
      rfl

/-- C124: after any history of operations that insert no point, a complex of any type has no simplices, finds
none and lists none. (Layer 0, which `getDimEdges` of the two types understands differently, is excluded.) -/
theorem C124_empty_answers_partial {name : String} (h : name ∈ complexTypes) (dm : List (List W)) (ops : List QuietOp)
    (hops : QuietOp.dimEdges 0 ∉ ops) :
    ∃ c, ops.foldlM (quietStep sort isort body big eps) ((newComplex name : AnyComplex W).setMatrix dm) = .ok c ∧
      c.simplexCount = 0 ∧ c.vertexCount = .ok 0 ∧ (∀ v, v ≠ [] → c.findVector v = .ok false) ∧
      (∀ v, c.findSet v = .ok false) ∧ (∃ c', c.getAllEdges sort isort = .ok ([], c')) ∧
      (∃ c', c.getIndexEdges isort = .ok ([], c')) ∧ (∀ dim e, dim ≠ 0 → c.getDimEdges dim e = .ok []) := by
  have key : ∀ (ops : List QuietOp) (c : AnyComplex W), Blank c → QuietOp.dimEdges 0 ∉ ops →
      ∃ c', ops.foldlM (quietStep sort isort body big eps) c = .ok c' ∧ Blank c' := by
    intro ops
    induction ops with
    | nil => intro c hc _; exact ⟨c, rfl, hc⟩
    | cons op ops ih =>
      intro c hc hn
      rw [List.mem_cons, not_or] at hn
      obtain ⟨c1, e1, h1⟩ := blank_step sort isort body big eps hc op (Ne.symm hn.1)
      rw [List.foldlM_cons, e1, ok_bind]
      exact ih c1 h1 hn.2
  obtain ⟨c, e, hc⟩ := key ops _ (blank_new h dm) hops
  exact ⟨c, e, blank_answers sort isort hc⟩

/-- C124: a `simplexArrayList` is a new one after `clear`, whatever it held. -/
theorem C124_cleared_array (strict : Bool) (g : Graph W) (dm : List (List W)) :
    (AnyComplex.array g dm).clear strict = .ok ((newComplex "simplexArrayList" : AnyComplex W).setMatrix dm) := by
  simp [AnyComplex.clear, arrayClear, newComplex, AnyComplex.setMatrix, pure_eq_ok]

/-- C124 is violated: without points, `getDimEdges(0, ...)` of a `simplexTree` reads out of range, `clear` of it
follows a null pointer, and `find` of a `simplexArrayList` with an empty vector reads out of range. -/
theorem C124_empty_violated (dm : List (List W)) (strict : Bool) :
    ((newComplex "simplexTree" : AnyComplex W).setMatrix dm).getDimEdges 0 eps = .error .oob ∧
    ((newComplex "simplexTree" : AnyComplex W).setMatrix dm).clear strict = .error .null ∧
    ((newComplex "simplexArrayList" : AnyComplex W).setMatrix dm).findVector [] = .error .oob :=
  ⟨rfl, rfl, rfl⟩

end

/-! ### C125 -/

/-- No layer loses an entry. -/
def Keeps {α : Type} (g g' : List (List α)) : Prop :=
  ∀ (k : Nat) (l : List α), g[k]? = some l → ∃ l', g'[k]? = some l' ∧ ∀ e ∈ l, e ∈ l'

theorem Keeps.refl {α : Type} (g : List (List α)) : Keeps g g := fun _ l h => ⟨l, h, fun _ he => he⟩

theorem Keeps.trans {α : Type} {g g' g'' : List (List α)} (h : Keeps g g') (h' : Keeps g' g'') : Keeps g g'' := by
  intro k l hl
  obtain ⟨l1, a, b⟩ := h k l hl
  obtain ⟨l2, c, d⟩ := h' k l1 a
  exact ⟨l2, c, fun e he => d e (b e he)⟩

theorem keeps_append {α : Type} (g x : List (List α)) : Keeps g (g ++ x) := by
  intro k l hl
  have hk := (List.getElem?_eq_some_iff.1 hl).1
  exact ⟨l, by rw [List.getElem?_append_left hk]; exact hl, fun _ he => he⟩

theorem keeps_vmodify {α : Type} {g g' : List (List α)} {i : Nat} {e : α} (h : vmodify g i (· ++ [e]) = .ok g') :
    Keeps g g' ∧ ∃ l, g'[i]? = some l ∧ e ∈ l := by
  unfold vmodify at h
  split at h
  · rename_i hi
    cases h
    constructor
    · intro k l hl
      rw [List.getElem?_modify, hl]
      by_cases hk : i = k
      · exact ⟨l ++ [e], by simp [hk], fun e he => List.mem_append_left _ he⟩
      · exact ⟨l, by simp [hk], fun e he => he⟩
    · refine ⟨_, ?_, List.mem_append_right (g[i]) (List.mem_singleton.2 rfl)⟩
      rw [List.getElem?_modify, List.getElem?_eq_getElem hi]
      simp
  · cases h

section
variable {W : Type} [LinearOrder W] [Zero W]

omit [Zero W] in
theorem insertEdges_head {eps : W} {dm : List (List W)} {i : Nat} {l : List (List Nat × W)} {rest g' : Graph W}
    (h : insertEdges eps dm i (l :: rest) = .ok g') : ∃ r, g' = l :: r := by
  unfold insertEdges at h
  generalize List.range i = js at h
  induction js generalizing rest with
  | nil => cases h; exact ⟨_, rfl⟩
  | cons j js ih =>
    rw [List.foldlM_cons] at h
    obtain ⟨g1, e1, e2⟩ := bind_ok.1 h
    have : ∃ r, g1 = l :: r := by
      obtain ⟨dist, -, e1⟩ := bind_ok.1 e1
      split at e1
      · split at e1
        · cases e1
          exact ⟨_, rfl⟩
        · obtain ⟨edges, -, e1⟩ := bind_ok.1 e1
          split at e1
          · cases e1
            exact ⟨_, rfl⟩
          · unfold vmodify at e1
            split at e1
            · cases e1
              exact ⟨_, rfl⟩
            · cases e1
      · cases e1
        exact ⟨_, rfl⟩
    obtain ⟨r, rfl⟩ := this
    exact ih e2

omit [LinearOrder W] [Zero W] in
theorem pushWEG_keeps {weg weg' : Graph W} {e : List Nat × W} (h : pushWEG weg e = .ok weg') : Keeps weg weg' := by
  unfold pushWEG at h
  split at h
  · cases h
    exact keeps_append _ _
  · exact (keeps_vmodify h).1

theorem recurseInsert_keeps (env : InsertEnv W) (s : Sib W) : ∀ (maxE : W) (simp : List Nat) (st : Graph W × Int)
    (s' : Sib W) (st' : Graph W × Int), recurseInsert env maxE simp s st = .ok (s', st') → Keeps st.1 st'.1 := by
  induction s with
  | nil =>
    intro maxE simp st s' st' h
    cases h
    exact Keeps.refl _
  | node index weight child sibling ihc ihs =>
    intro maxE simp st s' st' h
    rw [recurseInsert] at h
    obtain ⟨d, -, h⟩ := bind_ok.1 h
    dsimp only at h
    generalize (if d > maxE then d else maxE) = curE at h
    split at h
    · obtain ⟨weg, e1, h⟩ := bind_ok.1 h
      obtain ⟨r, e2, h⟩ := bind_ok.1 h
      obtain ⟨t, e3, h⟩ := bind_ok.1 h
      cases h
      have k2 : Keeps weg r.2.1 := by
        split at e2
        · exact ihc _ _ _ _ _ e2
        · cases e2
          exact Keeps.refl _
      exact (pushWEG_keeps e1).trans (k2.trans (ihs _ _ _ _ _ e3))
    · obtain ⟨t, e3, h⟩ := bind_ok.1 h
      cases h
      exact ihs _ _ _ _ _ e3

omit [LinearOrder W] [Zero W] in
theorem pushDims_keeps {dims dims' : List (List (IEntry W))} {m : Nat} {e : IEntry W}
    (h : pushDims dims m e = .ok dims') : Keeps dims dims' := by
  unfold pushDims at h
  split at h
  · cases h
    exact keeps_append _ _
  · exact (keeps_vmodify h).1

theorem recurseInsertI_keeps (env : InsertEnv W) (s : INode W) : ∀ (maxE : W) (simp : List Nat) (st : IStore W)
    (s' : INode W) (st' : IStore W), recurseInsertI env maxE simp s st = .ok (s', st') → Keeps st.dims st'.dims := by
  induction s with
  | nil =>
    intro maxE simp st s' st' h
    cases h
    exact Keeps.refl _
  | node a index weight sset child sibling ihc ihs =>
    intro maxE simp st s' st' h
    rw [recurseInsertI] at h
    obtain ⟨d, -, h⟩ := bind_ok.1 h
    dsimp only at h
    generalize (if d > maxE then d else maxE) = curE at h
    split at h
    · obtain ⟨counts, -, h⟩ := bind_ok.1 h
      obtain ⟨dims, e1, h⟩ := bind_ok.1 h
      obtain ⟨r, e2, h⟩ := bind_ok.1 h
      obtain ⟨t, e3, h⟩ := bind_ok.1 h
      cases h
      have k2 : Keeps dims r.2.dims := by
        split at e2
        · exact ihc _ _ _ _ _ e2
        · cases e2
          exact Keeps.refl _
      exact (pushDims_keeps e1).trans (k2.trans (ihs _ _ _ _ _ e3))
    · obtain ⟨t, e3, h⟩ := bind_ok.1 h
      cases h
      exact ihs _ _ _ _ _ e3

/-- The points `0, ..., n-1` are in layer 0, and the next point gets the number `n`. -/
def HasPoints (n : Nat) : AnyComplex W → Prop
  | .other => False
  | .array g _ => (n = 0 ∧ g = []) ∨
      (∃ l rest, g = l :: rest ∧ l.length = n ∧ n ≠ 0 ∧ ∀ i < n, ([i], (0 : W)) ∈ l)
  | .tree t _ => t.indexCounter = n ∧ ((n = 0 ∧ t.weg = [] ∧ t.roots = .nil) ∨
      (n ≠ 0 ∧ t.roots ≠ .nil ∧ ∃ l, t.weg[0]? = some l ∧ ∀ i < n, ([i], (0 : W)) ∈ l)) ∧ t.isSorted = false
  | .indexed t _ => t.indexCounter = n ∧ ((n = 0 ∧ t.store.dims = [] ∧ t.roots = .nil) ∨
      (n ≠ 0 ∧ t.roots ≠ .nil ∧ ∃ l, t.store.dims[0]? = some l ∧ ∀ i < n, ∃ a, ((a, [i]), (0 : W)) ∈ l)) ∧
      t.isSorted = false

theorem points_new {name : String} (h : name ∈ complexTypes) (dm : List (List W)) :
    HasPoints 0 ((newComplex name : AnyComplex W).setMatrix dm) := by
  simp only [complexTypes, List.mem_cons, List.not_mem_nil, or_false] at h
  rcases h with rfl | rfl | rfl
  · exact ⟨rfl, Or.inl ⟨rfl, rfl, rfl⟩, rfl⟩
  · exact Or.inl ⟨rfl, rfl⟩
  · exact ⟨rfl, Or.inl ⟨rfl, rfl, rfl⟩, rfl⟩

/-- The distance matrix of a complex. -/
def matrixOf : AnyComplex W → List (List W)
  | .other => []
  | .array _ dm => dm
  | .tree _ dm => dm
  | .indexed _ dm => dm

theorem points_insert {K : Type} {n maxDim : Nat} {eps : W} {row : List K} (hrow : row ≠ []) {c c' : AnyComplex W}
    (hdm : matrixOf c ≠ []) (h : HasPoints n c) (hi : c.insert eps maxDim row = .ok c') :
    HasPoints (n + 1) c' ∧ matrixOf c' = matrixOf c := by
  cases c with
  | other => exact h.elim
  | array g dm =>
    obtain ⟨g', e1, e2⟩ := bind_ok.1 hi
    cases e2
    refine ⟨?_, rfl⟩
    unfold arrayInsert at e1
    rw [if_neg (by simpa using hrow)] at e1
    rcases h with ⟨rfl, rfl⟩ | ⟨l, rest, rfl, hl, hn, hp⟩
    · cases e1
      refine Or.inr ⟨[([0], 0)], [], rfl, rfl, by omega, fun i hi => ?_⟩
      cases (show i = 0 by omega)
      exact List.mem_singleton.2 rfl
    · dsimp only at e1
      have k1 : ∃ r1, vmodify (l :: r1) 0 (· ++ [([n], (0 : W))]) = .ok g' := by
        rw [hl] at e1
        split at e1
        · obtain ⟨g1, e2, e3⟩ := bind_ok.1 e1
          obtain ⟨r1, rfl⟩ := insertEdges_head e2
          exact ⟨r1, e3⟩
        · exact ⟨rest, e1⟩
      obtain ⟨r1, e2⟩ := k1
      unfold vmodify at e2
      rw [if_pos (by simp)] at e2
      cases e2
      refine Or.inr ⟨l ++ [([n], 0)], r1, rfl, by simp [hl], by omega, fun i hi => ?_⟩
      by_cases hin : i < n
      · exact List.mem_append_left _ (hp i hin)
      · cases (show i = n by omega)
        exact List.mem_append_right _ (List.mem_singleton.2 rfl)
  | tree t dm =>
    obtain ⟨t', e1, e2⟩ := bind_ok.1 hi
    cases e2
    refine ⟨?_, rfl⟩
    obtain ⟨hc, hcase, hs⟩ := h
    unfold Tree.insert at e1
    have hd : dm.length ≠ 0 := fun hz => hdm (List.length_eq_zero_iff.1 hz)
    rw [if_neg hd] at e1
    rcases hcase with ⟨rfl, hw, hr⟩ | ⟨hn, hr, l, hw, hp⟩
    · rw [hr] at e1
      cases e1
      refine ⟨by rw [hc], Or.inr ⟨by omega, by simp, [([0], 0)], by simp [hw, hc], fun i hi => ?_⟩, hs⟩
      cases (show i = 0 by omega)
      exact List.mem_singleton.2 rfl
    · cases hroots : t.roots with
      | nil => exact absurd hroots hr
      | node i w ch sib =>
        rw [hroots] at e1
        dsimp only at e1
        obtain ⟨⟨roots, weg, cnt⟩, e2, e1⟩ := bind_ok.1 e1
        dsimp only at e1
        obtain ⟨weg', e3, e1⟩ := bind_ok.1 e1
        cases e1
        obtain ⟨k3, l3, m3, m4⟩ := keeps_vmodify e3
        obtain ⟨l2, m5, m6⟩ := ((recurseInsert_keeps _ _ _ _ _ _ _ e2).trans k3) 0 l hw
        rw [m3] at m5
        cases m5
        refine ⟨by rw [hc], Or.inr ⟨by omega, ?_, l3, m3, fun j hj => ?_⟩, hs⟩
        · cases roots <;> simp [appendRoot]
        · by_cases hjn : j < n
          · exact m6 _ (hp j hjn)
          · cases (show j = n by omega)
            rw [hc] at m4
            exact m4
  | indexed t dm =>
    obtain ⟨t', e1, e2⟩ := bind_ok.1 hi
    cases e2
    refine ⟨?_, rfl⟩
    obtain ⟨hc, hcase, hs⟩ := h
    unfold ITree.insert at e1
    have hd : dm.length ≠ 0 := fun hz => hdm (List.length_eq_zero_iff.1 hz)
    rw [if_neg hd] at e1
    rcases hcase with ⟨rfl, hw, hr⟩ | ⟨hn, hr, l, hw, hp⟩
    · rw [hr] at e1
      dsimp only at e1
      obtain ⟨counts, -, e1⟩ := bind_ok.1 e1
      cases e1
      refine ⟨by rw [hc], Or.inr ⟨by omega, by simp, _, by rw [hw]; rfl, fun i hi => ?_⟩, hs⟩
      cases (show i = 0 by omega)
      exact ⟨t.store.sidx.length, List.mem_singleton.2 (by rw [hc])⟩
    · cases hroots : t.roots with
      | nil => exact absurd hroots hr
      | node a i w ss ch sib =>
        rw [hroots] at e1
        dsimp only at e1
        obtain ⟨⟨roots, st⟩, e2, e1⟩ := bind_ok.1 e1
        dsimp only at e1
        obtain ⟨dims, e3, e1⟩ := bind_ok.1 e1
        obtain ⟨counts, -, e1⟩ := bind_ok.1 e1
        cases e1
        obtain ⟨k3, l3, m3, m4⟩ := keeps_vmodify e3
        obtain ⟨l2, m5, m6⟩ := ((recurseInsertI_keeps _ _ _ _ _ _ _ e2).trans k3) 0 l hw
        rw [m3] at m5
        cases m5
        refine ⟨by rw [hc], Or.inr ⟨by omega, ?_, l3, m3, fun j hj => ?_⟩, hs⟩
        · cases roots <;> simp [appendRootI]
        · by_cases hjn : j < n
          · obtain ⟨a, ha⟩ := hp j hjn
            exact ⟨a, m6 _ ha⟩
          · cases (show j = n by omega)
            rw [hc] at m4
            exact ⟨_, m4⟩

theorem points_listed {n : Nat} {c c' : AnyComplex W} {edges : Graph W} (sort : SortBySecond (List Nat) W)
    (isort : SortBySecond (Nat × List Nat) W) (h : HasPoints n c) (hg : c.getAllEdges sort isort = .ok (edges, c')) :
    ∀ i < n, ∃ l, edges[0]? = some l ∧ ([i], (0 : W)) ∈ l := by
  intro i hi
  cases c with
  | other => exact h.elim
  | array g dm =>
    cases hg
    rcases h with ⟨rfl, rfl⟩ | ⟨l, rest, rfl, hl, hn, hp⟩
    · omega
    · refine ⟨sort.run (l.map (fun e => (toSet e.1, e.2))), ?_, ?_⟩
      · unfold arrayGetAllEdges
        rw [List.filterMap_cons]
        have : (l.map (fun e => (toSet e.1, e.2))).length > 0 := by rw [List.length_map]; omega
        simp only [if_pos this]
        rfl
      · exact (sort.perm _).symm.subset (List.mem_map.2 ⟨_, hp i hi, rfl⟩)
  | tree t dm =>
    cases hg
    obtain ⟨hc, hcase, hs⟩ := h
    rcases hcase with ⟨rfl, hw, hr⟩ | ⟨hn, hr, l, hw, hp⟩
    · omega
    · refine ⟨sort.run l, ?_, (sort.perm _).symm.subset (hp i hi)⟩
      unfold Tree.getAllEdges
      rw [hs]
      show (t.weg.map sort.run)[0]? = _
      rw [List.getElem?_map, hw]
      rfl
  | indexed t dm =>
    obtain ⟨r, e1, e2⟩ := bind_ok.1 hg
    cases e2
    obtain ⟨hc, hcase, hs⟩ := h
    rcases hcase with ⟨rfl, hw, hr⟩ | ⟨hn, hr, l, hw, hp⟩
    · omega
    · obtain ⟨a, ha⟩ := hp i hi
      obtain ⟨⟨g, t1⟩, e3, e4⟩ := bind_ok.1 e1
      cases e4
      unfold ITree.getIndexEdges at e3
      cases hd : t.store.dims with
      | nil => rw [hd] at hw; cases hw
      | cons points layers =>
        rw [hd] at hw
        cases hw
        rw [hd, if_neg (by simp), hs, if_neg (by simp)] at e3
        obtain ⟨t2, e5, e6⟩ := bind_ok.1 e3
        cases e6
        unfold ITree.sortAndBuildGraph at e5
        rw [hd] at e5
        dsimp only at e5
        obtain ⟨sidx, -, e5⟩ := bind_ok.1 e5
        cases e5
        exact ⟨_, rfl, List.mem_map.2 ⟨_, ha, rfl⟩⟩

/-- C125: whatever the (non-empty) distance matrix, if the insertions return, every point that has been inserted
is in the list of simplices, with weight 0, under its number. -/
theorem C125_points_kept_partial {K : Type} {name : String} (h : name ∈ complexTypes) (eps : W) (maxDim : Nat)
    (dm : List (List W)) (hdm : dm ≠ []) (rows : List (List K)) (hrows : ∀ row ∈ rows, row ≠ [])
    (sort : SortBySecond (List Nat) W) (isort : SortBySecond (Nat × List Nat) W) (c c' : AnyComplex W)
    (edges : Graph W)
    (hi : rows.foldlM (fun c row => c.insert eps maxDim row) ((newComplex name : AnyComplex W).setMatrix dm) = .ok c)
    (hg : c.getAllEdges sort isort = .ok (edges, c')) :
    ∀ i < rows.length, ∃ l, edges[0]? = some l ∧ ([i], (0 : W)) ∈ l := by
  have key : ∀ (rows : List (List K)) (n : Nat) (c c' : AnyComplex W), (∀ row ∈ rows, row ≠ []) → matrixOf c ≠ [] →
      HasPoints n c → rows.foldlM (fun c row => c.insert eps maxDim row) c = .ok c' →
      HasPoints (n + rows.length) c' := by
    intro rows
    induction rows with
    | nil =>
      intro n c c' _ _ h hf
      cases hf
      exact h
    | cons row rows ih =>
      intro n c c' hr hm h hf
      rw [List.foldlM_cons] at hf
      obtain ⟨c1, e1, e2⟩ := bind_ok.1 hf
      obtain ⟨p1, p2⟩ := points_insert (hr row (by simp)) hm h e1
      have := ih (n + 1) c1 c' (fun r hr' => hr r (by simp [hr'])) (by rw [p2]; exact hm) p1 e2
      rw [List.length_cons, show n + (rows.length + 1) = n + 1 + rows.length by omega]
      exact this
  have hm : matrixOf ((newComplex name : AnyComplex W).setMatrix dm) ≠ [] := by
    simp only [complexTypes, List.mem_cons, List.not_mem_nil, or_false] at h
    rcases h with rfl | rfl | rfl <;> exact hdm
  have := key rows 0 _ c hrows hm (points_new h dm) hi
  rw [Nat.zero_add] at this
  exact points_listed sort isort this hg

/-- C125 is violated: without a distance matrix the two trees accept every row and store none, and a
`simplexArrayList` reads out of range at the second row. -/
theorem C125_no_matrix_violated {K : Type} (eps : W) (maxDim : Nat) (rows : List (List K))
    (sort : SortBySecond (List Nat) W) (isort : SortBySecond (Nat × List Nat) W) :
    (∃ c c', rows.foldlM (fun c row => c.insert eps maxDim row) (newComplex "simplexTree" : AnyComplex W) = .ok c ∧
      c.getAllEdges sort isort = .ok ([], c')) ∧
    (∃ c c', rows.foldlM (fun c row => c.insert eps maxDim row) (newComplex "indSimplexTree" : AnyComplex W) = .ok c ∧
      c.getAllEdges sort isort = .ok ([], c')) ∧
    (∀ a b : List K, a ≠ [] → b ≠ [] → 0 < maxDim →
      [a, b].foldlM (fun c row => c.insert eps maxDim row) (newComplex "simplexArrayList" : AnyComplex W) =
        .error .oob) := by
  have key : ∀ (c : AnyComplex W), (∀ row : List K, c.insert eps maxDim row = .ok c) →
      rows.foldlM (fun c row => c.insert eps maxDim row) c = .ok c := by
    intro c hc
    induction rows with
    | nil => rfl
    | cons row rows ih => rw [List.foldlM_cons, hc, ok_bind, ih]
  refine ⟨⟨_, _, key _ (fun _ => rfl), rfl⟩, ⟨_, _, key _ (fun _ => rfl), rfl⟩, ?_⟩
  intro a b ha hb hm
  cases a with
  | nil => exact absurd rfl ha
  | cons a as =>
    cases b with
    | nil => exact absurd rfl hb
    | cons b bs =>
      cases maxDim with
      | zero => omega
      | succ m => rfl

end

/-- A history with all operations meets the hypotheses of C124. -/
example : "indSimplexTree" ∈ complexTypes ∧
    QuietOp.dimEdges 0 ∉ [QuietOp.allEdges, .indexEdges, .dimEdges 1, .expand 3, .reduce 2] :=
  ⟨by decide, by simp⟩

/-- Two close points and a third one, on each type: the hypotheses of C125 hold. (The matrix is larger than
needed and not symmetric: only the part above the diagonal is read.) -/
example : ∀ name ∈ complexTypes, ∃ (c c' : AnyComplex Int) (edges : Graph Int),
    [[5], [6], [9]].foldlM (fun c (row : List Int) => c.insert 2 1 row)
      ((newComplex name : AnyComplex Int).setMatrix [[0, 1, 4, 7], [0, 0, 3, 7], [0, 0, 0, 7]]) = .ok c ∧
    c.getAllEdges (SortBySecond.insertion _ _) (SortBySecond.insertion _ _) = .ok (edges, c') := by
  intro name h
  simp only [complexTypes, List.mem_cons, List.not_mem_nil, or_false] at h
  rcases h with rfl | rfl | rfl <;> exact ⟨_, _, _, rfl, rfl⟩

end LHF
