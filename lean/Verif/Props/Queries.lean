import Verif.Props.EmptyComplex
import Verif.Props.IndexedTree

/-! C138: asking a complex does not change its answers. -/

namespace LHF
open Spec

/-- The questions one can ask a complex. -/
inductive Spec.Query (W : Type) where
  | allEdges
  | indexEdges
  | dimEdges (dim : Nat) (epsilon : W)
  | findVector (simplex : List Nat)
  | findSet (simplex : List Nat)
  | vertices

section
variable {W : Type} [LinearOrder W] (sort : SortBySecond (List Nat) W) (isort : SortBySecond (Nat × List Nat) W)

/-- The complex after a question, if it is answered. -/
def Spec.asked (c : AnyComplex W) : Query W → Res (AnyComplex W)
  | .allEdges => do
    let r ← c.getAllEdges sort isort
    pure r.2
  | .indexEdges => do
    let r ← c.getIndexEdges isort
    pure r.2
  | .dimEdges dim epsilon => do
    let _ ← c.getDimEdges dim epsilon
    pure c
  | .findVector v => do
    let _ ← c.findVector v
    pure c
  | .findSet v => do
    let _ ← c.findSet v
    pure c
  | .vertices => do
    let _ ← c.vertexCount
    pure c

theorem tree_asked_twice (t : Tree W) :
    (t.getAllEdges sort).2.getAllEdges sort = t.getAllEdges sort := by
  unfold Tree.getAllEdges
  by_cases h : t.isSorted = true
  · simp [h]
  · simp [h]

theorem index_asked_twice {t u : ITree W} {g : List (List (IEntry W))} (h : t.getIndexEdges isort = .ok (g, u)) :
    u.getIndexEdges isort = .ok (g, u) := by
  unfold ITree.getIndexEdges at h ⊢
  by_cases h1 : t.store.dims.length = 0
  · rw [if_pos h1, pure_eq_ok] at h
    cases h
    rw [if_pos h1]
    rfl
  · rw [if_neg h1] at h
    by_cases h2 : t.isSorted = true
    · rw [if_pos h2, pure_eq_ok] at h
      cases h
      rw [if_neg h1, if_pos h2]
      rfl
    · rw [if_neg h2] at h
      obtain ⟨v, h3, h4⟩ := bind_ok.1 h
      rw [pure_eq_ok] at h4
      cases h4
      unfold ITree.sortAndBuildGraph at h3
      cases hd : t.store.dims with
      | nil => rw [hd] at h1; simp at h1
      | cons points layers =>
        rw [hd] at h3
        dsimp only at h3
        obtain ⟨sidx, -, h5⟩ := bind_ok.1 h3
        rw [pure_eq_ok] at h5
        cases h5
        rw [if_neg (by exact h1), if_pos rfl]
        rfl

/-- The complex is the same, or the one that `getAllEdges` leaves. -/
def Settled (c c' : AnyComplex W) : Prop := c' = c ∨ ∃ e, c.getAllEdges sort isort = .ok (e, c')

theorem all_asked_twice {c c' : AnyComplex W} {e : Graph W} (h : c.getAllEdges sort isort = .ok (e, c')) :
    c'.getAllEdges sort isort = .ok (e, c') := by
  cases c with
  | other => cases h; rfl
  | array g dm => cases h; rfl
  | tree t dm =>
    cases h
    show Except.ok (((t.getAllEdges sort).2.getAllEdges sort).1, AnyComplex.tree ((t.getAllEdges sort).2.getAllEdges sort).2 dm) = _
    rw [tree_asked_twice]
  | indexed t dm =>
    obtain ⟨r, h1, h2⟩ := bind_ok.1 h
    rw [pure_eq_ok] at h2
    cases h2
    unfold ITree.getAllEdges at h1
    obtain ⟨⟨g, u⟩, h3, h4⟩ := bind_ok.1 h1
    cases h4
    show (u.getAllEdges isort >>= fun r => pure (r.1, AnyComplex.indexed r.2 dm)) = _
    unfold ITree.getAllEdges
    rw [index_asked_twice isort h3]
    rfl

/-- `getIndexEdges` leaves the complex as `getAllEdges` does, or as it is. -/
theorem index_settled {c c' : AnyComplex W} {g : List (List (IEntry W))} (h : c.getIndexEdges isort = .ok (g, c')) :
    Settled sort isort c c' := by
  cases c with
  | other => cases h; exact Or.inl rfl
  | array g dm => cases h; exact Or.inl rfl
  | tree t dm => cases h; exact Or.inl rfl
  | indexed t dm =>
    obtain ⟨⟨g', u⟩, h1, h2⟩ := bind_ok.1 h
    rw [pure_eq_ok] at h2
    cases h2
    refine Or.inr ⟨g'.map (fun layer => layer.map (fun e => (e.1.2, e.2))), ?_⟩
    show (t.getAllEdges isort >>= fun r => pure (r.1, AnyComplex.indexed r.2 dm)) = _
    unfold ITree.getAllEdges
    rw [h1]
    rfl

theorem settled_step {c c1 c' : AnyComplex W} (h : Settled sort isort c c1) {q : Query W}
    (hq : asked sort isort c1 q = .ok c') : Settled sort isort c c' := by
  have key : Settled sort isort c1 c' := by
    cases q with
    | allEdges =>
      obtain ⟨⟨e, d⟩, h1, h2⟩ := bind_ok.1 hq
      cases h2
      exact Or.inr ⟨e, h1⟩
    | indexEdges =>
      obtain ⟨⟨e, d⟩, h1, h2⟩ := bind_ok.1 hq
      cases h2
      exact index_settled sort isort h1
    | _ =>
      obtain ⟨a, h1, h2⟩ := bind_ok.1 hq
      cases h2
      exact Or.inl rfl
  rcases h with rfl | ⟨e, h⟩
  · exact key
  · rcases key with rfl | ⟨e', h'⟩
    · exact Or.inr ⟨e, h⟩
    · rw [all_asked_twice sort isort h] at h'
      cases h'
      exact Or.inr ⟨e, h⟩

theorem settled_fold (qs : List (Query W)) {c c1 c' : AnyComplex W} (h : Settled sort isort c c1)
    (hq : qs.foldlM (asked sort isort) c1 = .ok c') : Settled sort isort c c' := by
  induction qs generalizing c1 with
  | nil => cases hq; exact h
  | cons q qs ih =>
    rw [List.foldlM_cons] at hq
    obtain ⟨c2, h1, h2⟩ := bind_ok.1 hq
    exact ih (settled_step sort isort h h1) h2

/-- C138: in whatever state a complex of any type is, and whatever is asked in whatever order, the next
`getAllEdges` and `getIndexEdges` answer as they would have at the beginning, and the numbers of simplices and vertices
and the answers to `find(vector)` are the same; `getDimEdges` lists the same simplices. -/
theorem C138_queries_partial (c c' : AnyComplex W) (qs : List (Query W))
    (h : qs.foldlM (asked sort isort) c = .ok c') :
    ((c'.getAllEdges sort isort).map Prod.fst = (c.getAllEdges sort isort).map Prod.fst) ∧
    ((c'.getIndexEdges isort).map Prod.fst = (c.getIndexEdges isort).map Prod.fst) ∧
    c'.simplexCount = c.simplexCount ∧ c'.vertexCount = c.vertexCount ∧
    (∀ v, c'.findVector v = c.findVector v) ∧
    (∀ dim epsilon l, c.getDimEdges dim epsilon = .ok l →
      ∃ l', c'.getDimEdges dim epsilon = .ok l' ∧ ∀ s, s ∈ l' ↔ s ∈ l) := by
  rcases settled_fold sort isort qs (Or.inl rfl) h with rfl | ⟨e, he⟩
  · exact ⟨rfl, rfl, rfl, rfl, fun _ => rfl, fun _ _ l hl => ⟨l, hl, fun _ => Iff.rfl⟩⟩
  refine ⟨by rw [all_asked_twice sort isort he, he], ?_⟩
  clear h qs
  cases c with
  | other => cases he; exact ⟨rfl, rfl, rfl, fun _ => rfl, fun _ _ l hl => ⟨l, hl, fun _ => Iff.rfl⟩⟩
  | array g dm => cases he; exact ⟨rfl, rfl, rfl, fun _ => rfl, fun _ _ l hl => ⟨l, hl, fun _ => Iff.rfl⟩⟩
  | tree t dm =>
    cases he
    refine ⟨rfl, ?_, ?_, fun _ => rfl, ?_⟩
    · show (t.getAllEdges sort).2.nodeCount = t.nodeCount
      unfold Tree.getAllEdges
      split <;> rfl
    · show Except.ok (((t.getAllEdges sort).2.vertexCount : Nat) : Int) = Except.ok ((t.vertexCount : Nat) : Int)
      unfold Tree.getAllEdges Tree.vertexCount
      split <;> rfl
    · intro dim epsilon l hl
      change t.getDimEdges dim = .ok l at hl
      show ∃ l', (t.getAllEdges sort).2.getDimEdges dim = .ok l' ∧ _
      unfold Tree.getAllEdges
      by_cases hs : t.isSorted = true
      · rw [if_pos hs]
        exact ⟨l, hl, fun _ => Iff.rfl⟩
      · rw [if_neg hs]
        unfold Tree.getDimEdges at hl ⊢
        dsimp only
        rw [List.length_map]
        by_cases hd : t.weg.length ≥ dim
        · rw [if_pos hd] at hl ⊢
          obtain ⟨layer, h1, h2⟩ := bind_ok.1 hl
          rw [pure_eq_ok] at h2
          cases h2
          have h3 := vget_ok.1 h1
          have h4 : vget (t.weg.map sort.run) dim = .ok (sort.run layer) := by
            apply vget_ok.2
            rw [List.getElem?_map, h3]
            rfl
          rw [h4, ok_bind]
          refine ⟨_, rfl, fun s => ?_⟩
          simp only [List.mem_map, (sort.perm layer).mem_iff]
        · rw [if_neg hd] at hl ⊢
          exact ⟨l, hl, fun _ => Iff.rfl⟩
  | indexed t dm =>
    obtain ⟨r, h1, h2⟩ := bind_ok.1 he
    rw [pure_eq_ok] at h2
    cases h2
    unfold ITree.getAllEdges at h1
    obtain ⟨⟨g, u⟩, h3, h4⟩ := bind_ok.1 h1
    cases h4
    have hn : u.store.nodeCount = t.store.nodeCount := by
      unfold ITree.getIndexEdges at h3
      split_ifs at h3
      · cases h3; rfl
      · cases h3; rfl
      · obtain ⟨v, h5, h6⟩ := bind_ok.1 h3
        rw [pure_eq_ok] at h6
        cases h6
        unfold ITree.sortAndBuildGraph at h5
        cases hd : t.store.dims with
        | nil => rw [hd] at h5; cases h5
        | cons points layers =>
          rw [hd] at h5
          dsimp only at h5
          obtain ⟨sidx, -, h7⟩ := bind_ok.1 h5
          rw [pure_eq_ok] at h7
          cases h7
          rfl
    refine ⟨?_, hn, congrArg Except.ok hn, fun _ => rfl, fun _ _ l hl => ⟨l, hl, fun _ => Iff.rfl⟩⟩
    show (u.getIndexEdges isort >>= fun r => pure (r.1, AnyComplex.indexed r.2 dm)).map Prod.fst =
      (t.getIndexEdges isort >>= fun r => pure (r.1, AnyComplex.indexed r.2 dm)).map Prod.fst
    rw [h3, index_asked_twice isort h3]

/-- C138: once the simplices have been listed, no question changes anything in the complex. -/
theorem C138_listed_once (c c' c'' : AnyComplex W) (e : Graph W) (he : c.getAllEdges sort isort = .ok (e, c'))
    (qs : List (Query W)) (h : qs.foldlM (asked sort isort) c' = .ok c'') : c'' = c' := by
  rcases settled_fold sort isort qs (Or.inl rfl) h with h | ⟨e', h⟩
  · exact h
  · rw [all_asked_twice sort isort he] at h
    cases h
    rfl

end

/-- Three points, the first two at distance 1, the third at distance 2 from both; every distance is below 5. -/
def threePoints (name : String) : Res (AnyComplex Int) :=
  [[0], [0], [0]].foldlM (fun c (row : List Int) => c.insert 5 1 row)
    ((newComplex name : AnyComplex Int).setMatrix [[0, 1, 2], [0, 0, 2], [0, 0, 0]])

/-- C138 fails for `find(set)` of an `indSimplexTree`: before any listing the answer for an edge is read from memory
that has not been written, after a listing it is an answer. -/
theorem C138_find_violated : ∃ c c' : AnyComplex Int, threePoints "indSimplexTree" = .ok c ∧
    [Query.allEdges].foldlM (asked (SortBySecond.insertion _ _) (SortBySecond.insertion _ _)) c = .ok c' ∧
    c.findSet [1, 2] = .error .uninit ∧ c'.findSet [1, 2] = .ok true :=
  ⟨_, _, rfl, rfl, rfl, rfl⟩

/-- The questions of C138 on three points, for each type. -/
example : complexTypes.map (fun name => (threePoints name >>= fun c =>
      [Query.vertices, .allEdges, .dimEdges 1 5, .indexEdges, .allEdges].foldlM
        (asked (SortBySecond.insertion _ _) (SortBySecond.insertion _ _)) c >>= fun c' =>
      c'.getAllEdges (SortBySecond.insertion _ _) (SortBySecond.insertion _ _)).toOption.map
        (fun r => r.1.map List.length)) = [some [3, 3], some [3, 3], some [3, 3]] := by
  decide +kernel

end LHF
