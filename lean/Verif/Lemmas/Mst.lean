import Verif.Lemmas.BettiCurve
import Mathlib.Algebra.Order.BigOperators.Group.List

/-! Thresholds and minimality of the selected edges. -/

namespace LHF
open Spec

section
variable {W : Type} [LinearOrder W]

omit [LinearOrder W] in
theorem edgeGraph_mono {verts : List Nat} {E E' : List (List Nat × W)} (h : ∀ e ∈ E, e ∈ E') :
    edgeGraph verts E ≤ edgeGraph verts E' :=
  fun _ _ hxy => ⟨hxy.1, hxy.2.imp fun e he => ⟨h e he.1, he.2⟩⟩

omit [LinearOrder W] in
theorem edgeGraph_congr {verts : List Nat} {E E' : List (List Nat × W)} (h : ∀ e, e ∈ E ↔ e ∈ E') :
    edgeGraph verts E = edgeGraph verts E' :=
  le_antisymm (edgeGraph_mono fun e he => (h e).1 he) (edgeGraph_mono fun e he => (h e).2 he)

theorem components_mono {V : Type} [Finite V] {G G' : SimpleGraph V}
    (h : ∀ x y, G.Reachable x y → G'.Reachable x y) : components G' ≤ components G := by
  unfold components
  let f : G.ConnectedComponent → G'.ConnectedComponent := fun c =>
    c.lift (fun v => G'.connectedComponentMk v)
      (fun v w p _ => SimpleGraph.ConnectedComponent.sound (h v w ⟨p⟩))
  apply Nat.card_le_card_of_surjective f
  intro c
  induction c using SimpleGraph.ConnectedComponent.ind with
  | h x => exact ⟨G.connectedComponentMk x, rfl⟩

instance (verts : List Nat) : Finite {v // v ∈ verts} := List.finite_toSet verts

omit [LinearOrder W] in
/-- Adding edges lowers the number of components by at most their number. -/
theorem components_append {verts : List Nat} (E E' : List (List Nat × W))
    (hE : ∀ e ∈ E', IsEdge verts e.1) :
    components (edgeGraph verts E) ≤ components (edgeGraph verts (E ++ E')) + E'.length := by
  induction E' generalizing E with
  | nil => simp
  | cons e E' ih =>
    have h1 := ih (E ++ [e]) (fun e he => hE e (by simp [he]))
    rw [List.append_assoc, List.singleton_append] at h1
    have h2 : components (edgeGraph verts E) ≤ components (edgeGraph verts (E ++ [e])) + 1 := by
      obtain ⟨s, w⟩ := e
      obtain ⟨a, b, hab, ha, hb, he⟩ := hE (s, w) (by simp)
      simp only at he
      subst he
      have hadj := edgeGraph_snoc (E := E) hab ha hb w
      have hr := reachable_add_edge hadj
      by_cases hn : (edgeGraph verts E).Reachable ⟨a, ha⟩ ⟨b, hb⟩
      · have : components (edgeGraph verts E) ≤ components (edgeGraph verts (E ++ [([a, b], w)])) := by
          apply components_mono
          intro x y hxy
          rcases (hr x y).1 hxy with h | ⟨h, h'⟩ | ⟨h, h'⟩
          · exact h
          · exact h.trans (hn.trans h')
          · exact h.trans (hn.symm.trans h')
        omega
      · have := components_add_edge hn hr
        omega
    rw [List.length_cons]
    omega

/-- A downward closed condition on the weights holds on a prefix of a sorted list. -/
theorem filter_prefix {l : List (List Nat × W)} (h : l.Pairwise (fun a b => a.2 ≤ b.2))
    {p : W → Bool} (hp : ∀ a b, a ≤ b → p b = true → p a = true) :
    l.filter (fun e => p e.2) = l.take (l.filter (fun e => p e.2)).length ∧
    ∀ i e, l[i]? = some e → (i < (l.filter (fun e => p e.2)).length ↔ p e.2 = true) := by
  induction l with
  | nil => simp
  | cons a l ih =>
    rw [List.pairwise_cons] at h
    obtain ⟨h1, h2⟩ := ih h.2
    by_cases ha : p a.2 = true
    · rw [List.filter_cons_of_pos (p := fun e : List Nat × W => p e.2) ha]
      refine ⟨by rw [List.length_cons, List.take_succ_cons, ← h1], ?_⟩
      intro i e hi
      cases i with
      | zero =>
        rw [List.getElem?_cons_zero, Option.some.injEq] at hi
        subst hi
        simp [ha]
      | succ i =>
        rw [List.getElem?_cons_succ] at hi
        rw [List.length_cons, Nat.succ_lt_succ_iff]
        exact h2 i e hi
    · have hno : l.filter (fun e => p e.2) = [] := by
        rw [List.filter_eq_nil_iff]
        intro e he h'
        exact ha (hp _ _ (h.1 e he) h')
      rw [List.filter_cons_of_neg (p := fun e : List Nat × W => p e.2) ha, hno]
      refine ⟨by simp, ?_⟩
      intro i e hi
      have he : e ∈ a :: l := List.mem_of_getElem? hi
      rw [List.mem_cons] at he
      have : ¬ p e.2 = true := by
        rcases he with rfl | he
        · exact ha
        · intro h'; exact ha (hp _ _ (h.1 e he) h')
      simp [this]

variable [Zero W]

/-- The selected edges satisfying a downward closed condition on the weight count the components. -/
theorem kruskal_threshold {verts : List Nat} (hv : verts.Nodup) {E F : List (List Nat × W)}
    (hE : ∀ e ∈ E, IsEdge verts e.1) (hs : E.Pairwise (fun a b => a.2 ≤ b.2)) {T0 : List (BettiEntry W)}
    (h : KInv verts E F (kruskalAll E (Kruskal.init T0)))
    {p : W → Bool} (hp : ∀ a b, a ≤ b → p b = true → p a = true) :
    (F.filter (fun e => p e.2)).length + components (edgeGraph verts (E.filter (fun e => p e.2))) =
      verts.length := by
  obtain ⟨h1, h2⟩ := filter_prefix hs hp
  set m := (E.filter (fun e => p e.2)).length with hm
  have hmle : m ≤ E.length := List.length_filter_le _ _
  have hE' : ∀ e ∈ E.take m, IsEdge verts e.1 := fun e he => hE e (List.mem_of_mem_take he)
  obtain ⟨F', h'⟩ := kinv_all (E.take m) hE' (kinv_init hv T0)
  rw [List.nil_append] at h'
  have hp1 := kruskal_indep hE h
  have hp2 := kruskal_indep hE' h'
  have e1 : bvecs ((E.take m).map (·.1)) = (bvecs (E.map (·.1))).take m := by
    simp [bvecs, List.map_take]
  rw [e1, indep_take _ _ (by simpa [bvecs] using hmle), ← hp1] at hp2
  have hc := h'.count
  rw [h1, ← hc]
  congr 1
  -- the selected edges below the threshold
  have e2 : (F.filter (fun e => p e.2)).length =
      ((kruskalAll E (Kruskal.init T0)).pivots.filter (fun j => j < m)).length := by
    rw [h.piv]
    have key : ∀ l : List Nat, (∀ i ∈ l, i < E.length) →
        ((l.filterMap (fun i => E[i]?)).filter (fun e => p e.2)).length =
        (l.filter (fun j => j < m)).length := by
      intro l hl
      induction l with
      | nil => rfl
      | cons i l ih =>
        have hi := hl i (by simp)
        rw [List.filterMap_cons, List.getElem?_eq_getElem hi]
        dsimp only
        rw [List.filter_cons, List.filter_cons]
        have := h2 i _ (List.getElem?_eq_getElem hi)
        have ih := ih (fun j hj => hl j (by simp [hj]))
        by_cases hpi : p E[i].2 = true
        · rw [if_pos hpi, if_pos (by simpa using this.2 hpi), List.length_cons, List.length_cons, ih]
        · rw [if_neg hpi, if_neg (by simpa using fun h => hpi (this.1 h)), ih]
    exact key _ h.plt
  rw [e2, ← hp2, h'.mst, List.length_map, h'.piv]
  have key : ∀ l : List Nat, (∀ i ∈ l, i < (E.take m).length) →
      (l.filterMap (fun i => (E.take m)[i]?)).length = l.length := by
    intro l hl
    induction l with
    | nil => rfl
    | cons i l ih =>
      rw [List.filterMap_cons, List.getElem?_eq_getElem (hl i (by simp))]
      dsimp only
      rw [List.length_cons, List.length_cons, ih (fun j hj => hl j (by simp [hj]))]
  exact (key _ h'.plt).symm

/-- Domination: if `b` has, for every `t`, at least as many entries `≥ t` as `a`, and nonnegative
entries, its sum is at least that of `a`. -/
theorem sum_dominated {M : Type} [AddCommMonoid M] [LinearOrder M] [IsOrderedAddMonoid M] :
    ∀ (a b : List M), (∀ x ∈ b, 0 ≤ x) →
    (∀ t, (a.filter (fun x => t ≤ x)).length ≤ (b.filter (fun x => t ≤ x)).length) →
    a.sum ≤ b.sum := by
  intro a
  induction hn : a.length using Nat.strongRecOn generalizing a with
  | ind n ih =>
    intro b hb h
    by_cases ha : a = []
    · subst ha; exact List.sum_nonneg hb
    · -- the largest entry of a
      obtain ⟨x, hx, hmax⟩ : ∃ x ∈ a, ∀ y ∈ a, y ≤ x := by
        obtain ⟨x, hx, hmax⟩ := a.toFinset.exists_max_image id ⟨a.head ha, by simp⟩
        exact ⟨x, by simpa using hx, fun y hy => hmax y (by simpa using hy)⟩
      have h1 := h x
      have hpos : 0 < (a.filter (fun y => x ≤ y)).length := by
        rw [List.length_pos_iff_exists_mem]
        exact ⟨x, List.mem_filter.2 ⟨hx, by simp⟩⟩
      obtain ⟨y, hy⟩ := List.length_pos_iff_exists_mem.1 (lt_of_lt_of_le hpos h1)
      rw [List.mem_filter, decide_eq_true_eq] at hy
      have pa := List.perm_cons_erase hx
      have pb := List.perm_cons_erase hy.1
      rw [pa.sum_eq, pb.sum_eq, List.sum_cons, List.sum_cons]
      apply add_le_add hy.2
      apply ih (a.erase x).length ?_ _ rfl (b.erase y)
      · intro z hz; exact hb z (List.mem_of_mem_erase hz)
      · intro t
        have h2 := h t
        rw [(pa.filter _).length_eq, (pb.filter _).length_eq, List.filter_cons, List.filter_cons] at h2
        by_cases htx : t ≤ x
        · rw [if_pos (by simpa using htx), if_pos (by simpa using htx.trans hy.2), List.length_cons,
            List.length_cons] at h2
          omega
        · have : (a.erase x).filter (fun z => decide (t ≤ z)) = [] := by
            rw [List.filter_eq_nil_iff]
            intro z hz
            have := hmax z (List.mem_of_mem_erase hz)
            simp only [decide_eq_true_eq]
            intro h'
            exact htx (h'.trans this)
          rw [this]
          exact Nat.zero_le _
      · rw [List.length_erase_of_mem hx, ← hn]
        have := List.length_pos_of_mem hx
        omega

/-! ### The table in dimension 0 -/

omit [LinearOrder W] in
theorem kruskalStep_table {e : List Nat × W} (k : Kruskal W) :
    ∃ T M, (kruskalStep e k).table = k.table ++ T ∧ (kruskalStep e k).mst = k.mst ++ M ∧
      (T.map toLine).Sublist (M.map (fun z => ((0, 0, z) : Line W))) := by
  have hs := scan_spec e k.table k.conSet
  dsimp only at hs
  obtain ⟨s1, -, -, -, -, s6⟩ := hs
  unfold kruskalStep
  dsimp only
  generalize hs : k.conSet.foldl (scanSet e) ⟨false, false, [], [], k.table⟩ = s at *
  by_cases hf : s.found = true
  · rw [if_pos hf]
    refine ⟨_, [e.2], s6, rfl, ?_⟩
    cases List.find? (fun c => decide (hit e.1 c = 1)) k.conSet with
    | none => simp
    | some c => simp [toLine]
  · have hnone : List.find? (fun c => decide (hit e.1 c = 1)) k.conSet = none := by
      rw [List.find?_eq_none]
      intro c hc hh
      exact hf (s1.2 ⟨c, hc, by simpa using hh⟩)
    rw [hnone] at s6
    rw [if_neg hf]
    split_ifs
    · exact ⟨[], [e.2], by simpa using s6, rfl, by simp⟩
    · exact ⟨[], [], by simpa using s6, by simp, by simp⟩

omit [LinearOrder W] in
theorem kruskalAll_table (E : List (List Nat × W)) (k : Kruskal W) :
    ∃ T M, (kruskalAll E k).table = k.table ++ T ∧ (kruskalAll E k).mst = k.mst ++ M ∧
      (T.map toLine).Sublist (M.map (fun z => ((0, 0, z) : Line W))) := by
  induction E generalizing k with
  | nil => exact ⟨[], [], by simp [kruskalAll], by simp [kruskalAll], by simp⟩
  | cons e E ih =>
    obtain ⟨T1, M1, a1, a2, a3⟩ := kruskalStep_table (e := e) k
    obtain ⟨T2, M2, b1, b2, b3⟩ := ih (kruskalStep e k)
    refine ⟨T1 ++ T2, M1 ++ M2, ?_, ?_, ?_⟩
    · show (kruskalAll E (kruskalStep e k)).table = _
      rw [b1, a1, List.append_assoc]
    · show (kruskalAll E (kruskalStep e k)).mst = _
      rw [b2, a2, List.append_assoc]
    · rw [List.map_append, List.map_append]
      exact a3.append b3

end
end LHF
