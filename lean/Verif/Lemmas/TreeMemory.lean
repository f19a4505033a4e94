import Verif.Lemmas.TreeHeap
import Verif.Lemmas.TreeInv

/-! `insert`, `clear` and `deleteIterative` of a simplexTree with pointers. -/

namespace LHF
open Spec

section
variable {W : Type}

/-- In the memory `h`, from the pointer `p`, the cell `a` is reached by following `sibling` and, to go down,
`parent`; `s` are the labels of the nodes it goes down from and of `a`, and `w` is the weight in `a`. -/
inductive Spec.Reach (h : Heap W) : Option Nat → List Nat → W → Nat → Prop
  | here {a : Nat} {n : HNode W} : h[a]? = some (some n) → Reach h (some a) [n.index] n.weight a
  | down {a b : Nat} {n : HNode W} {s : List Nat} {w : W} : h[a]? = some (some n) →
      Reach h n.parent s w b → Reach h (some a) (n.index :: s) w b
  | next {a b : Nat} {n : HNode W} {s : List Nat} {w : W} : h[a]? = some (some n) →
      Reach h n.sibling s w b → Reach h (some a) s w b

/-- The number of cells that are allocated and not freed. -/
def Spec.liveCells (h : Heap W) : Nat := (h.filter Option.isSome).length

theorem length_paths (t : Sib W) : ∀ p : List Nat, (paths p t).length = t.nodes := by
  induction t with
  | nil => intro p; rfl
  | node i w c s ihc ihs =>
    intro p
    simp only [paths, List.length_cons, List.length_append, ihc, ihs, Sib.nodes]
    omega

theorem reach_none {h : Heap W} {s : List Nat} {w : W} {b : Nat} : ¬ Reach h none s w b := by
  intro hr
  cases hr

theorem Spec.Holds.reach {h : Heap W} {t : Sib W} : ∀ {p : Option Nat} {A : List Nat}, Holds h p t A →
    ∀ (pre q : List Nat) (w : W) (b : Nat),
      Reach h p q w b ↔ ((pre ++ q, w), b) ∈ (paths pre t).zip A := by
  induction t with
  | nil =>
    rintro p A ⟨rfl, rfl⟩ pre q w b
    simp [paths, reach_none]
  | node i w c s ihc ihs =>
    rintro p A ⟨a, sx, q, r, B, C, rfl, h1, h2, h3, rfl, h4⟩ pre s' w' b
    have hlen : (paths (pre ++ [i]) c).length = B.length := by rw [length_paths, h2.length]
    simp only [paths, List.zip_cons_cons, List.zip_append hlen, List.mem_cons, List.mem_append]
    have e2 := fun q' => ihc h2 (pre ++ [i]) q' w' b
    have e3 := ihs h3 pre s' w' b
    constructor
    · intro hr
      cases hr with
      | here h' =>
        rw [h1] at h'
        cases h'
        exact Or.inl rfl
      | down h' hr =>
        rw [h1] at h'
        cases h'
        have := (e2 _).1 hr
        rw [List.append_assoc] at this
        exact Or.inr (Or.inl this)
      | next h' hr =>
        rw [h1] at h'
        cases h'
        exact Or.inr (Or.inr (e3.1 hr))
    · rintro (h' | h' | h')
      · rw [Prod.mk.injEq, Prod.mk.injEq] at h'
        obtain ⟨⟨e, rfl⟩, rfl⟩ := h'
        have := List.append_cancel_left e
        subst this
        exact Reach.here h1
      · have hp := prefix_of_mem_paths (List.of_mem_zip h').1
        dsimp only at hp
        obtain ⟨z, hz⟩ := hp.1
        rw [List.append_assoc] at hz
        have hz := List.append_cancel_left hz
        subst hz
        refine Reach.down h1 ((e2 z).2 ?_)
        rw [List.append_assoc]
        exact h'
      · exact Reach.next h1 (e3.2 h')

theorem zip_left {α β : Type} {l : List α} {m : List β} (hl : l.length = m.length) {x : α} (hx : x ∈ l) :
    ∃ y, (x, y) ∈ l.zip m := by
  obtain ⟨i, hi, rfl⟩ := List.getElem_of_mem hx
  refine ⟨m[i], ?_⟩
  have : (l.zip m)[i]'(by simp; omega) = (l[i], m[i]) := by simp
  rw [← this]
  exact List.getElem_mem _

theorem zip_inj_right {α β : Type} {l : List α} {m : List β} (hm : m.Nodup) {x x' : α} {y : β}
    (h1 : (x, y) ∈ l.zip m) (h2 : (x', y) ∈ l.zip m) : x = x' := by
  obtain ⟨i, hi, e1⟩ := List.getElem_of_mem h1
  obtain ⟨j, hj, e2⟩ := List.getElem_of_mem h2
  simp only [List.length_zip] at hi hj
  rw [List.getElem_zip, Prod.mk.injEq] at e1 e2
  have : i = j := by
    have := e1.2.trans e2.2.symm
    exact (List.Nodup.getElem_inj_iff hm).1 this
  subst this
  exact e1.1.symm.trans e2.1

theorem zip_inj_left {α β : Type} {l : List α} {m : List β} (hl : l.Nodup) {x : α} {y y' : β}
    (h1 : (x, y) ∈ l.zip m) (h2 : (x, y') ∈ l.zip m) : y = y' := by
  obtain ⟨i, hi, e1⟩ := List.getElem_of_mem h1
  obtain ⟨j, hj, e2⟩ := List.getElem_of_mem h2
  simp only [List.length_zip] at hi hj
  rw [List.getElem_zip, Prod.mk.injEq] at e1 e2
  have : i = j := by
    have := e1.1.trans e2.1.symm
    exact (List.Nodup.getElem_inj_iff hl).1 this
  subst this
  exact e1.2.symm.trans e2.2

/-- The labels at the top level. -/
def Sib.labels : Sib W → List Nat
  | .nil => []
  | .node i _ _ s => i :: s.labels

theorem count_le_nodes (t : Sib W) : t.count ≤ t.nodes := by
  induction t with
  | nil => exact le_rfl
  | node i w c s ihc ihs =>
    simp only [Sib.count, Sib.nodes]
    omega

theorem liveCells_set {h : Heap W} : ∀ {a : Nat} {n : HNode W}, h[a]? = some (some n) →
    liveCells (h.set a none) + 1 = liveCells h := by
  unfold liveCells
  induction h with
  | nil => intro a n h1; simp at h1
  | cons x h ih =>
    intro a n h1
    cases a with
    | zero =>
      rw [List.getElem?_cons_zero, Option.some.injEq] at h1
      subst h1
      simp
    | succ a =>
      rw [List.getElem?_cons_succ] at h1
      have := ih h1
      rw [List.set_cons_succ]
      simp only [List.filter_cons]
      split
      · simp only [List.length_cons]
        omega
      · exact this

theorem liveCells_all {h : Heap W} (hh : ∀ x, x < h.length → ∃ n, h[x]? = some (some n)) :
    liveCells h = h.length := by
  unfold liveCells
  rw [List.filter_eq_self.2]
  intro x hx
  obtain ⟨i, hi, rfl⟩ := List.getElem_of_mem hx
  obtain ⟨n, hn⟩ := hh i hi
  rw [List.getElem?_eq_getElem hi, Option.some.injEq] at hn
  rw [hn]
  rfl

variable [LinearOrder W] [Zero W]

omit [Zero W] in
theorem recurseInsert_shape (env : InsertEnv W) (t : Sib W) : ∀ (maxE : W) (simp : List Nat)
    (st : Graph W × Int) (r : Sib W × (Graph W × Int)), recurseInsert env maxE simp t st = .ok r →
    r.1.count = t.count ∧ r.1.nodes ≤ 2 * t.nodes ∧ r.1.labels = t.labels := by
  induction t with
  | nil =>
    intro maxE simp st r h
    cases h
    exact ⟨rfl, le_rfl, rfl⟩
  | node i w c s ihc ihs =>
    intro maxE simp st r h
    unfold recurseInsert at h
    rw [bind_ok] at h
    obtain ⟨d, -, h⟩ := h
    dsimp only at h
    by_cases hlt : (if d > maxE then d else maxE) < env.maxEpsilon
    · rw [if_pos hlt, bind_ok] at h
      obtain ⟨weg, -, h⟩ := h
      rw [bind_ok] at h
      obtain ⟨r1, h1, h⟩ := h
      rw [bind_ok] at h
      obtain ⟨t1, h2, h⟩ := h
      cases h
      have k2 := ihs _ _ _ _ h2
      have k1 : r1.1.nodes ≤ 2 * c.nodes := by
        by_cases hd : (setInsert i simp).length ≤ env.maxDimension
        · rw [if_pos hd] at h1
          exact (ihc _ _ _ _ h1).2.1
        · rw [if_neg hd] at h1
          cases h1
          dsimp only
          omega
      refine ⟨?_, ?_, by simp only [Sib.labels, k2.2.2]⟩
      · simp only [Sib.count]
        omega
      · simp only [Sib.nodes]
        omega
    · rw [if_neg hlt, bind_ok] at h
      obtain ⟨t1, h2, h⟩ := h
      cases h
      have k2 := ihs _ _ _ _ h2
      refine ⟨?_, ?_, by simp only [Sib.labels, k2.2.2]⟩
      · simp only [Sib.count]
        omega
      · simp only [Sib.nodes]
        omega

omit [LinearOrder W] in
theorem nodes_appendRoot (i : Nat) (t : Sib W) : (appendRoot i t).nodes = t.nodes + 1 := by
  induction t with
  | nil => rfl
  | node j w c s ihc ihs =>
    simp only [appendRoot, Sib.nodes, ihs]
    omega

omit [LinearOrder W] in
theorem labels_appendRoot (i : Nat) (t : Sib W) : (appendRoot i t).labels = t.labels ++ [i] := by
  induction t with
  | nil => rfl
  | node j w c s ihc ihs => simp only [appendRoot, Sib.labels, ihs, List.cons_append]

omit [LinearOrder W] in
/-- The search for the last sibling and the link to the new root. -/
theorem last_append (k : Nat) (t : Sib W) : t ≠ .nil → ∀ (fuel : Nat), t.count ≤ fuel →
    ∀ (p : Option Nat) (A : List Nat) (h : Heap W) (b : Nat) (sx : List Nat), Holds h p t A → b ∉ A →
      h[b]? = some (some ⟨k, sx, 0, none, none, none⟩) →
      ∃ a n, hLast h fuel p = .ok (some a) ∧ a ∈ A ∧ h[a]? = some (some n) ∧
        Holds (h.set a (some { n with sibling := some b })) p (appendRoot k t) (A ++ [b]) := by
  induction t with
  | nil => intro h; exact absurd rfl h
  | node i w c s ihc ihs =>
    intro _ fuel hfuel p A h b sx hh hb hn
    obtain ⟨a, sy, q, r, B, C, rfl, ha, hB, hC, rfl, hnd⟩ := hh
    cases fuel with
    | zero => simp [Sib.count] at hfuel
    | succ fuel =>
    simp only [Sib.count] at hfuel
    simp only [List.mem_cons, List.mem_append, not_or] at hb
    obtain ⟨hba, hbB, hbC⟩ := hb
    have hnd' := hnd
    simp only [List.nodup_cons, List.mem_append, not_or, List.nodup_append] at hnd
    obtain ⟨⟨na, nb⟩, nB, nC, nd⟩ := hnd
    have hdis : ∀ x ∈ B, x ∉ C := fun x hx hx' => nd x hx x hx' rfl
    unfold hLast
    rw [hload_some ha, ok_bind]
    dsimp only
    have hnd2 : (a :: (B ++ (C ++ [b]))).Nodup := by
      have e : a :: (B ++ (C ++ [b])) = (a :: (B ++ C)) ++ [b] := by simp
      rw [e, List.nodup_append]
      refine ⟨hnd', by simp, ?_⟩
      rintro x hx y hy rfl
      rw [List.mem_singleton] at hy
      subst hy
      simp only [List.mem_cons, List.mem_append] at hx
      tauto
    have ecat : (a :: (B ++ C)) ++ [b] = a :: (B ++ (C ++ [b])) := by simp
    cases r with
    | none =>
      have hs : s = .nil := hC.none_iff.1 rfl
      subst hs
      obtain ⟨-, rfl⟩ := hC
      refine ⟨a, _, rfl, by simp, ha, ?_⟩
      rw [ecat]
      refine ⟨a, sy, q, some b, B, [b], rfl, ?_, ?_, ?_, rfl, hnd2⟩
      · rw [List.getElem?_set_self (lt_of_live ha)]
      · exact hB.frame (fun x hx => List.getElem?_set_ne (fun e => na (by rw [e]; exact hx)))
      · refine ⟨b, sx, none, none, [], [], rfl, ?_, ⟨rfl, rfl⟩, ⟨rfl, rfl⟩, rfl, by simp⟩
        rw [List.getElem?_set_ne (fun e => hba e.symm), hn]
    | some r =>
      have hs : s ≠ .nil := fun hs => by
        have := hC.none_iff.2 hs
        cases this
      obtain ⟨x, n, h1, h2, h3, h4⟩ := ihs hs fuel (by omega) (some r) C h b sx hC hbC hn
      refine ⟨x, n, h1, by simp [h2], h3, ?_⟩
      rw [ecat]
      refine ⟨a, sy, q, some r, B, C ++ [b], rfl, ?_, ?_, h4, rfl, hnd2⟩
      · rw [List.getElem?_set_ne (fun e => nb (by rw [← e]; exact h2)), ha]
      · exact hB.frame (fun y hy => List.getElem?_set_ne (fun e => hdis y hy (by rw [← e]; exact h2)))

/-- The two levels describe the same object; `lost` is the number of cells that are in use but not part of the
tree. -/
structure Spec.Represents (lost : Nat) (m : HTree W) (t : Tree W) : Prop where
  /-- the nodes -/
  cells : ∃ A, Holds m.heap m.head t.roots A ∧ m.heap.length = A.length + lost
  /-- no node was freed -/
  live : ∀ x, x < m.heap.length → ∃ n, m.heap[x]? = some (some n)
  /-- the entry points -/
  dims : m.dimensions = m.head.toList.map some
  /-- weightEdgeGraph -/
  weg : m.weg = t.weg
  /-- nodeCount -/
  count : m.nodeCount = t.nodeCount
  /-- indexCounter -/
  idx : m.indexCounter = t.indexCounter
  /-- runningVectorIndices -/
  rvi : m.rviSize = t.rviSize
  /-- runningVectorCount -/
  rvc : m.rvc = t.rvc
  /-- isSorted -/
  sorted : m.isSorted = t.isSorted

omit [LinearOrder W] [Zero W] in
theorem append_live {h : Heap W} (hl : ∀ x, x < h.length → ∃ n, h[x]? = some (some n)) (n0 : HNode W) :
    ∀ x, x < (h ++ [some n0]).length → ∃ n, (h ++ [some n0])[x]? = some (some n) := by
  intro x hx
  rw [List.length_append, List.length_singleton] at hx
  by_cases hx' : x < h.length
  · rw [List.getElem?_append_left hx']
    exact hl x hx'
  · have : x = h.length := by omega
    subst this
    exact ⟨n0, by simp⟩

omit [LinearOrder W] [Zero W] in
theorem grown_live {h h' : Heap W} {A A' : List Nat} {p : Option Nat} {t : Sib W}
    (hl : ∀ x, x < h.length → ∃ n, h[x]? = some (some n)) (g : HGrown h A h' A') (hh : Holds h' p t A') :
    ∀ x, x < h'.length → ∃ n, h'[x]? = some (some n) := by
  intro x hx
  by_cases hA : x ∈ A'
  · exact hh.live x hA
  · have h1 : x ∉ A := fun h1 => hA ((g.cells x).2 (Or.inl h1))
    have h2 : x < h.length := by
      by_contra h2
      exact hA ((g.cells x).2 (Or.inr (by omega)))
    rw [g.frame x h2 h1]
    exact hl x h2

omit [LinearOrder W] [Zero W] in
theorem grown_length {h h' : Heap W} {A A' : List Nat} (g : HGrown h A h' A') (hA : A.Nodup) (hA' : A'.Nodup)
    (hlt : ∀ a ∈ A, a < h.length) : A'.length + h.length = A.length + h'.length := by
  have hlen := g.len
  have hp : A'.Perm (A ++ List.range' h.length (h'.length - h.length)) := by
    rw [List.perm_ext_iff_of_nodup hA']
    · intro a
      rw [g.cells, List.mem_append, List.mem_range'_1]
      constructor
      · rintro (h1 | h1)
        · exact Or.inl h1
        · exact Or.inr (by omega)
      · rintro (h1 | h1)
        · exact Or.inl h1
        · exact Or.inr (by omega)
    · rw [List.nodup_append]
      refine ⟨hA, List.nodup_range', ?_⟩
      rintro a ha b hb rfl
      rw [List.mem_range'_1] at hb
      have := hlt a ha
      omega
  have := hp.length_eq
  rw [List.length_append, List.length_range'] at this
  omega

/-- One insertion. -/
theorem insert_represents (eps : W) (maxDim : Nat) (dm : List (List W)) (hne : dm ≠ []) {lost : Nat} {m : HTree W}
    {t : Tree W} (hr : Represents lost m t) {fuel : Nat} (hfuel : t.roots.nodes ≤ fuel) :
    SameRes (fun m' t' => Represents (if t.roots.count = 0 then lost else lost + 1) m' t' ∧
        t'.roots.nodes ≤ 2 * t.roots.nodes + 1 ∧ t'.roots.count = t.roots.count + 1 ∧
        t'.roots.labels = t.roots.labels ++ [t.indexCounter] ∧ t'.indexCounter = t.indexCounter + 1)
      (m.insert fuel eps maxDim dm) (t.insert eps maxDim dm) := by
  obtain ⟨A, hA, hAl⟩ := hr.cells
  unfold HTree.insert Tree.insert
  have hd : dm.length ≠ 0 := by simpa using hne
  · rw [if_neg hd, if_neg hd]
    dsimp only [hnew]
    have hdims := hr.dims
    cases hroots : t.roots with
    | nil =>
      rw [hroots] at hA
      obtain ⟨hhead, rfl⟩ := hA
      rw [hhead] at hdims ⊢
      dsimp only
      refine ⟨⟨?_, append_live hr.live _, ?_, ?_, ?_, ?_, ?_, ?_, ?_⟩, ?_, rfl, rfl, rfl⟩
      · refine ⟨[m.heap.length], ⟨_, [], none, none, [], [], rfl, ?_, ⟨rfl, rfl⟩, ⟨rfl, rfl⟩, rfl, by simp⟩, ?_⟩
        · simp [hr.idx]
        · simp only [Sib.count, if_true, List.length_append, List.length_singleton, List.length_nil] at hAl ⊢
          omega
      · rw [hdims]; rfl
      · dsimp only
        rw [hr.weg, hr.idx]
      · dsimp only
        rw [hr.count]
      · dsimp only
        rw [hr.idx]
      · dsimp only
        rw [hr.rvi]
      · dsimp only
        rw [hr.rvc]
      · exact hr.sorted
      · simp [Sib.nodes]
    | node i w c s =>
      rw [hroots] at hA hfuel
      cases hhead : m.head with
      | none =>
        rw [hhead] at hA
        have := hA.none_iff.1 rfl
        cases this
      | some a =>
      rw [hhead] at hA hdims
      dsimp only
      have hv : vget m.dimensions 0 = .ok (some a) := by
        rw [hdims]; rfl
      rw [hv, ok_bind, hr.idx, hr.rvi, hr.rvc, hr.weg, hr.count]
      have hA1 : Holds (m.heap ++ [some ⟨t.indexCounter, [], 0, none, none, none⟩]) (some a) (.node i w c s) A :=
        hA.frame (fun x hx => List.getElem?_append_left (hA.lt hx))
      refine (insert_refines _ _ (by simp) fuel hfuel 0 [t.indexCounter] _ _ _ hA1 _ _).bind ?_
      rintro st ⟨roots, weg, cnt⟩ - hrec ⟨e1, e2, A', hA', g⟩
      have hshape := recurseInsert_shape _ _ _ _ _ _ hrec
      dsimp only at e1 e2 hA' hshape
      rw [ok_bind]
      have hA2 : Holds (st.heap ++ [some ⟨t.indexCounter, [], 0, none, none, none⟩]) (some a) roots A' :=
        hA'.frame (fun x hx => List.getElem?_append_left (hA'.lt hx))
      have hne : roots ≠ .nil := fun h => by
        rw [h] at hshape
        simp [Sib.count] at hshape
      have hc := count_le_nodes (Sib.node i w c s)
      obtain ⟨x, n, k1, k2, k3, k4⟩ := last_append t.indexCounter roots hne fuel (by omega) _ _ _ st.heap.length []
        hA2 (fun h => absurd (hA'.lt h) (by omega)) (by simp)
      rw [k1, ok_bind, hstore_some _ k3, ok_bind, e1]
      refine SameRes.bind (R := fun x y => x = y) (SameRes.refl _ (fun _ _ => rfl)) ?_
      rintro weg1 _ - - rfl
      refine ⟨⟨⟨_, k4, ?_⟩, ?_, ?_, rfl, ?_, ?_, ?_, ?_, hr.sorted⟩, ?_, ?_, ?_, rfl⟩
      · have := grown_length g hA1.nodup hA'.nodup (fun _ h => hA1.lt h)
        rw [if_neg (by simp [Sib.count])]
        simp only [List.length_set, List.length_append, List.length_singleton] at this ⊢
        omega
      · intro y hy
        rw [List.length_set] at hy
        have hl := append_live (grown_live (append_live hr.live _) g hA')
          (⟨t.indexCounter, [], 0, none, none, none⟩ : HNode W) y hy
        by_cases hyx : y = x
        · subst hyx
          exact ⟨_, List.getElem?_set_self hy⟩
        · rw [List.getElem?_set_ne (fun e => hyx e.symm)]
          exact hl
      · rw [hdims]
      · dsimp only
        rw [e2]
      · rfl
      · rfl
      · rfl
      · have := nodes_appendRoot t.indexCounter roots
        dsimp only at this ⊢
        omega
      · have := count_appendRoot t.indexCounter roots
        dsimp only at this ⊢
        omega
      · have := labels_appendRoot t.indexCounter roots
        dsimp only at this ⊢
        rw [this, hshape.2.2]

/-- `n` insertions into an empty tree. -/
theorem insertN_represents (eps : W) (maxDim : Nat) (dm : List (List W)) (hdm : dm ≠ []) (n : Nat) :
    ∀ {fuel : Nat}, 2 ^ n ≤ fuel →
    SameRes (fun m t => Represents (n - 1) m t ∧ t.roots.nodes + 1 ≤ 2 ^ n ∧ t.roots.count = n ∧
        t.roots.labels = List.range n ∧ t.indexCounter = n)
      (HTree.insertN fuel eps maxDim dm n HTree.fresh) (Tree.insertN eps maxDim dm n Tree.fresh) := by
  induction n with
  | zero =>
    intro fuel _
    refine ⟨⟨⟨[], ⟨rfl, rfl⟩, rfl⟩, ?_, rfl, rfl, rfl, rfl, rfl, rfl, rfl⟩, ?_⟩
    · intro x hx
      exact absurd hx (by simp [HTree.fresh])
    · simp [Tree.fresh, Sib.nodes, Sib.count, Sib.labels]
  | succ n ih =>
    intro fuel hfuel
    unfold HTree.insertN Tree.insertN
    rw [pow_succ] at hfuel
    refine (ih (by omega)).bind ?_
    rintro m t - - ⟨h1, h2, h3, h4, h5⟩
    refine (insert_represents eps maxDim dm hdm h1 (by omega)).mono ?_
    rintro m' t' ⟨k1, k2, k3, k4, k5⟩
    refine ⟨?_, by rw [pow_succ]; omega, by omega, by rw [k4, h4, h5, List.range_succ], by omega⟩
    rw [h3] at k1
    cases n with
    | zero => exact k1
    | succ n => exact k1

omit [LinearOrder W] [Zero W] in
theorem hDescend_leaf {h : Heap W} {a i : Nat} {sx : List Nat} {w : W} {q r : Option Nat}
    (ha : h[a]? = some (some ⟨i, sx, w, none, r, q⟩)) (fuel : Nat) :
    hDescend (fuel + 1) h (some a) = .ok (h, some a) := by
  unfold hDescend
  rw [hload_some ha]
  rfl

omit [LinearOrder W] [Zero W] in
theorem hClimb_here (strict : Bool) (fuel : Nat) (p : Option Nat) (st : Heap W × Int) :
    hClimb strict (fuel + 1) p p st = .ok st := by
  unfold hClimb
  rw [if_pos rfl]
  rfl

omit [LinearOrder W] [Zero W] in
/-- `deletion` of a node and its siblings: nothing below them is freed. -/
theorem deletion_roots (t : Sib W) : t ≠ .nil → ∀ (fuel : Nat), t.count + 1 ≤ fuel →
    ∀ (p : Option Nat) (A : List Nat) (h : Heap W) (cnt : Int), Holds h p t A →
      hDeletion true fuel p (h, cnt) = .error .freed ∧
      ∃ h', hDeletion false fuel p (h, cnt) = .ok (h', cnt - t.count) ∧ h'.length = h.length ∧
        (∀ x, x ∉ A → h'[x]? = h[x]?) ∧ liveCells h' + t.count = liveCells h ∧
        ∀ a n, p = some a → h[a]? = some (some n) → h'[a]? = some none ∧
          ∀ r, n.sibling = some r → h'[r]? = some none := by
  induction t with
  | nil => intro h; exact absurd rfl h
  | node i w c s ihc ihs =>
    intro _ fuel hfuel p A h cnt hh
    obtain ⟨a, sx, q, r, B, C, rfl, ha, hB, hC, rfl, hnd⟩ := hh
    have halt := lt_of_live ha
    simp only [List.nodup_cons, List.mem_append, not_or, List.nodup_append] at hnd
    obtain ⟨⟨na, nb⟩, nB, nC, nd⟩ := hnd
    simp only [Sib.count] at hfuel ⊢
    match fuel, hfuel with
    | fuel + 2, hfuel =>
    unfold hDeletion
    rw [hDescend_leaf ha]
    simp only [ok_bind]
    rw [hload_some ha]
    simp only [ok_bind]
    cases r with
    | none =>
      have hs : s = .nil := hC.none_iff.1 rfl
      subst hs
      dsimp only
      rw [pure_eq_ok]
      simp only [ok_bind]
      rw [hClimb_here, hClimb_here]
      simp only [ok_bind]
      rw [hfree_some ha]
      simp only [ok_bind]
      refine ⟨rfl, h.set a none, ?_, by simp, ?_, ?_, ?_⟩
      · simp [Sib.count, pure_eq_ok]
      · intro x hx
        simp only [List.mem_cons, not_or] at hx
        exact List.getElem?_set_ne (fun e => hx.1 e.symm)
      · simp only [Sib.count]
        exact liveCells_set ha
      · intro b n hb hn
        cases hb
        rw [ha] at hn
        cases hn
        exact ⟨List.getElem?_set_self halt, fun r hr => by simp at hr⟩
    | some r =>
      have hs : s ≠ .nil := fun hs => by
        have := hC.none_iff.2 hs
        cases this
      obtain ⟨e1, h', e2, e3, e4, e5, e6⟩ := ihs hs (fuel + 1) (by omega) (some r) C h cnt hC
      obtain ⟨n', hn'⟩ : ∃ n', h[r]? = some (some n') := by
        cases s with
        | nil => exact absurd rfl hs
        | node i' w' c' s' =>
          obtain ⟨r', _, _, _, _, _, hr', hn', _⟩ := hC
          cases hr'
          exact ⟨_, hn'⟩
      have hra : r ≠ a := by
        rintro rfl
        cases s with
        | nil => exact hs rfl
        | node i' w' c' s' =>
          obtain ⟨r', _, _, _, _, _, hr', _, _, _, rfl, _⟩ := hC
          cases hr'
          exact nb (by simp)
      have ha' : h'[a]? = some (some ⟨i, sx, w, none, some r, q⟩) := by rw [e4 a nb, ha]
      dsimp only
      rw [e1, e2]
      refine ⟨rfl, h'.set a none, ?_, by simp [e3], ?_, ?_, ?_⟩
      · simp only [ok_bind]
        rw [hClimb_here]
        simp only [ok_bind]
        rw [hfree_some ha']
        simp only [ok_bind]
        simp only [pure_eq_ok, Bool.false_eq_true, if_false, Except.ok.injEq, Prod.mk.injEq, true_and,
          Nat.cast_add, Nat.cast_one]
        omega
      · intro x hx
        simp only [List.mem_cons, List.mem_append, not_or] at hx
        rw [List.getElem?_set_ne (fun e => hx.1 e.symm), e4 x hx.2.2]
      · have := liveCells_set ha'
        omega
      · intro b n hb hn
        cases hb
        rw [ha] at hn
        cases hn
        refine ⟨List.getElem?_set_self (by omega), fun r' hr' => ?_⟩
        cases hr'
        rw [List.getElem?_set_ne (fun e => hra e.symm)]
        exact (e6 r n' rfl hn').1

/-- The tree without the branches that start with `key`. -/
def Sib.dropRoot (key : Nat) : Sib W → Sib W
  | .nil => .nil
  | .node i w c s => if i = key then s.dropRoot key else .node i w c (s.dropRoot key)

omit [LinearOrder W] [Zero W] in
theorem dropRoot_absent {key : Nat} {t : Sib W} (h : key ∉ t.labels) : t.dropRoot key = t := by
  induction t with
  | nil => rfl
  | node i w c s ihc ihs =>
    simp only [Sib.labels, List.mem_cons, not_or] at h
    unfold Sib.dropRoot
    rw [if_neg (fun e => h.1 e.symm), ihs h.2]

omit [LinearOrder W] [Zero W] in
theorem paths_dropRoot (key : Nat) (t : Sib W) :
    paths [] (t.dropRoot key) = (paths [] t).filter (fun e => e.1.head? ≠ some key) := by
  induction t with
  | nil => rfl
  | node i w c s ihc ihs =>
    have hc : ∀ e ∈ paths [i] c, e.1.head? = some i := by
      intro e he
      obtain ⟨z, hz⟩ := (prefix_of_mem_paths he).1
      rw [← hz]
      rfl
    unfold Sib.dropRoot
    by_cases hik : i = key
    · rw [if_pos hik, ihs]
      simp only [paths, List.nil_append, List.filter_cons, List.filter_append]
      have hnil : (paths [i] c).filter (fun e => e.1.head? ≠ some key) = [] :=
        List.filter_eq_nil_iff.2 (fun e he => by simp [hc e he, hik])
      rw [if_neg (by simp [hik]), hnil, List.nil_append]
    · rw [if_neg hik]
      simp only [paths, List.nil_append, List.filter_cons, List.filter_append]
      rw [if_pos (by simp [hik]), List.filter_eq_self.2, ihs]
      intro e he
      simp [hc e he, hik]

omit [LinearOrder W] [Zero W] in
/-- `deleteIndexRecurse` with a label that no root has does nothing. -/
theorem delete_absent (strict : Bool) (key : Nat) (t : Sib W) : ∀ (fuel : Nat), t.count + 1 ≤ fuel →
    key ∉ t.labels → ∀ (p : Option Nat) (A : List Nat) (T : HTree W), Holds T.heap p t A →
      hDeleteIndex strict key fuel p T = .ok T := by
  induction t with
  | nil =>
    rintro fuel hfuel - p A T ⟨rfl, -⟩
    cases fuel with
    | zero => omega
    | succ fuel => rfl
  | node i w c s ihc ihs =>
    intro fuel hfuel hk p A T hh
    obtain ⟨a, sx, q, r, B, C, rfl, ha, hB, hC, rfl, hnd⟩ := hh
    simp only [Sib.labels, List.mem_cons, not_or] at hk
    simp only [Sib.count] at hfuel
    cases fuel with
    | zero => omega
    | succ fuel =>
    have hrec := ihs fuel (by omega) hk.2 r C T hC
    unfold hDeleteIndex
    rw [hload_some ha]
    simp only [ok_bind]
    cases r with
    | none =>
      dsimp only
      rw [pure_eq_ok]
      simp only [ok_bind]
      rw [hload_some ha]
      simp only [ok_bind]
      rw [if_neg (fun e => hk.1 e.symm)]
      rfl
    | some r =>
      cases s with
      | nil =>
        have := hC.none_iff.2 rfl
        cases this
      | node i' w' c' s' =>
      obtain ⟨b, sy, q', r', B', C', hb, hb', hB', hC', rfl, hnd'⟩ := hC
      cases hb
      dsimp only
      rw [hload_some hb']
      simp only [Sib.labels, List.mem_cons, not_or] at hk
      simp only [ok_bind]
      rw [if_neg (fun e => hk.2.1 e.symm), hrec]
      simp only [ok_bind]
      rw [hload_some ha]
      simp only [ok_bind]
      rw [if_neg (fun e => hk.1 e.symm)]
      rfl

omit [LinearOrder W] [Zero W] in
/-- `deleteIndexRecurse` from a node with another label: the branch that starts with `key` is cut off. -/
theorem delete_other (strict : Bool) (key : Nat) (t : Sib W) : t ≠ .nil → t.labels.Nodup →
    t.labels.head? ≠ some key → ∀ (fuel : Nat), t.count + 1 ≤ fuel →
    ∀ (p : Option Nat) (A : List Nat) (T : HTree W), Holds T.heap p t A →
      ∃ (h' : Heap W) (A' : List Nat), hDeleteIndex strict key fuel p T = .ok { T with heap := h' } ∧
        Holds h' p (t.dropRoot key) A' ∧ A'.Sublist A ∧ h'.length = T.heap.length ∧
        (∀ x : Nat, x ∉ A → h'[x]? = T.heap[x]?) ∧
        (∀ (x : Nat) (n : HNode W), T.heap[x]? = some (some n) → ∃ n', h'[x]? = some (some n')) := by
  induction t with
  | nil => intro h; exact absurd rfl h
  | node i w c s ihc ihs =>
    intro _ hl hk fuel hfuel p A T hh
    obtain ⟨a, sx, q, r, B, C, rfl, ha, hB, hC, rfl, hnd⟩ := hh
    have halt := lt_of_live ha
    have hnd0 := hnd
    simp only [List.nodup_cons, List.mem_append, not_or, List.nodup_append] at hnd
    obtain ⟨⟨na, nb⟩, nB, nC, nd⟩ := hnd
    have hdis : ∀ x ∈ B, x ∉ C := fun x hx hx' => nd x hx x hx' rfl
    simp only [Sib.labels, List.nodup_cons, List.head?_cons, ne_eq, Option.some.injEq] at hl hk
    simp only [Sib.count] at hfuel
    cases fuel with
    | zero => omega
    | succ fuel =>
    unfold hDeleteIndex
    rw [hload_some ha]
    simp only [ok_bind]
    unfold Sib.dropRoot
    rw [if_neg hk]
    cases r with
    | none =>
      have hs : s = .nil := hC.none_iff.1 rfl
      subst hs
      dsimp only
      rw [pure_eq_ok]
      simp only [ok_bind]
      rw [hload_some ha]
      simp only [ok_bind]
      rw [if_neg hk]
      exact ⟨T.heap, _, rfl, ⟨a, sx, q, none, B, C, rfl, ha, hB, hC, rfl, hnd0⟩, List.Sublist.refl _, rfl,
        fun _ _ => rfl, fun x n hn => ⟨n, hn⟩⟩
    | some r =>
      cases s with
      | nil =>
        have := hC.none_iff.2 rfl
        cases this
      | node i' w' c' s' =>
      have hC0 := hC
      obtain ⟨b, sy, q', r', B', C', hb, hb', hB', hC', rfl, hnd'⟩ := hC
      cases hb
      dsimp only
      rw [hload_some hb']
      simp only [ok_bind]
      have hndC := hnd'
      simp only [List.nodup_cons, List.mem_append, not_or, List.nodup_append] at hnd'
      obtain ⟨⟨na', nb'⟩, nB', nC', nd'⟩ := hnd'
      simp only [Sib.labels, List.mem_cons, not_or, List.nodup_cons] at hl
      simp only [Sib.count] at hfuel
      by_cases hik : i' = key
      · rw [if_pos hik]
        rw [hstore_some _ ha]
        simp only [ok_bind]
        have hab : a ≠ r := fun e => nb (by simp [e])
        have haC' : a ∉ C' := fun e => nb (by simp [e])
        let h1 := T.heap.set a (some ⟨i, sx, w, none, r', q⟩)
        have hh1 : ∀ x, x ≠ a → h1[x]? = T.heap[x]? := fun x hx => List.getElem?_set_ne (fun e => hx e.symm)
        have hh1a : h1[a]? = some (some ⟨i, sx, w, none, r', q⟩) := List.getElem?_set_self halt
        have hC1 : Holds h1 r' s' C' := hC'.frame (fun x hx => hh1 x (fun e => haC' (e ▸ hx)))
        have hB1 : Holds h1 q c B := hB.frame (fun x hx => hh1 x (fun e => na (e ▸ hx)))
        have hrec := delete_absent strict key s' fuel (by omega) (by rw [← hik]; exact hl.2.1) r' C'
          { T with heap := h1 } hC1
        have k2 : Holds h1 r' (s'.dropRoot key) C' := by
          rw [dropRoot_absent (by rw [← hik]; exact hl.2.1)]
          exact hC1
        rw [hrec]
        simp only [ok_bind]
        rw [hload_some hh1a]
        simp only [ok_bind]
        rw [if_neg hk]
        have hsub : (a :: (B ++ C')).Sublist (a :: (B ++ r :: (B' ++ C'))) :=
          List.Sublist.cons_cons _ (List.Sublist.append (List.Sublist.refl _)
            ((List.sublist_append_right _ _).trans (List.sublist_cons_self _ _)))
        refine ⟨h1, a :: (B ++ C'), rfl, ?_, hsub, List.length_set, ?_, ?_⟩
        · unfold Sib.dropRoot
          rw [if_pos hik]
          exact ⟨a, sx, q, r', B, C', rfl, hh1a, hB1, k2, rfl, hnd0.sublist hsub⟩
        · intro x hx
          simp only [List.mem_cons, List.mem_append, not_or] at hx
          exact hh1 x hx.1
        · intro x n hn
          by_cases hxa : x = a
          · subst hxa
            exact ⟨_, hh1a⟩
          · exact ⟨n, by rw [hh1 x hxa, hn]⟩
      · rw [if_neg hik]
        obtain ⟨h2, A2, k1, k2, k3, k4, k5, k6⟩ := ihs (by simp) (by simpa [Sib.labels] using hl.2)
          (by simpa [Sib.labels] using hik) fuel (by simp only [Sib.count]; omega) (some r) _ T hC0
        rw [k1]
        simp only [ok_bind]
        rw [hload_some (by rw [k5 a nb, ha])]
        simp only [ok_bind]
        rw [if_neg hk]
        refine ⟨h2, a :: (B ++ A2), rfl, ?_, ?_, k4, ?_, k6⟩
        · refine ⟨a, sx, q, some r, B, A2, rfl, by rw [k5 a nb, ha], ?_, k2, rfl, ?_⟩
          · exact hB.frame (fun x hx => k5 x (hdis x hx))
          · exact hnd0.sublist (List.Sublist.cons_cons _ (List.Sublist.append (List.Sublist.refl _) k3))
        · exact List.Sublist.cons_cons _ (List.Sublist.append (List.Sublist.refl _) k3)
        · intro x hx
          simp only [List.mem_cons, List.mem_append, not_or] at hx
          exact k5 x (by simp only [List.mem_cons, List.mem_append, not_or]; exact hx.2.2)

end

end LHF
