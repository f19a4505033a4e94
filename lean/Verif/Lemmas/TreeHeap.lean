import Verif.Model.TreeHeap
import Verif.Lemmas.Program

/-! The pointer structure of a simplexTree and the inductive type that stands for it. -/

namespace LHF

section
variable {W : Type}

/-- Number of nodes. -/
def Sib.nodes : Sib W → Nat
  | .nil => 0
  | .node _ _ c s => 1 + (c.nodes + s.nodes)

/-- The heap `h` holds the tree at the pointer `p`, in the cells `A`, all different: the first child of a node is
behind its field `parent`, the next sibling behind `sibling`, and `child` is null. -/
def Spec.Holds (h : Heap W) : Option Nat → Sib W → List Nat → Prop
  | p, .nil, A => p = none ∧ A = []
  | p, .node i w c s, A => ∃ a sx q r B C, p = some a ∧ h[a]? = some (some ⟨i, sx, w, none, r, q⟩) ∧
      Holds h q c B ∧ Holds h r s C ∧ A = a :: (B ++ C) ∧ A.Nodup

open Spec

theorem Spec.Holds.frame {h h' : Heap W} {t : Sib W} : ∀ {p : Option Nat} {A : List Nat}, Holds h p t A →
    (∀ a ∈ A, h'[a]? = h[a]?) → Holds h' p t A := by
  induction t with
  | nil => intro p A h1 _; exact h1
  | node i w c s ihc ihs =>
    rintro p A ⟨a, sx, q, r, B, C, rfl, h1, h2, h3, rfl, h4⟩ hf
    exact ⟨a, sx, q, r, B, C, rfl, by rw [hf a (by simp), h1], ihc h2 (fun b hb => hf b (by simp [hb])),
      ihs h3 (fun b hb => hf b (by simp [hb])), rfl, h4⟩

theorem Spec.Holds.live {h : Heap W} {t : Sib W} : ∀ {p : Option Nat} {A : List Nat}, Holds h p t A →
    ∀ a ∈ A, ∃ n, h[a]? = some (some n) := by
  induction t with
  | nil => rintro p A ⟨-, rfl⟩ a ha; simp at ha
  | node i w c s ihc ihs =>
    rintro p A ⟨a, sx, q, r, B, C, rfl, h1, h2, h3, rfl, h4⟩ b hb
    simp only [List.mem_cons, List.mem_append] at hb
    rcases hb with rfl | hb | hb
    · exact ⟨_, h1⟩
    · exact ihc h2 b hb
    · exact ihs h3 b hb

theorem lt_of_live {h : Heap W} {a : Nat} {x : Option (HNode W)} (h1 : h[a]? = some x) : a < h.length :=
  (List.getElem?_eq_some_iff.1 h1).1

theorem Spec.Holds.lt {h : Heap W} {t : Sib W} {p : Option Nat} {A : List Nat} (hh : Holds h p t A)
    {a : Nat} (ha : a ∈ A) : a < h.length := by
  obtain ⟨n, hn⟩ := hh.live a ha
  exact lt_of_live hn

theorem Spec.Holds.length {h : Heap W} {t : Sib W} : ∀ {p : Option Nat} {A : List Nat}, Holds h p t A →
    A.length = t.nodes := by
  induction t with
  | nil => rintro p A ⟨-, rfl⟩; rfl
  | node i w c s ihc ihs =>
    rintro p A ⟨a, sx, q, r, B, C, rfl, h1, h2, h3, rfl, h4⟩
    simp only [List.length_cons, List.length_append, ihc h2, ihs h3, Sib.nodes]
    omega

theorem Spec.Holds.nodup {h : Heap W} {t : Sib W} : ∀ {p : Option Nat} {A : List Nat}, Holds h p t A →
    A.Nodup := by
  cases t with
  | nil => rintro p A ⟨-, rfl⟩; simp
  | node i w c s => rintro p A ⟨a, sx, q, r, B, C, rfl, h1, h2, h3, rfl, h4⟩; exact h4

theorem Spec.Holds.none_iff {h : Heap W} {t : Sib W} {p : Option Nat} {A : List Nat} (hh : Holds h p t A) :
    p = none ↔ t = .nil := by
  cases t with
  | nil => simp [hh.1]
  | node i w c s =>
    obtain ⟨a, sx, q, r, B, C, rfl, -⟩ := hh
    simp

/-- From `h` with cells `A` to `h'` with cells `A'`: other cells are as before, and the new cells are all in
`A'`. -/
structure HGrown (h : Heap W) (A : List Nat) (h' : Heap W) (A' : List Nat) : Prop where
  len : h.length ≤ h'.length
  frame : ∀ a, a < h.length → a ∉ A → h'[a]? = h[a]?
  cells : ∀ a, a ∈ A' ↔ a ∈ A ∨ (h.length ≤ a ∧ a < h'.length)

theorem HGrown.refl (h : Heap W) (A : List Nat) : HGrown h A h A :=
  ⟨le_rfl, fun _ _ _ => rfl, fun a => ⟨Or.inl, fun h => h.elim id (fun h => absurd h.2 (by omega))⟩⟩

theorem HGrown.trans {h1 h2 h3 : Heap W} {A1 A2 A3 : List Nat} (g1 : HGrown h1 A1 h2 A2)
    (g2 : HGrown h2 A2 h3 A3) : HGrown h1 A1 h3 A3 := by
  refine ⟨g1.len.trans g2.len, ?_, ?_⟩
  · intro a ha hA
    rw [g2.frame a (by have := g1.len; omega) ?_, g1.frame a ha hA]
    rw [g1.cells]
    rintro (h | h)
    · exact hA h
    · omega
  · intro a
    rw [g2.cells, g1.cells]
    have := g1.len
    have := g2.len
    constructor
    · rintro ((h | h) | h)
      · exact Or.inl h
      · exact Or.inr (by omega)
      · exact Or.inr (by omega)
    · rintro (h | h)
      · exact Or.inl (Or.inl h)
      · by_cases h' : a < h2.length
        · exact Or.inl (Or.inr (by omega))
        · exact Or.inr (by omega)

/-- The same with further cells on both sides. -/
theorem HGrown.widen {h h' : Heap W} {A A' B B' : List Nat} (g : HGrown h A h' A')
    (hB : ∀ a, a ∈ B ↔ a ∈ A ∨ (a ∈ B ∧ a ∉ A)) (hB' : ∀ a, a ∈ B' ↔ a ∈ A' ∨ (a ∈ B ∧ a ∉ A)) :
    HGrown h B h' B' := by
  refine ⟨g.len, ?_, ?_⟩
  · intro a ha hb
    exact g.frame a ha (fun h => hb ((hB a).2 (Or.inl h)))
  · intro a
    rw [hB', g.cells]
    constructor
    · rintro ((h | h) | h)
      · exact Or.inl ((hB a).2 (Or.inl h))
      · exact Or.inr h
      · exact Or.inl h.1
    · rintro (h | h)
      · rcases (hB a).1 h with h | h
        · exact Or.inl (Or.inl h)
        · exact Or.inr h
      · exact Or.inl (Or.inr h)

theorem hload_some {h : Heap W} {a : Nat} {n : HNode W} (h1 : h[a]? = some (some n)) :
    hload h (some a) = .ok n := by
  unfold hload
  dsimp only
  rw [h1]
  rfl

theorem hstore_some {h : Heap W} {a : Nat} {n : HNode W} (f : HNode W → HNode W)
    (h1 : h[a]? = some (some n)) : hstore h (some a) f = .ok (h.set a (some (f n))) := by
  unfold hstore
  rw [hload_some h1]
  rfl

theorem hfree_some {h : Heap W} {a : Nat} {n : HNode W} (h1 : h[a]? = some (some n)) :
    hfree h (some a) = .ok (h.set a none) := by
  unfold hfree
  dsimp only
  rw [h1]
  rfl

variable [LinearOrder W] [Zero W]

/-- What the two levels have in common after (a part of) the insertion. -/
def InsertRel (h : Heap W) (p : Option Nat) (A : List Nat) (s : HState W)
    (r : Sib W × (Graph W × Int)) : Prop :=
  s.weg = r.2.1 ∧ s.count = r.2.2 ∧ ∃ A', Holds s.heap p r.1 A' ∧ HGrown h A s.heap A'

omit [Zero W] in
theorem insert_finish (env : InsertEnv W) {fuel : Nat} {maxE : W} {simp : List Nat} {s c : Sib W}
    (ihs : s ≠ .nil → ∀ (p : Option Nat) (A : List Nat) (h : Heap W), Holds h p s A →
      ∀ (weg : Graph W) (cnt : Int),
      SameRes (InsertRel h p A) (hInsertLoop env fuel p maxE simp ⟨h, weg, cnt⟩)
        (recurseInsert env maxE simp s (weg, cnt)))
    {h : Heap W} {a i : Nat} {sx : List Nat} {w : W} {q r : Option Nat} {B C : List Nat}
    (ha : h[a]? = some (some ⟨i, sx, w, none, r, q⟩)) (hB : Holds h q c B) (hC : Holds h r s C)
    (hnd : (a :: (B ++ C)).Nodup) (weg : Graph W) (cnt : Int) :
    SameRes (InsertRel h (some a) (a :: (B ++ C)))
      (do
        let node ← hload h (some a)
        match node.sibling with
        | none => pure ⟨h, weg, cnt⟩
        | some q => hInsertLoop env fuel (some q) maxE simp ⟨h, weg, cnt⟩)
      (do
        let t ← recurseInsert env maxE simp s (weg, cnt)
        pure (.node i w c t.1, t.2)) := by
  rw [hload_some ha, ok_bind]
  dsimp only
  cases r with
  | none =>
    have hs : s = .nil := hC.none_iff.1 rfl
    subst hs
    unfold recurseInsert
    exact ⟨rfl, rfl, _, ⟨a, sx, q, none, B, C, rfl, ha, hB, hC, rfl, hnd⟩, HGrown.refl _ _⟩
  | some r =>
    have hs : s ≠ .nil := fun hs => by
      have := hC.none_iff.2 hs
      cases this
    have hrec := ihs hs (some r) C h hC weg cnt
    have : hInsertLoop env fuel (some r) maxE simp ⟨h, weg, cnt⟩ =
        (hInsertLoop env fuel (some r) maxE simp ⟨h, weg, cnt⟩ >>= pure) := by
      cases hInsertLoop env fuel (some r) maxE simp ⟨h, weg, cnt⟩ <;> rfl
    dsimp only
    rw [this]
    refine hrec.bind ?_
    rintro st t - - ⟨e1, e2, C', hC', g⟩
    simp only [List.nodup_cons, List.mem_append, not_or, List.nodup_append] at hnd
    obtain ⟨⟨na, nb⟩, nB, nC, nd⟩ := hnd
    have hdis : ∀ x ∈ B, x ∉ C := fun x hx hx' => nd x hx x hx' rfl
    have halt := lt_of_live ha
    have nC' : ∀ x, x < h.length → x ∉ C → x ∉ C' := by
      intro x hx hxC hxC'
      rcases (g.cells x).1 hxC' with h' | h'
      · exact hxC h'
      · omega
    refine ⟨e1, e2, a :: (B ++ C'), ⟨a, sx, q, some r, B, C', rfl, ?_, ?_, hC', rfl, ?_⟩, ?_⟩
    · rw [g.frame a halt nb, ha]
    · exact hB.frame (fun x hx => g.frame x (hB.lt hx) (hdis x hx))
    · simp only [List.nodup_cons, List.mem_append, not_or, List.nodup_append]
      refine ⟨⟨na, nC' a halt nb⟩, nB, hC'.nodup, ?_⟩
      rintro x hx y hy rfl
      exact nC' x (hB.lt hx) (hdis x hx) hy
    · refine g.widen ?_ ?_
      · intro x
        simp only [List.mem_cons, List.mem_append]
        tauto
      · intro x
        simp only [List.mem_cons, List.mem_append]
        constructor
        · rintro (rfl | h' | h')
          · exact Or.inr ⟨Or.inl rfl, nb⟩
          · exact Or.inr ⟨Or.inr (Or.inl h'), hdis x h'⟩
          · exact Or.inl h'
        · rintro (h' | ⟨rfl | h' | h', h''⟩)
          · exact Or.inr (Or.inr h')
          · exact Or.inl rfl
          · exact Or.inr (Or.inl h')
          · exact absurd h' h''

/-- `h2` is `h` with the new node `b` put in front of the children `q` of `a`. -/
structure Linked (h h2 : Heap W) (a i cur : Nat) (sx sy : List Nat) (w w' : W) (q r : Option Nat) : Prop where
  len : h2.length = h.length + 1
  node : h2[a]? = some (some ⟨i, sx, w, none, r, some h.length⟩)
  new : h2[h.length]? = some (some ⟨cur, sy, w', none, q, none⟩)
  rest : ∀ x, x < h.length → x ≠ a → h2[x]? = h[x]?

omit [LinearOrder W] [Zero W] in
theorem set_last (h : Heap W) (x y : Option (HNode W)) : (h ++ [x]).set h.length y = h ++ [y] := by
  rw [List.set_append_right _ _ le_rfl]
  simp

omit [LinearOrder W] [Zero W] in
theorem linked_heap {h : Heap W} {a i cur : Nat} {sx sy : List Nat} {w w' : W} {q r : Option Nat}
    (ha : a < h.length) :
    Linked h ((h ++ [some (⟨cur, sy, w', none, q, none⟩ : HNode W)]).set a (some ⟨i, sx, w, none, r, some h.length⟩))
      a i cur sx sy w w' q r := by
  refine ⟨by simp, ?_, ?_, ?_⟩
  · rw [List.getElem?_set_self (by simp; omega)]
  · rw [List.getElem?_set_ne (by omega)]
    simp
  · intro x hx hne
    rw [List.getElem?_set_ne (fun h => hne h.symm), List.getElem?_append_left hx]

omit [Zero W] in
theorem insert_mid (env : InsertEnv W) {fuel : Nat} {maxE : W} {simp : List Nat} {s c3 : Sib W}
    (ihs : s ≠ .nil → ∀ (p : Option Nat) (A : List Nat) (h : Heap W), Holds h p s A →
      ∀ (weg : Graph W) (cnt : Int),
      SameRes (InsertRel h p A) (hInsertLoop env fuel p maxE simp ⟨h, weg, cnt⟩)
        (recurseInsert env maxE simp s (weg, cnt)))
    {h h2 h3 : Heap W} {a i cur : Nat} {sx sy : List Nat} {w w' : W} {q r : Option Nat} {B B3 C : List Nat}
    {c : Sib W} (ha : a < h.length) (hB : Holds h q c B) (hC : Holds h r s C)
    (hnd : (a :: (B ++ C)).Nodup) (hl : Linked h h2 a i cur sx sy w w' q r)
    (h3c : Holds h3 q c3 B3) (g : HGrown h2 B h3 B3) (weg : Graph W) (cnt : Int) :
    SameRes (InsertRel h (some a) (a :: (B ++ C)))
      (do
        let node ← hload h3 (some a)
        match node.sibling with
        | none => pure ⟨h3, weg, cnt⟩
        | some q => hInsertLoop env fuel (some q) maxE simp ⟨h3, weg, cnt⟩)
      (do
        let t ← recurseInsert env maxE simp s (weg, cnt)
        pure (.node i w (.node cur w' .nil c3) t.1, t.2)) := by
  simp only [List.nodup_cons, List.mem_append, not_or, List.nodup_append] at hnd
  obtain ⟨⟨na, nb⟩, nB, nC, nd⟩ := hnd
  have hdis : ∀ x ∈ B, x ∉ C := fun x hx hx' => nd x hx x hx' rfl
  have hbB : h.length ∉ B := fun hx => absurd (hB.lt hx) (by omega)
  have hlen := hl.len
  have e1 : h3[a]? = some (some ⟨i, sx, w, none, r, some h.length⟩) := by
    rw [g.frame a (by omega) na, hl.node]
  have e2 : h3[h.length]? = some (some ⟨cur, sy, w', none, q, none⟩) := by
    rw [g.frame _ (by omega) hbB, hl.new]
  have e3 : Holds h3 r s C := hC.frame (fun x hx => by
    have hx' := hC.lt hx
    rw [g.frame x (by omega) (fun h' => hdis x h' hx), hl.rest x hx' (fun h' => nb (h' ▸ hx))])
  have nB3 : ∀ x, x < h2.length → x ∉ B → x ∉ B3 := by
    intro x hx hxC hxC'
    rcases (g.cells x).1 hxC' with h' | h'
    · exact hxC h'
    · omega
  have hb3 : h.length ∉ B3 := nB3 _ (by omega) hbB
  have e4 : Holds h3 (some h.length) (.node cur w' .nil c3) (h.length :: ([] ++ B3)) :=
    ⟨h.length, sy, none, q, [], B3, rfl, e2, ⟨rfl, rfl⟩, h3c, rfl, by
      simp only [List.nil_append, List.nodup_cons]
      exact ⟨hb3, h3c.nodup⟩⟩
  have hnd3 : (a :: ((h.length :: ([] ++ B3)) ++ C)).Nodup := by
    simp only [List.nil_append, List.cons_append, List.nodup_cons, List.mem_cons, List.mem_append, not_or,
      List.nodup_append]
    refine ⟨⟨by omega, nB3 a (by omega) na, nb⟩, ⟨hb3, fun hx => absurd (hC.lt hx) (by omega)⟩, h3c.nodup,
      nC, ?_⟩
    rintro x hx y hy rfl
    exact nB3 x (by have := hC.lt hy; omega) (fun h' => hdis x h' hy) hx
  refine (insert_finish env ihs e1 e4 e3 hnd3 weg cnt).mono ?_
  rintro st t ⟨f1, f2, A', f3, f4⟩
  refine ⟨f1, f2, A', f3, HGrown.trans ?_ f4⟩
  have hg := g.len
  refine ⟨by omega, ?_, ?_⟩
  · intro x hx hxA
    simp only [List.mem_cons, List.mem_append, not_or] at hxA
    rw [g.frame x (by omega) hxA.2.1, hl.rest x hx hxA.1]
  · intro x
    simp only [List.nil_append, List.cons_append, List.mem_cons, List.mem_append, g.cells]
    constructor
    · rintro (h' | h' | (h' | h') | h')
      · exact Or.inl (Or.inl h')
      · exact Or.inr (by omega)
      · exact Or.inl (Or.inr (Or.inl h'))
      · exact Or.inr (by omega)
      · exact Or.inl (Or.inr (Or.inr h'))
    · rintro ((h' | h' | h') | h')
      · exact Or.inl h'
      · exact Or.inr (Or.inr (Or.inl (Or.inl h')))
      · exact Or.inr (Or.inr (Or.inr h'))
      · by_cases hx : x = h.length
        · exact Or.inr (Or.inl hx)
        · exact Or.inr (Or.inr (Or.inl (Or.inr (by omega))))

omit [Zero W] in
theorem insert_refines (env : InsertEnv W) (t : Sib W) : t ≠ .nil → ∀ (fuel : Nat), t.nodes ≤ fuel →
    ∀ (maxE : W) (simp : List Nat) (p : Option Nat) (A : List Nat) (h : Heap W), Holds h p t A →
      ∀ (weg : Graph W) (cnt : Int),
      SameRes (InsertRel h p A) (hInsertLoop env fuel p maxE simp ⟨h, weg, cnt⟩)
        (recurseInsert env maxE simp t (weg, cnt)) := by
  induction t with
  | nil => intro h; exact absurd rfl h
  | node i w c s ihc ihs =>
    intro _ fuel hfuel maxE simp p A h hh weg cnt
    obtain ⟨a, sx, q, r, B, C, rfl, ha, hB, hC, rfl, hnd⟩ := hh
    cases fuel with
    | zero => simp [Sib.nodes] at hfuel
    | succ fuel =>
    simp only [Sib.nodes] at hfuel
    have ihs' := fun hs p A h hh weg cnt => ihs hs fuel (by omega) maxE simp p A h hh weg cnt
    unfold hInsertLoop recurseInsert
    rw [hload_some ha, ok_bind]
    dsimp only
    refine SameRes.bind (R := fun x y => x = y) (SameRes.refl _ (fun _ _ => rfl)) ?_
    rintro d _ - - rfl
    by_cases hlt : (if d > maxE then d else maxE) < env.maxEpsilon
    · rw [if_pos hlt, if_pos hlt]
      rw [bind_assoc]
      refine SameRes.bind (R := fun x y => x = y) (SameRes.refl _ (fun _ _ => rfl)) ?_
      rintro weg1 _ - - rfl
      have halt := lt_of_live ha
      have happ : ∀ n : HNode W, (h ++ [some n])[a]? = some (some ⟨i, sx, w, none, r, q⟩) := fun n => by
        rw [List.getElem?_append_left halt, ha]
      cases q with
      | none =>
        have hc : c = .nil := hB.none_iff.1 rfl
        subst hc
        dsimp only [hnew]
        rw [hstore_some _ (happ _), ok_bind]
        have hnil : ∀ (P : Prop) [Decidable P] x y z, (if P then recurseInsert env x y .nil z
            else pure (.nil, z) : Res (Sib W × (Graph W × Int))) = .ok (.nil, z) := by
          intro P _ x y z
          split <;> rfl
        rw [hnil, ok_bind]
        refine insert_mid (c3 := .nil) (B3 := B) env ihs' halt hB hC hnd (linked_heap halt) ?_ (HGrown.refl _ _)
          weg1 _
        exact ⟨rfl, hB.2⟩
      | some c' =>
        have hc : c ≠ .nil := fun hc => by
          have := hB.none_iff.2 hc
          cases this
        dsimp only [hnew]
        rw [hstore_some (n := ⟨env.curIndex, setInsert env.curIndex simp,
            if (if d > maxE then d else maxE) > w then if d > maxE then d else maxE else w, none, none, none⟩) _
            (by simp), bind_assoc, ok_bind, set_last, hstore_some _ (happ _), bind_assoc, ok_bind]
        have hl : Linked h _ a i env.curIndex sx (setInsert env.curIndex simp) w
          (if (if d > maxE then d else maxE) > w then if d > maxE then d else maxE else w) (some c') r :=
          linked_heap halt
        rw [bind_assoc, hload_some hl.new, ok_bind]
        have hB2 := hB.frame (h' := _) (fun x hx => hl.rest x (hB.lt hx) (fun h' => by
          simp only [List.nodup_cons, List.mem_append, not_or] at hnd
          exact hnd.1.1 (h' ▸ hx)))
        by_cases hd : (setInsert i simp).length ≤ env.maxDimension
        · rw [if_pos hd, if_pos hd]
          refine (ihc hc fuel (by omega) _ _ _ _ _ hB2 _ _).bind ?_
          rintro st t - - ⟨e1, e2, B3, h3, g⟩
          obtain ⟨hp, wg, ct⟩ := st
          obtain ⟨t1, wg', ct'⟩ := t
          dsimp only at e1 e2 h3 g
          subst e1
          subst e2
          exact insert_mid env ihs' halt hB hC hnd hl h3 g wg ct
        · rw [if_neg hd, if_neg hd]
          exact insert_mid env ihs' halt hB hC hnd hl hB2 (HGrown.refl _ _) weg1 _
    · rw [if_neg hlt, if_neg hlt]
      exact insert_finish env ihs' ha hB hC hnd weg cnt

end

end LHF
