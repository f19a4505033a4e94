import Verif.Model.KdTree
import Mathlib.Algebra.Order.Group.Abs
import Mathlib.Data.List.Perm.Subperm
import Mathlib.Tactic.SplitIfs

/-!
The kd-tree: its construction stores every point once in an ordered tree, and the two searches on an
ordered tree are correct.
-/

namespace LHF

variable {K : Type} [AddCommGroup K] [LinearOrder K]

/-- The stored points. -/
def KdTree.points : KdTree K → List (PointIndex K)
  | .empty => []
  | .node x i l r => (x, i) :: (l.points ++ r.points)

/-- The search order: at level `v` the left points have at most and the right points at least the
coordinate `v` of the node. -/
def KdTree.Ordered (k : Nat) : KdTree K → Nat → Prop
  | .empty, _ => True
  | .node x _ l r, v =>
    x.length = k ∧ (∀ p ∈ l.points, p.1.getD v 0 ≤ x.getD v 0) ∧
    (∀ p ∈ r.points, x.getD v 0 ≤ p.1.getD v 0) ∧
    l.Ordered k ((v + 1) % k) ∧ r.Ordered k ((v + 1) % k)

theorem vget_kd {α : Type _} {l : List α} {i : Nat} (h : i < l.length) : vget l i = .ok l[i] := by
  unfold vget
  rw [List.getElem?_eq_getElem h]

theorem split_at {α : Type _} (l : List α) (i : Nat) (h : i < l.length) :
    l = l.take i ++ l[i] :: l.drop (i + 1) := by
  rw [List.getElem_cons_drop]
  simp

theorem makeTree_spec (S : SortByLevel K) (k : Nat) (hk : 0 < k) :
    ∀ (fuel : Nat) (pts : List (PointIndex K)) (level : Nat), level < k →
      (∀ p ∈ pts, p.1.length = k) → pts.length ≤ fuel →
      ∃ t, makeTree S fuel pts level = .ok t ∧ t.points.Perm pts ∧ t.Ordered k level := by
  intro fuel
  induction fuel with
  | zero =>
    intro pts level _ _ hl
    have : pts = [] := List.length_eq_zero_iff.1 (by omega)
    subst this
    exact ⟨.empty, rfl, List.Perm.refl _, trivial⟩
  | succ fuel ih =>
    intro pts level hlev hlen hl
    rcases pts with _ | ⟨p, ps⟩
    · exact ⟨.empty, rfl, List.Perm.refl _, trivial⟩
    · have hp : p.1.length = k := hlen p (by simp)
      rw [makeTree]
      dsimp only
      have hno : ¬ (ps.length + 1 > 1 ∧ (p :: ps).any (fun q => q.1.length ≤ level) = true) := by
        rintro ⟨-, h⟩
        rw [List.any_eq_true] at h
        obtain ⟨q, hq, hq'⟩ := h
        have := hlen q hq
        simp at hq'
        omega
      rw [if_neg hno]
      set pts := if ps.length + 1 > 1 then S.run level (p :: ps) else p :: ps with hpts
      have hperm : pts.Perm (p :: ps) := by
        rw [hpts]
        split_ifs
        · exact S.perm _ _
        · exact List.Perm.refl _
      have hsort : pts.Pairwise (fun a b => a.1.getD level 0 ≤ b.1.getD level 0) := by
        rw [hpts]
        split_ifs with h
        · exact S.sorted _ _ (fun q hq => by rw [hlen q hq]; exact hlev)
        · have : ps = [] := List.length_eq_zero_iff.1 (by omega)
          subst this
          simp
      have hplen : pts.length = ps.length + 1 := by rw [hperm.length_eq]; rfl
      set half := (ps.length + 1) / 2 with hhalf
      have hh : half < pts.length := by omega
      have hlen' : ∀ q ∈ pts, q.1.length = k := fun q hq => hlen q (hperm.mem_iff.1 hq)
      have hlevel' : (level + 1) % p.1.length < k := by
        rw [hp]; exact Nat.mod_lt _ hk
      have hL : ∃ t, (if half > 0 ∧ p.1.length > 0 then
          makeTree S fuel (pts.take half) ((level + 1) % p.1.length) else pure KdTree.empty) = .ok t ∧
          t.points.Perm (pts.take half) ∧ t.Ordered k ((level + 1) % k) := by
        by_cases h0 : half > 0
        · rw [if_pos ⟨h0, by omega⟩]
          have := ih (pts.take half) ((level + 1) % p.1.length) hlevel'
            (fun q hq => hlen' q (List.mem_of_mem_take hq))
            (by rw [List.length_take]; simp only [List.length_cons] at hl; omega)
          rw [hp] at this ⊢
          exact this
        · rw [if_neg (fun h => h0 h.1)]
          refine ⟨.empty, rfl, ?_, trivial⟩
          have : half = 0 := by omega
          rw [this]
          exact List.Perm.refl _
      have hR : ∃ t, (if ps.length + 1 - half - 1 > 0 ∧ p.1.length > 0 then
          makeTree S fuel (pts.drop (half + 1)) ((level + 1) % p.1.length)
            else pure KdTree.empty) = .ok t ∧
          t.points.Perm (pts.drop (half + 1)) ∧ t.Ordered k ((level + 1) % k) := by
        by_cases h0 : ps.length + 1 - half - 1 > 0
        · rw [if_pos ⟨h0, by omega⟩]
          have := ih (pts.drop (half + 1)) ((level + 1) % p.1.length) hlevel'
            (fun q hq => hlen' q (List.mem_of_mem_drop hq))
            (by rw [List.length_drop]; simp only [List.length_cons] at hl; omega)
          rw [hp] at this ⊢
          exact this
        · rw [if_neg (fun h => h0 h.1)]
          refine ⟨.empty, rfl, ?_, trivial⟩
          rw [List.drop_eq_nil_of_le (by omega)]
          exact List.Perm.refl _
      obtain ⟨tl, hl1, hl2, hl3⟩ := hL
      obtain ⟨tr, hr1, hr2, hr3⟩ := hR
      rw [vget_kd hh]
      refine ⟨.node pts[half].1 pts[half].2 tl tr, ?_, ?_, ?_, ?_, ?_, hl3, hr3⟩
      · simp only [bind, Except.bind]
        by_cases c1 : half > 0 ∧ p.1.length > 0 <;>
          by_cases c2 : ps.length + 1 - half - 1 > 0 ∧ p.1.length > 0 <;>
          (first | rw [if_pos c1] at hl1 ⊢ | rw [if_neg c1] at hl1 ⊢) <;>
          (first | rw [if_pos c2] at hr1 | rw [if_neg c2] at hr1) <;>
          rw [hl1] <;> dsimp only <;>
          (first | rw [if_pos c2] | rw [if_neg c2]) <;>
          first | (rw [hr1]; rfl) | (cases hl1; cases hr1; rfl)
      · have hs := split_at pts half hh
        refine List.Perm.trans ?_ hperm
        conv => rhs; rw [hs]
        rw [KdTree.points]
        refine List.Perm.trans (List.Perm.cons _ (hl2.append hr2)) ?_
        exact List.perm_middle.symm
      · exact hlen' _ (List.getElem_mem hh)
      · intro q hq
        have hq' := hl2.mem_iff.1 hq
        have hs := split_at pts half hh
        rw [hs] at hsort
        rw [List.pairwise_append] at hsort
        exact hsort.2.2 q hq' _ List.mem_cons_self
      · intro q hq
        have hq' := hr2.mem_iff.1 hq
        have hs := split_at pts half hh
        rw [hs] at hsort
        rw [List.pairwise_append] at hsort
        exact (List.pairwise_cons.1 hsort.2.1).1 q hq'

theorem kdTreeOf_spec (S : SortByLevel K) (k : Nat) (hk : 0 < k) (data : List (List K))
    (hlen : ∀ x ∈ data, x.length = k) (size : Nat) (hsize : size ≤ data.length) :
    ∃ t, kdTreeOf S data size = .ok t ∧ t.Ordered k 0 ∧
      t.points.Perm ((data.take (if size = 0 then data.length else size)).zipIdx) := by
  unfold kdTreeOf
  dsimp only
  set n := if size = 0 then data.length else size with hn
  have hnl : n ≤ data.length := by rw [hn]; split_ifs <;> omega
  rw [if_neg (by omega)]
  obtain ⟨t, h1, h2, h3⟩ := makeTree_spec S k hk n ((data.take n).zipIdx) 0 hk
    (by
      intro p hp
      have : p.1 ∈ data.take n := by
        obtain ⟨x, i⟩ := p
        exact List.fst_mem_of_mem_zipIdx hp
      exact hlen _ (List.mem_of_mem_take this))
    (by rw [List.length_zipIdx, List.length_take]; omega)
  exact ⟨t, h1, h3, h2⟩

section Search
variable [IsOrderedAddMonoid K]

omit [LinearOrder K] [IsOrderedAddMonoid K] in
theorem vat_ok {l : List K} {i : Nat} (h : i < l.length) : vat l i = .ok (l.getD i 0) := by
  unfold vat
  rw [List.getElem?_eq_getElem h]
  simp [h]

/-- What is assumed of the distance to the query point. -/
structure DistTo (k : Nat) (dist : List K → List K → Res K) (pt : List K) (δ : List K → K) : Prop where
  len : pt.length = k
  val : ∀ a, a.length = k → dist a pt = .ok (δ a)
  coord : ∀ a, a.length = k → ∀ i, i < k → |a.getD i 0 - pt.getD i 0| ≤ δ a

omit [IsOrderedAddMonoid K] in
theorem improve_spec {k : Nat} {dist : List K → List K → Res K} {pt : List K} {δ : List K → K}
    (hk : 0 < k) (hd : DistTo k dist pt δ) (best : PointIndex K) (o : Option (PointIndex K))
    (ho : ∀ q, o = some q → q.1.length = k) :
    ∃ b, improve dist pt best (δ best.1) o = .ok (b, δ b.1) ∧ δ b.1 ≤ δ best.1 ∧
      (∀ q, o = some q → δ b.1 ≤ δ q.1) ∧ (b = best ∨ o = some b) := by
  rcases o with _ | q
  · exact ⟨best, rfl, le_refl _, by simp, Or.inl rfl⟩
  · have hq : q.1.length = k := ho q rfl
    have hne : ¬ q.1.isEmpty = true := by
      rw [List.isEmpty_iff]; intro h; rw [h] at hq; simp at hq; omega
    unfold improve
    dsimp only
    rw [if_neg hne, hd.val _ hq]
    simp only [bind, Except.bind]
    by_cases hlt : δ q.1 < δ best.1
    · rw [if_pos hlt]
      exact ⟨q, rfl, le_of_lt hlt, fun q' h => by cases h; exact le_refl _, Or.inr rfl⟩
    · rw [if_neg hlt]
      exact ⟨best, rfl, le_refl _, fun q' h => by cases h; exact not_lt.1 hlt, Or.inl rfl⟩

theorem sub_le_dist {k : Nat} {dist : List K → List K → Res K} {pt : List K} {δ : List K → K}
    (hd : DistTo k dist pt δ) {v : Nat} (hv : v < k) (x q : List K) (hq : q.length = k)
    (h : (0 < x.getD v 0 - pt.getD v 0 ∧ x.getD v 0 ≤ q.getD v 0) ∨
      (¬ 0 < x.getD v 0 - pt.getD v 0 ∧ q.getD v 0 ≤ x.getD v 0)) :
    |x.getD v 0 - pt.getD v 0| ≤ δ q := by
  refine le_trans ?_ (hd.coord q hq v hv)
  rcases h with ⟨h1, h2⟩ | ⟨h1, h2⟩
  · rw [abs_of_pos h1]
    refine le_trans ?_ (le_abs_self _)
    exact sub_le_sub_right h2 _
  · rw [abs_of_nonpos (not_lt.1 h1)]
    refine le_trans ?_ (neg_le_abs _)
    exact neg_le_neg (sub_le_sub_right h2 _)

/-- The search in a subtree, given the best node so far. -/
theorem findNearest_spec {k : Nat} {dist : List K → List K → Res K} {ab : K → K} {pt : List K}
    {δ : List K → K} (hk : 0 < k) (hd : DistTo k dist pt δ) (hab : ∀ x, ab x ≤ |x|) (t : KdTree K) :
    ∀ (level : Nat) (best : PointIndex K), level < k → t.Ordered k level →
      (∀ p ∈ t.points, p.1.length = k) → best.1.length = k →
      ∃ o, findNearest dist ab pt t level best (δ best.1) = .ok o ∧
        (o = none → t.points = []) ∧
        ∀ q, o = some q → (q = best ∨ q ∈ t.points) ∧ δ q.1 ≤ δ best.1 ∧
          ∀ p ∈ t.points, δ q.1 ≤ δ p.1 := by
  induction t with
  | empty =>
    intro level best _ _ _ _
    exact ⟨none, rfl, fun _ => rfl, by simp⟩
  | node x i l r ihl ihr =>
    intro level best hlev hord hlen hbest
    obtain ⟨hx, hl, hr, hol, hor⟩ := hord
    have hlenl : ∀ p ∈ l.points, p.1.length = k :=
      fun p hp => hlen p (by simp [KdTree.points, hp])
    have hlenr : ∀ p ∈ r.points, p.1.length = k :=
      fun p hp => hlen p (by simp [KdTree.points, hp])
    have hne : ¬ x.isEmpty = true := by
      rw [List.isEmpty_iff]; intro h; rw [h] at hx; simp at hx; omega
    have hnext : (level + 1) % k < k := Nat.mod_lt _ hk
    set b0 : PointIndex K := if δ x < δ best.1 then (x, i) else best with hb0
    have hb0len : b0.1.length = k := by rw [hb0]; split_ifs <;> assumption
    have hb0d : (if δ x < δ best.1 then δ x else δ best.1) = δ b0.1 := by
      rw [hb0]; split_ifs <;> rfl
    have hb0x : δ b0.1 ≤ δ x := by
      rw [hb0]; split_ifs with h
      · exact le_refl _
      · exact not_lt.1 h
    have hb0b : δ b0.1 ≤ δ best.1 := by
      rw [hb0]; split_ifs with h
      · exact le_of_lt h
      · exact le_refl _
    have hb0m : b0 = best ∨ b0 = (x, i) := by
      rw [hb0]; split_ifs
      · exact Or.inr rfl
      · exact Or.inl rfl
    have hunf : findNearest dist ab pt (.node x i l r) level best (δ best.1) = (do
        let further ←
          if x.getD level 0 - pt.getD level 0 > 0 then
            findNearest dist ab pt l ((level + 1) % k) b0 (δ b0.1)
          else findNearest dist ab pt r ((level + 1) % k) b0 (δ b0.1)
        let b ← improve dist pt b0 (δ b0.1) further
        if ab (x.getD level 0 - pt.getD level 0) < b.2 then do
          let further ←
            if x.getD level 0 - pt.getD level 0 > 0 then
              findNearest dist ab pt r ((level + 1) % k) b.1 b.2
            else findNearest dist ab pt l ((level + 1) % k) b.1 b.2
          let b' ← improve dist pt b.1 b.2 further
          pure (some b'.1)
        else pure (some b.1)) := by
      rw [findNearest, if_neg hne, hd.val x hx, vat_ok (by rw [hx]; exact hlev),
        vat_ok (by rw [hd.len]; exact hlev), hx]
      dsimp only [bind, Except.bind]
      rw [hb0d]
    rw [hunf]
    -- the two subtrees in the order in which they are searched
    have key : ∀ (s o : KdTree K),
        (∀ p ∈ s.points, p.1.length = k) → (∀ p ∈ o.points, p.1.length = k) →
        (∀ (lv : Nat) (b : PointIndex K), lv < k → s.Ordered k lv →
          (∀ p ∈ s.points, p.1.length = k) → b.1.length = k →
          ∃ o', findNearest dist ab pt s lv b (δ b.1) = .ok o' ∧ (o' = none → s.points = []) ∧
            ∀ q, o' = some q → (q = b ∨ q ∈ s.points) ∧ δ q.1 ≤ δ b.1 ∧
              ∀ p ∈ s.points, δ q.1 ≤ δ p.1) →
        (∀ (lv : Nat) (b : PointIndex K), lv < k → o.Ordered k lv →
          (∀ p ∈ o.points, p.1.length = k) → b.1.length = k →
          ∃ o', findNearest dist ab pt o lv b (δ b.1) = .ok o' ∧ (o' = none → o.points = []) ∧
            ∀ q, o' = some q → (q = b ∨ q ∈ o.points) ∧ δ q.1 ≤ δ b.1 ∧
              ∀ p ∈ o.points, δ q.1 ≤ δ p.1) →
        s.Ordered k ((level + 1) % k) → o.Ordered k ((level + 1) % k) →
        (∀ p ∈ o.points, |x.getD level 0 - pt.getD level 0| ≤ δ p.1) →
        ∃ q, (do
          let further ← findNearest dist ab pt s ((level + 1) % k) b0 (δ b0.1)
          let b ← improve dist pt b0 (δ b0.1) further
          if ab (x.getD level 0 - pt.getD level 0) < b.2 then do
            let further ← findNearest dist ab pt o ((level + 1) % k) b.1 b.2
            let b' ← improve dist pt b.1 b.2 further
            pure (some b'.1)
          else pure (some b.1)) = (.ok (some q) : Res (Option (PointIndex K))) ∧
          (q = b0 ∨ q ∈ s.points ∨ q ∈ o.points) ∧ δ q.1 ≤ δ b0.1 ∧
          (∀ p ∈ s.points, δ q.1 ≤ δ p.1) ∧ ∀ p ∈ o.points, δ q.1 ≤ δ p.1 := by
      intro s o hs ho ihs iho hos hoo hfar
      obtain ⟨o1, e1, n1, s1⟩ := ihs _ b0 hnext hos hs hb0len
      rw [e1]
      obtain ⟨b1, e2, le1, lq1, m1⟩ := improve_spec hk hd b0 o1 (by
        intro q hq
        rcases (s1 q hq).1 with rfl | h
        · exact hb0len
        · exact hs q h)
      simp only [bind, Except.bind]
      rw [e2]
      simp only
      have hb1m : b1 = b0 ∨ b1 ∈ s.points := by
        rcases m1 with h | h
        · exact Or.inl h
        · exact (s1 b1 h).1
      have hb1len : b1.1.length = k := by
        rcases hb1m with rfl | h
        · exact hb0len
        · exact hs b1 h
      have hb1s : ∀ p ∈ s.points, δ b1.1 ≤ δ p.1 := by
        intro p hp
        rcases o1 with _ | q
        · rw [n1 rfl] at hp; cases hp
        · exact le_trans (lq1 q rfl) ((s1 q rfl).2.2 p hp)
      by_cases hlt : ab (x.getD level 0 - pt.getD level 0) < δ b1.1
      · rw [if_pos hlt]
        obtain ⟨o2, e3, n2, s2⟩ := iho _ b1 hnext hoo ho hb1len
        rw [e3]
        obtain ⟨b2, e4, le2, lq2, m2⟩ := improve_spec hk hd b1 o2 (by
          intro q hq
          rcases (s2 q hq).1 with rfl | h
          · exact hb1len
          · exact ho q h)
        simp only
        rw [e4]
        refine ⟨b2, rfl, ?_, le_trans le2 le1, fun p hp => le_trans le2 (hb1s p hp), ?_⟩
        · rcases m2 with rfl | h
          · rcases hb1m with h | h
            · exact Or.inl h
            · exact Or.inr (Or.inl h)
          · rcases (s2 b2 h).1 with rfl | h
            · rcases hb1m with h | h
              · exact Or.inl h
              · exact Or.inr (Or.inl h)
            · exact Or.inr (Or.inr h)
        · intro p hp
          rcases o2 with _ | q
          · rw [n2 rfl] at hp; cases hp
          · exact le_trans (lq2 q rfl) ((s2 q rfl).2.2 p hp)
      · rw [if_neg hlt]
        refine ⟨b1, rfl, ?_, le1, hb1s, fun p hp => ?_⟩
        · rcases hb1m with h | h
          · exact Or.inl h
          · exact Or.inr (Or.inl h)
        · exact le_trans (not_lt.1 hlt) (le_trans (hab _) (hfar p hp))
    have fin : ∀ q, (q = b0 ∨ q ∈ l.points ∨ q ∈ r.points) → δ q.1 ≤ δ b0.1 →
        (∀ p ∈ l.points, δ q.1 ≤ δ p.1) → (∀ p ∈ r.points, δ q.1 ≤ δ p.1) →
        (q = best ∨ q ∈ (KdTree.node x i l r).points) ∧ δ q.1 ≤ δ best.1 ∧
          ∀ p ∈ (KdTree.node x i l r).points, δ q.1 ≤ δ p.1 := by
      intro q hm hle hql hqr
      refine ⟨?_, le_trans hle hb0b, ?_⟩
      · rw [KdTree.points]
        simp only [List.mem_cons, List.mem_append]
        rcases hm with rfl | h | h
        · rcases hb0m with h | h
          · exact Or.inl h
          · exact Or.inr (Or.inl h)
        · exact Or.inr (Or.inr (Or.inl h))
        · exact Or.inr (Or.inr (Or.inr h))
      · intro p hp
        rw [KdTree.points] at hp
        simp only [List.mem_cons, List.mem_append] at hp
        rcases hp with rfl | h | h
        · exact le_trans hle hb0x
        · exact hql p h
        · exact hqr p h
    by_cases hdx : x.getD level 0 - pt.getD level 0 > 0
    · obtain ⟨q, e, hm, hle, hqs, hqo⟩ := key l r hlenl hlenr ihl ihr hol hor (fun p hp =>
        sub_le_dist hd hlev x p.1 (hlenr p hp) (Or.inl ⟨hdx, hr p hp⟩))
      simp only [if_pos hdx]
      refine ⟨some q, e, by simp, fun q' hq' => ?_⟩
      cases hq'
      exact fin q hm hle hqs hqo
    · obtain ⟨q, e, hm, hle, hqs, hqo⟩ := key r l hlenr hlenl ihr ihl hor hol (fun p hp =>
        sub_le_dist hd hlev x p.1 (hlenl p hp) (Or.inr ⟨hdx, hl p hp⟩))
      simp only [if_neg hdx]
      refine ⟨some q, e, by simp, fun q' hq' => ?_⟩
      cases hq'
      exact fin q (by tauto) hle hqo hqs

/-- The range query in a subtree. -/
theorem neighborhood_spec {k : Nat} {dist : List K → List K → Res K} {ab : K → K} {pt : List K}
    {δ : List K → K} (hk : 0 < k) (hd : DistTo k dist pt δ) (hab : ∀ x, ab x ≤ |x|) (rad : K)
    (t : KdTree K) :
    ∀ (level : Nat), level < k → t.Ordered k level → (∀ p ∈ t.points, p.1.length = k) →
      ∃ res, neighborhood dist ab pt rad t level = .ok res ∧ res.Subperm t.points ∧
        (∀ p ∈ res, δ p.1 ≤ rad) ∧ ∀ p ∈ t.points, δ p.1 < rad → p ∈ res := by
  induction t with
  | empty =>
    intro level _ _ _
    exact ⟨[], rfl, List.Subperm.refl _, by simp, by simp [KdTree.points]⟩
  | node x i l r ihl ihr =>
    intro level hlev hord hlen
    obtain ⟨hx, hl, hr, hol, hor⟩ := hord
    have hlenl : ∀ p ∈ l.points, p.1.length = k :=
      fun p hp => hlen p (by simp [KdTree.points, hp])
    have hlenr : ∀ p ∈ r.points, p.1.length = k :=
      fun p hp => hlen p (by simp [KdTree.points, hp])
    have hne : ¬ x.isEmpty = true := by
      rw [List.isEmpty_iff]; intro h; rw [h] at hx; simp at hx; omega
    have hnext : (level + 1) % k < k := Nat.mod_lt _ hk
    obtain ⟨rl, el, sl, bl, cl⟩ := ihl _ hnext hol hlenl
    obtain ⟨rr, er, sr, br, cr⟩ := ihr _ hnext hor hlenr
    have hunf : neighborhood dist ab pt rad (.node x i l r) level = (do
        let nbhS ←
          if x.getD level 0 - pt.getD level 0 > 0 then
            neighborhood dist ab pt rad l ((level + 1) % k)
          else neighborhood dist ab pt rad r ((level + 1) % k)
        if ab (x.getD level 0 - pt.getD level 0) < rad then do
          let nbhO ←
            if x.getD level 0 - pt.getD level 0 > 0 then
              neighborhood dist ab pt rad r ((level + 1) % k)
            else neighborhood dist ab pt rad l ((level + 1) % k)
          pure ((if δ x ≤ rad then [(x, i)] else []) ++ nbhS ++ nbhO)
        else pure ((if δ x ≤ rad then [(x, i)] else []) ++ nbhS)) := by
      rw [neighborhood, if_neg hne, hd.val x hx, vat_ok (by rw [hx]; exact hlev),
        vat_ok (by rw [hd.len]; exact hlev), hd.len]
      rfl
    rw [hunf, el, er]
    set here : List (PointIndex K) := if δ x ≤ rad then [(x, i)] else [] with hhere
    have hsub : here.Subperm [(x, i)] := by
      rw [hhere]; split_ifs
      · exact List.Subperm.refl _
      · exact List.nil_subperm
    have hin : ∀ p ∈ here, δ p.1 ≤ rad := by
      intro p hp
      rw [hhere] at hp
      split_ifs at hp with h
      · simp at hp; subst hp; exact h
      · cases hp
    have hx' : δ x < rad → (x, i) ∈ here := by
      intro h
      rw [hhere, if_pos (le_of_lt h)]
      simp
    have fin : ∀ (s o : KdTree K) (rs ro : List (PointIndex K)),
        (s.points ++ o.points).Perm (l.points ++ r.points) →
        rs.Subperm s.points → ro.Subperm o.points → (∀ p ∈ rs, δ p.1 ≤ rad) →
        (∀ p ∈ ro, δ p.1 ≤ rad) → (∀ p ∈ s.points, δ p.1 < rad → p ∈ rs) →
        (∀ p ∈ o.points, δ p.1 < rad → p ∈ ro) →
        (∀ p ∈ o.points, |x.getD level 0 - pt.getD level 0| ≤ δ p.1) →
        ∃ res, (if ab (x.getD level 0 - pt.getD level 0) < rad then
            (.ok (here ++ rs ++ ro) : Res (List (PointIndex K)))
          else .ok (here ++ rs)) = .ok res ∧
          res.Subperm (KdTree.node x i l r).points ∧ (∀ p ∈ res, δ p.1 ≤ rad) ∧
          ∀ p ∈ (KdTree.node x i l r).points, δ p.1 < rad → p ∈ res := by
      intro s o rs ro hp hs ho bs bo cs co hfar
      have hpts : (KdTree.node x i l r).points.Perm ([(x, i)] ++ (s.points ++ o.points)) := by
        rw [KdTree.points]
        exact List.Perm.cons _ hp.symm
      by_cases hlt : ab (x.getD level 0 - pt.getD level 0) < rad
      · rw [if_pos hlt]
        refine ⟨_, rfl, ?_, ?_, ?_⟩
        · rw [List.append_assoc]
          exact (hsub.append (hs.append ho)).trans hpts.symm.subperm
        · intro p hp
          simp only [List.mem_append] at hp
          rcases hp with (h | h) | h
          · exact hin p h
          · exact bs p h
          · exact bo p h
        · intro p hp hpr
          have := hpts.mem_iff.1 hp
          simp only [List.mem_append, List.mem_singleton] at this ⊢
          rcases this with rfl | h | h
          · exact Or.inl (Or.inl (hx' hpr))
          · exact Or.inl (Or.inr (cs p h hpr))
          · exact Or.inr (co p h hpr)
      · rw [if_neg hlt]
        refine ⟨_, rfl, ?_, ?_, ?_⟩
        · refine (hsub.append hs).trans ?_
          refine List.Subperm.trans ?_ hpts.symm.subperm
          rw [← List.append_assoc]
          exact (List.sublist_append_left _ _).subperm
        · intro p hp
          simp only [List.mem_append] at hp
          rcases hp with h | h
          · exact hin p h
          · exact bs p h
        · intro p hp hpr
          have := hpts.mem_iff.1 hp
          simp only [List.mem_append, List.mem_singleton] at this ⊢
          rcases this with rfl | h | h
          · exact Or.inl (hx' hpr)
          · exact Or.inr (cs p h hpr)
          · exact absurd (lt_of_le_of_lt (le_trans (hab _) (hfar p h)) hpr) hlt
    by_cases hdx : x.getD level 0 - pt.getD level 0 > 0
    · simp only [if_pos hdx]
      exact fin l r rl rr (List.Perm.refl _) sl sr bl br cl cr (fun p hp =>
        sub_le_dist hd hlev x p.1 (hlenr p hp) (Or.inl ⟨hdx, hr p hp⟩))
    · simp only [if_neg hdx]
      exact fin r l rr rl List.perm_append_comm sr sl br bl cr cl (fun p hp =>
        sub_le_dist hd hlev x p.1 (hlenl p hp) (Or.inr ⟨hdx, hl p hp⟩))

end Search

end LHF
