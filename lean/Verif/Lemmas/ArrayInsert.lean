import Verif.Lemmas.ArrayExpand

/-! What a sequence of insertions into the array complex builds. -/

namespace LHF
open Spec

section
variable {W : Type _} [LinearOrder W] [Zero W]

/-- The vertex layer. -/
def vertsOf (n : Nat) : List (List Nat × W) := (List.range n).map (fun i => ([i], 0))

/-- Edges from vertices below `m` to `i`. -/
def edgesTo (eps : W) (d : Nat → Nat → W) (i m : Nat) : List (List Nat × W) :=
  ((List.range m).filter (fun j => d j i ≤ eps)).map (fun j => ([j, i], d j i))

/-- The edge layer. -/
def edgesOf (eps : W) (d : Nat → Nat → W) (n : Nat) : List (List Nat × W) :=
  (List.range n).flatMap (fun i => edgesTo eps d i i)

/-- The complex after `n` insertions. -/
def insertedGraph (eps : W) (d : Nat → Nat → W) (maxDim n : Nat) : Graph W :=
  if n = 0 then []
  else vertsOf n :: (if maxDim > 0 then optLayer (edgesOf eps d n) else [])

omit [Zero W] in
theorem mem_edgesTo {eps : W} {d : Nat → Nat → W} {i m : Nat} {e : List Nat × W} :
    e ∈ edgesTo eps d i m ↔ ∃ j < m, d j i ≤ eps ∧ e = ([j, i], d j i) := by
  unfold edgesTo
  simp only [List.mem_map, List.mem_filter, List.mem_range, decide_eq_true_eq]
  constructor
  · rintro ⟨j, ⟨h1, h2⟩, rfl⟩; exact ⟨j, h1, h2, rfl⟩
  · rintro ⟨j, h1, h2, rfl⟩; exact ⟨j, ⟨h1, h2⟩, rfl⟩

omit [Zero W] in
theorem mem_edgesOf {eps : W} {d : Nat → Nat → W} {n : Nat} {e : List Nat × W} :
    e ∈ edgesOf eps d n ↔ ∃ j i, j < i ∧ i < n ∧ d j i ≤ eps ∧ e = ([j, i], d j i) := by
  unfold edgesOf
  simp only [List.mem_flatMap, List.mem_range, mem_edgesTo]
  constructor
  · rintro ⟨i, h1, j, h2, h3, h4⟩; exact ⟨j, i, h2, h1, h3, h4⟩
  · rintro ⟨j, i, h2, h1, h3, h4⟩; exact ⟨i, h1, j, h2, h3, h4⟩

omit [Zero W] in
theorem edgesTo_succ (eps : W) (d : Nat → Nat → W) (i m : Nat) : edgesTo eps d i (m + 1) =
    edgesTo eps d i m ++ (if d m i ≤ eps then [([m, i], d m i)] else []) := by
  unfold edgesTo
  rw [List.range_succ, List.filter_append, List.map_append]
  congr 1
  by_cases h : d m i ≤ eps <;> simp [h]

omit [Zero W] in
theorem insertEdges_spec {eps : W} {d : Nat → Nat → W} {dm : List (List W)} {i : Nat}
    (hdm : ∀ j < i, at2 dm j i = .ok (d j i)) (V : List (List Nat × W)) :
    insertEdges eps dm i (V :: optLayer (edgesOf eps d i)) =
      .ok (V :: optLayer (edgesOf eps d (i + 1))) := by
  have hE : edgesOf eps d (i + 1) = edgesOf eps d i ++ edgesTo eps d i i := by
    unfold edgesOf; rw [List.range_succ, List.flatMap_append]; simp
  rw [hE]
  have h0 : optLayer (edgesOf eps d i) = optLayer (edgesOf eps d i ++ edgesTo eps d i 0) := by
    simp [edgesTo]
  rw [h0]
  unfold insertEdges
  apply foldlM_range_ok _ i (fun m => V :: optLayer (edgesOf eps d i ++ edgesTo eps d i m))
  intro j hj
  have hnot : ([j, i], d j i) ∉ edgesOf eps d i ++ edgesTo eps d i j := by
    rw [List.mem_append, mem_edgesOf, mem_edgesTo]
    rintro (⟨a, b, h1, h2, h3, h4⟩ | ⟨a, h1, h2, h3⟩)
    · simp at h4; omega
    · simp at h3; omega
  rw [hdm j hj, ok_bind, edgesTo_succ, ← List.append_assoc]
  generalize edgesOf eps d i ++ edgesTo eps d i j = E at *
  by_cases hle : d j i ≤ eps
  · rw [if_pos hle, if_pos hle, optLayer_append]
    cases E with
    | nil => simp [optLayer_nil, pure_eq_ok]
    | cons x xs =>
      rw [optLayer_cons, if_neg (by simp)]
      have : vget [V, x :: xs] 1 = .ok (x :: xs) := rfl
      rw [this, ok_bind, if_neg hnot]
      rfl
  · rw [if_neg hle, if_neg hle, List.append_nil]; rfl

theorem arrayInsert_spec {K : Type _} {eps : W} {d : Nat → Nat → W} {dm : List (List W)}
    {maxDim n : Nat} {p : List K} (hp : p ≠ [])
    (hdm : maxDim > 0 → ∀ j < n, at2 dm j n = .ok (d j n)) :
    arrayInsert eps maxDim dm p (insertedGraph eps d maxDim n) =
      .ok (insertedGraph eps d maxDim (n + 1)) := by
  unfold arrayInsert
  rw [if_neg (by simpa using hp)]
  cases n with
  | zero =>
    have : edgesOf eps d 1 = [] := by simp [edgesOf, edgesTo]
    simp [insertedGraph, vertsOf, this, optLayer_nil, pure_eq_ok]
  | succ n =>
    simp only [insertedGraph, if_neg (Nat.succ_ne_zero _)]
    have hl : (vertsOf (W := W) (n + 1)).length = n + 1 := by simp [vertsOf]
    have hv : vertsOf (W := W) (n + 1 + 1) = vertsOf (n + 1) ++ [([n + 1], 0)] := by
      unfold vertsOf; rw [List.range_succ, List.map_append]; rfl
    rw [hl, hv]
    by_cases hm : maxDim > 0
    · simp only [if_pos hm, insertEdges_spec (hdm hm), ok_bind]
      rfl
    · simp only [if_neg hm, pure_eq_ok, ok_bind]
      rfl

/-- Number of rows that are inserted. -/
def pointCount {K : Type _} (data : List (List K)) : Nat := (data.filter (fun p => !p.isEmpty)).length

theorem arrayInsertAll_spec {K : Type _} {eps : W} {d : Nat → Nat → W} {dm : List (List W)}
    {maxDim : Nat} (data : List (List K)) :
    ∀ n, (maxDim > 0 → ∀ i j, j < i → i < n + pointCount data → at2 dm j i = .ok (d j i)) →
    arrayInsertAll eps maxDim dm data (insertedGraph eps d maxDim n) =
      .ok (insertedGraph eps d maxDim (n + pointCount data)) := by
  induction data with
  | nil => intro n _; rfl
  | cons p ps ih =>
    intro n hdm
    have ih' := ih n
    unfold arrayInsertAll at ih' ⊢
    rw [List.foldlM_cons]
    by_cases hp : p = []
    · subst hp
      have e : pointCount ([] :: ps) = pointCount ps := rfl
      rw [e] at hdm ⊢
      simp only [List.isEmpty_nil, if_true, pure_eq_ok, ok_bind]
      exact ih' hdm
    · have e : pointCount (p :: ps) = pointCount ps + 1 := by
        simp [pointCount, hp]
      rw [e] at hdm ⊢
      rw [if_neg (by simpa using hp), arrayInsert_spec hp (fun hm j hj => hdm hm n j hj (by omega)),
        ok_bind]
      have := ih (n + 1) (fun hm i j hji hi => hdm hm i j hji (by omega))
      unfold arrayInsertAll at this
      rw [this]
      congr 2; omega

theorem insertedGraph_stores {eps : W} {d : Nat → Nat → W} {maxDim n : Nat} (hm : maxDim > 0)
    (h0 : ∀ i j, 0 ≤ d i j) :
    StoresRips (insertedGraph eps d maxDim n) n d (fun i j => d i j ≤ eps) 1 := by
  have hsing : ∀ s : List Nat, s.length = 0 + 1 ∧ IsSimplex n (fun i j => d i j ≤ eps) s ↔
      ∃ i < n, s = [i] := by
    intro s
    constructor
    · rintro ⟨h1, h2⟩
      obtain ⟨i, rfl⟩ := List.length_eq_one_iff.1 h1
      exact ⟨i, h2.2.2.1 i (by simp), rfl⟩
    · rintro ⟨i, hi, rfl⟩
      refine ⟨rfl, by simp, by simp, by simpa using hi, ?_⟩
      intro a ha b hb hab
      simp only [List.mem_singleton] at ha hb
      omega
  have hpair : ∀ s : List Nat, s.length = 1 + 1 ∧ IsSimplex n (fun i j => d i j ≤ eps) s ↔
      ∃ j i, j < i ∧ i < n ∧ d j i ≤ eps ∧ s = [j, i] := by
    intro s
    constructor
    · rintro ⟨h1, h2⟩
      obtain ⟨j, i, rfl⟩ := List.length_eq_two.1 h1
      have hji : j < i := by have := h2.2.1; simpa using this
      exact ⟨j, i, hji, h2.2.2.1 i (by simp), h2.2.2.2 j (by simp) i (by simp) hji, rfl⟩
    · rintro ⟨j, i, hji, hi, hd, rfl⟩
      refine ⟨rfl, by simp, by simpa using hji, ?_, ?_⟩
      · intro v hv; simp only [List.mem_cons, List.not_mem_nil, or_false] at hv; omega
      · intro a ha b hb hab
        simp only [List.mem_cons, List.not_mem_nil, or_false] at ha hb
        have : a = j ∧ b = i := by omega
        rw [this.1, this.2]; exact hd
  have hnd1 : ((vertsOf (W := W) n).map Prod.fst).Nodup := by
    unfold vertsOf
    rw [List.map_map]
    refine List.Nodup.map ?_ List.nodup_range
    intro a b h; simpa using h
  have hnd2 : ((edgesOf eps d n).map Prod.fst).Nodup := by
    unfold edgesOf
    rw [List.map_flatMap, List.nodup_flatMap]
    constructor
    · intro i _
      unfold edgesTo
      rw [List.map_map]
      refine List.Nodup.map ?_ (List.nodup_range.filter _)
      intro a b h; simpa using h
    · refine List.Pairwise.imp ?_ (List.nodup_range (n := n))
      intro a b hab
      rw [Function.onFun, List.disjoint_left]
      intro s hs hs'
      obtain ⟨e, he, rfl⟩ := List.mem_map.1 hs
      obtain ⟨e', he', h⟩ := List.mem_map.1 hs'
      obtain ⟨j, _, _, rfl⟩ := mem_edgesTo.1 he
      obtain ⟨j', _, _, rfl⟩ := mem_edgesTo.1 he'
      simp at h
      exact hab h.2.symm
  have hlast : ∀ s w, (s, w) ∈ edgesOf eps d n ↔
      s.length = 1 + 1 ∧ IsSimplex n (fun i j => d i j ≤ eps) s ∧ w = diam d s := by
    intro s w
    rw [← and_assoc, hpair, mem_edgesOf]
    constructor
    · rintro ⟨j, i, h1, h2, h3, h4⟩
      simp only [Prod.mk.injEq] at h4
      obtain ⟨rfl, rfl⟩ := h4
      exact ⟨⟨j, i, h1, h2, h3, rfl⟩, (diam_pair d h1 (h0 _ _)).symm⟩
    · rintro ⟨⟨j, i, h1, h2, h3, rfl⟩, rfl⟩
      exact ⟨j, i, h1, h2, h3, by rw [diam_pair d h1 (h0 _ _)]⟩
  cases n with
  | zero =>
    refine ⟨?_, by simp [insertedGraph], by simp [insertedGraph]⟩
    intro k s w _
    simp only [insertedGraph, if_true, List.getElem?_nil]
    constructor
    · rintro ⟨_, h, _⟩; simp at h
    · rintro ⟨_, h, _⟩
      obtain ⟨x, hx⟩ := List.exists_mem_of_ne_nil _ h.1
      have := h.2.2.1 x hx; omega
  | succ n =>
    simp only [insertedGraph, if_neg (Nat.succ_ne_zero n), if_pos hm]
    refine ⟨?_, ?_, ?_⟩
    · intro k s w hk
      have hk' : k = 0 ∨ k = 1 := by omega
      rcases hk' with rfl | rfl
      · rw [← and_assoc, hsing]
        simp only [List.getElem?_cons_zero, Option.some.injEq, exists_eq_left', vertsOf,
          List.mem_map, List.mem_range, Prod.mk.injEq]
        constructor
        · rintro ⟨i, hi, rfl, rfl⟩; exact ⟨⟨i, hi, rfl⟩, (diam_singleton d i).symm⟩
        · rintro ⟨⟨i, hi, rfl⟩, rfl⟩; exact ⟨i, hi, rfl, (diam_singleton d i).symm⟩
      · rw [← hlast, List.getElem?_cons_succ]
        cases edgesOf eps d (n + 1) with
        | nil => simp [optLayer_nil]
        | cons x xs => simp [optLayer_cons]
    · intro lay hlay
      rcases List.mem_cons.1 hlay with rfl | h'
      · exact hnd1
      · unfold optLayer at h'
        split_ifs at h'
        · simp at h'
        · rw [List.mem_singleton.1 h']; exact hnd2
    · unfold optLayer; split_ifs <;> simp

end

end LHF
