import Verif.Props.TreeComplex

/-! C53: `getDimEdges` of the two complexes. -/

namespace LHF
open Spec

section
variable {W : Type} [LinearOrder W]

theorem allPairsWithin_spec {dm : List (List W)} {d : Nat → Nat → W} {eps : W} {v : List Nat}
    (hv : v.Pairwise (· < ·))
    (hdm : ∀ a ∈ v, ∀ b ∈ v, a < b → at2 dm a b = .ok (d a b)) :
    ∃ b, allPairsWithin dm eps v = .ok b ∧
      (b = true ↔ ∀ i ∈ v, ∀ j ∈ v, i < j → d i j ≤ eps) := by
  have hlt : ∀ i j (hi : i < v.length) (hj : j < v.length), v[i] < v[j] ↔ i < j := by
    intro i j hi hj
    have := List.pairwise_iff_getElem.1 hv
    constructor
    · intro h
      by_contra hc
      rcases Nat.lt_or_eq_of_le (Nat.le_of_not_lt hc) with h1 | h1
      · exact absurd (this j i hj hi h1) (by omega)
      · subst h1; omega
    · exact this i j hi hj
  obtain ⟨b, h1, h2⟩ := foldlM_range_total (fun ok i =>
    (List.range' (i + 1) (v.length - (i + 1))).foldlM (fun ok j => do
      let a ← vget v i
      let b ← vget v j
      let d ← at2 dm a b
      pure (if d > eps then false else ok)) ok)
    (fun I (ok : Bool) => (ok = true ↔ ∀ i (hi : i < v.length), i < I → ∀ j (hj : j < v.length),
      i < j → d v[i] v[j] ≤ eps)) v.length true (by simp) (by
      intro i ok hi hok
      obtain ⟨r, h3, h4⟩ := foldlM_range'_total (fun ok j => do
          let a ← vget v i
          let b ← vget v j
          let d ← at2 dm a b
          pure (if d > eps then false else ok))
        (fun J (r : Bool) => (r = true ↔ ok = true ∧ ∀ j (hj : j < v.length), i < j → j < J →
          d v[i] v[j] ≤ eps)) (v.length - (i + 1)) (i + 1) ok
        (by constructor
            · intro h; exact ⟨h, fun j _ _ _ => by omega⟩
            · exact fun h => h.1)
        (by
          intro j r hj1 hj2 hr
          have hj : j < v.length := by omega
          rw [vget_of_lt hi, vget_of_lt hj, ok_bind, ok_bind,
            hdm _ (List.getElem_mem _) _ (List.getElem_mem _) ((hlt i j hi hj).2 (by omega)),
            ok_bind]
          refine ⟨_, rfl, ?_⟩
          by_cases hgt : d v[i] v[j] > eps
          · rw [if_pos hgt]
            simp only [Bool.false_eq_true, false_iff, not_and, not_forall]
            intro _
            exact ⟨j, hj, by omega, by omega, not_le.2 hgt⟩
          · rw [if_neg hgt, hr]
            constructor
            · rintro ⟨a, b⟩
              refine ⟨a, fun j' hj' h5 h6 => ?_⟩
              rcases Nat.lt_or_eq_of_le (Nat.le_of_lt_succ h6) with h7 | h7
              · exact b j' hj' h5 h7
              · subst h7; exact not_lt.1 hgt
            · rintro ⟨a, b⟩
              exact ⟨a, fun j' hj' h5 h6 => b j' hj' h5 (by omega)⟩)
      refine ⟨r, h3, ?_⟩
      rw [h4, hok]
      constructor
      · rintro ⟨a, b⟩ i' hi' h5 j hj h6
        rcases Nat.lt_or_eq_of_le (Nat.le_of_lt_succ h5) with h7 | h7
        · exact a i' hi' h7 j hj h6
        · subst h7; exact b j hj h6 (by omega)
      · intro a
        exact ⟨fun i' hi' h5 => a i' hi' (by omega), fun j hj h5 _ => a i hi (by omega) j hj h5⟩)
  refine ⟨b, h1, ?_⟩
  rw [h2]
  constructor
  · intro h i hi j hj hij
    obtain ⟨a, ha, rfl⟩ := List.mem_iff_getElem.1 hi
    obtain ⟨b, hb, rfl⟩ := List.mem_iff_getElem.1 hj
    exact h a ha ha b hb ((hlt a b ha hb).1 hij)
  · intro h i hi _ j hj hij
    exact h _ (List.getElem_mem _) _ (List.getElem_mem _) ((hlt i j hi hj).2 hij)

theorem foldlM_filter_ok {α : Type} (p : α → Res Bool) (q : α → Bool) (f : α → List Nat)
    (l : List α) (h : ∀ a ∈ l, p a = .ok (q a)) (acc : List (List Nat)) :
    l.foldlM (fun ret e => do
      let ok ← p e
      pure (if ok then ret ++ [f e] else ret)) acc = .ok (acc ++ (l.filter q).map f) := by
  induction l generalizing acc with
  | nil => simp [pure_eq_ok]
  | cons a l ih =>
    rw [List.foldlM_cons, h a (by simp), ok_bind, pure_eq_ok, ok_bind,
      ih (fun b hb => h b (by simp [hb]))]
    cases hq : q a <;> simp [hq]

end

/-- C53, array: on a complex with neighbourhood relation `near` and the matrix it was built from,
`getDimEdges(dim, eps)` returns exactly the simplices with `dim` vertices (so dimension `dim - 1`)
whose pairwise distances are all `≤ eps`, each once; nothing for `dim = 0` or beyond the stored
dimensions. -/
theorem C53_array_getDimEdges {W : Type} [LinearOrder W] [Zero W] {dm : List (List W)}
    {g : Graph W} {n : Nat} {d : Nat → Nat → W} {near : Nat → Nat → Prop} {D : Nat}
    (hg : StoresRips g n d near D)
    (hdm : ∀ i j, i < j → j < n → at2 dm i j = .ok (d i j)) (dim : Nat) (eps : W) :
    ∃ L, arrayGetDimEdges dm g dim eps = .ok L ∧ L.Nodup ∧
      ∀ s, s ∈ L ↔ dim ≤ D + 1 ∧ s.length = dim ∧
        IsSimplex n (fun i j => near i j ∧ d i j ≤ eps) s := by
  unfold arrayGetDimEdges
  have hno : ∀ s, IsSimplex n near s → s.length ≤ D + 1 → s.length ≤ g.length := by
    intro s hs hl
    have h1 := List.length_pos_iff.2 hs.1
    obtain ⟨layer, h2, -⟩ := (hg.exact (s.length - 1) s (diam d s) (by omega)).2
      ⟨by omega, hs, rfl⟩
    have := (List.getElem?_eq_some_iff.1 h2).1
    omega
  have hsplit : ∀ s, IsSimplex n (fun i j => near i j ∧ d i j ≤ eps) s ↔
      IsSimplex n near s ∧ ∀ i ∈ s, ∀ j ∈ s, i < j → d i j ≤ eps := by
    intro s
    unfold IsSimplex
    constructor
    · rintro ⟨a, b, c, e⟩
      exact ⟨⟨a, b, c, fun i hi j hj h => (e i hi j hj h).1⟩, fun i hi j hj h => (e i hi j hj h).2⟩
    · rintro ⟨⟨a, b, c, e⟩, f⟩
      exact ⟨a, b, c, fun i hi j hj h => ⟨e i hi j hj h, f i hi j hj h⟩⟩
  by_cases h0 : dim = 0
  · rw [if_pos h0]
    refine ⟨[], rfl, List.nodup_nil, ?_⟩
    intro s
    simp only [List.not_mem_nil, false_iff]
    rintro ⟨-, h1, h2⟩
    have := List.length_pos_iff.2 h2.1
    omega
  · rw [if_neg h0]
    by_cases hl : g.length < dim
    · rw [if_pos hl]
      refine ⟨[], rfl, List.nodup_nil, ?_⟩
      intro s
      simp only [List.not_mem_nil, false_iff]
      rintro ⟨h3, h1, h2⟩
      have := hno s ((hsplit s).1 h2).1 (by omega)
      omega
    · rw [if_neg hl]
      have hlt : dim - 1 < g.length := by omega
      have hD := hg.only
      have hlayer : ∀ s w, (s, w) ∈ g[dim - 1] ↔ s.length = dim ∧ IsSimplex n near s ∧
          w = diam d s := by
        intro s w
        have := hg.exact (dim - 1) s w (by omega)
        rw [List.getElem?_eq_getElem hlt] at this
        simp only [Option.some.injEq, exists_eq_left'] at this
        rw [this, Nat.sub_add_cancel (by omega)]
      have hq : ∀ e ∈ g[dim - 1], allPairsWithin dm eps e.1 =
          .ok (decide (∀ i ∈ e.1, ∀ j ∈ e.1, i < j → d i j ≤ eps)) := by
        rintro ⟨s, w⟩ he
        have hs := (hlayer s w).1 he
        obtain ⟨b, h1, h2⟩ := allPairsWithin_spec (eps := eps) (d := d) (dm := dm) hs.2.1.2.1
          (fun a _ b hb hab => hdm a b hab (hs.2.1.2.2.1 b hb))
        rw [h1, Except.ok.injEq, Bool.eq_iff_iff, h2, decide_eq_true_iff]
      rw [vget_of_lt hlt, ok_bind, foldlM_filter_ok _ _ (fun e => e.1) _ hq, List.nil_append]
      refine ⟨_, rfl, ?_, ?_⟩
      · exact (hg.once _ (List.getElem_mem hlt)).sublist (List.Sublist.map _ List.filter_sublist)
      · intro s
        rw [hsplit]
        simp only [List.mem_map, List.mem_filter, decide_eq_true_eq, Prod.exists, exists_and_right,
          exists_eq_right, hlayer]
        constructor
        · rintro ⟨⟨w, h1, h2, -⟩, h3⟩
          exact ⟨by omega, h1, h2, h3⟩
        · rintro ⟨-, h1, h2, h3⟩
          exact ⟨⟨_, h1, h2, rfl⟩, h3⟩

/-- C53, tree: `getDimEdges(k, _)` lists exactly the simplices of dimension `k` (`k + 1` vertices),
whatever the distance argument; it is undefined exactly when `k` is the number of stored dimensions
and empty above. (For the same arguments the array complex lists dimension `k - 1`.) -/
theorem C53_tree_getDimEdges_partial {W : Type} [LinearOrder W] [Zero W]
    {t : Tree W} {n : Nat} {d : Nat → Nat → W} {near : Nat → Nat → Prop} {D : Nat}
    (hg : StoresRips t.weg n d near D) (k : Nat) :
    (k < t.weg.length → ∃ L, t.getDimEdges k = .ok L ∧ L.Nodup ∧
      ∀ s, s ∈ L ↔ s.length = k + 1 ∧ IsSimplex n near s) ∧
    (k = t.weg.length → t.getDimEdges k = .error .oob) ∧
    (t.weg.length < k → t.getDimEdges k = .ok []) := by
  unfold Tree.getDimEdges
  refine ⟨?_, ?_, ?_⟩
  · intro hk
    rw [if_pos hk.le, vget_of_lt hk, ok_bind]
    refine ⟨_, rfl, hg.once _ (List.getElem_mem hk), ?_⟩
    intro s
    have hD := hg.only
    have := fun w => hg.exact k s w (by omega)
    rw [List.getElem?_eq_getElem hk] at this
    simp only [Option.some.injEq, exists_eq_left'] at this
    simp only [List.mem_map, Prod.exists, exists_and_right, exists_eq_right, this]
    constructor
    · rintro ⟨w, h1, h2, -⟩; exact ⟨h1, h2⟩
    · rintro ⟨h1, h2⟩; exact ⟨_, h1, h2, rfl⟩
  · intro hk
    rw [if_pos (by omega), vget_error (by omega)]; rfl
  · intro hk
    rw [if_neg (by omega)]; rfl

/-- C53: on the same two points the array returns vertices and the tree edges for `d = 1`; the tree
ignores the distance argument; and asking the tree for one dimension too many is out of range. -/
theorem C53_violated : ∃ (dm : List (List Int)) (t : Tree Int) (g : Graph Int),
    Tree.insertN 3 1 dm 2 Tree.fresh = .ok t ∧
    Spec.buildArray 3 1 1 dm [['a'], ['b']] = .ok g ∧
    t.getDimEdges 1 = .ok [[0, 1]] ∧ arrayGetDimEdges dm g 1 0 = .ok [[0], [1]] ∧
    arrayGetDimEdges dm g 2 0 = .ok [] ∧ arrayGetDimEdges dm g 2 2 = .ok [[0, 1]] ∧
    t.getDimEdges 2 = .error .oob := by
  exact ⟨[[0, 2], [0, 0]], _, [[([0], 0), ([1], 0)], [([0, 1], 2)]], rfl, by decide, by decide,
    by decide, by decide, by decide, by decide⟩

/-- The hypotheses of C53 are met by the complexes that the pipeline builds from three points. -/
example : ∃ (g : Graph Int) (L : List (List Nat)),
    Spec.buildArray 3 1 1 [[0, 2, 5], [0, 0, 3], [0, 0, 0]] [['a'], ['b'], ['c']] = .ok g ∧
    arrayGetDimEdges [[0, 2, 5], [0, 0, 3], [0, 0, 0]] g 2 2 = .ok L ∧ [0, 1] ∈ L ∧ [1, 2] ∉ L := by
  have hdm : ∀ i j, i < j → j < 3 → at2 [[0, 2, 5], [0, 0, 3], [0, 0, 0]] i j =
      .ok ((([[0, 2, 5], [0, 0, 3], [0, 0, 0]] : List (List Int)).getD i []).getD j 0) := by
    intro i j h1 h2
    have h : (i = 0 ∧ j = 1) ∨ (i = 0 ∧ j = 2) ∨ (i = 1 ∧ j = 2) := by omega
    rcases h with ⟨rfl, rfl⟩ | ⟨rfl, rfl⟩ | ⟨rfl, rfl⟩ <;> rfl
  have hd0 : ∀ i j, 0 ≤ (([[0, 2, 5], [0, 0, 3], [0, 0, 0]] : List (List Int)).getD i []).getD j 0 := by
    intro i j
    match i, j with
    | 0, 0 | 0, 1 | 0, 2 | 1, 0 | 1, 1 | 1, 2 | 2, 0 | 2, 1 | 2, 2 => decide
    | 0, j + 3 | 1, j + 3 | 2, j + 3 | i + 3, j => simp
  obtain ⟨g, h1, h2⟩ := C13_expansion_is_rips (W := Int) 3 1 1 (by decide) _ _ hd0 [['a'], ['b'], ['c']]
    (by decide) (fun i j a b => hdm j i a b)
  obtain ⟨L, h3, -, h4⟩ := C53_array_getDimEdges h2 hdm 2 2
  refine ⟨g, L, h1, h3, (h4 _).2 ⟨by decide, rfl, ?_⟩, fun h => ?_⟩
  · refine ⟨by simp, by simp, by simp, ?_⟩
    simp
  · obtain ⟨-, -, -, -, -, h⟩ := (h4 _).1 h
    simp at h

end LHF
