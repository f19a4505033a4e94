import Verif.Lemmas.ArrayComplex

/-! The loops of `expandDimensions`. -/

namespace LHF
open Spec

section
variable {W : Type _} [LinearOrder W] [Ring W] [IsStrictOrderedRing W]

/-- A layer that is only appended when it has an entry. -/
def optLayer {E : Type _} (L : List E) : List (List E) := if L.isEmpty then [] else [L]

theorem optLayer_nil {E : Type _} : optLayer ([] : List E) = [] := rfl
theorem optLayer_cons {E : Type _} (x : E) (l : List E) : optLayer (x :: l) = [x :: l] := rfl
theorem optLayer_append {E : Type _} (l : List E) (x : E) : optLayer (l ++ [x]) = [l ++ [x]] := by
  unfold optLayer; simp

omit [IsStrictOrderedRing W] in
theorem Spec.StoresRips.layerExact {g : Graph W} {n : Nat} {d : Nat → Nat → W}
    {near : Nat → Nat → Prop} {D k : Nat} (h : StoresRips g n d near D) (hk : k ≤ D)
    (hl : k < g.length) : LayerExact g k n d near := by
  refine ⟨g[k], List.getElem?_eq_getElem hl, h.once _ (List.getElem_mem hl), ?_⟩
  intro s w
  rw [← h.exact k s w hk, List.getElem?_eq_getElem hl]
  simp

omit [IsStrictOrderedRing W] in
theorem LayerExact.append {g x : Graph W} {n k : Nat} {d : Nat → Nat → W}
    {near : Nat → Nat → Prop} (h : LayerExact g k n d near) : LayerExact (g ++ x) k n d near := by
  obtain ⟨l, h1, h2⟩ := h
  refine ⟨l, ?_, h2⟩
  rw [List.getElem?_append_left (List.getElem?_eq_some_iff.1 h1).1]; exact h1

/-- The two facets of `s` whose pair proposes `s`. -/
theorem facets_propose {s : List Nat} (hs : Inc s) (h2 : 2 ≤ s.length) :
    let a := s.eraseIdx 1
    let b := s.tail
    stdSymDiff a b = s.take 2 ∧ stdInter a b = s.drop 2 ∧
    stdSymDiff b a = s.take 2 ∧ stdInter b a = s.drop 2 ∧ a ≠ b ∧
    a.length + 1 = s.length ∧ b.length + 1 = s.length ∧ a.Sublist s ∧ b.Sublist s := by
  match s, h2 with
  | x :: y :: r, _ =>
    simp only [List.eraseIdx_cons_succ, List.eraseIdx_cons_zero, List.tail_cons, List.take_succ_cons,
      List.take_zero, List.drop_succ_cons, List.drop_zero]
    have hxy : Inc [x, y] := hs.sublist (by simp)
    have ha : Inc (x :: r) := hs.sublist (by simp)
    have hb : Inc (y :: r) := hs.sublist (by simp)
    have hr : Inc r := hs.sublist (by simp)
    have hx1 : x ∉ y :: r := hs.not_mem
    have hy1 : y ∉ r := hb.not_mem
    have hxne : x ≠ y := by rintro rfl; simp at hx1
    have hx2 : x ∉ r := fun h => hx1 (by simp [h])
    have key1 : ∀ z, ((z ∈ x :: r ∧ z ∉ y :: r) ∨ (z ∈ y :: r ∧ z ∉ x :: r)) ↔ z ∈ [x, y] := by
      intro z
      simp only [List.mem_cons, List.not_mem_nil, or_false]
      constructor
      · tauto
      · rintro (rfl | rfl)
        · left; exact ⟨Or.inl rfl, by simpa using ⟨hxne, hx2⟩⟩
        · right; exact ⟨Or.inl rfl, by simpa using ⟨hxne.symm, hy1⟩⟩
    have key2 : ∀ z, (z ∈ x :: r ∧ z ∈ y :: r) ↔ z ∈ r := by
      intro z
      simp only [List.mem_cons]
      constructor
      · rintro ⟨rfl | h, h'⟩
        · rcases h' with h' | h'
          · exact absurd h' hxne
          · exact absurd h' hx2
        · exact h
      · intro h; exact ⟨Or.inr h, Or.inr h⟩
    refine ⟨?_, ?_, ?_, ?_, ?_, by simp, by simp, by simp, by simp⟩
    · exact (inc_stdSymDiff ha hb).ext hxy fun z => (mem_stdSymDiff ha hb z).trans (key1 z)
    · exact (inc_stdInter ha hb).ext hr fun z => (mem_stdInter ha hb z).trans (key2 z)
    · exact (inc_stdSymDiff hb ha).ext hxy fun z =>
        (mem_stdSymDiff hb ha z).trans (Or.comm.trans (key1 z))
    · exact (inc_stdInter hb ha).ext hr fun z =>
        (mem_stdInter hb ha z).trans (And.comm.trans (key2 z))
    · intro h; injection h with h; exact hxne h

/-- `e` is a `k`-dimensional simplex with its filtration value. -/
def Valid (k n : Nat) (d : Nat → Nat → W) (near : Nat → Nat → Prop) (e : List Nat × W) : Prop :=
  e.1.length = k + 1 ∧ IsSimplex n near e.1 ∧ e.2 = diam d e.1

/-- One step of the double loop. -/
theorem expandPair_spec {g : Graph W} {k n : Nat} {d : Nat → Nat → W} {near : Nat → Nat → Prop}
    (hk : 1 ≤ k) {layer : List (List Nat × W)} (hg : g[k]? = some layer)
    (hnd : (layer.map Prod.fst).Nodup)
    (hm : ∀ s w, (s, w) ∈ layer ↔ s.length = k + 1 ∧ IsSimplex n near s ∧ w = diam d s)
    {j t : Nat} (hjt : j < t) (ht : t < layer.length) :
    ∃ c, expandPair (k + 1) j t g = (match c with
        | none => pure g
        | some e => storeSimplex (k + 1) e g) ∧
      (∀ e, c = some e → Valid (k + 1) n d near e) ∧
      (∀ s, s.length = k + 2 → IsSimplex n near s →
        stdSymDiff layer[j].1 layer[t].1 = s.take 2 → stdInter layer[j].1 layer[t].1 = s.drop 2 →
        c = some (s, diam d s)) := by
  have hj : j < layer.length := by omega
  have ha := (hm layer[j].1 layer[j].2).1 (List.getElem_mem hj)
  have hb := (hm layer[t].1 layer[t].2).1 (List.getElem_mem ht)
  have hne : layer[j].1 ≠ layer[t].1 := by
    intro h
    have h1 : (layer.map Prod.fst)[j]'(by simpa using hj) = (layer.map Prod.fst)[t]'(by simpa using ht) := by
      simpa using h
    have := (hnd.getElem_inj_iff).1 h1
    omega
  obtain ⟨c, h1, h2, h3⟩ := candidate_spec hk ⟨layer, hg, hnd, hm⟩ ha.2.1 hb.2.1 ha.1 hb.1 hne
  refine ⟨c, ?_, h2, h3⟩
  unfold expandPair
  rw [Nat.add_sub_cancel, vget_ok.2 hg, ok_bind, vget_of_lt hj, ok_bind, vget_of_lt ht, ok_bind]
  have ea : layer[j] = (layer[j].1, diam d layer[j].1) := Prod.ext rfl ha.2.2
  have eb : layer[t] = (layer[t].1, diam d layer[t].1) := Prod.ext rfl hb.2.2
  rw [ea, eb, h1, ok_bind]
  cases c <;> rfl

/-- A dimension that is already present is left alone. -/
theorem expandDim_present {g : Graph W} {k n : Nat} {d : Nat → Nat → W} {near : Nat → Nat → Prop}
    {D : Nat} (h : StoresRips g n d near D) (hk : 1 ≤ k) (hD : k + 1 ≤ D) (hl : k < g.length) :
    expandDim (k + 1) g = .ok g := by
  obtain ⟨layer, hg, hnd, hm⟩ := h.layerExact (by omega : k ≤ D) hl
  unfold expandDim
  rw [Nat.add_sub_cancel, vget_ok.2 hg, ok_bind]
  have := foldlM_total (f := fun g j => (List.range' (j + 1) (layer.length - (j + 1))).foldlM
      (fun g t => expandPair (k + 1) j t g) g) (l := List.range layer.length) (s := g) (· = g) rfl (by
    rintro _ j hj rfl
    apply foldlM_total (P := fun x => x = _) rfl
    rintro _ t ht rfl
    rw [List.mem_range] at hj
    rw [List.mem_range'_1] at ht
    obtain ⟨c, h1, h2, -⟩ := expandPair_spec hk hg hnd hm (j := j) (t := t) (by omega) (by omega)
    refine ⟨_, ?_, rfl⟩
    rw [h1]
    cases c with
    | none => rfl
    | some e =>
      have hv := h2 e rfl
      obtain ⟨lay, hg', he⟩ := (h.exact (k + 1) e.1 e.2 (by omega)).2 hv
      simp only [storeSimplex]
      have : k + 1 < _ := (List.getElem?_eq_some_iff.1 hg').1
      rw [if_neg (by omega), vget_ok.2 hg', ok_bind, if_pos he]; rfl)
  obtain ⟨r, h1, rfl⟩ := this
  exact h1

theorem modify_append_last {E : Type _} (g : List E) (x : E) (f : E → E) :
    (g ++ [x]).modify g.length f = g ++ [f x] := by
  induction g with
  | nil => rfl
  | cons y ys ih => simp [ih]

omit [IsStrictOrderedRing W] in
/-- Storing a valid simplex in the growing last layer. -/
theorem storeSimplex_spec {g : Graph W} {k n : Nat} {d : Nat → Nat → W} {near : Nat → Nat → Prop}
    (hl : g.length = k) (L : List (List Nat × W)) (hnd : (L.map Prod.fst).Nodup)
    (hv : ∀ e ∈ L, Valid k n d near e) {e : List Nat × W} (he : Valid k n d near e) :
    ∃ L', storeSimplex k e (g ++ optLayer L) = .ok (g ++ optLayer L') ∧
      (L'.map Prod.fst).Nodup ∧ (∀ e ∈ L', Valid k n d near e) ∧ e ∈ L' ∧ ∀ x ∈ L, x ∈ L' := by
  unfold storeSimplex
  cases L with
  | nil =>
    refine ⟨[e], ?_, by simp, by simpa using he, by simp, by simp⟩
    simp [optLayer_nil, optLayer_cons, hl, pure_eq_ok]
  | cons x xs =>
    rw [optLayer_cons, if_neg (by simp [hl])]
    have hv1 : vget (g ++ [x :: xs]) k = .ok (x :: xs) := by
      rw [vget_ok, ← hl]; simp
    rw [hv1, ok_bind]
    by_cases hm : e ∈ x :: xs
    · rw [if_pos hm]
      exact ⟨x :: xs, rfl, hnd, hv, hm, fun _ h => h⟩
    · rw [if_neg hm]
      refine ⟨(x :: xs) ++ [e], ?_, ?_, ?_, by simp, fun y hy => List.mem_append_left _ hy⟩
      · rw [optLayer_append]
        unfold vmodify
        rw [if_pos (by simp [hl]), ← hl]
        rw [modify_append_last]
      · rw [List.map_append, List.nodup_append]
        refine ⟨hnd, by simp, ?_⟩
        rintro y hy z hz rfl
        simp only [List.map_cons, List.map_nil, List.mem_singleton] at hz
        obtain ⟨y', hy', rfl⟩ := List.mem_map.1 hy
        apply hm
        have : y' = e := Prod.ext hz (by rw [(hv y' hy').2.2, he.2.2, hz])
        rwa [← this]
      · intro y hy
        rcases List.mem_append.1 hy with h | h
        · exact hv y h
        · rw [List.mem_singleton.1 h]; exact he

/-- A missing dimension is completed. -/
theorem expandDim_new {g : Graph W} {k n : Nat} {d : Nat → Nat → W} {near : Nat → Nat → Prop}
    (h : StoresRips g n d near k) (hk : 1 ≤ k) (hl : g.length = k + 1) :
    ∃ g', expandDim (k + 1) g = .ok g' ∧ StoresRips g' n d near (k + 1) ∧ ∃ x, g' = g ++ x := by
  obtain ⟨layer, hg, hnd, hm⟩ := h.layerExact (le_refl k) (by omega)
  let prod : Nat → Nat → List Nat → Prop := fun j t s => s.length = k + 2 ∧ IsSimplex n near s ∧
    ∃ (hj : j < layer.length) (ht : t < layer.length), stdSymDiff layer[j].1 layer[t].1 = s.take 2 ∧
      stdInter layer[j].1 layer[t].1 = s.drop 2
  let Inv : Graph W → (Nat → Nat → Prop) → Prop := fun g' P => ∃ L, g' = g ++ optLayer L ∧
    (L.map Prod.fst).Nodup ∧ (∀ e ∈ L, Valid (k + 1) n d near e) ∧
    ∀ j t s, P j t → prod j t s → (s, diam d s) ∈ L
  have hloop : ∃ g', expandDim (k + 1) g = .ok g' ∧
      Inv g' (fun j t => j < layer.length ∧ j < t ∧ t < layer.length) := by
    unfold expandDim
    rw [Nat.add_sub_cancel, vget_ok.2 hg, ok_bind]
    apply foldlM_range_total (P := fun i s => Inv s (fun j t => j < i ∧ j < t ∧ t < layer.length))
    · exact ⟨[], by simp [optLayer_nil], by simp, by simp, by intro j t s hjt; omega⟩
    · intro i s hi hs
      have := foldlM_range'_total (f := fun g t => expandPair (k + 1) i t g)
        (P := fun t' s => Inv s (fun j t => (j < i ∧ j < t ∧ t < layer.length) ∨ (j = i ∧ j < t ∧ t < t')))
        (layer.length - (i + 1)) (i + 1) s
        (by
          obtain ⟨L, h1, h2, h3, h4⟩ := hs
          exact ⟨L, h1, h2, h3, fun j t s hjt hp => h4 j t s (by omega) hp⟩)
        (by
          rintro t s hit hit' ⟨L, rfl, h2, h3, h4⟩
          have hg' : (g ++ optLayer L)[k]? = some layer := by
            rw [List.getElem?_append_left (by omega)]; exact hg
          obtain ⟨c, e1, e2, e3⟩ := expandPair_spec hk hg' hnd hm (j := i) (t := t)
            (by omega) (by omega)
          rw [e1]
          cases c with
          | none =>
            refine ⟨_, rfl, L, rfl, h2, h3, ?_⟩
            rintro j t' s' hjt ⟨p1, p2, p3, p4, p5, p6⟩
            by_cases hcur : j = i ∧ t' = t
            · obtain ⟨rfl, rfl⟩ := hcur
              exact absurd (e3 s' p1 p2 p5 p6) (by simp)
            · exact h4 j t' s' (by omega) ⟨p1, p2, p3, p4, p5, p6⟩
          | some e =>
            obtain ⟨L', q1, q2, q3, q4, q5⟩ := storeSimplex_spec hl L h2 h3 (e2 e rfl)
            refine ⟨_, q1, L', rfl, q2, q3, ?_⟩
            rintro j t' s' hjt ⟨p1, p2, p3, p4, p5, p6⟩
            by_cases hcur : j = i ∧ t' = t
            · obtain ⟨rfl, rfl⟩ := hcur
              have := e3 s' p1 p2 p5 p6
              simp only [Option.some.injEq] at this
              rwa [← this]
            · exact q5 _ (h4 j t' s' (by omega) ⟨p1, p2, p3, p4, p5, p6⟩))
      obtain ⟨r, hr, L, h1, h2, h3, h4⟩ := this
      refine ⟨r, hr, L, h1, h2, h3, ?_⟩
      intro j t s hjt hp
      exact h4 j t s (by omega) hp
  obtain ⟨g', he, L, rfl, h2, h3, h4⟩ := hloop
  refine ⟨_, he, ⟨?_, ?_, ?_⟩, _, rfl⟩
  · intro k' s w hk'
    rcases Nat.lt_or_ge k' (k + 1) with hlt | hge
    · rw [List.getElem?_append_left (by omega)]
      exact h.exact k' s w (by omega)
    · have : k' = k + 1 := by omega
      subst this
      have hL : (∃ lay, (g ++ optLayer L)[k + 1]? = some lay ∧ (s, w) ∈ lay) ↔ (s, w) ∈ L := by
        rw [List.getElem?_append_right (by omega), hl, Nat.sub_self]
        cases L with
        | nil => simp [optLayer_nil]
        | cons x xs => simp [optLayer_cons]
      rw [hL]
      constructor
      · intro hs; exact h3 _ hs
      · rintro ⟨hs1, hs2, rfl⟩
        obtain ⟨f1, f2, f3, f4, f5, f6, f7, f8, f9⟩ := facets_propose hs2.inc (by omega)
        have hfac : ∀ z : List Nat, z.length + 1 = s.length → z.Sublist s →
            ∃ (i : Nat) (hi : i < layer.length), layer[i].1 = z := by
          intro z hz1 hz2
          have : (z, diam d z) ∈ layer := (hm _ _).2 ⟨by omega,
            hs2.sub (List.ne_nil_of_length_pos (by omega)) (hs2.inc.sublist hz2)
              (fun x hx => hz2.subset hx), rfl⟩
          obtain ⟨i, hi, e⟩ := List.mem_iff_getElem.1 this
          exact ⟨i, hi, by rw [e]⟩
        obtain ⟨i, hi, ei⟩ := hfac _ f6 f8
        obtain ⟨t, ht, et⟩ := hfac _ f7 f9
        rcases Nat.lt_trichotomy i t with hit | hit | hit
        · exact h4 i t s ⟨hi, hit, ht⟩ ⟨by omega, hs2, hi, ht, by rw [ei, et]; exact f1,
            by rw [ei, et]; exact f2⟩
        · subst hit; exact absurd (ei.symm.trans et) f5
        · exact h4 t i s ⟨ht, hit, hi⟩ ⟨by omega, hs2, ht, hi, by rw [ei, et]; exact f3,
            by rw [ei, et]; exact f4⟩
  · intro lay hlay
    rcases List.mem_append.1 hlay with h' | h'
    · exact h.once _ h'
    · unfold optLayer at h'
      split_ifs at h'
      · simp at h'
      · rw [List.mem_singleton.1 h']; exact h2
  · unfold optLayer
    split_ifs <;> simp [hl]

omit [IsStrictOrderedRing W] in
/-- If a layer is missing there are no simplices of that dimension or above. -/
theorem Spec.StoresRips.extend {g : Graph W} {n : Nat} {d : Nat → Nat → W} {near : Nat → Nat → Prop}
    {D D' : Nat} (h : StoresRips g n d near D) (hl : g.length ≤ D) (hD : D ≤ D') :
    StoresRips g n d near D' := by
  refine ⟨?_, h.once, by omega⟩
  intro k s w hk
  rcases Nat.lt_or_ge D k with hlt | hge
  · constructor
    · rintro ⟨lay, h1, -⟩
      have := (List.getElem?_eq_some_iff.1 h1).1
      omega
    · rintro ⟨h1, h2, -⟩
      exfalso
      have hlen : (s.take (g.length + 1)).length = g.length + 1 := by
        rw [List.length_take]; omega
      obtain ⟨lay, h3, -⟩ := (h.exact g.length (s.take (g.length + 1)) _ hl).2
        ⟨hlen, h2.sub (List.ne_nil_of_length_pos (by omega))
          (h2.inc.sublist (List.take_sublist _ _)) (fun x hx => List.mem_of_mem_take hx), rfl⟩
      have := (List.getElem?_eq_some_iff.1 h3).1
      omega
  · exact h.exact k s w hge

theorem expandLoop_spec {n : Nat} {d : Nat → Nat → W} {near : Nat → Nat → Prop} (m : Nat) :
    ∀ (g : Graph W) (D k : Nat), StoresRips g n d near D → 2 ≤ k → k ≤ D + 1 →
    ∃ g', expandLoop (List.range' k m) g = .ok g' ∧ StoresRips g' n d near (max D (k + m - 1)) ∧
      (∃ x, g' = g ++ x) ∧ (k + m ≤ D + 1 → g' = g) := by
  induction m with
  | zero =>
    intro g D k h hk hD
    refine ⟨g, rfl, ?_, ⟨[], by simp⟩, fun _ => rfl⟩
    rw [max_eq_left (by omega)]; exact h
  | succ m ih =>
    intro g D k h hk hD
    rw [List.range'_succ, expandLoop]
    split_ifs with hlt
    · exact ⟨g, rfl, h.extend (by omega) (le_max_left _ _), ⟨[], by simp⟩, fun _ => rfl⟩
    · obtain ⟨j, rfl⟩ : ∃ j, k = j + 1 := ⟨k - 1, by omega⟩
      rcases Nat.lt_or_ge D (j + 1) with hlt' | hge
      · have hDj : D = j := by omega
        subst hDj
        have := h.only
        obtain ⟨g', h1, h2, x, h3⟩ := expandDim_new h (by omega) (by omega)
        rw [h1, ok_bind]
        obtain ⟨g'', h4, h5, ⟨y, h6⟩, -⟩ := ih g' (D + 1) (D + 1 + 1) h2 (by omega) (by omega)
        refine ⟨g'', h4, ?_, ⟨x ++ y, by rw [h6, h3, List.append_assoc]⟩, fun hcon => by omega⟩
        have e : max (D + 1) (D + 1 + 1 + m - 1) = max D (D + 1 + (m + 1) - 1) := by omega
        rwa [e] at h5
      · rw [expandDim_present h (by omega) hge (by omega), ok_bind]
        obtain ⟨g'', h4, h5, h6, h7⟩ := ih g D (j + 1 + 1) h (by omega) (by omega)
        refine ⟨g'', h4, ?_, h6, fun hcon => h7 (by omega)⟩
        have e : max D (j + 1 + 1 + m - 1) = max D (j + 1 + (m + 1) - 1) := by omega
        rwa [e] at h5

omit [IsStrictOrderedRing W] in
theorem expandLoop_append (m m' : Nat) :
    ∀ (g g' : Graph W) (k : Nat), expandLoop (List.range' k m) g = .ok g' →
    expandLoop (List.range' k (m + m')) g = expandLoop (List.range' (k + m) m') g' := by
  induction m with
  | zero =>
    intro g g' k h
    cases h
    simp
  | succ m ih =>
    intro g g' k h
    rw [show m + 1 + m' = (m + m') + 1 by omega, List.range'_succ]
    rw [List.range'_succ] at h
    rw [expandLoop] at h ⊢
    split_ifs at h ⊢ with hlt
    · cases h
      cases m' with
      | zero => rfl
      | succ m' =>
        rw [List.range'_succ, expandLoop, if_pos (by omega)]
    · rw [bind_ok] at h
      obtain ⟨g1, h1, h2⟩ := h
      rw [h1, ok_bind, ih g1 g' (k + 1) h2]
      congr 2; omega

end

end LHF
