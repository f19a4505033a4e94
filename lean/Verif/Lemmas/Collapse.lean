import Verif.Model.Collapse
import Verif.Spec.Collapse
import Verif.Lemmas.ArrayComplex
import Verif.Lemmas.Subsets
import Verif.Lemmas.Res

/-! `reduceComplex` of simplexArrayList removes every simplex with at least three vertices. -/

namespace LHF
open Spec

/-- The facets in the order of `getSubsets`: the one that misses the last vertex comes first. -/
theorem getSubsetsV_order (s : List Nat) (hs : s ≠ []) :
    getSubsetsV s = (List.range s.length).reverse.map (fun k => s.eraseIdx k) := by
  have key : ∀ l : List Nat, (l.sublists.filter (fun z => decide (z.length + 1 = l.length))) =
      (List.range l.length).reverse.map (fun k => l.eraseIdx k) := by
    intro l
    induction l using List.reverseRecOn with
    | nil => simp
    | append_singleton l a ih =>
      rw [List.sublists_concat, List.filter_append, List.length_append, List.length_singleton,
        List.range_succ, List.reverse_append, List.map_append]
      congr 1
      · have : (fun z : List Nat => decide (z.length + 1 = l.length + 1)) =
            (fun z => decide (z.length = l.length)) := by
          funext z; simp
        rw [this]
        have h1 : l.sublists.filter (fun z => decide (z.length = l.length)) = [l] := by
          have hl := filter_sublists_length l l.length
          rw [Nat.choose_self, List.length_eq_one_iff] at hl
          obtain ⟨x, hx⟩ := hl
          have hm : x ∈ l.sublists.filter (fun z => decide (z.length = l.length)) := by
            rw [hx]; exact List.mem_singleton.2 rfl
          rw [List.mem_filter, List.mem_sublists, decide_eq_true_eq] at hm
          rw [hx, hm.1.eq_of_length hm.2]
        rw [h1]
        simp [List.eraseIdx_append_of_length_le]
      · rw [List.filter_map]
        have : ((fun z : List Nat => decide (z.length + 1 = l.length + 1)) ∘ (fun x => x ++ [a])) =
            (fun z => decide (z.length + 1 = l.length)) := by
          funext z; simp
        rw [this, ih, List.map_map]
        apply List.map_congr_left
        intro k hk
        have : k < l.length := by simpa using hk
        simp [List.eraseIdx_append_of_lt_length this]
  have hpos : 0 < s.length := List.length_pos_of_ne_nil hs
  rw [getSubsetsV, allSubsetsV_eq, ← key s, szPred_pos hpos]
  apply List.filter_congr
  intro z _
  rw [decide_eq_decide]
  omega

section Rec
variable {W : Type} [DecidableEq W] [Neg W] [One W]

/-- The weight `findWeight` reports for a vector of this layer. -/
def weightIn (lower : List (List Nat × W)) (v : List Nat) : W :=
  match lower.find? (fun e => e.1 = v) with
  | some e => e.2
  | none => -1

/-- The face that `recurseReduce` removes together with the simplex. -/
def topFace (lower : List (List Nat × W)) (e : List Nat × W) : List Nat :=
  (getSubsetsV e.1).foldl (fun m f => if weightIn lower f = e.2 then f else m) []

theorem findWeight_in {g : Graph W} {lower : List (List Nat × W)} {v : List Nat}
    (h : g[szPred v.length]? = some lower) : findWeight g v = .ok (weightIn lower v) := by
  unfold findWeight weightIn
  rw [vget_ok.2 h, ok_bind]
  cases lower.find? (fun e => e.1 = v) <;> rfl

/-- From `st` to `st'` the simplices `done` were handled, each one removed with its face. -/
structure Handled (lower layer : List (List Nat × W)) (st st' : CollapseState)
    (done : List (List Nat × W)) : Prop where
  removals : st'.removals = st.removals ++ done.flatMap (fun e => [e.1, topFace lower e])
  checked : st'.checked.Perm (st.checked ++ done.map Prod.fst)
  mem : ∀ e ∈ done, e ∈ layer
  fresh : ∀ e ∈ done, e.1 ∉ st.checked
  nodup : (done.map Prod.fst).Nodup

theorem Handled.refl (lower layer : List (List Nat × W)) (st : CollapseState) :
    Handled lower layer st st [] := ⟨by simp, by simp, by simp, by simp, by simp⟩

theorem Handled.trans {lower layer : List (List Nat × W)} {a b c : CollapseState}
    {d1 d2 : List (List Nat × W)} (h1 : Handled lower layer a b d1) (h2 : Handled lower layer b c d2) :
    Handled lower layer a c (d1 ++ d2) := by
  have hb : ∀ x, x ∈ b.checked ↔ x ∈ a.checked ∨ x ∈ d1.map Prod.fst := fun x => by
    rw [h1.checked.mem_iff, List.mem_append]
  refine ⟨?_, ?_, ?_, ?_, ?_⟩
  · rw [h2.removals, h1.removals, List.flatMap_append, List.append_assoc]
  · rw [List.map_append, ← List.append_assoc]
    exact h2.checked.trans (h1.checked.append_right _)
  · intro e he
    rcases List.mem_append.1 he with h | h
    · exact h1.mem e h
    · exact h2.mem e h
  · intro e he
    rcases List.mem_append.1 he with h | h
    · exact h1.fresh e h
    · exact fun hm => h2.fresh e h ((hb _).2 (Or.inl hm))
  · rw [List.map_append, List.nodup_append']
    refine ⟨h1.nodup, h2.nodup, ?_⟩
    intro x hx hx'
    obtain ⟨e, he, rfl⟩ := List.mem_map.1 hx'
    exact h2.fresh e he ((hb _).2 (Or.inr hx))

/-- The number of simplices of the layer not handled yet. -/
def unchecked (layer : List (List Nat × W)) (st : CollapseState) : Nat :=
  (layer.filter (fun x => decide (x.1 ∉ st.checked))).length

theorem unchecked_le {layer : List (List Nat × W)} {a b : CollapseState}
    (h : ∀ x ∈ a.checked, x ∈ b.checked) : unchecked layer b ≤ unchecked layer a := by
  unfold unchecked
  apply List.Sublist.length_le
  apply List.monotone_filter_right
  intro x hx
  rw [decide_eq_true_eq] at hx ⊢
  exact fun hm => hx (h _ hm)

theorem Handled.sub {lower layer : List (List Nat × W)} {a b : CollapseState}
    {d : List (List Nat × W)} (h : Handled lower layer a b d) : ∀ x ∈ a.checked, x ∈ b.checked :=
  fun _ hx => h.checked.mem_iff.2 (List.mem_append.2 (Or.inl hx))

theorem Handled.le {lower layer : List (List Nat × W)} {a b : CollapseState}
    {d : List (List Nat × W)} (h : Handled lower layer a b d) : unchecked layer b ≤ unchecked layer a :=
  unchecked_le h.sub

theorem unchecked_lt {layer : List (List Nat × W)} {st : CollapseState} {e : List Nat × W}
    (he : e ∈ layer) (hf : e.1 ∉ st.checked) :
    unchecked layer { st with checked := st.checked ++ [e.1] } < unchecked layer st := by
  unfold unchecked
  have hsub : (layer.filter (fun x => decide (x.1 ∉ st.checked ++ [e.1]))).Sublist
      (layer.filter (fun x => decide (x.1 ∉ st.checked))) := by
    apply List.monotone_filter_right
    intro x hx
    rw [decide_eq_true_eq] at hx ⊢
    exact fun hm => hx (List.mem_append.2 (Or.inl hm))
  rcases Nat.lt_or_ge (layer.filter (fun x : List Nat × W => decide (x.1 ∉ st.checked ++ [e.1]))).length
      (layer.filter (fun x : List Nat × W => decide (x.1 ∉ st.checked))).length with h | h
  · exact h
  · have heq := hsub.eq_of_length_le h
    have : e ∈ layer.filter (fun x => decide (x.1 ∉ st.checked)) :=
      List.mem_filter.2 ⟨he, by simpa using hf⟩
    rw [← heq, List.mem_filter] at this
    simp at this

/-- What a recursive call must do. -/
def CallSpec (lower layer : List (List Nat × W)) (fuel : Nat)
    (call : List Nat × W → CollapseState → Res CollapseState) : Prop :=
  ∀ e st, e ∈ layer → e.1 ∉ st.checked → unchecked layer st ≤ fuel →
    ∃ st' done, call e st = .ok st' ∧ Handled lower layer st st' done ∧ e ∈ done

theorem collapseShared_spec {lower layer : List (List Nat × W)} {fuel : Nat}
    {call : List Nat × W → CollapseState → Res CollapseState} (hcall : CallSpec lower layer fuel call)
    (simplex : List Nat × W) (face : List Nat) :
    ∀ (l : List (List Nat × W)) (st : CollapseState), (∀ e ∈ l, e ∈ layer) →
      unchecked layer st ≤ fuel →
      ∃ st' done, collapseShared call simplex face l st true = .ok (st', true) ∧
        Handled lower layer st st' done
  | [], st, _, _ => ⟨st, [], rfl, Handled.refl _ _ _⟩
  | s :: rest, st, hl, hu => by
    have hr : ∀ e ∈ rest, e ∈ layer := fun e he => hl e (List.mem_cons_of_mem _ he)
    unfold collapseShared
    by_cases h1 : s ≠ simplex ∧ s.1 ∉ st.checked
    · rw [if_pos h1]
      by_cases h2 : (symmetricDiffV s.1 face true).length = 1
      · rw [if_pos h2]
        obtain ⟨st1, d1, hc, hh, hm⟩ := hcall s st (hl s List.mem_cons_self) h1.2 hu
        rw [hc, ok_bind]
        have : s.1 ∈ st1.removals := by
          rw [hh.removals, List.mem_append]
          exact Or.inr (List.mem_flatMap.2 ⟨s, hm, List.mem_cons_self⟩)
        rw [if_neg (not_not.2 this)]
        obtain ⟨st2, d2, hc2, hh2⟩ := collapseShared_spec hcall simplex face rest st1 hr (hh.le.trans hu)
        exact ⟨st2, d1 ++ d2, hc2, hh.trans hh2⟩
      · rw [if_neg h2]
        exact collapseShared_spec hcall simplex face rest st hr hu
    · rw [if_neg h1]
      exact collapseShared_spec hcall simplex face rest st hr hu

theorem collapseFaces_spec {g : Graph W} {lower layer : List (List Nat × W)} {fuel i : Nat}
    {call : List Nat × W → CollapseState → Res CollapseState} (hcall : CallSpec lower layer fuel call)
    (hlayer : g[i + 1]? = some layer) (hlower : g[i]? = some lower)
    (simplex : List Nat × W) (hlen : simplex.1.length = i + 2) :
    ∀ (faces : List (List Nat)) (st : CollapseState) (m : List Nat),
      (∀ f ∈ faces, f.length = i + 1) → unchecked layer st ≤ fuel →
      ∃ st' done, faces.foldlM (collapseFace call g simplex) ((st, true), m) =
          .ok ((st', true), faces.foldl (fun m f => if weightIn lower f = simplex.2 then f else m) m) ∧
        Handled lower layer st st' done
  | [], st, m, _, _ => ⟨st, [], rfl, Handled.refl _ _ _⟩
  | f :: rest, st, m, hf, hu => by
    rw [List.foldlM_cons, List.foldl_cons]
    obtain ⟨st1, d1, hc, hh⟩ := collapseShared_spec hcall simplex f layer st (fun _ h => h) hu
    have h1 : collapseFace call g simplex ((st, true), m) f =
        .ok ((st1, true), if weightIn lower f = simplex.2 then f else m) := by
      unfold collapseFace
      have e1 : szPred simplex.1.length = i + 1 := by rw [hlen]; rfl
      have e2 : g[szPred f.length]? = some lower := by
        rw [hf f List.mem_cons_self]; exact hlower
      rw [e1, vget_ok.2 hlayer, ok_bind]
      dsimp only
      rw [hc, ok_bind, findWeight_in e2, ok_bind]
      rfl
    rw [h1, ok_bind]
    obtain ⟨st2, d2, hc2, hh2⟩ := collapseFaces_spec hcall hlayer hlower simplex hlen rest st1
      (if weightIn lower f = simplex.2 then f else m) (fun f h => hf f (List.mem_cons_of_mem _ h))
      (hh.le.trans hu)
    exact ⟨st2, d1 ++ d2, hc2, hh.trans hh2⟩

theorem getSubsetsV_len {s f : List Nat} {k : Nat} (hs : s.length = k + 1) (hf : f ∈ getSubsetsV s) :
    f.length = k := by
  unfold getSubsetsV at hf
  rw [List.mem_filter] at hf
  have := hf.2
  rw [decide_eq_true_eq, hs] at this
  rw [this]; rfl

theorem collapseRec_spec {g : Graph W} {lower layer : List (List Nat × W)} {i : Nat}
    (hlayer : g[i + 1]? = some layer) (hlower : g[i]? = some lower)
    (hlen : ∀ e ∈ layer, e.1.length = i + 2) :
    ∀ fuel, CallSpec lower layer fuel (collapseRec g fuel)
  | 0 => by
    intro e st he hf hu
    exact absurd (unchecked_lt he hf) (by omega)
  | fuel + 1 => by
    intro e st he hf hu
    have hlt := unchecked_lt he hf
    obtain ⟨st1, d, hc, hh⟩ := collapseFaces_spec (collapseRec_spec hlayer hlower hlen fuel) hlayer hlower
      e (hlen e he) (getSubsetsV e.1) { st with checked := st.checked ++ [e.1] } []
      (fun f hf => getSubsetsV_len (hlen e he) hf) (by omega)
    refine ⟨{ st1 with removals := st1.removals ++ [e.1, topFace lower e] }, d ++ [e], ?_, ?_, by simp⟩
    · unfold collapseRec
      dsimp only
      rw [hc, ok_bind]
      rfl
    · refine ⟨?_, ?_, ?_, ?_, ?_⟩
      · simp only [List.flatMap_append, List.flatMap_cons, List.flatMap_nil, List.append_nil]
        rw [hh.removals, List.append_assoc]
      · refine hh.checked.trans ?_
        simp only [List.map_append, List.map_cons, List.map_nil, List.append_assoc]
        exact List.Perm.append_left _ List.perm_append_comm
      · intro x hx
        rcases List.mem_append.1 hx with h | h
        · exact hh.mem x h
        · rw [List.mem_singleton.1 h]; exact he
      · intro x hx
        rcases List.mem_append.1 hx with h | h
        · exact fun hm => hh.fresh x h (List.mem_append.2 (Or.inl hm))
        · rw [List.mem_singleton.1 h]; exact hf
      · rw [List.map_append, List.nodup_append']
        refine ⟨hh.nodup, by simp, ?_⟩
        intro x hx hx'
        obtain ⟨y, hy, rfl⟩ := List.mem_map.1 hx
        exact hh.fresh y hy (List.mem_append.2 (Or.inr hx'))

theorem collapseTurns_spec {g : Graph W} {lower layer : List (List Nat × W)} {i fuel : Nat}
    (hlayer : g[i + 1]? = some layer) (hlower : g[i]? = some lower)
    (hlen : ∀ e ∈ layer, e.1.length = i + 2) :
    ∀ (l : List (List Nat × W)) (st : CollapseState), (∀ e ∈ l, e ∈ layer) → unchecked layer st ≤ fuel →
      ∃ st' done, l.foldlM (collapseTurn g fuel) st = .ok st' ∧ Handled lower layer st st' done ∧
        ∀ e ∈ l, e.1 ∈ st'.checked
  | [], st, _, _ => ⟨st, [], rfl, Handled.refl _ _ _, by simp⟩
  | s :: rest, st, hl, hu => by
    have hr : ∀ e ∈ rest, e ∈ layer := fun e he => hl e (List.mem_cons_of_mem _ he)
    have h1 : ∃ st1 d1, collapseTurn g fuel st s = .ok st1 ∧ Handled lower layer st st1 d1 ∧
        s.1 ∈ st1.checked := by
      unfold collapseTurn
      by_cases hc : s.1 ∉ st.checked
      · rw [if_pos hc]
        obtain ⟨st1, d1, h, hh, hm⟩ := collapseRec_spec hlayer hlower hlen fuel s st
          (hl s List.mem_cons_self) hc hu
        exact ⟨st1, d1, h, hh, hh.checked.mem_iff.2
          (List.mem_append.2 (Or.inr (List.mem_map.2 ⟨s, hm, rfl⟩)))⟩
      · rw [if_neg hc]
        exact ⟨st, [], rfl, Handled.refl _ _ _, not_not.1 hc⟩
    obtain ⟨st1, d1, h, hh, hm⟩ := h1
    obtain ⟨st2, d2, h', hh', hm'⟩ := collapseTurns_spec hlayer hlower hlen rest st1 hr (hh.le.trans hu)
    refine ⟨st2, d1 ++ d2, ?_, hh.trans hh', ?_⟩
    · rw [List.foldlM_cons, h, ok_bind, h']
    · intro e he
      rcases List.mem_cons.1 he with rfl | h
      · exact hh'.sub _ hm
      · exact hm' e h

/-- The whole `while` loop over one layer: every simplex is handled exactly once. -/
theorem collapseWhile_spec {g : Graph W} {lower layer : List (List Nat × W)} {i : Nat}
    (hlayer : g[i + 1]? = some layer) (hlower : g[i]? = some lower)
    (hlen : ∀ e ∈ layer, e.1.length = i + 2) (hnd : (layer.map Prod.fst).Nodup) :
    ∃ (st : CollapseState) (done : List (List Nat × W)), collapseWhile g (layer.length + 1) layer (layer.length + 2) ⟨[], []⟩ = .ok st ∧
      done.Perm layer ∧ st.removals = done.flatMap (fun e => [e.1, topFace lower e]) := by
  obtain ⟨st, done, h, hh, hm⟩ := collapseTurns_spec (fuel := layer.length + 1) hlayer hlower hlen layer
    ⟨[], []⟩ (fun _ h => h) (by unfold unchecked; exact (List.length_filter_le _ _).trans (by omega))
  have hperm : done.Perm layer := by
    refine (List.perm_ext_iff_of_nodup hh.nodup.of_map hnd.of_map).2 fun e => ⟨hh.mem e, fun he => ?_⟩
    have := hh.checked.mem_iff.1 (hm e he)
    simp only [List.nil_append, List.mem_map] at this
    obtain ⟨x, hx, hxe⟩ := this
    rw [← List.inj_on_of_nodup_map hnd (hh.mem x hx) he hxe]
    exact hx
  refine ⟨st, done, ?_, hperm, by simpa using hh.removals⟩
  have hl : st.checked.length = layer.length := by
    rw [hh.checked.length_eq]; simp [hperm.length_eq]
  by_cases h0 : layer = []
  · subst h0
    rw [List.foldlM_nil, pure_eq_ok] at h
    cases h
    rfl
  · have hne : ([] : List (List Nat)).length ≠ layer.length := by
      have := List.length_pos_of_ne_nil h0
      simp only [List.length_nil]; omega
    unfold collapseWhile
    rw [if_pos hne, h, ok_bind]
    unfold collapseWhile
    rw [if_neg (not_not.2 hl)]
    rfl

end Rec

section Delete
variable {W : Type} [DecidableEq W]

/-- Every layer keeps vectors of one length, each at most once. -/
def Shaped (g : Graph W) : Prop :=
  ∀ k layer, g[k]? = some layer → (∀ e ∈ layer, e.1.length = k + 1) ∧ (layer.map Prod.fst).Nodup

/-- The graph without the simplices of `rems`. -/
def without (g : Graph W) (rems : List (List Nat)) : Graph W :=
  g.map (fun layer => layer.filter (fun e => decide (e.1 ∉ rems)))

theorem Shaped.without {g : Graph W} (h : Shaped g) (rems : List (List Nat)) :
    Shaped (without g rems) := by
  intro k layer hk
  unfold LHF.without at hk
  rw [List.getElem?_map, Option.map_eq_some_iff] at hk
  obtain ⟨l, hl, rfl⟩ := hk
  obtain ⟨h1, h2⟩ := h k l hl
  exact ⟨fun e he => h1 e (List.mem_filter.1 he).1, h2.sublist (List.filter_sublist.map _)⟩

theorem eraseP_filter {l : List (List Nat × W)} (h : (l.map Prod.fst).Nodup) (v : List Nat) :
    l.eraseP (fun e => e.1 = v) = l.filter (fun e => decide (e.1 ∉ [v])) := by
  induction l with
  | nil => rfl
  | cons a l ih =>
    rw [List.map_cons, List.nodup_cons] at h
    by_cases ha : a.1 = v
    · rw [List.eraseP_cons_of_pos (by simpa using ha), List.filter_cons_of_neg (by simp [ha])]
      symm
      rw [List.filter_eq_self]
      intro e he
      have : e.1 ≠ v := fun hv => h.1 (by rw [ha, ← hv]; exact List.mem_map.2 ⟨e, he, rfl⟩)
      simpa using this
    · rw [List.eraseP_cons_of_neg (by simpa using ha), List.filter_cons_of_pos (by simp [ha]), ih h.2]

theorem arrayDeletion_spec {g : Graph W} (hg : Shaped g) {v : List Nat} (h0 : v ≠ [])
    (hlen : v.length ≤ g.length) :
    ∃ b, arrayDeletion g v = .ok (without g [v], b) := by
  have hp : 0 < v.length := List.length_pos_of_ne_nil h0
  have hlt : v.length - 1 < g.length := by omega
  have hget : g[v.length - 1]? = some g[v.length - 1] := List.getElem?_eq_getElem hlt
  have hother : ∀ k layer, g[k]? = some layer → k ≠ v.length - 1 →
      layer.filter (fun e => decide (e.1 ∉ [v])) = layer := by
    intro k layer hk hne
    rw [List.filter_eq_self]
    intro e he
    have := (hg k layer hk).1 e he
    rw [decide_eq_true_eq, List.mem_singleton]
    rintro rfl
    omega
  unfold arrayDeletion
  rw [szPred_pos hp, vget_ok.2 hget, ok_bind]
  by_cases hany : (g[v.length - 1]).any (fun e => e.1 = v) = true
  · refine ⟨true, ?_⟩
    rw [if_pos hany]
    unfold vmodify
    rw [if_pos hlt, ok_bind]
    have : g.modify (v.length - 1) (fun l => l.eraseP (fun e => e.1 = v)) = without g [v] := by
      apply List.ext_getElem?
      intro k
      unfold without
      rw [List.getElem?_modify, List.getElem?_map]
      cases hk : g[k]? with
      | none => rfl
      | some layer =>
        rw [Option.map_eq_map, Option.map_some, Option.map_some]
        by_cases hkv : v.length - 1 = k
        · rw [if_pos hkv]
          exact congrArg some (eraseP_filter (hg k layer hk).2 v)
        · rw [if_neg hkv]
          exact congrArg some (hother k layer hk (Ne.symm hkv)).symm
    rw [this]; rfl
  · refine ⟨false, ?_⟩
    rw [if_neg hany]
    have : without g [v] = g := by
      unfold without
      apply List.ext_getElem?
      intro k
      rw [List.getElem?_map]
      cases hk : g[k]? with
      | none => rfl
      | some layer =>
        by_cases hkv : k = v.length - 1
        · subst hkv
          rw [hget] at hk
          cases hk
          refine congrArg some ?_
          rw [List.filter_eq_self]
          intro e he
          rw [decide_eq_true_eq, List.mem_singleton]
          intro hv
          exact hany (List.any_eq_true.2 ⟨e, he, by simpa using hv⟩)
        · exact congrArg some (hother k layer hk hkv)
    rw [this]; rfl

theorem deletions_spec : ∀ (rems : List (List Nat)) (g : Graph W), Shaped g →
    (∀ v ∈ rems, v ≠ [] ∧ v.length ≤ g.length) →
    rems.foldlM (fun g rem => do
      let r ← arrayDeletion g rem
      pure r.1) g = (.ok (without g rems) : Res (Graph W))
  | [], g, _, _ => by
    have : without g [] = g := by
      unfold without
      simp
    rw [this]; rfl
  | v :: rest, g, hg, hv => by
    obtain ⟨b, hb⟩ := arrayDeletion_spec hg (hv v List.mem_cons_self).1 (hv v List.mem_cons_self).2
    rw [List.foldlM_cons, hb, ok_bind]
    dsimp only
    rw [pure_eq_ok, ok_bind, deletions_spec rest _ (hg.without [v])]
    · congr 1
      unfold without
      rw [List.map_map]
      apply List.map_congr_left
      intro layer _
      simp only [Function.comp, List.filter_filter]
      apply List.filter_congr
      intro e _
      by_cases h1 : e.1 = v <;> by_cases h2 : e.1 ∈ rest <;> simp [h1, h2]
    · intro w hw
      refine ⟨(hv w (List.mem_cons_of_mem _ hw)).1, ?_⟩
      unfold without
      rw [List.length_map]
      exact (hv w (List.mem_cons_of_mem _ hw)).2

end Delete

section Main
variable {W : Type} [LinearOrder W] [Ring W] [IsStrictOrderedRing W]

theorem foldl_last_min {α : Type} (p : α → Prop) [DecidablePred p] (φ : Nat → α) :
    ∀ (n : Nat) (m : α),
      ((∃ j, j < n ∧ p (φ j)) → ∃ k, k < n ∧
        ((List.range n).reverse.map φ).foldl (fun m f => if p f then f else m) m = φ k ∧ p (φ k) ∧
        ∀ j, j < k → ¬ p (φ j)) ∧
      ((∀ j, j < n → ¬ p (φ j)) →
        ((List.range n).reverse.map φ).foldl (fun m f => if p f then f else m) m = m)
  | 0, m => ⟨by rintro ⟨j, h, _⟩; omega, fun _ => rfl⟩
  | n + 1, m => by
    have e : ((List.range (n + 1)).reverse.map φ).foldl (fun m f => if p f then f else m) m =
        ((List.range n).reverse.map φ).foldl (fun m f => if p f then f else m)
          (if p (φ n) then φ n else m) := by
      rw [List.range_succ, List.reverse_append]
      rfl
    obtain ⟨h1, h2⟩ := foldl_last_min p φ n (if p (φ n) then φ n else m)
    rw [e]
    constructor
    · rintro ⟨j, hj, hp⟩
      by_cases hex : ∃ j, j < n ∧ p (φ j)
      · obtain ⟨k, hk, h3, h4⟩ := h1 hex
        exact ⟨k, by omega, h3, h4⟩
      · have hno : ∀ j, j < n → ¬ p (φ j) := fun j hj hp => hex ⟨j, hj, hp⟩
        have hjn : j = n := by
          by_contra hne
          exact hno j (by omega) hp
        subst hjn
        exact ⟨j, by omega, by rw [h2 hno, if_pos hp], hp, hno⟩
    · intro hno
      rw [h2 (fun j hj => hno j (by omega)), if_neg (hno n (by omega))]

theorem weightIn_iff {lower : List (List Nat × W)} (hnd : (lower.map Prod.fst).Nodup) {f : List Nat}
    {w : W} (hw : 0 ≤ w) : weightIn lower f = w ↔ (f, w) ∈ lower := by
  unfold weightIn
  cases hf : lower.find? (fun e => e.1 = f) with
  | none =>
    have h1 : ∀ x ∈ lower, x.1 ≠ f := by simpa using List.find?_eq_none.1 hf
    constructor
    · intro h
      have : (-1 : W) < 0 := by simp
      dsimp only at h
      exact absurd hw (not_le.2 (h ▸ this))
    · intro h
      exact absurd rfl (h1 _ h)
  | some e =>
    have hm := List.mem_of_find?_eq_some hf
    have he : e.1 = f := by simpa using List.find?_some hf
    dsimp only
    constructor
    · intro h
      have : (f, w) = e := Prod.ext he.symm h.symm
      rw [this]; exact hm
    · intro h
      have : e = (f, w) := List.inj_on_of_nodup_map hnd hm h he
      rw [this]

theorem chosen_iff {lower : List (List Nat × W)} (hnd : (lower.map Prod.fst).Nodup)
    {e : List Nat × W} (h0 : e.1 ≠ []) (hw : 0 ≤ e.2)
    (hex : ∃ j, j < e.1.length ∧ (e.1.eraseIdx j, e.2) ∈ lower) (f : List Nat) :
    Chosen lower e f ↔ f = topFace lower e := by
  obtain ⟨k, hk, h1, h2, h3⟩ := (foldl_last_min (fun f => weightIn lower f = e.2)
    (fun k => e.1.eraseIdx k) e.1.length []).1 (by
      obtain ⟨j, hj, hm⟩ := hex
      exact ⟨j, hj, (weightIn_iff hnd hw).2 hm⟩)
  have ht : topFace lower e = e.1.eraseIdx k := by
    unfold topFace
    rw [getSubsetsV_order e.1 h0]
    exact h1
  constructor
  · rintro ⟨k', hk', hf, hm, hmin⟩
    have : k' = k := by
      rcases Nat.lt_trichotomy k' k with h | h | h
      · exact absurd ((weightIn_iff hnd hw).2 (hf ▸ hm)) (h3 k' h)
      · exact h
      · exact absurd ((weightIn_iff hnd hw).1 h2) (hmin k h)
    rw [hf, this, ht]
  · intro hf
    refine ⟨k, hk, hf.trans ht, ?_, ?_⟩
    · rw [hf, ht]; exact (weightIn_iff hnd hw).1 h2
    · exact fun j hj hm => h3 j hj ((weightIn_iff hnd hw).2 hm)

/-- The reduction of layer `i + 1`. -/
theorem collapseDim_spec {g : Graph W} (hg : Shaped g) {i : Nat} {lower layer : List (List Nat × W)}
    (hlower : g[i]? = some lower) (hlayer : g[i + 1]? = some layer)
    (hheavy : ∀ e ∈ layer, 0 ≤ e.2 ∧ ∃ j, j < e.1.length ∧ (e.1.eraseIdx j, e.2) ∈ lower) :
    ∃ rems, collapseDim (i + 1) g = .ok (without g rems) ∧
      ∀ v, v ∈ rems ↔ ∃ e ∈ layer, v = e.1 ∨ Chosen lower e v := by
  have hlen := (hg _ _ hlayer).1
  obtain ⟨st, done, hw, hperm, hrem⟩ := collapseWhile_spec hlayer hlower hlen (hg _ _ hlayer).2
  have hch : ∀ e ∈ layer, ∀ f, Chosen lower e f ↔ f = topFace lower e := by
    intro e he f
    exact chosen_iff (hg _ _ hlower).2 (fun h => by have := hlen e he; rw [h] at this; simp at this)
      (hheavy e he).1 (hheavy e he).2 f
  have hmem : ∀ v, v ∈ st.removals ↔ ∃ e ∈ layer, v = e.1 ∨ Chosen lower e v := by
    intro v
    rw [hrem, List.mem_flatMap]
    constructor
    · rintro ⟨e, he, hv⟩
      have he' := hperm.mem_iff.1 he
      refine ⟨e, he', ?_⟩
      rcases List.mem_cons.1 hv with h | h
      · exact Or.inl h
      · exact Or.inr ((hch e he' v).2 (List.mem_singleton.1 h))
    · rintro ⟨e, he, h⟩
      refine ⟨e, hperm.mem_iff.2 he, ?_⟩
      rcases h with h | h
      · rw [h]; exact List.mem_cons_self
      · rw [(hch e he v).1 h]; exact List.mem_cons_of_mem _ (List.mem_singleton.2 rfl)
  refine ⟨st.removals, ?_, hmem⟩
  unfold collapseDim
  rw [vget_ok.2 hlayer, ok_bind, hw, ok_bind]
  refine deletions_spec _ g hg ?_
  intro v hv
  have hgl : i + 1 < g.length := (List.getElem?_eq_some_iff.1 hlayer).1
  obtain ⟨e, he, h | h⟩ := (hmem v).1 hv
  · have := hlen e he
    rw [← h] at this
    exact ⟨fun h0 => by rw [h0] at this; simp at this, by omega⟩
  · obtain ⟨k, _, _, hm, _⟩ := h
    have := (hg _ _ hlower).1 _ hm
    dsimp only at this
    exact ⟨fun h0 => by rw [h0] at this; simp at this, by omega⟩

/-- The complex after the layers above `k` were reduced. -/
noncomputable def collapseAt (g : Graph W) (k : Nat) : Graph W := g.take k ++ keepLowest (g.drop k)

omit [LinearOrder W] [Ring W] [IsStrictOrderedRing W] in
theorem remaining_head (layer : List (List Nat × W)) (upper : List (List (List Nat × W))) :
    ∃ l, remaining (layer :: upper) = l :: remaining upper ∧
      (∀ f, f ∈ l ↔ f ∈ layer ∧ ¬ ∃ e ∈ (remaining upper).headD [], Chosen layer e f.1) ∧
      l.Sublist layer := by
  refine ⟨_, rfl, ?_, List.filter_sublist⟩
  intro f
  simp

omit [LinearOrder W] [Ring W] [IsStrictOrderedRing W] in
theorem remaining_sub : ∀ g : Graph W, List.Forall₂ List.Sublist (remaining g) g
  | [] => List.Forall₂.nil
  | layer :: upper => by
    obtain ⟨l, h1, _, h2⟩ := remaining_head layer upper
    rw [h1]
    exact List.Forall₂.cons h2 (remaining_sub upper)

omit [LinearOrder W] [Ring W] [IsStrictOrderedRing W] in
theorem keepLowest_sub (g : Graph W) : List.Forall₂ List.Sublist (keepLowest g) g := by
  have h := remaining_sub g
  unfold keepLowest
  cases hr : remaining g with
  | nil => rw [hr] at h; exact h
  | cons l up =>
    rw [hr] at h
    cases h with
    | cons h1 h2 =>
      refine List.Forall₂.cons h1 ?_
      rw [List.forall₂_map_left_iff]
      exact h2.imp (fun _ _ _ => List.nil_sublist _)

theorem collapseAt_sub (g : Graph W) (k : Nat) :
    List.Forall₂ List.Sublist (collapseAt g k) g := by
  unfold collapseAt
  have h1 : List.Forall₂ List.Sublist (g.take k) (g.take k) :=
    List.forall₂_same.2 (fun _ _ => List.Sublist.refl _)
  have := List.rel_append h1 (keepLowest_sub (g.drop k))
  dsimp only at this
  rwa [List.take_append_drop] at this

omit [LinearOrder W] [Ring W] [IsStrictOrderedRing W] in
theorem shaped_sub {g g' : Graph W} (hg : Shaped g) (h : List.Forall₂ List.Sublist g' g) :
    Shaped g' := by
  intro k layer hk
  obtain ⟨hlt, hget⟩ := List.getElem?_eq_some_iff.1 hk
  have hlt' : k < g.length := h.length_eq ▸ hlt
  have hs := h.get hlt hlt'
  simp only [List.get_eq_getElem] at hs
  rw [hget] at hs
  obtain ⟨h1, h2⟩ := hg k _ (List.getElem?_eq_getElem hlt')
  exact ⟨fun e he => h1 e (hs.subset he), h2.sublist (hs.map _)⟩

omit [IsStrictOrderedRing W] in
theorem Spec.Collapsible.shaped {g : Graph W} (hg : Collapsible g) : Shaped g :=
  fun k layer hk => ⟨fun e he => (hg.shape k layer hk e he).2, hg.once layer (List.mem_of_getElem? hk)⟩

theorem collapseAt_step {g : Graph W} (hg : Collapsible g) {k : Nat} (hk : k + 2 < g.length) :
    collapseDim (k + 2) (collapseAt g (k + 2)) = .ok (collapseAt g (k + 1)) := by
  have hk1 : k + 1 < g.length := by omega
  have hd2 : g.drop (k + 2) = g[k + 2] :: g.drop (k + 3) := List.drop_eq_getElem_cons hk
  have hd1 : g.drop (k + 1) = g[k + 1] :: g.drop (k + 2) := List.drop_eq_getElem_cons hk1
  have ht : g.take (k + 2) = g.take (k + 1) ++ [g[k + 1]] := by
    rw [List.take_succ_eq_append_getElem hk1]
  obtain ⟨l, hl, hlm, hls⟩ := remaining_head g[k + 2] (g.drop (k + 3))
  have hG2 : collapseAt g (k + 2) =
      g.take (k + 1) ++ g[k + 1] :: l :: (remaining (g.drop (k + 3))).map (fun _ => []) := by
    unfold collapseAt keepLowest
    rw [hd2, hl, ht, List.append_assoc]
    rfl
  have hG1 : collapseAt g (k + 1) = g.take (k + 1) ++
      (open Classical in g[k + 1].filter (fun f => decide (¬ ∃ e ∈ l, Chosen g[k + 1] e f.1))) :: [] ::
        (remaining (g.drop (k + 3))).map (fun _ => []) := by
    unfold collapseAt keepLowest
    rw [hd1, remaining, hd2, hl]
    rfl
  have hsh : Shaped (collapseAt g (k + 2)) := shaped_sub hg.shaped (collapseAt_sub g (k + 2))
  have hlt : (g.take (k + 1)).length = k + 1 := by rw [List.length_take]; omega
  have hlow : (collapseAt g (k + 2))[k + 1]? = some g[k + 1] := by
    rw [hG2, List.getElem?_append_right (by omega), hlt, Nat.sub_self]
    rfl
  have hlay : (collapseAt g (k + 2))[k + 1 + 1]? = some l := by
    rw [hG2, List.getElem?_append_right (by omega), hlt]
    have : k + 1 + 1 - (k + 1) = 1 := by omega
    rw [this]
    rfl
  obtain ⟨rems, hr, hm⟩ := collapseDim_spec hsh hlow hlay (by
    intro e he
    have he' := hls.subset he
    exact ⟨hg.nonneg _ (List.getElem_mem hk) e he',
      hg.heavy k _ _ (List.getElem?_eq_getElem hk1) (List.getElem?_eq_getElem hk) e he'⟩)
  rw [hr]
  congr 1
  have hlen1 : ∀ v ∈ rems, v.length = k + 2 ∨ v.length = k + 3 := by
    intro v hv
    obtain ⟨e, he, h | h⟩ := (hm v).1 hv
    · exact Or.inr (by rw [h]; exact (hsh _ _ hlay).1 e he)
    · obtain ⟨j, _, _, hmem, _⟩ := h
      exact Or.inl ((hsh _ _ hlow).1 _ hmem)
  rw [hG1]
  unfold without
  rw [hG2, List.map_append, List.map_cons, List.map_cons, List.map_map]
  congr 1
  · conv_rhs => rw [← List.map_id (g.take (k + 1))]
    apply List.map_congr_left
    intro layer hlayer
    rw [id, List.filter_eq_self]
    intro e he
    rw [decide_eq_true_eq]
    intro hv
    obtain ⟨j, hj, hjl⟩ := List.getElem_of_mem hlayer
    rw [List.getElem_take] at hjl
    have hj1 : j < g.length := by omega
    have := (hg.shaped j layer (by rw [← hjl]; exact List.getElem?_eq_getElem hj1)).1 e he
    rcases hlen1 _ hv with h | h <;> omega
  · congr 1
    · apply List.filter_congr
      intro f hf
      rw [decide_eq_decide, hm]
      have hfl := (hsh _ _ hlow).1 f hf
      constructor
      · rintro h ⟨e, he, hc⟩
        exact h ⟨e, he, Or.inr hc⟩
      · rintro h ⟨e, he, hc | hc⟩
        · have := (hsh _ _ hlay).1 e he
          rw [← hc] at this
          omega
        · exact h ⟨e, he, hc⟩
    · congr 1
      rw [List.filter_eq_nil_iff]
      intro e he
      rw [decide_eq_true_eq, not_not]
      exact (hm _).2 ⟨e, he, Or.inl rfl⟩

theorem collapseLoop_at {g : Graph W} (hg : Collapsible g) :
    ∀ k, k + 1 < g.length → collapseLoop (k + 1) (collapseAt g (k + 1)) = .ok (collapseAt g 1)
  | 0, _ => rfl
  | k + 1, hk => by
    rw [collapseLoop, collapseAt_step hg hk, ok_bind]
    exact collapseLoop_at hg k (by omega)

theorem reduceComplex_eq {g : Graph W} (hg : Collapsible g) :
    arrayReduceComplex g = .ok (collapsed g) := by
  unfold arrayReduceComplex
  by_cases h0 : g.length = 0
  · rw [if_pos h0, List.length_eq_zero_iff.1 h0]
    rfl
  · rw [if_neg h0]
    by_cases h1 : g.length = 1
    · obtain ⟨a, rfl⟩ := List.length_eq_one_iff.1 h1
      rfl
    · obtain ⟨k, hk⟩ : ∃ k, g.length = k + 2 := ⟨g.length - 2, by omega⟩
      have hstart : collapseAt g (k + 1) = g := by
        have hlt : k + 1 < g.length := by omega
        have hd : g.drop (k + 1) = [g[k + 1]] := by
          rw [List.drop_eq_getElem_cons hlt, List.drop_eq_nil_of_le (by omega)]
        have : keepLowest (g.drop (k + 1)) = g.drop (k + 1) := by
          rw [hd]
          simp [keepLowest, remaining]
        unfold collapseAt
        rw [this, List.take_append_drop]
      have := collapseLoop_at hg k (by omega)
      rw [hstart] at this
      rw [hk]
      exact this

end Main

end LHF
