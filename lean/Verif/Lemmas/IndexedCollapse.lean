import Verif.Model.IndexedCollapse
import Verif.Lemmas.Subsets
import Verif.Lemmas.Res

/-! The reduction of an indexed tree: it ends, and what it erases. -/

namespace LHF

section
variable {W : Type}

theorem getSubsetsDim_mem {s : List Nat} (hs : Inc s) {d : Nat} {z : List Nat} :
    z ∈ getSubsetsDim s d ↔ z.Sublist s ∧ z.length = d := by
  rw [getSubsetsDim, allSubsetsS_eq hs, List.mem_filter, List.mem_sublists]
  simp

theorem getSubsetsDim_ne {s : List Nat} (hs : Inc s) {d : Nat} (hl : s.length = d + 1) :
    getSubsetsDim s d ≠ [] := by
  apply List.ne_nil_of_mem (a := s.tail)
  rw [getSubsetsDim_mem hs]
  exact ⟨List.tail_sublist s, by simp [hl]⟩

theorem iSharedWith_mem {layer : List (IEntry W)} {st : IReduceState} {s f : List Nat}
    (h : iSharedWith layer st s = some f) :
    (∃ e ∈ layer, e.1.2 = f) ∧ f ∉ st.removals ∧ f ∉ st.processed := by
  unfold iSharedWith at h
  obtain ⟨e, h1, rfl⟩ := Option.map_eq_some_iff.1 h
  have h2 := List.find?_some h1
  simp only [decide_eq_true_eq] at h2
  exact ⟨⟨e, List.mem_of_find?_eq_some h1, rfl⟩, h2.1, h2.2.1⟩

theorem iLocal_mem {layer : List (IEntry W)} {st : IReduceState} {subsets : List (List Nat)}
    {x : List Nat × List Nat} (h : x ∈ iLocal layer st subsets) :
    x.1 ∈ subsets ∧ (∃ e ∈ layer, e.1.2 = x.2) ∧ x.2 ∉ st.removals ∧ x.2 ∉ st.processed := by
  unfold iLocal at h
  obtain ⟨s, h1, h2⟩ := List.mem_filterMap.1 h
  obtain ⟨f, h3, rfl⟩ := Option.map_eq_some_iff.1 h2
  exact ⟨h1, iSharedWith_mem h3⟩

theorem iLocal_all {layer : List (IEntry W)} {st : IReduceState} {subsets : List (List Nat)}
    (h : ∀ z ∈ subsets, (iSharedWith layer st z).isSome) : (iLocal layer st subsets).length = subsets.length := by
  unfold iLocal
  induction subsets with
  | nil => rfl
  | cons z zs ihz =>
    obtain ⟨f, hf⟩ := Option.isSome_iff_exists.1 (h z (by simp))
    rw [List.filterMap_cons_some (b := (z, f)) (by rw [hf]; rfl), List.length_cons, List.length_cons, ihz]
    intro y hy
    exact h y (by simp [hy])

/-- The sets of layer `d` have `d + 1` elements. -/
def WellSized (dims : List (List (IEntry W))) : Prop :=
  ∀ d layer, dims[d]? = some layer → ∀ e ∈ layer, Inc e.1.2 ∧ e.1.2.length = d + 1

variable [LinearOrder W]

theorem getWeight_ok {big : W} {dims : List (List (IEntry W))} (hp : ∃ p ps, dims[0]? = some (p :: ps))
    {z : List Nat} (hz : szPred z.length < dims.length) : ∃ w, ITree.getWeight big dims z = .ok w := by
  obtain ⟨p, ps, hp⟩ := hp
  unfold ITree.getWeight
  rw [vget_ok.2 hp, ok_bind, vget_ok.2 (by simp : (p :: ps)[0]? = some p), ok_bind, vget_of_lt hz, ok_bind]
  cases List.find? (fun a => decide (z = a.1.2)) dims[szPred z.length] with
  | none => exact ⟨_, rfl⟩
  | some a => exact ⟨_, rfl⟩

theorem iChoose_ok {big : W} {dims : List (List (IEntry W))} {d : Nat} (hp : ∃ p ps, dims[0]? = some (p :: ps))
    (hd : 1 ≤ d) (hdl : d < dims.length) : ∀ (zs : List (List Nat)) (s : Option W × List Nat),
    (∀ z ∈ zs, z.length = d) → (s.1 = none → s.2 = []) →
    ∃ c, zs.foldlM (iChoose big dims) s = .ok c ∧ (c.2 = s.2 ∨ c.2 ∈ zs) ∧ (s.1 = none → zs ≠ [] → c.2 ∈ zs) := by
  intro zs
  induction zs with
  | nil => exact fun s _ _ => ⟨s, rfl, .inl rfl, fun _ h => absurd rfl h⟩
  | cons z zs ih =>
    intro s hz hs
    obtain ⟨w, hw⟩ := getWeight_ok (big := big) hp (z := z) (by
      rw [hz z (by simp), szPred_pos hd]; omega)
    rw [List.foldlM_cons]
    unfold iChoose
    rw [hw]
    obtain ⟨m, non⟩ := s
    cases m with
    | none =>
      obtain ⟨c, h1, h2, -⟩ := ih (some w, z) (fun y hy => hz y (by simp [hy])) (fun h => by cases h)
      refine ⟨c, h1, ?_, fun _ _ => ?_⟩
      · rcases h2 with h2 | h2
        · right; rw [h2]; simp
        · right; simp [h2]
      · rcases h2 with h2 | h2
        · rw [h2]; simp
        · simp [h2]
    | some m =>
      by_cases hgt : w > m
      · obtain ⟨c, h1, h2, -⟩ := ih (some m, z) (fun y hy => hz y (by simp [hy])) (fun h => by cases h)
        refine ⟨c, ?_, ?_, fun h => by cases h⟩
        · show ((if w > m then pure (some m, z) else pure (some w, non) : Res (Option W × List Nat)) >>= _) = _
          rw [if_pos hgt]; exact h1
        · rcases h2 with h2 | h2
          · right; rw [h2]; simp
          · right; simp [h2]
      · obtain ⟨c, h1, h2, -⟩ := ih (some w, non) (fun y hy => hz y (by simp [hy])) (fun h => by cases h)
        refine ⟨c, ?_, ?_, fun h => by cases h⟩
        · show ((if w > m then pure (some m, z) else pure (some w, non) : Res (Option W × List Nat)) >>= _) = _
          rw [if_neg hgt]; exact h1
        · rcases h2 with h2 | h2
          · exact .inl h2
          · right; simp [h2]

/-- How the lists grow in a call for a simplex of the layer. -/
structure Visited (sets : List (List Nat)) (d : Nat) (st st' : IReduceState) : Prop where
  processed : ∃ p, st'.processed = st.processed ++ p ∧ ∀ x ∈ p, x ∈ sets
  removals : ∃ q, st'.removals = st.removals ++ q ∧
    ∀ x ∈ q, x ∈ sets ∨ (Inc x ∧ x.length = d ∧ ∃ s ∈ sets, x.Sublist s)

theorem Visited.refl (sets : List (List Nat)) (d : Nat) (st : IReduceState) : Visited sets d st st :=
  ⟨⟨[], by simp, by simp⟩, ⟨[], by simp, by simp⟩⟩

theorem Visited.trans {sets : List (List Nat)} {d : Nat} {st st' st'' : IReduceState}
    (h : Visited sets d st st') (h' : Visited sets d st' st'') : Visited sets d st st'' := by
  obtain ⟨⟨p, p1, p2⟩, ⟨q, q1, q2⟩⟩ := h
  obtain ⟨⟨p', p1', p2'⟩, ⟨q', q1', q2'⟩⟩ := h'
  refine ⟨⟨p ++ p', by rw [p1', p1, List.append_assoc], ?_⟩, ⟨q ++ q', by rw [q1', q1, List.append_assoc], ?_⟩⟩
  · intro x hx
    rcases List.mem_append.1 hx with h | h
    · exact p2 x h
    · exact p2' x h
  · intro x hx
    rcases List.mem_append.1 hx with h | h
    · exact q2 x h
    · exact q2' x h

/-- The number of simplices of the layer that have not been processed. -/
def openCount (sets : List (List Nat)) (processed : List (List Nat)) : Nat :=
  (sets.filter (fun s => s ∉ processed)).length

theorem openCount_mono {sets p p' : List (List Nat)} (h : ∀ x ∈ p, x ∈ p') : openCount sets p' ≤ openCount sets p := by
  unfold openCount
  rw [← List.countP_eq_length_filter, ← List.countP_eq_length_filter]
  apply List.countP_mono_left
  intro x _ hx
  simp only [decide_eq_true_eq] at hx ⊢
  exact fun hp => hx (h x hp)

theorem openCount_lt {sets p p' : List (List Nat)} (h : ∀ x ∈ p, x ∈ p') {x : List Nat} (hx : x ∈ sets)
    (hp : x ∉ p) (hp' : x ∈ p') : openCount sets p' < openCount sets p := by
  have h1 : openCount sets p' ≤ openCount sets (x :: p) := openCount_mono (by
    intro y hy
    rcases List.mem_cons.1 hy with rfl | hy
    · exact hp'
    · exact h y hy)
  refine lt_of_le_of_lt h1 ?_
  unfold openCount
  have : sets.filter (fun s => decide (s ∉ x :: p)) =
      (sets.filter (fun s => decide (s ∉ p))).filter (fun s => decide (s ≠ x)) := by
    rw [List.filter_filter]
    apply List.filter_congr
    intro y _
    simp [List.mem_cons]
  rw [this]
  apply List.length_filter_lt_length_iff_exists.2
  exact ⟨x, List.mem_filter.2 ⟨hx, by simpa using hp⟩, by simp⟩

/-- The recursion ends without undefined behaviour, and removes at least one simplex of the layer. -/
theorem iRecurse_ok {big : W} {dims : List (List (IEntry W))} {d : Nat} {layer : List (IEntry W)}
    (hp : ∃ p ps, dims[0]? = some (p :: ps)) (hd : 1 ≤ d) (hl : dims[d]? = some layer)
    (hw : ∀ e ∈ layer, Inc e.1.2 ∧ e.1.2.length = d + 1) :
    ∀ (fuel : Nat) (cur : List Nat) (st : IReduceState), (∃ e ∈ layer, e.1.2 = cur) →
    openCount (layer.map (·.1.2)) (st.processed ++ [cur]) < fuel →
    ∃ st', iRecurseReduce big dims d fuel cur st = .ok st' ∧ Visited (layer.map (·.1.2)) d st st' ∧
      cur ∈ st'.processed ∧
      ∃ x ∈ layer.map (·.1.2), ∃ q, st'.removals = st.removals ++ q ∧ x ∈ q := by
  have hdl : d < dims.length := (List.getElem?_eq_some_iff.1 hl).1
  intro fuel
  induction fuel with
  | zero => exact fun cur st _ h => absurd h (by omega)
  | succ fuel ih =>
    intro cur st hcur hfuel
    have hcm : cur ∈ layer.map (·.1.2) := by
      obtain ⟨e, he, rfl⟩ := hcur
      exact List.mem_map.2 ⟨e, he, rfl⟩
    have hcw : Inc cur ∧ cur.length = d + 1 := by
      obtain ⟨e, he, rfl⟩ := hcur
      exact hw e he
    obtain ⟨hinc, hlen⟩ := hcw
    unfold iRecurseReduce
    rw [vget_ok.2 hl, ok_bind]
    dsimp only
    set st1 : IReduceState := { st with processed := st.processed ++ [cur] } with hst1
    have hv1 : Visited (layer.map (·.1.2)) d st st1 :=
      ⟨⟨[cur], rfl, by simpa using hcm⟩, ⟨[], by simp [hst1], by simp⟩⟩
    have hc1 : cur ∈ st1.processed := by simp [hst1]
    have hsub := @getSubsetsDim_mem cur hinc d
    set subsets := getSubsetsDim cur d with hsubs
    have hne : subsets ≠ [] := getSubsetsDim_ne hinc hlen
    set loc := iLocal layer st1 subsets with hloc
    have hlocm : ∀ x ∈ loc, x.1 ∈ subsets ∧ (∃ e ∈ layer, e.1.2 = x.2) ∧ x.2 ∉ st1.removals ∧ x.2 ∉ st1.processed :=
      fun x hx => iLocal_mem hx
    by_cases hall : loc.length = subsets.length
    · rw [if_pos hall]
      -- one visit, in any state that has processed what `st1` has
      have step : ∀ (s : Bool × IReduceState) (f : List Nat × List Nat), f ∈ loc →
          (∀ x ∈ st1.processed, x ∈ s.2.processed) →
          ∃ s', iVisit (iRecurseReduce big dims d fuel) s f = .ok s' ∧ Visited (layer.map (·.1.2)) d s.2 s'.2 ∧
            f.2 ∈ s'.2.processed ∧ ∃ x ∈ layer.map (·.1.2), ∃ q, s'.2.removals = s.2.removals ++ q ∧ x ∈ q := by
        intro s f hf hs
        obtain ⟨-, hfl, -, hfp⟩ := hlocm f hf
        have hlt : openCount (layer.map (·.1.2)) (s.2.processed ++ [f.2]) < fuel := by
          have : openCount (layer.map (·.1.2)) (s.2.processed ++ [f.2]) <
              openCount (layer.map (·.1.2)) st1.processed := by
            obtain ⟨e, he, hef⟩ := hfl
            exact openCount_lt (fun x hx => List.mem_append_left _ (hs x hx))
              (List.mem_map.2 ⟨e, he, hef⟩) hfp (by simp)
          have h2 : openCount (layer.map (·.1.2)) st1.processed < fuel + 1 := hfuel
          omega
        obtain ⟨a, h1, h2, h3, h4⟩ := ih f.2 s.2 hfl hlt
        refine ⟨(s.1 || decide (a.removals.length > s.2.removals.length), a), ?_, h2, h3, h4⟩
        unfold iVisit
        rw [h1]; rfl
      have loop : ∀ (l : List (List Nat × List Nat)) (s : Bool × IReduceState), (∀ f ∈ l, f ∈ loc) →
          (∀ x ∈ st1.processed, x ∈ s.2.processed) →
          ∃ s', l.foldlM (iVisit (iRecurseReduce big dims d fuel)) s = .ok s' ∧
            Visited (layer.map (·.1.2)) d s.2 s'.2 := by
        intro l
        induction l with
        | nil => exact fun s _ _ => ⟨s, rfl, Visited.refl _ _ _⟩
        | cons f l ihl =>
          intro s hfl hs
          obtain ⟨s1, h1, h2, -, -⟩ := step s f (hfl f (by simp)) hs
          obtain ⟨s2, h3, h4⟩ := ihl s1 (fun g hg => hfl g (by simp [hg])) (fun x hx => by
            obtain ⟨p, hp, -⟩ := h2.processed
            rw [hp]
            exact List.mem_append_left _ (hs x hx))
          refine ⟨s2, ?_, h2.trans h4⟩
          rw [List.foldlM_cons, h1]
          exact h3
      obtain ⟨f, l, hfl⟩ := List.exists_cons_of_ne_nil (show loc ≠ [] from by
        intro h; rw [h] at hall
        exact hne (List.eq_nil_of_length_eq_zero hall.symm))
      have hf : f ∈ loc := by rw [hfl]; simp
      obtain ⟨s1, h1, h2, h3, x, hx, q, h4, h5⟩ := step (false, st1) f hf (fun x hx => hx)
      obtain ⟨p, hp1, -⟩ := h2.processed
      have hsp : ∀ x ∈ st1.processed, x ∈ s1.2.processed := fun x hx => by
        rw [hp1]; exact List.mem_append_left _ hx
      obtain ⟨s2, h6, h7⟩ := loop l s1 (fun g hg => by rw [hfl]; simp [hg]) hsp
      have hrun : loc.foldlM (iVisit (iRecurseReduce big dims d fuel)) (false, st1) = .ok s2 := by
        rw [hfl, List.foldlM_cons, h1]
        exact h6
      obtain ⟨p', hp2, -⟩ := h7.processed
      have hend : Visited (layer.map (·.1.2)) d st s2.2 := hv1.trans (h2.trans h7)
      have hcp : cur ∈ s2.2.processed := by
        rw [hp2]; exact List.mem_append_left _ (hsp _ hc1)
      have hrem : ∃ x ∈ layer.map (·.1.2), ∃ q, s2.2.removals = st.removals ++ q ∧ x ∈ q := by
        obtain ⟨q', hq', -⟩ := h7.removals
        exact ⟨x, hx, q ++ q', by rw [hq', h4, List.append_assoc], List.mem_append_left _ h5⟩
      rw [hrun, ok_bind]
      by_cases hr : s2.1 = true
      · rw [if_pos hr]
        have hlt : openCount (layer.map (·.1.2)) (s2.2.processed ++ [cur]) < fuel := by
          have : openCount (layer.map (·.1.2)) (s2.2.processed ++ [cur]) <
              openCount (layer.map (·.1.2)) st1.processed := by
            obtain ⟨-, ⟨e, he, hef⟩, -, hfp⟩ := hlocm f hf
            refine openCount_lt (fun x hx => ?_) (List.mem_map.2 ⟨e, he, hef⟩) hfp ?_
            · rw [hp2]; exact List.mem_append_left _ (List.mem_append_left _ (hsp x hx))
            · rw [hp2]; exact List.mem_append_left _ (List.mem_append_left _ h3)
          have h2 : openCount (layer.map (·.1.2)) st1.processed < fuel + 1 := hfuel
          omega
        obtain ⟨a, h8, -⟩ := ih cur s2.2 hcur hlt
        rw [h8, ok_bind]
        exact ⟨s2.2, rfl, hend, hcp, hrem⟩
      · rw [if_neg hr]
        exact ⟨s2.2, rfl, hend, hcp, hrem⟩
    · rw [if_neg hall]
      obtain ⟨c, h1, -, h3⟩ := iChoose_ok (big := big) hp hd hdl
        (subsets.filter (fun z => z ∉ loc.map Prod.fst)) (none, [])
        (fun z hz => (hsub.1 (List.mem_filter.1 hz).1).2) (fun _ => rfl)
      have hcand : subsets.filter (fun z => decide (z ∉ loc.map Prod.fst)) ≠ [] := by
        intro hnil
        apply hall
        have : ∀ z ∈ subsets, (iSharedWith layer st1 z).isSome := by
          intro z hz
          have hz' := List.filter_eq_nil_iff.1 hnil z hz
          simp only [decide_eq_true_eq, not_not] at hz'
          obtain ⟨y, hy, hyz⟩ := List.mem_map.1 hz'
          rw [hloc] at hy
          unfold iLocal at hy
          obtain ⟨s, hs1, hs2⟩ := List.mem_filterMap.1 hy
          obtain ⟨f, hs3, hs4⟩ := Option.map_eq_some_iff.1 hs2
          have : s = z := by rw [← hyz, ← hs4]
          rw [← this, hs3]; rfl
        rw [hloc]
        exact iLocal_all this
      have hmem := h3 rfl hcand
      have hm2 := hsub.1 (List.mem_filter.1 hmem).1
      rw [h1, ok_bind, if_pos (by omega)]
      refine ⟨_, rfl, ⟨⟨[cur], rfl, by simpa using hcm⟩, ⟨[c.2, cur], rfl, ?_⟩⟩, hc1, cur, hcm, [c.2, cur], rfl, by simp⟩
      intro x hx
      rcases List.mem_cons.1 hx with rfl | hx
      · exact .inr ⟨hinc.sublist hm2.1, hm2.2, cur, hcm, hm2.1⟩
      · rw [List.mem_singleton.1 hx]; exact .inl hcm

/-- The loop over the simplices of a layer. -/
theorem iTurns_ok {big : W} {dims : List (List (IEntry W))} {d : Nat} {layer : List (IEntry W)}
    (hp : ∃ p ps, dims[0]? = some (p :: ps)) (hd : 1 ≤ d) (hl : dims[d]? = some layer)
    (hw : ∀ e ∈ layer, Inc e.1.2 ∧ e.1.2.length = d + 1) :
    ∃ st, layer.foldlM (iReduceTurn big dims d (layer.length + 2)) ⟨[], []⟩ = .ok st ∧
      (∀ x ∈ st.removals, x ∈ layer.map (·.1.2) ∨ (Inc x ∧ x.length = d ∧ ∃ s ∈ layer.map (·.1.2), x.Sublist s)) ∧
      (layer ≠ [] → ∃ x ∈ layer.map (·.1.2), x ∈ st.removals) := by
  have turn : ∀ (st : IReduceState) (e : IEntry W), e ∈ layer →
      ∃ st', iReduceTurn big dims d (layer.length + 2) st e = .ok st' ∧ Visited (layer.map (·.1.2)) d st st' ∧
        (e.1.2 ∉ st.processed → ∃ x ∈ layer.map (·.1.2), x ∈ st'.removals) := by
    intro st e he
    unfold iReduceTurn
    by_cases hc : e.1.2 ∉ st.processed
    · rw [if_pos hc]
      obtain ⟨st', h1, h2, -, x, hx, q, h3, h4⟩ := iRecurse_ok (big := big) hp hd hl hw (layer.length + 2) e.1.2 st
        ⟨e, he, rfl⟩ (by
          have : openCount (layer.map (·.1.2)) (st.processed ++ [e.1.2]) ≤ (layer.map (·.1.2)).length :=
            List.length_filter_le _ _
          rw [List.length_map] at this
          omega)
      exact ⟨st', h1, h2, fun _ => ⟨x, hx, by rw [h3]; exact List.mem_append_right _ h4⟩⟩
    · rw [if_neg hc]
      exact ⟨st, rfl, Visited.refl _ _ _, fun h => absurd h hc⟩
  have loop : ∀ (l : List (IEntry W)) (st : IReduceState), (∀ e ∈ l, e ∈ layer) →
      ∃ st', l.foldlM (iReduceTurn big dims d (layer.length + 2)) st = .ok st' ∧
        Visited (layer.map (·.1.2)) d st st' := by
    intro l
    induction l with
    | nil => exact fun st _ => ⟨st, rfl, Visited.refl _ _ _⟩
    | cons e l ih =>
      intro st hm
      obtain ⟨s1, h1, h2, -⟩ := turn st e (hm e (by simp))
      obtain ⟨s2, h3, h4⟩ := ih s1 (fun g hg => hm g (by simp [hg]))
      exact ⟨s2, by rw [List.foldlM_cons, h1]; exact h3, h2.trans h4⟩
  obtain ⟨st, h1, h2⟩ := loop layer ⟨[], []⟩ (fun _ h => h)
  refine ⟨st, h1, ?_, ?_⟩
  · obtain ⟨q, hq, h3⟩ := h2.removals
    rw [hq]
    simpa using h3
  · intro hne
    obtain ⟨e, l, rfl⟩ := List.exists_cons_of_ne_nil hne
    obtain ⟨s1, h3, h4, h5⟩ := turn ⟨[], []⟩ e (by simp)
    obtain ⟨s2, h6, h7⟩ := loop l s1 (fun g hg => by simp [hg])
    rw [List.foldlM_cons, h3] at h1
    have : s2 = st := by
      have := h6.symm.trans h1
      cases this; rfl
    subst this
    obtain ⟨x, hx, hx2⟩ := h5 (by simp)
    obtain ⟨q, hq, -⟩ := h7.removals
    exact ⟨x, hx, by rw [hq]; exact List.mem_append_left _ hx2⟩

end

/-! ### The removals -/

section
variable {W : Type}

theorem iEraseEqual_spec (r : List Nat) (layer : List (IEntry W)) :
    (iEraseEqual r layer).1.Sublist layer ∧
    (∃ dropped, layer.Perm ((iEraseEqual r layer).1 ++ dropped) ∧ (iEraseEqual r layer).2 = dropped.length) ∧
    (r ∉ layer.map (·.1.2) → (iEraseEqual r layer).1 = layer) ∧
    (r ∈ layer.map (·.1.2) → (iEraseEqual r layer).1.length < layer.length) := by
  induction layer using iEraseEqual.induct r with
  | case1 => exact ⟨by simp [iEraseEqual], ⟨[], by simp [iEraseEqual]⟩, by simp [iEraseEqual], by simp⟩
  | case2 e h =>
    rw [show iEraseEqual r [e] = ([], 1) from by simp [iEraseEqual, h]]
    exact ⟨by simp, ⟨[e], by simp⟩, fun hn => absurd (by simp [h]) hn, by simp⟩
  | case3 e h =>
    rw [show iEraseEqual r [e] = ([e], 0) from by simp [iEraseEqual, h]]
    exact ⟨by simp, ⟨[], by simp⟩, fun _ => rfl, fun hm => absurd (by simpa using hm) h⟩
  | case4 e e' rest h ih =>
    have e1 : iEraseEqual r (e :: e' :: rest) =
        (e' :: (iEraseEqual r rest).1, (iEraseEqual r rest).2 + 1) := by rw [iEraseEqual]; simp [h]
    rw [e1]
    obtain ⟨i1, ⟨dr, i2, i3⟩, i4, i5⟩ := ih
    refine ⟨(i1.cons_cons e').cons e, ⟨e :: dr, ?_, by simp [i3]⟩, fun hn => absurd (by simp [h]) hn, fun _ => ?_⟩
    · exact ((i2.cons e').cons e).trans
        (List.perm_middle (a := e) (l₁ := e' :: (iEraseEqual r rest).1) (l₂ := dr)).symm
    · have := i1.length_le
      simp only [List.length_cons]; omega
  | case5 e e' rest h ih =>
    have e1 : iEraseEqual r (e :: e' :: rest) =
        (e :: (iEraseEqual r (e' :: rest)).1, (iEraseEqual r (e' :: rest)).2) := by
      rw [iEraseEqual]; simp [h]
    rw [e1]
    obtain ⟨i1, ⟨dr, i2, i3⟩, i4, i5⟩ := ih
    refine ⟨i1.cons_cons e, ⟨dr, i2.cons e, i3⟩, fun hn => ?_, fun hm => ?_⟩
    · rw [List.map_cons, List.mem_cons, not_or] at hn
      rw [i4 hn.2]
    · rw [List.map_cons, List.mem_cons] at hm
      have := i5 (hm.resolve_left h)
      rw [List.length_cons, List.length_cons]; omega

theorem flatten_modify_gone {α : Type} (dims : List (List α)) : ∀ (i : Nat) (layer layer' gone : List α),
    dims[i]? = some layer → layer.Perm (layer' ++ gone) →
    dims.flatten.Perm ((dims.modify i (fun _ => layer')).flatten ++ gone) := by
  induction dims with
  | nil => intro i _ _ _ h; simp at h
  | cons a l ih =>
    intro i layer layer' gone h hp
    cases i with
    | zero =>
      simp only [List.getElem?_cons_zero, Option.some.injEq] at h
      subst h
      simp only [List.modify_zero_cons, List.flatten_cons]
      refine (hp.append_right _).trans ?_
      rw [List.append_assoc, List.append_assoc]
      exact (List.perm_append_comm).append_left _
    | succ i =>
      simp only [List.getElem?_cons_succ] at h
      simp only [List.modify_succ_cons, List.flatten_cons, List.append_assoc]
      exact (ih i layer layer' gone h hp).append_left _

/-- What a part of the reduction does: every layer keeps its order, the points stay, and of the entries that
go, some nodes are deleted and all are counted. -/
structure Erased (s s' : IReduced W) : Prop where
  length : s'.dims.length = s.dims.length
  layers : ∀ (i : Nat) (layer' : List (IEntry W)), s'.dims[i]? = some layer' → ∃ layer, s.dims[i]? = some layer ∧ layer'.Sublist layer
  points : s'.dims[0]? = s.dims[0]?
  gone : ∃ deleted dropped : List (IEntry W), s.dims.flatten.Perm (s'.dims.flatten ++ (deleted ++ dropped)) ∧
    s'.freed = s.freed ++ deleted.map (·.1.1) ∧
    s'.nodeCount = s.nodeCount - ((deleted ++ dropped).length : Int)

theorem Erased.refl (s : IReduced W) : Erased s s :=
  ⟨rfl, fun _ l h => ⟨l, h, List.Sublist.refl _⟩, rfl, [], [], by simp, by simp, by simp⟩

theorem Erased.trans {s s' s'' : IReduced W} (h : Erased s s') (h' : Erased s' s'') : Erased s s'' := by
  obtain ⟨l1, l2, l3, de, dr, g1, g2, g3⟩ := h
  obtain ⟨l1', l2', l3', de', dr', g1', g2', g3'⟩ := h'
  refine ⟨l1'.trans l1, fun i layer hl => ?_, l3'.trans l3, de ++ de', dr ++ dr', ?_, ?_, ?_⟩
  · obtain ⟨m, h1, h2⟩ := l2' i layer hl
    obtain ⟨m', h3, h4⟩ := l2 i m h1
    exact ⟨m', h3, h2.trans h4⟩
  · refine g1.trans ((g1'.append_right _).trans ?_)
    rw [List.append_assoc]
    refine List.Perm.append_left _ ?_
    classical
    rw [List.perm_iff_count]
    intro a
    simp only [List.count_append]
    omega
  · rw [g2', g2, List.map_append, List.append_assoc]
  · rw [g3', g3]
    simp only [List.length_append]
    push_cast
    ring

theorem Erased.sized {s s' : IReduced W} (h : Erased s s') (hw : WellSized s.dims) : WellSized s'.dims := by
  intro d layer hl e he
  obtain ⟨m, h1, h2⟩ := h.layers d layer hl
  exact hw d m h1 e (h2.subset he)

theorem getElem?_modify_ne {α : Type} (l : List α) {i j : Nat} (h : i ≠ j) (f : α → α) :
    (l.modify i f)[j]? = l[j]? := by
  rw [List.getElem?_modify]
  simp [h]

theorem getElem?_modify_self {α : Type} {l : List α} {i : Nat} {a : α} (h : l[i]? = some a) (f : α → α) :
    (l.modify i f)[i]? = some (f a) := by
  rw [List.getElem?_modify, h]
  simp

/-- Replacing a layer that is not the first one. -/
theorem erased_layer {s : IReduced W} {i : Nat} (hi : 1 ≤ i) {layer layer' : List (IEntry W)}
    (hl : s.dims[i]? = some layer) (hsub : layer'.Sublist layer) {deleted dropped : List (IEntry W)}
    (hperm : layer.Perm (layer' ++ (deleted ++ dropped))) :
    Erased s ⟨s.dims.modify i (fun _ => layer'), s.nodeCount - ((deleted ++ dropped).length : Int),
      s.freed ++ deleted.map (·.1.1)⟩ := by
  refine ⟨by simp, fun j l hj => ?_, ?_, deleted, dropped, flatten_modify_gone _ _ _ _ _ hl hperm, rfl, rfl⟩
  · dsimp only at hj
    by_cases hij : i = j
    · subst hij
      rw [getElem?_modify_self hl] at hj
      cases hj
      exact ⟨layer, hl, hsub⟩
    · rw [getElem?_modify_ne _ hij] at hj
      exact ⟨l, hj, List.Sublist.refl _⟩
  · exact getElem?_modify_ne _ (by omega) _

theorem vmodify_of_some {α : Type} {l : List α} {i : Nat} {a : α} (h : l[i]? = some a) (f : α → α) :
    vmodify l i f = .ok (l.modify i f) := by
  unfold vmodify
  rw [if_pos (List.getElem?_eq_some_iff.1 h).1]

theorem modify_const {α : Type} {l : List α} {i : Nat} {a : α} (h : l[i]? = some a) (f : α → α) :
    l.modify i f = l.modify i (fun _ => f a) := by
  apply List.ext_getElem?
  intro j
  rw [List.getElem?_modify, List.getElem?_modify]
  by_cases hij : i = j
  · subst hij; rw [h]; simp
  · simp [hij]

theorem iDeletion_ok {s : IReduced W} (hp : ∃ p ps, s.dims[0]? = some (p :: ps)) {r : List Nat}
    (hr : 2 ≤ r.length) (hl : r.length - 1 < s.dims.length) :
    ∃ s', iDeletion r s = .ok s' ∧ Erased s s' ∧
      ∀ i, (i ≠ r.length - 1 ∨ ∀ layer, s.dims[i]? = some layer → r ∉ layer.map (·.1.2)) →
        s'.dims[i]? = s.dims[i]? := by
  obtain ⟨p, ps, hp⟩ := hp
  unfold iDeletion
  have hlay : s.dims[r.length - 1]? = some s.dims[r.length - 1] := List.getElem?_eq_getElem hl
  rw [vget_ok.2 hp, ok_bind, vget_ok.2 (by simp : (p :: ps)[0]? = some p), ok_bind, szPred_pos (by omega),
    vget_ok.2 hlay, ok_bind]
  generalize s.dims[r.length - 1] = layer at *
  cases hf : List.find? (fun a => decide (r = a.1.2)) layer with
  | none => exact ⟨s, rfl, Erased.refl s, fun i _ => rfl⟩
  | some a =>
    have ha : a ∈ layer := List.mem_of_find?_eq_some hf
    have har : r = a.1.2 := by simpa using List.find?_some hf
    dsimp only
    rw [vmodify_of_some hlay, ok_bind, modify_const hlay]
    have hperm : layer.Perm (layer.eraseP (fun a => decide (r = a.1.2)) ++ ([a] ++ [])) := by
      clear hlay
      induction layer with
      | nil => simp at ha
      | cons b l ih =>
        by_cases hb : r = b.1.2
        · rw [List.find?_cons_of_pos (by simpa using hb)] at hf
          cases hf
          rw [List.eraseP_cons_of_pos (by simpa using hb)]
          simpa using (List.perm_append_singleton _ l).symm
        · rw [List.find?_cons_of_neg (by simpa using hb)] at hf
          rw [List.eraseP_cons_of_neg (by simpa using hb)]
          exact (ih hf (List.mem_of_find?_eq_some hf)).cons b
    refine ⟨_, rfl, ?_, fun i hi => ?_⟩
    · have := erased_layer (s := s) (by omega) hlay List.eraseP_sublist hperm
      simpa using this
    · dsimp only
      have hne : ¬ r.length - 1 = i := by
        rintro rfl
        rcases hi with hi | hi
        · exact hi rfl
        · exact hi layer hlay (List.mem_map.2 ⟨a, ha, har.symm⟩)
      exact getElem?_modify_ne _ hne _

theorem iRemove_ok {s : IReduced W} (hp : ∃ p ps, s.dims[0]? = some (p :: ps)) {d : Nat} (hd : 2 ≤ d)
    {layer : List (IEntry W)} (hl : s.dims[d]? = some layer) {r : List Nat}
    (hr : r.length = d ∨ r.length = d + 1) :
    ∃ s' layer', iRemove d s r = .ok s' ∧ Erased s s' ∧ s'.dims[d]? = some layer' ∧
      (∀ i, i ≠ d → i ≠ d - 1 → s'.dims[i]? = s.dims[i]?) ∧
      (r ∈ layer.map (·.1.2) → layer'.length < layer.length) ∧
      (r ∉ layer.map (·.1.2) → layer' = layer) := by
  have hdl : d < s.dims.length := (List.getElem?_eq_some_iff.1 hl).1
  obtain ⟨i1, ⟨dr, i2, i3⟩, i4, i5⟩ := iEraseEqual_spec r layer
  unfold iRemove
  rw [vget_ok.2 hl, ok_bind]
  dsimp only
  rw [vmodify_of_some hl, ok_bind]
  have he := erased_layer (s := s) (by omega) hl i1 (deleted := []) (dropped := dr) (by simpa using i2)
  simp only [List.nil_append, List.map_nil, List.append_nil] at he
  rw [← i3] at he
  have hpts : (s.dims.modify d (fun _ => (iEraseEqual r layer).1))[0]? = s.dims[0]? := he.points
  obtain ⟨s', h1, h2, h3⟩ := iDeletion_ok (s := ⟨s.dims.modify d (fun _ => (iEraseEqual r layer).1),
    s.nodeCount - (iEraseEqual r layer).2, s.freed⟩) (by rw [hpts]; exact hp) (r := r) (by omega)
    (by simp only [List.length_modify]; omega)
  have hmid : (s.dims.modify d (fun _ => (iEraseEqual r layer).1))[d]? = some (iEraseEqual r layer).1 := by
    exact getElem?_modify_self hl _
  have hend : ∃ layer', s'.dims[d]? = some layer' ∧ layer'.Sublist (iEraseEqual r layer).1 := by
    have : d < s'.dims.length := by rw [h2.length]; simpa using hdl
    obtain ⟨m, h4, h5⟩ := h2.layers d _ (List.getElem?_eq_getElem this)
    have h4 : (s.dims.modify d (fun _ => (iEraseEqual r layer).1))[d]? = some m := h4
    rw [hmid] at h4
    cases h4
    exact ⟨_, List.getElem?_eq_getElem this, h5⟩
  obtain ⟨layer', h4, h5⟩ := hend
  refine ⟨s', layer', h1, he.trans h2, h4, fun i hid hid' => ?_, fun hm => ?_, fun hm => ?_⟩
  · rw [h3 i (.inl (by omega))]
    exact getElem?_modify_ne _ (by omega) _
  · exact lt_of_le_of_lt h5.length_le (i5 hm)
  · have := h3 d (.inr (fun m hmm => by
      have hmm : (s.dims.modify d (fun _ => (iEraseEqual r layer).1))[d]? = some m := hmm
      rw [hmid, i4 hm] at hmm
      cases hmm
      exact hm))
    have this : s'.dims[d]? = (s.dims.modify d (fun _ => (iEraseEqual r layer).1))[d]? := this
    rw [h4, hmid, i4 hm] at this
    cases this
    rfl

theorem iRemoves_ok {d : Nat} (hd : 2 ≤ d) : ∀ (rs : List (List Nat)) (s : IReduced W) (layer : List (IEntry W)),
    (∃ p ps, s.dims[0]? = some (p :: ps)) → s.dims[d]? = some layer →
    (∀ r ∈ rs, r.length = d ∨ r.length = d + 1) →
    ∃ s' layer', rs.foldlM (iRemove d) s = .ok s' ∧ Erased s s' ∧ s'.dims[d]? = some layer' ∧
      (∀ i, i ≠ d → i ≠ d - 1 → s'.dims[i]? = s.dims[i]?) ∧
      ((∃ r ∈ rs, r ∈ layer.map (·.1.2)) → layer'.length < layer.length) := by
  intro rs
  induction rs with
  | nil => exact fun s layer _ hl _ => ⟨s, layer, rfl, Erased.refl s, hl, fun _ _ _ => rfl, by simp⟩
  | cons r rs ih =>
    intro s layer hp hl hr
    obtain ⟨s1, l1, h1, h2, h3, h4, h5, h6⟩ := iRemove_ok hp hd hl (hr r (by simp))
    obtain ⟨s2, l2, g1, g2, g3, g4, g5⟩ := ih s1 l1 (by rw [h2.points]; exact hp) h3
      (fun r' hr' => hr r' (by simp [hr']))
    refine ⟨s2, l2, by rw [List.foldlM_cons, h1]; exact g1, h2.trans g2, g3,
      fun i hi hi' => (g4 i hi hi').trans (h4 i hi hi'), ?_⟩
    rintro ⟨x, hx, hxl⟩
    have hle : l2.length ≤ l1.length := by
      obtain ⟨m, q1, q2⟩ := g2.layers d l2 g3
      rw [h3] at q1; cases q1
      exact q2.length_le
    have hle1 : l1.length ≤ layer.length := by
      obtain ⟨m, q1, q2⟩ := h2.layers d l1 h3
      rw [hl] at q1; cases q1
      exact q2.length_le
    by_cases hrl : r ∈ layer.map (·.1.2)
    · exact lt_of_le_of_lt hle (h5 hrl)
    · have e := h6 hrl
      subst e
      rcases List.mem_cons.1 hx with rfl | hx
      · exact absurd hxl hrl
      · exact g5 ⟨x, hx, hxl⟩

variable [LinearOrder W]

theorem iReduceDim_ok {big : W} {d : Nat} (hd : 2 ≤ d) {s : IReduced W} {layer : List (IEntry W)}
    (hp : ∃ p ps, s.dims[0]? = some (p :: ps)) (hl : s.dims[d]? = some layer) (hw : WellSized s.dims) :
    ∃ s' layer', iReduceDim big d s = .ok s' ∧ Erased s s' ∧ s'.dims[d]? = some layer' ∧
      (∀ i, i ≠ d → i ≠ d - 1 → s'.dims[i]? = s.dims[i]?) ∧
      (layer ≠ [] → layer'.length < layer.length) := by
  obtain ⟨st, h1, h2, h3⟩ := iTurns_ok (big := big) hp (by omega) hl (hw d layer hl)
  obtain ⟨s', l', g1, g2, g3, g4, g5⟩ := iRemoves_ok hd st.removals s layer hp hl (fun r hr => by
    rcases h2 r hr with h | h
    · obtain ⟨e, he, rfl⟩ := List.mem_map.1 h
      exact .inr (hw d layer hl e he).2
    · exact .inl h.2.1)
  refine ⟨s', l', ?_, g2, g3, g4, fun hne => g5 ?_⟩
  · unfold iReduceDim
    rw [vget_ok.2 hl, ok_bind, h1, ok_bind]
    exact g1
  · obtain ⟨x, hx, hx2⟩ := h3 hne
    exact ⟨x, hx2, hx⟩

theorem iReduceLoop_ok {big : W} : ∀ (D : Nat) (s : IReduced W), (∃ p ps, s.dims[0]? = some (p :: ps)) →
    WellSized s.dims → D < s.dims.length →
    ∃ s', iReduceLoop big D s = .ok s' ∧ Erased s s' ∧ (∀ i, D < i → s'.dims[i]? = s.dims[i]?) ∧
      (2 ≤ D → ∀ layer, s.dims[D]? = some layer → layer ≠ [] →
        ∃ layer', s'.dims[D]? = some layer' ∧ layer'.length < layer.length) := by
  intro D
  induction D with
  | zero => exact fun s _ _ _ => ⟨s, rfl, Erased.refl s, fun _ _ => rfl, fun h => absurd h (by omega)⟩
  | succ D ih =>
    intro s hp hw hD
    cases D with
    | zero => exact ⟨s, rfl, Erased.refl s, fun _ _ => rfl, fun h => absurd h (by omega)⟩
    | succ D =>
      obtain ⟨s1, l1, h1, h2, h3, h4, h5⟩ := iReduceDim_ok (big := big) (d := D + 2) (by omega) hp
        (List.getElem?_eq_getElem hD) hw
      obtain ⟨s2, g1, g2, g3, -⟩ := ih s1 (by rw [h2.points]; exact hp) (h2.sized hw) (by rw [h2.length]; omega)
      refine ⟨s2, ?_, h2.trans g2, fun i hi => ?_, fun _ layer hl hne => ?_⟩
      · rw [iReduceLoop, h1]
        exact g1
      · rw [g3 i (by omega), h4 i (by omega) (by omega)]
      · rw [List.getElem?_eq_getElem hD] at hl
        cases hl
        exact ⟨l1, by rw [g3 _ (by omega)]; exact h3, h5 hne⟩

omit [LinearOrder W] in
theorem iCoreduction_ok (graph : List (List (IEntry W))) (b : IEntry W) : iCoreduction graph 1 [b] = .ok graph := rfl

end

end LHF
