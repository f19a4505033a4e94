import Verif.Lemmas.ArrayInsert
import Verif.Lemmas.TruncatePersistence

/-! The part of an array complex below a bound is built by the same insertions and expansions with the
smaller bound, in the same order. -/

namespace LHF
open Spec

section
variable {W : Type} [LinearOrder W] [Ring W] [IsStrictOrderedRing W]

/-- Every layer of `gS` is that of `gL` below `c`. -/
def Below (c : W) (gS gL : Graph W) : Prop :=
  ∀ k, gS.getD k [] = (gL.getD k []).filter (fun e => e.2 < c)

/-- All entries carry their diameters. -/
def Weighs (d : Nat → Nat → W) (g : Graph W) : Prop := ∀ k, ∀ e ∈ g.getD k [], e.2 = diam d e.1

omit [LinearOrder W] [Ring W] [IsStrictOrderedRing W] in
theorem getD_of_vget {g : Graph W} {k : Nat} {l : List (List Nat × W)} (h : vget g k = .ok l) :
    g.getD k [] = l := by
  rw [vget_ok] at h
  rw [List.getD_eq_getElem?_getD, h]
  rfl

omit [IsStrictOrderedRing W] in
open Classical in
theorem findWeight_val {d : Nat → Nat → W} {g : Graph W} (h : Weighs d g) {v : List Nat} {w : W}
    (hf : findWeight g v = .ok w) :
    w = if ∃ e ∈ g.getD (szPred v.length) [], e.1 = v then diam d v else -1 := by
  unfold findWeight at hf
  obtain ⟨layer, h1, h2⟩ := bind_ok.1 hf
  rw [getD_of_vget h1]
  have hw := h (szPred v.length)
  rw [getD_of_vget h1] at hw
  cases hs : layer.find? (fun e => decide (e.1 = v)) with
  | none =>
    rw [hs] at h2
    rw [List.find?_eq_none] at hs
    rw [if_neg (by
      rintro ⟨e, he, hev⟩
      exact hs e he (by simpa using hev))]
    cases h2
    rfl
  | some e =>
    rw [hs] at h2
    have he := List.mem_of_find?_eq_some hs
    have hev : e.1 = v := by simpa using List.find?_some hs
    rw [if_pos ⟨e, he, hev⟩]
    cases h2
    rw [← hev]
    exact hw e he

theorem findWeight_below {d : Nat → Nat → W} {c : W} (hc : 0 < c) {gS gL : Graph W} (h : Weighs d gL)
    (hb : Below c gS gL) {v : List Nat} {wS wL : W} (hS : findWeight gS v = .ok wS)
    (hL : findWeight gL v = .ok wL) : wS = if wL < c then wL else -1 := by
  classical
  have hwS : Weighs d gS := by
    intro k e he
    rw [hb k] at he
    exact h k e (List.mem_filter.1 he).1
  rw [findWeight_val hwS hS, findWeight_val h hL, hb]
  by_cases hL' : ∃ e ∈ gL.getD (szPred v.length) [], e.1 = v
  · rw [if_pos hL']
    obtain ⟨e, he, rfl⟩ := hL'
    by_cases hlt : diam d e.1 < c
    · rw [if_pos hlt, if_pos]
      refine ⟨e, List.mem_filter.2 ⟨he, ?_⟩, rfl⟩
      rw [h _ e he]
      simpa using hlt
    · rw [if_neg hlt, if_neg]
      rintro ⟨e', he', hv⟩
      obtain ⟨h1, h2⟩ := List.mem_filter.1 he'
      rw [h _ e' h1, hv] at h2
      exact hlt (by simpa using h2)
  · rw [if_neg hL', if_neg, if_pos]
    · exact neg_one_lt_zero'.trans hc
    · rintro ⟨e', he', hv⟩
      exact hL' ⟨e', (List.mem_filter.1 he').1, hv⟩

theorem faceLoop_ge {g : Graph W} {simp : List Nat} : ∀ (zs : List (List Nat)) (total : List Nat) (mw : W)
    (r : List Nat × W), faceLoop g simp zs total mw = .ok (some r) → mw ≤ r.2 := by
  intro zs
  induction zs with
  | nil =>
    intro total mw r h
    unfold faceLoop at h
    cases h
    exact le_rfl
  | cons z zs ih =>
    intro total mw r h
    unfold faceLoop at h
    dsimp only at h
    obtain ⟨wt, -, h⟩ := bind_ok.1 h
    by_cases hwt : wt < 0
    · rw [if_pos hwt] at h
      cases h
    · rw [if_neg hwt] at h
      refine le_trans ?_ (ih _ _ _ h)
      rw [max_if]
      exact le_max_right _ _

theorem faceLoop_below {d : Nat → Nat → W} {c : W} (hc : 0 < c) {gS gL : Graph W} (h : Weighs d gL)
    (hb : Below c gS gL) {simp : List Nat} : ∀ (zs : List (List Nat)) (total : List Nat) (mw : W)
    (rS rL : Option (List Nat × W)), mw < c → faceLoop gS simp zs total mw = .ok rS →
    faceLoop gL simp zs total mw = .ok rL → rS = rL.filter (fun e => e.2 < c) := by
  intro zs
  induction zs with
  | nil =>
    intro total mw rS rL hmw hS hL
    unfold faceLoop at hS hL
    cases hS
    cases hL
    simp [Option.filter, hmw]
  | cons z zs ih =>
    intro total mw rS rL hmw hS hL
    unfold faceLoop at hS hL
    dsimp only at hS hL
    obtain ⟨wS, h1, hS⟩ := bind_ok.1 hS
    obtain ⟨wL, h2, hL⟩ := bind_ok.1 hL
    have hw := findWeight_below hc h hb h1 h2
    by_cases hlt : wL < c
    · rw [if_pos hlt] at hw
      subst hw
      by_cases h0 : wS < 0
      · rw [if_pos h0] at hS hL
        cases hS
        cases hL
        rfl
      · rw [if_neg h0] at hS hL
        refine ih _ _ _ _ ?_ hS hL
        rw [max_if]
        exact max_lt hlt hmw
    · rw [if_neg hlt] at hw
      subst hw
      rw [if_pos neg_one_lt_zero'] at hS
      cases hS
      rw [if_neg (not_lt.2 (hc.le.trans (not_lt.1 hlt)))] at hL
      cases rL with
      | none => rfl
      | some r =>
        have := faceLoop_ge _ _ _ _ hL
        rw [max_if] at this
        have : c ≤ r.2 := (not_lt.1 hlt).trans ((le_max_left _ _).trans this)
        simp [Option.filter, not_lt.2 this]

theorem candidate_ge {g : Graph W} {a b r : List Nat × W} (h : candidate g a b = .ok (some r)) :
    a.2 ≤ r.2 ∧ b.2 ≤ r.2 := by
  have key : max a.2 b.2 ≤ r.2 := by
    unfold candidate at h
    dsimp only at h
    rw [max_if] at h
    by_cases h2 : (symmetricDiffV a.1 b.1 true).length = 2
    · rw [if_pos h2] at h
      by_cases h1 : (setIntersectV a.1 b.1 true).length = 1
      · rw [if_pos h1] at h
        obtain ⟨wt, -, h⟩ := bind_ok.1 h
        by_cases hwt : wt < 0
        · rw [if_pos hwt] at h
          cases h
        · rw [if_neg hwt, max_if] at h
          cases h
          exact le_max_right _ _
      · rw [if_neg h1] at h
        by_cases h3 : (setIntersectV a.1 b.1 true).length > 1
        · rw [if_pos h3] at h
          exact faceLoop_ge _ _ _ _ h
        · rw [if_neg h3] at h
          cases h
          exact le_rfl
    · rw [if_neg h2] at h
      cases h
  exact ⟨(le_max_left _ _).trans key, (le_max_right _ _).trans key⟩

theorem candidate_below {d : Nat → Nat → W} {c : W} (hc : 0 < c) {gS gL : Graph W} (h : Weighs d gL)
    (hb : Below c gS gL) {a b : List Nat × W} (ha : a.2 < c) (hbc : b.2 < c)
    {rS rL : Option (List Nat × W)} (hS : candidate gS a b = .ok rS) (hL : candidate gL a b = .ok rL) :
    rS = rL.filter (fun e => e.2 < c) := by
  unfold candidate at hS hL
  dsimp only at hS hL
  rw [max_if] at hS hL
  have hm : max a.2 b.2 < c := max_lt ha hbc
  by_cases h2 : (symmetricDiffV a.1 b.1 true).length = 2
  · rw [if_pos h2] at hS hL
    by_cases h1 : (setIntersectV a.1 b.1 true).length = 1
    · rw [if_pos h1] at hS hL
      obtain ⟨wS, g1, hS⟩ := bind_ok.1 hS
      obtain ⟨wL, g2, hL⟩ := bind_ok.1 hL
      have hw := findWeight_below hc h hb g1 g2
      by_cases hlt : wL < c
      · rw [if_pos hlt] at hw
        subst hw
        by_cases h0 : wS < 0
        · rw [if_pos h0] at hS hL
          cases hS
          cases hL
          rfl
        · rw [if_neg h0, max_if] at hS hL
          cases hS
          cases hL
          have : max wS (max a.2 b.2) < c := max_lt hlt hm
          simp [Option.filter, hlt, ha, hbc]
      · rw [if_neg hlt] at hw
        subst hw
        rw [if_pos neg_one_lt_zero'] at hS
        rw [if_neg (not_lt.2 (hc.le.trans (not_lt.1 hlt))), max_if] at hL
        cases hS
        cases hL
        simp [Option.filter, hlt]
    · rw [if_neg h1] at hS hL
      by_cases h3 : (setIntersectV a.1 b.1 true).length > 1
      · rw [if_pos h3] at hS hL
        exact faceLoop_below hc h hb _ _ _ _ _ hm hS hL
      · rw [if_neg h3] at hS hL
        cases hS
        cases hL
        simp [Option.filter, ha, hbc]
  · rw [if_neg h2] at hS hL
    cases hS
    cases hL
    rfl

/-! ### The double loop as a loop over pairs -/

/-- The pairs of entries of a list, in the order of the double loop. -/
def pairsOf {α : Type} : List α → List (α × α)
  | [] => []
  | a :: l => l.map (fun b => (a, b)) ++ pairsOf l

omit [LinearOrder W] [Ring W] [IsStrictOrderedRing W] in
theorem pairsOf_filter {α : Type} (p : α → Bool) (l : List α) :
    pairsOf (l.filter p) = (pairsOf l).filter (fun x => p x.1 && p x.2) := by
  induction l with
  | nil => rfl
  | cons a l ih =>
    rw [pairsOf, List.filter_append, ← ih]
    by_cases ha : p a = true
    · rw [List.filter_cons_of_pos ha, pairsOf]
      congr 1
      rw [List.filter_map]
      congr 1
      apply List.filter_congr
      intro b _
      simp [ha]
    · rw [List.filter_cons_of_neg ha]
      have e : (l.map (fun b => (a, b))).filter (fun x => p x.1 && p x.2) = [] := by
        rw [List.filter_eq_nil_iff]
        intro x hx
        obtain ⟨b, -, rfl⟩ := List.mem_map.1 hx
        simp [ha]
      rw [e, List.nil_append]

omit [LinearOrder W] [Ring W] [IsStrictOrderedRing W] in
theorem mem_pairsOf {α β : Type} (f : α → β) {l : List α} (hn : (l.map f).Nodup) {a b : α}
    (h : (a, b) ∈ pairsOf l) : a ∈ l ∧ b ∈ l ∧ f a ≠ f b := by
  induction l with
  | nil => cases h
  | cons x l ih =>
    rw [List.map_cons, List.nodup_cons] at hn
    rw [pairsOf, List.mem_append, List.mem_map] at h
    rcases h with ⟨y, hy, h⟩ | h
    · cases h
      refine ⟨by simp, by simp [hy], fun hf => hn.1 ?_⟩
      rw [hf]
      exact List.mem_map_of_mem hy
    · obtain ⟨h1, h2, h3⟩ := ih hn.2 h
      exact ⟨by simp [h1], by simp [h2], h3⟩

omit [LinearOrder W] [Ring W] [IsStrictOrderedRing W] in
theorem foldlM_vget {α σ : Type} (f : σ → α → Res σ) (full : List α) : ∀ (l pre : List α) (s : σ),
    full = pre ++ l →
    (List.range' pre.length l.length).foldlM (fun s t => vget full t >>= f s) s = l.foldlM f s := by
  intro l
  induction l with
  | nil => intro pre s _; rfl
  | cons a l ih =>
    intro pre s h
    have hv : vget full pre.length = .ok a := by
      rw [vget_ok, h]
      simp
    rw [List.length_cons, List.range'_succ, List.foldlM_cons, List.foldlM_cons, hv, ok_bind]
    congr 1
    funext s'
    have := ih (pre ++ [a]) s' (by simp [h])
    rw [List.length_append] at this
    exact this

omit [LinearOrder W] [Ring W] [IsStrictOrderedRing W] in
theorem double_loop {α σ : Type} (f : σ → α → α → Res σ) (full : List α) : ∀ (l pre : List α) (s : σ),
    full = pre ++ l →
    (List.range' pre.length l.length).foldlM (fun s j =>
      (List.range' (j + 1) (full.length - (j + 1))).foldlM (fun s t =>
        vget full j >>= fun a => vget full t >>= fun b => f s a b) s) s =
      (pairsOf l).foldlM (fun s p => f s p.1 p.2) s := by
  intro l
  induction l with
  | nil => intro pre s _; rfl
  | cons a l ih =>
    intro pre s h
    have hv : vget full pre.length = .ok a := by
      rw [vget_ok, h]
      simp
    rw [List.length_cons, List.range'_succ, List.foldlM_cons, pairsOf, List.foldlM_append, List.foldlM_map]
    have e1 : (List.range' (pre.length + 1) (full.length - (pre.length + 1))).foldlM (fun s t =>
        vget full pre.length >>= fun a => vget full t >>= fun b => f s a b) s =
        l.foldlM (fun s b => f s a b) s := by
      rw [hv]
      simp only [ok_bind]
      have := foldlM_vget (fun s b => f s a b) full l (pre ++ [a]) s (by simp [h])
      rw [List.length_append] at this
      have hl : full.length - (pre.length + 1) = l.length := by
        rw [h]
        simp
        omega
      rw [hl]
      exact this
    rw [e1]
    congr 1
    funext s'
    have := ih (pre ++ [a]) s' (by simp [h])
    rw [List.length_append] at this
    exact this

omit [LinearOrder W] [Ring W] [IsStrictOrderedRing W] in
theorem foldlM_congr_inv {α σ : Type} {f f' : σ → α → Res σ} (P : σ → Prop) (l : List α)
    (h : ∀ s x, x ∈ l → P s → f s x = f' s x ∧ ∀ s', f s x = .ok s' → P s') : ∀ s, P s →
    l.foldlM f s = l.foldlM f' s := by
  induction l with
  | nil => intro s _; rfl
  | cons x l ih =>
    intro s hs
    obtain ⟨h1, h2⟩ := h s x (by simp) hs
    rw [List.foldlM_cons, List.foldlM_cons, ← h1]
    cases hf : f s x with
    | error e => rfl
    | ok s' => exact ih (fun s x hx => h s x (by simp [hx])) s' (h2 s' hf)

/-- One pair. -/
def candStep (d : Nat) (g : Graph W) (p : (List Nat × W) × (List Nat × W)) : Res (Graph W) :=
  candidate g p.1 p.2 >>= fun c => match c with
    | none => pure g
    | some e => storeSimplex d e g

omit [IsStrictOrderedRing W] in
theorem storeSimplex_lower {d : Nat} {e : List Nat × W} {g g' : Graph W} (h : storeSimplex d e g = .ok g') :
    ∀ i, i < d → g'[i]? = g[i]? := by
  intro i hi
  unfold storeSimplex at h
  by_cases hl : g.length = d
  · rw [if_pos hl] at h
    cases h
    rw [List.getElem?_append_left (by omega)]
  · rw [if_neg hl] at h
    obtain ⟨layer, h1, h⟩ := bind_ok.1 h
    by_cases he : e ∈ layer
    · rw [if_pos he] at h
      cases h
      rfl
    · rw [if_neg he] at h
      unfold vmodify at h
      split_ifs at h
      cases h
      rw [List.getElem?_modify]
      have : d ≠ i := by omega
      simp [this]

omit [IsStrictOrderedRing W] in
theorem pairStep_lower {d : Nat} {p : (List Nat × W) × (List Nat × W)} {g g' : Graph W}
    (h : candStep d g p = .ok g') : ∀ i, i < d → g'[i]? = g[i]? := by
  unfold candStep at h
  obtain ⟨c, -, h⟩ := bind_ok.1 h
  cases c with
  | none => cases h; exact fun _ _ => rfl
  | some e => exact storeSimplex_lower h

omit [IsStrictOrderedRing W] in
theorem expandDim_pairs {k : Nat} {g : Graph W} {layer : List (List Nat × W)} (hg : g[k]? = some layer) :
    expandDim (k + 1) g = (pairsOf layer).foldlM (candStep (k + 1)) g := by
  unfold expandDim
  rw [Nat.add_sub_cancel, vget_ok.2 hg, ok_bind]
  have e : ∀ j t (s : Graph W), s[k]? = some layer → expandPair (k + 1) j t s =
      (vget layer j >>= fun a => vget layer t >>= fun b => candStep (k + 1) s (a, b)) := by
    intro j t s hs
    unfold expandPair candStep
    rw [Nat.add_sub_cancel, vget_ok.2 hs, ok_bind]
    rfl
  have keep : ∀ j t (s s' : Graph W), s[k]? = some layer → expandPair (k + 1) j t s = .ok s' →
      s'[k]? = some layer := by
    intro j t s s' hs h
    rw [e j t s hs] at h
    obtain ⟨a, -, h⟩ := bind_ok.1 h
    obtain ⟨b, -, h⟩ := bind_ok.1 h
    rw [pairStep_lower h k (by omega)]
    exact hs
  have := double_loop (fun s a b => candStep (k + 1) s (a, b)) layer layer [] g rfl
  rw [List.length_nil, ← List.range_eq_range'] at this
  rw [← show (pairsOf layer).foldlM (fun s p => candStep (k + 1) s (p.1, p.2)) g =
    (pairsOf layer).foldlM (candStep (k + 1)) g from rfl, ← this]
  refine foldlM_congr_inv (fun s => s[k]? = some layer) _ (fun s j _ hs => ⟨?_, fun s' h => ?_⟩) g hg
  · exact foldlM_congr_inv (fun s => s[k]? = some layer) _
      (fun s t _ hs => ⟨e j t s hs, fun s' h => keep j t s s' hs h⟩) s hs
  · exact foldlM_inv (fun s => s[k]? = some layer) hs (fun s t s' _ hs h => keep j t s s' hs h) h

/-! ### Storing -/

omit [IsStrictOrderedRing W] in
/-- What storing does to the layers. -/
theorem storeSimplex_getD {d : Nat} (e : List Nat × W) {g : Graph W} (hl : g.length = d ∨ g.length = d + 1) :
    ∃ g', storeSimplex d e g = .ok g' ∧ g'.length = d + 1 ∧
      ∀ k, g'.getD k [] = if k = d ∧ e ∉ g.getD d [] then g.getD d [] ++ [e] else g.getD k [] := by
  unfold storeSimplex
  by_cases h : g.length = d
  · rw [if_pos h]
    refine ⟨_, rfl, by simp [h], fun k => ?_⟩
    have hnil : g.getD d [] = [] := List.getD_eq_default _ _ (by omega)
    rw [hnil]
    by_cases hk : k = d
    · subst hk
      rw [if_pos ⟨rfl, by simp⟩, ← h]
      simp
    · rw [if_neg (by tauto)]
      by_cases hkd : k < d
      · rw [List.getD_eq_getElem?_getD, List.getD_eq_getElem?_getD, List.getElem?_append_left (by omega)]
      · rw [List.getD_eq_default _ _ (by rw [List.length_append, List.length_singleton]; omega),
          List.getD_eq_default _ _ (by omega)]
  · rw [if_neg h]
    have hd : d < g.length := by omega
    rw [vget_of_lt hd, ok_bind, List.getD_eq_getElem _ _ hd]
    by_cases he : e ∈ g[d]
    · rw [if_pos he]
      exact ⟨g, rfl, by omega, fun k => by rw [if_neg (by tauto)]⟩
    · rw [if_neg he]
      unfold vmodify
      rw [if_pos hd]
      refine ⟨_, rfl, by simp; omega, fun k => ?_⟩
      by_cases hk : k = d
      · subst hk
        rw [if_pos ⟨rfl, he⟩, List.getD_eq_getElem?_getD, List.getElem?_modify,
          List.getElem?_eq_getElem hd]
        simp
      · rw [if_neg (by tauto), List.getD_eq_getElem?_getD, List.getElem?_modify,
          List.getD_eq_getElem?_getD]
        have : d ≠ k := by omega
        simp [this]

/-- No layer is empty. -/
def Full (g : Graph W) : Prop := ∀ l ∈ g, l ≠ []

omit [LinearOrder W] [Ring W] [IsStrictOrderedRing W] in
theorem full_iff {g : Graph W} : Full g ↔ ∀ k, k < g.length → g.getD k [] ≠ [] := by
  constructor
  · intro h k hk
    rw [List.getD_eq_getElem _ _ hk]
    exact h _ (List.getElem_mem hk)
  · intro h l hl
    obtain ⟨k, hk, rfl⟩ := List.mem_iff_getElem.1 hl
    have := h k hk
    rwa [List.getD_eq_getElem _ _ hk] at this

omit [IsStrictOrderedRing W] in
theorem storeSimplex_full {d : Nat} {e : List Nat × W} {g g' : Graph W}
    (hl : g.length = d ∨ g.length = d + 1) (hf : Full g) (h : storeSimplex d e g = .ok g') : Full g' := by
  obtain ⟨g1, h1, h2, h3⟩ := storeSimplex_getD e hl
  rw [h1] at h
  cases h
  rw [full_iff] at hf ⊢
  intro k hk
  rw [h3]
  split_ifs with hc
  · simp
  · by_cases hkd : k < g.length
    · exact hf k hkd
    · have : k = d := by omega
      subst this
      have hnil : g.getD k [] = [] := List.getD_eq_default _ _ (by omega)
      rw [hnil] at hc
      simp at hc

omit [IsStrictOrderedRing W] in
theorem below_both {c : W} {d : Nat} {e : List Nat × W} (he : e.2 < c) {gS gL gS' gL' : Graph W}
    (hb : Below c gS gL) (hlS : gS.length = d ∨ gS.length = d + 1)
    (hlL : gL.length = d ∨ gL.length = d + 1) (hS : storeSimplex d e gS = .ok gS')
    (hL : storeSimplex d e gL = .ok gL') : Below c gS' gL' := by
  obtain ⟨s1, s2, -, s3⟩ := storeSimplex_getD e hlS
  obtain ⟨t1, t2, -, t3⟩ := storeSimplex_getD e hlL
  rw [s2] at hS
  rw [t2] at hL
  cases hS
  cases hL
  intro k
  rw [s3, t3, hb d, hb k]
  have hmem : e ∈ (gL.getD d []).filter (fun e => decide (e.2 < c)) ↔ e ∈ gL.getD d [] := by
    rw [List.mem_filter]
    simp [he]
  by_cases hk : k = d ∧ e ∉ gL.getD d []
  · rw [if_pos hk, if_pos ⟨hk.1, by rw [hmem]; exact hk.2⟩, List.filter_append]
    simp [he]
  · rw [if_neg hk, if_neg (by rw [hmem]; exact hk)]

omit [IsStrictOrderedRing W] in
theorem below_hidden {c : W} {d : Nat} {e : List Nat × W} (he : c ≤ e.2) {gS gL gL' : Graph W}
    (hb : Below c gS gL) (hlL : gL.length = d ∨ gL.length = d + 1)
    (hL : storeSimplex d e gL = .ok gL') : Below c gS gL' := by
  obtain ⟨t1, t2, -, t3⟩ := storeSimplex_getD e hlL
  rw [t2] at hL
  cases hL
  intro k
  rw [t3, hb k]
  split_ifs with hk
  · rw [List.filter_append, hk.1]
    simp [not_lt.2 he]
  · rfl

omit [IsStrictOrderedRing W] in
theorem weighs_store {dd : Nat → Nat → W} {d : Nat} {e : List Nat × W} (he : e.2 = diam dd e.1)
    {g g' : Graph W} (hw : Weighs dd g) (hl : g.length = d ∨ g.length = d + 1)
    (h : storeSimplex d e g = .ok g') : Weighs dd g' := by
  obtain ⟨t1, t2, -, t3⟩ := storeSimplex_getD e hl
  rw [t2] at h
  cases h
  intro k x hx
  rw [t3] at hx
  split_ifs at hx
  · rcases List.mem_append.1 hx with hx | hx
    · exact hw d x hx
    · rw [List.mem_singleton.1 hx]
      exact he
  · exact hw k x hx

/-! ### The expansion -/

/-- One pair whose two entries are both stored below the bound. -/
theorem pairs_below {c : W} (hc : 0 < c) {n k : Nat} (hk : 1 ≤ k) {d : Nat → Nat → W}
    {nearS nearL : Nat → Nat → Prop} {layerS layerL : List (List Nat × W)}
    (hndL : (layerL.map Prod.fst).Nodup)
    (hmL : ∀ s w, (s, w) ∈ layerL ↔ s.length = k + 1 ∧ IsSimplex n nearL s ∧ w = diam d s)
    (hndS : (layerS.map Prod.fst).Nodup)
    (hmS : ∀ s w, (s, w) ∈ layerS ↔ s.length = k + 1 ∧ IsSimplex n nearS s ∧ w = diam d s)
    (hlay : layerS = layerL.filter (fun e => e.2 < c)) :
    ∀ (ps : List ((List Nat × W) × (List Nat × W))),
    (∀ p ∈ ps, p.1 ∈ layerL ∧ p.2 ∈ layerL ∧ p.1.1 ≠ p.2.1) →
    ∀ (gS gL gS' gL' : Graph W), Below c gS gL → Weighs d gL → gL[k]? = some layerL →
    (gL.length = k + 1 ∨ gL.length = k + 2) →
    ((gS[k]? = some layerS ∧ (gS.length = k + 1 ∨ gS.length = k + 2)) ∨
      ∀ p ∈ ps, ¬ (p.1.2 < c ∧ p.2.2 < c)) →
    (ps.filter (fun p => decide (p.1.2 < c) && decide (p.2.2 < c))).foldlM (candStep (k + 1)) gS = .ok gS' →
    ps.foldlM (candStep (k + 1)) gL = .ok gL' → Below c gS' gL' := by
  intro ps
  induction ps with
  | nil =>
    intro _ gS gL gS' gL' hb _ _ _ _ hS hL
    cases hS
    cases hL
    exact hb
  | cons p ps ih =>
    intro hps gS gL gS' gL' hb hw hgL hlL hor hS hL
    obtain ⟨p1, p2, p3⟩ := hps p (by simp)
    have hps' := fun q hq => hps q (List.mem_cons_of_mem _ hq)
    have ea := (hmL p.1.1 p.1.2).1 p1
    have eb := (hmL p.2.1 p.2.2).1 p2
    have e1 : p.1 = (p.1.1, diam d p.1.1) := Prod.ext rfl ea.2.2
    have e2 : p.2 = (p.2.1, diam d p.2.1) := Prod.ext rfl eb.2.2
    obtain ⟨cL, l1, l2, -⟩ := candidate_spec hk ⟨layerL, hgL, hndL, hmL⟩ ea.2.1 eb.2.1 ea.1 eb.1 p3
    rw [← e1, ← e2] at l1
    rw [List.foldlM_cons] at hL
    obtain ⟨gL1, hL1, hL2⟩ := bind_ok.1 hL
    have hkeep := pairStep_lower hL1 k (by omega)
    have hstep := hL1
    unfold candStep at hL1
    rw [l1, ok_bind] at hL1
    have hL1len : gL1.length = k + 1 ∨ gL1.length = k + 2 := by
      cases cL with
      | none => cases hL1; exact hlL
      | some e =>
        obtain ⟨g', q1, q2, -⟩ := storeSimplex_getD (d := k + 1) e hlL
        dsimp only at hL1
        rw [q1] at hL1
        cases hL1
        exact .inr q2
    have hL1w : Weighs d gL1 := by
      cases cL with
      | none => cases hL1; exact hw
      | some e => exact weighs_store (l2 e rfl).2.2 hw hlL hL1
    by_cases hboth : p.1.2 < c ∧ p.2.2 < c
    · rcases hor with ⟨hgS, hlS⟩ | hno
      swap
      · exact absurd hboth (hno p (by simp))
      rw [List.filter_cons_of_pos (by simpa using hboth), List.foldlM_cons] at hS
      obtain ⟨gS1, hS1, hS2⟩ := bind_ok.1 hS
      have hkeepS := pairStep_lower hS1 k (by omega)
      have q1 : p.1 ∈ layerS := by
        rw [hlay]
        exact List.mem_filter.2 ⟨p1, by simpa using hboth.1⟩
      have q2 : p.2 ∈ layerS := by
        rw [hlay]
        exact List.mem_filter.2 ⟨p2, by simpa using hboth.2⟩
      have fa := (hmS p.1.1 p.1.2).1 q1
      have fb := (hmS p.2.1 p.2.2).1 q2
      obtain ⟨cS, s1, s2, -⟩ := candidate_spec hk ⟨layerS, hgS, hndS, hmS⟩ fa.2.1 fb.2.1 fa.1 fb.1 p3
      rw [← e1, ← e2] at s1
      unfold candStep at hS1
      rw [s1, ok_bind] at hS1
      have hcc := candidate_below hc hw hb hboth.1 hboth.2 s1 l1
      have hS1len : gS1.length = k + 1 ∨ gS1.length = k + 2 := by
        cases cS with
        | none => cases hS1; exact hlS
        | some e =>
          obtain ⟨g', q1, q2, -⟩ := storeSimplex_getD (d := k + 1) e hlS
          dsimp only at hS1
          rw [q1] at hS1
          cases hS1
          exact .inr q2
      refine ih hps' gS1 gL1 gS' gL' ?_ hL1w (by rw [hkeep]; exact hgL) hL1len
        (.inl ⟨by rw [hkeepS]; exact hgS, hS1len⟩) hS2 hL2
      cases cL with
      | none =>
        rw [show cS = none from hcc] at hS1
        cases hS1
        cases hL1
        exact hb
      | some e =>
        by_cases he : e.2 < c
        · rw [show cS = some e by rw [hcc]; simp [Option.filter, he]] at hS1
          exact below_both he hb hlS hlL hS1 hL1
        · rw [show cS = none by rw [hcc]; simp [Option.filter, he]] at hS1
          cases hS1
          exact below_hidden (not_lt.1 he) hb hlL hL1
    · rw [List.filter_cons_of_neg (by simpa using hboth)] at hS
      refine ih hps' gS gL1 gS' gL' ?_ hL1w (by rw [hkeep]; exact hgL) hL1len
        (hor.imp id (fun h q hq => h q (List.mem_cons_of_mem _ hq))) hS hL2
      cases cL with
      | none => cases hL1; exact hb
      | some e =>
        obtain ⟨g1, g2⟩ := candidate_ge l1
        refine below_hidden ?_ hb hlL hL1
        by_contra he
        rw [not_le] at he
        exact hboth ⟨lt_of_le_of_lt g1 he, lt_of_le_of_lt g2 he⟩

omit [IsStrictOrderedRing W] in
theorem rips_weighs {g : Graph W} {n D : Nat} {d : Nat → Nat → W} {near : Nat → Nat → Prop}
    (h : StoresRips g n d near D) : Weighs d g := by
  intro k e he
  by_cases hk : k < g.length
  · rw [List.getD_eq_getElem _ _ hk] at he
    have := h.only
    exact ((h.exact k e.1 e.2 (by omega)).1 ⟨_, List.getElem?_eq_getElem hk, he⟩).2.2
  · rw [List.getD_eq_default _ _ (by omega)] at he
    cases he

theorem expandDim_below {c : W} (hc : 0 < c) {n k : Nat} (hk : 1 ≤ k) {d : Nat → Nat → W}
    {nearS nearL : Nat → Nat → Prop} {gS gL gS' gL' : Graph W} (hS : StoresRips gS n d nearS k)
    (hL : StoresRips gL n d nearL k) (hlL : gL.length = k + 1) (hb : Below c gS gL)
    (eS : if gS.length = k + 1 then expandDim (k + 1) gS = .ok gS' else gS' = gS)
    (eL : expandDim (k + 1) gL = .ok gL') : Below c gS' gL' := by
  obtain ⟨layerL, hgL, hndL, hmL⟩ := hL.layerExact (le_refl k) (by omega)
  rw [expandDim_pairs hgL] at eL
  have hget : gL.getD k [] = layerL := by
    rw [List.getD_eq_getElem?_getD, hgL]
    rfl
  have hps : ∀ p ∈ pairsOf layerL, p.1 ∈ layerL ∧ p.2 ∈ layerL ∧ p.1.1 ≠ p.2.1 := by
    rintro ⟨a, b⟩ hp
    exact mem_pairsOf Prod.fst hndL hp
  by_cases hlS : gS.length = k + 1
  · rw [if_pos hlS] at eS
    obtain ⟨layerS, hgS, hndS, hmS⟩ := hS.layerExact (le_refl k) (by omega)
    have hlay : layerS = layerL.filter (fun e => e.2 < c) := by
      rw [← hget, ← hb k, List.getD_eq_getElem?_getD, hgS]
      rfl
    rw [expandDim_pairs hgS, hlay, pairsOf_filter] at eS
    exact pairs_below hc hk hndL hmL hndS hmS hlay _ hps gS gL gS' gL' hb (rips_weighs hL) hgL
      (.inl hlL) (.inl ⟨hgS, .inl hlS⟩) eS eL
  · rw [if_neg hlS] at eS
    subst eS
    have hnil : layerL.filter (fun e => e.2 < c) = [] := by
      rw [← hget, ← hb k]
      have := hS.only
      exact List.getD_eq_default _ _ (by omega)
    have hno : ∀ p ∈ pairsOf layerL, ¬ (p.1.2 < c ∧ p.2.2 < c) := by
      rintro p hp ⟨h1, -⟩
      rw [List.filter_eq_nil_iff] at hnil
      exact hnil p.1 (hps p hp).1 (by simpa using h1)
    refine pairs_below (n := n) (d := d) (nearS := fun i j => nearL i j ∧ False) (layerS := []) hc hk hndL hmL
      (by simp) ?_ hnil.symm (pairsOf layerL) hps gS' gL gS' gL' hb (rips_weighs hL) hgL (.inl hlL)
      (.inr hno) ?_ eL
    · intro s w
      refine ⟨fun h => absurd h (by simp), ?_⟩
      rintro ⟨h1, h2, -⟩
      exfalso
      match s, h1, h2 with
      | a :: b :: s, h1, h2 =>
        have := h2.inc
        have hab : a < b := by
          have := (List.pairwise_cons.1 this).1 b (by simp)
          exact this
        exact (h2.2.2.2 a (by simp) b (by simp) hab).2
      | [a], h1, _ =>
        rw [List.length_singleton] at h1
        omega
    · rw [List.filter_eq_nil_iff.2]
      · rfl
      · intro p hp
        simpa using hno p hp

omit [IsStrictOrderedRing W] in
theorem expandDim_full {k : Nat} {g g' : Graph W} (hl : g.length = k + 1)
    (hf : Full g) (h : expandDim (k + 1) g = .ok g') : Full g' := by
  rw [expandDim_pairs (List.getElem?_eq_getElem (by omega : k < g.length))] at h
  have := foldlM_inv (fun g : Graph W => Full g ∧ (g.length = k + 1 ∨ g.length = k + 2)) ⟨hf, .inl hl⟩
    (by
      rintro s p s' - ⟨h1, h2⟩ hs
      unfold candStep at hs
      obtain ⟨c, -, hs⟩ := bind_ok.1 hs
      cases c with
      | none => cases hs; exact ⟨h1, h2⟩
      | some e =>
        refine ⟨storeSimplex_full h2 h1 hs, ?_⟩
        obtain ⟨g1, q1, q2, -⟩ := storeSimplex_getD (d := k + 1) e h2
        dsimp only at hs
        rw [q1] at hs
        cases hs
        exact .inr q2) h
  exact this.1

theorem expandLoop_below {c : W} (hc : 0 < c) {n : Nat} {d : Nat → Nat → W}
    {nearS nearL : Nat → Nat → Prop} (m : Nat) : ∀ (k : Nat) (gS gL gS' gL' : Graph W), 1 ≤ k →
    StoresRips gS n d nearS k → StoresRips gL n d nearL k → Full gS → Below c gS gL →
    expandLoop (List.range' (k + 1) m) gS = .ok gS' → expandLoop (List.range' (k + 1) m) gL = .ok gL' →
    Below c gS' gL' := by
  have short : ∀ (m k : Nat) (g : Graph W), g.length < k → expandLoop (List.range' k m) g = .ok g := by
    intro m k g h
    cases m with
    | zero => rfl
    | succ m => rw [List.range'_succ, expandLoop, if_pos h]; rfl
  induction m with
  | zero =>
    intro k gS gL gS' gL' _ _ _ _ hb h1 h2
    cases h1
    cases h2
    exact hb
  | succ m ih =>
    intro k gS gL gS' gL' hk hS hL hf hb h1 h2
    have hoS := hS.only
    have hoL := hL.only
    by_cases hlL : gL.length < k + 1
    · have hlS : gS.length < k + 1 := by
        by_contra h
        have := full_iff.1 hf k (by omega)
        rw [hb k, List.getD_eq_default gL _ (by omega)] at this
        exact this rfl
      rw [short _ _ _ hlS] at h1
      rw [short _ _ _ hlL] at h2
      cases h1
      cases h2
      exact hb
    · rw [List.range'_succ, expandLoop, if_neg hlL] at h2
      obtain ⟨gL1, l1, l2⟩ := bind_ok.1 h2
      have hlL' : gL.length = k + 1 := by omega
      obtain ⟨gL2, e1, e2, -⟩ := expandDim_new hL hk hlL'
      rw [l1] at e1
      cases e1
      by_cases hlS : gS.length < k + 1
      · rw [short _ _ _ hlS] at h1
        cases h1
        refine ih (k + 1) gS gL1 gS gL' (by omega) (hS.extend (by omega) (by omega)) e2 hf ?_
          (short _ _ _ (by omega)) l2
        exact expandDim_below hc hk hS hL hlL' hb (by rw [if_neg (by omega)]) l1
      · rw [List.range'_succ, expandLoop, if_neg hlS] at h1
        obtain ⟨gS1, s1, s2⟩ := bind_ok.1 h1
        have hlS' : gS.length = k + 1 := by omega
        obtain ⟨gS2, f1, f2, -⟩ := expandDim_new hS hk hlS'
        rw [s1] at f1
        cases f1
        exact ih (k + 1) gS1 gL1 gS' gL' (by omega) f2 e2 (expandDim_full hlS' hf s1)
          (expandDim_below hc hk hS hL hlL' hb (by rw [if_pos hlS']; exact s1) l1) s2 l2

/-! ### The insertions -/

omit [IsStrictOrderedRing W] in
theorem inserted_below {c epsS epsL : W} (hc : 0 < c) {d : Nat → Nat → W} {n dimS dimL : Nat}
    (hdS : 0 < dimS) (hdL : 0 < dimL)
    (hcut : ∀ i j, j < i → i < n → (d j i ≤ epsS ↔ d j i ≤ epsL ∧ d j i < c)) :
    Below c (insertedGraph epsS d dimS n) (insertedGraph epsL d dimL n) ∧
      Full (insertedGraph epsS d dimS n) := by
  unfold insertedGraph
  by_cases hn : n = 0
  · rw [if_pos hn, if_pos hn]
    exact ⟨fun k => by simp, by intro l hl; cases hl⟩
  rw [if_neg hn, if_neg hn, if_pos hdS, if_pos hdL]
  have he : edgesOf epsS d n = (edgesOf epsL d n).filter (fun e => e.2 < c) := by
    unfold edgesOf
    rw [List.filter_flatMap]
    refine List.flatMap_congr fun i hi => ?_
    rw [List.mem_range] at hi
    unfold edgesTo
    rw [List.filter_map, List.filter_filter]
    congr 1
    apply List.filter_congr
    intro j hj
    rw [List.mem_range] at hj
    have := hcut i j hj hi
    simp only [Function.comp, this, Bool.decide_and]
    exact Bool.and_comm _ _
  have hopt : ∀ (L : List (List Nat × W)) (k : Nat), (optLayer L).getD k [] = if k = 0 then L else [] := by
    intro L k
    cases L with
    | nil => simp [optLayer_nil]
    | cons x L =>
      cases k with
      | zero => rfl
      | succ k => simp [optLayer_cons]
  constructor
  · intro k
    cases k with
    | zero =>
      rw [List.getD_cons_zero, List.getD_cons_zero, List.filter_eq_self.2]
      intro e he
      unfold vertsOf at he
      obtain ⟨i, -, rfl⟩ := List.mem_map.1 he
      simpa using hc
    | succ k =>
      rw [List.getD_cons_succ, List.getD_cons_succ, hopt, hopt, he]
      split_ifs <;> simp
  · intro l hl
    rcases List.mem_cons.1 hl with rfl | hl
    · unfold vertsOf
      simpa using hn
    · unfold optLayer at hl
      split_ifs at hl with h
      · cases hl
      · rw [List.mem_singleton.1 hl]
        simpa using h

end
end LHF
