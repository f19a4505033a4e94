import Verif.Model.StandardRun
import Verif.Spec.RipsHomology
import Verif.Props.Persistence
import Verif.Lemmas.Persist

/-! The homology of the stored complex below the threshold is that of the Rips complex; the tree after
one insertion per point. -/

namespace LHF
open Spec

section
variable {W : Type} [LinearOrder W] [Zero W]

/-- Below the threshold the stored simplices of weight at most `t` are those of the Rips complex at
scale `t`. -/
theorem mem_sublevel_rips {g edges : List (List (List Nat × W))} {n D : Nat} {d : Nat → Nat → W}
    {near : Nat → Nat → Prop} (h : StoresRips g n d near D) (ho : SortedLayers edges g) {k : Nat}
    (hk : k ≤ D) {t : W} (ht : 0 ≤ t) (hn : ∀ i j, d i j ≤ t → near i j) (s : List Nat) :
    s ∈ sublevel edges k t ↔ s.length = k + 1 ∧ IsSimplex n (fun i j => d i j ≤ t) s := by
  have hmem : ∀ w, (s, w) ∈ edges.getD k [] ↔ ∃ layer, g[k]? = some layer ∧ (s, w) ∈ layer := by
    intro w
    rw [List.getD_eq_getElem?_getD]
    constructor
    · intro hx
      cases hl : edges[k]? with
      | none => rw [hl] at hx; simp at hx
      | some l =>
        rw [hl] at hx
        obtain ⟨l', h1, h2⟩ := (sortedLayers_get ho k).1 l hl
        exact ⟨l', h1, h2.mem_iff.1 hx⟩
    · rintro ⟨l, h1, h2⟩
      obtain ⟨l', h3, h4⟩ := (sortedLayers_get ho k).2 l h1
      rw [h3]
      exact h4.mem_iff.2 h2
  unfold sublevel
  simp only [List.mem_map, List.mem_filter, decide_eq_true_eq]
  constructor
  · rintro ⟨⟨s', w⟩, ⟨h1, h2⟩, rfl⟩
    obtain ⟨h3, h4, h5⟩ := (h.exact k _ w hk).1 ((hmem w).1 h1)
    refine ⟨h3, h4.1, h4.2.1, h4.2.2.1, ?_⟩
    dsimp only at h2
    rw [h5, diam_le_iff] at h2
    exact h2.2
  · rintro ⟨h1, h2⟩
    refine ⟨(s, diam d s), ⟨(hmem _).2 ((h.exact k s _ hk).2 ⟨h1, ⟨h2.1, h2.2.1, h2.2.2.1, ?_⟩, rfl⟩),
      ?_⟩, rfl⟩
    · intro i hi j hj hij
      exact hn i j (h2.2.2.2 i hi j hj hij)
    · exact (diam_le_iff d s t).2 ⟨ht, h2.2.2.2⟩

theorem chains_rips {g edges : List (List (List Nat × W))} {n D : Nat} {d : Nat → Nat → W}
    {near : Nat → Nat → Prop} (h : StoresRips g n d near D) (ho : SortedLayers edges g) {k : Nat}
    (hk : k ≤ D) {t : W} (ht : 0 ≤ t) (hn : ∀ i j, d i j ≤ t → near i j) :
    chains (sublevel edges k t) = ripsChains n d k t := by
  unfold chains ripsChains
  congr 1
  ext x
  constructor
  · rintro ⟨s, hs, rfl⟩
    obtain ⟨h1, h2⟩ := (mem_sublevel_rips h ho hk ht hn s).1 hs
    exact ⟨s, h1, h2, rfl⟩
  · rintro ⟨s, h1, h2, rfl⟩
    exact ⟨s, (mem_sublevel_rips h ho hk ht hn s).2 ⟨h1, h2⟩, rfl⟩

theorem betti_rips {g edges : List (List (List Nat × W))} {n D : Nat} {d : Nat → Nat → W}
    {near : Nat → Nat → Prop} (h : StoresRips g n d near D) (ho : SortedLayers edges g) {k : Nat}
    (hk : k < D) {t : W} (ht : 0 ≤ t) (hn : ∀ i j, d i j ≤ t → near i j) :
    betti edges k t = ripsBetti n d k t := by
  have key : ∀ A A' B B' : Submodule (ZMod 2) Chain, A = A' → B = B' →
      Module.finrank (ZMod 2) ↥((A ⊓ LinearMap.ker boundary).map (B.map boundary).mkQ) =
      Module.finrank (ZMod 2) ↥((A' ⊓ LinearMap.ker boundary).map (B'.map boundary).mkQ) := by
    rintro A _ B _ rfl rfl
    rfl
  exact key _ _ _ _ (chains_rips h ho (by omega) ht hn) (chains_rips h ho (by omega) ht hn)

theorem persistent_rips {g edges : List (List (List Nat × W))} {n D : Nat} {d : Nat → Nat → W}
    {near : Nat → Nat → Prop} (h : StoresRips g n d near D) (ho : SortedLayers edges g) {k : Nat}
    (hk : k < D) {s t : W} (hs : 0 ≤ s) (hst : s ≤ t) (hn : ∀ i j, d i j ≤ t → near i j) :
    persistentBetti edges k s t = ripsPersistent n d k s t := by
  have key : ∀ A A' B B' : Submodule (ZMod 2) Chain, A = A' → B = B' →
      Module.finrank (ZMod 2) ↥((A ⊓ LinearMap.ker boundary).map (B.map boundary).mkQ) =
      Module.finrank (ZMod 2) ↥((A' ⊓ LinearMap.ker boundary).map (B'.map boundary).mkQ) := by
    rintro A _ B _ rfl rfl
    rfl
  exact key _ _ _ _ (chains_rips h ho (by omega) hs (fun i j hij => hn i j (hij.trans hst)))
    (chains_rips h ho (by omega) (hs.trans hst) hn)

omit [Zero W] in
theorem proximity_scale {n : Nat} {d : Nat → Nat → W} {near : Nat → Nat → Prop} {t : W}
    (hn : ∀ i j, d i j ≤ t → near i j) : proximity n d near t = scaleGraph n d t := by
  ext x y
  show ((x < y ∧ near x y ∧ d x y ≤ t) ∨ (y < x ∧ near y x ∧ d y x ≤ t)) ↔
    ((x < y ∧ d x y ≤ t) ∨ (y < x ∧ d y x ≤ t))
  constructor
  · rintro (h | h)
    · exact Or.inl ⟨h.1, h.2.2⟩
    · exact Or.inr ⟨h.1, h.2.2⟩
  · rintro (h | h)
    · exact Or.inl ⟨h.1, hn _ _ h.2, h.2⟩
    · exact Or.inr ⟨h.1, hn _ _ h.2, h.2⟩

/-- A complex that stores an edge has at least two layers. -/
theorem rips_two_layers {g edges : List (List (List Nat × W))} {n D : Nat} {d : Nat → Nat → W}
    {near : Nat → Nat → Prop} (h : StoresRips g n d near D) (hD : 1 ≤ D) (ho : SortedLayers edges g)
    (he : ∃ i j, i < j ∧ j < n ∧ near i j) : 2 ≤ edges.length := by
  obtain ⟨i, j, hij, hj, hn⟩ := he
  obtain ⟨l, h1, -⟩ := (h.exact 1 [i, j] _ hD).2 ⟨rfl, ⟨by simp, by simpa using hij, by
    intro v hv
    simp only [List.mem_cons, List.not_mem_nil, or_false] at hv
    omega, by
    intro a ha b hb hab
    simp only [List.mem_cons, List.not_mem_nil, or_false] at ha hb
    have : a = i ∧ b = j := by omega
    rw [this.1, this.2]; exact hn⟩, rfl⟩
  obtain ⟨l', h2, -⟩ := (sortedLayers_get ho 1).2 l h1
  have := (List.getElem?_eq_some_iff.1 h2).1
  omega

/-- The weights of the stored simplices with at least two vertices are distances of near points. -/
theorem rips_weight_range {g edges : List (List (List Nat × W))} {n D : Nat} {d : Nat → Nat → W}
    {near : Nat → Nat → Prop} (h : StoresRips g n d near D) (h0 : ∀ i j, 0 ≤ d i j)
    (ho : SortedLayers edges g) {inRange : W → Prop} (hr : ∀ i j, near i j → inRange (d i j))
    {k : Nat} (hk1 : 1 ≤ k) (hk : k ≤ D) {s : List Nat} {w : W} (hs : (s, w) ∈ edges.getD k []) :
    0 ≤ w ∧ inRange w := by
  have hmem : ∃ layer, g[k]? = some layer ∧ (s, w) ∈ layer := by
    rw [List.getD_eq_getElem?_getD] at hs
    cases hl : edges[k]? with
    | none => rw [hl] at hs; simp at hs
    | some l =>
      rw [hl] at hs
      obtain ⟨l', h1, h2⟩ := (sortedLayers_get ho k).1 l hl
      exact ⟨l', h1, h2.mem_iff.1 hs⟩
  obtain ⟨h1, h2, rfl⟩ := (h.exact k s w hk).1 hmem
  have key : ∀ l : List W, (∀ x ∈ l, 0 ≤ x ∧ inRange x) → l ≠ [] →
      0 ≤ l.foldr max 0 ∧ inRange (l.foldr max 0) := by
    intro l
    induction l with
    | nil => intro _ h; exact absurd rfl h
    | cons x l ih =>
      intro hx _
      obtain ⟨hx0, hx1⟩ := hx x (by simp)
      by_cases hl : l = []
      · subst hl
        simpa [max_eq_left hx0] using ⟨hx0, hx1⟩
      · obtain ⟨i0, i1⟩ := ih (fun y hy => hx y (by simp [hy])) hl
        rw [List.foldr_cons]
        rcases max_choice x (l.foldr max 0) with e | e <;> rw [e]
        · exact ⟨hx0, hx1⟩
        · exact ⟨i0, i1⟩
  unfold diam
  apply key
  · intro x hx
    simp only [List.mem_flatMap, List.mem_map, List.mem_filter, decide_eq_true_eq] at hx
    obtain ⟨i, hi, j, ⟨hj, hij⟩, rfl⟩ := hx
    exact ⟨h0 i j, hr i j (h2.2.2.2 i hi j hj hij)⟩
  · match s, h1, h2 with
    | [], h1, _ => simp at h1
    | [_], h1, _ => simp at h1; omega
    | a :: b :: s, _, h2 =>
      have hab : a < b := by
        have := h2.2.1
        simp only [List.pairwise_cons] at this
        exact this.1 b (by simp)
      apply List.ne_nil_of_mem (a := d a b)
      simp only [List.mem_flatMap, List.mem_map, List.mem_filter, decide_eq_true_eq]
      exact ⟨a, by simp, b, ⟨by simp, hab⟩, rfl⟩

theorem forall₂_mem_left {α β : Type} {R : α → β → Prop} {l : List α} {l' : List β}
    (h : List.Forall₂ R l l') : ∀ a ∈ l, ∃ b ∈ l', R a b := by
  induction h with
  | nil => intro a ha; cases ha
  | cons h _ ih =>
    intro a ha
    rcases List.mem_cons.1 ha with rfl | ha
    · exact ⟨_, by simp, h⟩
    · obtain ⟨b, hb, hab⟩ := ih a ha
      exact ⟨b, by simp [hb], hab⟩

/-- The dimension-0 lines of a stored Rips complex. -/
theorem zero_of_rips {mode : EndRead} {dim : Nat} {eps : W}
    {g edges : List (List (List Nat × W))} {n D : Nat} {d : Nat → Nat → W}
    {near : Nat → Nat → Prop} (h : StoresRips g n d near D) (hD : 1 ≤ D)
    (h0 : ∀ i j, 0 ≤ d i j) (ho : SortedLayers edges g)
    (he : ∃ i j, i < j ∧ j < n ∧ near i j)
    (inRange : W → Prop) (hr : ∀ t, inRange t → ∀ i j, d i j ≤ t → near i j)
    (hr' : ∀ i j, near i j → inRange (d i j))
    {output : List (Line W)} {T0 : List (BettiEntry W)} {lines : List (Line W)}
    {table : List (BettiEntry W)}
    (hok : fastPersistence mode dim eps edges output T0 = .ok (lines, table)) :
    ∃ deaths : List W,
      lines.filter (fun l => l.1 = 0) = deaths.map (fun w => (0, 0, w)) ++ [(0, 0, eps)] ∧
      deaths.Pairwise (· ≤ ·) ∧ (∀ w ∈ deaths, 0 ≤ w ∧ inRange w) ∧
      ∀ t, 0 ≤ t → inRange t →
        components (scaleGraph n d t) + (deaths.filter (fun w => w ≤ t)).length = n := by
  have hlen := rips_two_layers h hD ho he
  have hF := filtered_of_rips h ho
  obtain ⟨deaths, h1, h2, h3⟩ := C22_single_linkage h hD h0 ho hlen hok
  refine ⟨deaths, h1, h2, fun w hw => ?_, fun t _ ht => ?_⟩
  · obtain ⟨F, piv, pr, T, hK, h4, -⟩ := fast_ok hF hlen hok
    have h5 : lines.filter (fun l => l.1 = 0) =
        (F.map Prod.snd).map (fun w => ((0, 0, w) : Line W)) ++ [(0, 0, eps)] := by
      rw [h4]; exact dim_zero_lines F eps
    have h6 := List.append_cancel_right (h1.symm.trans h5)
    have h7 : deaths = F.map Prod.snd :=
      List.map_injective_iff.2 (fun a b hab => by simpa using hab) h6
    rw [h7, List.mem_map] at hw
    obtain ⟨e, he', rfl⟩ := hw
    exact rips_weight_range h h0 ho hr' (le_refl 1) hD (hK.sub.subset he')
  · have := h3 t
    rw [proximity_scale (hr t ht)] at this
    omega

/-- The barcode of a stored Rips complex describes the Rips filtration below the threshold. -/
theorem describes_of_rips {mode : EndRead} {dim : Nat} {eps : W}
    {g edges : List (List (List Nat × W))} {n D : Nat} {d : Nat → Nat → W}
    {near : Nat → Nat → Prop} (h : StoresRips g n d near D) (hD : 1 ≤ D) (hdim : dim ≤ D)
    (h0 : ∀ i j, 0 ≤ d i j) (ho : SortedLayers edges g)
    (he : ∃ i j, i < j ∧ j < n ∧ near i j) (hskip : SkipsNegatives mode dim edges)
    (inRange : W → Prop) (hr : ∀ t, inRange t → ∀ i j, d i j ≤ t → near i j)
    (hr' : ∀ i j, near i j → inRange (d i j))
    {output : List (Line W)} {T0 : List (BettiEntry W)} {lines : List (Line W)}
    {table : List (BettiEntry W)}
    (hok : fastPersistence mode dim eps edges output T0 = .ok (lines, table)) :
    DescribesRips n d inRange eps dim lines := by
  have hlen := rips_two_layers h hD ho he
  have hF := filtered_of_rips h ho
  have hzero : ∀ l ∈ lines, l.1 = 0 ∨ l.1 < dim := by
    intro l hl
    obtain ⟨F, piv, pr, T, -, h2, -⟩ := fast_ok hF hlen hok
    rw [h2, List.mem_append] at hl
    rcases hl with hl | hl
    · exact Or.inl (zero_lines F eps l hl)
    · have := higher_dim hl
      by_cases h : l.1 = 0
      · exact Or.inl h
      · right; omega
  refine ⟨?_, ?_, ?_, ?_, hzero⟩
  · exact zero_of_rips h hD h0 ho he inRange hr hr' hok
  · intro k hk1 hk2
    obtain ⟨u, hu, h2⟩ := C54_betti_curve hF hlen hskip hok hk1 hk2
    refine ⟨u, fun w hw => ?_, fun t ht0 ht => ?_⟩
    · obtain ⟨s, hs⟩ := hu w hw
      exact rips_weight_range h h0 ho hr' hk1 (by omega) hs
    · rw [← betti_rips h ho (by omega) ht0 (hr t ht), h2 t]
  · intro k s t hk1 hk2 hs hst ht
    obtain ⟨pairs, hP, hl⟩ := fast_pairing hF hlen hskip hok hk1 hk2
    rw [← persistent_rips h ho (by omega) hs hst (hr t ht)]
    refine le_trans ?_ ((Nat.le_add_right _ _).trans (covering_le hF hP hst))
    rw [← hl]
    unfold covering
    rw [List.filter_filter]
    apply le_of_eq
    congr 1
    apply List.filter_congr
    intro l _
    by_cases h1 : l.1 = k <;> simp [h1]
  · intro l hl hk1
    have hlt : l.1 < dim := by rcases hzero l hl with h | h <;> omega
    obtain ⟨pairs, h1, -⟩ := C26_intervals_well_formed hF hlen hok l.1 hk1
    obtain ⟨pj, -, s, t, b, w, hb, hw, hl', hbw⟩ := forall₂_mem_left h1 l
      (List.mem_filter.2 ⟨hl, by simp⟩)
    rw [hl'] at hlt hk1 hb hw ⊢
    dsimp only at hlt hk1 hb hw ⊢
    exact ⟨(rips_weight_range h h0 ho hr' hk1 (by omega) (List.mem_of_getElem? hb)).1, hbw,
      (rips_weight_range h h0 ho hr' (by omega) (by omega) (List.mem_of_getElem? hw)).2⟩

/-- Inserting the rows one by one is inserting as many points as there are non-empty rows. -/
theorem neighGraphTree_eq {K : Type} (eps : W) (dim : Nat) (dm : List (List W)) (data : List (List K))
    (hne : ∀ p ∈ data, p ≠ []) (t : Tree W) :
    neighGraphTree eps dim dm data t = Tree.insertN eps dim dm data.length t := by
  have shift : ∀ n (t : Tree W), Tree.insertN eps dim dm (n + 1) t =
      (t.insert eps dim dm >>= fun t => Tree.insertN eps dim dm n t) := by
    intro n
    induction n with
    | zero =>
      intro t
      show (pure t >>= fun t => t.insert eps dim dm) = _
      rw [pure_bind]
      show _ = (t.insert eps dim dm >>= pure)
      rw [bind_pure]
    | succ n ih =>
      intro t
      show (Tree.insertN eps dim dm (n + 1) t >>= fun t => t.insert eps dim dm) = _
      rw [ih, bind_assoc]
      rfl
  induction data generalizing t with
  | nil => rfl
  | cons p data ih =>
    have hp : p.isEmpty = false := by
      have := hne p (by simp)
      cases p with
      | nil => exact absurd rfl this
      | cons => rfl
    unfold neighGraphTree at ih ⊢
    rw [List.foldlM_cons, hp, List.length_cons, shift]
    simp only [Bool.false_eq_true, if_false]
    congr 1
    funext t
    exact ih (fun q hq => hne q (by simp [hq])) t

/-! No layer of the tree's lists is empty. -/

/-- No layer is empty. -/
def NoEmpty (g : Graph W) : Prop := ∀ l ∈ g, l ≠ []

omit [LinearOrder W] [Zero W] in
theorem vmodify_noEmpty {g g' : Graph W} {i : Nat} {e : List Nat × W}
    (h : vmodify g i (· ++ [e]) = .ok g') (hg : NoEmpty g) : NoEmpty g' := by
  unfold vmodify at h
  split_ifs at h
  cases h
  intro l hl
  obtain ⟨k, hk⟩ := List.mem_iff_getElem?.1 hl
  rw [List.getElem?_modify] at hk
  cases hgk : g[k]? with
  | none => rw [hgk] at hk; simp at hk
  | some l' =>
    rw [hgk] at hk
    have := hg l' (List.mem_of_getElem? hgk)
    simp only [Option.map_eq_map, Option.map_some, Option.some.injEq] at hk
    split_ifs at hk
    · rw [← hk]; simp
    · rw [← hk]; exact this

omit [LinearOrder W] [Zero W] in
theorem pushWEG_noEmpty {g g' : Graph W} {e : List Nat × W} (h : pushWEG g e = .ok g')
    (hg : NoEmpty g) : NoEmpty g' := by
  unfold pushWEG at h
  split_ifs at h
  · cases h
    intro l hl
    rw [List.mem_append, List.mem_singleton] at hl
    rcases hl with hl | rfl
    · exact hg l hl
    · simp
  · exact vmodify_noEmpty h hg

omit [Zero W] in
theorem recurseInsert_noEmpty (env : InsertEnv W) (s : Sib W) : ∀ (maxE : W) (simp : List Nat)
    (st : Graph W × Int) (r : Sib W × (Graph W × Int)), recurseInsert env maxE simp s st = .ok r →
    NoEmpty st.1 → NoEmpty r.2.1 := by
  induction s with
  | nil =>
    intro maxE simp st r h hg
    rw [recurseInsert, pure_eq_ok] at h
    cases h
    exact hg
  | node i w c s ihc ihs =>
    intro maxE simp st r h hg
    rw [recurseInsert, bind_ok] at h
    obtain ⟨d, -, h⟩ := h
    dsimp only at h
    by_cases hc : (if d > maxE then d else maxE) < env.maxEpsilon
    · rw [if_pos hc, bind_ok] at h
      obtain ⟨weg, h1, h⟩ := h
      rw [bind_ok] at h
      obtain ⟨r1, h2, h⟩ := h
      rw [bind_ok] at h
      obtain ⟨t, h3, h⟩ := h
      rw [pure_eq_ok] at h
      cases h
      have g1 := pushWEG_noEmpty h1 hg
      have g2 : NoEmpty r1.2.1 := by
        by_cases hl : (setInsert i simp).length ≤ env.maxDimension
        · rw [if_pos hl] at h2
          exact ihc _ _ _ _ h2 g1
        · rw [if_neg hl, pure_eq_ok] at h2
          cases h2
          exact g1
      exact ihs _ _ _ t h3 g2
    · rw [if_neg hc, bind_ok] at h
      obtain ⟨t, h3, h⟩ := h
      rw [pure_eq_ok] at h
      cases h
      exact ihs _ _ _ t h3 hg

theorem insertN_noEmpty {eps : W} {dim : Nat} {dm : List (List W)} : ∀ (m : Nat) (t t' : Tree W),
    Tree.insertN eps dim dm m t = .ok t' → NoEmpty t.weg → NoEmpty t'.weg := by
  intro m
  induction m with
  | zero => intro t t' h hg; cases h; exact hg
  | succ m ih =>
    intro t t' h hg
    rw [Tree.insertN, bind_ok] at h
    obtain ⟨t1, h1, h⟩ := h
    have g1 := ih t t1 h1 hg
    unfold Tree.insert at h
    split_ifs at h
    · cases h; exact g1
    · dsimp only at h
      split at h
      · cases h
        intro l hl
        rw [List.mem_append, List.mem_singleton] at hl
        rcases hl with hl | rfl
        · exact g1 l hl
        · simp
      · rw [bind_ok] at h
        obtain ⟨⟨r, weg, nc⟩, h2, h⟩ := h
        dsimp only at h
        rw [bind_ok] at h
        obtain ⟨weg', h3, h⟩ := h
        rw [pure_eq_ok] at h
        cases h
        exact vmodify_noEmpty h3 (recurseInsert_noEmpty _ _ _ _ _ _ h2 g1)

/-- Without a pair of near points there is only the layer of vertices. -/
theorem rips_one_layer {g : List (List (List Nat × W))} {n D : Nat} {d : Nat → Nat → W}
    {near : Nat → Nat → Prop} (h : StoresRips g n d near D) (hn : 0 < n) (hg : NoEmpty g)
    (hfar : ∀ i j, i < j → j < n → ¬ near i j) : g.length = 1 := by
  obtain ⟨l, h1, -⟩ := (h.exact 0 [0] (diam d [0]) (by omega)).2 ⟨rfl,
    ⟨by simp, by simp, by simpa using hn, by simp⟩, rfl⟩
  have hge : 1 ≤ g.length := by
    have := (List.getElem?_eq_some_iff.1 h1).1; omega
  by_contra hne
  have hlt : 1 < g.length := by omega
  obtain ⟨e, he⟩ := List.exists_mem_of_ne_nil _ (hg _ (List.getElem_mem hlt))
  have hD := h.only
  obtain ⟨hl, hs, -⟩ := (h.exact 1 e.1 e.2 (by omega)).1 ⟨_, List.getElem?_eq_getElem hlt, he⟩
  obtain ⟨i, j, hij⟩ := List.length_eq_two.1 hl
  rw [hij] at hs
  have hlt' : i < j := by simpa using hs.2.1
  exact hfar i j hlt' (hs.2.2.1 j (by simp)) (hs.2.2.2 i (by simp) j (by simp) hlt')

end
end LHF
