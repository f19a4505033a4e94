import Verif.Model.CollapsedRun
import Verif.Lemmas.CollapsedRun
import Verif.Props.ArrayInvariance
import Verif.Props.Reduced

/-! C116: the barcode of a `simplexArrayList` with the option `collapse`. -/

namespace LHF
open Spec

section
variable {W : Type} [LinearOrder W] [Ring W] [IsStrictOrderedRing W]

theorem kept_simplex {g : Graph W} {n D : Nat} {d : Nat → Nat → W} {near : Nat → Nat → Prop}
    (h : StoresRips g n d near D) (hD : 1 ≤ D) {i j : Nat} (hk : Kept g i j) : i < j ∧ j < n ∧ near i j := by
  obtain ⟨edges, w, he, hm⟩ := hk
  obtain ⟨all, ha, hsub, -⟩ := (collapsed_parts g).2.1 edges he
  obtain ⟨-, hs, -⟩ := (h.exact 1 [i, j] w hD).1 ⟨all, ha, hsub.subset hm⟩
  have hij : i < j := by simpa using hs.2.1
  exact ⟨hij, hs.2.2.1 j (by simp), hs.2.2.2 i (by simp) j (by simp) hij⟩

theorem linked_reachable {n : Nat} {d : Nat → Nat → W} {near : Nat → Nat → Prop} {edges : List (List Nat × W)}
    {t : W} (he : ∀ i j w, ([i, j], w) ∈ edges → i < j ∧ j < n ∧ near i j ∧ w = d i j) {a b : Nat}
    (hl : Linked edges t a b) :
    a = b ∨ ∃ (ha : a < n) (hb : b < n), (proximity n d near t).Reachable ⟨a, ha⟩ ⟨b, hb⟩ := by
  induction hl with
  | rel a b h =>
    obtain ⟨w, hw, hm⟩ := h
    obtain ⟨h1, h2, h3, rfl⟩ := he a b w hm
    exact .inr ⟨by omega, h2, SimpleGraph.Adj.reachable (Or.inl ⟨h1, h3, hw⟩)⟩
  | refl a => exact .inl rfl
  | symm a b _ ih =>
    rcases ih with rfl | ⟨ha, hb, hr⟩
    · exact .inl rfl
    · exact .inr ⟨hb, ha, hr.symm⟩
  | trans a b c _ _ ih1 ih2 =>
    rcases ih1 with rfl | ⟨ha, hb, hr⟩
    · exact ih2
    · rcases ih2 with rfl | ⟨hb', hc, hr'⟩
      · exact .inr ⟨ha, hb, hr⟩
      · exact .inr ⟨ha, hc, hr.trans hr'⟩

/-- Two near points are linked by kept edges that are not longer. -/
theorem near_linked {g : Graph W} {n D : Nat} {d : Nat → Nat → W} {near : Nat → Nat → Prop}
    (h : StoresRips g n d near D) (hD : 1 ≤ D) (h0 : ∀ i j, 0 ≤ d i j) {i j : Nat} (hij : i < j) (hj : j < n)
    (hn : near i j) : ∃ edges, (collapsed g)[1]? = some edges ∧ ∀ t, d i j ≤ t → Linked edges t i j := by
  obtain ⟨all, ha, hm⟩ := (h.exact 1 [i, j] (diam d [i, j]) hD).2 ⟨rfl, ⟨by simp, by simpa using hij, by
    intro v hv
    simp only [List.mem_cons, List.not_mem_nil, or_false] at hv
    omega, by
    intro a ha b hb hab
    simp only [List.mem_cons, List.not_mem_nil, or_false] at ha hb
    have : a = i ∧ b = j := by omega
    rw [this.1, this.2]; exact hn⟩, rfl⟩
  have hlen := (List.getElem?_eq_some_iff.1 ha).1
  have hlen' : 1 < (collapsed g).length := by rw [(collapsed_parts g).2.2.2]; exact hlen
  refine ⟨_, List.getElem?_eq_getElem hlen', fun t ht => ?_⟩
  rw [collapsed_components h hD h0 (List.getElem?_eq_getElem hlen') ha]
  rw [diam_pair d hij (h0 i j)] at hm
  exact Relation.EqvGen.rel _ _ ⟨_, ht, hm⟩

/-- The kept edges have the same components as all edges, at every scale. -/
theorem kept_components {g : Graph W} {n D : Nat} {d : Nat → Nat → W} {near : Nat → Nat → Prop}
    (h : StoresRips g n d near D) (hD : 1 ≤ D) (h0 : ∀ i j, 0 ≤ d i j) (t : W) :
    components (proximity n d (Kept g) t) = components (proximity n d near t) := by
  have step : ∀ x y : Fin n, x < y → near x y → d x y ≤ t → (proximity n d (Kept g) t).Reachable x y := by
    intro x y hxy hn ht
    obtain ⟨edges, he, hl⟩ := near_linked h hD h0 hxy y.2 hn
    have hed : ∀ i j w, ([i, j], w) ∈ edges → i < j ∧ j < n ∧ Kept g i j ∧ w = d i j := by
      intro i j w hm
      have hk : Kept g i j := ⟨edges, w, he, hm⟩
      obtain ⟨h1, h2, -⟩ := kept_simplex h hD hk
      obtain ⟨all, ha, hsub, -⟩ := (collapsed_parts g).2.1 edges he
      exact ⟨h1, h2, hk, ((mem_edge_iff h hD h0 ha h1 w).1 (hsub.subset hm)).2⟩
    rcases linked_reachable hed (hl t ht) with heq | ⟨_, _, hr⟩
    · exact absurd heq (Nat.ne_of_lt hxy)
    · exact hr
  apply le_antisymm
  · refine components_of_map id (fun x y hxy => ?_) (fun v => ⟨v, .refl _⟩)
    rcases hxy with ⟨h1, h2, h3⟩ | ⟨h1, h2, h3⟩
    · exact step x y h1 h2 h3
    · exact (step y x h1 h2 h3).symm
  · refine components_of_map id (fun x y hxy => ?_) (fun v => ⟨v, .refl _⟩)
    apply SimpleGraph.Adj.reachable
    rcases hxy with ⟨h1, h2, h3⟩ | ⟨h1, h2, h3⟩
    · exact Or.inl ⟨h1, (kept_simplex h hD h2).2.2, h3⟩
    · exact Or.inr ⟨h1, (kept_simplex h hD h2).2.2, h3⟩

omit [IsStrictOrderedRing W] in
theorem fast_components_only (mode : EndRead) (dim : Nat) (eps : W) {edges : Graph W} (hlen : 2 ≤ edges.length)
    (hdim : min dim (edges.length - 1) - 1 = 0) (output : List (Line W)) (T0 : List (BettiEntry W)) :
    ∃ lines T, fastPersistence mode dim eps edges output T0 = .ok (lines, T) ∧ ∀ l ∈ lines, l.1 = 0 := by
  unfold fastPersistence
  rw [if_neg (by omega)]
  simp only [vget]
  rw [List.getElem?_eq_getElem (show 0 < edges.length by omega),
    List.getElem?_eq_getElem (show 1 < edges.length by omega)]
  simp only [bind, Except.bind, hdim, reduceDims, pure, Except.pure, ite_self]
  refine ⟨_, _, rfl, ?_⟩
  intro l hl
  rcases List.mem_append.1 hl with hl | hl
  · obtain ⟨z, -, rfl⟩ := List.mem_map.1 hl
    rfl
  · rw [List.mem_singleton.1 hl]

/-- What the last stage prints for a complex that stores the kept edges. -/
theorem collapsed_lines {g gb : Graph W} {n D : Nat} {d : Nat → Nat → W} {near : Nat → Nat → Prop} {dim : Nat}
    (h : StoresRips g n d near D) (hD : 1 ≤ D) (hdD : dim ≤ D) (h0 : ∀ i j, 0 ≤ d i j)
    (hb : StoresRips gb n d (Kept g) (dim + 1)) (sort : SortBySecond (List Nat) W) (mode : EndRead) (eps : W)
    (hedge : ∃ i j, i < j ∧ j < n ∧ near i j) (inRange : W → Prop)
    (hr : ∀ t, inRange t → ∀ i j, d i j ≤ t → near i j) (hr' : ∀ i j, near i j → inRange (d i j)) :
    ∃ ds T, fastPersistence mode dim eps (arrayGetAllEdges sort gb) [] [] =
        .ok (ds.map (fun w => (0, 0, w)) ++ [(0, 0, eps)], T) ∧ MergeTimes n d inRange ds := by
  obtain ⟨hF, hS⟩ := filtered_array hb sort
  have hne := rips_nonempty hb
  have hkept : ∃ i j, i < j ∧ j < n ∧ Kept g i j := by
    obtain ⟨i, j, hij, hj, hn⟩ := hedge
    obtain ⟨edges, he, hl⟩ := near_linked h hD h0 hij hj hn
    rcases List.eq_nil_or_concat edges with hnil | ⟨l, e, hl'⟩
    · exfalso
      have : ∀ a b, Linked edges (d i j) a b → a = b := by
        intro a b hab
        induction hab with
        | rel a b hr =>
          obtain ⟨w, -, hm⟩ := hr
          rw [hnil] at hm
          cases hm
        | refl a => rfl
        | symm a b _ ih => exact ih.symm
        | trans a b c _ _ ih1 ih2 => exact ih1.trans ih2
      exact absurd (this i j (hl _ le_rfl)) hij.ne
    · have hm : e ∈ edges := by rw [hl']; simp
      obtain ⟨all, ha, hsub, -⟩ := (collapsed_parts g).2.1 edges he
      obtain ⟨hlen, -, -⟩ := (h.exact 1 e.1 e.2 hD).1 ⟨all, ha, hsub.subset hm⟩
      obtain ⟨a, b, hab⟩ := List.length_eq_two.1 hlen
      have hk : Kept g a b := ⟨edges, e.2, he, by rw [← hab]; exact hm⟩
      obtain ⟨h1, h2, -⟩ := kept_simplex h hD hk
      exact ⟨a, b, h1, h2, hk⟩
  have hlen := rips_two_layers hne (by omega) hS hkept
  have hdim : min dim ((arrayGetAllEdges sort gb).length - 1) - 1 = 0 := by
    by_contra hcon
    have h3 : 2 < (arrayGetAllEdges sort gb).length := by omega
    have h2d : 2 ≤ dim := by omega
    rw [hS.length_eq] at h3
    have hlay : (gb.filter (fun l => l ≠ []))[2] ≠ [] := by
      simpa using (List.mem_filter.1 (List.getElem_mem h3)).2
    obtain ⟨e, he⟩ := List.exists_mem_of_ne_nil _ hlay
    obtain ⟨hl, hs, -⟩ := (hne.exact 2 e.1 e.2 (by omega)).1 ⟨_, List.getElem?_eq_getElem h3, he⟩
    obtain ⟨x, y, z, hxyz⟩ := List.length_eq_three.1 hl
    rw [hxyz] at hs
    have hinc := hs.2.1
    simp only [List.pairwise_cons, List.mem_cons, List.not_mem_nil, or_false, forall_eq_or_imp, forall_eq] at hinc
    obtain ⟨e1, w1, he1, m1⟩ := hs.2.2.2 x (by simp) y (by simp) hinc.1.1
    obtain ⟨e2, w2, he2, m2⟩ := hs.2.2.2 x (by simp) z (by simp) hinc.1.2
    obtain ⟨e3, w3, he3, m3⟩ := hs.2.2.2 y (by simp) z (by simp) hinc.2.1
    rw [he1] at he2 he3
    cases he2
    cases he3
    exact collapsed_no_triangle h (by omega) h0 he1 hinc.1.1 hinc.2.1 m1 m2 m3
  obtain ⟨lines, T, hok, hz⟩ := fast_components_only mode dim eps hlen hdim [] []
  obtain ⟨ds, h1, h2, h3⟩ := C22_single_linkage hne (by omega) h0 hS hlen hok
  rw [List.filter_eq_self.2 (fun l hl => by simpa using hz l hl)] at h1
  subst h1
  refine ⟨ds, T, hok, h2, fun w hw => ?_, fun t _ ht => ?_⟩
  · obtain ⟨F, piv, pr, T', hK, h4, -⟩ := fast_ok hF hlen hok
    have h5 : (ds.map (fun w => ((0, 0, w) : Line W)) ++ [(0, 0, eps)]).filter (fun l => l.1 = 0) =
        (F.map Prod.snd).map (fun w => ((0, 0, w) : Line W)) ++ [(0, 0, eps)] := by
      rw [h4]; exact dim_zero_lines F eps
    rw [List.filter_eq_self.2 (fun l hl => by simpa using hz l hl)] at h5
    have h6 := List.append_cancel_right h5
    have h7 : ds = F.map Prod.snd :=
      List.map_injective_iff.2 (fun a b hab => by simpa using hab) h6
    rw [h7, List.mem_map] at hw
    obtain ⟨e, he', rfl⟩ := hw
    exact rips_weight_range hne h0 hS (fun i j hk => hr' i j (kept_simplex h hD hk).2.2) (le_refl 1) (by omega)
      (hK.sub.subset he')
  · have := h3 t
    rw [kept_components h hD h0 t, proximity_scale (hr t ht)] at this
    omega

end

/-- The complexes that the stages build. -/
theorem collapse_chain (eps : ℝ) (dim : Nat) (hd : 0 < dim) (k : Nat) (hk : 0 < k)
    (data : List (List ℝ)) (hdim : ∀ p ∈ data, p.length = k) (collapse : String)
    (hc : collapse = "true" ∨ collapse = "1") :
    ∃ (dm : List (List ℝ)) (ws : List ℝ) (g0 ga gb : Graph ℝ),
      distMatrixPipe vectorsDistance eps [] data = .ok (dm, ws) ∧
      arrayInsertAll eps dim dm data [] = .ok g0 ∧ ripsPipeArray dim collapse g0 = .ok (collapsed ga) ∧
      expandDimensions (dim + 1) (collapsed ga) = .ok gb ∧
      StoresRips ga data.length (rowDist k data) (fun i j => rowDist k data i j ≤ eps) dim ∧
      StoresRips gb data.length (rowDist k data) (Kept ga) (dim + 1) := by
  obtain ⟨ws, h1, -, -⟩ := C11_distance_matrix_euclidean k hk data hdim eps
  obtain ⟨g0, ga, h2, -, h3, h4⟩ := C82_collapse_exact eps dim dim hd _ (rowDist k data)
    (fun _ _ => dist_nonneg) data (rows_ne_nil hk hdim) (fun i j hji hi => at2_table hji hi) collapse hc
  rw [show max 1 dim = dim by omega] at h3
  have h5 := collapsed_stores h3 hd (fun _ _ => dist_nonneg)
  obtain ⟨gb, h6, h7, -, -⟩ := expandLoop_spec dim (collapsed ga) dim 2 h5 le_rfl (by omega)
  rw [show max dim (2 + dim - 1) = dim + 1 by omega] at h7
  exact ⟨_, ws, g0, ga, gb, h1, h2, h4, h6, h3, h7⟩

/-- C116: with `collapse` the barcode of a `simplexArrayList` consists of the dimension-0 bars: one bar ends
at each scale at which two components merge, in order, and one ends at `eps`. This holds for every cloud of
points of which two are at distance at most `eps`, every number of dimensions and every order of equal
weights, and no read goes past the end of a list. -/
theorem C116_collapse_run (sort : SortBySecond (List Nat) ℝ) (mode : EndRead) (eps : ℝ) (dim : Nat)
    (hd : 0 < dim) (k : Nat) (hk : 0 < k) (data : List (List ℝ)) (hdim : ∀ p ∈ data, p.length = k)
    (hedge : ∃ i j, i < j ∧ j < data.length ∧ rowDist k data i j ≤ eps) :
    ∃ ds T, arrayCollapseRun vectorsDistance sort mode eps dim data =
        .ok (ds.map (fun w => (0, 0, w)) ++ [(0, 0, eps)], T) ∧
      MergeTimes data.length (rowDist k data) (· ≤ eps) ds := by
  obtain ⟨dm, ws, g0, ga, gb, c1, c2, c3, c4, hA, hB⟩ := collapse_chain eps dim hd k hk data hdim "true" (.inl rfl)
  have hrun : arrayCollapseRun vectorsDistance sort mode eps dim data =
      fastPersistence mode dim eps (arrayGetAllEdges sort gb) [] [] := by
    unfold arrayCollapseRun
    rw [c1, ok_bind]
    dsimp only
    rw [c2, ok_bind, c3, ok_bind, if_pos hd, c4, ok_bind]
  rw [hrun]
  exact collapsed_lines hA hd le_rfl (fun _ _ => dist_nonneg) hB sort mode eps hedge (· ≤ eps)
    (fun t ht i j hij => hij.trans ht) (fun _ _ hij => hij)

/-- C116: the barcode with `collapse` is the barcode without `collapse`, cut down to its dimension-0 lines. -/
theorem C116_same_components (sort sort' : SortBySecond (List Nat) ℝ) (mode mode' : EndRead) (eps : ℝ)
    (dim dim' : Nat) (hd : 0 < dim) (hd' : 0 < dim') (k : Nat) (hk : 0 < k) (data : List (List ℝ)) (hne : data ≠ [])
    (hdim : ∀ p ∈ data, p.length = k) {lines : List (Line ℝ)} {T : List (BettiEntry ℝ)}
    (hok : arrayRun vectorsDistance sort' mode' eps dim' data = .ok (lines, T)) :
    ∃ T', arrayCollapseRun vectorsDistance sort mode eps dim data =
      .ok (lines.filter (fun l => l.1 = 0), T') := by
  obtain ⟨hedge, ds, h1, h2⟩ := array_merge hd' hk hne hdim hok
  obtain ⟨ds', T', h3, h4⟩ := C116_collapse_run sort mode eps dim hd k hk data hdim hedge
  have : ds' = ds := by
    refine sorted_counts_unique (P := fun t => 0 ≤ t ∧ t ≤ eps) h4.sorted h2.sorted h4.range h2.range
      (fun t ht => ?_)
    have e1 := h4.count t ht.1 ht.2
    have e2 := h2.count t ht.1 ht.2
    omega
  subst this
  exact ⟨T', by rw [h1]; exact h3⟩

/-- C116: when all points are farther apart than `eps`, the second stage of the query reads past the end
(C55), with `collapse` as without. -/
theorem C116_no_edge (sort : SortBySecond (List Nat) ℝ) (mode : EndRead) (eps : ℝ) (dim : Nat)
    (hd : 0 < dim) (k : Nat) (hk : 0 < k) (data : List (List ℝ)) (hdim : ∀ p ∈ data, p.length = k)
    (hne : data ≠ []) (hfar : ∀ i j, i < j → j < data.length → eps < rowDist k data i j) :
    arrayCollapseRun vectorsDistance sort mode eps dim data = .error .oob := by
  obtain ⟨dm, ws, g0, ga, gb, c1, c2, c3, c4, hA, hB⟩ := collapse_chain eps dim hd k hk data hdim "true" (.inl rfl)
  have hrun : arrayCollapseRun vectorsDistance sort mode eps dim data =
      fastPersistence mode dim eps (arrayGetAllEdges sort gb) [] [] := by
    unfold arrayCollapseRun
    rw [c1, ok_bind]
    dsimp only
    rw [c2, ok_bind, c3, ok_bind, if_pos hd, c4, ok_bind]
  rw [hrun]
  obtain ⟨hF, hS⟩ := filtered_array hB sort
  have hl := rips_one_layer (rips_nonempty hB) (List.length_pos_of_ne_nil hne)
    (fun l hl => by simpa using (List.mem_filter.1 hl).2)
    (fun i j hij hj hkk => absurd (kept_simplex hA hd hkk).2.2 (not_le.2 (hfar i j hij hj)))
  rw [← hS.length_eq] at hl
  obtain ⟨v, hv⟩ := List.length_eq_one_iff.1 hl
  rw [hv]
  exact C55_no_edges_out_of_range mode dim eps v [] []

/-! ### The program -/

section
variable (lib : Lib ℝ ℝ) (s : Settings ℝ)

/-- The default pipeline on a packet with an empty `simplexArrayList`, with collapse. -/
theorem collapse_stages (hdist : lib.dist = vectorsDistance) (hd : 0 < s.dim)
    (hcol : s.collapse = "true" ∨ s.collapse = "1") (k : Nat) (hk : 0 < k)
    (w : Work (List ℝ) ℝ) (dm0 : List (List ℝ)) (hcx : w.complex = .array [] dm0)
    (hdim : ∀ p ∈ w.originalData, p.length = k) (hne : w.originalData ≠ []) :
    SameRes (fun (d : Work (List ℝ) ℝ) (r : List (Line ℝ) × List (BettiEntry ℝ)) =>
        ∃ g dm ws, d = { w with complex := .array g dm, weights := ws, bettiOutput := r.1,
                                bettiTable := w.bettiTable ++ r.2 })
      (Spec.fastKinds.foldlM (fun d k => runStages lib s k d) w)
      (arrayCollapseRun vectorsDistance lib.sort lib.mode s.eps s.dim w.originalData) := by
  obtain ⟨dm, ws0, g0, ga, gb, c1, c2, c3, c4, hA, hS⟩ :=
    collapse_chain s.eps s.dim hd k hk w.originalData hdim s.collapse hcol
  have hedges : arrayGetAllEdges lib.sort gb ≠ [] := by
    obtain ⟨-, hS'⟩ := filtered_array hS lib.sort
    obtain ⟨l, h1, -⟩ := ((rips_nonempty hS).exact 0 [0] (diam (rowDist k w.originalData) [0])
      (by omega)).2 ⟨rfl, ⟨by simp, by simp, by
        simpa using List.length_pos_of_ne_nil hne, by simp⟩, rfl⟩
    have := (List.getElem?_eq_some_iff.1 h1).1
    rw [← hS'.length_eq] at this
    exact List.ne_nil_of_length_pos this
  obtain ⟨⟨dm', ws⟩, h1, (h2 : dm' = dm)⟩ :=
    (distMatrixPipe_weights vectorsDistance s.eps w.weights [] w.originalData).of_ok c1
  subst h2
  have c3' : ripsPipeArray s.dim "true" g0 = .ok (collapsed ga) := by
    rw [← c3]
    unfold ripsPipeArray
    congr 1
    funext g
    rw [if_pos hcol, if_pos (.inl rfl)]
  have hrun : arrayCollapseRun vectorsDistance lib.sort lib.mode s.eps s.dim w.originalData =
      fastPersistence lib.mode s.dim s.eps (arrayGetAllEdges lib.sort gb) [] [] := by
    unfold arrayCollapseRun
    rw [c1, ok_bind]
    dsimp only
    rw [c2, ok_bind, c3', ok_bind, if_pos hd, c4, ok_bind]
  have e1 : runStages lib s .distMatrix w =
      .ok { w with complex := .array [] dm', weights := ws } := by
    unfold runStages; rw [hcx, hdist]; dsimp only; rw [h1]; rfl
  have e2 : runStages lib s .neighGraph { w with complex := .array [] dm', weights := ws } =
      .ok { w with complex := .array g0 dm', weights := ws } := by
    unfold runStages; dsimp only; rw [c2]; rfl
  have e3 : runStages lib s .rips { w with complex := .array g0 dm', weights := ws } =
      .ok { w with complex := .array (collapsed ga) dm', weights := ws } := by
    unfold runStages; dsimp only; rw [c3]; rfl
  unfold Spec.fastKinds
  simp only [List.foldlM_cons, List.foldlM_nil]
  rw [e1, ok_bind, e2, ok_bind, e3, ok_bind, hrun]
  unfold runStages
  dsimp only
  rw [if_pos hd, c4, ok_bind, fastPersistence_pre _ _ _ _ hedges]
  cases fastPersistence lib.mode s.dim s.eps (arrayGetAllEdges lib.sort gb) [] [] with
  | error e => rfl
  | ok r => exact ⟨gb, dm', ws, rfl⟩

end

theorem main_collapse (sys : System ℝ ℝ) (hdist : sys.lib.dist = vectorsDistance)
    (pairs : List (String × String)) (m : ArgMap) (f : String) (data : List (List ℝ))
    (h : PlainCommand sys pairs m "simplexArrayList" f data)
    (hcol : m.val "collapse" = "true" ∨ m.val "collapse" = "1")
    (hd : 0 < sys.atoi (m.val "dimensions")) (k : Nat) (hk : 0 < k)
    (hdim : ∀ p ∈ data, p.length = k) :
    SameRes (fun (w : World (List ℝ) ℝ) (r : List (Line ℝ) × List (BettiEntry ℝ)) =>
        WritesBarcode sys.io f r.1 w)
      (mainProgram sys (commandLine pairs))
      (arrayCollapseRun vectorsDistance sys.lib.sort sys.lib.mode (sys.atof (m.val "epsilon"))
        (sys.atoi (m.val "dimensions")) data) := by
  rw [main_plain sys pairs m _ f data (by decide) h]
  have := collapse_stages sys.lib ⟨sys.atof (m.val "epsilon"), sys.atoi (m.val "dimensions"),
    m.val "collapse"⟩ hdist hd hcol k hk
    ⟨data, data, [], newComplex "simplexArrayList", [], [], []⟩ [] rfl hdim h.rows
  refine cast ?_ (this.bind (f := fun w : Work (List ℝ) ℝ => (.ok ⟨⟨fastNames, true, w⟩,
        [(f ++ "_stats.csv", .stats fastNames),
          (f ++ ".csv", .text (barcodeText sys.io w.bettiOutput))]⟩ : Res (World (List ℝ) ℝ)))
    (g := fun r => .ok r) (S := fun (w : World (List ℝ) ℝ) (r : List (Line ℝ) × List (BettiEntry ℝ)) =>
        WritesBarcode sys.io f r.1 w) ?_)
  · congr 1
    exact bind_pure _
  · rintro w r - - ⟨g, dm, ws, rfl⟩
    show _ = _
    rw [← barcodeText_eq]
    rfl

/-- C116, for the program: every command line that selects a `simplexArrayList`, the default pipeline and
`collapse`, on every input file with points of ℝ^k of which two are at distance at most `epsilon`, ends and
writes the statistics and a barcode of components only. -/
theorem C116_program (sys : System ℝ ℝ) (hdist : sys.lib.dist = vectorsDistance)
    (pairs : List (String × String)) (m : ArgMap) (f : String) (data : List (List ℝ))
    (h : PlainCommand sys pairs m "simplexArrayList" f data)
    (hcol : m.val "collapse" = "true" ∨ m.val "collapse" = "1")
    (hd : 0 < sys.atoi (m.val "dimensions")) (k : Nat) (hk : 0 < k) (hdim : ∀ p ∈ data, p.length = k)
    (hedge : ∃ i j, i < j ∧ j < data.length ∧ rowDist k data i j ≤ sys.atof (m.val "epsilon")) :
    ∃ w ds, mainProgram sys (commandLine pairs) = .ok w ∧
      WritesBarcode sys.io f (ds.map (fun w => (0, 0, w)) ++ [(0, 0, sys.atof (m.val "epsilon"))]) w ∧
      MergeTimes data.length (rowDist k data) (· ≤ sys.atof (m.val "epsilon")) ds := by
  obtain ⟨ds, T, h1, h2⟩ := C116_collapse_run sys.lib.sort sys.lib.mode (sys.atof (m.val "epsilon"))
    (sys.atoi (m.val "dimensions")) hd k hk data hdim hedge
  obtain ⟨w, h3, h4⟩ := (main_collapse sys hdist pairs m f data h hcol hd k hk hdim).of_ok h1
  exact ⟨w, ds, h3, h4, h2⟩

/-- C116 does not hold from dimension 1 on: for five points of the plane and `dimensions` 2 the barcode without
collapse has the bars `[√5, √8)` and `[√8, √9)` in dimension 1, and the one with collapse has none. -/
theorem C116_loops_violated (mode : EndRead) (hm : mode ≠ .undefined) :
    ∃ data : List (List ℝ), (∀ p ∈ data, p.length = 2) ∧ ∃ lines T T',
      arrayRun vectorsDistance (SortBySecond.insertion (List Nat) ℝ) mode (rootOf 100) 2 data = .ok (lines, T) ∧
      arrayCollapseRun vectorsDistance (SortBySecond.insertion (List Nat) ℝ) mode (rootOf 100) 2 data =
        .ok (lines.take 5, T') ∧
      lines.drop 5 = [(1, rootOf 5, rootOf 8), (1, rootOf 8, rootOf 9)] := by
  have r1 : ∃ T, planeArray mode [(3, 2), (0, 2), (1, 3), (0, 1), (2, 0)] =
      .ok ([(0, 0, 1), (0, 0, 2), (0, 0, 5), (0, 0, 5), (0, 0, 100), (1, 5, 8), (1, 8, 9)], T) := by
    cases mode with
    | undefined => exact absurd rfl hm
    | noPivot => exact ok_of_toOption (by decide +kernel)
    | libstdcxx => exact ok_of_toOption (by decide +kernel)
  obtain ⟨T1, r1⟩ := r1
  have e1 := (plane_array_run mode [(3, 2), (0, 2), (1, 3), (0, 1), (2, 0)]).trans (congrArg _ r1)
  have hdim : ∀ p ∈ planeRows [(3, 2), (0, 2), (1, 3), (0, 1), (2, 0)], p.length = 2 := by
    intro p hp
    obtain ⟨q, -, rfl⟩ := List.mem_map.1 hp
    rfl
  obtain ⟨T', h⟩ := C116_same_components (SortBySecond.insertion (List Nat) ℝ)
    (SortBySecond.insertion (List Nat) ℝ) mode mode (rootOf 100) 2 2 (by decide) (by decide) 2 (by decide)
    (planeRows [(3, 2), (0, 2), (1, 3), (0, 1), (2, 0)]) (by simp [planeRows]) hdim e1
  refine ⟨_, hdim, _, _, T', e1, ?_, rfl⟩
  rw [h]
  simp [mapL]

/-- C116: the hypotheses hold for example for the corners of a unit square and `eps = 2`. -/
example : (∀ p ∈ [[0, 0], [1, 0], [1, 1], [0, (1 : ℝ)]], p.length = 2) ∧
    ∃ i j, i < j ∧ j < [[0, 0], [1, 0], [1, 1], [0, (1 : ℝ)]].length ∧
      rowDist 2 [[0, 0], [1, 0], [1, 1], [0, (1 : ℝ)]] i j ≤ 2 := by
  refine ⟨by simp, 0, 1, by decide, by simp, ?_⟩
  unfold rowDist Spec.point
  rw [EuclideanSpace.dist_eq]
  simp [Fin.sum_univ_two, Real.dist_eq]

/-- The hypotheses of C116 for the whole program; the rows 0 and 3 are closer than `epsilon` (5). -/
example : ∃ m, PlainCommand (realSystem [] [] "00\n03\n09")
    [("-i", "data.csv"), ("-o", "bars"), ("-c", "simplexArrayList"), ("-z", "true")] m
    "simplexArrayList" "bars" [[((0 : Nat) : ℝ)], [((3 : Nat) : ℝ)], [((9 : Nat) : ℝ)]] ∧
    m.val "collapse" = "true" ∧ 0 < (realSystem [] [] "00\n03\n09").atoi (m.val "dimensions") :=
  ⟨_, ⟨rfl, by decide, by decide, Or.inl (by decide), by decide, by decide, by decide, by decide,
    by decide, rfl, by simp⟩, by decide, by decide⟩

end LHF
