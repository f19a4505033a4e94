import Verif.Props.Complete

/-! C29, C70, C71, C85: the clouds on which the pipeline reads past the end of the list of pivots. -/

namespace LHF
open Spec

/-- A list without one element. -/
theorem exists_eraseIdx {l s : List Nat} (h : l.Sublist s) (hlen : l.length + 1 = s.length) :
    ∃ j, j < s.length ∧ s.eraseIdx j = l := by
  induction h with
  | slnil => simp at hlen
  | @cons l s a h _ =>
    refine ⟨0, by simp, ?_⟩
    exact (h.eq_of_length (by simpa using hlen)).symm
  | @cons_cons l s a h ih =>
    obtain ⟨j, h1, h2⟩ := ih (by simpa using hlen)
    exact ⟨j + 1, by simpa using h1, by simp [h2]⟩

section
variable {W : Type} [LinearOrder W]

/-- The last simplex of a layer is not negative if it is a facet of a simplex. -/
theorem last_facet_not_negative {edges : List (List (List Nat × W))} (hF : FilteredComplex edges) {k : Nat}
    {init : List (List Nat × W)} {e : List Nat × W} (hk : edges[k]? = some (init ++ [e]))
    {upper : List (List Nat × W)} (hk1 : edges[k + 1]? = some upper) {c : List Nat × W} (hc : c ∈ upper)
    (hsub : e.1.Sublist c.1) : ¬ Negative edges k (init.length) := by
  rintro ⟨e', he', hneg⟩
  have hget : edges.getD k [] = init ++ [e] := by rw [List.getD_eq_getElem?_getD, hk]; rfl
  rw [hget] at he' hneg
  rw [List.getElem?_concat_length] at he'
  cases he'
  rw [List.take_left'] at hneg
  swap
  · rfl
  obtain ⟨hinc, hlen⟩ := hF.shape (k + 1) upper hk1 c hc
  obtain ⟨-, hlene⟩ := hF.shape k _ hk e (by simp)
  -- the place at which `e` is a facet
  obtain ⟨j0, hj0, hje⟩ : ∃ j, j < c.1.length ∧ c.1.eraseIdx j = e.1 := by
    exact exists_eraseIdx hsub (by omega)
  have hother : ∀ j ∈ (Finset.range c.1.length).erase j0,
      (Finsupp.single (c.1.eraseIdx j) 1 : Chain) ∈ chains (init.map Prod.fst) := by
    intro j hj
    obtain ⟨hjne, hj⟩ := Finset.mem_erase.1 hj
    have hj := Finset.mem_range.1 hj
    obtain ⟨layer', w, h1, h2, -⟩ := hF.facets k upper hk1 c hc (c.1.eraseIdx j) (List.eraseIdx_sublist _ _)
      (by rw [List.length_eraseIdx_of_lt hj]; omega)
    rw [hk] at h1
    cases h1
    rcases List.mem_append.1 h2 with h3 | h3
    · exact Submodule.subset_span ⟨_, List.mem_map.2 ⟨_, h3, rfl⟩, rfl⟩
    · exfalso
      rw [List.mem_singleton] at h3
      have h4 : c.1.eraseIdx j = e.1 := by rw [← h3]
      exact hjne (eraseIdx_inj hinc hj hj0 (h4.trans hje.symm))
  apply hneg
  refine ⟨∑ j ∈ (Finset.range c.1.length).erase j0, Finsupp.single (c.1.eraseIdx j) 1,
    Submodule.sum_mem _ hother, ?_⟩
  have h0 : boundary (boundaryOf c.1) = 0 := by
    rw [← boundary_single, boundary_boundary]
  have hsplit : boundaryOf c.1 = Finsupp.single e.1 1 +
      ∑ j ∈ (Finset.range c.1.length).erase j0, Finsupp.single (c.1.eraseIdx j) 1 := by
    unfold boundaryOf
    rw [← Finset.add_sum_erase _ _ (Finset.mem_range.2 hj0), hje]
  rw [hsplit, map_add, boundary_single] at h0
  have h1 := congrArg (fun x => boundaryOf e.1 + x) h0
  rw [← add_assoc, chain_add_self, zero_add, add_zero] at h1
  exact h1

/-- C29: the exact condition, seen from a complex: when the last simplex of some dimension below
`dimensions` is a facet of another simplex, the code as written reads past the end of the list of pivots. -/
theorem C29_last_facet_violated [Zero W] (dim : Nat) (eps : W) {edges : List (List (List Nat × W))}
    (hF : FilteredComplex edges) (output : List (Line W)) (T0 : List (BettiEntry W))
    {k : Nat} (hk1 : 1 ≤ k) (hkd : k < dim) {init : List (List Nat × W)} {e : List Nat × W}
    (hk : edges[k]? = some (init ++ [e])) {upper : List (List Nat × W)}
    (hup : edges[k + 1]? = some upper) {c : List Nat × W} (hc : c ∈ upper) (hsub : e.1.Sublist c.1) :
    fastPersistence .undefined dim eps edges output T0 = .error .endDeref := by
  have hlt := (List.getElem?_eq_some_iff.1 hup).1
  rw [C29_end_dereference_iff_partial dim eps hF (by omega) output T0]
  have hget : edges.getD k [] = init ++ [e] := by rw [List.getD_eq_getElem?_getD, hk]; rfl
  refine ⟨k, hk1, hkd, hlt, ?_, ?_⟩
  · rw [List.getD_eq_getElem?_getD, hup]
    exact List.ne_nil_of_mem hc
  · rw [hget, List.length_append, List.length_singleton, Nat.add_sub_cancel]
    exact last_facet_not_negative hF hk hup hc hsub

variable [Zero W]

/-- What is stored in a layer, after sorting. -/
theorem rips_sorted_mem {g edges : List (List (List Nat × W))} {n D : Nat} {d : Nat → Nat → W}
    {near : Nat → Nat → Prop} (h : StoresRips g n d near D) (ho : SortedLayers edges g) {k : Nat} (hk : k ≤ D)
    {s : List Nat} {w : W} : (∃ layer, edges[k]? = some layer ∧ (s, w) ∈ layer) ↔
      s.length = k + 1 ∧ IsSimplex n near s ∧ w = diam d s := by
  rw [← h.exact k s w hk]
  constructor
  · rintro ⟨l, h1, h2⟩
    obtain ⟨l', h3, h4⟩ := (sortedLayers_get ho k).1 l h1
    exact ⟨l', h3, h4.mem_iff.1 h2⟩
  · rintro ⟨l, h1, h2⟩
    obtain ⟨l', h3, h4⟩ := (sortedLayers_get ho k).2 l h1
    exact ⟨l', h3, h4.mem_iff.2 h2⟩

/-- Two points at the largest distance among the near pairs have a third point near both. -/
def Spec.WidestInTriangle (n : Nat) (d : Nat → Nat → W) (near : Nat → Nat → Prop) : Prop :=
  ∀ i j, i < j → j < n → near i j → (∀ i' j', i' < j' → j' < n → near i' j' → d i' j' ≤ d i j) →
    ∃ w, w < n ∧ w ≠ i ∧ w ≠ j ∧ near (min i w) (max i w) ∧ near (min j w) (max j w)

theorem pair_simplex {n : Nat} {near : Nat → Nat → Prop} {i j : Nat} (hij : i < j) (hj : j < n) (h : near i j) :
    IsSimplex n near [i, j] := by
  refine ⟨by simp, by simpa using hij, ?_, ?_⟩
  · intro v hv
    simp only [List.mem_cons, List.not_mem_nil, or_false] at hv
    omega
  · intro a ha b hb hab
    simp only [List.mem_cons, List.not_mem_nil, or_false] at ha hb
    have : a = i ∧ b = j := by omega
    rw [this.1, this.2]; exact h

theorem rips_past_end {g edges : List (List (List Nat × W))} {n D : Nat} {d : Nat → Nat → W}
    {near : Nat → Nat → Prop} (h : StoresRips g n d near D) (hD : 2 ≤ D) (h0 : ∀ i j, 0 ≤ d i j)
    (ho : SortedLayers edges g) {dim : Nat} (hdim : 2 ≤ dim) (eps : W)
    (hedge : ∃ i j, i < j ∧ j < n ∧ near i j) (hwide : WidestInTriangle n d near)
    (output : List (Line W)) (T0 : List (BettiEntry W)) :
    fastPersistence .undefined dim eps edges output T0 = .error .endDeref := by
  have hF := filtered_of_rips h ho
  obtain ⟨i0, j0, hij0, hj0, hn0⟩ := hedge
  obtain ⟨layer, hl, hmem0⟩ := (rips_sorted_mem h ho (k := 1) (by omega)).2
    ⟨rfl, pair_simplex hij0 hj0 hn0, rfl⟩
  obtain ⟨init, e, rfl⟩ : ∃ init e, layer = init ++ [e] := by
    rcases List.eq_nil_or_concat layer with h1 | ⟨init, e, h1⟩
    · rw [h1] at hmem0; cases hmem0
    · exact ⟨init, e, by rw [h1, List.concat_eq_append]⟩
  have hsorted := hF.sorted _ (List.mem_of_getElem? hl)
  have hmax : ∀ x ∈ init ++ [e], x.2 ≤ e.2 := by
    intro x hx
    rcases List.mem_append.1 hx with h1 | h1
    · exact (List.pairwise_append.1 hsorted).2.2 x h1 e (by simp)
    · rw [List.mem_singleton.1 h1]
  obtain ⟨e1, e2, e3⟩ := (rips_sorted_mem h ho (k := 1) (by omega)).1 ⟨_, hl, (by simp : (e.1, e.2) ∈ init ++ [e])⟩
  obtain ⟨i, j, hes⟩ : ∃ i j, e.1 = [i, j] := by
    match e.1, e1 with
    | [i, j], _ => exact ⟨i, j, rfl⟩
  rw [hes] at e2 e3
  have hij : i < j := by simpa using e2.2.1
  have hj : j < n := e2.2.2.1 j (by simp)
  have hnear : near i j := e2.2.2.2 i (by simp) j (by simp) hij
  obtain ⟨w, hw, hwi, hwj, hni, hnj⟩ := hwide i j hij hj hnear (by
    intro i' j' h1 h2 h3
    obtain ⟨l', g1, g2⟩ := (rips_sorted_mem h ho (k := 1) (by omega)).2
      ⟨rfl, pair_simplex h1 h2 h3, rfl⟩
    rw [hl] at g1
    cases g1
    have := hmax _ g2
    rw [e3, diam_pair d h1 (h0 _ _), diam_pair d hij (h0 _ _)] at this
    exact this)
  -- the triangle
  obtain ⟨c, hcs, hcn, hcsub⟩ : ∃ c, c.length = 3 ∧ IsSimplex n near c ∧ [i, j].Sublist c := by
    have tri : ∀ a b c, a < b → b < c → c < n → near a b → near a c → near b c → IsSimplex n near [a, b, c] := by
      intro a b c hab hbc hc h1 h2 h3
      refine ⟨by simp, by simp; omega, ?_, ?_⟩
      · intro v hv
        simp only [List.mem_cons, List.not_mem_nil, or_false] at hv
        omega
      · intro x hx y hy hxy
        simp only [List.mem_cons, List.not_mem_nil, or_false] at hx hy
        rcases hx with rfl | rfl | rfl <;> rcases hy with rfl | rfl | rfl <;>
          first | assumption | (exfalso; omega)
    rcases lt_or_gt_of_ne hwi with h1 | h1
    · rw [min_eq_right h1.le, max_eq_left h1.le] at hni
      rw [min_eq_right (by omega), max_eq_left (by omega)] at hnj
      exact ⟨[w, i, j], rfl, tri w i j h1 hij hj hni hnj hnear, by simp⟩
    · rw [min_eq_left h1.le, max_eq_right h1.le] at hni
      rcases lt_or_gt_of_ne hwj with h2 | h2
      · rw [min_eq_right h2.le, max_eq_left h2.le] at hnj
        exact ⟨[i, w, j], rfl, tri i w j h1 h2 hj hni hnear hnj, by simp⟩
      · rw [min_eq_left h2.le, max_eq_right h2.le] at hnj
        exact ⟨[i, j, w], rfl, tri i j w hij h2 hw hnear hni hnj, by simp⟩
  obtain ⟨upper, hup, hcup⟩ := (rips_sorted_mem h ho (k := 2) hD).2 ⟨hcs, hcn, rfl⟩
  exact C29_last_facet_violated dim eps hF output T0 le_rfl (by omega) hl hup hcup (by rw [hes]; exact hcsub)

end

/-- C70 fails for every cloud in which the pairs at the largest distance below `epsilon` have a third point
closer than `epsilon` to both, as soon as `dimensions` is 2 or more: the code as written reads past the end
of a list. -/
theorem C70_past_end_violated (sort : SortBySecond (List Nat) ℝ) (eps : ℝ) (dim : Nat) (hd : 2 ≤ dim)
    (k : Nat) (hk : 0 < k) (data : List (List ℝ)) (hdim : ∀ p ∈ data, p.length = k)
    (hedge : ∃ i j, i < j ∧ j < data.length ∧ rowDist k data i j < eps)
    (hwide : WidestInTriangle data.length (rowDist k data) (fun i j => rowDist k data i j < eps)) :
    treeRun vectorsDistance sort .undefined eps dim data = .error .endDeref := by
  obtain ⟨g, edges, h1, h2, -, h4, -⟩ := tree_built sort .undefined eps dim k hk data hdim
  rw [h1]
  exact rips_past_end h4 (by omega) (fun _ _ => dist_nonneg) h2 hd eps hedge hwide [] []

/-- C71 fails in the same way. -/
theorem C71_past_end_violated (sort : SortBySecond (List Nat) ℝ) (eps : ℝ) (dim : Nat) (hd : 2 ≤ dim)
    (k : Nat) (hk : 0 < k) (data : List (List ℝ)) (hdim : ∀ p ∈ data, p.length = k)
    (hedge : ∃ i j, i < j ∧ j < data.length ∧ rowDist k data i j ≤ eps)
    (hwide : WidestInTriangle data.length (rowDist k data) (fun i j => rowDist k data i j ≤ eps)) :
    arrayRun vectorsDistance sort .undefined eps dim data = .error .endDeref := by
  obtain ⟨g, h1, h2, -⟩ := array_built sort .undefined eps dim (by omega) k hk data hdim
  obtain ⟨-, hS⟩ := filtered_array h2 sort
  rw [h1]
  exact rips_past_end (rips_nonempty h2) (by omega) (fun _ _ => dist_nonneg) hS hd eps hedge hwide [] []

/-- Three or more points, all pairs near. -/
theorem widest_of_all_near {W : Type} [LinearOrder W] {n : Nat} {d : Nat → Nat → W} {near : Nat → Nat → Prop}
    (h3 : 3 ≤ n) (hall : ∀ i j, i < j → j < n → near i j) : WidestInTriangle n d near := by
  intro i j hij hj _ _
  obtain ⟨w, hw, hwi, hwj⟩ : ∃ w, w < n ∧ w ≠ i ∧ w ≠ j := by
    by_cases h0 : i = 0
    · by_cases h1 : j = 1
      · exact ⟨2, by omega, by omega, by omega⟩
      · exact ⟨1, by omega, by omega, by omega⟩
    · exact ⟨0, by omega, by omega, by omega⟩
  exact ⟨w, hw, hwi, hwj, hall _ _ (by omega) (by omega), hall _ _ (by omega) (by omega)⟩

/-- C85 fails, as the code is written, for every input file with three or more rows that are all closer than
`epsilon` to each other, as soon as `dimensions` is 2 or more. -/
theorem C85_past_end_violated (sys : System ℝ ℝ) (hdist : sys.lib.dist = vectorsDistance)
    (hread : sys.lib.mode = .undefined) (pairs : List (String × String)) (m : ArgMap) (f : String)
    (data : List (List ℝ)) (h : PlainCommand sys pairs m "simplexTree" f data)
    (hd : 2 ≤ sys.atoi (m.val "dimensions"))
    (k : Nat) (hk : 0 < k) (hdim : ∀ p ∈ data, p.length = k) (h3 : 3 ≤ data.length)
    (hall : ∀ i j, i < j → j < data.length → rowDist k data i j < sys.atof (m.val "epsilon")) :
    mainProgram sys (commandLine pairs) = .error .endDeref := by
  have h1 := C70_past_end_violated sys.lib.sort (sys.atof (m.val "epsilon")) (sys.atoi (m.val "dimensions")) hd
    k hk data hdim ⟨0, 1, by omega, by omega, hall 0 1 (by omega) (by omega)⟩ (widest_of_all_near h3 hall)
  rw [← hread] at h1
  exact (main_tree sys hdist pairs m f data h).error_of h1

/-- C85 fails in the same way with a `simplexArrayList`. -/
theorem C85_past_end_array_violated (sys : System ℝ ℝ) (hdist : sys.lib.dist = vectorsDistance)
    (hread : sys.lib.mode = .undefined) (pairs : List (String × String)) (m : ArgMap) (f : String)
    (data : List (List ℝ)) (h : PlainCommand sys pairs m "simplexArrayList" f data)
    (hcol : m.val "collapse" ≠ "true" ∧ m.val "collapse" ≠ "1")
    (hd : 2 ≤ sys.atoi (m.val "dimensions"))
    (k : Nat) (hk : 0 < k) (hdim : ∀ p ∈ data, p.length = k) (h3 : 3 ≤ data.length)
    (hall : ∀ i j, i < j → j < data.length → rowDist k data i j ≤ sys.atof (m.val "epsilon")) :
    mainProgram sys (commandLine pairs) = .error .endDeref := by
  have h1 := C71_past_end_violated sys.lib.sort (sys.atof (m.val "epsilon")) (sys.atoi (m.val "dimensions")) hd
    k hk data hdim ⟨0, 1, by omega, by omega, hall 0 1 (by omega) (by omega)⟩ (widest_of_all_near h3 hall)
  rw [← hread] at h1
  exact (main_array sys hdist pairs m f data h hcol (by omega) k hk hdim).error_of h1

/-! ### Clouds without triangles -/

/-- No three points are near each other. -/
def Spec.NoTriangle (n : Nat) (near : Nat → Nat → Prop) : Prop :=
  ∀ a b c, a < b → b < c → c < n → near a b → near a c → ¬ near b c

theorem rips_no_triangle {W : Type} [LinearOrder W] [Zero W] {g edges : List (List (List Nat × W))} {n D : Nat}
    {d : Nat → Nat → W} {near : Nat → Nat → Prop} (h : StoresRips g n d near D) (hD : 2 ≤ D)
    (ho : SortedLayers edges g) (hne : ∀ l ∈ g, l ≠ []) (hedge : ∃ i j, i < j ∧ j < n ∧ near i j)
    (hno : NoTriangle n near) : edges.length = 2 := by
  have h2 := rips_two_layers h (by omega) ho hedge
  by_contra hc
  have hlen : edges.length = g.length := ho.length_eq
  have hg : g[2]? = some g[2] := List.getElem?_eq_getElem (by omega)
  obtain ⟨⟨s, w⟩, hs⟩ := List.exists_mem_of_ne_nil _ (hne _ (List.mem_of_getElem? hg))
  obtain ⟨q1, q2, -⟩ := (h.exact 2 s w hD).1 ⟨_, hg, hs⟩
  match s, q1, q2 with
  | [a, b, c], _, q2 =>
    have hab : a < b := (List.pairwise_cons.1 q2.2.1).1 b (by simp)
    have hbc : b < c := (List.pairwise_cons.1 (List.pairwise_cons.1 q2.2.1).2).1 c (by simp)
    exact hno a b c hab hbc (q2.2.2.1 c (by simp)) (q2.2.2.2 a (by simp) b (by simp) hab)
      (q2.2.2.2 a (by simp) c (by simp) (by omega)) (q2.2.2.2 b (by simp) c (by simp) hbc)

/-- With two layers the higher dimensions are not looked at. -/
theorem fast_two_layers {W : Type} [LinearOrder W] [Zero W] (mode : EndRead) (dim : Nat) (hd : 1 ≤ dim) (eps : W)
    {edges : List (List (List Nat × W))} (hlen : edges.length = 2) (output : List (Line W))
    (T0 : List (BettiEntry W)) : fastPersistence mode dim eps edges output T0 =
      fastPersistence .noPivot 1 eps edges output T0 := by
  unfold fastPersistence
  have hd' : dim > 0 := hd
  have e1 : min dim (2 - 1) - 1 = 0 := by omega
  have e2 : min 1 (2 - 1) - 1 = 0 := by omega
  rw [hlen, e1, e2]
  simp only [hd', if_true, Nat.lt_one_iff, gt_iff_lt, reduceDims]

theorem no_triangle_run {W : Type} [LinearOrder W] [Zero W] {g edges : List (List (List Nat × W))} {n D : Nat}
    {d : Nat → Nat → W} {near : Nat → Nat → Prop} (h : StoresRips g n d near D) (mode : EndRead) {dim : Nat}
    (hD : 2 ≤ D) (hdim : 1 ≤ dim) (hdD : dim ≤ D) (eps : W) (h0 : ∀ i j, 0 ≤ d i j)
    (ho : SortedLayers edges g) (hne : ∀ l ∈ g, l ≠ []) (hedge : ∃ i j, i < j ∧ j < n ∧ near i j)
    (hno : NoTriangle n near) (inRange : W → Prop) (hr : ∀ t, inRange t → ∀ i j, d i j ≤ t → near i j)
    (hr' : ∀ i j, near i j → inRange (d i j)) :
    ∃ lines table, fastPersistence mode dim eps edges [] [] = .ok (lines, table) ∧
      (∀ l ∈ lines, l.1 = 0) ∧ DescribesRips n d inRange eps dim lines := by
  have hlen := rips_no_triangle h hD ho hne hedge hno
  have hF := filtered_of_rips h ho
  rcases C25_terminates .noPivot 1 eps hF (by omega) [] [] with ⟨⟨lines, T⟩, hok⟩ | hc
  · refine ⟨lines, T, (fast_two_layers mode dim hdim eps hlen [] []).trans hok, fun l hl => ?_, ?_⟩
    · have hdesc := describes_of_rips h (by omega) (by omega) h0 ho hedge (fun h => by cases h) inRange hr hr' hok
      rcases hdesc.only l hl with h1 | h1
      · exact h1
      · omega
    · exact describes_of_rips h (by omega) hdD h0 ho hedge (fun h => by cases h) inRange hr hr'
        ((fast_two_layers .noPivot dim hdim eps hlen [] []).trans hok)
  · exact absurd hc.1 (by simp)

/-- C70: on a cloud in which no three points are closer than `epsilon` to each other nothing is read past
the end, whatever `dimensions` is. -/
theorem C70_no_triangle (sort : SortBySecond (List Nat) ℝ) (mode : EndRead) (eps : ℝ) (dim : Nat)
    (k : Nat) (hk : 0 < k) (data : List (List ℝ)) (hdim : ∀ p ∈ data, p.length = k)
    (hedge : ∃ i j, i < j ∧ j < data.length ∧ rowDist k data i j < eps)
    (hno : NoTriangle data.length (fun i j => rowDist k data i j < eps)) :
    ∃ lines table, treeRun vectorsDistance sort mode eps dim data = .ok (lines, table) ∧
      (∀ l ∈ lines, l.1 = 0) ∧ DescribesRips data.length (rowDist k data) (· < eps) eps dim lines := by
  rcases Nat.lt_or_ge 1 dim with hd | hd
  · obtain ⟨g, edges, f1, f2, f3, f4, -⟩ := tree_built sort mode eps dim k hk data hdim
    rw [f1]
    exact no_triangle_run f4 mode (by omega) (by omega) (by omega) eps (fun _ _ => dist_nonneg) f2 f3 hedge hno
      (· < eps) (fun t ht i j hij => lt_of_le_of_lt hij ht) (fun _ _ hij => hij)
  · exact C70_tree_run_default sort mode eps dim hd k hk data hdim hedge

/-- C71: the same for the array complex. -/
theorem C71_no_triangle (sort : SortBySecond (List Nat) ℝ) (mode : EndRead) (eps : ℝ) (dim : Nat) (hd : 0 < dim)
    (k : Nat) (hk : 0 < k) (data : List (List ℝ)) (hdim : ∀ p ∈ data, p.length = k)
    (hedge : ∃ i j, i < j ∧ j < data.length ∧ rowDist k data i j ≤ eps)
    (hno : NoTriangle data.length (fun i j => rowDist k data i j ≤ eps)) :
    ∃ lines table, arrayRun vectorsDistance sort mode eps dim data = .ok (lines, table) ∧
      (∀ l ∈ lines, l.1 = 0) ∧ DescribesRips data.length (rowDist k data) (· ≤ eps) eps dim lines := by
  obtain ⟨g, h1, h2, -⟩ := array_built sort mode eps dim hd k hk data hdim
  obtain ⟨-, hS⟩ := filtered_array h2 sort
  rw [h1]
  exact no_triangle_run (rips_nonempty h2) mode (by omega) hd (by omega) eps (fun _ _ => dist_nonneg) hS
    (fun l hl => by simpa using (List.mem_filter.1 hl).2) hedge hno
    (· ≤ eps) (fun t ht i j hij => hij.trans ht) (fun _ _ hij => hij)

/-- C85 on an input file in which no three rows are closer than `epsilon` to each other: the program as
written is correct for every number of dimensions. -/
theorem C85_no_triangle (sys : System ℝ ℝ) (hdist : sys.lib.dist = vectorsDistance)
    (pairs : List (String × String)) (m : ArgMap) (f : String)
    (data : List (List ℝ)) (h : PlainCommand sys pairs m "simplexTree" f data)
    (k : Nat) (hk : 0 < k) (hdim : ∀ p ∈ data, p.length = k)
    (hedge : ∃ i j, i < j ∧ j < data.length ∧ rowDist k data i j < sys.atof (m.val "epsilon"))
    (hno : NoTriangle data.length (fun i j => rowDist k data i j < sys.atof (m.val "epsilon"))) :
    ∃ w lines, mainProgram sys (commandLine pairs) = .ok w ∧ WritesBarcode sys.io f lines w ∧
      (∀ l ∈ lines, l.1 = 0) ∧
      DescribesRips data.length (rowDist k data) (· < sys.atof (m.val "epsilon"))
        (sys.atof (m.val "epsilon")) (sys.atoi (m.val "dimensions")) lines := by
  obtain ⟨lines, T, h1, h2, h3⟩ := C70_no_triangle sys.lib.sort sys.lib.mode (sys.atof (m.val "epsilon"))
    (sys.atoi (m.val "dimensions")) k hk data hdim hedge hno
  obtain ⟨w, h4, h5⟩ := (main_tree sys hdist pairs m f data h).of_ok h1
  exact ⟨w, lines, h4, h5, h2, h3⟩

/-! ### Examples -/

theorem square_far {i j : Nat} (hij : i < j) (hj : j < 4) :
    rowDist 2 (planeRows unitSquare) i j < Real.sqrt (9 : ℕ) ∧
    (rowDist 2 (planeRows unitSquare) i j < Real.sqrt (2 : ℕ) → planeSq unitSquare i j < 2) := by
  rw [rowDist_plane unitSquare i j (show i < 4 by omega) hj]
  have h1 : ∀ j < 4, ∀ i < 4, planeSq unitSquare i j < 9 := by decide
  exact ⟨sqrt_nat_strictMono (h1 j hj i (by omega)), fun h => sqrt_nat_strictMono.lt_iff_lt.1 h⟩

/-- The corners of a square are closer than 3 to each other; with the scale √2 there is no triangle. -/
example : 3 ≤ (planeRows unitSquare).length ∧ (∀ i j, i < j → j < (planeRows unitSquare).length →
      rowDist 2 (planeRows unitSquare) i j < Real.sqrt (9 : ℕ)) ∧
    NoTriangle (planeRows unitSquare).length (fun i j => rowDist 2 (planeRows unitSquare) i j < Real.sqrt (2 : ℕ)) ∧
    ∃ i j, i < j ∧ j < (planeRows unitSquare).length ∧ rowDist 2 (planeRows unitSquare) i j < Real.sqrt (2 : ℕ) := by
  refine ⟨by decide, fun i j hij hj => (square_far hij hj).1, ?_, 0, 1, by decide, by decide, ?_⟩
  · intro a b c hab hbc hc h1 h2 h3
    have hc4 : c < 4 := hc
    have g1 := (square_far hab (by omega)).2 h1
    have g2 := (square_far (show a < c by omega) hc4).2 h2
    have g3 := (square_far hbc hc4).2 h3
    have : ∀ c < 4, ∀ b < c, ∀ a < b, ¬ (planeSq unitSquare a b < 2 ∧ planeSq unitSquare a c < 2 ∧
      planeSq unitSquare b c < 2) := by decide
    exact this c hc4 b hbc a hab ⟨g1, g2, g3⟩
  · rw [rowDist_plane unitSquare 0 1 (by decide) (by decide)]
    exact sqrt_nat_strictMono (by decide)

end LHF
