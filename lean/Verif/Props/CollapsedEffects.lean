import Verif.Props.CollapsedProgram
import Verif.Props.DebugCollapse

/-! C82, C101, C104: which edges the option `collapse` removes from a `simplexArrayList`, and what a run with
this option reports. -/

namespace LHF
open Spec

/-- The edge `p q` is the longest side of the triangle `p q r`; of equally long sides the one that comes last in
lexicographic order counts. -/
def Spec.LongestSide {W : Type} [LinearOrder W] (d : Nat → Nat → W) (p q r : Nat) : Prop :=
  (r < p ∧ d r p ≤ d p q ∧ d r q ≤ d p q) ∨ (p < r ∧ r < q ∧ d p r ≤ d p q ∧ d r q < d p q) ∨
    (q < r ∧ d p r < d p q ∧ d q r < d p q)

/-- Two different points that are near, in whichever order. -/
def Spec.Joined (near : Nat → Nat → Prop) (a b : Nat) : Prop := (a < b ∧ near a b) ∨ (b < a ∧ near b a)

/-- The pairs of points that are still joined after a collapse of the complex of `n` points up to dimension
`dim`: with triangles, the edges that are not the longest side of a triangle; without, all. -/
def Spec.LeftByCollapse {W : Type} [LinearOrder W] (n : Nat) (d : Nat → Nat → W) (near : Nat → Nat → Prop)
    (dim : Nat) (kept : Nat → Nat → Prop) : Prop :=
  ∀ p q, kept p q ↔ (p < q ∧ q < n ∧ near p q) ∧
    (2 ≤ dim → ¬ ∃ r, r < n ∧ Joined near p r ∧ Joined near q r ∧ LongestSide d p q r)

section
variable {W : Type} [LinearOrder W] [Ring W] [IsStrictOrderedRing W]

theorem triangle_simplex {n : Nat} {near : Nat → Nat → Prop} {p q r : Nat} (hpq : p < q) (hr : r ≠ p)
    (hr' : r ≠ q) :
    IsSimplex n near (triangleOf p q r) ↔ (q < n ∧ near p q) ∧ r < n ∧ Joined near p r ∧ Joined near q r := by
  have three : ∀ x y z : Nat, x < y → y < z →
      (IsSimplex n near [x, y, z] ↔ z < n ∧ near x y ∧ near x z ∧ near y z) := by
    intro x y z hxy hyz
    constructor
    · intro h
      exact ⟨h.2.2.1 z (by simp), h.2.2.2 x (by simp) y (by simp) hxy,
        h.2.2.2 x (by simp) z (by simp) (by omega), h.2.2.2 y (by simp) z (by simp) hyz⟩
    · rintro ⟨h1, h2, h3, h4⟩
      refine ⟨by simp, by simp; omega, ?_, ?_⟩
      · intro v hv
        simp only [List.mem_cons, List.not_mem_nil, or_false] at hv
        omega
      · intro i hi j hj hij
        simp only [List.mem_cons, List.not_mem_nil, or_false] at hi hj
        rcases hi with rfl | rfl | rfl <;> rcases hj with rfl | rfl | rfl <;>
          first
            | (exfalso; omega)
            | assumption
  have j1 : ∀ a b : Nat, a < b → (Joined near a b ↔ near a b) := fun a b hab =>
    ⟨fun h => by rcases h with h | h; exacts [h.2, absurd h.1 (by omega)], fun h => .inl ⟨hab, h⟩⟩
  have j2 : ∀ a b : Nat, b < a → (Joined near a b ↔ near b a) := fun a b hab =>
    ⟨fun h => by rcases h with h | h; exacts [absurd h.1 (by omega), h.2], fun h => .inr ⟨hab, h⟩⟩
  unfold triangleOf
  split_ifs with h1 h2
  · rw [three r p q h1 hpq, j2 p r h1, j2 q r (by omega)]
    constructor
    · rintro ⟨a, b, c, e⟩; exact ⟨⟨a, e⟩, by omega, b, c⟩
    · rintro ⟨⟨a, b⟩, c, e, f⟩; exact ⟨a, e, f, b⟩
  · rw [three p r q (by omega) h2, j1 p r (by omega), j2 q r h2]
    constructor
    · rintro ⟨a, b, c, e⟩; exact ⟨⟨a, c⟩, by omega, b, e⟩
    · rintro ⟨⟨a, b⟩, c, e, f⟩; exact ⟨a, e, b, f⟩
  · rw [three p q r hpq (by omega), j1 p r (by omega), j1 q r (by omega)]
    constructor
    · rintro ⟨a, b, c, e⟩; exact ⟨⟨by omega, b⟩, a, c, e⟩
    · rintro ⟨⟨a, b⟩, c, e, f⟩; exact ⟨c, b, e, f⟩

/-- A removed edge is the longest side of a triangle. -/
theorem removed_longest {g : Graph W} {n D : Nat} {d : Nat → Nat → W} {near : Nat → Nat → Prop}
    (h : StoresRips g n d near D) (hD : 1 ≤ D) (h0 : ∀ i j, 0 ≤ d i j) {edges all : List (List Nat × W)}
    (he : (collapsed g)[1]? = some edges) (ha : g[1]? = some all) {p q : Nat} (hpq : p < q) {w : W}
    (hin : ([p, q], w) ∈ all) (hout : ([p, q], w) ∉ edges) :
    2 ≤ D ∧ ∃ r, r ≠ p ∧ r ≠ q ∧ Longest d p q r ∧ IsSimplex n near (triangleOf p q r) := by
  obtain ⟨all', ha', -, hm⟩ := (collapsed_parts g).2.1 edges he
  rw [ha] at ha'
  cases ha'
  rw [hm, not_and, not_not] at hout
  obtain ⟨e, hee, hc⟩ := hout hin
  obtain ⟨tri, ht, het⟩ : ∃ tri, g[2]? = some tri ∧ e ∈ tri := by
    cases hd : g.drop 2 with
    | nil => rw [hd] at hee; simp [remaining] at hee
    | cons tri upper =>
      rw [hd] at hee
      obtain ⟨l', hl', -, hls⟩ := remaining_head tri upper
      rw [hl'] at hee
      refine ⟨tri, ?_, hls.subset hee⟩
      have : (g.drop 2)[0]? = some tri := by rw [hd]; rfl
      rwa [List.getElem?_drop] at this
  have hD2 : 2 ≤ D := by
    have := (List.getElem?_eq_some_iff.1 ht).1
    have := h.only
    omega
  refine ⟨hD2, ?_⟩
  obtain ⟨x, y, z, hxy, hyz, hs, rfl⟩ := triangle_cases h ht het
  rcases (chosen_triangle h hD h0 ha hxy hyz hs [p, q]).1 hc with ⟨e1, e2, e3⟩ | ⟨e1, e2, e3⟩ | ⟨e1, e2, e3⟩
  · simp only [List.cons.injEq, and_true] at e1
    obtain ⟨rfl, rfl⟩ := e1
    refine ⟨x, by omega, by omega, .inl ⟨hxy, e2, e3⟩, ?_⟩
    unfold triangleOf
    rwa [if_pos hxy]
  · simp only [List.cons.injEq, and_true] at e1
    obtain ⟨rfl, rfl⟩ := e1
    refine ⟨y, by omega, by omega, .inr (.inl ⟨hxy, hyz, e2, e3⟩), ?_⟩
    unfold triangleOf
    rwa [if_neg (by omega), if_pos hyz]
  · simp only [List.cons.injEq, and_true] at e1
    obtain ⟨rfl, rfl⟩ := e1
    refine ⟨z, by omega, by omega, .inr (.inr ⟨hyz, e2, e3⟩), ?_⟩
    unfold triangleOf
    rwa [if_neg (by omega), if_neg (by omega)]

/-- Which pairs are kept. -/
theorem kept_iff {g : Graph W} {n D : Nat} {d : Nat → Nat → W} {near : Nat → Nat → Prop}
    (h : StoresRips g n d near D) (hD : 1 ≤ D) (h0 : ∀ i j, 0 ≤ d i j) :
    LeftByCollapse n d near D (Kept g) := by
  intro p q
  constructor
  · intro hk
    obtain ⟨h1, h2, h3⟩ := kept_simplex h hD hk
    refine ⟨⟨h1, h2, h3⟩, fun hD2 => ?_⟩
    rintro ⟨r, hr, j1, j2, hl⟩
    obtain ⟨edges, w, he, hm⟩ := hk
    have n1 : r ≠ p := by rcases j1 with j | j <;> omega
    have n2 : r ≠ q := by rcases j2 with j | j <;> omega
    exact longest_removed h hD2 h0 he h1 r hl ((triangle_simplex h1 n1 n2).2 ⟨⟨h2, h3⟩, hr, j1, j2⟩) w hm
  · rintro ⟨⟨h1, h2, h3⟩, h4⟩
    obtain ⟨all, ha, hm⟩ := (h.exact 1 [p, q] (diam d [p, q]) hD).2 ⟨rfl, ⟨by simp, by simpa using h1, by
      intro v hv
      simp only [List.mem_cons, List.not_mem_nil, or_false] at hv
      omega, by
      intro a ha b hb hab
      simp only [List.mem_cons, List.not_mem_nil, or_false] at ha hb
      have : a = p ∧ b = q := by omega
      rw [this.1, this.2]; exact h3⟩, rfl⟩
    have hlen := (List.getElem?_eq_some_iff.1 ha).1
    have hlen' : 1 < (collapsed g).length := by rw [(collapsed_parts g).2.2.2]; exact hlen
    refine ⟨_, diam d [p, q], List.getElem?_eq_getElem hlen', ?_⟩
    by_contra hout
    obtain ⟨hD2, r, n1, n2, hl, hs⟩ := removed_longest h hD h0 (List.getElem?_eq_getElem hlen') ha h1 hm hout
    obtain ⟨-, hr, j1, j2⟩ := (triangle_simplex h1 n1 n2).1 hs
    exact h4 hD2 ⟨r, hr, j1, j2, hl⟩

/-- With triangles, no three points are mutually joined after a collapse. -/
theorem left_short {n dim : Nat} {d : Nat → Nat → W} {near kept : Nat → Nat → Prop}
    (h : LeftByCollapse n d near dim kept) (hd : 2 ≤ dim) {s : List Nat} (h1 : IsSimplex n kept s)
    (h3 : ¬ s.length ≤ 2) : False := by
  obtain ⟨x, y, z, rest, rfl⟩ : ∃ x y z rest, s = x :: y :: z :: rest := by
    match s, h3 with
    | x :: y :: z :: rest, _ => exact ⟨x, y, z, rest, rfl⟩
    | [], h3 => simp at h3
    | [_], h3 => simp at h3
    | [_, _], h3 => simp at h3
  have hp := h1.2.1
  simp only [List.pairwise_cons, List.mem_cons, forall_eq_or_imp] at hp
  have hxy : x < y := hp.1.1
  have hyz : y < z := hp.2.1.1
  obtain ⟨⟨-, a1, a2⟩, a3⟩ := (h x y).1 (h1.2.2.2 x (by simp) y (by simp) hxy)
  obtain ⟨⟨-, b1, b2⟩, b3⟩ := (h x z).1 (h1.2.2.2 x (by simp) z (by simp) (by omega))
  obtain ⟨⟨-, c1, c2⟩, c3⟩ := (h y z).1 (h1.2.2.2 y (by simp) z (by simp) hyz)
  rcases exists_longest d hxy hyz with hl | hl | hl
  · exact c3 hd ⟨x, by omega, .inr ⟨hxy, a2⟩, .inr ⟨by omega, b2⟩, hl⟩
  · exact b3 hd ⟨y, by omega, .inl ⟨hxy, a2⟩, .inr ⟨hyz, c2⟩, hl⟩
  · exact a3 hd ⟨z, by omega, .inl ⟨by omega, b2⟩, .inl ⟨hyz, c2⟩, hl⟩

/-- So the complex is a graph. -/
theorem left_total {n dim : Nat} {d : Nat → Nat → W} {near kept : Nat → Nat → Prop}
    (h : LeftByCollapse n d near dim kept) (hd : 2 ≤ dim) {c : Nat} (hc : 2 ≤ c) :
    simplexTotal n kept c = simplexTotal n kept 2 := by
  unfold simplexTotal
  congr 1
  ext s
  simp only [Set.mem_ofPred_eq]
  refine ⟨fun ⟨h1, h2⟩ => ⟨h1, ?_⟩, fun ⟨h1, h2⟩ => ⟨h1, by omega⟩⟩
  by_contra h3
  exact left_short h hd h1 h3

/-- C82: in every dimension at least 2 the edges that `reduceComplex` leaves of a Rips complex are exactly the
edges that are not the longest side of a triangle (of equally long sides the last one in lexicographic order
counts), with their lengths as weights; in dimension 1 all edges stay. -/
theorem C82_edges_left {g c : Graph W} {n D : Nat} {d : Nat → Nat → W} {near : Nat → Nat → Prop}
    (h : StoresRips g n d near D) (hD : 1 ≤ D) (h0 : ∀ i j, 0 ≤ d i j) (hrun : arrayReduceComplex g = .ok c)
    (p q : Nat) (w : W) :
    (∃ edges, c[1]? = some edges ∧ ([p, q], w) ∈ edges) ↔
      ((p < q ∧ q < n ∧ near p q) ∧ w = d p q) ∧
        (2 ≤ D → ¬ ∃ r, r < n ∧ Joined near p r ∧ Joined near q r ∧ LongestSide d p q r) := by
  rw [reduceComplex_eq (h.collapsible h0)] at hrun
  cases hrun
  have hk := kept_iff h hD h0 p q
  constructor
  · rintro ⟨edges, he, hm⟩
    obtain ⟨h1, h2⟩ := hk.1 ⟨edges, w, he, hm⟩
    obtain ⟨all, ha, hsub, -⟩ := (collapsed_parts g).2.1 edges he
    exact ⟨⟨h1, ((mem_edge_iff h hD h0 ha h1.1 w).1 (hsub.subset hm)).2⟩, h2⟩
  · rintro ⟨⟨h1, rfl⟩, h2⟩
    obtain ⟨edges, w, he, hm⟩ := hk.2 ⟨h1, h2⟩
    obtain ⟨all, ha, hsub, -⟩ := (collapsed_parts g).2.1 edges he
    rw [((mem_edge_iff h hD h0 ha h1.1 w).1 (hsub.subset hm)).2] at hm
    exact ⟨edges, he, hm⟩

end

theorem collapse_chain_stores (eps : ℝ) (dim : Nat) (hd : 0 < dim) (k : Nat) (hk : 0 < k)
    (data : List (List ℝ)) (hdim : ∀ p ∈ data, p.length = k) (collapse : String)
    (hc : collapse = "true" ∨ collapse = "1") :
    ∃ (ws : List ℝ) (g0 ga gb : Graph ℝ) (kept : Nat → Nat → Prop),
      distMatrixPipe vectorsDistance eps [] data = .ok (table data.length (fun i j =>
        if i < j then rowDist k data i j else 0), ws) ∧
      arrayInsertAll eps dim (table data.length (fun i j =>
        if i < j then rowDist k data i j else 0)) data [] = .ok g0 ∧
      ripsPipeArray dim collapse g0 = .ok ga ∧ expandDimensions (dim + 1) ga = .ok gb ∧
      StoresRips g0 data.length (rowDist k data) (fun i j => rowDist k data i j ≤ eps) 1 ∧
      LeftByCollapse data.length (rowDist k data) (fun i j => rowDist k data i j ≤ eps) dim kept ∧
      StoresRips ga data.length (rowDist k data) kept dim ∧
      StoresRips gb data.length (rowDist k data) kept (dim + 1) := by
  obtain ⟨ws, g0, ga', gb', c1, c2, -, -, S0, -, -⟩ := array_chain_stores eps dim hd k hk data hdim
  obtain ⟨dm, ws', g0', ga, gb, b1, b2, b3, b4, A, B⟩ := collapse_chain eps dim hd k hk data hdim collapse hc
  rw [c1] at b1
  cases b1
  rw [c2] at b2
  cases b2
  exact ⟨ws, g0, _, gb, Kept ga, c1, c2, b3, b4, S0, kept_iff A hd (fun _ _ => dist_nonneg),
    collapsed_stores A hd (fun _ _ => dist_nonneg), B⟩

section
variable {env : Surround ℝ ℝ} {io : TextNum ℝ} {lib : Lib ℝ ℝ} {args : ArgMap} {debug : Bool}
  {s : Settings ℝ}

/-- The four default stages on an empty `simplexArrayList` with `collapse`, with their effects. -/
theorem collapse_effects (hdist : lib.dist = vectorsDistance) (hd : 0 < s.dim)
    (hcol : s.collapse = "true" ∨ s.collapse = "1") (x : Work (List ℝ) ℝ × Effects)
    (dm0 : List (List ℝ)) (hcx : x.1.complex = .array [] dm0) (k : Nat) (hk : 0 < k)
    (hdim : ∀ p ∈ x.1.originalData, p.length = k)
    (y : Work (List ℝ) ℝ × Effects)
    (hy : fastKinds.foldlM (fun d k => stageWithEffects env io lib args debug (runStages lib s) k d) x =
      .ok y) :
    ∃ (n N1 N2 N3 : Nat) (L1 L2 : List (List Nat × ℝ)) (kept : Nat → Nat → Prop),
      n = x.1.originalData.length ∧
      LeftByCollapse n (rowDist k x.1.originalData) (fun i j => rowDist k x.1.originalData i j ≤ s.eps)
        s.dim kept ∧
      N1 = simplexTotal n (fun i j => rowDist k x.1.originalData i j ≤ s.eps) 2 ∧
      N2 = simplexTotal n kept (s.dim + 1) ∧
      N3 = simplexTotal n kept (s.dim + 2) ∧
      ListsSimplices L1 n (rowDist k x.1.originalData)
        (fun i j => rowDist k x.1.originalData i j ≤ s.eps) 2 2 ∧
      ListsSimplices L2 n (rowDist k x.1.originalData) kept 1 (s.dim + 1) ∧
      y.2.rows = x.2.rows ++ fourRows (8 * (n * k)) env.pairSize n N1 N2 N3 ∧
      y.2.writes = x.2.writes ++
        fourWrites env args debug x.2.rows.length (8 * (n * k)) env.pairSize N1 N2 N3
        [matrixFile env k x.1.originalData]
        [⟨"output/neighGraph_output.csv", .replace, simplexText env io L1 ++ ['\n']⟩]
        [⟨"output/ripsPipe_output.csv", .replace, simplexText env io L2⟩]
        (bettiFiles io args y.1.bettiOutput) := by
  obtain ⟨ws0, g0, ga, gb, kept, c1, c2, c3, c4, S0, hkept, Sa, Sb⟩ :=
    collapse_chain_stores s.eps s.dim hd k hk x.1.originalData hdim s.collapse hcol
  obtain ⟨⟨dm, ws⟩, d1, (d2 : dm = _)⟩ :=
    (distMatrixPipe_weights vectorsDistance s.eps x.1.weights [] x.1.originalData).of_ok c1
  have hdm : dm = table x.1.originalData.length (fun i j =>
      if i < j then rowDist k x.1.originalData i j else 0) := d2
  clear d2
  rw [← hdm] at c2
  obtain ⟨L1, hL1, hv1⟩ := lists_layer le_rfl S0
  obtain ⟨n0, v0⟩ := C19_array_counts S0
  obtain ⟨na, va⟩ := C19_array_counts Sa
  obtain ⟨nb, vb⟩ := C19_array_counts Sb
  have vert : ∀ (g : Graph ℝ) (w : Work (List ℝ) ℝ),
      arrayVertexCount g = .ok x.1.originalData.length → w.complex = .array g dm →
      w.complex.vertexCount = .ok (x.1.originalData.length : Int) := by
    intro g w h hc
    rw [hc]
    show (arrayVertexCount g >>= fun n => pure (n : Int)) = _
    rw [h]
    rfl
  have count : ∀ (g : Graph ℝ) (w : Work (List ℝ) ℝ) (N : Nat), arraySimplexCount g = N →
      w.complex = .array g dm → w.complex.simplexCount = (N : Int) := by
    rintro g w N rfl hc
    rw [hc]
    rfl
  have size : ∀ (g : Graph ℝ) (w : Work (List ℝ) ℝ) (N : Nat), w.originalData = x.1.originalData →
      arraySimplexCount g = N → w.complex = .array g dm →
      packetSize env w = 8 * (x.1.originalData.length * k) + N * env.pairSize := by
    rintro g w N hw rfl hc
    rw [packetSize_eq env w (by rw [hw]; exact hdim), hw, hc, ← array_size]
    rfl
  refine ⟨_, _, _, _, L1, ga.flatten, kept, rfl, hkept, rfl, rfl, rfl, hL1, lists_of_stores Sa, ?_⟩
  have e1 : runStages lib s .distMatrix x.1 =
      .ok { x.1 with complex := .array [] dm, weights := ws } := by
    unfold runStages; rw [hcx, hdist]; dsimp only; rw [d1]; rfl
  have e2 : runStages lib s .neighGraph { x.1 with complex := .array [] dm, weights := ws } =
      .ok { x.1 with complex := .array g0 dm, weights := ws } := by
    unfold runStages; dsimp only; rw [c2]; rfl
  have e3 : runStages lib s .rips { x.1 with complex := .array g0 dm, weights := ws } =
      .ok { x.1 with complex := .array ga dm, weights := ws } := by
    unfold runStages; dsimp only
    rw [c3]; rfl
  unfold fastKinds at hy
  simp only [List.foldlM_cons, List.foldlM_nil] at hy
  rw [stage_ok (bytes := 8 * (x.1.originalData.length * k)) (v := 0) (c := 0)
    (w := { x.1 with complex := .array [] dm, weights := ws })
    (r := ({ x.1 with complex := .array [] dm, weights := ws }, [matrixFile env k x.1.originalData]))
    (by
      rw [packetSize_eq (k := k) env _ (by exact hdim)]
      simp [AnyComplex.getSize]) e1 rfl rfl (by
      unfold outputData; dsimp only
      rw [← matrix_text, ← hdm]; rfl), ok_bind] at hy
  simp only [ite_self] at hy
  rw [stage_ok (bytes := 8 * (x.1.originalData.length * k) +
      simplexTotal x.1.originalData.length (fun i j => rowDist k x.1.originalData i j ≤ s.eps) 2 * env.pairSize)
    (v := (x.1.originalData.length : Int))
    (c := (simplexTotal x.1.originalData.length (fun i j => rowDist k x.1.originalData i j ≤ s.eps) 2 : Int))
    (w := { x.1 with complex := .array g0 dm, weights := ws })
    (r := ({ x.1 with complex := .array g0 dm, weights := ws },
      [⟨"output/neighGraph_output.csv", .replace, simplexText env io L1 ++ ['\n']⟩]))
    (size g0 _ _ rfl n0 rfl) e2 (vert g0 _ v0 rfl) (count g0 _ _ n0 rfl) (by
      unfold outputData; dsimp only
      rw [← simplexText_eq]
      by_cases hg : g0.length > 1
      · rw [if_pos hg] at hv1 ⊢
        rw [hv1]; rfl
      · rw [if_neg hg] at hv1 ⊢
        cases hv1
        rfl), ok_bind] at hy
  simp only [ite_self] at hy
  rw [stage_ok (bytes := 8 * (x.1.originalData.length * k) +
      simplexTotal x.1.originalData.length kept (s.dim + 1) *
        env.pairSize)
    (v := (x.1.originalData.length : Int))
    (c := (simplexTotal x.1.originalData.length kept (s.dim + 1) : Int))
    (w := { x.1 with complex := .array ga dm, weights := ws })
    (r := ({ x.1 with complex := .array ga dm, weights := ws },
      [⟨"output/ripsPipe_output.csv", .replace, simplexText env io ga.flatten⟩]))
    (size ga _ _ rfl na rfl) e3 (vert ga _ va rfl) (count ga _ _ na rfl) (by
      unfold outputData; dsimp only
      rw [← simplexText_eq]; rfl), ok_bind] at hy
  simp only [ite_self] at hy
  have e4 : runStages lib s .fastPersistence { x.1 with complex := .array ga dm, weights := ws } =
      (fastPersistence lib.mode s.dim s.eps (arrayGetAllEdges lib.sort gb) x.1.bettiOutput x.1.bettiTable >>=
        fun r => pure { x.1 with complex := .array gb dm, weights := ws,
                                 bettiOutput := r.1, bettiTable := r.2 }) := by
    unfold runStages; dsimp only; rw [if_pos hd, c4, ok_bind]
  cases hf : fastPersistence lib.mode s.dim s.eps (arrayGetAllEdges lib.sort gb) x.1.bettiOutput
      x.1.bettiTable with
  | error e =>
    rw [hf, error_bind] at e4
    unfold stageWithEffects at hy
    simp only [e4, error_bind] at hy
    cases hy
  | ok r =>
    rw [hf, ok_bind, pure_eq_ok] at e4
    rw [stage_ok (bytes := 8 * (x.1.originalData.length * k) +
      simplexTotal x.1.originalData.length kept (s.dim + 2) *
        env.pairSize)
      (v := (x.1.originalData.length : Int))
      (c := (simplexTotal x.1.originalData.length kept (s.dim + 2) : Int))
      (w := { x.1 with complex := .array gb dm, weights := ws, bettiOutput := r.1, bettiTable := r.2 })
      (r := ({ x.1 with complex := .array gb dm, weights := ws,
                        bettiOutput := r.1, bettiTable := r.2 }, bettiFiles io args r.1))
      (size gb _ _ rfl nb rfl) e4 (vert gb _ vb rfl) (count gb _ _ nb rfl) (by
        unfold outputData; dsimp only
        rw [bettiFiles_eq]; rfl), ok_bind] at hy
    simp only [ite_self] at hy
    rw [pure_eq_ok] at hy
    cases hy
    constructor
    · simp only [List.append_assoc, List.cons_append, List.nil_append]
      rfl
    · simp only [List.append_assoc, List.length_append, List.length_cons, List.length_nil, fourWrites,
        Nat.zero_add]
      rfl

end

theorem left_lists {n dim : Nat} {d : Nat → Nat → ℝ} {near kept : Nat → Nat → Prop}
    (h : LeftByCollapse n d near dim kept) (hd : 0 < dim) {L : List (List Nat × ℝ)}
    (hL : ListsSimplices L n d kept 1 (dim + 1)) : ListsSimplices L n d kept 1 2 := by
  refine ⟨hL.once, fun s w => ?_⟩
  rw [hL.exact]
  have : IsSimplex n kept s → s.length ≤ dim + 1 → s.length ≤ 2 := by
    intro h1 h2
    by_contra h3
    have hdim : 2 ≤ dim := by omega
    exact left_short h hdim h1 h3
  constructor
  · rintro ⟨a, b, c, e⟩; exact ⟨a, b, this a c, e⟩
  · rintro ⟨a, b, c, e⟩; exact ⟨a, b, by omega, e⟩

section
variable {sys : System ℝ ℝ} {env : Surround ℝ ℝ} {pairs : List (String × String)} {m : ArgMap}
  {f : String} {data : List (List ℝ)} {kind : Option PreKind} {pts : List (List ℝ)} {labels : List Nat}

/-- C101, `simplexArrayList` with `collapse` (dimensions at least 1): the row of `rips` counts the points and the
edges that the collapse leaves, and with at least two dimensions so does the row of `fastPersistence`. With
one dimension nothing is removed, and the last stage adds the triangles. -/
theorem C101_collapse_statistics_partial (hdist : sys.lib.dist = vectorsDistance)
    (h : StandardCommand sys pairs m "simplexArrayList" f data)
    (hpts : PointsOf sys m data pts labels kind)
    (hcol : m.val "collapse" = "true" ∨ m.val "collapse" = "1")
    (hd : 0 < sys.atoi (m.val "dimensions"))
    (k : Nat) (hk : 0 < k) (hdim : ∀ p ∈ pts, p.length = k) (y : World (List ℝ) ℝ × Effects)
    (hy : mainEffects sys env (commandLine pairs) = .ok y) :
    let n := pts.length
    let near := fun i j => rowDist k pts i j ≤ sys.atof (m.val "epsilon")
    ∃ kept, LeftByCollapse n (rowDist k pts) near (sys.atoi (m.val "dimensions")) kept ∧
    ∀ opens before, opens (f ++ "_stats.csv") = true →
      contentAfter opens (f ++ "_stats.csv") before y.2.writes = some (statsContent env
        (preRows kind ++ fourRows (8 * (n * k)) env.pairSize n (simplexTotal n near 2) (simplexTotal n kept 2)
          (simplexTotal n kept (if sys.atoi (m.val "dimensions") = 1 then 3 else 2)))) := by
  intro n near
  obtain ⟨z, h1, -, -, h4, -⟩ := main_effects_points (by decide) h hpts y hy
  obtain ⟨n', N1, N2, N3, L1, L2, kept, rfl, hkept, rfl, rfl, rfl, -, -, h5, -⟩ :=
    collapse_effects hdist hd hcol _ [] rfl k hk hdim z h1
  refine ⟨kept, hkept, fun opens before hopen => ?_⟩
  rw [h4, contentAfter_last hopen (by
    intro w hw
    rw [List.mem_singleton] at hw
    subst hw
    exact name_ne (by decide)), h5, statsText_eq]
  dsimp only at hkept ⊢
  by_cases h2 : sys.atoi (m.val "dimensions") = 1
  · rw [if_pos h2, h2]
  · rw [if_neg h2, left_total hkept (by omega) (c := sys.atoi (m.val "dimensions") + 1) (by omega),
      left_total hkept (by omega) (c := sys.atoi (m.val "dimensions") + 2) (by omega)]

/-- C104, `simplexArrayList` with `collapse` (dimensions at least 1): as without, but the file of `rips` has what the
collapse leaves of the complex: the points and the edges that stay. -/
theorem C104_collapse_files_partial (hdist : sys.lib.dist = vectorsDistance)
    (h : StandardCommand sys pairs m "simplexArrayList" f data) (hpts : PointsOf sys m data pts labels kind)
    (hcol : m.val "collapse" = "true" ∨ m.val "collapse" = "1")
    (hd : 0 < sys.atoi (m.val "dimensions"))
    (hdebug : sys.atoi (m.val "debug") ≠ 0) (hout : Outside f)
    (k : Nat) (hk : 0 < k) (hdim : ∀ p ∈ pts, p.length = k) (y : World (List ℝ) ℝ × Effects)
    (hy : mainEffects sys env (commandLine pairs) = .ok y)
    (opens : String → Bool) (ho : OutputOpens opens) (before : Option (List Char)) :
    ∃ lines t L1 L2 kept, WritesBarcodeAfter (preStats kind) sys.io f lines y.1 ∧
      barcodeContent sys.io lines = "dimension,birth,death\n".toList ++ t ∧
      ListsSimplices L1 pts.length (rowDist k pts)
        (fun i j => rowDist k pts i j ≤ sys.atof (m.val "epsilon")) 2 2 ∧
      LeftByCollapse pts.length (rowDist k pts) (fun i j => rowDist k pts i j ≤ sys.atof (m.val "epsilon"))
        (sys.atoi (m.val "dimensions")) kept ∧
      ListsSimplices L2 pts.length (rowDist k pts) kept 1 2 ∧
      contentAfter opens "output/DistMatrix_output.csv" before y.2.writes =
          some (matrixFile env k pts).text ∧
        contentAfter opens "output/neighGraph_output.csv" before y.2.writes =
          some (simplexText env sys.io L1 ++ ['\n']) ∧
        contentAfter opens "output/ripsPipe_output.csv" before y.2.writes =
          some (simplexText env sys.io L2) ∧
        contentAfter opens ("output/FastPersistence_bettis_output" ++ (setPipeline m).val "fn" ++ ".csv") before
          y.2.writes = some t ∧
        ∀ w ∈ preFilesOf sys.inIO sys.io pts labels kind,
          contentAfter opens w.name before y.2.writes = some w.text := by
  obtain ⟨z, h1, -, -, h4, h5⟩ := main_effects_points (by decide) h hpts y hy
  obtain ⟨n', N1, N2, N3, L1, L2, kept, rfl, hkept, -, -, -, hL1, hL2, -, h6⟩ :=
    collapse_effects hdist hd hcol _ [] rfl k hk hdim z h1
  obtain ⟨t, hbf, hbt⟩ := betti_text sys.io (setPipeline m) z.1.bettiOutput
  rw [debug_on h hdebug, hbf] at h6
  rw [h6] at h4
  have key := fun {name : String} (hn : "output/".toList <+: name.toList) {text : List Char} hm hu =>
    debug_content (text := text) hout ho (output_name h) h4 hn hm hu before
  have hF := betti_take ((setPipeline m).val "fn")
  refine ⟨z.1.bettiOutput, t, L1, L2, kept, ?_, hbt, hL1, hkept, left_lists hkept hd hL2, ?_, ?_, ?_, ?_, ?_⟩
  · show _ = _
    rw [h5, barcodeText_eq]
    rfl
  · refine key (by decide) (by simp [matrixFile]) ?_
    intro w hw hn
    simp only [List.mem_append, List.mem_cons, List.not_mem_nil, or_false] at hw
    rcases hw with hw | (((rfl | rfl) | rfl) | (rfl | rfl))
    · exact absurd hn (pre_take hw).2.2.2.1
    · rfl
    · exact absurd hn (by first | decide | (dsimp only; decide))
    · exact absurd hn (by first | decide | (dsimp only; decide))
    · exact absurd hn (take_ne 8 (by rw [hF]; decide))
    · exact absurd hn (by first | decide | (dsimp only; decide))
  · refine key (by decide) (by simp [matrixFile]) ?_
    intro w hw hn
    simp only [List.mem_append, List.mem_cons, List.not_mem_nil, or_false] at hw
    rcases hw with hw | (((rfl | rfl) | rfl) | (rfl | rfl))
    · exact absurd hn (pre_take hw).2.2.2.2.1
    · exact absurd hn (by unfold matrixFile; dsimp only; decide)
    · rfl
    · exact absurd hn (by first | decide | (dsimp only; decide))
    · exact absurd hn (take_ne 8 (by rw [hF]; decide))
    · exact absurd hn (by first | decide | (dsimp only; decide))
  · refine key (by decide) (by simp [matrixFile]) ?_
    intro w hw hn
    simp only [List.mem_append, List.mem_cons, List.not_mem_nil, or_false] at hw
    rcases hw with hw | (((rfl | rfl) | rfl) | (rfl | rfl))
    · exact absurd hn (pre_take hw).2.2.2.2.2.1
    · exact absurd hn (by unfold matrixFile; dsimp only; decide)
    · exact absurd hn (by first | decide | (dsimp only; decide))
    · rfl
    · exact absurd hn (take_ne 8 (by rw [hF]; decide))
    · exact absurd hn (by first | decide | (dsimp only; decide))
  · refine key (List.IsPrefix.trans (by decide) (hF ▸ List.take_prefix 8 _)) (by simp) ?_
    intro w hw hn
    simp only [List.mem_append, List.mem_cons, List.not_mem_nil, or_false] at hw
    rcases hw with hw | (((rfl | rfl) | rfl) | (rfl | rfl))
    · exact absurd (by rw [hn, hF]) (pre_take hw).2.2.1
    · exact absurd hn.symm (take_ne 8 (by rw [hF]; unfold matrixFile; dsimp only; decide))
    · exact absurd hn.symm (take_ne 8 (by rw [hF]; dsimp only; decide))
    · exact absurd hn.symm (take_ne 8 (by rw [hF]; dsimp only; decide))
    · rfl
    · exact absurd hn.symm (take_ne 8 (by rw [hF]; dsimp only; decide))
  · intro v hv
    obtain ⟨v1, v2, v3, v4, v5, v6, v7⟩ := pre_take hv
    have hv' : v = ⟨v.name, .replace, v.text⟩ := by rw [← v1]
    refine key v2 (List.mem_append.2 (Or.inl (hv' ▸ hv))) ?_
    intro w hw hn
    simp only [List.mem_append, List.mem_cons, List.not_mem_nil, or_false] at hw
    rcases hw with hw | (((rfl | rfl) | rfl) | (rfl | rfl))
    · rw [pre_once hw hv hn]; exact hv'
    · exact absurd hn.symm v4
    · exact absurd hn.symm v5
    · exact absurd hn.symm v6
    · exact absurd (by rw [← hn]; exact hF) v3
    · exact absurd hn.symm v7

end

/-! ### Examples -/

/-- Three points on a line, at 0, 1, 2, all near: the long edge goes. -/
example : LeftByCollapse 3 (fun i j => (j : Int) - i) (fun _ _ => True) 2
    (fun i j => (i = 0 ∧ j = 1) ∨ (i = 1 ∧ j = 2)) := by
  intro p q
  simp only [and_true]
  constructor
  · rintro (⟨rfl, rfl⟩ | ⟨rfl, rfl⟩)
    · refine ⟨by omega, fun _ => ?_⟩
      rintro ⟨r, hr, -, -, h⟩
      simp only [LongestSide] at h
      omega
    · refine ⟨by omega, fun _ => ?_⟩
      rintro ⟨r, hr, -, -, h⟩
      simp only [LongestSide] at h
      omega
  · rintro ⟨⟨h1, h2⟩, h3⟩
    by_contra h4
    have hp : p = 0 := by omega
    have hq : q = 2 := by omega
    subst hp hq
    exact h3 le_rfl ⟨1, by omega, .inl ⟨by omega, trivial⟩, .inr ⟨by omega, trivial⟩, .inr (.inl (by simp))⟩

theorem collapse_command : ∃ (sys : System ℝ ℝ) (m : ArgMap), sys.lib.dist = vectorsDistance ∧
    StandardCommand sys [("-i", "data.csv"), ("-o", "bars"), ("-c", "simplexArrayList"), ("-x", "1"), ("-z", "true")]
      m "simplexArrayList" "bars" [[((0 : Nat) : ℝ)], [((2 : Nat) : ℝ)], [((9 : Nat) : ℝ)]] ∧
    m.val "preprocessor" = "" ∧ m.val "collapse" = "true" ∧ 0 < sys.atoi (m.val "dimensions") ∧
    sys.atoi (m.val "debug") ≠ 0 ∧ sys.atof (m.val "epsilon") = 5 :=
  ⟨{ realSystem [] [] "00\n02\n09" with
      lib := ⟨.insertion _ _, .insertion _ _, .noPivot, vectorsDistance, fun _ t => .ok t, fun _ w => .ok w⟩ }, _,
    rfl, ⟨rfl, by decide, by decide, Or.inl (by decide), by decide, by decide, by decide,
    by decide, rfl, by simp⟩, by decide, by decide, by decide, by decide, rfl⟩

/-- The hypotheses of C101 and C104 with `collapse` are met: three points on a line. -/
example (env : Surround ℝ ℝ) : ∃ (sys : System ℝ ℝ) (m : ArgMap) (y : World (List ℝ) ℝ × Effects),
    sys.lib.dist = vectorsDistance ∧
    StandardCommand sys [("-i", "data.csv"), ("-o", "bars"), ("-c", "simplexArrayList"), ("-x", "1"), ("-z", "true")]
      m "simplexArrayList" "bars" [[((0 : Nat) : ℝ)], [((2 : Nat) : ℝ)], [((9 : Nat) : ℝ)]] ∧
    PointsOf sys m [[((0 : Nat) : ℝ)], [((2 : Nat) : ℝ)], [((9 : Nat) : ℝ)]]
      [[((0 : Nat) : ℝ)], [((2 : Nat) : ℝ)], [((9 : Nat) : ℝ)]] [] none ∧
    (m.val "collapse" = "true" ∨ m.val "collapse" = "1") ∧ 0 < sys.atoi (m.val "dimensions") ∧
    sys.atoi (m.val "debug") ≠ 0 ∧ Outside "bars" ∧
    mainEffects sys env (commandLine [("-i", "data.csv"), ("-o", "bars"), ("-c", "simplexArrayList"), ("-x", "1"),
      ("-z", "true")]) = .ok y := by
  obtain ⟨sys, m, hdist, hS, hP, hcol, hd, hx, heps⟩ := collapse_command
  have hedge : rowDist 1 [[((0 : Nat) : ℝ)], [((2 : Nat) : ℝ)], [((9 : Nat) : ℝ)]] 0 1 ≤ 5 := by
    have h := C10_distance_is_euclidean (k := 1) [((0 : Nat) : ℝ)] [((2 : Nat) : ℝ)] rfl rfl
    have h' : vectorsDistance [((0 : Nat) : ℝ)] [((2 : Nat) : ℝ)] = .ok 2 := by
      simp [vectorsDistance, sqDistance, sqDiffs]
    rw [h'] at h
    show dist (point 1 [((0 : Nat) : ℝ)]) (point 1 [((2 : Nat) : ℝ)]) ≤ 5
    rw [← Except.ok.inj h]
    norm_num
  obtain ⟨w, ds, hw, -, -⟩ := C116_program sys hdist _ m "bars" _
    ⟨hS.parsed, hS.mpi, hS.pipeline, hS.mode, hP, hS.upscale, hS.complex, hS.output, hS.console, hS.input,
      hS.rows⟩ (.inl hcol) hd 1 (by decide)
    (by simp) ⟨0, 1, by decide, by decide, by rw [heps]; exact hedge⟩
  obtain ⟨y, hy, -⟩ := (C102_standard_partial sys env _ m "simplexArrayList" "bars" _ (by decide) hS none _ []
    ⟨hP, rfl, rfl⟩).of_ok hw
  exact ⟨sys, m, y, hdist, hS, ⟨hP, rfl, rfl⟩, .inl hcol, hd, hx, by unfold Outside; decide, hy⟩

end LHF
