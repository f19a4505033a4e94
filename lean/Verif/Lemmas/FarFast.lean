import Verif.Lemmas.FarPersistence
import Verif.Lemmas.FastSpec

/-! `fastPersistence` on a complex in two parts without common vertices: the lines of positive dimension are
those of the two parts. -/

namespace LHF
open Spec

theorem take_emb {α : Type} (P : α → Bool) (l : List α) : ∀ p : Nat,
    (l.take (emb P l p)).filter P = (l.filter P).take p := by
  induction l with
  | nil => intro p; simp
  | cons x l ih =>
    intro p
    unfold emb
    by_cases h1 : P x = true
    · rw [if_pos h1, List.filter_cons_of_pos h1]
      by_cases h2 : p = 0
      · subst h2; simp
      · rw [if_neg h2, List.take_succ_cons, List.filter_cons_of_pos h1, ih]
        obtain ⟨q, rfl⟩ : ∃ q, p = q + 1 := ⟨p - 1, by omega⟩
        simp
    · rw [if_neg h1, List.filter_cons_of_neg h1, List.take_succ_cons, List.filter_cons_of_neg h1, ih]

section
variable {W : Type} [LinearOrder W]

omit [LinearOrder W] in
/-- Connections within a part are those of the part alone. -/
theorem reachable_part {P : List Nat × W → Bool} {m : Nat} {vU vS : List Nat}
    {EU ES : List (List Nat × W)} (h : EU.filter P = ES.map (shiftE m))
    (hvU : ∀ v ∈ vS, v + m ∈ vU) (hES : ∀ e ∈ ES, ∀ v ∈ e.1, v ∈ vS)
    (hfor : ∀ e ∈ EU, P e = false → ∀ v ∈ vS, v + m ∉ e.1) (x y : {v // v ∈ vS}) :
    (edgeGraph vU EU).Reachable ⟨x.1 + m, hvU _ x.2⟩ ⟨y.1 + m, hvU _ y.2⟩ ↔
      (edgeGraph vS ES).Reachable x y := by
  constructor
  · have key : ∀ (u w : {v // v ∈ vU}), (edgeGraph vU EU).Walk u w → ∀ x : {v // v ∈ vS},
        u.1 = x.1 + m → ∃ y : {v // v ∈ vS}, w.1 = y.1 + m ∧ (edgeGraph vS ES).Reachable x y := by
      intro u w p
      induction p with
      | nil => intro x hx; exact ⟨x, hx, SimpleGraph.Reachable.refl _⟩
      | @cons u v w hadj p ih =>
        intro x hx
        obtain ⟨hne, e, he, hu, hv⟩ := hadj
        have hP : P e = true := by
          by_contra hn
          exact hfor e he (by simpa using hn) x.1 x.2 (by rw [← hx]; exact hu)
        have hm : e ∈ EU.filter P := List.mem_filter.2 ⟨he, hP⟩
        rw [h] at hm
        obtain ⟨e0, he0, rfl⟩ := List.mem_map.1 hm
        obtain ⟨v0, hv0, hv1⟩ := List.mem_map.1 hv
        obtain ⟨u0, hu0, hu1⟩ := List.mem_map.1 hu
        have hvv : v0 ∈ vS := hES e0 he0 v0 hv0
        obtain ⟨z, hz1, hz2⟩ := ih ⟨v0, hvv⟩ hv1.symm
        refine ⟨z, hz1, SimpleGraph.Reachable.trans (SimpleGraph.Adj.reachable ?_) hz2⟩
        refine ⟨fun e => hne ?_, e0, he0, ?_, hv0⟩
        · apply Subtype.ext
          rw [hx, e]
          exact hv1
        · have : u0 = x.1 := by
            have : u0 + m = x.1 + m := by rw [← hx]; exact hu1
            omega
          rw [← this]
          exact hu0
    rintro ⟨p⟩
    obtain ⟨z, hz1, hz2⟩ := key _ _ p x rfl
    have : z = y := by
      apply Subtype.ext
      have : y.1 + m = z.1 + m := hz1
      omega
    rwa [this] at hz2
  · rintro ⟨p⟩
    induction p with
    | nil => exact SimpleGraph.Reachable.refl _
    | @cons u v w hadj p ih =>
      refine SimpleGraph.Reachable.trans (SimpleGraph.Adj.reachable ?_) ih
      obtain ⟨hne, e, he, hu, hv⟩ := hadj
      refine ⟨fun e => hne ?_, shiftE m e, ?_, ?_, ?_⟩
      · apply Subtype.ext
        have : u.1 + m = v.1 + m := congrArg Subtype.val e
        omega
      · have : shiftE m e ∈ EU.filter P := by rw [h]; exact List.mem_map.2 ⟨e, he, rfl⟩
        exact (List.mem_filter.1 this).1
      · exact List.mem_map.2 ⟨_, hu, rfl⟩
      · exact List.mem_map.2 ⟨_, hv, rfl⟩

variable [Zero W]

/-- The selected edges within a part are those of the part alone. -/
theorem kruskal_part {P : List Nat × W → Bool} {m : Nat} {vU vS : List Nat}
    {EU ES FU FS : List (List Nat × W)} {kU kS : Kruskal W} (hU : KInv vU EU FU kU)
    (hS : KInv vS ES FS kS) (h : IsPart P m EU ES)
    (hvU : ∀ v ∈ vS, v + m ∈ vU) (hES : ∀ e ∈ ES, ∀ v ∈ e.1, v ∈ vS)
    (hfor : ∀ e ∈ EU, P e = false → ∀ v ∈ vS, v + m ∉ e.1) (p : Nat) (hp : p < ES.length) :
    emb P EU p ∈ kU.pivots ↔ p ∈ kS.pivots := by
  have hget := h.get p
  rw [List.getElem?_eq_getElem hp] at hget
  obtain ⟨hlt, hval⟩ := List.getElem?_eq_some_iff.1 hget
  have htake : (EU.take (emb P EU p)).filter P = (ES.take p).map (shiftE m) := by
    rw [take_emb, h.rows, List.map_take]
  have hreach := reachable_part (vU := vU) (vS := vS) htake hvU
    (fun e he => hES e (List.mem_of_mem_take he)) (fun e he => hfor e (List.mem_of_mem_take he))
  rw [hU.pmem _ hlt, hS.pmem _ hp]
  constructor
  · rintro ⟨x, y, hx, hy, hn⟩
    rw [hval] at hx hy
    obtain ⟨x0, hx0, hx1⟩ := List.mem_map.1 hx
    obtain ⟨y0, hy0, hy1⟩ := List.mem_map.1 hy
    refine ⟨⟨x0, hES _ (List.getElem_mem hp) x0 hx0⟩, ⟨y0, hES _ (List.getElem_mem hp) y0 hy0⟩, hx0, hy0,
      fun hr => hn ?_⟩
    have := (hreach _ _).2 hr
    convert this using 1
    · exact Subtype.ext hx1.symm
    · exact Subtype.ext hy1.symm
  · rintro ⟨x, y, hx, hy, hn⟩
    refine ⟨⟨x.1 + m, hvU _ x.2⟩, ⟨y.1 + m, hvU _ y.2⟩, ?_, ?_, fun hr => hn ((hreach _ _).1 hr)⟩
    · rw [hval]; exact List.mem_map.2 ⟨_, hx, rfl⟩
    · rw [hval]; exact List.mem_map.2 ⟨_, hy, rfl⟩

/-- The vertices of a simplex are below `n`. -/
def below (n : Nat) (e : List Nat × W) : Bool := e.1.all (fun v => decide (v < n))

omit [LinearOrder W] [Zero W] in
theorem below_iff {n : Nat} {e : List Nat × W} : below n e = true ↔ ∀ v ∈ e.1, v < n := by
  simp [below]

/-- The layers of `eU` are those of `eA` and, moved by `n`, those of `eB`, each in its order. -/
structure Interleaved (n : Nat) (eU eA eB : Graph W) : Prop where
  /-- the simplices of the first part -/
  first : ∀ k, (eU.getD k []).filter (below n) = eA.getD k []
  /-- the others -/
  second : ∀ k, (eU.getD k []).filter (fun e => !below n e) = (eB.getD k []).map (shiftE n)
  /-- number of layers -/
  len : eU.length = max eA.length eB.length

omit [Zero W] in
theorem filtered_inc {e : Graph W} (h : FilteredComplex e) (k : Nat) : ∀ r ∈ e.getD k [],
    Inc r.1 ∧ r.1.length = k + 1 := by
  intro r hr
  rw [List.getD_eq_getElem?_getD] at hr
  cases hk : e[k]? with
  | none => rw [hk] at hr; cases hr
  | some l => rw [hk] at hr; exact h.shape k l hk r hr

omit [LinearOrder W] [Zero W] in
/-- The simplices of the second part have no vertex below `n`. -/
theorem Interleaved.above {n : Nat} {eU eA eB : Graph W} (h : Interleaved n eU eA eB) {k : Nat}
    {e : List Nat × W} (he : e ∈ eU.getD k []) (hn : below n e = false) : ∀ v ∈ e.1, n ≤ v := by
  have : e ∈ (eU.getD k []).filter (fun e => !below n e) := List.mem_filter.2 ⟨he, by simp [hn]⟩
  rw [h.second] at this
  obtain ⟨e0, -, rfl⟩ := List.mem_map.1 this
  intro v hv
  obtain ⟨w, -, rfl⟩ := List.mem_map.1 hv
  omega

omit [Zero W] in
theorem Interleaved.far {n : Nat} {eU eA eB : Graph W} (h : Interleaved n eU eA eB)
    (hU : FilteredComplex eU) (hA : FilteredComplex eA) (hB : FilteredComplex eB) :
    FarGraph (below n) n eU eA eB := by
  refine ⟨fun k => ⟨by rw [h.first, shiftE_zero]⟩, fun k => ⟨h.second k⟩,
    fun k r hr => (filtered_inc hU k r hr).1, fun k r hr => (filtered_inc hA k r hr).1,
    fun k r hr => (filtered_inc hB k r hr).1, ?_⟩
  intro k r hr c hc hne hsub
  have hl := (filtered_inc hU k r hr).2
  obtain ⟨v, hv⟩ : ∃ v, v ∈ r.1 := by
    cases hr1 : r.1 with
    | nil => rw [hr1] at hl; simp at hl
    | cons a l => exact ⟨a, by simp⟩
  cases hb : below n r with
  | true =>
    have h1 := below_iff.1 hb v hv
    have hc' : below n c = false := by
      cases hx : below n c with
      | true => exact absurd (hb.trans hx.symm) hne
      | false => rfl
    have := h.above hc hc' v (hsub v hv)
    omega
  | false =>
    have h1 := h.above hr hb v hv
    have hc' : below n c = true := by
      cases hx : below n c with
      | true => rfl
      | false => exact absurd (hb.trans hx.symm) hne
    have := below_iff.1 hc' v (hsub v hv)
    omega

/-- The start of the run. -/
theorem fast_start {dim : Nat} {eps : W} {edges : Graph W} (hF : FilteredComplex edges)
    (hlen : 2 ≤ edges.length) :
    ∃ (F : List (List Nat × W)) (k : Kruskal W) (L : List (Line W)) (T : List (BettiEntry W)),
      KInv (vertices edges) (edges.getD 1 []) F k ∧ (∀ l ∈ L, l.1 = 0) ∧
      fastPersistence .noPivot dim eps edges [] [] =
        dimsD edges (min dim (edges.length - 1) - 1) 1 k.pivots L T := by
  have g0 : edges[0]? = some (edges.getD 0 []) := by
    rw [List.getD_eq_getElem?_getD, List.getElem?_eq_getElem (by omega)]; rfl
  have g1 : edges[1]? = some (edges.getD 1 []) := by
    rw [List.getD_eq_getElem?_getD, List.getElem?_eq_getElem (by omega)]; rfl
  obtain ⟨v1, v2, -⟩ := hF.verts g0
  have hE := hF.isEdge g1
  obtain ⟨F, hF'⟩ := kinv_all (edges.getD 1 []) hE (kinv_init v2 [])
  obtain ⟨k1, k2, k3⟩ := kruskalLoop_eq (edges.getD 1 []) hE (kinv_init v2 ([] : List (BettiEntry W)))
  rw [List.nil_append] at hF'
  rw [v1] at k1 k2 k3
  refine ⟨F, _, (kruskalLoop (edges.getD 0 []).length (edges.getD 1 []) (Kruskal.init [])).mst.map
    (fun z => (0, 0, z)) ++ [(0, 0, eps)], (kruskalLoop (edges.getD 0 []).length (edges.getD 1 [])
      (Kruskal.init [])).table ++ [⟨0, 0, eps, []⟩], hF', ?_, ?_⟩
  · intro l hl
    rcases List.mem_append.1 hl with hl | hl
    · obtain ⟨z, -, rfl⟩ := List.mem_map.1 hl; rfl
    · rw [List.mem_singleton.1 hl]
  · unfold fastPersistence
    rw [if_neg (by omega), vget_ok.2 g0, ok_bind, vget_ok.2 g1, ok_bind]
    dsimp only
    by_cases hd : dim > 0
    · rw [if_pos hd, ← k2, dimsD_eq _ _ _ _ _ _ (by omega)]
    · rw [if_neg hd]
      have : min dim (edges.length - 1) - 1 = 0 := by omega
      rw [this]
      rfl

/-- The lines of positive dimension of a complex in two parts. -/
theorem fast_far {n dim : Nat} {eps : W} {eU eA eB : Graph W} (h : Interleaved n eU eA eB)
    (hU : FilteredComplex eU) (hA : FilteredComplex eA) (hB : FilteredComplex eB)
    (hlA : 2 ≤ eA.length) (hlB : 2 ≤ eB.length) {rA rB : List (Line W) × List (BettiEntry W)}
    (hrA : fastPersistence .noPivot dim eps eA [] [] = .ok rA)
    (hrB : fastPersistence .noPivot dim eps eB [] [] = .ok rB) :
    ∃ rU, fastPersistence .noPivot dim eps eU [] [] = .ok rU ∧
      (rU.1.filter (fun l => 1 ≤ l.1)).Perm
        (rA.1.filter (fun l => 1 ≤ l.1) ++ rB.1.filter (fun l => 1 ≤ l.1)) := by
  have hlU : 2 ≤ eU.length := by rw [h.len]; omega
  obtain ⟨FA, kA, LA, TA, a1, a2, a3⟩ := fast_start (dim := dim) (eps := eps) hA hlA
  obtain ⟨FB, kB, LB, TB, b1, b2, b3⟩ := fast_start (dim := dim) (eps := eps) hB hlB
  obtain ⟨FU, kU, LU, TU, u1, u2, u3⟩ := fast_start (dim := dim) (eps := eps) hU hlU
  rw [a3] at hrA
  rw [b3] at hrB
  -- the runs of the parts may go on through missing layers
  have more : ∀ (e : Graph W) (piv : List Nat) (L : List (Line W)) (T : List (BettiEntry W)),
      2 ≤ e.length → e.length ≤ eU.length → dimsD e (min dim (eU.length - 1) - 1) 1 piv L T =
        dimsD e (min dim (e.length - 1) - 1) 1 piv L T := by
    intro e piv L T h2 hle
    by_cases hd : dim ≤ e.length - 1
    · rw [show min dim (eU.length - 1) - 1 = min dim (e.length - 1) - 1 by omega]
    · obtain ⟨k, hk⟩ : ∃ k, min dim (eU.length - 1) - 1 = (min dim (e.length - 1) - 1) + k :=
        ⟨(min dim (eU.length - 1) - 1) - (min dim (e.length - 1) - 1), by omega⟩
      rw [hk]
      exact dimsD_more _ _ _ _ _ _ _ (by omega)
  rw [← more eA _ _ _ hlA (by rw [h.len]; omega)] at hrA
  rw [← more eB _ _ _ hlB (by rw [h.len]; omega)] at hrB
  have H := h.far hU hA hB
  have g0 : ∀ {e : Graph W}, 2 ≤ e.length → e[0]? = some (e.getD 0 []) := by
    intro e he
    rw [List.getD_eq_getElem?_getD, List.getElem?_eq_getElem (by omega)]; rfl
  have g1 : ∀ {e : Graph W}, 2 ≤ e.length → e[1]? = some (e.getD 1 []) := by
    intro e he
    rw [List.getD_eq_getElem?_getD, List.getElem?_eq_getElem (by omega)]; rfl
  have hverts : ∀ {e : Graph W} {v : Nat}, v ∈ vertices e ↔ ∃ x ∈ e.getD 0 [], v ∈ x.1 := by
    intro e v
    unfold vertices
    rw [List.mem_flatMap]
  have hends : ∀ {e : Graph W}, FilteredComplex e → 2 ≤ e.length → ∀ x ∈ e.getD 1 [], ∀ v ∈ x.1,
      v ∈ vertices e := by
    intro e he hl x hx v hv
    obtain ⟨a, b, -, h1, h2, h3⟩ := he.isEdge (g1 hl) x hx
    rw [h3] at hv
    rcases List.mem_cons.1 hv with rfl | hv
    · exact h1
    · rw [List.mem_singleton.1 hv]; exact h2
  have pA := kruskal_part (m := 0) u1 a1 (H.partA 1) (by
      intro v hv
      obtain ⟨x, hx, hvx⟩ := hverts.1 hv
      rw [← h.first 0] at hx
      exact hverts.2 ⟨x, (List.mem_filter.1 hx).1, hvx⟩) (hends hA hlA) (by
      intro e he hP v hv hve
      have h1 := h.above he hP _ hve
      obtain ⟨x, hx, hvx⟩ := hverts.1 hv
      rw [← h.first 0] at hx
      have h2 := below_iff.1 (List.mem_filter.1 hx).2 v hvx
      omega)
  have pB := kruskal_part (m := n) u1 b1 (H.partB 1) (by
      intro v hv
      obtain ⟨x, hx, hvx⟩ := hverts.1 hv
      have : shiftE n x ∈ (eU.getD 0 []).filter (fun e => !below n e) := by
        rw [h.second]; exact List.mem_map.2 ⟨x, hx, rfl⟩
      exact hverts.2 ⟨shiftE n x, (List.mem_filter.1 this).1, List.mem_map.2 ⟨v, hvx, rfl⟩⟩)
      (hends hB hlB) (by
      intro e he hP v hv hve
      have h1 := below_iff.1 (by simpa using hP : below n e = true) _ hve
      omega)
  obtain ⟨rU, xU, xA, xB, c1, c2, c3, c4, c5⟩ := dimsD_far H (min dim (eU.length - 1) - 1) 1 kU.pivots
    kA.pivots kB.pivots LU LA LB TU TA TB rA rB u1.pinc a1.pinc b1.pinc pA pB hrA hrB
  rw [← u3] at c1
  refine ⟨rU, c1, ?_⟩
  have zero : ∀ L : List (Line W), (∀ l ∈ L, l.1 = 0) → L.filter (fun l => 1 ≤ l.1) = [] := by
    intro L hL
    rw [List.filter_eq_nil_iff]
    intro l hl
    simp [hL l hl]
  rw [c2, c3, c4, List.filter_append, List.filter_append, List.filter_append, zero _ u2, zero _ a2,
    zero _ b2, List.nil_append, List.nil_append, List.nil_append, ← List.filter_append]
  exact c5.filter _

end
end LHF
