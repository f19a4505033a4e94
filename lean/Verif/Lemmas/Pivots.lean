import Verif.Lemmas.ReduceDim
import Verif.Lemmas.Kruskal
import Verif.Spec.Filtered

/-! The pivots of fastPersistence are the simplices whose boundary is independent of the boundaries
of the earlier ones. -/

namespace LHF
open Spec

theorem two_chain (c : Chain) : c + c = 0 := by
  ext t
  have : ∀ z : ZMod 2, z + z = 0 := by decide
  exact this _

/-! ### Dimension 1: edges -/

theorem boundaryOf_pair (a b : Nat) :
    boundaryOf [a, b] = Finsupp.single [b] 1 + Finsupp.single [a] 1 := by
  unfold boundaryOf
  simp [Finset.sum_range_succ]

section
variable {W : Type}

theorem reachable_span {verts : List Nat} {E : List (List Nat × W)}
    (hE : ∀ e ∈ E, IsEdge verts e.1) {x y : {v // v ∈ verts}}
    (h : (edgeGraph verts E).Reachable x y) :
    (Finsupp.single [x.1] 1 + Finsupp.single [y.1] 1 : Chain) ∈
      spanL (ZMod 2) (bvecs (E.map (·.1))) := by
  obtain ⟨p⟩ := h
  induction p with
  | nil => rw [two_chain]; exact Submodule.zero_mem _
  | @cons u v w huv p ih =>
    obtain ⟨hne, e, he, hu, hv⟩ := huv
    have hedge : (Finsupp.single [u.1] 1 + Finsupp.single [v.1] 1 : Chain) ∈
        spanL (ZMod 2) (bvecs (E.map (·.1))) := by
      obtain ⟨a, b, hab, ha, hb, heq⟩ := hE e he
      have hm : boundaryOf e.1 ∈ spanL (ZMod 2) (bvecs (E.map (·.1))) :=
        mem_spanL (List.mem_map.2 ⟨e.1, List.mem_map.2 ⟨e, he, rfl⟩, rfl⟩)
      rw [heq, boundaryOf_pair] at hm
      rw [heq] at hu hv
      simp only [List.mem_cons, List.not_mem_nil, or_false] at hu hv
      have hne' : u.1 ≠ v.1 := fun h => hne (Subtype.ext h)
      rcases hu with hu | hu <;> rcases hv with hv | hv
      · omega
      · rw [hu, hv, add_comm]; exact hm
      · rw [hu, hv]; exact hm
      · omega
    have := Submodule.add_mem _ hedge ih
    have e2 : (Finsupp.single [u.1] 1 + Finsupp.single [v.1] 1 +
        (Finsupp.single [v.1] 1 + Finsupp.single [w.1] 1) : Chain) =
        Finsupp.single [u.1] 1 + Finsupp.single [w.1] 1 := by
      rw [add_assoc, ← add_assoc (Finsupp.single [v.1] 1), two_chain, zero_add]
    rwa [e2] at this

open Classical in
/-- Sum of the coefficients over the component of `x`. -/
noncomputable def compSum (verts : List Nat) (E : List (List Nat × W)) (x : {v // v ∈ verts}) :
    Chain →ₗ[ZMod 2] ZMod 2 :=
  Finsupp.linearCombination (ZMod 2) (fun s =>
    if ∃ v : {v // v ∈ verts}, s = [v.1] ∧ (edgeGraph verts E).Reachable x v then 1 else 0)

theorem compSum_zero {verts : List Nat} {E : List (List Nat × W)}
    (hE : ∀ e ∈ E, IsEdge verts e.1) (x : {v // v ∈ verts}) {c : Chain}
    (hc : c ∈ spanL (ZMod 2) (bvecs (E.map (·.1)))) : compSum verts E x c = 0 := by
  have hle : spanL (ZMod 2) (bvecs (E.map (·.1))) ≤ LinearMap.ker (compSum verts E x) := by
    unfold spanL
    rw [Submodule.span_le]
    intro c hc
    simp only [bvecs, List.map_map, Set.mem_ofPred_eq, List.mem_map, Function.comp_apply] at hc
    obtain ⟨e, he, rfl⟩ := hc
    obtain ⟨a, b, hab, ha, hb, heq⟩ := hE e he
    rw [SetLike.mem_coe, LinearMap.mem_ker, heq, boundaryOf_pair, map_add]
    unfold compSum
    rw [Finsupp.linearCombination_single, Finsupp.linearCombination_single, one_smul, one_smul]
    have hadj : (edgeGraph verts E).Adj ⟨a, ha⟩ ⟨b, hb⟩ := by
      refine ⟨?_, e, he, by rw [heq]; simp, by rw [heq]; simp⟩
      intro h; rw [Subtype.mk.injEq] at h; omega
    have hiff : (∃ v : {v // v ∈ verts}, [b] = [v.1] ∧ (edgeGraph verts E).Reachable x v) ↔
        ∃ v : {v // v ∈ verts}, [a] = [v.1] ∧ (edgeGraph verts E).Reachable x v := by
      constructor
      · rintro ⟨v, hv, hr⟩
        have : v = ⟨b, hb⟩ := Subtype.ext (by simpa using hv.symm)
        rw [this] at hr
        exact ⟨⟨a, ha⟩, rfl, hr.trans hadj.symm.reachable⟩
      · rintro ⟨v, hv, hr⟩
        have : v = ⟨a, ha⟩ := Subtype.ext (by simpa using hv.symm)
        rw [this] at hr
        exact ⟨⟨b, hb⟩, rfl, hr.trans hadj.reachable⟩
    by_cases hc : ∃ v : {v // v ∈ verts}, [a] = [v.1] ∧ (edgeGraph verts E).Reachable x v
    · rw [if_pos (hiff.2 hc), if_pos hc]; decide
    · rw [if_neg (fun h => hc (hiff.1 h)), if_neg hc]; decide
  exact hle hc

/-- The edges selected in dimension 0 are those whose boundary is independent of the earlier ones. -/
theorem kruskal_indep [Zero W] {verts : List Nat} {E F : List (List Nat × W)} {k : Kruskal W}
    (hE : ∀ e ∈ E, IsEdge verts e.1) (h : KInv verts E F k) :
    k.pivots = indep (ZMod 2) (bvecs (E.map (·.1))) := by
  apply Inc.ext h.pinc (inc_indep _)
  intro i
  have hlen : (bvecs (E.map (·.1))).length = E.length := by simp [bvecs]
  rw [mem_indep, hlen]
  constructor
  · intro hi
    have hlt := h.plt i hi
    refine ⟨hlt, ?_⟩
    obtain ⟨x, y, hx, hy, hxy⟩ := (h.pmem i hlt).1 hi
    obtain ⟨a, b, hab, ha, hb, heq⟩ := hE E[i] (List.getElem_mem hlt)
    have hE' : ∀ e ∈ E.take i, IsEdge verts e.1 := fun e he => hE e (List.mem_of_mem_take he)
    have hg : (bvecs (E.map (·.1))).getD i 0 = boundaryOf [a, b] := by
      rw [List.getD_eq_getElem?_getD]
      simp [bvecs, hlt, heq]
    have ht : (bvecs (E.map (·.1))).take i = bvecs ((E.take i).map (·.1)) := by
      simp [bvecs, List.map_take]
    rw [hg, ht]
    intro hm
    have hnab : ¬ (edgeGraph verts (E.take i)).Reachable ⟨a, ha⟩ ⟨b, hb⟩ := by
      intro hr
      apply hxy
      rw [heq] at hx hy
      simp only [List.mem_cons, List.not_mem_nil, or_false] at hx hy
      have ex : x = ⟨a, ha⟩ ∨ x = ⟨b, hb⟩ := hx.imp Subtype.ext Subtype.ext
      have ey : y = ⟨a, ha⟩ ∨ y = ⟨b, hb⟩ := hy.imp Subtype.ext Subtype.ext
      rcases ex with rfl | rfl <;> rcases ey with rfl | rfl
      · exact SimpleGraph.Reachable.refl _
      · exact hr
      · exact hr.symm
      · exact SimpleGraph.Reachable.refl _
    have hz := compSum_zero hE' ⟨a, ha⟩ hm
    rw [boundaryOf_pair, map_add] at hz
    unfold compSum at hz
    rw [Finsupp.linearCombination_single, Finsupp.linearCombination_single, one_smul, one_smul,
      if_neg, if_pos] at hz
    · simp at hz
    · exact ⟨⟨a, ha⟩, rfl, SimpleGraph.Reachable.refl _⟩
    · rintro ⟨v, hv, hr⟩
      have : v = ⟨b, hb⟩ := Subtype.ext (by simpa using hv.symm)
      rw [this] at hr
      exact hnab hr
  · rintro ⟨hlt, hi⟩
    rw [h.pmem i hlt]
    obtain ⟨a, b, hab, ha, hb, heq⟩ := hE E[i] (List.getElem_mem hlt)
    have hE' : ∀ e ∈ E.take i, IsEdge verts e.1 := fun e he => hE e (List.mem_of_mem_take he)
    refine ⟨⟨a, ha⟩, ⟨b, hb⟩, by rw [heq]; simp, by rw [heq]; simp, ?_⟩
    intro hr
    apply hi
    have hg : (bvecs (E.map (·.1))).getD i 0 = boundaryOf [a, b] := by
      rw [List.getD_eq_getElem?_getD]
      simp [bvecs, hlt, heq]
    have ht : (bvecs (E.map (·.1))).take i = bvecs ((E.take i).map (·.1)) := by
      simp [bvecs, List.map_take]
    rw [hg, ht, boundaryOf_pair, add_comm]
    exact reachable_span hE' hr

end

/-! ### Higher dimensions -/

theorem eraseIdx_inj {s : List Nat} (hs : Inc s) {i j : Nat} (hi : i < s.length) (hj : j < s.length)
    (h : s.eraseIdx i = s.eraseIdx j) : i = j := by
  have key : ∀ i j, i < s.length → j < s.length → i < j → s.eraseIdx i ≠ s.eraseIdx j := by
    intro i j hi hj hij h
    have h1 : (s.eraseIdx i)[i]? = s[i + 1]? := by
      rw [List.getElem?_eraseIdx_of_ge (le_refl _)]
    have h2 : (s.eraseIdx j)[i]? = s[i]? := by
      rw [List.getElem?_eraseIdx_of_lt hij]
    rw [h, h2, List.getElem?_eq_getElem hi, List.getElem?_eq_getElem (by omega)] at h1
    have := List.pairwise_iff_getElem.1 hs i (i + 1) hi (by omega) (by omega)
    simp at h1; omega
  rcases Nat.lt_trichotomy i j with h1 | h1 | h1
  · exact absurd h (key i j hi hj h1)
  · exact h1
  · exact absurd h.symm (key j i hj hi h1)

/-- Facets are the subsets with one vertex less. -/
theorem facet_iff {s f : List Nat} (hs : Inc s) (hf : Inc f) (hl : s.length = f.length + 1) :
    (∃ i, i < s.length ∧ s.eraseIdx i = f) ↔ ∀ v ∈ f, v ∈ s := by
  constructor
  · rintro ⟨i, hi, rfl⟩ v hv
    exact (List.eraseIdx_sublist s i).subset hv
  · intro h
    -- some vertex of s is not in f
    obtain ⟨v, hv, hvf⟩ : ∃ v ∈ s, v ∉ f := by
      by_contra hc
      push Not at hc
      have : s.toFinset ⊆ f.toFinset := by
        intro x hx; simp at hx ⊢; exact hc x hx
      have := Finset.card_le_card this
      rw [List.toFinset_card_of_nodup hs.nodup, List.toFinset_card_of_nodup hf.nodup] at this
      omega
    obtain ⟨i, hi, rfl⟩ := List.mem_iff_getElem.1 hv
    refine ⟨i, hi, ?_⟩
    have hinc : Inc (s.eraseIdx i) := hs.sublist (List.eraseIdx_sublist s i)
    symm
    apply Inc.ext hf hinc
    have hsub : f.toFinset ⊆ (s.eraseIdx i).toFinset := by
      intro x hx
      simp only [List.mem_toFinset] at hx ⊢
      rw [List.mem_eraseIdx_iff_getElem]
      obtain ⟨k, hk, rfl⟩ := List.mem_iff_getElem.1 (h x hx)
      refine ⟨k, hk, ?_, rfl⟩
      rintro rfl
      exact hvf hx
    have hcard : (s.eraseIdx i).toFinset.card ≤ f.toFinset.card := by
      rw [List.toFinset_card_of_nodup hinc.nodup, List.toFinset_card_of_nodup hf.nodup,
        List.length_eraseIdx_of_lt hi]
      omega
    have heq := Finset.eq_of_subset_of_card_le hsub hcard
    intro x
    rw [← List.mem_toFinset, heq, List.mem_toFinset]

theorem boundaryOf_apply {s f : List Nat} (hs : Inc s) :
    boundaryOf s f = if ∃ i, i < s.length ∧ s.eraseIdx i = f then 1 else 0 := by
  unfold boundaryOf
  rw [Finsupp.finsetSum_apply]
  split_ifs with h
  · obtain ⟨i, hi, he⟩ := h
    rw [Finset.sum_eq_single i]
    · rw [he]; simp
    · intro j hj hne
      rw [Finset.mem_range] at hj
      rw [Finsupp.single_apply, if_neg]
      intro hh
      exact hne (eraseIdx_inj hs hj hi (hh.trans he.symm))
    · intro hh; exact absurd (Finset.mem_range.2 hi) hh
  · apply Finset.sum_eq_zero
    intro j hj
    rw [Finset.mem_range] at hj
    rw [Finsupp.single_apply, if_neg]
    intro hh
    exact h ⟨j, hj, hh⟩

section
variable {W : Type}

/-- The column of a simplex: the positions of its facets among the rows, cleared rows left out. -/
def colOf (rows : List (List Nat × W)) (P : List Nat) (s : List Nat) : List Nat :=
  (List.range rows.length).filter (fun x => x ∉ P ∧ ∀ v ∈ (rows.map Prod.fst).getD x [], v ∈ s)

theorem mem_colOf {rows : List (List Nat × W)} {P : List Nat} {s : List Nat} {x : Nat} :
    x ∈ colOf rows P s ↔ x ∉ P ∧ ∃ row, rows[x]? = some row ∧ ∀ v ∈ row.1, v ∈ s := by
  unfold colOf
  simp only [List.mem_filter, List.mem_range, decide_eq_true_eq, List.getD_eq_getElem?_getD,
    List.getElem?_map]
  constructor
  · rintro ⟨h1, h2, h3⟩
    refine ⟨h2, rows[x], List.getElem?_eq_getElem h1, ?_⟩
    simpa [List.getElem?_eq_getElem h1] using h3
  · rintro ⟨h1, row, h2, h3⟩
    refine ⟨(List.getElem?_eq_some_iff.1 h2).1, h1, ?_⟩
    simpa [h2] using h3

theorem inc_colOf (rows : List (List Nat × W)) (P : List Nat) (s : List Nat) :
    Inc (colOf rows P s) := List.pairwise_lt_range.sublist List.filter_sublist

/-- Which rows are left out. -/
def cleared (mode : EndRead) (pivots : List Nat) : List Nat :=
  match mode with
  | .libstdcxx => skipped pivots
  | _ => pivots

theorem build_noPivot {pivots : List Nat} (hp : Inc pivots) (P' : List Nat)
    {rows : List (List Nat × W)}
    (hrows : ∀ r ∈ rows, Inc r.1) {s : List Nat} (hs : Inc s) :
    buildColumn .noPivot P' s rows 0 pivots [] = .ok (colOf rows pivots s) := by
  obtain ⟨c, h1, h2, h3⟩ := buildColumn_noPivot P' hs rows hrows 0 pivots [] hp (by simp)
    List.Pairwise.nil
  rw [h1]
  congr 1
  apply Inc.ext h2 (inc_colOf _ _ _)
  intro x
  rw [h3, mem_colOf]
  constructor
  · rintro (h | ⟨i, hi, hx, hx', h⟩)
    · simp at h
    · rw [Nat.zero_add] at hx
      subst hx
      exact ⟨hx', rows[x], List.getElem?_eq_getElem hi, h⟩
  · rintro ⟨hx, row, hr, h⟩
    obtain ⟨hi, he⟩ := List.getElem?_eq_some_iff.1 hr
    exact Or.inr ⟨x, hi, by omega, hx, by rw [he]; exact h⟩

/-- In every mode the column is built from the rows that are not cleared, unless the end of the pivot
list is dereferenced in the strict mode. -/
theorem build_mode {mode : EndRead} {pivots : List Nat} (hp : Inc pivots)
    {rows : List (List Nat × W)} (hrows : ∀ r ∈ rows, Inc r.1)
    (hmode : mode = .undefined → ∀ i, i < rows.length → ∃ p ∈ pivots, i ≤ p)
    {s : List Nat} (hs : Inc s) :
    buildColumn mode pivots s rows 0 pivots [] = .ok (colOf rows (cleared mode pivots) s) := by
  cases mode with
  | undefined =>
    rw [(buildColumn_undefined s pivots rows 0 pivots [] hp (by simp)).1
      (by simpa using hmode rfl)]
    exact build_noPivot hp _ hrows hs
  | libstdcxx =>
    rw [buildColumn_libstdcxx hp]
    exact build_noPivot (inc_skipped hp) _ hrows hs
  | noPivot => exact build_noPivot hp _ hrows hs

/-- Coordinates of a chain on the rows that are not cleared. -/
noncomputable def coords (rows : List (List Nat × W)) (P : List Nat) :
    Chain →ₗ[ZMod 2] (Nat → ZMod 2) where
  toFun c := fun x => if x < rows.length ∧ x ∉ P then c ((rows.map Prod.fst).getD x []) else 0
  map_add' a b := by funext x; simp only [Pi.add_apply, Finsupp.add_apply]; split_ifs <;> simp
  map_smul' r a := by funext x; simp only [Pi.smul_apply, Finsupp.smul_apply]; split_ifs <;> simp

theorem coords_boundary {rows : List (List Nat × W)} {P : List Nat} {d : Nat}
    (hrows : ∀ r ∈ rows, Inc r.1 ∧ r.1.length = d + 1) {s : List Nat} (hs : Inc s)
    (hl : s.length = d + 2) : coords rows P (boundaryOf s) = ind (colOf rows P s) := by
  funext x
  simp only [coords, LinearMap.coe_mk, AddHom.coe_mk, ind]
  by_cases hx : x < rows.length ∧ x ∉ P
  · rw [if_pos hx, boundaryOf_apply hs]
    have hg : (rows.map Prod.fst).getD x [] = rows[x].1 := by
      rw [List.getD_eq_getElem?_getD]; simp [hx.1]
    have hr := hrows rows[x] (List.getElem_mem hx.1)
    rw [hg]
    have h1 := facet_iff hs hr.1 (by omega)
    have h2 : x ∈ colOf rows P s ↔ ∀ v ∈ rows[x].1, v ∈ s := by
      rw [mem_colOf]
      constructor
      · rintro ⟨-, row, h3, h4⟩
        rw [List.getElem?_eq_getElem hx.1, Option.some.injEq] at h3
        rw [h3]; exact h4
      · intro h; exact ⟨hx.2, rows[x], List.getElem?_eq_getElem hx.1, h⟩
    simp only [h1, h2]
  · rw [if_neg hx, if_neg]
    rw [mem_colOf]
    rintro ⟨h1, row, h2, -⟩
    exact hx ⟨(List.getElem?_eq_some_iff.1 h2).1, h1⟩

theorem chain_expand {l : List (List Nat)} (hl : l.Nodup) {c : Chain} (hc : c ∈ chains l) :
    c = ∑ i ∈ Finset.range l.length, c (l.getD i []) • Finsupp.single (l.getD i []) 1 := by
  rw [chains_eq, Finsupp.mem_supported] at hc
  ext s
  rw [Finsupp.finsetSum_apply]
  by_cases hs : s ∈ l
  · obtain ⟨i, hi, rfl⟩ := List.mem_iff_getElem.1 hs
    rw [Finset.sum_eq_single i]
    · simp [hi]
    · intro j hj hne
      rw [Finset.mem_range] at hj
      rw [Finsupp.smul_apply, Finsupp.single_apply, if_neg, smul_zero]
      intro hh
      apply hne
      have : l[j] = l[i] := by simpa [hj] using hh
      exact (List.Nodup.getElem_inj_iff hl).1 this
    · intro hh; exact absurd (Finset.mem_range.2 hi) hh
  · have h0 : c s = 0 := by
      by_contra hh
      exact hs (hc (Finsupp.mem_support_iff.2 hh))
    rw [h0]
    symm
    apply Finset.sum_eq_zero
    intro j hj
    rw [Finset.mem_range] at hj
    rw [Finsupp.smul_apply, Finsupp.single_apply, if_neg, smul_zero]
    rintro rfl
    apply hs
    have : l.getD j [] = l[j] := by simp [hj]
    rw [this]; exact List.getElem_mem hj

/-- A cycle on the rows that vanishes on the rows that are not pivots is zero. -/
theorem coords_cycle {rows : List (List Nat × W)} (hnd : (rows.map Prod.fst).Nodup) {x : Chain}
    (hsup : x ∈ chains (rows.map Prod.fst)) (hcyc : boundary x = 0)
    (hx0 : coords rows (indep (ZMod 2) (bvecs (rows.map Prod.fst))) x = 0) : x = 0 := by
  have hexp := chain_expand hnd hsup
  have hb : ∑ i ∈ Finset.range (bvecs (rows.map Prod.fst)).length,
      x ((rows.map Prod.fst).getD i []) • (bvecs (rows.map Prod.fst)).getD i 0 = 0 := by
    have h1 := hcyc
    rw [hexp, map_sum] at h1
    rw [← h1]
    have hlen : (bvecs (rows.map Prod.fst)).length = (rows.map Prod.fst).length := by simp [bvecs]
    rw [hlen]
    apply Finset.sum_congr rfl
    intro i hi
    rw [Finset.mem_range] at hi
    rw [map_smul, boundary_single]
    congr 1
    have hi' : i < rows.length := by simpa using hi
    simp [bvecs, hi']
  have hco := indep_coeff (bvecs (rows.map Prod.fst))
    (fun i => x ((rows.map Prod.fst).getD i [])) (by
      intro i hi hi'
      have := congrFun hx0 i
      have hlt : i < rows.length := by simpa [bvecs] using hi
      simp only [coords, LinearMap.coe_mk, AddHom.coe_mk] at this
      rwa [if_pos ⟨hlt, hi'⟩] at this) hb
  rw [hexp]
  apply Finset.sum_eq_zero
  intro i hi
  rw [Finset.mem_range] at hi
  have := hco i (by simpa [bvecs] using hi)
  rw [this, zero_smul]

/-- Leaving out the rows that are pivots does not change which columns are independent. -/
theorem indep_cleared {rows cols : List (List Nat × W)} {d : Nat}
    (hrows : ∀ r ∈ rows, Inc r.1 ∧ r.1.length = d + 1) (hnd : (rows.map Prod.fst).Nodup)
    (hcols : ∀ c ∈ cols, Inc c.1 ∧ c.1.length = d + 2)
    (hfac : ∀ c ∈ cols, ∀ s : List Nat, s.Sublist c.1 → s.length = d + 1 →
      s ∈ rows.map Prod.fst) :
    indep (ZMod 2) (cols.map (fun c =>
      ind (colOf rows (indep (ZMod 2) (bvecs (rows.map Prod.fst))) c.1))) =
      indep (ZMod 2) (bvecs (cols.map Prod.fst)) := by
  set P := indep (ZMod 2) (bvecs (rows.map Prod.fst)) with hP
  have e : cols.map (fun c => ind (colOf rows P c.1)) =
      (bvecs (cols.map Prod.fst)).map (coords rows P) := by
    unfold bvecs
    rw [List.map_map, List.map_map]
    apply List.map_congr_left
    intro c hc
    exact (coords_boundary hrows (hcols c hc).1 (hcols c hc).2).symm
  rw [e]
  apply indep_map
  intro x hx hx0
  -- x is a chain on the rows
  have hsup : x ∈ chains (rows.map Prod.fst) := by
    have hle : spanL (ZMod 2) (bvecs (cols.map Prod.fst)) ≤ chains (rows.map Prod.fst) := by
      unfold spanL
      rw [Submodule.span_le]
      intro y hy
      simp only [bvecs, List.map_map, Set.mem_ofPred_eq, List.mem_map, Function.comp_apply] at hy
      obtain ⟨c, hc, rfl⟩ := hy
      unfold boundaryOf
      apply Submodule.sum_mem
      intro i hi
      rw [Finset.mem_range] at hi
      apply Submodule.subset_span
      refine ⟨_, hfac c hc _ (List.eraseIdx_sublist _ i) ?_, rfl⟩
      rw [List.length_eraseIdx_of_lt hi, (hcols c hc).2]; omega
    exact hle hx
  -- and a cycle
  have hcyc : boundary x = 0 := by
    rw [← map_boundary_chains, Submodule.mem_map] at hx
    obtain ⟨y, -, rfl⟩ := hx
    exact boundary_boundary y
  exact coords_cycle hnd hsup hcyc hx0

end
end LHF
