import Verif.Props.Invariance
import Verif.Lemmas.TruncatePersistence
import Verif.Lemmas.FastSpec

/-! C99, C100: what a smaller `epsilon` and a larger `dimensions` do to the barcode. -/

namespace LHF
open Spec

/-- A sort is stable: entries of equal weight keep their order. -/
def Spec.Stable {α : Type} (sort : SortBySecond α ℝ) : Prop :=
  ∀ l w, (sort.run l).filter (fun e => e.2 = w) = l.filter (fun e => e.2 = w)

/-- Sorted lists that agree on every key agree. -/
theorem eq_of_keys {α β : Type} [LinearOrder β] (f : α → β) : ∀ {A B : List α},
    A.Pairwise (fun a b => f a ≤ f b) → B.Pairwise (fun a b => f a ≤ f b) →
    (∀ w, A.filter (fun a => f a = w) = B.filter (fun a => f a = w)) → A = B := by
  have first : ∀ (a : α) (A B : List α), (a :: A).Pairwise (fun a b => f a ≤ f b) →
      B.Pairwise (fun a b => f a ≤ f b) →
      (∀ w, (a :: A).filter (fun a => f a = w) = B.filter (fun a => f a = w)) →
      ∃ b B', B = b :: B' ∧ f b ≤ f a := by
    intro a A B hA hB h
    have h1 : a ∈ B.filter (fun x => f x = f a) := by rw [← h]; simp
    have h2 := (List.mem_filter.1 h1).1
    cases B with
    | nil => cases h2
    | cons b B' =>
      refine ⟨b, B', rfl, ?_⟩
      rcases List.mem_cons.1 h2 with rfl | h2
      · exact le_rfl
      · exact (List.pairwise_cons.1 hB).1 a h2
  intro A
  induction A with
  | nil =>
    intro B _ hB h
    cases B with
    | nil => rfl
    | cons b B => have := h (f b); simp at this
  | cons a A ih =>
    intro B hA hB h
    obtain ⟨b, B', rfl, h1⟩ := first a A B hA hB h
    obtain ⟨a', A', h2, h3⟩ := first b B' (a :: A) hB hA (fun w => (h w).symm)
    cases h2
    have hab : f a = f b := le_antisymm h3 h1
    have hh := h (f a)
    simp only [List.filter_cons, decide_true, if_true, hab] at hh
    have e : a = b := by injection hh
    subst e
    congr 1
    refine ih (List.pairwise_cons.1 hA).2 (List.pairwise_cons.1 hB).2 (fun w => ?_)
    have := h w
    simp only [List.filter_cons] at this
    split_ifs at this with hw
    · injection this
    · exact this

/-- A stable sort of the entries below a bound gives the entries below the bound of the sort. -/
theorem stable_filter {α : Type} {sort : SortBySecond α ℝ} (h : Stable sort) (c : ℝ)
    (l : List (α × ℝ)) :
    sort.run (l.filter (fun e => e.2 < c)) = (sort.run l).filter (fun e => e.2 < c) := by
  refine eq_of_keys (fun e : α × ℝ => e.2) (sort.sorted _) ((sort.sorted _).filter _) (fun w => ?_)
  rw [h, List.filter_filter, List.filter_filter]
  by_cases hw : w < c
  · have : ∀ m : List (α × ℝ), m.filter (fun e => decide (e.2 = w) && decide (e.2 < c)) =
        m.filter (fun e => e.2 = w) := by
      intro m
      apply List.filter_congr
      intro e _
      by_cases he : e.2 = w <;> simp [he, hw]
    rw [this, this, h]
  · have : ∀ m : List (α × ℝ), m.filter (fun e => decide (e.2 = w) && decide (e.2 < c)) = [] := by
      intro m
      rw [List.filter_eq_nil_iff]
      intro e _
      simp only [Bool.and_eq_true, decide_eq_true_eq]
      rintro ⟨rfl, h⟩
      exact hw h
    rw [this, this]

/-- A run that does not read through the end iterator is a run in which there is no further pivot. -/
theorem fast_noPivot {mode : EndRead} (hmode : mode ≠ .libstdcxx) {dim : Nat} {eps : ℝ}
    {edges : Graph ℝ} (hF : FilteredComplex edges) (hlen : 2 ≤ edges.length)
    {r : List (Line ℝ) × List (BettiEntry ℝ)}
    (h : fastPersistence mode dim eps edges [] [] = .ok r) :
    fastPersistence .noPivot dim eps edges [] [] = .ok r := by
  cases mode with
  | libstdcxx => exact absurd rfl hmode
  | noPivot => exact h
  | undefined =>
    obtain ⟨h1, h2⟩ := fast_undefined dim eps hF hlen [] []
    by_cases hs : ∀ k, 1 ≤ k → k < dim → k + 1 < edges.length → SafeDim edges k
    · rw [← h1 hs]; exact h
    · have : ∃ k, 1 ≤ k ∧ k < dim ∧ k + 1 < edges.length ∧ ¬ SafeDim edges k := by
        by_contra hx
        exact hs (fun k a b c => by_contra (fun hn => hx ⟨k, a, b, c, hn⟩))
      rw [h2 this] at h
      cases h

theorem pairwise_same {c : Nat} {l : List (Line ℝ)} (h : ∀ x ∈ l, x.1 = c) :
    l.Pairwise (fun a b => a.1 ≤ b.1) := by
  induction l with
  | nil => exact List.Pairwise.nil
  | cons a l ih =>
    rw [List.pairwise_cons]
    refine ⟨fun b hb => ?_, ih (fun x hx => h x (by simp [hx]))⟩
    rw [h a (by simp), h b (by simp [hb])]

/-- The lines are listed by dimension. -/
theorem fast_ordered {mode : EndRead} {dim : Nat} {eps : ℝ} {edges : Graph ℝ}
    {r : List (Line ℝ) × List (BettiEntry ℝ)}
    (h : fastPersistence mode dim eps edges [] [] = .ok r) :
    r.1.Pairwise (fun a b => a.1 ≤ b.1) := by
  have dims : ∀ (n d : Nat) (piv : List Nat) (lines : List (Line ℝ)) (tbl : List (BettiEntry ℝ))
      (r : List (Line ℝ) × List (BettiEntry ℝ)), lines.Pairwise (fun a b => a.1 ≤ b.1) →
      (∀ l ∈ lines, l.1 ≤ d) → reduceDims mode edges n d piv lines tbl = .ok r →
      r.1.Pairwise (fun a b => a.1 ≤ b.1) := by
    intro n
    induction n with
    | zero => intro d piv lines tbl r hp _ h; cases h; exact hp
    | succ n ih =>
      intro d piv lines tbl r hp hd h
      rw [reduceDims] at h
      obtain ⟨rows, h1, h⟩ := bind_ok.1 h
      obtain ⟨cols, h2, h⟩ := bind_ok.1 h
      obtain ⟨q, h3, h⟩ := bind_ok.1 h
      obtain ⟨-, y, -, a2, -, -, a5⟩ := columns_grow cols h3
      refine ih (d + 1) _ _ _ _ ?_ ?_ h
      · rw [a2, List.pairwise_append]
        refine ⟨hp, ?_, ?_⟩
        · exact pairwise_same (fun a ha => (a5 a ha).1)
        · intro a ha b hb
          rw [(a5 b hb).1]
          exact hd a ha
      · intro l hl
        rw [a2] at hl
        rcases List.mem_append.1 hl with hl | hl
        · have := hd l hl; omega
        · rw [(a5 l hl).1]; omega
  unfold fastPersistence at h
  by_cases h0 : edges.length = 0
  · rw [if_pos h0] at h
    cases h; exact List.Pairwise.nil
  · rw [if_neg h0] at h
    obtain ⟨vs, s1, h⟩ := bind_ok.1 h
    obtain ⟨es, s2, h⟩ := bind_ok.1 h
    dsimp only at h
    have hz : ∀ l ∈ (kruskalLoop vs.length es (Kruskal.init [])).mst.map
        (fun z => ((0, 0, z) : Line ℝ)) ++ [(0, 0, eps)], l.1 = 0 := by
      intro l hl
      rcases List.mem_append.1 hl with hl | hl
      · obtain ⟨z, -, rfl⟩ := List.mem_map.1 hl; rfl
      · rw [List.mem_singleton.1 hl]
    have hp : ((kruskalLoop vs.length es (Kruskal.init [])).mst.map
        (fun z => ((0, 0, z) : Line ℝ)) ++ [(0, 0, eps)]).Pairwise
          (fun (a b : Line ℝ) => a.1 ≤ b.1) :=
      pairwise_same hz
    by_cases hd : dim > 0
    · rw [if_pos hd] at h
      exact dims _ _ _ _ _ _ hp (fun l hl => by rw [hz l hl]; omega) h
    · rw [if_neg hd] at h
      cases h
      exact hp

/-- Two runs of the tree, the first with the smaller bounds. -/
theorem tree_trunc (sort : SortBySecond (List Nat) ℝ) {mode mode' : EndRead}
    (hmode : mode ≠ .libstdcxx) (hmode' : mode' ≠ .libstdcxx) {epsS epsL : ℝ}
    {dimS dimL : Nat} (heps : epsS ≤ epsL) (hdimn : dimS ≤ dimL)
    (hsort : epsS = epsL ∨ Stable sort)
    (k : Nat) (hk : 0 < k) (data : List (List ℝ)) (hdim : ∀ p ∈ data, p.length = k)
    (hedge : ∃ i j, i < j ∧ j < data.length ∧ rowDist k data i j < epsS)
    {rS rL : List (Line ℝ) × List (BettiEntry ℝ)}
    (hS : treeRun vectorsDistance sort mode epsS dimS data = .ok rS)
    (hL : treeRun vectorsDistance sort mode' epsL dimL data = .ok rL) :
    LinesTrunc epsS (max 1 dimS) rS.1 rL.1 ∧ rS.1.Pairwise (fun a b => a.1 ≤ b.1) ∧
      rL.1.Pairwise (fun a b => a.1 ≤ b.1) := by
  have h0 : 0 < epsS := by
    obtain ⟨i, j, -, -, h⟩ := hedge
    exact lt_of_le_of_lt dist_nonneg h
  rw [treeRun_table sort mode epsS dimS k hk data hdim] at hS
  rw [treeRun_table sort mode' epsL dimL k hk data hdim] at hL
  have hne : data.length ≠ 0 → table data.length (fun i j =>
      if i < j then rowDist k data i j else 0) ≠ [] := by
    intro h
    apply List.ne_nil_of_length_pos
    simp [table]; omega
  have build := fun (eps : ℝ) (dim : Nat) =>
    insertN_inv (D := rowDist k data) (eps := eps) (maxDim := dim)
      (fun _ _ => dist_nonneg) (fresh_inv _ eps dim) data.length hne (by
        intro i j _ hij hj
        simpa using at2_table hij (by omega))
  obtain ⟨tL, l2, l3, l4⟩ := build epsL dimL
  obtain ⟨tS', s2, s3, s4⟩ := build epsS dimS
  obtain ⟨tS, s5, htr⟩ := insertN_trunc h0 heps hdimn rfl data.length
    (truncTree_fresh epsS (max 1 dimS + 1)) l2
  rw [s2] at s5
  cases s5
  rw [Nat.zero_add] at l3 s3
  rw [s2, ok_bind] at hS
  rw [l2, ok_bind] at hL
  have stS := inv_stores s3
  have stL := inv_stores l3
  have soS := C20_tree_first_query_partial tS' s4 sort
  have soL := C20_tree_first_query_partial tL l4 sort
  have fS := filtered_of_rips stS soS
  have fL := filtered_of_rips stL soL
  have lenS := rips_two_layers stS (by omega) soS hedge
  have hedgeL : ∃ i j, i < j ∧ j < data.length ∧ rowDist k data i j < epsL := by
    obtain ⟨i, j, h1, h2, h3⟩ := hedge
    exact ⟨i, j, h1, h2, h3.trans_le heps⟩
  have lenL := rips_two_layers stL (by omega) soL hedgeL
  have hordS := fast_ordered hS
  have hordL := fast_ordered hL
  have hS' := fast_noPivot hmode fS lenS hS
  have hL' := fast_noPivot hmode' fL lenL hL
  have runnil : sort.run [] = [] := List.perm_nil.1 (sort.perm [])
  have edgesEq : ∀ (t : Tree ℝ) (k : Nat), t.isSorted = false →
      (t.getAllEdges sort).1.getD k [] = sort.run (t.weg.getD k []) := by
    intro t k ht
    unfold Tree.getAllEdges
    rw [if_neg (by simp [ht])]
    dsimp only
    rw [List.getD_eq_getElem?_getD, List.getD_eq_getElem?_getD, List.getElem?_map]
    cases t.weg[k]? with
    | none => exact runnil.symm
    | some l => rfl
  have memL : ∀ q e, q ≤ max 1 dimL → e ∈ tL.weg.getD q [] → e.2 < epsL ∧ (q = 0 → e.2 = 0) := by
    intro q e hq he
    have he' : e ∈ (tL.getAllEdges sort).1.getD q [] := by
      rw [edgesEq tL q l4]
      exact (sort.perm _).mem_iff.2 he
    have hz : q = 0 → e.2 = 0 := by
      rintro rfl
      rw [List.getD_eq_getElem?_getD] at he
      cases hg : tL.weg[0]? with
      | none => rw [hg] at he; cases he
      | some l =>
        rw [hg] at he
        obtain ⟨a1, a2, a3⟩ := (stL.exact 0 e.1 e.2 (by omega)).1 ⟨l, hg, he⟩
        obtain ⟨v, hv⟩ := List.length_eq_one_iff.1 a1
        rw [a3, hv, diam_singleton]
    refine ⟨?_, hz⟩
    by_cases h1 : q = 0
    · rw [hz h1]; exact h0.trans_le heps
    · exact (rips_weight_range stL (fun _ _ => dist_nonneg) soL (inRange := (· < epsL))
        (fun _ _ h => h) (by omega) hq he').2
  have hT : Trunc epsS (max 1 dimS + 1) (tS'.getAllEdges sort).1 (tL.getAllEdges sort).1 := by
    intro q hq
    rw [edgesEq tS' q s4, edgesEq tL q l4, htr.weg q hq]
    rcases hsort with rfl | hsort
    · have : ∀ e ∈ tL.weg.getD q [], decide (e.2 < epsS) = true := fun e he => by
        simpa using (memL q e (by omega) he).1
      rw [List.filter_eq_self.2 this, List.filter_eq_self.2]
      intro e he
      exact this e ((sort.perm _).mem_iff.1 he)
    · exact stable_filter hsort _ _
  refine ⟨fastPersistence_trunc fL hT heps hdimn ?_ ?_ ?_ hS' hL', hordS, hordL⟩
  · by_contra hlt
    rw [not_le] at hlt
    have hq : (tL.getAllEdges sort).1.length < (tS'.getAllEdges sort).1.length := hlt
    have hS1 : (tS'.getAllEdges sort).1.length = tS'.weg.length := by
      unfold Tree.getAllEdges
      rw [s4]
      exact List.length_map ..
    have h1 := s3.len
    have h2 := hT (tL.getAllEdges sort).1.length (by omega)
    rw [List.getD_eq_default (tL.getAllEdges sort).1 _ le_rfl, edgesEq tS' _ s4] at h2
    have h3 := (sort.perm (tS'.weg.getD (tL.getAllEdges sort).1.length [])).symm
    rw [h2] at h3
    have h4 := List.perm_nil.1 h3
    rw [List.getD_eq_getElem _ _ (by omega)] at h4
    exact insertN_noEmpty _ _ _ s2 (by intro l hl; cases hl) _ (List.getElem_mem _) h4
  · intro h
    rw [h] at lenS
    simp at lenS
  · intro e he
    rw [edgesEq tL 0 l4] at he
    rw [(memL 0 e (by omega) ((sort.perm _).mem_iff.1 he)).2 rfl]
    exact h0

/-- The lines of a run that returns are of dimension below `dimensions` (or 0), and those of positive
dimension end below `eps`. -/
theorem tree_range (sort : SortBySecond (List Nat) ℝ) {mode : EndRead} (hmode : mode ≠ .libstdcxx)
    {eps : ℝ} {dim : Nat} (k : Nat) (hk : 0 < k) (data : List (List ℝ))
    (hdim : ∀ p ∈ data, p.length = k)
    (hedge : ∃ i j, i < j ∧ j < data.length ∧ rowDist k data i j < eps)
    {r : List (Line ℝ) × List (BettiEntry ℝ)}
    (hok : treeRun vectorsDistance sort mode eps dim data = .ok r) :
    ∀ l ∈ r.1, l.1 < max 1 dim ∧ (1 ≤ l.1 → l.2.2 < eps) := by
  intro l hl
  have fin : ∀ ls, DescribesRips data.length (rowDist k data) (· < eps) eps dim ls → l ∈ ls →
      l.1 < max 1 dim ∧ (1 ≤ l.1 → l.2.2 < eps) := by
    intro ls h hl
    refine ⟨?_, fun h1 => ?_⟩
    · rcases h.only l hl with h | h <;> omega
    · exact (h.bars l hl h1).2.2
  cases mode with
  | libstdcxx => exact absurd rfl hmode
  | noPivot =>
    obtain ⟨ls, T, h4, h5⟩ := C70_tree_run_partial sort eps dim k hk data hdim hedge
    rw [h4] at hok
    cases hok
    exact fin ls h5 hl
  | undefined =>
    rcases C70_tree_run_or_undefined sort eps dim k hk data hdim hedge with h4 | ⟨ls, T, h4, h5⟩
    · rw [h4] at hok; cases hok
    · rw [h4] at hok
      cases hok
      exact fin ls h5 hl

theorem prefix_of_ordered (K : Nat) (l : List (Line ℝ)) (h : l.Pairwise (fun a b => a.1 ≤ b.1)) :
    l.filter (fun a => a.1 < K) <+: l := by
  induction l with
  | nil => exact List.prefix_rfl
  | cons a l ih =>
    rw [List.pairwise_cons] at h
    by_cases ha : a.1 < K
    · rw [List.filter_cons_of_pos (by simpa using ha)]
      exact (List.prefix_cons_inj a).2 (ih h.2)
    · rw [List.filter_eq_nil_iff.2]
      · exact List.nil_prefix
      · intro b hb
        rw [decide_eq_true_eq]
        rcases List.mem_cons.1 hb with rfl | hb
        · exact ha
        · have := h.1 b hb; omega

/-! ### C99 -/

/-- The barcode at the smaller bound `eps`, in terms of the barcode `lines` of a larger one: the
components that have merged below `eps`, the one that never does, the other bars that end below
`eps`. -/
noncomputable def Spec.truncated (eps : ℝ) (lines : List (Line ℝ)) : List (Line ℝ) :=
  lines.filter (fun l => l.1 = 0 ∧ l.2.2 < eps) ++ [(0, 0, eps)] ++
    lines.filter (fun l => 1 ≤ l.1 ∧ l.2.2 < eps)

/-- C99, for every run that returns: with a stable sort the barcode for a smaller `epsilon` is the
barcode for the larger one without the bars that end at or after the smaller one. -/
theorem C99_smaller_epsilon_runs (sort : SortBySecond (List Nat) ℝ) (hsort : Stable sort)
    {mode mode' : EndRead} (hmode : mode ≠ .libstdcxx) (hmode' : mode' ≠ .libstdcxx)
    {eps eps' : ℝ} (heps : eps' ≤ eps) (dim : Nat)
    (k : Nat) (hk : 0 < k) (data : List (List ℝ)) (hdim : ∀ p ∈ data, p.length = k)
    (hedge : ∃ i j, i < j ∧ j < data.length ∧ rowDist k data i j < eps')
    {lines lines' : List (Line ℝ)} {T T' : List (BettiEntry ℝ)}
    (hok' : treeRun vectorsDistance sort mode' eps' dim data = .ok (lines', T'))
    (hok : treeRun vectorsDistance sort mode eps dim data = .ok (lines, T)) :
    lines' = truncated eps' lines := by
  obtain ⟨h1, h2, h3⟩ := tree_trunc sort hmode' hmode heps le_rfl (.inr hsort) k hk data hdim hedge
    hok' hok
  have hedgeL : ∃ i j, i < j ∧ j < data.length ∧ rowDist k data i j < eps := by
    obtain ⟨i, j, h1, h2, h3⟩ := hedge
    exact ⟨i, j, h1, h2, h3.trans_le heps⟩
  have o' := fun l hl => (tree_range sort hmode' k hk data hdim hedge hok' l hl).1
  have o := fun l hl => (tree_range sort hmode k hk data hdim hedgeL hok l hl).1
  dsimp only at h1 h2 h3 o o'
  refine eq_of_keys (fun l : Line ℝ => l.1) h2 ?_ (fun q => ?_)
  · unfold truncated
    rw [List.pairwise_append, List.pairwise_append]
    have hz : ∀ a ∈ lines.filter (fun l => decide (l.1 = 0 ∧ l.2.2 < eps')), a.1 = 0 := by
      intro a ha
      have := (List.mem_filter.1 ha).2
      rw [decide_eq_true_eq] at this
      exact this.1
    refine ⟨⟨h3.filter _, by simp, ?_⟩, h3.filter _, ?_⟩
    · intro a ha b _
      rw [hz a ha]
      omega
    · intro a ha b _
      rcases List.mem_append.1 ha with ha | ha
      · rw [hz a ha]; omega
      · rw [List.mem_singleton.1 ha]; simp
  · by_cases hq : q < max 1 dim
    · have := h1 q hq
      rw [this]
      unfold truncated
      rw [List.filter_append, List.filter_append, List.filter_filter, List.filter_filter]
      by_cases h0 : q = 0
      · subst h0
        rw [if_pos rfl]
        have e1 : ∀ m : List (Line ℝ), m.filter (fun a => decide (a.1 = 0) &&
            decide (1 ≤ a.1 ∧ a.2.2 < eps')) = [] := by
          intro m
          rw [List.filter_eq_nil_iff]
          intro a _
          simp only [Bool.and_eq_true, decide_eq_true_eq]
          omega
        rw [e1, List.append_nil]
        congr 1
        · apply List.filter_congr
          intro a _
          by_cases ha : a.1 = 0 <;> simp [ha]
      · rw [if_neg h0, List.append_nil]
        have e1 : ∀ m : List (Line ℝ), m.filter (fun a => decide (a.1 = q) &&
            decide (a.1 = 0 ∧ a.2.2 < eps')) = [] := by
          intro m
          rw [List.filter_eq_nil_iff]
          intro a _
          simp only [Bool.and_eq_true, decide_eq_true_eq]
          omega
        rw [e1]
        have e2 : [((0, 0, eps') : Line ℝ)].filter (fun l => l.1 = q) = [] := by
          simp [Ne.symm h0]
        rw [e2, List.nil_append, List.nil_append]
        apply List.filter_congr
        intro a _
        have h1q : 1 ≤ q := by omega
        by_cases ha : a.1 = q <;> simp [ha, h1q]
    · rw [List.filter_eq_nil_iff.2, List.filter_eq_nil_iff.2]
      · intro a ha
        rw [decide_eq_true_eq]
        unfold truncated at ha
        rcases List.mem_append.1 ha with ha | ha
        · rcases List.mem_append.1 ha with ha | ha
          · have := o a (List.mem_filter.1 ha).1; omega
          · rw [List.mem_singleton.1 ha]; simp only; omega
        · have := o a (List.mem_filter.1 ha).1; omega
      · intro a ha
        rw [decide_eq_true_eq]
        have := o' a ha; omega

/-- C99 (partial: a stable sort, and the end iterator is read as "not a pivot"): on every cloud of
points of which some pair is closer than `eps'`, the runs with `eps'` and with a larger `eps` both
return, and the first barcode is the second one without the bars that end at or after `eps'`. -/
theorem C99_smaller_epsilon_partial (sort : SortBySecond (List Nat) ℝ) (hsort : Stable sort)
    {eps eps' : ℝ} (heps : eps' ≤ eps) (dim : Nat)
    (k : Nat) (hk : 0 < k) (data : List (List ℝ)) (hdim : ∀ p ∈ data, p.length = k)
    (hedge : ∃ i j, i < j ∧ j < data.length ∧ rowDist k data i j < eps') :
    ∃ lines T T', treeRun vectorsDistance sort .noPivot eps dim data = .ok (lines, T) ∧
      treeRun vectorsDistance sort .noPivot eps' dim data = .ok (truncated eps' lines, T') := by
  have hedgeL : ∃ i j, i < j ∧ j < data.length ∧ rowDist k data i j < eps := by
    obtain ⟨i, j, h1, h2, h3⟩ := hedge
    exact ⟨i, j, h1, h2, h3.trans_le heps⟩
  obtain ⟨lines, T, h1, -⟩ := C70_tree_run_partial sort eps dim k hk data hdim hedgeL
  obtain ⟨lines', T', h2, -⟩ := C70_tree_run_partial sort eps' dim k hk data hdim hedge
  have := C99_smaller_epsilon_runs sort hsort (by simp) (by simp) heps dim k hk data hdim hedge h2 h1
  rw [this] at h2
  exact ⟨lines, T, T', h1, h2⟩

/-- C99 for the components (dimension 0): whatever the sorts, the values of `dimensions` and the
reading of the end iterator, the bars for the smaller `epsilon` are those for the larger one that end
below it, and the bar of the component that never merges. -/
theorem C99_components (sort sort' : SortBySecond (List Nat) ℝ) (mode mode' : EndRead)
    {eps eps' : ℝ} (heps : eps' ≤ eps) (dim dim' : Nat)
    (k : Nat) (hk : 0 < k) (data : List (List ℝ)) (hdim : ∀ p ∈ data, p.length = k)
    (hedge : ∃ i j, i < j ∧ j < data.length ∧ rowDist k data i j < eps')
    {lines lines' : List (Line ℝ)} {T T' : List (BettiEntry ℝ)}
    (hok' : treeRun vectorsDistance sort' mode' eps' dim' data = .ok (lines', T'))
    (hok : treeRun vectorsDistance sort mode eps dim data = .ok (lines, T)) :
    lines'.filter (fun l => l.1 = 0) =
      lines.filter (fun l => l.1 = 0 ∧ l.2.2 < eps') ++ [(0, 0, eps')] := by
  have hedgeL : ∃ i j, i < j ∧ j < data.length ∧ rowDist k data i j < eps := by
    obtain ⟨i, j, h1, h2, h3⟩ := hedge
    exact ⟨i, j, h1, h2, h3.trans_le heps⟩
  obtain ⟨ds, h1, h2, h3, h4⟩ := tree_zero sort mode eps dim k hk data hdim hedgeL hok
  obtain ⟨ds', h1', h2', h3', h4'⟩ := tree_zero sort' mode' eps' dim' k hk data hdim hedge hok'
  have hds : ds' = ds.filter (fun w => w < eps') := by
    refine sorted_counts_unique (P := fun w => 0 ≤ w ∧ w < eps') h2' (h2.filter _) h3' ?_ ?_
    · intro w hw
      obtain ⟨a, b⟩ := List.mem_filter.1 hw
      exact ⟨(h3 w a).1, by simpa using b⟩
    · intro t ht
      have e1 := h4 t ht.1 (ht.2.trans_le heps)
      have e2 := h4' t ht.1 ht.2
      rw [List.filter_filter]
      have : ds.filter (fun a => decide (a ≤ t) && decide (a < eps')) = ds.filter (fun w => w ≤ t) := by
        apply List.filter_congr
        intro a _
        by_cases ha : a ≤ t
        · simp [ha, lt_of_le_of_lt ha ht.2]
        · simp [ha]
      rw [this]
      omega
  have key : lines.filter (fun l => decide (l.1 = 0 ∧ l.2.2 < eps')) =
      (lines.filter (fun l => l.1 = 0)).filter (fun l => l.2.2 < eps') := by
    rw [List.filter_filter]
    apply List.filter_congr
    intro a _
    by_cases ha : a.1 = 0 <;> simp [ha]
  rw [h1', key, h1, hds, List.filter_append]
  have e2 : [((0, 0, eps) : Line ℝ)].filter (fun l => l.2.2 < eps') = [] := by
    simp [not_lt.2 heps]
  rw [e2, List.append_nil, List.filter_map]
  rfl

/-- C99 for the whole program (partial: a stable sort): if two command lines differ only in `epsilon`
and in the name of the output file, and the end iterator is not read, the file of the run with the
smaller `epsilon` holds the barcode of the other run without the bars that end at or after it. -/
theorem C99_program_partial (sys : System ℝ ℝ) (hdist : sys.lib.dist = vectorsDistance)
    (hsort : Stable sys.lib.sort) (hmode : sys.lib.mode = .noPivot)
    (pairs pairs' : List (String × String)) (m m' : ArgMap) (f f' : String) (data : List (List ℝ))
    (h : PlainCommand sys pairs m "simplexTree" f data)
    (h' : PlainCommand sys pairs' m' "simplexTree" f' data)
    (heps : sys.atof (m'.val "epsilon") ≤ sys.atof (m.val "epsilon"))
    (hd : sys.atoi (m'.val "dimensions") = sys.atoi (m.val "dimensions"))
    (k : Nat) (hk : 0 < k) (hdim : ∀ p ∈ data, p.length = k)
    (hedge : ∃ i j, i < j ∧ j < data.length ∧ rowDist k data i j < sys.atof (m'.val "epsilon")) :
    ∃ w w' lines, mainProgram sys (commandLine pairs) = .ok w ∧
      mainProgram sys (commandLine pairs') = .ok w' ∧ WritesBarcode sys.io f lines w ∧
      WritesBarcode sys.io f' (truncated (sys.atof (m'.val "epsilon")) lines) w' := by
  obtain ⟨lines, T, T', h1, h2⟩ := C99_smaller_epsilon_partial sys.lib.sort hsort heps
    (sys.atoi (m.val "dimensions")) k hk data hdim hedge
  rw [← hmode] at h1 h2
  rw [← hd] at h2
  obtain ⟨w, h3, h4⟩ := (main_tree sys hdist pairs m f data h).of_ok h1
  obtain ⟨w', h5, h6⟩ := (main_tree sys hdist pairs' m' f' data h').of_ok h2
  exact ⟨w, w', lines, h3, h5, h4, h6⟩

/-! ### C100 -/

/-- C100, for every run that returns: the barcode for a smaller value of `dimensions` consists of the
lines of lower dimension of the barcode for the larger value, and these come first in it. -/
theorem C100_dimensions_runs (sort : SortBySecond (List Nat) ℝ)
    {mode mode' : EndRead} (hmode : mode ≠ .libstdcxx) (hmode' : mode' ≠ .libstdcxx)
    (eps : ℝ) {dim dim' : Nat} (hdimn : dim' ≤ dim)
    (k : Nat) (hk : 0 < k) (data : List (List ℝ)) (hdim : ∀ p ∈ data, p.length = k)
    (hedge : ∃ i j, i < j ∧ j < data.length ∧ rowDist k data i j < eps)
    {lines lines' : List (Line ℝ)} {T T' : List (BettiEntry ℝ)}
    (hok' : treeRun vectorsDistance sort mode' eps dim' data = .ok (lines', T'))
    (hok : treeRun vectorsDistance sort mode eps dim data = .ok (lines, T)) :
    lines' = lines.filter (fun l => l.1 < max 1 dim') ∧ lines' <+: lines := by
  obtain ⟨h1, h2, h3⟩ := tree_trunc sort hmode' hmode le_rfl hdimn (.inl rfl) k hk data hdim hedge
    hok' hok
  have c1 := C99_components sort sort mode mode' (le_refl eps) dim dim' k hk data hdim hedge hok' hok
  have c2 := C99_components sort sort mode mode (le_refl eps) dim dim k hk data hdim hedge hok hok
  have o' := tree_range sort hmode' k hk data hdim hedge hok'
  have o := tree_range sort hmode k hk data hdim hedge hok
  dsimp only at h1 h2 h3 o o'
  have key : lines' = lines.filter (fun l => l.1 < max 1 dim') := by
    refine eq_of_keys (fun l : Line ℝ => l.1) h2 (h3.filter _) (fun q => ?_)
    rw [List.filter_filter]
    by_cases hq : q < max 1 dim'
    · have e : lines.filter (fun a => decide (a.1 = q) && decide (a.1 < max 1 dim')) =
          lines.filter (fun a => a.1 = q) := by
        apply List.filter_congr
        intro a _
        by_cases ha : a.1 = q
        · simp only [ha, hq, decide_true, Bool.and_self]
        · simp [ha]
      rw [e]
      by_cases h0 : q = 0
      · subst h0
        rw [c1, ← c2]
      · rw [h1 q hq, if_neg h0, List.append_nil]
        apply List.filter_congr
        intro a ha
        by_cases haq : a.1 = q
        · have := (o a ha).2 (by omega)
          simp [haq, this]
        · simp [haq]
    · rw [List.filter_eq_nil_iff.2, List.filter_eq_nil_iff.2]
      · intro a _
        simp only [Bool.and_eq_true, decide_eq_true_eq]
        omega
      · intro a ha
        rw [decide_eq_true_eq]
        have := (o' a ha).1
        omega
  refine ⟨key, ?_⟩
  rw [key]
  exact prefix_of_ordered _ _ h3

/-- C100 (partial: the end iterator is read as "not a pivot"): on every cloud of points of which some
pair is closer than `eps`, raising `dimensions` only appends lines, all of the new dimensions. -/
theorem C100_dimensions_partial (sort : SortBySecond (List Nat) ℝ) (eps : ℝ) {dim dim' : Nat}
    (hdimn : dim' ≤ dim) (k : Nat) (hk : 0 < k) (data : List (List ℝ))
    (hdim : ∀ p ∈ data, p.length = k)
    (hedge : ∃ i j, i < j ∧ j < data.length ∧ rowDist k data i j < eps) :
    ∃ lines more T T', treeRun vectorsDistance sort .noPivot eps dim' data = .ok (lines, T') ∧
      treeRun vectorsDistance sort .noPivot eps dim data = .ok (lines ++ more, T) ∧
      ∀ l ∈ more, max 1 dim' ≤ l.1 ∧ l.1 < dim := by
  obtain ⟨lines, T, h1, -⟩ := C70_tree_run_partial sort eps dim k hk data hdim hedge
  obtain ⟨lines', T', h2, -⟩ := C70_tree_run_partial sort eps dim' k hk data hdim hedge
  obtain ⟨h3, more, h4⟩ := C100_dimensions_runs sort (by simp) (by simp) eps hdimn k hk data hdim
    hedge h2 h1
  refine ⟨lines', more, T, T', h2, by rw [h4]; exact h1, ?_⟩
  intro l hl
  have o := (tree_range sort (by simp) k hk data hdim hedge h1 l (by rw [← h4]; simp [hl])).1
  have hge : max 1 dim' ≤ l.1 := by
    by_contra hlt
    rw [← h4, List.filter_append] at h3
    have e : lines'.filter (fun l => l.1 < max 1 dim') = lines' := by
      rw [List.filter_eq_self]
      intro a ha
      rw [decide_eq_true_eq]
      exact (tree_range sort (by simp) k hk data hdim hedge h2 a ha).1
    rw [e] at h3
    have h5 := List.self_eq_append_right.1 h3
    have := List.filter_eq_nil_iff.1 h5 l hl
    rw [decide_eq_true_eq] at this
    omega
  omega

/-- C100 for the whole program (partial: the end iterator is not read): if two command lines differ
only in `dimensions` and in the name of the output file, the text of the barcode file for the smaller
value is the beginning of the text for the larger value. -/
theorem C100_program_partial (sys : System ℝ ℝ) (hdist : sys.lib.dist = vectorsDistance)
    (hmode : sys.lib.mode = .noPivot)
    (pairs pairs' : List (String × String)) (m m' : ArgMap) (f f' : String) (data : List (List ℝ))
    (h : PlainCommand sys pairs m "simplexTree" f data)
    (h' : PlainCommand sys pairs' m' "simplexTree" f' data)
    (heps : sys.atof (m'.val "epsilon") = sys.atof (m.val "epsilon"))
    (hd : sys.atoi (m'.val "dimensions") ≤ sys.atoi (m.val "dimensions"))
    (k : Nat) (hk : 0 < k) (hdim : ∀ p ∈ data, p.length = k)
    (hedge : ∃ i j, i < j ∧ j < data.length ∧ rowDist k data i j < sys.atof (m.val "epsilon")) :
    ∃ w w' lines lines', mainProgram sys (commandLine pairs) = .ok w ∧
      mainProgram sys (commandLine pairs') = .ok w' ∧ WritesBarcode sys.io f lines w ∧
      WritesBarcode sys.io f' lines' w' ∧
      barcodeContent sys.io lines' <+: barcodeContent sys.io lines := by
  obtain ⟨lines, more, T, T', h1, h2, -⟩ := C100_dimensions_partial sys.lib.sort
    (sys.atof (m.val "epsilon")) hd k hk data hdim hedge
  rw [← hmode] at h1 h2
  rw [← heps] at h1
  obtain ⟨w, h3, h4⟩ := (main_tree sys hdist pairs m f data h).of_ok h2
  obtain ⟨w', h5, h6⟩ := (main_tree sys hdist pairs' m' f' data h').of_ok h1
  refine ⟨w, w', _, _, h3, h5, h4, h6, ?_⟩
  unfold barcodeContent
  rw [List.map_append, List.flatten_append, ← List.append_assoc]
  exact List.prefix_append _ _

/-! ### Cases that meet the hypotheses -/

theorem insertion_stable (α : Type) : Stable (SortBySecond.insertion α ℝ) := by
  intro l w
  show (l.insertionSort (fun a b => a.2 ≤ b.2)).filter _ = _
  have ins : ∀ (a : α × ℝ) (m : List (α × ℝ)),
      (m.orderedInsert (fun a b => a.2 ≤ b.2) a).filter (fun e => e.2 = w) =
        (a :: m).filter (fun e => e.2 = w) := by
    intro a m
    induction m with
    | nil => rfl
    | cons b m ih =>
      rw [List.orderedInsert]
      split_ifs with h
      · rfl
      · rw [List.filter_cons, ih]
        by_cases hb : b.2 = w
        · have ha : ¬ a.2 = w := by
            intro ha; exact h (by rw [ha, hb])
          simp [hb, ha]
        · simp [hb, List.filter_cons]
  induction l with
  | nil => rfl
  | cons a l ih =>
    rw [List.insertionSort_cons, ins, List.filter_cons, List.filter_cons, ih]

/-- C99, C100: the hypotheses hold for example for four points on a line with the insertion sort; the
smaller `epsilon` cuts off one of the merges. -/
example : Stable (SortBySecond.insertion (List Nat) ℝ) ∧
    (∀ p ∈ [[0], [1], [3], [(6 : ℝ)]], p.length = 1) ∧ (5 / 2 : ℝ) ≤ 4 ∧
    ∃ i j, i < j ∧ j < [[0], [1], [3], [(6 : ℝ)]].length ∧
      rowDist 1 [[0], [1], [3], [(6 : ℝ)]] i j < 5 / 2 := by
  refine ⟨insertion_stable _, by simp, by norm_num, 0, 1, by decide, by simp, ?_⟩
  unfold rowDist Spec.point
  rw [EuclideanSpace.dist_eq]
  simp
  norm_num

end LHF
