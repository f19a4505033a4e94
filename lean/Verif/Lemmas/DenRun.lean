import Verif.Lemmas.DenMerge
import Verif.Props.Dbscan

/-! The whole run of denStream. -/

namespace LHF
open Spec

/-- No group is empty. -/
def NonEmptyGroups (hs : List History) : Prop := ∀ h ∈ hs, h ≠ []

theorem reps_filter {k : Nat} {l : ℝ} {hs : List History} {cs : List MicroCluster}
    (h : Reps k l hs cs) (P : MicroCluster → Bool) :
    ∃ hs', hs'.Sublist hs ∧ Reps k l hs' (cs.filter P) := by
  induction h with
  | nil => exact ⟨[], List.Sublist.slnil, List.Forall₂.nil⟩
  | @cons a b as bs h1 h2 ih =>
    obtain ⟨hs', s, r⟩ := ih
    by_cases hP : P b = true
    · exact ⟨a :: hs', s.cons_cons a, by
        rw [List.filter_cons_of_pos hP]; exact List.Forall₂.cons h1 r⟩
    · exact ⟨hs', s.cons a, by rw [List.filter_cons_of_neg hP]; exact r⟩

theorem sublist_flatten {hs' hs : List History} (h : hs'.Sublist hs) :
    hs'.flatten.Sublist hs.flatten := by
  induction h with
  | slnil => simp
  | cons a _ ih => simpa using ih.trans (List.sublist_append_right _ _)
  | cons_cons a _ ih => simpa using ih.append_left a

theorem Spec.Absorb.nonEmpty {k : Nat} {l e w : ℝ} {p o p' o' : List History} {x : List ℝ} {t : Int}
    (h : Absorb k l e w p o x t p' o') (hp : NonEmptyGroups p) (ho : NonEmptyGroups o) :
    NonEmptyGroups p' ∧ NonEmptyGroups o' := by
  have hset : ∀ (hs : List History) i h, NonEmptyGroups hs → NonEmptyGroups (hs.set i (h ++ [(x, t)])) := by
    intro hs i h hne a ha
    rcases List.mem_or_eq_of_mem_set ha with h' | h'
    · exact hne a h'
    · rw [h']; simp
  cases h with
  | potential i h => exact ⟨hset p i h hp, ho⟩
  | outlier i h => exact ⟨hp, hset o i h ho⟩
  | promote i h =>
    refine ⟨?_, fun a ha => ho a (List.mem_of_mem_eraseIdx ha)⟩
    intro a ha
    rcases List.mem_append.1 ha with h' | h'
    · exact hp a h'
    · rw [List.mem_singleton] at h'; rw [h']; simp
  | new =>
    refine ⟨hp, ?_⟩
    intro a ha
    rcases List.mem_append.1 ha with h' | h'
    · exact ho a h'
    · rw [List.mem_singleton] at h'; rw [h']; simp

/-- The stream loop: every group has a history, the groups together use each row at most once, and
no empty group appears. -/
theorem denStreamLoop_spec {k : Nat} (cfg : DenConfig) (hTp : cfg.Tp ≠ 0) (xs : List (List ℝ))
    (hxs : ∀ x ∈ xs, x.length = k) :
    ∀ (st : DenState) (p o : List History) (n : Nat) (t : Int),
    Reps k cfg.lambda p st.p → Reps k cfg.lambda o st.o →
    ∃ st' p' o', denStreamLoop cfg k xs st n t = .ok st' ∧
      Reps k cfg.lambda p' st'.p ∧ Reps k cfg.lambda o' st'.o ∧
      ((p'.flatten ++ o'.flatten).map Prod.fst).Subperm
        (xs ++ (p.flatten ++ o.flatten).map Prod.fst) ∧
      (NonEmptyGroups p → NonEmptyGroups o → NonEmptyGroups p' ∧ NonEmptyGroups o') := by
  induction xs with
  | nil =>
    intro st p o n t hp ho
    exact ⟨st, p, o, rfl, hp, ho, by simpa using List.Subperm.refl _, fun a b => ⟨a, b⟩⟩
  | cons x xs ih =>
    intro st p o n t hp ho
    rw [denStreamLoop]
    dsimp only
    generalize hn' : (if decide (n + 1 = cfg.streamSpeed) = true then 0 else n + 1) = n'
    generalize ht' : (if decide (n + 1 = cfg.streamSpeed) = true then t + 1 else t) = t'
    obtain ⟨st1, p1, o1, h1, h2, h3, h4, -⟩ :=
      denMerging_spec cfg hp ho x (hxs x (by simp)) t'
    rw [h1, ok_bind, if_neg hTp]
    obtain ⟨p2, o2, hs1, hs2, hr1, hr2⟩ : ∃ p2 o2, List.Sublist p2 p1 ∧ List.Sublist o2 o1 ∧
        Reps k cfg.lambda p2 (if cfg.Tp ∣ t' ∧ n' = 0 then denPrune cfg st1 t' else st1).p ∧
        Reps k cfg.lambda o2 (if cfg.Tp ∣ t' ∧ n' = 0 then denPrune cfg st1 t' else st1).o := by
      by_cases hc : cfg.Tp ∣ t' ∧ n' = 0
      · rw [if_pos hc]
        unfold denPrune
        dsimp only
        obtain ⟨p2, s1, r1⟩ := reps_filter h3 _
        obtain ⟨o2, s2, r2⟩ := reps_filter h4 _
        exact ⟨p2, o2, s1, s2, r1, r2⟩
      · rw [if_neg hc]
        exact ⟨p1, o1, List.Sublist.refl _, List.Sublist.refl _, h3, h4⟩
    obtain ⟨st3, p3, o3, g1, g2, g3, g4, g5⟩ := ih (fun y hy => hxs y (by simp [hy])) _ p2 o2 n' t'
      hr1 hr2
    refine ⟨st3, p3, o3, g1, g2, g3, ?_, ?_⟩
    · refine g4.trans ?_
      have s3 : (p2.flatten ++ o2.flatten).Sublist (p1.flatten ++ o1.flatten) :=
        (sublist_flatten hs1).append (sublist_flatten hs2)
      have s4 : ((p2.flatten ++ o2.flatten).map Prod.fst).Subperm
          (x :: (p.flatten ++ o.flatten).map Prod.fst) := by
        have a := (s3.map Prod.fst).subperm
        have b := (h2.perm.map Prod.fst).subperm
        exact a.trans (by simpa using b)
      have s5 := (List.subperm_append_left xs).2 s4
      exact s5.trans List.perm_middle.subperm
    · intro hp' ho'
      obtain ⟨a, b⟩ := h2.nonEmpty hp' ho'
      exact g5 (fun h hh => a h (hs1.subset hh)) (fun h hh => b h (hs2.subset hh))

theorem initGroups_get (data : List (List ℝ)) (labels : List Int) (t : Int) (M n c : Nat)
    (hc : c < M) : (initGroups data labels t M n)[c]? =
      some (((List.range n).filter (fun i => labels.getD i 0 = (c : Int) + 1)).map
        (fun i => (data.getD i [], t))) := by
  simp [initGroups, hc]

theorem initGroups_succ_skip (data : List (List ℝ)) (labels : List Int) (t : Int) (M n : Nat)
    (h : labels.getD n 0 = -1) :
    initGroups data labels t M (n + 1) = initGroups data labels t M n := by
  unfold initGroups
  apply List.map_congr_left
  intro c _
  rw [List.range_succ, List.filter_append]
  have : ¬ labels.getD n 0 = (c : Int) + 1 := by omega
  simp only [List.getD_eq_getElem?_getD] at this ⊢
  simp [this]

theorem initGroups_succ_set (data : List (List ℝ)) (labels : List Int) (t : Int) (M n c : Nat)
    (hc : c < M) (h : labels.getD n 0 = (c : Int) + 1) :
    initGroups data labels t M (n + 1) = (initGroups data labels t M n).set c
      (((List.range n).filter (fun i => labels.getD i 0 = (c : Int) + 1)).map
        (fun i => (data.getD i [], t)) ++ [(data.getD n [], t)]) := by
  apply List.ext_getElem?
  intro j
  by_cases hj : j < M
  · rw [initGroups_get data labels t M (n + 1) j hj, List.getElem?_set]
    by_cases hcj : c = j
    · subst hcj
      rw [if_pos rfl, if_pos (by simpa [initGroups] using hc), List.range_succ, List.filter_append]
      simp only [List.getD_eq_getElem?_getD] at h ⊢
      simp [h]
    · rw [if_neg hcj, initGroups_get data labels t M n j hj, List.range_succ, List.filter_append]
      have : ¬ labels.getD n 0 = (j : Int) + 1 := by omega
      simp only [List.getD_eq_getElem?_getD] at this ⊢
      simp [this]
  · rw [List.getElem?_eq_none (by simpa [initGroups] using hj),
      List.getElem?_eq_none (by simpa [initGroups] using hj)]

theorem denInitLoop_spec {k : Nat} {l : ℝ} (data : List (List ℝ)) (labels : List Int) (t : Int)
    (M n : Nat) (hlab : labels.length = n) (hn : n ≤ data.length)
    (hrow : ∀ x ∈ data, x.length = k)
    (hrange : ∀ i < n, labels.getD i 0 = -1 ∨ (1 ≤ labels.getD i 0 ∧ labels.getD i 0 ≤ M)) :
    ∃ cs, (List.range n).foldlM (denInitStep data labels t)
        (List.replicate M (MicroCluster.new t k l)) = .ok cs ∧
      Reps k l (initGroups data labels t M n) cs := by
  refine foldlM_range_total (denInitStep data labels t)
    (fun i cs => Reps k l (initGroups data labels t M i) cs) n _ ?_ ?_
  · have : initGroups data labels t M 0 = List.replicate M [] := by
      simp [initGroups]
    rw [this]
    clear this hrange hlab
    induction M with
    | zero => exact List.Forall₂.nil
    | succ M ih => exact List.Forall₂.cons (mcInv_new k l t) ih
  · intro i cs hi hr
    have hl : i < labels.length := by omega
    have hd : i < data.length := by omega
    have hgl : labels.getD i 0 = labels[i] := by simp [hl]
    have hgd : data.getD i [] = data[i] := by simp [hd]
    unfold denInitStep
    rw [vget_of_lt hl, ok_bind]
    rcases hrange i hi with hm | ⟨h1, h2⟩
    · rw [hgl] at hm
      rw [if_neg (by simp [hm])]
      exact ⟨cs, rfl, by rw [initGroups_succ_skip _ _ _ _ _ (by rw [hgl, hm])]; exact hr⟩
    · rw [hgl] at h1 h2
      obtain ⟨c, hc⟩ : ∃ c : Nat, labels[i] = (c : Int) + 1 := ⟨(labels[i] - 1).toNat, by omega⟩
      have hcM : c < M := by omega
      rw [if_pos (by omega), vget_of_lt hd, ok_bind, if_neg (by omega)]
      obtain ⟨m, e1, e2⟩ := hr.getElem? (initGroups_get data labels t M i c hcM)
      obtain ⟨m', f1, f2, _⟩ := e2.insertPoint data[i] (hrow _ (List.getElem_mem hd)) t
      have hidx : (labels[i] - 1).toNat = c := by omega
      refine ⟨_, by rw [hidx]; exact vupdate_ok e1 f1, ?_⟩
      rw [initGroups_succ_set data labels t M i c hcM (by rw [hgl, hc])]
      exact hr.set c (by rw [hgd]; exact f2)

theorem foldl_max_spec (ls : List Int) : ∀ l : Int,
    ls.foldl max l ∈ l :: ls ∧ ∀ x ∈ l :: ls, x ≤ ls.foldl max l := by
  induction ls with
  | nil => intro l; simp
  | cons a ls ih =>
    intro l
    obtain ⟨h1, h2⟩ := ih (max l a)
    rw [List.foldl_cons]
    constructor
    · rcases List.mem_cons.1 h1 with h | h
      · rw [h]
        rcases max_cases l a with ⟨e, _⟩ | ⟨e, _⟩ <;> rw [e] <;> simp
      · simp [h]
    · intro x hx
      have h3 := h2 (max l a) (by simp)
      rcases List.mem_cons.1 hx with rfl | hx
      · exact (le_max_left _ _).trans h3
      · rcases List.mem_cons.1 hx with rfl | hx
        · exact (le_max_right _ _).trans h3
        · exact h2 x (by simp [hx])

/-- The number of first micro-clusters: one for every cluster, but one if there is none. -/
def initCount (m : Nat) : Nat := if m = 0 then 1 else m

theorem denInit_spec {k : Nat} (cfg : DenConfig) (data : List (List ℝ)) (labels : List Int)
    (hpos : 0 < cfg.initPoints) (hlab : labels.length = cfg.initPoints)
    (hn : cfg.initPoints ≤ data.length) (hrow : ∀ x ∈ data, x.length = k) {m : Nat}
    {N : Nat → List Nat} {minPoints : Nat}
    (hcl : IsClustering N minPoints cfg.initPoints m (fun i => labels.getD i 0)) :
    ∃ cs, denInit cfg data labels = .ok cs ∧
      Reps k cfg.lambda (initGroups data labels (cfg.initPoints / cfg.streamSpeed) (initCount m)
        cfg.initPoints) cs := by
  have hr := hcl.range
  have hu := hcl.used
  cases labels with
  | nil => simp at hlab; omega
  | cons a ls =>
    have hgetmem : ∀ i, i < cfg.initPoints → (a :: ls).getD i 0 ∈ a :: ls := by
      intro i hi
      have : i < (a :: ls).length := by omega
      rw [List.getD_eq_getElem?_getD, List.getElem?_eq_getElem this]
      exact List.getElem_mem this
    have hmemget : ∀ x ∈ a :: ls, ∃ i, i < cfg.initPoints ∧ (a :: ls).getD i 0 = x := by
      intro x hx
      obtain ⟨i, hi, rfl⟩ := List.mem_iff_getElem.1 hx
      exact ⟨i, by omega, by rw [List.getD_eq_getElem?_getD, List.getElem?_eq_getElem hi]; rfl⟩
    obtain ⟨h1, h2⟩ := foldl_max_spec ls a
    have hcount : (if ls.foldl max a = -1 then (1 : Int) else ls.foldl max a) = (initCount m : Int) := by
      unfold initCount
      by_cases hm : m = 0
      · subst hm
        have : ls.foldl max a = -1 := by
          obtain ⟨i, hi, e⟩ := hmemget _ h1
          rcases hr i hi with h | h
          · rw [← e]; exact h
          · exact absurd h.2 (by have := h.1; simp at this ⊢; omega)
        simp [this]
      · have hge : (m : Int) ≤ ls.foldl max a := by
          obtain ⟨i, hi, e⟩ := hu m (by omega) le_rfl
          rw [← e]
          exact h2 _ (hgetmem i hi)
        have hle : ls.foldl max a ≤ m := by
          obtain ⟨i, hi, e⟩ := hmemget _ h1
          rcases hr i hi with h | h
          · omega
          · omega
        have : ls.foldl max a = m := by omega
        rw [if_neg (by omega), if_neg hm, this]
    have h0 : 0 < data.length := by omega
    obtain ⟨cs, h3, h4⟩ := denInitLoop_spec (k := k) (l := cfg.lambda) data (a :: ls)
      (cfg.initPoints / cfg.streamSpeed) (initCount m) cfg.initPoints hlab hn hrow (by
        intro i hi
        rcases hr i hi with h | h
        · exact Or.inl h
        · refine Or.inr ⟨h.1, h.2.trans ?_⟩
          unfold initCount
          split_ifs <;> omega)
    refine ⟨cs, ?_, h4⟩
    unfold denInit
    simp only
    rw [hcount, if_neg (by omega), vget_of_lt h0, ok_bind, hrow _ (List.getElem_mem h0), Int.toNat_natCast]
    exact h3

theorem initGroups_fst (data : List (List ℝ)) (labels : List Int) (t : Int) (M n : Nat) :
    (initGroups data labels t M n).flatten.map Prod.fst =
      (((List.range M).map (fun c : Nat => (List.range n).filter
        (fun i => labels.getD i 0 = (c : Int) + 1))).flatten).map (fun i => data.getD i []) := by
  unfold initGroups
  rw [List.map_flatten, List.map_flatten, List.map_map, List.map_map]
  congr 1
  apply List.map_congr_left
  intro c _
  simp [Function.comp_def]

theorem map_getD_range (data : List (List ℝ)) (n : Nat) (hn : n ≤ data.length) :
    (List.range n).map (fun i => data.getD i []) = data.take n := by
  apply List.ext_getElem
  · simp [hn]
  · intro i h1 h2
    have : i < data.length := by simp at h1; omega
    simp [this]

/-- The first groups together use each of the first rows at most once. -/
theorem initGroups_subperm (data : List (List ℝ)) (labels : List Int) (t : Int) (M n : Nat)
    (hn : n ≤ data.length) :
    ((initGroups data labels t M n).flatten.map Prod.fst).Subperm (data.take n) := by
  rw [initGroups_fst, ← map_getD_range data n hn]
  have hsub : (((List.range M).map (fun c : Nat => (List.range n).filter
        (fun i => labels.getD i 0 = (c : Int) + 1))).flatten).Subperm (List.range n) := by
    apply List.subperm_of_subset
    · rw [List.nodup_flatten]
      constructor
      · intro l hl
        obtain ⟨c, _, rfl⟩ := List.mem_map.1 hl
        exact List.nodup_range.filter _
      · rw [List.pairwise_map]
        refine List.nodup_range.imp ?_
        intro a b hab
        rw [List.disjoint_left]
        intro i hi hi'
        have h1 := (List.mem_filter.1 hi).2
        have h2 := (List.mem_filter.1 hi').2
        simp only [decide_eq_true_eq] at h1 h2
        omega
    · intro i hi
      obtain ⟨l, hl, hi⟩ := List.mem_flatten.1 hi
      obtain ⟨c, _, rfl⟩ := List.mem_map.1 hl
      exact (List.mem_filter.1 hi).1
  obtain ⟨l, h1, h2⟩ := hsub
  exact ⟨l.map _, h1.map _, h2.map _⟩

theorem initGroups_nonEmpty (data : List (List ℝ)) (labels : List Int) (t : Int) (M n : Nat)
    (hu : ∀ c : Int, 1 ≤ c → c ≤ M → ∃ i, i < n ∧ labels.getD i 0 = c) :
    NonEmptyGroups (initGroups data labels t M n) := by
  intro h hh
  unfold initGroups at hh
  obtain ⟨c, hc, rfl⟩ := List.mem_map.1 hh
  rw [List.mem_range] at hc
  obtain ⟨i, hi, e⟩ := hu (c + 1) (by omega) (by omega)
  intro he
  rw [List.map_eq_nil_iff] at he
  have : i ∈ (List.range n).filter (fun i => labels.getD i 0 = (c : Int) + 1) :=
    List.mem_filter.2 ⟨List.mem_range.2 hi, by simpa using e⟩
  rw [he] at this
  simp at this

end LHF
