import Verif.Lemmas.DenStream
import Verif.Lemmas.Dbscan
import Mathlib.Data.List.Perm.Subperm
import Mathlib.Data.List.Forall2

/-! The stream loop of denStream follows the rule `Absorb` on histories. -/

namespace LHF
open Spec

theorem MCInv.point_center {k : Nat} {l : ℝ} {h : History} {m : MicroCluster} (hm : MCInv k l h m)
    (t : Int) : point k m.center = decayedMean k l h t := by
  by_cases hh : h = []
  · rw [(hm.empty hh).1, hh]
    simp only [decayedMean, List.map_nil, List.sum_nil, smul_zero]
    ext i
    simp [point]
  · exact hm.mean hh t

/-- The micro-clusters have the given histories. -/
abbrev Reps (k : Nat) (l : ℝ) (hs : List History) (cs : List MicroCluster) : Prop :=
  List.Forall₂ (MCInv k l) hs cs

theorem Reps.nth {k : Nat} {l : ℝ} {hs : List History} {cs : List MicroCluster}
    (h : Reps k l hs cs) {i : Nat} (hi : i < cs.length) :
    ∃ hh m, hs[i]? = some hh ∧ cs[i]? = some m ∧ MCInv k l hh m := by
  have hl := h.length_eq
  refine ⟨hs[i], cs[i], List.getElem?_eq_getElem _, List.getElem?_eq_getElem _, ?_⟩
  exact List.Forall₂.get h (by omega) hi

theorem Reps.getElem? {k : Nat} {l : ℝ} {hs : List History} {cs : List MicroCluster}
    (h : Reps k l hs cs) {i : Nat} {hh : History} (hi : hs[i]? = some hh) :
    ∃ m, cs[i]? = some m ∧ MCInv k l hh m := by
  obtain ⟨h1, e⟩ := List.getElem?_eq_some_iff.1 hi
  have hl := h.length_eq
  obtain ⟨hh', m, e1, e2, e3⟩ := h.nth (i := i) (by omega)
  rw [hi] at e1
  cases e1
  exact ⟨m, e2, e3⟩

theorem Reps.set {k : Nat} {l : ℝ} {hs : List History} {cs : List MicroCluster}
    (h : Reps k l hs cs) (i : Nat) {hh : History} {m : MicroCluster} (hm : MCInv k l hh m) :
    Reps k l (hs.set i hh) (cs.set i m) := by
  induction h generalizing i with
  | nil => simp
  | cons h1 h2 ih =>
    cases i with
    | zero => exact List.Forall₂.cons hm h2
    | succ i => exact List.Forall₂.cons h1 (ih i)

theorem Reps.eraseIdx {k : Nat} {l : ℝ} {hs : List History} {cs : List MicroCluster}
    (h : Reps k l hs cs) (i : Nat) : Reps k l (hs.eraseIdx i) (cs.eraseIdx i) := by
  induction h generalizing i with
  | nil => simp
  | cons h1 h2 ih =>
    cases i with
    | zero => exact h2
    | succ i => exact List.Forall₂.cons h1 (ih i)

theorem Reps.snoc {k : Nat} {l : ℝ} {hs : List History} {cs : List MicroCluster}
    (h : Reps k l hs cs) {hh : History} {m : MicroCluster} (hm : MCInv k l hh m) :
    Reps k l (hs ++ [hh]) (cs ++ [m]) :=
  List.rel_append h (List.Forall₂.cons hm List.Forall₂.nil)

theorem nearestCluster_spec {k : Nat} (cs : List MicroCluster)
    (hc : ∀ m ∈ cs, m.center.length = k) (x : List ℝ) (hx : x.length = k) (hne : cs ≠ []) :
    ∃ i m, nearestCluster cs x = .ok i ∧ cs[i]? = some m ∧ ∀ j m', cs[j]? = some m' →
      dist (point k m.center) (point k x) ≤ dist (point k m'.center) (point k x) ∧
      (j < i → dist (point k m.center) (point k x) < dist (point k m'.center) (point k x)) := by
  have h0 : 0 < cs.length := List.length_pos_iff.2 hne
  have hd : ∀ i, ∀ hi : i < cs.length, vectorsDistance cs[i].center x =
      .ok (dist (point k cs[i].center) (point k x)) :=
    fun i hi => C10_distance_is_euclidean _ _ (hc _ (List.getElem_mem hi)) hx
  obtain ⟨r, h1, h2⟩ := foldlM_range'_total (nearestClusterStep cs x)
    (fun n (st : Nat × ℝ) => st.1 < n ∧ ∃ m, cs[st.1]? = some m ∧
      st.2 = dist (point k m.center) (point k x) ∧ ∀ j m', j < n → cs[j]? = some m' →
      dist (point k m.center) (point k x) ≤ dist (point k m'.center) (point k x) ∧
      (j < st.1 → dist (point k m.center) (point k x) < dist (point k m'.center) (point k x)))
    (cs.length - 1) 1 (0, dist (point k cs[0].center) (point k x))
    ⟨by simp, cs[0], List.getElem?_eq_getElem h0, rfl, by
      intro j m' hj hm'
      have : j = 0 := by omega
      subst this
      rw [List.getElem?_eq_getElem h0] at hm'
      cases hm'
      exact ⟨le_rfl, fun h => absurd h (by simp)⟩⟩ (by
    rintro n ⟨mi, md⟩ hn1 hn2 ⟨hlt, m, hm, hmd, hall⟩
    have hn : n < cs.length := by omega
    simp only at hlt hm hmd hall
    unfold nearestClusterStep
    rw [vget_of_lt hn, ok_bind, hd n hn, ok_bind, pure_eq_ok]
    simp only
    by_cases hcmp : dist (point k cs[n].center) (point k x) < md
    · refine ⟨_, rfl, ?_⟩
      rw [if_pos hcmp]
      refine ⟨by simp, cs[n], List.getElem?_eq_getElem hn, rfl, ?_⟩
      intro j m' hj hm'
      rcases Nat.lt_succ_iff_lt_or_eq.1 hj with h | rfl
      · have := (hall j m' h hm').1
        rw [hmd] at hcmp
        exact ⟨by linarith, fun _ => by linarith⟩
      · rw [List.getElem?_eq_getElem hn] at hm'
        cases hm'
        exact ⟨le_rfl, fun h => absurd h (by simp)⟩
    · refine ⟨_, rfl, ?_⟩
      rw [if_neg hcmp]
      refine ⟨by simp only; omega, m, hm, hmd, ?_⟩
      intro j m' hj hm'
      rcases Nat.lt_succ_iff_lt_or_eq.1 hj with h | rfl
      · exact hall j m' h hm'
      · rw [List.getElem?_eq_getElem hn] at hm'
        cases hm'
        rw [hmd] at hcmp
        refine ⟨not_lt.1 hcmp, fun h => ?_⟩
        have : j < mi := h
        omega)
  obtain ⟨hlt, m, hm, hmd, hall⟩ := h2
  refine ⟨r.1, m, ?_, hm, fun j m' hm' => ?_⟩
  · unfold nearestCluster
    rw [vget_of_lt h0, ok_bind, hd 0 h0, ok_bind, h1, ok_bind, pure_eq_ok]
  · have hj := (List.getElem?_eq_some_iff.1 hm').1
    exact hall j m' (by omega) hm'

theorem Reps.centers {k : Nat} {l : ℝ} {hs : List History} {cs : List MicroCluster}
    (h : Reps k l hs cs) : ∀ m ∈ cs, m.center.length = k := by
  intro m hm
  obtain ⟨i, hi, rfl⟩ := List.mem_iff_getElem.1 hm
  obtain ⟨hh, m', _, e2, e3⟩ := h.nth hi
  rw [List.getElem?_eq_getElem hi] at e2
  cases e2
  exact e3.clen

theorem nearestCluster_reps {k : Nat} {l : ℝ} {hs : List History} {cs : List MicroCluster}
    (h : Reps k l hs cs) (x : List ℝ) (hx : x.length = k) (hne : cs ≠ []) (t : Int) :
    ∃ i hh m, nearestCluster cs x = .ok i ∧ cs[i]? = some m ∧ hs[i]? = some hh ∧ MCInv k l hh m ∧
      NearestGroup k l hs x t i := by
  obtain ⟨i, m, h1, h2, h3⟩ := nearestCluster_spec cs h.centers x hx hne
  have hi := (List.getElem?_eq_some_iff.1 h2).1
  obtain ⟨hh, m', e1, e2, e3⟩ := h.nth hi
  rw [h2] at e2
  cases e2
  refine ⟨i, hh, m, h1, h2, e1, e3, hh, e1, fun j h' hj => ?_⟩
  obtain ⟨m', f1, f2⟩ := h.getElem? hj
  have := h3 j m' f1
  rwa [e3.point_center t, f2.point_center t] at this

theorem nearestGroup_unique {k : Nat} {l : ℝ} {hs : List History} {x : List ℝ} {t : Int} {i j : Nat}
    (hi : NearestGroup k l hs x t i) (hj : NearestGroup k l hs x t j) : i = j := by
  obtain ⟨h, e1, a1⟩ := hi
  obtain ⟨h', e2, a2⟩ := hj
  rcases lt_trichotomy i j with hlt | heq | hlt
  · have h1 := (a2 i h e1).2 hlt
    have h2 := (a1 j h' e2).1
    linarith
  · exact heq
  · have h1 := (a1 j h' e2).2 hlt
    have h2 := (a2 i h e1).1
    linarith

theorem nearestGroup_nil {k : Nat} {l : ℝ} {x : List ℝ} {t : Int} {i : Nat} :
    ¬ NearestGroup k l [] x t i := by
  rintro ⟨h, e, _⟩
  simp at e

/-- What `mergeRadius` and `insertPoint` do to a micro-cluster with a known history. -/
theorem MCInv.merge {k : Nat} {l : ℝ} {h : History} {m : MicroCluster} (hm : MCInv k l h m)
    (x : List ℝ) (hx : x.length = k) (t : Int) :
    ∃ m', m.insertPoint x t = .ok m' ∧ MCInv k l (h ++ [(x, t)]) m' ∧
      m.mergeRadius x t = .ok (radius k l (h ++ [(x, t)]) t) ∧
      m'.creationTime = m.creationTime := by
  obtain ⟨m', h1, h2, h3⟩ := hm.insertPoint x hx t
  exact ⟨m', h1, h2, by rw [hm.mergeRadius x hx t h1, h2.getRadius t]; rfl, h3⟩

/-- The micro-cluster was created at the time of its first point. -/
def Born (h : History) (m : MicroCluster) : Prop := ∃ e, h.head? = some e ∧ m.creationTime = e.2

theorem Born.snoc {h : History} {m m' : MicroCluster} (hb : Born h m) (e : List ℝ × Int)
    (hm : m'.creationTime = m.creationTime) : Born (h ++ [e]) m' := by
  obtain ⟨f, h1, h2⟩ := hb
  refine ⟨f, ?_, by rw [hm, h2]⟩
  cases h with
  | nil => simp at h1
  | cons a h => simpa using h1

theorem forall₂_set {α β : Type} {R : α → β → Prop} {l : List α} {l' : List β}
    (h : List.Forall₂ R l l') (i : Nat) {a : α} {b : β} (hab : R a b) :
    List.Forall₂ R (l.set i a) (l'.set i b) := by
  induction h generalizing i with
  | nil => simp
  | cons h1 h2 ih =>
    cases i with
    | zero => exact List.Forall₂.cons hab h2
    | succ i => exact List.Forall₂.cons h1 (ih i)

theorem forall₂_eraseIdx {α β : Type} {R : α → β → Prop} {l : List α} {l' : List β}
    (h : List.Forall₂ R l l') (i : Nat) : List.Forall₂ R (l.eraseIdx i) (l'.eraseIdx i) := by
  induction h generalizing i with
  | nil => simp
  | cons h1 h2 ih =>
    cases i with
    | zero => exact h2
    | succ i => exact List.Forall₂.cons h1 (ih i)

theorem forall₂_nth {α β : Type} {R : α → β → Prop} {l : List α} {l' : List β}
    (h : List.Forall₂ R l l') {i : Nat} {a : α} {b : β} (ha : l[i]? = some a) (hb : l'[i]? = some b) :
    R a b := by
  obtain ⟨h1, rfl⟩ := List.getElem?_eq_some_iff.1 ha
  obtain ⟨h2, rfl⟩ := List.getElem?_eq_some_iff.1 hb
  exact List.Forall₂.get h h1 h2

theorem vupdate_ok {α : Type _} {l : List α} {i : Nat} {a b : α} {f : α → Res α}
    (h : l[i]? = some a) (hf : f a = .ok b) : vupdate l i f = .ok (l.set i b) := by
  unfold vupdate
  rw [vget_ok.2 h, ok_bind, hf, ok_bind]
  rfl

/-- The last part of `merging`. -/
theorem mergeOutlier_spec {k : Nat} (cfg : DenConfig) {p o : List History} {st : DenState}
    (hp : Reps k cfg.lambda p st.p) (ho : Reps k cfg.lambda o st.o) (x : List ℝ) (hx : x.length = k)
    (t : Int) (href : Refused k cfg.lambda cfg.epsilon p x t) :
    ∃ st' p' o', mergeOutlier cfg k st x t = .ok st' ∧
      Absorb k cfg.lambda cfg.epsilon cfg.betaMu p o x t p' o' ∧
      Reps k cfg.lambda p' st'.p ∧ Reps k cfg.lambda o' st'.o ∧
      (List.Forall₂ Born o st.o → List.Forall₂ Born o' st'.o) := by
  obtain ⟨mn, hn1, hn2, hn3⟩ := (mcInv_new k cfg.lambda t).insertPoint x hx t
  have hborn : Born [(x, t)] mn := ⟨(x, t), rfl, hn3⟩
  unfold mergeOutlier
  by_cases hlen : st.o.length > 0
  · obtain ⟨i, h, m, e1, e2, e3, e4, e5⟩ := nearestCluster_reps ho x hx (by
      intro e; rw [e] at hlen; simp at hlen) t
    obtain ⟨m', f1, f2, f3, f4⟩ := e4.merge x hx t
    have hi : i < st.o.length := (List.getElem?_eq_some_iff.1 e2).1
    rw [if_pos hlen, e1, ok_bind, vget_ok.2 e2, ok_bind, f3, ok_bind]
    by_cases hr : radius k cfg.lambda (h ++ [(x, t)]) t ≤ cfg.epsilon
    · rw [if_pos hr, vupdate_ok e2 f1, ok_bind,
        vget_ok.2 (show (st.o.set i m')[i]? = some m' by simp [hi]), ok_bind, f2.getWeight]
      by_cases hw : totalWeight cfg.lambda (h ++ [(x, t)]) t > cfg.betaMu
      · rw [if_pos hw]
        refine ⟨_, _, _, rfl, Absorb.promote i h href e5 e3 hr hw, hp.snoc f2, ?_⟩
        have : (st.o.set i m').eraseIdx i = st.o.eraseIdx i := by
          rw [List.eraseIdx_set_eq]
        dsimp only
        rw [this]
        exact ⟨ho.eraseIdx i, fun hb => forall₂_eraseIdx hb i⟩
      · rw [if_neg hw]
        exact ⟨_, _, _, rfl, Absorb.outlier i h href e5 e3 hr (not_lt.1 hw), hp, ho.set i f2,
          fun hb => forall₂_set hb i ((forall₂_nth hb e3 e2).snoc _ f4)⟩
    · rw [if_neg hr, hn1, ok_bind]
      refine ⟨_, _, _, rfl, Absorb.new href ?_, hp, ho.snoc hn2,
        fun hb => List.rel_append hb (List.Forall₂.cons hborn List.Forall₂.nil)⟩
      intro j h' hj hh'
      have := nearestGroup_unique e5 hj
      subst this
      rw [e3] at hh'
      cases hh'
      exact not_le.1 hr
  · rw [if_neg hlen, hn1, ok_bind]
    refine ⟨_, _, _, rfl, Absorb.new href ?_, hp, ho.snoc hn2,
        fun hb => List.rel_append hb (List.Forall₂.cons hborn List.Forall₂.nil)⟩
    have : o = [] := by
      have := ho.length_eq
      exact List.length_eq_zero_iff.1 (by omega)
    subst this
    intro j h' hj
    exact absurd hj nearestGroup_nil

theorem denMerging_spec {k : Nat} (cfg : DenConfig) {p o : List History} {st : DenState}
    (hp : Reps k cfg.lambda p st.p) (ho : Reps k cfg.lambda o st.o) (x : List ℝ) (hx : x.length = k)
    (t : Int) :
    ∃ st' p' o', denMerging cfg k st x t = .ok st' ∧
      Absorb k cfg.lambda cfg.epsilon cfg.betaMu p o x t p' o' ∧
      Reps k cfg.lambda p' st'.p ∧ Reps k cfg.lambda o' st'.o ∧
      (List.Forall₂ Born o st.o → List.Forall₂ Born o' st'.o) := by
  unfold denMerging
  by_cases hlen : st.p.length > 0
  · obtain ⟨i, h, m, e1, e2, e3, e4, e5⟩ := nearestCluster_reps hp x hx (by
      intro e; rw [e] at hlen; simp at hlen) t
    obtain ⟨m', f1, f2, f3, f4⟩ := e4.merge x hx t
    rw [if_pos hlen, e1, ok_bind, vget_ok.2 e2, ok_bind, f3, ok_bind]
    by_cases hr : radius k cfg.lambda (h ++ [(x, t)]) t ≤ cfg.epsilon
    · rw [if_pos hr, vupdate_ok e2 f1, ok_bind]
      exact ⟨_, _, _, rfl, Absorb.potential i h e5 e3 hr, hp.set i f2, ho, id⟩
    · rw [if_neg hr]
      refine mergeOutlier_spec cfg hp ho x hx t ?_
      intro j h' hj hh'
      have := nearestGroup_unique e5 hj
      subst this
      rw [e3] at hh'
      cases hh'
      exact not_le.1 hr
  · rw [if_neg hlen]
    refine mergeOutlier_spec cfg hp ho x hx t ?_
    have : p = [] := by
      have := hp.length_eq
      exact List.length_eq_zero_iff.1 (by omega)
    subst this
    intro j h' hj
    exact absurd hj nearestGroup_nil

theorem flatten_set_perm (hs : List History) (i : Nat) (h : History) (e : List ℝ × Int)
    (hi : hs[i]? = some h) : (hs.set i (h ++ [e])).flatten.Perm (e :: hs.flatten) := by
  induction hs generalizing i with
  | nil => simp at hi
  | cons a hs ih =>
    cases i with
    | zero =>
      simp only [List.getElem?_cons_zero, Option.some.injEq] at hi
      subst hi
      simp only [List.set_cons_zero, List.flatten_cons, List.append_assoc]
      refine (List.perm_append_comm_assoc a [e] hs.flatten).trans ?_
      simp
    | succ i =>
      simp only [List.getElem?_cons_succ] at hi
      simp only [List.set_cons_succ, List.flatten_cons]
      refine ((ih i hi).append_left a).trans ?_
      exact List.perm_middle

theorem flatten_eraseIdx_perm (hs : List History) (i : Nat) (h : History)
    (hi : hs[i]? = some h) : (h ++ (hs.eraseIdx i).flatten).Perm hs.flatten := by
  induction hs generalizing i with
  | nil => simp at hi
  | cons a hs ih =>
    cases i with
    | zero =>
      simp only [List.getElem?_cons_zero, Option.some.injEq] at hi
      subst hi
      simp
    | succ i =>
      simp only [List.getElem?_cons_succ] at hi
      simp only [List.eraseIdx_cons_succ, List.flatten_cons]
      refine (List.perm_append_comm_assoc h a _).trans ?_
      exact (ih i hi).append_left a

/-- The rule adds the point to exactly one group. -/
theorem Spec.Absorb.perm {k : Nat} {l e w : ℝ} {p o p' o' : List History} {x : List ℝ} {t : Int}
    (h : Absorb k l e w p o x t p' o') :
    (p'.flatten ++ o'.flatten).Perm ((x, t) :: (p.flatten ++ o.flatten)) := by
  cases h with
  | potential i h _ hi _ => exact (flatten_set_perm p i h (x, t) hi).append_right _
  | outlier i h _ _ hi _ _ =>
    exact ((flatten_set_perm o i h (x, t) hi).append_left _).trans List.perm_middle
  | promote i h _ _ hi _ _ =>
    have h1 := flatten_eraseIdx_perm o i h hi
    simp only [List.flatten_append, List.flatten_cons, List.flatten_nil, List.append_nil,
      List.append_assoc]
    have h2 : (h ++ ([(x, t)] ++ (o.eraseIdx i).flatten)).Perm ((x, t) :: o.flatten) := by
      refine (List.perm_append_comm_assoc h [(x, t)] _).trans ?_
      simpa using h1.cons (x, t)
    exact (h2.append_left _).trans List.perm_middle
  | new _ _ =>
    simp only [List.flatten_append, List.flatten_cons, List.flatten_nil, List.append_nil]
    rw [← List.append_assoc]
    exact List.perm_append_comm.trans (by simp)

end LHF
