import Verif.Model.Utils
import Verif.Lemmas.Merge
import Mathlib.Data.List.Sublists

/-! Lemmas about the subset-doubling loop. -/

namespace LHF

theorem allSubsetsV_eq (s : List Nat) : allSubsetsV s = s.sublists := by
  induction s using List.reverseRecOn with
  | nil => rfl
  | append_singleton l a ih =>
    have : allSubsetsV (l ++ [a]) = allSubsetsV l ++ (allSubsetsV l).map (· ++ [a]) := by
      simp [allSubsetsV]
    rw [this, ih, List.sublists_concat]

theorem setInsert_eq_append {x : Nat} {l : List Nat} (h : ∀ y ∈ l, y < x) :
    setInsert x l = l ++ [x] := by
  induction l with
  | nil => rfl
  | cons y ys ih =>
    have hy : y < x := h y (by simp)
    rw [setInsert, if_neg (not_lt.2 hy.le), if_pos hy, ih (fun z hz => h z (by simp [hz]))]
    rfl

theorem allSubsetsS_eq {s : List Nat} (hs : Inc s) : allSubsetsS s = s.sublists := by
  induction s using List.reverseRecOn with
  | nil => rfl
  | append_singleton l a ih =>
    have h1 : allSubsetsS (l ++ [a]) = allSubsetsS l ++ (allSubsetsS l).map (setInsert a) := by
      simp [allSubsetsS]
    have hp := List.pairwise_append.1 hs
    rw [h1, ih hp.1, List.sublists_concat]
    congr 1
    apply List.map_congr_left
    intro z hz
    apply setInsert_eq_append
    intro y hy
    exact hp.2.2 y ((List.mem_sublists.1 hz).subset hy) a (by simp)

theorem sublist_iff_of_inc {s z : List Nat} (hs : Inc s) :
    z.Sublist s ↔ Inc z ∧ ∀ x ∈ z, x ∈ s := by
  constructor
  · intro h; exact ⟨hs.sublist h, fun x hx => h.subset hx⟩
  · rintro ⟨hz, hsub⟩
    have hp : z.Subperm s := List.subperm_of_subset hz.nodup hsub
    exact List.sublist_of_subperm_of_pairwise (r := (· ≤ ·)) hp (hz.imp le_of_lt) (hs.imp le_of_lt)

theorem sublist_pred_iff_erase {s z : List Nat} (hs : s.Nodup) :
    (z.Sublist s ∧ z.length + 1 = s.length) ↔ ∃ v ∈ s, z = s.erase v := by
  constructor
  · rintro ⟨h, hl⟩
    induction h with
    | slnil => simp at hl
    | @cons l₁ l₂ a h ih =>
      have : l₁ = l₂ := h.eq_of_length (by simpa using hl)
      subst this
      exact ⟨a, by simp, by simp⟩
    | @cons_cons l₁ l₂ a h ih =>
      obtain ⟨v, hv, e⟩ := ih (List.nodup_cons.1 hs).2 (by simpa using hl)
      refine ⟨v, by simp [hv], ?_⟩
      have : a ≠ v := by
        rintro rfl; exact (List.nodup_cons.1 hs).1 hv
      rw [List.erase_cons_tail (by simpa using this), e]
  · rintro ⟨v, hv, rfl⟩
    refine ⟨List.erase_sublist, ?_⟩
    rw [List.length_erase_of_mem hv]
    have : 0 < s.length := List.length_pos_of_mem hv
    omega

theorem szPred_pos {n : Nat} (h : 0 < n) : szPred n = n - 1 := by simp [szPred]; omega

theorem getSubsetsV_mem {s : List Nat} (hs : s.Nodup) (hne : s ≠ []) (z : List Nat) :
    z ∈ getSubsetsV s ↔ ∃ v ∈ s, z = s.erase v := by
  have hpos : 0 < s.length := List.length_pos_iff.2 hne
  rw [getSubsetsV, allSubsetsV_eq, List.mem_filter, List.mem_sublists, szPred_pos hpos,
    ← sublist_pred_iff_erase hs]
  simp only [decide_eq_true_eq]
  constructor <;> rintro ⟨h1, h2⟩ <;> exact ⟨h1, by omega⟩

theorem getSubsetsS_eq_V {s : List Nat} (hs : Inc s) : getSubsetsS s = getSubsetsV s := by
  rw [getSubsetsS, getSubsetsV, allSubsetsS_eq hs, allSubsetsV_eq]

theorem getSubsetsV_nodup {s : List Nat} (hs : s.Nodup) : (getSubsetsV s).Nodup := by
  rw [getSubsetsV, allSubsetsV_eq]
  exact (List.nodup_sublists.2 hs).filter _

theorem filter_sublists_length (s : List Nat) (k : Nat) :
    ((s.sublists).filter (fun z => z.length = k)).length = s.length.choose k := by
  have h1 : (s.sublists.filter (fun z => z.length = k)).Perm
      (s.sublists'.filter (fun z => z.length = k)) :=
    (List.sublists_perm_sublists' s).filter _
  rw [h1.length_eq]
  clear h1
  induction s generalizing k with
  | nil => cases k <;> simp [List.sublists']
  | cons a l ih =>
    rw [List.sublists'_cons, List.filter_append, List.length_append, ih]
    cases k with
    | zero =>
      simp [List.filter_map, Function.comp_def]
    | succ k =>
      have : ((l.sublists'.map (a :: ·)).filter (fun z => z.length = k + 1)).length
          = (l.sublists'.filter (fun z => z.length = k)).length := by
        rw [List.filter_map, List.length_map]
        simp [Function.comp_def]
      rw [this, ih, List.length_cons, Nat.choose_succ_succ', Nat.add_comm]

end LHF
