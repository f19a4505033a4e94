import Verif.Model.Windows
import Verif.Spec.Windows
import Verif.Lemmas.Res

/-!
Lemmas about the sliding window.
-/

namespace LHF

theorem verase_ok {α : Type} {l r : List α} {i : Nat} (h : verase l i = .ok r) :
    i < l.length ∧ r = l.eraseIdx i := by
  unfold verase at h
  split_ifs at h with hi
  cases h
  exact ⟨hi, rfl⟩

/-- What `deleteNNstats` does to the lists that have one entry per point of the window. -/
theorem deleteNNstats_ok {s r : SlidingState} (h : deleteNNstats s = .ok r) :
    s.indexToBeDeleted < s.windowKeys.length ∧
    r.windowKeys = s.windowKeys.eraseIdx s.indexToBeDeleted ∧
    r.partitionLabels = s.partitionLabels.eraseIdx s.indexToBeDeleted ∧
    (s.indexToBeDeleted < s.distsFromCurrVec.length ∧
      r.distsFromCurrVec = s.distsFromCurrVec.eraseIdx s.indexToBeDeleted) ∧
    r.window = s.window ∧ r.key = s.key ∧ r.targetPartition = s.targetPartition ∧
    r.originalData = s.originalData ∧ r.pointCounter = s.pointCounter ∧
    r.stats.distMatrix = s.stats.distMatrix := by
  unfold deleteNNstats at h
  obtain ⟨_, -, h⟩ := bind_ok.1 h
  obtain ⟨_, h1, h⟩ := bind_ok.1 h
  obtain ⟨_, h2, h⟩ := bind_ok.1 h
  obtain ⟨_, h3, h⟩ := bind_ok.1 h
  obtain ⟨_, -, h⟩ := bind_ok.1 h
  obtain ⟨_, h4, h⟩ := bind_ok.1 h
  obtain ⟨_, h5, h⟩ := bind_ok.1 h
  cases h
  exact ⟨(verase_ok h1).1, (verase_ok h1).2, (verase_ok h2).2, verase_ok h5, rfl, rfl, rfl, rfl,
    rfl, rfl⟩

/-- The evaluator either leaves the window and its lists alone, or removes one position from each of
them. -/
theorem nnBasedEvaluator_ok {upd : SlidingState → Res NNStats} {row : List ℝ} {s r : SlidingState}
    {ok : Bool} (h : nnBasedEvaluator upd row s = .ok (ok, r)) :
    r.key = s.key ∧ r.originalData = s.originalData ∧ r.pointCounter = s.pointCounter ∧
    (ok = false → r.window = s.window ∧ r.windowKeys = s.windowKeys ∧
      r.partitionLabels = s.partitionLabels) ∧
    (ok = true → ∃ i, i < s.window.length ∧ r.window = s.window.eraseIdx i ∧
      r.windowKeys = s.windowKeys.eraseIdx i ∧
      r.partitionLabels = s.partitionLabels.eraseIdx i) := by
  unfold nnBasedEvaluator at h
  obtain ⟨dists, -, h⟩ := bind_ok.1 h
  obtain ⟨dmin, -, h⟩ := bind_ok.1 h
  dsimp only at h
  split_ifs at h with h1 h2
  · cases h
    simp
  · obtain ⟨label, -, h⟩ := bind_ok.1 h
    split_ifs at h with h3 h4
    · cases h
      simp
    · obtain ⟨s1, hd, h⟩ := bind_ok.1 h
      obtain ⟨w, hw, h⟩ := bind_ok.1 h
      obtain ⟨st, -, h⟩ := bind_ok.1 h
      cases h
      have hd := deleteNNstats_ok hd
      dsimp only at hd ⊢
      obtain ⟨-, d2, d3, -, d5, d6, -, d8, d9, -⟩ := hd
      obtain ⟨w1, w2⟩ := verase_ok hw
      refine ⟨d6, d8, d9, by simp, fun _ => ⟨0, ?_, ?_, d2, d3⟩⟩
      · rwa [d5] at w1
      · rw [w2, d5]
    · cases h
      simp
  · obtain ⟨nearest, -, h⟩ := bind_ok.1 h
    obtain ⟨maxLabel, -, h⟩ := bind_ok.1 h
    obtain ⟨⟨i, l⟩, -, h⟩ := bind_ok.1 h
    dsimp only at h
    obtain ⟨s1, hd, h⟩ := bind_ok.1 h
    obtain ⟨w, hw, h⟩ := bind_ok.1 h
    cases h
    have hd := deleteNNstats_ok hd
    dsimp only at hd ⊢
    obtain ⟨-, d2, d3, -, d5, d6, -, d8, d9, -⟩ := hd
    obtain ⟨w1, w2⟩ := verase_ok hw
    refine ⟨d6, d8, d9, by simp, fun _ => ⟨i, ?_, ?_, d2, d3⟩⟩
    · rwa [d5] at w1
    · rw [w2, d5]

/-- The invariant of the sliding window. -/
structure Aligned (cap : Nat) (rows : List (List ℝ)) (s : SlidingState) : Prop where
  len : s.window.length = min cap rows.length
  keys : s.windowKeys.length = s.window.length
  labels : s.partitionLabels.length = s.window.length
  incr : s.windowKeys.Pairwise (· < ·)
  bound : ∀ k ∈ s.windowKeys, k < s.key
  sub : s.window.Sublist rows

theorem slidingFill_ok {cap : Nat} {row : List ℝ} {s r : SlidingState}
    (h : slidingFill cap row s = .ok r) :
    r.window = s.window ++ [row] ∧ r.windowKeys = s.windowKeys ++ [s.key] ∧
    r.partitionLabels = s.partitionLabels ++ [s.targetPartition] ∧ r.key = s.key + 1 ∧
    r.pointCounter = s.pointCounter := by
  unfold slidingFill at h
  dsimp only at h
  split_ifs at h
  · obtain ⟨⟨m, a, b⟩, -, h⟩ := bind_ok.1 h
    cases h
    exact ⟨rfl, rfl, rfl, rfl, rfl⟩
  · cases h
    exact ⟨rfl, rfl, rfl, rfl, rfl⟩

theorem Aligned.push {cap : Nat} {rows : List (List ℝ)} {s r : SlidingState} {w : List (List ℝ)}
    {ks : List Nat} {ls : List Int} {x : List ℝ} {t : Int}
    (hlen : w.length + 1 = min cap (rows.length + 1)) (hk : ks.length = w.length)
    (hl : ls.length = w.length) (hi : ks.Pairwise (· < ·)) (hb : ∀ k ∈ ks, k < s.key)
    (hs : w.Sublist rows) (h1 : r.window = w ++ [x]) (h2 : r.windowKeys = ks ++ [s.key])
    (h3 : r.partitionLabels = ls ++ [t]) (h4 : r.key = s.key + 1) :
    Aligned cap (rows ++ [x]) r where
  len := by rw [h1]; simpa using hlen
  keys := by rw [h1, h2]; simpa using hk
  labels := by rw [h1, h3]; simpa using hl
  incr := by
    rw [h2, List.pairwise_append]
    exact ⟨hi, List.pairwise_singleton _ _, fun a ha b hb' => by
      rw [List.mem_singleton] at hb'
      rw [hb']
      exact hb a ha⟩
  bound := by
    intro k hk'
    rw [h2, List.mem_append, List.mem_singleton] at hk'
    rw [h4]
    rcases hk' with hk' | rfl
    · exact Nat.lt_succ_of_lt (hb k hk')
    · exact Nat.lt_succ_self _
  sub := by rw [h1]; exact hs.append (List.Sublist.refl _)

theorem aligned_step {cap : Nat} {upd : SlidingState → Res NNStats} {rows : List (List ℝ)}
    {x : List ℝ} {s r : SlidingState} (hc : 0 < cap) (hA : Aligned cap rows s)
    (h : slidingStep cap upd s x = .ok r) : Aligned cap (rows ++ [x]) r := by
  unfold slidingStep at h
  obtain ⟨t, ht, h⟩ := bind_ok.1 h
  have key : Aligned cap (rows ++ [x]) t := by
    by_cases hlt : s.window.length < cap
    · rw [if_pos hlt] at ht
      obtain ⟨f1, f2, f3, f4, -⟩ := slidingFill_ok ht
      have := hA.len
      exact Aligned.push (s := s) (by omega) hA.keys hA.labels hA.incr hA.bound hA.sub f1 f2 f3 f4
    · rw [if_neg hlt] at ht
      obtain ⟨⟨ok, s1⟩, he, ht⟩ := bind_ok.1 ht
      have hlen := hA.len
      rw [if_neg (by omega)] at he
      obtain ⟨e1, -, -, e4, e5⟩ := nnBasedEvaluator_ok he
      cases ok with
      | false =>
        cases ht
        obtain ⟨w1, w2, w3⟩ := e4 rfl
        refine ⟨?_, ?_, ?_, ?_, ?_, ?_⟩
        · rw [w1, hlen, List.length_append, List.length_singleton]
          omega
        · rw [w1, w2, hA.keys]
        · rw [w1, w3, hA.labels]
        · rw [w2]; exact hA.incr
        · rw [w2, e1]; exact hA.bound
        · rw [w1]; exact hA.sub.trans (List.sublist_append_left _ _)
      | true =>
        obtain ⟨i, hi, w1, w2, w3⟩ := e5 rfl
        cases ht
        refine Aligned.push (s := s1) (w := s1.window) (ks := s1.windowKeys)
          (ls := s1.partitionLabels) ?_ ?_ ?_ ?_ ?_ ?_ rfl rfl rfl rfl
        · rw [w1, List.length_eraseIdx_of_lt hi]
          omega
        · rw [w1, w2, List.length_eraseIdx_of_lt hi, List.length_eraseIdx_of_lt (by rw [hA.keys]; exact hi),
            hA.keys]
        · rw [w1, w3, List.length_eraseIdx_of_lt hi,
            List.length_eraseIdx_of_lt (by rw [hA.labels]; exact hi), hA.labels]
        · rw [w2]
          exact hA.incr.sublist (List.eraseIdx_sublist _ _)
        · intro k hk
          rw [w2] at hk
          rw [e1]
          exact hA.bound k ((List.eraseIdx_sublist _ _).subset hk)
        · rw [w1]
          exact (List.eraseIdx_sublist _ _).trans hA.sub
  cases h
  obtain ⟨a, b, c, d, e, f⟩ := key
  split_ifs <;> exact ⟨a, b, c, d, e, f⟩

end LHF
