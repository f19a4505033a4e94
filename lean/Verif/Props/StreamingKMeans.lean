import Verif.Model.StreamingKMeans
import Verif.Lemmas.Res

/-!
Properties C48 and C49: the projection search of streamingKmeans, and its result.
-/

namespace LHF

/-- Loop invariant of `binarySearch`: the bounds bracket the projection. -/
theorem binarySearchLoop_spec {W : Type} [LinearOrder W] (sorted : List (W × Nat)) (p : W)
    (hs : sorted.Pairwise (fun a b => a.1 ≤ b.1)) (low high : Nat) (hlh : low < high)
    (hh : high < sorted.length) (hl : sorted[low].1 ≤ p) (hu : p ≤ sorted[high].1) :
    ∃ loc, ∃ h : loc + 1 < sorted.length, binarySearchLoop sorted p low high = .ok loc ∧
      loc < high ∧ sorted[loc].1 ≤ p ∧ p ≤ sorted[loc + 1].1 := by
  induction hk : high - low using Nat.strong_induction_on generalizing low high with
  | _ k ih =>
    rw [binarySearchLoop]
    by_cases hgt : high - low > 1
    · rw [dif_pos hgt]
      have hm1 : low < (high + low) / 2 := by omega
      have hm2 : (high + low) / 2 < high := by omega
      rw [List.getElem?_eq_getElem (by omega)]
      dsimp only
      rcases lt_trichotomy sorted[(high + low) / 2].1 p with h | h | h
      · rw [if_pos h.le, if_neg (not_le.2 h)]
        exact ih (high - (high + low) / 2) (by omega) _ _ hm2 hh h.le hu rfl
      · rw [if_pos h.le, if_pos h.ge]
        rw [binarySearchLoop, dif_neg (by omega)]
        refine ⟨_, by omega, rfl, hm2, h.le, ?_⟩
        rw [← h]
        exact List.pairwise_iff_getElem.1 hs _ _ _ _ (by omega)
      · rw [if_neg (not_le.2 h), if_pos h.le]
        obtain ⟨loc, hx, h1, h2, h3⟩ :=
          ih ((high + low) / 2 - low) (by omega) _ _ hm1 (by omega) hl h.le rfl
        exact ⟨loc, hx, h1, by omega, h3⟩
    · rw [dif_neg hgt]
      have : high = low + 1 := by omega
      subst this
      exact ⟨low, hh, rfl, hlh, hl, hu⟩

/-- C48: on a table in non-decreasing order, searched in its first `n` places, the search ends,
returns −1
iff the projection is at most the first entry, returns `n − 1` iff it exceeds the last one, and
otherwise returns a position whose entry is at most the projection and whose successor, still among
the first `n`, is at least the projection. The table may be longer than `n`. -/
theorem C48_bracket {W : Type} [LinearOrder W] (sorted : List (W × Nat)) (n : Nat) (p : W)
    (hs : sorted.Pairwise (fun a b => a.1 ≤ b.1)) (hn : 0 < n) (hle : n ≤ sorted.length) :
    ∃ loc : Int, binarySearch sorted n p = .ok loc ∧
      (loc = -1 ↔ p ≤ sorted[0].1) ∧
      (loc = (n : Int) - 1 ↔ sorted[n - 1].1 < p) ∧
      (loc = -1 ∨ loc = (n : Int) - 1 ∨
        ∃ k, ∃ h : k + 1 < n, loc = (k : Int) ∧ sorted[k].1 ≤ p ∧ p ≤ sorted[k + 1].1) := by
  have hmono : sorted[0].1 ≤ sorted[n - 1].1 := by
    rcases Nat.eq_zero_or_pos (n - 1) with h | h
    · simp [h]
    · exact List.pairwise_iff_getElem.1 hs _ _ _ _ h
  have hsz : szPred n = n - 1 := if_neg (by omega)
  unfold binarySearch
  rw [vget_of_lt (by omega : 0 < sorted.length)]
  change ∃ loc, (if p ≤ sorted[0].1 then _ else _) = _ ∧ _
  by_cases h0 : p ≤ sorted[0].1
  · rw [if_pos h0]
    refine ⟨-1, rfl, by simp [h0], ⟨fun h => by omega, fun h => ?_⟩, .inl rfl⟩
    exact absurd (lt_of_le_of_lt hmono h) (not_lt.2 h0)
  · rw [if_neg h0, hsz, vget_of_lt (by omega : n - 1 < sorted.length)]
    change ∃ loc, (if p > sorted[n - 1].1 then _ else _) = _ ∧ _
    by_cases h1 : p > sorted[n - 1].1
    · rw [if_pos h1]
      exact ⟨(n : Int) - 1, rfl, ⟨fun h => by omega, fun h => absurd h h0⟩, by simpa using h1,
        .inr (.inl rfl)⟩
    · rw [if_neg h1]
      have hn1 : 0 < n - 1 := by
        rcases Nat.eq_zero_or_pos (n - 1) with h | h
        · simp only [h] at h1
          exact absurd (le_of_not_gt h1) h0
        · exact h
      obtain ⟨loc, hx, he, hlt, ha, hb⟩ := binarySearchLoop_spec sorted p hs 0 (n - 1) hn1 (by omega)
        (le_of_not_ge h0) (not_lt.1 h1)
      rw [he]
      refine ⟨(loc : Int), rfl, ⟨fun h => by omega, fun h => absurd h h0⟩,
        ⟨fun h => by omega, fun h => absurd h h1⟩, .inr (.inr ⟨loc, by omega, rfl, ha, hb⟩)⟩

/-- The hypotheses of `C48_bracket` are met by a table with a repeated entry, searched in its first
four places. -/
example : (([(1, 0), (3, 1), (3, 2), (5, 3), (9, 4)] : List (Int × Nat)).Pairwise
    (fun a b => a.1 ≤ b.1)) ∧ 0 < 4 ∧ 4 ≤ 5 := by decide

/-! ### The result of streamingKmeans -/

theorem streamPoint_khat {data : List (List ℝ)} {omega : List ℝ} {draw : Nat → ℝ} {nf sz : Nat}
    {s r : StreamKM} {x : Nat} (h : streamPoint data omega draw nf sz s x = .ok r) :
    r.kHatClustered = s.kHatClustered := by
  unfold streamPoint at h
  obtain ⟨row, -, h⟩ := bind_ok.1 h
  obtain ⟨y, -, h⟩ := bind_ok.1 h
  obtain ⟨d, -, h⟩ := bind_ok.1 h
  dsimp only at h
  split_ifs at h
  · obtain ⟨p, -, h⟩ := bind_ok.1 h
    cases h
    rfl
  · obtain ⟨p, -, h⟩ := bind_ok.1 h
    cases h
    rfl

theorem streamHatStep_khat {data : List (List ℝ)} {omega : List ℝ} {draw : Nat → ℝ} {w : List ℝ}
    {sh : List (ℝ × Nat)} {s r : StreamKM} {x : Nat}
    (h : streamHatStep data omega draw w sh s x = .ok r) : r.kHatClustered = [] := by
  unfold streamHatStep at h
  obtain ⟨_, -, h⟩ := bind_ok.1 h
  obtain ⟨_, -, h⟩ := bind_ok.1 h
  obtain ⟨_, -, h⟩ := bind_ok.1 h
  obtain ⟨_, -, h⟩ := bind_ok.1 h
  obtain ⟨_, -, h⟩ := bind_ok.1 h
  obtain ⟨_, -, h⟩ := bind_ok.1 h
  cases h
  rfl

theorem streamConsolidate_khat {data : List (List ℝ)} {omega : List ℝ} {draw : Nat → ℝ}
    {s r : StreamKM} (hs : s.kHatClustered = [])
    (h : streamConsolidate data omega draw s = .ok r) : r.kHatClustered = [] := by
  unfold streamConsolidate at h
  obtain ⟨⟨t, tc⟩, -, h⟩ := bind_ok.1 h
  obtain ⟨t', -, h⟩ := bind_ok.1 h
  dsimp only at h
  split_ifs at h
  obtain ⟨_, -, h⟩ := bind_ok.1 h
  obtain ⟨_, -, h⟩ := bind_ok.1 h
  obtain ⟨s', hf, h⟩ := bind_ok.1 h
  have : s'.kHatClustered = [] := by
    refine foldlM_inv (fun s : StreamKM => s.kHatClustered = []) ?_ ?_ hf
    · exact hs
    · intro _ _ _ _ _ h
      exact streamHatStep_khat h
  cases h
  exact this

/-- C49 (violated): configured streamingKmeans does not return on any data set, for any random
numbers: every execution leaves the defined behaviour. The list the result is read from is empty
when it is read. -/
theorem C49_never_returns_violated (draw : Nat → ℝ) (data : List (List ℝ)) :
    ¬ ∃ out, streamingKmeansRun true draw data = .ok out := by
  rintro ⟨out, h⟩
  unfold streamingKmeansRun at h
  obtain ⟨row0, -, h⟩ := bind_ok.1 h
  obtain ⟨s, hs, h⟩ := bind_ok.1 h
  obtain ⟨s', hs', h⟩ := bind_ok.1 h
  obtain ⟨k, hk, h⟩ := bind_ok.1 h
  have h1 : s.kHatClustered = [] := by
    refine foldlM_inv (fun s : StreamKM => s.kHatClustered = []) rfl ?_ hs
    intro a b r _ hP hr
    unfold streamInitStep at hr
    obtain ⟨_, -, hr⟩ := bind_ok.1 hr
    obtain ⟨_, -, hr⟩ := bind_ok.1 hr
    obtain ⟨_, -, hr⟩ := bind_ok.1 hr
    obtain ⟨_, -, hr⟩ := bind_ok.1 hr
    cases hr
    exact hP
  have h2 : s'.kHatClustered = [] := by
    refine foldlM_inv (fun s : StreamKM => s.kHatClustered = []) h1 ?_ hs'
    intro a b r _ hP hr
    unfold streamStep at hr
    split_ifs at hr
    · rw [streamPoint_khat hr]
      exact hP
    · exact streamConsolidate_khat hP hr
  rw [h2] at hk
  exact absurd hk (by
    rw [List.range_succ_eq_map, List.foldlM_cons]
    intro h
    obtain ⟨_, h, -⟩ := bind_ok.1 h
    unfold streamZeroStep at h
    obtain ⟨_, h, -⟩ := bind_ok.1 h
    exact absurd (vget_ok.1 h) (by simp))

/-- C49, the case that works: a streamingKmeans object that was not configured returns the data
unchanged. -/
theorem C49_not_configured_partial (draw : Nat → ℝ) (data : List (List ℝ)) :
    streamingKmeansRun false draw data = .ok data := rfl

end LHF
