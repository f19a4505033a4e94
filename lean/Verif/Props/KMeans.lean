import Verif.Lemmas.KMeansObjective
import Mathlib.Data.Finset.Card
import Mathlib.Data.Finset.Dedup

/-! C44, C45, C63, C64: k-means. -/

namespace LHF
open Spec

/-! ### C63: the seeding -/

theorem kmSeedPicks_spec (data : List (List ℝ)) (picks : List (Nat × Bool))
    (hp : ∀ p ∈ picks, p.1 < data.length) : ∀ cents : List (List ℝ), cents.Nodup →
    (∀ x ∈ cents, x ∈ data) → ∃ r, kmSeedPicks data picks cents = .ok r ∧ r.Nodup ∧
      (∀ x ∈ r, x ∈ data) ∧ r.length ≤ cents.length + picks.length := by
  induction picks with
  | nil => intro cents h1 h2; exact ⟨cents, rfl, h1, h2, by simp⟩
  | cons p picks ih =>
    intro cents h1 h2
    obtain ⟨idx, valid⟩ := p
    have hidx : idx < data.length := hp (idx, valid) (by simp)
    rw [kmSeedPicks, vget_of_lt hidx]
    simp only
    by_cases hv : valid = true ∧ data[idx] ∉ cents
    · rw [if_pos hv]
      obtain ⟨r, h3, h4, h5, h6⟩ := ih (fun p hp' => hp p (by simp [hp'])) (cents ++ [data[idx]])
        (by rw [List.nodup_append]
            refine ⟨h1, by simp, fun a ha b hb => ?_⟩
            rw [List.mem_singleton] at hb
            subst hb
            exact fun e => hv.2 (e ▸ ha))
        (by intro x hx
            rcases List.mem_append.1 hx with h | h
            · exact h2 x h
            · rw [List.mem_singleton] at h; subst h; exact List.getElem_mem hidx)
      refine ⟨r, h3, h4, h5, ?_⟩
      simp only [List.length_append, List.length_cons, List.length_nil] at h6 ⊢
      omega
    · rw [if_neg hv]
      obtain ⟨r, h3, h4, h5, h6⟩ := ih (fun p hp' => hp p (by simp [hp'])) cents h1 h2
      exact ⟨r, h3, h4, h5, by simp only [List.length_cons]; omega⟩

theorem kmSeedFill_ok (K : Nat) (rest : List (List ℝ)) : ∀ cents : List (List ℝ), cents.Nodup →
    cents.length ≤ K → K ≤ (cents ++ rest).toFinset.card →
    ∃ r, kmSeedFill K rest cents = .ok r ∧ r.Nodup ∧ r.length = K ∧
      ∀ x ∈ r, x ∈ cents ∨ x ∈ rest := by
  induction rest with
  | nil =>
    intro cents h1 h2 h3
    rw [List.append_nil, List.toFinset_card_of_nodup h1] at h3
    exact ⟨cents, by rw [kmSeedFill, if_neg (by omega)], h1, by omega, fun x hx => Or.inl hx⟩
  | cons x rest ih =>
    intro cents h1 h2 h3
    rw [kmSeedFill]
    by_cases hlt : cents.length < K
    · rw [if_pos hlt]
      by_cases hx : x ∉ cents
      · rw [if_pos hx]
        obtain ⟨r, h4, h5, h6, h7⟩ := ih (cents ++ [x])
          (by rw [List.nodup_append]
              refine ⟨h1, by simp, fun a ha b hb => ?_⟩
              rw [List.mem_singleton] at hb
              subst hb
              exact fun e => hx (e ▸ ha))
          (by simp; omega) (by rw [List.append_assoc]; exact h3)
        refine ⟨r, h4, h5, h6, fun y hy => ?_⟩
        rcases h7 y hy with h | h
        · rcases List.mem_append.1 h with h' | h'
          · exact Or.inl h'
          · rw [List.mem_singleton] at h'; subst h'; exact Or.inr (by simp)
        · exact Or.inr (by simp [h])
      · rw [if_neg hx]
        rw [not_not] at hx
        obtain ⟨r, h4, h5, h6, h7⟩ := ih cents h1 h2 (by
          have : (cents ++ x :: rest).toFinset = (cents ++ rest).toFinset := by
            ext y; simp only [List.mem_toFinset, List.mem_append, List.mem_cons]
            constructor
            · rintro (h | rfl | h)
              · exact Or.inl h
              · exact Or.inl hx
              · exact Or.inr h
            · rintro (h | h)
              · exact Or.inl h
              · exact Or.inr (Or.inr h)
          rwa [this] at h3)
        exact ⟨r, h4, h5, h6, fun y hy => (h7 y hy).imp id (fun h => by simp [h])⟩
    · rw [if_neg hlt]
      exact ⟨cents, rfl, h1, by omega, fun x hx => Or.inl hx⟩

theorem kmSeedFill_oob (K : Nat) (rest : List (List ℝ)) : ∀ cents : List (List ℝ), cents.Nodup →
    (cents ++ rest).toFinset.card < K → kmSeedFill K rest cents = .error .oob := by
  induction rest with
  | nil =>
    intro cents h1 h3
    rw [List.append_nil, List.toFinset_card_of_nodup h1] at h3
    rw [kmSeedFill, if_pos h3]
  | cons x rest ih =>
    intro cents h1 h3
    have hle : cents.length < K := by
      rw [← List.toFinset_card_of_nodup h1]
      refine lt_of_le_of_lt (Finset.card_le_card ?_) h3
      intro y hy
      simp only [List.mem_toFinset, List.mem_append] at hy ⊢
      exact Or.inl hy
    rw [kmSeedFill, if_pos hle]
    by_cases hx : x ∉ cents
    · rw [if_pos hx]
      refine ih (cents ++ [x]) ?_ (by rw [List.append_assoc]; exact h3)
      rw [List.nodup_append]
      refine ⟨h1, by simp, fun a ha b hb => ?_⟩
      rw [List.mem_singleton] at hb
      subst hb
      exact fun e => hx (e ▸ ha)
    · rw [if_neg hx]
      refine ih cents h1 (lt_of_le_of_lt (Finset.card_le_card ?_) h3)
      intro y hy
      simp only [List.mem_toFinset, List.mem_append, List.mem_cons] at hy ⊢
      exact hy.imp id Or.inr

theorem toFinset_append_of_subset (cents data : List (List ℝ)) (h : ∀ x ∈ cents, x ∈ data) :
    (cents ++ data).toFinset = data.toFinset := by
  ext y
  simp only [List.mem_toFinset, List.mem_append]
  exact ⟨fun h' => h'.elim (h y) id, Or.inr⟩

/-- C63: for every outcome of the random generators, if the data has at least `num_clusters` distinct
rows then the seeding returns `num_clusters` distinct rows of the data. -/
theorem C63_seeds (data : List (List ℝ)) (numClusters first : Nat) (picks : List (Nat × Bool))
    (hfirst : first < data.length) (hpicks : ∀ p ∈ picks, p.1 < data.length)
    (hn : picks.length + 1 = numClusters) (hdist : numClusters ≤ data.toFinset.card) :
    ∃ seeds, kmSeed data numClusters first picks = .ok seeds ∧ seeds.Nodup ∧
      seeds.length = numClusters ∧ ∀ x ∈ seeds, x ∈ data := by
  obtain ⟨r, h1, h2, h3, h4⟩ := kmSeedPicks_spec data picks hpicks [data[first]] (by simp)
    (by simp)
  obtain ⟨s, h5, h6, h7, h8⟩ := kmSeedFill_ok numClusters data r h2
    (by simp only [List.length_cons, List.length_nil] at h4; omega)
    (by rw [toFinset_append_of_subset r data h3]; exact hdist)
  refine ⟨s, ?_, h6, h7, fun x hx => (h8 x hx).elim (h3 x) id⟩
  unfold kmSeed
  rw [vget_of_lt hfirst, ok_bind, h1, ok_bind, h5]

/-- C63: with fewer distinct rows than clusters the seeding runs past the end of the data, for every
outcome of the random generators. -/
theorem C63_too_few_rows (data : List (List ℝ)) (numClusters iterations first : Nat)
    (picks : List (Nat × Bool)) (hfirst : first < data.length)
    (hpicks : ∀ p ∈ picks, p.1 < data.length) (hdist : data.toFinset.card < numClusters) :
    kmRun data numClusters iterations first picks = .error .oob := by
  obtain ⟨r, h1, h2, h3, h4⟩ := kmSeedPicks_spec data picks hpicks [data[first]] (by simp)
    (by simp)
  have h5 := kmSeedFill_oob numClusters data r h2
    (by rw [toFinset_append_of_subset r data h3]; exact hdist)
  unfold kmRun kmSeed
  rw [vget_of_lt hfirst, ok_bind, h1, ok_bind, h5]
  rfl

/-- The hypotheses of `C63_seeds` can be met. -/
example : ∃ seeds, kmSeed [[0], [1], [5]] 2 0 [(0, true)] = .ok seeds ∧ seeds.length = 2 := by
  obtain ⟨s, h1, _, h2, _⟩ := C63_seeds [[0], [1], [5]] 2 0 [(0, true)] (by simp) (by simp) rfl (by
    rw [List.toFinset_card_of_nodup (by norm_num)]; simp)
  exact ⟨s, h1, h2⟩

/-- The hypotheses of `C63_too_few_rows` can be met: three equal rows, two clusters. -/
example : kmRun [[1], [1], [1]] 2 10 0 [(1, true)] = .error .oob :=
  C63_too_few_rows _ 2 10 0 _ (by simp) (by simp) (by simp)

/-! ### C44: one round, and the result -/

/-- C44: in a round that starts from any centroids (one of which is defined, unless there is only one
row), every row but the last is labelled with the first nearest centroid, and the new centroids are
the means of the classes. -/
theorem C44_round {k K : Nat} {data : List (List ℝ)} {cents : List (List (Option ℝ))}
    (hdata : data ≠ []) (hrow : ∀ x ∈ data, x.length = k) (hcents : cents.length = K)
    (hc : ∀ c ∈ cents, c.length = k) (hd : data.length = 1 ∨ ∃ c q, CentroidAt cents c q) :
    ∃ labels cents', kmRound data K cents = .ok (labels, cents') ∧
      labels.length = data.length - 1 ∧ cents'.length = K ∧
      LabelsAreNearest k data labels cents ∧ CentroidsAreMeans k data labels cents' := by
  obtain ⟨l, c, h1, h2, h3, _, _, h6, h7⟩ := kmRound_spec hdata hrow hc hcents hd
  exact ⟨l, c, h1, h2, h3, h6, h7⟩

theorem seeds_good {k K : Nat} {data seeds : List (List ℝ)} (hrow : ∀ x ∈ data, x.length = k)
    (hlen : seeds.length = K) (hK : 0 < K) (hin : ∀ x ∈ seeds, x ∈ data) :
    KmGood k K data (seeds.map (·.map some)) := by
  refine ⟨by simpa using hlen, ?_, Or.inr ⟨0, seeds[0], ?_⟩⟩
  · intro c hc
    obtain ⟨x, hx, rfl⟩ := List.mem_map.1 hc
    simpa using hrow x (hin x hx)
  · unfold CentroidAt
    rw [List.getElem?_map, List.getElem?_eq_getElem (by omega)]
    rfl

/-- C44: the whole run, for every outcome of the random generators. The returned labels are
nearest-centroid labels for some centroids, and the returned centroids are the means of the returned
classes. -/
theorem C44_result {k : Nat} (data : List (List ℝ)) (numClusters iterations first : Nat)
    (picks : List (Nat × Bool)) (hrow : ∀ x ∈ data, x.length = k) (hfirst : first < data.length)
    (hpicks : ∀ p ∈ picks, p.1 < data.length) (hn : picks.length + 1 = numClusters)
    (hdist : numClusters ≤ data.toFinset.card) (hit : 0 < iterations) :
    ∃ cents labels prev, kmRun data numClusters iterations first picks = .ok (cents, labels) ∧
      cents.length = numClusters ∧ labels.length = data.length - 1 ∧
      prev.length = numClusters ∧
      LabelsAreNearest k data labels prev ∧ CentroidsAreMeans k data labels cents := by
  classical
  obtain ⟨seeds, h1, _, h3, h4⟩ := C63_seeds data numClusters first picks hfirst hpicks hn hdist
  have hg := seeds_good hrow h3 (by omega) h4
  have hdata : data ≠ [] := by rintro rfl; simp at hfirst
  have hrun : kmRun data numClusters iterations first picks =
      kmRounds data numClusters iterations (seeds.map (·.map some)) [] := by
    unfold kmRun; rw [h1, ok_bind]
  generalize seeds.map (·.map some) = c0 at hg hrun
  set S := kmSeq data numClusters [] c0 with hS
  have hgood := kmSeq_good (K := numClusters) hdata hrow [] hg
  have hsucc := kmSeq_succ (K := numClusters) hdata hrow [] hg
  by_cases hex : ∃ m < iterations, (S (m + 1)).1 = (S m).1
  · have hm := Nat.find_spec hex
    have hmin : ∀ i < Nat.find hex, (S (i + 1)).1 ≠ (S i).1 := fun i hi he =>
      Nat.find_min hex hi ⟨by omega, he⟩
    generalize Nat.find hex = m at hm hmin
    have := kmRounds_stops hdata hrow m [] c0 hg hmin hm.2 iterations hm.1
    refine ⟨_, _, (S m).2, hrun.trans this, (hgood _).1, ?_, (hgood _).1, ?_, ?_⟩
    · rw [← hm.2]; exact (hsucc m).2.1
    · rw [← hm.2]; exact (hsucc m).2.2.1
    · rw [← hm.2]; exact (hsucc m).2.2.2
  · push Not at hex
    have := kmRounds_runs hdata hrow iterations [] c0 hg hex
    obtain ⟨it, rfl⟩ := Nat.exists_eq_succ_of_ne_zero (by omega : iterations ≠ 0)
    exact ⟨_, _, (S it).2, hrun.trans this, (hgood _).1, (hsucc it).2.1, (hgood _).1,
      (hsucc it).2.2.1, (hsucc it).2.2.2⟩

/-- The hypotheses of `C44_round` can be met; its conclusion on three points on a line and two
centroids. -/
example : ∃ labels cents', kmRound [[0], [4], [5]] 2 [[some 0], [some 4]] = .ok (labels, cents') ∧
    labels.length = 2 ∧ LabelsAreNearest 1 [[0], [4], [5]] labels [[some 0], [some 4]] := by
  obtain ⟨l, c, h1, h2, _, h3, _⟩ := C44_round (k := 1) (K := 2) (data := [[0], [4], [5]])
    (cents := [[some 0], [some 4]]) (by simp) (by simp) (by simp) (by simp)
    (Or.inr ⟨0, [0], rfl⟩)
  exact ⟨l, c, h1, h2, h3⟩

/-! ### C45: the last point has no label -/

theorem kmClassify_labels_length {cents : List (List (Option ℝ))} (xs : List (List ℝ)) :
    ∀ st st' : KmSums, xs.foldlM (kmClassifyStep cents) st = .ok st' →
      st'.labels.length = st.labels.length + xs.length := by
  induction xs with
  | nil => intro st st' h; rw [List.foldlM_nil, pure_eq_ok] at h; cases h; simp
  | cons x xs ih =>
    intro st st' h
    rw [List.foldlM_cons, bind_ok] at h
    obtain ⟨s1, h1, h2⟩ := h
    have := ih s1 st' h2
    have hs : s1.labels.length = st.labels.length + 1 := by
      unfold kmClassifyStep at h1
      obtain ⟨c, _, h1⟩ := bind_ok.1 h1
      obtain ⟨_, _, h1⟩ := bind_ok.1 h1
      obtain ⟨_, _, h1⟩ := bind_ok.1 h1
      obtain ⟨_, _, h1⟩ := bind_ok.1 h1
      obtain ⟨_, _, h1⟩ := bind_ok.1 h1
      rw [pure_eq_ok] at h1
      cases h1
      simp
    simp only [List.length_cons]
    omega

theorem kmRound_labels_length {data : List (List ℝ)} {K : Nat} {cents cents' : List (List (Option ℝ))}
    {labels : List Nat} (h : kmRound data K cents = .ok (labels, cents')) :
    labels.length = data.length - 1 := by
  unfold kmRound at h
  obtain ⟨_, _, h⟩ := bind_ok.1 h
  obtain ⟨st, h1, h⟩ := bind_ok.1 h
  rw [pure_eq_ok] at h
  cases h
  rw [kmClassify_labels_length _ _ _ h1]
  simp

theorem kmRounds_labels_length {data : List (List ℝ)} {K : Nat} (n : Nat) :
    ∀ (cents r : List (List (Option ℝ))) (last labels : List Nat),
    kmRounds data K (n + 1) cents last = .ok (r, labels) → labels.length = data.length - 1 := by
  induction n with
  | zero =>
    intro cents r last labels h
    rw [kmRounds] at h
    split at h
    · cases h
    · next l c hl =>
      have := kmRound_labels_length hl
      split_ifs at h with he
      · cases h; rw [← he]; exact this
      · rw [kmRounds] at h; cases h; exact this
  | succ n ih =>
    intro cents r last labels h
    rw [kmRounds] at h
    split at h
    · cases h
    · next l c hl =>
      have := kmRound_labels_length hl
      split_ifs at h with he
      · cases h; rw [← he]; exact this
      · exact ih _ _ _ _ h

/-- C45 is violated on every input: whenever k-means returns after at least one round, there is one
label less than there are data rows. (No assumption on the shape of the data.) -/
theorem C45_every_point_labelled_violated (data : List (List ℝ))
    (numClusters iterations first : Nat) (picks : List (Nat × Bool)) (hit : 0 < iterations)
    {cents : List (List (Option ℝ))} {labels : List Nat}
    (h : kmRun data numClusters iterations first picks = .ok (cents, labels)) :
    labels.length + 1 = data.length := by
  unfold kmRun at h
  obtain ⟨seeds, h1, h2⟩ := bind_ok.1 h
  unfold kmSeed at h1
  obtain ⟨x, h3, _⟩ := bind_ok.1 h1
  have := (vget_isOk.1 ⟨x, h3⟩)
  obtain ⟨n, rfl⟩ := Nat.exists_eq_succ_of_ne_zero (by omega : iterations ≠ 0)
  have := kmRounds_labels_length n _ _ _ _ h2
  omega

/-- C45: what does hold: every row but the last one is labelled, and the label is the number of a
returned centroid which is defined. Missing for the property: the last row. -/
theorem C45_all_but_last_labelled_partial {k : Nat} (data : List (List ℝ))
    (numClusters iterations first : Nat) (picks : List (Nat × Bool))
    (hrow : ∀ x ∈ data, x.length = k) (hfirst : first < data.length)
    (hpicks : ∀ p ∈ picks, p.1 < data.length) (hn : picks.length + 1 = numClusters)
    (hdist : numClusters ≤ data.toFinset.card) (hit : 0 < iterations) :
    ∃ cents labels, kmRun data numClusters iterations first picks = .ok (cents, labels) ∧
      ∀ j, j + 1 < data.length → ∃ c q, labels[j]? = some c ∧ CentroidAt cents c q := by
  obtain ⟨cents, labels, prev, h1, h2, h3, h4, h5, h6⟩ :=
    C44_result data numClusters iterations first picks hrow hfirst hpicks hn hdist hit
  refine ⟨cents, labels, h1, fun j hj => ?_⟩
  have hjl : j < labels.length := by omega
  have hmem : (data[j], labels[j]) ∈ data.zip labels := by
    rw [List.mem_iff_getElem]; exact ⟨j, by simp; omega, by simp⟩
  have hl : ∀ p ∈ data.zip labels, p.2 < cents.length := by
    intro p hp; rw [h2, ← h4]; exact label_lt h5 p hp
  obtain ⟨q, hq⟩ := means_defined h6 hl _ hmem
  exact ⟨labels[j], q, List.getElem?_eq_getElem hjl, hq⟩

/-- The hypotheses of the C44 and C45 theorems about whole runs can be met. -/
example : ∃ cents labels, kmRun [[0], [4], [5]] 2 3 0 [(1, true)] = .ok (cents, labels) ∧
    labels.length = 2 := by
  obtain ⟨c, l, _, h, _, h', _⟩ := C44_result (k := 1) [[0], [4], [5]] 2 3 0 [(1, true)] (by simp)
    (by simp) (by simp) rfl (by rw [List.toFinset_card_of_nodup (by norm_num)]; simp) (by norm_num)
  exact ⟨c, l, h, h'⟩

/-! ### C64: the objective and the convergence -/

/-- C64: from one round to the next the sum of the squared distances of the labelled rows to the
centroids of their classes never increases. -/
theorem C64_objective_never_increases {k K : Nat} {data : List (List ℝ)}
    {c0 c1 c2 : List (List (Option ℝ))} {l1 l2 : List Nat}
    (hdata : data ≠ []) (hrow : ∀ x ∈ data, x.length = k) (hcents : c0.length = K)
    (hc : ∀ c ∈ c0, c.length = k) (hd : data.length = 1 ∨ ∃ c q, CentroidAt c0 c q)
    (h1 : kmRound data K c0 = .ok (l1, c1)) (h2 : kmRound data K c1 = .ok (l2, c2)) :
    sse k data l2 c2 ≤ sse k data l1 c1 := by
  have hg : KmGood k K data c0 := ⟨hcents, hc, hd⟩
  have e1 : kmSeq data K [] c0 1 = (l1, c1) := by
    simp only [kmSeq, h1, Except.toOption, Option.getD_some]
  have e2 : kmSeq data K [] c0 2 = (l2, c2) := by
    rw [kmSeq, e1]; simp only [h2, Except.toOption, Option.getD_some]
  have := kmSeq_sse hdata hrow [] hg 0
  rw [show 0 + 2 = 2 from rfl, show 0 + 1 = 1 from rfl, e1, e2] at this
  rcases this with h | ⟨h, _⟩
  · exact h.le
  · exact h

/-- C64: with a large enough limit on the number of iterations the run ends because the labels do not
change, and the result is a fixed point: the labels are nearest-centroid labels for the
returned centroids, which are the means of the returned classes. -/
theorem C64_converges {k : Nat} (data : List (List ℝ)) (numClusters first : Nat)
    (picks : List (Nat × Bool)) (hrow : ∀ x ∈ data, x.length = k) (hfirst : first < data.length)
    (hpicks : ∀ p ∈ picks, p.1 < data.length) (hn : picks.length + 1 = numClusters)
    (hdist : numClusters ≤ data.toFinset.card) :
    ∃ N cents labels,
      (∀ iterations ≥ N, kmRun data numClusters iterations first picks = .ok (cents, labels)) ∧
      LabelsAreNearest k data labels cents ∧ CentroidsAreMeans k data labels cents := by
  obtain ⟨seeds, h1, _, h3, h4⟩ := C63_seeds data numClusters first picks hfirst hpicks hn hdist
  have hg := seeds_good hrow h3 (by omega) h4
  have hdata : data ≠ [] := by rintro rfl; simp at hfirst
  obtain ⟨N, cents, labels, h5, _, h7, h8⟩ := kmRounds_converges (K := numClusters) hdata hrow hg
  refine ⟨N, cents, labels, fun n hn => ?_, h7, h8⟩
  unfold kmRun
  rw [h1, ok_bind, h5 n hn]

example : ∃ N cents labels, ∀ it ≥ N, kmRun [[0], [4], [5]] 2 it 0 [(1, true)] = .ok (cents, labels) := by
  obtain ⟨N, c, l, h, _⟩ := C64_converges (k := 1) [[0], [4], [5]] 2 0 [(1, true)] (by simp)
    (by simp) (by simp) rfl (by rw [List.toFinset_card_of_nodup (by norm_num)]; simp)
  exact ⟨N, c, l, h⟩

end LHF
