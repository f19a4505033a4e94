import Verif.Props.Preprocessed

/-! C97, C98 for the complex type `simplexArrayList`: whether the program ends, and its barcode. -/

namespace LHF
open Spec

section
variable {sys : System ℝ ℝ} {pairs : List (String × String)} {m : ArgMap} {f : String}
  {data pts : List (List ℝ)} {labels : List Nat} {kind : PreKind}

/-- The default pipeline on a packet with an unused `simplexArrayList` and nothing printed so far; there
may be no rows at all. -/
theorem array_stages_fresh (lib : Lib ℝ ℝ) (s : Settings ℝ) (hdist : lib.dist = vectorsDistance)
    (hd : 0 < s.dim) (hcol : s.collapse ≠ "true" ∧ s.collapse ≠ "1") (k : Nat) (hk : 0 < k)
    (w : Work (List ℝ) ℝ) (dm0 : List (List ℝ)) (hcx : w.complex = .array [] dm0)
    (ho : w.bettiOutput = []) (ht : w.bettiTable = []) (hdim : ∀ p ∈ w.originalData, p.length = k) :
    SameRes (fun (d : Work (List ℝ) ℝ) (r : List (Line ℝ) × List (BettiEntry ℝ)) =>
        ∃ g dm ws, d = { w with complex := .array g dm, weights := ws, bettiOutput := r.1,
                                bettiTable := w.bettiTable ++ r.2 })
      (Spec.fastKinds.foldlM (fun d k => runStages lib s k d) w)
      (arrayRun vectorsDistance lib.sort lib.mode s.eps s.dim w.originalData) := by
  by_cases hne : w.originalData = []
  swap
  · exact array_stages lib s hdist hd hcol k hk w dm0 hcx hdim hne
  obtain ⟨dm, ws0, g0, ga, gb, c1, c2, c3, c4, hS⟩ :=
    array_chain s.eps s.dim hd k hk w.originalData hdim
  obtain ⟨⟨dm', ws⟩, h1, (h2 : dm' = dm)⟩ :=
    (distMatrixPipe_weights vectorsDistance s.eps w.weights [] w.originalData).of_ok c1
  subst h2
  have hrun : arrayRun vectorsDistance lib.sort lib.mode s.eps s.dim w.originalData =
      fastPersistence lib.mode s.dim s.eps (arrayGetAllEdges lib.sort gb) [] [] := by
    unfold arrayRun
    rw [c1, ok_bind]
    dsimp only
    rw [c2, ok_bind, c3, ok_bind, if_pos hd, c4, ok_bind]
  have e1 : runStages lib s .distMatrix w =
      .ok { w with complex := .array [] dm', weights := ws } := by
    unfold runStages; rw [hcx, hdist]; dsimp only; rw [h1]; rfl
  have e2 : runStages lib s .neighGraph { w with complex := .array [] dm', weights := ws } =
      .ok { w with complex := .array g0 dm', weights := ws } := by
    unfold runStages; dsimp only; rw [c2]; rfl
  have e3 : runStages lib s .rips { w with complex := .array g0 dm', weights := ws } =
      .ok { w with complex := .array ga dm', weights := ws } := by
    unfold runStages ripsPipeArray; dsimp only
    rw [c3, ok_bind, if_neg (by rintro (h | h); exacts [hcol.1 h, hcol.2 h])]; rfl
  unfold Spec.fastKinds
  simp only [List.foldlM_cons, List.foldlM_nil]
  rw [e1, ok_bind, e2, ok_bind, e3, ok_bind, hrun]
  unfold runStages
  dsimp only
  rw [if_pos hd, c4, ok_bind, ho, ht]
  cases fastPersistence lib.mode s.dim s.eps (arrayGetAllEdges lib.sort gb) [] [] with
  | error e => rfl
  | ok r => exact ⟨gb, dm', ws, by simp⟩

theorem main_pre_array_fresh (hdist : sys.lib.dist = vectorsDistance)
    (h : StandardCommand sys pairs m "simplexArrayList" f data)
    (hk : (m.val "preprocessor", kind) ∈ preprocessors)
    (hpre : PreprocessesInto (sys.pre (setPipeline m) kind) data pts labels)
    (hcol : m.val "collapse" ≠ "true" ∧ m.val "collapse" ≠ "1")
    (hd : 0 < sys.atoi (m.val "dimensions")) (k : Nat) (hk0 : 0 < k)
    (hdim : ∀ p ∈ pts, p.length = k) :
    SameRes (fun (w : World (List ℝ) ℝ) (r : List (Line ℝ) × List (BettiEntry ℝ)) =>
        WritesBarcodeAfter [preLabel kind] sys.io f r.1 w)
      (mainProgram sys (commandLine pairs))
      (arrayRun vectorsDistance sys.lib.sort sys.lib.mode (sys.atof (m.val "epsilon"))
        (sys.atoi (m.val "dimensions")) pts) := by
  rw [main_standard sys pairs m _ f data (by decide) h, pre_packet h hk hpre, ok_bind]
  have := array_stages_fresh sys.lib ⟨sys.atof (m.val "epsilon"), sys.atoi (m.val "dimensions"),
    m.val "collapse"⟩ hdist hd hcol k hk0
    ⟨pts, data, labels, newComplex "simplexArrayList", [], [], []⟩ [] rfl rfl rfl hdim
  refine cast ?_ (this.bind (f := fun w : Work (List ℝ) ℝ => (.ok ⟨⟨[preLabel kind] ++ fastNames, true, w⟩,
        [(f ++ "_stats.csv", .stats ([preLabel kind] ++ fastNames)),
          (f ++ ".csv", .text (barcodeText sys.io w.bettiOutput))]⟩ : Res (World (List ℝ) ℝ)))
    (g := fun r => .ok r) (S := fun (w : World (List ℝ) ℝ) (r : List (Line ℝ) × List (BettiEntry ℝ)) =>
        WritesBarcodeAfter [preLabel kind] sys.io f r.1 w) ?_)
  · congr 1
    exact bind_pure _
  · rintro w r - - ⟨g, dm, ws, rfl⟩
    show _ = _
    rw [← barcodeText_eq]
    rfl

end

/-- C98 for the complex type `simplexArrayList` (with the limits of `C98_denstream_barcode_partial`,
without collapse and with `dimensions` at least 1): a program with DenStream that ends has written the
barcode of the Rips filtration of points that are the decayed means of groups of rows; the barcode is
empty if there is no group. -/
theorem C98_denstream_barcode_array_partial (sys : System ℝ ℝ) (hdist : sys.lib.dist = vectorsDistance)
    (hread : sys.lib.mode ≠ .libstdcxx)
    (pairs : List (String × String)) (m : ArgMap) (f : String) (data : List (List ℝ))
    (h : StandardCommand sys pairs m "simplexArrayList" f data)
    (hcol : m.val "collapse" ≠ "true" ∧ m.val "collapse" ≠ "1")
    (hd : 0 < sys.atoi (m.val "dimensions"))
    (k : Nat) (hk : 0 < k) (hrow : ∀ x ∈ data, x.length = k)
    (S : SortByLevel ℝ) (ab : ℝ → ℝ) (fuel : Nat) (hden : DenStreamCommand sys m S ab fuel)
    (heps : 0 < sys.atof (m.val "epsilon")) (hl : 0 < sys.atof (m.val "lambda"))
    (hn : 1000 ≤ data.length) (hdense : DenseStart k (sys.atof (m.val "epsilon")) data)
    (w : World (List ℝ) ℝ) (hw : mainProgram sys (commandLine pairs) = .ok w) :
    ∃ (centers : List (List ℝ)) (lines : List (Line ℝ)),
      DecayedMeansOfGroups k (sys.atof (m.val "lambda")) data centers ∧
      WritesBarcodeAfter ["DenStream"] sys.io f lines w ∧
      (centers = [] ∧ lines = [] ∨
        DescribesRips centers.length (rowDist k centers) (· ≤ sys.atof (m.val "epsilon"))
          (sys.atof (m.val "epsilon")) (sys.atoi (m.val "dimensions")) lines) := by
  obtain ⟨centers, h1, hlen, hpre⟩ := denStream_centers hk hrow hden heps hl hn hdense
  by_cases hne : centers = []
  · obtain ⟨⟨lines, T⟩, h4, h5⟩ :=
      (main_pre_array_fresh hdist h (denStream_kind hden.name) hpre hcol hd k hk hlen).ok_of hw
    have := C71_array_run_no_edge sys.lib.sort sys.lib.mode (sys.atof (m.val "epsilon"))
      (sys.atoi (m.val "dimensions")) hd k hk centers hlen (fun i j hij hj => by simp [hne] at hj)
    rw [if_pos hne, h4] at this
    cases this
    exact ⟨centers, [], h1, h5, Or.inl ⟨hne, rfl⟩⟩
  · obtain ⟨lines, h6, h7⟩ := barcode_of_pre_array hdist hread h (denStream_kind hden.name) hpre hcol hd k hk
      hlen hne w hw
    exact ⟨centers, lines, h1, h6, Or.inr h7⟩

/-- C98 for the complex type `simplexArrayList`: whether the program with DenStream ends is decided by the
points: it does if two of them are at most `epsilon` apart, and then it has written their barcode; it also
does if there is no point, and then it has written an empty barcode; it reads past the end of a vector if
there is a point but no such pair. -/
theorem C98_denstream_outcome_array_partial (sys : System ℝ ℝ) (hdist : sys.lib.dist = vectorsDistance)
    (hread : sys.lib.mode = .noPivot)
    (pairs : List (String × String)) (m : ArgMap) (f : String) (data : List (List ℝ))
    (h : StandardCommand sys pairs m "simplexArrayList" f data)
    (hcol : m.val "collapse" ≠ "true" ∧ m.val "collapse" ≠ "1")
    (hd : 0 < sys.atoi (m.val "dimensions"))
    (k : Nat) (hk : 0 < k) (hrow : ∀ x ∈ data, x.length = k)
    (S : SortByLevel ℝ) (ab : ℝ → ℝ) (fuel : Nat) (hden : DenStreamCommand sys m S ab fuel)
    (heps : 0 < sys.atof (m.val "epsilon")) (hl : 0 < sys.atof (m.val "lambda"))
    (hn : 1000 ≤ data.length) (hdense : DenseStart k (sys.atof (m.val "epsilon")) data) :
    ∃ centers, DecayedMeansOfGroups k (sys.atof (m.val "lambda")) data centers ∧
      ((∃ i j, i < j ∧ j < centers.length ∧ rowDist k centers i j ≤ sys.atof (m.val "epsilon")) →
        ∃ w lines, mainProgram sys (commandLine pairs) = .ok w ∧
          WritesBarcodeAfter ["DenStream"] sys.io f lines w ∧
          DescribesRips centers.length (rowDist k centers) (· ≤ sys.atof (m.val "epsilon"))
            (sys.atof (m.val "epsilon")) (sys.atoi (m.val "dimensions")) lines) ∧
      (centers = [] → ∃ w, mainProgram sys (commandLine pairs) = .ok w ∧
        WritesBarcodeAfter ["DenStream"] sys.io f [] w) ∧
      (centers ≠ [] → (∀ i j, i < j → j < centers.length →
          sys.atof (m.val "epsilon") < rowDist k centers i j) →
        mainProgram sys (commandLine pairs) = .error .oob) := by
  obtain ⟨centers, h1, hlen, hpre⟩ := denStream_centers hk hrow hden heps hl hn hdense
  have hrun := main_pre_array_fresh hdist h (denStream_kind hden.name) hpre hcol hd k hk hlen
  refine ⟨centers, h1, fun hedge => ?_, fun hnil => ?_, fun hne hfar => ?_⟩
  · obtain ⟨lines, T, h3, h4⟩ := C71_array_run_partial sys.lib.sort (sys.atof (m.val "epsilon"))
      (sys.atoi (m.val "dimensions")) hd k hk centers hlen hedge
    rw [← hread] at h3
    obtain ⟨w, h5, h6⟩ := hrun.of_ok h3
    exact ⟨w, lines, h5, h6, h4⟩
  · have := C71_array_run_no_edge sys.lib.sort sys.lib.mode (sys.atof (m.val "epsilon"))
      (sys.atoi (m.val "dimensions")) hd k hk centers hlen (fun i j hij hj => by simp [hnil] at hj)
    rw [if_pos hnil] at this
    obtain ⟨w, h5, h6⟩ := hrun.of_ok this
    exact ⟨w, h5, h6⟩
  · have := C71_array_run_no_edge sys.lib.sort sys.lib.mode (sys.atof (m.val "epsilon"))
      (sys.atoi (m.val "dimensions")) hd k hk centers hlen hfar
    rw [if_neg hne] at this
    exact hrun.error_of this

/-- C97 for the complex type `simplexArrayList`: with enough iterations, the points are the centroids of a
clustering at rest. -/
theorem C97_kmeans_at_rest_array_partial (k : Nat) (hk : 0 < k) (data : List (List ℝ))
    (hrow : ∀ x ∈ data, x.length = k) (clusters first : Nat) (picks : List (Nat × Bool))
    (hdist : clusters ≤ data.toFinset.card) :
    ∃ N, ∀ (sys : System ℝ ℝ) (pairs : List (String × String)) (m : ArgMap) (f : String),
      sys.lib.dist = vectorsDistance → sys.lib.mode ≠ .libstdcxx →
      StandardCommand sys pairs m "simplexArrayList" f data → KMeansCommand sys m data first picks →
      (m.val "collapse" ≠ "true" ∧ m.val "collapse" ≠ "1") → 0 < sys.atoi (m.val "dimensions") →
      sys.atoi (m.val "clusters") = clusters → N ≤ sys.atoi (m.val "iterations") →
      ∀ w, mainProgram sys (commandLine pairs) = .ok w →
      ∃ (cents : List (List ℝ)) (labels : List Nat) (lines : List (Line ℝ)),
        cents.length = clusters ∧ MeansOfClasses k data labels cents ∧
        LabelsAreNearest k data labels (cents.map (·.map some)) ∧
        WritesBarcodeAfter ["k-means++"] sys.io f lines w ∧
        DescribesRips cents.length (rowDist k cents) (· ≤ sys.atof (m.val "epsilon"))
          (sys.atof (m.val "epsilon")) (sys.atoi (m.val "dimensions")) lines := by
  by_cases hran : first < data.length ∧ (∀ p ∈ picks, p.1 < data.length) ∧ picks.length + 1 = clusters
  · obtain ⟨hfirst, hpicks, hn⟩ := hran
    obtain ⟨N, rows, labels, h1, h2, h3⟩ := C64_converges (k := k) data clusters first picks hrow hfirst
      hpicks hn hdist
    refine ⟨N + 1, ?_⟩
    intro sys pairs m f hd hread h hkm hcol hdim hc hN w hw
    obtain ⟨cents, labels', h4, h5⟩ := kmeans_returned (by decide) h hkm hw
    have h6 := h4
    rw [hc, h1 _ (by omega)] at h6
    cases h6
    obtain ⟨h7, h8, h9, h10, h11⟩ := kmeans_centroids hk hrow hkm.firstRow hkm.pickRows hkm.number
      (by omega) h4
    obtain ⟨lines, h12, h13⟩ := barcode_of_pre_array hd hread h (kmeans_kind hkm.name) h5 hcol hdim k hk h11
      h10 w hw
    exact ⟨cents, labels, lines, h7.trans hc, h9, h2, h12, h13⟩
  · refine ⟨0, ?_⟩
    intro sys pairs m f hd hread h hkm hcol hdim hc hN w hw
    exact absurd ⟨hkm.firstRow, hkm.pickRows, hkm.number.trans hc⟩ hran

/-- C97 for the complex type `simplexArrayList`: if k-means leaves no class empty, the program gets to its
end when two of the centroids are at most `epsilon` apart, and reads past the end of a vector when there is
no such pair. -/
theorem C97_kmeans_ends_array_partial (sys : System ℝ ℝ) (hdist : sys.lib.dist = vectorsDistance)
    (hread : sys.lib.mode = .noPivot)
    (pairs : List (String × String)) (m : ArgMap) (f : String) (data : List (List ℝ))
    (h : StandardCommand sys pairs m "simplexArrayList" f data)
    (hcol : m.val "collapse" ≠ "true" ∧ m.val "collapse" ≠ "1")
    (hd : 0 < sys.atoi (m.val "dimensions"))
    (k : Nat) (hk : 0 < k) (hrow : ∀ x ∈ data, x.length = k)
    (first : Nat) (picks : List (Nat × Bool)) (hkm : KMeansCommand sys m data first picks)
    (hit : 0 < sys.atoi (m.val "iterations")) (cents : List (List ℝ)) (labels : List Nat)
    (hrun : kmRun data (sys.atoi (m.val "clusters")) (sys.atoi (m.val "iterations")) first picks =
      .ok (cents.map (·.map some), labels)) :
    ((∃ i j, i < j ∧ j < cents.length ∧ rowDist k cents i j ≤ sys.atof (m.val "epsilon")) →
      ∃ w, mainProgram sys (commandLine pairs) = .ok w) ∧
    ((∀ i j, i < j → j < cents.length → sys.atof (m.val "epsilon") < rowDist k cents i j) →
      mainProgram sys (commandLine pairs) = .error .oob) := by
  obtain ⟨h3, h4, h5, h6, h7⟩ := kmeans_centroids hk hrow hkm.firstRow hkm.pickRows hkm.number hit hrun
  have hpre : PreprocessesInto (sys.pre (setPipeline m) .kmeans) data cents labels := by
    intro complex
    rw [hkm.run]
    unfold kmWork
    dsimp only
    rw [hrun, ok_bind]
    dsimp only
    rw [mapM_rows_map_some]
    rfl
  have hmain := main_pre_array_fresh hdist h (kmeans_kind hkm.name) hpre hcol hd k hk h7
  constructor
  · intro hedge
    obtain ⟨lines, T, h1, -⟩ := C71_array_run_partial sys.lib.sort (sys.atof (m.val "epsilon"))
      (sys.atoi (m.val "dimensions")) hd k hk cents h7 hedge
    rw [← hread] at h1
    obtain ⟨w, h8, -⟩ := hmain.of_ok h1
    exact ⟨w, h8⟩
  · intro hfar
    have := C71_array_run_no_edge sys.lib.sort sys.lib.mode (sys.atof (m.val "epsilon"))
      (sys.atoi (m.val "dimensions")) hd k hk cents h7 hfar
    rw [if_neg h6] at this
    exact hmain.error_of this

/-- The hypotheses of C97 with an array complex: three rows, two clusters, whose centroids are 0 and 2; the end iterator is read
as "not a pivot". -/
example : ∃ (sys : System ℝ ℝ) (m : ArgMap),
    sys.lib.dist = vectorsDistance ∧ sys.lib.mode = .noPivot ∧
    StandardCommand sys [("-i", "data.csv"), ("-o", "bars"), ("-pre", "kmeans++"), ("-k", "2"), ("-r", "1"),
      ("-c", "simplexArrayList")]
      m "simplexArrayList" "bars" [[((0 : Nat) : ℝ)], [((2 : Nat) : ℝ)], [((9 : Nat) : ℝ)]] ∧
    KMeansCommand sys m [[((0 : Nat) : ℝ)], [((2 : Nat) : ℝ)], [((9 : Nat) : ℝ)]] 0 [(1, true)] ∧
    0 < sys.atoi (m.val "iterations") ∧
    ∃ w, mainProgram sys (commandLine
      [("-i", "data.csv"), ("-o", "bars"), ("-pre", "kmeans++"), ("-k", "2"), ("-r", "1"),
      ("-c", "simplexArrayList")]) = .ok w := by
  let sys : System ℝ ℝ := { realSystem [] [] "00\n02\n09" with
    pre := fun _ _ => kmWork 2 1 0 [(1, true)]
    lib := ⟨.insertion _ _, .insertion _ _, .noPivot, vectorsDistance, fun _ t => .ok t, fun _ w => .ok w⟩ }
  obtain ⟨m, hm⟩ : ∃ m, parseArgs (commandLine
      [("-i", "data.csv"), ("-o", "bars"), ("-pre", "kmeans++"), ("-k", "2"), ("-r", "1"),
      ("-c", "simplexArrayList")]) = .ok m :=
    ⟨_, rfl⟩
  have hS : StandardCommand sys
      [("-i", "data.csv"), ("-o", "bars"), ("-pre", "kmeans++"), ("-k", "2"), ("-r", "1"),
      ("-c", "simplexArrayList")]
      m "simplexArrayList" "bars" [[((0 : Nat) : ℝ)], [((2 : Nat) : ℝ)], [((9 : Nat) : ℝ)]] := by
    cases hm
    exact ⟨rfl, by decide, by decide, Or.inl (by decide), by decide, by decide, by decide, by decide,
      rfl, by simp⟩
  have hc : sys.atoi (m.val "clusters") = 2 := by cases hm; decide
  have hi : sys.atoi (m.val "iterations") = 1 := by cases hm; decide
  have hd : 0 < sys.atoi (m.val "dimensions") := by cases hm; decide
  have hK : KMeansCommand sys m [[((0 : Nat) : ℝ)], [((2 : Nat) : ℝ)], [((9 : Nat) : ℝ)]] 0
      [(1, true)] := by
    refine ⟨?_, ?_, by simp, by simp, ?_⟩
    · cases hm; decide
    · rw [hc, hi]
    · rw [hc]; rfl
  refine ⟨sys, m, rfl, rfl, hS, hK, by omega, ?_⟩
  refine (C97_kmeans_ends_array_partial sys rfl rfl _ m "bars" _ hS (by cases hm; decide) hd 1 (by decide) (by simp) 0 [(1, true)] hK
    (by omega) [[0], [2]] [0, 1] (by rw [hc, hi]; exact km_example2)).1 ⟨0, 1, by decide, by decide, ?_⟩
  have h := C10_distance_is_euclidean (k := 1) [(0 : ℝ)] [(2 : ℝ)] rfl rfl
  have h' : vectorsDistance [(0 : ℝ)] [(2 : ℝ)] = .ok 2 := by
    simp [vectorsDistance, sqDistance, sqDiffs]
  rw [h'] at h
  show dist (point 1 [(0 : ℝ)]) (point 1 [(2 : ℝ)]) ≤ 5
  rw [← Except.ok.inj h]
  norm_num

/-- The hypotheses: a file of 1000 equal rows, with `-c simplexArrayList`. -/
example (S : SortByLevel ℝ) : ∃ (sys : System ℝ ℝ) (m : ArgMap),
    StandardCommand sys [("-i", "data.csv"), ("-pre", "denStream"), ("-c", "simplexArrayList")]
      m "simplexArrayList" "output.csv" (List.replicate 1000 [0]) ∧
    (m.val "collapse" ≠ "true" ∧ m.val "collapse" ≠ "1") ∧ 0 < sys.atoi (m.val "dimensions") ∧
    DenStreamCommand sys m S (fun x => |x|) 1001000 ∧ 0 < sys.atof (m.val "epsilon") ∧
    0 < sys.atof (m.val "lambda") ∧
    DenseStart 1 (sys.atof (m.val "epsilon")) (List.replicate 1000 [0]) := by
  refine ⟨{ realSystem [] [] "" with
    files := fun _ => some (fileOf ((List.replicate 1000 [['0', '0']]).map Spec.lineOf))
    inIO := ⟨fun _ => [], fun _ => .ok 0, fun _ => [], fun _ => .error .exn⟩
    pre := fun _ _ => denWork S (fun x => |x|) 5 5 1001000 }, _,
    ⟨rfl, by decide, by decide, Or.inl (by decide), by decide, by decide, by decide, by decide,
      thousand_rows, List.ne_nil_of_length_pos (by rw [List.length_replicate]; norm_num)⟩,
    by decide, ?_, ⟨by decide, rfl, fun x => le_refl _, le_refl _⟩, ?_, ?_, ?_⟩
  · show 0 < (realSystem [] [] "").atoi _
    decide
  · show (0 : ℝ) < 5; norm_num
  · show (0 : ℝ) < 5; norm_num
  · refine ⟨0, by norm_num, Finset.range 20, by simp, fun j hj => ?_⟩
    have hj : j < 20 := Finset.mem_range.1 hj
    refine ⟨by omega, ?_⟩
    show dist _ _ < (5 : ℝ)
    rw [List.getD_replicate _ (by omega), List.getD_replicate _ (by omega), dist_self]
    norm_num

end LHF
