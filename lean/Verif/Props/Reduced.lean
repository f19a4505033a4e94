import Verif.Props.Program

/-! C86–C88: the mode "reduced": one run of the pipeline for each partition and one for the centroids. -/

namespace LHF
open Spec

/-! ### The partitions -/

/-- The points of the first `n` rows that are strictly closer than `rad` to `c`, in the order of the
rows. -/
noncomputable def Spec.cloud (k : Nat) (rad : ℝ) (rows : List (List ℝ)) (n : Nat) (c : List ℝ) :
    List (List ℝ) := by
  classical exact (rows.take n).filter (fun p => dist (point k p) (point k c) < rad)

/-- What the runs over the partitions print and put in the table, one run after the other: an empty
partition is skipped; after a run, a table entry of this or an earlier run that mentions a number that
is not smaller than the size of the partition is an out-of-range read. -/
noncomputable def Spec.cloudStep (sort : SortBySecond (List Nat) ℝ) (mode : EndRead) (eps : ℝ) (dim : Nat)
    (runs : List (List (Line ℝ) × List (BettiEntry ℝ))) (c : List (List ℝ)) :
    Res (List (List (Line ℝ) × List (BettiEntry ℝ))) := do
  if c = [] then pure runs else do
    let r ← arrayRun vectorsDistance sort mode eps dim c
    if ∀ q ∈ runs ++ [r], ∀ e ∈ q.2, ∀ i ∈ e.boundary, i < c.length then pure (runs ++ [r])
    else .error .oob

/-- All runs of the mode "reduced" on a `simplexArrayList`. -/
noncomputable def Spec.cloudRuns (sort : SortBySecond (List Nat) ℝ) (mode : EndRead) (eps : ℝ) (dim : Nat)
    (clouds : List (List (List ℝ))) (centroids : List (List ℝ)) :
    Res (List (List (Line ℝ) × List (BettiEntry ℝ))) := do
  let runs ← clouds.foldlM (cloudStep sort mode eps dim) []
  if centroids = [] then pure runs else do
    let r ← arrayRun vectorsDistance sort mode eps dim centroids
    pure (runs ++ [r])

theorem convertEntry_ok_iff {W : Type _} (labels : List Nat) (e : BettiEntry W) :
    if ∀ i ∈ e.boundary, i < labels.length then ∃ e', convertEntry labels e = .ok e'
    else convertEntry labels e = .error .oob := by
  unfold convertEntry
  generalize ([] : List Nat) = acc
  generalize e.boundary = b
  induction b generalizing acc with
  | nil => simp [pure_eq_ok]
  | cons x b ih =>
    rw [List.foldlM_cons]
    by_cases hx : x < labels.length
    · rw [vget_of_lt hx, ok_bind, pure_eq_ok, ok_bind]
      simpa [hx] using ih _
    · rw [vget_error (by omega)]
      simp [hx]

/-- The relabelling of a table: the table itself, or an out-of-range read. -/
theorem mapPartitionIndexing_eq {W : Type _} (labels : List Nat) (table : List (BettiEntry W)) :
    mapPartitionIndexing labels table =
      if ∀ e ∈ table, ∀ i ∈ e.boundary, i < labels.length then .ok table else .error .oob := by
  unfold mapPartitionIndexing
  suffices ∀ (t s : List (BettiEntry W)), t.foldlM (fun seen bet => do
      let _bet ← convertEntry labels bet
      pure seen) s =
      if ∀ e ∈ t, ∀ i ∈ e.boundary, i < labels.length then .ok s else .error .oob from this _ _
  intro t
  induction t with
  | nil => intro s; simp [pure_eq_ok]
  | cons e t ih =>
    intro s
    rw [List.foldlM_cons]
    have h := convertEntry_ok_iff labels e
    by_cases he : ∀ i ∈ e.boundary, i < labels.length
    · rw [if_pos he] at h
      obtain ⟨e', h⟩ := h
      rw [h, ok_bind, pure_eq_ok, ok_bind, ih]
      by_cases ht : ∀ e ∈ t, ∀ i ∈ e.boundary, i < labels.length
      · rw [if_pos ht, if_pos (by simpa using ⟨he, ht⟩)]
      · rw [if_neg ht, if_neg (fun hh => ht (fun e he' => hh e (List.mem_cons_of_mem _ he')))]
    · rw [if_neg he] at h
      rw [h, if_neg (fun hh => he (hh e (by simp)))]
      rfl

/-- One run of the pipeline on a packet with an empty `simplexArrayList`. -/
theorem run_array (io : TextNum ℝ) (lib : Lib ℝ ℝ) (s : Settings ℝ)
    (hdist : lib.dist = vectorsDistance) (hd : 0 < s.dim)
    (hcol : s.collapse ≠ "true" ∧ s.collapse ≠ "1") (k : Nat) (hk : 0 < k) (args : ArgMap)
    (hpl : args "pipeline" = some (pipelineOf fastStages))
    (hcfg : ∀ k, configPipe k args = true)
    (f : String) (hf : args "outputFile" = some f) (hcon : f ≠ "console")
    (w : World (List ℝ) ℝ) (hc : w.packet.hasComplex = true) (dm0 : List (List ℝ))
    (hcx : w.packet.data.complex = .array [] dm0)
    (hdim : ∀ p ∈ w.packet.data.originalData, p.length = k) (hne : w.packet.data.originalData ≠ []) :
    SameRes (fun (w' : World (List ℝ) ℝ) (r : List (Line ℝ) × List (BettiEntry ℝ)) =>
        w'.packet.hasComplex = true ∧ (∃ g dm, w'.packet.data.complex = .array g dm) ∧
        w'.packet.data.bettiTable = w.packet.data.bettiTable ++ r.2 ∧
        w'.packet.stats = w.packet.stats ++ fastNames ∧
        w'.files = w.files ++ [(f ++ "_stats.csv", .stats (w.packet.stats ++ fastNames)),
          (f ++ ".csv", .text (barcodeText io r.1))])
      (runPipelineOut io (runStages lib s) args w)
      (arrayRun vectorsDistance lib.sort lib.mode s.eps s.dim w.packet.data.originalData) := by
  have hen : fastStages.filterMap (enabledStage args) = fastKinds := by
    have : ∀ s k, newPipe s (args.val "complexType") = some k → enabledStage args s = some k := by
      intro s k h
      unfold enabledStage
      rw [h, Option.filter_some, if_pos (hcfg k)]
    unfold fastStages fastKinds
    simp only [List.filterMap_cons, List.filterMap_nil]
    rw [this "distMatrix" .distMatrix (by simp [newPipe]),
      this "neighGraph" .neighGraph (by simp [newPipe]),
      this "rips" .rips (by simp [newPipe]),
      this "fastPersistence" .fastPersistence (by simp [newPipe])]
  unfold runPipelineOut
  rw [hpl]
  dsimp only
  rw [C39_runs_components_in_order _ _ _ fastStages (by decide) (by decide) hpl, hen,
    fold_wrappers _ _ _ hc, bind_assoc]
  have := array_stages lib s hdist hd hcol k hk w.packet.data dm0 hcx hdim hne
  refine cast ?_ (this.bind (f := fun d => pure ⟨w.packet.stats ++ fastKinds.map pipeType, true, d⟩ >>=
      fun p : Packet (Work (List ℝ) ℝ) => pure (⟨p, w.files ++ pipelineFiles io args p⟩ :
        World (List ℝ) ℝ))
    (g := fun r => .ok r) (S := fun (w' : World (List ℝ) ℝ) (r : List (Line ℝ) × List (BettiEntry ℝ)) =>
        w'.packet.hasComplex = true ∧ (∃ g dm, w'.packet.data.complex = .array g dm) ∧
        w'.packet.data.bettiTable = w.packet.data.bettiTable ++ r.2 ∧
        w'.packet.stats = w.packet.stats ++ fastNames ∧
        w'.files = w.files ++ [(f ++ "_stats.csv", .stats (w.packet.stats ++ fastNames)),
          (f ++ ".csv", .text (barcodeText io r.1))]) ?_)
  · congr 1
    exact bind_pure _
  · rintro d r - - ⟨g, dm, ws, rfl⟩
    rw [pure_eq_ok, ok_bind]
    refine ⟨rfl, ⟨g, dm, rfl⟩, rfl, rfl, ?_⟩
    unfold pipelineFiles
    rw [hf]
    simp only [hcon, if_false]
    rfl

theorem pointsAt_range {P : Type _} (data : List P) (n : Nat) (hn : n ≤ data.length) (p : Nat → Prop)
    [DecidablePred p] (q : P → Bool) (h : ∀ i (hi : i < data.length), p i ↔ q data[i] = true) :
    pointsAt data (indicesWhere n p) = (data.take n).filter q := by
  unfold pointsAt indicesWhere
  induction n with
  | zero => simp
  | succ n ih =>
    rw [List.range_succ, List.filter_append, List.filterMap_append, ih (by omega),
      List.take_add_one, List.filter_append, List.getElem?_eq_getElem (by omega)]
    congr 1
    by_cases hq : q data[n] = true
    · have hp := (h n (by omega)).2 hq
      simp [hp, hq, List.getElem?_eq_getElem (show n < data.length by omega)]
    · have hp : ¬ p n := fun hp => hq ((h n (by omega)).1 hp)
      simp [hp, hq]

/-- The partitions around the centroids. -/
theorem clouds_eq (k : Nat) (rad : ℝ) (centroids data : List (List ℝ)) (labels : List Nat)
    (hc : ∀ p ∈ centroids, p.length = k) (hd : ∀ p ∈ data, p.length = k)
    (hl : labels.length ≤ data.length) :
    ∃ parts, separateByRadius vectorsDistance rad centroids data labels =
        .ok (parts, centroids.map (cloud k rad data labels.length)) ∧
      parts.map List.length = (centroids.map (cloud k rad data labels.length)).map List.length := by
  classical
  have hlen : ∀ j : Nat, (pointsAt data (indicesWhere labels.length (fun i =>
      ∃ p c, data[i]? = some p ∧ centroids[j]? = some c ∧ dist (point k p) (point k c) < rad))).length =
      (indicesWhere labels.length (fun i => ∃ p c, data[i]? = some p ∧ centroids[j]? = some c ∧
        dist (point k p) (point k c) < rad)).length := by
    intro j
    unfold pointsAt
    rw [List.length_filterMap_eq_countP, List.countP_eq_length]
    intro i hi
    unfold indicesWhere at hi
    have hi := List.mem_range.1 (List.mem_filter.1 hi).1
    rw [List.getElem?_eq_getElem (by omega)]
    rfl
  have hpts : (List.range centroids.length).map (fun j => pointsAt data (indicesWhere labels.length
      (fun i => ∃ p c, data[i]? = some p ∧ centroids[j]? = some c ∧
        dist (point k p) (point k c) < rad))) = centroids.map (cloud k rad data labels.length) := by
    apply List.ext_getElem (by simp)
    intro j h1 h2
    have hj : j < centroids.length := by simpa using h1
    rw [List.getElem_map, List.getElem_map, List.getElem_range]
    unfold cloud
    apply pointsAt_range _ _ hl
    intro i hi
    rw [List.getElem?_eq_getElem hi, List.getElem?_eq_getElem hj]
    simp
  refine ⟨_, by
    rw [C07_radius_partition_exact vectorsDistance (fun p c => dist (point k p) (point k c)) rad
      centroids data labels (fun p hp c hc' => C10_distance_is_euclidean p c (hd p hp) (hc c hc')) hl,
      hpts], ?_⟩
  rw [← hpts, List.map_map, List.map_map]
  apply List.map_congr_left
  intro j _
  exact (hlen j).symm

/-- The state after the runs `runs`: the files written, and the table. -/
def Spec.AfterRuns (io : TextNum ℝ) (f : String) (stats : List String)
    (runs : List (List (Line ℝ) × List (BettiEntry ℝ))) (w : World (List ℝ) ℝ) : Prop :=
  w.files = runs.zipIdx.flatMap (fun r =>
    [(f ++ "_stats.csv", .stats (stats ++ (List.replicate (r.2 + 1) fastNames).flatten)),
      (f ++ ".csv", .text (barcodeText io r.1.1))]) ∧
  w.packet.stats = stats ++ (List.replicate runs.length fastNames).flatten ∧
  w.packet.data.bettiTable = runs.flatMap (fun r => r.2) ∧
  w.packet.hasComplex = true ∧ ∃ dm, w.packet.data.complex = .array [] dm

theorem after_run (io : TextNum ℝ) (f : String) (stats : List String)
    (runs : List (List (Line ℝ) × List (BettiEntry ℝ))) (r : List (Line ℝ) × List (BettiEntry ℝ))
    (w w' : World (List ℝ) ℝ) (hw : AfterRuns io f stats runs w)
    (h1 : w'.packet.hasComplex = true) (h2 : ∃ dm, w'.packet.data.complex = .array [] dm)
    (h3 : w'.packet.data.bettiTable = w.packet.data.bettiTable ++ r.2)
    (h4 : w'.packet.stats = w.packet.stats ++ fastNames)
    (h5 : w'.files = w.files ++ [(f ++ "_stats.csv", .stats (w.packet.stats ++ fastNames)),
          (f ++ ".csv", .text (barcodeText io r.1))]) :
    AfterRuns io f stats (runs ++ [r]) w' := by
  obtain ⟨a1, a2, a3, -, -⟩ := hw
  refine ⟨?_, ?_, ?_, h1, h2⟩
  · rw [h5, a1, a2, List.zipIdx_append, List.flatMap_append]
    simp [List.replicate_succ', List.append_assoc]
  · rw [h4, a2]
    simp [List.replicate_succ', List.append_assoc]
  · rw [h3, a3]
    simp

section
variable (io : TextNum ℝ) (lib : Lib ℝ ℝ) (s : Settings ℝ)
    (hdist : lib.dist = vectorsDistance) (hd : 0 < s.dim)
    (hcol : s.collapse ≠ "true" ∧ s.collapse ≠ "1") (k : Nat) (hk : 0 < k) (args : ArgMap)
    (hpl : args "pipeline" = some (pipelineOf fastStages))
    (hcfg : ∀ k, configPipe k args = true)
    (f : String) (hf : args "outputFile" = some f) (hcon : f ≠ "console") (strict : Bool)
include hdist hd hcol hk hpl hcfg hf hcon

/-- One run and the clearing of the complex. -/
theorem run_and_clear (stats : List String) (runs : List (List (Line ℝ) × List (BettiEntry ℝ)))
    (w : World (List ℝ) ℝ) (hw : AfterRuns io f stats runs w) (c : List (List ℝ)) (hne : c ≠ [])
    (hdim : ∀ p ∈ c, p.length = k) :
    SameRes (fun w' r => AfterRuns io f stats (runs ++ [r]) w')
      (runPipelineOut io (runStages lib s) args (w.mapWork (fun d => { d with originalData := c })) >>=
        clearComplex strict)
      (arrayRun vectorsDistance lib.sort lib.mode s.eps s.dim c) := by
  obtain ⟨a1, a2, a3, a4, dm0, a5⟩ := hw
  have := run_array io lib s hdist hd hcol k hk args hpl hcfg f hf hcon
    (w.mapWork (fun d => { d with originalData := c })) a4 dm0 a5 hdim hne
  refine cast ?_ (this.bind (f := clearComplex strict) (g := fun r => .ok r)
    (S := fun w' r => AfterRuns io f stats (runs ++ [r]) w') ?_)
  · congr 1
    exact bind_pure _
  · rintro w' r - - ⟨b1, ⟨g, dm, b2⟩, b3, b4, b5⟩
    unfold clearComplex
    rw [if_pos b1, b2]
    exact after_run io f stats runs r w _ ⟨a1, a2, a3, a4, dm0, a5⟩ b1 ⟨dm, rfl⟩ b3 b4 b5

theorem reducedStep_same (stats : List String) (runs : List (List (Line ℝ) × List (BettiEntry ℝ)))
    (w : World (List ℝ) ℝ) (merged : List (BettiEntry ℝ)) (hw : AfterRuns io f stats runs w)
    (parts : List (List Nat) × List (List (List ℝ))) (z : Nat) (hz : z < parts.2.length)
    (hlen : parts.1.map List.length = parts.2.map List.length)
    (hdim : ∀ c ∈ parts.2, ∀ p ∈ c, p.length = k) :
    SameRes (fun st r => AfterRuns io f stats r st.1)
      (reducedStep strict (runPipelineOut io (runStages lib s) args) parts (w, merged) z)
      (cloudStep lib.sort lib.mode s.eps s.dim runs parts.2[z]) := by
  have hz1 : z < parts.1.length := by
    have := congrArg List.length hlen
    simp only [List.length_map] at this
    omega
  have hzl : parts.1[z].length = parts.2[z].length := by
    have := congrArg (fun l => l[z]?) hlen
    simpa [hz, hz1] using this
  unfold reducedStep cloudStep
  rw [vget_of_lt hz, ok_bind, vget_of_lt hz1]
  by_cases hc : parts.2[z] = []
  · rw [if_neg (by simp [hc]), if_pos hc]
    exact hw
  · rw [if_pos (List.length_pos_of_ne_nil hc), if_neg hc]
    have := run_and_clear io lib s hdist hd hcol k hk args hpl hcfg f hf hcon strict stats runs w hw
      parts.2[z] hc (hdim _ (List.getElem_mem hz))
    rw [← bind_assoc]
    refine this.bind ?_
    rintro w' r - - hr
    rw [ok_bind, mapPartitionIndexing_eq, hr.2.2.1, hzl]
    by_cases hin : ∀ q ∈ runs ++ [r], ∀ e ∈ q.2, ∀ i ∈ e.boundary, i < parts.2[z].length
    · rw [if_pos hin, if_pos (by
        intro e he
        obtain ⟨q, hq, he⟩ := List.mem_flatMap.1 he
        exact hin q hq e he), ok_bind]
      obtain ⟨b1, b2, b3, b4, b5⟩ := hr
      exact ⟨b1, b2, rfl, b4, b5⟩
    · rw [if_neg hin, if_neg (by
        intro h
        exact hin (fun q hq e he => h e (List.mem_flatMap.2 ⟨q, hq, he⟩)))]
      rfl

/-- The mode "reduced" after preprocessing. -/
theorem reduced_same (w : World (List ℝ) ℝ) (dm0 : List (List ℝ)) (hw : w.files = [])
    (hcx : w.packet.data.complex = .array [] dm0) (hc : w.packet.hasComplex = true)
    (htab : w.packet.data.bettiTable = [])
    (hcd : ∀ p ∈ w.packet.data.originalData, p.length = k)
    (hfd : ∀ p ∈ w.packet.data.fullData, p.length = k) (r : ℝ)
    (hr : computeMaxRadius vectorsDistance w.packet.data.originalData w.packet.data.fullData
      w.packet.data.labels = .ok r) :
    SameRes (fun st runs => AfterRuns io f w.packet.stats runs st.1)
      (reducedRuns strict lib.dist (runPipelineOut io (runStages lib s) args) w)
      (cloudRuns lib.sort lib.mode s.eps s.dim
        (w.packet.data.originalData.map
          (cloud k (2 * r) w.packet.data.fullData w.packet.data.labels.length))
        w.packet.data.originalData) := by
  have hl : w.packet.data.labels.length ≤ w.packet.data.fullData.length := by
    by_contra hcc
    obtain ⟨⟨-, hb⟩, -⟩ := C07_max_radius _ _ _ _ _ hr
    obtain ⟨p, c, x, hp, -⟩ := hb w.packet.data.fullData.length (by omega)
    simp at hp
  obtain ⟨parts, hp, hlen⟩ := clouds_eq k (2 * r) w.packet.data.originalData w.packet.data.fullData
    w.packet.data.labels hcd hfd hl
  unfold reducedRuns cloudRuns
  dsimp only
  rw [hdist, hr, ok_bind, ← two_mul, hp, ok_bind]
  dsimp only
  have hdim : ∀ c ∈ w.packet.data.originalData.map
      (cloud k (2 * r) w.packet.data.fullData w.packet.data.labels.length), ∀ p ∈ c, p.length = k := by
    intro c hc p hp
    obtain ⟨x, -, rfl⟩ := List.mem_map.1 hc
    unfold cloud at hp
    exact hfd p (List.mem_of_mem_take (List.mem_filter.1 hp).1)
  have h0 : AfterRuns io f w.packet.stats [] w := ⟨hw, by simp, htab, hc, dm0, hcx⟩
  generalize w.packet.data.originalData.map
      (cloud k (2 * r) w.packet.data.fullData w.packet.data.labels.length) = clouds at *
  have hfold : SameRes (fun st runs => AfterRuns io f w.packet.stats runs st.1)
      ((List.range clouds.length).foldlM
        (reducedStep strict (runPipelineOut io (runStages lib s) args) (parts, clouds)) (w, []))
      (clouds.foldlM (cloudStep lib.sort lib.mode s.eps s.dim) []) := by
    suffices ∀ n, n ≤ clouds.length → SameRes (fun st runs => AfterRuns io f w.packet.stats runs st.1)
        ((List.range n).foldlM
          (reducedStep strict (runPipelineOut io (runStages lib s) args) (parts, clouds)) (w, []))
        ((clouds.take n).foldlM (cloudStep lib.sort lib.mode s.eps s.dim) []) by
      have := this clouds.length le_rfl
      rwa [List.take_length] at this
    intro n
    induction n with
    | zero => intro _; exact h0
    | succ n ih =>
      intro hn
      rw [List.range_succ, List.foldlM_append, List.take_add_one,
        List.getElem?_eq_getElem (by omega), List.foldlM_append]
      refine (ih (by omega)).bind ?_
      rintro ⟨w1, merged⟩ runs - - hr1
      simp only [List.foldlM_cons, List.foldlM_nil, Option.toList_some, bind_pure]
      exact reducedStep_same io lib s hdist hd hcol k hk args hpl hcfg f hf hcon strict
        w.packet.stats runs w1 merged hr1 (parts, clouds) n (show n < clouds.length by omega) hlen hdim
  refine hfold.bind ?_
  rintro ⟨w1, merged⟩ runs - - hr1
  by_cases hcc : w.packet.data.originalData = []
  · rw [if_neg (by simp [hcc]), if_pos hcc]
    exact hr1
  · rw [if_pos (List.length_pos_of_ne_nil hcc), if_neg hcc, ← bind_assoc]
    refine (run_and_clear io lib s hdist hd hcol k hk args hpl hcfg f hf hcon strict
      w.packet.stats runs w1 hr1 w.packet.data.originalData hcc hcd).bind ?_
    rintro w2 r2 - - h
    exact h

end

/-! ### C86 -/

/-- The command lines of C86: the mode "reduced" with the default pipeline given explicitly and the
complex type `simplexArrayList`. `p` is the packet after preprocessing: it has the complex and the empty
table of the beginning, rows of length `k`, and labels whose maximum radius is `r`. -/
structure Spec.ReducedCommand (sys : System ℝ ℝ) (pairs : List (String × String)) (m : ArgMap)
    (f : String) (data : List (List ℝ)) (p : Packet (Work (List ℝ) ℝ)) (k : Nat) (r : ℝ) : Prop where
  parsed : parseArgs (commandLine pairs) = .ok m
  mpi : m.val "mpi" ≠ "1"
  pipeline : m.val "pipeline" = "distMatrix.neighGraph.rips.fastPersistence"
  mode : m.val "mode" = "reduced"
  upscale : m.val "upscale" ≠ "true"
  complex : m.val "complexType" = "simplexArrayList"
  collapse : m.val "collapse" ≠ "true" ∧ m.val "collapse" ≠ "1"
  dimensions : 0 < sys.atoi (m.val "dimensions")
  output : m.val "outputFile" = f
  console : f ≠ "console"
  input : readCSV sys.inIO (sys.files (m.val "inputFile")) = .ok data
  rows : data ≠ []
  pre : preprocess (sys.pre (setPipeline m)) (setPipeline m) (initialPacket (setPipeline m) data) = .ok p
  pComplex : p.data.complex = .array [] [] ∧ p.data.bettiTable = []
  pRows : 0 < k ∧ (∀ q ∈ p.data.originalData, q.length = k) ∧ (∀ q ∈ p.data.fullData, q.length = k)
  radius : computeMaxRadius vectorsDistance p.data.originalData p.data.fullData p.data.labels = .ok r

/-- The names of the stages in the statistics: those before the runs, and the four of each run. -/
theorem main_reduced_array (sys : System ℝ ℝ) (hdist : sys.lib.dist = vectorsDistance)
    (pairs : List (String × String)) (m : ArgMap) (f : String) (data : List (List ℝ))
    (p : Packet (Work (List ℝ) ℝ)) (k : Nat) (r : ℝ)
    (h : ReducedCommand sys pairs m f data p k r) :
    SameRes (fun w runs => AfterRuns sys.io f p.stats runs w)
      (mainProgram sys (commandLine pairs))
      (cloudRuns sys.lib.sort sys.lib.mode (sys.atof (m.val "epsilon")) (sys.atoi (m.val "dimensions"))
        (p.data.originalData.map (cloud k (2 * r) p.data.fullData p.data.labels.length))
        p.data.originalData) := by
  have hpe : m.val "pipeline" ≠ "" := by rw [h.pipeline]; decide
  have q := C38_explicit_pipeline_kept_partial m h.mpi hpe
  have hsome : ∀ o ∈ options, ((setPipeline m) o.1).isSome :=
    fun o ho => setPipeline_isSome m _ (parse_isSome pairs m h.parsed o ho)
  have heps : ((setPipeline m) "epsilon").isSome := hsome ("epsilon", "e", "5") (by decide)
  have hdim : ((setPipeline m) "dimensions").isSome := hsome ("dimensions", "d", "1") (by decide)
  have htw : ((setPipeline m) "twist").isSome := hsome ("twist", "t", "false") (by decide)
  have hpl : ((setPipeline m) "pipeline").isSome := hsome ("pipeline", "p", "") (by decide)
  have hout : ((setPipeline m) "outputFile").isSome :=
    hsome ("outputFile", "o", "output.csv") (by decide)
  have hcfg : ∀ k, configPipe k (setPipeline m) = true := by
    intro k
    unfold configPipe
    cases k <;> simp [requiredKeys, heps, hdim, htw]
  have hpl' : (setPipeline m) "pipeline" = some (pipelineOf fastStages) :=
    some_of_val hpl (by rw [q, h.pipeline]; decide)
  have hout' : (setPipeline m) "outputFile" = some f := some_of_val hout (by rw [q, h.output])
  have hhas : p.hasComplex = true := by
    have h1 : (initialPacket (K := ℝ) (W := ℝ) (setPipeline m) data).hasComplex = true := by
      unfold initialPacket newPacket
      rw [q, h.complex]
      rfl
    have h2 := h.pre
    unfold preprocess at h2
    split at h2
    · split at h2
      · split at h2
        · unfold runPreprocessorWrapper at h2
          split at h2
          · rw [bind_ok] at h2
            obtain ⟨d, -, h2⟩ := h2
            rw [pure_eq_ok] at h2
            cases h2
            exact h1
          · rw [pure_eq_ok] at h2; cases h2; exact h1
        · rw [pure_eq_ok] at h2; cases h2; exact h1
      · rw [pure_eq_ok] at h2; cases h2; exact h1
    · rw [pure_eq_ok] at h2; cases h2; exact h1
  have e : mainProgram sys (commandLine pairs) = (reducedRuns sys.strict sys.lib.dist
      (runPipelineOut sys.io (runStages sys.lib ⟨sys.atof (m.val "epsilon"),
        sys.atoi (m.val "dimensions"), m.val "collapse"⟩) (setPipeline m)) ⟨p, []⟩ >>=
      fun r => pure r.1) := by
    unfold mainProgram
    rw [h.parsed, ok_bind]
    dsimp only
    rw [if_pos (by rw [q, h.pipeline]; decide), q "inputFile", h.input, ok_bind]
    unfold dispatch
    rw [if_pos (by exact Or.inl (List.length_pos_of_ne_nil h.rows)), if_neg (by rw [q]; exact h.upscale),
      if_pos (by rw [q]; exact h.mode)]
    unfold processReduced
    have hpre := h.pre
    unfold initialPacket at hpre
    rw [hpre, ok_bind, q "epsilon", q "dimensions", q "collapse"]
  rw [e]
  refine cast ?_ ((reduced_same sys.io sys.lib ⟨sys.atof (m.val "epsilon"),
      sys.atoi (m.val "dimensions"), m.val "collapse"⟩ hdist h.dimensions h.collapse k h.pRows.1
      (setPipeline m) hpl' hcfg f hout' h.console sys.strict ⟨p, []⟩ [] rfl h.pComplex.1 hhas
      h.pComplex.2 h.pRows.2.1 h.pRows.2.2 r h.radius).bind
    (f := fun r : World (List ℝ) ℝ × List (BettiEntry ℝ) => (.ok r.1 : Res (World (List ℝ) ℝ)))
    (g := fun r => .ok r) (S := fun w runs => AfterRuns sys.io f p.stats runs w) ?_)
  · congr 1
    exact bind_pure _
  · rintro a b - - hab
    exact hab

/-- The contents of the barcode files, in the order in which they were written. -/
def Spec.barcodeFiles {P W : Type} (f : String) (w : World P W) : List FileBody :=
  (w.files.filter (fun x => x.1 = f ++ ".csv")).map (fun x => x.2)

/-- The clouds on which the mode "reduced" runs the pipeline: around each centroid the points that are
closer than twice the maximum radius, if there are any, and then the centroids. -/
noncomputable def Spec.reducedClouds (k : Nat) (r : ℝ) (p : Packet (Work (List ℝ) ℝ)) :
    List (List (List ℝ)) := by
  classical exact (p.data.originalData.map (cloud k (2 * r) p.data.fullData p.data.labels.length) ++
    [p.data.originalData]).filter (fun c => c ≠ [])

theorem cloudRuns_ok (sort : SortBySecond (List Nat) ℝ) (mode : EndRead) (eps : ℝ) (dim : Nat)
    (clouds : List (List (List ℝ))) (runs runs' : List (List (Line ℝ) × List (BettiEntry ℝ)))
    (h : clouds.foldlM (cloudStep sort mode eps dim) runs = .ok runs') :
    ∃ new, runs' = runs ++ new ∧
      List.Forall₂ (fun c r => arrayRun vectorsDistance sort mode eps dim c = .ok r)
        (clouds.filter (fun c => c ≠ [])) new := by
  induction clouds generalizing runs with
  | nil => cases h; exact ⟨[], by simp, by simp⟩
  | cons c cs ih =>
    rw [List.foldlM_cons, bind_ok] at h
    obtain ⟨runs1, h1, h2⟩ := h
    obtain ⟨new, h3, h4⟩ := ih runs1 h2
    unfold cloudStep at h1
    by_cases hc : c = []
    · rw [if_pos hc, pure_eq_ok] at h1
      cases h1
      exact ⟨new, h3, by simpa [hc] using h4⟩
    · rw [if_neg hc, bind_ok] at h1
      obtain ⟨r, h5, h6⟩ := h1
      split at h6
      · rw [pure_eq_ok] at h6
        cases h6
        refine ⟨r :: new, by rw [h3]; simp, ?_⟩
        rw [List.filter_cons_of_pos (by simpa using hc)]
        exact .cons h5 h4
      · cases h6

theorem barcodeFiles_after (io : TextNum ℝ) (f : String) (stats : List String)
    (runs : List (List (Line ℝ) × List (BettiEntry ℝ))) (w : World (List ℝ) ℝ)
    (h : AfterRuns io f stats runs w) :
    barcodeFiles f w = runs.map (fun r => .text (barcodeText io r.1)) := by
  have hne : f ++ "_stats.csv" ≠ f ++ ".csv" := by
    intro h
    have := congrArg String.length h
    simp only [String.length_append] at this
    have h1 : "_stats.csv".length = 10 := by decide
    have h2 : ".csv".length = 4 := by decide
    omega
  unfold barcodeFiles
  rw [h.1]
  clear h
  generalize 0 = n
  induction runs generalizing n with
  | nil => rfl
  | cons r runs ih =>
    rw [List.zipIdx_cons, List.flatMap_cons, List.filter_append, List.map_append, List.map_cons, ih]
    simp [hne]

/-- C86: in the mode "reduced" on a `simplexArrayList`, if the program gets to its end (see C87), the
pipeline has been run on each non-empty partition and on the centroids, and each run has written its own
barcode: the barcodes written describe the Rips filtrations of these clouds, one each, in this order. -/
theorem C86_reduced_barcodes (sys : System ℝ ℝ) (hdist : sys.lib.dist = vectorsDistance)
    (hread : sys.lib.mode ≠ .libstdcxx)
    (pairs : List (String × String)) (m : ArgMap) (f : String) (data : List (List ℝ))
    (p : Packet (Work (List ℝ) ℝ)) (k : Nat) (r : ℝ)
    (h : ReducedCommand sys pairs m f data p k r) (w : World (List ℝ) ℝ)
    (hw : mainProgram sys (commandLine pairs) = .ok w) :
    ∃ barcodes : List (List (Line ℝ)),
      barcodeFiles f w = barcodes.map (fun lines => .text (barcodeContent sys.io lines)) ∧
      List.Forall₂ (fun c lines => DescribesRips c.length (rowDist k c)
          (· ≤ sys.atof (m.val "epsilon")) (sys.atof (m.val "epsilon"))
          (sys.atoi (m.val "dimensions")) lines)
        (reducedClouds k r p) barcodes := by
  obtain ⟨runs, h1, h2⟩ := (main_reduced_array sys hdist pairs m f data p k r h).ok_of hw
  have hruns : List.Forall₂ (fun c r => arrayRun vectorsDistance sys.lib.sort sys.lib.mode
      (sys.atof (m.val "epsilon")) (sys.atoi (m.val "dimensions")) c = .ok r)
      (reducedClouds k r p) runs := by
    unfold cloudRuns at h1
    rw [bind_ok] at h1
    obtain ⟨runs1, h3, h4⟩ := h1
    obtain ⟨new, h5, h6⟩ := cloudRuns_ok _ _ _ _ _ _ _ h3
    rw [List.nil_append] at h5
    subst h5
    unfold reducedClouds
    rw [List.filter_append]
    by_cases hc : p.data.originalData = []
    · rw [if_pos hc, pure_eq_ok] at h4
      cases h4
      simpa [hc] using h6
    · rw [if_neg hc, bind_ok] at h4
      obtain ⟨rr, h7, h8⟩ := h4
      rw [pure_eq_ok] at h8
      cases h8
      apply List.rel_append h6
      rw [List.filter_cons_of_pos (by simpa using hc)]
      exact .cons h7 .nil
  refine ⟨runs.map (fun r => r.1), ?_, ?_⟩
  · rw [barcodeFiles_after _ _ _ _ _ h2, List.map_map]
    simp only [Function.comp_def, barcodeText_eq]
  · rw [List.forall₂_map_right_iff]
    have hmem : ∀ c ∈ reducedClouds k r p, c ≠ [] ∧ ∀ q ∈ c, q.length = k := by
      intro c hc
      unfold reducedClouds at hc
      obtain ⟨h3, h4⟩ := List.mem_filter.1 hc
      refine ⟨by simpa using h4, fun q hq => ?_⟩
      rcases List.mem_append.1 h3 with h3 | h3
      · obtain ⟨x, -, rfl⟩ := List.mem_map.1 h3
        unfold cloud at hq
        exact h.pRows.2.2 q (List.mem_of_mem_take (List.mem_filter.1 hq).1)
      · rw [List.mem_singleton.1 h3] at hq
        exact h.pRows.2.1 q hq
    generalize reducedClouds k r p = clouds at hruns hmem
    clear h1 h2 hw
    induction hruns with
    | nil => exact .nil
    | @cons c rr cs rs hc _ ih =>
      refine .cons ?_ (ih (fun c hc => hmem c (List.mem_cons_of_mem _ hc)))
      obtain ⟨hne, hlen⟩ := hmem c (List.mem_cons_self ..)
      by_cases hedge : ∃ i j, i < j ∧ j < c.length ∧ rowDist k c i j ≤ sys.atof (m.val "epsilon")
      · have hcases : sys.lib.mode = .undefined ∨ sys.lib.mode = .noPivot := by
          cases hm : sys.lib.mode
          · exact Or.inl rfl
          · exact absurd hm hread
          · exact Or.inr rfl
        rcases hcases with hm | hm
        · rcases C71_array_run_or_undefined sys.lib.sort (sys.atof (m.val "epsilon"))
            (sys.atoi (m.val "dimensions")) h.dimensions k h.pRows.1 c hlen hedge with h3 | ⟨l, t, h3, h4⟩
          · rw [hm, h3] at hc; cases hc
          · rw [hm, h3] at hc; cases hc; exact h4
        · obtain ⟨l, t, h3, h4⟩ := C71_array_run_partial sys.lib.sort (sys.atof (m.val "epsilon"))
            (sys.atoi (m.val "dimensions")) h.dimensions k h.pRows.1 c hlen hedge
          rw [hm, h3] at hc; cases hc; exact h4
      · push Not at hedge
        have := C71_array_run_no_edge sys.lib.sort sys.lib.mode (sys.atof (m.val "epsilon"))
          (sys.atoi (m.val "dimensions")) h.dimensions k h.pRows.1 c hlen hedge
        rw [if_neg hne] at this
        rw [this] at hc
        cases hc

theorem forall2_append_split {A B : Type _} {R : A → B → Prop} {a b : List A} {l : List B}
    (h : List.Forall₂ R (a ++ b) l) :
    ∃ l1 l2, List.Forall₂ R a l1 ∧ List.Forall₂ R b l2 ∧ l = l1 ++ l2 := by
  induction a generalizing l with
  | nil => exact ⟨[], l, .nil, h, rfl⟩
  | cons x a ih =>
    cases h with
    | @cons _ y _ ys h1 h2 =>
      obtain ⟨l1, l2, h3, h4, rfl⟩ := ih h2
      exact ⟨y :: l1, l2, .cons h1 h3, h4, rfl⟩

/-- C86: a file of that name is left with what was written last: the barcode of the centroids. The
barcodes of the partitions are overwritten. -/
theorem C86_file_left_is_centroids (sys : System ℝ ℝ) (hdist : sys.lib.dist = vectorsDistance)
    (hread : sys.lib.mode ≠ .libstdcxx)
    (pairs : List (String × String)) (m : ArgMap) (f : String) (data : List (List ℝ))
    (p : Packet (Work (List ℝ) ℝ)) (k : Nat) (r : ℝ)
    (h : ReducedCommand sys pairs m f data p k r) (hne : p.data.originalData ≠ [])
    (w : World (List ℝ) ℝ) (hw : mainProgram sys (commandLine pairs) = .ok w) :
    ∃ lines, (barcodeFiles f w).getLast? = some (.text (barcodeContent sys.io lines)) ∧
      DescribesRips p.data.originalData.length (rowDist k p.data.originalData)
        (· ≤ sys.atof (m.val "epsilon")) (sys.atof (m.val "epsilon"))
        (sys.atoi (m.val "dimensions")) lines := by
  obtain ⟨bs, h1, h2⟩ := C86_reduced_barcodes sys hdist hread pairs m f data p k r h w hw
  unfold reducedClouds at h2
  rw [List.filter_append, List.filter_cons_of_pos (by simpa using hne), List.filter_nil] at h2
  obtain ⟨bs1, bs2, -, h4, rfl⟩ := forall2_append_split h2
  cases h4 with
  | @cons _ l _ ls h5 h6 =>
    cases h6
    exact ⟨l, by rw [h1]; simp, h5⟩

/-- C86: without a preprocessor there are no labels, so there is no partition: the program runs the
pipeline once, on all rows. -/
theorem C86_no_preprocessor_partial (sys : System ℝ ℝ) (hdist : sys.lib.dist = vectorsDistance)
    (hread : sys.lib.mode = .noPivot)
    (pairs : List (String × String)) (m : ArgMap) (f : String) (data : List (List ℝ))
    (p : Packet (Work (List ℝ) ℝ)) (k : Nat) (r : ℝ)
    (h : ReducedCommand sys pairs m f data p k r) (hpre : m.val "preprocessor" = "")
    (hedge : ∃ i j, i < j ∧ j < data.length ∧ rowDist k data i j ≤ sys.atof (m.val "epsilon")) :
    ∃ w lines, mainProgram sys (commandLine pairs) = .ok w ∧ WritesBarcode sys.io f lines w ∧
      DescribesRips data.length (rowDist k data) (· ≤ sys.atof (m.val "epsilon"))
        (sys.atof (m.val "epsilon")) (sys.atoi (m.val "dimensions")) lines := by
  have q := C38_explicit_pipeline_kept_partial m h.mpi (by rw [h.pipeline]; decide)
  have hp : p = initialPacket (setPipeline m) data := by
    have := h.pre
    unfold preprocess at this
    rw [if_neg (by rw [q, hpre]; simp), pure_eq_ok] at this
    cases this
    rfl
  have hmain := main_reduced_array sys hdist pairs m f data p k r h
  have hlen := h.pRows.2.1
  have hk := h.pRows.1
  subst hp
  obtain ⟨lines, T, h1, h2⟩ := C71_array_run_partial sys.lib.sort (sys.atof (m.val "epsilon"))
    (sys.atoi (m.val "dimensions")) h.dimensions k hk data hlen hedge
  have hruns : cloudRuns sys.lib.sort sys.lib.mode (sys.atof (m.val "epsilon"))
      (sys.atoi (m.val "dimensions")) (data.map (cloud k (2 * r) data 0)) data
      = .ok [(lines, T)] := by
    unfold cloudRuns
    have : ∀ (l : List (List ℝ)) runs, (l.map (cloud k (2 * r) data 0)).foldlM
        (cloudStep sys.lib.sort sys.lib.mode (sys.atof (m.val "epsilon"))
          (sys.atoi (m.val "dimensions"))) runs = .ok runs := by
      intro l
      induction l with
      | nil => intro runs; rfl
      | cons c l ih =>
        intro runs
        have hc : cloud k (2 * r) data 0 c = [] := by simp [cloud]
        rw [List.map_cons, List.foldlM_cons, hc]
        unfold cloudStep
        rw [if_pos rfl, pure_eq_ok, ok_bind]
        exact ih runs
    rw [this, ok_bind, if_neg h.rows, hread, h1]
    rfl
  obtain ⟨w, h3, h4⟩ := hmain.of_ok hruns
  refine ⟨w, lines, h3, ?_, h2⟩
  unfold WritesBarcode
  rw [h4.1, ← barcodeText_eq]
  rfl

theorem cloudRuns_ok_iff (sort : SortBySecond (List Nat) ℝ) (mode : EndRead) (eps : ℝ) (dim : Nat)
    (clouds : List (List (List ℝ))) (runs new : List (List (Line ℝ) × List (BettiEntry ℝ))) :
    clouds.foldlM (cloudStep sort mode eps dim) runs = .ok (runs ++ new) ↔
      List.Forall₂ (fun c r => arrayRun vectorsDistance sort mode eps dim c = .ok r)
        (clouds.filter (fun c => c ≠ [])) new ∧
      ∀ b c, (clouds.filter (fun c => c ≠ []))[b]? = some c →
        ∀ q ∈ runs ++ new.take (b + 1), ∀ e ∈ q.2, ∀ i ∈ e.boundary, i < c.length := by
  induction clouds generalizing runs new with
  | nil =>
    constructor
    · intro h
      cases h' : new with
      | nil => simp
      | cons x l =>
        rw [h', List.foldlM_nil, pure_eq_ok] at h
        have := congrArg List.length (Except.ok.inj h)
        simp at this
    · rintro ⟨h, -⟩
      cases h
      simp [pure_eq_ok]
  | cons c cs ih =>
    rw [List.foldlM_cons]
    unfold cloudStep
    by_cases hc : c = []
    · rw [if_pos hc, pure_eq_ok, ok_bind, List.filter_cons_of_neg (by simpa using hc)]
      exact ih runs new
    · rw [if_neg hc, List.filter_cons_of_pos (by simpa using hc)]
      constructor
      · intro h
        rw [bind_ok] at h
        obtain ⟨runs1, h1, h2⟩ := h
        rw [bind_ok] at h1
        obtain ⟨r, h3, h4⟩ := h1
        split at h4
        · rename_i hin
          rw [pure_eq_ok] at h4
          cases h4
          obtain ⟨new', h5, -⟩ := cloudRuns_ok _ _ _ _ _ _ _ h2
          rw [List.append_assoc] at h5
          have h6 := List.append_cancel_left h5
          rw [List.singleton_append] at h6
          subst h6
          rw [show runs ++ r :: new' = (runs ++ [r]) ++ new' by simp] at h2
          obtain ⟨h7, h8⟩ := (ih (runs ++ [r]) new').1 h2
          refine ⟨.cons h3 h7, ?_⟩
          intro b c' hb q hq
          cases b with
          | zero =>
            simp only [List.getElem?_cons_zero, Option.some.injEq] at hb
            subst hb
            simp only [zero_add, List.take_succ_cons, List.take_zero] at hq
            exact hin q hq
          | succ b =>
            rw [List.getElem?_cons_succ] at hb
            refine h8 b c' hb q ?_
            rw [List.take_succ_cons] at hq
            simpa using hq
        · cases h4
      · rintro ⟨h1, h2⟩
        cases h1 with
        | @cons _ r _ new' h3 h4 =>
          have hin : ∀ q ∈ runs ++ [r], ∀ e ∈ q.2, ∀ i ∈ e.boundary, i < c.length := by
            have := h2 0 c rfl
            simpa using this
          rw [h3, ok_bind, if_pos hin, pure_eq_ok, ok_bind]
          rw [show runs ++ r :: new' = (runs ++ [r]) ++ new' by simp]
          refine (ih (runs ++ [r]) new').2 ⟨h4, ?_⟩
          intro b c' hb q hq
          refine h2 (b + 1) c' (by simpa using hb) q ?_
          rw [List.take_succ_cons]
          simpa using hq

/-- C86: when the program gets to its end: exactly when every run is defined, and no table entry of the
run on a partition or of an earlier run mentions a number that is not smaller than the number of points
of the partition. -/
theorem C86_reduced_ends_iff (sys : System ℝ ℝ) (hdist : sys.lib.dist = vectorsDistance)
    (pairs : List (String × String)) (m : ArgMap) (f : String) (data : List (List ℝ))
    (p : Packet (Work (List ℝ) ℝ)) (k : Nat) (r : ℝ)
    (h : ReducedCommand sys pairs m f data p k r) (hne : p.data.originalData ≠ []) :
    (∃ w, mainProgram sys (commandLine pairs) = .ok w) ↔
      ∃ (runs : List (List (Line ℝ) × List (BettiEntry ℝ))),
        List.Forall₂ (fun c r => arrayRun vectorsDistance sys.lib.sort sys.lib.mode
          (sys.atof (m.val "epsilon")) (sys.atoi (m.val "dimensions")) c = .ok r)
          (reducedClouds k r p) runs ∧
        ∀ a b c run, a ≤ b → b + 1 < runs.length → (reducedClouds k r p)[b]? = some c →
          runs[a]? = some run → ∀ e ∈ run.2, ∀ i ∈ e.boundary, i < c.length := by
  have hmain := main_reduced_array sys hdist pairs m f data p k r h
  have e1 : (∃ w, mainProgram sys (commandLine pairs) = .ok w) ↔ ∃ runs,
      cloudRuns sys.lib.sort sys.lib.mode (sys.atof (m.val "epsilon")) (sys.atoi (m.val "dimensions"))
        (p.data.originalData.map (cloud k (2 * r) p.data.fullData p.data.labels.length))
        p.data.originalData = .ok runs :=
    ⟨fun ⟨w, hw⟩ => let ⟨r, hr, _⟩ := hmain.ok_of hw; ⟨r, hr⟩,
      fun ⟨w, hw⟩ => let ⟨r, hr, _⟩ := hmain.of_ok hw; ⟨r, hr⟩⟩
  rw [e1]
  unfold cloudRuns reducedClouds
  rw [List.filter_append, List.filter_cons_of_pos (by simpa using hne), List.filter_nil]
  simp only [hne, if_false]
  generalize p.data.originalData.map (cloud k (2 * r) p.data.fullData p.data.labels.length) = clouds
  constructor
  · rintro ⟨runs, h1⟩
    rw [bind_ok] at h1
    obtain ⟨runs1, h2, h3⟩ := h1
    rw [bind_ok] at h3
    obtain ⟨last, h4, h5⟩ := h3
    rw [pure_eq_ok] at h5
    cases h5
    obtain ⟨h6, h7⟩ := (cloudRuns_ok_iff _ _ _ _ clouds [] runs1).1 h2
    refine ⟨runs1 ++ [last], List.rel_append h6 (.cons h4 .nil), ?_⟩
    intro a b c run hab hb hc hrun
    have hl := h6.length_eq
    rw [List.length_append, List.length_singleton] at hb
    rw [List.getElem?_append_left (by omega)] at hc
    rw [List.getElem?_append_left (by omega)] at hrun
    refine h7 b c hc run ?_
    rw [List.nil_append]
    refine List.mem_of_getElem? (i := a) ?_
    rw [List.getElem?_take_of_lt (by omega)]
    exact hrun
  · rintro ⟨runs, h1, h2⟩
    obtain ⟨runs1, last, h3, h4, rfl⟩ := forall2_append_split h1
    cases h4 with
    | @cons _ l _ ls h5 h6 =>
      cases h6
      have hl := h3.length_eq
      have := (cloudRuns_ok_iff sys.lib.sort sys.lib.mode (sys.atof (m.val "epsilon"))
        (sys.atoi (m.val "dimensions")) clouds [] runs1).2 ⟨h3, by
          intro b c hb q hq
          rw [List.nil_append] at hq
          obtain ⟨a, ha⟩ := List.mem_iff_getElem?.1 hq
          have hab : a < b + 1 := by
            by_contra hcc
            rw [List.getElem?_take_eq_none (by omega)] at ha
            cases ha
          rw [List.getElem?_take_of_lt hab] at ha
          have hbl := (List.getElem?_eq_some_iff.1 hb).1
          refine h2 a b c q (by omega) ?_ ?_ ?_
          · rw [List.length_append, List.length_singleton]; omega
          · rw [List.getElem?_append_left hbl]; exact hb
          · rw [List.getElem?_append_left (by omega)]; exact ha⟩
      rw [List.nil_append] at this
      exact ⟨runs1 ++ [l], by rw [this, ok_bind, h5]; rfl⟩

/-! ### C87 -/

theorem runStages_tree {K W : Type} [LinearOrder W] [Ring W] (lib : Lib K W) (s : Settings W)
    (k : PipeKind) (hk : k ∈ fastKinds) (w w' : Work (List K) W)
    (hw : ∃ t dm, w.complex = .tree t dm) (h : runStages lib s k w = .ok w') :
    ∃ t dm, w'.complex = .tree t dm := by
  obtain ⟨t, dm, hw⟩ := hw
  unfold fastKinds at hk
  simp only [List.mem_cons, List.not_mem_nil, or_false] at hk
  unfold runStages at h
  rw [hw] at h
  rcases hk with rfl | rfl | rfl | rfl <;> dsimp only at h <;> rw [bind_ok] at h <;>
    obtain ⟨r, -, h⟩ := h <;> rw [pure_eq_ok] at h <;> cases h <;> exact ⟨_, _, rfl⟩

/-- The packet of a run keeps its `simplexTree`. -/
theorem run_tree {K W : Type} [LinearOrder W] [Ring W] (io : TextNum W) (lib : Lib K W)
    (s : Settings W) (args : ArgMap)
    (hpl : args "pipeline" = some (pipelineOf fastStages)) (w w' : World (List K) W)
    (hw : ∃ t dm, w.packet.data.complex = .tree t dm)
    (h : runPipelineOut io (runStages lib s) args w = .ok w') :
    ∃ t dm, w'.packet.data.complex = .tree t dm := by
  unfold runPipelineOut at h
  rw [hpl] at h
  dsimp only at h
  rw [bind_ok] at h
  obtain ⟨p, h1, h⟩ := h
  rw [pure_eq_ok] at h
  cases h
  rw [C39_runs_components_in_order _ _ _ fastStages (by decide) (by decide) hpl] at h1
  refine foldlM_inv (P := fun q : Packet (Work (List K) W) => ∃ t dm, q.data.complex = .tree t dm)
    hw ?_ h1
  intro q k q' hk hq hrun
  have hk' : k ∈ fastKinds := by
    obtain ⟨n, hn, he⟩ := List.mem_filterMap.1 hk
    unfold enabledStage at he
    have he := (Option.filter_eq_some_iff.1 he).1
    unfold fastStages at hn
    simp only [List.mem_cons, List.not_mem_nil, or_false] at hn
    rcases hn with rfl | rfl | rfl | rfl <;> simp [newPipe] at he <;> subst he <;> decide
  unfold runPipeWrapper at hrun
  rw [if_pos rfl, bind_ok] at hrun
  obtain ⟨d, h2, h3⟩ := hrun
  split at h3
  · rw [pure_eq_ok] at h3
    cases h3
    exact runStages_tree lib s k hk' q.data d hq h2
  · cases h3

/-- C87: the mode "reduced" selects the `simplexTree`, whose `clear` writes to memory it has freed
(C52): as the C++ standard has it, no command line with this mode, with anything to run on, has a
defined end. -/
theorem C87_reduced_mode_undefined_violated {K W : Type} [LinearOrder W] [Ring W]
    (sys : System K W) (hstrict : sys.strict = true) (pairs : List (String × String)) (m : ArgMap)
    (hm : parseArgs (commandLine pairs) = .ok m) (hmpi : m.val "mpi" ≠ "1")
    (hp : m.val "pipeline" = "") (hmode : m.val "mode" = "reduced")
    (data : List (List K)) (hread : readCSV sys.inIO (sys.files (m.val "inputFile")) = .ok data)
    (hne : data ≠ []) (p : Packet (Work (List K) W))
    (hpre : preprocess (sys.pre (setPipeline m)) (setPipeline m) (initialPacket (setPipeline m) data)
      = .ok p) (hpc : p.data.complex = .tree Tree.fresh []) (hpn : p.data.originalData ≠ [])
    (w : World (List K) W) : mainProgram sys (commandLine pairs) ≠ .ok w := by
  obtain ⟨q1, q2, q3, q4, q5⟩ := C38_mode_selection m hmpi hp
    ⟨"reduced", fastStages, .fill "kmeans++", .force "simplexTree", .force "false"⟩
    (by simp [modes]) hmode
  have q4 : (setPipeline m).val "upscale" = "false" := q4
  have hpl : (setPipeline m) "pipeline" = some (pipelineOf fastStages) :=
    some_of_val (setPipeline_isSome m _ (parse_isSome pairs m hm ("pipeline", "p", "") (by decide))) q1
  intro h
  unfold mainProgram at h
  rw [hm, ok_bind] at h
  dsimp only at h
  rw [if_pos (by rw [q1]; decide), q5 "inputFile" (by decide), hread, ok_bind] at h
  unfold dispatch at h
  rw [if_pos (by exact Or.inl (List.length_pos_of_ne_nil hne)), q4,
    if_neg (show "false" ≠ "true" by decide), if_pos (by rw [q5 "mode" (by decide)]; exact hmode)] at h
  unfold processReduced at h
  unfold initialPacket at hpre
  rw [hpre, ok_bind, bind_ok] at h
  obtain ⟨res, h, -⟩ := h
  unfold reducedRuns at h
  dsimp only at h
  rw [bind_ok] at h
  obtain ⟨r, -, h⟩ := h
  rw [bind_ok] at h
  obtain ⟨parts, -, h⟩ := h
  rw [bind_ok] at h
  obtain ⟨st, h1, h⟩ := h
  rw [if_pos (List.length_pos_of_ne_nil hpn), bind_ok] at h
  obtain ⟨w1, h2, h⟩ := h
  rw [bind_ok] at h
  obtain ⟨w2, h3, h⟩ := h
  have hclear : ∀ a b : World (List K) W, (∃ t dm, a.packet.data.complex = .tree t dm) →
      clearComplex sys.strict a ≠ .ok b := by
    rintro a b ⟨t, dm, ha⟩ hab
    unfold clearComplex at hab
    split at hab
    · rw [ha] at hab
      dsimp only at hab
      obtain ⟨e, he, -⟩ := C52_clear_undefined t
      rw [hstrict, he] at hab
      cases hab
    · cases hab
  have hst : ∃ t dm, st.1.packet.data.complex = .tree t dm := by
    refine foldlM_inv (P := fun st : World (List K) W × List (BettiEntry W) =>
      ∃ t dm, st.1.packet.data.complex = .tree t dm) ⟨_, _, hpc⟩ ?_ h1
    intro a z b _ ha hab
    unfold reducedStep at hab
    rw [bind_ok] at hab
    obtain ⟨pts, -, hab⟩ := hab
    split at hab
    · rw [bind_ok] at hab
      obtain ⟨a1, h4, hab⟩ := hab
      rw [bind_ok] at hab
      obtain ⟨a2, h5, -⟩ := hab
      exact absurd h5 (hclear _ _ (run_tree _ _ _ _ hpl _ _ (by exact ha) h4))
    · rw [pure_eq_ok] at hab
      cases hab
      exact ha
  exact hclear _ _ (run_tree _ _ _ _ hpl _ _ (by exact hst) h2) h3

/-- A system for the examples: integers, points on a line, numbers written in unary, a preprocessor that
returns the given centroids and labels. -/
def Spec.lineSystem (cents : List (List Int)) (labels : List Nat) (text : String) : System Int Int where
  files _ := some text.toList
  io := ⟨fun n => List.replicate n.toNat '1', fun _ => .error .exn, fun n => List.replicate n '1',
    fun _ => .error .exn⟩
  inIO := ⟨fun _ => [], fun s => .ok (s.foldl (fun n c => 10 * n + ((c.toNat : Int) - 48)) 0),
    fun _ => [], fun _ => .error .exn⟩
  atof _ := 500
  atoi _ := 1
  strict := false
  lib := ⟨.insertion _ _, .insertion _ _, .undefined,
    fun p q => match p, q with | [x], [y] => .ok |x - y| | _, _ => .error .oob,
    fun _ t => .ok t, fun _ w => .ok w⟩
  pre _ _ w := .ok { w with originalData := cents, labels := labels }

/-- C87: even if the write to freed memory is harmless, the second run on a `simplexTree` does not sort
its simplices: the barcode written for the partition 200, 206, 202 has the deaths 6 and 2. The pipeline
by itself gives 2 and 4 for these points. (The labels are those that k-means returns: the last row has
none.) -/
theorem C87_second_run_wrong_violated :
    let sys := lineSystem [[11], [203]] [0, 0, 1, 1, 1] "10\n12\n200\n206\n202\n201"
    ((mainProgram sys ["-m", "reduced"]).toOption.map (fun w => barcodeFiles "output.csv" w)
      = some [.text (barcodeText sys.io [(0, 0, 2), (0, 0, 500)]),
        .text (barcodeText sys.io [(0, 0, 6), (0, 0, 2), (0, 0, 500)]),
        .text (barcodeText sys.io [(0, 0, 192), (0, 0, 500)])]) ∧
    ((treeRun sys.lib.dist sys.lib.sort sys.lib.mode 500 1 [[200], [206], [202]]).toOption.map
      (fun r => r.1) = some [(0, 0, 2), (0, 0, 4), (0, 0, 500)]) := by
  decide +kernel

/-- C87: the relabelling after a run goes over the table of all runs so far: after a partition of three
points the run on a partition of two reads past the end of its list of labels, although every run by
itself is defined. -/
theorem C87_table_of_earlier_runs_violated :
    let sys := lineSystem [[12], [201]] [0, 0, 0, 1, 1] "10\n14\n12\n200\n202\n200"
    (mainProgram sys ["-m", "reduced", "-p", "distMatrix.neighGraph.rips.fastPersistence",
      "-c", "simplexArrayList", "-pre", "kmeans++"] matches .error .oob) ∧
    (∀ c ∈ [[[10], [14], [12]], [[200], [202]], [[12], [201]]],
      (arrayRun sys.lib.dist sys.lib.sort sys.lib.mode 500 1 c).isOk) := by
  decide +kernel

/-! ### C88 -/

/-- What k-means leaves in the packet. -/
theorem kmeans_packet (sys : System ℝ ℝ) (pairs : List (String × String)) (m : ArgMap) (f : String)
    (data : List (List ℝ)) (p : Packet (Work (List ℝ) ℝ)) (k : Nat) (r : ℝ)
    (h : ReducedCommand sys pairs m f data p k r)
    (hname : m.val "preprocessor" ∈ ["kmeansplusplus", "kmeans++", "kmeans"])
    (numClusters iterations first : Nat) (picks : List (Nat × Bool)) (hit : 0 < iterations)
    (hpre : sys.pre (setPipeline m) .kmeans = kmWork numClusters iterations first picks) :
    p.data.fullData = data ∧ p.data.labels.length + 1 = data.length := by
  have q := C38_explicit_pipeline_kept_partial m h.mpi (by rw [h.pipeline]; decide)
  have hsome : ∀ o ∈ options, ((setPipeline m) o.1).isSome :=
    fun o ho => setPipeline_isSome m _ (parse_isSome pairs m h.parsed o ho)
  have hcl : ((setPipeline m) "clusters").isSome := hsome ("clusters", "k", "20") (by decide)
  have hitr : ((setPipeline m) "iterations").isSome := hsome ("iterations", "r", "250") (by decide)
  have hnew : newPreprocessor (m.val "preprocessor") = some .kmeans := by
    simp only [List.mem_cons, List.not_mem_nil, or_false] at hname
    rcases hname with h | h | h <;> rw [h] <;> decide
  have hcfg : configPreprocessor .kmeans (setPipeline m) = true := by
    simp [configPreprocessor, preRequiredKeys, hcl, hitr]
  have h1 := h.pre
  unfold preprocess at h1
  rw [if_pos (by
    rw [q]
    simp only [List.mem_cons, List.not_mem_nil, or_false] at hname
    rcases hname with h | h | h <;> rw [h] <;> decide), q, hnew] at h1
  dsimp only at h1
  rw [if_pos hcfg] at h1
  unfold runPreprocessorWrapper preConfigured at h1
  dsimp only at h1
  rw [if_pos rfl, bind_ok, hpre] at h1
  obtain ⟨d, h2, h3⟩ := h1
  rw [pure_eq_ok] at h3
  cases h3
  unfold kmWork at h2
  rw [bind_ok] at h2
  obtain ⟨res, h4, h5⟩ := h2
  split at h5
  · rw [pure_eq_ok] at h5
    cases h5
    exact ⟨rfl, C45_every_point_labelled_violated data _ _ _ _ hit h4⟩
  · cases h5

/-- In the mode "reduced" with k-means, the last row of the input is in no partition: each
partition is made of other rows. -/
theorem clouds_without_last_row (sys : System ℝ ℝ) (pairs : List (String × String))
    (m : ArgMap) (f : String) (data : List (List ℝ)) (p : Packet (Work (List ℝ) ℝ)) (k : Nat) (r : ℝ)
    (h : ReducedCommand sys pairs m f data p k r)
    (hname : m.val "preprocessor" ∈ ["kmeansplusplus", "kmeans++", "kmeans"])
    (numClusters iterations first : Nat) (picks : List (Nat × Bool)) (hit : 0 < iterations)
    (hpre : sys.pre (setPipeline m) .kmeans = kmWork numClusters iterations first picks) :
    ∀ c ∈ reducedClouds k r p, c = p.data.originalData ∨ c.Sublist data.dropLast := by
  obtain ⟨h1, h2⟩ := kmeans_packet sys pairs m f data p k r h hname numClusters iterations first picks
    hit hpre
  intro c hc
  unfold reducedClouds at hc
  rcases List.mem_append.1 (List.mem_filter.1 hc).1 with h3 | h3
  · obtain ⟨x, -, rfl⟩ := List.mem_map.1 h3
    refine Or.inr ?_
    unfold cloud
    rw [h1, List.dropLast_eq_take, show data.length - 1 = p.data.labels.length by omega]
    exact List.filter_sublist
  · exact Or.inl (List.mem_singleton.1 h3)

/-- If the points are not all on their centroids, every
other row is in one of the partitions, and so in one of the clouds on which the pipeline is run. -/
theorem clouds_with_other_rows (sys : System ℝ ℝ) (pairs : List (String × String))
    (m : ArgMap) (f : String) (data : List (List ℝ)) (p : Packet (Work (List ℝ) ℝ)) (k : Nat) (r : ℝ)
    (h : ReducedCommand sys pairs m f data p k r) (hr : 0 < r)
    (hname : m.val "preprocessor" ∈ ["kmeansplusplus", "kmeans++", "kmeans"])
    (numClusters iterations first : Nat) (picks : List (Nat × Bool)) (hit : 0 < iterations)
    (hpre : sys.pre (setPipeline m) .kmeans = kmWork numClusters iterations first picks) :
    ∀ x ∈ data.dropLast, ∃ c ∈ reducedClouds k r p, x ∈ c ∧
      ∃ y ∈ p.data.originalData, ∀ z ∈ c, dist (point k z) (point k y) < 2 * r := by
  obtain ⟨h1, h2⟩ := kmeans_packet sys pairs m f data p k r h hname numClusters iterations first picks
    hit hpre
  intro x hx
  obtain ⟨i, hi, rfl⟩ := List.mem_iff_getElem.1 hx
  rw [List.length_dropLast] at hi
  obtain ⟨⟨-, hb⟩, -⟩ := C07_max_radius _ _ _ _ _ h.radius
  obtain ⟨q, y, d, hq, hy, hd, hle⟩ := hb i (by omega)
  have hy' := List.mem_of_getElem? hy
  have hq' := List.mem_of_getElem? hq
  rw [C10_distance_is_euclidean q y (h.pRows.2.2 q hq') (h.pRows.2.1 y hy')] at hd
  cases hd
  rw [h1, List.getElem?_eq_getElem (by omega), Option.some.injEq] at hq
  have hmem : q ∈ cloud k (2 * r) p.data.fullData p.data.labels.length y := by
    unfold cloud
    rw [List.mem_filter]
    refine ⟨?_, by simpa using lt_of_le_of_lt hle (by linarith)⟩
    rw [List.mem_take_iff_getElem]
    exact ⟨i, by rw [h1]; omega, by simpa [h1] using hq⟩
  refine ⟨cloud k (2 * r) p.data.fullData p.data.labels.length y, ?_, ?_, y, hy', ?_⟩
  · unfold reducedClouds
    rw [List.mem_filter]
    refine ⟨List.mem_append_left _ (List.mem_map_of_mem hy'), ?_⟩
    simpa using List.ne_nil_of_mem hmem
  · rw [List.getElem_dropLast, hq]
    exact hmem
  · intro z hz
    unfold cloud at hz
    simpa using (List.mem_filter.1 hz).2

/-- C88: in the mode "reduced" with k-means, a program that gets to its end has written one barcode for each
of several clouds of points, and the last row of the input is in none of them, except perhaps the cloud of the
centroids: each other cloud is made of other rows. -/
theorem C88_last_row_in_no_partition_violated (sys : System ℝ ℝ) (hdist : sys.lib.dist = vectorsDistance)
    (hread : sys.lib.mode ≠ .libstdcxx) (pairs : List (String × String))
    (m : ArgMap) (f : String) (data : List (List ℝ)) (p : Packet (Work (List ℝ) ℝ)) (k : Nat) (r : ℝ)
    (h : ReducedCommand sys pairs m f data p k r)
    (hname : m.val "preprocessor" ∈ ["kmeansplusplus", "kmeans++", "kmeans"])
    (numClusters iterations first : Nat) (picks : List (Nat × Bool)) (hit : 0 < iterations)
    (hpre : sys.pre (setPipeline m) .kmeans = kmWork numClusters iterations first picks)
    (w : World (List ℝ) ℝ) (hw : mainProgram sys (commandLine pairs) = .ok w) :
    ∃ (clouds : List (List (List ℝ))) (barcodes : List (List (Line ℝ))),
      barcodeFiles f w = barcodes.map (fun lines => .text (barcodeContent sys.io lines)) ∧
      List.Forall₂ (fun c lines => DescribesRips c.length (rowDist k c)
          (· ≤ sys.atof (m.val "epsilon")) (sys.atof (m.val "epsilon"))
          (sys.atoi (m.val "dimensions")) lines) clouds barcodes ∧
      ∀ c ∈ clouds, c = p.data.originalData ∨ c.Sublist data.dropLast := by
  obtain ⟨bs, h1, h2⟩ := C86_reduced_barcodes sys hdist hread pairs m f data p k r h w hw
  exact ⟨_, bs, h1, h2, clouds_without_last_row sys pairs m f data p k r h hname numClusters iterations
    first picks hit hpre⟩

/-- C88 (partial: the last row is missing, see above): if the points are not all on their centroids, every
other row is in one of the clouds whose barcodes the program writes; the points of this cloud are closer than
twice the maximal radius to one of the centroids. -/
theorem C88_other_rows_kept_partial (sys : System ℝ ℝ) (hdist : sys.lib.dist = vectorsDistance)
    (hread : sys.lib.mode ≠ .libstdcxx) (pairs : List (String × String))
    (m : ArgMap) (f : String) (data : List (List ℝ)) (p : Packet (Work (List ℝ) ℝ)) (k : Nat) (r : ℝ)
    (h : ReducedCommand sys pairs m f data p k r) (hr : 0 < r)
    (hname : m.val "preprocessor" ∈ ["kmeansplusplus", "kmeans++", "kmeans"])
    (numClusters iterations first : Nat) (picks : List (Nat × Bool)) (hit : 0 < iterations)
    (hpre : sys.pre (setPipeline m) .kmeans = kmWork numClusters iterations first picks)
    (w : World (List ℝ) ℝ) (hw : mainProgram sys (commandLine pairs) = .ok w) :
    ∃ (clouds : List (List (List ℝ))) (barcodes : List (List (Line ℝ))),
      barcodeFiles f w = barcodes.map (fun lines => .text (barcodeContent sys.io lines)) ∧
      List.Forall₂ (fun c lines => DescribesRips c.length (rowDist k c)
          (· ≤ sys.atof (m.val "epsilon")) (sys.atof (m.val "epsilon"))
          (sys.atoi (m.val "dimensions")) lines) clouds barcodes ∧
      ∀ x ∈ data.dropLast, ∃ c ∈ clouds, x ∈ c ∧
        ∃ y ∈ p.data.originalData, ∀ z ∈ c, dist (point k z) (point k y) < 2 * r := by
  obtain ⟨bs, h1, h2⟩ := C86_reduced_barcodes sys hdist hread pairs m f data p k r h w hw
  exact ⟨_, bs, h1, h2, clouds_with_other_rows sys pairs m f data p k r h hr hname numClusters iterations
    first picks hit hpre⟩

/-! ### The hypotheses are met -/

/-- A system for the examples: the file holds natural numbers, `epsilon` is 5 and `dimensions` is 1; the
preprocessor returns the given centroids and labels. -/
noncomputable def Spec.realSystem (cents : List (List ℝ)) (labels : List Nat) (text : String) :
    System ℝ ℝ where
  files _ := some text.toList
  io := ⟨fun _ => [], fun _ => .error .exn, fun _ => [], fun _ => .error .exn⟩
  inIO := ⟨fun _ => [], fun s => .ok ((s.foldl (fun n c => 10 * n + (c.toNat - 48)) 0 : Nat) : ℝ),
    fun _ => [], fun _ => .error .exn⟩
  atof _ := 5
  atoi s := s.toList.foldl (fun n c => 10 * n + (c.toNat - 48)) 0
  strict := true
  lib := ⟨.insertion _ _, .insertion _ _, .undefined, vectorsDistance, fun _ t => .ok t, fun _ w => .ok w⟩
  pre _ _ w := .ok { w with originalData := cents, labels := labels }

example : ∃ m, PlainCommand (realSystem [] [] "00\n03\n09") [("-i", "data.csv"), ("-o", "bars")] m
    "simplexTree" "bars" [[((0 : Nat) : ℝ)], [((3 : Nat) : ℝ)], [((9 : Nat) : ℝ)]] :=
  ⟨_, rfl, by decide, by decide, Or.inl (by decide), by decide, by decide, by decide, by decide,
    by decide, rfl, by simp⟩

example : ∃ m, PlainCommand (realSystem [] [] "00\n03\n09")
    [("-i", "data.csv"), ("-o", "bars"), ("-c", "simplexArrayList")] m
    "simplexArrayList" "bars" [[((0 : Nat) : ℝ)], [((3 : Nat) : ℝ)], [((9 : Nat) : ℝ)]] :=
  ⟨_, rfl, by decide, by decide, Or.inl (by decide), by decide, by decide, by decide, by decide,
    by decide, rfl, by simp⟩

/-- The hypotheses of C85 for dimension 0. -/
example : ∃ m, PlainCommand (realSystem [] [] "00\n03\n09")
    [("-i", "data.csv"), ("-o", "bars"), ("-c", "simplexArrayList"), ("-d", "0")] m
    "simplexArrayList" "bars" [[((0 : Nat) : ℝ)], [((3 : Nat) : ℝ)], [((9 : Nat) : ℝ)]] ∧
    m.val "collapse" ≠ "true" ∧ m.val "collapse" ≠ "1" ∧
    (realSystem [] [] "00\n03\n09").atoi (m.val "dimensions") = 0 :=
  ⟨_, ⟨rfl, by decide, by decide, Or.inl (by decide), by decide, by decide, by decide, by decide,
    by decide, rfl, by simp⟩, by decide, by decide, by decide⟩

/-- The rows 0 and 3 are closer than 5. -/
example : rowDist 1 [[((0 : Nat) : ℝ)], [((3 : Nat) : ℝ)], [((9 : Nat) : ℝ)]] 0 1 < 5 := by
  have h := C10_distance_is_euclidean (k := 1) [((0 : Nat) : ℝ)] [((3 : Nat) : ℝ)] rfl rfl
  have h' : vectorsDistance [((0 : Nat) : ℝ)] [((3 : Nat) : ℝ)] = .ok 3 := by
    simp only [vectorsDistance, sqDistance, sqDiffs]
    norm_num
    rw [show (9 : ℝ) = 3 ^ 2 by norm_num]
    exact Real.sqrt_sq (by norm_num)
  rw [h'] at h
  show dist (point 1 [((0 : Nat) : ℝ)]) (point 1 [((3 : Nat) : ℝ)]) < 5
  rw [← Except.ok.inj h]
  norm_num

/-- The hypotheses of C86, without preprocessing. -/
example : ∃ m p, ReducedCommand (realSystem [] [] "00\n03\n09")
    [("-m", "reduced"), ("-p", "distMatrix.neighGraph.rips.fastPersistence"),
      ("-c", "simplexArrayList")] m "output.csv"
    [[((0 : Nat) : ℝ)], [((3 : Nat) : ℝ)], [((9 : Nat) : ℝ)]] p 1 0 :=
  ⟨_, _, rfl, by decide, by decide, by decide, by decide, by decide, by decide, by decide, by decide,
    by decide, rfl, by simp, rfl, ⟨rfl, rfl⟩, ⟨by decide, by simp [initialPacket, newPacket],
      by simp [initialPacket, newPacket]⟩, rfl⟩

theorem km_example : kmRun [[((0 : Nat) : ℝ)], [((2 : Nat) : ℝ)], [((1 : Nat) : ℝ)]] 1 1 0 [] =
    .ok ([[some 1]], [0, 0]) := by
  have h1 : vectorsDistance [(0 : ℝ)] [0] = .ok 0 := by simp [vectorsDistance, sqDistance, sqDiffs]
  have h2 : vectorsDistance [(2 : ℝ)] [0] = .ok 2 := by simp [vectorsDistance, sqDistance, sqDiffs]
  simp [kmRun, kmSeed, kmSeedPicks, kmSeedFill, vget, kmRounds, kmRound, kmClassifyStep, kmNearest,
    kmNearestStep, vectorsDistanceNaN, h1, h2, addRow, vmodify, kmDivide, List.range_succ, pure_eq_ok]

/-- A run with k-means: three rows, one cluster, whose mean is 1; the last row has no label. -/
example : ∃ (sys : System ℝ ℝ) (m : ArgMap) (p : Packet (Work (List ℝ) ℝ)),
    ReducedCommand sys
      [("-m", "reduced"), ("-p", "distMatrix.neighGraph.rips.fastPersistence"),
        ("-c", "simplexArrayList"), ("-pre", "kmeans")] m "output.csv"
      [[((0 : Nat) : ℝ)], [((2 : Nat) : ℝ)], [((1 : Nat) : ℝ)]] p 1 1 ∧
    m.val "preprocessor" ∈ ["kmeansplusplus", "kmeans++", "kmeans"] ∧
    sys.pre (setPipeline m) .kmeans = kmWork 1 1 0 [] := by
  have hr : computeMaxRadius vectorsDistance [[(1 : ℝ)]]
      [[((0 : Nat) : ℝ)], [((2 : Nat) : ℝ)], [((1 : Nat) : ℝ)]] [0, 0] = .ok 1 := by
    have h1 : vectorsDistance [(0 : ℝ)] [1] = .ok 1 := by
      simp [vectorsDistance, sqDistance, sqDiffs]
    have h2 : vectorsDistance [(2 : ℝ)] [1] = .ok 1 := by
      simp [vectorsDistance, sqDistance, sqDiffs]; norm_num
    simp [computeMaxRadius, vget, h1, h2, List.range_succ, pure_eq_ok]
  refine ⟨{ realSystem [] [] "00\n02\n01" with pre := fun _ _ => kmWork 1 1 0 [] }, _,
    ⟨["k-means++"], true, ⟨[[1]], [[((0 : Nat) : ℝ)], [((2 : Nat) : ℝ)], [((1 : Nat) : ℝ)]], [0, 0],
      .array [] [], [], [], []⟩⟩, ⟨rfl, by decide, by decide, by decide, by decide, by decide,
      by decide, by decide, by decide, by decide, rfl, by simp, ?_, ⟨rfl, rfl⟩,
      ⟨by decide, by simp, by simp⟩, hr⟩, by decide, rfl⟩
  have hk : kmWork 1 1 0 [] ⟨[[((0 : Nat) : ℝ)], [((2 : Nat) : ℝ)], [((1 : Nat) : ℝ)]],
      [[((0 : Nat) : ℝ)], [((2 : Nat) : ℝ)], [((1 : Nat) : ℝ)]], [], .array [] [], [], [], []⟩ =
      .ok ⟨[[1]], [[((0 : Nat) : ℝ)], [((2 : Nat) : ℝ)], [((1 : Nat) : ℝ)]], [0, 0],
        .array [] [], [], [], []⟩ := by
    unfold kmWork
    dsimp only
    rw [km_example]
    rfl
  refine Eq.trans (b := runPreprocessorWrapper true "k-means++" (kmWork 1 1 0 []) ⟨[], true,
    ⟨[[((0 : Nat) : ℝ)], [((2 : Nat) : ℝ)], [((1 : Nat) : ℝ)]],
      [[((0 : Nat) : ℝ)], [((2 : Nat) : ℝ)], [((1 : Nat) : ℝ)]], [], .array [] [], [], [], []⟩⟩) rfl ?_
  unfold runPreprocessorWrapper
  rw [if_pos rfl, hk]
  rfl

/-- The runs on a `simplexArrayList` get to the end, with the right barcodes, when the partitions grow. -/
example :
    let sys := lineSystem [[11], [203]] [0, 0, 1, 1, 1] "10\n12\n200\n206\n202\n201"
    (mainProgram sys ["-m", "reduced", "-p", "distMatrix.neighGraph.rips.fastPersistence",
      "-c", "simplexArrayList", "-pre", "kmeans++"]).toOption.map
        (fun w => barcodeFiles "output.csv" w)
      = some [.text (barcodeText sys.io [(0, 0, 2), (0, 0, 500)]),
        .text (barcodeText sys.io [(0, 0, 2), (0, 0, 4), (0, 0, 500)]),
        .text (barcodeText sys.io [(0, 0, 192), (0, 0, 500)])] := by
  decide +kernel

end LHF
