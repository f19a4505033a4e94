import Verif.Props.SideFiles

/-! C105: what the log of a run contains. -/

namespace LHF
open Spec

/-- The two lines that the log gets at the end of a stage: its name, its time, and the size of the data with
its unit (a blank line follows). -/
def Spec.stageLines (env : Surround ℝ ℝ) (name : String) (time : List Char) (bytes : Nat) : List Char :=
  "[".toList ++ name.toList ++ "]:\t\tPipeline ".toList ++ name.toList ++ " executed in ".toList ++ time ++
    " seconds (physical time)\n[".toList ++ name.toList ++ "]:\t\t\tData size: ".toList ++
    env.sizeText bytes (sizeUnit bytes).1 ++ " ".toList ++ (sizeUnit bytes).2.toList ++ "\n\n".toList

/-- The part of the log for stages with their names and sizes, in order, `i` rows of statistics being there
before; the messages of a stage come before its two lines. -/
def Spec.stagesLog (env : Surround ℝ ℝ) (args : ArgMap) (i : Nat) (stages : List (PipeKind × String × Nat)) :
    List Char :=
  ((stages.zipIdx i).map (fun s => env.messages s.1.1 args ++
    stageLines env s.1.2.1 (env.clock s.2) s.1.2.2)).flatten

/-- The four default stages with the bytes of the data after each. -/
def Spec.fourStages (points cell N1 N2 N3 : Nat) : List (PipeKind × String × Nat) :=
  [(.distMatrix, "DistMatrix", points), (.neighGraph, "neighGraph", points + N1 * cell),
    (.rips, "ripsPipe", points + N2 * cell), (.fastPersistence, "FastPersistence", points + N3 * cell)]

/-- The messages of the preprocessor in the log. -/
def Spec.preText (env : Surround ℝ ℝ) (args : ArgMap) : Option PreKind → List Char
  | none => []
  | some kind => env.preMessages kind args

theorem stageLog_eq (env : Surround ℝ ℝ) (n : Nat) (name : String) (bytes : Nat) :
    stageLog env n name bytes = stageLines env name (env.clock n) bytes := by
  unfold stageLog stageLines logLine
  rw [show "]:\t\tPipeline ".toList = "]:\t".toList ++ "\tPipeline ".toList by decide,
    show " seconds (physical time)\n[".toList = " seconds (physical time)".toList ++ ['\n'] ++ ['['] by decide,
    show "]:\t\t\tData size: ".toList = "]:\t".toList ++ "\t\tData size: ".toList by decide,
    show "\n\n".toList = ['\n'] ++ ['\n'] by decide, show "[".toList = ['['] by decide,
    show " ".toList = [' '] by decide]
  simp only [List.append_assoc]

theorem contentAfter_none {opens : String → Bool} {name : String} (ho : opens name = true)
    {a : List FileWrite} (h : ∃ w ∈ a, w.name = name) (before : Option (List Char)) :
    contentAfter opens name before a = contentAfter opens name (some (before.getD [])) a := by
  induction a with
  | nil => simp at h
  | cons w a ih =>
    unfold contentAfter
    by_cases hn : w.name = name
    · rw [if_pos ⟨hn, ho⟩, if_pos ⟨hn, ho⟩]
      rfl
    · rw [if_neg (fun h' => hn h'.1), if_neg (fun h' => hn h'.1)]
      apply ih
      obtain ⟨v, hv, hv'⟩ := h
      rcases List.mem_cons.1 hv with rfl | hv
      · exact absurd hv' hn
      · exact ⟨v, hv, hv'⟩

/-- The texts written to the file `f`. -/
def textsTo (f : String) (ws : List FileWrite) : List Char :=
  ((ws.filter (fun w => w.name = f)).map FileWrite.text).flatten

theorem textsTo_append (f : String) (a b : List FileWrite) : textsTo f (a ++ b) = textsTo f a ++ textsTo f b := by
  unfold textsTo
  rw [List.filter_append, List.map_append, List.flatten_append]

theorem textsTo_other {f : String} {a : List FileWrite} (h : ∀ w ∈ a, w.name ≠ f) : textsTo f a = [] := by
  unfold textsTo
  rw [List.filter_eq_nil_iff.2 (by simpa using h)]
  rfl

theorem textsTo_log {f : String} {args : ArgMap} (hf : args.val "outputFile" = f) (hc : f ≠ "console")
    (t : List Char) : textsTo f (logWrite args t) = t := by
  unfold textsTo logWrite
  rw [hf, if_neg hc]
  simp

theorem textsTo_stage {f : String} {env : Surround ℝ ℝ} {args : ArgMap} {debug : Bool} {k : PipeKind} {n : Nat}
    {name : String} {bytes : Nat} {files : List FileWrite} (hf : args.val "outputFile" = f)
    (hc : f ≠ "console") (h : ∀ w ∈ files, w.name ≠ f) :
    textsTo f (stageWrites env args debug k n name bytes files) =
      env.messages k args ++ stageLines env name (env.clock n) bytes := by
  unfold stageWrites
  rw [textsTo_append, textsTo_log hf hc, stageLog_eq, textsTo_other, List.append_nil]
  intro w hw
  split at hw
  · exact h w hw
  · simp at hw

theorem textsTo_four {f : String} {env : Surround ℝ ℝ} {args : ArgMap} {debug : Bool}
    {i points cell N1 N2 N3 : Nat} {f1 f2 f3 f4 : List FileWrite} (hf : args.val "outputFile" = f)
    (hc : f ≠ "console") (h : ∀ w ∈ f1 ++ f2 ++ f3 ++ f4, w.name ≠ f) :
    textsTo f (fourWrites env args debug i points cell N1 N2 N3 f1 f2 f3 f4) =
      stagesLog env args i (fourStages points cell N1 N2 N3) := by
  unfold fourWrites
  simp only [List.mem_append] at h
  rw [textsTo_append, textsTo_append, textsTo_append,
    textsTo_stage hf hc (fun w hw => h w (by simp [hw])), textsTo_stage hf hc (fun w hw => h w (by simp [hw])),
    textsTo_stage hf hc (fun w hw => h w (by simp [hw])), textsTo_stage hf hc (fun w hw => h w (by simp [hw]))]
  simp [stagesLog, fourStages, List.append_assoc]

section
variable {sys : System ℝ ℝ} {env : Surround ℝ ℝ} {pairs : List (String × String)} {m : ArgMap}
  {ct f : String} {data : List (List ℝ)} {kind : Option PreKind} {pts : List (List ℝ)} {labels : List Nat}

theorem log_content (hout : Outside f) {opens : String → Bool} (ho : opens f = true) (hc : f ≠ "console")
    (hf : (setPipeline m).val "outputFile" = f) {ws : List FileWrite} {st bt : List Char} {debug : Bool}
    {i points cell N1 N2 N3 : Nat} {f1 f2 f3 f4 : List FileWrite}
    (hw : ws = preLog env (setPipeline m) kind ++ preFilesOf sys.inIO sys.io pts labels kind ++
      fourWrites env (setPipeline m) debug i points cell N1 N2 N3 f1 f2 f3 f4 ++
      [⟨f ++ "_stats.csv", .replace, st⟩, ⟨f ++ ".csv", .replace, bt⟩])
    (hfiles : ∀ w ∈ f1 ++ f2 ++ f3 ++ f4, "output/".toList <+: w.name.toList)
    (hkind : ∀ w ∈ ws, w.name = f → w.kind = .append) (before : Option (List Char)) :
    contentAfter opens f before ws = some (before.getD [] ++ preText env (setPipeline m) kind ++
      stagesLog env (setPipeline m) i (fourStages points cell N1 N2 N3)) := by
  have hnf : ¬ "output/".toList <+: f.toList := by simpa using hout "" (by simp)
  have hne : ∀ w : FileWrite, "output/".toList <+: w.name.toList → w.name ≠ f := by
    intro w h1 h2
    exact hnf (h2 ▸ h1)
  have hex : ∃ w ∈ ws, w.name = f := by
    refine ⟨⟨f, .append, env.messages .distMatrix (setPipeline m) ++ stageLog env i "DistMatrix" points⟩, ?_, rfl⟩
    subst hw
    unfold fourWrites stageWrites logWrite
    rw [hf]
    simp [hc]
  rw [contentAfter_none ho hex, contentAfter_appends ho hkind]
  congr 1
  rw [List.append_assoc]
  congr 1
  show textsTo f ws = _
  have hpre : textsTo f (preLog env (setPipeline m) kind) = preText env (setPipeline m) kind := by
    cases kind with
    | none => rfl
    | some k => exact textsTo_log hf hc _
  rw [hw, textsTo_append, textsTo_append, textsTo_append, hpre, textsTo_other (fun w hw => hne w (pre_take hw).2.1),
    textsTo_four hf hc (fun w hw => hne w (hfiles w hw)), textsTo_other]
  · simp
  · intro w hw
    simp only [List.mem_cons, List.not_mem_nil, or_false] at hw
    rcases hw with rfl | rfl
    · exact name_ne_self (by decide)
    · exact name_ne_self (by decide)

/-- C105, `simplexTree`: after a run of the default pipeline the log has its content from before, the messages
of the preprocessor if there is one, and then for each stage, in order, its messages, its time and the size
of the points and the complex at its end. -/
theorem C105_tree_log_partial (hdist : sys.lib.dist = vectorsDistance)
    (h : StandardCommand sys pairs m "simplexTree" f data) (hpts : PointsOf sys m data pts labels kind)
    (hout : Outside f) (hrest : ∀ k w, ∀ v ∈ env.restFiles k w, "output/".toList <+: v.name.toList)
    (k : Nat) (hk : 0 < k) (hdim : ∀ p ∈ pts, p.length = k) (y : World (List ℝ) ℝ × Effects)
    (hy : mainEffects sys env (commandLine pairs) = .ok y)
    (opens : String → Bool) (ho : opens f = true) (before : Option (List Char)) :
    let n := pts.length
    let N := simplexTotal n (fun i j => rowDist k pts i j < sys.atof (m.val "epsilon"))
      (max 1 (sys.atoi (m.val "dimensions")) + 1)
    contentAfter opens f before y.2.writes =
      some (before.getD [] ++ preText env (setPipeline m) kind ++
        stagesLog env (setPipeline m) (preRows kind).length (fourStages (8 * (n * k)) env.nodeSize N N N)) := by
  intro n N
  obtain ⟨z, h1, -, -, h4, -⟩ := main_effects_points (by decide) h hpts y hy
  obtain ⟨n', N', L, rfl, rfl, -, -, h6⟩ := tree_effects hdist _ [] rfl rfl rfl k hk hdim z h1
  have hf := output_name h
  rw [h6] at h4
  refine log_content hout ho h.console hf h4 ?_ ?_ before
  · intro w hw
    simp only [List.append_nil, List.mem_append, List.mem_singleton, bettiFiles, List.mem_cons,
      List.not_mem_nil, or_false] at hw
    rcases hw with (rfl | rfl) | rfl | rfl
    · unfold matrixFile; dsimp only; decide
    · dsimp only; decide
    · exact List.IsPrefix.trans (by decide)
        (betti_take ((setPipeline m).val "fn") ▸ List.take_prefix 8 _)
    · dsimp only; decide
  · intro w hw he
    have := main_may sys env _ m h.parsed hrest y hy w hw
    rw [hf] at this
    rcases this with ⟨-, ⟨-, h⟩ | h | h⟩ | h
    · exact h
    · exact absurd (h.symm.trans he) (name_ne_self (by decide))
    · exact absurd (h.symm.trans he) (name_ne_self (by decide))
    · exact absurd (he ▸ h) (by simpa using hout "" (by simp))

/-- C105, `simplexArrayList` (dimensions at least 1, no collapse). -/
theorem C105_array_log_partial (hdist : sys.lib.dist = vectorsDistance)
    (h : StandardCommand sys pairs m "simplexArrayList" f data) (hpts : PointsOf sys m data pts labels kind)
    (hcol : m.val "collapse" ≠ "true" ∧ m.val "collapse" ≠ "1")
    (hd : 0 < sys.atoi (m.val "dimensions"))
    (hout : Outside f) (hrest : ∀ k w, ∀ v ∈ env.restFiles k w, "output/".toList <+: v.name.toList)
    (k : Nat) (hk : 0 < k) (hdim : ∀ p ∈ pts, p.length = k) (y : World (List ℝ) ℝ × Effects)
    (hy : mainEffects sys env (commandLine pairs) = .ok y)
    (opens : String → Bool) (ho : opens f = true) (before : Option (List Char)) :
    let n := pts.length
    let N := simplexTotal n (fun i j => rowDist k pts i j ≤ sys.atof (m.val "epsilon"))
    contentAfter opens f before y.2.writes =
      some (before.getD [] ++ preText env (setPipeline m) kind ++
        stagesLog env (setPipeline m) (preRows kind).length
          (fourStages (8 * (n * k)) env.pairSize (N 2) (N (sys.atoi (m.val "dimensions") + 1))
            (N (sys.atoi (m.val "dimensions") + 2)))) := by
  intro n N
  obtain ⟨z, h1, -, -, h4, -⟩ := main_effects_points (by decide) h hpts y hy
  obtain ⟨n', N1, N2, N3, L1, L2, rfl, rfl, rfl, rfl, -, -, -, h6⟩ :=
    array_effects hdist hd hcol _ [] rfl k hk hdim z h1
  have hf := output_name h
  rw [h6] at h4
  refine log_content hout ho h.console hf h4 ?_ ?_ before
  · intro w hw
    simp only [List.mem_append, List.mem_singleton, bettiFiles, List.mem_cons,
      List.not_mem_nil, or_false] at hw
    rcases hw with ((rfl | rfl) | rfl) | rfl | rfl
    · unfold matrixFile; dsimp only; decide
    · dsimp only; decide
    · dsimp only; decide
    · exact List.IsPrefix.trans (by decide)
        (betti_take ((setPipeline m).val "fn") ▸ List.take_prefix 8 _)
    · dsimp only; decide
  · intro w hw he
    have := main_may sys env _ m h.parsed hrest y hy w hw
    rw [hf] at this
    rcases this with ⟨-, ⟨-, h⟩ | h | h⟩ | h
    · exact h
    · exact absurd (h.symm.trans he) (name_ne_self (by decide))
    · exact absurd (h.symm.trans he) (name_ne_self (by decide))
    · exact absurd (he ▸ h) (by simpa using hout "" (by simp))

end

/-- The hypotheses of C105 are met (`side_example`): a run without a log before it. -/
example (env : Surround ℝ ℝ) (hrest : ∀ k w, ∀ v ∈ env.restFiles k w, "output/".toList <+: v.name.toList) :
    ∃ (m : ArgMap) (y : World (List ℝ) ℝ × Effects) (text : List Char),
      contentAfter (fun _ => true) "bars" none y.2.writes =
        some ((env.messages .distMatrix m ++ stageLines env "DistMatrix" (env.clock 0) 24) ++ text) := by
  obtain ⟨sys, m, y, h1, h2, h3, -, h5, h6⟩ := side_example env
  have := C105_tree_log_partial h1 h2 h3 h5 hrest 1 (by decide) (by simp) y h6 (fun _ => true) rfl none
  exact ⟨setPipeline m, y, _, this⟩

/-- The hypotheses of C101 are met (`side_example`): a run on three points. -/
example (env : Surround ℝ ℝ) : ∃ (m : ArgMap) (y : World (List ℝ) ℝ × Effects) (N : Nat),
    contentAfter (fun _ => true) "bars_stats.csv" none y.2.writes =
      some (statsContent env (fourRows 24 env.nodeSize 3 N N N)) := by
  obtain ⟨sys, m, y, h1, h2, h3, -, -, h6⟩ := side_example env
  exact ⟨m, y, _, C101_tree_statistics_partial h1 h2 h3 1 (by decide) (by simp) y h6 (fun _ => true) none rfl⟩

end LHF
