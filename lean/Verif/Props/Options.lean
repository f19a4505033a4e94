import Verif.Props.Reduced

/-! C129: only the values of the options count. -/

namespace LHF
open Spec

/-- The options that `main`, `setPipeline` and the stages read when they compute the barcode. (`debug`, `iterations` and `lambda`
are not among them; the last two are read by preprocessors. `clusters` is only read by preprocessors and in the mode upscale.) -/
def Spec.readOptions : List String :=
  ["collapse", "complexType", "dimensions", "epsilon", "inputFile", "mode", "mpi", "outputFile", "pipeline", "preprocessor",
   "twist", "upscale"]

/-- The two maps have the same values at these keys. -/
def Spec.SameAt (S : List String) (m n : ArgMap) : Prop := ∀ key ∈ S, m key = n key

/-- The keys that decide about mode and pipeline. -/
def Spec.modeKeys : List String := ["mode", "mpi", "pipeline", "preprocessor"]

section
variable {S : List String}

theorem sameAt_val {m n : ArgMap} (h : SameAt S m n) {key : String} (hk : key ∈ S) : m.val key = n.val key := by
  unfold ArgMap.val; rw [h key hk]

theorem sameAt_set {m n : ArgMap} (h : SameAt S m n) (k v : String) : SameAt S (m.set k v) (n.set k v) := by
  intro key hk
  unfold ArgMap.set
  split
  · rfl
  · exact h key hk

theorem sameAt_touch {m n : ArgMap} (h : SameAt S m n) {k : String} (hk : k ∈ S) : SameAt S (m.touch k) (n.touch k) := by
  unfold ArgMap.touch
  rw [h k hk]
  split
  · exact sameAt_set h _ _
  · exact h

theorem sameAt_fill (hS : modeKeys ⊆ S) {m n : ArgMap} (h : SameAt S m n) (p : String) :
    SameAt S (fillPreprocessor m p) (fillPreprocessor n p) := by
  unfold fillPreprocessor
  rw [sameAt_val h (hS (show "preprocessor" ∈ modeKeys by decide))]
  split
  · exact sameAt_set h _ _
  · exact sameAt_touch h (hS (by decide))

theorem sameAt_mode (hS : modeKeys ⊆ S) {m n : ArgMap} (h : SameAt S m n) : SameAt S (setMode m) (setMode n) := by
  unfold setMode
  dsimp only
  have h1 := sameAt_touch h (hS (show "mode" ∈ modeKeys by decide))
  rw [sameAt_val h1 (hS (show "mode" ∈ modeKeys by decide))]
  split_ifs <;> repeat' first | exact h1 | apply sameAt_set | apply sameAt_fill hS

theorem sameAt_pipeline (hS : modeKeys ⊆ S) {m n : ArgMap} (h : SameAt S m n) : SameAt S (setPipeline m) (setPipeline n) := by
  unfold setPipeline
  dsimp only
  have h1 := sameAt_touch h (hS (show "mpi" ∈ modeKeys by decide))
  have h2 := sameAt_touch h1 (hS (show "pipeline" ∈ modeKeys by decide))
  rw [sameAt_val h1 (hS (show "mpi" ∈ modeKeys by decide)), sameAt_val h2 (hS (show "pipeline" ∈ modeKeys by decide))]
  split_ifs
  · exact sameAt_set (sameAt_fill hS (sameAt_set h1 _ _) _) _ _
  · exact sameAt_mode hS h2
  · exact h2

end

theorem runPipeline_sameOptions {D : Type} (run : PipeKind → D → Res D) {m n : ArgMap} (h : SameAt readOptions m n) (p : Packet D) :
    runPipeline run m p = runPipeline run n p := by
  have hs : runStage run m = runStage run n := by
    funext p name
    unfold runStage
    rw [sameAt_val h (show "complexType" ∈ readOptions by decide)]
    have hc : ∀ k, configPipe k m = configPipe k n := by
      intro k
      unfold configPipe
      apply Bool.eq_iff_iff.2
      rw [List.all_eq_true, List.all_eq_true]
      have : ∀ key ∈ requiredKeys k, key ∈ readOptions := by cases k <;> decide
      constructor
      · intro h' key hk; rw [← h key (this key hk)]; exact h' key hk
      · intro h' key hk; rw [h key (this key hk)]; exact h' key hk
    simp only [hc]
  unfold runPipeline
  rw [h "pipeline" (by decide), hs]

theorem runPipelineOut_sameOptions {P W : Type} (io : TextNum W) (run : PipeKind → Work P W → Res (Work P W)) {m n : ArgMap}
    (h : SameAt readOptions m n) : runPipelineOut io run m = runPipelineOut io run n := by
  funext w
  unfold runPipelineOut
  rw [h "pipeline" (by decide), runPipeline_sameOptions run h]
  have : ∀ p : Packet (Work P W), pipelineFiles io m p = pipelineFiles io n p := by
    intro p
    unfold pipelineFiles
    rw [h "outputFile" (by decide)]
  simp only [this]

theorem main_sameOptions {K W : Type} [LinearOrder W] [Ring W] (sys : System K W) (argv argv' : List String) (m n : ArgMap)
    (hm : parseArgs argv = .ok m) (hn : parseArgs argv' = .ok n) (h : SameAt readOptions m n)
    (hpre : ∀ p, preprocess (sys.pre (setPipeline m)) (setPipeline m) p = preprocess (sys.pre (setPipeline n)) (setPipeline n) p)
    (hclu : (setPipeline m).val "upscale" = "true" →
      sys.atoi ((setPipeline m).val "clusters") = sys.atoi ((setPipeline n).val "clusters")) :
    mainProgram sys argv = mainProgram sys argv' := by
  have h' := sameAt_pipeline (by decide) h
  unfold mainProgram
  rw [hm, hn, ok_bind, ok_bind]
  dsimp only
  rw [sameAt_val h' (show "complexType" ∈ readOptions by decide), sameAt_val h' (show "pipeline" ∈ readOptions by decide),
    sameAt_val h' (show "inputFile" ∈ readOptions by decide), sameAt_val h' (show "epsilon" ∈ readOptions by decide),
    sameAt_val h' (show "dimensions" ∈ readOptions by decide), sameAt_val h' (show "collapse" ∈ readOptions by decide),
    runPipelineOut_sameOptions _ _ h']
  congr 1
  funext data
  unfold dispatch processUpscale processReduced processData
  rw [sameAt_val h' (show "pipeline" ∈ readOptions by decide), sameAt_val h' (show "mode" ∈ readOptions by decide)]
  simp only [hpre]
  by_cases hu : (setPipeline m).val "upscale" = "true"
  · rw [hclu hu, sameAt_val h' (show "upscale" ∈ readOptions by decide)]
  · have hu' : ¬ (setPipeline n).val "upscale" = "true" := by
      rwa [← sameAt_val h' (show "upscale" ∈ readOptions by decide)]
    rw [if_neg hu, if_neg hu']

/-- C129: without a preprocessor and without upscaling, two command lines that give the same values to the options that are
read do the same, whatever else is on them. -/
theorem C129_unread_options {K W : Type} [LinearOrder W] [Ring W] (sys : System K W) (pairs pairs' : List (String × String))
    (m n : ArgMap) (hm : parseArgs (commandLine pairs) = .ok m) (hn : parseArgs (commandLine pairs') = .ok n)
    (h : ∀ key ∈ readOptions, m key = n key)
    (hpre : (setPipeline m).val "preprocessor" ∈ ["", "none"]) (hup : (setPipeline m).val "upscale" ≠ "true") :
    mainProgram sys (commandLine pairs) = mainProgram sys (commandLine pairs') := by
  have h' := sameAt_pipeline (by decide) h
  refine main_sameOptions sys _ _ m n hm hn h (fun p => ?_) (fun hu => absurd hu hup)
  have e := sameAt_val h' (show "preprocessor" ∈ readOptions by decide)
  have key : ∀ (q : ArgMap) (pre : PreKind → Work (List K) W → Res (Work (List K) W)),
      q.val "preprocessor" ∈ ["", "none"] → preprocess pre q p = pure p := by
    intro q pre hq
    unfold preprocess
    simp only [List.mem_cons, List.not_mem_nil, or_false] at hq
    rcases hq with hq | hq
    · rw [if_neg (by simp [hq])]
    · rw [if_pos (by simp [hq]), hq]
      show (if configPreprocessor .base q then runPreprocessorWrapper (preConfigured .base) _ _ p else pure p) = _
      unfold runPreprocessorWrapper preConfigured
      simp
  rw [key _ _ hpre, key _ _ (e ▸ hpre)]

/-- C129, with a preprocessor or upscaling: the same if also `clusters`, `iterations` and `lambda` agree, for preprocessors that
read nothing but options other than `debug`. -/
theorem C129_unread_options_preprocessor {K W : Type} [LinearOrder W] [Ring W] (sys : System K W)
    (pairs pairs' : List (String × String))
    (m n : ArgMap) (hm : parseArgs (commandLine pairs) = .ok m) (hn : parseArgs (commandLine pairs') = .ok n)
    (h : ∀ o ∈ options, o.1 ≠ "debug" → m o.1 = n o.1)
    (hpre : ∀ a b kind, (∀ o ∈ options, o.1 ≠ "debug" → a o.1 = b o.1) → sys.pre a kind = sys.pre b kind) :
    mainProgram sys (commandLine pairs) = mainProgram sys (commandLine pairs') := by
  have hs : SameAt readOptions m n := by
    intro key hk
    obtain ⟨o, ho, rfl, hd⟩ : ∃ o ∈ options, o.1 = key ∧ o.1 ≠ "debug" := by
      revert key; decide
    exact h o ho hd
  have h' := sameAt_pipeline (by decide) hs
  have hall : ∀ o ∈ options, o.1 ≠ "debug" → (setPipeline m) o.1 = (setPipeline n) o.1 := by
    have h3 : SameAt ((options.map Prod.fst).filter (· ≠ "debug")) m n := by
      intro key hk
      simp only [List.mem_filter, List.mem_map, decide_eq_true_eq] at hk
      obtain ⟨⟨o, ho, rfl⟩, hd⟩ := hk
      exact h o ho hd
    intro o ho hd
    refine sameAt_pipeline (by decide) h3 _ ?_
    simp only [List.mem_filter, List.mem_map, decide_eq_true_eq]
    exact ⟨⟨o, ho, rfl⟩, hd⟩
  have hp : sys.pre (setPipeline m) = sys.pre (setPipeline n) := by
    funext k; exact hpre _ _ _ hall
  have hval : ∀ o ∈ options, o.1 ≠ "debug" → (setPipeline m).val o.1 = (setPipeline n).val o.1 := by
    intro o ho hd; unfold ArgMap.val; rw [hall o ho hd]
  refine main_sameOptions sys _ _ m n hm hn hs (fun p => ?_) (fun _ => ?_)
  · unfold preprocess
    have hc : ∀ k, configPreprocessor k (setPipeline m) = configPreprocessor k (setPipeline n) := by
      intro k
      unfold configPreprocessor
      apply Bool.eq_iff_iff.2
      rw [List.all_eq_true, List.all_eq_true]
      have : ∀ key ∈ preRequiredKeys k, ∃ o ∈ options, o.1 = key ∧ o.1 ≠ "debug" := by cases k <;> decide
      constructor
      · intro q key hk
        obtain ⟨o, ho, rfl, hd⟩ := this key hk
        rw [← hall o ho hd]; exact q _ hk
      · intro q key hk
        obtain ⟨o, ho, rfl, hd⟩ := this key hk
        rw [hall o ho hd]; exact q _ hk
    rw [hp, hval ("preprocessor", "pre", "") (by decide) (by decide)]
    simp only [hc]
  · rw [hval ("clusters", "k", "20") (by decide) (by decide)]

/-! ### Unknown names, and the order -/

/-- What `parse` returns is fixed by the last values. -/
theorem parse_determined (pairs pairs' : List (String × String)) (m n : ArgMap) (hm : parseArgs (commandLine pairs) = .ok m)
    (hn : parseArgs (commandLine pairs') = .ok n) (o : String × String × String) (ho : o ∈ options)
    (hl : ∀ v, LastValue pairs o.1 v ↔ LastValue pairs' o.1 v) (hs : ∀ v, LastValue pairs o.2.1 v ↔ LastValue pairs' o.2.1 v)
    (hl' : NotGiven pairs o.1 ↔ NotGiven pairs' o.1) (hs' : NotGiven pairs o.2.1 ↔ NotGiven pairs' o.2.1) :
    m o.1 = n o.1 := by
  obtain ⟨m', e, h1, -⟩ := C37_argument_precedence pairs
  obtain ⟨n', e', h2, -⟩ := C37_argument_precedence pairs'
  rw [hm] at e; cases e
  rw [hn] at e'; cases e'
  obtain ⟨a1, a2, a3, -⟩ := h1 o ho
  obtain ⟨b1, b2, b3, -⟩ := h2 o ho
  rcases given_or_not pairs o.2.1 with hg | ⟨v, hv⟩
  · rcases given_or_not pairs o.1 with hg' | ⟨v, hv⟩
    · rw [a3 hg hg', b3 (hs'.1 hg) (hl'.1 hg')]
    · rw [a2 hg v hv, b2 (hs'.1 hg) v ((hl v).1 hv)]
  · rw [a1 v hv, b1 v ((hs v).1 hv)]

/-- C129: an argument that names none of the options has no effect, wherever it is. -/
theorem C129_unknown_names {K W : Type} [LinearOrder W] [Ring W] (sys : System K W)
    (hpre : ∀ a b kind, (∀ o ∈ options, o.1 ≠ "debug" → a o.1 = b o.1) → sys.pre a kind = sys.pre b kind)
    (before after : List (String × String)) (a v : String) (hname : ∀ o ∈ options, ¬ Names a o.1 ∧ ¬ Names a o.2.1) :
    mainProgram sys (commandLine (before ++ (a, v) :: after)) = mainProgram sys (commandLine (before ++ after)) := by
  obtain ⟨m, hm, -⟩ := C37_argument_precedence (before ++ (a, v) :: after)
  obtain ⟨n, hn, -⟩ := C37_argument_precedence (before ++ after)
  have hng : ∀ x, ¬ Names a x → (NotGiven (before ++ (a, v) :: after) x ↔ NotGiven (before ++ after) x) := by
    intro x hx
    unfold NotGiven
    simp only [List.mem_append, List.mem_cons]
    constructor
    · intro h p hp
      exact h p (by tauto)
    · rintro h p (hp | rfl | hp)
      · exact h p (Or.inl hp)
      · exact hx
      · exact h p (Or.inr hp)
  have hlv : ∀ x, ¬ Names a x → ∀ u, LastValue (before ++ (a, v) :: after) x u ↔ LastValue (before ++ after) x u := by
    intro x hx u
    constructor
    · rintro ⟨b1, c, b2, e, hc, hb⟩
      rcases List.append_eq_append_iff.1 e with ⟨z, e1, e2⟩ | ⟨z, e1, e2⟩
      · cases z with
        | nil =>
          simp only [List.nil_append, List.cons.injEq, Prod.mk.injEq] at e2
          exact absurd (e2.1.1 ▸ hc) hx
        | cons y z =>
          simp only [List.cons_append, List.cons.injEq] at e2
          refine ⟨before ++ z, c, b2, ?_, hc, hb⟩
          rw [e2.2]; simp
      · cases z with
        | nil =>
          simp only [List.nil_append, List.cons.injEq, Prod.mk.injEq] at e2
          exact absurd (e2.1.1 ▸ hc) hx
        | cons y z =>
          simp only [List.cons_append, List.cons.injEq] at e2
          refine ⟨b1, c, z ++ after, ?_, hc, ?_⟩
          · rw [e1, e2.1]; simp
          · intro p hp
            refine hb p ?_
            rw [e2.2]
            simp only [List.mem_append, List.mem_cons] at hp ⊢
            tauto
    · rintro ⟨b1, c, b2, e, hc, hb⟩
      rcases List.append_eq_append_iff.1 e with ⟨z, e1, e2⟩ | ⟨z, e1, e2⟩
      · refine ⟨before ++ (a, v) :: z, c, b2, ?_, hc, hb⟩
        rw [e2]; simp
      · cases z with
        | nil =>
          simp only [List.nil_append] at e2
          refine ⟨b1 ++ [(a, v)], c, b2, ?_, hc, hb⟩
          rw [e1, ← e2]; simp
        | cons y z =>
          simp only [List.cons_append, List.cons.injEq] at e2
          refine ⟨b1, c, z ++ (a, v) :: after, ?_, hc, ?_⟩
          · rw [e1, e2.1]; simp
          · intro p hp
            simp only [List.mem_append, List.mem_cons] at hp
            rcases hp with hp | rfl | hp
            · exact hb p (by rw [e2.2]; simp [hp])
            · exact hx
            · exact hb p (by rw [e2.2]; simp [hp])
  refine C129_unread_options_preprocessor sys _ _ m n hm hn (fun o ho _ => ?_) hpre
  obtain ⟨h1, h2⟩ := hname o ho
  exact parse_determined _ _ m n hm hn o ho (hlv _ h1) (hlv _ h2) (hng _ h1) (hng _ h2)

/-- C129: if no option is given twice under the same name, the order of the pairs on the command line does not matter. -/
theorem C129_order {K W : Type} [LinearOrder W] [Ring W] (sys : System K W)
    (hpre : ∀ a b kind, (∀ o ∈ options, o.1 ≠ "debug" → a o.1 = b o.1) → sys.pre a kind = sys.pre b kind)
    (pairs pairs' : List (String × String)) (hperm : pairs.Perm pairs')
    (honce : pairs.Pairwise (fun p q => ∀ n, Names p.1 n → ¬ Names q.1 n)) :
    mainProgram sys (commandLine pairs) = mainProgram sys (commandLine pairs') := by
  obtain ⟨m, hm, -⟩ := C37_argument_precedence pairs
  obtain ⟨n, hn, -⟩ := C37_argument_precedence pairs'
  have hlast : ∀ (l : List (String × String)), l.Pairwise (fun p q => ∀ n, Names p.1 n → ¬ Names q.1 n) →
      ∀ x u, LastValue l x u ↔ ∃ a, (a, u) ∈ l ∧ Names a x := by
    intro l hl x u
    constructor
    · rintro ⟨b, a, c, rfl, h1, -⟩
      exact ⟨a, by simp, h1⟩
    · rintro ⟨a, h1, h2⟩
      obtain ⟨b, c, rfl⟩ := List.append_of_mem h1
      refine ⟨b, a, c, rfl, h2, fun p hp => ?_⟩
      exact (List.pairwise_cons.1 (List.pairwise_append.1 hl).2.1).1 p hp x h2
  have honce' : pairs'.Pairwise (fun p q => ∀ n, Names p.1 n → ¬ Names q.1 n) :=
    hperm.pairwise honce (fun {p q} h n h1 h2 => h n h2 h1)
  have hlv : ∀ x u, LastValue pairs x u ↔ LastValue pairs' x u := by
    intro x u
    rw [hlast _ honce, hlast _ honce']
    simp only [hperm.mem_iff]
  have hng : ∀ x, NotGiven pairs x ↔ NotGiven pairs' x := by
    intro x
    unfold NotGiven
    simp only [hperm.mem_iff]
  exact C129_unread_options_preprocessor sys _ _ m n hm hn
    (fun o ho _ => parse_determined _ _ m n hm hn o ho (hlv _) (hlv _) (hng _) (hng _)) hpre

/-! ### Examples -/

/-- The hypotheses about the preprocessors, for the system of the examples. -/
example (cents : List (List ℝ)) (labels : List Nat) (text : String) : ∀ a b kind,
    (∀ o ∈ options, o.1 ≠ "debug" → a o.1 = b o.1) →
    (realSystem cents labels text).pre a kind = (realSystem cents labels text).pre b kind :=
  fun _ _ _ _ => rfl

/-- A misspelt name. -/
example : ∀ o ∈ options, ¬ Names "--epsilion" o.1 ∧ ¬ Names "--epsilion" o.2.1 := by
  unfold Names; decide

/-- Three options, one of them with its short name, in any order. -/
example : ([("-i", "data.csv"), ("--epsilon", "3"), ("-d", "2")] : List (String × String)).Pairwise
    (fun p q => ∀ n, Names p.1 n → ¬ Names q.1 n) := by
  have h1 : Names "-i" "i" := by unfold Names; decide
  have h2 : Names "--epsilon" "epsilon" := by unfold Names; decide
  have h3 : Names "-d" "d" := by unfold Names; decide
  have hne : ∀ {a b x y : String}, Names a x → Names b y → x ≠ y → ∀ n, Names a n → ¬ Names b n :=
    fun ha hb hxy n hn hn' => hxy ((names_unique ha hn).trans (names_unique hb hn').symm)
  simp only [List.pairwise_cons, List.mem_cons, List.not_mem_nil, or_false, forall_eq_or_imp, forall_eq]
  exact ⟨⟨hne h1 h2 (by decide), hne h1 h3 (by decide)⟩, hne h2 h3 (by decide), by simp, List.Pairwise.nil⟩

/-- Two command lines that differ in options that are not read. -/
example : ∃ m n, parseArgs (commandLine [("-e", "3"), ("-x", "1"), ("--iterations", "7")]) = .ok m ∧
    parseArgs (commandLine [("--foo", "bar"), ("-k", "4"), ("--epsilon", "3")]) = .ok n ∧
    (∀ key ∈ readOptions, m key = n key) ∧
    (setPipeline m).val "preprocessor" ∈ ["", "none"] ∧ (setPipeline m).val "upscale" ≠ "true" :=
  ⟨_, _, rfl, rfl, by decide, by decide, by decide⟩

end LHF
