import Verif.Model.Memory
import Verif.Model.PersistProgram
import Verif.Model.Effects
import Verif.Props.Program
import Verif.Props.PersistProgram
import Verif.Lemmas.Program

/-! C126: what the memory of a new complex held before does not matter. -/

namespace LHF
open Spec

theorem SameRes.same {A A' B' : Type _} {S : A' → B' → Prop} (x : Res A) {f : A → Res A'} {g : A → Res B'}
    (h : ∀ a, SameRes S (f a) (g a)) : SameRes S (x >>= f) (x >>= g) := by
  cases x with
  | error e => rfl
  | ok a => exact h a

section
variable {W : Type} [LinearOrder W] [Zero W] (c : Int)

theorem recurseInsert_count (env : InsertEnv W) (s : Sib W) : ∀ (maxE : W) (simp : List Nat) (st : Graph W × Int),
    SameRes (fun a b => b = (a.1, (a.2.1, a.2.2 + c))) (recurseInsert env maxE simp s st)
      (recurseInsert env maxE simp s (st.1, st.2 + c)) := by
  induction s with
  | nil => intro maxE simp st; exact rfl
  | node index weight child sibling ihc ihs =>
    intro maxE simp st
    rw [recurseInsert, recurseInsert]
    refine SameRes.same _ (fun d => ?_)
    dsimp only
    generalize (if d > maxE then d else maxE) = curE
    by_cases hc : curE < env.maxEpsilon
    · rw [if_pos hc, if_pos hc]
      refine SameRes.same _ (fun weg => ?_)
      refine SameRes.bind (R := fun a b => b = (a.1, (a.2.1, a.2.2 + c))) ?_ ?_
      · rw [show st.2 + c + 1 = st.2 + 1 + c by omega]
        split
        · exact ihc _ _ (weg, st.2 + 1)
        · exact rfl
      · rintro r _ - - rfl
        refine SameRes.bind (ihs _ _ r.2) ?_
        rintro t _ - - rfl
        exact rfl
    · rw [if_neg hc, if_neg hc]
      refine SameRes.bind (ihs _ _ st) ?_
      rintro t _ - - rfl
      exact rfl

theorem insert_count (eps : W) (maxDim : Nat) (dm : List (List W)) (t : Tree W) :
    SameRes (fun a b => b = a.addCount c) (t.insert eps maxDim dm) ((t.addCount c).insert eps maxDim dm) := by
  obtain ⟨roots, weg, count, index, rviSize, rvc, sorted⟩ := t
  unfold Tree.insert Tree.addCount
  split
  · exact rfl
  · dsimp only
    cases roots with
    | nil =>
      show Tree.mk _ _ _ _ _ _ _ = Tree.mk _ _ _ _ _ _ _
      simp only [Tree.mk.injEq, true_and, and_true]
      omega
    | node i w ch s =>
      dsimp only
      refine SameRes.bind (recurseInsert_count c _ _ _ _ (weg, count)) ?_
      rintro ⟨r1, r2, r3⟩ _ - - rfl
      dsimp only
      refine SameRes.same _ (fun weg => ?_)
      show Tree.mk _ _ _ _ _ _ _ = Tree.mk _ _ _ _ _ _ _
      simp only [Tree.mk.injEq, true_and, and_true]
      omega

theorem recurseInsertI_count (env : InsertEnv W) (s : INode W) : ∀ (maxE : W) (simp : List Nat) (st : IStore W),
    SameRes (fun a b => b = (a.1, { a.2 with nodeCount := a.2.nodeCount + c })) (recurseInsertI env maxE simp s st)
      (recurseInsertI env maxE simp s { st with nodeCount := st.nodeCount + c }) := by
  induction s with
  | nil => intro maxE simp st; exact rfl
  | node a index weight sset child sibling ihc ihs =>
    intro maxE simp st
    rw [recurseInsertI, recurseInsertI]
    refine SameRes.same _ (fun d => ?_)
    dsimp only
    generalize (if d > maxE then d else maxE) = curE
    by_cases hc : curE < env.maxEpsilon
    · rw [if_pos hc, if_pos hc]
      refine SameRes.same _ (fun counts => ?_)
      refine SameRes.same _ (fun dims => ?_)
      refine SameRes.bind (R := fun a b => b = (a.1, { a.2 with nodeCount := a.2.nodeCount + c })) ?_ ?_
      · rw [show st.nodeCount + c + 1 = st.nodeCount + 1 + c by omega]
        split
        · exact ihc _ _ ⟨dims, counts, st.sidx ++ [none], st.nodeCount + 1⟩
        · exact rfl
      · rintro r _ - - rfl
        refine SameRes.bind (ihs _ _ r.2) ?_
        rintro t _ - - rfl
        exact rfl
    · rw [if_neg hc, if_neg hc]
      refine SameRes.bind (ihs _ _ st) ?_
      rintro t _ - - rfl
      exact rfl

theorem insertI_count (eps : W) (maxDim : Nat) (dm : List (List W)) (t : ITree W) :
    SameRes (fun a b => b = a.addCount c) (t.insert eps maxDim dm) ((t.addCount c).insert eps maxDim dm) := by
  obtain ⟨roots, store, index, sorted, graph⟩ := t
  unfold ITree.insert ITree.addCount
  split
  · exact rfl
  · dsimp only
    cases roots with
    | nil =>
      refine SameRes.same _ (fun counts => ?_)
      show ITree.mk _ _ _ _ _ = ITree.mk _ _ _ _ _
      simp only [ITree.mk.injEq, IStore.mk.injEq, true_and, and_true]
      omega
    | node a i w ss ch s =>
      dsimp only
      refine SameRes.bind (recurseInsertI_count c _ _ _ _ store) ?_
      rintro r _ - - rfl
      dsimp only
      refine SameRes.same _ (fun dims => ?_)
      refine SameRes.same _ (fun counts => ?_)
      show ITree.mk _ _ _ _ _ = ITree.mk _ _ _ _ _
      simp only [ITree.mk.injEq, IStore.mk.injEq, true_and, and_true]
      omega

theorem getAllEdges_count (sort : SortBySecond (List Nat) W) (t : Tree W) :
    (t.addCount c).getAllEdges sort = ((t.getAllEdges sort).1, (t.getAllEdges sort).2.addCount c) := by
  unfold Tree.getAllEdges
  show (if t.isSorted then _ else _) = _
  split <;> rfl

theorem getIndexEdges_count (sort : SortBySecond (Nat × List Nat) W) (t : ITree W) :
    SameRes (fun a b => b = (a.1, a.2.addCount c)) (t.getIndexEdges sort) ((t.addCount c).getIndexEdges sort) := by
  unfold ITree.getIndexEdges
  show SameRes _ _ (if t.store.dims.length = 0 then _ else if t.isSorted then _ else _)
  split
  · exact rfl
  · split
    · exact rfl
    · refine SameRes.bind (R := fun a b => b = a.addCount c) ?_ ?_
      · unfold ITree.sortAndBuildGraph
        show SameRes _ _ (match t.store.dims with | [] => _ | _ :: _ => _)
        cases t.store.dims with
        | nil => exact rfl
        | cons points layers =>
          refine SameRes.same _ (fun counts => ?_)
          exact rfl
      · rintro t _ - - rfl
        exact rfl

theorem getAllEdgesI_count (sort : SortBySecond (Nat × List Nat) W) (t : ITree W) :
    SameRes (fun a b => b = (a.1, a.2.addCount c)) (t.getAllEdges sort) ((t.addCount c).getAllEdges sort) := by
  unfold ITree.getAllEdges
  refine SameRes.bind (getIndexEdges_count c sort t) ?_
  rintro t _ - - rfl
  exact rfl

omit [LinearOrder W] [Zero W] in
theorem iDeletion_count (r : List Nat) (s : IReduced W) :
    SameRes (fun a b => b = { a with nodeCount := a.nodeCount + c }) (iDeletion r s)
      (iDeletion r { s with nodeCount := s.nodeCount + c }) := by
  unfold iDeletion
  refine SameRes.same _ (fun points => ?_)
  refine SameRes.same _ (fun _ => ?_)
  refine SameRes.same _ (fun layer => ?_)
  cases layer.find? (fun a => r = a.1.2) with
  | none => exact rfl
  | some a =>
    refine SameRes.same _ (fun dims => ?_)
    show IReduced.mk _ _ _ = IReduced.mk _ _ _
    simp only [IReduced.mk.injEq, true_and, and_true]
    omega

omit [LinearOrder W] [Zero W] in
theorem iRemove_count (d : Nat) (s : IReduced W) (r : List Nat) :
    SameRes (fun a b => b = { a with nodeCount := a.nodeCount + c }) (iRemove d s r)
      (iRemove d { s with nodeCount := s.nodeCount + c } r) := by
  unfold iRemove
  refine SameRes.same _ (fun layer => ?_)
  refine SameRes.same _ (fun dims => ?_)
  dsimp only
  rw [show s.nodeCount + c - (iEraseEqual r layer).2 = s.nodeCount - (iEraseEqual r layer).2 + c by omega]
  exact iDeletion_count c r ⟨dims, s.nodeCount - (iEraseEqual r layer).2, s.freed⟩

omit [Zero W] in
theorem iReduceLoop_count (big : W) (d : Nat) : ∀ s : IReduced W,
    SameRes (fun a b => b = { a with nodeCount := a.nodeCount + c }) (iReduceLoop big d s)
      (iReduceLoop big d { s with nodeCount := s.nodeCount + c }) := by
  induction d with
  | zero => intro s; exact rfl
  | succ d ih =>
    cases d with
    | zero => intro s; exact rfl
    | succ d =>
      intro s
      rw [iReduceLoop, iReduceLoop]
      refine SameRes.bind (R := fun a b => b = { a with nodeCount := a.nodeCount + c }) ?_ ?_
      · unfold iReduceDim
        refine SameRes.same _ (fun layer => ?_)
        refine SameRes.same _ (fun st => ?_)
        refine SameRes.foldlM (R := fun (a b : IReduced W) => b = { a with nodeCount := a.nodeCount + c }) _ ?_ _ _ rfl
        rintro a _ r - rfl
        exact iRemove_count c _ a r
      · rintro a _ - - rfl
        exact ih a

omit [Zero W] in
theorem ripsIndexed_count (big : W) (dim : Nat) (collapse : String) (t : ITree W) :
    SameRes (fun a b => b = (a.1.addCount c, a.2)) (ripsPipeIndexed big dim collapse t)
      (ripsPipeIndexed big dim collapse (t.addCount c)) := by
  unfold ripsPipeIndexed
  split
  · unfold ITree.reduceComplex
    split
    · exact rfl
    · refine SameRes.bind (iReduceLoop_count c big _ ⟨t.store.dims, t.store.nodeCount, []⟩) ?_
      rintro s _ - - rfl
      refine SameRes.same _ (fun _ => ?_)
      exact rfl
  · exact rfl

/-- A function on packets that does not look at `nodeCount`, except to add to it. -/
def IgnoresCount {P : Type} (c : Int) (f : Work P W → Res (Work P W)) : Prop :=
  ∀ w, SameRes (fun a b => b = a.addCount c) (f w) (f (w.addCount c))

omit [LinearOrder W] [Zero W] in
theorem ripsTree_count (body : Nat → Tree W → Res (Tree W)) (collapse : String) (t : Tree W) :
    SameRes (fun a b => b = a.addCount c) (ripsPipeTree body collapse t) (ripsPipeTree body collapse (t.addCount c)) := by
  have h : ∀ t : Tree W, ripsPipeTree body collapse t = .ok t := by
    intro t
    unfold ripsPipeTree Tree.reduceComplex Tree.dimensions
    cases t.roots <;> simp [pure_eq_ok]
  rw [h, h]
  exact rfl

end

section
variable {W : Type} [LinearOrder W] [Ring W] {K : Type} (c : Int)

theorem runStages_count (lib : Lib K W) (s : Settings W) (hrest : ∀ k, IgnoresCount c (lib.rest k)) (k : PipeKind) :
    IgnoresCount c (runStages lib s k) := by
  intro w
  have hr := hrest k w
  obtain ⟨od, fd, lb, cx, ws, bt, bo⟩ := w
  cases cx with
  | other => cases k <;> exact hr
  | array g dm =>
    cases k
    case distMatrix => exact SameRes.same _ (fun r => rfl)
    case neighGraph => exact SameRes.same _ (fun r => rfl)
    case rips => exact SameRes.same _ (fun r => rfl)
    case fastPersistence =>
      unfold runStages
      dsimp only [Work.addCount, AnyComplex.addCount]
      split
      · refine SameRes.same _ (fun g => ?_)
        refine SameRes.same _ (fun r => ?_)
        exact rfl
      · refine SameRes.same _ (fun g => ?_)
        refine SameRes.same _ (fun r => ?_)
        exact rfl
    all_goals exact hr
  | tree t dm =>
    cases k
    case distMatrix => exact SameRes.same _ (fun r => rfl)
    case neighGraph =>
      refine SameRes.bind (R := fun a b => b = a.addCount c) ?_ ?_
      · unfold neighGraphTree
        refine SameRes.foldlM (R := fun (a b : Tree W) => b = a.addCount c) _ ?_ _ _ rfl
        rintro a _ p - rfl
        split
        · exact rfl
        · exact insert_count c _ _ _ a
      · rintro a _ - - rfl
        exact rfl
    case rips =>
      refine SameRes.bind (ripsTree_count c _ _ t) ?_
      rintro a _ - - rfl
      exact rfl
    case fastPersistence =>
      show SameRes _ (fastPersistence lib.mode s.dim s.eps (t.getAllEdges lib.sort).1 bo bt >>= _)
        (fastPersistence lib.mode s.dim s.eps ((t.addCount c).getAllEdges lib.sort).1 bo bt >>= _)
      rw [getAllEdges_count]
      exact SameRes.same _ (fun r => rfl)
    all_goals exact hr
  | indexed t dm =>
    cases k
    case distMatrix => exact SameRes.same _ (fun r => rfl)
    case neighGraph =>
      refine SameRes.bind (R := fun a b => b = a.addCount c) ?_ ?_
      · unfold neighGraphIndexed
        refine SameRes.foldlM (R := fun (a b : ITree W) => b = a.addCount c) _ ?_ _ _ rfl
        rintro a _ p - rfl
        split
        · exact rfl
        · exact insertI_count c _ _ _ a
      · rintro a _ - - rfl
        exact rfl
    case rips =>
      refine SameRes.bind (ripsIndexed_count c _ _ _ t) ?_
      rintro a _ - - rfl
      exact rfl
    case fastPersistence =>
      refine SameRes.bind (getAllEdgesI_count c _ t) ?_
      rintro a _ - - rfl
      exact SameRes.same _ (fun r => rfl)
    all_goals exact hr

/-- A packet with such a complex. -/
def packetCount (p : Packet (Work (List K) W)) : Packet (Work (List K) W) := { p with data := p.data.addCount c }

/-- A state of the program with such a complex. -/
def worldCount (w : World (List K) W) : World (List K) W := { w with packet := packetCount c w.packet }

theorem runPipeline_count {run : PipeKind → Work (List K) W → Res (Work (List K) W)}
    (h : ∀ k, IgnoresCount c (run k)) (args : ArgMap) (p : Packet (Work (List K) W)) :
    SameRes (fun a b => b = packetCount c a) (runPipeline run args p) (runPipeline run args (packetCount c p)) := by
  unfold runPipeline
  cases args "pipeline" with
  | none => exact rfl
  | some s =>
    refine SameRes.foldlM (R := fun a b => b = packetCount c a) _ ?_ _ _ rfl
    rintro a _ name - rfl
    unfold runStage
    cases newPipe (String.ofList name) (args.val "complexType") with
    | none => exact rfl
    | some k =>
      dsimp only
      split
      · unfold runPipeWrapper
        rw [if_pos rfl, if_pos rfl]
        refine SameRes.bind (h k a.data) ?_
        rintro d _ - - rfl
        show SameRes _ (if a.hasComplex then _ else _) (if a.hasComplex then _ else _)
        split <;> exact rfl
      · exact rfl

theorem runPipelineOut_count {run : PipeKind → Work (List K) W → Res (Work (List K) W)}
    (h : ∀ k, IgnoresCount c (run k)) (io : TextNum W) (args : ArgMap) (w : World (List K) W) :
    SameRes (fun a b => b = worldCount c a) (runPipelineOut io run args w)
      (runPipelineOut io run args (worldCount c w)) := by
  unfold runPipelineOut
  cases args "pipeline" with
  | none => exact rfl
  | some s =>
    refine SameRes.bind (runPipeline_count c h args w.packet) ?_
    rintro p _ - - rfl
    exact rfl

theorem preprocess_count {pre : PreKind → Work (List K) W → Res (Work (List K) W)}
    (h : ∀ k, IgnoresCount c (pre k)) (args : ArgMap) (p : Packet (Work (List K) W)) :
    SameRes (fun a b => b = packetCount c a) (preprocess pre args p) (preprocess pre args (packetCount c p)) := by
  unfold preprocess
  split
  · cases newPreprocessor (args.val "preprocessor") with
    | none => exact rfl
    | some k =>
      dsimp only
      split
      · unfold runPreprocessorWrapper
        split
        · refine SameRes.bind (h k p.data) ?_
          rintro d _ - - rfl
          exact rfl
        · exact rfl
      · exact rfl
  · exact rfl

theorem clearComplex_count (strict : Bool) (w : World (List K) W) :
    SameRes (fun a b => b = worldCount c a) (clearComplex strict w) (clearComplex strict (worldCount c w)) := by
  unfold clearComplex
  show SameRes _ _ (if w.packet.hasComplex then _ else _)
  split
  · obtain ⟨⟨st, hc, ⟨od, fd, lb, cx, ws, bt, bo⟩⟩, fl⟩ := w
    cases cx with
    | other => exact rfl
    | indexed t dm => exact rfl
    | array g dm => exact rfl
    | tree t dm =>
      refine SameRes.bind (R := fun a b => b = a.addCount c) ?_ ?_
      · unfold Tree.clear
        refine SameRes.same _ (fun k => ?_)
        show Tree.mk _ _ _ _ _ _ _ = Tree.mk _ _ _ _ _ _ _
        simp only [Tree.mk.injEq, true_and, and_true, Tree.addCount]
        omega
      · rintro a _ - - rfl
        exact rfl
  · exact rfl

theorem reducedStep_count {runOne : World (List K) W → Res (World (List K) W)}
    (h : ∀ w, SameRes (fun a b => b = worldCount c a) (runOne w) (runOne (worldCount c w))) (strict : Bool)
    (parts : List (List Nat) × List (List (List K))) (st : World (List K) W × List (BettiEntry W)) (z : Nat) :
    SameRes (fun a b => b = (worldCount c a.1, a.2)) (reducedStep strict runOne parts st z)
      (reducedStep strict runOne parts (worldCount c st.1, st.2) z) := by
  unfold reducedStep
  refine SameRes.same _ (fun pts => ?_)
  split
  · refine SameRes.bind (h (st.1.mapWork (fun d => { d with originalData := pts }))) ?_
    rintro a _ - - rfl
    refine SameRes.bind (clearComplex_count c strict a) ?_
    rintro b _ - - rfl
    refine SameRes.same _ (fun labels => ?_)
    refine SameRes.same _ (fun table => ?_)
    exact rfl
  · exact rfl

theorem reducedRuns_count {runOne : World (List K) W → Res (World (List K) W)}
    (h : ∀ w, SameRes (fun a b => b = worldCount c a) (runOne w) (runOne (worldCount c w))) (strict : Bool)
    (dist : List K → List K → Res W) (w : World (List K) W) :
    SameRes (fun a b => b = (worldCount c a.1, a.2)) (reducedRuns strict dist runOne w)
      (reducedRuns strict dist runOne (worldCount c w)) := by
  unfold reducedRuns
  refine SameRes.same _ (fun r => ?_)
  refine SameRes.same _ (fun parts => ?_)
  refine SameRes.bind (R := fun a b => b = (worldCount c a.1, a.2)) ?_ ?_
  · refine SameRes.foldlM (R := fun (a b : World (List K) W × List (BettiEntry W)) => b = (worldCount c a.1, a.2))
      _ ?_ _ _ rfl
    rintro a _ z - rfl
    exact reducedStep_count c h strict parts a z
  · rintro st _ - - rfl
    show SameRes _ (if w.packet.data.originalData.length > 0 then _ else _)
      (if w.packet.data.originalData.length > 0 then _ else _)
    split
    · refine SameRes.bind (h (st.1.mapWork (fun d => { d with originalData := w.packet.data.originalData }))) ?_
      rintro a _ - - rfl
      refine SameRes.bind (clearComplex_count c strict a) ?_
      rintro b _ - - rfl
      exact rfl
    · exact rfl

theorem dispatch_count {runOne : World (List K) W → Res (World (List K) W)}
    {pre : PreKind → Work (List K) W → Res (Work (List K) W)}
    (h : ∀ w, SameRes (fun a b => b = worldCount c a) (runOne w) (runOne (worldCount c w)))
    (hpre : ∀ k, IgnoresCount c (pre k)) (strict : Bool) (dist : List K → List K → Res W) (clusters : Nat)
    (args : ArgMap) (w : World (List K) W) :
    SameRes (fun a b => b = worldCount c a) (dispatch strict dist pre runOne clusters args w)
      (dispatch strict dist pre runOne clusters args (worldCount c w)) := by
  unfold dispatch
  show SameRes _ (if w.packet.data.originalData.length > 0 ∨ args.val "pipeline" = "slidingwindow" then _ else _)
    (if w.packet.data.originalData.length > 0 ∨ args.val "pipeline" = "slidingwindow" then _ else _)
  split
  · split
    · unfold processUpscale
      refine SameRes.bind (preprocess_count c hpre args w.packet) ?_
      rintro p _ - - rfl
      refine SameRes.same _ (fun parts => ?_)
      exact rfl
    · split
      · unfold processReduced
        refine SameRes.bind (preprocess_count c hpre args w.packet) ?_
        rintro p _ - - rfl
        refine SameRes.bind (reducedRuns_count c h strict dist { w with packet := p }) ?_
        rintro r _ - - rfl
        exact rfl
      · unfold processData
        refine SameRes.bind (preprocess_count c hpre args w.packet) ?_
        rintro p _ - - rfl
        exact h { w with packet := p }
  · exact rfl

/-- C126: let `nodeCount` of the new complex hold any number `c`. Then the run ends with the same undefined behaviour or
exception, if any, and otherwise it writes the same files with the same contents, leaves the same data, labels, weights,
tables and lines, and a complex that differs from the other one only in its count, by `c`. -/
theorem C126_uninitialised_count_partial (sys : System K W) (hrest : ∀ k, IgnoresCount c (sys.lib.rest k))
    (hpre : ∀ args k, IgnoresCount c (sys.pre args k)) (argv : List String) :
    (∀ e, mainProgramIn c sys argv = .error e ↔ mainProgram sys argv = .error e) ∧
    (∀ w, mainProgram sys argv = .ok w → ∃ w', mainProgramIn c sys argv = .ok w' ∧ w'.files = w.files ∧
      w'.packet.stats = w.packet.stats ∧ w'.packet.data = w.packet.data.addCount c) := by
  have h : SameRes (fun a b => b = worldCount c a) (mainProgram sys argv) (mainProgramIn c sys argv) := by
    unfold mainProgram mainProgramIn
    refine SameRes.same _ (fun args => ?_)
    dsimp only
    generalize setPipeline args = args
    refine SameRes.same _ (fun data => ?_)
    exact dispatch_count c (runPipelineOut_count c (runStages_count c sys.lib _ hrest) sys.io args) (hpre args)
      sys.strict sys.lib.dist _ args
      ⟨newPacket (args.val "complexType") ⟨data, data, [], newComplex (args.val "complexType"), [], [], []⟩, []⟩
  revert h
  cases mainProgram sys argv with
  | error e =>
    cases mainProgramIn c sys argv with
    | error e' => intro h; cases h; simp
    | ok w' => intro h; cases h
  | ok w =>
    cases mainProgramIn c sys argv with
    | error e' => intro h; cases h
    | ok w' =>
      intro h
      cases h
      refine ⟨by simp, ?_⟩
      intro w h
      cases h
      exact ⟨_, rfl, rfl, rfl, rfl⟩

theorem persistWork_count (lib : Lib K W) (s : Settings W) (hrest : ∀ k, IgnoresCount c (lib.rest k)) :
    IgnoresCount c (persistWork lib s) := by
  intro w
  have hr := hrest .persistencePairs w
  obtain ⟨od, fd, lb, cx, ws, bt, bo⟩ := w
  cases cx with
  | other => exact hr
  | array g dm => exact SameRes.same _ (fun r => rfl)
  | tree t dm =>
    show SameRes _ (runPersistencePairs s.dim s.eps (t.getAllEdges lib.sort).1 >>= _)
      (runPersistencePairs s.dim s.eps ((t.addCount c).getAllEdges lib.sort).1 >>= _)
    rw [getAllEdges_count]
    exact SameRes.same _ (fun r => rfl)
  | indexed t dm =>
    refine SameRes.bind (getAllEdgesI_count c _ t) ?_
    rintro a _ - - rfl
    exact SameRes.same _ (fun r => rfl)

theorem faceColumns_count (t : ITree W) (l : List (IEntry W)) : ∀ i pivots,
    faceColumns (t.addCount c) i pivots l = faceColumns t i pivots l := by
  induction l with
  | nil => intro i pivots; rfl
  | cons e l ih =>
    intro i pivots
    rw [faceColumns, faceColumns]
    simp only [ih]
    rfl

theorem indexPivotLoop_count (t : ITree W) (ge : List (List (IEntry W))) (d : Nat) : ∀ off p ap,
    indexPivotLoop (t.addCount c) ge d off p ap = indexPivotLoop t ge d off p ap := by
  induction d with
  | zero => intro off p ap; rfl
  | succ d ih =>
    intro off p ap
    rw [indexPivotLoop, indexPivotLoop]
    simp only [faceColumns_count, ih]

theorem optPersistWork_count (lib : Lib K W) (s : Settings W) (twist : String)
    (hrest : ∀ k, IgnoresCount c (lib.rest k)) : IgnoresCount c (optPersistWork lib s twist) := by
  intro w
  have hr := hrest .optPersistencePairs w
  obtain ⟨od, fd, lb, cx, ws, bt, bo⟩ := w
  cases cx with
  | other => exact hr
  | array g dm => exact hr
  | tree t dm => exact hr
  | indexed t dm =>
    have hg := getIndexEdges_count c lib.isort t
    have h1 : runTwistPairs lib.isort s.dim s.eps (t.addCount c) = runTwistPairs lib.isort s.dim s.eps t := by
      unfold runTwistPairs
      revert hg
      cases t.getIndexEdges lib.isort with
      | error e =>
        cases (t.addCount c).getIndexEdges lib.isort with
        | error e' => intro h; cases h; rfl
        | ok r => intro h; cases h
      | ok r =>
        cases (t.addCount c).getIndexEdges lib.isort with
        | error e' => intro h; cases h
        | ok r' => intro h; cases h; rfl
    have h2 : runIndexPersistencePairs lib.isort s.dim s.eps (t.addCount c) =
        runIndexPersistencePairs lib.isort s.dim s.eps t := by
      unfold runIndexPersistencePairs indexAllPivots
      revert hg
      cases t.getIndexEdges lib.isort with
      | error e =>
        cases (t.addCount c).getIndexEdges lib.isort with
        | error e' => intro h; cases h; rfl
        | ok r => intro h; cases h
      | ok r =>
        cases (t.addCount c).getIndexEdges lib.isort with
        | error e' => intro h; cases h
        | ok r' =>
          intro h
          cases h
          simp only [ok_bind, indexPivotLoop_count]
    unfold optPersistWork
    dsimp only [Work.addCount, AnyComplex.addCount]
    refine SameRes.bind hg ?_
    rintro r _ - - rfl
    rw [h1, h2]
    split
    · exact SameRes.same _ (fun r => rfl)
    · exact SameRes.same _ (fun r => rfl)

theorem boundaryWork_count (lib : Lib K W) (s : Settings W) (past : Option (BettiDef W)) (debug : Bool)
    (hrest : ∀ k, IgnoresCount c (lib.rest k)) : IgnoresCount c (boundaryWork lib s past debug) := by
  intro w
  have hr := hrest .boundary w
  obtain ⟨od, fd, lb, cx, ws, bt, bo⟩ := w
  cases cx with
  | other => exact hr
  | indexed t dm => exact hr
  | array g dm => exact SameRes.same _ (fun r => rfl)
  | tree t dm =>
    have h : ∀ (l : List W) (t : Tree W), l.foldl (fun t _ => (t.getAllEdges lib.sort).2) (t.addCount c) =
        (l.foldl (fun t _ => (t.getAllEdges lib.sort).2) t).addCount c := by
      intro l
      induction l with
      | nil => intro t; rfl
      | cons a l ih =>
        intro t
        rw [List.foldl_cons, List.foldl_cons, getAllEdges_count, ih]
    unfold boundaryWork
    dsimp only [Work.addCount, AnyComplex.addCount]
    rw [h]
    exact SameRes.same _ (fun r => rfl)

end

theorem kmWork_count (c : Int) (n it first : Nat) (picks : List (Nat × Bool)) :
    IgnoresCount c (kmWork n it first picks) := by
  intro w
  unfold kmWork
  refine SameRes.same _ (fun r => ?_)
  cases r.1.mapM (fun row => row.mapM id) <;> exact rfl

theorem denWork_count (c : Int) (S : SortByLevel ℝ) (ab : ℝ → ℝ) (eps lam : ℝ) (fuel : Nat) :
    IgnoresCount c (denWork S ab eps lam fuel) := by
  intro w
  unfold denWork
  refine SameRes.same _ (fun r => ?_)
  cases r <;> exact rfl

/-- C126: the answers of the complex about its size are wrong by that number: `simplexCount` for both trees and
`vertexCount` for indSimplexTree. -/
theorem C126_count_violated {K W : Type} [LinearOrder W] [Ring W] (c : Int) (hc : c ≠ 0) (sys : System K W)
    (hrest : ∀ k, IgnoresCount c (sys.lib.rest k)) (hpre : ∀ args k, IgnoresCount c (sys.pre args k))
    (argv : List String) (w : World (List K) W) (h : mainProgram sys argv = .ok w) :
    ∃ w', mainProgramIn c sys argv = .ok w' ∧
      (∀ t dm, w.packet.data.complex = .tree t dm →
        w'.packet.data.complex.simplexCount = w.packet.data.complex.simplexCount + c ∧
        w'.packet.data.complex.simplexCount ≠ w.packet.data.complex.simplexCount ∧
        w'.packet.data.complex.vertexCount = w.packet.data.complex.vertexCount) ∧
      (∀ t dm, w.packet.data.complex = .indexed t dm →
        w'.packet.data.complex.simplexCount = w.packet.data.complex.simplexCount + c ∧
        w'.packet.data.complex.simplexCount ≠ w.packet.data.complex.simplexCount ∧
        w'.packet.data.complex.vertexCount ≠ w.packet.data.complex.vertexCount) := by
  obtain ⟨w', h1, -, -, h2⟩ := (C126_uninitialised_count_partial c sys hrest hpre argv).2 w h
  refine ⟨w', h1, ?_, ?_⟩
  · intro t dm ht
    rw [h2]
    unfold Work.addCount
    rw [ht]
    refine ⟨rfl, ?_, rfl⟩
    show t.nodeCount + c ≠ t.nodeCount
    omega
  · intro t dm ht
    rw [h2]
    unfold Work.addCount
    rw [ht]
    refine ⟨rfl, ?_, ?_⟩
    · show t.store.nodeCount + c ≠ t.store.nodeCount
      omega
    · show (Except.ok (t.store.nodeCount + c) : Res Int) ≠ .ok t.store.nodeCount
      intro h
      injection h with h
      omega

/-- C126 with C85: whatever number `nodeCount` of the new simplexTree holds, the default program writes the barcode of the
Rips filtration of the points. -/
theorem C126_standard_program_partial (c : Int) (sys : System ℝ ℝ) (hrest : ∀ k, IgnoresCount c (sys.lib.rest k))
    (hpre : ∀ args k, IgnoresCount c (sys.pre args k)) (hdist : sys.lib.dist = vectorsDistance)
    (hread : sys.lib.mode = .noPivot) (pairs : List (String × String)) (m : ArgMap) (f : String)
    (data : List (List ℝ)) (h : PlainCommand sys pairs m "simplexTree" f data)
    (k : Nat) (hk : 0 < k) (hdim : ∀ p ∈ data, p.length = k)
    (hedge : ∃ i j, i < j ∧ j < data.length ∧ rowDist k data i j < sys.atof (m.val "epsilon")) :
    ∃ w lines, mainProgramIn c sys (commandLine pairs) = .ok w ∧ WritesBarcode sys.io f lines w ∧
      DescribesRips data.length (rowDist k data) (· < sys.atof (m.val "epsilon"))
        (sys.atof (m.val "epsilon")) (sys.atoi (m.val "dimensions")) lines := by
  obtain ⟨w, lines, h1, h2, h3⟩ := C85_standard_program_partial sys hdist hread pairs m f data h k hk hdim hedge
  obtain ⟨w', h4, h5, h6, h7⟩ := (C126_uninitialised_count_partial c sys hrest hpre _).2 w h1
  refine ⟨w', lines, h4, ?_, h3⟩
  unfold WritesBarcode at h2 ⊢
  rw [h5]
  exact h2

/-! ### Examples -/

/-- The stages `persistence` and `boundary` as modelled meet the hypotheses, and so do k-means and DenStream
(`kmWork_count`, `denWork_count`). -/
theorem stageSystem_count (c : Int) (m : ArgMap) (past : Option (BettiDef ℝ)) (text : String) (k : PipeKind) :
    IgnoresCount c ((stageSystem m past text).lib.rest k) := by
  intro w
  have h0 : ∀ k, IgnoresCount c ((realSystem [] [] text).lib.rest k) := fun k w => rfl
  have h1 := persistWork_count c (realSystem [] [] text).lib (settingsOf (realSystem [] [] text) m) h0 w
  have h2 := optPersistWork_count c (realSystem [] [] text).lib (settingsOf (realSystem [] [] text) m)
    (m.val "twist") h0 w
  have h3 := boundaryWork_count c (realSystem [] [] text).lib (settingsOf (realSystem [] [] text) m)
    past ((realSystem [] [] text).atoi (m.val "debug") ≠ 0) h0 w
  obtain ⟨od, fd, lb, cx, ws, bt, bo⟩ := w
  cases k <;> cases cx <;> first | exact rfl | exact h1 | exact h2 | exact h3

/-- A run on three points, in memory that held 7 (and any other number). -/
example (c : Int) : ∃ w lines, mainProgramIn c (realSystem [] [] "00\n03\n09")
    (commandLine [("-i", "data.csv"), ("-o", "bars")]) = .ok w ∧
    WritesBarcode (realSystem [] [] "00\n03\n09").io "bars" lines w := by
  obtain ⟨m, h, hd⟩ : ∃ m, PlainCommand (realSystem [] [] "00\n03\n09") [("-i", "data.csv"), ("-o", "bars")] m
      "simplexTree" "bars" (threePoints 0 3 9) ∧ (realSystem [] [] "00\n03\n09").atoi (m.val "dimensions") ≤ 1 :=
    ⟨_, ⟨rfl, by decide, by decide, Or.inl (by decide), by decide, by decide, by decide, by decide, by decide, rfl,
      by simp⟩, by decide⟩
  obtain ⟨w, lines, h1, h2, -⟩ := C85_standard_program_default _ rfl _ _ _ _ h hd 1 (by norm_num) (by simp)
    ⟨0, 1, by norm_num, by simp, by
      rw [rowDist_line _ 0 1 0 3 (by simp) (by simp)]
      show |(0 : ℝ) - 3| < 5
      norm_num⟩
  obtain ⟨w', h4, h5, -⟩ := (C126_uninitialised_count_partial c (realSystem [] [] "00\n03\n09")
    (fun k w => rfl) (fun a k w => rfl) _).2 w h1
  refine ⟨w', lines, h4, ?_⟩
  unfold WritesBarcode at h2 ⊢
  rw [h5]
  exact h2

end LHF
