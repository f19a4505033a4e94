import Verif.Lemmas.BoundaryPipe

/-! The boundary matrices of boundaryPipe and what its `runPipe` writes. -/

namespace LHF
open Spec

/-- `faces` and `simplices` are the simplices of dimension `d` and `d + 1` of one simplicial complex:
increasing lists without repetition, and every facet of a simplex is listed. -/
def Spec.TwoLayers (d : Nat) (faces simplices : List (List Nat)) : Prop :=
  (∀ f ∈ faces, f.Pairwise (· < ·) ∧ f.length = d + 1) ∧ faces.Nodup ∧
  (∀ s ∈ simplices, s.Pairwise (· < ·) ∧ s.length = d + 2) ∧ simplices.Nodup ∧
  ∀ s ∈ simplices, ∀ f : List Nat, f.Sublist s → f.length = d + 1 → f ∈ faces

/-- C72. For the simplices of two neighbouring dimensions of a complex, `boundaryMatrix` returns the
dimension of the space of boundaries (the rank) and of the space of cycles (the nullity). -/
theorem C72_rank_nullity {d : Nat} {faces simplices : List (List Nat)} (hne : faces ≠ [])
    (h : TwoLayers d faces simplices) :
    ∃ rows, boundaryMatrixPipe faces simplices = .ok (rows,
      Module.finrank (ZMod 2) ↥((chains simplices).map boundary),
      (Module.finrank (ZMod 2) ↥(chains simplices ⊓ LinearMap.ker boundary) : Int)) := by
  obtain ⟨hf, hnd, hs, hns, hfac⟩ := h
  have hr := rank_faces hf hs hnd hfac
  have hd := faces_dependent hf hs hnd hne hfac
  have hbin : IsBinary (faces.map (fun f => simplices.map (fun p => checkFaceV f p)))
      simplices.length := by
    intro row hrow
    obtain ⟨f, -, rfl⟩ := List.mem_map.1 hrow
    refine ⟨by simp, ?_⟩
    intro x hx
    obtain ⟨p, -, rfl⟩ := List.mem_map.1 hx
    unfold checkFaceV
    split_ifs <;> simp
  obtain ⟨rows, h1, -⟩ := C33_reduce_partial hbin (by rw [hr, List.length_map]; exact hd)
  refine ⟨rows, ?_⟩
  unfold boundaryMatrixPipe
  rw [if_neg (by simpa using hne), h1, hr]
  have h2 := cycles_add_rank hns
  rw [← map_boundary_chains] at h2
  have h3 : (simplices.length : Int) - Module.finrank (ZMod 2) ↥((chains simplices).map boundary) =
      (Module.finrank (ZMod 2) ↥(chains simplices ⊓ LinearMap.ker boundary) : Int) := by omega
  rw [h3]

/-- C72, vertices: without faces the rank is 0 and every chain is a cycle. -/
theorem C72_no_faces {simplices : List (List Nat)} (hns : simplices.Nodup) :
    boundaryMatrixPipe [] simplices = .ok ([], 0, (Module.finrank (ZMod 2) ↥(chains simplices) : Int)) := by
  rw [finrank_chains hns]; rfl

/-- C72, Betti numbers: for three neighbouring dimensions of a complex the nullity of the lower matrix
minus the rank of the upper one is the dimension of homology, cycles modulo boundaries. -/
theorem C72_betti {d : Nat} {lower middle upper : List (List Nat)} (hl : lower ≠ []) (hm : middle ≠ [])
    (h : TwoLayers d lower middle) (h' : TwoLayers (d + 1) middle upper) :
    ∃ rows rank null rows' rank' null', boundaryMatrixPipe lower middle = .ok (rows, rank, null) ∧
      boundaryMatrixPipe middle upper = .ok (rows', rank', null') ∧
      null - (rank' : Int) = Module.finrank (ZMod 2)
        ↥((chains middle ⊓ LinearMap.ker boundary).map ((chains upper).map boundary).mkQ) := by
  obtain ⟨rows, h1⟩ := C72_rank_nullity hl h
  obtain ⟨rows', h2⟩ := C72_rank_nullity hm h'
  refine ⟨_, _, _, _, _, _, h1, h2, ?_⟩
  have h3 := boundaries_le_cycles h'.2.2.1 h'.2.2.2.2
  have h4 := finrank_quot_add h3
  omega

/-- A hollow triangle: three edges on three vertices. -/
example : TwoLayers 0 [[0], [1], [2]] [[0, 1], [0, 2], [1, 2]] := by
  refine ⟨by simp, by decide, by simp, by decide, ?_⟩
  intro s hs f hf hl
  obtain ⟨v, rfl⟩ := List.length_eq_one_iff.1 hl
  have := hf.subset (List.mem_singleton_self v)
  simp only [List.mem_cons, List.not_mem_nil, or_false] at hs
  rcases hs with rfl | rfl | rfl <;> simp only [List.mem_cons, List.not_mem_nil, or_false] at this <;>
    rcases this with rfl | rfl <;> simp

section
variable {W : Type}

theorem bettiDims_spec (debug : Bool) (dim : Nat) (hd : debug = false ∨ dim < 3) (eps : W) (d : Nat) :
    ∀ bettis : List (BettiDef W), d ≤ dim → (∀ b ∈ bettis, b.betti = 0) →
    ∃ r, bettiDims debug dim eps d (0, 0) bettis = .ok r ∧ ∀ b ∈ r, b.betti = 0 := by
  induction d with
  | zero =>
    intro bettis hle hz
    unfold bettiDims
    dsimp only
    rw [if_neg (by omega)]
    refine ⟨_, rfl, ?_⟩
    intro b hb
    split_ifs at hb with h
    · rcases List.mem_append.1 hb with hb | hb
      · exact hz b hb
      · rw [List.mem_singleton] at hb; subst hb; rfl
    · exact hz b hb
  | succ d ih =>
    intro bettis hle hz
    unfold bettiDims
    dsimp only
    rw [if_neg (by rcases hd with rfl | hd; simp; omega)]
    apply ih _ (by omega)
    intro b hb
    split_ifs at hb with h
    · rcases List.mem_append.1 hb with hb | hb
      · exact hz b hb
      · rw [List.mem_singleton] at hb; subst hb; rfl
    · exact hz b hb

theorem bettiWeights_spec [LinearOrder W] (debug : Bool) (dim : Nat) (hd : debug = false ∨ dim < 3) (ws : List W) :
    ∀ (eps : W) (bettis : List (BettiDef W)), (∀ b ∈ bettis, b.betti = 0) →
    ∃ r, bettiWeights debug dim ws eps bettis = .ok r ∧ ∀ b ∈ r, b.betti = 0 := by
  induction ws with
  | nil => intro eps bettis h; exact ⟨bettis, rfl, h⟩
  | cons w ws ih =>
    intro eps bettis h
    unfold bettiWeights
    split_ifs with hw
    · obtain ⟨r, h1, h2⟩ := bettiDims_spec debug dim hd w dim bettis le_rfl h
      obtain ⟨r', h3, h4⟩ := ih w r h2
      exact ⟨r', by rw [h1]; exact h3, h4⟩
    · exact ih eps bettis h

theorem bettiTurn_zero (maxEps : W) (i j : Nat) (b : BettiDef W) (hb : b.betti = 0 ∨ b.dim ≠ i)
    (rows : List (Nat × W × W)) (e : W) :
    bettiTurn maxEps i j b (rows, e, 0) = (rows, e, 0) := by
  unfold bettiTurn
  dsimp only
  rcases hb with hb | hb
  · rw [hb]
    simp
  · rw [if_neg hb]
    simp

theorem bettiLoop_zero (past : BettiDef W) (maxEps : W) (bettis : List (BettiDef W)) (i : Nat)
    (hb : ∀ b ∈ bettis, b.betti = 0) (hp : past.betti = 0 ∨ past.dim ≠ i) (rows : List (Nat × W × W))
    (e : W) : ∀ j, bettiLoop (some past) maxEps bettis i j (rows, e, 0) = .ok (rows, e, 0) := by
  have hr : ∀ j, ∃ b, readBetti (some past) bettis j = .ok b ∧ (b.betti = 0 ∨ b.dim ≠ i) := by
    intro j
    unfold readBetti
    rcases h : bettis[j]? with _ | b
    · exact ⟨past, rfl, hp⟩
    · exact ⟨b, rfl, Or.inl (hb b (List.mem_of_getElem? h))⟩
  intro j
  induction j with
  | zero =>
    obtain ⟨b, h1, h2⟩ := hr 0
    unfold bettiLoop
    rw [h1, ok_bind, bettiTurn_zero _ _ _ _ h2]; rfl
  | succ j ih =>
    obtain ⟨b, h1, h2⟩ := hr (j + 1)
    unfold bettiLoop
    rw [h1, ok_bind, bettiTurn_zero _ _ _ _ h2, ih]

end

/-- C73 is violated. For every maximal dimension of at least 1 and every set of weights `runPipe` reads
an entry of the list of Betti numbers past its end. -/
theorem C73_out_of_range_violated {W : Type} [LinearOrder W] [Zero W] (debug : Bool) {dim : Nat}
    (hd : 1 ≤ dim) (maxEps : W) (weights : List W) :
    boundaryRun none debug dim maxEps weights = .error .oob := by
  unfold boundaryRun
  have key : ∀ bettis : List (BettiDef W), ∀ rows i s,
      bettiLoop none maxEps bettis i bettis.length (rows, s, 0) = .error .oob := by
    intro bettis rows i s
    have hr : readBetti none bettis bettis.length = .error .oob := by
      unfold readBetti; rw [List.getElem?_eq_none (le_refl _)]
    cases h : bettis.length with
    | zero => unfold bettiLoop; rw [← h, hr]; rfl
    | succ n => unfold bettiLoop; rw [← h, hr]; rfl
  have hfold : ∀ bettis : List (BettiDef W), (List.range dim).foldlM (fun rows i => do
      let s ← bettiLoop none maxEps bettis i bettis.length (rows, 0, 0)
      pure s.1) ([] : List (Nat × W × W)) = .error .oob := by
    intro bettis
    obtain ⟨n, rfl⟩ : ∃ n, dim = n + 1 := ⟨dim - 1, by omega⟩
    rw [List.range_succ_eq_map, List.foldlM_cons, key]
    rfl
  have hw : ∀ ws : List W, ∀ eps bettis, bettiWeights debug dim ws eps bettis = .error .oob ∨
      ∃ r, bettiWeights debug dim ws eps bettis = .ok r := by
    have hdims : ∀ (w : W) d last bettis, bettiDims debug dim w d last bettis = .error .oob ∨
        ∃ r, bettiDims debug dim w d last bettis = .ok r := by
      intro w d
      induction d with
      | zero =>
        intro last bettis
        unfold bettiDims
        dsimp only
        rw [if_neg (by omega)]
        exact Or.inr ⟨_, rfl⟩
      | succ d ih =>
        intro last bettis
        unfold bettiDims
        dsimp only
        by_cases h : (debug = true) ∧ 3 ≤ d + 1
        · rw [if_pos h]; exact Or.inl rfl
        · rw [if_neg h]; exact ih _ _
    intro ws
    induction ws with
    | nil => intro eps bettis; exact Or.inr ⟨_, rfl⟩
    | cons w ws ih =>
      intro eps bettis
      unfold bettiWeights
      split_ifs with h
      · rcases hdims w dim (0, 0) bettis with h1 | ⟨r, h1⟩
        · exact Or.inl (by rw [h1]; rfl)
        · rw [h1]; exact ih w r
      · exact ih eps bettis
  rcases hw weights 0 [] with h | ⟨r, h⟩
  · rw [h]; rfl
  · rw [h]; exact hfold r

/-- C73 is violated even if that read is taken to be harmless (the entry past the end holds the count 0
or a dimension that is not asked for): no row is written, whatever complex the packet holds. -/
theorem C73_no_rows_violated {W : Type} [LinearOrder W] [Zero W] (past : BettiDef W) (debug : Bool)
    {dim : Nat} (hd : debug = false ∨ dim < 3) (hp : past.betti = 0 ∨ dim ≤ past.dim) (maxEps : W)
    (weights : List W) : boundaryRun (some past) debug dim maxEps weights = .ok [] := by
  unfold boundaryRun
  obtain ⟨r, h1, h2⟩ := bettiWeights_spec debug dim hd weights 0 [] (by simp)
  rw [h1, ok_bind]
  have : ∀ l : List Nat, (∀ i ∈ l, i < dim) → l.foldlM (fun rows i => do
      let s ← bettiLoop (some past) maxEps r i r.length (rows, 0, 0)
      pure s.1) ([] : List (Nat × W × W)) = .ok [] := by
    intro l
    induction l with
    | nil => intro _; rfl
    | cons i l ih =>
      intro hi
      rw [List.foldlM_cons, bettiLoop_zero past maxEps r i h2
        (hp.imp id (fun h => by have := hi i (List.mem_cons_self ..); omega))]
      exact ih (fun x hx => hi x (List.mem_cons_of_mem _ hx))
  exact this _ (fun i hi => List.mem_range.1 hi)

/-- C73, debugging: with the debug flag set and a maximal dimension of at least 3, the first weight
other than 0 makes `runPipe` write outside its table of three debug texts. -/
theorem C73_debug_violated {W : Type} [LinearOrder W] [Zero W] (past : Option (BettiDef W)) {dim : Nat}
    (hd : 3 ≤ dim) (maxEps w : W) (hw : w ≠ 0) (ws : List W) :
    boundaryRun past true dim maxEps (w :: ws) = .error .oob := by
  have : bettiDims true dim w dim (0, 0) ([] : List (BettiDef W)) = .error .oob := by
    unfold bettiDims
    dsimp only
    rw [if_pos ⟨rfl, hd⟩]
  unfold boundaryRun bettiWeights
  rw [if_pos (Ne.symm hw), this]
  rfl

end LHF
