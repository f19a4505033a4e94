import Verif.Lemmas.FarTree
import Verif.Lemmas.TruncatePersistence
import Verif.Lemmas.Pivots

/-! The reduction of a complex with two parts that share no vertex does on each part what the reduction of
that part alone does. -/

namespace LHF

/-! ### Positions of the elements of one part -/

/-- The position of element number `p` among those with `P`. -/
def emb {α : Type} (P : α → Bool) : List α → Nat → Nat
  | [], p => p
  | x :: l, p => if P x then (if p = 0 then 0 else emb P l (p - 1) + 1) else emb P l p + 1

theorem emb_strictMono {α : Type} (P : α → Bool) (l : List α) : StrictMono (emb P l) := by
  induction l with
  | nil => exact fun _ _ h => h
  | cons x l ih =>
    intro p q h
    unfold emb
    split_ifs with h1 h2 h3
    · omega
    · omega
    · omega
    · have := ih (by omega : p - 1 < q - 1); omega
    · have := ih h; omega

theorem getElem?_emb {α : Type} (P : α → Bool) (l : List α) : ∀ p : Nat,
    l[emb P l p]? = (l.filter P)[p]? := by
  induction l with
  | nil => intro p; simp
  | cons x l ih =>
    intro p
    unfold emb
    by_cases h1 : P x = true
    · rw [if_pos h1, List.filter_cons_of_pos h1]
      by_cases h2 : p = 0
      · subst h2; simp
      · rw [if_neg h2, List.getElem?_cons_succ, ih]
        obtain ⟨q, rfl⟩ : ∃ q, p = q + 1 := ⟨p - 1, by omega⟩
        simp
    · rw [if_neg h1, List.filter_cons_of_neg h1, List.getElem?_cons_succ, ih]

theorem emb_surj {α : Type} (P : α → Bool) (l : List α) : ∀ (i : Nat) (x : α), l[i]? = some x →
    P x = true → ∃ p, p < (l.filter P).length ∧ emb P l p = i := by
  induction l with
  | nil => intro i x h; simp at h
  | cons y l ih =>
    intro i x h hx
    cases i with
    | zero =>
      obtain rfl : y = x := by simpa using h
      refine ⟨0, by simp [hx], ?_⟩
      unfold emb
      rw [if_pos hx, if_pos rfl]
    | succ i =>
      obtain ⟨p, h1, h2⟩ := ih i x (by simpa using h) hx
      by_cases hy : P y = true
      · refine ⟨p + 1, by simp [hy, h1], ?_⟩
        unfold emb
        rw [if_pos hy, if_neg (by omega)]
        simp [h2]
      · refine ⟨p, by simp [hy, h1], ?_⟩
        unfold emb
        rw [if_neg hy, h2]

theorem emb_here {α : Type} (P : α → Bool) (pre rest : List α) (x : α) (hx : P x = true) :
    emb P (pre ++ x :: rest) (pre.filter P).length = pre.length := by
  induction pre with
  | nil => simp [emb, hx]
  | cons y pre ih =>
    rw [List.cons_append, emb]
    by_cases hy : P y = true
    · rw [if_pos hy, List.filter_cons_of_pos hy]
      simp [ih]
    · rw [if_neg hy, List.filter_cons_of_neg hy, ih]
      simp

/-- No position of one part is one of the other. -/
theorem emb_foreign {α : Type} (P Q : α → Bool) (l : List α) (h : ∀ x ∈ l, P x = true → Q x = true → False)
    {p q : Nat} (hp : p < (l.filter P).length) (hq : q < (l.filter Q).length) :
    emb P l p ≠ emb Q l q := by
  intro e
  have h1 := getElem?_emb P l p
  have h2 := getElem?_emb Q l q
  rw [e, h2, List.getElem?_eq_getElem hp, List.getElem?_eq_getElem hq] at h1
  have a1 := List.mem_filter.1 (List.getElem_mem hp)
  have a2 := List.mem_filter.1 (List.getElem_mem hq)
  have : (l.filter Q)[q] = (l.filter P)[p] := by injection h1
  rw [this] at a2
  exact h _ a1.1 a1.2 a2.2

/-! ### Columns -/

theorem symDiffStep_map {φ : Nat → Nat} (hφ : StrictMono φ) (x : Nat) (f g : List Nat → List Nat)
    (hfg : ∀ l, g (l.map φ) = (f l).map φ) (l : List Nat) :
    symDiffStep (φ x) g (l.map φ) = (symDiffStep x f l).map φ := by
  induction l with
  | nil => simpa [symDiffStep] using hfg []
  | cons y l ih =>
    simp only [List.map_cons, symDiffStep, hφ.lt_iff_lt]
    split_ifs
    · have := hfg (y :: l)
      simpa using this
    · simp [ih]
    · exact hfg l

theorem setXOR_map {φ : Nat → Nat} (hφ : StrictMono φ) (a : List Nat) : ∀ b : List Nat,
    setXOR (a.map φ) (b.map φ) = (setXOR a b).map φ := by
  unfold setXOR
  induction a with
  | nil => intro b; rfl
  | cons x a ih =>
    intro b
    rw [List.map_cons, stdSymDiff, stdSymDiff]
    exact symDiffStep_map hφ x _ _ ih b

theorem mem_stdSymDiff_sub (a : List Nat) : ∀ (b : List Nat) (z : Nat), z ∈ stdSymDiff a b → z ∈ a ∨ z ∈ b := by
  induction a with
  | nil => intro b z h; exact Or.inr h
  | cons x a ih =>
    intro b
    rw [stdSymDiff]
    induction b with
    | nil =>
      intro z h
      rw [symDiffStep] at h
      rcases List.mem_cons.1 h with h | h
      · exact Or.inl (by simp [h])
      · rcases ih _ _ h with h | h
        · exact Or.inl (by simp [h])
        · cases h
    | cons y b ihb =>
      intro z h
      rw [symDiffStep] at h
      split_ifs at h
      · rcases List.mem_cons.1 h with h | h
        · exact Or.inl (by simp [h])
        · rcases ih _ _ h with h | h
          · exact Or.inl (by simp [h])
          · exact Or.inr h
      · rcases List.mem_cons.1 h with h | h
        · exact Or.inr (by simp [h])
        · rcases ihb _ h with h | h
          · exact Or.inl h
          · exact Or.inr (by simp [h])
      · rcases ih _ _ h with h | h
        · exact Or.inl (by simp [h])
        · exact Or.inr (by simp [h])

/-- The same result at other positions. -/
def ColResult.map (φ : Nat → Nat) : ColResult → ColResult
  | .stored p c => .stored (φ p) (c.map φ)
  | .dropped => .dropped

/-- The columns stored for the rows of the part are those of its own run. -/
structure SimCols (φ : Nat → Nat) (n : Nat) (vU vS : List (Nat × List Nat)) : Prop where
  /-- same columns -/
  look : ∀ p, p < n → lookupCol vU (φ p) = (lookupCol vS p).map (List.map φ)
  /-- the columns have rows of the part only -/
  bound : ∀ p c, lookupCol vS p = some c → ∀ x ∈ c, x < n

theorem reduceCol_map {φ : Nat → Nat} (hφ : StrictMono φ) {n : Nat} {vU vS : List (Nat × List Nat)}
    (h : SimCols φ n vU vS) : ∀ (f : Nat) (x : List Nat) (y : ColResult), (∀ p ∈ x, p < n) →
    reduceCol vS f x = some y →
    reduceCol vU f (x.map φ) = some (y.map φ) ∧
      ∀ p c, y = .stored p c → p < n ∧ ∀ z ∈ c, z < n := by
  intro f
  induction f with
  | zero => intro x y _ h; cases h
  | succ f ih =>
    intro x y hx hr
    cases x with
    | nil => cases hr; exact ⟨rfl, by rintro p c ⟨⟩⟩
    | cons p x =>
      rw [reduceCol] at hr
      rw [List.map_cons, reduceCol]
      dsimp only at hr ⊢
      rw [h.look p (hx p (by simp))]
      cases hv : lookupCol vS p with
      | none =>
        rw [hv] at hr
        cases hr
        refine ⟨rfl, ?_⟩
        rintro p' c' ⟨⟩
        exact ⟨hx p (by simp), hx⟩
      | some c =>
        rw [hv] at hr
        dsimp only [Option.map_some] at hr ⊢
        rw [← List.map_cons, setXOR_map hφ]
        have hinj : (setXOR c (p :: x)).map φ = (p :: x).map φ ↔ setXOR c (p :: x) = p :: x :=
          (List.map_injective_iff.2 hφ.injective).eq_iff
        by_cases ho : setXOR c (p :: x) = p :: x
        · rw [if_pos ho] at hr
          rw [if_pos (hinj.2 ho)]
          cases hr
          exact ⟨rfl, by rintro p c ⟨⟩⟩
        · rw [if_neg ho] at hr
          rw [if_neg (fun e => ho (hinj.1 e))]
          refine ih _ _ ?_ hr
          intro z hz
          rcases mem_stdSymDiff_sub _ _ _ hz with hz | hz
          · exact h.bound p c hv z hz
          · exact hx z hz

theorem lookupCol_cons (v : List (Nat × List Nat)) (p : Nat) (c : List Nat) (q : Nat) :
    lookupCol ((p, c) :: v) q = if p = q then some c else lookupCol v q := by
  unfold lookupCol
  rw [List.find?_cons]
  by_cases h : p = q
  · simp [h]
  · have : (p == q) = false := by simpa using h
    simp [h, this]

/-! ### One column -/

section
variable {W : Type} [LinearOrder W]

omit [LinearOrder W] in
theorem shiftE_zero (l : List (List Nat × W)) : l.map (shiftE 0) = l := by
  have e : (shiftE 0 : List Nat × W → List Nat × W) = id := by funext e; simp [shiftE]
  simp [e]

/-- The part `P` of the rows is the list `RS`, its vertices moved. -/
structure IsPart (P : List Nat × W → Bool) (m : Nat) (RU RS : List (List Nat × W)) : Prop where
  /-- the rows of the part -/
  rows : RU.filter P = RS.map (shiftE m)

omit [LinearOrder W] in
theorem IsPart.length {P : List Nat × W → Bool} {m : Nat} {RU RS : List (List Nat × W)}
    (h : IsPart P m RU RS) : (RU.filter P).length = RS.length := by rw [h.rows, List.length_map]

omit [LinearOrder W] in
theorem IsPart.get {P : List Nat × W → Bool} {m : Nat} {RU RS : List (List Nat × W)}
    (h : IsPart P m RU RS) (p : Nat) : RU[emb P RU p]? = RS[p]?.map (shiftE m) := by
  rw [getElem?_emb, h.rows, List.getElem?_map]

omit [LinearOrder W] in
theorem IsPart.length_le {P : List Nat × W → Bool} {m : Nat} {RU RS : List (List Nat × W)}
    (h : IsPart P m RU RS) : RS.length ≤ RU.length := by
  rw [← h.length]; exact List.length_filter_le _ _

omit [LinearOrder W] in
theorem colOf_part {P : List Nat × W → Bool} {m : Nat} {RU RS : List (List Nat × W)}
    (h : IsPart P m RU RS) {pivU pivS : List Nat}
    (hpiv : ∀ p, p < RS.length → (emb P RU p ∈ pivU ↔ p ∈ pivS)) (s : List Nat)
    (hforeign : ∀ r ∈ RU, P r = false → ¬ ∀ v ∈ r.1, v ∈ s.map (· + m)) :
    colOf RU pivU (s.map (· + m)) = (colOf RS pivS s).map (emb P RU) := by
  have hsub : ∀ r : List Nat × W, (∀ v ∈ (shiftE m r).1, v ∈ s.map (· + m)) ↔ ∀ v ∈ r.1, v ∈ s := by
    intro r
    constructor
    · intro hv v hr
      obtain ⟨w, hw, he⟩ := List.mem_map.1 (hv (v + m) (by simpa [shiftE] using hr))
      rwa [show v = w by omega]
    · intro hv v hr
      obtain ⟨w, hw, rfl⟩ := List.mem_map.1 hr
      exact List.mem_map.2 ⟨w, hv w hw, rfl⟩
  apply Inc.ext (inc_colOf _ _ _)
  · have : (colOf RS pivS s).Pairwise (· < ·) := inc_colOf _ _ _
    exact List.pairwise_map.2 (this.imp (fun h => emb_strictMono P RU h))
  · intro x
    rw [mem_colOf, List.mem_map]
    constructor
    · rintro ⟨h1, row, h2, h3⟩
      have hP : P row = true := by
        by_contra hn
        exact hforeign row (List.mem_of_getElem? h2) (by simpa using hn) h3
      obtain ⟨p, hp, rfl⟩ := emb_surj P RU x row h2 hP
      rw [h.length] at hp
      refine ⟨p, ?_, rfl⟩
      rw [mem_colOf]
      refine ⟨fun hq => h1 ((hpiv p hp).2 hq), RS[p], List.getElem?_eq_getElem hp, ?_⟩
      rw [h.get, List.getElem?_eq_getElem hp] at h2
      obtain rfl : shiftE m RS[p] = row := by simpa using h2
      exact (hsub _).1 h3
    · rintro ⟨p, hp, rfl⟩
      obtain ⟨h1, row, h2, h3⟩ := mem_colOf.1 hp
      have hlt := (List.getElem?_eq_some_iff.1 h2).1
      refine ⟨fun hq => h1 ((hpiv p hlt).1 hq), shiftE m row, ?_, (hsub _).2 h3⟩
      rw [h.get, h2]
      rfl

/-- What a step of the part's own run says about a step of the joint run. -/
theorem columnStep_part {P : List Nat × W → Bool} {m d : Nat} {RU RS : List (List Nat × W)}
    (h : IsPart P m RU RS) {pivU pivS : List Nat} (hpU : Inc pivU) (hpS : Inc pivS)
    (hincU : ∀ r ∈ RU, Inc r.1) (hincS : ∀ r ∈ RS, Inc r.1)
    (hpiv : ∀ p, p < RS.length → (emb P RU p ∈ pivU ↔ p ∈ pivS)) (c : List Nat × W) (hc : Inc c.1)
    (hforeign : ∀ r ∈ RU, P r = false → ¬ ∀ v ∈ r.1, v ∈ (shiftE m c).1)
    {rU rS rS' : Reduction W} (hsim : SimCols (emb P RU) RS.length rU.v rS.v)
    (hS : columnStep .noPivot d pivS RS rS c = .ok rS') :
    ∃ rU' x, columnStep .noPivot d pivU RU rU (shiftE m c) = .ok rU' ∧
      SimCols (emb P RU) RS.length rU'.v rS'.v ∧
      (∀ i, (∀ p, p < RS.length → emb P RU p ≠ i) → lookupCol rU'.v i = lookupCol rU.v i) ∧
      rU'.columnIndex = rU.columnIndex + 1 ∧ rS'.columnIndex = rS.columnIndex + 1 ∧
      rU'.lines = rU.lines ++ x ∧ rS'.lines = rS.lines ++ x ∧
      ((rU'.nextPivots = rU.nextPivots ∧ rS'.nextPivots = rS.nextPivots) ∨
        (rU'.nextPivots = rU.nextPivots ++ [rU.columnIndex] ∧
          rS'.nextPivots = rS.nextPivots ++ [rS.columnIndex])) := by
  have hcU : Inc (shiftE m c).1 := by
    have : c.1.Pairwise (· < ·) := hc
    exact List.pairwise_map.2 (this.imp (fun h => by omega))
  unfold columnStep at hS ⊢
  rw [build_noPivot hpS pivS hincS hc, ok_bind] at hS
  rw [build_noPivot hpU pivU hincU hcU, ok_bind]
  have hcol := colOf_part h hpiv c.1 hforeign
  change colOf RU pivU (shiftE m c).1 = _ at hcol
  rw [hcol]
  cases hred : reduceCol rS.v (RS.length + 1) (colOf RS pivS c.1) with
  | none => rw [hred] at hS; cases hS
  | some y =>
    have hbd : ∀ p ∈ colOf RS pivS c.1, p < RS.length := by
      intro p hp
      obtain ⟨-, row, h2, -⟩ := mem_colOf.1 hp
      exact (List.getElem?_eq_some_iff.1 h2).1
    obtain ⟨g1, g2⟩ := reduceCol_map (emb_strictMono P RU) hsim _ _ _ hbd hred
    rw [reduceCol_fuel _ _ _ _ (RU.length + 1) g1 (by have := h.length_le; omega)]
    rw [hred] at hS
    cases y with
    | dropped =>
      cases hS
      exact ⟨_, [], rfl, hsim, fun _ _ => rfl, rfl, rfl, by simp, by simp, Or.inl ⟨rfl, rfl⟩⟩
    | stored p y =>
      obtain ⟨hp, hy⟩ := g2 p y rfl
      dsimp only [ColResult.map] at hS ⊢
      have hS2 : vget RS p = .ok RS[p] := by rw [vget_ok]; exact List.getElem?_eq_getElem hp
      have hU2 : vget RU (emb P RU p) = .ok (shiftE m RS[p]) := by
        rw [vget_ok, h.get, List.getElem?_eq_getElem hp]; rfl
      rw [hS2, ok_bind] at hS
      rw [hU2, ok_bind]
      have hsim' : SimCols (emb P RU) RS.length ((emb P RU p, y.map (emb P RU)) :: rU.v)
          ((p, y) :: rS.v) := by
        refine ⟨fun q hq => ?_, fun q c' hq => ?_⟩
        · rw [lookupCol_cons, lookupCol_cons]
          by_cases hpq : p = q
          · subst hpq; simp
          · rw [if_neg hpq, if_neg (fun e => hpq ((emb_strictMono P RU).injective e)), hsim.look q hq]
        · rw [lookupCol_cons] at hq
          by_cases hpq : p = q
          · rw [if_pos hpq] at hq
            cases hq
            exact hy
          · rw [if_neg hpq] at hq
            exact hsim.bound q c' hq
      have hfor : ∀ i, (∀ p, p < RS.length → emb P RU p ≠ i) →
          lookupCol ((emb P RU p, y.map (emb P RU)) :: rU.v) i = lookupCol rU.v i := by
        intro i hi
        rw [lookupCol_cons, if_neg (hi p hp)]
      have hw : ((shiftE m RS[p]).2 ≠ (shiftE m c).2) ↔ RS[p].2 ≠ c.2 := Iff.rfl
      by_cases hne : RS[p].2 ≠ c.2
      · rw [if_pos hne] at hS
        rw [if_pos (hw.2 hne)]
        cases hS
        exact ⟨_, [(d, RS[p].2, c.2)], rfl, hsim', hfor, rfl, rfl, rfl, rfl, Or.inr ⟨rfl, rfl⟩⟩
      · rw [if_neg hne] at hS
        rw [if_neg (fun e => hne (hw.1 e))]
        cases hS
        exact ⟨_, [], rfl, hsim', hfor, rfl, rfl, by simp, by simp, Or.inr ⟨rfl, rfl⟩⟩

/-! ### All columns of a dimension -/

/-- The joint run after the columns `pre` of `CU`, seen from one part. -/
structure SideInv (P : List Nat × W → Bool) (RU RS CU pre : List (List Nat × W)) (rU rS : Reduction W) :
    Prop where
  /-- stored columns -/
  sim : SimCols (emb P RU) RS.length rU.v rS.v
  /-- position -/
  idx : rS.columnIndex = (pre.filter P).length
  /-- selected columns -/
  piv : ∀ q, q < (CU.filter P).length → (emb P CU q ∈ rU.nextPivots ↔ q ∈ rS.nextPivots)

/-- What a step of the joint run does. -/
structure FarStep (P : List Nat × W → Bool) (RU RS : List (List Nat × W)) (rU rU' rS rS' : Reduction W)
    (x : List (Line W)) : Prop where
  sim : SimCols (emb P RU) RS.length rU'.v rS'.v
  other : ∀ i, (∀ p, p < RS.length → emb P RU p ≠ i) → lookupCol rU'.v i = lookupCol rU.v i
  idxU : rU'.columnIndex = rU.columnIndex + 1
  idxS : rS'.columnIndex = rS.columnIndex + 1
  linesU : rU'.lines = rU.lines ++ x
  linesS : rS'.lines = rS.lines ++ x
  next : (rU'.nextPivots = rU.nextPivots ∧ rS'.nextPivots = rS.nextPivots) ∨
        (rU'.nextPivots = rU.nextPivots ++ [rU.columnIndex] ∧
          rS'.nextPivots = rS.nextPivots ++ [rS.columnIndex])

omit [LinearOrder W] in
/-- A step on a column of the part. -/
theorem SideInv.own {P : List Nat × W → Bool} {RU RS CU pre rest : List (List Nat × W)}
    {c : List Nat × W} {rU rU' rS rS' : Reduction W} {x : List (Line W)}
    (h : SideInv P RU RS CU pre rU rS) (hs : FarStep P RU RS rU rU' rS rS' x)
    (hCU : CU = pre ++ c :: rest) (hc : P c = true) (hidx : rU.columnIndex = pre.length) :
    SideInv P RU RS CU (pre ++ [c]) rU' rS' := by
  refine ⟨hs.sim, ?_, ?_⟩
  · rw [hs.idxS, h.idx]
    simp [hc]
  · intro q hq
    rcases hs.next with ⟨h1, h2⟩ | ⟨h1, h2⟩
    · rw [h1, h2]; exact h.piv q hq
    · rw [h1, h2, List.mem_append, List.mem_append, h.piv q hq, List.mem_singleton, List.mem_singleton,
        hidx, h.idx]
      have e : emb P CU (pre.filter P).length = pre.length := by
        rw [hCU]; exact emb_here P pre rest c hc
      rw [← e, (emb_strictMono P CU).injective.eq_iff]

omit [LinearOrder W] in
/-- A step on a column of the other part. -/
theorem SideInv.foreign {P Q : List Nat × W → Bool} {RU RS RT CU pre rest : List (List Nat × W)}
    {c : List Nat × W} {rU rU' rS rT rT' : Reduction W} {x : List (Line W)} {m : Nat}
    (h : SideInv P RU RS CU pre rU rS) (hs : FarStep Q RU RT rU rU' rT rT' x)
    (hRS : (RU.filter P).length = RS.length) (hRT : IsPart Q m RU RT)
    (hdis : ∀ e : List Nat × W, P e = true → Q e = true → False)
    (hCU : CU = pre ++ c :: rest) (hc : Q c = true) (hidx : rU.columnIndex = pre.length) :
    SideInv P RU RS CU (pre ++ [c]) rU' rS := by
  have hPc : P c = false := by
    by_contra hn
    exact hdis c (by simpa using hn) hc
  refine ⟨⟨fun p hp => ?_, h.sim.bound⟩, ?_, ?_⟩
  · rw [hs.other, h.sim.look p hp]
    intro q hq
    exact emb_foreign Q P RU (fun e _ h1 h2 => hdis e h2 h1) (by rw [hRT.length]; exact hq)
      (by rw [hRS]; exact hp)
  · rw [h.idx]
    simp [hPc]
  · intro q hq
    rcases hs.next with ⟨h1, -⟩ | ⟨h1, -⟩
    · rw [h1]; exact h.piv q hq
    · rw [h1, List.mem_append, h.piv q hq, List.mem_singleton, hidx]
      constructor
      · rintro (h | h)
        · exact h
        · exfalso
          have h2 := getElem?_emb P CU q
          have hgc : CU[pre.length]? = some c := by rw [hCU]; simp
          rw [h, List.getElem?_eq_getElem hq, hgc] at h2
          have h3 := List.mem_filter.1 (List.getElem_mem hq)
          have h4 : c = (CU.filter P)[q] := by injection h2
          rw [← h4, hPc] at h3
          exact absurd h3.2 (by simp)
      · exact Or.inl

/-- What a dimension of the joint complex must satisfy. -/
structure FarDim (P : List Nat × W → Bool) (m : Nat) (RU RA RB CU CA CB : List (List Nat × W)) : Prop where
  rowsA : IsPart P 0 RU RA
  rowsB : IsPart (fun e => !P e) m RU RB
  colsA : IsPart P 0 CU CA
  colsB : IsPart (fun e => !P e) m CU CB
  incR : ∀ r ∈ RU, Inc r.1
  incA : ∀ r ∈ RA, Inc r.1
  incB : ∀ r ∈ RB, Inc r.1
  incCA : ∀ r ∈ CA, Inc r.1
  incCB : ∀ r ∈ CB, Inc r.1
  apart : ∀ r ∈ RU, ∀ c ∈ CU, P r ≠ P c → ¬ ∀ v ∈ r.1, v ∈ c.1

/-- All columns. -/
theorem columns_far {P : List Nat × W → Bool} {m d : Nat} {RU RA RB CU CA CB : List (List Nat × W)}
    (H : FarDim P m RU RA RB CU CA CB) {pU pA pB : List Nat} (hpU : Inc pU) (hpA : Inc pA)
    (hpB : Inc pB) (hpivA : ∀ p, p < RA.length → (emb P RU p ∈ pU ↔ p ∈ pA))
    (hpivB : ∀ p, p < RB.length → (emb (fun e => !P e) RU p ∈ pU ↔ p ∈ pB)) (rest : List (List Nat × W)) :
    ∀ (pre restA restB : List (List Nat × W)) (rU rA rB rA' rB' : Reduction W),
    CU = pre ++ rest → rest.filter P = restA.map (shiftE 0) →
    rest.filter (fun e => !P e) = restB.map (shiftE m) →
    (∀ c ∈ restA, Inc c.1) → (∀ c ∈ restB, Inc c.1) →
    SideInv P RU RA CU pre rU rA → SideInv (fun e => !P e) RU RB CU pre rU rB →
    rU.columnIndex = pre.length →
    restA.foldlM (columnStep .noPivot d pA RA) rA = .ok rA' →
    restB.foldlM (columnStep .noPivot d pB RB) rB = .ok rB' →
    ∃ rU' xU xA xB, rest.foldlM (columnStep .noPivot d pU RU) rU = .ok rU' ∧
      SideInv P RU RA CU CU rU' rA' ∧ SideInv (fun e => !P e) RU RB CU CU rU' rB' ∧
      rU'.lines = rU.lines ++ xU ∧ rA'.lines = rA.lines ++ xA ∧ rB'.lines = rB.lines ++ xB ∧
      xU.Perm (xA ++ xB) := by
  induction rest with
  | nil =>
    intro pre restA restB rU rA rB rA' rB' hCU hA hB _ _ iA iB _ fA fB
    have eA : restA = [] := by simpa using hA
    have eB : restB = [] := by simpa using hB
    subst eA eB
    cases fA
    cases fB
    rw [List.append_nil] at hCU
    subst hCU
    exact ⟨rU, [], [], [], rfl, iA, iB, by simp, by simp, by simp, by simp⟩
  | cons c rest ih =>
    intro pre restA restB rU rA rB rA' rB' hCU hA hB hcA hcB iA iB hidx fA fB
    have hmem : c ∈ CU := by rw [hCU]; simp
    have hCU' : CU = (pre ++ [c]) ++ rest := by rw [hCU]; simp
    have hdis : ∀ e : List Nat × W, P e = true → (!P e) = true → False := by
      intro e h1 h2; rw [h1] at h2; cases h2
    by_cases hc : P c = true
    · rw [List.filter_cons_of_pos hc] at hA
      rw [List.filter_cons_of_neg (by simp [hc])] at hB
      cases restA with
      | nil => simp at hA
      | cons c0 restA =>
        rw [List.map_cons, List.cons.injEq] at hA
        obtain ⟨hc0, hA⟩ := hA
        rw [List.foldlM_cons] at fA
        obtain ⟨rA1, s1, fA⟩ := bind_ok.1 fA
        obtain ⟨rU1, x, t1, t2, t3, t4, t5, t6, t7, t8⟩ := columnStep_part H.rowsA hpU hpA H.incR H.incA
          hpivA c0 (hcA c0 (by simp)) (fun r hr hP => by
            rw [← hc0]
            exact H.apart r hr c hmem (by rw [hP, hc]; simp)) (rU := rU) iA.sim s1
        have hs : FarStep P RU RA rU rU1 rA rA1 x := ⟨t2, t3, t4, t5, t6, t7, t8⟩
        obtain ⟨rU', xU, xA, xB, u1, u2, u3, u4, u5, u6, u7⟩ := ih (pre ++ [c]) restA restB rU1 rA1 rB
          rA' rB' hCU' hA hB (fun c hc => hcA c (by simp [hc])) hcB (iA.own hs hCU hc hidx)
          (iB.foreign hs H.rowsB.length H.rowsA (fun e h1 h2 => hdis e h2 h1) hCU hc hidx)
          (by rw [t4, hidx]; simp) fA fB
        refine ⟨rU', x ++ xU, x ++ xA, xB, ?_, u2, u3, ?_, ?_, u6, ?_⟩
        · rw [List.foldlM_cons, hc0, t1, ok_bind, u1]
        · rw [u4, t6, List.append_assoc]
        · rw [u5, t7, List.append_assoc]
        · rw [List.append_assoc]
          exact u7.append_left x
    · have hc' : (!P c) = true := by simpa using hc
      rw [List.filter_cons_of_neg hc] at hA
      rw [List.filter_cons_of_pos (p := fun e => !P e) hc'] at hB
      cases restB with
      | nil => simp at hB
      | cons c0 restB =>
        rw [List.map_cons, List.cons.injEq] at hB
        obtain ⟨hc0, hB⟩ := hB
        rw [List.foldlM_cons] at fB
        obtain ⟨rB1, s1, fB⟩ := bind_ok.1 fB
        obtain ⟨rU1, x, t1, t2, t3, t4, t5, t6, t7, t8⟩ := columnStep_part H.rowsB hpU hpB H.incR H.incB
          hpivB c0 (hcB c0 (by simp)) (fun r hr hP => by
            rw [← hc0]
            refine H.apart r hr c hmem (fun e => ?_)
            rw [e] at hP
            rw [hP] at hc'
            cases hc') (rU := rU) iB.sim s1
        have hs : FarStep (fun e => !P e) RU RB rU rU1 rB rB1 x := ⟨t2, t3, t4, t5, t6, t7, t8⟩
        obtain ⟨rU', xU, xA, xB, u1, u2, u3, u4, u5, u6, u7⟩ := ih (pre ++ [c]) restA restB rU1 rA rB1
          rA' rB' hCU' hA hB hcA (fun c hc => hcB c (by simp [hc]))
          (iA.foreign hs H.rowsA.length H.rowsB hdis hCU hc' hidx) (iB.own hs hCU hc' hidx)
          (by rw [t4, hidx]; simp) fA fB
        refine ⟨rU', x ++ xU, xA, x ++ xB, ?_, u2, u3, ?_, u5, ?_, ?_⟩
        · rw [List.foldlM_cons, hc0, t1, ok_bind, u1]
        · rw [u4, t6, List.append_assoc]
        · rw [u6, t7, List.append_assoc]
        · refine (u7.append_left x).trans ?_
          rw [← List.append_assoc, ← List.append_assoc]
          exact List.perm_append_comm.append_right _

/-- The selected columns are listed in order. -/
theorem columns_inc {mode : EndRead} {d : Nat} {piv : List Nat} {rows : List (List Nat × W)}
    (cols : List (List Nat × W)) : ∀ {r r' : Reduction W}, Inc r.nextPivots →
    (∀ x ∈ r.nextPivots, x < r.columnIndex) → cols.foldlM (columnStep mode d piv rows) r = .ok r' →
    Inc r'.nextPivots := by
  have add : ∀ (l : List Nat) (n : Nat), Inc l → (∀ x ∈ l, x < n) → Inc (l ++ [n]) := by
    intro l n h1 h2
    refine List.pairwise_append.2 ⟨h1, List.pairwise_singleton _ _, ?_⟩
    intro a ha b hb
    rw [List.mem_singleton.1 hb]
    exact h2 a ha
  induction cols with
  | nil => intro r r' h _ hr; cases hr; exact h
  | cons c cols ih =>
    intro r r' h1 h2 hr
    rw [List.foldlM_cons] at hr
    obtain ⟨r1, s, hr⟩ := bind_ok.1 hr
    have : Inc r1.nextPivots ∧ ∀ x ∈ r1.nextPivots, x < r1.columnIndex := by
      unfold columnStep at s
      obtain ⟨co, -, s⟩ := bind_ok.1 s
      cases hx : reduceCol r.v (rows.length + 1) co with
      | none => rw [hx] at s; cases s
      | some y =>
        rw [hx] at s
        cases y with
        | dropped =>
          cases s
          exact ⟨h1, fun x hx => by have := h2 x hx; dsimp only; omega⟩
        | stored p y =>
          dsimp only at s
          obtain ⟨row, -, s⟩ := bind_ok.1 s
          have hlt : ∀ x ∈ r.nextPivots ++ [r.columnIndex], x < r.columnIndex + 1 := by
            intro x hx
            rcases List.mem_append.1 hx with hx | hx
            · have := h2 x hx; omega
            · rw [List.mem_singleton.1 hx]; omega
          by_cases hne : row.2 ≠ c.2
          · rw [if_pos hne] at s
            cases s
            exact ⟨add _ _ h1 h2, hlt⟩
          · rw [if_neg hne] at s
            cases s
            exact ⟨add _ _ h1 h2, hlt⟩
    exact ih this.1 this.2 hr

/-- One dimension. -/
theorem reduceDim_far {P : List Nat × W → Bool} {m d : Nat} {RU RA RB CU CA CB : List (List Nat × W)}
    (H : FarDim P m RU RA RB CU CA CB) {pU pA pB : List Nat} (hpU : Inc pU) (hpA : Inc pA)
    (hpB : Inc pB) (hpivA : ∀ p, p < RA.length → (emb P RU p ∈ pU ↔ p ∈ pA))
    (hpivB : ∀ p, p < RB.length → (emb (fun e => !P e) RU p ∈ pU ↔ p ∈ pB))
    {LU LA LB : List (Line W)} {TU TA TB : List (BettiEntry W)} {rA rB : Reduction W}
    (hA : reduceDim .noPivot d pA RA CA LA TA = .ok rA)
    (hB : reduceDim .noPivot d pB RB CB LB TB = .ok rB) :
    ∃ rU xU xA xB, reduceDim .noPivot d pU RU CU LU TU = .ok rU ∧
      (∀ q, q < CA.length → (emb P CU q ∈ rU.nextPivots ↔ q ∈ rA.nextPivots)) ∧
      (∀ q, q < CB.length → (emb (fun e => !P e) CU q ∈ rU.nextPivots ↔ q ∈ rB.nextPivots)) ∧
      Inc rU.nextPivots ∧ Inc rA.nextPivots ∧ Inc rB.nextPivots ∧
      rU.lines = LU ++ xU ∧ rA.lines = LA ++ xA ∧ rB.lines = LB ++ xB ∧ xU.Perm (xA ++ xB) := by
  have start : ∀ (Q : List Nat × W → Bool) (RS : List (List Nat × W)) (L L' : List (Line W))
      (T T' : List (BettiEntry W)), SideInv Q RU RS CU [] ⟨[], [], 0, L, T⟩ ⟨[], [], 0, L', T'⟩ := by
    intro Q RS L L' T T'
    refine ⟨⟨fun p _ => rfl, fun p c h => ?_⟩, rfl, fun q _ => by simp⟩
    cases h
  obtain ⟨rU, xU, xA, xB, u1, u2, u3, u4, u5, u6, u7⟩ := columns_far (d := d) H hpU hpA hpB hpivA hpivB CU [] CA CB
    ⟨[], [], 0, LU, TU⟩ ⟨[], [], 0, LA, TA⟩ ⟨[], [], 0, LB, TB⟩ rA rB rfl H.colsA.rows H.colsB.rows
    H.incCA H.incCB (start _ _ _ _ _ _) (start _ _ _ _ _ _) rfl hA hB
  refine ⟨rU, xU, xA, xB, u1, ?_, ?_, columns_inc _ List.Pairwise.nil (by simp) u1,
    columns_inc _ List.Pairwise.nil (by simp) hA, columns_inc _ List.Pairwise.nil (by simp) hB, u4, u5,
    u6, u7⟩
  · intro q hq; exact u2.piv q (by rw [H.colsA.length]; exact hq)
  · intro q hq; exact u3.piv q (by rw [H.colsB.length]; exact hq)

/-! ### All dimensions -/

/-- The loop over the dimensions, with missing layers read as empty. -/
def dimsD (edges : Graph W) : Nat → Nat → List Nat → List (Line W) → List (BettiEntry W) →
    Res (List (Line W) × List (BettiEntry W))
  | 0, _, _, lines, table => pure (lines, table)
  | n + 1, d, pivots, lines, table =>
    reduceDim .noPivot d pivots (edges.getD d []) (edges.getD (d + 1) []) lines table >>= fun r =>
    dimsD edges n (d + 1) r.nextPivots r.lines r.table

theorem dimsD_eq (edges : Graph W) (n : Nat) : ∀ (d : Nat) (piv : List Nat) (L : List (Line W))
    (T : List (BettiEntry W)), d + n < edges.length →
    dimsD edges n d piv L T = reduceDims .noPivot edges n d piv L T := by
  induction n with
  | zero => intro d piv L T _; rfl
  | succ n ih =>
    intro d piv L T h
    have h1 : vget edges d = .ok (edges.getD d []) := by
      rw [vget_ok, List.getD_eq_getElem _ _ (by omega)]; exact List.getElem?_eq_getElem _
    have h2 : vget edges (d + 1) = .ok (edges.getD (d + 1) []) := by
      rw [vget_ok, List.getD_eq_getElem _ _ (by omega)]; exact List.getElem?_eq_getElem _
    rw [reduceDims, h1, ok_bind, h2, ok_bind, dimsD]
    congr 1
    funext r
    exact ih _ _ _ _ (by omega)

theorem dimsD_empty (edges : Graph W) (n : Nat) : ∀ (d : Nat) (piv : List Nat) (L : List (Line W))
    (T : List (BettiEntry W)), edges.length ≤ d + 1 → dimsD edges n d piv L T = .ok (L, T) := by
  induction n with
  | zero => intro d piv L T _; rfl
  | succ n ih =>
    intro d piv L T h
    have : edges.getD (d + 1) [] = [] := by
      rw [List.getD_eq_default _ _ h]
    rw [dimsD, this]
    exact ih _ _ _ _ (by omega)

theorem dimsD_more (edges : Graph W) (n k : Nat) : ∀ (d : Nat) (piv : List Nat) (L : List (Line W))
    (T : List (BettiEntry W)), edges.length ≤ d + n + 1 →
    dimsD edges (n + k) d piv L T = dimsD edges n d piv L T := by
  induction n with
  | zero => intro d piv L T h; rw [dimsD_empty _ _ _ _ _ _ (by omega)]; rfl
  | succ n ih =>
    intro d piv L T h
    rw [show n + 1 + k = (n + k) + 1 by omega, dimsD, dimsD]
    congr 1
    funext r
    exact ih _ _ _ _ (by omega)

/-- The layers of a complex in two parts. -/
structure FarGraph (P : List Nat × W → Bool) (m : Nat) (eU eA eB : Graph W) : Prop where
  partA : ∀ k, IsPart P 0 (eU.getD k []) (eA.getD k [])
  partB : ∀ k, IsPart (fun e => !P e) m (eU.getD k []) (eB.getD k [])
  incU : ∀ k, ∀ r ∈ eU.getD k [], Inc r.1
  incA : ∀ k, ∀ r ∈ eA.getD k [], Inc r.1
  incB : ∀ k, ∀ r ∈ eB.getD k [], Inc r.1
  apart : ∀ k, ∀ r ∈ eU.getD k [], ∀ c ∈ eU.getD (k + 1) [], P r ≠ P c → ¬ ∀ v ∈ r.1, v ∈ c.1

theorem dimsD_far {P : List Nat × W → Bool} {m : Nat} {eU eA eB : Graph W} (H : FarGraph P m eU eA eB)
    (n : Nat) : ∀ (d : Nat) (pU pA pB : List Nat) (LU LA LB : List (Line W))
    (TU TA TB : List (BettiEntry W)) (rA rB : List (Line W) × List (BettiEntry W)),
    Inc pU → Inc pA → Inc pB →
    (∀ p, p < (eA.getD d []).length → (emb P (eU.getD d []) p ∈ pU ↔ p ∈ pA)) →
    (∀ p, p < (eB.getD d []).length → (emb (fun e => !P e) (eU.getD d []) p ∈ pU ↔ p ∈ pB)) →
    dimsD eA n d pA LA TA = .ok rA → dimsD eB n d pB LB TB = .ok rB →
    ∃ rU xU xA xB, dimsD eU n d pU LU TU = .ok rU ∧
      rU.1 = LU ++ xU ∧ rA.1 = LA ++ xA ∧ rB.1 = LB ++ xB ∧ xU.Perm (xA ++ xB) := by
  induction n with
  | zero =>
    intro d pU pA pB LU LA LB TU TA TB rA rB _ _ _ _ _ hA hB
    cases hA
    cases hB
    exact ⟨_, [], [], [], rfl, by simp, by simp, by simp, by simp⟩
  | succ n ih =>
    intro d pU pA pB LU LA LB TU TA TB rA rB iU iA iB hpA hpB hA hB
    rw [dimsD] at hA hB
    obtain ⟨qA, a1, a2⟩ := bind_ok.1 hA
    obtain ⟨qB, b1, b2⟩ := bind_ok.1 hB
    obtain ⟨qU, xU, xA, xB, u1, u2, u3, u4, u5, u6, u7, u8, u9, u10⟩ := reduceDim_far (LU := LU) (TU := TU)
      (⟨H.partA d, H.partB d, H.partA (d + 1), H.partB (d + 1), H.incU d, H.incA d, H.incB d,
        H.incA (d + 1), H.incB (d + 1), H.apart d⟩ : FarDim P m _ _ _ _ _ _) iU iA iB hpA hpB a1 b1
    obtain ⟨rU, yU, yA, yB, v1, v2, v3, v4, v5⟩ := ih (d + 1) qU.nextPivots qA.nextPivots qB.nextPivots
      qU.lines qA.lines qB.lines qU.table qA.table qB.table rA rB u4 u5 u6 u2 u3 a2 b2
    refine ⟨rU, xU ++ yU, xA ++ yA, xB ++ yB, ?_, ?_, ?_, ?_, ?_⟩
    · rw [dimsD, u1, ok_bind, v1]
    · rw [v2, u7, List.append_assoc]
    · rw [v3, u8, List.append_assoc]
    · rw [v4, u9, List.append_assoc]
    · refine (u10.append v5).trans ?_
      rw [List.append_assoc, List.append_assoc]
      refine List.Perm.append_left xA ?_
      rw [← List.append_assoc, ← List.append_assoc]
      exact List.perm_append_comm.append_right _

end
end LHF
