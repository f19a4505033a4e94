import Verif.Lemmas.TruncateArray
import Verif.Lemmas.FarPersistence

/-! A part of an array complex whose simplices do not meet the others is expanded as if it were alone. -/

namespace LHF
open Spec

theorem stdSymDiff_map {φ : Nat → Nat} (hφ : StrictMono φ) (a b : List Nat) :
    stdSymDiff (a.map φ) (b.map φ) = (stdSymDiff a b).map φ := setXOR_map hφ a b

theorem interStep_map {φ : Nat → Nat} (hφ : StrictMono φ) (x : Nat) (rest rest' : List Nat → List Nat)
    (h : ∀ b : List Nat, rest' (b.map φ) = (rest b).map φ) : ∀ b : List Nat,
    interStep (φ x) rest' (b.map φ) = (interStep x rest b).map φ := by
  intro b
  induction b with
  | nil => rfl
  | cons y b ih =>
    rw [List.map_cons, interStep, interStep]
    by_cases h1 : x < y
    · rw [if_pos h1, if_pos (hφ h1), ← List.map_cons, h]
    · rw [if_neg h1, if_neg (fun h => h1 (hφ.lt_iff_lt.1 h))]
      by_cases h2 : y < x
      · rw [if_pos h2, if_pos (hφ h2), ih]
      · rw [if_neg h2, if_neg (fun h => h2 (hφ.lt_iff_lt.1 h)), h, List.map_cons]

theorem stdInter_map {φ : Nat → Nat} (hφ : StrictMono φ) (a : List Nat) : ∀ b : List Nat,
    stdInter (a.map φ) (b.map φ) = (stdInter a b).map φ := by
  induction a with
  | nil => intro b; rfl
  | cons x a ih =>
    intro b
    rw [List.map_cons, stdInter, stdInter]
    exact interStep_map hφ x _ _ ih b

theorem unionStep_map {φ : Nat → Nat} (hφ : StrictMono φ) (x : Nat) (rest rest' : List Nat → List Nat)
    (h : ∀ b : List Nat, rest' (b.map φ) = (rest b).map φ) : ∀ b : List Nat,
    unionStep (φ x) rest' (b.map φ) = (unionStep x rest b).map φ := by
  intro b
  induction b with
  | nil =>
    have := h []
    rw [List.map_nil] at this
    rw [List.map_nil, unionStep, unionStep, List.map_cons, this]
  | cons y b ih =>
    rw [List.map_cons, unionStep, unionStep]
    by_cases h1 : x < y
    · rw [if_pos h1, if_pos (hφ h1), ← List.map_cons, h, List.map_cons]
    · rw [if_neg h1, if_neg (fun h => h1 (hφ.lt_iff_lt.1 h))]
      by_cases h2 : y < x
      · rw [if_pos h2, if_pos (hφ h2), ih, List.map_cons]
      · rw [if_neg h2, if_neg (fun h => h2 (hφ.lt_iff_lt.1 h)), h, List.map_cons]

theorem stdUnion_map {φ : Nat → Nat} (hφ : StrictMono φ) (a : List Nat) : ∀ b : List Nat,
    stdUnion (a.map φ) (b.map φ) = (stdUnion a b).map φ := by
  induction a with
  | nil => intro b; rfl
  | cons x a ih =>
    intro b
    rw [List.map_cons, stdUnion, stdUnion]
    exact unionStep_map hφ x _ _ ih b

theorem stdSort_map {φ : Nat → Nat} (hφ : StrictMono φ) (l : List Nat) :
    stdSort (l.map φ) = (stdSort l).map φ := by
  unfold stdSort
  exact (List.map_insertionSort (r := (· ≤ ·)) (s := (· ≤ ·)) φ l
    (fun a _ b _ => (hφ.le_iff_le).symm)).symm

theorem allSubsetsV_map (φ : Nat → Nat) (s : List Nat) :
    allSubsetsV (s.map φ) = (allSubsetsV s).map (List.map φ) := by
  unfold allSubsetsV
  have : ∀ (s : List Nat) (acc : List (List Nat)),
      (s.map φ).foldl (fun subset entry => subset ++ subset.map (· ++ [entry])) (acc.map (List.map φ)) =
      (s.foldl (fun subset entry => subset ++ subset.map (· ++ [entry])) acc).map (List.map φ) := by
    intro s
    induction s with
    | nil => intro acc; rfl
    | cons x s ih =>
      intro acc
      rw [List.map_cons, List.foldl_cons, List.foldl_cons, ← ih]
      congr 1
      simp
  exact this s [[]]

theorem getSubsetsV_map (φ : Nat → Nat) (s : List Nat) :
    getSubsetsV (s.map φ) = (getSubsetsV s).map (List.map φ) := by
  unfold getSubsetsV
  rw [allSubsetsV_map, List.filter_map, List.length_map]
  congr 1
  apply List.filter_congr
  intro z _
  simp

theorem mem_allSubsetsV_sub (s : List Nat) : ∀ z ∈ allSubsetsV s, ∀ x ∈ z, x ∈ s := by
  unfold allSubsetsV
  have : ∀ (l : List Nat) (acc : List (List Nat)), (∀ x ∈ l, x ∈ s) → (∀ z ∈ acc, ∀ x ∈ z, x ∈ s) →
      ∀ z ∈ l.foldl (fun subset entry => subset ++ subset.map (· ++ [entry])) acc, ∀ x ∈ z, x ∈ s := by
    intro l
    induction l with
    | nil => intro acc _ h; exact h
    | cons y l ih =>
      intro acc hl hacc
      rw [List.foldl_cons]
      refine ih _ (fun x hx => hl x (by simp [hx])) ?_
      intro z hz x hx
      rcases List.mem_append.1 hz with hz | hz
      · exact hacc z hz x hx
      · obtain ⟨z', hz', rfl⟩ := List.mem_map.1 hz
        rcases List.mem_append.1 hx with hx | hx
        · exact hacc z' hz' x hx
        · rw [List.mem_singleton.1 hx]
          exact hl y (by simp)
  exact this s [[]] (fun _ h => h) (by simp)

theorem mem_getSubsetsV_sub {s z : List Nat} (h : z ∈ getSubsetsV s) : ∀ x ∈ z, x ∈ s :=
  mem_allSubsetsV_sub s z (List.mem_filter.1 h).1

theorem mem_stdInter_sub (a : List Nat) : ∀ (b : List Nat) (z : Nat), z ∈ stdInter a b → z ∈ a := by
  induction a with
  | nil => intro b z h; cases h
  | cons x a ih =>
    intro b
    rw [stdInter]
    induction b with
    | nil => intro z h; cases h
    | cons y b ihb =>
      intro z h
      rw [interStep] at h
      split_ifs at h
      · exact List.mem_cons_of_mem _ (ih _ z h)
      · exact ihb z h
      · rcases List.mem_cons.1 h with h | h
        · rw [h]; exact List.mem_cons_self
        · exact List.mem_cons_of_mem _ (ih _ z h)

theorem mem_stdUnion_sub (a : List Nat) : ∀ (b : List Nat) (z : Nat), z ∈ stdUnion a b → z ∈ a ∨ z ∈ b := by
  induction a with
  | nil => intro b z h; exact .inr h
  | cons x a ih =>
    intro b
    rw [stdUnion]
    induction b with
    | nil =>
      intro z h
      rw [unionStep] at h
      rcases List.mem_cons.1 h with h | h
      · exact .inl (by simp [h])
      · rcases ih [] z h with h | h
        · exact .inl (by simp [h])
        · cases h
    | cons y b ihb =>
      intro z h
      rw [unionStep] at h
      split_ifs at h
      · rcases List.mem_cons.1 h with h | h
        · exact .inl (by simp [h])
        · rcases ih _ z h with h | h
          · exact .inl (by simp [h])
          · exact .inr h
      · rcases List.mem_cons.1 h with h | h
        · exact .inr (by simp [h])
        · rcases ihb z h with h | h
          · exact .inl h
          · exact .inr (by simp [h])
      · rcases List.mem_cons.1 h with h | h
        · exact .inl (by simp [h])
        · rcases ih _ z h with h | h
          · exact .inl (by simp [h])
          · exact .inr (by simp [h])

section
variable {W : Type} [LinearOrder W] [Ring W]

/-- The vertices of a proposed simplex are vertices of the two entries. -/
theorem faceLoop_verts {g : Graph W} {simp : List Nat} : ∀ (zs : List (List Nat)) (total : List Nat) (mw : W)
    (r : List Nat × W), faceLoop g simp zs total mw = .ok (some r) →
    ∀ x ∈ r.1, x ∈ total ∨ x ∈ simp ∨ ∃ z ∈ zs, x ∈ z := by
  intro zs
  induction zs with
  | nil =>
    intro total mw r h x hx
    unfold faceLoop at h
    cases h
    exact .inl hx
  | cons z zs ih =>
    intro total mw r h x hx
    unfold faceLoop at h
    dsimp only at h
    obtain ⟨wt, -, h⟩ := bind_ok.1 h
    by_cases hwt : wt < 0
    · rw [if_pos hwt] at h
      cases h
    · rw [if_neg hwt] at h
      rcases ih _ _ _ h x hx with h1 | h1 | ⟨z', h1, h2⟩
      · have : x ∈ total ∨ x ∈ simp ++ z := by
          unfold setUnion at h1
          by_cases h3 : total = simp ++ z
          · rw [if_pos h3] at h1; cases h1
          · rw [if_neg h3, if_pos rfl] at h1
            exact mem_stdUnion_sub _ _ _ h1
        rcases this with h1 | h1
        · exact .inl h1
        · rcases List.mem_append.1 h1 with h1 | h1
          · exact .inr (.inl h1)
          · exact .inr (.inr ⟨z, by simp, h1⟩)
      · exact .inr (.inl h1)
      · exact .inr (.inr ⟨z', by simp [h1], h2⟩)

theorem symmetricDiffV_sub {a b : List Nat} {x : Nat} (h : x ∈ symmetricDiffV a b true) : x ∈ a ∨ x ∈ b := by
  unfold symmetricDiffV at h
  by_cases hc : a = b
  · rw [if_pos hc] at h; cases h
  · rw [if_neg hc, if_pos rfl] at h
    exact mem_stdSymDiff_sub _ _ _ h

theorem setIntersectV_sub {a b : List Nat} {x : Nat} (h : x ∈ setIntersectV a b true) : x ∈ a := by
  unfold setIntersectV at h
  by_cases hc : a = b
  · rw [if_pos hc] at h; exact h
  · rw [if_neg hc, if_pos rfl] at h
    exact mem_stdInter_sub _ _ _ h

theorem candidate_verts {g : Graph W} {a b r : List Nat × W} (h : candidate g a b = .ok (some r)) :
    ∀ x ∈ r.1, x ∈ a.1 ∨ x ∈ b.1 := by
  intro x hx
  unfold candidate at h
  dsimp only at h
  by_cases h2 : (symmetricDiffV a.1 b.1 true).length = 2
  · rw [if_pos h2] at h
    by_cases h1 : (setIntersectV a.1 b.1 true).length = 1
    · rw [if_pos h1] at h
      obtain ⟨wt, -, h⟩ := bind_ok.1 h
      by_cases hwt : wt < 0
      · rw [if_pos hwt] at h
        cases h
      · rw [if_neg hwt] at h
        cases h
        unfold stdSort at hx
        rw [List.mem_insertionSort, List.mem_append, List.mem_insertionSort] at hx
        rcases hx with hx | hx
        · exact symmetricDiffV_sub hx
        · exact .inl (setIntersectV_sub hx)
    · rw [if_neg h1] at h
      by_cases h3 : (setIntersectV a.1 b.1 true).length > 1
      · rw [if_pos h3] at h
        rcases faceLoop_verts _ _ _ _ h x hx with h4 | h4 | ⟨z, h4, h5⟩
        · exact symmetricDiffV_sub h4
        · exact symmetricDiffV_sub h4
        · exact .inl (setIntersectV_sub (mem_getSubsetsV_sub h4 x h5))
      · rw [if_neg h3] at h
        cases h
        exact symmetricDiffV_sub hx
  · rw [if_neg h2] at h
    cases h

/-- An entry with its vertices renamed. -/
def mapE (φ : Nat → Nat) (e : List Nat × W) : List Nat × W := (e.1.map φ, e.2)

/-- `gX`, renamed, is the part of `gU` with the property `p`. -/
def PartOf (φ : Nat → Nat) (p : List Nat → Bool) (gX gU : Graph W) : Prop :=
  ∀ k, (gX.getD k []).map (mapE φ) = (gU.getD k []).filter (fun e => p e.1)

omit [LinearOrder W] in
theorem findWeight_part {φ : Nat → Nat} (hφ : StrictMono φ) {p : List Nat → Bool} {gX gU : Graph W}
    (h : PartOf φ p gX gU) {v : List Nat} (hv : p (v.map φ) = true) {wX wU : W}
    (hX : findWeight gX v = .ok wX) (hU : findWeight gU (v.map φ) = .ok wU) : wX = wU := by
  unfold findWeight at hX hU
  obtain ⟨lX, x1, hX⟩ := bind_ok.1 hX
  obtain ⟨lU, u1, hU⟩ := bind_ok.1 hU
  rw [List.length_map] at u1
  have hl := h (szPred v.length)
  rw [getD_of_vget x1, getD_of_vget u1] at hl
  have e1 : lU.find? (fun e => decide (e.1 = v.map φ)) =
      (lU.filter (fun e => p e.1)).find? (fun e => decide (e.1 = v.map φ)) := by
    rw [List.find?_filter]
    congr 1
    funext e
    by_cases he : e.1 = v.map φ
    · simp [he, hv]
    · simp [he]
  have e2 : lU.find? (fun e => decide (e.1 = v.map φ)) =
      (lX.find? (fun e => decide (e.1 = v))).map (mapE φ) := by
    rw [e1, ← hl, List.find?_map]
    congr 2
    funext e
    simp only [Function.comp, mapE]
    have : e.1.map φ = v.map φ ↔ e.1 = v := (List.map_injective_iff.2 hφ.injective).eq_iff
    simp [this]
  rw [e2] at hU
  cases hf : lX.find? (fun e => decide (e.1 = v)) with
  | none =>
    rw [hf] at hX hU
    cases hX
    cases hU
    rfl
  | some e =>
    rw [hf] at hX hU
    cases hX
    cases hU
    rfl

theorem faceLoop_part {φ : Nat → Nat} (hφ : StrictMono φ) {p : List Nat → Bool} {V : Nat → Prop}
    (hp : ∀ v : List Nat, v ≠ [] → (∀ x ∈ v, V x) → p (v.map φ) = true) {gX gU : Graph W}
    (h : PartOf φ p gX gU) {simp : List Nat} (hs : simp ≠ []) (hsV : ∀ x ∈ simp, V x) :
    ∀ (zs : List (List Nat)) (total : List Nat) (mw : W) (rX rU : Option (List Nat × W)),
    (∀ z ∈ zs, ∀ x ∈ z, V x) → faceLoop gX simp zs total mw = .ok rX →
    faceLoop gU (simp.map φ) (zs.map (List.map φ)) (total.map φ) mw = .ok rU → rU = rX.map (mapE φ) := by
  intro zs
  induction zs with
  | nil =>
    intro total mw rX rU _ hX hU
    unfold faceLoop at hX
    rw [List.map_nil] at hU
    unfold faceLoop at hU
    cases hX
    cases hU
    rfl
  | cons z zs ih =>
    intro total mw rX rU hz hX hU
    unfold faceLoop at hX
    rw [List.map_cons] at hU
    unfold faceLoop at hU
    dsimp only at hX hU
    obtain ⟨wX, x1, hX⟩ := bind_ok.1 hX
    obtain ⟨wU, u1, hU⟩ := bind_ok.1 hU
    rw [← List.map_append] at u1
    have hw := findWeight_part hφ h (hp (simp ++ z) (by simp [hs]) (by
      intro x hx
      rcases List.mem_append.1 hx with hx | hx
      · exact hsV x hx
      · exact hz z (by simp) x hx)) x1 u1
    subst hw
    by_cases hwt : wX < 0
    · rw [if_pos hwt] at hX hU
      cases hX
      cases hU
      rfl
    · rw [if_neg hwt] at hX hU
      refine ih _ _ _ _ (fun z' h' => hz z' (by simp [h'])) hX ?_
      have : (setUnion total (simp ++ z) true).map φ =
          setUnion (total.map φ) (simp.map φ ++ z.map φ) true := by
        rw [← List.map_append]
        unfold setUnion
        have hi : total.map φ = (simp ++ z).map φ ↔ total = simp ++ z :=
          (List.map_injective_iff.2 hφ.injective).eq_iff
        by_cases hc : total = simp ++ z
        · rw [if_pos hc, if_pos (hi.2 hc)]
          rfl
        · rw [if_neg hc, if_neg (fun e => hc (hi.1 e)), if_pos rfl, if_pos rfl, stdUnion_map hφ]
      rw [this]
      exact hU

theorem candidate_part {φ : Nat → Nat} (hφ : StrictMono φ) {p : List Nat → Bool} {V : Nat → Prop}
    (hp : ∀ v : List Nat, v ≠ [] → (∀ x ∈ v, V x) → p (v.map φ) = true) {gX gU : Graph W}
    (h : PartOf φ p gX gU) {a b : List Nat × W} (ha : ∀ x ∈ a.1, V x) (hb : ∀ x ∈ b.1, V x)
    {cX cU : Option (List Nat × W)} (hX : candidate gX a b = .ok cX)
    (hU : candidate gU (mapE φ a) (mapE φ b) = .ok cU) : cU = cX.map (mapE φ) := by
  have hi : a.1.map φ = b.1.map φ ↔ a.1 = b.1 := (List.map_injective_iff.2 hφ.injective).eq_iff
  have e1 : symmetricDiffV (a.1.map φ) (b.1.map φ) true = (symmetricDiffV a.1 b.1 true).map φ := by
    unfold symmetricDiffV
    by_cases hc : a.1 = b.1
    · rw [if_pos hc, if_pos (hi.2 hc)]; rfl
    · rw [if_neg hc, if_neg (fun e => hc (hi.1 e)), if_pos rfl, if_pos rfl, stdSymDiff_map hφ]
  have e2 : setIntersectV (a.1.map φ) (b.1.map φ) true = (setIntersectV a.1 b.1 true).map φ := by
    unfold setIntersectV
    by_cases hc : a.1 = b.1
    · rw [if_pos hc, if_pos (hi.2 hc)]
    · rw [if_neg hc, if_neg (fun e => hc (hi.1 e)), if_pos rfl, if_pos rfl, stdInter_map hφ]
  have hsV : ∀ x ∈ symmetricDiffV a.1 b.1 true, V x := by
    intro x hx
    rcases symmetricDiffV_sub hx with hx | hx
    · exact ha x hx
    · exact hb x hx
  have hmV : ∀ x ∈ setIntersectV a.1 b.1 true, V x := fun x hx => ha x (setIntersectV_sub hx)
  unfold candidate at hX hU
  dsimp only [mapE] at hX hU
  rw [e1, e2] at hU
  generalize hs : symmetricDiffV a.1 b.1 true = simp at *
  generalize hm : setIntersectV a.1 b.1 true = m at *
  rw [List.length_map, List.length_map] at hU
  by_cases h2 : simp.length = 2
  · rw [if_pos h2] at hX hU
    have hne : simp ≠ [] := by
      rintro rfl
      simp at h2
    by_cases h1 : m.length = 1
    · rw [if_pos h1] at hX hU
      obtain ⟨wX, x1, hX⟩ := bind_ok.1 hX
      obtain ⟨wU, u1, hU⟩ := bind_ok.1 hU
      rw [stdSort_map hφ] at u1 hU
      have hw := findWeight_part hφ h (hp (stdSort simp) (by
          intro e
          have := congrArg List.length e
          unfold stdSort at this
          rw [List.length_insertionSort, List.length_nil] at this
          omega) (by
        intro x hx
        unfold stdSort at hx
        rw [List.mem_insertionSort] at hx
        exact hsV x hx)) x1 u1
      subst hw
      by_cases hwt : wX < 0
      · rw [if_pos hwt] at hX hU
        cases hX
        cases hU
        rfl
      · rw [if_neg hwt] at hX hU
        rw [← List.map_append, stdSort_map hφ] at hU
        cases hX
        cases hU
        rfl
    · rw [if_neg h1] at hX hU
      by_cases h3 : m.length > 1
      · rw [if_pos h3] at hX hU
        rw [getSubsetsV_map] at hU
        exact faceLoop_part hφ hp h hne hsV _ _ _ _ _
          (fun z hz x hx => hmV x (mem_getSubsetsV_sub hz x hx)) hX hU
      · rw [if_neg h3] at hX hU
        cases hX
        cases hU
        rfl
  · rw [if_neg h2] at hX hU
    cases hX
    cases hU
    rfl

theorem part_both {φ : Nat → Nat} (hφ : StrictMono φ) {p : List Nat → Bool} {d : Nat} {e : List Nat × W}
    (he : p (e.1.map φ) = true) {gX gU gX' gU' : Graph W} (h : PartOf φ p gX gU)
    (hlX : gX.length = d ∨ gX.length = d + 1) (hlU : gU.length = d ∨ gU.length = d + 1)
    (hX : storeSimplex d e gX = .ok gX') (hU : storeSimplex d (mapE φ e) gU = .ok gU') :
    PartOf φ p gX' gU' := by
  obtain ⟨s1, s2, -, s3⟩ := storeSimplex_getD e hlX
  obtain ⟨t1, t2, -, t3⟩ := storeSimplex_getD (mapE φ e) hlU
  rw [s2] at hX
  rw [t2] at hU
  cases hX
  cases hU
  have hinj : Function.Injective (mapE (W := W) φ) := by
    intro x y hxy
    have h1 : x.1.map φ = y.1.map φ := congrArg Prod.fst hxy
    have h2 : x.2 = y.2 := (Prod.ext_iff.1 hxy).2
    exact Prod.ext (List.map_injective_iff.2 hφ.injective h1) h2
  have hmem : e ∈ gX.getD d [] ↔ mapE φ e ∈ gU.getD d [] := by
    rw [← List.mem_map_of_injective hinj, h d, List.mem_filter]
    exact ⟨fun h => h.1, fun h => ⟨h, he⟩⟩
  intro k
  rw [s3, t3]
  by_cases hk : k = d ∧ mapE φ e ∉ gU.getD d []
  · rw [if_pos hk, if_pos ⟨hk.1, fun h => hk.2 (hmem.1 h)⟩, List.map_append, List.filter_append, h d]
    congr 1
    rw [List.filter_cons_of_pos (by exact he)]
    rfl
  · rw [if_neg hk, if_neg (fun hc => hk ⟨hc.1, fun h => hc.2 (hmem.2 h)⟩), h k]

theorem part_hidden {φ : Nat → Nat} {p : List Nat → Bool} {d : Nat} {e : List Nat × W}
    (he : p e.1 = false) {gX gU gU' : Graph W} (h : PartOf φ p gX gU)
    (hlU : gU.length = d ∨ gU.length = d + 1) (hU : storeSimplex d e gU = .ok gU') :
    PartOf φ p gX gU' := by
  obtain ⟨t1, t2, -, t3⟩ := storeSimplex_getD e hlU
  rw [t2] at hU
  cases hU
  intro k
  rw [t3, h k]
  split_ifs with hk
  · rw [List.filter_append, hk.1]
    simp [he]
  · rfl

theorem pairsOf_map {α β : Type} (f : α → β) (l : List α) :
    pairsOf (l.map f) = (pairsOf l).map (Prod.map f f) := by
  induction l with
  | nil => rfl
  | cons a l ih =>
    rw [List.map_cons, pairsOf, pairsOf, ih, List.map_append]
    congr 1
    simp

variable [IsStrictOrderedRing W]

/-- The loop over the pairs. -/
theorem pairs_part {φ : Nat → Nat} (hφ : StrictMono φ) {p : List Nat → Bool} {V : Nat → Prop}
    (hp : ∀ v : List Nat, v ≠ [] → (∀ x ∈ v, V x) → p (v.map φ) = true) {N k : Nat} (hk : 1 ≤ k)
    {d : Nat → Nat → W} {near : Nat → Nat → Prop} {layerU : List (List Nat × W)}
    (hnd : (layerU.map Prod.fst).Nodup)
    (hm : ∀ s w, (s, w) ∈ layerU ↔ s.length = k + 1 ∧ IsSimplex N near s ∧ w = diam d s)
    (hmix : ∀ a b e : List Nat, IsSimplex N near a → IsSimplex N near b → IsSimplex N near e →
      a.length = k + 1 → b.length = k + 1 → e.length = k + 2 → (∀ x ∈ e, x ∈ a ∨ x ∈ b) →
      ¬ (p a = true ∧ p b = true) → p e = false) :
    ∀ (ps : List ((List Nat × W) × (List Nat × W))) (qs : List ((List Nat × W) × (List Nat × W))),
    (∀ x ∈ ps, x.1 ∈ layerU ∧ x.2 ∈ layerU ∧ x.1.1 ≠ x.2.1) →
    (∀ x ∈ qs, (∀ v ∈ x.1.1, V v) ∧ (∀ v ∈ x.2.1, V v)) →
    ps.filter (fun x => p x.1.1 && p x.2.1) = qs.map (Prod.map (mapE φ) (mapE φ)) →
    ∀ (gX gU gX' gU' : Graph W), PartOf φ p gX gU → gU[k]? = some layerU →
    (gU.length = k + 1 ∨ gU.length = k + 2) → (gX.length = k + 1 ∨ gX.length = k + 2 ∨ qs = []) →
    qs.foldlM (candStep (k + 1)) gX = .ok gX' → ps.foldlM (candStep (k + 1)) gU = .ok gU' →
    PartOf φ p gX' gU' := by
  intro ps
  induction ps with
  | nil =>
    intro qs _ _ hpq gX gU gX' gU' h _ _ _ hX hU
    have : qs = [] := by
      cases qs with
      | nil => rfl
      | cons q qs => simp at hpq
    subst this
    cases hX
    cases hU
    exact h
  | cons x ps ih =>
    intro qs hps hqs hpq gX gU gX' gU' h hgU hlU hlX hX hU
    obtain ⟨p1, p2, p3⟩ := hps x (by simp)
    have hps' := fun q hq => hps q (List.mem_cons_of_mem _ hq)
    have ea := (hm x.1.1 x.1.2).1 p1
    have eb := (hm x.2.1 x.2.2).1 p2
    have e1 : x.1 = (x.1.1, diam d x.1.1) := Prod.ext rfl ea.2.2
    have e2 : x.2 = (x.2.1, diam d x.2.1) := Prod.ext rfl eb.2.2
    obtain ⟨cU, l1, l2, -⟩ := candidate_spec hk ⟨layerU, hgU, hnd, hm⟩ ea.2.1 eb.2.1 ea.1 eb.1 p3
    rw [← e1, ← e2] at l1
    rw [List.foldlM_cons] at hU
    obtain ⟨gU1, hU1, hU2⟩ := bind_ok.1 hU
    have hkeep := pairStep_lower hU1 k (by omega)
    unfold candStep at hU1
    rw [l1, ok_bind] at hU1
    have hU1len : gU1.length = k + 1 ∨ gU1.length = k + 2 := by
      cases cU with
      | none => cases hU1; exact hlU
      | some e =>
        obtain ⟨g', q1, q2, -⟩ := storeSimplex_getD (d := k + 1) e hlU
        dsimp only at hU1
        rw [q1] at hU1
        cases hU1
        exact .inr q2
    by_cases hboth : p x.1.1 = true ∧ p x.2.1 = true
    · rw [List.filter_cons_of_pos (by simpa using hboth)] at hpq
      cases qs with
      | nil => simp at hpq
      | cons q qs =>
        rw [List.map_cons, List.cons.injEq] at hpq
        obtain ⟨hxq, hpq⟩ := hpq
        have hlX' : gX.length = k + 1 ∨ gX.length = k + 2 := by
          rcases hlX with h | h | h
          · exact .inl h
          · exact .inr h
          · cases h
        rw [List.foldlM_cons] at hX
        obtain ⟨gX1, hX1, hX2⟩ := bind_ok.1 hX
        unfold candStep at hX1
        obtain ⟨cX, x1, hX1⟩ := bind_ok.1 hX1
        obtain ⟨v1, v2⟩ := hqs q (by simp)
        rw [hxq] at l1
        have hcc := candidate_part hφ hp h v1 v2 x1 l1
        have hX1len : gX1.length = k + 1 ∨ gX1.length = k + 2 ∨ qs = [] := by
          cases cX with
          | none => cases hX1; tauto
          | some e =>
            obtain ⟨g', q1, q2, -⟩ := storeSimplex_getD (d := k + 1) e hlX'
            dsimp only at hX1
            rw [q1] at hX1
            cases hX1
            exact .inr (.inl q2)
        refine ih qs hps' (fun y hy => hqs y (by simp [hy])) hpq gX1 gU1 gX' gU' ?_ (by rw [hkeep]; exact hgU)
          hU1len hX1len hX2 hU2
        cases cX with
        | none =>
          rw [show cU = none from hcc] at hU1
          cases hU1
          cases hX1
          exact h
        | some e =>
          rw [show cU = some (mapE φ e) from hcc] at hU1
          have hne : e.1 ≠ [] := by
            intro hn
            have := (l2 (mapE φ e) hcc).1
            simp [mapE, hn] at this
          refine part_both hφ (hp e.1 hne ?_) h hlX' hlU hX1 hU1
          intro y hy
          rcases candidate_verts x1 y hy with hy | hy
          · exact v1 y hy
          · exact v2 y hy
    · rw [List.filter_cons_of_neg (by simpa using hboth)] at hpq
      refine ih qs hps' hqs hpq gX gU1 gX' gU' ?_ (by rw [hkeep]; exact hgU) hU1len hlX hX hU2
      cases cU with
      | none => cases hU1; exact h
      | some e =>
        obtain ⟨g1, g2, -⟩ := l2 e rfl
        exact part_hidden (hmix _ _ _ ea.2.1 eb.2.1 g2 ea.1 eb.1 g1 (candidate_verts l1) hboth) h hlU hU1

theorem expandDim_part {φ : Nat → Nat} (hφ : StrictMono φ) {p : List Nat → Bool} {N M k : Nat}
    (hp : ∀ v : List Nat, v ≠ [] → (∀ x ∈ v, x < M) → p (v.map φ) = true) (hk : 1 ≤ k)
    {d dX : Nat → Nat → W} {near nearX : Nat → Nat → Prop}
    (hmix : ∀ a b e : List Nat, IsSimplex N near a → IsSimplex N near b → IsSimplex N near e →
      a.length = k + 1 → b.length = k + 1 → e.length = k + 2 → (∀ x ∈ e, x ∈ a ∨ x ∈ b) →
      ¬ (p a = true ∧ p b = true) → p e = false) {gX gU gX' gU' : Graph W}
    (hX : StoresRips gX M dX nearX k) (hU : StoresRips gU N d near k) (hlU : gU.length = k + 1)
    (h : PartOf φ p gX gU)
    (eX : if gX.length = k + 1 then expandDim (k + 1) gX = .ok gX' else gX' = gX)
    (eU : expandDim (k + 1) gU = .ok gU') : PartOf φ p gX' gU' := by
  obtain ⟨layerU, hgU, hndU, hmU⟩ := hU.layerExact (le_refl k) (by omega)
  rw [expandDim_pairs hgU] at eU
  have hget : gU.getD k [] = layerU := by
    rw [List.getD_eq_getElem?_getD, hgU]
    rfl
  have hps : ∀ x ∈ pairsOf layerU, x.1 ∈ layerU ∧ x.2 ∈ layerU ∧ x.1.1 ≠ x.2.1 := by
    rintro ⟨a, b⟩ hx
    exact mem_pairsOf Prod.fst hndU hx
  have hpq : ∀ layerX, gX.getD k [] = layerX → (pairsOf layerU).filter (fun x => p x.1.1 && p x.2.1) =
      (pairsOf layerX).map (Prod.map (mapE φ) (mapE φ)) := by
    intro layerX hl
    rw [← pairsOf_map, ← hl, h k, hget, pairsOf_filter]
  by_cases hlX : gX.length = k + 1
  · rw [if_pos hlX] at eX
    obtain ⟨layerX, hgX, hndX, hmX⟩ := hX.layerExact (le_refl k) (by omega)
    rw [expandDim_pairs hgX] at eX
    refine pairs_part hφ hp hk hndU hmU hmix (pairsOf layerU) (pairsOf layerX) hps ?_
      (hpq layerX (by rw [List.getD_eq_getElem?_getD, hgX]; rfl)) gX gU gX' gU' h hgU (.inl hlU)
      (.inl hlX) eX eU
    rintro ⟨a, b⟩ hx
    obtain ⟨m1, m2, -⟩ := mem_pairsOf Prod.fst hndX hx
    exact ⟨((hmX a.1 a.2).1 m1).2.1.2.2.1, ((hmX b.1 b.2).1 m2).2.1.2.2.1⟩
  · rw [if_neg hlX] at eX
    subst eX
    have hnil : gX'.getD k [] = [] := by
      have := hX.only
      exact List.getD_eq_default _ _ (by omega)
    exact pairs_part hφ hp hk hndU hmU hmix (pairsOf layerU) [] hps (by simp) (hpq [] hnil) gX' gU gX' gU' h hgU
      (.inl hlU) (.inr (.inr rfl)) rfl eU

theorem expandLoop_part {φ : Nat → Nat} (hφ : StrictMono φ) {p : List Nat → Bool} {N M : Nat}
    (hp : ∀ v : List Nat, v ≠ [] → (∀ x ∈ v, x < M) → p (v.map φ) = true)
    {d dX : Nat → Nat → W} {near nearX : Nat → Nat → Prop}
    (hmix : ∀ (k : Nat) (a b e : List Nat), IsSimplex N near a → IsSimplex N near b → IsSimplex N near e →
      a.length = k + 1 → b.length = k + 1 → e.length = k + 2 → (∀ x ∈ e, x ∈ a ∨ x ∈ b) →
      ¬ (p a = true ∧ p b = true) → p e = false) (m : Nat) : ∀ (k : Nat) (gX gU gX' gU' : Graph W), 1 ≤ k →
    StoresRips gX M dX nearX k → StoresRips gU N d near k → Full gX → PartOf φ p gX gU →
    expandLoop (List.range' (k + 1) m) gX = .ok gX' → expandLoop (List.range' (k + 1) m) gU = .ok gU' →
    PartOf φ p gX' gU' := by
  have short : ∀ (m k : Nat) (g : Graph W), g.length < k → expandLoop (List.range' k m) g = .ok g := by
    intro m k g h
    cases m with
    | zero => rfl
    | succ m => rw [List.range'_succ, expandLoop, if_pos h]; rfl
  induction m with
  | zero =>
    intro k gX gU gX' gU' _ _ _ _ hb h1 h2
    cases h1
    cases h2
    exact hb
  | succ m ih =>
    intro k gX gU gX' gU' hk hX hU hf hb h1 h2
    have hoX := hX.only
    have hoU := hU.only
    by_cases hlU : gU.length < k + 1
    · have hlX : gX.length < k + 1 := by
        by_contra h
        have h3 := full_iff.1 hf k (by omega)
        have h4 := hb k
        rw [List.getD_eq_default gU _ (by omega), List.filter_nil, List.map_eq_nil_iff] at h4
        exact h3 h4
      rw [short _ _ _ hlX] at h1
      rw [short _ _ _ hlU] at h2
      cases h1
      cases h2
      exact hb
    · rw [List.range'_succ, expandLoop, if_neg hlU] at h2
      obtain ⟨gU1, l1, l2⟩ := bind_ok.1 h2
      have hlU' : gU.length = k + 1 := by omega
      obtain ⟨gU2, e1, e2, -⟩ := expandDim_new hU hk hlU'
      rw [l1] at e1
      cases e1
      by_cases hlX : gX.length < k + 1
      · rw [short _ _ _ hlX] at h1
        cases h1
        refine ih (k + 1) gX gU1 gX gU' (by omega) (hX.extend (by omega) (by omega)) e2 hf ?_
          (short _ _ _ (by omega)) l2
        exact expandDim_part hφ hp hk (hmix k) hX hU hlU' hb (by rw [if_neg (by omega)]) l1
      · rw [List.range'_succ, expandLoop, if_neg hlX] at h1
        obtain ⟨gX1, s1, s2⟩ := bind_ok.1 h1
        have hlX' : gX.length = k + 1 := by omega
        obtain ⟨gX2, f1, f2, -⟩ := expandDim_new hX hk hlX'
        rw [s1] at f1
        cases f1
        exact ih (k + 1) gX1 gU1 gX' gU' (by omega) f2 e2 (expandDim_full hlX' hf s1)
          (expandDim_part hφ hp hk (hmix k) hX hU hlU' hb (by rw [if_pos hlX']; exact s1) l1) s2 l2

/-- A new simplex has a vertex of each of the two entries. -/
theorem mix_of {N k : Nat} {near : Nat → Nat → Prop} {S : Nat → Prop} {p : List Nat → Bool}
    (hs : ∀ v : List Nat, IsSimplex N near v → ∀ x ∈ v, (p v = true ↔ S x))
    (a b e : List Nat) (ha : IsSimplex N near a) (hb : IsSimplex N near b) (he : IsSimplex N near e)
    (hla : a.length = k + 1) (hlb : b.length = k + 1) (hle : e.length = k + 2)
    (hsub : ∀ x ∈ e, x ∈ a ∨ x ∈ b) (hno : ¬ (p a = true ∧ p b = true)) : p e = false := by
  rw [← Bool.not_eq_true]
  intro hpe
  have some : ∀ c : List Nat, c.length = k + 1 → ∃ x ∈ e, x ∉ c := by
    intro c hc
    by_contra h
    push Not at h
    have hnd : e.Nodup := List.Pairwise.imp (fun {a b} h => Nat.ne_of_lt h) he.inc
    have := (hnd.subperm (fun x hx => h x hx)).length_le
    omega
  obtain ⟨x, x1, x2⟩ := some a hla
  obtain ⟨y, y1, y2⟩ := some b hlb
  apply hno
  constructor
  · exact (hs a ha y ((hsub y y1).resolve_right y2)).2 ((hs e he y y1).1 hpe)
  · exact (hs b hb x ((hsub x x1).resolve_left x2)).2 ((hs e he x x1).1 hpe)

end

end LHF
