import Verif.Lemmas.Homology
import Verif.Lemmas.Relabel
import Verif.Spec.RipsHomology
import Mathlib.Algebra.CharP.Two

/-! The Rips complex of points on a line has no homology above dimension 0. -/

namespace LHF
open Spec

/-! ### Cones -/

theorem chain_add_self (a : Chain) : a + a = 0 := by
  ext s
  exact CharTwo.add_self_eq_zero (a s)

/-- `m` put in front. -/
noncomputable def consChain (m : Nat) : Chain →ₗ[ZMod 2] Chain :=
  Finsupp.linearCombination (ZMod 2) (fun s => Finsupp.single (m :: s) 1)

theorem consChain_single (m : Nat) (s : List Nat) :
    consChain m (Finsupp.single s 1) = Finsupp.single (m :: s) 1 := by
  unfold consChain
  rw [Finsupp.linearCombination_single, one_smul]

/-- The lists that start with `m`, without it. -/
noncomputable def stripChain (m : Nat) : Chain →ₗ[ZMod 2] Chain :=
  Finsupp.linearCombination (ZMod 2) (fun s => if s.head? = some m then Finsupp.single s.tail 1 else 0)

theorem stripChain_single (m : Nat) (s : List Nat) :
    stripChain m (Finsupp.single s 1) = if s.head? = some m then Finsupp.single s.tail 1 else 0 := by
  unfold stripChain
  rw [Finsupp.linearCombination_single, one_smul]

/-- `m` put in front of the lists that do not start with `m`. -/
noncomputable def coneChain (m : Nat) : Chain →ₗ[ZMod 2] Chain :=
  Finsupp.linearCombination (ZMod 2) (fun s => if s.head? = some m then 0 else Finsupp.single (m :: s) 1)

theorem coneChain_single (m : Nat) (s : List Nat) :
    coneChain m (Finsupp.single s 1) = if s.head? = some m then 0 else Finsupp.single (m :: s) 1 := by
  unfold coneChain
  rw [Finsupp.linearCombination_single, one_smul]

theorem boundaryOf_cons (m : Nat) (s : List Nat) :
    boundaryOf (m :: s) = Finsupp.single s 1 + consChain m (boundaryOf s) := by
  unfold boundaryOf
  rw [List.length_cons, Finset.sum_range_succ', add_comm, map_sum]
  congr 1
  refine Finset.sum_congr rfl (fun i _ => ?_)
  rw [consChain_single]
  rfl

theorem boundary_cons (m : Nat) (a : Chain) : boundary (consChain m a) = a + consChain m (boundary a) := by
  induction a using Finsupp.induction_linear with
  | zero => simp
  | add a b ha hb => rw [map_add, map_add, ha, hb, map_add, map_add]; abel
  | single s c =>
    rw [← mul_one c, ← smul_eq_mul, ← Finsupp.smul_single, map_smul, map_smul, map_smul, map_smul,
      consChain_single, boundary_single, boundary_single, boundaryOf_cons, smul_add]

theorem strip_cons (m : Nat) (a : Chain) : stripChain m (consChain m a) = a := by
  induction a using Finsupp.induction_linear with
  | zero => simp
  | add a b ha hb => rw [map_add, map_add, ha, hb]
  | single s c =>
    rw [← mul_one c, ← smul_eq_mul, ← Finsupp.smul_single, map_smul, map_smul, consChain_single,
      stripChain_single]
    simp

/-- The chains on the lists with a property. -/
noncomputable def chainsOn (P : List Nat → Prop) : Submodule (ZMod 2) Chain :=
  Submodule.span (ZMod 2) {x | ∃ s, P s ∧ x = Finsupp.single s 1}

theorem chainsOn_le {P : List Nat → Prop} {S : Submodule (ZMod 2) Chain}
    (h : ∀ s, P s → Finsupp.single s 1 ∈ S) : chainsOn P ≤ S := by
  unfold chainsOn
  rw [Submodule.span_le]
  rintro _ ⟨s, hs, rfl⟩
  exact h s hs

theorem single_chainsOn {P : List Nat → Prop} {s : List Nat} (h : P s) : Finsupp.single s 1 ∈ chainsOn P :=
  Submodule.subset_span ⟨s, h, rfl⟩

/-- The simplices whose smallest vertex is at least `m`. -/
def FromVertex (n : Nat) (near : Nat → Nat → Prop) (k m : Nat) (s : List Nat) : Prop :=
  s.length = k + 1 ∧ IsSimplex n near s ∧ ∀ v ∈ s, m ≤ v

theorem above_faces {m : Nat} {s : List Nat} (hm : ∀ v ∈ s, m < v) (i : Nat) :
    (s.eraseIdx i).head? ≠ some m := by
  intro h
  have := List.mem_of_mem_head? (by rw [h]; rfl)
  exact absurd (hm m (List.mem_of_mem_eraseIdx this)) (lt_irrefl _)

theorem cone_boundary {m : Nat} {s : List Nat} (hs : s.Pairwise (· < ·)) (hm : ∀ v ∈ s, m ≤ v) :
    boundary (coneChain m (Finsupp.single s 1)) + coneChain m (boundaryOf s) = Finsupp.single s 1 := by
  have above : ∀ r : List Nat, (∀ v ∈ r, m < v) →
      coneChain m (boundaryOf r) = consChain m (boundaryOf r) := by
    intro r hv
    unfold boundaryOf
    rw [map_sum, map_sum]
    refine Finset.sum_congr rfl (fun i _ => ?_)
    rw [coneChain_single, if_neg (above_faces hv i), consChain_single]
  rw [coneChain_single]
  split_ifs with h
  · obtain ⟨r, rfl⟩ : ∃ r, s = m :: r := by
      cases s with
      | nil => simp at h
      | cons v r => simp at h; exact ⟨r, by rw [h]⟩
    rw [List.pairwise_cons] at hs
    have hne : r.head? ≠ some m := by
      have := above_faces (i := r.length) hs.1
      rwa [List.eraseIdx_of_length_le le_rfl] at this
    rw [map_zero, zero_add, boundaryOf_cons, map_add, coneChain_single, if_neg hne]
    have : coneChain m (consChain m (boundaryOf r)) = 0 := by
      unfold boundaryOf
      rw [map_sum, map_sum]
      refine Finset.sum_eq_zero (fun i _ => ?_)
      rw [consChain_single, coneChain_single, if_pos (by rfl)]
    rw [this, add_zero]
  · have hv : ∀ v ∈ s, m < v := by
      intro v hv
      rcases lt_or_eq_of_le (hm v hv) with h1 | h1
      · exact h1
      · exfalso
        subst h1
        cases s with
        | nil => cases hv
        | cons a r =>
          rw [List.pairwise_cons] at hs
          rcases List.mem_cons.1 hv with h2 | h2
          · subst h2; exact h rfl
          · exact absurd (hs.1 m h2) (not_lt.2 (hm a (by simp)))
    rw [boundary_single, boundaryOf_cons, above s hv, add_assoc, chain_add_self, add_zero]

theorem cone_homotopy {m : Nat} {a : Chain}
    (ha : a ∈ chainsOn (fun s => s.Pairwise (· < ·) ∧ ∀ v ∈ s, m ≤ v)) :
    boundary (coneChain m a) + coneChain m (boundary a) = a := by
  have : chainsOn (fun s => s.Pairwise (· < ·) ∧ ∀ v ∈ s, m ≤ v) ≤
      LinearMap.ker (boundary ∘ₗ coneChain m + coneChain m ∘ₗ boundary - LinearMap.id) := by
    refine chainsOn_le (fun s hs => ?_)
    rw [LinearMap.mem_ker]
    simp only [LinearMap.sub_apply, LinearMap.add_apply, LinearMap.comp_apply, LinearMap.id_apply]
    rw [boundary_single, cone_boundary hs.1 hs.2, sub_self]
  have h := this ha
  rw [LinearMap.mem_ker] at h
  simp only [LinearMap.sub_apply, LinearMap.add_apply, LinearMap.comp_apply, LinearMap.id_apply] at h
  exact sub_eq_zero.1 h

/-- A set of neighbours that is an interval for every point: what is between two near points is near both. -/
def BetweenNear (near : Nat → Nat → Prop) : Prop :=
  ∀ i j l, i < j → j < l → near i l → near i j ∧ near j l

section
variable {n : Nat} {near : Nat → Nat → Prop}

/-- The rest of a simplex that starts with `m`, over `m + 1`. -/
theorem push_simplex (hb : BetweenNear near) {m : Nat} {r : List Nat} (h : IsSimplex n near (m :: r)) (hr : r ≠ [])
    (hh : r.head? ≠ some (m + 1)) : IsSimplex n near (m :: (m + 1) :: r) := by
  obtain ⟨-, h2, h3, h4⟩ := h
  rw [List.pairwise_cons] at h2
  have hv : ∀ v ∈ r, m + 1 < v := by
    intro v hv
    rcases lt_or_eq_of_le (Nat.succ_le_of_lt (h2.1 v hv)) with h1 | h1
    · exact h1
    · exfalso
      cases r with
      | nil => cases hv
      | cons a r =>
        have ha := h2.1 a (by simp)
        rcases List.mem_cons.1 hv with h5 | h5
        · apply hh; rw [List.head?_cons, ← h5, ← h1]
        · have := (List.pairwise_cons.1 h2.2).1 v h5
          omega
  obtain ⟨a, ha⟩ := List.exists_mem_of_ne_nil r hr
  refine ⟨by simp, ?_, ?_, ?_⟩
  · rw [List.pairwise_cons, List.pairwise_cons]
    refine ⟨?_, fun v hv' => hv v hv', h2.2⟩
    intro v hv'
    rcases List.mem_cons.1 hv' with h5 | h5
    · omega
    · exact h2.1 v h5
  · intro v hv'
    rcases List.mem_cons.1 hv' with h5 | h5
    · exact h3 v (by simp [h5])
    · rcases List.mem_cons.1 h5 with h6 | h6
      · have := hv a ha
        have := h3 a (by simp [ha])
        omega
      · exact h3 v (by simp [h6])
  · intro i hi j hj hij
    simp only [List.mem_cons] at hi hj
    rcases hi with rfl | rfl | hi <;> rcases hj with rfl | rfl | hj
    · omega
    · exact (hb i (i + 1) a (by omega) (hv a ha) (h4 i (by simp) a (by simp [ha]) (h2.1 a ha))).1
    · exact h4 i (by simp) j (by simp [hj]) hij
    · omega
    · omega
    · exact (hb m (m + 1) j (by omega) hij (h4 m (by simp) j (by simp [hj]) (by omega))).2
    · have := hv i hi; omega
    · have := hv i hi; omega
    · exact h4 i (by simp [hi]) j (by simp [hj]) hij

theorem simplex_tail {v : Nat} {r : List Nat} (h : IsSimplex n near (v :: r)) (hr : r ≠ []) : IsSimplex n near r :=
  ⟨hr, (List.pairwise_cons.1 h.2.1).2, fun w hw => h.2.2.1 w (by simp [hw]),
    fun i hi j hj hij => h.2.2.2 i (by simp [hi]) j (by simp [hj]) hij⟩

/-- Every cycle of positive dimension is a boundary. -/
theorem line_acyclic (hb : BetweenNear near) {k : Nat} (hk : 1 ≤ k) : ∀ (j m : Nat), n ≤ m + j → ∀ z : Chain,
    z ∈ chainsOn (FromVertex n near k m) → boundary z = 0 →
      ∃ w ∈ chainsOn (FromVertex n near (k + 1) m), boundary w = z := by
  intro j
  induction j with
  | zero =>
    intro m hm z hz _
    have : z ∈ (⊥ : Submodule (ZMod 2) Chain) := by
      refine chainsOn_le (S := ⊥) (fun s hs => ?_) hz
      exfalso
      obtain ⟨a, ha⟩ := List.exists_mem_of_ne_nil s hs.2.1.1
      have := hs.2.2 a ha
      have := hs.2.1.2.2.1 a ha
      omega
    rw [Submodule.mem_bot] at this
    exact ⟨0, Submodule.zero_mem _, by rw [this, map_zero]⟩
  | succ j ih =>
    intro m hm z hz hz0
    -- the simplices with `m`
    let Q : List Nat → Prop := fun r => r.length = k ∧ IsSimplex n near (m :: r)
    have hsplit : chainsOn (FromVertex n near k m) ≤
        (chainsOn Q).map (consChain m) ⊔ chainsOn (FromVertex n near k (m + 1)) := by
      refine chainsOn_le (fun s hs => ?_)
      obtain ⟨h1, h2, h3⟩ := hs
      cases s with
      | nil => simp at h1
      | cons v r =>
        by_cases hv : v = m
        · subst hv
          refine Submodule.mem_sup_left ⟨Finsupp.single r 1, single_chainsOn ⟨by simpa using h1, h2⟩, ?_⟩
          exact consChain_single _ _
        · refine Submodule.mem_sup_right (single_chainsOn ⟨h1, h2, ?_⟩)
          have hvm : m < v := lt_of_le_of_ne (h3 v (by simp)) (Ne.symm hv)
          intro u hu
          rcases List.mem_cons.1 hu with rfl | hu
          · exact hvm
          · have := (List.pairwise_cons.1 h2.2.1).1 u hu
            omega
    obtain ⟨_, ⟨a, ha, rfl⟩, b, hbb, hab⟩ := Submodule.mem_sup.1 (hsplit hz)
    have hQ : ∀ r, Q r → r ≠ [] ∧ r.Pairwise (· < ·) ∧ ∀ v ∈ r, m + 1 ≤ v := by
      intro r hr
      have hp := List.pairwise_cons.1 hr.2.2.1
      exact ⟨List.ne_nil_of_length_pos (by have := hr.1; omega), hp.2, fun v hv => hp.1 v hv⟩
    have strip0 : ∀ {P : List Nat → Prop} {x : Chain}, (∀ s, P s → s.head? ≠ some m) → x ∈ chainsOn P →
        stripChain m x = 0 := by
      intro P x hP hx
      have : chainsOn P ≤ LinearMap.ker (stripChain m) := by
        refine chainsOn_le (fun s hs => ?_)
        rw [LinearMap.mem_ker, stripChain_single, if_neg (hP s hs)]
      exact this hx
    have noHead : ∀ s : List Nat, (∀ v ∈ s, m + 1 ≤ v) → s.head? ≠ some m := by
      intro s hs h
      have := List.mem_of_mem_head? (by rw [h]; rfl : m ∈ s.head?)
      have := hs m this
      omega
    have hda : boundary a = 0 := by
      have e : boundary (consChain m a + b) = 0 := by rw [hab]; exact hz0
      rw [map_add, boundary_cons] at e
      have e2 := congrArg (stripChain m) e
      rw [map_add, map_add, strip_cons, map_zero, strip0 (fun s hs => noHead s (hQ s hs).2.2) ha] at e2
      have e3 : stripChain m (boundary b) = 0 := by
        have : chainsOn (FromVertex n near k (m + 1)) ≤ LinearMap.ker (stripChain m ∘ₗ boundary) := by
          refine chainsOn_le (fun s hs => ?_)
          rw [LinearMap.mem_ker, LinearMap.comp_apply, boundary_single]
          unfold boundaryOf
          rw [map_sum]
          refine Finset.sum_eq_zero (fun i _ => ?_)
          rw [stripChain_single, if_neg]
          exact noHead _ (fun v hv => hs.2.2 v (List.mem_of_mem_eraseIdx hv))
        exact this hbb
      rw [e3, zero_add, add_zero] at e2
      exact e2
    have hcone : boundary (coneChain (m + 1) a) = a := by
      have h1 := cone_homotopy (m := m + 1) (a := a) (by
        refine chainsOn_le (fun s hs => ?_) ha
        exact single_chainsOn ⟨(hQ s hs).2.1, (hQ s hs).2.2⟩)
      rwa [hda, map_zero, add_zero] at h1
    have hc1 : coneChain (m + 1) a ∈ chainsOn (FromVertex n near k (m + 1)) := by
      have : chainsOn Q ≤ (chainsOn (FromVertex n near k (m + 1))).comap (coneChain (m + 1)) := by
        refine chainsOn_le (fun s hs => ?_)
        rw [Submodule.mem_comap, coneChain_single]
        split_ifs with h
        · exact Submodule.zero_mem _
        · have hps := push_simplex hb hs.2 (hQ s hs).1 h
          refine single_chainsOn ⟨by simp [hs.1], simplex_tail hps (by simp), ?_⟩
          intro v hv
          rcases List.mem_cons.1 hv with rfl | hv
          · exact le_rfl
          · exact (hQ s hs).2.2 v hv
      exact this ha
    have hc2 : consChain m (coneChain (m + 1) a) ∈ chainsOn (FromVertex n near (k + 1) m) := by
      have : chainsOn Q ≤ (chainsOn (FromVertex n near (k + 1) m)).comap (consChain m ∘ₗ coneChain (m + 1)) := by
        refine chainsOn_le (fun s hs => ?_)
        rw [Submodule.mem_comap, LinearMap.comp_apply, coneChain_single]
        split_ifs with h
        · rw [map_zero]; exact Submodule.zero_mem _
        · rw [consChain_single]
          refine single_chainsOn ⟨by simp [hs.1], push_simplex hb hs.2 (hQ s hs).1 h, ?_⟩
          intro v hv
          rcases List.mem_cons.1 hv with rfl | hv
          · exact le_rfl
          · rcases List.mem_cons.1 hv with rfl | hv
            · omega
            · have := (hQ s hs).2.2 v hv; omega
      exact this ha
    have hw : boundary (consChain m (coneChain (m + 1) a)) = coneChain (m + 1) a + consChain m a := by
      rw [boundary_cons, hcone]
    have hrest : b + coneChain (m + 1) a ∈ chainsOn (FromVertex n near k (m + 1)) :=
      Submodule.add_mem _ hbb hc1
    have hsum : b + coneChain (m + 1) a = z + boundary (consChain m (coneChain (m + 1) a)) := by
      rw [hw, ← hab]
      have := chain_add_self (consChain m a)
      calc b + coneChain (m + 1) a = (consChain m a + consChain m a) + (b + coneChain (m + 1) a) := by
            rw [this, zero_add]
        _ = _ := by abel
    obtain ⟨w, hw1, hw2⟩ := ih (m + 1) (by omega) _ hrest (by
      rw [hsum, map_add, hz0, boundary_boundary, add_zero])
    refine ⟨w + consChain m (coneChain (m + 1) a), Submodule.add_mem _ ?_ hc2, ?_⟩
    · refine chainsOn_le (fun s hs => ?_) hw1
      exact single_chainsOn ⟨hs.1, hs.2.1, fun v hv => by have := hs.2.2 v hv; omega⟩
    · rw [map_add, hw2, hsum, add_assoc, chain_add_self, add_zero]

end

section
variable {W : Type} [LinearOrder W]

/-- No homology above dimension 0 when what is between two near points is near both. -/
theorem ripsBetti_line {n : Nat} {d : Nat → Nat → W} {t : W} (hb : BetweenNear (fun i j => d i j ≤ t)) {k : Nat}
    (hk : 1 ≤ k) : ripsBetti n d k t = 0 := by
  have hle : ripsChains n d k t ⊓ LinearMap.ker boundary ≤ (ripsChains n d (k + 1) t).map boundary := by
    rintro z ⟨hz, hz0⟩
    have e : ∀ k, ripsChains n d k t = chainsOn (FromVertex n (fun i j => d i j ≤ t) k 0) := by
      intro k
      unfold ripsChains chainsOn FromVertex
      congr 1
      ext x
      constructor
      · rintro ⟨s, h1, h2, h3⟩; exact ⟨s, ⟨h1, h2, fun _ _ => Nat.zero_le _⟩, h3⟩
      · rintro ⟨s, ⟨h1, h2, -⟩, h3⟩; exact ⟨s, h1, h2, h3⟩
    rw [e] at hz
    obtain ⟨w, h1, h2⟩ := line_acyclic hb hk n 0 (by omega) z hz hz0
    exact ⟨w, by rw [e]; exact h1, h2⟩
  unfold ripsBetti
  have : (ripsChains n d k t ⊓ LinearMap.ker boundary).map
      ((ripsChains n d (k + 1) t).map boundary).mkQ = ⊥ := by
    rw [← LinearMap.le_ker_iff_map, Submodule.ker_mkQ]
    exact hle
  rw [this]
  exact finrank_bot _ _

end
end LHF
