import Verif.Model.Basic

/-! Lemmas about the outcome monad and loops in it. -/

namespace LHF

theorem vget_ok {α : Type _} {l : List α} {i : Nat} {a : α} : vget l i = .ok a ↔ l[i]? = some a := by
  unfold vget; split <;> simp_all

theorem vget_of_lt {α : Type _} {l : List α} {i : Nat} (h : i < l.length) : vget l i = .ok l[i] :=
  vget_ok.2 (List.getElem?_eq_getElem h)

theorem vget_error {α : Type _} {l : List α} {i : Nat} (h : l.length ≤ i) :
    vget l i = .error .oob := by
  unfold vget; rw [List.getElem?_eq_none h]

theorem vget_isOk {α : Type _} {l : List α} {i : Nat} : (∃ a, vget l i = .ok a) ↔ i < l.length := by
  constructor
  · rintro ⟨a, h⟩
    exact (List.getElem?_eq_some_iff.1 (vget_ok.1 h)).1
  · intro h; exact ⟨_, vget_of_lt h⟩

theorem bind_ok {α β : Type _} {x : Res α} {f : α → Res β} {b : β} :
    (x >>= f) = .ok b ↔ ∃ a, x = .ok a ∧ f a = .ok b := by
  cases x with
  | error e => simp [bind, Except.bind]
  | ok a => simp [bind, Except.bind]

@[simp] theorem ok_bind {α β : Type _} (a : α) (f : α → Res β) : ((.ok a : Res α) >>= f) = f a := rfl

@[simp] theorem error_bind {α β : Type _} (e : Err) (f : α → Res β) :
    ((.error e : Res α) >>= f) = .error e := rfl

theorem pure_eq_ok {α : Type _} (a : α) : (pure a : Res α) = .ok a := rfl

theorem foldlM_range_ok {σ : Type _} (f : σ → Nat → Res σ) (n : Nat) (st : Nat → σ)
    (h : ∀ i < n, f (st i) i = .ok (st (i + 1))) :
    (List.range n).foldlM f (st 0) = .ok (st n) := by
  induction n with
  | zero => rfl
  | succ n ih =>
    rw [List.range_succ, List.foldlM_append, ih (fun i hi => h i (by omega))]
    simp [h n (by omega), pure_eq_ok]

theorem foldlM_ok_mem {σ β : Type _} {f : σ → β → Res σ} {l : List β} {s r : σ}
    (h : l.foldlM f s = .ok r) : ∀ x ∈ l, ∃ s s', f s x = .ok s' := by
  induction l generalizing s with
  | nil => simp
  | cons x xs ih =>
    rw [List.foldlM_cons, bind_ok] at h
    obtain ⟨s', h1, h2⟩ := h
    intro y hy
    rcases List.mem_cons.1 hy with rfl | hy
    · exact ⟨s, s', h1⟩
    · exact ih h2 y hy

/-- Loop invariant rule for partial correctness. -/
theorem foldlM_inv {σ β : Type _} {f : σ → β → Res σ} {l : List β} {s r : σ} (P : σ → Prop)
    (h0 : P s) (hs : ∀ s x s', x ∈ l → P s → f s x = .ok s' → P s') (h : l.foldlM f s = .ok r) :
    P r := by
  induction l generalizing s with
  | nil => rw [List.foldlM_nil, pure_eq_ok] at h; cases h; exact h0
  | cons x xs ih =>
    rw [List.foldlM_cons, bind_ok] at h
    obtain ⟨s', h1, h2⟩ := h
    exact ih (hs s x s' (by simp) h0 h1) (fun s x s' hx => hs s x s' (by simp [hx])) h2

/-- Loop rule for total correctness. -/
theorem foldlM_total {σ β : Type _} {f : σ → β → Res σ} {l : List β} {s : σ} (P : σ → Prop)
    (h0 : P s) (hs : ∀ s x, x ∈ l → P s → ∃ s', f s x = .ok s' ∧ P s') :
    ∃ r, l.foldlM f s = .ok r ∧ P r := by
  induction l generalizing s with
  | nil => exact ⟨s, rfl, h0⟩
  | cons x xs ih =>
    obtain ⟨s', h1, h2⟩ := hs s x (by simp) h0
    obtain ⟨r, h3, h4⟩ := ih h2 (fun s x hx => hs s x (by simp [hx]))
    exact ⟨r, by rw [List.foldlM_cons, h1, ok_bind, h3], h4⟩

/-- Loop rule over `start, start+1, ..., start+n-1`, total correctness. -/
theorem foldlM_range'_total {σ : Type _} (f : σ → Nat → Res σ) (P : Nat → σ → Prop) (n : Nat) :
    ∀ (start : Nat) (s : σ), P start s →
    (∀ i s, start ≤ i → i < start + n → P i s → ∃ s', f s i = .ok s' ∧ P (i + 1) s') →
    ∃ r, (List.range' start n).foldlM f s = .ok r ∧ P (start + n) r := by
  induction n with
  | zero => intro start s h0 _; exact ⟨s, rfl, h0⟩
  | succ n ih =>
    intro start s h0 hs
    obtain ⟨s', h1, h2⟩ := hs start s le_rfl (by omega) h0
    obtain ⟨r, h3, h4⟩ := ih (start + 1) s' h2 (fun i s hi hi' => hs i s (by omega) (by omega))
    refine ⟨r, ?_, by rwa [Nat.add_right_comm] at h4⟩
    rw [List.range'_succ, List.foldlM_cons, h1, ok_bind, h3]

/-- Loop rule over `0, ..., n-1`, total correctness. -/
theorem foldlM_range_total {σ : Type _} (f : σ → Nat → Res σ) (P : Nat → σ → Prop) (n : Nat)
    (s : σ) (h0 : P 0 s)
    (hs : ∀ i s, i < n → P i s → ∃ s', f s i = .ok s' ∧ P (i + 1) s') :
    ∃ r, (List.range n).foldlM f s = .ok r ∧ P n r := by
  have := foldlM_range'_total f P n 0 s h0 (fun i s _ hi => hs i s (by omega))
  simpa [List.range_eq_range'] using this

theorem vmodify_map_range {β : Type _} {k i : Nat} (hi : i < k) (g : Nat → β) (f : β → β) :
    vmodify ((List.range k).map g) i f =
      .ok ((List.range k).map (fun j => if j = i then f (g j) else g j)) := by
  unfold vmodify
  rw [if_pos (by simpa using hi)]
  congr 1
  apply List.ext_getElem
  · simp
  · intro j h1 h2
    simp [List.getElem_modify, eq_comm]

theorem vmodify_ok_lt {β : Type _} {l r : List β} {i : Nat} {f : β → β}
    (h : vmodify l i f = .ok r) : i < l.length := by
  unfold vmodify at h; split_ifs at h with h'; exact h'

end LHF
