import Verif.Model.Messages
import Verif.Props.Collapse
import Verif.Props.Effects

/-! C123: the [DEBUG] lines in the log. -/

namespace LHF
open Spec

/-- The messages do not change what the stage does. -/
theorem ripsArraySays_forget {W : Type} [LinearOrder W] [Ring W] (count : Nat → List Char)
    (size : Graph W → List Char) (stage complex : MessageSettings) (dim : Nat) (collapse : String) (g : Graph W) :
    (ripsArraySays count size stage complex dim collapse g >>= fun r => pure r.1) =
      ripsPipeArray dim collapse g := by
  unfold ripsArraySays ripsPipeArray
  cases expandDimensions dim g with
  | error e => rfl
  | ok g' =>
    rw [ok_bind, ok_bind]
    dsimp only
    by_cases hc : collapse = "true" ∨ collapse = "1"
    · rw [if_pos hc, if_pos hc]
      unfold arrayReduceSays
      cases arrayReduceComplex g' with
      | error e => rfl
      | ok c =>
        rw [ok_bind]
        split_ifs <;> rfl
    · rw [if_neg hc, if_neg hc]
      rfl

theorem writeDebug_nil (ut : MessageSettings) (module' message : List Char) :
    writeDebug ut module' message = [] ↔ ut.debug = "0".toList ∨ ut.debug = "false".toList := by
  unfold writeDebug
  by_cases h : ut.debug = "0".toList ∨ ut.debug = "false".toList
  · rw [if_pos h]; exact ⟨fun _ => h, fun _ => rfl⟩
  · rw [if_neg h]
    simp only [h, iff_false]
    intro h'
    have := congrArg List.length h'
    simp at this

/-- C123: a stage writes no [DEBUG] line exactly when the option `debug` is "0" or "false". -/
theorem C123_stage_messages (args : ArgMap) (value : String) (h : args "debug" = some value)
    (module' message : List Char) :
    writeDebug (stageMessages args) module' message = [] ↔ value = "0" ∨ value = "false" := by
  rw [writeDebug_nil]
  unfold stageMessages
  rw [h]
  simp only [Option.getD_some, String.toList_inj]

theorem stringOfInt_zero (n : Int) : stringOfInt n = "0".toList ↔ n % 256 = 48 := by
  have h1 := Int.emod_nonneg n (show (256 : Int) ≠ 0 by decide)
  have h2 := Int.emod_lt_of_pos n (show (0 : Int) < 256 by decide)
  obtain ⟨k, hk⟩ := Int.eq_ofNat_of_zero_le h1
  unfold stringOfInt
  rw [hk, Int.toNat_natCast]
  rw [show "0".toList = [Char.ofNat 48] by decide]
  have hk2 : k < 256 := by omega
  simp only [List.cons.injEq, and_true]
  constructor
  · intro h
    have := (show ∀ k < 256, Char.ofNat k = Char.ofNat 48 → k = 48 by decide +kernel) k hk2 h
    omega
  · intro h
    have : k = 48 := by omega
    rw [this]

/-- C123 fails: a complex is silent only for values of `debug` that are 48 up to multiples of 256. -/
theorem C123_complex_messages_violated (atoi : String → Int) (args : ArgMap) (value dims eps : String)
    (h : args "debug" = some value) (hd : args "dimensions" = some dims) (he : args "epsilon" = some eps)
    (module' message : List Char) :
    writeDebug (complexMessages atoi args) module' message = [] ↔ atoi value % 256 = 48 := by
  rw [writeDebug_nil]
  unfold complexMessages
  rw [h, hd, he]
  dsimp only
  rw [stringOfInt_zero]
  constructor
  · rintro (h | h)
    · exact h
    · have := congrArg List.length h
      simp [stringOfInt] at this
  · exact Or.inl

/-- C123 fails: with `debug` off (the value "0", read as the number 0), the collapse of a Rips complex on a
`simplexArrayList` writes two [DEBUG] lines, with the numbers of simplices before and after; the stage itself
writes none. -/
theorem C123_collapse_log_violated {K W : Type} [LinearOrder W] [Ring W] [IsStrictOrderedRing W]
    (count : Nat → List Char) (size : Graph W → List Char) (atoi : String → Int) (args : ArgMap)
    (dims epsilon : String) (hatoi : atoi "0" = 0)
    (h : args "debug" = some "0") (hdm' : args "dimensions" = some dims) (he : args "epsilon" = some epsilon)
    (eps : W) (maxDim dim : Nat) (hm : 0 < maxDim) (dm : List (List W)) (d : Nat → Nat → W)
    (h0 : ∀ i j, 0 ≤ d i j) (data : List (List K)) (hne : ∀ p ∈ data, p ≠ []) (hdata : data ≠ [])
    (hdm : ∀ i j, j < i → i < data.length → at2 dm j i = .ok (d j i)) (collapse : String)
    (hc : collapse = "true" ∨ collapse = "1") :
    ∃ (inserted g c : Graph W), arrayInsertAll eps maxDim dm data [] = .ok inserted ∧
      StoresRips g data.length d (fun i j => d i j ≤ eps) (max 1 dim) ∧
      ripsPipeArray dim collapse inserted = .ok c ∧
      ripsArraySays count size (stageMessages args) (complexMessages atoi args) dim collapse inserted =
        .ok (c, "[DEBUG]\t[simplexArrayList]:\tReducing complex, starting simplex count: ".toList ++
          count (Set.ncard {s : List Nat | IsSimplex data.length (fun i j => d i j ≤ eps) s ∧
            s.length ≤ max 1 dim + 1}) ++
          "\n[DEBUG]\t[simplexArrayList]:\tFinished reducing complex, reduced simplex count: ".toList ++
          count (arraySimplexCount c) ++ "\n".toList) := by
  obtain ⟨inserted, g, h1, h2, h3, h4⟩ := C82_collapse_exact eps maxDim dim hm dm d h0 data hne hdm collapse hc
  refine ⟨inserted, g, _, h1, h3, h4, ?_⟩
  have hstage : ∀ a b, writeDebug (stageMessages args) a b = [] :=
    fun a b => (C123_stage_messages args "0" h a b).2 (Or.inl rfl)
  have hcomplex : ∀ a b, writeDebug (complexMessages atoi args) a b = "[DEBUG]\t".toList ++ logLine a b := by
    intro a b
    have hn := (C123_complex_messages_violated atoi args "0" dims epsilon h hdm' he a b).not.2
      (by rw [hatoi]; decide)
    unfold writeDebug at hn ⊢
    split_ifs at hn ⊢ with hi
    · exact absurd rfl hn
    · rfl
  unfold ripsPipeArray at h4
  rw [h2, ok_bind, if_pos hc] at h4
  have hg : g.length ≠ 0 := by
    have := h3.only
    intro hz
    obtain ⟨l, hl, -⟩ := (h3.exact 0 [0] (diam d [0]) (by omega)).2 ⟨by simp, by
      refine ⟨by simp, by simp, ?_, ?_⟩
      · intro v hv
        have := List.length_pos_of_ne_nil hdata
        simp only [List.mem_singleton] at hv
        omega
      · intro i hi j hj hij
        simp only [List.mem_singleton] at hi hj
        omega, rfl⟩
    rw [List.eq_nil_of_length_eq_zero hz] at hl
    cases hl
  unfold ripsArraySays arrayReduceSays
  rw [h2, ok_bind]
  dsimp only
  rw [if_pos hc, h4, ok_bind, if_neg hg]
  simp only [hstage, hcomplex, List.nil_append, List.append_nil, pure_eq_ok, ok_bind, Except.ok.injEq,
    Prod.mk.injEq, true_and]
  rw [(C19_array_counts h3).1]
  unfold logLine
  rw [show "[DEBUG]\t[simplexArrayList]:\tReducing complex, starting simplex count: ".toList =
      "[DEBUG]\t".toList ++ (['['] ++ "simplexArrayList".toList ++ "]:\t".toList ++
        "Reducing complex, starting simplex count: ".toList) by decide,
    show "\n[DEBUG]\t[simplexArrayList]:\tFinished reducing complex, reduced simplex count: ".toList =
      ['\n'] ++ "[DEBUG]\t".toList ++ (['['] ++ "simplexArrayList".toList ++ "]:\t".toList ++
        "Finished reducing complex, reduced simplex count: ".toList) by decide,
    show "\n".toList = ['\n'] by decide]
  simp only [List.append_assoc]

/-- C123, a complex without simplices: only the first of the two lines is written. -/
theorem C123_empty_collapse_log {W : Type} [LinearOrder W] [Ring W] (count : Nat → List Char)
    (ut : MessageSettings) :
    arrayReduceSays count ut ([] : Graph W) = .ok ([], writeDebug ut "simplexArrayList".toList
      ("Reducing complex, starting simplex count: ".toList ++ count 0)) := by
  simp [arrayReduceSays, arrayReduceComplex, arraySimplexCount, pure_eq_ok, ok_bind]

/-- C123 fails: a value of `debug` that is read as the number 0 but is not "0" or "false" (for example "true")
switches the [DEBUG] lines of the stages on and their files off. -/
theorem C123_files_and_messages_violated {K W : Type} [LinearOrder W] (sys : System K W) (args : ArgMap)
    (value : String) (h : args "debug" = some value) (hz : sys.atoi value = 0) (h0 : value ≠ "0")
    (hf : value ≠ "false") (module' message : List Char) :
    debugFiles sys args = false ∧ writeDebug (stageMessages args) module' message ≠ [] := by
  refine ⟨?_, fun hn => ?_⟩
  · unfold debugFiles
    rw [h]
    simp [hz]
  · rcases (C123_stage_messages args value h module' message).1 hn with h1 | h1
    · exact h0 h1
    · exact hf h1

/-- The messages for a case: three points, all pairs close, dimension 2, `debug` off. -/
example : ∃ g, expandDimensions 2 [[([0], 0), ([1], 0), ([2], 0)],
      [([0, 1], 1), ([0, 2], 2), ([1, 2], (3 : Int))]] = .ok g ∧
    (ripsArraySays (fun n => List.replicate n 'I') (fun _ => []) ⟨"0".toList, "out".toList⟩
        ⟨stringOfInt 0, "out".toList⟩ 2 "true" [[([0], 0), ([1], 0), ([2], 0)],
      [([0, 1], 1), ([0, 2], 2), ([1, 2], (3 : Int))]]).toOption.map Prod.snd =
      some ("[DEBUG]\t[simplexArrayList]:\tReducing complex, starting simplex count: IIIIIII\n".toList ++
        "[DEBUG]\t[simplexArrayList]:\tFinished reducing complex, reduced simplex count: IIIII\n".toList) := by
  refine ⟨_, rfl, ?_⟩
  decide +kernel

/-- The arguments of a command line without `debug` meet the hypotheses of C123. -/
example : ∃ m, parseArgs ["-l", "true"] = .ok m ∧ m "debug" = some "0" ∧ m "dimensions" = some "1" ∧
    m "epsilon" = some "5" := by
  refine ⟨_, rfl, ?_⟩
  decide

end LHF
