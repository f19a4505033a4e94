import Verif.Props.Signed
import Verif.Props.KMeans

/-! C128: every number of clusters. -/

namespace LHF
open Spec

/-- C128: for positive numbers the run with ints is the run of the other properties (C44, C63, C64, C97), with one draw less
than there are clusters. -/
theorem C128_positive (data : List (List ℝ)) (c it : Int) (hc : 0 < c) (hc' : c < 2 ^ 31) (first : Nat)
    (picks : List (Nat × Bool)) :
    kmRunSigned data c it first picks = kmRun data c.toNat it.toNat first picks ∧ kmDraws c + 1 = c.toNat ∧
      ∀ w : Work (List ℝ) ℝ, kmWorkSigned c it first picks w = kmWork c.toNat it.toNat first picks w := by
  refine ⟨?_, ?_, fun w => ?_⟩
  rotate_left 2
  · unfold kmWorkSigned kmWork kmRunSigned
    rw [asSize_nonneg hc.le hc']
    rfl
  · unfold kmRunSigned
    rw [asSize_nonneg hc.le hc']
  · unfold kmDraws
    rw [asUnsigned_nonneg (by omega) (by omega)]
    omega

/-- C128: so with a positive number of clusters, at most as many as there are distinct rows, and at least one iteration, k-means
returns that many centroids, each the mean of its class, and labels all rows but the last. -/
theorem C128_returns_clusters {k : Nat} (data : List (List ℝ)) (c it : Int) (hc : 0 < c) (hc' : c < 2 ^ 31) (hit : 0 < it)
    (first : Nat) (picks : List (Nat × Bool)) (hrow : ∀ x ∈ data, x.length = k) (hfirst : first < data.length)
    (hpicks : ∀ p ∈ picks, p.1 < data.length) (hn : picks.length = kmDraws c)
    (hdist : c ≤ data.toFinset.card) :
    ∃ cents labels, kmRunSigned data c it first picks = .ok (cents, labels) ∧ (cents.length : Int) = c ∧
      labels.length = data.length - 1 ∧ CentroidsAreMeans k data labels cents := by
  obtain ⟨h1, h2, -⟩ := C128_positive data c it hc hc' first picks
  obtain ⟨cents, labels, prev, h3, h4, h5, -, -, h6⟩ := C44_result (k := k) data c.toNat it.toNat first picks hrow hfirst hpicks
    (by omega) (by omega) (by omega)
  exact ⟨cents, labels, h1.trans h3, by omega, h5, h6⟩

/-- C128 is violated for negative numbers: the list of seeds never gets long enough, and the run reads past the end of the data. -/
theorem C128_negative_violated (data : List (List ℝ)) (c it : Int) (hc : c < 0) (hc' : -2 ^ 31 ≤ c) (first : Nat)
    (picks : List (Nat × Bool)) (hfirst : first < data.length) (hpicks : ∀ p ∈ picks, p.1 < data.length)
    (hlen : data.length < 2 ^ 63) :
    kmRunSigned data c it first picks = .error .oob := by
  have := asSize_neg hc hc'
  have := List.toFinset_card_le data
  exact C63_too_few_rows data _ _ first picks hfirst hpicks (by omega)

theorem kmSeedFill_zero (rest cents : List (List ℝ)) : kmSeedFill 0 rest cents = .ok cents := by
  cases rest <;> rfl

theorem kmNearest_ok {k : Nat} (x : List ℝ) (hx : x.length = k) (cents : List (List ℝ)) (hc : ∀ c ∈ cents, c.length = k) :
    ∃ i, kmNearest x (cents.map (·.map some)) = .ok i := by
  cases cents with
  | nil => exact ⟨0, rfl⟩
  | cons c cs =>
    have hg : KmGood k (cs.length + 1) (c :: cs) ((c :: cs).map (·.map some)) :=
      seeds_good hc (by simp) (by omega) (fun x hx => hx)
    obtain ⟨i, h, -⟩ := kmNearest_spec x ((c :: cs).map (·.map some)) hx (by
      intro q hq
      obtain ⟨y, hy, rfl⟩ := List.mem_map.1 hq
      simpa using hc y hy) ⟨0, c, by simp [CentroidAt]⟩
    exact ⟨i, h⟩

/-- C128 is violated for 0: after 2^32 - 1 draws the run counts the first row in a vector without entries, as soon as there are two
rows. -/
theorem C128_zero_violated {k : Nat} (data : List (List ℝ)) (it : Int) (hit : 0 < it) (first : Nat)
    (picks : List (Nat × Bool)) (hrow : ∀ x ∈ data, x.length = k) (hfirst : first < data.length)
    (hpicks : ∀ p ∈ picks, p.1 < data.length) (htwo : 2 ≤ data.length) :
    kmDraws 0 = 2 ^ 32 - 1 ∧ kmRunSigned data 0 it first picks = .error .oob := by
  refine ⟨by decide, ?_⟩
  obtain ⟨r, h1, h2, h3, h4⟩ := kmSeedPicks_spec data picks hpicks [data[first]] (by simp)
    (by simp)
  unfold kmRunSigned kmRun kmSeed
  rw [vget_of_lt hfirst, ok_bind, h1, ok_bind, show asSize 0 = 0 from rfl, kmSeedFill_zero, ok_bind]
  obtain ⟨n, hn⟩ : ∃ n, it.toNat = n + 1 := ⟨it.toNat - 1, by omega⟩
  rw [hn]
  have hround : kmRound data 0 (r.map (·.map some)) = .error .oob := by
    unfold kmRound
    match data, htwo with
    | x :: y :: rest, _ =>
      obtain ⟨i, hi⟩ := kmNearest_ok x (hrow x (by simp)) r (fun c hc => hrow c (h3 c hc))
      rw [show vget (x :: y :: rest) 0 = .ok x from rfl, ok_bind]
      show ((x :: (y :: rest).take rest.length).foldlM _ _ >>= _) = _
      rw [List.foldlM_cons]
      unfold kmClassifyStep
      rw [hi, ok_bind]
      rfl
  unfold kmRounds
  rw [hround]

/-- C128: with no iterations at all, the seeds are returned as they are, and no row gets a label. -/
theorem C128_no_iterations (data : List (List ℝ)) (c it : Int) (hc : 0 < c) (hc' : c < 2 ^ 31) (hit : it ≤ 0)
    (first : Nat) (picks : List (Nat × Bool)) (hfirst : first < data.length)
    (hpicks : ∀ p ∈ picks, p.1 < data.length) (hn : picks.length = kmDraws c)
    (hdist : c ≤ data.toFinset.card) :
    ∃ seeds : List (List ℝ), kmRunSigned data c it first picks = .ok (seeds.map (·.map some), []) ∧
      (seeds.length : Int) = c ∧ seeds.Nodup ∧ ∀ x ∈ seeds, x ∈ data := by
  obtain ⟨h1, h2, -⟩ := C128_positive data c it hc hc' first picks
  obtain ⟨seeds, h3, h4, h5, h6⟩ := C63_seeds data c.toNat first picks hfirst hpicks (by omega) (by omega)
  refine ⟨seeds, ?_, by omega, h4, h6⟩
  rw [h1]
  unfold kmRun
  rw [h3, ok_bind, show it.toNat = 0 by omega]
  rfl

/-! ### The program -/

theorem main_pre_error (sys : System ℝ ℝ) (pairs : List (String × String)) (m : ArgMap)
    (hm : parseArgs (commandLine pairs) = .ok m) (hsw : (setPipeline m).val "pipeline" ≠ "slidingwindow")
    (data : List (List ℝ)) (hread : readCSV sys.inIO (sys.files ((setPipeline m).val "inputFile")) = .ok data)
    (hne : data ≠ []) (kind : PreKind)
    (hkind : newPreprocessor ((setPipeline m).val "preprocessor") = some kind) (hnone : (setPipeline m).val "preprocessor" ≠ "")
    (hconf : preConfigured kind = true) (e : Err)
    (herr : ∀ w : Work (List ℝ) ℝ, w.originalData = data → sys.pre (setPipeline m) kind w = .error e) :
    mainProgram sys (commandLine pairs) = .error e := by
  have hsome : ∀ o ∈ options, ((setPipeline m) o.1).isSome :=
    fun o ho => setPipeline_isSome m _ (parse_isSome pairs m hm o ho)
  have hcfg : configPreprocessor kind (setPipeline m) = true := by
    unfold configPreprocessor
    rw [List.all_eq_true]
    have : ∀ key ∈ preRequiredKeys kind, ∃ o ∈ options, o.1 = key := by cases kind <;> decide
    intro key hk
    obtain ⟨o, ho, rfl⟩ := this key hk
    exact hsome o ho
  have hp : ∀ p : Packet (Work (List ℝ) ℝ), p.data.originalData = data →
      preprocess (sys.pre (setPipeline m)) (setPipeline m) p = .error e := by
    intro p hpd
    unfold preprocess
    rw [if_pos hnone, hkind]
    dsimp only
    rw [if_pos hcfg, hconf]
    unfold runPreprocessorWrapper
    rw [if_pos rfl, herr _ hpd]
    rfl
  unfold mainProgram
  rw [hm, ok_bind]
  dsimp only
  rw [if_pos hsw, hread, ok_bind]
  unfold dispatch processUpscale processReduced processData
  rw [if_pos (by exact Or.inl (List.length_pos_of_ne_nil hne))]
  dsimp only
  rw [hp _ rfl]
  split_ifs <;> rfl

/-- C128, for the whole program, in all modes that read a file: with k-means, and the option `clusters` negative, or 0 with at least two
rows and one iteration, the program reads past the end of a vector and writes nothing. -/
theorem C128_program_violated (sys : System ℝ ℝ) (atoi : String → Int) (pairs : List (String × String)) (m : ArgMap)
    (hm : parseArgs (commandLine pairs) = .ok m) (hsw : (setPipeline m).val "pipeline" ≠ "slidingwindow")
    (data : List (List ℝ)) (hread : readCSV sys.inIO (sys.files ((setPipeline m).val "inputFile")) = .ok data)
    (first : Nat) (picks : List (Nat × Bool))
    (hpre : (setPipeline m).val "preprocessor" ∈ ["kmeansplusplus", "kmeans++", "kmeans"])
    (hkm : sys.pre (setPipeline m) .kmeans = kmWorkSigned (atoi ((setPipeline m).val "clusters"))
      (atoi ((setPipeline m).val "iterations")) first picks)
    (hfirst : first < data.length) (hpicks : ∀ p ∈ picks, p.1 < data.length)
    (k : Nat) (hrow : ∀ x ∈ data, x.length = k) (hlen : data.length < 2 ^ 63)
    (hint : -2 ^ 31 ≤ atoi ((setPipeline m).val "clusters"))
    (hc : atoi ((setPipeline m).val "clusters") < 0 ∨ (atoi ((setPipeline m).val "clusters") = 0 ∧
      0 < atoi ((setPipeline m).val "iterations") ∧ 2 ≤ data.length)) :
    mainProgram sys (commandLine pairs) = .error .oob := by
  have hkind : newPreprocessor ((setPipeline m).val "preprocessor") = some .kmeans ∧ (setPipeline m).val "preprocessor" ≠ "" := by
    generalize (setPipeline m).val "preprocessor" = s at hpre
    revert s; decide
  have hrun : kmRunSigned data (atoi ((setPipeline m).val "clusters")) (atoi ((setPipeline m).val "iterations")) first picks =
      .error .oob := by
    rcases hc with hc | ⟨hc, hit, htwo⟩
    · exact C128_negative_violated data _ _ hc hint first picks hfirst hpicks hlen
    · rw [hc]
      exact (C128_zero_violated data _ hit first picks hrow hfirst hpicks htwo).2
  refine main_pre_error sys pairs m hm hsw data hread (by rintro rfl; simp at hfirst) .kmeans hkind.1 hkind.2 rfl .oob ?_
  intro w hw
  rw [hkm]
  unfold kmWorkSigned
  rw [hw, hrun]
  rfl

/-! ### Examples -/

/-- The hypotheses of `C128_returns_clusters`: two clusters in three rows. -/
example : kmDraws 2 = 1 ∧ (2 : Int) ≤ ([[0], [1], [5]] : List (List ℝ)).toFinset.card := by
  refine ⟨by decide, ?_⟩
  have : ([[0], [1], [5]] : List (List ℝ)).toFinset.card = 3 := by
    rw [List.toFinset_card_of_nodup (by simp)]
    rfl
  omega

/-- `std::atoi` on three texts. -/
def smallAtoi (s : String) : Int := if s = "-1" then -1 else if s = "0" then 0 else 250

/-- The system of the examples with k-means, whose first draws are the rows 0 and 1. -/
noncomputable def kmSystem (text : String) : System ℝ ℝ :=
  { realSystem [] [] text with
    pre := fun a _ => kmWorkSigned (smallAtoi (a.val "clusters")) (smallAtoi (a.val "iterations")) 0 [(1, true)] }

/-- The hypotheses of `C128_program_violated`: `-k -1` in the mode reduced, and `-k 0` with an explicit preprocessor. -/
example : ∀ args ∈ [[("-m", "reduced"), ("-k", "-1")], [("-pre", "kmeans"), ("-k", "0")]],
    ∃ m, parseArgs (commandLine args) = .ok m ∧ (setPipeline m).val "pipeline" ≠ "slidingwindow" ∧
      readCSV (kmSystem "00\n03").inIO ((kmSystem "00\n03").files ((setPipeline m).val "inputFile")) =
        .ok [[((0 : Nat) : ℝ)], [((3 : Nat) : ℝ)]] ∧
      (setPipeline m).val "preprocessor" ∈ ["kmeansplusplus", "kmeans++", "kmeans"] ∧
      (kmSystem "00\n03").pre (setPipeline m) .kmeans = kmWorkSigned (smallAtoi ((setPipeline m).val "clusters"))
        (smallAtoi ((setPipeline m).val "iterations")) 0 [(1, true)] ∧
      (smallAtoi ((setPipeline m).val "clusters") < 0 ∨
        (smallAtoi ((setPipeline m).val "clusters") = 0 ∧ 0 < smallAtoi ((setPipeline m).val "iterations"))) := by
  intro args ha
  simp only [List.mem_cons, List.not_mem_nil, or_false] at ha
  rcases ha with rfl | rfl
  · exact ⟨_, rfl, by decide, rfl, by decide, rfl, by decide⟩
  · exact ⟨_, rfl, by decide, rfl, by decide, rfl, by decide⟩

end LHF
