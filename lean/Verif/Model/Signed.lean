import Verif.Model.Program
import Verif.Model.KMeans

/-!
The option `dimensions` as an `int`: the other modules take `std::atoi` to give a natural number. The stages and the
complexes store an `int` (Pipes/neighGraphPipe.hpp:10, Pipes/ripsPipe.hpp:11, Pipes/fastPersistence.hpp:29,
Complex/simplexBase.hpp:85, Complex/indSimplexTree.hpp:17). Some comparisons are between an `int` and an unsigned number, and then
the `int` is converted.
-/

namespace LHF

section
variable {W : Type}

/-- The conversion of an `int` to `size_t` (64 bits), as in `simp.size() <= maxDimension`
(Complex/simplexTree.cpp:70, Complex/indSimplexTree.cpp:223). -/
def asSize (d : Int) : Nat := (d % 2 ^ 64).toNat

/-- The conversion of an `int` to `unsigned` (32 bits), as in `d <= dim` (Complex/simplexArrayList.cpp:201). -/
def asUnsigned (d : Int) : Nat := (d % 2 ^ 32).toNat

/-- The number that stands for `dimensions` in a stage. On the trees `insert` compares it with a `size_t`
(Complex/simplexTree.cpp:70, Complex/indSimplexTree.cpp:223), and `expandDimensions` of simplexArrayList with an
`unsigned` (Complex/simplexArrayList.cpp:201). All others compare it with an `int`: `maxDimension > 0`
(Complex/simplexArrayList.cpp:57), `maxDim < 2` (Complex/indSimplexTree.cpp:723), `dim > 0` and `i < dim`
(Pipes/fastPersistence.cpp:35, 48, 154), where a negative number does what 0 does; line 166 of
Pipes/fastPersistence.cpp compares with an `unsigned`, but only if `dim > 0`. -/
def signedDim (d : Int) (k : PipeKind) (c : AnyComplex W) : Nat :=
  match k, c with
  | .neighGraph, .tree _ _ => asSize d
  | .neighGraph, .indexed _ _ => asSize d
  | .rips, .array _ _ => asUnsigned d
  | _, _ => d.toNat

variable {K : Type}

/-- The stages as in `runStages`, with `dimensions` as an `int`. -/
def signedStages [LinearOrder W] [Ring W] (lib : Lib K W) (eps : W) (d : Int) (collapse : String) (k : PipeKind)
    (w : Work (List K) W) : Res (Work (List K) W) :=
  runStages lib ⟨eps, signedDim d k w.complex, collapse⟩ k w

/-- LHFmain/main.cpp:232-304 `main`, as `mainProgram`, with `std::atoi` giving an `int`. The number of clusters is still
taken from `sys`. -/
def mainProgramSigned [LinearOrder W] [Ring W] (sys : System K W) (atoi : String → Int) (argv : List String) :
    Res (World (List K) W) := do
  let args ← parseArgs argv
  let args := setPipeline args
  let complexType := args.val "complexType"
  let data ← (if args.val "pipeline" ≠ "slidingwindow" then
    readCSV sys.inIO (sys.files (args.val "inputFile")) else pure [])
  let work : Work (List K) W := ⟨data, data, [], newComplex complexType, [], [], []⟩
  dispatch sys.strict sys.lib.dist (sys.pre args)
    (runPipelineOut sys.io (signedStages sys.lib (sys.atof (args.val "epsilon")) (atoi (args.val "dimensions"))
      (args.val "collapse")) args) (sys.atoi (args.val "clusters")) args
    ⟨newPacket complexType work, []⟩

end

/-! ### The options `clusters` and `iterations` as ints -/

/-- Preprocessing/kMeansPlusPlus.cpp:63: the number of turns of the loop that draws centroids: `k < num_clusters-1` compares an
`unsigned` with an `int`. -/
def kmDraws (numClusters : Int) : Nat := asUnsigned (numClusters - 1)

/-- Preprocessing/kMeansPlusPlus.cpp:28-164 `runPreprocessor`, as `kmRun`, with `num_clusters` and `num_iterations` as ints. The test
`tempCentroids.size() < num_clusters` (line 84) and the sizes of the vectors (lines 109-111) convert `num_clusters` to `size_t`
(vectors that are too long throw; they are not reached, as the proofs show); `z < num_iterations` (line 107) compares ints. -/
noncomputable def kmRunSigned (data : List (List ℝ)) (numClusters iterations : Int) (first : Nat)
    (picks : List (Nat × Bool)) : Res (List (List (Option ℝ)) × List Nat) :=
  kmRun data (asSize numClusters) iterations.toNat first picks

/-- What k-means puts in the packet, as `kmWork`. -/
noncomputable def kmWorkSigned (numClusters iterations : Int) (first : Nat) (picks : List (Nat × Bool))
    (w : Work (List ℝ) ℝ) : Res (Work (List ℝ) ℝ) := do
  let r ← kmRunSigned w.originalData numClusters iterations first picks
  match r.1.mapM (fun row => row.mapM id) with
  | some cents => pure { w with originalData := cents, labels := r.2 }
  | none => .error .exn

end LHF
