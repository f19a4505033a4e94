import Verif.Model.Program

/-!
The members that the constructors of the trees do not set: `nodeCount` and `head` of simplexTree
(Complex/simplexTree.hpp:11, 26, Complex/simplexTree.cpp:8-15) and of indSimplexTree
(Complex/indSimplexTree.hpp:22-23, Complex/indSimplexTree.cpp:10-17). The other modules take 0 and null. Here `nodeCount`
starts with an arbitrary number; `head` is still taken to be null.
-/

namespace LHF

section
variable {W : Type}

/-- A simplexTree whose `nodeCount` is larger by `c` (Complex/simplexTree.hpp:11). -/
def Tree.addCount (c : Int) (t : Tree W) : Tree W := { t with nodeCount := t.nodeCount + c }

/-- An indSimplexTree whose `nodeCount` is larger by `c` (Complex/indSimplexTree.hpp:23). -/
def ITree.addCount (c : Int) (t : ITree W) : ITree W :=
  { t with store := { t.store with nodeCount := t.store.nodeCount + c } }

/-- A complex whose `nodeCount` is larger by `c`; a simplexArrayList has no such member
(Complex/simplexArrayList.hpp). -/
def AnyComplex.addCount (c : Int) : AnyComplex W → AnyComplex W
  | .tree t dm => .tree (t.addCount c) dm
  | .indexed t dm => .indexed (t.addCount c) dm
  | .array g dm => .array g dm
  | .other => .other

/-- A packet with such a complex (Pipes/pipePacket.hpp:22). -/
def Work.addCount {P : Type} (c : Int) (w : Work P W) : Work P W := { w with complex := w.complex.addCount c }

/-- Complex/simplexBase.cpp:56-77 `newSimplex`, where `nodeCount` of the new object holds `c`. -/
def newComplexIn [LinearOrder W] [Zero W] (c : Int) (complexType : String) : AnyComplex W :=
  (newComplex complexType).addCount c

/-- LHFmain/main.cpp:232-304 `main`, as `mainProgram`, where `nodeCount` of the new complex holds `c`. -/
def mainProgramIn [LinearOrder W] [Ring W] {K : Type} (c : Int) (sys : System K W) (argv : List String) :
    Res (World (List K) W) := do
  let args ← parseArgs argv
  let args := setPipeline args
  let complexType := args.val "complexType"
  let data ← (if args.val "pipeline" ≠ "slidingwindow" then
    readCSV sys.inIO (sys.files (args.val "inputFile")) else pure [])
  let work : Work (List K) W := ⟨data, data, [], newComplexIn c complexType, [], [], []⟩
  let settings : Settings W :=
    ⟨sys.atof (args.val "epsilon"), sys.atoi (args.val "dimensions"), args.val "collapse"⟩
  dispatch sys.strict sys.lib.dist (sys.pre args)
    (runPipelineOut sys.io (runStages sys.lib settings) args) (sys.atoi (args.val "clusters")) args
    ⟨newPacket complexType work, []⟩

end

end LHF
