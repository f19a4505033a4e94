import Verif.Model.DistMatrix
import Verif.Model.ArrayComplex
import Verif.Model.TreeComplex
import Verif.Model.FastPersistence

/-!
The default pipeline `distMatrix.neighGraph.rips.fastPersistence` (Utils/argParser.cpp:120-137) as one
function from the data to the printed lines, composed of the models of its four pipes. The
passing of the packet from pipe to pipe is Model/Pipeline.lean; `collapse` is not set and
`getAllEdges` ignores its argument. `dim` and `eps` are the settings `dimensions` and `epsilon`,
which every pipe and the complex (Complex/simplexBase.cpp:24-48) read.
-/

namespace LHF

/-- Pipes/neighGraphPipe.cpp:24-35 `runPipe` on a `simplexTree`: one insertion per non-empty row. -/
def neighGraphTree {K W : Type} [LinearOrder W] [Zero W] (eps : W) (dim : Nat) (dm : List (List W))
    (data : List (List K)) (t : Tree W) : Res (Tree W) :=
  data.foldlM (fun t p => if p.isEmpty then pure t else t.insert eps dim dm) t

/-- The default pipeline on a `simplexTree` (the default `complexType`): Pipes/distMatrixPipe.cpp:28-60,
Pipes/neighGraphPipe.cpp:24-35, Pipes/ripsPipe.cpp:28-43 and Pipes/fastPersistence.cpp:33-43 (whose
`expandDimensions` does nothing on this complex, Complex/simplexTree.hpp:49), and
Pipes/fastPersistence.cpp:43-276. The tree starts as `Tree.fresh`: the members that the constructor
leaves uninitialised are taken to be zero. -/
def treeRun {K W : Type} [LinearOrder W] [Zero W] (dist : List K → List K → Res W)
    (sort : SortBySecond (List Nat) W) (mode : EndRead) (eps : W) (dim : Nat) (data : List (List K)) :
    Res (List (Line W) × List (BettiEntry W)) := do
  let (dm, _) ← distMatrixPipe dist eps [] data
  let t ← neighGraphTree eps dim dm data Tree.fresh
  fastPersistence mode dim eps (t.getAllEdges sort).1 [] []

/-- The default pipeline on a `simplexArrayList`: Pipes/distMatrixPipe.cpp:28-60,
Pipes/neighGraphPipe.cpp:24-35, Pipes/ripsPipe.cpp:28-43 (`expandDimensions(dim)`),
Pipes/fastPersistence.cpp:33-43 (`expandDimensions(dim+1)` if `dim > 0`) and 43-276. -/
def arrayRun {K W : Type} [LinearOrder W] [Ring W] (dist : List K → List K → Res W)
    (sort : SortBySecond (List Nat) W) (mode : EndRead) (eps : W) (dim : Nat) (data : List (List K)) :
    Res (List (Line W) × List (BettiEntry W)) := do
  let (dm, _) ← distMatrixPipe dist eps [] data
  let g ← arrayInsertAll eps dim dm data []
  let g ← expandDimensions dim g
  let g ← if dim > 0 then expandDimensions (dim + 1) g else pure g
  fastPersistence mode dim eps (arrayGetAllEdges sort g) [] []

end LHF
