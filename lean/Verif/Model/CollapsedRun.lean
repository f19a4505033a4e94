import Verif.Model.StandardRun
import Verif.Model.Collapse

/-! The default pipeline on a `simplexArrayList` with the option `collapse`. -/

namespace LHF

/-- The default pipeline on a `simplexArrayList` with `collapse` set: as `arrayRun`
(Pipes/distMatrixPipe.cpp:28-60, Pipes/neighGraphPipe.cpp:24-35, Pipes/fastPersistence.cpp:33-276), with
`reduceComplex` in the stage rips (Pipes/ripsPipe.cpp:36-38). -/
def arrayCollapseRun {K W : Type} [LinearOrder W] [Ring W] (dist : List K → List K → Res W)
    (sort : SortBySecond (List Nat) W) (mode : EndRead) (eps : W) (dim : Nat) (data : List (List K)) :
    Res (List (Line W) × List (BettiEntry W)) := do
  let (dm, _) ← distMatrixPipe dist eps [] data
  let g ← arrayInsertAll eps dim dm data []
  let g ← ripsPipeArray dim "true" g
  let g ← if dim > 0 then expandDimensions (dim + 1) g else pure g
  fastPersistence mode dim eps (arrayGetAllEdges sort g) [] []

end LHF
