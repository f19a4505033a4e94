import Verif.Model.WindowProgram
import Verif.Model.BoundaryPipe
import Verif.Model.TwistPairs

/-!
Model of the stages `persistence` on an `indSimplexTree` (Pipes/optPersistencePairs.cpp) and `boundary`
(Pipes/boundaryPipe.cpp) as stages on a packet. Only the intervals of `bettiOutput` are kept: the text of these
stages has a header line and a format of its own.
-/

namespace LHF

section
variable {K W : Type} [LinearOrder W] [Ring W]

/-- Pipes/optPersistencePairs.cpp:518-726 `runPipe` on a packet whose complex is an `indSimplexTree`
(Pipes/basePipe.cpp:40-41 creates this stage for no other complex): the option `twist` chooses between the two
branches with index, `alterPipe` being set (lines 790-792). -/
def optPersistWork (lib : Lib K W) (s : Settings W) (twist : String) (w : Work (List K) W) :
    Res (Work (List K) W) :=
  match w.complex with
  | .indexed t dm => do
    let r ← t.getIndexEdges lib.isort
    let lines ← (if twist = "true" then runTwistPairs lib.isort s.dim s.eps t
      else runIndexPersistencePairs lib.isort s.dim s.eps t)
    pure { w with complex := .indexed r.2 dm, bettiOutput := lines }
  | _ => lib.rest .optPersistencePairs w

/-- Pipes/boundaryPipe.cpp:195-330 `runPipe` on a packet whose complex is a `simplexTree` or a
`simplexArrayList`: `getAllEdges` is called for every weight (line 227), which sorts the layers of a tree; its
result is not used. `past` is what a read just behind the table of Betti numbers gives, see `boundaryRun`. -/
def boundaryWork (lib : Lib K W) (s : Settings W) (past : Option (BettiDef W)) (debug : Bool)
    (w : Work (List K) W) : Res (Work (List K) W) :=
  match w.complex with
  | .tree t dm => do
    let rows ← boundaryRun past debug s.dim s.eps w.weights
    pure { w with complex := .tree (w.weights.foldl (fun t _ => (t.getAllEdges lib.sort).2) t) dm,
                  bettiOutput := rows }
  | .array g dm => do
    let rows ← boundaryRun past debug s.dim s.eps w.weights
    pure { w with complex := .array g dm, bettiOutput := rows }
  | _ => lib.rest .boundary w

end

end LHF
