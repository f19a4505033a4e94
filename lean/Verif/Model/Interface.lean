import Verif.Model.Program

/-!
Model of the virtual functions of Complex/simplexBase.hpp:103-121 as a caller sees them through a pointer to
`simplexBase` (`AnyComplex`; `other` is a plain `simplexBase`): each complex type has its own version of some of them and the default of
Complex/simplexBase.cpp:76-206 for the others. Also `indSimplexTree::search`.
-/

namespace LHF

variable {W : Type}

/-- `find(std::vector<unsigned>)`: only simplexArrayList has its own version
(Complex/simplexArrayList.cpp:140-153); the default is Complex/simplexBase.cpp:115-118. -/
def AnyComplex.findVector : AnyComplex W → List Nat → Res Bool
  | .other, _ => pure false
  | .array g _, v => arrayFind g v
  | .tree _ _, _ => pure false
  | .indexed _ _, _ => pure false

/-- `find(std::set<unsigned>)`: Complex/simplexTree.cpp:484-488, Complex/indSimplexTree.cpp:576-601; the default is
Complex/simplexBase.cpp:120-123. -/
def AnyComplex.findSet : AnyComplex W → List Nat → Res Bool
  | .other, _ => pure false
  | .array _ _, _ => pure false
  | .tree _ _, _ => pure false
  | .indexed t _, s => t.find s

/-- `getd0Pairs`: Complex/simplexTree.cpp:557-561; the default is Complex/simplexBase.cpp:201-205. -/
def AnyComplex.getd0Pairs : AnyComplex W → List (W × List Nat)
  | .other => []
  | .array _ _ => []
  | .tree _ _ => []
  | .indexed _ _ => []

/-- `findWeight(std::set<unsigned>)` of simplexTree (Complex/simplexTree.cpp:550-554). -/
def Tree.findWeightSet [One W] (_ : Tree W) (_ : List Nat) : W := 1

/-- Complex/indSimplexTree.cpp:447: `while(curNode != nullptr && curNode->index != i);`. The body is empty, so
`curNode` does not change (a loop without effects that never ends; C++ gives it no meaning); `fuel` bounds the number
of turns. -/
def searchWait (cur : INode W) (i : Nat) : Nat → Res (INode W)
  | 0 => .error .exn
  | fuel + 1 =>
    match cur with
    | .nil => pure .nil
    | .node a j w s c sib => if j ≠ i then searchWait cur i fuel else pure (.node a j w s c sib)

/-- Complex/indSimplexTree.cpp:446-450: the loop over the vertices. -/
def searchLoop (fuel : Nat) : INode W → List Nat → Res Bool
  | _, [] => pure true
  | cur, i :: rest => do
    match ← searchWait cur i fuel with
    | .nil => pure false
    | .node _ _ _ _ c _ => searchLoop fuel c rest

/-- Complex/indSimplexTree.cpp:443-452 `search`. -/
def ITree.search (fuel : Nat) (t : ITree W) (simplex : List Nat) : Res Bool := do
  let points ← vget t.store.dims 0
  let e ← vget points 0
  searchLoop fuel (t.roots.deref e.1.1) simplex

/-- `getDimEdges`: Complex/simplexArrayList.cpp:86-112, Complex/simplexTree.cpp:470-482, Complex/indSimplexTree.cpp:840-844
(which lists nothing); the default is Complex/simplexBase.cpp:76-80. -/
def AnyComplex.getDimEdges [LinearOrder W] : AnyComplex W → Nat → W → Res (List (List Nat))
  | .other, _, _ => pure []
  | .array g dm, dim, epsilon => arrayGetDimEdges dm g dim epsilon
  | .tree t _, dim, _ => t.getDimEdges dim
  | .indexed _ _, _, _ => pure []

/-- `getAllEdges`: Complex/simplexArrayList.cpp:115-136, Complex/simplexTree.cpp:368-377,
Complex/indSimplexTree.cpp:670-697; the default is Complex/simplexBase.cpp:82-86. The answer and the complex afterwards. -/
def AnyComplex.getAllEdges [LinearOrder W] (sort : SortBySecond (List Nat) W) (isort : SortBySecond (Nat × List Nat) W) :
    AnyComplex W → Res (Graph W × AnyComplex W)
  | .other => pure ([], .other)
  | .array g dm => pure (arrayGetAllEdges sort g, .array g dm)
  | .tree t dm => pure ((t.getAllEdges sort).1, .tree (t.getAllEdges sort).2 dm)
  | .indexed t dm => do
    let r ← t.getAllEdges isort
    pure (r.1, .indexed r.2 dm)

/-- `getIndexEdges`: Complex/indSimplexTree.cpp:701-714; the default is Complex/simplexBase.cpp:88-92. The answer and
the complex afterwards. -/
def AnyComplex.getIndexEdges [LinearOrder W] (isort : SortBySecond (Nat × List Nat) W) :
    AnyComplex W → Res (List (List (IEntry W)) × AnyComplex W)
  | .indexed t dm => do
    let r ← t.getIndexEdges isort
    pure (r.1, .indexed r.2 dm)
  | c => pure ([], c)

/-- `expandDimensions`: Complex/simplexArrayList.cpp:196-289; the trees do nothing (Complex/simplexTree.hpp:49,
Complex/indSimplexTree.hpp:54), nor does the default (Complex/simplexBase.cpp:140-143). -/
def AnyComplex.expand [LinearOrder W] [Ring W] (dim : Nat) : AnyComplex W → Res (AnyComplex W)
  | .array g dm => do
    let g ← expandDimensions dim g
    pure (.array g dm)
  | c => pure c

/-- `reduceComplex`: Complex/simplexArrayList.cpp:291-325, Complex/simplexTree.cpp:379-417,
Complex/indSimplexTree.cpp:716-838; the default (Complex/simplexBase.cpp:145-148) does nothing. `body` and `big` as in
`Tree.reduceComplex` and `ITree.reduceComplex`. -/
def AnyComplex.reduce [LinearOrder W] [Ring W] (body : Nat → Tree W → Res (Tree W)) (big : W) (maxDim : Nat) :
    AnyComplex W → Res (AnyComplex W)
  | .other => pure .other
  | .array g dm => do
    let g ← arrayReduceComplex g
    pure (.array g dm)
  | .tree t dm => do
    let t ← t.reduceComplex body
    pure (.tree t dm)
  | .indexed t dm => do
    let r ← t.reduceComplex big maxDim
    pure (.indexed r.1 dm)

/-- `insert`: Complex/simplexArrayList.cpp:34-83, Complex/simplexTree.cpp:273-347, Complex/indSimplexTree.cpp:349-438; the
default (Complex/simplexBase.cpp:110-113) does nothing. -/
def AnyComplex.insert [LinearOrder W] [Zero W] {K : Type} (maxEpsilon : W) (maxDim : Nat) (row : List K) :
    AnyComplex W → Res (AnyComplex W)
  | .other => pure .other
  | .array g dm => do
    let g ← arrayInsert maxEpsilon maxDim dm row g
    pure (.array g dm)
  | .tree t dm => do
    let t ← t.insert maxEpsilon maxDim dm
    pure (.tree t dm)
  | .indexed t dm => do
    let t ← t.insert maxEpsilon maxDim dm
    pure (.indexed t dm)

/-- `clear`: Complex/simplexArrayList.cpp:389-397, Complex/simplexTree.cpp:565-583 (`strict` as in `Tree.clear`);
indSimplexTree has the default (Complex/simplexBase.cpp:207-210), which does nothing. -/
def AnyComplex.clear (strict : Bool) : AnyComplex W → Res (AnyComplex W)
  | .other => pure .other
  | .array g dm => pure (.array (arrayClear g) dm)
  | .tree t dm => do
    let t ← t.clear strict
    pure (.tree t dm)
  | .indexed t dm => pure (.indexed t dm)

/-- `setDistanceMatrix` (Complex/simplexBase.cpp:50-53). -/
def AnyComplex.setMatrix (dm : List (List W)) : AnyComplex W → AnyComplex W
  | .other => .other
  | .array g _ => .array g dm
  | .tree t _ => .tree t dm
  | .indexed t _ => .indexed t dm

end LHF
