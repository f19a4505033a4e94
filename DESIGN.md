# Design of the Lean model of shcsywendy/lhf

## Layout

* `lean/Verif/Model/*.lean` – the model of the code, function by function. Every definition cites
  file and lines in /repo and says what is simplified.
* `lean/Verif/Spec/*.lean` – small specifications that do not use the model: sets listed by sorted
  lists, partitions, cliques and diameters, graphs and components, filtered complexes, chains,
  boundaries and Betti numbers over Z/2, spans of rows, text tables, argument precedence, DBSCAN
  clusters, class means, decayed sums, windows.
* `lean/Verif/Lemmas/*.lean` – helper lemmas; nothing in them is claimed by itself.
* `lean/Verif/Props/*.lean` – the property theorems, named `Cnn_...`. Each has an `example` nearby
  that a concrete, non-trivial case meets its hypotheses. When the code does not do what the
  property says, a theorem `..._violated` refutes it for a concrete case or for a whole class of
  inputs, and what remains true is in a theorem named `..._partial`.
* `properties.jsonl` – the English properties. `MANIFEST.json` – status and theorems of each of
  them, generated by `tools/manifest.py` from the theorem names and `notes.json`.
* `seeded/LOG.jsonl` – the wrong programs the theorems were tested against. `failed` lists the
  declarations that no longer compile, `property_theorems_lost` the property theorems that fail or
  depend on a failed declaration.

## Trusted base

* Lean's kernel (4.33.0), and the definitions of Mathlib that occur in statements (`List`, `Set`,
  `ZMod 2`, `Submodule.span`, `Module.finrank`, `SimpleGraph`, `Real.sqrt`, `Real.log`, real powers).
* Axioms: every theorem depends on at most `propext`, `Classical.choice` and `Quot.sound`. There is
  no `sorry`, no axiom of our own, no `native_decide`, no `bv_decide`.
* That the definitions in `Model/` say what the C++ says. They were written by reading /repo; the
  code was not run. Each definition can be compared with the lines that it cites.
* That the specifications and the theorem statements say what the English properties say.

## Conventions

* `unsigned`/`int` indices are `Nat`/`Int`, unbounded. Overflow is not modelled, except that an
  unsigned subtraction wraps at 0 where the code relies on it or suffers from it (`szPred`;
  `npos + 1` in the pipeline splitter).
* `std::vector`, `std::list` are `List`. `std::set` is a strictly increasing `List`. `std::map` is an
  association list or a partial function, with the semantics of `operator[]` (which inserts).
* `double` weights are elements of an arbitrary linear order in the combinatorial parts, of an ordered
  group or ring where differences or `-1` are used, and of `ℝ` where `sqrt`, `log` or `pow` are used.
  Rounding and infinities are not modelled. NaN is modelled where the code produces it (`0.0/0` in
  k-means) as `none : Option ℝ`.
* Undefined behaviour and exceptions are outcomes: `Res α = Except Err α` with `oob` (out-of-range
  access), `endDeref`, `null`, `freed`, `uninit` (undefined behaviour) and `exn` (exception).
* Where undefined behaviour has a well-known practical meaning, the model has a parameter for the
  reading of it (`EndRead` for the read through the end of a `std::list` in fastPersistence, `strict`
  for the write to a freed node in `simplexTree::clear`), and theorems say which reading they are about.
* Library functions whose result is not determined are parameters with a contract: `std::sort` by
  weight (`SortBySecond`) or by coordinate (`SortByLevel`) is *any* function that returns a sorted
  permutation; the conversions between numbers and text are a `TextNum`; unqualified `abs` is any
  function `ab` with `ab x ≤ |x|` (it may be the integer version); random numbers are arbitrary lists
  or functions. Concrete instances that meet each contract are given in the examples.
* Loops are folds or structural recursion. Where the C++ loop has no evident bound there is a `fuel`
  argument, and a theorem says how much is enough (C25, C43).

## What is modelled

| code | model | not modelled |
|---|---|---|
| Utils/utils.cpp | `Model/Utils` (and the libstdc++ merge loops in `Model/Basic`): set algebra, subsets, distances, partitions, `mapPartitionIndexing`, `nearestNeighbors` | printing functions, `serialize`, timing |
| Utils/readInput.cpp, writeOutput.cpp | `Model/InputOutput`: CSV and MAT reading and writing, streaming, barcodes | the file system (a file is its text or cannot be opened), and number formatting (a parameter) |
| Utils/argParser.cpp, LHFmain/main.cpp, Pipes/basePipe.cpp, Preprocessing/preprocessor.cpp | `Model/Pipeline`: parsing, defaults, modes, stage creation and configuration, pipeline splitting, what `main` runs | MPI processes, console output, timing |
| Complex/simplexArrayList.cpp | `Model/ArrayComplex`: insert, expandDimensions, find, findWeight, deletion, clear, counts, getAllEdges, getDimEdges | `getSize` |
| Complex/simplexTree.cpp | `Model/TreeComplex`: insert, counts, getAllEdges, getDimEdges, clear | the stubs (find, expandDimensions and others that print "not implemented") |
| Complex/simplexTree.cpp, its pointers | `Model/TreeHeap`: heap of nodes with new, delete and `->`; insert, recurseInsert, deletion, clear, deleteIterative, deleteIndexRecurse | nodes of other objects in the same memory; output to the console |
| Complex/indSimplexTree.cpp, graphEntry in simplexBase.hpp | `Model/IndexedTree`: insert, counts, getIndexEdges, getAllEdges, find, getFaces, and the index branch of optPersistencePairs; `Model/IndexedCollapse`: reduceComplex with recurseReduce, getWeight, deletion and coreduction | the field `parent`, search |
| the virtual functions of simplexBase as seen through a base pointer, indSimplexTree::search | `Model/Interface`: `AnyComplex` with find(vector), find(set), getd0Pairs; `ITree.search` | log lines written by the defaults |
| LHFmain/main.cpp, Preprocessing/preprocessor.cpp, Pipes/pipePacket | `Model/Program`: `mainProgram` from command line and file contents to the packet and the files written; the packet with its complex; the preprocessing step; runPipeline with its output files; processDataWrapper, processReducedWrapper, processUpscaleWrapper; the stages of the default pipeline on a packet | console output except the final table, debug files, times and sizes in the statistics, the preprocessors other than k-means (parameters), stages of other pipelines inside the whole program (parameters) |
| writeStats, writeLog, writeFile, runPipeWrapper, runPreprocessorWrapper, the outputData functions, getSize | `Model/Effects`: `mainEffects`, the program with every file it opens for writing, in order (log, statistics, debug files, barcode) | times, number formatting, `sizeof`, the texts of debug messages (parameters); console output |
| reduceComplex of simplexArrayList and simplexTree, Pipes/ripsPipe.cpp | `Model/Collapse`, `Model/CollapsedRun`: recurseReduce, the loop over layers, deletions; for simplexTree the code per layer is an arbitrary function | debug output |
| Pipes/distMatrixPipe, neighGraphPipe, ripsPipe | `Model/DistMatrix`, `arrayInsertAll`, `Tree.insertN`, `expandDimensions` | output files |
| Pipes/fastPersistence.cpp | `Model/FastPersistence`: all of `runPipe` | decimal rendering of the lines |
| Pipes/persistencePairs.cpp, optPersistencePairs.cpp, boundaryPipe.cpp | `Model/PersistencePairs`: face tests, eliminations, pivots, the pairing loop, `reduceBoundaryMatrix`, `boundaryMatrix`; `Model/TwistPairs`: the branch `twist`; `Model/BoundaryPipe`: boundaryPipe's `runPipe` | `extractBoundaries` (its call is commented out) |
| Preprocessing/kdTree.cpp, dbscan.cpp | `Model/KdTree`, `Model/Dbscan`, `Model/StreamEval` (queries that return points) | – |
| Complex/simplexBase.cpp (streamEvaluator, insertIterative), Preprocessing/streamingUtils.cpp | `Model/StreamEval` | kMeans after its first read of an uninitialised variable; the decimal rendering of the line in `stats` |
| Preprocessing/kMeansPlusPlus.cpp | `Model/KMeans` | random number generation (a parameter) |
| Preprocessing/denStream.cpp | `Model/DenStream` | – |
| Preprocessing/streamingKmeans.cpp | `Model/StreamingKMeans` | the loops after the failing read at line 290; `ballKmeans` (never called) |
| Pipes/naiveWindow.cpp, slidingWindow.cpp | `Model/Windows`; `Model/WindowProgram` (the complex and the sub-pipelines), `Model/WindowFiles` (the saved windows) | the statistics part of `updateStats` (a parameter, the theorems hold for every value) and `runSubPipeline` (works on a copy) |

The constructors of `simplexTree` and `indSimplexTree` leave `head` and `nodeCount` uninitialised; the model takes null and 0. `Model/Memory` starts `nodeCount` with any number (C126); `head` stays null.

Not modelled at all: the MPI branch, test mains (LHFtest, testRunners), the Python wrapper.

## Properties and proofs

| property | what is modelled | how it is proved |
|---|---|---|
| C01–C04 | the merge loops of libstdc++ `set_symmetric_difference`, `set_intersection`, `set_union` and the wrappers in utils.cpp | induction on the merge; membership and sortedness |
| C05 | the subset-doubling loop | induction over the vertex list; the subsets are `List.sublists` up to order |
| C06–C09 | the partition loops with bounds-checked access | fold invariants |
| C10 | `vectors_distance` over ℝ | Minkowski inequality, transfer to `EuclideanSpace` |
| C11 | distMatrixPipe loops | fold invariants |
| C12–C16, C21 | simplexArrayList state and its operations | invariant per dimension: stored simplices = cliques; every clique with k+2 vertices is proposed by two of its facets |
| C17, C19, C52 | simplexTree nodes as an inductive forest, `recurseInsert`, `insert`, `clear` | the forest is the prefix tree of the cliques; induction on insertions |
| C18 | both | from C13, C14, C17 |
| C20, C53 | getAllEdges with a sort parameter and the isSorted flag; getDimEdges | permutation and pairwise order; refutations by witness |
| C22–C24 | Kruskal loop with conSet | invariant: conSet = components of the touched vertices; exchange argument for minimality |
| C25–C30 | the dim ≥ 1 loop with an explicit pivot list and three readings of the end dereference | well-founded argument on the first row index, span invariants over Z/2 |
| C54 | the same | rank–nullity on the sublevel complexes: pairs counted by dimension of cycles and boundaries |
| C55 | the same | direct |
| C31, C33, C56–C59 | row and set elimination, clearing, the T-array | span invariants over Z/2; for C57: the largest face of a reduced row is a cycle; for C59: the search for a partner starts one past the end |
| C32 | checkFace, boundary matrices | counting facets between two simplices |
| C34–C36 | character-level model of the readers and writers | induction over characters and rows; decimal numbers as an instance of the conversions |
| C37–C40, C60–C62 | argument map operations, dispatch, splitter, main | case analysis, induction on strings |
| C41–C42 | kd-tree construction and queries | induction over the tree with the split invariant |
| C43 | worklist loop with a neighbourhood parameter | measure for termination; labels = components of the core graph |
| C44–C45, C63–C64 | seeding, one round, the iteration | fold invariants; the mean minimises the sum of squares; finitely many labelings |
| C46–C47, C65–C66 | micro-clusters, merging, the whole run | algebra of decayed sums; invariant: every micro-cluster has a history, histories are disjoint |
| C48–C49 | binary search; the whole run | loop invariant; invariant: the list read at the end is empty |
| C70, C71 | Model/StandardRun: the four pipes composed (distance matrix, insertion, expansion, fastPersistence) | composition of C11, C13/C17, C20, C22, C54 with the homology of the Rips complex stated from distances alone (Spec/RipsHomology) |
| C72 | boundaryPipe's `boundaryMatrix` | its matrix is the transpose of the one of C31; row rank = column rank; rows are dependent because boundaries of boundaries vanish, so the bad case of C33 is not reached |
| C73 | boundaryPipe's `runPipe` with the entry past the end as a parameter | induction over the loops: every recorded Betti number is 0 |
| C74 | readCSV on a file given by its cells | splitting undoes joining; each line is parsed by induction on its cells |
| C75 | denStream's whole run against a relational specification (Spec/DenStream `Streamed`) | the micro-clusters and their groups move in lockstep through every row and every check |
| C76 | indexed tree after n insertions and a query | simulation: erasing addresses and labels gives the tree of C16, and a fourth layer leaves `dimCounts` |
| C77 | histories of insertions and queries of the indexed tree | the graph is never rebuilt: induction over the history |
| C78 | `find` after a query, for held and absent simplices | the walk along children and siblings follows the paths of the tree; positions come from the sorted layers |
| C79 | `getFaces`, the pivots and the whole index branch of optPersistencePairs | faces are found by C78; columns inside {0,1} have rank at most 2; the first pivot reads past the T-array |
| C80 | counts of the indexed tree | simulation with C16's tree |
| C81 | collapse on the default complex | `dimensions` never has more than one entry |
| C82 | collapse on the array complex | the recursion handles every simplex once (invariant on `checked`), deletions filter the layers, induction on the layer; that exactly the longest sides of triangles go, in every dimension: a triangle chosen by a tetrahedron hands its longest side to a triangle with a smaller third vertex (strong induction) |
| C83 | components after the collapse | well-founded induction on edges in the order (weight, vertices) |
| C84 | homology after the collapse | refuted by a square; boundaries and cycles of the collapsed complex |
| C61, C85 | the whole program | evaluation of main for all command lines via C38, C39, C60; the stages on a packet refine the composed pipeline of C70/C71 (`SameRes`); fastPersistence only appends to the table |
| C86, C88 | mode reduced | simulation of the loop over partitions by a fold of independent runs; C07 for the partitions, C45 for the labels |
| C87 | mode reduced with simplexTree | clear is undefined on every tree (C52), invariant that the packet keeps its tree; kernel evaluation of the whole program on two inputs |
| C89 | mode sw as a whole program | the states of the full window (C67) carried along with the complex, whose edges never change; the sub-pipeline is C59 on the Rips complex of the window |
| C90 | mode naive as a whole program | invariant over the stream; building the complex is total (C11, C17) |
| C91 | the pipeline with `persistence` as a whole program, for all three complex types; only the intervals of its text are kept, not its header and number format | C39 for the stages, C59; C79 and C96 for optPersistencePairs, which replaces the stage on an indSimplexTree |
| C92 | the program with an indSimplexTree | evaluation of main (C38, C39, C60); the stages refine the insertions and the query of C76, then C25, C54 and C22 on the stored Rips complex |
| C93 | mode reduced with an indSimplexTree | invariant over the runs: after one run the tree holds points; a second load of points reads column `indexCounter` of its own matrix |
| C94 | order of the rows | Betti numbers and components are invariant under renumbering (chain isomorphism), the dimension-0 lines are the sorted list with given counts; kernel evaluation on five points over squared distances, carried to ℝ by naturality (C95) |
| C95 | isometries and scale | the run depends on the rows only through the distance table; naturality of insertion and fastPersistence under strictly monotone maps of weights |
| C96 | the branch `twist` of optPersistencePairs (`Model/TwistPairs`): buffer, new columns, clearing | invariant of the loop over the rows: each column taken so far is, up to earlier columns, its reduced form; reduced forms with a start below the current row are pivots with distinct starts; at the end they are an echelon form, so the pivots are the independent columns |
| C97 | main with k-means (`kmWork` in `Model/Program`) | the preprocessing step replaces the rows by the centroids and leaves the rest of the packet; composition of C44/C63/C64 with C70/C71 |
| C98 | main with DenStream (`denWork` in `Model/Program`) | the same with C65/C66 and, for both complex types, the empty list of centers |
| C99 | `treeRun` twice, with two values of epsilon | simulation: the smaller tree is the part of the larger one below the bound (`Sib.cut`, `TruncTree`), its layers are filtered layers, the columns below the bound are reduced alike (`fastPersistence_trunc`). For `arrayRun` the two expansions run in step, a pair of simplexes of which one is above the bound giving nothing below it (`expandLoop_below`); as the array keeps edges equal to epsilon, the cut is made at a number just above the smaller bound (`exists_cut`) |
| C100 | `treeRun` twice, with two values of dimensions | the same simulation with a bound on the number of levels; for `arrayRun` the longer expansion continues the shorter one |
| C101 | `mainEffects`, `statsText` | the counters of the complexes are the true counts (C19), the last write to the file wins (`contentAfter`) |
| C102 | `mainEffects` against `mainProgram` | projection: forgetting the effects commutes with every step (`SameRes`); with debug and collapse, case split on the complex type: a tree ignores the collapse, an array complex is not changed by the query of its edges |
| C103 | `mainEffects` | invariant: every write is one of the allowed ones (`MayWrite`) |
| C104 | `mainEffects` with debug on | the lists that `getAllEdges` returns are the simplices of the specification, once each (`ListsSimplices`) |
| C105 | `mainEffects`, `stageLog` | the writes to the log's name are appended in order (`textsTo`) |
| C106 | simplexTree with a heap of nodes and pointers | a predicate "the heap holds this forest in these cells, all different" is kept by recurseInsert and insert (frame conditions on the other cells); refinement to the inductive model, then C17's invariant |
| C107 | deletion and clear on that heap | induction on the chain of siblings; number of live cells from the refinement: simplices + n - 1 before, simplices - 1 after; strict reading ends with the error freed |
| C108 | deleteIterative on that heap | induction on the chain of roots, which have the labels 0..n-1; for key 0 the freed head and the error of the next insertion are computed |
| C109 | two clouds with nearly the same distances | a bijection of the points maps the graph at scale t into the other at t + δ, so the number of components can only drop; the i-th end of a sorted list is at most t iff more than i are; both directions |
| C110 | a row written twice | inclusion and retraction of the points give the same number of components at every scale; sorted lists with the same counts are equal |
| C111 | two clouds at least epsilon apart | components of a disjoint union of graphs; sorted lists with the same counts are equal. Dimension 1 and up: the tree of all the rows is the interleaving of the two trees (induction over the rows), and the reduction of every column of one cloud is simulated by that of the joint complex (order embedding of the positions); for the array, the pair loop over a part of the layer is the part of the pair loop |
| C112 | `ITree.reduceComplex` on the trees that insertions build; the deleted addresses are collected | the recursion ends because every call processes a new simplex (`openCount`); the removals as a relation `Erased` between states |
| C113 | the same, with `Linked` of C83 as specification | symbolic evaluation for three points; four and five points and the program by computation in the kernel |
| C114 | `streamEvaluator` with `mean`, `stdev` and the 20 smallest distances as specification; `insertIterative` over a stream `Spec.offer` | the sum loops as `List.sum`; induction over the stream |
| C115 | `utilsKMeans`, `ballKmeans` with the random numbers as parameters | the first write into an empty vector is found in every execution |
| C116 | `arrayCollapseRun` (rips stage with `reduceComplex`, then fastPersistence) and the whole program | the chosen edges cut every triangle at its longest side, so the collapsed graph has no triangle and expandDimensions adds nothing; a removed edge is bridged by the two shorter sides, by induction on the length, so components at every scale stay; sorted lists with the same counts are equal |
| C117 | `AnyComplex.findVector`, `findSet`, `getd0Pairs`, `Tree.findWeightSet`, `ITree.search` | from C13 and C21 for the array; the refutations pair the exact contents of the built complex (C13, C17, C76) with the constant answer; search by induction on the number of turns of its empty loop |
| C118 | `naiveWork`, `naiveTreeStep` and the whole program in mode naive | induction over prefixes of the stream with the invariant: empty tree before the 50th row, the tree of the first 50 rows after it; C50 for the window, `tree_of_rows` for the contents |
| C119 | `slidingFilesRun`: the run of C89 with the files of `runSubPipeline` carried along; `sliding_files_forget` shows that the run is the same | induction over the stream after the 200th row with the invariant: full window unchanged, number of files = hundreds passed; C67/C89 for the runs that end |
| C120 | `boundaryWork`: the pipeline with `boundary` as a whole program on simplexTree and simplexArrayList | evaluation of main (`main_explicit`), then C73 |
| C121, C122 | `mainShown`: `main` with the text it prints carried along; the messages and the rendering of numbers are parameters | `mainShown_proj`: forgetting the text gives `mainProgram`, unconditionally; the stages then print the rows of C101/C105 (`shown_rows`, induction); the table from C86 |
| C123 | `writeDebug`, the settings of stages and complexes (`stageMessages`, `complexMessages`), `reduceComplex` of a simplexArrayList and the stage rips with their messages | case analysis on the settings; counts from C19, C82; `ripsArraySays_forget` |
| C124 | the interface functions of all complex types (`AnyComplex`), histories of operations without insertion | invariant `Blank` by induction over the history |
| C125 | `insert` and `getAllEdges` through the interface | invariant `HasPoints` by induction over the rows; layers never lose entries (`Keeps`) |
| C126 | `Model/Memory`: `main` on a complex whose `nodeCount` starts with any number | simulation: every function of the program commutes with adding a number to the count (`SameRes`), by induction over trees, rows, stages and partitions |
| C127 | `Model/Signed`: the option `dimensions` as an `int`, converted to `size_t` or `unsigned` where the code compares it with one | for d ≥ 0 equality with `mainProgram`; for d < 0 the inserts with a bound of at least 2^63 and the persistence with 0, by C76, C11 and the counts of C104; the 2^n − 1 sets by a bijection with the powerset |
| C128 | `Model/Signed`: `kmRun` with `clusters` and `iterations` as ints | conversions to `size_t` and `unsigned`, then C44 and C63; 0 clusters by following the first row; the program by `main_pre_error`, which holds in every mode |
| C129 | `mainProgram` on two command lines | relation `SameAt` between argument maps, kept by every step of `setPipeline`; then equality of every function that reads the map; unknown names and order from C37 |
| C130 | table entries of `fastPersistence` | invariant of the loop over the columns beside `RInv`: each new entry holds a combination of columns of weight at most its death; `coords` turns the combination into a boundary; dimension 0 by the scan over the components |
| C131 | `mainProgram` on points of a line | the complex of an interval graph has no homology above dimension 0 (cone from the smallest vertex, Lemmas/Line), the components are counted by the gaps longer than the scale (Lemmas/LineGraph); with C85 the file is determined (Props/Line) |
| C132 | `mainProgram` on a cloud with a point near all others | coning from the near point is a chain homotopy, so all Betti numbers vanish from R on (Lemmas/Cone); with C85 nothing can stay open, and bars and merges end at R (Props/Complete) |
| C29, C70, C71, C85, C92 | the list of pivots and its end | the last simplex of a layer that is a facet of some simplex is a sum of the other facets, so it is not negative (∂∂ = 0); the widest pair of a cloud is the last edge; without triangles there are two layers and the loop over dimensions is empty (Props/PastEnd) |
| C133 | the whole program as in C85 and C92, and two runs as in C100 | a clique complex on fewer than 2k+2 vertices has no homology in dimension k (`ripsBetti_few`): induction on the vertices, splitting a cycle at the smallest vertex into a cone over a cycle of its link and a rest; the link has at most n-2 vertices or the complex is a cone |
| C134 | the reduction and the whole program as in C85 | invariant of the column loop: a non-zero combination of the first j columns has its smallest entry in a row paired with one of the first j columns (`RInv.leads`); so restricting the cycles at s that are boundaries at t to the rows of the pairs born by s and closed by t is injective (`closed_le`), and rank–nullity gives the inequality (`covering_le`, Lemmas/Persist); part of `DescribesRips` |
| C135 | the reduction and the whole program as in C85 | the pairs of rows and columns are given by the rank-free rule `ClosesOldest` (Spec/Oldest): the span of the first j columns has the same set of leading rows as the pairs found so far (`RInv.leads`), so a row is new with column j exactly if it leads a combination of the first j + 1 columns and of no fewer; `OldestBars.unique` shows that the rule determines the bars |
| C136 | the whole program as in C85, clouds as in C132 | from C134 (at most) and C132 (Betti numbers): if bars do not cross there is a scale u between s and t at which all bars are across s and t (`clear_scale`: the latest end, up to t, of a bar that is there at s), and classes that live from s to t are there at u (`persistent_le_betti`) |
| C137 | `mainShown` for every pipeline, with the failure lines of runPipeline and of the preprocessing step and what the stages and preprocessors print themselves (`stageDirect`, `preDirect`) | induction over the names of the pipeline (`names_parts`) and over the partitions (`reduced_parts`), each step by case analysis |
| C138 | the queries of `AnyComplex` (Model/Interface.lean), with the state they leave | listing twice gives the same list and state (`tree_asked_twice`, `index_asked_twice`), so a list of questions leaves the complex as it was or as one listing leaves it (`settled_fold`, induction over the questions) |
| C139 | `headerShown`: what `parse`, `main` and the constructor of the packet print; a `std::map` is a partial function, its entries are listed by `settingsList` | the list is sorted (`keys_sorted`) and complete: every key of the map is given or an option (`parseLoop_keys`, `defaults_keys`, `setPipeline_keys`); the rest of the run only adds to the text (`main_longer`) |
| C50–C51, C67–C69 | window loops | invariants over streams; refutations by witness |

## Disagreements between the code and the properties

| property | what the code does instead |
|---|---|
| C03 | `setUnion` of equal vectors is empty |
| C07 | with maximal radius 0 every point is dropped (strict comparison) |
| C09 | `mapPartitionIndexing` changes copies only |
| C18 | the tree compares with `<`, the array with `<=` |
| C20 | the tree never re-sorts after the first query |
| C23, C55 | one infinite bar whatever the number of components; isolated points read `edges[1]` out of range |
| C28, C29 | columns are paired with their oldest row; the end of the pivot list is dereferenced; with libstdc++ a row can be skipped |
| C30 | the first edge of each component has no table entry |
| C33 | matrices with independent rows are read after all rows have been removed |
| C36 | streaming differs from batch reading on blank lines, long lines and trailing commas |
| C38, C61 | with mpi 1 an explicit pipeline is replaced, and with upscale on no pipeline is run |
| C42, C43 | points at distance exactly the radius can be missed; with epsilon 0 the query point itself |
| C45 | the last point is never labelled |
| C49 | every run reads an empty list |
| C50 | with another complex than the tree the window never moves |
| C52 | `clear` writes to freed nodes; labels and counts are not reset |
| C53 | the two complexes number dimensions differently; the tree ignores the distance and reads out of range |
| C56, C57 | empty or missing layers are read out of range |
| C58 | only as many row indices as there are columns are looked at |
| C59 | the search for a partner starts one past the end of the table |
| C62 | an unknown complex type is dereferenced as a null pointer |
| C65, C66 | without an initial cluster an empty micro-cluster is kept; fewer than 1000 rows are read out of range |
| C67 | accepting a row after the window is full reads past the end of the distances |
| C69 | the evicted point need not be the oldest, and the search can run off the end |
| C74 | a line of one character is skipped |
| C73 | the calls that compute Betti numbers are commented out, and the list is read one past its end |
| C76 | `dimCounts` has three entries, the fourth layer writes past its end |
| C77 | `isSorted` is never reset, so the graph of the first query is returned after later insertions |
| C78 | `find` returns `sortedIndex` converted to `bool`; a walk that fails keeps the last node if it has no child, and follows null otherwise |
| C79 | `getFaces` stores the `bool` of `find` as an index |
| C80 | `vertexCount` returns the node count |
| C84 | with the array complex `collapse` removes every simplex with more than two vertices and only one edge for each triangle, so filled loops become loops that never close |
| C85 | when no two rows are within epsilon, the program reads past the end of a vector and writes nothing ; with a simplexArrayList and dimension 0 it does so on every input |
| C86 | every run of mode reduced writes to the same file name, so only the barcode of the centroids is left |
| C87 | mode reduced selects simplexTree, whose clear writes to freed memory; `isSorted` survives clear, so later runs do not sort; mapPartitionIndexing goes over the table of all runs with the labels of the current partition and reads out of range |
| C88 | the last row has no label, so it is in no partition |
| C89 | the sub-pipeline works on a copy of the packet, so its intervals are dropped; it uses `persistence`, which reads out of range when the window has two points closer than epsilon (C59) |
| C90 | the calls of the sub-pipeline are commented out |
| C91 | C59, and C79/C96 on an indSimplexTree: the stage reads out of range |
| C92 | with four mutually close points and dimensions of at least 3, `dimCounts` (three entries) is written past its end; without a close pair fastPersistence reads past the end |
| C93 | indSimplexTree has no `clear`, `simplexBase::clear` does nothing, so the second run goes on counting and reads past the end of the rows of its distance matrix |
| C94 | the clearing in fastPersistence pairs a simplex with the first column that reaches it, without reduction to the youngest pivot, so with equal distances the bars of dimension 1 (and, in simulations but not proved, those of dimension 2 even with distinct distances) depend on the order of the rows |
| C96 | `getFaces` stores the `bool` of `find` as an index (C79), so the columns are subsets of {0, 1} |
| C97 | with fewer different rows than clusters (20 by default) the seeding reads past the end of the rows; with one cluster, or centroids that are all at least epsilon apart, no barcode is written (C70); the last row is in no cluster (C45) |
| C98 | on fewer than 1000 rows the program reads past the end of the rows (C66); nothing is written when the centers are all at least epsilon apart |
| C99 | exact for the components; in higher dimensions proved for a stable sort only, since the code's pairs depend on the order of equal weights (C28) and `std::sort` is not stable; `C99_unstable_sort_violated` gives a sort that is stable on at most 16 entries and twelve plane points for which a bar disappears with a larger epsilon |
| C101 | the statistics row of a preprocessor has two cells under a header of six; on indSimplexTree VertexCount is the number of simplices |
| C103 | the log is appended to the file named exactly like the output name, so `-o g.csv` writes its log into the barcode file of `-o g` |
| C104 | on simplexTree and indSimplexTree, `neighGraph_output.csv` lists every simplex of the complex, not the edges |
| C107 | simplexTree::clear frees the nodes of the points only, since `child` is never set (insert uses the field `parent` for children); each insert after the first also leaks one node; line 546 writes to a freed node |
| C108 | simplexTree::deleteIterative keeps all simplices in which the vertex is not the smallest, the columns of the matrix (it erases in copies), lists and counters; for the first vertex it frees all points and leaves `head` dangling |
| C109, C110 | the pairing of C94 depends on the order of equal weights, so in dimension 1 and up the bars can change although no distance does, and when a row is repeated |
| C111 | only one bar up to epsilon is written although the two clouds never merge (see C23); with a sort that is stable on at most 16 entries only, the loops of two far clouds change when they are in one file (`C111_unstable_sort_violated`) |
| C112 | deletion releases a node but leaves the pointers of its parent and sibling to it (indSimplexTree.cpp:493-564); a removed simplex of the layer itself is erased from the list and never released |
| C113 | recurseReduce removes the face that was compared last and found longer (or the first face) instead of a free face of the same weight, and removes faces of simplices that stay; for three points 0, 1, 3 the bar that ends at 2 ends at 3 |
| C114 | streamEvaluator reads 20 sorted distances whatever the size of the window; `streamEval` has no initial value; simplexArrayList and indSimplexTree inherit an insertIterative that always answers false |
| C115 | streamingUtils::kMeans uses `numClusters` and the other settings without a value; ballKmeans adds into vectors that are never filled |
| C116 | simplexArrayList::reduceComplex keeps only points and edges and leaves no triangle in the graph; the later expansion finds nothing, so with collapse no bar of dimension 1 or more is ever printed |
| C117 | find(set) of simplexArrayList and simplexTree, find(vector) of simplexTree and indSimplexTree always answer no; simplexTree::findWeight is always 1; getd0Pairs is always empty; the loop `while(curNode != nullptr && curNode->index != i);` in indSimplexTree::search never ends for a simplex without point 0 |
| C118 | simplexTree::insertIterative only counts: its calls of deleteIterative and insert are commented out, so in the naive window mode the complex stays that of the first 50 rows while the window moves on |
| C119 | with at most 200 rows nothing is saved, although the code means to run "one last time"; with more rows every saved file shows the first 200 rows, because the program ends only if none of the later rows enters the window (C67) |
| C120 | C73: the stage reads past its list of Betti numbers for every input; if that read is harmless, it reports no interval |
| C121 | the call of `writeConsole` is commented out (main.cpp:56), so with `-o console` the bars are neither printed nor written |
| C122 | `mapPartitionIndexing` changes a copy (C09), so the table printed in mode reduced names points by their places in their partition |
| C123 | simplexBase::setConfig assigns the `int` of `atoi` to a `std::string`, which becomes a string of one byte; it is never "0" unless the number is 48, so the complexes write [DEBUG] lines with debug off |
| C124 | on an empty simplexTree `getDimEdges(0,·)` reads out of range and `clear` follows the null pointer `head`; `find({})` of a simplexArrayList reads out of range |
| C125 | without distance matrix the trees return from `insert` without storing the row; there is only a debug line |
| C126 | `nodeCount` and `head` of both trees are never initialised: `simplexCount` (and `vertexCount` of indSimplexTree) start from what the memory held |
| C127 | `simp.size() <= maxDimension` compares a `size_t` with an `int`: a negative `dimensions` removes the bound of the trees (2^n − 1 simplices; a write past the end on the indexed tree) |
| C128 | `clusters` is an `int` compared with unsigned numbers: a negative value or more clusters than distinct rows read past the end of the data; 0 draws 2^32 − 1 times and then writes past the end of a vector |
| C130 | the numbers recorded as boundary points in dimension at least 1 are positions in the list of simplices, not points; mode reduced uses them as indices of points and reads past the end |
| C131 | when no two neighbours are closer than epsilon, the open bar is not written: the program reads outside of a list (C131_no_short_gap_violated) |
| C132 | classes of dimension 1 or more that are still open at epsilon are not written: the corners of a square, epsilon √2 (C132_open_loop_violated) |
| C29, C70, C71, C85 | for every input with three or more rows, all closer than epsilon to each other, and dimensions 2 or more, the program reads past the end of the list of pivots: the heaviest edge closes a triangle, so it is never in the list (C85_past_end_violated) |
| C134 | a column is reduced by its smallest row (the oldest simplex) instead of its largest, so a hole can be cut into several shorter bars: the loop of the five points (3,2), (0,2), (1,3), (0,1), (2,0), open from √5 to 3, is written as [√5, √8) and [√8, 3) |
| C138 | `find(set)` of an indSimplexTree before its first listing follows `sortedIndex` entries that have not been written; after a listing it answers (`C138_find_violated`) |
| C102 | debug queries the indexed tree before the collapse; the query keeps its graph, so the collapse has no effect on the barcode any more |
