import json
P=[]
def p(title,statement,quant,why,anchors):
    P.append(dict(id="C%02d"%(len(P)+1),title=title,statement=statement,quantifier=quant,why_tests_cant=why,anchors=anchors))

U="Utils/utils.cpp"
p("Symmetric difference is exact",
  "For any two sets of vertex indices, utils::setXOR and utils::symmetricDiff return, in strictly increasing order, exactly the indices that belong to one argument and not to the other; the operation is commutative, associative and self-inverse.",
  "all pairs (triples for associativity) of finite index sets; for the vector overload all duplicate-free vectors, in any order when isSorted is false and ascending when it is true",
  "an equality of result sets over infinitely many inputs; column reduction relies on it as addition in a Z/2 vector space",
  [U+":155-166 setXOR",U+":286-343 symmetricDiff"])
p("Intersection is exact",
  "utils::setIntersect returns exactly the indices common to both arguments, in increasing order, for set arguments and for distinct duplicate-free vectors; when the two vectors are identical the input is returned in its original (possibly unsorted) order.",
  "all pairs of finite index sets / duplicate-free vectors, both settings of isSorted",
  "universally quantified over all inputs; the shortcut for equal vectors skips the sort and only shows on unsorted equal inputs",
  [U+":181-239 setIntersect"])
p("Union is exact",
  "utils::setUnion returns exactly the indices in either argument, in increasing order. (The code does not honour this when both arguments are equal: it returns the empty vector.)",
  "all pairs of duplicate-free vectors, both settings of isSorted",
  "the claim is about every pair of inputs; samples of distinct vectors never show the equal-arguments case",
  [U+":377-404 setUnion"])
p("Candidate-face test of `intersect`",
  "utils::intersect returns a non-empty result exactly when its (duplicate-free) arguments differ in exactly two indices, and then the first component is those two indices and the second is the union of the arguments.",
  "all pairs of duplicate-free vectors",
  "an iff over all inputs",
  [U+":244-283 intersect"])
p("Facets of a simplex are enumerated exactly",
  "utils::getSubsets applied to a simplex with n >= 1 distinct vertices returns each of its n facets exactly once and nothing else; with a size argument it returns each subset of that size exactly once; on the empty set it returns nothing.",
  "all finite simplices of any size, all requested sizes",
  "the number of subsets is exponential and unbounded; duplicates or omissions at one size would not show at another",
  [U+":346-374",U+":444-503 getSubsets"])
p("Partition by label is a partition",
  "utils::separatePartitions(k, data, labels) puts every point i < labels.size() in exactly the partition labels[i] and in no other, keeps the points of a partition in input order, and the returned index lists address the original points; it is defined exactly when every label is < k and every labelled point exists.",
  "all k, data sets and label vectors",
  "quantified over every labelling; safety must hold for all of them",
  [U+":33-45 separatePartitions"])
p("Radius partition covers the data",
  "utils::separatePartitions(rad, centroids, data, labels) puts point i in partition j iff its distance to centroid j is strictly below rad; with rad = 2*computeMaxRadius(...) (as processUpscaleWrapper calls it) every labelled point is in at least one partition. (Violated when the maximum radius is 0: every point is dropped.)",
  "all data sets, centroid sets and labellings",
  "coverage is a claim about every data set; the counterexample is the degenerate case where all points coincide with their centroid",
  [U+":20-31 computeMaxRadius",U+":47-67 separatePartitions","LHFmain/main.cpp processUpscaleWrapper"])
p("Boundary partition is exact",
  "utils::separateBoundaryPartitions puts a point in partition j iff its label is in the j-th boundary list, in input order, and a point is dropped iff its label is in no list.",
  "all boundary lists, data and labels",
  "quantified over every labelling and family of lists",
  [U+":69-83 separateBoundaryPartitions"])
p("Partition indices are mapped back to original points",
  "After utils::mapPartitionIndexing(labels, bettiTable) every boundary point of every entry is replaced by labels[point]. (The code does not honour this: the loop works on copies and the table is unchanged for every input.)",
  "all label vectors and betti tables",
  "that a function never has any effect can not be seen from samples",
  [U+":85-100 mapPartitionIndexing"])
p("Vector distance is a metric",
  "On points of equal dimension, utils::vectors_distance is the Euclidean distance: non-negative, zero iff the points are equal, symmetric, and satisfies the triangle inequality; reading past the end happens exactly when 0 < |b| < |a|.",
  "all vectors of real coordinates of any dimension",
  "metric axioms over all of R^n",
  [U+":168-179 vectors_distance"])
p("Distance matrix is exact",
  "After the distMatrix pipe, entry (i,j) with i<j is the distance of points i and j, the other entries are 0, the matrix is n x n, and the weight set is exactly {0, maxEpsilon} together with the distances below maxEpsilon, increasing and without repetition.",
  "all point clouds and all epsilon",
  "all sizes and all coordinates; the filtration used by every later pipe is read from this table",
  ["Pipes/distMatrixPipe.cpp:28-60 runPipe"])
A="Complex/simplexArrayList.cpp"
p("Array complex: inserting builds the epsilon-neighbourhood graph",
  "After inserting n points into an empty simplexArrayList with maxDimension > 0, the vertices are 0..n-1 each once with weight 0 and the edges are exactly the pairs j<i with distance <= maxEpsilon, each once, weighted by that distance; with maxDimension = 0 there are no edges.",
  "all n, all distance matrices, all epsilon",
  "quantified over every distance matrix and every insertion history",
  [A+":34-82 insert"])
p("Array complex: expansion is the Vietoris-Rips complex",
  "After insertion and expandDimensions(d), the stored simplices with at most d+1 vertices are exactly the vertex sets whose pairwise distances are all <= maxEpsilon (non-negative distances), each stored once and in increasing vertex order.",
  "all distance matrices with non-negative entries, all epsilon, all dimensions d",
  "clique enumeration: every clique of every graph; the code's candidate search only accepts one pair of facets per clique, so exactness needs an argument",
  [A+":196-289 expandDimensions",A+":157-167 findWeight"])
p("Array complex: weights are filtration values",
  "Every simplex stored by expandDimensions has as weight the largest pairwise distance between its vertices, so a face never has a larger weight than a coface.",
  "all distance matrices with non-negative entries, all simplices of all dimensions",
  "for every simplex of every complex",
  [A+":196-289 expandDimensions"])
p("Array complex is a simplicial complex",
  "Every non-empty subset of a stored simplex is stored.",
  "all inputs, all stored simplices, all subsets",
  "downward closure is quantified over all subsets",
  [A+":34-82",A+":196-289"])
p("Expansion is idempotent and monotone",
  "Calling expandDimensions again with the same or a smaller dimension leaves the complex unchanged, and expanding to d then to d' >= d gives the same simplices as expanding to d' directly (the rips pipe expands to d and the persistence pipe to d+1).",
  "all inputs and all d <= d'",
  "a claim about all histories of calls",
  [A+":196-289","Pipes/ripsPipe.cpp runPipe","Pipes/fastPersistence.cpp:35-36"])
T="Complex/simplexTree.cpp"
p("Tree complex: insertion is the Vietoris-Rips complex",
  "After inserting n points into a fresh simplexTree with maxDimension D, getAllEdges lists exactly the vertex sets of size <= max(2, D+1) whose pairwise distances are all < maxEpsilon, each exactly once, with weight the largest pairwise distance.",
  "all n, all distance matrices, all epsilon, all D",
  "every insertion sequence and every clique; the recursion mutates the sibling lists it walks",
  [T+":20-79 recurseInsert",T+":273-347 insert"])
p("Tree and array complexes agree",
  "For maxDimension D >= 1 and distances none of which equals maxEpsilon, simplexTree and simplexArrayList expanded to D hold the same simplices with the same weights. (At a distance equal to maxEpsilon they differ: the tree is strict, the array is not.)",
  "all distance matrices and all epsilon",
  "equality of two implementations on all inputs",
  [T+":20-79",A+":34-82",A+":196-289"])
p("Simplex and vertex counts are right",
  "vertexCount and simplexCount return the number of stored vertices and of stored simplices, for both complexes, after any sequence of insertions.",
  "all insertion sequences",
  "invariant over all histories",
  [A+":170-185",T+":350-360"])
p("Filtration order of getAllEdges",
  "Each list returned by getAllEdges is a permutation of the stored simplices of that dimension in non-decreasing weight order. (For the tree this holds only for the first call: simplices inserted after a call are returned unsorted.)",
  "all stored contents, all interleavings of insert and getAllEdges, any correct std::sort",
  "history-dependent: a stale flag breaks it only after query-then-insert",
  [A+":115-136",T+":368-377"])
p("Query, counts and clear of the array complex",
  "find and findWeight answer exactly for the stored simplices (findWeight is -1 iff absent when weights are non-negative), deletion removes exactly the given simplex, and after clear the complex is empty and a new build gives the same complex as a fresh object.",
  "all stored contents and all non-empty query vectors",
  "for every state and every query",
  [A+":140-185",A+":376-397"])
F="Pipes/fastPersistence.cpp"
p("H0 merge times are the component merge times",
  "For every threshold t, the number of finite dimension-0 bars with death <= t emitted by fastPersistence equals the number of vertices minus the number of connected components of the graph of edges with weight <= t; hence the finite bars are exactly the single-linkage merge heights.",
  "all weighted graphs (any number of vertices and edges), all thresholds, any correct sort",
  "correctness of the union step and of the early break over all graphs and orders",
  [F+":81-146 runPipe"])
p("H0 has one infinite bar per component",
  "The number of dimension-0 bars dying at maxEpsilon that fastPersistence appends equals the number of connected components. (The code always appends exactly one, so this fails for disconnected input and holds for connected input.)",
  "all weighted graphs",
  "disconnected inputs of any shape",
  [F+":142-148"])
p("H0 output is a minimum spanning forest",
  "The edges that fastPersistence selects in dimension 0 form a spanning forest, contain no cycle, and no spanning forest has smaller total weight; at most V-1 are selected and all edges after the (V-1)th are never looked at without changing the result.",
  "all weighted graphs",
  "optimality against all other spanning forests",
  [F+":81-140"])
p("Higher-dimensional reduction always terminates",
  "For every column the while loop of fastPersistence ends: the smallest row index of the working column strictly increases with each addition.",
  "all boundary matrices",
  "termination for every input",
  [F+":219-240"])
p("Persistence intervals are well formed",
  "Every interval emitted in dimension d >= 1 has birth < death, both are weights of simplices of dimension d and d+1, and no d-simplex is the birth and no (d+1)-simplex the death of two intervals.",
  "all complexes whose lists are sorted by weight and in which faces are not heavier than cofaces",
  "for every filtration",
  [F+":184-244"])
p("Number of pairs is the rank of the boundary",
  "In each dimension d >= 1 the number of (d+1)-simplices that fastPersistence pairs equals the rank over Z/2 of its boundary matrix (restricted to the rows not cleared), and the paired columns are exactly those that are not a Z/2-combination of earlier columns.",
  "all boundary matrices",
  "linear-algebra statement over all matrices",
  [F+":184-247"])
p("Persistence pairing is the standard pairing",
  "The (birth, death) pairs in dimension d >= 1 are those of the standard column reduction (youngest row of each reduced column). (Violated: the code pairs a column with its oldest row; and when the cleared rows are exactly the first m rows the next row is skipped by a read through the end iterator.)",
  "all filtrations",
  "needs an input on which two elimination orders differ; most small examples agree",
  [F+":201-233"])
p("No dereference past the pivot list",
  "fastPersistence never dereferences the end of its pivot list. (Violated: it does so whenever a row follows the last cleared row; exact condition stated.)",
  "all complexes",
  "memory-safety over all inputs",
  [F+":192-213"])
p("Betti table agrees with the printed barcode",
  "The bettiTable entries and the printed lines of fastPersistence describe the same multiset of intervals. (Violated in dimension 0: an edge that starts a new component is printed but gets no table entry; holds in dimensions >= 1.)",
  "all complexes",
  "all edge orders",
  [F+":90-130",F+":224-229"])
Q="Pipes/persistencePairs.cpp"
p("Gaussian elimination of persistencePairs finds the independent rows",
  "getRankNull returns exactly the row positions that are not a Z/2-combination of earlier rows, so the count is the rank.",
  "all non-empty rectangular 0/1 matrices",
  "linear algebra over all matrices",
  [Q+":69-109 getRankNull"])
p("Boundary matrices are boundary matrices",
  "checkFace is true iff the second simplex is a facet of the first, createBoundaryMatrix has a 1 exactly at facet incidences, and the composite of consecutive boundary matrices is zero over Z/2.",
  "all complexes closed under facets, all dimensions",
  "the chain-complex identity for every complex",
  [Q+":46-67 checkFace",Q+":111-166 createBoundaryMatrix"])
p("Rank reduction of boundaryPipe",
  "reduceBoundaryMatrix reports the rank and nullity of the matrix it is given, for every non-empty matrix on which it stays in bounds.",
  "all 0/1 matrices",
  "linear algebra over all matrices",
  ["Pipes/boundaryPipe.cpp:53-102 reduceBoundaryMatrix"])
R="Utils/readInput.cpp"; W="Utils/writeOutput.cpp"
p("CSV files round-trip",
  "Reading back a file written by writeCSV gives the rows that were written, for every table whose printed rows have at least two characters; rows that print as nothing are dropped.",
  "all tables of numbers of any shape",
  "unbounded rows and columns, separators at row ends",
  [R+":36-85 readCSV, parseDoubleVector",W+" writeCSV"])
p("MAT files round-trip",
  "Reading back a file written by writeMAT gives the table that was written, for every non-empty rectangular table.",
  "all rectangular tables",
  "unbounded shapes",
  [R+":102-146 readMAT",W+" writeMAT"])
p("Streaming and batch reading agree",
  "Reading a CSV file row by row with streamRead yields the same rows as readCSV. (Fails on a blank line, on lines over 999 characters and on rows ending with a comma; exact conditions stated.)",
  "all files",
  "differences appear only on particular line shapes",
  [R+":160-173 streamRead",R+":36-58"])
G="Utils/argParser.cpp"
p("Arguments: precedence and defaults",
  "After argument parsing every recognised option has a value: the one given in short form if any, else the long form, else the documented default; unknown options are kept; the last occurrence on the command line wins.",
  "all argument vectors of even length",
  "all orders and repetitions of options",
  [G+":21-40 defaultArguments",G+":80-98 parse"])
p("Pipeline selection",
  "setPipeline picks the documented pipeline, complex type and preprocessor for each known mode, leaves an explicitly given pipeline alone, and for any other mode leaves the pipeline empty.",
  "all argument maps",
  "every mode string",
  [G+":111-156 setPipeline"])
p("Pipeline string is split into its components",
  "runPipeline runs exactly the dot-separated components of the pipeline string, in order, each once, and terminates.",
  "all pipeline strings",
  "termination and order over all strings; the loop uses npos+1",
  ["LHFmain/main.cpp runPipeline"])
p("Unconfigured and unknown stages leave the data alone",
  "runPipeWrapper on an unconfigured pipe returns its packet unchanged, and an unknown pipe name runs no stage.",
  "all packets and all names",
  "every name",
  ["Pipes/basePipe.cpp runPipeWrapper, newPipe"])
K="Preprocessing/kdTree.cpp"
p("kd-tree nearest neighbour is exact",
  "kdTree nearest returns a stored point at minimal distance from the query.",
  "all non-empty point sets of any dimension, all queries",
  "pruning correctness over all configurations",
  [K+":78-116 makeTree",K+":160-216 findNearest"])
p("kd-tree range query",
  "neighborhoodIndices returns each stored point at distance < rad exactly once and nothing at distance > rad. (Points at distance exactly rad may be missed.)",
  "all point sets, queries and radii",
  "pruning correctness; the boundary case depends on the tree shape",
  [K+":240-278 neighborhood"])
D="Preprocessing/dbscan.cpp"
p("DBSCAN labels",
  "dbscan terminates and labels every point -1 or with a cluster number >= 1; a core point is never noise, noise points have no core point in their neighbourhood, all neighbours of a core point of a cluster are in a cluster, and numbers used are 1..m.",
  "all data sets, all minPoints and epsilon, any neighbourhood function",
  "worklist algorithm over all graphs",
  [D+":21-66 cluster, expandCluster"])
M="Preprocessing/kMeansPlusPlus.cpp"
p("k-means assignment is nearest-centroid",
  "In each round of kMeansPlusPlus a classified point is labelled with the first centroid at minimal distance, and the new centroid of every non-empty class is the mean of its points.",
  "all data sets, centroids and rounds",
  "all configurations",
  [M+":28-164 runPreprocessor"])
p("k-means labels every point",
  "After kMeansPlusPlus there is a label for every input point. (Violated: the last point is never classified, so the label list has one entry less than the data for every input.)",
  "all data sets with at least one point and at least one iteration",
  "holds for no input, tests that only look at centroids do not see it",
  [M+":28-164"])
S="Preprocessing/denStream.cpp"
p("Micro-cluster statistics are exact",
  "After any sequence of insertions at any times, a denStream micro-cluster has weight = sum of 2^(-lambda*age), center = weighted mean of its points, and non-negative squared radius = weighted variance.",
  "all insertion histories and decay rates",
  "invariant over all histories",
  [S+":21-81 microCluster"])
p("Micro-cluster choice and merge rule",
  "nearestPCluster/nearestOCluster return, when there is a micro-cluster, the first index at which the distance of the center from the point is minimal; merging adds the point to exactly one micro-cluster: the nearest p-micro-cluster if its radius stays within epsilon, else the nearest o-micro-cluster under the same condition (which is promoted if its weight exceeds beta*mu), else a new o-micro-cluster.",
  "all states and points",
  "all states",
  [S+":203-227 merging and nearest*"])
p("Projection search brackets the query",
  "streamingKmeans binarySearch returns -1 iff the projection is <= the first entry, n-1 iff it exceeds the last one, and otherwise a position whose entry is <= the projection and whose successor is >= it; it terminates.",
  "all sorted arrays and queries",
  "loop invariant over all arrays",
  ["Preprocessing/streamingKmeans.cpp:419-447 binarySearch"])
p("streamingKmeans never completes safely",
  "streamingKmeans::runPreprocessor returns numClusters representatives. (Violated on every input: the result is read from a list that has just been emptied.)",
  "all inputs",
  "memory-safety over all inputs",
  ["Preprocessing/streamingKmeans.cpp:226-274"])
p("Naive window keeps the most recent points",
  "With a simplexTree as complex, at every moment the naive sliding window holds the last min(50, number read) rows, in reading order, and the returned data are the window as of the last multiple of 100 rows (the first 50 rows below 100, unchanged below 50). (Violated with any other complex: the window keeps the first 50 rows.)",
  "all streams of any length",
  "invariant over all streams",
  ["Pipes/naiveWindow.cpp runPipe"])
p("Sliding window bookkeeping stays aligned",
  "While streaming, the window, its keys and its partition labels always have equal length min(200, number read), the keys increase strictly, and the window is a subsequence of the rows read.",
  "all streams and all accept decisions",
  "invariant over all streams",
  ["Pipes/slidingWindow.cpp runPipe, nnBasedEvaluator"])
p("Reusing a tree complex",
  "After clear, inserting a new point cloud into a simplexTree yields the complex of the new cloud. (Vertex labels continue from the old numbering, and the list is no longer sorted after a previous query; the shape and weights are right.)",
  "all pairs of successive point clouds",
  "histories of build, query and clear",
  [T+":28-34",T+":564-582 clear"])
p("getDimEdges lists one dimension",
  "getDimEdges(d, eps) returns each stored simplex of the requested dimension whose pairwise distances are all <= eps, once, and nothing else, with the same meaning for both complexes. (The array counts dimensions from 1 and honours eps; the tree counts from 0, ignores eps and reads out of range when d is the number of stored dimensions.)",
  "all complexes, dimensions and thresholds",
  "exactness of a filter over all complexes",
  ["Complex/simplexArrayList.cpp:86-112 getDimEdges","Complex/simplexTree.cpp:470-482 getDimEdges"])
p("Betti curve of the barcode",
  "In every dimension k >= 1 that fastPersistence processes, for every threshold t the number of printed intervals [b,w) containing t, plus the number of never-closed classes born up to t (which are not printed), is the k-th Betti number over Z/2 of the complex of simplices of weight <= t; so the printed intervals give the Betti number exactly when the whole complex has no k-th homology. (With libstdc++ this needs that the skipped rows are the negative simplices, see C28.)",
  "all filtered complexes, dimensions and thresholds",
  "equality of a combinatorial count with a homology dimension, for all complexes and thresholds",
  ["Pipes/fastPersistence.cpp:166-247"])
p("Persistence of a cloud without close pairs",
  "fastPersistence returns a result for every complex, in particular the one infinite bar per point when no two points are within epsilon. (Violated: with vertices but no edges layer it reads edges[1] out of range; the empty complex is returned unchanged.)",
  "all point clouds without a pair within epsilon",
  "memory safety on a whole class of inputs",
  ["Pipes/fastPersistence.cpp:84-130","Complex/simplexArrayList.cpp getAllEdges"])
p("persistencePairs finds the simplices that destroy classes",
  "The pivots that the persistencePairs pipe computes are exactly the places of the simplices (dimension at least 1) whose boundary is not a Z/2 combination of boundaries of earlier simplices of the same dimension.",
  "all filtered complexes without empty layers, all dimensions",
  "linear algebra over all complexes",
  ["Pipes/persistencePairs.cpp:69-166 getRankNull, createBoundaryMatrix"])
p("Clearing in optPersistencePairs loses no pivot",
  "The optPersistencePairs pipe skips rows known to be cycles; the pivots it computes are still exactly the simplices of dimension 1 to dim that destroy a class, and they agree with those of persistencePairs.",
  "all filtered complexes without empty layers, all dim below the number of layers",
  "the clearing lemma for every complex",
  ["Pipes/optPersistencePairs.cpp:118-169 getRankNull", "Pipes/optPersistencePairs.cpp:453-483", "Pipes/optPersistencePairs.cpp:590-631"])
p("Set-based elimination of optPersistencePairs finds the independent columns",
  "getRankNull on sets returns exactly the columns that are not a Z/2 combination of earlier columns.",
  "all lists of index sets",
  "linear algebra over all matrices",
  ["Pipes/optPersistencePairs.cpp:65-116 getRankNull"])
p("persistencePairs and optPersistencePairs stay inside their tables",
  "On every filtered complex the two pipes pair simplices without reading outside their T-array and write the resulting intervals.",
  "all filtered complexes, all dim",
  "memory safety on every input",
  ["Pipes/persistencePairs.cpp:173-284 runPipe", "Pipes/optPersistencePairs.cpp:640-705 runPipe"])
p("Known modes skip no stage", "For every command line with a known mode, no pipeline of its own, mpi off and a known complex type, every stage of the mode's pipeline is created and configured, so the stages executed are exactly those of the mode, in order.", "all command lines and all behaviours of the stages", "The option defaults, the mode table, the stage names and the required options of every stage must fit together for every combination of options.", ["Utils/argParser.cpp: parse, setPipeline", "LHFmain/main.cpp: runPipeline", "Pipes/basePipe.cpp: newPipe"])
p("main runs the selected pipeline", "Whenever the input has rows, main runs the selected pipeline: once in general, and in mode reduced once per non-empty partition and once for the centroids. (Violated with upscaling on, which includes mpi 1 and mode upscaleBound: no pipeline is ever run.)", "all argument maps and inputs", "Needs every combination of mode, mpi and upscale options.", ["LHFmain/main.cpp: main, processDataWrapper, processReducedWrapper, processUpscaleWrapper"])
p("Unknown complex type is handled", "A complex type that the library does not know does not crash a pipeline. (Violated: every pipeline of which a stage is executed dereferences a null pointer; with a known type the wrapper adds no failure of its own.)", "all pipelines, complex types and stage behaviours", "Quantifies over all pipelines and over whatever the stages do.", ["Pipes/pipePacket.cpp: pipePacket", "Complex/simplexBase.cpp: newSimplex", "Pipes/basePipe.cpp: runPipeWrapper"])
p("k-means seeding","kMeansPlusPlus starts from num_clusters distinct rows of the data whenever the data has that many distinct rows; with fewer distinct rows it reads past the end of the data.","all data sets, cluster counts and outcomes of the random generators","the seeds are random and the failure depends on duplicate rows, so no set of runs covers the cases",["Preprocessing/kMeansPlusPlus.cpp: kMeansPlusPlus::runPreprocessor"])
p("k-means objective and convergence","From one round of kMeansPlusPlus to the next the sum of squared distances of the labelled rows to their centroids never increases, and with a large enough iteration limit the run ends in a fixed point: labels are nearest-centroid labels for the returned centroids, which are the class means.","all data sets, seeds and rounds","a statement about every execution of an iterative algorithm of unbounded length",["Preprocessing/kMeansPlusPlus.cpp: kMeansPlusPlus::runPreprocessor"])
p("denStream returns means of input rows","Every point returned by denStream is the decayed weighted mean of a non-empty group of input rows, and no row is used in two groups. (Violated when the first 1000 rows contain no cluster: an empty micro-cluster at the origin is created, and is returned when no pruning step follows.)","all data sets with at least 1000 rows, all positive epsilon and lambda","quantifies over all streams and all merge, promotion and pruning decisions",["Preprocessing/denStream.cpp: denStream::runPreprocessor, denStream::merging"])
p("denStream accepts small data sets","denStream processes data sets of any size. (Violated: with fewer than 1000 rows the initial clustering reads past the end of the data.)","all data sets with fewer than 1000 rows","the read past the end is silent on many inputs",["Preprocessing/denStream.cpp: denStream::runPreprocessor","Preprocessing/kdTree.cpp: kdTree::kdTree"])
p("Sliding window replaces points","When the sliding window is full and a new row is significant, the row takes the place of an old one, so that the window follows the stream. (Violated: accepting the first row beyond the 200th reads past the end of the list of distances, so in every execution within the defined behaviour the window holds the first 200 rows for ever.)","all streams, and any completion of the statistics update","a read past the end that is usually silent; a claim about every execution",["Pipes/slidingWindow.cpp: slidingWindow::nnBasedEvaluator, slidingWindow::updateStats, slidingWindow::runPipe"])
p("Initial nearest-neighbour statistics of the sliding window","When the sliding window becomes full, the complex receives the upper triangular matrix of Euclidean distances, and for every point the recorded nearest-neighbour distance is the minimum over the other points and the recorded index is the first one attaining it.","all point sets of at least two points with a common number of coordinates","all data sets, including ties",["Pipes/slidingWindow.cpp: slidingWindow::runComplexInitializer"])
p("Partition choice and eviction of the sliding window","A new point joins the partition of its nearest window point or a partition with a new label; if it joins an existing partition and no partition is outdated, the evicted point is the oldest point of the other partitions. (Proved: it is never a point of the joined partition. Violated: it need not be the oldest, and without partition 0 in the window the search runs off the end.)","all windows, labels and distances","depends on the history of labels in the window",["Pipes/slidingWindow.cpp:357-446 nnBasedEvaluator"])
p("End-to-end barcode of a point cloud (default complex)","For every cloud of points of R^k in which some pair is closer than epsilon, the default pipeline (distMatrix, neighGraph, rips, fastPersistence on a simplexTree) returns a barcode that describes the Vietoris-Rips filtration of the points at every scale t < epsilon: the number of components at t is the number of points minus the finite dimension-0 bars that ended by t, and in every dimension 1 <= k < dimensions the Betti number over Z/2 is the number of printed bars that contain t plus the never-closed (unprinted) classes born by t. Without a close pair the program reads past the end of a vector; with dimensions <= 1 no undefined read occurs.","all point clouds, dimensions, epsilons and scales","composition of all pipes, compared with homology computed from the distances alone",["Pipes/distMatrixPipe.cpp runPipe","Pipes/neighGraphPipe.cpp runPipe","Pipes/ripsPipe.cpp runPipe","Pipes/fastPersistence.cpp runPipe","Complex/simplexTree.cpp"])
p("End-to-end barcode of a point cloud (array complex)","The same for complexType simplexArrayList with dimensions >= 1, at every scale t <= epsilon (edges of length exactly epsilon are kept by this complex).","all point clouds, dimensions, epsilons and scales","composition of all pipes, compared with homology computed from the distances alone",["Pipes/distMatrixPipe.cpp runPipe","Pipes/neighGraphPipe.cpp runPipe","Pipes/ripsPipe.cpp runPipe","Pipes/fastPersistence.cpp runPipe","Complex/simplexArrayList.cpp"])
p("Boundary matrices of the boundary pipe","For the simplices of two neighbouring dimensions of a complex, the boundary matrix routine of the boundary pipe returns the dimension of the space of boundaries over Z/2 (rank) and of the space of cycles (nullity); without faces every chain is a cycle. The nullity in one dimension minus the rank in the next is the Betti number.","all simplicial complexes and dimensions","linear algebra over every complex; the elimination reads out of range on matrices with independent rows, which must be shown never to be boundary matrices",["Pipes/boundaryPipe.cpp: boundaryPipe::boundaryMatrix, boundaryPipe::reduceBoundaryMatrix, boundaryPipe::checkFace"])
p("The boundary pipe writes the Betti intervals","Running the boundary pipe writes one row for every interval of epsilons on which a homology class lives. (Violated: with dimensions >= 1 every run reads the Betti table past its end, and if that read is harmless no row is ever written.)","all complexes, weights and dimensions","a read past the end that is usually silent; a claim about every input",["Pipes/boundaryPipe.cpp: boundaryPipe::runPipe"])
p("Every value of a CSV file is read","Reading a CSV file gives one row per line and one value per cell, in order, whether or not the last line ends in a newline; spaces are ignored. (Violated by lines of a single character, such as a one-digit number in a file with one column: they are skipped.)","all tables of cell texts and all values they stand for","the tables, the widths and the placement of spaces are unbounded",["Utils/readInput.cpp: readInput::readCSV, readInput::parseDoubleVector"])
p("denStream follows the DenStream algorithm","On at least 1000 rows the run clusters the first 1000 rows by density, turns the clusters into potential groups, streams the remaining rows at 20 rows per unit of time, adds each row to the nearest potential group, else to the nearest outlier group (promoting it above weight beta*mu), else founds an outlier group, checks the groups after every ceil(log 2/lambda) units of time, and returns the decayed means of the potential groups.","all data sets with at least 1000 rows of equal width, all positive epsilon and lambda","streams are unbounded and every row changes all later decisions",["Preprocessing/denStream.cpp: denStream::runPreprocessor, denStream::merging"])
p("Contents of the indexed tree","After inserting n points, a query of complexType indSimplexTree returns exactly the simplices of the clique complex of the pairs closer than epsilon with at most max(1, maxDim)+1 vertices, each once, with its diameter, in the order of weights. (Violated: with maxDim >= 3 and four points closer than epsilon to each other the insertion writes past the end of a counter array of length 3.)","all distance matrices, epsilons, dimensions and numbers of points, all orders of equal weights","all point clouds of all sizes; the write past the end is usually silent",["Complex/indSimplexTree.cpp: insert, recurseInsert, getAllEdges, getIndexEdges, sortAndBuildGraph"])
p("The indexed tree answers with the current simplices","A query of the indexed tree returns the simplices of all points inserted so far. (Violated: the answer of the first query is returned for ever.)","all histories of insertions and queries","quantifies over all histories",["Complex/indSimplexTree.cpp: getIndexEdges, getAllEdges, insert"])
p("find of the indexed tree","find tells whether the complex holds a simplex. (Violated: it answers no for the first simplex of every layer, yes for sets that start with the last point, follows a null pointer for other absent simplices, and reads an uninitialised field before the first query; the exact answer is proved for every simplex.)","all built trees and all vertex sets","all trees and all queries; undefined behaviour is silent",["Complex/indSimplexTree.cpp: find"])
p("Faces and pivots from the indexed tree","getFaces returns the positions of the faces of a simplex in their layer, so that optPersistencePairs finds the negative simplices of an indexed tree. (Violated: getFaces returns whether the positions are zero; at most two pivots per dimension are found, and with two edges or more the run leaves its table.)","all built trees, dimensions and orders of equal weights","linear algebra on every tree",["Complex/simplexBase.hpp: graphEntry::getFaces","Pipes/optPersistencePairs.cpp: createBoundarySets, runPipe"])
p("Counts of the indexed tree","simplexCount is the number of simplices of the complex and vertexCount the number of points. (Violated: vertexCount is the number of simplices too.)","all built trees","all point clouds",["Complex/indSimplexTree.cpp: simplexCount, vertexCount"])
p("The option collapse never changes the default complex",
  "With the default complex type the stage that honours --collapse leaves the stored complex as it is, for every complex and every value of the option, so the barcode does not depend on the option.",
  "every state of the default complex, every value of the option",
  "tests look at one cloud; the claim is about every complex the pipe can receive",
  ["Complex/simplexTree.cpp:reduceComplex","Pipes/ripsPipe.cpp:runPipe"])
p("Collapsing an array complex is defined and its result is known",
  "On the Vietoris-Rips complex of any cloud, collapse with the array complex terminates without undefined behaviour. All points stay. From the highest dimension down, each remaining simplex goes together with one facet of its own weight, the one that misses the smallest vertex. The edges that stay keep weight and order.",
  "every cloud, scale, dimension and value of the option",
  "the recursion visits neighbours of neighbours; termination and the exact set of removed faces depend on the whole complex",
  ["Complex/simplexArrayList.cpp:reduceComplex","Complex/simplexArrayList.cpp:recurseReduce","Complex/simplexArrayList.cpp:deletion","Pipes/ripsPipe.cpp:runPipe"])
p("Collapsing keeps the connected components",
  "At every scale, two points are joined by a path of edges not longer than the scale in the collapsed complex exactly when they are in the complex before.",
  "every cloud, scale threshold and pair of points",
  "a removed edge must be replaceable by a path of edges that stay, for every scale at once",
  ["Complex/simplexArrayList.cpp:reduceComplex"])
p("Collapsing keeps the homology",
  "The collapsed complex has the same Betti numbers as the complex before, at every scale and in every dimension.",
  "every cloud, scale threshold and dimension",
  "homotopy invariance is a statement about all scales and dimensions of a complex",
  ["Complex/simplexArrayList.cpp:reduceComplex","Complex/simplexArrayList.cpp:recurseReduce"])
p("The program writes the barcode of the points in its input file",
  "For every command line with a default mode (standard, fast), no preprocessor and a file name for the output, and every input file whose rows are points of the same dimension, two of them within epsilon: the program ends, having written exactly the statistics of the four stages and, under the given name, a barcode that describes the Vietoris-Rips filtration of the points in the file up to epsilon and the chosen dimension.",
  "every command line of this kind, every input file, every sort and every value of epsilon and dimensions",
  "it quantifies over command lines and files, and the barcode is specified by homology at all scales",
  ["LHFmain/main.cpp:main","LHFmain/main.cpp:processDataWrapper","LHFmain/main.cpp:runPipeline","Utils/argParser.cpp:parse","Utils/argParser.cpp:setPipeline","Utils/readInput.cpp:readCSV","Utils/writeOutput.cpp:writeBarcodes"])
p("Mode reduced writes one correct barcode per partition and one for the centroids",
  "In mode reduced, the program runs the pipeline on every non-empty set of labelled points closer than twice the maximal radius to a centroid, then on the centroids. Every run writes a barcode that describes the Vietoris-Rips filtration of its own points, whatever was run before; without labels the only run is on all points.",
  "every command line of this mode with the array complex, every input file, labelling and set of centroids",
  "state that survives from one run to the next (complex, table, output) must not influence the next barcode, for any sequence of clouds",
  ["LHFmain/main.cpp:processReducedWrapper","LHFmain/main.cpp:runPipeline","Utils/utils.cpp:separatePartitions","Utils/utils.cpp:computeMaxRadius","Utils/utils.cpp:mapPartitionIndexing","Complex/simplexArrayList.cpp:clear"])
p("Mode reduced is defined, and correct with the complex it selects",
  "In mode reduced with its own choice of complex the program has no undefined behaviour and every barcode it writes is the one of its partition.",
  "every command line with this mode, every input file and preprocessor result",
  "whether reuse of a cleared complex is safe depends on the history of runs",
  ["LHFmain/main.cpp:processReducedWrapper","Complex/simplexTree.cpp:clear","Utils/argParser.cpp:setPipeline","Utils/utils.cpp:mapPartitionIndexing"])
p("Mode reduced with k-means covers every row",
  "In mode reduced with the k-means preprocessor, every row of the input file is in one of the point sets on which the pipeline is run.",
  "every input file, number of clusters, number of iterations and random choices",
  "coverage must hold for every data set and every random seeding",
  ["LHFmain/main.cpp:processReducedWrapper","Preprocessing/kMeansPlusPlus.cpp:runPreprocessor","Utils/utils.cpp:separatePartitions"])
p("Sliding-window mode reports the intervals of its window",
  "In mode sw (or slidingwindow) the program processes every stream of points to its end, and the barcode file it leaves holds the persistence intervals of the window.",
  "every command line of this mode, every stream of points, every value of epsilon and dimensions",
  "it quantifies over streams of any length; the sub-pipelines are triggered by the position in the stream and the behaviour depends on the distances of all earlier points",
  ["LHFmain/main.cpp:main","Pipes/slidingWindow.cpp:runPipe","Pipes/slidingWindow.cpp:runSubPipeline","Pipes/persistencePairs.cpp:runPipe","Utils/argParser.cpp:setPipeline"])
p("Naive-window mode reports the intervals of its window",
  "In mode naive (or naivewindow) the program processes every stream of points to its end, and the barcode file it leaves holds the persistence intervals of the window.",
  "every command line of this mode, every input file, every value of epsilon and dimensions",
  "it quantifies over streams of any length",
  ["LHFmain/main.cpp:main","Pipes/naiveWindow.cpp:runPipe","Pipes/naiveWindow.cpp:runComplexInitializer","Utils/argParser.cpp:setPipeline"])
p("The pipeline with the stage persistence yields a barcode",
  "With the pipeline distMatrix.neighGraph.rips.persistence, on every complex type, the program ends and writes the barcode of the points in the input file.",
  "every command line with this pipeline, every complex type, every input file with two points closer than epsilon",
  "it quantifies over all point sets",
  ["LHFmain/main.cpp:main","Pipes/persistencePairs.cpp:runPipe","Pipes/basePipe.cpp:newPipe"])

p("The program with the complex type indSimplexTree yields the barcode",
 "With the option complexType indSimplexTree in standard mode the program ends and writes the statistics of the four stages and a barcode that describes the Rips filtration of the points in the input file.",
 "every command line that selects this complex, every input file, every value of epsilon and dimensions",
 "it quantifies over all command lines and point sets",
 ["LHFmain/main.cpp:main","Complex/indSimplexTree.cpp:insert","Complex/indSimplexTree.cpp:getAllEdges","Pipes/neighGraphPipe.cpp:runPipe","Pipes/fastPersistence.cpp:runPipe"])
p("A complex can be used again after clear, in mode reduced with indSimplexTree",
 "In mode reduced every run of the pipeline starts from an empty complex, so with the complex type indSimplexTree the program ends and writes one barcode for each partition and one for the centroids.",
 "every command line of mode reduced with this complex, every input file and every result of preprocessing",
 "it quantifies over all numbers and sizes of partitions",
 ["LHFmain/main.cpp:processReducedWrapper","Complex/simplexBase.cpp:clear","Complex/indSimplexTree.cpp:insert"])
p("The barcode does not depend on the order of the rows",
 "Running the program on the rows of an input file in another order, with the same settings, writes the same bars.",
 "every point set, every permutation of its rows, every epsilon, dimensions and order of equal weights chosen by the sort",
 "it quantifies over all permutations of all point sets; ties and the choice of pivots depend on the positions of the rows",
 ["LHFmain/main.cpp:main","Complex/simplexTree.cpp:insert","Pipes/fastPersistence.cpp:runPipe"])
p("Isometries change nothing, scaling scales the barcode",
 "Replacing the points by others with the same mutual distances (translation, rotation, reflection) gives the same barcode, and multiplying all coordinates and epsilon by a positive factor multiplies the ends of all bars by it.",
 "every point set, every isometry, every positive factor, every epsilon and dimensions",
 "it relates two runs on arbitrary inputs; a test can only compare finitely many pairs",
 ["Utils/utils.cpp:vectors_distance","Pipes/distMatrixPipe.cpp:runPipe","Complex/simplexTree.cpp:insert","Complex/simplexArrayList.cpp:insert","Pipes/fastPersistence.cpp:runPipe"])
p("optPersistencePairs with twist finds the simplices that destroy a class",
  "With the option twist, optPersistencePairs finds, as the places of pivots, exactly the simplices of the dimensions 1 to dim that destroy a homology class of the complex before them, the same as without the option, and then writes the intervals of these pairs.",
  "every filtered complex, every order of simplices of equal weight, every dim",
  "the buffered elimination visits rows and columns in an order that depends on all earlier pivots; it must be right for every complex",
  ["Pipes/optPersistencePairs.cpp:getRankNull","Pipes/optPersistencePairs.cpp:runPipe","Complex/indSimplexTree.cpp:find","Complex/simplexBase.hpp:getFaces"])
p("With k-means the program writes the barcode of the cluster centroids",
  "With the preprocessor kmeans++ (or kmeans, kmeansplusplus) and the default pipeline, the barcode file describes the Rips filtration of as many points as the option clusters says, and each of these points is the mean of the rows of the input file that are assigned to it; the statistics list the preprocessor and the four stages.",
  "every command line of the standard and fast modes, every input file, every outcome of the random generator, every number of clusters and iterations",
  "it composes option parsing, random seeding, an iteration that stops at different times and the whole pipeline",
  ["LHFmain/main.cpp:processDataWrapper","Preprocessing/preprocessor.cpp:runPreprocessorWrapper","Preprocessing/kMeansPlusPlus.cpp:runPreprocessor","LHFmain/main.cpp:runPipeline","Pipes/fastPersistence.cpp:runPipe"])
p("With DenStream the program writes the barcode of the micro-cluster centers",
  "With the preprocessor denStream and the default pipeline, the barcode file describes the Rips filtration of points that are the decayed means of groups of rows of the input file, where no row is in two groups.",
  "every command line of the standard and fast modes, every input file, every epsilon and lambda",
  "it composes the clustering of a stream of any length with the whole pipeline",
  ["LHFmain/main.cpp:processDataWrapper","Preprocessing/denStream.cpp:runPreprocessor","LHFmain/main.cpp:runPipeline","Pipes/fastPersistence.cpp:runPipe"])
p("A smaller epsilon cuts the barcode","Running the default pipeline with a smaller `epsilon` on the same input gives the barcode of the larger `epsilon` without the bars that end at or after the smaller one (the bar of the component that never merges then ends at the smaller `epsilon`). On a simplexArrayList, which keeps the edges of length equal to `epsilon`, the bars that end exactly at the smaller one are kept.","all clouds of points in R^k with a pair closer than the smaller epsilon, all pairs of bounds, all dimensions","the relation is between two runs on every input; single runs compared with recorded output do not show it",["Complex/simplexTree.cpp recurseInsert, insert, getAllEdges","Pipes/fastPersistence.cpp runPipe","main.cpp main"])
p("Raising dimensions only appends lines","Running the default pipeline with a larger value of `dimensions` on the same input keeps the lines written for the smaller value, in the same order, and appends only lines of the new dimensions; the smaller barcode file is a beginning of the larger one. The same holds on a simplexTree and on a simplexArrayList (with `dimensions` at least 1).","all clouds of points in R^k with a pair closer than epsilon, all pairs of values of dimensions, all sorts","the relation is between two runs on every input and every order of equal weights",["Complex/simplexTree.cpp recurseInsert, insert, getAllEdges","Pipes/fastPersistence.cpp runPipe","main.cpp main"])
p("The statistics file describes every step of the run",
  "After a run of the default pipeline the file <output>_stats.csv has a header, one row for the preprocessor if one was selected, and one row per stage in the order they ran; each row has the columns of the header, the size with its unit, and the numbers of vertices and simplices that the complex really has at the end of that stage.",
  "every command line of the standard and fast modes, every input file, every epsilon and dimensions, with and without preprocessor and debug, every content of the files before the run",
  "the counts depend on the whole complex of arbitrary point sets and on counters kept up by every insertion; the content of the file depends on all earlier writes",
  ["Utils/writeOutput.cpp:writeStats","Pipes/basePipe.cpp:runPipeWrapper","Preprocessing/preprocessor.cpp:runPreprocessorWrapper","Pipes/pipePacket.cpp:getSize","Complex/simplexTree.cpp:simplexCount","Complex/simplexArrayList.cpp:simplexCount"])
p("Recording a run does not change its results",
  "Writing the log, the statistics and, with debug, the intermediate data changes nothing in the barcode or in whether the run ends: a run with debug on gives the same results as with debug off, and the barcode file holds the barcode and nothing else.",
  "every command line, every input file, every system behaviour",
  "debug output queries the same complex that the next stages use, and such queries sort and extend its tables; equality must hold for every run",
  ["Pipes/basePipe.cpp:runPipeWrapper","Pipes/neighGraphPipe.cpp:outputData","Pipes/ripsPipe.cpp:outputData","Utils/utils.cpp:writeDebug","Utils/writeOutput.cpp:writeBarcodes"])
p("A run only touches its own files",
  "A run with output name f changes only f, f.csv, f_stats.csv and files in the directory output; the log f keeps its earlier content and grows at its end; with the output name console it writes none of these three; and two runs with different output names leave each other's files alone.",
  "every command line, input file and content of all files before the run",
  "it is about every other file of the file system and every command line",
  ["Utils/utils.cpp:writeFile","Utils/utils.cpp:writeLog","Utils/writeOutput.cpp:writeStats","LHFmain/main.cpp:runPipeline","Pipes/basePipe.cpp:runPipeWrapper"])
p("The debug files show the intermediate results",
  "With debug on, the directory output holds after a run of the default pipeline: the distance matrix, the edges of the neighbourhood graph, the simplices of the complex, each with its weight and none left out or repeated, the barcode, and the points and labels of the preprocessor if there is one.",
  "every command line of the standard and fast modes, every input file, every epsilon and dimensions",
  "the files list the whole complex of arbitrary point sets; missing or repeated simplices can only be excluded for all inputs by proof",
  ["Pipes/distMatrixPipe.cpp:outputData","Pipes/neighGraphPipe.cpp:outputData","Pipes/ripsPipe.cpp:outputData","Pipes/fastPersistence.cpp:outputData","Preprocessing/preprocessor.cpp:outputData"])
p("The log records every stage",
  "After a run of the default pipeline the log keeps what it had before and gets, in the order of the run, the messages of the preprocessor if there is one and, for each stage, its messages and two lines with its name, its time, and the size of points and complex at the end of the stage with its unit.",
  "every command line of the standard and fast modes, every input file, every content of the log before the run, with and without debug",
  "the sizes depend on the whole complex of arbitrary point sets, and other writes of the run could go to the same file",
  ["Utils/utils.cpp:writeLog","Utils/utils.cpp:writeFile","Pipes/basePipe.cpp:runPipeWrapper","Pipes/pipePacket.cpp:getSize"])
p("The pointer structure of simplexTree is a tree with one node per simplex",
  "While points are inserted into a simplexTree no null, freed or wild pointer is followed, and afterwards following sibling and child links from the head meets exactly one node for each simplex of the Vietoris-Rips complex, no node twice, with the diameter of the simplex as its weight.",
  "every distance matrix, number of points, epsilon and maximal dimension",
  "a wrong link shows only on the complex that has the branch concerned, and absence of cycles, sharing and dangling pointers must hold for every insertion order and every complex",
  ["Complex/simplexTree.cpp:insert","Complex/simplexTree.cpp:recurseInsert","Complex/simplexTree.hpp:treeNode"])
p("clear gives back all memory of a simplexTree",
  "After clear, no node that was allocated by the insertions is still allocated, no node was freed twice, and no freed node was accessed.",
  "every tree that insertions can build",
  "leaks and accesses to freed memory are not visible in results, and whether a node is missed depends on the shape of the tree",
  ["Complex/simplexTree.cpp:clear","Complex/simplexTree.cpp:deletion","Complex/simplexTree.cpp:insert"])
p("deleteIterative removes a vertex from a simplexTree",
  "deleteIterative(key, index) removes from the tree every simplex that has the vertex key and no other, from the distance matrix the row and the column index, keeps counts and lists of simplices in step, and leaves a tree into which further points can be inserted.",
  "every tree that insertions can build, every vertex, every distance matrix",
  "simplices with the vertex lie in branches of every other vertex; the effect must be right for all complexes and vertices",
  ["Complex/simplexTree.cpp:deleteIterative","Complex/simplexTree.cpp:deleteIndexRecurse","Complex/simplexTree.cpp:deletion"])
p("The components of the barcode are stable",
  "If no distance between two points changes by more than delta (for instance because every point moves by at most delta/2), the ends of the bars of the default pipeline, listed in order in each dimension and cut off at epsilon, change by at most delta.",
  "all pairs of clouds of points in R^k and R^k', all delta, epsilon and dimensions, all orders of equal weights",
  "it compares two runs on every pair of inputs; the order in which edges and triangles are met can change completely under a small move",
  ["Pipes/fastPersistence.cpp:runPipe","Complex/simplexTree.cpp:insert","Complex/simplexArrayList.cpp:insert","Utils/utils.cpp:vectors_distance"])
p("A repeated row adds one empty bar",
  "Writing one of the rows of the input a second time adds exactly one line, 0,0,0, in front of the barcode of the default pipeline and changes no other line.",
  "all clouds of points in R^k, all rows, all places for the copy, all epsilon and dimensions",
  "the copy doubles edges, triangles and all higher simplices of that point, with many equal weights; the relation is between two runs on every input",
  ["Pipes/fastPersistence.cpp:runPipe","Complex/simplexTree.cpp:insert","Complex/simplexArrayList.cpp:insert"])
p("Clouds that are far apart do not influence each other",
  "If the input consists of two clouds whose points are at least epsilon apart, the bars of the default pipeline are the bars of the one cloud and of the other, together.",
  "all pairs of clouds of points in R^k, all epsilon and dimensions",
  "the simplices of the two clouds are interleaved in the sorted lists and in the union-find and pivot tables; independence must hold for every interleaving",
  ["Pipes/fastPersistence.cpp:runPipe","Complex/simplexTree.cpp:insert","Complex/simplexArrayList.cpp:insert"])
p("Collapsing an indexed tree is defined and only erases",
  "With the complex type indSimplexTree the option collapse ends without undefined behaviour. All points stay in their order, of the other simplices some are erased and the rest keep their weights, the queries return each layer in the order of weight, and the counts are the numbers of simplices that are left. The memory of an erased simplex is released once, and nothing points to it afterwards.",
  "every cloud of points, every distance, epsilon and dimensions, every complex that insertions can build",
  "the search for free faces calls itself along chains of neighbouring simplices of any length and erases from lists it is walking through; termination and memory safety must hold for every complex",
  ["Complex/indSimplexTree.cpp:reduceComplex","Complex/indSimplexTree.cpp:recurseReduce","Complex/indSimplexTree.cpp:deletion","Complex/indSimplexTree.cpp:coreduction","Pipes/ripsPipe.cpp:runPipe"])
p("Collapsing an indexed tree keeps the topology",
  "With the complex type indSimplexTree the option collapse leaves a complex, in which with each simplex all its faces are present, with the same connected components at every scale and the same barcode as without the option.",
  "every cloud of points, every scale, epsilon and dimensions",
  "whether a removed edge is still bridged by shorter edges depends on all distances of the cloud",
  ["Complex/indSimplexTree.cpp:reduceComplex","Complex/indSimplexTree.cpp:recurseReduce","Pipes/ripsPipe.cpp:runPipe"])
p("The built-in stream evaluator describes the distances and rows are accepted accordingly",
  "For a new row and the current window the built-in evaluator records the mean and the standard deviation of the distances from the row to the window, and those of the distances to its 20 nearest rows. insertIterative accepts a row exactly when the window is empty or the evaluator that was set accepts it, for every complex type.",
  "all windows and rows over R^k, all evaluators, all streams of rows offered one after the other",
  "the answer depends on the whole history of the stream and on the size of the window, and both are unbounded",
  ["Complex/simplexBase.cpp:streamEvaluator","Complex/simplexBase.cpp:setStreamEvaluator","Complex/simplexBase.cpp:insertIterative","Complex/simplexTree.cpp:insertIterative"])
p("The batch and ball k-means steps for streams return centroids",
  "streamingUtils::kMeans and streamingUtils::ballKmeans return the centroids of the rows they are given.",
  "all lists of rows, all outcomes of the random choices",
  "the result depends on random choices; a test samples a few of them",
  ["Preprocessing/streamingUtils.cpp:kMeans","Preprocessing/streamingUtils.cpp:ballKmeans"])
p("With collapse the barcode of a simplexArrayList is the barcode without collapse",
  "With -z true and complexType simplexArrayList, the default pipeline on rows of equal length with at least one pair within epsilon ends without undefined behaviour, and prints the same lines as without collapse. In dimension 0 these are the ends of the merges of the connected components and the one class open at epsilon.",
  "all lists of rows of equal positive length, all epsilon, all dimensions at least 1, all sorts",
  "The collapse runs inside the pipeline on a complex that depends on every distance; that every merge of components survives the removal of edges is a statement about all point clouds.",
  ["Complex/simplexArrayList.cpp:reduceComplex", "Pipes/ripsPipe.cpp:runPipe", "Pipes/fastPersistence.cpp:runPipe"])
p("A simplex is found through the common interface whichever complex is behind it",
  "After building a complex, asking it whether it contains a set of vertices answers yes exactly for its simplices, whether the vertices are given as a vector or as a set and whichever complex type was chosen; asking for the dimension 0 pairs lists them. (Violated: only simplexArrayList answers vectors and only indSimplexTree answers sets; every other combination answers no for every simplex the complex holds; the weight query of simplexTree is always 1; getd0Pairs lists nothing for any complex; indSimplexTree::search does not return for a simplex without the point 0.)",
  "every complex type, every epsilon and dimension bound, every distance matrix with nonnegative entries, every cloud, every query",
  "The answer must be right for every simplex of every complex; a test sees a few of them, and a query that always says no passes every test of an absent simplex.",
  ["Complex/simplexBase.cpp:find", "Complex/simplexArrayList.cpp:find", "Complex/simplexTree.cpp:find", "Complex/indSimplexTree.cpp:find", "Complex/indSimplexTree.cpp:search"])
p("The complex of the naive window mode follows the window",
  "In the naive window mode the complex kept by the program (whose simplex and vertex counts it prints every 100 rows) is the Vietoris-Rips complex of the rows currently in the window. (Violated: the complex is built once, from the first 50 rows, and never changed; with fewer than 50 rows it is empty.)",
  "every stream of rows of equal positive length, every epsilon and dimension bound, every command line of this mode",
  "It is a statement about every history of the stream; a test with 50 rows passes, and the window itself is updated correctly.",
  ["Pipes/naiveWindow.cpp:runPipe", "Pipes/naiveWindow.cpp:runComplexInitializer", "Complex/simplexTree.cpp:insertIterative"])
p("Sliding-window mode saves its window",
  "In mode `sw` the program saves the rows of its window in the files output/SlidingWindow_N_output.csv, N = 0, 1, ...: at every hundredth row once the window is full, and once more at the end of the stream; each file has one line per row of the window as it is at that moment, so that later rows show up in later files.",
  "every stream of rows, every epsilon and number of dimensions",
  "The files depend on the whole history of the stream; tests look at a few short streams.",
  ["Pipes/slidingWindow.cpp: slidingWindow::runSubPipeline, outputData, runPipe", "Complex/simplexBase.cpp: stats"])
p("The pipeline with the stage boundary yields a barcode",
  "With the pipeline distMatrix.neighGraph.rips.boundary, on the default complex or on a simplexArrayList, the program ends and writes the barcode of the points in the input file.",
  "every command line with this pipeline, every input file of points with the same number of coordinates, every value of dimensions that is at least 1",
  "it quantifies over all point sets and over both complex types",
  ["LHFmain/main.cpp:main", "Pipes/boundaryPipe.cpp:runPipe", "Pipes/basePipe.cpp:newPipe"])
p("With the output name \"console\" the barcode is shown on the terminal",
  "A run with '-o console' of the default pipeline prints the bars it has computed: two runs whose bars differ print different texts.",
  "for every point cloud, dimension, epsilon and complex type",
  "A test compares the text for one input; whether the bars can be recovered from what is printed is about all pairs of inputs.",
  ["LHFmain/main.cpp: runPipeline (the writeConsole call)", "Utils/writeOutput.cpp: writeConsole", "Utils/utils.cpp: writeLog", "Pipes/basePipe.cpp: runPipeWrapper"])
p("What is printed at the end of the modes reduced and upscale is right",
  "In the mode 'reduced' the table printed at the end consists of the table of each partition and of that of the centroids, and the points it names are rows of the input; with upscaling the counts printed are the numbers of rows in the partitions.",
  "for every input, set of centroids and labels, epsilon and dimension",
  "The tables depend on every partition that a clustering can produce; a test sees one clustering, and an index that is local to a partition agrees with the row number for the first partition.",
  ["LHFmain/main.cpp: processReducedWrapper, processUpscaleWrapper", "Utils/utils.cpp: mapPartitionIndexing, separatePartitions, print1DVector"])
p("Debug lines appear in the log exactly when debug is on",
  "With the option debug off ('0' or 'false') no [DEBUG] line is written by any part of a run, and with debug on the stages write their [DEBUG] lines and their files.",
  "for every value of the option debug, every complex and every stage",
  "The option is read in three different ways; a test with one value sees one of them, and the lines of the complex appear only with collapse or on an empty complex.",
  ["Utils/utils.cpp: writeDebug", "Complex/simplexBase.cpp: setConfig", "Complex/simplexArrayList.cpp: reduceComplex", "Pipes/ripsPipe.cpp: runPipe, configPipe"])
p("A complex without points answers as empty",
  "A complex of any type into which nothing has been inserted counts no simplices and no vertices, finds nothing and lists nothing, and no query, expansion, reduction or clear changes that or fails.",
  "for every complex type and every sequence of operations that inserts no point",
  "Sequences of operations are unbounded, and the queries change the complex (they sort it on the first call).",
  ["Complex/simplexBase.cpp: newSimplex", "Complex/simplexTree.cpp: getDimEdges, getAllEdges, reduceComplex, clear", "Complex/simplexArrayList.cpp: find, getDimEdges, getAllEdges, expandDimensions, reduceComplex", "Complex/indSimplexTree.cpp: find, getAllEdges, getIndexEdges, reduceComplex"])
p("Every inserted point is in the complex",
  "After inserting rows into a complex of any type, each of them is a vertex of the complex with weight 0, under its position in the order of insertion; otherwise the insertion fails visibly.",
  "for every complex type, every distance matrix, epsilon and dimension, and every list of rows",
  "The matrix does not have to fit the rows; a test uses one fitting matrix.",
  ["Complex/simplexTree.cpp: insert, recurseInsert", "Complex/simplexArrayList.cpp: insert", "Complex/indSimplexTree.cpp: insert, recurseInsert", "Complex/simplexBase.cpp: setDistanceMatrix"])
p("What the memory of a new complex held before has no effect",
  "A run writes the same files, leaves the same barcode, tables and data, and fails in the same way if it fails, whatever number the memory held in which the complex is created; and the complex reports the same sizes.",
  "for every command line, every input, every complex type and every initial content of the count",
  "Fresh memory is usually zero in a test process, so a test sees only that content.",
  ["Complex/simplexTree.hpp: nodeCount", "Complex/simplexTree.cpp: simplexTree::simplexTree, insert, clear", "Complex/indSimplexTree.hpp: nodeCount", "Complex/indSimplexTree.cpp: indSimplexTree::indSimplexTree, insert, reduceComplex", "LHFmain/main.cpp: main"])
p("A negative number of dimensions is treated like 0","For every command line with a negative value of dimensions and every file of points of which two are closer than epsilon, the program behaves as it does for 0: it ends, writes the barcode of the connected components, and stores no more simplices than it stores for 0.","all integer values of dimensions and, for negative ones, all files of points, complex types and values of epsilon (mode standard or fast without collapse)","the comparison that goes wrong is between an int and a size_t: the barcode of the simplexTree is right all the same, and only the number of stored simplices, which grows as 2^n, gives it away; a test on few or sparse points sees nothing",["Complex/simplexTree.cpp: simplexTree::recurseInsert","Complex/indSimplexTree.cpp: indSimplexTree::recurseInsert","Complex/simplexArrayList.cpp: simplexArrayList::insert, simplexArrayList::expandDimensions","Pipes/neighGraphPipe.cpp: neighGraphPipe::configPipe, neighGraphPipe::runPipe","Pipes/fastPersistence.cpp: fastPersistence::runPipe"])
p("k-means handles every number of clusters","For every value of the options clusters and iterations and every file, the preprocessor kmeans++ either returns as many centroids as the option says, or ends the program with a message; it does not touch memory outside of its vectors.","all integer values of clusters and iterations, all data sets, all outcomes of the random draws, all modes","a negative number is compared as a huge unsigned one and 0 makes 2^32 - 1 draws before the bad access; what happens depends on signs and row counts together, and undefined behaviour may pass a test",["Preprocessing/kMeansPlusPlus.cpp: kMeansPlusPlus::runPreprocessor, kMeansPlusPlus::configPreprocessor","LHFmain/main.cpp: processDataWrapper, processReducedWrapper, processUpscaleWrapper"])
p("Only the values of the options count","Two command lines that give the same values to the options that a run reads produce the same files and results. In particular names that are no options are ignored wherever they stand, debug changes no result, clusters, iterations and lambda change nothing without a preprocessor, and the order of the options does not matter if none is given twice under the same name.","all command lines made of pairs of a name and a value, all input files, all modes, pipelines and complex types","the statement compares all pairs of command lines that agree on some options",["Utils/argParser.cpp: argParser::parse, argParser::defaultArguments, argParser::setPipeline","LHFmain/main.cpp: main, runPipeline","Pipes/basePipe.cpp: basePipe::newPipe"])
p("The boundary points recorded with an interval are points of a cycle of that interval",
  "Every interval in the table that fastPersistence returns comes with boundary points: points of the input that carry a cycle which is born at the start of the interval and is filled at its end. (Violated: in dimension d >= 1 the numbers are positions in the list of d-simplices, with the negative simplices left out, so they can exceed the number of points, and the mode reduced, which takes them for points, then reads past the end of its labels. Proved instead: which simplices the numbers denote, that together with negative simplices they are the boundary of a chain present at the end of the interval, and that in dimension 0 the number is an end of the edge that ends the interval.)",
  "all filtered complexes, numbers of dimensions, epsilon and previous tables",
  "the reduced columns depend on the whole order of the filtration; on inputs with few edges a position is also a valid point number",
  ["Pipes/fastPersistence.cpp:81-140 table entries of dimension 0", "Pipes/fastPersistence.cpp:223-249 bettiTable.push_back", "Utils/utils.hpp:bettiBoundaryTableEntry", "Utils/utils.cpp:mapPartitionIndexing", "LHFmain/main.cpp:processReducedWrapper"])
p("The barcode of points on a line is the list of gaps","For an input file whose rows lie on a straight line (in particular a file with one number per row, in any order), the standard run writes exactly one line (0, 0, gap) for every gap between neighbouring numbers that is shorter than epsilon, in increasing order, then the open bar (0, 0, epsilon), and no line of dimension 1 or more, whatever the number of dimensions is.","every number of points, every order of the rows, every epsilon, every number of dimensions, every sorting of equal weights","The claim is about all point sets on a line and all dimensions: it needs that the Rips complex of points on a line has no homology above dimension 0 at any scale, which no sample of files shows.",["LHFmain/main.cpp:main","LHFmain/main.cpp:runPipeline","Pipes/distMatrixPipe.cpp:runPipe","Pipes/ripsPipe.cpp:runPipe","Pipes/fastPersistence.cpp:runPipe"])
p("With epsilon large enough the barcode is complete","If some row of the input file is at distance at most R, less than epsilon, from all other rows, then the standard run writes one line of dimension 0 for each row, all lines but the open bar end at R or before, and in each dimension from 1 to dimensions - 1 the Betti number of the Vietoris-Rips complex at every scale below epsilon is the number of lines whose interval holds the scale: no class is missing.","every file with at least two rows, every R and epsilon with R < epsilon, every number of dimensions, every scale","It needs that the Rips complex is a cone from the scale R on, so that every class dies and is printed; this is a statement about all clouds and all scales.",["LHFmain/main.cpp:main","LHFmain/main.cpp:runPipeline","Pipes/distMatrixPipe.cpp:runPipe","Pipes/ripsPipe.cpp:runPipe","Pipes/fastPersistence.cpp:runPipe"])
p("A class of dimension k needs 2k+2 points",
  "A standard run on a file with n rows writes a line of dimension k, k at least 1, only if n is at least 2k+2. So once dimensions is at least half the number of rows, a larger value of dimensions writes exactly the same lines.",
  "every file in which two rows are closer than epsilon, every epsilon, every number of dimensions, every sorting of equal weights",
  "The claim is about all clouds of n points and all dimensions: it needs that a clique complex on fewer than 2k+2 vertices has no homology in dimension k, which is proved by induction on the number of vertices and not by running files.",
  ["LHFmain/main.cpp:main","LHFmain/main.cpp:runPipeline","Pipes/distMatrixPipe.cpp:runPipe","Pipes/ripsPipe.cpp:runPipe","Pipes/fastPersistence.cpp:runPipe"])
p("Bars of dimension at least 1 are the classes of the Rips filtration with their true lengths",
  "For every two scales s ≤ t below epsilon and every dimension k from 1 to below `dimensions`, the number of written bars of dimension k that begin by s and end after t is the number of k-dimensional holes of the cloud at scale s that are still open, and still different, at scale t (not counting those that never close). In particular every written bar is a hole that exists where the bar begins and stays open as long as the bar says, and no hole is cut into shorter bars.",
  "all clouds, all epsilon and dimensions, all pairs of scales",
  "a test compares a few barcodes with known ones; that no bar ever outlives a class is a rank inequality for all pairs of scales of all filtrations, and which clouds break the converse cannot be enumerated",
  ["Pipes/fastPersistence.cpp:runPipe", "LHFmain/main.cpp:main"])
p("Exactly which bars are written",
  "In every dimension k from 1 to below `dimensions`, the written bars are one bar for each pair of a k-simplex p and a (k+1)-simplex q such that q closes p, from the weight of p to the weight of q, in the order of the q, without the bars of length 0; and nothing else. Here q closes p if with q, and not before, some sum of boundaries of the (k+1)-simplices up to q has p as its oldest simplex among the k-simplices that do not themselves close anything. So the bars are determined by the filtration alone.",
  "all filtered complexes, all clouds, epsilon and dimensions",
  "the pairs are the outcome of a column reduction whose intermediate columns depend on all earlier ones; that the outcome is given by a rule about all sums of boundaries quantifies over exponentially many sums and over all filtrations",
  ["Pipes/fastPersistence.cpp:runPipe", "LHFmain/main.cpp:main"])
p("When the written barcode is the persistence barcode",
  "If one point is within a radius R below epsilon of all others (so that no class stays open), and among the bars of a dimension k, from 1 to below `dimensions`, there is none that begins after the beginning of another one, at its end or before, and outlasts it, then those bars are the persistence barcode of the points in dimension k: for any two scales s <= t below epsilon, the number of bars across both is the number of classes that live from s to t. So a single bar of a dimension, bars with gaps between them and nested bars can be taken at face value.",
  "all clouds with a point within R of all others, all epsilon above R, all dimensions, all pairs of scales",
  "it compares the output with homology at all pairs of scales for every cloud; a test compares a few numbers on a few clouds and cannot say on which outputs the comparison is safe",
  ["Pipes/fastPersistence.cpp:runPipe", "LHFmain/main.cpp:main"])
p("What a run prints, and that misspelt stages are reported",
  "Whatever the pipeline, preprocessor and mode, a run that ends prints: the settings; what belongs to the preprocessor (nothing if there is none, a failure line if the name is unknown); and for each name of the pipeline, in order, a failure line if there is no stage of this name, and otherwise what the stage says, framed by its messages and by its time and size if the output name is \"console\". In mode reduced this is so for each partition and for the centroids, between lines with the numbers of points, and the table comes last; with upscaling the numbers of rows of the partitions follow. In particular, with an output file, no preprocessor and the default stages of a simplexTree or simplexArrayList, nothing is printed after the settings exactly if every name of the pipeline is a stage that is run.",
  "all command lines, pipelines (lists of names, known or not), preprocessors, modes, clouds and outcomes of the stages",
  "it ranges over all lists of stage names; a test shows the text of one run and cannot say that a misspelt stage is never dropped in silence",
  ["LHFmain/main.cpp:runPipeline", "LHFmain/main.cpp:processDataWrapper", "LHFmain/main.cpp:processReducedWrapper", "LHFmain/main.cpp:processUpscaleWrapper", "Pipes/basePipe.cpp:runPipeWrapper", "Utils/utils.cpp:writeLog"])
p("Asking a complex does not change its answers",
  "Take a complex of any of the three types, in whatever state insertions, deletions and earlier questions have left it, and ask it any list of questions: all edges, the indexed edges, the edges of a dimension, find, the number of vertices. If they are answered, the next listing of all edges, or of the indexed edges, is the one that would have been given before, in the same order; the numbers of simplices and vertices and the answers to find are the same; and the edges of a dimension are the same simplices. Once all edges have been listed, no question changes anything in the complex.",
  "all complex types, all states of the complex, all lists of questions, every way in which the library's sort orders equal weights",
  "two of the types sort or rebuild their lists when they are first asked, and the caller cannot see it; a test asks a few questions in one order and cannot say that no order of questions changes an answer",
  ["Complex/simplexTree.cpp:getAllEdges, getDimEdges", "Complex/simplexArrayList.cpp:getAllEdges, getDimEdges", "Complex/indSimplexTree.cpp:getAllEdges, getIndexEdges, sortAndBuildGraph, find", "Complex/simplexBase.cpp:find"])
p("The settings in effect are shown, and wrong arguments are reported",
  "Whatever the command line of names and values, the input and the mode, a run that ends has printed, before anything else, a complaint with the usage for each argument that stands where a name should be and has no dash, and then a table of the settings that the run uses, sorted by name, each once. Every option has exactly one row, with the value in effect (after defaults and after the mode has changed it). A row under another name is a name that was given on the command line and is no option, long or short, with the value given last: a misspelt option is visible in the table, beside the option it was meant for.",
  "all command lines made of pairs of a name and a value, all modes, pipelines, inputs and outcomes of the stages",
  "it ranges over all sets of names, orders and repetitions on the command line and over all modes; a test sees the table of one command line",
  ["LHFmain/main.cpp:main", "Utils/argParser.cpp:parse, defaultArguments, setPipeline, printUsage", "Pipes/pipePacket.cpp:pipePacket", "Complex/simplexBase.cpp:setConfig"])
with open('/verif/properties.jsonl','w') as f:
    for x in P: f.write(json.dumps(x)+"\n")
print(len(P))
for x in P: print(x['id'],x['title'])
