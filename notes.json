{
 "C43": "PARTIAL: proved for every positive epsilon; with epsilon 0 the query misses the query point itself, and C43_zero_epsilon_violated shows the stated clustering then fails.",
 "C49": "PARTIAL: the property is violated on every input (C49_never_returns_violated); only the unconfigured case works.",
 "C50": "Proved for simplexTree, which the naive mode selects; C50_other_complex_violated shows what happens with another complex.",
 "C66": "PARTIAL: violated; the theorem shows that every data set with fewer than 1000 rows leaves the defined behaviour.",
 "C67": "PARTIAL: violated; C67_defined_iff says exactly which streams are defined executions (those whose rows after the 200th are all ordinary, so nothing is ever replaced).",
 "C69": "PARTIAL: the exact rule for the choice of partition, the choice of the outdated partition and of the point that goes are proved; that the evicted point is the oldest one is violated.",
 "C01": "Exactness, commutativity, associativity and self-inverse law for setXOR; exactness for both overloads of symmetricDiff.",
 "C02": "Both overloads; identical unsorted vectors are returned as they are (C02_same_vectors_unsorted).",
 "C03": "Proved for different arguments; C03_setUnion_violated and C03_setUnion_self_lost: equal arguments give the empty vector.",
 "C04": "Proved in full.",
 "C05": "Proved in full for the three overloads, with the empty set and negative sizes.",
 "C06": "Proved in full, with the exact condition for staying in bounds.",
 "C07": "The content of the partitions and the maximal radius are exact for every input; coverage is proved for a positive maximal radius and refuted for radius 0.",
 "C08": "Proved in full; labels shorter than the data are read out of range (C08_short_labels_oob).",
 "C09": "The stated effect holds only when the mapping changes nothing (C09_mapped_iff_fixed_partial); C09_mapPartitionIndexing_no_effect is the exact behaviour.",
 "C10": "Proved over the reals, with the exact condition for the out-of-range read; the scalar overload is the square, not the distance.",
 "C11": "Proved for every distance function and instantiated with the Euclidean one.",
 "C12": "Proved in full.",
 "C13": "Proved in full, also end to end from a Euclidean point cloud.",
 "C14": "Proved in full.",
 "C15": "Proved in full.",
 "C16": "Proved in full.",
 "C17": "Proved in full, also end to end from a Euclidean point cloud. head and nodeCount, which the constructor leaves uninitialised, are taken to be null and 0.",
 "C18": "Proved in full, with a counterexample at distance exactly epsilon.",
 "C19": "Proved in full.",
 "C20": "Array: in full. Tree: for the first query only; C20_tree_violated refutes later ones.",
 "C21": "Proved in full; the empty vector and over-long vectors are read out of range (C21_findWeight_oob, C21_find_empty).",
 "C22": "Proved for every filtered complex with an edge layer, and for the Rips complexes of C13/C17.",
 "C23": "Exact bar count for every input; the property holds for connected input and is refuted for disconnected input.",
 "C24": "Proved in full.",
 "C25": "Proved in full.",
 "C26": "Proved in full.",
 "C27": "Proved in full.",
 "C28": "Deaths are those of the standard pairing (under the stated condition on skipped rows); which birth belongs to which death is not, and C28_violated, C28_square_violated refute it. C54 shows what is still right.",
 "C29": "Exact condition of the end dereference proved; the property is refuted. In particular it happens whenever the last simplex of a dimension is a facet of another simplex (C29_last_facet_violated).",
 "C30": "Dimensions at least 1 agree; dimension 0 is refuted.",
 "C31": "Proved in full; the empty matrix is read out of range.",
 "C32": "Proved in full.",
 "C33": "Proved for matrices with dependent rows; on every matrix with independent rows the code reads out of range (C33_independent_rows_violated). The two cases are exhaustive (C33_cases).",
 "C34": "Proved in full for conversions that round-trip and print no separators, which the decimal example meets; barcode files cannot be read back because of their header.",
 "C35": "Proved in full; C35_truncated_file_repeats_value shows the reading of a file that ends early.",
 "C36": "Proved under the stated conditions; each condition is shown to be necessary by a refutation.",
 "C37": "Proved in full.",
 "C38": "Proved for mpi off; with mpi 1 the explicit pipeline is replaced.",
 "C39": "Proved for every string.",
 "C40": "Proved in full.",
 "C41": "Proved for every sort, every abs not above the absolute value and every distance that dominates coordinate differences.",
 "C42": "Proved for radius comparisons off the boundary; C42_boundary_violated refutes the boundary case.",
 "C44": "Proved in full, with NaN centroids.",
 "C45": "Violated for every input; the other points are labelled.",
 "C46": "Proved in full.",
 "C47": "Proved in full.",
 "C48": "Proved in full.",
 "C51": "Proved in full, whatever the statistics update does.",
 "C52": "Labels are shifted and counts are wrong (refuted); shape and weights are right (partial). clear itself is undefined behaviour under the strict reading (C52_clear_undefined).",
 "C53": "Array in full; tree with its own meaning; common meaning refuted.",
 "C54": "Proved in full.",
 "C55": "PARTIAL: refuted for complexes without an edge layer; C25 shows that all others give a result.",
 "C56": "PARTIAL: proved for complexes without empty layers; an empty top layer is read out of range (C56_empty_layer_violated).",
 "C57": "PARTIAL: proved when the complex has a layer of dimension dim; otherwise it is read out of range (C57_missing_layer_violated).",
 "C58": "Proved when row indices are below the number of columns; refuted otherwise.",
 "C59": "Refuted for every complex with an edge; isolated points work.",
 "C60": "Proved in full.",
 "C61": "Stated about the whole program: proved without upscaling (standard modes: one run; reduced: one run per partition and one for the centroids); refuted with upscaling and with mpi. The preprocessing step is stated for every name.",
 "C62": "Proved for known types; refuted for all others.",
 "C63": "Proved in full.",
 "C64": "Proved in full.",
 "C65": "Proved when the initial clustering finds a cluster, and in general when the stream is long enough for one check of the groups; refuted otherwise.",
 "C68": "Proved in full for windows of distinct positions with rows of equal length.",
 "C70": "PARTIAL: proved for the reading of the end iterator as 'not a pivot' and for the runs that return when that read is undefined; whether it happens is C29. The tree's uninitialised members are taken to be zero. It happens on every cloud whose widest pairs below epsilon lie in a triangle, with dimensions 2 or more (C70_past_end_violated), and never on a cloud without triangles (C70_no_triangle).",
 "C71": "PARTIAL: as C70; with dimensions = 0 this complex has no edges and the run reads out of range. Past-the-end reads as for C70 (C71_past_end_violated, C71_no_triangle).",
 "C72": "Proved in full for two neighbouring layers of any simplicial complex; checkFace is the vector version the pipe uses.",
 "C73": "PARTIAL: the property is refuted for every input with dimensions >= 1; there is no input on which intervals are written.",
 "C74": "PARTIAL: proved for lines of at least two characters (spaces not counted); refuted for shorter lines, which are skipped.",
 "C75": "Proved in full over the reals; neighbourhoods may contain or omit points at distance exactly epsilon (the kd-tree search leaves the boundary open, see C42).",
 "C76": "PARTIAL: proved whenever at most three layers arise (maxDim <= 2 or no four points mutually close) and refuted in every other case.",
 "C77": "PARTIAL: the exact behaviour is proved (every later query repeats the first answer) and refutes the property.",
 "C78": "PARTIAL: the exact answer is proved for every held simplex and for every absent one whose first vertex is a point; it refutes the property.",
 "C79": "PARTIAL: the exact result of getFaces is proved and refutes the property; the run is shown to leave its table whenever there are two edges.",
 "C80": "PARTIAL: simplexCount is proved; vertexCount is refuted for every complex with an edge.",
 "C81": "Proved in full; the code that reduces a layer is an arbitrary function, because it is never reached.",
 "C82": "Proved in full for Rips complexes; the specification of the result is Spec.collapsed, and C82_edges_left says in every dimension which edges stay: those that are not the longest side of a triangle.",
 "C83": "Proved in full for Rips complexes.",
 "C84": "PARTIAL: refuted by a square; proved instead: no loop is ever filled and no cavity remains after a collapse.",
 "C85": "Proved from command line and file text to the files written, for dimensions up to 1 as the code stands (C85_standard_program_default), and for every dimension with the past-the-end read as no pivot (_partial), or else undefined; with no close pair the program reads past the end (violated). With a simplexArrayList and dimension 0 the program is undefined on every input (violated). With three or more rows, all closer than epsilon to each other, and dimensions 2 or more, the program always reads past the end of a list (C85_past_end_violated, C85_past_end_array_violated); with no three rows close to each other it is correct as written for every number of dimensions (C85_no_triangle). C85_no_triangle_array says the same of a simplexArrayList.",
 "C86": "Proved for the array complex with the explicit default pipeline: barcodes, file left at the end, and exactly when the program ends; without a preprocessor the program ends (_partial: past-the-end read as no pivot).",
 "C87": "PARTIAL: refuted: undefined on every command line of this mode as the standard has it; a wrong second barcode if the write to freed memory is harmless; an out-of-range read of the table of earlier runs with the array complex. What holds is C86.",
 "C88": "Stated about the barcodes the program writes. Refuted for the last row; proved for all other rows when the maximal radius is positive.",
 "C89": "PARTIAL: refuted: no interval is ever written, and more than 200 rows with a close pair are undefined. The exact condition under which the program ends is proved; short streams end. The statistics part of updateStats and the library of the sub-pipelines are arbitrary.",
 "C90": "PARTIAL: refuted: only the header is ever written; proved: the program ends for all rows of equal positive length.",
 "C91": "PARTIAL: refuted for every input with two points closer than epsilon, on simplexTree and simplexArrayList, and on indSimplexTree (two close pairs, or one with twist); C91_isolated_points_partial and C91_array_isolated_points_partial give the intervals otherwise. The header line that the stage writes into its text is not modelled.",
 "C92": "Proved for dimensions up to 1 as the code stands (_default); for at most triangles, or no four mutually close points, with the past-the-end read as no pivot (_partial) or else undefined. Refuted for four close points and dimensions of at least 3, and without a close pair. With three or more rows, all closer than epsilon to each other, and dimensions 2 or more, the program always leaves defined behaviour (C92_past_end_violated); with no three rows closer than epsilon to each other it is correct as written for every number of dimensions (C92_no_triangle). Collapse off.",
 "C93": "PARTIAL: refuted: with an indSimplexTree no run of mode reduced with two clouds has a defined end. What holds is C86 for simplexArrayList.",
 "C94": "PARTIAL: proved: dimension-0 lines, and the whole barcode with dimensions at most 1 (also for the whole program). Refuted from dimension 1 on by five plane points; what remains there is the number of bars at every scale (noPivot reading of C29). simplexTree; the dimension-0 lines, the number of bars and the refutation also for simplexArrayList.",
 "C95": "Rows with the same mutual distances (isometries, translations) give the same run for simplexTree and simplexArrayList; scaling points and epsilon by c scales the barcode for both complexes, for a sort that looks only at the order (insertion sort is shown to be one).",
 "C96": "PARTIAL: proved for every filtered complex when the positions of the facets are found; agrees with the plain elimination (C57). Refuted for the indexed tree, whose getFaces returns 0 or 1 in place of positions: at most two pivots per dimension, and the run leaves its table as soon as there is an edge.",
 "C97": "PARTIAL: proved for simplexTree and simplexArrayList when the program ends; the last row is in no class (C45), the end iterator is not read as libstdc++ does (C29), a run with an empty class (NaN centroid) is not followed. Refuted: fewer different rows than clusters, and one cluster.",
 "C98": "PARTIAL: proved for at least 1000 rows with a dense row among the first 1000 (C65, C66) and a simplexTree or a simplexArrayList; whether the program ends is decided by the distances of the centers. Refuted below 1000 rows.",
 "C99": "The whole barcode is cut exactly, for runs that return, when the sort is stable (entries of equal weight keep their order); std::sort is not required to be stable. The components are cut exactly whatever the sort. As the code pairs a column with its oldest row (C28), the pairs in dimension 1 and above depend on the order of equal weights. The same for a simplexArrayList (edges of length equal to epsilon are kept, so bars ending at the smaller bound are kept), for runs and for the whole program. Refuted for a sort that is stable only on lists of at most 16 entries: twelve plane points, a bar that is written with epsilon 10 and not with epsilon 12 (C99_unstable_sort_violated, both complexes).",
 "C100": "For runs that return, whatever the sort; the dereference of the end iterator (C29) is read as \"not a pivot\" or does not happen. For simplexTree and for simplexArrayList (dimensions at least 1, collapse off).",
 "C101": "For runs that return; simplexTree, indSimplexTree without collapse, and simplexArrayList with dimensions at least 1, without collapse (C101_array_statistics_partial) and with (C101_collapse_statistics_partial). Times, decimal rendering and sizeof are parameters. Refuted for the row of a preprocessor: it has two cells under a header of six; and on indSimplexTree, where the number of vertices is larger than the number of points as soon as two points are close.",
 "C102": "The whole statement without debug, for every command line. With debug: the four default stages without collapse, in every mode; with collapse too in the standard modes with simplexTree and simplexArrayList (C102_standard_partial); with collapse on an indSimplexTree it is refuted (debug switches the collapse off). Missing: debug with the other pipelines, whose stages the program model takes as arbitrary.",
 "C103": "For every command line, the unmodelled stages writing into output/ only. Refuted: a run with output name g.csv appends its log to the barcode file of a run with output name g.",
 "C104": "Proved for simplexTree, indSimplexTree (no collapse) and simplexArrayList (also with collapse: C104_collapse_files_partial) with distinct output files that can be opened. Refuted: on simplexTree and indSimplexTree the file of the neighbourhood graph lists vertices, triangles and all larger simplices too.",
 "C105": "For runs that return, with an output name outside of the directory output; simplexTree, indSimplexTree without collapse, and simplexArrayList with dimensions at least 1 and without collapse. Times, messages and decimal rendering are parameters. The texts of the messages are taken to depend on the arguments only, although with debug a few of them name sizes.",
 "C106": "The whole statement, for all matrices with non-negative entries and all numbers of points; the field parent holds the first child, as in the code. C106_observables carries the fields of the object over to the model without pointers, so that C17-C20 apply to both.",
 "C107": "PARTIAL: refuted for every tree: clear writes to a freed node; if that is harmless it frees the points only, so that one cell per simplex less one stays allocated. Proved: no cell is freed twice; exact numbers of cells before and after.",
 "C108": "PARTIAL: proved: row of the matrix removed, simplices whose smallest vertex is key cut off, others kept, when key is not the first vertex. Refuted: other simplices with the vertex, the columns, lists and counters stay; for the first vertex head is left pointing to freed memory.",
 "C109": "PARTIAL: proved: the dimension-0 bars, in the sup norm of the sorted ends, for both complexes and for the whole program (simplexTree). Refuted from dimension 1 on already for delta = 0 (C109_loops_violated, from C94).",
 "C110": "PARTIAL: proved: the dimension-0 lines, for both complexes and all places of the copy. Refuted from dimension 1 on for a copy at the front (C110_loops_violated, and C110_loops_array_violated for simplexArrayList; the witness uses a stable sort).",
 "C111": "PARTIAL: proved: dimension 0, for both complexes, except that of the two bars up to epsilon only one is written (as in C23); the whole barcode with dimensions at most 1; the whole barcode in all dimensions, for both complexes, with a stable sort and the noPivot reading of C29 (also for the whole program). Refuted for a sort that is stable only on lists of at most 16 entries: two clouds of five and eight points (C111_unstable_sort_violated, both complexes).",
 "C112": "PARTIAL: proved for all complexes with at most triangles (beyond that insertion itself fails, C76): the collapse ends, only erases, keeps points, weights, order and counts, erases at least one triangle, deletes no node twice and none that is still listed. Refuted: the tree keeps pointers to deleted nodes.",
 "C113": "PARTIAL: refuted: for every three points with d01 < d12 < d02 the components change; four points leave a triangle without a side; five points leave a torn complex; the barcode of the program changes. Proved: a query before the collapse hides it.",
 "C114": "PARTIAL: proved for windows of at least 20 rows and for a simplexTree with an evaluator, over every history. Refuted: a smaller window is read past its end, a simplexTree without an evaluator calls an unset pointer, the other complex types refuse every row.",
 "C115": "PARTIAL: refuted: kMeans reads a variable without a value on every input; ballKmeans is defined only for one row, and then returns nothing.",
 "C116": "PARTIAL: proved: the run with collapse ends and prints exactly the dimension-0 lines of the run without, also for the whole program; refuted from dimension 1 on: no line of dimension 1 or more is ever printed (C116_loops_violated gives five plane points with two loops).",
 "C117": "PARTIAL: proved: simplexArrayList answers vectors exactly (sets given to indSimplexTree are in C78); refuted: every other combination answers no for every simplex held, after any history of insertions and queries; getd0Pairs is always empty; search never returns for a simplex without point 0.",
 "C118": "PARTIAL: refuted: when the program ends after at least 50 rows, its complex and counts are exactly those of the first 50 rows, whatever came after; below 50 rows the complex is empty. It holds for streams of exactly 50 rows.",
 "C119": "PARTIAL: proved for runs that end: number, names and contents of the files; each shows the window of that moment. Refuted: streams of at most 200 rows leave no file; the rows after the 200th are in no file.",
 "C120": "PARTIAL: refuted for every input with dimensions at least 1; C120_no_interval_violated covers the reading in which the entry past the end is readable.",
 "C121": "PARTIAL: The claim is false (C121_same_text_violated, C121_console_violated): what is printed is determined by the command line and the numbers of points, coordinates and simplices. Proved instead: exactly what is printed, for the three complex types without preprocessor (array and indexed type without collapse, indexed type with debug 0). The messages and the rendering of numbers are parameters; the lines before the input is read are those of C139.",
 "C122": "PARTIAL: Proved: the table printed in mode reduced (default pipeline given explicitly, simplexArrayList) is the tables of the runs on the partitions and on the centroids, and with upscaling the counts are those of the labels. The part about row numbers is false (C122_indices_violated): the points are named by their places in the partition.",
 "C123": "PARTIAL: Proved for the stages (C123_stage_messages). False for the complexes, which assign the number to a string (C123_complex_messages_violated): with debug off the collapse of a simplexArrayList writes two lines (C123_collapse_log_violated); and a value such as 'true' switches the lines on and the files off (C123_files_and_messages_violated).",
 "C124": "PARTIAL: Proved for all histories except layer 0 of getDimEdges, clear and the empty vector (C124_empty_answers_partial); these three fail on an empty complex (C124_empty_violated).",
 "C125": "PARTIAL: Proved for every non-empty matrix, for insertions that return (C125_points_kept_partial). Without a matrix the two trees silently drop every row and a simplexArrayList reads out of range (C125_no_matrix_violated).",
 "C126": "PARTIAL: Proved for files, statistics rows' names, barcode, tables, data and failures (C126_uninitialised_count_partial, for whole programs in every mode; C126_standard_program_partial joins it with C85). The sizes that the trees report are wrong by the initial content (C126_count_violated). The pointer head, which the constructors do not set either, is taken to be null.",
 "C127": "PARTIAL: Values that are not negative: C127_not_negative (the program with an int is the program of the other properties). Negative values on simplexTree: the program ends with the barcode of 0 (C127_tree_barcode), but stores every set of close points (C127_tree_size_violated), 2^n - 1 of them when all points are close (C127_tree_explosion_violated). On indSimplexTree the barcode is that of 0 as long as no four points are close (C127_indexed_barcode_partial), otherwise the program writes past the end of a vector (C127_indexed_violated). On simplexArrayList it fails as with 0 (C127_array_violated).",
 "C128": "PARTIAL: Positive numbers, at most as many as there are distinct rows: C128_returns_clusters (with C128_positive), and without iterations C128_no_iterations. Violated for negative numbers (C128_negative_violated), for 0 (C128_zero_violated) and for more clusters than distinct rows (C63_too_few_rows); for whole programs C128_program_violated. streamingKmeans does not read the option at all (C49).",
 "C129": "C129_unread_options (no preprocessor), C129_unread_options_preprocessor, C129_unknown_names, C129_order. The barcode and statistics files are compared; with debug the log and the debug files differ (C102, C123). Preprocessors are assumed to read only options other than debug.",
 "C130": "PARTIAL: C130_boundary_partial says what the numbers are. Violated: C130_violated (a recorded number that is no point) and C130_reduced_violated (mode reduced reads past its labels on four points in a square). C130_boundary_partial assumes that exactly the negative simplices are skipped (SkipsNegatives), which always holds in the intended reading.",
 "C131": "The rows are related to an increasing list of numbers by a bijection that preserves distances (Spec.OnLine; onLine_column: a file with one number per row, in any order). Proved for the whole program with a simplexTree: with dimensions at most 1 (the default) as the code stands; for every number of dimensions under the reading that a lookup past the end finds no pivot (_partial), or, as written, with the past-the-end read as the only other outcome (_or_undefined). Also for simplexArrayList, where gaps equal to epsilon are listed too: with the option collapse as the code stands (_collapse), without it under the same reading; and for indSimplexTree with at most 2 dimensions. When no gap is shorter than epsilon the program reads outside of a list (_violated).",
 "C132": "Proved for the whole program with a simplexTree: with dimensions at most 1 (the default) as the code stands; for every number of dimensions under the reading that a lookup past the end finds no pivot (_partial), or, as written, with the past-the-end read as the only other outcome (_or_undefined). For simplexArrayList the radius may be equal to epsilon. The condition cannot be dropped: a loop that is still open at epsilon is not written at all (C132_open_loop_violated, the corners of a square).",
 "C133": "PARTIAL: Partial for the same reason as C85: with dimensions of at least 2 the code reads past the end of a list of pivots (C85_past_end_violated), and the program theorems take that read to find no pivot, or leave it as the only other outcome (C133_few_program_or_undefined). With that: on a simplexTree, a simplexArrayList and (small cases) an indSimplexTree, no line of dimension k with fewer than 2k+2 rows, and the same file for all dimensions from half the number of rows on. The bound is sharp (the corners of a square). The lemma behind it, ripsBetti_few, holds for every distance.",
 "C134": "PARTIAL: proved for every cloud and all s ≤ t that there are at most as many bars across s and t as classes that live from s to t, and that each bar is a class that lives as long (also a field of DescribesRips, so it holds wherever C70, C71, C85, C88, C91, C92 and the preprocessors conclude it); the converse is false: C134_split_bar_violated, five points of the plane whose one loop [√5, 3) is written as [√5, √8) and [√8, 3). Assumes, from dimension 2 on, that reading past the end finds no pivot (or that the run returns). Program theorems for all three complex types.",
 "C135": "PARTIAL: proved as stated for every filtered complex and every run that returns, as the code is written (the only other outcome is the read past the end of C05) and when the read finds no pivot; with libstdc++'s read, under the condition of C28 on skipped rows. The whole-program theorems assume that the read finds no pivot. Program theorems for all three complex types (indSimplexTree: dimensions at most 2 or no four points pairwise close).",
 "C136": "PARTIAL: proved for every such cloud as the code is written (the only other outcome of the program is the read past the end of C05); the theorems without that alternative assume that the read past the end finds no pivot. The condition cannot be weakened to bars that touch: C136_touching_bars_violated. Program theorems for all three complex types (indSimplexTree: dimensions at most 2 or no four points pairwise close).",
 "C137": "PARTIAL: All of the statement except that the pipeline given as the single name slidingwindow is excluded (it is run without reading the input), and that the texts of streamingKmeans and of the stages outside the default pipeline (other than persistencePairs without debugging) are parameters of the model. The settings are those of C139. C137_quiet lists the stages that print nothing of their own.",
 "C138": "PARTIAL: all of the statement for every state and every list of questions, except find(set) of indSimplexTree, whose answer before the first listing is read from memory that has not been written (C138_find_violated); find(vector) is proved unchanged for all types.",
 "C139": "Proved in full for command lines of names and values (a last name without a value is the null conversion of C37). The table is unique (C139_table_unique). The theorem also gives the lines the constructor of the packet prints after the table."
}