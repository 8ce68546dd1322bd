{"id": "C01", "title": "Numerical split routing", "statement": "A prediction that meets a numerical split goes left exactly when LightGBM's documented rule says so: with missing type None a NaN counts as 0; with missing type Zero a value in (-1e-35, 1e-35] (and a NaN, which counts as 0) takes the default direction; with missing type NaN a NaN takes the default direction; every other value goes left iff value <= threshold under IEEE-754 comparison.", "quantifier": "all split flags, all float64 thresholds, all float64 feature values including NaN, infinities and signed zeros", "why_tests_cant": "The space of (flags, threshold, value) triples is 2^136; boundary behaviour sits at single bit patterns.", "anchors": ["lgtree.go:lgTree.numericalDecision", "lgtree.go:isZero"]}
{"id": "C02", "title": "Categorical split routing", "statement": "A prediction that meets a categorical split goes left exactly when the truncated, non-negative category is a member of the split's category set, whichever of the three stored encodings (one category, one 32-bit word, long bitset) was chosen; negative categories go right; NaN goes right under missing type NaN.", "quantifier": "all category sets (any number of 32-bit words), all representable categories, all three encodings", "why_tests_cant": "Category sets have unbounded length and three encodings chosen by population count; tests only sample a few.", "anchors": ["lgtree.go:lgTree.categoricalDecision", "lgtree.go:lgTree.findInBitset", "util/util.go:FindInBitsetUint32", "lgensemble_io.go:lgTreeFromReader"]}
{"id": "C03", "title": "LightGBM text tree is evaluated as written", "statement": "For every tree block of a LightGBM text model whose child arrays describe a tree, the loaded tree returns on every feature vector the leaf value found by walking the file's own left_child/right_child arrays with LightGBM's split rule.", "quantifier": "all well-formed trees of any size and shape, all feature vectors, numerical and categorical splits", "why_tests_cant": "The loader renumbers nodes with an explicit-stack traversal and implicit right children; correctness for every tree shape needs induction over trees.", "anchors": ["lgensemble_io.go:lgTreeFromReader", "lgtree.go:lgTree.predict"]}
{"id": "C04", "title": "LightGBM text leaf numbers are preserved", "statement": "For every loaded LightGBM text tree, the leaf index reported for a feature vector is the leaf number that the file's child arrays give (the bitwise complement of the negative child reference).", "quantifier": "all well-formed trees, all feature vectors", "why_tests_cant": "Same as C03; leaf numbering must survive renumbering of internal nodes for every shape.", "anchors": ["lgensemble_io.go:lgTreeFromReader", "lgtree.go:lgTree.predict"]}
{"id": "C05", "title": "LightGBM JSON tree is evaluated as written", "statement": "For every tree object of a LightGBM JSON dump whose num_leaves equals its actual number of leaves and whose num_cat is positive if it has categorical splits, the loaded tree returns on every feature vector the leaf_value found by walking the nested left_child/right_child objects.", "quantifier": "all JSON trees of any depth, all feature vectors", "why_tests_cant": "The loader flattens the tree through raw pointers into a slice that must not be reallocated; only an all-shapes argument shows every pointer is still live.", "anchors": ["lgensemble_io.go:unmarshalTree", "lgensemble_io.go:unmarshalNode"]}
{"id": "C06", "title": "XGBoost tree is evaluated as written", "statement": "For every XGBoost tree whose node array describes a tree, the loaded tree returns on every feature vector the leaf value XGBoost's own walk finds: left iff value < split condition, missing values to the default child.", "quantifier": "all XGBoost trees, all feature vectors", "why_tests_cant": "A single feature value equal to a split condition is enough to differ; random tests do not hit equality.", "anchors": ["xgensemble_io.go:xgTreeFromTreeModel", "lgtree.go:lgTree.numericalDecision"]}
{"id": "C07", "title": "scikit-learn tree is evaluated as written", "statement": "For every fitted scikit-learn regression tree whose node array describes a tree, the loaded tree returns on every NaN-free feature vector value*learning_rate+base of the leaf found by walking the node array with `<=`.", "quantifier": "all scikit-learn trees, all feature vectors, all learning rates and priors", "why_tests_cant": "Same traversal argument as C03, plus leaf renumbering in creation order.", "anchors": ["skensemble_io.go:lgTreeFromSklearnDecisionTreeRegressor"]}
{"id": "C08", "title": "Prediction terminates", "statement": "Evaluating a tree obtained from a well-formed model file always terminates, on every feature vector.", "quantifier": "all well-formed trees, all feature vectors", "why_tests_cant": "Non-termination cannot be observed by a test; it needs a ranking argument.", "anchors": ["lgtree.go:lgTree.predict"]}
{"id": "C09", "title": "No out-of-range access while predicting", "statement": "If every split feature of a loaded model is below NFeatures() and the supplied row has at least NFeatures() values, then prediction never indexes outside a slice (no runtime panic).", "quantifier": "all well-formed models, all feature vectors of sufficient length", "why_tests_cant": "A single bad index anywhere in any tree suffices; tests cannot enumerate models.", "anchors": ["lgtree.go:lgTree.predict", "lgensemble.go:lgEnsemble.NFeatures", "xgensemble.go:xgEnsemble.NFeatures"]}
{"id": "C10", "title": "Raw prediction is the ordered sum over the first estimators", "statement": "The raw prediction of a tree model for output group k is, in floating point and in this order, the start value (0 for LightGBM/sklearn, base score for XGBoost) plus the contribution of estimators 0..n-1 of group k, each contribution being the tree value times its weight (1, 1/n for random forests, the drop weight for DART).", "quantifier": "all ensembles, any number of estimators and groups, all feature vectors", "why_tests_cant": "Unbounded numbers of trees and groups; the tree index arithmetic must be right for all of them.", "anchors": ["lgensemble.go:lgEnsemble.predictInner", "xgensemble.go:xgEnsemble.predictInner"]}
{"id": "C11", "title": "nEstimators is normalised", "statement": "Passing nEstimators <= 0 or >= NEstimators() uses all estimators; any other value uses exactly that many; gblinear ignores the argument.", "quantifier": "all integers, all ensembles", "why_tests_cant": "Quantifies over all integers and ensembles.", "anchors": ["lgensemble.go:adjustNEstimators", "xgensemble.go:adjustNEstimators", "xgblinear.go:adjustNEstimators", "util/util.go:MinInt"]}
{"id": "C12", "title": "Predict writes exactly its output window", "statement": "A successful Predict overwrites exactly the first NOutputGroups() elements of predictions and leaves every other element unchanged; a Predict that returns an error changes nothing.", "quantifier": "all ensembles, all output slices and prior contents", "why_tests_cant": "Quantifies over the prior contents of memory the call must not touch.", "anchors": ["leaves.go:Ensemble.Predict", "leaves.go:Ensemble.predictInnerAndTransform"]}
{"id": "C13", "title": "PredictSingle agrees with Predict", "statement": "PredictSingle returns Predict's single output when the model has one output group and the row is long enough, and quietly returns 0.0 when the model has several output groups or the row is too short.", "quantifier": "all ensembles, rows and nEstimators", "why_tests_cant": "Equality of two code paths over all models.", "anchors": ["leaves.go:Ensemble.PredictSingle", "leaves.go:Ensemble.Predict"]}
{"id": "C14", "title": "PredictDense is row-wise Predict", "statement": "A successful PredictDense stores in row i's window exactly what Predict returns for row i of the matrix, for every number of threads, and leaves the rest of predictions unchanged.", "quantifier": "all matrices, all row counts, all thread counts, all schedules", "why_tests_cant": "Any number of rows and schedules.", "anchors": ["leaves.go:Ensemble.PredictDense"]}
{"id": "C15", "title": "PredictCSR is Predict on the densified row", "statement": "A successful PredictCSR stores in row i's window exactly what Predict returns for the dense row of NFeatures() values in which listed columns hold their (last listed) value, unlisted columns hold 0 (LightGBM, sklearn, gblinear) or NaN (XGBoost trees), and columns >= NFeatures() are ignored. (There must be room for one such row, see C102.)", "quantifier": "all CSR matrices, all thread counts, all schedules", "why_tests_cant": "The row buffer is reused between rows; leakage from an earlier row depends on the whole history.", "anchors": ["leaves.go:Ensemble.PredictCSR", "leaves.go:Ensemble.predictCSRInner", "lgensemble.go:resetFVals", "xgensemble.go:resetFVals"]}
{"id": "C16", "title": "Parallel dense prediction equals sequential prediction under every schedule", "statement": "Whenever the multi-threaded PredictDense returns, predictions holds exactly the result of the single-threaded loop, for every interleaving of the workers' individual loads and stores and every task hand-out order.", "quantifier": "all interleavings, all worker counts, all inputs", "why_tests_cant": "Interleavings are unbounded and not controllable from a test.", "anchors": ["leaves.go:Ensemble.PredictDense"]}
{"id": "C17", "title": "Parallel CSR prediction equals sequential prediction under every schedule", "statement": "Whenever the multi-threaded PredictCSR returns, predictions holds exactly the result of the single-threaded loop, for every interleaving.", "quantifier": "all interleavings, all worker counts, all inputs", "why_tests_cant": "As C16, with a worker-local row buffer that persists across tasks.", "anchors": ["leaves.go:Ensemble.PredictCSR", "leaves.go:Ensemble.predictCSRInner"]}
{"id": "C18", "title": "Workers never race", "statement": "In no reachable state of a parallel prediction do two workers have a next access to the same element of predictions.", "quantifier": "all reachable states of all schedules", "why_tests_cant": "Absence of races is a statement about all schedules.", "anchors": ["leaves.go:Ensemble.PredictDense", "leaves.go:Ensemble.PredictCSR"]}
{"id": "C19", "title": "Parallel prediction neither deadlocks nor runs forever", "statement": "If the sequential computation succeeds then in every reachable non-final state of the parallel one some step is enabled, and every execution is finite.", "quantifier": "all reachable states, all schedules", "why_tests_cant": "Deadlock freedom and termination over all schedules.", "anchors": ["leaves.go:Ensemble.PredictDense", "leaves.go:Ensemble.PredictCSR"]}
{"id": "C20", "title": "Dense and CSR prediction agree", "statement": "For a model whose rows are given densely with at least NFeatures() columns, PredictCSR on CSRMatFromArray of the matrix gives the same predictions as PredictDense on the matrix.", "quantifier": "all matrices, all ensembles", "why_tests_cant": "Relates two APIs over all matrices.", "anchors": ["leaves.go:Ensemble.PredictCSR", "leaves.go:Ensemble.PredictDense", "mat/mat.go:CSRMatFromArray"]}
{"id": "C21", "title": "Predictions do not depend on the output buffer's previous contents", "statement": "The values a successful Predict writes do not depend on what the predictions slice held before.", "quantifier": "all ensembles, all pairs of prior buffer contents", "why_tests_cant": "A two-run (non-interference) property.", "anchors": ["leaves.go:Ensemble.Predict", "xgblinear.go:predictLeafIndicesInner"]}
{"id": "C22", "title": "Leaf-index predictions are laid out and bounded as documented", "statement": "The leaf prediction at position groupID*NEstimators()+estimatorID is the leaf index of tree (estimatorID, groupID), represented exactly, and is below NLeaves() at the same position.", "quantifier": "all ensembles built from well-formed trees, all feature vectors", "why_tests_cant": "Layout arithmetic for all group and estimator counts.", "anchors": ["lgensemble.go:predictLeafIndicesInner", "xgensemble.go:predictLeafIndicesInner"]}
{"id": "C23", "title": "NLeaves layout", "statement": "NLeaves() has NRawOutputGroups()*NEstimators() entries and entry groupID*NEstimators()+estimatorID is the number of leaves of that tree.", "quantifier": "all ensembles of well-formed trees", "why_tests_cant": "Index arithmetic for all sizes; leaf count vs node count needs induction on trees.", "anchors": ["lgensemble.go:NLeaves", "xgensemble.go:NLeaves", "lgtree.go:nLeaves"]}
{"id": "C24", "title": "Raw and leaf views are pure and idempotent", "statement": "EnsembleWithRawPredictions and EnsembleWithLeafPredictions may be nested in any order and depth: the outermost view alone decides the output, all metadata except NOutputGroups/Transformation is unchanged, and the viewed ensemble keeps predicting as before.", "quantifier": "all nestings of views, all ensembles", "why_tests_cant": "Unbounded nesting depth.", "anchors": ["leaves.go:EnsembleWithRawPredictions", "leaves.go:EnsembleWithLeafPredictions"]}
{"id": "C25", "title": "Logistic output is a probability and order preserving", "statement": "The logistic transformation maps every non-NaN raw score into [0,1] and never reverses the order of two raw scores (in float64 arithmetic, given a monotone non-negative exp).", "quantifier": "all float64 raw scores", "why_tests_cant": "2^64 scores (2^128 pairs), with rounding.", "anchors": ["util/util.go:Sigmoid", "transformation/logistic.go"]}
{"id": "C26", "title": "Softmax output is a distribution", "statement": "The softmax transformation writes one number in [0,1] per class, preserves the order of the classes, and the numbers add up to 1 apart from rounding errors ((N+4)*2^-52 for N classes).", "quantifier": "all raw score vectors of any length", "why_tests_cant": "Any number of classes, all float64 values; overflow behaviour appears only at extremes.", "anchors": ["util/util.go:SoftmaxFloat64Slice", "transformation/softmax.go"]}
{"id": "C27", "title": "Transformation names identify the transformation", "statement": "Transformation().Name() and Transformation().Type().Name() return the name of the transformation in use, for every transformation a loader can install.", "quantifier": "all transformations", "why_tests_cant": "Small domain, but a panic hides in one element; stated for completeness of the table.", "anchors": ["transformation/transformation.go:TransformType.Name", "transformation/exponential.go:Name"]}
{"id": "C28", "title": "A transformation never fails silently", "statement": "When Predict returns nil, the transformation was applied: no successful Predict leaves the output window untouched because the transformation rejected the raw vector.", "quantifier": "all loadable models", "why_tests_cant": "Depends on loader-accepted combinations of objective and class count.", "anchors": ["leaves.go:predictInnerAndTransform", "transformation/logistic.go:Transform"]}
{"id": "C29", "title": "Leaf prediction demands all estimators", "statement": "Leaf-index prediction with 0 < nEstimators < NEstimators() is rejected with an error and touches nothing, any other nEstimators is accepted.", "quantifier": "all integers nEstimators, all ensembles", "why_tests_cant": "All integers and ensembles.", "anchors": ["leaves.go:checkNEstimators"]}
{"id": "C30", "title": "Random forests average over the estimators used", "statement": "For a LightGBM random forest (average_output) the raw prediction with n estimators accumulates tree value times 1/n over the first n estimators, n being the number actually used rather than the number stored.", "quantifier": "all forests, all n", "why_tests_cant": "All forests and n.", "anchors": ["lgensemble.go:predictInner"]}
{"id": "C31", "title": "NumberOfSetBits counts bits", "statement": "util.NumberOfSetBits returns the number of one bits of the whole bitset.", "quantifier": "all slices of up to 2^27 32-bit words (beyond that the 32-bit counter wraps)", "why_tests_cant": "2^32 words and unbounded length; the bit trick must hold for every word.", "anchors": ["util/util.go:NumberOfSetBits"]}
{"id": "C32", "title": "FirstNonZeroBit finds the lowest bit", "statement": "util.FirstNonZeroBit returns the smallest bit position set in the bitset, and an error exactly when no bit is set.", "quantifier": "all slices of up to 2^27 32-bit words", "why_tests_cant": "The De Bruijn trick must hold for every word.", "anchors": ["util/util.go:FirstNonZeroBit", "util/util.go:multiplyDeBruijnBitPosition"]}
{"id": "C33", "title": "ConstructBitset represents its values", "statement": "util.ConstructBitset of non-negative values returns the shortest bitset in which exactly the given positions are set.", "quantifier": "all lists of non-negative integers", "why_tests_cant": "Unbounded values and lists.", "anchors": ["util/util.go:ConstructBitset"]}
{"id": "C34", "title": "Stored thresholds survive the float64 detour", "statement": "A category index or 32-bit category word stored in a node's float64 threshold is read back unchanged, for all 2^32 words; a leaf index stored as float64 identifies the leaf uniquely.", "quantifier": "all 32-bit words", "why_tests_cant": "2^32 values; needs exactness of conversion.", "anchors": ["lgtree.go:categoricalNode", "lgtree.go:categoricalDecision", "lgensemble.go:predictLeafIndicesInner"]}
{"id": "C35", "title": "Parameter blocks are read back as written", "statement": "ReadParamsUntilBlank on a block of key=value lines ended by a blank line returns exactly those bindings (last one wins for repeated keys; a line without '=' binds to the empty string) and leaves the reader right after the blank line.", "quantifier": "all blocks of any number of lines", "why_tests_cant": "Unbounded text.", "anchors": ["util/util.go:ReadParamsUntilBlank"]}
{"id": "C36", "title": "Malformed parameter lines are rejected", "statement": "ReadParamsUntilBlank fails when some line of the block contains two or more '=' signs, and always terminates.", "quantifier": "all texts", "why_tests_cant": "All texts.", "anchors": ["util/util.go:ReadParamsUntilBlank"]}
{"id": "C37", "title": "Numeric fields round-trip and out-of-range numbers are rejected", "statement": "Every non-empty int, int32 and uint32 slice printed in decimal and separated by single spaces is read back as the same slice; numbers outside the target range are rejected, never wrapped.", "quantifier": "all integer lists", "why_tests_cant": "All integers; wrap-around bugs appear only past 2^31/2^32/2^63.", "anchors": ["util/util.go:ToInt", "util/util.go:ToInt32Slice", "util/util.go:ToUint32Slice"]}
{"id": "C38", "title": "Loaded LightGBM ensembles are consistent", "statement": "Whenever LGEnsembleFromReader (or LGEnsembleFromJSON) succeeds, NRawOutputGroups() >= 1, NEstimators() >= 1 and the model holds exactly NRawOutputGroups()*NEstimators() trees; a text file whose num_class and num_tree_per_iteration differ is rejected.", "quantifier": "all input texts", "why_tests_cant": "All possible files, including malformed ones.", "anchors": ["lgensemble_io.go:LGEnsembleFromReader", "lgensemble_io.go:LGEnsembleFromJSON"]}
{"id": "C39", "title": "Whole LightGBM text files load as written", "statement": "For every well-formed LightGBM model, loading its text rendering succeeds and raw predictions equal the reference sum of the file's trees; bytes after the last tree are irrelevant.", "quantifier": "all models, all feature vectors", "why_tests_cant": "End-to-end over all models.", "anchors": ["lgensemble_io.go:LGEnsembleFromReader"]}
{"id": "C40", "title": "Objective selects the transformation", "statement": "With loadTransformation the installed transformation is determined by the objective field as documented, unknown objectives are rejected, and without loadTransformation (or for random forests) raw output is installed.", "quantifier": "all objective strings", "why_tests_cant": "All strings.", "anchors": ["lgensemble_io.go:LGEnsembleFromReader", "lgensemble_io.go:lgObjectiveParse"]}
{"id": "C41", "title": "XGBoost binary records round-trip", "statement": "Decoding the little-endian byte image of a header, tree, gbtree model or linear model yields the same record and consumes exactly its bytes.", "quantifier": "all records, all trailing bytes", "why_tests_cant": "All byte images.", "anchors": ["internal/xgbin/xgbin_io.go"]}
{"id": "C42", "title": "Truncated XGBoost files are rejected", "statement": "Reading any strict prefix of a record's byte image returns an error, never a shorter record.", "quantifier": "all records, all cut points", "why_tests_cant": "All cut points of all files.", "anchors": ["internal/xgbin/xgbin_io.go"]}
{"id": "C43", "title": "Loaded XGBoost ensembles are consistent", "statement": "Whenever XGEnsembleFromReader succeeds, NRawOutputGroups() >= 1 and every tree of the file takes part in prediction.", "quantifier": "all input files", "why_tests_cant": "All files, including hostile ones.", "anchors": ["xgensemble_io.go:XGEnsembleFromReader"]}
{"id": "C44", "title": "DART drop weights are applied per tree", "statement": "For a 'dart' model tree i contributes value*weight_i with weight_i the i-th stored drop weight; for 'gbtree' every weight is exactly 1 and contributes the tree value itself. A 'dart' file whose weights are all 1 loads and predicts exactly as the 'gbtree' file with the same trees; only the name differs.", "quantifier": "all models", "why_tests_cant": "All models; multiplication by 1.0 must be exact for all float64.", "anchors": ["xgensemble_io.go:XGEnsembleFromReader", "xgensemble.go:predictInner"]}
{"id": "C45", "title": "gblinear prediction", "statement": "The raw prediction of gblinear for group k is base_score + bias_k + sum over features of value*weight, accumulated in feature order with the weights laid out feature-major.", "quantifier": "all weight matrices, rows", "why_tests_cant": "Unbounded dimensions.", "anchors": ["xgblinear.go:predictInner", "xgblinear_io.go:XGBLinearFromReader"]}
{"id": "C46", "title": "CSRMatFromArray represents the array", "statement": "CSRMatFromArray gives a matrix with the requested rows in which entry (i,j) is values[i*cols+j], with non-decreasing row pointers that end at the number of stored values; wrong dimensions are rejected.", "quantifier": "all arrays and shapes", "why_tests_cant": "Unbounded shapes.", "anchors": ["mat/mat.go:CSRMatFromArray", "mat/mat.go:DenseMatFromArray"]}
{"id": "C47", "title": "Matrices read from text are structurally valid", "statement": "Every CSRMat returned by the libsvm reader has len(RowHeaders) = rows+1, non-decreasing row pointers from 0 to len(Values) = len(ColIndexes); every DenseMat returned by the libsvm or CSV reader has Rows*Cols = len(Values); at most `limit` rows are read when limit > 0.", "quantifier": "all texts, all limits", "why_tests_cant": "All input texts.", "anchors": ["mat/mat_io.go:readFromLibsvm", "mat/mat_io.go:readFromCsv", "mat/mat_io.go:recordsToDenseMat", "mat/mat_io.go:recordsToCSRMat"]}
{"id": "C48", "title": "libsvm text round-trips", "statement": "Reading the libsvm rendering of a sparse matrix returns that matrix.", "quantifier": "all sparse matrices", "why_tests_cant": "Unbounded matrices.", "anchors": ["mat/mat_io.go:CSRMatFromLibsvm", "mat/mat_io.go:DenseMatFromLibsvm"]}
{"id": "C49", "title": "CSV write/read round-trips", "statement": "Reading back with DenseMatFromCsv what WriteStr wrote (same delimiter) returns the same matrix, given that number formatting and parsing are inverse and the delimiter and whitespace do not occur in numbers.", "quantifier": "all consistent dense matrices", "why_tests_cant": "Unbounded matrices.", "anchors": ["mat/mat_io.go:WriteStr", "mat/mat_io.go:DenseMatFromCsv"]}
{"id": "C50", "title": "Absent CSV values become the default value", "statement": "A field left empty in a CSV row is read as defValue in its own column.", "quantifier": "all rows, all positions of the empty field, all delimiters", "why_tests_cant": "Position- and delimiter-dependent: fails only for leading/trailing empties with whitespace delimiters.", "anchors": ["mat/mat_io.go:readFromCsv"]}
{"id": "C51", "title": "Protocol-0 pickles decode to the pickled value", "statement": "Decoding the protocol-0 pickle of a value built from None, ints, floats, strings, tuples, lists, dicts, globals, REDUCE and BUILD yields that value.", "quantifier": "all values of any nesting", "why_tests_cant": "Unbounded nesting.", "anchors": ["internal/pickle/decoder.go:Decode", "internal/pickle/machine.go"]}
{"id": "C52", "title": "Unicode escapes are decoded correctly", "statement": "For every byte string, decoding its protocol-0 escaping of backslash and newline returns the string.", "quantifier": "all byte strings", "why_tests_cant": "Two overlapping substitutions applied in sequence; must hold for all strings.", "anchors": ["internal/pickle/decoder.go:decodeUnicode"]}
{"id": "C53", "title": "Memoised objects are shared", "statement": "An object fetched from the memo equals the memoised object in its current state (as Python's shared references demand), also when it was extended after being memoised.", "quantifier": "all pickle programs", "why_tests_cant": "Depends on aliasing of Go slices vs maps.", "anchors": ["internal/pickle/machine.go:getMemory", "internal/pickle/decoder.go:Decode"]}
{"id": "C54", "title": "scikit-learn node records are decoded field by field", "statement": "SklearnNodeFromBytes inverts the 56-byte little-endian layout, including negative child indices, and raw arrays are cut into exactly len/size consecutive chunks (other lengths are rejected).", "quantifier": "all node records, all arrays", "why_tests_cant": "All 2^448 records.", "anchors": ["internal/pickle/sklearn.go:SklearnNodeFromBytes", "internal/pickle/numpy.go:Iterate", "util/util.go:Float64FromBytes"]}
{"id": "C55", "title": "scikit-learn prior is added exactly once", "statement": "In a loaded GradientBoostingClassifier the prior is folded into the trees of the first estimator only, so that using n >= 1 estimators adds it exactly once per output group.", "quantifier": "all models, all n", "why_tests_cant": "All models and n.", "anchors": ["skensemble_io.go:SKEnsembleFromReader"]}
{"id": "C56", "title": "scikit-learn ensembles are consistent", "statement": "Whenever SKEnsembleFromReader succeeds, there are NEstimators*NRawOutputGroups trees with at least one estimator, and binary classification uses one output group.", "quantifier": "all inputs", "why_tests_cant": "All inputs.", "anchors": ["skensemble_io.go:SKEnsembleFromReader", "internal/pickle/sklearn.go:SklearnGradientBoosting.Build"]}
{"id": "C57", "title": "Malformed input yields an error, not a crash", "statement": "Loading any byte sequence returns a model or an error; it never panics.", "quantifier": "all byte sequences", "why_tests_cant": "All inputs.", "anchors": ["internal/xgbin/xgbin_io.go", "internal/pickle/machine.go", "lgensemble_io.go"]}
{"id": "C58", "title": "Single-feature models are usable", "statement": "A model trained on one feature reports NFeatures() = 1 and can be used with PredictCSR like any other.", "quantifier": "all single-feature models", "why_tests_cant": "A boundary of NFeatures that affects all rows.", "anchors": ["lgensemble.go:NFeatures", "xgensemble.go:NFeatures"]}
{"id": "C59", "title": "The output-length check protects every write", "statement": "If PredictDense/PredictCSR pass their length check, every row's window lies inside predictions.", "quantifier": "all shapes, including products that exceed the integer range", "why_tests_cant": "Overflow only at astronomically large shapes.", "anchors": ["leaves.go:PredictDense", "leaves.go:PredictCSR"]}
{"id": "C60", "title": "Every batch is handed out exactly once and the batches tile the rows", "statement": "The number of batches computed in floating point covers every row exactly once for every row count.", "quantifier": "all row counts up to 2^53", "why_tests_cant": "Float rounding in the batch count matters only at huge sizes; coverage for all sizes needs proof.", "anchors": ["leaves.go:PredictDense", "leaves.go:PredictCSR", "leaves.go:BatchSize"]}
{"id": "C61", "title": "Leaf indices identify leaves", "statement": "For every loaded tree with a split, the leaf indices reported for rows are 0..n-1 for the n leaves of the file's tree, a different one for each leaf, so that two rows get the same index exactly when they end in the same leaf.", "quantifier": "all trees, all rows", "why_tests_cant": "Numbering is produced by a traversal; tests check a few trees by value and would miss two leaves sharing an index.", "anchors": ["xgensemble_io.go:xgTreeFromTreeModel", "skensemble_io.go:lgTreeFromSklearnDecisionTreeRegressor", "lgtree.go:predict"]}
{"id": "C62", "title": "Whole XGBoost files predict as written", "statement": "A byte image of a gbtree, dart or gblinear model with N estimators in K groups loads; the loaded model reports K raw output groups and N estimators; and its prediction for every row is, per group, the base score plus the (weighted) values of the leaves that XGBoost's own walk over the file's nodes reaches, put through the objective's transformation if requested.", "quantifier": "all files, all rows, all numbers of estimators", "why_tests_cant": "End-to-end fidelity of the loader: tests compare a handful of files and rows within a tolerance.", "anchors": ["xgensemble_io.go:XGEnsembleFromReader", "xgensemble_io.go:XGBLinearFromReader", "xgensemble.go:predictInner", "xgblinear.go:predictInner"]}
{"id": "C63", "title": "Whole scikit-learn pickles predict as written", "statement": "Every protocol-0 pickle of a fitted GradientBoostingClassifier with N estimators loads; the loaded model reports N estimators and one raw output group per class (one for two classes); and its prediction for every row is, per group, the prior plus the sum of learning rate times the value of the leaf that scikit-learn's own walk over the pickled node arrays reaches (NaN read as 0).", "quantifier": "all pickles (any memoisation, byte order of float arrays and tree shape), all rows, all numbers of estimators", "why_tests_cant": "End-to-end fidelity of the decoder, the object parser and the tree conversion: tests compare a few pickles and rows within a tolerance.", "anchors": ["skensemble_io.go:SKEnsembleFromReader", "internal/pickle/machine.go", "internal/pickle/sklearn.go"]}
{"id": "C64", "title": "scikit-learn models report the number of features they were trained on", "statement": "NFeatures() of a loaded GradientBoostingClassifier is the number of features of its training data, so that rows that are too short are rejected with an error.", "quantifier": "all classifiers", "why_tests_cant": "Depends on a hyperparameter (max_features) that test models leave at its default.", "anchors": ["skensemble_io.go:SKEnsembleFromReader", "lgensemble.go:NFeatures", "leaves.go:Predict"]}
{"id": "C65", "title": "Loading always terminates", "statement": "Each loader (LightGBM text and JSON, XGBoost trees and linear, scikit-learn pickle) returns, with a model, an error or a crash, on every input; no input makes it loop forever.", "quantifier": "all byte sequences and JSON documents", "why_tests_cant": "A loop that fails to advance shows on one crafted input only.", "anchors": ["lgensemble_io.go:LGEnsembleFromReader", "lgensemble_io.go:LGEnsembleFromJSON", "xgensemble_io.go:XGEnsembleFromReader", "internal/pickle/machine.go:Decoder.Decode", "util/util.go:ReadParamsUntilBlank"]}
{"id": "C66", "title": "A model that loads can be evaluated", "statement": "If a loader returns a model without an error, Predict returns (a result or an error) for every row with NFeatures() values.", "quantifier": "all inputs that load, all rows", "why_tests_cant": "All inputs and rows; one unreachable-looking cycle in one file suffices to hang a server.", "anchors": ["lgensemble_io.go:lgTreeFromReader", "lgtree.go:lgTree.predict", "leaves.go:Predict"]}
{"id": "C67", "title": "Whole LightGBM JSON dumps predict as written", "statement": "A well-formed JSON dump with N estimators in K groups loads; the loaded model reports K raw output groups, N estimators and max_feature_idx+1 features; and its raw prediction for every row is, per group, the sum of the values of the leaf objects that LightGBM's own walk over the nested objects reaches.", "quantifier": "all documents, all rows, all numbers of estimators", "why_tests_cant": "End-to-end fidelity of the loader over all nestings; tests compare a few dumps.", "anchors": ["lgensemble_io.go:LGEnsembleFromJSON", "lgensemble_io.go:unmarshalTree", "lgensemble.go:predictInner"]}
{"id": "C68", "title": "Text and JSON forms of a LightGBM model agree", "statement": "Loading the text file and the JSON dump of the same LightGBM model gives models with the same number of outputs, features and estimators and with identical predictions for every row.", "quantifier": "all models, all rows, all numbers of estimators", "why_tests_cant": "Two independent loaders must agree on every model; tests compare one model's predictions within a tolerance.", "anchors": ["lgensemble_io.go:LGEnsembleFromReader", "lgensemble_io.go:LGEnsembleFromJSON"]}
{"id": "C69", "title": "JSON dumps are read by member name", "statement": "The outcome of loading a JSON dump does not depend, at any depth, on the order of an object's members, on members the loader does not know, or on members that a later member with the same key replaces, or on null in place of an absent plain value; member names are read as they are written in LightGBM's dumps.", "quantifier": "all JSON documents", "why_tests_cant": "Dumps of other LightGBM versions add and reorder members; tests contain dumps of one version.", "anchors": ["lgensemble_io.go:LGEnsembleFromJSON", "lgensemble_io.go:unmarshalNode", "lgensemble_io.go:lgTreeJSON"]}
{"id": "C70", "title": "The scikit-learn loader accepts only classifiers it understands", "statement": "If a pickle loads as a model with trees, it is a GradientBoostingClassifier whose trees, priors, learning rate and counts are stored under scikit-learn's names, with the expected classes, array types, byte orders and C order; pickles of other classes and arrays in Fortran order are refused with an error.", "quantifier": "all protocol-0 pickles", "why_tests_cant": "Rejection over all possible object graphs; tests load a few good files.", "anchors": ["skensemble_io.go:SKEnsembleFromReader", "internal/pickle/numpy.go:NumpyArrayRaw", "internal/pickle/sklearn.go"]}
{"id": "C71", "title": "Transformations check what they are given", "statement": "Transform of a transformation object returns nil exactly when the number of raw values is the one it expects, in which case it stores its result at the given position and nowhere else; otherwise it returns an error and stores nothing.", "quantifier": "all transformations, raw vectors, positions and buffers", "why_tests_cant": "All lengths and positions; tests use correct lengths.", "anchors": ["transformation/softmax.go:Transform", "transformation/logistic.go:Transform", "transformation/exponential.go:Transform", "transformation/raw.go:Transform"]}
{"id": "C72", "title": "Tolerance comparisons accept what is close and reject what is far", "statement": "The comparison helpers accept two numbers, or two slices of equal length, whose elements differ by at most the tolerance, and reject them when a difference exceeds it by more than rounding; slices of different lengths are rejected; the number of mismatches counts the rejected positions; NaN never passes for a number.", "quantifier": "all float64 values, slices and tolerances", "why_tests_cant": "Boundary cases, cancellation and special values over all floats; every comparison test in the repository relies on these helpers.", "anchors": ["util/util.go:AlmostEqualFloat64", "util/util.go:AlmostEqualFloat64Slices", "util/util.go:NumMismatchedFloat64Slices", "util/util.go:SigmoidFloat64SliceInplace"]}
{"id": "C73", "title": "Predictions depend only on the features the model tests", "statement": "Two rows that agree on every feature that some split of the model tests (every feature with a weight, for linear models) get the same outcome from Predict and PredictSingle: result, error or crash; values after those a successful prediction was made from, and columns appended to a dense matrix, change nothing.", "quantifier": "all models, all pairs of rows and matrices, all numbers of estimators and threads", "why_tests_cant": "Independence of all values of all other features; tests use rows of one data set.", "anchors": ["leaves.go:Predict", "leaves.go:PredictSingle", "leaves.go:PredictDense", "lgtree.go:predict"]}
{"id": "C74", "title": "One more estimator adds one more tree per group", "statement": "The raw scores with n+1 estimators are the raw scores with n estimators plus, per output group, the value of the group's tree of the next estimator (times its weight for XGBoost models with weighted trees), added in floating point; so scores can be built up stage by stage.", "quantifier": "all models without averaging, all rows, all n", "why_tests_cant": "Holds bit by bit for every n; tests compare a few n within a tolerance.", "anchors": ["lgensemble.go:predictInner", "xgensemble.go:predictInner", "leaves.go:Predict"]}
{"id": "C75", "title": "Sparse predictions do not depend on how the matrix is written down", "statement": "PredictCSR stores for each row what Predict returns for the row that its entries describe (the format's default value where there is no entry, the last entry where there are several); so the order of entries with different columns, entries with the default value and entries for columns the model does not have do not matter, nor does the number of threads.", "quantifier": "all models, all compressed matrices, all thread counts and interleavings", "why_tests_cant": "All equivalent writings of all matrices; tests use canonical matrices made by one tool.", "anchors": ["leaves.go:PredictCSR", "leaves.go:predictCSRInner", "mat/mat.go:CSRMat"]}
{"id": "C76", "title": "Predictions from matrix files are predictions of the file's rows", "statement": "Reading a libsvm or delimited file and predicting from the matrix gives, row by row and in the order of the file, what Predict returns for the row written there.", "quantifier": "all models, all files, all thread counts and interleavings", "why_tests_cant": "Composition of reader and batch prediction over all files; tests compare one file per format.", "anchors": ["mat/mat_io.go:CSRMatFromLibsvm", "mat/mat_io.go:DenseMatFromLibsvm", "mat/mat_io.go:DenseMatFromCsv", "leaves.go:PredictCSR", "leaves.go:PredictDense"]}
{"id": "C77", "title": "Concurrent calls on one model do not disturb each other", "statement": "When several goroutines call Predict, PredictDense or PredictCSR at the same time, on the same model or on several, with predictions slices that do not overlap, each call returns what it returns when made alone and leaves in its slice what it then leaves there, whatever the interleaving; memory outside the slices is untouched; and if each call succeeds alone, all of them return.", "quantifier": "all numbers of calls, models, arguments, thread counts and interleavings", "why_tests_cant": "The number of interleavings is unbounded; the race detector sees the executed ones only.", "anchors": ["leaves.go:Predict", "leaves.go:PredictDense", "leaves.go:PredictCSR"]}
{"id": "C78", "title": "Row and predictions in one array", "statement": "When the row and the predictions passed to Predict are slices of one array, Predict returns what it returns with slices of their own, puts the same predictions into the predictions slice, and leaves every other element of the array, hence a separate row, unchanged. (Proved for slices that do not overlap, and for slices that overlap anyhow when the model has a transformation; false for overlapping slices and raw scores or leaf indices.)", "quantifier": "all models, arrays, slices of them, and numbers of estimators", "why_tests_cant": "Tests pass slices allocated apart; whether one may reuse a buffer depends on the order of all loads and stores.", "anchors": ["leaves.go:Predict", "leaves.go:predictInnerAndTransform", "lgensemble.go:predictInner", "xgensemble.go:predictInner", "xgblinear.go:predictInner", "lgtree.go:predict"]}
{"id": "C79", "title": "Monotone constraints survive", "statement": "If every tree of a model file obeys a monotone constraint on a feature (at every split of the feature, no leaf on the left is above a leaf on the right; reversed for a decreasing constraint), then raising that feature in a row, all else equal, does not lower any prediction (does not raise it), for any number of estimators, rounding of every addition and multiplication included, and also after the logistic transformation. The same holds for a linear model and a feature whose weights all have the right sign. The two values must not count as missing.", "quantifier": "all well-formed LightGBM text files and JSON dumps, XGBoost tree and linear files, scikit-learn pickles; all rows, numbers of estimators, and both directions", "why_tests_cant": "Users train with monotone_constraints and rely on the served model honouring them; tests compare a handful of rows, and whether floating-point rounding can break the order is not visible in any of them.", "anchors": ["lgtree.go:predict", "lgtree.go:numericalDecision", "lgensemble.go:predictInner", "xgensemble.go:predictInner", "xgblinear.go:predictInner", "transformation/logistic.go"]}
{"id": "C80", "title": "Name tells what was loaded", "statement": "Name() of every successfully loaded model names its origin: 'lightgbm.rf' for a text file whose header has an average_output line and 'lightgbm.gbdt' for every other text file or JSON dump, 'xgboost.gbtree', 'xgboost.dart' or 'xgboost.gblinear' as the file's header names the booster, 'sklearn.ensemble.GradientBoostingClassifier' for a pickle. No byte sequence is accepted by both XGBoost loaders: what one accepts the other rejects with an error.", "quantifier": "all inputs that a loader accepts, all platforms, with or without loading the transformation", "why_tests_cant": "Callers dispatch on Name() and try loaders in turn; tests look at one file per format.", "anchors": ["lgensemble_io.go:LGEnsembleFromReader", "lgensemble_io.go:LGEnsembleFromJSON", "xgensemble_io.go:XGEnsembleFromReader", "xgblinear_io.go:XGBLinearFromReader", "skensemble_io.go:SKEnsembleFromReader", "leaves.go:Name"]}
{"id": "C81", "title": "Leaf indices of whole files", "statement": "For every well-formed model file of trees with K groups and N estimators, EnsembleWithLeafPredictions of the loaded model has K*N outputs; NLeaves() has an entry k*N+i for the tree of estimator i and group k, and it is the number of leaves that this tree has in the file; and a prediction through the view succeeds exactly when the slice has room, the row is long enough, all estimators are asked for and every tree can be evaluated, and then stores at k*N+i the number of the leaf that the file's own arrays lead to. For LightGBM text files this is the leaf number of the file; for the other formats the leaves of every tree are numbered from 0 without gaps, one number each. The leaf numbers do not depend on whether a LightGBM model was saved as text or as a JSON dump.", "quantifier": "all well-formed files of the four tree formats, all rows, all requested estimator counts, all slices, all platforms", "why_tests_cant": "Leaf indices are used as categorical features by downstream models; tests compare a few rows of one model per format and the text format only.", "anchors": ["leaves.go:EnsembleWithLeafPredictions", "leaves.go:NLeaves", "lgensemble.go:predictLeafIndicesInner", "xgensemble.go:predictLeafIndicesInner", "lgensemble_io.go:lgTreeFromReader", "lgensemble_io.go:unmarshalTree", "xgensemble_io.go:xgTreeFromTreeModel", "skensemble_io.go:lgTreeFromSklearnDecisionTreeRegressor"]}
{"id": "C82", "title": "Accuracy of predictions", "statement": "Every finite raw score that Predict stores for a well-formed model file is close to the exact value, computed without rounding, of what the file says: for LightGBM (text and JSON) the sum of the n reached leaf values, with an error of at most n units of 2^-52 of the sum of their absolute values; for averaging forests their mean (n+2 units, plus n times the smallest positive number); for XGBoost trees the base score plus the weighted leaf values (n+1 units, plus n times the smallest positive number); for XGBoost linear models base score plus bias plus weighted features (F+2 units over F features, plus F times the smallest number); for scikit-learn the prior plus the learning rate times the leaf values (n+2 units, plus n times the smallest number). This holds whether or not the compiler fuses multiplications and additions.", "quantifier": "all well-formed files of the five formats with fewer than 2^52 - 2 estimators (features), all rows, all requested estimator counts, all slices, all platforms that compute x*y+z as Go permits", "why_tests_cant": "Tests compare with reference predictions up to a fixed tolerance on sample rows; how far the result of summing floats can be off for other models, orders of summation and compilers is not visible in them.", "anchors": ["lgensemble.go:predictInner", "xgensemble.go:predictInner", "xgblinear.go:predictInner", "skensemble_io.go:lgTreeFromSklearnDecisionTreeRegressor", "lgensemble_io.go:LGEnsembleFromReader", "lgensemble_io.go:LGEnsembleFromJSON", "xgensemble_io.go:XGEnsembleFromReader"]}
{"id": "C83", "title": "Numbers in text files are read as the nearest float64, and text with 17 significant digits loses nothing", "statement": "Every number of a CSV file that is written in decimal, with or without point, exponent and sign, becomes the float64 nearest to it (ties to the even one) with the sign that is written; a number too large for a float64 makes the reader return an error. What WriteStr of a dense matrix writes is read back by DenseMatFromCsv bit for bit, including negative zeros, subnormal numbers, infinities and NaN, provided the delimiter has no character of a number in it. A LightGBM text model whose thresholds and leaf values are written with 17 or more significant digits predicts with exactly those values after loading.", "quantifier": "for all numerals with an exponent below 10000, all matrices of float64 values with at least one row and column, all delimiters, all models and all ways of printing that get 17 significant digits right", "why_tests_cant": "There are 2^64 float64 values and infinitely many numerals; errors in the last bit only show up for particular values near the middle between two float64 numbers or near powers of two, which samples miss.", "anchors": ["mat/mat_io.go:157-185", "mat/mat_io.go:200-245", "mat/mat_io.go:247-272", "util/util.go:103-122", "lgensemble_io.go:122-178"]}
{"id": "C84", "title": "JSON model files mean the same however they are laid out, and damaged ones are rejected", "statement": "LGEnsembleFromJSON gives the same model for every text of the same JSON object: white space between tokens, escapes in keys and strings (including \\uXXXX and surrogate pairs) and whatever follows the object (even a read error) make no difference, and no text stands for two objects. A file that is any text of a model document predicts what the trees of the document say. Input that does not begin with a JSON value, and every dump cut off before its last character, is rejected with an error. Numbers are read as the nearest float64.", "quantifier": "for all JSON documents and all their texts, all texts that are not JSON, all cut positions, all readers", "why_tests_cant": "Every document has infinitely many texts, and files can be damaged in infinitely many ways; tests use a few files written by one program.", "anchors": ["lgensemble_io.go:614-669", "lgensemble_io.go:407-427", "lgensemble_io.go:443-447"]}
{"id": "C85", "title": "PredictDense uses only the matrix it is given and rejects one that is too small", "statement": "PredictDense with nrows rows and ncols columns uses the first nrows*ncols elements of vals and nothing else, and returns an error if vals has fewer elements.", "quantifier": "for all models, all slices with any length and spare capacity, all dimensions, all thread counts and interleavings", "why_tests_cant": "Whether a slice is longer or shorter than announced, and what lies behind its end in memory, has unboundedly many cases; tests pass matrices of the right size.", "anchors": ["leaves.go:187-249"]}
{"id": "C86", "title": "Predictions stay within the range of the leaf values, and are never NaN when the leaf values are ordinary numbers", "statement": "If the leaf values of every tree in a model file lie between two bounds for this tree, every raw score (and probability) that any row gets lies between the prediction computed from the lower bounds and the one computed from the upper bounds, rounding included. If all leaf values are finite (and the base score is not NaN), sums of trees are never NaN, whatever the row contains (NaN, infinities).", "quantifier": "for all LightGBM (text and JSON), XGBoost tree and scikit-learn files, all bounds, all rows, all numbers of estimators", "why_tests_cant": "A violation needs a particular row and a particular pattern of rounding errors; tests look at the scores of a few rows.", "anchors": ["lgensemble.go:50-66", "xgensemble.go:58-70", "leaves.go:80-96", "transformation/logistic.go:11-18"]}
{"id": "C87", "title": "A matrix is written completely or an error is returned", "statement": "DenseMat.WriteStr returns nil only if the writer has received the whole text of the matrix; otherwise it returns an error, and the writer has received a first part of the text. DenseMat.ToCsvFile returns nil only if the file has the whole text, and a file written without failures gives the same matrix, bit for bit, when it is read again.", "quantifier": "for all consistent matrices, delimiters and writers that keep to the contract of io.Writer, failing after any number of bytes", "why_tests_cant": "A violation needs a writer or a disk that fails in the middle of the output; the tests write to a buffer that never fails.", "anchors": ["mat/mat_io.go:246-274", "mat/mat_io.go:277-287"]}
{"id": "C88", "title": "LightGBM text files with an objective give transformed predictions", "statement": "A well-formed LightGBM text file of a boosted model with objective poisson, gamma, tweedie, binary, multiclass or regression, loaded with loadTransformation=true, gives an ensemble with the transformation of that objective; Predict succeeds exactly when the row and the output slice are long enough, and stores the transformation of the sums of the leaf values that the trees in the file give. Random forests are loaded the same with and without their transformation.", "quantifier": "for all header lines in any order, tree blocks, numbers of classes and trees, objectives of the supported forms, rows and estimator counts", "why_tests_cant": "The tests compare a few trained models with stored predictions; they cannot cover every header and every tree structure.", "anchors": ["lgensemble_io.go:52-80", "lgensemble_io.go:293-392", "leaves.go:33-44"]}
{"id": "C89", "title": "Predicted probabilities are accurate", "statement": "With a math.Exp of relative error at most eps, every probability stored by Predict for a LightGBM binary or multiclass model or an XGBoost binary:logistic model, loaded with its transformation from a well-formed file with finite numbers, is a finite number that differs from the exact logistic function or softmax of the exact sum of the leaf values by at most a few eps plus a bound of the order n * 2^-52 times the size of the scores. Predictions of poisson, gamma and tweedie models have a relative error of that size.", "quantifier": "for all well-formed files whose leaf values are finite and of moderate size, all rows, estimator counts, both ways Go may compute x*y+z, and all accuracies eps of math.Exp", "why_tests_cant": "The tests compare with stored predictions up to a tolerance for a few rows; no test compares with the exact real-valued function, for all inputs.", "anchors": ["transformation/logistic.go:11-18", "transformation/softmax.go:13-20", "transformation/exponential.go:10-17", "util/util.go:250-274", "leaves.go:33-44", "lgensemble.go:50-66", "xgensemble.go:58-70"]}
{"id": "C90", "title": "Loading does not depend on how the bytes arrive, and files are always closed", "statement": "Loading a model or a matrix from a reader gives the same model, matrix or failure for every way the same bytes can be delivered: in pieces of any size, with empty reads in between (fewer than 100 in a row), with io.EOF alone or together with the last bytes, and with any buffer size. The ...FromFile functions do with the contents of the file what the ...FromReader functions do with the whole input, return an error when the file cannot be opened, and leave no file open, also when loading fails or panics.", "quantifier": "for all inputs, all readers that keep the io.Reader contract, all sequences of piece sizes, all bufio buffer sizes, all flags", "why_tests_cant": "Tests read from local files in one or two large pieces; the number of ways to split an input grows exponentially with its length.", "anchors": ["util/util.go:29-63", "lgensemble_io.go:293-402", "mat/mat_io.go:22-113", "mat/mat_io.go:140-243", "internal/xgbin/xgbin_io.go:156-320", "xgensemble_io.go:136-260", "xgblinear_io.go:13-59", "internal/pickle/decoder.go:28-193", "skensemble_io.go:117-187"]}
{"id": "C91", "title": "Reading a matrix returns a matrix or an error", "statement": "DenseMatFromLibsvm, CSRMatFromLibsvm and DenseMatFromCsv return a matrix or an error for every text, every limit, every delimiter (the empty one included), also when the reader fails in the middle; they neither panic nor run forever.", "quantifier": "for all texts, reader failures, limits, delimiters and default values", "why_tests_cant": "Tests read three well-formed files; the claim is about all texts, including malformed ones.", "anchors": ["mat/mat_io.go:22-32", "mat/mat_io.go:50-61", "mat/mat_io.go:79-95", "mat/mat_io.go:115-243"]}
{"id": "C92", "title": "A model file that has been cut off is rejected", "statement": "When a model file is accepted and its end is then lost (an interrupted download or copy), loading returns an error; it does not give another model and does not panic. More precisely: every accepted file begins with a part that determines the model whatever follows it, and every file with less than this part is rejected with an error.", "quantifier": "for all accepted files of every format (XGBoost trees, XGBoost linear, scikit-learn pickles, LightGBM JSON, LightGBM text) and all places at which they can be cut", "why_tests_cant": "Tests load complete files; a file of n bytes can be cut in n places and each has to be rejected.", "anchors": ["util/util.go:29-63", "lgensemble_io.go:293-391", "lgensemble_io.go:615-669", "xgensemble_io.go:136-249", "xgblinear_io.go:13-48", "skensemble_io.go:117-176", "internal/pickle/decoder.go:28-193", "internal/xgbin/xgbin_io.go:156-320"]}
{"id": "C93", "title": "PredictCSR accepts CSR matrices and rejects other arrays", "statement": "Let three arrays be given to PredictCSR. If they are a compressed sparse row matrix (row pointers that begin with 0, do not decrease and end with the number of entries; as many values as columns; columns in range) and Predict accepts rows of the model's width, the call succeeds for every number of threads and every schedule. If they are not such a matrix, the call returns an error. A call that returns an error leaves the predictions unchanged.", "quantifier": "for all models, all arrays, all numbers of threads and schedules", "why_tests_cant": "The space of malformed index arrays is unbounded and each must be looked at by some check; tests only pass matrices that the library itself produced.", "anchors": ["leaves.go:104-180"]}
{"id": "C94", "title": "LightGBM text files mean the same however they are laid out", "statement": "Changing the layout of a LightGBM text file does not change what is loaded from it, nor whether it is accepted: white space at the beginning and end of lines, Windows or Unix line ends, the order of the fields in a block (as long as no field is given twice), and additional fields that the model does not use.", "quantifier": "for all texts (accepted or not), all layouts with the same fields", "why_tests_cant": "Tests load a handful of files as LightGBM wrote them; the number of layouts of one file is unlimited.", "anchors": ["util/util.go:29-63", "lgensemble_io.go:103-169", "lgensemble_io.go:293-391"]}
{"id": "C95", "title": "Matrix files mean the same however their lines are laid out, and limit gives the first rows", "statement": "The libsvm and CSV readers give the same matrix or error when white space is added or removed at the beginning or end of lines (non-blank ones), when line ends are converted to Windows form, and whether or not the last line ends with a newline. If the whole file can be read, reading it with a positive limit n gives the first n rows of the matrix; a limit that is not positive means all rows; what comes after the first n lines is not looked at.", "quantifier": "for all texts, all limits, all delimiters and default values", "why_tests_cant": "Tests read a few files with Unix line ends; layouts and limits are unbounded.", "anchors": ["mat/mat_io.go:22-95", "mat/mat_io.go:115-243"]}
{"id": "C96", "title": "Text files are read as the characters their bytes hold, also when they are not UTF-8", "statement": "Loading a LightGBM text model, or reading a libsvm or CSV matrix, from any sequence of bytes gives the same result as from the characters that the bytes hold: wherever the UTF-8 encoding of a character stands, that character, and U+FFFD for every byte that is not part of one. In particular bytes that are not UTF-8 (such as feature names in Latin-1) do not change how the lines and fields around them are read, the result does not depend on the pieces in which the bytes arrive, and two files in different encodings that agree in the fields of the model give the same model.", "quantifier": "for all byte sequences, valid UTF-8 or not, all ways in which they arrive, all delimiters that are UTF-8 and do not contain U+FFFD", "why_tests_cant": "Tests read a few ASCII files; the Go functions involved (TrimSpace, Split, ParseFloat, ReadString) work on bytes and decode partly, and where decoding of a garbled text restarts is not something examples settle.", "anchors": ["util/util.go:29-160", "mat/mat_io.go:140-243", "lgensemble_io.go:61-80", "lgensemble_io.go:520-640"]}
{"id": "C97", "title": "Files that begin with a byte order mark", "statement": "A libsvm or CSV file that begins with a UTF-8 byte order mark is rejected with an error if its first column is data, whatever follows. If the first column is skipped and the text after the mark does not begin with white space, the mark makes no difference. A LightGBM model file whose first line is 'tree' loads the same model with and without a mark.", "quantifier": "for all byte sequences after the mark, all ways in which they arrive, all limits, all delimiters (UTF-8, without U+FEFF and U+FFFD; non-empty for the second part)", "why_tests_cant": "No test file has a mark; that no content makes the reader accept or misread the first value is a statement about all files.", "anchors": ["mat/mat_io.go:140-243", "util/util.go:100-160", "lgensemble_io.go:520-640"]}
{"id": "C98", "title": "Models that follow each other in one stream are loaded one after another", "statement": "If a stream consists of whole models in binary formats (XGBoost trees, XGBoost linear, scikit-learn pickle, in any order), where a whole model is a file that loads while nothing cut off from it does, then successive calls of the matching loading functions with the same buffered reader return these models in turn and leave exactly the bytes that follow. Every accepted file begins with a whole model. The same holds for LightGBM text models that end with a blank line and have nothing after the last tree; what follows the trees in other LightGBM files is left in the reader and read as the header of the next model.", "quantifier": "for all sequences of models, all bytes that follow, all pieces in which the bytes arrive (without empty reads if a scikit-learn model is among them)", "why_tests_cant": "Tests load one model per file; that a loader never reads a byte too many or too few is a statement about all files.", "anchors": ["xgensemble_io.go:136-249", "xgblinear_io.go:13-48", "internal/pickle/decoder.go:28-193", "skensemble_io.go:117-176", "lgensemble_io.go:293-391"]}
{"id": "C99", "title": "JSON dumps load from any byte stream, however it is delivered", "statement": "Loading a LightGBM JSON dump gives the same result however its bytes arrive: in pieces of any size, with empty reads in between, with the end or a read error reported alone or with the last bytes. The result is that of loading the characters of the input, where each byte that is not part of valid UTF-8 counts as U+FFFD. The loader returns as soon as the closing brace of the document has been delivered: it does not wait for, or look at, anything after it. A reader that keeps delivering nothing without an error keeps the loader waiting forever.", "quantifier": "for all sequences of bytes, all ways of delivery with enough reads that are not empty, all errors at the end, all nesting limits", "why_tests_cant": "Tests read files from disk, where everything arrives at once and is valid UTF-8; splits of the input in the middle of a character, an escape, a number or a literal are too many to try.", "anchors": ["lgensemble_io.go:614-669"]}
{"id": "C100", "title": "Predictions do not depend on the machine", "statement": "The same model file loaded on two machines predicts the same rows bit for bit the same, although Go leaves to the machine whether a multiplication and an addition are fused into one rounding, what the conversion of an out-of-range number or NaN to an integer gives, and how many processors there are. This holds for single rows and for dense and CSR matrices with any numbers of threads: for LightGBM text files (with their transformation when the machines share math.Exp) and JSON dumps, and for XGBoost trees, boosted or DART.", "quantifier": "for all pairs of machines, all files of the formats, all rows and matrices, all numbers of threads, all schedules", "why_tests_cant": "Tests run on one machine. Whether two instruction sets agree in the last bit on every model and every row cannot be sampled, and the CI machine is not the one in production.", "anchors": ["lgensemble.go:53-68", "xgensemble.go:56-72", "xgblinear.go:33-44", "lgtree.go:49-75", "skensemble_io.go:12-64"]}
{"id": "C101", "title": "Matrix and predictions in one array", "statement": "The values of a matrix and the predictions may be slices of one array. If they do not overlap, PredictDense and PredictCSR have exactly the outcomes they have with slices of their own, with any number of threads, and change nothing but the predictions. Predictions stored over the matrix itself are right for PredictDense without concurrency when the model has a transformation, gives at most as many numbers for a row as the row has, and the predictions do not begin behind the matrix. Outside these conditions, and with several threads in any case, they may be wrong without an error. Whatever the overlap and the outcome, nothing outside the predictions is changed.", "quantifier": "for all models, all memory contents, all positions of the two slices, all numbers of threads, all schedules, all outcomes", "why_tests_cant": "Tests use separate slices. Whether an overwritten row was still to be read depends on positions, widths and the schedule of the goroutines, and a wrong prediction raises no error.", "anchors": ["leaves.go:104-180", "leaves.go:187-249", "leaves.go:33-47"]}
{"id": "C102", "title": "The announced number of features is usable", "statement": "The number of features of a loaded model is never negative, so that rows too short for the model are refused, and sparse prediction needs memory only for the matrix. The first half holds for XGBoost models of every kind. For LightGBM models (text or JSON) and scikit-learn models it fails for one value only: the largest integer as the highest feature makes the number of features the smallest integer, and then a row that is too short makes the prediction panic. The second half is false: PredictCSR writes out a row of all features in each thread, and panics for every matrix when there is no room for one such row.", "quantifier": "for all byte strings and documents that a loader accepts; for all models, matrices, numbers of threads and schedules", "why_tests_cant": "Tests load files with a few dozen features; the overflow needs one particular integer, and the size of the row depends on the model and the machine, not on the matrix.", "anchors": ["leaves.go:104-156", "leaves.go:158-180", "lgensemble.go:28-35", "xgensemble.go:27-34", "lgensemble_io.go:293-391", "skensemble_io.go:130-176"]}
{"id": "C103", "title": "Asking for fewer estimators equals a model with fewer estimators", "statement": "A model asked for its first n estimators predicts exactly what the model that was saved after n rounds of training predicts when asked for all of its estimators: for single rows and for whole matrices, dense or sparse, with any numbers of threads, bit by bit. This holds for LightGBM text files (boosted or random forest, raw or transformed), LightGBM JSON dumps, XGBoost files (gbtree and DART) and scikit-learn pickles.", "quantifier": "for all model files of the formats, all numbers of rounds, all requests within them, all rows, matrices, numbers of threads and schedules", "why_tests_cant": "Tests compare predictions for a limited number of estimators with stored numbers for one model; whether truncation at prediction time is truncation of the model concerns every model and every cut.", "anchors": ["leaves.go:33-96", "leaves.go:104-156", "leaves.go:187-249", "lgensemble.go:50-90", "xgensemble.go:49-70", "skensemble_io.go:71-187"]}
{"id": "C104", "title": "Predicting some of the rows, in any order", "statement": "The predictions for a matrix made of rows of another matrix (a piece of it, its rows in another order, rows repeated) are the predictions of those rows. A matrix can be predicted in pieces: a slice of the values for a dense one, a slice of the row pointers alone (with the other two arrays as they are) for a sparse one. If the call for the whole matrix succeeds, the call for the piece has one possible outcome, success, with any number of threads.", "quantifier": "for all models, all matrices, all choices of rows, all numbers of threads and schedules", "why_tests_cant": "Tests predict whole matrices; batching by the caller cuts them at places that depend on the application, and rows must not influence each other at any of them.", "anchors": ["leaves.go:104-156", "leaves.go:158-180", "leaves.go:187-249"]}
{"id": "C105", "title": "Predictions change only when a value crosses a threshold", "statement": "A model of trees gives the same outcome for two rows of the same length unless a split of the model separates them: for a numerical split, unless its threshold lies between the two values (or one of them is NaN, or, where small numbers count as missing, one of them is small); for a categorical split, unless the integer parts differ. This holds for all kinds of prediction, for single rows and matrices. In particular 0 and -0 are not distinguished. Linear models give the same numbers for rows with the same numbers, though the sign of a zero may differ.", "quantifier": "for all models, all pairs of rows, all matrices, numbers of estimators, numbers of threads and schedules", "why_tests_cant": "Tests look at single rows; that nothing but the listed thresholds matters is a statement about all pairs of rows, and what users need to judge how far an input may move before the answer can change.", "anchors": ["lgtree.go:38-94", "lgensemble.go:50-81", "xgensemble.go:58-85", "xgblinear.go:36-43", "leaves.go:33-96"]}
{"id": "C106", "title": "Rows in float64 are predicted as the training library predicts their float32 rounding", "statement": "XGBoost and scikit-learn round the features to float32 before walking their trees; leaves compares the float64 values it is given. The prediction of leaves for a row is nevertheless the one of the library for the rounded row.", "quantifier": "for all well-formed XGBoost files and scikit-learn pickles, all rows, all roundings of the row (in whatever direction), all platforms", "why_tests_cant": "Whether skipping the rounding matters depends on how every value, its rounding and every threshold lie to each other; tests with data that was float32 to begin with never see a difference.", "anchors": ["xgensemble_io.go:41-100", "skensemble_io.go:28-100", "lgtree.go:38-62"]}
{"id": "C107", "title": "Rows that end in the same leaves get the same predictions", "statement": "If the leaf view of a model (EnsembleWithLeafPredictions) stores the same leaf indices for two rows, then the model itself, and every view of it, stores the same predictions for them, for every number of estimators and every transformation; likewise for dense and sparse matrices. So leaf indices can stand for a row, as in models that are trained on leaf indices.", "quantifier": "for all tree models with at most 2^53 leaves per tree, all pairs of rows and of matrices, all numbers of estimators, numbers of threads and schedules", "why_tests_cant": "The leaf view and the ordinary prediction walk the trees in separate calls; that the one determines the other is a statement about all pairs of rows, of which tests compare a few known ones.", "anchors": ["leaves.go:33-96", "leaves.go:104-250", "leaves.go:298-307", "lgtree.go:64-94", "lgensemble.go:50-96", "xgensemble.go:58-91"]}
{"id": "C108", "title": "A prediction is the transformation of what the raw view predicts", "statement": "For every model with a transformation (logistic, exponential, softmax or none), Predict, PredictDense and PredictCSR store exactly the transformation, row by row, of what the same call of EnsembleWithRawPredictions stores, and they succeed exactly when that call does. PredictSingle returns the transformation of the raw view's result, except that both answer a row that is too short with 0.", "quantifier": "for all models whose output width fits them, all rows and matrices, buffers, numbers of estimators, numbers of threads and schedules", "why_tests_cant": "The transformed path works in place in the caller's buffer or in one of its own, the raw path writes directly; tests compare a few models and rows with reference files and never the two paths with each other.", "anchors": ["leaves.go:33-96", "leaves.go:104-250", "leaves.go:298-300", "transformation/exponential.go:10-17", "transformation/logistic.go:11-18", "transformation/softmax.go:13-20"]}
{"id": "C109", "title": "The scores of a class depend on the trees of this class only", "statement": "The raw score of class j that a model with K classes stores for a row is exactly what the model loaded from a file with the trees of class j alone stores for it, in Predict, PredictDense and PredictCSR, with any limit on the number of estimators; and the calls succeed together. So a multiclass model is its one-class models side by side.", "quantifier": "for all well-formed LightGBM text files and JSON dumps and XGBoost files (boosted trees, DART and linear) with any number K of classes, all rows, matrices, buffers, numbers of estimators, numbers of threads and schedules", "why_tests_cant": "The trees of all classes lie in one list, and class j takes every K-th of them; one wrong index lets a tree count for another class, which test models with few classes or equal trees need not show.", "anchors": ["lgensemble.go:50-66", "xgensemble.go:58-70", "lgensemble_io.go:293-392", "lgensemble_io.go:615-669", "xgensemble_io.go:136-250", "leaves.go:55-250"]}
{"id": "C110", "title": "Features may be renumbered", "statement": "If the features of a tree model are renumbered in its file, and the columns of the data in the same way, all predictions stay the same, bit for bit: for single rows, for dense matrices and for sparse matrices, in which only the column indexes change (their order need not).", "quantifier": "for all well-formed LightGBM text files and JSON dumps, XGBoost files (boosted trees and DART) and scikit-learn pickles, all permutations of the features, all rows, matrices, buffers, numbers of estimators, numbers of threads and schedules", "why_tests_cant": "Special treatment of some feature, or of the order of columns in a sparse row, is invisible in tests that use one order of features.", "anchors": ["lgtree.go:38-94", "lgensemble.go:50-96", "xgensemble.go:58-91", "xgensemble_io.go:41-100", "leaves.go:104-250"]}
{"id": "C111", "title": "A matrix without rows", "statement": "PredictDense with no rows (or with a negative number of them, which is not rejected) and PredictCSR with at most one entry in indptr return without changing predictions, whatever the other arrays hold; they return nil exactly when the same arguments would be acceptable for a matrix with rows: enough columns, all estimators for a leaf view.", "quantifier": "for all models whose output width fits them, all arrays, all numbers of rows below one, of columns, of estimators and of threads", "why_tests_cant": "Tests predict at least one row; with none the batch and thread arithmetic works on zeros and negative numbers.", "anchors": ["leaves.go:104-156", "leaves.go:158-180", "leaves.go:187-249"]}
{"id": "C112", "title": "loadTransformation decides the transformation and nothing else", "statement": "Whatever loads with loadTransformation=true also loads with false, reading the same part of the input, and the two ensembles differ in the transformation only: the one loaded without it reports the same name, features, estimators, groups and leaves, and predicts (rows, matrices under every schedule, leaf indices; results, errors and panics alike) what EnsembleWithRawPredictions of the other predicts. For scikit-learn pickles the argument makes no difference; JSON dumps always refuse loadTransformation=true.", "quantifier": "for all inputs of every format (LightGBM text, given as characters or as bytes in any delivery, LightGBM JSON, XGBoost trees and linear models, scikit-learn pickles), machines, rows, matrices, estimator and thread counts", "why_tests_cant": "Tests load a handful of trained models one way or the other; they cannot show that nothing else in the file is treated differently.", "anchors": ["lgensemble_io.go:293-391", "lgensemble_io.go:614-669", "xgensemble_io.go:136-249", "xgblinear_io.go:13-48", "skensemble_io.go:117-176", "leaves.go:296-300"]}
{"id": "C113", "title": "The order of the trees of a class matters only for rounding", "statement": "Take two model files of one format that hold, for each class, the same trees (for dart, with the same weights; for scikit-learn, with the same learning rate and prior; for XGBoost, with the same base score), in any order. Both load. Predicting a row with all estimators, if the scores of a class are finite in both, they differ by at most twice the rounding that C82 allows for a sum of that many terms: 2N units of 2^-52 of the sum of the absolute tree values (a few more for averaged forests, weights and learning rates). Equality does not hold: three trees of one leaf with the values 2^53, 1, 1 give 2^53 in this order and 2^53 + 2 with the large value last.", "quantifier": "for all pairs of files in the formats (LightGBM text, LightGBM JSON, XGBoost binary with gbtree or dart, scikit-learn pickle) with the same trees per class in any order, all rows, all buffers, all classes, both ways of evaluating a multiply-add", "why_tests_cant": "The orders of the trees and the values are unbounded, and floating-point addition is not associative: a test sees some orders of some models and either equal scores or some difference.", "anchors": ["lgensemble.go:50-68", "xgensemble.go:58-73", "lgensemble_io.go:293-391", "lgensemble_io.go:614-669", "xgensemble_io.go:136-249", "skensemble_io.go:117-176"]}
{"id": "C114", "title": "A prediction looks at no more than one split per level of the tree", "statement": "For every tree that loads from a well-formed LightGBM text block, LightGBM JSON object, XGBoost node array or scikit-learn tree, and every row (NaN, missing or too short rows included), predicting looks at no more splits than there are on the longest way from the root to a leaf of the tree in the file. (A scikit-learn tree that is a single leaf counts as one split, which the loader inserts.) So the work for one row is bounded by the depth of the trees, whatever the row holds and however the loader lays the nodes out.", "quantifier": "for all well-formed trees of the four formats, all rows, all numbers of iterations, all machines", "why_tests_cant": "Tests can measure the time of some rows on some trees; the layouts the loaders produce and the ways through them are unbounded.", "anchors": ["lgtree.go:74-94", "lgensemble_io.go:103-290", "lgensemble_io.go:440-612", "xgensemble_io.go:24-134", "skensemble_io.go:12-115"]}
{"id": "C115", "title": "An iteration of trees with zero leaves contributes nothing", "statement": "Training writes trees with a single leaf of value 0 when it finds nothing to split. Take a boosted model (LightGBM text or JSON, XGBoost gbtree or dart) and the file without one iteration, all of whose leaf values are zeros (of either sign). Whatever the longer model predicts for a row with all its trees, the shorter one predicts, bit for bit, with all of its own. If the removed trees have a single leaf, the two models predict the same for single rows, dense matrices and CSR matrices with any numbers of threads. For XGBoost the weights of the removed trees must be finite and the base score must not be the negative zero; a DART tree of weight 0 with finite leaf values may be removed as well. Random forests are excluded: they average, so a zero tree counts.", "quantifier": "for all well-formed files, all positions of the iteration, all rows and matrices, all machines (with or without fused multiply-add)", "why_tests_cant": "Tests compare a few numbers; that no sum on the way can be a negative zero, and so that adding a zero of either sign is always exact, is a statement about all float64 sums.", "anchors": ["lgensemble.go:50-67", "xgensemble.go:58-70", "lgensemble_io.go:103-290"]}
{"id": "C116", "title": "Decisions taken from probabilities agree with the raw scores", "statement": "Where Predict of a binary model (logistic) stores a probability above 1/2 for a row, Predict of its raw view (EnsembleWithRawPredictions) stores a positive score, below 1/2 a negative one; a score >= 0 has a probability >= 1/2, a score <= 0 one <= 1/2. Of two rows, the one with the larger output of a logistic or exponential model has the larger raw score. If a softmax model gives class j a larger probability than class i, the raw score of j is larger than that of i: for all scores, however large or small, also when the exponentials overflow. The converse of the strict statements is false: scores that differ may have equal probabilities, so p >= 0.5 holds for some slightly negative scores.", "quantifier": "for all loaded models, all rows, all numbers of estimators, every math.Exp that is monotone, not negative, with Exp(0)=1 and Exp(NaN)=NaN", "why_tests_cant": "A reversal would need a particular pair of scores whose exponentials, sums and quotients round the wrong way; there are 2^128 pairs.", "anchors": ["util/util.go:250-274", "transformation/logistic.go:11-18", "transformation/softmax.go:13-20", "transformation/exponential.go:10-17", "leaves.go:55-97"]}
{"id": "C117", "title": "LightGBM models that need more than the library computes are refused", "statement": "A LightGBM text file that needs a computation the library does not have is an error when it is loaded, rather than an ensemble that predicts something else: files of another format version, models with several trees per class and iteration, objectives without a known transformation and sigmoids with another slope when the transformation is asked for, trees whose leaves hold linear models, and regression with the square root option.", "quantifier": "for all texts, headers, trees and linear models", "why_tests_cant": "A test can only load the unsupported files somebody thought of; the danger is in the ones that load.", "anchors": ["lgensemble_io.go:52-80", "lgensemble_io.go:103-169", "lgensemble_io.go:293-391"]}
{"id": "C118", "title": "Loading a model needs memory in proportion to the file", "statement": "The memory that a loader asks for is bounded by a multiple of the size of the file that it reads, so that a small or truncated file cannot make the process run out of memory.", "quantifier": "for all files, machines, amounts of memory and sizes announced in the file", "why_tests_cant": "A test runs with enough memory and on files whose announced sizes agree with their contents.", "anchors": ["lgensemble_io.go:173-291", "internal/xgbin/xgbin_io.go:165-220"]}
{"id": "C119", "title": "The reported transformation tells how many outputs a row has", "statement": "For every ensemble that a program can get (returned by any loader for any input, or a raw or leaf view of such an ensemble, or a view of a view): if Transformation().Name() is \"raw\" or \"softmax\" then NOutputGroups() is NRawOutputGroups(); if it is \"logistic\" then NOutputGroups() is 1; if it is \"leaf_index\" then NOutputGroups() is NRawOutputGroups() times NEstimators(); and there are no other names.", "quantifier": "for all inputs of all loaders, valid or not, and all chains of views", "why_tests_cant": "NOTES.md promises the rule for raw output without exception; a test looks at the models it has.", "anchors": ["leaves.go:250-307", "lgensemble_io.go:293-391", "lgensemble_io.go:614-669", "xgensemble_io.go:136-249", "xgblinear_io.go:13-48", "skensemble_io.go:117-176"]}
{"id": "C120", "title": "XGBoost files of kinds the library does not compute are refused", "statement": "Whatever XGEnsembleFromReader loads is, byte for byte, a file of a supported kind followed by the bytes left in the reader: booster gbtree or dart, at least one feature and tree, one root in the model and in every tree, trees of the classes in turn, one weight per tree for dart, and objective binary:logistic if the transformation was asked for. A readable file of another kind (another booster, several parallel trees with several classes, several roots, a wrong number of weights, another objective with the transformation asked for, \u2026) gives an error, neither a model nor a crash, whatever follows. The same for XGBLinearFromReader, which loads exactly the files of linear models.", "quantifier": "for all byte sequences, both values of loadTransformation, all platforms", "why_tests_cant": "A test shows that some file is refused; that nothing else is accepted and mispredicted is a statement about all files.", "anchors": ["xgensemble_io.go:24-48", "xgensemble_io.go:136-249", "xgblinear_io.go:13-48"]}
{"id": "C121", "title": "Opposite leaf values give opposite scores", "statement": "Take two model files that differ in the signs of the leaf values only (for XGBoost also of base_score). For every row and every nEstimators, whenever the first model predicts, the second predicts too, and every raw score it stores is exactly the opposite of the first model's (opposite infinities and NaN included; the sign of a zero does not matter). So exchanging the two classes of a binary classifier loses no bit. With the transformation of a binary objective, the probabilities that the two models predict sum to 1 up to twice the relative error of the exponential function plus 2^-47, however many trees there are. (For averaged forests this needs a machine that fuses multiplications and additions everywhere or nowhere; the products with DART weights are exact.)", "quantifier": "all LightGBM text files (boosted or averaged, any number of groups) and XGBoost binary files (gbtree and dart) and their counterparts with opposite signs, all rows, all nEstimators, all output buffers, all platforms", "why_tests_cant": "rounding could treat the two signs differently anywhere in the sum (a comparison, a starting value other than zero, a conversion); a test can compare a few pairs of files only, the symmetry holds for every number", "anchors": ["lgensemble.go:50-67", "xgensemble.go:58-70", "transformation/logistic.go:11-18"]}
{"id": "C122", "title": "Classes may be renumbered", "statement": "Take a multi-class model file and write the trees (or, for a linear model, the weights) of every class k in the place of class s(k), for some renumbering s of the classes. Both files load, and whenever the first model predicts a row, the second one does, and its raw score for class s(k) is the first one's raw score for class k, bit by bit; nothing else is written. With a softmax objective the probability of class s(k) from the second model is within 6e + (K+7)/2^50 of the probability of class k from the first one, where e is the relative error of the exponential function and K is the number of classes, regardless of the number of trees. Probabilities need not agree bit by bit, since the denominator is summed in the order of the classes.", "quantifier": "all LightGBM text files (boosted models and averaged forests), LightGBM JSON dumps, XGBoost tree files (gbtree and dart) and XGBoost linear files, all numbers of classes and iterations, all renumberings, all rows, requested numbers of estimators, buffers and platforms; for probabilities, all text files with finite leaf values of total size at most 689", "why_tests_cant": "There are K! renumberings and no bound on K, trees and rows; a test with fixed models sees only a few, and whether the last bits of probabilities agree depends on the scores.", "anchors": ["lgensemble.go:50-67", "xgensemble.go:58-70", "xgblinear.go:31-53", "lgensemble_io.go:145-260", "transformation/softmax.go:1-32"]}
{"id": "C123", "title": "Statistics, parents, reserved words and leaf vectors of XGBoost files do not matter", "statement": "Take two XGBoost binary files that agree in base score, number of features, objective and booster name, in the numbers of trees, roots, features and output groups, in the groups of the trees, and in each tree's numbers of roots, nodes and features and each node's children and threshold or leaf value (for splits also the feature and default bit). They may differ in everything else: number of classes, flags, node parents, a leaf's feature word, node statistics, numbers of deleted nodes and depths, leaf vectors, padding, the old buffer size and all reserved words. XGEnsembleFromReader then returns the same for both: the same ensemble, leaving the same rest of the input, or the same error, or the same crash. The same holds for XGBLinearFromReader and linear files that agree in base score, names, numbers of features and groups, and weights. The fields that have to agree do matter: concrete files show that another feature, default bit, threshold or order of children changes predictions.", "quantifier": "all pairs of header, tree and linear records of any size (trees need not be well formed), all values of the free fields, all bytes that follow, both settings of loadTransformation, all platforms", "why_tests_cant": "Tests load a few files written by one XGBoost version; that none of the free fields reaches the outcome, not even an error or a crash, is a statement about all values of all these fields.", "anchors": ["xgensemble_io.go:18-95", "xgensemble_io.go:97-255", "xgblinear_io.go:13-59", "internal/xgbin/xgbin_io.go:121-154"]}
{"id": "C124", "title": "The numbering of a tree's nodes in the file does not matter", "statement": "Take two model files whose trees are the same except that the nodes are listed in another order, with child references changed accordingly and the root kept in the first place. For XGBoost binary files, XGEnsembleFromReader returns the same for both: the same ensemble leaving the same rest of the input, the same error, or the same crash, even when the trees are malformed. For LightGBM text files, where inner nodes and leaves are numbered separately and both numberings may change, and for scikit-learn pickles, the two loaded models predict the same for every input, and the LightGBM model's leaf indices are those of the first model renumbered as the file was. The root has to stay first: moving it gives a file that loads without error but predicts something else.", "quantifier": "all pairs of XGBoost node tables related by a renumbering (no validity assumed, any file contents around them); all valid LightGBM text trees and scikit-learn classifiers of any size; all renumberings fixing the root; all inputs, matrices and numbers of estimators; all platforms", "why_tests_cant": "The order of nodes is fixed by the tool that wrote each test file; that no order reaches the result is a statement about all permutations of all trees, and for XGBoost about malformed trees too.", "anchors": ["lgensemble_io.go:241-289", "xgensemble_io.go:24-133", "skensemble_io.go:12-113"]}
{"id": "C125", "title": "Leaf values multiplied by a power of two give scores multiplied by it exactly", "statement": "Take a model file and a second one with the same splits whose leaf values (for XGBoost also the base score) are 2^p times those of the first, as when the learning rate is doubled or values are rescaled to another unit. For every input and number of estimators for which the first model predicts, the second predicts as well, and each of its raw scores that is a number is exactly 2^p times the first model's score; no rounding shows. A score of the second model that is not a number has overflowed. This holds for LightGBM text files of boosted trees and for XGBoost files with gbtree and DART boosters. It is special to powers of two: leaf values 2^53 and 1 sum to 2^53, while three times these values sum to 3*2^53+4.", "quantifier": "all pairs of valid LightGBM text files and XGBoost files whose values differ by the factor 2^p, all p, all rows, buffers and numbers of estimators, all platforms with either form of multiply-add", "why_tests_cant": "A test compares a few models within a tolerance. Here every rounding of every sum has to be the rounding of the multiplied sum, for all leaf values (also subnormal ones), all lengths of the sum and all powers, with or without fused multiply-add.", "anchors": ["lgensemble.go:50-66", "lgtree.go:74-94", "xgensemble.go:58-70"]}
{"id": "C126", "title": "The same forest in another format predicts the same, except on sparse matrices of XGBoost models", "statement": "Converting a model from one format to another does not change its predictions. Take an XGBoost 'gbtree' file with base score 0 and a LightGBM text file that has the same trees: in corresponding nodes the same feature, the same threshold and the same side for missing (NaN) values, in corresponding leaves the same value. Both load with the same number of features, and for every input, number of estimators and number of threads Predict and PredictDense give the same result bit by bit. The same holds for a pickled scikit-learn classifier and a LightGBM text file with its splits, whose leaf values are the classifier's times the learning rate, plus the prior in the first iteration; here PredictCSR agrees as well. PredictCSR does not agree between XGBoost and LightGBM models: what a row does not list is missing for the one and 0 for the other.", "quantifier": "all pairs of valid files with corresponding trees, any numbering of nodes and leaves, all rows, matrices, buffers, numbers of estimators and threads, all platforms with either form of multiply-add", "why_tests_cant": "The tests compare each format with the predictions of its own library on a few data sets. They never load one forest through two loaders, and a difference in one comparison, default side or order of additions would show on few rows only.", "anchors": ["xgensemble_io.go:24-133", "lgensemble_io.go:103-289", "skensemble_io.go:12-113", "lgtree.go:74-94", "xgensemble.go:58-70", "leaves.go:150-190"]}
{"id": "C127", "title": "Superfluous splits may be removed from a model", "statement": "Take a model file and a second one whose trees are those of the first without some superfluous splits: a split both sides of which give the same values has been removed, or a part of a tree that no row can reach, because of the splits above it, has been dropped or replaced. For every input, number of estimators and number of threads for which Predict, PredictDense or PredictCSR of the first model succeeds, the second model gives the same result bit by bit, transformation included. This holds for LightGBM text files (boosted or averaged) and XGBoost files with gbtree and DART boosters.", "quantifier": "all pairs of valid LightGBM text files and XGBoost files whose trees are related by removal of superfluous splits, in any number and at any depth; all rows, matrices, buffers, numbers of estimators and threads", "why_tests_cant": "Tests see a finite set of trees and rows. That no row distinguishes the trees is a statement about all float64 rows, including NaN, zeros, infinities and values equal to thresholds.", "anchors": ["lgtree.go:74-94", "lgensemble.go:50-66", "xgensemble.go:58-70", "lgensemble_io.go:103-289", "xgensemble_io.go:24-133"]}
{"id": "C128", "title": "Only the meaning of a LightGBM tree counts, not the way it is written down", "statement": "Two LightGBM text files with the same header values predict the same, bit by bit, for every input, number of estimators and number of threads, row by row and for dense and sparse matrices, if their trees mean the same: same form, corresponding splits test the same feature and send the same values to the left, corresponding leaves have the same value. It does not matter how nodes and leaves are numbered, whether a set of categories is written with one word or with several, with trailing zero words or unused words behind it, or in which slot it stands; the loader's special representations for sets with one category and for sets that fit into one word never show.", "quantifier": "all pairs of valid LightGBM text files whose trees have the same meaning, boosted or averaged, with numerical and categorical splits; all rows, matrices, buffers, numbers of estimators and threads, all platforms", "why_tests_cant": "Which of three representations the loader picks for a categorical split depends on the words in the file. Tests contain a few sets in the form that LightGBM writes; equality of all representations for all values of a feature is a universal statement.", "anchors": ["lgensemble_io.go:103-289", "lgtree.go:26-73", "lgtree.go:74-94", "lgensemble.go:50-66"]}
{"id": "C129", "title": "Scores can be recomputed from the leaf indices and the leaf values of the file", "statement": "If the leaf view (EnsembleWithLeafPredictions) of a model read from a LightGBM text file succeeds for a row, then every number it stores is the position of a value in the list leaf_value of the corresponding tree in the file; the model itself predicts for this row, with every number of estimators and every buffer with room, and its raw scores are exactly the ordered sums of the values found this way (times 1/n for averaged models). So the file and the leaf indices explain every score; no other property of the row enters.", "quantifier": "all valid LightGBM text files, boosted or averaged, with any numbers of classes and estimators; all rows, buffers and numbers of estimators", "why_tests_cant": "The tests compare scores with LightGBM and leaf indices with LightGBM, on a few rows each. That both agree with each other through the file for all models and rows, including single-leaf trees and NaN, needs a proof about loader and both predictions together.", "anchors": ["lgensemble.go:50-66", "lgensemble.go:68-84", "lgtree.go:74-94", "lgensemble_io.go:103-289", "leaves.go:296-307"]}
{"id": "C130", "title": "Every notation of a number in a CSV file is read as the number it denotes", "statement": "If each cell of a CSV file is a decimal numeral, a hexadecimal numeral as C's verb %a writes it, one of the names nan, inf, infinity (in small or capital letters, the infinities with a sign), or empty, DenseMatFromCsv returns the matrix of exactly the float64 these cells denote: the nearest one for numerals, the default value for empty cells. A hexadecimal numeral of a float64 is read without any rounding; one beyond the range is an error. What a cell means is unique, so no cell can be read in two ways (1e5 without 0x is decimal, with it hexadecimal).", "quantifier": "all tables of such cells with at least one row and column, all delimiters without characters of numbers, all default values, all ways to end lines", "why_tests_cant": "The tests read a few tables with short decimal numbers. There are infinitely many spellings of a number; that each is read as the nearest float64 is a statement about arbitrary long digit strings.", "anchors": ["mat/mat_io.go:79-99", "mat/mat_io.go:195-244"]}
{"id": "C131", "title": "Features may be measured in other units", "statement": "If the thresholds of a model file are converted to another unit, by any conversion that keeps the order of the thresholds and of the values that occur, and NaN, the model predicts for converted rows exactly what the original predicts for the original rows: leaf values, shapes and everything else stay. Zeros that count as missing must stay zeros; where nothing counts as missing and NaN occurs (it counts as 0) the thresholds must stay on their side of 0; categorical features are not converted. Sparse matrices may be converted entry by entry if the conversion leaves the value of absent entries (0, or NaN for XGBoost) alone.", "quantifier": "all valid LightGBM text files and XGBoost binary files, all conversions per feature that keep the order of the values in question, all rows, dense and sparse matrices, buffers, numbers of estimators and threads", "why_tests_cant": "Only a proof covers all conversions: the tests know one unit. Rounding in the conversion, missing values and zeros all could break it.", "anchors": ["lgtree.go:48-94", "lgensemble.go:50-66", "xgensemble.go:58-70", "leaves.go:120-230"]}
{"id": "C132", "title": "Every notation of a number in a libsvm file or a pickle is read as the number it denotes", "statement": "If the value of each entry of a libsvm file is a decimal numeral, a hexadecimal numeral or one of the names nan, inf, infinity (in small or capital letters, the infinities with a sign), CSRMatFromLibsvm returns the sparse matrix of exactly the float64 these texts denote, the nearest one for numerals; entries of the same row may be written in different notations. A Python float in a pickle (written as text by the protocol scikit-learn models are stored with) is decoded to exactly the float64 its text denotes, so the learning rate of a model arrives bit by bit.", "quantifier": "all libsvm files of rows with at least one entry, all spellings of the values, all labels without blanks, all limits, all ways to end lines; all texts of a float in a pickle and all bytes that follow it", "why_tests_cant": "The tests read files written by one program in one notation. There are infinitely many spellings of each number.", "anchors": ["mat/mat_io.go:50-64", "mat/mat_io.go:140-193", "internal/pickle/decoder.go:90-100"]}
{"id": "C133", "title": "Which number a leaf has in XGBoost and scikit-learn models", "statement": "For a model read from an XGBoost or scikit-learn file, the number that a leaf-index prediction stores for a tree is the position of the reached leaf in a fixed order of the leaves, which depends on the shape of the tree only: at every split first the leaves directly below it are counted, the left one before the right one, then the leaves further down on the right, then the leaves further down on the left. It is neither the number of the node in the file (what the original libraries report) nor the position of the leaf from left to right.", "quantifier": "all well-formed XGBoost binary files (gbtree and dart) and all pickled gradient boosting classifiers, all rows, all trees", "why_tests_cant": "The tests compare leaf indices for a few fixed models. There are infinitely many tree shapes, and the order shows only for trees with splits on both sides.", "anchors": ["xgensemble_io.go:24-134", "skensemble_io.go:12-115", "lgensemble.go:68-81", "xgensemble.go:72-85"]}
{"id": "C134", "title": "Leaf indices depend on the splits only", "statement": "Two model files of the same format with the same splits have the same leaf-index predictions, for every row and for whole matrices with any number of threads, whatever the values of the leaves are: LightGBM text files that differ in leaf values and in averaging, XGBoost files that differ in leaf values, statistics, base score, objective, booster and weights of trees, scikit-learn classifiers that differ in values, learning rate and initial estimator. The scores of a refitted LightGBM model can be computed from the leaf indices of the original model and the leaf values of the new file.", "quantifier": "all pairs of well-formed files of the three formats with the same splits, all rows and matrices, all numbers of estimators and threads", "why_tests_cant": "A statement about pairs of files; the tests predict leaf indices for single models.", "anchors": ["leaves.go:298-307", "lgensemble.go:68-81", "xgensemble.go:72-85", "lgtree.go:90-133"]}
{"id": "C135", "title": "Which texts are numbers, and underscores in numbers", "statement": "The texts that are read as a float64 are exactly the decimal and hexadecimal numerals in range and the names of NaN and the infinities, and each is read as what it denotes. Underscores are accepted exactly where each stands between two digits or after the hexadecimal prefix, and change nothing. A CSV file with the same number of cells in every line is either read as the matrix of the numbers its cells denote, or refused with an error because some cell, wherever it is, denotes none. A libsvm file with a value that denotes no number is refused too.", "quantifier": "all texts, all tables of cells with any delimiter that occurs in no cell and in no number, all default values; exponents of 10000 and more apart", "why_tests_cant": "The tests read a few well-formed files. That nothing but numbers is accepted is a statement about all texts.", "anchors": ["mat/mat_io.go:140-193", "mat/mat_io.go:195-243", "internal/pickle/decoder.go:90-100"]}
{"id": "C136", "title": "Scores are made of numbers that stand in the model file", "statement": "Whatever text is accepted as a LightGBM model, whether well-formed or not, consists of a header and one block of lines per tree, and every score the loaded model predicts is the sum (for averaging models divided by the number of estimators) of numbers that stand in the leaf_value lines of these blocks, one from the block of each tree of the class that is used. A file with anything else in a leaf_value line is refused. Likewise, whatever bytes are accepted as an XGBoost tree model, every score is the base score of the file plus numbers that stand in leaves of its trees, multiplied in dart files by the weights that stand behind the trees. And whatever pickle of a Python value is accepted as a scikit-learn model and has trees, every score is a sum of values of the trees of a classifier that the pickle holds, multiplied by its learning rate, plus the prior score of the class. No score is made of anything that is not in the file.", "quantifier": "all texts that LGEnsembleFromReader accepts and all byte sequences that XGEnsembleFromReader accepts (with at least one class), all pickles of Python values that SKEnsembleFromReader accepts, all rows, all numbers of estimators, on every platform", "why_tests_cant": "The tests load well-formed files only. What damaged or hand-edited files that still load can predict is a statement about all texts.", "anchors": ["lgensemble_io.go:103-290", "lgensemble_io.go:293-391", "lgtree.go:74-94", "lgensemble.go:35-66", "xgensemble_io.go:24-249", "skensemble_io.go:12-176"]}
