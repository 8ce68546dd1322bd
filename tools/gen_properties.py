#!/usr/bin/env python3
"""Writes /verif/properties.jsonl (one JSON object per line)."""
import json, os
P = []
def p(id, title, statement, quantifier, why, anchors):
    P.append(dict(id=id, title=title, statement=statement, quantifier=quantifier,
                  why_tests_cant=why, anchors=anchors))

# ---------------------------------------------------------------- tree walking
p("C01", "Numerical split routing",
  "A prediction that meets a numerical split goes left exactly when LightGBM's documented rule says so: with missing type None a NaN counts as 0; with missing type Zero a value in (-1e-35, 1e-35] (and a NaN, which counts as 0) takes the default direction; with missing type NaN a NaN takes the default direction; every other value goes left iff value <= threshold under IEEE-754 comparison.",
  "all split flags, all float64 thresholds, all float64 feature values including NaN, infinities and signed zeros",
  "The space of (flags, threshold, value) triples is 2^136; boundary behaviour sits at single bit patterns.",
  ["lgtree.go:lgTree.numericalDecision", "lgtree.go:isZero"])
p("C02", "Categorical split routing",
  "A prediction that meets a categorical split goes left exactly when the truncated, non-negative category is a member of the split's category set, whichever of the three stored encodings (one category, one 32-bit word, long bitset) was chosen; negative categories go right; NaN goes right under missing type NaN.",
  "all category sets (any number of 32-bit words), all representable categories, all three encodings",
  "Category sets have unbounded length and three encodings chosen by population count; tests only sample a few.",
  ["lgtree.go:lgTree.categoricalDecision", "lgtree.go:lgTree.findInBitset", "util/util.go:FindInBitsetUint32", "lgensemble_io.go:lgTreeFromReader"])
p("C03", "LightGBM text tree is evaluated as written",
  "For every tree block of a LightGBM text model whose child arrays describe a tree, the loaded tree returns on every feature vector the leaf value found by walking the file's own left_child/right_child arrays with LightGBM's split rule.",
  "all well-formed trees of any size and shape, all feature vectors, numerical and categorical splits",
  "The loader renumbers nodes with an explicit-stack traversal and implicit right children; correctness for every tree shape needs induction over trees.",
  ["lgensemble_io.go:lgTreeFromReader", "lgtree.go:lgTree.predict"])
p("C04", "LightGBM text leaf numbers are preserved",
  "For every loaded LightGBM text tree, the leaf index reported for a feature vector is the leaf number that the file's child arrays give (the bitwise complement of the negative child reference).",
  "all well-formed trees, all feature vectors", "Same as C03; leaf numbering must survive renumbering of internal nodes for every shape.",
  ["lgensemble_io.go:lgTreeFromReader", "lgtree.go:lgTree.predict"])
p("C05", "LightGBM JSON tree is evaluated as written",
  "For every tree object of a LightGBM JSON dump whose num_leaves equals its actual number of leaves and whose num_cat is positive if it has categorical splits, the loaded tree returns on every feature vector the leaf_value found by walking the nested left_child/right_child objects.",
  "all JSON trees of any depth, all feature vectors", "The loader flattens the tree through raw pointers into a slice that must not be reallocated; only an all-shapes argument shows every pointer is still live.",
  ["lgensemble_io.go:unmarshalTree", "lgensemble_io.go:unmarshalNode"])
p("C06", "XGBoost tree is evaluated as written",
  "For every XGBoost tree whose node array describes a tree, the loaded tree returns on every feature vector the leaf value XGBoost's own walk finds: left iff value < split condition, missing values to the default child.",
  "all XGBoost trees, all feature vectors", "A single feature value equal to a split condition is enough to differ; random tests do not hit equality.",
  ["xgensemble_io.go:xgTreeFromTreeModel", "lgtree.go:lgTree.numericalDecision"])
p("C07", "scikit-learn tree is evaluated as written",
  "For every fitted scikit-learn regression tree whose node array describes a tree, the loaded tree returns on every NaN-free feature vector value*learning_rate+base of the leaf found by walking the node array with `<=`.",
  "all scikit-learn trees, all feature vectors, all learning rates and priors", "Same traversal argument as C03, plus leaf renumbering in creation order.",
  ["skensemble_io.go:lgTreeFromSklearnDecisionTreeRegressor"])
p("C08", "Prediction terminates",
  "Evaluating a tree obtained from a well-formed model file always terminates, on every feature vector.",
  "all well-formed trees, all feature vectors", "Non-termination cannot be observed by a test; it needs a ranking argument.",
  ["lgtree.go:lgTree.predict"])
p("C09", "No out-of-range access while predicting",
  "If every split feature of a loaded model is below NFeatures() and the supplied row has at least NFeatures() values, then prediction never indexes outside a slice (no runtime panic).",
  "all well-formed models, all feature vectors of sufficient length", "A single bad index anywhere in any tree suffices; tests cannot enumerate models.",
  ["lgtree.go:lgTree.predict", "lgensemble.go:lgEnsemble.NFeatures", "xgensemble.go:xgEnsemble.NFeatures"])
# ---------------------------------------------------------------- ensembles
p("C10", "Raw prediction is the ordered sum over the first estimators",
  "The raw prediction of a tree model for output group k is, in floating point and in this order, the start value (0 for LightGBM/sklearn, base score for XGBoost) plus the contribution of estimators 0..n-1 of group k, each contribution being the tree value times its weight (1, 1/n for random forests, the drop weight for DART).",
  "all ensembles, any number of estimators and groups, all feature vectors", "Unbounded numbers of trees and groups; the tree index arithmetic must be right for all of them.",
  ["lgensemble.go:lgEnsemble.predictInner", "xgensemble.go:xgEnsemble.predictInner"])
p("C11", "nEstimators is normalised",
  "Passing nEstimators <= 0 or >= NEstimators() uses all estimators; any other value uses exactly that many; gblinear ignores the argument.",
  "all integers, all ensembles", "Quantifies over all integers and ensembles.",
  ["lgensemble.go:adjustNEstimators", "xgensemble.go:adjustNEstimators", "xgblinear.go:adjustNEstimators", "util/util.go:MinInt"])
p("C12", "Predict writes exactly its output window",
  "A successful Predict overwrites exactly the first NOutputGroups() elements of predictions and leaves every other element unchanged; a Predict that returns an error changes nothing.",
  "all ensembles, all output slices and prior contents", "Quantifies over the prior contents of memory the call must not touch.",
  ["leaves.go:Ensemble.Predict", "leaves.go:Ensemble.predictInnerAndTransform"])
p("C13", "PredictSingle agrees with Predict",
  "PredictSingle returns Predict's single output when the model has one output group and the row is long enough, and quietly returns 0.0 when the model has several output groups or the row is too short.",
  "all ensembles, rows and nEstimators", "Equality of two code paths over all models.",
  ["leaves.go:Ensemble.PredictSingle", "leaves.go:Ensemble.Predict"])
p("C14", "PredictDense is row-wise Predict",
  "A successful PredictDense stores in row i's window exactly what Predict returns for row i of the matrix, for every number of threads, and leaves the rest of predictions unchanged.",
  "all matrices, all row counts, all thread counts, all schedules", "Any number of rows and schedules.",
  ["leaves.go:Ensemble.PredictDense"])
p("C15", "PredictCSR is Predict on the densified row",
  "A successful PredictCSR stores in row i's window exactly what Predict returns for the dense row of NFeatures() values in which listed columns hold their (last listed) value, unlisted columns hold 0 (LightGBM, sklearn, gblinear) or NaN (XGBoost trees), and columns >= NFeatures() are ignored. (There must be room for one such row, see C102.)",
  "all CSR matrices, all thread counts, all schedules", "The row buffer is reused between rows; leakage from an earlier row depends on the whole history.",
  ["leaves.go:Ensemble.PredictCSR", "leaves.go:Ensemble.predictCSRInner", "lgensemble.go:resetFVals", "xgensemble.go:resetFVals"])
p("C16", "Parallel dense prediction equals sequential prediction under every schedule",
  "Whenever the multi-threaded PredictDense returns, predictions holds exactly the result of the single-threaded loop, for every interleaving of the workers' individual loads and stores and every task hand-out order.",
  "all interleavings, all worker counts, all inputs", "Interleavings are unbounded and not controllable from a test.",
  ["leaves.go:Ensemble.PredictDense"])
p("C17", "Parallel CSR prediction equals sequential prediction under every schedule",
  "Whenever the multi-threaded PredictCSR returns, predictions holds exactly the result of the single-threaded loop, for every interleaving.",
  "all interleavings, all worker counts, all inputs", "As C16, with a worker-local row buffer that persists across tasks.",
  ["leaves.go:Ensemble.PredictCSR", "leaves.go:Ensemble.predictCSRInner"])
p("C18", "Workers never race",
  "In no reachable state of a parallel prediction do two workers have a next access to the same element of predictions.",
  "all reachable states of all schedules", "Absence of races is a statement about all schedules.",
  ["leaves.go:Ensemble.PredictDense", "leaves.go:Ensemble.PredictCSR"])
p("C19", "Parallel prediction neither deadlocks nor runs forever",
  "If the sequential computation succeeds then in every reachable non-final state of the parallel one some step is enabled, and every execution is finite.",
  "all reachable states, all schedules", "Deadlock freedom and termination over all schedules.",
  ["leaves.go:Ensemble.PredictDense", "leaves.go:Ensemble.PredictCSR"])
p("C20", "Dense and CSR prediction agree",
  "For a model whose rows are given densely with at least NFeatures() columns, PredictCSR on CSRMatFromArray of the matrix gives the same predictions as PredictDense on the matrix.",
  "all matrices, all ensembles", "Relates two APIs over all matrices.",
  ["leaves.go:Ensemble.PredictCSR", "leaves.go:Ensemble.PredictDense", "mat/mat.go:CSRMatFromArray"])
p("C21", "Predictions do not depend on the output buffer's previous contents",
  "The values a successful Predict writes do not depend on what the predictions slice held before.",
  "all ensembles, all pairs of prior buffer contents", "A two-run (non-interference) property.",
  ["leaves.go:Ensemble.Predict", "xgblinear.go:predictLeafIndicesInner"])
p("C22", "Leaf-index predictions are laid out and bounded as documented",
  "The leaf prediction at position groupID*NEstimators()+estimatorID is the leaf index of tree (estimatorID, groupID), represented exactly, and is below NLeaves() at the same position.",
  "all ensembles built from well-formed trees, all feature vectors", "Layout arithmetic for all group and estimator counts.",
  ["lgensemble.go:predictLeafIndicesInner", "xgensemble.go:predictLeafIndicesInner"])
p("C23", "NLeaves layout",
  "NLeaves() has NRawOutputGroups()*NEstimators() entries and entry groupID*NEstimators()+estimatorID is the number of leaves of that tree.",
  "all ensembles of well-formed trees", "Index arithmetic for all sizes; leaf count vs node count needs induction on trees.",
  ["lgensemble.go:NLeaves", "xgensemble.go:NLeaves", "lgtree.go:nLeaves"])
p("C24", "Raw and leaf views are pure and idempotent",
  "EnsembleWithRawPredictions and EnsembleWithLeafPredictions may be nested in any order and depth: the outermost view alone decides the output, all metadata except NOutputGroups/Transformation is unchanged, and the viewed ensemble keeps predicting as before.",
  "all nestings of views, all ensembles", "Unbounded nesting depth.",
  ["leaves.go:EnsembleWithRawPredictions", "leaves.go:EnsembleWithLeafPredictions"])
# ---------------------------------------------------------------- transforms
p("C25", "Logistic output is a probability and order preserving",
  "The logistic transformation maps every non-NaN raw score into [0,1] and never reverses the order of two raw scores (in float64 arithmetic, given a monotone non-negative exp).",
  "all float64 raw scores", "2^64 scores (2^128 pairs), with rounding.",
  ["util/util.go:Sigmoid", "transformation/logistic.go"])
p("C26", "Softmax output is a distribution",
  "The softmax transformation writes one number in [0,1] per class, preserves the order of the classes, and the numbers add up to 1 apart from rounding errors ((N+4)*2^-52 for N classes).",
  "all raw score vectors of any length", "Any number of classes, all float64 values; overflow behaviour appears only at extremes.",
  ["util/util.go:SoftmaxFloat64Slice", "transformation/softmax.go"])
p("C27", "Transformation names identify the transformation",
  "Transformation().Name() and Transformation().Type().Name() return the name of the transformation in use, for every transformation a loader can install.",
  "all transformations", "Small domain, but a panic hides in one element; stated for completeness of the table.",
  ["transformation/transformation.go:TransformType.Name", "transformation/exponential.go:Name"])
p("C28", "A transformation never fails silently",
  "When Predict returns nil, the transformation was applied: no successful Predict leaves the output window untouched because the transformation rejected the raw vector.",
  "all loadable models", "Depends on loader-accepted combinations of objective and class count.",
  ["leaves.go:predictInnerAndTransform", "transformation/logistic.go:Transform"])
p("C29", "Leaf prediction demands all estimators",
  "Leaf-index prediction with 0 < nEstimators < NEstimators() is rejected with an error and touches nothing, any other nEstimators is accepted.",
  "all integers nEstimators, all ensembles", "All integers and ensembles.",
  ["leaves.go:checkNEstimators"])
p("C30", "Random forests average over the estimators used",
  "For a LightGBM random forest (average_output) the raw prediction with n estimators accumulates tree value times 1/n over the first n estimators, n being the number actually used rather than the number stored.",
  "all forests, all n", "All forests and n.", ["lgensemble.go:predictInner"])
# ---------------------------------------------------------------- bitsets, conversions
p("C31", "NumberOfSetBits counts bits",
  "util.NumberOfSetBits returns the number of one bits of the whole bitset.",
  "all slices of up to 2^27 32-bit words (beyond that the 32-bit counter wraps)", "2^32 words and unbounded length; the bit trick must hold for every word.",
  ["util/util.go:NumberOfSetBits"])
p("C32", "FirstNonZeroBit finds the lowest bit",
  "util.FirstNonZeroBit returns the smallest bit position set in the bitset, and an error exactly when no bit is set.",
  "all slices of up to 2^27 32-bit words", "The De Bruijn trick must hold for every word.",
  ["util/util.go:FirstNonZeroBit", "util/util.go:multiplyDeBruijnBitPosition"])
p("C33", "ConstructBitset represents its values",
  "util.ConstructBitset of non-negative values returns the shortest bitset in which exactly the given positions are set.",
  "all lists of non-negative integers", "Unbounded values and lists.",
  ["util/util.go:ConstructBitset"])
p("C34", "Stored thresholds survive the float64 detour",
  "A category index or 32-bit category word stored in a node's float64 threshold is read back unchanged, for all 2^32 words; a leaf index stored as float64 identifies the leaf uniquely.",
  "all 32-bit words", "2^32 values; needs exactness of conversion.",
  ["lgtree.go:categoricalNode", "lgtree.go:categoricalDecision", "lgensemble.go:predictLeafIndicesInner"])
# ---------------------------------------------------------------- text input
p("C35", "Parameter blocks are read back as written",
  "ReadParamsUntilBlank on a block of key=value lines ended by a blank line returns exactly those bindings (last one wins for repeated keys; a line without '=' binds to the empty string) and leaves the reader right after the blank line.",
  "all blocks of any number of lines", "Unbounded text.",
  ["util/util.go:ReadParamsUntilBlank"])
p("C36", "Malformed parameter lines are rejected",
  "ReadParamsUntilBlank fails when some line of the block contains two or more '=' signs, and always terminates.",
  "all texts", "All texts.", ["util/util.go:ReadParamsUntilBlank"])
p("C37", "Numeric fields round-trip and out-of-range numbers are rejected",
  "Every non-empty int, int32 and uint32 slice printed in decimal and separated by single spaces is read back as the same slice; numbers outside the target range are rejected, never wrapped.",
  "all integer lists", "All integers; wrap-around bugs appear only past 2^31/2^32/2^63.",
  ["util/util.go:ToInt", "util/util.go:ToInt32Slice", "util/util.go:ToUint32Slice"])
p("C38", "Loaded LightGBM ensembles are consistent",
  "Whenever LGEnsembleFromReader (or LGEnsembleFromJSON) succeeds, NRawOutputGroups() >= 1, NEstimators() >= 1 and the model holds exactly NRawOutputGroups()*NEstimators() trees; a text file whose num_class and num_tree_per_iteration differ is rejected.",
  "all input texts", "All possible files, including malformed ones.",
  ["lgensemble_io.go:LGEnsembleFromReader", "lgensemble_io.go:LGEnsembleFromJSON"])
p("C39", "Whole LightGBM text files load as written",
  "For every well-formed LightGBM model, loading its text rendering succeeds and raw predictions equal the reference sum of the file's trees; bytes after the last tree are irrelevant.",
  "all models, all feature vectors", "End-to-end over all models.",
  ["lgensemble_io.go:LGEnsembleFromReader"])
p("C40", "Objective selects the transformation",
  "With loadTransformation the installed transformation is determined by the objective field as documented, unknown objectives are rejected, and without loadTransformation (or for random forests) raw output is installed.",
  "all objective strings", "All strings.", ["lgensemble_io.go:LGEnsembleFromReader", "lgensemble_io.go:lgObjectiveParse"])
# ---------------------------------------------------------------- XGBoost binary
p("C41", "XGBoost binary records round-trip",
  "Decoding the little-endian byte image of a header, tree, gbtree model or linear model yields the same record and consumes exactly its bytes.",
  "all records, all trailing bytes", "All byte images.",
  ["internal/xgbin/xgbin_io.go"])
p("C42", "Truncated XGBoost files are rejected",
  "Reading any strict prefix of a record's byte image returns an error, never a shorter record.",
  "all records, all cut points", "All cut points of all files.",
  ["internal/xgbin/xgbin_io.go"])
p("C43", "Loaded XGBoost ensembles are consistent",
  "Whenever XGEnsembleFromReader succeeds, NRawOutputGroups() >= 1 and every tree of the file takes part in prediction.",
  "all input files", "All files, including hostile ones.",
  ["xgensemble_io.go:XGEnsembleFromReader"])
p("C44", "DART drop weights are applied per tree",
  "For a 'dart' model tree i contributes value*weight_i with weight_i the i-th stored drop weight; for 'gbtree' every weight is exactly 1 and contributes the tree value itself. A 'dart' file whose weights are all 1 loads and predicts exactly as the 'gbtree' file with the same trees; only the name differs.",
  "all models", "All models; multiplication by 1.0 must be exact for all float64.",
  ["xgensemble_io.go:XGEnsembleFromReader", "xgensemble.go:predictInner"])
p("C45", "gblinear prediction",
  "The raw prediction of gblinear for group k is base_score + bias_k + sum over features of value*weight, accumulated in feature order with the weights laid out feature-major.",
  "all weight matrices, rows", "Unbounded dimensions.",
  ["xgblinear.go:predictInner", "xgblinear_io.go:XGBLinearFromReader"])
# ---------------------------------------------------------------- matrices
p("C46", "CSRMatFromArray represents the array",
  "CSRMatFromArray gives a matrix with the requested rows in which entry (i,j) is values[i*cols+j], with non-decreasing row pointers that end at the number of stored values; wrong dimensions are rejected.",
  "all arrays and shapes", "Unbounded shapes.", ["mat/mat.go:CSRMatFromArray", "mat/mat.go:DenseMatFromArray"])
p("C47", "Matrices read from text are structurally valid",
  "Every CSRMat returned by the libsvm reader has len(RowHeaders) = rows+1, non-decreasing row pointers from 0 to len(Values) = len(ColIndexes); every DenseMat returned by the libsvm or CSV reader has Rows*Cols = len(Values); at most `limit` rows are read when limit > 0.",
  "all texts, all limits", "All input texts.",
  ["mat/mat_io.go:readFromLibsvm", "mat/mat_io.go:readFromCsv", "mat/mat_io.go:recordsToDenseMat", "mat/mat_io.go:recordsToCSRMat"])
p("C48", "libsvm text round-trips",
  "Reading the libsvm rendering of a sparse matrix returns that matrix.",
  "all sparse matrices", "Unbounded matrices.", ["mat/mat_io.go:CSRMatFromLibsvm", "mat/mat_io.go:DenseMatFromLibsvm"])
p("C49", "CSV write/read round-trips",
  "Reading back with DenseMatFromCsv what WriteStr wrote (same delimiter) returns the same matrix, given that number formatting and parsing are inverse and the delimiter and whitespace do not occur in numbers.",
  "all consistent dense matrices", "Unbounded matrices.", ["mat/mat_io.go:WriteStr", "mat/mat_io.go:DenseMatFromCsv"])
p("C50", "Absent CSV values become the default value",
  "A field left empty in a CSV row is read as defValue in its own column.",
  "all rows, all positions of the empty field, all delimiters", "Position- and delimiter-dependent: fails only for leading/trailing empties with whitespace delimiters.",
  ["mat/mat_io.go:readFromCsv"])
# ---------------------------------------------------------------- pickle / sklearn
p("C51", "Protocol-0 pickles decode to the pickled value",
  "Decoding the protocol-0 pickle of a value built from None, ints, floats, strings, tuples, lists, dicts, globals, REDUCE and BUILD yields that value.",
  "all values of any nesting", "Unbounded nesting.", ["internal/pickle/decoder.go:Decode", "internal/pickle/machine.go"])
p("C52", "Unicode escapes are decoded correctly",
  "For every byte string, decoding its protocol-0 escaping of backslash and newline returns the string.",
  "all byte strings", "Two overlapping substitutions applied in sequence; must hold for all strings.",
  ["internal/pickle/decoder.go:decodeUnicode"])
p("C53", "Memoised objects are shared",
  "An object fetched from the memo equals the memoised object in its current state (as Python's shared references demand), also when it was extended after being memoised.",
  "all pickle programs", "Depends on aliasing of Go slices vs maps.", ["internal/pickle/machine.go:getMemory", "internal/pickle/decoder.go:Decode"])
p("C54", "scikit-learn node records are decoded field by field",
  "SklearnNodeFromBytes inverts the 56-byte little-endian layout, including negative child indices, and raw arrays are cut into exactly len/size consecutive chunks (other lengths are rejected).",
  "all node records, all arrays", "All 2^448 records.", ["internal/pickle/sklearn.go:SklearnNodeFromBytes", "internal/pickle/numpy.go:Iterate", "util/util.go:Float64FromBytes"])
p("C55", "scikit-learn prior is added exactly once",
  "In a loaded GradientBoostingClassifier the prior is folded into the trees of the first estimator only, so that using n >= 1 estimators adds it exactly once per output group.",
  "all models, all n", "All models and n.", ["skensemble_io.go:SKEnsembleFromReader"])
p("C56", "scikit-learn ensembles are consistent",
  "Whenever SKEnsembleFromReader succeeds, there are NEstimators*NRawOutputGroups trees with at least one estimator, and binary classification uses one output group.",
  "all inputs", "All inputs.", ["skensemble_io.go:SKEnsembleFromReader", "internal/pickle/sklearn.go:SklearnGradientBoosting.Build"])
p("C57", "Malformed input yields an error, not a crash",
  "Loading any byte sequence returns a model or an error; it never panics.",
  "all byte sequences", "All inputs.", ["internal/xgbin/xgbin_io.go", "internal/pickle/machine.go", "lgensemble_io.go"])
p("C58", "Single-feature models are usable",
  "A model trained on one feature reports NFeatures() = 1 and can be used with PredictCSR like any other.",
  "all single-feature models", "A boundary of NFeatures that affects all rows.", ["lgensemble.go:NFeatures", "xgensemble.go:NFeatures"])
p("C59", "The output-length check protects every write",
  "If PredictDense/PredictCSR pass their length check, every row's window lies inside predictions.",
  "all shapes, including products that exceed the integer range", "Overflow only at astronomically large shapes.",
  ["leaves.go:PredictDense", "leaves.go:PredictCSR"])
p("C60", "Every batch is handed out exactly once and the batches tile the rows",
  "The number of batches computed in floating point covers every row exactly once for every row count.",
  "all row counts up to 2^53", "Float rounding in the batch count matters only at huge sizes; coverage for all sizes needs proof.",
  ["leaves.go:PredictDense", "leaves.go:PredictCSR", "leaves.go:BatchSize"])
p("C61", "Leaf indices identify leaves",
  "For every loaded tree with a split, the leaf indices reported for rows are 0..n-1 for the n leaves of the file's tree, a different one for each leaf, so that two rows get the same index exactly when they end in the same leaf.",
  "all trees, all rows", "Numbering is produced by a traversal; tests check a few trees by value and would miss two leaves sharing an index.",
  ["xgensemble_io.go:xgTreeFromTreeModel", "skensemble_io.go:lgTreeFromSklearnDecisionTreeRegressor", "lgtree.go:predict"])
p("C62", "Whole XGBoost files predict as written",
  "A byte image of a gbtree, dart or gblinear model with N estimators in K groups loads; the loaded model reports K raw output groups and N estimators; and its prediction for every row is, per group, the base score plus the (weighted) values of the leaves that XGBoost's own walk over the file's nodes reaches, put through the objective's transformation if requested.",
  "all files, all rows, all numbers of estimators", "End-to-end fidelity of the loader: tests compare a handful of files and rows within a tolerance.",
  ["xgensemble_io.go:XGEnsembleFromReader", "xgensemble_io.go:XGBLinearFromReader", "xgensemble.go:predictInner", "xgblinear.go:predictInner"])
p("C63", "Whole scikit-learn pickles predict as written",
  "Every protocol-0 pickle of a fitted GradientBoostingClassifier with N estimators loads; the loaded model reports N estimators and one raw output group per class (one for two classes); and its prediction for every row is, per group, the prior plus the sum of learning rate times the value of the leaf that scikit-learn's own walk over the pickled node arrays reaches (NaN read as 0).",
  "all pickles (any memoisation, byte order of float arrays and tree shape), all rows, all numbers of estimators", "End-to-end fidelity of the decoder, the object parser and the tree conversion: tests compare a few pickles and rows within a tolerance.",
  ["skensemble_io.go:SKEnsembleFromReader", "internal/pickle/machine.go", "internal/pickle/sklearn.go"])
p("C64", "scikit-learn models report the number of features they were trained on",
  "NFeatures() of a loaded GradientBoostingClassifier is the number of features of its training data, so that rows that are too short are rejected with an error.",
  "all classifiers", "Depends on a hyperparameter (max_features) that test models leave at its default.",
  ["skensemble_io.go:SKEnsembleFromReader", "lgensemble.go:NFeatures", "leaves.go:Predict"])
p("C65", "Loading always terminates",
  "Each loader (LightGBM text and JSON, XGBoost trees and linear, scikit-learn pickle) returns, with a model, an error or a crash, on every input; no input makes it loop forever.",
  "all byte sequences and JSON documents", "A loop that fails to advance shows on one crafted input only.",
  ["lgensemble_io.go:LGEnsembleFromReader", "lgensemble_io.go:LGEnsembleFromJSON", "xgensemble_io.go:XGEnsembleFromReader", "internal/pickle/machine.go:Decoder.Decode", "util/util.go:ReadParamsUntilBlank"])
p("C66", "A model that loads can be evaluated",
  "If a loader returns a model without an error, Predict returns (a result or an error) for every row with NFeatures() values.",
  "all inputs that load, all rows", "All inputs and rows; one unreachable-looking cycle in one file suffices to hang a server.",
  ["lgensemble_io.go:lgTreeFromReader", "lgtree.go:lgTree.predict", "leaves.go:Predict"])
p("C67", "Whole LightGBM JSON dumps predict as written",
  "A well-formed JSON dump with N estimators in K groups loads; the loaded model reports K raw output groups, N estimators and max_feature_idx+1 features; and its raw prediction for every row is, per group, the sum of the values of the leaf objects that LightGBM's own walk over the nested objects reaches.",
  "all documents, all rows, all numbers of estimators", "End-to-end fidelity of the loader over all nestings; tests compare a few dumps.",
  ["lgensemble_io.go:LGEnsembleFromJSON", "lgensemble_io.go:unmarshalTree", "lgensemble.go:predictInner"])
p("C68", "Text and JSON forms of a LightGBM model agree",
  "Loading the text file and the JSON dump of the same LightGBM model gives models with the same number of outputs, features and estimators and with identical predictions for every row.",
  "all models, all rows, all numbers of estimators", "Two independent loaders must agree on every model; tests compare one model's predictions within a tolerance.",
  ["lgensemble_io.go:LGEnsembleFromReader", "lgensemble_io.go:LGEnsembleFromJSON"])
p("C69", "JSON dumps are read by member name",
  "The outcome of loading a JSON dump does not depend, at any depth, on the order of an object's members, on members the loader does not know, or on members that a later member with the same key replaces, or on null in place of an absent plain value; member names are read as they are written in LightGBM's dumps.",
  "all JSON documents", "Dumps of other LightGBM versions add and reorder members; tests contain dumps of one version.",
  ["lgensemble_io.go:LGEnsembleFromJSON", "lgensemble_io.go:unmarshalNode", "lgensemble_io.go:lgTreeJSON"])
p("C70", "The scikit-learn loader accepts only classifiers it understands",
  "If a pickle loads as a model with trees, it is a GradientBoostingClassifier whose trees, priors, learning rate and counts are stored under scikit-learn's names, with the expected classes, array types, byte orders and C order; pickles of other classes and arrays in Fortran order are refused with an error.",
  "all protocol-0 pickles", "Rejection over all possible object graphs; tests load a few good files.",
  ["skensemble_io.go:SKEnsembleFromReader", "internal/pickle/numpy.go:NumpyArrayRaw", "internal/pickle/sklearn.go"])
p("C71", "Transformations check what they are given",
  "Transform of a transformation object returns nil exactly when the number of raw values is the one it expects, in which case it stores its result at the given position and nowhere else; otherwise it returns an error and stores nothing.",
  "all transformations, raw vectors, positions and buffers", "All lengths and positions; tests use correct lengths.",
  ["transformation/softmax.go:Transform", "transformation/logistic.go:Transform", "transformation/exponential.go:Transform", "transformation/raw.go:Transform"])
p("C72", "Tolerance comparisons accept what is close and reject what is far",
  "The comparison helpers accept two numbers, or two slices of equal length, whose elements differ by at most the tolerance, and reject them when a difference exceeds it by more than rounding; slices of different lengths are rejected; the number of mismatches counts the rejected positions; NaN never passes for a number.",
  "all float64 values, slices and tolerances", "Boundary cases, cancellation and special values over all floats; every comparison test in the repository relies on these helpers.",
  ["util/util.go:AlmostEqualFloat64", "util/util.go:AlmostEqualFloat64Slices", "util/util.go:NumMismatchedFloat64Slices", "util/util.go:SigmoidFloat64SliceInplace"])
p("C73", "Predictions depend only on the features the model tests",
  "Two rows that agree on every feature that some split of the model tests (every feature with a weight, for linear models) get the same outcome from Predict and PredictSingle: result, error or crash; values after those a successful prediction was made from, and columns appended to a dense matrix, change nothing.",
  "all models, all pairs of rows and matrices, all numbers of estimators and threads", "Independence of all values of all other features; tests use rows of one data set.",
  ["leaves.go:Predict", "leaves.go:PredictSingle", "leaves.go:PredictDense", "lgtree.go:predict"])
p("C74", "One more estimator adds one more tree per group",
  "The raw scores with n+1 estimators are the raw scores with n estimators plus, per output group, the value of the group's tree of the next estimator (times its weight for XGBoost models with weighted trees), added in floating point; so scores can be built up stage by stage.",
  "all models without averaging, all rows, all n", "Holds bit by bit for every n; tests compare a few n within a tolerance.",
  ["lgensemble.go:predictInner", "xgensemble.go:predictInner", "leaves.go:Predict"])
p("C75", "Sparse predictions do not depend on how the matrix is written down",
  "PredictCSR stores for each row what Predict returns for the row that its entries describe (the format's default value where there is no entry, the last entry where there are several); so the order of entries with different columns, entries with the default value and entries for columns the model does not have do not matter, nor does the number of threads.",
  "all models, all compressed matrices, all thread counts and interleavings", "All equivalent writings of all matrices; tests use canonical matrices made by one tool.",
  ["leaves.go:PredictCSR", "leaves.go:predictCSRInner", "mat/mat.go:CSRMat"])
p("C76", "Predictions from matrix files are predictions of the file's rows",
  "Reading a libsvm or delimited file and predicting from the matrix gives, row by row and in the order of the file, what Predict returns for the row written there.",
  "all models, all files, all thread counts and interleavings", "Composition of reader and batch prediction over all files; tests compare one file per format.",
  ["mat/mat_io.go:CSRMatFromLibsvm", "mat/mat_io.go:DenseMatFromLibsvm", "mat/mat_io.go:DenseMatFromCsv", "leaves.go:PredictCSR", "leaves.go:PredictDense"])
p("C77", "Concurrent calls on one model do not disturb each other",
  "When several goroutines call Predict, PredictDense or PredictCSR at the same time, on the same model or on several, with predictions slices that do not overlap, each call returns what it returns when made alone and leaves in its slice what it then leaves there, whatever the interleaving; memory outside the slices is untouched; and if each call succeeds alone, all of them return.",
  "all numbers of calls, models, arguments, thread counts and interleavings", "The number of interleavings is unbounded; the race detector sees the executed ones only.",
  ["leaves.go:Predict", "leaves.go:PredictDense", "leaves.go:PredictCSR"])
p("C78", "Row and predictions in one array",
  "When the row and the predictions passed to Predict are slices of one array, Predict returns what it returns with slices of their own, puts the same predictions into the predictions slice, and leaves every other element of the array, hence a separate row, unchanged. (Proved for slices that do not overlap, and for slices that overlap anyhow when the model has a transformation; false for overlapping slices and raw scores or leaf indices.)",
  "all models, arrays, slices of them, and numbers of estimators", "Tests pass slices allocated apart; whether one may reuse a buffer depends on the order of all loads and stores.",
  ["leaves.go:Predict", "leaves.go:predictInnerAndTransform", "lgensemble.go:predictInner", "xgensemble.go:predictInner", "xgblinear.go:predictInner", "lgtree.go:predict"])
p("C79", "Monotone constraints survive",
  "If every tree of a model file obeys a monotone constraint on a feature (at every split of the feature, no leaf on the left is above a leaf on the right; reversed for a decreasing constraint), then raising that feature in a row, all else equal, does not lower any prediction (does not raise it), for any number of estimators, rounding of every addition and multiplication included, and also after the logistic transformation. The same holds for a linear model and a feature whose weights all have the right sign. The two values must not count as missing.",
  "all well-formed LightGBM text files and JSON dumps, XGBoost tree and linear files, scikit-learn pickles; all rows, numbers of estimators, and both directions", "Users train with monotone_constraints and rely on the served model honouring them; tests compare a handful of rows, and whether floating-point rounding can break the order is not visible in any of them.",
  ["lgtree.go:predict", "lgtree.go:numericalDecision", "lgensemble.go:predictInner", "xgensemble.go:predictInner", "xgblinear.go:predictInner", "transformation/logistic.go"])
p("C80", "Name tells what was loaded",
  "Name() of every successfully loaded model names its origin: 'lightgbm.rf' for a text file whose header has an average_output line and 'lightgbm.gbdt' for every other text file or JSON dump, 'xgboost.gbtree', 'xgboost.dart' or 'xgboost.gblinear' as the file's header names the booster, 'sklearn.ensemble.GradientBoostingClassifier' for a pickle. No byte sequence is accepted by both XGBoost loaders: what one accepts the other rejects with an error.",
  "all inputs that a loader accepts, all platforms, with or without loading the transformation", "Callers dispatch on Name() and try loaders in turn; tests look at one file per format.",
  ["lgensemble_io.go:LGEnsembleFromReader", "lgensemble_io.go:LGEnsembleFromJSON", "xgensemble_io.go:XGEnsembleFromReader", "xgblinear_io.go:XGBLinearFromReader", "skensemble_io.go:SKEnsembleFromReader", "leaves.go:Name"])
p("C81", "Leaf indices of whole files",
  "For every well-formed model file of trees with K groups and N estimators, EnsembleWithLeafPredictions of the loaded model has K*N outputs; NLeaves() has an entry k*N+i for the tree of estimator i and group k, and it is the number of leaves that this tree has in the file; and a prediction through the view succeeds exactly when the slice has room, the row is long enough, all estimators are asked for and every tree can be evaluated, and then stores at k*N+i the number of the leaf that the file's own arrays lead to. For LightGBM text files this is the leaf number of the file; for the other formats the leaves of every tree are numbered from 0 without gaps, one number each. The leaf numbers do not depend on whether a LightGBM model was saved as text or as a JSON dump.",
  "all well-formed files of the four tree formats, all rows, all requested estimator counts, all slices, all platforms", "Leaf indices are used as categorical features by downstream models; tests compare a few rows of one model per format and the text format only.",
  ["leaves.go:EnsembleWithLeafPredictions", "leaves.go:NLeaves", "lgensemble.go:predictLeafIndicesInner", "xgensemble.go:predictLeafIndicesInner", "lgensemble_io.go:lgTreeFromReader", "lgensemble_io.go:unmarshalTree", "xgensemble_io.go:xgTreeFromTreeModel", "skensemble_io.go:lgTreeFromSklearnDecisionTreeRegressor"])
p("C82", "Accuracy of predictions",
  "Every finite raw score that Predict stores for a well-formed model file is close to the exact value, computed without rounding, of what the file says: for LightGBM (text and JSON) the sum of the n reached leaf values, with an error of at most n units of 2^-52 of the sum of their absolute values; for averaging forests their mean (n+2 units, plus n times the smallest positive number); for XGBoost trees the base score plus the weighted leaf values (n+1 units, plus n times the smallest positive number); for XGBoost linear models base score plus bias plus weighted features (F+2 units over F features, plus F times the smallest number); for scikit-learn the prior plus the learning rate times the leaf values (n+2 units, plus n times the smallest number). This holds whether or not the compiler fuses multiplications and additions.",
  "all well-formed files of the five formats with fewer than 2^52 - 2 estimators (features), all rows, all requested estimator counts, all slices, all platforms that compute x*y+z as Go permits", "Tests compare with reference predictions up to a fixed tolerance on sample rows; how far the result of summing floats can be off for other models, orders of summation and compilers is not visible in them.",
  ["lgensemble.go:predictInner", "xgensemble.go:predictInner", "xgblinear.go:predictInner", "skensemble_io.go:lgTreeFromSklearnDecisionTreeRegressor", "lgensemble_io.go:LGEnsembleFromReader", "lgensemble_io.go:LGEnsembleFromJSON", "xgensemble_io.go:XGEnsembleFromReader"])
p("C83", "Numbers in text files are read as the nearest float64, and text with 17 significant digits loses nothing",
  "Every number of a CSV file that is written in decimal, with or without point, exponent and sign, becomes the float64 nearest to it (ties to the even one) with the sign that is written; a number too large for a float64 makes the reader return an error. What WriteStr of a dense matrix writes is read back by DenseMatFromCsv bit for bit, including negative zeros, subnormal numbers, infinities and NaN, provided the delimiter has no character of a number in it. A LightGBM text model whose thresholds and leaf values are written with 17 or more significant digits predicts with exactly those values after loading.",
  "for all numerals with an exponent below 10000, all matrices of float64 values with at least one row and column, all delimiters, all models and all ways of printing that get 17 significant digits right", "There are 2^64 float64 values and infinitely many numerals; errors in the last bit only show up for particular values near the middle between two float64 numbers or near powers of two, which samples miss.",
  ["mat/mat_io.go:157-185", "mat/mat_io.go:200-245", "mat/mat_io.go:247-272", "util/util.go:103-122", "lgensemble_io.go:122-178"])
p("C84", "JSON model files mean the same however they are laid out, and damaged ones are rejected",
  "LGEnsembleFromJSON gives the same model for every text of the same JSON object: white space between tokens, escapes in keys and strings (including \\uXXXX and surrogate pairs) and whatever follows the object (even a read error) make no difference, and no text stands for two objects. A file that is any text of a model document predicts what the trees of the document say. Input that does not begin with a JSON value, and every dump cut off before its last character, is rejected with an error. Numbers are read as the nearest float64.",
  "for all JSON documents and all their texts, all texts that are not JSON, all cut positions, all readers", "Every document has infinitely many texts, and files can be damaged in infinitely many ways; tests use a few files written by one program.",
  ["lgensemble_io.go:614-669", "lgensemble_io.go:407-427", "lgensemble_io.go:443-447"])
p("C85", "PredictDense uses only the matrix it is given and rejects one that is too small",
  "PredictDense with nrows rows and ncols columns uses the first nrows*ncols elements of vals and nothing else, and returns an error if vals has fewer elements.",
  "for all models, all slices with any length and spare capacity, all dimensions, all thread counts and interleavings", "Whether a slice is longer or shorter than announced, and what lies behind its end in memory, has unboundedly many cases; tests pass matrices of the right size.",
  ["leaves.go:187-249"])
p("C86", "Predictions stay within the range of the leaf values, and are never NaN when the leaf values are ordinary numbers",
  "If the leaf values of every tree in a model file lie between two bounds for this tree, every raw score (and probability) that any row gets lies between the prediction computed from the lower bounds and the one computed from the upper bounds, rounding included. If all leaf values are finite (and the base score is not NaN), sums of trees are never NaN, whatever the row contains (NaN, infinities).",
  "for all LightGBM (text and JSON), XGBoost tree and scikit-learn files, all bounds, all rows, all numbers of estimators", "A violation needs a particular row and a particular pattern of rounding errors; tests look at the scores of a few rows.",
  ["lgensemble.go:50-66", "xgensemble.go:58-70", "leaves.go:80-96", "transformation/logistic.go:11-18"])
p("C87", "A matrix is written completely or an error is returned",
  "DenseMat.WriteStr returns nil only if the writer has received the whole text of the matrix; otherwise it returns an error, and the writer has received a first part of the text. DenseMat.ToCsvFile returns nil only if the file has the whole text, and a file written without failures gives the same matrix, bit for bit, when it is read again.",
  "for all consistent matrices, delimiters and writers that keep to the contract of io.Writer, failing after any number of bytes", "A violation needs a writer or a disk that fails in the middle of the output; the tests write to a buffer that never fails.",
  ["mat/mat_io.go:246-274", "mat/mat_io.go:277-287"])
p("C88", "LightGBM text files with an objective give transformed predictions",
  "A well-formed LightGBM text file of a boosted model with objective poisson, gamma, tweedie, binary, multiclass or regression, loaded with loadTransformation=true, gives an ensemble with the transformation of that objective; Predict succeeds exactly when the row and the output slice are long enough, and stores the transformation of the sums of the leaf values that the trees in the file give. Random forests are loaded the same with and without their transformation.",
  "for all header lines in any order, tree blocks, numbers of classes and trees, objectives of the supported forms, rows and estimator counts", "The tests compare a few trained models with stored predictions; they cannot cover every header and every tree structure.",
  ["lgensemble_io.go:52-80", "lgensemble_io.go:293-392", "leaves.go:33-44"])
p("C89", "Predicted probabilities are accurate",
  "With a math.Exp of relative error at most eps, every probability stored by Predict for a LightGBM binary or multiclass model or an XGBoost binary:logistic model, loaded with its transformation from a well-formed file with finite numbers, is a finite number that differs from the exact logistic function or softmax of the exact sum of the leaf values by at most a few eps plus a bound of the order n * 2^-52 times the size of the scores. Predictions of poisson, gamma and tweedie models have a relative error of that size.",
  "for all well-formed files whose leaf values are finite and of moderate size, all rows, estimator counts, both ways Go may compute x*y+z, and all accuracies eps of math.Exp", "The tests compare with stored predictions up to a tolerance for a few rows; no test compares with the exact real-valued function, for all inputs.",
  ["transformation/logistic.go:11-18", "transformation/softmax.go:13-20", "transformation/exponential.go:10-17", "util/util.go:250-274", "leaves.go:33-44", "lgensemble.go:50-66", "xgensemble.go:58-70"])
p("C90", "Loading does not depend on how the bytes arrive, and files are always closed",
  "Loading a model or a matrix from a reader gives the same model, matrix or failure for every way the same bytes can be delivered: in pieces of any size, with empty reads in between (fewer than 100 in a row), with io.EOF alone or together with the last bytes, and with any buffer size. The ...FromFile functions do with the contents of the file what the ...FromReader functions do with the whole input, return an error when the file cannot be opened, and leave no file open, also when loading fails or panics.",
  "for all inputs, all readers that keep the io.Reader contract, all sequences of piece sizes, all bufio buffer sizes, all flags", "Tests read from local files in one or two large pieces; the number of ways to split an input grows exponentially with its length.",
  ["util/util.go:29-63", "lgensemble_io.go:293-402", "mat/mat_io.go:22-113", "mat/mat_io.go:140-243", "internal/xgbin/xgbin_io.go:156-320", "xgensemble_io.go:136-260", "xgblinear_io.go:13-59", "internal/pickle/decoder.go:28-193", "skensemble_io.go:117-187"])
p("C91", "Reading a matrix returns a matrix or an error",
  "DenseMatFromLibsvm, CSRMatFromLibsvm and DenseMatFromCsv return a matrix or an error for every text, every limit, every delimiter (the empty one included), also when the reader fails in the middle; they neither panic nor run forever.",
  "for all texts, reader failures, limits, delimiters and default values", "Tests read three well-formed files; the claim is about all texts, including malformed ones.",
  ["mat/mat_io.go:22-32", "mat/mat_io.go:50-61", "mat/mat_io.go:79-95", "mat/mat_io.go:115-243"])
p("C92", "A model file that has been cut off is rejected",
  "When a model file is accepted and its end is then lost (an interrupted download or copy), loading returns an error; it does not give another model and does not panic. More precisely: every accepted file begins with a part that determines the model whatever follows it, and every file with less than this part is rejected with an error.",
  "for all accepted files of every format (XGBoost trees, XGBoost linear, scikit-learn pickles, LightGBM JSON, LightGBM text) and all places at which they can be cut", "Tests load complete files; a file of n bytes can be cut in n places and each has to be rejected.",
  ["util/util.go:29-63", "lgensemble_io.go:293-391", "lgensemble_io.go:615-669", "xgensemble_io.go:136-249", "xgblinear_io.go:13-48", "skensemble_io.go:117-176", "internal/pickle/decoder.go:28-193", "internal/xgbin/xgbin_io.go:156-320"])
p("C93", "PredictCSR accepts CSR matrices and rejects other arrays",
  "Let three arrays be given to PredictCSR. If they are a compressed sparse row matrix (row pointers that begin with 0, do not decrease and end with the number of entries; as many values as columns; columns in range) and Predict accepts rows of the model's width, the call succeeds for every number of threads and every schedule. If they are not such a matrix, the call returns an error. A call that returns an error leaves the predictions unchanged.",
  "for all models, all arrays, all numbers of threads and schedules", "The space of malformed index arrays is unbounded and each must be looked at by some check; tests only pass matrices that the library itself produced.",
  ["leaves.go:104-180"])
p("C94", "LightGBM text files mean the same however they are laid out",
  "Changing the layout of a LightGBM text file does not change what is loaded from it, nor whether it is accepted: white space at the beginning and end of lines, Windows or Unix line ends, the order of the fields in a block (as long as no field is given twice), and additional fields that the model does not use.",
  "for all texts (accepted or not), all layouts with the same fields", "Tests load a handful of files as LightGBM wrote them; the number of layouts of one file is unlimited.",
  ["util/util.go:29-63", "lgensemble_io.go:103-169", "lgensemble_io.go:293-391"])
p("C95", "Matrix files mean the same however their lines are laid out, and limit gives the first rows",
  "The libsvm and CSV readers give the same matrix or error when white space is added or removed at the beginning or end of lines (non-blank ones), when line ends are converted to Windows form, and whether or not the last line ends with a newline. If the whole file can be read, reading it with a positive limit n gives the first n rows of the matrix; a limit that is not positive means all rows; what comes after the first n lines is not looked at.",
  "for all texts, all limits, all delimiters and default values", "Tests read a few files with Unix line ends; layouts and limits are unbounded.",
  ["mat/mat_io.go:22-95", "mat/mat_io.go:115-243"])
p("C96", "Text files are read as the characters their bytes hold, also when they are not UTF-8",
  "Loading a LightGBM text model, or reading a libsvm or CSV matrix, from any sequence of bytes gives the same result as from the characters that the bytes hold: wherever the UTF-8 encoding of a character stands, that character, and U+FFFD for every byte that is not part of one. In particular bytes that are not UTF-8 (such as feature names in Latin-1) do not change how the lines and fields around them are read, the result does not depend on the pieces in which the bytes arrive, and two files in different encodings that agree in the fields of the model give the same model.",
  "for all byte sequences, valid UTF-8 or not, all ways in which they arrive, all delimiters that are UTF-8 and do not contain U+FFFD", "Tests read a few ASCII files; the Go functions involved (TrimSpace, Split, ParseFloat, ReadString) work on bytes and decode partly, and where decoding of a garbled text restarts is not something examples settle.",
  ["util/util.go:29-160", "mat/mat_io.go:140-243", "lgensemble_io.go:61-80", "lgensemble_io.go:520-640"])
p("C97", "Files that begin with a byte order mark",
  "A libsvm or CSV file that begins with a UTF-8 byte order mark is rejected with an error if its first column is data, whatever follows. If the first column is skipped and the text after the mark does not begin with white space, the mark makes no difference. A LightGBM model file whose first line is 'tree' loads the same model with and without a mark.",
  "for all byte sequences after the mark, all ways in which they arrive, all limits, all delimiters (UTF-8, without U+FEFF and U+FFFD; non-empty for the second part)", "No test file has a mark; that no content makes the reader accept or misread the first value is a statement about all files.",
  ["mat/mat_io.go:140-243", "util/util.go:100-160", "lgensemble_io.go:520-640"])
p("C98", "Models that follow each other in one stream are loaded one after another",
  "If a stream consists of whole models in binary formats (XGBoost trees, XGBoost linear, scikit-learn pickle, in any order), where a whole model is a file that loads while nothing cut off from it does, then successive calls of the matching loading functions with the same buffered reader return these models in turn and leave exactly the bytes that follow. Every accepted file begins with a whole model. The same holds for LightGBM text models that end with a blank line and have nothing after the last tree; what follows the trees in other LightGBM files is left in the reader and read as the header of the next model.",
  "for all sequences of models, all bytes that follow, all pieces in which the bytes arrive (without empty reads if a scikit-learn model is among them)", "Tests load one model per file; that a loader never reads a byte too many or too few is a statement about all files.",
  ["xgensemble_io.go:136-249", "xgblinear_io.go:13-48", "internal/pickle/decoder.go:28-193", "skensemble_io.go:117-176", "lgensemble_io.go:293-391"])
p("C99", "JSON dumps load from any byte stream, however it is delivered",
  "Loading a LightGBM JSON dump gives the same result however its bytes arrive: in pieces of any size, with empty reads in between, with the end or a read error reported alone or with the last bytes. The result is that of loading the characters of the input, where each byte that is not part of valid UTF-8 counts as U+FFFD. The loader returns as soon as the closing brace of the document has been delivered: it does not wait for, or look at, anything after it. A reader that keeps delivering nothing without an error keeps the loader waiting forever.",
  "for all sequences of bytes, all ways of delivery with enough reads that are not empty, all errors at the end, all nesting limits", "Tests read files from disk, where everything arrives at once and is valid UTF-8; splits of the input in the middle of a character, an escape, a number or a literal are too many to try.",
  ["lgensemble_io.go:614-669"])
p("C100", "Predictions do not depend on the machine",
  "The same model file loaded on two machines predicts the same rows bit for bit the same, although Go leaves to the machine whether a multiplication and an addition are fused into one rounding, what the conversion of an out-of-range number or NaN to an integer gives, and how many processors there are. This holds for single rows and for dense and CSR matrices with any numbers of threads: for LightGBM text files (with their transformation when the machines share math.Exp) and JSON dumps, and for XGBoost trees, boosted or DART.",
  "for all pairs of machines, all files of the formats, all rows and matrices, all numbers of threads, all schedules", "Tests run on one machine. Whether two instruction sets agree in the last bit on every model and every row cannot be sampled, and the CI machine is not the one in production.",
  ["lgensemble.go:53-68", "xgensemble.go:56-72", "xgblinear.go:33-44", "lgtree.go:49-75", "skensemble_io.go:12-64"])
p("C101", "Matrix and predictions in one array",
  "The values of a matrix and the predictions may be slices of one array. If they do not overlap, PredictDense and PredictCSR have exactly the outcomes they have with slices of their own, with any number of threads, and change nothing but the predictions. Predictions stored over the matrix itself are right for PredictDense without concurrency when the model has a transformation, gives at most as many numbers for a row as the row has, and the predictions do not begin behind the matrix. Outside these conditions, and with several threads in any case, they may be wrong without an error. Whatever the overlap and the outcome, nothing outside the predictions is changed.",
  "for all models, all memory contents, all positions of the two slices, all numbers of threads, all schedules, all outcomes", "Tests use separate slices. Whether an overwritten row was still to be read depends on positions, widths and the schedule of the goroutines, and a wrong prediction raises no error.",
  ["leaves.go:104-180", "leaves.go:187-249", "leaves.go:33-47"])
p("C102", "The announced number of features is usable",
  "The number of features of a loaded model is never negative, so that rows too short for the model are refused, and sparse prediction needs memory only for the matrix. The first half holds for XGBoost models of every kind. For LightGBM models (text or JSON) and scikit-learn models it fails for one value only: the largest integer as the highest feature makes the number of features the smallest integer, and then a row that is too short makes the prediction panic. The second half is false: PredictCSR writes out a row of all features in each thread, and panics for every matrix when there is no room for one such row.",
  "for all byte strings and documents that a loader accepts; for all models, matrices, numbers of threads and schedules", "Tests load files with a few dozen features; the overflow needs one particular integer, and the size of the row depends on the model and the machine, not on the matrix.",
  ["leaves.go:104-156", "leaves.go:158-180", "lgensemble.go:28-35", "xgensemble.go:27-34", "lgensemble_io.go:293-391", "skensemble_io.go:130-176"])
p("C103", "Asking for fewer estimators equals a model with fewer estimators",
  "A model asked for its first n estimators predicts exactly what the model that was saved after n rounds of training predicts when asked for all of its estimators: for single rows and for whole matrices, dense or sparse, with any numbers of threads, bit by bit. This holds for LightGBM text files (boosted or random forest, raw or transformed), LightGBM JSON dumps, XGBoost files (gbtree and DART) and scikit-learn pickles.",
  "for all model files of the formats, all numbers of rounds, all requests within them, all rows, matrices, numbers of threads and schedules", "Tests compare predictions for a limited number of estimators with stored numbers for one model; whether truncation at prediction time is truncation of the model concerns every model and every cut.",
  ["leaves.go:33-96", "leaves.go:104-156", "leaves.go:187-249", "lgensemble.go:50-90", "xgensemble.go:49-70", "skensemble_io.go:71-187"])
p("C104", "Predicting some of the rows, in any order",
  "The predictions for a matrix made of rows of another matrix (a piece of it, its rows in another order, rows repeated) are the predictions of those rows. A matrix can be predicted in pieces: a slice of the values for a dense one, a slice of the row pointers alone (with the other two arrays as they are) for a sparse one. If the call for the whole matrix succeeds, the call for the piece has one possible outcome, success, with any number of threads.",
  "for all models, all matrices, all choices of rows, all numbers of threads and schedules", "Tests predict whole matrices; batching by the caller cuts them at places that depend on the application, and rows must not influence each other at any of them.",
  ["leaves.go:104-156", "leaves.go:158-180", "leaves.go:187-249"])
p("C105", "Predictions change only when a value crosses a threshold",
  "A model of trees gives the same outcome for two rows of the same length unless a split of the model separates them: for a numerical split, unless its threshold lies between the two values (or one of them is NaN, or, where small numbers count as missing, one of them is small); for a categorical split, unless the integer parts differ. This holds for all kinds of prediction, for single rows and matrices. In particular 0 and -0 are not distinguished. Linear models give the same numbers for rows with the same numbers, though the sign of a zero may differ.",
  "for all models, all pairs of rows, all matrices, numbers of estimators, numbers of threads and schedules", "Tests look at single rows; that nothing but the listed thresholds matters is a statement about all pairs of rows, and what users need to judge how far an input may move before the answer can change.",
  ["lgtree.go:38-94", "lgensemble.go:50-81", "xgensemble.go:58-85", "xgblinear.go:36-43", "leaves.go:33-96"])
p("C106", "Rows in float64 are predicted as the training library predicts their float32 rounding",
  "XGBoost and scikit-learn round the features to float32 before walking their trees; leaves compares the float64 values it is given. The prediction of leaves for a row is nevertheless the one of the library for the rounded row.",
  "for all well-formed XGBoost files and scikit-learn pickles, all rows, all roundings of the row (in whatever direction), all platforms", "Whether skipping the rounding matters depends on how every value, its rounding and every threshold lie to each other; tests with data that was float32 to begin with never see a difference.",
  ["xgensemble_io.go:41-100", "skensemble_io.go:28-100", "lgtree.go:38-62"])
p("C107", "Rows that end in the same leaves get the same predictions",
  "If the leaf view of a model (EnsembleWithLeafPredictions) stores the same leaf indices for two rows, then the model itself, and every view of it, stores the same predictions for them, for every number of estimators and every transformation; likewise for dense and sparse matrices. So leaf indices can stand for a row, as in models that are trained on leaf indices.",
  "for all tree models with at most 2^53 leaves per tree, all pairs of rows and of matrices, all numbers of estimators, numbers of threads and schedules", "The leaf view and the ordinary prediction walk the trees in separate calls; that the one determines the other is a statement about all pairs of rows, of which tests compare a few known ones.",
  ["leaves.go:33-96", "leaves.go:104-250", "leaves.go:298-307", "lgtree.go:64-94", "lgensemble.go:50-96", "xgensemble.go:58-91"])
p("C108", "A prediction is the transformation of what the raw view predicts",
  "For every model with a transformation (logistic, exponential, softmax or none), Predict, PredictDense and PredictCSR store exactly the transformation, row by row, of what the same call of EnsembleWithRawPredictions stores, and they succeed exactly when that call does. PredictSingle returns the transformation of the raw view's result, except that both answer a row that is too short with 0.",
  "for all models whose output width fits them, all rows and matrices, buffers, numbers of estimators, numbers of threads and schedules", "The transformed path works in place in the caller's buffer or in one of its own, the raw path writes directly; tests compare a few models and rows with reference files and never the two paths with each other.",
  ["leaves.go:33-96", "leaves.go:104-250", "leaves.go:298-300", "transformation/exponential.go:10-17", "transformation/logistic.go:11-18", "transformation/softmax.go:13-20"])
p("C109", "The scores of a class depend on the trees of this class only",
  "The raw score of class j that a model with K classes stores for a row is exactly what the model loaded from a file with the trees of class j alone stores for it, in Predict, PredictDense and PredictCSR, with any limit on the number of estimators; and the calls succeed together. So a multiclass model is its one-class models side by side.",
  "for all well-formed LightGBM text files and JSON dumps and XGBoost files (boosted trees, DART and linear) with any number K of classes, all rows, matrices, buffers, numbers of estimators, numbers of threads and schedules", "The trees of all classes lie in one list, and class j takes every K-th of them; one wrong index lets a tree count for another class, which test models with few classes or equal trees need not show.",
  ["lgensemble.go:50-66", "xgensemble.go:58-70", "lgensemble_io.go:293-392", "lgensemble_io.go:615-669", "xgensemble_io.go:136-250", "leaves.go:55-250"])
p("C110", "Features may be renumbered",
  "If the features of a tree model are renumbered in its file, and the columns of the data in the same way, all predictions stay the same, bit for bit: for single rows, for dense matrices and for sparse matrices, in which only the column indexes change (their order need not).",
  "for all well-formed LightGBM text files and JSON dumps, XGBoost files (boosted trees and DART) and scikit-learn pickles, all permutations of the features, all rows, matrices, buffers, numbers of estimators, numbers of threads and schedules", "Special treatment of some feature, or of the order of columns in a sparse row, is invisible in tests that use one order of features.",
  ["lgtree.go:38-94", "lgensemble.go:50-96", "xgensemble.go:58-91", "xgensemble_io.go:41-100", "leaves.go:104-250"])
p("C111", "A matrix without rows",
  "PredictDense with no rows (or with a negative number of them, which is not rejected) and PredictCSR with at most one entry in indptr return without changing predictions, whatever the other arrays hold; they return nil exactly when the same arguments would be acceptable for a matrix with rows: enough columns, all estimators for a leaf view.",
  "for all models whose output width fits them, all arrays, all numbers of rows below one, of columns, of estimators and of threads", "Tests predict at least one row; with none the batch and thread arithmetic works on zeros and negative numbers.",
  ["leaves.go:104-156", "leaves.go:158-180", "leaves.go:187-249"])
p("C112", "loadTransformation decides the transformation and nothing else",
  "Whatever loads with loadTransformation=true also loads with false, reading the same part of the input, and the two ensembles differ in the transformation only: the one loaded without it reports the same name, features, estimators, groups and leaves, and predicts (rows, matrices under every schedule, leaf indices; results, errors and panics alike) what EnsembleWithRawPredictions of the other predicts. For scikit-learn pickles the argument makes no difference; JSON dumps always refuse loadTransformation=true.",
  "for all inputs of every format (LightGBM text, given as characters or as bytes in any delivery, LightGBM JSON, XGBoost trees and linear models, scikit-learn pickles), machines, rows, matrices, estimator and thread counts", "Tests load a handful of trained models one way or the other; they cannot show that nothing else in the file is treated differently.",
  ["lgensemble_io.go:293-391", "lgensemble_io.go:614-669", "xgensemble_io.go:136-249", "xgblinear_io.go:13-48", "skensemble_io.go:117-176", "leaves.go:296-300"])
p("C113", "The order of the trees of a class matters only for rounding",
  "Take two model files of one format that hold, for each class, the same trees (for dart, with the same weights; for scikit-learn, with the same learning rate and prior; for XGBoost, with the same base score), in any order. Both load. Predicting a row with all estimators, if the scores of a class are finite in both, they differ by at most twice the rounding that C82 allows for a sum of that many terms: 2N units of 2^-52 of the sum of the absolute tree values (a few more for averaged forests, weights and learning rates). Equality does not hold: three trees of one leaf with the values 2^53, 1, 1 give 2^53 in this order and 2^53 + 2 with the large value last.",
  "for all pairs of files in the formats (LightGBM text, LightGBM JSON, XGBoost binary with gbtree or dart, scikit-learn pickle) with the same trees per class in any order, all rows, all buffers, all classes, both ways of evaluating a multiply-add", "The orders of the trees and the values are unbounded, and floating-point addition is not associative: a test sees some orders of some models and either equal scores or some difference.",
  ["lgensemble.go:50-68", "xgensemble.go:58-73", "lgensemble_io.go:293-391", "lgensemble_io.go:614-669", "xgensemble_io.go:136-249", "skensemble_io.go:117-176"])
p("C114", "A prediction looks at no more than one split per level of the tree",
  "For every tree that loads from a well-formed LightGBM text block, LightGBM JSON object, XGBoost node array or scikit-learn tree, and every row (NaN, missing or too short rows included), predicting looks at no more splits than there are on the longest way from the root to a leaf of the tree in the file. (A scikit-learn tree that is a single leaf counts as one split, which the loader inserts.) So the work for one row is bounded by the depth of the trees, whatever the row holds and however the loader lays the nodes out.",
  "for all well-formed trees of the four formats, all rows, all numbers of iterations, all machines", "Tests can measure the time of some rows on some trees; the layouts the loaders produce and the ways through them are unbounded.",
  ["lgtree.go:74-94", "lgensemble_io.go:103-290", "lgensemble_io.go:440-612", "xgensemble_io.go:24-134", "skensemble_io.go:12-115"])
p("C115", "An iteration of trees with zero leaves contributes nothing",
  "Training writes trees with a single leaf of value 0 when it finds nothing to split. Take a boosted model (LightGBM text or JSON, XGBoost gbtree or dart) and the file without one iteration, all of whose leaf values are zeros (of either sign). Whatever the longer model predicts for a row with all its trees, the shorter one predicts, bit for bit, with all of its own. If the removed trees have a single leaf, the two models predict the same for single rows, dense matrices and CSR matrices with any numbers of threads. For XGBoost the weights of the removed trees must be finite and the base score must not be the negative zero; a DART tree of weight 0 with finite leaf values may be removed as well. Random forests are excluded: they average, so a zero tree counts.",
  "for all well-formed files, all positions of the iteration, all rows and matrices, all machines (with or without fused multiply-add)", "Tests compare a few numbers; that no sum on the way can be a negative zero, and so that adding a zero of either sign is always exact, is a statement about all float64 sums.",
  ["lgensemble.go:50-67", "xgensemble.go:58-70", "lgensemble_io.go:103-290"])
p("C116", "Decisions taken from probabilities agree with the raw scores",
  "Where Predict of a binary model (logistic) stores a probability above 1/2 for a row, Predict of its raw view (EnsembleWithRawPredictions) stores a positive score, below 1/2 a negative one; a score >= 0 has a probability >= 1/2, a score <= 0 one <= 1/2. Of two rows, the one with the larger output of a logistic or exponential model has the larger raw score. If a softmax model gives class j a larger probability than class i, the raw score of j is larger than that of i: for all scores, however large or small, also when the exponentials overflow. The converse of the strict statements is false: scores that differ may have equal probabilities, so p >= 0.5 holds for some slightly negative scores.",
  "for all loaded models, all rows, all numbers of estimators, every math.Exp that is monotone, not negative, with Exp(0)=1 and Exp(NaN)=NaN", "A reversal would need a particular pair of scores whose exponentials, sums and quotients round the wrong way; there are 2^128 pairs.",
  ["util/util.go:250-274", "transformation/logistic.go:11-18", "transformation/softmax.go:13-20", "transformation/exponential.go:10-17", "leaves.go:55-97"])
p("C117", "LightGBM models that need more than the library computes are refused",
  "A LightGBM text file that needs a computation the library does not have is an error when it is loaded, rather than an ensemble that predicts something else: files of another format version, models with several trees per class and iteration, objectives without a known transformation and sigmoids with another slope when the transformation is asked for, trees whose leaves hold linear models, and regression with the square root option.",
  "for all texts, headers, trees and linear models", "A test can only load the unsupported files somebody thought of; the danger is in the ones that load.",
  ["lgensemble_io.go:52-80", "lgensemble_io.go:103-169", "lgensemble_io.go:293-391"])
p("C118", "Loading a model needs memory in proportion to the file",
  "The memory that a loader asks for is bounded by a multiple of the size of the file that it reads, so that a small or truncated file cannot make the process run out of memory.",
  "for all files, machines, amounts of memory and sizes announced in the file", "A test runs with enough memory and on files whose announced sizes agree with their contents.",
  ["lgensemble_io.go:173-291", "internal/xgbin/xgbin_io.go:165-220"])
p("C119", "The reported transformation tells how many outputs a row has",
  "For every ensemble that a program can get (returned by any loader for any input, or a raw or leaf view of such an ensemble, or a view of a view): if Transformation().Name() is \"raw\" or \"softmax\" then NOutputGroups() is NRawOutputGroups(); if it is \"logistic\" then NOutputGroups() is 1; if it is \"leaf_index\" then NOutputGroups() is NRawOutputGroups() times NEstimators(); and there are no other names.",
  "for all inputs of all loaders, valid or not, and all chains of views", "NOTES.md promises the rule for raw output without exception; a test looks at the models it has.",
  ["leaves.go:250-307", "lgensemble_io.go:293-391", "lgensemble_io.go:614-669", "xgensemble_io.go:136-249", "xgblinear_io.go:13-48", "skensemble_io.go:117-176"])
p("C120", "XGBoost files of kinds the library does not compute are refused",
  "Whatever XGEnsembleFromReader loads is, byte for byte, a file of a supported kind followed by the bytes left in the reader: booster gbtree or dart, at least one feature and tree, one root in the model and in every tree, trees of the classes in turn, one weight per tree for dart, and objective binary:logistic if the transformation was asked for. A readable file of another kind (another booster, several parallel trees with several classes, several roots, a wrong number of weights, another objective with the transformation asked for, …) gives an error, neither a model nor a crash, whatever follows. The same for XGBLinearFromReader, which loads exactly the files of linear models.",
  "for all byte sequences, both values of loadTransformation, all platforms", "A test shows that some file is refused; that nothing else is accepted and mispredicted is a statement about all files.",
  ["xgensemble_io.go:24-48", "xgensemble_io.go:136-249", "xgblinear_io.go:13-48"])
p("C121", "Opposite leaf values give opposite scores",
  "Take two model files that differ in the signs of the leaf values only (for XGBoost also of base_score). For every row and every nEstimators, whenever the first model predicts, the second predicts too, and every raw score it stores is exactly the opposite of the first model's (opposite infinities and NaN included; the sign of a zero does not matter). So exchanging the two classes of a binary classifier loses no bit. With the transformation of a binary objective, the probabilities that the two models predict sum to 1 up to twice the relative error of the exponential function plus 2^-47, however many trees there are. (For averaged forests this needs a machine that fuses multiplications and additions everywhere or nowhere; the products with DART weights are exact.)",
  "all LightGBM text files (boosted or averaged, any number of groups) and XGBoost binary files (gbtree and dart) and their counterparts with opposite signs, all rows, all nEstimators, all output buffers, all platforms", "rounding could treat the two signs differently anywhere in the sum (a comparison, a starting value other than zero, a conversion); a test can compare a few pairs of files only, the symmetry holds for every number",
  ["lgensemble.go:50-67", "xgensemble.go:58-70", "transformation/logistic.go:11-18"])
p("C122", "Classes may be renumbered",
  "Take a multi-class model file and write the trees (or, for a linear model, the weights) of every class k in the place of class s(k), for some renumbering s of the classes. Both files load, and whenever the first model predicts a row, the second one does, and its raw score for class s(k) is the first one's raw score for class k, bit by bit; nothing else is written. With a softmax objective the probability of class s(k) from the second model is within 6e + (K+7)/2^50 of the probability of class k from the first one, where e is the relative error of the exponential function and K is the number of classes, regardless of the number of trees. Probabilities need not agree bit by bit, since the denominator is summed in the order of the classes.",
  "all LightGBM text files (boosted models and averaged forests), LightGBM JSON dumps, XGBoost tree files (gbtree and dart) and XGBoost linear files, all numbers of classes and iterations, all renumberings, all rows, requested numbers of estimators, buffers and platforms; for probabilities, all text files with finite leaf values of total size at most 689", "There are K! renumberings and no bound on K, trees and rows; a test with fixed models sees only a few, and whether the last bits of probabilities agree depends on the scores.",
  ["lgensemble.go:50-67", "xgensemble.go:58-70", "xgblinear.go:31-53", "lgensemble_io.go:145-260", "transformation/softmax.go:1-32"])
p("C123", "Statistics, parents, reserved words and leaf vectors of XGBoost files do not matter",
  "Take two XGBoost binary files that agree in base score, number of features, objective and booster name, in the numbers of trees, roots, features and output groups, in the groups of the trees, and in each tree's numbers of roots, nodes and features and each node's children and threshold or leaf value (for splits also the feature and default bit). They may differ in everything else: number of classes, flags, node parents, a leaf's feature word, node statistics, numbers of deleted nodes and depths, leaf vectors, padding, the old buffer size and all reserved words. XGEnsembleFromReader then returns the same for both: the same ensemble, leaving the same rest of the input, or the same error, or the same crash. The same holds for XGBLinearFromReader and linear files that agree in base score, names, numbers of features and groups, and weights. The fields that have to agree do matter: concrete files show that another feature, default bit, threshold or order of children changes predictions.",
  "all pairs of header, tree and linear records of any size (trees need not be well formed), all values of the free fields, all bytes that follow, both settings of loadTransformation, all platforms", "Tests load a few files written by one XGBoost version; that none of the free fields reaches the outcome, not even an error or a crash, is a statement about all values of all these fields.",
  ["xgensemble_io.go:18-95", "xgensemble_io.go:97-255", "xgblinear_io.go:13-59", "internal/xgbin/xgbin_io.go:121-154"])
p("C124", "The numbering of a tree's nodes in the file does not matter",
  "Take two model files whose trees are the same except that the nodes are listed in another order, with child references changed accordingly and the root kept in the first place. For XGBoost binary files, XGEnsembleFromReader returns the same for both: the same ensemble leaving the same rest of the input, the same error, or the same crash, even when the trees are malformed. For LightGBM text files, where inner nodes and leaves are numbered separately and both numberings may change, and for scikit-learn pickles, the two loaded models predict the same for every input, and the LightGBM model's leaf indices are those of the first model renumbered as the file was. The root has to stay first: moving it gives a file that loads without error but predicts something else.",
  "all pairs of XGBoost node tables related by a renumbering (no validity assumed, any file contents around them); all valid LightGBM text trees and scikit-learn classifiers of any size; all renumberings fixing the root; all inputs, matrices and numbers of estimators; all platforms", "The order of nodes is fixed by the tool that wrote each test file; that no order reaches the result is a statement about all permutations of all trees, and for XGBoost about malformed trees too.",
  ["lgensemble_io.go:241-289", "xgensemble_io.go:24-133", "skensemble_io.go:12-113"])
p("C125", "Leaf values multiplied by a power of two give scores multiplied by it exactly",
  "Take a model file and a second one with the same splits whose leaf values (for XGBoost also the base score) are 2^p times those of the first, as when the learning rate is doubled or values are rescaled to another unit. For every input and number of estimators for which the first model predicts, the second predicts as well, and each of its raw scores that is a number is exactly 2^p times the first model's score; no rounding shows. A score of the second model that is not a number has overflowed. This holds for LightGBM text files of boosted trees and for XGBoost files with gbtree and DART boosters. It is special to powers of two: leaf values 2^53 and 1 sum to 2^53, while three times these values sum to 3*2^53+4.",
  "all pairs of valid LightGBM text files and XGBoost files whose values differ by the factor 2^p, all p, all rows, buffers and numbers of estimators, all platforms with either form of multiply-add", "A test compares a few models within a tolerance. Here every rounding of every sum has to be the rounding of the multiplied sum, for all leaf values (also subnormal ones), all lengths of the sum and all powers, with or without fused multiply-add.",
  ["lgensemble.go:50-66", "lgtree.go:74-94", "xgensemble.go:58-70"])
p("C126", "The same forest in another format predicts the same, except on sparse matrices of XGBoost models",
  "Converting a model from one format to another does not change its predictions. Take an XGBoost 'gbtree' file with base score 0 and a LightGBM text file that has the same trees: in corresponding nodes the same feature, the same threshold and the same side for missing (NaN) values, in corresponding leaves the same value. Both load with the same number of features, and for every input, number of estimators and number of threads Predict and PredictDense give the same result bit by bit. The same holds for a pickled scikit-learn classifier and a LightGBM text file with its splits, whose leaf values are the classifier's times the learning rate, plus the prior in the first iteration; here PredictCSR agrees as well. PredictCSR does not agree between XGBoost and LightGBM models: what a row does not list is missing for the one and 0 for the other.",
  "all pairs of valid files with corresponding trees, any numbering of nodes and leaves, all rows, matrices, buffers, numbers of estimators and threads, all platforms with either form of multiply-add", "The tests compare each format with the predictions of its own library on a few data sets. They never load one forest through two loaders, and a difference in one comparison, default side or order of additions would show on few rows only.",
  ["xgensemble_io.go:24-133", "lgensemble_io.go:103-289", "skensemble_io.go:12-113", "lgtree.go:74-94", "xgensemble.go:58-70", "leaves.go:150-190"])
p("C127", "Superfluous splits may be removed from a model",
  "Take a model file and a second one whose trees are those of the first without some superfluous splits: a split both sides of which give the same values has been removed, or a part of a tree that no row can reach, because of the splits above it, has been dropped or replaced. For every input, number of estimators and number of threads for which Predict, PredictDense or PredictCSR of the first model succeeds, the second model gives the same result bit by bit, transformation included. This holds for LightGBM text files (boosted or averaged) and XGBoost files with gbtree and DART boosters.",
  "all pairs of valid LightGBM text files and XGBoost files whose trees are related by removal of superfluous splits, in any number and at any depth; all rows, matrices, buffers, numbers of estimators and threads", "Tests see a finite set of trees and rows. That no row distinguishes the trees is a statement about all float64 rows, including NaN, zeros, infinities and values equal to thresholds.",
  ["lgtree.go:74-94", "lgensemble.go:50-66", "xgensemble.go:58-70", "lgensemble_io.go:103-289", "xgensemble_io.go:24-133"])
p("C128", "Only the meaning of a LightGBM tree counts, not the way it is written down",
  "Two LightGBM text files with the same header values predict the same, bit by bit, for every input, number of estimators and number of threads, row by row and for dense and sparse matrices, if their trees mean the same: same form, corresponding splits test the same feature and send the same values to the left, corresponding leaves have the same value. It does not matter how nodes and leaves are numbered, whether a set of categories is written with one word or with several, with trailing zero words or unused words behind it, or in which slot it stands; the loader's special representations for sets with one category and for sets that fit into one word never show.",
  "all pairs of valid LightGBM text files whose trees have the same meaning, boosted or averaged, with numerical and categorical splits; all rows, matrices, buffers, numbers of estimators and threads, all platforms", "Which of three representations the loader picks for a categorical split depends on the words in the file. Tests contain a few sets in the form that LightGBM writes; equality of all representations for all values of a feature is a universal statement.",
  ["lgensemble_io.go:103-289", "lgtree.go:26-73", "lgtree.go:74-94", "lgensemble.go:50-66"])
p("C129", "Scores can be recomputed from the leaf indices and the leaf values of the file",
  "If the leaf view (EnsembleWithLeafPredictions) of a model read from a LightGBM text file succeeds for a row, then every number it stores is the position of a value in the list leaf_value of the corresponding tree in the file; the model itself predicts for this row, with every number of estimators and every buffer with room, and its raw scores are exactly the ordered sums of the values found this way (times 1/n for averaged models). So the file and the leaf indices explain every score; no other property of the row enters.",
  "all valid LightGBM text files, boosted or averaged, with any numbers of classes and estimators; all rows, buffers and numbers of estimators", "The tests compare scores with LightGBM and leaf indices with LightGBM, on a few rows each. That both agree with each other through the file for all models and rows, including single-leaf trees and NaN, needs a proof about loader and both predictions together.",
  ["lgensemble.go:50-66", "lgensemble.go:68-84", "lgtree.go:74-94", "lgensemble_io.go:103-289", "leaves.go:296-307"])
p("C130", "Every notation of a number in a CSV file is read as the number it denotes",
  "If each cell of a CSV file is a decimal numeral, a hexadecimal numeral as C's verb %a writes it, one of the names nan, inf, infinity (in small or capital letters, the infinities with a sign), or empty, DenseMatFromCsv returns the matrix of exactly the float64 these cells denote: the nearest one for numerals, the default value for empty cells. A hexadecimal numeral of a float64 is read without any rounding; one beyond the range is an error. What a cell means is unique, so no cell can be read in two ways (1e5 without 0x is decimal, with it hexadecimal).",
  "all tables of such cells with at least one row and column, all delimiters without characters of numbers, all default values, all ways to end lines", "The tests read a few tables with short decimal numbers. There are infinitely many spellings of a number; that each is read as the nearest float64 is a statement about arbitrary long digit strings.",
  ["mat/mat_io.go:79-99", "mat/mat_io.go:195-244"])
p("C131", "Features may be measured in other units",
  "If the thresholds of a model file are converted to another unit, by any conversion that keeps the order of the thresholds and of the values that occur, and NaN, the model predicts for converted rows exactly what the original predicts for the original rows: leaf values, shapes and everything else stay. Zeros that count as missing must stay zeros; where nothing counts as missing and NaN occurs (it counts as 0) the thresholds must stay on their side of 0; categorical features are not converted. Sparse matrices may be converted entry by entry if the conversion leaves the value of absent entries (0, or NaN for XGBoost) alone.",
  "all valid LightGBM text files and XGBoost binary files, all conversions per feature that keep the order of the values in question, all rows, dense and sparse matrices, buffers, numbers of estimators and threads", "Only a proof covers all conversions: the tests know one unit. Rounding in the conversion, missing values and zeros all could break it.",
  ["lgtree.go:48-94", "lgensemble.go:50-66", "xgensemble.go:58-70", "leaves.go:120-230"])
p("C132", "Every notation of a number in a libsvm file or a pickle is read as the number it denotes",
  "If the value of each entry of a libsvm file is a decimal numeral, a hexadecimal numeral or one of the names nan, inf, infinity (in small or capital letters, the infinities with a sign), CSRMatFromLibsvm returns the sparse matrix of exactly the float64 these texts denote, the nearest one for numerals; entries of the same row may be written in different notations. A Python float in a pickle (written as text by the protocol scikit-learn models are stored with) is decoded to exactly the float64 its text denotes, so the learning rate of a model arrives bit by bit.",
  "all libsvm files of rows with at least one entry, all spellings of the values, all labels without blanks, all limits, all ways to end lines; all texts of a float in a pickle and all bytes that follow it", "The tests read files written by one program in one notation. There are infinitely many spellings of each number.",
  ["mat/mat_io.go:50-64", "mat/mat_io.go:140-193", "internal/pickle/decoder.go:90-100"])
p("C133", "Which number a leaf has in XGBoost and scikit-learn models",
  "For a model read from an XGBoost or scikit-learn file, the number that a leaf-index prediction stores for a tree is the position of the reached leaf in a fixed order of the leaves, which depends on the shape of the tree only: at every split first the leaves directly below it are counted, the left one before the right one, then the leaves further down on the right, then the leaves further down on the left. It is neither the number of the node in the file (what the original libraries report) nor the position of the leaf from left to right.",
  "all well-formed XGBoost binary files (gbtree and dart) and all pickled gradient boosting classifiers, all rows, all trees", "The tests compare leaf indices for a few fixed models. There are infinitely many tree shapes, and the order shows only for trees with splits on both sides.",
  ["xgensemble_io.go:24-134", "skensemble_io.go:12-115", "lgensemble.go:68-81", "xgensemble.go:72-85"])
p("C134", "Leaf indices depend on the splits only",
  "Two model files of the same format with the same splits have the same leaf-index predictions, for every row and for whole matrices with any number of threads, whatever the values of the leaves are: LightGBM text files that differ in leaf values and in averaging, XGBoost files that differ in leaf values, statistics, base score, objective, booster and weights of trees, scikit-learn classifiers that differ in values, learning rate and initial estimator. The scores of a refitted LightGBM model can be computed from the leaf indices of the original model and the leaf values of the new file.",
  "all pairs of well-formed files of the three formats with the same splits, all rows and matrices, all numbers of estimators and threads", "A statement about pairs of files; the tests predict leaf indices for single models.",
  ["leaves.go:298-307", "lgensemble.go:68-81", "xgensemble.go:72-85", "lgtree.go:90-133"])
p("C135", "Which texts are numbers, and underscores in numbers",
  "The texts that are read as a float64 are exactly the decimal and hexadecimal numerals in range and the names of NaN and the infinities, and each is read as what it denotes. Underscores are accepted exactly where each stands between two digits or after the hexadecimal prefix, and change nothing. A CSV file with the same number of cells in every line is either read as the matrix of the numbers its cells denote, or refused with an error because some cell, wherever it is, denotes none. A libsvm file with a value that denotes no number is refused too.",
  "all texts, all tables of cells with any delimiter that occurs in no cell and in no number, all default values; exponents of 10000 and more apart", "The tests read a few well-formed files. That nothing but numbers is accepted is a statement about all texts.",
  ["mat/mat_io.go:140-193", "mat/mat_io.go:195-243", "internal/pickle/decoder.go:90-100"])
p("C136", "Scores are made of numbers that stand in the model file",
  "Whatever text is accepted as a LightGBM model, whether well-formed or not, consists of a header and one block of lines per tree, and every score the loaded model predicts is the sum (for averaging models divided by the number of estimators) of numbers that stand in the leaf_value lines of these blocks, one from the block of each tree of the class that is used. A file with anything else in a leaf_value line is refused. Likewise, whatever bytes are accepted as an XGBoost tree model, every score is the base score of the file plus numbers that stand in leaves of its trees, multiplied in dart files by the weights that stand behind the trees. And whatever pickle of a Python value is accepted as a scikit-learn model and has trees, every score is a sum of values of the trees of a classifier that the pickle holds, multiplied by its learning rate, plus the prior score of the class. No score is made of anything that is not in the file.",
  "all texts that LGEnsembleFromReader accepts and all byte sequences that XGEnsembleFromReader accepts (with at least one class), all pickles of Python values that SKEnsembleFromReader accepts, all rows, all numbers of estimators, on every platform", "The tests load well-formed files only. What damaged or hand-edited files that still load can predict is a statement about all texts.",
  ["lgensemble_io.go:103-290", "lgensemble_io.go:293-391", "lgtree.go:74-94", "lgensemble.go:35-66", "xgensemble_io.go:24-249", "skensemble_io.go:12-176"])
out = os.path.join(os.path.dirname(__file__), "..", "properties.jsonl")
with open(out, "w") as f:
    for x in P: f.write(json.dumps(x) + "\n")
print(len(P))
