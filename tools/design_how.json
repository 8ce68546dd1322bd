{
"C01": [
"numericalDecision, isZero",
"case analysis against an independent rule on reals and NaN"
],
"C02": [
"categoricalDecision, findInBitset",
"case analysis; set membership through the stored bitset"
],
"C03": [
"lgTreeFromReader's conversion loop, predict",
"invariant of the explicit-stack loop (`Proofs/Convert`), induction over the written tree"
],
"C04": [
"same",
"same, with leaf numbers as values"
],
"C05": [
"unmarshalTree incl. pointers into a growing slice",
"loop invariant over the stack of pending subtrees"
],
"C06": [
"xgTreeFromTreeModel, predict",
"instance of the conversion invariant; witness for equality"
],
"C07": [
"lgTreeFromSklearnDecisionTreeRegressor, predict",
"instance of the conversion invariant"
],
"C08": [
"predict loop with fuel",
"the walk follows the written tree, whose height bounds it"
],
"C09": [
"predict and all loaders",
"`ok` result exhibited from the whole-file theorems; witness for the empty row"
],
"C10": [
"predictInner of three model kinds",
"loop induction to a closed-form fold"
],
"C11": [
"adjustNEstimators",
"case analysis, then C10"
],
"C12": [
"Predict over memory",
"exact footprint of every store; equivalence with the specified output"
],
"C13": [
"PredictSingle",
"reduction to C12 on a one-element buffer"
],
"C14": [
"PredictDense, one thread",
"induction over rows, footprint disjointness"
],
"C15": [
"PredictCSR, one thread",
"induction over rows and entries of a row"
],
"C16": [
"PredictDense, many threads",
"invariant over reachable states of the transition system"
],
"C17": [
"PredictCSR, many threads",
"same"
],
"C18": [
"same",
"disjoint footprints of the batches held by two workers"
],
"C19": [
"same",
"decreasing measure; progress from every reachable state"
],
"C20": [
"PredictDense, PredictCSR",
"C14 and C15; witness for single-feature models"
],
"C21": [
"Predict",
"C12; witness for leaf views of linear models"
],
"C22": [
"predictLeafIndicesInner",
"loop induction; leaf numbers below NLeaves"
],
"C23": [
"NLeaves",
"loop induction; leaf counts of converted trees; witness for split-less scikit-learn trees"
],
"C24": [
"EnsembleWithRawPredictions, EnsembleWithLeafPredictions",
"induction over the nesting of views"
],
"C25": [
"Sigmoid, TransformLogistic",
"monotonicity of rounding in + and ÷"
],
"C26": [
"SoftmaxFloat64Slice",
"error analysis of rounding over the rationals: running sum, reciprocal and products; witnesses outside the range"
],
"C27": [
"TransformType.Name and Name of all transformations",
"case analysis; witness"
],
"C28": [
"predictInnerAndTransform",
"case analysis; witnesses"
],
"C29": [
"checkNEstimators",
"case analysis"
],
"C30": [
"predictInner with averageOutput",
"C10 with the coefficient"
],
"C31": [
"NumberOfSetBits",
"bit-level lemma for a word, induction over words"
],
"C32": [
"FirstNonZeroBit",
"the 32 isolated bits, induction over words"
],
"C33": [
"ConstructBitset",
"invariant of the setting loop"
],
"C34": [
"threshold casts",
"exactness of integer conversion below 2^53"
],
"C35": [
"ReadParamsUntilBlank",
"induction over the lines"
],
"C36": [
"ReadParamsUntilBlank",
"case analysis of the lines; measure for termination"
],
"C37": [
"ToInt, ToUint32Slice, ToInt32Slice, ToFloat64Slice",
"decimal printing and parsing are inverse; range checks"
],
"C38": [
"LGEnsembleFromReader, LGEnsembleFromJSON",
"inversion of the loaders"
],
"C39": [
"LGEnsembleFromReader on whole files",
"composition of C35, C37, C03 along the blocks of the file"
],
"C40": [
"lgObjectiveParse and the transformation choice",
"case analysis over the objective text"
],
"C41": [
"xgbin readers",
"encode/decode round trip per record, induction over repeated records; converse: whatever reads is an image"
],
"C42": [
"xgbin readers",
"a proper prefix of an encoding never decodes"
],
"C43": [
"XGEnsembleFromReader",
"inversion of the loader; witnesses"
],
"C44": [
"predictInner of XGBoost ensembles, XGEnsembleFromReader",
"C10 with weights; the two files are loaded side by side"
],
"C45": [
"predictInner of linear models",
"loop induction"
],
"C46": [
"CSRMatFromArray, DenseMatFromArray",
"induction over rows; witness"
],
"C47": [
"libsvm and CSV readers",
"invariant of the line loop; witness"
],
"C48": [
"libsvm readers",
"induction over the written rows; witnesses"
],
"C49": [
"WriteStr, DenseMatFromCsv",
"induction over the written rows; witness"
],
"C50": [
"DenseMatFromCsv",
"induction over the lines; witnesses"
],
"C51": [
"pickle decoder",
"structural induction over values, generalised over stack and memo"
],
"C52": [
"decodeUnicode",
"replacement scanning as a left-to-right tokenisation"
],
"C53": [
"memo opcodes, list append, dict setitem",
"heap invariants; witnesses"
],
"C54": [
"SklearnNodeFromBytes, Iterate",
"byte-level round trip"
],
"C55": [
"SKEnsembleFromReader",
"induction over iterations"
],
"C56": [
"SKEnsembleFromReader",
"inversion of the loader; witnesses"
],
"C57": [
"all loaders",
"witnesses; necessary conditions for a crash: safety invariant of the conversion loop, inverses of the readers, stack-height and reference invariants of the pickle machine, inverses of the object readers"
],
"C58": [
"NFeatures, PredictCSR",
"witness"
],
"C59": [
"length checks of the predict functions",
"arithmetic; witness with a wrapping product"
],
"C60": [
"batch planning",
"arithmetic over float64 division and ceiling; invariant of the transition system"
],
"C61": [
"converted trees",
"leaf numbering of the conversion invariant"
],
"C62": [
"XGEnsembleFromReader, XGBLinearFromReader on whole files",
"composition of C41, C06, C44, C45"
],
"C63": [
"SKEnsembleFromReader on whole pickles",
"composition of C51, C54, C07, C55"
],
"C64": [
"SKEnsembleFromReader, NFeatures",
"composition with C63; witness"
],
"C65": [
"all loaders",
"fuel measure: every iteration consumes input or visits a new node"
],
"C66": [
"loaders followed by Predict",
"witness; whole-file theorems"
],
"C67": [
"LGEnsembleFromJSON on whole dumps; how `encoding/json` fills the loader's structures (`Model/JsonDoc`)",
"composition of C05, C10; from documents by induction on the nesting"
],
"C68": [
"both LightGBM loaders",
"C39 and C67 against one abstract model; witness"
],
"C69": [
"`LGEnsembleFromJSON` on parsed JSON documents, field matching of `encoding/json` included",
"mutual induction on the rearrangement, one store function at a time; witnesses"
],
"C70": [
"the pickle machine, `internal/pickle` object parsers, `SKEnsembleFromReader`",
"inversion of every parser from its success, through the denotation of decoded objects"
],
"C71": [
"`Transform` of all transformations",
"case analysis, shifting of programs to a window of the buffer"
],
"C72": [
"`AlmostEqualFloat64`, `AlmostEqualFloat64Slices`, `NumMismatchedFloat64Slices`, `SigmoidFloat64SliceInplace`",
"rounding to nearest is monotone and exact on floats; induction over the slices"
],
"C73": [
"`Predict`, `PredictSingle`, `PredictDense`, `lgTree.predict`",
"the evaluation programs are equal, by induction over the walk and the loops; surplus values through the specification of successful predictions"
],
"C74": [
"`predictInner` of the tree ensembles, `Predict`",
"from C10: the raw score is a left-to-right sum"
],
"C75": [
"`PredictCSR`, the row filler, `CSRMat`",
"from C12 and the specification of rows by their entries; list lemmas for the equivalent writings"
],
"C76": [
"the matrix readers, `PredictCSR`, `PredictDense`",
"composition of C48/C50 with C75 and C12"
],
"C77": [
"`Predict`, `PredictDense`, `PredictCSR` as state machines that load and store one element at a time, any number of them interleaved",
"invariant: the steps of each call are an execution of that call alone on its slice; termination from C19"
],
"C78": [
"`Predict` with the loads of the row made from the same memory as the stores to predictions (Model/Alias)",
"simulation between that program and the one with a row of its own; frame property of the stores"
],
"C79": [
"loaders and predictors of all formats (Model/LgText, LgJson, XgLoad, SkLoad, Ensemble, Predict) and binary64 arithmetic (Model/F64)",
"two walks over one tree part only at a constrained split (induction); monotonicity of rounded addition, multiplication and fused multiply-add; induction over the estimators"
],
"C80": [
"all five loaders (Model/LgText, LgJson, XgLoad, SkLoad) and `Name` (Model/Ensemble)",
"inversion of a successful load, stage by stage; header records by the round-trip theorems of C41"
],
"C81": [
"the leaf view and NLeaves (Model/Ensemble, Predict) over all four tree loaders; what a view must do is Spec/LeafView",
"every loaded tree is related to the file's tree by values, leaf numbers and leaf count (the numbering comes from the conversion's invariant, C61); one lemma turns this into the view of the whole model by C12, C23 and C24; the difference of text and JSON by evaluation"
],
"C82": [
"loading and predicting of whole files as in C39, C62, C63 and C67; binary64 arithmetic and the two ways to compute x*y+z (Model/F64, Platform); the exact value is a sum of rationals (Spec/Accuracy)",
"error of one rounding (half a unit in the last place), of signed addition, product and fused multiply-add; induction over the summation gives ((1+2^-53)^n - 1) times the sum of absolute values, bounded by n*2^-52; a finite result forces all intermediate results to be finite"
],
"C83": [
"strconv.ParseFloat and %.19g as used by mat/mat_io.go and util/util.go (Model/Strconv.lean), with the readers and writers of Model/Mat.lean and the LightGBM loader",
"Proofs/Decimal.lean: the characters of any numeral are read as its digits and exponent and the result is correctly rounded in the sense of Spec/Rounding.lean; 53-digit magnitudes are at least 2^-53 apart relatively, so a numeral within half a unit in the 17th digit rounds back. Proofs/Format.lean: %.19g writes such a numeral. Composed with C49 and C39."
],
"C84": [
"json.Decoder.Decode as called in lgensemble_io.go 622 (scanner, numbers, strings with escapes): Model/JsonText.lean, in front of the document loader of C67",
"Proofs/JsonText.lean, Proofs/JsonValue.lean: the reader finds exactly the values of the grammar (sound by induction on nested calls, complete by induction on the value); composed with C67_document and C83"
],
"C85": [
"PredictDense on a slice with spare capacity: Model/DenseCap.lean",
"from the characterisation of successful batch calls (C15/C16), which names the rows used; the witnesses are evaluated"
],
"C86": [
"the loaders and Predict as in C39, C62, C63, C67",
"walks end in leaves of the tree; rounded sums are monotone in every summand (C79); a sum of a number or infinity and a finite number is never NaN"
],
"C87": [
"WriteStr on a writer with state that may accept a part and fail, bufio.Writer with its buffer of 4096 bytes and sticky error, ToCsvFile with its deferred calls (Model/Write.lean)",
"Proofs/Write.lean: every sequence of writes delivers a prefix of the text of the failure-free model (C49); what a buffered writer has taken is what the file has and what is pending. The round trip composes it with C83."
],
"C88": [
"the loader of LightGBM text files with loadTransformation=true, the objective line, Predict with a transformation",
"C39 for the trees of the file, combined with the objective line of C40 and the transformations of C25, C26 and C71"
],
"C89": [
"loading and predicting with transformations as in C62 and C88; math.Exp as any function with relative error eps (Spec/Probability); the exact values are real numbers from Mathlib's exp",
"Proofs/Logistic and Proofs/SoftmaxAccuracy bound the transformations, Proofs/SumFinite shows that sums of moderate size do not overflow, C82's bounds for sums carry over by the Lipschitz bounds of the exact functions"
],
"C90": [
"io.Reader, bufio.Reader (fill, Read, ReadSlice, ReadString), io.ReadFull, binary.Read; the loaders on top of them, call by call; the FromFile functions with the deferred Close (Model/Bufio)",
"refinement: a buffered reader represents the elements it will still hand out; every read function preserves this and returns what the function on the whole input returns (Proofs/Bufio*)"
],
"C91": [
"the readers of mat/mat_io.go (Model/Mat)",
"no function called per line panics or hangs; induction over the lines"
],
"C92": [
"binary readers, pickle decoder, JSON text decoder, LightGBM text reader (all as for the loading properties)",
"`Exact`: every binary reader consumes a prefix that stands for its value and fails with an error on every shorter prefix, closed under bind and loops; the same per pickle opcode, then induction on the decoding loop; JSON from C84; LightGBM text by comparing the line reader on `c` and on `c ++ d`"
],
"C93": [
"PredictCSR, predictCSRInner (leaves.go 104-180)",
"the specification `IsCSR` of a matrix; existence of the written-out rows from it, then C15 and C17; no error branch after the checks (`NoErr`); concrete calls evaluated in the kernel"
],
"C94": [
"ReadParamsUntilBlank, lgTreeFromReader, LGEnsembleFromReader as for C35 and C39",
"the specification describes texts by their blocks of trimmed lines; a relation between two runs of the loader (`Related`) is preserved because the loader looks up the seventeen model fields only; Windows line ends by induction on the text"
],
"C95": [
"readFromLibsvm, readFromCsv, recordsToDenseMat, recordsToCSRMat",
"the readers are functions of the trimmed lines before the first blank line (`Block`); layouts with the same lines by induction on the text; the matrix read so far only grows"
],
"C96": [
"a second model of the text loaders on bytes: utf8.DecodeRune/DecodeLastRune, TrimSpace, Split, Atoi, ParseInt, ParseUint, ParseFloat, bufio ReadString, ReadParamsUntilBlank, the LightGBM loader, readFromLibsvm, readFromCsv (Model/Utf8, Model/ByteText)",
"Chars is a separate relation (Spec/Utf8), shown to be a total function; every byte function is shown to commute with it (decoding restarts in the same places from both ends), then the loaders by simulation"
],
"C97": [
"the byte-level text readers of C96",
"the first line begins with U+FEFF, which is not white space and no numeral begins with it; splitting leaves it in the first token; for LightGBM through the independence of unused fields (C94)"
],
"C98": [
"the loaders on buffered readers (Model/Bufio, Model/ByteText)",
"a whole model is exactly the part a loader takes (C92), the loader on pieces follows the loader on the whole input and holds the same rest; induction on the models"
],
"C99": [
"the decoder of encoding/json: its scanner, byte by byte, with the stack of open objects and arrays and the depth limit, and the loop that refills its buffer (Model/JsonBytes)",
"the scanner over a whole text equals the recursive grammar (induction on the nesting); bytes beyond ASCII leave it inside a string or stop it, like the characters they belong to; a scan of pieces is a scan of the whole"
],
"C100": [
"everything from the reader to the predictions, on two platforms at once",
"the product of two float32 numbers is a float64 number, and a product with one is exact, so one rounding equals two; the categories of definite values do not depend on the conversion; the reference predictions of C39, C62, C63, C67 and C88 carry over, and with them the batches of C08"
],
"C101": [
"PredictDense and PredictCSR on one memory for both slices, sequential and with the worker pool",
"the program on the small memory and the program on the large one are related step by step (a bisimulation with silent steps for the reads of the matrix), which carries sets of outcomes of the pool over in both directions; in place: induction over the rows with the invariant that rows still to be read are as at the start; nothing else: an invariant of the pool"
],
"C102": [
"NFeatures with its wrapping addition, the loaders up to the stored largest feature, the allocation of the row in PredictCSR and its workers",
"inversion of the loaders on all inputs; for the worker pool an invariant: as long as no worker can begin, the caller never gets past the first batch"
],
"C103": [
"the loaders of all tree formats, the number of estimators used, all prediction entry points",
"both ensembles equal the reference sums over descriptions of the files; the reference sum over the first n rounds does not look at later ones"
],
"C104": [
"PredictDense, PredictCSR with their worker pools",
"row-wise characterisation of both calls (C14, C15), existence of the stored result, determinism (C16, C17)"
],
"C105": [
"decisions, tree walk, ensembles, all entry points",
"congruence of the decision functions on values that a split does not separate, induction along the walk; for linear models, multiply-add (fused or not) respects the denoted numbers"
],
"C106": [
"loaders of both formats, numerical decisions, all of prediction",
"from C62 and C63: the walks agree at every node because no float32 lies between a value and its rounding; congruence of walks and sums; witnesses by evaluation"
],
"C107": [
"tree walk, ensembles, leaf views, all entry points",
"the leaf index determines the value (C22), float64 holds leaf numbers exactly, so equal leaf vectors mean equal results of every tree; congruence of sums; matrices by C14 and C15"
],
"C108": [
"predictInnerAndTransform, transformations, views, all entry points",
"from the exact characterisations of Predict (C12), PredictDense (C14) and PredictCSR (C15)"
],
"C109": [
"loaders for text, JSON and XGBoost files, predictInner, all entry points",
"from the characterisations of loaded models against reference models (C39, C67, C62): the terms of class j are the terms of the one-class model"
],
"C110": [
"loaders for all formats, tree walk, dense and sparse entry points",
"a walk in the renumbered tree takes the same branches; rows of a sparse matrix with renumbered columns are the renumbered rows"
],
"C111": [
"PredictDense, PredictCSR with their checks and plans",
"direct evaluation of the checks; the plan is sequential and its loop has no iterations"
],
"C112": [
"all five loaders",
"the loaders are unfolded side by side; the raw view and the ensemble without transformation behave the same by computation"
],
"C113": [
"loaders of all tree formats, prediction, concrete binary64",
"C82 bounds both scores around the exact sum; the exact sum and the sum of absolute values are invariant under permutation because the value of a tree for a row is unique; triangle inequality"
],
"C114": [
"a listing of the nodes that the prediction loop looks at; the tree loaders",
"the node array embeds the file's tree, so each iteration descends one level; the listing is tied to the loop by an exact equivalence"
],
"C115": [
"the ensembles and their loaders, as for C39, C62, C67",
"the sum of float64 numbers started at a number other than −0 is never −0, so adding ±0 is the identity at every point of the accumulation"
],
"C116": [
"the transformations and Predict with its raw view (C108)",
"rounded addition, division and multiplication are monotone, so the composition cannot reverse a strict order; NaN and overflow by cases"
],
"C117": [
"The text loader of C35-C40 and C94, with the header described by its lines.",
"The load is followed to its first error for each kind of header. Lines with the linear fields bind none of the fields of a model, so C94 applies; the two negations are computed on concrete files against small statements of what LightGBM computes."
],
"C118": [
"Allocation is modelled by a limit on the size of a single request, above which the code panics; the limit is a parameter of the machine.",
"The loader is followed to the allocation of the nodes; for the positive direction the length of a line bounds the number of its values. The witnesses are families of files indexed by the announced size."
],
"C119": [
"All loaders and the two views.",
"Induction over the way in which the ensemble was obtained; every loader is inverted to the fields of what it returns."
],
"C120": [
"The two XGBoost loaders.",
"The loaders are inverted to the records they read (C41); the check of the group numbers is shown to mean that the classes take turns, also when the number of groups is not positive."
],
"C121": [
"the loaders, the sums of both kinds of ensembles, binary64 addition, multiplication and fused multiplication, the logistic transformation",
"sums, products and fused products of opposite data are opposite (by cases on the data, the rounding acts on magnitudes); induction on the number of trees; the file theorems C39, C88 and C62; the accuracy of the logistic function for the probabilities"
],
"C122": [
"the four loaders, the prediction loops, the softmax transformation",
"the files' raw scores are given by the format specifications (C39, C67, C62), where the scores of the classes are independent sums; the sum of exponentials is invariant under permutations, and both predictions are near the same real number (C89 lemmas); concrete witness for the last bits"
],
"C123": [
"readers of internal/xgbin, xgEnsembleFromReader, xgTreeFromTreeModel, xgbLinearFromReader",
"decoding of the images, then the conversion's view of the node table is the same function for both tables"
],
"C124": [
"lgTreeFromReader, xgTreeFromTreeModel, lgTreeFromSklearn and the shared depth-first conversion",
"a simulation between the two runs of the conversion loop (equal output, visited nodes related by the renumbering); for text and pickles the paths through the described trees are related"
],
"C125": [
"lgEnsembleFromReader, xgEnsembleFromReader, predictInner",
"rounding a whole number of units to 53 digits commutes with multiplying by 2^p; products of float32 numbers are exact; induction over the sum"
],
"C126": [
"the three loaders, predictInner, PredictDense, PredictCSR",
"both reference predictions of the files walk corresponding trees; corresponding nodes send every row to the same side; the sums have the same terms"
],
"C127": [
"lgEnsembleFromReader, xgEnsembleFromReader, predictInner, PredictDense, PredictCSR",
"induction over the relation between the trees, which carries the set of rows that reach a node; the walk in the first tree gives a walk in the second to a leaf of the same value"
],
"C128": [
"lgEnsembleFromReader, predictInner, PredictDense, PredictCSR",
"walks in trees of the same form correspond; every split is read through the rule it denotes (C01, C02, C03)"
],
"C129": [
"lgEnsembleFromReader, withLeafPredictions, predictInner, predictLeafIndicesInner",
"C39 and C81 describe both predictions of the loaded file; a walk that ends in leaf j gives the j-th value"
],
"C130": [
"DenseMatFromCsv with strconv.ParseFloat written out (Model/Strconv.lean)",
"induction over the digits gives the number read; ofRatio rounds it correctly; exact numbers are their own nearest float64"
],
"C131": [
"lgEnsembleFromReader, xgEnsembleFromReader, predict, PredictDense, PredictCSR",
"trees of the same form whose splits decide alike on original and converted values end in the same leaves; C39, C62 connect files and predictions, C14, C15 rows and matrices"
],
"C132": [
"CSRMatFromLibsvm, the decoder of pickles and strconv.ParseFloat (Model/Strconv.lean)",
"what C130 shows of a cell is used for every entry, by induction over the entries and rows; the text of a float is one of the dumps C51 decodes"
],
"C133": [
"the loops that convert trees of XGBoost and scikit-learn, and PredictLeafIndices",
"an invariant of the conversion loop: the leaf values are appended in the order in which the stack is worked off, by induction over the tree"
],
"C134": [
"the loaders of the three formats and leaf-index views",
"C81, C129 and C133 for both files: the leaf that is reached and its number are described by the splits"
],
"C135": [
"strconv.ParseFloat and the CSV reader",
"inversion of the scanner: what it accepts splits into the parts of a numeral, by induction over the text; the positions of underscores by an invariant of the checking loop; errors pass through the line loop by induction over the lines"
],
"C136": [
"the LightGBM text, XGBoost and scikit-learn loaders and prediction",
"inversion of the loader: every accepted text is split into blocks, each leaf value is what its text denotes (C135), and a prediction returns a member of the leaf values"
]
}