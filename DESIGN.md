# Formal model of dmitryikh/leaves in Lean 4 — design

## 1. Layout

The model is a set of total, computable Lean functions under `lean/Verif/Model/`, written function by
function after the Go sources; every definition cites the Go lines it models and names its simplifications.
Specifications live in `lean/Verif/Spec/` and never call model functions. Proof internals live in
`lean/Verif/Proofs/`. Property theorems live in `lean/Verif/Props/`, one file per area, each theorem named
`Cxx_…` after the property in `properties.jsonl`, with concrete cases meeting its hypotheses beside it
(namespaces `…Example`). A name ending in `_partial` marks a theorem that proves less than the property says;
the property's line below says what is missing. `MANIFEST.json` lists the theorems of every property.
`seeded/LOG.jsonl` records deliberate bugs put into a scratch copy of the model and the theorems that broke.

## 2. How Go is modelled

* **Outcomes.** A Go call ends in `ok v`, `err` (non-nil `error`), `panic` (runtime panic: index out of range,
  division by zero, nil pointer, makeslice, or an allocation beyond the platform's limit) or `hang` (infinite
  loop): type `Res`. Loops without an evident bound take fuel; running out of fuel is `hang`, and C65/C08 prove
  the chosen fuel is never exhausted.
* **float64.** `F64` is a concrete IEEE-754 binary64 datum: `nan`, `inf sign`, or a finite value
  `± mag · 2^-1074` with `mag` a representable natural number. Comparison, +, ×, ÷, conversions from and to
  integers and bits, and rounding to nearest even are defined and executable. All NaNs are identified (payload
  and sign of NaN are not modelled). float32 fields are their bit patterns, widened exactly.
* **Platform.** What Go leaves to the platform, or what is trusted from the standard library, is a parameter
  record `Platform` over which every theorem quantifies: `math.Exp`, whether `x*y+z` is fused, float→int
  conversions outside the target range, `GOMAXPROCS`, `strconv.ParseFloat`, `%.19g`, the largest allocation
  that succeeds, the spare capacity left by `append`. C83 assumes `strconv.ParseFloat` and `%.19g` to be the documented functions,
  written out in `Model/Strconv`.
* **Integers.** Go `int` is `Int` and 32-bit values are `BitVec 32` or reduced modulo 2^32. Wrap-around of `int`
  is modelled where input can reach it (length checks, matrix dimensions, counts in files); index arithmetic
  that stays below the length of an existing slice is not wrapped.
* **Slices and memory.** Function-local slices are lists. The `predictions` slice is memory accessed by
  individual loads and stores (free monad `GoM`), so the same code has a sequential and an interleaved
  semantics. Feature rows and matrices are read-only values, except in `Model/Alias` (C78, C101), where they
  and the predictions are slices of one memory. There a row that is to be transformed is read at once; with several
  goroutines and overlapping slices the code has more schedules than that. Slices of the pickle machine and of the JSON loader have Go's capacity and aliasing
  behaviour.
* **Goroutines.** `PredictDense`/`PredictCSR` with threads are a small-step transition system: main spawns,
  sends batch numbers over an unbuffered channel, closes, waits; workers receive, execute one load or store at a
  time, exit on close.
* **Text.** The text loaders are modelled on lists of characters, followed by end of file or by a read error, and again on bytes
  that need not be UTF-8 (`Model/Utf8`, `Model/ByteText`). C96 proves the two equal, so all other properties are stated on
  characters. `strings.Split`, `TrimSpace`, `strconv.Atoi/ParseInt/ParseUint` are modelled concretely.
* **Binary.** XGBoost files are lists of bytes; `encoding/binary` little-endian decoding is concrete.
* **JSON.** `encoding/json` is a library; what it does is written out in the model as far as it matters: reading the first
  value of the text in `Model/JsonText`, filling the loader's structures from a document (matching of member names,
  repeated members, kinds of values, depth limit) in `Model/JsonDoc`. Both take a list of characters. The decoder's scanner
  on bytes that arrive in pieces, UTF-8 or not, is `Model/JsonBytes`; C99 proves that the two agree.
* **Readers.** The loaders are modelled twice: on the whole input, and on a `bufio.Reader` over an `io.Reader` that
  delivers the input in pieces (`Model/Bufio`: fill, Read, ReadSlice, ReadString, io.ReadFull, opening and closing of
  files). C90 proves the two equal, so all other properties are stated on the whole input.
* **Pickle.** The protocol-0 machine works on bytes, with Go's aliasing of maps and slices.

## 3. Trusted base

* The Lean 4.33.0 kernel, and the axioms `propext`, `Classical.choice`, `Quot.sound`. Every theorem listed in
  `MANIFEST.json` was checked with `#print axioms` to depend on no others (some on fewer). No axioms of our own,
  no `sorry`, no `native_decide`, no `bv_decide`.
* The faithfulness of the model to the Go text, which was made by reading; the Go code was not run.
* Not trusted: the rounding of the model's float64 arithmetic. `Proofs/IEEE` proves that on finite numbers `+`, `*`,
  `/`, fused multiply-add, conversion of integers and of constants give the exact result rounded to nearest, ties to
  even, with gradual underflow and overflow to infinity (`Spec/Rounding`, which does not mention the model's
  arithmetic), that this determines the result (`Rounded.unique`), and that bit patterns denote what IEEE-754 says
  (`IEEE_ofBits`, `IEEE_ofBits32`). Comparison is the order of the denoted numbers (`F64.le_iff`).
* The statements: the definitions in `lean/Verif/Spec/`, and the hypotheses spelled out in each theorem.

### Code that is modelled

| Go file | Modelled | Not modelled |
|---|---|---|
| `leaves.go` | all functions (`Model/Ensemble`, `Model/Predict`, `Model/Parallel`) | `Transformation()` returns the object itself |
| `lgensemble.go`, `xgensemble.go`, `xgblinear.go`, `misc.go` | all functions (`Model/Ensemble`) | – |
| `lgtree.go` | all functions (`Model/Tree`) | – |
| `lgensemble_io.go` | all functions (`Model/LgText`, `Model/Convert`, `Model/LgJson`, `Model/JsonDoc`, `Model/JsonText`, `Model/JsonBytes`) | – (opening files, buffering: `Model/Bufio`) |
| `xgensemble_io.go`, `xgblinear_io.go` | all functions (`Model/XgLoad`, `Model/Convert`) | – (opening files, buffering: `Model/Bufio`) |
| `internal/xgbin/xgbin_io.go` | all functions (`Model/XgBin`) | reflection in `binary.Read` (modelled as field order) |
| `skensemble_io.go` | all functions (`Model/SkLoad`, `Model/Convert`) | – (opening files, buffering: `Model/Bufio`) |
| `internal/pickle/*.go` | all functions the loader can reach (`Model/Pickle`, `Model/PickleClass`) | `toList` (unused); error texts |
| `mat/mat.go`, `mat/mat_io.go` | all functions (`Model/Mat`; writers that fail: `Model/Write`) | – (opening files: `Model/Bufio`, creating one: `Model/Write`) |
| `transformation/*.go` | all functions (`Model/Transform`) | – |
| `util/util.go` | all functions (`Model/Util`, `Model/Text`, on bytes `Model/ByteText`) | – |
| `doc.go`, `benchmark/`, `testscripts/`, tests | – | not code of the library |

Error messages are short tags; no property depends on them.

## 4. Properties: what is modelled and how it is proved

| Property | Status | Code modelled | Proof | Remarks |
|---|---|---|---|---|
| C01 Numerical split routing | proved | numericalDecision, isZero | case analysis against an independent rule on reals and NaN |  |
| C02 Categorical split routing | partial | categoricalDecision, findInBitset | case analysis; set membership through the stored bitset | Values whose truncation does not fit int32, and NaN without missing type NaN, follow the platform's float-to-int conversion, which the Go specification leaves open; C02_nan_platform_dependent proves the claim's NaN case cannot hold in general. |
| C03 LightGBM text tree is evaluated as written | proved | lgTreeFromReader's conversion loop, predict | invariant of the explicit-stack loop (`Proofs/Convert`), induction over the written tree |  |
| C04 LightGBM text leaf numbers are preserved | proved | same | same, with leaf numbers as values |  |
| C05 LightGBM JSON tree is evaluated as written | proved | unmarshalTree incl. pointers into a growing slice | loop invariant over the stack of pending subtrees | The two hypotheses on num_leaves and num_cat are necessary (proved by counterexamples). |
| C06 XGBoost tree is evaluated as written | partial | xgTreeFromTreeModel, predict | instance of the conversion invariant; witness for equality | The code compares with <=: proved equal to XGBoost's walk for rows without a value equal to a split condition, false at equality (proved). A file in which two splits share a child loads and may predict another leaf (proved); the theorems are about trees. |
| C07 scikit-learn tree is evaluated as written | proved | lgTreeFromSklearnDecisionTreeRegressor, predict | instance of the conversion invariant |  |
| C08 Prediction terminates | proved | predict loop with fuel | the walk follows the written tree, whose height bounds it |  |
| C09 No out-of-range access while predicting | partial | predict and all loaders | `ok` result exhibited from the whole-file theorems; witness for the empty row | Proved for whole files of all formats; false for the empty row and a scikit-learn classifier without splits (proved). For scikit-learn the rows must be as long as the largest split feature, which NFeatures() does not report (C64). |
| C10 Raw prediction is the ordered sum over the first estimators | proved | predictInner of three model kinds | loop induction to a closed-form fold |  |
| C11 nEstimators is normalised | proved | adjustNEstimators | case analysis, then C10 |  |
| C12 Predict writes exactly its output window | proved | Predict over memory | exact footprint of every store; equivalence with the specified output |  |
| C13 PredictSingle agrees with Predict | proved | PredictSingle | reduction to C12 on a one-element buffer |  |
| C14 PredictDense is row-wise Predict | proved | PredictDense, one thread | induction over rows, footprint disjointness |  |
| C15 PredictCSR is Predict on the densified row | proved | PredictCSR, one thread | induction over rows and entries of a row |  |
| C16 Parallel dense prediction equals sequential prediction under every schedule | proved | PredictDense, many threads | invariant over reachable states of the transition system |  |
| C17 Parallel CSR prediction equals sequential prediction under every schedule | proved | PredictCSR, many threads | same |  |
| C18 Workers never race | proved | same | disjoint footprints of the batches held by two workers |  |
| C19 Parallel prediction neither deadlocks nor runs forever | proved | same | decreasing measure; progress from every reachable state |  |
| C20 Dense and CSR prediction agree | partial | PredictDense, PredictCSR | C14 and C15; witness for single-feature models | False for models that split on features they do not announce, such as all single-feature models (proved); proved for all others. |
| C21 Predictions do not depend on the output buffer's previous contents | partial | Predict | C12; witness for leaf views of linear models | False for leaf views of linear models (proved: Predict succeeds and keeps the old buffer); proved for all others. |
| C22 Leaf-index predictions are laid out and bounded as documented | proved | predictLeafIndicesInner | loop induction; leaf numbers below NLeaves |  |
| C23 NLeaves layout | partial | NLeaves | loop induction; leaf counts of converted trees; witness for split-less scikit-learn trees | The count is right for LightGBM text and JSON, XGBoost and scikit-learn trees with a split; false for scikit-learn trees without one, which count two leaves (proved). |
| C24 Raw and leaf views are pure and idempotent | proved | EnsembleWithRawPredictions, EnsembleWithLeafPredictions | induction over the nesting of views |  |
| C25 Logistic output is a probability and order preserving | proved | Sigmoid, TransformLogistic | monotonicity of rounding in + and ÷ | Assuming of math.Exp only that it is monotone, never NaN on non-NaN input and non-negative. |
| C26 Softmax output is a distribution | partial | SoftmaxFloat64Slice | error analysis of rounding over the rationals: running sum, reciprocal and products; witnesses outside the range | Proved when every exponential lies within 2^-1000..2^1000 (up to 2^20 classes), for the transformation and for Predict: range, order, and the exact sum of N outputs is within (N+4)*2^-52 of 1; false otherwise (proved). |
| C27 Transformation names identify the transformation | partial | TransformType.Name and Name of all transformations | case analysis; witness | Holds for every transformation but the exponential one, whose reported name is another's (proved). |
| C28 A transformation never fails silently | partial | predictInnerAndTransform | case analysis; witnesses | False when the transformation does not accept the number of raw scores (proved): the error is dropped. Proved when it does. |
| C29 Leaf prediction demands all estimators | proved | checkNEstimators | case analysis |  |
| C30 Random forests average over the estimators used | proved | predictInner with averageOutput | C10 with the coefficient |  |
| C31 NumberOfSetBits counts bits | proved | NumberOfSetBits | bit-level lemma for a word, induction over words |  |
| C32 FirstNonZeroBit finds the lowest bit | proved | FirstNonZeroBit | the 32 isolated bits, induction over words |  |
| C33 ConstructBitset represents its values | proved | ConstructBitset | invariant of the setting loop |  |
| C34 Stored thresholds survive the float64 detour | proved | threshold casts | exactness of integer conversion below 2^53 |  |
| C35 Parameter blocks are read back as written | proved | ReadParamsUntilBlank | induction over the lines |  |
| C36 Malformed parameter lines are rejected | proved | ReadParamsUntilBlank | case analysis of the lines; measure for termination |  |
| C37 Numeric fields round-trip and out-of-range numbers are rejected | proved | ToInt, ToUint32Slice, ToInt32Slice, ToFloat64Slice | decimal printing and parsing are inverse; range checks |  |
| C38 Loaded LightGBM ensembles are consistent | proved | LGEnsembleFromReader, LGEnsembleFromJSON | inversion of the loaders |  |
| C39 Whole LightGBM text files load as written | proved | LGEnsembleFromReader on whole files | composition of C35, C37, C03 along the blocks of the file |  |
| C40 Objective selects the transformation | proved | lgObjectiveParse and the transformation choice | case analysis over the objective text |  |
| C41 XGBoost binary records round-trip | proved | xgbin readers | encode/decode round trip per record, induction over repeated records; converse: whatever reads is an image |  |
| C42 Truncated XGBoost files are rejected | proved | xgbin readers | a proper prefix of an encoding never decodes |  |
| C43 Loaded XGBoost ensembles are consistent | partial | XGEnsembleFromReader | inversion of the loader; witnesses | False: a file announcing 0 groups loads, and so does one whose tree count is not a multiple of its groups (both proved). Proved when the file announces at least one group and a multiple of it in trees. |
| C44 DART drop weights are applied per tree | proved | predictInner of XGBoost ensembles, XGEnsembleFromReader | C10 with weights; the two files are loaded side by side |  |
| C45 gblinear prediction | proved | predictInner of linear models | loop induction |  |
| C46 CSRMatFromArray represents the array | partial | CSRMatFromArray, DenseMatFromArray | induction over rows; witness | Proved for non-negative dimensions whose product fits an int; false for two negative ones (proved). |
| C47 Matrices read from text are structurally valid | partial | libsvm and CSV readers | invariant of the line loop; witness | Proved for sparse matrices, and for full ones unless the first column is skipped and rows have nothing else; false then (proved). |
| C48 libsvm text round-trips | partial | libsvm readers | induction over the written rows; witnesses | Proved for matrices whose rows all have entries; rows without entries are rejected (proved). |
| C49 CSV write/read round-trips | partial | WriteStr, DenseMatFromCsv | induction over the written rows; witness | Proved for all matrices with at least one row and column; the shape of others is lost (proved). |
| C50 Absent CSV values become the default value | partial | DenseMatFromCsv | induction over the lines; witnesses | Proved when no line is empty or begins or ends with white space; false for empty fields at the ends of a line with a white-space delimiter and for rows with a single, empty field (proved). |
| C51 Protocol-0 pickles decode to the pickled value | proved | pickle decoder | structural induction over values, generalised over stack and memo |  |
| C52 Unicode escapes are decoded correctly | proved | decodeUnicode | replacement scanning as a left-to-right tokenisation | Proved for the two escapes the statement names; the further escapes of newer Python versions are left as they are (proved for one). |
| C53 Memoised objects are shared | partial | memo opcodes, list append, dict setitem | heap invariants; witnesses | False for lists extended and for objects given a state after being memoised (both proved); proved for other objects, including dicts. |
| C54 scikit-learn node records are decoded field by field | proved | SklearnNodeFromBytes, Iterate | byte-level round trip |  |
| C55 scikit-learn prior is added exactly once | proved | SKEnsembleFromReader | induction over iterations |  |
| C56 scikit-learn ensembles are consistent | partial | SKEnsembleFromReader | inversion of the loader; witnesses | Proved for every input that loads with at least one tree; inputs with no classes or with a negative number of estimators can load as empty models (proved). |
| C57 Malformed input yields an error, not a crash | partial | all loaders | witnesses; necessary conditions for a crash: safety invariant of the conversion loop, inverses of the readers, stack-height and reference invariants of the pickle machine, inverses of the object readers | False: witnesses of input that crashes each loader are proved. Proved for every loader: what is wrong with the input whenever it crashes. |
| C58 Single-feature models are usable | partial | NFeatures, PredictCSR | witness | False: a single-feature model announces 0 features and PredictCSR panics (proved). |
| C59 The output-length check protects every write | partial | length checks of the predict functions | arithmetic; witness with a wrapping product | Proved while rows times outputs stays below 2^63; false beyond, where the product wraps (proved). |
| C60 Every batch is handed out exactly once and the batches tile the rows | proved | batch planning | arithmetic over float64 division and ceiling; invariant of the transition system |  |
| C61 Leaf indices identify leaves | proved | converted trees | leaf numbering of the conversion invariant |  |
| C62 Whole XGBoost files predict as written | partial | XGEnsembleFromReader, XGBLinearFromReader on whole files | composition of C41, C06, C44, C45 | Proved for gblinear; for trees proved with the code's comparison (<=), and with XGBoost's (<) for rows without a value equal to a split condition (C06 shows equality fails). |
| C63 Whole scikit-learn pickles predict as written | proved | SKEnsembleFromReader on whole pickles | composition of C51, C54, C07, C55 |  |
| C64 scikit-learn models report the number of features they were trained on | partial | SKEnsembleFromReader, NFeatures | composition with C63; witness | False when max_features differs from the number of features (proved); proved when they are equal and at least 2. |
| C65 Loading always terminates | proved | all loaders | fuel measure: every iteration consumes input or visits a new node |  |
| C66 A model that loads can be evaluated | partial | loaders followed by Predict | witness; whole-file theorems | False: a LightGBM text file whose root is its own left child loads and never returns a prediction (proved); so does an XGBoost or scikit-learn file in which both children of a split are the same node, and a JSON tree that understates its number of leaves (proved). A prediction is endless exactly if the row leads from split to split forever (proved). Proved for well-formed files. |
| C67 Whole LightGBM JSON dumps predict as written | proved | LGEnsembleFromJSON on whole dumps; how `encoding/json` fills the loader's structures (`Model/JsonDoc`) | composition of C05, C10; from documents by induction on the nesting |  |
| C68 Text and JSON forms of a LightGBM model agree | partial | both LightGBM loaders | C39 and C67 against one abstract model; witness | Proved for boosted models with a dump of version v2; false for averaging forests, whose JSON dumps load as sums (proved), and for models of version v3, whose text files load and whose dumps are rejected (proved). |
| C69 JSON dumps are read by member name | partial | `LGEnsembleFromJSON` on parsed JSON documents, field matching of `encoding/json` included | mutual induction on the rearrangement, one store function at a time; witnesses | Proved for documents within the parser's nesting limit whose unknown members have numbers that fit a float64; false otherwise (proved: one unreadable number in an unknown member makes the loader reject the file). Also proved: leaf_value is the one name whose letter case matters, and integers written with a fraction are rejected; and a split with an empty missing_type and a leaf_value is loaded as a leaf. |
| C70 The scikit-learn loader accepts only classifiers it understands | proved | the pickle machine, `internal/pickle` object parsers, `SKEnsembleFromReader` | inversion of every parser from its success, through the denotation of decoded objects | For pickles as described by the specification of protocol 0 (any memoisation). |
| C71 Transformations check what they are given | partial | `Transform` of all transformations | case analysis, shifting of programs to a window of the buffer | Proved for all transformations; the raw and leaf-index transformations accept any number of values, whatever number they announce (proved). |
| C72 Tolerance comparisons accept what is close and reject what is far | partial | `AlmostEqualFloat64`, `AlmostEqualFloat64Slices`, `NumMismatchedFloat64Slices`, `SigmoidFloat64SliceInplace` | rounding to nearest is monotone and exact on floats; induction over the slices | Proved for numbers; false for NaN, which the slice comparisons take for equal to every number (proved). |
| C73 Predictions depend only on the features the model tests | proved | `Predict`, `PredictSingle`, `PredictDense`, `lgTree.predict` | the evaluation programs are equal, by induction over the walk and the loops; surplus values through the specification of successful predictions | For every model value; the last two for models that fit together as the loaders build them. |
| C74 One more estimator adds one more tree per group | proved | `predictInner` of the tree ensembles, `Predict` | from C10: the raw score is a left-to-right sum | The averaging forest is excluded: its scores are divided by the number of estimators. |
| C75 Sparse predictions do not depend on how the matrix is written down | proved | `PredictCSR`, the row filler, `CSRMat` | from C12 and the specification of rows by their entries; list lemmas for the equivalent writings |  |
| C76 Predictions from matrix files are predictions of the file's rows | partial | the matrix readers, `PredictCSR`, `PredictDense` | composition of C48/C50 with C75 and C12 | For well-formed files with non-empty rows; what the readers do with other files is the subject of C47 to C50 (some of them are read without an error as something else). |
| C77 Concurrent calls on one model do not disturb each other | proved | `Predict`, `PredictDense`, `PredictCSR` as state machines that load and store one element at a time, any number of them interleaved | invariant: the steps of each call are an execution of that call alone on its slice; termination from C19 | With slices that overlap it fails (proved): two equal calls sharing a slice may leave twice the prediction. That the methods write nothing but predictions is read off the code when modelling it. |
| C78 Row and predictions in one array | partial | `Predict` with the loads of the row made from the same memory as the stores to predictions (Model/Alias) | simulation between that program and the one with a row of its own; frame property of the stores | Missing: overlapping slices and a model without transformation, where the claim is false: predictInner clears predictions before it reads the row (proved with a witness: 202, 2020 become 101, 2010). That nothing outside predictions is written is proved without restriction. |
| C79 Monotone constraints survive | proved | loaders and predictors of all formats (Model/LgText, LgJson, XgLoad, SkLoad, Ensemble, Predict) and binary64 arithmetic (Model/F64) | two walks over one tree part only at a constrained split (induction); monotonicity of rounded addition, multiplication and fused multiply-add; induction over the estimators | Where products are formed (averaging forests, dart weights, scikit-learn's learning rate, linear models) the factors must not be negative and x*y + z must be fused everywhere or nowhere on the platform. Logistic predictions need exp to be monotone, not negative, and NaN for NaN. A witness shows that the restriction to values that are not missing is needed. |
| C80 Name tells what was loaded | proved | all five loaders (Model/LgText, LgJson, XgLoad, SkLoad) and `Name` (Model/Ensemble) | inversion of a successful load, stage by stage; header records by the round-trip theorems of C41 | A JSON dump of a random forest is called 'lightgbm.gbdt', as JSON dumps do not record averaging (see C68). |
| C81 Leaf indices of whole files | partial | the leaf view and NLeaves (Model/Ensemble, Predict) over all four tree loaders; what a view must do is Spec/LeafView | every loaded tree is related to the file's tree by values, leaf numbers and leaf count (the numbering comes from the conversion's invariant, C61); one lemma turns this into the view of the whole model by C12, C23 and C24; the difference of text and JSON by evaluation | The last sentence is false: the JSON loader ignores the dump's leaf_index and numbers the leaves in order of conversion, so the same row of the same model can get other leaf numbers than from the text file (C81_text_json_differ). A scikit-learn tree without splits has one leaf, NLeaves() says two (C23). |
| C82 Accuracy of predictions | proved | loading and predicting of whole files as in C39, C62, C63 and C67; binary64 arithmetic and the two ways to compute x*y+z (Model/F64, Platform); the exact value is a sum of rationals (Spec/Accuracy) | error of one rounding (half a unit in the last place), of signed addition, product and fused multiply-add; induction over the summation gives ((1+2^-53)^n - 1) times the sum of absolute values, bounded by n*2^-52; a finite result forces all intermediate results to be finite | Concerns raw scores that are finite; transformed outputs are the subject of C25 and C26. The bound cannot be an equality: a forest of six leaves of value 1 predicts less than 1 (C82_average_inexact). |
| C83 Numbers in text files are read as the nearest float64, and text with 17 significant digits loses nothing | proved | strconv.ParseFloat and %.19g as used by mat/mat_io.go and util/util.go (Model/Strconv.lean), with the readers and writers of Model/Mat.lean and the LightGBM loader | Proofs/Decimal.lean: the characters of any numeral are read as its digits and exponent and the result is correctly rounded in the sense of Spec/Rounding.lean; 53-digit magnitudes are at least 2^-53 apart relatively, so a numeral within half a unit in the 17th digit rounds back. Proofs/Format.lean: %.19g writes such a numeral. Composed with C49 and C39. | Removes the assumption on number formats from C49 and C39: strconv.ParseFloat and the verb %.19g are written out in Model/Strconv.lean as the Go library documents them (decimal and hexadecimal numerals, underscores, names of infinities and NaN) and the theorems assume that the platform has them. DecimalExample shows that a delimiter such as a point breaks the round trip and that 16 digits are not enough. |
| C84 JSON model files mean the same however they are laid out, and damaged ones are rejected | proved | json.Decoder.Decode as called in lgensemble_io.go 622 (scanner, numbers, strings with escapes): Model/JsonText.lean, in front of the document loader of C67 | Proofs/JsonText.lean, Proofs/JsonValue.lean: the reader finds exactly the values of the grammar (sound by induction on nested calls, complete by induction on the value); composed with C67_document and C83 | Model/JsonText.lean writes out how encoding/json reads text; Spec/JsonText.lean is the grammar of RFC 8259 as a relation between values and texts. Note that garbage after the closing brace is accepted (C84_layout with any rest). |
| C85 PredictDense uses only the matrix it is given and rejects one that is too small | partial | PredictDense on a slice with spare capacity: Model/DenseCap.lean | from the characterisation of successful batch calls (C15/C16), which names the rows used; the witnesses are evaluated | The first half holds when vals is long enough (C85_matrix_partial). The second half is false: the length of vals is never checked. A short slice with spare capacity gives predictions from memory behind its end without an error (C85_reads_behind_the_end), otherwise the call panics, after some predictions have been stored (C85_too_short, C85_short_panics). |
| C86 Predictions stay within the range of the leaf values, and are never NaN when the leaf values are ordinary numbers | proved | the loaders and Predict as in C39, C62, C63, C67 | walks end in leaves of the tree; rounded sums are monotone in every summand (C79); a sum of a number or infinity and a finite number is never NaN | Averaging forests, weighted trees and scikit-learn models need a platform that fuses x*y+z everywhere or nowhere, and nonnegative weights or learning rates. Scores that are NaN are left out of the comparison; the _number theorems say when there are none. |
| C87 A matrix is written completely or an error is returned | partial | WriteStr on a writer with state that may accept a part and fail, bufio.Writer with its buffer of 4096 bytes and sticky error, ToCsvFile with its deferred calls (Model/Write.lean) | Proofs/Write.lean: every sequence of writes delivers a prefix of the text of the failure-free model (C49); what a buffered writer has taken is what the file has and what is pending. The round trip composes it with C83. | WriteStr has the property. ToCsvFile does not: the error of the deferred Flush of its buffer is dropped, so nil is returned on a full disk; C87_to_csv_silent is a witness with an empty file. C87_to_csv_partial says what remains: on nil at most the last 4096 bytes are missing, and nothing is missing if no write fails. |
| C88 LightGBM text files with an objective give transformed predictions | proved | the loader of LightGBM text files with loadTransformation=true, the objective line, Predict with a transformation | C39 for the trees of the file, combined with the objective line of C40 and the transformations of C25, C26 and C71 | The objective forms are those of the specification Objective. The classes of binary and poisson models must be one, as LightGBM writes them. |
| C89 Predicted probabilities are accurate | proved | loading and predicting with transformations as in C62 and C88; math.Exp as any function with relative error eps (Spec/Probability); the exact values are real numbers from Mathlib's exp | Proofs/Logistic and Proofs/SoftmaxAccuracy bound the transformations, Proofs/SumFinite shows that sums of moderate size do not overflow, C82's bounds for sums carry over by the Lipschitz bounds of the exact functions | ExpAccurate is the assumption about math.Exp; ProbabilityExample.accurate_exp shows that it can be met with eps = 2^-52. Multiclass and exponential models need scores up to 689, beyond which exp overflows. |
| C90 Loading does not depend on how the bytes arrive, and files are always closed | partial | io.Reader, bufio.Reader (fill, Read, ReadSlice, ReadString), io.ReadFull, binary.Read; the loaders on top of them, call by call; the FromFile functions with the deferred Close (Model/Bufio) | refinement: a buffered reader represents the elements it will still hand out; every read function preserves this and returns what the function on the whole input returns (Proofs/Bufio*) | Proved for LightGBM text, XGBoost and matrices, and for all functions that open files. False for scikit-learn pickles: the decoder treats an empty read (0 bytes, no error) as an error, so a pickle that loads from one reader is rejected from another (C90_sklearn_empty_read for every pickle, C90_sklearn_differs for a classifier); C90_sklearn_partial covers readers without empty reads, files among them. LightGBM JSON is decoded by encoding/json from the whole text and not part of this property. |
| C91 Reading a matrix returns a matrix or an error | proved | the readers of mat/mat_io.go (Model/Mat) | no function called per line panics or hangs; induction over the lines | With C90 the same holds for readers that deliver the text in pieces and for the functions that open a file. |
| C92 A model file that has been cut off is rejected | partial | binary readers, pickle decoder, JSON text decoder, LightGBM text reader (all as for the loading properties) | `Exact`: every binary reader consumes a prefix that stands for its value and fails with an error on every shorter prefix, closed under bind and loops; the same per pickle opcode, then induction on the decoding loop; JSON from C84; LightGBM text by comparing the line reader on `c` and on `c ++ d` | Proved for XGBoost, linear, pickle and JSON files. False for LightGBM text: a file that ends inside its last tree can load with another leaf value, load and panic in prediction, or panic while loading (C92_text_fails). C92_text_partial: a cut file that is accepted has the complete header and all trees but the last, and agrees with the whole file in everything that does not use the last estimator. |
| C93 PredictCSR accepts CSR matrices and rejects other arrays | partial | PredictCSR, predictCSRInner (leaves.go 104-180) | the specification `IsCSR` of a matrix; existence of the written-out rows from it, then C15 and C17; no error branch after the checks (`NoErr`); concrete calls evaluated in the kernel | The first and last sentence are proved. The second is false: PredictCSR has no check of its arrays; malformed ones are accepted as other matrices or panic (C93_fails). C93_entries_partial: what the arrays of an accepted call have in common. |
| C94 LightGBM text files mean the same however they are laid out | partial | ReadParamsUntilBlank, lgTreeFromReader, LGEnsembleFromReader as for C35 and C39 | the specification describes texts by their blocks of trimmed lines; a relation between two runs of the loader (`Related`) is preserved because the loader looks up the seventeen model fields only; Windows line ends by induction on the text | Proved except for additional fields whose line has more than one equals sign: these make the file unreadable, so that a model with a feature named `colour=red` is rejected (C94_equals_fails). The input must end without an I/O error. |
| C95 Matrix files mean the same however their lines are laid out, and limit gives the first rows | proved | readFromLibsvm, readFromCsv, recordsToDenseMat, recordsToCSRMat | the readers are functions of the trimmed lines before the first blank line (`Block`); layouts with the same lines by induction on the text; the matrix read so far only grows | For inputs that end with io.EOF; C90 extends it to readers that deliver the text in pieces. |
| C96 Text files are read as the characters their bytes hold, also when they are not UTF-8 | proved | a second model of the text loaders on bytes: utf8.DecodeRune/DecodeLastRune, TrimSpace, Split, Atoi, ParseInt, ParseUint, ParseFloat, bufio ReadString, ReadParamsUntilBlank, the LightGBM loader, readFromLibsvm, readFromCsv (Model/Utf8, Model/ByteText) | Chars is a separate relation (Spec/Utf8), shown to be a total function; every byte function is shown to commute with it (decoding restarts in the same places from both ends), then the loaders by simulation | AsciiFloats (no numeral has a character beyond ASCII) follows from Go's ParseFloat, Strconv.Standard.ascii. JSON text is not included. |
| C97 Files that begin with a byte order mark | proved | the byte-level text readers of C96 | the first line begins with U+FEFF, which is not white space and no numeral begins with it; splitting leaves it in the first token; for LightGBM through the independence of unused fields (C94) |  |
| C98 Models that follow each other in one stream are loaded one after another | proved | the loaders on buffered readers (Model/Bufio, Model/ByteText) | a whole model is exactly the part a loader takes (C92), the loader on pieces follows the loader on the whole input and holds the same rest; induction on the models | The readers are those of C90 (bytes in pieces) and C96 (text on bytes). |
| C99 JSON dumps load from any byte stream, however it is delivered | proved | the decoder of encoding/json: its scanner, byte by byte, with the stack of open objects and arrays and the depth limit, and the loop that refills its buffer (Model/JsonBytes) | the scanner over a whole text equals the recursive grammar (induction on the nesting); bytes beyond ASCII leave it inside a string or stop it, like the characters they belong to; a scan of pieces is a scan of the whole | The scanner of encoding/json is modelled as the state machine it is and proved to find the end of the first value of the grammar of C84. |
| C100 Predictions do not depend on the machine | partial | everything from the reader to the predictions, on two platforms at once | the product of two float32 numbers is a float64 number, and a product with one is exact, so one rounding equals two; the categories of definite values do not depend on the conversion; the reference predictions of C39, C62, C63, C67 and C88 carry over, and with them the batches of C08 | Proved for LightGBM models without average_output and rows whose values at categorical splits have an int32 (or are NaN where NaN is declared missing), for all XGBoost tree models, for linear XGBoost models on float32 rows and for scikit-learn models with learning rate one. False otherwise, each with a witness: averaging forests, linear models on float64 rows, scikit-learn models with another learning rate, and NaN as a category without declared missing values give different results on an amd64-like and an arm64-like machine. |
| C101 Matrix and predictions in one array | proved | PredictDense and PredictCSR on one memory for both slices, sequential and with the worker pool | the program on the small memory and the program on the large one are related step by step (a bisimulation with silent steps for the reads of the matrix), which carries sets of outcomes of the pool over in both directions; in place: induction over the rows with the invariant that rows still to be read are as at the start; nothing else: an invariant of the pool | Slices that do not overlap: an equivalence of the sets of outcomes, both directions. In place: an equivalence under the stated conditions. The four witnesses show predictions that go wrong when a condition fails: two threads, predictions behind the matrix, more predictions than features, sparse values. The transformed predictions read the row at once; with several threads that is one possible schedule, which is all the witness needs. |
| C102 The announced number of features is usable | partial | NFeatures with its wrapping addition, the loaders up to the stored largest feature, the allocation of the row in PredictCSR and its workers | inversion of the loaders on all inputs; for the worker pool an invariant: as long as no worker can begin, the caller never gets past the first batch | False as a whole (C102_negative_count, C102_csr_memory with its example). Proved: for XGBoost without exception; for the other formats the only negative value is the smallest integer; PredictCSR panics, or returns an error without touching the predictions, whenever the row does not fit, with any number of threads under every schedule. |
| C103 Asking for fewer estimators equals a model with fewer estimators | proved | the loaders of all tree formats, the number of estimators used, all prediction entry points | both ensembles equal the reference sums over descriptions of the files; the reference sum over the first n rounds does not look at later ones | Both files are loaded in the model and the two loaded ensembles are compared by the public predictions. The XGBoost and scikit-learn statements relate the two files by their contents (XgModel.Shortened, SkModel.shortened); for random forests the average is over the estimators asked for. |
| C104 Predicting some of the rows, in any order | proved | PredictDense, PredictCSR with their worker pools | row-wise characterisation of both calls (C14, C15), existence of the stored result, determinism (C16, C17) | The pieces are non-empty; an empty matrix is the subject of C18 and C19. |
| C105 Predictions change only when a value crosses a threshold | proved | decisions, tree walk, ensembles, all entry points | congruence of the decision functions on values that a split does not separate, induction along the walk; for linear models, multiply-add (fused or not) respects the denoted numbers | C105_row and C105_single are equalities of whole executions (results, errors, crashes and stores). C105_linear_zero_differs shows that linear models do pass on the sign of a zero. |
| C106 Rows in float64 are predicted as the training library predicts their float32 rounding | partial | loaders of both formats, numerical decisions, all of prediction | from C62 and C63: the walks agree at every node because no float32 lies between a value and its rounding; congruence of walks and sums; witnesses by evaluation | False of the code. C106_xgboost_partial excludes exactly the rows with a value that does not exceed a split condition its rounding equals: split conditions are float32, so rounding moves no value across one. C106_sklearn_partial excludes the rows with a threshold between a value and its rounding. The two witnesses are whole files that split at 0.1 and the value 0.1: the libraries go right, leaves goes left. rounds32_exists and rounds32_nearest show that every value has a rounding and that round-to-nearest is one. |
| C107 Rows that end in the same leaves get the same predictions | proved | tree walk, ensembles, leaf views, all entry points | the leaf index determines the value (C22), float64 holds leaf numbers exactly, so equal leaf vectors mean equal results of every tree; congruence of sums; matrices by C14 and C15 | The leaf view may be asked with any number of estimators that it accepts. C107_converse_fails: equal predictions do not imply equal leaves. |
| C108 A prediction is the transformation of what the raw view predicts | proved | predictInnerAndTransform, transformations, views, all entry points | from the exact characterisations of Predict (C12), PredictDense (C14) and PredictCSR (C15) | Leaf views are excluded: their transformation is not one of scores. C108_single_short shows the exception for short rows. |
| C109 The scores of a class depend on the trees of this class only | proved | loaders for text, JSON and XGBoost files, predictInner, all entry points | from the characterisations of loaded models against reference models (C39, C67, C62): the terms of class j are the terms of the one-class model | Raw scores: the softmax of several classes is no function of one class. scikit-learn files are left out because the initial estimator of a one-class model differs from the one of several classes. For linear models the weights and the bias of a class take the place of its trees. |
| C110 Features may be renumbered | proved | loaders for all formats, tree walk, dense and sparse entry points | a walk in the renumbered tree takes the same branches; rows of a sparse matrix with renumbered columns are the renumbered rows | Tree models. C110_linear_differs shows that it is false for linear models, whose sum is rounded feature by feature. |
| C111 A matrix without rows | proved | PredictDense, PredictCSR with their checks and plans | direct evaluation of the checks; the plan is sequential and its loop has no iterations | C111_dense_ok requires that rows times outputs does not wrap (beyond that the call may return an error); PredictCSR also allocates a row of the model's features, which has to fit into memory. |
| C112 loadTransformation decides the transformation and nothing else | proved | all five loaders | the loaders are unfolded side by side; the raw view and the ensemble without transformation behave the same by computation | C112_not_supported: the converse does not hold, files with an objective that is not supported load only without their transformation. |
| C113 The order of the trees of a class matters only for rounding | proved | loaders of all tree formats, prediction, concrete binary64 | C82 bounds both scores around the exact sum; the exact sum and the sum of absolute values are invariant under permutation because the value of a tree for a row is unique; triangle inequality | The bound compares the two scores with each other, so no exact sum appears in the statement; the values in the bound are those of the first file's trees. The last theorem shows that the scores need not be equal. |
| C114 A prediction looks at no more than one split per level of the tree | proved | a listing of the nodes that the prediction loop looks at; the tree loaders | the node array embeds the file's tree, so each iteration descends one level; the listing is tied to the loop by an exact equivalence | C114_counts ties the counted nodes to the loop of the prediction itself; C114_reached shows a row for which the bound is reached. |
| C115 An iteration of trees with zero leaves contributes nothing | proved | the ensembles and their loaders, as for C39, C62, C67 | the sum of float64 numbers started at a number other than −0 is never −0, so adding ±0 is the identity at every point of the accumulation | C115_not_for_averages is the witness that average_output files are rightly excluded. |
| C116 Decisions taken from probabilities agree with the raw scores | proved | the transformations and Predict with its raw view (C108) | rounded addition, division and multiplication are monotone, so the composition cannot reverse a strict order; NaN and overflow by cases | Unlike C26 (numbers that sum to 1) nothing is assumed on the range of the scores. C116_ties proves that equal probabilities of different scores occur. |
| C117 LightGBM models that need more than the library computes are refused | partial | The text loader of C35-C40 and C94, with the header described by its lines. | The load is followed to its first error for each kind of header. Lines with the linear fields bind none of the fields of a model, so C94 applies; the two negations are computed on concrete files against small statements of what LightGBM computes. | Proved for versions, trees per iteration and objectives. False of linear trees: the linear models are not looked at, and a file with them loads as the file without (C117_linear_ignored; a leaf 2 + 3x predicts its plain value, C117_linear_fails). False of `regression sqrt`: the raw score is answered instead of its signed square (C117_sqrt_ignored, C117_sqrt_fails). |
| C118 Loading a model needs memory in proportion to the file | partial | Allocation is modelled by a limit on the size of a single request, above which the code panics; the limit is a parameter of the machine. | The loader is followed to the allocation of the nodes; for the positive direction the length of a line bounds the number of its values. The witnesses are families of files indexed by the announced size. | Stated exactly for well-formed LightGBM text files: they load when there is room for the number of splits that each tree announces, and panic otherwise. Proved when the arrays have an entry for each announced split: 24 bytes per character are enough. False in general: a valid text of at most 210 characters announces any number of splits below 2^32 and needs 24 bytes for each (C118_text_fails, C118_no_bound), and 144 bytes of an XGBoost file make the loader ask for any number of bytes below 2^64 before it reads on (C118_xgboost_fails). |
| C119 The reported transformation tells how many outputs a row has | proved | All loaders and the two views. | Induction over the way in which the ensemble was obtained; every loader is inverted to the fields of what it returns. | Obtained is defined by induction: the five loaders, closed under the two views. C119_fits says exactly which of these ensembles meet the hypothesis of the theorems about prediction: all but those of files that announce no groups (C43, C56), a transformation to one number of several raw scores (C28) and leaf views of linear models (C09). |
| C120 XGBoost files of kinds the library does not compute are refused | proved | The two XGBoost loaders. | The loaders are inverted to the records they read (C41); the check of the group numbers is shown to mean that the classes take turns, also when the number of groups is not positive. | Readable: the records have the counts they announce and fit in memory; other files are C57 and C118. Files in which a split is reached in two ways are accepted (C06, C66). |
| C121 Opposite leaf values give opposite scores | proved | the loaders, the sums of both kinds of ensembles, binary64 addition, multiplication and fused multiplication, the logistic transformation | sums, products and fused products of opposite data are opposite (by cases on the data, the rounding acts on magnitudes); induction on the number of trees; the file theorems C39, C88 and C62; the accuracy of the logistic function for the probabilities | OneRounding is needed for averaged forests only; products of float32 numbers are exact. Example with two trees, and with the XGBoost file of C62, sign bits flipped. |
| C122 Classes may be renumbered | proved | the four loaders, the prediction loops, the softmax transformation | the files' raw scores are given by the format specifications (C39, C67, C62), where the scores of the classes are independent sums; the sum of exponentials is invariant under permutations, and both predictions are near the same real number (C89 lemmas); concrete witness for the last bits | C122_softmax_order shows with three classes of scores 37, 0, 0 that the probabilities differ in their last bits when the first class is put last. |
| C123 Statistics, parents, reserved words and leaf vectors of XGBoost files do not matter | proved | readers of internal/xgbin, xgEnsembleFromReader, xgTreeFromTreeModel, xgbLinearFromReader | decoding of the images, then the conversion's view of the node table is the same function for both tables | Equality of the whole outcome of the loaders on two byte strings; no validity of the trees is assumed. C123_used gives the witnesses that the fields kept equal do matter. |
| C124 The numbering of a tree's nodes in the file does not matter | proved | lgTreeFromReader, xgTreeFromTreeModel, lgTreeFromSklearn and the shared depth-first conversion | a simulation between the two runs of the conversion loop (equal output, visited nodes related by the renumbering); for text and pickles the paths through the described trees are related | XGBoost: equality of the whole outcome of the loader. LightGBM text and scikit-learn: the two loaded models agree in every prediction call; C124_text also gives the leaf indices. |
| C125 Leaf values multiplied by a power of two give scores multiplied by it exactly | proved | lgEnsembleFromReader, xgEnsembleFromReader, predictInner | rounding a whole number of units to 53 digits commutes with multiplying by 2^p; products of float32 numbers are exact; induction over the sum | Random forests (averaged output) are left out: the product with 1/n may be subnormal and then loses digits in one of the two models only. C125_three is the witness that the factor has to be a power of two. |
| C126 The same forest in another format predicts the same, except on sparse matrices of XGBoost models | proved | the three loaders, predictInner, PredictDense, PredictCSR | both reference predictions of the files walk corresponding trees; corresponding nodes send every row to the same side; the sums have the same terms | C126_sparse is the witness that sparse prediction differs between an XGBoost model and its LightGBM twin. XGBoost itself compares with < and the library with <=; this property compares the two loaded models, C06 treats the difference to XGBoost. |
| C127 Superfluous splits may be removed from a model | proved | lgEnsembleFromReader, xgEnsembleFromReader, predictInner, PredictDense, PredictCSR | induction over the relation between the trees, which carries the set of rows that reach a node; the walk in the first tree gives a walk in the second to a leaf of the same value | One direction only: the first model may crash on rows too short for a removed split (a model on a single feature announces no features), where the second one predicts. Leaf views are left out: leaf numbers change. |
| C128 Only the meaning of a LightGBM tree counts, not the way it is written down | proved | lgEnsembleFromReader, predictInner, PredictDense, PredictCSR | walks in trees of the same form correspond; every split is read through the rule it denotes (C01, C02, C03) | C124 is the case of a mere renumbering, which also covers leaf views and the other formats. |
| C129 Scores can be recomputed from the leaf indices and the leaf values of the file | proved | lgEnsembleFromReader, withLeafPredictions, predictInner, predictLeafIndicesInner | C39 and C81 describe both predictions of the loaded file; a walk that ends in leaf j gives the j-th value | For the other formats the leaf numbers are the loader's own (C81), so nothing can be looked up in the file. |
| C130 Every notation of a number in a CSV file is read as the number it denotes | proved | DenseMatFromCsv with strconv.ParseFloat written out (Model/Strconv.lean) | induction over the digits gives the number read; ofRatio rounds it correctly; exact numbers are their own nearest float64 | Under the assumption that strconv.ParseFloat does what the Go library documents (Strconv.Standard), as for C83. Spellings with underscores are shown in C130_not_numbers only. |
| C131 Features may be measured in other units | proved | lgEnsembleFromReader, xgEnsembleFromReader, predict, PredictDense, PredictCSR | trees of the same form whose splits decide alike on original and converted values end in the same leaves; C39, C62 connect files and predictions, C14, C15 rows and matrices | Conversions are functions on float64 that keep the order on a set of values given by the user; no conversion but the identity keeps the order of all float64. |
| C132 Every notation of a number in a libsvm file or a pickle is read as the number it denotes | proved | CSRMatFromLibsvm, the decoder of pickles and strconv.ParseFloat (Model/Strconv.lean) | what C130 shows of a cell is used for every entry, by induction over the entries and rows; the text of a float is one of the dumps C51 decodes | Under the assumption that strconv.ParseFloat does what the Go library documents (Strconv.Standard), as for C83 and C130. |
| C133 Which number a leaf has in XGBoost and scikit-learn models | proved | the loops that convert trees of XGBoost and scikit-learn, and PredictLeafIndices | an invariant of the conversion loop: the leaf values are appended in the order in which the stack is worked off, by induction over the tree | C81 gives the same for LightGBM text files, where the numbers are those of the file. |
| C134 Leaf indices depend on the splits only | proved | the loaders of the three formats and leaf-index views | C81, C129 and C133 for both files: the leaf that is reached and its number are described by the splits |  |
| C135 Which texts are numbers, and underscores in numbers | proved | strconv.ParseFloat and the CSV reader | inversion of the scanner: what it accepts splits into the parts of a numeral, by induction over the text; the positions of underscores by an invariant of the checking loop; errors pass through the line loop by induction over the lines | Assumes, as C83 and C130 do, that strconv.ParseFloat is the function of Model/Strconv (Strconv.Standard). Texts that end with an exponent of 10000 or more are left out: strconv stops counting there. |
| C136 Scores are made of numbers that stand in the model file | proved | the LightGBM text, XGBoost and scikit-learn loaders and prediction | inversion of the loader: every accepted text is split into blocks, each leaf value is what its text denotes (C135), and a prediction returns a member of the leaf values | Assumes, as C83 and C130 do, that strconv.ParseFloat is the function of Model/Strconv. Texts with exponents of 10000 or more are not described. |
