# Formal model of dmitryikh/leaves in Lean 4 — design

## 1. Layout

The model is a set of total, computable Lean functions under `lean/Verif/Model/`, written function by
function after the Go sources; every definition cites the Go lines it models and names its simplifications.
Specifications live in `lean/Verif/Spec/` and never call model functions. Proof internals live in
`lean/Verif/Proofs/`. Property theorems live in `lean/Verif/Props/`, one file per area, each theorem named
`Cxx_…` after the property in `properties.jsonl`, with concrete cases meeting its hypotheses beside it
(namespaces `…Example`). A name ending in `_partial` marks a theorem that proves less than the property says;
the property's line below says what is missing. `MANIFEST.json` lists the theorems of every property.
`seeded/LOG.jsonl` records deliberate bugs put into a scratch copy of the model and the theorems that broke.

## 2. How Go is modelled

* **Outcomes.** A Go call ends in `ok v`, `err` (non-nil `error`), `panic` (runtime panic: index out of range,
  division by zero, nil pointer, makeslice, or an allocation beyond the platform's limit) or `hang` (infinite
  loop): type `Res`. Loops without an evident bound take fuel; running out of fuel is `hang`, and C65/C08 prove
  the chosen fuel is never exhausted.
* **float64.** `F64` is a concrete IEEE-754 binary64 datum: `nan`, `inf sign`, or a finite value
  `± mag · 2^-1074` with `mag` a representable natural number. Comparison, +, ×, ÷, conversions from and to
  integers and bits, and rounding to nearest even are defined and executable. All NaNs are identified (payload
  and sign of NaN are not modelled). float32 fields are their bit patterns, widened exactly.
* **Platform.** What Go leaves to the platform, or what is trusted from the standard library, is a parameter
  record `Platform` over which every theorem quantifies: `math.Exp`, whether `x*y+z` is fused, float→int
  conversions outside the target range, `GOMAXPROCS`, `strconv.ParseFloat`, `%.19g`, the largest allocation
  that succeeds, the spare capacity left by `append`. C83 assumes `strconv.ParseFloat` and `%.19g` to be the documented functions,
  written out in `Model/Strconv`.
* **Integers.** Go `int` is `Int` and 32-bit values are `BitVec 32` or reduced modulo 2^32. Wrap-around of `int`
  is modelled where input can reach it (length checks, matrix dimensions, counts in files); index arithmetic
  that stays below the length of an existing slice is not wrapped.
* **Slices and memory.** Function-local slices are lists. The `predictions` slice is memory accessed by
  individual loads and stores (free monad `GoM`), so the same code has a sequential and an interleaved
  semantics. Feature rows and matrices are read-only values, except in `Model/Alias` (C78, C101), where they
  and the predictions are slices of one memory. There a row that is to be transformed is read at once; with several
  goroutines and overlapping slices the code has more schedules than that. Slices of the pickle machine and of the JSON loader have Go's capacity and aliasing
  behaviour.
* **Goroutines.** `PredictDense`/`PredictCSR` with threads are a small-step transition system: main spawns,
  sends batch numbers over an unbuffered channel, closes, waits; workers receive, execute one load or store at a
  time, exit on close.
* **Text.** The text loaders are modelled on lists of characters, followed by end of file or by a read error, and again on bytes
  that need not be UTF-8 (`Model/Utf8`, `Model/ByteText`). C96 proves the two equal, so all other properties are stated on
  characters. `strings.Split`, `TrimSpace`, `strconv.Atoi/ParseInt/ParseUint` are modelled concretely.
* **Binary.** XGBoost files are lists of bytes; `encoding/binary` little-endian decoding is concrete.
* **JSON.** `encoding/json` is a library; what it does is written out in the model as far as it matters: reading the first
  value of the text in `Model/JsonText`, filling the loader's structures from a document (matching of member names,
  repeated members, kinds of values, depth limit) in `Model/JsonDoc`. Both take a list of characters. The decoder's scanner
  on bytes that arrive in pieces, UTF-8 or not, is `Model/JsonBytes`; C99 proves that the two agree.
* **Readers.** The loaders are modelled twice: on the whole input, and on a `bufio.Reader` over an `io.Reader` that
  delivers the input in pieces (`Model/Bufio`: fill, Read, ReadSlice, ReadString, io.ReadFull, opening and closing of
  files). C90 proves the two equal, so all other properties are stated on the whole input.
* **Pickle.** The protocol-0 machine works on bytes, with Go's aliasing of maps and slices.

## 3. Trusted base

* The Lean 4.33.0 kernel, and the axioms `propext`, `Classical.choice`, `Quot.sound`. Every theorem listed in
  `MANIFEST.json` was checked with `#print axioms` to depend on no others (some on fewer). No axioms of our own,
  no `sorry`, no `native_decide`, no `bv_decide`.
* The faithfulness of the model to the Go text, which was made by reading; the Go code was not run.
* Not trusted: the rounding of the model's float64 arithmetic. `Proofs/IEEE` proves that on finite numbers `+`, `*`,
  `/`, fused multiply-add, conversion of integers and of constants give the exact result rounded to nearest, ties to
  even, with gradual underflow and overflow to infinity (`Spec/Rounding`, which does not mention the model's
  arithmetic), that this determines the result (`Rounded.unique`), and that bit patterns denote what IEEE-754 says
  (`IEEE_ofBits`, `IEEE_ofBits32`). Comparison is the order of the denoted numbers (`F64.le_iff`).
* The statements: the definitions in `lean/Verif/Spec/`, and the hypotheses spelled out in each theorem.

### Code that is modelled

| Go file | Modelled | Not modelled |
|---|---|---|
| `leaves.go` | all functions (`Model/Ensemble`, `Model/Predict`, `Model/Parallel`) | `Transformation()` returns the object itself |
| `lgensemble.go`, `xgensemble.go`, `xgblinear.go`, `misc.go` | all functions (`Model/Ensemble`) | – |
| `lgtree.go` | all functions (`Model/Tree`) | – |
| `lgensemble_io.go` | all functions (`Model/LgText`, `Model/Convert`, `Model/LgJson`, `Model/JsonDoc`, `Model/JsonText`, `Model/JsonBytes`) | – (opening files, buffering: `Model/Bufio`) |
| `xgensemble_io.go`, `xgblinear_io.go` | all functions (`Model/XgLoad`, `Model/Convert`) | – (opening files, buffering: `Model/Bufio`) |
| `internal/xgbin/xgbin_io.go` | all functions (`Model/XgBin`) | reflection in `binary.Read` (modelled as field order) |
| `skensemble_io.go` | all functions (`Model/SkLoad`, `Model/Convert`) | – (opening files, buffering: `Model/Bufio`) |
| `internal/pickle/*.go` | all functions the loader can reach (`Model/Pickle`, `Model/PickleClass`) | `toList` (unused); error texts |
| `mat/mat.go`, `mat/mat_io.go` | all functions (`Model/Mat`; writers that fail: `Model/Write`) | – (opening files: `Model/Bufio`, creating one: `Model/Write`) |
| `transformation/*.go` | all functions (`Model/Transform`) | – |
| `util/util.go` | all functions (`Model/Util`, `Model/Text`, on bytes `Model/ByteText`) | – |
| `doc.go`, `benchmark/`, `testscripts/`, tests | – | not code of the library |

Error messages are short tags; no property depends on them.

## 4. Properties: what is modelled and how it is proved

