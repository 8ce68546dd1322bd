import Verif.Model.LgJson

/-!
# lgensemble_io.go: decoding JSON documents into the structures of the LightGBM loader

`encoding/json` turns text into JSON values and fills Go structures from them. Reading the text is in `Model/JsonText`; filling the structures,
which depends on the field names and types declared in lgensemble_io.go 16-50, is modelled here. What `encoding/json` does, as far as
it matters:
- a member fills the field whose name equals its key when letter case is ignored; other members are ignored;
- members are handled in order, so a later member with the same key overwrites an earlier one;
- `null` leaves numbers, strings and booleans as they are and empties slices and interfaces;
- a number fills an integer field only if its text is an integer that fits; every number stored in an `interface{}` must be
  readable as a float64;
- any mismatch makes the whole call return an error.
-/

namespace Leaves

mutual
/-- a JSON value; numbers keep their text -/
inductive Json where
  | null
  | bool (b : Bool)
  | num (text : Str)
  | str (s : Str)
  | arr (items : JsonArr)
  | obj (members : JsonObj)
/-- the elements of an array -/
inductive JsonArr where
  | nil
  | cons (x : Json) (rest : JsonArr)
/-- the members of an object, in order; keys may repeat -/
inductive JsonObj where
  | nil
  | cons (key : Str) (value : Json) (rest : JsonObj)
end

/-- `encoding/json` folds letter case; the letters `s` and `k` have a third form outside ASCII. (Other characters outside ASCII are
never equal to a letter of a field name.) -/
def foldChar (c : Char) : Char := if c.toNat = 0x17f then 'S' else if c.toNat = 0x212a then 'K' else c.toUpper

/-- does a key select the field declared with this name -/
def isField (key name : Str) : Bool := key.map foldChar == name.map foldChar

/-- the values of the members that fill a field, in order -/
def JsonObj.values (name : Str) : JsonObj → List Json
  | .nil => []
  | .cons k v rest => if isField k name then v :: rest.values name else rest.values name

/-- storing a value in a `string` -/
def storeString (old : Str) : Json → Option Str
  | .str s => some s
  | .null => some old
  | _ => none

/-- storing a value in a `bool` -/
def storeBool (old : Bool) : Json → Option Bool
  | .bool b => some b
  | .null => some old
  | _ => none

/-- storing a value in an `int` -/
def storeInt (old : Int) : Json → Option Int
  | .num t => atoi t
  | .null => some old
  | _ => none

/-- storing a value in a `uint32` -/
def storeUint32 (old : Nat) : Json → Option Nat
  | .num t => parseUint 32 t
  | .null => some old
  | _ => none

mutual
/-- all numbers in a value can be stored as float64 -/
def Json.readable (P : Platform) : Json → Bool
  | .num t => (P.parseFloat t).isSome
  | .arr items => items.readable P
  | .obj members => members.readable P
  | _ => true
/-- … in the elements -/
def JsonArr.readable (P : Platform) : JsonArr → Bool
  | .nil => true
  | .cons x rest => x.readable P && rest.readable P
/-- … in the members -/
def JsonObj.readable (P : Platform) : JsonObj → Bool
  | .nil => true
  | .cons _ v rest => v.readable P && rest.readable P
end

/-- storing a value in an `interface{}` -/
def storeInterface (P : Platform) (v : Json) : Option JVal :=
  if v.readable P then
    match v with
    | .num t => (P.parseFloat t).map .num
    | .str s => some (.str s)
    | _ => some .other
  else none

/-- lgensemble_io.go 421: the type assertion `.(float64)` on a value stored in an `interface{}` -/
def asFloat (P : Platform) : Json → Option F64
  | .num t => P.parseFloat t
  | _ => none

/-- lgensemble_io.go 416-421: the last member with key `leaf_value` (a map key: letter case matters) as a float64 -/
def leafValue (P : Platform) : JsonObj → Option F64 → Option F64
  | .nil, found => found
  | .cons k v rest, found =>
    leafValue P rest (if k = "leaf_value".toList then asFloat P v else found)

/-- lgensemble_io.go 38-50: the fields of `lgNodeJSON` except the children; the results for `split_index` and for the fields
`LeftChild` and `RightChild`, which have no tag, are not used -/
def decodeSplit (P : Platform) (o : JsonObj) : Option (Nat × JVal × Str × Bool × Str) := do
  let _ ← (o.values "split_index".toList).foldlM storeUint32 0
  let splitFeature ← (o.values "split_feature".toList).foldlM storeUint32 0
  let threshold ← (o.values "threshold".toList).foldlM (fun _ => storeInterface P) .other
  let decisionType ← (o.values "decision_type".toList).foldlM storeString []
  let defaultLeft ← (o.values "default_left".toList).foldlM storeBool false
  let missingType ← (o.values "missing_type".toList).foldlM storeString []
  let _ ← (o.values "LeftChild".toList).foldlM (fun _ => storeInterface P) .other
  let _ ← (o.values "RightChild".toList).foldlM (fun _ => storeInterface P) .other
  return (splitFeature, threshold, decisionType, defaultLeft, missingType)

mutual
/-- lgensemble_io.go 407-427: what the two calls of `json.Unmarshal` deliver for the raw text of a node, and recursively for its
children. (`null` leaves the structure empty and the map nil.) -/
def decodeNode (P : Platform) : Json → JRaw
  | .null => .leafLike none
  | .obj o =>
    match decodeSplit P o with
    | none => .invalid
    | some (_, _, _, _, []) => if o.readable P then .leafLike (leafValue P o none) else .invalid
    | some (f, t, d, dl, m :: ms) =>
      .split f t d dl m ms (decodeChild P "left_child".toList o .invalid) (decodeChild P "right_child".toList o .invalid)
  | _ => .invalid
/-- lgensemble_io.go 46-47: a `json.RawMessage` field holds the text of the last member, and nothing when there is none -/
def decodeChild (P : Platform) (name : Str) : JsonObj → JRaw → JRaw
  | .nil, found => found
  | .cons k v rest, found => decodeChild P name rest (if isField k name then decodeNode P v else found)
end

/-- lgensemble_io.go 28-36, 443-447: `json.Unmarshal` into `lgTreeJSON` -/
def decodeTree (P : Platform) : Json → Option JTree
  | .null => some ⟨0, 0, .invalid⟩
  | .obj o => do
    let numLeaves ← (o.values "num_leaves".toList).foldlM storeInt 0
    let numCat ← (o.values "num_cat".toList).foldlM storeUint32 0
    let _ ← (o.values "Root".toList).foldlM (fun _ => storeInterface P) .other
    return ⟨numLeaves, numCat, decodeChild P "tree_structure".toList o .invalid⟩
  | _ => none

/-- the trees of an array -/
def decodeTrees (P : Platform) : JsonArr → List (Option JTree)
  | .nil => []
  | .cons x rest => decodeTree P x :: decodeTrees P rest

/-- storing a value in a `[]json.RawMessage` -/
def storeTrees (P : Platform) : Json → Option (List (Option JTree))
  | .arr items => some (decodeTrees P items)
  | .null => some []
  | _ => none

mutual
/-- how deeply arrays and objects are nested -/
def Json.depth : Json → Nat
  | .arr items => items.depth + 1
  | .obj members => members.depth + 1
  | _ => 0
/-- … in the elements -/
def JsonArr.depth : JsonArr → Nat
  | .nil => 0
  | .cons x rest => max x.depth rest.depth
/-- … in the members -/
def JsonObj.depth : JsonObj → Nat
  | .nil => 0
  | .cons _ v rest => max v.depth rest.depth
end

/-- lgensemble_io.go 16-26, 622-627: `Decode` into `lgEnsembleJSON` -/
def decodeEnsemble (P : Platform) (v : Json) : Option JEnsemble :=
  if P.jsonDepth < v.depth then none
  else match v with
  | .null => some ⟨[], [], 0, 0, 0, []⟩
  | .obj o => do
    let name ← (o.values "name".toList).foldlM storeString []
    let version ← (o.values "version".toList).foldlM storeString []
    let numClasses ← (o.values "num_class".toList).foldlM storeInt 0
    let numTreesPerIteration ← (o.values "num_tree_per_iteration".toList).foldlM storeInt 0
    let maxFeatureIdx ← (o.values "max_feature_idx".toList).foldlM storeInt 0
    let trees ← (o.values "tree_info".toList).foldlM (fun _ => storeTrees P) []
    return ⟨name, version, numClasses, numTreesPerIteration, maxFeatureIdx, trees⟩
  | _ => none

/-- lgensemble_io.go 615-669 `LGEnsembleFromJSON` for the first JSON value of the input; `none` when there is none (the rest of the
input is not read) -/
def lgEnsembleFromDocument (P : Platform) (doc : Option Json) (loadTransformation : Bool) : Res Ensemble :=
  lgEnsembleFromJSON P (doc.bind (decodeEnsemble P)) loadTransformation

end Leaves
