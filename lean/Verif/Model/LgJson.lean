import Verif.Model.LgText

/-!
# lgensemble_io.go: LightGBM JSON format

`encoding/json` is trusted: the model starts from what `json.Unmarshal` delivers for each nested object.
-/

namespace Leaves

/-- an `interface{}` filled by encoding/json (field `threshold`) -/
inductive JVal where
  | num (v : F64)
  | str (s : Str)
  | other
deriving DecidableEq

/-- What `json.Unmarshal` delivers for a raw node (lgensemble_io.go 38-50, 407-427). -/
inductive JRaw where
  /-- `json.Unmarshal` into `lgNodeJSON` fails (malformed, wrong types, or the field is absent) -/
  | invalid
  /-- `missing_type` absent or empty; `leaf_value` if it is a JSON number -/
  | leafLike (leafValue : Option F64)
  /-- `missing_type` is `m :: ms` -/
  | split (splitFeature : Nat) (threshold : JVal) (decisionType : Str) (defaultLeft : Bool)
      (m : Char) (ms : Str) (left right : JRaw)
deriving DecidableEq

/-- the result of `unmarshalNode`: float64 or *lgNodeJSON -/
inductive JNode where
  | leaf (value : F64)
  | node (splitFeature : Nat) (threshold : JVal) (decisionType : Str) (defaultLeft : Bool)
      (missingType : Str) (left right : JNode)
deriving DecidableEq

/-- lgensemble_io.go 407-437 `unmarshalNode` -/
def unmarshalNode : JRaw → Res JNode
  | .invalid => .err "json"
  | .leafLike none => .err "unknown tree"
  | .leafLike (some v) => .ok (.leaf v)
  | .split f t d dl m ms l r => do
    let l ← unmarshalNode l
    let r ← unmarshalNode r
    return .node f t d dl (m :: ms) l r

/-- lgensemble_io.go 97-101 `stringToMissingType` -/
def stringToMissingType (s : Str) : Option Flags :=
  if s = "None".toList then some 0
  else if s = "Zero".toList then some Flag.missingZero
  else if s = "NaN".toList then some Flag.missingNan
  else none

/-- the tables of the tree under construction that `createNode` changes -/
structure JAux where
  leafValues : List F64
  cats : CatTables
deriving DecidableEq

/-- lgensemble_io.go 486-495 and 547-556: leaf children -/
def jWithLeaves (node : LgNode) (left right : JNode) (aux : JAux) : LgNode × JAux :=
  let (node, aux) := match left with
    | .leaf v => ({ node with flags := node.flags ||| Flag.leftLeaf, left := u32 aux.leafValues.length },
                  { aux with leafValues := aux.leafValues ++ [v] })
    | .node .. => (node, aux)
  match right with
  | .leaf v => ({ node with flags := node.flags ||| Flag.rightLeaf, right := u32 aux.leafValues.length },
                { aux with leafValues := aux.leafValues ++ [v] })
  | .node .. => (node, aux)

/-- lgensemble_io.go 471-497 `createNumericalNode` -/
def jCreateNumericalNode (feature : Nat) (threshold : JVal) (defaultLeft : Bool) (missingType : Str)
    (left right : JNode) (aux : JAux) : Res (LgNode × JAux) := do
  let missingType ← Res.ofOption "unknown missing_type" (stringToMissingType missingType)
  let defaultType := if defaultLeft then Flag.defaultLeft else 0
  match threshold with
  | .num t => return jWithLeaves (numericalNode feature missingType t defaultType) left right aux
  | _ => .err "unexpected Threshold type"

/-- lgensemble_io.go 510-546: the choice among the three encodings of a category set, given the tokens of the
threshold; the category index (or word), the flag and the updated tables -/
def jCatSlot (P : Platform) (tokens : List Str) (t : CatTables) : Res (Nat × Flags × CatTables) :=
  match tokens with
  | [] => .err "no bits set"
  | [tok] => do
    let value ← Res.ofOption "can't convert" (atoi tok)
    return (u32I value, Flag.catOneHot, t)
  | toks => do
    let values ← Params.convertAll atoi toks
    let bitset ← Util.constructBitset P values
    match bitset with
    | [w] => return (w.toNat, Flag.catSmall, t)
    | _ =>
      let catIdx := u32I ((t.boundaries.length : Int) - 1)
      let ths := t.thresholds ++ bitset
      return (catIdx, 0, { thresholds := ths, boundaries := t.boundaries ++ [u32 ths.length] })

/-- lgensemble_io.go 499-558 `createCategoricalNode` -/
def jCreateCategoricalNode (P : Platform) (feature : Nat) (threshold : JVal) (missingType : Str)
    (left right : JNode) (aux : JAux) : Res (LgNode × JAux) := do
  let missingType ← Res.ofOption "unknown missing_type" (stringToMissingType missingType)
  match threshold with
  | .str thresholdString =>
    let (catIdx, catType, cats) ← jCatSlot P (split thresholdString "||".toList) aux.cats
    return jWithLeaves (categoricalNode feature missingType catIdx catType) left right { aux with cats := cats }
  | _ => .err "unexpected Threshold type"

/-- lgensemble_io.go 559-567 `createNode` (only called on *lgNodeJSON) -/
def jCreateNode (P : Platform) (feature : Nat) (threshold : JVal) (decisionType : Str) (defaultLeft : Bool)
    (missingType : Str) (left right : JNode) (aux : JAux) : Res (LgNode × JAux) :=
  if decisionType = "==".toList then jCreateCategoricalNode P feature threshold missingType left right aux
  else if decisionType = "<=".toList then
    jCreateNumericalNode feature threshold defaultLeft missingType left right aux
  else .err "unknown decision type"

/-- A `*uint32` into the backing array of `t.nodes` (lgensemble_io.go 571): the backing array is
identified by the number of reallocations before it was allocated. -/
structure JPtr where
  gen : Nat
  index : Nat
  isLeft : Bool
deriving DecidableEq

/-- Loop state of lgensemble_io.go 583-610: `t.nodes` with its capacity and the number of reallocations so
far, the stack of `StackData` (top first), and the other tables. -/
structure JState where
  nodes : List LgNode
  cap : Nat
  gen : Nat
  stack : List (Option JPtr × JNode)
  aux : JAux

/-- `*stackData.parentPtr = v` (lgensemble_io.go 590-592): a write through a pointer into an abandoned
backing array has no effect on `t.nodes`. -/
def JState.writePtr (s : JState) (p : Option JPtr) (v : Nat) : JState :=
  match p with
  | none => s
  | some p =>
    if p.gen = s.gen then
      { s with nodes := s.nodes.modify p.index fun n => if p.isLeft then { n with left := v } else { n with right := v } }
    else s

/-- `t.nodes = append(t.nodes, node)` (lgensemble_io.go 593) -/
def JState.appendNode (P : Platform) (s : JState) (node : LgNode) : JState :=
  if s.nodes.length < s.cap then { s with nodes := s.nodes ++ [node] }
  else { s with nodes := s.nodes ++ [node], cap := s.nodes.length + 1 + P.growExtra s.nodes.length, gen := s.gen + 1 }

/-- lgensemble_io.go 584-609: one iteration; the stack top `(ptr, nodeJSON)` has been popped. -/
def jStep (P : Platform) (s : JState) (ptr : Option JPtr) (nodeJSON : JNode) : Res JState :=
  match nodeJSON with
  | .leaf _ => .panic   -- never on the stack: only *lgNodeJSON values are pushed
  | .node f t d dl mt left right => do
    let (node, aux) ← jCreateNode P f t d dl mt left right s.aux
    let s := { s with aux := aux }
    let s := s.writePtr ptr (u32 s.nodes.length)
    let s := s.appendNode P node
    let s := match left with
      | .leaf _ => s
      | .node .. => { s with stack := (some ⟨s.gen, s.nodes.length - 1, true⟩, left) :: s.stack }
    let s := match right with
      | .leaf _ => s
      | .node .. => { s with stack := (some ⟨s.gen, s.nodes.length - 1, false⟩, right) :: s.stack }
    return s

/-- lgensemble_io.go 583-610: the loop; `fuel` bounds the iterations (theorem `jLoop_fuel`) -/
def jLoop (P : Platform) : (fuel : Nat) → JState → Res JState
  | 0, _ => .hang
  | fuel + 1, s =>
    match s.stack with
    | [] => .ok s
    | (ptr, n) :: below => do jLoop P fuel (← jStep P { s with stack := below } ptr n)

/-- number of decision nodes -/
def JNode.size : JNode → Nat
  | .leaf _ => 0
  | .node _ _ _ _ _ l r => l.size + r.size + 1

/-- lgensemble_io.go 28-36: a decoded tree object; `none` root when `tree_structure` is absent -/
structure JTree where
  numLeaves : Int
  numCat : Nat
  root : JRaw

/-- lgensemble_io.go 440-612 `unmarshalTree`, after `json.Unmarshal` into lgTreeJSON succeeded. (The
branches for other dynamic types of Root and children are unreachable after `unmarshalNode`.) -/
def unmarshalTree (P : Platform) (t : JTree) : Res LgTree := do
  let boundaries := if t.numCat > 0 then [0] else []
  if t.numLeaves < 1 then .err "num_leaves < 1"
  else
    let numNodes := t.numLeaves - 1
    match ← unmarshalNode t.root with
    | .leaf v => return { leafValues := [v], catBoundaries := boundaries, nCategorical := t.numCat }
    | root =>
      allocCheck P numNodes 16
      allocCheck P numNodes 24
      let s ← jLoop P (root.size + 1)
        { nodes := [], cap := numNodes.toNat, gen := 0, stack := [(none, root)],
          aux := { leafValues := [], cats := { boundaries := boundaries, thresholds := [] } } }
      return { nodes := s.nodes, leafValues := s.aux.leafValues, catBoundaries := s.aux.cats.boundaries,
               catThresholds := s.aux.cats.thresholds, nCategorical := t.numCat }

/-- lgensemble_io.go 16-26: the decoded ensemble object; a tree is `none` when it does not decode into
lgTreeJSON -/
structure JEnsemble where
  name : Str
  version : Str
  numClasses : Int
  numTreesPerIteration : Int
  maxFeatureIdx : Int
  trees : List (Option JTree)

/-- lgensemble_io.go 661-667: converting the trees -/
def jReadTrees (P : Platform) : List (Option JTree) → Res (List LgTree)
  | [] => .ok []
  | none :: _ => .err "json"
  | some t :: ts => do
    let t ← unmarshalTree P t
    let ts ← jReadTrees P ts
    return t :: ts

/-- lgensemble_io.go 615-669 `LGEnsembleFromJSON`; `none` when the document does not decode -/
def lgEnsembleFromJSON (P : Platform) (data : Option JEnsemble) (loadTransformation : Bool) : Res Ensemble :=
  if loadTransformation then .err "transformation functions are not supported"
  else match data with
  | none => .err "json"
  | some data =>
    if data.name ≠ "tree".toList then .err "expected name tree"
    else if data.version ≠ "v2".toList then .err "expected version v2"
    else if data.numClasses ≠ data.numTreesPerIteration then .err "num_class != num_tree_per_iteration"
    else if data.numClasses < 1 then .err "num_class should be > 0"
    else if data.numTreesPerIteration < 1 then .err "num_tree_per_iteration should be > 0"
    else if data.trees.length = 0 then .err "no trees in file"
    else if (data.trees.length : Int).tmod data.numClasses ≠ 0 then .err "wrong number of trees"
    else do
      let trees ← jReadTrees P data.trees
      let e : LgEnsemble := { trees := trees, maxFeatureIdx := data.maxFeatureIdx,
                              nRawOutputGroups := data.numClasses, name := "lightgbm.gbdt" }
      return { base := .lg e, transform := .raw data.numClasses }

end Leaves
