import Verif.Model.MultiClass
import Verif.Model.Text

/-!
# xjson.go and utils/json.go

`encoding/json` is a parameter (`JCodec`) with the laws that the theorems need; `goJSON` in Lemmas/JsonCodec.lean is
an instance. The writer never fails (crashes while writing are covered by cutting the text).
-/

namespace Boo
open GoFloat
variable {F : Type} [GoFloat F]

/-- utils/json.go:12-25 `JSONNode`; `samples = none` is nil. The numbers that are counts, indexes or ids are natural. -/
structure JSONNode (F : Type) where
  id : Nat
  nsamples : Nat
  samples : Option (List Nat)
  splitFeatureIndex : Nat
  bestScoreSoFar : F
  leaf : Bool
  threshold : F
  leftid : Nat
  rightid : Nat
  branches : Nat
  value : F
  xgb : Bool
  deriving DecidableEq

/-- xjson.go:131-136 `JSONMetaData` -/
structure JSONMetaData (F : Type) where
  learningRate : F
  classLabels : List Int
  probTransformName : List Char
  baseScore : F
  deriving DecidableEq

/-- a finite number: neither NaN nor infinite -/
def isFin (x : F) : Bool := (x ==. x) && !(x ==. posInf) && !((zero -. x) ==. posInf)

/-- `json.Marshal` and `json.Unmarshal` on the two types. `none` is an error. The laws: numbers must be finite; what is
written is read back, also with a newline at the end (white space); one line; no capitalised ROUND or CLASS in a node
(only field names, numbers and the literals null, true, false occur). -/
structure JCodec (F : Type) [GoFloat F] where
  encNode : JSONNode F → Option (List Char)
  decNode : List Char → Option (JSONNode F)
  encMeta : JSONMetaData F → Option (List Char)
  decMeta : List Char → Option (JSONMetaData F)
  encNode_isSome : ∀ n, (encNode n).isSome =
    (isFin n.bestScoreSoFar && isFin n.threshold && isFin n.value)
  decNode_encNode : ∀ n s, encNode n = some s → decNode (s ++ ['\n']) = some n
  encNode_line : ∀ n s, encNode n = some s → '\n' ∉ s
  encNode_words : ∀ n s, encNode n = some s →
    strContains (s ++ ['\n']) "ROUND".toList = false ∧ strContains (s ++ ['\n']) "CLASS".toList = false
  encMeta_isSome : ∀ m, (encMeta m).isSome = (isFin m.learningRate && isFin m.baseScore)
  decMeta_encMeta : ∀ m s, encMeta m = some s → decMeta (s ++ ['\n']) = some m
  encMeta_line : ∀ m s, encMeta m = some s → '\n' ∉ s

/-- xjson.go:156, the number written instead of the infinite score of a regular leaf -/
def leafScore : F := ofRat (1189998819991197253 / 10000000000000000000)

/-- xjson.go:153-175 `JNode(id)`, without samples as in its only caller -/
def NodeInfo.jnode (t : NodeInfo F) (id : Nat) : JSONNode F :=
  { id := id, nsamples := t.nsamples, samples := none, leaf := t.leaf, threshold := t.threshold, xgb := t.xgb,
    branches := t.branches, bestScoreSoFar := if t.leaf && !t.xgb then leafScore else t.bestScoreSoFar,
    splitFeatureIndex := t.splitFeatureIndex, value := t.value, leftid := 0, rightid := 0 }

/-- xjson.go:198-213 `creator`; the fields it does not set are zero -/
def JSONNode.create (j : JSONNode F) : NodeInfo F :=
  { bestScoreSoFar := if j.leaf && !j.xgb then posInf else j.bestScoreSoFar, value := j.value,
    samples := j.samples.getD [], nsamples := j.nsamples, splitFeatureIndex := j.splitFeatureIndex,
    threshold := j.threshold, branches := j.branches, xgb := j.xgb, features := 0 }

/-- utils/json.go:98-133 `JSONTree` for a child, which may be nil: `(lines, id, last id given)`, given the last id
given. For nil it is not called: no lines and id 0 (lines 108-118). `none` is an error. -/
def jsonSub (J : JCodec F) : Tree F → Nat → Option (List (List Char) × Nat × Nat)
  | .nil, last => some ([], 0, last)
  | .node i l r, last => do
    let id := last + 1
    let (ll, leftid, last) ← jsonSub J l id
    let (rl, rightid, last) ← jsonSub J r last
    let s ← J.encNode { i.jnode id with leftid := leftid, rightid := rightid }
    pure (s :: ll ++ rl, id, last)

/-- utils/json.go:98-133 `JSONTree`: the lines and the id of the root. A nil tree panics in `JNode`. -/
def jsonTree (J : JCodec F) : Tree F → Go (Option (List (List Char) × Nat))
  | .nil => .error .nilDeref
  | t => .ok ((jsonSub J t 0).map fun p => (p.1, p.2.1))

/-- utils/json.go:69-79 and 80-92: a child is read when its id is not 0; `rd` is `UnJSONTree` -/
def readChild (rd : List Char → List (List Char) → Option (Tree F × List (List Char))) (id : Nat)
    (ls : List (List Char)) : Option (Tree F × List (List Char)) :=
  if id > 0 then
    match ls with
    | [] => none
    | s :: ls => rd s ls
  else some (.nil, ls)

/-- utils/json.go:62-94 `UnJSONTree`: the tree and the lines left in the reader; `none` is an error. `fuel` bounds the
recursion depth (`unJSONTree_fuel`: any fuel above the number of lines gives the same result). -/
def unJSONTreeF (J : JCodec F) : Nat → List Char → List (List Char) → Option (Tree F × List (List Char))
  | 0, _, _ => none
  | fuel + 1, str, ls => do
    let j ← J.decNode str
    let (left, ls) ← readChild (unJSONTreeF J fuel) j.leftid ls
    let (right, ls) ← readChild (unJSONTreeF J fuel) j.rightid ls
    pure (.node j.create left right, ls)

/-- utils/json.go:62-94 `UnJSONTree(str, r, creator)` -/
def unJSONTree (J : JCodec F) (str : List Char) (r : List (List Char)) : Option (Tree F × List (List Char)) :=
  unJSONTreeF J (r.length + 1) str r

/-- xjson.go:138-151 `MarshalMCMetaData` -/
def marshalMCMetaData (J : JCodec F) (m : MultiClass F) (name : List Char) : Option (List Char) :=
  (J.encMeta ⟨m.learningRate, m.classLabels, name, m.baseScore⟩).map (· ++ ['\n'])

/-- `bytes.Join(tree, "\n") + "\n"`, xjson.go:122 -/
def joinLines (ls : List (List Char)) : List Char :=
  ['\n'].intercalate ls ++ ['\n']

/-- xjson.go:113-126: the text for the classes of a round, `cn` is the next class. `none` is an error. -/
def jsonClasses (J : JCodec F) (labels : List Int) : List (Tree F) → Nat → Go (Option (List Char))
  | [], _ => .ok (some [])
  | t :: ts, cn => do
    let lab ← goIdx labels cn
    let head := "CLASS ".toList ++ fmtNat cn ++ ", label: ".toList ++ fmtInt lab ++ " \n".toList
    match ← jsonTree J t with
    | none => pure none
    | some (lines, _) => do
      match ← jsonClasses J labels ts (cn + 1) with
      | none => pure none
      | some rest => pure (some (head ++ joinLines lines ++ rest))

/-- xjson.go:108-127, `rn` is the next round -/
def jsonRounds (J : JCodec F) (labels : List Int) : List (List (Tree F)) → Nat → Go (Option (List Char))
  | [], _ => .ok (some [])
  | round :: rounds, rn => do
    match ← jsonClasses J labels round 0 with
    | none => pure none
    | some c => do
      match ← jsonRounds J labels rounds (rn + 1) with
      | none => pure none
      | some rest => pure (some ("ROUND ".toList ++ fmtNat rn ++ "\n".toList ++ c ++ rest))

/-- xjson.go:99-129 `JSONMultiClass`: the text written, `none` for an error (what was written before it is omitted) -/
def jsonMultiClass (J : JCodec F) (m : MultiClass F) (name : List Char) : Go (Option (List Char)) :=
  match marshalMCMetaData J m name with
  | none => .ok none
  | some j => do
    match ← jsonRounds J m.classLabels m.b 0 with
    | none => pure none
    | some rest => pure (some (j ++ rest))

/-- xjson.go:62-87, the loop, at most `fuel` iterations; `cls = none` is nil. When the lines are used up `ReadString`
returns `io.EOF` and the loop ends; the current round is not appended. Every iteration consumes a line
(`unJSONLoop_fuel`). -/
def unJSONLoop (J : JCodec F) : Nat → List (List Char) → List (List (Tree F)) → Option (List (Tree F)) →
    Option (List (List (Tree F)))
  | _, [], trees, _ => some trees
  | 0, _ :: _, _, _ => none
  | fuel + 1, s :: ls, trees, cls =>
    if strContains s "ROUND".toList then
      let trees := match cls with
        | some c => trees ++ [c]
        | none => trees
      unJSONLoop J fuel ls trees (some [])
    else if strContains s "CLASS".toList then unJSONLoop J fuel ls trees cls
    else do
      let (t, ls) ← unJSONTree J s ls
      unJSONLoop J fuel ls trees (some (cls.getD [] ++ [t]))

/-- xjson.go:33-35 `ProbTransformMap`; a missing name gives a nil function -/
def probTransformMap (exp : F → F) (name : List Char) : Option (Dense F → Option (Dense F) → Go (Dense F)) :=
  if name = "softmax".toList then some (softMaxDense exp) else none

/-- xjson.go:37-94 `UnJSONMultiClass` on a file with the given content; `none` is an error. -/
def unJSONMultiClass (J : JCodec F) (exp : F → F) (text : List Char) : Option (MultiClass F) :=
  match linesOf text with
  | [] => none
  | s :: ls => do
    let j ← J.decMeta s
    let trees ← unJSONLoop J ls.length ls [] none
    pure { learningRate := j.learningRate, classLabels := j.classLabels,
           probTransform := probTransformMap exp j.probTransformName, baseScore := j.baseScore, b := trees,
           xgb := false }

end Boo
