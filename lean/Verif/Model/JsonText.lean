import Verif.Model.Json

/-!
# The parts of `encoding/json` that boo uses: `Marshal` and `Unmarshal` of `JSONNode` and `JSONMetaData`

This is a model of Go's standard library, not of boo: it is what `JCodec` stands for. Strings are valid Unicode. The text of
a float64 is a parameter (`JNum`).
-/

namespace Boo
open GoFloat
variable {F : Type} [GoFloat F]

/-- a JSON value; numbers are kept as text (encoding/json decodes them when the type of the field is known) -/
inductive JVal where
  | null
  | bool (b : Bool)
  | num (lit : List Char)
  | str (s : List Char)
  | arr (l : List JVal)
  | obj (m : List (List Char × JVal))

/-- white space (encoding/json, `isSpace`) -/
def isWs (c : Char) : Bool := c == ' ' || c == '\t' || c == '\n' || c == '\r'

def skipWs (s : List Char) : List Char := s.dropWhile isWs

/-- the digits at the start, at least one -/
def scanDigits (s : List Char) : Option (List Char × List Char) :=
  if (s.takeWhile Char.isDigit).isEmpty then none else some (s.takeWhile Char.isDigit, s.dropWhile Char.isDigit)

/-- a sign of an exponent, if there is one -/
def scanSign : List Char → List Char × List Char
  | '+' :: r => (['+'], r)
  | '-' :: r => (['-'], r)
  | r => ([], r)

/-- encoding/json, the states `stateE`, `stateESign`, `stateE0`: the exponent, if there is one -/
def scanExp : List Char → Option (List Char × List Char)
  | c :: r =>
    if c = 'e' ∨ c = 'E' then
      (scanDigits (scanSign r).2).map fun p => (c :: (scanSign r).1 ++ p.1, p.2)
    else some ([], c :: r)
  | [] => some ([], [])

/-- encoding/json, the states `stateDot`, `stateDot0`: the fraction, if there is one -/
def scanFrac : List Char → Option (List Char × List Char)
  | '.' :: r => (scanDigits r).map fun p => ('.' :: p.1, p.2)
  | r => some ([], r)

/-- encoding/json, the states `state0` and `state1`: a zero, or digits that do not start with 0 -/
def scanInt : List Char → Option (List Char × List Char)
  | '0' :: r => some (['0'], r)
  | r => scanDigits r

/-- encoding/json, a number: its text and what follows -/
def scanNum (s : List Char) : Option (List Char × List Char) :=
  let sg : List Char × List Char := match s with
    | '-' :: r => (['-'], r)
    | r => ([], r)
  (scanInt sg.2).bind fun i => (scanFrac i.2).bind fun f => (scanExp f.2).map fun e => (sg.1 ++ i.1 ++ f.1 ++ e.1, e.2)

/-- the value of a hexadecimal digit -/
def hexVal (c : Char) : Option Nat :=
  if '0' ≤ c ∧ c ≤ '9' then some (c.toNat - 48)
  else if 'a' ≤ c ∧ c ≤ 'f' then some (c.toNat - 87)
  else if 'A' ≤ c ∧ c ≤ 'F' then some (c.toNat - 55)
  else none

/-- four hexadecimal digits (encoding/json, `getu4`) -/
def hex4 (a b c d : Char) : Option Nat :=
  match hexVal a, hexVal b, hexVal c, hexVal d with
  | some a, some b, some c, some d => some (((a * 16 + b) * 16 + c) * 16 + d)
  | _, _, _, _ => none

/-- the escapes of one letter -/
def simpleEsc (c : Char) : Option Char :=
  if c = '"' then some '"' else if c = '\\' then some '\\' else if c = '/' then some '/'
  else if c = 'b' then some (Char.ofNat 8) else if c = 'f' then some (Char.ofNat 12)
  else if c = 'n' then some '\n' else if c = 'r' then some '\r' else if c = 't' then some '\t' else none

/-- a part of a string: a character or a UTF-16 unit given as `\uXXXX` -/
inductive StrTok where
  | ch (c : Char)
  | unit (n : Nat)

/-- encoding/json, the states `stateInString...`: a string after its opening quote, and what follows the closing one -/
def scanStr : List Char → Option (List StrTok × List Char)
  | [] => none
  | c :: r =>
    if c = '"' then some ([], r)
    else if c = '\\' then
      match r with
      | [] => none
      | e :: r =>
        if e = 'u' then
          match r with
          | h1 :: h2 :: h3 :: h4 :: r => (hex4 h1 h2 h3 h4).bind fun n => (scanStr r).map fun p => (.unit n :: p.1, p.2)
          | _ => none
        else (simpleEsc e).bind fun c => (scanStr r).map fun p => (.ch c :: p.1, p.2)
    else if c.toNat < 32 then none
    else (scanStr r).map fun p => (.ch c :: p.1, p.2)

/-- encoding/json, `unquote`: pairs of surrogates are joined, single ones become U+FFFD -/
def decodeToks : List StrTok → List Char
  | [] => []
  | .ch c :: r => c :: decodeToks r
  | .unit n :: r =>
    if 0xD800 ≤ n ∧ n < 0xE000 then
      match r with
      | .unit m :: r' =>
        if n < 0xDC00 ∧ 0xDC00 ≤ m ∧ m < 0xE000 then
          Char.ofNat (0x10000 + (n - 0xD800) * 0x400 + (m - 0xDC00)) :: decodeToks r'
        else Char.ofNat 0xFFFD :: decodeToks (.unit m :: r')
      | r => Char.ofNat 0xFFFD :: decodeToks r
    else Char.ofNat n :: decodeToks r

/-- the literals -/
def scanLit (s : List Char) : Option (JVal × List Char) :=
  if "null".toList.isPrefixOf s then some (.null, s.drop 4)
  else if "true".toList.isPrefixOf s then some (.bool true, s.drop 4)
  else if "false".toList.isPrefixOf s then some (.bool false, s.drop 5)
  else (scanNum s).map fun p => (.num p.1, p.2)

mutual

/-- encoding/json, the scanner and `literalStore` for values of any kind: a value and what follows it. The first number
bounds the recursion (`2 * len + 2` is enough, `jsonParse_iff`), the second is the nesting allowed. -/
def parseVal : Nat → Nat → List Char → Option (JVal × List Char)
  | 0, _, _ => none
  | n + 1, d, s =>
    match skipWs s with
    | [] => none
    | c :: r =>
      if c = '"' then (scanStr r).map fun p => (.str (decodeToks p.1), p.2)
      else if c = '[' then
        if d = 0 then none
        else if (skipWs r).head? = some ']' then some (.arr [], (skipWs r).tail)
        else (parseElems n (d - 1) r).map fun p => (.arr p.1, p.2)
      else if c = '{' then
        if d = 0 then none
        else if (skipWs r).head? = some '}' then some (.obj [], (skipWs r).tail)
        else (parseMembers n (d - 1) r).map fun p => (.obj p.1, p.2)
      else scanLit (c :: r)

/-- the elements of an array that is not empty, to the closing bracket -/
def parseElems : Nat → Nat → List Char → Option (List JVal × List Char)
  | 0, _, _ => none
  | n + 1, d, s =>
    (parseVal n d s).bind fun p =>
      match skipWs p.2 with
      | [] => none
      | c :: r =>
        if c = ',' then (parseElems n d r).map fun q => (p.1 :: q.1, q.2)
        else if c = ']' then some ([p.1], r)
        else none

/-- the members of an object that is not empty, to the closing brace -/
def parseMembers : Nat → Nat → List Char → Option (List (List Char × JVal) × List Char)
  | 0, _, _ => none
  | n + 1, d, s =>
    match skipWs s with
    | [] => none
    | c :: r =>
      if c = '"' then
        (scanStr r).bind fun k =>
          match skipWs k.2 with
          | [] => none
          | c :: r =>
            if c = ':' then
              (parseVal n d r).bind fun p =>
                match skipWs p.2 with
                | [] => none
                | c :: r =>
                  if c = ',' then (parseMembers n d r).map fun q => ((decodeToks k.1, p.1) :: q.1, q.2)
                  else if c = '}' then some ([(decodeToks k.1, p.1)], r)
                  else none
            else none
      else none

end

/-- encoding/json: a text that is one value (nested at most 10000 times) with white space around it -/
def jsonParse (s : List Char) : Option JVal :=
  (parseVal (2 * s.length + 2) 10000 s).bind fun p => if skipWs p.2 = [] then some p.1 else none

/-- encoding/json, `foldName`, for what can be equal to a letter of ASCII -/
def foldC (c : Char) : Char :=
  if c = 'ſ' then 'S' else if c = Char.ofNat 0x212A then 'K' else c.toUpper

/-- a key names a field if they differ only in the case of letters -/
def isField (name : String) (key : List Char) : Bool := key.map foldC == name.toList.map foldC

/-- The text of float64 values in JSON: `strconv.AppendFloat(x, 'f' or 'e', -1, 64)`, the shortest decimal number that is
read as `x`, and `strconv.ParseFloat`. -/
structure JNum (F : Type) [GoFloat F] where
  fmt : F → List Char
  parse : List Char → Option F
  fmt_num : ∀ x, isFin x = true → scanNum (fmt x) = some (fmt x, [])
  parse_fmt : ∀ x, isFin x = true → parse (fmt x) = some x

/-- a number for a field of type `int` or `uint` that is not negative. Simplifications: Go rejects numbers that do not
fit the type; negative numbers, which Go accepts for the fields of type `int`, are errors here. -/
def natLit (s : List Char) : Option Nat := if s.all Char.isDigit then some (Nat.ofDigitChars 10 s 0) else none

/-- a number for an element of type `int` (numbers that do not fit an int64 are accepted here) -/
def intLit : List Char → Option Int
  | '-' :: s => (natLit s).map fun n : Nat => -(n : Int)
  | s => (natLit s).map fun n : Nat => (n : Int)

/-- encoding/json, `literalStore`: null leaves a field as it is, a value of another kind is an error -/
def setNat (v : JVal) (old : Nat) : Option Nat :=
  match v with
  | .null => some old
  | .num s => natLit s
  | _ => none

def setBool (v : JVal) (old : Bool) : Option Bool :=
  match v with
  | .null => some old
  | .bool b => some b
  | _ => none

def setFloat (N : JNum F) (v : JVal) (old : F) : Option F :=
  match v with
  | .null => some old
  | .num s => N.parse s
  | _ => none

def setStr (v : JVal) (old : List Char) : Option (List Char) :=
  match v with
  | .null => some old
  | .str s => some s
  | _ => none

/-- an element of an array of ints; null is 0 in a new array -/
def elemInt : JVal → Option Int
  | .null => some 0
  | .num s => intLit s
  | _ => none

/-- encoding/json, `array`: null makes the slice nil. Simplification: a key that is there twice does not reuse the elements. -/
def setNats (v : JVal) : Option (Option (List Nat)) :=
  match v with
  | .null => some none
  | .arr l => (l.mapM fun v => setNat v 0).map some
  | _ => none

def setInts (v : JVal) : Option (List Int) :=
  match v with
  | .null => some []
  | .arr l => l.mapM elemInt
  | _ => none

/-- encoding/json, `object`, for utils/json.go:12-25 `JSONNode`: keys that are no fields are ignored. (The decoder goes on
after a value of a wrong kind and returns the error in the end.) -/
def JSONNode.set (N : JNum F) (n : JSONNode F) (m : List Char × JVal) : Option (JSONNode F) :=
  if isField "Id" m.1 then (setNat m.2 n.id).map fun x => { n with id := x }
  else if isField "Nsamples" m.1 then (setNat m.2 n.nsamples).map fun x => { n with nsamples := x }
  else if isField "Samples" m.1 then (setNats m.2).map fun x => { n with samples := x }
  else if isField "SplitFeatureIndex" m.1 then (setNat m.2 n.splitFeatureIndex).map fun x => { n with splitFeatureIndex := x }
  else if isField "BestScoreSoFar" m.1 then (setFloat N m.2 n.bestScoreSoFar).map fun x => { n with bestScoreSoFar := x }
  else if isField "Leaf" m.1 then (setBool m.2 n.leaf).map fun x => { n with leaf := x }
  else if isField "Threshold" m.1 then (setFloat N m.2 n.threshold).map fun x => { n with threshold := x }
  else if isField "Leftid" m.1 then (setNat m.2 n.leftid).map fun x => { n with leftid := x }
  else if isField "Rightid" m.1 then (setNat m.2 n.rightid).map fun x => { n with rightid := x }
  else if isField "Branches" m.1 then (setNat m.2 n.branches).map fun x => { n with branches := x }
  else if isField "Value" m.1 then (setFloat N m.2 n.value).map fun x => { n with value := x }
  else if isField "XGB" m.1 then (setBool m.2 n.xgb).map fun x => { n with xgb := x }
  else some n

/-- the same for xjson.go:131-136 `JSONMetaData` -/
def JSONMetaData.set (N : JNum F) (j : JSONMetaData F) (m : List Char × JVal) : Option (JSONMetaData F) :=
  if isField "LearningRate" m.1 then (setFloat N m.2 j.learningRate).map fun x => { j with learningRate := x }
  else if isField "ClassLabels" m.1 then (setInts m.2).map fun x => { j with classLabels := x }
  else if isField "ProbTransformName" m.1 then (setStr m.2 j.probTransformName).map fun x => { j with probTransformName := x }
  else if isField "BaseScore" m.1 then (setFloat N m.2 j.baseScore).map fun x => { j with baseScore := x }
  else some j

/-- `new(JSONNode)`, utils/json.go:63 -/
def JSONNode.zero : JSONNode F :=
  { id := 0, nsamples := 0, samples := none, splitFeatureIndex := 0, bestScoreSoFar := GoFloat.zero, leaf := false,
    threshold := GoFloat.zero, leftid := 0, rightid := 0, branches := 0, value := GoFloat.zero, xgb := false }

/-- `&JSONMetaData{}`, xjson.go:39 -/
def JSONMetaData.zero : JSONMetaData F :=
  { learningRate := GoFloat.zero, classLabels := [], probTransformName := [], baseScore := GoFloat.zero }

/-- `json.Unmarshal` into a struct: null leaves it as it is -/
def decStruct {α : Type} (set : α → List Char × JVal → Option α) (z : α) (s : List Char) : Option α :=
  (jsonParse s).bind fun v =>
    match v with
    | .null => some z
    | .obj ms => ms.foldlM set z
    | _ => none

/-- a hexadecimal digit -/
def hexDigit (n : Nat) : Char := if n < 10 then Char.ofNat (48 + n) else Char.ofNat (87 + n)

/-- encoding/json, `appendString` with escapeHTML, for one character (as in Go 1.22 and later) -/
def encChar (c : Char) : List Char :=
  if c = '"' then ['\\', '"'] else if c = '\\' then ['\\', '\\']
  else if c = Char.ofNat 8 then ['\\', 'b'] else if c = Char.ofNat 12 then ['\\', 'f']
  else if c = '\n' then ['\\', 'n'] else if c = '\r' then ['\\', 'r'] else if c = '\t' then ['\\', 't']
  else if c.toNat < 32 ∨ c = '<' ∨ c = '>' ∨ c = '&' ∨ c.toNat = 0x2028 ∨ c.toNat = 0x2029 then
    ['\\', 'u', hexDigit (c.toNat / 4096), hexDigit (c.toNat / 256 % 16), hexDigit (c.toNat / 16 % 16), hexDigit (c.toNat % 16)]
  else [c]

def encStr (s : List Char) : List Char := '"' :: s.flatMap encChar ++ ['"']

/-- texts with commas between them -/
def commas : List (List Char) → List Char
  | [] => []
  | [t] => t
  | t :: ts => t ++ ',' :: commas ts

/-- encoding/json, `structEncoder`: an object with the given texts as values (the names of fields need no escapes) -/
def encObj (ms : List (String × List Char)) : List Char :=
  '{' :: commas (ms.map fun m => '"' :: m.1.toList ++ '"' :: ':' :: m.2) ++ ['}']

def encBool (b : Bool) : List Char := if b then "true".toList else "false".toList

/-- encoding/json, `sliceEncoder` -/
def encList (l : List (List Char)) : List Char := '[' :: commas l ++ [']']

/-- `json.Marshal` of a node, if its numbers are finite: all fields in the order of the type -/
def nodeText (N : JNum F) (n : JSONNode F) : List Char :=
  encObj [("Id", fmtNat n.id), ("Nsamples", fmtNat n.nsamples),
    ("Samples", match n.samples with
      | none => "null".toList
      | some l => encList (l.map fmtNat)),
    ("SplitFeatureIndex", fmtNat n.splitFeatureIndex), ("BestScoreSoFar", N.fmt n.bestScoreSoFar), ("Leaf", encBool n.leaf),
    ("Threshold", N.fmt n.threshold), ("Leftid", fmtNat n.leftid), ("Rightid", fmtNat n.rightid),
    ("Branches", fmtNat n.branches), ("Value", N.fmt n.value), ("XGB", encBool n.xgb)]

/-- `json.Marshal` of the metadata, if its numbers are finite. (A nil slice of labels is written as null; it is the empty list
here, which is written as `[]`.) -/
def metaText (N : JNum F) (j : JSONMetaData F) : List Char :=
  encObj [("LearningRate", N.fmt j.learningRate), ("ClassLabels", encList (j.classLabels.map fmtInt)),
    ("ProbTransformName", encStr j.probTransformName), ("BaseScore", N.fmt j.baseScore)]

end Boo
