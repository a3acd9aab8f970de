import Verif.Model.JsonText
import Verif.Spec.Text

/-!
# JSON texts (RFC 8259), independently of how they are read
-/

namespace Boo.Spec

/-- white space -/
def Ws (s : List Char) : Prop := ∀ c ∈ s, c = ' ' ∨ c = '\t' ∨ c = '\n' ∨ c = '\r'

/-- one or more digits -/
def JDigits (s : List Char) : Prop := s ≠ [] ∧ ∀ c ∈ s, c.isDigit = true

/-- a fraction or nothing -/
def JFracText (s : List Char) : Prop := s = [] ∨ ∃ ds, JDigits ds ∧ s = '.' :: ds

/-- an exponent or nothing -/
def JExpText (s : List Char) : Prop :=
  s = [] ∨ ∃ e sg ds, (e = 'e' ∨ e = 'E') ∧ (sg = [] ∨ sg = ['+'] ∨ sg = ['-']) ∧ JDigits ds ∧ s = e :: sg ++ ds

/-- the digits before the point: no zeros in front -/
def JIntText (s : List Char) : Prop := s = ['0'] ∨ JDigits s ∧ s.head? ≠ some '0'

/-- a number -/
def JNumText (s : List Char) : Prop :=
  ∃ sg i f e, (sg = [] ∨ sg = ['-']) ∧ JIntText i ∧ JFracText f ∧ JExpText e ∧ s = sg ++ i ++ f ++ e

/-- the escapes of one letter -/
inductive Esc : Char → Char → Prop
  | quote : Esc '"' '"'
  | backslash : Esc '\\' '\\'
  | slash : Esc '/' '/'
  | b : Esc 'b' (Char.ofNat 8)
  | f : Esc 'f' (Char.ofNat 12)
  | n : Esc 'n' '\n'
  | r : Esc 'r' '\r'
  | t : Esc 't' '\t'

/-- a hexadecimal digit: its place in one of the two lists -/
def Hex (c : Char) (n : Nat) : Prop := "0123456789abcdef".toList[n]? = some c ∨ "0123456789ABCDEF".toList[n]? = some c

/-- the inside of a string, as characters and UTF-16 units -/
inductive StrText : List StrTok → List Char → Prop
  | nil : StrText [] []
  | plain {c ts s} : c ≠ '"' → c ≠ '\\' → 32 ≤ c.toNat → StrText ts s → StrText (.ch c :: ts) (c :: s)
  | esc {e c ts s} : Esc e c → StrText ts s → StrText (.ch c :: ts) ('\\' :: e :: s)
  | uni {a b c d x y z w ts s} : Hex a x → Hex b y → Hex c z → Hex d w → StrText ts s →
      StrText (.unit (x * 4096 + y * 256 + z * 16 + w) :: ts) ('\\' :: 'u' :: a :: b :: c :: d :: s)

/-- a high surrogate -/
def High (n : Nat) : Prop := 0xD800 ≤ n ∧ n < 0xDC00

/-- a low surrogate -/
def Low (n : Nat) : Prop := 0xDC00 ≤ n ∧ n < 0xE000

/-- the characters of a string: a high and a low surrogate are one character, other surrogates are replaced by U+FFFD -/
inductive TokChars : List StrTok → List Char → Prop
  | nil : TokChars [] []
  | ch {c ts s} : TokChars ts s → TokChars (.ch c :: ts) (c :: s)
  | unit {n ts s} : ¬ High n → ¬ Low n → TokChars ts s → TokChars (.unit n :: ts) (Char.ofNat n :: s)
  | pair {n m ts s} : High n → Low m → TokChars ts s →
      TokChars (.unit n :: .unit m :: ts) (Char.ofNat (0x10000 + (n - 0xD800) * 0x400 + (m - 0xDC00)) :: s)
  | single {n ts s} : High n ∨ Low n → (∀ m ts', ts = .unit m :: ts' → ¬ (High n ∧ Low m)) → TokChars ts s →
      TokChars (.unit n :: ts) (Char.ofNat 0xFFFD :: s)

mutual

/-- the texts of a value nested at most `d` times, without white space around it -/
inductive JText : Nat → JVal → List Char → Prop
  | null {d} : JText d .null ['n', 'u', 'l', 'l']
  | tru {d} : JText d (.bool true) ['t', 'r', 'u', 'e']
  | fals {d} : JText d (.bool false) ['f', 'a', 'l', 's', 'e']
  | num {d s} : JNumText s → JText d (.num s) s
  | str {d ts cs s} : StrText ts s → TokChars ts cs → JText d (.str cs) ('"' :: s ++ ['"'])
  | arr0 {d w} : Ws w → JText (d + 1) (.arr []) ('[' :: w ++ [']'])
  | arr {d l s} : ElemsText d l s → JText (d + 1) (.arr l) ('[' :: s ++ [']'])
  | obj0 {d w} : Ws w → JText (d + 1) (.obj []) ('{' :: w ++ ['}'])
  | obj {d m s} : MembersText d m s → JText (d + 1) (.obj m) ('{' :: s ++ ['}'])

/-- values with commas between them -/
inductive ElemsText : Nat → List JVal → List Char → Prop
  | one {d w v s w'} : Ws w → JText d v s → Ws w' → ElemsText d [v] (w ++ s ++ w')
  | cons {d w v s w' l t} : Ws w → JText d v s → Ws w' → ElemsText d l t → ElemsText d (v :: l) (w ++ s ++ w' ++ ',' :: t)

/-- names and values with commas between them -/
inductive MembersText : Nat → List (List Char × JVal) → List Char → Prop
  | one {d w ts k ks w1 w2 v s w3} : Ws w → StrText ts ks → TokChars ts k → Ws w1 → Ws w2 → JText d v s → Ws w3 →
      MembersText d [(k, v)] (w ++ '"' :: ks ++ '"' :: w1 ++ ':' :: w2 ++ s ++ w3)
  | cons {d w ts k ks w1 w2 v s w3 l t} : Ws w → StrText ts ks → TokChars ts k → Ws w1 → Ws w2 → JText d v s → Ws w3 →
      MembersText d l t →
      MembersText d ((k, v) :: l) (w ++ '"' :: ks ++ '"' :: w1 ++ ':' :: w2 ++ s ++ w3 ++ ',' :: t)

end

/-- a JSON text of a value; nesting is limited to 10000 as in Go -/
def JsonText (v : JVal) (s : List Char) : Prop :=
  ∃ w t w', Ws w ∧ JText 10000 v t ∧ Ws w' ∧ s = w ++ t ++ w'

/-! ### The fields of a Go struct in a JSON object -/

/-- equal letters, apart from the case. U+017F and U+212A are lower-case and upper-case forms of the letters s and k. -/
def SameLetter (a b : Char) : Prop :=
  a = b ∨ (97 ≤ a.toNat ∧ a.toNat ≤ 122 ∧ b.toNat + 32 = a.toNat) ∨ (97 ≤ b.toNat ∧ b.toNat ≤ 122 ∧ a.toNat + 32 = b.toNat) ∨
    ((a = 's' ∨ a = 'S') ∧ b.toNat = 0x17F) ∨ ((a = 'k' ∨ a = 'K') ∧ b.toNat = 0x212A)

/-- the key of a member names a field -/
def Named (name : String) (key : List Char) : Prop := List.Forall₂ SameLetter name.toList key

/-- `FieldOf name R z ms x`: the field `name` gets the value `x` from the members `ms`; `R` says which JSON values it can be
given, `z` is its value before. Members that are null are skipped; of the other ones with this name the last one counts, and
all must be of the right kind. -/
def FieldOf {α : Type} (name : String) (R : JVal → α → Prop) (z : α) (ms : List (List Char × JVal)) (x : α) : Prop :=
  (∀ m ∈ ms, Named name m.1 → m.2 ≠ .null → ∃ y, R m.2 y) ∧
    ((x = z ∧ ∀ m ∈ ms, Named name m.1 → m.2 = .null) ∨
      ∃ a m b, ms = a ++ m :: b ∧ Named name m.1 ∧ m.2 ≠ .null ∧ R m.2 x ∧ ∀ m' ∈ b, Named name m'.1 → m'.2 = .null)

/-- the same for a field that is a slice, where null is a value: nil -/
def SliceOf {α : Type} (name : String) (R : JVal → α → Prop) (z : α) (ms : List (List Char × JVal)) (x : α) : Prop :=
  (∀ m ∈ ms, Named name m.1 → ∃ y, R m.2 y) ∧
    ((x = z ∧ ∀ m ∈ ms, ¬ Named name m.1) ∨
      ∃ a m b, ms = a ++ m :: b ∧ Named name m.1 ∧ R m.2 x ∧ ∀ m' ∈ b, ¬ Named name m'.1)

/-- a count: decimal digits -/
def NatVal (v : JVal) (n : Nat) : Prop := ∃ ds, v = .num ds ∧ (∀ c ∈ ds, Digit c) ∧ n = decimal ds

/-- an int: a minus sign or none, and decimal digits -/
def IntVal (v : JVal) (n : Int) : Prop :=
  ∃ ds, (∀ c ∈ ds, Digit c) ∧ ((v = .num ds ∧ n = decimal ds) ∨ (v = .num ('-' :: ds) ∧ n = -(decimal ds : Int)))

def BoolVal (v : JVal) (b : Bool) : Prop := v = .bool b

def StrVal (v : JVal) (s : List Char) : Prop := v = .str s

/-- a number that `strconv.ParseFloat` accepts -/
def FloatVal {F : Type} [GoFloat F] (N : JNum F) (v : JVal) (x : F) : Prop := ∃ s, v = .num s ∧ N.parse s = some x

/-- counts; an element that is null is 0. `none` is nil. -/
def NatsVal (v : JVal) (x : Option (List Nat)) : Prop :=
  (v = .null ∧ x = none) ∨ ∃ l ns, v = .arr l ∧ x = some ns ∧ List.Forall₂ (fun v n => (v = .null ∧ n = 0) ∨ NatVal v n) l ns

/-- ints; an element that is null is 0 -/
def IntsVal (v : JVal) (x : List Int) : Prop :=
  (v = .null ∧ x = []) ∨ ∃ l, v = .arr l ∧ List.Forall₂ (fun v n => (v = .null ∧ n = 0) ∨ IntVal v n) l x

/-- a node with these members -/
def NodeOf {F : Type} [GoFloat F] (N : JNum F) (ms : List (List Char × JVal)) (n : JSONNode F) : Prop :=
  FieldOf "Id" NatVal 0 ms n.id ∧ FieldOf "Nsamples" NatVal 0 ms n.nsamples ∧ SliceOf "Samples" NatsVal none ms n.samples ∧
  FieldOf "SplitFeatureIndex" NatVal 0 ms n.splitFeatureIndex ∧
  FieldOf "BestScoreSoFar" (FloatVal N) GoFloat.zero ms n.bestScoreSoFar ∧ FieldOf "Leaf" BoolVal false ms n.leaf ∧
  FieldOf "Threshold" (FloatVal N) GoFloat.zero ms n.threshold ∧ FieldOf "Leftid" NatVal 0 ms n.leftid ∧
  FieldOf "Rightid" NatVal 0 ms n.rightid ∧ FieldOf "Branches" NatVal 0 ms n.branches ∧
  FieldOf "Value" (FloatVal N) GoFloat.zero ms n.value ∧ FieldOf "XGB" BoolVal false ms n.xgb

/-- metadata with these members -/
def MetaOf {F : Type} [GoFloat F] (N : JNum F) (ms : List (List Char × JVal)) (j : JSONMetaData F) : Prop :=
  FieldOf "LearningRate" (FloatVal N) GoFloat.zero ms j.learningRate ∧ SliceOf "ClassLabels" IntsVal [] ms j.classLabels ∧
  FieldOf "ProbTransformName" StrVal [] ms j.probTransformName ∧ FieldOf "BaseScore" (FloatVal N) GoFloat.zero ms j.baseScore

open Classical in
/-- the values that the members give to a field, in their order -/
noncomputable def given (name : String) (ms : List (List Char × JVal)) : List JVal :=
  (ms.filter fun m => decide (Named name m.1)).map (·.2)

/-- the names of the fields of a node, in the order in which they are written -/
def nodeFields : List String := ["Id", "Nsamples", "Samples", "SplitFeatureIndex", "BestScoreSoFar", "Leaf", "Threshold", "Leftid",
  "Rightid", "Branches", "Value", "XGB"]

/-- the names of the fields of the metadata -/
def metaFields : List String := ["LearningRate", "ClassLabels", "ProbTransformName", "BaseScore"]

/-- Two lines of a model file that say the same: they are equal, or both are JSON objects that give the fields of a node the
same values, and in neither of them there are the words ROUND or CLASS. -/
def SameLine (l l' : List Char) : Prop :=
  l = l' ∨ ((∃ ms ms', JsonText (.obj ms) l ∧ JsonText (.obj ms') l' ∧ ∀ name ∈ nodeFields, given name ms = given name ms') ∧
    ∀ w ∈ [['R', 'O', 'U', 'N', 'D'], ['C', 'L', 'A', 'S', 'S']], ¬ w <:+: l ∧ ¬ w <:+: l')

/-- Two first lines that say the same -/
def SameHead (l l' : List Char) : Prop :=
  ∃ ms ms', JsonText (.obj ms) l ∧ JsonText (.obj ms') l' ∧ ∀ name ∈ metaFields, given name ms = given name ms'

end Boo.Spec
