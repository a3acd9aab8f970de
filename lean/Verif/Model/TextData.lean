import Verif.Model.Data
import Verif.Model.Text

/-!
# utils/libsvm.go and utils/csv.go: data files

The standard library functions used are modelled by hand from their documentation: `strings.Fields`, `strings.Split`,
`strings.Join`, `strconv.Atoi`, and the reader of `encoding/csv` with `TrimLeadingSpace`. The text of a float64
(`%5.4f`, `strconv.ParseFloat`) is a parameter with laws, `FText`; `Lemmas/FText.lean` has an instance.
Simplifications: strings are valid Unicode; the nil `*DataBunch` is not modelled.
-/

namespace Boo
open GoFloat
variable {F : Type} [GoFloat F]

/-- `unicode.IsSpace` -/
def isSpace (c : Char) : Bool :=
  let n := c.toNat
  (9 ≤ n && n ≤ 13) || n = 32 || n = 0x85 || n = 0xA0 || n = 0x1680 || (0x2000 ≤ n && n ≤ 0x200a) || n = 0x2028 ||
    n = 0x2029 || n = 0x202f || n = 0x205f || n = 0x3000

/-- pieces between the characters that satisfy `p` -/
def splitBy (p : Char → Bool) : List Char → List (List Char)
  | [] => [[]]
  | c :: cs => if p c then [] :: splitBy p cs else match splitBy p cs with
    | [] => [[c]]
    | w :: ws => (c :: w) :: ws

/-- `strings.Fields` -/
def strFields (s : List Char) : List (List Char) := (splitBy isSpace s).filter (!·.isEmpty)

/-- `strings.Split(s, ":")` -/
def splitColon (s : List Char) : List (List Char) := splitBy (· == ':') s

/-- `strings.Join` -/
def strJoin (ws : List (List Char)) (sep : List Char) : List Char := List.intercalate sep ws

/-- `strconv.Atoi`, with its range check for a 64-bit `int` -/
def atoi (s : List Char) : Option Int :=
  let (neg, ds) := match s with
    | '-' :: t => (true, t)
    | '+' :: t => (false, t)
    | _ => (false, s)
  if ds.isEmpty || !ds.all Char.isDigit then none
  else
    let n : Int := Nat.ofDigitChars 10 ds 0
    let n := if neg then -n else n
    if -2 ^ 63 ≤ n ∧ n < 2 ^ 63 then some n else none

/-- `%3d` -/
def fmtInt3 (n : Int) : List Char := List.leftpad 3 ' ' (fmtInt n)

/-- the characters of a formatted number -/
def numChars : List Char := "0123456789.+-NaInf".toList

/-- The text of float64 values. `%5.4f` pads with spaces to 5 characters, which happens only for `NaN` and the
infinities; what it writes is read back rounded to 4 decimals. -/
structure FText (F : Type) [GoFloat F] where
  /-- `fmt.Sprintf("%5.4f", x)` -/
  fmt4 : F → List Char
  /-- `strconv.ParseFloat(s, 64)` -/
  parse : List Char → Option F
  /-- the number that is read back -/
  round4 : F → F
  law : ∀ x, ∃ n core, fmt4 x = List.replicate n ' ' ++ core ∧ core ≠ [] ∧ (∀ c ∈ core, c ∈ numChars) ∧
    parse core = some (round4 x) ∧ (((x -. x) ==. zero) = true → n = 0)

/-- utils/libsvm.go:66-95 `LibSVM`: with `make([]string, l+1)` and `append` there are `l` empty words after the label. -/
def DataBunch.libSVM (P : FText F) (D : DataBunch F) : Go (List Char) := do
  let d0 ← goIdx D.data 0
  let l := d0.length
  let head := if D.keys.length = l then
      [strJoin ("Labels".toList :: D.keys.mapIdx fun i v => fmtNat (i + 1) ++ ':' :: v) [' ']]
    else []
  let rows ← (D.data.zip (List.range D.data.length)).mapM fun (v, i) => do
    let lab ← D.ithLabel i
    pure (strJoin (fmtInt3 lab :: List.replicate l [] ++ v.mapIdx fun j w => fmtNat (j + 1) ++ ':' :: P.fmt4 w) [' '])
  pure (strJoin (head ++ rows) ['\n'])

/-- utils/libsvm.go:117-133, the loop for a header line; `none`: error -/
def svmHeader : List (List Char) → Option (List (List Char))
  | [] => some []
  | v :: vs => match splitColon v with
    | [_, feat] => (svmHeader vs).map (feat :: ·)
    | _ => none

/-- utils/libsvm.go:117-133, the loop for a data line; `none`: error -/
def svmValues (P : FText F) : List (List Char) → Option (List F)
  | [] => some []
  | v :: vs => match splitColon v with
    | [_, feat] => match P.parse feat with
      | none => none
      | some val => (svmValues P vs).map (val :: ·)
    | _ => none

/-- utils/libsvm.go:99-135 `parseLibSVMLine` with `header = true` (its callers pass nil buffers). `fields[1:]` of an empty
slice panics. -/
def parseLibSVMHeader (line : List Char) : Go (Option (List (List Char))) :=
  match strFields line with
  | [] => .error .slice
  | _ :: fs => .ok (svmHeader fs)

/-- utils/libsvm.go:99-135 `parseLibSVMLine` with `header = false` (its callers pass nil buffers) -/
def parseLibSVMLine (P : FText F) (line : List Char) : Go (Option (Int × List F)) :=
  match strFields line with
  | [] => .error .index
  | f :: fs => .ok do
    let cl ← atoi f
    let vs ← svmValues P fs
    pure (cl, vs)

/-- utils/libsvm.go:166-192, the loop over the data lines -/
def svmLoop (P : FText F) : List (List Char) → Go (Option (List (List F) × List Int))
  | [] => .ok (some ([], []))
  | line :: lines => do
    match ← parseLibSVMLine P line with
    | none => pure none
    | some (l, t) =>
      match ← svmLoop P lines with
      | none => pure none
      | some (data, labels) => pure (some (t :: data, l :: labels))

/-- utils/libsvm.go:193-197 and utils/csv.go:136-140: `bad` if the reading ended with an error that is not `io.EOF` -/
def finishData (bad : Bool) (headers : List (List Char)) : Option (List (List F) × List Int) → Option (DataBunch F)
  | none => none
  | some (data, labels) => if bad then none else some ⟨data, headers, labels, []⟩

/-- utils/libsvm.go:158-198 `ParseLibSVMFromReader`. `readErr`: the reader ends with an error that is not `io.EOF`.
`none`: an error is returned. -/
def parseLibSVM (P : FText F) (text : List Char) (readErr : Bool) (hasHeader : Bool) : Go (Option (DataBunch F)) :=
  match hasHeader, linesOf text with
  | true, line :: lines => do
    match ← parseLibSVMHeader line with
    | none => pure none
    | some headers => do
      let o ← svmLoop P lines
      pure (finishData readErr headers o)
  | _, lines => do
    let o ← svmLoop P lines
    pure (finishData readErr [] o)

/-- utils/csv.go:15-47 `CSV`, with the separator given -/
def DataBunch.csv (P : FText F) (D : DataBunch F) (sep : List Char) : Go (List Char) := do
  let d0 ← goIdx D.data 0
  let l := d0.length
  let head := if D.keys.length = l then [strJoin ("Labels".toList :: D.keys) sep] else []
  let rows ← (D.data.zip (List.range D.data.length)).mapM fun (v, i) => do
    let lab ← D.ithLabel i
    pure (strJoin (fmtInt lab :: v.map P.fmt4) sep)
  pure (strJoin (head ++ rows) ['\n'])

/-- `encoding/csv`: `readLine` turns `\r\n` into `\n` and drops a `\r` at the end of the file. -/
def csvNorm : List Char → List Char
  | [] => []
  | '\r' :: '\n' :: t => '\n' :: csvNorm t
  | ['\r'] => []
  | c :: t => c :: csvNorm t

/-- `encoding/csv`: where the reader is: at the beginning of a line, at the beginning of a field, in an unquoted field, in
a quoted field, after a quote in a quoted field -/
inductive CsvSt
  | bol | start | plain | quoted | quote
  deriving DecidableEq

/-- `encoding/csv`, `(*Reader).readRecord` with `TrimLeadingSpace`, without `LazyQuotes` and comments: all the records up
to the end of the text or the first error (the flag). `cur` is the field being read, `acc` the fields read. -/
def csvScan (comma : Char) : CsvSt → List Char → List (List Char) → List Char → List (List (List Char)) × Bool
  | .bol, _, _, [] => ([], false)
  | .start, _, acc, [] => ([acc ++ [[]]], false)
  | .plain, cur, acc, [] => ([acc ++ [cur]], false)
  | .quoted, _, _, [] => ([], true)
  | .quote, cur, acc, [] => ([acc ++ [cur]], false)
  | .plain, cur, acc, c :: t =>
    if c = comma then csvScan comma .start [] (acc ++ [cur]) t
    else if c = '\n' then
      let (rs, e) := csvScan comma .bol [] [] t
      ((acc ++ [cur]) :: rs, e)
    else if c = '"' then ([], true)
    else csvScan comma .plain (cur ++ [c]) acc t
  | .quoted, cur, acc, c :: t =>
    if c = '"' then csvScan comma .quote cur acc t else csvScan comma .quoted (cur ++ [c]) acc t
  | .quote, cur, acc, c :: t =>
    if c = '"' then csvScan comma .quoted (cur ++ [c]) acc t
    else if c = comma then csvScan comma .start [] (acc ++ [cur]) t
    else if c = '\n' then
      let (rs, e) := csvScan comma .bol [] [] t
      ((acc ++ [cur]) :: rs, e)
    else ([], true)
  | .bol, _, _, c :: t =>
    if c = '\n' then csvScan comma .bol [] [] t
    else if isSpace c then csvScan comma .start [] [] t
    else if c = '"' then csvScan comma .quoted [] [] t
    else if c = comma then csvScan comma .start [] [[]] t
    else csvScan comma .plain [c] [] t
  | .start, _, acc, c :: t =>
    if c = '\n' then
      let (rs, e) := csvScan comma .bol [] [] t
      ((acc ++ [[]]) :: rs, e)
    else if isSpace c then csvScan comma .start [] acc t
    else if c = '"' then csvScan comma .quoted [] acc t
    else if c = comma then csvScan comma .start [] (acc ++ [[]]) t
    else csvScan comma .plain [c] acc t

/-- `encoding/csv`: with `FieldsPerRecord = 0` all records must have as many fields as the first. -/
def csvCheck (n : Nat) (e : Bool) : List (List (List Char)) → List (List (List Char)) × Bool
  | [] => ([], e)
  | r :: rs => if r.length ≠ n then ([], true) else (r :: (csvCheck n e rs).1, (csvCheck n e rs).2)

/-- `encoding/csv`: the records that successive calls of `Read` return; the flag says if they end with an error -/
def csvRecords (comma : Char) (text : List Char) : List (List (List Char)) × Bool :=
  if comma.toNat = 0 ∨ comma = '"' ∨ comma = '\r' ∨ comma = '\n' ∨ comma.toNat = 0xFFFD then ([], true)
  else
    match csvScan comma .bol [] [] (csvNorm text) with
    | ([], e) => ([], e)
    | (r :: rs, e) => csvCheck r.length e (r :: rs)

/-- utils/csv.go:83-90 -/
def csvValues (P : FText F) : List (List Char) → Option (List F)
  | [] => some []
  | v :: vs => match P.parse v with
    | none => none
    | some f => (csvValues P vs).map (f :: ·)

/-- utils/csv.go:68-93 `recordsToData` (`fields` is only a capacity) -/
def recordsToData (P : FText F) (records : List (List Char)) (haslab : Bool) : Go (Option (Int × List F)) :=
  if haslab then
    match records with
    | [] => .error .index
    | r :: rs => .ok do
      let label ← atoi r
      let data ← csvValues P rs
      pure (label, data)
  else .ok ((csvValues P records).map ((-1), ·))

/-- utils/csv.go:119-135 -/
def csvLoop (P : FText F) (hasLabels : Bool) : List (List (List Char)) → Go (Option (List (List F) × List Int))
  | [] => .ok (some ([], []))
  | rec :: recs => do
    match ← recordsToData P rec hasLabels with
    | none => pure none
    | some (l, d) =>
      match ← csvLoop P hasLabels recs with
      | none => pure none
      | some (data, labels) => pure (some (d :: data, if hasLabels then l :: labels else labels))

/-- utils/csv.go:115 `recs[ini:]` -/
def csvHeaders (recs : List (List Char)) (hasLabels : Bool) : Go (List (List Char)) :=
  let ini := if hasLabels then 1 else 0
  if ini ≤ recs.length then .ok (recs.drop ini) else .error .slice

/-- utils/csv.go:95-141 `ParseCSVFromReader`. `none`: an error is returned. `readErr`: the reader ends with an error that
is not `io.EOF` (`encoding/csv` passes it on). -/
def parseCSV (P : FText F) (text : List Char) (readErr : Bool) (hasHeader hasLabels : Bool) (sep : Char) :
    Go (Option (DataBunch F)) :=
  let (recs, bad) := csvRecords sep text
  if hasHeader then
    match recs with
    | [] => .ok none
    | h :: recs => do
      let headers ← csvHeaders h hasLabels
      let o ← csvLoop P hasLabels recs
      pure (finishData (bad || readErr) headers o)
  else do
    let o ← csvLoop P hasLabels recs
    pure (finishData (bad || readErr) [] o)

end Boo
