import Verif.Spec.Text

/-!
# Specification: what a CSV text is

A grammar, independent of the scanner of the model: lines end with `\n` or `\r\n`, empty lines are ignored, the fields of a
line are separated by a character, blanks before a field are ignored, a field with a quote at its beginning goes on to the
next quote that is not doubled and may contain anything, the other fields contain no quote, separator or line end.
-/

namespace Boo.Spec

/-- the text with its line ends written as `\n`, and without a `\r` at its very end -/
inductive UnixText : List Char → List Char → Prop
  | nil : UnixText [] []
  | cr : UnixText ['\r'] []
  | crlf {t u : List Char} : UnixText t u → UnixText ('\r' :: '\n' :: t) ('\n' :: u)
  | char {c : Char} {t u : List Char} : (c = '\r' → t ≠ [] ∧ t.head? ≠ some '\n') → UnixText t u → UnixText (c :: t) (c :: u)

/-- a blank that is skipped before a field -/
def Blank (c : Char) : Prop := White c ∧ c ≠ '\n'

/-- a text that does not begin with a blank -/
def NoBlank (t : List Char) : Prop := ∀ c, t.head? = some c → ¬ Blank c

/-- how a quoted field writes a character -/
def csvEsc (c : Char) : List Char := if c = '"' then ['"', '"'] else [c]

/-- `CsvField comma v t`: `t` is a text of the field `v`, written plainly or in quotes -/
inductive CsvField (comma : Char) : List Char → List Char → Prop
  | plain {v : List Char} : (∀ c ∈ v, c ≠ comma ∧ c ≠ '"' ∧ c ≠ '\n') → CsvField comma v v
  | quoted (v : List Char) : CsvField comma v ('"' :: (v.flatMap csvEsc ++ ['"']))

/-- `CsvRecord comma vs s`: `s` is a text of the record with the fields `vs` -/
inductive CsvRecord (comma : Char) : List (List Char) → List Char → Prop
  | last {b v t : List Char} : (∀ c ∈ b, Blank c) → CsvField comma v t → NoBlank t → CsvRecord comma [v] (b ++ t)
  | more {b v t : List Char} {vs : List (List Char)} {s : List Char} : (∀ c ∈ b, Blank c) → CsvField comma v t → NoBlank (t ++ [comma]) →
      CsvRecord comma vs s → CsvRecord comma (v :: vs) (b ++ t ++ comma :: s)

/-- `CsvText comma rs t`: `t` is a text of the records `rs` -/
inductive CsvText (comma : Char) : List (List (List Char)) → List Char → Prop
  | nil : CsvText comma [] []
  | empty {rs : List (List (List Char))} {t : List Char} : CsvText comma rs t → CsvText comma rs ('\n' :: t)
  | line {r : List (List Char)} {rs : List (List (List Char))} {s t : List Char} : CsvRecord comma r s → s ≠ [] → CsvText comma rs t →
      CsvText comma (r :: rs) (s ++ '\n' :: t)
  | last {r : List (List Char)} {s : List Char} : CsvRecord comma r s → s ≠ [] → CsvText comma [r] s

/-- the separators `encoding/csv` accepts -/
def LegalComma (c : Char) : Prop := c.toNat ≠ 0 ∧ c ≠ '"' ∧ c ≠ '\r' ∧ c ≠ '\n' ∧ c.toNat ≠ 0xFFFD

end Boo.Spec
