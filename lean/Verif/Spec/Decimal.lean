import Verif.Spec.Text
import Mathlib.Algebra.Order.Field.Rat
import Mathlib.Algebra.Order.Field.Power

/-!
# Specification: decimal numbers in texts
-/

namespace Boo.Spec

/-- `Short x`: the number `x` has at most 15 significant decimal digits, and its last digit is not extremely large or small
(`x = m · 10^e` with `|m| < 10^15` and `-290 ≤ e ≤ 290`) -/
def Short (x : ℚ) : Prop := ∃ m e : ℤ, |m| < 10 ^ 15 ∧ -290 ≤ e ∧ e ≤ 290 ∧ x = m * 10 ^ e

/-- `ExpText s e`: `s` is empty and `e = 0`, or `s` is a letter `e` or `E` and a decimal text of the int `e`, which has at most 4 digits
apart from leading zeros -/
def ExpText (s : List Char) (e : ℤ) : Prop :=
  (s = [] ∧ e = 0) ∨ ∃ c es, s = c :: es ∧ (c = 'e' ∨ c = 'E') ∧ IntText es e ∧ |e| < 10000

/-- `UnsignedText s x`: `s` is a decimal text of the number `x` without sign: digits, perhaps with a decimal point before, between or after
them, and perhaps an exponent -/
def UnsignedText (s : List Char) (x : ℚ) : Prop :=
  ∃ (ip point fp exp : List Char) (e : ℤ), s = ip ++ (point ++ (fp ++ exp)) ∧ (∀ c ∈ ip, Digit c) ∧ (∀ c ∈ fp, Digit c) ∧ ip ++ fp ≠ [] ∧
    (point = ['.'] ∨ (point = [] ∧ fp = [])) ∧ ExpText exp e ∧ x = decimal (ip ++ fp) * 10 ^ (e - fp.length)

/-- `NumText s x`: `s` is a decimal text of the number `x` -/
def NumText (s : List Char) (x : ℚ) : Prop :=
  UnsignedText s x ∨ (∃ t, s = '+' :: t ∧ UnsignedText t x) ∨ ∃ t y, s = '-' :: t ∧ UnsignedText t y ∧ x = -y

/-- `SvmNumbers l lab row`: the words of the line `l` are the int `lab` and `index:number` pairs with the numbers `row`, each with at most 15
significant digits (the indexes may be any texts without colon) -/
def SvmNumbers (l : List Char) (lab : Int) (row : List ℚ) : Prop :=
  ∃ f fs, Words (f :: fs) l ∧ IntText f lab ∧
    List.Forall₂ (fun w x => ∃ a b, w = a ++ ':' :: b ∧ ':' ∉ a ∧ NumText b x ∧ Short x) fs row

/-- `CsvNumbers r lab row`: the fields of the record `r` are the int `lab` and the numbers `row`, each with at most 15 significant digits -/
def CsvNumbers (r : List (List Char)) (lab : Int) (row : List ℚ) : Prop :=
  ∃ f fs, r = f :: fs ∧ IntText f lab ∧ List.Forall₂ (fun w x => NumText w x ∧ Short x) fs row

end Boo.Spec
