import Mathlib.Data.List.Basic

/-!
# Specification: white space, words, lines and numbers in texts
-/

namespace Boo.Spec

/-- the code points that Unicode calls white space -/
def whiteSpace : List Nat :=
  [9, 10, 11, 12, 13, 32, 133, 160, 5760, 8192, 8193, 8194, 8195, 8196, 8197, 8198, 8199, 8200, 8201, 8202, 8232, 8233, 8239, 8287, 12288]

/-- white space -/
def White (c : Char) : Prop := c.toNat ∈ whiteSpace

/-- `Words ws s`: `ws` are the words of `s`, that is, its parts without white space, which are separated by white space -/
inductive Words : List (List Char) → List Char → Prop
  | none {b : List Char} : (∀ c ∈ b, White c) → Words [] b
  | last {b w : List Char} : (∀ c ∈ b, White c) → w ≠ [] → (∀ c ∈ w, ¬ White c) → Words [w] (b ++ w)
  | more {b w s : List Char} {c : Char} {ws : List (List Char)} : (∀ c ∈ b, White c) → w ≠ [] → (∀ c ∈ w, ¬ White c) → White c →
      Words ws s → Words (w :: ws) (b ++ w ++ c :: s)

/-- `Lines ls text`: the text consists of the lines `ls`, each with a `\n` at its end, and a rest without `\n`, which the readers
ignore -/
def Lines (ls : List (List Char)) (text : List Char) : Prop :=
  (∀ l ∈ ls, '\n' ∉ l) ∧ ∃ rest, '\n' ∉ rest ∧ text = ls.flatMap (· ++ ['\n']) ++ rest

/-- a decimal digit -/
def Digit (c : Char) : Prop := 48 ≤ c.toNat ∧ c.toNat ≤ 57

/-- the number that decimal digits stand for -/
def decimal (ds : List Char) : Nat := ds.foldl (fun v c => 10 * v + (c.toNat - 48)) 0

/-- `IntText s n`: `s` is a decimal text of the int64 `n`: an optional sign and at least one digit -/
def IntText (s : List Char) (n : Int) : Prop :=
  ∃ sign ds, s = sign ++ ds ∧ ds ≠ [] ∧ (∀ c ∈ ds, Digit c) ∧
    (((sign = [] ∨ sign = ['+']) ∧ n = decimal ds ∧ n < 2 ^ 63) ∨ (sign = ['-'] ∧ n = -decimal ds ∧ -2 ^ 63 ≤ n))

end Boo.Spec
