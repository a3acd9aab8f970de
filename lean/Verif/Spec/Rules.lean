import Verif.Model.GoFloat

/-!
# How a person reads a printed tree

Independent of how trees are built and printed.
-/

namespace Boo
open GoFloat

/-- The rules a printed tree states: predict a value (with a remark on the samples), or go on according to whether a feature is
less than a number. -/
inductive Rule where
  | predict (value remark : List Char)
  | test (feature number : List Char) (yes no : Rule)
  deriving DecidableEq

/-- the lines of a text -/
def textLines : List Char → List (List Char)
  | [] => []
  | c :: cs => if c = '\n' then [] :: textLines cs else match textLines cs with
    | [] => [[c]]
    | l :: ls => (c :: l) :: ls

/-- a line without the blanks it begins with -/
def unindent (line : List Char) : List Char := line.dropWhile (· == ' ')

/-- what follows `w` in a line that begins with it -/
def after (w : List Char) (line : List Char) : Option (List Char) :=
  if w.isPrefixOf line then some (line.drop w.length) else none

/-- the last word of a line, and what is before the blank that precedes it -/
def lastWord (line : List Char) : List Char × List Char :=
  let w := line.reverse.takeWhile (· != ' ')
  (w.reverse, (line.reverse.drop (w.length + 1)).reverse)

/-- the first word of a line, and the rest -/
def firstWord (line : List Char) : List Char × List Char :=
  let w := line.takeWhile (· != ' ')
  (w, line.drop w.length)

/-- Reads rules from the lines: a line `PREDICT    value remark`; or a line `Feature f < number`, a line `---> True`, the rules
for yes, a line `---> False` and the rules for no. Returns the lines that follow. `none`: the text is not of this form
(within `fuel` levels). -/
def readRules : Nat → List (List Char) → Option (Rule × List (List Char))
  | 0, _ => none
  | _ + 1, [] => none
  | fuel + 1, line :: rest =>
    match after "PREDICT    ".toList (unindent line) with
    | some body => some (.predict (firstWord body).1 (firstWord body).2, rest)
    | none => do
      let body ← after "Feature ".toList (unindent line)
      let (number, body) := lastWord body
      let (less, feature) := lastWord body
      if less ≠ ['<'] then none
      else match rest with
      | [] => none
      | t :: rest =>
        if unindent t ≠ "---> True".toList then none
        else do
          let (yes, rest) ← readRules fuel rest
          match rest with
          | [] => none
          | f :: rest =>
            if unindent f ≠ "---> False".toList then none
            else do
              let (no, rest) ← readRules fuel rest
              pure (.test feature number yes no, rest)

/-- reads a whole text -/
def readPrinted (text : List Char) : Option Rule :=
  match readRules (textLines text).length (textLines text) with
  | some (rule, []) => some rule
  | _ => none

/-- Applies the rules to a row: `column` says which column has the given name, `number` what number a text stands for. -/
def Rule.follow {F : Type} [GoFloat F] (column : List Char → Option Nat) (number : List Char → Option F) (row : List F) :
    Rule → Option (List Char)
  | .predict value _ => some value
  | .test feature num yes no => do
    let i ← column feature
    let x ← row[i]?
    let t ← number num
    if x <. t then yes.follow column number row else no.follow column number row

end Boo
