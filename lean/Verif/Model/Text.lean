/-!
# Text files

Strings are lists of characters (valid Unicode). A `*bufio.Reader` over a file is the list of its complete lines,
each with its final newline: `ReadString('\n')` returns the next complete line, and returns `io.EOF` when no newline
is left (the text after the last newline is discarded by all callers). Read errors other than `io.EOF` are not
modelled here.
-/

namespace Boo

/-- the complete lines of a file and what follows the last newline -/
def splitLines : List Char → List (List Char) × List Char
  | [] => ([], [])
  | c :: cs =>
    let (ls, rest) := splitLines cs
    if c = '\n' then ([c] :: ls, rest)
    else match ls with
      | [] => ([], c :: rest)
      | l :: ls => ((c :: l) :: ls, rest)

/-- `bufio.NewReader` on a file with the given content -/
def linesOf (text : List Char) : List (List Char) := (splitLines text).1

/-- `strings.Contains` -/
def strContains : List Char → List Char → Bool
  | [], sub => sub.isEmpty
  | c :: s, sub => sub.isPrefixOf (c :: s) || strContains s sub

/-- `%d` of an `int` -/
def fmtInt (n : Int) : List Char := (toString n).toList

/-- `%d` of an `int` that is not negative -/
def fmtNat (n : Nat) : List Char := (toString n).toList

end Boo
