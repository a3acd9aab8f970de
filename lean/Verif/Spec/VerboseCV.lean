import Verif.Model.VerboseCV

/-!
# Reading the messages of the searches
-/

namespace Boo
variable {F η : Type}

/-- the values announced by the loop headers, in order -/
def headLines (ms : List (SearchMsg η F)) : List η :=
  ms.filterMap fun m => match m with
    | .head h => some h
    | .best _ _ => none

/-- the accuracies and options reported as best, in order -/
def bestLines (ms : List (SearchMsg η F)) : List (F × Option (Options F)) :=
  ms.filterMap fun m => match m with
    | .head _ => none
    | .best a o => some (a, o)

/-- whether each line with an accuracy `a` and options `o` stands in the relation `Q` with the last header before it (there is one) -/
def UnderHead (Q : η → F → Option (Options F) → Prop) (ms : List (SearchMsg η F)) : Prop :=
  ∀ before a o after, ms = before ++ .best a o :: after → ∃ h, (headLines before).getLast? = some h ∧ Q h a o

end Boo
