import Verif.Model.Verbose
import Verif.Spec.EarlyRun

/-!
# Vocabulary for what training prints
-/

namespace Boo
open GoFloat
variable {F : Type} [GoFloat F]

/-- The losses printed, each with its round and class, in the order in which they are printed. -/
def lossLines (msgs : List (TrainMsg F)) : List (Nat × Nat × F) :=
  msgs.filterMap fun | .loss round k l => some (round, k, l) | .stop _ _ => none

/-- The classes reported as stopped, each with the round, in the order of the log. -/
def stopLines (msgs : List (TrainMsg F)) : List (Nat × Nat) :=
  msgs.filterMap fun | .loss _ _ _ => none | .stop k round => some (k, round)

/-- The trees of a table with a place for every class in every executed round; a place has the tree and the loss after it, or is
empty. -/
def treesIn (T : List (List (Option (Tree F × F)))) : List (List (Option (Tree F))) := T.map (List.map (Option.map Prod.fst))

/-- What is at class `k` of round `r` of the table. -/
def entryOf (T : List (List (Option (Tree F × F)))) (r k : Nat) : Option (Tree F × F) := (T[r]?.bind fun ens => ens[k]?).join

/-- The losses in one round of the table, class by class, without the empty places. -/
def roundLines (round : Nat) (ens : List (Option (Tree F × F))) : List (Nat × Nat × F) :=
  ens.zipIdx.filterMap fun e => e.1.map fun tl => (round, e.2, tl.2)

end Boo
