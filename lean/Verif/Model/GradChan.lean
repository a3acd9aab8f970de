import Verif.Model.Grad

/-!
# `GradStep` with a channel

The searches of boo call `GradStep` with a nil channel (`GradReturns`); users may give it a channel.
-/

namespace Boo
open GoFloat
variable {F : Type} [GoFloat F]

/-- `*p` for a pointer into a list of option objects -/
def optAt (h : List (Options F)) (p : Nat) : Options F := (h[p]?).getD (defaultGOptions 0)

/-- What a call of `GradStep` leaves: the option objects, the pointer returned and the pointer sent on the channel. -/
structure GradCall (F : Type) where
  heap : List (Options F)
  ret : Nat
  sent : Option Nat

/-- cv/grad.go:173-203 `GradStep` for the options at `ori`; `chan`: `out` is not nil (then someone receives from it).
Lines 175-177 choose the object that is worked on; `GradReturns` is the rest, except that after a failed
cross-validation (lines 180-185) `Ori` is returned and nothing is sent. -/
def GradStepCall (fuel : Nat) (E : GradEnv F) (curr : Options F → CVRes F) (chan : Bool) (h : List (Options F))
    (ori : Nat) (r : GradCall F) : Prop :=
  let hp := if chan then h ++ [(optAt h ori).clone] else h
  let o := if chan then h.length else ori
  if E.central = false ∧ (curr (optAt hp o)).err = true then r = ⟨hp, ori, none⟩
  else ∃ O', GradReturns fuel E curr (optAt hp o) O' ∧ r = ⟨hp.set o O', o, if chan then some o else none⟩

end Boo
