import Verif.Props.Grid

/-!
# C53: the loops over the ints of a grid with the overflow of int64

`Model/CV.lean` adds without overflow. Here is the loop with the addition of int64, and when it is the same.
-/

namespace Boo
open GoFloat

/-- the value of an int64 after an addition: the representative of `x` modulo `2^64` -/
def wrap64 (x : Int) : Int := (x + 2 ^ 63) % 2 ^ 64 - 2 ^ 63

/-- cv/cv.go:183 and 188, grad.go:239, hybrid.go:26 and 31: `for x := x; x <= hi; x += step` with int64; `none`: more than `fuel`
tests -/
def intLoop64 : Nat → Int → Int → Int → Option (List Int)
  | 0, _, _, _ => none
  | fuel + 1, x, hi, step => if x ≤ hi then (intLoop64 fuel (wrap64 (x + step)) hi step).map (x :: ·) else some []

theorem wrap64_id {x : Int} (h0 : -2 ^ 63 ≤ x) (h1 : x < 2 ^ 63) : wrap64 x = x := by
  unfold wrap64
  rw [Int.emod_eq_of_lt (by omega) (by omega)]
  omega

theorem wrap64_range (x : Int) : -2 ^ 63 ≤ wrap64 x ∧ wrap64 x < 2 ^ 63 := by
  unfold wrap64
  have h1 := Int.emod_nonneg (x + 2 ^ 63) (by norm_num : (2 ^ 64 : Int) ≠ 0)
  have h2 := Int.emod_lt_of_pos (x + 2 ^ 63) (by norm_num : (0 : Int) < 2 ^ 64)
  omega

/-- **C53 (ints)**: with a positive step and a limit that is at least one step below the largest int the loop is the one of the
model, and so makes the tests that C53 counts. -/
theorem C53_int64 (fuel : Nat) (lo hi step : Int) (h0 : -2 ^ 63 ≤ lo) (hs : 0 < step) (hh : hi + step < 2 ^ 63) :
    intLoop64 fuel lo hi step = intLoop fuel lo hi step := by
  induction fuel generalizing lo with
  | zero => rfl
  | succ n ih =>
    unfold intLoop64 intLoop
    split
    · rw [wrap64_id (by omega) (by omega), ih _ (by omega)]
    · rfl

/-- **C53 is violated for the largest int**: if the limit is the largest int the test never fails and the loop never ends, for any
start and step. -/
theorem C53_violated_int64 (fuel : Nat) (lo step : Int) (h1 : lo < 2 ^ 63) : intLoop64 fuel lo (2 ^ 63 - 1) step = none := by
  induction fuel generalizing lo with
  | zero => rfl
  | succ n ih =>
    unfold intLoop64
    rw [if_pos (by omega), ih _ (wrap64_range _).2]
    rfl

/-- the default grids are far from the limit -/
example : (defaultXGridOptions : GridOptions F64).rounds.hi + (defaultXGridOptions : GridOptions F64).rounds.step < 2 ^ 63 ∧
    intLoop64 20 20 1000 100 = some [20, 120, 220, 320, 420, 520, 620, 720, 820, 920] := by
  constructor <;> decide +kernel

/-- where the two loops differ: above the largest int the addition wraps around, so a loop that should end goes on and one with a
negative step ends -/
example : intLoop 9 (2 ^ 63 - 2) (2 ^ 63 - 2) 2 = some [2 ^ 63 - 2] ∧ intLoop64 9 (2 ^ 63 - 2) (2 ^ 63 - 2) 2 = none ∧
    intLoop 9 0 10 (-2 ^ 62) = none ∧ intLoop64 9 0 10 (-2 ^ 62) = some [0, -2 ^ 62, -2 ^ 63] := by
  decide +kernel

end Boo
