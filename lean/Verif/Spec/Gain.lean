import Mathlib.Algebra.Order.Field.Basic
import Mathlib.Algebra.BigOperators.Group.List.Basic

/-!
# What the gain of a split is, in exact arithmetic

Stated over the data, the sample list of a node, a feature and a threshold; no reference to how
the code scans the samples.
-/

namespace Boo.Spec
variable {K : Type} [Field K] [LinearOrder K]

/-- value of feature `f` of row `i` -/
def val (X : List (List K)) (i f : Nat) : K := ((X.getD i []).getD f 0)

/-- samples that go left / right when splitting on feature `f` at threshold `θ` -/
def leftOf (X : List (List K)) (idx : List Nat) (f : Nat) (θ : K) : List Nat :=
  idx.filter fun i => decide (val X i f ≤ θ)
def rightOf (X : List (List K)) (idx : List Nat) (f : Nat) (θ : K) : List Nat :=
  idx.filter fun i => decide (θ < val X i f)

/-- sum of `v` over the samples in `idx` -/
def sumOver (v : List K) (idx : List Nat) : K := (idx.map fun i => v.getD i 0).sum

/-- sum of the magnitudes of `v` over the samples in `idx` -/
def sumAbs (v : List K) (idx : List Nat) : K := (idx.map fun i => |v.getD i 0|).sum

/-- the split leaves at least `mcw` (and at least one) samples on both sides -/
def Admissible (X : List (List K)) (mcw : Int) (idx : List Nat) (f : Nat) (θ : K) : Prop :=
  max 1 mcw ≤ (leftOf X idx f θ).length ∧ max 1 mcw ≤ (rightOf X idx f θ).length

/-- quality of a set of samples: `G²/(H+λ)` -/
def quality (g h : List K) (lam : K) (idx : List Nat) : K :=
  sumOver g idx ^ 2 / (sumOver h idx + lam)

/-- xgboost gain of splitting `idx` on feature `f` at `θ` (with the code's `γ/2`) -/
def xgbGain (X : List (List K)) (g h : List K) (lam gam : K) (idx : List Nat) (f : Nat) (θ : K) : K :=
  1 / 2 * (quality g h lam (leftOf X idx f θ) + quality g h lam (rightOf X idx f θ)
    - quality g h lam idx) - gam / 2

/-- score of a split of a regular tree: the change of the sum of squared errors,
`-Y_L²/n_L - Y_R²/n_R + Y²/n` -/
def regGain (X : List (List K)) (y : List K) (idx : List Nat) (f : Nat) (θ : K) : K :=
  -(sumOver y (leftOf X idx f θ)) ^ 2 / (leftOf X idx f θ).length
    - (sumOver y (rightOf X idx f θ)) ^ 2 / (rightOf X idx f θ).length
    + (sumOver y idx) ^ 2 / idx.length

/-- mean of `y` over the samples -/
def mean (y : List K) (idx : List Nat) : K := sumOver y idx / idx.length

/-- sum of squared errors of predicting the constant `c` on the samples -/
def sse (y : List K) (idx : List Nat) (c : K) : K := (idx.map fun i => (y.getD i 0 - c) ^ 2).sum

/-- second-order objective of giving weight `w` to the samples -/
def objective (g h : List K) (lam : K) (idx : List Nat) (w : K) : K :=
  sumOver g idx * w + (sumOver h idx + lam) * w ^ 2 / 2

end Boo.Spec
