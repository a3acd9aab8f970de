import Verif.Props.Boost
import Verif.Props.EarlyStop

/-!
# What a run of the training with early stopping is

A table of trees with a place for every class in every round; the place is empty from the moment the class is stopped.
`StoppedRun` says how the table is made, round by round, without the training loop and its bookkeeping.
-/

namespace Boo
open GoFloat
variable {F : Type} [GoFloat F]

/-- The tree of class `k` in round `r`, if there is one. -/
def placeOf (A : List (List (Option (Tree F)))) (r k : Nat) : Option (Tree F) := (A[r]?.bind fun ens => ens[k]?).join

/-- The trees of class `j`, in the order of the rounds. -/
def alignedTrees (A : List (List (Option (Tree F)))) (j : Nat) : List (Tree F) := A.filterMap fun ens => ens[j]?.join

/-- The part of the table that exists before class `k` of round `r` is trained. -/
def madeBefore (A : List (List (Option (Tree F)))) (r k : Nat) : List (List (Option (Tree F))) :=
  A.take r ++ [(A.getD r []).take k]

/-- The scores of row `x`, one for each of `m` classes: the base score plus the trees of the class times the learning rate. -/
def alignedScores (base lr : F) (m : Nat) (A : List (List (Option (Tree F)))) (x : List F) : Go (List F) :=
  (List.range m).mapM fun j => scoreAfter base lr (alignedTrees A j) x

/-- `p` are the probabilities of class `k` that the trees in `A` give to the rows of the data. -/
def AlignedProbs (exp : F → F) (base lr : F) (m : Nat) (A : List (List (Option (Tree F)))) (data : List (List F)) (k : Nat)
    (p : List F) : Prop :=
  p.length = data.length ∧ ∀ (i : Nat) row, data[i]? = some row → ∃ s probs,
    alignedScores base lr m A row = .ok s ∧ softMax exp s none = .ok probs ∧ ∃ v, probs[k]? = some v ∧ p[i]? = some v

/-- `tree` is the one `NewTree` builds for a class with label `lab` whose probabilities are `p`, on the rows and columns drawn
for round number `round`; in regular boosting, on all rows for the negative gradients and with Newton steps in the leaves. -/
def FittedTree (S : GoSort) (draws : Nat → F) (D : DataBunch F) (O : Options F) (lab : Int) (lv : LossVal F) (round : Nat)
    (p : List F) (tree : Tree F) : Prop :=
  (O.xgb = true → ∃ g, lv.fn.gradients (indicator D.labels lab) p = .ok g ∧
    newTree S D.data (xgbTreeOptions O (if rowSub O then some (roundRows D.data O draws round) else none)
      (roundCols D.data O draws round) g (lv.fn.hessian p) (indicator D.labels lab) D.data.length) = .ok tree) ∧
  (O.xgb = false → ∃ g t0, lv.fn.negGradients (indicator D.labels lab) p = .ok g ∧
    newTree S D.data (regTreeOptions O g D.data.length) = .ok t0 ∧ NewtonOf g (lv.fn.hessian p) t0 tree)

/-- The losses of a class in the executed rounds `0 … r`, newest first. -/
def lossesUpTo (L : Nat → F) (r : Nat) : List F := ((List.range (r + 1)).map L).reverse

/-- The loss before the first executed round, as the code has it: none if round 0 is executed, 0 if it is skipped. -/
def lossBefore (D : DataBunch F) (O : Options F) (draws : Nat → F) : List F :=
  if O.minSample ≤ (sampleCount D.data O draws 0 : Int) then [] else [zero]

/-- How a table of trees is made by training. `L k r` is the loss of class `k` after its tree of round `r`. -/
structure StoppedRun (exp : F → F) (S : GoSort) (draws : Nat → F) (D : DataBunch F) (O : Options F) (classes : List Int)
    (A : List (List (Option (Tree F)))) (L : Nat → Nat → F) : Prop where
  /-- the rounds are those with enough sampled rows -/
  rounds : A.length = (executedRounds D.data O draws O.rounds.toNat).length
  /-- every round has a place for every class -/
  width : ∀ ens ∈ A, ens.length = classes.length
  /-- how the trees are made -/
  tree : ∀ r k tree, placeOf A r k = some tree → ∃ lab lv round p, classes[k]? = some lab ∧ O.loss = some lv ∧
    (executedRounds D.data O draws O.rounds.toNat)[r]? = some round ∧
    AlignedProbs exp O.baseScore O.learningRate classes.length (madeBefore A r k) D.data k p ∧
    FittedTree S draws D O lab lv round p tree
  /-- what the losses are -/
  loss : O.earlyStop > 0 → ∀ r k tree, placeOf A r k = some tree → ∃ lab lv p, classes[k]? = some lab ∧ O.loss = some lv ∧
    AlignedProbs exp O.baseScore O.learningRate classes.length (madeBefore A r (k + 1)) D.data k p ∧
    lv.fn.loss (indicator D.labels lab) p = .ok (L k r)
  /-- every class starts -/
  first : ∀ k < classes.length, 0 < A.length → (placeOf A 0 k).isSome
  /-- a class goes on exactly as long as there is no reason to stop it -/
  next : ∀ r k, r + 1 < A.length → k < classes.length → ((placeOf A (r + 1) k).isSome ↔
    (placeOf A r k).isSome ∧ ¬ (O.earlyStop > 0 ∧ StopReason O.earlyStop (lossesUpTo (L k) r ++ lossBefore D O draws)))

end Boo
