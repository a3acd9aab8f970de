import Verif.Spec.Tree
import Verif.Model.MultiClass

/-!
# What a boosted model is

Vocabulary for statements about trained models: the scores of a row after some of the trees, and the Newton step.
Independent of the training loop.
-/

namespace Boo
open GoFloat
variable {F : Type} [GoFloat F]

/-- The trees of class `j`, in the order of the rounds. -/
def treesOf (b : List (List (Tree F))) (j : Nat) : List (Tree F) := b.filterMap fun ens => ens[j]?

/-- The base score plus the predictions of the trees times the learning rate, added from left to right. -/
def scoreAfter (base lr : F) (ts : List (Tree F)) (x : List F) : Go F :=
  ts.foldlM (fun s t => do
    let p ← t.predictSingle x
    pure (s +. (p *. lr))) base

/-- The scores of row `x`, one per class, when the trees of the first `r` rounds and those of the classes below `k` in
round `r` exist. -/
def scoresBefore (M : MultiClass F) (r k : Nat) (x : List F) : Go (List F) :=
  (List.range M.classLabels.length).mapM fun j =>
    scoreAfter M.baseScore M.learningRate (treesOf (M.b.take (if j < k then r + 1 else r)) j) x

/-- Sum of the entries of `v` at the given indexes, from left to right. -/
def sumAt (v : List F) (idx : List Nat) : F := (idx.map fun i => v.getD i zero).foldl (fun s x => s +. x) zero

/-- `t` is `t0` with the value of every leaf replaced by the sum of `g` divided by the sum of `h` over the samples of the
leaf; nothing else differs. -/
structure NewtonOf (g h : List F) (t0 t : Tree F) : Prop where
  shape : ∀ path, t.sub path = .nil ↔ t0.sub path = .nil
  node : ∀ path i l r i' l' r', t0.sub path = .node i l r → t.sub path = .node i' l' r' →
    (i.leaf = true → (∀ w ∈ i.samples, w < g.length ∧ w < h.length) ∧
      i' = { i with value := sumAt g i.samples /. sumAt h i.samples }) ∧
    (i.leaf = false → i' = i)

/-- The labels as zeros and ones: is a row of class `lab`? -/
def indicator (labels : List Int) (lab : Int) : List F := labels.map fun l => if l = lab then one else zero

end Boo
