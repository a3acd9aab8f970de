import Verif.Spec.Tree

/-!
# What feature importance means
-/

namespace Boo
open GoFloat
variable {F : Type} [GoFloat F]

/-- The splits of a tree: feature and score of every node with children, in preorder. -/
def Tree.splits : Tree F → List (Nat × F)
  | .nil => []
  | .node _ .nil .nil => []
  | .node i l r => (i.splitFeatureIndex, i.bestScoreSoFar) :: (l.splits ++ r.splits)

/-- Sum of a list of scores, from left to right; nothing for the empty list. -/
def sumUp : List F → Option F
  | [] => none
  | g :: gs => some (gs.foldl (fun s v => s +. v) g)

/-- The scores of the splits on feature `f`. -/
def scoresOf (f : Nat) (l : List (Nat × F)) : List F := (l.filter fun p => p.1 = f).map Prod.snd

/-- `items` lists every feature of `l` exactly once, with the sum of its scores. -/
def Totals (items l : List (Nat × F)) : Prop :=
  (items.map Prod.fst).Nodup ∧ ∀ f v, (f, v) ∈ items ↔ sumUp (scoresOf f l) = some v

/-- Best first: largest first for xgboost, smallest first for regular boosting; nothing later in the
list is strictly better. -/
def BestFirst (xgb : Bool) (items : List (Nat × F)) : Prop :=
  items.Pairwise fun p q => (if xgb then p.2 <. q.2 else q.2 <. p.2) = false

/-- `Leaf()` says whether a node has children, and no node has exactly one. True of every tree made by
`NewTree` (theorem `C02_leaf_iff_no_children`). -/
def Tree.Consistent (t : Tree F) : Prop :=
  ∀ path i l r, t.sub path = .node i l r →
    (i.leaf = true ∧ l = .nil ∧ r = .nil) ∨ (i.leaf = false ∧ l ≠ .nil ∧ r ≠ .nil)

end Boo
