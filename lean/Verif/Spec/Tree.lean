import Verif.Model.Tree

/-!
# Vocabulary for statements about trees

Independent of how trees are built.
-/

namespace Boo
variable {F : Type}

/-- The subtree reached from the root by a list of turns (`true` = left); nil when the path leaves
the tree. -/
def Tree.sub : Tree F → List Bool → Tree F
  | t, [] => t
  | .nil, _ :: _ => .nil
  | .node _ l _, true :: p => l.sub p
  | .node _ _ r, false :: p => r.sub p

/-- The nodes without children, from left to right. -/
def Tree.leaves : Tree F → List (NodeInfo F)
  | .nil => []
  | .node i .nil .nil => [i]
  | .node _ l r => l.leaves ++ r.leaves

/-- Number of nodes. -/
def Tree.size : Tree F → Nat
  | .nil => 0
  | .node _ l r => l.size + r.size + 1

/-- Number of splits on the longest path from the root. -/
def Tree.height : Tree F → Nat
  | .nil => 0
  | .node _ .nil .nil => 0
  | .node _ l r => max l.height r.height + 1

/-- All nodes, in preorder. -/
def Tree.nodes : Tree F → List (Tree F)
  | .nil => []
  | .node i l r => .node i l r :: (l.nodes ++ r.nodes)

/-- The training index list: the one given by the caller, or all rows of the data. -/
def trainingRows (X : List (List F)) (o : TreeOptions F) : List Nat :=
  match o.indexes with
  | some l => l
  | none => List.range X.length

end Boo
