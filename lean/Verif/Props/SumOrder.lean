import Verif.Props.NearBest
import Verif.Props.TrainFloat

/-!
# The order of the additions of `floats.Sum`

The theorems about binary64 (C93, C94, C96, C97, C99, C105 and others) hold for every order of the additions of `floats.Sum`. Here: in
exact arithmetic the order makes no difference, in binary64 it does, and orders other than from left to right exist.
-/

namespace Boo
open GoFloat

section Exact
variable {K : Type} [Field K] [LinearOrder K] [IsStrictOrderedRing K] [FloorRing K]

theorem exact_add_comm (a b : Exact K) : XF.add a b = XF.add b a := by
  rcases a with _ | s | x <;> rcases b with _ | t | y <;> simp only [XF.add]
  · by_cases h : s = t
    · subst h; rfl
    · rw [if_neg h, if_neg (Ne.symm h)]
  · rw [add_comm]

theorem exact_add_assoc (a b c : Exact K) : XF.add (XF.add a b) c = XF.add a (XF.add b c) := by
  have hr : ∀ x : K, (XF.round x : Exact K) = .fin x := fun _ => rfl
  rcases a with _ | s | x <;> rcases b with _ | t | y <;> rcases c with _ | u | z <;>
    simp only [XF.add, hr, add_assoc] <;> (try rfl) <;> split_ifs <;> simp_all [XF.add, hr]

theorem exact_zero_add (a : Exact K) : XF.add (.fin 0) a = a := by
  rcases a with _ | s | x
  · rfl
  · rfl
  · show (.fin (0 + x) : Exact K) = _
    rw [zero_add]

theorem exact_foldl (l : List (Exact K)) (a : Exact K) : l.foldl XF.add a = XF.add a (l.foldl XF.add (.fin 0)) := by
  induction l generalizing a with
  | nil => rw [List.foldl_nil, List.foldl_nil, exact_add_comm, exact_zero_add]
  | cons b l ih =>
    rw [List.foldl_cons, List.foldl_cons, ih, ih (XF.add (.fin 0) b), exact_zero_add, exact_add_assoc]

theorem exact_sumTree (l : List (Exact K)) (t : SumTree) :
    XF.sumTree l t = (t.leaves.map fun i => l.getD i (.fin 0)).foldl XF.add (.fin 0) := by
  induction t with
  | leaf i => exact (exact_zero_add _).symm
  | add a b iha ihb =>
    show XF.add _ _ = _
    rw [iha, ihb, SumTree.leaves, List.map_append, List.foldl_append, exact_foldl _ (List.foldl _ _ _)]

theorem exact_foldl_perm {l l' : List (Exact K)} (h : l.Perm l') (a : Exact K) : l.foldl XF.add a = l'.foldl XF.add a := by
  induction h generalizing a with
  | nil => rfl
  | cons x _ ih => exact ih _
  | swap x y l =>
    simp only [List.foldl_cons]
    rw [exact_add_assoc, exact_add_comm y x, ← exact_add_assoc]
  | trans _ _ h1 h2 => rw [h1, h2]

/-- In exact arithmetic every order of the additions gives the same sum, whatever the numbers (infinities and NaN included). -/
theorem sum_order_exact (l : List (Exact K)) (T : SumOrder) : XF.sumWith l (some T) = XF.sumWith l none := by
  show (if l.length = 0 then _ else _) = l.foldl XF.add (.fin 0)
  split_ifs with h
  · rw [List.length_eq_zero_iff.1 h]; rfl
  · rw [exact_sumTree]
    have hc := (T.covers l.length (by omega)).map fun i => l.getD i (.fin 0)
    rw [exact_foldl_perm hc]
    congr 1
    apply List.ext_getElem
    · simp
    · intro i h1 h2
      simp [h2]

end Exact

/-! ### Two partial sums -/

/-- adds the numbers at the given positions from left to right -/
def chainFrom : SumTree → List Nat → SumTree
  | t, [] => t
  | t, i :: l => chainFrom (.add t (.leaf i)) l

theorem chainFrom_leaves (t : SumTree) (l : List Nat) : (chainFrom t l).leaves = t.leaves ++ l := by
  induction l generalizing t with
  | nil => simp [chainFrom]
  | cons i l ih => simp [chainFrom, ih, SumTree.leaves]

/-- the order of a kernel with two lanes: the even positions, the odd positions, and their sum -/
def twoLanes : SumOrder where
  tree n := match (List.range n).filter (· % 2 == 0), (List.range n).filter (fun i => !(i % 2 == 0)) with
    | a :: as, b :: bs => .add (chainFrom (.leaf a) as) (chainFrom (.leaf b) bs)
    | a :: as, [] => chainFrom (.leaf a) as
    | [], b :: bs => chainFrom (.leaf b) bs
    | [], [] => .leaf 0
  covers n hn := by
    have h := List.filter_append_perm (fun i => i % 2 == 0) (List.range n)
    split
    · rename_i a as b bs h1 h2
      rw [h1, h2] at h
      simpa [SumTree.leaves, chainFrom_leaves] using h
    · rename_i a as h1 h2
      rw [h1, h2] at h
      simpa [SumTree.leaves, chainFrom_leaves] using h
    · rename_i b bs h1 h2
      rw [h1, h2] at h
      simpa [SumTree.leaves, chainFrom_leaves] using h
    · rename_i h1 h2
      rw [h1, h2] at h
      have := h.length_eq
      simp at this
      omega

/-- In binary64 the order makes a difference. -/
theorem sum_order_binary64 : (GoFloat.sum [.fin (2 ^ 53), .fin 1, .fin 1, .fin 1] : F64) = .fin (2 ^ 53) ∧
    (GoFloat.sum [.fin (2 ^ 53), .fin 1, .fin 1, .fin 1] : F64o (some twoLanes)) = .fin (2 ^ 53 + 2) := by
  constructor <;> decide +kernel

/-- the hypotheses of the theorems about binary64 are met for another order, too -/
example : builtSize64 (newTree GoSort.ins (rows64 nearX) nearO) 7 = true ∧
    (match newTree GoSort.ins (rows64 nearX : List (List (F64o (some twoLanes))))
      { (defaultGTreeOptions : TreeOptions (F64o (some twoLanes))) with y := [tenth64, 1, 3, -7].map XF.fin, maxDepth := 2, minChildWeight := .fin 1 } with
      | .ok t => t.size == 7 | .error _ => false) = true := by
  constructor <;> decide +kernel

end Boo
