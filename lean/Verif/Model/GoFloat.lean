import Mathlib.Data.Rat.Defs
import Mathlib.Algebra.Order.Floor.Defs
import Mathlib.Data.Rat.Floor
import Mathlib.Data.Rat.Cast.Defs
import Mathlib.Algebra.Order.Field.Basic
import Mathlib.Algebra.Order.Field.Rat
import Mathlib.Data.Int.Log

/-!
# Panics and floating point

The Go runtime facts every model file relies on: panics as values, and the
float64 operations used by boo as an interface without laws (`GoFloat`).
-/

namespace Boo

/-- The ways in which Go code modelled here can panic. -/
inductive Panic where
  /-- slice index out of range (runtime error) -/
  | index
  /-- slice bounds out of range (runtime error) -/
  | slice
  /-- integer divide by zero (runtime error) -/
  | divZero
  /-- nil pointer or nil function dereference (runtime error) -/
  | nilDeref
  /-- gonum/mat: zero length or shape mismatch -/
  | shape
  /-- an explicit `panic(msg)` in boo -/
  | explicit
  deriving DecidableEq, Repr

/-- A Go computation that may panic. -/
abbrev Go (α : Type) := Except Panic α

/-- Go slice indexing `l[i]` (panics when out of range). -/
def goIdx {α : Type} (l : List α) (i : Nat) : Go α :=
  match l[i]? with
  | some a => .ok a
  | none => .error .index

/-- The float64 operations that boo uses. No laws are assumed here: a theorem that
only assumes `[GoFloat F]` holds for every arithmetic, hence for IEEE binary64 with any
rounding. -/
class GoFloat (F : Type) where
  add : F → F → F
  sub : F → F → F
  mul : F → F → F
  div : F → F → F
  /-- Go `a < b` -/
  lt : F → F → Bool
  /-- Go `a <= b` -/
  le : F → F → Bool
  /-- Go `a == b` -/
  eq : F → F → Bool
  /-- a float constant, or the conversion `float64(n)` -/
  ofRat : Rat → F
  /-- `math.Inf(1)` -/
  posInf : F
  /-- the conversion `int(f)` -/
  toInt : F → Int
  /-- gonum `floats.Sum` -/
  sum : List F → F

namespace GoFloat

scoped infixl:65 " +. " => GoFloat.add
scoped infixl:65 " -. " => GoFloat.sub
scoped infixl:70 " *. " => GoFloat.mul
scoped infixl:70 " /. " => GoFloat.div
scoped infix:50 " <. " => GoFloat.lt
scoped infix:50 " <=. " => GoFloat.le
scoped infix:50 " ==. " => GoFloat.eq

variable {F : Type} [GoFloat F]

/-- `float64(n)` -/
def ofInt (n : Int) : F := ofRat (n : Rat)
/-- `0.0` -/
def zero : F := ofRat 0
/-- `1.0` -/
def one : F := ofRat 1
/-- `x != x` is how IEEE tells a NaN -/
def isNaN (x : F) : Bool := !(x ==. x)
/-- `math.IsInf(x, 1)` -/
def isPosInf (x : F) : Bool := x ==. posInf
/-- `a > b` is `b < a`. -/
def gt (a b : F) : Bool := b <. a
/-- `a >= b` is `b <= a`. -/
def ge (a b : F) : Bool := b <=. a

end GoFloat

open GoFloat in
/-- The comparison laws of IEEE 754 (comparisons are exact, only arithmetic rounds). -/
class GoFloatOrd (F : Type) [GoFloat F] : Prop where
  lt_irrefl : ∀ a : F, (a <. a) = false
  lt_trans : ∀ a b c : F, (a <. b) = true → (b <. c) = true → (a <. c) = true
  le_iff : ∀ a b : F, (a <=. b) = ((a <. b) || (a ==. b))
  eq_symm : ∀ a b : F, (a ==. b) = true → (b ==. a) = true
  eq_trans : ∀ a b c : F, (a ==. b) = true → (b ==. c) = true → (a ==. c) = true
  lt_eq : ∀ a b c : F, (a <. b) = true → (b ==. c) = true → (a <. c) = true
  eq_lt : ∀ a b c : F, (a ==. b) = true → (b <. c) = true → (a <. c) = true
  lt_self : ∀ a b : F, (a <. b) = true → (a ==. a) = true ∧ (b ==. b) = true
  tri : ∀ a b : F, (a ==. a) = true → (b ==. b) = true →
    (a <. b) = true ∨ (a ==. b) = true ∨ (b <. a) = true
  posInf_max : ∀ a : F, ((posInf : F) <. a) = false
  posInf_self : ((posInf : F) ==. posInf) = true
  posInf_unique : ∀ a : F, (a ==. posInf) = true → a = posInf
  zero_self : ((zero : F) ==. zero) = true

/-- An order of additions: a binary tree whose leaves are positions in a slice. -/
inductive SumTree where
  | leaf (i : Nat)
  | add (l r : SumTree)

/-- the positions in a tree, from left to right -/
def SumTree.leaves : SumTree → List Nat
  | .leaf i => [i]
  | .add l r => l.leaves ++ r.leaves

/-- The order in which `floats.Sum` adds `n` numbers: any tree in which each position occurs once. (gonum's kernels add several
partial sums; which ones depends on the processor. That the order depends on the length only is a simplification: the kernel for
amd64 also looks at the alignment of the slice.) -/
structure SumOrder where
  tree : Nat → SumTree
  covers : ∀ n, 0 < n → (tree n).leaves.Perm (List.range n)

/-- How exact results are rounded, where `none` means overflow to infinity, and the order of the additions of `floats.Sum`,
where `none` means from left to right. -/
structure Rounder (K : Type) where
  rnd : K → Option K
  order : Option SumOrder

/-- IEEE-like numbers over an ordered field `K`: NaN, two infinities, finite values.
`+0` and `-0` are identified. The rounding is part of the type. -/
inductive XF {K : Type} (R : Rounder K) where
  | nan
  | inf (neg : Bool)
  | fin (x : K)
  deriving DecidableEq

namespace XF

variable {K : Type} [Field K] [LinearOrder K] {R : Rounder K}

/-- rounding of an exact result -/
def round (x : K) : XF R :=
  match R.rnd x with
  | some y => .fin y
  | none => .inf (decide (x < 0))

def neg : XF R → XF R
  | .nan => .nan
  | .inf s => .inf (!s)
  | .fin x => .fin (-x)

/-- IEEE addition -/
def add : XF R → XF R → XF R
  | .nan, _ => .nan
  | _, .nan => .nan
  | .inf s, .inf t => if s = t then .inf s else .nan
  | .inf s, .fin _ => .inf s
  | .fin _, .inf t => .inf t
  | .fin a, .fin b => round (a + b)

/-- IEEE multiplication -/
def mul : XF R → XF R → XF R
  | .nan, _ => .nan
  | _, .nan => .nan
  | .inf s, .inf t => .inf (s != t)
  | .inf s, .fin b => if b = 0 then .nan else .inf (s != decide (b < 0))
  | .fin a, .inf t => if a = 0 then .nan else .inf (decide (a < 0) != t)
  | .fin a, .fin b => round (a * b)

/-- IEEE division -/
def div : XF R → XF R → XF R
  | .nan, _ => .nan
  | _, .nan => .nan
  | .inf _, .inf _ => .nan
  | .inf s, .fin b => .inf (s != decide (b < 0))
  | .fin _, .inf _ => .fin 0
  | .fin a, .fin b =>
      if b = 0 then (if a = 0 then .nan else .inf (decide (a < 0))) else round (a / b)

/-- IEEE `<` -/
def lt : XF R → XF R → Bool
  | .nan, _ => false
  | _, .nan => false
  | .inf s, .inf t => s && !t
  | .inf s, .fin _ => s
  | .fin _, .inf t => !t
  | .fin a, .fin b => decide (a < b)

/-- IEEE `==` -/
def eq : XF R → XF R → Bool
  | .inf s, .inf t => s == t
  | .fin a, .fin b => decide (a = b)
  | _, _ => false

/-- `int(f)`: truncation towards zero; for NaN, infinities and results that are no int64 what amd64 returns. -/
def toInt [FloorRing K] : XF R → Int
  | .fin x =>
    let n := if 0 ≤ x then ⌊x⌋ else ⌈x⌉
    if n < 9223372036854775808 then max n (-9223372036854775808) else -9223372036854775808
  | _ => -9223372036854775808

/-- the sum of the numbers at the positions in a tree -/
def sumTree (l : List (XF R)) : SumTree → XF R
  | .leaf i => l.getD i (.fin 0)
  | .add s t => add (sumTree l s) (sumTree l t)

/-- `floats.Sum` with a given order -/
def sumWith (l : List (XF R)) : Option SumOrder → XF R
  | none => l.foldl add (.fin 0)
  | some T => if l.length = 0 then .fin 0 else sumTree l (T.tree l.length)

instance [FloorRing K] : GoFloat (XF R) where
  add := add
  sub a b := add a (neg b)
  mul := mul
  div := div
  lt := lt
  le a b := lt a b || eq a b
  eq := eq
  ofRat q := round (q : K)
  posInf := .inf false
  toInt := toInt
  sum l := sumWith l R.order

end XF

/-- No rounding: exact arithmetic with IEEE special values. -/
def exactR (K : Type) : Rounder K := ⟨some, none⟩

/-- Exact arithmetic over `K` with IEEE special values. -/
abbrev Exact (K : Type) := XF (exactR K)

/-- `2^e` as a rational (defined so that the kernel evaluates it with big numbers). -/
def pow2 (e : Int) : Rat :=
  if 0 ≤ e then ((2 ^ e.toNat : Nat) : Rat) else ((2 ^ (-e).toNat : Nat) : Rat)⁻¹

/-- round to the nearest integer, ties to even -/
def rne (q : Rat) : Int :=
  let f := ⌊q⌋
  if q - f < 1/2 then f else if 1/2 < q - f then f + 1 else if f % 2 = 0 then f else f + 1

/-- IEEE 754 binary64 rounding to nearest, ties to even, with gradual underflow;
`none` is overflow. -/
def rnd64 (x : Rat) : Option Rat :=
  if x = 0 then some 0
  else
    let e := max (Int.log 2 |x|) (-1022)
    let u := pow2 (e - 52)
    let y := (rne (x / u) : Rat) * u
    if pow2 1024 ≤ |y| then none else some y

/-- IEEE binary64, with an order of the additions of `floats.Sum` -/
def b64o (T : Option SumOrder) : Rounder Rat := ⟨rnd64, T⟩

/-- IEEE binary64, where `floats.Sum` adds from left to right -/
abbrev b64 : Rounder Rat := b64o none

/-- The model of float64 (values `fin x` with `x` not representable do not occur in Go; every
statement about all of `F64` covers the representable ones). -/
abbrev F64 := XF b64

/-- The model of float64 with a given order of the additions of `floats.Sum` -/
abbrev F64o (T : Option SumOrder) := XF (b64o T)

/-- A finite value that a float64 can hold. -/
def Rep64 (x : Rat) : Prop := rnd64 x = some x

end Boo
