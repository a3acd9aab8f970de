import Verif.Model.GoFloat
import Mathlib.Tactic.Linarith
import Mathlib.Tactic.NormNum

namespace Boo
open GoFloat
set_option linter.unusedSectionVars false

namespace XF
variable {K : Type} [Field K] [LinearOrder K] [FloorRing K] {R : Rounder K}

theorem add_def (a b : XF R) : a +. b = XF.add a b := rfl
theorem sub_def (a b : XF R) : a -. b = XF.add a (XF.neg b) := rfl
theorem mul_def (a b : XF R) : a *. b = XF.mul a b := rfl
theorem div_def (a b : XF R) : a /. b = XF.div a b := rfl
theorem lt_def (a b : XF R) : (a <. b) = XF.lt a b := rfl
theorem eq_def (a b : XF R) : (a ==. b) = XF.eq a b := rfl
theorem le_def (a b : XF R) : (a <=. b) = (XF.lt a b || XF.eq a b) := rfl
theorem posInf_def : (posInf : XF R) = .inf false := rfl
theorem ofRat_def (q : Rat) : (ofRat q : XF R) = round (q : K) := rfl
/-- `int(f)` truncates when the result is an int64 -/
theorem toInt_fin {x : K} (h0 : -2 ^ 63 ≤ (if 0 ≤ x then ⌊x⌋ else ⌈x⌉)) (h1 : (if 0 ≤ x then ⌊x⌋ else ⌈x⌉) < 2 ^ 63) :
    GoFloat.toInt (XF.fin x : XF R) = if 0 ≤ x then ⌊x⌋ else ⌈x⌉ := by
  show (if (if 0 ≤ x then ⌊x⌋ else ⌈x⌉) < 9223372036854775808 then max (if 0 ≤ x then ⌊x⌋ else ⌈x⌉) (-9223372036854775808) else
    -9223372036854775808) = _
  rw [if_pos (by omega), max_eq_left (by omega)]

theorem toInt_floor [IsStrictOrderedRing K] {x : K} (h0 : 0 ≤ x) (h1 : x < 2 ^ 63) : GoFloat.toInt (XF.fin x : XF R) = ⌊x⌋ := by
  have h2 : ⌊x⌋ < 2 ^ 63 := Int.floor_lt.2 (by norm_num at h1 ⊢; exact h1)
  have h3 := Int.floor_nonneg.2 h0
  rw [toInt_fin (by rw [if_pos h0]; omega) (by rw [if_pos h0]; exact h2), if_pos h0]

/-- `int(f)` is never above the truncated value, unless that is below `-2^63` -/
theorem toInt_le (x : K) {b : Int} (hb : -2 ^ 63 ≤ b) (h : (if 0 ≤ x then ⌊x⌋ else ⌈x⌉) ≤ b) : GoFloat.toInt (XF.fin x : XF R) ≤ b := by
  show (if (if 0 ≤ x then ⌊x⌋ else ⌈x⌉) < 9223372036854775808 then max (if 0 ≤ x then ⌊x⌋ else ⌈x⌉) (-9223372036854775808) else
    -9223372036854775808) ≤ b
  generalize (if 0 ≤ x then ⌊x⌋ else ⌈x⌉) = n at h ⊢
  have hb' : (-9223372036854775808 : Int) ≤ b := by norm_num at hb; exact hb
  split
  · exact max_le h hb'
  · exact hb'

theorem sum_def (l : List (XF R)) : GoFloat.sum l = sumWith l R.order := rfl

@[simp] theorem fin_lt (a b : K) : ((XF.fin a : XF R) <. XF.fin b) = decide (a < b) := rfl
@[simp] theorem fin_eq (a b : K) : ((XF.fin a : XF R) ==. XF.fin b) = decide (a = b) := rfl
@[simp] theorem fin_le (a b : K) : ((XF.fin a : XF R) <=. XF.fin b) = decide (a ≤ b) := by
  rw [le_def, XF.lt, XF.eq]; simp [le_iff_lt_or_eq]

theorem add_comm' (a b : XF R) : a +. b = b +. a := by
  simp only [add_def]
  cases a <;> cases b <;> simp [XF.add, add_comm]
  rename_i s t
  cases s <;> cases t <;> simp
theorem mul_comm' (a b : XF R) : a *. b = b *. a := by
  simp only [mul_def]
  cases a <;> cases b <;> simp [XF.mul, mul_comm]
  · rename_i s t; cases s <;> cases t <;> rfl
  · rename_i s b; split <;> simp; cases s <;> simp
  · rename_i s b; split <;> simp; cases b <;> simp

end XF

instance {K : Type} [Field K] [LinearOrder K] [FloorRing K] {R : Rounder K} :
    GoFloatOrd (XF R) where
  lt_irrefl a := by rw [XF.lt_def]; cases a <;> simp [XF.lt]
  lt_trans a b c := by
    simp only [XF.lt_def]
    cases a <;> cases b <;> cases c <;> simp [XF.lt]
    all_goals first
      | exact fun h h2 => lt_trans h h2
      | (intro h h2; simp_all)
  le_iff a b := rfl
  eq_symm a b := by simp only [XF.eq_def]; cases a <;> cases b <;> simp [XF.eq] <;> exact Eq.symm
  eq_trans a b c := by
    simp only [XF.eq_def]; cases a <;> cases b <;> cases c <;> simp [XF.eq] <;> exact Eq.trans
  lt_eq a b c := by
    simp only [XF.eq_def, XF.lt_def]
    cases a <;> cases b <;> cases c <;> simp [XF.eq, XF.lt] <;> intros <;> simp_all
  eq_lt a b c := by
    simp only [XF.eq_def, XF.lt_def]
    cases a <;> cases b <;> cases c <;> simp [XF.eq, XF.lt] <;> intros <;> simp_all
  lt_self a b := by
    simp only [XF.eq_def, XF.lt_def]; cases a <;> cases b <;> simp [XF.eq, XF.lt]
  tri a b := by
    simp only [XF.eq_def, XF.lt_def]
    cases a <;> cases b <;> simp [XF.eq, XF.lt]
    all_goals first
      | exact lt_trichotomy _ _
      | (rename_i s t; cases s <;> cases t <;> simp)
  posInf_max a := by rw [XF.lt_def, XF.posInf_def]; cases a <;> simp [XF.lt]
  posInf_self := by rw [XF.eq_def, XF.posInf_def]; simp [XF.eq]
  posInf_unique := by
    intro a h
    rw [XF.eq_def, XF.posInf_def] at h
    rw [XF.posInf_def]
    cases a <;> simp_all [XF.eq]
  zero_self := by
    rw [XF.eq_def, GoFloat.zero, XF.ofRat_def]; unfold XF.round; split <;> simp [XF.eq]

/-! Exact arithmetic: the operations on finite values are the field operations. -/
namespace Exact
variable {K : Type} [Field K] [LinearOrder K] [FloorRing K]

@[simp] theorem round_eq (a : K) : (XF.round a : Exact K) = .fin a := rfl
@[simp] theorem add_fin (a b : K) : ((.fin a : Exact K) +. .fin b) = .fin (a + b) := rfl
@[simp] theorem sub_fin (a b : K) : ((.fin a : Exact K) -. .fin b) = .fin (a - b) := by
  rw [sub_eq_add_neg]; rfl
@[simp] theorem mul_fin (a b : K) : ((.fin a : Exact K) *. .fin b) = .fin (a * b) := rfl
theorem div_fin (a b : K) (h : b ≠ 0) : ((.fin a : Exact K) /. .fin b) = .fin (a / b) := by
  show XF.div _ _ = _
  simp [XF.div, h]
@[simp] theorem ofRat_fin (q : Rat) : (ofRat q : Exact K) = .fin (q : K) := rfl
@[simp] theorem ofInt_fin (n : Int) : (ofInt n : Exact K) = .fin ((n : Rat) : K) := rfl
@[simp] theorem zero_fin : (zero : Exact K) = .fin ((0 : Rat) : K) := rfl
@[simp] theorem one_fin : (one : Exact K) = .fin ((1 : Rat) : K) := rfl
theorem sum_def (l : List (Exact K)) : GoFloat.sum l = l.foldl XF.add (.fin 0) := rfl
theorem sum_fin (l : List K) : GoFloat.sum (l.map (XF.fin : K → Exact K)) = .fin l.sum := by
  rw [Exact.sum_def]
  suffices h : ∀ (l : List K) (a : K),
      (l.map (XF.fin : K → Exact K)).foldl XF.add (.fin a) = .fin (a + l.sum) by
    simpa using h l 0
  intro l
  induction l with
  | nil => intro a; simp
  | cons x xs ih =>
    intro a
    simp only [List.map_cons, List.foldl_cons, List.sum_cons]
    have : XF.add (XF.fin a : Exact K) (XF.fin x) = .fin (a + x) := rfl
    rw [this, ih, add_assoc]

end Exact
end Boo
