import Verif.Lemmas.B64Gain
import Verif.Props.Loss
import Mathlib.Analysis.Complex.ExponentialBounds

/-!
# Rounding errors of SoftMax
-/

namespace Boo
open GoFloat

variable {τ : Option SumOrder}
/-- float64, with any order of the additions of `floats.Sum` -/
local notation "F64" => F64o τ

/-- What is assumed about `math.Exp` in float64 (its documentation: the error is less than one unit in the last place): on
numbers between -700 and 700 the result is a float64 with a relative error of at most `2⁻⁵²`. -/
structure ExpFloat (exp : F64 → F64) : Prop where
  near : ∀ x : ℚ, |x| ≤ 700 → ∃ y : ℚ, exp (.fin x) = .fin y ∧ rv y = y ∧
    |(y : ℝ) - Real.exp x| ≤ 2 ^ (-52 : ℤ) * Real.exp x

theorem exp70 : Real.exp 70 ≤ 2 ^ (101 : ℕ) := by
  have h : Real.exp 70 = Real.exp 1 ^ 70 := by rw [← Real.exp_nat_mul]; norm_num
  rw [h]
  have h1 := Real.exp_one_lt_d9.le
  refine (pow_le_pow_left₀ (Real.exp_pos 1).le h1 70).trans ?_
  norm_num

theorem exp700 : Real.exp 700 ≤ 2 ^ (1010 : ℕ) := by
  have h : Real.exp 700 = Real.exp 70 ^ 10 := by rw [← Real.exp_nat_mul]; norm_num
  rw [h, show 1010 = 101 * 10 by norm_num, pow_mul]
  exact pow_le_pow_left₀ (Real.exp_pos _).le exp70 10

theorem exp_le_of_abs {x : ℚ} (h : |x| ≤ 700) : Real.exp x ≤ 2 ^ (1010 : ℤ) ∧ 2 ^ (-1010 : ℤ) ≤ Real.exp x := by
  have h' : |(x : ℝ)| ≤ 700 := by exact_mod_cast h
  have h700 : Real.exp 700 ≤ (2 : ℝ) ^ (1010 : ℤ) := exp700
  rw [abs_le] at h'
  refine ⟨(Real.exp_le_exp.2 h'.2).trans h700, ?_⟩
  have : (2 : ℝ) ^ (-1010 : ℤ) = ((2 : ℝ) ^ (1010 : ℤ))⁻¹ := zpow_neg _ _
  rw [this]
  have e : Real.exp x = (Real.exp (-x))⁻¹ := by rw [Real.exp_neg, inv_inv]
  rw [e]
  apply inv_anti₀ (Real.exp_pos _)
  exact (Real.exp_le_exp.2 (by linarith)).trans h700

/-- the unit roundoff as a real number -/
noncomputable def uR : ℝ := 2 ^ (-53 : ℤ)
theorem uR_pos : 0 < uR := by unfold uR; positivity
theorem uR_small : uR ≤ 1 / 10 ^ 15 := by unfold uR; norm_num
theorem uR_cast : ((u64 : ℚ) : ℝ) = uR := by rw [u64_def]; unfold uR; norm_num
theorem uR_two : (2 : ℝ) ^ (-52 : ℤ) = 2 * uR := by unfold uR; norm_num

theorem abs_map_sum {l : List ℚ} (h : ∀ x ∈ l, 0 ≤ x) : (l.map fun x => |x|).sum = l.sum := by
  congr 1
  conv_rhs => rw [← List.map_id l]
  exact List.map_congr_left fun x hx => abs_of_nonneg (h x hx)

/-- SoftMax after the exponentials: sum and division -/
theorem normalise64 (y : List ℚ) (hrep : ∀ x ∈ y, rv x = x) (h0 : ∀ x ∈ y, 0 ≤ x) (hpos : ∃ x ∈ y, 0 < x) (hA : 2 * y.sum ≤ big64)
    (hn : 2 * (y.length : ℚ) * u64 ≤ 1 / 2) :
    ∃ s, GoFloat.sum (y.map XF.fin : List F64) = .fin s ∧ |s - y.sum| ≤ 2 * y.length * u64 * y.sum ∧ 0 < s ∧
      (∀ x ∈ y, x ≤ s) ∧ (y.map XF.fin).map (fun v => v /. (.fin s : F64)) = (y.map fun v => rv (v / s)).map XF.fin := by
  have habs := abs_map_sum h0
  obtain ⟨s, e1, e2, e3, e4⟩ := sum64_any y hrep y.sum hA habs.le (by linarith)
  have hge := e4 h0
  obtain ⟨a, ha, ha0⟩ := hpos
  have hs : 0 < s := lt_of_lt_of_le ha0 (hge a ha)
  refine ⟨s, e1, e3, hs, hge, ?_⟩
  rw [List.map_map, List.map_map]
  apply List.map_congr_left
  intro v hv
  simp only [Function.comp_apply]
  apply div64 hs.ne'
  rw [abs_of_nonneg (div_nonneg (h0 v hv) hs.le)]
  have h1 : v / s ≤ 1 := (div_le_one hs).2 (hge v hv)
  have h2 : (1 : ℚ) ≤ big64 := by rw [big64_def]; exact one_le_zpow₀ (by norm_num) (by norm_num)
  linarith

end Boo
