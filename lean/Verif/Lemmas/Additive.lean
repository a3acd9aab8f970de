import Mathlib.Algebra.Order.BigOperators.Group.Finset
import Mathlib.Algebra.BigOperators.Ring.Finset
import Mathlib.Algebra.Order.BigOperators.Ring.Finset
import Mathlib.Data.Real.Basic
import Mathlib.Tactic.Linarith
import Mathlib.Tactic.Ring

/-!
# Sums of residuals against functions of one column
-/

namespace Boo
open Finset

theorem list_filter_sum (n : ℕ) (p : ℕ → Prop) [DecidablePred p] (g : ℕ → ℝ) :
    (((List.range n).filter fun i => decide (p i)).map g).sum = ∑ i ∈ (range n).filter p, g i := by
  induction n with
  | zero => simp
  | succ n ih =>
    rw [List.range_succ, List.filter_append, List.map_append, List.sum_append, ih, range_add_one, filter_insert]
    by_cases h : p n
    · rw [if_pos h, sum_insert (by simp)]
      simp [h]
      ring
    · rw [if_neg h]
      simp [h]

theorem list_range_sum (n : ℕ) (g : ℕ → ℝ) : ((List.range n).map g).sum = ∑ i ∈ range n, g i := by
  induction n with
  | zero => simp
  | succ n ih => rw [List.range_succ, List.map_append, List.sum_append, ih, sum_range_succ]; simp

/-- if the sums over everything and below all thresholds are small, so are the sums over each value -/
theorem value_sum (n : ℕ) (x r : ℕ → ℝ) (g : ℝ) (hall : |∑ i ∈ range n, r i| ≤ g)
    (hleft : ∀ θ, (∃ i < n, x i ≤ θ) → (∃ i < n, θ < x i) → |∑ i ∈ (range n).filter (fun i => x i ≤ θ), r i| ≤ g) (v : ℝ) :
    |∑ i ∈ (range n).filter (fun i => x i = v), r i| ≤ 2 * g := by
  have hg : 0 ≤ g := (abs_nonneg _).trans hall
  have hle : ∀ θ, |∑ i ∈ (range n).filter (fun i => x i ≤ θ), r i| ≤ g := by
    intro θ
    by_cases h1 : ∃ i < n, x i ≤ θ
    · by_cases h2 : ∃ i < n, θ < x i
      · exact hleft θ h1 h2
      · push Not at h2
        rw [filter_true_of_mem (fun i hi => h2 i (mem_range.1 hi))]
        exact hall
    · push Not at h1
      rw [filter_false_of_mem (fun i hi => not_le.2 (h1 i (mem_range.1 hi)))]
      simpa using hg
  have hlt : |∑ i ∈ (range n).filter (fun i => x i < v), r i| ≤ g := by
    rcases ((range n).filter fun i => x i < v).eq_empty_or_nonempty with h | h
    · rw [h]
      simpa using hg
    · obtain ⟨j, hj, hmax⟩ := exists_max_image _ x h
      have : (range n).filter (fun i => x i < v) = (range n).filter (fun i => x i ≤ x j) := by
        apply filter_congr
        intro i hi
        constructor
        · intro h1
          exact hmax i (mem_filter.2 ⟨hi, h1⟩)
        · intro h1
          exact lt_of_le_of_lt h1 (mem_filter.1 hj).2
      rw [this]
      exact hle _
  have hsplit : ∑ i ∈ (range n).filter (fun i => x i ≤ v), r i =
      ∑ i ∈ (range n).filter (fun i => x i < v), r i + ∑ i ∈ (range n).filter (fun i => x i = v), r i := by
    rw [← sum_union]
    · congr 1
      ext i
      simp only [mem_union, mem_filter]
      rw [← and_or_left, ← le_iff_lt_or_eq]
    · rw [disjoint_filter]
      intro i _ h1 h2
      exact h1.ne h2
  have h1 := abs_le.1 (hle v)
  have h2 := abs_le.1 hlt
  rw [hsplit] at h1
  rw [abs_le]
  constructor <;> linarith [h1.1, h1.2, h2.1, h2.2]

theorem column_sum (n : ℕ) (x r : ℕ → ℝ) (g : ℝ) (hall : |∑ i ∈ range n, r i| ≤ g)
    (hleft : ∀ θ, (∃ i < n, x i ≤ θ) → (∃ i < n, θ < x i) → |∑ i ∈ (range n).filter (fun i => x i ≤ θ), r i| ≤ g) (h : ℝ → ℝ) :
    |∑ i ∈ range n, r i * h (x i)| ≤ 2 * g * ∑ i ∈ range n, |h (x i)| := by
  have hg : 0 ≤ g := (abs_nonneg _).trans hall
  have hmaps : ∀ i ∈ range n, x i ∈ (range n).image x := fun i hi => mem_image_of_mem x hi
  rw [← sum_fiberwise_of_maps_to hmaps (fun i => r i * h (x i)), ← sum_fiberwise_of_maps_to hmaps (fun i => |h (x i)|), mul_sum]
  refine (abs_sum_le_sum_abs _ _).trans (sum_le_sum ?_)
  intro v hv
  obtain ⟨j, hj, rfl⟩ := mem_image.1 hv
  have e1 : ∑ i ∈ range n with x i = x j, r i * h (x i) = (∑ i ∈ (range n).filter (fun i => x i = x j), r i) * h (x j) := by
    rw [sum_mul]
    exact sum_congr rfl fun i hi => by rw [(mem_filter.1 hi).2]
  rw [e1, abs_mul]
  have e2 : |h (x j)| ≤ ∑ i ∈ range n with x i = x j, |h (x i)| :=
    single_le_sum (f := fun i => |h (x i)|) (fun i _ => abs_nonneg _) (mem_filter.2 ⟨hj, rfl⟩)
  exact mul_le_mul (value_sum n x r g hall hleft _) e2 (abs_nonneg _) (by linarith)

/-- the same for scores that add up one function per column -/
theorem additive_sum (n w : ℕ) (x : ℕ → ℕ → ℝ) (r : ℕ → ℝ) (g : ℝ) (hall : |∑ i ∈ range n, r i| ≤ g)
    (hleft : ∀ f < w, ∀ θ, (∃ i < n, x i f ≤ θ) → (∃ i < n, θ < x i f) → |∑ i ∈ (range n).filter (fun i => x i f ≤ θ), r i| ≤ g)
    (h : ℕ → ℝ → ℝ) :
    |∑ i ∈ range n, r i * ∑ f ∈ range w, h f (x i f)| ≤ 2 * g * ∑ i ∈ range n, ∑ f ∈ range w, |h f (x i f)| := by
  have e1 : ∑ i ∈ range n, r i * ∑ f ∈ range w, h f (x i f) = ∑ f ∈ range w, ∑ i ∈ range n, r i * h f (x i f) := by
    rw [sum_comm]
    exact sum_congr rfl fun i _ => mul_sum _ _ _
  rw [e1, sum_comm (s := range n), mul_sum]
  refine (abs_sum_le_sum_abs _ _).trans (sum_le_sum ?_)
  intro f hf
  exact column_sum n (fun i => x i f) r g hall (hleft f (mem_range.1 hf)) (h f)

/-- and so the probability that is missing on the right classes, if the scores separate the classes -/
theorem missing_mass (n m : ℕ) (c : ℕ → ℕ) (hc : ∀ i < n, c i < m) (P s : ℕ → ℕ → ℝ) (hP0 : ∀ i < n, ∀ k < m, 0 ≤ P i k)
    (hP1 : ∀ i < n, ∑ k ∈ range m, P i k = 1) (γ : ℝ) (hs : ∀ i < n, ∀ k < m, k ≠ c i → s i k + γ ≤ s i (c i)) (H : ℕ → ℝ) (g : ℝ)
    (hk : ∀ k < m, |∑ i ∈ range n, ((if c i = k then 1 else 0) - P i k) * s i k| ≤ 2 * g * H k) :
    γ * ∑ i ∈ range n, (1 - P i (c i)) ≤ 2 * g * ∑ k ∈ range m, H k := by
  have h1 : ∑ k ∈ range m, ∑ i ∈ range n, ((if c i = k then 1 else 0) - P i k) * s i k ≤ 2 * g * ∑ k ∈ range m, H k := by
    rw [mul_sum]
    exact sum_le_sum fun k hk' => (le_abs_self _).trans (hk k (mem_range.1 hk'))
  refine le_trans ?_ h1
  rw [sum_comm, mul_sum]
  refine sum_le_sum fun i hi => ?_
  have hin := mem_range.1 hi
  have e1 : ∑ k ∈ range m, ((if c i = k then (1 : ℝ) else 0) - P i k) * s i k = s i (c i) - ∑ k ∈ range m, P i k * s i k := by
    rw [← sum_ite_eq_of_mem (range m) (c i) (fun k => s i k) (mem_range.2 (hc i hin)), ← sum_sub_distrib]
    refine sum_congr rfl fun k _ => ?_
    by_cases h : c i = k
    · simp only [h, if_true]; ring
    · simp only [h, if_false]; ring
  rw [e1]
  have e2 : s i (c i) = ∑ k ∈ range m, P i k * s i (c i) := by rw [← sum_mul, hP1 i hin, one_mul]
  have e3 : γ * (1 - P i (c i)) = ∑ k ∈ range m, (P i k * γ - if k = c i then P i k * γ else 0) := by
    rw [sum_sub_distrib, ← sum_mul, hP1 i hin, sum_ite_eq' (range m) (c i), if_pos (mem_range.2 (hc i hin))]
    ring
  rw [e2, ← sum_sub_distrib, e3]
  refine sum_le_sum fun k hk' => ?_
  have hp := hP0 i hin k (mem_range.1 hk')
  by_cases h : k = c i
  · rw [if_pos h, h]
    linarith
  · rw [if_neg h]
    have := hs i hin k (mem_range.1 hk') h
    nlinarith [mul_nonneg hp (sub_nonneg.2 this)]

end Boo
