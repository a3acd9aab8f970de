import Verif.Props.Loss

/-!
# C32 for matrices: `NormalizationDense`
-/

namespace Boo
open GoFloat
set_option linter.unusedSectionVars false

section any
variable {F : Type} [GoFloat F]

theorem normalization_row (p b : List F) (h : b.length = p.length) :
    normalization p (some b) = .ok (p.map fun v => v /. p.foldl (fun s v => s +. v) zero) := by
  unfold normalization
  simp only [Option.getD_some, List.drop_of_length_le (Nat.le_of_eq h), List.append_nil]
  rw [if_neg (by omega)]

/-- **C32 (matrix)**: `NormalizationDense` applies `Normalization` to every row, with a nil result matrix or one of the same shape,
whatever it holds. Any arithmetic. -/
theorem C32_dense (O : Dense F) (hO : O.data.length = O.r * O.c) (D : Option (Dense F))
    (hD : ∀ d, D = some d → d.r = O.r ∧ d.c = O.c ∧ d.data.length = d.r * d.c) :
    ∃ P, normalizationDense O D = .ok P ∧ P.r = O.r ∧ P.c = O.c ∧ P.data.length = P.r * P.c ∧
      ∀ i < O.r, normalization (O.row i) none = .ok (P.row i) := by
  have hrow : ∀ i < O.r, ∀ b : List F, b.length = O.c →
      normalization (O.row i) (some b) = .ok ((O.row i).map fun v => v /. (O.row i).foldl (fun s v => s +. v) zero) ∧
      ((O.row i).map fun v => v /. (O.row i).foldl (fun s v => s +. v) zero).length = O.c := by
    intro i hi b hb
    have hl : (O.row i).length = O.c := Dense.row_length hO hi
    exact ⟨normalization_row _ _ (by omega), by simp [hl]⟩
  have fin : ∀ P : Dense F, (∀ i < O.r, P.row i = (O.row i).map fun v => v /. (O.row i).foldl (fun s v => s +. v) zero) →
      ∀ i < O.r, normalization (O.row i) none = .ok (P.row i) := by
    intro P hP i hi
    rw [hP i hi]
    unfold normalization
    simp
  cases D with
  | none =>
    obtain ⟨P, h1, h2, h3, h4, h5⟩ := activation_rows_nil normalization
      (fun row => row.map fun v => v /. row.foldl (fun s v => s +. v) zero) O hrow
    exact ⟨P, h1, h2, h3, h4, fin P h5⟩
  | some d =>
    obtain ⟨d1, d2, d3⟩ := hD d rfl
    obtain ⟨P, h1, h2, h3, h4, h5⟩ := activation_rows normalization
      (fun row => row.map fun v => v /. row.foldl (fun s v => s +. v) zero) O d d3 d1
      (fun i hi b hb => by rw [d2] at hb ⊢; exact hrow i hi b hb)
    exact ⟨P, h1, h2, h3.trans d2, h4, fin P h5⟩

end any

/-- **C32 (matrix, exact arithmetic)**: the rows of the result sum to 1 -/
theorem C32_dense_sums {K : Type} [Field K] [LinearOrder K] [IsStrictOrderedRing K] [FloorRing K] (O : Dense (Exact K))
    (hO : O.data.length = O.r * O.c) (rows : Nat → List K) (hrows : ∀ i < O.r, O.row i = finV (rows i) ∧ (rows i).sum ≠ 0) :
    ∃ P, normalizationDense O none = .ok P ∧ P.r = O.r ∧ P.c = O.c ∧
      ∀ i < O.r, ∃ q : List K, P.row i = finV q ∧ q.sum = 1 ∧ ∃ k ≠ 0, rows i = q.map (k * ·) := by
  obtain ⟨P, h1, h2, h3, _, h5⟩ := C32_dense O hO none (by simp)
  refine ⟨P, h1, h2, h3, fun i hi => ?_⟩
  obtain ⟨e, hs⟩ := hrows i hi
  obtain ⟨q, n1, _, n3, n4, _⟩ := C32_normalization (rows i) hs
  have := h5 i hi
  rw [e, n1] at this
  exact ⟨q, (Except.ok.inj this).symm, n3, n4⟩

example : ∃ O : Dense (Exact ℚ), O.data.length = O.r * O.c ∧ 2 ≤ O.r ∧
    ∀ i < O.r, ∃ row : List ℚ, O.row i = finV row ∧ row.sum ≠ 0 :=
  ⟨⟨2, 2, finV [1, 2, 3, 5]⟩, rfl, le_rfl, fun i hi => by
    match i, hi with
    | 0, _ => exact ⟨[1, 2], rfl, by norm_num⟩
    | 1, _ => exact ⟨[3, 5], rfl, by norm_num⟩⟩

end Boo
