import Verif.Lemmas.Dense
import Verif.Lemmas.ExactScan
import Mathlib.Analysis.SpecialFunctions.Exp
import Mathlib.Analysis.SpecialFunctions.ExpDeriv
import Mathlib.Analysis.Calculus.Deriv.Pow
import Mathlib.Analysis.SpecialFunctions.Log.Basic
import Mathlib.Algebra.BigOperators.Group.List.Lemmas
import Mathlib.Algebra.Order.BigOperators.Group.List
import Verif.Model.MultiClass

/-!
# C24, C30–C32, C64: activation functions and losses
-/

namespace Boo
open GoFloat
set_option linter.unusedSectionVars false

section any
variable {F : Type} [GoFloat F]

/-- **C24 (buffer)**: with a buffer of the length of the scores, `SoftMax` returns the same whatever the buffer
holds. Any arithmetic. -/
theorem C24_buffer (exp : F → F) (p b : List F) (h : b.length = p.length) :
    softMax exp p (some b) = softMax exp p none ∧ ∃ q, softMax exp p none = .ok q ∧ q.length = p.length := by
  have e1 : softMax exp p (some b) = .ok (p.map fun v => exp v /. GoFloat.sum (p.map exp)) := by
    unfold softMax
    simp only [Option.getD_some, List.drop_of_length_le (Nat.le_of_eq h), List.append_nil]
    rw [if_neg (by omega)]
  have e2 : softMax exp p none = .ok (p.map fun v => exp v /. GoFloat.sum (p.map exp)) := by
    unfold softMax
    simp
  exact ⟨e1.trans e2.symm, _, e2, by simp⟩

/-- a shorter buffer panics -/
theorem C24_short_buffer (exp : F → F) (p b : List F) (h : b.length < p.length) :
    softMax exp p (some b) = .error .index := by
  simp [softMax, h]

/-- a longer buffer changes the result: its stale tail is part of the denominator -/
theorem C24_long_buffer_violated : softMax (fun x => x) [(.fin 1 : F64)] (some [.fin 0, .fin 3]) =
    .ok [.fin (1/4), .fin 3] ∧ softMax (fun x => x) [(.fin 1 : F64)] none = .ok [.fin 1] := by
  constructor <;> decide +kernel

theorem softMax_row (exp : F → F) (p b : List F) (h : b.length = p.length) :
    softMax exp p (some b) = .ok (p.map fun v => exp v /. GoFloat.sum (p.map exp)) := by
  unfold softMax
  simp only [Option.getD_some, List.drop_of_length_le (Nat.le_of_eq h), List.append_nil]
  rw [if_neg (by omega)]

/-- **C24 (matrix)**: `SoftMaxDense` applies `SoftMax` to every row, with a nil result matrix or one of the same
shape, whatever it holds. -/
theorem C24_dense (exp : F → F) (O : Dense F) (hO : O.data.length = O.r * O.c) (D : Option (Dense F))
    (hD : ∀ d, D = some d → d.r = O.r ∧ d.c = O.c ∧ d.data.length = d.r * d.c) :
    ∃ P, softMaxDense exp O D = .ok P ∧ P.r = O.r ∧ P.c = O.c ∧ P.data.length = P.r * P.c ∧
      ∀ i < O.r, softMax exp (O.row i) none = .ok (P.row i) := by
  have hrow : ∀ i < O.r, ∀ b : List F, b.length = O.c →
      softMax exp (O.row i) (some b) = .ok ((O.row i).map fun v => exp v /. GoFloat.sum ((O.row i).map exp)) ∧
      ((O.row i).map fun v => exp v /. GoFloat.sum ((O.row i).map exp)).length = O.c := by
    intro i hi b hb
    have hl : (O.row i).length = O.c := Dense.row_length hO hi
    exact ⟨softMax_row exp _ _ (by omega), by simp [hl]⟩
  have fin : ∀ P : Dense F, (∀ i < O.r, P.row i = (O.row i).map fun v => exp v /. GoFloat.sum ((O.row i).map exp)) →
      ∀ i < O.r, softMax exp (O.row i) none = .ok (P.row i) := by
    intro P hP i hi
    rw [hP i hi]
    unfold softMax
    simp
  cases D with
  | none =>
    obtain ⟨P, h1, h2, h3, h4, h5⟩ := activation_rows_nil (softMax exp)
      (fun row => row.map fun v => exp v /. GoFloat.sum (row.map exp)) O hrow
    exact ⟨P, h1, h2, h3, h4, fin P h5⟩
  | some d =>
    obtain ⟨d1, d2, d3⟩ := hD d rfl
    obtain ⟨P, h1, h2, h3, h4, h5⟩ := activation_rows (softMax exp)
      (fun row => row.map fun v => exp v /. GoFloat.sum (row.map exp)) O d d3 d1
      (fun i hi b hb => by rw [d2] at hb ⊢; exact hrow i hi b hb)
    exact ⟨P, h1, h2, h3.trans d2, h4, fin P h5⟩

end any

/-! ### C24 over the reals -/

/-- `math.Exp` in exact real arithmetic -/
noncomputable def expR : Exact ℝ → Exact ℝ
  | .nan => .nan
  | .inf true => .fin 0
  | .inf false => .inf false
  | .fin x => .fin (Real.exp x)

/-- a vector of real numbers as floats -/
def finV {K : Type} (l : List K) : List (Exact K) := l.map .fin

/-- the mathematical softmax -/
noncomputable def softmaxSpec (p : List ℝ) : List ℝ := p.map fun x => Real.exp x / (p.map Real.exp).sum

theorem sum_exp_pos {p : List ℝ} (h : p ≠ []) : 0 < (p.map Real.exp).sum := by
  apply List.sum_pos
  · intro x hx
    obtain ⟨y, _, rfl⟩ := List.mem_map.1 hx
    exact Real.exp_pos y
  · simpa using h

theorem softMax_real (p : List ℝ) (h : p ≠ []) :
    softMax expR (finV p) none = .ok (finV (softmaxSpec p)) := by
  unfold softMax
  have hs : GoFloat.sum ((finV p).map expR) = (.fin (p.map Real.exp).sum : Exact ℝ) := by
    rw [← Exact.sum_fin, finV, List.map_map, List.map_map]
    rfl
  simp only [Option.getD_none, List.length_map, lt_irrefl, if_false]
  rw [List.drop_of_length_le (by simp), List.append_nil, List.append_nil, hs]
  congr 1
  unfold finV softmaxSpec
  rw [List.map_map, List.map_map]
  apply List.map_congr_left
  intro x _
  exact Exact.div_fin _ _ (sum_exp_pos h).ne'

/-- **C24**: `SoftMax` of a non-empty vector of real scores is a vector of the same length with entries in (0,1]
that sum to 1, in the same order as the scores. -/
theorem C24_distribution (p : List ℝ) (h : p ≠ []) :
    ∃ q : List ℝ, softMax expR (finV p) none = .ok (finV q) ∧ q.length = p.length ∧
      (∀ x ∈ q, 0 < x ∧ x ≤ 1) ∧ q.sum = 1 ∧
      ∀ (i j : Nat) (a b x y : ℝ), p[i]? = some a → p[j]? = some b → q[i]? = some x → q[j]? = some y →
        (a < b ↔ x < y) := by
  have hpos := sum_exp_pos h
  refine ⟨softmaxSpec p, softMax_real p h, by simp [softmaxSpec], ?_, ?_, ?_⟩
  · intro x hx
    obtain ⟨y, hy, rfl⟩ := List.mem_map.1 hx
    refine ⟨div_pos (Real.exp_pos y) hpos, ?_⟩
    rw [div_le_one hpos]
    apply List.single_le_sum
    · intro z hz
      obtain ⟨w, _, rfl⟩ := List.mem_map.1 hz
      exact (Real.exp_pos w).le
    · exact List.mem_map.2 ⟨y, hy, rfl⟩
  · have : softmaxSpec p = (p.map Real.exp).map fun e => e * (p.map Real.exp).sum⁻¹ := by
      unfold softmaxSpec; rw [List.map_map]; rfl
    rw [this, List.sum_map_mul_right, List.map_id']
    exact mul_inv_cancel₀ hpos.ne'
  · intro i j a b x y ha hb hx hy
    unfold softmaxSpec at hx hy
    rw [List.getElem?_map, ha] at hx
    rw [List.getElem?_map, hb] at hy
    cases hx; cases hy
    rw [div_lt_div_iff_of_pos_right hpos, Real.exp_lt_exp]

/-- **C24 (shift)**: adding a constant to all scores does not change the result. -/
theorem C24_shift (p : List ℝ) (h : p ≠ []) (c : ℝ) :
    softMax expR (finV (p.map (· + c))) none = softMax expR (finV p) none := by
  rw [softMax_real p h, softMax_real _ (by simpa using h)]
  congr 2
  unfold softmaxSpec
  rw [List.map_map, List.map_map]
  have hs : (p.map (Real.exp ∘ fun x => x + c)).sum = (p.map Real.exp).sum * Real.exp c := by
    rw [← List.sum_map_mul_right]
    congr 1
    apply List.map_congr_left
    intro x _
    simp [Real.exp_add]
  apply List.map_congr_left
  intro x _
  simp only [Function.comp_apply] at hs ⊢
  rw [hs, Real.exp_add, mul_div_mul_right _ _ (Real.exp_pos c).ne']

example : ([1, 2, 3] : List ℝ) ≠ [] := by simp

/-- **C24, overflow in float64**: with a score of 1000 (any `exp` that overflows there) the result contains NaN:
it is not a distribution. -/
theorem C24_violated_overflow (exp : F64 → F64) (h1 : exp (.fin 1000) = .inf false) (h0 : exp (.fin 0) = .fin 1) :
    softMax exp [.fin 1000, .fin 0] none = .ok [.nan, .fin 0] := by
  unfold softMax
  simp only [List.map_cons, List.map_nil, h1, h0]
  decide +kernel

/-! ### C32 -/

section norm
variable {K : Type} [Field K] [LinearOrder K] [IsStrictOrderedRing K] [FloorRing K]

theorem normalization_exact (p : List K) (hs : p.sum ≠ 0) :
    normalization (finV p) none = .ok (finV (p.map (· / p.sum))) := by
  unfold normalization
  have h1 : (finV p).foldl (fun s v => s +. v) (zero : Exact K) = .fin p.sum := by
    have : (zero : Exact K) = .fin 0 := by simp
    rw [this]
    have := foldl_add_fin p 0
    rw [zero_add] at this
    exact this
  simp only [Option.getD_none, List.length_map, lt_irrefl, if_false]
  rw [List.drop_of_length_le (by simp), List.append_nil, h1]
  congr 1
  unfold finV
  rw [List.map_map, List.map_map]
  apply List.map_congr_left
  intro x _
  exact Exact.div_fin _ _ hs

theorem sum_div (p : List K) (s : K) : (p.map (· / s)).sum = p.sum / s := by
  have : (fun x : K => x / s) = fun x => id x * s⁻¹ := by funext x; rw [div_eq_mul_inv]; rfl
  rw [this, List.sum_map_mul_right, List.map_id, div_eq_mul_inv]

/-- **C32**: `Normalization` of a vector with non-zero sum returns each entry divided by the sum; the result sums to
1, and normalizing again changes nothing. -/
theorem C32_normalization (p : List K) (hs : p.sum ≠ 0) :
    ∃ q : List K, normalization (finV p) none = .ok (finV q) ∧ q.length = p.length ∧ q.sum = 1 ∧
      (∃ k ≠ 0, p = q.map (k * ·)) ∧
      normalization (finV q) none = .ok (finV q) := by
  have h1 : (p.map (· / p.sum)).sum = 1 := by rw [sum_div, div_self hs]
  refine ⟨p.map (· / p.sum), normalization_exact p hs, by simp, h1, ⟨p.sum, hs, ?_⟩, ?_⟩
  · rw [List.map_map]
    conv_lhs => rw [← List.map_id p]
    apply List.map_congr_left
    intro x _
    simp [mul_div_cancel₀ _ hs]
  · rw [normalization_exact _ (by rw [h1]; exact one_ne_zero), h1]
    simp only [div_one, List.map_id']

/-- the buffer does not matter if it has the right length (any arithmetic) -/
theorem C32_buffer {F : Type} [GoFloat F] (p b : List F) (h : b.length = p.length) :
    normalization p (some b) = normalization p none := by
  unfold normalization
  simp [List.drop_of_length_le (Nat.le_of_eq h), h]

example : ([1, 2, 5] : List ℚ).sum ≠ 0 := by norm_num

end norm

/-! ### C31 -/

section loss
variable {K : Type} [Field K] [LinearOrder K] [IsStrictOrderedRing K] [FloorRing K]

theorem zipWith_fin (y p : List K) : List.zipWith (fun x y => x -. y) (finV y) (finV p) =
    finV (List.zipWith (· - ·) y p) := by
  induction y generalizing p with
  | nil => rfl
  | cons a y ih =>
    cases p with
    | nil => rfl
    | cons b p =>
      simp only [finV, List.map_cons, List.zipWith_cons_cons, Exact.sub_fin, List.cons.injEq, true_and]
      exact ih p

/-- the sum of the squared differences -/
def sqErr (y p : List K) : K := (List.zipWith (fun a b => (a - b) ^ 2) y p).sum

/-- **C31 (mean squared error)**: `Loss` of two non-empty vectors of the same length is the mean of the squared
differences (both `SQErrLoss` and `MSELoss`). -/
theorem C31_mse (y p : List K) (hl : y.length = p.length) (hne : y ≠ []) :
    (sqErrLoss : LossFunc (Exact K)).loss (finV y) (finV p) = .ok (.fin (sqErr y p / y.length)) ∧
    (mseLoss : LossFunc (Exact K)).loss (finV y) (finV p) = .ok (.fin (sqErr y p / y.length)) := by
  have hn : (y.length : K) ≠ 0 := by simpa using hne
  have key : mseLossVal (finV y) (finV p) = .ok (.fin (sqErr y p / y.length)) := by
    unfold mseLossVal subV
    rw [if_neg (by simp [finV, hl])]
    simp only [bind, Except.bind, pure, Except.pure]
    rw [zipWith_fin]
    have hsq : (finV (List.zipWith (· - ·) y p)).map (fun v => v *. v) =
        finV ((List.zipWith (fun a b => (a - b) ^ 2) y p)) := by
      unfold finV
      rw [List.map_map, ← List.map_zipWith (f := fun x : K => x ^ 2) (g := fun a b => a - b), List.map_map]
      apply List.map_congr_left
      intro x _
      simp [pow_two]
    rw [hsq]
    have hz : (zero : Exact K) = .fin 0 := by simp
    have hf := foldl_add_fin (List.zipWith (fun a b => (a - b) ^ 2) y p) (0 : K)
    rw [zero_add] at hf
    rw [hz]
    unfold finV
    rw [hf]
    congr 1
    rw [Exact.ofInt_fin, List.length_map, List.length_zipWith, ← hl, Nat.min_self]
    have e : (((y.length : Int) : Rat) : K) = (y.length : K) := by push_cast; rfl
    rw [e, Exact.div_fin _ _ hn]
    rfl
  exact ⟨key, key⟩

theorem zipWith_nonneg (y p : List K) :
    ∀ x ∈ List.zipWith (fun a b => (a - b) ^ 2) y p, 0 ≤ x := by
  induction y generalizing p with
  | nil => simp
  | cons a y ih =>
    cases p with
    | nil => simp
    | cons b p =>
      intro x hx
      rw [List.zipWith_cons_cons] at hx
      rcases List.mem_cons.1 hx with rfl | hx
      · exact sq_nonneg _
      · exact ih p x hx

/-- **C31 (sign)**: the loss is non-negative, and zero exactly when the vectors are equal. -/
theorem C31_zero_iff (y p : List K) (hl : y.length = p.length) (hne : y ≠ []) :
    ∃ v : K, (sqErrLoss : LossFunc (Exact K)).loss (finV y) (finV p) = .ok (.fin v) ∧ 0 ≤ v ∧ (v = 0 ↔ y = p) := by
  refine ⟨_, (C31_mse y p hl hne).1, ?_, ?_⟩
  · exact div_nonneg (List.sum_nonneg (zipWith_nonneg y p)) (Nat.cast_nonneg _)
  · have hn : (y.length : K) ≠ 0 := by simpa using hne
    rw [div_eq_zero_iff, or_iff_left hn]
    clear hn hne
    induction y generalizing p with
    | nil => cases p with
      | nil => simp [sqErr]
      | cons => simp at hl
    | cons a y ih =>
      cases p with
      | nil => simp at hl
      | cons b p =>
        have h0 : 0 ≤ sqErr y p := List.sum_nonneg (zipWith_nonneg y p)
        have ih : sqErr y p = 0 ↔ y = p := ih p (by simpa using hl)
        unfold sqErr at ih h0 ⊢
        rw [List.zipWith_cons_cons, List.sum_cons, List.cons.injEq, ← ih]
        constructor
        · intro h
          have h2 := sq_nonneg (a - b)
          have h3 : (a - b) ^ 2 = 0 := by linarith
          refine ⟨?_, by linarith⟩
          have := pow_eq_zero_iff (two_ne_zero) |>.1 h3
          linarith
        · rintro ⟨rfl, h⟩
          rw [h]; simp

/-- vectors of different lengths panic (gonum shape) -/
theorem C31_shape {F : Type} [GoFloat F] (y p : List F) (h : y.length ≠ p.length) :
    (sqErrLoss : LossFunc F).loss y p = .error .shape := by
  simp [sqErrLoss, mseLossVal, subV, h, bind, Except.bind]

theorem foldl_set_length {F : Type} (g : List F → Nat → F) (is : List Nat) (d : List F) :
    (is.foldl (fun d i => d.set i (g d i)) d).length = d.length := by
  induction is generalizing d with
  | nil => rfl
  | cons i is ih => rw [List.foldl_cons, ih, List.length_set]

/-- a loop that overwrites entry `i` with a function of `i` and of the entry itself -/
theorem foldl_set_map {F : Type} (g : Nat → Option F → F) (d : List F) (n : Nat) (hn : n ≤ d.length) :
    ∀ k, ((List.range n).foldl (fun (d : List F) i => d.set i (g i d[i]?)) d)[k]? =
      if k < n then some (g k d[k]?) else d[k]? := by
  induction n with
  | zero => intro k; simp
  | succ n ih =>
    intro k
    rw [List.range_succ, List.foldl_append, List.foldl_cons, List.foldl_nil]
    have ih := ih (by omega)
    have hlen := foldl_set_length (fun d i => g i d[i]?) (List.range n) d
    by_cases hk : k = n
    · subst hk
      rw [List.getElem?_set_self (by rw [hlen]; omega), ih k, if_neg (by omega), if_pos (by omega)]
    · rw [List.getElem?_set_ne (Ne.symm hk), ih k]
      by_cases h1 : k < n
      · rw [if_pos h1, if_pos (by omega)]
      · rw [if_neg h1, if_neg (by omega)]

/-- **C31 (scratch)**: the scratch matrix given to `Loss` (nil or of the shape of the vectors) does not influence the
result. Any arithmetic. -/
theorem C31_scratch {F : Type} [GoFloat F] (scratch : Option (List F)) (y p : List F)
    (h : ∀ s, scratch = some s → s.length = y.length) : lossInto scratch y p = mseLossVal y p := by
  unfold lossInto mseLossVal subInto subV
  have hs : (scratch.getD (y.map fun _ => zero)).length = y.length := by
    cases scratch with
    | none => simp
    | some s => exact h s rfl
  by_cases hl : y.length = p.length
  · rw [if_neg (by rw [not_or]; exact ⟨fun h => h hl, fun h => h hs⟩), if_neg (by simp [hl])]
    have e1 : (List.range y.length).foldl (fun d i => d.set i (y.getD i zero -. p.getD i zero))
        (scratch.getD (y.map fun _ => zero)) = List.zipWith (fun x y => x -. y) y p := by
      apply List.ext_getElem?
      intro k
      rw [foldl_set_map (fun i _ => y.getD i zero -. p.getD i zero) _ _ (by omega) k]
      by_cases hk : k < y.length
      · rw [if_pos hk, List.getElem?_zipWith, List.getElem?_eq_getElem hk, List.getElem?_eq_getElem (hl ▸ hk)]
        simp [hk, hl ▸ hk]
      · rw [if_neg hk, List.getElem?_eq_none (by omega), List.getElem?_eq_none (by simp; omega)]
    have e2 : ∀ m : List F, squareInPlace m = m.map fun v => v *. v := by
      intro m
      apply List.ext_getElem?
      intro k
      unfold squareInPlace
      have := foldl_set_map (fun _ o => (o.getD zero) *. (o.getD (zero : F))) m m.length le_rfl k
      simp only [← List.getD_eq_getElem?_getD] at this
      rw [this]
      by_cases hk : k < m.length
      · rw [if_pos hk]; simp [hk]
      · rw [if_neg hk, List.getElem?_eq_none (by omega), List.getElem?_eq_none (by simp; omega)]
    simp only [e1, e2, bind, Except.bind]
  · rw [if_pos (Or.inl hl), if_pos hl]
    rfl

example : ([1, 0, 1] : List ℚ).length = ([1/2, 1/3, 1] : List ℚ).length ∧ ([1, 0, 1] : List ℚ) ≠ [] := by simp

end loss

/-! ### C30 -/

theorem sqErr_set (y p : List ℝ) (hl : y.length = p.length) (i : Nat) (hi : i < p.length) (t : ℝ) :
    sqErr y (p.set i t) = sqErr y p - (y[i] - p[i]) ^ 2 + (y[i] - t) ^ 2 := by
  unfold sqErr
  induction y generalizing p i with
  | nil => simp at hl; omega
  | cons a y ih =>
    cases p with
    | nil => simp at hi
    | cons b p =>
      cases i with
      | zero =>
        simp only [List.set_cons_zero, List.zipWith_cons_cons, List.sum_cons, List.getElem_cons_zero]
        ring
      | succ i =>
        simp only [List.set_cons_succ, List.zipWith_cons_cons, List.sum_cons, List.getElem_cons_succ]
        rw [ih p (by simpa using hl) i (by simpa using hi)]
        ring

theorem grad_fin (y p : List ℝ) (hl : y.length = p.length) :
    grad (finV y) (finV p) = .ok (finV (List.zipWith (fun a b => b - a) y p)) ∧
    negGrad (finV y) (finV p) = .ok (finV (List.zipWith (fun a b => a - b) y p)) := by
  have hneg : negGrad (finV y) (finV p) = .ok (finV (List.zipWith (fun a b => a - b) y p)) := by
    unfold negGrad subV
    rw [if_neg (by simp [finV, hl]), zipWith_fin]
  refine ⟨?_, hneg⟩
  unfold grad
  rw [hneg]
  simp only [bind, Except.bind, pure, Except.pure]
  congr 1
  unfold finV
  rw [List.map_map]
  have : List.zipWith (fun a b : ℝ => b - a) y p = (List.zipWith (fun a b => a - b) y p).map (fun x => -x) := by
    rw [List.map_zipWith]; congr 1; funext a b; ring
  rw [this, List.map_map]
  apply List.map_congr_left
  intro x _
  simp

/-- **C30 (gradient)**: the i-th entry of `Gradients` (for both losses) is the partial derivative with respect to
the i-th prediction of half the total squared error; `NegGradients` returns its negative. -/
theorem C30_gradient (y p : List ℝ) (hl : y.length = p.length) :
    ∃ g : List ℝ, (sqErrLoss : LossFunc (Exact ℝ)).gradients (finV y) (finV p) = .ok (finV g) ∧
      (mseLoss : LossFunc (Exact ℝ)).gradients (finV y) (finV p) = .ok (finV g) ∧
      (sqErrLoss : LossFunc (Exact ℝ)).negGradients (finV y) (finV p) = .ok (finV (g.map fun x => -x)) ∧
      (mseLoss : LossFunc (Exact ℝ)).negGradients (finV y) (finV p) = .ok (finV (g.map fun x => -x)) ∧
      g.length = p.length ∧
      ∀ i, ∀ hi : i < p.length, ∃ gi, g[i]? = some gi ∧
        HasDerivAt (fun t => sqErr y (p.set i t) / 2) gi p[i] := by
  obtain ⟨h1, h2⟩ := grad_fin y p hl
  have h2' : negGrad (finV y) (finV p) =
      .ok (finV ((List.zipWith (fun a b => b - a) y p).map fun x => -x)) := by
    rw [h2, List.map_zipWith]
    congr 3
    funext a b; ring
  refine ⟨_, h1, h1, h2', h2', by simp [hl], ?_⟩
  intro i hi
  refine ⟨p[i] - y[i], ?_, ?_⟩
  · rw [List.getElem?_zipWith, List.getElem?_eq_getElem (hl ▸ hi), List.getElem?_eq_getElem hi]
  · have e : (fun t => sqErr y (p.set i t) / 2) =
        fun t => (sqErr y p - (y[i] - p[i]) ^ 2) / 2 + (t - y[i]) ^ 2 / 2 := by
      funext t
      rw [sqErr_set y p hl i hi]; ring
    rw [e]
    have h := (((hasDerivAt_id p[i]).sub_const y[i]).pow 2).div_const 2
    have h' := h.const_add ((sqErr y p - (y[i] - p[i]) ^ 2) / 2)
    refine h'.congr_deriv ?_
    simp

/-- **C30 (Hessian)**: for `SQErrLoss` the i-th entry of `Hessian` is the second derivative with respect to the
i-th prediction, i.e. the derivative of the i-th entry of `Gradients`. -/
theorem C30_hessian (y p : List ℝ) (hl : y.length = p.length) (i : Nat) (hi : i < p.length) :
    ∃ h : ℝ, ((sqErrLoss : LossFunc (Exact ℝ)).hessian (finV p))[i]? = some (.fin h) ∧
      ∃ g : ℝ → ℝ, (∀ t, ∃ gv : List ℝ,
          (sqErrLoss : LossFunc (Exact ℝ)).gradients (finV y) (finV (p.set i t)) = .ok (finV gv) ∧
          gv[i]? = some (g t)) ∧
        HasDerivAt g h p[i] := by
  refine ⟨1, ?_, fun t => t - y[i], ?_, ?_⟩
  · simp [sqErrLoss, finV, hi]
  · intro t
    refine ⟨_, (grad_fin y (p.set i t) (by simpa using hl)).1, ?_⟩
    rw [List.getElem?_zipWith, List.getElem?_eq_getElem (hl ▸ hi), List.getElem?_set_self hi]
  · exact (hasDerivAt_id _).sub_const _

/-- **C30 (MSELoss)**: the i-th entry of the Hessian is `p_i (1 - p_i)`, positive for `0 < p_i < 1`. -/
theorem C30_mse_hessian (p : List ℝ) : ∃ h : List ℝ,
    (mseLoss : LossFunc (Exact ℝ)).hessian (finV p) = finV h ∧
      h = p.map (fun x => x * (1 - x)) ∧ ((∀ x ∈ p, 0 < x ∧ x < 1) → ∀ x ∈ h, 0 < x) := by
  refine ⟨p.map (fun x => x * (1 - x)), ?_, rfl, ?_⟩
  · simp only [mseLoss, finV, List.map_map]
    apply List.map_congr_left
    intro x _
    simp
    ring
  · intro h x hx
    obtain ⟨y, hy, rfl⟩ := List.mem_map.1 hx
    obtain ⟨h1, h2⟩ := h y hy
    exact mul_pos h1 (by linarith)

example : ([1, 0] : List ℝ).length = ([1/2, 1/3] : List ℝ).length := rfl

/-! ### C64 -/

/-- `math.Log` in exact real arithmetic -/
noncomputable def logR : Exact ℝ → Exact ℝ
  | .nan => .nan
  | .inf true => .nan
  | .inf false => .inf false
  | .fin x => if x < 0 then .nan else if x = 0 then .inf true else .fin (Real.log x)

theorem logOdds_entry {F : Type} [GoFloat F] (log : F → F) (m : Dense F) (h : m.WF) (i j : Nat) (hi : i < m.r)
    (hj : j < m.c) : (logOddsFromProbs log m).at? i j =
      (m.at? i j).map fun v => log (v *. (GoFloat.sum (m.row i) -. v)) := by
  have key : ∀ k, k ≤ m.r → ((List.range k).flatMap fun i =>
      (m.row i).map fun v => log (v *. (GoFloat.sum (m.row i) -. v))).length = k * m.c ∧
      ∀ i j, i < k → j < m.c → ((List.range k).flatMap fun i =>
      (m.row i).map fun v => log (v *. (GoFloat.sum (m.row i) -. v)))[i * m.c + j]? =
        (m.at? i j).map fun v => log (v *. (GoFloat.sum (m.row i) -. v)) := by
    intro k
    induction k with
    | zero => intro _; simp
    | succ k ih =>
      intro hk
      obtain ⟨ih1, ih2⟩ := ih (by omega)
      rw [List.range_succ, List.flatMap_append]
      simp only [List.flatMap_cons, List.flatMap_nil, List.append_nil]
      refine ⟨?_, ?_⟩
      · rw [List.length_append, ih1, List.length_map, Dense.row_length h (by omega)]; ring
      · intro i j hi hj
        by_cases hik : i = k
        · subst hik
          rw [List.getElem?_append_right (by omega), ih1, Nat.add_sub_cancel_left, List.getElem?_map,
            Dense.row_get (by omega) hj]
        · rw [List.getElem?_append_left (by rw [ih1]; exact cell_lt (by omega) hj)]
          exact ih2 i j (by omega) hj
  rw [Dense.at?_eq (D := logOddsFromProbs log m) hi hj]
  exact (key m.r le_rfl).2 i j hi hj

/-- **C64, partial**: what `LogOddsFromProbs` computes is log(p·(s−p)) with s the row sum, not log(p/(s−p)). Any
arithmetic. -/
theorem C64_computes_partial {F : Type} [GoFloat F] (log : F → F) (m : Dense F)
    (h : m.data.length = m.r * m.c) (i j : Nat) (hi : i < m.r) (hj : j < m.c) (v : F) (hv : m.at? i j = some v) :
    (logOddsFromProbs log m).at? i j = some (log (v *. (GoFloat.sum (m.row i) -. v))) := by
  rw [logOdds_entry log m h i j hi hj, hv]; rfl

/-- **C64 is violated**: for the row (1/2, 1/2) the log odds are log 1 = 0, but the entry is log (1/4). -/
theorem C64_violated : (logOddsFromProbs logR (⟨1, 2, [.fin (1/2), .fin (1/2)]⟩ : Dense (Exact ℝ))).at? 0 0 =
      some (.fin (Real.log (1/4))) ∧
    Real.log ((1/2) / (((1/2 : ℝ) + 1/2) - 1/2)) = 0 ∧ Real.log (1/4) ≠ 0 := by
  refine ⟨?_, ?_, ?_⟩
  · rw [C64_computes_partial logR _ (by rfl) 0 0 (by simp) (by simp) (.fin (1/2)) (by rfl)]
    have hs : GoFloat.sum ((⟨1, 2, [.fin (1/2), .fin (1/2)]⟩ : Dense (Exact ℝ)).row 0) = (.fin 1 : Exact ℝ) := by
      have := Exact.sum_fin ([1/2, 1/2] : List ℝ)
      simp only [List.map_cons, List.map_nil] at this
      show GoFloat.sum [(.fin (1/2) : Exact ℝ), .fin (1/2)] = _
      rw [this]; norm_num
    rw [hs, Exact.sub_fin, Exact.mul_fin]
    unfold logR
    norm_num
  · norm_num
  · apply ne_of_lt
    exact Real.log_neg (by norm_num) (by norm_num)

end Boo
