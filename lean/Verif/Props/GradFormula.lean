import Verif.Props.Grad

/-!
# C61: the update of a parameter, from the accuracies at the two points
-/

namespace Boo
open GoFloat Spec
set_option linter.unusedSectionVars false
variable {K : Type} [Field K] [LinearOrder K] [IsStrictOrderedRing K] [FloorRing K]

/-- the float parameters that a gradient step tunes: how to read and how to write them, and their range -/
inductive Tuned {F : Type} : Param → (Options F → F) → (F → Options F → Options F) → (GridOptions F → Range3 F) → Prop
  | gamma : Tuned .gamma (·.gamma) (fun v o => { o with gamma := v }) (·.gamma)
  | lambda : Tuned .lambda (·.lambda) (fun v o => { o with lambda := v }) (·.lambda)
  | subSample : Tuned .subSample (·.subSample) (fun v o => { o with subSample := v }) (·.subSample)
  | colSubSample : Tuned .colSubSample (·.colSubSample) (fun v o => { o with colSubSample := v }) (·.colSubSample)
  | learningRate : Tuned .learningRate (·.learningRate) (fun v o => { o with learningRate := v }) (·.learningRate)

/-- the loop over shrinking steps: the first accepted of the tries with steps `s·0.8^k, …, s·0.8^10`, or nothing -/
theorem stepLoop_spec (co : GridOptions (Exact K)) (s : K) (hs : 0 < s) (der : Exact K) (p : Param) (O : Options (Exact K))
    (hO : O.clone = O) (fuel k : Nat) (hk : k ≤ 11) (R : Options (Exact K))
    (h : stepLoop co (.fin s) der p O fuel (.fin (s * (8/10) ^ k)) O = some R) :
    (∃ j, k ≤ j ∧ j ≤ 10 ∧ R = tryStep co der (.fin (s * (8/10) ^ j)) O p ∧ checkAgainst R co = none ∧
      ∀ i, k ≤ i → i < j → checkAgainst (tryStep co der (.fin (s * (8/10) ^ i)) O p) co ≠ none) ∨
    (R = O ∧ ∀ i, k ≤ i → i ≤ 10 → checkAgainst (tryStep co der (.fin (s * (8/10) ^ i)) O p) co ≠ none) := by
  induction fuel generalizing k with
  | zero => simp [stepLoop] at h
  | succ fuel ih =>
    have hgt : gt (.fin (s * (8/10) ^ k) : Exact K) (ofRat (1/10) *. .fin s) = decide (k ≤ 10) := by
      rw [Exact.ofRat_fin, Exact.mul_fin]
      unfold gt
      rw [XF.fin_lt, decide_eq_decide]
      push_cast
      have e : (1 / 10 * s < s * (8 / 10) ^ k) ↔ ((1 : K) / 10 < (8 / 10) ^ k) := by
        rw [mul_comm]
        exact mul_lt_mul_iff_right₀ hs
      rw [e]
      constructor
      · intro h1
        by_contra h2
        have h3 : ((8 : K) / 10) ^ k ≤ (8 / 10) ^ 11 :=
          pow_le_pow_of_le_one (by norm_num) (by norm_num) (by omega)
        have h4 : ((8 : K) / 10) ^ 11 < 1 / 10 := by norm_num
        exact absurd (h1.trans_le h3) (not_lt.2 h4.le)
      · intro h1
        have h3 : ((8 : K) / 10) ^ 10 ≤ (8 / 10) ^ k :=
          pow_le_pow_of_le_one (by norm_num) (by norm_num) h1
        have h4 : (1 : K) / 10 < (8 / 10) ^ 10 := by norm_num
        exact h4.trans_le h3
    unfold stepLoop at h
    rw [hgt] at h
    by_cases hk' : k ≤ 10
    · simp only [hk', decide_true, if_true] at h
      split at h
      · rename_i hc
        obtain rfl := Option.some.inj h
        exact Or.inl ⟨k, le_rfl, hk', rfl, hc, by omega⟩
      · rename_i hc
        have hst : (.fin (s * (8/10) ^ k) -. .fin (s * (8/10) ^ k) *. ofRat (2/10) : Exact K) = .fin (s * (8/10) ^ (k + 1)) := by
          rw [Exact.ofRat_fin, Exact.mul_fin, Exact.sub_fin]
          congr 1
          push_cast
          ring
        rw [hst, hO] at h
        have hext : ∀ i, k ≤ i → i < k + 1 → checkAgainst (tryStep co der (.fin (s * (8/10) ^ i)) O p) co ≠ none := by
          intro i h1 h2
          have : i = k := by omega
          rw [this]
          exact hc
        rcases ih (k + 1) (by omega) h with ⟨j, h1, h2, h3, h4, h5⟩ | ⟨h1, h2⟩
        · refine Or.inl ⟨j, by omega, h2, h3, h4, fun i a1 a2 => ?_⟩
          by_cases hik : i < k + 1
          · exact hext i a1 hik
          · exact h5 i (by omega) a2
        · refine Or.inr ⟨h1, fun i a1 a2 => ?_⟩
          by_cases hik : i < k + 1
          · exact hext i a1 hik
          · exact h2 i (by omega) a2
    · simp only [hk', decide_false, Bool.false_eq_true, if_false] at h
      obtain rfl := Option.some.inj h
      exact Or.inr ⟨rfl, by omega⟩

/-- what a gradient step uses as the derivative: with central differences `(a-b)/(2h)·h²`, otherwise `(a-c)/h` -/
noncomputable def slope (central : Bool) (a b c h : K) : K := if central then (a - b) / (2 * h) * h ^ 2 else (a - c) / h

theorem clone_clone {F : Type} [GoFloat F] (O : Options F) : O.clone.clone = O.clone := rfl

theorem derivative_slope (central : Bool) (a b c h : K) (hh : central = false → h ≠ 0) :
    derivative central (.fin a : Exact K) (.fin b) (.fin c) (.fin h) = .fin (slope central a b c h) := by
  unfold derivative slope
  cases central
  · simp only [Bool.false_eq_true, if_false]
    rw [Exact.sub_fin, Exact.div_fin _ _ (hh rfl)]
  · simp only [if_true]
    rw [Exact.sub_fin, Exact.ofRat_fin, Exact.div_fin _ _ (by norm_num), Exact.mul_fin]
    congr 1
    push_cast
    by_cases h0 : h = 0
    · simp [h0]
    · field_simp

/-- `acts` ends with sending the first of the tries `val 0, …, val 10` that is within the box, or `O` if there is none -/
def FirstInBox {F : Type} [GoFloat F] (co : GridOptions F) (O : Options F) (val : Nat → Options F) (acts : List (PAct F)) : Prop :=
  ∃ first N, acts = [.mutate first, .send N] ∧
    ((∃ j ≤ 10, N = val j ∧ checkAgainst N co = none ∧ ∀ i < j, checkAgainst (val i) co ≠ none) ∨
      (N = O ∧ ∀ i ≤ 10, checkAgainst (val i) co ≠ none))

theorem paramActs_core (fuel : Nat) (E : GradEnv (Exact K)) (O : Options (Exact K)) (p : Param) (hO : O.clone = O)
    (x δ s a b c : K) (P M : Options (Exact K))
    (hcur : currentValue O p = .fin x) (hfd : E.fd = .fin δ) (hst : E.step = .fin s) (hs : 0 < s)
    (hpl : plusOpt (.fin δ) O p = P) (hmi : minusOpt (.fin δ) O p = M)
    (hplus : E.plus p P = ⟨false, .fin a⟩) (hminus : E.minus p M = ⟨false, .fin b⟩)
    (hcheck : E.central = true → M.check = none) (hh : E.central = false → 0 < δ * x)
    (acts : List (PAct (Exact K))) (h : paramActs fuel E (.fin c) p O = some acts) :
    FirstInBox E.co O (fun j => tryStep E.co (.fin (slope E.central a b c (δ * x))) (.fin (s * (8/10) ^ j)) O p) acts := by
  have hder := derivative_slope E.central a b c (δ * x) fun hc => (hh hc).ne'
  unfold paramActs at h
  simp only [hO, hfd, hpl, hmi, hplus, hminus, hcur, Exact.mul_fin, hder, hst] at h
  have h1 : (if E.central = true ∧ M.check ≠ none then [PAct.send O] else []) = [] := by
    rw [if_neg]
    rintro ⟨h1, h2⟩
    exact h2 (hcheck h1)
  have h2 : ¬ (E.central = false ∧ ((.fin (δ * x) : Exact K) <. zero) = true) := by
    rintro ⟨h1, h2⟩
    rw [Exact.zero_fin, XF.fin_lt] at h2
    have := hh h1
    simp only [Rat.cast_zero, decide_eq_true_eq] at h2
    exact absurd h2 (not_lt.2 this.le)
  rw [h1, if_neg h2] at h
  simp only [Bool.false_eq_true, if_false, and_false, List.append_nil, List.nil_append] at h
  have hgt : gt (.fin s : Exact K) (ofRat (1/10) *. .fin s) = true := by
    rw [Exact.ofRat_fin, Exact.mul_fin]
    unfold gt
    rw [XF.fin_lt, decide_eq_true_eq]
    push_cast
    linarith
  rw [hgt] at h
  simp only [if_true, Option.map_eq_some_iff] at h
  obtain ⟨R, hR, rfl⟩ := h
  have hR' := stepLoop_spec E.co s hs _ p O hO fuel 0 (by omega) R (by simpa using hR)
  refine ⟨_, _, rfl, ?_⟩
  rcases hR' with ⟨j, _, h3, h4, h5, h6⟩ | ⟨h3, h4⟩
  · left
    rw [if_pos h5]
    exact ⟨j, h3, h4, h5, fun i hi => h6 i (by omega) hi⟩
  · right
    refine ⟨?_, fun i hi => h4 i (by omega) hi⟩
    rw [h3]
    split <;> rfl

/-- **C61 (the update, partial)**: the two cross-validations are made with the parameter at `x + h` and `x - h`, where
`h = DeltaFraction·x`, and everything else as in the options. With their accuracies `a` and `b` (and `c` for the options themselves) the
parameter moves to `x + slope·step·Step·0.8^j`, with the first `j ≤ 10` for which the options are within the box, and stays if there
is none. Missing: with central differences the slope is not the difference quotient, see `C61_violated`. -/
theorem C61_update_partial (fuel : Nat) (E : GradEnv (Exact K)) (Op : Options (Exact K)) (p : Param) (get : Options (Exact K) → Exact K)
    (set : Exact K → Options (Exact K) → Options (Exact K)) (rng : GridOptions (Exact K) → Range3 (Exact K)) (hT : Tuned p get set rng)
    (x δ s q a b c : K) (hx : get Op = .fin x) (hfd : E.fd = .fin δ) (hst : E.step = .fin s) (hs : 0 < s) (hq : (rng E.co).step = .fin q)
    (hplus : E.plus p (set (.fin (x + δ * x)) Op.clone) = ⟨false, .fin a⟩)
    (hminus : E.minus p (set (.fin (x - δ * x)) Op.clone) = ⟨false, .fin b⟩)
    (hcheck : E.central = true → (set (.fin (x - δ * x)) Op.clone).check = none)
    (hh : E.central = false → 0 < δ * x)
    (acts : List (PAct (Exact K))) (h : paramActs fuel E (.fin c) p Op.clone = some acts) :
    FirstInBox E.co Op.clone
      (fun j => set (.fin (x + slope E.central a b c (δ * x) * q * (s * (8/10) ^ j))) Op.clone) acts := by
  have hcur : currentValue Op.clone p = .fin x := by cases hT <;> exact hx
  have hpl : plusOpt (.fin δ) Op.clone p = set (.fin (x + δ * x)) Op.clone := by
    have e : (.fin x +. .fin x *. .fin δ : Exact K) = .fin (x + δ * x) := by rw [Exact.mul_fin, Exact.add_fin, mul_comm]
    rw [← e, ← hx]
    cases hT <;> rfl
  have hmi : minusOpt (.fin δ) Op.clone p = set (.fin (x - δ * x)) Op.clone := by
    have e : (.fin x -. .fin x *. .fin δ : Exact K) = .fin (x - δ * x) := by rw [Exact.mul_fin, Exact.sub_fin, mul_comm]
    rw [← e, ← hx]
    cases hT <;> rfl
  have htry : ∀ d st : K, tryStep E.co (.fin d) (.fin st) Op.clone p = set (.fin (x + d * q * st)) Op.clone := by
    intro d st
    have e : (.fin x +. .fin d *. .fin q *. .fin st : Exact K) = .fin (x + d * q * st) := by
      rw [Exact.mul_fin, Exact.mul_fin, Exact.add_fin]
    rw [← e, ← hx, ← hq]
    cases hT <;> rfl
  have := paramActs_core fuel E Op.clone p rfl x δ s a b c _ _ hcur hfd hst hs hpl hmi hplus hminus hcheck hh acts h
  simpa only [htry] using this

/-- what `int(x)` is in Go: truncation towards zero, and on amd64 `-2^63` if that is no int64 -/
def towardsZero (x : K) : Int :=
  let n := if 0 ≤ x then ⌊x⌋ else ⌈x⌉
  if n < 2 ^ 63 then max n (-2 ^ 63) else -2 ^ 63

/-- **C61 (the update of `Rounds`, partial)**: the same for the number of rounds, with every change truncated to an integer. -/
theorem C61_update_rounds_partial (fuel : Nat) (E : GradEnv (Exact K)) (Op : Options (Exact K))
    (δ s a b c : K) (hfd : E.fd = .fin δ) (hst : E.step = .fin s) (hs : 0 < s)
    (hplus : E.plus .rounds { Op.clone with rounds := Op.rounds + towardsZero ((Op.rounds : K) * δ) } = ⟨false, .fin a⟩)
    (hminus : E.minus .rounds { Op.clone with rounds := Op.rounds - towardsZero ((Op.rounds : K) * δ) } = ⟨false, .fin b⟩)
    (hcheck : E.central = true → ({ Op.clone with rounds := Op.rounds - towardsZero ((Op.rounds : K) * δ) } : Options (Exact K)).check = none)
    (hh : E.central = false → 0 < δ * (Op.rounds : K))
    (acts : List (PAct (Exact K))) (h : paramActs fuel E (.fin c) .rounds Op.clone = some acts) :
    FirstInBox E.co Op.clone
      (fun j => { Op.clone with
        rounds := Op.rounds + towardsZero (slope E.central a b c (δ * (Op.rounds : K)) * (E.co.rounds.step : K) * (s * (8/10) ^ j)) }) acts := by
  have e : (ofInt Op.rounds *. .fin δ : Exact K) = .fin ((Op.rounds : K) * δ) := by
    rw [Exact.ofInt_fin, Exact.mul_fin, Rat.cast_intCast]
  have hpl : plusOpt (.fin δ) Op.clone .rounds = { Op.clone with rounds := Op.rounds + towardsZero ((Op.rounds : K) * δ) } := by
    show { Op.clone with rounds := Op.rounds + toInt (ofInt Op.rounds *. .fin δ : Exact K) } = _
    rw [e]; rfl
  have hmi : minusOpt (.fin δ) Op.clone .rounds = { Op.clone with rounds := Op.rounds - towardsZero ((Op.rounds : K) * δ) } := by
    show { Op.clone with rounds := Op.rounds - toInt (ofInt Op.rounds *. .fin δ : Exact K) } = _
    rw [e]; rfl
  have htry : ∀ d st : K, tryStep E.co (.fin d) (.fin st) Op.clone .rounds =
      { Op.clone with rounds := Op.rounds + towardsZero (d * (E.co.rounds.step : K) * st) } := by
    intro d st
    show { Op.clone with rounds := Op.rounds + toInt (.fin d *. ofInt E.co.rounds.step *. .fin st : Exact K) } = _
    rw [Exact.ofInt_fin, Exact.mul_fin, Exact.mul_fin, Rat.cast_intCast]; rfl
  have hcur : currentValue Op.clone .rounds = (.fin (Op.rounds : K) : Exact K) := by
    show (ofInt Op.rounds : Exact K) = _
    rw [Exact.ofInt_fin, Rat.cast_intCast]
  have := paramActs_core fuel E Op.clone .rounds rfl _ δ s a b c _ _ hcur hfd hst hs hpl hmi hplus hminus hcheck hh acts h
  simpa only [htry] using this

/-- a step from the default options in the default box, where the accuracy falls with the learning rate and rises with the
number of rounds -/
def risingEnv (central : Bool) : GradEnv (Exact ℚ) :=
  { co := defaultXGridOptions, step := .fin (1/10), fd := .fin (1/10), central := central
    plus := fun p _ => ⟨false, if p = .rounds then .fin 60 else .fin 50⟩
    minus := fun p _ => ⟨false, if p = .rounds then .fin 50 else .fin 60⟩ }

example (central : Bool) : ∃ acts, paramActs 12 (risingEnv central) (.fin 55) .learningRate (defaultXOptions 0).clone = some acts ∧
    FirstInBox (risingEnv central).co (defaultXOptions 0).clone
      (fun j => { (defaultXOptions 0).clone with
        learningRate := .fin (3/10 + slope central 50 60 55 (1/10 * (3/10)) * (15/100) * (1/10 * (8/10) ^ j)) }) acts := by
  have hs : (paramActs 12 (risingEnv central) (.fin 55) .learningRate (defaultXOptions 0).clone).isSome = true := by
    cases central <;> decide +kernel
  obtain ⟨acts, ha⟩ := Option.isSome_iff_exists.1 hs
  refine ⟨acts, ha, ?_⟩
  exact C61_update_partial 12 (risingEnv central) (defaultXOptions 0) .learningRate _ _ _ .learningRate (3/10) (1/10) (1/10) (15/100) 50 60 55
    (by decide +kernel) rfl rfl (by norm_num) (by show (defaultXGridOptions : GridOptions (Exact ℚ)).learningRate.step = _; decide +kernel) rfl rfl
    (by intro _; decide +kernel) (by intro _; norm_num) acts ha

example (central : Bool) : ∃ acts, paramActs 12 (risingEnv central) (.fin 55) .rounds (defaultXOptions 0).clone = some acts ∧
    FirstInBox (risingEnv central).co (defaultXOptions 0).clone
      (fun j => { (defaultXOptions 0).clone with
        rounds := 20 + towardsZero (slope central 60 50 55 (1/10 * ((20 : Int) : ℚ)) * ((100 : Int) : ℚ) * (1/10 * (8/10) ^ j)) }) acts := by
  have hs : (paramActs 12 (risingEnv central) (.fin 55) .rounds (defaultXOptions 0).clone).isSome = true := by
    cases central <;> decide +kernel
  obtain ⟨acts, ha⟩ := Option.isSome_iff_exists.1 hs
  refine ⟨acts, ha, ?_⟩
  exact C61_update_rounds_partial 12 (risingEnv central) (defaultXOptions 0) (1/10) (1/10) 60 50 55
    rfl rfl (by norm_num) rfl rfl (by intro _; decide +kernel)
    (by intro _; show (0 : ℚ) < 1/10 * ((20 : Int) : ℚ); norm_num) acts ha

end Boo
