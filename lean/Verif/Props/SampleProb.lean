import Verif.Props.Predict
import Verif.Props.Train
import Mathlib.Data.Nat.Choose.Sum
import Verif.Lemmas.B64Err
import Mathlib.Probability.Independence.InfinitePi
import Mathlib.Probability.BorelCantelli

/-!
# C110: SubSample picks every row independently with the requested probability

The draws of `rand.Float64` are random variables on any probability space `(Ω, P)`. `chance` is the probability of picking
exactly the rows `l` when each of `n` rows is picked with probability `p`, independently of the others.
-/

namespace Boo
open GoFloat Spec MeasureTheory ProbabilityTheory

/-- the probability that exactly the rows `l` of `n` are picked -/
def chance (p : ℝ) (n : Nat) (l : List Nat) : ℝ := p ^ l.length * (1 - p) ^ (n - l.length)

/-- how many rows were picked -/
def picked (r : Go (List Nat)) : ℝ := match r with
  | .ok l => l.length
  | .error _ => 0

section
variable {Ω β : Type} [MeasurableSpace Ω] {P : Measure Ω} [IsProbabilityMeasure P] [MeasurableSpace β]

/-- independent choices of probability `p` each -/
theorem filter_prob {X : ℕ → Ω → β} (hX : ∀ i, Measurable (X i)) (hi : iIndepFun X P) {A : Set β} (hA : MeasurableSet A)
    [DecidablePred (· ∈ A)] {p : ℝ} (h0 : 0 ≤ p) (h1 : p ≤ 1) (hp : ∀ i, P (X i ⁻¹' A) = ENNReal.ofReal p) (n : Nat)
    (l : List Nat) (hl : l.Pairwise (· < ·)) (hn : ∀ i ∈ l, i < n) :
    P {ω | (List.range n).filter (fun i => decide (X i ω ∈ A)) = l} = ENNReal.ofReal (chance p n l) := by
  have hnd : l.Nodup := hl.imp (fun h => Nat.ne_of_lt h)
  have hset : {ω | (List.range n).filter (fun i => decide (X i ω ∈ A)) = l} =
      ⋂ i ∈ Finset.range n, X i ⁻¹' (if i ∈ l then A else Aᶜ) := by
    ext ω
    simp only [Set.mem_setOf_eq, Set.mem_iInter, Finset.mem_range, Set.mem_preimage]
    constructor
    · rintro rfl i hin
      by_cases h : X i ω ∈ A
      · rw [if_pos (by simp [hin, h])]; exact h
      · rw [if_neg (by simp [h])]; exact h
    · intro h
      refine List.Perm.eq_of_pairwise (le := (· < ·)) (fun a b _ _ h1 h2 => absurd h1 (Nat.lt_asymm h2))
        (List.Pairwise.filter _ List.pairwise_lt_range) hl ?_
      rw [List.perm_ext_iff_of_nodup (List.nodup_range.filter _) hnd]
      intro i
      rw [List.mem_filter, List.mem_range, decide_eq_true_iff]
      constructor
      · rintro ⟨h2, h3⟩
        by_contra h4
        have := h i h2
        rw [if_neg h4] at this
        exact this h3
      · intro h2
        have := h i (hn i h2)
        rw [if_pos h2] at this
        exact ⟨hn i h2, this⟩
  rw [hset, hi.measure_inter_preimage_eq_mul]
  · have hc : ∀ i, P (X i ⁻¹' Aᶜ) = ENNReal.ofReal (1 - p) := by
      intro i
      rw [Set.preimage_compl, prob_compl_eq_one_sub (hX i hA), hp, ENNReal.ofReal_sub _ h0, ENNReal.ofReal_one]
    have hf : ∀ i ∈ Finset.range n, P (X i ⁻¹' (if i ∈ l then A else Aᶜ)) =
        if i ∈ l then ENNReal.ofReal p else ENNReal.ofReal (1 - p) := by
      intro i _
      split
      · exact hp i
      · exact hc i
    rw [Finset.prod_congr rfl hf, Finset.prod_ite, Finset.prod_const, Finset.prod_const]
    have hcard : ((Finset.range n).filter (· ∈ l)).card = l.length := by
      have : (Finset.range n).filter (· ∈ l) = l.toFinset := by
        ext i
        simp only [Finset.mem_filter, Finset.mem_range, List.mem_toFinset]
        exact ⟨fun h => h.2, fun h => ⟨hn i h, h⟩⟩
      rw [this, List.toFinset_card_of_nodup hnd]
    have hcard' : ((Finset.range n).filter (¬ · ∈ l)).card = n - l.length := by
      have := Finset.card_filter_add_card_filter_not (s := Finset.range n) (· ∈ l)
      rw [hcard, Finset.card_range] at this
      omega
    rw [hcard, hcard', chance, ENNReal.ofReal_mul (pow_nonneg h0 _), ENNReal.ofReal_pow h0, ENNReal.ofReal_pow (by linarith)]
  · intro i _
    split
    · exact hA
    · exact hA.compl

theorem filter_mean {X : ℕ → Ω → β} (hX : ∀ i, Measurable (X i)) {A : Set β} (hA : MeasurableSet A)
    [DecidablePred (· ∈ A)] {p : ℝ} (h0 : 0 ≤ p) (hp : ∀ i, P (X i ⁻¹' A) = ENNReal.ofReal p) (n : Nat) :
    ∫ ω, (((List.range n).filter (fun i => decide (X i ω ∈ A))).length : ℝ) ∂P = n * p := by
  have hsum : ∀ ω, (((List.range n).filter (fun i => decide (X i ω ∈ A))).length : ℝ) =
      ∑ i ∈ Finset.range n, (X i ⁻¹' A).indicator (fun _ => (1 : ℝ)) ω := by
    intro ω
    induction n with
    | zero => simp
    | succ n ih =>
      rw [List.range_succ, List.filter_append, List.length_append, Finset.sum_range_succ, Nat.cast_add, ih]
      congr 1
      by_cases h : X n ω ∈ A
      · simp [h, Set.indicator]
      · simp [h, Set.indicator]
  simp only [hsum]
  rw [integral_finsetSum]
  · have : ∀ i ∈ Finset.range n, ∫ ω, (X i ⁻¹' A).indicator (fun _ => (1 : ℝ)) ω ∂P = p := by
      intro i _
      rw [integral_indicator_const _ (hX i hA), measureReal_def, hp, ENNReal.toReal_ofReal h0, smul_eq_mul, mul_one]
    rw [Finset.sum_congr rfl this]
    simp
  · intro i _
    exact (integrable_const (1 : ℝ)).indicator (hX i hA)
end

variable {Ω : Type} [MeasurableSpace Ω] {P : Measure Ω} [IsProbabilityMeasure P]

/-- **C110 (exact arithmetic)**: let the draws be independent and uniform on [0,1] and `0 ≤ s ≤ 1`. `SubSample(n, s)`
returns, picks exactly the rows `l` (any increasing list of row numbers) with probability `s^|l| (1-s)^(n-|l|)`: each row
with probability `s`, independently of the others; the mean number of rows is `n s`. -/
theorem C110_uniform (U : ℕ → Ω → ℝ) (hU : ∀ i, Measurable (U i)) (hi : iIndepFun U P)
    (hu : ∀ i, ∀ x : ℝ, 0 ≤ x → x ≤ 1 → P {ω | U i ω ≤ x} = ENNReal.ofReal x) (n : Nat) (hn : n < 2 ^ 63) (s : ℝ) (h0 : 0 ≤ s) (h1 : s ≤ 1) :
    (∀ ω, ∃ l, subSample n (.fin s : Exact ℝ) (fun i => .fin (U i ω)) = .ok l) ∧
    (∀ l : List Nat, l.Pairwise (· < ·) → (∀ i ∈ l, i < n) →
      P {ω | subSample n (.fin s : Exact ℝ) (fun i => .fin (U i ω)) = .ok l} = ENNReal.ofReal (chance s n l)) ∧
    ∫ ω, picked (subSample n (.fin s : Exact ℝ) (fun i => .fin (U i ω))) ∂P = n * s := by
  classical
  have heq : ∀ ω, subSample n (.fin s : Exact ℝ) (fun i => .fin (U i ω)) =
      .ok ((List.range n).filter (fun i => decide (U i ω ∈ Set.Iic s))) := by
    intro ω
    obtain ⟨l, hl⟩ := subSample_ok_exact n s h0 (lt_of_le_of_lt (mul_le_of_le_one_right (Nat.cast_nonneg n) h1) (by exact_mod_cast hn)) (fun i => (.fin (U i ω) : Exact ℝ))
    unfold subSample at hl ⊢
    split at hl
    · cases hl
    · rename_i hc
      rw [if_neg hc]
      congr 1
      refine List.filter_congr fun i _ => ?_
      show ((XF.fin (U i ω) : Exact ℝ) <=. XF.fin s) = _
      rw [XF.fin_le]
      simp
  have hp : ∀ i, P (U i ⁻¹' Set.Iic s) = ENNReal.ofReal s := fun i => hu i s h0 h1
  refine ⟨fun ω => ⟨_, heq ω⟩, fun l hl hn => ?_, ?_⟩
  · rw [← filter_prob hU hi measurableSet_Iic h0 h1 hp n l hl hn]
    congr 1
    ext ω
    simp only [Set.mem_setOf_eq, heq, Except.ok.injEq]
  · simp only [heq, picked]
    exact filter_mean hU measurableSet_Iic h0 hp n

/-- the `k` for which the value `k/2^53` of `rand.Float64` is at most `s` -/
def below53 (s : ℚ) : Set ℕ := {k | (k : ℚ) / 2 ^ 53 ≤ s ∧ k < 2 ^ 53}

theorem le_prob {K : Ω → ℕ} (hK : Measurable K) (hu : ∀ k < 2 ^ 53, P {ω | K ω = k} = ENNReal.ofReal (1 / 2 ^ 53))
    {s : ℚ} (h0 : 0 ≤ s) {m : ℕ} (hm : m = min (2 ^ 53) (⌊s * 2 ^ 53⌋₊ + 1)) :
    P (K ⁻¹' below53 s) = ENNReal.ofReal ((m : ℝ) / 2 ^ 53) := by
  have hset : below53 s = ↑(Finset.range m) := by
    ext k
    unfold below53
    simp only [Set.mem_setOf_eq, Finset.coe_range, Set.mem_Iio, hm, lt_min_iff]
    rw [div_le_iff₀ (by positivity), Nat.lt_succ_iff, Nat.le_floor_iff (by positivity)]
    exact and_comm
  rw [hset, ← Measure.map_apply hK (Finset.measurableSet _), ← sum_measure_singleton]
  have : ∀ k ∈ Finset.range m, (P.map K) {k} = ENNReal.ofReal (1 / 2 ^ 53) := by
    intro k hk
    rw [Finset.mem_range, hm, lt_min_iff] at hk
    rw [Measure.map_apply hK (measurableSet_singleton k), ← hu k hk.1]
    rfl
  rw [Finset.sum_congr rfl this, Finset.sum_const, Finset.card_range, nsmul_eq_mul, ← ENNReal.ofReal_natCast,
    ← ENNReal.ofReal_mul (by positivity)]
  congr 1
  ring

/-- **C110 (the program)**: let the draws be what `rand.Float64` returns, `k/2^53` with `k` independent and uniform among
`0, …, 2^53-1`. For every `s` of [0,1] there is a probability `p`, which differs from `s` by at most `2^-53`, such that
`SubSample(n, s)` picks each row with probability `p`, independently of the others. -/
theorem C110_binary64 (K : ℕ → Ω → ℕ) (hK : ∀ i, Measurable (K i)) (hi : iIndepFun K P) (hb : ∀ i ω, K i ω < 2 ^ 53)
    (hu : ∀ i, ∀ k < 2 ^ 53, P {ω | K i ω = k} = ENNReal.ofReal (1 / 2 ^ 53)) (n : Nat) (hn : n < 2 ^ 53) (s : ℚ)
    (h0 : 0 ≤ s) (h1 : s ≤ 1) :
    ∃ p : ℝ, 0 ≤ p ∧ p ≤ 1 ∧ |p - s| ≤ 1 / 2 ^ 53 ∧
      (∀ ω, ∃ l, subSample n (.fin s : F64) (fun i => .fin ((K i ω : ℚ) / 2 ^ 53)) = .ok l) ∧
      (∀ l : List Nat, l.Pairwise (· < ·) → (∀ i ∈ l, i < n) →
        P {ω | subSample n (.fin s : F64) (fun i => .fin ((K i ω : ℚ) / 2 ^ 53)) = .ok l} = ENNReal.ofReal (chance p n l)) ∧
      ∫ ω, picked (subSample n (.fin s : F64) (fun i => .fin ((K i ω : ℚ) / 2 ^ 53))) ∂P = n * p := by
  classical
  have hnz : |(n : ℤ)| < 2 ^ 53 := by rw [abs_of_nonneg (by positivity)]; exact_mod_cast hn
  have hcap : ¬ (toInt ((ofInt n : F64) *. .fin s) + 1 < 0) := by
    rw [ofInt64 hnz, mul64]
    · have := rv_nonneg (x := (((n : ℤ) : ℚ)) * s) (by positivity)
      have hle : rv ((((n : ℤ) : ℚ)) * s) ≤ ((n : ℤ) : ℚ) :=
        (rv_mono (mul_le_of_le_one_right (by positivity) h1)).trans_eq (rv_int hnz)
      have hlt : ((n : ℤ) : ℚ) < 2 ^ 63 := by exact_mod_cast hn.trans (by norm_num)
      rw [XF.toInt_floor this (hle.trans_lt hlt)]
      have := Int.floor_nonneg.2 this
      omega
    · rw [abs_of_nonneg (by positivity)]
      have h2 : (2 : ℚ) ^ (53 : ℤ) ≤ big64 := by
        rw [big64_def]; exact zpow_le_zpow_right₀ (by norm_num) (by norm_num)
      have h3 : ((n : ℤ) : ℚ) ≤ 2 ^ (53 : ℤ) := by exact_mod_cast hn.le
      calc ((n : ℤ) : ℚ) * s ≤ ((n : ℤ) : ℚ) * 1 := mul_le_mul_of_nonneg_left h1 (by positivity)
        _ ≤ big64 := by rw [mul_one]; exact h3.trans h2
  have heq : ∀ ω, subSample n (.fin s : F64) (fun i => .fin ((K i ω : ℚ) / 2 ^ 53)) =
      .ok ((List.range n).filter (fun i => decide (K i ω ∈ below53 s))) := by
    intro ω
    unfold subSample
    rw [if_neg hcap]
    congr 1
    refine List.filter_congr fun i _ => ?_
    show ((XF.fin ((K i ω : ℚ) / 2 ^ 53) : F64) <=. XF.fin s) = _
    rw [XF.fin_le, decide_eq_decide]
    exact ⟨fun h => ⟨h, hb i ω⟩, And.left⟩
  obtain ⟨m, hm⟩ : ∃ m : ℕ, m = min (2 ^ 53) (⌊s * 2 ^ 53⌋₊ + 1) := ⟨_, rfl⟩
  have hp := fun i => le_prob (hK i) (hu i) h0 hm
  have hA : MeasurableSet (below53 s) := MeasurableSet.of_discrete
  have m1 : m ≤ 2 ^ 53 := hm ▸ min_le_left _ _
  have m2 : (m : ℚ) ≤ s * 2 ^ 53 + 1 := by
    have h2 : m ≤ ⌊s * 2 ^ 53⌋₊ + 1 := hm ▸ min_le_right _ _
    have h3 : ((m : ℕ) : ℚ) ≤ ⌊s * 2 ^ 53⌋₊ + 1 := by exact_mod_cast h2
    have h4 := Nat.floor_le (a := s * 2 ^ 53) (by positivity)
    linarith
  have m3 : s * 2 ^ 53 ≤ m := by
    rw [hm]
    push_cast
    refine le_min (by nlinarith) (Nat.lt_floor_add_one (s * 2 ^ 53)).le
  have m2' : (m : ℝ) ≤ s * 2 ^ 53 + 1 := by exact_mod_cast m2
  have m3' : (s : ℝ) * 2 ^ 53 ≤ m := by exact_mod_cast m3
  have q0 : (0 : ℝ) ≤ (m : ℝ) / 2 ^ 53 := by positivity
  have q1 : (m : ℝ) / 2 ^ 53 ≤ 1 := by
    rw [div_le_one (by positivity)]; exact_mod_cast m1
  refine ⟨(m : ℝ) / 2 ^ 53, q0, q1, ?_, fun ω => ⟨_, heq ω⟩, fun l hl hn => ?_, ?_⟩
  · rw [abs_le]
    constructor
    · rw [← le_div_iff₀ (by positivity)] at m3'
      have h3 : (0 : ℝ) ≤ 1 / 2 ^ 53 := by positivity
      linarith
    · have h2 : (m : ℝ) / 2 ^ 53 ≤ (s * 2 ^ 53 + 1) / 2 ^ 53 := div_le_div_of_nonneg_right m2' (by positivity)
      have h3 : ((s : ℝ) * 2 ^ 53 + 1) / 2 ^ 53 = s + 1 / 2 ^ 53 := by field_simp
      linarith
  · rw [← filter_prob hK hi hA q0 q1 hp n l hl hn]
    congr 1
    ext ω
    simp only [Set.mem_setOf_eq, heq, Except.ok.injEq]
  · simp only [heq, picked]
    exact filter_mean hK hA q0 hp n

/-- the probability that at least `m` of `n` rows are picked -/
def atLeast (s : ℝ) (n : Nat) (m : Int) : ℝ :=
  ∑ k ∈ Finset.range (n + 1), if m ≤ (k : Int) then (n.choose k : ℝ) * (s ^ k * (1 - s) ^ (n - k)) else 0

theorem filter_atLeast {β : Type} [MeasurableSpace β] {X : ℕ → Ω → β} (hX : ∀ i, Measurable (X i)) (hi : iIndepFun X P)
    {A : Set β} (hA : MeasurableSet A) [DecidablePred (· ∈ A)] {p : ℝ} (h0 : 0 ≤ p) (h1 : p ≤ 1)
    (hp : ∀ i, P (X i ⁻¹' A) = ENNReal.ofReal p) (n : Nat) (m : Int) :
    MeasurableSet {ω | m ≤ (((List.range n).filter (fun i => decide (X i ω ∈ A))).length : Int)} ∧
    P {ω | m ≤ (((List.range n).filter (fun i => decide (X i ω ∈ A))).length : Int)} = ENNReal.ofReal (atLeast p n m) := by
  classical
  set Z : Ω → List Nat := fun ω => (List.range n).filter (fun i => decide (X i ω ∈ A)) with hZ
  have hz : ∀ T : Finset ℕ, MeasurableSet {ω | Z ω = T.sort (· ≤ ·)} := by
    intro T
    by_cases hT : T ⊆ Finset.range n
    · have : {ω | Z ω = T.sort (· ≤ ·)} = ⋂ i ∈ Finset.range n, X i ⁻¹' (if i ∈ T then A else Aᶜ) := by
        ext ω
        simp only [Set.mem_setOf_eq, Set.mem_iInter, Set.mem_preimage]
        constructor
        · intro h i hin
          have hmem : i ∈ Z ω ↔ i ∈ T := by rw [h, Finset.mem_sort]
          rw [hZ, List.mem_filter, List.mem_range, decide_eq_true_iff] at hmem
          rw [Finset.mem_range] at hin
          split
          · rename_i hiT; exact (hmem.2 hiT).2
          · rename_i hiT; exact fun h => hiT (hmem.1 ⟨hin, h⟩)
        · intro h
          refine List.Perm.eq_of_pairwise (le := (· < ·)) (fun a b _ _ h1 h2 => absurd h1 (Nat.lt_asymm h2))
            (List.Pairwise.filter _ List.pairwise_lt_range) (Finset.sortedLT_sort T).pairwise ?_
          rw [List.perm_ext_iff_of_nodup (List.nodup_range.filter _) (Finset.sort_nodup _ _)]
          intro i
          rw [List.mem_filter, List.mem_range, decide_eq_true_iff, Finset.mem_sort]
          constructor
          · rintro ⟨h2, h3⟩
            by_contra h4
            have := h i (Finset.mem_range.2 h2)
            rw [if_neg h4] at this
            exact this h3
          · intro h2
            have h3 := hT h2
            have := h i h3
            rw [if_pos h2] at this
            exact ⟨Finset.mem_range.1 h3, this⟩
      rw [this]
      refine Finset.measurableSet_biInter _ fun i _ => hX i ?_
      split
      · exact hA
      · exact hA.compl
    · have : {ω | Z ω = T.sort (· ≤ ·)} = ∅ := by
        rw [Set.eq_empty_iff_forall_notMem]
        intro ω h
        apply hT
        intro i hi
        rw [Set.mem_setOf_eq] at h
        have : i ∈ Z ω := by rw [h, Finset.mem_sort]; exact hi
        rw [hZ, List.mem_filter] at this
        exact Finset.mem_range.2 (List.mem_range.1 this.1)
      rw [this]; exact MeasurableSet.empty
  have hset : {ω | m ≤ ((Z ω).length : Int)} =
      ⋃ T ∈ (Finset.range n).powerset.filter (fun T => m ≤ (T.card : Int)), {ω | Z ω = T.sort (· ≤ ·)} := by
    ext ω
    simp only [Set.mem_setOf_eq, Set.mem_iUnion, Finset.mem_filter, Finset.mem_powerset, exists_prop]
    have hnd : (Z ω).Nodup := List.nodup_range.filter _
    constructor
    · intro h
      refine ⟨(Z ω).toFinset, ⟨?_, by rw [List.toFinset_card_of_nodup hnd]; exact h⟩, ?_⟩
      · intro i hi
        rw [List.mem_toFinset, hZ, List.mem_filter] at hi
        exact Finset.mem_range.2 (List.mem_range.1 hi.1)
      · refine List.Perm.eq_of_pairwise (le := (· < ·)) (fun a b _ _ h1 h2 => absurd h1 (Nat.lt_asymm h2))
          (List.Pairwise.filter _ List.pairwise_lt_range) (Finset.sortedLT_sort _).pairwise ?_
        rw [List.perm_ext_iff_of_nodup hnd (Finset.sort_nodup _ _)]
        intro i
        rw [Finset.mem_sort, List.mem_toFinset]
    · rintro ⟨T, ⟨_, hT⟩, h⟩
      rw [h, Finset.length_sort]; exact hT
  refine ⟨hset ▸ Finset.measurableSet_biUnion _ fun T _ => hz T, ?_⟩
  rw [hset, measure_biUnion_finset _ (fun T _ => hz T)]
  · have hT : ∀ T ∈ (Finset.range n).powerset.filter (fun T => m ≤ (T.card : Int)), P {ω | Z ω = T.sort (· ≤ ·)} =
        ENNReal.ofReal (p ^ T.card * (1 - p) ^ (n - T.card)) := by
      intro T hT
      rw [Finset.mem_filter, Finset.mem_powerset] at hT
      rw [filter_prob hX hi hA h0 h1 hp n _ (Finset.sortedLT_sort T).pairwise
        (fun i hi => Finset.mem_range.1 (hT.1 ((Finset.mem_sort _).1 hi))), chance, Finset.length_sort]
    rw [Finset.sum_congr rfl hT, ← ENNReal.ofReal_sum_of_nonneg (fun T _ =>
      mul_nonneg (pow_nonneg h0 _) (pow_nonneg (by linarith) _)), Finset.sum_filter]
    congr 1
    have := Finset.sum_powerset_apply_card (fun k : ℕ => if m ≤ (k : Int) then p ^ k * (1 - p) ^ (n - k) else 0)
      (x := Finset.range n)
    rw [this, Finset.card_range, atLeast]
    refine Finset.sum_congr rfl fun k _ => ?_
    split <;> simp
  · intro T hT T' hT' hne
    refine Set.disjoint_left.2 fun ω h1 h2 => hne ?_
    rw [Set.mem_setOf_eq] at h1 h2
    have := h1.symm.trans h2
    rw [← Finset.sort_toFinset T (· ≤ ·), ← Finset.sort_toFinset T' (· ≤ ·), this]

/-- **C110 (rounds)**: xgboost training with row subsampling and uniform draws: a round is left out when fewer than
`MinSample` rows are picked, so the mean number of rounds of the model is `Rounds` times the probability of picking at
least `MinSample` rows. -/
theorem C110_rounds (U : ℕ → Ω → ℝ) (hU : ∀ i, Measurable (U i)) (hi : iIndepFun U P)
    (hu : ∀ i, ∀ x : ℝ, 0 ≤ x → x ≤ 1 → P {ω | U i ω ≤ x} = ENNReal.ofReal x) (exp : Exact ℝ → Exact ℝ) (S : GoSort)
    (D : DataBunch (Exact ℝ)) (O : Options (Exact ℝ)) (s : ℝ) (hs : O.subSample = .fin s) (h0 : 0 ≤ s) (h1 : s < 1)
    (hx : O.xgb = true) (M : Ω → MultiClass (Exact ℝ))
    (hM : ∀ ω, newMultiClass exp S (fun i => .fin (U i ω)) D O = .ok (M ω)) :
    ∫ ω, ((M ω).b.length : ℝ) ∂P = O.rounds.toNat * atLeast s D.data.length O.minSample := by
  classical
  have hr : rowSub O = true := by
    unfold rowSub
    rw [hs, Exact.one_fin, XF.fin_lt, hx]
    simpa using h1
  let A : ℕ → Set Ω := fun r =>
    {ω | O.minSample ≤ (((List.range D.data.length).filter
      (fun i => decide (U (i + r * drawsPerRound D.data O) ω ∈ Set.Iic s))).length : Int)}
  have hA : ∀ r, MeasurableSet (A r) ∧ P (A r) = ENNReal.ofReal (atLeast s D.data.length O.minSample) := by
    intro r
    exact filter_atLeast (X := fun i => U (i + r * drawsPerRound D.data O)) (fun i => hU _)
      (hi.precomp (g := fun i => i + r * drawsPerRound D.data O) (fun a b h => Nat.add_right_cancel h)) measurableSet_Iic h0
      h1.le (fun i => hu _ s h0 h1.le) _ _
  have hlen : ∀ ω, ((M ω).b.length : ℝ) = ∑ r ∈ Finset.range O.rounds.toNat, (A r).indicator (fun _ => (1 : ℝ)) ω := by
    intro ω
    have e := (C22_rounds exp S _ D O (M ω) (hM ω)).1
    rw [e, executedRounds]
    have hb : ∀ r, decide (O.minSample ≤ (sampleCount D.data O (fun i => (.fin (U i ω) : Exact ℝ)) r : Int)) =
        decide (ω ∈ A r) := by
      intro r
      rw [decide_eq_decide, sampleCount, if_pos hr]
      have : roundRows D.data O (fun i => (.fin (U i ω) : Exact ℝ)) r = (List.range D.data.length).filter
          (fun i => decide (U (i + r * drawsPerRound D.data O) ω ∈ Set.Iic s)) := by
        unfold roundRows
        refine List.filter_congr fun i _ => ?_
        rw [hs, XF.fin_le]
        simp
      rw [this]
      rfl
    simp only [hb]
    induction O.rounds.toNat with
    | zero => simp
    | succ q ih =>
      rw [List.range_succ, List.filter_append, List.length_append, Finset.sum_range_succ, Nat.cast_add, ih]
      congr 1
      by_cases h : ω ∈ A q
      · simp [h]
      · simp [h]
  simp only [hlen]
  rw [integral_finsetSum]
  · have hn : 0 ≤ atLeast s D.data.length O.minSample := by
      unfold atLeast
      refine Finset.sum_nonneg fun k _ => ?_
      split
      · exact mul_nonneg (by positivity) (mul_nonneg (pow_nonneg h0 _) (pow_nonneg (by linarith) _))
      · exact le_refl _
    have : ∀ r ∈ Finset.range O.rounds.toNat, ∫ ω, (A r).indicator (fun _ => (1 : ℝ)) ω ∂P = atLeast s D.data.length O.minSample := by
      intro r _
      rw [integral_indicator_const _ (hA r).1, measureReal_def, (hA r).2, ENNReal.toReal_ofReal hn, smul_eq_mul, mul_one]
    rw [Finset.sum_congr rfl this]
    simp
  · intro r _
    exact (integrable_const (1 : ℝ)).indicator (hA r).1

/-- there are such draws: the coordinates of `[0,1]^ℕ` -/
example : ∃ (Ω : Type) (_ : MeasurableSpace Ω) (P : Measure Ω) (_ : IsProbabilityMeasure P) (U : ℕ → Ω → ℝ),
    (∀ i, Measurable (U i)) ∧ iIndepFun U P ∧ ∀ i, ∀ x : ℝ, 0 ≤ x → x ≤ 1 → P {ω | U i ω ≤ x} = ENNReal.ofReal x := by
  have : IsProbabilityMeasure (volume.restrict (Set.Icc (0 : ℝ) 1)) := ⟨by simp⟩
  refine ⟨ℕ → ℝ, inferInstance, Measure.infinitePi fun _ => volume.restrict (Set.Icc (0 : ℝ) 1), inferInstance,
    fun i ω => ω i, fun i => measurable_pi_apply i, ?_, ?_⟩
  · exact iIndepFun_infinitePi (P := fun _ : ℕ => volume.restrict (Set.Icc (0 : ℝ) 1)) (X := fun _ x => x) (fun _ => measurable_id)
  · intro i x hx0 hx1
    have h2 := Measure.infinitePi_map_eval (fun _ : ℕ => volume.restrict (Set.Icc (0 : ℝ) 1)) i
    have h3 : (Measure.infinitePi fun _ : ℕ => volume.restrict (Set.Icc (0 : ℝ) 1)) {ω | ω i ≤ x} =
        volume.restrict (Set.Icc (0 : ℝ) 1) (Set.Iic x) := by
      have h4 := congrArg (fun μ : Measure ℝ => μ (Set.Iic x)) h2
      beta_reduce at h4
      rw [Measure.map_apply (measurable_pi_apply i) measurableSet_Iic] at h4
      exact h4
    rw [h3, Measure.restrict_apply measurableSet_Iic]
    have : Set.Iic x ∩ Set.Icc (0 : ℝ) 1 = Set.Icc 0 x := by
      ext y
      simp only [Set.mem_inter_iff, Set.mem_Iic, Set.mem_Icc]
      constructor
      · rintro ⟨a, b, c⟩; exact ⟨b, a⟩
      · rintro ⟨a, b⟩; exact ⟨b, a, b.trans hx1⟩
    rw [this, Real.volume_Icc, sub_zero]

/-- half of the rows in each round, at least one -/
noncomputable def halfOptions : Options (Exact ℝ) := { (defaultXOptions 0 : Options (Exact ℝ)) with subSample := .fin (1 / 2), minSample := 1 }

/-- two rows of two classes: training returns whatever the draws, so `C110_rounds` applies -/
example (U : ℕ → Ω → ℝ) : ∃ M : Ω → MultiClass (Exact ℝ), ∀ ω, newMultiClass (fun x => x) GoSort.ins (fun i => .fin (U i ω))
    ⟨finRows [[0], [1]], [], [0, 1], []⟩ halfOptions = .ok (M ω) := by
  have h : ∀ ω, ∃ M, newMultiClass (fun x => x) GoSort.ins (fun i => .fin (U i ω))
      ⟨finRows [[0], [1]], [], [0, 1], []⟩ halfOptions = .ok M := by
    intro ω
    refine C22_returns _ _ _ _ _ ⟨by simp [finRows], ⟨1, by simp [finRows]⟩, finRows_noNaN _, finRows_midSafe _⟩ rfl _ rfl
      sqErrLoss_regular ⟨fun _ => ?_, fun _ => ?_⟩ (fun _ => by decide)
    · have : (0 : ℝ) ≤ (((2 : Int) : Rat) : ℝ) * (1 / 2) := by norm_num
      have h := XF.toInt_floor (R := exactR ℝ) this (by norm_num)
      have := Int.floor_nonneg.2 this
      refine (?_ : (0 : Int) ≤ toInt (.fin ((((2 : Int) : Rat) : ℝ) * (1 / 2)) : Exact ℝ) + 1)
      omega
    · have : (0 : ℝ) ≤ (((1 : Int) : Rat) : ℝ) * (((8 / 10 : Rat)) : ℝ) := by norm_num
      have h := XF.toInt_floor (R := exactR ℝ) this (by norm_num)
      have := Int.floor_nonneg.2 this
      refine (?_ : (0 : Int) ≤ toInt (.fin ((((1 : Int) : Rat) : ℝ) * ((8 / 10 : Rat) : ℝ)) : Exact ℝ) + 1)
      omega
  exact ⟨fun ω => (h ω).choose, fun ω => (h ω).choose_spec⟩

end Boo
