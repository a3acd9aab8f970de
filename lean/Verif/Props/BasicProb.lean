import Verif.Props.BasicUse
import Verif.Props.SampleProb

/-!
# C123: how likely the model of the README's basic use works
-/

namespace Boo
open GoFloat Spec MeasureTheory ProbabilityTheory

section
variable {Ω : Type} [MeasurableSpace Ω] {P : Measure Ω} [IsProbabilityMeasure P]

theorem measurable_ex {K : ℕ → Ω → ℕ} (hK : ∀ i, Measurable (K i)) (A : Set ℕ) (k b : ℕ) :
    MeasurableSet {ω | ∃ i < k, K (i + b) ω ∉ A} := by
  have : {ω | ∃ i < k, K (i + b) ω ∉ A} = ⋃ i ∈ Finset.range k, (K (i + b) ⁻¹' A)ᶜ := by
    ext ω
    simp
  rw [this]
  exact Finset.measurableSet_biUnion _ fun i _ => (hK _ MeasurableSet.of_discrete).compl

/-- the first `k` draws of a round of `m ≥ k` draws are not all in `A`, for `R` rounds -/
theorem blocks_prob {K : ℕ → Ω → ℕ} (hK : ∀ i, Measurable (K i)) (hi : iIndepFun K P) {A : Set ℕ} {p : ℝ} (h0 : 0 ≤ p) (h1 : p ≤ 1)
    (hp : ∀ i, P (K i ⁻¹' A) = ENNReal.ofReal p) (k m : ℕ) (hkm : k ≤ m) (R : ℕ) :
    P {ω | ∀ r < R, ∃ i < k, K (i + r * m) ω ∉ A} = ENNReal.ofReal ((1 - p ^ k) ^ R) := by
  have hpk : p ^ k ≤ 1 := pow_le_one₀ h0 h1
  induction R with
  | zero => simp
  | succ R ih =>
    have hsplit : {ω | ∀ r < R + 1, ∃ i < k, K (i + r * m) ω ∉ A} =
        {ω | ∀ r < R, ∃ i < k, K (i + r * m) ω ∉ A} ∩ {ω | ∃ i < k, K (i + R * m) ω ∉ A} := by
      ext ω
      simp only [Set.mem_setOf_eq, Set.mem_inter_iff]
      constructor
      · exact fun h => ⟨fun r hr => h r (by omega), h R (by omega)⟩
      · rintro ⟨h, h'⟩ r hr
        rcases Nat.lt_succ_iff_lt_or_eq.1 hr with hr | rfl
        · exact h r hr
        · exact h'
    have hlast : P {ω | ∃ i < k, K (i + R * m) ω ∉ A} = ENNReal.ofReal (1 - p ^ k) := by
      have hc : {ω | ∃ i < k, K (i + R * m) ω ∉ A} = (⋂ i ∈ (Finset.range k).image (· + R * m), K i ⁻¹' A)ᶜ := by
        ext ω
        simp
      have hmeas : MeasurableSet (⋂ i ∈ (Finset.range k).image (· + R * m), K i ⁻¹' A) :=
        Finset.measurableSet_biInter _ fun i _ => hK i MeasurableSet.of_discrete
      rw [hc, prob_compl_eq_one_sub hmeas]
      rw [hi.measure_inter_preimage_eq_mul _ (sets := fun _ => A) (fun _ _ => MeasurableSet.of_discrete)]
      rw [Finset.prod_congr rfl fun i _ => hp i, Finset.prod_const,
        Finset.card_image_of_injective _ (fun a b h => by simpa using h), Finset.card_range, ← ENNReal.ofReal_pow h0,
        ← ENNReal.ofReal_one, ← ENNReal.ofReal_sub _ (by positivity)]
    have hind := hi.indepFun_finset (Finset.range (R * m)) ((Finset.range k).image (· + R * m)) (by
      rw [Finset.disjoint_left]
      intro a ha hb
      rw [Finset.mem_range] at ha
      obtain ⟨j, _, hj⟩ := Finset.mem_image.1 hb
      have hj : j + R * m = a := hj
      omega) hK
    have hmem1 : ∀ r i, r < R → i < k → i + r * m ∈ Finset.range (R * m) := by
      intro r i hr hik
      rw [Finset.mem_range]
      have : (r + 1) * m ≤ R * m := Nat.mul_le_mul_right _ hr
      rw [Nat.succ_mul] at this
      omega
    have hmem2 : ∀ i, i < k → i + R * m ∈ (Finset.range k).image (· + R * m) := fun i hik =>
      Finset.mem_image.2 ⟨i, Finset.mem_range.2 hik, rfl⟩
    have := hind.measure_inter_preimage_eq_mul
      {f | ∀ r, ∀ hr : r < R, ∃ i, ∃ hik : i < k, f ⟨i + r * m, hmem1 r i hr hik⟩ ∉ A}
      {f | ∃ i, ∃ hik : i < k, f ⟨i + R * m, hmem2 i hik⟩ ∉ A} MeasurableSet.of_discrete MeasurableSet.of_discrete
    rw [hsplit]
    have e1 : {ω | ∀ r < R, ∃ i < k, K (i + r * m) ω ∉ A} = (fun a (i : Finset.range (R * m)) => K i a) ⁻¹'
        {f | ∀ r, ∀ hr : r < R, ∃ i, ∃ hik : i < k, f ⟨i + r * m, hmem1 r i hr hik⟩ ∉ A} := by
      ext ω
      simp
    have e2 : {ω | ∃ i < k, K (i + R * m) ω ∉ A} = (fun a (i : (Finset.range k).image (· + R * m)) => K i a) ⁻¹'
        {f | ∃ i, ∃ hik : i < k, f ⟨i + R * m, hmem2 i hik⟩ ∉ A} := by
      ext ω
      simp
    rw [← e1, ← e2] at this
    rw [this, ih, hlast, ← ENNReal.ofReal_mul (by have := pow_nonneg (sub_nonneg.2 hpk) R; exact this), pow_succ]

end

section AnyOrder

variable {τ : Option SumOrder}
/-- float64, with any order of the additions of `floats.Sum` -/
local notation "F64" => F64o τ

variable {Ω : Type} [MeasurableSpace Ω] {P : Measure Ω} [IsProbabilityMeasure P]

/-- **C123 (probability)**: let the draws be what `rand.Float64` returns, `k/2^53` with `k` independent and uniform among `0, …, 2^53-1`. On at least
5 rows of numbers of at most 15 digits `NewMultiClass` with `DefaultOptions` returns a model that works with a probability of more than 99.96%. -/
theorem C123_probability (K : ℕ → Ω → ℕ) (hK : ∀ i, Measurable (K i)) (hi : iIndepFun K P)
    (hu : ∀ i, ∀ k < 2 ^ 53, P {ω | K i ω = k} = ENNReal.ofReal (1 / 2 ^ 53))
    (exp : F64 → F64) (S : GoSort) (Q : List (Int × List ℚ)) (c : Nat) (D : DataBunch F64)
    (hD : NumberData Q c D) (h5 : 5 ≤ Q.length) (id : Nat) :
    ENNReal.ofReal (9996 / 10000) < P {ω | ∃ M, newMultiClass exp S (fun i => .fin ((K i ω : ℚ) / 2 ^ 53)) D (defaultOptions id) = .ok M ∧ Works c D M} := by
  have hs0 : (0 : ℚ) ≤ rv (8/10) := by decide +kernel
  obtain ⟨m, hm⟩ : ∃ m : ℕ, m = min (2 ^ 53) (⌊rv (8/10) * 2 ^ 53⌋₊ + 1) := ⟨_, rfl⟩
  have hp := fun i => le_prob (hK i) (hu i) hs0 hm
  have m1 : m ≤ 2 ^ 53 := hm ▸ min_le_left _ _
  have m3 : (8/10 : ℚ) * 2 ^ 53 ≤ m := by
    have h8 : (8/10 : ℚ) * 2 ^ 53 ≤ rv (8/10) * 2 ^ 53 := by decide +kernel
    have h1 : rv (8/10) ≤ 1 := by decide +kernel
    refine h8.trans ?_
    rw [hm]
    push_cast
    refine le_min (by nlinarith) (Nat.lt_floor_add_one (rv (8/10) * 2 ^ 53)).le
  have m3' : (8/10 : ℝ) ≤ (m : ℝ) / 2 ^ 53 := by
    rw [le_div_iff₀ (by positivity)]
    have : (((8/10 : ℚ) * 2 ^ 53 : ℚ) : ℝ) ≤ ((m : ℚ) : ℝ) := Rat.cast_le.2 m3
    push_cast at this
    exact this
  have q1 : (m : ℝ) / 2 ^ 53 ≤ 1 := by
    rw [div_le_one (by positivity)]; exact_mod_cast m1
  generalize (m : ℝ) / 2 ^ 53 = p at hp m3' q1
  have hblock := blocks_prob hK hi (by linarith) q1 hp 5 (Q.length + c) (by omega) 20
  have hmeas : MeasurableSet {ω | ∀ r < 20, ∃ i < 5, K (i + r * (Q.length + c)) ω ∉ below53 (rv (8/10))} := by
    have : {ω | ∀ r < 20, ∃ i < 5, K (i + r * (Q.length + c)) ω ∉ below53 (rv (8/10))} =
        ⋂ r ∈ Finset.range 20, {ω | ∃ i < 5, K (i + r * (Q.length + c)) ω ∉ below53 (rv (8/10))} := by
      ext ω
      simp
    rw [this]
    exact Finset.measurableSet_biInter _ fun r _ => measurable_ex hK _ _ _
  have hsub : {ω | ∀ r < 20, ∃ i < 5, K (i + r * (Q.length + c)) ω ∉ below53 (rv (8/10))}ᶜ ⊆
      {ω | ∃ M, newMultiClass exp S (fun i => .fin ((K i ω : ℚ) / 2 ^ 53)) D (defaultOptions id) = .ok M ∧ Works c D M} := by
    intro ω hω
    simp only [Set.mem_compl_iff, Set.mem_setOf_eq, not_forall, not_exists, not_and, not_not] at hω
    obtain ⟨r, hr, hall⟩ := hω
    obtain ⟨M, hM, hw⟩ := C123_train_partial exp S (fun i => .fin ((K i ω : ℚ) / 2 ^ 53)) Q c D hD id
    refine ⟨M, hM, hw ⟨r, hr, ?_⟩⟩
    have hsl : (List.range 5).Sublist ((List.range Q.length).filter fun i =>
        (XF.fin ((K (i + r * (Q.length + c)) ω : ℚ) / 2 ^ 53) : F64) <=. .fin (rv (8/10))) := by
      have h1 : (List.range 5).Sublist (List.range Q.length) := by
        rw [List.range_sublist]
        exact h5
      have h2 := h1.filter fun i => (XF.fin ((K (i + r * (Q.length + c)) ω : ℚ) / 2 ^ 53) : F64) <=. .fin (rv (8/10))
      rwa [List.filter_eq_self.2] at h2
      intro i hi'
      rw [XF.fin_le, decide_eq_true_eq]
      exact (hall i (List.mem_range.1 hi')).1
    exact (List.length_range (n := 5)) ▸ hsl.length_le
  refine lt_of_lt_of_le ?_ (measure_mono hsub)
  rw [prob_compl_eq_one_sub hmeas, hblock, ← ENNReal.ofReal_one, ← ENNReal.ofReal_sub _ (by
    have : p ^ 5 ≤ 1 := pow_le_one₀ (by linarith) q1
    exact pow_nonneg (by linarith) 20)]
  have h3 : (8/10 : ℝ) ^ 5 ≤ p ^ 5 := pow_le_pow_left₀ (by norm_num) m3' 5
  have h4 : p ^ 5 ≤ 1 := pow_le_one₀ (by linarith) q1
  have h5 : (1 - p ^ 5) ^ 20 ≤ (1 - (8/10 : ℝ) ^ 5) ^ 20 := pow_le_pow_left₀ (by linarith) (by linarith) 20
  have h6 : (1 - (8/10 : ℝ) ^ 5) ^ 20 < 4 / 10000 := by norm_num
  exact (ENNReal.ofReal_lt_ofReal_iff (by linarith)).2 (by linarith)

end AnyOrder

/-! ### The theorem applies -/

/-- such draws exist -/
theorem draws53_exist : ∃ (Ω : Type) (_ : MeasurableSpace Ω) (P : Measure Ω) (_ : IsProbabilityMeasure P)
    (K : ℕ → Ω → ℕ), (∀ j, Measurable (K j)) ∧ iIndepFun K P ∧ ∀ j, ∀ k < 2 ^ 53, P {ω | K j ω = k} = ENNReal.ofReal (1 / 2 ^ 53) := by
  obtain ⟨N, hN⟩ : ∃ N : ℕ, N = 2 ^ 53 := ⟨_, rfl⟩
  have hN0 : 0 < N := by omega
  have : Nonempty (Fin N) := ⟨⟨0, hN0⟩⟩
  let ν : Measure (Fin N) := uniformOn Set.univ
  have hν : IsProbabilityMeasure ν := uniformOn_isProbabilityMeasure Set.finite_univ Set.univ_nonempty
  refine ⟨ℕ → Fin N, inferInstance, Measure.infinitePi fun _ => ν, inferInstance,
    fun j ω => (ω j).val, fun j => measurable_from_top.comp (measurable_pi_apply j), ?_, ?_⟩
  · exact iIndepFun_infinitePi (P := fun _ : ℕ => ν) (X := fun _ x => x.val) (fun _ => measurable_from_top)
  · intro j k hk
    rw [← hN] at hk
    have h2 := Measure.infinitePi_map_eval (fun _ : ℕ => ν) j
    have h4 := congrArg (fun μ : Measure (Fin N) => μ {⟨k, hk⟩}) h2
    beta_reduce at h4
    rw [Measure.map_apply (measurable_pi_apply j) (measurableSet_singleton _)] at h4
    refine Eq.trans ?_ (h4.trans ?_)
    · congr 1
      ext ω
      simp [Fin.ext_iff]
    · show uniformOn Set.univ {_} = _
      rw [uniformOn_univ, Fintype.card_fin, Measure.count_singleton, hN, ENNReal.ofReal_div_of_pos (by positivity),
        ENNReal.ofReal_one, ENNReal.ofReal_pow (by norm_num)]
      norm_num

/-- the five rows of `basicQ` -/
example : ∃ (Ω : Type) (_ : MeasurableSpace Ω) (P : Measure Ω) (K : ℕ → Ω → ℕ) (D : DataBunch F64), D.labels = [1, 2, 1, 2, -3] ∧
    ENNReal.ofReal (9996 / 10000) < P {ω | ∃ M, newMultiClass (fun _ => .fin 1) GoSort.ins (fun i => .fin ((K i ω : ℚ) / 2 ^ 53)) D (defaultOptions 0) = .ok M ∧
      Works 2 D M} := by
  obtain ⟨Ω, i1, P, i2, K, hK, hi, hu⟩ := draws53_exist
  have hD : NumberData basicQ 2 (numberBunch basicQ [] : DataBunch F64) :=
    ⟨by decide, by decide +kernel, svm_numberData basic_rows, by decide, by decide, rfl, rfl⟩
  exact ⟨Ω, i1, P, K, _, rfl, C123_probability K hK hi hu _ _ basicQ 2 _ hD (by decide) 0⟩

end Boo
