import Verif.Props.SoftFloat
import Verif.Lemmas.Boost
import Verif.Lemmas.CV

/-!
# Scores and predictions of models in float64 (C97)

Small separate specification: `prob` (`Props/SoftFloat`), and `treesOf` (`Spec/Boost`), the trees of a class.
-/

namespace Boo
open GoFloat Spec

section AnyOrder

variable {τ : Option SumOrder}
/-- float64, with any order of the additions of `floats.Sum` -/
local notation "F64" => F64o τ


theorem foldlM_scores (lr base : ℚ) (ts : List (Tree F64)) (v : List ℚ) (row : List F64)
    (hv : List.Forall₂ (fun t x => t.predictSingle row = .ok (XF.fin x)) ts v)
    (hm : ∀ x ∈ v, ((.fin x : F64) *. .fin lr) = .fin (rv (x * lr))) (z : F64) :
    scoreAfter z (.fin lr) ts row = .ok (((v.map fun x => rv (x * lr)).map XF.fin).foldl (· +. ·) z) := by
  induction hv generalizing z with
  | nil => rfl
  | cons h _ ih =>
    unfold scoreAfter at ih ⊢
    rw [List.foldlM_cons, h]
    simp only [bind, Except.bind, pure, Except.pure, List.map_cons, List.foldl_cons]
    rw [hm _ (by simp)]
    exact ih (fun x hx => hm x (by simp [hx])) _

theorem products_err (lr : ℚ) (v : List ℚ) :
    |(v.map fun x => rv (x * lr)).sum - lr * v.sum| ≤ u64 * (v.map fun x => |lr * x|).sum + v.length * eta64 ∧
    ((v.map fun x => rv (x * lr)).map fun x => |x|).sum ≤ (1 + u64) * (v.map fun x => |lr * x|).sum + v.length * eta64 := by
  induction v with
  | nil => simp
  | cons a v ih =>
    obtain ⟨h1, h2⟩ := ih
    have h3 := rv_err (a * lr)
    rw [mul_comm a lr] at h3
    simp only [List.map_cons, List.sum_cons, List.length_cons]
    push_cast
    constructor
    · have e : rv (a * lr) + (v.map fun x => rv (x * lr)).sum - lr * (a + v.sum) =
        (rv (lr * a) - lr * a) + ((v.map fun x => rv (x * lr)).sum - lr * v.sum) := by rw [mul_comm a lr]; ring
      rw [e]
      refine (abs_add_le _ _).trans ?_
      linarith
    · have h4 := abs_le_of_near h3 le_rfl
      rw [mul_comm a lr]
      linarith

/-- **C97 (scores)**: in float64 the score of a class is the base score plus the learning rate times the sum of what the trees
of the class predict, up to `(2R+2)·2⁻⁵³·B + 2R·2⁻¹⁰⁷⁵`, where `R` is the number of its trees and `B` bounds
`|base score| + Σ |learning rate · prediction|`. -/
theorem C97_scores (M : MultiClass F64) (lr base : ℚ) (hlr : M.learningRate = .fin lr) (hbase : M.baseScore = .fin base)
    (hrep : Rep64 base) (row raw : List F64) (h : M.rawScores row = .ok raw) (c : Nat) (hc : c < raw.length)
    (v : List ℚ) (hv : List.Forall₂ (fun t x => t.predictSingle row = .ok (XF.fin x)) (treesOf M.b c) v)
    (B : ℚ) (hB : |base| + (v.map fun x => |lr * x|).sum ≤ B) (hroom : B ≤ 2 ^ (1000 : ℤ)) (hn : v.length ≤ 2 ^ 50) :
    ∃ s : ℚ, raw[c]? = some (.fin s) ∧
      |s - (base + lr * v.sum)| ≤ (2 * v.length + 2) * 2 ^ (-53 : ℤ) * B + 2 * v.length * 2 ^ (-1075 : ℤ) := by
  have hu := u64_pos
  have he := eta64_pos
  have hP0 : 0 ≤ (v.map fun x => |lr * x|).sum := List.sum_nonneg (by simpa using fun x _ => by positivity)
  have hB0 : 0 ≤ B := (add_nonneg (abs_nonneg _) hP0).trans hB
  have hbig : 8 * B + 8 ≤ big64 := by
    have h2 : (1 : ℚ) ≤ 2 ^ (1000 : Int) := one_le_zpow₀ (by norm_num) (by norm_num)
    have h3 : big64 = 2 ^ (23 : Int) * 2 ^ (1000 : Int) := by
      rw [big64_def, ← zpow_add₀ (by norm_num)]
      norm_num
    rw [h3]
    generalize (2 : ℚ) ^ (1000 : Int) = P at *
    norm_num
    linarith
  clear hroom
  have hnu : 2 * (v.length : ℚ) * u64 ≤ 1 / 2 := by
    have q : (v.length : ℚ) ≤ 2 ^ 50 := by exact_mod_cast hn
    have : (v.length : ℚ) * u64 ≤ 2 ^ 50 * u64 := mul_le_mul_of_nonneg_right q hu.le
    have q2 : (2 : ℚ) ^ 50 * u64 = 1 / 8 := by rw [u64_def]; norm_num
    linarith
  have hmul : ∀ x ∈ v, ((.fin x : F64) *. .fin lr) = .fin (rv (x * lr)) := by
    intro x hx
    apply mul64
    have : |lr * x| ≤ (v.map fun x => |lr * x|).sum :=
      List.single_le_sum (by simpa using fun x _ => by positivity) _ (List.mem_map.2 ⟨x, hx, rfl⟩)
    rw [mul_comm]
    linarith [abs_nonneg base]
  unfold MultiClass.rawScores at h
  obtain ⟨b0, h0, h⟩ := bind_ok h
  obtain ⟨g1, g2⟩ := foldRounds_get M.baseScore M.learningRate b0.length M.b row raw h
  obtain ⟨w, hw, hsc⟩ := g2 c (by omega)
  rw [hlr, hbase, foldlM_scores lr base _ v row hv hmul] at hsc
  obtain ⟨hp1, hp2⟩ := products_err lr v
  set ws := v.map fun x => rv (x * lr) with hws
  have hwl : ws.length = v.length := by simp [hws]
  have hneta : (v.length : ℚ) * eta64 ≤ 1 := by
    have q : (v.length : ℚ) ≤ 2 ^ 50 := by exact_mod_cast hn
    have := mul_le_mul_of_nonneg_right q he.le
    refine this.trans ?_
    rw [eta64_def, show (2 : ℚ) ^ 50 = 2 ^ (50 : ℤ) by norm_num, ← zpow_add₀ (by norm_num)]
    exact zpow_le_one_of_nonpos₀ (by norm_num) (by norm_num)
  have hA : |base| + (ws.map fun x => |x|).sum ≤ B + u64 * B + v.length * eta64 := by
    have : u64 * (v.map fun x => |lr * x|).sum ≤ u64 * B := mul_le_mul_of_nonneg_left (by linarith [abs_nonneg base]) hu.le
    linarith
  have huB : u64 * B ≤ B := by
    have := u64_le
    have := mul_le_mul_of_nonneg_right this hB0
    linarith
  set A := |base| + (ws.map fun x => |x|).sum with hAdef
  have hA0 : 0 ≤ A := add_nonneg (abs_nonneg _) (List.sum_nonneg (by simp))
  obtain ⟨s, e1, _, e3⟩ := foldl_add_err ws (by
      intro x hx
      obtain ⟨y, _, rfl⟩ := List.mem_map.1 hx
      exact rv_idem _) A (by linarith) base base 0 (rep64_rv hrep).1 (by simp) (by
      intro k _
      refine (abs_add_le _ _).trans ?_
      have := take_sum_abs ws k
      linarith) (by
      rw [hwl, zero_add]
      have := mul_le_mul_of_nonneg_right hnu hA0
      linarith)
  rw [e1] at hsc
  obtain rfl := Except.ok.inj hsc
  refine ⟨s, hw, ?_⟩
  rw [← u64_def, ← eta64_def]
  rw [hwl] at e3
  clear hn
  have e : s - (base + lr * v.sum) = (s - (base + ws.sum)) + (ws.sum - lr * v.sum) := by ring
  rw [e]
  refine (abs_add_le _ _).trans ?_
  have k1 : 2 * (v.length : ℚ) * u64 * A ≤ 2 * v.length * u64 * (B + u64 * B + v.length * eta64) :=
    mul_le_mul_of_nonneg_left hA (by positivity)
  have k2 : 2 * (v.length : ℚ) * u64 * (u64 * B) ≤ 1 / 2 * (u64 * B) := mul_le_mul_of_nonneg_right hnu (by positivity)
  have k3 : 2 * (v.length : ℚ) * u64 * (v.length * eta64) ≤ 1 / 2 * (v.length * eta64) :=
    mul_le_mul_of_nonneg_right hnu (by positivity)
  have k4 : u64 * (v.map fun x => |lr * x|).sum ≤ u64 * B := mul_le_mul_of_nonneg_left (by linarith [abs_nonneg base]) hu.le
  have k5 : 0 ≤ u64 * B := by positivity
  have k6 : 0 ≤ (v.length : ℚ) * eta64 := by positivity
  have e5 : (2 * (v.length : ℚ) + 2) * u64 * B = 2 * v.length * u64 * B + 2 * (u64 * B) := by ring
  rw [e5]
  linarith

/-- scores that differ little give probabilities that differ little -/
theorem prob_lip {p t : List ℚ} {D : ℚ} (hne : p ≠ []) (h : List.Forall₂ (fun x y => |x - y| ≤ D) p t) (hD : D ≤ 1 / 4) {x y : ℚ}
    (hxy : |x - y| ≤ D) : |prob p x - prob t y| ≤ 4 * D * prob t y := by
  have hD0 : 0 ≤ D := (abs_nonneg _).trans hxy
  have hD0' : (0 : ℝ) ≤ D := by exact_mod_cast hD0
  have hD' : (D : ℝ) ≤ 1 / 4 := by
    have : ((D : ℚ) : ℝ) ≤ ((1 / 4 : ℚ) : ℝ) := Rat.cast_le.2 hD
    simpa using this
  have one : ∀ {x y : ℚ}, |x - y| ≤ D → Real.exp (-D) * Real.exp (y : ℝ) ≤ Real.exp (x : ℝ) ∧
      Real.exp (x : ℝ) ≤ Real.exp (D : ℝ) * Real.exp (y : ℝ) := by
    intro x y hxy
    rw [← Real.exp_add, ← Real.exp_add, Real.exp_le_exp, Real.exp_le_exp]
    have : |(x : ℝ) - y| ≤ D := by exact_mod_cast hxy
    rw [abs_le] at this
    constructor <;> linarith [this.1, this.2]
  have htne : t ≠ [] := by
    rintro rfl
    cases h
    exact hne rfl
  have sums : Real.exp (-D) * (t.map fun z : ℚ => Real.exp (z : ℝ)).sum ≤ (p.map fun z : ℚ => Real.exp (z : ℝ)).sum ∧
      (p.map fun z : ℚ => Real.exp (z : ℝ)).sum ≤ Real.exp (D : ℝ) * (t.map fun z : ℚ => Real.exp (z : ℝ)).sum := by
    clear hne htne
    induction h with
    | nil => simp
    | cons h1 _ ih =>
      have := one h1
      simp only [List.map_cons, List.sum_cons]
      constructor <;> nlinarith [this.1, this.2, ih.1, ih.2]
  have ox := one hxy
  have hP := sumExp_pos hne
  have hT := sumExp_pos htne
  unfold prob
  generalize (p.map fun z : ℚ => Real.exp (z : ℝ)).sum = P at *
  generalize (t.map fun z : ℚ => Real.exp (z : ℝ)).sum = T at *
  have hy := Real.exp_pos (y : ℝ)
  have hed := Real.exp_pos (D : ℝ)
  have hned := Real.exp_pos (-(D : ℝ))
  have hinv : Real.exp (D : ℝ) * Real.exp (-(D : ℝ)) = 1 := by rw [← Real.exp_add]; simp
  have hup : Real.exp (x : ℝ) / P ≤ (1 + 4 * D) * (Real.exp (y : ℝ) / T) := by
    have q1 : Real.exp (x : ℝ) / P ≤ (Real.exp (D : ℝ) * Real.exp (y : ℝ)) / (Real.exp (-D) * T) :=
      div_le_div₀ (by positivity) ox.2 (by positivity) sums.1
    refine q1.trans ?_
    have q2 : (Real.exp (D : ℝ) * Real.exp (y : ℝ)) / (Real.exp (-D) * T) = Real.exp (2 * D) * (Real.exp (y : ℝ) / T) := by
      rw [show (2 : ℝ) * D = D - (-D) by ring, Real.exp_sub]
      field_simp
    rw [q2]
    apply mul_le_mul_of_nonneg_right _ (by positivity)
    have := Real.abs_exp_sub_one_le (x := 2 * (D : ℝ)) (by rw [abs_of_nonneg (by linarith)]; linarith)
    rw [abs_of_nonneg (show (0 : ℝ) ≤ 2 * D by linarith)] at this
    linarith [(abs_le.1 this).2]
  have hlo : (1 - 4 * D) * (Real.exp (y : ℝ) / T) ≤ Real.exp (x : ℝ) / P := by
    have q1 : (Real.exp (-D) * Real.exp (y : ℝ)) / (Real.exp (D : ℝ) * T) ≤ Real.exp (x : ℝ) / P :=
      div_le_div₀ (Real.exp_pos _).le ox.1 hP sums.2
    refine le_trans ?_ q1
    have q2 : (Real.exp (-D) * Real.exp (y : ℝ)) / (Real.exp (D : ℝ) * T) = Real.exp (-(2 * D)) * (Real.exp (y : ℝ) / T) := by
      rw [show -((2 : ℝ) * D) = -D - D by ring, Real.exp_sub]
      field_simp
    rw [q2]
    apply mul_le_mul_of_nonneg_right _ (by positivity)
    linarith [Real.add_one_le_exp (-(2 * (D : ℝ)))]
  rw [abs_le]
  constructor <;> linarith

/-- **C97 (probabilities)**: in float64, let `t` be the exact scores of a row (base score plus learning rate times the sum of the
predictions of the trees of the class) and let the bound of `C97_scores` be at most `D ≤ 1/4` for every class. Then every probability
that the model predicts is the mathematical probability of the exact scores, up to a relative error of
`(6n+16)·2⁻⁵³ + 4D` (and `2⁻¹⁰⁷⁵`). -/
theorem C97_probabilities (exp : F64 → F64) (hexp : ExpFloat exp) (M : MultiClass F64)
    (hM : M.probTransform = some (softMaxDense exp)) (lr base : ℚ) (hlr : M.learningRate = .fin lr)
    (hbase : M.baseScore = .fin base) (hrep : Rep64 base) (row raw : List F64) (h : M.rawScores row = .ok raw) (hne : raw ≠ [])
    (hn : raw.length ≤ 1024) (v : Nat → List ℚ)
    (hv : ∀ c < raw.length, List.Forall₂ (fun t x => t.predictSingle row = .ok (XF.fin x)) (treesOf M.b c) (v c))
    (B D : ℚ) (hB : ∀ c < raw.length, |base| + ((v c).map fun x => |lr * x|).sum ≤ B) (hB2 : B ≤ 699)
    (hR : ∀ c < raw.length, (v c).length ≤ 2 ^ 50)
    (hD : ∀ c < raw.length, (2 * (v c).length + 2) * 2 ^ (-53 : ℤ) * B + 2 * (v c).length * 2 ^ (-1075 : ℤ) ≤ D) (hD4 : D ≤ 1 / 4) :
    ∃ q : List ℚ, M.predictSingle row = .ok (q.map XF.fin) ∧ q.length = raw.length ∧
      ∀ (c : Nat) (w : ℚ), q[c]? = some w →
        let t := (List.range raw.length).map fun j => base + lr * (v j).sum
        |(w : ℝ) - prob t (base + lr * (v c).sum)| ≤
          ((6 * raw.length + 16) * 2 ^ (-53 : ℤ) + 4 * D) * prob t (base + lr * (v c).sum) + 2 ^ (-1075 : ℤ) := by
  have hBroom : B ≤ 2 ^ (1000 : ℤ) := by
    refine hB2.trans ?_
    have : (2 : ℚ) ^ (10 : ℤ) ≤ 2 ^ (1000 : ℤ) := zpow_le_zpow_right₀ (by norm_num) (by norm_num)
    refine le_trans ?_ this
    norm_num
  have hsc : ∀ c : Nat, ∃ s : ℚ, c < raw.length → raw[c]? = some (.fin s) ∧ |s - (base + lr * (v c).sum)| ≤ D := by
    intro c
    by_cases hc : c < raw.length
    · obtain ⟨s, h1, h2⟩ := C97_scores M lr base hlr hbase hrep row raw h c hc (v c) (hv c hc) B (hB c hc) hBroom (hR c hc)
      exact ⟨s, fun _ => ⟨h1, h2.trans (hD c hc)⟩⟩
    · exact ⟨0, fun h => absurd h hc⟩
  choose s hs using hsc
  set p := (List.range raw.length).map s with hp
  set t := (List.range raw.length).map fun j => base + lr * (v j).sum with ht
  have hpraw : raw = p.map XF.fin := by
    apply List.ext_getElem?
    intro i
    by_cases hi : i < raw.length
    · rw [(hs i hi).1]
      simp [hp, hi]
    · rw [List.getElem?_eq_none (by omega), List.getElem?_eq_none (by simp [hp]; omega)]
  have hplen : p.length = raw.length := by simp [hp]
  have hpne : p ≠ [] := by
    intro h0
    rw [h0] at hplen
    exact hne (List.length_eq_zero_iff.1 hplen.symm)
  have hnear : List.Forall₂ (fun x y => |x - y| ≤ D) p t := by
    rw [List.forall₂_iff_get]
    refine ⟨by simp [hp, ht], fun i h1 h2 => ?_⟩
    have hi : i < raw.length := by omega
    simpa [hp, ht] using (hs i hi).2
  have hp700 : ∀ x ∈ p, |x| ≤ 700 := by
    intro x hx
    obtain ⟨c, hc, rfl⟩ := List.mem_map.1 hx
    have hc' : c < raw.length := by simpa using hc
    have h1 := (hs c hc').2
    have h2 := hB c hc'
    have h3 : |base + lr * (v c).sum| ≤ B := by
      refine (abs_add_le _ _).trans (le_trans ?_ h2)
      apply add_le_add le_rfl
      have e : lr * (v c).sum = ((v c).map fun x => lr * x).sum := by
        rw [List.sum_map_mul_left]
        simp
      rw [e]
      have := take_sum_abs ((v c).map fun x => lr * x) ((v c).map fun x => lr * x).length
      rw [List.take_length, List.map_map] at this
      exact this
    have := abs_le_of_near h1 h3
    linarith
  rw [hpraw] at h
  obtain ⟨q, q1, q2, _, q4, _⟩ := (C96_model exp hexp M hM row p h hpne hp700 (by omega)).1
  refine ⟨q, q1, by omega, fun c w hw => ?_⟩
  have hc : c < raw.length := by
    have := (List.getElem?_eq_some_iff.1 hw).1
    omega
  have hpc : p[c]? = some (s c) := by simp [hp, hc]
  have h1 := q4 c (s c) w hpc hw
  have h2 := prob_lip hpne hnear hD4 (hs c hc).2
  have htne : t ≠ [] := by
    intro h0
    have : t.length = raw.length := by simp [ht]
    rw [h0] at this
    exact hne (List.length_eq_zero_iff.1 this.symm)
  have hk := prob_pos htne (base + lr * (v c).sum)
  rw [hplen] at h1
  change |(w : ℝ) - _| ≤ (3 * (raw.length : ℝ) + 8) * uR * _ + _ at h1
  show |(w : ℝ) - prob t (base + lr * (v c).sum)| ≤ ((6 * (raw.length : ℝ) + 16) * uR + 4 * D) * prob t (base + lr * (v c).sum) + 2 ^ (-1075 : ℤ)
  generalize prob t (base + lr * (v c).sum) = k at *
  generalize prob p (s c) = r at *
  have hD' : (D : ℝ) ≤ 1 / 4 := by
    have : ((D : ℚ) : ℝ) ≤ ((1 / 4 : ℚ) : ℝ) := Rat.cast_le.2 hD4
    simpa using this
  have hr : r ≤ 2 * k := by
    have : 4 * (D : ℝ) * k ≤ 1 * k := mul_le_mul_of_nonneg_right (by linarith) hk.le
    linarith [(abs_le.1 h2).2]
  have hu := uR_pos
  have h3 : (3 * (raw.length : ℝ) + 8) * uR * r ≤ (3 * (raw.length : ℝ) + 8) * uR * (2 * k) :=
    mul_le_mul_of_nonneg_left hr (by positivity)
  have e : (w : ℝ) - k = (w - r) + (r - k) := by ring
  rw [e]
  refine (abs_add_le _ _).trans ?_
  have e2 : ((6 * (raw.length : ℝ) + 16) * uR + 4 * D) * k = (3 * (raw.length : ℝ) + 8) * uR * (2 * k) + 4 * D * k := by ring
  rw [e2]
  linarith

end AnyOrder

/-- A model that meets the hypotheses of `C97_scores` and `C97_probabilities`: `D = 2⁻⁴⁰`. -/
example : ∃ exp, ExpFloat exp ∧ (smallModel exp).rawScores [.fin 0] = .ok (([3/2, 5/2] : List ℚ).map XF.fin) ∧
    (∀ c < 2, List.Forall₂ (fun t x => t.predictSingle [.fin 0] = .ok (XF.fin x)) (treesOf (smallModel exp).b c)
      (if c = 0 then [1] else [3])) ∧ Rep64 1 ∧
    (∀ c < 2, |(1 : ℚ)| + ((if c = 0 then [1] else [3] : List ℚ).map fun x => |1 / 2 * x|).sum ≤ 3) ∧
    ∀ c < 2, (2 * ((if c = 0 then [1] else [3] : List ℚ).length : ℚ) + 2) * 2 ^ (-53 : ℤ) * 3 +
      2 * (if c = 0 then [1] else [3] : List ℚ).length * 2 ^ (-1075 : ℤ) ≤ 2 ^ (-40 : ℤ) := by
  obtain ⟨exp, h⟩ := expFloat_exists
  refine ⟨exp, h, smallModel_raw exp, ?_, ?_, by decide +kernel, by decide +kernel⟩
  · intro c hc
    match c, hc with
    | 0, _ => exact .cons rfl .nil
    | 1, _ => exact .cons rfl .nil
  · simpa using rep64_int (n := 1) (by norm_num)

end Boo
