import Verif.Lemmas.B64Err
import Verif.Model.Tree
import Mathlib.Tactic.FieldSimp

/-!
# Rounding errors of the scores of splits
-/

namespace Boo
open GoFloat

variable {τ : Option SumOrder}
/-- float64, with any order of the additions of `floats.Sum` -/
local notation "F64" => F64o τ

theorem eta64_le_one : eta64 ≤ 1 := by
  rw [eta64_def]
  exact zpow_le_one_of_nonpos₀ (by norm_num) (by norm_num)

theorem room_sq {A : ℚ} (h0 : 0 ≤ A) (hA : A ≤ 2 ^ (500 : Int)) : 64 * A ^ 2 + 64 ≤ big64 := by
  have h1 : A ^ 2 ≤ 2 ^ (1000 : Int) := by
    have := mul_le_mul hA hA h0 (two_zpow_pos _).le
    rw [← zpow_add₀ (by norm_num)] at this
    rw [pow_two]
    exact this
  have h2 : (1 : ℚ) ≤ 2 ^ (1000 : Int) := one_le_zpow₀ (by norm_num) (by norm_num)
  have h3 : big64 = 2 ^ (23 : Int) * 2 ^ (1000 : Int) := by
    rw [big64_def, ← zpow_add₀ (by norm_num)]
    norm_num
  rw [h3]
  generalize (2 : ℚ) ^ (1000 : Int) = P at *
  norm_num
  linarith

/-- a square, computed from an approximation -/
theorem sq64 {a L A δ : ℚ} (h : |a - L| ≤ δ) (hL : |L| ≤ A) (hδ : δ ≤ A) (hroom : 64 * A ^ 2 + 64 ≤ big64) :
    ∃ q, sq (.fin a : F64) = .fin q ∧ rv q = q ∧ |q - L ^ 2| ≤ 3 * (A * δ) + 4 * (u64 * A ^ 2) + eta64 := by
  have hA0 : 0 ≤ A := (abs_nonneg _).trans hL
  have hδ0 : 0 ≤ δ := (abs_nonneg _).trans h
  have hu := u64_pos
  have ha : |a| ≤ 2 * A := by
    have : a = (a - L) + L := by ring
    rw [this]
    exact (abs_add_le _ _).trans (by linarith)
  have haa : |a * a| ≤ 4 * A ^ 2 := by
    rw [abs_mul]
    have := mul_le_mul ha ha (abs_nonneg _) (by linarith)
    linarith [this, show 2 * A * (2 * A) = 4 * A ^ 2 by ring]
  have hA2 : 0 ≤ A ^ 2 := by positivity
  refine ⟨rv (a * a), mul64 (by linarith), rv_idem _, ?_⟩
  have h1 := rv_err (a * a)
  have h2 : u64 * |a * a| ≤ u64 * (4 * A ^ 2) := mul_le_mul_of_nonneg_left haa hu.le
  have h3 : |a * a - L ^ 2| ≤ 3 * (A * δ) := by
    have e : a * a - L ^ 2 = (a - L) * (a + L) := by ring
    rw [e, abs_mul]
    have : |a + L| ≤ 3 * A := (abs_add_le _ _).trans (by linarith)
    have := mul_le_mul h this (abs_nonneg _) hδ0
    linarith [show δ * (3 * A) = 3 * (A * δ) by ring]
  have e : rv (a * a) - L ^ 2 = (rv (a * a) - a * a) + (a * a - L ^ 2) := by ring
  rw [e]
  refine (abs_add_le _ _).trans ?_
  linarith

theorem abs_le_of_near {t x e B : ℚ} (h : |t - x| ≤ e) (hx : |x| ≤ B) : |t| ≤ B + e := by
  have : t = (t - x) + x := by ring
  rw [this]
  exact (abs_add_le _ _).trans (by linarith)

/-- a term `Y²/n` of the score -/
theorem sqdiv64 {a L A δ : ℚ} {n : Nat} (h : |a - L| ≤ δ) (hL : |L| ≤ A) (hδ : δ ≤ A)
    (hroom : 64 * A ^ 2 + 64 ≤ big64) (h1 : 1 ≤ n) (hn : n < 2 ^ 53) :
    ∃ t, (sq (.fin a : F64) /. ofInt n) = .fin t ∧ ((ofInt (-1) *. sq (.fin a : F64)) /. ofInt n) = .fin (-t) ∧ rv t = t ∧
      |t - L ^ 2 / n| ≤ 3 * (A * δ) + 9 * (u64 * A ^ 2) + 3 * eta64 ∧ |t| ≤ 5 * A ^ 2 + 3 * eta64 := by
  have hA0 : 0 ≤ A := (abs_nonneg _).trans hL
  have hδ0 : 0 ≤ δ := (abs_nonneg _).trans h
  have hu := u64_pos
  have hu1 := u64_le
  have he := eta64_pos
  have he1 := eta64_le_one
  obtain ⟨q, hq, rq, hqe⟩ := sq64 h hL hδ hroom
  have hA2 : 0 ≤ A ^ 2 := by positivity
  have hAδ : A * δ ≤ A ^ 2 := by rw [pow_two]; exact mul_le_mul_of_nonneg_left hδ hA0
  have huA : u64 * A ^ 2 ≤ 1 / 1000000 * A ^ 2 := mul_le_mul_of_nonneg_right hu1 hA2
  have hL2 : |L ^ 2| ≤ A ^ 2 := by
    rw [abs_pow]; exact pow_le_pow_left₀ (abs_nonneg _) hL 2
  have hqb := abs_le_of_near hqe hL2
  have hnq : (1 : ℚ) ≤ n := by exact_mod_cast h1
  have hn0 : (n : ℚ) ≠ 0 := by linarith
  have hdiv : ∀ x : ℚ, |x / n| ≤ |x| := by
    intro x
    rw [abs_div, abs_of_pos (by linarith : (0 : ℚ) < n), div_le_iff₀ (by linarith)]
    exact le_mul_of_one_le_right (abs_nonneg _) hnq
  have hof : (ofInt (n : Int) : F64) = .fin (n : ℚ) := by
    have := ofInt64 (τ := τ) (n := (n : Int)) (by rw [abs_of_nonneg (by omega)]; exact_mod_cast hn)
    simpa using this
  have hm1 : (ofInt (-1) : F64) = .fin (-1) := by
    have := ofInt64 (τ := τ) (n := -1) (by norm_num)
    simpa using this
  have hqn : |q / n| ≤ 5 * A ^ 2 + eta64 := (hdiv q).trans (by linarith)
  have hd1 : ((.fin q : F64) /. .fin (n : ℚ)) = .fin (rv (q / n)) := div64 hn0 (by linarith)
  have hd2 : ((.fin (-q) : F64) /. .fin (n : ℚ)) = .fin (-rv (q / n)) := by
    rw [div64 hn0 (by rw [neg_div, abs_neg]; linarith), neg_div, rv_neg]
  have hmul : ((.fin (-1) : F64) *. .fin q) = .fin (-q) := by
    rw [mul64 (by rw [neg_one_mul, abs_neg]; linarith), neg_one_mul, rv_neg, rq]
  have herr : |rv (q / n) - L ^ 2 / n| ≤ 3 * (A * δ) + 9 * (u64 * A ^ 2) + 3 * eta64 := by
    have e : rv (q / n) - L ^ 2 / n = (rv (q / n) - q / n) + (q - L ^ 2) / n := by ring
    rw [e]
    refine (abs_add_le _ _).trans ?_
    have h2 := rv_err (q / n)
    have h3 := hdiv (q - L ^ 2)
    have h4 : u64 * |q / n| ≤ u64 * (5 * A ^ 2 + eta64) := mul_le_mul_of_nonneg_left hqn hu.le
    have h5 : u64 * eta64 ≤ 1 * eta64 := mul_le_mul_of_nonneg_right (by linarith) he.le
    linarith
  refine ⟨rv (q / n), ?_, ?_, rv_idem _, herr, ?_⟩
  · rw [hq, hof]; exact hd1
  · rw [hq, hof, hm1, hmul]; exact hd2
  · have := abs_le_of_near herr ((hdiv (L ^ 2)).trans hL2)
    linarith

/-- the score of a split of a regular tree, computed from approximate sums -/
theorem gainG64 {aL aR s L R T A δ : ℚ} {nl nr n : Nat} (hl : |aL - L| ≤ δ) (hr : |aR - R| ≤ δ) (hs : |s - T| ≤ δ)
    (hL : |L| ≤ A) (hR : |R| ≤ A) (hT : |T| ≤ A) (hδ : δ ≤ A) (hroom : 64 * A ^ 2 + 64 ≤ big64) (hnl : 1 ≤ nl) (hnr : 1 ≤ nr)
    (hn : 1 ≤ n) (bl : nl < 2 ^ 53) (br : nr < 2 ^ 53) (bn : n < 2 ^ 53) :
    ∃ v, gainG (.fin aL : F64) (.fin aR) (.fin s) nl nr n = .fin v ∧
      |v - (-L ^ 2 / nl - R ^ 2 / nr + T ^ 2 / n)| ≤ 9 * (A * δ) + 53 * (u64 * A ^ 2) + 10 * eta64 := by
  have hu := u64_pos
  have hu1 := u64_le
  have he := eta64_pos
  have he1 := eta64_le_one
  have hA2 : 0 ≤ A ^ 2 := by positivity
  have hA0 : 0 ≤ A := (abs_nonneg _).trans hL
  have hAδ : A * δ ≤ A ^ 2 := by rw [pow_two]; exact mul_le_mul_of_nonneg_left hδ hA0
  have huA : u64 * A ^ 2 ≤ 1 / 1000000 * A ^ 2 := mul_le_mul_of_nonneg_right hu1 hA2
  have hue : u64 * eta64 ≤ 1 / 1000000 * eta64 := mul_le_mul_of_nonneg_right (by linarith) he.le
  obtain ⟨tL, _, eL, rL, dL, bL⟩ := sqdiv64 hl hL hδ hroom hnl bl
  obtain ⟨tR, eR, _, rR, dR, bR⟩ := sqdiv64 hr hR hδ hroom hnr br
  obtain ⟨tT, eT, _, rT, dT, bT⟩ := sqdiv64 hs hT hδ hroom hn bn
  have b1 : |-tL - tR| ≤ 10 * A ^ 2 + 6 * eta64 := by
    rw [sub_eq_add_neg]
    refine (abs_add_le _ _).trans ?_
    rw [abs_neg, abs_neg]
    linarith
  have r1 := rv_add_err (a := -tL) (b := -tR) (by rw [rv_neg, rL]) (by rw [rv_neg, rR])
  rw [← sub_eq_add_neg] at r1
  have r1' : u64 * |-tL - tR| ≤ u64 * (10 * A ^ 2 + 6 * eta64) := mul_le_mul_of_nonneg_left b1 hu.le
  have b2 : |rv (-tL - tR) + tT| ≤ 16 * A ^ 2 + 10 * eta64 := by
    refine (abs_add_le _ _).trans ?_
    have := abs_le_of_near (r1.trans r1') b1
    linarith
  have r2 := rv_add_err (a := rv (-tL - tR)) (b := tT) (rv_idem _) rT
  have r2' : u64 * |rv (-tL - tR) + tT| ≤ u64 * (16 * A ^ 2 + 10 * eta64) := mul_le_mul_of_nonneg_left b2 hu.le
  refine ⟨rv (rv (-tL - tR) + tT), ?_, ?_⟩
  · unfold gainG
    rw [eL, eR, eT, sub64 (by linarith), add64 (by linarith)]
  · have e : rv (rv (-tL - tR) + tT) - (-L ^ 2 / nl - R ^ 2 / nr + T ^ 2 / n) =
        (rv (rv (-tL - tR) + tT) - (rv (-tL - tR) + tT)) + (rv (-tL - tR) - (-tL - tR)) + -(tL - L ^ 2 / nl) + -(tR - R ^ 2 / nr)
          + (tT - T ^ 2 / n) := by ring
    rw [e]
    refine (abs_add_le _ _).trans ?_
    refine (add_le_add (abs_add_le _ _) le_rfl).trans ?_
    refine (add_le_add (add_le_add (abs_add_le _ _) le_rfl) le_rfl).trans ?_
    refine (add_le_add (add_le_add (add_le_add (abs_add_le _ _) le_rfl) le_rfl) le_rfl).trans ?_
    rw [abs_neg, abs_neg]
    linarith

/-- the denominator `H + Lambda`, computed from an approximate `H` -/
theorem den64 {h H lam δ m : ℚ} (rh : rv h = h) (rl : rv lam = lam) (hh : |h - H| ≤ δ) (hm : 0 < m) (hD : m ≤ H + lam)
    (hroom : H + lam + δ ≤ big64) (hρ : 2 * δ / m + u64 ≤ 1 / 2) :
    ∃ d, ((.fin h : F64) +. .fin lam) = .fin d ∧ rv d = d ∧ |d - (H + lam)| ≤ (2 * δ / m + u64) * (H + lam) ∧ 0 < d := by
  have hu := u64_pos
  have hu1 := u64_le
  have hδ0 : 0 ≤ δ := (abs_nonneg _).trans hh
  have hb : |h + lam| ≤ H + lam + δ := by
    have := abs_le_of_near (t := h + lam) (x := H + lam) (e := δ) (B := H + lam) (by simpa using hh)
      (by rw [abs_of_pos (by linarith)])
    exact this
  have herr : |rv (h + lam) - (H + lam)| ≤ (2 * δ / m + u64) * (H + lam) := by
    have e : rv (h + lam) - (H + lam) = (rv (h + lam) - (h + lam)) + (h - H) := by ring
    rw [e]
    refine (abs_add_le _ _).trans ?_
    have h1 := rv_add_err rh rl
    have h2 : u64 * |h + lam| ≤ u64 * (H + lam + δ) := mul_le_mul_of_nonneg_left hb hu.le
    have h3 : u64 * δ ≤ 1 * δ := mul_le_mul_of_nonneg_right (by linarith) hδ0
    have h4 : 2 * δ ≤ 2 * δ / m * (H + lam) := by
      have := mul_le_mul_of_nonneg_left hD (by positivity : 0 ≤ 2 * δ / m)
      rwa [div_mul_cancel₀ _ hm.ne'] at this
    linarith
  refine ⟨rv (h + lam), add64 (by linarith), rv_idem _, herr, ?_⟩
  have h5 : (2 * δ / m + u64) * (H + lam) ≤ 1 / 2 * (H + lam) := mul_le_mul_of_nonneg_right hρ (by linarith)
  have := abs_le.1 (herr.trans h5)
  linarith [this.1]

/-- a term `G²/(H+Lambda)` of the gain -/
theorem quot64 {a L A δ d D m ρ : ℚ} (h : |a - L| ≤ δ) (hL : |L| ≤ A) (hδ : δ ≤ A) (hm : 0 < m) (hD : m ≤ D)
    (hd : |d - D| ≤ ρ * D) (hρ : ρ ≤ 1 / 2) (hroom : 64 * A ^ 2 + 64 ≤ big64) (hroom2 : 64 * (A ^ 2 / m) + 64 * (eta64 / m) ≤ big64) :
    ∃ t, (sq (.fin a : F64) /. .fin d) = .fin t ∧ rv t = t ∧
      |t - L ^ 2 / D| ≤ 6 * (A * δ / m) + 17 * (u64 * (A ^ 2 / m)) + 2 * (ρ * (A ^ 2 / m)) + 3 * (eta64 / m) + eta64 ∧
      |t| ≤ 9 * (A ^ 2 / m) + 3 * (eta64 / m) + eta64 := by
  have hA0 : 0 ≤ A := (abs_nonneg _).trans hL
  have hδ0 : 0 ≤ δ := (abs_nonneg _).trans h
  have hu := u64_pos
  have hu1 := u64_le
  have he := eta64_pos
  obtain ⟨q, hq, rq, hqe⟩ := sq64 h hL hδ hroom
  have hD0 : 0 < D := by linarith
  have hρ0 : 0 ≤ ρ := by
    by_contra hc
    have := mul_neg_of_neg_of_pos (not_le.1 hc) hD0
    linarith [abs_nonneg (d - D)]
  have hd2 : D / 2 ≤ d := by
    have h5 : ρ * D ≤ 1 / 2 * D := mul_le_mul_of_nonneg_right hρ hD0.le
    have := (abs_le.1 (hd.trans h5)).1
    linarith
  have hd0 : 0 < d := by linarith
  have hdiv : ∀ x : ℚ, |x / d| ≤ 2 * (|x| / m) := by
    intro x
    rw [abs_div, abs_of_pos hd0, ← mul_div_assoc, div_le_div_iff₀ hd0 hm]
    have := mul_le_mul_of_nonneg_left (by linarith : m ≤ 2 * d) (abs_nonneg x)
    linarith
  have hL2 : |L ^ 2| ≤ A ^ 2 := by
    rw [abs_pow]; exact pow_le_pow_left₀ (abs_nonneg _) hL 2
  have hA2 : 0 ≤ A ^ 2 := by positivity
  have hQ : 0 ≤ A ^ 2 / m := by positivity
  have hz : 0 ≤ eta64 / m := by positivity
  have hP : A * δ / m ≤ A ^ 2 / m := by
    apply div_le_div_of_nonneg_right _ hm.le
    rw [pow_two]; exact mul_le_mul_of_nonneg_left hδ hA0
  have hP0 : 0 ≤ A * δ / m := by positivity
  have h1 : |(q - L ^ 2) / d| ≤ 6 * (A * δ / m) + 8 * (u64 * (A ^ 2 / m)) + 2 * (eta64 / m) := by
    refine (hdiv _).trans ?_
    have := div_le_div_of_nonneg_right hqe hm.le
    have e : (3 * (A * δ) + 4 * (u64 * A ^ 2) + eta64) / m = 3 * (A * δ / m) + 4 * (u64 * (A ^ 2 / m)) + eta64 / m := by
      field_simp
    rw [e] at this
    linarith
  have h2 : |L ^ 2 * (D - d) / (d * D)| ≤ 2 * (ρ * (A ^ 2 / m)) := by
    rw [abs_div, abs_mul, abs_sub_comm, abs_of_pos (mul_pos hd0 hD0), div_le_iff₀ (mul_pos hd0 hD0)]
    have i1 : |L ^ 2| * |d - D| ≤ A ^ 2 * (ρ * D) := mul_le_mul hL2 hd (abs_nonneg _) hA2
    have i2 : A ^ 2 * (ρ * D) ≤ 2 * (ρ * (A ^ 2 / m)) * (d * D) := by
      have i3 : 1 ≤ 2 * d / m := by rw [le_div_iff₀ hm]; linarith
      have i4 := mul_le_mul_of_nonneg_left i3 (by positivity : 0 ≤ A ^ 2 * (ρ * D))
      have e : A ^ 2 * (ρ * D) * (2 * d / m) = 2 * (ρ * (A ^ 2 / m)) * (d * D) := by ring
      linarith
    linarith
  have hbase : |L ^ 2 / D| ≤ A ^ 2 / m := by
    rw [abs_div, abs_of_pos hD0]
    exact div_le_div₀ hA2 hL2 hm hD
  have hcl : |q / d - L ^ 2 / D| ≤ 6 * (A * δ / m) + 8 * (u64 * (A ^ 2 / m)) + 2 * (eta64 / m) + 2 * (ρ * (A ^ 2 / m)) := by
    have e : q / d - L ^ 2 / D = (q - L ^ 2) / d + L ^ 2 * (D - d) / (d * D) := by
      field_simp
      ring
    rw [e]
    exact (abs_add_le _ _).trans (by linarith)
  have huQ : u64 * (A ^ 2 / m) ≤ 1 / 1000000 * (A ^ 2 / m) := mul_le_mul_of_nonneg_right hu1 hQ
  have hρQ : ρ * (A ^ 2 / m) ≤ 1 / 2 * (A ^ 2 / m) := mul_le_mul_of_nonneg_right hρ hQ
  have huz : u64 * (eta64 / m) ≤ 1 / 1000000 * (eta64 / m) := mul_le_mul_of_nonneg_right hu1 hz
  have hqd : |q / d| ≤ 8 * (A ^ 2 / m) + 1 / 100 * (A ^ 2 / m) + 2 * (eta64 / m) := by
    have := abs_le_of_near hcl hbase
    linarith
  have herr : |rv (q / d) - L ^ 2 / D| ≤ 6 * (A * δ / m) + 17 * (u64 * (A ^ 2 / m)) + 2 * (ρ * (A ^ 2 / m)) + 3 * (eta64 / m) + eta64 := by
    have e : rv (q / d) - L ^ 2 / D = (rv (q / d) - q / d) + (q / d - L ^ 2 / D) := by ring
    rw [e]
    refine (abs_add_le _ _).trans ?_
    have h6 := rv_err (q / d)
    have h7 : u64 * |q / d| ≤ u64 * (8 * (A ^ 2 / m) + 1 / 100 * (A ^ 2 / m) + 2 * (eta64 / m)) := mul_le_mul_of_nonneg_left hqd hu.le
    have h8 : 0 ≤ u64 * (A ^ 2 / m) := by positivity
    linarith
  refine ⟨rv (q / d), ?_, rv_idem _, herr, ?_⟩
  · rw [hq]
    exact div64 hd0.ne' (by linarith)
  · have := abs_le_of_near herr hbase
    linarith

/-- the gain of a split of an xgboost tree, computed from approximate sums -/
theorem gainX64 {aL aR s L R T A δ hL hR hs HL HR HT δh lam gam m : ℚ}
    (el : |aL - L| ≤ δ) (er : |aR - R| ≤ δ) (es : |s - T| ≤ δ)
    (bL : |L| ≤ A) (bR : |R| ≤ A) (bT : |T| ≤ A) (hδ : δ ≤ A) (hroom : 64 * A ^ 2 + 64 ≤ big64)
    (hroom2 : 64 * (A ^ 2 / m) + 64 * (eta64 / m) + |gam| + 64 ≤ big64)
    (fl : |hL - HL| ≤ δh) (fr : |hR - HR| ≤ δh) (fs : |hs - HT| ≤ δh) (rl : rv hL = hL) (rr : rv hR = hR) (rs : rv hs = hs)
    (rlam : rv lam = lam) (hm : 0 < m) (dL : m ≤ HL + lam) (dR : m ≤ HR + lam) (dT : m ≤ HT + lam)
    (hρ : 2 * δh / m + u64 ≤ 1 / 2) (oL : HL + lam + δh ≤ big64) (oR : HR + lam + δh ≤ big64) (oT : HT + lam + δh ≤ big64) :
    ∃ v, gainX (.fin lam : F64) (.fin gam) (.fin aL) (.fin hL) (.fin aR) (.fin hR) (.fin s) (.fin hs) = .fin v ∧
      |v - (1 / 2 * (L ^ 2 / (HL + lam) + R ^ 2 / (HR + lam) - T ^ 2 / (HT + lam)) - gam / 2)| ≤
        9 * (A * δ / m) + 80 * (u64 * (A ^ 2 / m)) + 3 * ((2 * δh / m + u64) * (A ^ 2 / m)) + 5 * (eta64 / m) + 5 * eta64
          + 2 * (u64 * |gam|) := by
  have hu := u64_pos
  have hu1 := u64_le
  have he := eta64_pos
  have he1 := eta64_le_one
  have hA0 : 0 ≤ A := (abs_nonneg _).trans bL
  have hγ := abs_nonneg gam
  obtain ⟨d1, e1, _, n1, _⟩ := den64 rl rlam fl hm dL oL hρ
  obtain ⟨d2, e2, _, n2, _⟩ := den64 rr rlam fr hm dR oR hρ
  obtain ⟨d3, e3, _, n3, _⟩ := den64 rs rlam fs hm dT oT hρ
  obtain ⟨t1, q1, r1, c1, b1⟩ := quot64 el bL hδ hm dL n1 hρ hroom (by linarith)
  obtain ⟨t2, q2, r2, c2, b2⟩ := quot64 er bR hδ hm dR n2 hρ hroom (by linarith)
  obtain ⟨t3, q3, r3, c3, b3⟩ := quot64 es bT hδ hm dT n3 hρ hroom (by linarith)
  set ρ := 2 * δh / m + u64
  have hQ : 0 ≤ A ^ 2 / m := by positivity
  have hz : 0 ≤ eta64 / m := by positivity
  have huQ : u64 * (A ^ 2 / m) ≤ 1 / 1000000 * (A ^ 2 / m) := mul_le_mul_of_nonneg_right hu1 hQ
  have huz : u64 * (eta64 / m) ≤ 1 / 1000000 * (eta64 / m) := mul_le_mul_of_nonneg_right hu1 hz
  have hue : u64 * eta64 ≤ 1 / 1000000 * eta64 := mul_le_mul_of_nonneg_right hu1 he.le
  have huγ : u64 * |gam| ≤ 1 / 1000000 * |gam| := mul_le_mul_of_nonneg_right hu1 hγ
  have huQ0 : 0 ≤ u64 * (A ^ 2 / m) := by positivity
  have huz0 : 0 ≤ u64 * (eta64 / m) := by positivity
  have hue0 : 0 ≤ u64 * eta64 := by positivity
  have huγ0 : 0 ≤ u64 * |gam| := by positivity
  have hP : A * δ / m ≤ A ^ 2 / m := by
    apply div_le_div_of_nonneg_right _ hm.le
    rw [pow_two]; exact mul_le_mul_of_nonneg_left hδ hA0
  obtain ⟨B, hB⟩ : ∃ B, B = 9 * (A ^ 2 / m) + 3 * (eta64 / m) + eta64 := ⟨_, rfl⟩
  rw [← hB] at b1 b2 b3
  have hB0 : 0 ≤ B := (abs_nonneg _).trans b1
  have huB : u64 * B ≤ 1 / 1000000 * B := mul_le_mul_of_nonneg_right hu1 hB0
  have huB0 : 0 ≤ u64 * B := by positivity
  -- tL + tR
  have m1 : |t1 + t2| ≤ 2 * B := (abs_add_le _ _).trans (by linarith)
  have s1 := rv_add_err r1 r2
  have s1' : |rv (t1 + t2) - (t1 + t2)| ≤ 2 * (u64 * B) := s1.trans (by
    have := mul_le_mul_of_nonneg_left m1 hu.le
    linarith)
  have k1 := abs_le_of_near s1' m1
  -- minus the parent
  have m2 : |rv (t1 + t2) - t3| ≤ 31 / 10 * B := by
    rw [sub_eq_add_neg]
    refine (abs_add_le _ _).trans ?_
    rw [abs_neg]
    linarith
  have s2 := rv_add_err (rv_idem (t1 + t2)) (b := -t3) (by rw [rv_neg, r3])
  rw [← sub_eq_add_neg] at s2
  have s2' : |rv (rv (t1 + t2) - t3) - (rv (t1 + t2) - t3)| ≤ 31 / 10 * (u64 * B) := s2.trans (by
    have := mul_le_mul_of_nonneg_left m2 hu.le
    linarith)
  have k2 := abs_le_of_near s2' m2
  -- half
  obtain ⟨w, hw⟩ : ∃ w, w = rv (rv (t1 + t2) - t3) := ⟨_, rfl⟩
  rw [← hw] at s2' k2
  have m3 : |1 / 2 * w| ≤ 16 / 10 * B := by
    rw [abs_mul, abs_of_pos (by norm_num : (0 : ℚ) < 1 / 2)]
    linarith
  have s3 : |rv (1 / 2 * w) - 1 / 2 * w| ≤ 16 / 10 * (u64 * B) + eta64 := (rv_err _).trans (by
    have := mul_le_mul_of_nonneg_left m3 hu.le
    linarith)
  have k3 := abs_le_of_near s3 m3
  have m4 : |gam / 2| ≤ 1 / 2 * |gam| := by
    rw [abs_div, abs_of_pos (by norm_num : (0 : ℚ) < 2)]
    linarith
  have s4 : |rv (gam / 2) - gam / 2| ≤ 1 / 2 * (u64 * |gam|) + eta64 := (rv_err _).trans (by
    have := mul_le_mul_of_nonneg_left m4 hu.le
    linarith)
  have k4 := abs_le_of_near s4 m4
  have m5 : |rv (1 / 2 * w) - rv (gam / 2)| ≤ 17 / 10 * B + 6 / 10 * |gam| + 2 * eta64 := by
    rw [sub_eq_add_neg]
    refine (abs_add_le _ _).trans ?_
    rw [abs_neg]
    linarith
  have s5 := rv_add_err (rv_idem (1 / 2 * w)) (b := -rv (gam / 2)) (by rw [rv_neg, rv_idem])
  rw [← sub_eq_add_neg] at s5
  have s5' : |rv (rv (1 / 2 * w) - rv (gam / 2)) - (rv (1 / 2 * w) - rv (gam / 2))| ≤
      17 / 10 * (u64 * B) + 6 / 10 * (u64 * |gam|) + 2 * (u64 * eta64) := s5.trans (by
    have := mul_le_mul_of_nonneg_left m5 hu.le
    linarith)
  have o2 : (ofRat 2 : F64) = .fin 2 := ofRat64_two
  have o12 : (ofRat (1 / 2) : F64) = .fin (1 / 2) := ofRat64 (by decide +kernel)
  refine ⟨rv (rv (1 / 2 * w) - rv (gam / 2)), ?_, ?_⟩
  · unfold gainX
    rw [e1, e2, e3, q1, q2, q3, o2, o12, add64 (by linarith), sub64 (by linarith), ← hw, mul64 (by linarith),
      div64 (by norm_num) (by linarith), sub64 (by linarith)]
  · have e : rv (rv (1 / 2 * w) - rv (gam / 2)) - (1 / 2 * (L ^ 2 / (HL + lam) + R ^ 2 / (HR + lam) - T ^ 2 / (HT + lam)) - gam / 2)
        = (rv (rv (1 / 2 * w) - rv (gam / 2)) - (rv (1 / 2 * w) - rv (gam / 2))) + (rv (1 / 2 * w) - 1 / 2 * w)
          + -(rv (gam / 2) - gam / 2)
          + 1 / 2 * ((w - (rv (t1 + t2) - t3)) + (rv (t1 + t2) - (t1 + t2)) + (t1 - L ^ 2 / (HL + lam))
            + (t2 - R ^ 2 / (HR + lam)) + -(t3 - T ^ 2 / (HT + lam))) := by ring
    rw [e]
    refine (abs_add_le _ _).trans ?_
    have p1 := abs_add_le ((rv (rv (1 / 2 * w) - rv (gam / 2)) - (rv (1 / 2 * w) - rv (gam / 2))) + (rv (1 / 2 * w) - 1 / 2 * w))
      (-(rv (gam / 2) - gam / 2))
    have p2 := abs_add_le (rv (rv (1 / 2 * w) - rv (gam / 2)) - (rv (1 / 2 * w) - rv (gam / 2))) (rv (1 / 2 * w) - 1 / 2 * w)
    have p3 : |(w - (rv (t1 + t2) - t3)) + (rv (t1 + t2) - (t1 + t2)) + (t1 - L ^ 2 / (HL + lam))
            + (t2 - R ^ 2 / (HR + lam)) + -(t3 - T ^ 2 / (HT + lam))| ≤
          |w - (rv (t1 + t2) - t3)| + |rv (t1 + t2) - (t1 + t2)| + |t1 - L ^ 2 / (HL + lam)| + |t2 - R ^ 2 / (HR + lam)|
            + |t3 - T ^ 2 / (HT + lam)| := by
      refine (abs_add_le _ _).trans ?_
      refine (add_le_add (abs_add_le _ _) le_rfl).trans ?_
      refine (add_le_add (add_le_add (abs_add_le _ _) le_rfl) le_rfl).trans ?_
      refine (add_le_add (add_le_add (add_le_add (abs_add_le _ _) le_rfl) le_rfl) le_rfl).trans ?_
      rw [abs_neg]
    rw [abs_neg] at p1
    rw [abs_mul, abs_of_pos (by norm_num : (0 : ℚ) < 1 / 2)]
    have huB' : u64 * B = 9 * (u64 * (A ^ 2 / m)) + 3 * (u64 * (eta64 / m)) + u64 * eta64 := by rw [hB]; ring
    linarith

end Boo
