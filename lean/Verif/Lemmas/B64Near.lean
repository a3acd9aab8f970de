import Verif.Lemmas.B64

/-!
# Rounding of binary64 goes to the nearest value, and midpoints of values that are not neighbours
-/

namespace Boo
open GoFloat

theorem rne_near (q : ℚ) (n : Int) : |(rne q : ℚ) - q| ≤ |(n : ℚ) - q| := by
  have h0 := Int.floor_le q
  have h1 := Int.lt_floor_add_one q
  have hn : n ≤ ⌊q⌋ ∨ ⌊q⌋ + 1 ≤ n := by omega
  have hc : (n : ℚ) ≤ ⌊q⌋ ∨ (⌊q⌋ : ℚ) + 1 ≤ n := by
    rcases hn with h | h
    · exact Or.inl (by exact_mod_cast h)
    · exact Or.inr (by exact_mod_cast h)
  have key : |(rne q : ℚ) - q| ≤ q - ⌊q⌋ ∧ |(rne q : ℚ) - q| ≤ ⌊q⌋ + 1 - q := by
    unfold rne
    simp only
    split_ifs <;> push_cast <;> constructor <;> rw [abs_le] <;> constructor <;> linarith
  rcases hc with h | h
  · refine key.1.trans ?_
    rw [abs_sub_comm]
    exact le_trans (by linarith) (le_abs_self _)
  · refine key.2.trans ?_
    exact le_trans (by linarith) (le_abs_self _)

theorem ebin_zero_or {x : ℚ} (hx : x ≠ 0) : |x| < 2 ^ (ebin x + 1) := by
  rcases lt_or_gt_of_ne hx with h | h
  · rw [abs_of_neg h, ← ebin_neg]
    exact ebin_spec (by linarith)
  · rw [abs_of_pos h]
    exact ebin_spec h

/-- a value is a multiple of every smaller unit -/
theorem grid_of_le {y : ℚ} (h : rv y = y) {E : Int} (hE : E ≤ ebin y - 52) : ∃ n : Int, y = n * 2 ^ E := by
  obtain ⟨n, hn⟩ := rv_is_grid h
  obtain ⟨j, hj⟩ : ∃ j : Nat, ebin y - 52 = E + j := ⟨(ebin y - 52 - E).toNat, by omega⟩
  refine ⟨n * 2 ^ j, ?_⟩
  rw [hj, zpow_add₀ (by norm_num), zpow_natCast] at hn
  rw [hn]
  push_cast
  ring

theorem rv_near_pos {x y : ℚ} (hx : 0 < x) (hy : rv y = y) : |rv x - x| ≤ |y - x| := by
  have scaled : ∀ n : Int, |rv x - x| ≤ |(n : ℚ) * 2 ^ (ebin x - 52) - x| := by
    intro n
    have h := rne_near (x / 2 ^ (ebin x - 52)) n
    have hp := two_zpow_pos (ebin x - 52)
    unfold rv
    set P := (2 : ℚ) ^ (ebin x - 52)
    have e1 : (rne (x / P) : ℚ) * P - x = ((rne (x / P) : ℚ) - x / P) * P := by field_simp
    have e2 : (n : ℚ) * P - x = ((n : ℚ) - x / P) * P := by field_simp
    rw [e1, e2, abs_mul, abs_mul]
    exact mul_le_mul_of_nonneg_right h (abs_nonneg _)
  by_cases hE : ebin x ≤ ebin y
  · obtain ⟨n, hn⟩ := grid_of_le hy (E := ebin x - 52) (by omega)
    rw [hn]
    exact scaled n
  · have hlow : -1022 ≤ ebin y := by unfold ebin; omega
    have h1 : (2 : ℚ) ^ ebin x ≤ x := ebin_spec_le hx (by omega)
    have h2 : y ≤ 2 ^ ebin x := by
      by_cases hy0 : y = 0
      · rw [hy0]; exact (two_zpow_pos _).le
      · refine (le_abs_self y).trans ((ebin_zero_or hy0).le.trans ?_)
        exact zpow_le_zpow_right₀ (by norm_num) (by omega)
    have h3 := scaled (2 ^ 52)
    have e : ((2 ^ 52 : Int) : ℚ) * 2 ^ (ebin x - 52) = 2 ^ (ebin x) := by
      have : ((2 ^ 52 : Int) : ℚ) = 2 ^ (52 : Int) := by norm_num
      rw [this, ← zpow_add₀ (by norm_num)]; congr 1; ring
    rw [e] at h3
    refine h3.trans ?_
    rw [abs_sub_comm, abs_sub_comm y, abs_of_nonneg (by linarith), abs_of_nonneg (by linarith)]
    linarith

/-- rounding goes to a nearest value -/
theorem rv_near {y : ℚ} (x : ℚ) (hy : rv y = y) : |rv x - x| ≤ |y - x| := by
  rcases lt_trichotomy 0 x with h | h | h
  · exact rv_near_pos h hy
  · rw [← h, rv_zero]
    simp
  · have hy' : rv (-y) = -y := by rw [rv_neg, hy]
    have := rv_near_pos (x := -x) (y := -y) (by linarith) hy'
    rw [rv_neg] at this
    rw [show -rv x - -x = -(rv x - x) by ring, show -y - -x = -(y - x) by ring, abs_neg, abs_neg] at this
    exact this

theorem grid_small {x E : ℚ} {e : Int} {n : Int} (hE : E = 2 ^ e) (h : x = n * E) (hx : |x| < 2 ^ (e + 53)) : |n| < 2 ^ 53 := by
  have hp := two_zpow_pos e
  rw [h, hE, abs_mul, abs_of_pos hp, zpow_add₀ (by norm_num), mul_comm ((2 : ℚ) ^ e)] at hx
  have h1 := lt_of_mul_lt_mul_right hx hp.le
  have h2 : ((|n| : Int) : ℚ) < ((2 ^ 53 : Int) : ℚ) := by
    rw [Int.cast_abs]
    refine lt_of_lt_of_eq h1 ?_
    norm_num
  exact_mod_cast h2

/-- halving a value that is not tiny is exact -/
theorem rv_halve {z : ℚ} (h : rv z = z) (hz : 2 ^ (-1021 : Int) ≤ |z|) : rv (z / 2) = z / 2 := by
  have h0 : z ≠ 0 := by
    rintro rfl
    rw [abs_zero] at hz
    exact absurd (two_zpow_pos (-1021)) (not_lt.2 hz)
  obtain ⟨n, hn⟩ := rv_is_grid h
  have h1 := ebin_zero_or h0
  have h2 : -1021 ≤ ebin z := by
    by_contra hc
    have : (2 : ℚ) ^ (ebin z + 1) ≤ 2 ^ (-1021 : Int) := zpow_le_zpow_right₀ (by norm_num) (by omega)
    linarith
  have h3 : |n| < 2 ^ 53 := grid_small rfl hn (by rw [show ebin z - 52 + 53 = ebin z + 1 by ring]; exact h1)
  have h4 : z / 2 = n * 2 ^ (ebin z - 53) := by
    rw [show ebin z - 53 = ebin z - 52 - 1 by ring, zpow_sub₀ (by norm_num) (ebin z - 52) 1]
    conv_lhs => rw [hn]
    norm_num
    ring
  rw [h4]
  exact rv_grid _ _ h3 (by omega)

/-- tiny values are multiples of the smallest positive value -/
theorem tiny_grid {x : ℚ} (h : rv x = x) (hx : |x| < 2 ^ (-1021 : Int)) : ∃ n : Int, x = n * 2 ^ (-1074 : Int) ∧ |n| < 2 ^ 53 := by
  have hlow : -1022 ≤ ebin x := by unfold ebin; omega
  obtain ⟨n, hn⟩ := grid_of_le h (E := -1074) (by omega)
  exact ⟨n, hn, grid_small rfl hn (by norm_num at hx ⊢; exact hx)⟩

theorem rv_idem_pos {x : ℚ} (hx : 0 < x) : rv (rv x) = rv x := by
  have hlow : -1022 ≤ ebin x := by unfold ebin; omega
  have hb : x / 2 ^ (ebin x - 52) ≤ ((2 ^ 53 : Int) : ℚ) := by
    rw [div_le_iff₀ (two_zpow_pos _)]
    have e : ((2 ^ 53 : Int) : ℚ) * 2 ^ (ebin x - 52) = 2 ^ (ebin x + 1) := by
      have : ((2 ^ 53 : Int) : ℚ) = 2 ^ (53 : Int) := by norm_num
      rw [this, ← zpow_add₀ (by norm_num)]; congr 1; ring
    rw [e]; exact (ebin_spec hx).le
  have h1 := rne_mono hb
  rw [rne_int] at h1
  have h0 : (0 : Int) ≤ rne (x / 2 ^ (ebin x - 52)) := by
    have := rne_mono (q := 0) (r := x / 2 ^ (ebin x - 52)) (by positivity)
    have h2 : rne (0 : ℚ) = 0 := by simpa using rne_int 0
    rwa [h2] at this
  have e : rv x = (rne (x / 2 ^ (ebin x - 52)) : ℚ) * 2 ^ (ebin x - 52) := rfl
  rw [e]
  set n := rne (x / 2 ^ (ebin x - 52))
  rcases lt_or_eq_of_le h1 with h | h
  · exact rv_grid _ _ (by rw [abs_of_nonneg h0]; exact h) (by omega)
  · rw [h]
    have e : ((2 ^ 53 : Int) : ℚ) * 2 ^ (ebin x - 52) = ((1 : Int) : ℚ) * 2 ^ (ebin x + 1) := by
      have : ((2 ^ 53 : Int) : ℚ) = 2 ^ (53 : Int) := by norm_num
      rw [this, ← zpow_add₀ (by norm_num)]
      rw [Int.cast_one, one_mul]
      congr 1; ring
    rw [e]
    exact rv_grid _ _ (by norm_num) (by omega)

/-- what rounding gives is not changed by rounding again -/
theorem rv_idem (x : ℚ) : rv (rv x) = rv x := by
  rcases lt_trichotomy 0 x with h | h | h
  · exact rv_idem_pos h
  · rw [← h, rv_zero, rv_zero]
  · have := rv_idem_pos (x := -x) (by linarith)
    rw [rv_neg, rv_neg] at this
    linarith

/-- **The midpoint computed in binary64 is below the larger value** whenever some binary64 value lies between. -/
theorem mid64_lt {a b c : ℚ} (ra : rv a = a) (rb : rv b = b) (rc : rv c = c) (hac : a < c) (hcb : c < b) :
    rv (rv (a + b) / 2) < b := by
  have h2 : rv (a + b) ≤ 2 * b := by
    rw [← rv_double rb]; exact rv_mono (by linarith)
  have hz : rv (a + b) < 2 * b := by
    have h := rv_near (a + b) (rv_double rc)
    have h1 : |2 * c - (a + b)| < b - a := by rw [abs_lt]; constructor <;> linarith
    have h3 := (abs_lt.1 (lt_of_le_of_lt h h1)).2
    linarith
  set z := rv (a + b) with hzd
  have rz : rv z = z := rv_idem _
  have r21 : rv (2 ^ (-1021 : Int)) = 2 ^ (-1021 : Int) := by
    have := rv_grid 1 (-1021) (by norm_num) (by norm_num)
    rwa [Int.cast_one, one_mul] at this
  have r22 : rv (2 ^ (-1022 : Int)) = 2 ^ (-1022 : Int) := by
    have := rv_grid 1 (-1022) (by norm_num) (by norm_num)
    rwa [Int.cast_one, one_mul] at this
  have e22 : (2 : ℚ) ^ (-1021 : Int) = 2 * 2 ^ (-1022 : Int) := by
    rw [show (-1021 : Int) = 1 + -1022 by norm_num, zpow_add₀ (by norm_num)]; norm_num
  have p22 := two_zpow_pos (-1022)
  by_cases hbig : 2 ^ (-1021 : Int) ≤ |z|
  · rw [rv_halve rz hbig]
    linarith
  have hsm := abs_lt.1 (not_le.1 hbig)
  by_cases hb1 : 2 ^ (-1021 : Int) ≤ b
  · have h3 : rv (z / 2) ≤ 2 ^ (-1022 : Int) := by
      rw [← r22]
      apply rv_mono
      have := hsm.2
      rw [e22] at this
      linarith
    rw [e22] at hb1
    linarith
  by_cases hb0 : 0 < b ∧ a + b ≤ 0
  · have h3 : z ≤ 0 := by
      rw [hzd, ← rv_zero]
      exact rv_mono hb0.2
    have h4 : rv (z / 2) ≤ 0 := by
      rw [← rv_zero]
      exact rv_mono (by linarith)
    linarith [hb0.1]
  -- both values are tiny
  have hab : -(2 : ℚ) ^ (-1021 : Int) < a + b := by
    by_contra hc
    have h3 : z ≤ -(2 : ℚ) ^ (-1021 : Int) := by
      rw [hzd, ← r21, ← rv_neg]
      exact rv_mono (by linarith)
    linarith [hsm.1]
  have ha : |a| < 2 ^ (-1021 : Int) ∧ |b| < 2 ^ (-1021 : Int) := by
    rw [abs_lt, abs_lt]
    have hb1' := not_le.1 hb1
    clear_value z
    clear r21 r22 e22 hbig hsm
    generalize (2 : ℚ) ^ (-1021 : Int) = P at *
    rcases le_or_gt b 0 with h0 | h0
    · refine ⟨⟨?_, ?_⟩, ⟨?_, ?_⟩⟩ <;> linarith
    · have h3 : 0 < a + b := by
        by_contra hc
        exact hb0 ⟨h0, not_lt.1 hc⟩
      refine ⟨⟨?_, ?_⟩, ⟨?_, ?_⟩⟩ <;> linarith
  have hc : |c| < 2 ^ (-1021 : Int) := by
    have h1 := abs_lt.1 ha.1
    have h2 := abs_lt.1 ha.2
    rw [abs_lt]
    exact ⟨by linarith [h1.1], by linarith [h2.2]⟩
  obtain ⟨m, hm, hm'⟩ := tiny_grid ra ha.1
  obtain ⟨n, hn, hn'⟩ := tiny_grid rb ha.2
  obtain ⟨k, hk, _⟩ := tiny_grid rc hc
  have pu := two_zpow_pos (-1074)
  have h1 : m < k := by
    rw [hm, hk] at hac
    exact_mod_cast lt_of_mul_lt_mul_right hac pu.le
  have h3 : k < n := by
    rw [hk, hn] at hcb
    exact_mod_cast lt_of_mul_lt_mul_right hcb pu.le
  have hzle : z ≤ 2 * (((n - 1 : Int) : ℚ) * 2 ^ (-1074 : Int)) := by
    have rg : rv (((n - 1 : Int) : ℚ) * 2 ^ (-1074 : Int)) = ((n - 1 : Int) : ℚ) * 2 ^ (-1074 : Int) := by
      apply rv_grid _ _ _ (by norm_num)
      rw [abs_lt] at *
      constructor <;> omega
    rw [← rv_double rg, hzd]
    apply rv_mono
    rw [hm, hn]
    have : (m : ℚ) ≤ n - 2 := by
      have : m ≤ n - 2 := by omega
      exact_mod_cast this
    have := mul_le_mul_of_nonneg_right this pu.le
    push_cast
    linarith
  have rg : rv (((n - 1 : Int) : ℚ) * 2 ^ (-1074 : Int)) = ((n - 1 : Int) : ℚ) * 2 ^ (-1074 : Int) := by
    apply rv_grid _ _ _ (by norm_num)
    rw [abs_lt] at *
    constructor <;> omega
  calc rv (z / 2) ≤ rv (((n - 1 : Int) : ℚ) * 2 ^ (-1074 : Int)) := rv_mono (by linarith)
    _ = ((n - 1 : Int) : ℚ) * 2 ^ (-1074 : Int) := rg
    _ < b := by
      rw [hn]
      apply mul_lt_mul_of_pos_right _ pu
      push_cast
      linarith

end Boo
