import Verif.Lemmas.B64Err

/-!
# Multiplying by a power of two commutes with rounding to float64, away from the ends of the range
-/

namespace Boo
open GoFloat

theorem log_scale {x : ℚ} (hx : 0 < x) (k : Int) : Int.log 2 (x * 2 ^ k) = Int.log 2 x + k := by
  have h1 := Int.zpow_log_le_self (b := 2) (r := x) (by norm_num) hx
  have h2 := Int.lt_zpow_succ_log_self (b := 2) (by norm_num) x
  have hk := two_zpow_pos k
  have hp : 0 < x * 2 ^ k := mul_pos hx hk
  push_cast at h1 h2
  apply le_antisymm
  · have : Int.log 2 (x * 2 ^ k) < Int.log 2 x + k + 1 := by
      rw [← Int.lt_zpow_iff_log_lt (by norm_num) hp]
      push_cast
      rw [show Int.log 2 x + k + 1 = (Int.log 2 x + 1) + k by ring, zpow_add₀ (by norm_num) (Int.log 2 x + 1)]
      exact mul_lt_mul_of_pos_right h2 hk
    omega
  · rw [← Int.zpow_le_iff_le_log (by norm_num) hp]
    push_cast
    rw [zpow_add₀ (by norm_num)]
    exact mul_le_mul_of_nonneg_right h1 hk.le

theorem ebin_normal {x : ℚ} (h : 2 ^ (-1022 : Int) ≤ |x|) : ebin x = Int.log 2 |x| := by
  have hp : 0 < |x| := lt_of_lt_of_le (two_zpow_pos _) h
  unfold ebin
  rw [max_eq_left]
  rw [← Int.zpow_le_iff_le_log (by norm_num) hp]
  exact_mod_cast h

theorem rv_scale {x : ℚ} {k : Int} (h : x = 0 ∨ (2 ^ (-1022 : Int) ≤ |x| ∧ 2 ^ (-1022 : Int) ≤ |x * 2 ^ k|)) :
    rv (x * 2 ^ k) = rv x * 2 ^ k := by
  rcases h with rfl | ⟨h1, h2⟩
  · rw [zero_mul, rv_zero, zero_mul]
  have hk := two_zpow_pos k
  have hp : 0 < |x| := lt_of_lt_of_le (two_zpow_pos _) h1
  have he : ebin (x * 2 ^ k) = ebin x + k := by
    rw [ebin_normal h1, ebin_normal h2, abs_mul, abs_of_pos hk, log_scale hp]
  unfold rv
  rw [he]
  have e : (2 : ℚ) ^ (ebin x + k - 52) = 2 ^ (ebin x - 52) * 2 ^ k := by
    rw [← zpow_add₀ (by norm_num)]
    congr 1
    ring
  rw [e, mul_div_mul_right _ _ hk.ne']
  ring

/-- float64 that are zero or of a magnitude between `2^-900` and `2^1000` -/
def MidRange (q : ℚ) : Prop := Rep64 q ∧ (q = 0 ∨ (2 ^ (-900 : Int) ≤ |q| ∧ |q| ≤ 2 ^ (1000 : Int)))

theorem MidRange.grid {q : ℚ} (h : MidRange q) : ∃ n : Int, q = n * 2 ^ (-952 : Int) := by
  obtain ⟨hr, h⟩ := h
  rcases h with rfl | ⟨h1, _⟩
  · exact ⟨0, by simp⟩
  · refine grid_of_le (rep64_rv hr).1 ?_
    have hp : 0 < |q| := lt_of_lt_of_le (two_zpow_pos _) h1
    have : (-900 : Int) ≤ Int.log 2 |q| := by
      rw [← Int.zpow_le_iff_le_log (by norm_num) hp]
      exact_mod_cast h1
    have : Int.log 2 |q| ≤ ebin q := by unfold ebin; exact le_max_left _ _
    omega

theorem MidRange.le {q : ℚ} (h : MidRange q) : |q| ≤ 2 ^ (1000 : Int) := by
  rcases h.2 with rfl | ⟨_, h⟩
  · rw [abs_zero]; exact (two_zpow_pos _).le
  · exact h

theorem MidRange.le' {q : ℚ} (h : MidRange q) : |q| ≤ 2 ^ (1022 : Int) :=
  h.le.trans (zpow_le_zpow_right₀ (by norm_num) (by norm_num))

theorem MidRange.add {a b : ℚ} (ha : MidRange a) (hb : MidRange b) : a + b = 0 ∨ 2 ^ (-952 : Int) ≤ |a + b| := by
  obtain ⟨m, hm⟩ := ha.grid
  obtain ⟨n, hn⟩ := hb.grid
  by_cases h0 : m + n = 0
  · left
    have : (m : ℚ) + n = 0 := by exact_mod_cast h0
    rw [hm, hn, ← add_mul, this, zero_mul]
  · right
    have h1 : (1 : ℚ) ≤ |((m + n : Int) : ℚ)| := by
      have := Int.one_le_abs h0
      exact_mod_cast this
    have e : a + b = ((m + n : Int) : ℚ) * 2 ^ (-952 : Int) := by rw [hm, hn]; push_cast; ring
    rw [e, abs_mul, abs_of_pos (two_zpow_pos (-952))]
    exact le_mul_of_one_le_left (two_zpow_pos _).le h1

/-- the mean computed in float64 scales -/
theorem mean_scale {a b : ℚ} {k : Int} (ha : MidRange a) (hb : MidRange b) (ha' : MidRange (a * 2 ^ k)) (hb' : MidRange (b * 2 ^ k)) :
    rv (rv (a * 2 ^ k + b * 2 ^ k) / 2) = rv (rv (a + b) / 2) * 2 ^ k := by
  have s1 := ha.add hb
  have s2 := ha'.add hb'
  rw [← add_mul] at s2 ⊢
  have hk := two_zpow_pos k
  rcases s1 with s1 | s1
  · rw [s1, zero_mul, rv_zero, zero_div, rv_zero, zero_mul]
  have hne : a + b ≠ 0 := by
    intro h0
    rw [h0, abs_zero] at s1
    exact absurd s1 (not_le.2 (two_zpow_pos _))
  replace s2 : 2 ^ (-952 : Int) ≤ |(a + b) * 2 ^ k| := by
    rcases s2 with s2 | s2
    · exact absurd s2 (mul_ne_zero hne hk.ne')
    · exact s2
  have hlow : ∀ {z : ℚ}, 2 ^ (-952 : Int) ≤ |z| → 2 ^ (-952 : Int) ≤ |rv z| := by
    intro z hz
    rcases le_abs.1 hz with h | h
    · have := rv_mono h
      rw [rv_pow _ (by norm_num)] at this
      exact this.trans (le_abs_self _)
    · have := rv_mono h
      rw [rv_pow _ (by norm_num), rv_neg] at this
      exact this.trans (neg_le_abs _)
  have hn : (2 : ℚ) ^ (-1022 : Int) ≤ 2 ^ (-952 : Int) := zpow_le_zpow_right₀ (by norm_num) (by norm_num)
  have hh : ∀ {z : ℚ}, 2 ^ (-952 : Int) ≤ |z| → 2 ^ (-1022 : Int) ≤ |z / 2| := by
    intro z hz
    rw [abs_div, abs_two, le_div_iff₀ (by norm_num)]
    refine le_trans ?_ hz
    rw [show (-952 : Int) = -1022 + 70 by norm_num, zpow_add₀ (by norm_num)]
    exact mul_le_mul_of_nonneg_left (by norm_num) (two_zpow_pos _).le
  have r1 : rv ((a + b) * 2 ^ k) = rv (a + b) * 2 ^ k := rv_scale (Or.inr ⟨hn.trans s1, hn.trans s2⟩)
  rw [r1, show rv (a + b) * 2 ^ k / 2 = rv (a + b) / 2 * 2 ^ k by ring]
  refine rv_scale (Or.inr ⟨hh (hlow s1), ?_⟩)
  rw [show rv (a + b) / 2 * 2 ^ k = rv (a + b) * 2 ^ k / 2 by ring, ← r1]
  exact hh (hlow s2)

end Boo
