import Verif.Lemmas.XF
import Mathlib.Data.Int.Log
import Mathlib.Tactic.Ring
import Mathlib.Tactic.FieldSimp
import Mathlib.Tactic.Positivity
import Mathlib.Algebra.Order.Field.Power
import Mathlib.Algebra.Order.Round

/-!
# Facts about the rounding of binary64
-/

namespace Boo
open GoFloat

variable {τ : Option SumOrder}
/-- float64, with any order of the additions of `floats.Sum` -/
local notation "F64" => F64o τ

theorem pow2_eq (e : Int) : pow2 e = (2 : ℚ) ^ e := by
  unfold pow2
  split
  · rename_i h
    obtain ⟨n, rfl⟩ := Int.eq_ofNat_of_zero_le h
    simp
  · rename_i h
    obtain ⟨n, hn⟩ : ∃ n : Nat, e = -(n : Int) := ⟨(-e).toNat, by omega⟩
    subst hn
    simp [zpow_neg]

/-! ### round to nearest even -/

theorem rne_floor (q : ℚ) : ⌊q⌋ ≤ rne q ∧ rne q ≤ ⌊q⌋ + 1 := by
  unfold rne
  simp only
  split_ifs <;> constructor <;> omega

theorem rne_int (n : Int) : rne n = n := by
  unfold rne
  simp

theorem rne_mono {q r : ℚ} (h : q ≤ r) : rne q ≤ rne r := by
  have hf := Int.floor_le_floor h
  rcases lt_or_eq_of_le hf with hlt | heq
  · have h1 := (rne_floor q).2
    have h2 := (rne_floor r).1
    omega
  · unfold rne
    simp only
    rw [heq]
    split_ifs <;> first | omega | (exfalso; linarith)

theorem rne_neg (q : ℚ) : rne (-q) = -rne q := by
  by_cases hq : ((⌊q⌋ : ℚ) = q)
  · have h1 : rne q = ⌊q⌋ := by rw [← hq]; simp [rne_int]
    have h2 : rne (-q) = -⌊q⌋ := by
      rw [← hq]
      have : -((⌊q⌋ : Int) : ℚ) = ((-⌊q⌋ : Int) : ℚ) := by push_cast; rfl
      rw [this, rne_int]
      simp
    rw [h1, h2]
  · have h0 := Int.floor_le q
    have h1 := Int.lt_floor_add_one q
    have hlt : (⌊q⌋ : ℚ) < q := lt_of_le_of_ne h0 hq
    have hfl : ⌊-q⌋ = -⌊q⌋ - 1 := by
      rw [Int.floor_eq_iff]
      push_cast
      constructor <;> linarith
    unfold rne
    simp only
    rw [hfl]
    push_cast
    have hmod : (-⌊q⌋ - 1) % 2 = 0 ↔ ¬ (⌊q⌋ % 2 = 0) := by omega
    split_ifs <;> first | omega | (exfalso; linarith)

/-! ### rounding without the overflow check -/

/-- exponent used for rounding -/
def ebin (x : ℚ) : Int := max (Int.log 2 |x|) (-1022)
/-- rounded value, exponent unbounded above -/
def rv (x : ℚ) : ℚ := (rne (x / 2 ^ (ebin x - 52)) : ℚ) * 2 ^ (ebin x - 52)

theorem rv_zero : rv 0 = 0 := by
  unfold rv
  have : rne (0 : ℚ) = 0 := by simpa using rne_int 0
  simp [this]

theorem rnd64_eq (x : ℚ) : rnd64 x = if (2 : ℚ) ^ (1024 : Int) ≤ |rv x| then none else some (rv x) := by
  unfold rnd64
  split
  · rename_i h
    subst h
    rw [rv_zero, if_neg]
    rw [abs_zero, not_le]; positivity
  · simp only [pow2_eq]
    rfl

theorem ebin_neg (x : ℚ) : ebin (-x) = ebin x := by unfold ebin; rw [abs_neg]

theorem rv_neg (x : ℚ) : rv (-x) = -rv x := by
  unfold rv
  rw [ebin_neg, neg_div, rne_neg]
  push_cast; ring

theorem two_zpow_pos (e : Int) : (0 : ℚ) < 2 ^ e := by positivity

theorem ebin_spec {x : ℚ} (hx : 0 < x) : x < 2 ^ (ebin x + 1) := by
  have h := Int.lt_zpow_succ_log_self (b := 2) (by norm_num) x
  have h2 : (2 : ℚ) ^ (Int.log 2 x + 1) ≤ 2 ^ (ebin x + 1) := by
    apply zpow_le_zpow_right₀ (by norm_num)
    unfold ebin
    rw [abs_of_pos hx]
    have := le_max_left (Int.log 2 x) (-1022)
    omega
  push_cast at h
  exact lt_of_lt_of_le h h2

theorem ebin_spec_le {x : ℚ} (hx : 0 < x) (he : -1022 < ebin x) : 2 ^ ebin x ≤ x := by
  have h := Int.zpow_log_le_self (b := 2) (r := x) (by norm_num) hx
  have : ebin x = Int.log 2 x := by
    unfold ebin at *
    rw [abs_of_pos hx] at *
    omega
  rw [this]
  push_cast at h
  exact h

theorem rv_nonneg {x : ℚ} (hx : 0 ≤ x) : 0 ≤ rv x := by
  unfold rv
  have h0 : (0 : ℚ) ≤ x / 2 ^ (ebin x - 52) := by positivity
  have := rne_mono h0
  have h1 : rne (0 : ℚ) = 0 := by simpa using rne_int 0
  rw [h1] at this
  have : (0 : ℚ) ≤ rne (x / 2 ^ (ebin x - 52)) := by exact_mod_cast this
  positivity

theorem ebin_mono {x y : ℚ} (hx : 0 < x) (h : x ≤ y) : ebin x ≤ ebin y := by
  unfold ebin
  have hy : 0 < y := lt_of_lt_of_le hx h
  rw [abs_of_pos hx, abs_of_pos hy]
  have := Int.log_mono_right (b := 2) hx h
  omega

theorem rv_mono_pos {x y : ℚ} (hx : 0 < x) (h : x ≤ y) : rv x ≤ rv y := by
  have hy : 0 < y := lt_of_lt_of_le hx h
  have he := ebin_mono hx h
  rcases lt_or_eq_of_le he with hlt | heq
  · -- rv x ≤ 2^(e x + 1) ≤ 2^(e y) ≤ rv y
    have h1 : rv x ≤ 2 ^ (ebin x + 1) := by
      unfold rv
      have hb : x / 2 ^ (ebin x - 52) ≤ ((2 ^ 53 : Int) : ℚ) := by
        rw [div_le_iff₀ (two_zpow_pos _)]
        have e : ((2 ^ 53 : Int) : ℚ) * 2 ^ (ebin x - 52) = 2 ^ (ebin x + 1) := by
          have : ((2 ^ 53 : Int) : ℚ) = 2 ^ (53 : Int) := by norm_num
          rw [this, ← zpow_add₀ (by norm_num)]; congr 1; ring
        rw [e]; exact (ebin_spec hx).le
      have := rne_mono hb
      rw [rne_int] at this
      have h2 : (rne (x / 2 ^ (ebin x - 52)) : ℚ) ≤ ((2 ^ 53 : Int) : ℚ) := by exact_mod_cast this
      calc (rne (x / 2 ^ (ebin x - 52)) : ℚ) * 2 ^ (ebin x - 52)
          ≤ ((2 ^ 53 : Int) : ℚ) * 2 ^ (ebin x - 52) := by
            apply mul_le_mul_of_nonneg_right h2 (two_zpow_pos _).le
        _ = 2 ^ (ebin x + 1) := by
            have : ((2 ^ 53 : Int) : ℚ) = 2 ^ (53 : Int) := by norm_num
            rw [this, ← zpow_add₀ (by norm_num)]; congr 1; ring
    have h2 : (2 : ℚ) ^ (ebin y) ≤ rv y := by
      unfold rv
      have hlow : -1022 < ebin y := by
        have : -1022 ≤ ebin x := by unfold ebin; omega
        omega
      have hb : ((2 ^ 52 : Int) : ℚ) ≤ y / 2 ^ (ebin y - 52) := by
        rw [le_div_iff₀ (two_zpow_pos _)]
        have e : ((2 ^ 52 : Int) : ℚ) * 2 ^ (ebin y - 52) = 2 ^ (ebin y) := by
          have : ((2 ^ 52 : Int) : ℚ) = 2 ^ (52 : Int) := by norm_num
          rw [this, ← zpow_add₀ (by norm_num)]; congr 1; ring
        rw [e]; exact ebin_spec_le hy hlow
      have := rne_mono hb
      rw [rne_int] at this
      have h2 : ((2 ^ 52 : Int) : ℚ) ≤ (rne (y / 2 ^ (ebin y - 52)) : ℚ) := by exact_mod_cast this
      calc (2 : ℚ) ^ (ebin y) = ((2 ^ 52 : Int) : ℚ) * 2 ^ (ebin y - 52) := by
            have : ((2 ^ 52 : Int) : ℚ) = 2 ^ (52 : Int) := by norm_num
            rw [this, ← zpow_add₀ (by norm_num)]; congr 1; ring
        _ ≤ _ := by apply mul_le_mul_of_nonneg_right h2 (two_zpow_pos _).le
    have h3 : (2 : ℚ) ^ (ebin x + 1) ≤ 2 ^ (ebin y) := zpow_le_zpow_right₀ (by norm_num) (by omega)
    linarith
  · unfold rv
    rw [heq]
    apply mul_le_mul_of_nonneg_right _ (two_zpow_pos _).le
    have : x / 2 ^ (ebin y - 52) ≤ y / 2 ^ (ebin y - 52) :=
      div_le_div_of_nonneg_right h (two_zpow_pos _).le
    exact_mod_cast rne_mono this

theorem rv_mono {x y : ℚ} (h : x ≤ y) : rv x ≤ rv y := by
  rcases lt_trichotomy 0 x with hx | hx | hx
  · exact rv_mono_pos hx h
  · rw [← hx, rv_zero]; exact rv_nonneg (by linarith)
  · rcases lt_trichotomy 0 y with hy | hy | hy
    · have h1 : 0 ≤ rv y := rv_nonneg hy.le
      have h2 : 0 ≤ rv (-x) := rv_nonneg (by linarith)
      rw [rv_neg] at h2; linarith
    · rw [← hy, rv_zero]
      have h2 : 0 ≤ rv (-x) := rv_nonneg (by linarith)
      rw [rv_neg] at h2; linarith
    · have := rv_mono_pos (x := -y) (y := -x) (by linarith) (by linarith)
      rw [rv_neg, rv_neg] at this; linarith

theorem abs_lt_pow53 {n : Int} (hn : |n| < 2 ^ 53) : |(n : ℚ)| < 2 ^ (53 : Int) := by
  have h1 : ((|n| : Int) : ℚ) < ((2 ^ 53 : Int) : ℚ) := by exact_mod_cast hn
  rw [Int.cast_abs] at h1
  refine lt_of_lt_of_eq h1 ?_
  norm_num

/-- a multiple of `2^e`, `e ≥ -1074`, with a coefficient below `2^53` is not changed by rounding -/
theorem rv_grid (n e : Int) (hn : |n| < 2 ^ 53) (he : -1074 ≤ e) : rv ((n : ℚ) * 2 ^ e) = n * 2 ^ e := by
  by_cases hn0 : n = 0
  · subst hn0; simp [rv_zero]
  · have habs : |(n : ℚ) * 2 ^ e| = |(n : ℚ)| * 2 ^ e := by
      rw [abs_mul, abs_of_pos (two_zpow_pos e)]
    have hpos : 0 < |(n : ℚ) * 2 ^ e| := by
      rw [abs_pos]
      exact mul_ne_zero (by exact_mod_cast hn0) (two_zpow_pos e).ne'
    have hlt : |(n : ℚ) * 2 ^ e| < 2 ^ (e + 53) := by
      rw [habs]
      have : |(n : ℚ)| < 2 ^ (53 : Int) := abs_lt_pow53 hn
      calc |(n : ℚ)| * 2 ^ e < 2 ^ (53 : Int) * 2 ^ e :=
            mul_lt_mul_of_pos_right this (two_zpow_pos e)
        _ = 2 ^ (e + 53) := by rw [← zpow_add₀ (by norm_num)]; congr 1; ring
    have hlog : Int.log 2 |(n : ℚ) * 2 ^ e| < e + 53 := by
      rw [← Int.lt_zpow_iff_log_lt (by norm_num) hpos]
      exact_mod_cast hlt
    have hle : ebin ((n : ℚ) * 2 ^ e) - 52 ≤ e := by unfold ebin; omega
    obtain ⟨j, hj⟩ : ∃ j : Nat, e = ebin ((n : ℚ) * 2 ^ e) - 52 + j :=
      ⟨(e - (ebin ((n : ℚ) * 2 ^ e) - 52)).toNat, by omega⟩
    unfold rv
    set E := ebin ((n : ℚ) * 2 ^ e) - 52 with hE
    have hq : (n : ℚ) * 2 ^ e / 2 ^ E = ((n * 2 ^ j : Int) : ℚ) := by
      rw [div_eq_iff (two_zpow_pos _).ne', hj, zpow_add₀ (by norm_num)]
      push_cast
      rw [zpow_natCast]; ring
    rw [hq, rne_int, ← hq]
    field_simp

/-- every value is a multiple of its unit in the last place -/
theorem rv_is_grid {x : ℚ} (h : rv x = x) : ∃ n : Int, x = n * 2 ^ (ebin x - 52) :=
  ⟨rne (x / 2 ^ (ebin x - 52)), h.symm⟩

theorem rep64_rv {x : ℚ} (h : Rep64 x) : rv x = x ∧ |x| < 2 ^ (1024 : Int) := by
  unfold Rep64 at h
  rw [rnd64_eq] at h
  split at h
  · cases h
  · rename_i hlt
    simp only [Option.some.injEq] at h
    rw [h] at hlt
    exact ⟨h, by simpa using hlt⟩

/-- doubling a representable value is exact -/
theorem rv_double {x : ℚ} (h : rv x = x) : rv (2 * x) = 2 * x := by
  by_cases hx0 : x = 0
  · subst hx0; simp [rv_zero]
  obtain ⟨n, hn⟩ := rv_is_grid h
  have habs : |2 * x| = |x| * 2 ^ (1 : Int) := by rw [abs_mul]; norm_num; ring
  have hxp : 0 < |x| := abs_pos.2 hx0
  have hlog : Int.log 2 |2 * x| = Int.log 2 |x| + 1 := by
    have h1 := Int.zpow_log_le_self (b := 2) (r := |x|) (by norm_num) hxp
    have h2 := Int.lt_zpow_succ_log_self (b := 2) (by norm_num) |x|
    have hp : 0 < |2 * x| := abs_pos.2 (mul_ne_zero two_ne_zero hx0)
    push_cast at h1 h2
    apply le_antisymm
    · have : Int.log 2 |2 * x| < Int.log 2 |x| + 1 + 1 := by
        rw [← Int.lt_zpow_iff_log_lt (by norm_num) hp, habs]
        push_cast
        rw [zpow_add₀ (by norm_num) (Int.log 2 |x| + 1)]
        exact mul_lt_mul_of_pos_right h2 (by norm_num)
      omega
    · rw [← Int.zpow_le_iff_le_log (by norm_num) hp, habs]
      push_cast
      rw [zpow_add₀ (by norm_num)]
      exact mul_le_mul_of_nonneg_right h1 (by norm_num)
  have hE : ebin (2 * x) - 52 ≤ ebin x - 52 + 1 := by unfold ebin; rw [hlog]; omega
  obtain ⟨j, hj⟩ : ∃ j : Nat, ebin x - 52 + 1 = ebin (2 * x) - 52 + j :=
    ⟨(ebin x - 52 + 1 - (ebin (2 * x) - 52)).toNat, by omega⟩
  unfold rv
  set E := ebin (2 * x) - 52 with hE'
  have hq : 2 * x / 2 ^ E = ((n * 2 ^ j : Int) : ℚ) := by
    rw [div_eq_iff (two_zpow_pos _).ne']
    have : 2 * x = n * 2 ^ (ebin x - 52 + 1) := by
      rw [zpow_add₀ (by norm_num)]
      conv_lhs => rw [hn]
      ring
    rw [this, hj, zpow_add₀ (by norm_num)]
    push_cast
    rw [zpow_natCast]; ring
  rw [hq, rne_int, ← hq]
  field_simp

theorem round64_fin {x : ℚ} (h : |rv x| < 2 ^ (1024 : Int)) : (XF.round x : F64) = .fin (rv x) := by
  have : rnd64 x = some (rv x) := by rw [rnd64_eq, if_neg (by simpa using h)]
  unfold XF.round b64o
  simp only [this]

theorem ofRat64 {q x : ℚ} (h : rnd64 q = some x) : (ofRat q : F64) = .fin x := by
  show XF.round ((q : ℚ) : ℚ) = _
  rw [show ((q : ℚ) : ℚ) = q from Rat.cast_id q]
  unfold XF.round b64o
  simp only [h]

theorem ofRat64_two : (ofRat 2 : F64) = .fin 2 := ofRat64 (by decide +kernel)

/-- The threshold `(a+b)/2` computed in binary64 lies between `a` and `b` (values up to `2^1022`). -/
theorem mid64 {a b : ℚ} (ha : Rep64 a) (hb : Rep64 b) (hab : a < b)
    (ha' : |a| ≤ 2 ^ (1022 : Int)) (hb' : |b| ≤ 2 ^ (1022 : Int)) :
    ∃ m : ℚ, (((.fin a : F64) +. .fin b) /. ofRat 2) = .fin m ∧ a ≤ m ∧ m ≤ b ∧
      m = rv (rv (a + b) / 2) := by
  obtain ⟨ra, _⟩ := rep64_rv ha
  obtain ⟨rb, _⟩ := rep64_rv hb
  have h1 : 2 * a ≤ rv (a + b) := by
    rw [← rv_double ra]; exact rv_mono (by linarith)
  have h2 : rv (a + b) ≤ 2 * b := by
    rw [← rv_double rb]; exact rv_mono (by linarith)
  have h3 : a ≤ rv (rv (a + b) / 2) := by
    conv_lhs => rw [← ra]
    exact rv_mono (by linarith)
  have h4 : rv (rv (a + b) / 2) ≤ b := by
    conv_rhs => rw [← rb]
    exact rv_mono (by linarith)
  have e1 : (2 : ℚ) ^ (1023 : Int) = 2 * 2 ^ (1022 : Int) := by
    rw [show (1023 : Int) = 1 + 1022 by norm_num, zpow_add₀ (by norm_num)]; norm_num
  have e2 : (2 : ℚ) ^ (1023 : Int) < 2 ^ (1024 : Int) := zpow_lt_zpow_right₀ (by norm_num) (by norm_num)
  have e3 := two_zpow_pos 1022
  have bound : ∀ z : ℚ, 2 * a ≤ z → z ≤ 2 * b → |z| ≤ 2 ^ (1023 : Int) := by
    intro z hz1 hz2
    clear e2
    generalize (2 : ℚ) ^ (1023 : Int) = Q at *
    generalize (2 : ℚ) ^ (1022 : Int) = P at *
    rw [abs_le] at *
    constructor <;> linarith
  have hs : ((.fin a : F64) +. .fin b) = .fin (rv (a + b)) :=
    round64_fin (lt_of_le_of_lt (bound _ h1 h2) e2)
  refine ⟨rv (rv (a + b) / 2), ?_, h3, h4, rfl⟩
  rw [hs, ofRat64_two]
  have : ((.fin (rv (a + b)) : F64) /. .fin 2) = XF.round (rv (a + b) / 2) := by
    show XF.div _ _ = _
    simp [XF.div]
  rw [this]
  apply round64_fin
  have : |rv (rv (a + b) / 2)| ≤ 2 ^ (1022 : Int) := by
    generalize (2 : ℚ) ^ (1022 : Int) = P at *
    rw [abs_le] at *
    constructor <;> linarith
  generalize (2 : ℚ) ^ (1024 : Int) = R at *
  generalize (2 : ℚ) ^ (1023 : Int) = Q at *
  generalize (2 : ℚ) ^ (1022 : Int) = P at *
  linarith

/-- On a grid of spacing `2^e` with coefficients below `2^52` the threshold is the exact midpoint. -/
theorem mid64_grid {m n e : Int} (hm : |m| < 2 ^ 52) (hn : |n| < 2 ^ 52) (he : -1073 ≤ e) :
    rv (rv ((m : ℚ) * 2 ^ e + n * 2 ^ e) / 2) = ((m : ℚ) * 2 ^ e + n * 2 ^ e) / 2 := by
  have h1 : (m : ℚ) * 2 ^ e + n * 2 ^ e = ((m + n : Int) : ℚ) * 2 ^ e := by push_cast; ring
  have habs : |m + n| < 2 ^ 53 := by
    rw [abs_lt] at *
    constructor <;> omega
  rw [h1, rv_grid _ _ habs (by omega)]
  have h2 : ((m + n : Int) : ℚ) * 2 ^ e / 2 = ((m + n : Int) : ℚ) * 2 ^ (e - 1) := by
    rw [zpow_sub₀ (by norm_num)]; norm_num; ring
  rw [h2, rv_grid _ _ habs (by omega)]

/-- grid values are representable -/
theorem rep64_grid {n e : Int} (hn : |n| < 2 ^ 53) (he : -1074 ≤ e) (he' : e ≤ 971) :
    Rep64 ((n : ℚ) * 2 ^ e) := by
  unfold Rep64
  rw [rnd64_eq, rv_grid n e hn he, if_neg]
  rw [not_le, abs_mul, abs_of_pos (two_zpow_pos e)]
  have : |(n : ℚ)| < 2 ^ (53 : Int) := abs_lt_pow53 hn
  calc |(n : ℚ)| * 2 ^ e < 2 ^ (53 : Int) * 2 ^ e :=
        mul_lt_mul_of_pos_right this (two_zpow_pos e)
    _ = 2 ^ (53 + e) := by rw [← zpow_add₀ (by norm_num)]
    _ ≤ 2 ^ (1024 : Int) := zpow_le_zpow_right₀ (by norm_num) (by omega)

end Boo
