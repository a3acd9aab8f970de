import Verif.Spec.Decimal
import Verif.Props.Apart
import Verif.Lemmas.FloatTrain

/-!
# Numbers with at most 15 significant digits are no neighbours in float64
-/

namespace Boo
open GoFloat Spec

/-- two different numbers of at most 15 digits differ by more than a `10¹⁵`-th part -/
theorem short_gap {x y : ℚ} (hx : Short x) (hy : Short y) (h : x < y) :
    |x| ≤ (10 ^ 15 + 1) * (y - x) ∧ |y| ≤ (10 ^ 15 + 1) * (y - x) ∧ (10 : ℚ) ^ (-290 : ℤ) ≤ y - x := by
  -- the number with the smaller last digit
  have key : ∀ (m e n f : ℤ), |m| < 10 ^ 15 → -290 ≤ e → e ≤ f → ∀ a b : ℚ, a = m * 10 ^ e → b = n * 10 ^ f → a ≠ b →
      |a| ≤ 10 ^ 15 * |b - a| ∧ (10 : ℚ) ^ (-290 : ℤ) ≤ |b - a| := by
    intro m e n f hm he hef a b ha hb hab
    have hp : (0 : ℚ) < 10 ^ e := by positivity
    obtain ⟨k, hk⟩ := Int.le.dest hef
    have hbe : b = ((n * 10 ^ k : ℤ) : ℚ) * 10 ^ e := by
      rw [hb, ← hk, zpow_add₀ (by norm_num)]
      push_cast
      rw [zpow_natCast]
      ring
    have hd : b - a = ((n * 10 ^ k - m : ℤ) : ℚ) * 10 ^ e := by
      rw [hbe, ha]
      push_cast
      ring
    have hne : n * 10 ^ k - m ≠ 0 := by
      intro h0
      rw [h0] at hd
      simp at hd
      exact hab (by linarith)
    have h1 : (1 : ℚ) ≤ |((n * 10 ^ k - m : ℤ) : ℚ)| := by
      have := Int.one_le_abs hne
      exact_mod_cast this
    have h2 : (10 : ℚ) ^ e ≤ |b - a| := by
      rw [hd, abs_mul, abs_of_pos hp]
      exact le_mul_of_one_le_left hp.le h1
    refine ⟨?_, le_trans (zpow_le_zpow_right₀ (by norm_num) he) h2⟩
    have h3 : |(m : ℚ)| ≤ 10 ^ 15 := by exact_mod_cast hm.le
    rw [ha, abs_mul, abs_of_pos hp, ← ha]
    exact mul_le_mul h3 h2 hp.le (by norm_num)
  obtain ⟨m, e, hm, he, _, hxe⟩ := hx
  obtain ⟨n, f, hn, hf, _, hye⟩ := hy
  have hd : 0 < y - x := by linarith
  have hyx : |y| ≤ |x| + (y - x) := by
    have := abs_add_le x (y - x)
    rwa [add_sub_cancel, abs_of_pos hd] at this
  have hxy : |x| ≤ |y| + (y - x) := by
    have := abs_add_le y (x - y)
    rw [add_sub_cancel, abs_sub_comm, abs_of_pos hd] at this
    exact this
  rcases le_total e f with hef | hef
  · obtain ⟨h1, h2⟩ := key m e n f hm he hef x y hxe hye h.ne
    rw [abs_of_pos hd] at h1 h2
    exact ⟨by linarith, by linarith, h2⟩
  · obtain ⟨h1, h2⟩ := key n f m e hn hf hef y x hye hxe h.ne'
    rw [abs_sub_comm, abs_of_pos hd] at h1 h2
    exact ⟨by linarith, by linarith, h2⟩

theorem short_bound {x : ℚ} (hx : Short x) : |x| ≤ 10 ^ (305 : ℤ) := by
  obtain ⟨m, e, hm, _, he, rfl⟩ := hx
  have hp : (0 : ℚ) < 10 ^ e := by positivity
  have h3 : |(m : ℚ)| ≤ 10 ^ (15 : ℤ) := by exact_mod_cast hm.le
  rw [abs_mul, abs_of_pos hp, show (305 : ℤ) = 15 + 290 by norm_num, zpow_add₀ (by norm_num)]
  exact mul_le_mul h3 (zpow_le_zpow_right₀ (by norm_num) he) hp.le (by positivity)

theorem ten305 : (10 : ℚ) ^ (305 : ℤ) ≤ 2 ^ (1021 : ℤ) := by decide +kernel

theorem rep_of_bound {x : ℚ} (h : |x| ≤ 2 ^ (1021 : ℤ)) : Rep64 (rv x) ∧ |rv x| ≤ 2 ^ (1022 : ℤ) := by
  have h1 : |rv x| ≤ 2 ^ (1021 : ℤ) := rv_bound (rv_pow 1021 (by norm_num)) h
  have h2 : (2 : ℚ) ^ (1021 : ℤ) ≤ 2 ^ (1022 : ℤ) := zpow_le_zpow_right₀ (by norm_num) (by norm_num)
  refine ⟨?_, h1.trans h2⟩
  unfold Rep64
  rw [rnd64_eq, rv_idem, if_neg]
  rw [not_le]
  exact lt_of_le_of_lt h1 (zpow_lt_zpow_right₀ (by norm_num) (by norm_num))

/-- there is a float64 between the float64s nearest to two different numbers of at most 15 digits -/
theorem short_between {x y : ℚ} (hx : Short x) (hy : Short y) (h : x < y) : ∃ c, Rep64 c ∧ rv x < c ∧ c < rv y := by
  obtain ⟨h1, h2, h3⟩ := short_gap hx hy h
  have hb : |(x + y) / 2| ≤ 2 ^ (1021 : ℤ) := by
    have b1 := (short_bound hx).trans ten305
    have b2 := (short_bound hy).trans ten305
    rw [abs_div, abs_two, div_le_iff₀ (by norm_num)]
    have := abs_add_le x y
    linarith
  refine ⟨rv ((x + y) / 2), (rep_of_bound hb).1, ?_⟩
  have hu : u64 = 1 / 9007199254740992 := by rw [u64_def]; norm_num
  have heta : eta64 ≤ 10 ^ (-290 : ℤ) / 100 := by rw [eta64_def]; decide +kernel
  have e1 := rv_err x
  have e2 := rv_err y
  have e3 := rv_err ((x + y) / 2)
  have hm : |(x + y) / 2| ≤ (10 ^ 15 + 1) * (y - x) := by
    rw [abs_div, abs_two, div_le_iff₀ (by norm_num)]
    have := abs_add_le x y
    linarith
  rw [hu] at e1 e2 e3
  generalize (10 : ℚ) ^ (-290 : ℤ) = t at *
  rw [abs_le] at e1 e2 e3
  obtain ⟨_, e1⟩ := e1
  obtain ⟨e2, _⟩ := e2
  obtain ⟨e3, e3'⟩ := e3
  constructor
  · nlinarith
  · nlinarith

section AnyOrder

variable {τ : Option SumOrder}
/-- float64, with any order of the additions of `floats.Sum` -/
local notation "F64" => F64o τ

/-- the float64 nearest to a number -/
def near64 (x : ℚ) : F64 := .fin (rv x)

/-- rows of float64 nearest to numbers of at most 15 digits have no neighbours -/
theorem short_apart (Q : List (List ℚ)) (h : ∀ row ∈ Q, ∀ x ∈ row, Short x) :
    Apart64 (Q.map fun row => row.map near64 : List (List F64)) := by
  have hmem : ∀ row ∈ (Q.map fun row => row.map near64 : List (List F64)), ∀ v ∈ row, ∃ x, Short x ∧ v = .fin (rv x) := by
    intro row hr v hv
    obtain ⟨q, hq, rfl⟩ := List.mem_map.1 hr
    obtain ⟨x, hx, rfl⟩ := List.mem_map.1 hv
    exact ⟨x, h q hq x hx, rfl⟩
  refine ⟨?_, ?_⟩
  · intro row hr v hv
    obtain ⟨x, hx, rfl⟩ := hmem row hr v hv
    obtain ⟨r1, r2⟩ := rep_of_bound ((short_bound hx).trans ten305)
    exact ⟨_, rfl, r1, r2⟩
  · intro f row row' a b hr hr' ha hb hab
    obtain ⟨x, hx, e1⟩ := hmem row hr _ (List.mem_of_getElem? ha)
    obtain ⟨y, hy, e2⟩ := hmem row' hr' _ (List.mem_of_getElem? hb)
    obtain rfl := fin_inj64 e1
    obtain rfl := fin_inj64 e2
    refine short_between hx hy ?_
    by_contra hle
    rw [not_lt] at hle
    exact absurd (rv_mono hle) (not_le.2 hab)

end AnyOrder

end Boo
