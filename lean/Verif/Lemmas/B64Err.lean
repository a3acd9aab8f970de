import Verif.Lemmas.B64Near
import Mathlib.Algebra.Order.Round
import Mathlib.Tactic.Linarith
import Mathlib.Tactic.Positivity

/-!
# Rounding errors of binary64

Bounds for the error of one operation, of a sum and of a running difference.
-/

namespace Boo
open GoFloat

variable {τ : Option SumOrder}
/-- float64, with any order of the additions of `floats.Sum` -/
local notation "F64" => F64o τ

/-- half a unit in the last place of 1 -/
def u64 : ℚ := 2 ^ (-53 : Int)
/-- half of the smallest positive float64 -/
def eta64 : ℚ := 2 ^ (-1075 : Int)

/-- no result up to this size overflows -/
def big64 : ℚ := 2 ^ (1023 : Int)

theorem big64_pos : 0 < big64 := two_zpow_pos _
theorem u64_pos : 0 < u64 := two_zpow_pos _
theorem eta64_pos : 0 < eta64 := two_zpow_pos _
theorem u64_le : u64 ≤ 1 / 1000000 := by unfold u64; norm_num

theorem rne_half (q : ℚ) : |(rne q : ℚ) - q| ≤ 1 / 2 := by
  have h := rne_near q (round q)
  have h2 := abs_sub_round q
  rw [abs_sub_comm] at h2
  exact h.trans h2

theorem rv_err_ulp (x : ℚ) : |rv x - x| ≤ 2 ^ (ebin x - 53) := by
  have hp := two_zpow_pos (ebin x - 52)
  have h := rne_half (x / 2 ^ (ebin x - 52))
  have e : rv x - x = ((rne (x / 2 ^ (ebin x - 52)) : ℚ) - x / 2 ^ (ebin x - 52)) * 2 ^ (ebin x - 52) := by
    unfold rv
    rw [sub_mul, div_mul_cancel₀ _ hp.ne']
  have e2 : (2 : ℚ) ^ (ebin x - 52) = 2 * 2 ^ (ebin x - 53) := by
    rw [show ebin x - 52 = (ebin x - 53) + 1 by ring, zpow_add₀ (by norm_num)]
    ring
  rw [e, abs_mul, abs_of_pos hp]
  calc _ ≤ 1 / 2 * (2 : ℚ) ^ (ebin x - 52) := by
        exact mul_le_mul_of_nonneg_right h hp.le
    _ = _ := by rw [e2]; ring

theorem ebin_low (x : ℚ) : -1022 ≤ ebin x := by unfold ebin; omega

theorem rv_err_normal {x : ℚ} (h : -1022 < ebin x) (hx : x ≠ 0) : |rv x - x| ≤ u64 * |x| := by
  refine (rv_err_ulp x).trans ?_
  have h1 : (2 : ℚ) ^ ebin x ≤ |x| := by
    rcases lt_or_gt_of_ne hx with hn | hp
    · rw [abs_of_neg hn, ← ebin_neg]
      exact ebin_spec_le (by linarith) (by rw [ebin_neg]; exact h)
    · rw [abs_of_pos hp]
      exact ebin_spec_le hp h
  rw [show ebin x - 53 = (-53) + ebin x by ring, zpow_add₀ (by norm_num)]
  exact mul_le_mul_of_nonneg_left h1 (two_zpow_pos _).le

/-- the error of one rounding -/
theorem rv_err (x : ℚ) : |rv x - x| ≤ u64 * |x| + eta64 := by
  have hu := u64_pos
  have he := eta64_pos
  have ha := abs_nonneg x
  rcases lt_or_eq_of_le (ebin_low x) with h | h
  · by_cases hx : x = 0
    · subst hx
      rw [rv_zero]
      simp only [sub_self, abs_zero, mul_zero, zero_add]
      exact he.le
    · have := rv_err_normal h hx
      linarith
  · have := rv_err_ulp x
    rw [← h] at this
    have e : (2 : ℚ) ^ ((-1022 : Int) - 53) = eta64 := by unfold eta64; norm_num
    rw [e] at this
    have : 0 ≤ u64 * |x| := by positivity
    linarith

/-- sums do not underflow -/
theorem rv_add_err {a b : ℚ} (ra : rv a = a) (rb : rv b = b) : |rv (a + b) - (a + b)| ≤ u64 * |a + b| := by
  have hnn : 0 ≤ u64 * |a + b| := mul_nonneg u64_pos.le (abs_nonneg _)
  by_cases h0 : a + b = 0
  · rw [h0, rv_zero]; simp
  rcases lt_or_eq_of_le (ebin_low (a + b)) with h | h
  · exact rv_err_normal h h0
  · obtain ⟨m, hm⟩ := grid_of_le ra (E := -1074) (by have := ebin_low a; omega)
    obtain ⟨n, hn⟩ := grid_of_le rb (E := -1074) (by have := ebin_low b; omega)
    have e : a + b = ((m + n : Int) : ℚ) * 2 ^ (-1074 : Int) := by
      rw [hm, hn]; push_cast; ring
    have hlt := ebin_zero_or h0
    rw [← h] at hlt
    have hs : |m + n| < 2 ^ 53 := grid_small rfl e (by norm_num at hlt ⊢; exact hlt)
    rw [e, rv_grid _ _ hs (by norm_num), sub_self, abs_zero, ← e]
    exact hnn

theorem rv_pow (e : Int) (h : -1074 ≤ e) : rv ((2 : ℚ) ^ e) = 2 ^ e := by
  have := rv_grid 1 e (by norm_num) h
  simpa using this

theorem rv_abs_le {x : ℚ} {e : Int} (he : -1074 ≤ e) (h : |x| ≤ 2 ^ e) : |rv x| ≤ 2 ^ e := by
  rw [abs_le] at h ⊢
  have h1 := rv_mono h.1
  have h2 := rv_mono h.2
  rw [rv_neg, rv_pow e he] at h1
  rw [rv_pow e he] at h2
  exact ⟨h1, h2⟩

/-- no overflow -/
theorem round64_of_le {x : ℚ} (h : |x| ≤ big64) : (XF.round x : F64) = .fin (rv x) := by
  apply round64_fin
  refine lt_of_le_of_lt (rv_abs_le (by norm_num) h) ?_
  exact zpow_lt_zpow_right₀ (by norm_num) (by norm_num)

theorem add64 {a b : ℚ} (h : |a + b| ≤ big64) : ((.fin a : F64) +. .fin b) = .fin (rv (a + b)) :=
  round64_of_le h
theorem sub64 {a b : ℚ} (h : |a - b| ≤ big64) : ((.fin a : F64) -. .fin b) = .fin (rv (a - b)) := by
  rw [sub_eq_add_neg] at *
  exact round64_of_le h
theorem mul64 {a b : ℚ} (h : |a * b| ≤ big64) : ((.fin a : F64) *. .fin b) = .fin (rv (a * b)) :=
  round64_of_le h
theorem div64 {a b : ℚ} (hb : b ≠ 0) (h : |a / b| ≤ big64) : ((.fin a : F64) /. .fin b) = .fin (rv (a / b)) := by
  show (if b = 0 then _ else XF.round (a / b) : F64) = _
  rw [if_neg hb]
  exact round64_of_le h

theorem rv_int {n : Int} (h : |n| < 2 ^ 53) : rv (n : ℚ) = n := by
  have := rv_grid n 0 h (by norm_num)
  simpa using this

theorem ofInt64 {n : Int} (h : |n| < 2 ^ 53) : (ofInt n : F64) = .fin (n : ℚ) := by
  show (XF.round ((n : ℚ) : ℚ) : F64) = _
  have h1 : |(n : ℚ)| ≤ big64 := by
    refine (abs_lt_pow53 h).le.trans ?_
    exact zpow_le_zpow_right₀ (by norm_num) (by norm_num)
  have := round64_of_le (τ := τ) h1
  rw [rv_int h] at this
  simpa using this

theorem one64 : (one : F64) = .fin 1 := by
  have := ofInt64 (τ := τ) (n := 1) (by norm_num)
  rw [Int.cast_one] at this
  exact this
theorem negOne64 : (ofInt (-1) : F64) = .fin (-1) := by
  have := ofInt64 (τ := τ) (n := -1) (by norm_num)
  simpa using this
theorem zero64 : (zero : F64) = .fin 0 := rfl

theorem u64_def : u64 = 2 ^ (-53 : Int) := rfl
theorem eta64_def : eta64 = 2 ^ (-1075 : Int) := rfl
theorem big64_def : big64 = 2 ^ (1023 : Int) := rfl
attribute [irreducible] u64 eta64 big64

/-! ### Sums -/

/-- adding up floats: `e0` is the error so far, `A` bounds all partial sums -/
theorem foldl_add_err (l : List ℚ) (hrep : ∀ x ∈ l, rv x = x) (A : ℚ) (hA : 2 * A ≤ big64) :
    ∀ (z z0 e0 : ℚ), rv z = z → |z - z0| ≤ e0 → (∀ k ≤ l.length, |z0 + (l.take k).sum| ≤ A) →
      e0 + 2 * l.length * u64 * A ≤ A →
      ∃ s, (l.map XF.fin).foldl (· +. ·) (XF.fin z : F64) = .fin s ∧ rv s = s ∧
        |s - (z0 + l.sum)| ≤ e0 + 2 * l.length * u64 * A := by
  have hu := u64_pos
  have hu1 := u64_le
  induction l with
  | nil => intro z z0 e0 hz he _ _; exact ⟨z, rfl, hz, by simpa using he⟩
  | cons a l ih =>
    intro z z0 e0 hz he hpre hroom
    have ra := hrep a (by simp)
    have hA0 : 0 ≤ A := (abs_nonneg _).trans (hpre 0 (by simp))
    have h1 : |z0 + a| ≤ A := by simpa using hpre 1 (by simp)
    have hlen : ((a :: l).length : ℚ) = l.length + 1 := by simp
    have hl0 : (0 : ℚ) ≤ l.length := by positivity
    have huA : 0 ≤ u64 * A := mul_nonneg hu.le hA0
    have hle0 : e0 ≤ A := by
      have : 0 ≤ 2 * ((a :: l).length : ℚ) * u64 * A := by positivity
      linarith
    have h2 : |z + a| ≤ 2 * A := by
      have : z + a = (z - z0) + (z0 + a) := by ring
      rw [this]
      exact (abs_add_le _ _).trans (by linarith)
    have hadd : ((XF.fin z : F64) +. .fin a) = .fin (rv (z + a)) := by
      apply add64
      linarith
    have herr : |rv (z + a) - (z0 + a)| ≤ e0 + 2 * u64 * A := by
      have e : rv (z + a) - (z0 + a) = (rv (z + a) - (z + a)) + (z - z0) := by ring
      rw [e]
      refine (abs_add_le _ _).trans ?_
      have h3 := rv_add_err hz ra
      have h4 : u64 * |z + a| ≤ u64 * (2 * A) := mul_le_mul_of_nonneg_left h2 hu.le
      linarith
    obtain ⟨s, hs, rs, hsum⟩ := ih (fun x hx => hrep x (by simp [hx])) (rv (z + a)) (z0 + a) (e0 + 2 * u64 * A) (rv_idem _) herr
      (by
        intro k hk
        have := hpre (k + 1) (by simpa using hk)
        rw [List.take_succ_cons, List.sum_cons, ← add_assoc] at this
        exact this)
      (by
        have : e0 + 2 * u64 * A + 2 * (l.length : ℚ) * u64 * A = e0 + 2 * ((a :: l).length : ℚ) * u64 * A := by
          rw [hlen]; ring
        linarith)
    refine ⟨s, ?_, rs, ?_⟩
    · rw [List.map_cons, List.foldl_cons, hadd]
      exact hs
    · rw [List.sum_cons, ← add_assoc, hlen]
      refine hsum.trans (le_of_eq ?_)
      ring

theorem take_sum_abs (l : List ℚ) (k : Nat) : |(l.take k).sum| ≤ (l.map fun x => |x|).sum := by
  induction l generalizing k with
  | nil => simp
  | cons a l ih =>
    cases k with
    | zero =>
      simp only [List.take_zero, List.sum_nil, abs_zero]
      apply List.sum_nonneg
      intro x hx
      obtain ⟨y, _, rfl⟩ := List.mem_map.1 hx
      exact abs_nonneg y
    | succ k =>
      rw [List.take_succ_cons, List.sum_cons, List.map_cons, List.sum_cons]
      exact (abs_add_le _ _).trans (add_le_add le_rfl (ih k))

/-- the error of a sum -/
theorem sum64_err (l : List ℚ) (hrep : ∀ x ∈ l, rv x = x) (A : ℚ) (hA : 2 * A ≤ big64)
    (hsum : (l.map fun x => |x|).sum ≤ A) (hn : 2 * (l.length : ℚ) * u64 ≤ 1) :
    ∃ s, (l.map XF.fin).foldl (· +. ·) (XF.fin 0 : F64) = .fin s ∧ rv s = s ∧ |s - l.sum| ≤ 2 * l.length * u64 * A := by
  have hA0 : 0 ≤ A := by
    have := take_sum_abs l 0
    simp only [List.take_zero, List.sum_nil, abs_zero] at this
    linarith
  obtain ⟨s, h1, h2, h3⟩ := foldl_add_err l hrep A hA 0 0 0 rv_zero (by simp)
    (by intro k _; rw [zero_add]; exact (take_sum_abs l k).trans hsum)
    (by
      rw [zero_add]
      have := mul_le_mul_of_nonneg_right hn hA0
      linarith)
  exact ⟨s, h1, h2, by simpa using h3⟩

/-- the error of a running difference -/
theorem foldl_sub_err (l : List ℚ) (hrep : ∀ x ∈ l, rv x = x) (A : ℚ) (hA : 2 * A ≤ big64) (z z0 e0 : ℚ) (hz : rv z = z)
    (he : |z - z0| ≤ e0) (hpre : ∀ k ≤ l.length, |z0 - (l.take k).sum| ≤ A) (hroom : e0 + 2 * l.length * u64 * A ≤ A) :
    ∃ s, (l.map XF.fin).foldl (· -. ·) (XF.fin z : F64) = .fin s ∧ rv s = s ∧
        |s - (z0 - l.sum)| ≤ e0 + 2 * l.length * u64 * A := by
  have hneg : ∀ (l : List ℚ) (z : F64), (l.map XF.fin).foldl (· -. ·) z = ((l.map fun x => -x).map XF.fin).foldl (· +. ·) z := by
    intro l
    induction l with
    | nil => intro z; rfl
    | cons a l ih => intro z; simp only [List.map_cons, List.foldl_cons]; rw [ih]; rfl
  have hs : ∀ l : List ℚ, (l.map fun x => -x).sum = -l.sum := by
    intro l
    induction l with
    | nil => simp
    | cons a l ih => simp only [List.map_cons, List.sum_cons, ih]; ring
  obtain ⟨s, h1, h2, h3⟩ := foldl_add_err (l.map fun x => -x)
    (by
      intro x hx
      obtain ⟨y, hy, rfl⟩ := List.mem_map.1 hx
      rw [rv_neg, hrep y hy])
    A hA z z0 e0 hz he
    (by
      intro k hk
      rw [List.length_map] at hk
      rw [← List.map_take, hs, ← sub_eq_add_neg]
      exact hpre k hk)
    (by rw [List.length_map]; exact hroom)
  refine ⟨s, by rw [hneg]; exact h1, h2, ?_⟩
  rw [hs, ← sub_eq_add_neg, List.length_map] at h3
  exact h3

/-! ### Sums in any order -/

/-- the sum of positive floats is at least as large as each of them -/
theorem foldl_ge (l : List ℚ) (hrep : ∀ x ∈ l, rv x = x) (h0 : ∀ x ∈ l, 0 ≤ x) :
    ∀ z s : ℚ, rv z = z → 0 ≤ z → (l.map XF.fin).foldl (· +. ·) (XF.fin z : F64) = .fin s → z ≤ s ∧ ∀ x ∈ l, x ≤ s := by
  induction l with
  | nil =>
    intro z s _ _ h
    simp only [List.map_nil, List.foldl_nil, XF.fin.injEq] at h
    subst h
    exact ⟨le_rfl, by simp⟩
  | cons a l ih =>
    intro z s hz hz0 h
    simp only [List.map_cons, List.foldl_cons] at h
    have ha := h0 a (by simp)
    have hsum : (XF.fin z : F64) +. XF.fin a = XF.round (z + a) := rfl
    rw [hsum] at h
    have hfin : ∃ w, (XF.round (z + a) : F64) = .fin w := by
      cases hr : (XF.round (z + a) : F64) with
      | fin w => exact ⟨w, rfl⟩
      | inf sgn =>
        exfalso
        rw [hr] at h
        have : ∀ (l : List ℚ), (l.map XF.fin).foldl (· +. ·) (XF.inf sgn : F64) = .inf sgn := by
          intro l
          induction l with
          | nil => rfl
          | cons a l ih => exact ih
        rw [this] at h
        cases h
      | nan =>
        exfalso
        rw [hr] at h
        have : ∀ (l : List ℚ), (l.map XF.fin).foldl (· +. ·) (XF.nan : F64) = .nan := by
          intro l
          induction l with
          | nil => rfl
          | cons a l ih => exact ih
        rw [this] at h
        cases h
    obtain ⟨w, hw⟩ := hfin
    have hwv : w = rv (z + a) := by
      have : rnd64 (z + a) = some w ∨ rnd64 (z + a) = none := by
        unfold XF.round b64o at hw
        simp only at hw
        cases hr : rnd64 (z + a) with
        | none => exact Or.inr rfl
        | some v => rw [hr] at hw; cases hw; exact Or.inl rfl
      rcases this with h | h
      · rw [rnd64_eq] at h
        split at h
        · cases h
        · exact (Option.some.inj h).symm
      · unfold XF.round b64o at hw
        simp only [h] at hw
        cases hw
    rw [hw] at h
    subst hwv
    have h1 := rv_mono (show z ≤ z + a by linarith)
    have h2 := rv_mono (show a ≤ z + a by linarith)
    rw [hz] at h1
    rw [hrep a (by simp)] at h2
    obtain ⟨i1, i2⟩ := ih (fun x hx => hrep x (by simp [hx])) (fun x hx => h0 x (by simp [hx])) _ s (rv_idem _) (by linarith) h
    refine ⟨h1.trans i1, ?_⟩
    intro x hx
    rcases List.mem_cons.1 hx with rfl | hx
    · exact h2.trans i1
    · exact i2 x hx

theorem getD_fin64 (l : List ℚ) (i : Nat) : (l.map XF.fin : List F64).getD i (.fin 0) = .fin (l.getD i 0) := by
  rw [List.getD_eq_getElem?_getD, List.getD_eq_getElem?_getD, List.getElem?_map]
  cases l[i]? <;> rfl

theorem getD_rv {l : List ℚ} (hrep : ∀ x ∈ l, rv x = x) (i : Nat) : rv (l.getD i 0) = l.getD i 0 := by
  rw [List.getD_eq_getElem?_getD]
  cases h : l[i]? with
  | none => exact rv_zero
  | some x => exact hrep x (List.mem_of_getElem? h)

theorem SumTree.leaves_pos (t : SumTree) : 1 ≤ t.leaves.length := by
  induction t with
  | leaf i => simp [SumTree.leaves]
  | add l r h1 h2 => simp only [SumTree.leaves, List.length_append]; omega

theorem abs_sum_le (l : List ℚ) : |l.sum| ≤ (l.map fun x => |x|).sum := by
  have := take_sum_abs l l.length
  rwa [List.take_length] at this

theorem sumTree_err (l : List ℚ) (hrep : ∀ x ∈ l, rv x = x) (t : SumTree) :
    2 * (t.leaves.length : ℚ) * u64 ≤ 1 → 2 * (t.leaves.map fun i => |l.getD i 0|).sum ≤ big64 →
    ∃ s, XF.sumTree (l.map XF.fin : List F64) t = .fin s ∧ rv s = s ∧
      |s - (t.leaves.map fun i => l.getD i 0).sum| ≤ 2 * t.leaves.length * u64 * (t.leaves.map fun i => |l.getD i 0|).sum ∧
      ((∀ x ∈ l, 0 ≤ x) → ∀ i ∈ t.leaves, l.getD i 0 ≤ s) := by
  have hu := u64_pos
  induction t with
  | leaf i =>
    intro _ _
    refine ⟨l.getD i 0, getD_fin64 l i, getD_rv hrep i, ?_, ?_⟩
    · simp only [SumTree.leaves, List.map_cons, List.map_nil, List.sum_cons, List.sum_nil, add_zero, sub_self, abs_zero]
      have := abs_nonneg (l.getD i 0)
      positivity
    · intro _ j hj
      simp only [SumTree.leaves, List.mem_singleton] at hj
      subst hj
      exact le_rfl
  | add a b iha ihb =>
    intro hn hA
    have ha1 := a.leaves_pos
    have hb1 := b.leaves_pos
    have ha1' : (1 : ℚ) ≤ a.leaves.length := by exact_mod_cast ha1
    have hb1' : (1 : ℚ) ≤ b.leaves.length := by exact_mod_cast hb1
    simp only [SumTree.leaves, List.map_append, List.sum_append, List.length_append, Nat.cast_add] at hn hA ⊢
    have nn : ∀ t : SumTree, 0 ≤ (t.leaves.map fun i => |l.getD i 0|).sum := by
      intro t
      apply List.sum_nonneg
      intro x hx
      obtain ⟨y, _, rfl⟩ := List.mem_map.1 hx
      exact abs_nonneg _
    have mm : ∀ t : SumTree, |(t.leaves.map fun i => l.getD i 0).sum| ≤ (t.leaves.map fun i => |l.getD i 0|).sum := by
      intro t
      have := abs_sum_le (t.leaves.map fun i => l.getD i 0)
      rwa [List.map_map] at this
    have na := nn a
    have nb := nn b
    have ma := mm a
    have mb := mm b
    have pa : 0 ≤ (a.leaves.length : ℚ) * u64 := by positivity
    have pb : 0 ≤ (b.leaves.length : ℚ) * u64 := by positivity
    obtain ⟨s, s1, s2, s3, s4⟩ := iha (by linarith) (by linarith)
    obtain ⟨r, r1, r2, r3, r4⟩ := ihb (by linarith) (by linarith)
    generalize (a.leaves.map fun i => |l.getD i 0|).sum = A at *
    generalize (b.leaves.map fun i => |l.getD i 0|).sum = B at *
    generalize (a.leaves.map fun i => l.getD i 0).sum = P at *
    generalize (b.leaves.map fun i => l.getD i 0).sum = Q at *
    generalize hx : (a.leaves.length : ℚ) = x at *
    generalize hy : (b.leaves.length : ℚ) = y at *
    have e1 : |s + r - (P + Q)| ≤ 2 * u64 * (x * A + y * B) := by
      have : s + r - (P + Q) = (s - P) + (r - Q) := by ring
      rw [this]
      refine (abs_add_le _ _).trans ?_
      linarith
    have e2 : 2 * u64 * (x * A + y * B) ≤ A + B := by
      have h1 := mul_le_mul_of_nonneg_right hn na
      have h2 := mul_le_mul_of_nonneg_right hn nb
      have h3 : 0 ≤ (y * u64) * A := mul_nonneg pb na
      have h4 : 0 ≤ (x * u64) * B := mul_nonneg pa nb
      nlinarith
    have e3 : |s + r| ≤ 2 * (A + B) := by
      have : s + r = (s + r - (P + Q)) + (P + Q) := by ring
      rw [this]
      refine (abs_add_le _ _).trans ?_
      have := abs_add_le P Q
      linarith
    refine ⟨rv (s + r), ?_, rv_idem _, ?_, ?_⟩
    · show XF.add _ _ = _
      rw [s1, r1]
      exact add64 (by linarith)
    · have : rv (s + r) - (P + Q) = (rv (s + r) - (s + r)) + (s + r - (P + Q)) := by ring
      rw [this]
      refine (abs_add_le _ _).trans ?_
      have h3 := rv_add_err s2 r2
      have h4 : u64 * |s + r| ≤ u64 * (2 * (A + B)) := mul_le_mul_of_nonneg_left e3 hu.le
      have h5 : 0 ≤ u64 * ((y - 1) * A + (x - 1) * B) :=
        mul_nonneg hu.le (add_nonneg (mul_nonneg (by linarith) na) (mul_nonneg (by linarith) nb))
      nlinarith
    · intro h0 i hi
      have g0 : ∀ j, 0 ≤ l.getD j 0 := by
        intro j
        rw [List.getD_eq_getElem?_getD]
        cases h : l[j]? with
        | none => exact le_rfl
        | some x => exact h0 x (List.mem_of_getElem? h)
      obtain ⟨i0, hi0⟩ := List.exists_mem_of_length_pos (lt_of_lt_of_le Nat.zero_lt_one ha1)
      obtain ⟨j0, hj0⟩ := List.exists_mem_of_length_pos (lt_of_lt_of_le Nat.zero_lt_one hb1)
      have hs0 := (g0 i0).trans (s4 h0 i0 hi0)
      have hr0 := (g0 j0).trans (r4 h0 j0 hj0)
      have h1 := rv_mono (show s ≤ s + r by linarith)
      have h2 := rv_mono (show r ≤ s + r by linarith)
      rw [s2] at h1
      rw [r2] at h2
      rcases List.mem_append.1 hi with hi | hi
      · exact (s4 h0 i hi).trans h1
      · exact (r4 h0 i hi).trans h2

theorem range_getD (l : List ℚ) : (List.range l.length).map (fun i => l.getD i 0) = l := by
  apply List.ext_getElem
  · simp
  · intro i h1 h2
    simp [h2]

/-- the error of `floats.Sum`, in whatever order it adds, and that a sum of positive numbers is at least as large as each of them -/
theorem sum64_any (l : List ℚ) (hrep : ∀ x ∈ l, rv x = x) (A : ℚ) (hA : 2 * A ≤ big64)
    (hsum : (l.map fun x => |x|).sum ≤ A) (hn : 2 * (l.length : ℚ) * u64 ≤ 1) :
    ∃ s, GoFloat.sum (l.map XF.fin : List F64) = .fin s ∧ rv s = s ∧ |s - l.sum| ≤ 2 * l.length * u64 * A ∧
      ((∀ x ∈ l, 0 ≤ x) → ∀ x ∈ l, x ≤ s) := by
  cases τ with
  | none =>
    obtain ⟨s, h1, h2, h3⟩ := sum64_err (τ := none) l hrep A hA hsum hn
    exact ⟨s, h1, h2, h3, fun h0 => (foldl_ge l hrep h0 0 s rv_zero le_rfl h1).2⟩
  | some T =>
    by_cases hl : l = []
    · subst hl
      refine ⟨0, rfl, rv_zero, ?_, by simp⟩
      simp
    · have hpos := List.length_pos_iff.2 hl
      have hc := T.covers l.length hpos
      have e1 : ((T.tree l.length).leaves.map fun i => l.getD i 0).sum = l.sum := by
        rw [(hc.map _).sum_eq, range_getD]
      have e2 : ((T.tree l.length).leaves.map fun i => |l.getD i 0|).sum = (l.map fun x => |x|).sum := by
        rw [(hc.map _).sum_eq]
        conv_rhs => rw [← range_getD l, List.map_map]
        rfl
      have e3 : (T.tree l.length).leaves.length = l.length := by rw [hc.length_eq, List.length_range]
      obtain ⟨s, h1, h2, h3, h4⟩ := sumTree_err (τ := some T) l hrep (T.tree l.length) (by rw [e3]; exact hn) (by rw [e2]; linarith)
      refine ⟨s, ?_, h2, ?_, ?_⟩
      · show (if (l.map XF.fin : List (F64o (some T))).length = 0 then _ else XF.sumTree (l.map XF.fin) (T.tree (l.map XF.fin : List (F64o (some T))).length)) = _
        rw [List.length_map, if_neg (by omega)]
        exact h1
      · rw [e1, e2, e3] at h3
        refine h3.trans (mul_le_mul_of_nonneg_left hsum ?_)
        have := u64_pos
        positivity
      · intro h0 x hx
        obtain ⟨i, hi, rfl⟩ := List.mem_iff_getElem.1 hx
        have := h4 h0 i (hc.mem_iff.2 (by simpa using hi))
        simpa [hi] using this

end Boo
