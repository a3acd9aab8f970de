import Verif.Props.GridUse
import Verif.Props.SearchCost

/-!
# C126: the gradient search of the README
-/

namespace Boo
open GoFloat Spec Relation
set_option linter.unusedSectionVars false

/-! ### binary64 -/

/-- a number between 0 and `b` -/
def UpTo (b : ℚ) (x : F64) : Prop := ∃ q : ℚ, x = .fin q ∧ 0 ≤ q ∧ q ≤ b

theorem UpTo.mono {a b : ℚ} {x : F64} (h : UpTo a x) (hab : a ≤ b) : UpTo b x := by
  obtain ⟨q, h1, h2, h3⟩ := h
  exact ⟨q, h1, h2, h3.trans hab⟩

/-- 0 is a float64, so that the nearest one is not farther from the number than 0 -/
theorem rv_le_double (x : ℚ) : |rv x| ≤ 2 * |x| := by
  have h := rv_near (y := 0) x rv_zero
  rw [zero_sub, abs_neg] at h
  have h2 := abs_sub_abs_le_abs_sub (rv x) x
  linarith

theorem small64 {x : ℚ} (h : |x| ≤ 2 ^ (100 : ℤ)) : |x| ≤ big64 := h.trans (pow_big (by norm_num))

theorem small64' {x : ℚ} (h : |x| ≤ 2 ^ 20) : |x| ≤ big64 := small64 (h.trans (by norm_num))

/-- the sum of a number and of one of at most half its size -/
theorem add_half {b b' q t : ℚ} (h0 : 0 ≤ q) (hq : q ≤ b) (hb : b ≤ 2 ^ 16) (hb' : rv b' = b') (ht : |t| ≤ q / 2) (hle : q + t ≤ b') :
    UpTo b' ((.fin q : F64) +. .fin t) := by
  have h1 := abs_le.1 ht
  have hs : |q + t| ≤ big64 := small64' (by rw [abs_of_nonneg (by linarith)]; linarith [h1.2, show (2:ℚ)^16 * 3 ≤ 2 ^ 20 by norm_num])
  rw [add64 hs]
  refine ⟨_, rfl, rv_nonneg (by linarith), ?_⟩
  rw [← hb']
  exact rv_mono hle

/-- one try of a gradient step changes a share by at most half -/
theorem try_share {b b' f σ st a m x d s : ℚ} (h0 : 0 ≤ x) (hx : x ≤ b) (hb : b ≤ 2 ^ 16) (hb' : rv b' = b') (hbb : 3 / 2 * b ≤ b')
    (hf : 0 ≤ f ∧ f ≤ 1) (hσ : 0 ≤ σ ∧ σ ≤ 1) (hst : 0 ≤ st ∧ st ≤ 1) (hprod : 1600 * f * σ * st ≤ 1)
    (ha : 0 ≤ a ∧ a ≤ 100) (hm : 0 ≤ m ∧ m ≤ 100) (hd : d = f) (hs : s = x) (ca : F64) :
    UpTo b' ((.fin x : F64) +. derivative true (.fin a) (.fin m) ca ((.fin d : F64) *. .fin s) *. .fin σ *. .fin st) := by
  subst hd hs
  have e2 : (ofRat 2 : F64) = .fin 2 := by decide +kernel
  unfold derivative
  rw [if_pos rfl, e2]
  have ham : |a - m| ≤ 100 := abs_le.2 ⟨by linarith [ha.1, hm.2], by linarith [ha.2, hm.1]⟩
  rw [sub64 (small64' (ham.trans (by norm_num)))]
  have r100 : rv 100 = 100 := by simpa using rv_nat (k := 100) (by norm_num)
  have r50 : rv 50 = 50 := by simpa using rv_nat (k := 50) (by norm_num)
  have h1 := rv_bound r100 ham
  generalize rv (a - m) = d1 at h1
  have h2 : |d1 / 2| ≤ 50 := by rw [abs_div, abs_two]; linarith
  rw [div64 (by norm_num) (small64' (h2.trans (by norm_num)))]
  have h3 := rv_bound r50 h2
  generalize rv (d1 / 2) = d2 at h3
  have h16 : (2 : ℚ) ^ 16 = 65536 := by norm_num
  have h20 : (2 : ℚ) ^ (100 : ℤ) = 2 ^ 100 := by norm_num
  have hbig : (800 * 65536 : ℚ) ≤ 2 ^ (100 : ℤ) := by rw [h20]; norm_num
  have hsx : s ≤ 65536 := by linarith
  have hfx : 0 ≤ d * s := mul_nonneg hf.1 h0
  have hfx1 : d * s ≤ s := by nlinarith [hf.2]
  rw [mul64 (a := d) (b := s) (small64 (by rw [abs_of_nonneg hfx]; linarith))]
  have h4 := rv_le_double (d * s)
  rw [abs_of_nonneg hfx] at h4
  generalize rv (d * s) = h at h4
  have h5 : |d2 * h| ≤ 100 * (d * s) := by
    rw [abs_mul]
    nlinarith [abs_nonneg d2, abs_nonneg h]
  rw [mul64 (a := d2) (b := h) (small64 (by linarith))]
  have h6 := rv_le_double (d2 * h)
  generalize rv (d2 * h) = der at h6
  have h6' : |der| ≤ 200 * (d * s) := by linarith
  have h7 : |der * σ| ≤ 200 * (d * s) * σ := by
    rw [abs_mul, abs_of_nonneg hσ.1]
    exact mul_le_mul_of_nonneg_right h6' hσ.1
  have h7' : 200 * (d * s) * σ ≤ 200 * (d * s) := by nlinarith [hσ.2]
  rw [mul64 (a := der) (b := σ) (small64 (by linarith))]
  have h8 := rv_le_double (der * σ)
  generalize rv (der * σ) = u at h8
  have h8' : |u| ≤ 400 * (d * s) * σ := by linarith
  have h9 : |u * st| ≤ 400 * (d * s) * σ * st := by
    rw [abs_mul, abs_of_nonneg hst.1]
    exact mul_le_mul_of_nonneg_right h8' hst.1
  have hp0 : 0 ≤ 400 * (d * s) * σ := by have := mul_nonneg hfx hσ.1; linarith
  have h9' : 400 * (d * s) * σ * st ≤ 400 * (d * s) * σ := by nlinarith [hst.2]
  rw [mul64 (a := u) (b := st) (small64 (by linarith))]
  have h10 := rv_le_double (u * st)
  generalize rv (u * st) = t at h10
  have ht : |t| ≤ s / 2 := by
    have e : 2 * (400 * (d * s) * σ * st) = (1600 * d * σ * st) * (s / 2) := by ring
    have : (1600 * d * σ * st) * (s / 2) ≤ 1 * (s / 2) := mul_le_mul_of_nonneg_right hprod (by linarith)
    linarith
  refine add_half h0 hx hb hb' ht ?_
  have := (abs_le.1 ht).2
  linarith

/-- the probe above -/
theorem plus_share {b f : ℚ} {x : F64} (hx : UpTo b x) (hb : b ≤ 2 ^ 14) (hf : 0 ≤ f ∧ f ≤ 1 / 4) : UpTo (3 * b) (x +. x *. .fin f) := by
  obtain ⟨q, rfl, h0, h1⟩ := hx
  have h14 : (2 : ℚ) ^ 14 = 16384 := by norm_num
  have hp : 0 ≤ q * f := mul_nonneg h0 hf.1
  have hp1 : q * f ≤ q / 4 := by nlinarith [hf.2]
  rw [mul64 (small64' (by rw [abs_of_nonneg hp]; linarith [show (16384 : ℚ) ≤ 2 ^ 20 by norm_num]))]
  have h2 := rv_le_double (q * f)
  have h3 := rv_nonneg hp
  rw [abs_of_nonneg hp, abs_of_nonneg h3] at h2
  generalize rv (q * f) = t at h2 h3
  rw [add64 (small64' (by rw [abs_of_nonneg (by linarith)]; linarith [show (32768 : ℚ) ≤ 2 ^ 20 by norm_num]))]
  have h4 := rv_le_double (q + t)
  have h5 := rv_nonneg (x := q + t) (by linarith)
  rw [abs_of_nonneg (show 0 ≤ q + t by linarith), abs_of_nonneg h5] at h4
  exact ⟨_, rfl, h5, by linarith⟩

/-- the probe below -/
theorem minus_share {b f : ℚ} {x : F64} (hx : UpTo b x) (hb : b ≤ 2 ^ 14) (hf : 0 ≤ f ∧ f ≤ 1 / 4) : UpTo (3 * b) (x -. x *. .fin f) := by
  obtain ⟨q, rfl, h0, h1⟩ := hx
  have h14 : (2 : ℚ) ^ 14 = 16384 := by norm_num
  have hp : 0 ≤ q * f := mul_nonneg h0 hf.1
  have hp1 : q * f ≤ q / 4 := by nlinarith [hf.2]
  rw [mul64 (small64' (by rw [abs_of_nonneg hp]; linarith [show (16384 : ℚ) ≤ 2 ^ 20 by norm_num]))]
  have h2 := rv_le_double (q * f)
  have h3 := rv_nonneg hp
  rw [abs_of_nonneg hp, abs_of_nonneg h3] at h2
  generalize rv (q * f) = t at h2 h3
  rw [sub64 (small64' (by rw [abs_of_nonneg (by linarith)]; linarith [show (32768 : ℚ) ≤ 2 ^ 20 by norm_num]))]
  have h4 := rv_le_double (q - t)
  have h5 := rv_nonneg (x := q - t) (by linarith)
  rw [abs_of_nonneg (show 0 ≤ q - t by linarith), abs_of_nonneg h5] at h4
  exact ⟨_, rfl, h5, by linarith⟩

/-- a draw of `rand.Float64()` -/
def UnitDraw (u : F64) : Prop := ∃ w : ℚ, u = .fin w ∧ 0 ≤ w ∧ w < 1

/-- `fuzz` changes a share by at most a quarter -/
theorem fuzz_share {b φ : ℚ} {x u : F64} {bit : Nat} (hx : UpTo b x) (hb : b ≤ 2 ^ 16) (hb4 : rv (b / 4) = b / 4)
    (hb5 : rv (5 * b / 4) = 5 * b / 4) (hu : UnitDraw u) (hφ : 0 ≤ φ ∧ φ ≤ 1 / 4) : UpTo (5 * b / 4) (fuzz u bit x (.fin φ)) := by
  obtain ⟨q, rfl, h0, h1⟩ := hx
  obtain ⟨w, rfl, hw0, hw1⟩ := hu
  unfold fuzz
  have e1 : (one : F64) = .fin 1 := by decide +kernel
  have e2 : (ofRat (-1) : F64) = .fin (-1) := by decide +kernel
  simp only [e1, e2]
  have r4 : rv (1 / 4) = 1 / 4 := by
    have := rv_grid 1 (-2) (by norm_num) (by norm_num)
    norm_num at this
    norm_num
    exact this
  have hp : |w * φ| ≤ 1 / 4 := by
    rw [abs_of_nonneg (mul_nonneg hw0 hφ.1)]
    nlinarith [hφ.2, hφ.1]
  rw [mul64 (small64' (hp.trans (by norm_num)))]
  have h2 := rv_bound r4 hp
  generalize rv (w * φ) = fu at h2
  have key : ∀ sg : ℚ, |sg| = 1 → UpTo (5 * b / 4) ((.fin q : F64) +. .fin sg *. .fin fu *. .fin q) := by
    intro sg hsg
    have hs : |sg * fu| ≤ 1 / 4 := by rw [abs_mul, hsg, one_mul]; exact h2
    rw [mul64 (small64' (hs.trans (by norm_num)))]
    have h3 := rv_bound r4 hs
    generalize rv (sg * fu) = s at h3
    have h4 : |s * q| ≤ q / 4 := by
      rw [abs_mul, abs_of_nonneg h0]
      nlinarith
    have h16 : (2 : ℚ) ^ 16 = 65536 := by norm_num
    rw [mul64 (small64' (by linarith [show (65536 : ℚ) ≤ 2 ^ 20 by norm_num]))]
    have h5 := rv_le_double (s * q)
    have h6 := rv_bound hb4 (h4.trans (by linarith))
    generalize rv (s * q) = t at h5 h6
    refine add_half h0 h1 hb hb5 (by linarith) ?_
    have := (abs_le.1 h6).2
    linarith
  split
  · exact key _ (by norm_num)
  · exact key _ (by norm_num)

/-- the capacity of a sample is no problem for a share of up to 2^12 -/
theorem cap_upTo {n : Nat} (hn : n ≤ 2 ^ 50) {x : F64} (hx : UpTo (2 ^ 12) x) : 0 ≤ toInt ((ofInt (n : Int) : F64) *. x) + 1 := by
  obtain ⟨s, rfl, h8⟩ := hx
  have h50 : (n : ℚ) ≤ 2 ^ 50 := by
    have : ((n : Nat) : ℚ) ≤ ((2 ^ 50 : Nat) : ℚ) := Nat.cast_le.2 hn
    rw [Nat.cast_pow] at this
    exact this
  have h0 : (0 : ℚ) ≤ n := Nat.cast_nonneg n
  have hi : (ofInt (n : Int) : F64) = .fin ((n : Int) : ℚ) := by
    apply ofInt64
    rw [abs_of_nonneg (by omega)]
    have : 2 ^ 50 < 2 ^ 53 := by norm_num
    omega
  rw [hi]
  have hp : 0 ≤ ((n : Int) : ℚ) * s := by
    have : (0 : ℚ) ≤ ((n : Int) : ℚ) := by simpa using h0
    exact mul_nonneg this h8.1
  have hle : ((n : Int) : ℚ) * s ≤ 2 ^ (62 : ℤ) := by
    have h1 : ((n : Int) : ℚ) ≤ 2 ^ (50 : ℤ) := by
      have : ((n : Int) : ℚ) = (n : ℚ) := by push_cast; rfl
      rw [this]
      exact h50
    calc ((n : Int) : ℚ) * s ≤ 2 ^ (50 : ℤ) * 2 ^ 12 := mul_le_mul h1 h8.2 h8.1 (by positivity)
      _ = _ := by norm_num
  rw [mul64 (by rw [abs_of_nonneg hp]; exact hle.trans (pow_big (by norm_num)))]
  have h1 : 0 ≤ rv (((n : Int) : ℚ) * s) := by
    rw [← rv_zero]
    exact rv_mono hp
  have h2 : rv (((n : Int) : ℚ) * s) ≤ 2 ^ (62 : ℤ) := by
    rw [← rv_pow 62 (by norm_num)]
    exact rv_mono hle
  generalize rv (((n : Int) : ℚ) * s) = z at h1 h2
  have h3 : (0 : Int) ≤ ⌊z⌋ := Int.floor_nonneg.2 h1
  have h4 : ⌊z⌋ ≤ 2 ^ 62 := by
    have : (⌊z⌋ : ℚ) ≤ ((2 ^ 62 : ℤ) : ℚ) := by
      refine (Int.floor_le z).trans (h2.trans_eq ?_)
      norm_num
    exact_mod_cast this
  rw [XF.toInt_fin (by rw [if_pos h1]; omega) (by rw [if_pos h1]; omega), if_pos h1]
  omega

/-! ### options a search can work with -/

/-- What does not depend on the parameters that the searches change: the loss accepts vectors of equal length, and with `XGB` a sample has at least 5 rows. -/
def BaseOk (O : Options F64) : Prop := (∃ lv, O.loss = some lv ∧ lv.fn.Regular) ∧ (O.xgb = true → O.minSample = 5)

/-- the shares of rows and columns are at most `b` -/
def SharesUpTo (b : ℚ) (O : Options F64) : Prop := UpTo b O.subSample ∧ UpTo b O.colSubSample

theorem BaseOk.of_eq {O O' : Options F64} (h : BaseOk O) (h1 : O'.loss = O.loss) (h2 : O'.xgb = O.xgb) (h3 : O'.minSample = O.minSample) : BaseOk O' := by
  unfold BaseOk
  rw [h1, h2, h3]
  exact h

theorem BaseOk.rowSub {O : Options F64} (h : BaseOk O) : (∃ lv, O.loss = some lv ∧ lv.fn.Regular) ∧ (rowSub O = true → O.minSample = 5) :=
  ⟨h.1, fun hr => h.2 (by unfold Boo.rowSub at hr; rw [Bool.and_eq_true] at hr; exact hr.2)⟩

theorem SharesUpTo.caps {n c : Nat} (hn : n ≤ 2 ^ 50) (hc : c ≤ 2 ^ 50) {O : Options F64} (h : SharesUpTo (2 ^ 12) O) : CapsOk n c O :=
  ⟨fun _ _ hm => cap_upTo (hm.trans hn) h.1, fun _ => cap_upTo hc h.2⟩

theorem plusOpt_ok {b f : ℚ} {O : Options F64} (h : SharesUpTo b O) (hb : b ≤ 2 ^ 14) (hb0 : 0 ≤ b) (hf : 0 ≤ f ∧ f ≤ 1 / 4) (p : Param) :
    SharesUpTo (3 * b) (plusOpt (.fin f) O p) := by
  have h3 : b ≤ 3 * b := by linarith
  cases p
  case subSample => exact ⟨plus_share h.1 hb hf, h.2.mono h3⟩
  case colSubSample => exact ⟨h.1.mono h3, plus_share h.2 hb hf⟩
  all_goals exact ⟨h.1.mono h3, h.2.mono h3⟩

theorem minusOpt_ok {b f : ℚ} {O : Options F64} (h : SharesUpTo b O) (hb : b ≤ 2 ^ 14) (hb0 : 0 ≤ b) (hf : 0 ≤ f ∧ f ≤ 1 / 4) (p : Param) :
    SharesUpTo (3 * b) (minusOpt (.fin f) O p) := by
  have h3 : b ≤ 3 * b := by linarith
  cases p
  case subSample => exact ⟨minus_share h.1 hb hf, h.2.mono h3⟩
  case colSubSample => exact ⟨h.1.mono h3, minus_share h.2 hb hf⟩
  all_goals exact ⟨h.1.mono h3, h.2.mono h3⟩

theorem plusOpt_base {O : Options F64} (h : BaseOk O) (fd : F64) (p : Param) : BaseOk (plusOpt fd O p) := by
  cases p <;> exact h

theorem minusOpt_base {O : Options F64} (h : BaseOk O) (fd : F64) (p : Param) : BaseOk (minusOpt fd O p) := by
  cases p <;> exact h

/-! ### gradient steps -/

/-- everything a goroutine of a gradient step sends or writes -/
theorem paramActs_options {fuel : Nat} {E : GradEnv F64} {acc : F64} {p : Param} {c : Options F64} {acts : List (PAct F64)}
    (P : F64 → Prop) (hP : ∀ st, P st → P (st -. st *. ofRat (2/10))) (hst : P E.step)
    (h : paramActs fuel E acc p c = some acts) : ∀ o ∈ visible acts, o = c ∨ o = c.clone ∨ o = c.clone.clone ∨
      ∃ st' b, P st' ∧ (b = c ∨ b = c.clone.clone) ∧ o = tryStep E.co (derivative E.central (E.plus p (plusOpt E.fd c.clone p)).acc
        (E.minus p (minusOpt E.fd c.clone p)).acc acc (E.fd *. currentValue c p)) st' b p := by
  have hvis : ∀ (l : List (PAct F64)) o, o ∈ visible l → .send o ∈ l ∨ .mutate o ∈ l := by
    have hmut : ∀ (l : List (PAct F64)) o, o ∈ mutsUntilSend l → .mutate o ∈ l := by
      intro l
      induction l with
      | nil => intro o ho; simp [mutsUntilSend] at ho
      | cons a l ih =>
        intro o ho
        cases a with
        | send _ => simp [mutsUntilSend] at ho
        | mutate o' =>
          simp only [mutsUntilSend, List.mem_cons] at ho
          rcases ho with rfl | ho
          · simp
          · exact List.mem_cons_of_mem _ (ih o ho)
    intro l
    induction l with
    | nil => intro o ho; simp [visible] at ho
    | cons a l ih =>
      intro o ho
      cases a with
      | send o' =>
        simp only [visible, List.mem_cons] at ho
        rcases ho with rfl | ho
        · simp
        · exact Or.inr (List.mem_cons_of_mem _ (hmut l o ho))
      | mutate o' =>
        simp only [visible] at ho
        rcases ih o ho with h | h
        · exact Or.inl (List.mem_cons_of_mem _ h)
        · exact Or.inr (List.mem_cons_of_mem _ h)
  intro o ho
  replace ho := hvis acts o ho
  unfold paramActs at h
  simp only at h
  have hpre : ∀ (q : Prop) [Decidable q] (a : PAct F64), a ∈ (if q then [PAct.send c] else []) → a = .send c := by
    intro q _ a ha
    split at ha <;> simp_all
  split at h
  · simp only [Option.some.injEq] at h
    subst h
    left
    rcases ho with ho | ho
    · simp only [List.mem_append, List.mem_singleton] at ho
      rcases ho with (ho | ho) | ho
      · have := hpre _ _ ho; simpa using this
      · have := hpre _ _ ho; simpa using this
      · simpa using ho
    · simp only [List.mem_append, List.mem_singleton] at ho
      rcases ho with (ho | ho) | ho
      · have := hpre _ _ ho; simp at this
      · have := hpre _ _ ho; simp at this
      · simp at ho
  · obtain ⟨O', hO', h⟩ := Option.map_eq_some_iff.1 h
    subst h
    have hlast := stepLoop_cases P hP hst hO'
    rcases ho with ho | ho
    · simp only [List.mem_append, List.mem_singleton] at ho
      rcases ho with (((ho | ho) | ho) | ho) | ho
      · have := hpre _ _ ho; left; simpa using this
      · have := hpre _ _ ho; left; simpa using this
      · have := hpre _ _ ho; left; simpa using this
      · split at ho <;> simp at ho
      · simp only [PAct.send.injEq] at ho
        split at ho
        · subst ho
          rcases hlast with h | h | h
          · exact Or.inl h
          · exact Or.inr (Or.inr (Or.inl h))
          · exact Or.inr (Or.inr (Or.inr h))
        · exact Or.inr (Or.inl ho)
    · simp only [List.mem_append, List.mem_singleton] at ho
      rcases ho with (((ho | ho) | ho) | ho) | ho
      · have := hpre _ _ ho; simp at this
      · have := hpre _ _ ho; simp at this
      · have := hpre _ _ ho; simp at this
      · split at ho
        · simp only [List.mem_singleton, PAct.mutate.injEq] at ho
          exact Or.inr (Or.inr (Or.inr ⟨E.step, c, hst, Or.inl rfl, ho⟩))
        · simp at ho
      · simp at ho

/-- A search box in which central differences change shares slowly: with accuracies from 0 to 100 a step changes a share by at most half. The default
options (and those of the README) are such. -/
structure Calm (o : GridOptions F64) : Prop where
  central : o.central = true
  few : o.nSteps ≤ 8
  steps : ∃ f st σ σ' : ℚ, o.deltaFraction = .fin f ∧ o.step = .fin st ∧ o.subSample.step = .fin σ ∧ o.colSubSample.step = .fin σ' ∧ rv st = st ∧
    (0 ≤ f ∧ f ≤ 1 / 4) ∧ (0 ≤ st ∧ st ≤ 1) ∧ (0 ≤ σ ∧ σ ≤ 1 ∧ 1600 * f * σ * st ≤ 1) ∧ (0 ≤ σ' ∧ σ' ≤ 1 ∧ 1600 * f * σ' * st ≤ 1)

/-- The cross-validations of a gradient step of a search with the options `o`: what `G` reports is what they report, with the draws `di` (folds) and `df` (training),
if they return. -/
structure RealStep (exp : F64 → F64) (S : GoSort) (D : DataBunch F64) (nfold : Int) (o : GridOptions F64) (di : Param → Bool → List Nat)
    (df : Param → Bool → Nat → Nat → F64) (G : GradEnv F64) : Prop where
  co : G.co = o
  step : G.step = o.step
  fd : G.fd = o.deltaFraction
  central : G.central = o.central
  plus : ∀ p O out, crossValidation exp S D nfold (some O) true (di p true) (df p true) = pure out → G.plus p O = ⟨out.err, out.acc⟩
  minus : ∀ p O out, crossValidation exp S D nfold (some O) true (di p false) (df p false) = pure out → G.minus p O = ⟨out.err, out.acc⟩

/-- The draws suffice to make the samples of a cross-validation. -/
def Enough (D : DataBunch F64) (nfold : Int) (l : List Nat) : Prop :=
  (∀ x ∈ l, x < D.data.length) ∧ crossValidationSamples D nfold l ≠ none

/-- the cross-validation with these options returns without an error an accuracy from 0 to 100 -/
def CVWorks (exp : F64 → F64) (S : GoSort) (D : DataBunch F64) (nfold : Int) (O : Options F64) (conc : Bool) (di : List Nat) (df : Nat → Nat → F64) : Prop :=
  ∃ out, crossValidation exp S D nfold (some O) conc di df = pure out ∧ out.err = false ∧ ∃ q : ℚ, out.acc = .fin q ∧ 0 ≤ q ∧ q ≤ 100

/-- all cross-validations that a gradient step from `O` can make, in some schedule of its goroutines, work -/
def ProbesWork (exp : F64 → F64) (S : GoSort) (D : DataBunch F64) (nfold : Int) (fuel : Nat) (G : GradEnv F64) (di : Param → Bool → List Nat)
    (df : Param → Bool → Nat → Nat → F64) (O : Options F64) : Prop :=
  ∀ s p c, ReflTransGen (GradStep fuel G zero) (gradStart O) s → s.worker p = .cloning [] c →
    CVWorks exp S D nfold (plusOpt G.fd c.clone p) true (di p true) (df p true) ∧
    CVWorks exp S D nfold (minusOpt G.fd c.clone p) true (di p false) (df p false)

section
variable {exp : F64 → F64} {S : GoSort} {Q : List (Int × List ℚ)} {c : Nat} {D : DataBunch F64}

theorem cvWorks_of (hD : NumberData Q c D) (h4 : 4 ≤ Q.length) (h46 : Q.length ≤ 2 ^ 46) {nfold : Int} (h1 : nfold ≠ 1) {O : Options F64} (hb : BaseOk O)
    (hs : SharesUpTo (2 ^ 12) O) (conc : Bool) {di : List Nat} (hdi : Enough D nfold di) (df : Nat → Nat → F64) : CVWorks exp S D nfold O conc di df := by
  obtain ⟨g1, g2, g3, g4, g5, g6⟩ := hD.rows
  obtain ⟨⟨lv, hlv, hreg⟩, hms⟩ := hb.rowSub
  obtain ⟨out, e1, e2⟩ := C125_cv_returns exp S D hD.ok g4.symm (by omega) c g2 nfold h1 O lv hlv hreg
    (hs.caps g5 hD.narrow) (fun hr => by rw [hms hr]; decide) conc di hdi.1 hdi.2 df
  exact ⟨out, e1, e2, C54_range_binary64 _ _ _ (by rw [g3]; exact h46) _ _ _ _ hdi.1 _ _ e1 e2⟩

/-- the property of one of the two shares -/
def ShareP (b : ℚ) (p : Param) (O : Options F64) : Prop :=
  match p with
  | .subSample => UpTo b O.subSample
  | .colSubSample => UpTo b O.colSubSample
  | _ => True

theorem shareP_field (b : ℚ) : FieldProp (ShareP b) := by
  constructor
  · intro p x y h
    cases p <;> exact h
  · intro p q x y hpq h
    cases p <;> cases q <;> first | exact absurd rfl hpq | exact h

theorem gradStep_works (hD : NumberData Q c D) (h4 : 4 ≤ Q.length) (h46 : Q.length ≤ 2 ^ 46) {nfold : Int} (h1 : nfold ≠ 1) {o : GridOptions F64} (ho : Calm o)
    {di : Param → Bool → List Nat} (hdi : ∀ p x, Enough D nfold (di p x)) {df : Param → Bool → Nat → Nat → F64} {G : GradEnv F64}
    (hG : RealStep exp S D nfold o di df G) (fuel : Nat) {b : ℚ} (hb0 : 0 ≤ b) (hb : b ≤ 2 ^ 9) (hb' : rv (3 / 2 * b) = 3 / 2 * b) {O : Options F64} (hO : BaseOk O)
    (hs : SharesUpTo b O) : ProbesWork exp S D nfold fuel G di df O ∧
      ∀ s, ReflTransGen (GradStep fuel G zero) (gradStart O) s → BaseOk s.shared ∧ SharesUpTo (3 / 2 * b) s.shared := by
  obtain ⟨f, st, σ, σ', ef, est, eσ, eσ', hst0, hf, hst, hσ, hσ'⟩ := ho.steps
  have h12 : 3 * (3 / 2 * b) ≤ 2 ^ 12 := by
    have : (2 : ℚ) ^ 9 * 8 = 2 ^ 12 := by norm_num
    linarith
  have h14 : 3 / 2 * b ≤ 2 ^ 14 := by
    have : (2 : ℚ) ^ 9 * 32 = 2 ^ 14 := by norm_num
    linarith
  have hfd : G.fd = .fin f := by rw [hG.fd, ef]
  have hrest : ∀ c' : Options F64, SameRest O c' → BaseOk c' := by
    intro c' h
    unfold SameRest at h
    exact hO.of_eq (congrArg (·.loss) h) (congrArg (·.xgb) h) (congrArg (·.minSample) h)
  have probes : ∀ p c', SameRest O c' → (∀ q, ShareP (3 / 2 * b) q c') →
      CVWorks exp S D nfold (plusOpt G.fd c'.clone p) true (di p true) (df p true) ∧
      CVWorks exp S D nfold (minusOpt G.fd c'.clone p) true (di p false) (df p false) := by
    intro p c' hr hq
    have hc : SharesUpTo (3 / 2 * b) c'.clone := ⟨hq .subSample, hq .colSubSample⟩
    have hbc : BaseOk c'.clone := (hrest c' hr).of_eq rfl rfl rfl
    rw [hfd]
    refine ⟨cvWorks_of hD h4 h46 h1 (plusOpt_base hbc _ p) ?_ _ (hdi p true) _, cvWorks_of hD h4 h46 h1 (minusOpt_base hbc _ p) ?_ _ (hdi p false) _⟩
    · have := plusOpt_ok hc h14 (by linarith) hf p
      exact ⟨this.1.mono h12, this.2.mono h12⟩
    · have := minusOpt_ok hc h14 (by linarith) hf p
      exact ⟨this.1.mono h12, this.2.mono h12⟩
  have hP : ∀ x : F64, UpTo st x → UpTo st (x -. x *. ofRat (2/10)) := by
    rintro x ⟨q, rfl, h0, hq⟩
    obtain ⟨φ, eφ, hφ⟩ : ∃ φ : ℚ, (ofRat (2/10) : F64) = .fin φ ∧ 0 ≤ φ ∧ φ ≤ 1 / 4 := ⟨rv (2/10), ofRat64 (by decide +kernel), by decide +kernel, by decide +kernel⟩
    rw [eφ]
    have hp : 0 ≤ q * φ := mul_nonneg h0 hφ.1
    have hp1 : q * φ ≤ q / 4 := by nlinarith [hφ.2]
    rw [mul64 (small64' (by rw [abs_of_nonneg hp]; linarith [hst.2, show (1 : ℚ) ≤ 2 ^ 20 by norm_num]))]
    have h2 := rv_le_double (q * φ)
    have h3 := rv_nonneg hp
    rw [abs_of_nonneg hp, abs_of_nonneg h3] at h2
    generalize rv (q * φ) = t at h2 h3
    rw [sub64 (small64' (by rw [abs_of_nonneg (by linarith)]; linarith [hst.2, show (1 : ℚ) ≤ 2 ^ 20 by norm_num]))]
    refine ⟨_, rfl, rv_nonneg (by linarith), ?_⟩
    rw [← hst0]
    exact rv_mono (by linarith)
  have hstep : UpTo st G.step := ⟨st, by rw [hG.step, est], hst.1, le_rfl⟩
  have hacts : ∀ p c' acts, SameRest O c' → ShareP b p c' → (∀ q, ShareP (3 / 2 * b) q c') → paramActs fuel G zero p c' = some acts →
      ∀ o ∈ visible acts, ShareP (3 / 2 * b) p o := by
    intro p c' acts hr hp hq ha x hx
    obtain ⟨⟨o1, a1, a2, q1, a3, a4⟩, ⟨o2, b1, b2, q2, b3, b4⟩⟩ := probes p c' hr hq
    have e1 := congrArg CVRes.acc (hG.plus p _ _ a1)
    have e2 := congrArg CVRes.acc (hG.minus p _ _ b1)
    simp only at e1 e2
    rw [a3] at e1
    rw [b3] at e2
    have hself : ShareP (3 / 2 * b) p c' := hq p
    rcases paramActs_options (UpTo st) hP hstep ha x hx with h | h | h | ⟨st', bb, hst', hbb, h⟩
    · subst h; exact hself
    · subst h; cases p <;> exact hself
    · subst h; cases p <;> exact hself
    · rw [e1, e2, hG.central, ho.central, hfd] at h
      obtain ⟨s', rfl, hs0, hs1⟩ := hst'
      have prod : ∀ z : ℚ, 0 ≤ z → 1600 * f * z * st ≤ 1 → 1600 * f * z * s' ≤ 1 := by
        intro z hz h
        have : 0 ≤ 1600 * f * z := mul_nonneg (by linarith [hf.1]) hz
        nlinarith
      have h16 : b ≤ 2 ^ 16 := hb.trans (by norm_num)
      cases p
      case subSample =>
        subst h
        have hbs : bb.subSample = c'.subSample := by rcases hbb with rfl | rfl <;> rfl
        obtain ⟨v, ev, v0, v1⟩ := (show UpTo b c'.subSample from hp)
        show UpTo _ (bb.subSample +. _)
        rw [hbs, hG.co, eσ, show currentValue c' .subSample = c'.subSample from rfl, ev]
        exact try_share v0 v1 h16 hb' le_rfl ⟨hf.1, by linarith [hf.2]⟩ ⟨hσ.1, hσ.2.1⟩ ⟨hs0, by linarith [hst.2]⟩ (prod σ hσ.1 hσ.2.2) a4 b4 rfl rfl _
      case colSubSample =>
        subst h
        have hbs : bb.colSubSample = c'.colSubSample := by rcases hbb with rfl | rfl <;> rfl
        obtain ⟨v, ev, v0, v1⟩ := (show UpTo b c'.colSubSample from hp)
        show UpTo _ (bb.colSubSample +. _)
        rw [hbs, hG.co, eσ', show currentValue c' .colSubSample = c'.colSubSample from rfl, ev]
        exact try_share v0 v1 h16 hb' le_rfl ⟨hf.1, by linarith [hf.2]⟩ ⟨hσ'.1, hσ'.2.1⟩ ⟨hs0, by linarith [hst.2]⟩ (prod σ' hσ'.1 hσ'.2.2) a4 b4 rfl rfl _
      all_goals trivial
  have key : ∀ s, ReflTransGen (GradStep fuel G zero) (gradStart O) s → _ := fun s hr =>
    gradStep_fields₂ (shareP_field b) (shareP_field (3 / 2 * b))
      (fun q o h => by cases q <;> first | exact trivial | exact UpTo.mono h (by linarith))
      (fun q => by cases q <;> first | exact trivial | exact hs.1 | exact hs.2) hacts hr
  refine ⟨fun s p c' hr hw => ?_, fun s hr => ?_⟩
  · obtain ⟨_, _, k3⟩ := key s hr
    obtain ⟨m1, _, m3⟩ := k3 p c' hw
    exact probes p c' m1 m3
  · obtain ⟨k1, k2, _⟩ := key s hr
    refine ⟨?_, k1 .subSample, k1 .colSubSample⟩
    unfold SameOthers at k2
    exact hO.of_eq (congrArg (·.loss) k2) (congrArg (·.xgb) k2) (congrArg (·.minSample) k2)

/-! ### searches -/

/-- options every cross-validation works with -/
def Fit (O : Options F64) : Prop := BaseOk O ∧ SharesUpTo (2 ^ 9) O

theorem fuzzOptions_ok {b : ℚ} {O : Options F64} (h : SharesUpTo b O) (hb : b ≤ 2 ^ 16) (hb4 : rv (b / 4) = b / 4) (hb5 : rv (5 * b / 4) = 5 * b / 4)
    {d : FuzzDraws F64} (hd : ∀ i, UnitDraw (d i).1) (perc : Option F64) (hφ : perc = none ∨ perc = some (ofRat (2/10))) :
    SharesUpTo (5 * b / 4) (fuzzOptions d O perc) := by
  have e1 : (ofRat (1/10) : F64) = .fin (rv (1/10)) := ofRat64 (by decide +kernel)
  have e2 : (ofRat (2/10) : F64) = .fin (rv (2/10)) := ofRat64 (by decide +kernel)
  have b1 : 0 ≤ rv (1/10) ∧ rv (1/10) ≤ 1 / 4 := ⟨by decide +kernel, by decide +kernel⟩
  have b2 : 0 ≤ rv (2/10) ∧ rv (2/10) ≤ 1 / 4 := ⟨by decide +kernel, by decide +kernel⟩
  rcases hφ with rfl | rfl
  · refine ⟨?_, ?_⟩
    · show UpTo _ (fuzz _ _ _ (ofRat (1/10)))
      rw [e1]
      exact fuzz_share h.1 hb hb4 hb5 (hd 1) b1
    · show UpTo _ (fuzz _ _ _ (ofRat (1/10)))
      rw [e1]
      exact fuzz_share h.2 hb hb4 hb5 (hd 2) b1
  · have hpos : gt (ofRat (2/10) : F64) zero = true := by decide +kernel
    refine ⟨?_, ?_⟩
    · show UpTo _ (fuzz _ _ _ (if gt (ofRat (2/10)) zero = true then (ofRat (2/10)) else ofRat (1/10)))
      rw [if_pos hpos, e2]
      exact fuzz_share h.1 hb hb4 hb5 (hd 1) b2
    · show UpTo _ (fuzz _ _ _ (if gt (ofRat (2/10)) zero = true then (ofRat (2/10)) else ofRat (1/10)))
      rw [if_pos hpos, e2]
      exact fuzz_share h.2 hb hb4 hb5 (hd 2) b2

theorem fuzzOptions_base {O : Options F64} (h : BaseOk O) (d : FuzzDraws F64) (perc : Option F64) : BaseOk (fuzzOptions d O perc) := h

theorem fixMcw_fit {b : ℚ} {O : Options F64} (h : BaseOk O ∧ SharesUpTo b O) : BaseOk O.fixMcw ∧ SharesUpTo b O.fixMcw := by
  unfold Options.fixMcw
  split <;> exact h

theorem clone_fit {b : ℚ} {O : Options F64} (h : BaseOk O ∧ SharesUpTo b O) : BaseOk O.clone ∧ SharesUpTo b O.clone := h

/-- The surroundings of a search on the data: what the cross-validations and the gradient steps report is what they compute on the data, if they return.
`di` and `df` are the draws of the cross-validations that compare accuracies, `gi` and `gf` those of the gradient steps, `G` what the cross-validations of the
gradient steps report. -/
structure RealSearch (exp : F64 → F64) (S : GoSort) (D : DataBunch F64) (nfold : Int) (fuel : Nat) (E : SearchEnv F64) (di : Nat → List Nat)
    (df : Nat → Nat → Nat → F64) (gi : Nat → Param → Bool → List Nat) (gf : Nat → Param → Bool → Nat → Nat → F64) (G : Nat → GradEnv F64) : Prop where
  folds : ∀ k, Enough D 5 (di k)
  gfolds : ∀ k p x, Enough D nfold (gi k p x)
  units : ∀ k i, UnitDraw (E.draws k i).1
  cv : ∀ k O out, crossValidation exp S D 5 (some O) false (di k) (df k) = pure out → E.cv k 5 O = ⟨out.err, out.acc⟩
  step : ∀ k, RealStep exp S D nfold E.o (gi k) (gf k) (G k)
  grad : ∀ k O, ProbesWork exp S D nfold fuel (G k) (gi k) (gf k) O → ∀ curr, GradReturns fuel (G k) curr O (E.grad k nfold O)

theorem pow_rv (k : Nat) : rv ((2 : ℚ) ^ k / 4) = 2 ^ k / 4 ∧ rv (5 * 2 ^ k / 4) = 5 * 2 ^ k / 4 ∧ rv (3 / 2 * 2 ^ k) = 3 / 2 * 2 ^ k ∧
    rv ((3 / 2 * 2 ^ k) / 4) = (3 / 2 * 2 ^ k) / 4 ∧ rv (5 * (3 / 2 * 2 ^ k) / 4) = 5 * (3 / 2 * 2 ^ k) / 4 := by
  have key : ∀ (n : Int) (j : Nat), |n| < 2 ^ 53 → j ≤ 3 → rv ((n : ℚ) * 2 ^ k / 2 ^ j) = n * 2 ^ k / 2 ^ j := by
    intro n j hn hj
    have := rv_grid n ((k : Int) - j) hn (by omega)
    rw [zpow_sub₀ (by norm_num), zpow_natCast, zpow_natCast, ← mul_div_assoc] at this
    exact this
  refine ⟨?_, ?_, ?_, ?_, ?_⟩
  · have := key 1 2 (by norm_num) (by norm_num)
    norm_num at this
    exact this
  · have := key 5 2 (by norm_num) (by norm_num)
    norm_num at this
    exact this
  · have := key 3 1 (by norm_num) (by norm_num)
    norm_num at this
    rw [show (3 : ℚ) / 2 * 2 ^ k = 3 * 2 ^ k / 2 by ring]
    exact this
  · have := key 3 3 (by norm_num) (by norm_num)
    norm_num at this
    rw [show (3 : ℚ) / 2 * 2 ^ k / 4 = 3 * 2 ^ k / 8 by ring]
    exact this
  · have := key 15 3 (by norm_num) (by norm_num)
    norm_num at this
    rw [show 5 * ((3 : ℚ) / 2 * 2 ^ k) / 4 = 15 * 2 ^ k / 8 by ring]
    exact this

theorem pow_le_nine {k : Nat} (h : k ≤ 9) : (2 : ℚ) ^ k ≤ 2 ^ 9 := pow_le_pow_right₀ (by norm_num) h

section
variable {nfold : Int} {fuel : Nat} {E : SearchEnv F64} {di : Nat → List Nat} {df : Nat → Nat → Nat → F64} {gi : Nat → Param → Bool → List Nat}
  {gf : Nat → Param → Bool → Nat → Nat → F64} {G : Nat → GradEnv F64}

theorem compareAccs_fit (hD : NumberData Q c D) (h4 : 4 ≤ Q.length) (h46 : Q.length ≤ 2 ^ 46) (hE : RealSearch exp S D nfold fuel E di df gi gf G)
    {s : SearchState F64} (hs : HeapInv Fit s) {t tprev : Nat} (ht : t < s.heap.length) (htp : tprev < s.heap.length) (hne : t ≠ tprev) {k : Nat} (hk : k + 1 ≤ 9)
    (h1 : SharesUpTo (3 / 2 * 2 ^ k) (s.deref t)) (h2 : SharesUpTo (2 ^ k) (s.deref tprev)) :
    ∃ s' t', compareAccs E s t tprev = (s', some t') ∧ HeapInv Fit s' ∧ t' < s'.heap.length ∧ SharesUpTo (2 ^ (k + 1)) (s'.deref t') := by
  obtain ⟨r4, r5, _, _, _⟩ := pow_rv k
  have hpos : (0 : ℚ) < 2 ^ k := by positivity
  have hk1 : (2 : ℚ) ^ (k + 1) = 2 * 2 ^ k := by ring
  have hft := hs.deref ht
  have h9 : (2 : ℚ) ^ 9 ≤ 2 ^ 12 := by norm_num
  obtain ⟨out, o1, o2, _⟩ := cvWorks_of (exp := exp) (S := S) hD h4 h46 (nfold := 5) (by decide) hft.1 ⟨hft.2.1.mono h9, hft.2.2.mono h9⟩ false (hE.folds s.calls.length) (df s.calls.length)
  have hcv := hE.cv s.calls.length _ _ o1
  unfold compareAccs
  simp only [hcv, o2, Bool.false_eq_true, if_false]
  set s1 : SearchState F64 := { s with calls := s.calls ++ [(s.deref t, ⟨false, out.acc⟩)] } with hs1
  have hi1 : HeapInv Fit s1 := by
    refine ⟨hs.all, hs.final, ?_⟩
    intro x hx
    rcases List.mem_append.1 hx with hx | hx
    · exact hs.calls x hx
    · rw [List.mem_singleton] at hx
      subst hx
      exact hft
  have hd1 : s1.deref t = s.deref t := rfl
  have hi2 : HeapInv Fit (s1.store t (s1.deref t).fixMcw) := hi1.store t (fixMcw_fit hft)
  have hl2 : (s1.store t (s1.deref t).fixMcw).heap.length = s.heap.length := List.length_set ..
  have hdt : (s1.store t (s1.deref t).fixMcw).deref t = (s.deref t).fixMcw := deref_store ht _
  have hdp : (s1.store t (s1.deref t).fixMcw).deref tprev = s.deref tprev := deref_store_ne hne.symm _
  have hsh : SharesUpTo (2 ^ (k + 1)) (s1.store t (s1.deref t).fixMcw |>.deref t) := by
    rw [hdt]
    have := (fixMcw_fit ⟨hft.1, h1⟩).2
    exact ⟨this.1.mono (by linarith), this.2.mono (by linarith)⟩
  generalize hg : s1.store t (s1.deref t).fixMcw = s2 at hi2 hl2 hdp hsh
  split
  · refine ⟨_, _, rfl, ?_, ?_, ?_⟩
    all_goals have hz := fuzzOptions_ok (hdp ▸ h2) ((pow_le_nine (by omega)).trans (by norm_num)) r4 r5 (hE.units s2.fuzzes) none (Or.inl rfl)
    · have hb := fuzzOptions_base (hi2.deref (t := tprev) (by omega)).1 (E.draws s2.fuzzes) none
      have := hi2.store tprev (o := fuzzOptions (E.draws s2.fuzzes) (s2.deref tprev) none) ⟨hb, by
        have h9 := pow_le_nine hk
        exact ⟨hz.1.mono (by linarith), hz.2.mono (by linarith)⟩⟩
      exact ⟨this.all, this.final, this.calls⟩
    · show tprev < (s2.heap.set _ _).length
      rw [List.length_set]; omega
    · have : (s2.fuzz E tprev none).deref tprev = fuzzOptions (E.draws s2.fuzzes) (s2.deref tprev) none :=
        deref_store (s := s2) (by omega) _
      rw [this]
      exact ⟨hz.1.mono (by linarith), hz.2.mono (by linarith)⟩
  · split
    · refine ⟨_, _, rfl, ⟨hi2.all, ?_, hi2.calls⟩, ?_, hsh⟩
      · intro ptr hp
        simp only [Option.some.injEq] at hp
        subst hp
        show _ < s2.heap.length
        omega
      · show _ < s2.heap.length
        omega
    · exact ⟨_, _, rfl, hi2, by omega, hsh⟩

theorem searchSteps_fit (hD : NumberData Q c D) (h4 : 4 ≤ Q.length) (h46 : Q.length ≤ 2 ^ 46) (hn1 : nfold ≠ 1) (ho : Calm E.o)
    (hE : RealSearch exp S D nfold fuel E di df gi gf G) :
    ∀ (n : Nat) (s : SearchState F64) (t strikes k : Nat), k + n ≤ 9 → HeapInv Fit s → t < s.heap.length → SharesUpTo (2 ^ k) (s.deref t) →
      ∃ s', searchSteps E nfold n s t strikes = (s', true) ∧ HeapInv Fit s' := by
  intro n
  induction n with
  | zero => intro s t _ k _ h _ _; exact ⟨s, rfl, h⟩
  | succ n ih =>
    intro s t strikes k hk hs ht hb
    obtain ⟨_, _, r3, r34, r35⟩ := pow_rv k
    have hpos : (0 : ℚ) < 2 ^ k := by positivity
    have hk1 : (2 : ℚ) ^ (k + 1) = 2 * 2 ^ k := by ring
    have h9 := pow_le_nine (k := k + 1) (by omega)
    have hft := hs.deref ht
    unfold searchSteps
    simp only
    set s1 := s.alloc (s.deref t).clone with hs1
    have hi1 : HeapInv Fit s1 := hs.alloc (clone_fit hft)
    have hl1 : s1.heap.length = s.heap.length + 1 := by simp [hs1, SearchState.alloc]
    have hd1 : s1.deref t = s.deref t := by
      simp only [hs1, SearchState.deref, SearchState.alloc]
      rw [List.getElem?_append_left ht]
    have hdn : s1.deref s.heap.length = (s.deref t).clone := by
      simp [hs1, SearchState.deref, SearchState.alloc]
    obtain ⟨hprobe, hres⟩ := gradStep_works hD h4 h46 hn1 ho (hE.gfolds s1.steps) (hE.step s1.steps) fuel (b := 2 ^ k) hpos.le (by linarith) r3 hft.1 hb
    have hgr := hE.grad s1.steps _ hprobe (fun _ => ⟨false, zero⟩)
    have hgrad : BaseOk (E.grad s1.steps nfold (s.deref t)) ∧ SharesUpTo (3 / 2 * 2 ^ k) (E.grad s1.steps nfold (s.deref t)) := by
      unfold GradReturns at hgr
      simp only [(hE.step s1.steps).central, ho.central, if_true] at hgr
      obtain ⟨s', e1, _, e3⟩ := hgr
      rw [← e3]
      exact hres s' e1
    set s2 : SearchState F64 := { s1.store t (E.grad s1.steps nfold (s1.deref t)) with steps := s1.steps + 1 } with hs2
    have hl2 : s2.heap.length = s.heap.length + 1 := by rw [← hl1]; exact List.length_set ..
    have hi2 : HeapInv Fit s2 := by
      have := hi1.store t (o := E.grad s1.steps nfold (s1.deref t)) (by
        rw [hd1]
        exact ⟨hgrad.1, hgrad.2.1.mono (by linarith), hgrad.2.2.mono (by linarith)⟩)
      exact ⟨this.all, this.final, this.calls⟩
    have hd2 : s2.deref t = E.grad s1.steps nfold (s.deref t) := by
      have : s2.deref t = (s1.store t (E.grad s1.steps nfold (s1.deref t))).deref t := rfl
      rw [this, deref_store (by omega), hd1]
    have hdn2 : s2.deref s.heap.length = (s.deref t).clone := by
      have : s2.deref s.heap.length = (s1.store t (E.grad s1.steps nfold (s1.deref t))).deref s.heap.length := rfl
      rw [this, deref_store_ne (by omega), hdn]
    have hz := fuzzOptions_ok (O := s2.deref t) (by rw [hd2]; exact hgrad.2) (by linarith [show (2:ℚ)^9 ≤ 2^16 by norm_num]) r34 r35 (hE.units s2.fuzzes) (some (ofRat (2/10))) (Or.inr rfl)
    have hi3 : HeapInv Fit (s2.fuzz E t (some (ofRat (2/10)))) := by
      have hb := fuzzOptions_base (hi2.deref (t := t) (by omega)).1 (E.draws s2.fuzzes) (some (ofRat (2/10)))
      have := hi2.store t (o := fuzzOptions (E.draws s2.fuzzes) (s2.deref t) (some (ofRat (2/10)))) ⟨hb,
        hz.1.mono (by linarith), hz.2.mono (by linarith)⟩
      exact ⟨this.all, this.final, this.calls⟩
    have hl3 : (s2.fuzz E t (some (ofRat (2/10)))).heap.length = s2.heap.length := List.length_set ..
    have hd3 : (s2.fuzz E t (some (ofRat (2/10)))).deref t = fuzzOptions (E.draws s2.fuzzes) (s2.deref t) (some (ofRat (2/10))) :=
      deref_store (s := s2) (by omega) _
    split
    · split
      · exact ⟨_, rfl, hi3⟩
      · exact ih _ t _ (k + 1) (by omega) hi3 (by omega) (by rw [hd3]; exact ⟨hz.1.mono (by linarith), hz.2.mono (by linarith)⟩)
    · obtain ⟨s', t', e, hi', ht', hb'⟩ := compareAccs_fit hD h4 h46 hE hi2 (t := t) (tprev := s.heap.length) (by omega) (by omega) (by omega) (k := k) (by omega)
        (by rw [hd2]; exact hgrad.2) (by rw [hdn2]; exact hb)
      rw [e]
      exact ih s' t' 0 (k + 1) (by omega) hi' ht' hb'

theorem searchFrom_fit (hD : NumberData Q c D) (h4 : 4 ≤ Q.length) (h46 : Q.length ≤ 2 ^ 46) (hn1 : nfold ≠ 1) (ho : Calm E.o)
    (hE : RealSearch exp S D nfold fuel E di df gi gf G) {s : SearchState F64} (hs : HeapInv Fit s) {init : Options F64} (hb : BaseOk init) (hsh : SharesUpTo 1 init) :
    ∃ s', searchFrom E nfold s init = (s', true) ∧ HeapInv Fit s' := by
  have hfit : Fit init := ⟨hb, hsh.1.mono (by norm_num), hsh.2.mono (by norm_num)⟩
  unfold searchFrom
  simp only
  have hi : HeapInv Fit ((s.alloc init).alloc init.clone) := (hs.alloc hfit).alloc (clone_fit hfit)
  have hd1 : ((s.alloc init).alloc init.clone).deref s.heap.length = init := by simp [SearchState.deref, SearchState.alloc]
  have hd2 : ((s.alloc init).alloc init.clone).deref (s.heap.length + 1) = init.clone := by simp [SearchState.deref, SearchState.alloc]
  have hl : ((s.alloc init).alloc init.clone).heap.length = s.heap.length + 2 := by simp [SearchState.alloc]
  obtain ⟨s', t', e, hi', ht', hb'⟩ := compareAccs_fit hD h4 h46 hE hi (t := s.heap.length) (tprev := s.heap.length + 1) (by omega) (by omega) (by omega) (k := 0) (by omega)
    (by rw [hd1]; exact ⟨hsh.1.mono (by norm_num), hsh.2.mono (by norm_num)⟩) (by rw [hd2]; exact ⟨hsh.1.mono (by norm_num), hsh.2.mono (by norm_num)⟩)
  rw [e]
  exact searchSteps_fit hD h4 h46 hn1 ho hE _ s' t' 0 1 (by have := ho.few; omega) hi' ht' hb'

theorem searchAll_fit (hD : NumberData Q c D) (h4 : 4 ≤ Q.length) (h46 : Q.length ≤ 2 ^ 46) (hn1 : nfold ≠ 1) (ho : Calm E.o)
    (hE : RealSearch exp S D nfold fuel E di df gi gf G) : ∀ (inits : List (Options F64)) (s : SearchState F64), HeapInv Fit s →
      (∀ I ∈ inits, BaseOk I ∧ SharesUpTo 1 I) → ∃ s', searchAll E nfold inits s = (s', true) ∧ HeapInv Fit s' := by
  intro inits
  induction inits with
  | nil => exact fun s h _ => ⟨s, rfl, h⟩
  | cons init inits ih =>
    intro s hs hI
    obtain ⟨s1, e1, h1⟩ := searchFrom_fit hD h4 h46 hn1 ho hE hs (hI init (by simp)).1 (hI init (by simp)).2
    obtain ⟨s2, e2, h2⟩ := ih s1 h1 fun I hI' => hI I (by simp [hI'])
    refine ⟨s2, ?_, h2⟩
    unfold searchAll
    rw [e1]
    exact e2

/-- the history of the calls contains what the cross-validations reported -/
def Told (E : SearchEnv F64) (s : SearchState F64) : Prop := ∀ (k : Nat) x, s.calls[k]? = some x → x.2 = E.cv k 5 x.1

theorem told_kept (E : SearchEnv F64) : Kept E (Told E) := by
  constructor
  · intro s s' _ _ _ h4 _ h
    unfold Told
    rw [h4]
    exact h
  · intro s t tprev h
    have key : ∀ (k : Nat) x, (s.calls ++ [(s.deref t, E.cv s.calls.length 5 (s.deref t))])[k]? = some x → x.2 = E.cv k 5 x.1 := by
      intro k x hx
      by_cases hk : k < s.calls.length
      · rw [List.getElem?_append_left hk] at hx
        exact h k x hx
      · rw [List.getElem?_append_right (by omega)] at hx
        by_cases hk0 : k - s.calls.length = 0
        · rw [hk0] at hx
          simp only [List.getElem?_cons_zero, Option.some.injEq] at hx
          subst hx
          rw [show k = s.calls.length by omega]
        · obtain ⟨j, hj⟩ := Nat.exists_eq_succ_of_ne_zero hk0
          rw [hj] at hx
          simp at hx
    unfold compareAccs
    simp only
    split
    · exact key
    · split
      · exact key
      · split
        · exact key
        · exact key

/-- the starting points of the searches -/
theorem inits_fit {fuel' : Nat} {inits : List (Options F64)} (o : GridOptions F64) (hi : gradientInits fuel' o = some inits ∨ hybridInits fuel' o = some inits)
    (hs : Share (av o.subSample.lo o.subSample.hi)) (hc : Share (av o.colSubSample.lo o.colSubSample.hi)) : ∀ I ∈ inits, BaseOk I ∧ SharesUpTo 1 I := by
  have hbase : ∀ I : Options F64, I.loss = (baseOptions o).loss → I.minSample = (baseOptions o).minSample → I.xgb = o.xgb →
      I.subSample = av o.subSample.lo o.subSample.hi → I.colSubSample = av o.colSubSample.lo o.colSubSample.hi → BaseOk I ∧ SharesUpTo 1 I := by
    intro I h1 h2 h3 h4 h5
    obtain ⟨lv, e1, e2⟩ := baseOptions_loss o
    refine ⟨⟨⟨lv, by rw [h1]; exact e1, e2⟩, fun hx => ?_⟩, by rw [h4]; exact hs, by rw [h5]; exact hc⟩
    rw [h2]
    unfold baseOptions
    rw [if_pos (by rw [← h3]; exact hx)]
    rfl
  rcases hi with hi | hi
  · refine nest_all _ (fun cw l hl x hx => ?_) hi
    obtain ⟨l', _, rfl⟩ := Option.map_eq_some_iff.1 hl
    obtain ⟨md, _, rfl⟩ := List.mem_map.1 hx
    exact hbase _ rfl rfl rfl rfl rfl
  · refine nest_all _ (fun r l hl => nest_all _ (fun cw l hl => nest_all _ (fun md l hl x hx => ?_) hl) hl) hi
    obtain ⟨l', _, rfl⟩ := Option.map_eq_some_iff.1 hl
    obtain ⟨lam, _, rfl⟩ := List.mem_map.1 hx
    exact hbase _ rfl rfl rfl rfl rfl

end

end

/-- **C126 (a gradient step)**: on 4 to 2^46 rows of numbers of at most 15 digits, a gradient step of a search in a calm box, with another number of folds than 1, from
options with shares of rows and columns of at most 2^9, makes only cross-validations that return without an error, whatever is drawn and in every schedule of its
goroutines, and it increases the shares at most by half. -/
theorem C126_step (exp : F64 → F64) (S : GoSort) (Q : List (Int × List ℚ)) (c : Nat) (D : DataBunch F64) (hD : NumberData Q c D) (h4 : 4 ≤ Q.length)
    (h46 : Q.length ≤ 2 ^ 46) (nfold : Int) (h1 : nfold ≠ 1) (o : GridOptions F64) (ho : Calm o) (di : Param → Bool → List Nat)
    (hdi : ∀ p x, Enough D nfold (di p x)) (df : Param → Bool → Nat → Nat → F64) (G : GradEnv F64) (hG : RealStep exp S D nfold o di df G) (fuel k : Nat) (hk : k ≤ 9)
    (O : Options F64) (hO : BaseOk O) (hs : SharesUpTo (2 ^ k) O) :
    ProbesWork exp S D nfold fuel G di df O ∧
      ∀ curr O', GradReturns fuel G curr O O' → BaseOk O' ∧ SharesUpTo (3 / 2 * 2 ^ k) O' := by
  obtain ⟨h2, h3⟩ := gradStep_works hD h4 h46 h1 ho hdi hG fuel (b := 2 ^ k) (by positivity) (pow_le_nine hk) (pow_rv k).2.2.1 hO hs
  refine ⟨h2, fun curr O' h => ?_⟩
  unfold GradReturns at h
  simp only [hG.central, ho.central, if_true] at h
  obtain ⟨s, e1, _, e3⟩ := h
  rw [← e3]
  exact h3 s e1

/-- **C126 (gradient searches), partial**: on 4 to 2^46 rows of numbers of at most 15 digits, with another number of folds than 1, `GradientGrid` and
`HybridGradientGrid` in a calm box whose middle shares of rows and columns are between 0 and 1 return without an error, whatever is drawn and in every schedule of their
goroutines. Every cross-validation with which they compare options returns without an error; the accuracy they return is one that was measured, or 0, and is between 0
and 100; and `NewMultiClass` accepts the options they return, if any. Missing: options are always returned (`C126_violated`). -/
theorem C126_search_partial (exp : F64 → F64) (S : GoSort) (Q : List (Int × List ℚ)) (c : Nat) (D : DataBunch F64) (hD : NumberData Q c D) (h4 : 4 ≤ Q.length)
    (h46 : Q.length ≤ 2 ^ 46) (nfold : Int) (h1 : nfold ≠ 1) (E : SearchEnv F64) (ho : Calm E.o) (hs : Share (av E.o.subSample.lo E.o.subSample.hi))
    (hc : Share (av E.o.colSubSample.lo E.o.colSubSample.hi)) (di : Nat → List Nat) (df : Nat → Nat → Nat → F64) (gi : Nat → Param → Bool → List Nat)
    (gf : Nat → Param → Bool → Nat → Nat → F64) (G : Nat → GradEnv F64) (fuel fuel' : Nat) (hE : RealSearch exp S D nfold fuel E di df gi gf G)
    (inits : List (Options F64)) (hi : gradientInits fuel' E.o = some inits ∨ hybridInits fuel' E.o = some inits) :
    let ret := searchRet (searchAll E nfold inits searchStart)
    ret.err = false ∧
    (∀ (k : Nat) O r, (searchEnd E nfold inits).calls[k]? = some (O, r) → CVWorks exp S D 5 O false (di k) (df k) ∧ r.err = false ∧
      ∃ out, crossValidation exp S D 5 (some O) false (di k) (df k) = pure out ∧ r.acc = out.acc) ∧
    (∃ a : ℚ, ret.acc = .fin a ∧ 0 ≤ a ∧ a ≤ 100) ∧
    (ret.opts = none ∧ ret.acc = .fin 0 ∨ ∃ O, (O, ⟨false, ret.acc⟩) ∈ (searchEnd E nfold inits).calls) ∧
    ∀ best, ret.opts = some best → TrainsWith exp S Q c D best := by
  obtain ⟨s, hs', hinv⟩ := searchAll_fit hD h4 h46 h1 ho hE inits searchStart ⟨by simp [searchStart], by simp [searchStart], by simp [searchStart]⟩
    (inits_fit E.o hi hs hc)
  have htold : Told E s := by
    have := searchAll_kept (told_kept E) nfold inits searchStart (by intro k x h; simp [searchStart] at h)
    rw [hs'] at this
    exact this
  have hmeas : Measured s := by
    have := searchAll_kept (measured_kept E) nfold inits searchStart (by intro h; exact absurd rfl h)
    rw [hs'] at this
    exact this
  have hacc : AccInv s := by
    have := searchAll_kept (accInv_kept E) nfold inits searchStart
      ⟨List.Pairwise.nil, by simp [searchStart], by simp [searchStart], fun _ => ⟨rfl, rfl⟩, by simp [searchStart]⟩
    rw [hs'] at this
    exact this
  have hend : searchEnd E nfold inits = s := by unfold searchEnd; rw [hs']
  have h9 : (2 : ℚ) ^ 9 ≤ 2 ^ 12 := by norm_num
  have hcalls : ∀ (k : Nat) O r, s.calls[k]? = some (O, r) → ∃ out, crossValidation exp S D 5 (some O) false (di k) (df k) = pure out ∧ out.err = false ∧
      (∃ q : ℚ, out.acc = .fin q ∧ 0 ≤ q ∧ q ≤ 100) ∧ r = ⟨false, out.acc⟩ := by
    intro k O r hk
    have hf := hinv.calls _ (List.mem_of_getElem? hk)
    obtain ⟨out, e1, e2, e3⟩ := cvWorks_of (exp := exp) (S := S) hD h4 h46 (nfold := 5) (by decide) hf.1 ⟨hf.2.1.mono h9, hf.2.2.mono h9⟩ false (hE.folds k) (df k)
    refine ⟨out, e1, e2, e3, ?_⟩
    have := htold k _ hk
    simp only at this
    rw [this, hE.cv k O out e1, e2]
  rw [hend, hs']
  show (false = false) ∧ _ ∧ (∃ a : ℚ, s.best = .fin a ∧ 0 ≤ a ∧ a ≤ 100) ∧ (s.final.map s.deref = none ∧ s.best = .fin 0 ∨ ∃ O, (O, ⟨false, s.best⟩) ∈ s.calls) ∧
    ∀ best, s.final.map s.deref = some best → _
  have hz : (zero : F64) = .fin 0 := by decide +kernel
  refine ⟨rfl, ?_, ?_, ?_, ?_⟩
  · intro k O r hk
    obtain ⟨out, e1, e2, e3, rfl⟩ := hcalls k O r hk
    exact ⟨⟨out, e1, e2, e3⟩, rfl, out, e1, rfl⟩
  · by_cases hn : s.accs = []
    · rw [(hacc.none hn).1]
      exact ⟨0, hz, le_rfl, by norm_num⟩
    · obtain ⟨O, hO⟩ := hmeas hn
      obtain ⟨k, hk⟩ := List.getElem?_of_mem hO
      obtain ⟨out, _, _, e3, er⟩ := hcalls k _ _ hk
      simp only [CVRes.mk.injEq, true_and] at er
      rw [er]
      exact e3
  · by_cases hn : s.accs = []
    · obtain ⟨e1, e2⟩ := hacc.none hn
      exact Or.inl ⟨by rw [e2]; rfl, by rw [e1]; exact hz⟩
    · exact Or.inr (hmeas hn)
  · intro best hb
    obtain ⟨ptr, hp, rfl⟩ := Option.map_eq_some_iff.1 hb
    have hf := hinv.deref (hinv.final ptr hp)
    intro draws
    have := trainsWith_caps exp S hD hf.1.rowSub (SharesUpTo.caps hD.rows.2.2.2.2.1 hD.narrow ⟨hf.2.1.mono h9, hf.2.2.mono h9⟩) draws
    rw [newMultiClass_fixMcw] at this
    have e : (s.deref ptr).fixMcw.xgb = (s.deref ptr).xgb ∧ (s.deref ptr).fixMcw.subSample = (s.deref ptr).subSample ∧
        (s.deref ptr).fixMcw.colSubSample = (s.deref ptr).colSubSample ∧ (s.deref ptr).fixMcw.rounds = (s.deref ptr).rounds := by
      unfold Options.fixMcw
      split <;> exact ⟨rfl, rfl, rfl, rfl⟩
    rw [e.1, e.2.1, e.2.2.1, e.2.2.2] at this
    exact this

/-- **C126 is violated**: when all labels are different, the gradient searches return no options and no error (in the situation of `C126_search_partial`). -/
theorem C126_violated (exp : F64 → F64) (S : GoSort) (Q : List (Int × List ℚ)) (c : Nat) (D : DataBunch F64) (hD : NumberData Q c D) (h4 : 4 ≤ Q.length)
    (h46 : Q.length ≤ 2 ^ 46) (hnd : (Q.map Prod.fst).Nodup) (nfold : Int) (h1 : nfold ≠ 1) (E : SearchEnv F64) (ho : Calm E.o) (hs : Share (av E.o.subSample.lo E.o.subSample.hi))
    (hc : Share (av E.o.colSubSample.lo E.o.colSubSample.hi)) (di : Nat → List Nat) (df : Nat → Nat → Nat → F64) (gi : Nat → Param → Bool → List Nat)
    (gf : Nat → Param → Bool → Nat → Nat → F64) (G : Nat → GradEnv F64) (fuel fuel' : Nat) (hE : RealSearch exp S D nfold fuel E di df gi gf G)
    (inits : List (Options F64)) (hi : gradientInits fuel' E.o = some inits ∨ hybridInits fuel' E.o = some inits) :
    let ret := searchRet (searchAll E nfold inits searchStart)
    ret.err = false ∧ ret.opts = none ∧ ret.acc = .fin 0 := by
  obtain ⟨g1, g2, g3, g4, g5, g6⟩ := hD.rows
  obtain ⟨r1, r2, _, r4, _⟩ := C126_search_partial exp S Q c D hD h4 h46 nfold h1 E ho hs hc di df gi gf G fuel fuel' hE inits hi
  intro ret
  refine ⟨r1, ?_⟩
  rcases r4 with ⟨r4, r5⟩ | ⟨O, hO⟩
  · exact ⟨r4, r5⟩
  · obtain ⟨k, hk⟩ := List.getElem?_of_mem hO
    obtain ⟨⟨out', e1', e2', _⟩, _, out, e1, e2⟩ := r2 k _ _ hk
    have heq : out' = out := by
      rw [e1'] at e1
      exact Except.ok.inj (Option.some.inj e1)
    subst heq
    have h0 := C120_distinct_binary64 exp S D (by omega) g4.symm (by rw [hD.labels]; exact hnd) 5 _ false (di k) (hE.folds k).1 (df k) out' e1 e2'
    rw [h0] at e2
    have hacc : ret.acc = .fin 0 := e2
    refine ⟨?_, hacc⟩
    by_contra hne
    have hr : SearchReturns fuel' E nfold ret := by
      rcases hi with hi | hi
      · left; unfold gradientGrid; rw [hi]; rfl
      · right; unfold hybridGrid; rw [hi]; rfl
    obtain ⟨k1, _⟩ := C56_accuracies fuel' E nfold ret hr
    obtain ⟨_, k2, k3, k4⟩ := k1 r1
    have hn : ret.accs ≠ [] := fun h => hne (k3 h).2
    have := k2 _ (List.getLast_mem hn)
    rw [← (k4 _ (List.getLast?_eq_some_getLast hn)).1, hacc] at this
    revert this
    decide +kernel

/-! ### the README -/

theorem readme_calm : Calm readmeGrid := by
  refine ⟨rfl, by decide, rv (5/100), rv (1/10), rv (1/10), rv (1/10), ofRat64 (by decide +kernel), ofRat64 (by decide +kernel), ofRat64 (by decide +kernel),
    ofRat64 (by decide +kernel), rv_idem _, ?_, ?_, ?_, ?_⟩
  all_goals decide +kernel

theorem default_calm : Calm defaultXGridOptions := by
  refine ⟨rfl, by decide, rv (5/100), rv (1/10), rv (1/10), rv (1/10), ofRat64 (by decide +kernel), ofRat64 (by decide +kernel), ofRat64 (by decide +kernel),
    ofRat64 (by decide +kernel), rv_idem _, ?_, ?_, ?_, ?_⟩
  all_goals decide +kernel

theorem readme_mid : Share (av readmeGrid.subSample.lo readmeGrid.subSample.hi) ∧ Share (av readmeGrid.colSubSample.lo readmeGrid.colSubSample.hi) := by
  have share : ∀ x : F64, (match x with | .fin s => decide (0 ≤ s ∧ s ≤ 1) | _ => false) = true → Share x := by
    intro x h
    cases x with
    | fin s => exact ⟨s, rfl, by simpa using h⟩
    | _ => simp at h
  exact ⟨share _ (by decide +kernel), share _ (by decide +kernel)⟩

/-- **C126 (the example of the README), partial**: on 4 to 2^46 rows of numbers of at most 15 digits, `GradientGrid(data, 5, o)` with the options of the README makes 6
searches and returns without an error; and `NewMultiClass` accepts the options it returns, if any. -/
theorem C126_readme_partial (exp : F64 → F64) (S : GoSort) (Q : List (Int × List ℚ)) (c : Nat) (D : DataBunch F64) (hD : NumberData Q c D) (h4 : 4 ≤ Q.length)
    (h46 : Q.length ≤ 2 ^ 46) (E : SearchEnv F64) (ho : E.o = readmeGrid) (di : Nat → List Nat) (df : Nat → Nat → Nat → F64) (gi : Nat → Param → Bool → List Nat)
    (gf : Nat → Param → Bool → Nat → Nat → F64) (G : Nat → GradEnv F64) (fuel : Nat) (hE : RealSearch exp S D 5 fuel E di df gi gf G) :
    ∃ ret inits, gradientInits 200 readmeGrid = some inits ∧ inits.length = 6 ∧ gradientGrid 200 E 5 = some ret ∧ ret.err = false ∧
      (∀ (k : Nat) O r, (searchEnd E 5 inits).calls[k]? = some (O, r) → CVWorks exp S D 5 O false (di k) (df k) ∧ r.err = false) ∧
      (∃ a : ℚ, ret.acc = .fin a ∧ 0 ≤ a ∧ a ≤ 100) ∧
      (∀ best, ret.opts = some best → TrainsWith exp S Q c D best) ∧
      ((Q.map Prod.fst).Nodup → ret.opts = none) := by
  obtain ⟨inits, hi, hl⟩ := getLen (l := gradientInits 200 readmeGrid) (n := 6) (by decide +kernel)
  have hi' : gradientInits 200 E.o = some inits := by rw [ho]; exact hi
  have hcalm : Calm E.o := by rw [ho]; exact readme_calm
  have hm1 : Share (av E.o.subSample.lo E.o.subSample.hi) := by rw [ho]; exact readme_mid.1
  have hm2 : Share (av E.o.colSubSample.lo E.o.colSubSample.hi) := by rw [ho]; exact readme_mid.2
  obtain ⟨r1, r2, r3, _, r5⟩ := C126_search_partial exp S Q c D hD h4 h46 5 (by decide) E hcalm hm1 hm2 di df gi gf G fuel 200 hE inits (Or.inl hi')
  refine ⟨_, inits, hi, hl, by unfold gradientGrid; rw [hi']; rfl, r1, fun k O r h => ⟨(r2 k O r h).1, (r2 k O r h).2.1⟩, r3, r5, fun hnd => ?_⟩
  exact (C126_violated exp S Q c D hD h4 h46 hnd 5 (by decide) E hcalm hm1 hm2 di df gi gf G fuel 200 hE inits (Or.inl hi')).2.1

/-! ### The theorems apply -/

/-- what a cross-validation reports; if it panics, an error -/
noncomputable def cvReport (r : Run (CVOut F64)) : CVRes F64 :=
  match r.run with
  | some (.ok out) => ⟨out.err, out.acc⟩
  | _ => ⟨true, zero⟩

theorem cvReport_eq {r : Run (CVOut F64)} {out : CVOut F64} (h : r = pure out) : cvReport r = ⟨out.err, out.acc⟩ := by
  subst h
  rfl

/-- For all data and draws there is a search in the box of the README whose cross-validations and gradient steps are those on the data. -/
theorem realSearch_exists (exp : F64 → F64) (S : GoSort) (D : DataBunch F64) (nfold : Int) (di : Nat → List Nat) (hd : ∀ k, Enough D 5 (di k))
    (df : Nat → Nat → Nat → F64) (gi : Nat → Param → Bool → List Nat) (hg : ∀ k p x, Enough D nfold (gi k p x)) (gf : Nat → Param → Bool → Nat → Nat → F64)
    (draws : Nat → FuzzDraws F64) (hu : ∀ k i, UnitDraw (draws k i).1) :
    ∃ E G, E.o = readmeGrid ∧ RealSearch exp S D nfold 12 E di df gi gf G := by
  let G : Nat → GradEnv F64 := fun k =>
    { co := readmeGrid, step := readmeGrid.step, fd := readmeGrid.deltaFraction, central := readmeGrid.central
      plus := fun p O => cvReport (crossValidation exp S D nfold (some O) true (gi k p true) (gf k p true))
      minus := fun p O => cvReport (crossValidation exp S D nfold (some O) true (gi k p false) (gf k p false)) }
  have hex : ∀ k O, ∃ O', ∀ curr, GradReturns 12 (G k) curr O O' := by
    intro k O
    obtain ⟨s, h1, h2⟩ := grad_stuck (fuel := 12) (E := G k) (acc := zero) (gradStart O)
    have h3 := (C59_returns 12 (G k) zero (C59_loops_default (G k) rfl zero) O).2 s h1 h2
    refine ⟨s.shared, fun curr => ?_⟩
    unfold GradReturns
    exact ⟨s, h1, h3, rfl⟩
  choose g hg' using hex
  refine ⟨{ o := readmeGrid, cv := fun k _ O => cvReport (crossValidation exp S D 5 (some O) false (di k) (df k)), grad := fun k _ O => g k O, draws := draws }, G, rfl,
    ⟨hd, hg, hu, fun k O out h => cvReport_eq h, fun k => ⟨rfl, rfl, rfl, rfl, fun p O out h => cvReport_eq h, fun p O out h => cvReport_eq h⟩,
      fun k O _ curr => hg' k O curr⟩⟩

/-- Four rows with two labels, and with four. -/
example (exp : F64 → F64) (S : GoSort) (labels : List Int) (hl : labels.length = 4) : ∃ E di df gi gf G ret, E.o = readmeGrid ∧
    RealSearch exp S (numberBunch (gridQ labels) []) 5 12 E di df gi gf G ∧ gradientGrid 200 E 5 = some ret ∧ ret.err = false ∧
    (labels = [3, 4, 5, 6] → ret.opts = none) := by
  have hs : Enough (numberBunch (gridQ labels) [] : DataBunch F64) 5 [2, 0, 0, 3, 1] := by
    obtain ⟨a, b, c, d, rfl⟩ : ∃ a b c d, labels = [a, b, c, d] := by
      match labels, hl with
      | [a, b, c, d], _ => exact ⟨a, b, c, d, rfl⟩
    have e : (numberBunch (gridQ [a, b, c, d]) [] : DataBunch F64).data.length = 4 := rfl
    have e1 : reduceFolds 4 (if (5 : Int) > 0 then Int.toNat 5 else 5) = .ok (2, true) := rfl
    have e2 : fillFolds (4 / 2) (List.range 2) (List.replicate 2 []) [2, 0, 0, 3, 1] = some ([[2, 0], [3, 1]], []) := rfl
    refine ⟨by rw [e]; decide, ?_⟩
    unfold crossValidationSamples
    simp only [e]
    rw [e1]
    simp only [e2]
    exact fun h => by cases h
  have hq : (gridQ labels).length = 4 := by simp [gridQ, hl]
  obtain ⟨E, G, ho, hE⟩ := realSearch_exists exp S (numberBunch (gridQ labels) []) 5 (fun _ => [2, 0, 0, 3, 1]) (fun _ => hs) (fun _ _ _ => .fin 0)
    (fun _ _ _ => [2, 0, 0, 3, 1]) (fun _ _ _ => hs) (fun _ _ _ _ _ => .fin 0) (fun _ _ => (.fin (1/2), 1)) (fun _ _ => ⟨1/2, rfl, by norm_num, by norm_num⟩)
  obtain ⟨ret, _, _, _, h1, h2, _, _, _, h3⟩ := C126_readme_partial exp S _ 2 _ (gridQ_data hl) (by omega) (by omega) E ho _ _ _ _ G 12 hE
  refine ⟨E, _, _, _, _, G, ret, ho, hE, h1, h2, ?_⟩
  rintro rfl
  exact h3 (by decide)

end Boo
