import Verif.Lemmas.B64Soft

/-!
# Losses, gradients, Hessians and Normalization in float64 (C98)

Small separate specification: `sqErr` (`Props/Loss`), the sum of the squared differences, over the rationals; the other mathematical
values (`p - y`, `p (1 - p)`, `x / Σ x`) are written out.
-/

namespace Boo
open GoFloat

/-- the float64 numbers up to `2^450` in size -/
def Mid64 (l : List ℚ) : Prop := ∀ x ∈ l, Rep64 x ∧ |x| ≤ 2 ^ (450 : ℤ)

/-- `2^450`, not to be unfolded -/
def midV : ℚ := 2 ^ (450 : ℤ)
theorem midV_pos : 0 < midV := two_zpow_pos _
theorem midV_def : midV = 2 ^ (450 : ℤ) := rfl
theorem midV_one : 1 ≤ midV := one_le_zpow₀ (by norm_num) (by norm_num)
theorem midV_room : 2 ^ 50 * midV ^ 2 ≤ big64 := by
  rw [big64_def, midV_def, show (2 : ℚ) ^ 50 = 2 ^ (50 : ℤ) by norm_num, ← zpow_natCast, ← zpow_mul, ← zpow_add₀ (by norm_num)]
  exact zpow_le_zpow_right₀ (by norm_num) (by norm_num)
attribute [irreducible] midV
theorem midV_big : 4 * midV ≤ big64 := by
  have h1 := midV_one
  have h2 := midV_room
  have : midV ≤ midV ^ 2 := by nlinarith
  have : (4 : ℚ) * midV ≤ 2 ^ 50 * midV ^ 2 := by nlinarith
  linarith

theorem Mid64.mem {l : List ℚ} (h : Mid64 l) {x : ℚ} (hx : x ∈ l) : Rep64 x ∧ |x| ≤ midV := by
  rw [midV_def]; exact h x hx

theorem subs64 (y p : List ℚ) (hy : Mid64 y) (hp : Mid64 p) :
    List.zipWith (fun a b => a -. b) (y.map XF.fin : List F64) (p.map XF.fin) =
      ((List.zipWith (· - ·) y p).map rv).map XF.fin ∧
    ∀ d ∈ List.zipWith (· - ·) y p, |rv d - d| ≤ u64 * |d| ∧ |d| ≤ 2 * midV := by
  induction y generalizing p with
  | nil => simp
  | cons a y ih =>
    cases p with
    | nil => simp
    | cons b p =>
      obtain ⟨i1, i2⟩ := ih p (fun x hx => hy x (by simp [hx])) (fun x hx => hp x (by simp [hx]))
      obtain ⟨a1, a2⟩ := hy.mem (x := a) (by simp)
      obtain ⟨b1, b2⟩ := hp.mem (x := b) (by simp)
      clear hy hp ih
      have hab : |a - b| ≤ 2 * midV := by
        have := abs_sub a b
        linarith
      simp only [List.map_cons, List.zipWith_cons_cons]
      constructor
      · rw [i1, sub64]
        have := midV_big
        have := midV_pos
        linarith
      · intro d hd
        rcases List.mem_cons.1 hd with rfl | hd
        · refine ⟨?_, ?_⟩
          · have := rv_add_err (a := a) (b := -b) (rep64_rv a1).1 (by rw [rv_neg, (rep64_rv b1).1])
            rwa [← sub_eq_add_neg] at this
          · exact hab
        · exact i2 d hd

theorem subV64 (y p : List ℚ) (hl : y.length = p.length) (hy : Mid64 y) (hp : Mid64 p) :
    subV (y.map XF.fin : List F64) (p.map XF.fin) = .ok (((List.zipWith (· - ·) y p).map rv).map XF.fin) := by
  unfold subV
  rw [if_neg (by simp [hl]), (subs64 y p hy hp).1]

theorem foldl_zero {α : Type} (f : F64 → α → F64) (l : List α) : l.foldl f (zero : F64) = l.foldl f (.fin 0) := rfl

/-- **C98 (loss)**: in float64 `Loss` (of both losses) is the mean squared error up to a relative error of `(2n+8)·2⁻⁵³` and
`4·2⁻¹⁰⁷⁵`, and it is never negative. -/
theorem C98_loss (y p : List ℚ) (hl : y.length = p.length) (hne : y ≠ []) (hn : y.length ≤ 2 ^ 40) (hy : Mid64 y) (hp : Mid64 p) :
    ∃ v : ℚ, (sqErrLoss : LossFunc F64).loss (y.map XF.fin) (p.map XF.fin) = .ok (.fin v) ∧
      (mseLoss : LossFunc F64).loss (y.map XF.fin) (p.map XF.fin) = .ok (.fin v) ∧ 0 ≤ v ∧
      |v - sqErr y p / y.length| ≤ (2 * y.length + 8) * 2 ^ (-53 : ℤ) * (sqErr y p / y.length) + 4 * 2 ^ (-1075 : ℤ) := by
  have hu := u64_pos
  have hu' := u64_le
  have he := eta64_pos
  obtain ⟨_, hd⟩ := subs64 y p hy hp
  set ds := List.zipWith (fun a b : ℚ => a - b) y p with hds
  have hdl : ds.length = y.length := by simp [hds, hl]
  set ms := ds.map fun d => rv (rv d * rv d) with hms
  have hml : ms.length = y.length := by simp [hms, hdl]
  have hS : sqErr y p = (ds.map fun d => d ^ 2).sum := by
    unfold sqErr
    rw [hds, List.map_zipWith]
  have hd2 : ∀ d ∈ ds, d ^ 2 ≤ 4 * midV ^ 2 := by
    intro d hdm
    have h2 := (hd d hdm).2
    rw [← sq_abs]
    have := mul_le_mul h2 h2 (abs_nonneg _) (by have := midV_pos; linarith)
    rw [pow_two]
    linarith
  -- one square
  have hone : ∀ d ∈ ds, ((.fin (rv d) : F64) *. .fin (rv d)) = .fin (rv (rv d * rv d)) ∧ 0 ≤ rv (rv d * rv d) ∧
      |rv (rv d * rv d) - d ^ 2| ≤ 5 * u64 * d ^ 2 + eta64 := by
    intro d hdm
    obtain ⟨h1, h2⟩ := hd d hdm
    have hsq : |rv d * rv d - d ^ 2| ≤ 3 * u64 * d ^ 2 := by
      have e : rv d * rv d - d ^ 2 = (rv d - d) * ((rv d - d) + 2 * d) := by ring
      rw [e, abs_mul]
      have q1 : |rv d - d + 2 * d| ≤ u64 * |d| + 2 * |d| := by
        refine (abs_add_le _ _).trans ?_
        rw [abs_mul 2 d]
        norm_num
        exact h1
      have q2 := mul_le_mul h1 q1 (abs_nonneg _) (by positivity)
      refine q2.trans ?_
      have e2 : u64 * |d| * (u64 * |d| + 2 * |d|) = u64 * (u64 + 2) * (|d| * |d|) := by ring
      rw [e2, abs_mul_abs_self, ← pow_two]
      have : u64 * (u64 + 2) ≤ 3 * u64 := by nlinarith
      exact mul_le_mul_of_nonneg_right this (sq_nonneg d)
    have hle : rv d * rv d ≤ 2 * d ^ 2 := by
      have := (abs_le.1 hsq).2
      have : 3 * u64 * d ^ 2 ≤ 1 * d ^ 2 := mul_le_mul_of_nonneg_right (by linarith) (sq_nonneg d)
      linarith
    refine ⟨?_, rv_nonneg (mul_self_nonneg _), ?_⟩
    · apply mul64
      rw [abs_of_nonneg (mul_self_nonneg _)]
      refine hle.trans ?_
      have := hd2 d hdm
      have := midV_room
      have : 0 ≤ midV ^ 2 := sq_nonneg _
      linarith
    · have h3 := rv_err (rv d * rv d)
      rw [abs_of_nonneg (mul_self_nonneg (rv d))] at h3
      have h4 : u64 * (rv d * rv d) ≤ u64 * (2 * d ^ 2) := mul_le_mul_of_nonneg_left hle hu.le
      have e : rv (rv d * rv d) - d ^ 2 = (rv (rv d * rv d) - rv d * rv d) + (rv d * rv d - d ^ 2) := by ring
      rw [e]
      refine (abs_add_le _ _).trans ?_
      linarith
  have hloss : mseLossVal (y.map XF.fin : List F64) (p.map XF.fin) =
      .ok (((ms.map XF.fin).foldl (· +. ·) (.fin 0 : F64)) /. ofInt (y.length : Int)) := by
    unfold mseLossVal
    rw [subV64 y p hl hy hp]
    simp only [bind, Except.bind, pure, Except.pure, List.length_map]
    rw [← hds, hdl, foldl_zero]
    congr 3
    rw [hms, List.map_map, List.map_map, List.map_map]
    apply List.map_congr_left
    intro d hdm
    exact (hone d hdm).1
  have hsum : |ms.sum - (ds.map fun d => d ^ 2).sum| ≤ 5 * u64 * (ds.map fun d => d ^ 2).sum + ds.length * eta64 := by
    have : ∀ l : List ℚ, (∀ d ∈ l, |rv (rv d * rv d) - d ^ 2| ≤ 5 * u64 * d ^ 2 + eta64) →
        |(l.map fun d => rv (rv d * rv d)).sum - (l.map fun d => d ^ 2).sum| ≤ 5 * u64 * (l.map fun d => d ^ 2).sum + l.length * eta64 := by
      intro l
      induction l with
      | nil => simp
      | cons d l ih =>
        intro h
        have h1 := h d (by simp)
        have h2 := ih fun x hx => h x (by simp [hx])
        simp only [List.map_cons, List.sum_cons, List.length_cons]
        have e : rv (rv d * rv d) + (l.map fun d => rv (rv d * rv d)).sum - (d ^ 2 + (l.map fun d => d ^ 2).sum) =
          (rv (rv d * rv d) - d ^ 2) + ((l.map fun d => rv (rv d * rv d)).sum - (l.map fun d => d ^ 2).sum) := by ring
        rw [e]
        refine (abs_add_le _ _).trans ?_
        push_cast
        linarith
    exact this ds fun d hdm => (hone d hdm).2.2
  have hm0 : ∀ m ∈ ms, 0 ≤ m := by
    intro m hm
    obtain ⟨d, hdm, rfl⟩ := List.mem_map.1 hm
    exact (hone d hdm).2.1
  have hmrep : ∀ m ∈ ms, rv m = m := by
    intro m hm
    obtain ⟨d, hdm, rfl⟩ := List.mem_map.1 hm
    exact rv_idem _
  have hSle : (ds.map fun d => d ^ 2).sum ≤ y.length * (4 * midV ^ 2) := by
    have := List.sum_le_card_nsmul (ds.map fun d => d ^ 2) (4 * midV ^ 2) (by
      intro z hz
      obtain ⟨d, hdm, rfl⟩ := List.mem_map.1 hz
      exact hd2 d hdm)
    rwa [nsmul_eq_mul, List.length_map, hdl] at this
  have hS0 : 0 ≤ (ds.map fun d => d ^ 2).sum := List.sum_nonneg (by simpa using fun d _ => sq_nonneg d)
  rw [hdl] at hsum
  rw [hS]
  generalize (ds.map fun d => d ^ 2).sum = T at *
  have hnQ : (y.length : ℚ) ≤ 2 ^ 40 := by exact_mod_cast hn
  have hn1 : (1 : ℚ) ≤ y.length := by
    have : 1 ≤ y.length := List.length_pos_iff.2 hne
    exact_mod_cast this
  have hofn : (ofInt (y.length : Int) : F64) = .fin (y.length : ℚ) := by
    have := ofInt64 (τ := none) (n := (y.length : Int)) (by
      rw [abs_of_nonneg (by positivity)]
      have : y.length < 2 ^ 53 := lt_of_le_of_lt hn (by norm_num)
      exact_mod_cast this)
    simpa using this
  rw [hofn] at hloss
  have hnu : (y.length : ℚ) * u64 ≤ 1 / 1000 := by
    have := mul_le_mul_of_nonneg_right hnQ hu.le
    refine this.trans ?_
    rw [u64_def]
    norm_num
  generalize hN : (y.length : ℚ) = N at *
  have hN0 : 0 < N := by linarith
  have hneta : N * eta64 ≤ N := by
    have := mul_le_mul_of_nonneg_left eta64_le_one hN0.le
    linarith
  have hNeta0 : 0 ≤ N * eta64 := by positivity
  have huT : 0 ≤ u64 * T := by positivity
  have huT2 : u64 * T ≤ T / 1000 := by nlinarith
  have hM0 : 0 ≤ ms.sum := List.sum_nonneg hm0
  have hMle : ms.sum ≤ T + 5 * (u64 * T) + N * eta64 := by
    have := (abs_le.1 hsum).2
    linarith
  have hroom : 2 * ms.sum ≤ big64 := by
    have h1 := midV_room
    have h2 : N * (4 * midV ^ 2) ≤ 2 ^ 40 * (4 * midV ^ 2) := mul_le_mul_of_nonneg_right hnQ (by positivity)
    have h3 : 1 ≤ midV ^ 2 := one_le_pow₀ midV_one
    norm_num at h1 h2 hnQ
    linarith
  obtain ⟨s, e1, e2, e3⟩ := sum64_err ms hmrep ms.sum hroom (abs_map_sum hm0).le (by rw [hml, hN]; linarith)
  have hs0 : 0 ≤ s := (foldl_ge ms hmrep hm0 0 s rv_zero le_rfl e1).1
  rw [hml, hN] at e3
  have hsT : |s - T| ≤ (2 * N + 6) * u64 * T + 2 * (N * eta64) := by
    have e : s - T = (s - ms.sum) + (ms.sum - T) := by ring
    rw [e]
    refine (abs_add_le _ _).trans ?_
    have q1 : 2 * N * u64 * ms.sum ≤ 2 * N * u64 * (T + 5 * (u64 * T) + N * eta64) :=
      mul_le_mul_of_nonneg_left hMle (by positivity)
    have q2 : 2 * N * u64 * (5 * (u64 * T)) ≤ 1 / 100 * (u64 * T) := by
      have := mul_le_mul_of_nonneg_right hnu huT
      linarith
    have q3 : 2 * N * u64 * (N * eta64) ≤ N * eta64 := by
      have := mul_le_mul_of_nonneg_right hnu hNeta0
      linarith
    linarith
  have hsle : s ≤ 2 * T + 2 * (N * eta64) := by
    have h1 := (abs_le.1 hsT).2
    have h2 : (2 * N + 6) * u64 * T ≤ 1 * T := mul_le_mul_of_nonneg_right (by linarith) hS0
    linarith
  have hdiv : ((.fin s : F64) /. .fin N) = .fin (rv (s / N)) := by
    apply div64 hN0.ne'
    rw [abs_of_nonneg (div_nonneg hs0 hN0.le)]
    have h1 : s / N ≤ s := div_le_self hs0 hn1
    have h2 := midV_room
    have h3 : N * (4 * midV ^ 2) ≤ 2 ^ 40 * (4 * midV ^ 2) := mul_le_mul_of_nonneg_right hnQ (by positivity)
    have h4 : 1 ≤ midV ^ 2 := one_le_pow₀ midV_one
    norm_num at h2 h3 hnQ
    linarith
  rw [e1, hdiv] at hloss
  refine ⟨_, hloss, hloss, rv_nonneg (div_nonneg hs0 hN0.le), ?_⟩
  rw [← u64_def, ← eta64_def]
  have h1 := rv_err (s / N)
  rw [abs_of_nonneg (div_nonneg hs0 hN0.le)] at h1
  have e : rv (s / N) - T / N = (rv (s / N) - s / N) + (s - T) / N := by ring
  rw [e]
  refine (abs_add_le _ _).trans ?_
  have h2 : |(s - T) / N| ≤ (2 * N + 6) * u64 * (T / N) + 2 * eta64 := by
    rw [abs_div, abs_of_pos hN0, div_le_iff₀ hN0]
    have : ((2 * N + 6) * u64 * (T / N) + 2 * eta64) * N = (2 * N + 6) * u64 * T + 2 * (N * eta64) := by
      field_simp
    rw [this]
    exact hsT
  have h3 : u64 * (s / N) ≤ 2 * u64 * (T / N) + eta64 := by
    have q : s / N ≤ 2 * (T / N) + 2 * eta64 := by
      rw [div_le_iff₀ hN0]
      have : (2 * (T / N) + 2 * eta64) * N = 2 * T + 2 * (N * eta64) := by field_simp
      rw [this]
      exact hsle
    have := mul_le_mul_of_nonneg_left q hu.le
    have : u64 * (2 * eta64) ≤ eta64 := by nlinarith
    linarith
  linarith

/-- the loss of equal vectors is 0 -/
theorem C98_loss_zero (y : List ℚ) (hne : y ≠ []) (hn : y.length ≤ 2 ^ 40) (hy : Mid64 y) :
    (sqErrLoss : LossFunc F64).loss (y.map XF.fin) (y.map XF.fin) = .ok (.fin 0) := by
  have hS : sqErr y y = 0 := by
    unfold sqErr
    rw [List.zipWith_self]
    simp
  have h0 : ∀ d ∈ List.zipWith (fun a b : ℚ => a - b) y y, d = 0 := by
    intro d hd
    rw [List.zipWith_self] at hd
    obtain ⟨x, _, rfl⟩ := List.mem_map.1 hd
    simp
  have hd : List.zipWith (fun a b : ℚ => a - b) y y = List.replicate y.length 0 := by
    rw [List.eq_replicate_iff]
    exact ⟨by simp, h0⟩
  show mseLossVal _ _ = _
  unfold mseLossVal
  rw [subV64 y y rfl hy hy, hd]
  simp only [bind, Except.bind, pure, Except.pure, List.length_map, List.length_replicate, List.map_replicate, rv_zero]
  have hm : ((.fin 0 : F64) *. .fin 0) = .fin 0 := by decide +kernel
  rw [hm, foldl_zero]
  have hf : ∀ n : Nat, (List.replicate n (.fin 0 : F64)).foldl (fun s v => s +. v) (.fin 0) = .fin 0 := by
    intro n
    induction n with
    | zero => rfl
    | succ n ih =>
      rw [List.replicate_succ, List.foldl_cons]
      have : ((.fin 0 : F64) +. .fin 0) = .fin 0 := by decide +kernel
      rw [this]
      exact ih
  rw [hf]
  have hofn : (ofInt (y.length : Int) : F64) = .fin (y.length : ℚ) := by
    have := ofInt64 (τ := none) (n := (y.length : Int)) (by
      rw [abs_of_nonneg (by positivity)]
      have : y.length < 2 ^ 53 := lt_of_le_of_lt hn (by norm_num)
      exact_mod_cast this)
    simpa using this
  have hn1 : (y.length : ℚ) ≠ 0 := by
    have : y.length ≠ 0 := by simpa using hne
    exact_mod_cast this
  rw [hofn, div64 hn1 (by rw [zero_div, abs_zero]; exact big64_pos.le), zero_div, rv_zero]

/-- The loss can be 0 although the vectors differ: the square underflows (`C31_zero_iff` is about exact arithmetic). -/
theorem C98_underflow : (sqErrLoss : LossFunc F64).loss [.fin (2 ^ (-600 : ℤ))] [.fin 0] = .ok (.fin 0) := by decide +kernel

/-- **C98 (gradients)**: in float64 the entries of `NegGradients` are the differences `y - p` up to a relative error of `2⁻⁵³`, with the right sign and 0
only where `y = p`; `Gradients` are their negatives (both losses). -/
theorem C98_gradients (y p : List ℚ) (hl : y.length = p.length) (hy : Mid64 y) (hp : Mid64 p) (lf : LossFunc F64)
    (hlf : lf = sqErrLoss ∨ lf = mseLoss) :
    ∃ g : List ℚ, lf.negGradients (y.map XF.fin) (p.map XF.fin) = .ok (g.map XF.fin) ∧
      lf.gradients (y.map XF.fin) (p.map XF.fin) = .ok ((g.map fun w => -w).map XF.fin) ∧ g.length = y.length ∧
      ∀ (i : Nat) (a b w : ℚ), y[i]? = some a → p[i]? = some b → g[i]? = some w →
        |w - (a - b)| ≤ 2 ^ (-53 : ℤ) * |a - b| ∧ (w = 0 ↔ a = b) ∧ (0 < w ↔ b < a) := by
  have hu := u64_pos
  have hu' := u64_le
  obtain ⟨_, hd⟩ := subs64 y p hy hp
  have hsub := subV64 y p hl hy hp
  have hneg : ∀ d ∈ List.zipWith (fun a b : ℚ => a - b) y p, (ofInt (-1) *. (.fin (rv d) : F64)) = .fin (-rv d) := by
    intro d hdm
    have h1 : (ofInt (-1) : F64) = .fin (-1) := by decide +kernel
    obtain ⟨e1, e2⟩ := hd d hdm
    rw [h1, mul64, neg_one_mul, rv_neg, rv_idem]
    rw [neg_one_mul, abs_neg]
    have h2 := abs_le_of_near e1 e2
    have h3 : u64 * |d| ≤ 1 * |d| := mul_le_mul_of_nonneg_right (by linarith) (abs_nonneg _)
    have := midV_big
    have := midV_pos
    linarith
  refine ⟨(List.zipWith (fun a b : ℚ => a - b) y p).map rv, ?_, ?_, by simp [hl], ?_⟩
  · rcases hlf with rfl | rfl <;> exact hsub
  · have : grad (y.map XF.fin : List F64) (p.map XF.fin) =
        .ok ((((List.zipWith (fun a b : ℚ => a - b) y p).map rv).map fun w => -w).map XF.fin) := by
      unfold grad negGrad
      rw [hsub]
      simp only [bind, Except.bind, pure, Except.pure]
      congr 1
      rw [List.map_map, List.map_map, List.map_map, List.map_map]
      apply List.map_congr_left
      intro d hdm
      exact hneg d hdm
    rcases hlf with rfl | rfl <;> exact this
  · intro i a b w ha hb hw
    have hdi : (List.zipWith (fun a b : ℚ => a - b) y p)[i]? = some (a - b) := by
      rw [List.getElem?_zipWith, ha, hb]
    rw [List.getElem?_map, hdi] at hw
    simp only [Option.map_some, Option.some.injEq] at hw
    subst hw
    obtain ⟨e1, _⟩ := hd (a - b) (List.mem_of_getElem? hdi)
    have hlt : u64 * |a - b| ≤ 1 / 2 * |a - b| := mul_le_mul_of_nonneg_right (by linarith) (abs_nonneg _)
    have e2 := abs_le.1 e1
    refine ⟨by rw [← u64_def]; exact e1, ⟨fun h => ?_, fun h => by rw [h, sub_self, rv_zero]⟩, ⟨fun h => ?_, fun h => ?_⟩⟩
    · rw [h, zero_sub, abs_neg] at e1
      by_contra hne
      have : 0 < |a - b| := abs_pos.2 (sub_ne_zero.2 hne)
      linarith
    · by_contra hle
      rw [not_lt] at hle
      have := rv_mono (show a - b ≤ 0 by linarith)
      rw [rv_zero] at this
      linarith
    · have hpos : 0 < a - b := by linarith
      rw [abs_of_pos hpos] at e2 hlt
      linarith [e2.1]

/-- a float64 number below 1 and above 1/4 is at most `1 - 2⁻⁵⁴` -/
theorem one_sub_ge {a : ℚ} (hr : rv a = a) (h1 : 1 / 4 ≤ a) (h2 : a < 1) : 2 ^ (-54 : ℤ) ≤ 1 - a := by
  obtain ⟨n, hn⟩ := rv_is_grid hr
  have he1 : -2 ≤ ebin a := by
    have := ebin_mono (x := 1 / 4) (y := a) (by norm_num) h1
    have e : ebin (1 / 4) = -2 := by decide +kernel
    omega
  have he2 : ebin a ≤ 0 := by
    have := ebin_mono (x := a) (y := 1) (by linarith) h2.le
    have e : ebin 1 = 0 := by decide +kernel
    omega
  obtain ⟨k, hk⟩ : ∃ k : ℕ, ebin a - 52 = -(k : ℤ) := ⟨(52 - ebin a).toNat, by omega⟩
  have hk2 : k ≤ 54 := by omega
  rw [hk, zpow_neg, zpow_natCast] at hn
  have hpk : (0 : ℚ) < 2 ^ k := by positivity
  have hlt : (n : ℚ) < 2 ^ k := by
    rw [hn, ← div_eq_mul_inv, div_lt_one hpk] at h2
    exact h2
  have hlt' : n + 1 ≤ 2 ^ k := by
    have : n < 2 ^ k := by exact_mod_cast hlt
    omega
  have hlt2 : (n : ℚ) + 1 ≤ 2 ^ k := by exact_mod_cast hlt'
  have e : 1 - a = (2 ^ k - n) / 2 ^ k := by
    rw [hn]
    field_simp
  rw [e]
  have h3 : (1 : ℚ) / 2 ^ k ≤ (2 ^ k - n) / 2 ^ k := div_le_div_of_nonneg_right (by linarith) hpk.le
  refine le_trans ?_ h3
  rw [zpow_neg, ← one_div]
  apply one_div_le_one_div_of_le hpk
  have : (2 : ℚ) ^ k ≤ 2 ^ 54 := pow_le_pow_right₀ (by norm_num) hk2
  simpa using this

/-- **C98 (Hessian)**: in float64 the Hessian of `MSELoss` at probabilities is `p (1 - p)` up to a relative error of `3·2⁻⁵³` (and
`2⁻¹⁰⁷⁵`); it is never negative, and 0 only at 0 and 1. The Hessian of `SQErrLoss` is 1. -/
theorem C98_hessian (p : List ℚ) (hp : ∀ x ∈ p, Rep64 x ∧ 0 ≤ x ∧ x ≤ 1) :
    (sqErrLoss : LossFunc F64).hessian (p.map XF.fin) = p.map (fun _ => XF.fin 1) ∧
    ∃ h : List ℚ, (mseLoss : LossFunc F64).hessian (p.map XF.fin) = h.map XF.fin ∧ h.length = p.length ∧
      ∀ (i : Nat) (a w : ℚ), p[i]? = some a → h[i]? = some w →
        |w - a * (1 - a)| ≤ 3 * 2 ^ (-53 : ℤ) * (a * (1 - a)) + 2 ^ (-1075 : ℤ) ∧ 0 ≤ w ∧ (0 < w ↔ 0 < a ∧ a < 1) := by
  have hu := u64_pos
  have hu' := u64_le
  have he := eta64_pos
  have hbig1 : (4 : ℚ) ≤ big64 := by
    rw [big64_def, show (4 : ℚ) = 2 ^ (2 : ℤ) by norm_num]
    exact zpow_le_zpow_right₀ (by norm_num) (by norm_num)
  have hone : (one : F64) = .fin 1 := by decide +kernel
  have hsub : ∀ a ∈ p, |rv (1 - a) - (1 - a)| ≤ u64 * (1 - a) := by
    intro a ha
    obtain ⟨h1, h2, h3⟩ := hp a ha
    have := rv_add_err (a := 1) (b := -a) (by simpa using rv_int (n := 1) (by norm_num)) (by rw [rv_neg, (rep64_rv h1).1])
    rwa [← sub_eq_add_neg, abs_of_nonneg (show 0 ≤ 1 - a by linarith)] at this
  refine ⟨by simp [sqErrLoss, hone], p.map fun a => rv (rv (1 - a) * a), ?_, by simp, ?_⟩
  · show (p.map XF.fin).map _ = _
    rw [List.map_map, List.map_map]
    apply List.map_congr_left
    intro a ha
    obtain ⟨h1, h2, h3⟩ := hp a ha
    have hs := abs_le.1 (hsub a ha)
    have hs1 : u64 * (1 - a) ≤ 1 * (1 - a) := mul_le_mul_of_nonneg_right (by linarith) (by linarith)
    have hs2 : 0 ≤ rv (1 - a) := rv_nonneg (by linarith)
    simp only [Function.comp_apply]
    rw [hone, sub64 (by rw [abs_of_nonneg (by linarith)]; linarith), mul64]
    rw [abs_of_nonneg (mul_nonneg hs2 h2)]
    have : rv (1 - a) * a ≤ 2 * 1 := mul_le_mul (by linarith) h3 h2 (by norm_num)
    linarith
  · intro i a w ha hw
    rw [List.getElem?_map, ha] at hw
    simp only [Option.map_some, Option.some.injEq] at hw
    subst hw
    have hmem := List.mem_of_getElem? ha
    obtain ⟨h1, h2, h3⟩ := hp a hmem
    have hs := hsub a hmem
    have hs2 : 0 ≤ rv (1 - a) := rv_nonneg (by linarith)
    have hz0 : 0 ≤ rv (1 - a) * a := mul_nonneg hs2 h2
    have hk0 : 0 ≤ a * (1 - a) := mul_nonneg h2 (by linarith)
    have hz : |rv (1 - a) * a - a * (1 - a)| ≤ u64 * (a * (1 - a)) := by
      have e : rv (1 - a) * a - a * (1 - a) = (rv (1 - a) - (1 - a)) * a := by ring
      rw [e, abs_mul, abs_of_nonneg h2]
      have := mul_le_mul_of_nonneg_right hs h2
      linarith
    have hr := rv_err (rv (1 - a) * a)
    rw [abs_of_nonneg hz0] at hr
    have hzle : rv (1 - a) * a ≤ 2 * (a * (1 - a)) := by
      have := (abs_le.1 hz).2
      have : u64 * (a * (1 - a)) ≤ 1 * (a * (1 - a)) := mul_le_mul_of_nonneg_right (by linarith) hk0
      linarith
    refine ⟨?_, rv_nonneg hz0, ⟨fun h => ?_, fun h => ?_⟩⟩
    · rw [← u64_def, ← eta64_def]
      have e : rv (rv (1 - a) * a) - a * (1 - a) = (rv (rv (1 - a) * a) - rv (1 - a) * a) + (rv (1 - a) * a - a * (1 - a)) := by ring
      rw [e]
      refine (abs_add_le _ _).trans ?_
      have := mul_le_mul_of_nonneg_left hzle hu.le
      linarith
    · constructor
      · rcases h2.lt_or_eq with h' | h'
        · exact h'
        · rw [← h', mul_zero, rv_zero] at h
          exact absurd h (lt_irrefl _)
      · rcases h3.lt_or_eq with h' | h'
        · exact h'
        · rw [h', sub_self, rv_zero, zero_mul, rv_zero] at h
          exact absurd h (lt_irrefl _)
    · obtain ⟨ha0, ha1⟩ := h
      -- it is enough that the product is more than half of the smallest number
      have key : 4 / 3 * eta64 ≤ rv (1 - a) * a → 0 < rv (rv (1 - a) * a) := by
        intro hz2
        have h5 := (abs_le.1 hr).1
        have h6 : u64 * (rv (1 - a) * a) ≤ 1 / 1000000 * (rv (1 - a) * a) := mul_le_mul_of_nonneg_right hu' hz0
        linarith
      apply key
      by_cases hq : a ≤ 1 / 4
      · have h5 : 3 / 4 ≤ rv (1 - a) := by
          have := rv_mono (show (3 / 4 : ℚ) ≤ 1 - a by linarith)
          rwa [show rv (3 / 4) = 3 / 4 by decide +kernel] at this
        have h6 : 2 * eta64 ≤ a := by
          obtain ⟨n, hn⟩ := rv_is_grid (rep64_rv h1).1
          have hp2 := two_zpow_pos (ebin a - 52)
          have hn0 : 0 < (n : ℚ) := by
            by_contra hle
            rw [not_lt] at hle
            have := mul_nonpos_of_nonpos_of_nonneg hle hp2.le
            linarith
          have hn1 : (1 : ℚ) ≤ n := by
            have : 0 < n := by exact_mod_cast hn0
            exact_mod_cast this
          have h7 : (2 : ℚ) ^ (-1074 : ℤ) ≤ 2 ^ (ebin a - 52) := zpow_le_zpow_right₀ (by norm_num) (by have := ebin_low a; omega)
          have h8 : 2 * eta64 = 2 ^ (-1074 : ℤ) := by
            rw [eta64_def, show (-1074 : ℤ) = 1 + (-1075) by norm_num, zpow_add₀ (by norm_num), zpow_one]
          rw [h8, hn]
          refine h7.trans ?_
          have := mul_le_mul_of_nonneg_right hn1 hp2.le
          linarith
        have := mul_le_mul h5 h6 (by linarith) hs2
        linarith
      · rw [not_le] at hq
        have h5 := one_sub_ge (rep64_rv h1).1 hq.le ha1
        have h6 : (1 - a) / 2 ≤ rv (1 - a) := by
          have := (abs_le.1 hs).1
          have : u64 * (1 - a) ≤ 1 / 2 * (1 - a) := mul_le_mul_of_nonneg_right (by linarith) (by linarith)
          linarith
        have h7 : 2 ^ (-54 : ℤ) / 2 * (1 / 4) ≤ rv (1 - a) * a :=
          mul_le_mul ((div_le_div_of_nonneg_right h5 (by norm_num)).trans h6) hq.le (by norm_num) hs2
        have h8 : 4 / 3 * eta64 ≤ 2 ^ (-54 : ℤ) / 2 * (1 / 4) := by
          have : eta64 ≤ 2 ^ (-60 : ℤ) := by
            rw [eta64_def]
            exact zpow_le_zpow_right₀ (by norm_num) (by norm_num)
          norm_num at this ⊢
          linarith
        linarith

/-- **C98 (Normalization)**: in float64, for numbers that are not negative and not all 0 (up to `2^40` of them, with a sum that does not overflow),
`Normalization` returns numbers between 0 and 1, each `x / Σ x` up to a relative error of `(4n+2)·2⁻⁵³` (and `2⁻¹⁰⁷⁵`). -/
theorem C98_normalization (p : List ℚ) (hp : ∀ x ∈ p, Rep64 x ∧ 0 ≤ x) (hpos : ∃ x ∈ p, 0 < x) (hn : p.length ≤ 2 ^ 40)
    (hsum : p.sum ≤ 2 ^ (1022 : ℤ)) :
    ∃ q : List ℚ, normalization (p.map XF.fin : List F64) none = .ok (q.map XF.fin) ∧ q.length = p.length ∧
      (∀ w ∈ q, 0 ≤ w ∧ w ≤ 1) ∧
      ∀ (i : Nat) (x w : ℚ), p[i]? = some x → q[i]? = some w →
        |w - x / p.sum| ≤ (4 * p.length + 2) * 2 ^ (-53 : ℤ) * (x / p.sum) + 2 ^ (-1075 : ℤ) := by
  have hu := u64_pos
  have hu' := u64_le
  have hbig : 2 * p.sum ≤ big64 := by
    rw [big64_def, show (1023 : ℤ) = 1 + 1022 by norm_num, zpow_add₀ (by norm_num), zpow_one]
    linarith
  clear hsum
  have hnQ : (p.length : ℚ) ≤ 2 ^ 40 := by exact_mod_cast hn
  have hnu : (p.length : ℚ) * u64 ≤ 1 / 1000 := by
    have := mul_le_mul_of_nonneg_right hnQ hu.le
    refine this.trans ?_
    rw [u64_def]
    norm_num
  obtain ⟨s, e1, e2, e3, e4, e5⟩ := normalise64 p (fun x hx => (rep64_rv (hp x hx).1).1) (fun x hx => (hp x hx).2) hpos hbig
    (by linarith)
  have hY0 : 0 < p.sum := by
    obtain ⟨x, hx, h0⟩ := hpos
    exact lt_of_lt_of_le h0 (List.single_le_sum (fun x hx => (hp x hx).2) x hx)
  refine ⟨p.map fun v => rv (v / s), ?_, by simp, ?_, ?_⟩
  · unfold normalization
    simp only [Option.getD_none, List.length_map, lt_irrefl, if_false]
    rw [List.drop_of_length_le (by simp), List.append_nil, ← e5]
    congr 1
    have : (p.map XF.fin).foldl (fun s v => s +. v) (zero : F64) = .fin s := e1
    rw [this]
  · intro w hw
    obtain ⟨v, hv, rfl⟩ := List.mem_map.1 hw
    refine ⟨rv_nonneg (div_nonneg (hp v hv).2 e3.le), ?_⟩
    have := rv_mono ((div_le_one e3).2 (e4 v hv))
    rwa [show rv (1 : ℚ) = 1 by simpa using rv_int (n := 1) (by norm_num)] at this
  · intro i x w hx hw
    rw [List.getElem?_map, hx] at hw
    simp only [Option.map_some, Option.some.injEq] at hw
    subst hw
    have hx0 := (hp x (List.mem_of_getElem? hx)).2
    rw [← u64_def, ← eta64_def]
    generalize (p.length : ℚ) = N at *
    generalize p.sum = Y at *
    have hr := rv_err (x / s)
    rw [abs_of_nonneg (div_nonneg hx0 e3.le)] at hr
    have hN0 : 0 ≤ N * u64 := by
      by_contra h
      rw [not_le] at h
      have : 2 * N * u64 * Y < 0 := by
        have := mul_neg_of_neg_of_pos h hY0
        linarith
      linarith [abs_nonneg (s - Y)]
    have hs2 : Y ≤ 2 * s := by
      have := (abs_le.1 e2).1
      have : 2 * N * u64 * Y ≤ 1 / 2 * Y := mul_le_mul_of_nonneg_right (by linarith) hY0.le
      linarith
    have hq : |x / s - x / Y| ≤ 4 * (N * u64) * (x / Y) := by
      have e : x / s - x / Y = (x / Y) * ((Y - s) / s) := by field_simp
      rw [e, abs_mul, abs_of_nonneg (div_nonneg hx0 hY0.le), mul_comm]
      apply mul_le_mul_of_nonneg_right _ (div_nonneg hx0 hY0.le)
      rw [abs_div, abs_of_pos e3, div_le_iff₀ e3, abs_sub_comm]
      refine e2.trans ?_
      have := mul_le_mul_of_nonneg_left hs2 hN0
      linarith
    have hk : 0 ≤ x / Y := div_nonneg hx0 hY0.le
    have hle : x / s ≤ 2 * (x / Y) := by
      have := (abs_le.1 hq).2
      have : 4 * (N * u64) * (x / Y) ≤ 1 * (x / Y) := mul_le_mul_of_nonneg_right (by linarith) hk
      linarith
    have e : rv (x / s) - x / Y = (rv (x / s) - x / s) + (x / s - x / Y) := by ring
    rw [e]
    refine (abs_add_le _ _).trans ?_
    have := mul_le_mul_of_nonneg_left hle hu.le
    linarith

/-! Vectors that meet the hypotheses. -/

example : Mid64 [1, 0, 1/2] ∧ Mid64 [3/4, 1/8, -2] := by
  have h : ∀ x ∈ ([1, 0, 1/2, 3/4, 1/8, -2] : List ℚ), Rep64 x ∧ |x| ≤ 2 := by
    unfold Rep64
    decide +kernel
  have h2 : (2 : ℚ) ≤ 2 ^ (450 : ℤ) := by
    rw [show (2 : ℚ) = 2 ^ (1 : ℤ) by norm_num, ← zpow_mul]
    exact zpow_le_zpow_right₀ (by norm_num) (by norm_num)
  constructor <;> intro x hx <;> exact ⟨(h x (by simp at hx ⊢; tauto)).1, (h x (by simp at hx ⊢; tauto)).2.trans h2⟩

example : ∀ x ∈ ([0, 1/2, 3/4, 1] : List ℚ), Rep64 x ∧ 0 ≤ x ∧ x ≤ 1 := by
  unfold Rep64
  decide +kernel

end Boo
