import Verif.Lemmas.B64Scan

/-!
# C93, C94: what trees optimise, in binary64

The exact-arithmetic properties C07, C09, C10 and C11 hold in binary64 up to explicit bounds on the rounding errors. `rows64 X` is a
finite data matrix as float64 values; gains, means and sums on the right-hand sides are exact rational numbers.
-/

namespace Boo
open GoFloat Spec
set_option linter.unusedSectionVars false

section AnyOrder

variable {τ : Option SumOrder}
/-- float64, with any order of the additions of `floats.Sum` -/
local notation "F64" => F64o τ

/-- Bound for the rounding error of the score of a split of a regular tree: with `n` samples and `A` the sum of the magnitudes of
their targets, `2⁻⁴⁷ n A² + 2⁻¹⁰⁷¹`. -/
def regErr (y : List ℚ) (idx : List Nat) : ℚ :=
  2 ^ (-47 : Int) * idx.length * sumAbs y idx ^ 2 + 2 ^ (-1071 : Int)

/-- Bound for the rounding error of the gain of a split of an xgboost tree: with `n` samples, `A` the sum of the magnitudes of their
gradients, `H` the sum of their hessians and `m` a positive lower bound of every `hessian + Lambda`. -/
def xgbErr (g h : List ℚ) (gam m : ℚ) (idx : List Nat) : ℚ :=
  2 ^ (-46 : Int) * idx.length * (1 + sumOver h idx / m) * (sumAbs g idx ^ 2 / m) + 2 ^ (-52 : Int) * |gam|
    + 2 ^ (-1072 : Int) * (1 + 1 / m)

/-- Targets of a regular tree: float64 values, at most `2⁵⁰` samples, magnitudes adding up to at most `2⁵⁰⁰`. -/
structure RegRange (y : List ℚ) (idx : List Nat) : Prop where
  rep : ∀ v ∈ y, Rep64 v
  count : idx.length ≤ 2 ^ 50
  size : sumAbs y idx ≤ 2 ^ (500 : Int)

/-- Gradients and hessians of an xgboost tree: float64 values, hessians not negative, every `hessian + Lambda` at least `m`, not
too many samples and no extreme magnitudes. -/
structure XgbRange (g h : List ℚ) (lam gam m : ℚ) (idx : List Nat) : Prop where
  repG : ∀ v ∈ g, Rep64 v
  repH : ∀ v ∈ h, Rep64 v
  repL : Rep64 lam
  nonneg : ∀ v ∈ h, 0 ≤ v
  floor : ∀ v ∈ h, m ≤ v + lam
  mlow : 2 ^ (-200 : Int) ≤ m
  count : idx.length ≤ 2 ^ 50
  cond : idx.length * sumOver h idx ≤ 2 ^ 48 * m
  sizeG : sumAbs g idx ≤ 2 ^ (400 : Int)
  sizeH : sumOver h idx ≤ 2 ^ (1000 : Int)
  sizeL : lam ≤ 2 ^ (1000 : Int)
  sizeC : |gam| ≤ 2 ^ (1000 : Int)

theorem RegRange.sublist {y : List ℚ} {l l' : List Nat} (h : RegRange y l') (hs : l.Sublist l') : RegRange y l :=
  ⟨h.rep, hs.length_le.trans h.count, (sumAbs_sublist y hs).trans h.size⟩

theorem sumOver_sublist {h : List ℚ} (hn : ∀ v ∈ h, 0 ≤ v) {l l' : List Nat} (hs : l.Sublist l') : sumOver h l ≤ sumOver h l' := by
  have e : ∀ l, sumOver h l = sumAbs h l := by
    intro l
    unfold sumOver sumAbs
    congr 1
    apply List.map_congr_left
    intro i _
    rw [List.getD_eq_getElem?_getD]
    cases hq : h[i]? with
    | none => simp
    | some v => exact (abs_of_nonneg (hn v (List.mem_of_getElem? hq))).symm
  rw [e, e]
  exact sumAbs_sublist h hs

theorem XgbRange.mpos {g h : List ℚ} {lam gam m : ℚ} {l : List Nat} (hr : XgbRange g h lam gam m l) : 0 < m :=
  lt_of_lt_of_le (two_zpow_pos _) hr.mlow

theorem XgbRange.sublist {g h : List ℚ} {lam gam m : ℚ} {l l' : List Nat} (hr : XgbRange g h lam gam m l') (hs : l.Sublist l') :
    XgbRange g h lam gam m l := by
  have hle := sumOver_sublist hr.nonneg hs
  have hl0 := sumOver_nonneg hr.nonneg l
  refine ⟨hr.repG, hr.repH, hr.repL, hr.nonneg, hr.floor, hr.mlow, hs.length_le.trans hr.count, ?_, (sumAbs_sublist g hs).trans hr.sizeG,
    hle.trans hr.sizeH, hr.sizeL, hr.sizeC⟩
  refine le_trans ?_ hr.cond
  have : (l.length : ℚ) ≤ l'.length := by exact_mod_cast hs.length_le
  exact mul_le_mul this hle hl0 (Nat.cast_nonneg _)

theorem getD_rep {v : List ℚ} (h : ∀ x ∈ v, Rep64 x) (i : Nat) : rv (v.getD i 0) = v.getD i 0 := by
  rw [List.getD_eq_getElem?_getD]
  cases hq : v[i]? with
  | none => exact rv_zero
  | some x => exact (rep64_rv (h x (List.mem_of_getElem? hq))).1

theorem count_u {n : Nat} (h : n ≤ 2 ^ 50) : 4 * (n : ℚ) * u64 ≤ 1 := by
  have h1 : (n : ℚ) ≤ 2 ^ 50 := by exact_mod_cast h
  have h2 : 4 * (2 ^ 50 : ℚ) * u64 ≤ 1 := by rw [u64_def]; norm_num
  have := mul_le_mul_of_nonneg_right h1 u64_pos.le
  linarith

/-- what a scan of values `φ` of the rows adds up to, at an admissible threshold -/
theorem scan_sums64 {S : GoSort} {X : List (List ℚ)} {mcw : Int} {idx : List Nat} {f : Nat} {u v : Nat → ℚ}
    {rk : List (ℚ × ℚ × ℚ)} (hs : ScanK S X mcw idx f u v rk) (φ : ℚ × ℚ × ℚ → ℚ) (w : List ℚ)
    (hφ : ∀ i, φ (val X i f, u i, v i) = w.getD i 0) (hrep : ∀ x ∈ w, Rep64 x) (hcount : idx.length ≤ 2 ^ 50)
    (hA : 2 * sumAbs w idx ≤ big64) (θ T : ℚ) (rT : rv T = T) (hT : |T - sumOver w idx| ≤ 2 * idx.length * u64 * sumAbs w idx) :
    ∃ a b, ((((rk.map fun q => (XF.fin (φ q) : F64)).take (leftOf X idx f θ).length)).foldl (· +. ·) (XF.fin 0 : F64)) = .fin a ∧
      ((((rk.map fun q => (XF.fin (φ q) : F64)).take (leftOf X idx f θ).length)).foldl (· -. ·) (XF.fin T : F64)) = .fin b ∧
      rv a = a ∧ rv b = b ∧
      |a - sumOver w (leftOf X idx f θ)| ≤ 4 * idx.length * u64 * sumAbs w idx ∧
      |b - sumOver w (rightOf X idx f θ)| ≤ 4 * idx.length * u64 * sumAbs w idx := by
  have hperm : (rk.map φ).Perm (idx.map fun i => w.getD i 0) := by
    have := hs.perm.map φ
    rw [List.map_map] at this
    have e : (φ ∘ fun i => (val X i f, u i, v i)) = fun i => w.getD i 0 := by funext i; exact hφ i
    rwa [e] at this
  have hlen : (rk.map φ).length = idx.length := by rw [hperm.length_eq]; simp
  have hsum : (rk.map φ).sum = sumOver w idx := hperm.sum_eq
  have habs : ((rk.map φ).map fun x => |x|).sum = sumAbs w idx := by
    rw [(hperm.map _).sum_eq, List.map_map]; rfl
  have htake : ((rk.map φ).take (leftOf X idx f θ).length).sum = sumOver w (leftOf X idx f θ) := by
    have h1 := hs.sum_left θ φ
    rw [hs.count_left] at h1
    rw [← List.map_take, h1]
    unfold sumOver
    congr 1
    apply List.map_congr_left
    intro i _
    exact hφ i
  obtain ⟨a, b, h1, h2, h3, h4, h5, h6⟩ := run64 (rk.map φ)
    (by
      intro x hx
      obtain ⟨i, _, rfl⟩ := List.mem_map.1 (hperm.mem_iff.1 hx)
      exact getD_rep hrep i)
    (sumAbs w idx) habs.le hA idx.length (by rw [hlen]) (count_u hcount) (leftOf X idx f θ).length T rT (by rw [hsum]; exact hT)
  have e : ((rk.map φ).take (leftOf X idx f θ).length).map (XF.fin : ℚ → F64) =
      (rk.map fun q => (XF.fin (φ q) : F64)).take (leftOf X idx f θ).length := by
    rw [List.map_take, List.map_map]; rfl
  rw [e] at h1 h2
  rw [htake] at h5 h6
  rw [hsum, ← left_right_sum X w idx f θ, add_sub_cancel_left] at h6
  exact ⟨a, b, h1, h2, h3, h4, h5, h6⟩

/-- the total of the samples -/
theorem total64 {w : List ℚ} {idx : List Nat} {l : List ℚ} (hperm : l.Perm (idx.map fun i => w.getD i 0)) (hrep : ∀ x ∈ w, Rep64 x)
    (hcount : idx.length ≤ 2 ^ 50) (hA : 2 * sumAbs w idx ≤ big64) :
    ∃ T, GoFloat.sum (l.map (XF.fin : ℚ → F64)) = .fin T ∧ rv T = T ∧ |T - sumOver w idx| ≤ 2 * idx.length * u64 * sumAbs w idx := by
  have hlen : l.length = idx.length := by rw [hperm.length_eq]; simp
  have habs : (l.map fun x => |x|).sum = sumAbs w idx := by
    rw [(hperm.map _).sum_eq, List.map_map]; rfl
  obtain ⟨T, h1, h2, h3, _⟩ := sum64_any l
    (by
      intro x hx
      obtain ⟨i, _, rfl⟩ := List.mem_map.1 (hperm.mem_iff.1 hx)
      exact getD_rep hrep i)
    (sumAbs w idx) hA habs.le (by rw [hlen]; have := count_u hcount; have h0 : (0 : ℚ) ≤ idx.length * u64 := mul_nonneg (Nat.cast_nonneg _) u64_pos.le; linarith)
  refine ⟨T, h1, h2, ?_⟩
  rw [hlen] at h3
  have : l.sum = sumOver w idx := hperm.sum_eq
  rw [← this]
  exact h3

theorem small_big {A : ℚ} (h : A ≤ 2 ^ (500 : Int)) : 2 * A ≤ big64 := by
  have : (2 : ℚ) * 2 ^ (500 : Int) ≤ big64 := by
    rw [big64_def, ← zpow_one_add₀ (by norm_num)]
    exact zpow_le_zpow_right₀ (by norm_num) (by norm_num)
  linarith

theorem nat53 {n : Nat} (h : n ≤ 2 ^ 50) : n < 2 ^ 53 := by omega

theorem candGain_reg64 {S : GoSort} {X : List (List ℚ)} {idx : List Nat} {f : Nat}
    {y : List ℚ} {rk : List (ℚ × ℚ × ℚ)} {p : ScanParams F64}
    (hs : ScanK S X p.mcw idx f (fun i => y.getD i 0) (fun i => y.getD i 0) rk)
    (hx : p.xgb = false) (hA : p.sumA = GoFloat.sum ((rk.map (·.2.1)).map XF.fin)) (hn : p.n = idx.length)
    (hr : RegRange y idx) (θ : ℚ) (hadm : Admissible X p.mcw idx f θ) :
    ∃ v, candGain p (rk.map fin64) 0 idx.length zero p.sumA zero zero (leftOf X idx f θ).length = .fin v ∧
      |v - regGain X y idx f θ| ≤ regErr y idx := by
  obtain ⟨nL, nR, nI⟩ := adm_ne hadm
  have pL : 1 ≤ (leftOf X idx f θ).length := List.length_pos_iff.2 nL
  have pR : 1 ≤ (rightOf X idx f θ).length := List.length_pos_iff.2 nR
  have hlr := left_right_length X idx f θ
  have hperm : (rk.map (·.2.1)).Perm (idx.map fun i => y.getD i 0) := by
    have := hs.perm.map (fun q : ℚ × ℚ × ℚ => q.2.1)
    rwa [List.map_map] at this
  have hbig := small_big hr.size
  obtain ⟨T, eT, rT, hT⟩ := total64 hperm hr.rep hr.count hbig
  rw [← hA] at eT
  obtain ⟨a, b, h1, h2, _, _, h5, h6⟩ := scan_sums64 hs (fun q => q.2.1) y (fun i => rfl) hr.rep hr.count hbig θ T rT hT
  have hA0 := sumAbs_nonneg y idx
  have hu := u64_pos
  have hroom := room_sq hA0 hr.size
  have hδ : 4 * (idx.length : ℚ) * u64 * sumAbs y idx ≤ sumAbs y idx := by
    have := mul_le_mul_of_nonneg_right (count_u hr.count) hA0
    linarith
  have hn0 : (2 : ℚ) ≤ idx.length := by
    have : 2 ≤ idx.length := by omega
    exact_mod_cast this
  have huA : 0 ≤ idx.length * u64 * sumAbs y idx := by positivity
  obtain ⟨v, hv, herr⟩ := gainG64 (nl := (leftOf X idx f θ).length) (nr := (rightOf X idx f θ).length) (n := idx.length) h5 h6
    (s := T) (T := sumOver y idx) (hT.trans (by linarith))
    ((abs_sumOver_le y _).trans (sumAbs_sublist y List.filter_sublist)) ((abs_sumOver_le y _).trans (sumAbs_sublist y List.filter_sublist))
    (abs_sumOver_le y idx) hδ hroom pL pR (by omega) (nat53 (by have := hr.count; omega)) (nat53 (by have := hr.count; omega)) (nat53 hr.count)
  refine ⟨v, ?_, ?_⟩
  · unfold candGain ScanParams.gain
    rw [hx, if_neg (by simp), hn, eT, zero64]
    have e1 : ((rk.map fin64).take (leftOf X idx f θ).length).map (·.2.1) =
        (rk.map fun q => (XF.fin q.2.1 : F64)).take (leftOf X idx f θ).length := by
      rw [← List.map_take, List.map_map, List.map_take]; rfl
    rw [e1, h1, h2, zero_add]
    have e2 : ((idx.length : Int) - ((leftOf X idx f θ).length : Int)) = ((rightOf X idx f θ).length : Int) := by omega
    rw [e2]
    exact hv
  · refine herr.trans ?_
    unfold regErr
    have c1 : (2 : ℚ) ^ (-47 : Int) = 64 * u64 := by rw [u64_def]; norm_num
    have c2 : (2 : ℚ) ^ (-1071 : Int) = 16 * eta64 := by
      rw [eta64_def, show (16 : ℚ) = 2 ^ (4 : Int) by norm_num, ← zpow_add₀ (by norm_num)]
      norm_num
    rw [c1, c2]
    have he := eta64_pos
    have hw : 0 ≤ u64 * sumAbs y idx ^ 2 := by positivity
    have := mul_le_mul_of_nonneg_right hn0 hw
    have e : sumAbs y idx * (4 * (idx.length : ℚ) * u64 * sumAbs y idx) = 4 * (idx.length * (u64 * sumAbs y idx ^ 2)) := by ring
    have e2 : 64 * u64 * (idx.length : ℚ) * sumAbs y idx ^ 2 = 64 * (idx.length * (u64 * sumAbs y idx ^ 2)) := by ring
    rw [e, e2]
    linarith

theorem den_floor {h : List ℚ} {lam m : ℚ} (hn : ∀ v ∈ h, 0 ≤ v) (hf : ∀ v ∈ h, m ≤ v + lam) {idx : List Nat} (hne : idx ≠ [])
    (hr : ∀ i ∈ idx, i < h.length) : m ≤ sumOver h idx + lam := by
  obtain ⟨i, is, rfl⟩ := List.exists_cons_of_ne_nil hne
  have hi := hr i (by simp)
  have h1 : h.getD i 0 = h[i] := by simp [hi]
  have h2 := hf _ (List.getElem_mem hi)
  have h3 := sumOver_nonneg hn is
  unfold sumOver at *
  rw [List.map_cons, List.sum_cons, h1]
  linarith

theorem sumAbs_eq_sumOver {h : List ℚ} (hn : ∀ v ∈ h, 0 ≤ v) (l : List Nat) : sumAbs h l = sumOver h l := by
  unfold sumOver sumAbs
  congr 1
  apply List.map_congr_left
  intro i _
  rw [List.getD_eq_getElem?_getD]
  cases hq : h[i]? with
  | none => simp
  | some v => exact abs_of_nonneg (hn v (List.mem_of_getElem? hq))

theorem XgbRange.room {g h : List ℚ} {lam gam m : ℚ} {idx : List Nat} (hr : XgbRange g h lam gam m idx) :
    64 * sumAbs g idx ^ 2 + 64 ≤ big64 ∧ 64 * (sumAbs g idx ^ 2 / m) + 64 * (eta64 / m) + |gam| + 64 ≤ big64 ∧
    2 * sumOver h idx ≤ big64 ∧ sumOver h idx + lam + sumOver h idx ≤ big64 ∧ 2 * sumAbs g idx ≤ big64 ∧
    8 * (idx.length : ℚ) * u64 * sumOver h idx / m + u64 ≤ 1 / 2 := by
  have hA0 := sumAbs_nonneg g idx
  have hm := hr.mpos
  have s500 : sumAbs g idx ≤ 2 ^ (500 : Int) := hr.sizeG.trans (zpow_le_zpow_right₀ (by norm_num) (by norm_num))
  have hbig : big64 = 2 ^ (23 : Int) * 2 ^ (1000 : Int) := by
    rw [big64_def, ← zpow_add₀ (by norm_num)]
    norm_num
  have hone : (1 : ℚ) ≤ 2 ^ (1000 : Int) := one_le_zpow₀ (by norm_num) (by norm_num)
  have hinv : 1 / m ≤ 2 ^ (200 : Int) := by
    rw [div_le_iff₀ hm]
    have := mul_le_mul_of_nonneg_left hr.mlow (two_zpow_pos 200).le
    rw [← zpow_add₀ (by norm_num)] at this
    simpa using this
  have hQ : sumAbs g idx ^ 2 / m ≤ 2 ^ (1000 : Int) := by
    have h1 : sumAbs g idx ^ 2 ≤ 2 ^ (800 : Int) := by
      have := mul_le_mul hr.sizeG hr.sizeG hA0 (two_zpow_pos _).le
      rw [← zpow_add₀ (by norm_num)] at this
      rw [pow_two]
      exact this
    have h2 := mul_le_mul h1 hinv (by positivity) (two_zpow_pos _).le
    rw [← zpow_add₀ (by norm_num)] at h2
    rw [mul_one_div] at h2
    exact h2
  have hz : eta64 / m ≤ 2 ^ (1000 : Int) := by
    have h2 := mul_le_mul eta64_le_one hinv (by positivity) zero_le_one
    rw [mul_one_div, one_mul] at h2
    exact h2.trans (zpow_le_zpow_right₀ (by norm_num) (by norm_num))
  have h23 : (2 : ℚ) ^ (23 : Int) = 8388608 := by norm_num
  have hC := hr.sizeC
  have hH := hr.sizeH
  have hL := hr.sizeL
  refine ⟨room_sq hA0 s500, ?_, ?_, ?_, small_big s500, ?_⟩
  · rw [hbig, h23]
    generalize (2 : ℚ) ^ (1000 : Int) = P at *
    linarith
  · rw [hbig, h23]
    generalize (2 : ℚ) ^ (1000 : Int) = P at *
    linarith
  · rw [hbig, h23]
    generalize (2 : ℚ) ^ (1000 : Int) = P at *
    linarith
  · have h1 := hr.cond
    have h2 : (idx.length : ℚ) * sumOver h idx / m ≤ 2 ^ 48 := by rw [div_le_iff₀ hm]; exact h1
    have h3 : 8 * (idx.length : ℚ) * u64 * sumOver h idx / m = 8 * u64 * (idx.length * sumOver h idx / m) := by ring
    have h4 := mul_le_mul_of_nonneg_left h2 (by have := u64_pos; positivity : 0 ≤ 8 * u64)
    have h5 : 8 * u64 * 2 ^ 48 = 1 / 4 := by rw [u64_def]; norm_num
    have h6 := u64_le
    rw [h3]
    linarith

theorem candGain_xgb64 {S : GoSort} {X : List (List ℚ)} {idx : List Nat} {f : Nat}
    {g h : List ℚ} {rk : List (ℚ × ℚ × ℚ)} {p : ScanParams F64} {lam gam m : ℚ}
    (hs : ScanK S X p.mcw idx f (fun i => g.getD i 0) (fun i => h.getD i 0) rk)
    (hx : p.xgb = true) (hl : p.lambda = .fin lam) (hγ : p.gamma = .fin gam)
    (hA : p.sumA = GoFloat.sum ((idx.map fun i => g.getD i 0).map XF.fin))
    (hB : p.sumB = GoFloat.sum ((idx.map fun i => h.getD i 0).map XF.fin))
    (hr : XgbRange g h lam gam m idx) (hrange : ∀ i ∈ idx, i < h.length) (θ : ℚ) (hadm : Admissible X p.mcw idx f θ) :
    ∃ v, candGain p (rk.map fin64) 0 idx.length zero p.sumA zero p.sumB (leftOf X idx f θ).length = .fin v ∧
      |v - xgbGain X g h lam gam idx f θ| ≤ xgbErr g h gam m idx := by
  obtain ⟨nL, nR, nI⟩ := adm_ne hadm
  have pL : 1 ≤ (leftOf X idx f θ).length := List.length_pos_iff.2 nL
  have pR : 1 ≤ (rightOf X idx f θ).length := List.length_pos_iff.2 nR
  have hlr := left_right_length X idx f θ
  obtain ⟨o1, o2, o3, o4, o5, o6⟩ := hr.room
  have hm := hr.mpos
  have habs := sumAbs_eq_sumOver hr.nonneg idx
  obtain ⟨G, eG, rG, hG⟩ := total64 (List.Perm.refl (idx.map fun i => g.getD i 0)) hr.repG hr.count o5
  obtain ⟨H, eH, rH, hH⟩ := total64 (List.Perm.refl (idx.map fun i => h.getD i 0)) hr.repH hr.count (by rw [habs]; exact o3)
  rw [← hA] at eG
  rw [← hB] at eH
  obtain ⟨a, b, h1, h2, _, _, h5, h6⟩ := scan_sums64 hs (fun q => q.2.1) g (fun i => rfl) hr.repG hr.count o5 θ G rG hG
  obtain ⟨c, d, k1, k2, k3, k4, k5, k6⟩ := scan_sums64 hs (fun q => q.2.2) h (fun i => rfl) hr.repH hr.count (by rw [habs]; exact o3) θ H rH hH
  rw [habs] at hH k5 k6
  have hA0 := sumAbs_nonneg g idx
  have hH0 := sumOver_nonneg hr.nonneg idx
  have hu := u64_pos
  have hδ : 4 * (idx.length : ℚ) * u64 * sumAbs g idx ≤ sumAbs g idx := by
    have := mul_le_mul_of_nonneg_right (count_u hr.count) hA0
    linarith
  have hδh : 4 * (idx.length : ℚ) * u64 * sumOver h idx ≤ sumOver h idx := by
    have := mul_le_mul_of_nonneg_right (count_u hr.count) hH0
    linarith
  have hn0 : (2 : ℚ) ≤ idx.length := by
    have : 2 ≤ idx.length := by omega
    exact_mod_cast this
  have huA : 0 ≤ idx.length * u64 * sumAbs g idx := by positivity
  have huH : 0 ≤ idx.length * u64 * sumOver h idx := by positivity
  have sL : sumOver h (leftOf X idx f θ) ≤ sumOver h idx := sumOver_sublist hr.nonneg List.filter_sublist
  have sR : sumOver h (rightOf X idx f θ) ≤ sumOver h idx := sumOver_sublist hr.nonneg List.filter_sublist
  have eρ : 2 * (4 * (idx.length : ℚ) * u64 * sumOver h idx) / m = 8 * (idx.length : ℚ) * u64 * sumOver h idx / m := by ring
  obtain ⟨v, hv, herr⟩ := gainX64 (lam := lam) (gam := gam) (m := m) (s := G) (hs := H) h5 h6 (hG.trans (by linarith))
    ((abs_sumOver_le g _).trans (sumAbs_sublist g List.filter_sublist)) ((abs_sumOver_le g _).trans (sumAbs_sublist g List.filter_sublist))
    (abs_sumOver_le g idx) hδ o1 o2 k5 k6 (hH.trans (by linarith)) k3 k4 rH (rep64_rv hr.repL).1 hm
    (den_floor hr.nonneg hr.floor nL fun i hi => hrange i (leftOf_sub i hi))
    (den_floor hr.nonneg hr.floor nR fun i hi => hrange i (rightOf_sub i hi))
    (den_floor hr.nonneg hr.floor nI hrange) (by rw [eρ]; exact o6) (by linarith) (by linarith) (by linarith)
  refine ⟨v, ?_, ?_⟩
  · unfold candGain ScanParams.gain
    rw [hx, if_pos rfl, eG, eH, zero64, hl, hγ]
    have e1 : ((rk.map fin64).take (leftOf X idx f θ).length).map (·.2.1) =
        (rk.map fun q => (XF.fin q.2.1 : F64)).take (leftOf X idx f θ).length := by
      rw [← List.map_take, List.map_map, List.map_take]; rfl
    have e2 : ((rk.map fin64).take (leftOf X idx f θ).length).map (·.2.2) =
        (rk.map fun q => (XF.fin q.2.2 : F64)).take (leftOf X idx f θ).length := by
      rw [← List.map_take, List.map_map, List.map_take]; rfl
    rw [e1, e2, h1, h2, k1, k2]
    exact hv
  · have e : xgbGain X g h lam gam idx f θ = 1 / 2 * (sumOver g (leftOf X idx f θ) ^ 2 / (sumOver h (leftOf X idx f θ) + lam)
        + sumOver g (rightOf X idx f θ) ^ 2 / (sumOver h (rightOf X idx f θ) + lam) - sumOver g idx ^ 2 / (sumOver h idx + lam)) - gam / 2 := rfl
    rw [e]
    refine herr.trans ?_
    rw [eρ]
    unfold xgbErr
    have c1 : (2 : ℚ) ^ (-46 : Int) = 128 * u64 := by rw [u64_def]; norm_num
    have c3 : (2 : ℚ) ^ (-52 : Int) = 2 * u64 := by rw [u64_def]; norm_num
    have c2 : (2 : ℚ) ^ (-1072 : Int) = 8 * eta64 := by
      rw [eta64_def, show (8 : ℚ) = 2 ^ (3 : Int) by norm_num, ← zpow_add₀ (by norm_num)]
      norm_num
    rw [c1, c2, c3]
    have he := eta64_pos
    have hem : 0 ≤ eta64 / m := by positivity
    obtain ⟨Q, hQ⟩ : ∃ Q, Q = u64 * (sumAbs g idx ^ 2 / m) := ⟨_, rfl⟩
    obtain ⟨κ, hκ⟩ : ∃ κ, κ = sumOver h idx / m := ⟨_, rfl⟩
    have hQ0 : 0 ≤ Q := by rw [hQ]; positivity
    have hκ0 : 0 ≤ κ := by rw [hκ]; positivity
    have i1 := mul_le_mul_of_nonneg_right hn0 hQ0
    have i2 : 0 ≤ idx.length * (κ * Q) := by positivity
    have f1 : sumAbs g idx * (4 * (idx.length : ℚ) * u64 * sumAbs g idx) / m = 4 * (idx.length * Q) := by rw [hQ]; ring
    have f2 : (8 * (idx.length : ℚ) * u64 * sumOver h idx / m + u64) * (sumAbs g idx ^ 2 / m) = 8 * (u64 * (idx.length * (κ * Q))) / u64 + Q := by
      rw [hQ, hκ]
      field_simp
    have f2' : 8 * (u64 * (idx.length * (κ * Q))) / u64 = 8 * (idx.length * (κ * Q)) := by field_simp
    have f3 : 128 * u64 * (idx.length : ℚ) * (1 + sumOver h idx / m) * (sumAbs g idx ^ 2 / m) = 128 * (idx.length * Q) + 128 * (idx.length * (κ * Q)) := by
      rw [hQ, hκ]; ring
    have f4 : 8 * eta64 * (1 + 1 / m) = 8 * eta64 + 8 * (eta64 / m) := by ring
    rw [f1, f2, f2', f3, f4, ← hQ]
    linarith

/-! ### Facts about one node -/

theorem node_split_reg64 {S : GoSort} {X : List (List ℚ)} {o : TreeOptions F64} {d : Nat}
    {i : NodeInfo F64} {l r : Tree F64} {y : List ℚ} (hX : Apart64 (rows64 X : List (List F64)))
    (hb : newTreeD S (rows64 X) d o = .ok (.node i l r)) (hl : l ≠ .nil) (hi : RegInput o y) (hr : RegRange y i.samples) :
    ∃ θ s, i.threshold = .fin θ ∧
      Admissible X (toInt o.minChildWeight) i.samples i.splitFeatureIndex θ ∧
      i.bestScoreSoFar = .fin s ∧ |s - regGain X y i.samples i.splitFeatureIndex θ| ≤ regErr y i.samples := by
  obtain ⟨s, -⟩ := splitNode hb hl
  obtain ⟨hsam, _, _, hv, _⟩ := mkInfo_samples hb
  rw [hsam] at hr ⊢
  obtain ⟨rk, hrk, hsk, hA, hB, hpar⟩ := s.hscan.reg64 hi.xgb hi.targets
  have hidx : (o.fill (rows64 X)).indexes.getD [] = o.idx (rows64 X) := rfl
  rw [hidx] at hsk hpar
  have hmcw : s.p.mcw = toInt o.minChildWeight := by rw [hpar]; rfl
  have hcand := s.hcand
  rw [hrk] at hcand
  rw [← hmcw]
  have hsk' : ScanK S X s.p.mcw (o.idx (rows64 X)) i.splitFeatureIndex (fun j => y.getD j 0)
    (fun j => y.getD j 0) rk := ⟨hsk.perm, hsk.sorted⟩
  obtain ⟨θ, hmid, hk, hadm⟩ := cut_is_threshold64 hX s.hcol hsk' hcand
  have hpA : s.p.sumA = s.A := by rw [hpar]
  obtain ⟨v, hv, herr⟩ := candGain_reg64 hsk' (by rw [hpar]) (hpA.trans hA) (by rw [hpar]) hr θ hadm
  have hscore := s.hscore
  rw [hrk, hB, ← hk, ← hpA, hv] at hscore
  exact ⟨θ, v, s.hthr.trans hmid, hadm, hscore, herr⟩

theorem node_opt_reg64 {S : GoSort} {X : List (List ℚ)} {o : TreeOptions F64} {y : List ℚ}
    (hi : RegInput o y) (hr : RegRange y (o.idx (rows64 X))) {score : F64} {f : Nat}
    (hopt : ∃ p rows A B, ScanOf S (rows64 X) (o.fill (rows64 X)) f p rows A B ∧
        ∀ k x x', Cand p rows 0 (o.idx (rows64 X)).length k x x' →
        betterX o.xgb (candGain p rows 0 (o.idx (rows64 X)).length zero A zero B k) score = false)
    (θ : ℚ) (hadm : Admissible X (toInt o.minChildWeight) (o.idx (rows64 X)) f θ) :
    ∃ v, ((XF.fin v : F64) <. score) = false ∧ |v - regGain X y (o.idx (rows64 X)) f θ| ≤ regErr y (o.idx (rows64 X)) := by
  obtain ⟨p, rows, A, B, hscan, hopt⟩ := hopt
  obtain ⟨rk, hrk, hsk, hA, hB, hpar⟩ := hscan.reg64 hi.xgb hi.targets
  have hidx : (o.fill (rows64 X)).indexes.getD [] = o.idx (rows64 X) := rfl
  rw [hidx] at hsk hpar
  have hmcw : p.mcw = toInt o.minChildWeight := by rw [hpar]; rfl
  have hsk' : ScanK S X p.mcw (o.idx (rows64 X)) f (fun j => y.getD j 0)
    (fun j => y.getD j 0) rk := ⟨hsk.perm, hsk.sorted⟩
  rw [← hmcw] at hadm
  obtain ⟨x, x', hc⟩ := cand_of_admissible64 hsk' θ hadm
  rw [← hrk] at hc
  have h1 := hopt _ _ _ hc
  have hpA : p.sumA = A := by rw [hpar]
  obtain ⟨v, hv, herr⟩ := candGain_reg64 hsk' (by rw [hpar]) (hpA.trans hA) (by rw [hpar]) hr θ hadm
  rw [hrk, hB, ← hpA, hv] at h1
  refine ⟨v, ?_, herr⟩
  simpa only [betterX, hi.xgb, Bool.false_eq_true, if_false] using h1

theorem nodeValue64 {o : TreeOptions F64} {idx : List Nat} {v : F64} (hx : o.xgb = true)
    {g h : List ℚ} (hg : o.gradients = some (g.map XF.fin)) (hh : o.hessian = some (h.map XF.fin))
    (hv : nodeValue o idx = .ok v) :
    (∀ i ∈ idx, i < h.length) ∧
    v = ((ofInt (-1) : F64) *. GoFloat.sum ((idx.map fun i => g.getD i 0).map XF.fin)) /.
      (GoFloat.sum ((idx.map fun i => h.getD i 0).map XF.fin) +. o.lambda) := by
  unfold nodeValue at hv
  rw [hx, if_pos rfl, hg, hh] at hv
  simp only [Option.getD_some] at hv
  obtain ⟨gs, h1, hv⟩ := bind_ok hv
  obtain ⟨hs, h2, hv⟩ := bind_ok hv
  refine ⟨sampleSlice64_range h2, ?_⟩
  rw [← sampleSlice64 h1, ← sampleSlice64 h2]
  exact (Except.ok.inj hv).symm

theorem node_split_xgb64 {S : GoSort} {X : List (List ℚ)} {o : TreeOptions F64} {d : Nat}
    {i : NodeInfo F64} {l r : Tree F64} {g h : List ℚ} {lam gam m : ℚ} (hX : Apart64 (rows64 X : List (List F64)))
    (hb : newTreeD S (rows64 X) d o = .ok (.node i l r)) (hl : l ≠ .nil) (hi : XgbInput o g h lam gam)
    (hr : XgbRange g h lam gam m i.samples) :
    ∃ θ s, i.threshold = .fin θ ∧
      Admissible X (toInt o.minChildWeight) i.samples i.splitFeatureIndex θ ∧
      i.bestScoreSoFar = .fin s ∧ 0 < s ∧ |s - xgbGain X g h lam gam i.samples i.splitFeatureIndex θ| ≤ xgbErr g h gam m i.samples := by
  obtain ⟨s, -⟩ := splitNode hb hl
  obtain ⟨hsam, _, _, hv, _⟩ := mkInfo_samples hb
  rw [hsam] at hr ⊢
  obtain ⟨hrange, _⟩ := nodeValue64 (o := o.fill (rows64 X)) hi.xgb hi.grad hi.hess hv
  obtain ⟨rk, hrk, hsk, hA, hB, hpar⟩ := s.hscan.xgb64 hi.xgb hi.grad hi.hess
  have hidx : (o.fill (rows64 X)).indexes.getD [] = o.idx (rows64 X) := rfl
  rw [hidx] at hsk hpar hA hB
  have hmcw : s.p.mcw = toInt o.minChildWeight := by rw [hpar]; rfl
  have hcand := s.hcand
  rw [hrk] at hcand
  rw [← hmcw]
  have hsk' : ScanK S X s.p.mcw (o.idx (rows64 X)) i.splitFeatureIndex (fun j => g.getD j 0)
    (fun j => h.getD j 0) rk := ⟨hsk.perm, hsk.sorted⟩
  obtain ⟨θ, hmid, hk, hadm⟩ := cut_is_threshold64 hX s.hcol hsk' hcand
  have hpA : s.p.sumA = s.A := by rw [hpar]
  have hpB : s.p.sumB = s.B := by rw [hpar]
  obtain ⟨v, hv, herr⟩ := candGain_xgb64 hsk' (by rw [hpar]) (by rw [hpar]; exact hi.lambda) (by rw [hpar]; exact hi.gamma)
    (hpA.trans hA) (hpB.trans hB) hr hrange θ hadm
  have hscore := s.hscore
  rw [hrk, ← hk, ← hpA, ← hpB, hv] at hscore
  refine ⟨θ, v, s.hthr.trans hmid, hadm, hscore, ?_, herr⟩
  have := s.hbetter
  have hs2 : i.bestScoreSoFar = _ := hscore
  simp only [betterX, hi.xgb, if_true, score0, gt] at this
  rw [hs2, zero64, XF.fin_lt] at this
  simpa using this

theorem node_opt_xgb64 {S : GoSort} {X : List (List ℚ)} {o : TreeOptions F64}
    {g h : List ℚ} {lam gam m : ℚ} (hi : XgbInput o g h lam gam) (hr : XgbRange g h lam gam m (o.idx (rows64 X)))
    (hrange : ∀ j ∈ o.idx (rows64 X), j < h.length) {score : ℚ} {f : Nat}
    (hopt : ∃ p rows A B, ScanOf S (rows64 X) (o.fill (rows64 X)) f p rows A B ∧
        ∀ k x x', Cand p rows 0 (o.idx (rows64 X)).length k x x' →
        betterX o.xgb (candGain p rows 0 (o.idx (rows64 X)).length zero A zero B k) (.fin score) = false)
    (θ : ℚ) (hadm : Admissible X (toInt o.minChildWeight) (o.idx (rows64 X)) f θ) :
    xgbGain X g h lam gam (o.idx (rows64 X)) f θ ≤ score + xgbErr g h gam m (o.idx (rows64 X)) := by
  obtain ⟨p, rows, A, B, hscan, hopt⟩ := hopt
  obtain ⟨rk, hrk, hsk, hA, hB, hpar⟩ := hscan.xgb64 hi.xgb hi.grad hi.hess
  have hidx : (o.fill (rows64 X)).indexes.getD [] = o.idx (rows64 X) := rfl
  rw [hidx] at hsk hpar hA hB
  have hmcw : p.mcw = toInt o.minChildWeight := by rw [hpar]; rfl
  have hsk' : ScanK S X p.mcw (o.idx (rows64 X)) f (fun j => g.getD j 0)
    (fun j => h.getD j 0) rk := ⟨hsk.perm, hsk.sorted⟩
  rw [← hmcw] at hadm
  obtain ⟨x, x', hc⟩ := cand_of_admissible64 hsk' θ hadm
  rw [← hrk] at hc
  have h1 := hopt _ _ _ hc
  have hpA : p.sumA = A := by rw [hpar]
  have hpB : p.sumB = B := by rw [hpar]
  obtain ⟨v, hv, herr⟩ := candGain_xgb64 hsk' (by rw [hpar]) (by rw [hpar]; exact hi.lambda) (by rw [hpar]; exact hi.gamma)
    (hpA.trans hA) (hpB.trans hB) hr hrange θ hadm
  rw [hrk, ← hpA, ← hpB, hv] at h1
  simp only [betterX, hi.xgb, if_true, gt, XF.fin_lt, decide_eq_false_iff_not, not_lt] at h1
  have := (abs_le.1 herr).1
  linarith

/-! ### C93 -/

theorem row0_length64 {X : List (List ℚ)} {row0 : List ℚ} {row0' : List F64} (hr0 : X[0]? = some row0)
    (hr0' : (rows64 X)[0]? = some row0') : row0'.length = row0.length := by
  unfold rows64 at hr0'
  rw [List.getElem?_map, hr0] at hr0'
  simp only [Option.map_some, Option.some.injEq] at hr0'
  rw [← hr0']; simp

/-- **C93, regular split.** In binary64, the split of every node is admissible, the recorded score is the exact score of that split up
to `regErr`, and the exact score of no other admissible split on a usable feature is smaller by more than twice `regErr`. -/
theorem C93_regular_split (S : GoSort) (X : List (List ℚ)) (o : TreeOptions F64) (t : Tree F64) (y : List ℚ)
    (hX : Apart64 (rows64 X : List (List F64))) (hb : newTree S (rows64 X) o = .ok t) (hi : RegInput o y)
    (hr : RegRange y (trainingRows (rows64 X) o))
    (path : List Bool) (i : NodeInfo F64) (l r : Tree F64) (hsub : t.sub path = .node i l r) (hsplit : l ≠ .nil) :
    ∃ θ s, i.threshold = .fin θ ∧
      Admissible X (toInt o.minChildWeight) i.samples i.splitFeatureIndex θ ∧
      i.bestScoreSoFar = .fin s ∧ |s - regGain X y i.samples i.splitFeatureIndex θ| ≤ regErr y i.samples ∧
      ∀ row0, X[0]? = some row0 → ∀ f < row0.length, UsableAt o path f → ∀ θ',
        Admissible X (toInt o.minChildWeight) i.samples f θ' →
        regGain X y i.samples i.splitFeatureIndex θ ≤ regGain X y i.samples f θ' + 2 * regErr y i.samples := by
  obtain ⟨o', d', hb', _, hin, hsl, he, hne⟩ := newTreeD_sub S _ _ o t hb path i l r hsub
  obtain ⟨hsam, _, _, hv, _⟩ := mkInfo_samples hb'
  rw [← idx_eq_trainingRows] at hr
  have hr' := hr.sublist hsl
  have hi' := hi.inherit hin
  obtain ⟨θ, s, h1, h2, h3, h4⟩ := node_split_reg64 hX hb' hsplit hi' (by rw [hsam]; exact hr')
  rw [hin.mcw] at h2
  refine ⟨θ, s, h1, h2, h3, h4, ?_⟩
  intro row0 hr0 f hf hu θ' hadm
  obtain ⟨row0', hr0', hopt⟩ := splitNode_opt hb' hsplit
  have hlen := row0_length64 hr0 hr0'
  rw [hsam] at hadm
  rw [← hin.mcw] at hadm
  obtain ⟨v, hv, herr⟩ := node_opt_reg64 hi' hr' (hopt f (by omega) (usable_allowed hu he hne)) θ' hadm
  rw [h3, XF.fin_lt, decide_eq_false_iff_not, not_lt] at hv
  rw [← hsam] at herr
  have e1 := (abs_le.1 h4).1
  have e2 := (abs_le.1 herr).2
  linarith

/-- **C93, regular leaf.** In binary64 too, a leaf above the maximum depth has no admissible split on a usable feature. -/
theorem C93_regular_leaf (S : GoSort) (X : List (List ℚ)) (o : TreeOptions F64) (t : Tree F64) (y : List ℚ)
    (hb : newTree S (rows64 X) o = .ok t) (hi : RegInput o y) (hr : RegRange y (trainingRows (rows64 X) o))
    (path : List Bool) (i : NodeInfo F64) (hsub : t.sub path = .node i .nil .nil) (hdepth : (path.length : Int) < o.maxDepth)
    (row0 : List ℚ) (hr0 : X[0]? = some row0) (f : Nat) (hf : f < row0.length) (hu : UsableAt o path f) (θ' : ℚ) :
    ¬ Admissible X (toInt o.minChildWeight) i.samples f θ' := by
  intro hadm
  obtain ⟨o', d', hb', hd, hin, hsl, he, hne⟩ := newTreeD_sub S _ _ o t hb path i _ _ hsub
  have hi' := hi.inherit hin
  obtain ⟨hsam, _, _, hv, _⟩ := mkInfo_samples hb'
  rw [← idx_eq_trainingRows] at hr
  rcases leafNode hb' with h0 | ⟨row0', hr0', hopt⟩
  · omega
  have hlen := row0_length64 hr0 hr0'
  rw [hsam, ← hin.mcw] at hadm
  obtain ⟨v, hv, _⟩ := node_opt_reg64 hi' (hr.sublist hsl) (hopt f (by omega) (usable_allowed hu he hne)) θ' hadm
  have hz : (score0 o'.xgb : F64) = .inf false := by rw [hi'.xgb]; rfl
  rw [hz] at hv
  cases hv

/-- **C93, xgboost split.** In binary64, the split of every node is admissible, the recorded gain is positive and is the exact gain of
that split up to `xgbErr`, and no admissible split on a usable feature has an exact gain larger by more than twice `xgbErr`. -/
theorem C93_xgb_split (S : GoSort) (X : List (List ℚ)) (o : TreeOptions F64) (t : Tree F64) (g h : List ℚ) (lam gam m : ℚ)
    (hX : Apart64 (rows64 X : List (List F64))) (hb : newTree S (rows64 X) o = .ok t) (hi : XgbInput o g h lam gam)
    (hr : XgbRange g h lam gam m (trainingRows (rows64 X) o))
    (path : List Bool) (i : NodeInfo F64) (l r : Tree F64) (hsub : t.sub path = .node i l r) (hsplit : l ≠ .nil) :
    ∃ θ s, i.threshold = .fin θ ∧
      Admissible X (toInt o.minChildWeight) i.samples i.splitFeatureIndex θ ∧
      i.bestScoreSoFar = .fin s ∧ 0 < s ∧ |s - xgbGain X g h lam gam i.samples i.splitFeatureIndex θ| ≤ xgbErr g h gam m i.samples ∧
      ∀ row0, X[0]? = some row0 → ∀ f < row0.length, UsableAt o path f → ∀ θ',
        Admissible X (toInt o.minChildWeight) i.samples f θ' →
        xgbGain X g h lam gam i.samples f θ' ≤
          xgbGain X g h lam gam i.samples i.splitFeatureIndex θ + 2 * xgbErr g h gam m i.samples := by
  obtain ⟨o', d', hb', _, hin, hsl, he, hne⟩ := newTreeD_sub S _ _ o t hb path i l r hsub
  obtain ⟨hsam, _, _, hv, _⟩ := mkInfo_samples hb'
  rw [← idx_eq_trainingRows] at hr
  have hr' := hr.sublist hsl
  have hi' := hi.inherit hin
  obtain ⟨hrange, _⟩ := nodeValue64 (o := o'.fill (rows64 X)) hi'.xgb hi'.grad hi'.hess hv
  obtain ⟨θ, s, h1, h2, h3, h4, h5⟩ := node_split_xgb64 hX hb' hsplit hi' (by rw [hsam]; exact hr')
  rw [hin.mcw] at h2
  refine ⟨θ, s, h1, h2, h3, h4, h5, ?_⟩
  intro row0 hr0 f hf hu θ' hadm
  obtain ⟨row0', hr0', hopt⟩ := splitNode_opt hb' hsplit
  rw [h3] at hopt
  have hlen := row0_length64 hr0 hr0'
  rw [hsam] at hadm
  rw [← hin.mcw] at hadm
  have := node_opt_xgb64 hi' hr' hrange (hopt f (by omega) (usable_allowed hu he hne)) θ' hadm
  rw [← hsam] at this
  have e1 := (abs_le.1 h5).2
  linarith

/-- **C93, xgboost leaf.** In binary64, if a node above the maximum depth is a leaf, no admissible split on a usable feature has an
exact gain above `xgbErr`. -/
theorem C93_xgb_leaf (S : GoSort) (X : List (List ℚ)) (o : TreeOptions F64) (t : Tree F64) (g h : List ℚ) (lam gam m : ℚ)
    (hb : newTree S (rows64 X) o = .ok t) (hi : XgbInput o g h lam gam)
    (hr : XgbRange g h lam gam m (trainingRows (rows64 X) o))
    (path : List Bool) (i : NodeInfo F64) (hsub : t.sub path = .node i .nil .nil) (hdepth : (path.length : Int) < o.maxDepth)
    (row0 : List ℚ) (hr0 : X[0]? = some row0) (f : Nat) (hf : f < row0.length) (hu : UsableAt o path f) (θ' : ℚ)
    (hadm : Admissible X (toInt o.minChildWeight) i.samples f θ') :
    xgbGain X g h lam gam i.samples f θ' ≤ xgbErr g h gam m i.samples := by
  obtain ⟨o', d', hb', hd, hin, hsl, he, hne⟩ := newTreeD_sub S _ _ o t hb path i _ _ hsub
  have hi' := hi.inherit hin
  obtain ⟨hsam, _, _, hv, _⟩ := mkInfo_samples hb'
  rw [← idx_eq_trainingRows] at hr
  have hr' := hr.sublist hsl
  obtain ⟨hrange, _⟩ := nodeValue64 (o := o'.fill (rows64 X)) hi'.xgb hi'.grad hi'.hess hv
  rcases leafNode hb' with h0 | ⟨row0', hr0', hopt⟩
  · omega
  have hlen := row0_length64 hr0 hr0'
  have hz : (score0 o'.xgb : F64) = .fin 0 := by
    rw [hi'.xgb]; simp only [score0, if_true]; exact zero64
  rw [hz] at hopt
  rw [hsam, ← hin.mcw] at hadm
  have := node_opt_xgb64 hi' hr' hrange (hopt f (by omega) (usable_allowed hu he hne)) θ' hadm
  rw [← hsam] at this
  linarith

/-! ### C94 -/

/-- **C94, regular trees.** In binary64 the value of every node is the mean of the targets of its samples up to `2⁻⁵¹ Σ|y| + 2⁻¹⁰⁷⁵`. -/
theorem C94_mean (S : GoSort) (X : List (List ℚ)) (o : TreeOptions F64) (t : Tree F64) (y : List ℚ)
    (hX : Apart64 (rows64 X : List (List F64))) (hb : newTree S (rows64 X) o = .ok t) (hi : RegInput o y)
    (hr : RegRange y (trainingRows (rows64 X) o)) (hne : trainingRows (rows64 X) o ≠ [])
    (path : List Bool) (i : NodeInfo F64) (l r : Tree F64) (hsub : t.sub path = .node i l r) :
    i.samples ≠ [] ∧ ∃ v, i.value = .fin v ∧ |v - mean y i.samples| ≤ 2 ^ (-51 : Int) * sumAbs y i.samples + 2 ^ (-1075 : Int) := by
  obtain ⟨o', d', hb', _, hin, hsl, he, _⟩ := newTreeD_sub S _ _ o t hb path i l r hsub
  obtain ⟨hsam, _, _, hv, _⟩ := mkInfo_samples hb'
  have hi' := hi.inherit hin
  have hs : i.samples ≠ [] := by
    by_cases hp : path = []
    · rw [hsam, he hp, idx_eq_trainingRows]; exact hne
    · have := (C06_binary64_partial S (rows64 X) o t hb hX path hp i l r hsub).1
      intro h0; rw [h0] at this; simp at this
  refine ⟨hs, ?_⟩
  rw [← idx_eq_trainingRows] at hr
  have hr' := hr.sublist hsl
  rw [hsam] at hs ⊢
  unfold nodeValue at hv
  have hxf : (o'.fill (rows64 X)).xgb = false := hi'.xgb
  have hyf : (o'.fill (rows64 X)).y = y.map XF.fin := hi'.targets
  rw [hxf, if_neg (by simp), hyf] at hv
  obtain ⟨ys, h1, hv⟩ := bind_ok hv
  have hys := sampleSlice64 h1
  have hlen : ys.length = (o'.idx (rows64 X)).length := by rw [hys]; simp
  have hval := (Except.ok.inj hv).symm
  obtain ⟨T, eT, rT, hT⟩ := total64 (List.Perm.refl ((o'.idx (rows64 X)).map fun i => y.getD i 0)) hr'.rep hr'.count (small_big hr'.size)
  rw [hlen, hys, eT] at hval
  generalize o'.idx (rows64 X) = idx at *
  have hn1 : 1 ≤ idx.length := List.length_pos_iff.2 hs
  have hnq : (1 : ℚ) ≤ idx.length := by exact_mod_cast hn1
  have hn0 : (0 : ℚ) < idx.length := by linarith
  have hu := u64_pos
  have hu1 := u64_le
  have hA0 := sumAbs_nonneg y idx
  have huA : 0 ≤ u64 * sumAbs y idx := by positivity
  have hof : (ofInt (idx.length : Int) : F64) = .fin (idx.length : ℚ) := by
    have := ofInt64 (τ := τ) (n := (idx.length : Int)) (by
      rw [abs_of_nonneg (by omega)]
      have := nat53 hr'.count
      exact_mod_cast this)
    simpa using this
  rw [hof] at hval
  have hnuA : 2 * idx.length * u64 * sumAbs y idx ≤ 1 / 2 * sumAbs y idx := by
    have := mul_le_mul_of_nonneg_right (count_u hr'.count) hA0
    linarith
  have hTb : |T| ≤ 3 / 2 * sumAbs y idx := by
    have := abs_le_of_near hT (abs_sumOver_le y idx)
    linarith
  have hTn : |T / idx.length| ≤ 3 / 2 * sumAbs y idx := by
    rw [abs_div, abs_of_pos hn0, div_le_iff₀ hn0]
    have := mul_le_mul_of_nonneg_left hnq (by linarith : 0 ≤ 3 / 2 * sumAbs y idx)
    linarith
  rw [div64 hn0.ne' (hTn.trans (by have := small_big hr'.size; linarith))] at hval
  refine ⟨_, hval, ?_⟩
  have e : rv (T / idx.length) - mean y idx = (rv (T / idx.length) - T / idx.length) + (T - sumOver y idx) / idx.length := by
    unfold mean; ring
  rw [e]
  refine (abs_add_le _ _).trans ?_
  have h3 := rv_err (T / idx.length)
  have h4 := mul_le_mul_of_nonneg_left hTn hu.le
  have h5 : |(T - sumOver y idx) / idx.length| ≤ 2 * (u64 * sumAbs y idx) := by
    rw [abs_div, abs_of_pos hn0, div_le_iff₀ hn0]
    linarith
  have c1 : (2 : ℚ) ^ (-51 : Int) = 4 * u64 := by rw [u64_def]; norm_num
  rw [c1, ← eta64_def]
  linarith

/-- **C94, xgboost.** In binary64 the value of every node is `-G/(H+Lambda)` up to `2⁻⁴⁹ n (1 + H/m) (Σ|g|)/m + 2⁻¹⁰⁷⁵`. -/
theorem C94_weight (S : GoSort) (X : List (List ℚ)) (o : TreeOptions F64) (t : Tree F64) (g h : List ℚ) (lam gam m : ℚ)
    (hX : Apart64 (rows64 X : List (List F64))) (hb : newTree S (rows64 X) o = .ok t) (hi : XgbInput o g h lam gam)
    (hr : XgbRange g h lam gam m (trainingRows (rows64 X) o)) (hne : trainingRows (rows64 X) o ≠ [])
    (path : List Bool) (i : NodeInfo F64) (l r : Tree F64) (hsub : t.sub path = .node i l r) :
    ∃ v, i.value = .fin v ∧ |v - -sumOver g i.samples / (sumOver h i.samples + lam)| ≤
      2 ^ (-49 : Int) * i.samples.length * (1 + sumOver h i.samples / m) * (sumAbs g i.samples / m) + 2 ^ (-1075 : Int) := by
  obtain ⟨o', d', hb', _, hin, hsl, he, _⟩ := newTreeD_sub S _ _ o t hb path i l r hsub
  obtain ⟨hsam, _, _, hv, _⟩ := mkInfo_samples hb'
  have hi' := hi.inherit hin
  have hs : i.samples ≠ [] := by
    by_cases hp : path = []
    · rw [hsam, he hp, idx_eq_trainingRows]; exact hne
    · have := (C06_binary64_partial S (rows64 X) o t hb hX path hp i l r hsub).1
      intro h0; rw [h0] at this; simp at this
  rw [← idx_eq_trainingRows] at hr
  have hr' := hr.sublist hsl
  obtain ⟨hrange, hval⟩ := nodeValue64 (o := o'.fill (rows64 X)) hi'.xgb hi'.grad hi'.hess hv
  have hlam : (o'.fill (rows64 X)).lambda = .fin lam := hi'.lambda
  rw [hlam] at hval
  rw [hsam] at hs ⊢
  generalize o'.idx (rows64 X) = idx at *
  obtain ⟨o1, o2, o3, o4, o5, o6⟩ := hr'.room
  have hm := hr'.mpos
  have habs := sumAbs_eq_sumOver hr'.nonneg idx
  obtain ⟨G, eG, rG, hG⟩ := total64 (List.Perm.refl (idx.map fun i => g.getD i 0)) hr'.repG hr'.count o5
  obtain ⟨H, eH, rH, hH⟩ := total64 (List.Perm.refl (idx.map fun i => h.getD i 0)) hr'.repH hr'.count (by rw [habs]; exact o3)
  rw [habs] at hH
  rw [eG, eH] at hval
  have hA0 := sumAbs_nonneg g idx
  have hH0 := sumOver_nonneg hr'.nonneg idx
  have hu := u64_pos
  have hu1 := u64_le
  have hn1 : (1 : ℚ) ≤ idx.length := by
    have : 1 ≤ idx.length := List.length_pos_iff.2 hs
    exact_mod_cast this
  have huA : 0 ≤ idx.length * u64 * sumAbs g idx := by positivity
  have huH : 0 ≤ idx.length * u64 * sumOver h idx := by positivity
  have hδh : 4 * (idx.length : ℚ) * u64 * sumOver h idx ≤ sumOver h idx := by
    have := mul_le_mul_of_nonneg_right (count_u hr'.count) hH0
    linarith
  have hDm := den_floor hr'.nonneg hr'.floor hs hrange
  have eρ : 2 * (2 * (idx.length : ℚ) * u64 * sumOver h idx) / m = 4 * (idx.length : ℚ) * u64 * sumOver h idx / m := by ring
  have hρ2 : 4 * (idx.length : ℚ) * u64 * sumOver h idx / m ≤ 8 * (idx.length : ℚ) * u64 * sumOver h idx / m := by
    apply div_le_div_of_nonneg_right _ hm.le
    linarith
  have hρ : 4 * (idx.length : ℚ) * u64 * sumOver h idx / m + u64 ≤ 1 / 2 := by linarith
  obtain ⟨d, ed, rd, nd, pd⟩ := den64 (lam := lam) (m := m) rH (rep64_rv hr'.repL).1 hH hm hDm (by linarith) (by rw [eρ]; exact hρ)
  rw [eρ] at nd
  rw [ed] at hval
  have hm1 : (ofInt (-1) : F64) = .fin (-1) := by
    have := ofInt64 (τ := τ) (n := -1) (by norm_num)
    simpa using this
  have hGb : |G| ≤ 3 / 2 * sumAbs g idx := by
    have := abs_le_of_near hG (abs_sumOver_le g idx)
    have h1 := mul_le_mul_of_nonneg_right (count_u hr'.count) hA0
    linarith
  rw [hm1, mul64 (by rw [neg_one_mul, abs_neg]; linarith), neg_one_mul, rv_neg, rG] at hval
  obtain ⟨D, hD⟩ : ∃ D, D = sumOver h idx + lam := ⟨_, rfl⟩
  obtain ⟨ρ, hρe⟩ : ∃ ρ, ρ = 4 * (idx.length : ℚ) * u64 * sumOver h idx / m + u64 := ⟨_, rfl⟩
  rw [← hD] at hDm nd ⊢
  rw [← hρe] at hρ nd
  have hρ0 : 0 ≤ ρ := by rw [hρe]; positivity
  have hD0 : 0 < D := by linarith
  have hd2 : D / 2 ≤ d := by
    have h5 : ρ * D ≤ 1 / 2 * D := mul_le_mul_of_nonneg_right hρ hD0.le
    have := (abs_le.1 (nd.trans h5)).1
    linarith
  have hdiv : ∀ x : ℚ, |x / d| ≤ 2 * (|x| / m) := by
    intro x
    rw [abs_div, abs_of_pos pd, ← mul_div_assoc, div_le_div_iff₀ pd hm]
    have := mul_le_mul_of_nonneg_left (by linarith : m ≤ 2 * d) (abs_nonneg x)
    linarith
  obtain ⟨W, hW⟩ : ∃ W, W = sumAbs g idx / m := ⟨_, rfl⟩
  have hW0 : 0 ≤ W := by rw [hW]; positivity
  have hgd : |-G / d| ≤ 3 * W := by
    refine (hdiv _).trans ?_
    rw [abs_neg]
    have := div_le_div_of_nonneg_right hGb hm.le
    rw [mul_div_assoc, ← hW] at this
    linarith
  have hWbig : 3 * W ≤ big64 := by
    have hQ : W ≤ (sumAbs g idx ^ 2 + 1) / m := by
      rw [hW]
      apply div_le_div_of_nonneg_right _ hm.le
      nlinarith [hA0]
    have hinv : 1 / m ≤ 2 ^ (200 : Int) := by
      rw [div_le_iff₀ hm]
      have := mul_le_mul_of_nonneg_left hr'.mlow (two_zpow_pos 200).le
      rw [← zpow_add₀ (by norm_num)] at this
      simpa using this
    have h200 : (3 : ℚ) * 2 ^ (200 : Int) ≤ 1 / 3 * big64 := by
      have e : big64 = 2 ^ (23 : Int) * (2 ^ (800 : Int) * 2 ^ (200 : Int)) := by
        rw [big64_def, ← zpow_add₀ (by norm_num), ← zpow_add₀ (by norm_num)]
        norm_num
      have h1 : (1 : ℚ) ≤ 2 ^ (800 : Int) := one_le_zpow₀ (by norm_num) (by norm_num)
      have h2 : (0 : ℚ) < 2 ^ (200 : Int) := two_zpow_pos _
      have h3 : (2 : ℚ) ^ (23 : Int) = 8388608 := by norm_num
      rw [e, h3]
      generalize (2 : ℚ) ^ (800 : Int) = P at *
      generalize (2 : ℚ) ^ (200 : Int) = P' at *
      have := mul_le_mul_of_nonneg_right h1 h2.le
      linarith
    have hγ := abs_nonneg gam
    have hz : 0 ≤ eta64 / m := by have := eta64_pos; positivity
    have e : (sumAbs g idx ^ 2 + 1) / m = sumAbs g idx ^ 2 / m + 1 / m := by ring
    rw [e] at hQ
    generalize (2 : ℚ) ^ (200 : Int) = P' at *
    linarith
  rw [div64 pd.ne' (hgd.trans hWbig)] at hval
  refine ⟨_, hval, ?_⟩
  have hT1 : |(-(G - sumOver g idx)) / d| ≤ 4 * (idx.length * u64 * W) := by
    refine (hdiv _).trans ?_
    rw [abs_neg]
    have := div_le_div_of_nonneg_right hG hm.le
    have e : 2 * (idx.length : ℚ) * u64 * sumAbs g idx / m = 2 * (idx.length * u64 * W) := by rw [hW]; ring
    rw [e] at this
    linarith
  have hT2 : |sumOver g idx * (d - D) / (d * D)| ≤ 2 * (ρ * W) := by
    rw [abs_div, abs_mul, abs_of_pos (mul_pos pd hD0), div_le_iff₀ (mul_pos pd hD0)]
    have i1 : |sumOver g idx| * |d - D| ≤ sumAbs g idx * (ρ * D) := mul_le_mul (abs_sumOver_le g idx) nd (abs_nonneg _) hA0
    have i3 : 1 ≤ 2 * d / m := by rw [le_div_iff₀ hm]; linarith
    have i4 := mul_le_mul_of_nonneg_left i3 (by positivity : 0 ≤ sumAbs g idx * (ρ * D))
    have e : sumAbs g idx * (ρ * D) * (2 * d / m) = 2 * (ρ * W) * (d * D) := by rw [hW]; ring
    linarith
  have e : rv (-G / d) - -sumOver g idx / D = (rv (-G / d) - -G / d) + (-(G - sumOver g idx)) / d + sumOver g idx * (d - D) / (d * D) := by
    field_simp
    ring
  rw [e]
  refine (abs_add_le _ _).trans ?_
  have p1 := abs_add_le (rv (-G / d) - -G / d) ((-(G - sumOver g idx)) / d)
  have p2 := rv_err (-G / d)
  have p3 := mul_le_mul_of_nonneg_left hgd hu.le
  have c1 : (2 : ℚ) ^ (-49 : Int) = 16 * u64 := by rw [u64_def]; norm_num
  rw [c1, ← eta64_def, ← hW]
  obtain ⟨κ, hκ⟩ : ∃ κ, κ = sumOver h idx / m := ⟨_, rfl⟩
  have hκ0 : 0 ≤ κ := by rw [hκ]; positivity
  have f1 : ρ * W = 4 * (idx.length * u64 * (κ * W)) + u64 * W := by rw [hρe, hκ]; ring
  have f2 : 16 * u64 * (idx.length : ℚ) * (1 + sumOver h idx / m) * W = 16 * (idx.length * u64 * W) + 16 * (idx.length * u64 * (κ * W)) := by
    rw [hκ]; ring
  have f3 : u64 * W ≤ idx.length * u64 * W := by
    have := mul_le_mul_of_nonneg_right hn1 (by positivity : 0 ≤ u64 * W)
    linarith
  have f4 : 0 ≤ idx.length * u64 * (κ * W) := by positivity
  have f5 : 0 ≤ idx.length * u64 * W := by positivity
  rw [f2]
  rw [f1] at hT2
  linarith

end AnyOrder

/-! ### The bounds cannot be dropped -/

def lossX : List (List ℚ) := [[0], [1], [2], [3]]
def lossO : TreeOptions F64 :=
  { (defaultGTreeOptions : TreeOptions F64) with
    y := [1, 2 ^ 53, 2 ^ 53, 0].map XF.fin, maxDepth := 1, minChildWeight := .fin 1 }

/-- In binary64 the split chosen need not be the exact optimum: with targets `1, 2⁵³, 2⁵³, 0` there is an admissible split with a
strictly smaller exact score. -/
theorem C93_exact_violated : ∃ i l r θ θ', newTree GoSort.ins (rows64 lossX) lossO = .ok (.node i l r) ∧ i.threshold = .fin θ ∧
    Admissible lossX 1 i.samples 0 θ' ∧
    regGain lossX [1, 2 ^ 53, 2 ^ 53, 0] i.samples 0 θ' < regGain lossX [1, 2 ^ 53, 2 ^ 53, 0] i.samples i.splitFeatureIndex θ := by
  have key : (match newTree GoSort.ins (rows64 lossX) lossO with
      | .ok (.node i _ _) => i.samples == [0, 1, 2, 3] && i.splitFeatureIndex == 0 && i.threshold == .fin (1 / 2)
      | _ => false) = true := by decide +kernel
  generalize hq : newTree GoSort.ins (rows64 lossX) lossO = q at key
  match q, key with
  | .ok (.node i l r), key =>
    simp only [Bool.and_eq_true, beq_iff_eq] at key
    obtain ⟨⟨k1, k2⟩, k3⟩ := key
    refine ⟨i, l, r, 1 / 2, 5 / 2, rfl, k3, ?_, ?_⟩
    · rw [k1]; unfold Admissible; decide +kernel
    · rw [k1, k2]; decide +kernel

/-- the float64 next to 0.1 -/
def tenth64 : ℚ := 3602879701896397 / 36028797018963968

def tenthO : TreeOptions F64 :=
  { (defaultGTreeOptions : TreeOptions F64) with
    y := [tenth64, tenth64, tenth64].map XF.fin, maxDepth := 1, minChildWeight := .fin 1 }

/-- In binary64 the value of a node need not lie between its targets: three targets 0.1 have the mean 0.10000000000000002. -/
theorem C94_exact_violated : ∃ t v, newTree GoSort.ins (rows64 [[1], [1], [1]]) tenthO = .ok t ∧
    t.predictSingle [.fin 1] = .ok (.fin v) ∧ ∀ c ∈ [tenth64, tenth64, tenth64], c < v := by
  have key : (match newTree GoSort.ins (rows64 [[1], [1], [1]]) tenthO with
      | .ok t => t.predictSingle [.fin 1] == .ok (.fin (7205759403792795 / 72057594037927936))
      | _ => false) = true := by decide +kernel
  generalize hq : newTree GoSort.ins (rows64 [[1], [1], [1]]) tenthO = q at key
  match q, key with
  | .ok t, key =>
    simp only [beq_iff_eq] at key
    exact ⟨t, _, rfl, key, by decide +kernel⟩

/-! ### The hypotheses are met -/

def nearX : List (List ℚ) := [[1 / 2 ^ 1060], [-5], [3 * 2 ^ 700], [1 / 2 ^ 1062]]
theorem nearX_apart : Apart64 (rows64 nearX : List (List F64)) := apartX_apart

def nearO : TreeOptions F64 :=
  { (defaultGTreeOptions : TreeOptions F64) with
    y := [tenth64, 1, 3, -7].map XF.fin, maxDepth := 2, minChildWeight := .fin 1 }
def nearOX : TreeOptions F64 :=
  { (defaultXTreeOptions : TreeOptions F64) with
    gradients := some ([tenth64, 1, 3, -7].map XF.fin), hessian := some ([1, tenth64, 1 / 4, 0].map XF.fin),
    lambda := .fin 1, gamma := .fin tenth64, maxDepth := 2, minChildWeight := .fin 1 }

def builtSize64 (t : Go (Tree F64)) (n : Nat) : Bool :=
  match t with
  | .ok t => t.size == n
  | .error _ => false

example : RegInput nearO [tenth64, 1, 3, -7] := ⟨rfl, rfl⟩
example : RegRange [tenth64, 1, 3, -7] (trainingRows (rows64 nearX) nearO) :=
  ⟨by unfold Rep64; decide +kernel, by decide +kernel, by decide +kernel⟩
example : XgbInput nearOX [tenth64, 1, 3, -7] [1, tenth64, 1 / 4, 0] 1 tenth64 := ⟨rfl, rfl, rfl, rfl, rfl⟩
example : XgbRange [tenth64, 1, 3, -7] [1, tenth64, 1 / 4, 0] 1 tenth64 1 (trainingRows (rows64 nearX) nearOX) :=
  ⟨by unfold Rep64; decide +kernel, by unfold Rep64; decide +kernel, by unfold Rep64; decide +kernel, by decide +kernel, by decide +kernel,
   by decide +kernel, by decide +kernel, by decide +kernel, by decide +kernel, by decide +kernel, by decide +kernel, by decide +kernel⟩
example : builtSize64 (newTree GoSort.ins (rows64 nearX) nearO) 7 = true := by decide +kernel
example : builtSize64 (newTree GoSort.ins (rows64 nearX) nearOX) 7 = true := by decide +kernel
/-- the bounds are small compared with the scores: about `4·10⁻¹²` against `-21` -/
example : regErr [tenth64, 1, 3, -7] [0, 1, 2, 3] < 1 / 10 ^ 11 ∧ regGain nearX [tenth64, 1, 3, -7] [0, 1, 2, 3] 0 1 < -10 := by
  decide +kernel

end Boo
