import Verif.Lemmas.ExactScan

namespace Boo
open GoFloat Spec
set_option linter.unusedSectionVars false
variable {K : Type} [Field K] [LinearOrder K] [IsStrictOrderedRing K] [FloorRing K]

theorem sumOver_nonneg {h : List K} (hp : ∀ v ∈ h, 0 ≤ v) (idx : List Nat) : 0 ≤ sumOver h idx := by
  apply List.sum_nonneg
  intro x hx
  obtain ⟨i, _, rfl⟩ := List.mem_map.1 hx
  rw [List.getD_eq_getElem?_getD]
  cases hq : h[i]? with
  | none => simp
  | some v => exact hp v (List.mem_of_getElem? hq)

/-- the hessian hypothesis of the xgboost theorems -/
def HessOk (h : List K) (lam : K) : Prop := ∀ v ∈ h, 0 ≤ v ∧ 0 < v + lam

theorem den_pos {h : List K} {lam : K} (hp : HessOk h lam) {idx : List Nat} (hne : idx ≠ [])
    (hr : ∀ i ∈ idx, i < h.length) : 0 < sumOver h idx + lam := by
  obtain ⟨i, is, rfl⟩ := List.exists_cons_of_ne_nil hne
  have hi := hr i (by simp)
  have h1 : h.getD i 0 = h[i] := by simp [hi]
  have h2 := (hp _ (List.getElem_mem hi)).2
  have h3 := sumOver_nonneg (fun v hv => (hp v hv).1) is
  unfold sumOver at *
  rw [List.map_cons, List.sum_cons, h1]
  linarith

theorem leftOf_sub {X : List (List K)} {idx : List Nat} {f : Nat} {θ : K} : ∀ i ∈ leftOf X idx f θ, i ∈ idx :=
  fun _ h => (List.mem_filter.1 h).1
theorem rightOf_sub {X : List (List K)} {idx : List Nat} {f : Nat} {θ : K} : ∀ i ∈ rightOf X idx f θ, i ∈ idx :=
  fun _ h => (List.mem_filter.1 h).1

theorem adm_ne {X : List (List K)} {mcw : Int} {idx : List Nat} {f : Nat} {θ : K}
    (h : Admissible X mcw idx f θ) : leftOf X idx f θ ≠ [] ∧ rightOf X idx f θ ≠ [] ∧ idx ≠ [] := by
  have h1 := h.1
  have h2 := h.2
  have h3 := left_right_length X idx f θ
  have h5 := le_max_left 1 mcw
  refine ⟨?_, ?_, ?_⟩ <;>
  · intro h0
    have h4 := congrArg List.length h0
    simp only [List.length_nil] at h4
    omega

theorem candGain_xgb {S : GoSort} {X : List (List K)} {idx : List Nat} {f : Nat}
    {g h : List K} {rk : List (K × K × K)} {p : ScanParams (Exact K)} {lam gam : K}
    (hs : ScanK S X p.mcw idx f (fun i => g.getD i 0) (fun i => h.getD i 0) rk)
    (hx : p.xgb = true) (hl : p.lambda = .fin lam) (hγ : p.gamma = .fin gam)
    (hA : p.sumA = .fin (sumOver g idx)) (hB : p.sumB = .fin (sumOver h idx))
    (hp : HessOk h lam) (hr : ∀ i ∈ idx, i < h.length) (θ : K) (hadm : Admissible X p.mcw idx f θ) :
    candGain p (rk.map fin3) 0 idx.length zero (.fin (sumOver g idx)) zero (.fin (sumOver h idx))
      (leftOf X idx f θ).length = .fin (xgbGain X g h lam gam idx f θ) := by
  have h0 : ((0 : ℚ) : K) = 0 := by norm_num
  have h2 : ((2 : ℚ) : K) = 2 := by norm_num
  have h12 : (((1 / 2 : ℚ)) : K) = 1 / 2 := by norm_num
  obtain ⟨nL, nR, nI⟩ := adm_ne hadm
  have dI := den_pos hp nI hr
  have dL := den_pos hp nL fun i hi => hr i (leftOf_sub i hi)
  have dR := den_pos hp nR fun i hi => hr i (rightOf_sub i hi)
  rw [Exact.zero_fin, candGain_exact hs θ]
  have eL : ((leftOf X idx f θ).map fun i => g.getD i 0).sum = sumOver g (leftOf X idx f θ) := rfl
  have eH : ((leftOf X idx f θ).map fun i => h.getD i 0).sum = sumOver h (leftOf X idx f θ) := rfl
  have eR := left_right_sum X g idx f θ
  have eHR := left_right_sum X h idx f θ
  rw [eL, eH, h0, zero_add, zero_add, ← eR, ← eHR, add_sub_cancel_left, add_sub_cancel_left]
  unfold ScanParams.gain
  rw [hx, if_pos rfl, hl, hγ, hA, hB]
  unfold gainX sq
  simp only [Exact.add_fin, Exact.mul_fin, Exact.ofRat_fin, h2, h12]
  rw [Exact.div_fin _ _ dL.ne', Exact.div_fin _ _ dR.ne', Exact.div_fin _ _ dI.ne',
    Exact.div_fin _ _ (by norm_num)]
  simp only [Exact.add_fin, Exact.sub_fin, Exact.mul_fin]
  congr 1
  unfold xgbGain quality
  ring

theorem candGain_reg {S : GoSort} {X : List (List K)} {idx : List Nat} {f : Nat}
    {y : List K} {rk : List (K × K × K)} {p : ScanParams (Exact K)}
    (hs : ScanK S X p.mcw idx f (fun i => y.getD i 0) (fun i => y.getD i 0) rk)
    (hx : p.xgb = false) (hA : p.sumA = .fin (sumOver y idx)) (hn : p.n = idx.length)
    (θ : K) (hadm : Admissible X p.mcw idx f θ) :
    candGain p (rk.map fin3) 0 idx.length zero (.fin (sumOver y idx)) zero zero
      (leftOf X idx f θ).length = .fin (regGain X y idx f θ) := by
  have h0 : ((0 : ℚ) : K) = 0 := by norm_num
  obtain ⟨nL, nR, nI⟩ := adm_ne hadm
  have dI : (((idx.length : Int) : ℚ) : K) = (idx.length : K) := by push_cast; rfl
  have dL : ((((leftOf X idx f θ).length : Int) : ℚ) : K) = ((leftOf X idx f θ).length : K) := by push_cast; rfl
  have hlr := left_right_length X idx f θ
  have dR : (((((idx.length : Int) - ((leftOf X idx f θ).length : Int)) : Int) : ℚ) : K) = ((rightOf X idx f θ).length : K) := by
    have : ((idx.length : Int) - ((leftOf X idx f θ).length : Int)) = ((rightOf X idx f θ).length : Int) := by omega
    rw [this]; push_cast; rfl
  have pos : ∀ l : List Nat, l ≠ [] → ((l.length : K)) ≠ 0 := by
    intro l hl
    have : 0 < l.length := List.length_pos_iff.2 hl
    exact_mod_cast this.ne'
  rw [Exact.zero_fin, candGain_exact hs θ]
  have eL : ((leftOf X idx f θ).map fun i => y.getD i 0).sum = sumOver y (leftOf X idx f θ) := rfl
  have eR := left_right_sum X y idx f θ
  rw [eL, h0, zero_add, ← eR, add_sub_cancel_left]
  unfold ScanParams.gain
  rw [hx, if_neg (by simp), hA, hn]
  unfold gainG sq
  simp only [Exact.mul_fin, Exact.ofInt_fin, dI, dL, dR]
  rw [Exact.div_fin _ _ (pos _ nL), Exact.div_fin _ _ (pos _ nR), Exact.div_fin _ _ (pos _ nI)]
  simp only [Exact.add_fin, Exact.sub_fin]
  congr 1
  unfold regGain
  have e1 : (((-1 : Int) : ℚ) : K) = -1 := by norm_num
  rw [e1, ← eR]
  ring

/-- the split of data on both sides, computed and specified -/
theorem goLeft_exact {X : List (List K)} {idx : List Nat} {f : Nat} {col : List (Exact K)} {θ : K}
    {thr : Exact K} (ht : thr = .fin θ) (h : sampleCol (finRows X) idx f = .ok col) :
    goLeft thr col idx = leftOf X idx f θ := by
  subst ht
  rw [sampleCol_fin h]
  unfold goLeft leftOf
  clear h
  induction idx with
  | nil => rfl
  | cons a idx ih =>
    simp only [List.map_cons, List.zip_cons_cons, List.filter_cons, XF.fin_le]
    by_cases hq : val X a f ≤ θ <;> simp [hq, ih]

theorem goRight_exact {X : List (List K)} {idx : List Nat} {f : Nat} {col : List (Exact K)} {θ : K}
    {thr : Exact K} (ht : thr = .fin θ) (h : sampleCol (finRows X) idx f = .ok col) :
    goRight thr col idx = rightOf X idx f θ := by
  subst ht
  rw [sampleCol_fin h]
  unfold goRight rightOf
  clear h
  induction idx with
  | nil => rfl
  | cons a idx ih =>
    simp only [List.map_cons, List.zip_cons_cons, List.filter_cons, XF.fin_le]
    by_cases hq : val X a f ≤ θ
    · simp [hq, ih]
    · simp [hq, ih, not_le.1 hq]

theorem nodeValue_xgb {o : TreeOptions (Exact K)} {idx : List Nat} {v : Exact K} (hx : o.xgb = true)
    {g h : List K} (hg : o.gradients = some (g.map XF.fin)) (hh : o.hessian = some (h.map XF.fin))
    (hv : nodeValue o idx = .ok v) :
    (∀ i ∈ idx, i < g.length) ∧ (∀ i ∈ idx, i < h.length) ∧
    v = (.fin (-sumOver g idx)) /. (.fin (sumOver h idx) +. o.lambda) := by
  unfold nodeValue at hv
  rw [hx, if_pos rfl, hg, hh] at hv
  simp only [Option.getD_some, bind, Except.bind, pure, Except.pure] at hv
  cases h1 : sampleSlice (g.map (XF.fin : K → Exact K)) idx with
  | error e => rw [h1] at hv; cases hv
  | ok gs =>
    rw [h1] at hv
    simp only at hv
    cases h2 : sampleSlice (h.map (XF.fin : K → Exact K)) idx with
    | error e => rw [h2] at hv; cases hv
    | ok hs =>
      rw [h2] at hv
      simp only [Except.ok.injEq] at hv
      have range : ∀ (w : List K) (l : List (Exact K)), sampleSlice (w.map XF.fin) idx = .ok l → ∀ i ∈ idx, i < w.length := by
        intro w l hw i hi
        have h3 := (sampleSlice_ok.1 hw).2
        clear hw h1 h2 hv hg hh
        induction h3 with
        | nil => simp at hi
        | cons h4 h5 ih =>
          rcases List.mem_cons.1 hi with rfl | hi
          · rw [List.getElem?_map] at h4
            by_contra hc
            rw [List.getElem?_eq_none (by omega)] at h4; cases h4
          · exact ih hi
      refine ⟨range g gs h1, range h hs h2, ?_⟩
      rw [← hv, sampleSlice_fin h1, sampleSlice_fin h2, sum_fin_map, sum_fin_map]
      have e1 : (((-1 : Int) : ℚ) : K) = -1 := by norm_num
      simp only [Exact.ofInt_fin, Exact.mul_fin, e1, neg_one_mul]
      rfl

theorem nodeValue_reg {o : TreeOptions (Exact K)} {idx : List Nat} {v : Exact K} (hx : o.xgb = false)
    {y : List K} (hy : o.y = y.map XF.fin) (hv : nodeValue o idx = .ok v) (hne : idx ≠ []) :
    (∀ i ∈ idx, i < y.length) ∧ v = .fin (mean y idx) := by
  unfold nodeValue at hv
  rw [hx, if_neg (by simp), hy] at hv
  simp only [bind, Except.bind, pure, Except.pure] at hv
  cases h1 : sampleSlice (y.map (XF.fin : K → Exact K)) idx with
  | error e => rw [h1] at hv; cases hv
  | ok ys =>
    rw [h1] at hv
    simp only [Except.ok.injEq] at hv
    have hys := sampleSlice_fin h1
    have hlen : ys.length = idx.length := by rw [hys]; simp
    refine ⟨?_, ?_⟩
    · intro i hi
      have h3 := (sampleSlice_ok.1 h1).2
      clear h1 hv hys hlen hne
      induction h3 with
      | nil => simp at hi
      | cons h4 h5 ih =>
        rcases List.mem_cons.1 hi with rfl | hi
        · rw [List.getElem?_map] at h4
          by_contra hc
          rw [List.getElem?_eq_none (by omega)] at h4; cases h4
        · exact ih hi
    · have dI : (((idx.length : Int) : ℚ) : K) = (idx.length : K) := by push_cast; rfl
      have hpos : ((idx.length : K)) ≠ 0 := by
        have : 0 < idx.length := List.length_pos_iff.2 hne
        exact_mod_cast this.ne'
      rw [← hv, hlen, hys, sum_fin_map, Exact.ofInt_fin, dI, Exact.div_fin _ _ hpos]
      rfl

end Boo
