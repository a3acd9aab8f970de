import Verif.Lemmas.RealTrain
import Mathlib.Analysis.SpecialFunctions.Log.Deriv
import Mathlib.Analysis.Calculus.Deriv.MeanValue

/-!
# The logarithmic loss decreases
-/

namespace Boo
open GoFloat Spec
set_option linter.unusedSectionVars false

/-! ### the loss of one row when one score changes -/

/-- Hoeffding's inequality for one biased coin -/
theorem log_mix_le {p : ℝ} (h0 : 0 < p) (h1 : p ≤ 1) (d : ℝ) :
    Real.log (1 - p + p * Real.exp d) ≤ p * d + d ^ 2 / 8 := by
  have hpos : ∀ x : ℝ, 0 < 1 - p + p * Real.exp x := fun x => by
    have := mul_pos h0 (Real.exp_pos x)
    linarith
  let q : ℝ → ℝ := fun x => p * Real.exp x / (1 - p + p * Real.exp x)
  have hden : ∀ x, HasDerivAt (fun x => 1 - p + p * Real.exp x) (p * Real.exp x) x := fun x =>
    ((Real.hasDerivAt_exp x).const_mul p).const_add (1 - p)
  have hq : ∀ x, HasDerivAt q (q x * (1 - q x)) x := fun x => by
    have := ((Real.hasDerivAt_exp x).const_mul p).div (hden x) (hpos x).ne'
    refine this.congr_deriv ?_
    simp only [q]
    field_simp [(hpos x).ne']
  let f' : ℝ → ℝ := fun x => p + x / 4 - q x
  have hf' : ∀ x, HasDerivAt f' (1 / 4 - q x * (1 - q x)) x := fun x => by
    have := (((hasDerivAt_id x).div_const 4).const_add p).sub (hq x)
    exact this
  have hmono : Monotone f' := by
    apply monotone_of_deriv_nonneg
    · exact fun x => (hf' x).differentiableAt
    · intro x
      rw [(hf' x).deriv]
      nlinarith [sq_nonneg (q x - 1 / 2)]
  have hf0 : f' 0 = 0 := by
    simp only [f', q, Real.exp_zero]
    ring_nf
  let f : ℝ → ℝ := fun x => p * x + x ^ 2 / 8 - Real.log (1 - p + p * Real.exp x)
  have hf : ∀ x, HasDerivAt f (f' x) x := fun x => by
    have h1 : HasDerivAt (fun x : ℝ => p * x + x ^ 2 / 8) (p + x / 4) x := by
      have := ((hasDerivAt_id x).const_mul p).add (((hasDerivAt_id x).pow 2).div_const 8)
      refine this.congr_deriv ?_
      simp
      ring
    exact h1.sub ((hden x).log (hpos x).ne')
  have hcont : Continuous f := continuous_iff_continuousAt.2 fun x => (hf x).continuousAt
  have hz : f 0 = 0 := by simp [f]
  have key : 0 ≤ f d := by
    rcases le_total 0 d with hd | hd
    · have : MonotoneOn f (Set.Ici 0) := by
        apply monotoneOn_of_deriv_nonneg (convex_Ici 0) hcont.continuousOn
        · exact fun x _ => (hf x).differentiableAt.differentiableWithinAt
        · intro x hx
          rw [interior_Ici] at hx
          rw [(hf x).deriv, ← hf0]
          exact hmono (le_of_lt hx)
      have := this (by simp) hd hd
      rw [hz] at this
      exact this
    · have : AntitoneOn f (Set.Iic 0) := by
        apply antitoneOn_of_deriv_nonpos (convex_Iic 0) hcont.continuousOn
        · exact fun x _ => (hf x).differentiableAt.differentiableWithinAt
        · intro x hx
          rw [interior_Iic] at hx
          rw [(hf x).deriv, ← hf0]
          exact hmono (le_of_lt hx)
      have := this hd (by simp) hd
      rw [hz] at this
      exact this
  simp only [f] at key
  linarith

/-- minus the logarithm of the probability of class `j` -/
noncomputable def rowLoss (r : List ℝ) (j : Nat) : ℝ := -Real.log ((softmaxSpec r).getD j 1)

theorem sum_set_real (l : List ℝ) (k : Nat) (hk : k < l.length) (x : ℝ) : (l.set k x).sum = l.sum - l[k] + x := by
  induction l generalizing k with
  | nil => simp at hk
  | cons a l ih =>
    cases k with
    | zero => simp; ring
    | succ k =>
      simp only [List.set_cons_succ, List.sum_cons, List.getElem_cons_succ]
      rw [ih k (by simpa using hk)]
      ring

theorem softmax_get {r : List ℝ} {j : Nat} (hj : j < r.length) :
    (softmaxSpec r).getD j 1 = Real.exp r[j] / (r.map Real.exp).sum := by
  simp [softmaxSpec, List.getD_eq_getElem?_getD, hj]

theorem rowLoss_eq {r : List ℝ} {j : Nat} (hj : j < r.length) : rowLoss r j = Real.log (r.map Real.exp).sum - r[j] := by
  have hne : r ≠ [] := by rintro rfl; simp at hj
  unfold rowLoss
  rw [softmax_get hj, Real.log_div (Real.exp_pos _).ne' (sum_exp_pos hne).ne', Real.log_exp]
  ring

/-- changing the score of class `k` by `d` -/
theorem rowLoss_step {r : List ℝ} {j k : Nat} (hj : j < r.length) (hk : k < r.length) (d : ℝ) :
    rowLoss (r.set k (r[k] + d)) j ≤
      rowLoss r j + ((softmaxSpec r).getD k 1 - if j = k then 1 else 0) * d + d ^ 2 / 8 := by
  have hne : r ≠ [] := by rintro rfl; simp at hj
  have hs := sum_exp_pos hne
  set s := (r.map Real.exp).sum with hsdef
  have hp : (softmaxSpec r).getD k 1 = Real.exp r[k] / s := softmax_get hk
  have hp0 : 0 < (softmaxSpec r).getD k 1 := by rw [hp]; exact div_pos (Real.exp_pos _) hs
  have hp1 : (softmaxSpec r).getD k 1 ≤ 1 := by
    rw [hp, div_le_one hs]
    exact List.single_le_sum (fun x hx => by
      obtain ⟨y, _, rfl⟩ := List.mem_map.1 hx
      exact (Real.exp_pos y).le) _ (List.mem_map.2 ⟨r[k], List.getElem_mem hk, rfl⟩)
  have hsum : ((r.set k (r[k] + d)).map Real.exp).sum =
      s * (1 - (softmaxSpec r).getD k 1 + (softmaxSpec r).getD k 1 * Real.exp d) := by
    rw [List.map_set, sum_set_real _ _ (by simpa using hk), hp, Real.exp_add]
    simp only [List.getElem_map]
    rw [← hsdef]
    field_simp
  have hpos : 0 < 1 - (softmaxSpec r).getD k 1 + (softmaxSpec r).getD k 1 * Real.exp d := by
    have := mul_pos hp0 (Real.exp_pos d)
    linarith
  rw [rowLoss_eq hj, rowLoss_eq (by simpa using hj), hsum, Real.log_mul hs.ne' hpos.ne']
  have := log_mix_le hp0 hp1 d
  rw [List.getElem_set]
  by_cases h : k = j
  · subst h
    simp only [if_true]
    linarith
  · rw [if_neg h, if_neg (Ne.symm h)]
    linarith

/-! ### one tree -/

theorem sum_le_single {α : Type} (l : List α) (f : α → ℝ) (h : ∀ x ∈ l, f x ≤ 0) : ∀ x ∈ l, (l.map f).sum ≤ f x := by
  induction l with
  | nil => simp
  | cons a l ih =>
    have ih := ih fun x hx => h x (by simp [hx])
    have hl : (l.map f).sum ≤ 0 := by
      have : (l.map f).sum ≤ (l.map fun _ => (0 : ℝ)).sum := List.sum_le_sum fun x hx => h x (by simp [hx])
      simpa using this
    intro x hx
    simp only [List.map_cons, List.sum_cons]
    rcases List.mem_cons.1 hx with rfl | hx
    · linarith
    · have := ih x hx
      have := h a (by simp)
      linarith

/-- Leaf values are sums of residuals divided by a number that is not too small: then the predictions lower the quadratic
bound of the loss, unless all are 0. -/
theorem leaf_gain {S : GoSort} {X : List (List ℝ)} {o : TreeOptions (Exact ℝ)} {t : Tree (Exact ℝ)}
    (hb : newTree S (finRows X) o = .ok t) (hrows : trainingRows (finRows X) o = List.range X.length) (r : List ℝ)
    (D : List Nat → ℝ) (lr : ℝ) (hlr : 0 ≤ lr)
    (hval : ∀ leaf ∈ t.leaves, leaf.value = .fin (sumOver r leaf.samples / D leaf.samples) ∧ 0 < D leaf.samples ∧
      lr * leaf.samples.length < 8 * D leaf.samples)
    (v : Nat → ℝ) (hv : ∀ (i : Nat) row, (finRows X)[i]? = some row → t.predictSingle row = .ok (.fin (v i))) :
    ((List.range X.length).map fun i => -r.getD i 0 * (lr * v i) + (lr * v i) ^ 2 / 8).sum < 0 ∨
      ∀ i < X.length, lr * v i = 0 := by
  have hperm := C03_leaves_partition S (finRows X) o t hb
  rw [hrows] at hperm
  have hvl : ∀ leaf ∈ t.leaves, ∀ i ∈ leaf.samples, v i = sumOver r leaf.samples / D leaf.samples := by
    intro leaf hl i hi
    have hlt : i < X.length := by
      have := hperm.mem_iff.1 (List.mem_flatMap.2 ⟨leaf, hl, hi⟩)
      simpa using this
    have hrow : (finRows X)[i]? = some (X[i].map XF.fin) := by
      unfold finRows
      rw [List.getElem?_map, List.getElem?_eq_getElem hlt]
      rfl
    have h1 := C04_training_row S (finRows X) o t hb leaf hl i hi _ hrow
    rw [hv i _ hrow, (hval leaf hl).1] at h1
    exact fin_inj (Except.ok.inj h1)
  set φ : Nat → ℝ := fun i => -r.getD i 0 * (lr * v i) + (lr * v i) ^ 2 / 8 with hφ
  have hsum : ((List.range X.length).map φ).sum = (t.leaves.map fun leaf => (leaf.samples.map φ).sum).sum := by
    rw [← (hperm.map φ).sum_eq]
    generalize t.leaves = ls
    induction ls with
    | nil => rfl
    | cons a l ih => simp [List.flatMap_cons, ih]
  have hleaf : ∀ leaf ∈ t.leaves, (leaf.samples.map φ).sum ≤ 0 ∧
      ((leaf.samples.map φ).sum = 0 → lr * (sumOver r leaf.samples / D leaf.samples) = 0) := by
    intro leaf hl
    obtain ⟨_, hD, hlt⟩ := hval leaf hl
    have e : (leaf.samples.map φ).sum = -(sumOver r leaf.samples) * (lr * (sumOver r leaf.samples / D leaf.samples)) +
        leaf.samples.length * ((lr * (sumOver r leaf.samples / D leaf.samples)) ^ 2 / 8) := by
      have hc : leaf.samples.map φ = leaf.samples.map fun i =>
          -r.getD i 0 * (lr * (sumOver r leaf.samples / D leaf.samples)) +
            (lr * (sumOver r leaf.samples / D leaf.samples)) ^ 2 / 8 := by
        apply List.map_congr_left
        intro i hi
        simp only [hφ, hvl leaf hl i hi]
      rw [hc]
      generalize lr * (sumOver r leaf.samples / D leaf.samples) = δ
      unfold sumOver
      generalize leaf.samples = ss
      induction ss with
      | nil => simp
      | cons a l ih =>
        simp only [List.map_cons, List.sum_cons, List.length_cons, ih]
        push_cast
        ring
    set R := sumOver r leaf.samples with hR
    set Dl := D leaf.samples with hDl
    have e2 : (leaf.samples.map φ).sum = -(lr * R ^ 2 * (8 * Dl - lr * leaf.samples.length)) / (8 * Dl ^ 2) := by
      rw [e]
      field_simp
      ring
    have hge : 0 ≤ lr * R ^ 2 * (8 * Dl - lr * leaf.samples.length) :=
      mul_nonneg (mul_nonneg hlr (sq_nonneg R)) (by linarith)
    have hD2 : 0 < 8 * Dl ^ 2 := by positivity
    refine ⟨?_, ?_⟩
    · rw [e2]
      exact div_nonpos_of_nonpos_of_nonneg (by linarith) hD2.le
    · intro h0
      rw [e2, div_eq_zero_iff] at h0
      rcases h0 with h0 | h0
      · have h1 : lr * R ^ 2 * (8 * Dl - lr * leaf.samples.length) = 0 := by linarith
        rcases mul_eq_zero.1 h1 with h1 | h1
        · rcases mul_eq_zero.1 h1 with h1 | h1
          · rw [h1, zero_mul]
          · rw [pow_eq_zero_iff (by norm_num)] at h1
            rw [h1, zero_div, mul_zero]
        · linarith
      · linarith
  by_cases hall : ∀ leaf ∈ t.leaves, (leaf.samples.map φ).sum = 0
  · right
    intro i hi
    obtain ⟨leaf, hl, hil⟩ := List.mem_flatMap.1 (hperm.mem_iff.2 (List.mem_range.2 hi))
    rw [hvl leaf hl i hil]
    exact (hleaf leaf hl).2 (hall leaf hl)
  · left
    simp only [not_forall] at hall
    obtain ⟨leaf, hl, hne⟩ := hall
    rw [hsum]
    have := sum_le_single t.leaves (fun leaf => (leaf.samples.map φ).sum) (fun x hx => (hleaf x hx).1) leaf hl
    exact lt_of_le_of_lt this (lt_of_le_of_ne (hleaf leaf hl).1 hne)

theorem updateLeaves_same {F : Type} [GoFloat F] {g h : List F} {t0 t : Tree F} (hu : updateLeaves g h t0 = .ok t)
    (hv : ∀ path i l r, t0.sub path = .node i l r → i.leaf = true → (sumAt g i.samples /. sumAt h i.samples) = i.value) : t = t0 := by
  induction t0 generalizing t with
  | nil =>
    simp only [updateLeaves, Except.ok.injEq] at hu
    exact hu.symm
  | node i l r ihl ihr =>
    obtain ⟨i', l', r', rfl, hl, hr, hi⟩ := updateLeaves_inv hu
    rw [ihl hl fun path => hv (true :: path), ihr hr fun path => hv (false :: path)]
    rcases hi with ⟨h3, sh, sg, h4, h5⟩ | ⟨_, h5⟩
    · obtain ⟨_, q2, q3⟩ := leafSums_eq _ _ _ _ _ _ h4
      have := hv [] i l r rfl h3
      unfold sumAt at this
      simp only at q2 q3
      rw [← q2, ← q3] at this
      rw [h5, this]
    · rw [h5]

/-- When one boosting step with learning rate `lr` and `Lambda = lam` on `n` rows is known to lower the logarithmic loss. -/
def StepOk (O : Options (Exact ℝ)) (lf : LossFunc (Exact ℝ)) (lr lam : ℝ) (n : Nat) : Prop :=
  0 ≤ lr ∧ 0 ≤ lam ∧ ((lf = sqErrLoss ∧ lr < 8) ∨ (O.xgb = true ∧ (lf = sqErrLoss ∨ lf = mseLoss) ∧ lr * n < 8 * lam))

theorem sumOver_ones (p : List ℝ) (s : List Nat) (hs : ∀ w ∈ s, w < p.length) : sumOver (p.map fun _ => (1 : ℝ)) s = s.length := by
  unfold sumOver
  induction s with
  | nil => simp
  | cons a s ih =>
    simp only [List.map_cons, List.sum_cons, List.length_cons, ih fun w hw => hs w (by simp [hw])]
    have : a < p.length := hs a (by simp)
    simp [List.getD_eq_getElem?_getD, this]
    ring

theorem sumOver_neg (g : List ℝ) (s : List Nat) : sumOver (g.map fun x => -x) s = -sumOver g s := by
  unfold sumOver
  induction s with
  | nil => simp
  | cons a s ih =>
    simp only [List.map_cons, List.sum_cons, ih]
    have : (g.map fun x => -x).getD a 0 = -g.getD a 0 := by
      simp only [List.getD_eq_getElem?_getD, List.getElem?_map]
      cases g[a]? <;> simp
    rw [this]
    ring

/-- the tree of a class lowers the quadratic bound of the loss -/
theorem classTree_gain {S : GoSort} {X : List (List ℝ)} {O : Options (Exact ℝ)} {lf : LossFunc (Exact ℝ)} {lr lam gam : ℝ}
    (hlam : O.lambda = .fin lam) (hgam : O.gamma = .fin gam) (hok : StepOk O lf lr lam X.length) (hX : X ≠ []) {cols : List Nat}
    {y p : List ℝ} (hy : y.length = X.length) (hp : p.length = X.length) (hpv : ∀ v ∈ p, 0 < v ∧ v ≤ 1) {t : Tree (Exact ℝ)}
    (h : classTree S (finRows X) O lf none cols (finV y) (finV p) = .ok t)
    (v : Nat → ℝ) (hv : ∀ (i : Nat) row, (finRows X)[i]? = some row → t.predictSingle row = .ok (.fin (v i))) :
    ((List.range X.length).map fun i => -(y.getD i 0 - p.getD i 0) * (lr * v i) + (lr * v i) ^ 2 / 8).sum < 0 ∨
      ∀ i < X.length, lr * v i = 0 := by
  obtain ⟨hlr, hlam0, hcase⟩ := hok
  obtain ⟨hg1, hg2⟩ := grad_fin y p (by omega)
  have hlen : (finRows X).length = X.length := by simp [finRows]
  set g : List ℝ := List.zipWith (fun a b => b - a) y p with hg
  have hneg : List.zipWith (fun a b => a - b) y p = g.map fun x => -x := by
    rw [hg, List.map_zipWith]; congr 1; funext a b; ring
  have hr : ∀ i < X.length, (g.map fun x => -x).getD i 0 = y.getD i 0 - p.getD i 0 := by
    intro i hi
    rw [← hneg]
    simp [List.getD_eq_getElem?_getD, List.getElem?_zipWith, hy, hp, hi]
  have hgrad : lf = sqErrLoss ∨ lf = mseLoss := by
    rcases hcase with ⟨h, _⟩ | ⟨_, h, _⟩
    · exact Or.inl h
    · exact h
  have hgr : lf.gradients (finV y) (finV p) = .ok (finV g) ∧ lf.negGradients (finV y) (finV p) = .ok (finV (g.map fun x => -x)) := by
    rw [← hneg]
    rcases hgrad with rfl | rfl <;> exact ⟨hg1, hg2⟩
  -- a Hessian of non-negative numbers
  obtain ⟨hs, hh, hnn, hone⟩ : ∃ hs : List ℝ, lf.hessian (finV p) = finV hs ∧ (∀ v ∈ hs, 0 ≤ v) ∧
      (lf = sqErrLoss → hs = p.map fun _ => 1) := by
    by_cases hl : lf = sqErrLoss
    · subst hl
      refine ⟨p.map fun _ => 1, by simp [sqErrLoss, finV], ?_, fun _ => rfl⟩
      intro v hv
      obtain ⟨_, _, rfl⟩ := List.mem_map.1 hv
      norm_num
    · have hm : lf = mseLoss := hgrad.resolve_left hl
      subst hm
      refine ⟨p.map fun v => (1 - v) * v, by simp [mseLoss, finV], ?_, fun h => absurd h hl⟩
      intro v hv
      obtain ⟨w, hw, rfl⟩ := List.mem_map.1 hv
      exact mul_nonneg (by linarith [(hpv w hw).2]) (hpv w hw).1.le
  suffices hfin : ∃ (o : TreeOptions (Exact ℝ)) (D : List Nat → ℝ), newTree S (finRows X) o = .ok t ∧
      trainingRows (finRows X) o = List.range X.length ∧
      ∀ leaf ∈ t.leaves, leaf.value = .fin (sumOver (g.map fun x => -x) leaf.samples / D leaf.samples) ∧ 0 < D leaf.samples ∧
        lr * leaf.samples.length < 8 * D leaf.samples by
    obtain ⟨o, D, h1, h2, h3⟩ := hfin
    have := leaf_gain h1 h2 (g.map fun x => -x) D lr hlr h3 v hv
    have e : ((List.range X.length).map fun i => -(y.getD i 0 - p.getD i 0) * (lr * v i) + (lr * v i) ^ 2 / 8) =
        (List.range X.length).map fun i => -(g.map fun x => -x).getD i 0 * (lr * v i) + (lr * v i) ^ 2 / 8 := by
      apply List.map_congr_left
      intro i hi
      rw [hr i (List.mem_range.1 hi)]
    rw [e]
    exact this
  unfold classTree at h
  split at h
  · rename_i hx
    obtain ⟨g', hg', h⟩ := bind_ok h
    rw [hgr.1] at hg'
    cases hg'
    rw [hh] at h
    refine ⟨_, fun s => sumOver hs s + lam, h, by unfold trainingRows; simp [defaultXTreeOptions, hlen], ?_⟩
    intro leaf hl
    obtain ⟨path, hsub⟩ := leaf_path hl
    have hmem : ∀ w ∈ leaf.samples, w < X.length := by
      have := sub_samples h (by
        intro w hw
        unfold TreeOptions.idx at hw
        simpa using hw) path leaf _ _ hsub
      rw [hlen] at this
      exact this
    have hne : leaf.samples ≠ [] := by
      by_cases hpath : path = []
      · subst hpath
        have ht : t = .node leaf .nil .nil := by cases t <;> simpa [Tree.sub] using hsub
        rw [ht] at h
        have := (mkInfo_samples h).1
        rw [this]
        unfold TreeOptions.idx
        simpa [finRows] using hX
      · have := (C06_exact S X _ t h path hpath leaf _ _ hsub).1
        intro h0
        rw [h0] at this
        simp at this
    have hn0 : (0 : ℝ) < leaf.samples.length := by
      have := List.length_pos_iff.2 hne
      exact_mod_cast this
    have hs0 := sumOver_nonneg hnn leaf.samples
    have hD : 0 < sumOver hs leaf.samples + lam ∧ lr * leaf.samples.length < 8 * (sumOver hs leaf.samples + lam) := by
      rcases hcase with ⟨h1, h2⟩ | ⟨_, _, h3⟩
      · rw [hone h1, sumOver_ones p _ (by rw [hp]; exact hmem)]
        refine ⟨by linarith, ?_⟩
        have := mul_lt_mul_of_pos_right h2 hn0
        linarith
      · have hle : lr * leaf.samples.length ≤ lr * X.length := by
          apply mul_le_mul_of_nonneg_left _ hlr
          have hnd : leaf.samples.Nodup := by
            have hperm := C03_leaves_partition S (finRows X) _ t h
            have h0 : (t.leaves.flatMap (·.samples)).Nodup := by
              rw [hperm.nodup_iff]
              unfold trainingRows
              exact List.nodup_range
            exact (List.nodup_flatMap.1 h0).1 leaf hl
          have : leaf.samples ⊆ List.range X.length := fun w hw => List.mem_range.2 (hmem w hw)
          have := (List.subperm_of_subset hnd this).length_le
          rw [List.length_range] at this
          exact_mod_cast this
        have h0 : 0 ≤ lr * X.length := by positivity
        exact ⟨by linarith, by linarith⟩
    refine ⟨?_, hD⟩
    rw [(C09_value_optimal S X _ t g hs lam gam h ⟨rfl, rfl, rfl, hlam, hgam⟩ path leaf _ _ hsub hD.1).1, sumOver_neg]
  · rename_i hx
    obtain ⟨hl1, hl2⟩ : lf = sqErrLoss ∧ lr < 8 := by
      rcases hcase with h | ⟨h, _⟩
      · exact h
      · exact absurd h hx
    obtain ⟨g', hg', h⟩ := bind_ok h
    rw [hgr.2] at hg'
    cases hg'
    rw [hh, hone hl1] at h
    obtain ⟨t0, h0, hu⟩ := bind_ok h
    have hm := fun path i l r hsub => C10_node_mean S X _ t0 _ h0 ⟨rfl, rfl⟩
      (by simpa [trainingRows, defaultGTreeOptions, finRows] using hX) path i l r hsub
    have hmem : ∀ path i l r, t0.sub path = .node i l r → ∀ w ∈ i.samples, w < p.length := by
      intro path i l r hsub
      have := sub_samples h0 (by
        intro w hw
        unfold TreeOptions.idx at hw
        simpa [defaultGTreeOptions] using hw) path i l r hsub
      rw [hlen] at this
      rw [hp]
      exact this
    obtain rfl : t = t0 := by
      refine updateLeaves_same hu ?_
      intro path i l r hsub _
      obtain ⟨m1, m2⟩ := hm path i l r hsub
      have hn0 : (i.samples.length : ℝ) ≠ 0 := by
        have := List.length_pos_iff.2 m1
        exact_mod_cast this.ne'
      rw [sumAt_fin, sumAt_fin, m2, sumOver_ones p _ (hmem path i l r hsub), Exact.div_fin _ _ hn0]
      rfl
    refine ⟨_, fun s => s.length, h0, by unfold trainingRows; simp [defaultGTreeOptions, hlen], ?_⟩
    intro leaf hl
    obtain ⟨path, hsub⟩ := leaf_path hl
    obtain ⟨m1, m2⟩ := hm path leaf _ _ hsub
    have hn0 : (0 : ℝ) < leaf.samples.length := by
      have := List.length_pos_iff.2 m1
      exact_mod_cast this
    exact ⟨m2, hn0, mul_lt_mul_of_pos_right hl2 hn0⟩

/-! ### the training loops -/

/-- the number, 0 for NaN and infinities -/
def realOf : Exact ℝ → ℝ
  | .fin x => x
  | _ => 0

theorem map_realOf (l : List ℝ) : (finV l).map realOf = l := by
  unfold finV
  rw [List.map_map]
  exact List.map_id l

theorem AllFin.eq {l : List (Exact ℝ)} (h : AllFin l) : l = Boo.finV (l.map realOf) := by
  obtain ⟨p, rfl⟩ := h.finV
  rw [map_realOf]

/-- the loss of the scores of all rows; `c i` is the class of row `i` -/
noncomputable def totalLoss (n : Nat) (c : Nat → Nat) (st : TrainState (Exact ℝ)) : ℝ :=
  ((List.range n).map fun i => rowLoss ((st.rawPred.row i).map realOf) (c i)).sum

/-- the loss is lower, or the scores are the same -/
def Better (n : Nat) (c : Nat → Nat) (st st' : TrainState (Exact ℝ)) : Prop :=
  totalLoss n c st' < totalLoss n c st ∨ ∀ i < n, st'.rawPred.row i = st.rawPred.row i

theorem Better.le {n : Nat} {c : Nat → Nat} {st st' : TrainState (Exact ℝ)} (h : Better n c st st') :
    totalLoss n c st' ≤ totalLoss n c st := by
  rcases h with h | h
  · exact h.le
  · unfold totalLoss
    rw [List.map_congr_left (fun i hi => by rw [h i (List.mem_range.1 hi)])]

theorem Better.trans {n : Nat} {c : Nat → Nat} {a b d : TrainState (Exact ℝ)} (h : Better n c a b) (h' : Better n c b d) :
    Better n c a d := by
  rcases h with h1 | h1
  · exact Or.inl (lt_of_le_of_lt h'.le h1)
  · rcases h' with h2 | h2
    · exact Or.inl (lt_of_lt_of_le h2 (Better.le (Or.inr h1)))
    · exact Or.inr fun i hi => (h2 i hi).trans (h1 i hi)

theorem Better.of_raw {n : Nat} {c : Nat → Nat} {a b : TrainState (Exact ℝ)} (h : b.rawPred = a.rawPred) : Better n c a b :=
  Or.inr fun i _ => by rw [h]

theorem getD_get {α : Type} {l : List α} {i : Nat} (h : i < l.length) {d : α} : l.getD i d = l[i] := by
  rw [List.getD_eq_getElem?_getD, List.getElem?_eq_getElem h]
  rfl

/-- the column of probabilities of class `k` -/
theorem probs_col_val {n m : Nat} {st : TrainState (Exact ℝ)} (hi : TInv expR n m st) (hr : ∀ i < n, AllFin (st.rawPred.row i))
    (hn : 0 < n) {k : Nat} (hk : k < m) {p : List (Exact ℝ)} (hp : denseCol st.probs k = .ok p) :
    ∃ q : List ℝ, p = finV q ∧ q.length = n ∧ (∀ v ∈ q, 0 < v ∧ v ≤ 1) ∧
      ∀ i < n, q.getD i 0 = (softmaxSpec ((st.rawPred.row i).map realOf)).getD k 1 := by
  obtain ⟨q, hq, hql, hqv⟩ := probs_col hi hr hn hk hp
  obtain ⟨l, h1, h2, h3⟩ := denseCol_spec hi.probsWF (by rw [hi.probsR]; exact hn) (col := k) (by rw [hi.probsC]; exact hk)
  rw [h1] at hp
  obtain rfl : l = p := Except.ok.inj hp
  have hval : ∀ i < n, q.getD i 0 = (softmaxSpec ((st.rawPred.row i).map realOf)).getD k 1 := by
    intro i hin
    have hl : ((st.rawPred.row i).map realOf).length = m := by
      rw [List.length_map, Dense.row_length hi.rawWF (by rw [hi.rawR]; exact hin), hi.rawC]
    have hs := hi.soft i hin
    rw [(hr i hin).eq, softMax_real _ (by intro h0; rw [h0] at hl; simp at hl; omega)] at hs
    have hs := (Except.ok.inj hs).symm
    have hg := h3 i (by rw [hi.probsR]; exact hin)
    rw [← Dense.row_get (by rw [hi.probsR]; exact hin) (by rw [hi.probsC]; exact hk), hs, hq] at hg
    unfold finV at hg
    rw [List.getElem?_map, List.getElem?_map, List.getElem?_eq_getElem (by omega : i < q.length),
      List.getElem?_eq_getElem (by rw [softmaxSpec_length]; omega)] at hg
    simp only [Option.map_some, Option.some.injEq] at hg
    rw [getD_get (by omega), getD_get (by rw [softmaxSpec_length]; omega)]
    exact fin_inj hg
  refine ⟨q, hq, hql, ?_, hval⟩
  intro v hv
  refine ⟨(hqv v hv).1, ?_⟩
  obtain ⟨i, hlt, rfl⟩ := List.getElem_of_mem hv
  have := hval i (by omega)
  rw [getD_get hlt] at this
  rw [this]
  have hl : ((st.rawPred.row i).map realOf).length = m := by
    rw [List.length_map, Dense.row_length hi.rawWF (by rw [hi.rawR]; omega), hi.rawC]
  have hne : (st.rawPred.row i).map realOf ≠ [] := by intro h0; rw [h0] at hl; simp at hl; omega
  rw [softmax_get (by omega), div_le_one (sum_exp_pos hne)]
  exact List.single_le_sum (fun x hx => by
    obtain ⟨y, _, rfl⟩ := List.mem_map.1 hx
    exact (Real.exp_pos y).le) _ (List.mem_map.2 ⟨_, List.getElem_mem _, rfl⟩)

/-- what the theorem needs besides `RealSetup`: the classes of the rows and a step that is not too large -/
structure LossSetup (X : List (List ℝ)) (O : Options (Exact ℝ)) (ohe : Dense (Exact ℝ)) (n m : Nat) (c : Nat → Nat)
    (lr lam : ℝ) : Prop where
  lrEq : O.learningRate = .fin lr
  lamEq : O.lambda = .fin lam
  rows : rowSub O = false
  cls : ∀ i < n, c i < m
  ohe : ∀ k y, k < m → denseCol ohe k = .ok y → ∃ y' : List ℝ, y = finV y' ∧ y'.length = n ∧
    ∀ i < n, y'.getD i 0 = if c i = k then 1 else 0
  step : ∀ lv, O.loss = some lv → StepOk O lv.fn lr lam n

theorem ClassStep.better {S : GoSort} {X : List (List ℝ)} {O : Options (Exact ℝ)} {ohe : Dense (Exact ℝ)} {n m : Nat}
    {one : Prop} (hs : RealSetup X O ohe n m one) {c : Nat → Nat} {lr lam : ℝ} (hL : LossSetup X O ohe n m c lr lam) {cols : List Nat}
    {round : Nat} {st st' : TrainState (Exact ℝ)} {k : Nat} {tree : Tree (Exact ℝ)}
    (s : ClassStep expR S (finRows X) O ohe none cols round st st' k tree) (hi : TInv expR n m st)
    (hr : ∀ i < n, AllFin (st.rawPred.row i)) (hk : k < m) : Better n c st st' := by
  obtain ⟨y, hy, hyl, hyv⟩ := hL.ohe k _ hk s.hy
  obtain ⟨p, hp, hpl, hpv, hpval⟩ := probs_col_val hi hr hs.pos hk s.hp
  obtain ⟨gam, hgam⟩ := hs.opts.gam
  have hX : X ≠ [] := by
    rintro rfl
    have := hs.len
    have := hs.pos
    simp at *
    omega
  have hd : (finRows X).length = n := by simp [finRows, hs.len]
  obtain ⟨hfin, _⟩ := s.real hs (fun l h => by cases h) hi hr hk
  obtain ⟨_, _, _, h4⟩ := s.inv hi hd hk
  have ht := s.htree
  rw [hy, hp] at ht
  let v : Nat → ℝ := fun i => match tree.predictSingle ((finRows X).getD i []) with
    | .ok x => realOf x
    | .error _ => 0
  have hv : ∀ (i : Nat) row, (finRows X)[i]? = some row → tree.predictSingle row = .ok (.fin (v i)) := by
    intro i row hrow
    obtain ⟨w, d, h1, _⟩ := h4 i row hrow
    obtain ⟨x, rfl⟩ := hfin.predict h1
    have : v i = x := by
      simp only [v]
      rw [List.getD_eq_getElem?_getD, hrow]
      simp only [Option.getD_some, h1]
      rfl
    rw [this]
    exact h1
  have hstep := hL.step _ s.hlv
  rw [← hs.len] at hstep
  have hgain := classTree_gain hL.lamEq hgam hstep hX (by rw [hyl, hs.len]) (by rw [hpl, hs.len]) hpv ht v hv
  rw [hs.len] at hgain
  have hrow : ∀ i < n, ∃ hlen : k < ((st.rawPred.row i).map realOf).length,
      (st'.rawPred.row i).map realOf = ((st.rawPred.row i).map realOf).set k (((st.rawPred.row i).map realOf)[k] + lr * v i) ∧
      (lr * v i = 0 → st'.rawPred.row i = st.rawPred.row i) := by
    intro i hin
    have hget := List.getElem?_eq_getElem (show i < (finRows X).length by rw [hd]; exact hin)
    obtain ⟨w, d, h1, h2, h3⟩ := h4 i _ hget
    rw [hv i _ hget] at h1
    obtain rfl := Except.ok.inj h1
    have hlen : k < (st.rawPred.row i).length := (List.getElem?_eq_some_iff.1 h2).1
    obtain ⟨d', rfl⟩ := hr i hin d (List.mem_of_getElem? h2)
    have hdk : (st.rawPred.row i)[k] = .fin d' := (List.getElem?_eq_some_iff.1 h2).2
    rw [hL.lrEq, show ((XF.fin d' : Exact ℝ) +. (XF.fin (v i) *. XF.fin lr)) = .fin (d' + lr * v i) by
      rw [Exact.mul_fin, Exact.add_fin, mul_comm]] at h3
    refine ⟨by simpa using hlen, ?_, ?_⟩
    · rw [h3, List.map_set]
      simp only [List.getElem_map, hdk]
      rfl
    · intro h0
      rw [h3, h0, add_zero, ← hdk]
      exact List.set_getElem_self hlen
  rcases hgain with hlt | hzero
  · left
    unfold totalLoss
    have hle : ((List.range n).map fun i => rowLoss ((st'.rawPred.row i).map realOf) (c i)).sum ≤
        ((List.range n).map fun i => rowLoss ((st.rawPred.row i).map realOf) (c i) +
          (-(y.getD i 0 - p.getD i 0) * (lr * v i) + (lr * v i) ^ 2 / 8)).sum := by
      apply List.sum_le_sum
      intro i hir
      have hin := List.mem_range.1 hir
      obtain ⟨hlen, h5, _⟩ := hrow i hin
      have hl : ((st.rawPred.row i).map realOf).length = m := by
        rw [List.length_map, Dense.row_length hi.rawWF (by rw [hi.rawR]; exact hin), hi.rawC]
      have := rowLoss_step (r := (st.rawPred.row i).map realOf) (j := c i) (k := k) (by rw [hl]; exact hL.cls i hin) hlen (lr * v i)
      rw [← h5, ← hpval i hin, ← hyv i hin] at this
      linarith
    rw [List.sum_map_add] at hle
    linarith
  · exact Or.inr fun i hin => (hrow i hin).choose_spec.2 (hzero i hin)

theorem trainClasses_better {S : GoSort} {X : List (List ℝ)} {O : Options (Exact ℝ)} {ohe : Dense (Exact ℝ)} {n m : Nat}
    {one : Prop} (hs : RealSetup X O ohe n m one) {c : Nat → Nat} {lr lam : ℝ} (hL : LossSetup X O ohe n m c lr lam) {cols : List Nat}
    {round : Nat} (q : Nat) (hq : q ≤ m) (st : TrainState (Exact ℝ)) (acc' : TrainState (Exact ℝ) × List (Tree (Exact ℝ)))
    (h : (List.range q).foldlM (trainClass (softMaxDense expR) S (finRows X) O ohe none cols round) (st, []) = .ok acc')
    (hi : TInv expR n m st) (hr : ∀ i < n, AllFin (st.rawPred.row i)) : Better n c st acc'.1 := by
  have hd : (finRows X).length = n := by simp [finRows, hs.len]
  induction q generalizing acc' with
  | zero =>
    simp only [List.range_zero, List.foldlM_nil, pure, Except.pure, Except.ok.injEq] at h
    subst h
    exact Better.of_raw rfl
  | succ q ih =>
    have h' := h
    rw [List.range_succ, List.foldlM_append] at h
    obtain ⟨acc, h1, h2⟩ := bind_ok h
    rw [List.foldlM_cons] at h2
    obtain ⟨acc'', h3, h4⟩ := bind_ok h2
    simp only [List.foldlM_nil, pure, Except.pure, Except.ok.injEq] at h4
    subst h4
    obtain ⟨a1, _⟩ := trainClasses_inv hd q (by omega) st acc h1 hi
    obtain ⟨b1, _⟩ := trainClasses_real hs (fun l h => by cases h) q (by omega) st acc h1 hi hr
    have hb := ih (by omega) acc h1
    rcases trainClass_inv h3 with ⟨_, rfl⟩ | ⟨_, tree, ht, ⟨s⟩⟩
    · exact hb
    · exact hb.trans (s.better hs hL a1 b1 (by omega))

/-- any further rounds lower the loss or leave the scores as they are -/
theorem trainRounds_better {S : GoSort} {X : List (List ℝ)} {O : Options (Exact ℝ)} {ohe : Dense (Exact ℝ)} {n m : Nat}
    {one : Prop} (hs : RealSetup X O ohe n m one) {c : Nat → Nat} {lr lam : ℝ} (hL : LossSetup X O ohe n m c lr lam)
    (l : List Nat) {st st' : TrainState (Exact ℝ)}
    (h : l.foldlM (trainRound (softMaxDense expR) S (finRows X) O ohe m) st = .ok st')
    (hi : TInv expR n m st) (hr : ∀ i < n, AllFin (st.rawPred.row i)) : Better n c st st' := by
  have hd : (finRows X).length = n := by simp [finRows, hs.len]
  induction l generalizing st with
  | nil =>
    simp only [List.foldlM_nil, pure, Except.pure, Except.ok.injEq] at h
    subst h
    exact Better.of_raw rfl
  | cons a l ih =>
    rw [List.foldlM_cons] at h
    obtain ⟨st1, h1, h2⟩ := bind_ok h
    obtain ⟨t1, _, _⟩ := trainRound_step h1 hi hd
    obtain ⟨idx, cols, draws, hsam, hcase⟩ := trainRound_inv h1
    have hidx : idx = none := by
      have := (roundSamples_inv hsam).2
      rw [hL.rows] at this
      simpa using this
    subst hidx
    have hstep : Better n c st st1 ∧ ∀ i < n, AllFin (st1.rawPred.row i) := by
      rcases hcase with ⟨_, rfl⟩ | ⟨_, acc, hacc, rfl⟩
      · exact ⟨Better.of_raw rfl, hr⟩
      · refine ⟨trainClasses_better hs hL m le_rfl { st with draws := draws } acc hacc (hi.draws draws) hr, ?_⟩
        exact (trainClasses_real hs (fun l h => by cases h) m le_rfl { st with draws := draws } acc hacc (hi.draws draws) hr).1
    exact hstep.1.trans (ih h2 t1 hstep.2)

end Boo
