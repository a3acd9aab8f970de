import Verif.Props.LogLoss
import Verif.Props.Memorize
import Verif.Props.Separable

/-!
# C108: probabilities and errors
-/

namespace Boo
open GoFloat Spec
set_option linter.unusedSectionVars false

theorem two_le_sum {l : List ℝ} (h0 : ∀ v ∈ l, 0 ≤ v) {i j : Nat} {x y : ℝ} (hi : l[i]? = some x) (hj : l[j]? = some y) (hne : i ≠ j) :
    x + y ≤ l.sum := by
  have one_le : ∀ {l : List ℝ}, (∀ v ∈ l, 0 ≤ v) → ∀ {i : Nat} {x : ℝ}, l[i]? = some x → x ≤ l.sum := by
    intro l h0 i x hi
    exact List.single_le_sum h0 x (List.mem_of_getElem? hi)
  induction l generalizing i j with
  | nil => simp at hi
  | cons a l ih =>
    rw [List.sum_cons]
    cases i with
    | zero =>
      cases j with
      | zero => exact absurd rfl hne
      | succ j =>
        simp only [List.getElem?_cons_zero, Option.some.injEq, List.getElem?_cons_succ] at hi hj
        subst hi
        linarith [one_le (fun v hv => h0 v (by simp [hv])) hj]
    | succ i =>
      simp only [List.getElem?_cons_succ] at hi
      cases j with
      | zero =>
        simp only [List.getElem?_cons_zero, Option.some.injEq] at hj
        subst hj
        linarith [one_le (fun v hv => h0 v (by simp [hv])) hi]
      | succ j =>
        simp only [List.getElem?_cons_succ] at hj
        have := ih (fun v hv => h0 v (by simp [hv])) hi hj (by omega)
        linarith [h0 a (by simp)]

theorem mapM_total {α β : Type} {f : α → Go β} : ∀ {l : List α}, (∀ a ∈ l, ∃ b, f a = .ok b) → ∃ bs, l.mapM f = .ok bs := by
  intro l
  induction l with
  | nil => intro _; exact ⟨[], rfl⟩
  | cons a l ih =>
    intro hl
    obtain ⟨k, hk⟩ := hl a (by simp)
    obtain ⟨ks, hks⟩ := ih fun r hr => hl r (by simp [hr])
    exact ⟨k :: ks, by rw [List.mapM_cons, hk]; simp only [bind, Except.bind, hks]; rfl⟩

/-- each wrong row costs at least `log 2` -/
theorem wrong_le_logLoss (M : MultiClass (Exact ℝ)) : ∀ (preds : List Nat) (labels : List Int) (ps : List ℝ), preds.length = labels.length →
    ps.length = labels.length →
    (∀ (i : Nat) q lab p, preds[i]? = some q → labels[i]? = some lab → ps[i]? = some p →
      0 < p ∧ p ≤ 1 ∧ (M.classLabels[q]? = some lab ∨ p ≤ 1 / 2)) →
    ((labels.length : ℝ) - rightCount M preds labels) * Real.log 2 ≤ logLoss ps := by
  intro preds
  induction preds with
  | nil =>
    intro labels ps h1 h2 _
    rw [List.length_nil] at h1
    rw [List.length_eq_zero_iff.1 h1.symm] at h2 ⊢
    rw [List.length_eq_zero_iff.1 h2]
    simp [rightCount, logLoss]
  | cons q preds ih =>
    intro labels ps h1 h2 h3
    match labels, ps with
    | [], _ => simp at h1
    | _ :: _, [] => simp at h2
    | lab :: labels, p :: ps =>
      have hrec := ih labels ps (by simpa using h1) (by simpa using h2) fun i q lab p a b c => h3 (i + 1) q lab p a b c
      obtain ⟨p0, p1, hq⟩ := h3 0 q lab p rfl rfl rfl
      have hlog : 0 ≤ -Real.log p := by linarith [Real.log_nonpos p0.le p1]
      have hl : logLoss (p :: ps) = -Real.log p + logLoss ps := by simp [logLoss]
      rw [hl]
      by_cases hr : M.classLabels[q]? = some lab
      · have : rightCount M (q :: preds) (lab :: labels) = rightCount M preds labels + 1 := by
          unfold rightCount
          rw [List.zip_cons_cons, List.filter_cons, if_pos (by simpa using hr)]
          rfl
        rw [this]
        push_cast [List.length_cons]
        have e : (labels.length : ℝ) + 1 - (rightCount M preds labels + 1) = labels.length - rightCount M preds labels := by ring
        rw [e]
        linarith
      · have : rightCount M (q :: preds) (lab :: labels) = rightCount M preds labels := by
          unfold rightCount
          rw [List.zip_cons_cons, List.filter_cons, if_neg (by simpa using hr)]
        rw [this]
        have hp : p ≤ 1 / 2 := hq.resolve_left hr
        have h4 : Real.log p ≤ -Real.log 2 := by
          have := Real.log_le_log p0 hp
          rwa [one_div, Real.log_inv] at this
        push_cast [List.length_cons]
        have e : ((labels.length : ℝ) + 1 - rightCount M preds labels) * Real.log 2 =
          (labels.length - rightCount M preds labels) * Real.log 2 + Real.log 2 := by ring
        rw [e]
        linarith

section
variable (S : GoSort) (draws : Nat → Exact ℝ) (X : List (List ℝ)) (D : DataBunch (Exact ℝ))
    (hX : D.data = finRows X) (hd : X.length = D.labels.length)
    (O : Options (Exact ℝ)) (hO : RealOptions O) (hbase : ∃ x, O.baseScore = XF.fin x)
    (hloss : LossFits O D.labels) (hms : rowSub O = true → 1 ≤ O.minSample) (M : MultiClass (Exact ℝ))
    (h : newMultiClass expR S draws D O = .ok M)
include hX hd hO hbase hloss hms h

/-- **C108 (one row)**: a class to which a trained model gives a probability above 1/2 is the class it predicts, for any row. -/
theorem C108_row (row out : List (Exact ℝ)) (hp : M.predictSingle row = .ok out) (k : Nat) (p : ℝ) (hk : out[k]? = some (XF.fin p))
    (hhalf : 1 / 2 < p) : M.predictSingleClass row = .ok k := by
  obtain ⟨probs, rfl, h1, h2, _⟩ := C71_real_partial S draws X D hX hd O hO hbase hloss hms M h row out hp
  have hne : finV probs ≠ [] := by
    intro h0
    rw [h0] at hk
    simp at hk
  obtain ⟨j, hj⟩ := argmaxFirst_ok (finV probs) hne
  have hpc : M.predictSingleClass row = .ok j := by
    unfold MultiClass.predictSingleClass
    rw [hp]
    exact hj
  rw [hpc]
  obtain ⟨x, hx, hmax, _⟩ := argmaxFirst_spec _ _ hj
  by_contra hne'
  have hjk : j ≠ k := fun e => hne' (by rw [e])
  rw [finV, List.getElem?_map, Option.map_eq_some_iff] at hx hk
  obtain ⟨x', hx', rfl⟩ := hx
  obtain ⟨p', hk', hpp⟩ := hk
  obtain rfl := fin_inj hpp
  have hle := two_le_sum (fun v hv => (h1 v hv).1.le) hx' hk' hjk
  have := hmax k (XF.fin p') (by rw [finV, List.getElem?_map, hk']; rfl)
  rw [h2] at hle
  have hge : p' ≤ x' := by
    by_contra hlt
    push Not at hlt
    simp [hlt] at this
  linarith

/-- **C108 (accuracy)**: on any labelled data set the share of rows that a trained model labels wrongly is at most the mean logarithmic
loss divided by `log 2`; `Accuracy` is at least `100·(1 - loss/(n·log 2))`. -/
theorem C108_accuracy (T : DataBunch (Exact ℝ)) (hT : T.data ≠ []) (hl : T.labels.length = T.data.length) (ps : List ℝ)
    (hps : TrueProbs M T ps) :
    ∃ a : ℝ, M.accuracy T = .ok (.fin a) ∧ 100 * (1 - logLoss ps / (T.data.length * Real.log 2)) ≤ a := by
  have hn : M.classLabels.Nodup := by
    rw [(C22_rounds expR S draws D O M h).2.1]
    exact (C39_distinct _).1
  have hrow : ∀ (i : Nat) row, T.data[i]? = some row → ∃ lab p out, ∃ k : Nat, T.labels[i]? = some lab ∧ ps[i]? = some p ∧
      M.predictSingle row = .ok out ∧ M.classLabels[k]? = some lab ∧ out[k]? = some (XF.fin p) := by
    intro i row hi
    have hil := (List.getElem?_eq_some_iff.1 hi).1
    have h1 : i < T.labels.length := by omega
    have h2 : i < ps.length := by rw [hps.len]; omega
    obtain ⟨out, k, e1, e2, e3⟩ := hps.get i row _ _ hi (List.getElem?_eq_getElem h1) (List.getElem?_eq_getElem h2)
    exact ⟨_, _, out, k, List.getElem?_eq_getElem h1, List.getElem?_eq_getElem h2, e1, e2, e3⟩
  have hpred : ∀ row ∈ T.data, ∃ k, M.predictSingleClass row = .ok k := by
    intro row hr
    obtain ⟨i, hi⟩ := List.getElem?_of_mem hr
    obtain ⟨_, p, out, k, _, _, e1, _, e3⟩ := hrow i row hi
    obtain ⟨j, hj⟩ := argmaxFirst_ok out (by rintro rfl; simp at e3)
    exact ⟨j, by unfold MultiClass.predictSingleClass; rw [e1]; exact hj⟩
  obtain ⟨preds, hp⟩ := mapM_total hpred
  have hp' := List.forall₂_iff_get.1 (mapM_ok.1 hp)
  have hget : ∀ (i : Nat) q, preds[i]? = some q → ∃ row, T.data[i]? = some row ∧ M.predictSingleClass row = .ok q := by
    intro i q hi
    obtain ⟨h1, h2⟩ := List.getElem?_eq_some_iff.1 hi
    have h3 : i < T.data.length := by rw [hp'.1]; exact h1
    have := hp'.2 i h3 h1
    simp only [List.get_eq_getElem] at this
    rw [h2] at this
    exact ⟨_, List.getElem?_eq_getElem h3, this⟩
  have hdl : D.data.length = D.labels.length := by rw [hX, ← hd]; simp [finRows]
  obtain ⟨a, ha1, ha2, _⟩ := C25_percentage M T preds hT hp (by
    intro q hq
    obtain ⟨i, hi⟩ := List.getElem?_of_mem hq
    obtain ⟨row, h3, h4⟩ := hget i q hi
    exact C23_label expR S draws D O M h hdl row q h4) hl
  refine ⟨a, ha1, ?_⟩
  have hcount := wrong_le_logLoss M preds T.labels ps (by rw [← hp'.1]; exact hl.symm) (by rw [hps.len]; exact hl.symm) (by
    intro i q lab p hq hlab hpi
    obtain ⟨row, h3, h4⟩ := hget i q hq
    obtain ⟨lab', p', out, k, e1, e2, e3, e4, e5⟩ := hrow i row h3
    rw [hlab] at e1
    obtain rfl := Option.some.inj e1
    rw [hpi] at e2
    obtain rfl := Option.some.inj e2
    obtain ⟨probs, hprobs, hpos, _⟩ := C71_real_partial S draws X D hX hd O hO hbase hloss hms M h row out e3
    have hpp := hpos p (by
      rw [hprobs, finV, List.getElem?_map, Option.map_eq_some_iff] at e5
      obtain ⟨x, hx, hxp⟩ := e5
      obtain rfl := fin_inj hxp
      exact List.mem_of_getElem? hx)
    refine ⟨hpp.1, hpp.2, ?_⟩
    by_cases hhalf : p ≤ 1 / 2
    · exact Or.inr hhalf
    · left
      have := C108_row S draws X D hX hd O hO hbase hloss hms M h row out e3 k p e5 (by linarith)
      rw [h4] at this
      rw [Except.ok.inj this]
      exact e4)
  have hlog := Real.log_pos (show (1 : ℝ) < 2 by norm_num)
  have hN : (0 : ℝ) < T.data.length := by exact_mod_cast List.length_pos_iff.2 hT
  rw [hl] at hcount
  rw [ha2]
  have : 1 - logLoss ps / (T.data.length * Real.log 2) ≤ (rightCount M preds T.labels : ℝ) / T.data.length := by
    rw [le_div_iff₀ hN, sub_mul, one_mul, div_mul_eq_mul_div, mul_comm (logLoss ps), mul_div_mul_left _ _ hN.ne', sub_le_iff_le_add,
      ← sub_le_iff_le_add', le_div_iff₀ hlog]
    exact hcount
  calc 100 * (1 - logLoss ps / (T.data.length * Real.log 2)) ≤ 100 * ((rightCount M preds T.labels : ℝ) / T.data.length) := by linarith
    _ = _ := by ring

end

/-! Non-vacuity: xgboost on two rows of two classes. -/
example : ∃ M ps a, newMultiClass expR GoSort.ins (fun _ => .fin 0) realData keepRows = .ok M ∧ TrueProbs M realData ps ∧
    M.accuracy realData = .ok (.fin a) ∧ 100 * (1 - logLoss ps / (2 * Real.log 2)) ≤ a := by
  obtain ⟨M, h1, h2, h3⟩ := keepRows_full 20 (by norm_num)
  obtain ⟨hO, hrow, hloss, _⟩ := keepRows_gentle.real
  obtain ⟨ps, a, _⟩ := C100_guess _ _ [[0], [1]] realData rfl rfl keepRows _ _ keepRows_gentle M h1 h2 h3
  obtain ⟨x, b, c⟩ := C108_accuracy _ _ [[0], [1]] realData rfl rfl keepRows hO keepRows_gentle.base hloss (by rw [hrow]; simp) M h1
    realData (by simp [realData, finRows]) rfl ps a
  exact ⟨M, ps, x, h1, a, b, by simpa [realData, finRows] using c⟩

end Boo
