import Verif.Lemmas.Memorize

/-!
# C101: deep regular trees learn consistent training data
-/

namespace Boo
open GoFloat Spec
set_option linter.unusedSectionVars false

/-- What is assumed in C101: regular boosting with finite numbers, a positive learning rate, a minimum child weight that allows single
rows, enough depth to separate all rows, no early stopping, rows of the same length, and equal rows have equal labels. -/
structure Learnable (O : Options (Exact ℝ)) (X : List (List ℝ)) (D : DataBunch (Exact ℝ)) (lr : ℝ) : Prop where
  data : D.data = finRows X
  labels : D.data.length = D.labels.length
  width : ∃ w, ∀ row ∈ X, row.length = w
  consistent : ∀ (i j : Nat) row, X[i]? = some row → X[j]? = some row → D.labels[i]? = D.labels[j]?
  regular : O.xgb = false
  lrEq : O.learningRate = .fin lr
  lr0 : 0 < lr
  lam : ∃ x, O.lambda = XF.fin x ∧ 0 ≤ x
  gam : ∃ x, O.gamma = XF.fin x
  mcw : ∃ q, O.minChildWeight = XF.fin q ∧ q < 2
  depth : (X.length : Int) ≤ O.maxDepth + 1
  stop : O.earlyStop ≤ 0
  loss : LossFits O D.labels

theorem Learnable.mcw_fix {O : Options (Exact ℝ)} {X : List (List ℝ)} {D : DataBunch (Exact ℝ)} {lr : ℝ} (h : Learnable O X D lr) :
    toInt O.fixMcw.minChildWeight ≤ 1 := by
  obtain ⟨q, hq, hq2⟩ := h.mcw
  have ht : ∀ q : ℝ, q < 2 → toInt (XF.fin q : Exact ℝ) ≤ 1 := by
    intro q hq2
    refine XF.toInt_le _ (by norm_num) ?_
    split
    · have : ⌊q⌋ < 2 := Int.floor_lt.2 (by exact_mod_cast hq2)
      omega
    · rename_i hneg
      exact Int.ceil_le.2 (by push_cast; linarith)
  unfold Options.fixMcw
  split
  · simpa using ht 1 (by norm_num)
  · rw [hq]
    exact ht q hq2

theorem classOf_congr {labels : List Int} {i j : Nat} (h : labels[i]? = labels[j]?) : classOf labels i = classOf labels j := by
  unfold classOf
  rw [List.getD_eq_getElem?_getD, List.getD_eq_getElem?_getD, h]

/-- the scores of the training rows after training -/
theorem learn_scores (S : GoSort) (draws : Nat → Exact ℝ) (X : List (List ℝ)) (D : DataBunch (Exact ℝ)) (O : Options (Exact ℝ))
    (lr base : ℝ) (hL : Learnable O X D lr) (hbase : O.baseScore = .fin base) (labels : List Int) (st : TrainState (Exact ℝ))
    (ht : train expR S draws D O = .ok (labels, st)) :
    (∀ i < X.length, AllFin (st.rawPred.row i)) ∧ TInv expR X.length labels.length st ∧
      Apart X.length labels.length (classOf D.labels) base lr 0 (fun _ => st.boosters.length) st ∧
      ((∀ lv, O.loss = some lv → lv.fn = mseLoss) →
        Apart X.length labels.length (classOf D.labels) base lr 1 (fun _ => st.boosters.length) st) := by
  have hXl : X.length = D.data.length := by rw [hL.data]; simp [finRows]
  have hd : X.length = D.labels.length := hXl.trans hL.labels
  have hO : RealOptions O := ⟨⟨lr, hL.lrEq⟩, hL.lam, hL.gam⟩
  have hrow : rowSub O = false := by unfold rowSub; rw [hL.regular]; simp
  have hall := train_real S draws X D hL.data hd O hO ⟨base, hbase⟩ hL.loss (by rw [hrow]; simp) labels st ht
  obtain ⟨hl, hlab, ohe, st0, hohe, hr0, hc0, hw, hinit, hrounds⟩ := train_inv ht
  obtain ⟨i1, i2, i3, i4, _, _, i7⟩ := trainInit_inv hinit hr0 hc0
  obtain ⟨lv, hlv, hlk, hs, hcls, hcol⟩ := train_setup X D hd O hO hL.loss labels ohe hl hlab hohe
  have t2 := (trainRounds_inv hrounds i1 hL.labels i2).1
  rw [← hd] at i1 t2 hall i7
  have hraw0 : ∀ i < X.length, st0.rawPred.row i = List.replicate labels.length (.fin base) := by
    intro i hi
    rw [i7 i hi, hbase]
    congr 1
    simp
  have hfin0 : ∀ i < X.length, AllFin (st0.rawPred.row i) := by
    intro i hi v hv
    rw [hraw0 i hi, List.mem_replicate] at hv
    exact ⟨base, hv.2⟩
  have hfix : ∃ f, O.fixMcw = { O with minChildWeight := f } := by
    unfold Options.fixMcw
    split
    · exact ⟨_, rfl⟩
    · exact ⟨O.minChildWeight, rfl⟩
  have hmcw := hL.mcw_fix
  obtain ⟨f, hf⟩ := hfix
  have hset : ∀ wt : ℝ, 0 ≤ wt → (∀ lv, O.loss = some lv → (lv.fn = sqErrLoss ∧ wt = 0) ∨ (lv.fn = mseLoss ∧ 2 ≤ labels.length ∧ wt = 1)) →
      ApartSetup X O.fixMcw ohe X.length labels.length (classOf D.labels) lr wt := by
    intro wt hwt hloss
    refine ⟨by rw [hf]; exact hL.lrEq, hL.lr0, by rw [hf]; exact hL.regular, hmcw, by rw [hf]; exact hL.depth, hL.width, ?_, hwt,
      hcol, by rw [hf]; exact hloss⟩
    intro a b ha hb hab
    rw [List.getElem?_eq_getElem ha] at hab
    exact classOf_congr (hL.consistent a b _ (List.getElem?_eq_getElem ha) hab.symm)
  have hst0 : ∀ k, st0.stopped.getD k false = false := by
    intro k
    rw [i4, List.getD_eq_getElem?_getD, List.getElem?_replicate]
    split <;> rfl
  have hsep0 : ∀ wt : ℝ, Apart X.length labels.length (classOf D.labels) base lr wt (fun _ => st0.boosters.length) st0 := by
    intro wt i hi k hk
    refine ⟨base, ?_, ?_, ?_⟩
    · rw [hraw0 i hi, List.getElem?_replicate, if_pos hk]
    · intro _
      simp [i2]
    · intro _
      simp [i2]
  rw [hL.data] at hrounds
  have hfinal : ∀ wt : ℝ, 0 ≤ wt → (∀ lv, O.loss = some lv → (lv.fn = sqErrLoss ∧ wt = 0) ∨ (lv.fn = mseLoss ∧ 2 ≤ labels.length ∧ wt = 1)) →
      Apart X.length labels.length (classOf D.labels) base lr wt (fun _ => st.boosters.length) st := fun wt h0 hloss =>
    trainRounds_sep hs (hset wt h0 hloss) (by rw [hf]; exact hL.stop) _ hrounds i1 hfin0 hst0 (hsep0 wt)
  have hone : ∀ lv', O.loss = some lv' → lv' = lv := fun lv' h => Option.some.inj (h.symm.trans hlv)
  have hmse : lv.fn = mseLoss → 2 ≤ labels.length →
      Apart X.length labels.length (classOf D.labels) base lr 1 (fun _ => st.boosters.length) st := fun h1 h2 =>
    hfinal 1 (by norm_num) fun lv' h => Or.inr ⟨by rw [hone lv' h, h1], h2, rfl⟩
  have hne : (mseLoss : LossFunc (Exact ℝ)) ≠ sqErrLoss := by
    intro h
    have : (mseLoss : LossFunc (Exact ℝ)).hessian [.fin 0] = sqErrLoss.hessian [.fin 0] := by rw [h]
    simp [mseLoss, sqErrLoss] at this
  refine ⟨hall.raw, t2, ?_, ?_⟩
  · rcases hlk with h | ⟨h, h2⟩
    · exact hfinal 0 le_rfl fun lv' h' => Or.inl ⟨by rw [hone lv' h', h], rfl⟩
    · have := hmse h h2
      intro i hi k hk
      obtain ⟨x, a1, a2, a3⟩ := this i hi k hk
      have h0 : (0 : ℝ) ≤ lr * 1 * (st.boosters.length : ℝ) := mul_nonneg (by linarith [hL.lr0]) (Nat.cast_nonneg _)
      refine ⟨x, a1, fun hc => ?_, fun hc => ⟨?_, (a3 hc).2⟩⟩
      · have := a2 hc
        simp only [mul_zero, zero_mul, add_zero]
        linarith
      · have := (a3 hc).1
        simp only [mul_zero, zero_mul, sub_zero]
        linarith
  · intro hm
    rcases hlk with h | ⟨h, h2⟩
    · exact absurd ((hm lv hlv).symm.trans h) hne
    · exact hmse h h2

/-- A model predicts the labels of its training rows if the score of the right class is at least the base score and the others are below. -/
theorem rows_of_apart (S : GoSort) (draws : Nat → Exact ℝ) (X : List (List ℝ)) (D : DataBunch (Exact ℝ)) (hdata : D.data = finRows X)
    (hlen : D.data.length = D.labels.length) (O : Options (Exact ℝ)) (lr base : ℝ) (hbase : O.baseScore = .fin base)
    (hstop : O.earlyStop ≤ 0) (labels : List Int) (st : TrainState (Exact ℝ)) (ht : train expR S draws D O = .ok (labels, st))
    (hfin : ∀ i < X.length, AllFin (st.rawPred.row i)) (hinv : TInv expR X.length labels.length st)
    (hsep : Apart X.length labels.length (classOf D.labels) base lr 0 (fun _ => st.boosters.length) st)
    (hne : st.boosters ≠ []) (i : Nat) (row : List (Exact ℝ)) (lab : Int)
    (hrow : D.data[i]? = some row) (hlab : D.labels[i]? = some lab) :
    ∃ k, (toModel expR O labels st).predictSingleClass row = .ok k ∧ (toModel expR O labels st).classLabels[k]? = some lab := by
  have hXl : X.length = D.data.length := by rw [hdata]; simp [finRows]
  have hin : i < X.length := by rw [hXl]; exact (List.getElem?_eq_some_iff.1 hrow).1
  have hil : i < D.labels.length := by rw [← hlen, ← hXl]; exact hin
  have hlabs := (train_inv ht).2.1
  have hcls := classOf_get hil
  rw [(List.getElem?_eq_some_iff.1 hlab).2] at hcls
  have hcm : classOf D.labels i < labels.length := by rw [hlabs]; exact (List.getElem?_eq_some_iff.1 hcls).1
  have hb : (O.baseScore *. one) = O.baseScore := by rw [hbase]; simp
  have hraw := (C20_partial expR S draws D O labels st ht hlen hb (train_off ht hstop).2 hne i row hrow).1
  rw [(hfin i hin).eq] at hraw
  have hrl : ((st.rawPred.row i).map realOf).length = labels.length := by
    rw [List.length_map, Dense.row_length hinv.rawWF (by rw [hinv.rawR]; exact hin), hinv.rawC]
  obtain ⟨j, hj, m, hm1, hm2, _⟩ := C23_raw_scores (toModel expR O labels st) rfl row _ hraw (by
    intro h0; rw [h0] at hrl; simp at hrl; omega)
  rw [← (hfin i hin).eq] at hm1 hm2
  refine ⟨j, hj, ?_⟩
  have hjm : j < labels.length := by
    have := (List.getElem?_eq_some_iff.1 hm1).1
    rw [← List.length_map (f := realOf), hrl] at this
    exact this
  suffices hjc : j = classOf D.labels i by
    rw [hjc]
    show labels[_]? = _
    rw [hlabs]
    exact hcls
  by_contra hne'
  obtain ⟨x, hx, _, hx2⟩ := hsep i hin j hjm
  obtain ⟨z, hz, hz1, _⟩ := hsep i hin _ hcm
  have h1 := hz1 rfl
  have h2 := (hx2 (Ne.symm hne')).2 (List.length_pos_iff.2 hne)
  rw [hx] at hm1
  obtain rfl := Option.some.inj hm1
  have h3 := hm2 _ _ hz
  rw [XF.fin_lt, decide_eq_false_iff_not, not_lt] at h3
  simp only [mul_zero, zero_mul, add_zero] at h1
  linarith

/-- **C101 (training rows)**: over the reals, a regular model with at least one round predicts the label of every training row. -/
theorem C101_rows (S : GoSort) (draws : Nat → Exact ℝ) (X : List (List ℝ)) (D : DataBunch (Exact ℝ)) (O : Options (Exact ℝ))
    (lr : ℝ) (hL : Learnable O X D lr) (hbase : ∃ x, O.baseScore = XF.fin x) (M : MultiClass (Exact ℝ))
    (h : newMultiClass expR S draws D O = .ok M) (hne : M.b ≠ []) (i : Nat) (row : List (Exact ℝ)) (lab : Int)
    (hrow : D.data[i]? = some row) (hlab : D.labels[i]? = some lab) :
    ∃ k, M.predictSingleClass row = .ok k ∧ M.classLabels[k]? = some lab := by
  obtain ⟨base, hbase⟩ := hbase
  obtain ⟨labels, st, ht, rfl⟩ := newMultiClass_inv h
  obtain ⟨hfin, hinv, hsep, _⟩ := learn_scores S draws X D O lr base hL hbase labels st ht
  exact rows_of_apart S draws X D hL.data hL.labels O lr base hbase hL.stop labels st ht hfin hinv hsep hne i row lab hrow hlab

/-- the accuracy of a model that predicts the labels of its training rows -/
theorem accuracy_of_rows (S : GoSort) (draws : Nat → Exact ℝ) (D : DataBunch (Exact ℝ)) (hlen : D.data.length = D.labels.length)
    (O : Options (Exact ℝ)) (M : MultiClass (Exact ℝ)) (h : newMultiClass expR S draws D O = .ok M)
    (hrows : ∀ (i : Nat) row lab, D.data[i]? = some row → D.labels[i]? = some lab →
      ∃ k, M.predictSingleClass row = .ok k ∧ M.classLabels[k]? = some lab) : M.accuracy D = .ok (.fin 100) := by
  have hex : ∃ preds, D.data.mapM M.predictSingleClass = .ok preds := by
    have : ∀ l : List (List (Exact ℝ)), (∀ row ∈ l, ∃ k, M.predictSingleClass row = .ok k) → ∃ preds, l.mapM M.predictSingleClass = .ok preds := by
      intro l
      induction l with
      | nil => intro _; exact ⟨[], rfl⟩
      | cons a l ih =>
        intro hl
        obtain ⟨k, hk⟩ := hl a (by simp)
        obtain ⟨ks, hks⟩ := ih fun r hr => hl r (by simp [hr])
        exact ⟨k :: ks, by rw [List.mapM_cons, hk]; simp only [bind, Except.bind, hks]; rfl⟩
    refine this _ ?_
    intro row hr
    obtain ⟨i, hi⟩ := List.getElem?_of_mem hr
    have hil : i < D.labels.length := by rw [← hlen]; exact (List.getElem?_eq_some_iff.1 hi).1
    obtain ⟨k, hk, _⟩ := hrows i row _ hi (List.getElem?_eq_getElem hil)
    exact ⟨k, hk⟩
  obtain ⟨preds, hp⟩ := hex
  have hp' := List.forall₂_iff_get.1 (mapM_ok.1 hp)
  have hget : ∀ (i : Nat) p, preds[i]? = some p → ∃ row, D.data[i]? = some row ∧ M.predictSingleClass row = .ok p := by
    intro i p hi
    obtain ⟨h1, h2⟩ := List.getElem?_eq_some_iff.1 hi
    have h3 : i < D.data.length := by rw [hp'.1]; exact h1
    have := hp'.2 i h3 h1
    simp only [List.get_eq_getElem] at this
    rw [h2] at this
    exact ⟨_, List.getElem?_eq_getElem h3, this⟩
  have hright : ∀ (i : Nat) p lab, preds[i]? = some p → D.labels[i]? = some lab → M.classLabels[p]? = some lab := by
    intro i p lab h1 h2
    obtain ⟨row, h3, h4⟩ := hget i p h1
    obtain ⟨k, h5, h6⟩ := hrows i row lab h3 h2
    rw [h4] at h5
    obtain rfl := Except.ok.inj h5
    exact h6
  have hdne : D.data ≠ [] := by
    obtain ⟨labels, st, ht, rfl⟩ := newMultiClass_inv h
    have := (train_inv ht).1
    intro h0
    have h1 := hlen
    rw [h0] at h1
    exact this (List.length_eq_zero_iff.1 h1.symm)
  obtain ⟨a, h1, _, _, _, h2⟩ := C25_percentage M D preds hdne hp (by
    intro p hpm
    obtain ⟨i, hi⟩ := List.getElem?_of_mem hpm
    obtain ⟨row, h3, h4⟩ := hget i p hi
    exact C23_label expR S draws D O M h hlen row p h4) hlen.symm
  rw [h1, h2.2 hright]

/-- **C101 (accuracy)**: `Accuracy` on the training data returns 100. -/
theorem C101_accuracy (S : GoSort) (draws : Nat → Exact ℝ) (X : List (List ℝ)) (D : DataBunch (Exact ℝ)) (O : Options (Exact ℝ))
    (lr : ℝ) (hL : Learnable O X D lr) (hbase : ∃ x, O.baseScore = XF.fin x) (M : MultiClass (Exact ℝ))
    (h : newMultiClass expR S draws D O = .ok M) (hne : M.b ≠ []) : M.accuracy D = .ok (.fin 100) := by
  exact accuracy_of_rows S draws D hL.labels O M h (C101_rows S draws X D O lr hL hbase M h hne)

theorem exp_le_sum (r : List ℝ) : ∀ (k : Nat) (x : ℝ), r[k]? = some x → Real.exp x ≤ (r.map Real.exp).sum := by
  intro k x h
  refine List.single_le_sum ?_ _ (List.mem_map_of_mem (List.mem_of_getElem? h))
  intro y hy
  obtain ⟨z, _, rfl⟩ := List.mem_map.1 hy
  exact (Real.exp_pos z).le

theorem sum_exp_le_all (b : ℝ) (r : List ℝ) (h : ∀ y ∈ r, y ≤ b) : (r.map Real.exp).sum ≤ r.length * Real.exp b := by
  induction r with
  | nil => simp
  | cons a r ih =>
    have h1 := ih fun y hy => h y (by simp [hy])
    have h2 := Real.exp_le_exp.2 (h a (by simp))
    simp only [List.map_cons, List.sum_cons, List.length_cons]
    push_cast
    linarith

theorem sum_exp_le (r : List ℝ) : ∀ (k : Nat) (x b : ℝ), r[k]? = some x → (∀ (j : Nat) y, j ≠ k → r[j]? = some y → y ≤ b) →
    (r.map Real.exp).sum ≤ Real.exp x + (r.length - 1) * Real.exp b := by
  induction r with
  | nil => intro k x b h; simp at h
  | cons a r ih =>
    intro k x b h hb
    simp only [List.map_cons, List.sum_cons, List.length_cons]
    push_cast
    cases k with
    | zero =>
      simp only [List.getElem?_cons_zero, Option.some.injEq] at h
      subst h
      have := sum_exp_le_all b r fun y hy => by
        obtain ⟨j, hj⟩ := List.getElem?_of_mem hy
        exact hb (j + 1) y (by omega) (by simpa using hj)
      linarith
    | succ k =>
      have h1 := ih k x b (by simpa using h) fun j y hj hy => hb (j + 1) y (by omega) (by simpa using hy)
      have h2 := Real.exp_le_exp.2 (hb 0 a (by omega) (by simp))
      linarith

/-- **C101 (probabilities)**: with `MSELoss`, the default of regular boosting, the probability of the label of a training row is
at least `1 / (1 + (m-1)·exp(-2·LearningRate·R))` after `R` rounds with `m` classes. -/
theorem C101_probability (S : GoSort) (draws : Nat → Exact ℝ) (X : List (List ℝ)) (D : DataBunch (Exact ℝ)) (O : Options (Exact ℝ))
    (lr : ℝ) (hL : Learnable O X D lr) (hbase : ∃ x, O.baseScore = XF.fin x) (hmse : ∀ lv, O.loss = some lv → lv.fn = mseLoss)
    (M : MultiClass (Exact ℝ)) (h : newMultiClass expR S draws D O = .ok M) (hne : M.b ≠ []) :
    ∃ ps, TrueProbs M D ps ∧
      ∀ p ∈ ps, 1 / (1 + (M.classLabels.length - 1) * Real.exp (-2 * lr * M.b.length)) ≤ p := by
  obtain ⟨base, hbase⟩ := hbase
  obtain ⟨labels, st, ht, rfl⟩ := newMultiClass_inv h
  obtain ⟨hfin, hinv, _, hsep⟩ := learn_scores S draws X D O lr base hL hbase labels st ht
  have hsep := hsep hmse
  have hXl : X.length = D.data.length := by rw [hL.data]; simp [finRows]
  have hd := hXl.trans hL.labels
  have hlabs := (train_inv ht).2.1
  obtain ⟨ps, q1, _, _, q4⟩ := trueProbs_of_state S draws X D hL.data hd O base hbase labels st ht hinv hfin
    (train_off ht hL.stop).2 hne
  refine ⟨ps, q1, ?_⟩
  intro p hp
  obtain ⟨i, hi⟩ := List.getElem?_of_mem hp
  have hin : i < X.length := by rw [hXl, ← q1.len]; exact (List.getElem?_eq_some_iff.1 hi).1
  have hil : i < D.labels.length := by rw [← hd]; exact hin
  have hdat := List.getElem?_eq_getElem (show i < D.data.length by rw [← hXl]; exact hin)
  obtain ⟨out, k, h1, h2, h3⟩ := q1.get i _ _ p hdat (List.getElem?_eq_getElem hil) hi
  rw [q4 i _ hdat] at h1
  obtain rfl := Except.ok.inj h1
  have hcls := classOf_get hil
  have hk : k = classOf D.labels i := by
    have h2' : (distinctElements D.labels)[k]? = some D.labels[i] := by
      rw [← hlabs]
      exact h2
    obtain ⟨c1, c2⟩ := List.getElem?_eq_some_iff.1 h2'
    obtain ⟨d1, d2⟩ := List.getElem?_eq_some_iff.1 hcls
    exact ((C39_distinct D.labels).1.getElem_inj_iff (hi := c1) (hj := d1)).1 (by rw [c2, d2])
  set r : List ℝ := (st.rawPred.row i).map realOf with hr
  have hrl : r.length = labels.length := by
    rw [hr, List.length_map, Dense.row_length hinv.rawWF (by rw [hinv.rawR]; exact hin), hinv.rawC]
  have hkm : k < labels.length := by
    have := (List.getElem?_eq_some_iff.1 h2).1
    exact this
  have hrget : ∀ j < labels.length, ∃ x, r[j]? = some x ∧ (classOf D.labels i = j → base + lr * 1 * st.boosters.length ≤ x) ∧
      (classOf D.labels i ≠ j → x ≤ base - lr * 1 * st.boosters.length) := by
    intro j hj
    obtain ⟨x, a1, a2, a3⟩ := hsep i hin j hj
    refine ⟨x, ?_, a2, fun hc => (a3 hc).1⟩
    rw [hr, List.getElem?_map, a1]
    rfl
  have hp1 : p = (softmaxSpec r).getD k 1 := by
    unfold finV at h3
    rw [List.getElem?_map] at h3
    cases hs : (softmaxSpec r)[k]? with
    | none => rw [hs] at h3; cases h3
    | some x =>
      rw [hs] at h3
      simp only [Option.map_some, Option.some.injEq] at h3
      rw [List.getD_eq_getElem?_getD, hs]
      exact (fin_inj h3).symm
  rw [hp1, softmax_get (by omega)]
  obtain ⟨x, hx1, hx2, _⟩ := hrget k hkm
  have hx2 := hx2 hk.symm
  have hkr : r[k]'(by omega) = x := (List.getElem?_eq_some_iff.1 hx1).2
  rw [hkr]
  set R : ℝ := lr * 1 * st.boosters.length with hR
  have hsum : (r.map Real.exp).sum ≤ Real.exp x + (labels.length - 1) * Real.exp (base - R) := by
    rw [← hrl]
    refine sum_exp_le r k x _ hx1 ?_
    intro j y hj hy
    obtain ⟨y', b1, _, b3⟩ := hrget j (by rw [← hrl]; exact (List.getElem?_eq_some_iff.1 hy).1)
    rw [hy] at b1
    obtain rfl := Option.some.inj b1
    exact b3 (by rw [← hk]; exact Ne.symm hj)
  have hm1 : (1 : ℝ) ≤ labels.length := by exact_mod_cast (by omega : 1 ≤ labels.length)
  have hE : Real.exp (base - R) ≤ Real.exp x * Real.exp (-2 * lr * st.boosters.length) := by
    rw [← Real.exp_add]
    apply Real.exp_le_exp.2
    rw [hR] at hx2 ⊢
    linarith
  have hpos : 0 < (r.map Real.exp).sum := lt_of_lt_of_le (Real.exp_pos x) (exp_le_sum r k x hx1)
  have hden : 0 < 1 + ((labels.length : ℝ) - 1) * Real.exp (-2 * lr * st.boosters.length) := by
    have := mul_nonneg (sub_nonneg.2 hm1) (Real.exp_pos (-2 * lr * st.boosters.length)).le
    linarith
  show 1 / (1 + ((labels.length : ℝ) - 1) * Real.exp (-2 * lr * st.boosters.length)) ≤ _
  rw [div_le_div_iff₀ hden hpos, one_mul]
  refine hsum.trans ?_
  have := mul_le_mul_of_nonneg_left hE (sub_nonneg.2 hm1)
  nlinarith

/-! Non-vacuity: "exclusive or" of two features, four rows, with the default options of regular boosting except for the minimum
child weight. -/

/-- the four rows of "exclusive or" -/
def xorRows : List (List ℝ) := [[0, 0], [0, 1], [1, 0], [1, 1]]

/-- "exclusive or" as a training set -/
def xorData : DataBunch (Exact ℝ) := ⟨finRows xorRows, [], [0, 1, 1, 0], []⟩

/-- `DefaultGOptions` with single-row leaves allowed -/
noncomputable def singleRows : Options (Exact ℝ) := { (defaultGOptions 0 : Options (Exact ℝ)) with minChildWeight := .fin 1 }

theorem xor_learnable : Learnable singleRows xorRows xorData (1/10) := by
  refine ⟨rfl, rfl, ⟨2, by simp [xorRows]⟩, ?_, rfl, ?_, by norm_num, ?_, ?_, ⟨1, rfl, by norm_num⟩, ?_, le_rfl, ?_⟩
  · intro i j row hi hj
    have h := hi.trans hj.symm
    match i, j with
    | 0, 0 | 1, 1 | 2, 2 | 3, 3 | 1, 2 | 2, 1 | 0, 3 | 3, 0 => rfl
    | 0, 1 | 1, 0 | 0, 2 | 2, 0 | 1, 3 | 3, 1 | 2, 3 | 3, 2 => simp [xorRows] at h
    | i + 4, _ => simp [xorRows] at hi
    | _, j + 4 => simp [xorRows] at hj
  · simp [singleRows, defaultGOptions]
  · exact ⟨0, by simp [singleRows, defaultGOptions], le_rfl⟩
  · exact ⟨0, by simp [singleRows, defaultGOptions]⟩
  · simp [singleRows, defaultGOptions, xorRows]
  · exact ⟨_, rfl, Or.inr ⟨rfl, 0, by simp [xorData], 1, by simp [xorData], by decide⟩⟩

theorem xor_model : ∃ M, newMultiClass expR GoSort.ins (fun _ => .fin 0) xorData singleRows = .ok M ∧ M.b.length = 10 := by
  have hr : rowSub (singleRows : Options (Exact ℝ)) = false := by simp [rowSub, singleRows, defaultGOptions]
  obtain ⟨M, hM⟩ := C22_returns expR GoSort.ins (fun _ => .fin 0) xorData singleRows
    ⟨by simp [xorData, finRows, xorRows], ⟨2, by simp [xorData, finRows, xorRows]⟩, finRows_noNaN _, finRows_midSafe _⟩ rfl _ rfl
    mseLoss_regular (by
      unfold CapOk
      simp [rowSub, colSub, singleRows, defaultGOptions]) (by rw [hr]; simp)
  refine ⟨M, hM, ?_⟩
  have := C22_requested_partial expR GoSort.ins _ xorData _ M hM (Or.inr (by simp [singleRows, defaultGOptions]))
  rw [hr] at this
  simp [singleRows, defaultGOptions] at this
  omega

example : ∃ M, newMultiClass expR GoSort.ins (fun _ => .fin 0) xorData singleRows = .ok M ∧ M.accuracy xorData = .ok (.fin 100) ∧
    ∃ ps, TrueProbs M xorData ps ∧ ∀ p ∈ ps, 1 / (1 + Real.exp (-2)) ≤ p := by
  obtain ⟨M, hM, hl⟩ := xor_model
  have hne : M.b ≠ [] := by intro h; rw [h] at hl; simp at hl
  have hb : ∃ x, singleRows.baseScore = XF.fin x := ⟨0, by simp [singleRows, defaultGOptions]⟩
  refine ⟨M, hM, C101_accuracy _ _ _ _ _ _ xor_learnable hb M hM hne, ?_⟩
  obtain ⟨ps, h1, h2⟩ := C101_probability _ _ _ _ _ _ xor_learnable hb (by
    intro lv h
    obtain rfl := Option.some.inj h
    rfl) M hM hne
  refine ⟨ps, h1, fun p hp => ?_⟩
  have h3 := h2 p hp
  have hlab : M.classLabels.length = 2 := by
    rw [(C22_rounds expR GoSort.ins _ xorData _ M hM).2.1]
    decide
  rw [hl, hlab] at h3
  norm_num at h3 ⊢
  exact h3

/-! `Learnable` asks for regular boosting. The xgboost variant does not learn "exclusive or" at any depth: no split has a positive
gain, so every tree is a single leaf of value zero and the scores never leave zero (the exponential is used at zero only). -/

/-- "exclusive or" in binary64 -/
def xorData64 : DataBunch F64 :=
  ⟨[[.fin 0, .fin 0], [.fin 0, .fin 1], [.fin 1, .fin 0], [.fin 1, .fin 1]], [], [0, 1, 1, 0], []⟩

/-- xgboost options that put no obstacle in the way of splitting -/
def freeSplits : Options F64 :=
  { (defaultXOptions 0 : Options F64) with
      subSample := .fin 1, colSubSample := .fin 1, earlyStop := 0, minSample := 0, rounds := 5,
      minChildWeight := .fin 0, lambda := .fin 0, gamma := .fin 0, maxDepth := 10 }

/-- **C101 (limit)**: the xgboost variant stays at 50% on "exclusive or", whatever the depth allowed, and gives every row the
probability one half. -/
theorem C101_xgboost_xor : ∃ M, newMultiClass (fun _ => (.fin 1 : F64)) GoSort.ins (fun _ => .fin 0) xorData64 freeSplits = .ok M ∧
    M.b.length = 5 ∧ M.accuracy xorData64 = .ok (.fin 50) ∧
    ∀ row ∈ xorData64.data, M.predictSingle row = .ok [.fin (1/2), .fin (1/2)] := by
  have h : (match newMultiClass (fun _ => (.fin 1 : F64)) GoSort.ins (fun _ => .fin 0) xorData64 freeSplits with
      | .ok M => decide (M.b.length = 5 ∧ M.accuracy xorData64 = .ok (.fin 50) ∧
          ∀ row ∈ xorData64.data, M.predictSingle row = .ok [.fin (1/2), .fin (1/2)])
      | .error _ => false) = true := by decide +kernel
  split at h
  · rename_i M hM
    exact ⟨M, hM, of_decide_eq_true h⟩
  · cases h

end Boo
