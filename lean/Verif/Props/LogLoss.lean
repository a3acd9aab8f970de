import Verif.Lemmas.LogLoss
import Verif.Props.RealTrain
import Verif.Props.Repro

/-!
# C100: more rounds fit the training data better
-/

namespace Boo
open GoFloat Spec
set_option linter.unusedSectionVars false

/-- `ps` lists, row by row, the probability that `M` predicts for the label of the row. -/
structure TrueProbs (M : MultiClass (Exact ℝ)) (D : DataBunch (Exact ℝ)) (ps : List ℝ) : Prop where
  len : ps.length = D.data.length
  get : ∀ (i : Nat) row lab p, D.data[i]? = some row → D.labels[i]? = some lab → ps[i]? = some p →
    ∃ (out : List (Exact ℝ)) (k : Nat), M.predictSingle row = .ok out ∧ M.classLabels[k]? = some lab ∧ out[k]? = some (XF.fin p)

/-- the logarithmic loss (cross entropy) -/
noncomputable def logLoss (ps : List ℝ) : ℝ := (ps.map fun p => -Real.log p).sum

/-- there is only one such list -/
theorem TrueProbs.unique {M : MultiClass (Exact ℝ)} {D : DataBunch (Exact ℝ)} {ps qs : List ℝ}
    (hd : D.data.length = D.labels.length) (hn : M.classLabels.Nodup) (h : TrueProbs M D ps) (h' : TrueProbs M D qs) : ps = qs := by
  apply List.ext_getElem?
  intro i
  by_cases hi : i < D.data.length
  · have h1 : i < ps.length := by rw [h.len]; exact hi
    have h2 : i < qs.length := by rw [h'.len]; exact hi
    obtain ⟨out, k, a1, a2, a3⟩ := h.get i _ _ _ (List.getElem?_eq_getElem hi) (List.getElem?_eq_getElem (by omega))
      (List.getElem?_eq_getElem h1)
    obtain ⟨out', k', b1, b2, b3⟩ := h'.get i _ _ _ (List.getElem?_eq_getElem hi) (List.getElem?_eq_getElem (by omega))
      (List.getElem?_eq_getElem h2)
    rw [a1] at b1
    obtain rfl := Except.ok.inj b1
    have hk : k = k' := by
      obtain ⟨c1, c2⟩ := List.getElem?_eq_some_iff.1 a2
      obtain ⟨d1, d2⟩ := List.getElem?_eq_some_iff.1 b2
      exact (hn.getElem_inj_iff (hi := c1) (hj := d1)).1 (by rw [c2, d2])
    subst hk
    rw [a3] at b3
    rw [List.getElem?_eq_getElem h1, List.getElem?_eq_getElem h2, fin_inj (Option.some.inj b3)]
  · rw [List.getElem?_eq_none (by rw [h.len]; omega), List.getElem?_eq_none (by rw [h'.len]; omega)]

/-- the class index of row `i` -/
def classOf (labels : List Int) (i : Nat) : Nat := (distinctElements labels).idxOf (labels.getD i 0)

theorem classOf_get {labels : List Int} {i : Nat} (h : i < labels.length) :
    (distinctElements labels)[classOf labels i]? = some labels[i] := by
  unfold classOf
  rw [getD_get h]
  have := ((C39_distinct labels).2.1 labels[i]).2 (List.getElem_mem h)
  rw [List.getElem?_eq_getElem (List.idxOf_lt_length_iff.2 this), List.getElem_idxOf]

/-- what training over the reals starts from -/
theorem train_setup (X : List (List ℝ)) (D : DataBunch (Exact ℝ)) (hd : X.length = D.labels.length)
    (O : Options (Exact ℝ)) (hO : RealOptions O) (hloss : LossFits O D.labels) (labels : List Int) (ohe : Dense (Exact ℝ))
    (hl : D.labels ≠ []) (hlab : labels = distinctElements D.labels) (hohe : oneHotEncodeDense D.labels = .ok (ohe, labels)) :
    ∃ lv, O.loss = some lv ∧ (lv.fn = sqErrLoss ∨ lv.fn = mseLoss ∧ 2 ≤ labels.length) ∧
      RealSetup X O.fixMcw ohe X.length labels.length (lv.fn = sqErrLoss) ∧
      (∀ i < X.length, classOf D.labels i < labels.length) ∧
      ∀ k y, k < labels.length → denseCol ohe k = .ok y → ∃ y' : List ℝ, y = finV y' ∧ y'.length = X.length ∧
        ∀ i < X.length, y'.getD i 0 = if classOf D.labels i = k then 1 else 0 := by
  have hfix : ∃ f, O.fixMcw = { O with minChildWeight := f } := by
    unfold Options.fixMcw
    split
    · exact ⟨_, rfl⟩
    · exact ⟨O.minChildWeight, rfl⟩
  obtain ⟨f, hf⟩ := hfix
  have hohe' : oneHotEncodeDense D.labels = .ok (ohe, distinctElements D.labels) := by
    rw [hlab] at hohe
    exact hohe
  have htwo : ∀ a ∈ D.labels, ∀ b ∈ D.labels, a ≠ b → 2 ≤ labels.length := by
    intro a ha b hb hab
    have := distinct_two ha hb hab
    rw [← hlab] at this
    omega
  have hcol : ∀ k y, k < labels.length → denseCol ohe k = .ok y → ∃ y' : List ℝ, y = finV y' ∧ y'.length = X.length ∧
      ∀ i < X.length, y'.getD i 0 = if classOf D.labels i = k then 1 else 0 := by
    intro k y hkm hy
    rw [hlab] at hkm
    have := ohe_column hl hohe' (List.getElem?_eq_getElem hkm) hy
    refine ⟨D.labels.map fun l => if l = (distinctElements D.labels)[k] then 1 else 0, ?_, by simp [hd], ?_⟩
    · rw [this]
      unfold indicator finV
      rw [List.map_map]
      apply List.map_congr_left
      intro l _
      simp only [Function.comp_apply]
      split <;> simp
    · intro i hi
      rw [hd] at hi
      rw [getD_get (by simpa using hi), List.getElem_map]
      have hc := classOf_get hi
      obtain ⟨c1, c2⟩ := List.getElem?_eq_some_iff.1 hc
      have : D.labels[i] = (distinctElements D.labels)[k] ↔ classOf D.labels i = k := by
        rw [← c2]
        exact (C39_distinct D.labels).1.getElem_inj_iff
      simp only [this]
  obtain ⟨lv, hlv, hk⟩ := hloss
  have hs : RealSetup X O.fixMcw ohe X.length labels.length (lv.fn = sqErrLoss) := by
    refine ⟨?_, rfl, ?_, ?_, ?_, ?_⟩
    · rw [hf]
      exact ⟨hO.lr, hO.lam, hO.gam⟩
    · rw [hd]
      exact List.length_pos_iff.2 hl
    · intro k y hkm hy
      obtain ⟨y', h1, h2, _⟩ := hcol k y hkm hy
      exact ⟨y', h1, h2⟩
    · intro lv' hlv'
      rw [hf] at hlv'
      rw [show lv' = lv from Option.some.inj (hlv'.symm.trans hlv)]
      rcases hk with hk | ⟨hk, _⟩
      · rw [hk]
        exact ⟨fun y p h1 h2 => sqErr_real.ok y p h1 fun v hv => ⟨(h2 v hv).1, Or.inr trivial⟩⟩
      · rw [hk]
        refine ⟨fun y p h1 h2 => mse_real.ok y p h1 fun v hv => ⟨(h2 v hv).1, ?_⟩⟩
        rcases (h2 v hv).2 with h | h
        · exact Or.inl h
        · exfalso
          have : (mseLoss : LossFunc (Exact ℝ)).hessian [.fin 0] = sqErrLoss.hessian [.fin 0] := by rw [h]
          simp [mseLoss, sqErrLoss] at this
    · intro hlt
      rcases hk with hk | ⟨_, a, ha, b, hb, hab⟩
      · exact hk
      · have := distinct_two ha hb hab
        rw [← hlab] at this
        omega
  refine ⟨lv, hlv, ?_, hs, ?_, hcol⟩
  · rcases hk with hk | ⟨hk, a, ha, b, hb, hab⟩
    · exact Or.inl hk
    · exact Or.inr ⟨hk, htwo a ha b hb hab⟩
  · intro i hi
    rw [hlab]
    exact (List.getElem?_eq_some_iff.1 (classOf_get (by omega : i < D.labels.length))).1

/-- the states of a training run after `R` of its rounds and at the end -/
theorem train_better (S : GoSort) (draws : Nat → Exact ℝ) (X : List (List ℝ)) (D : DataBunch (Exact ℝ))
    (hX : D.data = finRows X) (hd : X.length = D.labels.length)
    (O : Options (Exact ℝ)) (hO : RealOptions O) (base lr lam : ℝ) (hbase : O.baseScore = .fin base)
    (hlr : O.learningRate = .fin lr) (hlam : O.lambda = .fin lam) (hrow : rowSub O = false)
    (hloss : LossFits O D.labels) (hstep : ∀ lv, O.loss = some lv → StepOk O lv.fn lr lam X.length) (R : Int) (hR : R ≤ O.rounds)
    (labels : List Int) (st : TrainState (Exact ℝ)) (ht : train expR S draws D O = .ok (labels, st)) :
    ∃ st0 st1, train expR S draws D { O with rounds := R } = .ok (labels, st1) ∧
      (∀ i < X.length, st0.rawPred.row i = List.replicate labels.length (.fin base)) ∧
      (∀ s ∈ [st0, st1, st], TInv expR X.length labels.length s ∧ ∀ i < X.length, AllFin (s.rawPred.row i)) ∧
      Better X.length (classOf D.labels) st0 st1 ∧ Better X.length (classOf D.labels) st1 st := by
  have hms : rowSub O = true → 1 ≤ O.minSample := by rw [hrow]; simp
  have hfixR : ({ O with rounds := R } : Options (Exact ℝ)).fixMcw = { O.fixMcw with rounds := R } := by
    unfold Options.fixMcw
    simp only
    split <;> rfl
  have hall := train_real S draws X D hX hd O hO ⟨base, hbase⟩ hloss hms labels st ht
  obtain ⟨hl, hlab, ohe, st0, hohe, hr0, hc0, hw, hinit, hrounds⟩ := train_inv ht
  obtain ⟨i1, i2, i3, _, _, _, i7⟩ := trainInit_inv hinit hr0 hc0
  obtain ⟨e, he⟩ : ∃ e, O.rounds.toNat = R.toNat + e := ⟨O.rounds.toNat - R.toNat, by omega⟩
  have hfull := hrounds
  rw [he, List.range_add, List.foldlM_append] at hrounds
  obtain ⟨st1, h4, h5⟩ := bind_ok hrounds
  have ht1 : train expR S draws D { O with rounds := R } = .ok (labels, st1) := by
    unfold train trainWith
    have hi : trainInit (softMaxDense expR) { O with rounds := R } ohe labels.length draws = .ok st0 := hinit
    simp only [hohe, hi, bind, Except.bind, hfixR]
    have h4' : (List.range R.toNat).foldlM (trainRound (softMaxDense expR) S D.data { O.fixMcw with rounds := R } ohe
        labels.length) st0 = .ok st1 := h4
    rw [h4']
    rfl
  have hall1 := train_real S draws X D hX hd { O with rounds := R } ⟨hO.lr, hO.lam, hO.gam⟩ ⟨base, hbase⟩ hloss hms labels st1 ht1
  have hDl : D.data.length = D.labels.length := by rw [hX]; simpa [finRows] using hd
  have t1 := (trainRounds_inv h4 i1 hDl i2).1
  have t2 := (trainRounds_inv hfull i1 hDl i2).1
  rw [← hd] at i1 t1 t2 hall hall1
  rw [← hd] at i7
  have hraw0 : ∀ i < X.length, st0.rawPred.row i = List.replicate labels.length (.fin base) := by
    intro i hi
    rw [i7 i hi, hbase]
    congr 1
    simp
  have hfin0 : ∀ i < X.length, AllFin (st0.rawPred.row i) := by
    intro i hi v hv
    rw [hraw0 i hi, List.mem_replicate] at hv
    exact ⟨base, hv.2⟩
  obtain ⟨lv, hlv, _, hs, hcls, hcol⟩ := train_setup X D hd O hO hloss labels ohe hl hlab hohe
  have hfix : ∃ f, O.fixMcw = { O with minChildWeight := f } := by
    unfold Options.fixMcw
    split
    · exact ⟨_, rfl⟩
    · exact ⟨O.minChildWeight, rfl⟩
  obtain ⟨f, hf⟩ := hfix
  have hL : LossSetup X O.fixMcw ohe X.length labels.length (classOf D.labels) lr lam := by
    refine ⟨by rw [hf]; exact hlr, by rw [hf]; exact hlam, by rw [hf]; exact hrow, hcls, hcol, ?_⟩
    · intro lv' hlv'
      rw [hf] at hlv' ⊢
      exact hstep lv' hlv'
  rw [hX] at h4 h5
  refine ⟨st0, st1, ht1, hraw0, ?_, ?_, ?_⟩
  · intro s hs'
    simp only [List.mem_cons, List.not_mem_nil, or_false] at hs'
    rcases hs' with rfl | rfl | rfl
    · exact ⟨i1, hfin0⟩
    · exact ⟨t1, hall1.raw⟩
    · exact ⟨t2, hall.raw⟩
  · exact trainRounds_better hs hL _ h4 i1 hfin0
  · exact trainRounds_better hs hL _ h5 t1 hall1.raw

/-- the predictions of a model for its training rows -/
theorem trueProbs_of_state (S : GoSort) (draws : Nat → Exact ℝ) (X : List (List ℝ)) (D : DataBunch (Exact ℝ))
    (hX : D.data = finRows X) (hd : X.length = D.labels.length) (O : Options (Exact ℝ)) (base : ℝ) (hbase : O.baseScore = .fin base)
    (labels : List Int) (st : TrainState (Exact ℝ)) (ht : train expR S draws D O = .ok (labels, st))
    (hi : TInv expR X.length labels.length st) (hr : ∀ i < X.length, AllFin (st.rawPred.row i))
    (hfull : ∀ ens ∈ st.boosters, ens.length = labels.length) (hne : st.boosters ≠ []) :
    ∃ ps, TrueProbs (toModel expR O labels st) D ps ∧ (∀ p ∈ ps, 0 < p ∧ p ≤ 1) ∧ logLoss ps = totalLoss X.length (classOf D.labels) st ∧
      ∀ (i : Nat) row, D.data[i]? = some row → (toModel expR O labels st).predictSingle row = .ok (finV (softmaxSpec ((st.rawPred.row i).map realOf))) := by
  have hDl : D.data.length = D.labels.length := by rw [hX]; simpa [finRows] using hd
  have hlab := (train_inv ht).2.1
  have hb : (O.baseScore *. one) = O.baseScore := by rw [hbase]; simp
  have hrl : ∀ i < X.length, ((st.rawPred.row i).map realOf).length = labels.length := by
    intro i hin
    rw [List.length_map, Dense.row_length hi.rawWF (by rw [hi.rawR]; exact hin), hi.rawC]
  have hcls : ∀ i < X.length, classOf D.labels i < labels.length := by
    intro i hin
    rw [hlab]
    exact (List.getElem?_eq_some_iff.1 (classOf_get (by omega : i < D.labels.length))).1
  have hpred : ∀ (i : Nat) row, D.data[i]? = some row →
      (toModel expR O labels st).predictSingle row = .ok (finV (softmaxSpec ((st.rawPred.row i).map realOf))) := by
    intro i row hrow
    have hin : i < X.length := by
      have := (List.getElem?_eq_some_iff.1 hrow).1
      omega
    rw [(C20_partial expR S draws D O labels st ht hDl hb hfull hne i row hrow).2]
    have hs := hi.soft i hin
    have h0 := hcls i hin
    rw [(hr i hin).eq, softMax_real _ (by
      intro h1
      have := hrl i hin
      rw [h1] at this
      simp at this
      omega)] at hs
    exact hs.symm
  refine ⟨(List.range X.length).map fun i => (softmaxSpec ((st.rawPred.row i).map realOf)).getD (classOf D.labels i) 1,
    ⟨by simp [hDl, hd], ?_⟩, ?_, ?_, hpred⟩
  · intro i row lab p hrow hlab' hp
    have hin : i < X.length := by
      have := (List.getElem?_eq_some_iff.1 hrow).1
      omega
    refine ⟨_, classOf D.labels i, hpred i row hrow, ?_, ?_⟩
    · obtain ⟨h1, h2⟩ := List.getElem?_eq_some_iff.1 hlab'
      show labels[_]? = _
      rw [hlab, classOf_get h1, h2]
    · rw [List.getElem?_map, List.getElem?_range hin] at hp
      simp only [Option.map_some, Option.some.injEq] at hp
      rw [← hp]
      have hlt : classOf D.labels i < (softmaxSpec ((st.rawPred.row i).map realOf)).length := by
        rw [softmaxSpec_length, hrl i hin]
        exact hcls i hin
      rw [getD_get hlt]
      unfold finV
      rw [List.getElem?_map, List.getElem?_eq_getElem hlt]
      rfl
  · intro p hp
    obtain ⟨i, hir, rfl⟩ := List.mem_map.1 hp
    have hin := List.mem_range.1 hir
    have hlt := hcls i hin
    rw [← hrl i hin] at hlt
    rw [softmax_get hlt]
    have hne' : (st.rawPred.row i).map realOf ≠ [] := by intro h0; rw [h0] at hlt; simp at hlt
    refine ⟨div_pos (Real.exp_pos _) (sum_exp_pos hne'), ?_⟩
    rw [div_le_one (sum_exp_pos hne')]
    exact List.single_le_sum (fun x hx => by
      obtain ⟨y, _, rfl⟩ := List.mem_map.1 hx
      exact (Real.exp_pos y).le) _ (List.mem_map.2 ⟨_, List.getElem_mem _, rfl⟩)
  · unfold logLoss totalLoss
    rw [List.map_map]
    rfl

/-- What is assumed in C100: finite options, no row subsampling, and a learning rate that is not too large. With squared error
(`SQErrLoss`) learning rates below 8 will do; with xgboost and either loss of the package it is enough that the learning rate times the number of rows is below
`8·Lambda`. -/
structure GentleSteps (O : Options (Exact ℝ)) (D : DataBunch (Exact ℝ)) (lr lam : ℝ) : Prop where
  lrEq : O.learningRate = .fin lr
  lamEq : O.lambda = .fin lam
  lr0 : 0 ≤ lr
  lam0 : 0 ≤ lam
  gam : ∃ x, O.gamma = XF.fin x
  base : ∃ x, O.baseScore = XF.fin x
  rows : O.xgb = true → (O.subSample <. one) = false
  loss : ∃ lv, O.loss = some lv ∧
    ((lv.fn = sqErrLoss ∧ (lr < 8 ∨ (O.xgb = true ∧ lr * D.data.length < 8 * lam))) ∨
      (lv.fn = mseLoss ∧ O.xgb = true ∧ lr * D.data.length < 8 * lam ∧ ∃ a ∈ D.labels, ∃ b ∈ D.labels, a ≠ b))

theorem GentleSteps.real {O : Options (Exact ℝ)} {D : DataBunch (Exact ℝ)} {lr lam : ℝ} (h : GentleSteps O D lr lam) :
    RealOptions O ∧ rowSub O = false ∧ LossFits O D.labels ∧ ∀ lv, O.loss = some lv → StepOk O lv.fn lr lam D.data.length := by
  obtain ⟨lv, hlv, hcase⟩ := h.loss
  refine ⟨⟨⟨_, h.lrEq⟩, ⟨lam, h.lamEq, h.lam0⟩, h.gam⟩, ?_, ⟨lv, hlv, ?_⟩, ?_⟩
  · unfold rowSub
    cases hx : O.xgb with
    | false => simp
    | true => rw [h.rows hx]; rfl
  · rcases hcase with ⟨h1, _⟩ | ⟨h1, _, _, h2⟩
    · exact Or.inl h1
    · exact Or.inr ⟨h1, h2⟩
  · intro lv' hlv'
    rw [show lv' = lv from Option.some.inj (hlv'.symm.trans hlv)]
    refine ⟨h.lr0, h.lam0, ?_⟩
    rcases hcase with ⟨h1, h2 | ⟨h2, h3⟩⟩ | ⟨h1, h2, h3, _⟩
    · exact Or.inl ⟨h1, h2⟩
    · exact Or.inr ⟨h2, Or.inl h1, h3⟩
    · exact Or.inr ⟨h2, Or.inr h1, h3⟩

/-- **C100 (more rounds)**: over the reals, training with more rounds from the same generator gives a model whose logarithmic
loss on the training data is strictly lower, unless it predicts exactly the same probabilities for all training rows.
(Classes that stopped early are excluded: with `EarlyStop ≤ 0` all rounds are full, `C22_rounds`.) -/
theorem C100_more_rounds (S : GoSort) (draws : Nat → Exact ℝ) (X : List (List ℝ)) (D : DataBunch (Exact ℝ))
    (hX : D.data = finRows X) (hd : D.data.length = D.labels.length) (O : Options (Exact ℝ)) (lr lam : ℝ)
    (hG : GentleSteps O D lr lam) (R : Int) (hR : R ≤ O.rounds)
    (M M' : MultiClass (Exact ℝ)) (h' : newMultiClass expR S draws D O = .ok M')
    (h : newMultiClass expR S draws D { O with rounds := R } = .ok M) (hne : M.b ≠ [])
    (hfull : ∀ ens ∈ M'.b, ens.length = M'.classLabels.length) :
    ∃ ps ps', TrueProbs M D ps ∧ TrueProbs M' D ps' ∧ (∀ p ∈ ps ++ ps', 0 < p ∧ p ≤ 1) ∧
      (logLoss ps' < logLoss ps ∨ ∀ row ∈ D.data, M'.predictSingle row = M.predictSingle row) := by
  obtain ⟨hO, hrow, hloss, hstep⟩ := hG.real
  obtain ⟨base, hbase⟩ := hG.base
  have hXl : X.length = D.data.length := by rw [hX]; simp [finRows]
  obtain ⟨labels, st, ht, rfl⟩ := newMultiClass_inv h'
  obtain ⟨st0, st1, ht1, _, hall, _, hb⟩ := train_better S draws X D hX (hXl.trans hd) O hO base lr lam hbase hG.lrEq hG.lamEq hrow
    hloss (by rw [hXl]; exact hstep) R hR labels st ht
  obtain ⟨labels', st1', ht1', rfl⟩ := newMultiClass_inv h
  rw [ht1] at ht1'
  obtain ⟨rfl, rfl⟩ := Prod.mk.inj (Except.ok.inj ht1')
  have hpre : st1.boosters <+: st.boosters := by
    obtain ⟨M2, h2, h3, _⟩ := C77_prefix expR S draws D O R hR _ h'
    rw [h] at h2
    obtain rfl := Except.ok.inj h2
    exact h3
  have hne' : st.boosters ≠ [] := by
    intro h0
    rw [h0] at hpre
    exact hne (List.prefix_nil.1 hpre)
  obtain ⟨ps, q1, q2, q3, q4⟩ := trueProbs_of_state S draws X D hX (hXl.trans hd) { O with rounds := R } base hbase labels st1 ht1
    (hall st1 (by simp)).1 (hall st1 (by simp)).2 (fun ens he => hfull ens (hpre.subset he)) hne
  obtain ⟨ps', r1, r2, r3, r4⟩ := trueProbs_of_state S draws X D hX (hXl.trans hd) O base hbase labels st ht
    (hall st (by simp)).1 (hall st (by simp)).2 hfull hne'
  refine ⟨ps, ps', q1, r1, ?_, ?_⟩
  · intro p hp
    rcases List.mem_append.1 hp with hp | hp
    · exact q2 p hp
    · exact r2 p hp
  · rw [q3, r3]
    rcases hb with hb | hb
    · exact Or.inl hb
    · right
      intro row hrow
      obtain ⟨i, hi⟩ := List.getElem?_of_mem hrow
      rw [r4 i row hi, q4 i row hi, hb i (by rw [hXl]; exact (List.getElem?_eq_some_iff.1 hi).1)]

/-- **C100 (monotone)**: so the logarithmic loss on the training data never grows with the number of rounds. -/
theorem C100_monotone (S : GoSort) (draws : Nat → Exact ℝ) (X : List (List ℝ)) (D : DataBunch (Exact ℝ))
    (hX : D.data = finRows X) (hd : D.data.length = D.labels.length) (O : Options (Exact ℝ)) (lr lam : ℝ)
    (hG : GentleSteps O D lr lam) (R : Int) (hR : R ≤ O.rounds)
    (M M' : MultiClass (Exact ℝ)) (h' : newMultiClass expR S draws D O = .ok M')
    (h : newMultiClass expR S draws D { O with rounds := R } = .ok M) (hne : M.b ≠ [])
    (hfull : ∀ ens ∈ M'.b, ens.length = M'.classLabels.length) (ps ps' : List ℝ) (hp : TrueProbs M D ps) (hp' : TrueProbs M' D ps') :
    logLoss ps' ≤ logLoss ps := by
  obtain ⟨qs, qs', a, b, _, c⟩ := C100_more_rounds S draws X D hX hd O lr lam hG R hR M M' h' h hne hfull
  have hlab := (C22_rounds expR S draws D _ M h).2.1
  have hlab' := (C22_rounds expR S draws D _ M' h').2.1
  have hn : M.classLabels.Nodup := by rw [hlab]; exact (C39_distinct _).1
  have hn' : M'.classLabels.Nodup := by rw [hlab']; exact (C39_distinct _).1
  rw [hp.unique hd hn a, hp'.unique hd hn' b]
  rcases c with c | c
  · exact c.le
  · have : TrueProbs M D qs' := by
      refine ⟨b.len, ?_⟩
      intro i row lab p h1 h2 h3
      obtain ⟨out, k, g1, g2, g3⟩ := b.get i row lab p h1 h2 h3
      refine ⟨out, k, ?_, ?_, g3⟩
      · rw [← c row (List.mem_of_getElem? h1)]
        exact g1
      · rw [hlab, ← hlab']
        exact g2
    rw [this.unique hd hn a]

theorem rowLoss_const (m j : Nat) (hj : j < m) (b : ℝ) : rowLoss (List.replicate m b) j = Real.log m := by
  rw [rowLoss_eq (by simpa using hj)]
  simp only [List.map_replicate, List.sum_replicate, List.getElem_replicate, nsmul_eq_mul]
  rw [Real.log_mul (by
    have : 0 < m := by omega
    exact_mod_cast this.ne') (Real.exp_pos _).ne', Real.log_exp]
  ring

/-- **C100 (better than guessing)**: over the reals, a trained model with at least one round has a logarithmic loss on the training data below
that of predicting all `m` classes with probability `1/m` (which is `n·log m`), unless it predicts exactly that for every training row. -/
theorem C100_guess (S : GoSort) (draws : Nat → Exact ℝ) (X : List (List ℝ)) (D : DataBunch (Exact ℝ))
    (hX : D.data = finRows X) (hd : D.data.length = D.labels.length) (O : Options (Exact ℝ)) (lr lam : ℝ)
    (hG : GentleSteps O D lr lam) (M : MultiClass (Exact ℝ)) (h : newMultiClass expR S draws D O = .ok M) (hne : M.b ≠ [])
    (hfull : ∀ ens ∈ M.b, ens.length = M.classLabels.length) :
    ∃ ps, TrueProbs M D ps ∧ (∀ p ∈ ps, 0 < p ∧ p ≤ 1) ∧
      (logLoss ps < D.data.length * Real.log M.classLabels.length ∨
        ∀ row ∈ D.data, M.predictSingle row = .ok (List.replicate M.classLabels.length (.fin (1 / M.classLabels.length)))) := by
  obtain ⟨hO, hrow, hloss, hstep⟩ := hG.real
  obtain ⟨base, hbase⟩ := hG.base
  have hXl : X.length = D.data.length := by rw [hX]; simp [finRows]
  obtain ⟨labels, st, ht, rfl⟩ := newMultiClass_inv h
  obtain ⟨st0, st1, _, h0, hall, hb1, hb2⟩ := train_better S draws X D hX (hXl.trans hd) O hO base lr lam hbase hG.lrEq hG.lamEq hrow
    hloss (by rw [hXl]; exact hstep) O.rounds le_rfl labels st ht
  have hb := hb1.trans hb2
  obtain ⟨ps, r1, r2, r3, r4⟩ := trueProbs_of_state S draws X D hX (hXl.trans hd) O base hbase labels st ht
    (hall st (by simp)).1 (hall st (by simp)).2 hfull hne
  refine ⟨ps, r1, r2, ?_⟩
  have hlab := (train_inv ht).2.1
  have hcls : ∀ i < X.length, classOf D.labels i < labels.length := by
    intro i hin
    rw [hlab]
    exact (List.getElem?_eq_some_iff.1 (classOf_get (by omega : i < D.labels.length))).1
  have hrep : ∀ i < X.length, (st0.rawPred.row i).map realOf = List.replicate labels.length base := by
    intro i hi
    rw [h0 i hi, List.map_replicate]
    rfl
  have htot : totalLoss X.length (classOf D.labels) st0 = D.data.length * Real.log labels.length := by
    unfold totalLoss
    rw [List.map_congr_left (g := fun _ => Real.log labels.length) (fun i hi => by
      have hin := List.mem_range.1 hi
      rw [hrep i hin, rowLoss_const _ _ (hcls i hin)])]
    simp [hXl]
  rcases hb with hb | hb
  · left
    rw [r3]
    rw [htot] at hb
    exact hb
  · right
    intro row hrow
    obtain ⟨i, hi⟩ := List.getElem?_of_mem hrow
    have hin : i < X.length := by rw [hXl]; exact (List.getElem?_eq_some_iff.1 hi).1
    rw [r4 i row hi, hb i hin, hrep i hin]
    congr 1
    unfold softmaxSpec finV
    simp only [List.map_replicate, List.sum_replicate, nsmul_eq_mul]
    show _ = List.replicate labels.length _
    congr 2
    have hm : (labels.length : ℝ) ≠ 0 := by
      have := hcls i hin
      have : 0 < labels.length := by omega
      exact_mod_cast this.ne'
    show _ = 1 / (labels.length : ℝ)
    field_simp [(Real.exp_pos base).ne']

/-! Non-vacuity of C100: the default options of `DefaultXOptions` without row subsampling and early stopping. -/

/-- xgboost options without row subsampling -/
noncomputable def keepRows : Options (Exact ℝ) :=
  { (defaultXOptions 0 : Options (Exact ℝ)) with
      subSample := .fin 1, colSubSample := .fin 1,
      earlyStop := 0, minSample := 0, minChildWeight := .fin 0 }

theorem keepRows_gentle : GentleSteps keepRows realData (3/10) (15/10) := by
  refine ⟨?_, ?_, by norm_num, by norm_num, ⟨_, rfl⟩, ⟨_, rfl⟩, fun _ => ?_, ⟨_, rfl, Or.inl ⟨rfl, Or.inl (by norm_num)⟩⟩⟩
  · simp [keepRows, defaultXOptions]
  · simp [keepRows, defaultXOptions]
  · simp [keepRows]

theorem keepRows_full (R : Int) (hR : 0 < R) :
    ∃ M, newMultiClass expR GoSort.ins (fun _ => .fin 0) realData { keepRows with rounds := R } = .ok M ∧ M.b ≠ [] ∧
      ∀ ens ∈ M.b, ens.length = M.classLabels.length := by
  have hr : rowSub ({ keepRows with rounds := R } : Options (Exact ℝ)) = false := by simp [rowSub, keepRows]
  obtain ⟨M, hM⟩ := C22_returns expR GoSort.ins (fun _ => .fin 0) realData { keepRows with rounds := R }
    ⟨by simp [realData, finRows], ⟨1, by simp [realData, finRows]⟩, finRows_noNaN _, finRows_midSafe _⟩ rfl _ rfl
    sqErrLoss_regular (by
      unfold CapOk
      simp [rowSub, colSub, keepRows]) (by rw [hr]; simp)
  have hl : (M.b.length : Int) = R := by
    have := C22_requested_partial expR GoSort.ins _ realData _ M hM (Or.inr (by simp [keepRows]))
    rw [hr] at this
    simp at this
    omega
  refine ⟨M, hM, by intro h; rw [h] at hl; simp at hl; omega, ?_⟩
  exact (C22_rounds expR GoSort.ins _ realData _ M hM).2.2 (by simp [keepRows])

example : ∃ M M' ps ps', newMultiClass expR GoSort.ins (fun _ => .fin 0) realData { keepRows with rounds := 3 } = .ok M ∧
    newMultiClass expR GoSort.ins (fun _ => .fin 0) realData keepRows = .ok M' ∧
    TrueProbs M realData ps ∧ TrueProbs M' realData ps' ∧ logLoss ps' ≤ logLoss ps ∧
    (logLoss ps < 2 * Real.log 2 ∨ ∀ row ∈ realData.data, M.predictSingle row = .ok [.fin (1 / 2), .fin (1 / 2)]) := by
  obtain ⟨M, h1, h2, h3⟩ := keepRows_full 3 (by norm_num)
  obtain ⟨M', h1', _, h3'⟩ := keepRows_full 20 (by norm_num)
  obtain ⟨ps, ps', a, b, _, c⟩ := C100_more_rounds _ _ [[0], [1]] realData rfl rfl keepRows _ _ keepRows_gentle 3 (by simp [keepRows, defaultXOptions])
    M M' h1' h1 h2 h3'
  have hlab := (C22_rounds expR GoSort.ins _ realData _ M h1).2.1
  have hl2 : M.classLabels.length = 2 := by rw [hlab]; decide
  refine ⟨M, M', ps, ps', h1, h1', a, b, C100_monotone _ _ [[0], [1]] realData rfl rfl keepRows _ _ keepRows_gentle 3
    (by simp [keepRows, defaultXOptions]) M M' h1' h1 h2 h3' ps ps' a b, ?_⟩
  obtain ⟨qs, e1, _, e3⟩ := C100_guess _ _ [[0], [1]] realData rfl rfl { keepRows with rounds := 3 } _ _
    ⟨keepRows_gentle.lrEq, keepRows_gentle.lamEq, keepRows_gentle.lr0, keepRows_gentle.lam0, keepRows_gentle.gam, keepRows_gentle.base,
      keepRows_gentle.rows, keepRows_gentle.loss⟩ M h1 h2 h3
  rw [a.unique rfl (by rw [hlab]; exact (C39_distinct _).1) e1]
  rw [hl2] at e3
  simpa [realData, finRows] using e3

end Boo
