import Verif.Lemmas.Calibration
import Verif.Props.LogLoss
import Mathlib.Topology.Order.MonotoneConvergence
import Mathlib.Topology.Algebra.Order.LiminfLimsup
import Mathlib.Analysis.SpecialFunctions.Exp
import Mathlib.Analysis.SpecialFunctions.Pow.NNReal

/-!
# C112: with many rounds the probabilities are calibrated on the training data
-/

namespace Boo
open GoFloat Spec Filter Topology
set_option linter.unusedSectionVars false

/-- What is assumed in C112: squared error, a learning rate below 8, no early stopping, every round trained on all rows. -/
structure FitsAll (O : Options (Exact ℝ)) (X : List (List ℝ)) (D : DataBunch (Exact ℝ)) (lr lam gam w : ℝ) : Prop where
  data : D.data = finRows X
  labels : D.data.length = D.labels.length
  lrEq : O.learningRate = .fin lr
  lr0 : 0 < lr
  lr8 : lr < 8
  lamEq : O.lambda = .fin lam
  lam0 : 0 ≤ lam
  gamEq : O.gamma = .fin gam
  gam0 : 0 ≤ gam
  base : ∃ x, O.baseScore = XF.fin x
  mcw : O.minChildWeight = .fin w
  mcwTop : w < 2 ^ 63
  rows : O.xgb = true → (O.subSample <. one) = false
  minSample : O.minSample ≤ 0
  stop : O.earlyStop ≤ 0
  loss : ∃ lv, O.loss = some lv ∧ lv.fn = sqErrLoss

/-- The number of rows of `A` with label `lab` -/
def labelCount (labels : List Int) (A : List Nat) (lab : Int) : Nat := (A.filter fun i => decide (labels[i]? = some lab)).length

/-- The probabilities that the models predict for the training rows: `P R i k` is that of the `k`-th class for row `i` in the
model trained with `R` rounds. -/
def PredictsAll (M : ℕ → MultiClass (Exact ℝ)) (D : DataBunch (Exact ℝ)) (P : ℕ → ℕ → ℕ → ℝ) : Prop :=
  ∀ R, 0 < R → ∀ (i : Nat) row, D.data[i]? = some row →
    (M R).predictSingle row = .ok ((List.range (M R).classLabels.length).map fun k => XF.fin (P R i k))

theorem residSum_eq (c : Nat → Nat) (st : TrainState (Exact ℝ)) (k : Nat) (A : List Nat) :
    residSum c st k A = ((A.filter fun i => decide (c i = k)).length : ℝ) - (A.map fun i => probAt st i k).sum := by
  unfold residSum
  induction A with
  | nil => simp
  | cons a A ih =>
    simp only [List.map_cons, List.sum_cons, ih, List.filter_cons]
    by_cases h : c a = k
    · simp [h]
      ring
    · simp [h]
      ring

theorem labelCount_class {labels : List Int} {A : List Nat} (hA : ∀ i ∈ A, i < labels.length) {k : Nat} {lab : Int}
    (hk : (distinctElements labels)[k]? = some lab) :
    labelCount labels A lab = (A.filter fun i => decide (classOf labels i = k)).length := by
  unfold labelCount
  congr 1
  apply List.filter_congr
  intro i hi
  have hlt := hA i hi
  have hc := classOf_get hlt
  have : labels[i]? = some lab ↔ classOf labels i = k := by
    rw [List.getElem?_eq_getElem hlt]
    obtain ⟨c1, c2⟩ := List.getElem?_eq_some_iff.1 hc
    obtain ⟨d1, d2⟩ := List.getElem?_eq_some_iff.1 hk
    rw [Option.some.injEq, ← c2, ← d2]
    exact (C39_distinct labels).1.getElem_inj_iff
  simp [this]

/-- the numbers that bound the residuals -/
noncomputable def calBound (n : Nat) (lr lam gam E : ℝ) : ℝ :=
  Real.sqrt ((n + lam) * (E + gam)) + n * (Real.exp (2 * (lr * Real.sqrt E)) - 1)

theorem admissible_fix {X : List (List ℝ)} {O : Options (Exact ℝ)} {w : ℝ} (hw : O.minChildWeight = .fin w) (ht : w < 2 ^ 63) (A : List Nat) (f : Nat) (θ : ℝ) :
    Admissible X (toInt O.fixMcw.minChildWeight) A f θ ↔ Admissible X ⌊w⌋ A f θ := by
  have : max 1 (toInt O.fixMcw.minChildWeight) = max 1 ⌊w⌋ := by
    unfold Options.fixMcw
    by_cases h : w < 1
    · rw [if_pos (by rw [hw, Exact.one_fin, XF.fin_lt]; simpa using h)]
      have h1 : toInt (GoFloat.one : Exact ℝ) = 1 := by
        rw [Exact.one_fin]
        rw [XF.toInt_floor (by norm_num) (by norm_num)]
        simp
      simp only [h1]
      have : ⌊w⌋ < 1 := Int.floor_lt.2 (by exact_mod_cast h)
      omega
    · rw [if_neg (by rw [hw, Exact.one_fin, XF.fin_lt]; simpa using h), hw]
      have h1 : toInt (XF.fin w : Exact ℝ) = ⌊w⌋ := by
        exact XF.toInt_floor (by linarith) ht
      rw [h1]
  unfold Admissible
  rw [this]

theorem mcw_fix_le {O : Options (Exact ℝ)} {w : ℝ} (hw : O.minChildWeight = .fin w) (h2 : w < 2) :
    toInt O.fixMcw.minChildWeight ≤ 1 := by
  have ht : ∀ q : ℝ, q < 2 → toInt (XF.fin q : Exact ℝ) ≤ 1 := by
    intro q hq2
    refine XF.toInt_le _ (by norm_num) ?_
    split
    · have : ⌊q⌋ < 2 := Int.floor_lt.2 (by exact_mod_cast hq2)
      omega
    · rename_i hneg
      exact Int.ceil_le.2 (by push_cast; linarith)
  unfold Options.fixMcw
  split
  · simpa using ht 1 (by norm_num)
  · rw [hw]
    exact ht w h2

/-- what the training runs with 0, 1, 2, … rounds have in common -/
structure CalRun (S : GoSort) (draws : Nat → Exact ℝ) (X : List (List ℝ)) (D : DataBunch (Exact ℝ)) (O : Options (Exact ℝ))
    (lr lam gam base : ℝ) (M : ℕ → MultiClass (Exact ℝ)) (ohe : Dense (Exact ℝ)) (p : ℕ → List Int × TrainState (Exact ℝ)) : Prop where
  baseEq : O.baseScore = .fin base
  trainEq : ∀ R : ℕ, train expR S draws D { O with rounds := R } = .ok (p R)
  model : ∀ R : ℕ, M R = toModel expR { O with rounds := R } (p R).1 (p R).2
  labs : ∀ R, (p R).1 = distinctElements D.labels
  step : ∀ R : ℕ, trainRound (softMaxDense expR) S D.data O.fixMcw ohe (distinctElements D.labels).length (p R).2 R = .ok (p (R + 1)).2
  inv : ∀ R : ℕ, TInv expR X.length (distinctElements D.labels).length (p R).2
  fin : ∀ R : ℕ, ∀ i < X.length, AllFin ((p R).2.rawPred.row i)
  off : ∀ R : ℕ, ∀ k, (p R).2.stopped.getD k false = false
  start : ∀ i < X.length, ((p 0).2.rawPred.row i).map realOf = List.replicate (distinctElements D.labels).length base
  setup : ∃ one, RealSetup X O.fixMcw ohe X.length (distinctElements D.labels).length one
  cal : CalSetup X O.fixMcw ohe X.length (distinctElements D.labels).length (classOf D.labels) lr lam gam
  rows : rowSub O = false

theorem cal_states (S : GoSort) (draws : Nat → Exact ℝ) (X : List (List ℝ)) (D : DataBunch (Exact ℝ)) (O : Options (Exact ℝ))
    (lr lam gam w : ℝ) (hF : FitsAll O X D lr lam gam w) (M : ℕ → MultiClass (Exact ℝ))
    (hM : ∀ R : ℕ, newMultiClass expR S draws D { O with rounds := R } = .ok (M R)) :
    ∃ base ohe p, CalRun S draws X D O lr lam gam base M ohe p := by
  obtain ⟨base, hbase⟩ := hF.base
  have hXl : X.length = D.data.length := by rw [hF.data]; simp [finRows]
  have hd : X.length = D.labels.length := hXl.trans hF.labels
  have hO : RealOptions O := ⟨⟨lr, hF.lrEq⟩, ⟨lam, hF.lamEq, hF.lam0⟩, ⟨gam, hF.gamEq⟩⟩
  have hrow : rowSub O = false := by
    unfold rowSub
    cases hx : O.xgb with
    | false => simp
    | true => rw [hF.rows hx]; rfl
  obtain ⟨lv, hlv, hlf⟩ := hF.loss
  have hloss : LossFits O D.labels := ⟨lv, hlv, Or.inl hlf⟩
  have hmodel : ∀ R : ℕ, ∃ p : List Int × TrainState (Exact ℝ), train expR S draws D { O with rounds := R } = .ok p ∧
      M R = toModel expR { O with rounds := R } p.1 p.2 := by
    intro R
    obtain ⟨labels, st, h1, h2⟩ := newMultiClass_inv (hM R)
    exact ⟨(labels, st), h1, h2⟩
  choose p hp hMp using hmodel
  have hlab : ∀ R, (p R).1 = distinctElements D.labels := fun R => (train_inv (hp R)).2.1
  set m := (distinctElements D.labels).length with hm
  set n := X.length with hn
  set c := classOf D.labels with hc
  -- the options as used in the rounds
  have hfix : ∃ f, O.fixMcw = { O with minChildWeight := f } := by
    unfold Options.fixMcw
    split
    · exact ⟨_, rfl⟩
    · exact ⟨O.minChildWeight, rfl⟩
  have hfixR : ∀ R : Int, ({ O with rounds := R } : Options (Exact ℝ)).fixMcw = { O.fixMcw with rounds := R } := by
    intro R
    unfold Options.fixMcw
    simp only
    split <;> rfl
  obtain ⟨hl0, hlab0, ohe, st0, hohe, hr0, hc0, hw0, hinit, hrounds0⟩ := train_inv (hp 0)
  have hDl : D.data.length = D.labels.length := hF.labels
  have hrun : ∀ R : ℕ, (List.range R).foldlM (trainRound (softMaxDense expR) S D.data O.fixMcw ohe m) st0 = .ok (p R).2 := by
    intro R
    obtain ⟨_, hlabR, ohe', st0', hohe', _, _, _, hinit', hrounds'⟩ := train_inv (hp R)
    have e1 : ohe' = ohe := by
      rw [hohe] at hohe'
      exact (Prod.mk.inj (Except.ok.inj hohe')).1.symm
    subst e1
    rw [hlab R] at hinit' hrounds'
    rw [hlab 0] at hinit
    have hi' : trainInit (softMaxDense expR) { O with rounds := ((0 : ℕ) : Int) } ohe' m draws = .ok st0' := hinit'
    rw [hinit] at hi'
    have e2 : st0 = st0' := Except.ok.inj hi'
    subst e2
    rw [hfixR] at hrounds'
    exact hrounds'
  have hstep : ∀ R : ℕ, trainRound (softMaxDense expR) S D.data O.fixMcw ohe m (p R).2 R = .ok (p (R + 1)).2 := by
    intro R
    have h := hrun (R + 1)
    rw [List.range_succ, List.foldlM_append] at h
    obtain ⟨s, h1, h2⟩ := bind_ok h
    rw [hrun R] at h1
    obtain rfl := Except.ok.inj h1
    rw [List.foldlM_cons] at h2
    obtain ⟨s', h3, h4⟩ := bind_ok h2
    simp only [List.foldlM_nil, pure, Except.pure, Except.ok.injEq] at h4
    rw [h3, h4]
  rw [hlab 0] at hinit hohe
  obtain ⟨i1, i2, _, _, _, _, i7⟩ := trainInit_inv hinit hr0 (by rw [hc0, hlab 0])
  have hinv : ∀ R : ℕ, TInv expR n m (p R).2 := by
    intro R
    have := (trainRounds_inv (hrun R) i1 hDl i2).1
    rw [← hd] at this
    exact this
  have hrowR : ∀ R : ℕ, rowSub ({ O with rounds := R } : Options (Exact ℝ)) = false := fun R => hrow
  have hfin : ∀ R : ℕ, ∀ i < n, AllFin ((p R).2.rawPred.row i) := by
    intro R
    have := (train_real S draws X D hF.data hd { O with rounds := R } ⟨hO.lr, hO.lam, hO.gam⟩ ⟨base, hbase⟩ hloss
      (by rw [hrowR]; simp) (p R).1 (p R).2 (hp R)).raw
    rw [← hd] at this
    exact this
  have hoff := fun R : ℕ => train_off (hp R) (by simpa using hF.stop)
  obtain ⟨f, hf⟩ := hfix
  obtain ⟨lv', hlv', hcase, hs, hcls, hcol⟩ := train_setup X D hd O hO hloss _ ohe hl0 rfl hohe
  have hL : CalSetup X O.fixMcw ohe n m c lr lam gam := by
    refine ⟨by rw [hf]; exact hF.lrEq, by rw [hf]; exact hF.lamEq, by rw [hf]; exact hF.gamEq, hF.lr0, hF.lr8, hF.lam0, hF.gam0,
      by rw [hf]; exact hrow, by rw [hf]; exact hF.stop, hcls, hcol, ?_⟩
    intro lv2 hlv2
    rw [hf] at hlv2
    rw [show lv2 = lv from Option.some.inj (hlv2.symm.trans hlv)]
    exact hlf
  refine ⟨base, ohe, p, hbase, hp, hMp, hlab, hstep, hinv, hfin, fun R => (hoff R).1, ?_, ⟨_, hs⟩, hL, hrow⟩
  have h0 := hrun 0
  simp only [List.range_zero, List.foldlM_nil, pure, Except.pure, Except.ok.injEq] at h0
  rw [← h0]
  intro i hi
  rw [i7 i (by omega), List.map_replicate]
  have hb : (({ O with rounds := ((0 : ℕ) : Int) } : Options (Exact ℝ)).baseScore *. GoFloat.one) = (.fin base : Exact ℝ) := by
    show (O.baseScore *. GoFloat.one) = _
    rw [hbase]
    simp
  rw [hb]
  rfl

/-- everything about the sequence of models -/
theorem cal_core (S : GoSort) (draws : Nat → Exact ℝ) (X : List (List ℝ)) (D : DataBunch (Exact ℝ)) (O : Options (Exact ℝ))
    (lr lam gam w : ℝ) (hF : FitsAll O X D lr lam gam w) (M : ℕ → MultiClass (Exact ℝ))
    (hM : ∀ R : ℕ, newMultiClass expR S draws D { O with rounds := R } = .ok (M R)) :
    ∃ (L : ℕ → ℝ) (P : ℕ → ℕ → ℕ → ℝ), (∀ R, (M R).classLabels = distinctElements D.labels) ∧ PredictsAll M D P ∧
      L 0 = D.data.length * Real.log (distinctElements D.labels).length ∧ (∀ R, 0 ≤ L R) ∧ (∀ R, L (R + 1) ≤ L R) ∧
      ∀ R E, L R - L (R + 1) ≤ lr * (8 - lr) / 8 * E → ∀ k lab, (distinctElements D.labels)[k]? = some lab →
        |((List.range X.length).map fun i => P (R + 1) i k).sum - labelCount D.labels (List.range X.length) lab| ≤
          calBound X.length lr lam 0 E ∧
        (colSub O = false → 1 ≤ O.maxDepth → ∀ row0, X[0]? = some row0 → ∀ f < row0.length, ∀ θ,
          Admissible X ⌊w⌋ (List.range X.length) f θ →
          ∀ A ∈ [leftOf X (List.range X.length) f θ, rightOf X (List.range X.length) f θ],
            |(A.map fun i => P (R + 1) i k).sum - labelCount D.labels A lab| ≤ calBound X.length lr lam (slackOf O gam) E) ∧
        (O.xgb = false → w < 2 → (X.length : Int) ≤ O.maxDepth + 1 → (∃ q, ∀ row ∈ X, row.length = q) → ∀ i < X.length,
          |((sameRows X i).map fun j => P (R + 1) j k).sum - labelCount D.labels (sameRows X i) lab| ≤ calBound X.length lr lam 0 E) := by
  obtain ⟨base, ohe, p, hC⟩ := cal_states S draws X D O lr lam gam w hF M hM
  have hXl : X.length = D.data.length := by rw [hF.data]; simp [finRows]
  have hd : X.length = D.labels.length := hXl.trans hF.labels
  have hfix : ∃ f, O.fixMcw = { O with minChildWeight := f } := by
    unfold Options.fixMcw
    split
    · exact ⟨_, rfl⟩
    · exact ⟨O.minChildWeight, rfl⟩
  obtain ⟨f, hf⟩ := hfix
  obtain ⟨hbase, hp, hMp, hlab, hstep, hinv, hfin, hoff1, hrep, ⟨one, hs⟩, hL, hrow⟩ := hC
  have hcls := hL.cls
  set m := (distinctElements D.labels).length with hm
  set n := X.length with hn
  set c := classOf D.labels with hc
  have hrowR : ∀ R : ℕ, rowSub ({ O with rounds := R } : Options (Exact ℝ)) = false := fun R => hrow
  have hoff := fun R : ℕ => train_off (hp R) (by simpa using hF.stop)
  have hround := fun R : ℕ => trainRound_cal hs hL (by rw [hf]; exact hF.minSample)
    (by have := hstep R; rw [hF.data] at this; exact this) (hinv R) (hfin R) (hoff R).1
  have hbl : ∀ R : ℕ, 0 < R → (p R).2.boosters ≠ [] := by
    intro R hR h0
    have := C22_requested_partial expR S draws D _ (M R) (hM R) (Or.inr (by simpa using hF.minSample))
    rw [hrowR R] at this
    simp only [Bool.false_and, Bool.false_eq_true, decide_false, List.filter_false, List.length_nil, add_zero] at this
    rw [hMp R] at this
    have e : (toModel expR ({ O with rounds := (R : Int) } : Options (Exact ℝ)) (p R).1 (p R).2).b = (p R).2.boosters := rfl
    rw [e, h0] at this
    simp at this
    omega
  have hrl : ∀ R : ℕ, ∀ i < n, (((p R).2.rawPred.row i).map realOf).length = m := by
    intro R i hin
    rw [List.length_map, Dense.row_length (hinv R).rawWF (by rw [(hinv R).rawR]; exact hin), (hinv R).rawC]
  have hML : ∀ R, (M R).classLabels = distinctElements D.labels := by
    intro R
    rw [hMp R]
    exact hlab R
  refine ⟨fun R => totalLoss n c (p R).2, fun R i k => probAt (p R).2 i k, hML, ?_, ?_, ?_, ?_, ?_⟩
  · intro R hR i row hi
    have hin : i < n := by
      have := (List.getElem?_eq_some_iff.1 hi).1
      omega
    obtain ⟨_, _, _, _, hpred⟩ := trueProbs_of_state S draws X D hF.data hd { O with rounds := R } base hbase (p R).1 (p R).2 (hp R)
      (by rw [hlab R]; exact hinv R) (hfin R) (hoff R).2 (hbl R hR)
    have := hpred i row hi
    rw [← hMp R] at this
    rw [this, hML R]
    congr 1
    unfold finV
    have hl2 : (softmaxSpec (((p R).2.rawPred.row i).map realOf)).length = m := by rw [softmaxSpec_length, hrl R i hin]
    apply List.ext_getElem
    · rw [List.length_map, hl2, List.length_map, List.length_range]
    · intro j h1 h2
      rw [List.getElem_map, List.getElem_map, List.getElem_range]
      unfold probAt
      beta_reduce
      rw [getD_get (by rw [List.length_map] at h1; exact h1)]
  · show totalLoss n c (p 0).2 = _
    unfold totalLoss
    rw [List.map_congr_left (g := fun _ => Real.log m) (fun i hi => by
      have hin := List.mem_range.1 hi
      rw [hrep i hin, rowLoss_const _ _ (hcls i hin)])]
    simp [hXl]
  · intro R
    exact totalLoss_nonneg (hinv R) hcls
  · intro R
    exact (hround R).1
  · intro R E hE k lab hk
    have hkm : k < m := (List.getElem?_eq_some_iff.1 hk).1
    obtain ⟨g1, g2, g3⟩ := (hround R).2 E hE k hkm
    have conv : ∀ A : List Nat, (∀ i ∈ A, i < n) → ∀ B, |residSum c (p (R + 1)).2 k A| ≤ B →
        |(A.map fun i => probAt (p (R + 1)).2 i k).sum - labelCount D.labels A lab| ≤ B := by
      intro A hA B hB
      rw [labelCount_class (fun i hi => by have := hA i hi; omega) hk, abs_sub_comm]
      rw [residSum_eq] at hB
      exact hB
    refine ⟨?_, ?_, ?_⟩
    · unfold calBound
      rw [add_zero]
      exact conv _ (fun i hi => List.mem_range.1 hi) _ g1
    · intro hcs hdep row0 hrow0 f' hf' θ hadm A hA
      have hslack : slackOf O.fixMcw gam = slackOf O gam := by rw [hf]; rfl
      obtain ⟨b1, b2⟩ := g2 (by rw [hf]; exact hcs) (by rw [hf]; exact hdep) row0 hrow0 f' hf' θ
        ((admissible_fix hF.mcw hF.mcwTop _ _ _).2 hadm)
      rw [hslack] at b1 b2
      simp only [List.mem_cons, List.not_mem_nil, or_false] at hA
      rcases hA with rfl | rfl
      · exact conv _ (fun i hi => List.mem_range.1 (leftOf_subset _ _ _ _ hi)) _ b1
      · exact conv _ (fun i hi => List.mem_range.1 (rightOf_subset _ _ _ _ hi)) _ b2
    · intro hx hw2 hdep hwid i hi
      unfold calBound
      rw [add_zero]
      refine conv _ (fun j hj => (mem_sameRows.1 hj).1) _ (g3 ⟨by rw [hf]; exact hx, mcw_fix_le hF.mcw hw2, by rw [hf]; exact hdep, hwid⟩ i hi)

theorem calBound_continuous (n : Nat) (lr lam gam : ℝ) : Continuous fun E => calBound n lr lam gam E := by
  unfold calBound
  fun_prop

theorem calBound_zero (n : Nat) (lr lam gam : ℝ) : calBound n lr lam gam 0 = Real.sqrt ((n + lam) * gam) := by
  unfold calBound
  simp

/-- the bound of the residuals after each round tends to its value without a decrease of the loss -/
theorem cal_tendsto (n : Nat) (lr lam gam : ℝ) {L : ℕ → ℝ} (h0 : ∀ R, 0 ≤ L R) (h1 : ∀ R, L (R + 1) ≤ L R) :
    Tendsto (fun R => calBound n lr lam gam ((L R - L (R + 1)) / (lr * (8 - lr) / 8))) atTop (𝓝 (Real.sqrt ((n + lam) * gam))) := by
  have hanti : Antitone L := antitone_nat_of_succ_le h1
  have hlim : Tendsto L atTop (𝓝 (⨅ R, L R)) := tendsto_atTop_ciInf hanti ⟨0, by rintro x ⟨R, rfl⟩; exact h0 R⟩
  have hlim' : Tendsto (fun R => L (R + 1)) atTop (𝓝 (⨅ R, L R)) := (tendsto_add_atTop_iff_nat 1).2 hlim
  have hdiff := (hlim.sub hlim').div_const (lr * (8 - lr) / 8)
  rw [sub_self, zero_div] at hdiff
  rw [← calBound_zero n lr]
  exact ((calBound_continuous n lr lam gam).tendsto 0).comp hdiff

theorem step_pos {lr : ℝ} (h0 : 0 < lr) (h8 : lr < 8) : 0 < lr * (8 - lr) / 8 := by
  have : 0 < 8 - lr := by linarith
  positivity

/-- **C112 (frequencies)**: over the reals, train models with 1, 2, 3, … rounds from the same data, options and generator. The sum
of the probabilities that they predict for a label over the training rows tends to the number of rows with that label. -/
theorem C112_frequencies (S : GoSort) (draws : Nat → Exact ℝ) (X : List (List ℝ)) (D : DataBunch (Exact ℝ)) (O : Options (Exact ℝ))
    (lr lam gam w : ℝ) (hF : FitsAll O X D lr lam gam w) (M : ℕ → MultiClass (Exact ℝ))
    (hM : ∀ R : ℕ, newMultiClass expR S draws D { O with rounds := R } = .ok (M R)) :
    ∃ P, PredictsAll M D P ∧ ∀ lab ∈ D.labels, ∃ k, (∀ R, (M R).classLabels[k]? = some lab) ∧
      Tendsto (fun R => ((List.range D.data.length).map fun i => P R i k).sum) atTop (𝓝 (D.labels.count lab)) := by
  obtain ⟨L, P, c1, c2, _, c4, c5, c6⟩ := cal_core S draws X D O lr lam gam w hF M hM
  have hXl : X.length = D.data.length := by rw [hF.data]; simp [finRows]
  refine ⟨P, c2, ?_⟩
  intro lab hlab
  obtain ⟨k, hk⟩ := List.getElem?_of_mem (((C39_distinct D.labels).2.1 lab).2 hlab)
  refine ⟨k, fun R => by rw [c1]; exact hk, ?_⟩
  have hcount : labelCount D.labels (List.range X.length) lab = D.labels.count lab := by
    rw [hXl, hF.labels]
    unfold labelCount
    generalize D.labels = l
    rw [List.count_eq_length_filter]
    induction l using List.reverseRecOn with
    | nil => simp
    | append_singleton l a ih =>
      rw [List.length_append, List.length_singleton, List.range_succ, List.filter_append, List.filter_append, List.length_append,
        List.length_append, ← ih]
      congr 1
      · congr 1
        apply List.filter_congr
        intro i hi
        rw [List.getElem?_append_left (List.mem_range.1 hi)]
      · by_cases h : a = lab
        · simp [h]
        · simp [h]
  rw [← tendsto_add_atTop_iff_nat 1, ← hcount]
  have hz := cal_tendsto X.length lr lam 0 c4 c5
  rw [mul_zero, Real.sqrt_zero] at hz
  rw [tendsto_iff_norm_sub_tendsto_zero]
  refine squeeze_zero (fun _ => norm_nonneg _) (fun R => ?_) hz
  rw [Real.norm_eq_abs, ← hXl]
  exact (c6 R _ (by rw [mul_div_cancel₀ _ (step_pos hF.lr0 hF.lr8).ne']) k lab hk).1

/-- **C112 (groups)**: and if all columns are used and trees may split, this holds also within groups of training rows: take any column `f` and
threshold `θ` that leave at least `int(MinChildWeight)` and at least one row on both sides. On each side the sum of the probabilities of a label gets
within `√((n+Lambda)·Gamma)` (0 without xgboost) and any `ε` of the number of rows with that label, and stays there. -/
theorem C112_groups (S : GoSort) (draws : Nat → Exact ℝ) (X : List (List ℝ)) (D : DataBunch (Exact ℝ)) (O : Options (Exact ℝ))
    (lr lam gam w : ℝ) (hF : FitsAll O X D lr lam gam w) (hcols : O.xgb = true → (O.colSubSample <. one) = false) (hdep : 1 ≤ O.maxDepth)
    (M : ℕ → MultiClass (Exact ℝ))
    (hM : ∀ R : ℕ, newMultiClass expR S draws D { O with rounds := R } = .ok (M R)) :
    ∃ P, PredictsAll M D P ∧ ∀ lab ∈ D.labels, ∃ k, (∀ R, (M R).classLabels[k]? = some lab) ∧
      ∀ ε > 0, ∃ R0, ∀ R ≥ R0, ∀ row0, X[0]? = some row0 → ∀ f < row0.length, ∀ θ,
        Admissible X ⌊w⌋ (List.range D.data.length) f θ →
        ∀ A ∈ [leftOf X (List.range D.data.length) f θ, rightOf X (List.range D.data.length) f θ],
          |(A.map fun i => P R i k).sum - labelCount D.labels A lab| ≤
            (if O.xgb then Real.sqrt ((D.data.length + lam) * gam) else 0) + ε := by
  obtain ⟨L, P, c1, c2, _, c4, c5, c6⟩ := cal_core S draws X D O lr lam gam w hF M hM
  have hXl : X.length = D.data.length := by rw [hF.data]; simp [finRows]
  rw [← hXl]
  have hcs : colSub O = false := by
    unfold colSub
    cases hx : O.xgb with
    | false => simp
    | true => rw [hcols hx]; rfl
  refine ⟨P, c2, ?_⟩
  intro lab hlab
  obtain ⟨k, hk⟩ := List.getElem?_of_mem (((C39_distinct D.labels).2.1 lab).2 hlab)
  refine ⟨k, fun R => by rw [c1]; exact hk, ?_⟩
  intro ε hε
  have hz := cal_tendsto X.length lr lam (slackOf O gam) c4 c5
  have hs : Real.sqrt ((X.length + lam) * slackOf O gam) = if O.xgb then Real.sqrt ((X.length + lam) * gam) else 0 := by
    unfold slackOf
    cases O.xgb <;> simp
  rw [hs] at hz
  obtain ⟨R1, hR1⟩ := eventually_atTop.1 (hz.eventually (ge_mem_nhds (lt_add_of_pos_right _ hε)))
  refine ⟨R1 + 1, ?_⟩
  intro R hR row0 hrow0 f hf θ hadm A hA
  obtain ⟨R', rfl⟩ : ∃ R', R = R' + 1 := ⟨R - 1, by omega⟩
  refine le_trans ?_ (hR1 R' (by omega))
  exact (c6 R' _ (by rw [mul_div_cancel₀ _ (step_pos hF.lr0 hF.lr8).ne']) k lab hk).2.1 hcs hdep row0 hrow0 f hf θ hadm A hA

/-- one of the first `R` steps of a decreasing sequence above 0 is small -/
theorem small_step (L : ℕ → ℝ) (c4 : ∀ R, 0 ≤ L R) (R : ℕ) (hR : 0 < R) : ∃ r < R, L r - L (r + 1) ≤ L 0 / R := by
  by_contra hcon
  push Not at hcon
  have : ∀ q ≤ R, q * (L 0 / R) ≤ L 0 - L q := by
    intro q
    induction q with
    | zero => simp
    | succ q ih =>
      intro hq
      have h1 := ih (by omega)
      have h2 := hcon q (by omega)
      push_cast
      linarith
  obtain ⟨q, rfl⟩ : ∃ q, R = q + 1 := ⟨R - 1, by omega⟩
  have h1 := this q (by omega)
  have h2 := hcon q (by omega)
  have h3 := c4 (q + 1)
  have h4 : ((q : ℝ) + 1) * (L 0 / ((q + 1 : ℕ) : ℝ)) = L 0 := by
    push_cast
    field_simp
  linarith

/-- **C112 (rate)**: and how many rounds it takes. Among the first `R` models there is one whose probabilities of every label sum, over the training
rows, to within `√((n+Lambda)·E) + n(exp(2·lr·√E) - 1)` of the number of rows with that label, where
`E = 8·n·log m/(lr·(8-lr)·R)` for `m` labels. -/
theorem C112_rate (S : GoSort) (draws : Nat → Exact ℝ) (X : List (List ℝ)) (D : DataBunch (Exact ℝ)) (O : Options (Exact ℝ))
    (lr lam gam w : ℝ) (hF : FitsAll O X D lr lam gam w) (M : ℕ → MultiClass (Exact ℝ))
    (hM : ∀ R : ℕ, newMultiClass expR S draws D { O with rounds := R } = .ok (M R)) (R : ℕ) (hR : 0 < R) (E : ℝ)
    (hE : E = 8 * D.data.length * Real.log (M R).classLabels.length / (lr * (8 - lr) * R)) :
    ∃ P, PredictsAll M D P ∧ ∃ r, 0 < r ∧ r ≤ R ∧ ∀ (k : Nat) lab, (M r).classLabels[k]? = some lab →
      |((List.range D.data.length).map fun i => P r i k).sum - labelCount D.labels (List.range D.data.length) lab| ≤
        Real.sqrt ((D.data.length + lam) * E) + D.data.length * (Real.exp (2 * (lr * Real.sqrt E)) - 1) := by
  obtain ⟨L, P, c1, c2, c3, c4, c5, c6⟩ := cal_core S draws X D O lr lam gam w hF M hM
  have hXl : X.length = D.data.length := by rw [hF.data]; simp [finRows]
  refine ⟨P, c2, ?_⟩
  have hR0 : (0 : ℝ) < R := by exact_mod_cast hR
  have h8 : 0 < 8 - lr := by linarith [hF.lr8]
  have hlr := hF.lr0
  obtain ⟨r, hr, hle⟩ := small_step L c4 R hR
  refine ⟨r + 1, by omega, by omega, ?_⟩
  intro k lab hk
  rw [c1] at hk
  have := (c6 r E (by
    rw [hE, c1]
    rw [c3] at hle
    refine hle.trans (le_of_eq ?_)
    field_simp) k lab hk).1
  unfold calBound at this
  rw [add_zero, hXl] at this
  exact this

/-! Non-vacuity of C112: xgboost options without subsampling, early stopping and Gamma. -/

noncomputable def calOptions : Options (Exact ℝ) := { keepRows with gamma := .fin 0 }

theorem calOptions_fits : FitsAll calOptions [[0], [1]] realData (3/10) (15/10) 0 0 := by
  refine ⟨rfl, rfl, ?_, by norm_num, by norm_num, ?_, by norm_num, ?_, le_rfl, ⟨_, rfl⟩, rfl, by norm_num, fun _ => ?_, ?_, ?_, ⟨_, rfl, rfl⟩⟩ <;>
    simp [calOptions, keepRows, defaultXOptions]

theorem calOptions_all : ∃ M : ℕ → MultiClass (Exact ℝ), ∀ R : ℕ,
    newMultiClass expR GoSort.ins (fun _ => .fin 0) realData { calOptions with rounds := R } = .ok (M R) := by
  have h : ∀ R : ℕ, ∃ M, newMultiClass expR GoSort.ins (fun _ => .fin 0) realData { calOptions with rounds := R } = .ok M := by
    intro R
    have hr : rowSub ({ calOptions with rounds := R } : Options (Exact ℝ)) = false := by simp [rowSub, calOptions, keepRows]
    exact C22_returns expR GoSort.ins (fun _ => .fin 0) realData { calOptions with rounds := R }
      ⟨by simp [realData, finRows], ⟨1, by simp [realData, finRows]⟩, finRows_noNaN _, finRows_midSafe _⟩ rfl _ rfl
      sqErrLoss_regular (by
        unfold CapOk
        simp [rowSub, colSub, calOptions, keepRows]) (by rw [hr]; simp)
  choose M hM using h
  exact ⟨M, hM⟩

example : ∃ (M : ℕ → MultiClass (Exact ℝ)) (P : ℕ → ℕ → ℕ → ℝ), PredictsAll M realData P ∧
    ∀ lab ∈ realData.labels, ∃ k, (∀ R, (M R).classLabels[k]? = some lab) ∧ Tendsto (fun R => P R 0 k + P R 1 k) atTop (𝓝 1) := by
  obtain ⟨M, hM⟩ := calOptions_all
  obtain ⟨P, h1, h2⟩ := C112_frequencies _ _ _ _ _ _ _ _ _ calOptions_fits M hM
  refine ⟨M, P, h1, fun lab hlab => ?_⟩
  obtain ⟨k, h3, h4⟩ := h2 lab hlab
  refine ⟨k, h3, ?_⟩
  have hc : realData.labels.count lab = 1 := by
    simp only [realData, List.mem_cons, List.not_mem_nil, or_false] at hlab ⊢
    rcases hlab with rfl | rfl <;> decide
  rw [hc] at h4
  refine (h4.congr fun R => ?_).trans (by simp)
  simp [realData, finRows, List.range_succ]

/-- and here the threshold 1/2 separates the rows, so both probabilities converge to 0 and 1 -/
example : ∃ (M : ℕ → MultiClass (Exact ℝ)) (P : ℕ → ℕ → ℕ → ℝ), PredictsAll M realData P ∧
    ∃ k, (∀ R, (M R).classLabels[k]? = some 0) ∧ ∀ ε > 0, ∃ R0, ∀ R ≥ R0, 1 - ε ≤ P R 0 k ∧ P R 1 k ≤ ε := by
  obtain ⟨M, hM⟩ := calOptions_all
  obtain ⟨P, h1, h2⟩ := C112_groups _ _ _ _ _ _ _ _ _ calOptions_fits (fun _ => by simp [calOptions, keepRows])
    (by simp [calOptions, keepRows, defaultXOptions]) M hM
  obtain ⟨k, h3, h4⟩ := h2 0 (by simp [realData])
  refine ⟨M, P, h1, k, h3, ?_⟩
  intro ε hε
  obtain ⟨R0, hR0⟩ := h4 ε hε
  refine ⟨R0, fun R hR => ?_⟩
  have hl : leftOf [[(0 : ℝ)], [1]] (List.range realData.data.length) 0 (1/2) = [0] := by
    have : realData.data.length = 2 := rfl
    rw [this]
    unfold leftOf val
    simp [List.range_succ]
    norm_num
  have hr : rightOf [[(0 : ℝ)], [1]] (List.range realData.data.length) 0 (1/2) = [1] := by
    have : realData.data.length = 2 := rfl
    rw [this]
    unfold rightOf val
    simp [List.range_succ]
    norm_num
  have hall := hR0 R hR [0] rfl 0 (by simp) (1/2) (by
    unfold Admissible
    rw [hl, hr]
    simp)
  rw [hl, hr] at hall
  have ha := hall [0] (by simp)
  have hb := hall [1] (by simp)
  have ea : labelCount realData.labels [0] 0 = 1 := by decide
  have eb : labelCount realData.labels [1] 0 = 0 := by decide
  rw [ea, mul_zero, Real.sqrt_zero] at ha
  rw [eb, mul_zero, Real.sqrt_zero] at hb
  simp at ha hb
  exact ⟨by linarith [(abs_le.1 ha).1], (abs_le.1 hb).2⟩

end Boo
