import Verif.Props.Calibration
import Verif.Props.Memorize

/-!
# C132: with conflicting labels, deep regular trees converge to the frequencies of the labels among equal rows
-/

namespace Boo
open GoFloat Spec Filter Topology
set_option linter.unusedSectionVars false

/-- What is assumed besides `FitsAll`: regular boosting, single-row leaves allowed, trees deep enough to tell all rows apart, rows of one width. -/
structure TellsApart (O : Options (Exact ℝ)) (X : List (List ℝ)) (w : ℝ) : Prop where
  regular : O.xgb = false
  single : w < 2
  depth : (X.length : Int) ≤ O.maxDepth + 1
  width : ∃ q, ∀ row ∈ X, row.length = q

/-- the share of the label `lab` among the rows equal to row `i` -/
noncomputable def labelShare (X : List (List ℝ)) (labels : List Int) (i : Nat) (lab : Int) : ℝ :=
  labelCount labels (sameRows X i) lab / (sameRows X i).length

theorem sameRows_pos {X : List (List ℝ)} {i : Nat} (hi : i < X.length) : (0 : ℝ) < (sameRows X i).length := by
  exact_mod_cast List.length_pos_of_mem (mem_sameRows.2 ⟨hi, rfl⟩)

/-- **C132 (frequencies)**: over the reals, train models with 1, 2, 3, … rounds from the same data, options and generator. The probability
that they predict for a label on a training row tends to the share of that label among the training rows equal to it. -/
theorem C132_frequencies (S : GoSort) (draws : Nat → Exact ℝ) (X : List (List ℝ)) (D : DataBunch (Exact ℝ)) (O : Options (Exact ℝ))
    (lr lam gam w : ℝ) (hF : FitsAll O X D lr lam gam w) (hT : TellsApart O X w) (M : ℕ → MultiClass (Exact ℝ))
    (hM : ∀ R : ℕ, newMultiClass expR S draws D { O with rounds := R } = .ok (M R)) :
    (∀ R, (M R).classLabels = distinctElements D.labels) ∧
    ∃ P, PredictsAll M D P ∧ ∀ (k : Nat) lab, (distinctElements D.labels)[k]? = some lab → ∀ i < D.data.length,
      Tendsto (fun R => P R i k) atTop (𝓝 (labelShare X D.labels i lab)) := by
  obtain ⟨L, P, c1, c2, _, c4, c5, c6⟩ := cal_core S draws X D O lr lam gam w hF M hM
  have hXl : X.length = D.data.length := by rw [hF.data]; simp [finRows]
  refine ⟨c1, P, c2, ?_⟩
  intro k lab hk i hi
  rw [← hXl] at hi
  rw [← tendsto_add_atTop_iff_nat 1]
  have hpos := sameRows_pos hi
  have hz := (cal_tendsto X.length lr lam 0 c4 c5).div_const ((sameRows X i).length : ℝ)
  rw [mul_zero, Real.sqrt_zero, zero_div] at hz
  rw [tendsto_iff_norm_sub_tendsto_zero]
  refine squeeze_zero (fun _ => norm_nonneg _) (fun R => ?_) hz
  have h := (c6 R _ (by rw [mul_div_cancel₀ _ (step_pos hF.lr0 hF.lr8).ne']) k lab hk).2.2 hT.regular hT.single hT.depth hT.width i hi
  have hkm : k < (distinctElements D.labels).length := (List.getElem?_eq_some_iff.1 hk).1
  have hsame : ∀ j ∈ sameRows X i, P (R + 1) j k = P (R + 1) i k := by
    intro j hj
    obtain ⟨hjl, hje⟩ := mem_sameRows.1 hj
    have hdj : D.data[j]? = D.data[i]? := by
      rw [hF.data]
      unfold finRows
      rw [List.getElem?_map, List.getElem?_map, hje]
    have hdi : D.data[i]? = some D.data[i] := List.getElem?_eq_getElem (by omega)
    have e1 := c2 (R + 1) (by omega) i _ hdi
    have e2 := c2 (R + 1) (by omega) j _ (hdj.trans hdi)
    rw [e1] at e2
    have e3 := congrArg (fun l => l[k]?) (Except.ok.inj e2)
    have hk' : k < (M (R + 1)).classLabels.length := by rw [c1]; exact hkm
    simp only [List.getElem?_map, List.getElem?_range hk', Option.map_some, Option.some.injEq] at e3
    exact (fin_inj e3).symm
  rw [List.map_congr_left hsame, List.map_const', List.sum_replicate, nsmul_eq_mul] at h
  rw [Real.norm_eq_abs, le_div_iff₀ hpos]
  refine le_trans (le_of_eq ?_) h
  unfold labelShare
  rw [← abs_of_pos hpos, ← abs_mul, abs_of_pos hpos, sub_mul, div_mul_cancel₀ _ hpos.ne', mul_comm]

/-- **C132 (prediction)**: from some number of rounds on, the label predicted for a training row is one that is most frequent among the
training rows equal to it. -/
theorem C132_prediction (S : GoSort) (draws : Nat → Exact ℝ) (X : List (List ℝ)) (D : DataBunch (Exact ℝ)) (O : Options (Exact ℝ))
    (lr lam gam w : ℝ) (hF : FitsAll O X D lr lam gam w) (hT : TellsApart O X w) (M : ℕ → MultiClass (Exact ℝ))
    (hM : ∀ R : ℕ, newMultiClass expR S draws D { O with rounds := R } = .ok (M R)) :
    ∃ R0, ∀ R ≥ R0, ∀ (i : Nat) row, D.data[i]? = some row → ∃ k lab, (M R).predictSingleClass row = .ok k ∧
      (M R).classLabels[k]? = some lab ∧
      ∀ lab', labelCount D.labels (sameRows X i) lab' ≤ labelCount D.labels (sameRows X i) lab := by
  obtain ⟨c1, P, c2, c3⟩ := C132_frequencies S draws X D O lr lam gam w hF hT M hM
  have hXl : X.length = D.data.length := by rw [hF.data]; simp [finRows]
  set dl := distinctElements D.labels with hdl
  have hev : ∀ i ∈ List.range D.data.length, ∀ k ∈ List.range dl.length, ∀ k' ∈ List.range dl.length, ∀ᶠ R in atTop,
      labelShare X D.labels i (dl.getD k 0) < labelShare X D.labels i (dl.getD k' 0) → P R i k < P R i k' := by
    intro i hi k hk k' hk'
    rw [List.mem_range] at hi hk hk'
    by_cases hlt : labelShare X D.labels i (dl.getD k 0) < labelShare X D.labels i (dl.getD k' 0)
    · have t1 := c3 k (dl.getD k 0) (by rw [List.getElem?_eq_getElem hk, List.getD_eq_getElem?_getD, List.getElem?_eq_getElem hk]; rfl) i hi
      have t2 := c3 k' (dl.getD k' 0) (by rw [List.getElem?_eq_getElem hk', List.getD_eq_getElem?_getD, List.getElem?_eq_getElem hk']; rfl) i hi
      filter_upwards [t1.eventually_lt t2 hlt] with R hR _ using hR
    · exact Eventually.of_forall fun R h => absurd h hlt
  have hev' : ∀ᶠ R in atTop, ∀ i ∈ List.range D.data.length, ∀ k ∈ List.range dl.length, ∀ k' ∈ List.range dl.length,
      labelShare X D.labels i (dl.getD k 0) < labelShare X D.labels i (dl.getD k' 0) → P R i k < P R i k' := by
    have key : ∀ (l : List ℕ) (Q : ℕ → ℕ → Prop), (∀ i ∈ l, ∀ᶠ R in atTop, Q i R) → ∀ᶠ R in atTop, ∀ i ∈ l, Q i R := by
      intro l Q
      induction l with
      | nil => intro _; simp
      | cons a l ih =>
        intro h
        filter_upwards [h a (by simp), ih fun i hi => h i (by simp [hi])] with R h1 h2 i hi
        rcases List.mem_cons.1 hi with rfl | hi
        · exact h1
        · exact h2 i hi
    exact key _ _ fun i hi => key _ _ fun k hk => key _ _ fun k' hk' => hev i hi k hk k' hk'
  obtain ⟨R1, hR1⟩ := eventually_atTop.1 hev'
  refine ⟨R1 + 1, ?_⟩
  intro R hR i row hrow
  have hi : i < D.data.length := (List.getElem?_eq_some_iff.1 hrow).1
  have hp := c2 R (by omega) i row hrow
  have hdne : 0 < dl.length := by
    have hil : i < D.labels.length := by rw [← hF.labels]; exact hi
    exact List.length_pos_of_mem (((C39_distinct D.labels).2.1 _).2 (List.getElem_mem hil))
  obtain ⟨k, hk⟩ := argmaxFirst_ok ((List.range (M R).classLabels.length).map fun k => (XF.fin (P R i k) : Exact ℝ)) (by
    intro h0
    have := congrArg List.length h0
    rw [List.length_map, List.length_range, c1] at this
    exact hdne.ne' this)
  have hcls : (M R).predictSingleClass row = .ok k := by
    unfold MultiClass.predictSingleClass
    rw [hp]
    exact hk
  obtain ⟨m, m1, m2, _⟩ := argmaxFirst_spec _ _ hk
  have hkl : k < dl.length := by
    have := (List.getElem?_eq_some_iff.1 m1).1
    rw [c1] at this
    simpa using this
  rw [c1] at m1 m2
  rw [List.getElem?_map, List.getElem?_range hkl] at m1
  obtain rfl := Option.some.inj m1
  refine ⟨k, dl[k], hcls, by rw [c1, List.getElem?_eq_getElem hkl], ?_⟩
  intro lab'
  by_cases hmem : lab' ∈ dl
  · obtain ⟨k', hk'⟩ := List.getElem?_of_mem hmem
    obtain ⟨hk'l, hk'e⟩ := List.getElem?_eq_some_iff.1 hk'
    have h1 := m2 k' (XF.fin (P R i k')) (by rw [List.getElem?_map, List.getElem?_range hk'l]; rfl)
    rw [XF.fin_lt, decide_eq_false_iff_not, not_lt] at h1
    by_contra hcon
    push Not at hcon
    have hpos := sameRows_pos (X := X) (i := i) (by omega)
    have h2 := hR1 R (by omega) i (List.mem_range.2 hi) k (List.mem_range.2 hkl) k' (List.mem_range.2 hk'l) (by
      rw [List.getD_eq_getElem?_getD, List.getD_eq_getElem?_getD, hk', List.getElem?_eq_getElem hkl]
      unfold labelShare
      refine div_lt_div_of_pos_right ?_ hpos
      exact_mod_cast hcon)
    linarith
  · have : labelCount D.labels (sameRows X i) lab' = 0 := by
      unfold labelCount
      rw [List.length_eq_zero_iff, List.filter_eq_nil_iff]
      intro j _ hj
      have hj' : D.labels[j]? = some lab' := by simpa using hj
      exact hmem (((C39_distinct D.labels).2.1 lab').2 (List.mem_of_getElem? hj'))
    omega

/-- the number of rows of the data to which a function of the row gives their label -/
def rightBy (D : DataBunch (Exact ℝ)) (f : List (Exact ℝ) → Int) : Nat :=
  (D.data.zip D.labels).countP fun r => decide (f r.1 = r.2)

/-- the labels predicted by `f` are most frequent among equal rows: no function is right more often -/
theorem rightBy_best {X : List (List ℝ)} {D : DataBunch (Exact ℝ)} (hdata : D.data = finRows X) (hlen : D.data.length = D.labels.length)
    (f : List (Exact ℝ) → Int)
    (hf : ∀ (i : Nat) row, D.data[i]? = some row → ∀ lab', labelCount D.labels (sameRows X i) lab' ≤ labelCount D.labels (sameRows X i) (f row))
    (g : List (Exact ℝ) → Int) : rightBy D g ≤ rightBy D f := by
  classical
  have hXl : X.length = D.data.length := by rw [hdata]; simp [finRows]
  have hcount : ∀ h : List (Exact ℝ) → Int, rightBy D h = ((Finset.range X.length).filter fun i => D.labels[i]? = some (h (D.data.getD i []))).card := by
    intro h
    unfold rightBy
    rw [hXl]
    revert hlen
    generalize D.data = d
    generalize D.labels = l
    intro hlen
    induction d generalizing l with
    | nil => simp
    | cons a d ih =>
      cases l with
      | nil => simp at hlen
      | cons b l =>
        rw [List.zip_cons_cons, List.countP_cons, ih l (by simpa using hlen), List.length_cons, Finset.range_add_one', Finset.filter_insert,
          Finset.filter_map]
        by_cases hab : h a = b
        · rw [if_pos (by simp [hab]), if_pos (by simp [hab]), Finset.card_insert_of_notMem (by simp), Finset.card_map]
          congr 2
        · rw [if_neg (by simpa using hab), if_neg (by simpa using fun h => hab h.symm), Finset.card_map]
          congr 1
  rw [hcount, hcount]
  have hfib := fun h : List (Exact ℝ) → Int => Finset.card_eq_sum_card_fiberwise
    (s := (Finset.range X.length).filter fun i => D.labels[i]? = some (h (D.data.getD i []))) (t := (Finset.range X.length).image fun i => X[i]?)
    (f := fun i => X[i]?) (by
      intro i hi
      simp only [Finset.coe_filter, Set.mem_setOf_eq] at hi
      exact Finset.mem_coe.2 (Finset.mem_image_of_mem _ hi.1))
  rw [hfib g, hfib f]
  apply Finset.sum_le_sum
  intro x hx
  obtain ⟨i, hi, rfl⟩ := Finset.mem_image.1 hx
  have hin := Finset.mem_range.1 hi
  have hcard : ∀ h : List (Exact ℝ) → Int,
      (((Finset.range X.length).filter fun j => D.labels[j]? = some (h (D.data.getD j []))).filter fun j => X[j]? = X[i]?).card =
        labelCount D.labels (sameRows X i) (h (D.data.getD i [])) := by
    intro h
    unfold labelCount sameRows
    rw [List.filter_filter, ← List.toFinset_card_of_nodup (List.nodup_range.filter _)]
    congr 1
    ext j
    simp only [Finset.mem_filter, Finset.mem_range, List.mem_toFinset, List.mem_filter, List.mem_range, Bool.and_eq_true, decide_eq_true_eq]
    constructor
    · rintro ⟨⟨h1, h2⟩, h3⟩
      refine ⟨h1, ?_, h3⟩
      rw [h2, hdata]
      unfold finRows
      rw [List.getD_eq_getElem?_getD, List.getD_eq_getElem?_getD, List.getElem?_map, List.getElem?_map, h3]
    · rintro ⟨h1, h2, h3⟩
      refine ⟨⟨h1, ?_⟩, h3⟩
      rw [h2, hdata]
      unfold finRows
      rw [List.getD_eq_getElem?_getD, List.getD_eq_getElem?_getD, List.getElem?_map, List.getElem?_map, h3]
  rw [hcard, hcard]
  have hdi : D.data[i]? = some (D.data.getD i []) := by
    have hil : i < D.data.length := by omega
    rw [List.getD_eq_getElem?_getD, List.getElem?_eq_getElem hil]
    rfl
  exact hf i _ hdi _

/-- **C132 (accuracy)**: from some number of rounds on, `Accuracy` on the training data is the best that any function of the row can reach. -/
theorem C132_accuracy (S : GoSort) (draws : Nat → Exact ℝ) (X : List (List ℝ)) (D : DataBunch (Exact ℝ)) (O : Options (Exact ℝ))
    (lr lam gam w : ℝ) (hF : FitsAll O X D lr lam gam w) (hT : TellsApart O X w) (M : ℕ → MultiClass (Exact ℝ))
    (hM : ∀ R : ℕ, newMultiClass expR S draws D { O with rounds := R } = .ok (M R)) :
    ∃ best : ℕ, (∀ g, rightBy D g ≤ best) ∧ (∃ g, rightBy D g = best) ∧
      ∃ R0, ∀ R ≥ R0, (M R).accuracy D = .ok (.fin (100 * best / D.data.length)) := by
  obtain ⟨R0, hR0⟩ := C132_prediction S draws X D O lr lam gam w hF hT M hM
  have c1 := (C132_frequencies S draws X D O lr lam gam w hF hT M hM).1
  have hXl : X.length = D.data.length := by rw [hF.data]; simp [finRows]
  -- the label that a model predicts
  let lab : ℕ → List (Exact ℝ) → Int := fun R row => match (M R).predictSingleClass row with
    | .ok k => (M R).classLabels.getD k 0
    | .error _ => 0
  have hlab : ∀ R ≥ R0, ∀ (i : Nat) row, D.data[i]? = some row → ∃ k, (M R).predictSingleClass row = .ok k ∧
      (M R).classLabels[k]? = some (lab R row) ∧
      ∀ lab', labelCount D.labels (sameRows X i) lab' ≤ labelCount D.labels (sameRows X i) (lab R row) := by
    intro R hR i row hrow
    obtain ⟨k, l, h1, h2, h3⟩ := hR0 R hR i row hrow
    have e : lab R row = l := by
      simp only [lab, h1]
      rw [List.getD_eq_getElem?_getD, h2]
      rfl
    rw [e]
    exact ⟨k, h1, h2, h3⟩
  have hbest : ∀ R ≥ R0, ∀ g, rightBy D g ≤ rightBy D (lab R) := fun R hR g =>
    rightBy_best hF.data hF.labels (lab R) (fun i row hrow => by
      obtain ⟨_, _, _, h⟩ := hlab R hR i row hrow
      exact h) g
  refine ⟨rightBy D (lab R0), hbest R0 le_rfl, ⟨_, rfl⟩, R0, ?_⟩
  intro R hR
  have heq : rightBy D (lab R0) = rightBy D (lab R) := le_antisymm (hbest R hR _) (hbest R0 le_rfl _)
  rw [heq]
  have hdne : D.data ≠ [] := by
    obtain ⟨labels, st, ht, _⟩ := newMultiClass_inv (hM R)
    have := (train_inv ht).1
    intro h0
    have h1 := hF.labels
    rw [h0] at h1
    exact this (List.length_eq_zero_iff.1 h1.symm)
  have hex : ∀ l : List (List (Exact ℝ)), (∀ row ∈ l, ∃ k, (M R).predictSingleClass row = .ok k ∧ (M R).classLabels[k]? = some (lab R row)) →
      ∃ preds, l.mapM (M R).predictSingleClass = .ok preds ∧ (∀ p ∈ preds, p < (M R).classLabels.length) ∧
        ∀ ls : List Int, rightCount (M R) preds ls = (l.zip ls).countP fun r => decide (lab R r.1 = r.2) := by
    intro l
    induction l with
    | nil => intro _; exact ⟨[], rfl, by simp, fun ls => by simp [rightCount]⟩
    | cons a l ih =>
      intro hl
      obtain ⟨k, hk, hk2⟩ := hl a (by simp)
      obtain ⟨ks, hks, hks2, hks3⟩ := ih fun r hr => hl r (by simp [hr])
      refine ⟨k :: ks, by rw [List.mapM_cons, hk]; simp only [Bind.bind, Except.bind, hks]; rfl, ?_, ?_⟩
      · intro p hp
        rcases List.mem_cons.1 hp with rfl | hp
        · exact (List.getElem?_eq_some_iff.1 hk2).1
        · exact hks2 p hp
      · intro ls
        cases ls with
        | nil => simp [rightCount]
        | cons b ls =>
          rw [List.zip_cons_cons, List.countP_cons, ← hks3 ls]
          unfold rightCount
          rw [List.zip_cons_cons, List.filter_cons, hk2]
          by_cases hab : lab R a = b
          · simp [hab]
          · simp [hab]
  obtain ⟨preds, p1, p2, p3⟩ := hex D.data (by
    intro row hrow
    obtain ⟨i, hi⟩ := List.getElem?_of_mem hrow
    obtain ⟨k, h1, h2, _⟩ := hlab R hR i row hi
    exact ⟨k, h1, h2⟩)
  obtain ⟨a, h1, h2, _⟩ := C25_percentage (M R) D preds hdne p1 p2 hF.labels.symm
  rw [h1, h2, p3]
  rfl

/-! Non-vacuity: "exclusive or" with three rows (0, 0), one of which has the wrong label. The share of the right label is 2/3, and
five of the six rows is the best that can be reached. -/

/-- "exclusive or" with a wrong label -/
def noisyRows : List (List ℝ) := [[0, 0], [0, 0], [0, 0], [0, 1], [1, 0], [1, 1]]

/-- the same as a training set -/
def noisyXor : DataBunch (Exact ℝ) := ⟨finRows noisyRows, [], [0, 0, 1, 1, 1, 0], []⟩

/-- `DefaultGOptions` with single-row leaves, a depth of 5 and squared error -/
noncomputable def deepOptions : Options (Exact ℝ) :=
  { (defaultGOptions 0 : Options (Exact ℝ)) with minChildWeight := .fin 1, maxDepth := 5, loss := calOptions.loss }

theorem noisy_fits : FitsAll deepOptions noisyRows noisyXor (1/10) 0 0 1 := by
  refine ⟨rfl, rfl, ?_, by norm_num, by norm_num, ?_, le_rfl, ?_, le_rfl, ⟨0, ?_⟩, rfl, by norm_num, fun h => ?_, ?_, ?_, ⟨_, rfl, rfl⟩⟩ <;>
    simp [deepOptions, defaultGOptions] at *

theorem noisy_apart : TellsApart deepOptions noisyRows 1 := by
  refine ⟨?_, by norm_num, ?_, ⟨2, ?_⟩⟩ <;> simp [deepOptions, defaultGOptions, noisyRows]

theorem noisy_all : ∃ M : ℕ → MultiClass (Exact ℝ), ∀ R : ℕ,
    newMultiClass expR GoSort.ins (fun _ => .fin 0) noisyXor { deepOptions with rounds := R } = .ok (M R) := by
  have h : ∀ R : ℕ, ∃ M, newMultiClass expR GoSort.ins (fun _ => .fin 0) noisyXor { deepOptions with rounds := R } = .ok M := by
    intro R
    have hr : rowSub ({ deepOptions with rounds := R } : Options (Exact ℝ)) = false := by simp [rowSub, deepOptions, defaultGOptions]
    exact C22_returns expR GoSort.ins (fun _ => .fin 0) noisyXor { deepOptions with rounds := R }
      ⟨by simp [noisyXor, finRows, noisyRows], ⟨2, by simp [noisyXor, finRows, noisyRows]⟩, finRows_noNaN _, finRows_midSafe _⟩ rfl _ rfl
      sqErrLoss_regular (by
        unfold CapOk
        simp [rowSub, colSub, deepOptions, defaultGOptions]) (by rw [hr]; simp)
  choose M hM using h
  exact ⟨M, hM⟩

theorem noisy_same : sameRows noisyRows 0 = [0, 1, 2] := by
  unfold sameRows noisyRows
  simp [List.range_succ]

example : ∃ (M : ℕ → MultiClass (Exact ℝ)) (P : ℕ → ℕ → ℕ → ℝ), PredictsAll M noisyXor P ∧ (∀ R, (M R).classLabels = [0, 1]) ∧
    Tendsto (fun R => P R 2 0) atTop (𝓝 (2/3)) ∧ Tendsto (fun R => P R 2 1) atTop (𝓝 (1/3)) := by
  obtain ⟨M, hM⟩ := noisy_all
  obtain ⟨h0, P, h1, h2⟩ := C132_frequencies _ _ _ _ _ _ _ _ _ noisy_fits noisy_apart M hM
  have hs : sameRows noisyRows 2 = [0, 1, 2] := by
    unfold sameRows noisyRows
    simp [List.range_succ]
  have hd : distinctElements noisyXor.labels = [0, 1] := by decide
  refine ⟨M, P, h1, fun R => (h0 R).trans hd, ?_, ?_⟩
  · have := h2 0 0 (by rw [hd]; rfl) 2 (by simp [noisyXor, finRows, noisyRows])
    unfold labelShare at this
    rw [hs, show labelCount noisyXor.labels [0, 1, 2] 0 = 2 by decide] at this
    simpa using this
  · have := h2 1 1 (by rw [hd]; rfl) 2 (by simp [noisyXor, finRows, noisyRows])
    unfold labelShare at this
    rw [hs, show labelCount noisyXor.labels [0, 1, 2] 1 = 1 by decide] at this
    simpa using this

example : ∃ M : ℕ → MultiClass (Exact ℝ), (∀ R : ℕ,
    newMultiClass expR GoSort.ins (fun _ => .fin 0) noisyXor { deepOptions with rounds := R } = .ok (M R)) ∧
    ∃ R0, ∀ R ≥ R0, (M R).accuracy noisyXor = .ok (.fin (100 * 5 / 6)) := by
  obtain ⟨M, hM⟩ := noisy_all
  obtain ⟨best, h1, ⟨g, h2⟩, R0, h3⟩ := C132_accuracy _ _ _ _ _ _ _ _ _ noisy_fits noisy_apart M hM
  refine ⟨M, hM, R0, fun R hR => ?_⟩
  have hb : best = 5 := by
    apply le_antisymm
    · rw [← h2]
      unfold rightBy noisyXor finRows noisyRows
      simp only [List.map_cons, List.map_nil, List.zip_cons_cons, List.zip_nil_right, List.countP_cons, List.countP_nil]
      by_cases hg : g [.fin 0, .fin 0] = 0
      · simp only [hg]
        repeat' split
        all_goals simp_all
      · simp only [hg]
        repeat' split
        all_goals simp_all
    · classical
      have := h1 fun row => if row = [.fin 0, .fin 0] then 0 else if row = [.fin 1, .fin 1] then 0 else 1
      refine le_trans ?_ this
      unfold rightBy noisyXor finRows noisyRows
      simp
  rw [h3 R hR, hb]
  have : noisyXor.data.length = 6 := rfl
  rw [this]
  norm_num

end Boo
