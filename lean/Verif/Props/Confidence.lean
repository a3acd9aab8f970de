import Verif.Lemmas.Bounded
import Verif.Props.Separable
import Mathlib.Analysis.Complex.ExponentialBounds

/-!
# C106: how sure a model can become
-/

namespace Boo
open GoFloat Spec
set_option linter.unusedSectionVars false

/-- every value in the trees of a model trained with squared error lies between -1 and 1 -/
theorem trained_bound (S : GoSort) (draws : Nat → Exact ℝ) (X : List (List ℝ)) (D : DataBunch (Exact ℝ))
    (hX : D.data = finRows X) (hd : X.length = D.labels.length)
    (O : Options (Exact ℝ)) (hO : RealOptions O) (hbase : ∃ x, O.baseScore = XF.fin x)
    (hloss : ∀ lv, O.loss = some lv → lv.fn = sqErrLoss) (hms : rowSub O = true → 1 ≤ O.minSample) (labels : List Int)
    (st : TrainState (Exact ℝ)) (ht : train expR S draws D O = .ok (labels, st)) :
    ∀ ens ∈ st.boosters, ∀ t ∈ ens, BoundTree 1 t := by
  obtain ⟨hl, hlab, ohe, st0, hohe, hr0, hc0, hw, hinit, hrounds⟩ := train_inv ht
  obtain ⟨i1, i2, i3, _, _, _, i7⟩ := trainInit_inv hinit hr0 hc0
  obtain ⟨base, hbase⟩ := hbase
  have hfix : ∃ f, O.fixMcw = { O with minChildWeight := f } := by
    unfold Options.fixMcw
    split
    · exact ⟨_, rfl⟩
    · exact ⟨O.minChildWeight, rfl⟩
  obtain ⟨f, hf⟩ := hfix
  have hO' : RealOptions O.fixMcw := by
    rw [hf]
    exact ⟨hO.lr, hO.lam, hO.gam⟩
  have hohe' : oneHotEncodeDense D.labels = .ok (ohe, distinctElements D.labels) := by
    rw [hlab] at hohe
    exact hohe
  have hXne : X ≠ [] := by
    rintro rfl
    simp at hd
    exact hl (List.length_eq_zero_iff.1 hd.symm)
  have hs : RealSetup X O.fixMcw ohe D.labels.length labels.length True := by
    refine ⟨hO', hd, List.length_pos_iff.2 hl, ?_, ?_, fun _ => trivial⟩
    · intro k y hkm hy
      rw [hlab] at hkm
      exact ohe_real hl hohe' k y hkm hy
    · intro lv' hlv'
      rw [hf] at hlv'
      rw [hloss lv' hlv']
      exact sqErr_real
  have hms' : rowSub O.fixMcw = true → 1 ≤ O.fixMcw.minSample := by
    rw [hf]
    exact hms
  rw [hX] at hrounds
  refine trainRounds_trees hs hms' ?_ hrounds i1 i2 ⟨?_, by rw [i2]; simp⟩
  · intro idx cols k y p lv t hidx hk hy hyl hpl hpv hp1 hlv h
    rw [hf] at hlv
    rw [hloss lv hlv] at h
    refine classTree_bound hO' hXne (by rw [hd]; exact hidx) (by omega) (by omega) ?_ (fun v hv => ⟨(hpv v hv).1.le, hp1 v hv⟩) h
    intro v hv
    rw [hlab] at hk
    have := ohe_column hl hohe' (List.getElem?_eq_getElem hk) hy
    have hv' : (XF.fin v : Exact ℝ) ∈ finV y := List.mem_map.2 ⟨v, hv, rfl⟩
    rw [this] at hv'
    obtain ⟨l, _, hl'⟩ := List.mem_map.1 hv'
    split at hl'
    · rw [Exact.one_fin] at hl'
      have := fin_inj hl'
      simp at this
      subst this
      norm_num
    · have := fin_inj hl'
      simp at this
      subst this
      norm_num
  · intro i hin v hv
    rw [i7 i hin, List.mem_replicate] at hv
    rw [hv.2, hbase]
    exact ⟨_, rfl⟩

/-- **C106**: with the squared error loss, no tree of a trained model predicts more than 1 in magnitude, whatever the
training data, the depth, sampling, regularization and early stopping, and whatever row is predicted. -/
theorem C106_trees (S : GoSort) (draws : Nat → Exact ℝ) (X : List (List ℝ)) (D : DataBunch (Exact ℝ))
    (hX : D.data = finRows X) (hd : X.length = D.labels.length)
    (O : Options (Exact ℝ)) (hO : RealOptions O) (hbase : ∃ x, O.baseScore = XF.fin x)
    (hloss : ∀ lv, O.loss = some lv → lv.fn = sqErrLoss) (hms : rowSub O = true → 1 ≤ O.minSample)
    (M : MultiClass (Exact ℝ)) (h : newMultiClass expR S draws D O = .ok M) :
    ∀ trees ∈ M.b, ∀ t ∈ trees, ∀ row v, t.predictSingle row = .ok v → ∃ x : ℝ, v = XF.fin x ∧ |x| ≤ 1 := by
  obtain ⟨labels, st, ht, rfl⟩ := newMultiClass_inv h
  intro trees htr t htm row v hv
  exact (trained_bound S draws X D hX hd O hO hbase hloss hms labels st ht trees htr t htm).predict hv

/-- **C106**: with the squared error loss, a model of `R` rounds and learning rate `lr` cannot be surer than the rounds
and the learning rate allow: for `m` classes, every probability it predicts for any row lies between
`1 / (1 + (m - 1) e^(2 |lr| R))` and `1 / (1 + (m - 1) e^(-2 |lr| R))`. -/
theorem C106_confidence (S : GoSort) (draws : Nat → Exact ℝ) (X : List (List ℝ)) (D : DataBunch (Exact ℝ))
    (hX : D.data = finRows X) (hd : X.length = D.labels.length)
    (O : Options (Exact ℝ)) (hO : RealOptions O) (hbase : ∃ x, O.baseScore = XF.fin x)
    (hloss : ∀ lv, O.loss = some lv → lv.fn = sqErrLoss) (hms : rowSub O = true → 1 ≤ O.minSample)
    (M : MultiClass (Exact ℝ)) (h : newMultiClass expR S draws D O = .ok M) (lr : ℝ) (hlr : O.learningRate = XF.fin lr)
    (row out : List (Exact ℝ)) (hp : M.predictSingle row = .ok out) :
    ∀ v ∈ out, ∃ p : ℝ, v = XF.fin p ∧
      1 / (1 + (out.length - 1) * Real.exp (2 * (|lr| * M.b.length))) ≤ p ∧
      p ≤ 1 / (1 + (out.length - 1) * Real.exp (-(2 * (|lr| * M.b.length)))) := by
  obtain ⟨labels, st, ht, rfl⟩ := newMultiClass_inv h
  obtain ⟨base, hbase'⟩ := hbase
  have hB := trained_bound S draws X D hX hd O hO ⟨base, hbase'⟩ hloss hms labels st ht
  have hraw : ∃ s, (toModel expR O labels st).rawScores row = .ok s := by
    unfold MultiClass.predictSingle at hp
    obtain ⟨s, hs, _⟩ := bind_ok hp
    exact ⟨s, hs⟩
  obtain ⟨s, hs⟩ := hraw
  have hsb := rawScores_bound (M := toModel expR O labels st) zero_le_one hlr hbase' hB hs
  have hfin : AllFin s := fun v hv => by
    obtain ⟨x, hx, _⟩ := hsb v hv
    exact ⟨x, hx⟩
  obtain ⟨r, hr⟩ := hfin.finV
  have hne : r ≠ [] := by
    rintro rfl
    unfold MultiClass.predictSingle at hp
    rw [hs, hr] at hp
    simp [finV, newDense, bind, Except.bind] at hp
  rw [predictSingle_softmax expR (toModel expR O labels st) rfl row s hs (by rw [hr]; simpa [finV] using hne), hr,
    softMax_real r hne] at hp
  obtain rfl := Except.ok.inj hp
  have hbound := softmaxSpec_bounds r base (|lr| * (toModel expR O labels st).b.length) (by
    intro x hx
    obtain ⟨x', e1, e2⟩ := hsb (XF.fin x) (by rw [hr]; exact List.mem_map.2 ⟨x, hx, rfl⟩)
    rw [← fin_inj e1] at e2
    rw [mul_one, mul_comm] at e2
    exact e2)
  intro v hv
  obtain ⟨p, hp', rfl⟩ := List.mem_map.1 hv
  have := hbound p hp'
  refine ⟨p, rfl, ?_⟩
  rw [show (finV (softmaxSpec r)).length = r.length by simp [finV, softmaxSpec]]
  exact this

/-! Non-vacuity: the model of `five_model` (xgboost, 20 rounds), and the bounds for it. -/
example : ∃ M, newMultiClass expR GoSort.ins (fun _ => .fin 0) fiveData plainXgb = .ok M ∧ M.b.length = 20 ∧
    RealOptions plainXgb ∧ (∀ lv, plainXgb.loss = some lv → lv.fn = sqErrLoss) := by
  obtain ⟨M, hM, hl⟩ := five_model
  refine ⟨M, hM, hl, ⟨⟨_, rfl⟩, ⟨_, rfl, ?_⟩, ⟨_, rfl⟩⟩, ?_⟩
  · norm_num
  · intro lv h
    simp [plainXgb, defaultXOptions] at h
    subst h
    rfl

/-! The loss matters: `MSELoss` divides by `p (1 - p)`, so its steps are longer. -/

/-- **C106 (limit)**: with `MSELoss` and learning rate 1, one round on two rows already gives a probability above the
bound that squared error would have to respect. -/
theorem C106_mse (exp : F64 → F64) (hexp : HasValues exp satExp) :
    (∃ M, newMultiClass exp GoSort.ins (fun _ => .fin 0) satData { satOptions with rounds := 1 } = .ok M ∧
      ∃ p q, M.predictSingle [.fin 0] = .ok [.fin p, .fin q] ∧ 19 / 20 < p) ∧
    (1 : ℝ) / (1 + (2 - 1) * Real.exp (-(2 * (|1| * 1)))) < 19 / 20 := by
  constructor
  · have h : ((probsT satExp satData { satOptions with rounds := 1 } [.fin 0]).map fun x => (x.1.length,
        match x.2 with | [.fin p, .fin _] => decide (19 / 20 < p) | _ => false)) = .ok (2, true) := by decide +kernel
    cases hp : probsT satExp satData { satOptions with rounds := 1 } [.fin 0] with
    | error e => rw [hp] at h; cases h
    | ok x =>
      rw [hp] at h
      obtain ⟨raw, p⟩ := x
      simp only [Except.map, Except.ok.injEq, Prod.mk.injEq] at h
      obtain ⟨h1, h2⟩ := h
      obtain ⟨M, hM, hq⟩ := probsT_sound hp (by rintro rfl; simp at h1) exp hexp
      refine ⟨M, hM, ?_⟩
      split at h2
      · exact ⟨_, _, hq, of_decide_eq_true h2⟩
      · cases h2
  · have h1 := Real.exp_one_lt_d9
    have h2 : Real.exp 2 = Real.exp 1 * Real.exp 1 := by rw [← Real.exp_add]; norm_num
    have h3 : Real.exp 2 < 19 := by
      rw [h2]
      have := Real.exp_pos 1
      nlinarith
    have h4 : 1 / 19 < Real.exp (-2) := by
      rw [Real.exp_neg, one_div]
      exact inv_strictAnti₀ (Real.exp_pos _) h3
    rw [abs_one, mul_one, mul_one, div_lt_iff₀ (by positivity)]
    linarith

end Boo
