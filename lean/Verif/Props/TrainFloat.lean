import Verif.Lemmas.FloatTrain
import Verif.Props.PredictTotal
import Verif.Props.Apart

/-!
# Training in float64 (C99)
-/

namespace Boo
open GoFloat Spec

section AnyOrder

variable {τ : Option SumOrder}
/-- float64, with any order of the additions of `floats.Sum` -/
local notation "F64" => F64o τ

/-- the one-hot columns consist of 0 and 1 -/
theorem ohe_float {labels : List Int} {ohe : Dense F64} (hne : labels ≠ [])
    (ho : oneHotEncodeDense labels = .ok (ohe, distinctElements labels)) (k : Nat) (y : List F64)
    (hk : k < (distinctElements labels).length) (hy : denseCol ohe k = .ok y) :
    ∃ y' : List ℚ, y = y'.map XF.fin ∧ y'.length = labels.length ∧ ∀ v ∈ y', v = 0 ∨ v = 1 := by
  have := ohe_column hne ho (List.getElem?_eq_getElem hk) hy
  refine ⟨labels.map fun l => if l = (distinctElements labels)[k] then 1 else 0, ?_, by simp, ?_⟩
  · rw [this]
    unfold indicator
    rw [List.map_map]
    apply List.map_congr_left
    intro l _
    have ho : (one : F64) = .fin 1 := one64
    have hz : (zero : F64) = .fin 0 := rfl
    simp only [Function.comp_apply, ho, hz]
    split <;> rfl
  · intro v hv
    obtain ⟨l, _, rfl⟩ := List.mem_map.1 hv
    split <;> simp

/-- training in float64 ends with small leaf values and at most as many rounds as asked for -/
theorem train_float {exp : F64 → F64} (hexp : ExpFloat exp) (S : GoSort) (draws : Nat → F64) (D : DataBunch F64)
    (hd : D.data.length = D.labels.length) (hn : D.data.length < 2 ^ 53) (O : Options F64) (lr lam base W : ℚ)
    (hO : FloatOptions O lr lam W) (hbase : O.baseScore = .fin base) (hbrep : rv base = base)
    (lv : LossVal F64) (hlv : O.loss = some lv) (hL : LeafBound D.data O lv.fn lam W)
    (hroom : |base| + O.rounds.toNat * (|lr| * W + 2 ^ (-40 : ℤ)) ≤ 700) (labels : List Int)
    (st : TrainState F64) (ht : train exp S draws D O = .ok (labels, st)) (hm : labels.length ≤ 1024) :
    ∀ ens ∈ st.boosters, ∀ t ∈ ens, SmallTree W t ∧ Origin64 S D.data O.fixMcw lam t := by
  obtain ⟨hl, hlab, ohe, st0, hohe, hr0, hc0, hw, hinit, hrounds⟩ := train_inv ht
  obtain ⟨i1, i2, i3, _, _, _, i7⟩ := trainInit_inv hinit hr0 hc0
  have hfix : ∃ f, O.fixMcw = { O with minChildWeight := f } := by
    unfold Options.fixMcw
    split
    · exact ⟨_, rfl⟩
    · exact ⟨O.minChildWeight, rfl⟩
  obtain ⟨f, hf⟩ := hfix
  have hohe' : oneHotEncodeDense D.labels = .ok (ohe, distinctElements D.labels) := by
    rw [hlab] at hohe
    exact hohe
  have hs : FloatSetup D.data O.fixMcw ohe D.labels.length labels.length lr lam W := by
    refine ⟨?_, hd, List.length_pos_iff.2 hl, by omega, hm, ?_, ?_⟩
    · rw [hf]
      exact ⟨hO.lrEq, hO.lamEq, hO.lamRep, hO.lam0, hO.lamBig, hO.W0, hO.WRep, hO.WBig⟩
    · intro k y hkm hy
      rw [hlab] at hkm
      exact ohe_float hl hohe' k y hkm hy
    · intro lv' hlv'
      rw [hf] at hlv' ⊢
      rw [show lv' = lv from Option.some.inj (hlv'.symm.trans hlv)]
      exact hL
  have hbb : |base| ≤ 700 := by
    have : 0 ≤ (O.rounds.toNat : ℚ) * (|lr| * W + 2 ^ (-40 : ℤ)) :=
      mul_nonneg (by positivity) (add_nonneg (mul_nonneg (abs_nonneg _) hO.W0) (by positivity))
    linarith
  refine (trainRounds_float hexp hs (by rw [hf]; simp [hlv]) hroom hrounds i1 i2 ?_).2
  intro i hin j v hv
  rw [i7 i hin] at hv
  have hv := List.mem_of_getElem? hv
  rw [List.mem_replicate] at hv
  have ho : (one : F64) = .fin 1 := one64
  rw [hv.2, hbase, ho, mul64]
  · rw [mul_one, hbrep]
    exact ⟨base, rfl, hbrep, le_rfl⟩
  · rw [mul_one]
    refine hbb.trans (le_trans ?_ big64_large)
    norm_num

theorem treesOf_length_le (b : List (List (Tree F64))) (c : Nat) : (treesOf b c).length ≤ b.length :=
  List.length_filterMap_le _ _

/-- the scores of a trained model -/
theorem train_scores {exp : F64 → F64} (hexp : ExpFloat exp) (S : GoSort) (draws : Nat → F64) (D : DataBunch F64)
    (hd : D.data.length = D.labels.length) (hn : D.data.length < 2 ^ 53) (O : Options F64) (lr lam base W : ℚ)
    (hO : FloatOptions O lr lam W) (hbase : O.baseScore = .fin base) (hbrep : rv base = base)
    (lv : LossVal F64) (hlv : O.loss = some lv) (hL : LeafBound D.data O lv.fn lam W)
    (hroom : |base| + O.rounds.toNat * (|lr| * W + 2 ^ (-40 : ℤ)) ≤ 700) (hm : (distinctElements D.labels).length ≤ 1024)
    (M : MultiClass F64) (h : newMultiClass exp S draws D O = .ok M) (row raw : List F64) (hraw : M.rawScores row = .ok raw) :
    ∃ p : List ℚ, raw = p.map XF.fin ∧ p.length ≤ (distinctElements D.labels).length ∧
      ∀ x ∈ p, |x| ≤ |base| + O.rounds.toNat * (|lr| * W + 2 ^ (-40 : ℤ)) := by
  have hcount : M.b.length ≤ O.rounds.toNat := by
    rw [(C22_rounds exp S draws D O M h).1]
    unfold executedRounds
    exact (List.length_filter_le _ _).trans (by simp)
  obtain ⟨labels, st, ht, rfl⟩ := newMultiClass_inv h
  obtain ⟨hl, hlab, ohe, st0, hohe, hr0, hc0, hw, hinit, hrounds⟩ := train_inv ht
  obtain ⟨i1, i2, _⟩ := trainInit_inv hinit hr0 hc0
  have hens := (trainRounds_inv hrounds i1 hd i2).2.1
  have htr := train_float hexp S draws D hd hn O lr lam base W hO hbase hbrep lv hlv hL hroom labels st ht (by rw [hlab]; exact hm)
  unfold MultiClass.rawScores at hraw
  obtain ⟨b0, h0, hraw⟩ := bind_ok hraw
  have hb0 : b0 ∈ st.boosters := List.mem_of_getElem? (goIdx_ok.1 h0)
  obtain ⟨g1, g2⟩ := foldRounds_get _ _ b0.length _ row raw hraw
  have hδ : 0 ≤ |lr| * W + 2 ^ (-40 : ℤ) := add_nonneg (mul_nonneg (abs_nonneg _) hO.W0) (by positivity)
  obtain ⟨p, hp, hpb⟩ := within_list (P := fun x => |x| ≤ |base| + O.rounds.toNat * (|lr| * W + 2 ^ (-40 : ℤ))) (l := raw) (by
    intro v hv
    obtain ⟨c, hc⟩ := List.getElem?_of_mem hv
    have hcl : c < b0.length := by
      have := (List.getElem?_eq_some_iff.1 hc).1
      omega
    obtain ⟨w, hw, hsc⟩ := g2 c hcl
    rw [hc] at hw
    obtain rfl := Option.some.inj hw
    have hlen : ((treesOf (toModel exp O labels st).b c).length : ℚ) ≤ O.rounds.toNat := by
      have := (treesOf_length_le (toModel exp O labels st).b c).trans hcount
      exact_mod_cast this
    have hle := mul_le_mul_of_nonneg_right hlen hδ
    obtain ⟨x, q1, _, q3⟩ := scoreAfter_float (lr := lr) hO.W0 (treesOf (toModel exp O labels st).b c) (by
        intro t ht
        obtain ⟨ens, he, hte⟩ := List.mem_filterMap.1 ht
        exact (htr ens he t (List.mem_of_getElem? hte)).1) row |base| (.fin base) v ⟨base, rfl, hbrep, le_rfl⟩
      (by linarith) (by
        rw [← hbase, ← hO.lrEq]
        exact hsc)
    exact ⟨x, q1, by linarith⟩)
  refine ⟨p, hp, ?_, hpb⟩
  have : p.length = b0.length := by rw [← g1, hp]; simp
  rw [this, ← hlab]
  exact hens b0 hb0

/-- what a trained model predicts -/
theorem train_probs {exp : F64 → F64} (hexp : ExpFloat exp) (S : GoSort) (draws : Nat → F64) (D : DataBunch F64)
    (hd : D.data.length = D.labels.length) (hn : D.data.length < 2 ^ 53) (O : Options F64) (lr lam base W : ℚ)
    (hO : FloatOptions O lr lam W) (hbase : O.baseScore = .fin base) (hbrep : rv base = base)
    (lv : LossVal F64) (hlv : O.loss = some lv) (hL : LeafBound D.data O lv.fn lam W)
    (hroom : |base| + O.rounds.toNat * (|lr| * W + 2 ^ (-40 : ℤ)) ≤ 700) (hm : (distinctElements D.labels).length ≤ 1024)
    (M : MultiClass F64) (h : newMultiClass exp S draws D O = .ok M) (row out : List F64) (hout : M.predictSingle row = .ok out) :
    ∃ p q : List ℚ, M.rawScores row = .ok (p.map XF.fin) ∧ out = q.map XF.fin ∧
      (∀ x ∈ p, |x| ≤ |base| + O.rounds.toNat * (|lr| * W + 2 ^ (-40 : ℤ))) ∧ (∀ v ∈ q, 0 ≤ v ∧ v ≤ 1) ∧
      |((q.sum : ℚ) : ℝ) - 1| ≤ (3 * q.length + 9) * 2 ^ (-53 : ℤ) := by
  have hraw : ∃ s, M.rawScores row = .ok s := by
    unfold MultiClass.predictSingle at hout
    obtain ⟨s, hs, _⟩ := bind_ok hout
    exact ⟨s, hs⟩
  obtain ⟨raw, hraw⟩ := hraw
  obtain ⟨p, rfl, p2, p3⟩ := train_scores hexp S draws D hd hn O lr lam base W hO hbase hbrep lv hlv hL hroom hm M h row raw hraw
  have hne : p ≠ [] := by
    rintro rfl
    unfold MultiClass.predictSingle at hout
    rw [hraw] at hout
    simp [newDense, bind, Except.bind] at hout
  have hM : M.probTransform = some (softMaxDense exp) := by
    obtain ⟨labels, st, _, rfl⟩ := newMultiClass_inv h
    rfl
  obtain ⟨q, q1, q2, q3, _, q5⟩ := (C96_model exp hexp M hM row p hraw hne (fun x hx => (p3 x hx).trans hroom) (p2.trans hm)).1
  rw [q1] at hout
  exact ⟨p, q, hraw, (Except.ok.inj hout).symm, p3, q3, by rw [q2]; exact q5⟩

/-- **C99 (squared error)**: training in float64 with `SQErrLoss`. The learning rate, base score and `Lambda ≥ 0` are finite numbers with
`|BaseScore| + Rounds · (|LearningRate| + 2⁻⁴⁰) ≤ 700`, there are at most 1024 classes, and either xgboost is used with
`Lambda > 0` or no two values of a feature are neighbouring numbers (and row samples are not empty). Then whatever the
values in the data (NaN and infinities included), the sampling, depth and early stopping: if training returns a model, then for any row
the scores are numbers of at most that size (none overflows), and what the model predicts are numbers between 0 and 1 that
sum to 1 up to `(3n+9)·2⁻⁵³`. -/
theorem C99_sqerr (exp : F64 → F64) (hexp : ExpFloat exp) (S : GoSort) (draws : Nat → F64) (D : DataBunch F64)
    (hd : D.data.length = D.labels.length) (hn : D.data.length < 2 ^ 53) (hm : (distinctElements D.labels).length ≤ 1024)
    (O : Options F64) (lv : LossVal F64) (hlv : O.loss = some lv) (hloss : lv.fn = sqErrLoss)
    (lr lam base : ℚ) (hlr : O.learningRate = .fin lr) (hlam : O.lambda = .fin lam) (hbase : O.baseScore = .fin base)
    (rlam : Rep64 lam) (rbase : Rep64 base) (hlam0 : 0 ≤ lam) (hlamB : lam ≤ 2 ^ (1000 : ℤ))
    (hsafe : (O.xgb = true ∧ 0 < lam) ∨ (Apart64 D.data ∧ (rowSub O = true → 1 ≤ O.minSample)))
    (hroom : |base| + O.rounds.toNat * (|lr| + 2 ^ (-40 : ℤ)) ≤ 700)
    (M : MultiClass F64) (h : newMultiClass exp S draws D O = .ok M) (row out : List F64) (hout : M.predictSingle row = .ok out) :
    ∃ p q : List ℚ, M.rawScores row = .ok (p.map XF.fin) ∧ out = q.map XF.fin ∧
      (∀ x ∈ p, |x| ≤ |base| + O.rounds.toNat * (|lr| + 2 ^ (-40 : ℤ))) ∧ (∀ v ∈ q, 0 ≤ v ∧ v ≤ 1) ∧
      |((q.sum : ℚ) : ℝ) - 1| ≤ (3 * q.length + 9) * 2 ^ (-53 : ℤ) := by
  have := train_probs hexp S draws D hd hn O lr lam base 1
    ⟨hlr, hlam, (rep64_rv rlam).1, hlam0, hlamB, by norm_num, rv_one, big64_one⟩ hbase (rep64_rv rbase).1 lv hlv
    (Or.inl ⟨hloss, le_rfl, hsafe⟩) (by rw [mul_one]; exact hroom) hm M h row out hout
  rw [mul_one] at this
  exact this

/-- **C99 (MSELoss)**: the same for xgboost with `MSELoss` and `Lambda > 0`, when
`|BaseScore| + Rounds · (|LearningRate| · W + 2⁻⁴⁰) ≤ 700` for a float64 number `W` with `rows ≤ W · Lambda`. (Without `Lambda` the
claim is false, `C71_violated_binary64`.) -/
theorem C99_mse (exp : F64 → F64) (hexp : ExpFloat exp) (S : GoSort) (draws : Nat → F64) (D : DataBunch F64)
    (hd : D.data.length = D.labels.length) (hn : D.data.length < 2 ^ 53) (hm : (distinctElements D.labels).length ≤ 1024)
    (O : Options F64) (lv : LossVal F64) (hlv : O.loss = some lv) (hloss : lv.fn = mseLoss) (hx : O.xgb = true)
    (lr lam base W : ℚ) (hlr : O.learningRate = .fin lr) (hlam : O.lambda = .fin lam) (hbase : O.baseScore = .fin base)
    (rlam : Rep64 lam) (rbase : Rep64 base) (rW : Rep64 W) (hlam0 : 0 < lam) (hlamB : lam ≤ 2 ^ (1000 : ℤ)) (hWB : W ≤ 2 ^ (1000 : ℤ))
    (hW : (D.data.length : ℚ) ≤ W * lam) (hroom : |base| + O.rounds.toNat * (|lr| * W + 2 ^ (-40 : ℤ)) ≤ 700)
    (M : MultiClass F64) (h : newMultiClass exp S draws D O = .ok M) (row out : List F64) (hout : M.predictSingle row = .ok out) :
    ∃ p q : List ℚ, M.rawScores row = .ok (p.map XF.fin) ∧ out = q.map XF.fin ∧
      (∀ x ∈ p, |x| ≤ |base| + O.rounds.toNat * (|lr| * W + 2 ^ (-40 : ℤ))) ∧ (∀ v ∈ q, 0 ≤ v ∧ v ≤ 1) ∧
      |((q.sum : ℚ) : ℝ) - 1| ≤ (3 * q.length + 9) * 2 ^ (-53 : ℤ) := by
  have hW0 : 0 ≤ W := by
    by_contra hlt
    rw [not_le] at hlt
    have h1 : W * lam < 0 := mul_neg_of_neg_of_pos hlt hlam0
    have h2 : (0 : ℚ) ≤ D.data.length := Nat.cast_nonneg _
    exact absurd (h2.trans hW) (not_le.2 h1)
  refine train_probs hexp S draws D hd hn O lr lam base W
    ⟨hlr, hlam, (rep64_rv rlam).1, hlam0.le, hlamB, hW0, (rep64_rv rW).1, ?_⟩ hbase (rep64_rv rbase).1 lv hlv
    (Or.inr ⟨hloss, hx, hlam0, hW⟩) hroom hm M h row out hout
  have := room1000 hWB (k := 0) (by norm_num)
  clear hWB hlamB hroom
  linarith

/-- **C99 (default options)**: with `DefaultXOptions` (also `DefaultOptions`), for any data of fewer than `2^53` rows and at most 1024
classes, whatever the values and the random draws: if training returns a model, then for every row at least as long as the first training row, unless no round was executed, `PredictSingle`
returns as many numbers as there are classes, all between 0 and 1, which sum to 1 up to `(3n+9)·2⁻⁵³`; and all scores
are between -7 and 7. -/
theorem C99_default (exp : F64 → F64) (hexp : ExpFloat exp) (S : GoSort) (draws : Nat → F64) (D : DataBunch F64)
    (hd : D.data.length = D.labels.length) (hn : D.data.length < 2 ^ 53) (hm : (distinctElements D.labels).length ≤ 1024)
    (id : Nat) (M : MultiClass F64) (h : newMultiClass exp S draws D (defaultXOptions id) = .ok M) (hne : M.b ≠ [])
    (row0 : List F64) (h0 : D.data[0]? = some row0) (row : List F64) (hrow : row0.length ≤ row.length) :
    ∃ p q : List ℚ, M.rawScores row = .ok (p.map XF.fin) ∧ M.predictSingle row = .ok (q.map XF.fin) ∧
      q.length = (distinctElements D.labels).length ∧
      (∀ x ∈ p, |x| ≤ 7) ∧ (∀ v ∈ q, 0 ≤ v ∧ v ≤ 1) ∧
      |((q.sum : ℚ) : ℝ) - 1| ≤ (3 * (distinctElements D.labels).length + 9) * 2 ^ (-53 : ℤ) := by
  obtain ⟨out, ho, hol, _⟩ := C79_predict_partial exp S draws D _ M h hne row0 h0 row hrow
  have hlr : (defaultXOptions id : Options F64).learningRate = .fin (rv (3/10)) := by
    show (ofRat (3/10) : F64) = _
    exact ofRat64 (by decide +kernel)
  have hlam : (defaultXOptions id : Options F64).lambda = .fin (3/2) := by
    show (ofRat (15/10) : F64) = _
    exact ofRat64 (by decide +kernel)
  have hbase : (defaultXOptions id : Options F64).baseScore = .fin (1/2) := by
    show (ofRat (5/10) : F64) = _
    exact ofRat64 (by decide +kernel)
  have hb : |(1/2 : ℚ)| + (defaultXOptions id : Options F64).rounds.toNat * (|rv (3/10)| + 2 ^ (-40 : ℤ)) ≤ 7 := by
    show |(1/2 : ℚ)| + ((20 : Nat) : ℚ) * (|rv (3/10)| + 2 ^ (-40 : ℤ)) ≤ 7
    have h1 : |rv (3/10)| ≤ 31/100 := by decide +kernel
    have h2 : (2 : ℚ) ^ (-40 : ℤ) ≤ 1/100 := by decide +kernel
    have h3 : |(1/2 : ℚ)| = 1/2 := by decide +kernel
    have h4 : ((20 : Nat) : ℚ) = 20 := by norm_num
    rw [h3, h4]
    clear h3 h4
    generalize |rv (3/10)| = a at *
    generalize (2 : ℚ) ^ (-40 : ℤ) = b at *
    linarith
  obtain ⟨p, q, p1, rfl, p3, p4, p5⟩ := C99_sqerr exp hexp S draws D hd hn hm (defaultXOptions id) _ rfl rfl (rv (3/10)) (3/2) (1/2)
    hlr hlam hbase (by unfold Rep64; decide +kernel) (by unfold Rep64; decide +kernel) (by norm_num) (by
      have : (2 : ℚ) ^ (10 : ℤ) ≤ 2 ^ (1000 : ℤ) := zpow_le_zpow_right₀ (by norm_num) (by norm_num)
      refine le_trans ?_ this
      norm_num) (Or.inl ⟨rfl, by norm_num⟩) (hb.trans (by norm_num)) M h row out ho
  have hcl : M.classLabels = distinctElements D.labels := (C22_rounds exp S draws D _ M h).2.1
  have hql : q.length = (distinctElements D.labels).length := by
    rw [← hcl, ← hol]
    simp
  rw [hql] at p5
  exact ⟨p, q, p1, ho, hql, fun x hx => (p3 x hx).trans hb, p4, p5⟩

/-- The same for the options of `DefaultOptions`. -/
theorem C99_default_options (exp : F64 → F64) (hexp : ExpFloat exp) (S : GoSort) (draws : Nat → F64) (D : DataBunch F64)
    (hd : D.data.length = D.labels.length) (hn : D.data.length < 2 ^ 53) (hm : (distinctElements D.labels).length ≤ 1024)
    (id : Nat) (M : MultiClass F64) (h : newMultiClass exp S draws D (defaultOptions id) = .ok M) (hne : M.b ≠ [])
    (row0 : List F64) (h0 : D.data[0]? = some row0) (row : List F64) (hrow : row0.length ≤ row.length) :
    ∃ q : List ℚ, M.predictSingle row = .ok (q.map XF.fin) ∧ q.length = (distinctElements D.labels).length ∧
      (∀ v ∈ q, 0 ≤ v ∧ v ≤ 1) ∧ |((q.sum : ℚ) : ℝ) - 1| ≤ (3 * (distinctElements D.labels).length + 9) * 2 ^ (-53 : ℤ) := by
  obtain ⟨p, q, _, h2, h3, _, h4, h5⟩ := C99_default exp hexp S draws D hd hn hm id M h hne row0 h0 row hrow
  exact ⟨q, h2, h3, h4, h5⟩

end AnyOrder

/-- six rows of three classes -/
def trainX : List (List F64) := [[.fin 1], [.fin 2], [.fin 4], [.fin (1/2)], [.fin (-3)], [.fin (2 ^ 900)]]

theorem trainX_apart : Apart64 trainX := by
  refine ⟨?_, ?_⟩
  · intro row hr v hv
    simp only [trainX, List.mem_cons, List.not_mem_nil, or_false] at hr
    rcases hr with rfl | rfl | rfl | rfl | rfl | rfl <;> simp only [List.mem_cons, List.not_mem_nil, or_false] at hv <;> subst hv <;>
      exact ⟨_, rfl, by unfold Rep64; decide +kernel, by decide +kernel⟩
  · have hrep : ∀ c ∈ [(0 : ℚ), 3/4, 3/2, 3, 5], Rep64 c := by unfold Rep64; decide +kernel
    have key : ∀ a ∈ [(1 : ℚ), 2, 4, 1/2, -3, 2 ^ 900], ∀ b ∈ [(1 : ℚ), 2, 4, 1/2, -3, 2 ^ 900], a < b →
        ∃ c ∈ [(0 : ℚ), 3/4, 3/2, 3, 5], a < c ∧ c < b := by decide +kernel
    have mem : ∀ row ∈ trainX, ∀ v ∈ row, ∃ a ∈ [(1 : ℚ), 2, 4, 1/2, -3, 2 ^ 900], v = .fin a := by decide +kernel
    intro f row row' a b hr hr' ha hb hab
    obtain ⟨a', ha', e1⟩ := mem row hr _ (List.mem_of_getElem? ha)
    obtain ⟨b', hb', e2⟩ := mem row' hr' _ (List.mem_of_getElem? hb)
    cases e1
    cases e2
    obtain ⟨c, hc, h⟩ := key a ha' b hb' hab
    exact ⟨c, hrep c hc, h⟩

def trainD64 : DataBunch F64 := { data := trainX, labels := [0, 0, 7, 7, 9, 9], keys := [], floatLabels := [] }

/-- the hypotheses of `C99_default` are met: training runs, with twenty rounds -/
example : ∃ (exp : F64 → F64) (M : MultiClass F64) (q : List ℚ), ExpFloat exp ∧
    newMultiClass exp GoSort.ins (fun _ => .fin 0) trainD64 (defaultXOptions 0) = .ok M ∧ M.b.length = 20 ∧
    M.predictSingle [.nan] = .ok (q.map XF.fin) ∧ q.length = 3 ∧ ∀ v ∈ q, 0 ≤ v ∧ v ≤ 1 := by
  obtain ⟨exp, hexp⟩ := expFloat_exists
  obtain ⟨M, hM⟩ := C22_returns_binary64 exp GoSort.ins (fun _ => .fin 0) trainD64 (defaultXOptions 0) (by decide)
    ⟨1, by decide⟩ trainX_apart (by decide) _ rfl sqErrLoss_regular ⟨by decide +kernel, by decide +kernel⟩
    (fun _ => by decide)
  have hb : M.b.length = 20 := by
    rw [(C22_rounds _ _ _ _ _ _ hM).1]
    decide +kernel
  obtain ⟨p, q, _, h2, h3, _, h5, _⟩ := C99_default exp hexp GoSort.ins _ trainD64 (by decide) (by decide) (by decide) 0 M hM
    (by intro h; rw [h] at hb; cases hb) _ rfl [.nan] (by decide)
  exact ⟨exp, M, q, hexp, hM, hb, h2, h3, h5⟩

/-- the hypotheses of `C99_mse` are met: `W = 4` -/
example : ∃ (exp : F64 → F64) (M : MultiClass F64) (out : List F64), ExpFloat exp ∧
    newMultiClass exp GoSort.ins (fun _ => .fin 0) trainD64 { (defaultXOptions 0 : Options F64) with
      loss := some ⟨1, mseLoss⟩, learningRate := .fin (1/4) } = .ok M ∧
    M.predictSingle [.fin 3] = .ok out ∧ ∃ q : List ℚ, out = q.map XF.fin ∧ ∀ v ∈ q, 0 ≤ v ∧ v ≤ 1 := by
  obtain ⟨exp, hexp⟩ := expFloat_exists
  obtain ⟨M, hM⟩ := C22_returns_binary64 exp GoSort.ins (fun _ => .fin 0) trainD64 { (defaultXOptions 0 : Options F64) with
      loss := some ⟨1, mseLoss⟩, learningRate := .fin (1/4) } (by decide)
    ⟨1, by decide⟩ trainX_apart (by decide) _ rfl mseLoss_regular ⟨by decide +kernel, by decide +kernel⟩
    (fun _ => by decide)
  have hb : M.b.length = 20 := by
    rw [(C22_rounds _ _ _ _ _ _ hM).1]
    decide +kernel
  obtain ⟨out, ho, _⟩ := C79_predict_partial exp _ _ _ _ M hM (by intro h; rw [h] at hb; cases hb) _ rfl [.fin 3] (by decide)
  obtain ⟨p, q, _, h2, _, h4, _⟩ := C99_mse exp hexp GoSort.ins _ trainD64 (by decide) (by decide) (by decide) _ _ rfl rfl rfl
    (1/4) (3/2) (1/2) 4 rfl (by show (ofRat (15/10) : F64) = _; decide +kernel) (by show (ofRat (5/10) : F64) = _; decide +kernel)
    (by unfold Rep64; decide +kernel) (by unfold Rep64; decide +kernel) (by unfold Rep64; decide +kernel) (by decide +kernel)
    (by decide +kernel) (by decide +kernel) (by decide +kernel) (by decide +kernel) M hM [.fin 3] out ho
  exact ⟨exp, M, out, hexp, hM, ho, q, h2, h4⟩

end Boo
