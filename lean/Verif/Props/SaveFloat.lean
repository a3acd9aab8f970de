import Verif.Lemmas.SaveFloat
import Verif.Props.Json
import Verif.Props.TrainFloat
import Verif.Props.RealTrain

/-!
# A trained model can be saved (C122)

`JSONMultiClass` fails on a model that contains NaN or an infinity. Here: when training in float64 leaves only finite numbers in all nodes of
all trees (thresholds, values and scores of splits), and when it does not.
-/

namespace Boo
open GoFloat Spec

variable {F : Type} [GoFloat F]

/-- `JSONMultiClass` writes only models whose trees contain only finite numbers -/
theorem written_allFin (J : JCodec F) (hls : isFin (leafScore : F) = true) (m : MultiClass F) (name text : List Char)
    (h : jsonMultiClass J m name = .ok (some text)) : ∀ round ∈ m.b, ∀ t ∈ round, t.AllFin := by
  have hcls : ∀ (ts : List (Tree F)) cn text, jsonClasses J m.classLabels ts cn = .ok (some text) → ∀ t ∈ ts, t.AllFin := by
    intro ts
    induction ts with
    | nil => intro _ _ _ t ht; cases ht
    | cons t ts ih =>
      intro cn text h
      unfold jsonClasses at h
      obtain ⟨lab, _, h⟩ := bind_ok h
      obtain ⟨jt, hj, h⟩ := bind_ok h
      cases jt with
      | none => simp [pure, Except.pure] at h
      | some p =>
        obtain ⟨rest, hr, h⟩ := bind_ok h
        cases rest with
        | none => simp [pure, Except.pure] at h
        | some rest =>
          intro u hu
          rcases List.mem_cons.1 hu with rfl | hu
          · obtain ⟨last, hs, _⟩ := jsonTree_ok hj
            exact (jsonSub_isSome J hls u 0).1 (by rw [hs]; rfl)
          · exact ih _ _ hr u hu
  have hrd : ∀ (rs : List (List (Tree F))) rn text, jsonRounds J m.classLabels rs rn = .ok (some text) →
      ∀ round ∈ rs, ∀ t ∈ round, t.AllFin := by
    intro rs
    induction rs with
    | nil => intro _ _ _ r hr; cases hr
    | cons r rs ih =>
      intro rn text h
      unfold jsonRounds at h
      obtain ⟨c, hc, h⟩ := bind_ok h
      cases c with
      | none => simp [pure, Except.pure] at h
      | some c =>
        obtain ⟨rest, hr, h⟩ := bind_ok h
        cases rest with
        | none => simp [pure, Except.pure] at h
        | some rest =>
          intro u hu
          rcases List.mem_cons.1 hu with rfl | hu
          · exact hcls u 0 _ hc
          · exact ih _ _ hr u hu
  unfold jsonMultiClass at h
  cases hm : marshalMCMetaData J m name with
  | none => rw [hm] at h; simp at h
  | some j =>
    rw [hm] at h
    obtain ⟨rest, hr, h⟩ := bind_ok h
    cases rest with
    | none => simp [pure, Except.pure] at h
    | some rest => exact hrd _ _ _ hr

section AnyOrder

variable {τ : Option SumOrder}
/-- float64, with any order of the additions of `floats.Sum` -/
local notation "F64" => F64o τ

theorem leafScore_fin : isFin (leafScore : F64) = true := by
  have h : (leafScore : F64) = .fin (rv (1189998819991197253 / 10000000000000000000)) := ofRat64 (by decide +kernel)
  rw [h]
  exact isFin64 ⟨_, rfl, rv_idem _, by decide +kernel⟩

/-- a model trained in float64 consists of finite numbers -/
theorem train_writable {exp : F64 → F64} (hexp : ExpFloat exp) (S : GoSort) (draws : Nat → F64) (D : DataBunch F64)
    (hd : D.data.length = D.labels.length) (hX : Bounded64 D.data) (hn : D.data.length ≤ 2 ^ 50) (O : Options F64) (lr lam base gam W : ℚ)
    (hO : FloatOptions O lr lam W) (hlrB : Rep64 lr ∧ |lr| ≤ 2 ^ (1000 : ℤ)) (hbase : O.baseScore = .fin base) (hbrep : rv base = base)
    (hgam : O.gamma = .fin gam) (hgrep : rv gam = gam) (hgB : |gam| ≤ 2 ^ (1000 : ℤ))
    (lv : LossVal F64) (hlv : O.loss = some lv) (hL : LeafBound D.data O lv.fn lam W)
    (hmse : lv.fn = mseLoss → 2 ^ (-8 : ℤ) ≤ lam ∧ D.data.length ≤ 2 ^ 20)
    (hroom : |base| + O.rounds.toNat * (|lr| * W + 2 ^ (-40 : ℤ)) ≤ 700) (hm : (distinctElements D.labels).length ≤ 1024)
    (M : MultiClass F64) (h : newMultiClass exp S draws D O = .ok M) : Writable M := by
  obtain ⟨labels, st, ht, rfl⟩ := newMultiClass_inv h
  obtain ⟨hl, hlab, ohe, st0, hohe, hr0, hc0, hw, hinit, hrounds⟩ := train_inv ht
  obtain ⟨i1, i2, _⟩ := trainInit_inv hinit hr0 hc0
  have hens := (trainRounds_inv hrounds i1 hd i2).2.1
  have htr := train_float hexp S draws D hd (by omega) O lr lam base W hO hbase hbrep lv hlv hL hroom labels st ht (by rw [hlab]; exact hm)
  have hfix : ∃ f, O.fixMcw = { O with minChildWeight := f } := by
    unfold Options.fixMcw
    split
    · exact ⟨_, rfl⟩
    · exact ⟨O.minChildWeight, rfl⟩
  obtain ⟨f, hf⟩ := hfix
  rw [hf] at htr
  have hXne : D.data ≠ [] := by
    intro h0
    rw [h0] at hd
    exact hl (List.length_eq_zero_iff.1 hd.symm)
  have hbb : |base| ≤ 700 := by
    have : 0 ≤ (O.rounds.toNat : ℚ) * (|lr| * W + 2 ^ (-40 : ℤ)) :=
      mul_nonneg (Nat.cast_nonneg _) (add_nonneg (mul_nonneg (abs_nonneg _) hO.W0) (by positivity))
    linarith
  refine ⟨?_, ?_, ?_, hens⟩
  · show isFin O.learningRate = true
    rw [hO.lrEq]
    exact isFin64 ⟨lr, rfl, (rep64_rv hlrB.1).1, hlrB.2.trans (zpow2_le (by norm_num))⟩
  · show isFin O.baseScore = true
    rw [hbase]
    refine isFin64 ⟨base, rfl, hbrep, hbb.trans ?_⟩
    refine le_trans ?_ (zpow2_le (e := 10) (by norm_num))
    norm_num
  · intro round hr t htm
    refine classTree_fin64 hX (O := { O with minChildWeight := f }) (lr := lr) (lam := lam) (gam := gam) (W := W)
      ⟨hO.lrEq, hO.lamEq, hO.lamRep, hO.lam0, hO.lamBig, hO.W0, hO.WRep, hO.WBig⟩ hgam hgrep hgB hXne hn ?_ (htr round hr t htm).2
    intro lv' hlv'
    rw [show lv' = lv from Option.some.inj (hlv'.symm.trans hlv)]
    exact ⟨hL, hmse⟩

/-- **C122 (squared error), partial**: training in float64 with `SQErrLoss`, regular or xgboost. The values of the data are finite and of size at most
`2¹⁰²²`, there are at most `2⁵⁰` rows and 1024 classes; learning rate, base score, `Lambda ≥ 0` and `Gamma` are float64 numbers with
`|BaseScore| + Rounds · (|LearningRate| + 2⁻⁴⁰) ≤ 700`, and either xgboost is used with `Lambda > 0` or no two values of a feature are
neighbouring numbers (and row samples are not empty). Then whatever the sampling, depth, `MinChildWeight` and early stopping, the model that training
returns is written by `JSONMultiClass` without an error.
Missing: other losses without `Lambda`; there the claim is false (`C122_violated`). -/
theorem C122_sqerr_partial (J : JCodec F64) (exp : F64 → F64) (hexp : ExpFloat exp) (S : GoSort) (draws : Nat → F64) (D : DataBunch F64)
    (hd : D.data.length = D.labels.length) (hX : Bounded64 D.data) (hn : D.data.length ≤ 2 ^ 50) (hm : (distinctElements D.labels).length ≤ 1024)
    (O : Options F64) (lv : LossVal F64) (hlv : O.loss = some lv) (hloss : lv.fn = sqErrLoss)
    (lr lam base gam : ℚ) (hlr : O.learningRate = .fin lr) (hlam : O.lambda = .fin lam) (hbase : O.baseScore = .fin base) (hgam : O.gamma = .fin gam)
    (rlr : Rep64 lr) (rlam : Rep64 lam) (rbase : Rep64 base) (rgam : Rep64 gam) (hlrB : |lr| ≤ 2 ^ (1000 : ℤ))
    (hlam0 : 0 ≤ lam) (hlamB : lam ≤ 2 ^ (1000 : ℤ)) (hgB : |gam| ≤ 2 ^ (1000 : ℤ))
    (hsafe : (O.xgb = true ∧ 0 < lam) ∨ (Apart64 D.data ∧ (rowSub O = true → 1 ≤ O.minSample)))
    (hroom : |base| + O.rounds.toNat * (|lr| + 2 ^ (-40 : ℤ)) ≤ 700)
    (M : MultiClass F64) (h : newMultiClass exp S draws D O = .ok M) (name : List Char) :
    ∃ text, jsonMultiClass J M name = .ok (some text) := by
  refine C17_writes J leafScore_fin M name (train_writable hexp S draws D hd hX hn O lr lam base gam 1
    ⟨hlr, hlam, (rep64_rv rlam).1, hlam0, hlamB, by norm_num, rv_one, big64_one⟩ ⟨rlr, hlrB⟩ hbase (rep64_rv rbase).1 hgam (rep64_rv rgam).1 hgB lv hlv
    (Or.inl ⟨hloss, le_rfl, hsafe⟩) ?_ (by rw [mul_one]; exact hroom) hm M h)
  intro hmse
  exfalso
  rw [hloss] at hmse
  have h0 : (sqErrLoss : LossFunc F64).hessian [.fin 0] = (mseLoss : LossFunc F64).hessian [.fin 0] := by rw [hmse]
  have h1 : (sqErrLoss : LossFunc F64).hessian [.fin 0] = [.fin 1] := by
    show [(one : F64)] = _
    rw [one64]
  have h2 : (mseLoss : LossFunc F64).hessian [.fin 0] = [.fin 0] := by
    show [((one : F64) -. .fin 0) *. .fin 0] = _
    rw [one64, sub64 (by rw [sub_zero, abs_one]; exact big64_one), mul64 (by rw [mul_zero, abs_zero]; exact big64_pos.le), mul_zero, rv_zero]
  rw [h1, h2] at h0
  have := fin_inj64 (List.cons.inj h0).1
  norm_num at this

/-- **C122 (MSELoss), partial**: the same for xgboost with `MSELoss`, `Lambda ≥ 2⁻⁸` and at most `2²⁰` rows, when
`|BaseScore| + Rounds · (|LearningRate| · W + 2⁻⁴⁰) ≤ 700` for a float64 number `W` with `rows ≤ W · Lambda`. Missing: as above. -/
theorem C122_mse_partial (J : JCodec F64) (exp : F64 → F64) (hexp : ExpFloat exp) (S : GoSort) (draws : Nat → F64) (D : DataBunch F64)
    (hd : D.data.length = D.labels.length) (hX : Bounded64 D.data) (hn : D.data.length ≤ 2 ^ 20) (hm : (distinctElements D.labels).length ≤ 1024)
    (O : Options F64) (lv : LossVal F64) (hlv : O.loss = some lv) (hloss : lv.fn = mseLoss) (hx : O.xgb = true)
    (lr lam base gam W : ℚ) (hlr : O.learningRate = .fin lr) (hlam : O.lambda = .fin lam) (hbase : O.baseScore = .fin base) (hgam : O.gamma = .fin gam)
    (rlr : Rep64 lr) (rlam : Rep64 lam) (rbase : Rep64 base) (rgam : Rep64 gam) (rW : Rep64 W) (hlrB : |lr| ≤ 2 ^ (1000 : ℤ))
    (hlam0 : 2 ^ (-8 : ℤ) ≤ lam) (hlamB : lam ≤ 2 ^ (1000 : ℤ)) (hgB : |gam| ≤ 2 ^ (1000 : ℤ)) (hWB : W ≤ 2 ^ (1000 : ℤ))
    (hW : (D.data.length : ℚ) ≤ W * lam) (hroom : |base| + O.rounds.toNat * (|lr| * W + 2 ^ (-40 : ℤ)) ≤ 700)
    (M : MultiClass F64) (h : newMultiClass exp S draws D O = .ok M) (name : List Char) :
    ∃ text, jsonMultiClass J M name = .ok (some text) := by
  have hpos : 0 < lam := lt_of_lt_of_le (by positivity) hlam0
  have hW0 : 0 ≤ W := by
    by_contra hlt
    rw [not_le] at hlt
    have h1 : W * lam < 0 := mul_neg_of_neg_of_pos hlt hpos
    have h2 : (0 : ℚ) ≤ D.data.length := Nat.cast_nonneg _
    exact absurd (h2.trans hW) (not_le.2 h1)
  refine C17_writes J leafScore_fin M name (train_writable hexp S draws D hd hX (hn.trans (by norm_num)) O lr lam base gam W
    ⟨hlr, hlam, (rep64_rv rlam).1, hpos.le, hlamB, hW0, (rep64_rv rW).1, hWB.trans (pow_big (by norm_num))⟩ ⟨rlr, hlrB⟩ hbase (rep64_rv rbase).1 hgam (rep64_rv rgam).1 hgB lv hlv
    (Or.inr ⟨hloss, hx, hpos, hW⟩) (fun _ => ⟨hlam0, hn⟩) hroom hm M h)

/-- **C122 (default options), partial**: with `DefaultXOptions`, for any data of finite values of size at most `2¹⁰²²`, at most `2⁵⁰` rows and at most 1024
classes, whatever the random draws: if training returns a model, `JSONMultiClass` writes it, `UnJSONMultiClass` reads what was written, and the model
read back predicts for every row what the trained model predicts without its last round (see C17). -/
theorem C122_default_partial (J : JCodec F64) (exp : F64 → F64) (hexp : ExpFloat exp) (S : GoSort) (draws : Nat → F64) (D : DataBunch F64)
    (hd : D.data.length = D.labels.length) (hX : Bounded64 D.data) (hn : D.data.length ≤ 2 ^ 50) (hm : (distinctElements D.labels).length ≤ 1024)
    (id : Nat) (M : MultiClass F64) (h : newMultiClass exp S draws D (defaultXOptions id) = .ok M) :
    ∃ text M', jsonMultiClass J M "softmax".toList = .ok (some text) ∧ unJSONMultiClass J exp text = some M' ∧
      ∀ row, M'.predictSingle row = ({ M with b := M.b.dropLast } : MultiClass F64).predictSingle row := by
  have hlr : (defaultXOptions id : Options F64).learningRate = .fin (rv (3/10)) := by
    show (ofRat (3/10) : F64) = _
    exact ofRat64 (by decide +kernel)
  have hlam : (defaultXOptions id : Options F64).lambda = .fin (3/2) := by
    show (ofRat (15/10) : F64) = _
    exact ofRat64 (by decide +kernel)
  have hbase : (defaultXOptions id : Options F64).baseScore = .fin (1/2) := by
    show (ofRat (5/10) : F64) = _
    exact ofRat64 (by decide +kernel)
  have hgam : (defaultXOptions id : Options F64).gamma = .fin (rv (2/10)) := by
    show (ofRat (2/10) : F64) = _
    exact ofRat64 (by decide +kernel)
  have hb : |(1/2 : ℚ)| + (defaultXOptions id : Options F64).rounds.toNat * (|rv (3/10)| + 2 ^ (-40 : ℤ)) ≤ 700 := by
    show |(1/2 : ℚ)| + ((20 : Nat) : ℚ) * (|rv (3/10)| + 2 ^ (-40 : ℤ)) ≤ 700
    decide +kernel
  obtain ⟨text, ht⟩ := C122_sqerr_partial J exp hexp S draws D hd hX hn hm (defaultXOptions id) _ rfl rfl (rv (3/10)) (3/2) (1/2) (rv (2/10))
    hlr hlam hbase hgam (by unfold Rep64; decide +kernel) (by unfold Rep64; decide +kernel) (by unfold Rep64; decide +kernel)
    (by unfold Rep64; decide +kernel) (by decide +kernel) (by norm_num) (by decide +kernel) (by decide +kernel)
    (Or.inl ⟨rfl, by norm_num⟩) hb M h "softmax".toList
  have hp : M.probTransform = some (softMaxDense exp) := by
    obtain ⟨labels, st, _, rfl⟩ := newMultiClass_inv h
    rfl
  obtain ⟨M', h1, h2⟩ := C17_predictions_partial J exp M text ht hp
  exact ⟨text, M', ht, h1, fun row => (h2 row).2.1⟩

end AnyOrder

/-! ### when it fails -/

/-- some node of the tree has a value that is not finite -/
def treeNaN : Tree F64 → Bool
  | .node i l r => !isFin i.value || treeNaN l || treeNaN r
  | .nil => false

/-- some node of some tree has a value that is not finite -/
def modelNaN (b : List (List (Tree F64))) : Bool := b.any fun round => round.any treeNaN

theorem treeNaN_not {t : Tree F64} (h : t.AllFin) : treeNaN t = false := by
  induction t with
  | nil => rfl
  | node i l r ihl ihr =>
    obtain ⟨h1, h2, h3⟩ := h
    simp [treeNaN, ihl h2, ihr h3, h1.2.1]

theorem not_written {m : MultiClass F64} (h : modelNaN m.b = true) (J : JCodec F64) (name text : List Char) :
    jsonMultiClass J m name ≠ .ok (some text) := by
  intro hw
  have hf := written_allFin J leafScore_F64 m name text hw
  unfold modelNaN at h
  rw [List.any_eq_true] at h
  obtain ⟨round, hr, h⟩ := h
  rw [List.any_eq_true] at h
  obtain ⟨t, ht, h⟩ := h
  rw [treeNaN_not (hf round hr t ht)] at h
  cases h

/-- training with a table of values of `exp` -/
theorem trainT_sound {t : List (F64 × F64)} {D : DataBunch F64} {O : Options F64}
    (h : (match trainWith (activationDense (softMaxT t)) GoSort.ins (fun _ => .fin 0) D O with
      | .ok (_, st) => modelNaN st.boosters | .error _ => false) = true) (exp : F64 → F64) (hexp : HasValues exp t) :
    ∃ M, newMultiClass exp GoSort.ins (fun _ => .fin 0) D O = .ok M ∧ modelNaN M.b = true := by
  split at h
  · rename_i labels st h1
    refine ⟨toModel exp O labels st, ?_, h⟩
    unfold newMultiClass
    rw [show train exp GoSort.ins (fun _ => .fin 0) D O = .ok (labels, st) from trainWith_mono (softMaxDenseT_le hexp) _ h1]
    rfl
  · cases h

/-- **C122 is violated**: regular boosting with the default loss on two rows of two classes, learning rate 1, 19 rounds (the model of
`C71_violated_binary64`): training returns a model and reports nothing, and the model cannot be saved under any name, because it contains NaN. -/
theorem C122_violated (exp : F64 → F64) (hexp : HasValues exp satExp) :
    ∃ M, newMultiClass exp GoSort.ins (fun _ => .fin 0) satData satOptions = .ok M ∧
      ∀ (J : JCodec F64) name text, jsonMultiClass J M name ≠ .ok (some text) := by
  obtain ⟨M, h1, h2⟩ := trainT_sound (t := satExp) (D := satData) (O := satOptions) (by decide +kernel) exp hexp
  exact ⟨M, h1, not_written h2⟩

/-- **C122 is violated for one label**: the same with data of a single class, after one round. -/
theorem C122_violated_one_label (exp : F64 → F64) (hexp : HasValues exp [(.nan, .nan), (.fin 0, .fin 1)]) :
    ∃ M, newMultiClass exp GoSort.ins (fun _ => .fin 0) oneLabel oneOptions = .ok M ∧
      ∀ (J : JCodec F64) name text, jsonMultiClass J M name ≠ .ok (some text) := by
  obtain ⟨M, h1, h2⟩ := trainT_sound (t := [(.nan, .nan), (.fin 0, .fin 1)]) (D := oneLabel) (O := oneOptions) (by decide +kernel) exp hexp
  exact ⟨M, h1, not_written h2⟩

/-- the hypotheses of `C122_default_partial` are met: a model of twenty rounds is trained and saved -/
example : ∃ (exp : F64 → F64) (M : MultiClass F64) (text : List Char), ExpFloat exp ∧
    newMultiClass exp GoSort.ins (fun _ => .fin 0) trainD64 (defaultXOptions 0) = .ok M ∧ M.b.length = 20 ∧
    jsonMultiClass (JCodec.unary : JCodec F64) M "softmax".toList = .ok (some text) := by
  obtain ⟨exp, hexp⟩ := expFloat_exists
  obtain ⟨M, hM⟩ := C22_returns_binary64 exp GoSort.ins (fun _ => .fin 0) trainD64 (defaultXOptions 0) (by decide)
    ⟨1, by decide⟩ trainX_apart (by decide) _ rfl sqErrLoss_regular ⟨by decide +kernel, by decide +kernel⟩
    (fun _ => by decide)
  have hb : M.b.length = 20 := by
    rw [(C22_rounds _ _ _ _ _ _ hM).1]
    decide +kernel
  obtain ⟨text, _, h1, _⟩ := C122_default_partial JCodec.unary exp hexp GoSort.ins _ trainD64 (by decide) trainX_apart.bounded (by decide) (by decide) 0 M hM
  exact ⟨exp, M, text, hexp, hM, hb, h1⟩

/-- the hypotheses of `C122_sqerr_partial` are met by regular boosting with `Lambda = 0` -/
example : ∃ (exp : F64 → F64) (M : MultiClass F64) (text : List Char), ExpFloat exp ∧
    newMultiClass exp GoSort.ins (fun _ => .fin 0) trainD64 { (defaultGOptions 0 : Options F64) with
      loss := some ⟨0, sqErrLoss⟩, learningRate := .fin (1/4) } = .ok M ∧
    jsonMultiClass (JCodec.unary : JCodec F64) M "softmax".toList = .ok (some text) := by
  obtain ⟨exp, hexp⟩ := expFloat_exists
  obtain ⟨M, hM⟩ := C22_returns_binary64 exp GoSort.ins (fun _ => .fin 0) trainD64 { (defaultGOptions 0 : Options F64) with
      loss := some ⟨0, sqErrLoss⟩, learningRate := .fin (1/4) } (by decide)
    ⟨1, by decide⟩ trainX_apart (by decide) _ rfl sqErrLoss_regular ⟨by decide +kernel, by decide +kernel⟩
    (fun h => absurd h (by decide +kernel))
  obtain ⟨text, h1⟩ := C122_sqerr_partial JCodec.unary exp hexp GoSort.ins _ trainD64 (by decide) trainX_apart.bounded (by decide) (by decide) _ _ rfl rfl
    (1/4) 0 0 0 rfl rfl rfl rfl (by unfold Rep64; decide +kernel) (by unfold Rep64; decide +kernel) (by unfold Rep64; decide +kernel)
    (by unfold Rep64; decide +kernel) (by decide +kernel) (by decide +kernel) (by decide +kernel) (by decide +kernel)
    (Or.inr ⟨trainX_apart, fun h => absurd h (by decide +kernel)⟩) (by decide +kernel) M hM "softmax".toList
  exact ⟨exp, M, text, hexp, hM, h1⟩

/-- the hypotheses of `C122_mse_partial` are met: `W = 4` -/
example : ∃ (exp : F64 → F64) (M : MultiClass F64) (text : List Char), ExpFloat exp ∧
    newMultiClass exp GoSort.ins (fun _ => .fin 0) trainD64 { (defaultXOptions 0 : Options F64) with
      loss := some ⟨1, mseLoss⟩, learningRate := .fin (1/4), gamma := .fin 0 } = .ok M ∧
    jsonMultiClass (JCodec.unary : JCodec F64) M "softmax".toList = .ok (some text) := by
  obtain ⟨exp, hexp⟩ := expFloat_exists
  obtain ⟨M, hM⟩ := C22_returns_binary64 exp GoSort.ins (fun _ => .fin 0) trainD64 { (defaultXOptions 0 : Options F64) with
      loss := some ⟨1, mseLoss⟩, learningRate := .fin (1/4), gamma := .fin 0 } (by decide)
    ⟨1, by decide⟩ trainX_apart (by decide) _ rfl mseLoss_regular ⟨by decide +kernel, by decide +kernel⟩
    (fun _ => by decide)
  obtain ⟨text, h1⟩ := C122_mse_partial JCodec.unary exp hexp GoSort.ins _ trainD64 (by decide) trainX_apart.bounded (by decide) (by decide) _ _ rfl rfl rfl
    (1/4) (3/2) (1/2) 0 4 rfl (by show (ofRat (15/10) : F64) = _; decide +kernel) (by show (ofRat (5/10) : F64) = _; decide +kernel) rfl
    (by unfold Rep64; decide +kernel) (by unfold Rep64; decide +kernel) (by unfold Rep64; decide +kernel) (by unfold Rep64; decide +kernel)
    (by unfold Rep64; decide +kernel) (by decide +kernel) (by decide +kernel) (by decide +kernel) (by decide +kernel) (by decide +kernel)
    (by decide +kernel) (by decide +kernel) M hM "softmax".toList
  exact ⟨exp, M, text, hexp, hM, h1⟩

end Boo
