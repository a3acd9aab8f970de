import Verif.Lemmas.RealTrain
import Verif.Props.PredictTotal

/-!
# C71: predictions are probabilities
-/

namespace Boo
open GoFloat Spec
set_option linter.unusedSectionVars false

/-! ### C71 over the reals -/

/-- the one-hot columns are real numbers -/
theorem ohe_real {labels : List Int} {ohe : Dense (Exact ℝ)} (hne : labels ≠ [])
    (ho : oneHotEncodeDense labels = .ok (ohe, distinctElements labels)) (k : Nat) (y : List (Exact ℝ))
    (hk : k < (distinctElements labels).length) (hy : denseCol ohe k = .ok y) :
    ∃ y' : List ℝ, y = finV y' ∧ y'.length = labels.length := by
  have := ohe_column hne ho (List.getElem?_eq_getElem hk) hy
  refine ⟨labels.map fun l => if l = (distinctElements labels)[k] then 1 else 0, ?_, by simp⟩
  rw [this]
  unfold indicator finV
  rw [List.map_map]
  apply List.map_congr_left
  intro l _
  simp only [Function.comp_apply]
  split <;> simp

/-- The loss is squared error, or it is `MSELoss` and the data have two different labels. -/
def LossFits (O : Options (Exact ℝ)) (labels : List Int) : Prop :=
  ∃ lv, O.loss = some lv ∧ (lv.fn = sqErrLoss ∨ (lv.fn = mseLoss ∧ ∃ a ∈ labels, ∃ b ∈ labels, a ≠ b))

theorem distinct_two {labels : List Int} {a b : Int} (ha : a ∈ labels) (hb : b ∈ labels) (hab : a ≠ b) :
    2 ≤ (distinctElements labels).length := by
  have ha' := (C39_distinct labels).2.1 a |>.2 ha
  have hb' := (C39_distinct labels).2.1 b |>.2 hb
  by_contra hlt
  match hd : distinctElements labels with
  | [] => rw [hd] at ha'; simp at ha'
  | [c] =>
    rw [hd] at ha' hb'
    simp at ha' hb'
    exact hab (ha'.trans hb'.symm)
  | _ :: _ :: _ => rw [hd] at hlt; simp at hlt

/-- training over the reals ends with finite scores and finite trees -/
theorem train_real (S : GoSort) (draws : Nat → Exact ℝ) (X : List (List ℝ)) (D : DataBunch (Exact ℝ))
    (hX : D.data = finRows X) (hd : X.length = D.labels.length)
    (O : Options (Exact ℝ)) (hO : RealOptions O) (hbase : ∃ x, O.baseScore = XF.fin x)
    (hloss : LossFits O D.labels) (hms : rowSub O = true → 1 ≤ O.minSample) (labels : List Int)
    (st : TrainState (Exact ℝ)) (ht : train expR S draws D O = .ok (labels, st)) : RInv D.labels.length st := by
  obtain ⟨hl, hlab, ohe, st0, hohe, hr0, hc0, hw, hinit, hrounds⟩ := train_inv ht
  obtain ⟨i1, i2, i3, _, _, _, i7⟩ := trainInit_inv hinit hr0 hc0
  obtain ⟨e1, e2, e3, e4, e5, e6, e7, e8, e9, e10⟩ := Options.fixMcw_lr O
  obtain ⟨base, hbase⟩ := hbase
  have hfix : ∃ f, O.fixMcw = { O with minChildWeight := f } := by
    unfold Options.fixMcw
    split
    · exact ⟨_, rfl⟩
    · exact ⟨O.minChildWeight, rfl⟩
  obtain ⟨f, hf⟩ := hfix
  have hO' : RealOptions O.fixMcw := by
    rw [hf]
    exact ⟨hO.lr, hO.lam, hO.gam⟩
  have hohe' : oneHotEncodeDense D.labels = .ok (ohe, distinctElements D.labels) := by
    rw [hlab] at hohe
    exact hohe
  obtain ⟨lv, hlv, hk⟩ := hloss
  have hs : RealSetup X O.fixMcw ohe D.labels.length labels.length (lv.fn = sqErrLoss) := by
    refine ⟨hO', hd, List.length_pos_iff.2 hl, ?_, ?_, ?_⟩
    · intro k y hkm hy
      rw [hlab] at hkm
      exact ohe_real hl hohe' k y hkm hy
    · intro lv' hlv'
      rw [hf] at hlv'
      rw [show lv' = lv from Option.some.inj (hlv'.symm.trans hlv)]
      rcases hk with hk | ⟨hk, _⟩
      · rw [hk]
        exact ⟨fun y p h1 h2 => sqErr_real.ok y p h1 fun v hv => ⟨(h2 v hv).1, Or.inr trivial⟩⟩
      · rw [hk]
        refine ⟨fun y p h1 h2 => mse_real.ok y p h1 fun v hv => ⟨(h2 v hv).1, ?_⟩⟩
        rcases (h2 v hv).2 with h | h
        · exact Or.inl h
        · exfalso
          have : (mseLoss : LossFunc (Exact ℝ)).hessian [.fin 0] = sqErrLoss.hessian [.fin 0] := by rw [h]
          simp [mseLoss, sqErrLoss] at this
    · intro hlt
      rcases hk with hk | ⟨_, a, ha, b, hb, hab⟩
      · exact hk
      · have := distinct_two ha hb hab
        rw [← hlab] at this
        omega
  have hms' : rowSub O.fixMcw = true → 1 ≤ O.fixMcw.minSample := by
    rw [hf]
    exact hms
  rw [hX] at hrounds
  refine trainRounds_real hs hms' hrounds i1 i2 ⟨?_, by rw [i2]; simp⟩
  intro i hin v hv
  rw [i7 i hin, List.mem_replicate] at hv
  rw [hv.2, hbase]
  exact ⟨_, rfl⟩

/-- **C71, partial**: in exact real arithmetic, whatever the rounds, early stopping, sampling, depth and finite training
data, the predictions of a trained model for any row (even one with infinities or NaN) are probabilities: real numbers in
(0, 1] that sum to 1. The learning rate, base score, `Lambda >= 0` and `Gamma` are finite, row samples are not empty, and the loss
is squared error, or `MSELoss` on data with at least two labels.
Missing: `MSELoss` on data with one label, and binary64; there the claim is false (`C71_violated_one_label`,
`C71_violated_binary64`). -/
theorem C71_real_partial (S : GoSort) (draws : Nat → Exact ℝ) (X : List (List ℝ)) (D : DataBunch (Exact ℝ))
    (hX : D.data = finRows X) (hd : X.length = D.labels.length)
    (O : Options (Exact ℝ)) (hO : RealOptions O) (hbase : ∃ x, O.baseScore = XF.fin x)
    (hloss : LossFits O D.labels) (hms : rowSub O = true → 1 ≤ O.minSample) (M : MultiClass (Exact ℝ))
    (h : newMultiClass expR S draws D O = .ok M) (row : List (Exact ℝ)) (out : List (Exact ℝ))
    (hp : M.predictSingle row = .ok out) :
    ∃ probs : List ℝ, out = finV probs ∧ (∀ v ∈ probs, 0 < v ∧ v ≤ 1) ∧ probs.sum = 1 ∧
      (2 ≤ probs.length → ∀ v ∈ probs, v < 1) := by
  obtain ⟨labels, st, ht, rfl⟩ := newMultiClass_inv h
  have hR := train_real S draws X D hX hd O hO hbase hloss hms labels st ht
  have hraw : ∃ s, (toModel expR O labels st).rawScores row = .ok s := by
    unfold MultiClass.predictSingle at hp
    obtain ⟨s, hs, _⟩ := bind_ok hp
    exact ⟨s, hs⟩
  obtain ⟨s, hs⟩ := hraw
  obtain ⟨r, hr⟩ := (rawScores_fin (M := toModel expR O labels st) hO.lr hbase hR.trees hs).finV
  have hne : r ≠ [] := by
    rintro rfl
    unfold MultiClass.predictSingle at hp
    rw [hs, hr] at hp
    simp [finV, newDense, bind, Except.bind] at hp
  rw [predictSingle_softmax expR (toModel expR O labels st) rfl row s hs (by rw [hr]; simpa [finV] using hne), hr,
    softMax_real r hne] at hp
  obtain ⟨q, q1, q2, q3, q4, _⟩ := C24_distribution r hne
  rw [softMax_real r hne] at q1
  rw [q1] at hp
  refine ⟨q, (Except.ok.inj hp).symm, q3, q4, ?_⟩
  intro hl v hv
  have hqs : q = softmaxSpec r := by
    have := Except.ok.inj q1
    unfold finV at this
    exact ((List.map_injective_iff.2 fun a b h => by cases h; rfl) this).symm
  rw [hqs] at hv
  exact softmaxSpec_lt_one r (by omega) v hv

/-! ### C71 in binary64 -/

/-- two rows of one class -/
def oneLabel : DataBunch F64 := ⟨[[.fin 0], [.fin 1]], [], [5, 5], []⟩

/-- `DefaultGOptions` with one round and `MinChildWeight = 1` -/
def oneOptions : Options F64 := { (defaultGOptions 0 : Options F64) with rounds := 1, minChildWeight := .fin 1 }

/-- two rows, two classes -/
def satData : DataBunch F64 := ⟨[[.fin 0], [.fin 1]], [], [0, 1], []⟩

/-- `DefaultGOptions` with 19 rounds, learning rate 1 and `MinChildWeight = 1` -/
def satOptions : Options F64 :=
  { (defaultGOptions 0 : Options F64) with rounds := 19, learningRate := .fin 1, minChildWeight := .fin 1 }

/-- `exp` at the arguments used -/
def satExp : List (F64 × F64) :=
  [(.nan, .nan),
   (.fin 0, .fin 1),
   (.fin 2, .fin (4159668786720471 / 562949953421312)),
   (.fin (-2), .fin (1218991862308979 / 9007199254740992)),
   (.fin (-2556547779262493 / 2251799813685248), .fin (2894142571561305 / 9007199254740992)),
   (.fin (2556547779262493 / 2251799813685248), .fin (7008089305258347 / 2251799813685248)),
   (.fin (6853319342218091 / 2251799813685248), .fin (5904846435699649 / 281474976710656)),
   (.fin (-6853319342218091 / 2251799813685248), .fin (6869750068698769 / 144115188075855872)),
   (.fin (-4842837427772337 / 2251799813685248), .fin (8388098615568351 / 72057594037927936)),
   (.fin (302677339235771 / 140737488355328), .fin (1208999234105773 / 140737488355328)),
   (.fin (17807840624383 / 4398046511104), .fin (4035087897775897 / 70368744177664)),
   (.fin (-4558807199842047 / 1125899906842624), .fin (5026509983792711 / 288230376151711744)),
   (.fin (-3549604274027159 / 1125899906842624), .fin (3079550983500133 / 72057594037927936)),
   (.fin (1774802137013579 / 562949953421312), .fin (823269760442447 / 35184372088832)),
   (.fin (5685546246302065 / 1125899906842624), .fin (2744171011506947 / 17592186044416)),
   (.fin (-355346640393879 / 70368744177664), .fin (7391088062151677 / 1152921504606846976)),
   (.fin (-4675812653091493 / 1125899906842624), .fin (4530372585327939 / 288230376151711744)),
   (.fin (1168953163272873 / 281474976710656), .fin (4476984888469935 / 70368744177664)),
   (.fin (6811559602646261 / 1125899906842624), .fin (1865045467543663 / 4398046511104)),
   (.fin (-1702889900661565 / 281474976710656), .fin (5437510762234769 / 2305843009213693952)),
   (.fin (-5801754291468133 / 1125899906842624), .fin (6666276649512721 / 1152921504606846976)),
   (.fin (1450438572867033 / 281474976710656), .fin (1521269718466771 / 8796093022208)),
   (.fin (248046089409165 / 35184372088832), .fin (5069788329582577 / 4398046511104)),
   (.fin (-3968737430546639 / 562949953421312), .fin (2000321146082411 / 2305843009213693952)),
   (.fin (-6927659845773399 / 1125899906842624), .fin (613093456872681 / 288230376151711744)),
   (.fin (3463829922886699 / 562949953421312), .fin (8270521148239733 / 17592186044416)),
   (.fin (2265844211377721 / 281474976710656), .fin (6890569460080637 / 2199023255552)),
   (.fin (-4531688422755441 / 562949953421312), .fin (2943502670012175 / 9223372036854775808)),
   (.fin (-8053560516911735 / 1125899906842624), .fin (3608709203098679 / 4611686018427387904)),
   (.fin (4026780258455867 / 562949953421312), .fin (5620405652590633 / 4398046511104)),
   (.fin (2547319258380499 / 281474976710656), .fin (4682628607150329 / 549755813888)),
   (.fin (-5094638516760997 / 562949953421312), .fin (4331415387648011 / 36893488147419103232)),
   (.fin (-1147432565898805 / 140737488355328), .fin (2655139606045489 / 9223372036854775808)),
   (.fin (4589730263595219 / 562949953421312), .fin (3819461989394193 / 1099511627776)),
   (.fin (707198561151039 / 70368744177664), .fin (6364352341215427 / 274877906944)),
   (.fin (-5657588489208311 / 562949953421312), .fin (6373754473743761 / 147573952589676412928)),
   (.fin (-5152680224015807 / 562949953421312), .fin (7814170098878205 / 73786976294838206464)),
   (.fin (2576340112007903 / 281474976710656), .fin (2595593562336627 / 274877906944)),
   (.fin (6220538445204513 / 562949953421312), .fin (4325025849541499 / 68719476736)),
   (.fin (-194391826412641 / 17592186044416), .fin (4689546446480053 / 295147905179352825856)),
   (.fin (-357226886149023 / 35184372088832), .fin (1437336262178417 / 36893488147419103232)),
   (.fin (5715630178384367 / 562949953421312), .fin (7055554826436979 / 274877906944)),
   (.fin (3391744199487149 / 281474976710656), .fin (5878319590850903 / 34359738368)),
   (.fin (-6783488398974297 / 562949953421312), .fin (6900750900042769 / 1180591620717411303424)),
   (.fin (-1569645032983469 / 140737488355328), .fin (4230131686281873 / 295147905179352825856)),
   (.fin (6278580131933875 / 562949953421312), .fin (4794746619691907 / 68719476736)),
   (.fin (7346438352442771 / 562949953421312), .fin (7989464663511725 / 17179869184)),
   (.fin (-3673219176221385 / 281474976710656), .fin (2538644384558387 / 1180591620717411303424)),
   (.fin (-6841530085372537 / 562949953421312), .fin (389044620195757 / 73786976294838206464)),
   (.fin (855191260671567 / 70368744177664), .fin (1629184076096951 / 8589934592)),
   (.fin (3954694152935233 / 281474976710656), .fin (5429404153546457 / 4294967296)),
   (.fin (-61792096139613 / 4398046511104), .fin (7471320620110177 / 9444732965739290427392)),
   (.fin (-7404480038796197 / 562949953421312), .fin (4579888558968773 / 2361183241434822606848)),
   (.fin (1851120009699049 / 140737488355328), .fin (8857162938575303 / 17179869184)),
   (.fin (4236169129646321 / 281474976710656), .fin (7379325324984025 / 2147483648)),
   (.fin (-264760570602895 / 17592186044416), .fin (5497090509069175 / 18889465931478580854784)),
   (.fin (-7967429992217827 / 562949953421312), .fin (1684846843699963 / 2361183241434822606848)),
   (.fin (3983714996108913 / 281474976710656), .fin (6019066266910941 / 4294967296)),
   (.fin (4517644106357035 / 281474976710656), .fin (2507385742149481 / 268435456)),
   (.fin (-2258822053178517 / 140737488355328), .fin (8089066338179163 / 75557863725914323419136)),
   (.fin (-4265189972819591 / 281474976710656), .fin (4958564122558107 / 18889465931478580854784)),
   (.fin (8530379945639181 / 562949953421312), .fin (8180759228818041 / 2147483648)),
   (.fin (4799119083067699 / 281474976710656), .fin (851972637477803 / 33554432)),
   (.fin (-2399559541533849 / 140737488355328), .fin (2975801204087991 / 75557863725914323419136)),
   (.fin (-2273332474765125 / 140737488355328), .fin (7296615193677681 / 75557863725914323419136)),
   (.fin (4546664949530249 / 281474976710656), .fin (86865660760527 / 8388608)),
   (.fin (1270148514944589 / 70368744177664), .fin (1157950869400123 / 16777216)),
   (.fin (-5080594059778355 / 281474976710656), .fin (8757888671977531 / 604462909807314587353088)),
   (.fin (-2414069963120453 / 140737488355328), .fin (2684274719893201 / 75557863725914323419136)),
   (.fin (4828139926240905 / 281474976710656), .fin (7556011109197711 / 268435456)),
   (.fin (1340517259122253 / 70368744177664), .fin (6295273613077415 / 33554432)),
   (.fin (-5362069036489011 / 281474976710656), .fin (6443694380977599 / 1208925819614629174706176)),
   (.fin (-2554807451475781 / 140737488355328), .fin (7899915871239525 / 604462909807314587353088)),
   (.fin (5109614902951561 / 281474976710656), .fin (5134841923441703 / 67108864)),
   (.fin (-5643544013199667 / 281474976710656), .fin (1185251343976801 / 604462909807314587353088))]

/-- the probabilities predicted for a row after training, with a table for `exp` -/
def probsT (t : List (F64 × F64)) (D : DataBunch F64) (O : Options F64) (row : List F64) : Go (List F64 × List F64) := do
  let (labels, st) ← trainWith (activationDense (softMaxT t)) GoSort.ins (fun _ => .fin 0) D O
  let raw ← (toModel id O labels st).rawScores row
  let p ← softMaxT t raw (some (raw.map fun _ => zero))
  pure (raw, p)

theorem probsT_sound {t : List (F64 × F64)} {D : DataBunch F64} {O : Options F64} {row raw p : List F64}
    (h : probsT t D O row = .ok (raw, p)) (hne : raw ≠ []) (exp : F64 → F64) (hexp : HasValues exp t) :
    ∃ M, newMultiClass exp GoSort.ins (fun _ => .fin 0) D O = .ok M ∧ M.predictSingle row = .ok p := by
  unfold probsT at h
  obtain ⟨⟨labels, st⟩, h1, h⟩ := bind_ok h
  simp only at h
  obtain ⟨raw', h2, h⟩ := bind_ok h
  obtain ⟨p', h3, h⟩ := bind_ok h
  simp only [pure, Except.pure, Except.ok.injEq, Prod.mk.injEq] at h
  obtain ⟨rfl, rfl⟩ := h
  refine ⟨toModel exp O labels st, ?_, ?_⟩
  · unfold newMultiClass
    rw [show train exp GoSort.ins (fun _ => .fin 0) D O = .ok (labels, st) from
      trainWith_mono (softMaxDenseT_le hexp) _ h1]
    rfl
  · rw [predictSingle_softmax exp (toModel exp O labels st) rfl _ raw' h2 hne]
    exact softMaxT_le hexp _ _ _ h3

theorem satProbs : probsT satExp satData satOptions [.fin 0] = .ok ([.nan, .nan], [.nan, .nan]) := by decide +kernel

/-- **C71 is violated for one label**: regular boosting with the default options (here with `MinChildWeight = 1` and one
round) on data of a single class: the Hessians `p (1 - p)` are 0, the leaf values `0 / 0`, and the prediction is NaN.
(For every `exp` with `exp 0 = 1` and `exp NaN = NaN`.) -/
theorem C71_violated_one_label (exp : F64 → F64) (hexp : HasValues exp [(.nan, .nan), (.fin 0, .fin 1)]) :
    ∃ M, newMultiClass exp GoSort.ins (fun _ => .fin 0) oneLabel oneOptions = .ok M ∧
      M.predictSingle [.fin 0] = .ok [.nan] :=
  probsT_sound (t := [(.nan, .nan), (.fin 0, .fin 1)]) (raw := [.nan]) (by decide +kernel) (by simp) exp hexp

/-- **C71 is violated in binary64**: regular boosting with the default loss on two rows of two classes, learning rate 1:
after 19 rounds `p` rounds to 1, so `p (1 - p) = 0` and the leaf value is `0 / 0`; all predictions of the returned
model are NaN. -/
theorem C71_violated_binary64 (exp : F64 → F64) (hexp : HasValues exp satExp) :
    ∃ M, newMultiClass exp GoSort.ins (fun _ => .fin 0) satData satOptions = .ok M ∧
      M.predictSingle [.fin 0] = .ok [.nan, .nan] :=
  probsT_sound satProbs (by simp) exp hexp

/-- with one round less the first row is classified perfectly -/
theorem C71_before_binary64 (exp : F64 → F64) (hexp : HasValues exp satExp) :
    ∃ M, newMultiClass exp GoSort.ins (fun _ => .fin 0) satData { satOptions with rounds := 18 } = .ok M ∧
      ∃ q, M.predictSingle [.fin 0] = .ok [.fin 1, .fin q] := by
  have h : ((probsT satExp satData { satOptions with rounds := 18 } [.fin 0]).map fun x => (x.1.length, x.2.length, x.2[0]?,
      match x.2[1]? with | some (.fin _) => true | _ => false)) = .ok (2, 2, some (.fin 1), true) := by decide +kernel
  cases hp : probsT satExp satData { satOptions with rounds := 18 } [.fin 0] with
  | error e => rw [hp] at h; cases h
  | ok x =>
    rw [hp] at h
    obtain ⟨raw, p⟩ := x
    simp only [Except.map, Except.ok.injEq, Prod.mk.injEq] at h
    obtain ⟨h1, h2, h3, h4⟩ := h
    obtain ⟨M, hM, hq⟩ := probsT_sound hp (by rintro rfl; simp at h1) exp hexp
    refine ⟨M, hM, ?_⟩
    match p, h2, h3, h4 with
    | [a, .fin q], _, h3, _ =>
      simp at h3
      subst h3
      exact ⟨q, hq⟩

example : ∃ exp, HasValues exp satExp :=
  ⟨fun x => (satExp.lookup x).getD zero, by unfold HasValues; decide +kernel⟩

/-! Non-vacuity of `C71_real_partial`: regular boosting with the default options on two rows of two classes. -/

/-- two rows of two classes over the reals -/
def realData : DataBunch (Exact ℝ) := ⟨finRows [[0], [1]], [], [0, 1], []⟩

example : ∃ M, newMultiClass expR GoSort.ins (fun _ => .fin 0) realData (defaultGOptions 0) = .ok M ∧ M.b.length = 10 ∧
    RealOptions (defaultGOptions 0) ∧ LossFits (defaultGOptions 0) realData.labels ∧
    ∃ out, M.predictSingle [.nan] = .ok out := by
  have hr : rowSub (defaultGOptions 0 : Options (Exact ℝ)) = false := by simp [rowSub, defaultGOptions]
  obtain ⟨M, hM⟩ := C22_returns expR GoSort.ins (fun _ => .fin 0) realData (defaultGOptions 0)
    ⟨by simp [realData, finRows], ⟨1, by simp [realData, finRows]⟩, finRows_noNaN _, finRows_midSafe _⟩ rfl _ rfl
    mseLoss_regular (by
      unfold CapOk
      simp [rowSub, colSub, defaultGOptions]) (by rw [hr]; simp)
  have hl : M.b.length = 10 := by
    have := C22_requested_partial expR GoSort.ins _ realData _ M hM (Or.inr (by simp [defaultGOptions]))
    rw [hr] at this
    simpa [defaultGOptions] using this
  refine ⟨M, hM, hl, ⟨⟨_, rfl⟩, ⟨0, by simp [defaultGOptions], le_rfl⟩, ⟨_, rfl⟩⟩,
    ⟨_, rfl, Or.inr ⟨rfl, 0, by simp [realData], 1, by simp [realData], by decide⟩⟩, ?_⟩
  obtain ⟨out, ho, _⟩ := C79_predict_partial expR GoSort.ins _ realData _ M hM (by intro h; rw [h] at hl; simp at hl)
    [.fin 0] rfl [.nan] (by simp)
  exact ⟨out, ho⟩

end Boo
