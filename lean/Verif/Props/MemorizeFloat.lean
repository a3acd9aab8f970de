import Verif.Props.Memorize
import Verif.Lemmas.MemorizeFloat

/-!
# C101 in float64: deep regular trees learn consistent training data, rounding included
-/

namespace Boo
open GoFloat Spec
set_option linter.unusedSectionVars false

section AnyOrder

variable {τ : Option SumOrder}
/-- float64, with any order of the additions of `floats.Sum` -/
local notation "F64" => F64o τ

/-- What is assumed in C101 in float64: regular boosting with `SQErrLoss`, a learning rate of at least `2⁻³⁰`, a minimum child weight that
allows single rows, enough depth to separate all rows, no early stopping, scores that stay within ±700, at most `2⁵⁰` rows of the same
length and 1024 classes, no two values of a feature that are neighbouring numbers, and equal rows have equal labels. -/
structure Learnable64 (O : Options F64) (X : List (List ℚ)) (D : DataBunch F64) (lr lam base : ℚ) : Prop where
  data : D.data = rows64 X
  apart : Apart64 (rows64 X : List (List F64))
  labels : D.data.length = D.labels.length
  width : ∃ w, ∀ row ∈ X, row.length = w
  consistent : ∀ (i j : Nat) row, X[i]? = some row → X[j]? = some row → D.labels[i]? = D.labels[j]?
  rows : X.length ≤ 2 ^ 50
  classes : (distinctElements D.labels).length ≤ 1024
  regular : O.xgb = false
  lrEq : O.learningRate = .fin lr
  lrLow : 2 ^ (-30 : ℤ) ≤ lr
  baseEq : O.baseScore = .fin base
  baseRep : Rep64 base
  room : |base| + O.rounds.toNat * (lr + 2 ^ (-40 : ℤ)) ≤ 700
  lamEq : O.lambda = .fin lam
  lamRep : Rep64 lam
  lam0 : 0 ≤ lam
  lamBig : lam ≤ 2 ^ (1000 : ℤ)
  mcw : ∃ q, O.minChildWeight = XF.fin q ∧ q < 2
  depth : (X.length : Int) ≤ O.maxDepth + 1
  stop : O.earlyStop ≤ 0
  loss : ∃ lv, O.loss = some lv ∧ lv.fn = sqErrLoss

theorem Learnable64.mcw_fix {O : Options F64} {X : List (List ℚ)} {D : DataBunch F64} {lr lam base : ℚ}
    (h : Learnable64 O X D lr lam base) : toInt O.fixMcw.minChildWeight ≤ 1 := by
  obtain ⟨q, hq, hq2⟩ := h.mcw
  have ht : ∀ q : ℚ, q < 2 → toInt (XF.fin q : F64) ≤ 1 := by
    intro q hq2
    refine XF.toInt_le _ (by norm_num) ?_
    split
    · have : ⌊q⌋ < 2 := Int.floor_lt.2 (by exact_mod_cast hq2)
      omega
    · rename_i hneg
      exact Int.ceil_le.2 (by push_cast; linarith)
  unfold Options.fixMcw
  split
  · have h1 : (one : F64) = .fin 1 := one64
    simp only [h1]
    exact ht 1 (by norm_num)
  · rw [hq]
    exact ht q hq2

/-- the one-hot columns in terms of the class numbers -/
theorem ohe_class64 {labels : List Int} {ohe : Dense F64} (hne : labels ≠ [])
    (ho : oneHotEncodeDense labels = .ok (ohe, distinctElements labels)) (k : Nat) (y : List F64)
    (hk : k < (distinctElements labels).length) (hy : denseCol ohe k = .ok y) :
    ∃ y' : List ℚ, y = y'.map XF.fin ∧ y'.length = labels.length ∧
      ∀ i < labels.length, y'.getD i 0 = if classOf labels i = k then 1 else 0 := by
  have := ohe_column hne ho (List.getElem?_eq_getElem hk) hy
  refine ⟨labels.map fun l => if l = (distinctElements labels)[k] then 1 else 0, ?_, by simp, ?_⟩
  · rw [this]
    unfold indicator
    rw [List.map_map]
    apply List.map_congr_left
    intro l _
    have ho : (one : F64) = .fin 1 := one64
    have hz : (zero : F64) = .fin 0 := rfl
    simp only [Function.comp_apply, ho, hz]
    split <;> rfl
  · intro i hi
    rw [getD_get (by simpa using hi), List.getElem_map]
    have hcls := classOf_get hi
    obtain ⟨d1, d2⟩ := List.getElem?_eq_some_iff.1 hcls
    have : labels[i] = (distinctElements labels)[k] ↔ classOf labels i = k := by
      rw [← d2]
      exact (C39_distinct labels).1.getElem_inj_iff
    simp only [this]

/-- the scores of the training rows after training -/
theorem learn_scores64 {exp : F64 → F64} (hexp : ExpFloat exp) (S : GoSort) (draws : Nat → F64) (X : List (List ℚ)) (D : DataBunch F64)
    (O : Options F64) (lr lam base : ℚ) (hL : Learnable64 O X D lr lam base) (labels : List Int) (st : TrainState F64)
    (ht : train exp S draws D O = .ok (labels, st)) :
    (∀ i < X.length, RowWithin (fun _ => 700) (st.rawPred.row i)) ∧ TInv exp X.length labels.length st ∧
      Learn64 X.length labels.length (classOf D.labels) base (fun _ => st.boosters.length) st := by
  have hXl : X.length = D.data.length := by rw [hL.data]; simp [rows64]
  have hd : X.length = D.labels.length := hXl.trans hL.labels
  obtain ⟨hl, hlab, ohe, st0, hohe, hr0, hc0, hw, hinit, hrounds⟩ := train_inv ht
  obtain ⟨i1, i2, i3, i4, _, _, i7⟩ := trainInit_inv hinit hr0 hc0
  have t2 := (trainRounds_inv hrounds i1 hL.labels i2).1
  have hlr0 : (0 : ℚ) < lr := lt_of_lt_of_le (by positivity) hL.lrLow
  have hbrep := (rep64_rv hL.baseRep).1
  have hroom : |base| + (O.rounds.toNat : ℚ) * (|lr| * 1 + 2 ^ (-40 : ℤ)) ≤ 700 := by
    rw [mul_one, abs_of_pos hlr0]
    exact hL.room
  have hbb : |base| ≤ 700 := by
    have : 0 ≤ (O.rounds.toNat : ℚ) * (|lr| * 1 + 2 ^ (-40 : ℤ)) :=
      mul_nonneg (by positivity) (add_nonneg (by rw [mul_one]; exact abs_nonneg _) (by positivity))
    linarith
  have hfix : ∃ f, O.fixMcw = { O with minChildWeight := f } := by
    unfold Options.fixMcw
    split
    · exact ⟨_, rfl⟩
    · exact ⟨O.minChildWeight, rfl⟩
  have hmcw := hL.mcw_fix
  obtain ⟨lv, hlv, hlk⟩ := hL.loss
  obtain ⟨f, hf⟩ := hfix
  have hohe' : oneHotEncodeDense D.labels = .ok (ohe, distinctElements D.labels) := by
    rw [hlab] at hohe
    exact hohe
  rw [hL.data] at hrounds
  rw [← hd] at i1 t2 i7
  have hs : FloatSetup (rows64 X) O.fixMcw ohe X.length labels.length lr lam 1 := by
    refine ⟨?_, by simp [rows64], by rw [hd]; exact List.length_pos_iff.2 hl, ?_, by rw [hlab]; exact hL.classes, ?_, ?_⟩
    · rw [hf]
      exact ⟨hL.lrEq, hL.lamEq, (rep64_rv hL.lamRep).1, hL.lam0, hL.lamBig, by norm_num, rv_one, big64_one⟩
    · have := hL.rows
      omega
    · intro k y hkm hy
      rw [hlab] at hkm
      rw [hd]
      exact ohe_float hl hohe' k y hkm hy
    · intro lv' hlv'
      rw [hf] at hlv' ⊢
      rw [show lv' = lv from Option.some.inj (hlv'.symm.trans hlv)]
      refine Or.inl ⟨hlk, le_rfl, Or.inr ⟨hL.apart, ?_⟩⟩
      unfold rowSub
      rw [show ({ O with minChildWeight := f } : Options F64).xgb = O.xgb from rfl, hL.regular]
      simp
  have hset : LearnSetup64 X O.fixMcw ohe X.length labels.length (classOf D.labels) lr := by
    refine ⟨hL.apart, hL.lrLow, by rw [hf]; exact hL.regular, hmcw, by rw [hf]; exact hL.depth, hL.width, hL.rows, ?_, ?_, ?_, ?_⟩
    · intro a b ha hb hab
      rw [List.getElem?_eq_getElem ha] at hab
      exact classOf_congr (hL.consistent a b _ (List.getElem?_eq_getElem ha) hab.symm)
    · intro i hi
      rw [hlab]
      exact (List.getElem?_eq_some_iff.1 (classOf_get (by rw [← hd]; exact hi))).1
    · intro k y hkm hy
      rw [hlab] at hkm
      rw [hd]
      exact ohe_class64 hl hohe' k y hkm hy
    · intro lv' hlv'
      rw [hf] at hlv'
      rw [show lv' = lv from Option.some.inj (hlv'.symm.trans hlv)]
      exact hlk
  have hst0 : ∀ k, st0.stopped.getD k false = false := by
    intro k
    rw [i4, List.getD_eq_getElem?_getD, List.getElem?_replicate]
    split <;> rfl
  have hraw0 : ∀ i < X.length, st0.rawPred.row i = List.replicate labels.length (.fin base) := by
    intro i hi
    rw [i7 i hi, hL.baseEq]
    congr 1
    have ho : (one : F64) = .fin 1 := one64
    rw [ho, mul64, mul_one, hbrep]
    rw [mul_one]
    refine hbb.trans (le_trans ?_ big64_large)
    norm_num
  have hwithin : ∀ i < X.length, RowWithin (fun _ => |base|) (st0.rawPred.row i) := by
    intro i hi j v hv
    rw [hraw0 i hi] at hv
    have hv := List.mem_of_getElem? hv
    rw [List.mem_replicate] at hv
    rw [hv.2]
    exact ⟨base, rfl, hbrep, le_rfl⟩
  have hsep0 : Learn64 X.length labels.length (classOf D.labels) base (fun _ => 0) st0 := by
    intro i hi
    refine ⟨fun _ => base, ?_, le_rfl, fun _ _ _ => le_rfl, fun _ _ _ => rfl, fun _ _ _ h => absurd h (by simp)⟩
    intro k hk
    rw [hraw0 i hi, List.getElem?_replicate, if_pos hk]
  have hlne : O.fixMcw.loss ≠ none := by rw [hf]; simp [hlv]
  have hbnd := (trainRounds_float hexp hs hlne hroom hrounds i1 i2 hwithin).1
  have hfin := (trainRounds_learn64 hexp hs hset (by rw [hf]; exact hL.stop) hlne hroom hrounds i1 i2 hwithin hst0 hsep0).1
  exact ⟨fun i hi j v hv => (hbnd i hi j v hv).mono hroom, t2, hfin⟩

/-- **C101 (training rows, float64)**: in float64, with any order of the additions of `floats.Sum` and an exponential that is accurate to
`2⁻⁵²`, a regular model with `SQErrLoss` and at least one round predicts the label of every training row. -/
theorem C101_binary64_rows (exp : F64 → F64) (hexp : ExpFloat exp) (S : GoSort) (draws : Nat → F64) (X : List (List ℚ))
    (D : DataBunch F64) (O : Options F64) (lr lam base : ℚ) (hL : Learnable64 O X D lr lam base) (M : MultiClass F64)
    (h : newMultiClass exp S draws D O = .ok M) (hne : M.b ≠ []) (i : Nat) (row : List F64) (lab : Int)
    (hrow : D.data[i]? = some row) (hlab : D.labels[i]? = some lab) :
    ∃ k, M.predictSingleClass row = .ok k ∧ M.classLabels[k]? = some lab := by
  obtain ⟨labels, st, ht, rfl⟩ := newMultiClass_inv h
  obtain ⟨hwithin, hinv, hsep⟩ := learn_scores64 hexp S draws X D O lr lam base hL labels st ht
  have hXl : X.length = D.data.length := by rw [hL.data]; simp [rows64]
  have hin : i < X.length := by rw [hXl]; exact (List.getElem?_eq_some_iff.1 hrow).1
  have hil : i < D.labels.length := by rw [← hL.labels, ← hXl]; exact hin
  have hlabs := (train_inv ht).2.1
  have hcls := classOf_get hil
  rw [(List.getElem?_eq_some_iff.1 hlab).2] at hcls
  have hcm : classOf D.labels i < labels.length := by rw [hlabs]; exact (List.getElem?_eq_some_iff.1 hcls).1
  have hlr0 : (0 : ℚ) < lr := lt_of_lt_of_le (by positivity) hL.lrLow
  have hb : (O.baseScore *. one) = O.baseScore := by
    have ho : (one : F64) = .fin 1 := one64
    rw [hL.baseEq, ho, mul64, mul_one, (rep64_rv hL.baseRep).1]
    rw [mul_one]
    have h0 : 0 ≤ (O.rounds.toNat : ℚ) * (lr + 2 ^ (-40 : ℤ)) := mul_nonneg (by positivity) (add_nonneg hlr0.le (by positivity))
    have := hL.room
    refine le_trans (show |base| ≤ 700 by linarith) (le_trans ?_ big64_large)
    norm_num
  have hraw := (C20_partial exp S draws D O labels st ht hL.labels hb (train_off ht hL.stop).2 hne i row hrow).1
  obtain ⟨p, hp1, hp2⟩ := within_list (P := fun x => |x| ≤ 700) (l := st.rawPred.row i) (by
    intro v hv
    obtain ⟨j, hj⟩ := List.getElem?_of_mem hv
    obtain ⟨x, a, _, b⟩ := hwithin i hin j v hj
    exact ⟨x, a, b⟩)
  have hlen : p.length = labels.length := by
    have : (st.rawPred.row i).length = labels.length := by
      rw [Dense.row_length hinv.rawWF (by rw [hinv.rawR]; exact hin), hinv.rawC]
    rw [hp1] at this
    simpa using this
  rw [hp1] at hraw
  obtain ⟨j, x, hj, hx, hmax⟩ := (C96_model exp hexp (toModel exp O labels st) rfl row p hraw (by
    rintro rfl; simp at hlen; omega) hp2 (by rw [hlen, hlabs]; exact hL.classes)).2
  refine ⟨j, hj, ?_⟩
  have hjm : j < labels.length := by rw [← hlen]; exact (List.getElem?_eq_some_iff.1 hx).1
  suffices hjc : j = classOf D.labels i by
    rw [hjc]
    show labels[_]? = _
    rw [hlabs]
    exact hcls
  by_contra hne'
  obtain ⟨z, z1, _, _, _, z5⟩ := hsep i hin
  have hget : ∀ k < labels.length, p[k]? = some (z k) := by
    intro k hk
    have := z1 k hk
    rw [hp1, List.getElem?_map] at this
    cases hc : p[k]? with
    | none => rw [hc] at this; cases this
    | some w =>
      rw [hc] at this
      simp only [Option.map_some, Option.some.injEq] at this
      rw [fin_inj64 this]
  have h1 := z5 j hjm hne' (Or.inl (List.length_pos_iff.2 hne))
  have h2 := hget j hjm
  rw [hx] at h2
  obtain rfl := Option.some.inj h2
  have h3 := hmax _ (List.mem_of_getElem? (hget _ hcm))
  have h4 : (2 : ℚ) ^ (-49 : ℤ) < 2 ^ (-42 : ℤ) := zpow_lt_zpow_right₀ (by norm_num) (by norm_num)
  linarith

/-- a model that predicts the labels of all rows has as many right rows as there are rows -/
theorem all_right {F : Type} [GoFloat F] [GoFloatOrd F] (exp : F → F) (S : GoSort) (draws : Nat → F) (D : DataBunch F)
    (hlen : D.data.length = D.labels.length) (O : Options F) (M : MultiClass F) (h : newMultiClass exp S draws D O = .ok M)
    (hrows : ∀ (i : Nat) row lab, D.data[i]? = some row → D.labels[i]? = some lab →
      ∃ k, M.predictSingleClass row = .ok k ∧ M.classLabels[k]? = some lab) :
    M.accuracy D = .ok (ofRat 100 *. (ofInt (D.data.length : Nat) /. ofInt D.data.length)) := by
  have hex : ∃ preds, D.data.mapM M.predictSingleClass = .ok preds := by
    have : ∀ l : List (List F), (∀ row ∈ l, ∃ k, M.predictSingleClass row = .ok k) → ∃ preds, l.mapM M.predictSingleClass = .ok preds := by
      intro l
      induction l with
      | nil => intro _; exact ⟨[], rfl⟩
      | cons a l ih =>
        intro hl
        obtain ⟨k, hk⟩ := hl a (by simp)
        obtain ⟨ks, hks⟩ := ih fun r hr => hl r (by simp [hr])
        exact ⟨k :: ks, by rw [List.mapM_cons, hk]; simp only [bind, Except.bind, hks]; rfl⟩
    refine this _ ?_
    intro row hr
    obtain ⟨i, hi⟩ := List.getElem?_of_mem hr
    have hil : i < D.labels.length := by rw [← hlen]; exact (List.getElem?_eq_some_iff.1 hi).1
    obtain ⟨k, hk, _⟩ := hrows i row _ hi (List.getElem?_eq_getElem hil)
    exact ⟨k, hk⟩
  obtain ⟨preds, hp⟩ := hex
  have hp' := List.forall₂_iff_get.1 (mapM_ok.1 hp)
  have hget : ∀ (i : Nat) p, preds[i]? = some p → ∃ row, D.data[i]? = some row ∧ M.predictSingleClass row = .ok p := by
    intro i p hi
    obtain ⟨h1, h2⟩ := List.getElem?_eq_some_iff.1 hi
    have h3 : i < D.data.length := by rw [hp'.1]; exact h1
    have := hp'.2 i h3 h1
    simp only [List.get_eq_getElem] at this
    rw [h2] at this
    exact ⟨_, List.getElem?_eq_getElem h3, this⟩
  have hright : ∀ (i : Nat) p lab, preds[i]? = some p → D.labels[i]? = some lab → M.classLabels[p]? = some lab := by
    intro i p lab h1 h2
    obtain ⟨row, h3, h4⟩ := hget i p h1
    obtain ⟨k, h5, h6⟩ := hrows i row lab h3 h2
    rw [h4] at h5
    obtain rfl := Except.ok.inj h5
    exact h6
  have hcount := (rightCount_eq_iff M preds D.labels (by rw [← hlen]; exact hp'.1.symm)).2 hright
  rw [C25_accuracy M D preds hp (by
    intro p hpm
    obtain ⟨i, hi⟩ := List.getElem?_of_mem hpm
    obtain ⟨row, h3, h4⟩ := hget i p hi
    exact C23_label exp S draws D O M h hlen row p h4) hlen.symm, hcount, ← hlen]

/-- **C101 (accuracy, float64)**: `Accuracy` on the training data returns 100. -/
theorem C101_binary64_accuracy (exp : F64 → F64) (hexp : ExpFloat exp) (S : GoSort) (draws : Nat → F64) (X : List (List ℚ))
    (D : DataBunch F64) (O : Options F64) (lr lam base : ℚ) (hL : Learnable64 O X D lr lam base) (M : MultiClass F64)
    (h : newMultiClass exp S draws D O = .ok M) (hne : M.b ≠ []) : M.accuracy D = .ok (.fin 100) := by
  rw [all_right exp S draws D hL.labels O M h (C101_binary64_rows exp hexp S draws X D O lr lam base hL M h hne)]
  have hXl : X.length = D.data.length := by rw [hL.data]; simp [rows64]
  have hdne : D.data.length ≠ 0 := by
    obtain ⟨labels, st, ht, rfl⟩ := newMultiClass_inv h
    have := (train_inv ht).1
    rw [hL.labels]
    exact fun h0 => this (List.length_eq_zero_iff.1 h0)
  have hn := hL.rows
  rw [hXl] at hn
  have hq : ((D.data.length : Nat) : ℚ) ≠ 0 := by exact_mod_cast hdne
  have hint : (ofInt (D.data.length : Nat) : F64) = .fin ((D.data.length : Nat) : ℚ) := by
    have := ofInt64 (τ := τ) (n := (D.data.length : Nat)) (by
      rw [abs_of_nonneg (by positivity)]
      have : ((D.data.length : Nat) : Int) ≤ 2 ^ 50 := by exact_mod_cast hn
      exact this.trans_lt (by norm_num))
    simpa using this
  have h100 : (ofRat 100 : F64) = .fin 100 := ofRat64 (by decide +kernel)
  have r1 : rv 1 = 1 := by simpa using rv_nat (k := 1) (by norm_num)
  have r100 : rv 100 = 100 := by simpa using rv_nat (k := 100) (by norm_num)
  rw [hint, h100, div64 hq (by rw [div_self hq]; exact (by norm_num : |(1 : ℚ)| ≤ 2 ^ 60).trans big64_large), div_self hq, r1,
    mul64 ((by norm_num : |(100 : ℚ) * 1| ≤ 2 ^ 60).trans big64_large), mul_one, r100]

end AnyOrder

/-! Non-vacuity: "exclusive or" of two features, with the default options of regular boosting except for the loss and the minimum
child weight. -/

/-- the four rows of "exclusive or", as rational numbers -/
def xorRowsQ : List (List ℚ) := [[0, 0], [0, 1], [1, 0], [1, 1]]

/-- "exclusive or" as a float64 training set -/
def xorSet64 : DataBunch F64 := ⟨rows64 xorRowsQ, [], [0, 1, 1, 0], []⟩

/-- `DefaultGOptions` with `SQErrLoss` and single-row leaves -/
def singleRows64 : Options F64 := { (defaultGOptions 0 : Options F64) with minChildWeight := .fin 1, loss := some ⟨1, sqErrLoss⟩ }

theorem xor64_apart : Apart64 (rows64 xorRowsQ : List (List F64)) := by
  refine ⟨?_, ?_⟩
  · intro row hr v hv
    have mem : ∀ row ∈ (rows64 xorRowsQ : List (List F64)), ∀ v ∈ row, v = .fin 0 ∨ v = .fin 1 := by decide +kernel
    rcases mem row hr v hv with rfl | rfl <;> exact ⟨_, rfl, by unfold Rep64; decide +kernel, by decide +kernel⟩
  · have mem : ∀ row ∈ (rows64 xorRowsQ : List (List F64)), ∀ v ∈ row, ∃ a ∈ [(0 : ℚ), 1], v = .fin a := by decide +kernel
    have key : ∀ a ∈ [(0 : ℚ), 1], ∀ b ∈ [(0 : ℚ), 1], a < b → a < 1/2 ∧ 1/2 < b := by decide +kernel
    intro f row row' a b hr hr' ha hb hab
    obtain ⟨a', ha', e1⟩ := mem row hr _ (List.mem_of_getElem? ha)
    obtain ⟨b', hb', e2⟩ := mem row' hr' _ (List.mem_of_getElem? hb)
    cases e1
    cases e2
    exact ⟨1/2, by unfold Rep64; decide +kernel, key a ha' b hb' hab⟩

theorem xor64_learnable : ∃ lr, Learnable64 singleRows64 xorRowsQ xorSet64 lr 0 0 := by
  refine ⟨rv (1/10), rfl, xor64_apart, rfl, ⟨2, by decide⟩, ?_, by decide, by decide, rfl, by decide +kernel, by decide +kernel,
    by decide +kernel, by unfold Rep64; decide +kernel, by decide +kernel, by decide +kernel, by unfold Rep64; decide +kernel, le_rfl,
    by decide +kernel, ⟨1, rfl, by norm_num⟩, by decide, by decide, ⟨_, rfl, rfl⟩⟩
  intro i j row hi hj
  have h := hi.trans hj.symm
  match i, j with
  | 0, 0 | 1, 1 | 2, 2 | 3, 3 | 1, 2 | 2, 1 | 0, 3 | 3, 0 => rfl
  | 0, 1 | 1, 0 | 0, 2 | 2, 0 | 1, 3 | 3, 1 | 2, 3 | 3, 2 => simp [xorRowsQ] at h
  | i + 4, _ => simp [xorRowsQ] at hi
  | _, j + 4 => simp [xorRowsQ] at hj

/-- the hypotheses of `C101_binary64_rows` and `C101_binary64_accuracy` are met: ten rounds learn "exclusive or" -/
example : ∃ (exp : F64 → F64) (M : MultiClass F64), ExpFloat exp ∧
    newMultiClass exp GoSort.ins (fun _ => .fin 0) xorSet64 singleRows64 = .ok M ∧ M.b.length = 10 ∧
    M.accuracy xorSet64 = .ok (.fin 100) := by
  obtain ⟨exp, hexp⟩ := expFloat_exists
  obtain ⟨M, hM⟩ := C22_returns_binary64 exp GoSort.ins (fun _ => .fin 0) xorSet64 singleRows64 (by decide)
    ⟨2, by decide⟩ xor64_apart (by decide) _ rfl sqErrLoss_regular ⟨by decide +kernel, by decide +kernel⟩ (fun h => by
      exact absurd h (by decide +kernel))
  have hb : M.b.length = 10 := by
    rw [(C22_rounds _ _ _ _ _ _ hM).1]
    decide +kernel
  obtain ⟨lr, hL⟩ := xor64_learnable
  exact ⟨exp, M, hexp, hM, hb, C101_binary64_accuracy exp hexp _ _ _ _ _ _ _ _ hL M hM (by intro h; rw [h] at hb; cases hb)⟩

end Boo
