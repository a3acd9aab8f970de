import Verif.Lemmas.RowOrder
import Verif.Props.RealTrain
import Verif.Lemmas.TwoClass

/-!
# C95: the order of the rows matters only through the order of the classes
-/

namespace Boo
open GoFloat Spec
set_option linter.unusedSectionVars false
set_option linter.unusedSimpArgs false

section
variable {K : Type} [Field K] [LinearOrder K] [IsStrictOrderedRing K] [FloorRing K]

/-- **C95, partial**: NewMultiClass on the same labelled rows in another order, in which the labels are met for the first
time in the same order, gives a model with the same labels that predicts the same probabilities and the same class for
every row, and the same importances. In exact arithmetic, for any function in place of `exp`, for the losses of the
package, without row subsampling. Missing: permutations that change the order in which the labels are met
(`C95_violated`). -/
theorem C95_same_class_order_partial (exp : Exact K → Exact K) (S S' : GoSort) (draws : Nat → Exact K) (X X' : List (List K))
    (L L' : List Int) (hl : L.length = X.length) (hl' : L'.length = X'.length) (hp : (X'.zip L').Perm (X.zip L))
    (c : Nat) (hrect : ∀ row ∈ X, row.length = c) (hd : distinctElements L' = distinctElements L) (O : Options (Exact K))
    (lv : LossVal (Exact K)) (hlv : O.loss = some lv) (hloss : lv.fn = sqErrLoss ∨ lv.fn = mseLoss)
    (hsub : O.xgb = false ∨ (O.subSample <. one) = false)
    (M : MultiClass (Exact K)) (h : newMultiClass exp S draws ⟨finRows X, [], L, []⟩ O = .ok M) :
    ∃ M', newMultiClass exp S' draws ⟨finRows X', [], L', []⟩ O = .ok M' ∧ M'.classLabels = M.classLabels ∧
      (∀ row, M'.predictSingle row = M.predictSingle row) ∧ (∀ row, M'.predictSingleClass row = M.predictSingleClass row) ∧
      ∀ S'', M'.featureImportance S'' = M.featureImportance S'' := by
  obtain ⟨B, h1, h2⟩ := rows_model (S' := S') (ks' := []) (fl' := []) hl hl' hp ⟨c, hrect⟩ hd (by
      intro lv' hlv'
      rw [hlv] at hlv'
      cases hlv'
      rcases hloss with h | h <;> rw [h]
      · exact ⟨sqErrLoss_rowWise, sqErrLoss_regular⟩
      · exact ⟨mseLoss_rowWise, mseLoss_regular⟩) (by
      rcases hsub with h | h <;> rw [h] <;> simp) h
  have hpred : ∀ row, ({ M with b := B } : MultiClass (Exact K)).predictSingle row = M.predictSingle row := fun row =>
    MultiClass.predict_congr (h2.imp fun _ _ h => h.imp fun _ _ h => h.1 row)
  refine ⟨_, h1, rfl, hpred, fun row => ?_, fun S'' => MultiClass.importance_congr
    (h2.imp fun _ _ h => h.imp fun _ _ h => h.2 S'')⟩
  unfold MultiClass.predictSingleClass
  rw [hpred]

end

/-- the hypotheses hold, with the default options, for three rows and the same rows the other way round -/
example (exp : Exact ℚ → Exact ℚ) : ∃ M M', newMultiClass exp GoSort.ins (fun _ => .fin 0)
      ⟨finRows [[0, 5], [1, 5], [2, 7]], [], [4, 9, 4], []⟩ (defaultGOptions 0) = .ok M ∧
    newMultiClass exp GoSort.ins (fun _ => .fin 0) ⟨finRows [[2, 7], [1, 5], [0, 5]], [], [4, 9, 4], []⟩
      (defaultGOptions 0) = .ok M' ∧ M.b.length = 10 ∧ ∀ row, M'.predictSingle row = M.predictSingle row := by
  have hr : rowSub (defaultGOptions 0 : Options (Exact ℚ)) = false := by simp [rowSub, defaultGOptions]
  obtain ⟨M, hM⟩ := C22_returns exp GoSort.ins (fun _ => .fin 0) ⟨finRows [[0, 5], [1, 5], [2, 7]], [], [4, 9, 4], []⟩
    (defaultGOptions 0)
    ⟨by simp [finRows], ⟨2, by simp [finRows]⟩, finRows_noNaN _, finRows_midSafe _⟩ rfl _ rfl
    mseLoss_regular (by
      unfold CapOk
      simp [rowSub, colSub, defaultGOptions]) (by rw [hr]; simp)
  have hl : M.b.length = 10 := by
    have := C22_requested_partial exp GoSort.ins _ _ _ M hM (Or.inr (by simp [defaultGOptions]))
    rw [hr] at this
    simpa [defaultGOptions] using this
  obtain ⟨M', h1, _, h2, _⟩ := C95_same_class_order_partial exp GoSort.ins GoSort.ins (fun _ => .fin 0)
    [[0, 5], [1, 5], [2, 7]] [[2, 7], [1, 5], [0, 5]] [4, 9, 4] [4, 9, 4] rfl rfl (by decide +kernel) 2 (by simp) rfl
    (defaultGOptions 0) _ rfl (Or.inr rfl) (Or.inl rfl) M hM
  exact ⟨M, M', hM, h1, hl, h2⟩

/-! ### two classes -/

theorem addRound_neg {lr b : ℝ} {row : List (Exact ℝ)} {ts ts' : List (Tree (Exact ℝ))} (h : List.Forall₂ NegTree ts ts')
    (hf : ∀ t ∈ ts, FinTree t) (c : Nat) (r : List ℝ) (tmp : List (Exact ℝ)) (ha : addRound (.fin lr) row ts c (finV r) = .ok tmp) :
    ∃ r' : List ℝ, tmp = finV r' ∧ addRound (.fin lr) row ts' c (finV (r.map fun x => 2 * b - x)) =
      .ok (finV (r'.map fun x => 2 * b - x)) := by
  induction h generalizing c r with
  | nil =>
    obtain rfl := Except.ok.inj ha
    exact ⟨r, rfl, rfl⟩
  | @cons t t' ts ts' h1 _ ih =>
    unfold addRound at ha ⊢
    obtain ⟨v, hv, ha⟩ := bind_ok ha
    obtain ⟨x, rfl⟩ := (hf t (by simp)).predict hv
    rw [h1.1, hv]
    simp only [Except.map, bind, Except.bind, negR_fin, Exact.mul_fin] at ha ⊢
    unfold addAt at ha ⊢
    simp only [finV, List.getElem?_map] at ha ⊢
    cases hc : r[c]? with
    | none => rw [hc] at ha; cases ha
    | some u =>
      rw [hc] at ha
      simp only [Option.map_some, Exact.add_fin] at ha ⊢
      obtain ⟨r', e1, e2⟩ := ih (fun t ht => hf t (by simp [ht])) (c + 1) (r.set c (u + x * lr)) (by
        rw [← ha]; simp [finV, List.map_set])
      refine ⟨r', e1, Eq.trans ?_ e2⟩
      congr 1
      simp only [finV, List.map_set]
      congr 2
      ring

theorem rawScores_neg {M : MultiClass (Exact ℝ)} {lr b : ℝ} (hlr : M.learningRate = .fin lr) (hb : M.baseScore = .fin b)
    {B : List (List (Tree (Exact ℝ)))} (h : List.Forall₂ (List.Forall₂ NegTree) M.b B) (hf : ∀ ens ∈ M.b, ∀ t ∈ ens, FinTree t)
    {row s : List (Exact ℝ)} (hs : M.rawScores row = .ok s) (labs : List Int) :
    ∃ r : List ℝ, s = finV r ∧ ({ M with b := B, classLabels := labs } : MultiClass (Exact ℝ)).rawScores row =
      .ok (finV (r.map fun x => 2 * b - x)) := by
  unfold MultiClass.rawScores at hs ⊢
  simp only
  obtain ⟨b0, h0, hs⟩ := bind_ok hs
  have h0' : ∃ b0', goIdx B 0 = .ok b0' ∧ b0'.length = b0.length := by
    generalize M.b = b1 at h h0
    cases h with
    | nil => cases h0
    | cons h1 h2 =>
      obtain rfl := Except.ok.inj h0
      exact ⟨_, rfl, h1.length_eq.symm⟩
  obtain ⟨b0', e1, e2⟩ := h0'
  rw [e1]
  simp only [bind, Except.bind]
  rw [e2, hb, hlr]
  rw [hb, hlr] at hs
  have key : ∀ (b1 B : List (List (Tree (Exact ℝ)))), List.Forall₂ (List.Forall₂ NegTree) b1 B →
      (∀ ens ∈ b1, ∀ t ∈ ens, FinTree t) → ∀ r : List ℝ,
      b1.foldlM (fun tmp ens => addRound (.fin lr) row ens 0 tmp) (finV r) = .ok s →
      ∃ r' : List ℝ, s = finV r' ∧ B.foldlM (fun tmp ens => addRound (.fin lr) row ens 0 tmp) (finV (r.map fun x => 2 * b - x)) =
        .ok (finV (r'.map fun x => 2 * b - x)) := by
    intro b1 B h
    induction h with
    | nil =>
      intro _ r hs
      obtain rfl := Except.ok.inj hs
      exact ⟨r, rfl, rfl⟩
    | cons h1 _ ih =>
      intro hf r hs
      rw [List.foldlM_cons] at hs ⊢
      obtain ⟨tmp, f1, hs⟩ := bind_ok hs
      obtain ⟨r1, rfl, f2⟩ := addRound_neg (b := b) h1 (hf _ (by simp)) 0 r tmp f1
      rw [f2]
      exact ih (fun ens he => hf ens (by simp [he])) r1 hs
  have e3 : ∀ (n : Nat), List.replicate n (XF.fin b : Exact ℝ) = finV (List.replicate n b) := by intro n; simp [finV]
  rw [e3] at hs ⊢
  obtain ⟨r', f1, f2⟩ := key M.b B h hf _ hs
  refine ⟨r', f1, ?_⟩
  rw [← f2]
  congr 1
  simp [finV, two_mul]

theorem addRound_len {F : Type} [GoFloat F] {lr : F} {x : List F} {ts : List (Tree F)} {c : Nat} {tmp tmp' : List F}
    (h : addRound lr x ts c tmp = .ok tmp') : tmp'.length = tmp.length := (addRound_get _ _ _ _ _ _ h).1

theorem rawScores_len {F : Type} [GoFloat F] {M : MultiClass F} {row s : List F} (h : M.rawScores row = .ok s) :
    ∃ ens, M.b[0]? = some ens ∧ s.length = ens.length := by
  unfold MultiClass.rawScores at h
  obtain ⟨b0, h0, h⟩ := bind_ok h
  refine ⟨b0, goIdx_ok.1 h0, ?_⟩
  exact foldlM_inv _ (fun tmp : List F => tmp.length = b0.length) M.b (fun tmp ens tmp' _ hp hr => (addRound_len hr).trans hp)
    _ s (by simp) h

/-- **C95, partial (two classes)**: on data with two labels, in real arithmetic and without row subsampling, NewMultiClass on
the same labelled rows in any order gives every label the same probability, for every row, and the same importances.
Both kinds of boosting, both losses, with or without early stopping; the learning rate, base score, `Lambda >= 0` and `Gamma` are numbers. (Only the order of
the two probabilities can differ, and with it the label predicted when both are 1/2.)
Missing: three or more labels met in another order (`C95_violated`). -/
theorem C95_two_classes_partial (S S' : GoSort) (draws : Nat → Exact ℝ) (X X' : List (List ℝ))
    (L L' : List Int) (hl : L.length = X.length) (hl' : L'.length = X'.length) (hp : (X'.zip L').Perm (X.zip L))
    (w : Nat) (hrect : ∀ row ∈ X, row.length = w) (a c : Int) (hac : a ≠ c) (ha : a ∈ L) (hcm : c ∈ L)
    (htwo : ∀ l ∈ L, l = a ∨ l = c) (O : Options (Exact ℝ))
    (hO : RealOptions O) (hbase : ∃ b, O.baseScore = XF.fin b)
    (lv : LossVal (Exact ℝ)) (hlv : O.loss = some lv) (hloss : lv.fn = sqErrLoss ∨ lv.fn = mseLoss)
    (hsub : O.xgb = false ∨ (O.subSample <. one) = false)
    (M : MultiClass (Exact ℝ)) (h : newMultiClass expR S draws ⟨finRows X, [], L, []⟩ O = .ok M) :
    ∃ M', newMultiClass expR S' draws ⟨finRows X', [], L', []⟩ O = .ok M' ∧
      (∀ row out, M.predictSingle row = .ok out → ∃ out', M'.predictSingle row = .ok out' ∧
        ∀ lab : Int, ∀ i j : Nat, M.classLabels[i]? = some lab → M'.classLabels[j]? = some lab → out'[j]? = out[i]?) ∧
      ∀ S'', M'.featureImportance S'' = M.featureImportance S'' := by
  have hlen : X'.length = X.length := by
    have := hp.length_eq
    rw [List.length_zip, List.length_zip] at this
    omega
  have hmem : ∀ l, l ∈ L' ↔ l ∈ L := by
    have e := hp.map Prod.snd
    rw [List.map_snd_zip (by omega), List.map_snd_zip (by omega)] at e
    exact fun l => e.mem_iff
  have hcases : ∀ L0 : List Int, (∀ l, l ∈ L0 ↔ l ∈ L) → distinctElements L0 = [a, c] ∨ distinctElements L0 = [c, a] := by
    intro L0 h0
    obtain ⟨d1, d2, _⟩ := C39_distinct L0
    have hperm : (distinctElements L0).Perm [a, c] := by
      rw [List.perm_ext_iff_of_nodup d1 (by simpa using hac)]
      intro l
      rw [d2, h0]
      constructor
      · intro hl; simpa using htwo l hl
      · intro hl
        simp only [List.mem_cons, List.not_mem_nil, or_false] at hl
        rcases hl with rfl | rfl <;> assumption
    rcases List.perm_pair.1 hperm with h | h
    · exact Or.inl h
    · exact Or.inr h
  have hsub' : ((O.subSample <. one) && O.xgb) = false := by
    rcases hsub with h | h <;> rw [h] <;> simp
  obtain ⟨hlab, _⟩ := (C22_rounds expR S draws _ O M h).2
  simp only at hlab
  by_cases hsame : distinctElements L' = distinctElements L
  · obtain ⟨M', q1, q2, q3, _, q5⟩ := C95_same_class_order_partial expR S S' draws X X' L L' hl hl' hp w hrect hsame O lv hlv hloss
      hsub M h
    refine ⟨M', q1, fun row out ho => ⟨out, by rw [q3]; exact ho, fun lab i j hi hj => ?_⟩, q5⟩
    rw [q2] at hj
    have hnd : M.classLabels.Nodup := by rw [hlab]; exact (C39_distinct L).1
    have hi' := (List.getElem?_eq_some_iff.1 hi)
    have hj' := (List.getElem?_eq_some_iff.1 hj)
    have : i = j := (List.Nodup.getElem_inj_iff hnd).1 (hi'.2.trans hj'.2.symm)
    rw [this]
  · have hd : ∃ a c : Int, a ≠ c ∧ distinctElements L = [a, c] ∧ distinctElements L' = [c, a] := by
      rcases hcases L fun _ => Iff.rfl with h1 | h1 <;> rcases hcases L' hmem with h2 | h2
      · exact absurd (h2.trans h1.symm) hsame
      · exact ⟨a, c, hac, h1, h2⟩
      · exact ⟨c, a, hac.symm, h1, h2⟩
      · exact absurd (h2.trans h1.symm) hsame
    obtain ⟨u, v, huv, hd, hd'⟩ := hd
    obtain ⟨b, hb⟩ := hbase
    have hpk : ∀ lv', O.loss = some lv' → PackageLoss lv'.fn := by
      intro lv' h'
      rw [hlv] at h'
      cases h'
      exact hloss
    obtain ⟨B, q1, q2⟩ := flip_model (S' := S') hl hl' hp ⟨w, hrect⟩ hd hd' hO hb hpk hsub' h
    rw [hd] at hlab
    refine ⟨_, q1, fun row out ho => ?_, fun S'' => ?_⟩
    · have hraw : ∃ s, M.rawScores row = .ok s := by
        unfold MultiClass.predictSingle at ho
        obtain ⟨s, hs, _⟩ := bind_ok ho
        exact ⟨s, hs⟩
      obtain ⟨s, hs⟩ := hraw
      have hlr : M.learningRate = O.learningRate ∧ M.baseScore = O.baseScore ∧ M.probTransform = some (softMaxDense expR) ∧
          ∀ ens ∈ M.b, ∀ t ∈ ens, FinTree t := by
        obtain ⟨labels, st, ht, rfl⟩ := newMultiClass_inv h
        refine ⟨rfl, rfl, rfl, (train_real S draws X _ rfl (by simp only; omega) O hO ⟨b, hb⟩ ⟨lv, hlv, ?_⟩ (fun hr => ?_) labels st ht).trees⟩
        · rcases hloss with h | h
          · exact Or.inl h
          · exact Or.inr ⟨h, a, ha, c, hcm, hac⟩
        · unfold rowSub at hr
          rw [hsub'] at hr
          cases hr
      obtain ⟨lr, hlrv⟩ := hO.lr
      obtain ⟨r, rfl, e2⟩ := rawScores_neg (hlr.1.trans hlrv) (hlr.2.1.trans hb) q2 hlr.2.2.2 hs [v, u]
      have hlen2 : r.length = 2 := by
        obtain ⟨ens, he, hlen'⟩ := rawScores_len hs
        have hX : X ≠ [] := by
          rintro rfl
          rw [List.length_eq_zero_iff.1 hl] at ha
          simp at ha
        obtain ⟨x0, X0, rfl⟩ := List.exists_cons_of_ne_nil hX
        have := (trained_trees expR S draws _ O M h (finV x0) rfl).2 ens he
        rw [hlab] at this
        simpa [finV, this] using hlen'
      have hne : r ≠ [] := by rintro rfl; simp at hlen2
      have hne' : (finV r : List (Exact ℝ)) ≠ [] := by simpa [finV] using hne
      rw [predictSingle_softmax expR M hlr.2.2.1 row _ hs hne', softMax_real r hne] at ho
      obtain rfl := Except.ok.inj ho
      refine ⟨finV ((softmaxSpec r).map fun v => 1 - v), ?_, ?_⟩
      · rw [predictSingle_softmax expR _ (by exact hlr.2.2.1) row _ e2 (by simpa [finV] using hne), softMax_real _ (by simpa using hne),
          softmax_two hlen2]
      · intro lab i j hi hj
        simp only at hj
        rw [hlab] at hi
        match r, hlen2 with
        | [x, y], _ =>
          have p1 := Real.exp_pos x
          have p2 := Real.exp_pos y
          have e1 : 1 - Real.exp y / (Real.exp x + Real.exp y) = Real.exp x / (Real.exp x + Real.exp y) := by field_simp; ring
          have e2 : 1 - Real.exp x / (Real.exp x + Real.exp y) = Real.exp y / (Real.exp x + Real.exp y) := by field_simp; ring
          have hi' := (List.getElem?_eq_some_iff.1 hi).1
          have hj' := (List.getElem?_eq_some_iff.1 hj).1
          match i, j, hi', hj' with
          | 0, 0, _, _ => simp at hi hj; exact absurd (hi.trans hj.symm) huv
          | 1, 1, _, _ => simp at hi hj; exact absurd (hj.trans hi.symm) huv
          | 0, 1, _, _ => simp [finV, softmaxSpec, e1]
          | 1, 0, _, _ => simp [finV, softmaxSpec, e2]
    · have := MultiClass.importance_congr (S := S'') (M := M) (B := B)
        (q2.imp fun _ _ h => h.imp fun _ _ h => h.2 S'')
      exact this

/-- Data, options and a model that meet the hypotheses, with the two classes met in the other order: two rows swapped,
the default options of regular boosting. -/
example : ∃ (S : GoSort) (draws : Nat → Exact ℝ) (lv : LossVal (Exact ℝ)) (M : MultiClass (Exact ℝ)),
    ([[1], [0]].zip [1, 0]).Perm (([[0], [1]] : List (List ℝ)).zip ([0, 1] : List Int)) ∧
    RealOptions (defaultGOptions (F := Exact ℝ) 0) ∧ (∃ b, (defaultGOptions (F := Exact ℝ) 0).baseScore = XF.fin b) ∧
    (defaultGOptions (F := Exact ℝ) 0).loss = some lv ∧ (lv.fn = sqErrLoss ∨ lv.fn = mseLoss) ∧
    (defaultGOptions (F := Exact ℝ) 0).xgb = false ∧
    newMultiClass expR S draws ⟨finRows [[0], [1]], [], [0, 1], []⟩ (defaultGOptions (F := Exact ℝ) 0) = .ok M ∧
    distinctElements [1, 0] ≠ distinctElements [0, 1] := by
  have hr : rowSub (defaultGOptions 0 : Options (Exact ℝ)) = false := by simp [rowSub, defaultGOptions]
  obtain ⟨M, hM⟩ := C22_returns expR GoSort.ins (fun _ => .fin 0) realData (defaultGOptions 0)
    ⟨by simp [realData, finRows], ⟨1, by simp [realData, finRows]⟩, finRows_noNaN _, finRows_midSafe _⟩ rfl _ rfl
    mseLoss_regular (by
      unfold CapOk
      simp [rowSub, colSub, defaultGOptions]) (by rw [hr]; simp)
  exact ⟨GoSort.ins, fun _ => .fin 0, _, M, by exact List.Perm.swap _ _ _,
    ⟨⟨_, rfl⟩, ⟨0, by simp [defaultGOptions], le_rfl⟩, ⟨_, rfl⟩⟩, ⟨_, rfl⟩, rfl, Or.inr rfl, rfl, hM, by decide⟩

/-! ### rows that are all the same -/

/-- a tree on rows that are all the same has no split -/
theorem const_leaf {S : GoSort} {x0 : List ℝ} {n : Nat} {o : TreeOptions (Exact ℝ)} {t : Tree (Exact ℝ)}
    (h : newTree S (finRows (List.replicate n x0)) o = .ok t) :
    ∃ i, t = .node i .nil .nil ∧ i.leaf = true ∧ i.samples = o.idx (finRows (List.replicate n x0)) := by
  obtain ⟨i, l, r, rfl⟩ : ∃ i l r, t = .node i l r := by
    cases t with
    | nil => exact absurd rfl (newTree_ne_nil h)
    | node i l r => exact ⟨i, l, r, rfl⟩
  have hsub : (Tree.node i l r).sub [] = .node i l r := by simp [Tree.sub]
  obtain ⟨c1, c2⟩ := C02_leaf_iff_no_children S _ o _ h [] i l r hsub
  have hl : l = .nil := by
    cases hl : l with
    | nil => rfl
    | node i' l' r' =>
      exfalso
      subst hl
      obtain ⟨o', ip, lp, rp, s, _, _, _⟩ := child_of h (path := []) (b := true) (i := i') (l := l') (r := r') (by simp [Tree.sub])
      obtain ⟨_, _, _, hlt, _, ⟨row, hr, hrv⟩, ⟨row', hr', hrv'⟩⟩ := s.cut (finRows_noNaN _)
      unfold finRows at hr hr'
      rw [List.map_replicate, List.mem_replicate] at hr hr'
      rw [hr.2] at hrv
      rw [hr'.2, hrv] at hrv'
      rw [← Option.some.inj hrv'] at hlt
      obtain ⟨q, hq⟩ : ∃ q, s.x = XF.fin q := by
        rw [List.getElem?_map] at hrv
        obtain ⟨q, _, hq⟩ := Option.map_eq_some_iff.1 hrv
        exact ⟨q, hq.symm⟩
      rw [hq, XF.fin_lt] at hlt
      simp at hlt
  have hlf : i.leaf = true := by
    by_contra hne
    have := (c2.1 (by simpa using hne)).1
    exact this hl
  obtain ⟨_, hr⟩ := c1.1 hlf
  subst hl hr
  refine ⟨i, rfl, hlf, ?_⟩
  obtain ⟨v, row0, _, _, _, ⟨_, h2⟩ | ⟨_, best, _, _, _, h2⟩ | ⟨_, best, col, tl, tr, _, hs, hlf, _, h3, h4, h2⟩⟩ :=
    newTreeD_inv _ _ _ _ _ h <;> cases h2 <;> rfl

theorem sumOver_range (g : List ℝ) : sumOver g (List.range g.length) = g.sum := by
  unfold sumOver
  congr 1
  apply List.ext_getElem?
  intro i
  rw [List.getElem?_map]
  by_cases hi : i < g.length
  · rw [List.getElem?_range hi, Option.map_some, List.getElem?_eq_getElem hi, List.getD_eq_getElem?_getD,
      List.getElem?_eq_getElem hi, Option.getD_some]
  · rw [List.getElem?_eq_none (by simpa using hi), List.getElem?_eq_none (by omega)]
    rfl

/-- the value of the tree of a class on such rows -/
theorem const_tree {S : GoSort} {x0 : List ℝ} {n : Nat} {O : Options (Exact ℝ)} {g h : List ℝ} (hg : g.length = n)
    (hh : h.length = n) (h0 : h.sum ≠ 0) {t0 t : Tree (Exact ℝ)}
    (ht : newTree S (finRows (List.replicate n x0)) (regTreeOptions O (finV g) n) = .ok t0)
    (hN : NewtonOf (finV g) (finV h) t0 t) (row : List (Exact ℝ)) : t.predictSingle row = .ok (.fin (g.sum / h.sum)) := by
  obtain ⟨i, rfl, hlf, hs⟩ := const_leaf ht
  have hsm : i.samples = List.range n := by
    rw [hs]
    unfold TreeOptions.idx regTreeOptions
    simp [finRows]
  cases t with
  | nil =>
    have := (hN.shape []).1 (by simp [Tree.sub])
    simp [Tree.sub] at this
  | node i' l' r' =>
    obtain ⟨h1, _⟩ := hN.node [] i .nil .nil i' l' r' (by simp [Tree.sub]) (by simp [Tree.sub])
    obtain ⟨_, h3⟩ := h1 hlf
    subst h3
    unfold Tree.predictSingle
    have : ({ i with value := sumAt (finV g) i.samples /. sumAt (finV h) i.samples } : NodeInfo (Exact ℝ)).leaf = true := hlf
    rw [this, if_pos rfl, hsm]
    simp only
    rw [sumAt_fin, sumAt_fin]
    have e1 : sumOver g (List.range n) = g.sum := by rw [← hg]; exact sumOver_range g
    have e2 : sumOver h (List.range n) = h.sum := by rw [← hh]; exact sumOver_range h
    rw [e1, e2, Exact.div_fin _ _ h0]

/-- the mean of class `lab` moves by this much: the Newton step of the class on equal rows of probability `q` -/
noncomputable def constStep (c n : Nat) (q : ℝ) : ℝ := (c - n * q) / (n * ((1 - q) * q))

theorem sum_indicator_sub (L : List Int) (lab : Int) (q : ℝ) :
    (List.zipWith (fun a b : ℝ => a - b) (L.map fun l => if l = lab then (1 : ℝ) else 0) (List.replicate L.length q)).sum =
      L.count lab - L.length * q := by
  induction L with
  | nil => simp
  | cons a L ih =>
    rw [List.length_cons, List.replicate_succ, List.map_cons, List.zipWith_cons_cons, List.sum_cons, ih, List.count_cons]
    by_cases h : a = lab
    · subst h; simp; ring
    · have : (a == lab) = false := by simpa using h
      rw [if_neg h, this]
      simp
      ring

/-- the tree of a class in the first round of regular boosting on equal rows, when the scores of the rows are `s` -/
theorem const_class {S : GoSort} {draws : Nat → Exact ℝ} {x0 : List ℝ} {L : List Int} {O : Options (Exact ℝ)}
    {M : MultiClass (Exact ℝ)} (h : newMultiClass expR S draws ⟨finRows (List.replicate L.length x0), [], L, []⟩ O = .ok M)
    (hn : L ≠ []) (hx : O.xgb = false) {lv : LossVal (Exact ℝ)} (hlv : O.loss = some lv) (hmse : lv.fn = mseLoss)
    (hb : (O.baseScore *. one) = O.baseScore) (hfull : ∀ ens ∈ M.b, ens.length = M.classLabels.length)
    {k : Nat} {ens : List (Tree (Exact ℝ))} {tree : Tree (Exact ℝ)} (hr : M.b[0]? = some ens) (hk : ens[k]? = some tree)
    {s : List ℝ} {q : ℝ} {lab : Int} (hs : scoresBefore M 0 k (x0.map .fin) = .ok (finV s)) (hs2 : 2 ≤ s.length)
    (hq : (softmaxSpec s)[k]? = some q) (hlab : M.classLabels[k]? = some lab) (row : List (Exact ℝ)) :
    tree.predictSingle row = .ok (.fin (constStep (L.count lab) L.length q)) := by
  obtain ⟨lab', lv', round, p, h1, h2, _, ⟨h4, h5⟩, _, h7⟩ := C70_fitted expR S draws _ O M h
    (by simp [finRows]) hb hfull 0 k ens tree hr hk
  rw [hlab] at h1
  cases h1
  rw [hlv] at h2
  cases h2
  have hlen : (finRows (List.replicate L.length x0) : List (List (Exact ℝ))).length = L.length := by simp [finRows]
  have hp : p = finV (List.replicate L.length q) := by
    apply List.ext_getElem?
    intro i
    by_cases hi : i < L.length
    · obtain ⟨s', probs, q1, q2, v, q3, q4⟩ := h5 i (x0.map .fin) (by simp [finRows, hi])
      rw [hs] at q1
      cases q1
      rw [softMax_real s (by rintro rfl; simp at hs2)] at q2
      cases q2
      rw [finV, List.getElem?_map, hq] at q3
      cases q3
      rw [q4, finV, List.getElem?_map, List.getElem?_replicate, if_pos hi]
      rfl
    · rw [List.getElem?_eq_none (by simp only [] at h4; omega), List.getElem?_eq_none (by simp [finV]; omega)]
  have hmem : q ∈ softmaxSpec s := List.mem_of_getElem? hq
  have q0 := softmaxSpec_pos s q hmem
  have q1 := softmaxSpec_lt_one s hs2 q hmem
  obtain ⟨g, t0, g1, g2, g3⟩ := h7 hx
  have hind : (indicator L lab : List (Exact ℝ)) = finV (L.map fun l => if l = lab then (1 : ℝ) else 0) := by
    unfold indicator finV
    rw [List.map_map]
    apply List.map_congr_left
    intro l _
    simp only [Function.comp]
    split
    · rw [Exact.one_fin (K := ℝ)]; simp
    · rw [Exact.zero_fin (K := ℝ)]; simp
  rw [hmse, hp] at g1 g3
  simp only [hind] at g1
  have e1 := (grad_fin (L.map fun l => if l = lab then (1 : ℝ) else 0) (List.replicate L.length q) (by simp)).2
  have e2 : (mseLoss : LossFunc (Exact ℝ)).negGradients = negGrad := rfl
  rw [e2, e1] at g1
  obtain rfl := Except.ok.inj g1
  have e3 : (mseLoss : LossFunc (Exact ℝ)).hessian (finV (List.replicate L.length q)) =
      finV (List.replicate L.length ((1 - q) * q)) := by
    simp [mseLoss, finV, Exact.one_fin, Exact.sub_fin, Exact.mul_fin]
  rw [e3] at g3
  have hL : (0 : ℝ) < L.length := by exact_mod_cast List.length_pos_iff.2 hn
  simp only [hlen] at g2
  have := const_tree (by simp) (by simp) (by
    rw [List.sum_replicate, nsmul_eq_mul]
    have : 0 < (1 - q) * q := mul_pos (by linarith) q0
    positivity) g2 g3 row
  rw [this, sum_indicator_sub, List.sum_replicate, nsmul_eq_mul]
  rfl

/-! ### the witness -/

/-- five equal rows: one of class `a`, two of class `b`, two of class `c` -/
noncomputable def tieData (a b c : Int) : DataBunch (Exact ℝ) := ⟨finRows (List.replicate 5 [0]), [], [a, b, b, c, c], []⟩

/-- `DefaultGOptions` with one round -/
noncomputable def tieOptions : Options (Exact ℝ) := { defaultGOptions 0 with rounds := 1 }

theorem constStep_lt {q q' : ℝ} (h0 : 0 < q) (h : q < q') (h1 : q' < 2 / 5) : constStep 2 5 q' < constStep 2 5 q := by
  unfold constStep
  push_cast
  have p1 : 0 < (1 - q') * q' := mul_pos (by linarith) (by linarith)
  have p2 : 0 < (1 - q) * q := mul_pos (by linarith) (by linarith)
  rw [div_lt_div_iff₀ (by linarith) (by linarith)]
  have e : (2 - 5 * q) * (5 * ((1 - q') * q')) - (2 - 5 * q') * (5 * ((1 - q) * q)) =
    5 * (q' - q) * (2 * (1 - q - q') + 5 * (q * q')) := by ring
  have : 0 < (2 - 5 * q) * (5 * ((1 - q') * q')) - (2 - 5 * q') * (5 * ((1 - q) * q)) := by
    rw [e]
    have := mul_pos h0 (h0.trans h)
    have : 0 < q' - q := by linarith
    have : 0 < 2 * (1 - q - q') + 5 * (q * q') := by nlinarith
    positivity
  linarith

theorem constStep_pos {q : ℝ} (h0 : 0 < q) (h1 : q < 2 / 5) : 0 < constStep 2 5 q := by
  unfold constStep
  push_cast
  apply div_pos (by linarith)
  nlinarith

/-- the model predicts the class met last -/
theorem tie_last (a b c : Int) (hab : a ≠ b) (hac : a ≠ c) (hbc : b ≠ c) (S : GoSort) (draws : Nat → Exact ℝ) :
    ∃ M, newMultiClass expR S draws (tieData a b c) tieOptions = .ok M ∧ M.classLabels = [a, b, c] ∧
      ∀ row, M.predictSingleClass row = .ok 2 := by
  have hr : rowSub tieOptions = false := by simp [rowSub, tieOptions, defaultGOptions]
  obtain ⟨M, hM⟩ := C22_returns expR S draws (tieData a b c) tieOptions
    ⟨by simp [tieData, finRows], ⟨1, by simp [tieData, finRows]⟩, finRows_noNaN _, finRows_midSafe _⟩ rfl _ rfl
    mseLoss_regular (by
      unfold CapOk
      simp [rowSub, colSub, tieOptions, defaultGOptions]) (by rw [hr]; simp)
  have hl : M.b.length = 1 := by
    have := C22_requested_partial expR S _ (tieData a b c) _ M hM (Or.inr (by simp [tieOptions, defaultGOptions]))
    rw [hr] at this
    simpa [tieOptions, defaultGOptions] using this
  obtain ⟨_, hcl, hfull⟩ := C22_rounds expR S draws (tieData a b c) tieOptions M hM
  replace hfull := hfull (by simp [tieOptions, defaultGOptions])
  have hcl' : M.classLabels = [a, b, c] := by
    rw [hcl]
    simp [tieData, distinctElements, hab, hac, hbc, hab.symm, hac.symm, hbc.symm]
  refine ⟨M, hM, hcl', fun row => ?_⟩
  obtain ⟨ens, hens⟩ := List.length_eq_one_iff.1 hl
  have h3 : ens.length = 3 := by
    have := hfull ens (by rw [hens]; simp)
    rw [this, hcl']; rfl
  obtain ⟨t1, t2, t3, rfl⟩ := List.length_eq_three.1 h3
  have hlr : M.learningRate = .fin (1 / 10) := by
    obtain ⟨_, st, _, rfl⟩ := newMultiClass_inv hM
    simp [toModel, tieOptions, defaultGOptions, Exact.ofRat_fin]
  have hbs : M.baseScore = .fin 0 := by
    obtain ⟨_, st, _, rfl⟩ := newMultiClass_inv hM
    simp [toModel, tieOptions, defaultGOptions, Exact.zero_fin]
  have hpt : M.probTransform = some (softMaxDense expR) := by
    obtain ⟨_, st, _, rfl⟩ := newMultiClass_inv hM
    rfl
  have hbase : (tieOptions.baseScore *. one) = tieOptions.baseScore := by
    simp [tieOptions, defaultGOptions, Exact.zero_fin, Exact.one_fin, Exact.mul_fin]
  have hb0 : M.b[0]? = some [t1, t2, t3] := by rw [hens]; rfl
  have step : ∀ (k : Nat) (tree : Tree (Exact ℝ)) (s : List ℝ) (q : ℝ) (lab : Int), [t1, t2, t3][k]? = some tree →
      scoresBefore M 0 k [.fin 0] = .ok (finV s) → 2 ≤ s.length → (softmaxSpec s)[k]? = some q →
      M.classLabels[k]? = some lab → ∀ row, tree.predictSingle row =
        .ok (.fin (constStep ([a, b, b, c, c].count lab) 5 q)) := fun k tree s q lab hk hs hs2 hq hlab row =>
    const_class (x0 := [0]) (L := [a, b, b, c, c]) (lv := ⟨0, mseLoss⟩) hM (by simp) rfl rfl rfl hbase hfull hb0 hk hs hs2 hq
      hlab row
  have r3 : List.range 3 = [0, 1, 2] := rfl
  have s1 := step 0 t1 [0, 0, 0] (1 / 3) a rfl (by
    unfold scoresBefore
    rw [hcl', hens, hbs, hlr]
    simp [r3, treesOf, scoreAfter, finV, pure, Except.pure, bind, Except.bind]) (by simp) (by
    simp [softmaxSpec]; norm_num) (by rw [hcl']; rfl)
  have v1 : constStep ([a, b, b, c, c].count a) 5 (1 / 3) = -3 / 5 := by
    simp [constStep, List.count_cons, hab.symm, hac.symm]
    norm_num
  rw [v1] at s1
  have e0 : Real.exp (-6 / 100) < 1 := by rw [Real.exp_lt_one_iff]; norm_num
  have e1 : 94 / 100 ≤ Real.exp (-6 / 100) := by have := Real.add_one_le_exp (-6 / 100 : ℝ); linarith
  set E := Real.exp (-6 / 100) with hE
  have s2 := step 1 t2 [-6 / 100, 0, 0] (1 / (E + 2)) b rfl (by
    unfold scoresBefore
    rw [hcl', hens, hbs, hlr]
    simp [r3, treesOf, scoreAfter, finV, pure, Except.pure, bind, Except.bind, s1, Exact.mul_fin, Exact.add_fin]
    norm_num) (by simp) (by
    simp [softmaxSpec, ← hE]; norm_num) (by rw [hcl']; rfl)
  have c2 : [a, b, b, c, c].count b = 2 := by simp [List.count_cons, hab, hbc.symm]
  rw [c2] at s2
  have q2 : 1 / (E + 2) < 2 / 5 := by
    rw [div_lt_div_iff₀ (by linarith) (by norm_num)]
    linarith
  have d2 := constStep_pos (q := 1 / (E + 2)) (by positivity) q2
  set D2 := constStep 2 5 (1 / (E + 2)) with hD2
  set G := Real.exp (D2 / 10) with hG
  have g1 : 1 < G := by rw [hG, Real.one_lt_exp_iff]; linarith
  have s3 := step 2 t3 [-6 / 100, D2 / 10, 0] (1 / (E + G + 1)) c rfl (by
    unfold scoresBefore
    rw [hcl', hens, hbs, hlr]
    simp [r3, treesOf, scoreAfter, finV, pure, Except.pure, bind, Except.bind, s1, s2, Exact.mul_fin, Exact.add_fin]
    norm_num
    ring) (by simp) (by
    simp [softmaxSpec, ← hE, ← hG]; ring) (by rw [hcl']; rfl)
  have c3 : [a, b, b, c, c].count c = 2 := by simp [List.count_cons, hac, hbc]
  rw [c3] at s3
  have d3 : D2 < constStep 2 5 (1 / (E + G + 1)) := constStep_lt (by positivity)
    (one_div_lt_one_div_of_lt (by linarith) (by linarith)) q2
  set D3 := constStep 2 5 (1 / (E + G + 1))
  have hraw : M.rawScores row = .ok (finV [-6 / 100, D2 / 10, D3 / 10]) := by
    unfold MultiClass.rawScores
    rw [hens, hbs, hlr]
    simp [goIdx, addRound, addAt, finV, pure, Except.pure, bind, Except.bind, s1, s2, s3, Exact.mul_fin, Exact.add_fin,
      List.replicate]
    norm_num
    constructor <;> ring
  obtain ⟨j, h1, m, h2, h3, _⟩ := C23_raw_scores M hpt row _ hraw (by simp)
  rw [h1]
  congr 1
  have h4 := h3 2 (.fin (D3 / 10)) rfl
  have hj : j < 3 := by simpa [finV] using (List.getElem?_eq_some_iff.1 h2).1
  match j, hj with
  | 0, _ =>
    obtain rfl := Option.some.inj h2
    rw [XF.fin_lt] at h4
    simp at h4
    linarith
  | 1, _ =>
    obtain rfl := Option.some.inj h2
    rw [XF.fin_lt] at h4
    simp at h4
    linarith
  | 2, _ => rfl

/-- **C95 is violated** when the labels are met in another order: regular boosting with the default options and one round,
in real arithmetic, on five equal rows, one of class 0 and two each of classes 1 and 2. With the rows of class 1 before
those of class 2 every row is predicted to be of class 2; with the same labelled rows, those of class 2 first, of class
1. (The probabilities are renewed after the tree of each class, so the class that comes last takes the bigger step.) -/
theorem C95_violated (S : GoSort) (draws : Nat → Exact ℝ) :
    ∃ M M', newMultiClass expR S draws ⟨finRows [[0], [0], [0], [0], [0]], [], [0, 1, 1, 2, 2], []⟩
        { defaultGOptions 0 with rounds := 1 } = .ok M ∧
      newMultiClass expR S draws ⟨finRows [[0], [0], [0], [0], [0]], [], [0, 2, 2, 1, 1], []⟩
        { defaultGOptions 0 with rounds := 1 } = .ok M' ∧
      ∀ row, ∃ j j', M.predictSingleClass row = .ok j ∧ M.classLabels[j]? = some 2 ∧
        M'.predictSingleClass row = .ok j' ∧ M'.classLabels[j']? = some 1 := by
  obtain ⟨M, h1, h2, h3⟩ := tie_last 0 1 2 (by decide) (by decide) (by decide) S draws
  obtain ⟨M', h1', h2', h3'⟩ := tie_last 0 2 1 (by decide) (by decide) (by decide) S draws
  refine ⟨M, M', h1, h1', fun row => ⟨2, 2, h3 row, ?_, h3' row, ?_⟩⟩
  · rw [h2]; rfl
  · rw [h2']; rfl

example : ([[0], [0], [0], [0], [0]].zip [0, 1, 1, 2, 2] : List (List ℕ × ℕ)).Perm
    ([[0], [0], [0], [0], [0]].zip [0, 2, 2, 1, 1]) := by decide

end Boo
