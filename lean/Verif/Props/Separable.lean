import Verif.Lemmas.Separable

/-!
# C103: xgboost learns two classes that one column separates
-/

namespace Boo
open GoFloat Spec
set_option linter.unusedSectionVars false

/-- What is assumed in C103: xgboost boosting with finite numbers, positive learning rate, `Lambda ≥ 0`, `Gamma = 0`, at least one
level, no subsampling and no early stopping; two labels, and column `f` is at most `θ` in the rows of label `a` and more than `θ` in
the rows of label `b`; both labels have enough rows for `MinChildWeight`. -/
structure Separable (O : Options (Exact ℝ)) (X : List (List ℝ)) (D : DataBunch (Exact ℝ)) (lr lam : ℝ) (f : Nat) (θ : ℝ) (a b : Int) :
    Prop where
  data : D.data = finRows X
  labels : D.data.length = D.labels.length
  column : ∃ row0, X[0]? = some row0 ∧ f < row0.length
  differ : a ≠ b
  split : ∀ (i : Nat) row lab, X[i]? = some row → D.labels[i]? = some lab →
    (lab = a ∧ row.getD f 0 ≤ θ) ∨ (lab = b ∧ θ < row.getD f 0)
  weightA : max 1 (toInt O.minChildWeight) ≤ D.labels.count a
  weightB : max 1 (toInt O.minChildWeight) ≤ D.labels.count b
  xgb : O.xgb = true
  lrEq : O.learningRate = .fin lr
  lr0 : 0 < lr
  lamEq : O.lambda = .fin lam
  lam0 : 0 ≤ lam
  gamEq : O.gamma = .fin 0
  depth : 1 ≤ O.maxDepth
  rows : rowSub O = false
  cols : colSub O = false
  stop : O.earlyStop ≤ 0
  loss : ∃ lv, O.loss = some lv ∧ (lv.fn = sqErrLoss ∨ lv.fn = mseLoss)

theorem count_range (l : List Int) (x : Int) : ((List.range l.length).filter fun i => decide (l.getD i 0 = x)).length = l.count x := by
  have h : l = (List.range l.length).map fun i => l.getD i 0 := by
    apply List.ext_getElem (by simp)
    intro i h1 h2
    rw [List.getElem_map, List.getElem_range, getD_get h1]
  conv_rhs => rw [h, List.count, List.countP_map, List.countP_eq_length_filter]
  congr 2

section
variable {O : Options (Exact ℝ)} {X : List (List ℝ)} {D : DataBunch (Exact ℝ)} {lr lam : ℝ} {f : Nat} {θ : ℝ} {a b : Int}

theorem Separable.len (h : Separable O X D lr lam f θ a b) : X.length = D.labels.length := by
  rw [← h.labels, h.data]
  simp [finRows]

theorem Separable.at (h : Separable O X D lr lam f θ a b) {i : Nat} (hi : i < X.length) :
    (D.labels.getD i 0 = a ∧ val X i f ≤ θ) ∨ (D.labels.getD i 0 = b ∧ θ < val X i f) := by
  have hl : i < D.labels.length := by rw [← h.len]; exact hi
  have := h.split i _ _ (List.getElem?_eq_getElem hi) (List.getElem?_eq_getElem hl)
  unfold val
  rw [getD_get hl, getD_get hi]
  exact this

theorem Separable.mem (h : Separable O X D lr lam f θ a b) : a ∈ D.labels ∧ b ∈ D.labels := by
  have h1 := h.weightA
  have h2 := h.weightB
  exact ⟨List.count_pos_iff.1 (by omega), List.count_pos_iff.1 (by omega)⟩

theorem Separable.two (h : Separable O X D lr lam f θ a b) : (distinctElements D.labels).length = 2 := by
  have h1 := distinct_two h.mem.1 h.mem.2 h.differ
  have h2 : (distinctElements D.labels).length ≤ [a, b].length := by
    apply List.Subperm.length_le
    apply List.subperm_of_subset (C39_distinct D.labels).1
    intro x hx
    have := ((C39_distinct D.labels).2.1 x).1 hx
    obtain ⟨i, hi, rfl⟩ := List.getElem_of_mem this
    have hX : i < X.length := by rw [h.len]; exact hi
    have := h.at hX
    rw [getD_get hi] at this
    simp only [List.mem_cons, List.not_mem_nil, or_false]
    tauto
  simp at h2
  omega

theorem classOf_iff {labels : List Int} {i j : Nat} (hi : i < labels.length) (hj : j < labels.length) :
    classOf labels i = classOf labels j ↔ labels[i] = labels[j] := by
  constructor
  · intro h
    have h1 := classOf_get hi
    rw [h, classOf_get hj] at h1
    exact (Option.some.inj h1).symm
  · intro h
    apply classOf_congr
    rw [List.getElem?_eq_getElem hi, List.getElem?_eq_getElem hj, h]

theorem Separable.mcw_fix (h : Separable O X D lr lam f θ a b) : toInt O.fixMcw.minChildWeight ≤ max 1 (toInt O.minChildWeight) := by
  unfold Options.fixMcw
  split
  · have h1 : toInt (one : Exact ℝ) = 1 := by
      rw [Exact.one_fin]
      rw [XF.toInt_floor (by norm_num) (by norm_num)]
      simp
    simp only [h1]
    omega
  · omega

/-- the scores of the training rows after training, and the trees -/
theorem separable_scores (S : GoSort) (draws : Nat → Exact ℝ) (base : ℝ) (hL : Separable O X D lr lam f θ a b)
    (hbase : O.baseScore = .fin base) (labels : List Int) (st : TrainState (Exact ℝ))
    (ht : train expR S draws D O = .ok (labels, st)) :
    (∀ i < X.length, AllFin (st.rawPred.row i)) ∧ TInv expR X.length labels.length st ∧
      Apart X.length labels.length (classOf D.labels) base lr 0 (fun _ => st.boosters.length) st ∧
      ∀ ens ∈ st.boosters, ∀ t ∈ ens, TwoLeaves X.length (classOf D.labels) t := by
  have hd := hL.len
  have hO : RealOptions O := ⟨⟨lr, hL.lrEq⟩, ⟨lam, hL.lamEq, hL.lam0⟩, ⟨0, hL.gamEq⟩⟩
  have hfit : LossFits O D.labels := by
    obtain ⟨lv, h1, h2 | h2⟩ := hL.loss
    · exact ⟨lv, h1, Or.inl h2⟩
    · exact ⟨lv, h1, Or.inr ⟨h2, a, hL.mem.1, b, hL.mem.2, hL.differ⟩⟩
  have hall := train_real S draws X D hL.data hd O hO ⟨base, hbase⟩ hfit (by rw [hL.rows]; simp) labels st ht
  obtain ⟨hl, hlab, ohe, st0, hohe, hr0, hc0, hw, hinit, hrounds⟩ := train_inv ht
  obtain ⟨i1, i2, i3, i4, _, _, i7⟩ := trainInit_inv hinit hr0 hc0
  obtain ⟨lv, hlv, hlk, hs, hcls, hcol⟩ := train_setup X D hd O hO hfit labels ohe hl hlab hohe
  have t2 := (trainRounds_inv hrounds i1 hL.labels i2).1
  rw [← hd] at i1 t2 hall i7
  have hm : labels.length = 2 := by rw [hlab]; exact hL.two
  have hraw0 : ∀ i < X.length, st0.rawPred.row i = List.replicate labels.length (.fin base) := by
    intro i hi
    rw [i7 i hi, hbase]
    congr 1
    simp
  have hfin0 : ∀ i < X.length, AllFin (st0.rawPred.row i) := by
    intro i hi v hv
    rw [hraw0 i hi, List.mem_replicate] at hv
    exact ⟨base, hv.2⟩
  have hmcw := hL.mcw_fix
  have hfix : ∃ f, O.fixMcw = { O with minChildWeight := f } := by
    unfold Options.fixMcw
    split
    · exact ⟨_, rfl⟩
    · exact ⟨O.minChildWeight, rfl⟩
  obtain ⟨q, hq⟩ := hfix
  have hadm : Admissible X (toInt O.fixMcw.minChildWeight) (List.range X.length) f θ := by
    have hA : (leftOf X (List.range X.length) f θ).length = D.labels.count a := by
      rw [← count_range, ← hd]
      unfold leftOf
      congr 1
      apply List.filter_congr
      intro i hi
      rw [decide_eq_decide]
      rcases hL.at (List.mem_range.1 hi) with ⟨h1, h2⟩ | ⟨h1, h2⟩
      · exact ⟨fun _ => h1, fun _ => h2⟩
      · exact ⟨fun h => absurd h (not_le.2 h2), fun h => absurd (h.symm.trans h1) hL.differ⟩
    have hB : (rightOf X (List.range X.length) f θ).length = D.labels.count b := by
      rw [← count_range, ← hd]
      unfold rightOf
      congr 1
      apply List.filter_congr
      intro i hi
      rw [decide_eq_decide]
      rcases hL.at (List.mem_range.1 hi) with ⟨h1, h2⟩ | ⟨h1, h2⟩
      · exact ⟨fun h => absurd h (not_lt.2 h2), fun h => absurd (h1.symm.trans h) hL.differ⟩
      · exact ⟨fun _ => h1, fun _ => h2⟩
    unfold Admissible
    rw [hA, hB]
    have := hL.weightA
    have := hL.weightB
    omega
  rw [hm] at hs hcls hcol i1 hraw0 hrounds
  have hset : SepSetup X O.fixMcw ohe X.length (classOf D.labels) lr lam f θ := by
    refine ⟨by rw [hq]; exact hL.lrEq, hL.lr0, by rw [hq]; exact hL.lamEq, hL.lam0, by rw [hq]; exact hL.gamEq, by rw [hq]; exact hL.xgb,
      by rw [hq]; exact hL.depth, by rw [hq]; exact hL.rows, by rw [hq]; exact hL.cols, by rw [hq]; exact hL.stop, hL.column, hcls, ?_,
      hadm, hcol, ?_⟩
    · intro i hi j hj
      have hi' : i < D.labels.length := by rw [← hd]; exact hi
      have hj' : j < D.labels.length := by rw [← hd]; exact hj
      rw [classOf_iff hi' hj', ← getD_get hi' (d := 0), ← getD_get hj' (d := 0)]
      have hdiff := hL.differ
      rcases hL.at hi with ⟨h1, h2⟩ | ⟨h1, h2⟩ <;> rcases hL.at hj with ⟨h3, h4⟩ | ⟨h3, h4⟩ <;> rw [h1, h3]
      · simp [h2, h4]
      · simp [h2, not_le.2 h4, hdiff]
      · simp [not_le.2 h2, h4, Ne.symm hdiff]
      · simp [not_le.2 h2, not_le.2 h4]
    · rw [hq]
      intro lv' h'
      obtain rfl := Option.some.inj (h'.symm.trans hlv)
      rcases hlk with h | ⟨h, _⟩
      · exact Or.inl h
      · exact Or.inr h
  have hst0 : ∀ k, st0.stopped.getD k false = false := by
    intro k
    rw [i4, List.getD_eq_getElem?_getD, List.getElem?_replicate]
    split <;> rfl
  have hsep0 : Apart X.length 2 (classOf D.labels) base lr 0 (fun _ => st0.boosters.length) st0 := by
    intro i hi k hk
    refine ⟨base, ?_, ?_, ?_⟩
    · rw [hraw0 i hi, List.getElem?_replicate, if_pos hk]
    · intro _
      simp [i2]
    · intro _
      simp [i2]
  rw [hL.data] at hrounds
  have hfinal := trainRounds_sepX hs hset _ hrounds i1 hfin0 hst0 hsep0 (fun i hi j hj _ => by rw [hraw0 i hi, hraw0 j hj])
    (by rw [i2]; simp)
  rw [hm]
  rw [hm] at t2
  exact ⟨hall.raw, t2, hfinal⟩

/-- **C103 (training rows)**: over the reals, an xgboost model with at least one round predicts the label of every training row. -/
theorem C103_rows (S : GoSort) (draws : Nat → Exact ℝ) (hL : Separable O X D lr lam f θ a b)
    (hbase : ∃ x, O.baseScore = XF.fin x) (M : MultiClass (Exact ℝ))
    (h : newMultiClass expR S draws D O = .ok M) (hne : M.b ≠ []) (i : Nat) (row : List (Exact ℝ)) (lab : Int)
    (hrow : D.data[i]? = some row) (hlab : D.labels[i]? = some lab) :
    ∃ k, M.predictSingleClass row = .ok k ∧ M.classLabels[k]? = some lab := by
  obtain ⟨base, hbase⟩ := hbase
  obtain ⟨labels, st, ht, rfl⟩ := newMultiClass_inv h
  obtain ⟨hfin, hinv, hsep, _⟩ := separable_scores S draws base hL hbase labels st ht
  exact rows_of_apart S draws X D hL.data hL.labels O lr base hbase hL.stop labels st ht hfin hinv hsep hne i row lab hrow hlab

/-- **C103 (accuracy)**: `Accuracy` on the training data returns 100. -/
theorem C103_accuracy (S : GoSort) (draws : Nat → Exact ℝ) (hL : Separable O X D lr lam f θ a b)
    (hbase : ∃ x, O.baseScore = XF.fin x) (M : MultiClass (Exact ℝ))
    (h : newMultiClass expR S draws D O = .ok M) (hne : M.b ≠ []) : M.accuracy D = .ok (.fin 100) :=
  accuracy_of_rows S draws D hL.labels O M h (C103_rows S draws hL hbase M h hne)

/-- **C103 (trees)**: whatever `MaxDepth` allows, every tree of the model has two leaves, and the training rows of a leaf have the
same label. -/
theorem C103_trees (S : GoSort) (draws : Nat → Exact ℝ) (hL : Separable O X D lr lam f θ a b)
    (hbase : ∃ x, O.baseScore = XF.fin x) (M : MultiClass (Exact ℝ))
    (h : newMultiClass expR S draws D O = .ok M) (ens : List (Tree (Exact ℝ))) (hens : ens ∈ M.b) (t : Tree (Exact ℝ)) (ht : t ∈ ens) :
    t.leaves.length = 2 ∧ ∀ leaf ∈ t.leaves, ∀ i ∈ leaf.samples, ∀ j ∈ leaf.samples, D.labels[i]? = D.labels[j]? := by
  obtain ⟨base, hbase⟩ := hbase
  obtain ⟨labels, st, htr, rfl⟩ := newMultiClass_inv h
  obtain ⟨_, _, _, htrees⟩ := separable_scores S draws base hL hbase labels st htr
  obtain ⟨h1, h2⟩ := htrees ens hens t ht
  refine ⟨h1, fun leaf hlf i hi j hj => ?_⟩
  obtain ⟨hin, hc⟩ := h2 leaf hlf i hi
  have hjn := (h2 leaf hlf j hj).1
  rw [hL.len] at hin hjn
  rw [List.getElem?_eq_getElem hin, List.getElem?_eq_getElem hjn, (classOf_iff hin hjn).1 (hc j hj)]

end

/-! Non-vacuity: five rows, the second column separates the labels 7 and 9; the first one does not. -/

/-- five rows -/
def fiveRows : List (List ℝ) := [[1, 5], [9, 4], [3, 1], [7, 0], [5, 2]]

/-- the five rows as a training set -/
def fiveData : DataBunch (Exact ℝ) := ⟨finRows fiveRows, [], [7, 7, 9, 9, 9], []⟩

/-- `DefaultXOptions` without subsampling, early stopping and `Gamma`, and `MinChildWeight` 2 -/
noncomputable def plainXgb : Options (Exact ℝ) :=
  { (defaultXOptions 0 : Options (Exact ℝ)) with
      subSample := .fin 1, colSubSample := .fin 1, earlyStop := 0, minSample := 0, minChildWeight := .fin 2, gamma := .fin 0 }

theorem plainXgb_sub : rowSub plainXgb = false ∧ colSub plainXgb = false := by
  simp [rowSub, colSub, plainXgb]

theorem five_separable : Separable plainXgb fiveRows fiveData (3/10) (15/10) 1 3 9 7 := by
  have hw : toInt plainXgb.minChildWeight = 2 := by
    exact (XF.toInt_floor (by norm_num) (by norm_num)).trans (by norm_num)
  refine ⟨rfl, rfl, ⟨[1, 5], rfl, by simp⟩, by decide, ?_, by rw [hw]; decide, by rw [hw]; decide, rfl, ?_, by norm_num, ?_,
    by norm_num, rfl, by decide, plainXgb_sub.1, plainXgb_sub.2, le_rfl, ⟨_, rfl, Or.inl rfl⟩⟩
  · intro i row lab hi hl
    match i with
    | 0 | 1 | 2 | 3 | 4 =>
      simp [fiveRows, fiveData] at hi hl
      subst hi hl
      norm_num
    | i + 5 => simp [fiveRows] at hi
  · simp [plainXgb, defaultXOptions]
  · simp [plainXgb, defaultXOptions]

theorem five_model : ∃ M, newMultiClass expR GoSort.ins (fun _ => .fin 0) fiveData plainXgb = .ok M ∧ M.b.length = 20 := by
  obtain ⟨hr, hc⟩ := plainXgb_sub
  obtain ⟨M, hM⟩ := C22_returns expR GoSort.ins (fun _ => .fin 0) fiveData plainXgb
    ⟨by simp [fiveData, finRows, fiveRows], ⟨2, by simp [fiveData, finRows, fiveRows]⟩, finRows_noNaN _, finRows_midSafe _⟩ rfl _ rfl
    sqErrLoss_regular (by
      unfold CapOk
      rw [hr, hc]
      simp) (by rw [hr]; simp)
  refine ⟨M, hM, ?_⟩
  have := C22_requested_partial expR GoSort.ins _ fiveData _ M hM (Or.inr (by simp [plainXgb]))
  rw [hr] at this
  simp [plainXgb, defaultXOptions] at this
  omega

example : ∃ M, newMultiClass expR GoSort.ins (fun _ => .fin 0) fiveData plainXgb = .ok M ∧ M.accuracy fiveData = .ok (.fin 100) ∧
    M.b.length = 20 ∧ ∀ ens ∈ M.b, ∀ t ∈ ens, t.leaves.length = 2 := by
  obtain ⟨M, hM, hl⟩ := five_model
  have hne : M.b ≠ [] := by intro h; rw [h] at hl; simp at hl
  have hb : ∃ x, plainXgb.baseScore = XF.fin x := ⟨5/10, by simp [plainXgb, defaultXOptions]⟩
  exact ⟨M, hM, C103_accuracy _ _ five_separable hb M hM hne, hl,
    fun ens hens t ht => (C103_trees _ _ five_separable hb M hM ens hens t ht).1⟩

/-! `Separable` asks for `Gamma = 0`. A large `Gamma` forbids the split that separates the classes: the trees are single leaves. (The
exponential is used at zero only.) -/

/-- four rows of one column, separable -/
def fourData64 : DataBunch F64 := ⟨[[.fin 0], [.fin 1], [.fin 2], [.fin 3]], [], [0, 0, 1, 1], []⟩

/-- **C103 (limit)**: with `Gamma` 3 the model stays at 50%. -/
theorem C103_gamma :
    ∃ M, newMultiClass (fun _ => (.fin 1 : F64)) GoSort.ins (fun _ => .fin 0) fourData64 { freeSplits with gamma := .fin 3 } = .ok M ∧
      M.b.length = 5 ∧ M.accuracy fourData64 = .ok (.fin 50) := by
  have h : (match newMultiClass (fun _ => (.fin 1 : F64)) GoSort.ins (fun _ => .fin 0) fourData64 { freeSplits with gamma := .fin 3 } with
      | .ok M => decide (M.b.length = 5 ∧ M.accuracy fourData64 = .ok (.fin 50))
      | .error _ => false) = true := by decide +kernel
  split at h
  · rename_i M hM
    exact ⟨M, hM, of_decide_eq_true h⟩
  · cases h

end Boo
