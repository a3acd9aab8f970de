import Verif.Lemmas.Repeat
import Verif.Props.RealTrain
import Verif.Props.Ignored

/-!
# C136: repeating the training data is multiplying the weights
-/

namespace Boo
open GoFloat
set_option linter.unusedSectionVars false
set_option linter.unusedSimpArgs false

/-- Every element of `l` is in `l'` exactly `k` times as often. -/
def Spec.KTimes {α : Type} [BEq α] (k : Nat) (l l' : List α) : Prop := ∀ a, l'.count a = k * l.count a

theorem rep_count {α : Type} [BEq α] [LawfulBEq α] (k : Nat) (l : List α) (a : α) : (rep k l).count a = k * l.count a := by
  induction l with
  | nil => simp [rep]
  | cons b l ih =>
    rw [rep_cons, List.count_append, ih, List.count_replicate, List.count_cons]
    by_cases h : b = a
    · subst h; simp; ring
    · simp [beq_eq_false_iff_ne.2 h]

theorem Spec.KTimes.perm {α : Type} [BEq α] [LawfulBEq α] {k : Nat} {l l' : List α} (h : Spec.KTimes k l l') : l'.Perm (rep k l) :=
  List.perm_iff_count.2 fun a => by rw [h a, rep_count]

theorem Spec.KTimes.of_perm {α : Type} [BEq α] [LawfulBEq α] {k : Nat} {l l' : List α} (h : l'.Perm (rep k l)) : Spec.KTimes k l l' :=
  fun a => by rw [h.count_eq, rep_count]

section
variable {K : Type} [Field K] [LinearOrder K] [IsStrictOrderedRing K] [FloorRing K]

theorem toInt_nat {m : Nat} (h : m < 2 ^ 63) : toInt (.fin (m : K) : Exact K) = m := by
  have hb : (m : K) < 2 ^ 63 := by exact_mod_cast h
  rw [XF.toInt_floor (Nat.cast_nonneg m) hb]
  simp

theorem nat_not_lt_one {m : Nat} (h : 1 ≤ m) : ((.fin (m : K) : Exact K) <. one) = false := by
  have : (1 : K) ≤ m := by exact_mod_cast h
  rw [Exact.one_fin, XF.fin_lt]
  simp
  omega

/-- **C136 (a model)**: NewMultiClass, on data that hold each labelled row `k` times as often and meet the labels in the
same order, with MinChildWeight, Lambda and Gamma multiplied by `k`, gives a model with the same labels and the same
number of trees, that predicts the same probabilities and the same class for every row. In exact arithmetic, for any
function in place of `exp`, for both kinds of boosting and the losses of the package, without row subsampling, with a whole
MinChildWeight of at least 1. (`k = 1` is a reordering of the rows.) -/
theorem C136_model (exp : Exact K → Exact K) (S S' : GoSort) (draws : Nat → Exact K) (X X' : List (List K))
    (L L' : List Int) (k : Nat) (hk : 1 ≤ k) (hl : L.length = X.length) (hl' : L'.length = X'.length)
    (hp : Spec.KTimes k (X.zip L) (X'.zip L')) (c : Nat) (hrect : ∀ row ∈ X, row.length = c)
    (hd : distinctElements L' = distinctElements L) (O : Options (Exact K))
    (lv : LossVal (Exact K)) (hlv : O.loss = some lv) (hloss : lv.fn = sqErrLoss ∨ lv.fn = mseLoss)
    (hsub : O.xgb = false ∨ (O.subSample <. one) = false) (m : Nat) (hm : 1 ≤ m) (hmcw : O.minChildWeight = .fin (m : K))
    (hbig : k * m < 2 ^ 63) (M : MultiClass (Exact K))
    (h : newMultiClass exp S draws ⟨finRows X, [], L, []⟩ O = .ok M) :
    ∃ M', newMultiClass exp S' draws ⟨finRows X', [], L', []⟩
        { O with minChildWeight := .fin (k : K) *. O.minChildWeight, lambda := .fin (k : K) *. O.lambda,
                 gamma := .fin (k : K) *. O.gamma } = .ok M' ∧
      M'.classLabels = M.classLabels ∧ M'.b.map List.length = M.b.map List.length ∧
      (∀ row, M'.predictSingle row = M.predictSingle row) ∧ ∀ row, M'.predictSingleClass row = M.predictSingleClass row := by
  have hkp : (0 : K) < k := by exact_mod_cast hk
  have hkm : 1 ≤ k * m := Nat.mul_pos hk hm
  have hm' : m < 2 ^ 63 := lt_of_le_of_lt (Nat.le_mul_of_pos_left m hk) hbig
  have e : (.fin (k : K) : Exact K) *. O.minChildWeight = .fin ((k * m : Nat) : K) := by
    rw [hmcw, Exact.mul_fin, Nat.cast_mul]
  obtain ⟨B, h1, h2⟩ := repeat_model (S' := S') (ks' := []) (fl' := []) (mc := .fin ((k * m : Nat) : K)) hk hl hl' hp.perm
    ⟨c, hrect⟩ hd (by
      intro lv' hlv'
      rw [hlv] at hlv'
      cases hlv'
      rcases hloss with h | h <;> rw [h]
      · exact ⟨sqErrLoss_repWise, sqErrLoss_regular⟩
      · exact ⟨mseLoss_repWise, mseLoss_regular⟩) (by
      rcases hsub with h | h <;> rw [h] <;> simp) (by rw [hmcw]; exact nat_not_lt_one hm) (nat_not_lt_one hkm)
    (by rw [hmcw, toInt_nat hbig, toInt_nat hm']; push_cast; rfl) h
  have hpred : ∀ row, ({ M with b := B } : MultiClass (Exact K)).predictSingle row = M.predictSingle row := fun row =>
    MultiClass.predict_congr (h2.imp fun _ _ h => h.imp fun _ _ h => h row)
  refine ⟨{ M with b := B }, ?_, rfl, ?_, hpred, fun row => ?_⟩
  · rw [e, scl_eq_mul hkp, scl_eq_mul hkp]
    exact h1
  · exact (List.forall₂_eq_eq_eq ▸ List.forall₂_map_left_iff.2 (List.forall₂_map_right_iff.2
      (h2.imp fun _ _ h => h.length_eq)) : List.Forall₂ (· = ·) (M.b.map List.length) (B.map List.length)) |> fun h => by
        rw [List.forall₂_eq_eq_eq] at h; exact h.symm
  · unfold MultiClass.predictSingleClass
    rw [hpred]

theorem distinct_append_sub (l l2 d : List Int) (h : ∀ x ∈ l2, x ∈ d) :
    l2.foldl (fun diff v => if v ∈ diff then diff else diff ++ [v]) d = d := by
  induction l2 with
  | nil => rfl
  | cons a l2 ih =>
    rw [List.foldl_cons, if_pos (h a (by simp))]
    exact ih fun x hx => h x (by simp [hx])

theorem distinct_copies (k : Nat) (L : List Int) :
    distinctElements (List.replicate (k + 1) L).flatten = distinctElements L := by
  rw [List.replicate_succ, List.flatten_cons]
  unfold distinctElements
  rw [List.foldl_append]
  refine distinct_append_sub L _ _ fun x hx => ?_
  have : x ∈ L := by
    rw [List.mem_flatten] at hx
    obtain ⟨l, h1, h2⟩ := hx
    rw [List.eq_of_mem_replicate h1] at h2
    exact h2
  exact ((C39_distinct L).2.1 x).2 this

/-- **C136 (copies)**: `k` copies of the whole data set, one after the other. -/
theorem C136_copies (exp : Exact K → Exact K) (S S' : GoSort) (draws : Nat → Exact K) (X : List (List K))
    (L : List Int) (k : Nat) (hk : 1 ≤ k) (hl : L.length = X.length) (c : Nat) (hrect : ∀ row ∈ X, row.length = c)
    (O : Options (Exact K)) (lv : LossVal (Exact K)) (hlv : O.loss = some lv) (hloss : lv.fn = sqErrLoss ∨ lv.fn = mseLoss)
    (hsub : O.xgb = false ∨ (O.subSample <. one) = false) (m : Nat) (hm : 1 ≤ m) (hmcw : O.minChildWeight = .fin (m : K))
    (hbig : k * m < 2 ^ 63) (M : MultiClass (Exact K))
    (h : newMultiClass exp S draws ⟨finRows X, [], L, []⟩ O = .ok M) :
    ∃ M', newMultiClass exp S' draws ⟨finRows (List.replicate k X).flatten, [], (List.replicate k L).flatten, []⟩
        { O with minChildWeight := .fin (k : K) *. O.minChildWeight, lambda := .fin (k : K) *. O.lambda,
                 gamma := .fin (k : K) *. O.gamma } = .ok M' ∧
      M'.classLabels = M.classLabels ∧ (∀ row, M'.predictSingle row = M.predictSingle row) ∧
      ∀ row, M'.predictSingleClass row = M.predictSingleClass row := by
  obtain ⟨k, rfl⟩ := Nat.exists_eq_add_of_le' hk
  have hz : ∀ j : Nat, (List.replicate j X).flatten.length = (List.replicate j L).flatten.length ∧
      (List.replicate j X).flatten.zip (List.replicate j L).flatten = (List.replicate j (X.zip L)).flatten := by
    intro j
    induction j with
    | zero => exact ⟨rfl, rfl⟩
    | succ j ih =>
      simp only [List.replicate_succ, List.flatten_cons]
      rw [List.zip_append hl.symm, ih.2, List.length_append, List.length_append, ih.1, hl]
      exact ⟨rfl, rfl⟩
  obtain ⟨M', h1, h2, _, h3, h4⟩ := C136_model exp S S' draws X (List.replicate (k + 1) X).flatten L
    (List.replicate (k + 1) L).flatten (k + 1) hk hl (hz _).1.symm (by
      intro a
      rw [(hz _).2]
      generalize k + 1 = j
      induction j with
      | zero => simp
      | succ j ih => rw [List.replicate_succ, List.flatten_cons, List.count_append, ih]; ring) c hrect (distinct_copies k L) O lv hlv hloss hsub
    m hm hmcw hbig M h
  exact ⟨M', h1, h2, h3, h4⟩

/-- **C136 (regular boosting)**: only MinChildWeight has to be multiplied. -/
theorem C136_regular (exp : Exact K → Exact K) (S S' : GoSort) (draws : Nat → Exact K) (X X' : List (List K))
    (L L' : List Int) (k : Nat) (hk : 1 ≤ k) (hl : L.length = X.length) (hl' : L'.length = X'.length)
    (hp : Spec.KTimes k (X.zip L) (X'.zip L')) (c : Nat) (hrect : ∀ row ∈ X, row.length = c)
    (hd : distinctElements L' = distinctElements L) (O : Options (Exact K)) (hx : O.xgb = false)
    (lv : LossVal (Exact K)) (hlv : O.loss = some lv) (hloss : lv.fn = sqErrLoss ∨ lv.fn = mseLoss)
    (m : Nat) (hm : 1 ≤ m) (hmcw : O.minChildWeight = .fin (m : K)) (hbig : k * m < 2 ^ 63) (M : MultiClass (Exact K))
    (h : newMultiClass exp S draws ⟨finRows X, [], L, []⟩ O = .ok M) :
    ∃ M', newMultiClass exp S' draws ⟨finRows X', [], L', []⟩
        { O with minChildWeight := .fin (k : K) *. O.minChildWeight } = .ok M' ∧
      M'.classLabels = M.classLabels ∧ (∀ row, M'.predictSingle row = M.predictSingle row) ∧
      ∀ row, M'.predictSingleClass row = M.predictSingleClass row := by
  obtain ⟨M', h1, h2, _, h3, h4⟩ := C136_model exp S S' draws X X' L L' k hk hl hl' hp c hrect hd O lv hlv hloss (Or.inl hx) m hm
    hmcw hbig M h
  refine ⟨M', ?_, h2, h3, h4⟩
  rw [← h1]
  exact (C90_regular exp S' draws _ { O with minChildWeight := .fin (k : K) *. O.minChildWeight } hx
    (.fin (k : K) *. O.lambda) (.fin (k : K) *. O.gamma) O.subSample O.colSubSample O.treeMethod).symm

/-- **C136 (a tree)**: NewTree for xgboost, on rows, gradients and Hessians that hold each triple `k` times as often, with
MinChildWeight, Lambda and Gamma multiplied by `k`, gives a tree that predicts the same for every row. -/
theorem C136_tree (S S' : GoSort) (X X' : List (List K)) (g g' hs hs' : List (Exact K)) (k : Nat) (hk : 1 ≤ k)
    (hg : g.length = X.length) (hh : hs.length = X.length) (hg' : g'.length = X'.length) (hh' : hs'.length = X'.length)
    (hp : Spec.KTimes k (X.zip (g.zip hs)) (X'.zip (g'.zip hs'))) (c : Nat) (hrect : ∀ row ∈ X, row.length = c)
    (o : TreeOptions (Exact K)) (hx : o.xgb = true) (hi : o.indexes = none) (hsc : o.scratch = none) (m : Nat)
    (hmcw : o.minChildWeight = .fin (m : K)) (hbig : k * m < 2 ^ 63) (t : Tree (Exact K))
    (h : newTree S (finRows X) { o with gradients := some g, hessian := some hs } = .ok t) :
    ∃ t', newTree S' (finRows X') { o with
        minChildWeight := .fin (k : K) *. o.minChildWeight, lambda := .fin (k : K) *. o.lambda,
        gamma := .fin (k : K) *. o.gamma, gradients := some g', hessian := some hs' } = .ok t' ∧
      ∀ row, t'.predictSingle row = t.predictSingle row := by
  have hkp : (0 : K) < k := by exact_mod_cast hk
  have hm' : m < 2 ^ 63 := lt_of_le_of_lt (Nat.le_mul_of_pos_left m hk) hbig
  have e1 : (X.zip (g.zip hs)).length = X.length := by rw [List.length_zip, List.length_zip]; omega
  have e2 : (X'.zip (g'.zip hs')).length = X'.length := by rw [List.length_zip, List.length_zip]; omega
  have e4 : X'.length = k * X.length := by rw [← e2, hp.perm.length_eq, rep_length, e1]
  obtain ⟨ρ, h1, h2, h3⟩ := rep_index hk hp.perm
  rw [e1] at h1 h2
  have g1 := fun w => zip_getElem? (by rw [List.length_zip]; omega) (by rw [List.length_zip]; omega) (h3 w)
  have g2 := fun w => zip_getElem? (by omega) (by omega) (g1 w).2
  have hfeat : (X'[0]?).map List.length = (X[0]?).map List.length := by
    by_cases hn : 0 < X.length
    · have h0 : ρ 0 < X.length := (h2 0).2 (Nat.mul_pos hk hn)
      rw [(g1 0).1, List.getElem?_eq_getElem h0, List.getElem?_eq_getElem hn]
      simp only [Option.map_some, Option.some.injEq]
      rw [hrect _ (List.getElem_mem _), hrect _ (List.getElem_mem _)]
    · have : X.length = 0 := by omega
      rw [this] at e4
      rw [List.getElem?_eq_none (by omega), List.getElem?_eq_none (by omega)]
  unfold newTree at h ⊢
  have hR : Reps ρ k X X' { o with gradients := some g, hessian := some hs }
      { o with minChildWeight := .fin (k : K) *. o.minChildWeight, lambda := .fin (k : K) *. o.lambda,
               gamma := .fin (k : K) *. o.gamma, gradients := some g', hessian := some hs' } := by
    refine ⟨rfl, ?_, scl_eq_mul hkp _, scl_eq_mul hkp _, rfl, rfl, ?_, ?_, ?_, ?_, ?_, ?_, fun w => (g1 w).1, hfeat⟩
    · simp only
      rw [hmcw, Exact.mul_fin, ← Nat.cast_mul, toInt_nat hbig, toInt_nat hm']
      push_cast; rfl
    · simp [TreeOptions.fill, hi, hsc, finRows, e4]
    · simp only [TreeOptions.idx, hi, Option.getD_none, finRows, List.length_map, e4]
      exact h1
    · simp only [tgtA, hx, if_true, Option.getD_some]; rw [hg', hg, e4]
    · simp only [tgtB, hx, if_true, Option.getD_some]; rw [hh', hh, e4]
    · simp only [tgtA, hx, if_true, Option.getD_some]; exact fun w => (g2 w).1
    · simp only [tgtB, hx, if_true, Option.getD_some]; exact fun w => (g2 w).2
  obtain ⟨t', q1, q2⟩ := hR.tree hk (S2 := S') _ h
  exact ⟨t', q1, fun row => q2.predict hk row⟩

end

/-- the hypotheses of `C136_model` hold, with the default options of xgboost without row subsampling, for four rows and
the same rows twice, in another order -/
example (exp : Exact ℚ → Exact ℚ) : ∃ M M', newMultiClass exp GoSort.ins (fun _ => .fin 0)
      ⟨finRows [[0, 5], [1, 5], [2, 7], [3, 7]], [], [4, 9, 4, 4], []⟩ { defaultXOptions 0 with subSample := one, minSample := 0 } = .ok M ∧
    newMultiClass exp GoSort.ins (fun _ => .fin 0)
      ⟨finRows [[3, 7], [1, 5], [2, 7], [0, 5], [0, 5], [1, 5], [3, 7], [2, 7]], [], [4, 9, 4, 4, 4, 9, 4, 4], []⟩
      { defaultXOptions 0 with
        subSample := one, minSample := 0, minChildWeight := .fin 6, lambda := .fin 3, gamma := .fin (4 / 10) } = .ok M' ∧
    M.classLabels = [4, 9] ∧ ∀ row, M'.predictSingle row = M.predictSingle row := by
  have hr : rowSub ({ defaultXOptions 0 with subSample := one, minSample := 0 } : Options (Exact ℚ)) = false := by
    decide +kernel
  obtain ⟨M, hM⟩ := C22_returns exp GoSort.ins (fun _ => .fin 0) ⟨finRows [[0, 5], [1, 5], [2, 7], [3, 7]], [], [4, 9, 4, 4], []⟩
    ({ defaultXOptions 0 with subSample := one, minSample := 0 } : Options (Exact ℚ))
    ⟨by simp [finRows], ⟨2, by simp [finRows]⟩, finRows_noNaN _, finRows_midSafe _⟩ rfl _ rfl
    sqErrLoss_regular (by
      unfold CapOk
      decide +kernel) (by rw [hr]; simp)
  obtain ⟨M', h1, h0, _, h2, _⟩ := C136_model exp GoSort.ins GoSort.ins (fun _ => .fin 0)
    [[0, 5], [1, 5], [2, 7], [3, 7]] [[3, 7], [1, 5], [2, 7], [0, 5], [0, 5], [1, 5], [3, 7], [2, 7]] [4, 9, 4, 4]
    [4, 9, 4, 4, 4, 9, 4, 4] 2 (by decide) rfl rfl (.of_perm (by decide +kernel)) 2 (by simp) rfl
    { defaultXOptions 0 with subSample := one, minSample := 0 } _ rfl (Or.inl rfl) (Or.inr (by decide +kernel)) 3 (by decide)
    (by decide +kernel) (by decide) M hM
  refine ⟨M, M', hM, ?_, ?_, h2⟩
  · rw [← h1]
    have e1 : (.fin ((2 : Nat) : ℚ) : Exact ℚ) *. (defaultXOptions 0 : Options (Exact ℚ)).minChildWeight = .fin 6 := by decide +kernel
    have e2 : (.fin ((2 : Nat) : ℚ) : Exact ℚ) *. (defaultXOptions 0 : Options (Exact ℚ)).lambda = .fin 3 := by decide +kernel
    have e3 : (.fin ((2 : Nat) : ℚ) : Exact ℚ) *. (defaultXOptions 0 : Options (Exact ℚ)).gamma = .fin (4 / 10) := by decide +kernel
    simp only [e1, e2, e3]
  · obtain ⟨labels, st, ht, rfl⟩ := newMultiClass_inv hM
    obtain ⟨_, hlab, _⟩ := train_inv ht
    exact hlab

/-- what a tree predicts, if it is made -/
def repTreeAt (X : List (List ℚ)) (g h : List ℚ) (mcw lambda gamma : ℚ) (row : List ℚ) : Go (Exact ℚ) := do
  let t ← newTree GoSort.ins (finRows X) { defaultXTreeOptions with
    minChildWeight := .fin mcw, lambda := .fin lambda, gamma := .fin gamma, gradients := some (g.map .fin),
    hessian := some (h.map .fin) }
  t.predictSingle (row.map .fin)

/-- **C136 (all three have to be multiplied)**: for two rows with gradients 1 and -2, and the same rows twice, the trees
predict different values for the first row if Lambda, MinChildWeight or Gamma is left as it is while the other two are
doubled. -/
theorem C136_weights_needed :
    (repTreeAt [[0], [1]] [1, -2] [1, 1] 1 1 (1 / 10) [0] = .ok (.fin (-1 / 2)) ∧
      repTreeAt [[0], [0], [1], [1]] [1, 1, -2, -2] [1, 1, 1, 1] 2 1 (2 / 10) [0] = .ok (.fin (-2 / 3))) ∧
    (repTreeAt [[0], [1]] [1, -2] [1, 1] 2 1 (1 / 10) [0] = .ok (.fin (1 / 3)) ∧
      repTreeAt [[0], [0], [1], [1]] [1, 1, -2, -2] [1, 1, 1, 1] 2 2 (2 / 10) [0] = .ok (.fin (-1 / 2))) ∧
    (repTreeAt [[0], [1]] [1, -2] [1, 1] 1 1 3 [0] = .ok (.fin (1 / 3)) ∧
      repTreeAt [[0], [0], [1], [1]] [1, 1, -2, -2] [1, 1, 1, 1] 2 2 3 [0] = .ok (.fin (-1 / 2))) := by
  decide +kernel

/-- the hypotheses of `C136_tree` hold for these rows -/
example : ∃ t t', newTree GoSort.ins (finRows [[(0 : ℚ)], [1]]) { defaultXTreeOptions with
      minChildWeight := .fin ((1 : Nat) : ℚ), gamma := .fin (1 / 10), gradients := some [.fin 1, .fin (-2)],
      hessian := some [.fin 1, .fin 1] } = .ok t ∧
    newTree GoSort.ins (finRows [[(0 : ℚ)], [0], [1], [1]]) { defaultXTreeOptions with
      minChildWeight := .fin ((2 : Nat) : ℚ) *. .fin ((1 : Nat) : ℚ), lambda := .fin ((2 : Nat) : ℚ) *. one,
      gamma := .fin ((2 : Nat) : ℚ) *. .fin (1 / 10), gradients := some [.fin 1, .fin 1, .fin (-2), .fin (-2)],
      hessian := some [.fin 1, .fin 1, .fin 1, .fin 1] } = .ok t' ∧
    (∀ row, t'.predictSingle row = t.predictSingle row) ∧ t.branches = 3 := by
  obtain ⟨t, ht, hb⟩ : ∃ t, newTree GoSort.ins (finRows [[(0 : ℚ)], [1]]) { defaultXTreeOptions with
      minChildWeight := .fin ((1 : Nat) : ℚ), gamma := .fin (1 / 10), gradients := some [.fin 1, .fin (-2)],
      hessian := some [.fin 1, .fin 1] } = .ok t ∧ t.branches = 3 := by
    have : ((newTree GoSort.ins (finRows [[(0 : ℚ)], [1]]) { defaultXTreeOptions with
      minChildWeight := .fin ((1 : Nat) : ℚ), gamma := .fin (1 / 10), gradients := some [.fin 1, .fin (-2)],
      hessian := some [.fin 1, .fin 1] }).map fun t => t.branches) = .ok 3 := by decide +kernel
    cases h : newTree GoSort.ins (finRows [[(0 : ℚ)], [1]]) { defaultXTreeOptions with
      minChildWeight := .fin ((1 : Nat) : ℚ), gamma := .fin (1 / 10), gradients := some [.fin 1, .fin (-2)],
      hessian := some [.fin 1, .fin 1] } with
    | error => rw [h] at this; cases this
    | ok t => rw [h] at this; exact ⟨t, rfl, Except.ok.inj this⟩
  obtain ⟨t', h1, h2⟩ := C136_tree GoSort.ins GoSort.ins [[(0 : ℚ)], [1]] [[0], [0], [1], [1]] [.fin 1, .fin (-2)]
    [.fin 1, .fin 1, .fin (-2), .fin (-2)] [.fin 1, .fin 1] [.fin 1, .fin 1, .fin 1, .fin 1] 2 (by decide) rfl rfl rfl rfl
    (.of_perm (by decide +kernel)) 1 (by simp)
    { defaultXTreeOptions with minChildWeight := .fin ((1 : Nat) : ℚ), gamma := .fin (1 / 10) } rfl rfl rfl 1 rfl (by decide) t ht
  exact ⟨t, t', ht, h1, h2, hb⟩

end Boo
