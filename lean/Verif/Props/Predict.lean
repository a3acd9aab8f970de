import Verif.Props.Loss
import Verif.Props.Options
import Verif.Props.Math
import Verif.Model.MultiClass

/-!
# C23, C25, C26: predicting a class, accuracy, subsampling
-/

namespace Boo
open GoFloat
set_option linter.unusedSectionVars false
variable {F : Type} [GoFloat F]

/-! ### C23 -/

/-- `j` is the smallest index of a maximal entry of `l`: no entry is larger and every earlier one is smaller
("not at least as large" for NaN entries, which compare false). -/
def FirstMax (l : List F) (j : Nat) : Prop :=
  ∃ m, l[j]? = some m ∧ (∀ (i : Nat) v, l[i]? = some v → (m <. v) = false) ∧
    ∀ (i : Nat) v, i < j → l[i]? = some v → (m <=. v) = false

theorem argmaxLoop_spec [GoFloatOrd F] (done rest : List F) (p : Nat) (m : F)
    (h1 : (done ++ rest)[p]? = some m) (hp : p ≤ done.length)
    (h2 : ∀ (i : Nat) v, i < done.length → (done ++ rest)[i]? = some v → (m <. v) = false)
    (h3 : ∀ (i : Nat) v, i < p → (done ++ rest)[i]? = some v → (m <=. v) = false) :
    FirstMax (done ++ rest) (argmaxLoop rest done.length p m) := by
  induction rest generalizing done p m with
  | nil =>
    refine ⟨m, h1, ?_, h3⟩
    intro i v hv
    refine h2 i v ?_ hv
    have := (List.getElem?_eq_some_iff.1 hv).1
    simpa using this
  | cons x rest ih =>
    unfold argmaxLoop
    have happ : done ++ x :: rest = (done ++ [x]) ++ rest := by simp
    have hlen : (done ++ [x]).length = done.length + 1 := by simp
    have hx : (done ++ x :: rest)[done.length]? = some x := by simp
    cases hg : gt x m with
    | true =>
      simp only [if_true]
      have hlt : (m <. x) = true := hg
      have key := ih (done ++ [x]) done.length x (by rw [← happ]; exact hx) (by simp) (by
        intro i v hi hv
        rw [← happ] at hv
        by_cases hid : i = done.length
        · subst hid; rw [hx] at hv; cases hv; exact GoFloatOrd.lt_irrefl _
        · cases hq : (x <. v) with
          | false => rfl
          | true =>
            have := GoFloatOrd.lt_trans _ _ _ hlt hq
            rw [h2 i v (by omega) hv] at this; cases this) (by
        intro i v hi hv
        rw [← happ] at hv
        cases hq : (x <=. v) with
        | false => rfl
        | true =>
          have : (m <. v) = true := by
            rw [GoFloatOrd.le_iff, Bool.or_eq_true] at hq
            rcases hq with hq | hq
            · exact GoFloatOrd.lt_trans _ _ _ hlt hq
            · exact GoFloatOrd.lt_eq _ _ _ hlt hq
          rw [h2 i v hi hv] at this; cases this)
      rw [happ]
      rw [hlen] at key
      exact key
    | false =>
      simp only [Bool.false_eq_true, if_false]
      have hnlt : (m <. x) = false := hg
      have key := ih (done ++ [x]) p m (by rw [← happ]; exact h1) (by rw [hlen]; omega) (by
        intro i v hi hv
        rw [← happ] at hv
        by_cases hid : i = done.length
        · subst hid; rw [hx] at hv; cases hv; exact hnlt
        · exact h2 i v (by omega) hv) (by rw [← happ]; exact h3)
      rw [happ]
      rw [hlen] at key
      exact key

theorem argmaxFirst_spec [GoFloatOrd F] (l : List F) (j : Nat) (h : argmaxFirst l = .ok j) : FirstMax l j := by
  cases l with
  | nil => simp [argmaxFirst, goIdx, bind, Except.bind] at h
  | cons x l =>
    have : argmaxFirst (x :: l) = .ok (argmaxLoop (x :: l) 0 0 x) := rfl
    rw [this] at h
    cases h
    have := argmaxLoop_spec [] (x :: l) 0 x (by simp) (by simp) (by simp) (by simp)
    simpa using this

theorem argmaxFirst_ok (l : List F) (h : l ≠ []) : ∃ j, argmaxFirst l = .ok j := by
  cases l with
  | nil => exact absurd rfl h
  | cons x l => exact ⟨_, rfl⟩

/-- the first maximum is unique -/
theorem FirstMax.unique [GoFloatOrd F] {l : List F} {j k : Nat} (hn : ∀ v ∈ l, (v ==. v) = true)
    (h : FirstMax l j) (h' : FirstMax l k) : j = k := by
  obtain ⟨m, a1, a2, a3⟩ := h
  obtain ⟨m', b1, b2, b3⟩ := h'
  have hm := hn m (List.mem_of_getElem? a1)
  have hm' := hn m' (List.mem_of_getElem? b1)
  rcases Nat.lt_trichotomy j k with h | h | h
  · have h1 := b3 j m h a1
    have h2 := a2 k m' b1
    exact absurd (fle_of_not_lt hm' hm h2) (by rw [h1]; simp)
  · exact h
  · have h1 := a3 k m' h b1
    have h2 := b2 j m a1
    exact absurd (fle_of_not_lt hm hm' h2) (by rw [h1]; simp)

/-- **C23 (probabilities)**: `PredictSingleClass` returns the smallest index of a maximal probability. Any IEEE
arithmetic, any model. -/
theorem C23_first_most_probable [GoFloatOrd F] (M : MultiClass F) (row : List F) (j : Nat)
    (h : M.predictSingleClass row = .ok j) :
    ∃ probs, M.predictSingle row = .ok probs ∧ FirstMax probs j := by
  unfold MultiClass.predictSingleClass at h
  cases hp : M.predictSingle row with
  | error e => simp [hp, bind, Except.bind] at h
  | ok probs =>
    simp only [hp, bind, Except.bind] at h
    exact ⟨probs, rfl, argmaxFirst_spec probs j h⟩

/-- The same for `ClassesFromProbs`. -/
theorem C23_classesFromProbs [GoFloatOrd F] (p C : Dense F) (h : classesFromProbs p = .ok C) :
    C.r = p.r ∧ C.c = 1 ∧ ∀ i < p.r, ∃ j, FirstMax (p.row i) j ∧ C.at? i 0 = some (ofInt (j : Int)) := by
  unfold classesFromProbs at h
  cases hm : (List.range p.r).mapM (fun i => do
    let m ← argmaxFirst (p.row i)
    pure (ofInt (m : Int) : F)) with
  | error e => rw [hm] at h; simp [bind, Except.bind] at h
  | ok col =>
    rw [hm] at h
    simp only [bind, Except.bind, newDense] at h
    split at h
    · cases h
    · cases h
      refine ⟨rfl, rfl, ?_⟩
      intro i hi
      rcases forall2_get (mapM_ok.1 hm) i with ⟨a, b, ha, hb, hab⟩ | ⟨hn, _⟩
      · rw [List.getElem?_range hi] at ha
        cases ha
        cases hj : argmaxFirst (p.row i) with
        | error e => rw [hj] at hab; simp [bind, Except.bind] at hab
        | ok j =>
          rw [hj] at hab
          simp only [bind, Except.bind, pure, Except.pure, Except.ok.injEq] at hab
          refine ⟨j, argmaxFirst_spec _ _ hj, ?_⟩
          rw [Dense.at?_eq (D := ⟨p.r, 1, col⟩) hi (by simp)]
          simp [hb, hab]
      · rw [List.getElem?_eq_none_iff, List.length_range] at hn; omega

/-- how `PredictSingle` turns raw scores into probabilities when the transformation is `SoftMaxDense` -/
theorem predictSingle_softmax (exp : F → F) (M : MultiClass F) (hM : M.probTransform = some (softMaxDense exp))
    (row raw : List F) (hr : M.rawScores row = .ok raw) (hne : raw ≠ []) :
    M.predictSingle row = softMax exp raw none := by
  unfold MultiClass.predictSingle
  have hl : 0 < raw.length := List.length_pos_iff.2 hne
  have e1 : newDense 1 raw.length raw = .ok ⟨1, raw.length, raw⟩ := by
    unfold newDense; rw [if_neg (by omega)]
  have e2 : newDense 1 raw.length (raw.map fun _ => (zero : F)) = .ok ⟨1, raw.length, raw.map fun _ => zero⟩ := by
    unfold newDense; rw [if_neg (by simp; omega)]
  obtain ⟨P, h1, h2, h3, h4, h5⟩ := C24_dense exp ⟨1, raw.length, raw⟩ (by simp)
    (some ⟨1, raw.length, raw.map fun _ => zero⟩) (by rintro d hd; cases hd; simp)
  have hP : P.row 0 = P.data := by
    unfold Dense.row
    rw [Nat.zero_mul, List.drop_zero, List.take_of_length_le]
    rw [h4, h2, h3]; simp
  have hO : (⟨1, raw.length, raw⟩ : Dense F).row 0 = raw := by
    unfold Dense.row; simp
  have h6 := h5 0 (by simp)
  rw [hO, hP] at h6
  simp only [hr, bind, Except.bind, e1, e2, hM, h1, pure, Except.pure]
  exact h6.symm

/-- **C23 (raw scores)**: in exact real arithmetic the class returned is also the smallest index of a maximal raw
score. -/
theorem C23_raw_scores (M : MultiClass (Exact ℝ)) (hM : M.probTransform = some (softMaxDense expR))
    (row : List (Exact ℝ)) (raw : List ℝ) (hr : M.rawScores row = .ok (finV raw)) (hne : raw ≠ []) :
    ∃ j, M.predictSingleClass row = .ok j ∧ FirstMax (finV raw) j := by
  have hne' : finV raw ≠ [] := by simpa [finV] using hne
  obtain ⟨q, h1, h2, _, _, h5⟩ := C24_distribution raw hne
  have hp : M.predictSingle row = .ok (finV q) := by
    rw [predictSingle_softmax expR M hM row _ hr hne', h1]
  have hq : finV q ≠ [] := by
    intro h
    have : q = [] := by simpa [finV] using h
    rw [this] at h2
    exact hne (List.length_eq_zero_iff.1 h2.symm)
  obtain ⟨j, hj⟩ := argmaxFirst_ok (finV q) hq
  have hj' : M.predictSingleClass row = .ok j := by
    unfold MultiClass.predictSingleClass
    simp only [hp, bind, Except.bind, hj]
  refine ⟨j, hj', ?_⟩
  obtain ⟨m, a1, a2, a3⟩ := argmaxFirst_spec _ _ hj
  obtain ⟨x, hx, rfl⟩ : ∃ x, q[j]? = some x ∧ XF.fin x = m := by
    simpa [finV, List.getElem?_map] using a1
  have hjl : j < raw.length := by rw [← h2]; exact (List.getElem?_eq_some_iff.1 hx).1
  have conv : ∀ (i : Nat) v, (finV raw)[i]? = some v → ∃ a y, raw[i]? = some a ∧ v = XF.fin a ∧ q[i]? = some y ∧
      (finV q)[i]? = some (XF.fin y) := by
    intro i v hv
    obtain ⟨a, ha, rfl⟩ : ∃ a, raw[i]? = some a ∧ XF.fin a = v := by
      simpa [finV, List.getElem?_map] using hv
    have hil : i < q.length := by rw [h2]; exact (List.getElem?_eq_some_iff.1 ha).1
    exact ⟨a, q[i], ha, rfl, List.getElem?_eq_getElem hil, by simp [finV, hil]⟩
  have hjr : raw[j]? = some raw[j] := List.getElem?_eq_getElem hjl
  refine ⟨.fin raw[j], by simp [finV, hjl], ?_, ?_⟩
  · intro i v hv
    obtain ⟨a, y, ha, rfl, hy, hqy⟩ := conv i v hv
    have := a2 i _ hqy
    rw [XF.fin_lt] at this ⊢
    simp only [decide_eq_false_iff_not] at this ⊢
    rwa [h5 j i raw[j] a x y hjr ha hx hy]
  · intro i v hij hv
    obtain ⟨a, y, ha, rfl, hy, hqy⟩ := conv i v hv
    have := a3 i _ hij hqy
    rw [XF.fin_le] at this ⊢
    simp only [decide_eq_false_iff_not, not_le] at this ⊢
    exact (h5 i j a raw[j] y x ha hjr hy hx).2 this

/-- a leaf with the given value -/
def leafOf (v : F64) : Tree F64 :=
  .node ⟨[0], zero, v, 1, 1, 0, zero, true, 1⟩ .nil .nil

/-- a model whose raw scores are 1000 and 2000 for every row -/
def overflowModel (exp : F64 → F64) : MultiClass F64 :=
  { b := [[leafOf (.fin 1000), leafOf (.fin 2000)]], learningRate := one, classLabels := [7, 8],
    probTransform := some (softMaxDense exp), baseScore := zero, xgb := true }

/-- **C23, raw-score part violated by overflow in float64**: raw scores 1000 and 2000 (where `exp` overflows) give
class 0, although class 1 has the larger raw score. -/
theorem C23_violated_overflow (exp : F64 → F64) (h1 : exp (.fin 1000) = .inf false)
    (h2 : exp (.fin 2000) = .inf false) :
    (overflowModel exp).rawScores [.fin 0] = .ok [.fin 1000, .fin 2000] ∧
    (overflowModel exp).predictSingleClass [.fin 0] = .ok 0 := by
  have hr : (overflowModel exp).rawScores [.fin 0] = .ok [.fin 1000, .fin 2000] := by
    have : ∀ p, ({ overflowModel exp with probTransform := p } : MultiClass F64).rawScores [.fin 0] =
      ({ overflowModel exp with probTransform := none } : MultiClass F64).rawScores [.fin 0] := fun _ => rfl
    refine (this _).trans ?_
    show ({ overflowModel (fun x => x) with probTransform := none } : MultiClass F64).rawScores [.fin 0] = _
    decide +kernel
  refine ⟨hr, ?_⟩
  unfold MultiClass.predictSingleClass
  rw [predictSingle_softmax exp _ rfl _ _ hr (by simp)]
  unfold softMax
  simp only [List.map_cons, List.map_nil, h1, h2]
  decide +kernel

/-! ### C25 -/

/-- number of rows whose predicted label is the given one -/
def rightCount (M : MultiClass F) (preds : List Nat) (labels : List Int) : Nat :=
  ((preds.zip labels).filter fun p => M.classLabels[p.1]? = some p.2).length

theorem countRight_spec (M : MultiClass F) (data : List (List F)) (pre labels : List Int) (preds : List Nat) (r : Nat)
    (hp : data.mapM M.predictSingleClass = .ok preds) (hc : ∀ p ∈ preds, p < M.classLabels.length)
    (hl : labels.length = data.length) :
    M.countRight (pre ++ labels) data pre.length r = .ok (r + rightCount M preds labels) := by
  induction data generalizing pre labels preds r with
  | nil =>
    cases labels with
    | nil => simp [MultiClass.countRight, rightCount]
    | cons => simp at hl
  | cons v data ih =>
    cases labels with
    | nil => simp at hl
    | cons lab labels =>
      cases mapM_ok.1 hp with
      | @cons _ p _ preds hv hrest =>
        have hpc := hc p (by simp)
        have ih' := ih (pre ++ [lab]) labels preds
          (if M.classLabels[p] = lab then r + 1 else r)
          (mapM_ok.2 hrest) (fun q hq => hc q (by simp [hq])) (by simpa using hl)
        unfold MultiClass.countRight
        have e1 : goIdx M.classLabels p = .ok M.classLabels[p] := goIdx_ok.2 (List.getElem?_eq_getElem hpc)
        have e2 : goIdx (pre ++ lab :: labels) pre.length = .ok lab := goIdx_ok.2 (by simp)
        simp only [hv, bind, Except.bind, e1, e2]
        rw [show pre ++ lab :: labels = (pre ++ [lab]) ++ labels by simp,
          show pre.length + 1 = (pre ++ [lab]).length by simp, ih']
        congr 1
        unfold rightCount
        rw [List.zip_cons_cons, List.filter_cons]
        by_cases he : M.classLabels[p] = lab
        · rw [if_pos he, if_pos (by simp [List.getElem?_eq_getElem hpc, he])]
          simp; omega
        · rw [if_neg he, if_neg (by simp [List.getElem?_eq_getElem hpc, he])]

/-- **C25 (any arithmetic)**: when every row can be predicted and there is a label for each, `Accuracy` is
`100 * (right / total)` with `right` the number of rows whose predicted label equals the given one. -/
theorem C25_accuracy (M : MultiClass F) (D : DataBunch F) (preds : List Nat)
    (hp : D.data.mapM M.predictSingleClass = .ok preds) (hc : ∀ p ∈ preds, p < M.classLabels.length)
    (hl : D.labels.length = D.data.length) :
    M.accuracy D = .ok (ofRat 100 *. (ofInt (rightCount M preds D.labels : Nat) /. ofInt D.data.length)) := by
  unfold MultiClass.accuracy
  have := countRight_spec M D.data [] D.labels preds 0 hp hc hl
  rw [List.nil_append, List.length_nil, Nat.zero_add] at this
  simp only [this, bind, Except.bind, pure, Except.pure]

theorem rightCount_le (M : MultiClass F) (preds : List Nat) (labels : List Int) :
    rightCount M preds labels ≤ labels.length := by
  unfold rightCount
  refine le_trans (List.length_filter_le _ _) ?_
  rw [List.length_zip]; omega

theorem rightCount_eq_iff (M : MultiClass F) (preds : List Nat) (labels : List Int) (h : preds.length = labels.length) :
    rightCount M preds labels = labels.length ↔
      ∀ (i : Nat) p lab, preds[i]? = some p → labels[i]? = some lab → M.classLabels[p]? = some lab := by
  have hz : labels.length = (preds.zip labels).length := by rw [List.length_zip]; omega
  unfold rightCount
  rw [hz, List.length_filter_eq_length_iff]
  constructor
  · intro hall i p lab h1 h2
    have := hall (p, lab) (List.mem_of_getElem? (i := i) (by rw [List.getElem?_zip_eq_some]; exact ⟨h1, h2⟩))
    simpa using this
  · intro hall q hq
    obtain ⟨i, hi⟩ := List.mem_iff_getElem?.1 hq
    rw [List.getElem?_zip_eq_some] at hi
    simpa using hall i q.1 q.2 hi.1 hi.2

/-- **C25**: exact arithmetic: for a non-empty labelled data set, `Accuracy` is the percentage of correctly labelled
rows, lies in [0,100], and is 100 exactly when every row is right. -/
theorem C25_percentage {K : Type} [Field K] [LinearOrder K] [IsStrictOrderedRing K] [FloorRing K]
    (M : MultiClass (Exact K)) (D : DataBunch (Exact K)) (preds : List Nat) (hne : D.data ≠ [])
    (hp : D.data.mapM M.predictSingleClass = .ok preds) (hc : ∀ p ∈ preds, p < M.classLabels.length)
    (hl : D.labels.length = D.data.length) :
    ∃ a : K, M.accuracy D = .ok (.fin a) ∧ a = 100 * (rightCount M preds D.labels : K) / D.data.length ∧
      0 ≤ a ∧ a ≤ 100 ∧
      (a = 100 ↔ ∀ (i : Nat) p lab, preds[i]? = some p → D.labels[i]? = some lab → M.classLabels[p]? = some lab) := by
  have hn : (0 : K) < D.data.length := by
    have : 0 < D.data.length := List.length_pos_iff.2 hne
    exact_mod_cast this
  have hle : (rightCount M preds D.labels : K) ≤ D.data.length := by
    rw [← hl]; exact_mod_cast rightCount_le M preds D.labels
  have h0 : (0 : K) ≤ rightCount M preds D.labels := Nat.cast_nonneg _
  refine ⟨100 * (rightCount M preds D.labels : K) / D.data.length, ?_, rfl, ?_, ?_, ?_⟩
  · rw [C25_accuracy M D preds hp hc hl, Exact.ofInt_fin, Exact.ofInt_fin, Exact.ofRat_fin]
    have e1 : ((((rightCount M preds D.labels : Nat) : Int) : Rat) : K) = (rightCount M preds D.labels : K) := by
      push_cast; rfl
    have e2 : (((D.data.length : Int) : Rat) : K) = (D.data.length : K) := by push_cast; rfl
    rw [e1, e2, Exact.div_fin _ _ hn.ne', Exact.mul_fin]
    congr 2
    push_cast
    rw [mul_div_assoc]
  · exact div_nonneg (mul_nonneg (by norm_num) h0) hn.le
  · rw [div_le_iff₀ hn]; nlinarith
  · rw [← rightCount_eq_iff M preds D.labels (by rw [hl]; exact (mapM_ok.1 hp).length_eq.symm), div_eq_iff hn.ne', hl]
    constructor
    · intro h
      have : (rightCount M preds D.labels : K) = D.data.length := by linarith
      exact_mod_cast this
    · intro h
      rw [h]

/-- a model that always predicts class 1 on two labelled rows: hypotheses hold, accuracy 50 -/
def constModel : MultiClass (Exact ℚ) :=
  { b := [[.node ⟨[0], zero, .fin 1, 1, 1, 0, zero, true, 1⟩ .nil .nil,
           .node ⟨[0], zero, .fin 2, 1, 1, 0, zero, true, 1⟩ .nil .nil]],
    learningRate := one, classLabels := [7, 8], probTransform := some (normalizationDense),
    baseScore := zero, xgb := true }
example : ([[.fin 0], [.fin 1]] : List (List (Exact ℚ))).mapM constModel.predictSingleClass = .ok [1, 1] ∧
    constModel.accuracy ⟨[[.fin 0], [.fin 1]], [], [8, 7], []⟩ = .ok (.fin 50) := by
  constructor <;> decide +kernel

/-! ### C26 -/

/-- **C26**: `SubSample` returns a strictly increasing list of indexes below `n`, containing `i` exactly when the i-th
draw is at most `s`. Any arithmetic. -/
theorem C26_subSample (n : Nat) (s : F) (draws : Nat → F) (l : List Nat) (h : subSample n s draws = .ok l) :
    l.Pairwise (· < ·) ∧ ∀ i, i ∈ l ↔ i < n ∧ (draws i <=. s) = true := by
  unfold subSample at h
  split at h
  · cases h
  · cases h
    refine ⟨List.Pairwise.filter _ (List.pairwise_lt_range), ?_⟩
    intro i
    rw [List.mem_filter, List.mem_range]
    rfl

/-- **C26 (whole sample)**: for `s ≥ 1` (draws are in [0,1)) all indexes are returned. -/
theorem C26_all [GoFloatOrd F] (n : Nat) (s : F) (draws : Nat → F) (l : List Nat) (h : subSample n s draws = .ok l)
    (hs : (one <=. s) = true) (hd : ∀ i, (draws i <. one) = true) : l = List.range n := by
  unfold subSample at h
  split at h
  · cases h
  · cases h
    rw [List.filter_eq_self]
    intro i _
    show (draws i <=. s) = true
    rw [GoFloatOrd.le_iff, Bool.or_eq_true]; exact Or.inl (flt_of_lt_of_le (hd i) hs)

theorem subSample_ok_exact {K : Type} [Field K] [LinearOrder K] [IsStrictOrderedRing K] [FloorRing K]
    (n : Nat) (s : K) (hs : 0 ≤ s) (hn : n * s < 2 ^ 63) (draws : Nat → Exact K) : ∃ l, subSample n (.fin s) draws = .ok l := by
  unfold subSample
  rw [if_neg]
  · exact ⟨_, rfl⟩
  · rw [Exact.ofInt_fin, Exact.mul_fin]
    have h0 : (0 : K) ≤ (((n : Int) : Rat) : K) * s := by
      refine mul_nonneg ?_ hs
      push_cast
      exact Nat.cast_nonneg n
    have : (0 : Int) ≤ toInt (.fin ((((n : Int) : Rat) : K) * s) : Exact K) := by
      rw [XF.toInt_floor h0 (by push_cast; exact hn)]
      exact Int.floor_nonneg.2 h0
    omega

/-- **C26 (no panic)**: for every `s ≥ 0` such that `n s` is an int64 `SubSample` returns. Exact arithmetic. -/
theorem C26_returns_partial {K : Type} [Field K] [LinearOrder K] [IsStrictOrderedRing K] [FloorRing K]
    (n : Nat) (s : K) (hs : 0 ≤ s) (hn : n * s < 2 ^ 63) (draws : Nat → Exact K) :
    ∃ l, subSample n (.fin s) draws = .ok l ∧ l.Pairwise (· < ·) ∧
      ∀ i, i ∈ l ↔ i < n ∧ (draws i <=. .fin s) = true := by
  obtain ⟨l, h⟩ := subSample_ok_exact n s hs hn draws
  exact ⟨l, h, C26_subSample n _ draws l h⟩

/-- **C26 is violated for negative `s`** (not a probability): the capacity passed to `make` is negative, so
`SubSample(2, -1)` panics instead of returning an empty list. -/
theorem C26_violated_negative (draws : Nat → F64) : subSample 2 (.fin (-1)) draws = .error .slice := by
  unfold subSample
  rw [if_pos (by decide +kernel)]

example : subSample 3 (.fin (1/2) : F64) (fun i => if i = 1 then .fin (3/4) else .fin (1/4)) = .ok [0, 2] := by
  decide +kernel

end Boo
