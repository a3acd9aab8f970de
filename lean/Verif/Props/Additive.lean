import Verif.Lemmas.Additive
import Verif.Props.Calibration
import Verif.Props.ErrorRate
import Verif.Props.Memorize

/-!
# C113: with many rounds everything that scores adding up over the columns can separate is learned
-/

namespace Boo
open GoFloat Spec Filter Topology
set_option linter.unusedSectionVars false

/-- A score of label `lab` for a row: the sum over the columns `f` of a function `h lab f` of the number in that column. -/
noncomputable def addScore (h : Int → ℕ → ℝ → ℝ) (lab : Int) (row : List ℝ) : ℝ :=
  ∑ f ∈ Finset.range row.length, h lab f (row.getD f 0)

/-- In every row the score of its own label is more than that of every other label by at least `γ`. -/
def AddSeparates (h : Int → ℕ → ℝ → ℝ) (X : List (List ℝ)) (labels : List Int) (γ : ℝ) : Prop :=
  ∀ (i : Nat) row lab, X[i]? = some row → labels[i]? = some lab → ∀ lab' ∈ labels, lab' ≠ lab →
    addScore h lab' row + γ ≤ addScore h lab row

/-- the sum of the magnitudes of all the terms of the scores -/
noncomputable def addSize (h : Int → ℕ → ℝ → ℝ) (X : List (List ℝ)) (labels : List Int) : ℝ :=
  ((distinctElements labels).map fun lab =>
    (X.map fun row => ∑ f ∈ Finset.range row.length, |h lab f (row.getD f 0)|).sum).sum

theorem list_sum_range {α : Type} (l : List α) (d : α) (g : α → ℝ) : (l.map g).sum = ∑ i ∈ Finset.range l.length, g (l.getD i d) := by
  rw [← list_range_sum]
  congr 1
  apply List.ext_getElem
  · simp
  · intro i h1 h2
    rw [List.length_map] at h1
    simp [List.getD_eq_getElem?_getD, List.getElem?_eq_getElem h1]

theorem finV_inj {a b : List ℝ} (h : (finV a : List (Exact ℝ)) = finV b) : a = b :=
  List.map_injective_iff.2 (fun _ _ h => fin_inj h) h

theorem calBound_mono (n : Nat) (lr : ℝ) {lam gam gam' E : ℝ} (hlam : 0 ≤ lam) (h : gam ≤ gam') :
    calBound n lr lam gam E ≤ calBound n lr lam gam' E := by
  unfold calBound
  have : 0 ≤ (n : ℝ) + lam := by positivity
  gcongr

/-- the probability missing on the right labels after a round in which the loss decreased little -/
theorem missing_core (S : GoSort) (draws : Nat → Exact ℝ) (X : List (List ℝ)) (D : DataBunch (Exact ℝ)) (O : Options (Exact ℝ))
    (lr lam gam w : ℝ) (hF : FitsAll O X D lr lam gam w) (hw : w < 2) (hcols : O.xgb = true → (O.colSubSample <. one) = false)
    (hdep : 1 ≤ O.maxDepth) (c : Nat) (hrect : ∀ row ∈ X, row.length = c) (h : Int → ℕ → ℝ → ℝ) (γ : ℝ)
    (hsep : AddSeparates h X D.labels γ) (M : ℕ → MultiClass (Exact ℝ))
    (hM : ∀ R : ℕ, newMultiClass expR S draws D { O with rounds := R } = .ok (M R)) :
    ∃ (L : ℕ → ℝ) (P : ℕ → ℕ → ℕ → ℝ), (∀ R, (M R).classLabels = distinctElements D.labels) ∧ PredictsAll M D P ∧
      L 0 = D.data.length * Real.log (distinctElements D.labels).length ∧ (∀ R, 0 ≤ L R) ∧ (∀ R, L (R + 1) ≤ L R) ∧
      (∀ R, 0 < R → ∀ i < X.length, P R i (classOf D.labels i) ≤ 1) ∧
      ∀ R E, L R - L (R + 1) ≤ lr * (8 - lr) / 8 * E →
        γ * ∑ i ∈ Finset.range X.length, (1 - P (R + 1) i (classOf D.labels i)) ≤
          2 * calBound X.length lr lam (slackOf O gam) E * addSize h X D.labels := by
  obtain ⟨L, P, c1, c2, c3, c4, c5, c6⟩ := cal_core S draws X D O lr lam gam w hF M hM
  have hXl : X.length = D.data.length := by rw [hF.data]; simp [finRows]
  have hd : X.length = D.labels.length := hXl.trans hF.labels
  have hcs : colSub O = false := by
    unfold colSub
    cases hx : O.xgb with
    | false => simp
    | true => rw [hcols hx]; rfl
  have hrow : rowSub O = false := by
    unfold rowSub
    cases hx : O.xgb with
    | false => simp
    | true => rw [hF.rows hx]; rfl
  obtain ⟨lv, hlv, hlf⟩ := hF.loss
  set m := (distinctElements D.labels).length with hm
  have hprob : ∀ R, 0 < R → ∀ i < X.length, (∀ k < m, 0 ≤ P R i k ∧ P R i k ≤ 1) ∧ ∑ k ∈ Finset.range m, P R i k = 1 := by
    intro R hR i hi
    have hp := c2 R hR i _ (List.getElem?_eq_getElem (by omega : i < D.data.length))
    obtain ⟨probs, e1, e2, e3, _⟩ := C71_real_partial S draws X D hF.data hd { O with rounds := R }
      ⟨⟨lr, hF.lrEq⟩, ⟨lam, hF.lamEq, hF.lam0⟩, ⟨gam, hF.gamEq⟩⟩ hF.base ⟨lv, hlv, Or.inl hlf⟩
      (by
        have hrs : rowSub ({ O with rounds := (R : Int) } : Options (Exact ℝ)) = false := hrow
        rw [hrs]; simp) (M R) (hM R) _ _ hp
    have e4 : probs = (List.range m).map fun k => P R i k := by
      rw [c1] at e1
      have : finV probs = finV ((List.range m).map fun k => P R i k) := by
        rw [← e1]
        unfold finV
        rw [List.map_map]
        rfl
      exact finV_inj this
    subst e4
    refine ⟨fun k hk => ?_, by rw [← list_range_sum]; exact e3⟩
    have := e2 (P R i k) (List.mem_map.2 ⟨k, List.mem_range.2 hk, rfl⟩)
    exact ⟨this.1.le, this.2⟩
  have hcls : ∀ i < X.length, classOf D.labels i < m := by
    intro i hi
    exact (List.getElem?_eq_some_iff.1 (classOf_get (by omega : i < D.labels.length))).1
  refine ⟨L, P, c1, c2, c3, c4, c5, fun R hR i hi => ((hprob R hR i hi).1 _ (hcls i hi)).2, ?_⟩
  intro R E hE
  set dl := fun k => (distinctElements D.labels).getD k 0 with hdl
  have hdk : ∀ k < m, (distinctElements D.labels)[k]? = some (dl k) := by
    intro k hk
    rw [hdl]
    simp [List.getD_eq_getElem?_getD, List.getElem?_eq_getElem hk]
  have hsize : addSize h X D.labels = ∑ k ∈ Finset.range m, ∑ i ∈ Finset.range X.length, ∑ f ∈ Finset.range c, |h (dl k) f (val X i f)| := by
    unfold addSize
    rw [list_sum_range _ 0]
    refine Finset.sum_congr rfl fun k _ => ?_
    rw [list_sum_range _ []]
    refine Finset.sum_congr rfl fun i hi => ?_
    have hin := Finset.mem_range.1 hi
    have : (X.getD i []).length = c := by
      rw [List.getD_eq_getElem?_getD, List.getElem?_eq_getElem hin]
      exact hrect _ (List.getElem_mem hin)
    rw [this]
    rfl
  rw [hsize]
  have hsc : ∀ i < X.length, ∀ k < m, addScore h (dl k) (X.getD i []) = ∑ f ∈ Finset.range c, h (dl k) f (val X i f) := by
    intro i hin k _
    have : (X.getD i []).length = c := by
      rw [List.getD_eq_getElem?_getD, List.getElem?_eq_getElem hin]
      exact hrect _ (List.getElem_mem hin)
    unfold addScore
    rw [this]
    rfl
  refine missing_mass X.length m (classOf D.labels) hcls (P (R + 1)) (fun i k => ∑ f ∈ Finset.range c, h (dl k) f (val X i f))
    (fun i hi k hk => ((hprob (R + 1) (by omega) i hi).1 k hk).1) (fun i hi => (hprob (R + 1) (by omega) i hi).2) γ ?_ _ _ ?_
  · intro i hi k hk hne
    have hil : i < D.labels.length := by omega
    have hci := classOf_get hil
    have hget : X[i]? = some (X.getD i []) := by
      rw [List.getD_eq_getElem?_getD, List.getElem?_eq_getElem hi]
      rfl
    have hlabi : D.labels[i]? = some (dl (classOf D.labels i)) := by
      rw [List.getElem?_eq_getElem hil]
      rw [← hci]
      exact hdk _ (hcls i hi)
    have := hsep i _ _ hget hlabi (dl k) (((C39_distinct D.labels).2.1 _).1 (List.mem_of_getElem? (hdk k hk))) (by
      intro heq
      obtain ⟨a1, a2⟩ := List.getElem?_eq_some_iff.1 (hdk k hk)
      obtain ⟨b1, b2⟩ := List.getElem?_eq_some_iff.1 (hdk _ (hcls i hi))
      exact hne (((C39_distinct D.labels).1.getElem_inj_iff (hi := a1) (hj := b1)).1 (by rw [a2, b2, heq])))
    rw [hsc i hi k hk, hsc i hi _ (hcls i hi)] at this
    exact this
  · intro k hk
    obtain ⟨g1, g2⟩ := c6 R E hE k (dl k) (hdk k hk)
    have conv : ∀ A : List Nat, (∀ i ∈ A, i < X.length) →
        (A.map fun i => (if classOf D.labels i = k then (1 : ℝ) else 0) - P (R + 1) i k).sum =
          -((A.map fun i => P (R + 1) i k).sum - labelCount D.labels A (dl k)) := by
      intro A hA
      rw [labelCount_class (fun i hi => by have := hA i hi; omega) (hdk k hk)]
      clear hA
      induction A with
      | nil => simp
      | cons a A ih =>
        rw [List.map_cons, List.sum_cons, ih, List.map_cons, List.sum_cons, List.filter_cons]
        by_cases hak : classOf D.labels a = k
        · simp [hak]; ring
        · simp [hak]; ring
    refine additive_sum X.length c (fun i f => val X i f) (fun i => (if classOf D.labels i = k then (1 : ℝ) else 0) - P (R + 1) i k) _ ?_ ?_
      (h (dl k))
    · rw [← list_range_sum, conv _ (fun i hi => List.mem_range.1 hi), abs_neg]
      refine g1.trans (calBound_mono _ _ hF.lam0 ?_)
      unfold slackOf
      split
      · exact hF.gam0
      · exact le_rfl
    · intro f hf θ hl hr
      have hfl := list_filter_sum X.length (fun i => val X i f ≤ θ)
        (fun i => (if classOf D.labels i = k then (1 : ℝ) else 0) - P (R + 1) i k)
      rw [← hfl]
      rw [conv _ (fun i hi => List.mem_range.1 (List.mem_filter.1 hi).1), abs_neg]
      obtain ⟨a, ha, ha'⟩ := hl
      obtain ⟨b, hb, hb'⟩ := hr
      have h0 : 0 < X.length := by omega
      refine g2.1 hcs hdep X[0] (List.getElem?_eq_getElem h0) f (by rw [hrect _ (List.getElem_mem h0)]; exact hf) θ ?_ _
        (List.mem_cons_self ..)
      have hw1 : max 1 ⌊w⌋ = 1 := by
        have : ⌊w⌋ < 2 := Int.floor_lt.2 (by exact_mod_cast hw)
        omega
      unfold Admissible
      rw [hw1]
      have h1 : 0 < (leftOf X (List.range X.length) f θ).length :=
        List.length_pos_of_mem (a := a) (List.mem_filter.2 ⟨List.mem_range.2 ha, by simpa using ha'⟩)
      have h2 : 0 < (rightOf X (List.range X.length) f θ).length :=
        List.length_pos_of_mem (a := b) (List.mem_filter.2 ⟨List.mem_range.2 hb, by simpa using hb'⟩)
      omega

/-- What it means that a model has learned the row `row` with label `lab`: it predicts the label, with probability at least `1 - ε`. -/
def Learned (M : MultiClass (Exact ℝ)) (row : List (Exact ℝ)) (lab : Int) (ε : ℝ) : Prop :=
  ∃ (j : Nat) (out : List (Exact ℝ)) (p : ℝ), M.predictSingleClass row = .ok j ∧ M.classLabels[j]? = some lab ∧
    M.predictSingle row = .ok out ∧ out[j]? = some (XF.fin p) ∧ 1 - ε ≤ p

theorem learned_of_missing (S : GoSort) (draws : Nat → Exact ℝ) (X : List (List ℝ)) (D : DataBunch (Exact ℝ)) (O : Options (Exact ℝ))
    (lr lam gam w : ℝ) (hF : FitsAll O X D lr lam gam w) (M : ℕ → MultiClass (Exact ℝ))
    (hM : ∀ R : ℕ, newMultiClass expR S draws D { O with rounds := R } = .ok (M R)) (P : ℕ → ℕ → ℕ → ℝ)
    (hlab : ∀ R, (M R).classLabels = distinctElements D.labels) (hP : PredictsAll M D P) (R : ℕ) (hR : 0 < R)
    (h1 : ∀ i < X.length, P R i (classOf D.labels i) ≤ 1) (δ : ℝ) (hδ : δ < 1 / 2)
    (hsum : ∑ i ∈ Finset.range X.length, (1 - P R i (classOf D.labels i)) ≤ δ) :
    (M R).accuracy D = .ok (.fin 100) ∧ ∀ (i : Nat) row lab, D.data[i]? = some row → D.labels[i]? = some lab → Learned (M R) row lab δ := by
  have hXl : X.length = D.data.length := by rw [hF.data]; simp [finRows]
  have hd : X.length = D.labels.length := hXl.trans hF.labels
  have hrow : rowSub O = false := by
    unfold rowSub
    cases hx : O.xgb with
    | false => simp
    | true => rw [hF.rows hx]; rfl
  obtain ⟨lv, hlv, hlf⟩ := hF.loss
  have hall : ∀ (i : Nat) row lab, D.data[i]? = some row → D.labels[i]? = some lab → Learned (M R) row lab δ := by
    intro i row lab hi hl
    have hin : i < X.length := by rw [hXl]; exact (List.getElem?_eq_some_iff.1 hi).1
    have hil : i < D.labels.length := by omega
    have hci := classOf_get hil
    have hcm := (List.getElem?_eq_some_iff.1 hci).1
    have hp := hP R hR i row hi
    have hk : ((List.range (M R).classLabels.length).map fun k => XF.fin (R := exactR ℝ) (P R i k))[classOf D.labels i]? =
        some (XF.fin (P R i (classOf D.labels i))) := by
      rw [List.getElem?_map, List.getElem?_range (by rw [hlab]; exact hcm)]
      rfl
    have hge : 1 - δ ≤ P R i (classOf D.labels i) := by
      have := Finset.single_le_sum (f := fun i => 1 - P R i (classOf D.labels i)) (s := Finset.range X.length)
        (fun j hj => by have := h1 j (Finset.mem_range.1 hj); linarith) (Finset.mem_range.2 hin)
      linarith
    refine ⟨classOf D.labels i, _, _, ?_, ?_, hp, hk, hge⟩
    · exact C108_row S draws X D hF.data hd { O with rounds := R }
        ⟨⟨lr, hF.lrEq⟩, ⟨lam, hF.lamEq, hF.lam0⟩, ⟨gam, hF.gamEq⟩⟩ hF.base ⟨lv, hlv, Or.inl hlf⟩
        (by
          have hrs : rowSub ({ O with rounds := (R : Int) } : Options (Exact ℝ)) = false := hrow
          rw [hrs]; simp) (M R) (hM R) row _ hp _ _ hk (by linarith)
    · rw [hlab, hci, ← hl, List.getElem?_eq_getElem hil]
  refine ⟨?_, hall⟩
  refine accuracy_of_rows S draws D hF.labels _ (M R) (hM R) ?_
  intro i row lab hi hl
  obtain ⟨j, _, _, h2, h3, _⟩ := hall i row lab hi hl
  exact ⟨j, h2, h3⟩

theorem strict_margin {h : Int → ℕ → ℝ → ℝ} {X : List (List ℝ)} {labels : List Int}
    (hs : ∀ (i : Nat) row lab, X[i]? = some row → labels[i]? = some lab → ∀ lab' ∈ labels, lab' ≠ lab →
      addScore h lab' row < addScore h lab row) : ∃ γ > 0, AddSeparates h X labels γ := by
  have key : ∀ T : List ((List ℝ × Int) × Int), ∃ γ > (0 : ℝ), ∀ t ∈ T, addScore h t.2 t.1.1 < addScore h t.1.2 t.1.1 →
      addScore h t.2 t.1.1 + γ ≤ addScore h t.1.2 t.1.1 := by
    intro T
    induction T with
    | nil => exact ⟨1, one_pos, by simp⟩
    | cons a T ih =>
      obtain ⟨γ, h0, h1⟩ := ih
      by_cases ha : addScore h a.2 a.1.1 < addScore h a.1.2 a.1.1
      · refine ⟨min γ (addScore h a.1.2 a.1.1 - addScore h a.2 a.1.1), lt_min h0 (by linarith), ?_⟩
        intro t ht hlt
        rcases List.mem_cons.1 ht with rfl | ht
        · have := min_le_right γ (addScore h t.1.2 t.1.1 - addScore h t.2 t.1.1)
          linarith
        · have := h1 t ht hlt
          have := min_le_left γ (addScore h a.1.2 a.1.1 - addScore h a.2 a.1.1)
          linarith
      · refine ⟨γ, h0, ?_⟩
        intro t ht hlt
        rcases List.mem_cons.1 ht with rfl | ht
        · exact absurd hlt ha
        · exact h1 t ht hlt
  obtain ⟨γ, h0, h1⟩ := key ((X.zip labels).product labels)
  refine ⟨γ, h0, ?_⟩
  intro i row lab hi hl lab' hm hne
  have hmem : (row, lab) ∈ X.zip labels := by
    refine List.mem_of_getElem? (i := i) ?_
    rw [List.getElem?_zip_eq_some]
    exact ⟨hi, hl⟩
  exact h1 ((row, lab), lab') (List.mem_product.2 ⟨hmem, hm⟩) (hs i row lab hi hl lab' hm hne)

/-- **C113 (small Gamma)**: over the reals, train models with 1, 2, 3, … rounds from the same data, options and generator: squared error, a
learning rate in (0,8), MinChildWeight below 2, no subsampling, no early stopping, trees that may split. If scores that add up over the columns give every
training row its label with margin `γ`, and Gamma is small enough for it (or the boosting regular), all models with enough rounds predict the label of every
training row, and their accuracy on the training data is 100. -/
theorem C113_small_gamma (S : GoSort) (draws : Nat → Exact ℝ) (X : List (List ℝ)) (D : DataBunch (Exact ℝ)) (O : Options (Exact ℝ))
    (lr lam gam w : ℝ) (hF : FitsAll O X D lr lam gam w) (hw : w < 2) (hcols : O.xgb = true → (O.colSubSample <. one) = false)
    (hdep : 1 ≤ O.maxDepth) (c : Nat) (hrect : ∀ row ∈ X, row.length = c) (h : Int → ℕ → ℝ → ℝ) (γ : ℝ) (hγ : 0 < γ)
    (hsep : AddSeparates h X D.labels γ) (ε : ℝ) (hε : ε < 1 / 2)
    (hgam : 2 * (if O.xgb then Real.sqrt ((X.length + lam) * gam) else 0) * addSize h X D.labels < γ * ε) (M : ℕ → MultiClass (Exact ℝ))
    (hM : ∀ R : ℕ, newMultiClass expR S draws D { O with rounds := R } = .ok (M R)) :
    ∃ R0, ∀ R ≥ R0, (M R).accuracy D = .ok (.fin 100) ∧
      ∀ (i : Nat) row lab, D.data[i]? = some row → D.labels[i]? = some lab → Learned (M R) row lab ε := by
  obtain ⟨L, P, c1, c2, _, c4, c5, c6, c7⟩ := missing_core S draws X D O lr lam gam w hF hw hcols hdep c hrect h γ hsep M hM
  have hz := cal_tendsto X.length lr lam (slackOf O gam) c4 c5
  have hs : Real.sqrt ((X.length + lam) * slackOf O gam) = if O.xgb then Real.sqrt ((X.length + lam) * gam) else 0 := by
    unfold slackOf
    cases O.xgb <;> simp
  rw [hs] at hz
  have hz2 := (hz.const_mul 2).mul_const (addSize h X D.labels)
  obtain ⟨R1, hR1⟩ := eventually_atTop.1 (hz2.eventually (ge_mem_nhds hgam))
  refine ⟨R1 + 1, ?_⟩
  intro R hR
  obtain ⟨R', rfl⟩ : ∃ R', R = R' + 1 := ⟨R - 1, by omega⟩
  refine learned_of_missing S draws X D O lr lam gam w hF M hM P c1 c2 (R' + 1) (by omega) (c6 _ (by omega)) ε hε ?_
  have h1 := c7 R' _ (by rw [mul_div_cancel₀ _ (step_pos hF.lr0 hF.lr8).ne'])
  have h2 := h1.trans (hR1 R' (by omega))
  exact le_of_mul_le_mul_left h2 hγ

/-- **C113 (learned in the end)**: and without Gamma (or in regular boosting) it is enough that the score of the right label is the greatest one in every
training row: with enough rounds all models are right on all of the training data, with probabilities as close to 1 as wanted. -/
theorem C113_learns (S : GoSort) (draws : Nat → Exact ℝ) (X : List (List ℝ)) (D : DataBunch (Exact ℝ)) (O : Options (Exact ℝ))
    (lr lam gam w : ℝ) (hF : FitsAll O X D lr lam gam w) (hw : w < 2) (hcols : O.xgb = true → (O.colSubSample <. one) = false)
    (hgam : O.xgb = true → gam = 0) (hdep : 1 ≤ O.maxDepth) (c : Nat) (hrect : ∀ row ∈ X, row.length = c) (h : Int → ℕ → ℝ → ℝ)
    (hsep : ∀ (i : Nat) row lab, X[i]? = some row → D.labels[i]? = some lab → ∀ lab' ∈ D.labels, lab' ≠ lab →
      addScore h lab' row < addScore h lab row) (M : ℕ → MultiClass (Exact ℝ))
    (hM : ∀ R : ℕ, newMultiClass expR S draws D { O with rounds := R } = .ok (M R)) (ε : ℝ) (hε : 0 < ε) :
    ∃ R0, ∀ R ≥ R0, (M R).accuracy D = .ok (.fin 100) ∧
      ∀ (i : Nat) row lab, D.data[i]? = some row → D.labels[i]? = some lab → Learned (M R) row lab ε := by
  obtain ⟨γ, hγ, hs⟩ := strict_margin hsep
  have hz : (if O.xgb then Real.sqrt ((X.length + lam) * gam) else 0) = 0 := by
    cases hx : O.xgb with
    | false => simp
    | true => simp [hgam hx]
  obtain ⟨R0, hR0⟩ := C113_small_gamma S draws X D O lr lam gam w hF hw hcols hdep c hrect h γ hγ hs (min ε (1 / 4))
    (lt_of_le_of_lt (min_le_right _ _) (by norm_num))
    (by
      rw [hz, mul_zero, zero_mul]
      exact mul_pos hγ (lt_min hε (by norm_num))) M hM
  refine ⟨R0, fun R hR => ⟨(hR0 R hR).1, ?_⟩⟩
  intro i row lab hi hl
  obtain ⟨j, out, p, a1, a2, a3, a4, a5⟩ := (hR0 R hR).2 i row lab hi hl
  exact ⟨j, out, p, a1, a2, a3, a4, by have := min_le_left ε (1 / 4 : ℝ); linarith⟩

/-- **C113 (how many rounds)**: with margin `γ`, `R` rounds are enough for one of the first `R` models to be right on all training rows if
`4·H·(√((n+Lambda)·E) + n(exp(2·lr·√E) - 1)) < γ`, where `H` is the sum of the magnitudes of all the terms of the scores and
`E = 8·n·log m/(lr·(8-lr)·R)`. -/
theorem C113_rate (S : GoSort) (draws : Nat → Exact ℝ) (X : List (List ℝ)) (D : DataBunch (Exact ℝ)) (O : Options (Exact ℝ))
    (lr lam gam w : ℝ) (hF : FitsAll O X D lr lam gam w) (hw : w < 2) (hcols : O.xgb = true → (O.colSubSample <. one) = false)
    (hgam : O.xgb = true → gam = 0) (hdep : 1 ≤ O.maxDepth) (c : Nat) (hrect : ∀ row ∈ X, row.length = c) (h : Int → ℕ → ℝ → ℝ)
    (γ : ℝ) (hγ : 0 < γ) (hsep : AddSeparates h X D.labels γ) (M : ℕ → MultiClass (Exact ℝ))
    (hM : ∀ R : ℕ, newMultiClass expR S draws D { O with rounds := R } = .ok (M R)) (R : ℕ) (hR : 0 < R) (E : ℝ)
    (hE : E = 8 * D.data.length * Real.log (M R).classLabels.length / (lr * (8 - lr) * R))
    (hsmall : 4 * addSize h X D.labels *
      (Real.sqrt ((D.data.length + lam) * E) + D.data.length * (Real.exp (2 * (lr * Real.sqrt E)) - 1)) < γ) :
    ∃ r, 0 < r ∧ r ≤ R ∧ (M r).accuracy D = .ok (.fin 100) ∧
      ∀ (i : Nat) row lab, D.data[i]? = some row → D.labels[i]? = some lab → Learned (M r) row lab (1 / 2) := by
  obtain ⟨L, P, c1, c2, c3, c4, c5, c6, c7⟩ := missing_core S draws X D O lr lam gam w hF hw hcols hdep c hrect h γ hsep M hM
  have hXl : X.length = D.data.length := by rw [hF.data]; simp [finRows]
  have hR0 : (0 : ℝ) < R := by exact_mod_cast hR
  have h8 : 0 < 8 - lr := by linarith [hF.lr8]
  have hlr := hF.lr0
  obtain ⟨r, hr, hle⟩ := small_step L c4 R hR
  have hsl : slackOf O gam = 0 := by
    unfold slackOf
    cases hx : O.xgb with
    | false => simp
    | true => simp [hgam hx]
  have h1 := c7 r E (by
    rw [hE, c1]
    rw [c3] at hle
    refine hle.trans (le_of_eq ?_)
    field_simp)
  rw [hsl] at h1
  unfold calBound at h1
  rw [add_zero, hXl] at h1
  set B := Real.sqrt ((D.data.length + lam) * E) + D.data.length * (Real.exp (2 * (lr * Real.sqrt E)) - 1) with hB
  have h2 : ∑ i ∈ Finset.range D.data.length, (1 - P (r + 1) i (classOf D.labels i)) ≤ 2 * B * addSize h X D.labels / γ := by
    rw [le_div_iff₀ hγ, mul_comm]
    exact h1
  obtain ⟨a1, a2⟩ := learned_of_missing S draws X D O lr lam gam w hF M hM P c1 c2 (r + 1) (by omega) (c6 _ (by omega))
    (2 * B * addSize h X D.labels / γ) (by
      rw [div_lt_iff₀ hγ]
      linarith) (by rw [hXl]; exact h2)
  refine ⟨r + 1, by omega, by omega, a1, ?_⟩
  intro i row lab hi hl
  obtain ⟨j, out, p, b1, b2, b3, b4, b5⟩ := a2 i row lab hi hl
  refine ⟨j, out, p, b1, b2, b3, b4, ?_⟩
  have : 2 * B * addSize h X D.labels / γ < 1 / 2 := by
    rw [div_lt_iff₀ hγ]
    linarith
  linarith

/-! Non-vacuity of C113: the conjunction of two columns, which no single column separates. -/

def andX : List (List ℝ) := [[0, 0], [0, 1], [1, 0], [1, 1]]
def andData : DataBunch (Exact ℝ) := ⟨finRows andX, [], [0, 0, 0, 1], []⟩

/-- the score of label 1 is the sum of the columns minus 3/2, that of label 0 is 0 -/
noncomputable def andScore (lab : Int) (f : ℕ) (x : ℝ) : ℝ := if lab = 1 then (if f = 0 then x - 3 / 2 else x) else 0

theorem andData_fits : FitsAll calOptions andX andData (3/10) (15/10) 0 0 := by
  refine ⟨rfl, rfl, ?_, by norm_num, by norm_num, ?_, by norm_num, ?_, le_rfl, ⟨_, rfl⟩, rfl, by norm_num, fun _ => ?_, ?_, ?_, ⟨_, rfl, rfl⟩⟩ <;>
    simp [calOptions, keepRows, defaultXOptions]

theorem andData_all : ∃ M : ℕ → MultiClass (Exact ℝ), ∀ R : ℕ,
    newMultiClass expR GoSort.ins (fun _ => .fin 0) andData { calOptions with rounds := R } = .ok (M R) := by
  have h : ∀ R : ℕ, ∃ M, newMultiClass expR GoSort.ins (fun _ => .fin 0) andData { calOptions with rounds := R } = .ok M := by
    intro R
    have hr : rowSub ({ calOptions with rounds := R } : Options (Exact ℝ)) = false := by simp [rowSub, calOptions, keepRows]
    exact C22_returns expR GoSort.ins (fun _ => .fin 0) andData { calOptions with rounds := R }
      ⟨by simp [andData, andX, finRows], ⟨2, by simp [andData, andX, finRows]⟩, finRows_noNaN _, finRows_midSafe _⟩ rfl _ rfl
      sqErrLoss_regular (by
        unfold CapOk
        simp [rowSub, colSub, calOptions, keepRows]) (by rw [hr]; simp)
  choose M hM using h
  exact ⟨M, hM⟩

theorem andScore_separates : AddSeparates andScore andX andData.labels (1 / 2) := by
  intro i row lab hi hl lab' hm hne
  match i with
  | 0 | 1 | 2 | 3 =>
    simp only [andX, andData, List.getElem?_cons_zero, List.getElem?_cons_succ, Option.some.injEq] at hi hl
    subst hi hl
    simp only [andData, List.mem_cons, List.not_mem_nil, or_false] at hm
    rcases hm with rfl | rfl | rfl | rfl <;>
      first
      | exact absurd rfl hne
      | (simp [addScore, andScore, Finset.sum_range_succ]; done)
      | (simp [addScore, andScore, Finset.sum_range_succ]; norm_num)
  | n + 4 => simp [andX] at hi

example : ∃ M : ℕ → MultiClass (Exact ℝ), ∃ R0, ∀ R ≥ R0, (M R).accuracy andData = .ok (.fin 100) ∧
    ∀ (i : Nat) row lab, andData.data[i]? = some row → andData.labels[i]? = some lab → Learned (M R) row lab (1 / 1000) := by
  obtain ⟨M, hM⟩ := andData_all
  refine ⟨M, C113_learns _ _ _ _ _ _ _ _ _ andData_fits (by norm_num) (fun _ => by simp [calOptions, keepRows]) (fun _ => rfl)
    (by simp [calOptions, keepRows, defaultXOptions]) 2 (by simp [andX]) andScore ?_ M hM (1 / 1000) (by norm_num)⟩
  intro i row lab hi hl lab' hm hne
  have := andScore_separates i row lab hi hl lab' hm hne
  linarith

end Boo
