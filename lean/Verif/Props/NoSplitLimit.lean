import Verif.Props.NoSplit
import Verif.Props.DeepLimit

/-!
# C147: a model without splits learns how frequent the labels are
-/

namespace Boo
open GoFloat Spec Filter Topology
set_option linter.unusedSectionVars false

/-- `NoSplitData` says nothing about the number of rounds -/
theorem NoSplitData.rounds {D : DataBunch (Exact ℝ)} {O : Options (Exact ℝ)} (h : NoSplitData D O) (R : Int) :
    NoSplitData D { O with rounds := R } := h

/-- **C147 (frequencies)**: over the reals, train models with 1, 2, 3, … rounds from data and options that leave no split. They predict
for every row the same probabilities, which tend to the shares of the labels in the training data. -/
theorem C147_frequencies (S : GoSort) (draws : Nat → Exact ℝ) (X : List (List ℝ)) (D : DataBunch (Exact ℝ)) (O : Options (Exact ℝ))
    (lr lam gam w : ℝ) (hF : FitsAll O X D lr lam gam w) (hn : NoSplitData D O) (M : ℕ → MultiClass (Exact ℝ))
    (hM : ∀ R : ℕ, newMultiClass expR S draws D { O with rounds := R } = .ok (M R)) :
    ∃ Q : ℕ → ℕ → ℝ,
      (∀ R > 0, ∀ row, (M R).predictSingle row = .ok ((List.range (M R).classLabels.length).map fun k => XF.fin (Q R k))) ∧
      ∀ lab ∈ D.labels, ∃ k, (∀ R, (M R).classLabels[k]? = some lab) ∧
        Tendsto (fun R => Q R k) atTop (𝓝 (D.labels.count lab / D.data.length)) := by
  obtain ⟨P, hP, hlim⟩ := C112_frequencies S draws X D O lr lam gam w hF M hM
  have hdne : 0 < D.data.length := by
    obtain ⟨labels, st, ht, _⟩ := newMultiClass_inv (hM 0)
    have := (train_inv ht).1
    rw [hF.labels]
    exact List.length_pos_iff.2 this
  have hrow0 : D.data[0]? = some D.data[0] := List.getElem?_eq_getElem hdne
  have hall : ∀ R > 0, ∀ row, (M R).predictSingle row = .ok ((List.range (M R).classLabels.length).map fun k => XF.fin (P R 0 k)) := by
    intro R hR row
    rw [((C146_model expR S draws D _ (M R) (hM R) (hn.rounds R)).2 row D.data[0]).1]
    exact hP R hR 0 _ hrow0
  refine ⟨fun R k => P R 0 k, hall, ?_⟩
  intro lab hlab
  obtain ⟨k, hk, ht⟩ := hlim lab hlab
  refine ⟨k, hk, ?_⟩
  have hpos : (0 : ℝ) < D.data.length := by exact_mod_cast hdne
  refine (ht.div_const (D.data.length : ℝ)).congr' ?_
  filter_upwards [eventually_gt_atTop 0] with R hR
  have hsame : ∀ i ∈ List.range D.data.length, P R i k = P R 0 k := by
    intro i hi
    rw [List.mem_range] at hi
    have e1 := hP R hR i _ (List.getElem?_eq_getElem hi)
    rw [hall R hR] at e1
    have e3 := congrArg (fun l => l[k]?) (Except.ok.inj e1)
    have hk' : k < (M R).classLabels.length := (List.getElem?_eq_some_iff.1 (hk R)).1
    simp only [List.getElem?_map, List.getElem?_range hk', Option.map_some, Option.some.injEq] at e3
    exact (fin_inj e3).symm
  rw [List.map_congr_left hsame, List.map_const', List.sum_replicate, nsmul_eq_mul, List.length_range, mul_div_cancel_left₀ _ hpos.ne']

/-- **C147 (prediction)**: from some number of rounds on, every row is given a most frequent label of the training data. -/
theorem C147_prediction (S : GoSort) (draws : Nat → Exact ℝ) (X : List (List ℝ)) (D : DataBunch (Exact ℝ)) (O : Options (Exact ℝ))
    (lr lam gam w : ℝ) (hF : FitsAll O X D lr lam gam w) (hn : NoSplitData D O) (M : ℕ → MultiClass (Exact ℝ))
    (hM : ∀ R : ℕ, newMultiClass expR S draws D { O with rounds := R } = .ok (M R)) :
    ∃ R0, ∀ R ≥ R0, ∃ k lab, (M R).classLabels[k]? = some lab ∧ (∀ lab', D.labels.count lab' ≤ D.labels.count lab) ∧
      ∀ row, (M R).predictSingleClass row = .ok k := by
  obtain ⟨Q, c2, c3⟩ := C147_frequencies S draws X D O lr lam gam w hF hn M hM
  have c1 : ∀ R, (M R).classLabels = distinctElements D.labels := fun R => (C22_rounds _ _ _ _ _ _ (hM R)).2.1
  have hdne : 0 < D.data.length := by
    obtain ⟨labels, st, ht, _⟩ := newMultiClass_inv (hM 0)
    have := (train_inv ht).1
    rw [hF.labels]
    exact List.length_pos_iff.2 this
  have hpos : (0 : ℝ) < D.data.length := by exact_mod_cast hdne
  set dl := distinctElements D.labels with hdl
  have hnd : dl.Nodup := (C39_distinct D.labels).1
  have hlim : ∀ (k : Nat) lab, dl[k]? = some lab → Tendsto (fun R => Q R k) atTop (𝓝 (D.labels.count lab / D.data.length)) := by
    intro k lab hk
    obtain ⟨k', h1, h2⟩ := c3 lab (((C39_distinct D.labels).2.1 lab).1 (List.mem_of_getElem? hk))
    have h1 := h1 0
    rw [c1] at h1
    obtain ⟨a1, a2⟩ := List.getElem?_eq_some_iff.1 hk
    obtain ⟨b1, b2⟩ := List.getElem?_eq_some_iff.1 h1
    rw [(List.Nodup.getElem_inj_iff hnd).1 (a2.trans b2.symm)]
    exact h2
  have key : ∀ (l : List ℕ) (q : ℕ → ℕ → Prop), (∀ i ∈ l, ∀ᶠ R in atTop, q i R) → ∀ᶠ R in atTop, ∀ i ∈ l, q i R := by
    intro l q
    induction l with
    | nil => intro _; simp
    | cons a l ih =>
      intro h
      filter_upwards [h a (by simp), ih fun i hi => h i (by simp [hi])] with R h1 h2 i hi
      rcases List.mem_cons.1 hi with rfl | hi
      · exact h1
      · exact h2 i hi
  have hev : ∀ᶠ R in atTop, ∀ k ∈ List.range dl.length, ∀ k' ∈ List.range dl.length, ∀ lab lab', dl[k]? = some lab → dl[k']? = some lab' →
      D.labels.count lab < D.labels.count lab' → Q R k < Q R k' := by
    refine key _ _ fun k hk => key _ _ fun k' hk' => ?_
    rw [List.mem_range] at hk hk'
    by_cases hlt : D.labels.count dl[k] < D.labels.count dl[k']
    · have hlt' : (D.labels.count dl[k] : ℝ) / D.data.length < D.labels.count dl[k'] / D.data.length :=
        div_lt_div_of_pos_right (by exact_mod_cast hlt) hpos
      filter_upwards [(hlim k _ (List.getElem?_eq_getElem hk)).eventually_lt (hlim k' _ (List.getElem?_eq_getElem hk')) hlt']
        with R hR lab lab' _ _ _ using hR
    · refine Eventually.of_forall fun R lab lab' h1 h2 h => absurd h ?_
      rw [List.getElem?_eq_getElem hk] at h1
      rw [List.getElem?_eq_getElem hk'] at h2
      rw [← Option.some.inj h1, ← Option.some.inj h2]
      exact hlt
  obtain ⟨R1, hR1⟩ := eventually_atTop.1 hev
  refine ⟨R1 + 1, ?_⟩
  intro R hR
  have hdl0 : 0 < dl.length := by
    have hil : 0 < D.labels.length := by rw [← hF.labels]; exact hdne
    exact List.length_pos_of_mem (((C39_distinct D.labels).2.1 _).2 (List.getElem_mem hil))
  obtain ⟨k, hk⟩ := argmaxFirst_ok ((List.range (M R).classLabels.length).map fun k => (XF.fin (Q R k) : Exact ℝ)) (by
    intro h0
    have := congrArg List.length h0
    rw [List.length_map, List.length_range, c1] at this
    exact hdl0.ne' this)
  have hcls : ∀ row, (M R).predictSingleClass row = .ok k := by
    intro row
    unfold MultiClass.predictSingleClass
    rw [c2 R (by omega) row]
    exact hk
  obtain ⟨m, m1, m2, _⟩ := argmaxFirst_spec _ _ hk
  have hkl : k < dl.length := by
    have := (List.getElem?_eq_some_iff.1 m1).1
    rw [c1] at this
    simpa using this
  rw [c1] at m1 m2
  rw [List.getElem?_map, List.getElem?_range hkl] at m1
  obtain rfl := Option.some.inj m1
  refine ⟨k, dl[k], by rw [c1, List.getElem?_eq_getElem hkl], ?_, hcls⟩
  intro lab'
  by_cases hmem : lab' ∈ dl
  · obtain ⟨k', hk'⟩ := List.getElem?_of_mem hmem
    obtain ⟨hk'l, hk'e⟩ := List.getElem?_eq_some_iff.1 hk'
    have h1 := m2 k' (XF.fin (Q R k')) (by rw [List.getElem?_map, List.getElem?_range hk'l]; rfl)
    rw [XF.fin_lt, decide_eq_false_iff_not, not_lt] at h1
    by_contra hcon
    push Not at hcon
    have h2 := hR1 R (by omega) k (List.mem_range.2 hkl) k' (List.mem_range.2 hk'l) _ _ (List.getElem?_eq_getElem hkl) hk' hcon
    linarith
  · rw [List.count_eq_zero_of_not_mem fun h => hmem (((C39_distinct D.labels).2.1 lab').2 h)]
    omega

/-- **C147 (accuracy)**: from some number of rounds on, `Accuracy` on any labelled rows is the share that a label most frequent in the
training data has among them. -/
theorem C147_accuracy (S : GoSort) (draws : Nat → Exact ℝ) (X : List (List ℝ)) (D : DataBunch (Exact ℝ)) (O : Options (Exact ℝ))
    (lr lam gam w : ℝ) (hF : FitsAll O X D lr lam gam w) (hn : NoSplitData D O) (M : ℕ → MultiClass (Exact ℝ))
    (hM : ∀ R : ℕ, newMultiClass expR S draws D { O with rounds := R } = .ok (M R)) :
    ∃ R0, ∀ R ≥ R0, ∃ lab, (∀ lab', D.labels.count lab' ≤ D.labels.count lab) ∧
      ∀ D' : DataBunch (Exact ℝ), D'.data ≠ [] → D'.labels.length = D'.data.length →
        (M R).accuracy D' = .ok (.fin (100 * D'.labels.count lab / D'.data.length)) := by
  obtain ⟨R0, h0⟩ := C147_prediction S draws X D O lr lam gam w hF hn M hM
  refine ⟨R0, fun R hR => ?_⟩
  obtain ⟨k, lab, h1, h2, h3⟩ := h0 R hR
  refine ⟨lab, h2, fun D' hne hl => ?_⟩
  obtain ⟨hkl, hke⟩ := List.getElem?_eq_some_iff.1 h1
  have hpreds : ∀ data : List (List (Exact ℝ)), data.mapM (M R).predictSingleClass = .ok (List.replicate data.length k) := by
    intro data
    refine mapM_ok.2 ?_
    induction data with
    | nil => exact .nil
    | cons v vs ih => exact .cons (h3 v) ih
  obtain ⟨a, ha, he, _⟩ := C25_percentage (M R) D' _ hne (hpreds D'.data) (fun q hq => by rw [List.eq_of_mem_replicate hq]; exact hkl) hl
  rw [ha, he, ← hl, rightCount_replicate hkl, hke]

/-- `deepOptions` without depth -/
noncomputable def flatOptions : Options (Exact ℝ) := { deepOptions with maxDepth := 0 }

/-- seven rows, of which four have the label 0, two the label 1 and one the label 5 -/
def flatRows : List (List ℝ) := [[0], [1], [2], [3], [4], [5], [6]]
def flatData : DataBunch (Exact ℝ) := ⟨finRows flatRows, [], [0, 5, 0, 1, 1, 0, 0], []⟩

theorem flat_fits : FitsAll flatOptions flatRows flatData (1/10) 0 0 1 := by
  refine ⟨rfl, rfl, ?_, by norm_num, by norm_num, ?_, le_rfl, ?_, le_rfl, ⟨0, ?_⟩, rfl, by norm_num, fun h => ?_, ?_, ?_, ⟨_, rfl, rfl⟩⟩ <;>
    simp [flatOptions, deepOptions, defaultGOptions] at *

theorem flat_all : ∃ M : ℕ → MultiClass (Exact ℝ), ∀ R : ℕ,
    newMultiClass expR GoSort.ins (fun _ => .fin 0) flatData { flatOptions with rounds := R } = .ok (M R) := by
  have h : ∀ R : ℕ, ∃ M, newMultiClass expR GoSort.ins (fun _ => .fin 0) flatData { flatOptions with rounds := R } = .ok M := by
    intro R
    have hr : rowSub ({ flatOptions with rounds := R } : Options (Exact ℝ)) = false := by
      simp [rowSub, flatOptions, deepOptions, defaultGOptions]
    exact C22_returns expR GoSort.ins (fun _ => .fin 0) flatData { flatOptions with rounds := R }
      ⟨by simp [flatData, finRows, flatRows], ⟨1, by simp [flatData, finRows, flatRows]⟩, finRows_noNaN _, finRows_midSafe _⟩ rfl _ rfl
      sqErrLoss_regular (by
        unfold CapOk
        simp [rowSub, colSub, flatOptions, deepOptions, defaultGOptions]) (by rw [hr]; simp)
  choose M hM using h
  exact ⟨M, hM⟩

/-- the hypotheses are met: the models without depth tend to the shares 4/7, 1/7 and 2/7, and predict the label 0 -/
example : ∃ (M : ℕ → MultiClass (Exact ℝ)) (Q : ℕ → ℕ → ℝ), (∀ R, (M R).classLabels = [0, 5, 1]) ∧
    (∀ R > 0, ∀ row, (M R).predictSingle row = .ok [XF.fin (Q R 0), XF.fin (Q R 1), XF.fin (Q R 2)]) ∧
    Tendsto (fun R => Q R 0) atTop (𝓝 (4/7)) ∧ Tendsto (fun R => Q R 1) atTop (𝓝 (1/7)) ∧
    ∃ R0, ∀ R ≥ R0, (M R).accuracy flatData = .ok (.fin (400/7)) := by
  obtain ⟨M, hM⟩ := flat_all
  have hn : NoSplitData flatData flatOptions := Or.inl (by simp [flatOptions])
  obtain ⟨Q, h1, h2⟩ := C147_frequencies _ _ _ _ _ _ _ _ _ flat_fits hn M hM
  have hc : ∀ R, (M R).classLabels = [0, 5, 1] := fun R => by
    rw [(C22_rounds _ _ _ _ _ _ (hM R)).2.1]
    decide
  have hlen : flatData.data.length = 7 := rfl
  refine ⟨M, Q, hc, ?_, ?_, ?_, ?_⟩
  · intro R hR row
    rw [h1 R hR row, hc R]
    rfl
  · obtain ⟨k, h3, h4⟩ := h2 0 (by decide)
    have h5 := h3 0
    rw [hc] at h5
    have hk : k = 0 := by
      match k, h5 with
      | 0, _ => rfl
      | 1, h5 => simp at h5
      | 2, h5 => simp at h5
      | n + 3, h5 => simp at h5
    rw [hk, hlen, show flatData.labels.count 0 = 4 by decide] at h4
    simpa using h4
  · obtain ⟨k, h3, h4⟩ := h2 5 (by decide)
    have h5 := h3 0
    rw [hc] at h5
    have hk : k = 1 := by
      match k, h5 with
      | 0, h5 => simp at h5
      | 1, _ => rfl
      | 2, h5 => simp at h5
      | n + 3, h5 => simp at h5
    rw [hk, hlen, show flatData.labels.count 5 = 1 by decide] at h4
    simpa using h4
  · obtain ⟨R0, h0⟩ := C147_accuracy _ _ _ _ _ _ _ _ _ flat_fits hn M hM
    refine ⟨R0, fun R hR => ?_⟩
    obtain ⟨lab, hlab, ha⟩ := h0 R hR
    have h4 := hlab 0
    rw [show flatData.labels.count 0 = 4 by decide] at h4
    have hl0 : lab = 0 := by
      by_contra hne
      have : flatData.labels.count lab ≤ 3 := by
        show List.count lab [0, 5, 0, 1, 1, 0, 0] ≤ 3
        simp only [List.count_cons, List.count_nil, beq_iff_eq]
        split_ifs <;> omega
      omega
    rw [ha flatData (by simp [flatData, finRows, flatRows]) rfl, hl0, hlen, show flatData.labels.count 0 = 4 by decide]
    norm_num

end Boo
