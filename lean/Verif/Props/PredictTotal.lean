import Verif.Props.Repro

/-!
# C79: trained models predict without panicking
-/

namespace Boo
open GoFloat
set_option linter.unusedSectionVars false
variable {F : Type} [GoFloat F]

/-- `t` predicts every row with at least `c` values -/
def Predicts (c : Nat) (t : Tree F) : Prop := ∀ row : List F, c ≤ row.length → ∃ v, t.predictSingle row = .ok v

theorem classTree_predicts [GoFloatOrd F] {S : GoSort} {X : List (List F)} {O : Options F} {lf : LossFunc F}
    {idx : Option (List Nat)} {cols : List Nat} {y p : List F} {t : Tree F} {row0 : List F} (h0 : X[0]? = some row0)
    (h : classTree S X O lf idx cols y p = .ok t) : Predicts row0.length t := by
  intro row hrow
  unfold classTree at h
  split at h
  · obtain ⟨g, _, h⟩ := bind_ok h
    obtain ⟨leaf, _, hl⟩ := C02_predict_total_rows S X _ t h row row0 h0 hrow
    exact ⟨_, hl⟩
  · obtain ⟨g, _, h⟩ := bind_ok h
    obtain ⟨t0, ht0, hu⟩ := bind_ok h
    obtain ⟨leaf, _, hl⟩ := C02_predict_total_rows S X _ t0 ht0 row row0 h0 hrow
    exact updateLeaves_predict _ _ t0 t hu row ⟨_, hl⟩

/-- the trees of a round: none of them panics, at most one per class, and one per class if no class was stopped -/
theorem trainClasses_total [GoFloatOrd F] {exp : F → F} {S : GoSort} {X : List (List F)} {O : Options F} {ohe : Dense F}
    {idx : Option (List Nat)} {cols : List Nat} {round : Nat} {row0 : List F} (h0 : X[0]? = some row0) (q : Nat)
    (st : TrainState F) (acc' : TrainState F × List (Tree F))
    (h : (List.range q).foldlM (trainClass (softMaxDense exp) S X O ohe idx cols round) (st, []) = .ok acc') :
    acc'.2.length ≤ q ∧ (∀ t ∈ acc'.2, Predicts row0.length t) ∧
    (∀ j ≥ q, acc'.1.stopped.getD j false = st.stopped.getD j false) ∧
    ((∀ j, st.stopped.getD j false = false) → acc'.2.length = q) := by
  induction q generalizing acc' with
  | zero =>
    simp only [List.range_zero, List.foldlM_nil, pure, Except.pure, Except.ok.injEq] at h
    subst h
    simp
  | succ q ih =>
    rw [List.range_succ, List.foldlM_append] at h
    obtain ⟨acc, h1, h2⟩ := bind_ok h
    rw [List.foldlM_cons] at h2
    obtain ⟨acc'', h3, h4⟩ := bind_ok h2
    simp only [List.foldlM_nil, pure, Except.pure, Except.ok.injEq] at h4
    subst h4
    obtain ⟨a1, a2, a3, a4⟩ := ih acc h1
    rcases trainClass_inv h3 with ⟨hs, rfl⟩ | ⟨hs, tree, ht, ⟨s⟩⟩
    · refine ⟨by omega, a2, fun j hj => a3 j (by omega), fun hall => ?_⟩
      rw [a3 q le_rfl, hall q] at hs
      cases hs
    · refine ⟨by rw [ht]; simp; omega, ?_, ?_, fun hall => by rw [ht]; simp [a4 hall]⟩
      · rw [ht]
        intro t htm
        rcases List.mem_append.1 htm with htm | htm
        · exact a2 t htm
        · rw [List.mem_singleton.1 htm]
          exact classTree_predicts h0 s.htree
      · intro j hj
        rw [s.hst, (earlyStopping_other O round q j s.loss _ (by omega)).1]
        exact a3 j (by omega)

theorem trainRounds_total [GoFloatOrd F] {exp : F → F} {S : GoSort} {X : List (List F)} {O : Options F} {ohe : Dense F}
    {row0 : List F} (h0 : X[0]? = some row0) (m q : Nat) (st st' : TrainState F)
    (h : (List.range q).foldlM (trainRound (softMaxDense exp) S X O ohe m) st = .ok st') (hb : st.boosters = [])
    (hs : ∀ j, st.stopped.getD j false = false) :
    (∀ ens ∈ st'.boosters, ens.length ≤ m ∧ ∀ t ∈ ens, Predicts row0.length t) ∧
    (∀ ens, st'.boosters[0]? = some ens → ens.length = m) ∧
    (st'.boosters = [] → ∀ j, st'.stopped.getD j false = false) := by
  induction q generalizing st' with
  | zero =>
    simp only [List.range_zero, List.foldlM_nil, pure, Except.pure, Except.ok.injEq] at h
    subst h
    rw [hb]
    exact ⟨by simp, by simp, fun _ => hs⟩
  | succ q ih =>
    rw [List.range_succ, List.foldlM_append] at h
    obtain ⟨st1, h1, h2⟩ := bind_ok h
    rw [List.foldlM_cons] at h2
    obtain ⟨st2, h3, h4⟩ := bind_ok h2
    simp only [List.foldlM_nil, pure, Except.pure, Except.ok.injEq] at h4
    subst h4
    obtain ⟨a1, a2, a3⟩ := ih st1 h1
    obtain ⟨idx, cols, draws, _, ⟨_, rfl⟩ | ⟨_, acc, hacc, rfl⟩⟩ := trainRound_inv h3
    · exact ⟨a1, a2, a3⟩
    · obtain ⟨e1, _⟩ := trainClasses_boosters hacc
      obtain ⟨b1, b2, _, b4⟩ := trainClasses_total h0 m _ acc hacc
      simp only at e1 b4
      simp only [e1]
      refine ⟨?_, ?_, fun h => by simp at h⟩
      · intro ens he
        rcases List.mem_append.1 he with he | he
        · exact a1 ens he
        · rw [List.mem_singleton.1 he]
          exact ⟨b1, b2⟩
      · intro ens he
        cases hb1 : st1.boosters with
        | nil =>
          rw [hb1] at he
          simp at he
          rw [← he]
          exact b4 (a3 hb1)
        | cons e es =>
          rw [hb1] at he a2
          exact a2 ens (by simpa using he)

theorem addRound_exists (lr : F) (row : List F) (ts : List (Tree F)) (ht : ∀ t ∈ ts, ∃ v, t.predictSingle row = .ok v)
    (c : Nat) (tmp : List F) (hl : c + ts.length ≤ tmp.length) :
    ∃ tmp', addRound lr row ts c tmp = .ok tmp' ∧ tmp'.length = tmp.length := by
  induction ts generalizing c tmp with
  | nil => exact ⟨tmp, rfl, rfl⟩
  | cons t ts ih =>
    obtain ⟨v, hv⟩ := ht t (by simp)
    simp only [List.length_cons] at hl
    have hc : c < tmp.length := by omega
    obtain ⟨tmp', h1, h2⟩ := ih (fun t h => ht t (by simp [h])) (c + 1) (tmp.set c (tmp[c] +. (v *. lr))) (by simp; omega)
    refine ⟨tmp', ?_, by rw [h2]; simp⟩
    unfold addRound addAt
    rw [hv, List.getElem?_eq_getElem hc]
    exact h1

theorem rawScores_exists (M : MultiClass F) (row : List F) (m : Nat)
    (h1 : ∀ ens ∈ M.b, ens.length ≤ m ∧ ∀ t ∈ ens, ∃ v, t.predictSingle row = .ok v)
    (h2 : ∃ ens, M.b[0]? = some ens ∧ ens.length = m) : ∃ s, M.rawScores row = .ok s ∧ s.length = m := by
  obtain ⟨ens0, h0, hm⟩ := h2
  unfold MultiClass.rawScores
  rw [goIdx_ok.2 h0]
  simp only [bind, Except.bind]
  have key : ∀ (b : List (List (Tree F))) (tmp : List F), tmp.length = m →
      (∀ ens ∈ b, ens.length ≤ m ∧ ∀ t ∈ ens, ∃ v, t.predictSingle row = .ok v) →
      ∃ s, b.foldlM (fun tmp ens => addRound M.learningRate row ens 0 tmp) tmp = .ok s ∧ s.length = m := by
    intro b
    induction b with
    | nil => intro tmp hl _; exact ⟨tmp, rfl, hl⟩
    | cons e b ih =>
      intro tmp hl hb
      obtain ⟨q1, q2⟩ := hb e (by simp)
      obtain ⟨tmp', h1, h2⟩ := addRound_exists M.learningRate row e q2 0 tmp (by omega)
      obtain ⟨s, h3, h4⟩ := ih tmp' (by omega) fun ens he => hb ens (by simp [he])
      refine ⟨s, ?_, h4⟩
      rw [List.foldlM_cons, h1]
      exact h3
  exact key M.b _ (by simp [hm]) h1

/-- what holds of the trees of every trained model, early stopping or not: every tree predicts rows as long as the
training rows, there are at most as many trees per round as classes, and one per class in the first round -/
theorem trained_trees [GoFloatOrd F] (exp : F → F) (S : GoSort) (draws : Nat → F) (D : DataBunch F) (O : Options F)
    (M : MultiClass F) (h : newMultiClass exp S draws D O = .ok M) (row0 : List F) (h0 : D.data[0]? = some row0) :
    (∀ ens ∈ M.b, ens.length ≤ M.classLabels.length ∧ ∀ t ∈ ens, Predicts row0.length t) ∧
    (∀ ens, M.b[0]? = some ens → ens.length = M.classLabels.length) := by
  obtain ⟨labels, st, ht, rfl⟩ := newMultiClass_inv h
  obtain ⟨hl, hlab, ohe, st0, hohe, hr0, hc0, hw, hinit, hrounds⟩ := train_inv ht
  obtain ⟨_, i2, _, i4, _⟩ := trainInit_inv hinit hr0 hc0
  obtain ⟨a1, a2, _⟩ := trainRounds_total h0 labels.length _ st0 st hrounds i2 (by
    intro j
    rw [i4]
    rw [List.getD_eq_getElem?_getD, List.getElem?_replicate]
    split <;> rfl)
  exact ⟨a1, a2⟩

/-- **C79, partial**: a model with at least one round predicts every row that is at least as long as the first row it was
trained on: `PredictSingle` returns one number per class, and `PredictSingleClass` returns the index of a class.
Early stopping or not, in any arithmetic.
Missing: models without rounds, for which every prediction panics (`C79_violated`). -/
theorem C79_predict_partial [GoFloatOrd F] (exp : F → F) (S : GoSort) (draws : Nat → F) (D : DataBunch F) (O : Options F)
    (M : MultiClass F) (h : newMultiClass exp S draws D O = .ok M) (hne : M.b ≠ []) (row0 : List F)
    (h0 : D.data[0]? = some row0) (row : List F) (hrow : row0.length ≤ row.length) :
    ∃ out, M.predictSingle row = .ok out ∧ out.length = M.classLabels.length ∧
      ∃ k, M.predictSingleClass row = .ok k ∧ k < M.classLabels.length := by
  obtain ⟨a1, a2⟩ := trained_trees exp S draws D O M h row0 h0
  obtain ⟨hlab, hmem, _, _, _, _, hpt⟩ := C72_metadata exp S draws D O M h
  obtain ⟨ens0, b', hb⟩ := List.exists_cons_of_ne_nil hne
  obtain ⟨s, hs, hsl⟩ := rawScores_exists M row M.classLabels.length
    (fun ens he => ⟨(a1 ens he).1, fun t ht => (a1 ens he).2 t ht row hrow⟩)
    ⟨ens0, by rw [hb]; rfl, a2 ens0 (by rw [hb]; rfl)⟩
  have hcl : M.classLabels ≠ [] := by
    obtain ⟨labels, st, ht, rfl⟩ := newMultiClass_inv h
    obtain ⟨hl, hlab', _⟩ := train_inv ht
    intro hc
    obtain ⟨l, ls, hls⟩ := List.exists_cons_of_ne_nil hl
    have := (hmem l).2 (by rw [hls]; simp)
    rw [hc] at this
    simp at this
  have hsne : s ≠ [] := by
    intro hs0
    rw [hs0] at hsl
    exact hcl (List.length_eq_zero_iff.1 hsl.symm)
  have hp := predictSingle_softmax exp M hpt row s hs hsne
  obtain ⟨_, out, ho, hol⟩ := C24_buffer exp s s rfl
  refine ⟨out, hp.trans ho, by omega, ?_⟩
  obtain ⟨o, os, hos⟩ := List.exists_cons_of_ne_nil (l := out) (by
    intro h; rw [h] at hol; exact hsne (List.length_eq_zero_iff.1 hol.symm))
  have hk : ∃ k, M.predictSingleClass row = .ok k := by
    unfold MultiClass.predictSingleClass
    rw [hp, ho, hos]
    exact ⟨_, rfl⟩
  obtain ⟨k, hk⟩ := hk
  refine ⟨k, hk, ?_⟩
  obtain ⟨probs, h1, m, h2, _⟩ := C23_first_most_probable M row k hk
  rw [hp, ho] at h1
  cases h1
  have := (List.getElem?_eq_some_iff.1 h2).1
  omega

/-- **C79 (accuracy), partial**: `Accuracy` of such a model returns a number for every data set with a label per row and
rows at least as long as the first one of the training data. -/
theorem C79_accuracy_partial [GoFloatOrd F] (exp : F → F) (S : GoSort) (draws : Nat → F) (D : DataBunch F) (O : Options F)
    (M : MultiClass F) (h : newMultiClass exp S draws D O = .ok M) (hne : M.b ≠ []) (row0 : List F)
    (h0 : D.data[0]? = some row0) (D' : DataBunch F) (hl : D'.labels.length = D'.data.length)
    (hrows : ∀ row ∈ D'.data, row0.length ≤ row.length) : ∃ a, M.accuracy D' = .ok a := by
  have key : ∀ rows : List (List F), (∀ row ∈ rows, row0.length ≤ row.length) →
      ∃ preds, rows.mapM M.predictSingleClass = .ok preds ∧ ∀ p ∈ preds, p < M.classLabels.length := by
    intro rows
    induction rows with
    | nil => exact fun _ => ⟨[], rfl, by simp⟩
    | cons r rows ih =>
      intro hr
      obtain ⟨preds, h1, h2⟩ := ih fun row hrow => hr row (by simp [hrow])
      obtain ⟨_, _, _, k, hk, hkl⟩ := C79_predict_partial exp S draws D O M h hne row0 h0 r (hr r (by simp))
      refine ⟨k :: preds, ?_, ?_⟩
      · rw [List.mapM_cons, hk, h1]
        rfl
      · intro p hp
        rcases List.mem_cons.1 hp with rfl | hp
        · exact hkl
        · exact h2 p hp
  obtain ⟨preds, h1, h2⟩ := key D'.data hrows
  exact ⟨_, C25_accuracy M D' preds h1 h2 hl⟩

/-- **C79 is violated**: with options accepted by `Check` (`MinSample = 1`, all rows used), `NewMultiClass` returns a model
whose every prediction panics. -/
theorem C79_violated (exp : F64 → F64) : allRows.check = none ∧
    ∃ M, newMultiClass exp GoSort.ins (fun _ => .fin 0) mixData allRows = .ok M ∧
      ∀ row, M.predictSingle row = .error .index ∧ M.predictSingleClass row = .error .index := by
  obtain ⟨M, hM⟩ := C22_returns exp GoSort.ins (fun _ => .fin 0) mixData allRows mixData_ok rfl _ rfl sqErrLoss_regular
    (by unfold CapOk; decide +kernel) (by decide +kernel)
  refine ⟨by decide +kernel, M, hM, ?_⟩
  have := (C22_violated exp GoSort.ins _ mixData allRows M hM (by decide +kernel) (by decide)).2
  intro row
  refine ⟨this row, ?_⟩
  unfold MultiClass.predictSingleClass
  rw [this row]
  rfl

/-- the hypotheses are met by a run with early stopping in which a later round has fewer trees -/
example (exp : F64 → F64) (hexp : HasValues exp mixExp) :
    ∃ M, newMultiClass exp GoSort.ins (fun _ => .fin 0) mixData mixOptions = .ok M ∧ M.b ≠ [] := by
  obtain ⟨M, h1, _, h2, _⟩ := C21_violated exp hexp
  exact ⟨M, h1, fun h => by rw [h] at h2; simp at h2⟩
example : mixData.data[0]? = some [.fin 0] ∧ ([.fin 0] : List F64).length ≤ [(.fin 7 : F64), .fin 1].length := by decide +kernel

end Boo
