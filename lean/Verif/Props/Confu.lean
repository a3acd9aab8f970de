import Verif.Lemmas.Confu
import Verif.Props.Train

/-!
# C46–C50: confusion matrix, most frequent predictions, names of the labels
-/

namespace Boo
open GoFloat
set_option linter.unusedSectionVars false
variable {F : Type} [GoFloat F]

/-! ### C46 -/

/-- number of rows of `D` whose label is `a` and whose predicted label is `b`; `preds` are the predicted class indexes -/
def confCount (M : MultiClass F) (D : DataBunch F) (preds : List Nat) (a b : Int) : Nat :=
  ((D.labels.zip preds).filter fun p => decide (p.1 = a) && decide (M.classLabels[p.2]? = some b)).length

/-- the model can be used for a confusion matrix of the data set: every row can be predicted, class indexes are
indexes of labels, there are not more labels than rows, and the labels of the model are distinct -/
structure Usable (M : MultiClass F) (D : DataBunch F) (preds : List Nat) : Prop where
  pred : D.data.mapM M.predictSingleClass = .ok preds
  index : ∀ p ∈ preds, p < M.classLabels.length
  nodup : M.classLabels.Nodup
  labels : D.labels.length ≤ D.data.length

theorem Usable.len {M : MultiClass F} {D : DataBunch F} {preds : List Nat} (h : Usable M D preds) :
    D.labels.length ≤ preds.length := by
  have := (mapM_ok.1 h.pred).length_eq
  have := h.labels
  omega

/-- the entry of a matrix -/
def confEntry (mat : List (List Nat)) (i j : Nat) : Option Nat := mat[i]?.bind (·[j]?)

theorem countMatrix_entry {M : MultiClass F} {D : DataBunch F} {preds : List Nat} (h : Usable M D preds)
    (i j : Nat) (a b : Int) (hi : M.classLabels[i]? = some a) (hj : M.classLabels[j]? = some b) :
    confEntry (countMatrix M.classLabels D.labels preds) i j = some (confCount M D preds a b) := by
  have hjl := (List.getElem?_eq_some_iff.1 hj).1
  unfold confEntry countMatrix
  rw [List.getElem?_map, hi]
  simp only [Option.map_some, Option.bind_some]
  rw [List.getElem?_map, List.getElem?_range hjl]
  simp only [Option.map_some, Option.some.injEq]
  unfold npairs confCount
  congr 1
  apply List.filter_congr
  intro p hp
  congr 1
  have hpl := h.index p.2 (List.of_mem_zip hp).2
  rw [decide_eq_decide]
  constructor
  · rintro e; rw [e]; exact hj
  · intro e
    rw [List.getElem?_eq_some_iff] at hj e
    obtain ⟨_, e1⟩ := e
    obtain ⟨_, e2⟩ := hj
    exact (List.Nodup.getElem_inj_iff h.nodup).1 (e1.trans e2.symm)

theorem confRow_sum {M : MultiClass F} {D : DataBunch F} {preds : List Nat} (h : Usable M D preds) (a : Int) :
    (M.classLabels.map fun b => confCount M D preds a b).sum = D.labels.count a := by
  have := sum_npairs (D.labels.zip preds) (fun p => decide (p.1 = a)) (fun p => M.classLabels[p.2]?) M.classLabels h.nodup
  unfold npairs at this
  unfold confCount
  rw [this]
  have e : ((D.labels.zip preds).filter fun p => decide (p.1 = a) && decide (∃ b ∈ M.classLabels, M.classLabels[p.2]? = some b)) =
      (D.labels.zip preds).filter ((fun x => decide (x = a)) ∘ Prod.fst) := by
    apply List.filter_congr
    intro p hp
    have hpl := h.index p.2 (List.of_mem_zip hp).2
    have : ∃ b ∈ M.classLabels, M.classLabels[p.2]? = some b :=
      ⟨_, List.getElem_mem hpl, List.getElem?_eq_getElem hpl⟩
    simp only [this, decide_true, Bool.and_true, Function.comp]
  rw [e, ← List.length_map Prod.fst, ← List.filter_map, List.map_fst_zip h.len, List.count_eq_countP,
    List.countP_eq_length_filter]
  congr 1

/-- the rows of a matrix of counts -/
theorem countMatrix_row {M : MultiClass F} {D : DataBunch F} {preds : List Nat} (h : Usable M D preds)
    (i : Nat) (a : Int) (hi : M.classLabels[i]? = some a) :
    (countMatrix M.classLabels D.labels preds)[i]? = some (M.classLabels.map fun b => confCount M D preds a b) := by
  have hil := (List.getElem?_eq_some_iff.1 hi).1
  obtain ⟨l1, l2⟩ := countMatrix_len M.classLabels D.labels preds
  rw [List.getElem?_eq_getElem (by omega)]
  congr 1
  apply List.ext_getElem?
  intro j
  by_cases hj : j < M.classLabels.length
  · have := countMatrix_entry h i j a _ hi (List.getElem?_eq_getElem hj)
    unfold confEntry at this
    rw [List.getElem?_eq_getElem (by omega)] at this
    rw [Option.bind_some] at this
    rw [this, List.getElem?_map, List.getElem?_eq_getElem hj]
    rfl
  · rw [List.getElem?_eq_none, List.getElem?_eq_none]
    · simp; omega
    · rw [l2 _ (List.getElem_mem _)]; omega

/-- **C46**: entry `(i, j)` of `Matrix()` is the number of rows with label `Labels[i]` that are predicted as `Labels[j]`;
row sums are the frequencies of the labels; the total is the number of rows whose label is known to the model. A second
call returns the same matrix. -/
theorem C46_matrix (M : MultiClass F) (D : DataBunch F) (preds : List Nat) (hu : Usable M D preds) :
    ∃ C C' mat, mcConfusions M D = .ok C ∧ C.getMatrix = .ok (C', mat) ∧ C'.getMatrix = .ok (C', mat) ∧
      mat.length = M.classLabels.length ∧ (∀ row ∈ mat, row.length = M.classLabels.length) ∧
      (∀ (i j : Nat) a b, M.classLabels[i]? = some a → M.classLabels[j]? = some b →
        confEntry mat i j = some (confCount M D preds a b)) ∧
      (∀ (i : Nat) a row, M.classLabels[i]? = some a → mat[i]? = some row → row.sum = D.labels.count a) ∧
      (mat.map List.sum).sum = (D.labels.filter fun a => decide (a ∈ M.classLabels)).length := by
  obtain ⟨C, h1, h2, h3, h4, h5⟩ := mcConfusions_spec M D preds hu.pred hu.index
  have hg : Good M.classLabels D.labels preds C [] :=
    ⟨h2, Or.inl h3, Or.inl (by rw [h4]), Or.inl (by rw [h5]), by rw [h4]; intro h; cases h⟩
  have hm := getMatrix_spec hu.nodup hg hu.index hu.len
  obtain ⟨l1, l2⟩ := countMatrix_len M.classLabels D.labels preds
  have hrow : ∀ (i : Nat) a row, M.classLabels[i]? = some a →
      (countMatrix M.classLabels D.labels preds)[i]? = some row → row.sum = D.labels.count a := by
    intro i a row hi hr
    rw [countMatrix_row hu i a hi] at hr
    cases hr
    exact confRow_sum hu a
  refine ⟨C, _, _, h1, hm, rfl, l1, l2, fun i j a b hi hj => countMatrix_entry hu i j a b hi hj, hrow, ?_⟩
  have e : (countMatrix M.classLabels D.labels preds).map List.sum = M.classLabels.map fun a => D.labels.count a := by
    apply List.ext_getElem?
    intro i
    rw [List.getElem?_map, List.getElem?_map]
    by_cases hi : i < M.classLabels.length
    · rw [List.getElem?_eq_getElem hi, List.getElem?_eq_getElem (by omega)]
      simp only [Option.map_some, Option.some.injEq]
      exact hrow i _ _ (List.getElem?_eq_getElem hi) (List.getElem?_eq_getElem (by omega))
    · rw [List.getElem?_eq_none (by omega), List.getElem?_eq_none (by omega)]
      rfl
  rw [e]
  have := sum_npairs (D.labels.map fun a => (a, 0)) (fun _ => true) (fun p => some p.1) M.classLabels hu.nodup
  unfold npairs at this
  simp only [Bool.true_and, Option.some.injEq, List.filter_map, List.length_map] at this
  rw [show (fun a => D.labels.count a) = fun b => (D.labels.filter ((fun p : Int × Nat => decide (p.1 = b)) ∘ fun a => (a, 0))).length from ?_]
  · rw [this]
    congr 1
    apply List.filter_congr
    intro a _
    simp [Function.comp]
  · funext b
    rw [List.count_eq_countP, List.countP_eq_length_filter]
    congr 1

/-- **C46 for trained models**: the hypotheses of `C46_matrix` that concern the model hold for every model that
`NewMultiClass` returns. -/
theorem C46_trained [GoFloatOrd F] (exp : F → F) (S : GoSort) (draws : Nat → F) (D0 : DataBunch F) (O : Options F)
    (M : MultiClass F) (h : newMultiClass exp S draws D0 O = .ok M) (hd : D0.data.length = D0.labels.length)
    (D : DataBunch F) (preds : List Nat) (hp : D.data.mapM M.predictSingleClass = .ok preds)
    (hl : D.labels.length ≤ D.data.length) : Usable M D preds := by
  refine ⟨hp, ?_, ?_, hl⟩
  · intro p hpm
    have h2 := mapM_ok.1 hp
    clear hp
    generalize D.data = data at h2
    induction h2 with
    | nil => cases hpm
    | @cons v q vs ps hv _ ih =>
      rw [List.mem_cons] at hpm
      rcases hpm with rfl | hpm
      · exact C23_label exp S draws D0 O M h hd v p hv
      · exact ih hpm
  · rw [(C22_rounds exp S draws D0 O M h).2.1]
    exact (C39_distinct _).1

/-- a model that predicts class 0 for rows that start with a value below 1, and class 1 otherwise -/
def twoClass : MultiClass F64 :=
  let info : F64 → NodeInfo F64 := fun v =>
    { samples := [], bestScoreSoFar := .fin 0, value := v, nsamples := 1, features := 1, splitFeatureIndex := 0,
      threshold := .fin 1, xgb := true, branches := 1 }
  { b := [[.node { info (.fin 0) with branches := 3, bestScoreSoFar := .fin 1 } (.node (info (.fin 1)) .nil .nil) (.node (info (.fin 0)) .nil .nil),
           .node { info (.fin 0) with branches := 3, bestScoreSoFar := .fin 1 } (.node (info (.fin 0)) .nil .nil) (.node (info (.fin 1)) .nil .nil)]],
    learningRate := .fin 1, classLabels := [7, -3], probTransform := some fun O _ => .ok O, baseScore := .fin 0,
    xgb := true }

/-- four rows, one with a label that the model does not know -/
def fourRows : DataBunch F64 :=
  { data := [[.fin 0], [.fin 2], [.fin 0], [.fin 2]], keys := [], labels := [7, 7, -3, 5] }

theorem twoClass_usable : Usable twoClass fourRows [0, 1, 0, 1] :=
  ⟨by decide +kernel, by decide, by decide, by decide⟩

example : (do let C ← mcConfusions twoClass fourRows; let r ← C.getMatrix; pure r.2) = .ok [[1, 1], [1, 0]] := by
  decide +kernel

/-- Why `labels` is needed: with more labels than rows `Matrix` panics. -/
example : (do let C ← mcConfusions twoClass { fourRows with labels := [7, 7, 7, 7, 7] }; let r ← C.getMatrix; pure r.2) =
    .error .index := by decide +kernel

/-- Why `nodup` is needed: with a repeated label the counts end in the last column of the label. -/
example : (do let C ← mcConfusions { twoClass with classLabels := [7, 7] } fourRows; let r ← C.getMatrix; pure r.2) =
    .ok [[0, 2], [0, 2]] := by decide +kernel

/-! ### C47 -/

/-- the trace -/
def trace (mat : List (List Nat)) : Nat := ((List.range mat.length).map fun i => (confEntry mat i i).getD 0).sum

/-- **C47**: `Accuracy` is 100 times the trace of `Matrix()` over the number of rows. -/
theorem C47_trace (M : MultiClass F) (D : DataBunch F) (preds : List Nat) (hu : Usable M D preds)
    (hl : D.labels.length = D.data.length) :
    ∃ C C' mat, mcConfusions M D = .ok C ∧ C.getMatrix = .ok (C', mat) ∧
      M.countRight D.labels D.data 0 0 = .ok (trace mat) ∧
      M.accuracy D = .ok (ofRat 100 *. (ofInt (trace mat : Nat) /. ofInt D.data.length)) := by
  obtain ⟨C, C', mat, h1, h2, _, h4, _, h6, _⟩ := C46_matrix M D preds hu
  have ht : trace mat = rightCount M preds D.labels := by
    unfold trace
    have e : ((List.range mat.length).map fun i => (confEntry mat i i).getD 0) =
        M.classLabels.map fun a => npairs (D.labels.zip preds) fun p =>
          decide (M.classLabels[p.2]? = some p.1) && decide (some p.1 = some a) := by
      apply List.ext_getElem?
      intro i
      rw [List.getElem?_map, List.getElem?_map]
      by_cases hi : i < M.classLabels.length
      · rw [List.getElem?_range (by omega), List.getElem?_eq_getElem hi]
        simp only [Option.map_some, Option.some.injEq]
        rw [h6 i i _ _ (List.getElem?_eq_getElem hi) (List.getElem?_eq_getElem hi)]
        simp only [Option.getD_some]
        unfold confCount npairs
        congr 1
        apply List.filter_congr
        intro p _
        by_cases hp : p.1 = M.classLabels[i]
        · simp [hp]
        · simp [hp]
      · rw [List.getElem?_eq_none (by simp; omega), List.getElem?_eq_none (by omega)]
        rfl
    rw [e, sum_npairs (D.labels.zip preds) (fun p => decide (M.classLabels[p.2]? = some p.1)) (fun p => some p.1) _ hu.nodup]
    unfold rightCount npairs
    have hsw : (preds.zip D.labels) = (D.labels.zip preds).map Prod.swap := by
      rw [List.zip_swap]
    rw [hsw, List.filter_map, List.length_map]
    congr 1
    apply List.filter_congr
    intro p _
    rw [Bool.eq_iff_iff]
    simp only [Bool.and_eq_true, decide_eq_true_eq, Option.some.injEq, exists_eq_right', Function.comp, Prod.fst_swap,
      Prod.snd_swap]
    constructor
    · exact fun h => h.1
    · exact fun h => ⟨h, List.mem_of_getElem? h⟩
  have hr := countRight_spec M D.data [] D.labels preds 0 hu.pred hu.index hl
  refine ⟨C, C', mat, h1, h2, ?_, ?_⟩
  · rw [ht]; simpa using hr
  · rw [ht]
    exact C25_accuracy M D preds hu.pred hu.index hl

/-! ### C48 -/

/-- a call of a method of `Confusions` -/
inductive ConfCall where
  | matrix
  | topN (N M : Int) (docopy : Bool)
  | perLabel (N : Int)
  | print (N : Int) (m : NameMap)

/-- the effect of a call on the receiver and on the memory -/
def ConfCall.run (S : GoSort) (c : ConfCall) (st : Confusions × IntHeap) : Go (Confusions × IntHeap) :=
  match c with
  | .matrix => do let r ← st.1.getMatrix; pure (r.1, st.2)
  | .topN N M docopy => do let r ← st.1.topNForLabelM S N M docopy st.2; pure (r.1, r.2.1)
  | .perLabel N => do let r ← st.1.topNPerLabel S N st.2; pure (r.1, r.2.1)
  | .print N m => do let r ← st.1.printTopN S N m st.2; pure (r.1, r.2.1)

theorem topN_inv {labels actual : List Int} {preds : List Nat} {C C' : Confusions} {h h' : IntHeap}
    {r : Option (ISlice × ISlice)} {S : GoSort} {N M : Int} {docopy : Bool} (hn : labels.Nodup)
    (hg : Good labels actual preds C h) (hc : ∀ p ∈ preds, p < labels.length) (hl : actual.length ≤ preds.length)
    (hr : C.topNForLabelM S N M docopy h = .ok (C', h', r)) :
    Good labels actual preds C' h' ∧ (∀ s, Sep s C h → Sep s C' h' ∧ s.read h' = s.read h) ∧
      ∀ p, r = some p → docopy = true → Sep p.1 C' h' ∧ Sep p.2 C' h' := by
  obtain ⟨t1, t2, t3⟩ := topN_spec S hn hg hc hl N.toNat M docopy
  by_cases hM : M ∈ labels
  · by_cases hN : N < 0
    · rw [t2 hM N hN] at hr; cases hr
    · obtain ⟨i, hi⟩ : ∃ i, labels.idxOf? M = some i := by
        cases hq : labels.idxOf? M with
        | none => exact absurd hM (List.idxOf?_eq_none_iff.1 hq)
        | some i => exact ⟨i, rfl⟩
      have hil : i < (countMatrix labels actual preds).length := by
        rw [(countMatrix_len labels actual preds).1]
        exact (List.idxOf?_eq_some_iff.1 hi).1
      obtain ⟨C1, h1, si, sv, e, g, _, _, hsep, hcp⟩ := t3 i _ hi (List.getElem?_eq_getElem hil)
      rw [Int.toNat_of_nonneg (by omega), hr] at e
      cases e
      refine ⟨g, hsep, ?_⟩
      intro p hp hd
      cases hp
      exact hcp hd
  · obtain ⟨C1, e, g, hsep⟩ := t1 hM N
    rw [hr] at e
    cases e
    refine ⟨g, fun s hs => ⟨hsep s hs, rfl⟩, ?_⟩
    intro p hp
    cases hp

theorem topNLoop_inv {labels actual : List Int} {preds : List Nat} {S : GoSort} {N : Int} (hn : labels.Nodup)
    (hc : ∀ p ∈ preds, p < labels.length) (hl : actual.length ≤ preds.length) (vs : List Int) :
    ∀ {C C' : Confusions} {h h' : IntHeap} {rs : List (Option (ISlice × ISlice))}, Good labels actual preds C h →
    Confusions.topNLoop S N vs C h = .ok (C', h', rs) →
    Good labels actual preds C' h' ∧ (∀ s, Sep s C h → Sep s C' h' ∧ s.read h' = s.read h) ∧
      ∀ p, some p ∈ rs → Sep p.1 C' h' ∧ Sep p.2 C' h' := by
  induction vs with
  | nil =>
    intro C C' h h' rs hg hr
    unfold Confusions.topNLoop at hr
    cases hr
    exact ⟨hg, fun s hs => ⟨hs, rfl⟩, by simp⟩
  | cons v vs ih =>
    intro C C' h h' rs hg hr
    unfold Confusions.topNLoop at hr
    obtain ⟨⟨C1, h1, r⟩, e1, hr⟩ := bind_ok hr
    obtain ⟨⟨C2, h2, rs'⟩, e2, hr⟩ := bind_ok hr
    cases hr
    obtain ⟨g1, s1, c1⟩ := topN_inv hn hg hc hl e1
    obtain ⟨g2, s2, c2⟩ := ih g1 e2
    refine ⟨g2, ?_, ?_⟩
    · intro s hs
      obtain ⟨a, b⟩ := s1 s hs
      obtain ⟨c, d⟩ := s2 s a
      exact ⟨c, d.trans b⟩
    · intro p hp
      rw [List.mem_cons] at hp
      rcases hp with hp | hp
      · obtain ⟨a, b⟩ := c1 p hp.symm rfl
        exact ⟨(s2 _ a).1, (s2 _ b).1⟩
      · exact c2 p hp

theorem call_inv {labels actual : List Int} {preds : List Nat} {S : GoSort} (hn : labels.Nodup)
    (hc : ∀ p ∈ preds, p < labels.length) (hl : actual.length ≤ preds.length) (c : ConfCall)
    {st st' : Confusions × IntHeap} (hg : Good labels actual preds st.1 st.2) (hr : c.run S st = .ok st') :
    Good labels actual preds st'.1 st'.2 ∧
      ∀ s, Sep s st.1 st.2 → Sep s st'.1 st'.2 ∧ s.read st'.2 = s.read st.2 := by
  obtain ⟨C, h⟩ := st
  cases c with
  | matrix =>
    obtain ⟨r, e1, hr⟩ := bind_ok hr
    cases hr
    rw [getMatrix_spec hn hg hc hl] at e1
    cases e1
    exact ⟨⟨hg.made, Or.inr rfl, hg.bufs⟩, fun s hs => ⟨hs, rfl⟩⟩
  | topN N M d =>
    obtain ⟨⟨C1, h1, r⟩, e1, hr⟩ := bind_ok hr
    cases hr
    obtain ⟨g, s, _⟩ := topN_inv hn hg hc hl e1
    exact ⟨g, s⟩
  | perLabel N =>
    obtain ⟨⟨C1, h1, r⟩, e1, hr⟩ := bind_ok hr
    cases hr
    obtain ⟨g, s, _⟩ := topNLoop_inv hn hc hl _ hg e1
    exact ⟨g, s⟩
  | print N m =>
    obtain ⟨⟨C1, h1, r⟩, e1, hr⟩ := bind_ok hr
    cases hr
    unfold Confusions.printTopN at e1
    obtain ⟨⟨C2, h2, r2⟩, e2, e1⟩ := bind_ok e1
    obtain ⟨ls, e3, e1⟩ := bind_ok e1
    cases e1
    obtain ⟨g, s, _⟩ := topNLoop_inv hn hc hl _ hg e2
    exact ⟨g, s⟩

theorem calls_inv {labels actual : List Int} {preds : List Nat} {S : GoSort} (hn : labels.Nodup)
    (hc : ∀ p ∈ preds, p < labels.length) (hl : actual.length ≤ preds.length) (cs : List ConfCall) :
    ∀ {st st' : Confusions × IntHeap}, Good labels actual preds st.1 st.2 →
    cs.foldlM (fun st c => c.run S st) st = .ok st' →
    Good labels actual preds st'.1 st'.2 ∧
      ∀ s, Sep s st.1 st.2 → Sep s st'.1 st'.2 ∧ s.read st'.2 = s.read st.2 := by
  induction cs with
  | nil =>
    intro st st' hg hr
    cases hr
    exact ⟨hg, fun s hs => ⟨hs, rfl⟩⟩
  | cons c cs ih =>
    intro st st' hg hr
    rw [List.foldlM_cons] at hr
    obtain ⟨st1, e1, hr⟩ := bind_ok hr
    obtain ⟨g1, s1⟩ := call_inv hn hc hl c hg e1
    obtain ⟨g2, s2⟩ := ih g1 hr
    refine ⟨g2, ?_⟩
    intro s hs
    obtain ⟨a, b⟩ := s1 s hs
    obtain ⟨c, d⟩ := s2 s a
    exact ⟨c, d.trans b⟩

/-- `st` is a state that calls of the methods lead to: first `MCConfusions`, with any memory, then the calls -/
def ConfReach (S : GoSort) (M : MultiClass F) (D : DataBunch F) (st : Confusions × IntHeap) : Prop :=
  ∃ (C0 : Confusions) (heap : IntHeap) (cs : List ConfCall), mcConfusions M D = .ok C0 ∧
    cs.foldlM (fun st c => ConfCall.run S c st) (C0, heap) = .ok st

theorem ConfReach.good {S : GoSort} {M : MultiClass F} {D : DataBunch F} {preds : List Nat} (hu : Usable M D preds)
    {st : Confusions × IntHeap} (h : ConfReach S M D st) : Good M.classLabels D.labels preds st.1 st.2 := by
  obtain ⟨C0, heap, cs, h1, h2⟩ := h
  obtain ⟨C, e, m, hm, hv, hi⟩ := mcConfusions_spec M D preds hu.pred hu.index
  rw [h1] at e
  cases e
  refine (calls_inv hu.nodup hu.index hu.len cs (st := (C0, heap)) ?_ h2).1
  exact ⟨m, Or.inl hm, Or.inl (by rw [hv]), Or.inl (by rw [hi]), by rw [hv]; intro h; cases h⟩

/-- **C48**: after any history of calls, `TopNForLabelM(N, lab)` returns nil for a label that the model does not know;
for the label `Labels[i]` it returns the indexes of `min N #labels` classes and their counts, largest first, none of
the counts left out being larger. (Indexes into `Labels`, not labels as the comment in the code says.) -/
theorem C48_topN (S : GoSort) (M : MultiClass F) (D : DataBunch F) (preds : List Nat) (hu : Usable M D preds)
    (C : Confusions) (h : IntHeap) (hr : ConfReach S M D (C, h)) (N : Nat) (lab : Int) (docopy : Bool) :
    (lab ∉ M.classLabels → ∃ C', C.topNForLabelM S N lab docopy h = .ok (C', h, none)) ∧
    (lab ∈ M.classLabels → ∃ C' h' si sv, C.topNForLabelM S N lab docopy h = .ok (C', h', some (si, sv)) ∧
      TopSpec (M.classLabels.map fun b => confCount M D preds lab b) N (si.read h') (sv.read h')) := by
  obtain ⟨t1, _, t3⟩ := topN_spec S hu.nodup (hr.good hu) hu.index hu.len N lab docopy
  constructor
  · intro hM
    obtain ⟨C', e, _⟩ := t1 hM N
    exact ⟨C', e⟩
  · intro hM
    obtain ⟨i, hi⟩ : ∃ i, M.classLabels.idxOf? lab = some i := by
      cases hq : M.classLabels.idxOf? lab with
      | none => exact absurd hM (List.idxOf?_eq_none_iff.1 hq)
      | some i => exact ⟨i, rfl⟩
    have hil := List.idxOf?_eq_some_iff.1 hi
    have hrow := countMatrix_row hu i lab (by
      rw [List.getElem?_eq_getElem hil.1]
      simpa using hil.2.1)
    obtain ⟨C', h', si, sv, e, _, r1, r2, _⟩ := t3 i _ hi hrow
    refine ⟨C', h', si, sv, e, ?_⟩
    rw [r1, r2]
    exact (memIntSort_spec S _ N).1

/-- A negative `N` panics. -/
theorem C48_negative (S : GoSort) (M : MultiClass F) (D : DataBunch F) (preds : List Nat) (hu : Usable M D preds)
    (C : Confusions) (h : IntHeap) (hr : ConfReach S M D (C, h)) (N : Int) (hN : N < 0) (lab : Int)
    (hlab : lab ∈ M.classLabels) (docopy : Bool) : C.topNForLabelM S N lab docopy h = .error .slice :=
  (topN_spec S hu.nodup (hr.good hu) hu.index hu.len 0 lab docopy).2.1 hlab N hN

example : ∃ C h, ConfReach GoSort.ins twoClass fourRows (C, h) ∧ h = [[1, 0], [0, 1]] := by
  have h0 : (do
      let C ← mcConfusions twoClass fourRows
      let st ← [ConfCall.topN 1 (-3) false].foldlM (fun st c => ConfCall.run GoSort.ins c st) (C, [])
      pure st.2 : Go IntHeap) = .ok [[1, 0], [0, 1]] := by decide +kernel
  obtain ⟨C, e0, h0⟩ := bind_ok h0
  obtain ⟨⟨C1, h1⟩, e1, h0⟩ := bind_ok h0
  cases h0
  exact ⟨C1, _, ⟨C, [], _, e0, e1⟩, rfl⟩

/-! ### C49 -/

/-- **C49, partial**: with `docopy` the returned slices keep their content through all later calls on the same
`Confusions`. Missing: calls without `docopy` (the default), for which the claim is false (`C49_violated`). -/
theorem C49_copy_partial (S : GoSort) (M : MultiClass F) (D : DataBunch F) (preds : List Nat) (hu : Usable M D preds)
    (C C' : Confusions) (h h' : IntHeap) (hr : ConfReach S M D (C, h)) (N lab : Int) (si sv : ISlice)
    (ht : C.topNForLabelM S N lab true h = .ok (C', h', some (si, sv)))
    (cs : List ConfCall) (C'' : Confusions) (h'' : IntHeap)
    (hcs : cs.foldlM (fun st c => ConfCall.run S c st) (C', h') = .ok (C'', h'')) :
    si.read h'' = si.read h' ∧ sv.read h'' = sv.read h' := by
  obtain ⟨g, _, c⟩ := topN_inv hu.nodup (hr.good hu) hu.index hu.len ht
  obtain ⟨s1, s2⟩ := c _ rfl rfl
  obtain ⟨_, k⟩ := calls_inv hu.nodup hu.index hu.len cs (st := (C', h')) g hcs
  exact ⟨(k _ s1).2, (k _ s2).2⟩

/-- **C49 (TopNPerLabel)**: the slices returned by `TopNPerLabel` keep their content through all later calls. -/
theorem C49_perLabel (S : GoSort) (M : MultiClass F) (D : DataBunch F) (preds : List Nat) (hu : Usable M D preds)
    (C C' : Confusions) (h h' : IntHeap) (hr : ConfReach S M D (C, h)) (N : Int) (rs : List (Option (ISlice × ISlice)))
    (ht : C.topNPerLabel S N h = .ok (C', h', rs))
    (cs : List ConfCall) (C'' : Confusions) (h'' : IntHeap)
    (hcs : cs.foldlM (fun st c => ConfCall.run S c st) (C', h') = .ok (C'', h'')) :
    ∀ si sv, some (si, sv) ∈ rs → si.read h'' = si.read h' ∧ sv.read h'' = sv.read h' := by
  intro si sv hm
  obtain ⟨g, _, c⟩ := topNLoop_inv hu.nodup hu.index hu.len _ (hr.good hu) ht
  obtain ⟨s1, s2⟩ := c _ hm
  obtain ⟨_, k⟩ := calls_inv hu.nodup hu.index hu.len cs (st := (C', h')) g hcs
  exact ⟨(k _ s1).2, (k _ s2).2⟩

/-- **C49 is violated** without `docopy`: the slices returned by a second call are the same memory. For the two labels of
`twoClass` the first result is [1,1] before the second call and [1,0] after it. -/
theorem C49_violated :
    ∃ C h, ConfReach GoSort.ins twoClass fourRows (C, h) ∧
    ∃ C1 h1 si sv, C.topNForLabelM GoSort.ins 2 7 false h = .ok (C1, h1, some (si, sv)) ∧
    ∃ C2 h2 si2 sv2, C1.topNForLabelM GoSort.ins 2 (-3) false h1 = .ok (C2, h2, some (si2, sv2)) ∧
      sv.read h1 = [1, 1] ∧ sv.read h2 = [1, 0] ∧ si2 = si ∧ sv2 = sv := by
  have h0 : (do
      let C ← mcConfusions twoClass fourRows
      let r1 ← C.topNForLabelM GoSort.ins 2 7 false []
      let r2 ← r1.1.topNForLabelM GoSort.ins 2 (-3) false r1.2.1
      pure (r1.2.1, r1.2.2, r2.2.1, r2.2.2) : Go _) =
      .ok ([[1, 1], [1, 0]], some (⟨1, 2⟩, ⟨0, 2⟩), [[1, 0], [0, 1]], some (⟨1, 2⟩, ⟨0, 2⟩)) := by decide +kernel
  obtain ⟨C, e0, h0⟩ := bind_ok h0
  obtain ⟨⟨C1, h1, r1⟩, e1, h0⟩ := bind_ok h0
  obtain ⟨⟨C2, h2, r2⟩, e2, h0⟩ := bind_ok h0
  simp only [pure, Except.pure, Except.ok.injEq, Prod.mk.injEq] at h0
  obtain ⟨rfl, rfl, rfl, rfl⟩ := h0
  exact ⟨C, [], ⟨C, [], [], e0, rfl⟩, C1, _, _, _, e1, C2, _, _, _, e2, by decide, by decide, rfl, rfl⟩

/-! ### C50 -/

/-- `line` is an entry of a names file: the number of a label, the separator and a name. Without a separator given, or
with a space, any white space separates and the name is a word. Otherwise the separator does not begin like a number
and does not occur in the name. -/
def NameLine (sep line : List Char) (num : Int) (name : List Char) : Prop :=
  IsInt64 num ∧
  if sep = [] ∨ sep = [' '] then
    ∃ ws, ws ≠ [] ∧ (∀ c ∈ ws, isSpace c = true ∧ c ≠ '\n') ∧ name ≠ [] ∧ (∀ c ∈ name, isSpace c = false) ∧
      line = fmtInt num ++ ws ++ name
  else
    (∀ c, sep.head? = some c → c.isDigit = false ∧ c ≠ '-') ∧ '\n' ∉ sep ∧ '\n' ∉ name ∧ ¬ sep <:+: name ∧
      line = fmtInt num ++ sep ++ name

theorem NameLine.noNewline {sep line name : List Char} {num : Int} (h : NameLine sep line num name) : '\n' ∉ line := by
  have hnum : '\n' ∉ fmtInt num := fun hm => by
    have := fmtInt_num num _ hm
    revert this; decide
  obtain ⟨_, h⟩ := h
  split at h
  · obtain ⟨ws, _, h2, _, h4, rfl⟩ := h
    intro hm
    rw [List.mem_append, List.mem_append] at hm
    rcases hm with (hm | hm) | hm
    · exact hnum hm
    · exact (h2 _ hm).2 rfl
    · have := h4 _ hm
      revert this; decide
  · obtain ⟨_, h2, h3, _, rfl⟩ := h
    intro hm
    rw [List.mem_append, List.mem_append] at hm
    rcases hm with (hm | hm) | hm
    · exact hnum hm
    · exact h2 hm
    · exact h3 hm

theorem strFields_spaces (ws b : List Char) (h : ∀ c ∈ ws, isSpace c = true) : strFields (ws ++ b) = strFields b := by
  induction ws with
  | nil => rfl
  | cons c ws ih =>
    have := strFields_append [] c (ws ++ b) (h c (by simp))
    rw [List.nil_append, strFields_nil, List.nil_append] at this
    rw [List.cons_append, this, ih fun x hx => h x (by simp [hx])]

/-- the separator that is used -/
def effSep (sep : List Char) : List Char := if sep = [] then [' '] else sep

theorem NameLine.entry {sep line name : List Char} {num : Int} (h : NameLine sep line num name) :
    nameEntry (effSep sep) (line ++ ['\n']) = .ok (some (num, name)) := by
  have hnl := h.noNewline
  obtain ⟨h64, h⟩ := h
  unfold nameEntry
  simp only [filter_newline line hnl]
  have hl : (if effSep sep = [' '] then strFields line else splitStr (effSep sep) line) = [fmtInt num, name] := by
    unfold effSep
    by_cases hs : sep = [] ∨ sep = [' ']
    · rw [if_pos hs] at h
      obtain ⟨ws, h1, h2, h3, h4, rfl⟩ := h
      have : (if sep = [] then [' '] else sep) = [' '] := by rcases hs with rfl | rfl <;> simp
      rw [if_pos this]
      obtain ⟨c, ws', rfl⟩ := List.exists_cons_of_ne_nil h1
      rw [List.append_assoc, List.cons_append, strFields_append _ _ _ (h2 c (by simp)).1,
        strFields_word _ (fmtInt_ne_nil num) fun c hc => (numChar_plain (fmtInt_num num c hc)).1,
        strFields_spaces _ _ fun x hx => (h2 x (by simp [hx])).1, strFields_word _ h3 h4]
      rfl
    · rw [if_neg hs] at h
      rw [not_or] at hs
      obtain ⟨h1, _, _, h4, rfl⟩ := h
      rw [if_neg hs.1, if_neg hs.2]
      apply splitStr_two _ _ _ hs.1 _ h4
      intro c hc e
      obtain ⟨a, b⟩ := h1 c e
      rcases fmtInt_chars num c hc with h | h
      · rw [h] at a; cases a
      · exact b h
  rw [hl]
  simp only [atoi_fmtInt num h64]

theorem nameLoop_entries (sep : List Char) (es : List (List Char × Int × List Char))
    (h : ∀ e ∈ es, NameLine sep e.1 e.2.1 e.2.2) (m : NameMap) (rest : List (List Char)) :
    nameLoop (effSep sep) (nls (es.map (·.1)) ++ rest) m =
      nameLoop (effSep sep) rest (es.foldl (fun m e => m.put e.2.1 e.2.2) m) := by
  induction es generalizing m with
  | nil => rfl
  | cons e es ih =>
    rw [List.map_cons, nls_cons, List.cons_append, nameLoop, (h e (by simp)).entry]
    simp only [bind, Except.bind]
    exact ih (fun x hx => h x (by simp [hx])) _

theorem put_fold (es : List (List Char × Int × List Char)) (m : NameMap) (k : Int) :
    (es.foldl (fun m e => NameMap.put m e.2.1 e.2.2) m) k =
      match (es.filter fun e => decide (e.2.1 = k)).getLast? with
      | some e => some e.2.2
      | none => m k := by
  induction es generalizing m with
  | nil => rfl
  | cons e es ih =>
    rw [List.foldl_cons, ih, List.filter_cons]
    by_cases he : e.2.1 = k
    · simp only [he, decide_true, if_true, List.getLast?_cons]
      cases hq : (es.filter fun e => decide (e.2.1 = k)).getLast? with
      | some x => simp
      | none => simp [NameMap.put]
    · simp only [he, decide_false]
      cases hq : (es.filter fun e => decide (e.2.1 = k)).getLast? with
      | some x => simp [hq]
      | none =>
        have : k ≠ e.2.1 := fun x => he x.symm
        simp [hq, NameMap.put, this]

/-- **C50, partial**: for a names file of which every line ends in a newline, `ReadNameMap` returns no error and a map
with the name of every line, later lines overriding earlier ones, and nothing else.
Missing: a last line without newline, and read errors (`C50_violated`). -/
theorem C50_read_partial (sep : List Char) (es : List (List Char × Int × List Char))
    (h : ∀ e ∈ es, NameLine sep e.1 e.2.1 e.2.2) :
    ∃ m, readNameMap (unlines (es.map (·.1))) false sep = .ok ⟨some m, false⟩ ∧
      ∀ k, m k = ((es.filter fun e => decide (e.2.1 = k)).getLast?).map (·.2.2) := by
  have hl := linesOf_unlines (es.map (·.1)) [] (by
    intro l hl
    rw [List.mem_map] at hl
    obtain ⟨e, he, rfl⟩ := hl
    exact (h e he).noNewline)
  rw [List.append_nil] at hl
  refine ⟨es.foldl (fun m e => m.put e.2.1 e.2.2) fun _ => none, ?_, ?_⟩
  · unfold readNameMap
    rw [hl]
    have := nameLoop_entries sep es h (fun _ => none) (linesOf [])
    simp only [bind, Except.bind]
    rw [show (if sep = [] then [' '] else sep) = effSep sep from rfl, this]
    rfl
  · intro k
    rw [put_fold]
    cases ((es.filter fun e => decide (e.2.1 = k)).getLast?) <;> rfl

example : NameLine [] "1  cat".toList 1 "cat".toList ∧ NameLine ",".toList "-2,big cat".toList (-2) "big cat".toList :=
  ⟨⟨by unfold IsInt64; decide, by rw [if_pos (by decide)]; exact ⟨"  ".toList, by decide, by decide, by decide, by decide, by decide⟩⟩,
   ⟨by unfold IsInt64; decide, by
    rw [if_neg (by decide)]
    refine ⟨?_, by decide, by decide, by decide, by decide⟩
    intro c hc
    have : ',' = c := by simpa using hc
    subst this
    decide⟩⟩

/-- **C50 is violated**: a last line without newline is dropped without an error, whatever it is; and a read error is
not reported, whatever was read before. -/
theorem C50_violated (sep : List Char) (es : List (List Char × Int × List Char))
    (h : ∀ e ∈ es, NameLine sep e.1 e.2.1 e.2.2) (last : List Char × Int × List Char)
    (hlast : NameLine sep last.1 last.2.1 last.2.2) (hnew : ∀ e ∈ es, e.2.1 ≠ last.2.1) :
    (∃ m, readNameMap (unlines (es.map (·.1)) ++ last.1) false sep = .ok ⟨some m, false⟩ ∧ m last.2.1 = none) ∧
    ∃ m, readNameMap (unlines (es.map (·.1))) true sep = .ok ⟨some m, false⟩ := by
  obtain ⟨m, h1, h2⟩ := C50_read_partial sep es h
  have hl : ∀ l ∈ es.map (·.1), '\n' ∉ l := by
    intro l hl
    rw [List.mem_map] at hl
    obtain ⟨e, he, rfl⟩ := hl
    exact (h e he).noNewline
  refine ⟨⟨m, ?_, ?_⟩, m, h1⟩
  · rw [← h1]
    unfold readNameMap
    have e1 := linesOf_unlines (es.map (·.1)) last.1 hl
    have e2 := linesOf_unlines (es.map (·.1)) [] hl
    rw [List.append_nil] at e2
    rw [e1, e2, linesOf_part _ hlast.noNewline]
    rfl
  · rw [h2, List.filter_eq_nil_iff.2]
    · rfl
    · intro e he
      simpa using hnew e he

/-- **C44 is violated** by `ReadNameMap` too: a blank line, or a line with only a number, after any number of good lines
panics. -/
theorem C44_names_violated (sep : List Char) (es : List (List Char × Int × List Char))
    (h : ∀ e ∈ es, NameLine sep e.1 e.2.1 e.2.2) (num : Int) (hn : IsInt64 num) (hsep : sep = [] ∨ sep = [' '])
    (rest : List Char) (readErr : Bool) :
    readNameMap (unlines (es.map (·.1) ++ [[]]) ++ rest) readErr sep = .error .index ∧
    readNameMap (unlines (es.map (·.1) ++ [fmtInt num]) ++ rest) readErr sep = .error .index := by
  have key : ∀ bad : List Char, '\n' ∉ bad → nameEntry [' '] (bad ++ ['\n']) = .error .index →
      readNameMap (unlines (es.map (·.1) ++ [bad]) ++ rest) readErr sep = .error .index := by
    intro bad hb he
    have hl : ∀ l ∈ es.map (·.1) ++ [bad], '\n' ∉ l := by
      intro l hl
      rw [List.mem_append, List.mem_map] at hl
      rcases hl with ⟨e, he, rfl⟩ | hl
      · exact (h e he).noNewline
      · rw [List.mem_singleton] at hl; subst hl; exact hb
    unfold readNameMap
    rw [linesOf_unlines _ _ hl, nls_append, List.append_assoc]
    have := nameLoop_entries sep es h (fun _ => none) (nls [bad] ++ linesOf rest)
    simp only [bind, Except.bind]
    rw [show (if sep = [] then [' '] else sep) = effSep sep from rfl, this, nls_cons, List.cons_append, nameLoop]
    have hs : effSep sep = [' '] := by rcases hsep with rfl | rfl <;> rfl
    rw [hs, he]
    rfl
  constructor
  · exact key [] (by simp) (by decide)
  · have hnum : '\n' ∉ fmtInt num := fun hm => by
      have := fmtInt_num num _ hm
      revert this; decide
    refine key _ hnum ?_
    unfold nameEntry
    simp only [filter_newline _ hnum, if_true]
    rw [strFields_word _ (fmtInt_ne_nil num) fun c hc => (numChar_plain (fmtInt_num num c hc)).1]
    simp only [atoi_fmtInt num hn]

/-- **C44 (names), partial**: `ReadNameMap` does not panic when every complete line has two fields or begins with
a field that is not a number. Missing: other lines (`C44_names_violated`). -/
theorem C44_names_partial (text : List Char) (readErr : Bool) (sep : List Char)
    (h : ∀ l ∈ linesOf text, ∃ f rest,
      (if effSep sep = [' '] then strFields (l.filter (· ≠ '\n')) else splitStr (effSep sep) (l.filter (· ≠ '\n'))) =
        f :: rest ∧ (rest ≠ [] ∨ atoi f = none)) :
    ∃ r, readNameMap text readErr sep = .ok r := by
  unfold readNameMap
  simp only [bind, Except.bind]
  rw [show (if sep = [] then [' '] else sep) = effSep sep from rfl]
  have : ∀ (ls : List (List Char)) (m : NameMap), (∀ l ∈ ls, l ∈ linesOf text) →
      ∃ o, nameLoop (effSep sep) ls m = .ok o := by
    intro ls
    induction ls with
    | nil => exact fun m _ => ⟨_, rfl⟩
    | cons l ls ih =>
      intro m hl
      obtain ⟨f, rest, h1, h2⟩ := h l (hl l (by simp))
      rw [nameLoop]
      have : ∃ o, nameEntry (effSep sep) l = .ok o := by
        unfold nameEntry
        simp only [h1]
        cases ha : atoi f with
        | none => exact ⟨_, rfl⟩
        | some n =>
          rcases h2 with h2 | h2
          · obtain ⟨a, b, rfl⟩ := List.exists_cons_of_ne_nil h2
            exact ⟨_, rfl⟩
          · rw [ha] at h2; cases h2
      obtain ⟨o, ho⟩ := this
      rw [ho]
      simp only [bind, Except.bind]
      cases o with
      | none => exact ⟨_, rfl⟩
      | some p => exact ih _ fun x hx => hl x (by simp [hx])
  obtain ⟨o, ho⟩ := this (linesOf text) (fun _ => none) fun _ h => h
  rw [ho]
  cases o <;> exact ⟨_, rfl⟩

/-- **C50 (simple names)**: `MakeSimpleNameMap` names every label by its number and has no other key. -/
theorem C50_simple (labels : List Int) (k : Int) :
    makeSimpleNameMap labels k = if k ∈ labels then some (fmtInt k) else none := by
  unfold makeSimpleNameMap
  rw [makeSimple_aux]

/-! ### C67: printing the most frequent predictions -/

/-- the text of a line of `PrintTopN`: the name of the label (empty if it has none), then `name:count` for the predictions with a count -/
def topText (labels : List Int) (m : NameMap) (lab : Int) (idx vals : List Nat) : List Char :=
  strJoin (("Label ".toList ++ (m lab).getD [] ++ [' ']) ::
    ((idx.zip vals).filter fun e => decide (e.2 ≠ 0)).map fun e => (m (labels.getD e.1 0)).getD [] ++ ':' :: fmtNat e.2) [' ']

theorem topEntries_spec (labels : List Int) (m : NameMap) (idx vals : List Nat) (hl : idx.length = vals.length)
    (hi : ∀ j ∈ idx, j < labels.length) :
    topEntries labels m idx.length idx vals = .ok (((idx.zip vals).filter fun e => decide (e.2 ≠ 0)).map fun e =>
      m.get (labels.getD e.1 0) ++ ':' :: fmtNat e.2) := by
  induction idx generalizing vals with
  | nil => rfl
  | cons j js ih =>
    cases vals with
    | nil => simp at hl
    | cons v vs =>
      have ih' := ih vs (by simpa using hl) fun x hx => hi x (by simp [hx])
      rw [List.length_cons, topEntries, List.zip_cons_cons, List.filter_cons]
      by_cases hv : v = 0
      · simp only [hv, if_true, ne_eq, not_true_eq_false, decide_false, Bool.false_eq_true, if_false]
        simp only [ne_eq] at ih'
        exact ih'
      · have hj := hi j (by simp)
        have hg : goIdx labels j = .ok (labels.getD j 0) := by
          rw [goIdx_ok, List.getD_eq_getElem?_getD, List.getElem?_eq_getElem hj]
          rfl
        simp only [hv, if_false, ne_eq, not_false_eq_true, decide_true, if_true, List.map_cons, hg, bind, Except.bind]
        simp only [ne_eq] at ih'
        rw [ih']
        rfl

theorem topLine_spec (labels : List Int) (m : NameMap) (N : Nat) (hN : 1 ≤ N) (lab : Int) (row idx vals : List Nat)
    (hr : row.length = labels.length) (ht : TopSpec row N idx vals) :
    topLine labels m N lab idx vals = .ok (if row.sum = 0 then none else some (topText labels m lab idx vals)) := by
  obtain ⟨t1, t2, t3, t4, t5, t6⟩ := ht
  have hz : vals.sum = 0 ↔ row.sum = 0 := by
    rw [List.sum_eq_zero_iff, List.sum_eq_zero_iff]
    constructor
    · intro h x hx
      obtain ⟨j, hj⟩ := List.mem_iff_getElem?.1 hx
      by_cases hm : j ∈ idx
      · obtain ⟨k, hk⟩ := List.mem_iff_getElem?.1 hm
        obtain ⟨y, y1, y2⟩ := t4 k j hk
        rw [hj] at y1
        cases y1
        exact h _ (List.mem_of_getElem? y2)
      · have hne : vals ≠ [] := by
          intro e
          rw [e, List.length_nil] at t2
          have := (List.getElem?_eq_some_iff.1 hj).1
          omega
        obtain ⟨v, vs, rfl⟩ := List.exists_cons_of_ne_nil hne
        have := t6 j x hj hm v (by simp)
        have := h v (by simp)
        omega
    · intro h v hv
      obtain ⟨k, hk⟩ := List.mem_iff_getElem?.1 hv
      have hkl : k < idx.length := by
        have := (List.getElem?_eq_some_iff.1 hk).1
        omega
      obtain ⟨y, y1, y2⟩ := t4 k _ (List.getElem?_eq_getElem hkl)
      rw [hk] at y2
      cases y2
      exact h _ (List.mem_of_getElem? y1)
  have hn : (if ((idx.length : Nat) : Int) < (N : Int) then idx.length else (N : Int).toNat) = idx.length := by
    split
    · rfl
    · have : (N : Int).toNat = N := by simp
      omega
  unfold topLine
  rw [if_neg (by omega)]
  by_cases hs : row.sum = 0
  · rw [if_pos (hz.2 hs), if_pos hs]
  · rw [if_neg (fun e => hs (hz.1 e)), if_neg hs]
    simp only [hn]
    rw [topEntries_spec labels m idx vals (by omega)]
    · rfl
    · intro j hj
      obtain ⟨k, hk⟩ := List.mem_iff_getElem?.1 hj
      obtain ⟨y, y1, _⟩ := t4 k j hk
      have := (List.getElem?_eq_some_iff.1 y1).1
      omega

/-- what the loop of `TopNPerLabel` returns, read in the final memory -/
theorem topNLoop_spec {M : MultiClass F} {D : DataBunch F} {preds : List Nat} (hu : Usable M D preds) (S : GoSort) (N : Nat)
    (vs : List Int) (hvs : ∀ v ∈ vs, v ∈ M.classLabels) :
    ∀ {C : Confusions} {h : IntHeap}, Good M.classLabels D.labels preds C h →
    ∃ C' h' rs, Confusions.topNLoop S N vs C h = .ok (C', h', rs) ∧ C'.labels = M.classLabels ∧
      (∀ s, Sep s C h → Sep s C' h' ∧ s.read h' = s.read h) ∧
      List.Forall₂ (fun v r => ∃ si sv, r = some (si, sv) ∧ Sep si C' h' ∧ Sep sv C' h' ∧
        TopSpec (M.classLabels.map fun b => confCount M D preds v b) N (si.read h') (sv.read h')) vs rs := by
  induction vs with
  | nil =>
    intro C h hg
    exact ⟨C, h, [], rfl, hg.made.2.1, fun s hs => ⟨hs, rfl⟩, List.Forall₂.nil⟩
  | cons v vs ih =>
    intro C h hg
    have hM := hvs v (by simp)
    obtain ⟨i, hi⟩ : ∃ i, M.classLabels.idxOf? v = some i := by
      cases hq : M.classLabels.idxOf? v with
      | none => exact absurd hM (List.idxOf?_eq_none_iff.1 hq)
      | some i => exact ⟨i, rfl⟩
    have hil := List.idxOf?_eq_some_iff.1 hi
    have hrow := countMatrix_row hu i v (by
      rw [List.getElem?_eq_getElem hil.1]
      simpa using hil.2.1)
    obtain ⟨C1, h1, si, sv, e, g1, r1, r2, s1, c1⟩ :=
      (topN_spec S hu.nodup hg hu.index hu.len N v true).2.2 i _ hi hrow
    obtain ⟨C2, h2, rs, e2, l2, s2, f2⟩ := ih (fun x hx => hvs x (by simp [hx])) g1
    obtain ⟨d1, d2⟩ := c1 rfl
    refine ⟨C2, h2, some (si, sv) :: rs, ?_, l2, ?_, List.Forall₂.cons ⟨si, sv, rfl, (s2 _ d1).1, (s2 _ d2).1, ?_⟩ f2⟩
    · rw [Confusions.topNLoop, e]
      simp only [bind, Except.bind, e2, pure, Except.pure]
    · intro s hs
      obtain ⟨a, b⟩ := s1 s hs
      obtain ⟨c, d⟩ := s2 s a
      exact ⟨c, d.trans b⟩
    · rw [(s2 _ d1).2, (s2 _ d2).2, r1, r2]
      exact (memIntSort_spec S _ N).1

/-- **C67**: for `N >= 1`, after any history of calls, `PrintTopN` returns a header and one line for each label of the
model that occurs in the data, in the order of `Labels`; the line lists the predictions that `TopNForLabelM` gives for
the label, except those with count 0. -/
theorem C67_print (S : GoSort) (M : MultiClass F) (D : DataBunch F) (preds : List Nat) (hu : Usable M D preds)
    (C : Confusions) (h : IntHeap) (hr : ConfReach S M D (C, h)) (N : Nat) (hN : 1 ≤ N) (m : NameMap) :
    ∃ C' h' text, C.printTopN S N m h = .ok (C', h', text) ∧ ∃ tops : Int → List Nat × List Nat,
      (∀ lab ∈ M.classLabels,
        TopSpec (M.classLabels.map fun b => confCount M D preds lab b) N (tops lab).1 (tops lab).2) ∧
      text = strJoin ("Confusions:".toList :: (M.classLabels.filter fun lab => decide (lab ∈ D.labels)).map fun lab =>
        topText M.classLabels m lab (tops lab).1 (tops lab).2) ['\n'] := by
  have hg := hr.good hu
  obtain ⟨C', h', rs, e, l, _, f⟩ := topNLoop_spec hu S N C.labels (by rw [hg.made.2.1]; exact fun _ h => h) hg
  rw [hg.made.2.1] at f
  have hlines : ∀ (vs : List Int) (rs : List (Option (ISlice × ISlice))), vs.Nodup →
      List.Forall₂ (fun v r => ∃ si sv, r = some (si, sv) ∧ Sep si C' h' ∧ Sep sv C' h' ∧
        TopSpec (M.classLabels.map fun b => confCount M D preds v b) N (si.read h') (sv.read h')) vs rs →
      ∃ tops : Int → List Nat × List Nat, (∀ lab ∈ vs,
        TopSpec (M.classLabels.map fun b => confCount M D preds lab b) N (tops lab).1 (tops lab).2) ∧
        topLines M.classLabels m N h' (vs.zip rs) = .ok ((vs.filter fun lab => decide (lab ∈ D.labels)).map fun lab =>
          topText M.classLabels m lab (tops lab).1 (tops lab).2) := by
    intro vs rs hnd hf
    induction hf with
    | nil => exact ⟨fun _ => ([], []), by simp, rfl⟩
    | @cons v r vs rs hv hrest ih =>
      obtain ⟨tops, p1, p2⟩ := ih (List.nodup_cons.1 hnd).2
      obtain ⟨si, sv, rfl, _, _, ht⟩ := hv
      have hnv := (List.nodup_cons.1 hnd).1
      have hne : ∀ lab ∈ vs, lab ≠ v := fun lab hl e => hnv (e ▸ hl)
      refine ⟨fun x => if x = v then (si.read h', sv.read h') else tops x, ?_, ?_⟩
      · intro lab hlab
        rw [List.mem_cons] at hlab
        rcases hlab with rfl | hlab
        · simpa using ht
        · simpa [hne lab hlab] using p1 lab hlab
      · rw [List.zip_cons_cons, topLines]
        simp only [Option.map_some, Option.getD_some]
        rw [topLine_spec M.classLabels m N hN v _ _ _ (by simp) ht, confRow_sum hu v]
        simp only [bind, Except.bind, p2, pure, Except.pure]
        have hmap : ((vs.filter fun lab => decide (lab ∈ D.labels)).map fun lab =>
            topText M.classLabels m lab (tops lab).1 (tops lab).2) =
            (vs.filter fun lab => decide (lab ∈ D.labels)).map fun lab => topText M.classLabels m lab
              (if lab = v then (si.read h', sv.read h') else tops lab).1
              (if lab = v then (si.read h', sv.read h') else tops lab).2 := by
          apply List.map_congr_left
          intro lab hlab
          rw [if_neg (hne lab (List.mem_filter.1 hlab).1)]
        rw [hmap, List.filter_cons]
        by_cases hd : v ∈ D.labels
        · have : D.labels.count v ≠ 0 := by
            rw [ne_eq, List.count_eq_zero]; exact fun h => h hd
          simp [hd, this]
        · have : D.labels.count v = 0 := List.count_eq_zero.2 hd
          simp [hd, this]
  obtain ⟨tops, t1, t2⟩ := hlines M.classLabels rs hu.nodup f
  refine ⟨C', h', _, ?_, tops, t1, rfl⟩
  unfold Confusions.printTopN Confusions.topNPerLabel
  rw [e]
  simp only [bind, Except.bind, l, t2, pure, Except.pure]

/-- For `N < 1` it panics (if the model has a label). -/
theorem C67_small (S : GoSort) (M : MultiClass F) (D : DataBunch F) (preds : List Nat) (hu : Usable M D preds)
    (C : Confusions) (h : IntHeap) (hr : ConfReach S M D (C, h)) (N : Int) (hN : N < 1) (hne : M.classLabels ≠ [])
    (m : NameMap) : C.printTopN S N m h = .error .slice := by
  have hg := hr.good hu
  unfold Confusions.printTopN Confusions.topNPerLabel
  rw [hg.made.2.1]
  obtain ⟨a, l, hal⟩ := List.exists_cons_of_ne_nil hne
  by_cases h0 : N < 0
  · rw [hal, Confusions.topNLoop, C48_negative S M D preds hu C h hr N h0 a (by rw [hal]; simp)]
    rfl
  · have : N = ((0 : Nat) : Int) := by omega
    subst this
    obtain ⟨C', h', rs, e, hl, _, f⟩ := topNLoop_spec hu S 0 M.classLabels (fun _ h => h) hg
    rw [e]
    simp only [bind, Except.bind, hl]
    rw [hal] at f ⊢
    cases f with
    | @cons _ r _ rs hv hrest =>
      rw [List.zip_cons_cons, topLines]
      simp only [topLine]
      rw [if_pos (by omega)]
      rfl

example : (do
    let C ← mcConfusions twoClass fourRows
    let r ← C.printTopN GoSort.ins 2 (makeSimpleNameMap [7, -3]) []
    pure r.2.2 : Go (List Char)) = .ok "Confusions:\nLabel 7  -3:1 7:1\nLabel -3  7:1".toList := by decide +kernel

end Boo
