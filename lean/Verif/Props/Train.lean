import Verif.Lemmas.TrainTotal
import Verif.Props.Predict

/-!
# C20–C23, C27: training
-/

namespace Boo
open GoFloat
set_option linter.unusedSectionVars false
variable {F : Type} [GoFloat F]

theorem newMultiClass_inv {exp : F → F} {S : GoSort} {draws : Nat → F} {D : DataBunch F} {O : Options F}
    {M : MultiClass F} (h : newMultiClass exp S draws D O = .ok M) :
    ∃ labels st, train exp S draws D O = .ok (labels, st) ∧ M = toModel exp O labels st := by
  unfold newMultiClass at h
  obtain ⟨⟨labels, st⟩, h1, h2⟩ := bind_ok h
  simp only [pure, Except.pure, Except.ok.injEq] at h2
  exact ⟨labels, st, h1, h2.symm⟩

/-! ### C20 -/

theorem rawScores_length {M : MultiClass F} {row s : List F} (h : M.rawScores row = .ok s) :
    ∃ b0, M.b[0]? = some b0 ∧ s.length = b0.length := by
  unfold MultiClass.rawScores at h
  obtain ⟨b0, hb, h⟩ := bind_ok h
  refine ⟨b0, goIdx_ok.1 hb, ?_⟩
  have hadd : ∀ (ts : List (Tree F)) c (tmp tmp' : List F), addRound M.learningRate row ts c tmp = .ok tmp' →
      tmp'.length = tmp.length := by
    intro ts
    induction ts with
    | nil => intro c tmp tmp' h; simp only [addRound, Except.ok.injEq] at h; rw [h]
    | cons t ts ih =>
      intro c tmp tmp' h
      unfold addRound at h
      obtain ⟨p, _, h⟩ := bind_ok h
      obtain ⟨tmp1, h1, h⟩ := bind_ok h
      rw [ih _ _ _ h]
      unfold addAt at h1
      split at h1
      · cases h1; simp
      · cases h1
  exact foldlM_inv _ (fun s => s.length = b0.length) M.b
    (fun b a b' _ hb hf => by rw [hadd _ _ _ _ hf, hb]) _ s (by simp) h

/-- **C20, partial**: when every round has a tree for every class (always the case with `EarlyStop` off,
`C20_no_early_stop`), `PredictSingle` on a training row returns exactly the probabilities the training loop ended with,
and the raw scores are exactly its raw predictions; bit for bit, in any arithmetic in which `base * 1 = base`.
Missing: models in which a class was stopped early, for which the claim is false (`C20_violated`). -/
theorem C20_partial (exp : F → F) (S : GoSort) (draws : Nat → F) (D : DataBunch F) (O : Options F)
    (labels : List Int) (st : TrainState F) (h : train exp S draws D O = .ok (labels, st))
    (hd : D.data.length = D.labels.length) (hb : (O.baseScore *. one) = O.baseScore)
    (hfull : ∀ ens ∈ st.boosters, ens.length = labels.length) (hne : st.boosters ≠ [])
    (i : Nat) (row : List F) (hi : D.data[i]? = some row) :
    (toModel exp O labels st).rawScores row = .ok (st.rawPred.row i) ∧
    (toModel exp O labels st).predictSingle row = .ok (st.probs.row i) := by
  obtain ⟨hl, hlab, ohe, st0, _, hr, hc, hw, hinit, hrounds⟩ := train_inv h
  obtain ⟨i1, i2, _, _, _, _, i7⟩ := trainInit_inv hinit hr hc
  obtain ⟨j1, j2, j3⟩ := trainRounds_inv hrounds i1 hd i2
  have hin : i < D.labels.length := by rw [← hd]; exact (List.getElem?_eq_some_iff.1 hi).1
  have hR0 : RawInv O.baseScore O.fixMcw.learningRate labels.length D.data st0 [] := by
    intro i row hi
    have hin : i < D.labels.length := by rw [← hd]; exact (List.getElem?_eq_some_iff.1 hi).1
    unfold scoreOf
    rw [i2, i7 i hin, hb]
    rfl
  have hR := j3 hfull O.baseScore hR0 i row hi
  rw [(Options.fixMcw_lr O).1] at hR
  have hraw : (toModel exp O labels st).rawScores row = .ok (st.rawPred.row i) := by
    unfold MultiClass.rawScores
    obtain ⟨b0, bs, hbs⟩ := List.exists_cons_of_ne_nil hne
    have hb0 : b0.length = labels.length := hfull b0 (by simp [hbs])
    have e : goIdx (toModel exp O labels st).b 0 = .ok b0 := goIdx_ok.2 (by simp [toModel, hbs])
    simp only [e, bind, Except.bind]
    unfold scoreOf at hR
    obtain ⟨s, hs, hs'⟩ := bind_ok hR
    simp only [addRound, Except.ok.injEq] at hs'
    rw [← hs', hb0]
    exact hs
  refine ⟨hraw, ?_⟩
  rw [predictSingle_softmax exp _ rfl row _ hraw, j1.soft i hin]
  intro hnil
  have hlen := Dense.row_length j1.rawWF (i := i) (by rw [j1.rawR]; exact hin)
  rw [hnil, j1.rawC, ← hc] at hlen
  have h0 : 0 < labels.length := by
    obtain ⟨x, l, hx⟩ := List.exists_cons_of_ne_nil hl
    rw [hlab]
    exact List.length_pos_of_mem (((C39_distinct D.labels).2.1 x).2 (by rw [hx]; simp))
  simp at hlen
  omega

/-! ### no stopping with `EarlyStop <= 0` -/

theorem trainClasses_off {exp : F → F} {S : GoSort} {data : List (List F)} {O : Options F} {ohe : Dense F}
    {indexes : Option (List Nat)} {cols : List Nat} {round : Nat} (he : O.earlyStop ≤ 0)
    (q : Nat) (st : TrainState F) (acc' : TrainState F × List (Tree F)) (hs : ∀ k, st.stopped.getD k false = false)
    (h : (List.range q).foldlM (trainClass (softMaxDense exp) S data O ohe indexes cols round) (st, []) = .ok acc') :
    acc'.2.length = q ∧ acc'.1.stopped = st.stopped := by
  induction q generalizing acc' with
  | zero =>
    simp only [List.range_zero, List.foldlM_nil, pure, Except.pure, Except.ok.injEq] at h
    subst h
    exact ⟨rfl, rfl⟩
  | succ q ih =>
    rw [List.range_succ, List.foldlM_append] at h
    obtain ⟨acc, h1, h2⟩ := bind_ok h
    rw [List.foldlM_cons] at h2
    obtain ⟨acc'', h3, h4⟩ := bind_ok h2
    simp only [List.foldlM_nil, pure, Except.pure, Except.ok.injEq] at h4
    subst h4
    obtain ⟨a1, a2⟩ := ih acc h1
    rcases trainClass_inv h3 with ⟨hst, rfl⟩ | ⟨_, tree, ht, ⟨s⟩⟩
    · rw [a2, hs] at hst; cases hst
    · refine ⟨by rw [ht]; simp [a1], ?_⟩
      rw [s.hst, earlyStopping_off O he]
      exact a2

/-- **C27 (off)**: with `EarlyStop <= 0` no class is ever stopped: after any number of rounds all flags are false and
every round has one tree per class. -/
theorem C27_off (exp : F → F) (S : GoSort) (data : List (List F)) (O : Options F) (ohe : Dense F) (m : Nat)
    (he : O.earlyStop ≤ 0) (st st' : TrainState F) (q : Nat) (hs : st.stopped = List.replicate m false)
    (hf : ∀ ens ∈ st.boosters, ens.length = m)
    (h : (List.range q).foldlM (trainRound (softMaxDense exp) S data O ohe m) st = .ok st') :
    st'.stopped = List.replicate m false ∧ ∀ ens ∈ st'.boosters, ens.length = m := by
  refine foldlM_inv _ (fun st => st.stopped = List.replicate m false ∧ ∀ ens ∈ st.boosters, ens.length = m) _
    ?_ st st' ⟨hs, hf⟩ h
  rintro b r b' _ ⟨h1, h2⟩ hstep
  have hno : ∀ k, b.stopped.getD k false = false := by
    intro k
    rw [h1, List.getD_eq_getElem?_getD, List.getElem?_replicate]
    split <;> rfl
  obtain ⟨idx, cols, dr, _, ⟨_, rfl⟩ | ⟨_, acc, hacc, rfl⟩⟩ := trainRound_inv hstep
  · exact ⟨h1, h2⟩
  · obtain ⟨a1, a2⟩ := trainClasses_off he m { b with draws := dr } acc hno hacc
    have hbo : acc.1.boosters = b.boosters := by
      refine foldlM_inv _ (fun a : TrainState F × List (Tree F) => a.1.boosters = b.boosters) _ ?_ _ acc rfl hacc
      intro a k a' _ ha hk
      rcases trainClass_inv hk with ⟨_, rfl⟩ | ⟨_, tree, ht, ⟨s⟩⟩
      · exact ha
      · rw [s.hst, (earlyStopping_raw _ _ _ _ _).2.2.2.1]
        exact ha
    refine ⟨by simp only; rw [a2]; exact h1, ?_⟩
    intro ens hens
    simp only [hbo, List.mem_append, List.mem_singleton] at hens
    rcases hens with hens | rfl
    · exact h2 ens hens
    · exact a1

theorem train_off {exp : F → F} {S : GoSort} {draws : Nat → F} {D : DataBunch F} {O : Options F}
    {labels : List Int} {st : TrainState F} (h : train exp S draws D O = .ok (labels, st)) (he : O.earlyStop ≤ 0) :
    (∀ k, st.stopped.getD k false = false) ∧ ∀ ens ∈ st.boosters, ens.length = labels.length := by
  obtain ⟨_, _, ohe, st0, _, hr, hc, _, hinit, hrounds⟩ := train_inv h
  obtain ⟨_, i2, _, i4, _⟩ := trainInit_inv hinit hr hc
  obtain ⟨h1, h2⟩ := C27_off exp S D.data O.fixMcw ohe labels.length (by rw [(Options.fixMcw_lr O).2.2.1]; exact he)
    st0 st _ i4 (by simp [i2]) hrounds
  refine ⟨fun k => ?_, h2⟩
  rw [h1, List.getD_eq_getElem?_getD, List.getElem?_replicate]
  split <;> rfl

/-- **C20 with early stopping off**: the hypothesis of `C20_partial` holds for every data set, option set and draw
sequence. -/
theorem C20_no_early_stop_partial (exp : F → F) (S : GoSort) (draws : Nat → F) (D : DataBunch F) (O : Options F)
    (labels : List Int) (st : TrainState F) (h : train exp S draws D O = .ok (labels, st))
    (hd : D.data.length = D.labels.length) (hb : (O.baseScore *. one) = O.baseScore)
    (he : O.earlyStop ≤ 0) (hne : st.boosters ≠ [])
    (i : Nat) (row : List F) (hi : D.data[i]? = some row) :
    (toModel exp O labels st).predictSingle row = .ok (st.probs.row i) :=
  (C20_partial exp S draws D O labels st h hd hb (train_off h he).2 hne i row hi).2

/-! ### C23: the class index is a valid label index -/

/-- **C23 (label)**: for a model made by `NewMultiClass` the returned index is an index into the labels. -/
theorem C23_label (exp : F → F) (S : GoSort) (draws : Nat → F) (D : DataBunch F) (O : Options F) [GoFloatOrd F]
    (M : MultiClass F) (h : newMultiClass exp S draws D O = .ok M) (hd : D.data.length = D.labels.length)
    (row : List F) (j : Nat) (hj : M.predictSingleClass row = .ok j) : j < M.classLabels.length := by
  obtain ⟨labels, st, ht, rfl⟩ := newMultiClass_inv h
  obtain ⟨hl, hlab, ohe, st0, _, hr, hc, hw, hinit, hrounds⟩ := train_inv ht
  obtain ⟨i1, i2, _⟩ := trainInit_inv hinit hr hc
  obtain ⟨_, j2, _⟩ := trainRounds_inv hrounds i1 hd i2
  obtain ⟨probs, hp, m, hm, _⟩ := C23_first_most_probable _ row j hj
  have hp' := hp
  unfold MultiClass.predictSingle at hp'
  obtain ⟨raw, hraw, _⟩ := bind_ok hp'
  obtain ⟨b0, hb0, hlen⟩ := rawScores_length hraw
  have hne : raw ≠ [] := by
    intro hn
    rw [hraw] at hp'
    simp [hn, newDense, bind, Except.bind] at hp'
  rw [predictSingle_softmax exp _ rfl row raw hraw hne,
    show softMax exp raw none = softMax exp raw (some (raw.map fun _ => zero)) from rfl,
    softMax_row exp raw _ (by simp)] at hp
  cases hp
  have h1 := (List.getElem?_eq_some_iff.1 hm).1
  rw [List.length_map, hlen] at h1
  have h2 := j2 b0 (List.mem_of_getElem? hb0)
  show j < labels.length
  omega

/-! ### C22 -/

/-- rows are subsampled -/
def rowSub (O : Options F) : Bool := (O.subSample <. one) && O.xgb
/-- columns are subsampled -/
def colSub (O : Options F) : Bool := (O.colSubSample <. one) && O.xgb

/-- random numbers drawn in one round -/
def drawsPerRound (X : List (List F)) (O : Options F) : Nat :=
  (if rowSub O then X.length else 0) + (if colSub O then (X.headD []).length else 0)

/-- the rows sampled in round `r`: row `i` is in when its draw is at most `SubSample` -/
def roundRows (X : List (List F)) (O : Options F) (draws : Nat → F) (r : Nat) : List Nat :=
  (List.range X.length).filter fun i => draws (i + r * drawsPerRound X O) <=. O.subSample

/-- `len(sampleIndexes)` in round `r`: 0 when rows are not subsampled -/
def sampleCount (X : List (List F)) (O : Options F) (draws : Nat → F) (r : Nat) : Nat :=
  if rowSub O then (roundRows X O draws r).length else 0

theorem roundSamples_inv {X : List (List F)} {O : Options F} {d d' : Nat → F} {idx : Option (List Nat)}
    {cols : List Nat} (h : roundSamples X O d = .ok (idx, cols, d')) :
    d' = (fun i => d (i + drawsPerRound X O)) ∧
      idx = (if rowSub O then some ((List.range X.length).filter fun i => d i <=. O.subSample) else none) := by
  have hsub : ∀ n s (d : Nat → F) l, subSample n s d = .ok l → l = (List.range n).filter fun i => d i <=. s := by
    intro n s d l h
    unfold subSample at h
    split at h
    · cases h
    · cases h; rfl
  have hcol : ∀ (idx0 : Option (List Nat)) (d0 : Nat → F),
      (if (O.colSubSample <. one) && O.xgb then do
        let row0 ← goIdx X 0
        let cols ← subSample row0.length O.colSubSample d0
        pure (idx0, cols, fun i => d0 (i + row0.length))
      else pure (idx0, [], d0) : Go (Option (List Nat) × List Nat × (Nat → F))) = .ok (idx, cols, d') →
      idx = idx0 ∧ d' = fun i => d0 (i + if colSub O then (X.headD []).length else 0) := by
    intro idx0 d0 h
    by_cases hc : colSub O = true
    · have hc' : ((O.colSubSample <. one) && O.xgb) = true := hc
      rw [if_pos hc'] at h
      obtain ⟨row0, h1, h⟩ := bind_ok h
      obtain ⟨c, h2, h⟩ := bind_ok h
      simp only [pure, Except.pure, Except.ok.injEq, Prod.mk.injEq] at h
      refine ⟨h.1.symm, ?_⟩
      have : X.headD [] = row0 := by
        have := goIdx_ok.1 h1
        cases X with
        | nil => simp at this
        | cons a X => simpa using this
      rw [if_pos hc, this]
      exact h.2.2.symm
    · have hc' : ¬ ((O.colSubSample <. one) && O.xgb) = true := hc
      rw [if_neg hc'] at h
      simp only [pure, Except.pure, Except.ok.injEq, Prod.mk.injEq] at h
      refine ⟨h.1.symm, ?_⟩
      rw [if_neg hc, ← h.2.2]
      rfl
  unfold roundSamples at h
  by_cases hr : rowSub O = true
  · have hr' : ((O.subSample <. one) && O.xgb) = true := hr
    rw [if_pos hr'] at h
    obtain ⟨s, hs, h⟩ := bind_ok h
    obtain ⟨q1, q2⟩ := hcol (some s) (fun i => d (i + X.length)) h
    refine ⟨?_, by rw [q1, hsub _ _ _ _ hs, if_pos hr]⟩
    rw [q2]
    funext i
    unfold drawsPerRound
    rw [if_pos hr]
    congr 1
    omega
  · have hr' : ¬ ((O.subSample <. one) && O.xgb) = true := hr
    rw [if_neg hr'] at h
    obtain ⟨⟨idx0, d0⟩, h1, h⟩ := bind_ok h
    simp only [pure, Except.pure, Except.ok.injEq, Prod.mk.injEq] at h1
    obtain ⟨rfl, rfl⟩ := h1
    obtain ⟨q1, q2⟩ := hcol _ _ h
    refine ⟨?_, by rw [q1, if_neg hr]⟩
    rw [q2]
    funext i
    unfold drawsPerRound
    rw [if_neg hr, Nat.zero_add]

/-- the rounds below `q` that are executed -/
def executedRounds (X : List (List F)) (O : Options F) (draws : Nat → F) (q : Nat) : List Nat :=
  (List.range q).filter fun r => decide (O.minSample ≤ (sampleCount X O draws r : Int))

theorem trainClasses_boosters {exp : F → F} {S : GoSort} {data : List (List F)} {O : Options F} {ohe : Dense F}
    {indexes : Option (List Nat)} {cols : List Nat} {round : Nat} {ks : List Nat} {st : TrainState F}
    {acc : TrainState F × List (Tree F)}
    (h : ks.foldlM (trainClass (softMaxDense exp) S data O ohe indexes cols round) (st, []) = .ok acc) :
    acc.1.boosters = st.boosters ∧ acc.1.draws = st.draws := by
  refine foldlM_inv _ (fun a : TrainState F × List (Tree F) => a.1.boosters = st.boosters ∧ a.1.draws = st.draws) _
    ?_ _ acc ⟨rfl, rfl⟩ h
  intro a k a' _ ha hk
  rcases trainClass_inv hk with ⟨_, rfl⟩ | ⟨_, tree, ht, ⟨s⟩⟩
  · exact ha
  · rw [s.hst, (earlyStopping_raw _ _ _ _ _).2.2.2.1, (earlyStopping_raw _ _ _ _ _).2.2.2.2.1]
    exact ha

theorem trainRounds_count {exp : F → F} {S : GoSort} {data : List (List F)} {O : Options F} {ohe : Dense F}
    {st st' : TrainState F} {m q : Nat} {draws : Nat → F}
    (h : (List.range q).foldlM (trainRound (softMaxDense exp) S data O ohe m) st = .ok st') (hd : st.draws = draws)
    (hb : st.boosters = []) :
    st'.boosters.length = (executedRounds data O draws q).length ∧
      st'.draws = fun i => draws (i + q * drawsPerRound data O) := by
  induction q generalizing st' with
  | zero =>
    simp only [List.range_zero, List.foldlM_nil, pure, Except.pure, Except.ok.injEq] at h
    subst h
    refine ⟨by simp [hb, executedRounds], ?_⟩
    rw [hd]; simp
  | succ q ih =>
    rw [List.range_succ, List.foldlM_append] at h
    obtain ⟨st1, h1, h2⟩ := bind_ok h
    rw [List.foldlM_cons] at h2
    obtain ⟨st2, h3, h4⟩ := bind_ok h2
    simp only [List.foldlM_nil, pure, Except.pure, Except.ok.injEq] at h4
    subst h4
    obtain ⟨a1, a2⟩ := ih h1
    obtain ⟨idx, cols, d', hs, hcase⟩ := trainRound_inv h3
    obtain ⟨q1, q2⟩ := roundSamples_inv hs
    have hcnt : (idx.getD []).length = sampleCount data O draws q := by
      rw [q2, a2]
      unfold sampleCount
      split <;> rfl
    have hex : executedRounds data O draws (q + 1) = executedRounds data O draws q ++
        (if O.minSample ≤ (sampleCount data O draws q : Int) then [q] else []) := by
      unfold executedRounds
      rw [List.range_succ, List.filter_append, List.filter_cons]
      simp
    have hdr : d' = fun i => draws (i + (q + 1) * drawsPerRound data O) := by
      rw [q1, a2]
      funext i
      show draws _ = draws _
      congr 1
      ring
    rw [hex]
    rcases hcase with ⟨hlt, rfl⟩ | ⟨hge, acc, hacc, rfl⟩
    · rw [hcnt] at hlt
      rw [if_neg (by omega), List.append_nil]
      exact ⟨a1, hdr⟩
    · rw [hcnt] at hge
      rw [if_pos (by omega)]
      obtain ⟨b1, b2⟩ := trainClasses_boosters hacc
      refine ⟨?_, ?_⟩
      · simp only [b1, List.length_append, a1, List.length_cons, List.length_nil]
      · simp only
        rw [b2]
        exact hdr

/-- **C22 (rounds, any arithmetic)**: the model has one ensemble per executed round: those whose number of sampled rows
is not below `MinSample`, where the number is taken as 0 when rows are not subsampled. With `EarlyStop` off each has
one tree per class. -/
theorem C22_rounds (exp : F → F) (S : GoSort) (draws : Nat → F) (D : DataBunch F) (O : Options F)
    (M : MultiClass F) (h : newMultiClass exp S draws D O = .ok M) :
    M.b.length = (executedRounds D.data O draws O.rounds.toNat).length ∧
    M.classLabels = distinctElements D.labels ∧
    (O.earlyStop ≤ 0 → ∀ ens ∈ M.b, ens.length = M.classLabels.length) := by
  obtain ⟨labels, st, ht, rfl⟩ := newMultiClass_inv h
  obtain ⟨hl, hlab, ohe, st0, _, hr, hc, hw, hinit, hrounds⟩ := train_inv ht
  obtain ⟨_, i2, i3, _⟩ := trainInit_inv hinit hr hc
  have := (trainRounds_count hrounds i3 i2).1
  refine ⟨?_, hlab, fun he => (train_off ht he).2⟩
  have e : executedRounds D.data O.fixMcw draws O.rounds.toNat = executedRounds D.data O draws O.rounds.toNat := by
    unfold Options.fixMcw
    split <;> rfl
  rw [e] at this
  exact this

/-- **C22, partial**: `O.Rounds` rounds, minus the rounds whose row sample has fewer than `MinSample` rows.
Missing: `MinSample >= 1` without row subsampling, where the claim is false (`C22_violated`). -/
theorem C22_requested_partial (exp : F → F) (S : GoSort) (draws : Nat → F) (D : DataBunch F) (O : Options F)
    (M : MultiClass F) (h : newMultiClass exp S draws D O = .ok M)
    (hms : (rowSub O = true) ∨ O.minSample ≤ 0) :
    M.b.length + ((List.range O.rounds.toNat).filter fun r =>
      rowSub O && decide (((roundRows D.data O draws r).length : Int) < O.minSample)).length = O.rounds.toNat := by
  rw [(C22_rounds exp S draws D O M h).1]
  unfold executedRounds
  have := List.length_eq_length_filter_add (l := List.range O.rounds.toNat)
    (fun r => decide (O.minSample ≤ (sampleCount D.data O draws r : Int)))
  rw [List.length_range] at this
  refine Eq.trans ?_ this.symm
  congr 2
  apply List.filter_congr
  intro r _
  unfold sampleCount
  rcases hms with hr | hm
  · rw [hr]
    simp only [if_true, Bool.true_and]
    by_cases hlt : ((roundRows D.data O draws r).length : Int) < O.minSample
    · rw [decide_eq_true hlt, decide_eq_false (by omega)]; rfl
    · rw [decide_eq_false hlt, decide_eq_true (by omega)]; rfl
  · by_cases hr : rowSub O = true
    · rw [hr]
      simp only [if_true, Bool.true_and]
      rw [decide_eq_false (by omega), decide_eq_true (by omega)]; rfl
    · rw [if_neg hr]
      have : rowSub O = false := by simpa using hr
      rw [this]
      simp [hm]

/-- **C22 is violated**: with `MinSample >= 1` (which `Check` demands) and no row subsampling, no round is ever
executed, whatever `Rounds` is: the model is empty and every prediction panics. -/
theorem C22_violated (exp : F → F) (S : GoSort) (draws : Nat → F) (D : DataBunch F) (O : Options F)
    (M : MultiClass F) (h : newMultiClass exp S draws D O = .ok M) (hr : rowSub O = false) (hm : 1 ≤ O.minSample) :
    M.b = [] ∧ ∀ row, M.predictSingle row = .error .index := by
  have := (C22_rounds exp S draws D O M h).1
  have h0 : executedRounds D.data O draws O.rounds.toNat = [] := by
    unfold executedRounds
    rw [List.filter_eq_nil_iff]
    intro r _
    unfold sampleCount
    rw [hr]
    simp
    omega
  rw [h0, List.length_nil, List.length_eq_zero_iff] at this
  refine ⟨this, fun row => ?_⟩
  unfold MultiClass.predictSingle MultiClass.rawScores
  rw [this]
  rfl

/-- the capacity `SubSample` asks for is not negative -/
def CapOk (X : List (List F)) (O : Options F) : Prop :=
  (rowSub O = true → 0 ≤ toInt (ofInt (X.length : Int) *. O.subSample) + 1) ∧
  (colSub O = true → 0 ≤ toInt (ofInt ((X.headD []).length : Int) *. O.colSubSample) + 1)

theorem subSample_exists (n : Nat) (s : F) (d : Nat → F) (h : 0 ≤ toInt (ofInt (n : Int) *. s) + 1) :
    ∃ l, subSample n s d = .ok l := by
  unfold subSample
  rw [if_neg (by omega)]
  exact ⟨_, rfl⟩

theorem roundSamples_exists {X : List (List F)} (hne : X ≠ []) (O : Options F) (hcap : CapOk X O) (d : Nat → F) :
    ∃ r, roundSamples X O d = .ok r := by
  obtain ⟨row0, X', rfl⟩ := List.exists_cons_of_ne_nil hne
  unfold roundSamples
  have hcol : ∀ (idx0 : Option (List Nat)) (d0 : Nat → F), ∃ r,
      (if (O.colSubSample <. one) && O.xgb then do
        let row0 ← goIdx (row0 :: X') 0
        let cols ← subSample row0.length O.colSubSample d0
        pure (idx0, cols, fun i => d0 (i + row0.length))
      else pure (idx0, [], d0) : Go (Option (List Nat) × List Nat × (Nat → F))) = .ok r := by
    intro idx0 d0
    split
    · rename_i hc
      obtain ⟨l, hl⟩ := subSample_exists row0.length O.colSubSample d0 (hcap.2 hc)
      have : goIdx (row0 :: X') 0 = .ok row0 := rfl
      simp only [this, bind, Except.bind, hl]
      exact ⟨_, rfl⟩
    · exact ⟨_, rfl⟩
  by_cases hr : ((O.subSample <. one) && O.xgb) = true
  · rw [if_pos hr]
    obtain ⟨l, hl⟩ := subSample_exists (row0 :: X').length O.subSample d (hcap.1 hr)
    simp only [hl, bind, Except.bind, pure, Except.pure]
    exact hcol _ _
  · rw [if_neg hr]
    simp only [bind, Except.bind, pure, Except.pure]
    exact hcol _ _

/-- **C22 (training returns)**: on a non-empty rectangular NaN-free data set with as many labels as rows, with a loss
function that accepts vectors of equal length, `NewMultiClass` returns when rows are subsampled and `MinSample >= 1`
or rows are not subsampled. -/
theorem C22_returns [GoFloatOrd F] (exp : F → F) (S : GoSort) (draws : Nat → F) (D : DataBunch F) (O : Options F)
    (hX : DataOk D.data) (hd : D.data.length = D.labels.length) (lv : LossVal F) (hlv : O.loss = some lv)
    (hl : lv.fn.Regular) (hcap : CapOk D.data O) (hms : rowSub O = true → 1 ≤ O.minSample) :
    ∃ M, newMultiClass exp S draws D O = .ok M := by
  have hne : D.labels ≠ [] := by
    intro h
    rw [h] at hd
    exact hX.ne (List.length_eq_zero_iff.1 hd)
  have hx0 : 0 < D.data.length := List.length_pos_iff.2 hX.ne
  obtain ⟨oh, q1, q2, q3, q4, _⟩ := C39_matrix (F := F) D.labels hne
  have hc0 : 0 < (distinctElements D.labels).length := by
    obtain ⟨x, l, hx⟩ := List.exists_cons_of_ne_nil hne
    exact List.length_pos_of_mem (((C39_distinct D.labels).2.1 x).2 (by rw [hx]; simp))
  set m := (distinctElements D.labels).length with hm
  have hinit : ∃ st, trainInit (softMaxDense exp) O oh m draws = .ok st := by
    unfold trainInit newDense
    rw [if_neg (by rw [List.length_replicate]; omega)]
    simp only [bind, Except.bind]
    obtain ⟨P, hP, _⟩ := C24_dense exp ((toOnes ⟨oh.r, oh.c, List.replicate (oh.r * oh.c) zero⟩).scale O.baseScore)
      (by simp [toOnes, Dense.scale]) none (by simp)
    rw [hP]
    exact ⟨_, rfl⟩
  obtain ⟨st0, hst0⟩ := hinit
  obtain ⟨i1, _⟩ := trainInit_inv hst0 q2 q3
  rw [← hd] at i1
  have hfix := Options.fixMcw_lr O
  have hrounds : ∀ q, ∃ st, (List.range q).foldlM (trainRound (softMaxDense exp) S D.data O.fixMcw oh m) st0 = .ok st ∧
      TInv exp D.data.length m st := by
    intro q
    induction q with
    | zero => exact ⟨st0, rfl, i1⟩
    | succ q ih =>
      obtain ⟨st1, h1, hI⟩ := ih
      have hcap' : CapOk D.data O.fixMcw := by
        unfold CapOk rowSub colSub
        rw [hfix.2.2.2.2.2.1, hfix.2.2.2.2.2.2.1, hfix.2.2.2.2.2.2.2.1]
        exact hcap
      obtain ⟨⟨idx, cols, d'⟩, hs⟩ := roundSamples_exists hX.ne O.fixMcw hcap' st1.draws
      obtain ⟨_, hidx⟩ := roundSamples_inv hs
      have hstep : ∃ st2, trainRound (softMaxDense exp) S D.data O.fixMcw oh m st1 q = .ok st2 := by
        unfold trainRound
        simp only [hs, bind, Except.bind]
        split
        · exact ⟨_, rfl⟩
        · rename_i hnl
          have hsamp : SampleOk D.data.length idx := by
            intro l hl
            have hrs : rowSub O.fixMcw = rowSub O := by
              unfold rowSub
              rw [hfix.2.2.2.2.2.1, hfix.2.2.2.2.2.2.1]
            by_cases hr : rowSub O = true
            · rw [hrs, hr] at hidx
              simp only [if_true] at hidx
              rw [hl] at hidx
              cases hidx
              refine ⟨?_, List.nodup_range.filter _, ?_⟩
              · intro h0
                have := hms hr
                rw [hl, h0, hfix.2.2.2.2.1] at hnl
                simp at hnl
                omega
              · intro i hi
                have := (List.mem_filter.1 hi).1
                simpa using this
            · rw [hrs, if_neg hr, hl] at hidx
              cases hidx
          obtain ⟨acc, hacc⟩ := trainClasses_exists exp S hX O.fixMcw lv (by rw [hfix.2.2.2.2.2.2.2.2.1]; exact hlv) hl
            oh idx hsamp cols q { st1 with draws := d' } (hI.draws d') (by rw [q2, hd]) q3 q4 m le_rfl
          rw [hacc]
          exact ⟨_, rfl⟩
      obtain ⟨st2, h2⟩ := hstep
      refine ⟨st2, ?_, (trainRound_step h2 hI rfl).1⟩
      rw [List.range_succ, List.foldlM_append, h1]
      simp only [bind, Except.bind, List.foldlM_cons, h2, List.foldlM_nil, pure, Except.pure]
  obtain ⟨st, hst, _⟩ := hrounds O.rounds.toNat
  refine ⟨toModel exp O (distinctElements D.labels) st, ?_⟩
  unfold newMultiClass train trainWith DataBunch.oheLabels
  simp only [q1, bind, Except.bind, hst0, ← hm, hst, pure, Except.pure]

/-! ### C21 -/

/-- **C21, what the accessors return**: `Classes()` is the number of executed rounds and `Rounds()` the number of
trees of the first round, which is the number of classes. -/
theorem C21_swapped_partial (exp : F → F) (S : GoSort) (draws : Nat → F) (D : DataBunch F) (O : Options F)
    (M : MultiClass F) (h : newMultiClass exp S draws D O = .ok M) (he : O.earlyStop ≤ 0) :
    M.classes = (executedRounds D.data O draws O.rounds.toNat).length ∧
    M.rounds none = if M.b = [] then -1 else ((distinctElements D.labels).length : Int) := by
  obtain ⟨h1, h2, h3⟩ := C22_rounds exp S draws D O M h
  refine ⟨by unfold MultiClass.classes; rw [h1], ?_⟩
  unfold MultiClass.rounds MultiClass.classes
  simp only
  cases hb : M.b with
  | nil => simp
  | cons b0 bs =>
    rw [if_neg (by simp; omega), if_neg (by simp)]
    simp only [Int.toNat_zero, List.getElem?_cons_zero]
    rw [h3 he b0 (by rw [hb]; simp), h2]

end Boo
