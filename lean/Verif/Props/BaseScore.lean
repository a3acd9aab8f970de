import Verif.Props.RealTrain

/-!
# C74: the base score does not matter
-/

namespace Boo
open GoFloat Spec
set_option linter.unusedSectionVars false

/-! ### softmax of shifted scores, infinities and NaN included -/

/-- multiplication by a positive number commutes with addition -/
theorem mul_add_pos {k : ℝ} (hk : 0 < k) (a b : Exact ℝ) :
    (a +. b) *. .fin k = (a *. .fin k) +. (b *. .fin k) := by
  have h0 : k ≠ 0 := hk.ne'
  have h1 : ¬ k < 0 := by linarith
  rcases a with _ | s | x <;> rcases b with _ | t | y <;>
    simp only [XF.add_def, XF.mul_def, XF.add, XF.mul, h0, h1, if_false, decide_false, Bool.bne_false, Exact.round_eq]
  · by_cases h : s = t <;> simp [h, XF.mul, h0, h1]
  · simp [add_mul]

theorem mul_div_pos {k : ℝ} (hk : 0 < k) (a b : Exact ℝ) : (a *. .fin k) /. (b *. .fin k) = a /. b := by
  have h0 : k ≠ 0 := hk.ne'
  have h1 : ¬ k < 0 := by linarith
  have hneg : ∀ x : ℝ, (x * k < 0) ↔ x < 0 := fun x =>
    ⟨fun h => by by_contra hx; push Not at hx; have := mul_nonneg hx hk.le; linarith, fun h => mul_neg_of_neg_of_pos h hk⟩
  rcases a with _ | s | x <;> rcases b with _ | t | y <;>
    simp only [XF.div_def, XF.mul_def, XF.div, XF.mul, h0, h1, if_false, decide_false, Bool.bne_false, Exact.round_eq,
      hneg, mul_eq_zero, or_false]
  rw [mul_div_mul_right _ _ h0]

theorem expR_add (a : Exact ℝ) (c : ℝ) : expR (a +. .fin c) = expR a *. .fin (Real.exp c) := by
  have h0 : Real.exp c ≠ 0 := (Real.exp_pos c).ne'
  have h1 : ¬ Real.exp c < 0 := by have := Real.exp_pos c; linarith
  rcases a with _ | s | x
  · rfl
  · cases s
    · simp only [XF.add_def, XF.add, expR, XF.mul_def, XF.mul, h0, h1, if_false, decide_false, Bool.bne_false]
    · simp only [XF.add_def, XF.add, expR, XF.mul_def, XF.mul, Exact.round_eq, zero_mul]
  · simp only [Exact.add_fin, expR, Exact.mul_fin, Real.exp_add]

/-- every score plus `c` -/
noncomputable def shiftL (c : ℝ) (p : List (Exact ℝ)) : List (Exact ℝ) := p.map fun v => v +. .fin c

theorem foldl_mul {k : ℝ} (hk : 0 < k) (l : List (Exact ℝ)) (a : Exact ℝ) :
    (l.map fun v => v *. (.fin k : Exact ℝ)).foldl XF.add (a *. .fin k) = (l.foldl XF.add a) *. .fin k := by
  induction l generalizing a with
  | nil => rfl
  | cons x l ih =>
    rw [List.map_cons, List.foldl_cons, List.foldl_cons]
    have : XF.add (a *. (.fin k : Exact ℝ)) (x *. .fin k) = (XF.add a x) *. .fin k := (mul_add_pos hk a x).symm
    rw [this, ih]

theorem softMax_shift (p : List (Exact ℝ)) (c : ℝ) : softMax expR (shiftL c p) none = softMax expR p none := by
  have hk := Real.exp_pos c
  have e1 : (shiftL c p).map expR = (p.map expR).map fun v => v *. .fin (Real.exp c) := by
    unfold shiftL
    rw [List.map_map, List.map_map]
    apply List.map_congr_left
    intro v _
    exact expR_add v c
  have e2 : GoFloat.sum ((shiftL c p).map expR) = GoFloat.sum (p.map expR) *. .fin (Real.exp c) := by
    rw [e1, Exact.sum_def, Exact.sum_def, ← foldl_mul hk]
    congr 1
    simp
  unfold softMax
  simp only [Option.getD_none, List.length_map, lt_irrefl, if_false]
  rw [List.drop_of_length_le (by simp), List.drop_of_length_le (by simp), List.append_nil, List.append_nil, List.append_nil,
    List.append_nil, e2]
  congr 1
  have : ∀ (q : List (Exact ℝ)) (d : Exact ℝ), q.map (fun v => expR v /. d) = (q.map expR).map fun v => v /. d := by
    intro q d; rw [List.map_map]; rfl
  rw [this, this, e1, List.map_map]
  apply List.map_congr_left
  intro v _
  exact mul_div_pos hk v _

theorem add_right_comm_fin (a b : Exact ℝ) (c : ℝ) : (a +. .fin c) +. b = (a +. b) +. .fin c := by
  rcases a with _ | s | x <;> rcases b with _ | t | y <;>
    simp only [XF.add_def, XF.add, Exact.round_eq]
  · by_cases h : s = t <;> simp [h, XF.add]
  · congr 1; ring

/-! ### the training state with shifted scores -/

noncomputable def shiftD (c : ℝ) (D : Dense (Exact ℝ)) : Dense (Exact ℝ) := { D with data := shiftL c D.data }

theorem shiftD_WF {c : ℝ} {D : Dense (Exact ℝ)} (h : D.WF) : (shiftD c D).WF := by
  unfold Dense.WF shiftD shiftL at *
  simpa using h

theorem shiftD_row (c : ℝ) (D : Dense (Exact ℝ)) (i : Nat) : (shiftD c D).row i = shiftL c (D.row i) := by
  unfold Dense.row shiftD shiftL
  simp only [List.map_take, List.map_drop]

theorem addLoop_shift (c : ℝ) (s : List (Exact ℝ)) (is : List Nat) (cont : Nat) (data : List (Exact ℝ)) :
    addLoop (shiftL c data) s is cont = (addLoop data s is cont).map (shiftL c) := by
  induction is generalizing cont data with
  | nil => rfl
  | cons i is ih =>
    unfold addLoop
    cases h1 : data[i]? with
    | none => simp [shiftL, h1, Except.map]
    | some d =>
      cases h2 : s[cont]? with
      | none => simp [shiftL, h1, Except.map]
      | some x =>
        have e : (shiftL c data)[i]? = some (d +. .fin c) := by simp [shiftL, h1]
        have e2 : (shiftL c data).set i ((d +. .fin c) +. x) = shiftL c (data.set i (d +. x)) := by
          unfold shiftL
          rw [List.map_set, add_right_comm_fin]
        simp only [e]
        rw [e2, ih]

theorem addToCol_shift (c : ℝ) (D : Dense (Exact ℝ)) (s : List (Exact ℝ)) (k : Nat) :
    addToCol (shiftD c D) s k = (addToCol D s k).map (shiftD c) := by
  unfold addToCol
  have e1 : (shiftD c D).c = D.c := rfl
  have e2 : (shiftD c D).r = D.r := rfl
  have e3 : (shiftD c D).data.length = D.data.length := by simp [shiftD, shiftL]
  have e4 : (shiftD c D).data = shiftL c D.data := rfl
  rw [e1, e2, e3, e4]
  split
  · rfl
  · split
    · rfl
    · rw [addLoop_shift]
      cases addLoop D.data s (strideIdx D.data.length D.c (D.data.length + 1) k) 0 <;> rfl

/-- the softmax of the shifted scores is the same -/
theorem softMaxDense_shift (c : ℝ) (raw : Dense (Exact ℝ)) (hw : raw.WF) (buf : Option (Dense (Exact ℝ)))
    (hb : ∀ d, buf = some d → d.r = raw.r ∧ d.c = raw.c ∧ d.WF) :
    softMaxDense expR (shiftD c raw) buf = softMaxDense expR raw buf := by
  obtain ⟨P, p1, p2, p3, p4, p5⟩ := C24_dense expR raw hw buf hb
  obtain ⟨Q, q1, q2, q3, q4, q5⟩ := C24_dense expR (shiftD c raw) (shiftD_WF hw) buf hb
  rw [p1, q1]
  congr 1
  have q2' : Q.r = raw.r := q2
  have q3' : Q.c = raw.c := q3
  apply dense_ext q4 p4 (by rw [p2, q2']) (by rw [p3, q3'])
  intro i j hi hj
  have hi' : i < raw.r := by rw [q2'] at hi; exact hi
  have hr := q5 i hi'
  rw [shiftD_row, softMax_shift, p5 i hi'] at hr
  rw [← Dense.row_get hi hj, ← Dense.row_get (by rw [p2]; exact hi') (by rw [p3, ← q3']; exact hj), Except.ok.inj hr]

noncomputable def shiftSt (c : ℝ) (st : TrainState (Exact ℝ)) : TrainState (Exact ℝ) := { st with rawPred := shiftD c st.rawPred }

theorem earlyStopping_shift (c : ℝ) (O : Options (Exact ℝ)) (round k : Nat) (l : Exact ℝ) (st : TrainState (Exact ℝ)) :
    earlyStopping O round k l (shiftSt c st) = shiftSt c (earlyStopping O round k l st) := by
  unfold earlyStopping shiftSt
  split
  · split
    · rfl
    · split <;> rfl
  · rfl

theorem trainClass_shift {c : ℝ} {S : GoSort} {X : List (List (Exact ℝ))} {O : Options (Exact ℝ)} {ohe : Dense (Exact ℝ)}
    {idx : Option (List Nat)} {cols : List Nat} {round m k : Nat}
    {acc acc' : TrainState (Exact ℝ) × List (Tree (Exact ℝ))} (hI : TInv expR X.length m acc.1) (hk : k < m)
    (h : trainClass (softMaxDense expR) S X O ohe idx cols round acc k = .ok acc') :
    trainClass (softMaxDense expR) S X O ohe idx cols round (shiftSt c acc.1, acc.2) k = .ok (shiftSt c acc'.1, acc'.2) := by
  have hstep := h
  rcases trainClass_inv h with ⟨hs, rfl⟩ | ⟨hs, tree, ht, ⟨s⟩⟩
  · unfold trainClass
    simp only
    rw [if_pos (show (shiftSt c acc'.1).stopped.getD k false = true from hs)]
    rfl
  · obtain ⟨h1, _⟩ := s.inv hI rfl hk
    obtain ⟨e1, _⟩ := earlyStopping_raw O round k s.loss
      { acc.1 with rawPred := s.raw, probs := s.probs, tmpPreds := s.preds.map fun v => v *. O.learningRate }
    rw [← s.hst] at e1
    simp only at e1
    have hraw : addToCol (shiftD c acc.1.rawPred) (s.preds.map fun v => v *. O.learningRate) k = .ok (shiftD c s.raw) := by
      rw [addToCol_shift, s.hraw]
      rfl
    have hprobs : softMaxDense expR (shiftD c s.raw) (some acc.1.probs) = .ok s.probs := by
      rw [softMaxDense_shift c s.raw (by rw [← e1]; exact h1.rawWF) _ (by
        rintro d hd
        cases hd
        rw [← e1]
        exact ⟨by rw [hI.probsR, h1.rawR], by rw [hI.probsC, h1.rawC], hI.probsWF⟩)]
      exact s.hprobs
    have a1 : (shiftSt c acc.1).stopped = acc.1.stopped := rfl
    have a2 : (shiftSt c acc.1).probs = acc.1.probs := rfl
    have a3 : (shiftSt c acc.1).tmpPreds = acc.1.tmpPreds := rfl
    have a4 : (shiftSt c acc.1).rawPred = shiftD c acc.1.rawPred := rfl
    unfold trainClass at hstep ⊢
    simp only [a1, a2, a3, a4] at hstep ⊢
    rw [if_neg (by rw [hs]; simp)] at hstep ⊢
    simp only [s.hy, s.hp, s.hlv, s.htree, s.hpreds, s.hraw, s.hprobs, hraw, hprobs, bind, Except.bind] at hstep ⊢
    have key : ∀ l : Exact ℝ, earlyStopping O round k l
        { shiftSt c acc.1 with
            rawPred := shiftD c s.raw, probs := s.probs, tmpPreds := s.preds.map fun v => v *. O.learningRate } =
        shiftSt c (earlyStopping O round k l
          { acc.1 with rawPred := s.raw, probs := s.probs, tmpPreds := s.preds.map fun v => v *. O.learningRate }) := by
      intro l
      rw [← earlyStopping_shift]
      rfl
    by_cases he : O.earlyStop > 0 ∨ O.verbose = true
    · rw [if_pos he] at hstep ⊢
      cases hkp : denseCol s.probs k with
      | error e => rw [hkp] at hstep; simp at hstep
      | ok kp =>
        rw [hkp] at hstep
        simp only at hstep ⊢
        cases hls : s.lv.fn.loss s.y kp with
        | error e => rw [hls] at hstep; simp at hstep
        | ok l =>
          rw [hls] at hstep
          simp only [pure, Except.pure, Except.ok.injEq] at hstep ⊢
          exact Prod.ext ((key l).trans (congrArg (shiftSt c) (congrArg Prod.fst hstep))) (by
            have := congrArg Prod.snd hstep
            exact this)
    · rw [if_neg he] at hstep ⊢
      simp only [pure, Except.pure, Except.ok.injEq] at hstep ⊢
      exact Prod.ext ((key zero).trans (congrArg (shiftSt c) (congrArg Prod.fst hstep))) (by
            have := congrArg Prod.snd hstep
            exact this)

theorem trainClasses_shift {c : ℝ} {S : GoSort} {X : List (List (Exact ℝ))} {O : Options (Exact ℝ)} {ohe : Dense (Exact ℝ)}
    {idx : Option (List Nat)} {cols : List Nat} {round m : Nat} (q : Nat) (hq : q ≤ m) (st : TrainState (Exact ℝ))
    (hI : TInv expR X.length m st) (acc' : TrainState (Exact ℝ) × List (Tree (Exact ℝ)))
    (h : (List.range q).foldlM (trainClass (softMaxDense expR) S X O ohe idx cols round) (st, []) = .ok acc') :
    (List.range q).foldlM (trainClass (softMaxDense expR) S X O ohe idx cols round) (shiftSt c st, []) =
      .ok (shiftSt c acc'.1, acc'.2) := by
  induction q generalizing acc' with
  | zero =>
    simp only [List.range_zero, List.foldlM_nil, pure, Except.pure, Except.ok.injEq] at h ⊢
    rw [← h]
  | succ q ih =>
    rw [List.range_succ, List.foldlM_append] at h ⊢
    obtain ⟨acc, h1, h2⟩ := bind_ok h
    rw [List.foldlM_cons] at h2
    obtain ⟨acc'', h3, h4⟩ := bind_ok h2
    simp only [List.foldlM_nil, pure, Except.pure, Except.ok.injEq] at h4
    subst h4
    rw [ih (by omega) acc h1]
    obtain ⟨a1, _⟩ := trainClasses_inv rfl q (by omega) st acc h1 hI
    simp only [bind, Except.bind, List.foldlM_cons, List.foldlM_nil]
    rw [trainClass_shift a1 (by omega) h3]
    rfl

theorem trainRounds_shift {c : ℝ} {S : GoSort} {X : List (List (Exact ℝ))} {O : Options (Exact ℝ)} {ohe : Dense (Exact ℝ)}
    {m : Nat} (q : Nat) (st st' : TrainState (Exact ℝ)) (hI : TInv expR X.length m st) (hb : st.boosters = [])
    (h : (List.range q).foldlM (trainRound (softMaxDense expR) S X O ohe m) st = .ok st') :
    (List.range q).foldlM (trainRound (softMaxDense expR) S X O ohe m) (shiftSt c st) = .ok (shiftSt c st') := by
  induction q generalizing st' with
  | zero =>
    simp only [List.range_zero, List.foldlM_nil, pure, Except.pure, Except.ok.injEq] at h ⊢
    rw [← h]
  | succ q ih =>
    rw [List.range_succ, List.foldlM_append] at h ⊢
    obtain ⟨st1, h1, h2⟩ := bind_ok h
    rw [List.foldlM_cons] at h2
    obtain ⟨st2, h3, h4⟩ := bind_ok h2
    simp only [List.foldlM_nil, pure, Except.pure, Except.ok.injEq] at h4
    subst h4
    rw [ih st1 h1]
    obtain ⟨a1, _⟩ := trainRounds_inv h1 hI rfl hb
    simp only [bind, Except.bind, List.foldlM_cons, List.foldlM_nil]
    have : trainRound (softMaxDense expR) S X O ohe m (shiftSt c st1) q = .ok (shiftSt c st2) := by
      obtain ⟨idx, cols, d, hs, hcase⟩ := trainRound_inv h3
      unfold trainRound
      have hd : (shiftSt c st1).draws = st1.draws := rfl
      rw [hd, hs]
      simp only [bind, Except.bind]
      rcases hcase with ⟨hlt, rfl⟩ | ⟨hge, acc, hacc, rfl⟩
      · rw [if_pos hlt]
        rfl
      · rw [if_neg hge]
        have := trainClasses_shift (c := c) m le_rfl { st1 with draws := d } (a1.draws d) acc hacc
        rw [show ({ shiftSt c st1 with draws := d } : TrainState (Exact ℝ)) = shiftSt c { st1 with draws := d } from rfl, this]
        rfl
    rw [this]
    rfl

theorem newMultiClass_shift {S : GoSort} {draws : Nat → Exact ℝ} {D : DataBunch (Exact ℝ)} {O : Options (Exact ℝ)} {b b' : ℝ}
    (hd : D.data.length = D.labels.length) (hO : O.baseScore = .fin b) {M : MultiClass (Exact ℝ)}
    (h : newMultiClass expR S draws D O = .ok M) :
    newMultiClass expR S draws D { O with baseScore := .fin b' } = .ok { M with baseScore := .fin b' } := by
  obtain ⟨labels, st, ht, rfl⟩ := newMultiClass_inv h
  obtain ⟨hne, hlab, ohe, st0, hohe, hr0, hc0, hw, hinit, hrounds⟩ := train_inv ht
  obtain ⟨i1, i2, _⟩ := trainInit_inv hinit hr0 hc0
  rw [← hd] at i1
  have hfix : ({ O with baseScore := .fin b' } : Options (Exact ℝ)).fixMcw = { O.fixMcw with baseScore := .fin b' } := by
    unfold Options.fixMcw
    simp only
    split <;> rfl
  have hr := trainRounds_shift (c := b' - b) _ st0 st i1 i2 hrounds
  have hi : trainInit (softMaxDense expR) { O with baseScore := .fin b' } ohe labels.length draws =
      .ok (shiftSt (b' - b) st0) := by
    unfold trainInit at hinit ⊢
    obtain ⟨raw, h1, h2⟩ := bind_ok hinit
    obtain ⟨probs, h3, h4⟩ := bind_ok h2
    simp only [pure, Except.pure, Except.ok.injEq] at h4
    have e : (toOnes raw).scale (.fin b' : Exact ℝ) = shiftD (b' - b) ((toOnes raw).scale O.baseScore) := by
      unfold toOnes Dense.scale shiftD shiftL
      rw [hO]
      simp only [List.map_map]
      congr 1
      apply List.map_congr_left
      intro v _
      simp
    simp only [h1, bind, Except.bind, e]
    have hraw : ((toOnes raw).scale O.baseScore).WF := by
      have := i1.rawWF
      rw [← h4] at this
      exact this
    rw [softMaxDense_shift _ _ hraw none (by simp), h3]
    simp only [pure, Except.pure]
    rw [← h4]
    rfl
  unfold newMultiClass train trainWith
  simp only [hohe, hi, bind, Except.bind, hfix]
  have hr' : (List.range O.rounds.toNat).foldlM
      (trainRound (softMaxDense expR) S D.data { O.fixMcw with baseScore := .fin b' } ohe labels.length)
      (shiftSt (b' - b) st0) = .ok (shiftSt (b' - b) st) := hr
  rw [hr']
  rfl

/-! ### C74 -/

/-- **C74 (training), partial**: in exact real arithmetic two runs that differ only in the (finite) base score return the
same model up to the base score it records, or neither returns.
Missing: binary64, where a large base score makes every probability NaN (`C74_violated_binary64`). -/
theorem C74_model_partial (S : GoSort) (draws : Nat → Exact ℝ) (D : DataBunch (Exact ℝ)) (O : Options (Exact ℝ)) (b b' : ℝ)
    (hd : D.data.length = D.labels.length) (M : MultiClass (Exact ℝ)) :
    newMultiClass expR S draws D { O with baseScore := .fin b } = .ok { M with baseScore := .fin b } ↔
      newMultiClass expR S draws D { O with baseScore := .fin b' } = .ok { M with baseScore := .fin b' } :=
  ⟨fun h => newMultiClass_shift (O := { O with baseScore := .fin b }) (M := { M with baseScore := .fin b }) hd rfl h,
   fun h => newMultiClass_shift (O := { O with baseScore := .fin b' }) (M := { M with baseScore := .fin b' }) hd rfl h⟩

theorem addRound_shift (c : ℝ) (lr : Exact ℝ) (x : List (Exact ℝ)) (ts : List (Tree (Exact ℝ))) (k : Nat)
    (tmp : List (Exact ℝ)) : addRound lr x ts k (shiftL c tmp) = (addRound lr x ts k tmp).map (shiftL c) := by
  induction ts generalizing k tmp with
  | nil => rfl
  | cons t ts ih =>
    unfold addRound
    cases t.predictSingle x with
    | error e => rfl
    | ok p =>
      simp only [bind, Except.bind]
      unfold addAt
      cases h : tmp[k]? with
      | none =>
        have : (shiftL c tmp)[k]? = none := by simp [shiftL, h]
        rw [this]
        rfl
      | some d =>
        have e : (shiftL c tmp)[k]? = some (d +. .fin c) := by simp [shiftL, h]
        have e2 : (shiftL c tmp).set k ((d +. .fin c) +. (p *. lr)) = shiftL c (tmp.set k (d +. (p *. lr))) := by
          unfold shiftL
          rw [List.map_set, add_right_comm_fin]
        simp only [e, e2]
        rw [ih]

theorem rawScores_shift (M : MultiClass (Exact ℝ)) (b b' : ℝ) (hb : M.baseScore = .fin b) (x : List (Exact ℝ)) :
    ({ M with baseScore := .fin b' } : MultiClass (Exact ℝ)).rawScores x = (M.rawScores x).map (shiftL (b' - b)) := by
  unfold MultiClass.rawScores
  cases goIdx M.b 0 with
  | error e => rfl
  | ok b0 =>
    simp only [bind, Except.bind]
    have e : (List.replicate b0.length (.fin b' : Exact ℝ)) = shiftL (b' - b) (List.replicate b0.length M.baseScore) := by
      unfold shiftL
      rw [List.map_replicate, hb]
      simp
    rw [e]
    generalize List.replicate b0.length M.baseScore = tmp
    generalize M.b = bs
    induction bs generalizing tmp with
    | nil => rfl
    | cons ens bs ih =>
      rw [List.foldlM_cons, List.foldlM_cons, addRound_shift]
      cases addRound M.learningRate x ens 0 tmp with
      | error e => rfl
      | ok t => exact ih t

/-- **C74 (predictions), partial**: in exact real arithmetic the predictions of a trained model do not depend on the
base score it records: two runs that differ only in the (finite) base score predict the same probabilities and classes
for every row. -/
theorem C74_predictions_partial (S : GoSort) (draws : Nat → Exact ℝ) (D : DataBunch (Exact ℝ)) (O : Options (Exact ℝ)) (b b' : ℝ)
    (hd : D.data.length = D.labels.length) (M M' : MultiClass (Exact ℝ))
    (h : newMultiClass expR S draws D { O with baseScore := .fin b } = .ok M)
    (h' : newMultiClass expR S draws D { O with baseScore := .fin b' } = .ok M') (x : List (Exact ℝ)) :
    M'.predictSingle x = M.predictSingle x ∧ M'.predictSingleClass x = M.predictSingleClass x := by
  have hbase : M.baseScore = .fin b := (C72_metadata expR S draws D _ M h).2.2.2.2.1
  have hpt := (C72_metadata expR S draws D _ M h).2.2.2.2.2.2
  have hM' : M' = { M with baseScore := .fin b' } := by
    have := newMultiClass_shift (O := { O with baseScore := .fin b }) (b' := b') hd rfl h
    rw [h'] at this
    exact Except.ok.inj this
  have hp : M'.predictSingle x = M.predictSingle x := by
    have hraw := rawScores_shift M b b' hbase x
    rw [← hM'] at hraw
    cases hs : M.rawScores x with
    | error e =>
      rw [hs] at hraw
      unfold MultiClass.predictSingle
      rw [hs, hraw]
      rfl
    | ok s =>
      rw [hs] at hraw
      have hraw' : M'.rawScores x = .ok (shiftL (b' - b) s) := hraw
      by_cases hne : s = []
      · subst hne
        unfold MultiClass.predictSingle
        rw [hs, hraw']
        rfl
      · rw [predictSingle_softmax expR M hpt x s hs hne,
          predictSingle_softmax expR M' (by rw [hM']; exact hpt) x _ hraw' (by simpa [shiftL] using hne), softMax_shift]
  refine ⟨hp, ?_⟩
  unfold MultiClass.predictSingleClass
  rw [hp]

/-- the hypotheses are met: regular boosting on two rows of two classes with base scores 0 and 3 -/
example : ∃ M M', newMultiClass expR GoSort.ins (fun _ => .fin 0) realData { defaultGOptions 0 with baseScore := .fin 0 } = .ok M ∧
    newMultiClass expR GoSort.ins (fun _ => .fin 0) realData { defaultGOptions 0 with baseScore := .fin 3 } = .ok M' ∧ M ≠ M' := by
  have hr : rowSub ({ defaultGOptions 0 with baseScore := .fin 0 } : Options (Exact ℝ)) = false := by
    simp [rowSub, defaultGOptions]
  obtain ⟨M, hM⟩ := C22_returns expR GoSort.ins (fun _ => .fin 0) realData { defaultGOptions 0 with baseScore := .fin 0 }
    ⟨by simp [realData, finRows], ⟨1, by simp [realData, finRows]⟩, finRows_noNaN _, finRows_midSafe _⟩ rfl _ rfl
    mseLoss_regular (by
      unfold CapOk
      simp [rowSub, colSub, defaultGOptions]) (by rw [hr]; simp)
  have hb : M.baseScore = .fin 0 := (C72_metadata _ _ _ _ _ M hM).2.2.2.2.1
  refine ⟨M, { M with baseScore := .fin 3 }, hM, newMultiClass_shift (O := { defaultGOptions 0 with baseScore := .fin 0 }) rfl rfl hM, ?_⟩
  intro he
  rw [he] at hb
  simp at hb

/-- **C74 is violated in binary64**: with `BaseScore = 1000` `exp` overflows, every probability is NaN from the start, and the
model predicts NaN; with `BaseScore = 0` the same data and options give numbers. (For every `exp` with the given values.) -/
theorem C74_violated_binary64 (exp : F64 → F64)
    (hexp : HasValues exp [(.nan, .nan), (.fin 1000, .inf false)]) :
    ∃ M, newMultiClass exp GoSort.ins (fun _ => .fin 0) satData
        { satOptions with rounds := 1, baseScore := .fin 1000 } = .ok M ∧
      M.predictSingle [.fin 0] = .ok [.nan, .nan] :=
  probsT_sound (t := [(.nan, .nan), (.fin 1000, .inf false)]) (raw := [.nan, .nan]) (by decide +kernel) (by simp) exp hexp

end Boo
