import Verif.Model.MultiClass
import Verif.Lemmas.Dense
import Verif.Lemmas.Tree
import Verif.Props.Loss
import Verif.Props.Tree
import Verif.Props.Math

/-!
# The training loop: inversion lemmas and invariants
-/

namespace Boo
open GoFloat
set_option linter.unusedSectionVars false
variable {F : Type} [GoFloat F]

/-- `do` blocks that succeed -/
theorem bind_ok {α β : Type} {x : Go α} {f : α → Go β} {b : β} (h : (x >>= f) = .ok b) :
    ∃ a, x = .ok a ∧ f a = .ok b := by
  cases x with
  | error e => simp [bind, Except.bind] at h
  | ok a => exact ⟨a, rfl, h⟩

theorem bind_pure_ok {α : Type} (x : Go α) : (do let a ← x; pure a) = x := by
  cases x <;> rfl

/-- what a class step that trains a tree did -/
structure ClassStep (exp : F → F) (S : GoSort) (data : List (List F)) (O : Options F) (ohe : Dense F)
    (indexes : Option (List Nat)) (cols : List Nat) (round : Nat) (st st' : TrainState F) (k : Nat)
    (tree : Tree F) where
  y : List F
  p : List F
  lv : LossVal F
  preds : List F
  raw : Dense F
  probs : Dense F
  loss : F
  hy : denseCol ohe k = .ok y
  hp : denseCol st.probs k = .ok p
  hlv : O.loss = some lv
  htree : classTree S data O lv.fn indexes cols y p = .ok tree
  hpreds : tree.predict data (some st.tmpPreds) = .ok preds
  hraw : addToCol st.rawPred (preds.map fun v => v *. O.learningRate) k = .ok raw
  hprobs : softMaxDense exp raw (some st.probs) = .ok probs
  hloss : O.earlyStop > 0 → ∃ kp, denseCol probs k = .ok kp ∧ lv.fn.loss y kp = .ok loss
  hst : st' = earlyStopping O round k loss
    { st with rawPred := raw, probs := probs, tmpPreds := preds.map fun v => v *. O.learningRate }

theorem trainClass_inv {exp : F → F} {S : GoSort} {data : List (List F)} {O : Options F} {ohe : Dense F}
    {indexes : Option (List Nat)} {cols : List Nat} {round : Nat} {acc acc' : TrainState F × List (Tree F)}
    {k : Nat} (h : trainClass (softMaxDense exp) S data O ohe indexes cols round acc k = .ok acc') :
    (acc.1.stopped.getD k false = true ∧ acc' = acc) ∨
    (acc.1.stopped.getD k false = false ∧ ∃ tree, acc'.2 = acc.2 ++ [tree] ∧
      Nonempty (ClassStep exp S data O ohe indexes cols round acc.1 acc'.1 k tree)) := by
  unfold trainClass at h
  simp only at h
  split at h
  · rename_i hs
    left
    simp only [pure, Except.pure, Except.ok.injEq] at h
    exact ⟨hs, h.symm⟩
  · rename_i hs
    right
    refine ⟨by simpa using hs, ?_⟩
    obtain ⟨y, hy, h⟩ := bind_ok h
    obtain ⟨p, hp, h⟩ := bind_ok h
    cases hlv : O.loss with
    | none => rw [hlv] at h; simp at h
    | some lv =>
      rw [hlv] at h
      simp only at h
      obtain ⟨tree, ht, h⟩ := bind_ok h
      obtain ⟨preds, hpr, h⟩ := bind_ok h
      obtain ⟨raw, hraw, h⟩ := bind_ok h
      obtain ⟨probs, hprobs, h⟩ := bind_ok h
      by_cases he : O.earlyStop > 0 ∨ O.verbose = true
      · rw [if_pos he] at h
        obtain ⟨kp, hkp, h⟩ := bind_ok h
        obtain ⟨loss, hloss, h⟩ := bind_ok h
        simp only [pure, Except.pure, Except.ok.injEq] at h
        subst h
        exact ⟨tree, rfl, ⟨⟨y, p, lv, preds, raw, probs, loss, hy, hp, hlv, ht, hpr, hraw, hprobs,
          fun _ => ⟨kp, hkp, hloss⟩, rfl⟩⟩⟩
      · rw [if_neg he] at h
        simp only [pure, Except.pure, bind, Except.bind, Except.ok.injEq] at h
        subst h
        exact ⟨tree, rfl, ⟨⟨y, p, lv, preds, raw, probs, zero, hy, hp, hlv, ht, hpr, hraw, hprobs,
          fun h => absurd (Or.inl h) he, rfl⟩⟩⟩

theorem earlyStopping_raw (O : Options F) (round k : Nat) (l : F) (st : TrainState F) :
    (earlyStopping O round k l st).rawPred = st.rawPred ∧ (earlyStopping O round k l st).probs = st.probs ∧
    (earlyStopping O round k l st).tmpPreds = st.tmpPreds ∧
    (earlyStopping O round k l st).boosters = st.boosters ∧
    (earlyStopping O round k l st).draws = st.draws ∧
    (earlyStopping O round k l st).stopped.length = st.stopped.length ∧
    (earlyStopping O round k l st).noProgress.length = st.noProgress.length ∧
    (earlyStopping O round k l st).prevloss.length = st.prevloss.length := by
  unfold earlyStopping
  split
  · split
    · simp
    · split
      · simp
      · simp only [List.length_set, true_and, and_true]
        split <;> (split <;> simp)
  · simp

theorem earlyStopping_off (O : Options F) (he : O.earlyStop ≤ 0) (round k : Nat) (l : F) (st : TrainState F) :
    earlyStopping O round k l st = st := by
  unfold earlyStopping
  rw [if_neg (by omega)]

/-- dimensions of the training state -/
structure TInv (exp : F → F) (n m : Nat) (st : TrainState F) : Prop where
  rawWF : st.rawPred.WF
  rawR : st.rawPred.r = n
  rawC : st.rawPred.c = m
  probsWF : st.probs.WF
  probsR : st.probs.r = n
  probsC : st.probs.c = m
  tmp : st.tmpPreds.length = n
  soft : ∀ i < n, softMax exp (st.rawPred.row i) none = .ok (st.probs.row i)

/-- effect of a class step on the state -/
theorem ClassStep.inv {exp : F → F} {S : GoSort} {data : List (List F)} {O : Options F} {ohe : Dense F}
    {indexes : Option (List Nat)} {cols : List Nat} {round : Nat} {st st' : TrainState F} {k n m : Nat}
    {tree : Tree F} (s : ClassStep exp S data O ohe indexes cols round st st' k tree)
    (hi : TInv exp n m st) (hd : data.length = n) (hk : k < m) :
    TInv exp n m st' ∧ st'.boosters = st.boosters ∧ st'.draws = st.draws ∧
      ∀ i row, data[i]? = some row → ∃ v d, tree.predictSingle row = .ok v ∧ (st.rawPred.row i)[k]? = some d ∧
        st'.rawPred.row i = (st.rawPred.row i).set k (d +. (v *. O.learningRate)) := by
  obtain ⟨e1, e2, e3, e4, e5, _⟩ := earlyStopping_raw O round k s.loss
    { st with rawPred := s.raw, probs := s.probs, tmpPreds := s.preds.map fun v => v *. O.learningRate }
  rw [← s.hst] at e1 e2 e3 e4 e5
  simp only at e1 e2 e3 e4 e5
  obtain ⟨hlen, vs, hvs, hpreds⟩ := (C13_predict_buffer tree data st.tmpPreds s.preds).1 s.hpreds
  have hdrop : st.tmpPreds.drop data.length = [] := by
    rw [List.drop_eq_nil_iff, hi.tmp, hd]
  rw [hdrop, List.append_nil] at hpreds
  have hpl : s.preds.length = n := by rw [hpreds, ← hvs.length_eq, hd]
  obtain ⟨D', h1, h2, h3, h4, h5, h6⟩ := addToCol_spec hi.rawWF (col := k) (by rw [hi.rawC]; exact hk)
    (s.preds.map fun v => v *. O.learningRate) (by rw [List.length_map, hpl, hi.rawR])
  have hD : D' = s.raw := by
    have := s.hraw
    rw [h1] at this
    exact Except.ok.inj this
  rw [hD] at h2 h3 h4 h5 h6
  obtain ⟨P, q1, q2, q3, q4, q5⟩ := C24_dense exp s.raw h4 (some st.probs) (by
    rintro d hd; cases hd
    exact ⟨by rw [hi.probsR, h2, hi.rawR], by rw [hi.probsC, h3, hi.rawC], hi.probsWF⟩)
  have hP : P = s.probs := by
    have := s.hprobs
    rw [q1] at this
    exact Except.ok.inj this
  rw [hP] at q2 q3 q4 q5
  refine ⟨⟨by rw [e1]; exact h4, by rw [e1, h2, hi.rawR], by rw [e1, h3, hi.rawC], by rw [e2]; exact q4,
    by rw [e2, q2, h2, hi.rawR], by rw [e2, q3, h3, hi.rawC], by rw [e3, List.length_map, hpl], ?_⟩, e4, e5, ?_⟩
  · intro i hin
    rw [e1, e2]
    exact q5 i (by rw [h2, hi.rawR]; exact hin)
  · intro i row hrow
    have hin : i < n := by rw [← hd]; exact (List.getElem?_eq_some_iff.1 hrow).1
    have hir : i < st.rawPred.r := by rw [hi.rawR]; exact hin
    have hkc : k < st.rawPred.c := by rw [hi.rawC]; exact hk
    rcases forall2_get hvs i with ⟨row', v, hr', hv, hpv⟩ | ⟨hn, _⟩
    · rw [hrow] at hr'
      cases hr'
      obtain ⟨d, hd'⟩ := Dense.at?_some hi.rawWF hir hkc
      refine ⟨v, d, hpv, by rw [Dense.row_get hir hkc, hd'], ?_⟩
      rw [e1]
      apply List.ext_getElem?
      intro j
      by_cases hj : j < st.rawPred.c
      · rw [Dense.row_get (by omega) (by omega)]
        by_cases hjk : j = k
        · subst hjk
          rw [h6 i d (v *. O.learningRate) hir hd' (by rw [hpreds, List.getElem?_map, hv]; rfl),
            List.getElem?_set_self (by rw [Dense.row_length hi.rawWF hir]; exact hj)]
        · rw [h5 i j hir hj hjk, List.getElem?_set_ne (Ne.symm hjk), Dense.row_get hir hj]
      · rw [List.getElem?_eq_none_iff.2, List.getElem?_eq_none_iff.2]
        · rw [List.length_set, Dense.row_length hi.rawWF hir]; omega
        · rw [Dense.row_length h4 (by omega)]; omega
    · rw [hrow] at hn; cases hn

/-! ### what the model computes from the trees so far -/

theorem addRound_append (lr : F) (x : List F) (ts : List (Tree F)) (t : Tree F) (c : Nat) (tmp : List F) :
    addRound lr x (ts ++ [t]) c tmp = (do
      let tmp ← addRound lr x ts c tmp
      let p ← t.predictSingle x
      addAt tmp (c + ts.length) (p *. lr)) := by
  induction ts generalizing c tmp with
  | nil =>
    simp only [List.nil_append, addRound, bind, Except.bind, List.length_nil, Nat.add_zero]
    cases t.predictSingle x with
    | error e => rfl
    | ok p =>
      simp only
      cases addAt tmp c (p *. lr) <;> rfl
  | cons t' ts ih =>
    simp only [List.cons_append, addRound, bind, Except.bind]
    cases t'.predictSingle x with
    | error e => rfl
    | ok p =>
      simp only
      cases addAt tmp c (p *. lr) with
      | error e => rfl
      | ok tmp' =>
        simp only
        rw [ih]
        simp only [bind, Except.bind, List.length_cons]
        rw [show c + 1 + ts.length = c + (ts.length + 1) by omega]

/-- raw scores of a list of finished rounds and of an unfinished one -/
def scoreOf (base lr : F) (m : Nat) (boosters : List (List (Tree F))) (classes : List (Tree F)) (x : List F) :
    Go (List F) := do
  let s ← boosters.foldlM (fun tmp ens => addRound lr x ens 0 tmp) (List.replicate m base)
  addRound lr x classes 0 s

theorem scoreOf_append (base lr : F) (m : Nat) (b : List (List (Tree F))) (c : List (Tree F)) (x : List F) :
    scoreOf base lr m (b ++ [c]) [] x = scoreOf base lr m b c x := by
  unfold scoreOf
  rw [List.foldlM_append]
  simp only [List.foldlM_cons, List.foldlM_nil, addRound, bind, Except.bind, pure, Except.pure]
  cases List.foldlM (fun tmp ens => addRound lr x ens 0 tmp) (List.replicate m base) b with
  | error e => rfl
  | ok s =>
    simp only
    cases addRound lr x c 0 s <;> rfl

/-- the raw predictions of the training state are what the trees give -/
def RawInv (base lr : F) (m : Nat) (data : List (List F)) (st : TrainState F) (classes : List (Tree F)) : Prop :=
  ∀ (i : Nat) row, data[i]? = some row →
    scoreOf base lr m st.boosters classes row = .ok (st.rawPred.row i)

/-- the invariant inside a round, after the classes below `k` -/
theorem trainClass_step {exp : F → F} {S : GoSort} {data : List (List F)} {O : Options F} {ohe : Dense F}
    {indexes : Option (List Nat)} {cols : List Nat} {round : Nat} {acc acc' : TrainState F × List (Tree F)}
    {k n m : Nat} (h : trainClass (softMaxDense exp) S data O ohe indexes cols round acc k = .ok acc')
    (hi : TInv exp n m acc.1) (hd : data.length = n) (hk : k < m) :
    TInv exp n m acc'.1 ∧ acc'.1.boosters = acc.1.boosters ∧ acc'.1.draws = acc.1.draws ∧
      (acc.2.length ≤ k → acc'.2.length ≤ k + 1 ∧
        (acc'.2.length = k + 1 → acc.2.length = k ∧ ∀ base,
          (RawInv base O.learningRate m data acc.1 acc.2 → RawInv base O.learningRate m data acc'.1 acc'.2))) := by
  rcases trainClass_inv h with ⟨_, rfl⟩ | ⟨_, tree, h2, ⟨s⟩⟩
  · exact ⟨hi, rfl, rfl, fun hl => ⟨by omega, fun h => by omega⟩⟩
  · obtain ⟨i1, i2, i3, i4⟩ := s.inv hi hd hk
    refine ⟨i1, i2, i3, fun hl => ⟨by rw [h2]; simp; omega, fun hl' => ?_⟩⟩
    rw [h2] at hl'
    simp only [List.length_append, List.length_cons, List.length_nil] at hl'
    refine ⟨by omega, fun base hR i row hrow => ?_⟩
    obtain ⟨v, d, hv, hdk, hrowk⟩ := i4 i row hrow
    have := hR i row hrow
    unfold scoreOf at this ⊢
    obtain ⟨s0, hs0, hs1⟩ := bind_ok this
    rw [i2, hs0, h2]
    simp only [bind, Except.bind]
    rw [addRound_append, hs1]
    simp only [bind, Except.bind, hv, Nat.zero_add]
    unfold addAt
    rw [show acc.2.length = k by omega, hdk]
    simp only
    rw [hrowk]

theorem trainClasses_inv {exp : F → F} {S : GoSort} {data : List (List F)} {O : Options F} {ohe : Dense F}
    {indexes : Option (List Nat)} {cols : List Nat} {round : Nat} {n m : Nat} (hd : data.length = n)
    (q : Nat) (hq : q ≤ m) (st : TrainState F) (acc' : TrainState F × List (Tree F))
    (h : (List.range q).foldlM (trainClass (softMaxDense exp) S data O ohe indexes cols round) (st, []) = .ok acc')
    (hi : TInv exp n m st) :
    TInv exp n m acc'.1 ∧ acc'.1.boosters = st.boosters ∧ acc'.1.draws = st.draws ∧ acc'.2.length ≤ q ∧
      (acc'.2.length = q → ∀ base,
        RawInv base O.learningRate m data st [] → RawInv base O.learningRate m data acc'.1 acc'.2) := by
  induction q generalizing acc' with
  | zero =>
    simp only [List.range_zero, List.foldlM_nil, pure, Except.pure, Except.ok.injEq] at h
    subst h
    exact ⟨hi, rfl, rfl, by simp, fun _ _ h => h⟩
  | succ q ih =>
    rw [List.range_succ, List.foldlM_append] at h
    obtain ⟨acc, h1, h2⟩ := bind_ok h
    rw [List.foldlM_cons] at h2
    obtain ⟨acc'', h3, h4⟩ := bind_ok h2
    simp only [List.foldlM_nil, pure, Except.pure, Except.ok.injEq] at h4
    subst h4
    obtain ⟨a1, a2, a3, a4, a5⟩ := ih (by omega) acc h1
    obtain ⟨b1, b2, b3, b4⟩ := trainClass_step h3 a1 hd (by omega)
    obtain ⟨b5, b6⟩ := b4 a4
    refine ⟨b1, b2.trans a2, b3.trans a3, b5, fun hl base hR => ?_⟩
    obtain ⟨c1, c2⟩ := b6 hl
    exact c2 base (a5 c1 base hR)

/-- what a round did -/
theorem trainRound_inv {exp : F → F} {S : GoSort} {data : List (List F)} {O : Options F} {ohe : Dense F}
    {nlabels : Nat} {st st' : TrainState F} {round : Nat}
    (h : trainRound (softMaxDense exp) S data O ohe nlabels st round = .ok st') :
    ∃ idx cols draws, roundSamples data O st.draws = .ok (idx, cols, draws) ∧
      ((((idx.getD []).length : Int) < O.minSample ∧ st' = { st with draws := draws }) ∨
       (¬ ((idx.getD []).length : Int) < O.minSample ∧ ∃ acc,
          (List.range nlabels).foldlM (trainClass (softMaxDense exp) S data O ohe idx cols round) ({ st with draws := draws }, []) =
            .ok acc ∧ st' = { acc.1 with boosters := acc.1.boosters ++ [acc.2] })) := by
  unfold trainRound at h
  obtain ⟨⟨idx, cols, draws⟩, h1, h2⟩ := bind_ok h
  refine ⟨idx, cols, draws, h1, ?_⟩
  simp only at h2
  split at h2
  · rename_i hl
    simp only [pure, Except.pure, Except.ok.injEq] at h2
    exact Or.inl ⟨hl, h2.symm⟩
  · rename_i hl
    obtain ⟨acc, h3, h4⟩ := bind_ok h2
    simp only [pure, Except.pure, Except.ok.injEq] at h4
    exact Or.inr ⟨hl, acc, h3, h4.symm⟩

theorem TInv.draws {exp : F → F} {n m : Nat} {st : TrainState F} (h : TInv exp n m st) (d : Nat → F) :
    TInv exp n m { st with draws := d } :=
  ⟨h.rawWF, h.rawR, h.rawC, h.probsWF, h.probsR, h.probsC, h.tmp, h.soft⟩

theorem TInv.boosters {exp : F → F} {n m : Nat} {st : TrainState F} (h : TInv exp n m st)
    (b : List (List (Tree F))) : TInv exp n m { st with boosters := b } :=
  ⟨h.rawWF, h.rawR, h.rawC, h.probsWF, h.probsR, h.probsC, h.tmp, h.soft⟩

/-- every finished round has a tree for every class -/
def Full (m : Nat) (b : List (List (Tree F))) : Prop := ∀ ens ∈ b, ens.length = m

theorem trainRound_step {exp : F → F} {S : GoSort} {data : List (List F)} {O : Options F} {ohe : Dense F}
    {st st' : TrainState F} {round n m : Nat}
    (h : trainRound (softMaxDense exp) S data O ohe m st round = .ok st') (hi : TInv exp n m st) (hd : data.length = n) :
    TInv exp n m st' ∧ (∀ ens ∈ st'.boosters, ens ∈ st.boosters ∨ ens.length ≤ m) ∧
      (Full m st'.boosters → Full m st.boosters ∧ ∀ base, RawInv base O.learningRate m data st [] →
        RawInv base O.learningRate m data st' []) := by
  obtain ⟨idx, cols, draws, _, ⟨_, rfl⟩ | ⟨_, acc, h2, rfl⟩⟩ := trainRound_inv h
  · exact ⟨hi.draws _, fun ens h => Or.inl h, fun hf => ⟨hf, fun base h => h⟩⟩
  · obtain ⟨a1, a2, a3, a4, a5⟩ := trainClasses_inv hd m le_rfl _ acc h2 (hi.draws draws)
    refine ⟨a1.boosters _, ?_, ?_⟩
    · intro ens he
      simp only [a2, List.mem_append, List.mem_singleton] at he
      rcases he with he | rfl
      · exact Or.inl he
      · exact Or.inr a4
    · intro hf
      simp only [a2] at hf
      refine ⟨fun ens he => hf ens (by simp [he]), fun base hR i row hrow => ?_⟩
      have := a5 (hf acc.2 (by simp)) base hR i row hrow
      simp only
      rw [scoreOf_append]
      exact this

theorem trainRounds_inv {exp : F → F} {S : GoSort} {data : List (List F)} {O : Options F} {ohe : Dense F}
    {st st' : TrainState F} {n m q : Nat}
    (h : (List.range q).foldlM (trainRound (softMaxDense exp) S data O ohe m) st = .ok st') (hi : TInv exp n m st)
    (hd : data.length = n) (hb : st.boosters = []) :
    TInv exp n m st' ∧ (∀ ens ∈ st'.boosters, ens.length ≤ m) ∧
      (Full m st'.boosters → ∀ base, RawInv base O.learningRate m data st [] →
        RawInv base O.learningRate m data st' []) := by
  induction q generalizing st' with
  | zero =>
    simp only [List.range_zero, List.foldlM_nil, pure, Except.pure, Except.ok.injEq] at h
    subst h
    exact ⟨hi, by simp [hb], fun _ _ h => h⟩
  | succ q ih =>
    rw [List.range_succ, List.foldlM_append] at h
    obtain ⟨st1, h1, h2⟩ := bind_ok h
    rw [List.foldlM_cons] at h2
    obtain ⟨st2, h3, h4⟩ := bind_ok h2
    simp only [List.foldlM_nil, pure, Except.pure, Except.ok.injEq] at h4
    subst h4
    obtain ⟨a1, a2, a3⟩ := ih h1
    obtain ⟨b1, b2, b3⟩ := trainRound_step h3 a1 hd
    refine ⟨b1, fun ens he => ?_, fun hf base hR => ?_⟩
    · rcases b2 ens he with h | h
      · exact a2 ens h
      · exact h
    · obtain ⟨c1, c2⟩ := b3 hf
      exact c2 base (a3 c1 base hR)

/-- the state before the first round -/
theorem trainInit_inv {exp : F → F} {O : Options F} {ohe : Dense F} {draws : Nat → F} {st : TrainState F} {n m : Nat}
    (h : trainInit (softMaxDense exp) O ohe m draws = .ok st) (hr : ohe.r = n) (hc : ohe.c = m) :
    TInv exp n m st ∧ st.boosters = [] ∧ st.draws = draws ∧ st.stopped = List.replicate m false ∧
      st.noProgress = List.replicate m 0 ∧ st.prevloss = List.replicate m zero ∧
      ∀ i < n, st.rawPred.row i = List.replicate m (O.baseScore *. one) := by
  unfold trainInit at h
  obtain ⟨raw, h1, h⟩ := bind_ok h
  obtain ⟨probs, h2, h⟩ := bind_ok h
  simp only [pure, Except.pure, Except.ok.injEq] at h
  subst h
  unfold newDense at h1
  split at h1
  · cases h1
  · cases h1
    have hdata : (((toOnes ⟨ohe.r, ohe.c, List.replicate (ohe.r * ohe.c) zero⟩).scale O.baseScore) : Dense F) =
        ⟨n, m, List.replicate (n * m) (O.baseScore *. one)⟩ := by
      subst hr hc
      simp [toOnes, Dense.scale]
    rw [hdata] at h2 ⊢
    have hwf : (⟨n, m, List.replicate (n * m) (O.baseScore *. one)⟩ : Dense F).WF := by simp [Dense.WF]
    obtain ⟨P, q1, q2, q3, q4, q5⟩ := C24_dense exp _ hwf none (by simp)
    have hP : P = probs := by
      rw [h2] at q1
      exact (Except.ok.inj q1).symm
    subst hP
    refine ⟨⟨hwf, rfl, rfl, q4, q2, q3, by simp [hr], q5⟩, rfl, rfl, rfl, rfl, rfl, ?_⟩
    intro i hi
    unfold Dense.row
    simp only [List.drop_replicate, List.take_replicate]
    congr 1
    have : (i + 1) * m ≤ n * m := Nat.mul_le_mul_right m hi
    have h2 : (i + 1) * m = i * m + m := by ring
    omega

theorem Options.fixMcw_lr (O : Options F) : O.fixMcw.learningRate = O.learningRate ∧
    O.fixMcw.baseScore = O.baseScore ∧ O.fixMcw.earlyStop = O.earlyStop ∧ O.fixMcw.rounds = O.rounds ∧
    O.fixMcw.minSample = O.minSample ∧ O.fixMcw.xgb = O.xgb ∧ O.fixMcw.subSample = O.subSample ∧
    O.fixMcw.colSubSample = O.colSubSample ∧ O.fixMcw.loss = O.loss ∧ O.fixMcw.maxDepth = O.maxDepth := by
  unfold Options.fixMcw
  split <;> simp

/-- training, taken apart -/
theorem train_inv {exp : F → F} {S : GoSort} {draws : Nat → F} {D : DataBunch F} {O : Options F}
    {labels : List Int} {st : TrainState F} (h : train exp S draws D O = .ok (labels, st)) :
    D.labels ≠ [] ∧ labels = distinctElements D.labels ∧ ∃ ohe st0, D.oheLabels = .ok (ohe, labels) ∧
      ohe.r = D.labels.length ∧ ohe.c = labels.length ∧ ohe.WF ∧
      trainInit (softMaxDense exp) O ohe labels.length draws = .ok st0 ∧
      (List.range O.rounds.toNat).foldlM (trainRound (softMaxDense exp) S D.data O.fixMcw ohe labels.length) st0 = .ok st := by
  unfold train trainWith at h
  obtain ⟨⟨ohe, labels'⟩, h1, h⟩ := bind_ok h
  simp only at h
  obtain ⟨st0, h2, h⟩ := bind_ok h
  obtain ⟨st1, h3, h⟩ := bind_ok h
  simp only [pure, Except.pure, Except.ok.injEq, Prod.mk.injEq] at h
  obtain ⟨rfl, rfl⟩ := h
  have hne : D.labels ≠ [] := by
    intro hn
    unfold DataBunch.oheLabels at h1
    rw [hn, C39_empty] at h1
    cases h1
  obtain ⟨oh, q1, q2, q3, q4, _⟩ := C39_matrix (F := F) D.labels hne
  unfold DataBunch.oheLabels at h1
  rw [q1] at h1
  simp only [Except.ok.injEq, Prod.mk.injEq] at h1
  obtain ⟨rfl, rfl⟩ := h1
  exact ⟨hne, rfl, oh, st0, q1, q2, q3, q4, h2, h3⟩

end Boo
