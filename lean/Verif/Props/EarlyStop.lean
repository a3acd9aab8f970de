import Verif.Props.Train
import Mathlib.Logic.Function.Basic

/-!
# C27: early stopping
-/

namespace Boo
open GoFloat
set_option linter.unusedSectionVars false
variable {F : Type} [GoFloat F]

/-! ### Specification: the loss history of a class and reasons to stop -/

/-- The last `e` losses were not smaller than the one before (`H` lists the losses of a class in the executed rounds,
newest first). -/
def NoProgress (e : Nat) (H : List F) : Prop :=
  ∀ i < e, ∃ new old, H[i]? = some new ∧ H[i + 1]? = some old ∧ (old <=. new) = true

/-- The newest loss is at most 1e-6, or the last `e` executed rounds made no progress. -/
def StopReason (e : Int) (H : List F) : Prop :=
  (∃ l, H[0]? = some l ∧ (l <=. ofRat (1 / 1000000)) = true) ∨ NoProgress e.toNat H

/-- the loss of class `k` for the given probabilities -/
def classLoss (O : Options F) (ohe probs : Dense F) (k : Nat) : Go F := do
  let y ← denseCol ohe k
  let p ← denseCol probs k
  match O.loss with
  | none => .error .nilDeref
  | some lv => lv.fn.loss y p

/-- The training loop with a history variable: `hist k` collects the loss of class `k` after each tree trained for it,
newest first. The history is not read. -/
def trainClassH (act : Dense F → Option (Dense F) → Go (Dense F)) (S : GoSort) (data : List (List F)) (O : Options F) (ohe : Dense F)
    (indexes : Option (List Nat)) (cols : List Nat) (round : Nat)
    (acc : (TrainState F × List (Tree F)) × (Nat → List F)) (k : Nat) :
    Go ((TrainState F × List (Tree F)) × (Nat → List F)) := do
  let a ← trainClass act S data O ohe indexes cols round acc.1 k
  if acc.1.1.stopped.getD k false then pure (a, acc.2)
  else
    let l ← classLoss O ohe a.1.probs k
    pure (a, Function.update acc.2 k (l :: acc.2 k))

def trainRoundH (act : Dense F → Option (Dense F) → Go (Dense F)) (S : GoSort) (data : List (List F)) (O : Options F) (ohe : Dense F)
    (nlabels : Nat) (acc : TrainState F × (Nat → List F)) (round : Nat) : Go (TrainState F × (Nat → List F)) := do
  let (idx, cols, draws) ← roundSamples data O acc.1.draws
  let st := { acc.1 with draws := draws }
  if ((idx.getD []).length : Int) < O.minSample then pure (st, acc.2)
  else
    let ((st, classes), hist) ← (List.range nlabels).foldlM
      (trainClassH act S data O ohe idx cols round) ((st, []), acc.2)
    pure ({ st with boosters := st.boosters ++ [classes] }, hist)

/-- `trainWith` with the history variable -/
def trainWithH (act : Dense F → Option (Dense F) → Go (Dense F)) (S : GoSort) (draws : Nat → F) (D : DataBunch F)
    (O : Options F) : Go (List Int × TrainState F × (Nat → List F)) := do
  let (ohe, labels) ← D.oheLabels
  let st0 ← trainInit act O ohe labels.length draws
  let st ← (List.range O.rounds.toNat).foldlM
    (trainRoundH act S D.data O.fixMcw ohe labels.length) (st0, fun _ => [])
  pure (labels, st)

/-- `train` with the history variable -/
def trainH (exp : F → F) (S : GoSort) (draws : Nat → F) (D : DataBunch F) (O : Options F) :
    Go (List Int × TrainState F × (Nat → List F)) := trainWithH (softMaxDense exp) S draws D O

/-! ### the history variable does not disturb the training -/

theorem foldlM_ghost {α β γ : Type} (f : β → α → Go β) (g : β × γ → α → Go (β × γ))
    (l : List α) (hfg : ∀ b c a b', f b a = .ok b' → ∃ c', g (b, c) a = .ok (b', c')) (b b' : β) (c : γ)
    (h : l.foldlM f b = .ok b') : ∃ c', l.foldlM g (b, c) = .ok (b', c') := by
  induction l generalizing b c with
  | nil =>
    simp only [List.foldlM_nil, pure, Except.pure, Except.ok.injEq] at h
    subst h
    exact ⟨c, rfl⟩
  | cons x xs ih =>
    rw [List.foldlM_cons] at h
    obtain ⟨b1, h1, h2⟩ := bind_ok h
    obtain ⟨c1, hc1⟩ := hfg b c x b1 h1
    obtain ⟨c', hc'⟩ := ih b1 c1 h2
    refine ⟨c', ?_⟩
    rw [List.foldlM_cons, hc1]
    exact hc'

theorem trainClassH_exists {exp : F → F} {S : GoSort} {data : List (List F)} {O : Options F} {ohe : Dense F}
    {indexes : Option (List Nat)} {cols : List Nat} {round : Nat} {acc acc' : TrainState F × List (Tree F)}
    {k : Nat} (hist : Nat → List F) (he : O.earlyStop > 0)
    (h : trainClass (softMaxDense exp) S data O ohe indexes cols round acc k = .ok acc') :
    ∃ hist', trainClassH (softMaxDense exp) S data O ohe indexes cols round (acc, hist) k = .ok (acc', hist') := by
  unfold trainClassH
  simp only [h, bind, Except.bind]
  rcases trainClass_inv h with ⟨hs, rfl⟩ | ⟨hs, tree, h2, ⟨s⟩⟩
  · rw [if_pos hs]; exact ⟨_, rfl⟩
  · rw [if_neg (by rw [hs]; simp)]
    obtain ⟨kp, hk, hl⟩ := s.hloss he
    have hpr : acc'.1.probs = s.probs := by
      have := congrArg TrainState.probs s.hst
      rw [(earlyStopping_raw _ _ _ _ _).2.1] at this
      exact this
    have : classLoss O ohe acc'.1.probs k = .ok s.loss := by
      unfold classLoss
      rw [hpr]
      simp only [s.hy, hk, bind, Except.bind, s.hlv, hl]
    rw [this]
    exact ⟨_, rfl⟩

theorem trainRoundH_exists {exp : F → F} {S : GoSort} {data : List (List F)} {O : Options F} {ohe : Dense F}
    {nlabels : Nat} {st st' : TrainState F} {round : Nat} (he : O.earlyStop > 0) (hist : Nat → List F)
    (h : trainRound (softMaxDense exp) S data O ohe nlabels st round = .ok st') :
    ∃ hist', trainRoundH (softMaxDense exp) S data O ohe nlabels (st, hist) round = .ok (st', hist') := by
  obtain ⟨idx, cols, draws, h1, ⟨hlt, rfl⟩ | ⟨hge, acc, hacc, rfl⟩⟩ := trainRound_inv h
  · unfold trainRoundH
    simp only [h1, bind, Except.bind]
    rw [if_pos hlt]
    exact ⟨_, rfl⟩
  · unfold trainRoundH
    simp only [h1, bind, Except.bind]
    rw [if_neg hge]
    obtain ⟨hist', hh⟩ := foldlM_ghost _ (trainClassH (softMaxDense exp) S data O ohe idx cols round) _
      (fun b c a b' hb => trainClassH_exists c he hb) _ _ hist hacc
    rw [hh]
    exact ⟨_, rfl⟩

/-- The history variable can be added to every training run. -/
theorem trainH_exists (exp : F → F) (S : GoSort) (draws : Nat → F) (D : DataBunch F) (O : Options F)
    (labels : List Int) (st : TrainState F) (he : O.earlyStop > 0) (h : train exp S draws D O = .ok (labels, st)) :
    ∃ hist, trainH exp S draws D O = .ok (labels, st, hist) := by
  obtain ⟨_, _, ohe, st0, h1, _, _, _, h2, h3⟩ := train_inv h
  obtain ⟨hist, hh⟩ := foldlM_ghost _ (trainRoundH (softMaxDense exp) S D.data O.fixMcw ohe labels.length) _
    (fun b c a b' hb => trainRoundH_exists (by rw [(Options.fixMcw_lr O).2.2.1]; exact he) c hb) _ _ (fun _ => []) h3
  refine ⟨hist, ?_⟩
  unfold trainH trainWithH
  simp only [h1, bind, Except.bind, h2, hh, pure, Except.pure]

theorem trainClassH_inv {exp : F → F} {S : GoSort} {data : List (List F)} {O : Options F} {ohe : Dense F}
    {indexes : Option (List Nat)} {cols : List Nat} {round : Nat}
    {acc acc' : (TrainState F × List (Tree F)) × (Nat → List F)} {k : Nat}
    (h : trainClassH (softMaxDense exp) S data O ohe indexes cols round acc k = .ok acc') (he : O.earlyStop > 0) :
    (acc.1.1.stopped.getD k false = true ∧ acc' = acc) ∨
    (acc.1.1.stopped.getD k false = false ∧ ∃ tree, acc'.1.2 = acc.1.2 ++ [tree] ∧
      ∃ s : ClassStep exp S data O ohe indexes cols round acc.1.1 acc'.1.1 k tree,
        acc'.2 = Function.update acc.2 k (s.loss :: acc.2 k)) := by
  unfold trainClassH at h
  obtain ⟨a, ha, h⟩ := bind_ok h
  rcases trainClass_inv ha with ⟨hs, rfl⟩ | ⟨hs, tree, h2, ⟨s⟩⟩
  · left
    rw [if_pos hs] at h
    simp only [pure, Except.pure, Except.ok.injEq] at h
    exact ⟨hs, h.symm⟩
  · right
    rw [if_neg (by rw [hs]; simp)] at h
    obtain ⟨l, hl, h⟩ := bind_ok h
    simp only [pure, Except.pure, Except.ok.injEq] at h
    subst h
    refine ⟨hs, tree, h2, s, ?_⟩
    obtain ⟨kp, hk, hl'⟩ := s.hloss he
    have hpr : a.1.probs = s.probs := by
      have := congrArg TrainState.probs s.hst
      rw [(earlyStopping_raw _ _ _ _ _).2.1] at this
      exact this
    have : classLoss O ohe a.1.probs k = .ok s.loss := by
      unfold classLoss
      rw [hpr]
      simp only [s.hy, hk, bind, Except.bind, s.hlv, hl']
    rw [this] at hl
    cases hl
    rfl

/-! ### the invariant -/

/-- What is known about class `k`: `fresh` = it has not been trained yet. -/
structure StopInv (e : Int) (m : Nat) (st : TrainState F) (hist : Nat → List F) (k : Nat) : Prop where
  sl : st.stopped.length = m
  nl : st.noProgress.length = m
  pl : st.prevloss.length = m
  reason : st.stopped.getD k false = true → StopReason e (hist k)
  np0 : 0 ≤ st.noProgress.getD k 0
  np : st.stopped.getD k false = false → NoProgress (st.noProgress.getD k 0).toNat (hist k)
  prev : hist k ≠ [] → st.stopped.getD k false = false → (hist k)[0]? = some (st.prevloss.getD k zero)

theorem getD_set_self {α : Type} {l : List α} {k : Nat} (h : k < l.length) (a d : α) : (l.set k a).getD k d = a := by
  rw [List.getD_eq_getElem?_getD, List.getElem?_set_self h]; rfl
theorem getD_set_ne {α : Type} {l : List α} {k j : Nat} (h : k ≠ j) (a d : α) : (l.set k a).getD j d = l.getD j d := by
  rw [List.getD_eq_getElem?_getD, List.getElem?_set_ne h, List.getD_eq_getElem?_getD]

/-- the bookkeeping of another class is left alone -/
theorem earlyStopping_other (O : Options F) (round k j : Nat) (l : F) (st : TrainState F) (hj : k ≠ j) :
    (earlyStopping O round k l st).stopped.getD j false = st.stopped.getD j false ∧
    (earlyStopping O round k l st).noProgress.getD j 0 = st.noProgress.getD j 0 ∧
    (earlyStopping O round k l st).prevloss.getD j zero = st.prevloss.getD j zero := by
  unfold earlyStopping
  split
  · split
    · exact ⟨getD_set_ne hj _ _, rfl, rfl⟩
    · split
      · exact ⟨rfl, rfl, getD_set_ne hj _ _⟩
      · refine ⟨?_, getD_set_ne hj _ _, getD_set_ne hj _ _⟩
        simp only
        split <;> split <;> first | exact getD_set_ne hj _ _ | rfl
  · exact ⟨rfl, rfl, rfl⟩

theorem NoProgress.push {n : Nat} {H : List F} {l p : F} (h : NoProgress n H) (hp : H[0]? = some p)
    (hl : (p <=. l) = true) : NoProgress (n + 1) (l :: H) := by
  intro i hi
  cases i with
  | zero => exact ⟨l, p, rfl, by simpa using hp, hl⟩
  | succ i =>
    obtain ⟨new, old, h1, h2, h3⟩ := h i (by omega)
    exact ⟨new, old, by simpa using h1, by simpa using h2, h3⟩

/-- one class step; `hround`: a class without history is only trained in round 0 -/
theorem StopInv.step {exp : F → F} {S : GoSort} {data : List (List F)} {O : Options F} {ohe : Dense F}
    {indexes : Option (List Nat)} {cols : List Nat} {round m : Nat}
    {acc acc' : (TrainState F × List (Tree F)) × (Nat → List F)} {k : Nat} (hk : k < m) (he : O.earlyStop > 0)
    (h : trainClassH (softMaxDense exp) S data O ohe indexes cols round acc k = .ok acc')
    (hinv : ∀ j < m, StopInv O.earlyStop m acc.1.1 acc.2 j)
    (hround : round ≠ 0 → acc.2 k ≠ []) (hround' : round = 0 → acc.1.1.noProgress.getD k 0 = 0) :
    (∀ j < m, StopInv O.earlyStop m acc'.1.1 acc'.2 j) ∧ (acc'.2 k ≠ [] ∨ acc' = acc) ∧
      (∀ j ≠ k, acc'.2 j = acc.2 j ∧ acc'.1.1.noProgress.getD j 0 = acc.1.1.noProgress.getD j 0) := by
  rcases trainClassH_inv h he with ⟨_, rfl⟩ | ⟨hs, tree, _, s, hh⟩
  · exact ⟨hinv, Or.inr rfl, fun j _ => ⟨rfl, rfl⟩⟩
  · have hK := hinv k hk
    have hst := s.hst
    generalize hst1 : ({ acc.1.1 with
      rawPred := s.raw, probs := s.probs, tmpPreds := s.preds.map fun v => v *. O.learningRate } :
      TrainState F) = st1 at hst
    have e1 : st1.stopped = acc.1.1.stopped := by rw [← hst1]
    have e2 : st1.noProgress = acc.1.1.noProgress := by rw [← hst1]
    have e3 : st1.prevloss = acc.1.1.prevloss := by rw [← hst1]
    obtain ⟨_, _, _, _, _, l1, l2, l3⟩ := earlyStopping_raw O round k s.loss st1
    rw [← hst] at l1 l2 l3
    refine ⟨?_, Or.inl (by rw [hh]; simp), ?_⟩
    · intro j hj
      by_cases hjk : k = j
      · subst hjk
        have hH : acc'.2 k = s.loss :: acc.2 k := by rw [hh]; simp
        have hnl : k < st1.noProgress.length := by rw [e2, hK.nl]; exact hk
        have hsl : k < st1.stopped.length := by rw [e1, hK.sl]; exact hk
        have hpl : k < st1.prevloss.length := by rw [e3, hK.pl]; exact hk
        refine ⟨by rw [l1, e1, hK.sl], by rw [l2, e2, hK.nl], by rw [l3, e3, hK.pl], ?_, ?_, ?_, ?_⟩
        all_goals rw [hst]
        all_goals unfold earlyStopping
        all_goals rw [if_pos he]
        all_goals by_cases hle : (s.loss <=. earlyEps) = true
        all_goals first | rw [if_pos hle] | rw [if_neg hle]
        all_goals try simp only
        -- reason
        · intro _
          exact Or.inl ⟨s.loss, by rw [hH]; rfl, hle⟩
        · by_cases hr : round = 0
          · rw [if_pos hr]
            simp only
            intro hst'
            rw [e1, hs] at hst'
            cases hst'
          · rw [if_neg hr]
            simp only
            have hne := hround hr
            have hprev := hK.prev hne hs
            rw [e2, e3]
            intro hst'
            right
            rw [hH]
            by_cases hp : (acc.1.1.prevloss.getD k zero <=. s.loss) = true
            · rw [if_pos hp] at hst'
              by_cases hge : acc.1.1.noProgress.getD k 0 + 1 ≥ O.earlyStop
              · have := (hK.np hs).push hprev hp
                intro i hi
                have h0 := hK.np0
                exact this i (by omega)
              · rw [if_neg hge, e1, hs] at hst'
                cases hst'
            · rw [if_neg hp] at hst'
              rw [if_neg (by omega), e1, hs] at hst'
              cases hst'
        -- np0
        · rw [e2]; exact hK.np0
        · by_cases hr : round = 0
          · rw [if_pos hr]; simp only; rw [e2]; exact hK.np0
          · rw [if_neg hr]
            simp only
            rw [getD_set_self hnl, e2]
            have h0 := hK.np0
            split <;> omega
        -- np
        · intro hst'
          rw [getD_set_self hsl] at hst'
          cases hst'
        · by_cases hr : round = 0
          · rw [if_pos hr]
            simp only
            rw [e2, hround' hr]
            intro _ i hi
            simp at hi
          · rw [if_neg hr]
            simp only
            intro _
            rw [getD_set_self hnl, e2, e3, hH]
            by_cases hp : (acc.1.1.prevloss.getD k zero <=. s.loss) = true
            · rw [if_pos hp]
              have := (hK.np hs).push (hK.prev (hround hr) hs) hp
              have h0 := hK.np0
              intro i hi
              exact this i (by omega)
            · rw [if_neg hp]
              intro i hi
              simp at hi
        -- prev
        · intro _ hst'
          rw [getD_set_self hsl] at hst'
          cases hst'
        · intro _ _
          rw [hH]
          by_cases hr : round = 0
          · rw [if_pos hr]; simp only; rw [getD_set_self hpl]; rfl
          · rw [if_neg hr]; simp only; rw [getD_set_self hpl]; rfl
      · obtain ⟨o1, o2, o3⟩ := earlyStopping_other O round k j s.loss st1 hjk
        rw [← hst] at o1 o2 o3
        have hJ := hinv j hj
        have hHj : acc'.2 j = acc.2 j := by rw [hh, Function.update_of_ne (Ne.symm hjk)]
        refine ⟨by rw [l1, e1, hJ.sl], by rw [l2, e2, hJ.nl], by rw [l3, e3, hJ.pl], ?_, ?_, ?_, ?_⟩
        · rw [o1, e1, hHj]; exact hJ.reason
        · rw [o2, e2]; exact hJ.np0
        · rw [o1, o2, e1, e2, hHj]; exact hJ.np
        · rw [o1, o3, e1, e3, hHj]; exact hJ.prev
    · intro j hj
      refine ⟨by rw [hh, Function.update_of_ne hj], ?_⟩
      rw [hst, (earlyStopping_other O round k j s.loss st1 (Ne.symm hj)).2.1, e2]

theorem stop_classes {exp : F → F} {S : GoSort} {data : List (List F)} {O : Options F} {ohe : Dense F}
    {indexes : Option (List Nat)} {cols : List Nat} {round m : Nat} (he : O.earlyStop > 0)
    (q : Nat) (hq : q ≤ m) (a0 acc' : (TrainState F × List (Tree F)) × (Nat → List F))
    (h : (List.range q).foldlM (trainClassH (softMaxDense exp) S data O ohe indexes cols round) a0 = .ok acc')
    (hinv : ∀ j < m, StopInv O.earlyStop m a0.1.1 a0.2 j) (hround : round ≠ 0 → ∀ j < m, a0.2 j ≠ [])
    (hround' : round = 0 → ∀ j < m, a0.1.1.noProgress.getD j 0 = 0 ∧ a0.1.1.stopped.getD j false = false) :
    (∀ j < m, StopInv O.earlyStop m acc'.1.1 acc'.2 j) ∧ (∀ j < m, j < q ∨ a0.2 j ≠ [] → acc'.2 j ≠ []) ∧
      ∀ j, q ≤ j → acc'.1.1.noProgress.getD j 0 = a0.1.1.noProgress.getD j 0 ∧
        acc'.1.1.stopped.getD j false = a0.1.1.stopped.getD j false := by
  induction q generalizing acc' with
  | zero =>
    simp only [List.range_zero, List.foldlM_nil, pure, Except.pure, Except.ok.injEq] at h
    subst h
    exact ⟨hinv, fun j _ h => h.resolve_left (by omega), fun j _ => ⟨rfl, rfl⟩⟩
  | succ q ih =>
    rw [List.range_succ, List.foldlM_append] at h
    obtain ⟨acc, h1, h2⟩ := bind_ok h
    rw [List.foldlM_cons] at h2
    obtain ⟨acc'', h3, h4⟩ := bind_ok h2
    simp only [List.foldlM_nil, pure, Except.pure, Except.ok.injEq] at h4
    subst h4
    obtain ⟨a1, a2, a3⟩ := ih (by omega) acc h1
    have hq1 : q < m := by omega
    obtain ⟨b1, b2, b3⟩ := StopInv.step hq1 he h3 a1 (fun hr => a2 q hq1 (Or.inr (hround hr q hq1)))
      (fun hr => by rw [(a3 q le_rfl).1]; exact (hround' hr q hq1).1)
    refine ⟨b1, ?_, ?_⟩
    · intro j hj hor
      by_cases hjq : j = q
      · subst hjq
        rcases b2 with h | h
        · exact h
        · -- the class was stopped already, so it has a history
          by_cases hr : round = 0
          · exfalso
            rcases trainClassH_inv h3 he with ⟨hs, _⟩ | ⟨_, tree, _, s, hh⟩
            · rw [(a3 j le_rfl).2, (hround' hr j hj).2] at hs; cases hs
            · have : (acc''.2 j).length = (acc.2 j).length + 1 := by rw [hh]; simp
              rw [h] at this; omega
          · rw [h]; exact a2 j hj (Or.inr (hround hr j hj))
      · rw [(b3 j hjq).1]
        refine a2 j hj ?_
        rcases hor with h | h
        · left; omega
        · exact Or.inr h
    · intro j hj
      obtain ⟨c1, c2⟩ := a3 j (by omega)
      refine ⟨(b3 j (by omega)).2.trans c1, ?_⟩
      rcases trainClassH_inv h3 he with ⟨_, rfl⟩ | ⟨_, tree, _, s, _⟩
      · exact c2
      · rw [s.hst, (earlyStopping_other O round q j s.loss _ (by omega)).1]
        exact c2

theorem trainRoundH_inv {exp : F → F} {S : GoSort} {data : List (List F)} {O : Options F} {ohe : Dense F}
    {nlabels : Nat} {a a' : TrainState F × (Nat → List F)} {round : Nat}
    (h : trainRoundH (softMaxDense exp) S data O ohe nlabels a round = .ok a') :
    ∃ idx cols draws, roundSamples data O a.1.draws = .ok (idx, cols, draws) ∧
      ((((idx.getD []).length : Int) < O.minSample ∧ a' = ({ a.1 with draws := draws }, a.2)) ∨
       (¬ ((idx.getD []).length : Int) < O.minSample ∧ ∃ acc,
          (List.range nlabels).foldlM (trainClassH (softMaxDense exp) S data O ohe idx cols round)
            (({ a.1 with draws := draws }, []), a.2) = .ok acc ∧
          a' = ({ acc.1.1 with boosters := acc.1.1.boosters ++ [acc.1.2] }, acc.2))) := by
  unfold trainRoundH at h
  obtain ⟨⟨idx, cols, draws⟩, h1, h2⟩ := bind_ok h
  refine ⟨idx, cols, draws, h1, ?_⟩
  simp only at h2
  split at h2
  · rename_i hl
    simp only [pure, Except.pure, Except.ok.injEq] at h2
    exact Or.inl ⟨hl, h2.symm⟩
  · rename_i hl
    obtain ⟨acc, h3, h4⟩ := bind_ok h2
    simp only [pure, Except.pure, Except.ok.injEq] at h4
    exact Or.inr ⟨hl, acc, h3, h4.symm⟩

/-- **C27 (reason), partial**: every class that has been stopped has a reason in its loss history: its last loss is at
most 1e-6 or its loss did not decrease in the last `EarlyStop` executed rounds (that is, `EarlyStop + 1` losses).
`hist` is the loss history added by `trainH`, which runs like `train` (`trainH_exists`).
Missing: runs whose round 0 is skipped because of `MinSample`; for those the claim is false (`C27_violated`). -/
theorem C27_reason_partial (exp : F → F) (S : GoSort) (draws : Nat → F) (D : DataBunch F) (O : Options F)
    (labels : List Int) (st : TrainState F) (hist : Nat → List F) (he : O.earlyStop > 0)
    (h : trainH exp S draws D O = .ok (labels, st, hist))
    (h0 : O.minSample ≤ (sampleCount D.data O draws 0 : Int)) (k : Nat) (hk : k < labels.length)
    (hs : st.stopped.getD k false = true) : StopReason O.earlyStop (hist k) := by
  unfold trainH trainWithH at h
  obtain ⟨⟨ohe, labels'⟩, h1, h⟩ := bind_ok h
  simp only at h
  obtain ⟨st0, h2, h⟩ := bind_ok h
  obtain ⟨⟨st1, hist1⟩, h3, h⟩ := bind_ok h
  simp only [pure, Except.pure, Except.ok.injEq, Prod.mk.injEq] at h
  obtain ⟨rfl, rfl, rfl⟩ := h
  have hfix := Options.fixMcw_lr O
  have he' : O.fixMcw.earlyStop > 0 := by rw [hfix.2.2.1]; exact he
  have hne : D.labels ≠ [] := by
    intro hn
    unfold DataBunch.oheLabels at h1
    rw [hn, C39_empty] at h1
    cases h1
  obtain ⟨oh, q1, q2, q3, q4, _⟩ := C39_matrix (F := F) D.labels hne
  unfold DataBunch.oheLabels at h1
  rw [q1] at h1
  simp only [Except.ok.injEq, Prod.mk.injEq] at h1
  obtain ⟨rfl, rfl⟩ := h1
  obtain ⟨_, i2, i3, i4, i5, i6, _⟩ := trainInit_inv h2 q2 q3
  set m := (distinctElements D.labels).length with hm
  have main : ∀ (q : Nat) (a : TrainState F × (Nat → List F)),
      (List.range q).foldlM (trainRoundH (softMaxDense exp) S D.data O.fixMcw oh m) (st0, fun _ => []) = .ok a →
      (∀ j < m, StopInv O.earlyStop m a.1 a.2 j) ∧ (q ≠ 0 → ∀ j < m, a.2 j ≠ []) ∧ (q = 0 → a = (st0, fun _ => [])) := by
    intro q
    induction q with
    | zero =>
      intro a ha
      simp only [List.range_zero, List.foldlM_nil, pure, Except.pure, Except.ok.injEq] at ha
      subst ha
      refine ⟨fun j hj => ⟨by simp [i4], by simp [i5], by simp [i6], ?_, ?_, ?_, ?_⟩, by simp, fun _ => rfl⟩
      · intro hst
        rw [i4, List.getD_eq_getElem?_getD, List.getElem?_replicate] at hst
        split at hst <;> cases hst
      · rw [i5, List.getD_eq_getElem?_getD, List.getElem?_replicate]; split <;> simp
      · intro _ i hi
        rw [i5, List.getD_eq_getElem?_getD, List.getElem?_replicate] at hi
        split at hi <;> simp at hi
      · intro hn; exact absurd rfl hn
    | succ q ih =>
      intro a ha
      rw [List.range_succ, List.foldlM_append] at ha
      obtain ⟨b, hb1, hb2⟩ := bind_ok ha
      rw [List.foldlM_cons] at hb2
      obtain ⟨c, hc1, hc2⟩ := bind_ok hb2
      simp only [List.foldlM_nil, pure, Except.pure, Except.ok.injEq] at hc2
      subst hc2
      obtain ⟨a1, a2, a3⟩ := ih b hb1
      obtain ⟨idx, cols, d', hs', hcase⟩ := trainRoundH_inv hc1
      refine ⟨?_, ?_, by simp⟩ <;> rcases hcase with ⟨hlt, rfl⟩ | ⟨hge, acc, hacc, rfl⟩
      · intro j hj
        have := a1 j hj
        exact ⟨this.sl, this.nl, this.pl, this.reason, this.np0, this.np, this.prev⟩
      rotate_left
      · intro _
        by_cases hq : q = 0
        · exfalso
          subst hq
          rw [a3 rfl] at hs'
          obtain ⟨_, q5⟩ := roundSamples_inv hs'
          rw [hfix.2.2.2.2.1] at hlt
          simp only [i3] at q5
          have hcnt : (idx.getD []).length = sampleCount D.data O draws 0 := by
            rw [q5]
            have hrs : rowSub O.fixMcw = rowSub O := by
              unfold rowSub
              rw [hfix.2.2.2.2.2.1, hfix.2.2.2.2.2.2.1]
            unfold sampleCount
            rw [hrs]
            split
            · simp only [Option.getD_some, roundRows, Nat.zero_mul, Nat.add_zero]
              rw [hfix.2.2.2.2.2.2.1]
            · rfl
          omega
        · exact a2 hq
      all_goals
        have key := stop_classes (m := m) he' m le_rfl _ acc hacc
          (by
            intro j hj
            have := a1 j hj
            rw [hfix.2.2.1]
            exact ⟨this.sl, this.nl, this.pl, this.reason, this.np0, this.np, this.prev⟩)
          (fun hr => a2 hr)
          (by
            intro hr j hj
            rw [a3 hr]
            simp only [i4, i5]
            rw [List.getD_eq_getElem?_getD, List.getD_eq_getElem?_getD, List.getElem?_replicate,
              List.getElem?_replicate, if_pos hj, if_pos hj]
            exact ⟨rfl, rfl⟩)
      · intro _ j hj
        exact key.2.1 j hj (Or.inl hj)
      · intro j hj
        have := key.1 j hj
        rw [hfix.2.2.1] at this
        exact ⟨this.sl, this.nl, this.pl, this.reason, this.np0, this.np, this.prev⟩
  exact ((main _ _ h3).1 k hk).reason hs

/-! ### stopped for good -/

/-- **C27 (for good)**: once class `k` is stopped, any number of further rounds leaves it stopped, does not change its
raw predictions (it receives no tree), and adds nothing to its loss history. -/
theorem C27_for_good (exp : F → F) (S : GoSort) (data : List (List F)) (O : Options F) (ohe : Dense F) (n m : Nat)
    (hd : data.length = n) (rs : List Nat) (st st' : TrainState F) (hist hist' : Nat → List F) (he : O.earlyStop > 0)
    (h : rs.foldlM (trainRoundH (softMaxDense exp) S data O ohe m) (st, hist) = .ok (st', hist'))
    (hi : TInv exp n m st) (k : Nat) (hs : st.stopped.getD k false = true) :
    st'.stopped.getD k false = true ∧ hist' k = hist k ∧
      ∀ i < n, (st'.rawPred.row i)[k]? = (st.rawPred.row i)[k]? := by
  set P : TrainState F × (Nat → List F) → Prop := fun a =>
    TInv exp n m a.1 ∧ a.1.stopped.getD k false = true ∧ a.2 k = hist k ∧
      ∀ i < n, (a.1.rawPred.row i)[k]? = (st.rawPred.row i)[k]? with hP
  have : P (st', hist') := by
    refine foldlM_inv _ P rs ?_ (st, hist) (st', hist') ⟨hi, hs, rfl, fun _ _ => rfl⟩ h
    rintro a r a' _ ⟨p1, p2, p3, p4⟩ hstep
    obtain ⟨idx, cols, d', hs', ⟨hlt, rfl⟩ | ⟨hge, acc, hacc, rfl⟩⟩ := trainRoundH_inv hstep
    · exact ⟨p1.draws _, p2, p3, p4⟩
    · have : P (acc.1.1, acc.2) := by
        refine foldlM_inv _ (fun b : (TrainState F × List (Tree F)) × (Nat → List F) => P (b.1.1, b.2)) _ ?_ _ acc
          ⟨p1.draws _, p2, p3, p4⟩ hacc
        rintro b j b' hj ⟨c1, c2, c3, c4⟩ hb
        have hjm : j < m := by simpa using hj
        rcases trainClassH_inv hb he with ⟨_, rfl⟩ | ⟨hns, tree, _, s, hh⟩
        · exact ⟨c1, c2, c3, c4⟩
        · have hjk : j ≠ k := by
            rintro rfl
            simp only at c2
            rw [hns] at c2
            cases c2
          obtain ⟨i1, _, _, i4⟩ := s.inv c1 hd hjm
          refine ⟨i1, ?_, ?_, ?_⟩
          · simp only
            rw [s.hst, (earlyStopping_other O r j k s.loss _ hjk).1]
            exact c2
          · simp only
            rw [hh, Function.update_of_ne (Ne.symm hjk)]
            exact c3
          · intro i hin
            have hrow : data[i]? = some data[i] := List.getElem?_eq_getElem (by omega)
            obtain ⟨v, d, _, _, hset⟩ := i4 i _ hrow
            simp only
            rw [hset, List.getElem?_set_ne hjk]
            exact c4 i hin
      exact ⟨this.1.boosters _, this.2.1, this.2.2.1, this.2.2.2⟩
  exact ⟨this.2.1, this.2.2.1, this.2.2.2⟩

end Boo
