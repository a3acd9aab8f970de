import Verif.Model.Verbose
import Verif.Lemmas.EarlyRun

/-!
# The training loop with its messages
-/

namespace Boo
open GoFloat
set_option linter.unusedSectionVars false
variable {F : Type} [GoFloat F]

/-! ### Forgetting the messages -/

theorem map_bind_go {α β γ : Type} (x : Go α) (f : α → Go β) (g : β → γ) : (x >>= f).map g = x >>= fun a => (f a).map g := by
  cases x <;> rfl

theorem foldlM_map_go {α α' β : Type} (π : α → α') (f : α → β → Go α) (g : α' → β → Go α')
    (h : ∀ a b, (f a b).map π = g (π a) b) (l : List β) (a : α) : (l.foldlM f a).map π = l.foldlM g (π a) := by
  induction l generalizing a with
  | nil => rfl
  | cons b l ih =>
    rw [List.foldlM_cons, List.foldlM_cons, map_bind_go, ← h]
    cases f a b with
    | error e => rfl
    | ok a' => exact ih a'

theorem trainClassLog_fst (act : Dense F → Option (Dense F) → Go (Dense F)) (S : GoSort) (data : List (List F)) (O : Options F)
    (ohe : Dense F) (idx : Option (List Nat)) (cols : List Nat) (round : Nat)
    (acc : (TrainState F × List (Tree F)) × List (TrainMsg F)) (k : Nat) :
    (trainClassLog act S data O ohe idx cols round acc k).map Prod.fst = trainClass act S data O ohe idx cols round acc.1 k := by
  unfold trainClassLog trainClass
  simp only
  split
  · rfl
  · simp only [map_bind_go]
    refine bind_congr fun y => bind_congr fun p => ?_
    cases O.loss with
    | none => rfl
    | some lv =>
      simp only [map_bind_go]
      refine bind_congr fun tree => bind_congr fun preds => bind_congr fun raw => bind_congr fun probs => ?_
      split
      · simp only [map_bind_go]
        rfl
      · rfl

theorem trainRoundLog_fst (act : Dense F → Option (Dense F) → Go (Dense F)) (S : GoSort) (data : List (List F)) (O : Options F)
    (ohe : Dense F) (m : Nat) (acc : TrainState F × List (TrainMsg F)) (round : Nat) :
    (trainRoundLog act S data O ohe m acc round).map Prod.fst = trainRound act S data O ohe m acc.1 round := by
  unfold trainRoundLog trainRound
  rw [map_bind_go]
  refine bind_congr fun s => ?_
  simp only
  split
  · rfl
  · rw [← foldlM_map_go Prod.fst _ _ (trainClassLog_fst act S data O ohe s.1 s.2.1 round) _ (({ acc.1 with draws := s.2.2 }, []), acc.2),
      map_bind_go]
    cases (List.range m).foldlM (trainClassLog act S data O ohe s.1 s.2.1 round) (({ acc.1 with draws := s.2.2 }, []), acc.2) <;> rfl

theorem newMultiClassLog_fst (exp : F → F) (S : GoSort) (draws : Nat → F) (D : DataBunch F) (O : Options F) :
    (newMultiClassLog exp S draws D O).map Prod.fst = newMultiClass exp S draws D O := by
  unfold newMultiClassLog newMultiClass trainLog train trainWith
  cases hoh : D.oheLabels with
  | error e => rfl
  | ok oh =>
    obtain ⟨ohe, labels⟩ := oh
    simp only [bind, Except.bind]
    cases hin : trainInit (softMaxDense exp) O ohe labels.length draws with
    | error e => rfl
    | ok st0 =>
      simp only
      rw [← foldlM_map_go Prod.fst _ _ (trainRoundLog_fst (softMaxDense exp) S D.data O.fixMcw ohe labels.length) _ (st0, [])]
      cases (List.range O.rounds.toNat).foldlM (trainRoundLog (softMaxDense exp) S D.data O.fixMcw ohe labels.length) (st0, []) <;> rfl

/-! ### What one step adds -/

/-- a class step and its messages -/
theorem trainClassLog_inv {exp : F → F} {S : GoSort} {data : List (List F)} {O : Options F} {ohe : Dense F}
    {idx : Option (List Nat)} {cols : List Nat} {round : Nat} {acc acc' : (TrainState F × List (Tree F)) × List (TrainMsg F)}
    {k : Nat} (h : trainClassLog (softMaxDense exp) S data O ohe idx cols round acc k = .ok acc') :
    (acc.1.1.stopped.getD k false = true ∧ acc' = acc) ∨
    (acc.1.1.stopped.getD k false = false ∧ ∃ tree, acc'.1.2 = acc.1.2 ++ [tree] ∧
      ∃ s : ClassStep exp S data O ohe idx cols round acc.1.1 acc'.1.1 k tree,
        acc'.2 = acc.2 ++ classMsgs O round k s.loss acc.1.1 ∧
        (O.verbose = true → ∃ kp, denseCol s.probs k = .ok kp ∧ s.lv.fn.loss s.y kp = .ok s.loss)) := by
  unfold trainClassLog at h
  simp only at h
  split at h
  · rename_i hs
    left
    simp only [pure, Except.pure, Except.ok.injEq] at h
    exact ⟨hs, h.symm⟩
  · rename_i hs
    right
    refine ⟨by simpa using hs, ?_⟩
    obtain ⟨y, hy, h⟩ := bind_ok h
    obtain ⟨p, hp, h⟩ := bind_ok h
    cases hlv : O.loss with
    | none => rw [hlv] at h; simp at h
    | some lv =>
      rw [hlv] at h
      simp only at h
      obtain ⟨tree, ht, h⟩ := bind_ok h
      obtain ⟨preds, hpr, h⟩ := bind_ok h
      obtain ⟨raw, hraw, h⟩ := bind_ok h
      obtain ⟨probs, hprobs, h⟩ := bind_ok h
      by_cases he : O.earlyStop > 0 ∨ O.verbose = true
      · rw [if_pos he] at h
        obtain ⟨kp, hkp, h⟩ := bind_ok h
        obtain ⟨loss, hloss, h⟩ := bind_ok h
        simp only [pure, Except.pure, Except.ok.injEq] at h
        subst h
        exact ⟨tree, rfl, ⟨y, p, lv, preds, raw, probs, loss, hy, hp, hlv, ht, hpr, hraw, hprobs,
          fun _ => ⟨kp, hkp, hloss⟩, rfl⟩, rfl, fun _ => ⟨kp, hkp, hloss⟩⟩
      · rw [if_neg he] at h
        simp only [pure, Except.pure, bind, Except.bind, Except.ok.injEq] at h
        subst h
        exact ⟨tree, rfl, ⟨y, p, lv, preds, raw, probs, zero, hy, hp, hlv, ht, hpr, hraw, hprobs,
          fun h => absurd (Or.inl h) he, rfl⟩, rfl, fun h => absurd (Or.inr h) he⟩

theorem trainRoundLog_inv {exp : F → F} {S : GoSort} {data : List (List F)} {O : Options F} {ohe : Dense F}
    {m : Nat} {acc acc' : TrainState F × List (TrainMsg F)} {round : Nat}
    (h : trainRoundLog (softMaxDense exp) S data O ohe m acc round = .ok acc') :
    ∃ idx cols draws, roundSamples data O acc.1.draws = .ok (idx, cols, draws) ∧
      ((((idx.getD []).length : Int) < O.minSample ∧ acc' = ({ acc.1 with draws := draws }, acc.2)) ∨
       (¬ ((idx.getD []).length : Int) < O.minSample ∧ ∃ a,
          (List.range m).foldlM (trainClassLog (softMaxDense exp) S data O ohe idx cols round) (({ acc.1 with draws := draws }, []), acc.2) =
            .ok a ∧ acc' = ({ a.1.1 with boosters := a.1.1.boosters ++ [a.1.2] }, a.2))) := by
  unfold trainRoundLog at h
  obtain ⟨⟨idx, cols, draws⟩, h1, h2⟩ := bind_ok h
  refine ⟨idx, cols, draws, h1, ?_⟩
  simp only at h2
  split at h2
  · rename_i hl
    simp only [pure, Except.pure, Except.ok.injEq] at h2
    exact Or.inl ⟨hl, h2.symm⟩
  · rename_i hl
    obtain ⟨a, h3, h4⟩ := bind_ok h2
    simp only [pure, Except.pure, Except.ok.injEq] at h4
    exact Or.inr ⟨hl, a, h3, h4.symm⟩

/-- forgetting the messages of a run that returned -/
theorem map_fst_ok {α β : Type} {x : Go (α × β)} {y : Go α} {a : α × β} (h : x.map Prod.fst = y) (ha : x = .ok a) : y = .ok a.1 := by
  rw [← h, ha]
  rfl

theorem ok_of_map_fst {α β : Type} {x : Go (α × β)} {y : Go α} {a : α} (h : x.map Prod.fst = y) (ha : y = .ok a) :
    ∃ b, x = .ok (a, b) := by
  rw [ha] at h
  cases x with
  | error e => cases h
  | ok p =>
    refine ⟨p.2, ?_⟩
    have : p.1 = a := Except.ok.inj h
    rw [← this]

theorem newMultiClassLog_inv {exp : F → F} {S : GoSort} {draws : Nat → F} {D : DataBunch F} {O : Options F}
    {M : MultiClass F} {msgs : List (TrainMsg F)} (h : newMultiClassLog exp S draws D O = .ok (M, msgs)) :
    ∃ labels st, M = toModel exp O labels st ∧ D.labels ≠ [] ∧ labels = distinctElements D.labels ∧
      ∃ ohe st0, D.oheLabels = .ok (ohe, labels) ∧ ohe.r = D.labels.length ∧ ohe.c = labels.length ∧ ohe.WF ∧
        trainInit (softMaxDense exp) O ohe labels.length draws = .ok st0 ∧
        (List.range O.rounds.toNat).foldlM (trainRoundLog (softMaxDense exp) S D.data O.fixMcw ohe labels.length) (st0, []) =
          .ok (st, msgs) := by
  have hm := map_fst_ok (newMultiClassLog_fst exp S draws D O) h
  obtain ⟨labels', st', ht, _⟩ := newMultiClass_inv hm
  obtain ⟨hl, hlab, ohe, st0, hohe, hr0, hc0, hw, hinit, _⟩ := train_inv ht
  unfold newMultiClassLog at h
  obtain ⟨⟨labels, st, ms⟩, h1, h2⟩ := bind_ok h
  simp only [pure, Except.pure, Except.ok.injEq, Prod.mk.injEq] at h2
  obtain ⟨rfl, rfl⟩ := h2
  unfold trainLog at h1
  rw [hohe] at h1
  obtain ⟨x, hx, h1⟩ := bind_ok h1
  cases hx
  simp only at h1
  rw [hinit] at h1
  obtain ⟨x, hx, h1⟩ := bind_ok h1
  cases hx
  obtain ⟨out, h3, h4⟩ := bind_ok h1
  simp only [pure, Except.pure, Except.ok.injEq, Prod.mk.injEq] at h4
  obtain ⟨rfl, rfl⟩ := h4
  exact ⟨labels', st, rfl, hl, hlab, ohe, st0, hohe, hr0, hc0, hw, hinit, h3⟩

end Boo
