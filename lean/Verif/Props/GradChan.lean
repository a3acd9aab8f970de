import Verif.Model.GradChan
import Verif.Props.GradSearch

/-!
# C109: GradStep with a channel

`GradReturns` (Model/Grad) says which results a call without a channel can have.
-/

namespace Boo
open GoFloat Spec
variable {F : Type} [GoFloat F]

theorem copyField_clone (a b : Options F) (p : Param) : copyField a.clone b p = copyField a b p := by
  cases p <;> rfl

theorem clone_copyField (a b : Options F) (p : Param) : (copyField a b p).clone = copyField a b.clone p := by
  cases p <;> rfl

theorem clone_fixMcw (O : Options F) : O.fixMcw.clone = O.clone.fixMcw := by
  unfold Options.fixMcw
  show _ = if (O.minChildWeight <. one) = true then _ else _
  split <;> rfl

/-- two objects with the same fields among those that `GradStep` reads -/
def SameRead (a b : Options F) : Prop := ∀ (c : Options F) (q : Param), copyField a c q = copyField b c q

/-- the caller is at the same point, with values that agree on what is read -/
inductive SameMain : GradMain F → GradMain F → Prop
  | recv (todo : List Param) : SameMain (.recv todo) (.recv todo)
  | got (p : Param) (todo : List Param) : SameMain (.got p todo) (.got p todo)
  | assign (p : Param) (v v' : Options F) (todo : List Param) (h : SameRead v v') : SameMain (.assign p v todo) (.assign p v' todo)

/-- the states of a run on `O` and of one on its clone -/
structure CloneRun (s s' : GradState F) : Prop where
  shared : s'.shared = s.shared.clone
  worker : s'.worker = s.worker
  obj : ∀ p, SameRead (s.obj p) (s'.obj p)
  main : SameMain s.main s'.main

theorem cloneRun_start (O : Options F) : CloneRun (gradStart O) (gradStart O.clone) where
  shared := rfl
  worker := rfl
  obj _ c q := (copyField_clone O c q).symm
  main := .recv _

theorem SameRead.setObj {s s' : GradState F} (h : ∀ p, SameRead (s.obj p) (s'.obj p)) (p : Param) (o : Options F) (q : Param) :
    SameRead (s.setObj p o q) (s'.setObj p o q) := by
  unfold GradState.setObj
  split
  · intro c r; rfl
  · exact h q

theorem CloneRun.forth {fuel : Nat} {E : GradEnv F} {acc : F} {s t s' : GradState F} (h : CloneRun s s')
    (st : GradStep fuel E acc s t) : ∃ t', GradStep fuel E acc s' t' ∧ CloneRun t t' := by
  have hw : ∀ p w, s'.setWorker p w = s.setWorker p w := fun p w => by
    unfold GradState.setWorker; rw [h.worker]
  cases st with
  | read p q todo o hp =>
    refine ⟨_, .read s' p q todo o (by rw [h.worker]; exact hp), h.shared, ?_, h.obj, h.main⟩
    simp only [hw, h.shared, copyField_clone]
  | start p o acts hp ha =>
    exact ⟨_, .start s' p o acts (by rw [h.worker]; exact hp) ha, h.shared, hw _ _, h.obj, h.main⟩
  | mutate p o acts hp =>
    exact ⟨_, .mutate s' p o acts (by rw [h.worker]; exact hp), h.shared, hw _ _, SameRead.setObj h.obj p o, h.main⟩
  | recv p todo o acts hm hp =>
    have hm' : s'.main = .recv (p :: todo) := by
      have := h.main; rw [hm] at this
      generalize s'.main = x at this
      cases this; rfl
    exact ⟨_, .recv s' p todo o acts hm' (by rw [h.worker]; exact hp), h.shared, hw _ _, SameRead.setObj h.obj p o, .got _ _⟩
  | look p todo hm =>
    have hm' : s'.main = .got p todo := by
      have := h.main; rw [hm] at this
      generalize s'.main = x at this
      cases this; rfl
    exact ⟨_, .look s' p todo hm', h.shared, h.worker, h.obj, .assign _ _ _ _ (h.obj p)⟩
  | assign p v todo hm =>
    have := h.main
    rw [hm] at this
    generalize hx : s'.main = x at this
    cases this with
    | assign _ _ v' _ hv =>
      refine ⟨_, .assign s' p v' todo hx, ?_, h.worker, h.obj, .recv _⟩
      show copyField v' s'.shared p = (copyField v s.shared p).clone
      rw [clone_copyField, h.shared, hv]

theorem CloneRun.back {fuel : Nat} {E : GradEnv F} {acc : F} {s s' t' : GradState F} (h : CloneRun s s')
    (st : GradStep fuel E acc s' t') : ∃ t, GradStep fuel E acc s t ∧ CloneRun t t' := by
  have hw : ∀ p w, s'.setWorker p w = s.setWorker p w := fun p w => by
    unfold GradState.setWorker; rw [h.worker]
  cases st with
  | read p q todo o hp =>
    refine ⟨_, .read s p q todo o (by rw [← h.worker]; exact hp), h.shared, ?_, h.obj, h.main⟩
    simp only [hw, h.shared, copyField_clone]
  | start p o acts hp ha =>
    exact ⟨_, .start s p o acts (by rw [← h.worker]; exact hp) ha, h.shared, hw _ _, h.obj, h.main⟩
  | mutate p o acts hp =>
    exact ⟨_, .mutate s p o acts (by rw [← h.worker]; exact hp), h.shared, hw _ _, SameRead.setObj h.obj p o, h.main⟩
  | recv p todo o acts hm hp =>
    have hm' : s.main = .recv (p :: todo) := by
      have := h.main; rw [hm] at this
      generalize hx : s.main = x at this
      cases this; rfl
    exact ⟨_, .recv s p todo o acts hm' (by rw [← h.worker]; exact hp), h.shared, hw _ _, SameRead.setObj h.obj p o, .got _ _⟩
  | look p todo hm =>
    have hm' : s.main = .got p todo := by
      have := h.main; rw [hm] at this
      generalize hx : s.main = x at this
      cases this; rfl
    exact ⟨_, .look s p todo hm', h.shared, h.worker, h.obj, .assign _ _ _ _ (h.obj p)⟩
  | assign p v' todo hm =>
    have := h.main
    rw [hm] at this
    generalize hx : s.main = x at this
    cases this with
    | assign _ v _ _ hv =>
      refine ⟨_, .assign s p v todo hx, ?_, h.worker, h.obj, .recv _⟩
      show copyField v' s'.shared p = (copyField v s.shared p).clone
      rw [clone_copyField, h.shared, hv]

/-- the results for the clone are the clones of the results -/
theorem reach_clone {fuel : Nat} {E : GradEnv F} {acc : F} {O O' : Options F} :
    (∃ s, Relation.ReflTransGen (GradStep fuel E acc) (gradStart O.clone) s ∧ s.main = .recv [] ∧ s.shared = O') ↔
    ∃ O'', (∃ s, Relation.ReflTransGen (GradStep fuel E acc) (gradStart O) s ∧ s.main = .recv [] ∧ s.shared = O'') ∧
      O' = O''.clone := by
  constructor
  · rintro ⟨s', hr, hm, hs⟩
    have key : ∃ s, Relation.ReflTransGen (GradStep fuel E acc) (gradStart O) s ∧ CloneRun s s' := by
      clear hm hs
      induction hr with
      | refl => exact ⟨_, .refl, cloneRun_start O⟩
      | tail _ st ih =>
        obtain ⟨s, h1, h2⟩ := ih
        obtain ⟨t, h3, h4⟩ := h2.back st
        exact ⟨t, h1.tail h3, h4⟩
    obtain ⟨s, h1, h2⟩ := key
    refine ⟨s.shared, ⟨s, h1, ?_, rfl⟩, by rw [← hs, h2.shared]⟩
    have := h2.main
    rw [hm] at this
    generalize hx : s.main = x at this
    cases this; rfl
  · rintro ⟨O'', ⟨s, hr, hm, hs⟩, rfl⟩
    have key : ∃ s', Relation.ReflTransGen (GradStep fuel E acc) (gradStart O.clone) s' ∧ CloneRun s s' := by
      clear hm hs
      induction hr with
      | refl => exact ⟨_, .refl, cloneRun_start O⟩
      | tail _ st ih =>
        obtain ⟨s, h1, h2⟩ := ih
        obtain ⟨t, h3, h4⟩ := h2.forth st
        exact ⟨t, h1.tail h3, h4⟩
    obtain ⟨s', h1, h2⟩ := key
    refine ⟨s', h1, ?_, by rw [h2.shared, hs]⟩
    have := h2.main
    rw [hm] at this
    generalize hx : s'.main = x at this
    cases this; rfl

theorem gradReturns_clone {fuel : Nat} {E : GradEnv F} {curr : Options F → CVRes F} {O O' : Options F}
    (hc : E.central = true ∨ curr O.clone = curr O) :
    GradReturns fuel E curr O.clone O' ↔ ∃ O'', GradReturns fuel E curr O O'' ∧ O' = O''.clone := by
  unfold GradReturns
  by_cases hcen : E.central = true
  · simp only [hcen, if_true]
    exact reach_clone
  · have hc : curr O.clone = curr O := hc.resolve_left hcen
    simp only [hcen, hc]
    by_cases he : (curr O).err = true
    · simp [he]
    · simp only [he]
      rw [← clone_fixMcw]
      exact reach_clone

theorem optAt_append (h : List (Options F)) (o : Options F) : optAt (h ++ [o]) h.length = o := by simp [optAt]

theorem optAt_keep (h : List (Options F)) (o : Options F) {p : Nat} (hp : p < h.length) : optAt (h ++ [o]) p = optAt h p := by
  simp [optAt, List.getElem?_append_left hp]

/-- **C109 (the options given are left alone)**: a call with a channel changes none of the objects that existed before. -/
theorem C109_kept (fuel : Nat) (E : GradEnv F) (curr : Options F → CVRes F) (h : List (Options F)) (ori : Nat) (r : GradCall F)
    (hr : GradStepCall fuel E curr true h ori r) : h <+: r.heap := by
  unfold GradStepCall at hr
  simp only [if_true] at hr
  split at hr
  · rw [hr]; exact List.prefix_append _ _
  · obtain ⟨O', _, rfl⟩ := hr
    rw [List.set_append_right _ _ (le_refl _)]
    exact List.prefix_append _ _

/-- **C109 (the answer)**: if it makes no cross-validation of its own (central differences) or that does not fail, a call with
a channel sends and returns the same pointer, and what it points to is a possible result of the call without a channel
(`GradReturns`), but for the fields that `Clone` loses; and each such result is possible. The condition `curr O.clone =
curr O` says that losing EarlyStop did not change the accuracy that the cross-validation reports.
Missing: `C109_silent`, `C109_early_stop`. -/
theorem C109_answer_partial (fuel : Nat) (E : GradEnv F) (curr : Options F → CVRes F) (h : List (Options F)) (ori : Nat)
    (hc : E.central = true ∨ (curr (optAt h ori).clone = curr (optAt h ori) ∧ (curr (optAt h ori)).err = false)) (O' : Options F) :
    (∃ r p, GradStepCall fuel E curr true h ori r ∧ r.sent = some p ∧ r.ret = p ∧ optAt r.heap p = O') ↔
      ∃ O'', GradReturns fuel E curr (optAt h ori) O'' ∧ O' = O''.clone := by
  have hn : ¬(E.central = false ∧ (curr (optAt (h ++ [(optAt h ori).clone]) h.length)).err = true) := by
    rintro ⟨h1, h2⟩
    rcases hc with h3 | ⟨h3, h4⟩
    · rw [h1] at h3; cases h3
    · rw [optAt_append, h3, h4] at h2; cases h2
  have hg := gradReturns_clone (fuel := fuel) (O' := O') (hc.imp id And.left)
  constructor
  · rintro ⟨r, p, hr, hs, ht, hO⟩
    unfold GradStepCall at hr
    simp only [if_true] at hr
    rw [if_neg hn] at hr
    obtain ⟨O1, h1, rfl⟩ := hr
    simp only [Option.some.injEq] at hs
    subst hs
    rw [optAt_append] at h1
    have : O1 = O' := by
      rw [← hO]; simp [optAt]
    rw [this] at h1
    exact hg.1 h1
  · intro hex
    refine ⟨⟨(h ++ [(optAt h ori).clone]).set h.length O', h.length, some h.length⟩, h.length, ?_, rfl, rfl, by simp [optAt]⟩
    unfold GradStepCall
    simp only [if_true]
    rw [if_neg hn]
    refine ⟨O', ?_, rfl⟩
    rw [optAt_append]
    exact hg.2 hex

/-- **C109 violated (no answer)**: without central differences, when the cross-validation of the current options fails (as
it does for data too small for two folds), `GradStep` returns but sends nothing, so whoever waits for the channel waits
forever. -/
theorem C109_silent (fuel : Nat) (E : GradEnv F) (curr : Options F → CVRes F) (h : List (Options F)) (ori : Nat)
    (hc : E.central = false) (he : ∀ O, (curr O).err = true) :
    (∃ r, GradStepCall fuel E curr true h ori r) ∧ ∀ r, GradStepCall fuel E curr true h ori r → r.sent = none ∧ r.ret = ori := by
  unfold GradStepCall
  simp only [if_true, hc, he, and_self]
  exact ⟨⟨_, rfl⟩, fun r hr => by rw [hr]; exact ⟨rfl, rfl⟩⟩

/-- **C109 violated (EarlyStop)**: what is sent never has the EarlyStop of the given options: it is always 0, which turns early
stopping off. -/
theorem C109_early_stop (fuel : Nat) (E : GradEnv F) (curr : Options F → CVRes F) (h : List (Options F)) (ori : Nat)
    (r : GradCall F) (hr : GradStepCall fuel E curr true h ori r) (p : Nat) (hp : r.sent = some p) :
    (optAt r.heap p).earlyStop = 0 := by
  unfold GradStepCall at hr
  simp only [if_true] at hr
  split at hr
  · rw [hr] at hp; cases hp
  · obtain ⟨O', h1, rfl⟩ := hr
    simp only [Option.some.injEq] at hp
    subst hp
    have : optAt ((h ++ [(optAt h ori).clone]).set h.length O') h.length = O' := by simp [optAt]
    rw [this]
    rw [optAt_append] at h1
    unfold GradReturns at h1
    have key : ∀ (acc : F) (O : Options F), O.earlyStop = 0 →
        (∃ s, Relation.ReflTransGen (GradStep fuel E acc) (gradStart O) s ∧ s.main = .recv [] ∧ s.shared = O') → O'.earlyStop = 0 := by
      rintro acc O hO ⟨s, hr, hm, rfl⟩
      clear h1 this hm
      induction hr with
      | refl => exact hO
      | tail _ st ih =>
        cases st with
        | assign p v todo hm =>
          show (copyField v _ p).earlyStop = 0
          cases p <;> exact ih
        | _ => exact ih
    split at h1
    · exact key _ _ rfl h1
    · split at h1
      · rw [h1]; rfl
      · refine key _ _ ?_ h1
        unfold Options.fixMcw
        split <;> rfl

/-- a call with a channel, central differences and three objects, of which it is given the second: the last one is sent -/
example : ∃ r p, GradStepCall 20 (witEnv true) (fun _ => ⟨false, .fin 50⟩) true [defaultXOptions 0, witOpts, defaultXOptions 0] 1 r ∧
    r.sent = some p ∧ r.ret = p ∧ (optAt r.heap p).rounds = 30 := by
  obtain ⟨s, h1, h2, h3⟩ := grad_exec 20 (witEnv true) zero witOpts (fun _ => false) (by
    intro p; cases p <;> decide +kernel)
  have hr : s.shared.clone.rounds = 30 := by rw [h3]; decide +kernel
  obtain ⟨r, p, h4, h5, h6, h7⟩ := (C109_answer_partial 20 (witEnv true) (fun _ => ⟨false, .fin 50⟩)
    [defaultXOptions 0, witOpts, defaultXOptions 0] 1 (.inl rfl) s.shared.clone).2 ⟨s.shared, by
      unfold GradReturns
      simp only [witEnv, if_true]
      exact ⟨s, h1, h2, rfl⟩, rfl⟩
  exact ⟨r, p, h4, h5, h6, by rw [h7]; exact hr⟩

/-- and one that stays silent; the options it is given stop early -/
example : (∃ r, GradStepCall 20 (witEnv false) (fun _ => ⟨true, .fin 0⟩) true [defaultXOptions 0] 0 r ∧ r.sent = none) ∧
    (optAt [(defaultXOptions 0 : Options (Exact ℚ))] 0).earlyStop = 10 := by
  obtain ⟨⟨r, hr⟩, h⟩ := C109_silent 20 (witEnv false) (fun _ => ⟨true, .fin 0⟩) [defaultXOptions 0] 0 rfl (fun _ => rfl)
  exact ⟨⟨r, hr, (h r hr).1⟩, rfl⟩

end Boo
