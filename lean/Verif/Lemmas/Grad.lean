import Verif.Model.Grad
import Verif.Lemmas.XF
import Mathlib.Tactic.Linarith

/-!
# Lemmas about the gradient steps
-/

namespace Boo
open GoFloat Relation
set_option linter.unusedSectionVars false
variable {F : Type} [GoFloat F]

/-! ### what the caller can see of a goroutine -/

/-- changes made before the next send -/
def mutsUntilSend : List (PAct F) → List (Options F)
  | .mutate o :: l => o :: mutsUntilSend l
  | _ => []

/-- the contents of the received options, at the time of the first send and after the changes made before the second -/
def visible : List (PAct F) → List (Options F)
  | [] => []
  | .mutate _ :: l => visible l
  | .send o :: l => o :: mutsUntilSend l

/-- the options `c` have the fields of a clone of `O` but for the six parameters -/
def SameRest (O c : Options F) : Prop :=
  { c with gamma := O.gamma, lambda := O.lambda, subSample := O.subSample, colSubSample := O.colSubSample,
           learningRate := O.learningRate, rounds := O.rounds } = O.clone

/-- the options `c` have the fields of `O` but for the six parameters -/
def SameOthers (O c : Options F) : Prop :=
  { c with gamma := O.gamma, lambda := O.lambda, subSample := O.subSample, colSubSample := O.colSubSample,
           learningRate := O.learningRate, rounds := O.rounds } = O

theorem SameRest.copy {O c : Options F} (h : SameRest O c) (v : Options F) (p : Param) : SameRest O (copyField v c p) := by
  unfold SameRest at *
  rw [← h]
  cases p <;> rfl

theorem SameOthers.copy {O c : Options F} (h : SameOthers O c) (v : Options F) (p : Param) :
    SameOthers O (copyField v c p) := by
  unfold SameOthers at *
  conv_rhs => rw [← h]
  cases p <;> rfl

/-- A property of each of the six fields. -/
structure FieldProp (Q : Param → Options F → Prop) : Prop where
  same : ∀ p a b, Q p a → Q p (copyField a b p)
  other : ∀ p q a b, p ≠ q → Q p b → Q p (copyField a b q)

theorem FieldProp.copy {Q : Param → Options F → Prop} (hQ : FieldProp Q) {a b : Options F} {p : Param} (ha : Q p a)
    (hb : ∀ q, Q q b) : ∀ q, Q q (copyField a b p) := by
  intro q
  by_cases h : q = p
  · subst h; exact hQ.same _ _ _ ha
  · exact hQ.other _ _ _ _ h (hb q)

/-- the fields of a clone that have been read satisfy the property -/
def ReadOk (Q : Param → Options F → Prop) (todo : List Param) (o : Options F) : Prop := ∀ q, q ∉ todo → Q q o

/-- The invariant of the executions of `GradStep`. -/
structure GradInv (fuel : Nat) (E : GradEnv F) (acc : F) (Q : Param → Options F → Prop) (O : Options F)
    (s : GradState F) : Prop where
  shared : ∀ q, Q q s.shared
  rest : SameOthers O s.shared
  cloning : ∀ p todo o, s.worker p = .cloning todo o → ReadOk Q todo o ∧ SameRest O o
  recv : ∀ todo, s.main = .recv todo → todo.Nodup ∧ ∀ p ∈ todo, ∀ acts, s.worker p = .running acts → ∀ o ∈ visible acts, Q p o
  got : ∀ p todo, s.main = .got p todo → (p :: todo).Nodup ∧ Q p (s.obj p) ∧
    (∃ acts, s.worker p = .running acts ∧ ∀ o ∈ mutsUntilSend acts, Q p o) ∧
    ∀ q ∈ todo, ∀ acts, s.worker q = .running acts → ∀ o ∈ visible acts, Q q o
  assign : ∀ p v todo, s.main = .assign p v todo → (p :: todo).Nodup ∧ Q p v ∧
    ∀ q ∈ todo, ∀ acts, s.worker q = .running acts → ∀ o ∈ visible acts, Q q o

theorem setWorker_same (s : GradState F) (p : Param) (w : GradWorker F) : s.setWorker p w p = w := by
  unfold GradState.setWorker; rw [if_pos rfl]

theorem setWorker_other (s : GradState F) {p q : Param} (w : GradWorker F) (h : q ≠ p) : s.setWorker p w q = s.worker q := by
  unfold GradState.setWorker; rw [if_neg h]

theorem setObj_same (s : GradState F) (p : Param) (w : Options F) : s.setObj p w p = w := by
  unfold GradState.setObj; rw [if_pos rfl]

theorem setObj_other (s : GradState F) {p q : Param} (w : Options F) (h : q ≠ p) : s.setObj p w q = s.obj q := by
  unfold GradState.setObj; rw [if_neg h]

theorem gradStep_inv {fuel : Nat} {E : GradEnv F} {acc : F} {Q : Param → Options F → Prop} (hQ : FieldProp Q)
    {O : Options F} {s s' : GradState F}
    (hacts : ∀ p c acts, s.worker p = .cloning [] c → SameRest O c → (∀ q, Q q c) → paramActs fuel E acc p c = some acts →
      ∀ o ∈ visible acts, Q p o)
    (h : GradStep fuel E acc s s') (hi : GradInv fuel E acc Q O s) : GradInv fuel E acc Q O s' := by
  cases h with
  | read p q todo o hw =>
    obtain ⟨h1, h2⟩ := hi.cloning p _ _ hw
    have key : ∀ r acts, s.setWorker p (.cloning todo (copyField s.shared o q)) r = .running acts → s.worker r = .running acts := by
      intro r acts h
      by_cases hr : r = p
      · subst hr; rw [setWorker_same] at h; cases h
      · rwa [setWorker_other _ _ hr] at h
    constructor
    · exact hi.shared
    · exact hi.rest
    · intro r todo' o' hr
      simp only at hr
      by_cases hrp : r = p
      · subst hrp
        rw [setWorker_same] at hr
        simp only [GradWorker.cloning.injEq] at hr
        obtain ⟨rfl, rfl⟩ := hr
        refine ⟨?_, h2.copy _ _⟩
        intro x hx
        by_cases hxq : x = q
        · subst hxq; exact hQ.same _ _ _ (hi.shared x)
        · exact hQ.other _ _ _ _ hxq (h1 x (by simp [hxq, hx]))
      · rw [setWorker_other _ _ hrp] at hr
        exact hi.cloning r _ _ hr
    · intro todo' hm
      obtain ⟨h3, h4⟩ := hi.recv todo' hm
      exact ⟨h3, fun r hr acts hw' => h4 r hr acts (key r acts hw')⟩
    · intro r todo' hm
      obtain ⟨h3, h4, ⟨acts, h5, h6⟩, h7⟩ := hi.got r todo' hm
      refine ⟨h3, h4, ⟨acts, ?_, h6⟩, fun x hx acts hw' => h7 x hx acts (key x acts hw')⟩
      simp only
      rw [setWorker_other _ _ (by rintro rfl; rw [h5] at hw; cases hw), h5]
    · intro r v todo' hm
      obtain ⟨h3, h4, h5⟩ := hi.assign r v todo' hm
      exact ⟨h3, h4, fun x hx acts hw' => h5 x hx acts (key x acts hw')⟩
  | start p o acts hw ha =>
    obtain ⟨h1, h2⟩ := hi.cloning p _ _ hw
    have hv := hacts p o acts hw h2 (fun q => h1 q (by simp)) ha
    have key : ∀ r acts', s.setWorker p (.running acts) r = .running acts' →
        (r = p ∧ acts' = acts) ∨ s.worker r = .running acts' := by
      intro r acts' h
      by_cases hr : r = p
      · subst hr
        rw [setWorker_same] at h
        simp only [GradWorker.running.injEq] at h
        exact Or.inl ⟨rfl, h.symm⟩
      · rw [setWorker_other _ _ hr] at h
        exact Or.inr h
    constructor
    · exact hi.shared
    · exact hi.rest
    · intro r todo' o' hr
      simp only at hr
      by_cases hrp : r = p
      · subst hrp; rw [setWorker_same] at hr; cases hr
      · rw [setWorker_other _ _ hrp] at hr
        exact hi.cloning r _ _ hr
    · intro todo' hm
      obtain ⟨h3, h4⟩ := hi.recv todo' hm
      refine ⟨h3, fun r hr acts' hw' => ?_⟩
      rcases key r acts' hw' with ⟨rfl, rfl⟩ | h
      · exact hv
      · exact h4 r hr acts' h
    · intro r todo' hm
      obtain ⟨h3, h4, ⟨acts', h5, h6⟩, h7⟩ := hi.got r todo' hm
      refine ⟨h3, h4, ⟨acts', ?_, h6⟩, fun x hx acts' hw' => ?_⟩
      · simp only
        rw [setWorker_other _ _ (by rintro rfl; rw [h5] at hw; cases hw), h5]
      · rcases key x acts' hw' with ⟨rfl, rfl⟩ | h
        · exact hv
        · exact h7 x hx acts' h
    · intro r v todo' hm
      obtain ⟨h3, h4, h5⟩ := hi.assign r v todo' hm
      refine ⟨h3, h4, fun x hx acts' hw' => ?_⟩
      rcases key x acts' hw' with ⟨rfl, rfl⟩ | h
      · exact hv
      · exact h5 x hx acts' h
  | mutate p o acts hw =>
    have key : ∀ r acts', s.setWorker p (.running acts) r = .running acts' →
        (r = p ∧ acts' = acts) ∨ s.worker r = .running acts' := by
      intro r acts' h
      by_cases hr : r = p
      · subst hr
        rw [setWorker_same] at h
        simp only [GradWorker.running.injEq] at h
        exact Or.inl ⟨rfl, h.symm⟩
      · rw [setWorker_other _ _ hr] at h
        exact Or.inr h
    have vis : ∀ r, (∀ acts', s.worker r = .running acts' → ∀ o ∈ visible acts', Q r o) →
        ∀ acts', s.setWorker p (.running acts) r = .running acts' → ∀ o ∈ visible acts', Q r o := by
      intro r h acts' hw'
      rcases key r acts' hw' with ⟨rfl, rfl⟩ | h'
      · have := h _ hw
        simpa only [visible] using this
      · exact h _ h'
    constructor
    · exact hi.shared
    · exact hi.rest
    · intro r todo' o' hr
      simp only at hr
      by_cases hrp : r = p
      · subst hrp; rw [setWorker_same] at hr; cases hr
      · rw [setWorker_other _ _ hrp] at hr
        exact hi.cloning r _ _ hr
    · intro todo' hm
      obtain ⟨h3, h4⟩ := hi.recv todo' hm
      exact ⟨h3, fun r hr => vis r (h4 r hr)⟩
    · intro r todo' hm
      obtain ⟨h3, h4, ⟨acts', h5, h6⟩, h7⟩ := hi.got r todo' hm
      by_cases hrp : r = p
      · subst hrp
        rw [hw] at h5
        simp only [GradWorker.running.injEq] at h5
        subst h5
        simp only [mutsUntilSend, List.mem_cons, forall_eq_or_imp] at h6
        refine ⟨h3, ?_, ⟨acts, setWorker_same _ _ _, h6.2⟩, fun x hx => vis x (h7 x hx)⟩
        simp only
        rw [setObj_same]
        exact h6.1
      · refine ⟨h3, ?_, ⟨acts', ?_, h6⟩, fun x hx => vis x (h7 x hx)⟩
        · simp only
          rw [setObj_other _ _ hrp]
          exact h4
        · simp only
          rw [setWorker_other _ _ hrp, h5]
    · intro r v todo' hm
      obtain ⟨h3, h4, h5⟩ := hi.assign r v todo' hm
      exact ⟨h3, h4, fun x hx => vis x (h5 x hx)⟩
  | recv p todo o acts hm hw =>
    obtain ⟨h3, h4⟩ := hi.recv _ hm
    have hv := h4 p List.mem_cons_self _ hw
    simp only [visible, List.mem_cons, forall_eq_or_imp] at hv
    constructor
    · exact hi.shared
    · exact hi.rest
    · intro r todo' o' hr
      simp only at hr
      by_cases hrp : r = p
      · subst hrp; rw [setWorker_same] at hr; cases hr
      · rw [setWorker_other _ _ hrp] at hr
        exact hi.cloning r _ _ hr
    · intro todo' hm'; cases hm'
    · intro r todo' hm'
      simp only [GradMain.got.injEq] at hm'
      obtain ⟨rfl, rfl⟩ := hm'
      refine ⟨h3, ?_, ⟨acts, setWorker_same _ _ _, hv.2⟩, ?_⟩
      · simp only
        rw [setObj_same]
        exact hv.1
      · intro x hx acts' hw'
        have hxp : x ≠ p := by rintro rfl; exact (List.nodup_cons.1 h3).1 hx
        simp only at hw'
        rw [setWorker_other _ _ hxp] at hw'
        exact h4 x (List.mem_cons_of_mem _ hx) _ hw'
    · intro r v todo' hm'; cases hm'
  | look p todo hm =>
    obtain ⟨h3, h4, _, h7⟩ := hi.got _ _ hm
    constructor
    · exact hi.shared
    · exact hi.rest
    · exact hi.cloning
    · intro todo' hm'; cases hm'
    · intro r todo' hm'; cases hm'
    · intro r v todo' hm'
      simp only [GradMain.assign.injEq] at hm'
      obtain ⟨rfl, rfl, rfl⟩ := hm'
      exact ⟨h3, h4, h7⟩
  | assign p v todo hm =>
    obtain ⟨h3, h4, h7⟩ := hi.assign _ _ _ hm
    constructor
    · exact hQ.copy h4 hi.shared
    · exact hi.rest.copy _ _
    · exact hi.cloning
    · intro todo' hm'
      simp only [GradMain.recv.injEq] at hm'
      subst hm'
      exact ⟨(List.nodup_cons.1 h3).2, h7⟩
    · intro r todo' hm'; cases hm'
    · intro r v todo' hm'; cases hm'

theorem gradStart_inv {fuel : Nat} {E : GradEnv F} {acc : F} {Q : Param → Options F → Prop} {O : Options F}
    (hO : ∀ q, Q q O) : GradInv fuel E acc Q O (gradStart O) := by
  constructor
  · exact hO
  · rfl
  · intro p todo o h
    simp only [gradStart, GradWorker.cloning.injEq] at h
    obtain ⟨rfl, rfl⟩ := h
    exact ⟨fun q hq => absurd (by cases q <;> simp [cloneOrder]) hq, rfl⟩
  · intro todo h
    simp only [gradStart, GradMain.recv.injEq] at h
    subst h
    refine ⟨by decide, ?_⟩
    intro p _ acts h
    cases h
  · intro p todo h; cases h
  · intro p v todo h; cases h

/-- If the property holds of the parameters at the start and of everything the caller can see of the goroutines, it holds
of the result. -/
theorem gradStep_fields {fuel : Nat} {E : GradEnv F} {acc : F} {Q : Param → Options F → Prop} (hQ : FieldProp Q)
    {O : Options F} (hO : ∀ q, Q q O)
    (hacts : ∀ p c acts, SameRest O c → (∀ q, Q q c) → paramActs fuel E acc p c = some acts → ∀ o ∈ visible acts, Q p o)
    {s : GradState F} (hr : ReflTransGen (GradStep fuel E acc) (gradStart O) s) :
    (∀ q, Q q s.shared) ∧ SameOthers O s.shared := by
  have : GradInv fuel E acc Q O s := by
    induction hr with
    | refl => exact gradStart_inv hO
    | tail _ hstep ih => exact gradStep_inv hQ (fun p c acts _ => hacts p c acts) hstep ih
  exact ⟨this.shared, this.rest⟩

/-- each goroutine reads its own parameter before the caller assigns it -/
def OwnRead (P : Param → Options F → Prop) (s : GradState F) : Prop :=
  ∀ p todo o, s.worker p = .cloning todo o → p ∈ (match s.main with | .recv l => l | .got _ l => l | .assign _ _ l => l) ∧
    P p s.shared ∧ (p ∉ todo → P p o)

theorem gradStep_own {fuel : Nat} {E : GradEnv F} {acc : F} {P Q : Param → Options F → Prop} (hP : FieldProp P) {O : Options F}
    {s s' : GradState F} (h : GradStep fuel E acc s s') (hi : GradInv fuel E acc Q O s) (ho : OwnRead P s) : OwnRead P s' := by
  cases h with
  | read p q todo o hw =>
    intro r todo' o' hr
    simp only at hr ⊢
    by_cases hrp : r = p
    · subst hrp
      rw [setWorker_same] at hr
      simp only [GradWorker.cloning.injEq] at hr
      obtain ⟨rfl, rfl⟩ := hr
      obtain ⟨h1, h2, h3⟩ := ho r _ _ hw
      refine ⟨h1, h2, fun hn => ?_⟩
      by_cases hq : r = q
      · subst hq; exact hP.same _ _ _ h2
      · exact hP.other _ _ _ _ hq (h3 (by simp [hq, hn]))
    · rw [setWorker_other _ _ hrp] at hr
      exact ho r _ _ hr
  | start p o acts hw ha =>
    intro r todo' o' hr
    simp only at hr ⊢
    by_cases hrp : r = p
    · subst hrp; rw [setWorker_same] at hr; cases hr
    · rw [setWorker_other _ _ hrp] at hr
      exact ho r _ _ hr
  | mutate p o acts hw =>
    intro r todo' o' hr
    simp only at hr ⊢
    by_cases hrp : r = p
    · subst hrp; rw [setWorker_same] at hr; cases hr
    · rw [setWorker_other _ _ hrp] at hr
      exact ho r _ _ hr
  | recv p todo o acts hm hw =>
    intro r todo' o' hr
    simp only at hr ⊢
    by_cases hrp : r = p
    · subst hrp; rw [setWorker_same] at hr; cases hr
    · rw [setWorker_other _ _ hrp] at hr
      obtain ⟨h1, h2, h3⟩ := ho r _ _ hr
      rw [hm] at h1
      simp only [List.mem_cons] at h1
      exact ⟨h1.resolve_left hrp, h2, h3⟩
  | look p todo hm =>
    intro r todo' o' hr
    obtain ⟨h1, h2, h3⟩ := ho r _ _ hr
    rw [hm] at h1
    exact ⟨h1, h2, h3⟩
  | assign p v todo hm =>
    intro r todo' o' hr
    obtain ⟨h1, h2, h3⟩ := ho r _ _ hr
    rw [hm] at h1
    simp only at h1 ⊢
    have hn := (hi.assign p v todo hm).1
    have hrp : r ≠ p := by
      rintro rfl
      exact (List.nodup_cons.1 hn).1 h1
    exact ⟨h1, hP.other _ _ _ _ hrp h2, h3⟩

/-- If `P` holds of the parameters at the start, and everything the caller can see of a goroutine that starts with `P` of its parameter satisfies
`Q`, then the result satisfies `Q`; and every clone satisfies `Q`, and `P` of the goroutine's parameter. -/
theorem gradStep_fields₂ {fuel : Nat} {E : GradEnv F} {acc : F} {P Q : Param → Options F → Prop} (hP : FieldProp P) (hQ : FieldProp Q)
    (hPQ : ∀ q o, P q o → Q q o) {O : Options F} (hO : ∀ q, P q O)
    (hacts : ∀ p c acts, SameRest O c → P p c → (∀ q, Q q c) → paramActs fuel E acc p c = some acts → ∀ o ∈ visible acts, Q p o)
    {s : GradState F} (hr : ReflTransGen (GradStep fuel E acc) (gradStart O) s) :
    (∀ q, Q q s.shared) ∧ SameOthers O s.shared ∧
      ∀ p c, s.worker p = .cloning [] c → SameRest O c ∧ P p c ∧ ∀ q, Q q c := by
  have : GradInv fuel E acc Q O s ∧ OwnRead P s := by
    induction hr with
    | refl =>
      refine ⟨gradStart_inv fun q => hPQ _ _ (hO q), ?_⟩
      intro p todo o hw
      have hw' : GradWorker.cloning cloneOrder O.clone = GradWorker.cloning todo o := hw
      simp only [GradWorker.cloning.injEq] at hw'
      obtain ⟨rfl, _⟩ := hw'
      refine ⟨?_, hO p, fun hn => ?_⟩
      · show p ∈ recvOrder
        cases p <;> simp [recvOrder]
      · exact absurd (by cases p <;> simp [cloneOrder]) hn
    | tail _ hstep ih =>
      refine ⟨gradStep_inv hQ (fun p c acts hw h1 h2 h3 => ?_) hstep ih.1, gradStep_own hP hstep ih.1 ih.2⟩
      exact hacts p c acts h1 ((ih.2 p _ _ hw).2.2 (by simp)) h2 h3
  refine ⟨this.1.shared, this.1.rest, fun p c hw => ?_⟩
  obtain ⟨h1, h2⟩ := this.1.cloning p _ _ hw
  exact ⟨h2, (this.2 p _ _ hw).2.2 (by simp), fun q => h1 q (by simp)⟩

/-! ### a schedule -/

/-- the worker completes its clone -/
theorem clone_run (fuel : Nat) (E : GradEnv F) (acc : F) (p : Param) : ∀ (todo : List Param) (s : GradState F) (o : Options F),
    s.worker p = .cloning todo o → ∃ s', ReflTransGen (GradStep fuel E acc) s s' ∧ s'.shared = s.shared ∧ s'.obj = s.obj ∧
      s'.main = s.main ∧ s'.worker p = .cloning [] (todo.foldl (copyField s.shared) o) ∧
      ∀ q, q ≠ p → s'.worker q = s.worker q := by
  intro todo
  induction todo with
  | nil =>
    intro s o h
    exact ⟨s, .refl, rfl, rfl, rfl, h, fun _ _ => rfl⟩
  | cons r todo ih =>
    intro s o h
    have h1 := GradStep.read (fuel := fuel) (E := E) (curracc := acc) s p r todo o h
    obtain ⟨s', h2, h3, h4, h5, h6, h7⟩ := ih { s with worker := s.setWorker p (.cloning todo (copyField s.shared o r)) }
      (copyField s.shared o r) (setWorker_same _ _ _)
    refine ⟨s', .head h1 h2, h3, h4, h5, h6, ?_⟩
    intro q hq
    rw [h7 q hq]
    simp only
    rw [setWorker_other _ _ hq]

/-- the workers of a list of parameters complete their clones and run up to their first send -/
theorem start_run (fuel : Nat) (E : GradEnv F) (acc : F) (O : Options F) (acts : Param → List (PAct F))
    (ha : ∀ p, paramActs fuel E acc p O.clone = some (acts p)) : ∀ (ps : List Param), ps.Nodup → ∀ s : GradState F,
    s.shared = O → (∀ p ∈ ps, s.worker p = .cloning cloneOrder O.clone) →
    ∃ s', ReflTransGen (GradStep fuel E acc) s s' ∧ s'.shared = O ∧ s'.main = s.main ∧
      (∀ p ∈ ps, s'.worker p = .running (acts p)) ∧ ∀ q, q ∉ ps → s'.worker q = s.worker q := by
  intro ps
  induction ps with
  | nil =>
    intro _ s hs _
    exact ⟨s, .refl, hs, rfl, by simp, fun _ _ => rfl⟩
  | cons p ps ih =>
    intro hnd s hs hw
    obtain ⟨s1, h1, h2, h3, h4, h5, h6⟩ := clone_run fuel E acc p cloneOrder s O.clone (hw p List.mem_cons_self)
    have hc : cloneOrder.foldl (copyField s.shared) O.clone = O.clone := by rw [hs]; rfl
    rw [hc] at h5
    have hst := GradStep.start (fuel := fuel) (E := E) (curracc := acc) s1 p O.clone (acts p) h5 (ha p)
    obtain ⟨hp, hnd'⟩ := List.nodup_cons.1 hnd
    obtain ⟨s2, g1, g2, g3, g4, g5⟩ := ih hnd' { s1 with worker := s1.setWorker p (.running (acts p)) } (h2.trans hs) (by
      intro q hq
      have hqp : q ≠ p := by rintro rfl; exact hp hq
      simp only
      rw [setWorker_other _ _ hqp, h6 q hqp]
      exact hw q (List.mem_cons_of_mem _ hq))
    refine ⟨s2, h1.trans (.head hst g1), g2, g3.trans h4, ?_, ?_⟩
    · intro q hq
      rcases List.mem_cons.1 hq with rfl | hq
      · rw [g5 q hp]
        exact setWorker_same _ _ _
      · exact g4 q hq
    · intro q hq
      simp only [List.mem_cons, not_or] at hq
      rw [g5 q hq.2]
      simp only
      rw [setWorker_other _ _ hq.1, h6 q hq.1]

/-- what the caller may read from a goroutine that does `acts`: the contents at the first send, or after the next change -/
inductive Readable : List (PAct F) → Options F → Prop
  | mutate (o v : Options F) (l : List (PAct F)) (h : Readable l v) : Readable (.mutate o :: l) v
  | send (o : Options F) (l : List (PAct F)) : Readable (.send o :: l) o
  | late (o v : Options F) (l : List (PAct F)) : Readable (.send o :: .mutate v :: l) v

theorem recv_one (fuel : Nat) (E : GradEnv F) (acc : F) (p : Param) (todo : List Param) {acts : List (PAct F)}
    {v : Options F} (hv : Readable acts v) : ∀ s : GradState F, s.main = .recv (p :: todo) → s.worker p = .running acts →
    ∃ s', ReflTransGen (GradStep fuel E acc) s s' ∧ s'.shared = copyField v s.shared p ∧ s'.main = .recv todo ∧
      ∀ q, q ≠ p → s'.worker q = s.worker q := by
  induction hv with
  | mutate o v l h ih =>
    intro s hm hw
    have h1 := GradStep.mutate (fuel := fuel) (E := E) (curracc := acc) s p o l hw
    obtain ⟨s', h2, h3, h4, h5⟩ := ih { s with worker := s.setWorker p (.running l), obj := s.setObj p o } hm
      (setWorker_same _ _ _)
    refine ⟨s', .head h1 h2, h3, h4, ?_⟩
    intro q hq
    rw [h5 q hq]
    exact setWorker_other _ _ hq
  | send o l =>
    intro s hm hw
    have h1 := GradStep.recv (fuel := fuel) (E := E) (curracc := acc) s p todo o l hm hw
    have h2 := GradStep.look (fuel := fuel) (E := E) (curracc := acc) _ p todo
      (show GradState.main { s with worker := s.setWorker p (.running l), obj := s.setObj p o, main := .got p todo } = _ from rfl)
    have h3 := GradStep.assign (fuel := fuel) (E := E) (curracc := acc) _ p _ todo
      (show GradState.main { s with worker := s.setWorker p (.running l), obj := s.setObj p o, main := .assign p (s.setObj p o p) todo } = _ from rfl)
    refine ⟨_, .head h1 (.head h2 (.head h3 .refl)), ?_, rfl, ?_⟩
    · simp only
      rw [setObj_same]
    · intro q hq
      exact setWorker_other _ _ hq
  | late o v l =>
    intro s hm hw
    have h1 := GradStep.recv (fuel := fuel) (E := E) (curracc := acc) s p todo o _ hm hw
    have h1' := GradStep.mutate (fuel := fuel) (E := E) (curracc := acc)
      { s with worker := s.setWorker p (.running (.mutate v :: l)), obj := s.setObj p o, main := .got p todo } p v l
      (setWorker_same _ _ _)
    have h2 := GradStep.look (fuel := fuel) (E := E) (curracc := acc) _ p todo (show GradState.main
      { ({ s with worker := s.setWorker p (.running (.mutate v :: l)), obj := s.setObj p o, main := .got p todo } : GradState F) with
        worker := GradState.setWorker { s with worker := s.setWorker p (.running (.mutate v :: l)), obj := s.setObj p o, main := .got p todo } p (.running l)
        obj := GradState.setObj { s with worker := s.setWorker p (.running (.mutate v :: l)), obj := s.setObj p o, main := .got p todo } p v } = _ from rfl)
    have h3 := GradStep.assign (fuel := fuel) (E := E) (curracc := acc) _ p _ todo (show GradState.main
      { ({ s with worker := s.setWorker p (.running (.mutate v :: l)), obj := s.setObj p o, main := .got p todo } : GradState F) with
        worker := GradState.setWorker { s with worker := s.setWorker p (.running (.mutate v :: l)), obj := s.setObj p o, main := .got p todo } p (.running l)
        obj := GradState.setObj { s with worker := s.setWorker p (.running (.mutate v :: l)), obj := s.setObj p o, main := .got p todo } p v
        main := .assign p (GradState.setObj { s with worker := s.setWorker p (.running (.mutate v :: l)), obj := s.setObj p o, main := .got p todo } p v p) todo } = _ from rfl)
    refine ⟨_, .head h1 (.head h1' (.head h2 (.head h3 .refl))), ?_, rfl, ?_⟩
    · simp only
      rw [setObj_same]
    · intro q hq
      simp only
      rw [setWorker_other _ _ hq]
      exact setWorker_other _ _ hq

theorem recv_run (fuel : Nat) (E : GradEnv F) (acc : F) (acts : Param → List (PAct F)) (v : Param → Options F)
    (hv : ∀ p, Readable (acts p) (v p)) : ∀ (todo : List Param), todo.Nodup → ∀ s : GradState F, s.main = .recv todo →
    (∀ p ∈ todo, s.worker p = .running (acts p)) →
    ∃ s', ReflTransGen (GradStep fuel E acc) s s' ∧ s'.main = .recv [] ∧
      s'.shared = todo.foldl (fun b p => copyField (v p) b p) s.shared := by
  intro todo
  induction todo with
  | nil =>
    intro _ s hm _
    exact ⟨s, .refl, hm, rfl⟩
  | cons p todo ih =>
    intro hnd s hm hw
    obtain ⟨hp, hnd'⟩ := List.nodup_cons.1 hnd
    obtain ⟨s1, h1, h2, h3, h4⟩ := recv_one fuel E acc p todo (hv p) s hm (hw p List.mem_cons_self)
    obtain ⟨s2, g1, g2, g3⟩ := ih hnd' s1 h3 (by
      intro q hq
      have hqp : q ≠ p := by rintro rfl; exact hp hq
      rw [h4 q hqp]
      exact hw q (List.mem_cons_of_mem _ hq))
    refine ⟨s2, h1.trans g1, g2, ?_⟩
    rw [g3, h2]
    rfl

/-- There is a schedule in which the caller reads the given contents from the goroutines. -/
theorem grad_run (fuel : Nat) (E : GradEnv F) (acc : F) (O : Options F) (acts : Param → List (PAct F))
    (ha : ∀ p, paramActs fuel E acc p O.clone = some (acts p)) (v : Param → Options F)
    (hv : ∀ p, Readable (acts p) (v p)) :
    ∃ s, ReflTransGen (GradStep fuel E acc) (gradStart O) s ∧ s.main = .recv [] ∧
      s.shared = { O with gamma := (v .gamma).gamma, lambda := (v .lambda).lambda, subSample := (v .subSample).subSample,
                          learningRate := (v .learningRate).learningRate, rounds := (v .rounds).rounds,
                          colSubSample := (v .colSubSample).colSubSample } := by
  have hall : ∀ p, p ∈ recvOrder := by intro p; cases p <;> simp [recvOrder]
  obtain ⟨s1, h1, h2, h3, h4, _⟩ := start_run fuel E acc O acts ha recvOrder (by decide) (gradStart O) rfl
    (fun _ _ => rfl)
  obtain ⟨s2, g1, g2, g3⟩ := recv_run fuel E acc acts v hv recvOrder (by decide) s1 h3 h4
  refine ⟨s2, h1.trans g1, g2, ?_⟩
  rw [g3, h2]
  rfl

/-! ### termination -/

theorem paramActs_bound {fuel : Nat} {E : GradEnv F} {acc : F} {p : Param} {c : Options F} {acts : List (PAct F)}
    (h : paramActs fuel E acc p c = some acts) : acts.length ≤ 5 ∧ ∃ o, PAct.send o ∈ acts := by
  unfold paramActs at h
  simp only at h
  split at h
  · simp only [Option.some.injEq] at h
    subst h
    refine ⟨?_, c, by simp⟩
    simp only [List.length_append, List.length_cons, List.length_nil]
    split <;> split <;> simp
  · obtain ⟨O', _, h⟩ := Option.map_eq_some_iff.1 h
    subst h
    refine ⟨?_, _, List.mem_append_right _ (List.mem_singleton.2 rfl)⟩
    simp only [List.length_append, List.length_cons, List.length_nil]
    split <;> split <;> split <;> split <;> simp

/-- steps a worker can still make -/
def GradWorker.cost : GradWorker F → Nat
  | .cloning todo _ => todo.length + 7
  | .running acts => acts.length

/-- steps the caller can still make -/
def GradMain.cost : GradMain F → Nat
  | .recv todo => 3 * todo.length
  | .got _ todo => 3 * todo.length + 2
  | .assign _ _ todo => 3 * todo.length + 1

/-- a bound on the number of steps that remain -/
def GradState.cost (s : GradState F) : Nat :=
  (s.worker .gamma).cost + (s.worker .lambda).cost + (s.worker .subSample).cost + (s.worker .colSubSample).cost +
    (s.worker .learningRate).cost + (s.worker .rounds).cost + s.main.cost

theorem cost_setWorker (s : GradState F) (p : Param) (w : GradWorker F) (obj : Param → Options F) (main : GradMain F)
    (sh : Options F) :
    GradState.cost ⟨sh, s.setWorker p w, obj, main⟩ + (s.worker p).cost + s.main.cost = s.cost + w.cost + main.cost := by
  unfold GradState.cost GradState.setWorker
  cases p <;> simp <;> omega

theorem gradStep_cost {fuel : Nat} {E : GradEnv F} {acc : F} {s s' : GradState F} (h : GradStep fuel E acc s s') :
    s'.cost < s.cost := by
  cases h with
  | read p q todo o hw =>
    have := cost_setWorker s p (.cloning todo (copyField s.shared o q)) s.obj s.main s.shared
    rw [hw] at this
    simp only [GradWorker.cost, List.length_cons] at this
    show GradState.cost _ < _
    omega
  | start p o acts hw ha =>
    have := cost_setWorker s p (.running acts) s.obj s.main s.shared
    rw [hw] at this
    have hb := (paramActs_bound ha).1
    simp only [GradWorker.cost, List.length_nil] at this
    show GradState.cost _ < _
    omega
  | mutate p o acts hw =>
    have := cost_setWorker s p (.running acts) (s.setObj p o) s.main s.shared
    rw [hw] at this
    simp only [GradWorker.cost, List.length_cons] at this
    show GradState.cost _ < _
    omega
  | recv p todo o acts hm hw =>
    have := cost_setWorker s p (.running acts) (s.setObj p o) (.got p todo) s.shared
    rw [hw, hm] at this
    simp only [GradWorker.cost, GradMain.cost, List.length_cons] at this
    show GradState.cost _ < _
    omega
  | look p todo hm =>
    unfold GradState.cost
    simp only [hm, GradMain.cost]
    omega
  | assign p v todo hm =>
    unfold GradState.cost
    simp only [hm, GradMain.cost]
    omega

/-- a goroutine that was not received from yet has a send to make -/
structure GradLive (s : GradState F) : Prop where
  recv : ∀ todo, s.main = .recv todo → todo.Nodup ∧ ∀ p ∈ todo, ∀ acts, s.worker p = .running acts → ∃ o, PAct.send o ∈ acts
  got : ∀ r todo, s.main = .got r todo → (r :: todo).Nodup ∧
    ∀ p ∈ todo, ∀ acts, s.worker p = .running acts → ∃ o, PAct.send o ∈ acts
  assign : ∀ r v todo, s.main = .assign r v todo → (r :: todo).Nodup ∧
    ∀ p ∈ todo, ∀ acts, s.worker p = .running acts → ∃ o, PAct.send o ∈ acts

theorem gradStep_live {fuel : Nat} {E : GradEnv F} {acc : F} {s s' : GradState F} (h : GradStep fuel E acc s s')
    (hi : GradLive s) : GradLive s' := by
  cases h with
  | read p q todo o hw =>
    have key : ∀ r acts, s.setWorker p (.cloning todo (copyField s.shared o q)) r = .running acts → s.worker r = .running acts := by
      intro r acts h
      by_cases hr : r = p
      · subst hr; rw [setWorker_same] at h; cases h
      · rwa [setWorker_other _ _ hr] at h
    exact ⟨fun t hm => ⟨(hi.recv t hm).1, fun r hr acts h => (hi.recv t hm).2 r hr acts (key r acts h)⟩,
      fun r t hm => ⟨(hi.got r t hm).1, fun x hx acts h => (hi.got r t hm).2 x hx acts (key x acts h)⟩,
      fun r v t hm => ⟨(hi.assign r v t hm).1, fun x hx acts h => (hi.assign r v t hm).2 x hx acts (key x acts h)⟩⟩
  | start p o acts hw ha =>
    have key : ∀ r (hr : ∀ acts, s.worker r = .running acts → ∃ o, PAct.send o ∈ acts) acts',
        s.setWorker p (.running acts) r = .running acts' → ∃ o, PAct.send o ∈ acts' := by
      intro r hr acts' h
      by_cases hrp : r = p
      · subst hrp
        rw [setWorker_same] at h
        simp only [GradWorker.running.injEq] at h
        subst h
        exact (paramActs_bound ha).2
      · rw [setWorker_other _ _ hrp] at h
        exact hr _ h
    exact ⟨fun t hm => ⟨(hi.recv t hm).1, fun r hr => key r ((hi.recv t hm).2 r hr)⟩,
      fun r t hm => ⟨(hi.got r t hm).1, fun x hx => key x ((hi.got r t hm).2 x hx)⟩,
      fun r v t hm => ⟨(hi.assign r v t hm).1, fun x hx => key x ((hi.assign r v t hm).2 x hx)⟩⟩
  | mutate p o acts hw =>
    have key : ∀ r (hr : ∀ acts, s.worker r = .running acts → ∃ o, PAct.send o ∈ acts) acts',
        s.setWorker p (.running acts) r = .running acts' → ∃ o, PAct.send o ∈ acts' := by
      intro r hr acts' h
      by_cases hrp : r = p
      · subst hrp
        rw [setWorker_same] at h
        simp only [GradWorker.running.injEq] at h
        subst h
        obtain ⟨o', ho'⟩ := hr _ hw
        exact ⟨o', by simpa using ho'⟩
      · rw [setWorker_other _ _ hrp] at h
        exact hr _ h
    exact ⟨fun t hm => ⟨(hi.recv t hm).1, fun r hr => key r ((hi.recv t hm).2 r hr)⟩,
      fun r t hm => ⟨(hi.got r t hm).1, fun x hx => key x ((hi.got r t hm).2 x hx)⟩,
      fun r v t hm => ⟨(hi.assign r v t hm).1, fun x hx => key x ((hi.assign r v t hm).2 x hx)⟩⟩
  | recv p todo o acts hm hw =>
    obtain ⟨h1, h2⟩ := hi.recv _ hm
    refine ⟨fun t hm => by (cases hm), ?_, fun r v t hm => by (cases hm)⟩
    intro r t hm'
    simp only [GradMain.got.injEq] at hm'
    obtain ⟨rfl, rfl⟩ := hm'
    refine ⟨h1, fun x hx acts' hw' => ?_⟩
    have hxp : x ≠ p := by rintro rfl; exact (List.nodup_cons.1 h1).1 hx
    simp only at hw'
    rw [setWorker_other _ _ hxp] at hw'
    exact h2 x (List.mem_cons_of_mem _ hx) _ hw'
  | look p todo hm =>
    refine ⟨fun t hm => by (cases hm), fun r t hm => by (cases hm), ?_⟩
    intro r v t hm'
    simp only [GradMain.assign.injEq] at hm'
    obtain ⟨rfl, rfl, rfl⟩ := hm'
    exact hi.got _ _ hm
  | assign p v todo hm =>
    refine ⟨?_, fun r t hm => by (cases hm), fun r v t hm => by (cases hm)⟩
    intro t hm'
    simp only [GradMain.recv.injEq] at hm'
    subst hm'
    obtain ⟨h1, h2⟩ := hi.assign _ _ _ hm
    exact ⟨(List.nodup_cons.1 h1).2, h2⟩

/-- When nothing can move the caller has returned, provided the loops of the goroutines end. -/
theorem grad_progress {fuel : Nat} {E : GradEnv F} {acc : F} (htot : ∀ p c, ∃ acts, paramActs fuel E acc p c = some acts)
    {s : GradState F} (hi : GradLive s) (hstuck : ∀ s', ¬ GradStep fuel E acc s s') : s.main = .recv [] := by
  cases hm : s.main with
  | got p todo => exact absurd (GradStep.look s p todo hm) (hstuck _)
  | assign p v todo => exact absurd (GradStep.assign s p v todo hm) (hstuck _)
  | recv todo =>
    cases todo with
    | nil => rfl
    | cons p todo =>
      exfalso
      obtain ⟨_, h2⟩ := hi.recv _ hm
      cases hw : s.worker p with
      | cloning l o =>
        cases l with
        | nil =>
          obtain ⟨acts, ha⟩ := htot p o
          exact hstuck _ (GradStep.start s p o acts hw ha)
        | cons q l => exact hstuck _ (GradStep.read s p q l o hw)
      | running acts =>
        obtain ⟨o, ho⟩ := h2 p List.mem_cons_self acts hw
        cases acts with
        | nil => cases ho
        | cons a acts =>
          cases a with
          | send o => exact hstuck _ (GradStep.recv s p todo o acts hm hw)
          | mutate o => exact hstuck _ (GradStep.mutate s p o acts hw)

theorem gradStart_live (O : Options F) : GradLive (gradStart O) := by
  constructor
  · intro todo h
    simp only [gradStart, GradMain.recv.injEq] at h
    subst h
    exact ⟨by decide, fun p _ acts h => by cases h⟩
  · intro r todo h; cases h
  · intro r v todo h; cases h

/-! ### counting sends -/

/-- the number of sends -/
def sends (acts : List (PAct F)) : Nat := acts.countP fun a => match a with
  | .send _ => true
  | .mutate _ => false

@[simp] theorem sends_nil : sends ([] : List (PAct F)) = 0 := rfl
@[simp] theorem sends_send (o : Options F) (l : List (PAct F)) : sends (.send o :: l) = sends l + 1 := by
  unfold sends; rw [List.countP_cons_of_pos rfl]
@[simp] theorem sends_mutate (o : Options F) (l : List (PAct F)) : sends (.mutate o :: l) = sends l := by
  unfold sends; rw [List.countP_cons_of_neg (by simp)]
@[simp] theorem sends_append (a b : List (PAct F)) : sends (a ++ b) = sends a + sends b := by
  unfold sends; exact List.countP_append

/-- the parameters from which nothing was received yet -/
def GradMain.pending : GradMain F → List Param
  | .recv todo => todo
  | .got _ todo => todo
  | .assign _ _ todo => todo

/-- sends still to be made: satisfies `C` before the receive, and with one more after it -/
structure GradCount (C : Nat → Prop) (s : GradState F) : Prop where
  pend : ∀ p ∈ s.main.pending, ∀ acts, s.worker p = .running acts → C (sends acts)
  done : ∀ p, p ∉ s.main.pending → ∃ acts, s.worker p = .running acts ∧ C (sends acts + 1)

theorem gradStep_count {fuel : Nat} {E : GradEnv F} {acc : F} {Q : Param → Options F → Prop} {O : Options F}
    {C : Nat → Prop}
    (hC : ∀ p c acts, SameRest O c → (∀ q, Q q c) → paramActs fuel E acc p c = some acts → C (sends acts))
    {s s' : GradState F} (h : GradStep fuel E acc s s') (hi : GradInv fuel E acc Q O s) (hc : GradCount C s) :
    GradCount C s' := by
  cases h with
  | read p q todo o hw =>
    constructor
    · intro r hr acts h
      simp only at h
      by_cases hrp : r = p
      · subst hrp; rw [setWorker_same] at h; cases h
      · rw [setWorker_other _ _ hrp] at h
        exact hc.pend r hr acts h
    · intro r hr
      obtain ⟨acts, h1, h2⟩ := hc.done r hr
      refine ⟨acts, ?_, h2⟩
      simp only
      rw [setWorker_other _ _ (by rintro rfl; rw [h1] at hw; cases hw), h1]
  | start p o acts hw ha =>
    obtain ⟨h1, h2⟩ := hi.cloning p _ _ hw
    have hv := hC p o acts h2 (fun q => h1 q (by simp)) ha
    constructor
    · intro r hr acts' h
      simp only at h
      by_cases hrp : r = p
      · subst hrp
        rw [setWorker_same] at h
        simp only [GradWorker.running.injEq] at h
        subst h
        exact hv
      · rw [setWorker_other _ _ hrp] at h
        exact hc.pend r hr acts' h
    · intro r hr
      obtain ⟨acts', h1, h2⟩ := hc.done r hr
      refine ⟨acts', ?_, h2⟩
      simp only
      rw [setWorker_other _ _ (by rintro rfl; rw [h1] at hw; cases hw), h1]
  | mutate p o acts hw =>
    constructor
    · intro r hr acts' h
      simp only at h
      by_cases hrp : r = p
      · subst hrp
        rw [setWorker_same] at h
        simp only [GradWorker.running.injEq] at h
        subst h
        have := hc.pend r hr _ hw
        rwa [sends_mutate] at this
      · rw [setWorker_other _ _ hrp] at h
        exact hc.pend r hr acts' h
    · intro r hr
      obtain ⟨acts', h1, h2⟩ := hc.done r hr
      by_cases hrp : r = p
      · subst hrp
        rw [hw] at h1
        simp only [GradWorker.running.injEq] at h1
        subst h1
        rw [sends_mutate] at h2
        exact ⟨acts, setWorker_same _ _ _, h2⟩
      · refine ⟨acts', ?_, h2⟩
        simp only
        rw [setWorker_other _ _ hrp, h1]
  | recv p todo o acts hm hw =>
    have hnd := (hi.recv _ hm).1
    have hp : p ∉ todo := (List.nodup_cons.1 hnd).1
    constructor
    · intro r hr acts' h
      have hr' : r ∈ todo := hr
      have hrp : r ≠ p := by rintro rfl; exact hp hr'
      simp only at h
      rw [setWorker_other _ _ hrp] at h
      exact hc.pend r (by rw [hm]; exact List.mem_cons_of_mem _ hr') acts' h
    · intro r hr
      have hr' : r ∉ todo := hr
      by_cases hrp : r = p
      · subst hrp
        have := hc.pend r (by rw [hm]; exact List.mem_cons_self) _ hw
        rw [sends_send] at this
        exact ⟨acts, setWorker_same _ _ _, this⟩
      · obtain ⟨acts', h1, h2⟩ := hc.done r (by rw [hm]; simp [GradMain.pending, hrp, hr'])
        refine ⟨acts', ?_, h2⟩
        simp only
        rw [setWorker_other _ _ hrp, h1]
  | look p todo hm =>
    have : s.main.pending = todo := by rw [hm]; rfl
    exact ⟨fun r hr => hc.pend r (by rw [this]; exact hr), fun r hr => hc.done r (by rw [this]; exact hr)⟩
  | assign p v todo hm =>
    have : s.main.pending = todo := by rw [hm]; rfl
    exact ⟨fun r hr => hc.pend r (by rw [this]; exact hr), fun r hr => hc.done r (by rw [this]; exact hr)⟩

/-- At the end the sends that each goroutine has still to make are as many as it makes in all, less one. -/
theorem grad_count {fuel : Nat} {E : GradEnv F} {acc : F} {Q : Param → Options F → Prop} (hQ : FieldProp Q)
    {O : Options F} (hO : ∀ q, Q q O)
    (hacts : ∀ p c acts, SameRest O c → (∀ q, Q q c) → paramActs fuel E acc p c = some acts → ∀ o ∈ visible acts, Q p o)
    {C : Nat → Prop}
    (hC : ∀ p c acts, SameRest O c → (∀ q, Q q c) → paramActs fuel E acc p c = some acts → C (sends acts))
    {s : GradState F} (hr : ReflTransGen (GradStep fuel E acc) (gradStart O) s) : GradCount C s := by
  have : GradInv fuel E acc Q O s ∧ GradCount C s := by
    induction hr with
    | refl =>
      refine ⟨gradStart_inv hO, ?_, ?_⟩
      · intro p _ acts h; cases h
      · intro p hp
        exact absurd (by cases p <;> simp [gradStart, GradMain.pending, recvOrder]) hp
    | tail _ hstep ih => exact ⟨gradStep_inv hQ (fun p c acts _ => hacts p c acts) hstep ih.1, gradStep_count hC hstep ih.1 ih.2⟩
  exact this.2

theorem gradLive_reach {fuel : Nat} {E : GradEnv F} {acc : F} {O : Options F} {s : GradState F}
    (hr : ReflTransGen (GradStep fuel E acc) (gradStart O) s) : GradLive s := by
  induction hr with
  | refl => exact gradStart_live O
  | tail _ hstep ih => exact gradStep_live hstep ih

/-- from every state an execution leads to one in which nothing can move -/
theorem grad_stuck {fuel : Nat} {E : GradEnv F} {acc : F} (s : GradState F) :
    ∃ s', ReflTransGen (GradStep fuel E acc) s s' ∧ ∀ s'', ¬ GradStep fuel E acc s' s'' := by
  induction hc : s.cost using Nat.strong_induction_on generalizing s with
  | _ n ih =>
    by_cases h : ∃ s1, GradStep fuel E acc s s1
    · obtain ⟨s1, h1⟩ := h
      have := gradStep_cost h1
      obtain ⟨s', h2, h3⟩ := ih s1.cost (by omega) s1 rfl
      exact ⟨s', .head h1 h2, h3⟩
    · exact ⟨s, .refl, fun s'' h' => h ⟨s'', h'⟩⟩

/-! ### the loop over the steps -/

/-- the step after `k` failed tries -/
def shrunk : Nat → F → F
  | 0, st => st
  | k + 1, st => shrunk k (st -. st *. ofRat (2/10))

theorem stepLoop_total {co : GridOptions F} {step der : F} {p : Param} {prev : Options F} : ∀ (n k : Nat) {st : F} {O : Options F},
    k ≤ n → gt (shrunk k st) (ofRat (1/10) *. step) = false → ∃ O', stepLoop co step der p prev (n + 1) st O = some O' := by
  intro n k
  induction n generalizing k with
  | zero =>
    intro st O hk h
    obtain rfl : k = 0 := by omega
    refine ⟨O, ?_⟩
    unfold stepLoop
    rw [if_neg (by rw [show gt st _ = false from h]; simp)]
  | succ n ih =>
    intro st O hk h
    unfold stepLoop
    simp only
    split
    · rename_i hgt
      split
      · exact ⟨_, rfl⟩
      · cases k with
        | zero => rw [show gt st _ = false from h] at hgt; cases hgt
        | succ k => exact ih k (by omega) h
    · exact ⟨_, rfl⟩

theorem paramActs_total {n k : Nat} {E : GradEnv F} (hk : k ≤ n)
    (h : gt (shrunk k E.step) (ofRat (1/10) *. E.step) = false)
    (acc : F) (p : Param) (c : Options F) : ∃ acts, paramActs (n + 1) E acc p c = some acts := by
  unfold paramActs
  simp only
  split
  · exact ⟨_, rfl⟩
  · obtain ⟨O', hO'⟩ := stepLoop_total (co := E.co) (step := E.step)
      (der := derivative E.central (E.plus p (plusOpt E.fd c.clone p)).acc (E.minus p (minusOpt E.fd c.clone p)).acc acc
        (E.fd *. currentValue c p)) (p := p) (prev := c.clone) n k (O := c) hk h
    rw [hO']
    exact ⟨_, rfl⟩

end Boo
