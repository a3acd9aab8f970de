import Verif.Spec.Climb
import Verif.Props.GradSearch

/-!
# C119: the gradient searches are hill climbing
-/

namespace Boo
open GoFloat Spec
set_option linter.unusedSectionVars false
variable {F : Type} [GoFloat F]

/-- what the heap search and the value search have in common -/
structure SameBooks (s : SearchState F) (c : Climb F) : Prop where
  best : s.best = c.best
  accs : s.accs = c.accs
  calls : s.calls = c.calls
  steps : s.steps = c.steps
  fuzzes : s.fuzzes = c.fuzzes
  writes : s.writes = c.writes

/-- the pointer `final` against what is kept, the current point being at `t` -/
def KeptAt (s : SearchState F) (t : Nat) : Option Nat → Option (ToReturn F) → Prop
  | none, none => True
  | some f, some .current => f = t
  | some f, some (.these o) => f ≠ t ∧ f < s.heap.length ∧ s.deref f = o
  | _, _ => False

/-- `t` points to the current point -/
structure Climbing (s : SearchState F) (t : Nat) (c : Climb F) : Prop extends SameBooks s c where
  ptr : t < s.heap.length
  cur : s.deref t = c.cur
  kept : KeptAt s t s.final c.kept

/-- between two starting points -/
structure Between (s : SearchState F) (c : Climb F) : Prop extends SameBooks s c where
  range : ∀ f, s.final = some f → f < s.heap.length
  kept : s.final.map s.deref = c.kept.map fun
      | .current => c.cur
      | .these o => o

theorem deref_store_if {s : SearchState F} {p : Nat} (o : Options F) (h : p < s.heap.length) (q : Nat) :
    (s.store p o).deref q = if q = p then o else s.deref q := by
  unfold SearchState.deref SearchState.store
  simp only [List.getElem?_set]
  by_cases hq : p = q
  · subst hq; simp [h]
  · rw [if_neg hq, if_neg (fun h => hq h.symm)]

theorem deref_alloc_if {s : SearchState F} (o : Options F) (q : Nat) :
    (s.alloc o).deref q = if q = s.heap.length then o else s.deref q := by
  unfold SearchState.deref SearchState.alloc
  simp only
  by_cases hq : q < s.heap.length
  · rw [List.getElem?_append_left hq, if_neg (by omega)]
  · by_cases he : q = s.heap.length
    · subst he; simp
    · rw [if_neg he, List.getElem?_eq_none (by simp; omega), List.getElem?_eq_none (by omega)]

theorem Climbing.between {s : SearchState F} {t : Nat} {c : Climb F} (h : Climbing s t c) : Between s c := by
  have hk := h.kept
  refine ⟨h.toSameBooks, ?_, ?_⟩
  · intro f hf
    rw [hf] at hk
    cases hc : c.kept with
    | none => rw [hc] at hk; exact hk.elim
    | some k =>
      rw [hc] at hk
      cases k with
      | current => rw [show f = t from hk]; exact h.ptr
      | these o => exact hk.2.1
  · cases hf : s.final with
    | none =>
      rw [hf] at hk
      cases hc : c.kept with
      | none => rfl
      | some k => rw [hc] at hk; cases k <;> exact hk.elim
    | some f =>
      rw [hf] at hk
      cases hc : c.kept with
      | none => rw [hc] at hk; exact hk.elim
      | some k =>
        rw [hc] at hk
        cases k with
        | current => rw [show f = t from hk]; simp [h.cur]
        | these o => simp [hk.2.2]

/-- the current point changes in place -/
theorem Climbing.change {s : SearchState F} {t : Nat} {c : Climb F} (h : Climbing s t c) (o : Options F) :
    Climbing (s.store t o) t { c with cur := o } := by
  refine ⟨⟨h.best, h.accs, h.calls, h.steps, h.fuzzes, h.writes⟩, by simpa [SearchState.store] using h.ptr, ?_, ?_⟩
  · rw [deref_store_if _ h.ptr]; simp
  · have hk := h.kept
    show KeptAt _ t s.final c.kept
    cases hf : s.final with
    | none =>
      rw [hf] at hk
      revert hk
      cases c.kept with
      | none => exact id
      | some k => cases k <;> exact id
    | some f =>
      rw [hf] at hk
      cases hc : c.kept with
      | none => rw [hc] at hk; exact hk.elim
      | some k =>
        rw [hc] at hk
        cases k with
        | current => exact hk
        | these q =>
          refine ⟨hk.1, by simpa [SearchState.store] using hk.2.1, ?_⟩
          rw [deref_store_if _ h.ptr, if_neg hk.1]
          exact hk.2.2

/-- a new object does not matter -/
theorem Climbing.alloc {s : SearchState F} {t : Nat} {c : Climb F} (h : Climbing s t c) (o : Options F) :
    Climbing (s.alloc o) t c := by
  have hl : (s.alloc o).heap.length = s.heap.length + 1 := by simp [SearchState.alloc]
  refine ⟨⟨h.best, h.accs, h.calls, h.steps, h.fuzzes, h.writes⟩, by rw [hl]; have := h.ptr; omega, ?_, ?_⟩
  · rw [deref_alloc_if, if_neg (by have := h.ptr; omega)]; exact h.cur
  · have hk := h.kept
    show KeptAt _ t s.final c.kept
    cases hf : s.final with
    | none =>
      rw [hf] at hk
      revert hk
      cases c.kept with
      | none => exact id
      | some k => cases k <;> exact id
    | some f =>
      rw [hf] at hk
      cases hc : c.kept with
      | none => rw [hc] at hk; exact hk.elim
      | some k =>
        rw [hc] at hk
        cases k with
        | current => exact hk
        | these q =>
          refine ⟨hk.1, by rw [hl]; have := hk.2.1; omega, ?_⟩
          rw [deref_alloc_if, if_neg (by have := hk.2.1; omega)]
          exact hk.2.2

/-- the search goes on from an object that nothing else points to -/
theorem Between.goOn {s : SearchState F} {t : Nat} {c : Climb F} (h : Between s c) {o : Options F} (ht : t < s.heap.length)
    (ho : s.deref t = o) (hne : s.final ≠ some t) : Climbing s t (c.goOn o) := by
  refine ⟨⟨h.best, h.accs, h.calls, h.steps, h.fuzzes, h.writes⟩, ht, ho, ?_⟩
  have hk := h.kept
  show KeptAt _ t s.final (c.goOn o).kept
  unfold Climb.goOn
  cases hf : s.final with
  | none =>
    rw [hf] at hk
    cases hc : c.kept with
    | none => trivial
    | some k => rw [hc] at hk; simp at hk
  | some f =>
    rw [hf] at hk hne
    cases hc : c.kept with
    | none => rw [hc] at hk; simp at hk
    | some k =>
      rw [hc] at hk
      simp only [Option.map_some, Option.some.injEq] at hk
      cases k with
      | current => exact ⟨fun e => hne (by rw [e]), h.range f hf, hk⟩
      | these q => exact ⟨fun e => hne (by rw [e]), h.range f hf, hk⟩

/-- `CompareAccs` -/
theorem Climbing.compare {E : SearchEnv F} {s : SearchState F} {t tprev : Nat} {c : Climb F} (h : Climbing s t c)
    (hp : tprev < s.heap.length) (hne : tprev ≠ t) (hf : s.final ≠ some tprev) {before : Options F} (hb : s.deref tprev = before) :
    match compareAccs E s t tprev, c.judge E before with
    | (s', none), (c', false) => SameBooks s' c'
    | (s', some t'), (c', true) => Climbing s' t' c'
    | _, _ => False := by
  unfold compareAccs Climb.judge
  simp only [h.cur, h.calls]
  by_cases herr : (E.cv c.calls.length 5 c.cur).err = true
  · rw [if_pos herr, if_pos herr]
    exact ⟨h.best, h.accs, rfl, h.steps, h.fuzzes, h.writes⟩
  · rw [if_neg herr, if_neg herr]
    generalize hr : E.cv c.calls.length 5 c.cur = r
    have h1 : Climbing { s with calls := c.calls ++ [(c.cur, r)] } t { c with calls := c.calls ++ [(c.cur, r)] } :=
      ⟨⟨h.best, h.accs, rfl, h.steps, h.fuzzes, h.writes⟩, h.ptr, h.cur, h.kept⟩
    have hcur : SearchState.deref { s with calls := c.calls ++ [(c.cur, r)] } t = c.cur := h.cur
    have h2 := h1.change c.cur.fixMcw
    simp only [hcur]
    have ea : (SearchState.store { s with calls := c.calls ++ [(c.cur, r)] } t c.cur.fixMcw).accs = c.accs := h.accs
    have eb : (SearchState.store { s with calls := c.calls ++ [(c.cur, r)] } t c.cur.fixMcw).best = c.best := h.best
    rw [ea, eb]
    have hprev : (SearchState.store { s with calls := c.calls ++ [(c.cur, r)] } t c.cur.fixMcw).deref tprev = before := by
      rw [deref_store_if _ h1.ptr, if_neg hne]; exact hb
    by_cases hw : (c.accs.getLast?.map (r.acc <. ·)) = some true
    · rw [if_pos hw, if_pos hw]
      have hfz : (SearchState.store { s with calls := c.calls ++ [(c.cur, r)] } t c.cur.fixMcw).fuzzes = c.fuzzes := h.fuzzes
      unfold SearchState.fuzz
      rw [hfz, hprev]
      have hl : tprev < (SearchState.store { s with calls := c.calls ++ [(c.cur, r)] } t c.cur.fixMcw).heap.length := by
        simpa [SearchState.store] using hp
      have h3 : Between ((SearchState.store { s with calls := c.calls ++ [(c.cur, r)] } t c.cur.fixMcw).store tprev
          (fuzzOptions (E.draws c.fuzzes) before none))
          { c with calls := c.calls ++ [(c.cur, r)], cur := c.cur.fixMcw } := by
        have hb2 := h2.between
        refine ⟨⟨h.best, h.accs, rfl, h.steps, h.fuzzes, h.writes⟩, ?_, ?_⟩
        · intro f hf'
          have := hb2.range f hf'
          simpa [SearchState.store] using this
        · rw [← hb2.kept]
          show s.final.map _ = s.final.map _
          refine Option.map_congr fun f hff => ?_
          rw [deref_store_if _ hl, if_neg (fun e => hf (by rw [← e]; exact hff))]
      have h4 := h3.goOn (t := tprev) (o := fuzzOptions (E.draws c.fuzzes) before none) (by simpa [SearchState.store] using hp)
        (by rw [deref_store_if _ hl]; simp) hf
      exact ⟨⟨h4.best, h4.accs, h4.calls, h4.steps, by show c.fuzzes + 1 = _; rfl, h4.writes⟩, h4.ptr, h4.cur, h4.kept⟩
    · rw [if_neg hw, if_neg hw]
      by_cases hg : gt r.acc c.best = true
      · rw [if_pos hg, if_pos hg]
        refine ⟨⟨rfl, rfl, rfl, h.steps, h.fuzzes, ?_⟩, h2.ptr, h2.cur, rfl⟩
        have : (SearchState.store { s with calls := c.calls ++ [(c.cur, r)] } t c.cur.fixMcw).writes = c.writes := h.writes
        simp only [this]
      · rw [if_neg hg, if_neg hg]
        exact h2

theorem searchSteps_climb {E : SearchEnv F} {nfold : Int} (n : Nat) {s : SearchState F} {t : Nat} {c : Climb F}
    (h : Climbing s t c) (strikes : Nat) :
    (searchSteps E nfold n s t strikes).2 = (Climb.walk E nfold n c strikes).2 ∧
    SameBooks (searchSteps E nfold n s t strikes).1 (Climb.walk E nfold n c strikes).1 ∧
    ((Climb.walk E nfold n c strikes).2 = true → Between (searchSteps E nfold n s t strikes).1 (Climb.walk E nfold n c strikes).1) := by
  induction n generalizing s t c strikes with
  | zero => exact ⟨rfl, h.toSameBooks, fun _ => h.between⟩
  | succ n ih =>
    unfold searchSteps Climb.walk
    simp only
    have h1 := h.alloc (s.deref t).clone
    have hcur1 : (s.alloc (s.deref t).clone).deref t = c.cur := h1.cur
    have hst : (s.alloc (s.deref t).clone).steps = c.steps := h.steps
    rw [hst, hcur1, h.cur]
    have h2 := h1.change (E.grad c.steps nfold c.cur)
    rw [h.cur] at h2
    have h3 : Climbing { (s.alloc c.cur.clone).store t (E.grad c.steps nfold c.cur) with steps := c.steps + 1 } t
        { c with cur := E.grad c.steps nfold c.cur, steps := c.steps + 1 } :=
      ⟨⟨h2.best, h2.accs, h2.calls, rfl, h2.fuzzes, h2.writes⟩, h2.ptr, h2.cur, h2.kept⟩
    have hl : t < (s.alloc c.cur.clone).heap.length := by have := h.ptr; simp [SearchState.alloc]; omega
    have ht1 : SearchState.deref { (s.alloc c.cur.clone).store t (E.grad c.steps nfold c.cur) with steps := c.steps + 1 }
        s.heap.length = c.cur.clone := by
      show ((s.alloc c.cur.clone).store t _).deref _ = _
      rw [deref_store_if _ hl, if_neg (by have := h.ptr; omega), deref_alloc_if, if_pos rfl]
    have hc3 := h3.cur
    simp only at hc3
    rw [ht1, hc3]
    generalize hs3 : ({ (s.alloc c.cur.clone).store t (E.grad c.steps nfold c.cur) with steps := c.steps + 1 } : SearchState F) = s3 at *
    by_cases he : (E.grad c.steps nfold c.cur).equal c.cur.clone = true
    · rw [if_pos he, if_pos he]
      have h4 := h3.change (fuzzOptions (E.draws c.fuzzes) (E.grad c.steps nfold c.cur) (some (ofRat (2/10))))
      have hfz : s3.fuzzes = c.fuzzes := h3.fuzzes
      have h5 : Climbing (s3.fuzz E t (some (ofRat (2/10)))) t
          { c with cur := fuzzOptions (E.draws c.fuzzes) (E.grad c.steps nfold c.cur) (some (ofRat (2/10))), steps := c.steps + 1,
                   fuzzes := c.fuzzes + 1 } := by
        unfold SearchState.fuzz
        rw [hc3, hfz]
        exact ⟨⟨h4.best, h4.accs, h4.calls, h4.steps, rfl, h4.writes⟩, h4.ptr, h4.cur, h4.kept⟩
      by_cases h3s : strikes + 1 = 3
      · rw [if_pos h3s, if_pos h3s]
        exact ⟨rfl, h5.toSameBooks, fun _ => h5.between⟩
      · rw [if_neg h3s, if_neg h3s]
        exact ih h5 _
    · rw [if_neg he, if_neg he]
      have hfin : s3.final ≠ some s.heap.length := by
        intro hf
        have hf' : s.final = some s.heap.length := by rw [← hs3] at hf; exact hf
        exact absurd (h.between.range _ hf') (lt_irrefl _)
      have hlen : s.heap.length < s3.heap.length := by
        rw [← hs3]; simp [SearchState.store, SearchState.alloc]
      have := h3.compare (E := E) hlen (by have := h.ptr; omega) hfin ht1
      revert this
      generalize compareAccs E s3 t s.heap.length = a
      generalize Climb.judge E { c with cur := E.grad c.steps nfold c.cur, steps := c.steps + 1 } c.cur.clone = b
      obtain ⟨s', t'⟩ := a
      obtain ⟨c', ok⟩ := b
      cases t' with
      | none =>
        cases ok with
        | false => intro this; exact ⟨rfl, this, fun h => by cases h⟩
        | true => exact False.elim
      | some t' =>
        cases ok with
        | false => exact False.elim
        | true => intro this; exact ih this 0

theorem searchFrom_climb {E : SearchEnv F} {nfold : Int} {s : SearchState F} {c : Climb F} (h : Between s c) (init : Options F) :
    (searchFrom E nfold s init).2 = (c.start E nfold init).2 ∧
    SameBooks (searchFrom E nfold s init).1 (c.start E nfold init).1 ∧
    ((c.start E nfold init).2 = true → Between (searchFrom E nfold s init).1 (c.start E nfold init).1) := by
  unfold searchFrom Climb.start
  simp only
  have hb : Between ((s.alloc init).alloc init.clone) c := by
    refine ⟨⟨h.best, h.accs, h.calls, h.steps, h.fuzzes, h.writes⟩, ?_, ?_⟩
    · intro f hf
      have := h.range f hf
      simp [SearchState.alloc]
      omega
    · rw [← h.kept]
      show s.final.map _ = s.final.map _
      cases hs : s.final with
      | none => rfl
      | some f =>
        have := h.range f hs
        simp only [Option.map_some, Option.some.injEq]
        rw [deref_alloc_if, if_neg (by simp [SearchState.alloc]; omega), deref_alloc_if, if_neg (by omega)]
  have nofin : ∀ k, s.heap.length ≤ k → s.final ≠ some k := fun k hk hf => by have := h.range k hf; omega
  have h1 := hb.goOn (t := s.heap.length) (o := init) (by simp [SearchState.alloc])
    (by rw [deref_alloc_if, if_neg (by simp [SearchState.alloc]), deref_alloc_if, if_pos rfl]) (nofin _ le_rfl)
  have := h1.compare (E := E) (tprev := s.heap.length + 1) (before := init.clone) (by simp [SearchState.alloc]) (by omega) (nofin _ (by omega))
    (by rw [deref_alloc_if, if_pos (by simp [SearchState.alloc])])
  revert this
  generalize compareAccs E ((s.alloc init).alloc init.clone) s.heap.length (s.heap.length + 1) = a
  generalize Climb.judge E (c.goOn init) init.clone = b
  obtain ⟨s', t'⟩ := a
  obtain ⟨c', ok⟩ := b
  cases t' with
  | none =>
    cases ok with
    | false => intro this; exact ⟨rfl, this, fun h => by cases h⟩
    | true => exact False.elim
  | some t' =>
    cases ok with
    | false => exact False.elim
    | true => intro this; exact searchSteps_climb _ this 0

theorem searchAll_climb {E : SearchEnv F} {nfold : Int} (inits : List (Options F)) {s : SearchState F} {c : Climb F} (h : Between s c) :
    (searchAll E nfold inits s).2 = (climbAll E nfold inits c).2 ∧
    SameBooks (searchAll E nfold inits s).1 (climbAll E nfold inits c).1 ∧
    ((climbAll E nfold inits c).2 = true → Between (searchAll E nfold inits s).1 (climbAll E nfold inits c).1) := by
  induction inits generalizing s c with
  | nil => exact ⟨rfl, h.toSameBooks, fun _ => h⟩
  | cons init inits ih =>
    unfold searchAll climbAll
    have := searchFrom_climb (E := E) (nfold := nfold) h init
    revert this
    generalize searchFrom E nfold s init = a
    generalize Climb.start E nfold c init = b
    obtain ⟨s', ok⟩ := a
    obtain ⟨c', ok'⟩ := b
    rintro ⟨h1, h2, h3⟩
    simp only at h1 h2 h3
    subst h1
    cases ok with
    | false => exact ⟨rfl, h2, fun h => by cases h⟩
    | true => exact ih (h3 rfl)

/-- **C119**: the gradient search from any starting points makes the cross-validations of the hill climbing of `Spec/Climb` in the same
order, with the same options, notes the same accuracies, writes the same files and returns what it returns. -/
theorem C119_search (E : SearchEnv F) (nfold : Int) (inits : List (Options F)) :
    searchRet (searchAll E nfold inits searchStart) = climbRet (climbAll E nfold inits climbStart) ∧
    (searchAll E nfold inits searchStart).1.calls = (climbAll E nfold inits climbStart).1.calls ∧
    (searchAll E nfold inits searchStart).1.writes = (climbAll E nfold inits climbStart).1.writes := by
  obtain ⟨h1, h2, h3⟩ := searchAll_climb (E := E) (nfold := nfold) inits (s := searchStart) (c := climbStart)
    ⟨⟨rfl, rfl, rfl, rfl, rfl, rfl⟩, (fun f hf => by cases hf), rfl⟩
  refine ⟨?_, h2.calls, h2.writes⟩
  revert h1 h2 h3
  generalize searchAll E nfold inits searchStart = a
  generalize climbAll E nfold inits climbStart = b
  obtain ⟨s', ok⟩ := a
  obtain ⟨c', ok'⟩ := b
  intro h1 h2 h3
  simp only at h1 h2 h3
  subst h1
  cases ok with
  | false => rfl
  | true =>
    unfold searchRet climbRet
    simp only [h2.best, h2.accs, (h3 rfl).kept]
    cases c'.kept with
    | none => rfl
    | some k => cases k <;> rfl

/-- **C119, `GradientGrid`** -/
theorem C119_gradientGrid (fuel : Nat) (E : SearchEnv F) (nfold : Int) :
    gradientGrid fuel E nfold =
      (gradientInits fuel E.o).map fun inits => climbRet (climbAll E nfold inits climbStart) := by
  unfold gradientGrid
  congr 1
  funext inits
  exact (C119_search E nfold inits).1

/-- **C119, `HybridGradientGrid`** -/
theorem C119_hybridGrid (fuel : Nat) (E : SearchEnv F) (nfold : Int) :
    hybridGrid fuel E nfold =
      (hybridInits fuel E.o).map fun inits => climbRet (climbAll E nfold inits climbStart) := by
  unfold hybridGrid
  congr 1
  funext inits
  exact (C119_search E nfold inits).1

/-- three gradient steps; each adds 1 to Lambda; the first cross-validation reports 50, the second 40 and all later ones 60 -/
def climbEnv : SearchEnv F64 where
  o := { defaultXGridOptions with nSteps := 3 }
  cv := fun i _ _ => ⟨false, if i = 0 then .fin 50 else if i = 1 then .fin 40 else .fin 60⟩
  grad := fun _ _ O => { O with lambda := O.lambda +. .fin 1 }
  draws := fun _ _ => (.fin 0, 0)

/-- The step to Lambda 2 was bad, so the search goes back to 1 and tries again. What is returned is nevertheless 3, the value
that was cross-validated last: the point with the best accuracy, the second 2, was changed in place (C57). -/
example :
    ((climbAll climbEnv 5 [{ defaultXOptions 0 with lambda := .fin 1 }] climbStart).1.calls.map fun q => (q.1.lambda, q.2.acc)) =
      [(.fin 1, .fin 50), (.fin 2, .fin 40), (.fin 2, .fin 60), (.fin 3, .fin 60)] ∧
    (climbRet (climbAll climbEnv 5 [{ defaultXOptions 0 with lambda := .fin 1 }] climbStart)).accs = [.fin 50, .fin 60] ∧
    (climbRet (climbAll climbEnv 5 [{ defaultXOptions 0 with lambda := .fin 1 }] climbStart)).opts.map (·.lambda) = some (.fin 3) := by
  decide +kernel

end Boo
