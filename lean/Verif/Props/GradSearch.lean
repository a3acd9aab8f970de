import Verif.Props.Grad
import Verif.Lemmas.B64

/-!
# C56–C58, C62, C63, C69: gradient searches
-/

namespace Boo
open GoFloat Relation
set_option linter.unusedSectionVars false
variable {F : Type} [GoFloat F]

/-! ### Invariants of the searches -/

/-- What does not change the results so far keeps `P`, and so do the comparisons. -/
structure Kept (E : SearchEnv F) (P : SearchState F → Prop) : Prop where
  frame : ∀ s s' : SearchState F, s'.best = s.best → s'.accs = s.accs → s'.final = s.final → s'.calls = s.calls →
    s'.writes = s.writes → P s → P s'
  compare : ∀ s t tprev, P s → P (compareAccs E s t tprev).1

theorem searchSteps_kept {E : SearchEnv F} {P : SearchState F → Prop} (hP : Kept E P) (nfold : Int) :
    ∀ (n : Nat) (s : SearchState F) (t strikes : Nat), P s → P (searchSteps E nfold n s t strikes).1 := by
  intro n
  induction n with
  | zero => intro s t strikes h; exact h
  | succ n ih =>
    intro s t strikes h
    unfold searchSteps
    simp only
    split
    · split
      · exact hP.frame s _ rfl rfl rfl rfl rfl h
      · exact ih _ _ _ (hP.frame s _ rfl rfl rfl rfl rfl h)
    · have h1 := hP.compare _ t s.heap.length (hP.frame s
        ({ (s.alloc (s.deref t).clone).store t (E.grad (s.alloc (s.deref t).clone).steps nfold
          ((s.alloc (s.deref t).clone).deref t)) with steps := (s.alloc (s.deref t).clone).steps + 1 }) rfl rfl rfl rfl rfl h)
      split
      · rename_i heq
        rw [heq] at h1
        exact h1
      · rename_i heq
        rw [heq] at h1
        exact ih _ _ _ h1

theorem searchFrom_kept {E : SearchEnv F} {P : SearchState F → Prop} (hP : Kept E P) (nfold : Int) (s : SearchState F)
    (init : Options F) (h : P s) : P (searchFrom E nfold s init).1 := by
  unfold searchFrom
  simp only
  have h1 := hP.compare _ s.heap.length (s.heap.length + 1)
    (hP.frame s ((s.alloc init).alloc init.clone) rfl rfl rfl rfl rfl h)
  split
  · rename_i heq
    rw [heq] at h1
    exact h1
  · rename_i heq
    rw [heq] at h1
    exact searchSteps_kept hP nfold _ _ _ _ h1

theorem searchAll_kept {E : SearchEnv F} {P : SearchState F → Prop} (hP : Kept E P) (nfold : Int) :
    ∀ (inits : List (Options F)) (s : SearchState F), P s → P (searchAll E nfold inits s).1 := by
  intro inits
  induction inits with
  | nil => intro s h; exact h
  | cons init inits ih =>
    intro s h
    have h1 := searchFrom_kept hP nfold s init h
    unfold searchAll
    split
    · rename_i heq
      rw [heq] at h1
      exact h1
    · rename_i heq
      rw [heq] at h1
      exact ih _ h1

/-! ### C56 -/

structure AccInv (s : SearchState F) : Prop where
  sorted : s.accs.Pairwise fun a b => (a <. b) = true
  le : ∀ a ∈ s.accs, a = s.best ∨ (a <. s.best) = true
  pos : ∀ a ∈ s.accs, (zero <. a) = true
  none : s.accs = [] → s.best = zero ∧ s.final = none
  last : ∀ a, s.accs.getLast? = some a → s.best = a ∧ s.final.isSome = true

theorem accInv_kept [GoFloatOrd F] (E : SearchEnv F) : Kept E AccInv := by
  constructor
  · intro s s' h1 h2 h3 _ _ h
    exact ⟨by rw [h2]; exact h.sorted, by rw [h1, h2]; exact h.le, by rw [h2]; exact h.pos,
      by rw [h1, h2, h3]; exact h.none, by rw [h1, h2, h3]; exact h.last⟩
  · intro s t tprev h
    unfold compareAccs
    simp only
    split
    · exact ⟨h.sorted, h.le, h.pos, h.none, h.last⟩
    · split
      · exact ⟨h.sorted, h.le, h.pos, h.none, h.last⟩
      · split
        · rename_i hgt
          have hgt' : (s.best <. (E.cv s.calls.length 5 (s.deref t)).acc) = true := hgt
          have hlt : ∀ a ∈ s.accs, (a <. (E.cv s.calls.length 5 (s.deref t)).acc) = true := by
            intro a ha
            rcases h.le a ha with rfl | h'
            · exact hgt'
            · exact GoFloatOrd.lt_trans _ _ _ h' hgt'
          constructor
          · show (s.accs ++ [_]).Pairwise _
            rw [List.pairwise_append]
            refine ⟨h.sorted, List.pairwise_singleton _ _, fun a ha b hb => ?_⟩
            rw [List.mem_singleton] at hb
            subst hb
            exact hlt a ha
          · intro a ha
            have ha' : a ∈ s.accs ++ [(E.cv s.calls.length 5 (s.deref t)).acc] := ha
            rw [List.mem_append, List.mem_singleton] at ha'
            exact ha'.elim (fun h => Or.inr (hlt a h)) Or.inl
          · intro a ha
            have ha' : a ∈ s.accs ++ [(E.cv s.calls.length 5 (s.deref t)).acc] := ha
            rw [List.mem_append, List.mem_singleton] at ha'
            rcases ha' with ha' | rfl
            · exact h.pos a ha'
            · by_cases hn : s.accs = []
              · rw [← (h.none hn).1]; exact hgt'
              · obtain ⟨a, ha⟩ := List.exists_mem_of_ne_nil _ hn
                exact GoFloatOrd.lt_trans _ _ _ (h.pos a ha) (hlt a ha)
          · intro hn
            have hn' : s.accs ++ [(E.cv s.calls.length 5 (s.deref t)).acc] = [] := hn
            simp at hn'
          · intro a ha
            have ha' : (s.accs ++ [(E.cv s.calls.length 5 (s.deref t)).acc]).getLast? = some a := ha
            simp only [List.getLast?_append, List.getLast?_singleton, Option.some_or, Option.some.injEq] at ha'
            exact ⟨ha', rfl⟩
        · exact ⟨h.sorted, h.le, h.pos, h.none, h.last⟩

/-- `ret` is what one of the two gradient searches returns. -/
def SearchReturns (fuel : Nat) (E : SearchEnv F) (nfold : Int) (ret : GridRet F) : Prop :=
  gradientGrid fuel E nfold = some ret ∨ hybridGrid fuel E nfold = some ret

/-- **C56**: the accuracies increase strictly and the last is the best accuracy returned; without accuracies the best is 0
and there are no options; with an error there is nothing but -1. -/
theorem C56_accuracies [GoFloatOrd F] (fuel : Nat) (E : SearchEnv F) (nfold : Int) (ret : GridRet F)
    (h : SearchReturns fuel E nfold ret) :
    (ret.err = false → ret.accs.Pairwise (fun a b => (a <. b) = true) ∧ (∀ a ∈ ret.accs, (zero <. a) = true) ∧
      (ret.accs = [] → ret.acc = zero ∧ ret.opts = none) ∧
      (∀ a, ret.accs.getLast? = some a → ret.acc = a ∧ ret.opts.isSome = true)) ∧
    (ret.err = true → ret.acc = ofRat (-1) ∧ ret.accs = [] ∧ ret.opts = none) := by
  have key : ∀ inits, (searchRet (searchAll E nfold inits searchStart)) = ret → (ret.err = false →
      ret.accs.Pairwise (fun a b => (a <. b) = true) ∧ (∀ a ∈ ret.accs, (zero <. a) = true) ∧
      (ret.accs = [] → ret.acc = zero ∧ ret.opts = none) ∧
      (∀ a, ret.accs.getLast? = some a → ret.acc = a ∧ ret.opts.isSome = true)) ∧
      (ret.err = true → ret.acc = ofRat (-1) ∧ ret.accs = [] ∧ ret.opts = none) := by
    intro inits hr
    have hi : AccInv (searchAll E nfold inits searchStart).1 :=
      searchAll_kept (accInv_kept E) nfold inits searchStart
        ⟨List.Pairwise.nil, by simp [searchStart], by simp [searchStart], fun _ => ⟨rfl, rfl⟩, by simp [searchStart]⟩
    subst hr
    cases hs : searchAll E nfold inits searchStart with
    | mk s b =>
      rw [hs] at hi
      cases b with
      | false => exact ⟨fun h => (by cases h), fun _ => ⟨rfl, rfl, rfl⟩⟩
      | true =>
        refine ⟨fun _ => ⟨hi.sorted, hi.pos, fun hn => ?_, fun a ha => ?_⟩, fun h => (by cases h)⟩
        · obtain ⟨h1, h2⟩ := hi.none hn
          exact ⟨h1, by show s.final.map _ = none; rw [show s.final = none from h2]; rfl⟩
        · obtain ⟨h1, h2⟩ := hi.last a ha
          exact ⟨h1, by show (s.final.map _).isSome = true; rw [Option.isSome_map]; exact h2⟩
  rcases h with h | h
  · obtain ⟨inits, _, h⟩ := Option.map_eq_some_iff.1 h
    exact key inits h
  · obtain ⟨inits, _, h⟩ := Option.map_eq_some_iff.1 h
    exact key inits h

/-! ### C57 -/

/-- the best accuracy was measured -/
def Measured (s : SearchState F) : Prop := s.accs ≠ [] → ∃ O, (O, ⟨false, s.best⟩) ∈ s.calls

theorem measured_kept (E : SearchEnv F) : Kept E Measured := by
  constructor
  · intro s s' h1 h2 _ h4 _ h
    unfold Measured
    rw [h1, h2, h4]
    exact h
  · intro s t tprev h
    have mono : ∀ c, (s.accs ≠ [] → ∃ O, (O, (⟨false, s.best⟩ : CVRes F)) ∈ s.calls ++ [c]) := fun c hn => by
      obtain ⟨O, hO⟩ := h hn
      exact ⟨O, List.mem_append_left _ hO⟩
    unfold compareAccs
    simp only
    split
    · exact mono _
    · rename_i herr
      split
      · exact mono _
      · split
        · intro _
          refine ⟨s.deref t, ?_⟩
          show _ ∈ s.calls ++ [_]
          rw [List.mem_append, List.mem_singleton]
          right
          cases hr : E.cv s.calls.length 5 (s.deref t) with
          | mk e a =>
            rw [hr] at herr
            simp only [Bool.not_eq_true] at herr
            subst herr
            rfl
        · exact mono _

/-- the state at the end of a search; `calls` are the cross-validations it made to compare options -/
def searchEnd (E : SearchEnv F) (nfold : Int) (inits : List (Options F)) : SearchState F :=
  (searchAll E nfold inits searchStart).1

/-- **C57 (the accuracy)**: the best accuracy that is returned was measured by a cross-validation that did not fail. -/
theorem C57_accuracy_measured (fuel : Nat) (E : SearchEnv F) (nfold : Int) (ret : GridRet F)
    (h : SearchReturns fuel E nfold ret) (hne : ret.accs ≠ []) :
    ∃ inits, (gradientInits fuel E.o = some inits ∨ hybridInits fuel E.o = some inits) ∧
      ∃ O, (O, ⟨false, ret.acc⟩) ∈ (searchEnd E nfold inits).calls := by
  have key : ∀ inits, (searchRet (searchAll E nfold inits searchStart)) = ret →
      ∃ O, (O, ⟨false, ret.acc⟩) ∈ (searchEnd E nfold inits).calls := by
    intro inits hr
    have hi := searchAll_kept (measured_kept E) nfold inits searchStart (by intro h; exact absurd rfl h)
    unfold searchEnd
    cases hs : searchAll E nfold inits searchStart with
    | mk s b =>
      rw [hs] at hi hr
      subst hr
      cases b with
      | false => exact absurd rfl hne
      | true => exact hi hne
  rcases h with h | h
  · obtain ⟨inits, hi, h⟩ := Option.map_eq_some_iff.1 h
    exact ⟨inits, Or.inl hi, key inits h⟩
  · obtain ⟨inits, hi, h⟩ := Option.map_eq_some_iff.1 h
    exact ⟨inits, Or.inr hi, key inits h⟩

/-- the recorded options are as they were when measured, and are one of `inits` -/
structure FinalInv (inits : List (Options F)) (s : SearchState F) : Prop where
  final : ∀ ptr, s.final = some ptr → ∃ O ∈ inits, (O, ⟨false, s.best⟩) ∈ s.calls ∧ s.heap[ptr]? = some O.fixMcw

theorem searchFrom_final {E : SearchEnv F} (hn : E.o.nSteps ≤ 0) (nfold : Int) {inits : List (Options F)} {s : SearchState F}
    {init : Options F} (hi : init ∈ inits) (h : FinalInv inits s) : FinalInv inits (searchFrom E nfold s init).1 := by
  have hz : E.o.nSteps.toNat = 0 := by omega
  have hderef : ∀ s' : SearchState F, s'.heap = s.heap ++ [init] ++ [init.clone] → s'.deref s.heap.length = init := by
    intro s' h
    unfold SearchState.deref
    rw [h]
    simp
  have old : ∀ (ptr : Nat) O, s.heap[ptr]? = some O → ∀ (o o' : Options F),
      (s.heap ++ [o] ++ [o'])[ptr]? = some O := by
    intro ptr O h o o'
    obtain ⟨hlt, _⟩ := List.getElem?_eq_some_iff.1 h
    rw [List.append_assoc, List.getElem?_append_left hlt, h]
  have hset : ∀ (o : Options F), (s.heap ++ [init] ++ [init.clone]).set s.heap.length o = s.heap ++ [o] ++ [init.clone] := by
    intro o
    rw [List.append_assoc, List.append_assoc, List.set_append_right _ _ (le_refl _)]
    simp
  have hset' : ∀ (o o' : Options F), (s.heap ++ [o] ++ [init.clone]).set (s.heap.length + 1) o' = s.heap ++ [o] ++ [o'] := by
    intro o o'
    rw [List.set_append_right _ _ (by simp)]
    simp
  unfold searchFrom
  simp only
  have hcmp : FinalInv inits (compareAccs E ((s.alloc init).alloc init.clone) s.heap.length (s.heap.length + 1)).1 := by
    unfold compareAccs
    simp only
    rw [hderef _ rfl]
    have hd1 : SearchState.deref { (s.alloc init).alloc init.clone with
        calls := s.calls ++ [(init, E.cv s.calls.length 5 init)] } s.heap.length = init := hderef _ rfl
    have keep : ∀ (c : Options F × CVRes F) (heap : List (Options F)) (o o' : Options F), heap = s.heap ++ [o] ++ [o'] →
        ∀ ptr, s.final = some ptr →
          ∃ O ∈ inits, (O, (⟨false, s.best⟩ : CVRes F)) ∈ s.calls ++ [c] ∧ heap[ptr]? = some O.fixMcw := by
      intro c heap o o' hh ptr hp
      obtain ⟨O, h1, h2, h3⟩ := h.final ptr hp
      exact ⟨O, h1, List.mem_append_left _ h2, by rw [hh]; exact old ptr _ h3 o o'⟩
    split
    · exact ⟨keep _ _ _ _ rfl⟩
    · rename_i herr
      split
      · exact ⟨keep _ _ _ _ (by
          show ((s.heap ++ [init] ++ [init.clone]).set s.heap.length _).set (s.heap.length + 1) _ = _
          rw [hset, hset'])⟩
      · split
        · refine ⟨fun ptr hp => ?_⟩
          simp only [Option.some.injEq] at hp
          subst hp
          refine ⟨init, hi, ?_, ?_⟩
          · show _ ∈ s.calls ++ [_]
            rw [List.mem_append, List.mem_singleton]
            right
            cases hr : E.cv s.calls.length 5 init with
            | mk e a =>
              have herr' : (E.cv s.calls.length 5 init).err = false := Bool.eq_false_of_not_eq_true herr
              rw [hr] at herr'
              simp only at herr'
              subst herr'
              have : (E.cv ((s.alloc init).alloc init.clone).calls.length 5 init) = ⟨false, a⟩ := hr
              simp only [this]
          · show ((s.heap ++ [init] ++ [init.clone]).set s.heap.length _)[s.heap.length]? = _
            rw [hset]
            have : SearchState.deref { (s.alloc init).alloc init.clone with
              calls := ((s.alloc init).alloc init.clone).calls ++ [(init, E.cv ((s.alloc init).alloc init.clone).calls.length 5 init)] }
              s.heap.length = init := hderef _ rfl
            rw [this]
            simp
        · exact ⟨keep _ _ _ _ (by
            show ((s.heap ++ [init] ++ [init.clone]).set s.heap.length _) = _
            rw [hset])⟩
  split
  · rename_i heq
    rw [heq] at hcmp
    exact hcmp
  · rename_i heq
    rw [heq] at hcmp
    rw [hz]
    exact hcmp

theorem searchAll_final {E : SearchEnv F} (hn : E.o.nSteps ≤ 0) (nfold : Int) (all : List (Options F)) :
    ∀ (inits : List (Options F)) (s : SearchState F), (∀ O ∈ inits, O ∈ all) → FinalInv all s →
      FinalInv all (searchAll E nfold inits s).1 := by
  intro inits
  induction inits with
  | nil => intro s _ h; exact h
  | cons init inits ih =>
    intro s hsub h
    have h1 := searchFrom_final hn nfold (hsub init List.mem_cons_self) h
    unfold searchAll
    split
    · rename_i heq
      rw [heq] at h1
      exact h1
    · rename_i heq
      rw [heq] at h1
      exact ih _ (fun O hO => hsub O (List.mem_cons_of_mem _ hO)) h1

/-- **C57 (partial)**: if no gradient steps are asked for (`NSteps` ≤ 0), the returned options are one of the starting
points, with `MinChildWeight` raised to at least 1 as the cross-validation does, and the returned accuracy was measured
for it. Missing: searches that make steps, see `C57_violated`. -/
theorem C57_partial (fuel : Nat) (E : SearchEnv F) (hn : E.o.nSteps ≤ 0) (nfold : Int) (ret : GridRet F)
    (h : SearchReturns fuel E nfold ret) (O' : Options F) (hO : ret.opts = some O') :
    ∃ inits, (gradientInits fuel E.o = some inits ∨ hybridInits fuel E.o = some inits) ∧
      ∃ O ∈ inits, (O, ⟨false, ret.acc⟩) ∈ (searchEnd E nfold inits).calls ∧ O' = O.fixMcw := by
  have key : ∀ inits, (searchRet (searchAll E nfold inits searchStart)) = ret →
      ∃ O ∈ inits, (O, ⟨false, ret.acc⟩) ∈ (searchEnd E nfold inits).calls ∧ O' = O.fixMcw := by
    intro inits hr
    have hi := searchAll_final hn nfold inits inits searchStart (fun _ h => h) ⟨fun ptr h => by cases h⟩
    unfold searchEnd
    cases hs : searchAll E nfold inits searchStart with
    | mk s b =>
      rw [hs] at hi hr
      subst hr
      cases b with
      | false => cases hO
      | true =>
        obtain ⟨ptr, hp, hd⟩ := Option.map_eq_some_iff.1 (show s.final.map s.deref = some O' from hO)
        obtain ⟨O, h1, h2, h3⟩ := hi.final ptr hp
        refine ⟨O, h1, h2, ?_⟩
        rw [← hd]
        unfold SearchState.deref
        rw [show s.heap[ptr]? = some O.fixMcw from h3]
        rfl
  rcases h with h | h
  · obtain ⟨inits, hi, h⟩ := Option.map_eq_some_iff.1 h
    exact ⟨inits, Or.inl hi, key inits h⟩
  · obtain ⟨inits, hi, h⟩ := Option.map_eq_some_iff.1 h
    exact ⟨inits, Or.inr hi, key inits h⟩

/-- a search over one starting point with `n` steps; `g` is the range of the sampling fraction -/
def oneStart (n : Int) (g : Range3 (Exact ℚ)) : GridOptions (Exact ℚ) :=
  { (defaultXGridOptions : GridOptions (Exact ℚ)) with
    minChildWeight := ⟨.fin 3, .fin 3, .fin 1⟩, maxDepth := ⟨3, 3, 1⟩, nSteps := n, subSample := g }

/-- accuracy 90 with gamma 0.25, 50 with a larger gamma, 10 with a smaller one -/
def peakAcc (O : Options (Exact ℚ)) : ℚ :=
  match O.gamma with
  | .fin g => if g = 1/4 then 90 else if 1/4 < g then 50 else 10
  | _ => 0

/-- the gradient step of a search whose accuracies are given by a function of the options -/
def gradEnvOf (o : GridOptions (Exact ℚ)) (acc : Options (Exact ℚ) → ℚ) : GradEnv (Exact ℚ) :=
  { co := o, step := o.step, fd := o.deltaFraction, central := o.central,
    plus := fun _ O => ⟨false, .fin (acc O)⟩, minus := fun _ O => ⟨false, .fin (acc O)⟩ }

/-- a search with these accuracies; the gradient step makes gamma 0.2525 -/
def peakSearch : SearchEnv (Exact ℚ) :=
  { o := oneStart 1 ⟨.fin (6/10), .fin (9/10), .fin (1/10)⟩, cv := fun _ _ O => ⟨false, .fin (peakAcc O)⟩,
    grad := fun _ _ O => { O with gamma := .fin (2525/10000) }, draws := fun _ _ => (.fin (1/2), 1) }

/-- the starting point of the witnesses -/
def startPoint (o : GridOptions (Exact ℚ)) : Options (Exact ℚ) :=
  { setSomeOptionsToMid (baseOptions o) o with maxDepth := 3, minChildWeight := .fin 3, xgb := o.xgb }

theorem Options.ext {F : Type} {A B : Options F} (h1 : A.xgb = B.xgb) (h2 : A.rounds = B.rounds)
    (h3 : A.maxDepth = B.maxDepth) (h4 : A.earlyStop = B.earlyStop) (h5 : A.learningRate = B.learningRate)
    (h6 : A.lambda = B.lambda) (h7 : A.minChildWeight = B.minChildWeight) (h8 : A.gamma = B.gamma)
    (h9 : A.subSample = B.subSample) (h10 : A.colSubSample = B.colSubSample) (h11 : A.baseScore = B.baseScore)
    (h12 : A.minSample = B.minSample) (h13 : A.treeMethod = B.treeMethod) (h14 : A.verbose = B.verbose)
    (h15 : A.loss = B.loss) : A = B := by
  cases A; cases B; simp_all

theorem oneStart_inits (n : Int) (g : Range3 (Exact ℚ)) :
    gradientInits 3 (oneStart n g) = some [startPoint (oneStart n g)] := by
  have h1 : (oneStart n g).minChildWeight.floats 3 = some [.fin 3] := by
    show (⟨.fin 3, .fin 3, .fin 1⟩ : Range3 (Exact ℚ)).floats 3 = some [.fin 3]
    decide +kernel
  have h2 : (oneStart n g).maxDepth.ints 3 = some [3] := by
    show (⟨3, 3, 1⟩ : Range3 Int).ints 3 = some [3]
    decide +kernel
  unfold gradientInits
  rw [h1, h2]
  rfl

/-- **C57 violated**: the accuracy is a function of the options, and the gradient step is one that `GradStep` can make with
these accuracies. The starting point is recorded with accuracy 90. The step then changes the recorded options, as they
are the same object; it is rejected as its accuracy is 50. The search returns 90 and options whose accuracy is 50. -/
theorem C57_violated : ∃ ret O',
    gradientGrid 3 peakSearch 5 = some ret ∧ ret.err = false ∧ ret.acc = .fin 90 ∧ ret.opts = some O' ∧ peakAcc O' = 50 ∧
    gradientInits 3 peakSearch.o = some [startPoint peakSearch.o] ∧
    (∀ k nfold O, peakSearch.cv k nfold O = ⟨false, .fin (peakAcc O)⟩) ∧
    GradReturns 20 (gradEnvOf peakSearch.o peakAcc) (fun O => ⟨false, .fin (peakAcc O)⟩) (startPoint peakSearch.o)
      (peakSearch.grad 0 5 (startPoint peakSearch.o)) := by
  have h1 : ((gradientGrid 3 peakSearch 5).map fun r => (r.err, r.acc, r.opts.map peakAcc)) =
      some (false, .fin 90, some 50) := by decide +kernel
  obtain ⟨ret, hr, h1⟩ := Option.map_eq_some_iff.1 h1
  simp only [Prod.mk.injEq] at h1
  obtain ⟨e1, e2, e3⟩ := h1
  obtain ⟨O', hO, e3⟩ := Option.map_eq_some_iff.1 e3
  refine ⟨ret, O', hr, e1, e2, hO, e3, oneStart_inits _ _, fun _ _ _ => rfl, ?_⟩
  obtain ⟨s, g1, g2, g3⟩ := grad_exec 20 (gradEnvOf peakSearch.o peakAcc) zero (startPoint peakSearch.o) (fun _ => false) (by
    intro p; cases p <;> decide +kernel)
  refine ⟨s, g1, g2, ?_⟩
  rw [g3]
  exact Options.ext rfl (by decide +kernel) rfl rfl (by decide +kernel) (by decide +kernel) rfl (by decide +kernel)
    (by decide +kernel) (by decide +kernel) rfl rfl rfl rfl rfl

/-- two starting points with accuracies 40 and 60 that the search records one after the other, without steps -/
def twoStarts : SearchEnv (Exact ℚ) :=
  { peakSearch with
    o := { oneStart 0 ⟨.fin (6/10), .fin (9/10), .fin (1/10)⟩ with maxDepth := ⟨3, 4, 1⟩ }
    cv := fun _ _ O => ⟨false, .fin (20 * O.maxDepth - 20)⟩ }

/-- the hypotheses of C56 and C57 are met by it -/
example : ∃ ret O', SearchReturns 4 twoStarts 5 ret ∧ ret.accs = [.fin 40, .fin 60] ∧ ret.acc = .fin 60 ∧
    ret.opts = some O' ∧ O'.maxDepth = 4 ∧ twoStarts.o.nSteps ≤ 0 := by
  have h1 : ((gradientGrid 4 twoStarts 5).map fun r => (r.accs, r.acc, r.opts.map (·.maxDepth))) =
      some ([.fin 40, .fin 60], .fin 60, some 4) := by decide +kernel
  obtain ⟨ret, hr, h1⟩ := Option.map_eq_some_iff.1 h1
  simp only [Prod.mk.injEq] at h1
  obtain ⟨e1, e2, e3⟩ := h1
  obtain ⟨O', hO, e3⟩ := Option.map_eq_some_iff.1 e3
  exact ⟨ret, O', Or.inl hr, e1, e2, hO, e3, by decide⟩

/-! ### C62 -/

/-- **C62 (ints)**: Go's truncated mean of two ints is between them. -/
theorem C62_int (lo hi : Int) (h : lo ≤ hi) : lo ≤ avint lo hi ∧ avint lo hi ≤ hi := by
  unfold avint
  have h1 := Int.mul_tdiv_add_tmod (lo + hi) 2
  have h2 : -2 < (lo + hi).tmod 2 := Int.lt_tmod_of_pos _ (by norm_num)
  have h3 : (lo + hi).tmod 2 < 2 := Int.tmod_lt_of_pos _ (by norm_num)
  by_cases h4 : 0 ≤ lo + hi
  · have := Int.tmod_nonneg 2 h4
    omega
  · have : (lo + hi).tmod 2 ≤ 0 := by
      have h5 := Int.tmod_nonneg 2 (a := -(lo + hi)) (by omega)
      rw [Int.neg_tmod] at h5
      omega
    omega

/-- **C62 (binary64)**: the computed mean of two binary64 numbers of size at most 2^1022 is between them. -/
theorem C62_mid_binary64 (lo hi : ℚ) (hlo : Rep64 lo) (hhi : Rep64 hi) (h : lo ≤ hi)
    (h1 : |lo| ≤ 2 ^ (1022 : Int)) (h2 : |hi| ≤ 2 ^ (1022 : Int)) :
    ∃ m : ℚ, av (.fin lo : F64) (.fin hi) = .fin m ∧ lo ≤ m ∧ m ≤ hi := by
  unfold av
  rcases h.lt_or_eq with h | rfl
  · obtain ⟨m, hm, h3, h4, _⟩ := mid64 hlo hhi h h1 h2
    exact ⟨m, hm, h3, h4⟩
  · obtain ⟨hr, hlt⟩ := rep64_rv hlo
    refine ⟨lo, ?_, le_refl _, le_refl _⟩
    rw [ofRat64_two]
    show XF.div (XF.round (lo + lo)) _ = _
    have e : rv (lo + lo) = 2 * lo := by rw [← two_mul]; exact rv_double hr
    rw [round64_fin (by
      rw [e, abs_mul, abs_two]
      calc 2 * |lo| ≤ 2 * 2 ^ (1022 : Int) := by linarith
        _ < 2 ^ (1024 : Int) := by
          rw [show (1024 : Int) = 1022 + 2 by norm_num, zpow_add₀ (by norm_num)]
          have h3 : (0 : ℚ) < 2 ^ (1022 : Int) := by positivity
          generalize (2 : ℚ) ^ (1022 : Int) = w at h3 ⊢
          have h4 : (2 : ℚ) ^ (2 : Int) = 4 := by norm_num
          rw [h4]
          linarith)]
    rw [e]
    simp only [XF.div]
    rw [if_neg (by norm_num), show 2 * lo / 2 = lo by ring, round64_fin (by
      rw [hr]
      exact hlt), hr]

/-- **C62 violated (binary64)**: near the largest float the sum overflows and the mean is infinite. -/
theorem C62_binary64_violated : Rep64 (2 ^ 1023) ∧ av (.fin (2 ^ 1023) : F64) (.fin (2 ^ 1023)) = .inf false ∧
    ¬ InF ⟨.fin (2 ^ 1023), .fin (2 ^ 1023), .fin 1⟩ (av (.fin (2 ^ 1023) : F64) (.fin (2 ^ 1023))) := by
  refine ⟨by unfold Rep64; decide +kernel, by decide +kernel, ?_⟩
  unfold InF
  decide +kernel

section Exact
variable {K : Type} [Field K] [LinearOrder K] [IsStrictOrderedRing K] [FloorRing K]

/-- finite ranges with their bounds in order -/
structure OrderedBox (co : GridOptions (Exact K)) : Prop where
  rounds : co.rounds.lo ≤ co.rounds.hi ∧ 0 ≤ co.rounds.step
  maxDepth : co.maxDepth.lo ≤ co.maxDepth.hi ∧ 0 ≤ co.maxDepth.step
  floats : ∀ r ∈ [co.learningRate, co.gamma, co.lambda, co.subSample, co.colSubSample, co.minChildWeight],
    ∃ lo hi step : K, r = ⟨.fin lo, .fin hi, .fin step⟩ ∧ lo ≤ hi ∧ 0 ≤ step

theorem av_in {r : Range3 (Exact K)} (h : ∃ lo hi step : K, r = ⟨.fin lo, .fin hi, .fin step⟩ ∧ lo ≤ hi ∧ 0 ≤ step) :
    InF r (av r.lo r.hi) := by
  obtain ⟨lo, hi, step, rfl, h, _⟩ := h
  rw [inF_exact]
  refine ⟨(lo + hi) / 2, ?_, by linarith, by linarith⟩
  unfold av
  rw [Exact.ofRat_fin, Exact.add_fin, Exact.div_fin _ _ (by norm_num)]
  push_cast
  rfl

theorem floatLoop_in {fuel : Nat} {lo x hi step : K} (hs : 0 ≤ step) (hx : lo ≤ x) {l : List (Exact K)}
    (h : floatLoop fuel (.fin x : Exact K) (.fin hi) (.fin step) = some l) :
    ∀ v ∈ l, ∃ q, v = XF.fin q ∧ lo ≤ q ∧ q ≤ hi := by
  induction fuel generalizing x l with
  | zero => cases h
  | succ fuel ih =>
    unfold floatLoop at h
    split at h
    · rename_i hle
      obtain ⟨l', hl', rfl⟩ := Option.map_eq_some_iff.1 h
      rw [Exact.add_fin] at hl'
      intro v hv
      rcases List.mem_cons.1 hv with rfl | hv
      · refine ⟨x, rfl, hx, ?_⟩
        rw [XF.le_def] at hle
        simpa [XF.lt, XF.eq, le_iff_lt_or_eq] using hle
      · exact ih (by linarith) hl' v hv
    · simp only [Option.some.injEq] at h
      subst h
      simp

/-- **C62 (exact arithmetic)**: the midpoint options are in the box. -/
theorem C62_midpoints (o : Options (Exact K)) (co : GridOptions (Exact K)) (h : OrderedBox co) :
    InBox co (setOptionsToMid o co) :=
  ⟨C62_int _ _ h.1.1, C62_int _ _ h.2.1, av_in (h.3 _ (by simp)), av_in (h.3 _ (by simp)), av_in (h.3 _ (by simp)),
    av_in (h.3 _ (by simp)), av_in (h.3 _ (by simp)), av_in (h.3 _ (by simp))⟩

/-- **C62 (exact arithmetic)**: all starting points of the two gradient searches are in the box. -/
theorem C62_starts (fuel : Nat) (co : GridOptions (Exact K)) (h : OrderedBox co) (inits : List (Options (Exact K)))
    (hi : gradientInits fuel co = some inits ∨ hybridInits fuel co = some inits) : ∀ O ∈ inits, InBox co O := by
  have range : ∀ r ∈ [co.learningRate, co.gamma, co.lambda, co.subSample, co.colSubSample, co.minChildWeight],
      ∀ l v, r.floats fuel = some l → v ∈ l → InF r v := by
    intro r hr l v hl hv
    obtain ⟨lo, hi, step, rfl, _, hs⟩ := h.3 r hr
    exact (inF_exact _ _ _ _).2 (floatLoop_in hs (le_refl _) hl v hv)
  have ints : ∀ (r : Range3 Int), 0 ≤ r.step → ∀ l v, r.ints fuel = some l → v ∈ l → r.lo ≤ v ∧ v ≤ r.hi :=
    fun r hs l v hl hv => ⟨intLoop_ge hs hl v hv, intLoop_le hl v hv⟩
  intro O hO
  rcases hi with hi | hi
  · obtain ⟨cw, ⟨lc, hlc, hcw⟩, l, hl, hO⟩ := (nest_mem hi O).1 hO
    obtain ⟨lm, hlm, rfl⟩ := Option.map_eq_some_iff.1 hl
    obtain ⟨md, hmd, rfl⟩ := List.mem_map.1 hO
    exact ⟨C62_int _ _ h.1.1, ints _ h.2.2 _ _ hlm hmd, av_in (h.3 _ (by simp)), av_in (h.3 _ (by simp)),
      av_in (h.3 _ (by simp)), av_in (h.3 _ (by simp)), av_in (h.3 _ (by simp)), range _ (by simp) _ _ hlc hcw⟩
  · obtain ⟨rounds, ⟨lr, hlr, hrounds⟩, l, hl, hO⟩ := (nest_mem hi O).1 hO
    obtain ⟨cw, ⟨lc, hlc, hcw⟩, l, hl, hO⟩ := (nest_mem hl O).1 hO
    obtain ⟨md, ⟨lm, hlm, hmd⟩, l, hl, hO⟩ := (nest_mem hl O).1 hO
    obtain ⟨ll, hll, rfl⟩ := Option.map_eq_some_iff.1 hl
    obtain ⟨lam, hlam, rfl⟩ := List.mem_map.1 hO
    have hla := range co.lambda (by simp) _ _ hll hlam
    refine ⟨?_, ints _ h.2.2 _ _ hlm hmd, av_in (h.3 _ (by simp)), av_in (h.3 _ (by simp)),
      ?_, av_in (h.3 _ (by simp)), av_in (h.3 _ (by simp)), range _ (by simp) _ _ hlc hcw⟩
    · have : avint (rounds - co.rounds.step) (rounds + co.rounds.step) = rounds := by
        unfold avint
        rw [show rounds - co.rounds.step + (rounds + co.rounds.step) = rounds * 2 by ring, Int.mul_tdiv_cancel _ (by norm_num)]
      show co.rounds.lo ≤ avint (rounds - co.rounds.step) (rounds + co.rounds.step) ∧
        avint (rounds - co.rounds.step) (rounds + co.rounds.step) ≤ co.rounds.hi
      rw [this]
      exact ints _ h.1.2 _ _ hlr hrounds
    · obtain ⟨lo, hi, step, hr, h1, h2⟩ := h.3 co.lambda (by simp)
      show InF co.lambda (av (lam -. co.lambda.step) (lam +. co.lambda.step))
      rw [hr] at hla ⊢
      obtain ⟨q, rfl, hq⟩ := (inF_exact _ _ _ _).1 hla
      rw [inF_exact]
      refine ⟨q, ?_, hq⟩
      unfold av
      rw [Exact.ofRat_fin, Exact.sub_fin, Exact.add_fin, Exact.add_fin, Exact.div_fin _ _ (by norm_num)]
      congr 1
      push_cast
      ring

/-! ### C58 -/

/-- **C58 (partial, exact arithmetic)**: without gradient steps the returned options are in the box (if it admits the
`MinChildWeight` that the cross-validation sets). Missing: searches that make steps, see `C58_violated`. -/
theorem C58_partial (fuel : Nat) (E : SearchEnv (Exact K)) (hn : E.o.nSteps ≤ 0) (hb : OrderedBox E.o)
    (hw : (one <=. E.o.minChildWeight.hi) = true) (nfold : Int) (ret : GridRet (Exact K))
    (h : SearchReturns fuel E nfold ret) (O' : Options (Exact K)) (hO : ret.opts = some O') : InBox E.o O' := by
  obtain ⟨inits, hi, O, hmem, _, rfl⟩ := C57_partial fuel E hn nfold ret h O' hO
  have hbox := C62_starts fuel E.o hb inits hi O hmem
  unfold Options.fixMcw
  split
  · rename_i hlt
    refine ⟨hbox.1, hbox.2, hbox.3, hbox.4, hbox.5, hbox.6, hbox.7, ?_⟩
    obtain ⟨lo, hi, step, hr, h1, h2⟩ := hb.3 E.o.minChildWeight (by simp)
    have hm := hbox.8
    show InF E.o.minChildWeight one
    rw [hr] at hw hm ⊢
    obtain ⟨x, hx, h3, h4⟩ := (inF_exact _ _ _ _).1 hm
    rw [hx] at hlt
    rw [inF_exact]
    have hlt' : x < 1 := by simpa [XF.lt_def, XF.lt] using hlt
    have hw' : 1 ≤ hi := by simpa [XF.le_def, XF.lt, XF.eq, le_iff_lt_or_eq] using hw
    refine ⟨1, by simp, by linarith, hw'⟩
  · exact hbox

end Exact

/-- the default box is ordered and admits child weight 1 -/
example : OrderedBox (defaultXGridOptions : GridOptions (Exact ℚ)) ∧
    (one <=. (defaultXGridOptions : GridOptions (Exact ℚ)).minChildWeight.hi) = true := by
  refine ⟨⟨by decide, by decide, ?_⟩, by decide +kernel⟩
  intro r hr
  simp only [List.mem_cons, List.not_mem_nil, or_false] at hr
  rcases hr with rfl | rfl | rfl | rfl | rfl | rfl <;> exact ⟨_, _, _, rfl, by norm_num, by norm_num⟩

/-- a search with constant accuracy, in which nothing moves, in a box with `SubSample` in [0.8, 0.8] -/
def flatSearch : SearchEnv (Exact ℚ) :=
  { o := oneStart 1 ⟨.fin (8/10), .fin (8/10), .fin (1/10)⟩, cv := fun _ _ _ => ⟨false, .fin 50⟩,
    grad := fun _ _ O => O, draws := fun _ _ => (.fin (1/2), 1) }

/-- **C58 violated**: the accuracy is always 50, so that the gradient step is one that `GradStep` can make. As nothing has
moved the options, which are those recorded as the best, are perturbed by 10%: `SubSample` is returned as 0.88 although
the box is [0.8, 0.8]. The accuracy is a function of the options. -/
theorem C58_violated : ∃ ret O',
    gradientGrid 3 flatSearch 5 = some ret ∧ ret.err = false ∧ ret.opts = some O' ∧ O'.subSample = .fin (88/100) ∧
    ¬ InBox flatSearch.o O' ∧ OrderedBox flatSearch.o ∧
    gradientInits 3 flatSearch.o = some [startPoint flatSearch.o] ∧
    GradReturns 20 (gradEnvOf flatSearch.o fun _ => 50) (fun _ => ⟨false, .fin 50⟩) (startPoint flatSearch.o)
      (flatSearch.grad 0 5 (startPoint flatSearch.o)) := by
  have h1 : ((gradientGrid 3 flatSearch 5).map fun r => (r.err, r.opts.map (·.subSample))) =
      some (false, some (.fin (88/100))) := by decide +kernel
  obtain ⟨ret, hr, h1⟩ := Option.map_eq_some_iff.1 h1
  simp only [Prod.mk.injEq] at h1
  obtain ⟨e1, e2⟩ := h1
  obtain ⟨O', hO, e2⟩ := Option.map_eq_some_iff.1 e2
  refine ⟨ret, O', hr, e1, hO, e2, ?_, ?_, oneStart_inits _ _, ?_⟩
  · intro h
    have := h.subSample.2
    rw [e2] at this
    revert this
    decide +kernel
  · refine ⟨by decide, by decide, ?_⟩
    intro r hr
    simp only [List.mem_cons, List.not_mem_nil, or_false] at hr
    rcases hr with rfl | rfl | rfl | rfl | rfl | rfl <;> exact ⟨_, _, _, rfl, by norm_num, by norm_num⟩
  · obtain ⟨s, g1, g2, g3⟩ := grad_exec 20 (gradEnvOf flatSearch.o fun _ => 50) zero (startPoint flatSearch.o)
      (fun _ => false) (by intro p; cases p <;> decide +kernel)
    refine ⟨s, g1, g2, ?_⟩
    rw [g3]
    exact Options.ext rfl (by decide +kernel) rfl rfl (by decide +kernel) (by decide +kernel) rfl (by decide +kernel)
      (by decide +kernel) (by decide +kernel) rfl rfl rfl rfl rfl

/-! What the gradient steps and the perturbations leave alone -/

/-- all option objects and all options measured so far have the property and the best options are one of the objects -/
structure HeapInv (P : Options F → Prop) (s : SearchState F) : Prop where
  all : ∀ o ∈ s.heap, P o
  final : ∀ ptr, s.final = some ptr → ptr < s.heap.length
  calls : ∀ c ∈ s.calls, P c.1

/-- every operation on options keeps the property -/
structure OptProp (E : SearchEnv F) (nfold : Int) (P : Options F → Prop) : Prop where
  clone : ∀ o, P o → P o.clone
  fixMcw : ∀ o, P o → P o.fixMcw
  grad : ∀ k o, P o → P (E.grad k nfold o)
  fuzz : ∀ d o q, P o → P (fuzzOptions d o q)

theorem HeapInv.deref {P : Options F → Prop} {s : SearchState F} (h : HeapInv P s) {t : Nat} (ht : t < s.heap.length) :
    P (s.deref t) := by
  unfold SearchState.deref
  rw [List.getElem?_eq_getElem ht]
  exact h.all _ (List.getElem_mem ht)

theorem HeapInv.store {P : Options F → Prop} {s : SearchState F} (h : HeapInv P s) (t : Nat) {o : Options F} (ho : P o) :
    HeapInv P (s.store t o) := by
  refine ⟨fun x hx => ?_, fun ptr hp => ?_, h.calls⟩
  · rcases List.mem_or_eq_of_mem_set hx with hx | rfl
    · exact h.all x hx
    · exact ho
  · show ptr < (s.heap.set t o).length
    rw [List.length_set]
    exact h.final ptr hp

theorem HeapInv.alloc {P : Options F → Prop} {s : SearchState F} (h : HeapInv P s) {o : Options F} (ho : P o) :
    HeapInv P (s.alloc o) := by
  refine ⟨fun x hx => ?_, fun ptr hp => ?_, h.calls⟩
  · rcases List.mem_append.1 hx with hx | hx
    · exact h.all x hx
    · rw [List.mem_singleton.1 hx]; exact ho
  · show ptr < (s.heap ++ [o]).length
    rw [List.length_append]
    have := h.final ptr hp
    omega

theorem HeapInv.fuzz {P : Options F → Prop} {E : SearchEnv F} {nfold : Int} (hP : OptProp E nfold P) {s : SearchState F}
    (h : HeapInv P s) {t : Nat} (ht : t < s.heap.length) (q : Option F) : HeapInv P (s.fuzz E t q) := by
  have := h.store t (hP.fuzz (E.draws s.fuzzes) _ q (h.deref ht))
  exact ⟨this.all, this.final, this.calls⟩

theorem compareAccs_heap {P : Options F → Prop} {E : SearchEnv F} {nfold : Int} (hP : OptProp E nfold P) {s : SearchState F}
    {t tprev : Nat} (h : HeapInv P s) (ht : t < s.heap.length) (htp : tprev < s.heap.length) :
    HeapInv P (compareAccs E s t tprev).1 ∧
    ∀ t', (compareAccs E s t tprev).2 = some t' → t' < (compareAccs E s t tprev).1.heap.length := by
  unfold compareAccs
  simp only
  have h1 : HeapInv P ({ s with calls := s.calls ++ [(s.deref t, E.cv s.calls.length 5 (s.deref t))] } : SearchState F) :=
    ⟨h.all, h.final, fun c hc => by
      rcases List.mem_append.1 hc with hc | hc
      · exact h.calls c hc
      · rw [List.mem_singleton.1 hc]; exact h.deref ht⟩
  split
  · exact ⟨h1, fun t' h => by cases h⟩
  · have h2 := h1.store t (hP.fixMcw _ (h1.deref ht))
    have hlen : ∀ o, (s.heap.set t o).length = s.heap.length := fun o => List.length_set
    split
    · refine ⟨h2.fuzz hP (by show tprev < (s.heap.set t _).length; rw [hlen]; exact htp) none, fun t' ht' => ?_⟩
      simp only [Option.some.injEq] at ht'
      subst ht'
      show tprev < ((s.heap.set t _).set tprev _).length
      rw [List.length_set, hlen]
      exact htp
    · split
      · refine ⟨⟨h2.all, fun ptr hp => ?_, h2.calls⟩, fun t' ht' => ?_⟩
        · simp only [Option.some.injEq] at hp
          subst hp
          show t < (s.heap.set t _).length
          rw [hlen]; exact ht
        · simp only [Option.some.injEq] at ht'
          subst ht'
          show t < (s.heap.set t _).length
          rw [hlen]; exact ht
      · refine ⟨h2, fun t' ht' => ?_⟩
        simp only [Option.some.injEq] at ht'
        subst ht'
        show t < (s.heap.set t _).length
        rw [hlen]; exact ht

theorem searchSteps_heap {P : Options F → Prop} {E : SearchEnv F} {nfold : Int} (hP : OptProp E nfold P) :
    ∀ (n : Nat) (s : SearchState F) (t strikes : Nat), HeapInv P s → t < s.heap.length →
      HeapInv P (searchSteps E nfold n s t strikes).1 := by
  intro n
  induction n with
  | zero => intro s t strikes h _; exact h
  | succ n ih =>
    intro s t strikes h ht
    unfold searchSteps
    simp only
    have h1 := h.alloc (hP.clone _ (h.deref ht))
    have ht1 : t < (s.alloc (s.deref t).clone).heap.length := by
      show t < (s.heap ++ [_]).length
      rw [List.length_append]; omega
    have h2 := h1.store t (hP.grad (s.alloc (s.deref t).clone).steps _ (h1.deref ht1))
    have h3 : HeapInv P ({ (s.alloc (s.deref t).clone).store t (E.grad (s.alloc (s.deref t).clone).steps nfold
          ((s.alloc (s.deref t).clone).deref t)) with steps := (s.alloc (s.deref t).clone).steps + 1 }) := ⟨h2.all, h2.final, h2.calls⟩
    have hlen : ∀ o, ((s.heap ++ [(s.deref t).clone]).set t o).length = s.heap.length + 1 := by
      intro o
      rw [List.length_set, List.length_append, List.length_singleton]
    split
    · have h4 := h3.fuzz hP (t := t) (by show t < ((s.heap ++ [(s.deref t).clone]).set t _).length; rw [hlen]; omega)
        (some (ofRat (2/10)))
      split
      · exact h4
      · refine ih _ _ _ h4 ?_
        show t < (((s.heap ++ [(s.deref t).clone]).set t _).set t _).length
        rw [List.length_set, hlen]; omega
    · have h4 := compareAccs_heap hP (t := t) (tprev := s.heap.length) h3
        (by show t < ((s.heap ++ [(s.deref t).clone]).set t _).length; rw [hlen]; omega)
        (by show s.heap.length < ((s.heap ++ [(s.deref t).clone]).set t _).length; rw [hlen]; omega)
      split
      · rename_i heq
        rw [heq] at h4
        exact h4.1
      · rename_i heq
        rw [heq] at h4
        exact ih _ _ _ h4.1 (h4.2 _ rfl)

theorem searchAll_heap {P : Options F → Prop} {E : SearchEnv F} {nfold : Int} (hP : OptProp E nfold P) :
    ∀ (inits : List (Options F)) (s : SearchState F), (∀ o ∈ inits, P o) → HeapInv P s →
      HeapInv P (searchAll E nfold inits s).1 := by
  intro inits
  induction inits with
  | nil => intro s _ h; exact h
  | cons init inits ih =>
    intro s hi h
    have h1 : HeapInv P (searchFrom E nfold s init).1 := by
      unfold searchFrom
      simp only
      have h2 := (h.alloc (hi init List.mem_cons_self)).alloc (hP.clone _ (hi init List.mem_cons_self))
      have hlen : ((s.alloc init).alloc init.clone).heap.length = s.heap.length + 2 := by
        show ((s.heap ++ [init]) ++ [init.clone]).length = _
        simp
      have h3 := compareAccs_heap hP (t := s.heap.length) (tprev := s.heap.length + 1) h2 (by omega) (by omega)
      split
      · rename_i heq
        rw [heq] at h3
        exact h3.1
      · rename_i heq
        rw [heq] at h3
        exact searchSteps_heap hP _ _ _ _ h3.1 (h3.2 _ rfl)
    unfold searchAll
    split
    · rename_i heq
      rw [heq] at h1
      exact h1
    · rename_i heq
      rw [heq] at h1
      exact ih _ (fun o ho => hi o (List.mem_cons_of_mem _ ho)) h1

/-- the gradient steps of the search are ones that `GradStep` can make, for some cross-validations and schedules -/
def RealSteps (E : SearchEnv F) (nfold : Int) : Prop :=
  ∀ k O, ∃ fuel G curr, GradReturns fuel G curr O (E.grad k nfold O)

theorem gradReturns_others {fuel : Nat} {G : GradEnv F} {curr : Options F → CVRes F} {O O' : Options F}
    (h : GradReturns fuel G curr O O') : SameOthers O O' ∨ SameOthers O.fixMcw O' := by
  have key : ∀ acc o s, ReflTransGen (GradStep fuel G acc) (gradStart o) s → SameOthers o s.shared := fun acc o s h1 =>
    (gradStep_fields (Q := fun _ _ => True) ⟨fun _ _ _ _ => trivial, fun _ _ _ _ _ _ => trivial⟩
      (fun _ => trivial) (fun _ _ _ _ _ _ _ _ => trivial) h1).2
  unfold GradReturns at h
  simp only at h
  split at h
  · obtain ⟨s, h1, _, rfl⟩ := h
    exact Or.inl (key _ _ _ h1)
  · split at h
    · subst h
      exact Or.inl rfl
    · obtain ⟨s, h1, _, rfl⟩ := h
      exact Or.inr (key _ _ _ h1)

/-- the options have the depth, kind, minimum sample and, up to raising it to 1, minimum child weight of a starting point -/
def FixedFields (inits : List (Options F)) (O : Options F) : Prop :=
  ∃ I ∈ inits, O.maxDepth = I.maxDepth ∧ O.xgb = I.xgb ∧ O.minSample = I.minSample ∧
    (O.minChildWeight = I.minChildWeight ∨ ((I.minChildWeight <. one) = true ∧ O.minChildWeight = one))

/-- **C58 (what no search changes)**: with any number of steps, any accuracies, schedules and random numbers, the returned
options have the depth, kind, minimum sample and (up to raising it to 1) minimum child weight of a starting point. -/
theorem C58_fixed_fields (fuel : Nat) (E : SearchEnv F) (nfold : Int) (hg : RealSteps E nfold) (ret : GridRet F)
    (h : SearchReturns fuel E nfold ret) (O' : Options F) (hO : ret.opts = some O') :
    ∃ inits, (gradientInits fuel E.o = some inits ∨ hybridInits fuel E.o = some inits) ∧ FixedFields inits O' := by
  have fix : ∀ inits (o : Options F), FixedFields inits o → FixedFields inits o.fixMcw := by
    rintro inits o ⟨I, hI, h1, h2, h3, h4⟩
    unfold Options.fixMcw
    split
    · rename_i hlt
      refine ⟨I, hI, h1, h2, h3, Or.inr ⟨?_, rfl⟩⟩
      rcases h4 with h4 | h4
      · rw [← h4]; exact hlt
      · exact h4.1
    · exact ⟨I, hI, h1, h2, h3, h4⟩
  have hP : ∀ inits, OptProp E nfold (FixedFields inits) := by
    intro inits
    refine ⟨fun o h => h, fix inits, fun k o h => ?_, fun d o q h => h⟩
    obtain ⟨f, G, curr, hr⟩ := hg k o
    have move : ∀ a b : Options F, SameOthers a b → FixedFields inits a → FixedFields inits b := by
      rintro a b hab ⟨I, hI, h1, h2, h3, h4⟩
      have e1 : b.maxDepth = a.maxDepth := by
        have := congrArg Options.maxDepth hab
        exact this
      have e2 : b.xgb = a.xgb := by
        have := congrArg Options.xgb hab
        exact this
      have e3 : b.minSample = a.minSample := by
        have := congrArg Options.minSample hab
        exact this
      have e4 : b.minChildWeight = a.minChildWeight := by
        have := congrArg Options.minChildWeight hab
        exact this
      exact ⟨I, hI, by rw [e1, h1], by rw [e2, h2], by rw [e3, h3], by rw [e4]; exact h4⟩
    rcases gradReturns_others hr with h' | h'
    · exact move _ _ h' h
    · exact move _ _ h' (fix inits o h)
  have key : ∀ inits, searchRet (searchAll E nfold inits searchStart) = ret → FixedFields inits O' := by
    intro inits hr
    have hi := searchAll_heap (hP inits) inits searchStart (fun o ho => ⟨o, ho, rfl, rfl, rfl, Or.inl rfl⟩)
      ⟨(fun o ho => by cases ho), (fun ptr hp => by cases hp), (fun c hc => by cases hc)⟩
    cases hs : searchAll E nfold inits searchStart with
    | mk s b =>
      rw [hs] at hr hi
      subst hr
      cases b with
      | false => cases hO
      | true =>
        obtain ⟨ptr, hp, rfl⟩ := Option.map_eq_some_iff.1 hO
        exact hi.deref (hi.final ptr hp)
  rcases h with h | h
  · obtain ⟨inits, hi, hr⟩ := Option.map_eq_some_iff.1 h
    exact ⟨inits, Or.inl hi, key inits hr⟩
  · obtain ⟨inits, hi, hr⟩ := Option.map_eq_some_iff.1 h
    exact ⟨inits, Or.inr hi, key inits hr⟩

/-- **C58 (partial, exact arithmetic)**: with any number of steps the depth and the minimum child weight of the returned
options are in the box. Missing: the other options, see `C58_violated`. -/
theorem C58_depth_partial {K : Type} [Field K] [LinearOrder K] [IsStrictOrderedRing K] [FloorRing K]
    (fuel : Nat) (E : SearchEnv (Exact K)) (hb : OrderedBox E.o) (hw : (one <=. E.o.minChildWeight.hi) = true) (nfold : Int)
    (hg : RealSteps E nfold) (ret : GridRet (Exact K)) (h : SearchReturns fuel E nfold ret) (O' : Options (Exact K))
    (hO : ret.opts = some O') :
    (E.o.maxDepth.lo ≤ O'.maxDepth ∧ O'.maxDepth ≤ E.o.maxDepth.hi) ∧ InF E.o.minChildWeight O'.minChildWeight := by
  obtain ⟨inits, hi, I, hI, h1, _, _, h4⟩ := C58_fixed_fields fuel E nfold hg ret h O' hO
  have hbox := C62_starts fuel E.o hb inits hi I hI
  rw [h1]
  refine ⟨hbox.2, ?_⟩
  rcases h4 with h4 | ⟨hlt, h4⟩
  · rw [h4]; exact hbox.8
  · rw [h4]
    obtain ⟨lo, hi, step, hr, h5, h6⟩ := hb.3 E.o.minChildWeight (by simp)
    have hm := hbox.8
    rw [hr] at hw hm ⊢
    obtain ⟨x, hx, h7, h8⟩ := (inF_exact _ _ _ _).1 hm
    rw [hx] at hlt
    rw [inF_exact]
    have hlt' : x < 1 := by simpa [XF.lt_def, XF.lt] using hlt
    have hw' : 1 ≤ hi := by simpa [XF.le_def, XF.lt, XF.eq, le_iff_lt_or_eq] using hw
    exact ⟨1, by simp, by linarith, hw'⟩

/-- steps that change nothing, which `GradStep` makes when the cross-validations fail, are a case; the witness of
`C58_violated` is another one for the options that occur -/
example : RealSteps flatSearch 5 := fun _ O =>
  ⟨0, { gradEnvOf flatSearch.o (fun _ => 50) with central := false }, fun _ => ⟨true, zero⟩, rfl⟩

/-! ### C63 -/

section Exact
variable {K : Type} [Field K] [LinearOrder K] [IsStrictOrderedRing K] [FloorRing K]

/-- **C63 (fuzz)**: the perturbed value is within the given fraction of the value. -/
theorem C63_fuzz (u f q : K) (b : Nat) (h0 : 0 ≤ u) (h1 : u < 1) :
    ∃ x : K, fuzz (.fin u : Exact K) b (.fin f) (.fin q) = .fin x ∧ |x - f| ≤ |q * f| := by
  have key : ∀ s : K, |s| = 1 → |f + s * (u * q) * f - f| ≤ |q * f| := by
    intro s hs
    rw [show f + s * (u * q) * f - f = s * (u * (q * f)) by ring, abs_mul, hs, one_mul, abs_mul, abs_of_nonneg h0]
    nlinarith [abs_nonneg (q * f)]
  unfold fuzz
  simp only [Exact.mul_fin, Exact.ofRat_fin, Exact.one_fin]
  split
  · rw [Exact.mul_fin, Exact.mul_fin, Exact.add_fin]
    exact ⟨_, rfl, key _ (by push_cast; norm_num)⟩
  · rw [Exact.mul_fin, Exact.mul_fin, Exact.add_fin]
    exact ⟨_, rfl, key _ (by push_cast; norm_num)⟩

/-- both signs occur: the bound is approached from both sides -/
example : fuzz (.fin (99/100) : Exact ℚ) 1 (.fin 10) (.fin (1/10)) = .fin (10 + 99/100) ∧
    fuzz (.fin (99/100) : Exact ℚ) 0 (.fin 10) (.fin (1/10)) = .fin (10 - 99/100) := by decide +kernel

theorem toInt_near {x : K} (hx : |x| < 2 ^ 63) : |((toInt (.fin x : Exact K) : Int) : K) - x| < 1 := by
  rw [abs_lt] at hx
  rw [XF.toInt_fin]
  rotate_left
  · split
    · have := Int.floor_nonneg.2 (by assumption : 0 ≤ x)
      omega
    · exact Int.le_ceil_iff.2 (by push_cast; linarith [hx.1])
  · split
    · exact Int.floor_lt.2 (by have := hx.2; norm_num at this ⊢; exact this)
    · have : ⌈x⌉ ≤ 0 := Int.ceil_le.2 (by push_cast; linarith)
      omega
  split
  · have h1 := Int.floor_le x
    have h2 := Int.lt_floor_add_one x
    rw [abs_lt]
    constructor <;> linarith
  · have h1 := Int.le_ceil x
    have h2 := Int.ceil_lt_add_one x
    rw [abs_lt]
    constructor <;> linarith

/-- the fraction that `fuzzOptions` uses for its optional argument -/
def fuzzFraction (perc : Option (Exact K)) (q : K) : Prop :=
  (perc = none ∧ q = 1/10) ∨ ∃ p : K, perc = some (.fin p) ∧ ((0 < p ∧ q = p) ∨ (p ≤ 0 ∧ q = 1/10))

/-- **C63 (fuzzOptions)**: the six float options are perturbed by at most the given fraction, the number of rounds too but
for the truncation to an int, and the other options are unchanged. -/
theorem C63_options (d : FuzzDraws (Exact K)) (hd : ∀ i, ∃ u : K, (d i).1 = .fin u ∧ 0 ≤ u ∧ u < 1) (O : Options (Exact K))
    (perc : Option (Exact K)) (q : K) (hq : fuzzFraction perc q) (ss cs la ga lr bs : K)
    (h1 : O.subSample = .fin ss) (h2 : O.colSubSample = .fin cs) (h3 : O.lambda = .fin la) (h4 : O.gamma = .fin ga)
    (h5 : O.learningRate = .fin lr) (h6 : O.baseScore = .fin bs) (hr : |(O.rounds : K)| + |q * O.rounds| < 2 ^ 63) :
    let O' := fuzzOptions d O perc
    (∃ x, O'.subSample = .fin x ∧ |x - ss| ≤ |q * ss|) ∧ (∃ x, O'.colSubSample = .fin x ∧ |x - cs| ≤ |q * cs|) ∧
    (∃ x, O'.lambda = .fin x ∧ |x - la| ≤ |q * la|) ∧ (∃ x, O'.gamma = .fin x ∧ |x - ga| ≤ |q * ga|) ∧
    (∃ x, O'.learningRate = .fin x ∧ |x - lr| ≤ |q * lr|) ∧ (∃ x, O'.baseScore = .fin x ∧ |x - bs| ≤ |q * bs|) ∧
    |(O'.rounds : K) - O.rounds| < |q * O.rounds| + 1 ∧
    O'.xgb = O.xgb ∧ O'.maxDepth = O.maxDepth ∧ O'.earlyStop = O.earlyStop ∧ O'.minChildWeight = O.minChildWeight ∧
    O'.minSample = O.minSample ∧ O'.treeMethod = O.treeMethod ∧ O'.verbose = O.verbose ∧ O'.loss = O.loss := by
  intro O'
  have hf : fuzzOptions d O perc = { O with
      rounds := toInt (fuzz (d 0).1 (d 0).2 (ofInt O.rounds) (.fin q))
      subSample := fuzz (d 1).1 (d 1).2 O.subSample (.fin q)
      colSubSample := fuzz (d 2).1 (d 2).2 O.colSubSample (.fin q)
      lambda := fuzz (d 3).1 (d 3).2 O.lambda (.fin q)
      gamma := fuzz (d 4).1 (d 4).2 O.gamma (.fin q)
      learningRate := fuzz (d 5).1 (d 5).2 O.learningRate (.fin q)
      baseScore := fuzz (d 6).1 (d 6).2 O.baseScore (.fin q) } := by
    have e : (ofRat (1/10) : Exact K) = .fin (1/10) := by simp
    rcases hq with ⟨rfl, rfl⟩ | ⟨p, rfl, ⟨hp, rfl⟩ | ⟨hp, rfl⟩⟩
    · simp only [fuzzOptions, e]
    · have : gt (.fin q : Exact K) zero = true := by simp [gt, XF.lt_def, XF.lt, hp]
      simp only [fuzzOptions, this, if_true]
    · have : gt (.fin p : Exact K) zero = false := by simp [gt, XF.lt_def, XF.lt, hp]
      simp only [fuzzOptions, this, e, Bool.false_eq_true, if_false]
  have key : ∀ i (v : Exact K) (x : K), v = .fin x → ∃ y : K, fuzz (d i).1 (d i).2 v (.fin q) = .fin y ∧ |y - x| ≤ |q * x| := by
    intro i v x hv
    obtain ⟨u, hu, h0, h1⟩ := hd i
    rw [hu, hv]
    exact C63_fuzz u x q _ h0 h1
  refine ⟨?_, ?_, ?_, ?_, ?_, ?_, ?_, rfl, rfl, rfl, rfl, rfl, rfl, rfl, rfl⟩
  · simp only [O', hf]; exact key 1 _ _ h1
  · simp only [O', hf]; exact key 2 _ _ h2
  · simp only [O', hf]; exact key 3 _ _ h3
  · simp only [O', hf]; exact key 4 _ _ h4
  · simp only [O', hf]; exact key 5 _ _ h5
  · simp only [O', hf]; exact key 6 _ _ h6
  · simp only [O', hf]
    obtain ⟨y, hy, hb⟩ := key 0 (ofInt O.rounds) (O.rounds : K) (by rw [Exact.ofInt_fin, Rat.cast_intCast])
    rw [hy]
    have h1 := toInt_near (x := y) (lt_of_le_of_lt (by linarith [abs_sub_abs_le_abs_sub y (O.rounds : K)]) hr)
    have : ((toInt (.fin y : Exact K) : Int) : K) - O.rounds = (((toInt (.fin y : Exact K) : Int) : K) - y) + (y - O.rounds) := by ring
    rw [this]
    calc _ ≤ |((toInt (.fin y : Exact K) : Int) : K) - y| + |y - O.rounds| := abs_add_le _ _
      _ < 1 + |q * O.rounds| := by linarith
      _ = _ := by ring

/-- **C63 (draws)**: every fuzzing of a search has random numbers of its own: fuzzing options twice uses the draws of two different calls, and
changes no other options. -/
theorem C63_draws {F : Type} [GoFloat F] (E : SearchEnv F) (s : SearchState F) (p q : Nat) (hp : p < s.heap.length) (hq : q < s.heap.length) (c c' : Option F)
    (r : Nat) :
    ((s.fuzz E p c).fuzz E q c').deref r =
      if r = q then fuzzOptions (E.draws (s.fuzzes + 1)) (if q = p then fuzzOptions (E.draws s.fuzzes) (s.deref p) c else s.deref q) c'
      else if r = p then fuzzOptions (E.draws s.fuzzes) (s.deref p) c else s.deref r := by
  have key : ∀ (s : SearchState F) (p : Nat) (c : Option F) (_ : p < s.heap.length) (r : Nat),
      (s.fuzz E p c).deref r = if r = p then fuzzOptions (E.draws s.fuzzes) (s.deref p) c else s.deref r := by
    intro s p c hp r
    unfold SearchState.fuzz SearchState.deref SearchState.store
    simp only [List.getElem?_set]
    by_cases h : p = r
    · subst h
      simp [hp]
    · rw [if_neg h, if_neg (Ne.symm h)]
  rw [key _ q c' (by simpa [SearchState.fuzz, SearchState.store] using hq), key s p c hp r, key s p c hp q]
  rfl


/-- each of the seven is perturbed -/
example : let O := fuzzOptions (fun _ => (.fin (1/2), 1)) (defaultXOptions 0 : Options (Exact ℚ)) (some (.fin (2/10)))
    O.rounds = 22 ∧ O.subSample = .fin (88/100) ∧ O.colSubSample = .fin (88/100) ∧ O.lambda = .fin (165/100) ∧
      O.gamma = .fin (22/100) ∧ O.learningRate = .fin (33/100) ∧ O.baseScore = .fin (55/100) := by decide +kernel

end Exact

/-! ### C69 -/

theorem compareAccs_five {E E' : SearchEnv F} (ho : E.o = E'.o) (hd : E.draws = E'.draws)
    (h : ∀ k O, E.cv k 5 O = E'.cv k 5 O) (s : SearchState F) (t tprev : Nat) :
    compareAccs E s t tprev = compareAccs E' s t tprev := by
  unfold compareAccs SearchState.fuzz
  simp only [h, hd, ho]

/-- **C69 violated (general)**: the searches compare options with five folds only: what the cross-validation reports for
any other number of folds, such as the one asked for, makes no difference beyond the gradient steps. -/
theorem C69_violated_general (fuel : Nat) (E E' : SearchEnv F) (nfold : Int) (ho : E.o = E'.o) (hg : E.grad = E'.grad)
    (hd : E.draws = E'.draws) (h : ∀ k O, E.cv k 5 O = E'.cv k 5 O) :
    gradientGrid fuel E nfold = gradientGrid fuel E' nfold ∧ hybridGrid fuel E nfold = hybridGrid fuel E' nfold := by
  have hsteps : ∀ (n : Nat) (s : SearchState F) (t strikes : Nat),
      searchSteps E nfold n s t strikes = searchSteps E' nfold n s t strikes := by
    intro n
    induction n with
    | zero => intro s t strikes; rfl
    | succ n ih =>
      intro s t strikes
      unfold searchSteps SearchState.fuzz
      simp only [compareAccs_five ho hd h, ih, hg, hd]
  have hall : ∀ (inits : List (Options F)) (s : SearchState F), searchAll E nfold inits s = searchAll E' nfold inits s := by
    intro inits
    induction inits with
    | nil => intro s; rfl
    | cons init inits ih =>
      intro s
      unfold searchAll searchFrom
      simp only [compareAccs_five ho hd h, hsteps, ih, ho]
  unfold gradientGrid hybridGrid
  rw [ho]
  simp only [hall]
  exact ⟨trivial, trivial⟩

/-- **C69 (partial)**: when five folds are asked for, only the cross-validations with the number of folds asked for matter.
Missing: other numbers. -/
theorem C69_five_partial (fuel : Nat) (E E' : SearchEnv F) (nfold : Int) (h5 : nfold = 5) (ho : E.o = E'.o)
    (hg : ∀ k O, E.grad k nfold O = E'.grad k nfold O) (hd : E.draws = E'.draws) (h : ∀ k O, E.cv k nfold O = E'.cv k nfold O) :
    gradientGrid fuel E nfold = gradientGrid fuel E' nfold ∧ hybridGrid fuel E nfold = hybridGrid fuel E' nfold := by
  subst h5
  have hg' : gradientGrid fuel E 5 = gradientGrid fuel { E with grad := E'.grad } 5 ∧
      hybridGrid fuel E 5 = hybridGrid fuel { E with grad := E'.grad } 5 := by
    have hsteps : ∀ (n : Nat) (s : SearchState F) (t strikes : Nat),
        searchSteps E 5 n s t strikes = searchSteps { E with grad := E'.grad } 5 n s t strikes := by
      intro n
      induction n with
      | zero => intro s t strikes; rfl
      | succ n ih =>
        intro s t strikes
        unfold searchSteps SearchState.fuzz
        simp only [ih, hg]
        rfl
    have hall : ∀ (inits : List (Options F)) (s : SearchState F),
        searchAll E 5 inits s = searchAll { E with grad := E'.grad } 5 inits s := by
      intro inits
      induction inits with
      | nil => intro s; rfl
      | cons init inits ih =>
        intro s
        unfold searchAll searchFrom
        simp only [hsteps, ih]
        rfl
    unfold gradientGrid hybridGrid
    simp only [hall]
    exact ⟨trivial, trivial⟩
  rw [hg'.1, hg'.2]
  exact C69_violated_general fuel _ _ 5 ho rfl hd h

/-- **C69 violated**: asked for 10 folds, with accuracy 90 for 10 folds and 50 for 5, the search returns 50. -/
theorem C69_violated : ∃ E : SearchEnv (Exact ℚ), (∀ k O, E.cv k 10 O = ⟨false, .fin 90⟩) ∧
    (gradientGrid 3 E 10).map (fun r => (r.err, r.acc)) = some (false, .fin 50) := by
  refine ⟨{ flatSearch with cv := fun _ n _ => if n = 10 then ⟨false, .fin 90⟩ else ⟨false, .fin 50⟩ }, fun _ _ => rfl, ?_⟩
  decide +kernel

end Boo
