import Verif.Props.Grid
import Verif.Props.GradSearch

/-!
# C89: `XGB` and `EarlyStop` of the searches

`GridOptions` has two fields that are not searched over: the kind of boosting and the early stop. `Grid` uses both for every
model. `GradientGrid` ignores the early stop, `HybridGradientGrid` loses it (`Options.Clone` does not copy it).
-/

namespace Boo
open GoFloat Relation
variable {F : Type} [GoFloat F]

/-! ### Grid -/

/-- every set of options that a worker sends has the property -/
def SendsOnly (P : Options F → Prop) (m : List (CVMsg F)) : Prop := ∀ o, CVMsg.opt (some o) ∈ m → P o

/-- the best options so far have the property -/
def BestOnly (P : Options F → Prop) (b : BestAcc F) : Prop := ∀ o, b.2 = some o → P o

theorem rescueOne_only {P : Options F → Prop} {m : List (CVMsg F)} (hm : SendsOnly P m) {b : BestAcc F} (hb : BestOnly P b)
    {r : Option (BestAcc F)} (h : rescueOne b m = pure r) : ∀ b', r = some b' → BestOnly P b' := by
  intro b' hr
  subst hr
  unfold rescueOne at h
  split at h
  · split at h
    · rw [run_pure_eq] at h; cases h
    · split at h
      · split at h
        · rw [run_pure_eq] at h; cases h
        · split at h
          · rw [run_pure_eq] at h
            obtain rfl := Option.some.inj h
            unfold updateBest
            split
            · intro o ho
              simp only at ho
              subst ho
              exact hm o (by simp)
            · exact hb
          · cases h
      · cases h
  · cases h

theorem rescueConcValues_only {P : Options F → Prop} (ws : List (List (CVMsg F))) (hw : ∀ w ∈ ws, SendsOnly P w)
    {b : BestAcc F} (hb : BestOnly P b) {r : Option (BestAcc F)} (h : rescueConcValues ws b = pure r) :
    ∀ b', r = some b' → BestOnly P b' := by
  induction ws generalizing b with
  | nil =>
    unfold rescueConcValues at h
    rw [run_pure_eq] at h
    rintro b' rfl
    obtain rfl := Option.some.inj h
    exact hb
  | cons w ws ih =>
    unfold rescueConcValues at h
    obtain ⟨r1, h1, h⟩ := run_bind_ok h
    have q := rescueOne_only (hw w List.mem_cons_self) hb h1
    cases r1 with
    | none =>
      rw [run_pure_eq] at h
      rintro b' rfl
      cases h
    | some b1 => exact ih (fun w hw' => hw w (List.mem_cons_of_mem _ hw')) (q b1 rfl) h

theorem mapM_id_only {P : Options F → Prop} {l : List (Run (List (CVMsg F)))} (hl : ∀ p ∈ l, ∀ m, p = pure m → SendsOnly P m)
    {ws : List (List (CVMsg F))} (h : l.mapM id = (pure ws : Run _)) : ∀ w ∈ ws, SendsOnly P w := by
  induction l generalizing ws with
  | nil =>
    rw [List.mapM_nil, run_pure_eq] at h
    subst h
    intro w hw
    cases hw
  | cons p l ih =>
    rw [List.mapM_cons] at h
    obtain ⟨m, h1, h⟩ := run_bind_ok h
    obtain ⟨ms, h2, h⟩ := run_bind_ok h
    rw [run_pure_eq] at h
    subst h
    intro w hw
    rcases List.mem_cons.1 hw with rfl | hw
    · exact hl p List.mem_cons_self w h1
    · exact ih (fun p hp => hl p (List.mem_cons_of_mem _ hp)) h2 w hw

theorem gridLoop_only {P : Options F → Prop} {n : Int} (ps : List (Run (List (CVMsg F))))
    {pending : List (Run (List (CVMsg F)))} (hps : ∀ p ∈ ps, ∀ m, p = pure m → SendsOnly P m)
    (hpe : ∀ p ∈ pending, ∀ m, p = pure m → SendsOnly P m) {b : BestAcc F} (hb : BestOnly P b) {r : Option (BestAcc F)}
    (h : gridLoop n ps pending b = pure r) : ∀ b', r = some b' → BestOnly P b' := by
  induction ps generalizing pending b with
  | nil =>
    unfold gridLoop at h
    rw [run_pure_eq] at h
    rintro b' rfl
    obtain rfl := Option.some.inj h
    exact hb
  | cons p ps ih =>
    have hpe' : ∀ q ∈ pending ++ [p], ∀ m, q = pure m → SendsOnly P m := by
      intro q hq
      rcases List.mem_append.1 hq with hq | hq
      · exact hpe q hq
      · rw [List.mem_singleton.1 hq]
        exact hps p List.mem_cons_self
    have hps' : ∀ q ∈ ps, ∀ m, q = pure m → SendsOnly P m := fun q hq => hps q (List.mem_cons_of_mem _ hq)
    unfold gridLoop at h
    split at h
    · rw [ofGo_eq] at h; cases h
    · simp only at h
      split at h
      · obtain ⟨ws, h1, h⟩ := run_bind_ok h
        obtain ⟨r1, h2, h⟩ := run_bind_ok h
        have q := rescueConcValues_only ws (mapM_id_only hpe' h1) hb h2
        cases r1 with
        | none =>
          rw [run_pure_eq] at h
          rintro b' rfl
          cases h
        | some b1 => exact ih hps' (fun _ h => by cases h) (q b1 rfl) h
      · exact ih hps' hpe' hb h

/-- the options of the cross-validation after some folds -/
theorem cvFold_opts {exp : F → F} {S : GoSort} {fdraws : Nat → Nat → F} {O : Options F} {st st' : CVState F} {i : Nat}
    (ho : st.opts = some O ∨ st.opts = some O.fixMcw) (h : cvFold exp S fdraws st i = .ok st') :
    st'.opts = some O ∨ st'.opts = some O.fixMcw := by
  have key : st.opts.map Options.fixMcw = some O.fixMcw := by
    rcases ho with ho | ho
    · rw [ho]; rfl
    · rw [ho, Option.map_some]
      congr 1
      unfold Options.fixMcw
      split
      · split <;> rfl
      · rfl
  unfold cvFold at h
  obtain ⟨⟨s, out⟩, h1, h⟩ := bind_ok h
  cases out with
  | none => cases h
  | some tt =>
    obtain ⟨train, test⟩ := tt
    obtain ⟨b, h2, h⟩ := bind_ok h
    simp only at h
    split at h
    · obtain rfl := Except.ok.inj h
      exact Or.inr key
    · obtain ⟨a, h3, h⟩ := bind_ok h
      obtain rfl := Except.ok.inj h
      exact Or.inr key

theorem crossValidation_sends {exp : F → F} {S : GoSort} {D : DataBunch F} {nfold : Int} {O : Options F} {conc : Bool}
    {idraws : List Nat} {fdraws : Nat → Nat → F} {out : CVOut F}
    (h : crossValidation exp S D nfold (some O) conc idraws fdraws = pure out) :
    SendsOnly (fun o => o = O ∨ o = O.fixMcw) out.sent := by
  unfold crossValidation at h
  obtain ⟨r, h1, h⟩ := run_bind_ok h
  split at h
  · rw [run_pure_eq] at h
    subst h
    intro o ho
    cases conc <;> simp at ho
  · split at h
    · rw [ofGo_eq] at h; cases h
    · rename_i s hs
      rw [ofGo_eq] at h
      unfold cvFolds at h
      obtain ⟨st, h2, h⟩ := bind_ok h
      obtain rfl := Except.ok.inj h
      have hst : st.opts = some O ∨ st.opts = some O.fixMcw :=
        foldlM_inv _ (fun st : CVState F => st.opts = some O ∨ st.opts = some O.fixMcw) _
          (fun st i st' _ hP hs => cvFold_opts hP hs) _ _ (Or.inl rfl) h2
      intro o ho
      cases conc
      · simp at ho
      · simp only [if_true, List.mem_cons, reduceCtorEq, CVMsg.opt.injEq, List.not_mem_nil, or_false, false_or] at ho
        rcases hst with hst | hst
        · rw [hst] at ho; exact Or.inl (Option.some.inj ho)
        · rw [hst] at ho; exact Or.inr (Option.some.inj ho)

theorem run_map_pure {α β : Type} {f : α → β} {x : Run α} {b : β} (h : ExceptT.map f x = pure b) :
    ∃ a, x = pure a ∧ f a = b :=
  match x, h with
  | none, h => by cases h
  | some (.error e), h => by cases h
  | some (.ok a), h => ⟨a, rfl, Except.ok.inj (Option.some.inj h)⟩

/-- **C89 (Grid, any arithmetic)**: the options that `Grid` returns are those of a point of the grid, up to raising
`MinChildWeight` to 1. -/
theorem C89_grid_point (exp : F → F) (S : GoSort) (fuel : Nat) (D : DataBunch F) (nfold : Int)
    (options : Option (GridOptions F)) (idraws : Nat → List Nat) (fdraws : Nat → Nat → Nat → F) (ret : GridRet F)
    (h : grid exp S fuel D nfold options idraws fdraws = pure ret) (O' : Options F) (hO : ret.opts = some O') :
    ∃ pts, gridPoints fuel (gridOptionsOf options) = some pts ∧ ∃ O ∈ pts, O' = O ∨ O' = O.fixMcw := by
  unfold grid gridWith at h
  split at h
  · rw [ofGo_eq] at h; cases h
  · obtain ⟨pts, h1, h⟩ := run_bind_ok h
    rw [ofOption_eq] at h1
    refine ⟨pts, h1, ?_⟩
    obtain ⟨r, h2, h⟩ := run_bind_ok h
    rw [run_pure_eq] at h
    subst h
    cases r with
    | none => cases hO
    | some b =>
      refine gridLoop_only (P := fun o => ∃ O ∈ pts, o = O ∨ o = O.fixMcw) _ ?_ (fun _ h => by cases h)
        (fun o ho => by cases ho) h2 b rfl O' hO
      intro p hp m hm o ho
      obtain ⟨j, hj, rfl⟩ := List.mem_mapIdx.1 hp
      refine ⟨pts[j], List.getElem_mem hj, ?_⟩
      obtain ⟨out, hx, rfl⟩ := run_map_pure hm
      exact crossValidation_sends hx o ho

/-- **C89 (Grid, any arithmetic)**: so they have the kind of boosting and the early stop that were asked for. -/
theorem C89_grid (exp : F → F) (S : GoSort) (fuel : Nat) (D : DataBunch F) (nfold : Int)
    (options : GridOptions F) (idraws : Nat → List Nat) (fdraws : Nat → Nat → Nat → F) (ret : GridRet F)
    (h : grid exp S fuel D nfold (some options) idraws fdraws = pure ret) (O' : Options F) (hO : ret.opts = some O') :
    O'.xgb = options.xgb ∧ O'.earlyStop = options.earlyStop := by
  obtain ⟨pts, hp, O, hmem, hOO⟩ := C89_grid_point exp S fuel D nfold (some options) idraws fdraws ret h O' hO
  have hx := ((C53_points fuel options pts hp O).1 hmem).2.2.2.2.2.2.2.2
  have e1 : O.xgb = options.xgb := by
    have := congrArg Options.xgb hx
    exact this
  have e2 : O.earlyStop = options.earlyStop := by
    have := congrArg Options.earlyStop hx
    exact this
  rcases hOO with rfl | rfl
  · exact ⟨e1, e2⟩
  · unfold Options.fixMcw
    split
    · exact ⟨e1, e2⟩
    · exact ⟨e1, e2⟩

/-! ### The gradient searches -/

theorem searchAll_only {E : SearchEnv F} {nfold : Int} {P : Options F → Prop} (hP : OptProp E nfold P)
    {inits : List (Options F)} (hi : ∀ o ∈ inits, P o) : (∀ c ∈ (searchEnd E nfold inits).calls, P c.1) ∧
    ∀ O', (searchRet (searchAll E nfold inits searchStart)).opts = some O' → P O' := by
  have h := searchAll_heap hP inits searchStart hi
    ⟨(fun o ho => by cases ho), (fun ptr hp => by cases hp), (fun c hc => by cases hc)⟩
  refine ⟨h.calls, fun O' hO => ?_⟩
  cases hs : searchAll E nfold inits searchStart with
  | mk s b =>
    rw [hs] at hO h
    cases b with
    | false => cases hO
    | true =>
      obtain ⟨ptr, hp, rfl⟩ := Option.map_eq_some_iff.1 hO
      exact h.deref (h.final ptr hp)

/-- the kind of boosting is `b` and the early stop is 0 or `e` -/
def KindStop (b : Bool) (e : Int) (O : Options F) : Prop := O.xgb = b ∧ (O.earlyStop = e ∨ O.earlyStop = 0)

theorem kindStop_optProp {E : SearchEnv F} {nfold : Int} (hg : RealSteps E nfold) (b : Bool) (e : Int) :
    OptProp E nfold (KindStop b e) := by
  have fix : ∀ o : Options F, KindStop b e o → KindStop b e o.fixMcw := by
    intro o h
    unfold Options.fixMcw
    split
    · exact h
    · exact h
  refine ⟨fun o h => ⟨h.1, Or.inr rfl⟩, fix, fun k o h => ?_, fun d o q h => h⟩
  obtain ⟨f, G, curr, hr⟩ := hg k o
  have move : ∀ a c : Options F, SameOthers a c → KindStop b e a → KindStop b e c := by
    intro a c hac ha
    have e1 : c.xgb = a.xgb := by
      have := congrArg Options.xgb hac
      exact this
    have e2 : c.earlyStop = a.earlyStop := by
      have := congrArg Options.earlyStop hac
      exact this
    unfold KindStop
    rw [e1, e2]
    exact ha
  rcases gradReturns_others hr with h' | h'
  · exact move _ _ h' h
  · exact move _ _ h' (fix o h)

theorem gradientInits_stop {fuel : Nat} {o : GridOptions F} {inits : List (Options F)} (h : gradientInits fuel o = some inits) :
    ∀ O ∈ inits, O.xgb = o.xgb ∧ O.earlyStop = if o.xgb then 10 else 0 := by
  intro O hO
  unfold gradientInits at h
  obtain ⟨cw, hcw, _, h, hO⟩ := (nest_mem h O).1 hO
  obtain ⟨l, hl, rfl⟩ := Option.map_eq_some_iff.1 h
  obtain ⟨md, hmd, rfl⟩ := List.mem_map.1 hO
  refine ⟨rfl, ?_⟩
  show (baseOptions o).earlyStop = _
  unfold baseOptions
  split <;> rfl

theorem hybridInits_stop {fuel : Nat} {o : GridOptions F} {inits : List (Options F)} (h : hybridInits fuel o = some inits) :
    ∀ O ∈ inits, O.xgb = o.xgb ∧ O.earlyStop = o.earlyStop := by
  intro O hO
  unfold hybridInits at h
  obtain ⟨r, hr, _, h, hO⟩ := (nest_mem h O).1 hO
  obtain ⟨cw, hcw, _, h, hO⟩ := (nest_mem h O).1 hO
  obtain ⟨md, hmd, _, h, hO⟩ := (nest_mem h O).1 hO
  obtain ⟨l, hl, rfl⟩ := Option.map_eq_some_iff.1 h
  obtain ⟨lam, hlam, rfl⟩ := List.mem_map.1 hO
  exact ⟨rfl, rfl⟩

/-- **C89 violated (GradientGrid, general)**: all options that `GradientGrid` measures or returns have an early stop of 10 or
0, whatever was asked for. They have the kind of boosting that was asked for. -/
theorem C89_violated_gradient (fuel : Nat) (E : SearchEnv F) (nfold : Int) (hg : RealSteps E nfold)
    (inits : List (Options F)) (hi : gradientInits fuel E.o = some inits) (ret : GridRet F)
    (hr : gradientGrid fuel E nfold = some ret) :
    (∀ c ∈ (searchEnd E nfold inits).calls, c.1.xgb = E.o.xgb ∧ (c.1.earlyStop = 10 ∨ c.1.earlyStop = 0)) ∧
    ∀ O', ret.opts = some O' → O'.xgb = E.o.xgb ∧ (O'.earlyStop = 10 ∨ O'.earlyStop = 0) := by
  unfold gradientGrid at hr
  rw [hi] at hr
  obtain rfl := Option.some.inj hr
  refine searchAll_only (kindStop_optProp hg E.o.xgb 10) fun O hO => ?_
  obtain ⟨h1, h2⟩ := gradientInits_stop hi O hO
  refine ⟨h1, ?_⟩
  rw [h2]
  split
  · exact Or.inl rfl
  · exact Or.inr rfl

/-- **C89 (HybridGradientGrid, partial)**: all options that `HybridGradientGrid` measures or returns have the kind of
boosting that was asked for, and the early stop that was asked for or 0. Missing: that the early stop is not 0, see
`C89_violated_hybrid`. -/
theorem C89_hybrid_partial (fuel : Nat) (E : SearchEnv F) (nfold : Int) (hg : RealSteps E nfold)
    (inits : List (Options F)) (hi : hybridInits fuel E.o = some inits) (ret : GridRet F)
    (hr : hybridGrid fuel E nfold = some ret) :
    (∀ c ∈ (searchEnd E nfold inits).calls, c.1.xgb = E.o.xgb ∧ (c.1.earlyStop = E.o.earlyStop ∨ c.1.earlyStop = 0)) ∧
    ∀ O', ret.opts = some O' → O'.xgb = E.o.xgb ∧ (O'.earlyStop = E.o.earlyStop ∨ O'.earlyStop = 0) := by
  unfold hybridGrid at hr
  rw [hi] at hr
  obtain rfl := Option.some.inj hr
  exact searchAll_only (kindStop_optProp hg E.o.xgb E.o.earlyStop) fun O hO =>
    ⟨(hybridInits_stop hi O hO).1, Or.inl (hybridInits_stop hi O hO).2⟩

/-! ### A search with real gradient steps -/

/-- what `GradStep` (with central differences) makes of the options under one schedule: all clones are made first, and the
first value sent by each goroutine is used -/
def gradRun (fuel : Nat) (E : GradEnv F) (O : Options F) : Options F :=
  let v := fun p => (paramActs fuel E zero p O.clone).bind firstRead
  let w := fun p => (v p).getD O
  if [Param.gamma, .lambda, .subSample, .colSubSample, .learningRate, .rounds].all (fun p => (v p).isSome) then
    { O with gamma := (w .gamma).gamma, lambda := (w .lambda).lambda, subSample := (w .subSample).subSample,
             learningRate := (w .learningRate).learningRate, rounds := (w .rounds).rounds,
             colSubSample := (w .colSubSample).colSubSample }
  else O

theorem gradRun_returns (fuel : Nat) (E : GradEnv F) (hc : E.central = true) (O : Options F) :
    ∃ G curr, GradReturns fuel G curr O (gradRun fuel E O) := by
  unfold gradRun
  simp only
  split
  · rename_i h
    simp only [List.all_cons, List.all_nil, Bool.and_true, Bool.and_eq_true] at h
    obtain ⟨s, h1, h2, h3⟩ := grad_exec fuel E zero O (fun _ => false) (by
      intro p
      cases p
      · exact h.1
      · exact h.2.1
      · exact h.2.2.1
      · exact h.2.2.2.1
      · exact h.2.2.2.2.1
      · exact h.2.2.2.2.2)
    refine ⟨E, fun _ => ⟨true, zero⟩, ?_⟩
    unfold GradReturns
    simp only [hc, if_true]
    exact ⟨s, h1, h2, h3⟩
  · refine ⟨{ E with central := false }, fun _ => ⟨true, zero⟩, ?_⟩
    unfold GradReturns
    simp

/-- a hybrid search over one starting point with two steps and early stop 7. The cross-validations report 50, 40 and 60. -/
def stopSearch : SearchEnv (Exact ℚ) :=
  let o : GridOptions (Exact ℚ) := { oneStart 2 ⟨.fin (6/10), .fin (9/10), .fin (1/10)⟩ with
    rounds := ⟨20, 60, 100⟩, lambda := ⟨.fin 1, .fin 3, .fin 5⟩, earlyStop := 7 }
  { o := o, cv := fun k _ _ => ⟨false, if k = 0 then .fin 50 else if k = 1 then .fin 40 else .fin 60⟩
    grad := fun _ _ O => gradRun 20 (gradEnvOf o peakAcc) O, draws := fun _ _ => (.fin (1/2), 1) }

theorem stopSearch_real (nfold : Int) : RealSteps stopSearch nfold := fun _ O =>
  ⟨20, gradRun_returns 20 (gradEnvOf stopSearch.o peakAcc) rfl O⟩

/-- **C89 violated (HybridGradientGrid)**: the early stop asked for is 7 and the options that are returned have 0: after a
step that made the accuracy worse the search continues with a clone, and `Clone` does not copy the early stop. All steps are
steps that `GradStep` can make. -/
theorem C89_violated_hybrid : RealSteps stopSearch 5 ∧ stopSearch.o.earlyStop = 7 ∧
    ∃ ret O', hybridGrid 5 stopSearch 5 = some ret ∧ ret.err = false ∧ ret.opts = some O' ∧ O'.earlyStop = 0 := by
  refine ⟨stopSearch_real 5, rfl, ?_⟩
  have h : ((hybridGrid 5 stopSearch 5).map fun r => (r.err, r.opts.map (·.earlyStop))) = some (false, some 0) := by
    decide +kernel
  obtain ⟨ret, hr, h⟩ := Option.map_eq_some_iff.1 h
  simp only [Prod.mk.injEq] at h
  obtain ⟨O', hO, h2⟩ := Option.map_eq_some_iff.1 h.2
  exact ⟨ret, O', hr, h.1, hO, h2⟩

/-- C89: the hypotheses on the gradient searches are met by `stopSearch`, and both return options -/
example : RealSteps stopSearch 5 ∧ (gradientInits 5 stopSearch.o).isSome = true ∧ (hybridInits 5 stopSearch.o).isSome = true ∧
    ((gradientGrid 5 stopSearch 5).bind (·.opts)).isSome = true ∧ ((hybridGrid 5 stopSearch 5).bind (·.opts)).isSome = true :=
  ⟨stopSearch_real 5, by decide +kernel, by decide +kernel, by decide +kernel, by decide +kernel⟩

/-- the options of a grid with one point and early stop 7 -/
def stopPoint : GridOptions (Exact ℚ) :=
  { (defaultXGridOptions : GridOptions (Exact ℚ)) with
      rounds := ⟨1, 1, 1⟩, maxDepth := ⟨5, 5, 1⟩, learningRate := ⟨.fin (1/2), .fin (1/2), .fin 1⟩,
      gamma := ⟨.fin 0, .fin 0, .fin 1⟩, lambda := ⟨.fin 1, .fin 1, .fin 1⟩,
      subSample := ⟨.fin (1/2), .fin (1/2), .fin 1⟩, colSubSample := ⟨.fin 1, .fin 1, .fin 1⟩,
      minChildWeight := ⟨.fin 1, .fin 1, .fin 1⟩, nCPUs := 1, earlyStop := 7 }

/-- a data set of 24 rows of one label -/
def stopRows : DataBunch (Exact ℚ) := ⟨(List.range 24).map fun i => [.fin i], [], List.replicate 24 7, []⟩

/-- C89: `Grid` with it, on this data set, returns options with early stop 7 -/
example : ∃ ret O', grid (fun _ => .fin 1) GoSort.ins 3 stopRows 2 (some stopPoint) (fun _ => List.range 24)
    (fun _ _ _ => .fin 0) = pure ret ∧ ret.opts = some O' ∧ O'.earlyStop = 7 := by
  have h : (do
      let ret ← grid (fun _ => .fin 1) GoSort.ins 3 stopRows 2 (some stopPoint) (fun _ => List.range 24) (fun _ _ _ => .fin 0)
      pure (ret.opts.map (·.earlyStop)) : Run (Option Int)) = pure (some 7) := by
    show (_ : Option (Except Panic (Option Int))) = some (.ok _)
    decide +kernel
  obtain ⟨ret, hr, h⟩ := run_bind_ok h
  rw [run_pure_eq] at h
  obtain ⟨O', hO, h⟩ := Option.map_eq_some_iff.1 h
  exact ⟨ret, O', hr, hO, h⟩

end Boo
