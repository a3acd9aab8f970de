import Verif.Lemmas.Grid
import Verif.Props.CV
import Mathlib.Logic.Relation

/-!
# C51–C53: grid search
-/

namespace Boo
open GoFloat
set_option linter.unusedSectionVars false
variable {F : Type} [GoFloat F]

/-! ### C51 -/

/-- The call for one point ended without error: what it sent is what it returned. -/
def EndsWell (cv : Run (CVOut F)) (out : CVOut F) : Prop :=
  cv = pure out ∧ out.sent = [.err false, .acc out.acc, .opt out.opts] ∧ (out.acc <. zero) = false

/-- `ret` reports the best of the results `outs`: an accuracy of one of them that none exceeds, with its options; or 0 and
no options if no accuracy is positive. -/
def ReportsBest (ret : GridRet F) (outs : List (CVOut F)) : Prop :=
  ret.err = false ∧
  ((ret.acc = zero ∧ ret.opts = none ∧ ∀ out ∈ outs, (zero <. out.acc) = false) ∨
   ((∃ out ∈ outs, ret.acc = out.acc ∧ ret.opts = out.opts) ∧ (zero <. ret.acc) = true ∧
     ∀ out ∈ outs, (ret.acc <. out.acc) = false))

theorem bestOf_reports [GoFloatOrd F] (outs : List (CVOut F)) :
    ReportsBest (gridRet (some (bestOf (zero, none) (outs.map fun out => (out.acc, out.opts))))) outs := by
  obtain ⟨h1, h2⟩ := bestOf_spec (outs.map fun out => (out.acc, out.opts)) ((zero, none) : BestAcc F)
  refine ⟨rfl, ?_⟩
  simp only [gridRet]
  rcases h1 with h1 | ⟨h1, h3⟩
  · left
    rw [h1] at h2 ⊢
    refine ⟨rfl, rfl, fun out hout => h2 (out.acc, out.opts) (List.mem_map.2 ⟨out, hout, rfl⟩)⟩
  · right
    refine ⟨?_, h3, fun out hout => h2 (out.acc, out.opts) (List.mem_map.2 ⟨out, hout, rfl⟩)⟩
    obtain ⟨out, ho, he⟩ := List.mem_map.1 h1
    exact ⟨out, ho, by rw [← he], by rw [← he]⟩

theorem gridWith_ok (cv : Nat → Options F → Run (CVOut F)) (fuel : Nat) (o : GridOptions F) (n : Nat) (hn : 0 < n)
    (ho : o.nCPUs = n) (pts : List (Options F)) (hp : gridPoints fuel o = some pts) (outs : List (CVOut F))
    (hl : outs.length = n * (pts.length / n))
    (hcv : ∀ (i : Nat) O out, pts[i]? = some O → outs[i]? = some out → EndsWell (cv i O) out) :
    gridWith cv fuel o = pure (gridRet (some (bestOf (zero, none) (outs.map fun out => (out.acc, out.opts))))) := by
  unfold gridWith
  rw [if_neg (by omega), hp, ho]
  rw [run_bind_some (show Run.ofOption (some pts) = pure pts from rfl)]
  set evs := pts.mapIdx fun j O => (cv j O).map CVOut.sent with hevs
  have hle : outs.length ≤ pts.length := by rw [hl]; exact Nat.mul_div_le _ _
  have hsplit : evs = (outs.map fun out => (out.acc, out.opts)).map (fun r => pure (okMsgs r.1 r.2)) ++
      evs.drop outs.length := by
    conv_lhs => rw [← List.take_append_drop outs.length evs]
    congr 1
    apply List.ext_getElem?
    intro i
    rw [List.getElem?_take, List.map_map, List.getElem?_map]
    by_cases hi : i < outs.length
    · rw [if_pos hi, hevs, List.getElem?_mapIdx, List.getElem?_eq_getElem (show i < pts.length by omega),
        List.getElem?_eq_getElem hi]
      obtain ⟨h1, h2, h3⟩ := hcv i _ _ (List.getElem?_eq_getElem (show i < pts.length by omega)) (List.getElem?_eq_getElem hi)
      simp only [Option.map_some, Option.some.injEq, Function.comp]
      rw [h1]
      show (pure outs[i].sent : Run (List (CVMsg F))) = _
      rw [h2]
      rfl
    · rw [if_neg hi, List.getElem?_eq_none (by omega)]
      rfl
  have hlen : evs.length = pts.length := by rw [hevs, List.length_mapIdx]
  rw [hsplit, gridLoop_ok n hn _ (by
    rw [List.length_drop, hlen, hl]
    have := Nat.div_add_mod pts.length n
    have := Nat.mod_lt pts.length hn
    omega) (pts.length / n) _ (by rw [List.length_map, hl])]
  · rfl
  · intro r hr
    obtain ⟨out, ho', rfl⟩ := List.mem_map.1 hr
    obtain ⟨i, hi⟩ := List.getElem?_of_mem ho'
    have hlt := (List.getElem?_eq_some_iff.1 hi).1
    exact (hcv i _ _ (List.getElem?_eq_getElem (show i < pts.length by omega)) hi).2.2

/-- **C51 (partial)**: whatever the cross-validation, if the calls for the first `NCPUs * (N / NCPUs)` of the `N` points
end without error, `Grid` returns the largest of their accuracies and the options that attained it.
Missing: the last `N mod NCPUs` points are started but their results are never looked at (`C51_violated`). -/
theorem C51_best_partial [GoFloatOrd F] (cv : Nat → Options F → Run (CVOut F)) (fuel : Nat) (o : GridOptions F) (n : Nat)
    (hn : 0 < n) (ho : o.nCPUs = n) (pts : List (Options F)) (hp : gridPoints fuel o = some pts) (outs : List (CVOut F))
    (hl : outs.length = n * (pts.length / n))
    (hcv : ∀ (i : Nat) O out, pts[i]? = some O → outs[i]? = some out → EndsWell (cv i O) out) :
    ∃ ret, gridWith cv fuel o = pure ret ∧ ReportsBest ret outs :=
  ⟨_, gridWith_ok cv fuel o n hn ho pts hp outs hl hcv, bestOf_reports outs⟩

/-- **C51** when `NCPUs` divides the number of points (in particular for `NCPUs = 1`): the best of all points. -/
theorem C51_best_divisible [GoFloatOrd F] (cv : Nat → Options F → Run (CVOut F)) (fuel : Nat) (o : GridOptions F)
    (hn : 0 < o.nCPUs) (pts : List (Options F)) (hp : gridPoints fuel o = some pts) (hd : o.nCPUs ∣ pts.length)
    (outs : List (CVOut F)) (hl : outs.length = pts.length)
    (hcv : ∀ (i : Nat) O out, pts[i]? = some O → outs[i]? = some out → EndsWell (cv i O) out) :
    ∃ ret, gridWith cv fuel o = pure ret ∧ ReportsBest ret outs := by
  obtain ⟨n, hn'⟩ : ∃ n : Nat, o.nCPUs = n := ⟨o.nCPUs.toNat, by omega⟩
  rw [hn'] at hd hn
  have hd' : n ∣ pts.length := by exact_mod_cast hd
  exact C51_best_partial cv fuel o n (by exact_mod_cast hn) hn' pts hp outs
    (by rw [hl, Nat.mul_div_cancel' hd']) hcv

/-- **C51 for the program** (binary64, up to 2^46 rows): `Grid` with the cross-validation of the package, whatever the
draws: if every cross-validation ends without panic and without error and `NCPUs` divides the number of points, it returns
the largest accuracy and the options that attained it. -/
theorem C51_grid (exp : F64 → F64) (S : GoSort) (fuel : Nat) (D : DataBunch F64) (hD : D.data.length ≤ 2 ^ 46)
    (nfold : Int) (o : GridOptions F64) (idraws : Nat → List Nat) (hd : ∀ j, ∀ x ∈ idraws j, x < D.data.length)
    (fdraws : Nat → Nat → Nat → F64) (hn : 0 < o.nCPUs) (pts : List (Options F64)) (hp : gridPoints fuel o = some pts)
    (hdvd : o.nCPUs ∣ pts.length) (outs : List (CVOut F64)) (hl : outs.length = pts.length)
    (hcv : ∀ (i : Nat) O out, pts[i]? = some O → outs[i]? = some out →
      crossValidation exp S D nfold (some O) true (idraws i) (fdraws i) = pure out ∧ out.err = false) :
    ∃ ret, grid exp S fuel D nfold (some o) idraws fdraws = pure ret ∧ ReportsBest ret outs := by
  unfold grid
  refine C51_best_divisible _ fuel o hn pts hp hdvd outs hl ?_
  intro i O out hO hout
  obtain ⟨h1, h2⟩ := hcv i O out hO hout
  refine ⟨h1, ?_, ?_⟩
  · obtain ⟨_, _, _, _, _, _, _, _, _, _, hs, _⟩ := C54_cross_validation_partial _ _ _ _ _ _ _ _ _ h1 h2
    simpa using hs
  · obtain ⟨q, hq, h0, _⟩ := C54_range_binary64 _ _ _ hD _ _ _ _ (hd i) _ _ h1 h2
    rw [hq]
    have hz : (zero : F64) = .fin 0 := by decide +kernel
    rw [hz, XF.fin_lt]
    simpa using h0

/-- **C51 is violated**: with fewer points than `NCPUs` the accuracies do not matter at all: `Grid` returns 0 and nil
options whatever the cross-validations do. -/
theorem C51_violated (cv : Nat → Options F → Run (CVOut F)) (fuel : Nat) (o : GridOptions F) (pts : List (Options F))
    (hp : gridPoints fuel o = some pts) (hlt : (pts.length : Int) < o.nCPUs) :
    gridWith cv fuel o = pure ⟨zero, [], none, false⟩ := by
  obtain ⟨n, hn'⟩ : ∃ n : Nat, o.nCPUs = n := ⟨o.nCPUs.toNat, by omega⟩
  rw [hn'] at hlt
  unfold gridWith
  rw [if_neg (by omega), hp, hn', run_bind_some (show Run.ofOption (some pts) = pure pts from rfl),
    gridLoop_tail]
  · rfl
  · simp only [List.length_nil, List.length_mapIdx]
    omega

/-- a grid of one point: every range is a single value -/
def onePoint (nCPUs : Int) : GridOptions F64 :=
  { (defaultXGridOptions : GridOptions F64) with
      rounds := ⟨20, 20, 1⟩, maxDepth := ⟨5, 5, 1⟩, learningRate := ⟨.fin (1/2), .fin (1/2), .fin 1⟩,
      gamma := ⟨.fin 0, .fin 0, .fin 1⟩, lambda := ⟨.fin 1, .fin 1, .fin 1⟩,
      subSample := ⟨.fin (1/2), .fin (1/2), .fin 1⟩, colSubSample := ⟨.fin (1/2), .fin (1/2), .fin 1⟩,
      minChildWeight := ⟨.fin 3, .fin 3, .fin 1⟩, nCPUs := nCPUs }

theorem nest_single {α β : Type} (a : α) (f : α → Option (List β)) : nest (some [a]) f = f a := by
  unfold nest
  cases h : f a <;> simp [h]

/-- the hypotheses of `C51_violated` and, with one CPU, of `C51_best_divisible` are met by this grid -/
theorem onePoint_points (nCPUs : Int) :
    ∃ O, gridPoints 2 (onePoint nCPUs) = some [O] ∧ O.rounds = 20 ∧ O.gamma = .fin 0 := by
  refine ⟨gridPoint (onePoint nCPUs) 20 (.fin 3) 5 (.fin (1/2)) (.fin (1/2)) (.fin 1) (.fin 0) (.fin (1/2)), ?_, rfl, rfl⟩
  have h1 : (onePoint nCPUs).rounds.ints 2 = some [20] := rfl
  have h2 : (onePoint nCPUs).minChildWeight.floats 2 = some [.fin 3] := by
    show floatLoop 2 (XF.fin 3 : F64) (.fin 3) (.fin 1) = _
    decide +kernel
  have h3 : (onePoint nCPUs).maxDepth.ints 2 = some [5] := rfl
  have h4 : (onePoint nCPUs).colSubSample.floats 2 = some [.fin (1/2)] := by
    show floatLoop 2 (XF.fin (1/2) : F64) (.fin (1/2)) (.fin 1) = _
    decide +kernel
  have h5 : (onePoint nCPUs).learningRate.floats 2 = some [.fin (1/2)] := h4
  have h6 : (onePoint nCPUs).lambda.floats 2 = some [.fin 1] := by
    show floatLoop 2 (XF.fin 1 : F64) (.fin 1) (.fin 1) = _
    decide +kernel
  have h7 : (onePoint nCPUs).gamma.floats 2 = some [.fin 0] := by
    show floatLoop 2 (XF.fin 0 : F64) (.fin 0) (.fin 1) = _
    decide +kernel
  have h8 : (onePoint nCPUs).subSample.floats 2 = some [.fin (1/2)] := h4
  unfold gridPoints
  rw [h1, nest_single, h2, nest_single, h3, nest_single, h4, nest_single, h5, nest_single, h6, nest_single, h7,
    nest_single, h8]
  rfl

/-- with 1 CPU the accuracy 90 of the only point is returned, with 2 CPUs it is lost -/
example (cv : Nat → Options F64 → Run (CVOut F64))
    (hcv : ∀ j O, cv j O = pure ⟨[.err false, .acc (.fin 90), .opt (some O)], .fin 90, false, some O⟩) :
    (∃ O, gridWith cv 2 (onePoint 1) = pure ⟨.fin 90, [], some O, false⟩) ∧
      gridWith cv 2 (onePoint 2) = pure ⟨.fin 0, [], none, false⟩ := by
  constructor
  · obtain ⟨O, hO, _⟩ := onePoint_points 1
    have := gridWith_ok cv 2 (onePoint 1) 1 (by omega) rfl [O] hO
      [⟨[.err false, .acc (.fin 90), .opt (some O)], .fin 90, false, some O⟩] (by simp) (by
        intro i O' out h1 h2
        cases i with
        | zero =>
          simp only [List.getElem?_cons_zero, Option.some.injEq] at h1 h2
          subst h1 h2
          exact ⟨hcv 0 O, rfl, by show ((XF.fin 90 : F64) <. zero) = false; decide +kernel⟩
        | succ i => simp at h1)
    refine ⟨O, this.trans ?_⟩
    have hb : bestOf ((zero, none) : BestAcc F64) [(.fin 90, some O)] = (.fin 90, some O) := by
      unfold bestOf updateBest
      simp only [List.foldl_cons, List.foldl_nil]
      rw [if_pos (by decide +kernel)]
    show pure (gridRet (some (bestOf _ [(XF.fin 90, some O)]))) = _
    rw [hb]
    rfl
  · obtain ⟨O, hO, _⟩ := onePoint_points 2
    have hz : (XF.fin 0 : F64) = zero := by decide +kernel
    rw [hz]
    exact C51_violated cv 2 (onePoint 2) [O] hO (by show (1 : Int) < 2; decide)

/-- **C51 is violated**: with `NCPUs = 0`, which is what `DefaultGGridOptions` sets, `Grid` panics if there is any point. -/
theorem C51_zero_cpus (cv : Nat → Options F → Run (CVOut F)) (fuel : Nat) (o : GridOptions F) (ho : o.nCPUs = 0)
    (pts : List (Options F)) (hp : gridPoints fuel o = some pts) (hne : pts ≠ []) :
    gridWith cv fuel o = Run.ofGo (.error .index) := by
  unfold gridWith
  rw [if_neg (by omega), hp, ho, run_bind_some (show Run.ofOption (some pts) = pure pts from rfl)]
  cases pts with
  | nil => exact absurd rfl hne
  | cons p ps =>
    rw [List.mapIdx_cons]
    rfl

theorem gridLoop_err (n : Nat) (hn : 0 < n) (p : List (CVMsg F)) (l : List (List (CVMsg F))) (hl : n ≤ l.length + 1)
    (best : BestAcc F) : gridLoop n (((.err true :: p) :: l).map pure) [] best = pure none := by
  obtain ⟨m, rfl⟩ : ∃ m, n = m + 1 := ⟨n - 1, by omega⟩
  have hsplit : ((.err true :: p) :: l).map (pure : _ → Run (List (CVMsg F))) =
      ((.err true :: p) :: l.take m).map pure ++ (l.drop m).map pure := by
    rw [← List.map_append, List.cons_append, List.take_append_drop]
  rw [hsplit, gridLoop_batch _ _ _ _ _ (by simp) (by simp; omega), List.nil_append]
  rw [run_bind_some (mapM_id_pure _)]
  have : rescueConcValues ((.err true :: p) :: l.take m) best = pure none := by
    unfold rescueConcValues
    rw [run_bind_some (show rescueOne best (.err true :: p) = pure none from rfl)]
  rw [run_bind_some this]
  rfl

/-- **C51, errors**: with two or three rows every cross-validation fails, and `Grid` reports the error with the accuracy -1
and nil options, provided there are at least `NCPUs` points. -/
theorem C51_error (exp : F → F) (S : GoSort) (fuel : Nat) (D : DataBunch F) (h2 : 2 ≤ D.data.length)
    (h3 : D.data.length ≤ 3) (nfold : Int) (o : GridOptions F) (idraws : Nat → List Nat) (fdraws : Nat → Nat → Nat → F)
    (hn : 0 < o.nCPUs) (pts : List (Options F)) (hp : gridPoints fuel o = some pts) (hlen : o.nCPUs ≤ pts.length) :
    grid exp S fuel D nfold (some o) idraws fdraws = pure ⟨ofRat (-1), [], none, true⟩ := by
  have hcv : ∀ (j : Nat) (O : Options F),
      (crossValidation exp S D nfold (some O) true (idraws j) (fdraws j)).map CVOut.sent =
        pure [.err true, .acc (ofRat (-1)), .opt none] := by
    intro j O
    obtain ⟨out, he, h⟩ := (C54_when_error exp S D nfold (some O) true (idraws j) (fdraws j) h2).1 (Or.inl h3)
    obtain ⟨_, hs, _⟩ := C54_error _ _ _ _ _ _ _ _ _ h he
    rw [h]
    show (pure out.sent : Run (List (CVMsg F))) = _
    rw [hs]
    rfl
  unfold grid gridWith
  show (if o.nCPUs < 0 then _ else _) = _
  rw [if_neg (by omega)]
  show (do let pts ← Run.ofOption (gridPoints fuel o); _) = _
  rw [hp, run_bind_some (show Run.ofOption (some pts) = pure pts from rfl)]
  have hm : (pts.mapIdx fun j O => (crossValidation exp S D nfold (some O) true (idraws j) (fdraws j)).map CVOut.sent) =
      (pts.map fun _ => [.err true, .acc (ofRat (-1)), .opt none]).map pure := by
    apply List.ext_getElem?
    intro i
    rw [List.getElem?_mapIdx, List.getElem?_map, List.getElem?_map, Option.map_map]
    cases pts[i]? with
    | none => rfl
    | some O => simp only [Option.map_some]; rw [hcv]; rfl
  rw [hm]
  obtain ⟨n, hn'⟩ : ∃ n : Nat, o.nCPUs = n := ⟨o.nCPUs.toNat, by omega⟩
  show (do let best ← gridLoop o.nCPUs _ [] (zero, none); pure (gridRet best)) = _
  rw [hn'] at hlen hn ⊢
  cases pts with
  | nil => simp at hlen; omega
  | cons O pts =>
    rw [List.map_cons, run_bind_some (gridLoop_err n (by omega) _ _ (by simp at hlen ⊢; omega) _)]
    rfl

/-- the accuracies are never returned -/
theorem C51_no_accuracies (cv : Nat → Options F → Run (CVOut F)) (fuel : Nat) (o : GridOptions F) (ret : GridRet F)
    (h : gridWith cv fuel o = pure ret) : ret.accs = [] := by
  unfold gridWith at h
  split at h
  · rw [ofGo_eq] at h; cases h
  · obtain ⟨pts, _, h⟩ := run_bind_ok h
    obtain ⟨best, _, h⟩ := run_bind_ok h
    rw [run_pure_eq] at h
    subst h
    cases best <;> rfl

/-! ### C52 -/

/-- **C52**: the workers send an error, an accuracy and options each (C54). Under every schedule of the caller and the
workers, with any number of CPUs: there is no infinite execution; when nothing can move any more, `Grid` has returned what
the sequential program returns (so the schedule does not matter), and no worker is computing. -/
theorem C52_schedules (n : Nat) (hn : 0 < n) (msgs : List (List (CVMsg F))) (hmsgs : ∀ p ∈ msgs, IsTriple p) :
    (¬ ∃ f : Nat → GridState F, f 0 = gridStart msgs ∧ ∀ k, GridStep n (f k) (f (k + 1))) ∧
    ∀ s, Relation.ReflTransGen (GridStep n) (gridStart msgs) s → (∀ s', ¬ GridStep n s s') →
      ∃ r, s.main = .returned r ∧ gridLoop n (msgs.map pure) [] (zero, none) = pure r ∧
        ∀ w ∈ s.workers, w.busy = false := by
  constructor
  · rintro ⟨f, _, hf⟩
    have hdec : ∀ k, (f k).cost + k ≤ (f 0).cost := by
      intro k
      induction k with
      | zero => simp
      | succ k ih =>
        have := gridStep_cost (hf k)
        omega
    have := hdec ((f 0).cost + 1)
    omega
  · intro s hr hstuck
    have key : GridInv n s ∧ GridShape n msgs s ∧ seqRest n s = seqRest n (gridStart msgs) := by
      clear hstuck
      induction hr with
      | refl => exact ⟨gridStart_inv hn msgs, gridStart_shape n msgs, rfl⟩
      | tail _ hstep ih =>
        obtain ⟨h1, h2, h3⟩ := ih
        obtain ⟨h4, h5⟩ := gridStep_inv hn hstep h1
        exact ⟨h4, gridStep_shape hmsgs hstep h1 h2, h5.trans h3⟩
    obtain ⟨hi, hs, hseq⟩ := key
    obtain ⟨⟨r, hm⟩, hb⟩ := grid_progress hmsgs hi hs hstuck
    refine ⟨r, hm, ?_, hb⟩
    have h1 : seqRest n s = pure r := by unfold seqRest; rw [hm]
    rw [← h1, hseq]
    rfl

/-- **C52**: the workers of the package send such triples. -/
theorem C52_messages (exp : F → F) (S : GoSort) (D : DataBunch F) (nfold : Int) (O : Option (Options F))
    (idraws : List Nat) (fdraws : Nat → Nat → F) (out : CVOut F)
    (h : crossValidation exp S D nfold O true idraws fdraws = pure out) : IsTriple out.sent := by
  cases he : out.err with
  | true =>
    obtain ⟨_, hs, _⟩ := C54_error _ _ _ _ _ _ _ _ _ h he
    exact ⟨_, _, _, hs⟩
  | false =>
    obtain ⟨_, _, _, _, _, _, _, _, _, _, hs, _⟩ := C54_cross_validation_partial _ _ _ _ _ _ _ _ _ h he
    exact ⟨_, _, _, hs⟩

/-- every execution can be continued to one that ends, so the hypotheses of the theorems about ended executions are met -/
theorem C52_ends (n : Nat) (s₀ : GridState F) : ∃ s, Relation.ReflTransGen (GridStep n) s₀ s ∧ ∀ s', ¬ GridStep n s s' := by
  induction hc : s₀.cost using Nat.strong_induction_on generalizing s₀ with
  | _ c ih =>
    by_cases h : ∃ s', GridStep n s₀ s'
    · obtain ⟨s', hs⟩ := h
      obtain ⟨s, h1, h2⟩ := ih s'.cost (hc ▸ gridStep_cost hs) s' rfl
      exact ⟨s, Relation.ReflTransGen.head hs h1, h2⟩
    · exact ⟨s₀, Relation.ReflTransGen.refl, fun s' hs => h ⟨s', hs⟩⟩

/-- **C52, collected results**: if no worker reports an error or a negative accuracy and `n` divides the number of points,
every worker has ended when `Grid` has returned. In general exactly the last `N mod n` workers remain, each blocked for
ever before its first send. -/
theorem C52_collected (n : Nat) (hn : 0 < n) (results : List (F × Option (Options F)))
    (h0 : ∀ r ∈ results, (r.1 <. zero) = false) (s : GridState F)
    (hr : Relation.ReflTransGen (GridStep n) (gridStart (results.map fun r => okMsgs r.1 r.2)) s)
    (hstuck : ∀ s', ¬ GridStep n s s') :
    s.workers.length = results.length ∧ ∀ (k : Nat) w, s.workers[k]? = some w →
      (k < n * (results.length / n) → w = ⟨false, []⟩) ∧
      (n * (results.length / n) ≤ k → ∃ r, results[k]? = some r ∧ w = ⟨false, okMsgs r.1 r.2⟩) := by
  set msgs := results.map fun r => okMsgs r.1 r.2 with hmsgsdef
  have hmsgs : ∀ p ∈ msgs, IsTriple p := by
    intro p hp
    obtain ⟨r, _, rfl⟩ := List.mem_map.1 hp
    exact ⟨_, _, _, rfl⟩
  obtain ⟨r, hm, hseq, hb⟩ := (C52_schedules n hn msgs hmsgs).2 s hr hstuck
  have key : GridInv n s ∧ GridShape n msgs s := by
    clear hstuck hm hb
    induction hr with
    | refl => exact ⟨gridStart_inv hn msgs, gridStart_shape n msgs⟩
    | tail _ hstep ih =>
      obtain ⟨h1, h2⟩ := ih
      exact ⟨(gridStep_inv hn hstep h1).1, gridStep_shape hmsgs hstep h1 h2⟩
  obtain ⟨hi, hs⟩ := key
  have hok : ∃ b, r = some b := by
    have hle : n * (results.length / n) ≤ results.length := Nat.mul_div_le _ _
    have hmod := Nat.div_add_mod results.length n
    have hmlt := Nat.mod_lt results.length hn
    have hsplit : msgs.map (pure : _ → Run (List (CVMsg F))) =
        ((results.take (n * (results.length / n))).map fun r => pure (okMsgs r.1 r.2)) ++
        ((results.drop (n * (results.length / n))).map fun r => pure (okMsgs r.1 r.2)) := by
      rw [← List.map_append, List.take_append_drop, hmsgsdef, List.map_map]
      rfl
    rw [hsplit, gridLoop_ok n hn _ (by rw [List.length_map, List.length_drop]; omega) (results.length / n) _
      (by rw [List.length_take]; omega) (fun r hr => h0 r (List.mem_of_mem_take hr))] at hseq
    rw [run_pure_eq] at hseq
    exact ⟨_, hseq.symm⟩
  obtain ⟨b, rfl⟩ := hok
  obtain ⟨ht, hlt⟩ := hs.ended b hm
  have hml : msgs.length = results.length := by rw [hmsgsdef, List.length_map]
  have hlen : s.workers.length = results.length := by
    have h1 := hs.todo
    rw [ht] at h1
    have h2 := congrArg List.length h1
    rw [List.length_drop, List.length_nil] at h2
    have := hs.len
    omega
  have hbase : s.base = n * (results.length / n) := by
    obtain ⟨q, hq⟩ := hs.dvd
    have hb2 := hi.base
    rw [hlen] at hb2 hlt
    have : results.length / n = q := by
      rw [hq] at hb2 hlt
      refine Nat.div_eq_of_lt_le ?_ ?_
      · rw [Nat.mul_comm]; exact hb2
      · rw [Nat.add_mul, Nat.one_mul, Nat.mul_comm q n]; omega
    rw [this, hq]
  refine ⟨hlen, ?_⟩
  intro k w hk
  have hkl := (List.getElem?_eq_some_iff.1 hk).1
  have hrk : results[k]? = some results[k] := List.getElem?_eq_getElem (by omega)
  have hp : msgs[k]? = some (okMsgs results[k].1 results[k].2) := by
    rw [hmsgsdef, List.getElem?_map, hrk]; rfl
  have hsh := hs.shape k w _ hk hp
  unfold Shape at hsh
  rw [hm] at hsh
  simp only [hbase] at hsh
  constructor
  · intro hlt'
    rw [if_pos hlt'] at hsh
    exact hsh
  · intro hge
    rw [if_neg (by omega)] at hsh
    refine ⟨_, hrk, ?_⟩
    have hbz := hb w (List.mem_of_getElem? hk)
    obtain ⟨bz, l⟩ := w
    simp only at hsh hbz
    rw [hsh, hbz]

/-- **C52 is violated on errors**: under every schedule, if `Grid` returns an error some worker never ends: it has values
left to send and no continuation of the execution makes it send any. -/
theorem C52_error_leak (n : Nat) (hn : 0 < n) (msgs : List (List (CVMsg F))) (hmsgs : ∀ p ∈ msgs, IsTriple p)
    (s : GridState F) (hr : Relation.ReflTransGen (GridStep n) (gridStart msgs) s) (hm : s.main = .returned none) :
    ∃ (k : Nat) (l : List (CVMsg F)), l ≠ [] ∧
      ∀ s', Relation.ReflTransGen (GridStep n) s s' → ∃ b, s'.workers[k]? = some ⟨b, l⟩ := by
  have key : GridInv n s ∧ GridShape n msgs s ∧
      (s.main = .returned none → ∃ (k : Nat) (l : List (CVMsg F)) (b : Bool), l ≠ [] ∧ s.workers[k]? = some ⟨b, l⟩) := by
    clear hm
    induction hr with
    | refl => exact ⟨gridStart_inv hn msgs, gridStart_shape n msgs, fun h => by cases h⟩
    | tail _ hstep ih =>
      obtain ⟨h1, h2, h3⟩ := ih
      refine ⟨(gridStep_inv hn hstep h1).1, gridStep_shape hmsgs hstep h1 h2, ?_⟩
      intro hm
      cases hstep with
      | launch best p ps hm' ht hc =>
        simp only at hm
        split at hm <;> cases hm
      | finish best hm' ht => cases hm
      | compute k left hk =>
        obtain ⟨j, l, b, hl, hj⟩ := h3 hm
        by_cases hjk : k = j
        · subst hjk
          rw [hk] at hj
          simp only [Option.some.injEq, Worker.mk.injEq] at hj
          refine ⟨k, l, false, hl, ?_⟩
          simp only
          rw [List.getElem?_set_self (List.getElem?_eq_some_iff.1 hk).1, hj.2]
        · refine ⟨j, l, b, hl, ?_⟩
          simp only
          rw [List.getElem?_set_ne hjk, hj]
      | recvErr i best e left hm' hk =>
        refine ⟨_, left, false, ?_, List.getElem?_set_self (List.getElem?_eq_some_iff.1 hk).1⟩
        have hlt := (List.getElem?_eq_some_iff.1 hk).1
        obtain ⟨p, hp⟩ : ∃ p, msgs[_]? = some p := ⟨_, List.getElem?_eq_getElem (lt_of_lt_of_le hlt h2.len)⟩
        have hsh := h2.shape _ _ _ hk hp
        unfold Shape at hsh
        rw [hm'] at hsh
        simp only [lt_irrefl, if_false] at hsh
        obtain ⟨e', a, o, rfl⟩ := hmsgs p (List.mem_of_getElem? hp)
        simp only [List.cons.injEq] at hsh
        rw [hsh.2]
        simp
      | recvAcc i best a left hm' hk =>
        refine ⟨_, left, false, ?_, List.getElem?_set_self (List.getElem?_eq_some_iff.1 hk).1⟩
        have hlt := (List.getElem?_eq_some_iff.1 hk).1
        obtain ⟨p, hp⟩ : ∃ p, msgs[_]? = some p := ⟨_, List.getElem?_eq_getElem (lt_of_lt_of_le hlt h2.len)⟩
        have hsh := h2.shape _ _ _ hk hp
        unfold Shape at hsh
        rw [hm'] at hsh
        simp only [lt_irrefl, if_false, if_true] at hsh
        obtain ⟨e', a, o, rfl⟩ := hmsgs p (List.mem_of_getElem? hp)
        simp only [List.drop_succ_cons, List.drop_zero, Worker.mk.injEq, List.cons.injEq, true_and] at hsh
        rw [hsh.2]
        simp
      | recvOpt i best a o left hm' hk =>
        unfold afterWorker at hm
        split at hm <;> cases hm
  obtain ⟨k, l, b, hl, hk⟩ := key.2.2 hm
  refine ⟨k, l, hl, ?_⟩
  intro s' hr'
  have : s'.main = .returned none ∧ ∃ b, s'.workers[k]? = some ⟨b, l⟩ := by
    induction hr' with
    | refl => exact ⟨hm, b, hk⟩
    | tail _ hstep ih =>
      obtain ⟨h1, b', h2⟩ := ih
      cases hstep with
      | compute j left hj =>
        refine ⟨h1, ?_⟩
        by_cases hjk : j = k
        · subst hjk
          rw [hj] at h2
          simp only [Option.some.injEq, Worker.mk.injEq] at h2
          refine ⟨false, ?_⟩
          simp only
          rw [List.getElem?_set_self (List.getElem?_eq_some_iff.1 hj).1, h2.2]
        · refine ⟨b', ?_⟩
          simp only
          rw [List.getElem?_set_ne hjk, h2]
      | launch best p ps hm' ht hc => rw [h1] at hm'; cases hm'
      | finish best hm' ht => rw [h1] at hm'; cases hm'
      | recvErr i best e left hm' hk => rw [h1] at hm'; cases hm'
      | recvAcc i best a left hm' hk => rw [h1] at hm'; cases hm'
      | recvOpt i best a o left hm' hk => rw [h1] at hm'; cases hm'
  exact this.2

/-- an execution with two CPUs and a failing first worker that ends in such a state -/
example (a : F) (o : Option (Options F)) :
    ∃ s : GridState F, Relation.ReflTransGen (GridStep 2) (gridStart [[.err true, .acc a, .opt o], okMsgs a o]) s ∧
      s.main = .returned none := by
  have h1 : Relation.ReflTransGen (GridStep 2) (gridStart [[.err true, .acc a, .opt o], okMsgs a o]) _ :=
    Relation.ReflTransGen.refl
  have h2 := h1.tail (GridStep.launch _ _ _ _ rfl rfl (by simp [gridStart]))
  have h3 := h2.tail (GridStep.launch _ (zero, none) (okMsgs a o) [] rfl rfl (by simp [gridStart]))
  have h4 := h3.tail (GridStep.compute _ 0 [.err true, .acc a, .opt o] rfl)
  have h5 := h4.tail (GridStep.recvErr _ 0 (zero, none) true [.acc a, .opt o] rfl rfl)
  exact ⟨_, h5, rfl⟩

/-! ### C53 -/

/-- `v` is one of `lo`, `lo + step`, `lo + 2 step`, …, not above `hi` -/
def InProgression {K : Type} [Field K] [LinearOrder K] (lo hi step v : K) : Prop := ∃ k : ℕ, v = lo + k * step ∧ v ≤ hi

/-- **C53 (ints)**: the loop visits exactly the values of the progression, in increasing order. -/
theorem C53_int_loop (lo hi step : Int) (hs : 0 < step) :
    ∃ fuel₀, ∀ fuel ≥ fuel₀, ∃ l, intLoop fuel lo hi step = some l ∧ l.Pairwise (· < ·) ∧
      ∀ v, v ∈ l ↔ ∃ k : ℕ, v = lo + k * step ∧ v ≤ hi := by
  obtain ⟨N, hN⟩ : ∃ N : ℕ, hi < lo + N * step := ⟨(hi - lo + 1).toNat, by nlinarith [Int.self_le_toNat (hi - lo + 1)]⟩
  induction N generalizing lo with
  | zero =>
    refine ⟨1, fun fuel hf => ⟨[], ?_, List.Pairwise.nil, ?_⟩⟩
    · obtain ⟨f, rfl⟩ : ∃ f, fuel = f + 1 := ⟨fuel - 1, by omega⟩
      unfold intLoop
      rw [if_neg (by push_cast at hN; linarith)]
    · intro v
      simp only [List.not_mem_nil, false_iff, not_exists, not_and, not_le]
      intro k hk
      have : 0 ≤ (k : Int) * step := by positivity
      push_cast at hN
      linarith
  | succ N ih =>
    obtain ⟨f0, h0⟩ := ih (lo + step) (by push_cast at hN; linarith)
    refine ⟨f0 + 1, fun fuel hf => ?_⟩
    obtain ⟨f, rfl⟩ : ∃ f, fuel = f + 1 := ⟨fuel - 1, by omega⟩
    obtain ⟨l, hl, hp, hm⟩ := h0 f (by omega)
    unfold intLoop
    by_cases hle : lo ≤ hi
    · rw [if_pos hle, hl]
      refine ⟨lo :: l, rfl, ?_, ?_⟩
      · refine List.pairwise_cons.2 ⟨?_, hp⟩
        intro v hv
        obtain ⟨k, hk, _⟩ := (hm v).1 hv
        have : 0 ≤ (k : Int) * step := by positivity
        linarith
      · intro v
        rw [List.mem_cons, hm]
        constructor
        · rintro (rfl | ⟨k, hk, hv⟩)
          · exact ⟨0, by simp, hle⟩
          · exact ⟨k + 1, by rw [hk]; push_cast; ring, hv⟩
        · rintro ⟨k, hk, hv⟩
          cases k with
          | zero => left; simpa using hk
          | succ k => right; exact ⟨k, by rw [hk]; push_cast; ring, hv⟩
    · rw [if_neg hle]
      refine ⟨[], rfl, List.Pairwise.nil, ?_⟩
      intro v
      simp only [List.not_mem_nil, false_iff, not_exists, not_and, not_le]
      intro k hk
      have : 0 ≤ (k : Int) * step := by positivity
      linarith

section
variable {K : Type} [Field K] [LinearOrder K] [FloorRing K] [IsStrictOrderedRing K]

/-- the loop visits the progression if no addition made by it is rounded -/
theorem floatLoop_unrounded [Archimedean K] {R : Rounder K} (lo hi step : K) (hs : 0 < step)
    (hadd : ∀ k : ℕ, lo + k * step ≤ hi →
      ((.fin (lo + k * step) : XF R) +. .fin step) = .fin (lo + ((k + 1 : ℕ) : K) * step)) :
    ∃ fuel₀, ∀ fuel ≥ fuel₀, ∃ l : List K, floatLoop fuel (.fin lo : XF R) (.fin hi) (.fin step) = some (l.map .fin) ∧
      l.Pairwise (· < ·) ∧ ∀ v, v ∈ l ↔ InProgression lo hi step v := by
  have hnil : hi < lo → ∀ v, v ∈ ([] : List K) ↔ InProgression lo hi step v := by
    intro hlt v
    unfold InProgression
    simp only [List.not_mem_nil, false_iff, not_exists, not_and, not_le]
    intro k hk
    have : 0 ≤ (k : K) * step := by positivity
    linarith
  obtain ⟨N, hN⟩ : ∃ N : ℕ, hi < lo + N * step := by
    obtain ⟨N, hN⟩ := Archimedean.arch (hi - lo + step) hs
    refine ⟨N, ?_⟩
    rw [nsmul_eq_mul] at hN
    linarith
  induction N generalizing lo with
  | zero =>
    have hlt : hi < lo := by push_cast at hN; linarith
    refine ⟨1, fun fuel hf => ⟨[], ?_, List.Pairwise.nil, hnil hlt⟩⟩
    obtain ⟨f, rfl⟩ : ∃ f, fuel = f + 1 := ⟨fuel - 1, by omega⟩
    unfold floatLoop
    rw [XF.fin_le, decide_eq_false (not_le.2 hlt)]
    rfl
  | succ N ih =>
    by_cases hle : lo ≤ hi
    · have h1 := hadd 0 (by simpa using hle)
      have h1' : ((.fin lo : XF R) +. .fin step) = .fin (lo + step) := by simpa using h1
      obtain ⟨f0, h0⟩ := ih (lo + step) (fun k hk => by
          have := hadd (k + 1) (by push_cast; linarith)
          have e1 : lo + ((k + 1 : ℕ) : K) * step = lo + step + (k : K) * step := by push_cast; ring
          have e2 : lo + ((k + 1 + 1 : ℕ) : K) * step = lo + step + ((k + 1 : ℕ) : K) * step := by push_cast; ring
          rw [e1, e2] at this
          exact this)
        (fun hlt v => by
          unfold InProgression
          simp only [List.not_mem_nil, false_iff, not_exists, not_and, not_le]
          intro k hk
          have : 0 ≤ (k : K) * step := by positivity
          linarith) (by push_cast at hN; linarith)
      refine ⟨f0 + 1, fun fuel hf => ?_⟩
      obtain ⟨f, rfl⟩ : ∃ f, fuel = f + 1 := ⟨fuel - 1, by omega⟩
      obtain ⟨l, hl, hp, hm⟩ := h0 f (by omega)
      unfold floatLoop
      rw [XF.fin_le, decide_eq_true hle, if_pos rfl, h1', hl]
      refine ⟨lo :: l, rfl, ?_, ?_⟩
      · refine List.pairwise_cons.2 ⟨?_, hp⟩
        intro v hv
        obtain ⟨k, hk, _⟩ := (hm v).1 hv
        have : 0 ≤ (k : K) * step := by positivity
        linarith
      · intro v
        rw [List.mem_cons, hm]
        constructor
        · rintro (rfl | ⟨k, hk, hv⟩)
          · exact ⟨0, by simp, hle⟩
          · exact ⟨k + 1, by rw [hk]; push_cast; ring, hv⟩
        · rintro ⟨k, hk, hv⟩
          cases k with
          | zero => left; simpa using hk
          | succ k => right; exact ⟨k, by rw [hk]; push_cast; ring, hv⟩
    · refine ⟨1, fun fuel hf => ⟨[], ?_, List.Pairwise.nil, hnil (not_le.1 hle)⟩⟩
      obtain ⟨f, rfl⟩ : ∃ f, fuel = f + 1 := ⟨fuel - 1, by omega⟩
      unfold floatLoop
      rw [XF.fin_le, decide_eq_false hle]
      rfl

/-- **C53 (floats, exact arithmetic)**: the loop visits exactly the values of the progression, in increasing order. -/
theorem C53_float_loop_exact [Archimedean K] (lo hi step : K) (hs : 0 < step) :
    ∃ fuel₀, ∀ fuel ≥ fuel₀, ∃ l : List K, floatLoop fuel (.fin lo : Exact K) (.fin hi) (.fin step) = some (l.map .fin) ∧
      l.Pairwise (· < ·) ∧ ∀ v, v ∈ l ↔ InProgression lo hi step v :=
  floatLoop_unrounded lo hi step hs fun k _ => by
    rw [Exact.add_fin]
    congr 1
    push_cast
    ring

end

/-- **C53 (floats, binary64, values on a common binary grid)**: if the bounds and the step are integer multiples of one
power of two and the multiples are small, the same holds in binary64. Missing for other values: rounding, see
`C53_binary64_violated`. -/
theorem C53_float_loop_binary64_partial (a b s e : Int) (hs : 0 < s) (ha : |a| < 2 ^ 53) (hb : b + s < 2 ^ 53)
    (he : -1074 ≤ e) (he' : e ≤ 971) :
    ∃ fuel₀, ∀ fuel ≥ fuel₀, ∃ l : List ℚ,
      floatLoop fuel (.fin (a * 2 ^ e) : F64) (.fin (b * 2 ^ e)) (.fin (s * 2 ^ e)) = some (l.map .fin) ∧
      l.Pairwise (· < ·) ∧ ∀ v, v ∈ l ↔ InProgression ((a : ℚ) * 2 ^ e) (b * 2 ^ e) (s * 2 ^ e) v := by
  have h2 := two_zpow_pos e
  refine floatLoop_unrounded _ _ _ (mul_pos (by exact_mod_cast hs) h2) ?_
  intro k hk
  have e1 : (a : ℚ) * 2 ^ e + (k : ℚ) * (s * 2 ^ e) = ((a + k * s : Int) : ℚ) * 2 ^ e := by push_cast; ring
  have e2 : (a : ℚ) * 2 ^ e + ((k + 1 : ℕ) : ℚ) * (s * 2 ^ e) = ((a + (k + 1) * s : Int) : ℚ) * 2 ^ e := by push_cast; ring
  rw [e1] at hk ⊢
  rw [e2]
  have h3 : a + k * s ≤ b := by
    have := le_of_mul_le_mul_right hk h2
    exact_mod_cast this
  have h4 : (0 : Int) ≤ k * s := by positivity
  have habs : |a + (k + 1) * s| < 2 ^ 53 := by
    rw [abs_lt] at ha ⊢
    constructor <;> nlinarith
  have hrep := rep64_grid habs he he'
  show XF.round _ = _
  have e3 : ((a + k * s : Int) : ℚ) * 2 ^ e + s * 2 ^ e = ((a + (k + 1) * s : Int) : ℚ) * 2 ^ e := by push_cast; ring
  rw [e3]
  unfold XF.round b64 b64o
  unfold Rep64 at hrep
  simp only [hrep]

/-- the learning rates 0, 1/4, 1/2 -/
example : floatLoop 4 (.fin 0 : F64) (.fin (1/2)) (.fin (1/4)) = some [.fin 0, .fin (1/4), .fin (1/2)] := by
  decide +kernel

/-- **C53 is violated in binary64**: from 0.1 to 0.3 in steps of 0.1 the loop stops at 0.2, because 0.1 + 0.1 + 0.1 is
rounded to a value above 0.3. -/
theorem C53_binary64_violated :
    floatLoop 4 (ofRat (1/10) : F64) (ofRat (3/10)) (ofRat (1/10)) = some [ofRat (1/10), ofRat (2/10)] := by
  decide +kernel

theorem floatLoop_le {fuel : Nat} {lo hi step : F} {l : List F} (h : floatLoop fuel lo hi step = some l) :
    ∀ v ∈ l, (v <=. hi) = true := by
  induction fuel generalizing lo l with
  | zero => cases h
  | succ fuel ih =>
    unfold floatLoop at h
    split at h
    · rename_i hle
      obtain ⟨l', hl', rfl⟩ := Option.map_eq_some_iff.1 h
      intro v hv
      rcases List.mem_cons.1 hv with rfl | hv
      · exact hle
      · exact ih hl' v hv
    · simp only [Option.some.injEq] at h
      subst h
      simp

theorem intLoop_le {fuel : Nat} {lo hi step : Int} {l : List Int} (h : intLoop fuel lo hi step = some l) :
    ∀ v ∈ l, v ≤ hi := by
  induction fuel generalizing lo l with
  | zero => cases h
  | succ fuel ih =>
    unfold intLoop at h
    split at h
    · rename_i hle
      obtain ⟨l', hl', rfl⟩ := Option.map_eq_some_iff.1 h
      intro v hv
      rcases List.mem_cons.1 hv with rfl | hv
      · exact hle
      · exact ih hl' v hv
    · simp only [Option.some.injEq] at h
      subst h
      simp

theorem intLoop_ge {fuel : Nat} {lo hi step : Int} (hs : 0 ≤ step) {l : List Int} (h : intLoop fuel lo hi step = some l) :
    ∀ v ∈ l, lo ≤ v := by
  induction fuel generalizing lo l with
  | zero => cases h
  | succ fuel ih =>
    unfold intLoop at h
    split at h
    · obtain ⟨l', hl', rfl⟩ := Option.map_eq_some_iff.1 h
      intro v hv
      rcases List.mem_cons.1 hv with rfl | hv
      · exact le_refl _
      · have := ih hl' v hv
        omega
    · simp only [Option.some.injEq] at h
      subst h
      simp

theorem floatLoop_ge64 {fuel : Nat} {lo x hi step : ℚ} (hlo : Rep64 lo) (hs : 0 ≤ step) (hx : lo ≤ x) {l : List F64}
    (h : floatLoop fuel (.fin x : F64) (.fin hi) (.fin step) = some l) :
    ∀ v ∈ l, ∃ q, v = .fin q ∧ lo ≤ q ∧ q ≤ hi := by
  induction fuel generalizing x l with
  | zero => cases h
  | succ fuel ih =>
    unfold floatLoop at h
    rw [XF.fin_le] at h
    split at h
    · rename_i hle
      obtain ⟨l', hl', rfl⟩ := Option.map_eq_some_iff.1 h
      intro v hv
      rcases List.mem_cons.1 hv with rfl | hv
      · exact ⟨x, rfl, hx, by simpa using hle⟩
      · have hadd : ((.fin x : F64) +. .fin step) = XF.round (x + step) := rfl
        rw [hadd] at hl'
        have hsum : lo ≤ rv (x + step) := by
          rw [← (rep64_rv hlo).1]
          exact rv_mono (by linarith)
        by_cases hfin : |rv (x + step)| < 2 ^ (1024 : Int)
        · rw [round64_fin hfin] at hl'
          exact ih hsum hl' v hv
        · have hneg : ¬ x + step < 0 := by
            intro hneg
            have h1 : rv (x + step) ≤ 0 := by rw [← rv_zero]; exact rv_mono hneg.le
            have h2 := (rep64_rv hlo).2
            apply hfin
            generalize (2 : ℚ) ^ (1024 : Int) = B at *
            rw [abs_lt] at h2 ⊢
            constructor <;> linarith
          have hinf : (XF.round (x + step) : F64) = .inf false := by
            unfold XF.round b64 b64o
            simp only [rnd64_eq]
            rw [if_pos (not_lt.1 hfin)]
            simp only [decide_eq_false hneg]
          rw [hinf] at hl'
          cases fuel with
          | zero => cases hl'
          | succ fuel =>
            unfold floatLoop at hl'
            rw [if_neg (by show ¬ ((XF.inf false : F64) <=. .fin hi) = true; simp [XF.le_def, XF.lt, XF.eq])] at hl'
            simp only [Option.some.injEq] at hl'
            subst hl'
            cases hv
    · simp only [Option.some.injEq] at h
      subst h
      simp

theorem nest_some {α β : Type} {l : Option (List α)} {f : α → Option (List β)} {r : List β} (h : nest l f = some r) :
    ∃ l' ls, l = some l' ∧ List.Forall₂ (fun a b => f a = some b) l' ls ∧ r = ls.flatten := by
  unfold nest at h
  obtain ⟨l', hl, h⟩ := Option.bind_eq_some_iff.1 h
  obtain ⟨ls, hls, h⟩ := Option.bind_eq_some_iff.1 h
  refine ⟨l', ls, hl, ?_, ?_⟩
  · clear * - hls
    induction l' generalizing ls with
    | nil => simp at hls; subst hls; exact List.Forall₂.nil
    | cons a l' ih =>
      rw [List.mapM_cons] at hls
      obtain ⟨b, hb, hls⟩ := Option.bind_eq_some_iff.1 hls
      obtain ⟨bs, hbs, hls⟩ := Option.bind_eq_some_iff.1 hls
      have : ls = b :: bs := by simpa using hls.symm
      subst this
      exact List.Forall₂.cons hb (ih bs hbs)
  · simpa using h.symm

theorem nest_mem {α β : Type} {l : Option (List α)} {f : α → Option (List β)} {r : List β} (h : nest l f = some r) (x : β) :
    x ∈ r ↔ ∃ a, (∃ l', l = some l' ∧ a ∈ l') ∧ ∃ b, f a = some b ∧ x ∈ b := by
  obtain ⟨l', ls, rfl, h2, rfl⟩ := nest_some h
  rw [List.mem_flatten]
  have h3 : (∃ b ∈ ls, x ∈ b) ↔ ∃ a ∈ l', ∃ b, f a = some b ∧ x ∈ b := by
    clear h
    induction h2 with
    | nil => simp
    | @cons a b l' ls hab _ ih =>
      rw [List.exists_mem_cons_iff, List.exists_mem_cons_iff, ih]
      simp [hab]
  rw [h3]
  simp

theorem nest_total {α β : Type} (l : List α) (f : α → Option (List β)) (h : ∀ a, ∃ b, f a = some b) :
    ∃ r, nest (some l) f = some r := by
  have : ∃ ls, l.mapM f = some ls := by
    induction l with
    | nil => exact ⟨[], rfl⟩
    | cons a l ih =>
      obtain ⟨b, hb⟩ := h a
      obtain ⟨ls, hls⟩ := ih
      exact ⟨b :: ls, by rw [List.mapM_cons, hb, hls]; rfl⟩
  obtain ⟨ls, hls⟩ := this
  exact ⟨ls.flatten, by unfold nest; simp [hls]⟩

theorem nest_all {α β : Type} {l : Option (List α)} {f : α → Option (List β)} {r : List β} (P : β → Prop)
    (hf : ∀ a b, f a = some b → ∀ x ∈ b, P x) (h : nest l f = some r) : ∀ x ∈ r, P x := by
  intro x hx
  obtain ⟨a, _, b, hb, hxb⟩ := (nest_mem h x).1 hx
  exact hf a b hb x hxb

theorem nest_nodup {α β : Type} {l : Option (List α)} {f : α → Option (List β)} {r : List β} (key : β → α)
    (hl : ∀ l', l = some l' → l'.Nodup) (hkey : ∀ a b, f a = some b → ∀ x ∈ b, key x = a)
    (hf : ∀ a b, f a = some b → b.Nodup) (h : nest l f = some r) : r.Nodup := by
  obtain ⟨l', ls, hl', h2, rfl⟩ := nest_some h
  have hnd := hl l' hl'
  clear h hl hl'
  induction h2 with
  | nil => simp
  | @cons a b l' ls hab h2 ih =>
    rw [List.nodup_cons] at hnd
    rw [List.flatten_cons, List.nodup_append']
    refine ⟨hf a b hab, ih hnd.2, ?_⟩
    intro x hx hx'
    obtain ⟨b', hb', hxb'⟩ := List.mem_flatten.1 hx'
    have : ∃ a' ∈ l', f a' = some b' := by
      clear ih hnd hx' hxb'
      induction h2 with
      | nil => cases hb'
      | cons hab' _ ih' =>
        rcases List.mem_cons.1 hb' with rfl | hb'
        · exact ⟨_, List.mem_cons_self, hab'⟩
        · obtain ⟨a', h1, h2⟩ := ih' hb'
          exact ⟨a', List.mem_cons_of_mem _ h1, h2⟩
    obtain ⟨a', ha', hfa'⟩ := this
    have e1 := hkey a b hab x hx
    have e2 := hkey a' b' hfa' x hxb'
    rw [e1] at e2
    exact hnd.1 (e2 ▸ ha')

/-- Everything but the eight searched parameters: the defaults of the kind of boosting, and the early stop and the kind of
the grid options. -/
def OtherFields (o : GridOptions F) (O : Options F) : Prop :=
  O = { (if o.xgb then defaultXOptions 0 else defaultGOptions 0 : Options F) with
    rounds := O.rounds, minChildWeight := O.minChildWeight, maxDepth := O.maxDepth, colSubSample := O.colSubSample,
    learningRate := O.learningRate, lambda := O.lambda, gamma := O.gamma, subSample := O.subSample,
    xgb := o.xgb, earlyStop := o.earlyStop }

/-- **C53 (any arithmetic)**: the points tried are the combinations of the values visited by the eight loops. -/
theorem C53_points (fuel : Nat) (o : GridOptions F) (pts : List (Options F)) (h : gridPoints fuel o = some pts)
    (O : Options F) : O ∈ pts ↔
      (∃ l, intLoop fuel o.rounds.lo o.rounds.hi o.rounds.step = some l ∧ O.rounds ∈ l) ∧
      (∃ l, floatLoop fuel o.minChildWeight.lo o.minChildWeight.hi o.minChildWeight.step = some l ∧ O.minChildWeight ∈ l) ∧
      (∃ l, intLoop fuel o.maxDepth.lo o.maxDepth.hi o.maxDepth.step = some l ∧ O.maxDepth ∈ l) ∧
      (∃ l, floatLoop fuel o.colSubSample.lo o.colSubSample.hi o.colSubSample.step = some l ∧ O.colSubSample ∈ l) ∧
      (∃ l, floatLoop fuel o.learningRate.lo o.learningRate.hi o.learningRate.step = some l ∧ O.learningRate ∈ l) ∧
      (∃ l, floatLoop fuel o.lambda.lo o.lambda.hi o.lambda.step = some l ∧ O.lambda ∈ l) ∧
      (∃ l, floatLoop fuel o.gamma.lo o.gamma.hi o.gamma.step = some l ∧ O.gamma ∈ l) ∧
      (∃ l, floatLoop fuel o.subSample.lo o.subSample.hi o.subSample.step = some l ∧ O.subSample ∈ l) ∧
      OtherFields o O := by
  unfold gridPoints at h
  constructor
  · intro hO
    obtain ⟨r, hr, _, h, hO⟩ := (nest_mem h O).1 hO
    obtain ⟨cw, hcw, _, h, hO⟩ := (nest_mem h O).1 hO
    obtain ⟨md, hmd, _, h, hO⟩ := (nest_mem h O).1 hO
    obtain ⟨css, hcss, _, h, hO⟩ := (nest_mem h O).1 hO
    obtain ⟨lr, hlr, _, h, hO⟩ := (nest_mem h O).1 hO
    obtain ⟨lam, hlam, _, h, hO⟩ := (nest_mem h O).1 hO
    obtain ⟨gam, hgam, _, h, hO⟩ := (nest_mem h O).1 hO
    obtain ⟨l, hl, rfl⟩ := Option.map_eq_some_iff.1 h
    obtain ⟨ss, hss, rfl⟩ := List.mem_map.1 hO
    exact ⟨hr, hcw, hmd, hcss, hlr, hlam, hgam, ⟨l, hl, hss⟩, rfl⟩
  · rintro ⟨hr, hcw, hmd, hcss, hlr, hlam, hgam, ⟨l, hl, hss⟩, hrest⟩
    have step : ∀ {α : Type} {q : Option (List α)} {f : α → Option (List (Options F))} {r : List (Options F)} {a : α},
        nest q f = some r → (∃ l', q = some l' ∧ a ∈ l') → ∃ b, f a = some b ∧ (O ∈ b → O ∈ r) := by
      intro α q f r a h ha
      obtain ⟨l', ls, hq, h2, rfl⟩ := nest_some h
      obtain ⟨l'', hq', ha⟩ := ha
      rw [hq, Option.some.injEq] at hq'
      subst hq'
      have : ∃ b, f a = some b := by
        clear h hq
        induction h2 with
        | nil => cases ha
        | cons hab _ ih =>
          rcases List.mem_cons.1 ha with rfl | ha
          · exact ⟨_, hab⟩
          · exact ih ha
      obtain ⟨b, hb⟩ := this
      exact ⟨b, hb, fun hO => (nest_mem h O).2 ⟨a, ⟨l', hq, ha⟩, b, hb, hO⟩⟩
    obtain ⟨_, h, e1⟩ := step h hr
    obtain ⟨_, h, e2⟩ := step h hcw
    obtain ⟨_, h, e3⟩ := step h hmd
    obtain ⟨_, h, e4⟩ := step h hcss
    obtain ⟨_, h, e5⟩ := step h hlr
    obtain ⟨_, h, e6⟩ := step h hlam
    obtain ⟨_, h, e7⟩ := step h hgam
    apply e1; apply e2; apply e3; apply e4; apply e5; apply e6; apply e7
    have hl' : o.subSample.floats fuel = some l := hl
    rw [hl', Option.map_some, Option.some.injEq] at h
    rw [← h]
    refine List.mem_map.2 ⟨O.subSample, hss, ?_⟩
    rw [hrest]
    rfl

/-- **C53, bounds (binary64)**: with finite ranges and steps that are not negative every option set tried lies within the
bounds. -/
theorem C53_bounds_binary64 (fuel : Nat) (o : GridOptions F64) (pts : List (Options F64)) (h : gridPoints fuel o = some pts)
    (hr : 0 ≤ o.rounds.step) (hd : 0 ≤ o.maxDepth.step)
    (hf : ∀ r ∈ [o.minChildWeight, o.colSubSample, o.learningRate, o.lambda, o.gamma, o.subSample],
      ∃ lo hi step : ℚ, r = ⟨.fin lo, .fin hi, .fin step⟩ ∧ Rep64 lo ∧ 0 ≤ step) (O : Options F64) (hO : O ∈ pts) :
    (o.rounds.lo ≤ O.rounds ∧ O.rounds ≤ o.rounds.hi) ∧ (o.maxDepth.lo ≤ O.maxDepth ∧ O.maxDepth ≤ o.maxDepth.hi) ∧
    ∀ p ∈ [(o.minChildWeight, O.minChildWeight), (o.colSubSample, O.colSubSample), (o.learningRate, O.learningRate),
      (o.lambda, O.lambda), (o.gamma, O.gamma), (o.subSample, O.subSample)],
      ∃ lo q hi : ℚ, p.1.lo = .fin lo ∧ p.2 = .fin q ∧ p.1.hi = .fin hi ∧ lo ≤ q ∧ q ≤ hi := by
  obtain ⟨⟨l1, h1, m1⟩, h2, ⟨l3, h3, m3⟩, h4, h5, h6, h7, h8, _⟩ := (C53_points fuel o pts h O).1 hO
  refine ⟨⟨intLoop_ge hr h1 _ m1, intLoop_le h1 _ m1⟩, ⟨intLoop_ge hd h3 _ m3, intLoop_le h3 _ m3⟩, ?_⟩
  have key : ∀ (r : Range3 F64) (v : F64), (∃ lo hi step : ℚ, r = ⟨.fin lo, .fin hi, .fin step⟩ ∧ Rep64 lo ∧ 0 ≤ step) →
      (∃ l, floatLoop fuel r.lo r.hi r.step = some l ∧ v ∈ l) →
      ∃ lo q hi : ℚ, r.lo = .fin lo ∧ v = .fin q ∧ r.hi = .fin hi ∧ lo ≤ q ∧ q ≤ hi := by
    rintro r v ⟨lo, hi, step, rfl, hlo, hs⟩ ⟨l, hl, hv⟩
    obtain ⟨q, hq, h1, h2⟩ := floatLoop_ge64 hlo hs (le_refl _) hl v hv
    exact ⟨lo, q, hi, rfl, hq, rfl, h1, h2⟩
  simp only [List.forall_mem_cons, List.not_mem_nil, false_imp_iff, implies_true, and_true] at hf ⊢
  obtain ⟨f1, f2, f3, f4, f5, f6⟩ := hf
  exact ⟨key _ _ f1 h2, key _ _ f2 h4, key _ _ f3 h5, key _ _ f4 h6, key _ _ f5 h7, key _ _ f6 h8⟩

section
variable {K : Type} [Field K] [LinearOrder K] [FloorRing K] [IsStrictOrderedRing K] [Archimedean K]

/-- a range of finite values with a positive step -/
def GoodRange (r : Range3 (Exact K)) : Prop := ∃ lo hi step : K, r = ⟨.fin lo, .fin hi, .fin step⟩ ∧ 0 < step

/-- `v` is one of `lo`, `lo + step`, … not above `hi` -/
def OnRange (r : Range3 (Exact K)) (v : Exact K) : Prop :=
  ∃ lo hi step q : K, r = ⟨.fin lo, .fin hi, .fin step⟩ ∧ v = .fin q ∧ InProgression lo hi step q

theorem goodRange_list (r : Range3 (Exact K)) (hr : GoodRange r) : ∃ fuel₀, ∀ fuel ≥ fuel₀, ∃ l,
    r.floats fuel = some l ∧ l.Nodup ∧ ∀ v, v ∈ l ↔ OnRange r v := by
  obtain ⟨lo, hi, step, rfl, hs⟩ := hr
  obtain ⟨f0, h0⟩ := C53_float_loop_exact lo hi step hs
  refine ⟨f0, fun fuel hf => ?_⟩
  obtain ⟨l, hl, hp, hm⟩ := h0 fuel hf
  refine ⟨l.map .fin, hl, ?_, ?_⟩
  · refine List.Nodup.map (fun a b h => by simpa using h) ?_
    exact hp.imp (fun h => ne_of_lt h)
  · intro v
    rw [List.mem_map]
    constructor
    · rintro ⟨q, hq, rfl⟩
      exact ⟨lo, hi, step, q, rfl, rfl, (hm q).1 hq⟩
    · rintro ⟨lo', hi', step', q, he, rfl, hq⟩
      simp only [Range3.mk.injEq, XF.fin.injEq] at he
      obtain ⟨rfl, rfl, rfl⟩ := he
      exact ⟨q, (hm q).2 hq, rfl⟩

/-- **C53 (exact arithmetic)**: with positive steps the loops end, and the option sets tried are exactly the combinations
of `init + k step` not above `final`, each of them once. -/
theorem C53_grid_exact (o : GridOptions (Exact K)) (hr : 0 < o.rounds.step) (hd : 0 < o.maxDepth.step)
    (hf : ∀ r ∈ [o.minChildWeight, o.colSubSample, o.learningRate, o.lambda, o.gamma, o.subSample], GoodRange r) :
    ∃ fuel₀, ∀ fuel ≥ fuel₀, ∃ pts, gridPoints fuel o = some pts ∧ pts.Nodup ∧ ∀ O, O ∈ pts ↔
      (∃ k : ℕ, O.rounds = o.rounds.lo + k * o.rounds.step ∧ O.rounds ≤ o.rounds.hi) ∧
      (∃ k : ℕ, O.maxDepth = o.maxDepth.lo + k * o.maxDepth.step ∧ O.maxDepth ≤ o.maxDepth.hi) ∧
      OnRange o.minChildWeight O.minChildWeight ∧ OnRange o.colSubSample O.colSubSample ∧
      OnRange o.learningRate O.learningRate ∧ OnRange o.lambda O.lambda ∧ OnRange o.gamma O.gamma ∧
      OnRange o.subSample O.subSample ∧ OtherFields o O := by
  simp only [List.forall_mem_cons, List.not_mem_nil, false_imp_iff, implies_true, and_true] at hf
  obtain ⟨f1, f2, f3, f4, f5, f6⟩ := hf
  obtain ⟨a1, g1⟩ := C53_int_loop o.rounds.lo o.rounds.hi o.rounds.step hr
  obtain ⟨a2, g2⟩ := goodRange_list _ f1
  obtain ⟨a3, g3⟩ := C53_int_loop o.maxDepth.lo o.maxDepth.hi o.maxDepth.step hd
  obtain ⟨a4, g4⟩ := goodRange_list _ f2
  obtain ⟨a5, g5⟩ := goodRange_list _ f3
  obtain ⟨a6, g6⟩ := goodRange_list _ f4
  obtain ⟨a7, g7⟩ := goodRange_list _ f5
  obtain ⟨a8, g8⟩ := goodRange_list _ f6
  refine ⟨a1 + a2 + a3 + a4 + a5 + a6 + a7 + a8, fun fuel hfuel => ?_⟩
  obtain ⟨l1, e1, p1, m1⟩ := g1 fuel (by omega)
  obtain ⟨l2, e2, n2, m2⟩ := g2 fuel (by omega)
  obtain ⟨l3, e3, p3, m3⟩ := g3 fuel (by omega)
  obtain ⟨l4, e4, n4, m4⟩ := g4 fuel (by omega)
  obtain ⟨l5, e5, n5, m5⟩ := g5 fuel (by omega)
  obtain ⟨l6, e6, n6, m6⟩ := g6 fuel (by omega)
  obtain ⟨l7, e7, n7, m7⟩ := g7 fuel (by omega)
  obtain ⟨l8, e8, n8, m8⟩ := g8 fuel (by omega)
  have n1 : l1.Nodup := p1.imp (fun h => ne_of_lt h)
  have n3 : l3.Nodup := p3.imp (fun h => ne_of_lt h)
  have hex : ∃ pts, gridPoints fuel o = some pts := by
    unfold gridPoints
    rw [show o.rounds.ints fuel = some l1 from e1]
    refine nest_total _ _ fun r => ?_
    rw [e2]
    refine nest_total _ _ fun cw => ?_
    rw [show o.maxDepth.ints fuel = some l3 from e3]
    refine nest_total _ _ fun md => ?_
    rw [e4]
    refine nest_total _ _ fun css => ?_
    rw [e5]
    refine nest_total _ _ fun lr => ?_
    rw [e6]
    refine nest_total _ _ fun lam => ?_
    rw [e7]
    refine nest_total _ _ fun gam => ?_
    rw [e8]
    exact ⟨_, rfl⟩
  obtain ⟨pts, hpts⟩ := hex
  refine ⟨pts, hpts, ?_, ?_⟩
  · have one : ∀ {α : Type} {q : Option (List α)} {l : List α}, q = some l → l.Nodup → ∀ l', q = some l' → l'.Nodup := by
      intro α q l hq hl l' hq'
      rw [hq, Option.some.injEq] at hq'
      exact hq' ▸ hl
    have last : ∀ (r : Int) cw md css lr lam gam b, (o.subSample.floats fuel).map
        (fun l => l.map fun ss => gridPoint o r cw md css lr lam gam ss) = some b → ∀ x ∈ b,
        x.rounds = r ∧ x.minChildWeight = cw ∧ x.maxDepth = md ∧ x.colSubSample = css ∧ x.learningRate = lr ∧
        x.lambda = lam ∧ x.gamma = gam := by
      intro r cw md css lr lam gam b hb x hx
      obtain ⟨l, _, rfl⟩ := Option.map_eq_some_iff.1 hb
      obtain ⟨ss, _, rfl⟩ := List.mem_map.1 hx
      exact ⟨rfl, rfl, rfl, rfl, rfl, rfl, rfl⟩
    unfold gridPoints at hpts
    refine nest_nodup (fun O => O.rounds) (one e1 n1) ?_ ?_ hpts
    · intro r b hb
      refine nest_all _ (fun cw b hb => ?_) hb
      refine nest_all _ (fun md b hb => ?_) hb
      refine nest_all _ (fun css b hb => ?_) hb
      refine nest_all _ (fun lr b hb => ?_) hb
      refine nest_all _ (fun lam b hb => ?_) hb
      refine nest_all _ (fun gam b hb => ?_) hb
      exact fun x hx => (last _ _ _ _ _ _ _ _ hb x hx).1
    intro r b hb
    refine nest_nodup (fun O => O.minChildWeight) (one e2 n2) ?_ ?_ hb
    · intro cw b hb
      refine nest_all _ (fun md b hb => ?_) hb
      refine nest_all _ (fun css b hb => ?_) hb
      refine nest_all _ (fun lr b hb => ?_) hb
      refine nest_all _ (fun lam b hb => ?_) hb
      refine nest_all _ (fun gam b hb => ?_) hb
      exact fun x hx => (last _ _ _ _ _ _ _ _ hb x hx).2.1
    intro cw b hb
    refine nest_nodup (fun O => O.maxDepth) (one e3 n3) ?_ ?_ hb
    · intro md b hb
      refine nest_all _ (fun css b hb => ?_) hb
      refine nest_all _ (fun lr b hb => ?_) hb
      refine nest_all _ (fun lam b hb => ?_) hb
      refine nest_all _ (fun gam b hb => ?_) hb
      exact fun x hx => (last _ _ _ _ _ _ _ _ hb x hx).2.2.1
    intro md b hb
    refine nest_nodup (fun O => O.colSubSample) (one e4 n4) ?_ ?_ hb
    · intro css b hb
      refine nest_all _ (fun lr b hb => ?_) hb
      refine nest_all _ (fun lam b hb => ?_) hb
      refine nest_all _ (fun gam b hb => ?_) hb
      exact fun x hx => (last _ _ _ _ _ _ _ _ hb x hx).2.2.2.1
    intro css b hb
    refine nest_nodup (fun O => O.learningRate) (one e5 n5) ?_ ?_ hb
    · intro lr b hb
      refine nest_all _ (fun lam b hb => ?_) hb
      refine nest_all _ (fun gam b hb => ?_) hb
      exact fun x hx => (last _ _ _ _ _ _ _ _ hb x hx).2.2.2.2.1
    intro lr b hb
    refine nest_nodup (fun O => O.lambda) (one e6 n6) ?_ ?_ hb
    · intro lam b hb
      refine nest_all _ (fun gam b hb => ?_) hb
      exact fun x hx => (last _ _ _ _ _ _ _ _ hb x hx).2.2.2.2.2.1
    intro lam b hb
    refine nest_nodup (fun O => O.gamma) (one e7 n7) ?_ ?_ hb
    · intro gam b hb
      exact fun x hx => (last _ _ _ _ _ _ _ _ hb x hx).2.2.2.2.2.2
    intro gam b hb
    rw [e8, Option.map_some, Option.some.injEq] at hb
    subst hb
    refine List.Nodup.map (fun a b h => ?_) n8
    have := congrArg Options.subSample h
    exact this
  · intro O
    rw [C53_points fuel o pts hpts O]
    have conv : ∀ {α : Type} {q : Option (List α)} {l : List α} {P : α → Prop}, q = some l → (∀ v, v ∈ l ↔ P v) →
        ∀ v, (∃ l', q = some l' ∧ v ∈ l') ↔ P v := by
      intro α q l P hq hm v
      rw [hq]
      simp [hm]
    unfold Range3.floats at e2 e4 e5 e6 e7 e8
    rw [conv e1 m1, conv e3 m3, conv e2 m2, conv e4 m4, conv e5 m5, conv e6 m6, conv e7 m7, conv e8 m8]
    tauto

end

/-- the hypotheses of `C53_grid_exact` are met by the default options of extreme gradient boosting -/
example : 0 < (defaultXGridOptions : GridOptions (Exact ℚ)).rounds.step ∧
    ∀ r ∈ [(defaultXGridOptions : GridOptions (Exact ℚ)).minChildWeight, defaultXGridOptions.colSubSample,
      defaultXGridOptions.learningRate, defaultXGridOptions.lambda, defaultXGridOptions.gamma,
      defaultXGridOptions.subSample], GoodRange r := by
  refine ⟨by decide, ?_⟩
  simp only [List.forall_mem_cons, List.not_mem_nil, false_imp_iff, implies_true, and_true]
  refine ⟨⟨_, _, _, rfl, ?_⟩, ⟨_, _, _, rfl, ?_⟩, ⟨_, _, _, rfl, ?_⟩, ⟨_, _, _, rfl, ?_⟩, ⟨_, _, _, rfl, ?_⟩,
    ⟨_, _, _, rfl, ?_⟩⟩ <;> norm_num

/-- **C53 needs a positive step**: with a step of ints that is not positive and bounds in order the loop does not end (but for the
overflow of ints, see `intLoop64`). -/
theorem C53_int_diverges (lo hi step : Int) (hs : step ≤ 0) (h : lo ≤ hi) (fuel : Nat) : intLoop fuel lo hi step = none := by
  induction fuel generalizing lo with
  | zero => rfl
  | succ fuel ih =>
    unfold intLoop
    rw [if_pos h, ih (lo + step) (by omega)]
    rfl

/-- **C53, absorbed steps (any arithmetic)**: if the step does not change the value the loop does not end. -/
theorem C53_float_diverges (lo hi step : F) (h : (lo <=. hi) = true) (hs : lo +. step = lo) (fuel : Nat) :
    floatLoop fuel lo hi step = none := by
  induction fuel with
  | zero => rfl
  | succ fuel ih =>
    unfold floatLoop
    rw [if_pos h, hs, ih]
    rfl

/-- In binary64 this happens for positive steps too: 1 + 2^-60 is 1. -/
theorem C53_tiny_step (fuel : Nat) : floatLoop fuel (.fin 1 : F64) (.fin 2) (.fin (1 / 2 ^ 60)) = none :=
  C53_float_diverges _ _ _ (by decide +kernel) (by decide +kernel) fuel

/-- and then `Grid` never returns -/
theorem C53_grid_diverges (cv : Nat → Options F → Run (CVOut F)) (o : GridOptions F) (hc : 0 ≤ o.nCPUs)
    (hs : o.rounds.step ≤ 0) (h : o.rounds.lo ≤ o.rounds.hi) (fuel : Nat) :
    gridWith cv fuel o = Run.ofOption none := by
  unfold gridWith gridPoints
  rw [if_neg (by omega), show o.rounds.ints fuel = none from C53_int_diverges _ _ _ hs h fuel]
  rfl

/-- **C51 is violated**: `Grid` with the options of `DefaultGGridOptions` panics, whatever the data and the draws -/
theorem C51_default_panics (exp : F64 → F64) (S : GoSort) (D : DataBunch F64) (nfold : Int) (idraws : Nat → List Nat)
    (fdraws : Nat → Nat → Nat → F64) :
    grid exp S 200 D nfold (some defaultGGridOptions) idraws fdraws = Run.ofGo (.error .index) := by
  have e1 : (defaultGGridOptions : GridOptions F64).rounds.ints 200 = some ((List.range 99).map fun (i : Nat) => (i : Int) + 2) := by
    decide +kernel
  have e3 : (defaultGGridOptions : GridOptions F64).maxDepth.ints 200 = some [2, 3, 4, 5, 6, 7, 8, 9, 10] := by decide +kernel
  obtain ⟨l2, e2⟩ : ∃ l, (defaultGGridOptions : GridOptions F64).minChildWeight.floats 200 = some (.fin 2 :: l) :=
    ⟨[.fin 3, .fin 4, .fin 5, .fin 6], by decide +kernel⟩
  have e4 : (defaultGGridOptions : GridOptions F64).colSubSample.floats 200 = some [.fin 1] := by decide +kernel
  have e5 : ∃ l, (defaultGGridOptions : GridOptions F64).learningRate.floats 200 = some l ∧
      (ofRat (1/100) : F64) ∈ l := by
    have h : ((defaultGGridOptions : GridOptions F64).learningRate.floats 200).map (fun l => l.head?) =
      some (some (ofRat (1/100) : F64)) := by decide +kernel
    obtain ⟨l, hl, hh⟩ := Option.map_eq_some_iff.1 h
    exact ⟨l, hl, List.mem_of_mem_head? hh⟩
  obtain ⟨l5, e5, m5⟩ := e5
  have e6 : (defaultGGridOptions : GridOptions F64).lambda.floats 200 = some [.fin 0] := by decide +kernel
  have e7 : (defaultGGridOptions : GridOptions F64).gamma.floats 200 = some [.fin 0] := by decide +kernel
  have e8 : (defaultGGridOptions : GridOptions F64).subSample.floats 200 = some [.fin 1] := by decide +kernel
  have hex : ∃ pts, gridPoints 200 (defaultGGridOptions : GridOptions F64) = some pts := by
    unfold gridPoints
    rw [e1]
    refine nest_total _ _ fun r => ?_
    rw [e2]
    refine nest_total _ _ fun cw => ?_
    rw [e3]
    refine nest_total _ _ fun md => ?_
    rw [e4]
    refine nest_total _ _ fun css => ?_
    rw [e5]
    refine nest_total _ _ fun lr => ?_
    rw [e6]
    refine nest_total _ _ fun lam => ?_
    rw [e7]
    refine nest_total _ _ fun gam => ?_
    rw [e8]
    exact ⟨_, rfl⟩
  obtain ⟨pts, hpts⟩ := hex
  refine C51_zero_cpus _ 200 _ rfl pts hpts ?_
  rintro rfl
  have := (C53_points 200 _ [] hpts (gridPoint defaultGGridOptions 2 (.fin 2) 2 (.fin 1) (ofRat (1/100)) (.fin 0) (.fin 0)
    (.fin 1))).2 ⟨⟨_, e1, by simp [gridPoint]⟩, ⟨_, e2, by simp [gridPoint]⟩, ⟨_, e3, by simp [gridPoint]⟩,
    ⟨_, e4, by simp [gridPoint]⟩, ⟨_, e5, m5⟩, ⟨_, e6, by simp [gridPoint]⟩, ⟨_, e7, by simp [gridPoint]⟩,
    ⟨_, e8, by simp [gridPoint]⟩, rfl⟩
  cases this

/-! ### C68: clones of the grid options -/

/-- **C68**: a clone has the value of the original in every field. -/
theorem C68_clone (o : GridOptions F) :
    o.clone.xgb = o.xgb ∧ o.clone.earlyStop = o.earlyStop ∧ o.clone.rounds = o.rounds ∧ o.clone.maxDepth = o.maxDepth ∧
    o.clone.learningRate = o.learningRate ∧ o.clone.gamma = o.gamma ∧ o.clone.lambda = o.lambda ∧
    o.clone.subSample = o.subSample ∧ o.clone.colSubSample = o.colSubSample ∧
    o.clone.minChildWeight = o.minChildWeight ∧ o.clone.step = o.step ∧ o.clone.deltaFraction = o.deltaFraction ∧
    o.clone.verbose = o.verbose ∧ o.clone.nSteps = o.nSteps ∧ o.clone.central = o.central ∧ o.clone.nCPUs = o.nCPUs ∧
    o.clone.writeBest = o.writeBest :=
  ⟨rfl, rfl, rfl, rfl, rfl, rfl, rfl, rfl, rfl, rfl, rfl, rfl, rfl, rfl, rfl, rfl, rfl⟩

/-- so searching with a clone is searching with the original -/
theorem C68_search (cv : Nat → Options F → Run (CVOut F)) (fuel : Nat) (o : GridOptions F) :
    gridWith cv fuel o.clone = gridWith cv fuel o := rfl

end Boo
