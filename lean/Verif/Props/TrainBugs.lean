import Verif.Lemmas.TrainMono

/-!
# C20, C21, C22, C27: the code against the claims

Binary64 training runs with options accepted by `Check`. The values of `exp` used are the correctly rounded ones; the
theorems hold for every `exp` that has them.
-/

namespace Boo
open GoFloat

/-! ### C20 -/

/-- four rows, one feature, three classes -/
def mixData : DataBunch F64 := ⟨[[.fin 0], [.fin 1], [.fin 1], [.fin 1]], [], [0, 1, 2, 2], []⟩

/-- two rounds, early stopping after one round without progress; every row is sampled (all draws are 0) -/
def mixOptions : Options F64 :=
  { (defaultXOptions 0 : Options F64) with
      rounds := 2, subSample := .fin (1 / 2), colSubSample := .fin 1, baseScore := .fin 0, minSample := 1,
      earlyStop := 1, minChildWeight := .fin 1, learningRate := .fin 24, lambda := .fin 0, gamma := .fin 0 }

/-- `exp` at the arguments used -/
def mixExp : List (F64 × F64) :=
  [(.fin 0, .fin 1),
   (.fin 16, .fin (149084195602433 / 16777216)),
   (.fin (-8), .fin (6188193243211693 / 18446744073709551616)),
   (.fin (562949858394083 / 35184372088832), .fin (4770681374431069 / 536870912)),
   (.fin (-1462389315923001 / 562949953421312), .fin (2682081769582789 / 36028797018963968)),
   (.fin (-2127870907440199 / 281474976710656), .fin (2402795185340561 / 4611686018427387904)),
   (.fin (-3188588999831739 / 590295810358705651712), .fin (9007150600865443 / 9007199254740992)),
   (.fin (-3188588999832223 / 590295810358705651712), .fin (9007150600865443 / 9007199254740992)),
   (.fin (-3188593305770843 / 1180591620717411303424), .fin (4503587463868757 / 4503599627370496)),
   (.fin (-4501333823367751 / 1125899906842624), .fin (5289758093378651 / 288230376151711744)),
   (.fin (-5327725458061027 / 281474976710656), .fin (7279884073688095 / 1208925819614629174706176)),
   (.fin (-6454191815904337 / 281474976710656), .fin (4258165367954229 / 38685626227668133590597632)),
   (.fin (-6934928438239047 / 1125899906842624), .fin (4873185539966361 / 2305843009213693952)),
   (.fin (-797147249958177 / 147573952589676412928), .fin (9007150600865443 / 9007199254740992)),
   (.fin (-797148326442953 / 295147905179352825856), .fin (4503587463868757 / 4503599627370496))]

/-- the result of training, with the table -/
def mixRun : Go (List Int × TrainState F64) :=
  trainWith (activationDense (softMaxT mixExp)) GoSort.ins (fun _ => .fin 0) mixData mixOptions

/-- what is checked of the run: it returns, the probabilities of row 1, the raw scores of the model for row 1 -/
def mixFacts : Go (List F64 × List F64 × List F64) := do
  let (labels, st) ← mixRun
  let raw ← (toModel id mixOptions labels st).rawScores [.fin 1]
  let p ← softMaxT mixExp raw (some (raw.map fun _ => zero))
  pure (st.probs.row 1, raw, p)

theorem mixFacts_eq : mixFacts = .ok
    ([.fin (2467727026673637 / 18014398509481984), .fin (5806142753993025 / 2361183241434822606848),
      .fin (7773313592727285 / 9007199254740992)],
     [.fin (-6454191815904337 / 281474976710656), .fin (-1462389315923001 / 562949953421312),
      .fin (-2127870907440199 / 281474976710656)],
     [.fin (7100374447087843 / 4835703278458516698824704), .fin (559037261829473 / 562949953421312),
      .fin (4006595343612593 / 576460752303423488)]) := by decide +kernel

example : mixOptions.check = none := by decide +kernel

/-- what training and the model say about row 1 -/
theorem mixRun_facts (exp : F64 → F64) (hexp : HasValues exp mixExp) :
    ∃ labels st, train exp GoSort.ins (fun _ => .fin 0) mixData mixOptions = .ok (labels, st) ∧
      argmaxFirst (st.probs.row 1) = .ok 2 ∧
      (toModel exp mixOptions labels st).predictSingleClass [.fin 1] = .ok 1 ∧
      (toModel exp mixOptions labels st).predictSingle [.fin 1] ≠ .ok (st.probs.row 1) := by
  have h := mixFacts_eq
  unfold mixFacts at h
  obtain ⟨⟨labels, st⟩, h1, h⟩ := bind_ok h
  simp only at h
  obtain ⟨raw, h2, h⟩ := bind_ok h
  obtain ⟨p, h3, h⟩ := bind_ok h
  simp only [pure, Except.pure, Except.ok.injEq, Prod.mk.injEq] at h
  obtain ⟨hp, hr, hq⟩ := h
  have hps : (toModel exp mixOptions labels st).predictSingle [.fin 1] = .ok p := by
    rw [predictSingle_softmax exp (toModel exp mixOptions labels st) rfl _ raw h2 (by rw [hr]; simp)]
    exact softMaxT_le hexp _ _ _ h3
  refine ⟨labels, st, trainWith_mono (softMaxDenseT_le hexp) _ h1, ?_, ?_, ?_⟩
  · rw [hp]; decide +kernel
  · unfold MultiClass.predictSingleClass
    rw [hps]
    show argmaxFirst p = _
    rw [hq]
    decide +kernel
  · rw [hps, hp, hq]
    decide +kernel

/-- **C20 is violated**: with `EarlyStop = 1` a model trained by `NewMultiClass` in binary64 with valid options
predicts class 1 for a training row for which training ended with class 2 as the most probable: class 0 was stopped
after the first round, and the trees of the second round are used one class too low. -/
theorem C20_violated : mixOptions.check = none ∧ mixData.data[1]? = some [.fin 1] ∧
    ∀ exp, HasValues exp mixExp →
    ∃ labels st, train exp GoSort.ins (fun _ => .fin 0) mixData mixOptions = .ok (labels, st) ∧
      newMultiClass exp GoSort.ins (fun _ => .fin 0) mixData mixOptions = .ok (toModel exp mixOptions labels st) ∧
      argmaxFirst (st.probs.row 1) = .ok 2 ∧
      (toModel exp mixOptions labels st).predictSingleClass [.fin 1] = .ok 1 ∧
      (toModel exp mixOptions labels st).predictSingle [.fin 1] ≠ .ok (st.probs.row 1) := by
  refine ⟨by decide +kernel, rfl, fun exp hexp => ?_⟩
  obtain ⟨labels, st, h1, h2⟩ := mixRun_facts exp hexp
  refine ⟨labels, st, h1, ?_, h2⟩
  unfold newMultiClass
  rw [h1]
  rfl

/-- some function has the values of the table -/
example : ∃ exp, HasValues exp mixExp :=
  ⟨fun x => (mixExp.lookup x).getD zero, by unfold HasValues; decide +kernel⟩

/-! ### C21 -/

/-- **C21 is violated**: three classes were trained for two rounds; `Classes()` says 2 and `Rounds()` says 3. -/
theorem C21_violated (exp : F64 → F64) (hexp : HasValues exp mixExp) :
    ∃ M, newMultiClass exp GoSort.ins (fun _ => .fin 0) mixData mixOptions = .ok M ∧
      (distinctElements mixData.labels).length = 3 ∧ M.b.length = 2 ∧ M.classes = 2 ∧ M.rounds none = 3 := by
  have h : (do let r ← mixRun
               pure ((toModel id mixOptions r.1 r.2).b.length, (toModel id mixOptions r.1 r.2).classes,
                 (toModel id mixOptions r.1 r.2).rounds none) : Go (Nat × Int × Int)) = .ok (2, 2, 3) := by
    decide +kernel
  obtain ⟨⟨labels, st⟩, h1, h⟩ := bind_ok h
  simp only [pure, Except.pure, Except.ok.injEq, Prod.mk.injEq] at h
  have ht : train exp GoSort.ins (fun _ => .fin 0) mixData mixOptions = .ok (labels, st) :=
    trainWith_mono (softMaxDenseT_le hexp) _ h1
  refine ⟨toModel exp mixOptions labels st, ?_, by decide +kernel, h.1, h.2.1, h.2.2⟩
  unfold newMultiClass
  rw [ht]
  rfl

/-! ### C27 -/

/-- two equal rows with different labels -/
def stopData : DataBunch F64 := ⟨[[.fin 0], [.fin 0]], [], [0, 1], []⟩

def stopOptions : Options F64 :=
  { (defaultXOptions 0 : Options F64) with
      rounds := 2, subSample := .fin (1 / 2), colSubSample := .fin 1, minSample := 1, earlyStop := 1,
      minChildWeight := .fin 1 }

/-- no row is sampled in the first round, every row in the second -/
def stopDraws (i : Nat) : F64 := if i < 2 then .fin (3 / 4) else .fin (1 / 4)

def stopExp : List (F64 × F64) := [(.fin (1 / 2), .fin (1856295125090727 / 1125899906842624))]

def stopFacts : Go (List Bool × List F64 × List F64) := do
  let (_, st, hist) ← trainWithH (activationDense (softMaxT stopExp)) GoSort.ins stopDraws stopData stopOptions
  pure (st.stopped, hist 0, hist 1)

theorem stopFacts_eq : stopFacts = .ok ([true, true], [.fin (1 / 4)], [.fin (1 / 4)]) := by decide +kernel

/-- **C27 is violated**: the first round is skipped (empty row sample), the second is the first one executed; both
classes are stopped after it although their loss, 1/4, is the only one there is: nothing failed to decrease. The code
compares it with the initial 0 of `prevloss`. -/
theorem C27_violated : stopOptions.check = none ∧ ∀ exp, HasValues exp stopExp →
    ∃ labels st hist, trainH exp GoSort.ins stopDraws stopData stopOptions = .ok (labels, st, hist) ∧
      st.stopped = [true, true] ∧ hist 0 = [.fin (1 / 4)] ∧ ¬ StopReason stopOptions.earlyStop (hist 0) := by
  refine ⟨by decide +kernel, fun exp hexp => ?_⟩
  have h := stopFacts_eq
  unfold stopFacts at h
  obtain ⟨⟨labels, st, hist⟩, h1, h⟩ := bind_ok h
  simp only [pure, Except.pure, Except.ok.injEq, Prod.mk.injEq] at h
  obtain ⟨ha, hb, hc⟩ := h
  refine ⟨labels, st, hist, trainWithH_mono (softMaxDenseT_le hexp) _ h1, ha, hb, ?_⟩
  rw [hb]
  rintro (⟨l, hl, hle⟩ | hnp)
  · simp only [List.getElem?_cons_zero, Option.some.injEq] at hl
    subst hl
    revert hle
    decide +kernel
  · obtain ⟨new, old, _, h2, _⟩ := hnp 0 (by decide)
    simp at h2

/-- Early stopping does happen for a reason in the run of C20: class 0 with loss at most 1e-6 after round 0. -/
example : (do let (_, st, hist) ← trainWithH (activationDense (softMaxT mixExp)) GoSort.ins (fun _ => .fin 0) mixData
                mixOptions
              pure (st.stopped, (hist 0).length, (hist 0).all (· <=. earlyEps), (hist 1).length) :
              Go (List Bool × Nat × Bool × Nat)) =
    .ok ([true, true, false], 1, true, 2) := by decide +kernel

/-! ### C22 -/

/-- the data of C20, all rows used in each round -/
def allRows : Options F64 := { mixOptions with subSample := .fin 1, earlyStop := 0 }

theorem mixData_ok : DataOk mixData.data where
  ne := by decide
  rect := ⟨1, by decide⟩
  noNaN := by unfold NoNaN; decide +kernel
  mid := Grid64.midSafe (e := 0) (by
    refine ⟨by norm_num, by norm_num, ?_⟩
    intro row hr v hv
    simp only [mixData, List.mem_cons, List.not_mem_nil, or_false] at hr
    rcases hr with rfl | rfl | rfl | rfl <;> simp only [List.mem_cons, List.not_mem_nil, or_false] at hv <;> subst hv
    · exact ⟨0, by simp, by norm_num⟩
    all_goals exact ⟨1, by simp, by norm_num⟩)

/-- The hypotheses of `C22_returns` and of `C22_violated` are met by valid options: the model exists, and it is empty
although two rounds were asked for. -/
example (exp : F64 → F64) : allRows.check = none ∧ allRows.rounds = 2 ∧
    ∃ M, newMultiClass exp GoSort.ins (fun _ => .fin 0) mixData allRows = .ok M ∧ M.b = [] := by
  refine ⟨by decide +kernel, rfl, ?_⟩
  obtain ⟨M, hM⟩ := C22_returns exp GoSort.ins (fun _ => .fin 0) mixData allRows mixData_ok rfl _ rfl sqErrLoss_regular
    ⟨by decide +kernel, by decide +kernel⟩ (by decide +kernel)
  exact ⟨M, hM, (C22_violated exp GoSort.ins _ mixData allRows M hM (by decide +kernel) (by decide)).1⟩

/-- The hypotheses of `C22_returns`, `C22_requested_partial` and `C20_no_early_stop_partial` are met by valid options
with subsampling: two rounds, no row sample below `MinSample`. -/
example (exp : F64 → F64) : ∃ M,
    newMultiClass exp GoSort.ins (fun _ => .fin 0) mixData { mixOptions with earlyStop := 0 } = .ok M ∧
    M.b.length = 2 := by
  obtain ⟨M, hM⟩ := C22_returns exp GoSort.ins (fun _ => .fin 0) mixData { mixOptions with earlyStop := 0 } mixData_ok
    rfl _ rfl sqErrLoss_regular ⟨by decide +kernel, by decide +kernel⟩ (by decide +kernel)
  refine ⟨M, hM, ?_⟩
  rw [(C22_rounds exp GoSort.ins _ mixData _ M hM).1]
  decide +kernel

example : (mixOptions.baseScore *. (one : F64)) = mixOptions.baseScore := by decide +kernel

/-- `base * 1 = base` in exact arithmetic -/
theorem base_one_exact {K : Type} [Field K] [LinearOrder K] [IsStrictOrderedRing K] [FloorRing K] (b : K) :
    ((.fin b : Exact K) *. one) = .fin b := by
  rw [Exact.one_fin, Exact.mul_fin]
  simp

end Boo
