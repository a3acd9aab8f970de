import Verif.Props.Repro

/-!
# Early stopping only leaves out

What `EarlyStop` changes in a model (xgb.go:21-140): as long as no class has been stopped the rounds are those of the
training without early stopping, and a training in which nothing was stopped returns the very model of the training
without early stopping.
-/

namespace Boo
open GoFloat

variable {F : Type} [GoFloat F]

/-- the part of the training state on which later trees depend, apart from which classes were stopped -/
structure SameWork (st st0 : TrainState F) : Prop where
  raw : st0.rawPred = st.rawPred
  probs : st0.probs = st.probs
  tmp : st0.tmpPreds = st.tmpPreds
  boosters : st0.boosters = st.boosters
  draws : st0.draws = st.draws
  running : ∀ k, st0.stopped.getD k false = false

theorem trainClass_nostop {exp : F → F} {S : GoSort} {data : List (List F)} {O : Options F} {ohe : Dense F}
    {indexes : Option (List Nat)} {cols : List Nat} {round : Nat} {acc acc0 acc' : TrainState F × List (Tree F)}
    {k : Nat} (h : trainClass (softMaxDense exp) S data O ohe indexes cols round acc k = .ok acc')
    (hs : SameWork acc.1 acc0.1) (h2 : acc0.2 = acc.2) (hg : acc'.2 ≠ acc.2) :
    ∃ acc0', trainClass (softMaxDense exp) S data { O with earlyStop := 0 } ohe indexes cols round acc0 k = .ok acc0' ∧
      SameWork acc'.1 acc0'.1 ∧ acc0'.2 = acc'.2 := by
  obtain ⟨st, cl⟩ := acc
  obtain ⟨st0, cl0⟩ := acc0
  simp only at hs h2 hg
  subst h2
  unfold trainClass at h ⊢
  simp only at h ⊢
  split at h
  · simp only [pure, Except.pure, Except.ok.injEq] at h
    subst h
    exact absurd rfl hg
  rw [if_neg (by rw [hs.running k]; decide)]
  obtain ⟨y, hy, h⟩ := bind_ok h
  obtain ⟨p, hp, h⟩ := bind_ok h
  simp only [hy, hs.probs, hp, bind, Except.bind, hs.tmp, hs.raw]
  cases hl : O.loss with
  | none => rw [hl] at h; cases h
  | some lv =>
    rw [hl] at h
    simp only at h
    obtain ⟨tree, ht, h⟩ := bind_ok h
    obtain ⟨pr, hpr, h⟩ := bind_ok h
    obtain ⟨raw, hraw, h⟩ := bind_ok h
    obtain ⟨probs, hprobs, h⟩ := bind_ok h
    have ht' : classTree S data { O with earlyStop := 0 } lv.fn indexes cols y p = .ok tree := ht
    have hl' : ∃ l, acc' = (earlyStopping O round k l
          { st with rawPred := raw, probs := probs, tmpPreds := pr.map fun v => v *. O.learningRate }, cl0 ++ [tree]) ∧
        (O.verbose = true → ∃ kp, denseCol probs k = .ok kp ∧ lv.fn.loss y kp = .ok l) := by
      split at h
      · obtain ⟨kp, hkp, h⟩ := bind_ok h
        obtain ⟨l, hl2, h⟩ := bind_ok h
        simp only [pure, Except.pure, Except.ok.injEq] at h
        exact ⟨l, h.symm, fun _ => ⟨kp, hkp, hl2⟩⟩
      · rename_i hno
        simp only [pure, Except.pure, bind, Except.bind, Except.ok.injEq] at h
        exact ⟨_, h.symm, fun hv => absurd (Or.inr hv) hno⟩
    obtain ⟨l, rfl, hver⟩ := hl'
    simp only [hl] at ht'
    simp only [ht', hpr, hraw, hprobs]
    have hr : ∀ l0 : F, SameWork
        (earlyStopping O round k l { st with rawPred := raw, probs := probs, tmpPreds := pr.map fun v => v *. O.learningRate })
        (earlyStopping { O with earlyStop := 0 } round k l0
          { st0 with rawPred := raw, probs := probs, tmpPreds := pr.map fun v => v *. O.learningRate }) := by
      intro l0
      rw [earlyStopping_off { O with earlyStop := 0 } (by simp)]
      obtain ⟨e1, e2, e3, e4, e5, _⟩ := earlyStopping_raw O round k l
        { st with rawPred := raw, probs := probs, tmpPreds := pr.map fun v => v *. O.learningRate }
      constructor
      · rw [e1]
      · rw [e2]
      · rw [e3]
      · rw [e4]; exact hs.boosters
      · rw [e5]; exact hs.draws
      · exact hs.running
    simp only [hl] at hr
    by_cases hv : O.verbose = true
    · obtain ⟨kp, hkp, hl2⟩ := hver hv
      simp only [hkp, hl2, hv, or_true, if_true, pure, Except.pure]
      exact ⟨_, rfl, hr l, rfl⟩
    · simp only [hv, pure, Except.pure]
      exact ⟨_, rfl, hr zero, rfl⟩

theorem trainClasses_grow {exp : F → F} {S : GoSort} {data : List (List F)} {O : Options F} {ohe : Dense F}
    {indexes : Option (List Nat)} {cols : List Nat} {round : Nat} (ks : List Nat)
    {acc acc' : TrainState F × List (Tree F)}
    (h : ks.foldlM (trainClass (softMaxDense exp) S data O ohe indexes cols round) acc = .ok acc') :
    acc'.2.length ≤ acc.2.length + ks.length := by
  induction ks generalizing acc with
  | nil =>
    simp only [List.foldlM_nil, pure, Except.pure, Except.ok.injEq] at h
    subst h
    simp
  | cons k ks ih =>
    rw [List.foldlM_cons] at h
    obtain ⟨a1, h1, h⟩ := bind_ok h
    have := ih h
    rcases trainClass_inv h1 with ⟨_, rfl⟩ | ⟨_, tree, ht, _⟩
    · simp only [List.length_cons]; omega
    · rw [ht, List.length_append] at this
      simp only [List.length_cons, List.length_nil] at this ⊢
      omega

/-- a loop over the classes that trained a tree for each of them ran as without early stopping -/
theorem trainClasses_nostop {exp : F → F} {S : GoSort} {data : List (List F)} {O : Options F} {ohe : Dense F}
    {indexes : Option (List Nat)} {cols : List Nat} {round : Nat} (ks : List Nat)
    {acc acc0 acc' : TrainState F × List (Tree F)}
    (h : ks.foldlM (trainClass (softMaxDense exp) S data O ohe indexes cols round) acc = .ok acc')
    (hs : SameWork acc.1 acc0.1) (h2 : acc0.2 = acc.2) (hg : acc'.2.length = acc.2.length + ks.length) :
    ∃ acc0', ks.foldlM (trainClass (softMaxDense exp) S data { O with earlyStop := 0 } ohe indexes cols round) acc0 =
      .ok acc0' ∧ SameWork acc'.1 acc0'.1 ∧ acc0'.2 = acc'.2 := by
  induction ks generalizing acc acc0 with
  | nil =>
    simp only [List.foldlM_nil, pure, Except.pure, Except.ok.injEq] at h ⊢
    subst h
    exact ⟨_, rfl, hs, h2⟩
  | cons k ks ih =>
    rw [List.foldlM_cons] at h
    obtain ⟨a1, h1, h⟩ := bind_ok h
    have hgr := trainClasses_grow ks h
    have hone := trainClasses_grow [k] (acc := acc) (acc' := a1) (by
      rw [List.foldlM_cons, h1]; rfl)
    simp only [List.length_cons, List.length_nil] at hg hone
    obtain ⟨b1, q1, q2, q3⟩ := trainClass_nostop h1 hs h2 (by
      intro e
      rw [e] at hgr
      omega)
    obtain ⟨b2, r1, r2, r3⟩ := ih h q2 q3 (by omega)
    refine ⟨b2, ?_, r2, r3⟩
    rw [List.foldlM_cons, q1]
    exact r1

/-- a round that was skipped, or that trained a tree for every class, ran as without early stopping -/
theorem trainRound_nostop {exp : F → F} {S : GoSort} {data : List (List F)} {O : Options F} {ohe : Dense F}
    {m : Nat} {st st' st0 : TrainState F} {round : Nat}
    (h : trainRound (softMaxDense exp) S data O ohe m st round = .ok st') (hs : SameWork st st0)
    (hg : ∀ ens, st'.boosters = st.boosters ++ [ens] → ens.length = m) :
    ∃ st0', trainRound (softMaxDense exp) S data { O with earlyStop := 0 } ohe m st0 round = .ok st0' ∧
      SameWork st' st0' := by
  obtain ⟨idx, cols, draws, hrs, hcase⟩ := trainRound_inv h
  have hrs' : roundSamples data { O with earlyStop := 0 } st0.draws = .ok (idx, cols, draws) := by
    rw [hs.draws]; exact hrs
  unfold trainRound
  simp only [hrs', bind, Except.bind]
  rcases hcase with ⟨hlt, rfl⟩ | ⟨hge, acc, hacc, rfl⟩
  · rw [if_pos hlt]
    exact ⟨_, rfl, ⟨hs.raw, hs.probs, hs.tmp, hs.boosters, rfl, hs.running⟩⟩
  · rw [if_neg hge]
    obtain ⟨b1, _⟩ := trainClasses_boosters hacc
    obtain ⟨acc0, q1, q2, q3⟩ := trainClasses_nostop _ hacc
      (acc0 := ({ st0 with draws := draws }, [])) ⟨hs.raw, hs.probs, hs.tmp, hs.boosters, rfl, hs.running⟩ rfl
      (by
        rw [hg acc.2 (by simp only [b1])]
        simp)
    rw [q1]
    refine ⟨_, rfl, ⟨q2.raw, q2.probs, q2.tmp, ?_, q2.draws, q2.running⟩⟩
    simp only [q2.boosters, q3]

theorem trainRound_boosters {exp : F → F} {S : GoSort} {data : List (List F)} {O : Options F} {ohe : Dense F}
    {m : Nat} {st st' : TrainState F} {round : Nat}
    (h : trainRound (softMaxDense exp) S data O ohe m st round = .ok st') :
    ∃ idx cols draws, roundSamples data O st.draws = .ok (idx, cols, draws) ∧ st'.draws = draws ∧
      ((((idx.getD []).length : Int) < O.minSample ∧ st'.boosters = st.boosters) ∨
        (¬ ((idx.getD []).length : Int) < O.minSample ∧ ∃ ens, st'.boosters = st.boosters ++ [ens])) := by
  obtain ⟨idx, cols, draws, hrs, hcase⟩ := trainRound_inv h
  refine ⟨idx, cols, draws, hrs, ?_⟩
  rcases hcase with ⟨hlt, rfl⟩ | ⟨hge, acc, hacc, rfl⟩
  · exact ⟨rfl, Or.inl ⟨hlt, rfl⟩⟩
  · obtain ⟨b1, b2⟩ := trainClasses_boosters hacc
    exact ⟨b2, Or.inr ⟨hge, acc.2, by simp only [b1]⟩⟩

/-- the two trainings so far: they ran alike, or they differ only from a round on in which a class was left out -/
def AlikeOrStopped (m : Nat) (st st0 : TrainState F) : Prop :=
  SameWork st st0 ∨
    (st0.draws = st.draws ∧ st0.boosters.length = st.boosters.length ∧ ∃ (j : Nat) (ens : List (Tree F)),
      st.boosters[j]? = some ens ∧ ens.length ≠ m ∧ st0.boosters.take j = st.boosters.take j)

theorem trainRounds_nostop {exp : F → F} {S : GoSort} {data : List (List F)} {O : Options F} {ohe : Dense F}
    {m : Nat} (ks : List Nat) {st st' st0 st0' : TrainState F}
    (h : ks.foldlM (trainRound (softMaxDense exp) S data O ohe m) st = .ok st')
    (h0 : ks.foldlM (trainRound (softMaxDense exp) S data { O with earlyStop := 0 } ohe m) st0 = .ok st0')
    (hs : AlikeOrStopped m st st0) : AlikeOrStopped m st' st0' := by
  induction ks generalizing st st0 with
  | nil =>
    simp only [List.foldlM_nil, pure, Except.pure, Except.ok.injEq] at h h0
    subst h
    subst h0
    exact hs
  | cons k ks ih =>
    rw [List.foldlM_cons] at h h0
    obtain ⟨a, h1, h⟩ := bind_ok h
    obtain ⟨a0, h10, h0⟩ := bind_ok h0
    refine ih h h0 ?_
    obtain ⟨idx, cols, draws, hrs, hd, hc⟩ := trainRound_boosters h1
    obtain ⟨idx0, cols0, draws0, hrs0, hd0, hc0⟩ := trainRound_boosters h10
    have hdr : st0.draws = st.draws := by
      rcases hs with hs | ⟨hs, _⟩
      · exact hs.draws
      · exact hs
    have hlen : st0.boosters.length = st.boosters.length := by
      rcases hs with hs | ⟨_, hs, _⟩
      · rw [hs.boosters]
      · exact hs
    have hrs' : roundSamples data O st.draws = .ok (idx0, cols0, draws0) := by
      rw [← hdr]; exact hrs0
    rw [hrs] at hrs'
    obtain ⟨rfl, rfl, rfl⟩ : idx = idx0 ∧ cols = cols0 ∧ draws = draws0 := by
      have := Except.ok.inj hrs'
      simp only [Prod.mk.injEq] at this
      exact this
    have hlen' : a0.boosters.length = a.boosters.length := by
      rcases hc with ⟨c1, c2⟩ | ⟨c1, e, c2⟩ <;> rcases hc0 with ⟨d1, d2⟩ | ⟨d1, e0, d2⟩
      · rw [c2, d2, hlen]
      · exact absurd c1 d1
      · exact absurd d1 c1
      · rw [c2, d2]; simp [hlen]
    rcases hs with hs | ⟨_, _, j, ens, hj, hm, htk⟩
    · by_cases hg : ∀ ens, a.boosters = st.boosters ++ [ens] → ens.length = m
      · obtain ⟨b, q1, q2⟩ := trainRound_nostop h1 hs hg
        rw [h10] at q1
        obtain rfl := Except.ok.inj q1
        exact Or.inl q2
      · push Not at hg
        obtain ⟨ens, he, hne⟩ := hg
        refine Or.inr ⟨by rw [hd, hd0], hlen', st.boosters.length, ens, ?_, hne, ?_⟩
        · rw [he]; simp
        · rw [he, ← hlen]
          rcases hc0 with ⟨d1, d2⟩ | ⟨d1, e0, d2⟩
          · rw [d2, hs.boosters]; simp
          · rw [d2, hs.boosters]; simp
    · have hjl : j < st.boosters.length := by
        obtain ⟨hjl, _⟩ := List.getElem?_eq_some_iff.1 hj
        exact hjl
      refine Or.inr ⟨by rw [hd, hd0], hlen', j, ens, ?_, hm, ?_⟩
      · rcases hc with ⟨_, c2⟩ | ⟨_, e, c2⟩
        · rw [c2]; exact hj
        · rw [c2, List.getElem?_append_left hjl]; exact hj
      · have t1 : a.boosters.take j = st.boosters.take j := by
          rcases hc with ⟨_, c2⟩ | ⟨_, e, c2⟩
          · rw [c2]
          · rw [c2, List.take_append_of_le_length (by omega)]
        have t2 : a0.boosters.take j = st0.boosters.take j := by
          rcases hc0 with ⟨_, c2⟩ | ⟨_, e, c2⟩
          · rw [c2]
          · rw [c2, List.take_append_of_le_length (by omega)]
        rw [t1, t2, htk]

/-- rounds that all trained a tree for every class ran as without early stopping -/
theorem trainRounds_full {exp : F → F} {S : GoSort} {data : List (List F)} {O : Options F} {ohe : Dense F}
    {m : Nat} (ks : List Nat) {st st' st0 : TrainState F}
    (h : ks.foldlM (trainRound (softMaxDense exp) S data O ohe m) st = .ok st') (hs : SameWork st st0)
    (hg : ∀ ens ∈ st'.boosters, ens.length = m) :
    ∃ st0', ks.foldlM (trainRound (softMaxDense exp) S data { O with earlyStop := 0 } ohe m) st0 = .ok st0' ∧
      SameWork st' st0' := by
  induction ks generalizing st st0 with
  | nil =>
    simp only [List.foldlM_nil, pure, Except.pure, Except.ok.injEq] at h ⊢
    subst h
    exact ⟨_, rfl, hs⟩
  | cons k ks ih =>
    rw [List.foldlM_cons] at h
    obtain ⟨a, h1, h⟩ := bind_ok h
    have hmono : ∀ ens ∈ a.boosters, ens ∈ st'.boosters := by
      refine foldlM_inv _ (fun s : TrainState F => ∀ ens ∈ a.boosters, ens ∈ s.boosters) _ ?_ _ st'
        (fun _ h => h) h
      intro s q s' _ hI hq ens he
      obtain ⟨_, _, _, _, _, hc⟩ := trainRound_boosters hq
      rcases hc with ⟨_, c2⟩ | ⟨_, e, c2⟩
      · rw [c2]; exact hI ens he
      · rw [c2]; exact List.mem_append_left _ (hI ens he)
    obtain ⟨b, q1, q2⟩ := trainRound_nostop h1 hs (fun ens he => hg ens (hmono ens (by rw [he]; simp)))
    obtain ⟨st0', r1, r2⟩ := ih h q2
    refine ⟨st0', ?_, r2⟩
    rw [List.foldlM_cons, q1]
    exact r1

theorem fixMcw_earlyStop (O : Options F) (e : Int) :
    ({ O with earlyStop := e } : Options F).fixMcw = { O.fixMcw with earlyStop := e } := by
  unfold Options.fixMcw
  simp only
  split <;> rfl

theorem trainInit_sameWork {exp : F → F} {O : Options F} {ohe : Dense F} {m : Nat} {draws : Nat → F}
    {st0 : TrainState F} (hinit : trainInit (softMaxDense exp) O ohe m draws = .ok st0) : SameWork st0 st0 := by
  refine ⟨rfl, rfl, rfl, rfl, rfl, ?_⟩
  unfold trainInit at hinit
  obtain ⟨raw, _, hinit⟩ := bind_ok hinit
  obtain ⟨pr, _, hinit⟩ := bind_ok hinit
  simp only [pure, Except.pure, Except.ok.injEq] at hinit
  subst hinit
  intro k
  simp only [List.getD_eq_getElem?_getD, List.getElem?_replicate]
  split <;> rfl

/-- **C87**: a model trained with early stopping has as many rounds as the model trained without it, and the same
trees up to the first round in which a class was left out. -/
theorem C87_prefix (exp : F → F) (S : GoSort) (draws : Nat → F) (D : DataBunch F) (O : Options F)
    (M M0 : MultiClass F) (h : newMultiClass exp S draws D O = .ok M)
    (h0 : newMultiClass exp S draws D { O with earlyStop := 0 } = .ok M0) :
    M.b.length = M0.b.length ∧ M.classLabels = M0.classLabels ∧
      ∀ k, (∀ round ∈ M.b.take k, round.length = M.classLabels.length) → M.b.take k = M0.b.take k := by
  obtain ⟨labels, st, ht, rfl⟩ := newMultiClass_inv h
  obtain ⟨labels0, st', ht0, rfl⟩ := newMultiClass_inv h0
  obtain ⟨_, hlab, ohe, s0, hohe, _, _, _, hinit, hrounds⟩ := train_inv ht
  obtain ⟨_, hlab0, ohe0, s00, hohe0, _, _, _, hinit0, hrounds0⟩ := train_inv ht0
  obtain rfl : labels = labels0 := by rw [hlab, hlab0]
  have : ohe = ohe0 := by
    rw [hohe] at hohe0
    exact (Prod.mk.inj (Except.ok.inj hohe0)).1
  subst this
  have : s0 = s00 := by
    have e : trainInit (softMaxDense exp) O ohe labels.length draws = .ok s00 := hinit0
    rw [hinit] at e
    exact Except.ok.inj e
  subst this
  rw [fixMcw_earlyStop] at hrounds0
  have hA := trainRounds_nostop _ hrounds hrounds0 (Or.inl (trainInit_sameWork hinit))
  refine ⟨?_, rfl, ?_⟩
  · rcases hA with hA | ⟨_, hA, _⟩
    · exact (congrArg List.length hA.boosters).symm
    · exact hA.symm
  intro k hk
  rcases hA with hA | ⟨_, _, j, ens, hj, hm, htk⟩
  · exact congrArg (List.take k) hA.boosters.symm
  · have hkj : k ≤ j := by
      by_contra hlt
      refine hm (hk ens ?_)
      have : (st.boosters.take k)[j]? = some ens := by
        rw [List.getElem?_take_of_lt (by omega)]; exact hj
      exact List.mem_of_getElem? this
    have e1 : st.boosters.take k = (st.boosters.take j).take k := by
      rw [List.take_take, Nat.min_eq_left hkj]
    have e2 : st'.boosters.take k = (st'.boosters.take j).take k := by
      rw [List.take_take, Nat.min_eq_left hkj]
    show st.boosters.take k = st'.boosters.take k
    rw [e1, e2, htk]

/-- **C87**: when no class is left out of any round, early stopping changed nothing: training without it returns the
same model. -/
theorem C87_unused (exp : F → F) (S : GoSort) (draws : Nat → F) (D : DataBunch F) (O : Options F) (M : MultiClass F)
    (h : newMultiClass exp S draws D O = .ok M)
    (hfull : ∀ round ∈ M.b, round.length = M.classLabels.length) :
    newMultiClass exp S draws D { O with earlyStop := 0 } = .ok M := by
  obtain ⟨labels, st, ht, rfl⟩ := newMultiClass_inv h
  obtain ⟨_, hlab, ohe, s0, hohe, _, _, _, hinit, hrounds⟩ := train_inv ht
  obtain ⟨st', q1, q2⟩ := trainRounds_full _ hrounds (trainInit_sameWork hinit) hfull
  unfold newMultiClass train trainWith
  have hi : trainInit (softMaxDense exp) { O with earlyStop := 0 } ohe labels.length draws = .ok s0 := hinit
  simp only [hohe, hi, bind, Except.bind, fixMcw_earlyStop]
  rw [q1]
  simp only [pure, Except.pure, toModel, q2.boosters]

/-! ### cases that meet the hypotheses -/

/-- C87: four rounds with early stopping after one round without progress: the classes are left out from the third round on,
and the first two rounds are those of the training without early stopping -/
example : shapeOf (plainRun (fun _ => .fin 0) mixData { mixOptions with rounds := 4 }) = .ok [3, 3, 0, 0] ∧
    shapeOf (plainRun (fun _ => .fin 0) mixData { mixOptions with rounds := 4, earlyStop := 0 }) = .ok [3, 3, 3, 3] := by
  decide +kernel
/-- C87: two rounds with early stopping after three rounds without progress: nothing is left out -/
example : ∃ M, plainRun (fun _ => .fin 0) mixData { mixOptions with earlyStop := 3 } = .ok M ∧
    ∀ round ∈ M.b, round.length = M.classLabels.length := by
  have h : ((plainRun (fun _ => .fin 0) mixData { mixOptions with earlyStop := 3 }).map fun M =>
      M.b.all fun round => round.length == M.classLabels.length) = .ok true := by decide +kernel
  cases hr : plainRun (fun _ => .fin 0) mixData { mixOptions with earlyStop := 3 } with
  | error e => rw [hr] at h; cases h
  | ok M =>
    rw [hr] at h
    refine ⟨M, rfl, ?_⟩
    simpa [Except.map] using h

end Boo
