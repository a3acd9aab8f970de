import Verif.Props.Boost
import Verif.Props.TrainBugs

/-!
# C72, C75–C78: what a trained model depends on

Statements about pairs of training runs: equal draws, other label names, more rounds, `Verbose`.
-/

namespace Boo
open GoFloat
set_option linter.unusedSectionVars false
variable {F : Type} [GoFloat F]

/-! ### C72 -/

/-- **C72**: the labels of a trained model are the distinct labels of the data, each once, in the order in which they
first occur; its learning rate, base score and kind are those of the options and its probability transformation is the
softmax. -/
theorem C72_metadata (exp : F → F) (S : GoSort) (draws : Nat → F) (D : DataBunch F) (O : Options F) (M : MultiClass F)
    (h : newMultiClass exp S draws D O = .ok M) :
    M.classLabels.Nodup ∧ (∀ l, l ∈ M.classLabels ↔ l ∈ D.labels) ∧
    M.classLabels.Pairwise (fun a b => D.labels.idxOf a < D.labels.idxOf b) ∧
    M.learningRate = O.learningRate ∧ M.baseScore = O.baseScore ∧ M.xgb = O.xgb ∧
    M.probTransform = some (softMaxDense exp) := by
  obtain ⟨labels, st, ht, rfl⟩ := newMultiClass_inv h
  obtain ⟨_, hlab, _⟩ := train_inv ht
  obtain ⟨d1, d2, d3⟩ := C39_distinct D.labels
  have e : (toModel exp O labels st).classLabels = distinctElements D.labels := hlab
  rw [e]
  exact ⟨d1, d2, d3, rfl, rfl, rfl, rfl⟩

/-- **C72 (defaults)**: the default options of regular boosting give a regular model, those of extreme boosting an extreme one. -/
theorem C72_default_kinds (exp : F → F) (S : GoSort) (draws : Nat → F) (D : DataBunch F) (id : Nat) (M : MultiClass F) :
    (newMultiClass exp S draws D (defaultGOptions id) = .ok M → M.xgb = false) ∧
    (newMultiClass exp S draws D (defaultXOptions id) = .ok M → M.xgb = true) :=
  ⟨fun h => (C72_metadata exp S draws D _ M h).2.2.2.2.2.1, fun h => (C72_metadata exp S draws D _ M h).2.2.2.2.2.1⟩

/-- the kind matters: it decides the order of `FeatureImportance` -/
theorem C72_importance_order [GoFloatOrd F] (exp : F → F) (S : GoSort) (draws : Nat → F) (D : DataBunch F)
    (O : Options F) (M : MultiClass F) (h : newMultiClass exp S draws D O = .ok M) (f : Feats F)
    (hf : M.featureImportance S = .ok f) : f.xgb = O.xgb := by
  have hx := (C72_metadata exp S draws D O M h).2.2.2.2.2.1
  unfold MultiClass.featureImportance at hf
  have hadd : ∀ (t : Tree F) (g g' : Feats F), t.featImp S g = .ok g' → g'.xgb = g.xgb := by
    intro t
    induction t with
    | nil => intro g g' h; cases h
    | node i l r ihl ihr =>
      intro g g' h
      unfold Tree.featImp at h
      split at h
      · cases h; rfl
      · obtain ⟨g1, h1, h2⟩ := bind_ok h
        rw [ihr _ _ h2, ihl _ _ h1]
        rfl
  have := foldlM_inv _ (fun g : Feats F => g.xgb = O.xgb) M.b (fun g ens g' _ hg hstep => by
    exact foldlM_inv _ (fun g : Feats F => g.xgb = O.xgb) ens (fun g t g' _ hg hstep => by
      rw [hadd _ _ _ hstep, hg]) g g' hg hstep) (newFeats M.xgb) f (by simp [newFeats, hx]) hf
  exact this

/-! ### C75: training uses the draws it needs and no others -/

/-- the state with other draws -/
def TrainState.setDraws (d : Nat → F) (st : TrainState F) : TrainState F := { st with draws := d }

theorem earlyStopping_setDraws (O : Options F) (round k : Nat) (l : F) (st : TrainState F) (d : Nat → F) :
    earlyStopping O round k l (st.setDraws d) = (earlyStopping O round k l st).setDraws d := by
  unfold earlyStopping TrainState.setDraws
  split
  · split
    · rfl
    · split <;> rfl
  · rfl

theorem trainClass_setDraws (act : Dense F → Option (Dense F) → Go (Dense F)) (S : GoSort) (data : List (List F))
    (O : Options F) (ohe : Dense F) (indexes : Option (List Nat)) (cols : List Nat) (round : Nat)
    (acc : TrainState F × List (Tree F)) (k : Nat) (d : Nat → F) :
    trainClass act S data O ohe indexes cols round (acc.1.setDraws d, acc.2) k =
      (trainClass act S data O ohe indexes cols round acc k).map fun a => (a.1.setDraws d, a.2) := by
  have hes := earlyStopping_setDraws O round k
  obtain ⟨⟨rawPred, probs0, tmp, stopped, np, prev, bs, d0⟩, c⟩ := acc
  simp only [TrainState.setDraws] at hes ⊢
  unfold trainClass
  dsimp only
  by_cases hs : stopped.getD k false = true
  · rw [if_pos hs, if_pos hs]
    rfl
  · rw [if_neg hs, if_neg hs]
    simp only [bind, Except.bind]
    cases denseCol ohe k with
    | error e => rfl
    | ok y =>
      simp only
      cases denseCol probs0 k with
      | error e => rfl
      | ok p =>
        simp only
        cases O.loss with
        | none => rfl
        | some lv =>
          simp only
          cases classTree S data O lv.fn indexes cols y p with
          | error e => rfl
          | ok tree =>
            simp only
            cases tree.predict data (some tmp) with
            | error e => rfl
            | ok preds =>
              simp only
              cases addToCol rawPred (preds.map fun v => v *. O.learningRate) k with
              | error e => rfl
              | ok raw =>
                simp only
                cases act raw (some probs0) with
                | error e => rfl
                | ok probs =>
                  simp only
                  by_cases hv : O.earlyStop > 0 ∨ O.verbose = true
                  · rw [if_pos hv, if_pos hv]
                    cases denseCol probs k with
                    | error e => rfl
                    | ok kp =>
                      simp only
                      cases lv.fn.loss y kp with
                      | error e => rfl
                      | ok l =>
                        simp only [pure, Except.pure, Except.map, Except.ok.injEq, Prod.mk.injEq, and_true]
                        exact hes l ⟨raw, probs, preds.map fun v => v *. O.learningRate, stopped, np, prev, bs, d0⟩ d
                  · rw [if_neg hv, if_neg hv]
                    simp only [pure, Except.pure, Except.map, Except.ok.injEq, Prod.mk.injEq, and_true]
                    exact hes zero ⟨raw, probs, preds.map fun v => v *. O.learningRate, stopped, np, prev, bs, d0⟩ d

theorem trainClasses_setDraws (act : Dense F → Option (Dense F) → Go (Dense F)) (S : GoSort) (data : List (List F))
    (O : Options F) (ohe : Dense F) (indexes : Option (List Nat)) (cols : List Nat) (round : Nat) (ks : List Nat)
    (acc : TrainState F × List (Tree F)) (d : Nat → F) :
    ks.foldlM (trainClass act S data O ohe indexes cols round) (acc.1.setDraws d, acc.2) =
      (ks.foldlM (trainClass act S data O ohe indexes cols round) acc).map fun a => (a.1.setDraws d, a.2) := by
  induction ks generalizing acc with
  | nil => rfl
  | cons k ks ih =>
    rw [List.foldlM_cons, List.foldlM_cons, trainClass_setDraws]
    cases trainClass act S data O ohe indexes cols round acc k with
    | error e => rfl
    | ok acc' => exact ih acc'

theorem subSample_congr (n : Nat) (s : F) (d e : Nat → F) (h : ∀ i < n, d i = e i) :
    subSample n s d = subSample n s e := by
  unfold subSample
  split
  · rfl
  · congr 1
    apply List.filter_congr
    intro i hi
    rw [h i (by simpa using hi)]

theorem roundSamples_congr (X : List (List F)) (O : Options F) (d e : Nat → F)
    (h : ∀ i < drawsPerRound X O, d i = e i) :
    (∃ err, roundSamples X O d = .error err ∧ roundSamples X O e = .error err) ∨
    ∃ idx cols, roundSamples X O d = .ok (idx, cols, fun i => d (i + drawsPerRound X O)) ∧
      roundSamples X O e = .ok (idx, cols, fun i => e (i + drawsPerRound X O)) := by
  have key : (roundSamples X O d).map (fun r => (r.1, r.2.1)) = (roundSamples X O e).map (fun r => (r.1, r.2.1)) := by
    have hcol : ∀ (idx0 : Option (List Nat)) (d0 e0 : Nat → F),
        (colSub O = true → ∀ i < (X.headD []).length, d0 i = e0 i) →
        (if (O.colSubSample <. one) && O.xgb then do
          let row0 ← goIdx X 0
          let cols ← subSample row0.length O.colSubSample d0
          pure (idx0, cols, fun i => d0 (i + row0.length))
        else pure (idx0, [], d0) : Go (Option (List Nat) × List Nat × (Nat → F))).map (fun r => (r.1, r.2.1)) =
        (if (O.colSubSample <. one) && O.xgb then do
          let row0 ← goIdx X 0
          let cols ← subSample row0.length O.colSubSample e0
          pure (idx0, cols, fun i => e0 (i + row0.length))
        else pure (idx0, [], e0) : Go (Option (List Nat) × List Nat × (Nat → F))).map (fun r => (r.1, r.2.1)) := by
      intro idx0 d0 e0 hde
      split
      · rename_i hc
        cases X with
        | nil => rfl
        | cons row0 X' =>
          have hg : goIdx (row0 :: X') 0 = .ok row0 := rfl
          simp only [hg, bind, Except.bind]
          rw [subSample_congr row0.length O.colSubSample d0 e0 (hde hc)]
          cases subSample row0.length O.colSubSample e0 <;> rfl
      · rfl
    unfold roundSamples
    by_cases hr : ((O.subSample <. one) && O.xgb) = true
    · rw [if_pos hr, if_pos hr]
      have hdr : drawsPerRound X O = X.length + (if colSub O then (X.headD []).length else 0) := by
        unfold drawsPerRound
        rw [if_pos (show rowSub O = true from hr)]
      rw [subSample_congr X.length O.subSample d e (fun i hi => h i (by omega))]
      cases subSample X.length O.subSample e with
      | error err => rfl
      | ok s =>
        refine hcol (some s) (fun i => d (i + X.length)) (fun i => e (i + X.length)) fun hc i hi => ?_
        refine h _ ?_
        rw [hdr, if_pos hc]
        omega
    · rw [if_neg hr, if_neg hr]
      refine hcol none d e fun hc i hi => h i ?_
      unfold drawsPerRound
      rw [if_pos hc]
      omega
  cases hd : roundSamples X O d with
  | error err =>
    cases he : roundSamples X O e with
    | error err' =>
      rw [hd, he] at key
      simp only [Except.map, Except.error.injEq] at key
      subst key
      exact Or.inl ⟨err, rfl, rfl⟩
    | ok r => rw [hd, he] at key; simp [Except.map] at key
  | ok r =>
    cases he : roundSamples X O e with
    | error err => rw [hd, he] at key; simp [Except.map] at key
    | ok r' =>
      rw [hd, he] at key
      obtain ⟨idx, cols, d'⟩ := r
      obtain ⟨idx', cols', e'⟩ := r'
      simp only [Except.map, Except.ok.injEq, Prod.mk.injEq] at key
      obtain ⟨rfl, rfl⟩ := key
      rw [(roundSamples_inv hd).1, (roundSamples_inv he).1]
      exact Or.inr ⟨idx, cols, rfl, rfl⟩

theorem trainRound_congr (act : Dense F → Option (Dense F) → Go (Dense F)) (S : GoSort) (X : List (List F))
    (O : Options F) (ohe : Dense F) (m r : Nat) (st : TrainState F) (d e : Nat → F)
    (h : ∀ i < drawsPerRound X O, d i = e i) :
    (∃ err, trainRound act S X O ohe m (st.setDraws d) r = .error err ∧
      trainRound act S X O ohe m (st.setDraws e) r = .error err) ∨
    ∃ st' : TrainState F, trainRound act S X O ohe m (st.setDraws d) r = .ok (st'.setDraws fun i => d (i + drawsPerRound X O)) ∧
      trainRound act S X O ohe m (st.setDraws e) r = .ok (st'.setDraws fun i => e (i + drawsPerRound X O)) := by
  rcases roundSamples_congr X O d e h with ⟨err, h1, h2⟩ | ⟨idx, cols, h1, h2⟩
  · left
    unfold trainRound
    simp only [TrainState.setDraws, h1, h2, bind, Except.bind]
    exact ⟨err, rfl, rfl⟩
  · unfold trainRound
    simp only [TrainState.setDraws, h1, h2, bind, Except.bind]
    by_cases hl : ((idx.getD []).length : Int) < O.minSample
    · rw [if_pos hl, if_pos hl]
      exact Or.inr ⟨st, rfl, rfl⟩
    · rw [if_neg hl, if_neg hl]
      have a1 := trainClasses_setDraws act S X O ohe idx cols r (List.range m) (st, []) (fun i => d (i + drawsPerRound X O))
      have a2 := trainClasses_setDraws act S X O ohe idx cols r (List.range m) (st, []) (fun i => e (i + drawsPerRound X O))
      simp only [TrainState.setDraws] at a1 a2
      rw [a1, a2]
      cases hq : (List.range m).foldlM (trainClass act S X O ohe idx cols r) (st, []) with
      | error err => exact Or.inl ⟨err, rfl, rfl⟩
      | ok acc => exact Or.inr ⟨{ acc.1 with boosters := acc.1.boosters ++ [acc.2] }, rfl, rfl⟩

theorem trainRounds_congr (act : Dense F → Option (Dense F) → Go (Dense F)) (S : GoSort) (X : List (List F))
    (O : Options F) (ohe : Dense F) (m : Nat) (rs : List Nat) (st : TrainState F) (d e : Nat → F)
    (h : ∀ i < rs.length * drawsPerRound X O, d i = e i) (z : Nat → F) :
    (rs.foldlM (trainRound act S X O ohe m) (st.setDraws d)).map (TrainState.setDraws z) =
      (rs.foldlM (trainRound act S X O ohe m) (st.setDraws e)).map (TrainState.setDraws z) := by
  induction rs generalizing st d e with
  | nil => rfl
  | cons r rs ih =>
    rw [List.foldlM_cons, List.foldlM_cons]
    have hlen : (r :: rs).length * drawsPerRound X O = drawsPerRound X O + rs.length * drawsPerRound X O := by
      rw [List.length_cons]; ring
    rw [hlen] at h
    rcases trainRound_congr act S X O ohe m r st d e (fun i hi => h i (by omega)) with ⟨err, h1, h2⟩ | ⟨st', h1, h2⟩
    · rw [h1, h2]
    · rw [h1, h2]
      exact ih st' (fun i => d (i + drawsPerRound X O)) (fun i => e (i + drawsPerRound X O))
        fun i hi => h _ (by omega)

theorem drawsPerRound_fixMcw (X : List (List F)) (O : Options F) : drawsPerRound X O.fixMcw = drawsPerRound X O := by
  unfold Options.fixMcw
  split <;> rfl

/-- **C75**: training consumes exactly `Rounds` times (one draw per row if rows are subsampled, one per column if
columns are subsampled) random numbers: two runs whose generators agree on those return the same model (or panic the
same way), whatever the generators return later. -/
theorem C75_draws (exp : F → F) (S : GoSort) (draws draws' : Nat → F) (D : DataBunch F) (O : Options F)
    (h : ∀ i < O.rounds.toNat * drawsPerRound D.data O, draws i = draws' i) :
    newMultiClass exp S draws D O = newMultiClass exp S draws' D O := by
  unfold newMultiClass train trainWith
  cases ho : D.oheLabels with
  | error e => rfl
  | ok r =>
    obtain ⟨ohe, labels⟩ := r
    simp only [bind, Except.bind]
    have hinit : ∀ d, trainInit (softMaxDense exp) O ohe labels.length d =
        (trainInit (softMaxDense exp) O ohe labels.length draws).map (TrainState.setDraws d) := by
      intro d
      unfold trainInit
      simp only [bind, Except.bind]
      cases newDense ohe.r ohe.c (List.replicate (ohe.r * ohe.c) (zero : F)) with
      | error e => rfl
      | ok raw =>
        simp only
        cases softMaxDense exp ((toOnes raw).scale O.baseScore) none <;> rfl
    rw [hinit draws']
    cases hi : trainInit (softMaxDense exp) O ohe labels.length draws with
    | error e => rfl
    | ok st0 =>
      have hst0 : st0.setDraws draws = st0 := by
        have := hinit draws
        rw [hi] at this
        exact (Except.ok.inj this).symm
      have hc := trainRounds_congr (softMaxDense exp) S D.data O.fixMcw ohe labels.length (List.range O.rounds.toNat)
        st0 draws draws' (by rw [List.length_range, drawsPerRound_fixMcw]; exact h) (fun _ => zero)
      rw [hst0] at hc
      simp only [Except.map]
      cases h1 : (List.range O.rounds.toNat).foldlM
          (trainRound (softMaxDense exp) S D.data O.fixMcw ohe labels.length) st0 with
      | error e =>
        cases h2 : (List.range O.rounds.toNat).foldlM
            (trainRound (softMaxDense exp) S D.data O.fixMcw ohe labels.length) (st0.setDraws draws') with
        | error e' => rw [h1, h2] at hc; simpa [Except.map] using hc
        | ok st' => rw [h1, h2] at hc; simp [Except.map] at hc
      | ok st =>
        cases h2 : (List.range O.rounds.toNat).foldlM
            (trainRound (softMaxDense exp) S D.data O.fixMcw ohe labels.length) (st0.setDraws draws') with
        | error e' => rw [h1, h2] at hc; simp [Except.map] at hc
        | ok st' =>
          rw [h1, h2] at hc
          simp only [Except.map, Except.ok.injEq] at hc
          have hb : st.boosters = st'.boosters := by
            have := congrArg TrainState.boosters hc
            exact this
          simp only [pure, Except.pure, Except.ok.injEq]
          unfold toModel
          rw [hb]

/-- **C75 (no subsampling)**: with no subsampling (regular boosting, or both fractions at least 1) the model does not
depend on the random numbers at all. -/
theorem C75_deterministic (exp : F → F) (S : GoSort) (draws draws' : Nat → F) (D : DataBunch F) (O : Options F)
    (hr : rowSub O = false) (hc : colSub O = false) :
    newMultiClass exp S draws D O = newMultiClass exp S draws' D O := by
  refine C75_draws exp S draws draws' D O fun i hi => ?_
  unfold drawsPerRound at hi
  rw [hr, hc] at hi
  simp at hi

/-- regular boosting never subsamples -/
theorem C75_regular (exp : F → F) (S : GoSort) (draws draws' : Nat → F) (D : DataBunch F) (O : Options F)
    (hx : O.xgb = false) : newMultiClass exp S draws D O = newMultiClass exp S draws' D O :=
  C75_deterministic exp S draws draws' D O (by unfold rowSub; rw [hx]; simp) (by unfold colSub; rw [hx]; simp)

/-! ### C77: more rounds only add trees -/

theorem trainRound_prefix {exp : F → F} {S : GoSort} {X : List (List F)}
    {O : Options F} {ohe : Dense F} {m : Nat} {st st' : TrainState F} {r : Nat}
    (h : trainRound (softMaxDense exp) S X O ohe m st r = .ok st') : st.boosters <+: st'.boosters := by
  obtain ⟨idx, cols, draws, _, ⟨_, rfl⟩ | ⟨_, acc, h2, rfl⟩⟩ := trainRound_inv h
  · exact List.prefix_rfl
  · rw [show acc.1.boosters = st.boosters from (trainClasses_boosters h2).1]
    exact List.prefix_append _ _

/-- **C77**: raising `Rounds` only adds trees. If training with `R'` rounds returns, so does training with `R ≤ R'`
rounds from the same generator, and the shorter model is the longer one cut after its own number of ensembles (everything
else is equal), also with early stopping and subsampling. -/
theorem C77_prefix (exp : F → F) (S : GoSort) (draws : Nat → F) (D : DataBunch F) (O : Options F) (R : Int)
    (hR : R ≤ O.rounds) (M' : MultiClass F) (h : newMultiClass exp S draws D O = .ok M') :
    ∃ M, newMultiClass exp S draws D { O with rounds := R } = .ok M ∧ M.b <+: M'.b ∧
      M = { M' with b := M'.b.take M.b.length } := by
  obtain ⟨labels, st, ht, rfl⟩ := newMultiClass_inv h
  unfold train trainWith at ht
  obtain ⟨⟨ohe, labels'⟩, h1, ht⟩ := bind_ok ht
  simp only at ht
  obtain ⟨st0, h2, ht⟩ := bind_ok ht
  obtain ⟨st', h3, ht⟩ := bind_ok ht
  simp only [pure, Except.pure, Except.ok.injEq, Prod.mk.injEq] at ht
  obtain ⟨rfl, rfl⟩ := ht
  obtain ⟨e, he⟩ : ∃ e, O.rounds.toNat = R.toNat + e := ⟨O.rounds.toNat - R.toNat, by omega⟩
  rw [he, List.range_add, List.foldlM_append] at h3
  obtain ⟨st1, h4, h5⟩ := bind_ok h3
  have hfix : ({ O with rounds := R } : Options F).fixMcw = { O.fixMcw with rounds := R } := by
    unfold Options.fixMcw
    simp only
    split <;> rfl
  have hround : ∀ (O : Options F) s r, trainRound (softMaxDense exp) S D.data { O with rounds := R } ohe labels'.length s r =
      trainRound (softMaxDense exp) S D.data O ohe labels'.length s r := fun _ _ _ => rfl
  have hpre : st1.boosters <+: st'.boosters :=
    foldlM_inv _ (fun s : TrainState F => st1.boosters <+: s.boosters) _
      (fun s r s' _ hs hstep => hs.trans (trainRound_prefix hstep)) st1 st' List.prefix_rfl h5
  refine ⟨toModel exp { O with rounds := R } labels' st1, ?_, hpre, ?_⟩
  · unfold newMultiClass train trainWith
    have hi : trainInit (softMaxDense exp) { O with rounds := R } ohe labels'.length draws = .ok st0 := h2
    simp only [h1, hi, bind, Except.bind, hfix]
    have h4' : (List.range R.toNat).foldlM (trainRound (softMaxDense exp) S D.data { O.fixMcw with rounds := R } ohe
        labels'.length) st0 = .ok st1 := h4
    rw [h4']
    rfl
  · unfold toModel
    simp only [MultiClass.mk.injEq, and_true]
    exact List.prefix_iff_eq_take.1 hpre

/-! ### C76: names of the labels -/

theorem distinct_map_aux (f : Int → Int) (l acc : List Int) (hf : ∀ a ∈ acc ++ l, ∀ b ∈ acc ++ l, f a = f b → a = b) :
    (l.map f).foldl (fun diff v => if v ∈ diff then diff else diff ++ [v]) (acc.map f) =
      (l.foldl (fun diff v => if v ∈ diff then diff else diff ++ [v]) acc).map f := by
  induction l generalizing acc with
  | nil => rfl
  | cons x l ih =>
    simp only [List.map_cons, List.foldl_cons]
    have hmem : f x ∈ acc.map f ↔ x ∈ acc := by
      constructor
      · intro h
        obtain ⟨a, ha, he⟩ := List.mem_map.1 h
        rw [← hf a (by simp [ha]) x (by simp) he]
        exact ha
      · exact fun h => List.mem_map_of_mem h
    by_cases hx : x ∈ acc
    · rw [if_pos hx, if_pos (hmem.2 hx)]
      refine ih acc fun a ha b hb => hf a ?_ b ?_
      · simp only [List.mem_append, List.mem_cons] at ha ⊢; tauto
      · simp only [List.mem_append, List.mem_cons] at hb ⊢; tauto
    · rw [if_neg hx, if_neg (fun h => hx (hmem.1 h))]
      have := ih (acc ++ [x]) (fun a ha b hb => hf a (by
        simp only [List.mem_append, List.mem_cons, List.not_mem_nil, or_false] at ha ⊢; tauto) b (by
        simp only [List.mem_append, List.mem_cons, List.not_mem_nil, or_false] at hb ⊢; tauto))
      rw [List.map_append] at this
      exact this

theorem distinct_map (f : Int → Int) (l : List Int) (hf : ∀ a ∈ l, ∀ b ∈ l, f a = f b → a = b) :
    distinctElements (l.map f) = (distinctElements l).map f :=
  distinct_map_aux f l [] (by simpa using hf)

theorem dense_ext {A B : Dense F} (hA : A.WF) (hB : B.WF) (hr : A.r = B.r) (hc : A.c = B.c)
    (h : ∀ i j, i < A.r → j < A.c → A.at? i j = B.at? i j) : A = B := by
  obtain ⟨ra, ca, da⟩ := A
  obtain ⟨rb, cb, db⟩ := B
  simp only at hr hc
  subst hr hc
  unfold Dense.WF at hA hB
  simp only at hA hB h
  congr 1
  apply List.ext_getElem?
  intro n
  by_cases hn : n < ra * ca
  · have hc0 : 0 < ca := by
      rcases Nat.eq_zero_or_pos ca with h0 | h0
      · rw [h0, Nat.mul_zero] at hn; omega
      · exact h0
    have hi : n / ca < ra := Nat.div_lt_of_lt_mul (by rw [Nat.mul_comm]; exact hn)
    have hj : n % ca < ca := Nat.mod_lt _ hc0
    have := h (n / ca) (n % ca) hi hj
    unfold Dense.at? at this
    simp only [hi, hj, and_self, if_true] at this
    rwa [Nat.div_add_mod' n ca] at this
  · rw [List.getElem?_eq_none_iff.2 (by omega), List.getElem?_eq_none_iff.2 (by omega)]

theorem ohe_map (f : Int → Int) (l : List Int) (hf : ∀ a ∈ l, ∀ b ∈ l, f a = f b → a = b) :
    (oneHotEncodeDense (l.map f) : Go (Dense F × List Int)) =
      (oneHotEncodeDense l : Go (Dense F × List Int)).map fun r => (r.1, r.2.map f) := by
  by_cases hne : l = []
  · subst hne
    have h0 : (oneHotEncodeDense ([] : List Int) : Go (Dense F × List Int)) = .error .shape := C39_empty
    rw [List.map_nil, h0]
    rfl
  · obtain ⟨A, a1, a2, a3, a4, a5⟩ := C39_matrix (F := F) l hne
    obtain ⟨B, b1, b2, b3, b4, b5⟩ := C39_matrix (F := F) (l.map f) (by simpa using hne)
    rw [a1, b1, distinct_map f l hf] at *
    rw [List.length_map] at b2 b3 b5
    have hAB : B = A := by
      refine dense_ext b4 a4 (by rw [a2, b2]) (by rw [a3, b3]) fun i j hi hj => ?_
      rw [b2] at hi
      rw [b3] at hj
      rw [a5 i j hi hj, b5 i j hi (by simpa using hj)]
      congr 1
      have : ((distinctElements l).map f)[j]? = (l.map f)[i]? ↔ (distinctElements l)[j]? = l[i]? := by
        rw [List.getElem?_map, List.getElem?_map, List.getElem?_eq_getElem hi, List.getElem?_eq_getElem hj]
        simp only [Option.map_some, Option.some.injEq]
        constructor
        · exact fun h => hf _ (((C39_distinct l).2.1 _).1 (List.getElem_mem hj)) _ (List.getElem_mem hi) h
        · exact fun h => by rw [h]
      by_cases hq : (distinctElements l)[j]? = l[i]?
      · rw [if_pos hq, if_pos (this.2 hq)]
      · rw [if_neg hq, if_neg (fun h => hq (this.1 h))]
    rw [hAB]
    rfl

/-- the model with other label names -/
def MultiClass.rename (f : Int → Int) (M : MultiClass F) : MultiClass F := { M with classLabels := M.classLabels.map f }

/-- **C76**: the labels are only names. Renaming the labels of the data with a map that is injective on them changes
nothing in training but the names: the same trees (or the same panic), the labels renamed. -/
theorem C76_rename (exp : F → F) (S : GoSort) (draws : Nat → F) (D : DataBunch F) (O : Options F) (f : Int → Int)
    (hf : ∀ a ∈ D.labels, ∀ b ∈ D.labels, f a = f b → a = b) :
    newMultiClass exp S draws { D with labels := D.labels.map f } O =
      (newMultiClass exp S draws D O).map (MultiClass.rename f) := by
  unfold newMultiClass train trainWith DataBunch.oheLabels
  simp only
  rw [ohe_map f D.labels hf]
  simp only [bind, Except.bind]
  cases (oneHotEncodeDense D.labels : Go (Dense F × List Int)) with
  | error e => rfl
  | ok r =>
    simp only [Except.map, List.length_map]
    cases trainInit (softMaxDense exp) O r.1 r.2.length draws with
    | error e => rfl
    | ok st0 =>
      simp only
      cases (List.range O.rounds.toNat).foldlM
        (trainRound (softMaxDense exp) S D.data O.fixMcw r.1 r.2.length) st0 with
      | error e => rfl
      | ok st => rfl

/-- the predictions are those of the model before the renaming, and so is the accuracy -/
theorem C76_predictions (M : MultiClass F) (f : Int → Int) (x : List F) :
    (M.rename f).predictSingle x = M.predictSingle x ∧ (M.rename f).predictSingleClass x = M.predictSingleClass x :=
  ⟨rfl, rfl⟩

theorem countRight_rename (M : MultiClass F) (f : Int → Int) (labels : List Int)
    (hf : ∀ a ∈ M.classLabels ++ labels, ∀ b ∈ M.classLabels ++ labels, f a = f b → a = b) (data : List (List F))
    (i r : Nat) : (M.rename f).countRight (labels.map f) data i r = M.countRight labels data i r := by
  induction data generalizing i r with
  | nil => rfl
  | cons v vs ih =>
    unfold MultiClass.countRight
    rw [(C76_predictions M f v).2]
    simp only [bind, Except.bind]
    cases M.predictSingleClass v with
    | error e => rfl
    | ok p =>
      simp only
      have h1 : goIdx (M.rename f).classLabels p = (goIdx M.classLabels p).map f := by
        unfold goIdx MultiClass.rename
        simp only [List.getElem?_map]
        cases M.classLabels[p]? <;> rfl
      have h2 : goIdx (labels.map f) i = (goIdx labels i).map f := by
        unfold goIdx
        simp only [List.getElem?_map]
        cases labels[i]? <;> rfl
      rw [h1, h2]
      cases hp : goIdx M.classLabels p with
      | error e => rfl
      | ok lab =>
        cases hi : goIdx labels i with
        | error e => rfl
        | ok act =>
          simp only [Except.map]
          have hl : lab ∈ M.classLabels ++ labels := by
            simp [List.mem_of_getElem? (goIdx_ok.1 hp)]
          have ha : act ∈ M.classLabels ++ labels := by
            simp [List.mem_of_getElem? (goIdx_ok.1 hi)]
          have : (f lab = f act) ↔ lab = act := ⟨hf lab hl act ha, fun h => by rw [h]⟩
          by_cases hq : lab = act
          · rw [if_pos hq, if_pos (this.2 hq)]
            exact ih _ _
          · rw [if_neg hq, if_neg (fun h => hq (this.1 h))]
            exact ih _ _

/-- **C76 (accuracy)**: the accuracy of the renamed model on the renamed data is that of the model on the data. -/
theorem C76_accuracy (M : MultiClass F) (f : Int → Int) (D : DataBunch F)
    (hf : ∀ a ∈ M.classLabels ++ D.labels, ∀ b ∈ M.classLabels ++ D.labels, f a = f b → a = b) :
    (M.rename f).accuracy { D with labels := D.labels.map f } = M.accuracy D := by
  unfold MultiClass.accuracy
  simp only
  rw [countRight_rename M f D.labels hf]

/-! ### C78: `Verbose` -/

theorem trainClass_verbose {exp : F → F} {S : GoSort} {X : List (List F)} {O : Options F} {b : Bool} {ohe : Dense F}
    {indexes : Option (List Nat)} {cols : List Nat} {round m k : Nat} {acc acc' : TrainState F × List (Tree F)}
    (hl : ∀ lv, O.loss = some lv → lv.fn.Regular) (hn : 0 < X.length)
    (hI : TInv exp X.length m acc.1) (hr : ohe.r = X.length) (hc : ohe.c = m) (hw : ohe.WF) (hk : k < m)
    (h : trainClass (softMaxDense exp) S X O ohe indexes cols round acc k = .ok acc') :
    trainClass (softMaxDense exp) S X { O with verbose := b } ohe indexes cols round acc k = .ok acc' := by
  have hstep := h
  rcases trainClass_inv h with ⟨hs, rfl⟩ | ⟨hs, tree, ht, ⟨s⟩⟩
  · unfold trainClass
    simp only
    rw [if_pos hs]
    rfl
  · have hst := s.hst
    obtain ⟨h1, _⟩ := s.inv hI rfl hk
    obtain ⟨_, e2, _⟩ := earlyStopping_raw O round k s.loss
      { acc.1 with rawPred := s.raw, probs := s.probs, tmpPreds := s.preds.map fun v => v *. O.learningRate }
    rw [← s.hst] at e2
    simp only at e2
    obtain ⟨y, hy, hyl, _⟩ := denseCol_spec hw (by omega) (col := k) (by omega)
    have hyy : y = s.y := by
      have := s.hy
      rw [hy] at this
      exact Except.ok.inj this
    obtain ⟨kp, k1, k2, _⟩ := denseCol_spec (D := s.probs) (by rw [← e2]; exact h1.probsWF)
      (by rw [← e2, h1.probsR]; exact hn) (col := k) (by rw [← e2, h1.probsC]; exact hk)
    obtain ⟨l, hloss⟩ := (hl s.lv s.hlv).loss s.y kp (by rw [← hyy, hyl, k2, ← e2, h1.probsR, hr]) (by
      rw [← hyy]
      intro h0
      rw [h0] at hyl
      simp at hyl
      omega)
    obtain ⟨O', hO'⟩ : ∃ O' : Options F, O' = { O with verbose := b } := ⟨_, rfl⟩
    have hct : classTree S X O' s.lv.fn indexes cols s.y s.p = .ok tree := by rw [hO']; exact s.htree
    have hes : ∀ l st, earlyStopping O' round k l st = earlyStopping O round k l st := fun _ _ => by rw [hO']; rfl
    have h3 : O'.loss = some s.lv := by rw [hO']; exact s.hlv
    have h4 : O'.learningRate = O.learningRate := by rw [hO']
    have h5 : O'.earlyStop = O.earlyStop := by rw [hO']
    rw [← hO']
    unfold trainClass at hstep ⊢
    simp only at hstep ⊢
    rw [if_neg (by rw [hs]; simp)] at hstep ⊢
    simp only [s.hy, s.hp, s.hlv, s.htree, hct, h3, h4, s.hpreds, s.hraw, s.hprobs, k1, hloss, bind, Except.bind]
      at hstep ⊢
    simp only [hes, h5]
    by_cases he : O.earlyStop > 0
    · rw [if_pos (Or.inl he)] at hstep ⊢
      exact hstep
    · have hoff : ∀ l st, earlyStopping O round k l st = st := earlyStopping_off O (by omega) round k
      simp only [hoff] at hstep ⊢
      simp only [pure, Except.pure, ite_self] at hstep ⊢
      exact hstep

theorem trainClasses_verbose {exp : F → F} {S : GoSort} {X : List (List F)} {O : Options F} {b : Bool} {ohe : Dense F}
    {indexes : Option (List Nat)} {cols : List Nat} {round m : Nat} {st : TrainState F}
    (hl : ∀ lv, O.loss = some lv → lv.fn.Regular) (hn : 0 < X.length)
    (hI : TInv exp X.length m st) (hr : ohe.r = X.length) (hc : ohe.c = m) (hw : ohe.WF) (q : Nat) (hq : q ≤ m)
    (acc' : TrainState F × List (Tree F))
    (h : (List.range q).foldlM (trainClass (softMaxDense exp) S X O ohe indexes cols round) (st, []) = .ok acc') :
    (List.range q).foldlM (trainClass (softMaxDense exp) S X { O with verbose := b } ohe indexes cols round) (st, []) =
      .ok acc' := by
  induction q generalizing acc' with
  | zero => exact h
  | succ q ih =>
    rw [List.range_succ, List.foldlM_append] at h ⊢
    obtain ⟨acc, h1, h2⟩ := bind_ok h
    rw [List.foldlM_cons] at h2
    obtain ⟨acc'', h3, h4⟩ := bind_ok h2
    obtain ⟨a1, _⟩ := trainClasses_inv rfl q (by omega) st acc h1 hI
    rw [ih (by omega) acc h1]
    simp only [bind, Except.bind, List.foldlM_cons]
    rw [trainClass_verbose hl hn a1 hr hc hw (by omega) h3]
    exact h4

theorem trainRounds_verbose {exp : F → F} {S : GoSort} {X : List (List F)} {O : Options F} {b : Bool} {ohe : Dense F}
    {m : Nat} {st : TrainState F} (hl : ∀ lv, O.loss = some lv → lv.fn.Regular) (hn : 0 < X.length)
    (hI : TInv exp X.length m st) (hr : ohe.r = X.length) (hc : ohe.c = m) (hw : ohe.WF) (q : Nat) (st' : TrainState F)
    (h : (List.range q).foldlM (trainRound (softMaxDense exp) S X O ohe m) st = .ok st') :
    (List.range q).foldlM (trainRound (softMaxDense exp) S X { O with verbose := b } ohe m) st = .ok st' ∧
      TInv exp X.length m st' := by
  induction q generalizing st' with
  | zero =>
    refine ⟨h, ?_⟩
    simp only [List.range_zero, List.foldlM_nil, pure, Except.pure, Except.ok.injEq] at h
    rw [← h]
    exact hI
  | succ q ih =>
    rw [List.range_succ, List.foldlM_append] at h ⊢
    obtain ⟨st1, h1, h2⟩ := bind_ok h
    rw [List.foldlM_cons] at h2
    obtain ⟨st2, h3, h4⟩ := bind_ok h2
    simp only [List.foldlM_nil, pure, Except.pure, Except.ok.injEq] at h4
    subst h4
    obtain ⟨i1, i2⟩ := ih st1 h1
    refine ⟨?_, (trainRound_step h3 i2 rfl).1⟩
    rw [i1]
    simp only [bind, Except.bind, List.foldlM_cons]
    have : trainRound (softMaxDense exp) S X { O with verbose := b } ohe m st1 q = .ok st2 := by
      obtain ⟨idx, cols, draws, hs, hcase⟩ := trainRound_inv h3
      have hs' : roundSamples X { O with verbose := b } st1.draws = .ok (idx, cols, draws) := hs
      unfold trainRound
      simp only [hs', bind, Except.bind]
      rcases hcase with ⟨hlt, rfl⟩ | ⟨hge, acc, hacc, rfl⟩
      · rw [if_pos hlt]
        rfl
      · rw [if_neg hge, trainClasses_verbose hl hn (i2.draws draws) hr hc hw m le_rfl acc hacc]
        rfl
    rw [this]
    rfl

theorem newMultiClass_verbose {exp : F → F} {S : GoSort} {draws : Nat → F} {D : DataBunch F} {O : Options F}
    (hd : D.data.length = D.labels.length) (hl : ∀ lv, O.loss = some lv → lv.fn.Regular) (b : Bool) (M : MultiClass F)
    (h : newMultiClass exp S draws D O = .ok M) : newMultiClass exp S draws D { O with verbose := b } = .ok M := by
  obtain ⟨labels, st, ht, rfl⟩ := newMultiClass_inv h
  obtain ⟨hne, hlab, ohe, st0, hohe, hr0, hc0, hw, hinit, hrounds⟩ := train_inv ht
  obtain ⟨i1, _⟩ := trainInit_inv hinit hr0 hc0
  have hn : 0 < D.data.length := by rw [hd]; exact List.length_pos_iff.2 hne
  rw [← hd] at i1 hr0
  obtain ⟨q1, _⟩ := trainRounds_verbose (b := b) (fun lv h => hl lv (by
    rw [← (Options.fixMcw_lr O).2.2.2.2.2.2.2.2.1]; exact h)) hn i1 hr0 hc0 hw _ _ hrounds
  have hfix : ({ O with verbose := b } : Options F).fixMcw = { O.fixMcw with verbose := b } := by
    unfold Options.fixMcw
    simp only
    split <;> rfl
  unfold newMultiClass train trainWith
  have hi : trainInit (softMaxDense exp) { O with verbose := b } ohe labels.length draws = .ok st0 := hinit
  simp only [hohe, hi, bind, Except.bind, hfix]
  rw [q1]
  rfl

/-- **C78**: `Verbose` does not change the model: for the loss functions of boo (and any other that accepts two
non-empty vectors of the same length) training with `Verbose` on and off returns the same model, or neither returns. -/
theorem C78_verbose (exp : F → F) (S : GoSort) (draws : Nat → F) (D : DataBunch F) (O : Options F)
    (hd : D.data.length = D.labels.length) (hl : ∀ lv, O.loss = some lv → lv.fn.Regular) (M : MultiClass F) :
    newMultiClass exp S draws D { O with verbose := true } = .ok M ↔
      newMultiClass exp S draws D { O with verbose := false } = .ok M :=
  ⟨fun h => newMultiClass_verbose (O := { O with verbose := true }) hd hl false M h,
   fun h => newMultiClass_verbose (O := { O with verbose := false }) hd hl true M h⟩

/-! ### cases that meet the hypotheses -/

/-- the run used below: xgboost with row subsampling on three classes; it trains two rounds of three trees -/
def plainOptions : Options F64 := { mixOptions with earlyStop := 0 }

def plainRun (d : Nat → F64) (D : DataBunch F64) (O : Options F64) : Go (MultiClass F64) :=
  newMultiClass (fun _ => one) GoSort.ins d D O

/-- C72, C75, C77: the hypothesis "training returned a model" is met -/
example : shapeOf (plainRun (fun _ => .fin 0) mixData plainOptions) = .ok [3, 3] := by decide +kernel
example : (plainRun (fun _ => .fin 0) mixData plainOptions).map (·.classLabels) = .ok [0, 1, 2] := by decide +kernel
/-- `C72_default_kinds`: training with either default returns a model -/
example : (plainRun (fun _ => .fin 0) mixData (defaultGOptions 0)).map (·.xgb) = .ok false ∧
    (plainRun (fun _ => .fin 0) mixData (defaultXOptions 0)).map (·.xgb) = .ok true := by decide +kernel
/-- C72: and its importances exist -/
example : (do let M ← plainRun (fun _ => .fin 0) mixData plainOptions
              let f ← M.featureImportance GoSort.ins
              pure f.xgb : Go Bool) = .ok true := by decide +kernel
/-- C75: two different sources that agree on the draws used: four rows, so four draws in each of the two rounds -/
example : plainOptions.rounds.toNat * drawsPerRound mixData.data plainOptions = 8 := by decide +kernel
example : ∀ i < 8, (fun _ => .fin 0 : Nat → F64) i = (fun i => if i < 8 then .fin 0 else .fin (1 / 3)) i := by decide +kernel
/-- C75: the draws do matter: other draws give another outcome -/
example : shapeOf (plainRun (fun i => if i % 4 = 0 then .fin 0 else .fin 1) mixData plainOptions) ≠
    shapeOf (plainRun (fun _ => .fin 0) mixData plainOptions) ∨
    (plainRun (fun i => if i % 4 = 0 then .fin 0 else .fin 1) mixData plainOptions).map (fun M => M.b.map (·.map Tree.leaves)) ≠
    (plainRun (fun _ => .fin 0) mixData plainOptions).map (fun M => M.b.map (·.map Tree.leaves)) := by decide +kernel
/-- C75: regular boosting, and xgboost on all rows and columns -/
example : (defaultGOptions 0 : Options F64).xgb = false := rfl
example : rowSub { plainOptions with subSample := .fin 1 } = false ∧
    colSub { plainOptions with subSample := .fin 1 } = false := by decide +kernel
/-- C77: one round is fewer than two -/
example : (1 : Int) ≤ plainOptions.rounds := by decide
/-- C76: renaming the labels 0, 1, 2 to 10, 9, 8 -/
example : ∀ a ∈ mixData.labels, ∀ b ∈ mixData.labels, (fun x : Int => 10 - x) a = (fun x : Int => 10 - x) b → a = b := by
  decide +kernel
/-- C78: the loss is one of the package's -/
example : ∃ lv, plainOptions.loss = some lv ∧ lv.fn.Regular := ⟨_, rfl, sqErrLoss_regular⟩
example : mixData.data.length = mixData.labels.length := rfl

end Boo
