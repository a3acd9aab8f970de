import Verif.Model.CV
import Verif.Lemmas.TrainMono
import Verif.Lemmas.Stat
import Verif.Lemmas.B64Err

/-!
# Lemmas about cross-validation and grid search
-/

namespace Boo
open GoFloat
set_option linter.unusedSectionVars false
variable {F : Type} [GoFloat F]

/-! ### Run -/

theorem run_bind_ok {α β : Type} {x : Run α} {f : α → Run β} {b : β} (h : (x >>= f) = pure b) :
    ∃ a, x = pure a ∧ f a = pure b := by
  cases x with
  | none => cases h
  | some y =>
    cases y with
    | error e => cases h
    | ok a => exact ⟨a, rfl, h⟩

theorem run_bind_some {α β : Type} {x : Run α} {f : α → Run β} {a : α} (h : x = pure a) : (x >>= f) = f a := by
  rw [h]; rfl

theorem run_pure_eq {α : Type} {a b : α} : ((pure a : Run α) = pure b) ↔ a = b :=
  ⟨fun h => by injection h with h; injection h, fun h => by rw [h]⟩

theorem ofGo_eq {α : Type} {x : Go α} {b : α} : Run.ofGo x = pure b ↔ x = .ok b :=
  ⟨fun h => by injection h, fun h => by rw [h]; rfl⟩

theorem ofOption_eq {α : Type} {x : Option α} {b : α} : Run.ofOption x = pure b ↔ x = some b := by
  cases x with
  | none => exact ⟨fun h => (by cases h), fun h => (by cases h)⟩
  | some a =>
    exact ⟨fun h => (by injection h with h; injection h with h; rw [h]), fun h => (by injection h with h; rw [h]; rfl)⟩

theorem mk_eq {α : Type} {x : Option (Go α)} {b : α} : (ExceptT.mk x : Run α) = pure b ↔ x = some (.ok b) :=
  Iff.rfl

/-! ### accuracy -/

theorem countRight_le {M : MultiClass F} {labels : List Int} : ∀ (vs : List (List F)) (i right r : Nat),
    M.countRight labels vs i right = .ok r → right ≤ r ∧ r ≤ right + vs.length := by
  intro vs
  induction vs with
  | nil =>
    intro i right r h
    simp only [MultiClass.countRight, Except.ok.injEq] at h
    subst h; simp
  | cons v vs ih =>
    intro i right r h
    unfold MultiClass.countRight at h
    obtain ⟨p, h1, h⟩ := bind_ok h
    obtain ⟨lab, h2, h⟩ := bind_ok h
    obtain ⟨actual, h3, h⟩ := bind_ok h
    have := ih _ _ _ h
    simp only [List.length_cons]
    split at this <;> omega

/-- whatever the model, an accuracy that is returned is a percentage of the rows -/
theorem accuracy_ok {M : MultiClass F} {D : DataBunch F} {a : F} (h : M.accuracy D = .ok a) :
    ∃ r : Nat, r ≤ D.data.length ∧ a = ofRat 100 *. (ofInt r /. ofInt D.data.length) := by
  unfold MultiClass.accuracy at h
  obtain ⟨r, h1, h⟩ := bind_ok h
  simp only [pure, Except.pure, Except.ok.injEq] at h
  have := countRight_le _ _ _ _ h1
  exact ⟨r, by omega, h.symm⟩

theorem fixMcw_idem (O : Options F) : O.fixMcw.fixMcw = O.fixMcw := by
  unfold Options.fixMcw
  by_cases h : (O.minChildWeight <. one) = true
  · rw [if_pos h]
    split <;> rfl
  · rw [if_neg h, if_neg h]

theorem newMultiClass_fixMcw (exp : F → F) (S : GoSort) (draws : Nat → F) (D : DataBunch F) (O : Options F) :
    newMultiClass exp S draws D O.fixMcw = newMultiClass exp S draws D O := by
  have h1 : O.fixMcw.baseScore = O.baseScore := by unfold Options.fixMcw; split <;> rfl
  have h2 : O.fixMcw.rounds = O.rounds := by unfold Options.fixMcw; split <;> rfl
  have h3 : O.fixMcw.learningRate = O.learningRate := by unfold Options.fixMcw; split <;> rfl
  have h4 : O.fixMcw.xgb = O.xgb := by unfold Options.fixMcw; split <;> rfl
  unfold newMultiClass train trainWith trainInit toModel
  rw [fixMcw_idem, h1, h2, h3, h4]

/-! ### rounding -/

section AnyOrder

variable {τ : Option SumOrder}
/-- float64, with any order of the additions of `floats.Sum` -/
local notation "F64" => F64o τ

theorem round64_between {lo hi x : ℚ} (hlo : Rep64 lo) (hhi : Rep64 hi) (h1 : lo ≤ x) (h2 : x ≤ hi) :
    ∃ y : ℚ, (XF.round x : F64) = .fin y ∧ lo ≤ y ∧ y ≤ hi := by
  obtain ⟨ra, ba⟩ := rep64_rv hlo
  obtain ⟨rb, bb⟩ := rep64_rv hhi
  have h3 : lo ≤ rv x := by rw [← ra]; exact rv_mono h1
  have h4 : rv x ≤ hi := by rw [← rb]; exact rv_mono h2
  refine ⟨rv x, round64_fin ?_, h3, h4⟩
  generalize (2 : ℚ) ^ (1024 : Int) = R at *
  rw [abs_lt] at *
  constructor <;> linarith

theorem round64_val {x y : ℚ} (h : (XF.round x : F64) = .fin y) : y = rv x := by
  unfold XF.round b64o at h
  simp only [rnd64_eq] at h
  split at h
  · rename_i z hz
    split at hz
    · cases hz
    · simp only [Option.some.injEq] at hz
      simp only [XF.fin.injEq] at h
      rw [← h, ← hz]
  · cases h

theorem round64_le {x x' y y' : ℚ} (h : x ≤ x') (hy : (XF.round x : F64) = .fin y) (hy' : (XF.round x' : F64) = .fin y') :
    y ≤ y' := by
  rw [round64_val hy, round64_val hy']
  exact rv_mono h

end AnyOrder

theorem rep64_int {n : Int} (hn : |n| < 2 ^ 53) : Rep64 (n : ℚ) := by
  have := rep64_grid (e := 0) hn (by norm_num) (by norm_num)
  simpa using this

/-! ### a run with a table for `exp` -/

/-- the model with another probability transformation -/
def modelWith (act : Dense F → Option (Dense F) → Go (Dense F)) (O : Options F) (labels : List Int)
    (st : TrainState F) : MultiClass F := { toModel id O labels st with probTransform := some act }

theorem modelWith_softMax (exp : F → F) (O : Options F) (labels : List Int) (st : TrainState F) :
    modelWith (softMaxDense exp) O labels st = toModel exp O labels st := rfl

theorem predictSingleClass_mono {act act' : Dense F → Option (Dense F) → Go (Dense F)} (hact : ActLe act act')
    {O : Options F} {labels : List Int} {st : TrainState F} (v : List F) (r : Nat)
    (h : (modelWith act O labels st).predictSingleClass v = .ok r) :
    (modelWith act' O labels st).predictSingleClass v = .ok r := by
  unfold MultiClass.predictSingleClass at h ⊢
  refine bind_mono h ?_ fun _ _ h => h
  intro a ha
  unfold MultiClass.predictSingle at ha ⊢
  refine bind_mono ha (fun _ h => h) fun tmp _ h => ?_
  refine bind_mono h (fun _ h => h) fun OO _ h => ?_
  refine bind_mono h (fun _ h => h) fun DD _ h => ?_
  exact bind_mono h (hact _ _) fun _ _ h => h

theorem accuracy_mono {act act' : Dense F → Option (Dense F) → Go (Dense F)} (hact : ActLe act act')
    {O : Options F} {labels : List Int} {st : TrainState F} (D : DataBunch F) (r : F)
    (h : (modelWith act O labels st).accuracy D = .ok r) : (modelWith act' O labels st).accuracy D = .ok r := by
  have hc : ∀ (vs : List (List F)) (i n r : Nat), (modelWith act O labels st).countRight D.labels vs i n = .ok r →
      (modelWith act' O labels st).countRight D.labels vs i n = .ok r := by
    intro vs
    induction vs with
    | nil => intro i n r h; exact h
    | cons v vs ih =>
      intro i n r h
      unfold MultiClass.countRight at h ⊢
      refine bind_mono h (predictSingleClass_mono hact v) fun p _ h => ?_
      refine bind_mono h (fun _ h => h) fun lab _ h => ?_
      exact bind_mono h (fun _ h => h) fun actual _ h => ih _ _ _ h
  unfold MultiClass.accuracy at h ⊢
  exact bind_mono h (fun _ h => hc _ _ _ _ h) fun _ _ h => h

/-- `cvFold` with another probability transformation -/
def cvFoldWith (act : Dense F → Option (Dense F) → Go (Dense F)) (S : GoSort) (fdraws : Nat → Nat → F) (st : CVState F)
    (i : Nat) : Go (CVState F) := do
  let (s, out) ← st.sampler.call
  match out with
  | none => .error .nilDeref
  | some (train, test) => do
    let (labels, ts) ← trainWith act S (fdraws i) train (st.opts.getD (defaultXOptions 0))
    let b := modelWith act (st.opts.getD (defaultXOptions 0)) labels ts
    let st := { st with sampler := s, opts := st.opts.map Options.fixMcw }
    if b.rounds none ≤ 0 then pure st
    else do
      let a ← b.accuracy test
      pure { st with accus := st.accus +. a }

theorem cvFoldWith_mono {exp : F → F} {act : Dense F → Option (Dense F) → Go (Dense F)}
    (hact : ActLe act (softMaxDense exp)) {S : GoSort} {fdraws : Nat → Nat → F} (st : CVState F) (i : Nat)
    (r : CVState F) (h : cvFoldWith act S fdraws st i = .ok r) : cvFold exp S fdraws st i = .ok r := by
  unfold cvFoldWith at h
  unfold cvFold
  refine bind_mono h (fun _ h => h) ?_
  rintro ⟨s, out⟩ _ h
  cases out with
  | none => exact h
  | some p =>
    obtain ⟨train', test⟩ := p
    simp only at h ⊢
    obtain ⟨⟨labels, ts⟩, h1, h⟩ := bind_ok h
    have h1' : newMultiClass exp S (fdraws i) train' (st.opts.getD (defaultXOptions 0)) =
        .ok (modelWith (softMaxDense exp) (st.opts.getD (defaultXOptions 0)) labels ts) := by
      unfold newMultiClass train
      rw [trainWith_mono hact _ h1]
      rfl
    rw [h1']
    simp only [bind, Except.bind] at h ⊢
    have hr : (modelWith act (st.opts.getD (defaultXOptions 0)) labels ts).rounds none =
        (modelWith (softMaxDense exp) (st.opts.getD (defaultXOptions 0)) labels ts).rounds none := rfl
    rw [← hr]
    split
    · rename_i hle; rw [if_pos hle] at h; exact h
    · rename_i hle
      rw [if_neg hle] at h
      exact bind_mono h (accuracy_mono hact _) fun _ _ h => h

/-- `cvFolds` with another probability transformation -/
def cvFoldsWith (act : Dense F → Option (Dense F) → Go (Dense F)) (S : GoSort) (n : Nat) (s : CVSampler F)
    (O : Option (Options F)) (conc : Bool) (fdraws : Nat → Nat → F) : Go (CVOut F) := do
  let st ← (List.range n).foldlM (cvFoldWith act S fdraws) ⟨s, zero, O⟩
  pure { sent := if conc then [.err false, .acc (st.accus /. ofInt n), .opt st.opts] else []
         acc := st.accus /. ofInt n, err := false, opts := st.opts }

theorem cvFoldsWith_mono {exp : F → F} {act : Dense F → Option (Dense F) → Go (Dense F)}
    (hact : ActLe act (softMaxDense exp)) {S : GoSort} {n : Nat} {s : CVSampler F} {O : Option (Options F)} {conc : Bool}
    {fdraws : Nat → Nat → F} (r : CVOut F) (h : cvFoldsWith act S n s O conc fdraws = .ok r) :
    cvFolds exp S n s O conc fdraws = .ok r := by
  unfold cvFoldsWith at h
  unfold cvFolds
  exact bind_mono h (foldlM_mono _ (cvFoldWith_mono hact) _) fun _ _ h => h

/-! ### cross-validation -/

/-- What fold `(train, test)` contributes: the model trained on `train` is made; `none` if it has no round, else its
accuracy on `test`. -/
def FoldAcc (exp : F → F) (S : GoSort) (draws : Nat → F) (O : Options F) (p : DataBunch F × DataBunch F)
    (a : Option F) : Prop :=
  ∃ M, newMultiClass exp S draws p.1 O = .ok M ∧
    ((M.rounds none ≤ 0 ∧ a = none) ∨ (0 < M.rounds none ∧ ∃ x, M.accuracy p.2 = .ok x ∧ a = some x))

theorem cvFold_spec {exp : F → F} {S : GoSort} {fdraws : Nat → Nat → F} {st st' : CVState F} {i : Nat}
    (h : cvFold exp S fdraws st i = .ok st') :
    ∃ p a, st.sampler.call = .ok (st'.sampler, some p) ∧
      FoldAcc exp S (fdraws i) (st.opts.getD (defaultXOptions 0)) p a ∧ st'.opts = st.opts.map Options.fixMcw ∧
      st'.accus = (match a with | none => st.accus | some x => st.accus +. x) := by
  unfold cvFold at h
  obtain ⟨⟨s, out⟩, h1, h⟩ := bind_ok h
  cases out with
  | none => simp at h
  | some p =>
    obtain ⟨tr, te⟩ := p
    simp only at h
    obtain ⟨M, h2, h⟩ := bind_ok h
    split at h
    · rename_i hr
      simp only [pure, Except.pure, Except.ok.injEq] at h
      subst h
      exact ⟨(tr, te), none, h1, ⟨M, h2, Or.inl ⟨hr, rfl⟩⟩, rfl, rfl⟩
    · rename_i hr
      obtain ⟨x, h3, h⟩ := bind_ok h
      simp only [pure, Except.pure, Except.ok.injEq] at h
      subst h
      exact ⟨(tr, te), some x, h1, ⟨M, h2, Or.inr ⟨by omega, x, h3, rfl⟩⟩, rfl, rfl⟩

theorem getD_fix (o : Option (Options F)) (j : Nat) : ∃ O', (o.map Options.fixMcw).getD (defaultXOptions j) = O' ∧
    (O' = o.getD (defaultXOptions j) ∨ O' = (o.getD (defaultXOptions j)).fixMcw) := by
  cases o with
  | none => exact ⟨_, rfl, Or.inl rfl⟩
  | some O => exact ⟨_, rfl, Or.inr rfl⟩

theorem FoldAcc.fix {exp : F → F} {S : GoSort} {draws : Nat → F} {o : Option (Options F)} {j : Nat}
    {p : DataBunch F × DataBunch F} {a : Option F}
    (h : FoldAcc exp S draws ((o.map Options.fixMcw).getD (defaultXOptions j)) p a) :
    FoldAcc exp S draws (o.getD (defaultXOptions j)) p a := by
  obtain ⟨O', h1, h2⟩ := getD_fix o j
  rw [h1] at h
  rcases h2 with h2 | h2
  · rw [← h2]; exact h
  · rw [h2] at h
    unfold FoldAcc at h ⊢
    rwa [newMultiClass_fixMcw] at h

/-- the successive states of the sampler and what it returned -/
inductive Calls : CVSampler F → List (DataBunch F × DataBunch F) → CVSampler F → Prop
  | nil (s) : Calls s [] s
  | cons {s s' s'' p ps} (h : s.call = .ok (s', some p)) (hs : Calls s' ps s'') : Calls s (p :: ps) s''

theorem cvLoop_spec {exp : F → F} {S : GoSort} {fdraws : Nat → Nat → F} : ∀ (is : List Nat) (st st' : CVState F),
    is.foldlM (cvFold exp S fdraws) st = .ok st' →
    ∃ (ps : List (DataBunch F × DataBunch F)) (as : List (Option F)), Calls st.sampler ps st'.sampler ∧
      ps.length = is.length ∧ as.length = is.length ∧
      (∀ (k i : Nat) p a, is[k]? = some i → ps[k]? = some p → as[k]? = some a →
        FoldAcc exp S (fdraws i) (st.opts.getD (defaultXOptions 0)) p a) ∧
      st'.accus = (as.filterMap id).foldl (· +. ·) st.accus ∧
      st'.opts = (if is = [] then st.opts else st.opts.map Options.fixMcw) := by
  intro is
  induction is with
  | nil =>
    intro st st' h
    simp only [List.foldlM_nil, pure, Except.pure, Except.ok.injEq] at h
    subst h
    exact ⟨[], [], .nil _, rfl, rfl, by simp, rfl, rfl⟩
  | cons i is ih =>
    intro st st' h
    rw [List.foldlM_cons] at h
    obtain ⟨st1, h1, h⟩ := bind_ok h
    obtain ⟨p, a, hc, hf, ho, hacc⟩ := cvFold_spec h1
    obtain ⟨ps, as, hcs, hl1, hl2, hfs, haccs, hos⟩ := ih _ _ h
    refine ⟨p :: ps, a :: as, .cons hc hcs, by simp [hl1], by simp [hl2], ?_, ?_, ?_⟩
    · intro k i' p' a' hi hp ha
      cases k with
      | zero =>
        simp only [List.getElem?_cons_zero, Option.some.injEq] at hi hp ha
        subst hi hp ha
        exact hf
      | succ k =>
        simp only [List.getElem?_cons_succ] at hi hp ha
        have := hfs k i' p' a' hi hp ha
        rw [ho] at this
        exact this.fix
    · rw [haccs, hacc]
      cases a <;> simp
    · rw [hos, ho]
      simp only [reduceCtorEq, if_false]
      split
      · rfl
      · cases st.opts with
        | none => rfl
        | some O => simp [fixMcw_idem]

end Boo
