import Verif.Model.LogCV
import Verif.Props.CV
import Verif.Props.VerboseCV

/-!
# C142: what cross-validation logs
-/

namespace Boo
open GoFloat
set_option linter.unusedSectionVars false
variable {F : Type} [GoFloat F]

/-! ### The errors of `CrossValidationSamples` -/

/-- `k` numbers down from `m` -/
def countDown (m k : Nat) : List Nat := (List.range k).map (m - ·)

theorem countDown_succ (m k : Nat) : countDown (m + 1) (k + 1) = (m + 1) :: countDown m k := by
  unfold countDown
  rw [List.range_succ_eq_map, List.map_cons, List.map_map]
  congr 1
  apply List.map_congr_left
  intro i _
  simp

theorem reduceFoldsE_fst (tot : Nat) : ∀ m err tried, (reduceFoldsE tot m err tried).map (fun r => (r.1, r.2.1.isSome)) =
    (reduceFolds tot m).map fun r => (r.1, r.2 || err.isSome) := by
  intro m
  induction m with
  | zero => intro err tried; rfl
  | succ m ih =>
    intro err tried
    unfold reduceFoldsE reduceFolds
    by_cases hq : tot / (m + 1) < 2
    · rw [if_pos hq, if_pos hq, ih]
      cases reduceFolds tot m with
      | error e => rfl
      | ok r => simp [Except.map, bind, Except.bind, pure, Except.pure]
    · rw [if_neg hq, if_neg hq]
      simp [Except.map]

theorem reduceFoldsE_eq (tot : Nat) (h : 2 ≤ tot) : ∀ m, 1 ≤ m → ∀ err tried, ∃ n, n = min m (tot / 2) ∧
    reduceFoldsE tot m err tried = .ok (n,
      if n < m then some (.reduced (n + 1) (tot / (n + 1)) n (tried ++ countDown m (m - n - 1))) else err,
      tried ++ countDown m (m - n)) := by
  intro m
  induction m with
  | zero => intro h; omega
  | succ m ih =>
    intro _ err tried
    unfold reduceFoldsE
    by_cases hq : tot / (m + 1) < 2
    · rw [if_pos hq]
      rw [Nat.div_lt_iff_lt_mul (by omega)] at hq
      obtain ⟨n, hn, e⟩ := ih (by omega) (some (.reduced (m + 1) (tot / (m + 1)) m tried)) (tried ++ [m + 1])
      refine ⟨n, by omega, ?_⟩
      rw [e]
      have hnm : n ≤ m := by omega
      have e1 : m + 1 - n = (m - n) + 1 := by omega
      rw [if_pos (by omega : n < m + 1), e1, countDown_succ, List.append_assoc, List.singleton_append]
      by_cases hlt : n < m
      · rw [if_pos hlt]
        have e2 : m - n + 1 - 1 = (m - n - 1) + 1 := by omega
        rw [e2, countDown_succ, List.append_assoc, List.singleton_append]
      · have : n = m := by omega
        subst this
        rw [if_neg hlt]
        simp [countDown]
    · rw [if_neg hq]
      rw [Nat.div_lt_iff_lt_mul (by omega)] at hq
      refine ⟨m + 1, by omega, ?_⟩
      rw [if_neg (by omega)]
      simp [countDown]

theorem samplesE_fst (D : DataBunch F) (nfold : Int) (draws : List Nat) :
    (crossValidationSamplesE D nfold draws).map (·.map fun r => (⟨r.1, r.2.1, r.2.2.isSome⟩ : CVResult F)) =
      crossValidationSamples D nfold draws := by
  unfold crossValidationSamplesE crossValidationSamples
  have h := reduceFoldsE_fst D.data.length (if nfold > 0 then nfold.toNat else 5) none []
  simp only
  cases h1 : reduceFoldsE D.data.length (if nfold > 0 then nfold.toNat else 5) none [] with
  | error e =>
    rw [h1] at h
    cases h2 : reduceFolds D.data.length (if nfold > 0 then nfold.toNat else 5) with
    | error e' =>
      rw [h2] at h
      simp only [Except.map, Except.error.injEq] at h
      subst h
      rfl
    | ok r => rw [h2] at h; cases h
  | ok r =>
    obtain ⟨nf, err, tried⟩ := r
    rw [h1] at h
    cases h2 : reduceFolds D.data.length (if nfold > 0 then nfold.toNat else 5) with
    | error e' => rw [h2] at h; cases h
    | ok r =>
      obtain ⟨nf', b⟩ := r
      rw [h2] at h
      simp only [Except.map, Except.ok.injEq, Prod.mk.injEq, Option.isSome_none, Bool.or_false] at h
      obtain ⟨rfl, rfl⟩ := h
      simp only
      split
      · rfl
      · cases fillFolds (D.data.length / nf) (List.range nf) (List.replicate nf []) draws with
        | none => rfl
        | some p => rfl

/-! ### Logging changes nothing -/

theorem cvFoldV_fst (exp : F → F) (S : GoSort) (fdraws : Nat → Nat → F) (n : Nat) (st : CVState F × List CVLog) (i : Nat) :
    (cvFoldV exp S fdraws n st i).map Prod.fst = cvFold exp S fdraws st.1 i := by
  unfold cvFoldV cvFold
  cases st.1.sampler.call with
  | error e => rfl
  | ok r =>
    obtain ⟨s, out⟩ := r
    simp only [bind, Except.bind]
    cases out with
    | none => rfl
    | some p =>
      obtain ⟨train, test⟩ := p
      simp only
      cases newMultiClass exp S (fdraws i) train (st.1.opts.getD (defaultXOptions 0)) with
      | error e => rfl
      | ok b =>
        simp only
        split
        · rfl
        · cases b.accuracy test <;> rfl

theorem cvFoldsV_fst (exp : F → F) (S : GoSort) (n : Nat) (s : CVSampler F) (O : Option (Options F)) (conc : Bool)
    (fdraws : Nat → Nat → F) (log : List CVLog) :
    (cvFoldsV exp S n s O conc fdraws log).map Prod.fst = cvFolds exp S n s O conc fdraws := by
  have key : ∀ (l : List Nat) (st : CVState F × List CVLog),
      (l.foldlM (cvFoldV exp S fdraws n) st).map Prod.fst = l.foldlM (cvFold exp S fdraws) st.1 := by
    intro l
    induction l with
    | nil => intro st; rfl
    | cons i l ih =>
      intro st
      rw [List.foldlM_cons, List.foldlM_cons, ← cvFoldV_fst exp S fdraws n]
      cases cvFoldV exp S fdraws n st i with
      | error e => rfl
      | ok st' => exact ih st'
  unfold cvFoldsV cvFolds
  rw [← key (List.range n) (⟨s, zero, O⟩, log)]
  cases (List.range n).foldlM (cvFoldV exp S fdraws n) (⟨s, zero, O⟩, log) <;> rfl

/-- **C142 (nothing else changes)**: with the messages forgotten and the error as a flag, the call is the one of C54. -/
theorem C142_same (exp : F → F) (S : GoSort) (D : DataBunch F) (nfold : Int) (O : Option (Options F)) (conc : Bool)
    (idraws : List Nat) (fdraws : Nat → Nat → F) :
    Prod.fst <$> crossValidationV exp S D nfold O conc idraws fdraws = crossValidation exp S D nfold O conc idraws fdraws ∧
    (∀ out e log, crossValidationV exp S D nfold O conc idraws fdraws = pure (out, e, log) → e.isSome = out.err) := by
  have hs := samplesE_fst D nfold idraws
  unfold crossValidationV crossValidation
  rw [← hs]
  cases h1 : crossValidationSamplesE D nfold idraws with
  | none => exact ⟨rfl, fun _ _ _ h => by cases h⟩
  | some r =>
    cases r with
    | error p => exact ⟨rfl, fun _ _ _ h => by cases h⟩
    | ok r =>
      obtain ⟨n, os, err⟩ := r
      have e1 : (ExceptT.mk (some (.ok (n, os, err))) : Run (Nat × Option (CVSampler F) × Option FoldErr)) = pure (n, os, err) := rfl
      have e2 : (ExceptT.mk (Option.map (fun x => Except.map (fun r : Nat × Option (CVSampler F) × Option FoldErr =>
          (⟨r.1, r.2.1, r.2.2.isSome⟩ : CVResult F)) x) (some (.ok (n, os, err)))) : Run (CVResult F)) = pure ⟨n, os, err.isSome⟩ := rfl
      rw [e1, e2, run_bind_some rfl, run_bind_some rfl]
      constructor
      · simp only
        split
        · rfl
        · cases os with
          | none => rfl
          | some s =>
            simp only
            rw [← cvFoldsV_fst exp S n s O conc fdraws (err.toList.map (.fewer n D.data.length))]
            cases cvFoldsV exp S n s O conc fdraws (err.toList.map (.fewer n D.data.length)) <;> rfl
      · intro out e log h
        simp only at h
        split at h
        · rename_i hc
          rw [run_pure_eq] at h
          simp only [Prod.mk.injEq] at h
          obtain ⟨rfl, rfl, rfl⟩ := h
          exact hc.1
        · cases os with
          | none => rw [ofGo_eq] at h; cases h
          | some s =>
            simp only at h
            obtain ⟨x, h2, h⟩ := run_bind_ok h
            rw [run_pure_eq] at h
            simp only [Prod.mk.injEq] at h
            obtain ⟨rfl, rfl, rfl⟩ := h
            rw [ofGo_eq] at h2
            unfold cvFoldsV at h2
            obtain ⟨st, _, h2⟩ := bind_ok h2
            simp only [pure, Except.pure, Except.ok.injEq] at h2
            rw [← h2]
            rfl

/-! ### The messages -/

theorem cvFoldV_spec {exp : F → F} {S : GoSort} {fdraws : Nat → Nat → F} {n : Nat} {st st' : CVState F × List CVLog} {i : Nat}
    (h : cvFoldV exp S fdraws n st i = .ok st') :
    ∃ p M, st.1.sampler.call = .ok (st'.1.sampler, some p) ∧
      newMultiClass exp S (fdraws i) p.1 (st.1.opts.getD (defaultXOptions 0)) = .ok M ∧ st'.1.opts = st.1.opts.map Options.fixMcw ∧
      st'.2 = st.2 ++ (if M.rounds none ≤ 0 then [.noModel n] else []) := by
  unfold cvFoldV at h
  obtain ⟨⟨s, out⟩, h1, h⟩ := bind_ok h
  cases out with
  | none => simp at h
  | some p =>
    obtain ⟨tr, te⟩ := p
    simp only at h
    obtain ⟨M, h2, h⟩ := bind_ok h
    split at h
    · rename_i hr
      simp only [pure, Except.pure, Except.ok.injEq] at h
      subst h
      exact ⟨(tr, te), M, h1, h2, rfl, by rw [if_pos hr]⟩
    · rename_i hr
      obtain ⟨x, h3, h⟩ := bind_ok h
      simp only [pure, Except.pure, Except.ok.injEq] at h
      subst h
      exact ⟨(tr, te), M, h1, h2, rfl, by rw [if_neg hr, List.append_nil]⟩

theorem train_fixed {exp : F → F} {S : GoSort} {draws : Nat → F} {o : Option (Options F)} {j : Nat} {D : DataBunch F} :
    newMultiClass exp S draws D ((o.map Options.fixMcw).getD (defaultXOptions j)) =
      newMultiClass exp S draws D (o.getD (defaultXOptions j)) := by
  cases o with
  | none => rfl
  | some O => exact newMultiClass_fixMcw _ _ _ _ _

theorem cvLoopV_spec {exp : F → F} {S : GoSort} {fdraws : Nat → Nat → F} {n : Nat} :
    ∀ (is : List Nat) (st st' : CVState F × List CVLog), is.foldlM (cvFoldV exp S fdraws n) st = .ok st' →
    ∃ (ps : List (DataBunch F × DataBunch F)) (Ms : List (MultiClass F)), Calls st.1.sampler ps st'.1.sampler ∧
      ps.length = is.length ∧ Ms.length = is.length ∧
      (∀ (k i : Nat) p M, is[k]? = some i → ps[k]? = some p → Ms[k]? = some M →
        newMultiClass exp S (fdraws i) p.1 (st.1.opts.getD (defaultXOptions 0)) = .ok M) ∧
      st'.2 = st.2 ++ List.replicate (Ms.countP (fun M => decide (M.rounds none ≤ 0))) (.noModel n) := by
  intro is
  induction is with
  | nil =>
    intro st st' h
    simp only [List.foldlM_nil, pure, Except.pure, Except.ok.injEq] at h
    subst h
    exact ⟨[], [], .nil _, rfl, rfl, by simp, by simp⟩
  | cons i is ih =>
    intro st st' h
    rw [List.foldlM_cons] at h
    obtain ⟨st1, h1, h⟩ := bind_ok h
    obtain ⟨p, M, hc, hf, ho, hlog⟩ := cvFoldV_spec h1
    obtain ⟨ps, Ms, hcs, hl1, hl2, hfs, hlogs⟩ := ih _ _ h
    refine ⟨p :: ps, M :: Ms, .cons hc hcs, by simp [hl1], by simp [hl2], ?_, ?_⟩
    · intro k i' p' M' hi hp ha
      cases k with
      | zero =>
        simp only [List.getElem?_cons_zero, Option.some.injEq] at hi hp ha
        subst hi hp ha
        exact hf
      | succ k =>
        simp only [List.getElem?_cons_succ] at hi hp ha
        have := hfs k i' p' M' hi hp ha
        rw [ho, train_fixed] at this
        exact this
    · rw [hlogs, hlog, List.countP_cons]
      by_cases hr : M.rounds none ≤ 0
      · simp [hr, List.replicate_succ]
      · simp [hr]

/-- **C142 (messages), partial**: a call without error has made `n` folds as in C33 and has trained a model on each training set. The
log begins with a message about fewer folds exactly when `n` is smaller than the number asked for (5 if that is 0 or negative): the
message has `n`, the number of rows, and an error that says that `n + 1` folds leave too few rows, that `n` will be used, and which
numbers were tried before. After it there is one message for each fold whose model has no round, and nothing else.

Missing from the full claim: these messages do not say which fold it was (`C142_violated`). -/
theorem C142_log_partial (exp : F → F) (S : GoSort) (D : DataBunch F) (nfold : Int) (O : Option (Options F)) (conc : Bool)
    (idraws : List Nat) (fdraws : Nat → Nat → F) (out : CVOut F) (e : Option FoldErr) (log : List CVLog)
    (h : crossValidationV exp S D nfold O conc idraws fdraws = pure (out, e, log)) (he : out.err = false) :
    e = none ∧ ∃ n s, Sampled D nfold idraws n s ∧ ∃ pairs : List (DataBunch F × DataBunch F),
      callMany n s = .ok (pairs.map some) ∧ pairs.length = n ∧ ∃ Ms : List (MultiClass F), Ms.length = n ∧
      (∀ (i : Nat) p M, pairs[i]? = some p → Ms[i]? = some M →
        newMultiClass exp S (fdraws i) p.1 (O.getD (defaultXOptions 0)) = .ok M) ∧
      ∃ first rest, log = first ++ rest ∧
        ((n = requested nfold ∧ first = []) ∨ (n < requested nfold ∧ D.data.length / (n + 1) < 2 ∧ ∃ tried,
          first = [.fewer n D.data.length (.reduced (n + 1) (D.data.length / (n + 1)) n tried)] ∧
          tried = (List.range (requested nfold - n - 1)).map (requested nfold - ·))) ∧
        rest = List.replicate (Ms.countP fun M => decide (M.rounds none ≤ 0)) (.noModel n) := by
  have hs := samplesE_fst D nfold idraws
  have h2 : 2 ≤ D.data.length := by
    by_contra hlt
    have := C34_violated D nfold idraws (by omega)
    rw [this] at hs
    have h' := (C142_same exp S D nfold O conc idraws fdraws).1
    rw [h] at h'
    unfold crossValidation at h'
    rw [this] at h'
    cases h'
  obtain ⟨n', hn', er⟩ := reduceFoldsE_eq D.data.length h2 (requested nfold) (requested_pos nfold) none []
  unfold crossValidationV at h
  obtain ⟨⟨n, os, err⟩, h1, h⟩ := run_bind_ok h
  simp only at h
  split at h
  · rw [run_pure_eq] at h
    simp only [Prod.mk.injEq] at h
    rw [← h.1] at he
    cases he
  · cases os with
    | none => rw [ofGo_eq] at h; cases h
    | some s =>
      simp only at h
      obtain ⟨x, h3, h⟩ := run_bind_ok h
      rw [run_pure_eq] at h
      simp only [Prod.mk.injEq] at h
      obtain ⟨rfl, rfl, rfl⟩ := h
      rw [ofGo_eq] at h3
      unfold cvFoldsV at h3
      obtain ⟨st, h4, h3⟩ := bind_ok h3
      simp only [pure, Except.pure, Except.ok.injEq] at h3
      obtain ⟨ps, Ms, hc, hl1, hl2, hf, hlog⟩ := cvLoopV_spec _ _ _ h4
      rw [List.length_range] at hl1 hl2
      have h1' : crossValidationSamplesE D nfold idraws = some (.ok (n, some s, err)) := h1
      rw [h1'] at hs
      subst h3
      refine ⟨rfl, n, s, ⟨err.isSome, hs.symm⟩, ps, ?_, hl1, Ms, hl2, ?_, err.toList.map (.fewer n D.data.length), _, hlog, ?_, rfl⟩
      · rw [← hl1]; exact calls_callMany hc
      · intro i p M hp hx
        refine hf i i p M ?_ hp hx
        have : i < n := by
          have := (List.getElem?_eq_some_iff.1 hp).1
          omega
        simp [this]
      · unfold crossValidationSamplesE at h1'
        simp only at h1'
        rw [show (if nfold > 0 then nfold.toNat else 5) = requested nfold from rfl, er] at h1'
        simp only at h1'
        split at h1'
        · simp at h1'
        · split at h1'
          · cases h1'
          · simp only [Option.some.injEq, Except.ok.injEq, Prod.mk.injEq] at h1'
            obtain ⟨rfl, _, rfl⟩ := h1'
            by_cases hlt : n' < requested nfold
            · rw [if_pos hlt]
              refine Or.inr ⟨hlt, ?_, _, rfl, rfl⟩
              rw [Nat.div_lt_iff_lt_mul (by omega)]
              omega
            · rw [if_neg hlt]
              exact Or.inl ⟨by omega, rfl⟩

/-- **C142 (error)**: a call that returns an error logs nothing; the error says that one fold is left and that all numbers from the one
asked for down to 2 were tried. -/
theorem C142_error (exp : F → F) (S : GoSort) (D : DataBunch F) (nfold : Int) (O : Option (Options F)) (conc : Bool)
    (idraws : List Nat) (fdraws : Nat → Nat → F) (out : CVOut F) (e : Option FoldErr) (log : List CVLog)
    (h : crossValidationV exp S D nfold O conc idraws fdraws = pure (out, e, log)) (he : out.err = true) :
    log = [] ∧ e = some (.tooFew 1 ((List.range (requested nfold - 1)).map (requested nfold - ·))) := by
  have h2 : 2 ≤ D.data.length := by
    by_contra hlt
    have := C34_violated D nfold idraws (by omega)
    have h' := (C142_same exp S D nfold O conc idraws fdraws).1
    rw [h] at h'
    unfold crossValidation at h'
    rw [this] at h'
    cases h'
  obtain ⟨n', hn', er⟩ := reduceFoldsE_eq D.data.length h2 (requested nfold) (requested_pos nfold) none []
  have hr := requested_pos nfold
  unfold crossValidationV at h
  obtain ⟨⟨n, os, err⟩, h1, h⟩ := run_bind_ok h
  have h1' : crossValidationSamplesE D nfold idraws = some (.ok (n, os, err)) := h1
  unfold crossValidationSamplesE at h1'
  simp only at h1' h
  rw [show (if nfold > 0 then nfold.toNat else 5) = requested nfold from rfl, er] at h1'
  simp only at h1'
  split at h
  · rename_i hc
    rw [run_pure_eq] at h
    simp only [Prod.mk.injEq] at h
    obtain ⟨_, rfl, rfl⟩ := h
    split at h1'
    · simp only [Option.some.injEq, Except.ok.injEq, Prod.mk.injEq] at h1'
      have hn1 : n' = 1 := by omega
      subst hn1
      exact ⟨rfl, h1'.2.2.symm⟩
    · split at h1'
      · cases h1'
      · simp only [Option.some.injEq, Except.ok.injEq, Prod.mk.injEq] at h1'
        have := hc.2
        omega
  · cases os with
    | none => rw [ofGo_eq] at h; cases h
    | some s =>
      simp only at h
      obtain ⟨x, h3, h⟩ := run_bind_ok h
      rw [run_pure_eq] at h
      simp only [Prod.mk.injEq] at h
      rw [ofGo_eq] at h3
      unfold cvFoldsV at h3
      obtain ⟨st, h4, h3⟩ := bind_ok h3
      simp only [pure, Except.pure, Except.ok.injEq] at h3
      rw [← h.1, ← h3] at he
      cases he

/-! ### The text -/

theorem fmtSlice_noNewline (l : List Nat) : '\n' ∉ fmtSlice (l.map fmtNat) := by
  unfold fmtSlice
  have : '\n' ∉ strJoin (l.map fmtNat) [' '] := by
    unfold strJoin
    intro hm
    rw [List.intercalate, List.mem_flatten] at hm
    obtain ⟨w, hw, hm⟩ := hm
    have : w = [' '] ∨ w ∈ l.map fmtNat := by
      clear hm
      generalize l.map fmtNat = ws at hw ⊢
      induction ws using List.twoStepInduction with
      | nil => simp at hw
      | singleton a => right; simpa using hw
      | cons_cons a b ws _ ih =>
        rw [List.intersperse_cons₂] at hw
        simp only [List.mem_cons] at hw ⊢
        rcases hw with rfl | rfl | hw
        · simp
        · simp
        · rcases ih b hw with h | h
          · exact Or.inl h
          · right; right; simpa using h
    rcases this with rfl | hw
    · simp at hm
    · obtain ⟨n, _, rfl⟩ := List.mem_map.1 hw
      exact (isField_fmtNat n).noNewline hm
  simp [this]

set_option simprocs false in
theorem foldErr_noNewline (e : FoldErr) : '\n' ∉ e.text := by
  have hn := fun n : Nat => (isField_fmtNat n).noNewline
  cases e with
  | reduced nf left next tried =>
    unfold FoldErr.text
    simp only [List.mem_append, not_or]
    exact ⟨⟨⟨⟨⟨⟨⟨⟨⟨by decide, hn _⟩, by decide⟩, hn _⟩, by decide⟩, hn _⟩, by decide⟩, hn _⟩, by decide⟩, fmtSlice_noNewline _⟩
  | tooFew nf tried =>
    unfold FoldErr.text
    simp only [List.mem_append, not_or]
    exact ⟨⟨⟨⟨⟨by decide, hn _⟩, by decide⟩, hn _⟩, by decide⟩, fmtSlice_noNewline _⟩

theorem isField_suffix {w : List Char} (h : IsField w) {t : List Char} (ht : ∀ c ∈ t, isSpace c = false) : IsField (w ++ t) :=
  ⟨fun e => h.1 (List.append_eq_nil_iff.1 e).1, fun c hc => by
    rcases List.mem_append.1 hc with hc | hc
    · exact h.2 c hc
    · exact ht c hc⟩

/-- a message without the end of line -/
def CVLog.body : CVLog → List Char
  | .fewer n len e => "Only ".toList ++ fmtNat n ++ "-fold can be performed due to sample size (".toList ++ fmtNat len ++
      "). Error: ".toList ++ e.text
  | .noModel k => "The ".toList ++ fmtNat k ++ "-th fold didn't produce a boosting ensemble, will continue with the others".toList

set_option simprocs false in
/-- **C142 (text)**: each message is one line of the log, from which its numbers can be read. -/
theorem C142_text (log : List CVLog) :
    ∃ lines, linesIn (log.flatMap CVLog.text) = lines ++ [[]] ∧ List.Forall₂ (fun m line => match m with
      | .fewer n len e => strFields line = ["Only".toList, fmtNat n ++ "-fold".toList, "can".toList, "be".toList, "performed".toList,
          "due".toList, "to".toList, "sample".toList, "size".toList, "(".toList ++ fmtNat len ++ ").".toList, "Error:".toList] ++ strFields e.text
      | .noModel k => strFields line = ["The".toList, fmtNat k ++ "-th".toList, "fold".toList, "didn't".toList, "produce".toList, "a".toList,
          "boosting".toList, "ensemble,".toList, "will".toList, "continue".toList, "with".toList, "the".toList, "others".toList]) log lines := by
  have hn := fun n : Nat => (isField_fmtNat n).noNewline
  have nb : ∀ m, '\n' ∉ CVLog.body m := by
    rintro (⟨n, len, e⟩ | k)
    · show '\n' ∉ "Only ".toList ++ fmtNat n ++ "-fold can be performed due to sample size (".toList ++ fmtNat len ++
        "). Error: ".toList ++ e.text
      simp only [List.mem_append, not_or]
      exact ⟨⟨⟨⟨⟨by decide, hn _⟩, by decide⟩, hn _⟩, by decide⟩, foldErr_noNewline _⟩
    · show '\n' ∉ "The ".toList ++ fmtNat k ++ "-th fold didn't produce a boosting ensemble, will continue with the others".toList
      simp only [List.mem_append, not_or]
      exact ⟨⟨by decide, hn _⟩, by decide⟩
  refine ⟨log.map CVLog.body, text_lines _ _ _ ?_, ?_⟩
  · rintro (⟨n, len, e⟩ | k) _
    · exact ⟨rfl, nb _⟩
    · refine ⟨?_, nb _⟩
      have e1 : "-th fold didn't produce a boosting ensemble, will continue with the others\n".toList =
        "-th fold didn't produce a boosting ensemble, will continue with the others".toList ++ ['\n'] := by decide +kernel
      show "The ".toList ++ fmtNat k ++ "-th fold didn't produce a boosting ensemble, will continue with the others\n".toList =
        "The ".toList ++ fmtNat k ++ "-th fold didn't produce a boosting ensemble, will continue with the others".toList ++ ['\n']
      rw [e1, ← List.append_assoc]
  · rw [List.forall₂_map_right_iff, List.forall₂_same]
    rintro (⟨n, len, e⟩ | k) _
    · have h1 : IsField (fmtNat n ++ "-fold".toList) := isField_suffix (isField_fmtNat n) (by decide)
      have h2 : IsField ("(".toList ++ fmtNat len ++ ").".toList) :=
        isField_suffix ((isField_fmtNat len).pre (by decide)) (by decide)
      have a1 : "Only ".toList = "Only".toList ++ [' '] := by decide
      have a2 : "-fold can be performed due to sample size (".toList = "-fold".toList ++ ' ' :: ("can".toList ++ ' ' ::
          ("be".toList ++ ' ' :: ("performed".toList ++ ' ' :: ("due".toList ++ ' ' :: ("to".toList ++ ' ' :: ("sample".toList ++ ' ' ::
          ("size".toList ++ ' ' :: "(".toList))))))) := by decide +kernel
      have a3 : "). Error: ".toList = ").".toList ++ ' ' :: ("Error:".toList ++ [' ']) := by decide
      have e1 : "Only ".toList ++ fmtNat n ++ "-fold can be performed due to sample size (".toList ++ fmtNat len ++
          "). Error: ".toList ++ e.text = "Only".toList ++ ' ' :: ((fmtNat n ++ "-fold".toList) ++ ' ' :: ("can".toList ++ ' ' ::
          ("be".toList ++ ' ' :: ("performed".toList ++ ' ' :: ("due".toList ++ ' ' :: ("to".toList ++ ' ' :: ("sample".toList ++ ' ' ::
          ("size".toList ++ ' ' :: (("(".toList ++ fmtNat len ++ ").".toList) ++ ' ' :: ("Error:".toList ++ ' ' :: e.text)))))))))) := by
        rw [a1, a2, a3]
        simp only [List.append_assoc, List.cons_append, List.nil_append]
      show strFields ("Only ".toList ++ fmtNat n ++ "-fold can be performed due to sample size (".toList ++ fmtNat len ++
          "). Error: ".toList ++ e.text) = _
      rw [e1]
      rw [fields_word _ _ ⟨by decide, by decide⟩, fields_word _ _ h1]
      iterate 7 rw [fields_word _ _ ⟨by decide, by decide⟩]
      rw [fields_word _ _ h2, fields_word _ _ ⟨by decide, by decide⟩]
      rfl
    · have h1 : IsField (fmtNat k ++ "-th".toList) := isField_suffix (isField_fmtNat k) (by decide)
      have a1 : "The ".toList = "The".toList ++ [' '] := by decide
      have a2 : "-th fold didn't produce a boosting ensemble, will continue with the others".toList = "-th".toList ++ ' ' ::
          "fold didn't produce a boosting ensemble, will continue with the others".toList := by decide +kernel
      have e1 : "The ".toList ++ fmtNat k ++ "-th fold didn't produce a boosting ensemble, will continue with the others".toList =
          "The".toList ++ ' ' :: ((fmtNat k ++ "-th".toList) ++ ' ' ::
          "fold didn't produce a boosting ensemble, will continue with the others".toList) := by
        rw [a1, a2]
        simp only [List.append_assoc, List.cons_append, List.nil_append]
      show strFields ("The ".toList ++ fmtNat k ++ "-th fold didn't produce a boosting ensemble, will continue with the others".toList) = _
      rw [e1, fields_word _ _ ⟨by decide, by decide⟩, fields_word _ _ h1]
      have e2 : strFields "fold didn't produce a boosting ensemble, will continue with the others".toList =
          ["fold".toList, "didn't".toList, "produce".toList, "a".toList, "boosting".toList, "ensemble,".toList, "will".toList,
            "continue".toList, "with".toList, "the".toList, "others".toList] := by decide +kernel
      rw [e2]

/-! ### What is wrong -/

/-- four rows of one class -/
def logData : DataBunch (Exact ℚ) := ⟨[[.fin 0], [.fin 1], [.fin 2], [.fin 3]], [], [7, 7, 7, 7], []⟩

def logOptions : Options (Exact ℚ) :=
  { (defaultXOptions 0 : Options (Exact ℚ)) with
      rounds := 1, subSample := .fin (1 / 2), colSubSample := .fin 1, baseScore := .fin 0, minSample := 1,
      minChildWeight := .fin 1 }

/-- no row is sampled for fold `k`, all rows for the other one -/
def logDraws (k i _ : Nat) : Exact ℚ := if i = k then .fin (3 / 4) else .fin 0

/-- the run with 5 folds asked for, in which fold `k` has no model -/
def logRun (k : Nat) : Run (CVOut (Exact ℚ) × Option FoldErr × List CVLog) :=
  crossValidationV (fun _ => .fin 1) GoSort.ins logData 5 (some logOptions) false [0, 1, 2, 3] (logDraws k)

/-- **C142 violated**: the messages do not say which fold has no model. In one run it is the first of two folds, in another the second;
both log the same, "The 2-th fold". (Both also log that there are two folds and not 5.) -/
theorem C142_violated : logOptions.check = none ∧
    (∀ k, k < 2 → ∃ out, logRun k = pure (out, none,
      [.fewer 2 4 (.reduced 3 1 2 [5, 4]), .noModel 2]) ∧ out.err = false ∧ out.acc = .fin 50) ∧
    ∃ M, newMultiClass (fun _ => .fin 1) GoSort.ins (logDraws 0 0) ⟨[[.fin 2], [.fin 3]], [], [7, 7], []⟩ logOptions = .ok M ∧
      M.rounds none ≤ 0 := by
  refine ⟨by decide +kernel, ?_, ?_⟩
  · intro k hk
    have hk' : k = 0 ∨ k = 1 := by omega
    have h1 : ((logRun k).run.map fun r => r.toOption.map fun r => (r.1.err, r.1.acc)) = some (some (false, .fin 50)) := by
      rcases hk' with rfl | rfl <;> decide +kernel
    have h2 : ((logRun k).run.map fun r => r.toOption.map fun r => r.2) =
        some (some (none, [.fewer 2 4 (.reduced 3 1 2 [5, 4]), .noModel 2])) := by
      rcases hk' with rfl | rfl <;> decide +kernel
    obtain ⟨r, hr, h1⟩ := Option.map_eq_some_iff.1 h1
    rw [hr] at h2
    cases r with
    | error e => cases h1
    | ok r =>
      obtain ⟨out, e, log⟩ := r
      simp only [Except.toOption, Option.map_some, Option.some.injEq, Prod.mk.injEq] at h1 h2
      obtain ⟨e3, e4⟩ := h2
      subst e3 e4
      exact ⟨out, hr, h1.1, h1.2⟩
  · have h : (newMultiClass (fun _ => .fin 1) GoSort.ins (logDraws 0 0) ⟨[[.fin 2], [.fin 3]], [], [7, 7], []⟩ logOptions).map
        (fun M => M.rounds none) = .ok (-1) := by decide +kernel
    cases h1 : newMultiClass (fun _ => .fin 1) GoSort.ins (logDraws 0 0) ⟨[[.fin 2], [.fin 3]], [], [7, 7], []⟩ logOptions with
    | error e => rw [h1] at h; cases h
    | ok M =>
      rw [h1] at h
      simp only [Except.map, Except.ok.injEq] at h
      exact ⟨M, rfl, by omega⟩

/-- the hypothesis of `C142_error` is met: three rows -/
example : ((crossValidationV (fun x : Exact ℚ => x) GoSort.ins ⟨[[.fin 0], [.fin 1], [.fin 2]], [], [7, 7, 7], []⟩ 3 none true []
    (fun _ _ => .fin 0)).run.map fun r => r.toOption.map fun r => (r.1.err, r.2)) = some (some (true, some (.tooFew 1 [3, 2]), [])) := by
  decide +kernel

end Boo
