import Verif.Lemmas.CV
import Verif.Props.Stat
import Verif.Props.Predict

/-!
# C54: the accuracy of a cross-validation
-/

namespace Boo
open GoFloat
set_option linter.unusedSectionVars false
variable {F : Type} [GoFloat F]

theorem calls_callMany {s s' : CVSampler F} {ps : List (DataBunch F × DataBunch F)} (h : Calls s ps s') :
    callMany ps.length s = .ok (ps.map some) := by
  induction h with
  | nil => rfl
  | cons hc _ ih =>
    simp only [List.length_cons, callMany, hc, bind, Except.bind, ih]
    rfl

theorem sampled_two {D : DataBunch F} {nfold : Int} {draws : List Nat} {n : Nat} {s : CVSampler F}
    (h : Sampled D nfold draws n s) : 2 ≤ n := by
  obtain ⟨err, h⟩ := h
  unfold crossValidationSamples at h
  simp only at h
  split at h
  · simp at h
  · split at h
    · simp at h
    · split at h
      · simp at h
      · simp only [Option.some.injEq, Except.ok.injEq, CVResult.mk.injEq] at h
        omega

/-- **C54, messages and fold accuracies** (any arithmetic): a call that returns without error has made `n` folds as in
C33, has trained a model with the given options (the default ones if nil) on each training set, and returns the sum of
the accuracies, on the test sets, of the models that have a round, divided by `n`. When concurrent it has sent no error,
then exactly this accuracy, then the options; otherwise nothing. The options were only changed by raising
`MinChildWeight` to 1.

Missing from the full claim: folds whose model has no round are left out of the sum but counted in `n`
(`C54_violated`). -/
theorem C54_cross_validation_partial (exp : F → F) (S : GoSort) (D : DataBunch F) (nfold : Int)
    (O : Option (Options F)) (conc : Bool) (idraws : List Nat) (fdraws : Nat → Nat → F) (out : CVOut F)
    (h : crossValidation exp S D nfold O conc idraws fdraws = pure out) (he : out.err = false) :
    ∃ n s, Sampled D nfold idraws n s ∧ ∃ pairs : List (DataBunch F × DataBunch F), callMany n s = .ok (pairs.map some) ∧ pairs.length = n ∧
      ∃ accs : List (Option F), accs.length = n ∧
        (∀ (i : Nat) p a, pairs[i]? = some p → accs[i]? = some a →
          FoldAcc exp S (fdraws i) (O.getD (defaultXOptions 0)) p a) ∧
        out.acc = (accs.filterMap id).foldl (· +. ·) zero /. ofInt n ∧
        out.sent = (if conc then [.err false, .acc out.acc, .opt out.opts] else []) ∧
        out.opts = O.map Options.fixMcw := by
  unfold crossValidation at h
  obtain ⟨⟨n, os, err⟩, h1, h⟩ := run_bind_ok h
  simp only at h
  split at h
  · rw [run_pure_eq] at h
    subst h
    cases he
  · cases os with
    | none => rw [ofGo_eq] at h; cases h
    | some s =>
      simp only at h
      rw [ofGo_eq] at h
      unfold cvFolds at h
      obtain ⟨st, h2, h⟩ := bind_ok h
      simp only [pure, Except.pure, Except.ok.injEq] at h
      obtain ⟨ps, as, hc, hl1, hl2, hf, ha, ho⟩ := cvLoop_spec _ _ _ h2
      rw [List.length_range] at hl1 hl2
      subst h
      refine ⟨n, s, ⟨err, h1⟩, ps, ?_, hl1, as, hl2, ?_, ?_, rfl, ?_⟩
      · rw [← hl1]; exact calls_callMany hc
      · intro i p a hp hx
        refine hf i i p a ?_ hp hx
        have : i < n := by
          have := (List.getElem?_eq_some_iff.1 hp).1
          omega
        simp [this]
      · show st.accus /. _ = _
        rw [ha]
      · show st.opts = _
        rw [ho]
        have := sampled_two ⟨err, h1⟩
        rw [if_neg (by simp; omega)]

/-- **C54, errors**: a call that returns an error sends, when concurrent, the error, the accuracy -1 and nil. -/
theorem C54_error (exp : F → F) (S : GoSort) (D : DataBunch F) (nfold : Int)
    (O : Option (Options F)) (conc : Bool) (idraws : List Nat) (fdraws : Nat → Nat → F) (out : CVOut F)
    (h : crossValidation exp S D nfold O conc idraws fdraws = pure out) (he : out.err = true) :
    out.acc = zero ∧ out.sent = (if conc then [.err true, .acc (ofRat (-1)), .opt none] else []) ∧ out.opts = O := by
  unfold crossValidation at h
  obtain ⟨⟨n, os, err⟩, h1, h⟩ := run_bind_ok h
  simp only at h
  split at h
  · rw [run_pure_eq] at h
    subst h
    exact ⟨rfl, rfl, rfl⟩
  · cases os with
    | none => rw [ofGo_eq] at h; cases h
    | some s =>
      simp only at h
      rw [ofGo_eq] at h
      unfold cvFolds at h
      obtain ⟨st, h2, h⟩ := bind_ok h
      simp only [pure, Except.pure, Except.ok.injEq] at h
      subst h
      cases he

/-- **C54, which calls fail**: with 2 or 3 rows, or 1 fold requested, every call returns the error, whatever the draws;
with more rows and another number of folds no call does. -/
theorem C54_when_error (exp : F → F) (S : GoSort) (D : DataBunch F) (nfold : Int)
    (O : Option (Options F)) (conc : Bool) (idraws : List Nat) (fdraws : Nat → Nat → F) (h2 : 2 ≤ D.data.length) :
    ((D.data.length ≤ 3 ∨ nfold = 1) → ∃ out, out.err = true ∧
      crossValidation exp S D nfold O conc idraws fdraws = pure out) ∧
    (¬ (D.data.length ≤ 3 ∨ nfold = 1) → ∀ out, out.err = true →
      crossValidation exp S D nfold O conc idraws fdraws ≠ pure out) := by
  constructor
  · intro h
    have hs := C34_few_partial D nfold idraws h2 h
    unfold crossValidation
    rw [hs]
    exact ⟨_, rfl, rfl⟩
  · intro hn out he h
    unfold crossValidation at h
    obtain ⟨r, h1, h⟩ := run_bind_ok h
    obtain ⟨n, s, err, hr, _, hq, hmax, _⟩ :=
      C34_number_partial D nfold idraws (by omega) (by omega) _ h1
    simp only [Except.ok.injEq] at hr
    subst hr
    have h0 : n ≠ 0 := by rintro rfl; simp at hq
    rw [if_neg (by simp [h0])] at h
    simp only at h
    rw [ofGo_eq] at h
    unfold cvFolds at h
    obtain ⟨st, h2, h⟩ := bind_ok h
    simp only [pure, Except.pure, Except.ok.injEq] at h
    subst h
    cases he

/-! ### the value -/

section exact
variable {K : Type} [Field K] [LinearOrder K] [IsStrictOrderedRing K] [FloorRing K]

theorem accuracy_exact {M : MultiClass (Exact K)} {D : DataBunch (Exact K)} {a : Exact K} (hd : 0 < D.data.length)
    (h : M.accuracy D = .ok a) : ∃ q : K, a = .fin q ∧ 0 ≤ q ∧ q ≤ 100 := by
  obtain ⟨r, hr, rfl⟩ := accuracy_ok h
  have hn : (0 : K) < D.data.length := by exact_mod_cast hd
  have hle : (r : K) ≤ D.data.length := by exact_mod_cast hr
  have h0 : (0 : K) ≤ r := Nat.cast_nonneg _
  have e1 : (((r : Int) : Rat) : K) = (r : K) := by push_cast; rfl
  have e2 : (((D.data.length : Int) : Rat) : K) = (D.data.length : K) := by push_cast; rfl
  refine ⟨100 * ((r : K) / D.data.length), ?_, ?_, ?_⟩
  · rw [Exact.ofInt_fin, Exact.ofInt_fin, Exact.ofRat_fin, e1, e2, Exact.div_fin _ _ hn.ne', Exact.mul_fin]
    congr 2
    push_cast; rfl
  · positivity
  · have : (r : K) / D.data.length ≤ 1 := by rw [div_le_one hn]; exact hle
    linarith

theorem sum_exact : ∀ (qs : List K) (s : K),
    (qs.map (XF.fin : K → Exact K)).foldl (· +. ·) (.fin s) = .fin (s + qs.sum) := by
  intro qs
  induction qs with
  | nil => intro s; simp
  | cons q qs ih =>
    intro s
    rw [List.map_cons, List.foldl_cons, Exact.add_fin, ih, List.sum_cons, add_assoc]

end exact

/-- the test sets are not empty -/
theorem test_nonempty {D : DataBunch F} {nfold : Int} {draws : List Nat} (hd : ∀ x ∈ draws, x < D.data.length) {n : Nat}
    {s : CVSampler F} (h : Sampled D nfold draws n s) {pairs : List (DataBunch F × DataBunch F)}
    (hp : callMany n s = .ok (pairs.map some)) (p : DataBunch F × DataBunch F) (hm : p ∈ pairs) :
    0 < p.2.data.length := by
  obtain ⟨folds, _, _, h2, pairs', h3, _, h5⟩ := C33_folds D nfold draws hd n s h
  rw [hp] at h3
  simp only [Except.ok.injEq] at h3
  obtain ⟨i, hi⟩ := List.getElem?_of_mem hm
  have : (pairs.map some)[i]? = some (some p) := by rw [List.getElem?_map, hi]; rfl
  rw [h3, List.getElem?_map] at this
  cases hq : pairs'[i]? with
  | none => rw [hq] at this; cases this
  | some q =>
    rw [hq] at this
    simp only [Option.map_some, Option.some.injEq] at this
    subst this
    obtain ⟨f, hf, ht, _⟩ := h5 i q.1 q.2 hq
    have := congrArg List.length ht
    rw [List.length_map, List.length_map] at this
    have := (h2 i f hf).1
    omega

/-- every element of `accs` comes from a fold -/
theorem accs_from {P : DataBunch F × DataBunch F → Option F → Prop} {pairs : List (DataBunch F × DataBunch F)}
    {accs : List (Option F)} {n : Nat} (h1 : pairs.length = n) (h2 : accs.length = n)
    (h : ∀ (i : Nat) p a, pairs[i]? = some p → accs[i]? = some a → P p a) (a : Option F) (ha : a ∈ accs) :
    ∃ p ∈ pairs, P p a := by
  obtain ⟨i, hi⟩ := List.getElem?_of_mem ha
  have hlt := (List.getElem?_eq_some_iff.1 hi).1
  have hp : pairs[i]? = some pairs[i] := List.getElem?_eq_getElem (by omega)
  exact ⟨_, List.mem_of_getElem? hp, h i _ _ hp hi⟩

theorem all_fin {R : Type} {f : R → F} {P : R → Prop} (l : List (Option F))
    (h : ∀ x, some x ∈ l → ∃ q, x = f q ∧ P q) : ∃ qs : List R, l.filterMap id = qs.map f ∧ (∀ q ∈ qs, P q) ∧
      qs.length ≤ l.length := by
  induction l with
  | nil => exact ⟨[], rfl, by simp, by simp⟩
  | cons a l ih =>
    obtain ⟨qs, h1, h2, h3⟩ := ih (fun x hx => h x (List.mem_cons_of_mem _ hx))
    cases a with
    | none => exact ⟨qs, (List.filterMap_cons_none rfl).trans h1, h2, by simp; omega⟩
    | some x =>
      obtain ⟨q, rfl, hq⟩ := h x List.mem_cons_self
      exact ⟨q :: qs, by show f q :: List.filterMap id l = _; rw [h1]; rfl, by simpa using ⟨hq, h2⟩, by simpa using h3⟩

/-- **C54, range** (exact arithmetic): the returned accuracy is a number between 0 and 100. -/
theorem C54_range {K : Type} [Field K] [LinearOrder K] [IsStrictOrderedRing K] [FloorRing K]
    (exp : Exact K → Exact K) (S : GoSort) (D : DataBunch (Exact K)) (nfold : Int)
    (O : Option (Options (Exact K))) (conc : Bool) (idraws : List Nat) (hd : ∀ x ∈ idraws, x < D.data.length)
    (fdraws : Nat → Nat → Exact K) (out : CVOut (Exact K))
    (h : crossValidation exp S D nfold O conc idraws fdraws = pure out) (he : out.err = false) :
    ∃ q : K, out.acc = .fin q ∧ 0 ≤ q ∧ q ≤ 100 := by
  obtain ⟨n, s, hs, pairs, hp, hl, accs, hla, hf, hacc, _⟩ :=
    C54_cross_validation_partial exp S D nfold O conc idraws fdraws out h he
  have hn := sampled_two hs
  obtain ⟨qs, h1, h2, h3⟩ := all_fin (f := (XF.fin : K → Exact K)) (P := fun q => 0 ≤ q ∧ q ≤ 100) accs (by
    intro x hx
    obtain ⟨i, hi⟩ := List.getElem?_of_mem hx
    have hlt := (List.getElem?_eq_some_iff.1 hi).1
    have hpi : pairs[i]? = some pairs[i] := List.getElem?_eq_getElem (by omega)
    obtain ⟨M, _, hM⟩ := hf i _ _ hpi hi
    rcases hM with ⟨_, hM⟩ | ⟨_, y, hy, hM⟩
    · cases hM
    · simp only [Option.some.injEq] at hM
      subst hM
      exact accuracy_exact (test_nonempty hd hs hp _ (List.mem_of_getElem? hpi)) hy)
  have hz : (zero : Exact K) = .fin 0 := by simp
  rw [h1, hz, sum_exact, zero_add] at hacc
  have hn0 : (0 : K) < n := by
    have : 0 < n := by omega
    exact_mod_cast this
  have e : (((n : Int) : Rat) : K) = (n : K) := by push_cast; rfl
  rw [Exact.ofInt_fin, e, Exact.div_fin _ _ hn0.ne'] at hacc
  refine ⟨_, hacc, ?_, ?_⟩
  · exact div_nonneg (List.sum_nonneg fun q hq => (h2 q hq).1) hn0.le
  · rw [div_le_iff₀ hn0]
    have : qs.sum ≤ qs.length • (100 : K) := List.sum_le_card_nsmul _ _ fun q hq => (h2 q hq).2
    rw [nsmul_eq_mul] at this
    have hle : (qs.length : K) ≤ n := by
      have : qs.length ≤ n := by omega
      exact_mod_cast this
    nlinarith

/-- **C54, mean** (exact arithmetic): if the model trained on every fold has at least one round, the returned accuracy is
the mean of the accuracies of these models on the test sets. -/
theorem C54_mean {K : Type} [Field K] [LinearOrder K] [IsStrictOrderedRing K] [FloorRing K]
    (exp : Exact K → Exact K) (S : GoSort) (D : DataBunch (Exact K)) (nfold : Int)
    (O : Option (Options (Exact K))) (conc : Bool) (idraws : List Nat) (hd : ∀ x ∈ idraws, x < D.data.length)
    (fdraws : Nat → Nat → Exact K) (out : CVOut (Exact K))
    (h : crossValidation exp S D nfold O conc idraws fdraws = pure out) (he : out.err = false) (n : Nat)
    (s : CVSampler (Exact K)) (hs : Sampled D nfold idraws n s)
    (pairs : List (DataBunch (Exact K) × DataBunch (Exact K))) (hp : callMany n s = .ok (pairs.map some))
    (hr : ∀ (i : Nat) p M, pairs[i]? = some p →
      newMultiClass exp S (fdraws i) p.1 (O.getD (defaultXOptions 0)) = .ok M → 0 < M.rounds none) :
    ∃ as : List K, as.length = pairs.length ∧ out.acc = .fin (as.sum / as.length) ∧
      ∀ (i : Nat) p a, pairs[i]? = some p → as[i]? = some a →
        ∃ M, newMultiClass exp S (fdraws i) p.1 (O.getD (defaultXOptions 0)) = .ok M ∧ M.accuracy p.2 = .ok (.fin a) := by
  obtain ⟨n', s', hs', pairs', hp', hl, accs, hla, hf, hacc, _⟩ :=
    C54_cross_validation_partial exp S D nfold O conc idraws fdraws out h he
  obtain ⟨e1, hs1⟩ := hs
  obtain ⟨e2, hs2⟩ := hs'
  rw [hs1] at hs2
  simp only [Option.some.injEq, Except.ok.injEq, CVResult.mk.injEq] at hs2
  obtain ⟨rfl, rfl, rfl⟩ := hs2
  rw [hp] at hp'
  simp only [Except.ok.injEq] at hp'
  have hpe : pairs = pairs' := List.map_injective_iff.2 (Option.some_injective _) hp'
  subst hpe
  have hn := sampled_two ⟨e1, hs1⟩
  have key : ∀ i < n, ∃ a : K, accs[i]? = some (some (.fin a)) := by
    intro i hi
    have hpi : pairs[i]? = some pairs[i] := List.getElem?_eq_getElem (by omega)
    have hai : accs[i]? = some accs[i] := List.getElem?_eq_getElem (by omega)
    obtain ⟨M, hM, hM2⟩ := hf i _ _ hpi hai
    have := hr i _ M hpi hM
    rcases hM2 with ⟨h0, _⟩ | ⟨_, y, hy, hM2⟩
    · omega
    · obtain ⟨q, rfl, _⟩ := accuracy_exact (test_nonempty hd ⟨e1, hs1⟩ hp _ (List.mem_of_getElem? hpi)) hy
      exact ⟨q, by rw [hai, hM2]⟩
  have hall : ∃ as : List K, accs = as.map (fun a => some (XF.fin a)) := by
    have : ∀ x ∈ accs, ∃ a : K, some (XF.fin a) = x := by
      intro x hx
      obtain ⟨i, hi⟩ := List.getElem?_of_mem hx
      obtain ⟨a, ha⟩ := key i (by have := (List.getElem?_eq_some_iff.1 hi).1; omega)
      rw [hi] at ha
      exact ⟨a, (Option.some.inj ha).symm⟩
    have hm : accs ∈ Set.range (List.map (fun a : K => some (XF.fin a : Exact K))) := by
      rw [Set.range_list_map]
      exact this
    obtain ⟨as, has⟩ := hm
    exact ⟨as, has.symm⟩
  obtain ⟨as, has⟩ := hall
  have hla' : as.length = n := by rw [has, List.length_map] at hla; exact hla
  have hfm : accs.filterMap id = as.map XF.fin := by
    rw [has, List.filterMap_map]
    simp
  have hz : (zero : Exact K) = .fin 0 := by simp
  rw [hfm, hz, sum_exact, zero_add] at hacc
  have hn0 : (0 : K) < n := by
    have : 0 < n := by omega
    exact_mod_cast this
  have e : (((n : Int) : Rat) : K) = (n : K) := by push_cast; rfl
  rw [Exact.ofInt_fin, e, Exact.div_fin _ _ hn0.ne'] at hacc
  refine ⟨as, by omega, by rw [hla']; exact hacc, ?_⟩
  intro i p a hpi hai
  have hx : accs[i]? = some (some (XF.fin a)) := by rw [has, List.getElem?_map, hai]; rfl
  obtain ⟨M, hM, hM2⟩ := hf i _ _ hpi hx
  rcases hM2 with ⟨_, h0⟩ | ⟨_, y, hy, h0⟩
  · cases h0
  · simp only [Option.some.injEq] at h0
    subst h0
    exact ⟨M, hM, hy⟩

/-! ### binary64 -/

theorem pow53 : (9007199254740992 : Int) = 2 ^ 53 := by norm_num

section AnyOrder

variable {τ : Option SumOrder}
/-- float64, with any order of the additions of `floats.Sum` -/
local notation "F64" => F64o τ

theorem acc64 {r n : Nat} (hr : r ≤ n) (h0 : 0 < n) (hn : n < 2 ^ 53) :
    ∃ q : ℚ, (ofRat 100 *. (ofInt (r : Int) /. ofInt (n : Int)) : F64) = .fin q ∧ 0 ≤ q ∧ q ≤ 100 ∧ (q = 100 ↔ r = n) := by
  have hrn : (ofInt (r : Int) : F64) = .fin (r : ℚ) := by
    rw [ofInt64 (by rw [abs_of_nonneg (by omega)]; omega)]; simp
  have hnn : (ofInt (n : Int) : F64) = .fin (n : ℚ) := by
    rw [ofInt64 (by rw [abs_of_nonneg (by omega)]; omega)]; simp
  have h100 : (ofRat 100 : F64) = .fin 100 := ofRat64 (by decide +kernel)
  have hn0 : (0 : ℚ) < n := by exact_mod_cast h0
  have hrq : (r : ℚ) ≤ n := by exact_mod_cast hr
  have hr0 : (0 : ℚ) ≤ r := Nat.cast_nonneg _
  have hdiv : ((.fin (r : ℚ) : F64) /. .fin (n : ℚ)) = XF.round ((r : ℚ) / n) := by
    show XF.div _ _ = _
    simp [XF.div, hn0.ne']
  rw [hrn, hnn, h100, hdiv]
  by_cases he : r = n
  · subst he
    rw [div_self hn0.ne']
    have h1 : (XF.round 1 : F64) = .fin 1 := ofRat64 (by decide +kernel)
    refine ⟨100, ?_, by norm_num, le_refl _, by simp⟩
    rw [h1, mul64 (by rw [big64_def]; decide +kernel), mul_one]
    congr 1
    decide +kernel
  · have hlt : (r : ℚ) + 1 ≤ n := by
      have : r + 1 ≤ n := by omega
      exact_mod_cast this
    have hn53 : (n : ℚ) ≤ 9007199254740992 := by
      have : n ≤ 9007199254740992 := by omega
      exact_mod_cast this
    have hle : (r : ℚ) / n ≤ 9007199254740991 / 9007199254740992 := by
      rw [div_le_div_iff₀ hn0 (by norm_num)]
      nlinarith
    obtain ⟨y, hy, hy0, hy1⟩ := round64_between (lo := 0) (hi := 9007199254740991 / 9007199254740992)
      (by unfold Rep64; decide +kernel) (by unfold Rep64; decide +kernel) (div_nonneg hr0 hn0.le) hle
    rw [hy]
    have hm : ((.fin 100 : F64) *. .fin y) = XF.round (100 * y) := rfl
    rw [hm]
    have hz0 : (0 : ℚ) ≤ 100 * y := by linarith
    have hz1 : 100 * y ≤ 100 * (9007199254740991 / 9007199254740992) := by linarith
    have hrv : rv (100 * y) ≤ rv (100 * (9007199254740991 / 9007199254740992)) := rv_mono hz1
    obtain ⟨z, hz, hz2, hz3⟩ := round64_between (lo := 0) (hi := 100)
      (by unfold Rep64; decide +kernel) (by unfold Rep64; decide +kernel) hz0 (by linarith)
    obtain ⟨w, hw, hwe⟩ : ∃ w : ℚ, (XF.round (100 * (9007199254740991 / 9007199254740992) : ℚ) : F64) = .fin w ∧ w < 100 := by
      refine ⟨7036874417766399 / 70368744177664, ofRat64 (by decide +kernel), by norm_num⟩
    have hzw : z ≤ w := round64_le hz1 hz hw
    refine ⟨z, hz, hz2, hz3, ?_⟩
    constructor
    · intro h; linarith
    · intro h; exact absurd h he

/-- **C25 (binary64)**: for a non-empty data set of fewer than 2^53 rows, `Accuracy` is a number between 0 and 100, and
it is 100 exactly when every row is right. -/
theorem C25_binary64 (M : MultiClass F64) (D : DataBunch F64) (preds : List Nat) (hne : D.data ≠ [])
    (hn : D.data.length < 2 ^ 53) (hp : D.data.mapM M.predictSingleClass = .ok preds)
    (hc : ∀ p ∈ preds, p < M.classLabels.length) (hl : D.labels.length = D.data.length) :
    ∃ a : ℚ, M.accuracy D = .ok (.fin a) ∧ 0 ≤ a ∧ a ≤ 100 ∧
      (a = 100 ↔ ∀ (i : Nat) p lab, preds[i]? = some p → D.labels[i]? = some lab → M.classLabels[p]? = some lab) := by
  obtain ⟨q, h1, h2, h3, h4⟩ := acc64 (r := rightCount M preds D.labels) (n := D.data.length)
    (by rw [← hl]; exact rightCount_le M preds D.labels) (List.length_pos_iff.2 hne) hn
  refine ⟨q, ?_, h2, h3, ?_⟩
  · rw [C25_accuracy M D preds hp hc hl, h1]
  · rw [h4, ← rightCount_eq_iff M preds D.labels (by rw [hl]; exact (mapM_ok.1 hp).length_eq.symm), hl]

theorem sum64 : ∀ (qs : List ℚ) (s : ℚ) (k : Nat), (∀ q ∈ qs, 0 ≤ q ∧ q ≤ 100) → 0 ≤ s → s ≤ 100 * k →
    100 * (k + qs.length) < 2 ^ 53 →
    ∃ t : ℚ, (qs.map (XF.fin : ℚ → F64)).foldl (· +. ·) (.fin s) = .fin t ∧ 0 ≤ t ∧ t ≤ 100 * ((k + qs.length : Nat) : ℚ) := by
  intro qs
  induction qs with
  | nil => intro s k _ h0 h1 _; exact ⟨s, rfl, h0, by simpa using h1⟩
  | cons q qs ih =>
    intro s k hq h0 h1 hk
    rw [List.map_cons, List.foldl_cons]
    have hadd : ((.fin s : F64) +. .fin q) = XF.round (s + q) := rfl
    obtain ⟨hq0, hq1⟩ := hq q List.mem_cons_self
    simp only [List.length_cons] at hk
    have hrep : Rep64 (100 * ((k + 1 : Nat) : ℚ)) := by
      have : (100 * ((k + 1 : Nat) : ℚ)) = ((100 * (k + 1 : Nat) : Int) : ℚ) := by push_cast; ring
      rw [this]
      exact rep64_int (by rw [abs_of_nonneg (by omega)]; omega)
    obtain ⟨y, hy, hy0, hy1⟩ := round64_between (lo := 0) (x := s + q) (by unfold Rep64; decide +kernel) hrep (by linarith)
      (by push_cast; linarith)
    rw [hadd, hy]
    obtain ⟨t, h2, h3, h4⟩ := ih y (k + 1) (fun q hq' => hq q (List.mem_cons_of_mem _ hq')) hy0 hy1 (by omega)
    refine ⟨t, h2, h3, ?_⟩
    rw [List.length_cons, show k + (qs.length + 1) = k + 1 + qs.length by omega]
    exact h4

/-- **C54, range** (binary64): for up to 2^46 rows the returned accuracy is a number between 0 and 100. -/
theorem C54_range_binary64 (exp : F64 → F64) (S : GoSort) (D : DataBunch F64) (hn : D.data.length ≤ 2 ^ 46) (nfold : Int)
    (O : Option (Options F64)) (conc : Bool) (idraws : List Nat) (hd : ∀ x ∈ idraws, x < D.data.length)
    (fdraws : Nat → Nat → F64) (out : CVOut F64)
    (h : crossValidation exp S D nfold O conc idraws fdraws = pure out) (he : out.err = false) :
    ∃ q : ℚ, out.acc = .fin q ∧ 0 ≤ q ∧ q ≤ 100 := by
  obtain ⟨n, s, hs, pairs, hp, hl, accs, hla, hf, hacc, _⟩ :=
    C54_cross_validation_partial exp S D nfold O conc idraws fdraws out h he
  have hn2 := sampled_two hs
  have hnD : n ≤ D.data.length := by
    have := (sampled_parts hs hd).2.1
    by_contra hlt
    rw [Nat.div_eq_of_lt (by omega)] at this
    omega
  obtain ⟨folds, _, hperm, h2, pairs', h3, h4', h5⟩ := C33_folds D nfold idraws hd n s hs
  obtain ⟨qs, h1, h2', h3'⟩ := all_fin (f := (XF.fin : ℚ → F64)) (P := fun q => 0 ≤ q ∧ q ≤ 100) accs (by
    intro x hx
    obtain ⟨i, hi⟩ := List.getElem?_of_mem hx
    have hlt := (List.getElem?_eq_some_iff.1 hi).1
    have hpi : pairs[i]? = some pairs[i] := List.getElem?_eq_getElem (by omega)
    obtain ⟨M, _, hM⟩ := hf i _ _ hpi hi
    rcases hM with ⟨_, hM⟩ | ⟨_, y, hy, hM⟩
    · cases hM
    · simp only [Option.some.injEq] at hM
      subst hM
      obtain ⟨r, hr, rfl⟩ := accuracy_ok hy
      have hsz : pairs[i].2.data.length ≤ D.data.length := by
        rw [hp] at h3
        simp only [Except.ok.injEq] at h3
        have hpe : pairs = pairs' := List.map_injective_iff.2 (Option.some_injective _) h3
        subst hpe
        obtain ⟨f, hf', ht, _⟩ := h5 i pairs[i].1 pairs[i].2 hpi
        have e1 : pairs[i].2.data.length = f.length := by
          have := congrArg List.length ht
          rwa [List.length_map, List.length_map] at this
        have e2 := hperm.length_eq
        rw [List.length_range] at e2
        have e3 : f.length ≤ folds.flatten.length :=
          (List.sublist_flatten_of_mem (List.mem_of_getElem? hf')).length_le
        omega
      obtain ⟨q, hq, hq0, hq1, _⟩ := acc64 hr (test_nonempty hd hs hp _ (List.mem_of_getElem? hpi))
        (lt_of_le_of_lt (le_trans hsz hn) (by norm_num))
      exact ⟨q, hq, hq0, hq1⟩)
  have hz : (zero : F64) = .fin 0 := rfl
  obtain ⟨t, ht, ht0, ht1⟩ := sum64 qs 0 0 h2' (le_refl _) (by simp) (by omega)
  rw [h1, hz, ht] at hacc
  have hnn : (ofInt (n : Int) : F64) = .fin (n : ℚ) := by
    rw [ofInt64 (by rw [abs_of_nonneg (by omega)]; omega)]; simp
  have hn0 : (0 : ℚ) < n := by
    have : 0 < n := by omega
    exact_mod_cast this
  rw [hnn] at hacc
  have hdiv : ((.fin t : F64) /. .fin (n : ℚ)) = XF.round (t / n) := by
    show XF.div _ _ = _
    simp [XF.div, hn0.ne']
  have hle : t / n ≤ 100 := by
    rw [div_le_iff₀ hn0]
    have : (qs.length : ℚ) ≤ n := by
      have : qs.length ≤ n := by omega
      exact_mod_cast this
    push_cast at ht1
    linarith
  obtain ⟨y, hy, hy0, hy1⟩ := round64_between (lo := 0) (hi := 100) (by unfold Rep64; decide +kernel)
    (by unfold Rep64; decide +kernel) (div_nonneg ht0 hn0.le) hle
  exact ⟨y, by rw [hacc, hdiv, hy], hy0, hy1⟩

end AnyOrder

/-! ### skipped folds -/

/-- four rows of one class -/
def skipData : DataBunch F64 := ⟨[[.fin 0], [.fin 1], [.fin 2], [.fin 3]], [], [7, 7, 7, 7], []⟩

def skipOptions : Options F64 :=
  { (defaultXOptions 0 : Options F64) with
      rounds := 1, subSample := .fin (1 / 2), colSubSample := .fin 1, baseScore := .fin 0, minSample := 1,
      minChildWeight := .fin 1 }

/-- no row is sampled for the first fold, all rows for the second -/
def skipDraws (i _ : Nat) : F64 := if i = 0 then .fin (3 / 4) else .fin 0

/-- the two folds: rows 0 and 1, rows 2 and 3 -/
def skipSampler : CVSampler F64 := ⟨skipData, [[0, 1], [2, 3]], 2, 0⟩

def skipTrain (k : Nat) : DataBunch F64 :=
  if k = 0 then ⟨[[.fin 2], [.fin 3]], [], [7, 7], []⟩ else ⟨[[.fin 0], [.fin 1]], [], [7, 7], []⟩

theorem skip_sampled : crossValidationSamples skipData 2 [0, 1, 2, 3] = some (.ok ⟨2, some skipSampler, false⟩) := rfl

/-- **C54 is violated**: for every `exp` with `exp 0 = 1`, valid options and two folds: the model of the first fold has no
round and the model of the second labels every row of its test set right (accuracy 100). The mean over the folds that
gave a model is 100, the returned accuracy is 50. -/
theorem C54_violated (exp : F64 → F64) (hexp : exp (.fin 0) = .fin 1) :
    skipOptions.check = none ∧
    (∃ M0, newMultiClass exp GoSort.ins (skipDraws 0) (skipTrain 0) skipOptions = .ok M0 ∧ M0.rounds none ≤ 0) ∧
    (∃ M1, newMultiClass exp GoSort.ins (skipDraws 1) (skipTrain 1) skipOptions = .ok M1 ∧ 0 < M1.rounds none ∧
      M1.accuracy (skipTrain 0) = .ok (.fin 100)) ∧
    ∃ out, crossValidation exp GoSort.ins skipData 2 (some skipOptions) true [0, 1, 2, 3] skipDraws = pure out ∧
      out.err = false ∧ out.acc = .fin 50 := by
  have hv : HasValues exp [(.fin 0, .fin 1)] := by
    intro p hp
    simp only [List.mem_singleton] at hp
    subst hp
    exact hexp
  have hact := softMaxDenseT_le hv
  have tr : ∀ i, (∃ labels st, trainWith (activationDense (softMaxT [(.fin 0, .fin 1)])) GoSort.ins (skipDraws i)
      (skipTrain i) skipOptions = .ok (labels, st) ∧
      (modelWith (activationDense (softMaxT [(.fin 0, .fin 1)])) skipOptions labels st).rounds none ≤ 0) →
      (∃ M0, newMultiClass exp GoSort.ins (skipDraws i) (skipTrain i) skipOptions = .ok M0 ∧ M0.rounds none ≤ 0) := by
    rintro i ⟨labels, st, h1, h2⟩
    refine ⟨toModel exp skipOptions labels st, ?_, h2⟩
    unfold newMultiClass train
    rw [trainWith_mono hact _ h1]
    rfl
  refine ⟨by decide +kernel, tr 0 ?_, ?_, ?_⟩
  · have h : (do let (labels, st) ← trainWith (activationDense (softMaxT [(.fin 0, .fin 1)])) GoSort.ins (skipDraws 0)
                  (skipTrain 0) skipOptions
                 pure ((modelWith (activationDense (softMaxT [(.fin 0, .fin 1)])) skipOptions labels st).rounds none) :
                 Go Int) = .ok (-1) := by decide +kernel
    obtain ⟨⟨labels, st⟩, h1, h⟩ := bind_ok h
    simp only [pure, Except.pure, Except.ok.injEq] at h
    exact ⟨labels, st, h1, by omega⟩
  · have h : (do let (labels, st) ← trainWith (activationDense (softMaxT [(.fin 0, .fin 1)])) GoSort.ins (skipDraws 1)
                  (skipTrain 1) skipOptions
                 let M := modelWith (activationDense (softMaxT [(.fin 0, .fin 1)])) skipOptions labels st
                 let a ← M.accuracy (skipTrain 0)
                 pure (M.rounds none, a) :
                 Go (Int × F64)) = .ok (1, .fin 100) := by decide +kernel
    obtain ⟨⟨labels, st⟩, h1, h⟩ := bind_ok h
    simp only at h
    obtain ⟨a, h2, h⟩ := bind_ok h
    simp only [pure, Except.pure, Except.ok.injEq, Prod.mk.injEq] at h
    obtain ⟨h3, rfl⟩ := h
    refine ⟨toModel exp skipOptions labels st, ?_, ?_, accuracy_mono hact _ _ h2⟩
    · unfold newMultiClass train
      rw [trainWith_mono hact _ h1]
      rfl
    · show (modelWith (activationDense (softMaxT [(.fin 0, .fin 1)])) skipOptions labels st).rounds none > 0
      rw [h3]; decide
  · have h : (do let o ← cvFoldsWith (activationDense (softMaxT [(.fin 0, .fin 1)])) GoSort.ins 2 skipSampler
                   (some skipOptions) true skipDraws
                 pure (o.err, o.acc) : Go (Bool × F64)) = .ok (false, .fin 50) := by decide +kernel
    obtain ⟨o, h1, h⟩ := bind_ok h
    simp only [pure, Except.pure, Except.ok.injEq, Prod.mk.injEq] at h
    refine ⟨o, ?_, h.1, h.2⟩
    unfold crossValidation
    rw [skip_sampled]
    show Run.ofGo _ = _
    rw [ofGo_eq]
    exact cvFoldsWith_mono hact _ h1

/-- The hypotheses of `C54_mean`, `C54_range` and `C54_cross_validation_partial` are met by a run in exact arithmetic in
which both folds give a model; its accuracy is 100. -/
example :
    let D : DataBunch (Exact ℚ) := ⟨[[.fin 0], [.fin 1], [.fin 2], [.fin 3]], [], [7, 7, 7, 7], []⟩
    let O : Options (Exact ℚ) := { (defaultXOptions 0 : Options (Exact ℚ)) with
      rounds := 1, subSample := .fin (1 / 2), colSubSample := .fin 1, baseScore := .fin 0, minSample := 1,
      minChildWeight := .fin 1 }
    O.check = none ∧
    (do let out ← crossValidation (fun _ => .fin 1) GoSort.ins D 2 (some O) true [0, 1, 2, 3] (fun _ _ => .fin 0)
        pure (out.acc, out.err, out.sent.length) : Run (Exact ℚ × Bool × Nat)) = pure (.fin 100, false, 3) ∧
    (do let M0 ← newMultiClass (F := Exact ℚ) (fun _ => .fin 1) GoSort.ins (fun _ => .fin 0) ⟨[[.fin 2], [.fin 3]], [], [7, 7], []⟩ O
        let M1 ← newMultiClass (F := Exact ℚ) (fun _ => .fin 1) GoSort.ins (fun _ => .fin 0) ⟨[[.fin 0], [.fin 1]], [], [7, 7], []⟩ O
        pure (M0.rounds none, M1.rounds none)) = .ok (1, 1) := by
  refine ⟨by decide +kernel, ?_, by decide +kernel⟩
  show (_ : Option (Except Panic (Exact ℚ × Bool × Nat))) = some (.ok _)
  decide +kernel

/-- the hypothesis of `C54_error` is met: three rows -/
example (exp : F64 → F64) (D : DataBunch F64) (h : D.data.length = 3) (O : Option (Options F64)) (f : Nat → Nat → F64) :
    ∃ out, out.err = true ∧ crossValidation exp GoSort.ins D 5 O true [] f = pure out :=
  (C54_when_error exp GoSort.ins D 5 O true [] f (by omega)).1 (Or.inl (by omega))

end Boo
