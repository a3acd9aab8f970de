import Verif.Props.CV
import Verif.Props.Grid
import Verif.Props.Train
import Verif.Props.Math

/-!
# C120: cross-validation and labels that are not in the training part
-/

namespace Boo
open GoFloat
set_option linter.unusedSectionVars false
variable {F : Type} [GoFloat F]

theorem countRight_known {M : MultiClass F} {P : Int → Bool} (hP : ∀ l ∈ M.classLabels, P l = true) {labels : List Int} :
    ∀ (vs : List (List F)) (i right r : Nat), M.countRight labels vs i right = .ok r →
      r ≤ right + ((labels.drop i).take vs.length).countP P := by
  intro vs
  induction vs with
  | nil =>
    intro i right r h
    simp only [MultiClass.countRight, Except.ok.injEq] at h
    omega
  | cons v vs ih =>
    intro i right r h
    unfold MultiClass.countRight at h
    obtain ⟨p, _, h⟩ := bind_ok h
    obtain ⟨lab, h2, h⟩ := bind_ok h
    obtain ⟨actual, h3, h⟩ := bind_ok h
    have hm : lab ∈ M.classLabels := List.mem_of_getElem? (goIdx_ok.1 h2)
    have hi := goIdx_ok.1 h3
    obtain ⟨hlt, he⟩ := List.getElem?_eq_some_iff.1 hi
    have hdrop : labels.drop i = actual :: labels.drop (i + 1) := by
      rw [List.drop_eq_getElem_cons hlt, he]
    have := ih _ _ _ h
    rw [hdrop, List.length_cons, List.take_succ_cons, List.countP_cons]
    split at this
    · rename_i hl
      rw [← hl, hP lab hm, if_pos rfl]
      omega
    · omega

/-- **C120 (one model)**, any arithmetic: `Accuracy` of a trained model on other data is 100 times a number of rows
divided by the number of rows, and the rows counted are at most those whose label occurs in the training data. -/
theorem C120_unseen (exp : F → F) (S : GoSort) (draws : Nat → F) (train test : DataBunch F) (O : Options F)
    (M : MultiClass F) (h : newMultiClass exp S draws train O = .ok M) (a : F) (ha : M.accuracy test = .ok a) :
    ∃ right : Nat, a = ofRat 100 *. (ofInt right /. ofInt test.data.length) ∧
      right ≤ (test.labels.take test.data.length).countP (fun l => decide (l ∈ train.labels)) := by
  unfold MultiClass.accuracy at ha
  obtain ⟨r, h1, ha⟩ := bind_ok ha
  refine ⟨r, (Except.ok.inj ha).symm, ?_⟩
  have := countRight_known (P := fun l => decide (l ∈ train.labels)) (M := M) (by
    intro l hl
    rw [(C22_rounds exp S draws train O M h).2.1] at hl
    exact decide_eq_true (((C39_distinct train.labels).2.1 l).1 hl)) _ _ _ _ h1
  simpa using this

theorem filterMap_labels (l : List Int) (n : Nat) (hl : l.length = n) (idx : List Nat) (h : ∀ v ∈ idx, v < n) :
    idx.filterMap (l[·]?) = idx.map (l.getD · 0) := by
  induction idx with
  | nil => rfl
  | cons v vs ih =>
    have hv : v < l.length := by rw [hl]; exact h v (by simp)
    rw [List.filterMap_cons_some (List.getElem?_eq_getElem hv), List.map_cons, ih fun w hw => h w (by simp [hw]),
      List.getD_eq_getElem?_getD, List.getElem?_eq_getElem hv]
    rfl

/-- The labels of the training and of the test set of a fold are together those of the data. -/
theorem fold_labels {D : DataBunch F} (hlab : D.labels.length = D.data.length) {nfold : Int} {draws : List Nat}
    (hd : ∀ x ∈ draws, x < D.data.length) {n : Nat} {s : CVSampler F} (h : Sampled D nfold draws n s)
    {pairs : List (DataBunch F × DataBunch F)} (hp : callMany n s = .ok (pairs.map some))
    (p : DataBunch F × DataBunch F) (hm : p ∈ pairs) :
    (p.1.labels ++ p.2.labels).Perm D.labels ∧ p.2.labels.length = p.2.data.length := by
  obtain ⟨h2, hq, folds, rfl, hpt⟩ := sampled_parts h hd
  rw [callMany_eq hpt n 0 (by omega)] at hp
  simp only [List.drop_zero, Nat.sub_zero, Nat.sub_self, List.replicate_zero, List.append_nil,
    ← List.range_eq_range', Except.ok.injEq] at hp
  have hm' : some p ∈ pairs.map some := List.mem_map.2 ⟨p, hm, rfl⟩
  rw [← hp] at hm'
  obtain ⟨⟨f, i⟩, hz, he⟩ := List.mem_map.1 (List.mem_of_mem_take hm')
  obtain ⟨k, hk⟩ := List.getElem?_of_mem hz
  rw [List.getElem?_zip_eq_some] at hk
  obtain ⟨hf, hi⟩ := hk
  have hki : i = k := by
    obtain ⟨hlt, hi⟩ := List.getElem?_eq_some_iff.1 hi
    simpa using hi.symm
  subst hki
  simp only [Option.some.injEq] at he
  subst he
  have hmem : ∀ v ∈ folds.flatten, v < D.data.length := by
    intro v hv
    rw [hpt.perm.mem_iff, List.mem_range] at hv
    exact hv
  have hmf : ∀ v ∈ f, v < D.data.length := fun v hv =>
    hmem v (List.mem_flatten.2 ⟨f, List.mem_of_getElem? hf, hv⟩)
  have hme : ∀ v ∈ (folds.eraseIdx i).flatten, v < D.data.length := by
    intro v hv
    apply hmem v
    rw [List.mem_flatten] at hv ⊢
    obtain ⟨l, hl, hv⟩ := hv
    exact ⟨l, List.mem_of_mem_eraseIdx hl, hv⟩
  constructor
  · simp only [pick]
    rw [filterMap_labels D.labels _ hlab _ hme, filterMap_labels D.labels _ hlab _ hmf, ← List.map_append]
    have hperm : ((folds.eraseIdx i).flatten ++ f).Perm (List.range D.data.length) := by
      refine List.Perm.trans ?_ hpt.perm
      refine List.perm_append_comm.trans ?_
      obtain ⟨hlt, hfe⟩ := List.getElem?_eq_some_iff.1 hf
      have : (folds[i] :: folds.eraseIdx i).Perm folds := List.getElem_cons_eraseIdx_perm hlt
      have := this.flatten
      rwa [List.flatten_cons, hfe] at this
    refine (hperm.map _).trans ?_
    have : (List.range D.data.length).map (D.labels.getD · 0) = D.labels := by
      rw [← hlab]
      apply List.ext_getElem
      · simp
      · intro j h1 h2
        rw [List.getElem_map, List.getElem_range, List.getD_eq_getElem?_getD, List.getElem?_eq_getElem h2]
        rfl
    rw [this]
  · simp only [pick]
    rw [filterMap_labels D.labels _ hlab _ hmf, List.length_map]
    have : ∀ idx : List Nat, (∀ v ∈ idx, v < D.data.length) → (idx.filterMap (D.data[·]?)).length = idx.length := by
      intro idx
      induction idx with
      | nil => intro _; rfl
      | cons v vs ih =>
        intro h
        rw [List.filterMap_cons_some (List.getElem?_eq_getElem (h v (by simp))), List.length_cons, List.length_cons,
          ih fun w hw => h w (by simp [hw])]
    exact (this f hmf).symm

/-- rows of `test` whose label occurs more than once in `D` -/
def repeated (D test : DataBunch F) : Nat := test.labels.countP (fun l => decide (2 ≤ D.labels.count l))

/-- **C120 (folds)**, any arithmetic: a cross-validation that returns without error has, for each fold, counted at most
the test rows whose label occurs at least twice in the data: a row with a label of its own is never right. -/
theorem C120_folds (exp : F → F) (S : GoSort) (D : DataBunch F) (hlab : D.labels.length = D.data.length) (nfold : Int)
    (O : Option (Options F)) (conc : Bool) (idraws : List Nat) (hd : ∀ x ∈ idraws, x < D.data.length)
    (fdraws : Nat → Nat → F) (out : CVOut F)
    (h : crossValidation exp S D nfold O conc idraws fdraws = pure out) (he : out.err = false) :
    ∃ n s, Sampled D nfold idraws n s ∧ ∃ pairs : List (DataBunch F × DataBunch F),
      callMany n s = .ok (pairs.map some) ∧ pairs.length = n ∧
      ∃ accs : List (Option F), accs.length = n ∧ out.acc = (accs.filterMap id).foldl (· +. ·) zero /. ofInt n ∧
        ∀ (i : Nat) p a, pairs[i]? = some p → accs[i]? = some (some a) →
          ∃ right : Nat, a = ofRat 100 *. (ofInt right /. ofInt p.2.data.length) ∧ right ≤ repeated D p.2 := by
  obtain ⟨n, s, hs, pairs, hp, hl, accs, hla, hf, hacc, _⟩ :=
    C54_cross_validation_partial exp S D nfold O conc idraws fdraws out h he
  refine ⟨n, s, hs, pairs, hp, hl, accs, hla, hacc, ?_⟩
  intro i p a hpi hai
  obtain ⟨M, hM, hM2⟩ := hf i _ _ hpi hai
  rcases hM2 with ⟨_, hM2⟩ | ⟨_, x, hx, hM2⟩
  · cases hM2
  · cases hM2
    obtain ⟨right, h1, h2⟩ := C120_unseen exp S _ p.1 p.2 _ M hM a hx
    refine ⟨right, h1, h2.trans ?_⟩
    obtain ⟨hperm, hlen⟩ := fold_labels hlab hd hs hp p (List.mem_of_getElem? hpi)
    rw [← hlen, List.take_length]
    unfold repeated
    apply List.countP_mono_left
    intro l hl hin
    simp only [decide_eq_true_eq] at hin ⊢
    rw [← hperm.count_eq, List.count_append]
    have h1 := List.one_le_count_iff.2 hin
    have h2 := List.one_le_count_iff.2 hl
    omega

theorem repeated_nodup {D test : DataBunch F} (h : D.labels.Nodup) : repeated D test = 0 := by
  unfold repeated
  rw [List.countP_eq_zero]
  intro l _
  simp only [decide_eq_true_eq, not_le]
  have := List.nodup_iff_count_le_one.1 h l
  omega

/-- the facts about zero that are needed, for the numbers of rows up to `N` -/
structure ZeroFacts (F : Type) [GoFloat F] (N : Nat) : Prop where
  acc : ∀ n : Nat, 0 < n → n ≤ N → ofRat 100 *. (ofInt (0 : Nat) /. ofInt n) = (zero : F)
  add : (zero : F) +. zero = zero
  div : ∀ n : Nat, 0 < n → n ≤ N → (zero : F) /. ofInt n = zero
  gt : gt (zero : F) zero = false

theorem distinct_zero {D : DataBunch F} (hz : ZeroFacts F D.data.length) (exp : F → F) (S : GoSort)
    (hlab : D.labels.length = D.data.length) (hnd : D.labels.Nodup)
    (nfold : Int) (O : Option (Options F)) (conc : Bool) (idraws : List Nat) (hd : ∀ x ∈ idraws, x < D.data.length)
    (fdraws : Nat → Nat → F) (out : CVOut F)
    (h : crossValidation exp S D nfold O conc idraws fdraws = pure out) (he : out.err = false) : out.acc = zero := by
  obtain ⟨n, s, hs, pairs, hp, hl, accs, hla, hacc, hf⟩ := C120_folds exp S D hlab nfold O conc idraws hd fdraws out h he
  have hz' : ∀ x ∈ accs.filterMap id, x = zero := by
    intro x hx
    obtain ⟨a, ha, hax⟩ := List.mem_filterMap.1 hx
    simp only [id_eq] at hax
    subst hax
    obtain ⟨i, hi⟩ := List.getElem?_of_mem ha
    have hlt := (List.getElem?_eq_some_iff.1 hi).1
    have hpi : pairs[i]? = some pairs[i] := List.getElem?_eq_getElem (by omega)
    obtain ⟨right, h3, h4⟩ := hf i _ _ hpi hi
    rw [repeated_nodup hnd] at h4
    obtain rfl : right = 0 := by omega
    rw [h3]
    refine hz.acc _ (test_nonempty hd hs hp _ (List.mem_of_getElem? hpi)) ?_
    obtain ⟨hperm, hlen⟩ := fold_labels hlab hd hs hp _ (List.mem_of_getElem? hpi)
    have := hperm.length_eq
    rw [List.length_append] at this
    omega
  have hsum : ∀ l : List F, (∀ x ∈ l, x = zero) → l.foldl (· +. ·) zero = zero := by
    intro l
    induction l with
    | nil => intro _; rfl
    | cons x l ih =>
      intro hx
      rw [List.foldl_cons, hx x (by simp), hz.add]
      exact ih fun y hy => hx y (by simp [hy])
  rw [hacc, hsum _ hz']
  have h2 := sampled_two hs
  refine hz.div n (by omega) ?_
  have := (sampled_parts hs hd).2.1
  by_contra hlt
  rw [Nat.div_eq_of_lt (by omega)] at this
  omega

theorem zeroFacts64 {N : Nat} (hN : N < 2 ^ 53) : ZeroFacts F64 N := by
  have hz : (zero : F64) = .fin 0 := by decide +kernel
  have h0 : (ofInt ((0 : Nat) : Int) : F64) = .fin 0 := by decide +kernel
  have hd : ∀ n : Nat, 0 < n → n ≤ N → ((.fin 0 : F64) /. ofInt n) = .fin 0 := by
    intro n h1 h2
    rw [ofInt64 (by rw [abs_of_nonneg (by omega)]; omega)]
    have hn : ((n : Int) : ℚ) ≠ 0 := by
      simp only [Int.cast_natCast, ne_eq, Nat.cast_eq_zero]
      omega
    have : ((.fin 0 : F64) /. .fin ((n : Int) : ℚ)) = XF.round (0 / ((n : Int) : ℚ)) := by
      show XF.div _ _ = _
      simp only [XF.div, hn, if_false]
    rw [this, zero_div]
    decide +kernel
  refine ⟨?_, by decide +kernel, ?_, by decide +kernel⟩
  · intro n h1 h2
    rw [h0, hd n h1 h2]
    decide +kernel
  · intro n h1 h2
    rw [hz, hd n h1 h2]

section
variable {K : Type} [Field K] [LinearOrder K] [IsStrictOrderedRing K] [FloorRing K]

theorem zeroFactsExact (N : Nat) : ZeroFacts (Exact K) N := by
  have hn : ∀ n : Nat, 0 < n → (((n : Int) : Rat) : K) ≠ 0 := by
    intro n h
    have : (((n : Int) : Rat) : K) = (n : K) := by push_cast; rfl
    rw [this]
    exact_mod_cast (by omega : n ≠ 0)
  refine ⟨?_, ?_, ?_, ?_⟩
  · intro n h1 _
    rw [Exact.ofInt_fin, Exact.ofInt_fin, Exact.ofRat_fin, Exact.div_fin _ _ (hn n h1), Exact.mul_fin, Exact.zero_fin]
    simp
  · simp
  · intro n h1 _
    rw [Exact.ofInt_fin, Exact.zero_fin, Exact.div_fin _ _ (hn n h1)]
    simp
  · show (_ <. _) = false
    rw [Exact.zero_fin, XF.fin_lt]
    simp

/-- **C120 (bound)**, exact arithmetic: the accuracy of a cross-validation is at most the mean over the folds of the
percentage of test rows whose label occurs at least twice in the data. -/
theorem C120_bound (exp : Exact K → Exact K) (S : GoSort) (D : DataBunch (Exact K))
    (hlab : D.labels.length = D.data.length) (nfold : Int) (O : Option (Options (Exact K))) (conc : Bool)
    (idraws : List Nat) (hd : ∀ x ∈ idraws, x < D.data.length) (fdraws : Nat → Nat → Exact K) (out : CVOut (Exact K))
    (h : crossValidation exp S D nfold O conc idraws fdraws = pure out) (he : out.err = false) :
    ∃ n s, Sampled D nfold idraws n s ∧ ∃ pairs : List (DataBunch (Exact K) × DataBunch (Exact K)),
      callMany n s = .ok (pairs.map some) ∧ pairs.length = n ∧
      ∃ q : K, out.acc = .fin q ∧
        q ≤ (pairs.map fun p => 100 * ((repeated D p.2 : K) / p.2.data.length)).sum / n := by
  obtain ⟨n, s, hs, pairs, hp, hl, accs, hla, hacc, hf⟩ := C120_folds exp S D hlab nfold O conc idraws hd fdraws out h he
  refine ⟨n, s, hs, pairs, hp, hl, ?_⟩
  have hne := fun p hp' => test_nonempty hd hs hp p hp'
  have key : ∀ (pairs : List (DataBunch (Exact K) × DataBunch (Exact K))) (accs : List (Option (Exact K))),
      pairs.length = accs.length → (∀ p ∈ pairs, 0 < p.2.data.length) →
      (∀ (i : Nat) p a, pairs[i]? = some p → accs[i]? = some (some a) →
          ∃ right : Nat, a = ofRat 100 *. (ofInt right /. ofInt p.2.data.length) ∧ right ≤ repeated D p.2) →
      ∃ qs : List K, accs.filterMap id = qs.map XF.fin ∧
        qs.sum ≤ (pairs.map fun p => 100 * ((repeated D p.2 : K) / p.2.data.length)).sum := by
    intro pairs
    induction pairs with
    | nil =>
      intro accs hl _ _
      cases accs with
      | nil => exact ⟨[], rfl, by simp⟩
      | cons a l => simp at hl
    | cons p pairs ih =>
      intro accs hl hne hf
      cases accs with
      | nil => simp at hl
      | cons a accs =>
        obtain ⟨qs, h1, h2⟩ := ih accs (by simpa using hl) (fun q hq => hne q (by simp [hq]))
          (fun i q b hq hb => hf (i + 1) q b (by simpa using hq) (by simpa using hb))
        have hpos : (0 : K) < p.2.data.length := by exact_mod_cast hne p (by simp)
        have h0 : (0 : K) ≤ 100 * ((repeated D p.2 : K) / p.2.data.length) := by positivity
        cases a with
        | none =>
          refine ⟨qs, (List.filterMap_cons_none rfl).trans h1, ?_⟩
          rw [List.map_cons, List.sum_cons]
          linarith
        | some a =>
          obtain ⟨r, hr, hle⟩ := hf 0 p a rfl rfl
          have e1 : (((r : Int) : Rat) : K) = (r : K) := by push_cast; rfl
          have e2 : (((p.2.data.length : Int) : Rat) : K) = (p.2.data.length : K) := by push_cast; rfl
          have e3 : ((100 : Rat) : K) = 100 := by push_cast; rfl
          rw [Exact.ofInt_fin, Exact.ofInt_fin, Exact.ofRat_fin, e1, e2, e3, Exact.div_fin _ _ hpos.ne', Exact.mul_fin] at hr
          refine ⟨100 * ((r : K) / p.2.data.length) :: qs, ?_, ?_⟩
          · show a :: accs.filterMap id = _
            rw [h1, hr]
            rfl
          · rw [List.map_cons, List.sum_cons, List.sum_cons]
            have hle' : (r : K) ≤ repeated D p.2 := by exact_mod_cast hle
            have := div_le_div_of_nonneg_right hle' hpos.le
            linarith
  obtain ⟨qs, h1, h2⟩ := key pairs accs (by omega) hne hf
  have hz : (zero : Exact K) = .fin 0 := by simp
  rw [h1, hz, sum_exact, zero_add] at hacc
  have hn0 : (0 : K) < n := by
    have : 0 < n := by have := sampled_two hs; omega
    exact_mod_cast this
  have e : (((n : Int) : Rat) : K) = (n : K) := by push_cast; rfl
  rw [Exact.ofInt_fin, e, Exact.div_fin _ _ hn0.ne'] at hacc
  exact ⟨_, hacc, div_le_div_of_nonneg_right h2 hn0.le⟩

/-- **C120 (all labels different)**, exact arithmetic: the accuracy of a cross-validation is 0, whatever the options. -/
theorem C120_distinct_exact (exp : Exact K → Exact K) (S : GoSort) (D : DataBunch (Exact K))
    (hlab : D.labels.length = D.data.length) (hnd : D.labels.Nodup) (nfold : Int) (O : Option (Options (Exact K)))
    (conc : Bool) (idraws : List Nat) (hd : ∀ x ∈ idraws, x < D.data.length) (fdraws : Nat → Nat → Exact K)
    (out : CVOut (Exact K)) (h : crossValidation exp S D nfold O conc idraws fdraws = pure out) (he : out.err = false) :
    out.acc = .fin 0 := by
  have := distinct_zero (zeroFactsExact _) exp S hlab hnd nfold O conc idraws hd fdraws out h he
  rw [this]
  simp

end

/-- **C120 (all labels different)**, binary64. -/
theorem C120_distinct_binary64 (exp : F64 → F64) (S : GoSort) (D : DataBunch F64) (hN : D.data.length < 2 ^ 53)
    (hlab : D.labels.length = D.data.length) (hnd : D.labels.Nodup) (nfold : Int) (O : Option (Options F64))
    (conc : Bool) (idraws : List Nat) (hd : ∀ x ∈ idraws, x < D.data.length) (fdraws : Nat → Nat → F64)
    (out : CVOut F64) (h : crossValidation exp S D nfold O conc idraws fdraws = pure out) (he : out.err = false) :
    out.acc = .fin 0 := by
  have := distinct_zero (zeroFacts64 hN) exp S hlab hnd nfold O conc idraws hd fdraws out h he
  rw [this]
  decide +kernel

/-! ### Grid -/

/-- what a cross-validation of no use sends -/
def ZeroMsgs (w : List (CVMsg F)) : Prop :=
  (∃ rest, w = .err true :: rest) ∨ ∃ o, w = [.err false, .acc zero, .opt o]

theorem rescue_zero (hg : gt (zero : F) zero = false) : ∀ (ws : List (List (CVMsg F))), (∀ w ∈ ws, ZeroMsgs w) →
    ∀ b, rescueConcValues ws (zero, none) = pure b → b = none ∨ b = some (zero, none) := by
  intro ws
  induction ws with
  | nil =>
    intro _ b h
    unfold rescueConcValues at h
    exact Or.inr (run_pure_eq.1 h).symm
  | cons w ws ih =>
    intro hw b h
    unfold rescueConcValues at h
    obtain ⟨r, h1, h⟩ := run_bind_ok h
    rcases hw w (by simp) with ⟨rest, rfl⟩ | ⟨o, rfl⟩
    · simp only [rescueOne, if_true] at h1
      have := run_pure_eq.1 h1
      subst this
      exact Or.inl (run_pure_eq.1 h).symm
    · have hlt : ((zero : F) <. zero) = false := hg
      simp only [rescueOne, hlt, Bool.false_eq_true, if_false] at h1
      have := run_pure_eq.1 h1
      subst this
      simp only [updateBest, hg, Bool.false_eq_true, if_false] at h
      exact ih (fun w hw' => hw w (by simp [hw'])) b h

theorem mapM_id_mem {α : Type} : ∀ (l : List (Run α)) (ws : List α), l.mapM id = pure ws → ∀ w ∈ ws, pure w ∈ l := by
  intro l
  induction l with
  | nil =>
    intro ws h w hw
    rw [List.mapM_nil] at h
    rw [← run_pure_eq.1 h] at hw
    cases hw
  | cons p l ih =>
    intro ws h w hw
    rw [List.mapM_cons] at h
    obtain ⟨a, h1, h⟩ := run_bind_ok h
    obtain ⟨as, h2, h⟩ := run_bind_ok h
    rw [← run_pure_eq.1 h] at hw
    rcases List.mem_cons.1 hw with rfl | hw
    · exact List.mem_cons.2 (Or.inl h1.symm)
    · exact List.mem_cons_of_mem _ (ih as h2 w hw)

theorem gridLoop_zero (hg : gt (zero : F) zero = false) (nCPUs : Int) : ∀ (ps pending : List (Run (List (CVMsg F)))),
    (∀ p ∈ ps, ∀ w, p = pure w → ZeroMsgs w) → (∀ p ∈ pending, ∀ w, p = pure w → ZeroMsgs w) →
    ∀ b, gridLoop nCPUs ps pending (zero, none) = pure b → b = none ∨ b = some (zero, none) := by
  intro ps
  induction ps with
  | nil =>
    intro pending _ _ b h
    unfold gridLoop at h
    exact Or.inr (run_pure_eq.1 h).symm
  | cons p ps ih =>
    intro pending hps hpe b h
    have hps' : ∀ q ∈ ps, ∀ w, q = pure w → ZeroMsgs w := fun q hq => hps q (by simp [hq])
    have hpe' : ∀ q ∈ pending ++ [p], ∀ w, q = pure w → ZeroMsgs w := by
      intro q hq
      rcases List.mem_append.1 hq with hq | hq
      · exact hpe q hq
      · exact hps q (by simp at hq; simp [hq])
    unfold gridLoop at h
    split at h
    · rw [ofGo_eq] at h; cases h
    · simp only at h
      split at h
      · obtain ⟨ws, h1, h⟩ := run_bind_ok h
        obtain ⟨r, h2, h⟩ := run_bind_ok h
        rcases rescue_zero hg ws (fun w hw => hpe' _ (mapM_id_mem _ _ h1 w hw) w rfl) r h2 with rfl | rfl
        · exact Or.inl (run_pure_eq.1 h).symm
        · exact ih [] hps' (by simp) b h
      · exact ih _ hps' hpe' b h

theorem grid_zero {D : DataBunch F} (hz : ZeroFacts F D.data.length) (exp : F → F) (S : GoSort) (fuel : Nat)
    (hlab : D.labels.length = D.data.length) (hnd : D.labels.Nodup) (nfold : Int) (options : Option (GridOptions F))
    (idraws : Nat → List Nat) (hd : ∀ j, ∀ x ∈ idraws j, x < D.data.length) (fdraws : Nat → Nat → Nat → F)
    (ret : GridRet F) (h : grid exp S fuel D nfold options idraws fdraws = pure ret) :
    ret.opts = none ∧ (ret.err = false → ret.acc = zero) := by
  unfold grid gridWith at h
  split at h
  · rw [ofGo_eq] at h; cases h
  · obtain ⟨pts, _, h⟩ := run_bind_ok h
    obtain ⟨b, h1, h⟩ := run_bind_ok h
    have hb := gridLoop_zero hz.gt _ _ _ (by
      intro p hp w hw
      rw [List.mem_mapIdx] at hp
      obtain ⟨j, hj, hp⟩ := hp
      rw [hw] at hp
      obtain ⟨out, ho, hw'⟩ := run_bind_ok (f := fun out : CVOut F => (pure out.sent : Run _)) (show
        (crossValidation exp S D nfold (some pts[j]) true (idraws j) (fdraws j) >>= fun out => pure out.sent) = pure w by
          rw [← hp]; rfl)
      have hw' := run_pure_eq.1 hw'
      subst hw'
      cases he : out.err with
      | false =>
        have ha := distinct_zero hz exp S hlab hnd nfold _ true _ (hd j) _ out ho he
        obtain ⟨_, _, _, _, _, _, _, _, _, _, hs, _⟩ := C54_cross_validation_partial _ _ _ _ _ _ _ _ _ ho he
        rw [hs, ha]
        exact Or.inr ⟨_, rfl⟩
      | true =>
        left
        unfold crossValidation at ho
        obtain ⟨⟨n, os, err⟩, _, ho⟩ := run_bind_ok ho
        simp only at ho
        split at ho
        · rw [run_pure_eq] at ho
          subst ho
          exact ⟨_, rfl⟩
        · cases os with
          | none => rw [ofGo_eq] at ho; cases ho
          | some s =>
            simp only at ho
            rw [ofGo_eq] at ho
            unfold cvFolds at ho
            obtain ⟨st, _, ho⟩ := bind_ok ho
            simp only [pure, Except.pure, Except.ok.injEq] at ho
            subst ho
            cases he) (by simp) b h1
    have hr := run_pure_eq.1 h
    subst hr
    rcases hb with rfl | rfl
    · exact ⟨rfl, fun h => by cases h⟩
    · exact ⟨rfl, fun _ => rfl⟩

/-- **C120 (Grid)**, binary64: when all labels are different `Grid` never returns options: if it returns without error,
accuracy 0 and nil. -/
theorem C120_grid_binary64 (exp : F64 → F64) (S : GoSort) (fuel : Nat) (D : DataBunch F64) (hN : D.data.length < 2 ^ 53)
    (hlab : D.labels.length = D.data.length) (hnd : D.labels.Nodup) (nfold : Int) (options : Option (GridOptions F64))
    (idraws : Nat → List Nat) (hd : ∀ j, ∀ x ∈ idraws j, x < D.data.length) (fdraws : Nat → Nat → Nat → F64)
    (ret : GridRet F64) (h : grid exp S fuel D nfold options idraws fdraws = pure ret) :
    ret.opts = none ∧ (ret.err = false → ret.acc = .fin 0) := by
  obtain ⟨h1, h2⟩ := grid_zero (zeroFacts64 hN) exp S fuel hlab hnd nfold options idraws hd fdraws ret h
  exact ⟨h1, fun he => by rw [h2 he]; decide +kernel⟩

/-- four rows with four labels -/
def ownLabels : DataBunch F64 := ⟨[[.fin 1], [.fin 2], [.fin 3], [.fin 4]], [], [5, 6, 7, 8], []⟩
/-- two points, one round of regression trees each -/
def ownGrid : GridOptions F64 :=
  { (defaultGGridOptions : GridOptions F64) with
    rounds := ⟨1, 2, 1⟩, maxDepth := ⟨1, 1, 1⟩, learningRate := ⟨.fin 1, .fin 1, .fin 1⟩,
    minChildWeight := ⟨.fin 1, .fin 1, .fin 1⟩, gamma := ⟨.fin 0, .fin 0, .fin 1⟩, lambda := ⟨.fin 0, .fin 0, .fin 1⟩,
    nCPUs := 1 }

/-- The theorems apply: with two folds the cross-validation and `Grid` do return. -/
example : (match (crossValidation (fun _ => .fin 1) GoSort.ins ownLabels 2 (some (defaultGOptions 0)) true [2, 0, 0, 3, 1]
      (fun _ _ => .fin 0)).run with
    | some (.ok out) => decide (out.err = false ∧ out.acc = .fin 0)
    | _ => false) = true := by decide +kernel
example : (match (grid (fun _ => .fin 1) GoSort.ins 5 ownLabels 2 (some ownGrid) (fun _ => [2, 0, 0, 3, 1])
      (fun _ _ _ => .fin 0)).run with
    | some (.ok ret) => decide (ret.err = false ∧ ret.acc = .fin 0 ∧ ret.opts = none)
    | _ => false) = true := by decide +kernel
example : (gridPoints 5 ownGrid).map List.length = some 2 := by decide +kernel
example : ownLabels.labels.Nodup ∧ ownLabels.labels.length = ownLabels.data.length := by decide

end Boo
