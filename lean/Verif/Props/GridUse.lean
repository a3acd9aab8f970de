import Verif.Props.BasicUse
import Verif.Props.GridSize
import Verif.Props.Unseen

/-!
# C125: the hyperparameter search of the README
-/

namespace Boo
open GoFloat Spec
set_option linter.unusedSectionVars false

section
variable {F : Type} [GoFloat F] [GoFloatOrd F]

theorem DataOk.sub {X X' : List (List F)} (h : DataOk X) (hne : X' ≠ []) (hs : ∀ row ∈ X', row ∈ X) : DataOk X' := by
  obtain ⟨c, hc⟩ := h.rect
  exact ⟨hne, ⟨c, fun row hr => hc row (hs row hr)⟩, fun row hr => h.noNaN row (hs row hr),
    fun f row row' a b h1 h2 => h.mid f row row' a b (hs row h1) (hs row' h2)⟩

theorem pick_data_mem {D : DataBunch F} {idx : List Nat} {row : List F} (h : row ∈ (pick D idx).data) : row ∈ D.data := by
  obtain ⟨i, _, hi⟩ := List.mem_filterMap.1 h
  exact List.mem_of_getElem? hi

theorem pick_lengths {D : DataBunch F} (hl : D.labels.length = D.data.length) (idx : List Nat) :
    (pick D idx).labels.length = (pick D idx).data.length := by
  show (idx.filterMap (D.labels[·]?)).length = (idx.filterMap (D.data[·]?)).length
  induction idx with
  | nil => rfl
  | cons v vs ih =>
    by_cases hv : v < D.data.length
    · have hv' : v < D.labels.length := by omega
      rw [List.filterMap_cons_some (List.getElem?_eq_getElem hv), List.filterMap_cons_some (List.getElem?_eq_getElem hv'),
        List.length_cons, List.length_cons, ih]
    · rw [List.filterMap_cons_none (List.getElem?_eq_none (by omega)), List.filterMap_cons_none (List.getElem?_eq_none (by omega)), ih]

theorem pick_count {D : DataBunch F} (idx : List Nat) (h : ∀ v ∈ idx, v < D.data.length) : (pick D idx).data.length = idx.length := by
  show (idx.filterMap (D.data[·]?)).length = idx.length
  induction idx with
  | nil => rfl
  | cons v vs ih =>
    rw [List.filterMap_cons_some (List.getElem?_eq_getElem (h v (by simp))), List.length_cons, List.length_cons,
      ih fun w hw => h w (by simp [hw])]

/-- the capacities of the samples are no problem, for any number of rows up to `n` -/
def CapsOk (n c : Nat) (O : Options F) : Prop :=
  (rowSub O = true → ∀ m : Nat, m ≤ n → 0 ≤ toInt (ofInt (m : Int) *. O.subSample) + 1) ∧
  (colSub O = true → 0 ≤ toInt (ofInt (c : Int) *. O.colSubSample) + 1)

/-- the accuracy of a trained model with a round, on rows of the width of the training data -/
theorem accuracy_returns {exp : F → F} {S : GoSort} {draws : Nat → F} {D T : DataBunch F} {O : Options F} {M : MultiClass F}
    (h : newMultiClass exp S draws D O = .ok M) (hne : M.b ≠ []) {c : Nat} (hD : D.data ≠ []) (hc : ∀ row ∈ D.data, row.length = c)
    (hT : ∀ row ∈ T.data, row.length = c) (hl : T.labels.length = T.data.length) : ∃ a, M.accuracy T = .ok a := by
  obtain ⟨row0, rest, hr⟩ := List.exists_cons_of_ne_nil hD
  have h0 : D.data[0]? = some row0 := by rw [hr]; rfl
  have hl0 : row0.length = c := hc row0 (by rw [hr]; simp)
  have key : ∀ rows : List (List F), (∀ row ∈ rows, row.length = c) →
      ∃ preds, rows.mapM M.predictSingleClass = .ok preds ∧ ∀ p ∈ preds, p < M.classLabels.length := by
    intro rows
    induction rows with
    | nil => exact fun _ => ⟨[], rfl, by simp⟩
    | cons r rows ih =>
      intro hr
      obtain ⟨preds, h1, h2⟩ := ih fun row hrow => hr row (by simp [hrow])
      obtain ⟨_, _, _, k, hk, hkl⟩ := C79_predict_partial exp S draws D O M h hne row0 h0 r (by rw [hl0, hr r (by simp)])
      refine ⟨k :: preds, ?_, ?_⟩
      · rw [List.mapM_cons, hk, h1]
        rfl
      · intro p hp
        rcases List.mem_cons.1 hp with rfl | hp
        · exact hkl
        · exact h2 p hp
  obtain ⟨preds, hp, hk⟩ := key T.data hT
  exact ⟨_, C25_accuracy M T preds hp hk hl⟩

theorem cvFold_returns (exp : F → F) (S : GoSort) (fdraws : Nat → Nat → F) {D : DataBunch F} (hX : DataOk D.data)
    (hl : D.labels.length = D.data.length) {c : Nat} (hc : ∀ row ∈ D.data, row.length = c) {O : Options F} (lv : LossVal F) (hlv : O.loss = some lv)
    (hreg : lv.fn.Regular) (hcap : CapsOk D.data.length c O) (hms : rowSub O = true → 1 ≤ O.minSample) {n ns : Nat}
    {folds : List (List Nat)} (hp : CVParts D.data.length n ns folds) (h2 : 2 ≤ n) (hne : ∀ f ∈ folds, f ≠ []) (st : CVState F) (k i : Nat)
    (hk : k < n) (hs : st.sampler = ⟨D, folds, n, k⟩) (ho : st.opts = some O ∨ st.opts = some O.fixMcw) :
    ∃ st', cvFold exp S fdraws st i = .ok st' ∧ st'.sampler = ⟨D, folds, n, k + 1⟩ ∧ st'.opts = some O.fixMcw := by
  obtain ⟨f, hf, hcall⟩ := call_eq (s := ⟨D, folds, n, k⟩) hp hk
  simp only at hf hcall
  have hmem : ∀ v ∈ folds.flatten, v < D.data.length := by
    intro v hv
    rw [hp.perm.mem_iff, List.mem_range] at hv
    exact hv
  have hidx : ∀ v ∈ (folds.eraseIdx k).flatten, v < D.data.length := by
    intro v hv
    apply hmem v
    rw [List.mem_flatten] at hv ⊢
    obtain ⟨l, hl, hv⟩ := hv
    exact ⟨l, List.mem_of_mem_eraseIdx hl, hv⟩
  have hcount := pick_count (D := D) _ hidx
  have hle : (folds.eraseIdx k).flatten.length ≤ D.data.length := by
    have e2 := hp.perm.length_eq
    rw [List.length_range] at e2
    rw [← e2]
    exact ((List.eraseIdx_sublist folds k).flatten).length_le
  have hpos : (folds.eraseIdx k).flatten ≠ [] := by
    have hlen : (folds.eraseIdx k).length = n - 1 := by
      rw [List.length_eraseIdx_of_lt (by rw [hp.len]; exact hk), hp.len]
    obtain ⟨g, gs, hg⟩ : ∃ g gs, folds.eraseIdx k = g :: gs := by
      cases e : folds.eraseIdx k with
      | nil => rw [e] at hlen; simp at hlen; omega
      | cons g gs => exact ⟨g, gs, rfl⟩
    intro hnil
    rw [List.flatten_eq_nil_iff] at hnil
    have h1 := hnil g (by rw [hg]; simp)
    exact hne g (List.mem_of_mem_eraseIdx (by rw [hg]; simp)) h1
  set train := pick D (folds.eraseIdx k).flatten with htrain
  set test := pick D f with htest
  have htne : train.data ≠ [] := by
    intro h
    rw [h] at hcount
    exact hpos (List.length_eq_zero_iff.1 hcount.symm)
  have hXt := hX.sub htne fun row hr => pick_data_mem hr
  have hct : ∀ row ∈ train.data, row.length = c := fun row hr => hc row (pick_data_mem hr)
  have hw : (train.data.headD []).length = c := by
    obtain ⟨r, rs, e⟩ := List.exists_cons_of_ne_nil htne
    rw [e]
    exact hct r (by rw [e]; simp)
  obtain ⟨M, hM⟩ := C22_returns exp S (fdraws i) train O hXt (pick_lengths hl _).symm lv hlv hreg
    ⟨fun hr => hcap.1 hr _ (by rw [hcount]; exact hle), fun hr => by rw [hw]; exact hcap.2 hr⟩ hms
  have hM' : newMultiClass exp S (fdraws i) train (st.opts.getD (defaultXOptions 0)) = .ok M := by
    rcases ho with ho | ho
    · rw [ho]; exact hM
    · rw [ho, Option.getD_some, newMultiClass_fixMcw]; exact hM
  have hopts : st.opts.map Options.fixMcw = some O.fixMcw := by
    rcases ho with ho | ho
    · rw [ho]; rfl
    · rw [ho]
      simp [fixMcw_idem]
  unfold cvFold
  rw [hs, hcall]
  simp only [bind, Except.bind, hM', hopts]
  by_cases hb : M.rounds none ≤ 0
  · rw [if_pos hb]
    exact ⟨_, rfl, rfl, rfl⟩
  · rw [if_neg hb]
    have hbne : M.b ≠ [] := by
      intro h
      apply hb
      simp [MultiClass.rounds, h]
    obtain ⟨a, ha⟩ := accuracy_returns (T := test) hM hbne htne hct (fun row hr => hc row (pick_data_mem hr)) (pick_lengths hl _)
    rw [ha]
    exact ⟨_, rfl, rfl, rfl⟩

/-- **C125 (cross-validation returns)**: on a non-empty rectangular NaN-free data set of at least 4 rows with as many labels as rows,
`MultiClassCrossValidation` with another number of folds than 1 and options whose loss accepts vectors of equal length returns without error
as soon as the draws suffice to make the samples, whatever is drawn while training. -/
theorem C125_cv_returns (exp : F → F) (S : GoSort) (D : DataBunch F) (hX : DataOk D.data) (hl : D.labels.length = D.data.length)
    (h4 : 4 ≤ D.data.length) (c : Nat) (hc : ∀ row ∈ D.data, row.length = c) (nfold : Int) (h1 : nfold ≠ 1) (O : Options F) (lv : LossVal F)
    (hlv : O.loss = some lv) (hreg : lv.fn.Regular) (hcap : CapsOk D.data.length c O) (hms : rowSub O = true → 1 ≤ O.minSample) (conc : Bool)
    (idraws : List Nat) (hd : ∀ x ∈ idraws, x < D.data.length) (hs : crossValidationSamples D nfold idraws ≠ none) (fdraws : Nat → Nat → F) :
    ∃ out, crossValidation exp S D nfold (some O) conc idraws fdraws = pure out ∧ out.err = false := by
  cases hr : crossValidationSamples D nfold idraws with
  | none => exact absurd hr hs
  | some r =>
    obtain ⟨n, s, err, rfl, _, hq, _, _⟩ := C34_number_partial D nfold idraws h4 h1 r hr
    obtain ⟨hn2, hq2, folds, rfl, hp⟩ := sampled_parts ⟨err, hr⟩ hd
    have hne : ∀ f ∈ folds, f ≠ [] := by
      intro f hf
      obtain ⟨k, hk⟩ := List.getElem?_of_mem hf
      have hkl := (List.getElem?_eq_some_iff.1 hk).1
      rw [hp.len] at hkl
      have : 2 ≤ f.length := by
        by_cases hlt : k + 1 < n
        · rw [hp.sizes k f hk hlt]; exact hq2
        · have : k = n - 1 := by omega
          subst this
          have := hp.last f hk
          omega
      rintro rfl
      simp at this
    have key : ∀ (m k : Nat) (st : CVState F), k + m = n → st.sampler = ⟨D, folds, n, k⟩ →
        (st.opts = some O ∨ st.opts = some O.fixMcw) → ∃ st', (List.range' k m).foldlM (cvFold exp S fdraws) st = .ok st' := by
      intro m
      induction m with
      | zero => exact fun k st _ _ _ => ⟨st, rfl⟩
      | succ m ih =>
        intro k st hkm hsam ho
        obtain ⟨st1, e1, e2, e3⟩ := cvFold_returns exp S fdraws hX hl hc lv hlv hreg hcap hms hp hn2 hne st k k (by omega) hsam ho
        obtain ⟨st2, e4⟩ := ih (k + 1) st1 (by omega) e2 (Or.inr e3)
        refine ⟨st2, ?_⟩
        rw [List.range'_succ, List.foldlM_cons, e1]
        exact e4
    obtain ⟨st, hst⟩ := key n 0 ⟨⟨D, folds, n, 0⟩, zero, some O⟩ (by omega) rfl (Or.inl rfl)
    unfold crossValidation
    rw [hr]
    show ∃ out, (if (err = true ∧ n = 0) then _ else Run.ofGo _) = _ ∧ _
    rw [if_neg (by omega)]
    unfold cvFolds
    rw [List.range_eq_range', hst]
    exact ⟨_, rfl, rfl⟩

end

/-! ### binary64 -/

section AnyOrder

variable {τ : Option SumOrder}
/-- float64, with any order of the additions of `floats.Sum` -/
local notation "F64" => F64o τ

/-- a share between 0 and 1 of the rows: the capacity of a sample is no problem -/
theorem cap_share {n : Nat} (hn : n ≤ 2 ^ 50) {s : ℚ} (h8 : 0 ≤ s ∧ s ≤ 1) : 0 ≤ toInt ((ofInt (n : Int) : F64) *. .fin s) + 1 := by
  have h50 : (n : ℚ) ≤ 2 ^ 50 := by
    have : ((n : Nat) : ℚ) ≤ ((2 ^ 50 : Nat) : ℚ) := Nat.cast_le.2 hn
    rw [Nat.cast_pow] at this
    exact this
  have h0 : (0 : ℚ) ≤ n := Nat.cast_nonneg n
  have hi : (ofInt (n : Int) : F64) = .fin ((n : Int) : ℚ) := by
    apply ofInt64
    rw [abs_of_nonneg (by omega)]
    have : 2 ^ 50 < 2 ^ 53 := by norm_num
    omega
  rw [hi]
  have hp : 0 ≤ ((n : Int) : ℚ) * s := by
    have : (0 : ℚ) ≤ ((n : Int) : ℚ) := by simpa using h0
    exact mul_nonneg this h8.1
  have hle : ((n : Int) : ℚ) * s ≤ 2 ^ (50 : ℤ) := by
    have h1 : ((n : Int) : ℚ) ≤ 2 ^ (50 : ℤ) := by
      have : ((n : Int) : ℚ) = (n : ℚ) := by push_cast; rfl
      rw [this]
      exact h50
    calc ((n : Int) : ℚ) * s ≤ 2 ^ (50 : ℤ) * 1 := mul_le_mul h1 h8.2 h8.1 (by positivity)
      _ = _ := mul_one _
  rw [mul64 (by rw [abs_of_nonneg hp]; exact hle.trans (pow_big (by norm_num)))]
  have h1 : 0 ≤ rv (((n : Int) : ℚ) * s) := by
    rw [← rv_zero]
    exact rv_mono hp
  have h2 : rv (((n : Int) : ℚ) * s) ≤ 2 ^ (50 : ℤ) := by
    rw [← rv_pow 50 (by norm_num)]
    exact rv_mono hle
  generalize rv (((n : Int) : ℚ) * s) = z at h1 h2
  have h3 : (0 : Int) ≤ ⌊z⌋ := Int.floor_nonneg.2 h1
  have h4 : ⌊z⌋ ≤ 2 ^ 50 := by
    have : (⌊z⌋ : ℚ) ≤ ((2 ^ 50 : ℤ) : ℚ) := by
      refine (Int.floor_le z).trans (h2.trans_eq ?_)
      norm_num
    exact_mod_cast this
  rw [XF.toInt_fin (by rw [if_pos h1]; omega) (by rw [if_pos h1]; omega), if_pos h1]
  omega

/-- a number between 0 and 1 -/
def Share (x : F64) : Prop := ∃ s : ℚ, x = .fin s ∧ 0 ≤ s ∧ s ≤ 1

theorem capsOk_share {n c : Nat} (hn : n ≤ 2 ^ 50) (hc : c ≤ 2 ^ 50) {O : Options F64} (h1 : Share O.subSample) (h2 : Share O.colSubSample) :
    CapsOk n c O := by
  obtain ⟨s, e, h⟩ := h1
  obtain ⟨s', e', h'⟩ := h2
  refine ⟨fun _ m hm => ?_, fun _ => ?_⟩
  · rw [e]; exact cap_share (hm.trans hn) h
  · rw [e']; exact cap_share hc h'

theorem baseOptions_loss (o : GridOptions F64) : ∃ lv, (baseOptions o).loss = some lv ∧ lv.fn.Regular := by
  unfold baseOptions
  split
  · exact ⟨_, rfl, sqErrLoss_regular⟩
  · exact ⟨_, rfl, mseLoss_regular⟩

theorem NumberData.ok {Q : List (Int × List ℚ)} {c : Nat} {D : DataBunch F64} (h : NumberData Q c D) : DataOk D.data :=
  ⟨h.rows.1, ⟨c, h.rows.2.1⟩, h.apart.bounded.noNaN, h.apart.midSafe⟩

end AnyOrder

theorem point_fields {o : GridOptions F64} {O : Options F64} (h : OtherFields o O) :
    (∃ lv, O.loss = some lv ∧ lv.fn.Regular) ∧ (rowSub O = true → O.minSample = 5) := by
  obtain ⟨lv, h1, h2⟩ := baseOptions_loss o
  have h' : O.loss = (baseOptions o).loss ∧ O.minSample = (baseOptions o).minSample ∧ O.xgb = o.xgb := by
    unfold OtherFields at h
    rw [h]
    unfold baseOptions
    split <;> exact ⟨rfl, rfl, rfl⟩
  refine ⟨⟨lv, by rw [h'.1]; exact h1, h2⟩, fun hr => ?_⟩
  rw [h'.2.1]
  unfold rowSub at hr
  rw [Bool.and_eq_true] at hr
  unfold baseOptions
  rw [if_pos (by rw [← h'.2.2]; exact hr.2)]
  rfl

/-- the best options work: `NewMultiClass` trains a model with them, which works if rows are not sampled and no round is skipped, or if in some round at
least 5 rows are drawn -/
def TrainsWith (exp : F64 → F64) (S : GoSort) (Q : List (Int × List ℚ)) (c : Nat) (D : DataBunch F64) (best : Options F64) : Prop :=
  ∀ draws : Nat → F64, ∃ M, newMultiClass exp S draws D best = .ok M ∧
    (M.b ≠ [] → Works c D M) ∧
    (best.xgb = true → (best.subSample <. one) = true → (best.colSubSample <. one) = true →
      (∃ r : Nat, (r : Int) < best.rounds ∧
        5 ≤ ((List.range Q.length).filter fun i => draws (i + r * (Q.length + c)) <=. best.subSample).length) → Works c D M)

theorem trainsWith_caps (exp : F64 → F64) (S : GoSort) {Q : List (Int × List ℚ)} {c : Nat} {D : DataBunch F64} (hD : NumberData Q c D)
    {O : Options F64} (hb : (∃ lv, O.loss = some lv ∧ lv.fn.Regular) ∧ (rowSub O = true → O.minSample = 5))
    (hcaps : CapsOk D.data.length c O) : TrainsWith exp S Q c D O.fixMcw := by
  intro draws
  obtain ⟨⟨lv, hlv, hreg⟩, hms⟩ := hb
  obtain ⟨h1, h2, h3, h4, h5, h6⟩ := hD.rows
  obtain ⟨M, hM⟩ := C22_returns exp S draws D O hD.ok h4 lv hlv hreg
    ⟨fun hr => hcaps.1 hr _ le_rfl, fun hr => by rw [h6]; exact hcaps.2 hr⟩ (fun hr => by rw [hms hr]; decide)
  have e : O.fixMcw.xgb = O.xgb ∧ O.fixMcw.subSample = O.subSample ∧ O.fixMcw.colSubSample = O.colSubSample ∧ O.fixMcw.rounds = O.rounds := by
    unfold Options.fixMcw
    split <;> exact ⟨rfl, rfl, rfl, rfl⟩
  refine ⟨M, by rw [newMultiClass_fixMcw]; exact hM, fun hb => works_of hD hM hb, ?_⟩
  rw [e.1, e.2.1, e.2.2.1, e.2.2.2]
  rintro hx hr1 hr2 ⟨r, hr, hdraw⟩
  refine works_of hD hM ?_
  have hsub : rowSub O = true := by unfold rowSub; rw [hr1, hx]; rfl
  have hcsub : colSub O = true := by unfold colSub; rw [hr2, hx]; rfl
  have hlen := (C22_rounds exp S draws D O M hM).1
  have hmem : r ∈ executedRounds D.data O draws O.rounds.toNat := by
    unfold executedRounds
    rw [List.mem_filter, List.mem_range, decide_eq_true_eq]
    refine ⟨by omega, ?_⟩
    unfold sampleCount
    rw [if_pos hsub]
    unfold roundRows drawsPerRound
    rw [if_pos hsub, if_pos hcsub, h6, h3, hms hsub]
    exact_mod_cast hdraw
  intro hb
  rw [hb, List.length_nil] at hlen
  rw [List.length_eq_zero_iff.1 hlen.symm] at hmem
  cases hmem

theorem trainsWith_of (exp : F64 → F64) (S : GoSort) {Q : List (Int × List ℚ)} {c : Nat} {D : DataBunch F64} (hD : NumberData Q c D)
    {o : GridOptions F64} {O : Options F64} (hO : OtherFields o O) (hs : Share O.subSample) (hcs : Share O.colSubSample) :
    TrainsWith exp S Q c D O.fixMcw :=
  trainsWith_caps exp S hD (point_fields hO) (capsOk_share hD.rows.2.2.2.2.1 hD.narrow hs hcs)

/-- **C125 (Grid), partial**: on 4 to 2^46 rows of numbers of at most 15 digits, `Grid` returns without error, for another number of folds than 1, when all
values of `SubSample` and `ColSubSample` in the grid are between 0 and 1, whatever is drawn, as soon as the draws suffice to make the samples.
Every cross-validation of the points that are waited for ends without error; the returned accuracy is the largest of theirs and is between 0 and 100; the
options, if any, are those of a point with that accuracy (`MinChildWeight` raised to 1), and `NewMultiClass` accepts them. Missing: options are always
returned (`C125_violated`). -/
theorem C125_grid_partial (exp : F64 → F64) (S : GoSort) (fuel : Nat) (Q : List (Int × List ℚ)) (c : Nat) (D : DataBunch F64)
    (hD : NumberData Q c D) (h4 : 4 ≤ Q.length) (h46 : Q.length ≤ 2 ^ 46) (nfold : Int) (h1 : nfold ≠ 1) (o : GridOptions F64)
    (hn : 0 < o.nCPUs) (pts : List (Options F64)) (hp : gridPoints fuel o = some pts)
    (hs : ∀ O ∈ pts, Share O.subSample ∧ Share O.colSubSample)
    (idraws : Nat → List Nat) (hd : ∀ j, ∀ x ∈ idraws j, x < Q.length) (hsam : ∀ j, crossValidationSamples D nfold (idraws j) ≠ none)
    (fdraws : Nat → Nat → Nat → F64) :
    ∃ ret outs, grid exp S fuel D nfold (some o) idraws fdraws = pure ret ∧
      outs.length = o.nCPUs.toNat * (pts.length / o.nCPUs.toNat) ∧
      (∀ (i : Nat) O out, pts[i]? = some O → outs[i]? = some out →
        crossValidation exp S D nfold (some O) true (idraws i) (fdraws i) = pure out ∧ out.err = false) ∧
      ReportsBest ret outs ∧ (∃ a : ℚ, ret.acc = .fin a ∧ 0 ≤ a ∧ a ≤ 100) ∧
      ∀ best, ret.opts = some best → (∃ O ∈ pts, best = O.fixMcw) ∧ TrainsWith exp S Q c D best := by
  obtain ⟨g1, g2, g3, g4, g5, g6⟩ := hD.rows
  obtain ⟨n, hn'⟩ : ∃ n : Nat, o.nCPUs = n := ⟨o.nCPUs.toNat, by omega⟩
  have hnt : o.nCPUs.toNat = n := by omega
  rw [hnt]
  have hother : ∀ O ∈ pts, OtherFields o O := by
    intro O hO
    obtain ⟨_, _, _, _, _, _, _, _, h⟩ := (C53_points fuel o pts hp O).1 hO
    exact h
  have hcvr : ∀ (i : Nat) O, O ∈ pts → ∃ out, crossValidation exp S D nfold (some O) true (idraws i) (fdraws i) = pure out ∧ out.err = false := by
    intro i O hO
    obtain ⟨⟨lv, hlv, hreg⟩, hms⟩ := point_fields (hother O hO)
    exact C125_cv_returns exp S D hD.ok g4.symm (by omega) c g2 nfold h1 O lv hlv hreg
      (capsOk_share g5 hD.narrow (hs O hO).1 (hs O hO).2) (fun hr => by rw [hms hr]; decide) true (idraws i)
      (fun x hx => by rw [g3]; exact hd i x hx) (hsam i) (fdraws i)
  have hlist : ∀ (l : List (Options F64)) (k : Nat), (∀ O ∈ l, O ∈ pts) → ∃ outs : List (CVOut F64), outs.length = l.length ∧
      ∀ (i : Nat) O out, l[i]? = some O → outs[i]? = some out →
        crossValidation exp S D nfold (some O) true (idraws (k + i)) (fdraws (k + i)) = pure out ∧ out.err = false := by
    intro l
    induction l with
    | nil => exact fun _ _ => ⟨[], rfl, by simp⟩
    | cons O l ih =>
      intro k hm
      obtain ⟨out, ho⟩ := hcvr k O (hm O (by simp))
      obtain ⟨outs, h2, h3⟩ := ih (k + 1) fun O' h' => hm O' (by simp [h'])
      refine ⟨out :: outs, by simp [h2], ?_⟩
      intro i O' out' hO' hout'
      cases i with
      | zero =>
        simp only [List.getElem?_cons_zero, Option.some.injEq] at hO' hout'
        subst hO' hout'
        exact ho
      | succ i =>
        simp only [List.getElem?_cons_succ] at hO' hout'
        have := h3 i O' out' hO' hout'
        rwa [show k + 1 + i = k + (i + 1) by omega] at this
  have hdl : n * (pts.length / n) ≤ pts.length := Nat.mul_div_le _ _
  obtain ⟨outs, hol, houts⟩ := hlist (pts.take (n * (pts.length / n))) 0 fun O hO => List.mem_of_mem_take hO
  rw [List.length_take, Nat.min_eq_left hdl] at hol
  have houts' : ∀ (i : Nat) O out, pts[i]? = some O → outs[i]? = some out →
      crossValidation exp S D nfold (some O) true (idraws i) (fdraws i) = pure out ∧ out.err = false := by
    intro i O out hO hout
    have hi : i < n * (pts.length / n) := by rw [← hol]; exact (List.getElem?_eq_some_iff.1 hout).1
    have := houts i O out (by rw [List.getElem?_take_of_lt hi]; exact hO) hout
    rwa [Nat.zero_add] at this
  have hrange : ∀ (i : Nat) O out, pts[i]? = some O → outs[i]? = some out → ∃ q : ℚ, out.acc = .fin q ∧ 0 ≤ q ∧ q ≤ 100 := by
    intro i O out hO hout
    obtain ⟨e1, e2⟩ := houts' i O out hO hout
    exact C54_range_binary64 _ _ _ (by rw [g3]; exact h46) _ _ _ _ (fun x hx => by rw [g3]; exact hd i x hx) _ _ e1 e2
  have hends : ∀ (i : Nat) O out, pts[i]? = some O → outs[i]? = some out →
      EndsWell (crossValidation exp S D nfold (some O) true (idraws i) (fdraws i)) out := by
    intro i O out hO hout
    obtain ⟨e1, e2⟩ := houts' i O out hO hout
    refine ⟨e1, ?_, ?_⟩
    · obtain ⟨_, _, _, _, _, _, _, _, _, _, hs, _⟩ := C54_cross_validation_partial _ _ _ _ _ _ _ _ _ e1 e2
      simpa using hs
    · obtain ⟨q, hq, h0, _⟩ := hrange i O out hO hout
      rw [hq]
      have hz : (zero : F64) = .fin 0 := by decide +kernel
      rw [hz, XF.fin_lt]
      simpa using h0
  obtain ⟨ret, hret, hbest⟩ := C51_best_partial (fun j O => crossValidation exp S D nfold (some O) true (idraws j) (fdraws j)) fuel o n
    (by omega) hn' pts hp outs hol hends
  have hfrom : ∀ out ∈ outs, ∃ (i : Nat) (O : Options F64), pts[i]? = some O ∧ outs[i]? = some out := by
    intro out hout
    obtain ⟨i, hi⟩ := List.getElem?_of_mem hout
    have hlt := (List.getElem?_eq_some_iff.1 hi).1
    exact ⟨i, _, List.getElem?_eq_getElem (by omega), hi⟩
  refine ⟨ret, outs, hret, hol, houts', hbest, ?_, ?_⟩
  · rcases hbest.2 with ⟨h, _⟩ | ⟨⟨out, hout, h, _⟩, _⟩
    · exact ⟨0, by rw [h]; decide +kernel, le_rfl, by norm_num⟩
    · obtain ⟨i, O, hO, hi⟩ := hfrom out hout
      rw [h]
      exact hrange i O out hO hi
  · intro best hb
    rcases hbest.2 with ⟨_, h, _⟩ | ⟨⟨out, hout, _, h⟩, _⟩
    · rw [h] at hb; cases hb
    · obtain ⟨i, O, hO, hi⟩ := hfrom out hout
      obtain ⟨e1, e2⟩ := houts' i O out hO hi
      obtain ⟨_, _, _, _, _, _, _, _, _, _, _, hopt⟩ := C54_cross_validation_partial _ _ _ _ _ _ _ _ _ e1 e2
      rw [h, hopt] at hb
      simp only [Option.map_some, Option.some.injEq] at hb
      subst hb
      have hm := List.mem_of_getElem? hO
      exact ⟨⟨O, hm, rfl⟩, trainsWith_of exp S hD (hother O hm) (hs O hm).1 (hs O hm).2⟩

/-- **C125 is violated**: when all labels are different, `Grid` returns no options and no error (in the situation of `C125_grid_partial`), so that the program of the
README dereferences nil. -/
theorem C125_violated (exp : F64 → F64) (S : GoSort) (fuel : Nat) (Q : List (Int × List ℚ)) (c : Nat) (D : DataBunch F64)
    (hD : NumberData Q c D) (h4 : 4 ≤ Q.length) (h46 : Q.length ≤ 2 ^ 46) (hnd : (Q.map Prod.fst).Nodup) (nfold : Int) (h1 : nfold ≠ 1) (o : GridOptions F64)
    (hn : 0 < o.nCPUs) (pts : List (Options F64)) (hp : gridPoints fuel o = some pts)
    (hs : ∀ O ∈ pts, Share O.subSample ∧ Share O.colSubSample)
    (idraws : Nat → List Nat) (hd : ∀ j, ∀ x ∈ idraws j, x < Q.length) (hsam : ∀ j, crossValidationSamples D nfold (idraws j) ≠ none)
    (fdraws : Nat → Nat → Nat → F64) :
    ∃ ret, grid exp S fuel D nfold (some o) idraws fdraws = pure ret ∧ ret.err = false ∧ ret.opts = none ∧ ret.acc = .fin 0 := by
  obtain ⟨g1, g2, g3, g4, g5, g6⟩ := hD.rows
  obtain ⟨ret, outs, hret, _, _, hb, _⟩ := C125_grid_partial exp S fuel Q c D hD h4 h46 nfold h1 o hn pts hp hs idraws hd hsam fdraws
  obtain ⟨e1, e2⟩ := C120_grid_binary64 exp S fuel D (by omega) g4.symm (by rw [hD.labels]; exact hnd) nfold (some o) idraws
    (fun j x hx => by rw [g3]; exact hd j x hx) fdraws ret hret
  exact ⟨ret, hret, hb.1, e1, e2 hb.1⟩

/-! ### the grid of the README -/

/-- README.md:93-107: the options of the example -/
def readmeGrid : GridOptions F64 :=
  { (defaultXGridOptions : GridOptions F64) with
    rounds := ⟨5, 30, 5⟩, maxDepth := ⟨3, 4, 1⟩, learningRate := frange (1/10) (3/10) (1/10), subSample := frange (8/10) (9/10) (1/10),
    minChildWeight := frange 2 6 2, verbose := true, nCPUs := 2 }

/-- The grid of the README has 27648 points. It tries no learning rate 0.3. All its shares of rows and columns are between 0 and 1. -/
theorem C125_readme_points : ∃ pts, gridPoints 200 readmeGrid = some pts ∧ pts.length = 27648 ∧
    (∀ O ∈ pts, Share O.subSample ∧ Share O.colSubSample) ∧
    ∀ O ∈ pts, (O.learningRate = ofRat (1/10) ∨ O.learningRate = ofRat (2/10)) ∧ O.xgb = true := by
  obtain ⟨l1, a1, b1⟩ := getLen (l := readmeGrid.rounds.ints 200) (n := 6) (by decide +kernel)
  obtain ⟨l2, a2, b2⟩ := getLen (l := readmeGrid.minChildWeight.floats 200) (n := 3) (by decide +kernel)
  obtain ⟨l3, a3, b3⟩ := getLen (l := readmeGrid.maxDepth.ints 200) (n := 2) (by decide +kernel)
  obtain ⟨l4, a4, b4⟩ := getLen (l := readmeGrid.colSubSample.floats 200) (n := 4) (by decide +kernel)
  have a5 : readmeGrid.learningRate.floats 200 = some [ofRat (1/10), ofRat (2/10)] := by decide +kernel
  obtain ⟨l6, a6, b6⟩ := getLen (l := readmeGrid.lambda.floats 200) (n := 8) (by decide +kernel)
  obtain ⟨l7, a7, b7⟩ := getLen (l := readmeGrid.gamma.floats 200) (n := 6) (by decide +kernel)
  obtain ⟨l8, a8, b8⟩ := getLen (l := readmeGrid.subSample.floats 200) (n := 2) (by decide +kernel)
  obtain ⟨pts, h1, h2⟩ := C53_size 200 _ a1 a2 a3 a4 a5 a6 a7 a8
  have share : ∀ l : List F64, (l.all fun x => match x with | .fin s => decide (0 ≤ s ∧ s ≤ 1) | _ => false) = true → ∀ x ∈ l, Share x := by
    intro l h x hx
    have := List.all_eq_true.1 h x hx
    cases x with
    | fin s => exact ⟨s, rfl, by simpa using this⟩
    | _ => simp at this
  have s4 : ∀ x ∈ l4, Share x := by
    refine share l4 ?_
    have h : (match readmeGrid.colSubSample.floats 200 with
      | some l => l.all fun x => match x with | .fin s => decide (0 ≤ s ∧ s ≤ 1) | _ => false
      | none => false) = true := by decide +kernel
    rw [a4] at h
    exact h
  have s8 : ∀ x ∈ l8, Share x := by
    refine share l8 ?_
    have h : (match readmeGrid.subSample.floats 200 with
      | some l => l.all fun x => match x with | .fin s => decide (0 ≤ s ∧ s ≤ 1) | _ => false
      | none => false) = true := by decide +kernel
    rw [a8] at h
    exact h
  refine ⟨pts, h1, by rw [h2, b1, b2, b3, b4, b6, b7, b8]; rfl, ?_, ?_⟩
  · intro O hO
    obtain ⟨_, _, _, ⟨l, e4, m4⟩, _, _, _, ⟨l', e8, m8⟩, _⟩ := (C53_points 200 _ pts h1 O).1 hO
    have e4' : readmeGrid.colSubSample.floats 200 = some l := e4
    have e8' : readmeGrid.subSample.floats 200 = some l' := e8
    rw [a4] at e4'
    rw [a8] at e8'
    cases e4'
    cases e8'
    exact ⟨s8 _ m8, s4 _ m4⟩
  · intro O hO
    obtain ⟨_, _, _, _, ⟨l, e5, m5⟩, _, _, _, hother⟩ := (C53_points 200 _ pts h1 O).1 hO
    have e5' : readmeGrid.learningRate.floats 200 = some l := e5
    rw [a5] at e5'
    cases e5'
    refine ⟨by simpa using m5, ?_⟩
    unfold OtherFields at hother
    rw [hother]
    rfl

/-- **C125 (the example of the README), partial**: on 4 to 2^46 rows of numbers of at most 15 digits, `Grid(data, 8, o)` with the options of the README returns without
error the best of its 27648 points, and the best options, if there are any, can be used for training. -/
theorem C125_readme_partial (exp : F64 → F64) (S : GoSort) (Q : List (Int × List ℚ)) (c : Nat) (D : DataBunch F64)
    (hD : NumberData Q c D) (h4 : 4 ≤ Q.length) (h46 : Q.length ≤ 2 ^ 46)
    (idraws : Nat → List Nat) (hd : ∀ j, ∀ x ∈ idraws j, x < Q.length) (hsam : ∀ j, crossValidationSamples D 8 (idraws j) ≠ none)
    (fdraws : Nat → Nat → Nat → F64) :
    ∃ pts ret outs, gridPoints 200 readmeGrid = some pts ∧ outs.length = 27648 ∧ pts.length = 27648 ∧
      grid exp S 200 D 8 (some readmeGrid) idraws fdraws = pure ret ∧
      (∀ (i : Nat) O out, pts[i]? = some O → outs[i]? = some out →
        crossValidation exp S D 8 (some O) true (idraws i) (fdraws i) = pure out ∧ out.err = false) ∧
      ReportsBest ret outs ∧ (∃ a : ℚ, ret.acc = .fin a ∧ 0 ≤ a ∧ a ≤ 100) ∧ ret.err = false ∧ ret.accs = [] ∧
      ∀ best, ret.opts = some best → (∃ O ∈ pts, best = O.fixMcw) ∧ TrainsWith exp S Q c D best := by
  obtain ⟨pts, hp, hl, hs, _⟩ := C125_readme_points
  obtain ⟨ret, outs, a1, a2, a3, a4, a5, a6⟩ := C125_grid_partial exp S 200 Q c D hD h4 h46 8 (by decide) readmeGrid (by decide) pts hp hs idraws hd hsam fdraws
  refine ⟨pts, ret, outs, hp, ?_, hl, a1, a3, a4, a5, a4.1, ?_, a6⟩
  · rw [a2, hl]; rfl
  · unfold grid at a1
    exact C51_no_accuracies _ _ _ _ a1

/-- **C125 is violated by the example of the README**: on data whose labels are all different it gets nil options without an error. -/
theorem C125_readme_violated (exp : F64 → F64) (S : GoSort) (Q : List (Int × List ℚ)) (c : Nat) (D : DataBunch F64)
    (hD : NumberData Q c D) (h4 : 4 ≤ Q.length) (h46 : Q.length ≤ 2 ^ 46) (hnd : (Q.map Prod.fst).Nodup)
    (idraws : Nat → List Nat) (hd : ∀ j, ∀ x ∈ idraws j, x < Q.length) (hsam : ∀ j, crossValidationSamples D 8 (idraws j) ≠ none)
    (fdraws : Nat → Nat → Nat → F64) :
    ∃ ret, grid exp S 200 D 8 (some readmeGrid) idraws fdraws = pure ret ∧ ret.err = false ∧ ret.opts = none ∧ ret.acc = .fin 0 := by
  obtain ⟨pts, hp, hl, hs, _⟩ := C125_readme_points
  exact C125_violated exp S 200 Q c D hD h4 h46 hnd 8 (by decide) readmeGrid (by decide) pts hp hs idraws hd hsam fdraws

/-! ### The theorems apply -/

/-- four rows of two numbers -/
def gridQ (labels : List Int) : List (Int × List ℚ) := labels.mapIdx fun i l => (l, [(i : ℚ) / 10, 7 - (i : ℚ)])

theorem gridQ_data {labels : List Int} (hl : labels.length = 4) : NumberData (gridQ labels) 2 (numberBunch (gridQ labels) [] : DataBunch F64) := by
  obtain ⟨a, b, c, d, rfl⟩ : ∃ a b c d, labels = [a, b, c, d] := by
    match labels, hl with
    | [a, b, c, d], _ => exact ⟨a, b, c, d, rfl⟩
  refine ⟨by simp [gridQ], by simp [gridQ], ?_, by simp [gridQ], by decide, rfl, rfl⟩
  intro p hp x hx
  simp only [gridQ, List.mapIdx_cons, List.mapIdx_nil, List.mem_cons, List.not_mem_nil, or_false] at hp
  have h : ∀ (m : ℤ) (e : ℤ) (x : ℚ), |m| < 10 ^ 15 → -290 ≤ e → e ≤ 290 → x = m * 10 ^ e → Short x := fun m e x a b c d => ⟨m, e, a, b, c, d⟩
  rcases hp with rfl | rfl | rfl | rfl
  · simp only [List.mem_cons, List.not_mem_nil, or_false] at hx
    rcases hx with rfl | rfl
    · exact h 0 (-1) _ (by decide) (by decide) (by decide) (by norm_num)
    · exact h 7 0 _ (by decide) (by decide) (by decide) (by norm_num)
  · simp only [List.mem_cons, List.not_mem_nil, or_false] at hx
    rcases hx with rfl | rfl
    · exact h 1 (-1) _ (by decide) (by decide) (by decide) (by norm_num)
    · exact h 6 0 _ (by decide) (by decide) (by decide) (by norm_num)
  · simp only [List.mem_cons, List.not_mem_nil, or_false] at hx
    rcases hx with rfl | rfl
    · exact h 2 (-1) _ (by decide) (by decide) (by decide) (by norm_num)
    · exact h 5 0 _ (by decide) (by decide) (by decide) (by norm_num)
  · simp only [List.mem_cons, List.not_mem_nil, or_false] at hx
    rcases hx with rfl | rfl
    · exact h 3 (-1) _ (by decide) (by decide) (by decide) (by norm_num)
    · exact h 4 0 _ (by decide) (by decide) (by decide) (by norm_num)

/-- For four rows the draws 2, 0, 0, 3, 1 make the samples (two folds instead of eight). So both the theorem on the README and its violation apply. -/
example (exp : F64 → F64) (S : GoSort) (fdraws : Nat → Nat → Nat → F64) :
    (∃ ret, grid exp S 200 (numberBunch (gridQ [3, 5, 3, 5]) []) 8 (some readmeGrid) (fun _ => [2, 0, 0, 3, 1]) fdraws = pure ret ∧ ret.err = false) ∧
    ∃ ret, grid exp S 200 (numberBunch (gridQ [3, 4, 5, 6]) []) 8 (some readmeGrid) (fun _ => [2, 0, 0, 3, 1]) fdraws = pure ret ∧
      ret.err = false ∧ ret.opts = none ∧ ret.acc = .fin 0 := by
  have hs : ∀ labels : List Int, labels.length = 4 →
      crossValidationSamples (numberBunch (gridQ labels) [] : DataBunch F64) 8 [2, 0, 0, 3, 1] ≠ none := by
    intro labels hl
    obtain ⟨a, b, c, d, rfl⟩ : ∃ a b c d, labels = [a, b, c, d] := by
      match labels, hl with
      | [a, b, c, d], _ => exact ⟨a, b, c, d, rfl⟩
    have e : (numberBunch (gridQ [a, b, c, d]) [] : DataBunch F64).data.length = 4 := rfl
    have e1 : reduceFolds 4 (if (8 : Int) > 0 then Int.toNat 8 else 5) = .ok (2, true) := rfl
    have e2 : fillFolds (4 / 2) (List.range 2) (List.replicate 2 []) [2, 0, 0, 3, 1] = some ([[2, 0], [3, 1]], []) := rfl
    unfold crossValidationSamples
    simp only [e]
    rw [e1]
    simp only [e2]
    exact fun h => by cases h
  constructor
  · obtain ⟨_, ret, _, _, _, _, h, _, hb, _⟩ := C125_readme_partial exp S _ 2 _ (gridQ_data (labels := [3, 5, 3, 5]) rfl) (by decide) (by decide)
      (fun _ => [2, 0, 0, 3, 1]) (by intro j; decide) (fun _ => hs _ rfl) fdraws
    exact ⟨ret, h, hb.1⟩
  · exact C125_readme_violated exp S _ 2 _ (gridQ_data (labels := [3, 4, 5, 6]) rfl) (by decide) (by decide) (by decide)
      (fun _ => [2, 0, 0, 3, 1]) (by intro j; decide) (fun _ => hs _ rfl) fdraws

/-- Options are returned for other data. -/
example : (match (grid (fun _ => .fin 1) GoSort.ins 9 ⟨[[.fin 0], [.fin 1], [.fin 2], [.fin 3]], [], [3, 3, 5, 5], []⟩ 2 (some ownGrid) (fun _ => [2, 0, 0, 3, 1])
      (fun _ _ _ => .fin 0)).run with
    | some (.ok ret) => decide (ret.err = false ∧ ret.opts.isSome)
    | _ => false) = true := by
  decide +kernel

end Boo
