import Verif.Model.Strings
import Verif.Props.TextData
import Verif.Props.Importance

/-!
# C92: the `String` methods
-/

namespace Boo
open GoFloat
set_option linter.unusedSectionVars false
variable {F : Type} [GoFloat F]

/-- the lines of a text, as separated by `\n` -/
def linesIn (text : List Char) : List (List Char) := splitBy (· == '\n') text

/-- a non-empty text without white space -/
def IsField (w : List Char) : Prop := w ≠ [] ∧ ∀ c ∈ w, isSpace c = false

theorem linesIn_join (a : List Char) (ls : List (List Char)) (h : ∀ l ∈ a :: ls, '\n' ∉ l) :
    linesIn (strJoin (a :: ls) ['\n']) = a :: ls := by
  have one : ∀ l : List Char, '\n' ∉ l → splitBy (· == '\n') l = [l] := by
    intro l hl
    apply splitBy_none
    intro c hc
    simp only [beq_eq_false_iff_ne, ne_eq]
    rintro rfl
    exact hl hc
  unfold linesIn
  induction ls generalizing a with
  | nil => rw [strJoin_single, one a (h a (by simp))]
  | cons b ls ih =>
    rw [strJoin_cons_cons, List.append_assoc, List.singleton_append, splitBy_append _ _ _ _ (by decide),
      one a (h a (by simp)), ih b (fun l hl => h l (List.mem_cons_of_mem _ hl))]
    rfl

theorem IsField.noNewline {w : List Char} (h : IsField w) : '\n' ∉ w := by
  intro hc
  exact absurd (h.2 _ hc) (by decide)

theorem isField_fmtNat (n : Nat) : IsField (fmtNat n) :=
  ⟨fmtNat_ne_nil n, fun c hc => (isDigit_plain (fmtNat_digits n c hc)).1⟩

theorem isField_fmtInt (n : Int) : IsField (fmtInt n) :=
  ⟨fmtInt_ne_nil n, fun c hc => (numChar_plain (fmtInt_num n c hc)).1⟩

/-! ### feature importance -/

theorem featLine_fields (a b c : List Char) (ha : IsField a) (hb : IsField b) (hc : IsField c) :
    strFields (a ++ " Feature ".toList ++ b ++ " with score: ".toList ++ c) =
      [a, "Feature".toList, b, "with".toList, "score:".toList, c] := by
  have e : a ++ " Feature ".toList ++ b ++ " with score: ".toList ++ c =
      strJoin [a, "Feature".toList, b, "with".toList, "score:".toList, c] [' '] := by
    simp [strJoin, List.intercalate, List.intersperse]
  rw [e, strFields_join]
  simp only [List.flatMap_cons, List.flatMap_nil, strFields_word a ha.1 ha.2, strFields_word b hb.1 hb.2,
    strFields_word c hc.1 hc.2]
  rfl

/-- **C92 (feature importance)**: the text of a feature importance has a heading and one line per feature, in the order of the
list: its rank counted from 1, the index of the feature and its score. -/
theorem C92_feats (fmt3 : F → List Char) (hf : ∀ x, IsField (fmt3 x)) (f : Feats F) :
    (linesIn (f.string fmt3)).length = f.items.length + 1 ∧
    ∀ (i : Nat) k g, f.items[i]? = some (k, g) → ∃ line, (linesIn (f.string fmt3))[i + 1]? = some line ∧
      strFields line = [fmtNat (i + 1), "Feature".toList, fmtNat k, "with".toList, "score:".toList, fmt3 g] := by
  have hl : linesIn (f.string fmt3) =
      ("Feature Importance in descending order, for ".toList ++
        (if f.xgb then "xgboost".toList else "gradient boosting".toList) ++ [':']) ::
      f.items.mapIdx fun i p => fmtNat (i + 1) ++ " Feature ".toList ++ fmtNat p.1 ++ " with score: ".toList ++ fmt3 p.2 := by
    unfold Feats.string
    apply linesIn_join
    intro l hl
    rcases List.mem_cons.1 hl with rfl | hl
    · cases f.xgb <;> decide
    · rw [List.mem_mapIdx] at hl
      obtain ⟨i, hi, rfl⟩ := hl
      have h1 := (isField_fmtNat (i + 1)).noNewline
      have h2 := (isField_fmtNat f.items[i].1).noNewline
      have h3 := (hf f.items[i].2).noNewline
      simp only [List.mem_append, not_or]
      exact ⟨⟨⟨⟨h1, by decide⟩, h2⟩, by decide⟩, h3⟩
  rw [hl]
  refine ⟨by rw [List.length_cons, List.length_mapIdx], ?_⟩
  intro i k g hi
  rw [List.getElem?_cons_succ, List.getElem?_mapIdx, hi]
  exact ⟨_, rfl, featLine_fields _ _ _ (isField_fmtNat _) (isField_fmtNat _) (hf g)⟩

/-- **C92 (feature importance of a model)**: the text has one line for each feature on which the trees of the model split, the
most important first (unless a score is NaN), with the sum of its gains. -/
theorem C92_importance [GoFloatOrd F] (S : GoSort) (M : MultiClass F)
    (h : ∀ ens ∈ M.b, ∀ t ∈ ens, t ≠ .nil ∧ t.Consistent) (fmt3 : F → List Char) (hf : ∀ x, IsField (fmt3 x)) :
    ∃ fs items, M.featureImportance S = .ok fs ∧ Totals items M.splits ∧
      ((∀ p ∈ items, (p.2 ==. p.2) = true) → BestFirst M.xgb items) ∧
      (linesIn (fs.string fmt3)).length = items.length + 1 ∧
      ∀ (i : Nat) k g, items[i]? = some (k, g) → ∃ line, (linesIn (fs.string fmt3))[i + 1]? = some line ∧
        strFields line = [fmtNat (i + 1), "Feature".toList, fmtNat k, "with".toList, "score:".toList, fmt3 g] := by
  obtain ⟨fs, h1, h2, h3⟩ := C14_ensemble S M h
  obtain ⟨h4, h5⟩ := C92_feats fmt3 hf fs
  exact ⟨fs, fs.items, h1, h2, h3, h4, h5⟩

/-! ### data -/

/-- **C92 (data)**: the text of a data set has a first line with the word `Labels` and the keys, and one line per row: its label
(-1 for a set without labels) and its values, rounded to four decimals. -/
theorem C92_data (P : FText F) (D : DataBunch F) (hk : ∀ k ∈ D.keys, IsField k) :
    ∃ text, D.string P = .ok text ∧ (linesIn text).length = D.data.length + 1 ∧
      (∃ head, (linesIn text)[0]? = some head ∧ strFields head = "Labels".toList :: D.keys) ∧
      ∀ (i : Nat) row, D.data[i]? = some row → ∃ line lab words, (linesIn text)[i + 1]? = some line ∧
        strFields line = fmtInt lab :: words ∧
        (if D.labels.length = D.data.length then D.labels[i]? = some lab else lab = -1) ∧
        List.Forall₂ (fun w x => P.parse w = some (P.round4 x)) words row := by
  have hlab : ∀ i, i < D.data.length → D.ithLabel i =
      .ok (if D.labels.length = D.data.length then D.labels.getD i 0 else -1) := by
    intro i hi
    unfold DataBunch.ithLabel
    split
    · rename_i h
      rw [goIdx, List.getElem?_eq_getElem (by omega), List.getD_eq_getElem?_getD, List.getElem?_eq_getElem (by omega)]
      rfl
    · rfl
  set lab : Nat → Int := fun i => if D.labels.length = D.data.length then D.labels.getD i 0 else -1 with hlabdef
  set row : List F × Nat → List Char := fun p =>
    strJoin (fmtInt3 (lab p.2) :: List.replicate p.1.length [] ++ p.1.map P.fmt4) [' '] with hrow
  have hrows : (D.data.zip (List.range D.data.length)).mapM (fun (p : List F × Nat) => (do
      let lab ← D.ithLabel p.2
      pure (strJoin (fmtInt3 lab :: List.replicate p.1.length [] ++ p.1.map P.fmt4) [' ']) : Go (List Char))) =
      .ok ((D.data.zip (List.range D.data.length)).map row) := by
    apply mapM_map_ok
    intro p hp
    have := (List.of_mem_zip hp).2
    rw [List.mem_range] at this
    rw [hlab p.2 this]
    rfl
  have hval : ∀ x : F, ∃ w, strFields (P.fmt4 x) = [w] ∧ P.parse w = some (P.round4 x) ∧ '\n' ∉ P.fmt4 x := by
    intro x
    obtain ⟨n, core, h1, h2, h3, h4, _⟩ := P.law x
    refine ⟨core, ?_, h4, ?_⟩
    · rw [h1, strFields_pad, strFields_word core h2 fun c hc => (numChar_plain (h3 c hc)).1]
    · rw [h1]
      intro h
      rcases List.mem_append.1 h with h | h
      · exact absurd (List.eq_of_mem_replicate h) (by decide)
      · exact absurd (numChar_plain (h3 _ h)).1 (by decide)
  have hint3 : ∀ n : Int, '\n' ∉ fmtInt3 n := by
    intro n h
    unfold fmtInt3 List.leftpad at h
    rcases List.mem_append.1 h with h | h
    · exact absurd (List.eq_of_mem_replicate h) (by decide)
    · exact (isField_fmtInt n).noNewline h
  refine ⟨strJoin (("Labels ".toList ++ strJoin D.keys [' ']) ::
      (D.data.zip (List.range D.data.length)).map row) ['\n'], ?_, ?_⟩
  · unfold DataBunch.string
    exact congrArg (fun x => x >>= fun rows => pure (strJoin (("Labels ".toList ++ strJoin D.keys [' ']) :: rows) ['\n'])) hrows
  have hl : linesIn (strJoin (("Labels ".toList ++ strJoin D.keys [' ']) ::
      (D.data.zip (List.range D.data.length)).map row) ['\n']) =
      ("Labels ".toList ++ strJoin D.keys [' ']) :: (D.data.zip (List.range D.data.length)).map row := by
    apply linesIn_join
    intro l hl
    rcases List.mem_cons.1 hl with rfl | hl
    · intro h
      rcases List.mem_append.1 h with h | h
      · exact absurd h (by decide)
      · rcases strJoin_mem h with h | ⟨k, h1, h2⟩
        · exact absurd h (by decide)
        · exact (hk k h1).noNewline h2
    · obtain ⟨p, _, rfl⟩ := List.mem_map.1 hl
      intro h
      rcases strJoin_mem h with h | ⟨k, h1, h2⟩
      · exact absurd h (by decide)
      · rw [List.mem_append, List.mem_cons] at h1
        rcases h1 with (rfl | h1) | h1
        · exact hint3 _ h2
        · rw [List.eq_of_mem_replicate h1] at h2
          cases h2
        · obtain ⟨x, _, rfl⟩ := List.mem_map.1 h1
          exact (hval x).choose_spec.2.2 h2
  rw [hl]
  refine ⟨by simp, ⟨_, rfl, ?_⟩, ?_⟩
  · have e : "Labels ".toList ++ strJoin D.keys [' '] = "Labels".toList ++ ' ' :: strJoin D.keys [' '] := by simp
    rw [e, strFields_append _ _ _ (by decide), strFields_join, strFields_word "Labels".toList (by decide) (by decide)]
    rw [List.singleton_append, List.cons.injEq]
    refine ⟨rfl, ?_⟩
    have : ∀ ks : List (List Char), (∀ k ∈ ks, IsField k) → ks.flatMap strFields = ks := by
      intro ks
      induction ks with
      | nil => intro _; rfl
      | cons k ks ih =>
        intro h
        have hk := h k List.mem_cons_self
        rw [List.flatMap_cons, strFields_word k hk.1 hk.2, ih fun k h' => h k (List.mem_cons_of_mem _ h')]
        rfl
    exact this _ hk
  · intro i v hv
    have hi := (List.getElem?_eq_some_iff.1 hv).1
    have hz : (D.data.zip (List.range D.data.length))[i]? = some (v, i) := by
      rw [List.getElem?_zip_eq_some]
      exact ⟨hv, by simp [hi]⟩
    refine ⟨row (v, i), lab i, v.flatMap fun x => strFields (P.fmt4 x), ?_, ?_, ?_, ?_⟩
    · rw [List.getElem?_cons_succ, List.getElem?_map, hz]
      rfl
    · simp only [hrow]
      rw [strFields_join, List.flatMap_append, List.flatMap_cons, strFields_fmtInt3, List.flatMap_map]
      have : (List.replicate v.length ([] : List Char)).flatMap strFields = [] := by
        rw [List.flatMap_eq_nil_iff]
        intro a ha
        rw [List.eq_of_mem_replicate ha]
        rfl
      rw [this]
      rfl
    · simp only [hlabdef]
      split
      · rename_i h
        rw [List.getD_eq_getElem?_getD, List.getElem?_eq_getElem (by omega)]
        rfl
      · rfl
    · clear hv hz
      induction v with
      | nil => exact List.Forall₂.nil
      | cons x v ih =>
        obtain ⟨w, h1, h2, _⟩ := hval x
        rw [List.flatMap_cons, h1, List.singleton_append]
        exact List.Forall₂.cons h2 ih

/-! ### options -/

theorem IsField.pre {w : List Char} (h : IsField w) {p : List Char} (hp : ∀ c ∈ p, isSpace c = false) : IsField (p ++ w) :=
  ⟨fun e => h.1 (List.append_eq_nil_iff.1 e).2, fun c hc => by
    rcases List.mem_append.1 hc with hc | hc
    · exact hp c hc
    · exact h.2 c hc⟩

theorem options_fields (fmt3 : F → List Char) (hf : ∀ x, IsField (fmt3 x)) (O : Options F) :
    strFields (O.string fmt3) = if O.xgb then
      ["xgboost".toList, fmtInt O.rounds, "r/".toList ++ fmtInt O.maxDepth, "md/".toList ++ fmt3 O.learningRate,
        "lr/".toList ++ fmt3 O.subSample, "ss/".toList ++ fmt3 O.baseScore, "bs/".toList ++ fmt3 O.gamma,
        "gam/".toList ++ fmt3 O.lambda, "lam/".toList ++ fmt3 O.minChildWeight, "mcw/".toList ++ fmt3 O.colSubSample,
        "css".toList]
      else ["gboost".toList, fmtInt O.rounds, "r/".toList ++ fmtInt O.maxDepth, "md/".toList ++ fmt3 O.learningRate,
        "lr/".toList ++ fmt3 O.minChildWeight, "mcw".toList] := by
  have e0 : "xgboost ".toList = "xgboost".toList ++ [' '] := rfl
  have e0' : "gboost ".toList = "gboost".toList ++ [' '] := rfl
  have e1 : " r/".toList = ' ' :: "r/".toList := rfl
  have e2 : " md/".toList = ' ' :: "md/".toList := rfl
  have e3 : " lr/".toList = ' ' :: "lr/".toList := rfl
  have e4 : " ss/".toList = ' ' :: "ss/".toList := rfl
  have e5 : " bs/".toList = ' ' :: "bs/".toList := rfl
  have e6 : " gam/".toList = ' ' :: "gam/".toList := rfl
  have e7 : " lam/".toList = ' ' :: "lam/".toList := rfl
  have e8 : " mcw/".toList = ' ' :: "mcw/".toList := rfl
  have e9 : " css".toList = ' ' :: "css".toList := rfl
  have e10 : " mcw".toList = ' ' :: "mcw".toList := rfl
  have hw : ∀ w r : List Char, IsField w → strFields (w ++ ' ' :: r) = w :: strFields r := by
    intro w r h
    rw [strFields_append _ _ _ (by decide), strFields_word w h.1 h.2]
    rfl
  have hp : ∀ p w r : List Char, IsField w → (∀ c ∈ p, isSpace c = false) →
      strFields (p ++ (w ++ ' ' :: r)) = (p ++ w) :: strFields r := by
    intro p w r h hp
    rw [← List.append_assoc, hw _ _ (h.pre hp)]
  unfold Options.string
  split
  · rw [e0, e1, e2, e3, e4, e5, e6, e7, e8, e9]
    simp only [List.append_assoc, List.cons_append, List.nil_append]
    rw [hw _ _ ⟨by decide, by decide⟩, hw _ _ (isField_fmtInt _), hp _ _ _ (isField_fmtInt _) (by decide),
      hp _ _ _ (hf _) (by decide), hp _ _ _ (hf _) (by decide), hp _ _ _ (hf _) (by decide), hp _ _ _ (hf _) (by decide),
      hp _ _ _ (hf _) (by decide), hp _ _ _ (hf _) (by decide), hp _ _ _ (hf _) (by decide)]
    rfl
  · rw [e0', e1, e2, e3, e10]
    simp only [List.append_assoc, List.cons_append, List.nil_append]
    rw [hw _ _ ⟨by decide, by decide⟩, hw _ _ (isField_fmtInt _), hp _ _ _ (isField_fmtInt _) (by decide),
      hp _ _ _ (hf _) (by decide), hp _ _ _ (hf _) (by decide)]
    rfl

theorem fmtInt_inj {a b : Int} (h : fmtInt a = fmtInt b) : a = b := by
  cases a with
  | ofNat n =>
    cases b with
    | ofNat m =>
      rw [fmtInt_nat, fmtInt_nat, fmtNat_eq, fmtNat_eq] at h
      have := congrArg (fun l => Nat.ofDigitChars 10 l 0) h
      simp only [Nat.ofDigitChars_ten_toDigits] at this
      rw [this]
    | negSucc m =>
      rw [fmtInt_nat, fmtInt_neg] at h
      have := fmtNat_digits n '-' (by rw [h]; exact List.mem_cons_self)
      exact absurd this (by decide)
  | negSucc n =>
    cases b with
    | ofNat m =>
      rw [fmtInt_nat, fmtInt_neg] at h
      have := fmtNat_digits m '-' (by rw [← h]; exact List.mem_cons_self)
      exact absurd this (by decide)
    | negSucc m =>
      rw [fmtInt_neg, fmtInt_neg, fmtNat_eq, fmtNat_eq] at h
      have := congrArg (fun l => Nat.ofDigitChars 10 l 0) (List.cons.inj h).2
      simp only [Nat.ofDigitChars_ten_toDigits] at this
      have : n = m := by omega
      rw [this]

/-- **C92 (options)**: the text of options tells their kind, `Rounds` and `MaxDepth`, and to three decimals `LearningRate` and
`MinChildWeight`; for xgboost also `SubSample`, `BaseScore`, `Gamma`, `Lambda` and `ColSubSample`. -/
theorem C92_options (fmt3 : F → List Char) (hf : ∀ x, IsField (fmt3 x)) (O O' : Options F)
    (h : O.string fmt3 = O'.string fmt3) :
    O.xgb = O'.xgb ∧ O.rounds = O'.rounds ∧ O.maxDepth = O'.maxDepth ∧ fmt3 O.learningRate = fmt3 O'.learningRate ∧
    fmt3 O.minChildWeight = fmt3 O'.minChildWeight ∧
    (O.xgb = true → fmt3 O.subSample = fmt3 O'.subSample ∧ fmt3 O.baseScore = fmt3 O'.baseScore ∧
      fmt3 O.gamma = fmt3 O'.gamma ∧ fmt3 O.lambda = fmt3 O'.lambda ∧ fmt3 O.colSubSample = fmt3 O'.colSubSample) := by
  have h := congrArg strFields h
  rw [options_fields fmt3 hf, options_fields fmt3 hf] at h
  cases hx : O.xgb <;> cases hy : O'.xgb <;> simp only [hx, hy, if_true, if_false, Bool.false_eq_true] at h
  · simp only [List.cons.injEq, List.append_cancel_left_eq, and_true, true_and] at h
    exact ⟨rfl, fmtInt_inj h.1, fmtInt_inj h.2.1, h.2.2.1, h.2.2.2, fun h => by cases h⟩
  · exact absurd h (by simp)
  · exact absurd h (by simp)
  · simp only [List.cons.injEq, List.append_cancel_left_eq, and_true, true_and] at h
    obtain ⟨h1, h2, h3, h4, h5, h6, h7, h8, h9⟩ := h
    exact ⟨rfl, fmtInt_inj h1, fmtInt_inj h2, h3, h8, fun _ => ⟨h4, h5, h6, h7, h9⟩⟩

/-- the text of a feature importance -/
example : Feats.string (F := F64) (fun _ => "0.500".toList) ⟨true, [(3, .fin (1/2)), (0, .fin (1/4))]⟩ =
    ("Feature Importance in descending order, for xgboost:\n1 Feature 3 with score: 0.500\n" ++
      "2 Feature 0 with score: 0.500").toList := by decide +kernel

/-- the text of a data set -/
example : tbl.string (decText b64) =
    .ok "Labels len width\n -1   0.3333 -2.0000\n  0   0.0000 1000.0000\n 12   -0.1250 0.0000".toList := by decide +kernel

end Boo
