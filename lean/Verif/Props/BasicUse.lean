import Verif.Lemmas.NumText
import Verif.Props.SvmGrammar
import Verif.Props.CsvGrammar
import Verif.Props.SaveFloat
import Verif.Props.PredictTotal
import Verif.Props.CV

/-!
# C123: the basic use of the library, on files with numbers of at most 15 digits
-/

namespace Boo
open GoFloat Spec

section AnyOrder

variable {τ : Option SumOrder}
/-- float64, with any order of the additions of `floats.Sum` -/
local notation "F64" => F64o τ

/-- a tenth or more of the rows: the capacity of a sample is no problem -/
theorem cap_nonneg {n : Nat} (hn : n ≤ 2 ^ 50) : 0 ≤ toInt ((ofInt (n : Int) : F64) *. ofRat (8/10)) + 1 := by
  have h50 : (n : ℚ) ≤ 2 ^ 50 := by
    have : ((n : Nat) : ℚ) ≤ ((2 ^ 50 : Nat) : ℚ) := Nat.cast_le.2 hn
    rw [Nat.cast_pow] at this
    exact this
  have h0 : (0 : ℚ) ≤ n := Nat.cast_nonneg n
  have hr : (ofRat (8/10) : F64) = .fin (rv (8/10)) := ofRat64 (by decide +kernel)
  have h8 : (0 : ℚ) ≤ rv (8/10) ∧ rv (8/10) ≤ 1 := by decide +kernel
  have hi : (ofInt (n : Int) : F64) = .fin ((n : Int) : ℚ) := by
    apply ofInt64
    rw [abs_of_nonneg (by omega)]
    have : 2 ^ 50 < 2 ^ 53 := by norm_num
    omega
  rw [hr, hi]
  have hp : 0 ≤ ((n : Int) : ℚ) * rv (8/10) := by
    have : (0 : ℚ) ≤ ((n : Int) : ℚ) := by simpa using h0
    exact mul_nonneg this h8.1
  have hle : ((n : Int) : ℚ) * rv (8/10) ≤ 2 ^ (50 : ℤ) := by
    have h1 : ((n : Int) : ℚ) ≤ 2 ^ (50 : ℤ) := by
      have : ((n : Int) : ℚ) = (n : ℚ) := by push_cast; rfl
      rw [this]
      exact h50
    calc ((n : Int) : ℚ) * rv (8/10) ≤ 2 ^ (50 : ℤ) * 1 := mul_le_mul h1 h8.2 h8.1 (by positivity)
      _ = _ := mul_one _
  rw [mul64 (by rw [abs_of_nonneg hp]; exact hle.trans (pow_big (by norm_num)))]
  have h1 : 0 ≤ rv (((n : Int) : ℚ) * rv (8/10)) := by
    rw [← rv_zero]
    exact rv_mono hp
  have h2 : rv (((n : Int) : ℚ) * rv (8/10)) ≤ 2 ^ (50 : ℤ) := by
    rw [← rv_pow 50 (by norm_num)]
    exact rv_mono hle
  generalize rv (((n : Int) : ℚ) * rv (8/10)) = z at h1 h2
  have h3 : (0 : Int) ≤ ⌊z⌋ := Int.floor_nonneg.2 h1
  have h4 : ⌊z⌋ ≤ 2 ^ 50 := by
    have : (⌊z⌋ : ℚ) ≤ ((2 ^ 50 : ℤ) : ℚ) := by
      refine (Int.floor_le z).trans (h2.trans_eq ?_)
      norm_num
    exact_mod_cast this
  rw [XF.toInt_fin (by rw [if_pos h1]; omega) (by rw [if_pos h1]; omega), if_pos h1]
  omega

/-- the labels, the float64s nearest to the numbers, and the keys -/
def numberBunch (Q : List (Int × List ℚ)) (keys : List (List Char)) : DataBunch F64 :=
  { data := Q.map fun p => p.2.map near64, labels := Q.map Prod.fst, keys := keys, floatLabels := [] }

/-- numbers as a data set of float64 -/
structure NumberData (Q : List (Int × List ℚ)) (c : Nat) (D : DataBunch F64) : Prop where
  ne : Q ≠ []
  width : ∀ p ∈ Q, p.2.length = c
  short : ∀ p ∈ Q, ∀ x ∈ p.2, Short x
  few : Q.length ≤ 2 ^ 50
  narrow : c ≤ 2 ^ 50
  data : D.data = Q.map fun p => p.2.map near64
  labels : D.labels = Q.map Prod.fst

theorem NumberData.apart {Q : List (Int × List ℚ)} {c : Nat} {D : DataBunch F64} (h : NumberData Q c D) : Apart64 D.data := by
  have := short_apart (τ := τ) (Q.map Prod.snd) (by
    intro row hr x hx
    obtain ⟨p, hp, rfl⟩ := List.mem_map.1 hr
    exact h.short p hp x hx)
  rw [h.data]
  simpa [Function.comp_def] using this

theorem NumberData.rows {Q : List (Int × List ℚ)} {c : Nat} {D : DataBunch F64} (h : NumberData Q c D) :
    D.data ≠ [] ∧ (∀ row ∈ D.data, row.length = c) ∧ D.data.length = Q.length ∧ D.data.length = D.labels.length ∧ D.data.length ≤ 2 ^ 50 ∧
      (D.data.headD []).length = c := by
  have h2 : ∀ row ∈ D.data, row.length = c := by
    intro row hr
    rw [h.data] at hr
    obtain ⟨p, hp, rfl⟩ := List.mem_map.1 hr
    rw [List.length_map]
    exact h.width p hp
  have hl : D.data.length = Q.length := by rw [h.data, List.length_map]
  have hne : D.data ≠ [] := by
    rw [h.data]
    simpa using h.ne
  refine ⟨hne, h2, hl, ?_, ?_, ?_⟩
  · rw [hl, h.labels, List.length_map]
  · rw [hl]; exact h.few
  · obtain ⟨r, rs, e⟩ := List.exists_cons_of_ne_nil hne
    rw [e]
    exact h2 r (by rw [e]; simp)

/-- what a user expects of a trained model with respect to its own training data: it classifies every row that is long enough, and the
accuracy is a number between 0 and 100, which is 100 exactly when every row is classified as its label -/
def Works (c : Nat) (D : DataBunch F64) (M : MultiClass F64) : Prop :=
  (∀ row : List F64, c ≤ row.length → ∃ k, M.predictSingleClass row = .ok k ∧ k < M.classLabels.length) ∧
  ∃ a : ℚ, M.accuracy D = .ok (.fin a) ∧ 0 ≤ a ∧ a ≤ 100 ∧
    (a = 100 ↔ ∀ (i : Nat) row lab, D.data[i]? = some row → D.labels[i]? = some lab →
      ∃ k, M.predictSingleClass row = .ok k ∧ M.classLabels[k]? = some lab)

theorem works_of {Q : List (Int × List ℚ)} {c : Nat} {D : DataBunch F64} (hD : NumberData Q c D) {exp : F64 → F64} {S : GoSort}
    {draws : Nat → F64} {O : Options F64} {M : MultiClass F64} (h : newMultiClass exp S draws D O = .ok M) (hne : M.b ≠ []) : Works c D M := by
  obtain ⟨h1, h2, h3, h4, h5, h6⟩ := hD.rows
  obtain ⟨row0, rest, hr⟩ := List.exists_cons_of_ne_nil h1
  have h0 : D.data[0]? = some row0 := by rw [hr]; rfl
  have hl0 : row0.length = c := h2 row0 (by rw [hr]; simp)
  have hpred : ∀ row : List F64, c ≤ row.length → ∃ k, M.predictSingleClass row = .ok k ∧ k < M.classLabels.length := by
    intro row hrow
    obtain ⟨_, _, _, k, hk⟩ := C79_predict_partial exp S draws D O M h hne row0 h0 row (by rw [hl0]; exact hrow)
    exact ⟨k, hk⟩
  refine ⟨hpred, ?_⟩
  have key : ∀ rows : List (List F64), (∀ row ∈ rows, row.length = c) →
      ∃ preds, rows.mapM M.predictSingleClass = .ok preds ∧ ∀ p ∈ preds, p < M.classLabels.length := by
    intro rows
    induction rows with
    | nil => exact fun _ => ⟨[], rfl, by simp⟩
    | cons r rows ih =>
      intro hr
      obtain ⟨preds, h1, h2⟩ := ih fun row hrow => hr row (by simp [hrow])
      obtain ⟨k, hk, hkl⟩ := hpred r (by rw [hr r (by simp)])
      refine ⟨k :: preds, ?_, ?_⟩
      · rw [List.mapM_cons, hk, h1]
        rfl
      · intro p hp
        rcases List.mem_cons.1 hp with rfl | hp
        · exact hkl
        · exact h2 p hp
  obtain ⟨preds, hp, hk⟩ := key D.data h2
  obtain ⟨a, a1, a2, a3, a4⟩ := C25_binary64 M D preds h1 (lt_of_le_of_lt h5 (by norm_num)) hp hk h4.symm
  refine ⟨a, a1, a2, a3, a4.trans ?_⟩
  have hf := mapM_ok.1 hp
  constructor
  · intro hall i row lab hi hlab
    have hlt : i < D.data.length := (List.getElem?_eq_some_iff.1 hi).1
    have hlt' : i < preds.length := by rw [← hf.length_eq]; exact hlt
    obtain ⟨_, e⟩ := List.getElem?_eq_some_iff.1 hi
    have := hf.get hlt hlt'
    refine ⟨preds[i], ?_, hall i _ lab (List.getElem?_eq_getElem hlt') hlab⟩
    simpa [e] using this
  · intro hall i p lab hi hlab
    have hlt' : i < preds.length := (List.getElem?_eq_some_iff.1 hi).1
    have hlt : i < D.data.length := by rw [hf.length_eq]; exact hlt'
    obtain ⟨_, e⟩ := List.getElem?_eq_some_iff.1 hi
    have hg := hf.get hlt hlt'
    obtain ⟨k, k1, k2⟩ := hall i D.data[i] lab (List.getElem?_eq_getElem hlt) hlab
    have : M.predictSingleClass D.data[i] = .ok p := by simpa [e] using hg
    rw [this] at k1
    rw [Except.ok.inj k1]
    exact k2

/-- **C123 (default options)**: on numbers of at most 15 digits, `NewMultiClass` with `DefaultOptions` returns a model, whatever the random draws. If in
some of the 20 rounds at least 5 rows are drawn (the draw of the row is at most 0.8), the model works. -/
theorem C123_train_partial (exp : F64 → F64) (S : GoSort) (draws : Nat → F64) (Q : List (Int × List ℚ)) (c : Nat) (D : DataBunch F64)
    (hD : NumberData Q c D) (id : Nat) :
    ∃ M, newMultiClass exp S draws D (defaultOptions id) = .ok M ∧
      ((∃ r < 20, 5 ≤ ((List.range Q.length).filter fun i => draws (i + r * (Q.length + c)) <=. .fin (rv (8/10))).length) → Works c D M) := by
  obtain ⟨h1, h2, h3, h4, h5, h6⟩ := hD.rows
  have hr8 : (ofRat (8/10) : F64) = .fin (rv (8/10)) := ofRat64 (by decide +kernel)
  have hsub : rowSub (defaultOptions id : Options F64) = true := by
    show ((ofRat (8/10) : F64) <. one && true) = true
    rw [hr8, one64, XF.fin_lt, Bool.and_true, decide_eq_true_eq]
    decide +kernel
  have hcsub : colSub (defaultOptions id : Options F64) = true := hsub
  obtain ⟨M, hM⟩ := C22_returns_binary64 exp S draws D (defaultOptions id) h1 ⟨c, h2⟩ hD.apart h4 _ rfl sqErrLoss_regular
    ⟨fun _ => cap_nonneg h5, fun _ => cap_nonneg (by rw [h6]; exact hD.narrow)⟩ (fun _ => by show (1 : Int) ≤ 5; decide)
  refine ⟨M, hM, ?_⟩
  rintro ⟨r, hr, hdraw⟩
  refine works_of hD hM ?_
  have hlen := (C22_rounds exp S draws D (defaultOptions id) M hM).1
  have hmem : r ∈ executedRounds D.data (defaultOptions id) draws (defaultOptions id : Options F64).rounds.toNat := by
    unfold executedRounds
    rw [List.mem_filter, List.mem_range, decide_eq_true_eq]
    refine ⟨hr, ?_⟩
    unfold sampleCount
    rw [if_pos hsub]
    unfold roundRows drawsPerRound
    rw [if_pos hsub, if_pos hcsub, h6, h3]
    have : (defaultOptions id : Options F64).subSample = .fin (rv (8/10)) := hr8
    rw [this]
    show (5 : Int) ≤ _
    exact_mod_cast hdraw
  intro hb
  rw [hb, List.length_nil] at hlen
  rw [List.length_eq_zero_iff.1 hlen.symm] at hmem
  cases hmem

/-- **C123 (regular boosting)**: on numbers of at most 15 digits, `NewMultiClass` with `DefaultGOptions` returns a model and the model works. -/
theorem C123_train_regular (exp : F64 → F64) (S : GoSort) (draws : Nat → F64) (Q : List (Int × List ℚ)) (c : Nat) (D : DataBunch F64)
    (hD : NumberData Q c D) (id : Nat) :
    ∃ M, newMultiClass exp S draws D (defaultGOptions id) = .ok M ∧ Works c D M := by
  obtain ⟨h1, h2, h3, h4, h5, h6⟩ := hD.rows
  have hno : rowSub (defaultGOptions id : Options F64) = false := by
    show (_ && false) = false
    rw [Bool.and_false]
  have hnoc : colSub (defaultGOptions id : Options F64) = false := by
    show (_ && false) = false
    rw [Bool.and_false]
  obtain ⟨M, hM⟩ := C22_returns_binary64 exp S draws D (defaultGOptions id) h1 ⟨c, h2⟩ hD.apart h4 _ rfl mseLoss_regular
    ⟨fun h => absurd (hno ▸ h) (by decide), fun h => absurd (hnoc ▸ h) (by decide)⟩ (fun h => absurd (hno ▸ h) (by decide))
  refine ⟨M, hM, works_of hD hM ?_⟩
  have hlen := (C22_rounds exp S draws D (defaultGOptions id) M hM).1
  have hmem : 0 ∈ executedRounds D.data (defaultGOptions id) draws (defaultGOptions id : Options F64).rounds.toNat := by
    unfold executedRounds
    rw [List.mem_filter, List.mem_range, decide_eq_true_eq]
    refine ⟨by show 0 < 10; decide, ?_⟩
    show (0 : Int) ≤ _
    exact Int.natCast_nonneg _
  intro hb
  rw [hb, List.length_nil] at hlen
  rw [List.length_eq_zero_iff.1 hlen.symm] at hmem
  cases hmem

/-- reading a libSVM text of numbers -/
theorem C123_read_libsvm (P : FText F64) (hP : ReadsDecimals P) (text : List Char) (all lines : List (List Char)) (hL : Lines all text)
    (hasHeader : Bool) (keys : List (List Char))
    (hH : if hasHeader then ∃ h, all = h :: lines ∧ SvmNames h keys else all = lines ∧ keys = [])
    (Q : List (Int × List ℚ)) (hQ : List.Forall₂ (fun l p => SvmNumbers l p.1 p.2) lines Q) :
    parseLibSVM P text false hasHeader =
      .ok (some (numberBunch Q keys)) := by
  rw [C45_libsvm_grammar]
  refine ⟨rfl, rfl, all, lines, hL, ?_, Q.map fun p => (p.1, p.2.map near64), ?_, ?_, ?_⟩
  · cases hasHeader with
    | true =>
      rw [if_pos rfl] at hH
      obtain ⟨h, rfl, hn⟩ := hH
      rw [if_pos ⟨rfl, by simp⟩]
      exact ⟨h, rfl, hn⟩
    | false => simpa [numberBunch] using hH
  · rw [List.forall₂_map_right_iff]
    refine hQ.imp ?_
    rintro l p ⟨f, fs, hw, hi, hv⟩
    refine ⟨f, fs, hw, hi, ?_⟩
    rw [List.forall₂_map_right_iff]
    refine hv.imp ?_
    rintro w x ⟨a, b, rfl, ha, hb, hx⟩
    exact ⟨a, b, rfl, ha, numText_colon hb, hP b x hb hx⟩
  · simp [Function.comp_def, numberBunch]
  · simp [Function.comp_def, numberBunch]

/-- reading a CSV text of numbers -/
theorem C123_read_csv (P : FText F64) (hP : ReadsDecimals P) (text : List Char) (sep : Char) (hsep : LegalComma sep)
    (all recs : List (List (List Char))) (u : List Char) (hu : UnixText text u) (hC : CsvText sep all u)
    (hw : ∀ r ∈ all, ∀ r' ∈ all, r.length = r'.length) (hasHeader : Bool) (keys : List (List Char))
    (hH : if hasHeader then ∃ f, all = (f :: keys) :: recs else all = recs ∧ keys = [])
    (Q : List (Int × List ℚ)) (hQ : List.Forall₂ (fun r p => CsvNumbers r p.1 p.2) recs Q) :
    parseCSV P text false hasHeader true sep =
      .ok (some (numberBunch Q keys)) := by
  rw [C45_csv_grammar]
  refine ⟨hsep, rfl, rfl, all, recs, ⟨u, hu, hC⟩, hw, ?_, Q.map fun p => ([p.1], p.2.map near64), ?_, ?_, ?_⟩
  · cases hasHeader with
    | true =>
      rw [if_pos rfl] at hH ⊢
      obtain ⟨f, rfl⟩ := hH
      exact ⟨_, rfl, rfl⟩
    | false => exact hH
  · rw [List.forall₂_map_right_iff]
    refine hQ.imp ?_
    rintro l p ⟨f, fs, rfl, hi, hv⟩
    unfold CsvRow
    rw [if_pos rfl]
    refine ⟨f, fs, p.1, rfl, hi, rfl, ?_⟩
    rw [List.forall₂_map_right_iff]
    exact hv.imp fun w x h => hP w x h.1 h.2
  · simp [Function.comp_def, numberBunch]
  · simp only [List.map_map, Function.comp_def, numberBunch]
    rw [← List.flatMap_def, List.map_eq_flatMap]

theorem svm_numberData {lines : List (List Char)} {Q : List (Int × List ℚ)} (hQ : List.Forall₂ (fun l p => SvmNumbers l p.1 p.2) lines Q) :
    ∀ p ∈ Q, ∀ x ∈ p.2, Short x := by
  intro p hp x hx
  obtain ⟨l, _, f, fs, _, _, hv⟩ := forall₂_mem_right hQ hp
  obtain ⟨w, _, a, b, _, _, _, h⟩ := forall₂_mem_right hv hx
  exact h

/-- **C123 (libSVM files), partial**: take a text of libSVM lines, each an int label and `index:number` words, with at least one line, equally many numbers
in each line, and numbers of at most 15 significant digits; with a header line of `index:name` words before them or without. Then
`ParseLibSVMFromReader` reads the labels and the float64s nearest to the numbers, and `NewMultiClass` with `DefaultOptions` returns a model. If in some
of the 20 rounds at least 5 rows are drawn, then `PredictSingleClass` gives a class for every row as long as the rows of the file,
`Accuracy` on the file is a number between 0 and 100, and it is 100 exactly if every row is classified as its label. With at most 1024
different labels, `JSONMultiClass` writes the model. Missing: draws with fewer than 5 rows in every round, see `C123_violated`. -/
theorem C123_libsvm_partial (P : FText F64) (hP : ReadsDecimals P) (text : List Char) (all lines : List (List Char)) (hL : Lines all text)
    (hasHeader : Bool) (keys : List (List Char))
    (hH : if hasHeader then ∃ h, all = h :: lines ∧ SvmNames h keys else all = lines ∧ keys = [])
    (Q : List (Int × List ℚ)) (hQ : List.Forall₂ (fun l p => SvmNumbers l p.1 p.2) lines Q) (c : Nat) (hne : lines ≠ [])
    (hc : ∀ p ∈ Q, p.2.length = c) (hfew : Q.length ≤ 2 ^ 50) (hnar : c ≤ 2 ^ 50)
    (exp : F64 → F64) (hexp : ExpFloat exp) (S : GoSort) (draws : Nat → F64) (id : Nat) :
    ∃ D M, parseLibSVM P text false hasHeader = .ok (some D) ∧ D.labels = Q.map Prod.fst ∧ D.data = Q.map (fun p => p.2.map near64) ∧
      newMultiClass exp S draws D (defaultOptions id) = .ok M ∧
      ((∃ r < 20, 5 ≤ ((List.range Q.length).filter fun i => draws (i + r * (Q.length + c)) <=. .fin (rv (8/10))).length) → Works c D M) ∧
      ((distinctElements D.labels).length ≤ 1024 → ∀ J : JCodec F64, ∃ out, jsonMultiClass J M "softmax".toList = .ok (some out)) := by
  have hD : NumberData Q c (numberBunch (τ := τ) Q keys) :=
    ⟨fun h => hne (by rw [h] at hQ; exact List.forall₂_nil_right_iff.1 hQ), hc, svm_numberData hQ, hfew, hnar, rfl, rfl⟩
  obtain ⟨M, h1, h2⟩ := C123_train_partial exp S draws Q c _ hD id
  refine ⟨_, M, C123_read_libsvm P hP text all lines hL hasHeader keys hH Q hQ, rfl, rfl, h1, h2, ?_⟩
  intro hm J
  obtain ⟨_, _, _, h4, h5, _⟩ := hD.rows
  obtain ⟨out, _, ho, _⟩ := C122_default_partial J exp hexp S draws _ h4 hD.apart.bounded h5 hm id M h1
  exact ⟨out, ho⟩

/-- **C123 (CSV files), partial**: the same for CSV texts with labels in the first column. -/
theorem C123_csv_partial (P : FText F64) (hP : ReadsDecimals P) (text : List Char) (sep : Char) (hsep : LegalComma sep)
    (all recs : List (List (List Char))) (u : List Char) (hu : UnixText text u) (hC : CsvText sep all u)
    (hw : ∀ r ∈ all, ∀ r' ∈ all, r.length = r'.length) (hasHeader : Bool) (keys : List (List Char))
    (hH : if hasHeader then ∃ f, all = (f :: keys) :: recs else all = recs ∧ keys = [])
    (Q : List (Int × List ℚ)) (hQ : List.Forall₂ (fun r p => CsvNumbers r p.1 p.2) recs Q) (c : Nat) (hne : recs ≠ [])
    (hc : ∀ r ∈ recs, r.length = c + 1) (hfew : Q.length ≤ 2 ^ 50) (hnar : c ≤ 2 ^ 50)
    (exp : F64 → F64) (hexp : ExpFloat exp) (S : GoSort) (draws : Nat → F64) (id : Nat) :
    ∃ D M, parseCSV P text false hasHeader true sep = .ok (some D) ∧ D.labels = Q.map Prod.fst ∧ D.data = Q.map (fun p => p.2.map near64) ∧
      newMultiClass exp S draws D (defaultOptions id) = .ok M ∧
      ((∃ r < 20, 5 ≤ ((List.range Q.length).filter fun i => draws (i + r * (Q.length + c)) <=. .fin (rv (8/10))).length) → Works c D M) ∧
      ((distinctElements D.labels).length ≤ 1024 → ∀ J : JCodec F64, ∃ out, jsonMultiClass J M "softmax".toList = .ok (some out)) := by
  have hD : NumberData Q c (numberBunch (τ := τ) Q keys) := by
    refine ⟨fun h => hne (by rw [h] at hQ; exact List.forall₂_nil_right_iff.1 hQ), ?_, ?_, hfew, hnar, rfl, rfl⟩
    · intro p hp
      obtain ⟨r, hr, f, fs, rfl, _, hv⟩ := forall₂_mem_right hQ hp
      have := hc _ hr
      rw [List.length_cons] at this
      rw [← hv.length_eq]
      omega
    · intro p hp x hx
      obtain ⟨r, _, f, fs, _, _, hv⟩ := forall₂_mem_right hQ hp
      obtain ⟨w, _, h⟩ := forall₂_mem_right hv hx
      exact h.2
  obtain ⟨M, h1, h2⟩ := C123_train_partial exp S draws Q c _ hD id
  refine ⟨_, M, C123_read_csv P hP text sep hsep all recs u hu hC hw hasHeader keys hH Q hQ, rfl, rfl, h1, h2, ?_⟩
  intro hm J
  obtain ⟨_, _, _, h4, h5, _⟩ := hD.rows
  obtain ⟨out, _, ho, _⟩ := C122_default_partial J exp hexp S draws _ h4 hD.apart.bounded h5 hm id M h1
  exact ⟨out, ho⟩

/-- **C123 (regular boosting, libSVM files)**: with `DefaultGOptions` the model works for every such file. -/
theorem C123_libsvm_regular (P : FText F64) (hP : ReadsDecimals P) (text : List Char) (all lines : List (List Char)) (hL : Lines all text)
    (hasHeader : Bool) (keys : List (List Char))
    (hH : if hasHeader then ∃ h, all = h :: lines ∧ SvmNames h keys else all = lines ∧ keys = [])
    (Q : List (Int × List ℚ)) (hQ : List.Forall₂ (fun l p => SvmNumbers l p.1 p.2) lines Q) (c : Nat) (hne : lines ≠ [])
    (hc : ∀ p ∈ Q, p.2.length = c) (hfew : Q.length ≤ 2 ^ 50) (hnar : c ≤ 2 ^ 50)
    (exp : F64 → F64) (S : GoSort) (draws : Nat → F64) (id : Nat) :
    ∃ D M, parseLibSVM P text false hasHeader = .ok (some D) ∧ D.labels = Q.map Prod.fst ∧ D.data = Q.map (fun p => p.2.map near64) ∧
      newMultiClass exp S draws D (defaultGOptions id) = .ok M ∧ Works c D M := by
  have hD : NumberData Q c (numberBunch (τ := τ) Q keys) :=
    ⟨fun h => hne (by rw [h] at hQ; exact List.forall₂_nil_right_iff.1 hQ), hc, svm_numberData hQ, hfew, hnar, rfl, rfl⟩
  obtain ⟨M, h1, h2⟩ := C123_train_regular exp S draws Q c _ hD id
  exact ⟨_, M, C123_read_libsvm P hP text all lines hL hasHeader keys hH Q hQ, rfl, rfl, h1, h2⟩

/-- **C123 is violated**: with fewer than 5 rows, `NewMultiClass` with `DefaultOptions` always returns a model without trees, whatever the draws:
`Accuracy` and every prediction panic. -/
theorem C123_violated (exp : F64 → F64) (S : GoSort) (draws : Nat → F64) (Q : List (Int × List ℚ)) (c : Nat) (D : DataBunch F64)
    (hD : NumberData Q c D) (h5 : Q.length < 5) (id : Nat) :
    ∃ M, newMultiClass exp S draws D (defaultOptions id) = .ok M ∧ (∀ row, M.predictSingleClass row = .error .index) ∧
      M.accuracy D = .error .index := by
  obtain ⟨M, hM, _⟩ := C123_train_partial exp S draws Q c D hD id
  obtain ⟨h1, _, h3, h4, _, _⟩ := hD.rows
  have hlen := (C22_rounds exp S draws D (defaultOptions id) M hM).1
  have h0 : executedRounds D.data (defaultOptions id) draws (defaultOptions id : Options F64).rounds.toNat = [] := by
    unfold executedRounds
    rw [List.filter_eq_nil_iff]
    intro r _
    rw [decide_eq_true_eq, not_le]
    have : sampleCount D.data (defaultOptions id) draws r ≤ D.data.length := by
      unfold sampleCount roundRows
      split
      · refine (List.length_filter_le _ _).trans ?_
        rw [List.length_range]
      · omega
    show _ < (5 : Int)
    omega
  rw [h0, List.length_nil, List.length_eq_zero_iff] at hlen
  have hp : ∀ row, M.predictSingleClass row = .error .index := by
    intro row
    unfold MultiClass.predictSingleClass MultiClass.predictSingle MultiClass.rawScores
    rw [hlen]
    rfl
  refine ⟨M, hM, hp, ?_⟩
  obtain ⟨r, rs, hr⟩ := List.exists_cons_of_ne_nil h1
  unfold MultiClass.accuracy
  rw [hr]
  unfold MultiClass.countRight
  rw [hp r]
  rfl

/-- **C06 (numbers of at most 15 digits), partial**: if the values are the float64s nearest to numbers of at most 15 significant digits, every node but the
root has at least `max(1, int(MinChildWeight))` samples. Missing: as in `C06_binary64_partial`. -/
theorem C06_decimal_partial (S : GoSort) (Q : List (List ℚ)) (hQ : ∀ row ∈ Q, ∀ x ∈ row, Short x) (o : TreeOptions F64)
    (t : Tree F64) (h : newTree S (Q.map fun row => row.map near64) o = .ok t)
    (path : List Bool) (hne : path ≠ []) (i : NodeInfo F64) (l r : Tree F64) (hp : t.sub path = .node i l r) :
    1 ≤ i.samples.length ∧ toInt o.minChildWeight ≤ i.samples.length :=
  C06_binary64_partial S _ o t h (short_apart Q hQ) path hne i l r hp

/-- **C12 (numbers of at most 15 digits), partial**: on such values, with well-formed arguments, `NewTree` does not panic. Missing: as in
`C12_binary64_partial`. -/
theorem C12_decimal_partial (S : GoSort) (Q : List (List ℚ)) (hQ : ∀ row ∈ Q, ∀ x ∈ row, Short x) (o : TreeOptions F64)
    (h : WellFormed (Q.map fun row => row.map near64 : List (List F64)) o) : ∃ t, newTree S (Q.map fun row => row.map near64) o = .ok t :=
  C12_binary64_partial S _ o h (short_apart Q hQ)

end AnyOrder

/-! ### an example -/

/-- a file with a header and five rows -/
def basicText : List Char := "Labels 1:a 2:b\n1 1:0.1 2:-2.5e-3\n2 1:.2 2:7\n1 1:+0.10 2:3E2\n2 1:4. 2:0\n-3 1:1e-290 2:123456.789012345\n".toList

def basicLines : List (List Char) :=
  ["1 1:0.1 2:-2.5e-3".toList, "2 1:.2 2:7".toList, "1 1:+0.10 2:3E2".toList, "2 1:4. 2:0".toList, "-3 1:1e-290 2:123456.789012345".toList]

def basicQ : List (Int × List ℚ) :=
  [(1, [1/10, -25/10000]), (2, [2/10, 7]), (1, [1/10, 300]), (2, [4, 0]), (-3, [1/10^290, 123456789012345/10^9])]

theorem basic_lines : Lines ("Labels 1:a 2:b".toList :: basicLines) basicText := (linesOf_iff _ _).1 (by decide +kernel)

theorem basic_names : SvmNames "Labels 1:a 2:b".toList ["a".toList, "b".toList] := by
  refine ⟨"Labels".toList, ["1:a".toList, "2:b".toList], (strFields_iff _ _).1 (by decide +kernel), ?_⟩
  exact .cons ⟨"1".toList, by decide, by decide, by decide⟩ (.cons ⟨"2".toList, by decide, by decide, by decide⟩ .nil)

theorem short_mk (m e : ℤ) {x : ℚ} (h : |m| < 10 ^ 15 ∧ -290 ≤ e ∧ e ≤ 290 ∧ x = m * 10 ^ e) : Short x := ⟨m, e, h⟩

theorem basic_rows : List.Forall₂ (fun l p => SvmNumbers l p.1 p.2) basicLines basicQ := by
  have key : ∀ (a b : List Char) (x : ℚ), ':' ∉ a → numValue b = some x → Short x →
      ∃ a' b', a ++ ':' :: b = a' ++ ':' :: b' ∧ ':' ∉ a' ∧ NumText b' x ∧ Short x :=
    fun a b x ha hb hx => ⟨a, b, rfl, ha, numValue_iff.1 hb, hx⟩
  have row : ∀ (l f : List Char) (lab : Int) (a b a' b' : List Char) (x y : ℚ), strFields l = [f, a ++ ':' :: b, a' ++ ':' :: b'] →
      atoi f = some lab → ':' ∉ a → numValue b = some x → ':' ∉ a' → numValue b' = some y → Short x → Short y → SvmNumbers l lab [x, y] :=
    fun l f lab a b a' b' x y h1 h2 h3 h4 h5 h6 h7 h8 => ⟨f, _, (strFields_iff _ _).1 h1, (atoi_iff _ _).1 h2,
      .cons (key a b x h3 h4 h7) (.cons (key a' b' y h5 h6 h8) .nil)⟩
  refine .cons ?_ (.cons ?_ (.cons ?_ (.cons ?_ (.cons ?_ .nil))))
  · exact row _ "1".toList _ "1".toList "0.1".toList "2".toList "-2.5e-3".toList _ _ (by decide +kernel) (by decide +kernel) (by decide +kernel)
      (by decide +kernel) (by decide +kernel) (by decide +kernel) (short_mk 1 (-1) (by decide +kernel)) (short_mk (-25) (-4) (by decide +kernel))
  · exact row _ "2".toList _ "1".toList ".2".toList "2".toList "7".toList _ _ (by decide +kernel) (by decide +kernel) (by decide +kernel)
      (by decide +kernel) (by decide +kernel) (by decide +kernel) (short_mk 2 (-1) (by decide +kernel)) (short_mk 7 0 (by decide +kernel))
  · exact row _ "1".toList _ "1".toList "+0.10".toList "2".toList "3E2".toList _ _ (by decide +kernel) (by decide +kernel) (by decide +kernel)
      (by decide +kernel) (by decide +kernel) (by decide +kernel) (short_mk 1 (-1) (by decide +kernel)) (short_mk 3 2 (by decide +kernel))
  · exact row _ "2".toList _ "1".toList "4.".toList "2".toList "0".toList _ _ (by decide +kernel) (by decide +kernel) (by decide +kernel)
      (by decide +kernel) (by decide +kernel) (by decide +kernel) (short_mk 4 0 (by decide +kernel)) (short_mk 0 0 (by decide +kernel))
  · exact row _ "-3".toList _ "1".toList "1e-290".toList "2".toList "123456.789012345".toList _ _ (by decide +kernel) (by decide +kernel)
      (by decide +kernel) (by decide +kernel) (by decide +kernel) (by decide +kernel) (short_mk 1 (-290) (by decide +kernel))
      (short_mk 123456789012345 (-9) (by decide +kernel))

/-- the hypotheses are met, also the one about the draws -/
example : ∃ (P : FText F64) (exp : F64 → F64) (D : DataBunch F64) (M : MultiClass F64), parseLibSVM P basicText false true = .ok (some D) ∧
    newMultiClass exp GoSort.ins (fun _ => .fin 0) D (defaultOptions 0) = .ok M ∧ D.labels = [1, 2, 1, 2, -3] ∧ Works 2 D M := by
  obtain ⟨exp, hexp⟩ := expFloat_exists
  obtain ⟨D, M, h1, h2, _, h3, h4, _⟩ := C123_libsvm_partial _ numText_reads basicText _ basicLines basic_lines true _ ⟨_, rfl, basic_names⟩ basicQ
    basic_rows 2 (by decide) (by decide +kernel) (by decide) (by decide) exp hexp GoSort.ins (fun _ => .fin 0) 0
  exact ⟨_, exp, D, M, h1, h3, h2, h4 ⟨0, by decide, by decide +kernel⟩⟩

end Boo
