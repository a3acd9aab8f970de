import Verif.Props.TextData

/-!
# C45: exactly what the readers accept and return
-/

namespace Boo
open GoFloat
set_option linter.unusedSectionVars false
variable {F : Type} [GoFloat F]

theorem go_bind_ok {α β : Type} (a : α) (f : α → Go β) : (Except.ok a >>= f) = f a := rfl

/-- the fields are numbers, with these values -/
def IsCSVValues (P : FText F) (fields : List (List Char)) (row : List F) : Prop :=
  List.Forall₂ (fun w x => P.parse w = some x) fields row

/-- what a record stands for: with labels, a label and values; without labels, only values -/
def IsCSVRow (P : FText F) (hasLabels : Bool) (r : List (List Char)) (labels : List Int) (row : List F) : Prop :=
  if hasLabels then ∃ f fs lab, r = f :: fs ∧ atoi f = some lab ∧ labels = [lab] ∧ IsCSVValues P fs row
  else labels = [] ∧ IsCSVValues P r row

theorem csvValues_iff (P : FText F) (fs : List (List Char)) (vs : List F) :
    csvValues P fs = some vs ↔ IsCSVValues P fs vs := by
  unfold IsCSVValues
  induction fs generalizing vs with
  | nil => simp [csvValues, eq_comm]
  | cons w ws ih =>
    unfold csvValues
    cases hp : P.parse w with
    | none => simp [List.forall₂_cons_left_iff, hp]
    | some v =>
      simp only [Option.map_eq_some_iff, List.forall₂_cons_left_iff, hp, Option.some.injEq]
      constructor
      · rintro ⟨r, hr, rfl⟩
        exact ⟨v, r, rfl, (ih r).1 hr, rfl⟩
      · rintro ⟨b, u, rfl, h, rfl⟩
        exact ⟨u, (ih u).2 h, rfl⟩

theorem recordsToData_iff (P : FText F) (hasLabels : Bool) (r : List (List Char)) (hr : r ≠ []) (lab : Int) (row : List F) :
    recordsToData P r hasLabels = .ok (some (lab, row)) ↔
      (if hasLabels then IsCSVRow P true r [lab] row else lab = -1 ∧ IsCSVRow P false r [] row) := by
  obtain ⟨f, fs, rfl⟩ := List.exists_cons_of_ne_nil hr
  cases hasLabels
  · simp only [recordsToData, IsCSVRow, Bool.false_eq_true, if_false, Except.ok.injEq, Option.map_eq_some_iff, Prod.mk.injEq]
    constructor
    · rintro ⟨a, h, rfl, rfl⟩
      exact ⟨rfl, trivial, (csvValues_iff P _ _).1 h⟩
    · rintro ⟨rfl, _, h⟩
      exact ⟨row, (csvValues_iff P _ _).2 h, rfl, rfl⟩
  · simp only [recordsToData, IsCSVRow, if_true, Except.ok.injEq, Option.bind_eq_bind, Option.bind_eq_some_iff,
      Option.pure_def, Option.some.injEq, Prod.mk.injEq]
    constructor
    · rintro ⟨l, hl, d, hd, rfl, rfl⟩
      exact ⟨f, fs, l, rfl, hl, rfl, (csvValues_iff P _ _).1 hd⟩
    · rintro ⟨f', fs', l, h1, hl, h2, hd⟩
      obtain ⟨rfl, rfl⟩ := List.cons.inj h1
      obtain rfl : lab = l := by simpa using h2
      exact ⟨lab, hl, row, (csvValues_iff P _ _).2 hd, rfl, rfl⟩

theorem csvLoop_iff (P : FText F) (hasLabels : Bool) (recs : List (List (List Char))) (hr : ∀ r ∈ recs, r ≠ [])
    (data : List (List F)) (labels : List Int) :
    csvLoop P hasLabels recs = .ok (some (data, labels)) ↔
      ∃ rows : List (List Int × List F), List.Forall₂ (fun r p => IsCSVRow P hasLabels r p.1 p.2) recs rows ∧
        data = rows.map Prod.snd ∧ labels = (rows.map Prod.fst).flatten := by
  induction recs generalizing data labels with
  | nil =>
    simp only [csvLoop, Except.ok.injEq, Option.some.injEq, Prod.mk.injEq, List.forall₂_nil_left_iff, exists_eq_left,
      List.map_nil, List.flatten_nil]
    exact ⟨fun ⟨a, b⟩ => ⟨a.symm, b.symm⟩, fun ⟨a, b⟩ => ⟨a.symm, b.symm⟩⟩
  | cons r rs ih =>
    have ih := ih (fun r h => hr r (List.mem_cons_of_mem _ h))
    have hr := hr r List.mem_cons_self
    constructor
    · intro h
      unfold csvLoop at h
      obtain ⟨o, ho, h⟩ := bind_ok h
      cases o with
      | none => simp [pure, Except.pure] at h
      | some p =>
        obtain ⟨lab, row⟩ := p
        simp only at h
        obtain ⟨o2, ho2, h⟩ := bind_ok h
        cases o2 with
        | none => simp [pure, Except.pure] at h
        | some q =>
          obtain ⟨data', labels'⟩ := q
          simp only [pure, Except.pure, Except.ok.injEq, Option.some.injEq, Prod.mk.injEq] at h
          obtain ⟨rfl, rfl⟩ := h
          obtain ⟨rows, h1, rfl, rfl⟩ := (ih _ _).1 ho2
          have ho := (recordsToData_iff P hasLabels r hr lab row).1 ho
          cases hasLabels with
          | true => exact ⟨([lab], row) :: rows, List.Forall₂.cons (by simpa using ho) h1, rfl, rfl⟩
          | false => exact ⟨([], row) :: rows, List.Forall₂.cons (by simpa using ho.2) h1, rfl, rfl⟩
    · rintro ⟨rows, h1, rfl, rfl⟩
      obtain ⟨p, rows', h2, h3, rfl⟩ := List.forall₂_cons_left_iff.1 h1
      have hl := (ih _ _).2 ⟨rows', h3, rfl, rfl⟩
      unfold csvLoop
      cases hasLabels with
      | true =>
        obtain ⟨f, fs, lab, e1, e2, e3, e4⟩ : ∃ f fs lab, r = f :: fs ∧ atoi f = some lab ∧ p.1 = [lab] ∧
          IsCSVValues P fs p.2 := h2
        have := (recordsToData_iff P true r hr lab p.2).2 ⟨f, fs, lab, e1, e2, rfl, e4⟩
        rw [this, go_bind_ok]
        simp only
        rw [hl, go_bind_ok]
        simp [pure, Except.pure, e3]
      | false =>
        obtain ⟨e1, e2⟩ : p.1 = [] ∧ IsCSVValues P r p.2 := h2
        have := (recordsToData_iff P false r hr (-1) p.2).2 ⟨rfl, rfl, e2⟩
        rw [this, go_bind_ok]
        simp only
        rw [hl, go_bind_ok]
        simp [pure, Except.pure, e1]

theorem finishData_iff (bad : Bool) (headers : List (List Char)) (o : Option (List (List F) × List Int)) (D : DataBunch F) :
    finishData bad headers o = some D ↔
      bad = false ∧ o = some (D.data, D.labels) ∧ D.keys = headers ∧ D.floatLabels = [] := by
  cases o with
  | none => simp [finishData]
  | some p =>
    obtain ⟨data, labels⟩ := p
    obtain ⟨d, k, l, f⟩ := D
    cases bad
    · simp only [finishData, Bool.false_eq_true, if_false, Option.some.injEq, DataBunch.mk.injEq, Prod.mk.injEq, true_and]
      constructor
      · rintro ⟨rfl, rfl, rfl, rfl⟩; exact ⟨⟨rfl, rfl⟩, rfl, rfl⟩
      · rintro ⟨⟨rfl, rfl⟩, rfl, rfl⟩; exact ⟨rfl, rfl, rfl, rfl⟩
    · simp [finishData]

/-- **C45 (CSV, exactly)**: reading returns the data `D` if and only if neither the text nor the reader has an error, with a
header there is a first record and the keys are its fields (without the first one if there are labels), and the other records
are, in order, the labels and rows of `D`: with labels the first field of each is the label, without labels there are no
labels and all fields are values. -/
theorem C45_csv_exact (P : FText F) (text : List Char) (readErr hasHeader hasLabels : Bool) (sep : Char) (D : DataBunch F) :
    parseCSV P text readErr hasHeader hasLabels sep = .ok (some D) ↔
      (csvRecords sep text).2 = false ∧ readErr = false ∧ D.floatLabels = [] ∧
      ∃ (recs : List (List (List Char))) (rows : List (List Int × List F)),
        (if hasHeader then ∃ h, (csvRecords sep text).1 = h :: recs ∧ D.keys = if hasLabels then h.tail else h
          else (csvRecords sep text).1 = recs ∧ D.keys = []) ∧
        List.Forall₂ (fun r p => IsCSVRow P hasLabels r p.1 p.2) recs rows ∧
        D.data = rows.map Prod.snd ∧ D.labels = (rows.map Prod.fst).flatten := by
  have hne := csvRecords_ne sep text
  unfold parseCSV
  generalize csvRecords sep text = R at hne ⊢
  obtain ⟨recs, bad⟩ := R
  simp only at hne ⊢
  cases hasHeader with
  | true =>
    simp only [if_true]
    cases recs with
    | nil => simp
    | cons h recs =>
      have hh := hne h List.mem_cons_self
      obtain ⟨f, fs, rfl⟩ := List.exists_cons_of_ne_nil hh
      have hhd : csvHeaders (f :: fs) hasLabels = .ok (if hasLabels then fs else f :: fs) := by
        unfold csvHeaders
        cases hasLabels <;> simp
      simp only
      rw [hhd, go_bind_ok]
      have hl := csvLoop_iff P hasLabels recs (fun r h => hne r (List.mem_cons_of_mem _ h))
      constructor
      · intro h
        obtain ⟨o, ho, h⟩ := bind_ok h
        obtain ⟨h1, rfl, h3, h4⟩ := (finishData_iff _ _ _ _).1 (Except.ok.inj h)
        obtain ⟨rows, h5, h6, h7⟩ := (hl _ _).1 ho
        simp only [Bool.or_eq_false_iff] at h1
        exact ⟨h1.1, h1.2, h4, recs, rows, ⟨_, rfl, by rw [h3]; cases hasLabels <;> rfl⟩, h5, h6, h7⟩
      · rintro ⟨rfl, rfl, h4, recs', rows, ⟨h, h1, h2⟩, h5, h6, h7⟩
        obtain ⟨rfl, rfl⟩ := List.cons.inj h1
        rw [(hl D.data D.labels).2 ⟨rows, h5, h6, h7⟩, go_bind_ok]
        show Except.ok _ = _
        rw [Except.ok.injEq, finishData_iff]
        exact ⟨rfl, rfl, by rw [h2]; cases hasLabels <;> rfl, h4⟩
  | false =>
    simp only [Bool.false_eq_true, if_false]
    have hl := csvLoop_iff P hasLabels recs hne
    constructor
    · intro h
      obtain ⟨o, ho, h⟩ := bind_ok h
      obtain ⟨h1, rfl, h3, h4⟩ := (finishData_iff _ _ _ _).1 (Except.ok.inj h)
      obtain ⟨rows, h5, h6, h7⟩ := (hl _ _).1 ho
      simp only [Bool.or_eq_false_iff] at h1
      exact ⟨h1.1, h1.2, h4, recs, rows, ⟨rfl, h3⟩, h5, h6, h7⟩
    · rintro ⟨rfl, rfl, h4, recs', rows, ⟨rfl, h2⟩, h5, h6, h7⟩
      rw [(hl D.data D.labels).2 ⟨rows, h5, h6, h7⟩, go_bind_ok]
      show Except.ok _ = _
      rw [Except.ok.injEq, finishData_iff]
      exact ⟨rfl, rfl, h2, h4⟩

/-! ### libSVM -/

theorem splitColon_append {a b : List Char} (ha : ':' ∉ a) (hb : ':' ∉ b) : splitColon (a ++ ':' :: b) = [a, b] := by
  unfold splitColon
  have hb' : splitBy (· == ':') b = [b] := splitBy_none _ _ (fun c hc => by
    simp only [beq_eq_false_iff_ne, ne_eq]; rintro rfl; exact hb hc)
  induction a with
  | nil =>
    rw [List.nil_append]
    unfold splitBy
    rw [if_pos (by decide), hb']
  | cons c a ih =>
    rw [List.cons_append]
    unfold splitBy
    rw [if_neg (by
      simp only [beq_iff_eq]
      rintro rfl
      exact ha List.mem_cons_self), ih (fun h => ha (List.mem_cons_of_mem _ h))]

theorem splitColon_iff (v a b : List Char) : splitColon v = [a, b] ↔ v = a ++ ':' :: b ∧ ':' ∉ a ∧ ':' ∉ b :=
  ⟨splitColon_two, by rintro ⟨rfl, ha, hb⟩; exact splitColon_append ha hb⟩

/-- the words of a header are names, each after a colon -/
def IsSVMHeader (words names : List (List Char)) : Prop :=
  List.Forall₂ (fun w x => ∃ a, w = a ++ ':' :: x ∧ ':' ∉ a ∧ ':' ∉ x) words names

theorem svmHeader_iff (ws names : List (List Char)) : svmHeader ws = some names ↔ IsSVMHeader ws names := by
  unfold IsSVMHeader
  induction ws generalizing names with
  | nil => simp [svmHeader, eq_comm]
  | cons w ws ih =>
    rw [List.forall₂_cons_left_iff]
    constructor
    · intro h
      unfold svmHeader at h
      split at h
      · rename_i a b hs
        rw [Option.map_eq_some_iff] at h
        obtain ⟨r, hr, rfl⟩ := h
        exact ⟨b, r, ⟨a, (splitColon_iff _ _ _).1 hs⟩, (ih r).1 hr, rfl⟩
      · cases h
    · rintro ⟨b, u, ⟨a, h⟩, hu, rfl⟩
      unfold svmHeader
      rw [(splitColon_iff _ _ _).2 h, (ih u).2 hu]
      rfl

theorem svmValues_iff (P : FText F) (ws : List (List Char)) (row : List F) : svmValues P ws = some row ↔
    List.Forall₂ (fun w x => ∃ a b, w = a ++ ':' :: b ∧ ':' ∉ a ∧ ':' ∉ b ∧ P.parse b = some x) ws row := by
  refine ⟨svmValues_spec P ws row, ?_⟩
  induction ws generalizing row with
  | nil => rw [List.forall₂_nil_left_iff]; rintro rfl; rfl
  | cons w ws ih =>
    rw [List.forall₂_cons_left_iff]
    rintro ⟨x, u, ⟨a, b, h1, h2, h3, h4⟩, hu, rfl⟩
    unfold svmValues
    rw [(splitColon_iff _ _ _).2 ⟨h1, h2, h3⟩]
    simp only [h4, ih u hu, Option.map_some]

theorem parseLibSVMLine_iff (P : FText F) (line : List Char) (lab : Int) (row : List F) :
    parseLibSVMLine P line = .ok (some (lab, row)) ↔ IsSVMLine P line lab row := by
  unfold parseLibSVMLine IsSVMLine
  cases hs : strFields line with
  | nil => simp
  | cons f fs =>
    simp only [Except.ok.injEq, Option.bind_eq_bind, Option.bind_eq_some_iff, Option.pure_def, Option.some.injEq,
      Prod.mk.injEq, List.cons.injEq]
    constructor
    · rintro ⟨cl, hc, vs, hv, rfl, rfl⟩
      exact ⟨f, fs, ⟨rfl, rfl⟩, hc, (svmValues_iff P fs vs).1 hv⟩
    · rintro ⟨_, _, ⟨rfl, rfl⟩, hc, hv⟩
      exact ⟨lab, hc, row, (svmValues_iff P fs row).2 hv, rfl, rfl⟩

theorem svmLoop_iff (P : FText F) (lines : List (List Char)) (data : List (List F)) (labels : List Int) :
    svmLoop P lines = .ok (some (data, labels)) ↔
      ∃ rows : List (Int × List F), List.Forall₂ (fun l p => IsSVMLine P l p.1 p.2) lines rows ∧
        data = rows.map Prod.snd ∧ labels = rows.map Prod.fst := by
  induction lines generalizing data labels with
  | nil =>
    simp only [svmLoop, Except.ok.injEq, Option.some.injEq, Prod.mk.injEq, List.forall₂_nil_left_iff, exists_eq_left,
      List.map_nil]
    exact ⟨fun ⟨a, b⟩ => ⟨a.symm, b.symm⟩, fun ⟨a, b⟩ => ⟨a.symm, b.symm⟩⟩
  | cons l ls ih =>
    constructor
    · intro h
      unfold svmLoop at h
      obtain ⟨o, ho, h⟩ := bind_ok h
      cases o with
      | none => simp [pure, Except.pure] at h
      | some p =>
        obtain ⟨lab, row⟩ := p
        simp only at h
        obtain ⟨o2, ho2, h⟩ := bind_ok h
        cases o2 with
        | none => simp [pure, Except.pure] at h
        | some q =>
          obtain ⟨data', labels'⟩ := q
          simp only [pure, Except.pure, Except.ok.injEq, Option.some.injEq, Prod.mk.injEq] at h
          obtain ⟨rfl, rfl⟩ := h
          obtain ⟨rows, h1, rfl, rfl⟩ := (ih _ _).1 ho2
          exact ⟨(lab, row) :: rows, List.Forall₂.cons ((parseLibSVMLine_iff P l lab row).1 ho) h1, rfl, rfl⟩
    · rintro ⟨rows, h1, rfl, rfl⟩
      obtain ⟨p, rows', h2, h3, rfl⟩ := List.forall₂_cons_left_iff.1 h1
      have hl := (ih _ _).2 ⟨rows', h3, rfl, rfl⟩
      unfold svmLoop
      rw [(parseLibSVMLine_iff P l p.1 p.2).2 h2, go_bind_ok]
      simp only
      rw [hl, go_bind_ok]
      simp [pure, Except.pure]

/-- **C45 (libSVM, exactly)**: reading returns the data `D` if and only if the reader has no error, the first line, if a header
is asked for and there is a line, is a word followed by words `…:name` whose names are the keys, and the other lines are, in
order, the labels and rows of `D`. -/
theorem C45_libsvm_exact (P : FText F) (text : List Char) (readErr hasHeader : Bool) (D : DataBunch F) :
    parseLibSVM P text readErr hasHeader = .ok (some D) ↔
      readErr = false ∧ D.floatLabels = [] ∧
      ∃ (lines : List (List Char)) (rows : List (Int × List F)),
        (if hasHeader = true ∧ linesOf text ≠ [] then
          ∃ h w ws, linesOf text = h :: lines ∧ strFields h = w :: ws ∧ IsSVMHeader ws D.keys
          else linesOf text = lines ∧ D.keys = []) ∧
        List.Forall₂ (fun l p => IsSVMLine P l p.1 p.2) lines rows ∧
        D.data = rows.map Prod.snd ∧ D.labels = rows.map Prod.fst := by
  unfold parseLibSVM
  split
  · rename_i line lines heq
    simp only [heq]
    constructor
    · intro h
      obtain ⟨o, ho, h⟩ := bind_ok h
      cases o with
      | none => simp [pure, Except.pure] at h
      | some hs =>
        simp only at h
        obtain ⟨o2, ho2, h⟩ := bind_ok h
        obtain ⟨h1, rfl, h3, h4⟩ := (finishData_iff _ _ _ _).1 (Except.ok.inj h)
        obtain ⟨rows, h5, h6, h7⟩ := (svmLoop_iff P _ _ _).1 ho2
        refine ⟨h1, h4, lines, rows, ?_, h5, h6, h7⟩
        unfold parseLibSVMHeader at ho
        split at ho
        · cases ho
        · rename_i w ws hw
          exact ⟨line, w, ws, rfl, hw, by rw [h3]; exact (svmHeader_iff _ _).1 (Except.ok.inj ho)⟩
    · rintro ⟨rfl, h4, lines', rows, ⟨h, w, ws, e1, e2, e3⟩, h5, h6, h7⟩
      obtain ⟨rfl, rfl⟩ := List.cons.inj e1
      have : parseLibSVMHeader line = .ok (some D.keys) := by
        unfold parseLibSVMHeader
        rw [e2]
        simp only
        rw [(svmHeader_iff _ _).2 e3]
      rw [this, go_bind_ok]
      simp only
      rw [(svmLoop_iff P _ _ _).2 ⟨rows, h5, h6, h7⟩, go_bind_ok]
      show Except.ok _ = _
      rw [Except.ok.injEq, finishData_iff]
      exact ⟨rfl, rfl, rfl, h4⟩
  · rename_i heq
    have hc : ∀ b : Bool, (∀ line lines, b = true → linesOf text = line :: lines → False) →
        ¬ (b = true ∧ linesOf text ≠ []) := by
      rintro b hb ⟨rfl, h⟩
      obtain ⟨a, as, ha⟩ := List.exists_cons_of_ne_nil h
      exact hb a as rfl ha
    simp only [if_neg (hc _ heq)]
    constructor
    · intro h
      obtain ⟨o2, ho2, h⟩ := bind_ok h
      obtain ⟨h1, rfl, h3, h4⟩ := (finishData_iff _ _ _ _).1 (Except.ok.inj h)
      obtain ⟨rows, h5, h6, h7⟩ := (svmLoop_iff P _ _ _).1 ho2
      exact ⟨h1, h4, _, rows, ⟨rfl, h3⟩, h5, h6, h7⟩
    · rintro ⟨rfl, h4, lines', rows, ⟨rfl, h2⟩, h5, h6, h7⟩
      rw [(svmLoop_iff P _ _ _).2 ⟨rows, h5, h6, h7⟩, go_bind_ok]
      show Except.ok _ = _
      rw [Except.ok.injEq, finishData_iff]
      exact ⟨rfl, rfl, h2, h4⟩

/-! Cases that meet the hypotheses -/

deriving instance DecidableEq for DataBunch

example : parseCSV (decText b64) "a,b\n1.5000,-2.0000\n3.0000,4.0000\n".toList false true false ',' =
    .ok (some ⟨[[.fin (3/2), .fin (-2)], [.fin 3, .fin 4]], ["a".toList, "b".toList], [], []⟩) := by
  decide +kernel

example : parseLibSVM (decText b64) "L 1:a 2:b\n-3 1:0.5000 2:7.0000\n".toList false true =
    .ok (some ⟨[[.fin (1/2), .fin 7]], ["a".toList, "b".toList], [-3], []⟩) := by
  decide +kernel

end Boo
