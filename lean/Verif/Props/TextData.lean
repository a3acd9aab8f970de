import Verif.Lemmas.FText

/-!
# C42–C45: data files
-/

namespace Boo
open GoFloat
set_option linter.unusedSectionVars false
variable {F : Type} [GoFloat F]

/-- A non-empty rectangular labelled data set of `l` columns; its keys (as many as columns, or none) are words. -/
structure IsTable (D : DataBunch F) (l : Nat) : Prop where
  nonempty : D.data ≠ []
  rect : ∀ row ∈ D.data, row.length = l
  labelled : D.labels.length = D.data.length
  labels : ∀ lab ∈ D.labels, IsInt64 lab
  keys : D.keys = [] ∨ D.keys.length = l
  words : ∀ k ∈ D.keys, PlainWord k

theorem IsTable.head {D : DataBunch F} {l : Nat} (h : IsTable D l) : ∃ d0, goIdx D.data 0 = .ok d0 ∧ d0.length = l := by
  obtain ⟨d, ds, hd⟩ := List.exists_cons_of_ne_nil h.nonempty
  exact ⟨d, by rw [hd]; rfl, h.rect d (by rw [hd]; simp)⟩

theorem IsTable.pairs {D : DataBunch F} {l : Nat} (h : IsTable D l) :
    (D.data.zip D.labels) ≠ [] ∧ (D.data.zip D.labels).map (·.1) = D.data ∧ (D.data.zip D.labels).map (·.2) = D.labels := by
  have hz := h.labelled
  refine ⟨?_, List.map_fst_zip (by omega), List.map_snd_zip (by omega)⟩
  intro e
  have hne := List.length_pos_iff.2 h.nonempty
  have : (D.data.zip D.labels).length = 0 := by rw [e]; rfl
  rw [List.length_zip] at this
  omega

theorem libSVM_eq (P : FText F) {D : DataBunch F} {l : Nat} (h : IsTable D l) :
    D.libSVM P = .ok (strJoin ((if D.keys.length = l then [svmHead D.keys] else []) ++
      (D.data.zip D.labels).map fun p => svmRow P l p.1 p.2) ['\n']) := by
  obtain ⟨d0, h1, h2⟩ := h.head
  unfold DataBunch.libSVM
  rw [h1]
  simp only [bind, Except.bind, h2]
  have := rows_mapM D h.labelled (svmRow P l)
  unfold svmRow at this
  simp only [bind, Except.bind] at this
  rw [this]
  rfl

/-- **C42 (text ending in a newline)**: with a final newline, which `LibSVM()` does not write, everything is read back. -/
theorem C42_newline_partial (P : FText F) (D : DataBunch F) (l : Nat) (h : IsTable D l)
    (hfin : ∀ row ∈ D.data, ∀ x ∈ row, Finite x) :
    ∃ text, D.libSVM P = .ok text ∧ parseLibSVM P (text ++ ['\n']) false (decide (D.keys.length = l)) =
      .ok (some ⟨D.data.map (·.map P.round4), D.keys, D.labels, []⟩) := by
  refine ⟨_, libSVM_eq P h, ?_⟩
  obtain ⟨hne, hfst, hsnd⟩ := h.pairs
  have hrows : ∀ p ∈ D.data.zip D.labels, (∀ x ∈ p.1, Finite x) ∧ IsInt64 p.2 := fun p hp =>
    ⟨hfin p.1 (List.of_mem_zip hp).1, h.labels p.2 (List.of_mem_zip hp).2⟩
  have hno : ∀ s ∈ (if D.keys.length = l then [svmHead D.keys] else []) ++
      (D.data.zip D.labels).map fun p => svmRow P l p.1 p.2, '\n' ∉ s := by
    intro s hs
    rw [List.mem_append, List.mem_map] at hs
    rcases hs with hs | ⟨p, hp, rfl⟩
    · split at hs
      · rw [List.mem_singleton] at hs
        subst hs
        exact svmHead_line D.keys h.words
      · cases hs
    · exact svmRow_line P l _ _ (hrows p hp).1
  have hloop := svmLoop_rows P l (D.data.zip D.labels) hrows
  have e1 : (D.data.zip D.labels).map (fun p => p.1.map P.round4) = D.data.map (·.map P.round4) := by
    conv_rhs => rw [← hfst]
    rw [List.map_map]; rfl
  rw [e1, hsnd] at hloop
  rw [join_newline _ (by simp [hne])]
  have hlines := linesOf_unlines _ [] hno
  rw [List.append_nil] at hlines
  have hn : linesOf [] = [] := rfl
  rw [hn, List.append_nil] at hlines
  unfold parseLibSVM
  rw [hlines]
  by_cases hk : D.keys.length = l
  · rw [if_pos hk]
    simp only [hk, decide_true, List.singleton_append, nls_cons, parse_svmHead D.keys h.words, bind, Except.bind, hloop]
    rfl
  · rw [if_neg hk]
    have hk0 : D.keys = [] := by rcases h.keys with h | h; exact h; exact absurd h hk
    rw [decide_eq_false hk]
    simp only [List.nil_append, bind, Except.bind, hloop, hk0]
    rfl

/-- **C42, what is read back of `LibSVM()`**: everything but the last row. Missing for C42: the last row
(`C42_violated`). -/
theorem C42_read_back_partial (P : FText F) (D : DataBunch F) (l : Nat) (h : IsTable D l)
    (hfin : ∀ row ∈ D.data, ∀ x ∈ row, Finite x) :
    ∃ text, D.libSVM P = .ok text ∧ parseLibSVM P text false (decide (D.keys.length = l)) =
      .ok (some ⟨D.data.dropLast.map (·.map P.round4), D.keys, D.labels.dropLast, []⟩) := by
  refine ⟨_, libSVM_eq P h, ?_⟩
  obtain ⟨hne, hfst, hsnd⟩ := h.pairs
  have hrows : ∀ p ∈ D.data.zip D.labels, (∀ x ∈ p.1, Finite x) ∧ IsInt64 p.2 := fun p hp =>
    ⟨hfin p.1 (List.of_mem_zip hp).1, h.labels p.2 (List.of_mem_zip hp).2⟩
  have hno : ∀ s ∈ (if D.keys.length = l then [svmHead D.keys] else []) ++
      (D.data.zip D.labels).map fun p => svmRow P l p.1 p.2, '\n' ∉ s := by
    intro s hs
    rw [List.mem_append, List.mem_map] at hs
    rcases hs with hs | ⟨p, hp, rfl⟩
    · split at hs
      · rw [List.mem_singleton] at hs
        subst hs
        exact svmHead_line D.keys h.words
      · cases hs
    · exact svmRow_line P l _ _ (hrows p hp).1
  have hloop := svmLoop_rows P l (D.data.zip D.labels).dropLast
    (fun p hp => hrows p (List.mem_of_mem_dropLast hp))
  have e1 : (D.data.zip D.labels).dropLast.map (fun p => p.1.map P.round4) = D.data.dropLast.map (·.map P.round4) := by
    rw [List.map_dropLast, List.map_dropLast]
    congr 1
    conv_rhs => rw [← hfst]
    rw [List.map_map]; rfl
  have e2 : (D.data.zip D.labels).dropLast.map (·.2) = D.labels.dropLast := by rw [List.map_dropLast, hsnd]
  rw [e1, e2] at hloop
  have hlines := linesOf_join _ hno
  have hd : ((if D.keys.length = l then [svmHead D.keys] else []) ++
      (D.data.zip D.labels).map fun p => svmRow P l p.1 p.2).dropLast =
      (if D.keys.length = l then [svmHead D.keys] else []) ++
      (D.data.zip D.labels).dropLast.map fun p => svmRow P l p.1 p.2 := by
    rw [List.dropLast_append_of_ne_nil (by simp only [ne_eq, List.map_eq_nil_iff]; exact hne), List.map_dropLast]
  rw [hd] at hlines
  unfold parseLibSVM
  rw [hlines]
  by_cases hk : D.keys.length = l
  · rw [if_pos hk]
    simp only [hk, decide_true, List.singleton_append, nls_cons, parse_svmHead D.keys h.words, bind, Except.bind, hloop]
    rfl
  · rw [if_neg hk]
    have hk0 : D.keys = [] := by rcases h.keys with h | h; exact h; exact absurd h hk
    rw [decide_eq_false hk]
    simp only [List.nil_append, bind, Except.bind, hloop, hk0]
    rfl

/-- **C42 is violated**: for every data set of finite numbers the last row is lost. -/
theorem C42_violated (P : FText F) (D : DataBunch F) (l : Nat) (h : IsTable D l)
    (hfin : ∀ row ∈ D.data, ∀ x ∈ row, Finite x) :
    ∃ text D', D.libSVM P = .ok text ∧ parseLibSVM P text false (decide (D.keys.length = l)) = .ok (some D') ∧
      D'.data.length + 1 = D.data.length ∧ D'.labels.length + 1 = D.labels.length := by
  obtain ⟨text, h1, h2⟩ := C42_read_back_partial P D l h hfin
  refine ⟨text, _, h1, h2, ?_, ?_⟩
  · have := List.length_pos_iff.2 h.nonempty
    simp; omega
  · have := List.length_pos_iff.2 h.nonempty
    have := h.labelled
    simp; omega

/-- an empty data set panics when it is written -/
theorem C42_empty_panics (P : FText F) (D : DataBunch F) (h : D.data = []) (sep : List Char) :
    D.libSVM P = .error .index ∧ D.csv P sep = .error .index := by
  unfold DataBunch.libSVM DataBunch.csv
  rw [h]
  exact ⟨rfl, rfl⟩

/-! ### C43 -/

/-- A separator that does not occur in numbers or in the word "Labels". -/
def GoodSep (sep : Char) : Prop :=
  sep ∉ numChars ∧ sep ∉ "Labels".toList ∧ sep ≠ '"' ∧ sep ≠ '\n' ∧ sep ≠ '\r' ∧ sep.toNat ≠ 0 ∧ sep.toNat ≠ 0xFFFD

theorem goodSep_comma : GoodSep ',' := by unfold GoodSep; decide

theorem csvValues_map (P : FText F) (fs : List (Nat × List Char)) (v : List F)
    (h : List.Forall₂ (fun (f : Nat × List Char) x => P.parse f.2 = some (P.round4 x)) fs v) :
    csvValues P (fs.map (·.2)) = some (v.map P.round4) := by
  induction h with
  | nil => rfl
  | cons h1 _ ih => simp [csvValues, h1, ih]

/-- **C43**: what `CSV(sep)` writes for a data set, with keys or without, is read back, the numbers rounded to 4
decimals, whatever the numbers (also NaN and infinities). Keys are words that do not contain the separator. -/
theorem C43_round_trip (P : FText F) (D : DataBunch F) (l : Nat) (h : IsTable D l) (sep : Char) (hs : GoodSep sep)
    (hkeys : ∀ k ∈ D.keys, k ≠ [] ∧ sep ∉ k) :
    ∃ text, D.csv P [sep] = .ok text ∧ parseCSV P text false (decide (D.keys.length = l)) true sep =
      .ok (some ⟨D.data.map (·.map P.round4), D.keys, D.labels, []⟩) := by
  obtain ⟨hs1, hs2, hs3, hs4, hs5, hs6, hs7⟩ := hs
  obtain ⟨d0, h1, h2⟩ := h.head
  obtain ⟨hne, hfst, hsnd⟩ := h.pairs
  have numField : ∀ w : List Char, w ≠ [] → (∀ c ∈ w, c ∈ numChars) → PlainField sep w := by
    intro w hw hc
    refine ⟨hw, fun c hcw => ⟨?_, (numChar_plain (hc c hcw)).2.2, (numChar_plain (hc c hcw)).1⟩⟩
    rintro rfl
    exact hs1 (hc _ hcw)
  -- every value as padding and field
  have hval : ∀ v : List F, ∃ fs : List (Nat × List Char), v.map P.fmt4 = fs.map (fun f => List.replicate f.1 ' ' ++ f.2) ∧
      (∀ f ∈ fs, PlainField sep f.2) ∧
      List.Forall₂ (fun (f : Nat × List Char) x => P.parse f.2 = some (P.round4 x)) fs v := by
    intro v
    induction v with
    | nil => exact ⟨[], rfl, by simp, List.Forall₂.nil⟩
    | cons x v ih =>
      obtain ⟨fs, a, b, c⟩ := ih
      obtain ⟨n, core, q1, q2, q3, q4, _⟩ := P.law x
      refine ⟨(n, core) :: fs, by simp [q1, a], ?_, List.Forall₂.cons q4 c⟩
      intro f hf
      rw [List.mem_cons] at hf
      rcases hf with rfl | hf
      · exact numField _ q2 q3
      · exact b f hf
  -- every row as a line
  have hlines : ∀ ps : List (List F × Int), (∀ p ∈ ps, IsInt64 p.2 ∧ p.1.length = l) →
      ∃ ls : List (List Char × List (Nat × List Char)),
        ps.map (fun p => strJoin (fmtInt p.2 :: p.1.map P.fmt4) [sep]) = ls.map (csvLine sep) ∧
        (∀ q ∈ ls, PlainField sep q.1 ∧ ∀ f ∈ q.2, PlainField sep f.2) ∧
        (∀ q ∈ ls, q.2.length = l) ∧
        csvLoop P true (ls.map fun q => q.1 :: q.2.map (·.2)) =
          .ok (some (ps.map fun p => p.1.map P.round4, ps.map (·.2))) := by
    intro ps
    induction ps with
    | nil => intro _; exact ⟨[], rfl, by simp, by simp, rfl⟩
    | cons p ps ih =>
      intro hp
      obtain ⟨ls, a, b, c, d⟩ := ih fun q hq => hp q (by simp [hq])
      obtain ⟨fs, q1, q2, q3⟩ := hval p.1
      have hl := hp p (by simp)
      refine ⟨(fmtInt p.2, fs) :: ls, ?_, ?_, ?_, ?_⟩
      · rw [List.map_cons, List.map_cons, a, q1]
        rfl
      · intro q hq
        rw [List.mem_cons] at hq
        rcases hq with rfl | hq
        · exact ⟨numField _ (fmtInt_ne_nil _) (fmtInt_num _), q2⟩
        · exact b q hq
      · intro q hq
        rw [List.mem_cons] at hq
        rcases hq with rfl | hq
        · rw [q3.length_eq]; exact hl.2
        · exact c q hq
      · simp only [List.map_cons, csvLoop, recordsToData, if_true, atoi_fmtInt _ hl.1, csvValues_map P fs p.1 q3, bind,
          Except.bind, Option.bind, d]
        rfl
  obtain ⟨ls, a, b, c, d⟩ := hlines (D.data.zip D.labels) (fun p hp =>
    ⟨h.labels p.2 (List.of_mem_zip hp).2, h.rect p.1 (List.of_mem_zip hp).1⟩)
  have e1 : (D.data.zip D.labels).map (fun p => p.1.map P.round4) = D.data.map (·.map P.round4) := by
    conv_rhs => rw [← hfst]
    rw [List.map_map]; rfl
  rw [e1, hsnd] at d
  -- all lines
  let hd : List (List Char × List (Nat × List Char)) :=
    if D.keys.length = l then [("Labels".toList, D.keys.map fun k => (0, k))] else []
  have hkw : ∀ k ∈ D.keys, PlainField sep k := by
    intro k hk
    refine ⟨(hkeys k hk).1, fun c hc => ⟨?_, (h.words k hk c hc).2.2, (h.words k hk c hc).1⟩⟩
    rintro rfl
    exact (hkeys k hk).2 hc
  have hlab : PlainField sep "Labels".toList := by
    refine ⟨by decide, fun c hc => ⟨?_, ?_⟩⟩
    · rintro rfl; exact hs2 hc
    · have : ∀ c ∈ "Labels".toList, c ≠ '"' ∧ isSpace c = false := by decide
      exact this c hc
  have hall : ∀ q ∈ hd ++ ls, PlainField sep q.1 ∧ ∀ f ∈ q.2, PlainField sep f.2 := by
    intro q hq
    rw [List.mem_append] at hq
    rcases hq with hq | hq
    · unfold hd at hq
      split at hq
      · rw [List.mem_singleton] at hq
        subst hq
        refine ⟨hlab, fun f hf => ?_⟩
        rw [List.mem_map] at hf
        obtain ⟨k, hk, rfl⟩ := hf
        exact hkw k hk
      · cases hq
    · exact b q hq
  have hlen : ∀ q ∈ hd ++ ls, q.2.length = l := by
    intro q hq
    rw [List.mem_append] at hq
    rcases hq with hq | hq
    · unfold hd at hq
      split at hq
      · rename_i hk
        rw [List.mem_singleton] at hq
        subst hq
        simpa using hk
      · cases hq
    · exact c q hq
  have htext : D.csv P [sep] = .ok (strJoin ((hd ++ ls).map (csvLine sep)) ['\n']) := by
    unfold DataBunch.csv
    rw [h1]
    simp only [bind, Except.bind, h2]
    have := rows_mapM D h.labelled (fun v lab => strJoin (fmtInt lab :: v.map P.fmt4) [sep])
    simp only [bind, Except.bind] at this
    rw [this]
    simp only [pure, Except.pure]
    rw [List.map_append, ← a]
    congr 3
    unfold hd
    split
    · simp [csvLine, Function.comp_def]
    · rfl
  refine ⟨_, htext, ?_⟩
  have hcr : '\r' ∉ strJoin ((hd ++ ls).map (csvLine sep)) ['\n'] := by
    have hfield : ∀ w, PlainField sep w → '\r' ∉ w := by
      intro w hw hm
      have := (hw.2 _ hm).2.2
      revert this; decide
    intro hm
    rcases strJoin_mem hm with hm | ⟨w, hw, hm⟩
    · revert hm; decide
    · rw [List.mem_map] at hw
      obtain ⟨q, hq, rfl⟩ := hw
      unfold csvLine at hm
      rcases strJoin_mem hm with hm | ⟨w, hw, hm⟩
      · rw [List.mem_singleton] at hm; exact hs5 hm.symm
      · rw [List.mem_cons, List.mem_map] at hw
        rcases hw with rfl | ⟨f, hf, rfl⟩
        · exact hfield _ (hall q hq).1 hm
        · rw [List.mem_append] at hm
          rcases hm with hm | hm
          · have := List.eq_of_mem_replicate hm; revert this; decide
          · exact hfield _ ((hall q hq).2 f hf) hm
  have hrec : csvRecords sep (strJoin ((hd ++ ls).map (csvLine sep)) ['\n']) =
      ((hd ++ ls).map fun p => p.1 :: p.2.map (·.2), false) := by
    unfold csvRecords
    rw [if_neg (by tauto), csvNorm_id _ hcr, csv_lines sep hs4 _ hall]
    cases hc : (hd ++ ls) with
    | nil => rfl
    | cons q qs =>
      simp only [List.map_cons]
      refine csvCheck_all _ _ _ ?_
      intro r hr
      have hq := hlen q (by rw [hc]; simp)
      rw [List.mem_cons, List.mem_map] at hr
      rcases hr with rfl | ⟨q', hq', rfl⟩
      · rfl
      · have := hlen q' (by rw [hc]; simp [hq'])
        simp [hq, this]
  unfold parseCSV
  rw [hrec]
  simp only
  by_cases hk : D.keys.length = l
  · have hhd : hd = [("Labels".toList, D.keys.map fun k => (0, k))] := if_pos hk
    have hmap : List.map (fun (p : Nat × List Char) => p.2) (D.keys.map fun k => (0, k)) = D.keys := by
      rw [List.map_map]
      simp [Function.comp_def]
    rw [hhd]
    simp only [hk, decide_true, if_true, List.singleton_append, List.map_cons, csvHeaders, List.length_cons, bind,
      Except.bind, d, hmap]
    rfl
  · have hhd : hd = [] := if_neg hk
    have hk0 : D.keys = [] := by rcases h.keys with h | h; exact h; exact absurd h hk
    rw [hhd]
    rw [decide_eq_false hk]
    simp only [List.nil_append, bind, Except.bind, d, hk0]
    rfl

/-! ### C44 -/

theorem csvRecords_ne (sep : Char) (text : List Char) : ∀ r ∈ (csvRecords sep text).1, r ≠ [] := by
  intro r hr
  unfold csvRecords at hr
  split at hr
  · cases hr
  · split at hr
    · cases hr
    · rename_i heq
      have := csvCheck_mem _ _ _ r hr
      refine csvScan_ne sep (csvNorm text) .bol [] [] r ?_
      rw [heq]
      exact this

theorem csvLoop_total (P : FText F) (hasLabels : Bool) (recs : List (List (List Char))) (h : ∀ r ∈ recs, r ≠ []) :
    ∃ o, csvLoop P hasLabels recs = .ok o := by
  induction recs with
  | nil => exact ⟨_, rfl⟩
  | cons r rs ih =>
    obtain ⟨o, ho⟩ := ih fun s hs => h s (by simp [hs])
    obtain ⟨c, cs, rfl⟩ := List.exists_cons_of_ne_nil (h r (by simp))
    obtain ⟨q, hq⟩ : ∃ q, recordsToData P (c :: cs) hasLabels = .ok q := by
      unfold recordsToData
      split <;> exact ⟨_, rfl⟩
    unfold csvLoop
    rw [hq, ho]
    cases q with
    | none => exact ⟨_, rfl⟩
    | some p => cases o <;> exact ⟨_, rfl⟩

/-- **C44 (CSV)**: `ParseCSVFromReader` never panics, whatever the text, the separator and the flags. -/
theorem C44_csv_partial (P : FText F) (text : List Char) (readErr hasHeader hasLabels : Bool) (sep : Char) :
    ∃ o, parseCSV P text readErr hasHeader hasLabels sep = .ok o := by
  have hne := csvRecords_ne sep text
  unfold parseCSV
  generalize csvRecords sep text = R at hne ⊢
  obtain ⟨recs, bad⟩ := R
  simp only at hne ⊢
  split
  · cases recs with
    | nil => exact ⟨_, rfl⟩
    | cons r rs =>
      obtain ⟨o, ho⟩ := csvLoop_total P hasLabels rs fun s hs => hne s (by simp [hs])
      obtain ⟨c, cs, rfl⟩ := List.exists_cons_of_ne_nil (hne r (by simp))
      have : csvHeaders (c :: cs) hasLabels = .ok ((c :: cs).drop (if hasLabels then 1 else 0)) := by
        unfold csvHeaders
        simp only
        rw [if_pos (by cases hasLabels <;> simp)]
      simp only [this, bind, Except.bind, ho]
      exact ⟨_, rfl⟩
  · obtain ⟨o, ho⟩ := csvLoop_total P hasLabels recs hne
    simp only [bind, Except.bind, ho]
    exact ⟨_, rfl⟩

/-- the line has a character that is not white space -/
def NotBlank (line : List Char) : Prop := ∃ c ∈ line, isSpace c = false

theorem splitBy_mem {p : Char → Bool} {s : List Char} {c : Char} (hc : c ∈ s) (hp : p c = false) :
    ∃ w ∈ splitBy p s, w ≠ [] := by
  induction s with
  | nil => cases hc
  | cons d s ih =>
    unfold splitBy
    by_cases hd : p d = true
    · rw [if_pos hd]
      rw [List.mem_cons] at hc
      rcases hc with rfl | hc
      · rw [hp] at hd; cases hd
      · obtain ⟨w, hw, hne⟩ := ih hc
        exact ⟨w, by simp [hw], hne⟩
    · rw [if_neg hd]
      split
      · exact ⟨[d], by simp, by simp⟩
      · exact ⟨_, List.mem_cons_self, by simp⟩

theorem strFields_ne {line : List Char} (h : NotBlank line) : strFields line ≠ [] := by
  obtain ⟨c, hc, hp⟩ := h
  obtain ⟨w, hw, hne⟩ := splitBy_mem hc hp
  intro e
  unfold strFields at e
  rw [List.filter_eq_nil_iff] at e
  have := e w hw
  simp [hne] at this

theorem svmLoop_total (P : FText F) (lines : List (List Char)) (h : ∀ l ∈ lines, NotBlank l) :
    ∃ o, svmLoop P lines = .ok o := by
  induction lines with
  | nil => exact ⟨_, rfl⟩
  | cons l ls ih =>
    obtain ⟨o, ho⟩ := ih fun s hs => h s (by simp [hs])
    obtain ⟨q, hq⟩ : ∃ q, parseLibSVMLine P l = .ok q := by
      unfold parseLibSVMLine
      obtain ⟨f, fs, hf⟩ := List.exists_cons_of_ne_nil (strFields_ne (h l (by simp)))
      rw [hf]
      exact ⟨_, rfl⟩
    unfold svmLoop
    rw [hq, ho]
    cases q with
    | none => exact ⟨_, rfl⟩
    | some p => cases o <;> exact ⟨_, rfl⟩

/-- **C44 (libSVM), partial**: `ParseLibSVMFromReader` does not panic when no complete line is blank.
Missing: blank lines (`C44_violated`). -/
theorem C44_libsvm_partial (P : FText F) (text : List Char) (readErr hasHeader : Bool)
    (h : ∀ l ∈ linesOf text, NotBlank l) : ∃ o, parseLibSVM P text readErr hasHeader = .ok o := by
  unfold parseLibSVM
  split
  · rename_i line lines heq
    rw [heq] at h
    obtain ⟨o, ho⟩ := svmLoop_total P lines fun s hs => h s (by simp [hs])
    obtain ⟨q, hq⟩ : ∃ q, parseLibSVMHeader line = .ok q := by
      unfold parseLibSVMHeader
      obtain ⟨f, fs, hf⟩ := List.exists_cons_of_ne_nil (strFields_ne (h line (by simp)))
      rw [hf]
      exact ⟨_, rfl⟩
    simp only [hq, bind, Except.bind]
    cases q with
    | none => exact ⟨_, rfl⟩
    | some hs =>
      simp only [ho]
      exact ⟨_, rfl⟩
  · obtain ⟨o, ho⟩ := svmLoop_total P _ h
    simp only [bind, Except.bind, ho]
    exact ⟨_, rfl⟩

/-- **C44 is violated** by `ParseLibSVMFromReader`: a blank line after any number of good lines panics; so does a blank
header. -/
theorem C44_violated (P : FText F) (ps : List (List F × Int)) (h : ∀ p ∈ ps, (∀ x ∈ p.1, Finite x) ∧ IsInt64 p.2)
    (l : Nat) (rest : List Char) (readErr : Bool) :
    parseLibSVM P (unlines ((ps.map fun p => svmRow P l p.1 p.2) ++ [[]]) ++ rest) readErr false = .error .index ∧
    parseLibSVM P ('\n' :: rest) readErr true = .error .slice := by
  constructor
  · unfold parseLibSVM
    simp only
    rw [linesOf_unlines _ _ (by
      intro s hs
      rw [List.mem_append, List.mem_map] at hs
      rcases hs with ⟨p, hp, rfl⟩ | hs
      · exact svmRow_line P l _ _ (h p hp).1
      · rw [List.mem_singleton] at hs; subst hs; simp)]
    have : ∀ tail, svmLoop P (nls (ps.map fun p => svmRow P l p.1 p.2) ++ (['\n'] :: tail)) = .error .index := by
      intro tail
      induction ps with
      | nil => rfl
      | cons p ps ih =>
        rw [List.map_cons, nls_cons, List.cons_append, svmLoop, parse_svmRow P l _ _ (h p (by simp)).1 (h p (by simp)).2]
        simp only [bind, Except.bind]
        rw [ih fun q hq => h q (by simp [hq])]
    rw [nls_append, List.append_assoc]
    simp only [nls_cons, nls_nil, List.nil_append, List.cons_append]
    rw [this]
    rfl
  · unfold parseLibSVM
    have hl : linesOf ('\n' :: rest) = ['\n'] :: linesOf rest := by
      have := linesOf_line [] rest (by simp)
      simpa using this
    rw [hl]
    rfl

/-! ### C45 -/

/-- The line is a label and values, each the part after the colon of a word with one colon. -/
def IsSVMLine (P : FText F) (line : List Char) (lab : Int) (row : List F) : Prop :=
  ∃ f fs, strFields line = f :: fs ∧ atoi f = some lab ∧ List.Forall₂ (fun w x => ∃ a b, w = a ++ ':' :: b ∧ ':' ∉ a ∧
    ':' ∉ b ∧ P.parse b = some x) fs row

theorem splitColon_two {v a b : List Char} (h : splitColon v = [a, b]) : v = a ++ ':' :: b ∧ ':' ∉ a ∧ ':' ∉ b := by
  unfold splitColon at h
  have one : ∀ (v a : List Char), splitBy (· == ':') v = [a] → v = a ∧ ':' ∉ a := by
    intro v
    induction v with
    | nil => intro a h; simp [splitBy] at h; subst h; simp
    | cons c v ih =>
      intro a h
      unfold splitBy at h
      split at h
      · simp only [List.cons.injEq] at h
        exact absurd h.2 (splitBy_ne_nil _ _)
      · rename_i hc
        obtain ⟨w, ws, hw⟩ := List.exists_cons_of_ne_nil (splitBy_ne_nil (· == ':') v)
        rw [hw] at h
        simp only [List.cons.injEq] at h
        obtain ⟨rfl, rfl⟩ := h
        obtain ⟨rfl, h2⟩ := ih w hw
        refine ⟨rfl, ?_⟩
        simp only [List.mem_cons, not_or]
        exact ⟨fun e => hc (by simp [← e]), h2⟩
  induction v generalizing a with
  | nil => simp [splitBy] at h
  | cons c v ih =>
    unfold splitBy at h
    split at h
    · rename_i hc
      simp only [List.cons.injEq] at h
      obtain ⟨rfl, h⟩ := h
      obtain ⟨rfl, h2⟩ := one v b h
      have : c = ':' := by simpa using hc
      subst this
      exact ⟨rfl, by simp, h2⟩
    · rename_i hc
      obtain ⟨w, ws, hw⟩ := List.exists_cons_of_ne_nil (splitBy_ne_nil (· == ':') v)
      rw [hw] at h
      simp only [List.cons.injEq] at h
      obtain ⟨rfl, rfl⟩ := h
      obtain ⟨rfl, h2, h3⟩ := ih hw
      refine ⟨rfl, ?_, h3⟩
      simp only [List.mem_cons, not_or]
      exact ⟨fun e => hc (by simp [← e]), h2⟩

theorem svmValues_spec (P : FText F) (ws : List (List Char)) (row : List F) (h : svmValues P ws = some row) :
    List.Forall₂ (fun w x => ∃ a b, w = a ++ ':' :: b ∧ ':' ∉ a ∧ ':' ∉ b ∧ P.parse b = some x) ws row := by
  induction ws generalizing row with
  | nil => simp [svmValues] at h; subst h; exact List.Forall₂.nil
  | cons w ws ih =>
    unfold svmValues at h
    split at h
    · rename_i a b hs
      split at h
      · cases h
      · rename_i val hv
        rw [Option.map_eq_some_iff] at h
        obtain ⟨r, hr, rfl⟩ := h
        obtain ⟨h1, h2, h3⟩ := splitColon_two hs
        exact List.Forall₂.cons ⟨a, b, h1, h2, h3, hv⟩ (ih r hr)
    · cases h

theorem svmLoop_spec (P : FText F) (lines : List (List Char)) (data : List (List F)) (labels : List Int)
    (h : svmLoop P lines = .ok (some (data, labels))) :
    data.length = lines.length ∧ labels.length = lines.length ∧
    ∀ (i : Nat) line, lines[i]? = some line → ∃ lab row, labels[i]? = some lab ∧ data[i]? = some row ∧
      IsSVMLine P line lab row := by
  induction lines generalizing data labels with
  | nil =>
    simp only [svmLoop, Except.ok.injEq, Option.some.injEq, Prod.mk.injEq] at h
    obtain ⟨rfl, rfl⟩ := h
    simp
  | cons l ls ih =>
    unfold svmLoop at h
    obtain ⟨o, ho, h⟩ := bind_ok h
    cases o with
    | none => simp [pure, Except.pure] at h
    | some p =>
      obtain ⟨lab, row⟩ := p
      simp only at h
      obtain ⟨o2, ho2, h⟩ := bind_ok h
      cases o2 with
      | none => simp [pure, Except.pure] at h
      | some q =>
        obtain ⟨data', labels'⟩ := q
        simp only [pure, Except.pure, Except.ok.injEq, Option.some.injEq, Prod.mk.injEq] at h
        obtain ⟨rfl, rfl⟩ := h
        obtain ⟨h1, h2, h3⟩ := ih _ _ ho2
        refine ⟨by simp [h1], by simp [h2], ?_⟩
        intro i line hi
        cases i with
        | zero =>
          simp only [List.getElem?_cons_zero, Option.some.injEq] at hi ⊢
          subst hi
          refine ⟨lab, row, rfl, rfl, ?_⟩
          unfold parseLibSVMLine at ho
          split at ho
          · cases ho
          · rename_i f fs hf
            simp only [Except.ok.injEq, Option.bind_eq_bind, Option.bind_eq_some_iff, Option.pure_def,
              Option.some.injEq, Prod.mk.injEq] at ho
            obtain ⟨cl, hc, vs, hv, rfl, rfl⟩ := ho
            exact ⟨f, fs, hf, hc, svmValues_spec P fs vs hv⟩
        | succ i =>
          simp only [List.getElem?_cons_succ] at hi ⊢
          exact h3 i line hi

/-- **C45 (libSVM)**: when a text is read successfully, there is one label and one row per complete line after the
header, in order, with the label and values of that line. -/
theorem C45_libsvm (P : FText F) (text : List Char) (readErr hasHeader : Bool) (D : DataBunch F)
    (h : parseLibSVM P text readErr hasHeader = .ok (some D)) :
    let lines := (linesOf text).drop (if hasHeader then 1 else 0)
    D.data.length = lines.length ∧ D.labels.length = lines.length ∧
    ∀ (i : Nat) line, lines[i]? = some line → ∃ lab row, D.labels[i]? = some lab ∧ D.data[i]? = some row ∧
      IsSVMLine P line lab row := by
  have fin' : ∀ headers (o : Option (List (List F) × List Int)), finishData (readErr) headers o = some D →
      ∃ data labels, o = some (data, labels) ∧ D.data = data ∧ D.labels = labels := by
    intro headers o ho
    cases o with
    | none => cases ho
    | some p =>
      obtain ⟨data, labels⟩ := p
      unfold finishData at ho
      simp only at ho
      split at ho
      · cases ho
      · cases ho
        exact ⟨_, _, rfl, rfl, rfl⟩
  unfold parseLibSVM at h
  split at h
  · rename_i line lines heq
    rw [heq]
    obtain ⟨o, ho, h⟩ := bind_ok h
    cases o with
    | none => simp [pure, Except.pure] at h
    | some hs =>
      simp only at h
      obtain ⟨o2, ho2, h⟩ := bind_ok h
      obtain ⟨data, labels, rfl, hd, hl⟩ := fin' hs o2 (Except.ok.inj h)
      rw [hd, hl]
      exact svmLoop_spec P lines data labels ho2
  · rename_i heq
    obtain ⟨o2, ho2, h⟩ := bind_ok h
    obtain ⟨data, labels, rfl, hd, hl⟩ := fin' [] o2 (Except.ok.inj h)
    have e : ∀ b : Bool, (∀ line lines, b = true → linesOf text = line :: lines → False) →
        (linesOf text).drop (if b then 1 else 0) = linesOf text := by
      intro b hb
      cases b with
      | false => rfl
      | true =>
        cases hlt : linesOf text with
        | nil => rfl
        | cons a as => exact absurd hlt (hb a as rfl)
    simp only
    rw [hd, hl, e _ heq]
    exact svmLoop_spec P _ data labels ho2

/-- The record is a label and values. -/
def IsCSVRecord (P : FText F) (record : List (List Char)) (lab : Int) (row : List F) : Prop :=
  ∃ f fs, record = f :: fs ∧ atoi f = some lab ∧ List.Forall₂ (fun w x => P.parse w = some x) fs row

theorem csvLoop_spec (P : FText F) (recs : List (List (List Char))) (data : List (List F)) (labels : List Int)
    (h : csvLoop P true recs = .ok (some (data, labels))) :
    data.length = recs.length ∧ labels.length = recs.length ∧
    ∀ (i : Nat) r, recs[i]? = some r → ∃ lab row, labels[i]? = some lab ∧ data[i]? = some row ∧
      IsCSVRecord P r lab row := by
  induction recs generalizing data labels with
  | nil =>
    simp only [csvLoop, Except.ok.injEq, Option.some.injEq, Prod.mk.injEq] at h
    obtain ⟨rfl, rfl⟩ := h
    simp
  | cons l ls ih =>
    unfold csvLoop at h
    obtain ⟨o, ho, h⟩ := bind_ok h
    cases o with
    | none => simp [pure, Except.pure] at h
    | some p =>
      obtain ⟨lab, row⟩ := p
      simp only at h
      obtain ⟨o2, ho2, h⟩ := bind_ok h
      cases o2 with
      | none => simp [pure, Except.pure] at h
      | some q =>
        obtain ⟨data', labels'⟩ := q
        simp only [pure, Except.pure, Except.ok.injEq, Option.some.injEq, Prod.mk.injEq, if_true] at h
        obtain ⟨rfl, rfl⟩ := h
        obtain ⟨h1, h2, h3⟩ := ih _ _ ho2
        refine ⟨by simp [h1], by simp [h2], ?_⟩
        intro i line hi
        cases i with
        | zero =>
          simp only [List.getElem?_cons_zero, Option.some.injEq] at hi ⊢
          subst hi
          refine ⟨lab, row, rfl, rfl, ?_⟩
          unfold recordsToData at ho
          rw [if_pos rfl] at ho
          split at ho
          · cases ho
          · rename_i f fs
            simp only [Except.ok.injEq, Option.bind_eq_bind, Option.bind_eq_some_iff, Option.pure_def,
              Option.some.injEq, Prod.mk.injEq] at ho
            obtain ⟨cl, hc, vs, hv, rfl, rfl⟩ := ho
            refine ⟨f, fs, rfl, hc, ?_⟩
            have : ∀ (fs : List (List Char)) (vs : List F), csvValues P fs = some vs →
                List.Forall₂ (fun w x => P.parse w = some x) fs vs := by
              intro fs
              induction fs with
              | nil => intro vs h; simp [csvValues] at h; subst h; exact List.Forall₂.nil
              | cons w ws ih =>
                intro vs h
                unfold csvValues at h
                split at h
                · cases h
                · rename_i val hv
                  rw [Option.map_eq_some_iff] at h
                  obtain ⟨r, hr, rfl⟩ := h
                  exact List.Forall₂.cons hv (ih r hr)
            exact this fs vs hv
        | succ i =>
          simp only [List.getElem?_cons_succ] at hi ⊢
          exact h3 i line hi

/-- **C45 (CSV)**: when a text is read successfully with labels, there is one label and one row per record after the
header, in order, with the label and values of that record, all rows have the same length, and there are as many keys as
values if there is a header. -/
theorem C45_csv (P : FText F) (text : List Char) (readErr hasHeader : Bool) (sep : Char) (D : DataBunch F)
    (h : parseCSV P text readErr hasHeader true sep = .ok (some D)) :
    let recs := (csvRecords sep text).1.drop (if hasHeader then 1 else 0)
    (csvRecords sep text).2 = false ∧ D.data.length = recs.length ∧ D.labels.length = recs.length ∧
    (∀ (i : Nat) r, recs[i]? = some r → ∃ lab row, D.labels[i]? = some lab ∧ D.data[i]? = some row ∧
      IsCSVRecord P r lab row) ∧
    (∀ row ∈ D.data, ∀ row' ∈ D.data, row.length = row'.length) ∧
    (hasHeader = true → ∀ row ∈ D.data, row.length = D.keys.length) := by
  have hlen : ∃ n, ∀ r ∈ (csvRecords sep text).1, r.length = n := by
    unfold csvRecords
    split
    · exact ⟨0, by simp⟩
    · split
      · exact ⟨0, by simp⟩
      · exact ⟨_, csvCheck_len _ _ _⟩
  obtain ⟨n, hlen⟩ := hlen
  unfold parseCSV at h
  generalize csvRecords sep text = R at h hlen ⊢
  obtain ⟨recs, bad⟩ := R
  simp only at h hlen ⊢
  have fin' : ∀ headers (o : Option (List (List F) × List Int)), finishData (bad || readErr) headers o = some D →
      ∃ data labels, o = some (data, labels) ∧ D.data = data ∧ D.labels = labels ∧ D.keys = headers ∧ bad = false := by
    intro headers o ho
    cases o with
    | none => cases ho
    | some p =>
      obtain ⟨data, labels⟩ := p
      unfold finishData at ho
      simp only at ho
      split at ho
      · cases ho
      · rename_i hb
        cases ho
        refine ⟨_, _, rfl, rfl, rfl, rfl, ?_⟩
        cases bad <;> simp_all
  have rowlen : ∀ (rs : List (List (List Char))) (data : List (List F)) (labels : List Int), (∀ r ∈ rs, r.length = n) →
      data.length = rs.length → (∀ (i : Nat) r, rs[i]? = some r → ∃ lab row, labels[i]? = some lab ∧
        data[i]? = some row ∧ IsCSVRecord P r lab row) → ∀ row ∈ data, row.length + 1 = n := by
    intro rs data labels hr hl hs row hrow
    obtain ⟨i, hi⟩ := List.mem_iff_getElem?.1 hrow
    have hlt : i < rs.length := by
      have := (List.getElem?_eq_some_iff.1 hi).1
      omega
    obtain ⟨lab, row', _, h2, f, fs, h3, _, h5⟩ := hs i rs[i] (List.getElem?_eq_getElem hlt)
    rw [hi] at h2
    cases h2
    have := hr _ (List.getElem_mem hlt)
    rw [h3, List.length_cons, h5.length_eq] at this
    exact this
  split at h
  · rename_i hh
    cases recs with
    | nil => simp [pure, Except.pure] at h
    | cons r rs =>
      obtain ⟨hs, hhs, h⟩ := bind_ok h
      obtain ⟨o2, ho2, h⟩ := bind_ok h
      obtain ⟨data, labels, rfl, hd, hl, hk, hb⟩ := fin' hs o2 (Except.ok.inj h)
      obtain ⟨s1, s2, s3⟩ := csvLoop_spec P rs data labels ho2
      have hrl := rowlen rs data labels (fun r hr => hlen r (by simp [hr])) s1 s3
      rw [hd, hl, hh]
      refine ⟨hb, s1, s2, s3, ?_, ?_⟩
      · intro a ha b hb
        have := hrl a ha
        have := hrl b hb
        omega
      · intro _ row hrow
        have h1 := hrl row hrow
        have h2 := hlen r (by simp)
        unfold csvHeaders at hhs
        simp only [if_true] at hhs
        split at hhs
        · cases hhs
          rw [hk]
          simp
          omega
        · cases hhs
  · rename_i hh
    obtain ⟨o2, ho2, h⟩ := bind_ok h
    obtain ⟨data, labels, rfl, hd, hl, hk, hb⟩ := fin' [] o2 (Except.ok.inj h)
    obtain ⟨s1, s2, s3⟩ := csvLoop_spec P recs data labels ho2
    have hrl := rowlen recs data labels hlen s1 s3
    have hf : hasHeader = false := by simpa using hh
    rw [hd, hl, hf]
    refine ⟨hb, s1, s2, s3, ?_, fun e => absurd e (by simp)⟩
    intro a ha b hb
    have := hrl a ha
    have := hrl b hb
    omega

/-! Non-vacuity: a table with keys, negative labels and numbers that need rounding. -/

/-- three rows, two columns -/
def tbl : DataBunch F64 :=
  ⟨[[.fin (1 / 3), .fin (-2)], [.fin 0, .fin 1000], [.fin (-1 / 8), .fin (1 / 2 ^ 20)]], ["len".toList, "width".toList],
    [-1, 0, 12], []⟩

theorem tbl_ok : IsTable tbl 2 where
  nonempty := by simp [tbl]
  rect := by simp [tbl]
  labelled := rfl
  labels := by unfold IsInt64; simp [tbl]
  keys := Or.inr rfl
  words := by
    intro k hk
    simp only [tbl, List.mem_cons, List.not_mem_nil, or_false] at hk
    unfold PlainWord
    rcases hk with rfl | rfl <;> decide

theorem tbl_finite : ∀ row ∈ tbl.data, ∀ x ∈ row, Finite x := by
  unfold Finite
  decide +kernel

example : tbl.csv (decText b64) [','] =
    .ok "Labels,len,width\n-1,0.3333,-2.0000\n0,0.0000,1000.0000\n12,-0.1250,0.0000".toList := by
  decide +kernel

example : ∃ text, tbl.csv (decText b64) [','] = .ok text ∧ parseCSV (decText b64) text false true true ',' =
    .ok (some ⟨tbl.data.map (·.map (decText b64).round4), tbl.keys, tbl.labels, []⟩) :=
  C43_round_trip (decText b64) tbl 2 tbl_ok ',' goodSep_comma (by decide)

example := C42_violated (decText b64) tbl 2 tbl_ok tbl_finite

example : ∀ l ∈ linesOf "1 1:2.0\n".toList, NotBlank l := by
  have : linesOf "1 1:2.0\n".toList = ["1 1:2.0\n".toList] := by decide
  rw [this]
  simp only [List.mem_singleton, forall_eq, NotBlank]
  exact ⟨'1', by decide, by decide⟩

end Boo
