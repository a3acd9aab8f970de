import Verif.Model.TextData
import Verif.Lemmas.Text
import Verif.Lemmas.Train
import Mathlib.Tactic.IntervalCases

/-! # Lemmas on the text formats -/

namespace Boo
open GoFloat
set_option linter.unusedSectionVars false
variable {F : Type} [GoFloat F]

/-! ### words -/

theorem splitBy_ne_nil (p : Char → Bool) (a : List Char) : splitBy p a ≠ [] := by
  induction a with
  | nil => simp [splitBy]
  | cons c a ih =>
    unfold splitBy
    split
    · simp
    · split <;> simp

theorem splitBy_append (p : Char → Bool) (a : List Char) (c : Char) (b : List Char) (h : p c = true) :
    splitBy p (a ++ c :: b) = splitBy p a ++ splitBy p b := by
  induction a with
  | nil => simp [splitBy, h]
  | cons d a ih =>
    rw [List.cons_append, splitBy, splitBy, ih]
    split
    · rfl
    · obtain ⟨w, ws, hw⟩ := List.exists_cons_of_ne_nil (splitBy_ne_nil p a)
      rw [hw]
      rfl

theorem splitBy_none (p : Char → Bool) (a : List Char) (h : ∀ c ∈ a, p c = false) : splitBy p a = [a] := by
  induction a with
  | nil => rfl
  | cons d a ih =>
    rw [splitBy, ih fun c hc => h c (by simp [hc]), h d (by simp)]
    simp

theorem strFields_append (a : List Char) (c : Char) (b : List Char) (h : isSpace c = true) :
    strFields (a ++ c :: b) = strFields a ++ strFields b := by
  unfold strFields
  rw [splitBy_append _ _ _ _ h, List.filter_append]

theorem strFields_nil : strFields [] = [] := rfl

theorem strFields_word (w : List Char) (hne : w ≠ []) (h : ∀ c ∈ w, isSpace c = false) : strFields w = [w] := by
  unfold strFields
  rw [splitBy_none _ _ h]
  simp [hne]

theorem strFields_pad (n : Nat) (w : List Char) : strFields (List.replicate n ' ' ++ w) = strFields w := by
  induction n with
  | zero => rfl
  | succ n ih =>
    rw [List.replicate_succ, List.cons_append]
    have := strFields_append [] ' ' (List.replicate n ' ' ++ w) (by decide)
    rw [List.nil_append, strFields_nil, List.nil_append] at this
    rw [this, ih]

theorem strJoin_cons_cons (a b : List Char) (ws : List (List Char)) (sep : List Char) :
    strJoin (a :: b :: ws) sep = a ++ sep ++ strJoin (b :: ws) sep := by
  simp [strJoin, List.intercalate, List.intersperse]

theorem strJoin_single (a : List Char) (sep : List Char) : strJoin [a] sep = a := by
  simp [strJoin, List.intercalate]

theorem strFields_join (ws : List (List Char)) : strFields (strJoin ws [' ']) = ws.flatMap strFields := by
  induction ws with
  | nil => rfl
  | cons w ws ih =>
    cases ws with
    | nil => simp [strJoin_single]
    | cons v ws =>
      rw [strJoin_cons_cons, List.append_assoc, List.singleton_append, strFields_append _ _ _ (by decide), ih]
      simp

theorem strJoin_mem {ws : List (List Char)} {sep : List Char} {c : Char} (h : c ∈ strJoin ws sep) :
    c ∈ sep ∨ ∃ w ∈ ws, c ∈ w := by
  induction ws with
  | nil => simp [strJoin, List.intercalate] at h
  | cons w ws ih =>
    cases ws with
    | nil => rw [strJoin_single] at h; exact Or.inr ⟨w, by simp, h⟩
    | cons v ws =>
      rw [strJoin_cons_cons, List.mem_append, List.mem_append] at h
      rcases h with (h | h) | h
      · exact Or.inr ⟨w, by simp, h⟩
      · exact Or.inl h
      · rcases ih h with h | ⟨u, hu, hc⟩
        · exact Or.inl h
        · exact Or.inr ⟨u, by simp [hu], hc⟩

/-! ### numbers -/

theorem isDigit_plain {c : Char} (h : c.isDigit = true) : isSpace c = false ∧ c ≠ ':' ∧ c ≠ '"' ∧ c ∈ numChars := by
  have h1 : 48 ≤ c.toNat ∧ c.toNat ≤ 57 := by
    unfold Char.isDigit at h
    simp only [Bool.and_eq_true, decide_eq_true_eq] at h
    exact ⟨h.1, h.2⟩
  have h2 : c = Char.ofNat c.toNat := (Char.ofNat_toNat c).symm
  have h3 : ∀ n, 48 ≤ n → n ≤ 57 → isSpace (Char.ofNat n) = false ∧ Char.ofNat n ≠ ':' ∧ Char.ofNat n ≠ '"' ∧
      Char.ofNat n ∈ numChars := by
    intro n a b
    interval_cases n <;> decide
  rw [h2]
  exact h3 _ h1.1 h1.2

theorem numChar_plain {c : Char} (h : c ∈ numChars) : isSpace c = false ∧ c ≠ ':' ∧ c ≠ '"' := by
  have : ∀ c ∈ numChars, isSpace c = false ∧ c ≠ ':' ∧ c ≠ '"' := by decide
  exact this c h

theorem fmtNat_eq (n : Nat) : fmtNat n = Nat.toDigits 10 n := by
  show (Nat.repr n).toList = _
  simp [Nat.repr]

theorem fmtInt_num (n : Int) : ∀ c ∈ fmtInt n, c ∈ numChars := by
  intro c hc
  rcases fmtInt_chars n c hc with h | rfl
  · exact (isDigit_plain h).2.2.2
  · decide

theorem fmtInt_nat (n : Nat) : fmtInt (Int.ofNat n) = fmtNat n := rfl

theorem fmtInt_neg (n : Nat) : fmtInt (Int.negSucc n) = '-' :: fmtNat (n + 1) := by
  show (Int.repr (Int.negSucc n)).toList = _
  simp [Int.repr, fmtNat]

theorem fmtNat_ne_nil (n : Nat) : fmtNat n ≠ [] := by rw [fmtNat_eq]; exact Nat.toDigits_ne_nil

theorem fmtInt_ne_nil (n : Int) : fmtInt n ≠ [] := by
  cases n with
  | ofNat n => rw [fmtInt_nat]; exact fmtNat_ne_nil n
  | negSucc n => rw [fmtInt_neg]; simp

/-- the values of a 64-bit Go `int` -/
def IsInt64 (n : Int) : Prop := -2 ^ 63 ≤ n ∧ n < 2 ^ 63

theorem atoi_fmtInt (n : Int) (h : IsInt64 n) : atoi (fmtInt n) = some n := by
  unfold IsInt64 at h
  cases n with
  | ofNat n =>
    rw [fmtInt_nat]
    have hne := fmtNat_ne_nil n
    have hd := fmtNat_digits n
    obtain ⟨c, cs, hc⟩ := List.exists_cons_of_ne_nil hne
    have hcd := hd c (by rw [hc]; simp)
    have hall : (fmtNat n).all Char.isDigit = true := by simpa using hd
    have hv : (Nat.ofDigitChars 10 (fmtNat n) 0) = n := by rw [fmtNat_eq, Nat.ofDigitChars_ten_toDigits]
    have h1 : c ≠ '-' := by rintro rfl; revert hcd; decide
    have h2 : c ≠ '+' := by rintro rfl; revert hcd; decide
    unfold atoi
    rw [hc] at hall hv ⊢
    split
    rename_i neg ds heq
    split at heq
    · rename_i e; simp at e; exact absurd e.1 h1
    · rename_i e; simp at e; exact absurd e.1 h2
    · simp only [Prod.mk.injEq] at heq
      obtain ⟨rfl, rfl⟩ := heq
      simp only [List.isEmpty_cons, Bool.false_or, hall, Bool.not_true, Bool.false_eq_true, if_false, hv]
      rw [if_pos (by exact h)]
      rfl
  | negSucc n =>
    rw [fmtInt_neg]
    have hall : (fmtNat (n + 1)).all Char.isDigit = true := by simpa using fmtNat_digits (n + 1)
    have hv : (Nat.ofDigitChars 10 (fmtNat (n + 1)) 0) = n + 1 := by rw [fmtNat_eq, Nat.ofDigitChars_ten_toDigits]
    have he : (fmtNat (n + 1)).isEmpty = false := by simp [fmtNat_ne_nil]
    simp only [atoi, he, hall, hv, Bool.not_true, Bool.or_self, Bool.false_eq_true, if_false, if_true]
    have : -((n + 1 : Nat) : Int) = Int.negSucc n := rfl
    rw [this, if_pos h]

theorem strFields_fmtInt3 (n : Int) : strFields (fmtInt3 n) = [fmtInt n] := by
  unfold fmtInt3 List.leftpad
  rw [strFields_pad, strFields_word _ (fmtInt_ne_nil n) fun c hc => (numChar_plain (fmtInt_num n c hc)).1]

/-! ### lines -/

theorem linesOf_join (ls : List (List Char)) (h : ∀ l ∈ ls, '\n' ∉ l) : linesOf (strJoin ls ['\n']) = nls ls.dropLast := by
  induction ls with
  | nil => rfl
  | cons l ls ih =>
    cases ls with
    | nil => rw [strJoin_single]; exact linesOf_part l (h l (by simp))
    | cons m ls =>
      rw [strJoin_cons_cons, List.append_assoc, List.singleton_append, linesOf_line l _ (h l (by simp)),
        ih fun x hx => h x (by simp [hx])]
      rfl

theorem join_newline (ls : List (List Char)) (hne : ls ≠ []) : strJoin ls ['\n'] ++ ['\n'] = unlines ls := by
  induction ls with
  | nil => exact absurd rfl hne
  | cons l ls ih =>
    cases ls with
    | nil => rw [strJoin_single]; simp [unlines]
    | cons m ls =>
      rw [strJoin_cons_cons, List.append_assoc, ih (by simp)]
      rfl

theorem mapM_map_ok {α β : Type} {l : List α} {f : α → Go β} {h : α → β} (hf : ∀ x ∈ l, f x = .ok (h x)) :
    l.mapM f = .ok (l.map h) := by
  induction l with
  | nil => rfl
  | cons a l ih =>
    rw [List.mapM_cons, hf a (by simp), ih fun x hx => hf x (by simp [hx])]
    rfl

theorem rows_mapM (D : DataBunch F) (hl : D.labels.length = D.data.length) (g : List F → Int → List Char) :
    (D.data.zip (List.range D.data.length)).mapM (fun (v, i) => do
      let lab ← D.ithLabel i
      pure (g v lab)) = (.ok ((D.data.zip D.labels).map fun p => g p.1 p.2) : Go (List (List Char))) := by
  rw [mapM_map_ok (h := fun p => g p.1 (D.labels.getD p.2 0))]
  · congr 1
    apply List.ext_getElem?
    intro i
    simp only [List.getElem?_map]
    by_cases hi : i < D.data.length
    · have hi' : i < D.labels.length := by omega
      have h1 : (D.data.zip (List.range D.data.length))[i]? = some (D.data[i], i) :=
        List.getElem?_zip_eq_some.2 ⟨List.getElem?_eq_getElem hi, by simp [hi]⟩
      have h2 : (D.data.zip D.labels)[i]? = some (D.data[i], D.labels[i]) :=
        List.getElem?_zip_eq_some.2 ⟨List.getElem?_eq_getElem hi, List.getElem?_eq_getElem hi'⟩
      rw [h1, h2]
      simp [List.getD, hi']
    · rw [List.getElem?_eq_none (by simp; omega), List.getElem?_eq_none (by simp; omega)]
      rfl
  · intro p hp
    obtain ⟨v, i⟩ := p
    have hi : i < D.labels.length := by
      have := (List.of_mem_zip hp).2
      simp at this
      omega
    have : D.ithLabel i = .ok D.labels[i] := by
      unfold DataBunch.ithLabel
      rw [if_pos hl]
      exact goIdx_ok.2 (List.getElem?_eq_getElem hi)
    simp [this, List.getD, hi, bind, Except.bind, pure, Except.pure]

/-! ### libSVM lines -/

/-- a word of the kind that a key can be: no white space, colon or quote -/
def PlainWord (w : List Char) : Prop := ∀ c ∈ w, isSpace c = false ∧ c ≠ ':' ∧ c ≠ '"'

/-- the number is finite -/
def Finite (x : F) : Prop := ((x -. x) ==. zero) = true

theorem fmt4_plain (P : FText F) (x : F) (h : Finite x) :
    (∀ c ∈ P.fmt4 x, c ∈ numChars) ∧ P.fmt4 x ≠ [] ∧ P.parse (P.fmt4 x) = some (P.round4 x) := by
  obtain ⟨n, core, h1, h2, h3, h4, h5⟩ := P.law x
  have := h5 h
  subst this
  simp only [List.replicate_zero, List.nil_append] at h1
  rw [h1]
  exact ⟨h3, h2, h4⟩

theorem colonWord (n : Nat) (w : List Char) (h : PlainWord w) :
    strFields (fmtNat n ++ ':' :: w) = [fmtNat n ++ ':' :: w] ∧ splitColon (fmtNat n ++ ':' :: w) = [fmtNat n, w] := by
  constructor
  · apply strFields_word
    · simp
    · intro c hc
      rw [List.mem_append, List.mem_cons] at hc
      rcases hc with hc | rfl | hc
      · exact (isDigit_plain (fmtNat_digits n c hc)).1
      · decide
      · exact (h c hc).1
  · unfold splitColon
    rw [splitBy_append _ _ _ _ (by simp), splitBy_none _ (fmtNat n), splitBy_none _ w]
    · rfl
    · intro c hc; simpa using (h c hc).2.1
    · intro c hc; simpa using (isDigit_plain (fmtNat_digits n c hc)).2.1

theorem svmHeader_words (ks : List (List Char)) (h : ∀ k ∈ ks, PlainWord k) (off : Nat) :
    svmHeader ((ks.mapIdx fun i v => fmtNat (i + off) ++ ':' :: v).flatMap strFields) = some ks := by
  induction ks generalizing off with
  | nil => rfl
  | cons k ks ih =>
    rw [List.mapIdx_cons, List.flatMap_cons, (colonWord _ k (h k (by simp))).1, List.singleton_append, svmHeader,
      (colonWord _ k (h k (by simp))).2]
    simp only
    have e : (fun i v => fmtNat (i + 1 + off) ++ ':' :: v) = (fun i v => fmtNat (i + (1 + off)) ++ ':' :: v) := by
      funext i v; rw [Nat.add_assoc]
    rw [e, ih (fun k hk => h k (by simp [hk])) (1 + off)]
    rfl

theorem svmValues_words (P : FText F) (vs : List F) (h : ∀ v ∈ vs, Finite v) (off : Nat) :
    svmValues P ((vs.mapIdx fun i v => fmtNat (i + off) ++ ':' :: P.fmt4 v).flatMap strFields) =
      some (vs.map P.round4) := by
  induction vs generalizing off with
  | nil => rfl
  | cons k ks ih =>
    have hk := fmt4_plain P k (h k (by simp))
    have hp : PlainWord (P.fmt4 k) := fun c hc => numChar_plain (hk.1 c hc)
    rw [List.mapIdx_cons, List.flatMap_cons, (colonWord _ _ hp).1, List.singleton_append, svmValues,
      (colonWord _ _ hp).2]
    simp only [hk.2.2]
    have e : (fun i v => fmtNat (i + 1 + off) ++ ':' :: P.fmt4 v) =
        (fun i v => fmtNat (i + (1 + off)) ++ ':' :: P.fmt4 v) := by
      funext i v; rw [Nat.add_assoc]
    rw [e, ih (fun k hk => h k (by simp [hk])) (1 + off)]
    rfl

/-- the text of a row -/
def svmRow (P : FText F) (l : Nat) (v : List F) (lab : Int) : List Char :=
  strJoin (fmtInt3 lab :: List.replicate l [] ++ v.mapIdx fun j w => fmtNat (j + 1) ++ ':' :: P.fmt4 w) [' ']

/-- the text of the header -/
def svmHead (keys : List (List Char)) : List Char :=
  strJoin ("Labels".toList :: keys.mapIdx fun i v => fmtNat (i + 1) ++ ':' :: v) [' ']

theorem fields_newline (s : List Char) : strFields (s ++ ['\n']) = strFields s := by
  rw [strFields_append s '\n' [] (by decide), strFields_nil, List.append_nil]

theorem parse_svmRow (P : FText F) (l : Nat) (v : List F) (lab : Int) (hv : ∀ x ∈ v, Finite x) (hl : IsInt64 lab) :
    parseLibSVMLine P (svmRow P l v lab ++ ['\n']) = .ok (some (lab, v.map P.round4)) := by
  unfold parseLibSVMLine
  have hrep : (List.replicate l ([] : List Char)).flatMap strFields = [] := by
    induction l with
    | zero => rfl
    | succ l ih => rw [List.replicate_succ, List.flatMap_cons, ih]; rfl
  rw [fields_newline, svmRow, strFields_join, List.flatMap_append, List.flatMap_cons, strFields_fmtInt3, hrep,
    List.append_nil, List.singleton_append]
  simp only
  rw [svmValues_words P v hv 1, atoi_fmtInt lab hl]
  rfl

theorem parse_svmHead (keys : List (List Char)) (h : ∀ k ∈ keys, PlainWord k) :
    parseLibSVMHeader (svmHead keys ++ ['\n']) = .ok (some keys) := by
  unfold parseLibSVMHeader
  rw [fields_newline, svmHead, strFields_join, List.flatMap_cons,
    strFields_word "Labels".toList (by decide) (by decide), List.singleton_append]
  simp only
  rw [svmHeader_words keys h 1]

theorem svmRow_line (P : FText F) (l : Nat) (v : List F) (lab : Int) (hv : ∀ x ∈ v, Finite x) :
    '\n' ∉ svmRow P l v lab := by
  intro hm
  have hn : ∀ c, c ∈ numChars → c ≠ '\n' := by
    intro c h e; subst e; revert h; decide
  rcases strJoin_mem hm with h | ⟨w, hw, h⟩
  · revert h; decide
  · rw [List.mem_append, List.mem_cons, List.mem_mapIdx] at hw
    rcases hw with (rfl | hw) | ⟨j, hj, rfl⟩
    · unfold fmtInt3 List.leftpad at h
      rw [List.mem_append] at h
      rcases h with h | h
      · have := List.eq_of_mem_replicate h; revert this; decide
      · exact hn _ (fmtInt_num _ _ h) rfl
    · rw [List.eq_of_mem_replicate hw] at h
      cases h
    · rw [List.mem_append, List.mem_cons] at h
      rcases h with h | h | h
      · exact hn _ (isDigit_plain (fmtNat_digits _ _ h)).2.2.2 rfl
      · revert h; decide
      · exact hn _ ((fmt4_plain P _ (hv _ (List.getElem_mem hj))).1 _ h) rfl

theorem svmHead_line (keys : List (List Char)) (h : ∀ k ∈ keys, PlainWord k) : '\n' ∉ svmHead keys := by
  intro hm
  rcases strJoin_mem hm with h | ⟨w, hw, hc⟩
  · revert h; decide
  · rw [List.mem_cons, List.mem_mapIdx] at hw
    rcases hw with rfl | ⟨j, hj, rfl⟩
    · revert hc; decide
    · rw [List.mem_append, List.mem_cons] at hc
      rcases hc with hc | hc | hc
      · have := (isDigit_plain (fmtNat_digits _ _ hc)).1; revert this; decide
      · revert hc; decide
      · have := (h _ (List.getElem_mem hj) _ hc).1; revert this; decide

theorem svmLoop_rows (P : FText F) (l : Nat) (ps : List (List F × Int))
    (h : ∀ p ∈ ps, (∀ x ∈ p.1, Finite x) ∧ IsInt64 p.2) :
    svmLoop P (nls (ps.map fun p => svmRow P l p.1 p.2)) = .ok (some (ps.map fun p => p.1.map P.round4, ps.map (·.2))) := by
  induction ps with
  | nil => rfl
  | cons p ps ih =>
    rw [List.map_cons, nls_cons, svmLoop, parse_svmRow P l _ _ (h p (by simp)).1 (h p (by simp)).2]
    simp only [bind, Except.bind]
    rw [ih fun q hq => h q (by simp [hq])]
    rfl

/-! ### CSV -/

theorem csvNorm_id (s : List Char) (h : '\r' ∉ s) : csvNorm s = s := by
  induction s with
  | nil => rfl
  | cons c s ih =>
    have hc : c ≠ '\r' := fun e => h (by simp [e])
    have hs : '\r' ∉ s := fun e => h (by simp [e])
    rw [csvNorm.eq_def]
    split
    · rename_i e; simp at e
    · rename_i e; simp at e; exact absurd e.1 hc
    · rename_i e; simp at e; exact absurd e.1 hc
    · rename_i e; simp at e; rw [← e.1, ← e.2, ih hs]

theorem csv_plain (comma : Char) (w cur : List Char) (acc : List (List Char)) (t : List Char)
    (h : ∀ c ∈ w, c ≠ comma ∧ c ≠ '\n' ∧ c ≠ '"') :
    csvScan comma .plain cur acc (w ++ t) = csvScan comma .plain (cur ++ w) acc t := by
  induction w generalizing cur with
  | nil => simp
  | cons c w ih =>
    obtain ⟨h1, h2, h3⟩ := h c (by simp)
    rw [List.cons_append, csvScan, if_neg h1, if_neg h2, if_neg h3, ih _ fun c hc => h c (by simp [hc])]
    simp

/-- a field that is read as it is -/
def PlainField (comma : Char) (w : List Char) : Prop := w ≠ [] ∧ ∀ c ∈ w, c ≠ comma ∧ c ≠ '"' ∧ isSpace c = false

theorem PlainField.chars {comma : Char} {w : List Char} (h : PlainField comma w) :
    ∀ c ∈ w, c ≠ comma ∧ c ≠ '\n' ∧ c ≠ '"' := by
  intro c hc
  obtain ⟨h1, h2, h3⟩ := h.2 c hc
  refine ⟨h1, ?_, h2⟩
  rintro rfl
  revert h3
  decide

theorem csv_start (comma : Char) (n : Nat) (w cur : List Char) (acc : List (List Char)) (t : List Char)
    (h : PlainField comma w) :
    csvScan comma .start cur acc (List.replicate n ' ' ++ w ++ t) = csvScan comma .plain w acc t := by
  induction n generalizing cur with
  | zero =>
    obtain ⟨c, w', rfl⟩ := List.exists_cons_of_ne_nil h.1
    obtain ⟨h1, h2, h3⟩ := h.2 c (by simp)
    have hn : c ≠ '\n' := (h.chars c (by simp)).2.1
    rw [List.replicate_zero, List.nil_append, List.cons_append, csvScan, if_neg hn, if_neg (by simp [h3]), if_neg h2,
      if_neg h1, csv_plain comma w' [c] acc t fun d hd => h.chars d (by simp [hd])]
    rfl
  | succ n ih =>
    rw [List.replicate_succ, List.cons_append, List.cons_append, csvScan, if_neg (by decide), if_pos (by decide), ih]

theorem csv_bol (comma : Char) (w cur : List Char) (acc : List (List Char)) (t : List Char)
    (h : PlainField comma w) :
    csvScan comma .bol cur acc (w ++ t) = csvScan comma .plain w [] t := by
  obtain ⟨c, w', rfl⟩ := List.exists_cons_of_ne_nil h.1
  obtain ⟨h1, h2, h3⟩ := h.2 c (by simp)
  have hn : c ≠ '\n' := (h.chars c (by simp)).2.1
  rw [List.cons_append, csvScan, if_neg hn, if_neg (by simp [h3]), if_neg h2,
    if_neg h1, csv_plain comma w' [c] [] t fun d hd => h.chars d (by simp [hd])]
  rfl

/-- after the first field of a line -/
theorem csv_fields (comma : Char) (fs : List (Nat × List Char)) (cur : List Char) (acc : List (List Char)) (t : List Char)
    (h : ∀ f ∈ fs, PlainField comma f.2) :
    csvScan comma .plain cur acc ((fs.flatMap fun f => comma :: (List.replicate f.1 ' ' ++ f.2)) ++ t) =
      csvScan comma .plain ((cur :: fs.map (·.2)).getLast (by simp)) (acc ++ (cur :: fs.map (·.2)).dropLast) t := by
  induction fs generalizing cur acc with
  | nil => simp
  | cons f fs ih =>
    rw [List.flatMap_cons, List.cons_append, List.cons_append, csvScan, if_pos rfl, List.append_assoc,
      csv_start comma f.1 f.2 _ _ _ (h f (by simp)), ih _ _ fun g hg => h g (by simp [hg])]
    simp

theorem strJoin_flatMap (w : List Char) (ws : List (List Char)) (comma : Char) :
    strJoin (w :: ws) [comma] = w ++ ws.flatMap (comma :: ·) := by
  induction ws generalizing w with
  | nil => simp [strJoin_single]
  | cons v ws ih => rw [strJoin_cons_cons, ih]; simp

/-- a line: the first field and the others with the number of spaces before them -/
def csvLine (comma : Char) (p : List Char × List (Nat × List Char)) : List Char :=
  strJoin (p.1 :: p.2.map fun f => List.replicate f.1 ' ' ++ f.2) [comma]

theorem csv_lines (comma : Char) (hc : comma ≠ '\n') (ps : List (List Char × List (Nat × List Char)))
    (h : ∀ p ∈ ps, PlainField comma p.1 ∧ ∀ f ∈ p.2, PlainField comma f.2) :
    csvScan comma .bol [] [] (strJoin (ps.map (csvLine comma)) ['\n']) = (ps.map fun p => p.1 :: p.2.map (·.2), false) := by
  have line : ∀ (p : List Char × List (Nat × List Char)) t, PlainField comma p.1 → (∀ f ∈ p.2, PlainField comma f.2) →
      csvScan comma .bol [] [] (csvLine comma p ++ t) =
        csvScan comma .plain ((p.1 :: p.2.map (·.2)).getLast (by simp)) (p.1 :: p.2.map (·.2)).dropLast t := by
    intro p t h1 h2
    unfold csvLine
    rw [strJoin_flatMap, List.append_assoc, csv_bol comma p.1 _ _ _ h1, List.flatMap_map, csv_fields comma p.2 _ _ _ h2]
    rfl
  induction ps with
  | nil => rfl
  | cons p ps ih =>
    obtain ⟨h1, h2⟩ := h p (by simp)
    have hp := List.dropLast_append_getLast (l := p.1 :: p.2.map (·.2)) (by simp)
    cases ps with
    | nil =>
      have := line p [] h1 h2
      rw [List.append_nil] at this
      rw [List.map_cons, List.map_nil, strJoin_single, this, csvScan]
      simp only [List.map_cons, List.map_nil, Prod.mk.injEq, and_true]
      rw [hp]
    | cons q qs =>
      have ih' := ih fun r hr => h r (by simp [hr])
      rw [List.map_cons, List.map_cons, strJoin_cons_cons, List.append_assoc, line p _ h1 h2, List.singleton_append,
        csvScan, if_neg (Ne.symm hc), if_pos rfl]
      rw [List.map_cons] at ih'
      rw [ih']
      simp only [List.map_cons, hp]

theorem csvCheck_all (n : Nat) (e : Bool) (rs : List (List (List Char))) (h : ∀ r ∈ rs, r.length = n) :
    csvCheck n e rs = (rs, e) := by
  induction rs with
  | nil => rfl
  | cons r rs ih => rw [csvCheck, ih fun s hs => h s (by simp [hs])]; simp [h r (by simp)]

theorem csvCheck_len (n : Nat) (e : Bool) (rs : List (List (List Char))) : ∀ r ∈ (csvCheck n e rs).1, r.length = n := by
  induction rs with
  | nil => simp [csvCheck]
  | cons r rs ih =>
    unfold csvCheck
    split
    · simp
    · rename_i h
      intro s hs
      simp only [List.mem_cons] at hs
      rcases hs with rfl | hs
      · omega
      · exact ih s hs

theorem csvCheck_mem (n : Nat) (e : Bool) (rs : List (List (List Char))) : ∀ r ∈ (csvCheck n e rs).1, r ∈ rs := by
  induction rs with
  | nil => simp [csvCheck]
  | cons r rs ih =>
    unfold csvCheck
    split
    · simp
    · intro s hs
      simp only [List.mem_cons] at hs ⊢
      rcases hs with rfl | hs
      · exact Or.inl rfl
      · exact Or.inr (ih s hs)

/-- every record has a field -/
theorem csvScan_ne (comma : Char) (text : List Char) : ∀ st cur acc, ∀ r ∈ (csvScan comma st cur acc text).1, r ≠ [] := by
  induction text with
  | nil => intro st cur acc r hr; cases st <;> simp [csvScan] at hr <;> simp [hr]
  | cons c t ih =>
    intro st cur acc r hr
    cases st <;> rw [csvScan] at hr
    all_goals
      repeat' split at hr
    all_goals first
      | exact ih _ _ _ r hr
      | simp at hr; done
      | (simp only [List.mem_cons] at hr
         rcases hr with rfl | hr
         · simp
         · rename_i heq
           exact ih _ _ _ r (by rw [heq]; exact hr))

end Boo
