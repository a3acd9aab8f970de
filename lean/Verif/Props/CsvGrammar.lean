import Verif.Spec.Csv
import Verif.Props.TextExact
import Verif.Lemmas.TextSpec

/-!
# C45: the reader accepts exactly the CSV texts of the grammar
-/

namespace Boo
open GoFloat Spec

theorem unixText_norm : ∀ t : List Char, UnixText t (csvNorm t)
  | [] => .nil
  | [c] => by
    by_cases h : c = '\r'
    · subst h
      exact .cr
    · have : csvNorm [c] = [c] := by simp [csvNorm, h]
      rw [this]
      exact .char (fun e => absurd e h) .nil
  | c :: d :: t => by
    by_cases h : c = '\r' ∧ d = '\n'
    · obtain ⟨rfl, rfl⟩ := h
      exact .crlf (unixText_norm t)
    · have : csvNorm (c :: d :: t) = c :: csvNorm (d :: t) := by
        rw [csvNorm]
        · rintro t' rfl h2
          exact h ⟨rfl, by simpa using (List.cons.inj h2).1⟩
        · rintro rfl h2
          simp at h2
      rw [this]
      refine .char (fun e => ⟨by simp, ?_⟩) (unixText_norm (d :: t))
      intro e2
      exact h ⟨e, by simpa using e2⟩

theorem unixText_iff (t u : List Char) : UnixText t u ↔ csvNorm t = u := by
  constructor
  · intro h
    induction h with
    | nil => rfl
    | cr => rfl
    | crlf _ ih => rw [← ih]; rfl
    | @char c t u hc _ ih =>
      rw [← ih]
      rw [csvNorm]
      · rintro t' h1 h2
        exact (hc h1).2 (by rw [h2]; rfl)
      · rintro h1 h2
        exact (hc h1).1 h2
  · rintro rfl
    exact unixText_norm t

/-- the end of a record -/
def CsvEnds (comma : Char) (r : List (List Char)) (t : List Char) (out : List (List (List Char))) : Prop :=
  (t = [] ∧ out = [r]) ∨ ∃ t' rs, t = '\n' :: t' ∧ csvScan comma .bol [] [] t' = (rs, false) ∧ out = r :: rs

/-- what comes after the fields `fs` -/
def CsvAfter (comma : Char) (fs : List (List Char)) (t : List Char) (out : List (List (List Char))) : Prop :=
  CsvEnds comma fs t out ∨ ∃ vs s t', t = comma :: (s ++ t') ∧ CsvRecord comma vs s ∧ CsvEnds comma (fs ++ vs) t' out

theorem newline_out {comma : Char} {r : List (List Char)} {t : List Char} {out : List (List (List Char))}
    (h : (let (rs, e) := csvScan comma .bol [] [] t; (r :: rs, e)) = (out, false)) : CsvEnds comma r ('\n' :: t) out := by
  rcases hs : csvScan comma .bol [] [] t with ⟨rs, e⟩
  rw [hs] at h
  simp only [Prod.mk.injEq] at h
  obtain ⟨rfl, rfl⟩ := h
  exact Or.inr ⟨t, rs, rfl, hs, rfl⟩

theorem blank_head {c : Char} {t : List Char} (h1 : isSpace c = true) (h2 : c ≠ '\n') : Blank c := ⟨(isSpace_iff c).1 h1, h2⟩

theorem record_blank {comma c : Char} {vs : List (List Char)} {s : List Char} (hc : Blank c) (h : CsvRecord comma vs s) :
    CsvRecord comma vs (c :: s) := by
  cases h with
  | @last b v t h1 h2 h3 =>
    refine CsvRecord.last (b := c :: b) ?_ h2 h3
    intro d hd
    rcases List.mem_cons.1 hd with rfl | hd
    · exact hc
    · exact h1 d hd
  | @more b v t vs s h1 h2 h3 h4 =>
    refine CsvRecord.more (b := c :: b) ?_ h2 h3 h4
    intro d hd
    rcases List.mem_cons.1 hd with rfl | hd
    · exact hc
    · exact h1 d hd

/-- a field without blanks before it and what comes after it are a record and its end -/
theorem field_after {comma : Char} {v x : List Char} (hv : CsvField comma v x) {acc : List (List Char)} {t : List Char}
    {out : List (List (List Char))} (hx : x ≠ [] → NoBlank x) (hx0 : x = [] → ¬ Blank comma ∨ ∀ c, t.head? = some c → c ≠ comma)
    (h : CsvAfter comma (acc ++ [v]) t out) :
    ∃ vs s t', x ++ t = s ++ t' ∧ CsvRecord comma vs s ∧ CsvEnds comma (acc ++ vs) t' out := by
  have hn : NoBlank x := by
    by_cases e : x = []
    · subst e
      intro c hc
      simp at hc
    · exact hx e
  rcases h with h | ⟨vs, s, t', rfl, h2, h3⟩
  · exact ⟨[v], x, t, rfl, by simpa using CsvRecord.last (b := []) (by simp) hv hn, h⟩
  · refine ⟨v :: vs, x ++ comma :: s, t', by simp, ?_, by simpa using h3⟩
    have := CsvRecord.more (b := []) (by simp) hv (fun c hc => ?_) h2
    · simpa using this
    · by_cases e : x = []
      · subst e
        simp only [List.nil_append, List.head?_cons, Option.some.injEq] at hc
        subst hc
        rcases hx0 rfl with h | h
        · exact h
        · exact absurd rfl (h _ (by simp))
      · obtain ⟨d, x, rfl⟩ := List.exists_cons_of_ne_nil e
        exact hn c (by simpa using hc)

theorem scan_grammar {comma : Char} (hq : comma ≠ '"') (t : List Char) : ∀ (acc : List (List Char)) (out : List (List (List Char))),
    (∀ cur, csvScan comma .start cur acc t = (out, false) →
      ∃ vs s t', t = s ++ t' ∧ CsvRecord comma vs s ∧ CsvEnds comma (acc ++ vs) t' out) ∧
    (∀ cur, csvScan comma .plain cur acc t = (out, false) →
      ∃ u t', (∀ c ∈ u, c ≠ comma ∧ c ≠ '"' ∧ c ≠ '\n') ∧ t = u ++ t' ∧ CsvAfter comma (acc ++ [cur ++ u]) t' out) ∧
    (∀ cur, csvScan comma .quoted cur acc t = (out, false) →
      ∃ v t', t = v.flatMap csvEsc ++ '"' :: t' ∧ CsvAfter comma (acc ++ [cur ++ v]) t' out) ∧
    (∀ cur, csvScan comma .quote cur acc t = (out, false) →
      CsvAfter comma (acc ++ [cur]) t out ∨
        ∃ v t', t = '"' :: (v.flatMap csvEsc ++ '"' :: t') ∧ CsvAfter comma (acc ++ [cur ++ '"' :: v]) t' out) := by
  induction t with
  | nil =>
    intro acc out
    refine ⟨?_, ?_, ?_, ?_⟩
    · intro cur h
      simp only [csvScan, Prod.mk.injEq, and_true] at h
      exact ⟨[[]], [], [], rfl, by simpa using CsvRecord.last (comma := comma) (b := []) (v := []) (t := []) (by simp) (.plain (by simp)) (by simp [NoBlank]),
        Or.inl ⟨rfl, h.symm⟩⟩
    · intro cur h
      simp only [csvScan, Prod.mk.injEq, and_true] at h
      exact ⟨[], [], by simp, rfl, Or.inl (Or.inl ⟨rfl, by rw [List.append_nil]; exact h.symm⟩)⟩
    · intro cur h
      simp [csvScan] at h
    · intro cur h
      simp only [csvScan, Prod.mk.injEq, and_true] at h
      exact Or.inl (Or.inl (Or.inl ⟨rfl, h.symm⟩))
  | cons c t ih =>
    intro acc out
    have comma_after : ∀ fs cur, csvScan comma .start cur fs t = (out, false) → CsvAfter comma fs (comma :: t) out := by
      intro fs cur h
      obtain ⟨vs, s, t', h1, h2, h3⟩ := (ih fs out).1 cur h
      exact Or.inr ⟨vs, s, t', by rw [h1], h2, h3⟩
    refine ⟨?_, ?_, ?_, ?_⟩
    · intro cur h
      rw [csvScan] at h
      split at h
      · rename_i hc
        subst hc
        refine ⟨[[]], [], '\n' :: t, rfl, ?_, newline_out h⟩
        simpa using CsvRecord.last (comma := comma) (b := []) (v := []) (t := []) (by simp) (.plain (by simp)) (by simp [NoBlank])
      · rename_i hc
        split at h
        · rename_i hs
          obtain ⟨vs, s, t', h1, h2, h3⟩ := (ih acc out).1 _ h
          exact ⟨vs, c :: s, t', by rw [h1]; rfl, record_blank ⟨(isSpace_iff _).1 hs, hc⟩ h2, h3⟩
        · rename_i hs
          have hnb : ¬ Blank c := fun hb => hs ((isSpace_iff c).2 hb.1)
          split at h
          · rename_i hq'
            subst hq'
            obtain ⟨v, t', h1, h2⟩ := (ih acc out).2.2.1 _ h
            obtain ⟨vs, s, t'', e1, e2, e3⟩ := field_after (CsvField.quoted (comma := comma) v) (acc := acc) (t := t') (out := out)
              (fun _ d hd => by simp only [List.head?_cons, Option.some.injEq] at hd; subst hd; exact hnb) (by simp) h2
            refine ⟨vs, s, t'', ?_, e2, e3⟩
            rw [← e1, h1]
            simp
          · rename_i hq'
            split at h
            · rename_i hcc
              subst hcc
              obtain ⟨vs, s, t'', e1, e2, e3⟩ := field_after (CsvField.plain (comma := c) (v := []) (by simp)) (acc := acc) (t := c :: t) (out := out)
                (by simp) (fun _ => Or.inl hnb) (comma_after _ _ h)
              exact ⟨vs, s, t'', by rw [← e1]; rfl, e2, e3⟩
            · rename_i hcc
              obtain ⟨u, t', h1, h2, h3⟩ := (ih acc out).2.1 _ h
              obtain ⟨vs, s, t'', e1, e2, e3⟩ := field_after (CsvField.plain (comma := comma) (v := c :: u) (by
                intro d hd
                rcases List.mem_cons.1 hd with rfl | hd
                · exact ⟨hcc, hq', hc⟩
                · exact h1 d hd)) (acc := acc) (t := t') (out := out)
                (fun _ d hd => by simp only [List.head?_cons, Option.some.injEq] at hd; subst hd; exact hnb) (by simp) h3
              refine ⟨vs, s, t'', ?_, e2, e3⟩
              rw [← e1, h2]
              rfl
    · intro cur h
      rw [csvScan] at h
      split at h
      · rename_i hc
        subst hc
        exact ⟨[], c :: t, by simp, rfl, by simpa using comma_after _ _ h⟩
      · rename_i hc
        split at h
        · rename_i hn
          subst hn
          exact ⟨[], '\n' :: t, by simp, rfl, Or.inl (by simpa using newline_out h)⟩
        · rename_i hn
          split at h
          · simp at h
          · rename_i hq'
            obtain ⟨u, t', h1, h2, h3⟩ := (ih acc out).2.1 _ h
            refine ⟨c :: u, t', ?_, by rw [h2]; rfl, by simpa using h3⟩
            intro d hd
            rcases List.mem_cons.1 hd with rfl | hd
            · exact ⟨hc, hq', hn⟩
            · exact h1 d hd
    · intro cur h
      rw [csvScan] at h
      split at h
      · rename_i hc
        subst hc
        rcases (ih acc out).2.2.2 _ h with h' | ⟨v, t', h1, h2⟩
        · exact ⟨[], t, by simp, by simpa using h'⟩
        · exact ⟨'"' :: v, t', by rw [h1]; simp [csvEsc], h2⟩
      · rename_i hc
        obtain ⟨v, t', h1, h2⟩ := (ih acc out).2.2.1 _ h
        exact ⟨c :: v, t', by rw [h1]; simp [csvEsc, hc], by simpa using h2⟩
    · intro cur h
      rw [csvScan] at h
      split at h
      · rename_i hc
        subst hc
        obtain ⟨v, t', h1, h2⟩ := (ih acc out).2.2.1 _ h
        exact Or.inr ⟨v, t', by rw [h1], by simpa using h2⟩
      · split at h
        · rename_i hc
          subst hc
          exact Or.inl (comma_after _ _ h)
        · split at h
          · rename_i hn
            subst hn
            exact Or.inl (Or.inl (newline_out h))
          · simp at h

/-- at the beginning of a line that is not empty the scanner is at the beginning of a field -/
theorem scan_bol {comma c : Char} (hc : c ≠ '\n') (t : List Char) :
    csvScan comma .bol [] [] (c :: t) = csvScan comma .start [] [] (c :: t) := by
  rw [csvScan, csvScan]
  simp [hc]

theorem record_head {comma : Char} (hn : comma ≠ '\n') {vs : List (List Char)} {s : List Char} (h : CsvRecord comma vs s) :
    ∀ c, s.head? = some c → c ≠ '\n' := by
  have hf : ∀ {v t : List Char}, CsvField comma v t → ∀ c, t.head? = some c → c ≠ '\n' := by
    intro v t h c hc
    cases h with
    | plain h => exact (h c (List.mem_of_mem_head? hc)).2.2
    | quoted =>
      simp only [List.head?_cons, Option.some.injEq] at hc
      subst hc
      decide
  intro c hc
  cases h with
  | @last b v t h1 h2 h3 =>
    cases b with
    | nil => exact hf h2 c (by simpa using hc)
    | cons d b =>
      simp only [List.cons_append, List.head?_cons, Option.some.injEq] at hc
      subst hc
      exact (h1 d (by simp)).2
  | @more b v t vs s h1 h2 h3 h4 =>
    cases b with
    | nil =>
      cases t with
      | nil =>
        simp only [List.nil_append, List.head?_cons, Option.some.injEq] at hc
        subst hc
        exact hn
      | cons d t => exact hf h2 c (by simpa using hc)
    | cons d b =>
      simp only [List.cons_append, List.head?_cons, Option.some.injEq] at hc
      subst hc
      exact (h1 d (by simp)).2

theorem bol_grammar {comma : Char} (hq : comma ≠ '"') (n : Nat) : ∀ (t : List Char), t.length = n → ∀ rs,
    csvScan comma .bol [] [] t = (rs, false) → CsvText comma rs t := by
  induction n using Nat.strong_induction_on with
  | _ n ih =>
    intro t ht rs h
    cases t with
    | nil =>
      simp only [csvScan, Prod.mk.injEq, and_true] at h
      subst h
      exact .nil
    | cons c t =>
      rw [List.length_cons] at ht
      by_cases hc : c = '\n'
      · subst hc
        have : csvScan comma .bol [] [] ('\n' :: t) = csvScan comma .bol [] [] t := by rw [csvScan]; simp
        rw [this] at h
        exact .empty (ih t.length (by omega) t rfl rs h)
      · rw [scan_bol hc] at h
        obtain ⟨vs, s, t', h1, h2, h3⟩ := (scan_grammar hq (c :: t) [] rs).1 [] h
        have hs : s ≠ [] := by
          rintro rfl
          rw [List.nil_append] at h1
          rcases h3 with ⟨h3, _⟩ | ⟨t'', _, h3, _⟩
          · rw [← h1] at h3
            simp at h3
          · rw [← h1] at h3
            exact hc (List.cons.inj h3).1
        rcases h3 with ⟨rfl, rfl⟩ | ⟨t'', rs', rfl, h4, rfl⟩
        · rw [h1, List.append_nil]
          exact .last h2 hs
        · rw [h1]
          refine .line h2 hs (ih t''.length ?_ t'' rfl rs' h4)
          have := congrArg List.length h1
          simp only [List.length_cons, List.length_append] at this
          omega

theorem scan_plain {comma : Char} (u : List Char) (hu : ∀ c ∈ u, c ≠ comma ∧ c ≠ '"' ∧ c ≠ '\n') (acc : List (List Char)) (t : List Char) :
    ∀ cur, csvScan comma .plain cur acc (u ++ t) = csvScan comma .plain (cur ++ u) acc t := by
  induction u with
  | nil => simp
  | cons c u ih =>
    intro cur
    obtain ⟨h1, h2, h3⟩ := hu c (by simp)
    rw [List.cons_append, csvScan, if_neg h1, if_neg h3, if_neg h2, ih (fun d hd => hu d (by simp [hd]))]
    simp

theorem scan_quoted {comma : Char} (v : List Char) (acc : List (List Char)) (t : List Char) :
    ∀ cur, csvScan comma .quoted cur acc (v.flatMap csvEsc ++ t) = csvScan comma .quoted (cur ++ v) acc t := by
  induction v with
  | nil => simp
  | cons c v ih =>
    intro cur
    rw [List.flatMap_cons, List.append_assoc]
    by_cases hc : c = '"'
    · subst hc
      simp only [csvEsc, if_true, List.cons_append, List.nil_append]
      rw [csvScan, if_pos rfl, csvScan, if_pos rfl, ih]
      simp
    · simp only [csvEsc, hc, if_false, List.cons_append, List.nil_append]
      rw [csvScan, if_neg hc, ih]
      simp

theorem scan_blanks {comma : Char} (b : List Char) (hb : ∀ c ∈ b, Blank c) (acc : List (List Char)) (t : List Char) :
    csvScan comma .start [] acc (b ++ t) = csvScan comma .start [] acc t := by
  induction b with
  | nil => rfl
  | cons c b ih =>
    obtain ⟨h1, h2⟩ := hb c (by simp)
    rw [← isSpace_iff] at h1
    rw [List.cons_append, csvScan, if_neg h2, if_pos h1, ih (fun d hd => hb d (by simp [hd]))]

theorem start_eq (comma : Char) (cur : List Char) (acc : List (List Char)) (c : Char) (t : List Char) :
    csvScan comma .start cur acc (c :: t) = if c = '\n' then
        let (rs, e) := csvScan comma .bol [] [] t
        ((acc ++ [[]]) :: rs, e)
      else if isSpace c then csvScan comma .start [] acc t
      else if c = '"' then csvScan comma .quoted [] acc t
      else if c = comma then csvScan comma .start [] (acc ++ [[]]) t
      else csvScan comma .plain [c] acc t := by rw [csvScan]

theorem plain_eq (comma : Char) (cur : List Char) (acc : List (List Char)) (c : Char) (t : List Char) :
    csvScan comma .plain cur acc (c :: t) = if c = comma then csvScan comma .start [] (acc ++ [cur]) t
      else if c = '\n' then
        let (rs, e) := csvScan comma .bol [] [] t
        ((acc ++ [cur]) :: rs, e)
      else if c = '"' then ([], true)
      else csvScan comma .plain (cur ++ [c]) acc t := by rw [csvScan]

theorem quote_eq (comma : Char) (cur : List Char) (acc : List (List Char)) (c : Char) (t : List Char) :
    csvScan comma .quote cur acc (c :: t) = if c = '"' then csvScan comma .quoted (cur ++ [c]) acc t
      else if c = comma then csvScan comma .start [] (acc ++ [cur]) t
      else if c = '\n' then
        let (rs, e) := csvScan comma .bol [] [] t
        ((acc ++ [cur]) :: rs, e)
      else ([], true) := by rw [csvScan]

theorem quoted_eq (comma : Char) (cur : List Char) (acc : List (List Char)) (c : Char) (t : List Char) :
    csvScan comma .quoted cur acc (c :: t) =
      if c = '"' then csvScan comma .quote cur acc t else csvScan comma .quoted (cur ++ [c]) acc t := by rw [csvScan]

/-- a field is read as its value; what follows is read as after an unquoted field -/
theorem scan_field {comma : Char} (hq : comma ≠ '"') (hl : comma ≠ '\n') {v x : List Char} (h : CsvField comma v x) (acc : List (List Char)) (t : List Char)
    (ht : ∀ c, t.head? = some c → c = comma ∨ c = '\n') (hb : NoBlank (x ++ t)) :
    csvScan comma .start [] acc (x ++ t) = csvScan comma .plain v acc t := by
  cases h with
  | plain hv =>
    cases v with
    | nil =>
      cases t with
      | nil => simp [csvScan]
      | cons c t =>
        rw [List.nil_append]
        rcases ht c rfl with rfl | rfl
        · have hs : isSpace c ≠ true := fun e => hb c (by simp) ⟨(isSpace_iff c).1 e, hl⟩
          rw [start_eq, if_neg hl, if_neg hs, if_neg hq, if_pos rfl, plain_eq, if_pos rfl]
        · rw [start_eq, if_pos rfl, plain_eq, if_neg (Ne.symm hl), if_pos rfl]
    | cons c u =>
      obtain ⟨h1, h2, h3⟩ := hv c (by simp)
      have hs : isSpace c ≠ true := fun e => hb c (by simp) ⟨(isSpace_iff c).1 e, h3⟩
      rw [List.cons_append, start_eq, if_neg h3, if_neg hs, if_neg h2, if_neg h1, scan_plain u (fun d hd => hv d (by simp [hd]))]
      simp
  | quoted =>
    have hs : isSpace '"' ≠ true := by decide
    have e : ('"' :: (v.flatMap csvEsc ++ ['"'])) ++ t = '"' :: (v.flatMap csvEsc ++ '"' :: t) := by simp
    rw [e, start_eq, if_neg (by decide), if_neg hs, if_pos rfl, scan_quoted, quoted_eq, if_pos rfl, List.nil_append]
    cases t with
    | nil => simp [csvScan]
    | cons c t =>
      rcases ht c rfl with rfl | rfl
      · rw [quote_eq, if_neg hq, if_pos rfl, plain_eq, if_pos rfl]
      · rw [quote_eq, if_neg (by decide), if_neg (Ne.symm hl), if_pos rfl, plain_eq, if_neg (Ne.symm hl), if_pos rfl]

theorem scan_record {comma : Char} (hq : comma ≠ '"') (hl : comma ≠ '\n') {vs : List (List Char)} {s : List Char}
    (h : CsvRecord comma vs s) : ∀ (acc : List (List Char)) (t : List Char), (∀ c, t.head? = some c → c = '\n') →
      ∃ v us, vs = us ++ [v] ∧ csvScan comma .start [] acc (s ++ t) = csvScan comma .plain v (acc ++ us) t := by
  induction h with
  | @last b v x h1 h2 h3 =>
    intro acc t ht
    refine ⟨v, [], rfl, ?_⟩
    rw [List.append_assoc, scan_blanks b h1, List.append_nil]
    refine scan_field hq hl h2 acc t (fun c hc => Or.inr (ht c hc)) ?_
    intro c hc
    cases x with
    | nil =>
      rintro ⟨_, hb⟩
      exact hb (ht c hc)
    | cons d x => exact h3 c (by simpa using hc)
  | @more b v x vs s h1 h2 h3 h4 ih =>
    intro acc t ht
    obtain ⟨v', us, e1, e2⟩ := ih (acc ++ [v]) t ht
    refine ⟨v', v :: us, by rw [e1]; rfl, ?_⟩
    have e : b ++ x ++ comma :: s ++ t = b ++ (x ++ comma :: (s ++ t)) := by simp
    rw [e, scan_blanks b h1, scan_field hq hl h2 acc _ (by simp) ?_, csvScan, if_pos rfl, e2]
    · simp
    · intro c hc
      cases x with
      | nil => exact h3 c (by simpa using hc)
      | cons d x => exact h3 c (by simpa using hc)

theorem text_scan {comma : Char} (hq : comma ≠ '"') (hl : comma ≠ '\n') {rs : List (List (List Char))} {t : List Char}
    (h : CsvText comma rs t) : csvScan comma .bol [] [] t = (rs, false) := by
  have hbol : ∀ {vs : List (List Char)} {s : List Char}, CsvRecord comma vs s → s ≠ [] → ∀ t,
      csvScan comma .bol [] [] (s ++ t) = csvScan comma .start [] [] (s ++ t) := by
    intro vs s h hs t
    obtain ⟨c, s, rfl⟩ := List.exists_cons_of_ne_nil hs
    exact scan_bol (record_head hl h c rfl) _
  induction h with
  | nil => simp [csvScan]
  | empty _ ih => rw [csvScan, if_pos rfl, ih]
  | @line r rs s t h1 h2 h3 ih =>
    obtain ⟨v, us, e1, e2⟩ := scan_record hq hl h1 [] ('\n' :: t) (by simp)
    rw [hbol h1 h2, e2, csvScan, if_neg (Ne.symm hl), if_pos rfl, ih, e1]
    simp
  | @last r s h1 h2 =>
    obtain ⟨v, us, e1, e2⟩ := scan_record hq hl h1 [] [] (by simp)
    rw [← List.append_nil s, hbol h1 h2, e2, e1]
    simp [csvScan]

/-- the scanner reads exactly the grammar -/
theorem scan_iff {comma : Char} (hq : comma ≠ '"') (hl : comma ≠ '\n') (rs : List (List (List Char))) (t : List Char) :
    csvScan comma .bol [] [] t = (rs, false) ↔ CsvText comma rs t :=
  ⟨bol_grammar hq _ t rfl rs, text_scan hq hl⟩

theorem csvCheck_iff (n : Nat) (e : Bool) (rs out : List (List (List Char))) :
    csvCheck n e rs = (out, false) ↔ e = false ∧ out = rs ∧ ∀ r ∈ rs, r.length = n := by
  induction rs generalizing out with
  | nil =>
    simp only [csvCheck, Prod.mk.injEq, List.not_mem_nil, false_imp_iff, implies_true, and_true]
    exact ⟨fun ⟨h1, h2⟩ => ⟨h2, h1.symm⟩, fun ⟨h1, h2⟩ => ⟨h2.symm, h1⟩⟩
  | cons r rs ih =>
    rw [csvCheck]
    by_cases h : r.length = n
    · rw [if_neg (by simp [h])]
      have := ih (csvCheck n e rs).1
      constructor
      · intro hh
        simp only [Prod.mk.injEq] at hh
        obtain ⟨h1, h2, h3⟩ := this.1 (by rw [← hh.2])
        refine ⟨h1, by rw [← hh.1, h2], ?_⟩
        intro x hx
        rcases List.mem_cons.1 hx with rfl | hx
        · exact h
        · exact h3 x hx
      · rintro ⟨h1, h2, h3⟩
        have h4 := (ih rs).2 ⟨h1, rfl, fun x hx => h3 x (by simp [hx])⟩
        rw [h4, h2]
    · rw [if_pos h]
      constructor
      · intro hh
        simp at hh
      · rintro ⟨_, _, h3⟩
        exact absurd (h3 r (by simp)) h

theorem csvRecords_iff (comma : Char) (text : List Char) (rs : List (List (List Char))) :
    csvRecords comma text = (rs, false) ↔
      LegalComma comma ∧ (∃ u, UnixText text u ∧ CsvText comma rs u) ∧ ∀ r ∈ rs, ∀ r' ∈ rs, r.length = r'.length := by
  unfold csvRecords LegalComma
  split
  · rename_i h
    constructor
    · intro hh
      simp at hh
    · rintro ⟨⟨h1, h2, h3, h4, h5⟩, _⟩
      rcases h with h | h | h | h | h
      · exact absurd h h1
      · exact absurd h h2
      · exact absurd h h3
      · exact absurd h h4
      · exact absurd h h5
  · rename_i h
    simp only [not_or] at h
    have hu : (∃ u, UnixText text u ∧ CsvText comma rs u) ↔ CsvText comma rs (csvNorm text) := by
      constructor
      · rintro ⟨u, h1, h2⟩
        rw [(unixText_iff _ _).1 h1]
        exact h2
      · intro h1
        exact ⟨_, unixText_norm _, h1⟩
    rw [hu, ← scan_iff h.2.1 h.2.2.2.1]
    rcases hs : csvScan comma .bol [] [] (csvNorm text) with ⟨out, e⟩
    simp only [Prod.mk.injEq]
    cases out with
    | nil =>
      simp only [Prod.mk.injEq]
      constructor
      · rintro ⟨rfl, rfl⟩
        exact ⟨h, ⟨rfl, rfl⟩, by simp⟩
      · rintro ⟨_, h2, _⟩
        exact h2
    | cons r out =>
      simp only
      rw [csvCheck_iff]
      constructor
      · rintro ⟨h1, rfl, h3⟩
        exact ⟨h, ⟨rfl, h1⟩, fun a ha b hb => by rw [h3 a ha, h3 b hb]⟩
      · rintro ⟨_, ⟨rfl, h1⟩, h3⟩
        exact ⟨h1, rfl, fun a ha => h3 a ha r (by simp)⟩

variable {F : Type} [GoFloat F]

/-- what a record stands for: with labels, an int and numbers; without labels, only numbers -/
def CsvRow (P : FText F) (hasLabels : Bool) (r : List (List Char)) (labels : List Int) (row : List F) : Prop :=
  if hasLabels then ∃ f fs lab, r = f :: fs ∧ IntText f lab ∧ labels = [lab] ∧ List.Forall₂ (fun w x => P.parse w = some x) fs row
  else labels = [] ∧ List.Forall₂ (fun w x => P.parse w = some x) r row

theorem csvRow_iff (P : FText F) (hasLabels : Bool) (r : List (List Char)) (labels : List Int) (row : List F) :
    IsCSVRow P hasLabels r labels row ↔ CsvRow P hasLabels r labels row := by
  unfold IsCSVRow CsvRow IsCSVValues
  simp only [atoi_iff]

/-- **C45 (CSV grammar)**: reading returns the data `D` if and only if the separator is legal, the reader has no error, the text is a CSV text
of records with equally many fields, with a header there is a first record and the keys are its fields (without the first one if
there are labels), and the other records are, in order, the labels and rows of `D`. -/
theorem C45_csv_grammar (P : FText F) (text : List Char) (readErr hasHeader hasLabels : Bool) (sep : Char) (D : DataBunch F) :
    parseCSV P text readErr hasHeader hasLabels sep = .ok (some D) ↔
      LegalComma sep ∧ readErr = false ∧ D.floatLabels = [] ∧
      ∃ all recs : List (List (List Char)), (∃ u, UnixText text u ∧ CsvText sep all u) ∧ (∀ r ∈ all, ∀ r' ∈ all, r.length = r'.length) ∧
        (if hasHeader then ∃ h, all = h :: recs ∧ D.keys = if hasLabels then h.tail else h else all = recs ∧ D.keys = []) ∧
        ∃ rows : List (List Int × List F), List.Forall₂ (fun r p => CsvRow P hasLabels r p.1 p.2) recs rows ∧
          D.data = rows.map Prod.snd ∧ D.labels = (rows.map Prod.fst).flatten := by
  rw [C45_csv_exact]
  simp only [csvRow_iff]
  constructor
  · rintro ⟨h1, h2, h3, recs, rows, h4, h5, h6, h7⟩
    obtain ⟨g1, g2, g3⟩ := (csvRecords_iff sep text (csvRecords sep text).1).1 (Prod.ext rfl h1)
    exact ⟨g1, h2, h3, _, recs, g2, g3, h4, rows, h5, h6, h7⟩
  · rintro ⟨g1, h2, h3, all, recs, g2, g3, h4, rows, h5, h6, h7⟩
    have h := (csvRecords_iff sep text all).2 ⟨g1, g2, g3⟩
    rw [h]
    exact ⟨rfl, h2, h3, recs, rows, h4, h5, h6, h7⟩

/-- **C45 (one reading)**: a text is the CSV text of at most one list of records. -/
theorem C45_csv_unique (sep : Char) (hs : LegalComma sep) (u : List Char) (rs rs' : List (List (List Char))) (h : CsvText sep rs u)
    (h' : CsvText sep rs' u) : rs = rs' := by
  have h1 := (scan_iff hs.2.1 hs.2.2.2.1 rs u).2 h
  have h2 := (scan_iff hs.2.1 hs.2.2.2.1 rs' u).2 h'
  rw [h1] at h2
  exact (Prod.mk.inj h2).1

/-- a text with quotes, blanks, empty lines and both kinds of line ends -/
example : ∃ u, UnixText "a, \"b \"\"c\"\"\n\"\r\n\n1,\t2".toList u ∧
    CsvText ',' [["a".toList, "b \"c\"\n".toList], ["1".toList, "2".toList]] u := by
  have h : csvRecords ',' "a, \"b \"\"c\"\"\n\"\r\n\n1,\t2".toList =
      ([["a".toList, "b \"c\"\n".toList], ["1".toList, "2".toList]], false) := by decide +kernel
  exact ((csvRecords_iff _ _ _).1 h).2.1

/-- a quote inside a plain field, and a quoted field that does not end, are errors -/
example : (¬ ∃ rs, CsvText ',' rs "a\"b,1".toList) ∧ ¬ ∃ rs, CsvText ',' rs "\"a,1".toList := by
  constructor <;>
  · rintro ⟨rs, h⟩
    have h1 := (scan_iff (by decide) (by decide) _ _).2 h
    have h2 := fun b => (congrArg Prod.snd h1).symm.trans (b : _ = true)
    exact absurd (h2 (by decide +kernel)) (by simp)

end Boo
