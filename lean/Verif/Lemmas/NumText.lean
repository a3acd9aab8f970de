import Verif.Lemmas.Decimal
import Verif.Lemmas.FText
import Verif.Lemmas.TextSpec

/-!
# Reading decimal numbers: the law of `strconv.ParseFloat` that is used, and an instance of it
-/

namespace Boo
open GoFloat Spec

section AnyOrder

variable {τ : Option SumOrder}
/-- float64, with any order of the additions of `floats.Sum` -/
local notation "F64" => F64o τ

/-- `strconv.ParseFloat` reads a decimal text of a number of at most 15 digits as the nearest float64. (It does so for all numbers; only
this is used.) -/
def ReadsDecimals (P : FText F64) : Prop := ∀ s x, NumText s x → Short x → P.parse s = some (near64 x)

end AnyOrder

/-- the value of an exponent -/
def expValue : List Char → Option ℤ
  | [] => some 0
  | c :: es => if c = 'e' ∨ c = 'E' then (atoi es).bind fun e => if |e| < 10000 then some e else none else none

/-- the value of a text of a number without sign -/
def unsignedValue (s : List Char) : Option ℚ :=
  let ip := s.takeWhile Char.isDigit
  let rest := s.dropWhile Char.isDigit
  match rest with
  | '.' :: r => (expValue (r.dropWhile Char.isDigit)).bind fun e =>
      if ip ++ r.takeWhile Char.isDigit = [] then none
      else some (decimal (ip ++ r.takeWhile Char.isDigit) * 10 ^ (e - (r.takeWhile Char.isDigit).length))
  | r => (expValue r).bind fun e => if ip = [] then none else some (decimal ip * 10 ^ e)

/-- the value of a text of a number -/
def numValue : List Char → Option ℚ
  | '+' :: t => unsignedValue t
  | '-' :: t => (unsignedValue t).map fun y => -y
  | t => unsignedValue t

theorem digit_isDigit {c : Char} (h : Digit c) : c.isDigit = true := (digit_iff c).2 h

theorem expValue_iff {s : List Char} {e : ℤ} : expValue s = some e ↔ ExpText s e := by
  cases s with
  | nil =>
    unfold expValue ExpText
    simp [eq_comm]
  | cons c es =>
    show (if c = 'e' ∨ c = 'E' then (atoi es).bind fun e => if |e| < 10000 then some e else none else none) = _ ↔ _
    constructor
    · intro h
      split at h
      · rename_i hc
        rw [Option.bind_eq_some_iff] at h
        obtain ⟨e', he, h⟩ := h
        split at h
        · rename_i hlt
          obtain rfl := Option.some.inj h
          exact Or.inr ⟨c, es, rfl, hc, (atoi_iff _ _).1 he, hlt⟩
        · cases h
      · cases h
    · rintro (⟨h, _⟩ | ⟨c', es', h, hc, he, hlt⟩)
      · cases h
      · obtain ⟨rfl, rfl⟩ := List.cons.inj h
        rw [if_pos hc, (atoi_iff _ _).2 he]
        simp [hlt]

theorem expValue_of {s : List Char} {e : ℤ} (h : ExpText s e) : expValue s = some e := expValue_iff.2 h

/-- an exponent does not start with a digit or a point -/
theorem expText_head {s : List Char} {e : ℤ} (h : ExpText s e) :
    s.takeWhile Char.isDigit = [] ∧ s.dropWhile Char.isDigit = s ∧ s.head? ≠ some '.' := by
  rcases h with ⟨rfl, rfl⟩ | ⟨c, es, rfl, rfl | rfl, he, _⟩
  · exact ⟨rfl, rfl, by simp⟩
  · exact ⟨rfl, rfl, by simp⟩
  · exact ⟨rfl, rfl, by simp⟩

theorem takeDigits {ds t : List Char} (h : ∀ c ∈ ds, Digit c) :
    (ds ++ t).takeWhile Char.isDigit = ds ++ t.takeWhile Char.isDigit ∧ (ds ++ t).dropWhile Char.isDigit = t.dropWhile Char.isDigit :=
  ⟨List.takeWhile_append_of_pos fun c hc => digit_isDigit (h c hc), List.dropWhile_append_of_pos fun c hc => digit_isDigit (h c hc)⟩

theorem unsignedValue_of {s : List Char} {x : ℚ} (h : UnsignedText s x) : unsignedValue s = some x := by
  obtain ⟨ip, point, fp, exp, e, rfl, hip, hfp, hne, hpt, hexp, rfl⟩ := h
  obtain ⟨e1, e2, e3⟩ := expText_head hexp
  unfold unsignedValue
  simp only [(takeDigits hip).1, (takeDigits hip).2]
  rcases hpt with rfl | ⟨rfl, rfl⟩
  · have t1 : List.takeWhile Char.isDigit (['.'] ++ (fp ++ exp)) = [] := rfl
    have t2 : List.dropWhile Char.isDigit (['.'] ++ (fp ++ exp)) = '.' :: (fp ++ exp) := rfl
    rw [t1, t2]
    simp only [(takeDigits hfp).1, (takeDigits hfp).2, e1, e2, List.append_nil, expValue_of hexp, Option.bind_some, if_neg hne]
  · simp only [List.nil_append, List.append_nil] at hne ⊢
    rw [e1, e2]
    split
    · rename_i r
      simp at e3
    · simp [expValue_of hexp, hne]

theorem taken_digits (s : List Char) : ∀ c ∈ s.takeWhile Char.isDigit, Digit c :=
  fun c hc => (digit_iff c).1 (List.all_eq_true.1 (List.all_takeWhile (l := s) (p := Char.isDigit)) c hc)

theorem unsignedValue_iff {s : List Char} {x : ℚ} : unsignedValue s = some x ↔ UnsignedText s x := by
  refine ⟨?_, unsignedValue_of⟩
  intro h
  have hs : s = s.takeWhile Char.isDigit ++ s.dropWhile Char.isDigit := (List.takeWhile_append_dropWhile).symm
  unfold unsignedValue at h
  simp only at h
  split at h
  · rename_i r hr
    rw [Option.bind_eq_some_iff] at h
    obtain ⟨e, he, h⟩ := h
    split at h
    · cases h
    · rename_i hne
      obtain rfl := Option.some.inj h
      refine ⟨s.takeWhile Char.isDigit, ['.'], r.takeWhile Char.isDigit, r.dropWhile Char.isDigit, e, ?_, taken_digits s, taken_digits r, hne, Or.inl rfl,
        expValue_iff.1 he, rfl⟩
      rw [List.takeWhile_append_dropWhile, List.singleton_append, ← hr]
      exact hs
  · rw [Option.bind_eq_some_iff] at h
    obtain ⟨e, he, h⟩ := h
    split at h
    · cases h
    · rename_i hne
      obtain rfl := Option.some.inj h
      refine ⟨s.takeWhile Char.isDigit, [], [], s.dropWhile Char.isDigit, e, ?_, taken_digits s, by simp, by simpa using hne, Or.inr ⟨rfl, rfl⟩,
        expValue_iff.1 he, by simp⟩
      simpa using hs

theorem unsigned_head {t : List Char} {x : ℚ} (h : UnsignedText t x) : t.head? ≠ some '+' ∧ t.head? ≠ some '-' := by
  obtain ⟨ip, point, fp, exp, e, rfl, hip, hfp, hne, hpt, hexp, rfl⟩ := h
  cases ip with
  | cons c ip =>
    have := hip c (by simp)
    simp only [List.cons_append, List.head?_cons, ne_eq, Option.some.injEq]
    constructor <;> (rintro rfl; revert this; unfold Digit; decide)
  | nil =>
    rcases hpt with rfl | ⟨rfl, rfl⟩
    · simp
    · simp at hne

theorem numValue_of {s : List Char} {x : ℚ} (h : NumText s x) : numValue s = some x := by
  rcases h with h | ⟨t, rfl, h⟩ | ⟨t, y, rfl, h, rfl⟩
  · obtain ⟨h1, h2⟩ := unsigned_head h
    unfold numValue
    split
    · simp at h1
    · simp at h2
    · exact unsignedValue_of h
  · exact unsignedValue_of h
  · show (unsignedValue t).map _ = _
    rw [unsignedValue_of h]
    rfl

theorem numValue_iff {s : List Char} {x : ℚ} : numValue s = some x ↔ NumText s x := by
  refine ⟨?_, numValue_of⟩
  intro h
  unfold numValue at h
  split at h
  · exact Or.inr (Or.inl ⟨_, rfl, unsignedValue_iff.1 h⟩)
  · rw [Option.map_eq_some_iff] at h
    obtain ⟨y, hy, rfl⟩ := h
    exact Or.inr (Or.inr ⟨_, y, rfl, unsignedValue_iff.1 hy, rfl⟩)
  · exact Or.inl (unsignedValue_iff.1 h)

theorem digits_colon {ds : List Char} (h : ∀ c ∈ ds, Digit c) : ':' ∉ ds := by
  intro hc
  have := h _ hc
  revert this
  unfold Digit
  decide

/-- there is no colon in a number -/
theorem unsignedText_colon {s : List Char} {x : ℚ} (h : UnsignedText s x) : ':' ∉ s := by
  obtain ⟨ip, point, fp, exp, e, rfl, hip, hfp, hne, hpt, hexp, rfl⟩ := h
  have h1 := digits_colon hip
  have h2 := digits_colon hfp
  have h3 : ':' ∉ point := by
    rcases hpt with rfl | ⟨rfl, _⟩ <;> simp
  have h4 : ':' ∉ exp := by
    rcases hexp with ⟨rfl, _⟩ | ⟨c, es, rfl, hc, ⟨sign, ds, rfl, _, hds, hs⟩, _⟩
    · simp
    · have h5 := digits_colon hds
      have h6 : ':' ∉ sign := by
        rcases hs with ⟨rfl | rfl, _⟩ | ⟨rfl, _⟩ <;> simp
      rcases hc with rfl | rfl <;> simp [h5, h6]
  simp [h1, h2, h3, h4]

theorem numText_colon {s : List Char} {x : ℚ} (h : NumText s x) : ':' ∉ s := by
  rcases h with h | ⟨t, rfl, h⟩ | ⟨t, y, rfl, h, rfl⟩
  · exact unsignedText_colon h
  · have := unsignedText_colon h; simp [this]
  · have := unsignedText_colon h; simp [this]

theorem decFmt_num {R : Rounder ℚ} (q : ℚ) : NumText (decFmt (.fin q : XF R)) (dec4 q) := by
  have hlt : units4 q % 10000 < 10000 := Nat.mod_lt _ (by omega)
  obtain ⟨h1, h2, h3⟩ := digits4_spec _ hlt
  have hU : UnsignedText (fmtNat (units4 q / 10000) ++ '.' :: digits4 (units4 q % 10000)) ((units4 q : ℚ) / 10000) := by
    refine ⟨fmtNat (units4 q / 10000), ['.'], digits4 (units4 q % 10000), [], 0, by simp, fun c hc => (digit_iff c).1 (fmtNat_digits _ c hc),
      fun c hc => (digit_iff c).1 (h3 c hc), by simp [fmtNat_ne_nil], Or.inl rfl, Or.inl ⟨rfl, rfl⟩, ?_⟩
    have hdec : decimal (fmtNat (units4 q / 10000) ++ digits4 (units4 q % 10000)) = units4 q := by
      show Nat.ofDigitChars 10 _ 0 = _
      rw [Nat.ofDigitChars_append, Nat.ofDigitChars_eq_ofDigitChars_zero, h1, h2, fmtNat_eq, Nat.ofDigitChars_ten_toDigits]
      exact Nat.div_add_mod (units4 q) 10000
    rw [hdec, h1]
    norm_num
    ring
  have e0 : decFmt (.fin q : XF R) =
      (if q < 0 then ['-'] else []) ++ fmtNat (units4 q / 10000) ++ '.' :: digits4 (units4 q % 10000) := rfl
  rw [e0]
  unfold dec4
  by_cases hq : q < 0
  · rw [if_pos hq, if_pos hq]
    exact Or.inr (Or.inr ⟨_, _, by simp, hU, by ring⟩)
  · rw [if_neg hq, if_neg hq]
    exact Or.inl (by simpa using hU)

/-- a `strconv.ParseFloat` that reads all decimal texts of numbers -/
def numParse {R : Rounder ℚ} (s : List Char) : Option (XF R) :=
  match numValue s with
  | some x => some (XF.round x)
  | none => decParse s

/-- decimal texts, with exponents -/
def numText (R : Rounder ℚ) : FText (XF R) where
  fmt4 := decFmt
  parse := numParse
  round4 := decRound
  law x := by
    cases x with
    | nan => exact ⟨2, "NaN".toList, rfl, by decide, by decide, rfl, fun h => absurd h (by simp [XF.eq_def, XF.sub_def, XF.add, XF.eq])⟩
    | inf s =>
      refine ⟨1, (if s then '-' else '+') :: "Inf".toList, by simp [decFmt], by simp, ?_, ?_, ?_⟩
      · cases s <;> decide
      · cases s <;> rfl
      · intro h
        exfalso
        cases s <;> simp [XF.eq_def, XF.sub_def, XF.add, XF.neg, XF.eq] at h
    | fin q =>
      refine ⟨0, decFmt (.fin q : XF R), rfl, ?_, ?_, ?_, fun _ => rfl⟩
      · simp [decFmt]
      · intro c hc
        unfold decFmt at hc
        rw [List.mem_append, List.mem_append, List.mem_cons] at hc
        rcases hc with (hc | hc) | rfl | hc
        · split at hc
          · rw [List.mem_singleton] at hc; subst hc; decide
          · cases hc
        · exact (isDigit_plain (fmtNat_digits _ c hc)).2.2.2
        · decide
        · exact (isDigit_plain ((digits4_spec _ (Nat.mod_lt _ (by omega))).2.2 c hc)).2.2.2
      · unfold numParse
        rw [numValue_of (decFmt_num q)]
        rfl

theorem numText_reads {τ : Option SumOrder} : ReadsDecimals (τ := τ) (numText (b64o τ)) := by
  intro s x hs hx
  show numParse s = _
  unfold numParse
  rw [numValue_of hs]
  obtain ⟨r1, _⟩ := rep_of_bound ((short_bound hx).trans ten305)
  have hr : rnd64 x = some (rv x) := by
    unfold Rep64 at r1
    rw [rnd64_eq, rv_idem] at r1
    rw [rnd64_eq]
    split at r1
    · cases r1
    · rename_i hlt
      rw [if_neg hlt]
  simp only [XF.round, b64o, hr]
  rfl

end Boo
