import Verif.Lemmas.TextData
import Verif.Lemmas.B64

/-!
# An instance of the laws of `FText`: decimal numbers

`%5.4f` as in Go: the decimal number with 4 decimals nearest to the exact value (ties to even). `decParse` accepts only
plain decimal numbers, `NaN`, `+Inf` and `-Inf` (`strconv.ParseFloat` accepts more).
-/

namespace Boo
open GoFloat

/-- `|q|` in units of 0.0001, rounded to nearest -/
def units4 (q : ℚ) : Nat := (rne (|q| * 10000)).toNat

/-- the decimal number with 4 decimals nearest to `q` -/
def dec4 (q : ℚ) : ℚ := (if q < 0 then -1 else 1) * ((units4 q : ℚ) / 10000)

/-- four digits -/
def digits4 (n : Nat) : List Char := List.leftpad 4 '0' (fmtNat n)

/-- `%5.4f` -/
def decFmt {R : Rounder ℚ} : XF R → List Char
  | .nan => "  NaN".toList
  | .inf s => ' ' :: (if s then '-' else '+') :: "Inf".toList
  | .fin q => (if q < 0 then ['-'] else []) ++ fmtNat (units4 q / 10000) ++ '.' :: digits4 (units4 q % 10000)

/-- decimal numbers without sign -/
def decUnsigned (t : List Char) : Option ℚ :=
  match t.dropWhile Char.isDigit with
  | '.' :: fr => if fr.all Char.isDigit then
      some ((Nat.ofDigitChars 10 (t.takeWhile Char.isDigit ++ fr) 0 : ℚ) / 10 ^ fr.length) else none
  | _ => none

/-- the part of `strconv.ParseFloat` that is modelled -/
def decParse {R : Rounder ℚ} : List Char → Option (XF R)
  | '-' :: 'I' :: _ => some (.inf true)
  | '+' :: 'I' :: _ => some (.inf false)
  | 'N' :: _ => some .nan
  | '-' :: t => (decUnsigned t).map fun q => XF.round (-1 * q)
  | t => (decUnsigned t).map fun q => XF.round (1 * q)

/-- what is read back -/
def decRound {R : Rounder ℚ} : XF R → XF R
  | .fin q => XF.round (dec4 q)
  | x => x

theorem digits4_spec (n : Nat) (h : n < 10000) : (digits4 n).length = 4 ∧ Nat.ofDigitChars 10 (digits4 n) 0 = n ∧
    ∀ c ∈ digits4 n, c.isDigit = true := by
  refine ⟨?_, ?_, ?_⟩
  · unfold digits4
    rw [List.length_leftpad, fmtNat_eq]
    have := (Nat.length_toDigits_le_iff (b := 10) (n := n) (k := 4) (by omega) (by omega)).2 (by omega)
    omega
  · unfold digits4 List.leftpad
    rw [Nat.ofDigitChars_append, Nat.ofDigitChars_replicate_zero, Nat.mul_zero, fmtNat_eq, Nat.ofDigitChars_ten_toDigits]
  · intro c hc
    unfold digits4 List.leftpad at hc
    rw [List.mem_append] at hc
    rcases hc with hc | hc
    · rw [List.eq_of_mem_replicate hc]; decide
    · exact fmtNat_digits n c hc

theorem decUnsigned_fmt (n : Nat) :
    decUnsigned (fmtNat (n / 10000) ++ '.' :: digits4 (n % 10000)) = some ((n : ℚ) / 10000) := by
  have hlt : n % 10000 < 10000 := Nat.mod_lt _ (by omega)
  obtain ⟨h1, h2, h3⟩ := digits4_spec _ hlt
  have hd := fmtNat_digits (n / 10000)
  have e1 : (fmtNat (n / 10000) ++ '.' :: digits4 (n % 10000)).dropWhile Char.isDigit = '.' :: digits4 (n % 10000) := by
    rw [List.dropWhile_append_of_pos hd]; rfl
  have e2 : (fmtNat (n / 10000) ++ '.' :: digits4 (n % 10000)).takeWhile Char.isDigit = fmtNat (n / 10000) := by
    rw [List.takeWhile_append_of_pos hd]
    have : List.takeWhile Char.isDigit ('.' :: digits4 (n % 10000)) = [] := rfl
    rw [this, List.append_nil]
  have hall : (digits4 (n % 10000)).all Char.isDigit = true := by simpa using h3
  unfold decUnsigned
  rw [e1, e2]
  simp only [hall, if_true, h1, Option.some.injEq]
  rw [Nat.ofDigitChars_append, Nat.ofDigitChars_eq_ofDigitChars_zero, h1, h2, fmtNat_eq, Nat.ofDigitChars_ten_toDigits]
  have : 10 ^ 4 * (n / 10000) + n % 10000 = n := Nat.div_add_mod n 10000
  rw [this]
  norm_num

theorem decParse_fmt {R : Rounder ℚ} (q : ℚ) : decParse (decFmt (.fin q : XF R)) = some (XF.round (dec4 q) : XF R) := by
  obtain ⟨c, cs, hc⟩ := List.exists_cons_of_ne_nil (fmtNat_ne_nil (units4 q / 10000))
  have hcd := fmtNat_digits (units4 q / 10000) c (by rw [hc]; simp)
  have n1 : c ≠ 'I' := by rintro rfl; revert hcd; decide
  have n2 : c ≠ 'N' := by rintro rfl; revert hcd; decide
  have n3 : c ≠ '-' := by rintro rfl; revert hcd; decide
  have n4 : c ≠ '+' := by rintro rfl; revert hcd; decide
  have key := decUnsigned_fmt (units4 q)
  have e0 : decFmt (.fin q : XF R) =
      (if q < 0 then ['-'] else []) ++ fmtNat (units4 q / 10000) ++ '.' :: digits4 (units4 q % 10000) := rfl
  rw [e0]
  unfold dec4
  by_cases hq : q < 0
  · rw [if_pos hq, if_pos hq]
    simp only [List.cons_append, List.nil_append]
    rw [hc] at key ⊢
    simp only [List.cons_append] at key ⊢
    rw [decParse.eq_def]
    split
    · rename_i e; simp at e; exact absurd e.1 n1
    · rename_i e; simp at e
    · rename_i e; simp at e
    · rename_i e; simp at e; rw [← e, key]; rfl
    · rename_i h1 h2 h3 h4; exact absurd rfl (h4 _)
  · rw [if_neg hq, if_neg hq]
    simp only [List.nil_append]
    rw [hc] at key ⊢
    simp only [List.cons_append] at key ⊢
    rw [decParse.eq_def]
    split
    · rename_i e; simp at e; exact absurd e.1 n3
    · rename_i e; simp at e; exact absurd e.1 n4
    · rename_i e; simp at e; exact absurd e.1 n2
    · rename_i e; simp at e; exact absurd e.1 n3
    · rw [key]; rfl

/-- decimal text -/
def decText (R : Rounder ℚ) : FText (XF R) where
  fmt4 := decFmt
  parse := decParse
  round4 := decRound
  law x := by
    cases x with
    | nan => exact ⟨2, "NaN".toList, rfl, by decide, by decide, rfl, fun h => absurd h (by simp [XF.eq_def, XF.sub_def, XF.add, XF.eq])⟩
    | inf s =>
      refine ⟨1, (if s then '-' else '+') :: "Inf".toList, by simp [decFmt], by simp, ?_, ?_, ?_⟩
      · cases s <;> decide
      · cases s <;> rfl
      · intro h
        exfalso
        cases s <;> simp [XF.eq_def, XF.sub_def, XF.add, XF.neg, XF.eq] at h
    | fin q =>
      refine ⟨0, decFmt (.fin q), rfl, ?_, ?_, decParse_fmt q, fun _ => rfl⟩
      · simp [decFmt]
      · intro c hc
        unfold decFmt at hc
        rw [List.mem_append, List.mem_append, List.mem_cons] at hc
        rcases hc with (hc | hc) | rfl | hc
        · split at hc
          · rw [List.mem_singleton] at hc; subst hc; decide
          · cases hc
        · exact (isDigit_plain (fmtNat_digits _ c hc)).2.2.2
        · decide
        · exact (isDigit_plain ((digits4_spec _ (Nat.mod_lt _ (by omega))).2.2 c hc)).2.2.2

/-- `dec4` is within half a unit of the fourth decimal. -/
theorem dec4_near (q : ℚ) : |dec4 q - q| ≤ 1 / 20000 := by
  have hr : ∀ y : ℚ, |(rne y : ℚ) - y| ≤ 1 / 2 := by
    intro y
    unfold rne
    simp only
    have h1 := Int.floor_le y
    have h2 := Int.lt_floor_add_one y
    rw [abs_le]
    split
    · constructor <;> linarith
    · split
      · push_cast; constructor <;> linarith
      · split
        · constructor <;> linarith
        · push_cast; constructor <;> linarith
  have h0 : (0 : ℤ) ≤ rne (|q| * 10000) := by
    unfold rne
    simp only
    have : (0 : ℤ) ≤ ⌊|q| * 10000⌋ := Int.floor_nonneg.2 (by positivity)
    split
    · exact this
    · split
      · omega
      · split <;> omega
  have hu : ((units4 q : ℕ) : ℚ) = (rne (|q| * 10000) : ℚ) := by
    unfold units4
    have : (((rne (|q| * 10000)).toNat : ℤ) : ℚ) = (rne (|q| * 10000) : ℚ) := by rw [Int.toNat_of_nonneg h0]
    exact_mod_cast this
  have h := abs_le.1 (hr (|q| * 10000))
  unfold dec4
  rw [hu, abs_le]
  by_cases hq : q < 0
  · rw [if_pos hq]
    rw [abs_of_neg hq] at h ⊢
    constructor <;> linarith [h.1, h.2]
  · rw [if_neg hq]
    rw [abs_of_nonneg (not_lt.1 hq)] at h ⊢
    constructor <;> linarith [h.1, h.2]

end Boo
