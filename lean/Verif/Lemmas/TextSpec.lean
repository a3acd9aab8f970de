import Verif.Spec.Text
import Verif.Lemmas.TextData

/-!
# The text functions of the model and the specification of texts
-/

namespace Boo
open Spec

theorem isSpace_iff (c : Char) : isSpace c = true ↔ White c := by
  unfold isSpace White whiteSpace
  simp only [Bool.or_eq_true, Bool.and_eq_true, decide_eq_true_eq, List.mem_cons, List.not_mem_nil, or_false]
  omega

theorem isSpace_false {c : Char} : isSpace c = false ↔ ¬ White c := by
  rw [← isSpace_iff]; simp

theorem strFields_white (b : List Char) (hb : ∀ c ∈ b, White c) (s : List Char) : strFields (b ++ s) = strFields s := by
  induction b with
  | nil => rfl
  | cons c b ih =>
    have := strFields_append [] c (b ++ s) ((isSpace_iff c).2 (hb c (by simp)))
    rw [List.nil_append, strFields_nil, List.nil_append] at this
    rw [List.cons_append, this, ih fun d hd => hb d (by simp [hd])]

theorem words_fields : ∀ s : List Char, Words (strFields s) s := by
  intro s
  induction hn : s.length using Nat.strong_induction_on generalizing s with
  | _ n ih =>
    subst hn
    set b := s.takeWhile isSpace with hb
    have hs : s = b ++ s.dropWhile isSpace := (List.takeWhile_append_dropWhile).symm
    have hbw : ∀ c ∈ b, White c := fun c hc => (isSpace_iff c).1 (List.all_eq_true.1 List.all_takeWhile c hc)
    set s1 := s.dropWhile isSpace with hs1
    set w := s1.takeWhile (fun c => !isSpace c) with hw
    have hs2 : s1 = w ++ s1.dropWhile (fun c => !isSpace c) := (List.takeWhile_append_dropWhile).symm
    have hww : ∀ c ∈ w, ¬ White c := fun c hc => isSpace_false.1 (by simpa using List.all_eq_true.1 List.all_takeWhile c hc)
    set s3 := s1.dropWhile (fun c => !isSpace c) with hs3
    rw [hs, strFields_white b hbw]
    cases hc1 : s1 with
    | nil =>
      rw [strFields_nil, List.append_nil]
      exact .none hbw
    | cons c t =>
      have hc : isSpace c = false := by
        have := List.head_dropWhile_not isSpace (l := s) (by rw [← hs1, hc1]; simp)
        simpa [← hs1, hc1] using this
      have hwne : w ≠ [] := by rw [hw, hc1, List.takeWhile_cons]; simp [hc]
      rw [← hc1]
      cases hc3 : s3 with
      | nil =>
        rw [hs2, hc3, List.append_nil, strFields_word w hwne fun c hc => isSpace_false.2 (hww c hc)]
        exact .last hbw hwne hww
      | cons d u =>
        have hd : isSpace d = true := by
          have := List.head_dropWhile_not (fun c => !isSpace c) (l := s1) (by rw [← hs3, hc3]; simp)
          simpa [← hs3, hc3] using this
        rw [hs2, hc3, strFields_append _ _ _ hd, strFields_word w hwne fun c hc => isSpace_false.2 (hww c hc)]
        rw [← List.append_assoc]
        refine .more hbw hwne hww ((isSpace_iff d).1 hd) (ih _ ?_ u rfl)
        have : s.length = b.length + (w.length + (u.length + 1)) := by
          conv_lhs => rw [hs, hs2, hc3]
          simp
        omega

/-- `strings.Fields` returns the words -/
theorem strFields_iff (s : List Char) (ws : List (List Char)) : strFields s = ws ↔ Words ws s := by
  constructor
  · rintro rfl
    exact words_fields s
  · intro h
    induction h with
    | none hb => simpa [strFields_nil] using strFields_white _ hb []
    | last hb hw hn => rw [strFields_white _ hb, strFields_word _ hw fun c hc => isSpace_false.2 (hn c hc)]
    | more hb hw hn hc _ ih =>
      rw [List.append_assoc, strFields_white _ hb, strFields_append _ _ _ ((isSpace_iff _).2 hc),
        strFields_word _ hw fun c hc => isSpace_false.2 (hn c hc), ih]
      rfl

theorem digit_iff (c : Char) : c.isDigit = true ↔ Digit c := by
  unfold Char.isDigit Digit
  simp only [Bool.and_eq_true, decide_eq_true_eq, ge_iff_le, UInt32.le_iff_toNat_le]
  rfl

/-- the sign and the rest -/
def signOf (s : List Char) : Bool × List Char :=
  match s with
  | '-' :: t => (true, t)
  | '+' :: t => (false, t)
  | _ => (false, s)

theorem atoi_eq (s : List Char) : atoi s =
    if ((signOf s).2.isEmpty || !(signOf s).2.all Char.isDigit) = true then none
    else if -2 ^ 63 ≤ (if (signOf s).1 = true then -(Nat.ofDigitChars 10 (signOf s).2 0 : Int) else Nat.ofDigitChars 10 (signOf s).2 0) ∧
        (if (signOf s).1 = true then -(Nat.ofDigitChars 10 (signOf s).2 0 : Int) else Nat.ofDigitChars 10 (signOf s).2 0) < 2 ^ 63 then
      some (if (signOf s).1 = true then -(Nat.ofDigitChars 10 (signOf s).2 0 : Int) else Nat.ofDigitChars 10 (signOf s).2 0) else none := by
  unfold atoi
  split
  rename_i neg ds heq
  have : signOf s = (neg, ds) := heq
  rw [this]

/-- `strconv.Atoi` reads the decimal texts of int64 -/
theorem atoi_iff (s : List Char) (n : Int) : atoi s = some n ↔ IntText s n := by
  have hdec : ∀ ds, decimal ds = Nat.ofDigitChars 10 ds 0 := fun ds => rfl
  have hall : ∀ ds : List Char, (ds.all Char.isDigit = true) ↔ ∀ c ∈ ds, Digit c := by
    intro ds
    rw [List.all_eq_true]
    exact forall₂_congr fun c _ => digit_iff c
  have hcond : ∀ ds : List Char, (ds.isEmpty || !ds.all Char.isDigit) = false ↔ ds ≠ [] ∧ ∀ c ∈ ds, Digit c := by
    intro ds
    rw [← hall]
    cases ds <;> simp
  have hat : ∀ (neg : Bool) (ds : List Char), signOf s = (neg, ds) →
      (atoi s = some n ↔ ds ≠ [] ∧ (∀ c ∈ ds, Digit c) ∧ n = (if neg then -(decimal ds : Int) else decimal ds) ∧ -2 ^ 63 ≤ n ∧ n < 2 ^ 63) := by
    intro neg ds heq
    rw [atoi_eq, heq]
    simp only
    rw [← hdec]
    by_cases hc : (ds.isEmpty || !ds.all Char.isDigit) = false
    · obtain ⟨h1, h2⟩ := (hcond ds).1 hc
      rw [hc, if_neg (by simp)]
      generalize (if neg = true then -(decimal ds : Int) else decimal ds) = m
      constructor
      · intro h
        split at h
        · rename_i hr
          obtain rfl := Option.some.inj h
          exact ⟨h1, h2, rfl, hr⟩
        · cases h
      · rintro ⟨_, _, rfl, hr⟩
        rw [if_pos hr]
    · rw [if_pos (Bool.eq_true_of_not_eq_false hc)]
      constructor
      · intro h; cases h
      · rintro ⟨h1, h2, _⟩
        exact absurd ((hcond ds).2 ⟨h1, h2⟩) hc
  have hnd : ∀ {t u : List Char} {c : Char}, (∀ c ∈ u, Digit c) → u = c :: t → c ≠ '-' ∧ c ≠ '+' := by
    intro t u c h e
    have := h c (by rw [e]; simp)
    constructor <;> rintro rfl <;> exact absurd this (by unfold Digit; decide)
  have pos : (0 : Int) ≤ 2 ^ 63 := by positivity
  constructor
  · intro h
    rcases hm : signOf s with ⟨neg, ds⟩
    obtain ⟨h1, h2, h3, h4, h5⟩ := (hat neg ds hm).1 h
    unfold signOf at hm
    split at hm
    · obtain ⟨rfl, rfl⟩ := Prod.mk.inj hm
      exact ⟨['-'], _, rfl, h1, h2, Or.inr ⟨rfl, by simpa using h3, h4⟩⟩
    · obtain ⟨rfl, rfl⟩ := Prod.mk.inj hm
      exact ⟨['+'], _, rfl, h1, h2, Or.inl ⟨Or.inr rfl, by simpa using h3, h5⟩⟩
    · obtain ⟨rfl, rfl⟩ := Prod.mk.inj hm
      exact ⟨[], _, rfl, h1, h2, Or.inl ⟨Or.inl rfl, by simpa using h3, h5⟩⟩
  · rintro ⟨sign, ds, rfl, h1, h2, ⟨rfl | rfl, h3, h4⟩ | ⟨rfl, h3, h4⟩⟩
    · refine (hat false ds ?_).2 ⟨h1, h2, by simpa using h3, ?_, h4⟩
      · rw [List.nil_append]
        unfold signOf
        split
        · rename_i t
          exact absurd rfl (hnd h2 rfl).1
        · rename_i t
          exact absurd rfl (hnd h2 rfl).2
        · rfl
      · rw [h3]
        exact (neg_nonpos.2 pos).trans (Int.natCast_nonneg _)
    · refine (hat false ds rfl).2 ⟨h1, h2, by simpa using h3, ?_, h4⟩
      rw [h3]
      exact (neg_nonpos.2 pos).trans (Int.natCast_nonneg _)
    · refine (hat true ds rfl).2 ⟨h1, h2, by simpa using h3, h4, ?_⟩
      rw [h3]
      exact (neg_nonpos.2 (Int.natCast_nonneg _)).trans_lt (by positivity)

theorem lines_of (text : List Char) : ∃ ls, linesOf text = ls.map (· ++ ['\n']) ∧ Lines ls text := by
  induction hn : text.length using Nat.strong_induction_on generalizing text with
  | _ n ih =>
    subst hn
    by_cases h : '\n' ∈ text
    · obtain ⟨s, t, rfl, hs⟩ := List.eq_append_cons_of_mem h
      obtain ⟨ls, h1, h2, rest, h3, h4⟩ := ih t.length (by simp; omega) t rfl
      refine ⟨s :: ls, ?_, ?_, rest, h3, ?_⟩
      · rw [linesOf_line s t hs, h1]; rfl
      · simpa using ⟨hs, h2⟩
      · rw [h4]; simp
    · exact ⟨[], linesOf_part text h, by simp, text, h, by simp⟩

/-- the lines that `ReadString('\n')` returns one after another -/
theorem linesOf_iff (text : List Char) (ls : List (List Char)) : linesOf text = ls.map (· ++ ['\n']) ↔ Lines ls text := by
  have key : ∀ ls : List (List Char), Lines ls text → linesOf text = ls.map (· ++ ['\n']) := by
    rintro ls ⟨h1, rest, h2, rfl⟩
    induction ls with
    | nil => exact linesOf_part rest h2
    | cons l ls ih =>
      have := linesOf_line l (ls.flatMap (· ++ ['\n']) ++ rest) (h1 l (by simp))
      rw [List.map_cons, ← ih fun l hl => h1 l (by simp [hl]), ← this]
      congr 1
      simp
  constructor
  · intro h
    obtain ⟨ls', h1, h2⟩ := lines_of text
    rw [h1] at h
    have : ls' = ls := List.map_injective_iff.2 (fun a b e => List.append_cancel_right e) h
    rwa [← this]
  · exact key ls

theorem strFields_newline (l : List Char) : strFields (l ++ ['\n']) = strFields l := by
  rw [strFields_append _ _ _ (by decide), strFields_nil, List.append_nil]

end Boo
