import Verif.Spec.Json
import Verif.Lemmas.Json
import Mathlib.Tactic.IntervalCases

/-!
# The reader of JSON accepts exactly the texts of the grammar
-/

namespace Boo
open GoFloat Spec
set_option linter.unusedSectionVars false

/-! ### white space -/

theorem takeWhile_all (p : Char → Bool) (s : List Char) : ∀ c ∈ s.takeWhile p, p c = true := by
  induction s with
  | nil => intro c hc; cases hc
  | cons d s ih =>
    intro c hc
    by_cases h : p d = true
    · simp only [List.takeWhile_cons, h, if_true, List.mem_cons] at hc
      rcases hc with rfl | hc
      · exact h
      · exact ih c hc
    · simp [List.takeWhile_cons, h] at hc

theorem isWs_iff (c : Char) : isWs c = true ↔ c = ' ' ∨ c = '\t' ∨ c = '\n' ∨ c = '\r' := by
  simp [isWs, or_assoc]

theorem ws_iff (s : List Char) : Ws s ↔ ∀ c ∈ s, isWs c = true := by
  unfold Ws; simp only [isWs_iff]

theorem skipWs_split (s : List Char) : ∃ w, Ws w ∧ s = w ++ skipWs s := by
  refine ⟨s.takeWhile isWs, ?_, (List.takeWhile_append_dropWhile).symm⟩
  rw [ws_iff]
  intro c hc
  exact takeWhile_all _ _ _ hc

/-- a text that is empty or does not start with white space -/
def NoWs (s : List Char) : Prop := ∀ c, s.head? = some c → isWs c = false

theorem skipWs_append {w s : List Char} (hw : Ws w) (hs : NoWs s) : skipWs (w ++ s) = s := by
  induction w with
  | nil =>
    cases s with
    | nil => rfl
    | cons c s =>
      have := hs c rfl
      simp [skipWs, this]
  | cons c w ih =>
    rw [ws_iff] at hw
    have h1 := hw c (by simp)
    have := ih ((ws_iff w).2 fun d hd => hw d (by simp [hd]))
    simpa [skipWs, h1] using this

theorem skipWs_nil_iff (s : List Char) : skipWs s = [] ↔ Ws s := by
  rw [ws_iff]
  unfold skipWs
  induction s with
  | nil => simp
  | cons d s ih =>
    by_cases h : isWs d = true
    · simp [List.dropWhile_cons, h, ih]
    · simp [List.dropWhile_cons, h]

theorem skipWs_noWs (s : List Char) : NoWs (skipWs s) := by
  intro c h
  unfold skipWs at h
  induction s with
  | nil => cases h
  | cons d s ih =>
    by_cases hd : isWs d = true
    · simp only [List.dropWhile_cons, hd, if_true] at h; exact ih h
    · simp only [List.dropWhile_cons, hd] at h
      simp at h; subst h; simpa using hd

theorem noWs_cons {c : Char} {s : List Char} (h : isWs c = false) : NoWs (c :: s) := by
  intro d hd; simp at hd; subst hd; exact h

/-! ### numbers -/

theorem scanDigits_some {s a r : List Char} (h : scanDigits s = some (a, r)) : JDigits a ∧ s = a ++ r := by
  unfold scanDigits at h
  split at h
  · cases h
  · next he =>
    cases h
    exact ⟨⟨by simpa using he, takeWhile_all _ _⟩, List.takeWhile_append_dropWhile.symm⟩

/-- a text that does not start with a digit -/
def NoDig (s : List Char) : Prop := ∀ c, s.head? = some c → c.isDigit = false

theorem takeWhile_digits {a r : List Char} (ha : ∀ c ∈ a, c.isDigit = true) (hr : NoDig r) :
    (a ++ r).takeWhile Char.isDigit = a ∧ (a ++ r).dropWhile Char.isDigit = r := by
  induction a with
  | nil =>
    cases r with
    | nil => exact ⟨rfl, rfl⟩
    | cons c r => have := hr c rfl; simp [this]
  | cons c a ih =>
    have h1 := ha c (by simp)
    have := ih fun d hd => ha d (by simp [hd])
    simp only [List.cons_append, List.takeWhile_cons, List.dropWhile_cons, h1, if_true]
    exact ⟨by rw [this.1], this.2⟩

theorem scanDigits_append {a r : List Char} (ha : JDigits a) (hr : NoDig r) : scanDigits (a ++ r) = some (a, r) := by
  obtain ⟨h1, h2⟩ := takeWhile_digits ha.2 hr
  unfold scanDigits
  rw [h1, h2, if_neg]
  simpa using ha.1

theorem scanSign_split (s : List Char) : ((scanSign s).1 = [] ∨ (scanSign s).1 = ['+'] ∨ (scanSign s).1 = ['-']) ∧
    s = (scanSign s).1 ++ (scanSign s).2 := by
  unfold scanSign
  split <;> simp

theorem scanSign_append {sg r : List Char} (h : sg = [] ∨ sg = ['+'] ∨ sg = ['-'])
    (hr : ∀ c, r.head? = some c → c.isDigit = true) : scanSign (sg ++ r) = (sg, r) := by
  rcases h with rfl | rfl | rfl
  · simp only [List.nil_append]
    unfold scanSign
    split
    · exact absurd (hr '+' rfl) (by decide)
    · exact absurd (hr '-' rfl) (by decide)
    · rfl
  · rfl
  · rfl

theorem scanExp_some {s a r : List Char} (h : scanExp s = some (a, r)) : JExpText a ∧ s = a ++ r := by
  cases s with
  | nil => unfold scanExp at h; cases h; exact ⟨Or.inl rfl, rfl⟩
  | cons c s =>
    unfold scanExp at h
    simp only at h
    split at h
    · next hc =>
      rw [Option.map_eq_some_iff] at h
      obtain ⟨⟨ds, r'⟩, h1, h2⟩ := h
      obtain ⟨h3, h4⟩ := scanDigits_some h1
      obtain ⟨h5, h6⟩ := scanSign_split s
      cases h2
      refine ⟨Or.inr ⟨c, (scanSign s).1, ds, hc, h5, h3, rfl⟩, ?_⟩
      conv_lhs => rw [h6, h4]
      simp
    · cases h; exact ⟨Or.inl rfl, rfl⟩

/-- what can follow a number -/
def NumEnd (s : List Char) : Prop := ∀ c, s.head? = some c → c.isDigit = false ∧ c ≠ '.' ∧ c ≠ 'e' ∧ c ≠ 'E'

theorem NumEnd.noDig {s : List Char} (h : NumEnd s) : NoDig s := fun c hc => (h c hc).1

theorem scanExp_append {a r : List Char} (ha : JExpText a) (hr : NumEnd r) : scanExp (a ++ r) = some (a, r) := by
  rcases ha with rfl | ⟨e, sg, ds, he, hsg, hds, rfl⟩
  · cases r with
    | nil => rfl
    | cons c r =>
      have := hr c rfl
      simp [scanExp, this]
  · have e1 : (e :: sg ++ ds) ++ r = e :: (sg ++ (ds ++ r)) := by simp
    rw [e1]
    unfold scanExp
    simp only
    rw [if_pos he]
    have e2 : scanSign (sg ++ (ds ++ r)) = (sg, ds ++ r) := by
      apply scanSign_append hsg
      intro c hc
      rcases ds with _ | ⟨d, ds⟩
      · exact absurd rfl hds.1
      · simp at hc; subst hc; exact hds.2 d (by simp)
    rw [e2]
    simp only
    rw [scanDigits_append hds hr.noDig]
    rfl

theorem scanFrac_some {s a r : List Char} (h : scanFrac s = some (a, r)) : JFracText a ∧ s = a ++ r := by
  unfold scanFrac at h
  split at h
  · rw [Option.map_eq_some_iff] at h
    obtain ⟨⟨ds, r'⟩, h1, h2⟩ := h
    obtain ⟨h3, h4⟩ := scanDigits_some h1
    cases h2
    exact ⟨Or.inr ⟨ds, h3, rfl⟩, by rw [h4]; rfl⟩
  · cases h; exact ⟨Or.inl rfl, rfl⟩

theorem exp_noDig {e r : List Char} (he : JExpText e) (hr : NumEnd r) : NoDig (e ++ r) := by
  rcases he with rfl | ⟨c, sg, ds, hc, _, _, rfl⟩
  · exact hr.noDig
  · intro d hd
    simp at hd; subst hd
    rcases hc with rfl | rfl <;> decide

theorem exp_noDot {e r : List Char} (he : JExpText e) (hr : NumEnd r) : (e ++ r).head? ≠ some '.' := by
  rcases he with rfl | ⟨c, sg, ds, hc, _, _, rfl⟩
  · intro h; exact (hr '.' h).2.1 rfl
  · intro hd
    simp at hd; subst hd
    rcases hc with h | h <;> revert h <;> decide

theorem scanFrac_append {a r : List Char} (ha : JFracText a) (h1 : NoDig r) (h2 : r.head? ≠ some '.') :
    scanFrac (a ++ r) = some (a, r) := by
  rcases ha with rfl | ⟨ds, hds, rfl⟩
  · simp only [List.nil_append]
    unfold scanFrac
    split
    · exact absurd rfl h2
    · rfl
  · simp only [List.cons_append]
    unfold scanFrac
    simp only
    rw [scanDigits_append hds h1]
    rfl

theorem frac_noDig {f r : List Char} (hf : JFracText f) (hr : NoDig r) : NoDig (f ++ r) := by
  rcases hf with rfl | ⟨ds, _, rfl⟩
  · exact hr
  · intro d hd; simp at hd; subst hd; decide

theorem scanInt_some {s a r : List Char} (h : scanInt s = some (a, r)) : JIntText a ∧ s = a ++ r := by
  unfold scanInt at h
  split at h
  · cases h; exact ⟨Or.inl rfl, rfl⟩
  · next hne =>
    obtain ⟨h3, h4⟩ := scanDigits_some h
    refine ⟨Or.inr ⟨h3, ?_⟩, h4⟩
    intro hh
    cases a with
    | nil => cases hh
    | cons c a => 
      simp at hh; subst hh
      exact hne (a ++ r) (by rw [h4]; rfl)

theorem scanInt_append {a r : List Char} (ha : JIntText a) (h1 : NoDig r) : scanInt (a ++ r) = some (a, r) := by
  rcases ha with rfl | ⟨hds, h0⟩
  · rfl
  · unfold scanInt
    split
    · next r' heq =>
      cases a with
      | nil => exact absurd rfl hds.1
      | cons c a => simp at heq h0; exact absurd heq.1 h0
    · exact scanDigits_append hds h1

theorem scanNum_some {s a r : List Char} (h : scanNum s = some (a, r)) : JNumText a ∧ s = a ++ r := by
  have key : ∀ sg t : List Char, (sg = [] ∨ sg = ['-']) →
      ((scanInt t).bind fun i => (scanFrac i.2).bind fun f => (scanExp f.2).map fun e => (sg ++ i.1 ++ f.1 ++ e.1, e.2)) =
        some (a, r) → JNumText a ∧ sg ++ t = a ++ r := by
    intro sg t hsg h
    simp only [Option.bind_eq_some_iff, Option.map_eq_some_iff, Prod.exists] at h
    obtain ⟨i, r1, h1, f, r2, h2, e, r3, h3, h4⟩ := h
    obtain ⟨a1, b1⟩ := scanInt_some h1
    obtain ⟨a2, b2⟩ := scanFrac_some h2
    obtain ⟨a3, b3⟩ := scanExp_some h3
    cases h4
    refine ⟨⟨sg, i, f, e, hsg, a1, a2, a3, rfl⟩, ?_⟩
    rw [b1, b2, b3]; simp
  unfold scanNum at h
  split at h
  · exact key ['-'] _ (Or.inr rfl) h
  · exact key [] _ (Or.inl rfl) h

theorem scanNum_append {a r : List Char} (ha : JNumText a) (hr : NumEnd r) : scanNum (a ++ r) = some (a, r) := by
  obtain ⟨sg, i, f, e, hsg, hi, hf, he, rfl⟩ := ha
  have h3 := scanExp_append he hr
  have h2 := scanFrac_append hf (exp_noDig he hr) (exp_noDot he hr)
  have h1 := scanInt_append hi (frac_noDig hf (exp_noDig he hr))
  have key : ((scanInt (i ++ (f ++ (e ++ r)))).bind fun i => (scanFrac i.2).bind fun f => (scanExp f.2).map fun e =>
      (sg ++ i.1 ++ f.1 ++ e.1, e.2)) = some (sg ++ i ++ f ++ e, r) := by
    rw [h1]; simp only [Option.bind_some]; rw [h2]; simp only [Option.bind_some]; rw [h3]; rfl
  have e1 : sg ++ i ++ f ++ e ++ r = sg ++ (i ++ (f ++ (e ++ r))) := by simp
  rw [e1]
  rcases hsg with rfl | rfl
  · simp only [List.nil_append] at key ⊢
    unfold scanNum
    split
    · next s r' heq =>
      have hd : (i ++ (f ++ (e ++ r))).head? = some '-' := by rw [heq]; rfl
      rcases hi with rfl | ⟨hds, _⟩
      · cases hd
      · cases i with
        | nil => exact absurd rfl hds.1
        | cons c i =>
          simp at hd
          have := hds.2 c (by simp)
          rw [hd] at this; exact absurd this (by decide)
    · exact key
  · exact key

/-! ### strings -/

theorem hexVal_iff (c : Char) (n : Nat) : hexVal c = some n ↔ Hex c n := by
  constructor
  · intro h
    unfold hexVal at h
    have le : ∀ a b : Char, a ≤ b ↔ a.toNat ≤ b.toNat := fun a b => by
      rw [Char.le_def, UInt32.le_iff_toNat_le]; rfl
    have hc : c = Char.ofNat c.toNat := (Char.ofNat_toNat c).symm
    simp only [le] at h
    split at h
    · next hh =>
      obtain ⟨h1, h2⟩ := hh
      change 48 ≤ c.toNat at h1; change c.toNat ≤ 57 at h2
      generalize c.toNat = k at *
      subst hc; cases h
      interval_cases k <;> (left; rfl)
    · split at h
      · next hh =>
        obtain ⟨h1, h2⟩ := hh
        change 97 ≤ c.toNat at h1; change c.toNat ≤ 102 at h2
        generalize c.toNat = k at *
        subst hc; cases h
        interval_cases k <;> (left; rfl)
      · split at h
        · next hh =>
          obtain ⟨h1, h2⟩ := hh
          change 65 ≤ c.toNat at h1; change c.toNat ≤ 70 at h2
          generalize c.toNat = k at *
          subst hc; cases h
          interval_cases k <;> (right; rfl)
        · cases h
  · intro h
    have hn : n < 16 := by
      rcases h with h | h
      · have := (List.getElem?_eq_some_iff.1 h).1; exact this
      · have := (List.getElem?_eq_some_iff.1 h).1; exact this
    rcases h with h | h
    · interval_cases n <;> (simp at h; subst h; decide)
    · interval_cases n <;> (simp at h; subst h; decide)

theorem hex4_iff (a b c d : Char) (n : Nat) :
    hex4 a b c d = some n ↔ ∃ x y z w, Hex a x ∧ Hex b y ∧ Hex c z ∧ Hex d w ∧ n = x * 4096 + y * 256 + z * 16 + w := by
  simp only [← hexVal_iff]
  unfold hex4
  constructor
  · intro h
    split at h
    · next x y z w h1 h2 h3 h4 =>
      cases h
      exact ⟨x, y, z, w, h1, h2, h3, h4, by ring⟩
    · cases h
  · rintro ⟨x, y, z, w, h1, h2, h3, h4, rfl⟩
    rw [h1, h2, h3, h4]
    simp only [Option.some.injEq]; ring

theorem simpleEsc_iff (e c : Char) : simpleEsc e = some c ↔ Esc e c := by
  constructor
  · intro h
    unfold simpleEsc at h
    split_ifs at h <;> (subst_vars; cases h; constructor)
  · rintro (_ | _) <;> decide

theorem scanStr_some (n : Nat) : ∀ {s : List Char} {ts : List StrTok} {r : List Char}, s.length ≤ n →
    scanStr s = some (ts, r) → ∃ t, StrText ts t ∧ s = t ++ '"' :: r := by
  induction n with
  | zero => intro s ts r hl h; cases s <;> simp at hl; rw [scanStr] at h; cases h
  | succ n ih =>
    intro s ts r hl h
    cases s with
    | nil => rw [scanStr] at h; cases h
    | cons c s =>
      simp only [List.length_cons] at hl
      rw [scanStr.eq_def] at h
      simp only at h
      split at h
      · next hc => cases h; subst hc; exact ⟨[], .nil, rfl⟩
      · next hq =>
        split at h
        · next hb =>
          subst hb
          cases s with
          | nil => cases h
          | cons e s =>
            simp only [List.length_cons] at hl
            simp only at h
            split at h
            · next hu =>
              subst hu
              split at h
              · next h1 h2 h3 h4 s =>
                simp only [List.length_cons] at hl
                simp only [Option.bind_eq_some_iff, Option.map_eq_some_iff, Prod.exists] at h
                obtain ⟨k, hk, ts', r', h5, h6⟩ := h
                obtain ⟨x, y, z, w, g1, g2, g3, g4, rfl⟩ := (hex4_iff _ _ _ _ _).1 hk
                obtain ⟨t, ht, rfl⟩ := ih (by omega) h5
                cases h6
                exact ⟨_, .uni g1 g2 g3 g4 ht, rfl⟩
              · cases h
            · simp only [Option.bind_eq_some_iff, Option.map_eq_some_iff, Prod.exists] at h
              obtain ⟨k, hk, ts', r', h5, h6⟩ := h
              obtain ⟨t, ht, rfl⟩ := ih (by omega) h5
              cases h6
              exact ⟨_, .esc ((simpleEsc_iff _ _).1 hk) ht, rfl⟩
        · next hb =>
          split at h
          · cases h
          · next h32 =>
            simp only [Option.map_eq_some_iff, Prod.exists] at h
            obtain ⟨ts', r', h5, h6⟩ := h
            obtain ⟨t, ht, rfl⟩ := ih (by omega) h5
            cases h6
            exact ⟨_, .plain hq hb (by omega) ht, rfl⟩

theorem scanStr_append {ts : List StrTok} {t : List Char} (h : StrText ts t) (r : List Char) :
    scanStr (t ++ '"' :: r) = some (ts, r) := by
  induction h with
  | nil => rw [List.nil_append, scanStr.eq_def]; rfl
  | plain h1 h2 h3 _ ih =>
    rw [List.cons_append, scanStr.eq_def]
    simp only
    rw [if_neg h1, if_neg h2, if_neg (by omega), ih]; rfl
  | esc he _ ih =>
    rename_i e c ts s _
    rw [List.cons_append, List.cons_append, scanStr.eq_def]
    simp only
    rw [if_neg (by decide), if_pos trivial, if_neg (by rintro rfl; cases he), (simpleEsc_iff _ _).2 he, ih]; rfl
  | uni h1 h2 h3 h4 _ ih =>
    simp only [List.cons_append]
    rw [scanStr.eq_def]
    simp only
    rw [if_neg (by decide), if_pos trivial, if_pos trivial, (hex4_iff _ _ _ _ _).2 ⟨_, _, _, _, h1, h2, h3, h4, rfl⟩, ih]; rfl

theorem decodeToks_iff (ts : List StrTok) (s : List Char) : TokChars ts s ↔ decodeToks ts = s := by
  constructor
  · intro h
    induction h with
    | nil => rfl
    | ch _ ih => rw [decodeToks, ih]
    | unit h1 h2 _ ih =>
      rw [decodeToks.eq_def]
      simp only
      rw [if_neg, ih]
      unfold High Low at *; omega
    | pair h1 h2 _ ih =>
      unfold High Low at *
      rw [decodeToks.eq_def]
      simp only
      rw [if_pos (by omega), if_pos (by omega), ih]
    | single h1 h2 _ ih =>
      rename_i n ts s _
      rw [decodeToks.eq_def]
      simp only
      rw [if_pos (by unfold High Low at *; omega)]
      cases ts with
      | nil => simp only; rw [ih]
      | cons t ts =>
        cases t with
        | ch c => simp only; rw [ih]
        | unit m =>
          have := h2 m ts rfl
          simp only
          rw [if_neg (by unfold High Low at *; omega), ih]
  · rintro rfl
    induction hl : ts.length using Nat.strong_induction_on generalizing ts with
    | _ k ih =>
      cases ts with
      | nil => exact .nil
      | cons t ts =>
        simp only [List.length_cons] at hl
        cases t with
        | ch c => rw [decodeToks]; exact .ch (ih _ (by omega) ts rfl)
        | unit n =>
          by_cases hs : 0xD800 ≤ n ∧ n < 0xE000
          · cases ts with
            | nil =>
              rw [decodeToks.eq_def]; simp only; rw [if_pos hs]
              exact .single (by unfold High Low; omega) (by intro m ts' h; cases h) (ih _ (by omega) [] rfl)
            | cons t ts =>
              simp only [List.length_cons] at hl
              cases t with
              | ch c =>
                rw [decodeToks.eq_def]; simp only; rw [if_pos hs]
                exact .single (by unfold High Low; omega) (by intro m ts' h; cases h) (ih _ (by simp; omega) _ rfl)
              | unit m =>
                rw [decodeToks.eq_def]; simp only; rw [if_pos hs]
                split
                · next hh => exact .pair (by unfold High; omega) (by unfold Low; omega) (ih _ (by omega) _ rfl)
                · next hh => 
                  refine .single (by unfold High Low; omega) ?_ (ih _ (by simp; omega) _ rfl)
                  intro m' ts' h; cases h; unfold High Low; omega
          · rw [decodeToks.eq_def]; simp only; rw [if_neg hs]
            exact .unit (by unfold High; omega) (by unfold Low; omega) (ih _ (by omega) ts rfl)

/-! ### values -/

theorem scanLit_some {c : Char} {s : List Char} {v : JVal} {r : List Char} (d : Nat) (h : scanLit (c :: s) = some (v, r)) :
    ∃ t, JText d v t ∧ c :: s = t ++ r := by
  have hp : ∀ (p : List Char), p.isPrefixOf (c :: s) = true → c :: s = p ++ (c :: s).drop p.length := by
    intro p h
    rw [List.isPrefixOf_iff_prefix] at h
    obtain ⟨t, ht⟩ := h
    rw [← ht]; simp
  unfold scanLit at h
  split at h
  · next hh => cases h; exact ⟨_, .null, hp _ hh⟩
  · split at h
    · next hh => cases h; exact ⟨_, .tru, hp _ hh⟩
    · split at h
      · next hh => cases h; exact ⟨_, .fals, hp _ hh⟩
      · simp only [Option.map_eq_some_iff, Prod.exists] at h
        obtain ⟨a, r', h1, h2⟩ := h
        obtain ⟨h3, h4⟩ := scanNum_some h1
        cases h2
        exact ⟨a, .num h3, h4⟩

theorem parse_sound (n : Nat) :
    (∀ d s v r, parseVal n d s = some (v, r) → ∃ w t, Ws w ∧ JText d v t ∧ s = w ++ t ++ r) ∧
    (∀ d s l r, parseElems n d s = some (l, r) → ∃ t, ElemsText d l t ∧ s = t ++ ']' :: r) ∧
    (∀ d s m r, parseMembers n d s = some (m, r) → ∃ t, MembersText d m t ∧ s = t ++ '}' :: r) := by
  induction n with
  | zero =>
    refine ⟨?_, ?_, ?_⟩
    · intro d s v r h; rw [parseVal] at h; cases h
    · intro d s v r h; rw [parseElems] at h; cases h
    · intro d s v r h; rw [parseMembers] at h; cases h
  | succ n ih =>
    obtain ⟨ihv, ihe, ihm⟩ := ih
    refine ⟨?_, ?_, ?_⟩
    · intro d s v r h
      obtain ⟨w, hw, hs⟩ := skipWs_split s
      rw [parseVal] at h
      cases hk : skipWs s with
      | nil => rw [hk] at h; cases h
      | cons c t =>
        rw [hk] at h hs
        simp only at h
        split at h
        · next hc =>
          subst hc
          simp only [Option.map_eq_some_iff, Prod.exists] at h
          obtain ⟨ts, r', h1, h2⟩ := h
          obtain ⟨u, hu, rfl⟩ := scanStr_some _ le_rfl h1
          cases h2
          exact ⟨w, _, hw, .str hu ((decodeToks_iff _ _).2 rfl), by rw [hs]; simp⟩
        · split at h
          · next hc =>
            subst hc
            split at h
            · cases h
            · next hd =>
              obtain ⟨d, rfl⟩ := Nat.exists_eq_succ_of_ne_zero hd
              obtain ⟨w', hw', ht⟩ := skipWs_split t
              split at h
              · next hh =>
                cases h
                cases hk' : skipWs t with
                | nil => rw [hk'] at hh; cases hh
                | cons e t' =>
                  rw [hk'] at hh ht; simp at hh; subst hh
                  exact ⟨w, _, hw, .arr0 hw', by rw [hs, ht]; simp⟩
              · simp only [Option.map_eq_some_iff, Prod.exists] at h
                obtain ⟨l, r', h1, h2⟩ := h
                obtain ⟨u, hu, rfl⟩ := ihe _ _ _ _ h1
                cases h2
                exact ⟨w, _, hw, .arr hu, by rw [hs]; simp⟩
          · split at h
            · next hc =>
              subst hc
              split at h
              · cases h
              · next hd =>
                obtain ⟨d, rfl⟩ := Nat.exists_eq_succ_of_ne_zero hd
                obtain ⟨w', hw', ht⟩ := skipWs_split t
                split at h
                · next hh =>
                  cases h
                  cases hk' : skipWs t with
                  | nil => rw [hk'] at hh; cases hh
                  | cons e t' =>
                    rw [hk'] at hh ht; simp at hh; subst hh
                    exact ⟨w, _, hw, .obj0 hw', by rw [hs, ht]; simp⟩
                · simp only [Option.map_eq_some_iff, Prod.exists] at h
                  obtain ⟨l, r', h1, h2⟩ := h
                  obtain ⟨u, hu, rfl⟩ := ihm _ _ _ _ h1
                  cases h2
                  exact ⟨w, _, hw, .obj hu, by rw [hs]; simp⟩
            · obtain ⟨u, hu, he⟩ := scanLit_some d h
              exact ⟨w, u, hw, hu, by rw [hs, he]; simp⟩
    · intro d s l r h
      rw [parseElems] at h
      simp only [Option.bind_eq_some_iff, Prod.exists] at h
      obtain ⟨v, r1, h1, h⟩ := h
      obtain ⟨w, t, hw, ht, rfl⟩ := ihv _ _ _ _ h1
      obtain ⟨w', hw', hs⟩ := skipWs_split r1
      cases hk : skipWs r1 with
      | nil => rw [hk] at h; cases h
      | cons c u =>
        rw [hk] at h hs
        simp only at h
        split at h
        · next hc =>
          subst hc
          simp only [Option.map_eq_some_iff, Prod.exists] at h
          obtain ⟨l', r', h3, h4⟩ := h
          obtain ⟨u', hu', rfl⟩ := ihe _ _ _ _ h3
          cases h4
          exact ⟨_, .cons hw ht hw' hu', by rw [hs]; simp⟩
        · split at h
          · next hc => subst hc; cases h; exact ⟨_, .one hw ht hw', by rw [hs]; simp⟩
          · cases h
    · intro d s m r h
      rw [parseMembers] at h
      obtain ⟨w, hw, hs⟩ := skipWs_split s
      cases hk : skipWs s with
      | nil => rw [hk] at h; cases h
      | cons c s1 =>
        rw [hk] at h hs
        simp only at h
        split at h
        · next hc =>
          subst hc
          simp only [Option.bind_eq_some_iff, Prod.exists] at h
          obtain ⟨ts, r1, h1, h⟩ := h
          obtain ⟨ks, hks, rfl⟩ := scanStr_some _ le_rfl h1
          obtain ⟨w1, hw1, hs1⟩ := skipWs_split r1
          cases hk1 : skipWs r1 with
          | nil => rw [hk1] at h; cases h
          | cons c s2 =>
            rw [hk1] at h hs1
            simp only at h
            split at h
            · next hc =>
              subst hc
              simp only [Option.bind_eq_some_iff, Prod.exists] at h
              obtain ⟨v, r2, h2, h⟩ := h
              obtain ⟨w2, t, hw2, ht, rfl⟩ := ihv _ _ _ _ h2
              obtain ⟨w3, hw3, hs3⟩ := skipWs_split r2
              cases hk3 : skipWs r2 with
              | nil => rw [hk3] at h; cases h
              | cons c s3 =>
                rw [hk3] at h hs3
                simp only at h
                split at h
                · next hc =>
                  subst hc
                  simp only [Option.map_eq_some_iff, Prod.exists] at h
                  obtain ⟨l', r', h3, h4⟩ := h
                  obtain ⟨u', hu', rfl⟩ := ihm _ _ _ _ h3
                  cases h4
                  exact ⟨_, .cons hw hks ((decodeToks_iff _ _).2 rfl) hw1 hw2 ht hw3 hu', by rw [hs, hs1, hs3]; simp⟩
                · split at h
                  · next hc =>
                    subst hc; cases h
                    exact ⟨_, .one hw hks ((decodeToks_iff _ _).2 rfl) hw1 hw2 ht hw3, by rw [hs, hs1, hs3]; simp⟩
                  · cases h
            · cases h
        · cases h

/-- the first character of a number -/
theorem numText_head {s : List Char} (h : JNumText s) : ∃ c t, s = c :: t ∧ (c = '-' ∨ c.isDigit = true) := by
  obtain ⟨sg, i, f, e, hsg, hi, _, _, rfl⟩ := h
  rcases hsg with rfl | rfl
  · rcases hi with rfl | ⟨hd, _⟩
    · exact ⟨'0', f ++ e, by simp, Or.inr (by decide)⟩
    · cases i with
      | nil => exact absurd rfl hd.1
      | cons c i => exact ⟨c, i ++ f ++ e, by simp, Or.inr (hd.2 c (by simp))⟩
  · exact ⟨'-', i ++ f ++ e, by simp, Or.inl rfl⟩

theorem digit_facts {c : Char} (h : c = '-' ∨ c.isDigit = true) :
    isWs c = false ∧ c ≠ '"' ∧ c ≠ '[' ∧ c ≠ '{' ∧ c ≠ 'n' ∧ c ≠ 't' ∧ c ≠ 'f' ∧ c ≠ ']' ∧ c ≠ '}' := by
  rcases h with rfl | h
  · decide
  · have e : ∀ d : Char, d.isDigit = false → c ≠ d := by
      rintro d hd rfl; rw [h] at hd; cases hd
    refine ⟨?_, e _ (by decide), e _ (by decide), e _ (by decide), e _ (by decide), e _ (by decide), e _ (by decide),
      e _ (by decide), e _ (by decide)⟩
    have := e ' ' (by decide); have := e '\t' (by decide); have := e '\n' (by decide); have := e '\r' (by decide)
    simp [isWs, *]

/-- the first character of a value -/
theorem jtext_head {d : Nat} {v : JVal} {t : List Char} (h : JText d v t) :
    ∃ c u, t = c :: u ∧ isWs c = false ∧ c ≠ ']' ∧ c ≠ '}' := by
  cases h with
  | null => exact ⟨_, _, rfl, by decide, by decide, by decide⟩
  | tru => exact ⟨_, _, rfl, by decide, by decide, by decide⟩
  | fals => exact ⟨_, _, rfl, by decide, by decide, by decide⟩
  | num h =>
    obtain ⟨c, u, rfl, hc⟩ := numText_head h
    have := digit_facts hc
    exact ⟨c, u, rfl, this.1, this.2.2.2.2.2.2.2⟩
  | str _ _ => exact ⟨_, _, rfl, by decide, by decide, by decide⟩
  | arr0 _ => exact ⟨_, _, rfl, by decide, by decide, by decide⟩
  | arr _ => exact ⟨_, _, rfl, by decide, by decide, by decide⟩
  | obj0 _ => exact ⟨_, _, rfl, by decide, by decide, by decide⟩
  | obj _ => exact ⟨_, _, rfl, by decide, by decide, by decide⟩

theorem jtext_noWs {d : Nat} {v : JVal} {t : List Char} (h : JText d v t) (r : List Char) : NoWs (t ++ r) := by
  obtain ⟨c, u, rfl, hc, _⟩ := jtext_head h
  exact noWs_cons hc

/-- elements start with something else than a closing bracket -/
theorem elems_head {d : Nat} {l : List JVal} {t : List Char} (h : ElemsText d l t) (r : List Char) :
    (skipWs (t ++ r)).head? ≠ some ']' := by
  have key : ∀ {w : List Char} {v : JVal} {s : List Char} (r : List Char), Ws w → JText d v s →
      (skipWs (w ++ (s ++ r))).head? ≠ some ']' := by
    intro w v s r hw hs
    rw [skipWs_append hw (jtext_noWs hs r)]
    obtain ⟨c, u, rfl, _, hc, _⟩ := jtext_head hs
    simpa using hc
  cases h with
  | one hw hs hw' => simpa using key _ hw hs
  | cons hw hs hw' _ => simpa using key _ hw hs

theorem members_head {d : Nat} {m : List (List Char × JVal)} {t : List Char} (h : MembersText d m t) (r : List Char) :
    (skipWs (t ++ r)).head? ≠ some '}' := by
  have key : ∀ {w : List Char} (r : List Char), Ws w → (skipWs (w ++ ('"' :: r))).head? ≠ some '}' := by
    intro w r hw
    rw [skipWs_append hw (noWs_cons (by decide))]
    simp
  cases h with
  | one hw _ _ _ _ _ _ => simpa using key _ hw
  | cons hw _ _ _ _ _ _ _ => simpa using key _ hw

theorem numEnd_ws {w r : List Char} (hw : Ws w) (hr : NumEnd r) : NumEnd (w ++ r) := by
  cases w with
  | nil => exact hr
  | cons c w =>
    intro d hd
    simp at hd; subst hd
    rcases hw c (by simp) with rfl | rfl | rfl | rfl <;> decide

theorem numEnd_cons {c : Char} {r : List Char} (h : c = ',' ∨ c = ']' ∨ c = '}') : NumEnd (c :: r) := by
  intro d hd
  simp at hd; subst hd
  rcases h with rfl | rfl | rfl <;> decide

theorem scanLit_num {s r : List Char} (h : JNumText s) (hr : NumEnd r) : scanLit (s ++ r) = some (.num s, r) := by
  obtain ⟨c, u, e, hc⟩ := numText_head h
  have hf := digit_facts hc
  have e1 : ∀ (a : Char) (p : List Char), c ≠ a → (a :: p).isPrefixOf (s ++ r) = false := by
    intro a p ha
    rw [e]; simp [List.isPrefixOf, Ne.symm ha]
  unfold scanLit
  rw [show "null".toList = 'n' :: "ull".toList from rfl, show "true".toList = 't' :: "rue".toList from rfl,
    show "false".toList = 'f' :: "alse".toList from rfl, e1 _ _ hf.2.2.2.2.1, e1 _ _ hf.2.2.2.2.2.1,
    e1 _ _ hf.2.2.2.2.2.2.1, scanNum_append h hr]
  rfl

mutual

theorem parseVal_complete : ∀ {d : Nat} {v : JVal} {t : List Char}, JText d v t → ∀ (w r : List Char) (n : Nat), Ws w →
    NumEnd r → 2 * t.length + 1 ≤ n → parseVal n d (w ++ (t ++ r)) = some (v, r)
  | d, _, _, h, w, r, 0, _, _, hn => absurd hn (by omega)
  | d, _, _, .null, w, r, n + 1, hw, hr, hn => by
    rw [parseVal]; simp only [List.cons_append, List.nil_append]; rw [skipWs_append hw (noWs_cons (by decide))]; rfl
  | d, _, _, .tru, w, r, n + 1, hw, hr, hn => by
    rw [parseVal]; simp only [List.cons_append, List.nil_append]; rw [skipWs_append hw (noWs_cons (by decide))]; rfl
  | d, _, _, .fals, w, r, n + 1, hw, hr, hn => by
    rw [parseVal]; simp only [List.cons_append, List.nil_append]; rw [skipWs_append hw (noWs_cons (by decide))]; rfl
  | d, _, t, .num h, w, r, n + 1, hw, hr, hn => by
    have h1 := scanLit_num h hr
    rw [parseVal, skipWs_append hw (jtext_noWs (.num (d := 0) h) r)]
    obtain ⟨c, u, rfl, hc⟩ := numText_head h
    have hf := digit_facts hc
    simp only [List.cons_append] at h1 ⊢
    rw [if_neg hf.2.1, if_neg hf.2.2.1, if_neg hf.2.2.2.1, h1]
  | d, _, _, .str (s := s) h h', w, r, n + 1, hw, hr, hn => by
    rw [parseVal, List.cons_append, List.cons_append, skipWs_append hw (noWs_cons (by decide))]
    have h1 := scanStr_append h r
    simp only [List.cons_append, List.append_assoc, List.nil_append]
    rw [if_pos trivial, h1, Option.map_some, (decodeToks_iff _ _).1 h']
  | _, _, _, .arr0 (w := w1) h, w, r, n + 1, hw, hr, hn => by
    rw [parseVal, List.cons_append, List.cons_append, skipWs_append hw (noWs_cons (by decide))]
    simp only [List.cons_append, List.append_assoc, List.nil_append]
    rw [if_neg (by decide), if_pos trivial, if_neg (by omega), skipWs_append h (noWs_cons (by decide))]
    rfl
  | _, _, _, .arr (s := s) h, w, r, n + 1, hw, hr, hn => by
    have hl : 2 * s.length + 2 ≤ n := by simp at hn; omega
    have h1 := parseElems_complete h r n hl
    rw [parseVal, List.cons_append, List.cons_append, skipWs_append hw (noWs_cons (by decide))]
    simp only [List.cons_append, List.append_assoc, List.nil_append]
    rw [if_neg (by decide), if_pos trivial, if_neg (by omega), if_neg (elems_head h _), Nat.add_sub_cancel, h1]
    rfl
  | _, _, _, .obj0 (w := w1) h, w, r, n + 1, hw, hr, hn => by
    rw [parseVal, List.cons_append, List.cons_append, skipWs_append hw (noWs_cons (by decide))]
    simp only [List.cons_append, List.append_assoc, List.nil_append]
    rw [if_neg (by decide), if_neg (by decide), if_pos trivial, if_neg (by omega),
      skipWs_append h (noWs_cons (by decide))]
    rfl
  | _, _, _, .obj (s := s) h, w, r, n + 1, hw, hr, hn => by
    have hl : 2 * s.length + 2 ≤ n := by simp at hn; omega
    have h1 := parseMembers_complete h r n hl
    rw [parseVal, List.cons_append, List.cons_append, skipWs_append hw (noWs_cons (by decide))]
    simp only [List.cons_append, List.append_assoc, List.nil_append]
    rw [if_neg (by decide), if_neg (by decide), if_pos trivial, if_neg (by omega), if_neg (members_head h _),
      Nat.add_sub_cancel, h1]
    rfl

theorem parseElems_complete : ∀ {d : Nat} {l : List JVal} {t : List Char}, ElemsText d l t → ∀ (r : List Char) (n : Nat),
    2 * t.length + 2 ≤ n → parseElems n d (t ++ ']' :: r) = some (l, r)
  | d, _, _, h, r, 0, hn => absurd hn (by omega)
  | d, _, _, .one (w := w) (v := v) (s := s) (w' := w') hw hs hw', r, n + 1, hn => by
    have hl : 2 * s.length + 1 ≤ n := by simp at hn; omega
    have h1 := parseVal_complete hs w (w' ++ ']' :: r) n hw (numEnd_ws hw' (numEnd_cons (by simp))) hl
    rw [parseElems]
    simp only [List.append_assoc]
    rw [h1, Option.bind_some]
    simp only
    rw [skipWs_append hw' (noWs_cons (by decide))]
    simp
  | d, _, _, .cons (w := w) (v := v) (s := s) (w' := w') (l := l) (t := t) hw hs hw' ht, r, n + 1, hn => by
    have hl : 2 * s.length + 1 ≤ n := by simp at hn; omega
    have hl2 : 2 * t.length + 2 ≤ n := by
      obtain ⟨c, u, rfl, _⟩ := jtext_head hs
      simp at hn; omega
    have h1 := parseVal_complete hs w (w' ++ ',' :: (t ++ ']' :: r)) n hw (numEnd_ws hw' (numEnd_cons (by simp))) hl
    have h2 := parseElems_complete ht r n hl2
    rw [parseElems]
    simp only [List.append_assoc, List.cons_append]
    rw [h1, Option.bind_some]
    simp only
    rw [skipWs_append hw' (noWs_cons (by decide))]
    simp only
    rw [if_pos trivial, h2]
    rfl

theorem parseMembers_complete : ∀ {d : Nat} {m : List (List Char × JVal)} {t : List Char}, MembersText d m t →
    ∀ (r : List Char) (n : Nat), 2 * t.length + 2 ≤ n → parseMembers n d (t ++ '}' :: r) = some (m, r)
  | d, _, _, h, r, 0, hn => absurd hn (by omega)
  | d, _, _, .one (w := w) (ts := ts) (k := k) (ks := ks) (w1 := w1) (w2 := w2) (v := v) (s := s) (w3 := w3)
      hw hks hk hw1 hw2 hs hw3, r, n + 1, hn => by
    have hl : 2 * s.length + 1 ≤ n := by simp at hn; omega
    have h1 := parseVal_complete hs w2 (w3 ++ '}' :: r) n hw2 (numEnd_ws hw3 (numEnd_cons (by simp))) hl
    have h0 := scanStr_append hks (w1 ++ (':' :: (w2 ++ (s ++ (w3 ++ '}' :: r)))))
    rw [parseMembers]
    simp only [List.append_assoc, List.cons_append]
    rw [skipWs_append hw (noWs_cons (by decide))]
    simp only
    rw [if_pos trivial, h0, Option.bind_some]
    simp only
    rw [skipWs_append hw1 (noWs_cons (by decide))]
    simp only
    rw [if_pos trivial, h1, Option.bind_some]
    simp only
    rw [skipWs_append hw3 (noWs_cons (by decide)), (decodeToks_iff _ _).1 hk]
    simp
  | d, _, _, .cons (w := w) (ts := ts) (k := k) (ks := ks) (w1 := w1) (w2 := w2) (v := v) (s := s) (w3 := w3) (l := l)
      (t := t) hw hks hk hw1 hw2 hs hw3 ht, r, n + 1, hn => by
    have hl : 2 * s.length + 1 ≤ n := by simp at hn; omega
    have hl2 : 2 * t.length + 2 ≤ n := by simp at hn; omega
    have h1 := parseVal_complete hs w2 (w3 ++ ',' :: (t ++ '}' :: r)) n hw2 (numEnd_ws hw3 (numEnd_cons (by simp))) hl
    have h2 := parseMembers_complete ht r n hl2
    have h0 := scanStr_append hks (w1 ++ (':' :: (w2 ++ (s ++ (w3 ++ ',' :: (t ++ '}' :: r))))))
    rw [parseMembers]
    simp only [List.append_assoc, List.cons_append]
    rw [skipWs_append hw (noWs_cons (by decide))]
    simp only
    rw [if_pos trivial, h0, Option.bind_some]
    simp only
    rw [skipWs_append hw1 (noWs_cons (by decide))]
    simp only
    rw [if_pos trivial, h1, Option.bind_some]
    simp only
    rw [skipWs_append hw3 (noWs_cons (by decide)), (decodeToks_iff _ _).1 hk]
    simp only
    rw [if_pos trivial, h2]
    rfl

end

/-- the reader accepts the texts of the grammar and gives their value -/
theorem jsonParse_iff (s : List Char) (v : JVal) : jsonParse s = some v ↔ JsonText v s := by
  unfold jsonParse JsonText
  constructor
  · intro h
    simp only [Option.bind_eq_some_iff, Prod.exists] at h
    obtain ⟨v', r, h1, h2⟩ := h
    obtain ⟨w, t, hw, ht, rfl⟩ := (parse_sound _).1 _ _ _ _ h1
    split at h2
    · next hr => cases h2; exact ⟨w, t, r, hw, ht, (skipWs_nil_iff _).1 hr, rfl⟩
    · cases h2
  · rintro ⟨w, t, w', hw, ht, hw', rfl⟩
    have h0 : NumEnd w' := by
      have := numEnd_ws (r := []) hw' (by intro c hc; cases hc)
      simpa using this
    have := parseVal_complete ht w w' (2 * (w ++ t ++ w').length + 2) hw h0 (by simp; omega)
    rw [List.append_assoc] at this ⊢
    rw [this, Option.bind_some]
    simp only
    rw [if_pos ((skipWs_nil_iff _).2 hw')]

end Boo
