import Verif.Spec.Rules
import Verif.Spec.Tree
import Verif.Props.Reuse
import Verif.Lemmas.TextData

/-!
# C88: what a printed tree says
-/

namespace Boo
open GoFloat
set_option linter.unusedSectionVars false
variable {F : Type} [GoFloat F]

theorem textLines_line (a rest : List Char) (h : '\n' ∉ a) : textLines (a ++ '\n' :: rest) = a :: textLines rest := by
  induction a with
  | nil => rw [List.nil_append, textLines, if_pos rfl]
  | cons c a ih =>
    rw [List.cons_append, textLines, if_neg (fun e => h (by rw [e]; exact List.mem_cons_self)),
      ih (fun e => h (List.mem_cons_of_mem _ e))]

theorem textLines_lines (l : List (List Char)) (h : ∀ a ∈ l, '\n' ∉ a) : textLines (l.flatMap (· ++ ['\n'])) = l := by
  induction l with
  | nil => rfl
  | cons a l ih =>
    rw [List.flatMap_cons, List.append_assoc, List.singleton_append, textLines_line _ _ (h a List.mem_cons_self),
      ih fun a ha => h a (List.mem_cons_of_mem _ ha)]

theorem unindent_blanks (a b : List Char) (h : ∀ c ∈ a, c = ' ') : unindent (a ++ b) = unindent b := by
  unfold unindent
  induction a with
  | nil => rfl
  | cons c a ih =>
    rw [List.cons_append, List.dropWhile_cons, if_pos (by simp [h c List.mem_cons_self])]
    exact ih fun c hc => h c (List.mem_cons_of_mem _ hc)

theorem after_append (w b : List Char) : after w (w ++ b) = some b := by
  unfold after
  rw [if_pos (by rw [List.isPrefixOf_iff_prefix]; exact List.prefix_append _ _), List.drop_left]

theorem takeWhile_word (w rest : List Char) (h : ' ' ∉ w) (hr : rest = [] ∨ ∃ t, rest = ' ' :: t) :
    (w ++ rest).takeWhile (· != ' ') = w := by
  rw [List.takeWhile_append_of_pos (by
    intro c hc
    simp only [bne_iff_ne, ne_eq]
    rintro rfl
    exact h hc)]
  rcases hr with rfl | ⟨t, rfl⟩ <;> simp

theorem lastWord_append (b w : List Char) (h : ' ' ∉ w) : lastWord (b ++ ' ' :: w) = (w, b) := by
  unfold lastWord
  have e : (b ++ ' ' :: w).reverse = w.reverse ++ ' ' :: b.reverse := by simp
  rw [e, takeWhile_word _ _ (by simpa using h) (Or.inr ⟨_, rfl⟩)]
  simp only [List.length_reverse, List.reverse_reverse, Prod.mk.injEq, true_and]
  rw [← List.length_reverse (as := w), List.drop_append, List.drop_of_length_le (by omega)]
  simp

theorem firstWord_append (w b : List Char) (h : ' ' ∉ w) : firstWord (w ++ ' ' :: b) = (w, ' ' :: b) := by
  unfold firstWord
  rw [takeWhile_word _ _ h (Or.inr ⟨_, rfl⟩)]
  simp

/-- The rules of a tree. -/
def Tree.rules (fmt3 : F → String) (names : Option (List String)) : Tree F → Go Rule
  | .nil => .error .nilDeref
  | .node i l r =>
    if i.leaf then .ok (.predict (fmt3 i.value).toList (" with ".toList ++ (fmtInts i.samples).toList ++ " Samples".toList))
    else do
      let f ← i.featureName names
      let yes ← l.rules fmt3 names
      let no ← r.rules fmt3 names
      pure (.test f.toList (fmt3 i.threshold).toList yes no)

/-- a text within one line, without blanks -/
def IsWord (w : List Char) : Prop := ' ' ∉ w ∧ '\n' ∉ w

theorem fmtInts_line (l : List Nat) : '\n' ∉ (fmtInts l).toList := by
  unfold fmtInts
  have hd : ∀ n : Nat, '\n' ∉ (toString n).toList := by
    intro n h
    have := fmtNat_digits n '\n' h
    exact absurd this (by decide)
  have key : ∀ l : List Nat, '\n' ∉ (" ".intercalate (l.map toString)).toList := by
    intro l
    rw [String.toList_intercalate]
    induction l with
    | nil => simp
    | cons a l ih =>
      cases l with
      | nil => simpa using hd a
      | cons b l =>
        simp only [List.map_cons, List.intercalate_cons_cons, List.mem_append] at ih ⊢
        rintro ((h | h) | h)
        · exact hd a h
        · exact absurd h (by decide)
        · exact ih h
  simp only [String.toList_append, List.mem_append]
  rintro ((h | h) | h)
  · exact absurd h (by decide)
  · exact key l h
  · exact absurd h (by decide)

theorem readRules_leaf (fuel : Nat) (pad v remark : List Char) (hp : ∀ c ∈ pad, c = ' ') (hv : ' ' ∉ v)
    (rest : List (List Char)) :
    readRules (fuel + 1) ((pad ++ "PREDICT    ".toList ++ v ++ ' ' :: remark) :: rest) =
      some (.predict v (' ' :: remark), rest) := by
  unfold readRules
  have : unindent (pad ++ "PREDICT    ".toList ++ v ++ ' ' :: remark) = "PREDICT    ".toList ++ (v ++ ' ' :: remark) := by
    rw [List.append_assoc, List.append_assoc, unindent_blanks _ _ hp]
    rfl
  rw [this, after_append]
  simp only [firstWord_append _ _ hv]

theorem readRules_node (fuel : Nat) (pad f thr : List Char) (hp : ∀ c ∈ pad, c = ' ') (ht : ' ' ∉ thr)
    (yes no : Rule) (ly lno rest : List (List Char))
    (hy : ∀ rest, readRules fuel (ly ++ rest) = some (yes, rest))
    (hno : ∀ rest, readRules fuel (lno ++ rest) = some (no, rest)) :
    readRules (fuel + 1) ((pad ++ "Feature ".toList ++ f ++ " < ".toList ++ thr) :: (pad ++ "---> True".toList) ::
      (ly ++ ((pad ++ "---> False".toList) :: (lno ++ rest)))) = some (.test f thr yes no, rest) := by
  rw [readRules]
  have h1 : unindent (pad ++ "Feature ".toList ++ f ++ " < ".toList ++ thr) =
      "Feature ".toList ++ (f ++ ' ' :: ['<'] ++ ' ' :: thr) := by
    rw [List.append_assoc, List.append_assoc, List.append_assoc, unindent_blanks _ _ hp]
    simp [unindent]
  have h2 : after "PREDICT    ".toList ("Feature ".toList ++ (f ++ ' ' :: ['<'] ++ ' ' :: thr)) = none := rfl
  have h3 : unindent (pad ++ "---> True".toList) = "---> True".toList := by
    rw [unindent_blanks _ _ hp]; rfl
  have h4 : unindent (pad ++ "---> False".toList) = "---> False".toList := by
    rw [unindent_blanks _ _ hp]; rfl
  rw [h1, h2]
  simp only [after_append, Option.bind_eq_bind, Option.bind_some, lastWord_append _ _ ht,
    lastWord_append f ['<'] (by decide), ne_eq, not_true_eq_false, if_false, h3, hy, h4, hno]
  rfl

theorem print_rules (fmt3 : F → String) (hf : ∀ x, IsWord (fmt3 x).toList) (names : Option (List String))
    (hn : ∀ l, names = some l → ∀ n ∈ l, '\n' ∉ n.toList) (t : Tree F) (spacing : String)
    (hs : ∀ c ∈ spacing.toList, c = ' ') (text : String) (h : t.print fmt3 spacing names = .ok text) :
    ∃ (lines : List (List Char)) (rule : Rule), t.rules fmt3 names = .ok rule ∧
      text.toList = lines.flatMap (· ++ ['\n']) ∧ (∀ a ∈ lines, '\n' ∉ a) ∧
      ∀ fuel, lines.length ≤ fuel → ∀ rest, readRules fuel (lines ++ rest) = some (rule, rest) := by
  induction t generalizing spacing text with
  | nil => cases h
  | node i l r ihl ihr =>
    have hnl : '\n' ∉ spacing.toList := fun h => absurd (hs _ h) (by decide)
    unfold Tree.print at h
    unfold Tree.rules
    by_cases hleaf : i.leaf = true
    · rw [if_pos hleaf] at h ⊢
      obtain rfl := Except.ok.inj h
      have e : (" with ".toList ++ (fmtInts i.samples).toList ++ " Samples".toList) =
        ' ' :: ("with ".toList ++ (fmtInts i.samples).toList ++ " Samples".toList) := by simp
      refine ⟨[("  ".toList ++ spacing.toList) ++ "PREDICT    ".toList ++ (fmt3 i.value).toList ++
        ' ' :: ("with ".toList ++ (fmtInts i.samples).toList ++ " Samples".toList)], _, rfl, ?_, ?_, ?_⟩
      · simp
      · intro a ha
        rw [List.mem_singleton] at ha
        subst ha
        have := (hf i.value).2
        have := fmtInts_line i.samples
        simp_all
      · intro fuel hfu rest
        obtain ⟨fuel, rfl⟩ : ∃ k, fuel = k + 1 := ⟨fuel - 1, by simp at hfu; omega⟩
        rw [List.singleton_append, readRules_leaf fuel _ _ _ (by simpa using hs) (hf _).1, e]
    · rw [if_neg hleaf] at h ⊢
      obtain ⟨f, hfn, h⟩ := bind_ok h
      obtain ⟨sl, hsl, h⟩ := bind_ok h
      obtain ⟨sr, hsr, h⟩ := bind_ok h
      obtain rfl := Except.ok.inj h
      have hs' : ∀ c ∈ (spacing ++ "  ").toList, c = ' ' := by
        intro c hc
        simp only [String.toList_append, List.mem_append] at hc
        rcases hc with hc | hc
        · exact hs c hc
        · simpa using hc
      obtain ⟨ll, rl, h1, h2, h3, h4⟩ := ihl _ hs' _ hsl
      obtain ⟨lr, rr, g1, g2, g3, g4⟩ := ihr _ hs' _ hsr
      have hfl : '\n' ∉ f.toList := by
        unfold NodeInfo.featureName at hfn
        split at hfn
        · obtain rfl := Except.ok.inj hfn
          have hd : '\n' ∉ (toString i.splitFeatureIndex).toList := by
            intro h
            exact absurd (fmtNat_digits _ '\n' h) (by decide)
          unfold fmt2d
          split
          · simpa using hd
          · exact hd
        · cases names with
          | none => simp [goIdx] at hfn
          | some ns =>
            unfold goIdx at hfn
            split at hfn
            · rename_i x hx
              obtain rfl := Except.ok.inj hfn
              exact hn ns rfl _ (List.mem_of_getElem? hx)
            · cases hfn
      refine ⟨(spacing.toList ++ "Feature ".toList ++ f.toList ++ " < ".toList ++ (fmt3 i.threshold).toList) ::
        (spacing.toList ++ "---> True".toList) :: (ll ++ (spacing.toList ++ "---> False".toList) :: lr), _,
        by rw [hfn, h1, g1]; rfl, ?_, ?_, ?_⟩
      · simp [h2, g2]
      · intro a ha
        simp only [List.mem_cons, List.mem_append] at ha
        rcases ha with rfl | rfl | ha | rfl | ha
        · have := (hf i.threshold).2
          simp_all
        · simp_all
        · exact h3 a ha
        · simp_all
        · exact g3 a ha
      · intro fuel hfu rest
        simp only [List.length_cons, List.length_append] at hfu
        obtain ⟨fuel, rfl⟩ : ∃ k, fuel = k + 1 := ⟨fuel - 1, by omega⟩
        rw [List.cons_append, List.cons_append, List.append_assoc ll, List.cons_append]
        exact readRules_node fuel _ _ _ hs (hf _).1 _ _ _ _ _ (h4 fuel (by omega)) (g4 fuel (by omega))

/-- **C88 (the text)**: a printed tree can be read: the text consists of the rules of the tree, whatever the names of the
features (within one line). -/
theorem C88_readable (fmt3 : F → String) (hf : ∀ x, IsWord (fmt3 x).toList) (names : Option (List String))
    (hn : ∀ l, names = some l → ∀ n ∈ l, '\n' ∉ n.toList) (t : Tree F) (spacing : String)
    (hs : ∀ c ∈ spacing.toList, c = ' ') (text : String) (h : t.print fmt3 spacing names = .ok text) :
    ∃ rule, t.rules fmt3 names = .ok rule ∧ readPrinted text.toList = some rule := by
  obtain ⟨lines, rule, h1, h2, h3, h4⟩ := print_rules fmt3 hf names hn t spacing hs text h
  refine ⟨rule, h1, ?_⟩
  unfold readPrinted
  rw [h2, textLines_lines _ h3]
  have := h4 lines.length (le_refl _) []
  rw [List.append_nil] at this
  rw [this]

/-- **C88 (partial)**: following the printed rules gives the printed prediction of the tree, for a row none of whose values
is on different sides of a threshold `t` of the tree and of the number printed for it, in the sense that `x < printed` and
`x <= t` differ. Missing: rows with a value equal to a threshold (`C88_violated`), or between a threshold and its rounding to
three decimals. -/
theorem C88_follow_partial (fmt3 : F → String) (hf : ∀ x, IsWord (fmt3 x).toList) (names : Option (List String))
    (hn : ∀ l, names = some l → ∀ n ∈ l, '\n' ∉ n.toList) (t : Tree F) (spacing : String)
    (hs : ∀ c ∈ spacing.toList, c = ' ') (text : String) (h : t.print fmt3 spacing names = .ok text)
    (column : List Char → Option Nat) (number : List Char → Option F)
    (hc : ∀ (i : NodeInfo F) f, i.featureName names = .ok f → column f.toList = some i.splitFeatureIndex)
    (row : List F) (hrow : ∀ p i l r, t.sub p = .node i l r → i.leaf = false → ∀ x, row[i.splitFeatureIndex]? = some x →
      ∃ y, number (fmt3 i.threshold).toList = some y ∧ (x <. y) = (x <=. i.threshold))
    (v : F) (hv : t.predictSingle row = .ok v) :
    ∃ rule, readPrinted text.toList = some rule ∧ rule.follow column number row = some (fmt3 v).toList := by
  obtain ⟨rule, h1, h2⟩ := C88_readable fmt3 hf names hn t spacing hs text h
  refine ⟨rule, h2, ?_⟩
  clear h h2
  induction t generalizing rule v with
  | nil => cases h1
  | node i l r ihl ihr =>
    unfold Tree.rules at h1
    unfold Tree.predictSingle at hv
    by_cases hleaf : i.leaf = true
    · rw [if_pos hleaf] at h1 hv
      obtain rfl := Except.ok.inj h1
      obtain rfl := Except.ok.inj hv
      rfl
    · rw [if_neg hleaf] at h1 hv
      obtain ⟨f, hfn, h1⟩ := bind_ok h1
      obtain ⟨yes, hy, h1⟩ := bind_ok h1
      obtain ⟨no, hno, h1⟩ := bind_ok h1
      obtain rfl := Except.ok.inj h1
      obtain ⟨x, hx, hv⟩ := bind_ok hv
      have hx : row[i.splitFeatureIndex]? = some x := by
        unfold goIdx at hx
        split at hx
        · rename_i y hy; rw [hy, Except.ok.inj hx]
        · cases hx
      obtain ⟨y, e1, e2⟩ := hrow [] i l r rfl (by simpa using hleaf) x hx
      unfold Rule.follow
      simp only [hc i f hfn, hx, e1, Option.bind_eq_bind, Option.bind_some]
      rw [e2]
      by_cases hle : (x <=. i.threshold) = true
      · rw [if_pos hle] at hv ⊢
        exact ihl (fun p => hrow (true :: p)) v hv yes hy
      · rw [if_neg hle] at hv ⊢
        exact ihr (fun p => hrow (false :: p)) v hv no hno

/-! ### which column is meant -/

/-- the column with the given name -/
def columnOfName (names : List String) (w : List Char) : Option Nat := names.idxOf? (String.ofList w)

/-- the column with the given (padded) index -/
def columnOfIndex (w : List Char) : Option Nat := some (Nat.ofDigitChars 10 (unindent w) 0)

theorem columnOfName_ok (names : List String) (hn : names.Nodup) (i : NodeInfo F) (f : String)
    (h : i.featureName (some names) = .ok f) : columnOfName names f.toList = some i.splitFeatureIndex := by
  unfold NodeInfo.featureName at h
  simp only [Option.isNone_some, Bool.false_and, Bool.false_eq_true, if_false, Option.getD_some] at h
  unfold goIdx at h
  split at h
  · rename_i x hx
    obtain rfl := Except.ok.inj h
    obtain ⟨hlt, rfl⟩ := List.getElem?_eq_some_iff.1 hx
    unfold columnOfName
    rw [String.ofList_toList, List.idxOf?, List.findIdx?_eq_some_iff_getElem]
    refine ⟨hlt, by simp, ?_⟩
    intro j hj
    simp only [beq_iff_eq]
    intro e
    have := (List.Nodup.getElem_inj_iff hn).1 e
    omega
  · cases h

theorem columnOfIndex_ok (i : NodeInfo F) (f : String) (h : i.featureName none = .ok f) :
    columnOfIndex f.toList = some i.splitFeatureIndex := by
  unfold NodeInfo.featureName at h
  simp only [Option.isNone_none, Option.getD_none, List.length_nil, Nat.zero_le, decide_true, Bool.and_self, if_true] at h
  obtain rfl := Except.ok.inj h
  unfold columnOfIndex fmt2d
  have hd : unindent (toString i.splitFeatureIndex).toList = (toString i.splitFeatureIndex).toList := by
    have h1 := fmtNat_digits i.splitFeatureIndex
    have h2 := fmtNat_ne_nil i.splitFeatureIndex
    unfold fmtNat at h1 h2
    obtain ⟨c, cs, hc⟩ := List.exists_cons_of_ne_nil h2
    have := h1 c (by rw [hc]; exact List.mem_cons_self)
    rw [hc]
    unfold unindent
    rw [List.dropWhile_cons, if_neg]
    simp only [beq_iff_eq]
    rintro rfl
    exact absurd this (by decide)
  have hv : Nat.ofDigitChars 10 (toString i.splitFeatureIndex).toList 0 = i.splitFeatureIndex := by
    have := fmtNat_eq i.splitFeatureIndex
    unfold fmtNat at this
    rw [this, Nat.ofDigitChars_ten_toDigits]
  congr 1
  split
  · rw [String.toList_append, unindent_blanks _ _ (by simp), hd, hv]
  · rw [hd, hv]

/-! ### rows away from the thresholds -/

variable {K : Type} [Field K] [LinearOrder K] [FloorRing K] [IsStrictOrderedRing K] {R : Rounder K}

/-- **C88 (partial)**: if the numbers printed are within 1/2000 of the thresholds, following the printed rules gives the
printed prediction for every row whose values are more than 1/2000 away from the thresholds of the tree. -/
theorem C88_away_partial (fmt3 : XF R → String) (hf : ∀ x, IsWord (fmt3 x).toList) (names : List String)
    (hnd : names.Nodup) (hn : ∀ n ∈ names, '\n' ∉ n.toList) (t : Tree (XF R)) (spacing : String)
    (hs : ∀ c ∈ spacing.toList, c = ' ') (text : String) (h : t.print fmt3 spacing (some names) = .ok text)
    (number : List Char → Option (XF R)) (row : List K)
    (ht : ∀ p i l r, t.sub p = .node i l r → i.leaf = false → ∃ a b, i.threshold = .fin a ∧
      number (fmt3 i.threshold).toList = some (.fin b) ∧ |b - a| ≤ 1 / 2000 ∧
      ∀ x, row[i.splitFeatureIndex]? = some x → 1 / 2000 < |x - a|)
    (v : XF R) (hv : t.predictSingle (row.map .fin) = .ok v) :
    ∃ rule, readPrinted text.toList = some rule ∧
      rule.follow (columnOfName names) number (row.map .fin) = some (fmt3 v).toList := by
  refine C88_follow_partial fmt3 hf (some names) (fun l hl => by cases hl; exact hn) t spacing hs text h _ number
    (columnOfName_ok names hnd) (row.map .fin) ?_ v hv
  intro p i l r hp hl x hx
  obtain ⟨a, b, h1, h2, h3, h4⟩ := ht p i l r hp hl
  refine ⟨_, h2, ?_⟩
  rw [List.getElem?_map, Option.map_eq_some_iff] at hx
  obtain ⟨x', hx', rfl⟩ := hx
  have h4 := h4 x' hx'
  rw [h1]
  rw [XF.fin_lt, XF.fin_le, decide_eq_decide]
  rw [abs_le] at h3
  rw [lt_abs] at h4
  constructor
  · intro h
    rcases h4 with h4 | h4 <;> linarith
  · intro h
    rcases h4 with h4 | h4 <;> linarith

/-! ### rows on a threshold -/

/-- one split, on column 0 at 2.5 -/
def splitO : TreeOptions F64 := { exO with maxDepth := 1 }

/-- the numbers of the tree -/
def splitOK (t : Go (Tree F64)) : Bool :=
  match t with
  | .ok (.node i (.node a .nil .nil) (.node b .nil .nil)) =>
    !i.leaf && a.leaf && b.leaf && i.splitFeatureIndex == 0 && decide (i.threshold = .fin (5/2)) && !decide (a.value = b.value)
  | _ => false

/-- **C88 violated**: however the numbers are printed (as words) and read back (2.5 exactly), there is a tree made by `NewTree`
and a row, on a threshold, for which the printed rules do not give the value that `PredictSingle` returns. -/
theorem C88_violated (fmt3 : F64 → String) (hf : ∀ x, IsWord (fmt3 x).toList) (number : List Char → Option F64)
    (hnum : number (fmt3 (.fin (5/2))).toList = some (.fin (5/2))) :
    ∃ t text rule row v w, newTree GoSort.ins exX splitO = .ok t ∧ t.print fmt3 "" none = .ok text ∧
      readPrinted text.toList = some rule ∧ t.predictSingle row = .ok v ∧
      rule.follow columnOfIndex number row = some (fmt3 w).toList ∧ v ≠ w := by
  have h : splitOK (newTree GoSort.ins exX splitO) = true := by decide +kernel
  unfold splitOK at h
  split at h
  · rename_i i a b heq
    simp only [Bool.and_eq_true, Bool.not_eq_true', beq_iff_eq, decide_eq_true_eq, decide_eq_false_iff_not] at h
    obtain ⟨⟨⟨⟨⟨h1, h2⟩, h3⟩, h4⟩, h5⟩, h6⟩ := h
    have hfn : i.featureName none = .ok (fmt2d i.splitFeatureIndex) := by simp [NodeInfo.featureName]
    have hp : ∃ text, (Tree.node i (.node a .nil .nil) (.node b .nil .nil)).print fmt3 "" none = .ok text := by
      unfold Tree.print
      rw [if_neg (by simp [h1]), hfn]
      simp only [Tree.print, h2, h3, if_true]
      exact ⟨_, rfl⟩
    obtain ⟨text, hp⟩ := hp
    obtain ⟨rule, h7, h8⟩ := C88_readable fmt3 hf none (fun _ h => by cases h) _ "" (by simp) text hp
    refine ⟨_, text, rule, [.fin (5/2)], a.value, b.value, heq, hp, h8, ?_, ?_, h6⟩
    · unfold Tree.predictSingle
      rw [if_neg (by simp [h1]), h4, h5]
      have : ((XF.fin (5/2) : F64) <=. .fin (5/2)) = true := by decide +kernel
      simp only [goIdx, List.getElem?_cons_zero, bind, Except.bind, this, if_true, Tree.predictSingle, h2]
    · unfold Tree.rules at h7
      rw [if_neg (by simp [h1]), hfn] at h7
      simp only [Tree.rules, h2, h3, if_true, bind, Except.bind, pure, Except.pure, Except.ok.injEq] at h7
      subst h7
      have : ((XF.fin (5/2) : F64) <. .fin (5/2)) = false := by decide +kernel
      unfold Rule.follow
      rw [columnOfIndex_ok i _ hfn, h4, h5, hnum]
      simp [Option.bind_eq_bind, this, Rule.follow]
  · cases h

/-- a text as `Print` writes it, and how it is read -/
example : readPrinted ("Feature len < 2.500\n---> True\n    PREDICT    4.333 with [0 1 2] Samples\n---> False\n" ++
      "    PREDICT    20.000 with [3] Samples\n").toList =
    some (.test "len".toList "2.500".toList (.predict "4.333".toList " with [0 1 2] Samples".toList)
      (.predict "20.000".toList " with [3] Samples".toList)) := by decide +kernel

/-- C88: the hypotheses are met by a tree with two splits and names, printed with a fixed number -/
example : ∃ t text, newTree GoSort.ins exX exO = .ok t ∧ t.print (fun _ => "0.5") "" (some ["len", "width"]) = .ok text := by
  cases h : newTree GoSort.ins exX exO with
  | error e =>
    have : builtShape (newTree GoSort.ins exX exO) 5 2 = true := by decide +kernel
    rw [h] at this
    cases this
  | ok t =>
    obtain ⟨s, hs⟩ := C66_print_partial (fun _ => "0.5") GoSort.ins exX exO t h (some ["len", "width"]) (by
      intro l hl row hr
      cases hl
      have : row.length = 2 := by
        simp only [exX, List.head?_cons, Option.mem_def, Option.some.injEq] at hr
        rw [← hr]
        rfl
      simp [this]) ""
    exact ⟨t, s, rfl, hs⟩

end Boo
