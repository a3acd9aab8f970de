import Verif.Model.Print
import Verif.Props.Strings

/-!
# C92: matrices and JSON nodes as text
-/

namespace Boo
open GoFloat
set_option linter.unusedSectionVars false
variable {F : Type} [GoFloat F]

/-- a text without blanks and brackets -/
def IsEntry (w : List Char) : Prop := IsField w ∧ '[' ∉ w ∧ ']' ∉ w

/-- the words of a line, without the brackets -/
def entriesOf (line : List Char) : List (List Char) := strFields (line.filter fun c => c ≠ '[' ∧ c ≠ ']')

theorem join_entries {ws : List (List Char)} (h : ∀ w ∈ ws, IsEntry w) :
    strFields (strJoin ws [' ']) = ws ∧ (∀ c ∈ strJoin ws [' '], c ≠ '[' ∧ c ≠ ']' ∧ c ≠ '\n') := by
  constructor
  · rw [strFields_join]
    induction ws with
    | nil => rfl
    | cons w ws ih =>
      have hw := (h w List.mem_cons_self).1
      rw [List.flatMap_cons, strFields_word w hw.1 hw.2, ih fun v hv => h v (List.mem_cons_of_mem _ hv)]
      rfl
  · intro c hc
    rcases strJoin_mem hc with h1 | ⟨w, h1, h2⟩
    · rw [List.mem_singleton] at h1
      subst h1
      decide
    · have := h w h1
      refine ⟨?_, ?_, ?_⟩
      · rintro rfl; exact this.2.1 h2
      · rintro rfl; exact this.2.2 h2
      · rintro rfl; exact this.1.noNewline h2

theorem entriesOf_row {ws : List (List Char)} (h : ∀ w ∈ ws, IsEntry w) (pre post : List Char)
    (hpre : ∀ c ∈ pre, c = '[') (hpost : ∀ c ∈ post, c = ']') : entriesOf (pre ++ fmtSlice ws ++ post) = ws := by
  obtain ⟨h1, h2⟩ := join_entries h
  unfold entriesOf fmtSlice
  rw [List.filter_append, List.filter_append, List.filter_append, List.filter_cons]
  have e1 : pre.filter (fun c => decide (c ≠ '[' ∧ c ≠ ']')) = [] := by
    rw [List.filter_eq_nil_iff]
    intro c hc
    rw [hpre c hc]
    decide
  have e2 : post.filter (fun c => decide (c ≠ '[' ∧ c ≠ ']')) = [] := by
    rw [List.filter_eq_nil_iff]
    intro c hc
    rw [hpost c hc]
    decide
  have e3 : (strJoin ws [' ']).filter (fun c => decide (c ≠ '[' ∧ c ≠ ']')) = strJoin ws [' '] := by
    rw [List.filter_eq_self]
    intro c hc
    have := h2 c hc
    simp [this.1, this.2.1]
  rw [e1, e2, e3]
  simpa using h1

/-- **C92 (matrices)**: the text of a matrix with at least one row has one line per row; the words of line `i`, without the brackets,
are the texts of the entries of row `i`; the text begins with `[[` and ends with `]]`. A matrix without rows makes it panic. -/
theorem C92_matrix (fmtv : F → List Char) (hf : ∀ x, IsEntry (fmtv x)) (m : Dense F) :
    (m.r = 0 → printDenseMatrix fmtv m = .error .index) ∧
    (0 < m.r → ∃ text, printDenseMatrix fmtv m = .ok text ∧ (linesIn text).length = m.r ∧
      (∀ i < m.r, ∃ line, (linesIn text)[i]? = some line ∧ entriesOf line = (m.row i).map fmtv) ∧
      "[[".toList <+: text ∧ "]]".toList <:+ text) := by
  refine ⟨fun h => ?_, fun h => ?_⟩
  · unfold printDenseMatrix
    simp [h, goIdx, bind, Except.bind]
  · obtain ⟨n, hn⟩ : ∃ n, m.r = n + 1 := ⟨m.r - 1, by omega⟩
    set R : Nat → List Char := fun i => fmtSlice ((m.row i).map fmtv) with hR
    set L : Nat → List Char := fun i => (if i = 0 then ['['] else []) ++ R i ++ (if i = n then [']'] else []) with hL
    have hall : ∀ i, ∀ w ∈ (m.row i).map fmtv, IsEntry w := by
      intro i w hw
      obtain ⟨x, _, rfl⟩ := List.mem_map.1 hw
      exact hf x
    have hset : (((List.range (n + 1)).map R).set 0 ('[' :: R 0)).set n
        ((((List.range (n + 1)).map R).set 0 ('[' :: R 0)).getD n [] ++ [']']) = (List.range (n + 1)).map L := by
      apply List.ext_getElem (by simp)
      intro i h1 h2
      simp only [List.length_map, List.length_range] at h2
      simp only [List.getElem_set, List.getElem_map, List.getElem_range, List.getD_eq_getElem?_getD]
      rw [List.getElem?_eq_getElem (by simp)]
      simp only [List.getElem_set, List.getElem_map, List.getElem_range, Option.getD_some]
      simp only [hL]
      by_cases hi0 : i = 0 <;> by_cases hin : i = n
      · subst hi0; subst hin; simp
      · subst hi0; simp [Ne.symm hin]; intro h; exact absurd h hin
      · subst hin; simp [hi0, Ne.symm hi0]
      · simp [Ne.symm hin, Ne.symm hi0, hin, hi0]
    have htext : printDenseMatrix fmtv m = .ok (strJoin ((List.range (n + 1)).map L) ['\n']) := by
      unfold printDenseMatrix
      rw [hn]
      have g0 : goIdx ((List.range (n + 1)).map R) 0 = .ok (R 0) := by
        unfold goIdx
        rw [List.getElem?_map, List.getElem?_range (by omega)]
        rfl
      have g1 : goIdx (((List.range (n + 1)).map R).set 0 ('[' :: R 0)) n =
          .ok ((((List.range (n + 1)).map R).set 0 ('[' :: R 0)).getD n []) := by
        unfold goIdx
        rw [List.getD_eq_getElem?_getD, List.getElem?_eq_getElem (by simp)]
        rfl
      have hlen : (((List.range (n + 1)).map R).set 0 ('[' :: R 0)).length - 1 = n := by simp
      simp only [← hR]
      rw [g0]
      simp only [bind, Except.bind]
      rw [hlen, g1]
      simp only
      rw [hset]
      rfl
    have hlines : linesIn (strJoin ((List.range (n + 1)).map L) ['\n']) = (List.range (n + 1)).map L := by
      have e : (List.range (n + 1)).map L = L 0 :: (List.range n).map fun i => L (i + 1) := by
        rw [List.range_succ_eq_map, List.map_cons, List.map_map]
        rfl
      rw [e]
      apply linesIn_join
      rw [← e]
      intro l hl hc
      obtain ⟨i, _, rfl⟩ := List.mem_map.1 hl
      simp only [hL, hR, fmtSlice, List.mem_append, List.mem_cons] at hc
      rcases hc with (hc | (hc | hc) | hc) | hc
      · split at hc
        · simp at hc
        · cases hc
      · exact absurd hc (by decide)
      · exact ((join_entries (hall i)).2 _ hc).2.2 rfl
      · simp at hc
      · split at hc
        · simp at hc
        · cases hc
    refine ⟨_, htext, ?_, ?_, ?_, ?_⟩
    · rw [hlines, List.length_map, List.length_range, hn]
    · intro i hi
      refine ⟨L i, ?_, ?_⟩
      · rw [hlines, List.getElem?_map, List.getElem?_range (by omega)]
        rfl
      · refine entriesOf_row (hall i) _ _ ?_ ?_
        · intro c hc; split at hc
          · simpa using hc
          · cases hc
        · intro c hc; split at hc
          · simpa using hc
          · cases hc
    · have e : (List.range (n + 1)).map L = L 0 :: (List.range n).map fun i => L (i + 1) := by
        rw [List.range_succ_eq_map, List.map_cons, List.map_map]
        rfl
      rw [e]
      have h0 : ∃ r, L 0 = "[[".toList ++ r := by
        simp only [hL, hR, fmtSlice]
        exact ⟨_, rfl⟩
      obtain ⟨r, hr⟩ := h0
      cases (List.range n).map fun i => L (i + 1) with
      | nil => rw [strJoin_single, hr]; exact List.prefix_append _ _
      | cons b bs => rw [strJoin_cons_cons, hr, List.append_assoc, List.append_assoc]; exact List.prefix_append _ _
    · have hn1 : ∃ r, L n = r ++ "]]".toList := by
        simp only [hL, hR, fmtSlice, if_true]
        exact ⟨(if n = 0 then ['['] else []) ++ '[' :: strJoin ((m.row n).map fmtv) [' '], by simp⟩
      obtain ⟨r, hr⟩ := hn1
      rw [List.range_succ, List.map_append]
      have : ∀ (as : List (List Char)) (b : List Char), b <:+ strJoin (as ++ [b]) ['\n'] := by
        intro as
        induction as with
        | nil => intro b; rw [List.nil_append, strJoin_single]
        | cons a as ih =>
          intro b
          cases as with
          | nil => rw [List.cons_append, List.nil_append, strJoin_cons_cons, strJoin_single]; exact List.suffix_append _ _
          | cons a' as =>
            rw [List.cons_append, List.cons_append, strJoin_cons_cons]
            exact (ih b).trans (List.suffix_append _ _)
      refine List.IsSuffix.trans ?_ (this _ _)
      rw [hr]
      exact List.suffix_append _ _

/-- two matrices with the same text have the same entries, if different floats have different texts -/
theorem C92_matrix_injective (fmtv : F → List Char) (hf : ∀ x, IsEntry (fmtv x)) (hinj : ∀ x y, fmtv x = fmtv y → x = y)
    (m m' : Dense F) (hr : 0 < m.r) (hr' : 0 < m'.r) (h : printDenseMatrix fmtv m = printDenseMatrix fmtv m') :
    m.r = m'.r ∧ ∀ i < m.r, m.row i = m'.row i := by
  obtain ⟨t, e1, e2, e3, _⟩ := (C92_matrix fmtv hf m).2 hr
  obtain ⟨t', e1', e2', e3', _⟩ := (C92_matrix fmtv hf m').2 hr'
  rw [e1, e1'] at h
  cases h
  refine ⟨by rw [← e2, ← e2'], fun i hi => ?_⟩
  obtain ⟨l, a1, a2⟩ := e3 i hi
  obtain ⟨l', b1, b2⟩ := e3' i (by rw [← e2', e2]; exact hi)
  rw [a1] at b1
  cases b1
  rw [a2] at b2
  exact List.map_injective_iff.2 hinj b2

theorem cut {c : Char} {a a' b b' : List Char} (ha : c ∉ a) (ha' : c ∉ a') (h : a ++ c :: b = a' ++ c :: b') : a = a' ∧ b = b' := by
  induction a generalizing a' with
  | nil =>
    cases a' with
    | nil => exact ⟨rfl, (List.cons.inj h).2⟩
    | cons x a' =>
      have := (List.cons.inj h).1
      subst this
      exact absurd List.mem_cons_self ha'
  | cons y a ih =>
    cases a' with
    | nil =>
      have := (List.cons.inj h).1
      subst this
      exact absurd List.mem_cons_self ha
    | cons x a' =>
      obtain ⟨rfl, h2⟩ := List.cons.inj h
      obtain ⟨h3, h4⟩ := ih (fun hh => ha (List.mem_cons_of_mem _ hh)) (fun hh => ha' (List.mem_cons_of_mem _ hh)) h2
      exact ⟨by rw [h3], h4⟩

theorem fmtNat_inj {a b : Nat} (h : fmtNat a = fmtNat b) : a = b := by
  have : (a : Int) = b := fmtInt_inj (by rw [show ((a : Int)) = Int.ofNat a from rfl, show ((b : Int)) = Int.ofNat b from rfl,
    fmtInt_nat, fmtInt_nat, h])
  omega

theorem fmtBool_inj {a b : Bool} (h : fmtBool a = fmtBool b) : a = b := by
  revert h
  cases a <;> cases b <;> decide

theorem fmtNat_not {c : Char} (hc : c.isDigit = false) (n : Nat) : c ∉ fmtNat n := by
  intro h
  rw [fmtNat_digits n c h] at hc
  cases hc

/-- **C92 (JSON nodes)**: the text of a JSON node tells its id, samples and their number, whether it is a leaf, its branches, the ids
of its children and its kind, and to three decimals its score, value and threshold. It does not show the split feature. -/
theorem C92_node (fmt3 : F → List Char) (hf : ∀ x, ',' ∉ fmt3 x ∧ 'T' ∉ fmt3 x) (j j' : JSONNode F)
    (h : j.string fmt3 = j'.string fmt3) :
    j.id = j'.id ∧ j.samples.getD [] = j'.samples.getD [] ∧ j.nsamples = j'.nsamples ∧ j.leaf = j'.leaf ∧ j.branches = j'.branches ∧
    j.leftid = j'.leftid ∧ j.rightid = j'.rightid ∧ j.xgb = j'.xgb ∧ fmt3 j.bestScoreSoFar = fmt3 j'.bestScoreSoFar ∧
    fmt3 j.value = fmt3 j'.value ∧ fmt3 j.threshold = fmt3 j'.threshold := by
  have hs : ∀ l : List Nat, ']' ∉ strJoin (l.map fmtNat) [' '] := by
    intro l hc
    rcases strJoin_mem hc with h1 | ⟨w, h1, h2⟩
    · exact absurd h1 (by decide)
    · obtain ⟨x, _, rfl⟩ := List.mem_map.1 h1
      exact fmtNat_not (by decide) x h2
  have hsinj : ∀ l l' : List Nat, strJoin (l.map fmtNat) [' '] = strJoin (l'.map fmtNat) [' '] → l = l' := by
    intro l l' he
    have key : ∀ l : List Nat, strFields (strJoin (l.map fmtNat) [' ']) = l.map fmtNat := fun l =>
      (join_entries (ws := l.map fmtNat) (by
        intro w hw
        obtain ⟨x, _, rfl⟩ := List.mem_map.1 hw
        exact ⟨isField_fmtNat x, fmtNat_not (by decide) x, fmtNat_not (by decide) x⟩)).1
    have := congrArg strFields he
    rw [key, key] at this
    exact List.map_injective_iff.2 (fun _ _ => fmtNat_inj) this
  have hb : ∀ b : Bool, ',' ∉ fmtBool b := by intro b; cases b <;> decide
  have hd : ∀ n : Nat, ',' ∉ fmtNat n := fmtNat_not (by decide)
  have e1 : ", Samples:".toList = ',' :: " Samples:".toList := rfl
  have e2 : ", ns: ".toList = ", ns: ".toList := rfl
  have e3 : ", score: ".toList = ',' :: " score: ".toList := rfl
  have e4 : ",Value:".toList = ',' :: "Value:".toList := rfl
  have e5 : "Threshold: ".toList = 'T' :: "hreshold: ".toList := rfl
  have e6 : ", Leaf: ".toList = ',' :: " Leaf: ".toList := rfl
  have e7 : ", Branches: ".toList = ',' :: " Branches: ".toList := rfl
  have e8 : ", LeftID: ".toList = ',' :: " LeftID: ".toList := rfl
  have e9 : ", ".toList = ',' :: " ".toList := rfl
  have e10 : ", XGB:".toList = ',' :: " XGB:".toList := rfl
  unfold JSONNode.string fmtSlice at h
  rw [e1, e3, e4, e5, e6, e7, e8, e9, e10] at h
  simp only [List.append_assoc, List.cons_append, List.nil_append] at h
  obtain ⟨h1, h⟩ := cut (hd _) (hd _) (List.append_cancel_left h)
  have h := (List.cons.inj (List.append_cancel_left h)).2
  obtain ⟨h2, h⟩ := cut (hs _) (hs _) h
  obtain ⟨h3, h⟩ := cut (hd _) (hd _) (List.append_cancel_left h)
  obtain ⟨h4, h⟩ := cut (hf _).1 (hf _).1 (List.append_cancel_left h)
  obtain ⟨h5, h⟩ := cut (hf _).2 (hf _).2 (List.append_cancel_left h)
  obtain ⟨h6, h⟩ := cut (hf _).1 (hf _).1 (List.append_cancel_left h)
  obtain ⟨h7, h⟩ := cut (hb _) (hb _) (List.append_cancel_left h)
  obtain ⟨h8, h⟩ := cut (hd _) (hd _) (List.append_cancel_left h)
  obtain ⟨h9, h⟩ := cut (hd _) (hd _) (List.append_cancel_left h)
  have h := List.append_cancel_left (List.append_cancel_left h)
  obtain ⟨h10, h⟩ := cut (hd _) (hd _) h
  have h11 := List.append_cancel_left h
  exact ⟨fmtNat_inj h1, hsinj _ _ h2, fmtNat_inj h3, fmtBool_inj h7, fmtNat_inj h8, fmtNat_inj h9, fmtNat_inj h10, fmtBool_inj h11,
    h4, h5, h6⟩

/-- a matrix as text -/
example : printDenseMatrix (F := F64) (fun x => if x = .fin 0 then "0".toList else "1.5".toList) ⟨2, 2, [.fin 0, .fin 1, .fin 1, .fin 0]⟩ =
    .ok "[[0 1.5]\n[1.5 0]]".toList := by decide +kernel

/-- a node as text -/
example : JSONNode.string (F := F64) (fun _ => "0.500".toList) ⟨3, 2, some [0, 4], 1, .fin 1, false, .fin 1, 4, 5, 2, .fin 0, true⟩ =
    ("ID:3, Samples:[0 4], ns: 2, score: 0.500,Value:0.500Threshold: 0.500, Leaf: false, Branches: 2, LeftID: 4, " ++
      "RightID: 5, XGB:true").toList := by decide +kernel

end Boo
