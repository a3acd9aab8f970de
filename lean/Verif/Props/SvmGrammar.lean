import Verif.Props.TextExact
import Verif.Lemmas.TextSpec

/-!
# C45: the reader accepts exactly the LibSVM texts
-/

namespace Boo
open GoFloat Spec
variable {F : Type} [GoFloat F]

/-- `SvmLine P l lab row`: the words of the line `l` are the int `lab` and `index:value` pairs with the values `row` (the indexes
are ignored) -/
def SvmLine (P : FText F) (l : List Char) (lab : Int) (row : List F) : Prop :=
  ∃ f fs, Words (f :: fs) l ∧ IntText f lab ∧
    List.Forall₂ (fun w x => ∃ a b, w = a ++ ':' :: b ∧ ':' ∉ a ∧ ':' ∉ b ∧ P.parse b = some x) fs row

/-- `SvmNames l names`: after its first word, the words of the line `l` are `index:name` pairs with these names -/
def SvmNames (l : List Char) (names : List (List Char)) : Prop :=
  ∃ f fs, Words (f :: fs) l ∧ List.Forall₂ (fun w x => ∃ a, w = a ++ ':' :: x ∧ ':' ∉ a ∧ ':' ∉ x) fs names

theorem svmLine_iff (P : FText F) (l : List Char) (lab : Int) (row : List F) :
    IsSVMLine P (l ++ ['\n']) lab row ↔ SvmLine P l lab row := by
  unfold IsSVMLine SvmLine
  simp only [strFields_newline, strFields_iff, atoi_iff]

/-- **C45 (LibSVM grammar)**: reading returns the data `D` if and only if the reader has no error, the first line (if a header is asked
for and there is a line) gives the keys, and the other lines are, in order, the labels and rows of `D`. What follows the last `\n` is
ignored. -/
theorem C45_libsvm_grammar (P : FText F) (text : List Char) (readErr hasHeader : Bool) (D : DataBunch F) :
    parseLibSVM P text readErr hasHeader = .ok (some D) ↔
      readErr = false ∧ D.floatLabels = [] ∧
      ∃ all lines : List (List Char), Lines all text ∧
        (if hasHeader = true ∧ all ≠ [] then ∃ h, all = h :: lines ∧ SvmNames h D.keys else all = lines ∧ D.keys = []) ∧
        ∃ rows : List (Int × List F), List.Forall₂ (fun l p => SvmLine P l p.1 p.2) lines rows ∧
          D.data = rows.map Prod.snd ∧ D.labels = rows.map Prod.fst := by
  rw [C45_libsvm_exact]
  obtain ⟨all, ha, hL⟩ := lines_of text
  have hall : ∀ all', Lines all' text ↔ all' = all := by
    intro all'
    rw [← linesOf_iff, ha]
    constructor
    · intro h
      exact (List.map_injective_iff.2 (fun a b e => List.append_cancel_right e) h).symm
    · rintro rfl; rfl
  have hmap : ∀ (ls : List (List Char)) (rows : List (Int × List F)),
      List.Forall₂ (fun l p => IsSVMLine P l p.1 p.2) (ls.map (· ++ ['\n'])) rows ↔
        List.Forall₂ (fun l p => SvmLine P l p.1 p.2) ls rows := by
    intro ls rows
    rw [List.forall₂_map_left_iff]
    simp only [svmLine_iff]
  simp only [hall, exists_and_left, exists_eq_left, ha]
  cases all with
  | nil =>
    simp only [List.map_nil, ne_eq, not_true_eq_false, and_false, if_false]
    constructor
    · rintro ⟨h1, h2, lines, ⟨rfl, h3⟩, rows, h4, h5⟩
      exact ⟨h1, h2, _, ⟨rfl, h3⟩, rows, (hmap [] rows).1 h4, h5⟩
    · rintro ⟨h1, h2, lines, ⟨rfl, h3⟩, rows, h4, h5⟩
      exact ⟨h1, h2, _, ⟨rfl, h3⟩, rows, (hmap [] rows).2 h4, h5⟩
  | cons a all =>
    by_cases hh : hasHeader = true
    · simp only [hh, List.map_cons, ne_eq, reduceCtorEq, not_false_eq_true, and_self, if_true]
      constructor
      · rintro ⟨h1, h2, lines, ⟨h, h3, w, ⟨ws, h4, h5⟩⟩, rows, h6, h7⟩
        obtain ⟨rfl, rfl⟩ := List.cons.inj h3
        rw [strFields_newline, strFields_iff] at h4
        exact ⟨h1, h2, all, ⟨a, rfl, w, ws, h4, h5⟩, rows, (hmap _ _).1 h6, h7⟩
      · rintro ⟨h1, h2, lines, ⟨h, h3, w, ws, h4, h5⟩, rows, h6, h7⟩
        obtain ⟨rfl, rfl⟩ := List.cons.inj h3
        refine ⟨h1, h2, _, ⟨_, rfl, w, ws, ?_, h5⟩, rows, (hmap _ _).2 h6, h7⟩
        rw [strFields_newline, strFields_iff]
        exact h4
    · simp only [hh, Bool.false_eq_true, false_and, if_false, List.map_cons]
      constructor
      · rintro ⟨h1, h2, lines, ⟨rfl, h3⟩, rows, h4, h5⟩
        exact ⟨h1, h2, _, ⟨rfl, h3⟩, rows, (hmap (a :: all) rows).1 h4, h5⟩
      · rintro ⟨h1, h2, lines, ⟨rfl, h3⟩, rows, h4, h5⟩
        exact ⟨h1, h2, _, ⟨rfl, h3⟩, rows, (hmap (a :: all) rows).2 h4, h5⟩

/-- **C45 (ints)**: labels are read as `strconv.Atoi` does: decimal texts of int64 and nothing else -/
theorem C45_int (s : List Char) (n : Int) : atoi s = some n ↔ IntText s n := atoi_iff s n

/-- a text of two lines with tabs and a rest -/
example : Lines ["1\t1:2.5  2:3".toList, " -7 1:0".toList] "1\t1:2.5  2:3\n -7 1:0\nrest".toList ∧
    Words ["1".toList, "1:2.5".toList, "2:3".toList] "1\t1:2.5  2:3".toList ∧ IntText "-7".toList (-7) := by
  refine ⟨(linesOf_iff _ _).1 (by decide +kernel), (strFields_iff _ _).1 (by decide +kernel), (atoi_iff _ _).1 (by decide +kernel)⟩

end Boo
