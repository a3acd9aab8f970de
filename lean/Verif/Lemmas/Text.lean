import Verif.Model.Text
import Mathlib.Data.List.Basic

/-!
# Lines of a text
-/

namespace Boo

/-- the text made of the given lines -/
def unlines (ls : List (List Char)) : List Char := (ls.map (· ++ ['\n'])).flatten

/-- the lines with their newlines, as `ReadString` returns them -/
def nls (ls : List (List Char)) : List (List Char) := ls.map (· ++ ['\n'])

@[simp] theorem nls_nil : nls [] = [] := rfl
@[simp] theorem nls_cons (l : List Char) (ls : List (List Char)) : nls (l :: ls) = (l ++ ['\n']) :: nls ls := rfl
@[simp] theorem nls_append (l m : List (List Char)) : nls (l ++ m) = nls l ++ nls m := by simp [nls]
@[simp] theorem nls_length (l : List (List Char)) : (nls l).length = l.length := by simp [nls]
theorem nls_take (l : List (List Char)) (k : Nat) : nls (l.take k) = (nls l).take k := by simp [nls, List.map_take]

@[simp] theorem unlines_nil : unlines [] = [] := rfl
@[simp] theorem unlines_cons (l : List Char) (ls : List (List Char)) : unlines (l :: ls) = l ++ ['\n'] ++ unlines ls := rfl
@[simp] theorem unlines_append (l m : List (List Char)) : unlines (l ++ m) = unlines l ++ unlines m := by
  simp [unlines]

theorem splitLines_line (s t : List Char) (h : '\n' ∉ s) :
    splitLines (s ++ '\n' :: t) = ((s ++ ['\n']) :: (splitLines t).1, (splitLines t).2) := by
  induction s with
  | nil => simp [splitLines]
  | cons c s ih =>
    have hc : c ≠ '\n' := fun e => h (by simp [e])
    have hs : '\n' ∉ s := fun e => h (by simp [e])
    rw [List.cons_append, splitLines, ih hs]
    simp [hc]

theorem splitLines_part (s : List Char) (h : '\n' ∉ s) : splitLines s = ([], s) := by
  induction s with
  | nil => rfl
  | cons c s ih =>
    have hc : c ≠ '\n' := fun e => h (by simp [e])
    have hs : '\n' ∉ s := fun e => h (by simp [e])
    rw [splitLines, ih hs]
    simp [hc]

theorem linesOf_part (s : List Char) (h : '\n' ∉ s) : linesOf s = [] := by
  rw [linesOf, splitLines_part s h]

theorem linesOf_line (s t : List Char) (h : '\n' ∉ s) : linesOf (s ++ '\n' :: t) = (s ++ ['\n']) :: linesOf t := by
  rw [linesOf, splitLines_line s t h]; rfl

theorem linesOf_unlines (ls : List (List Char)) (t : List Char) (h : ∀ l ∈ ls, '\n' ∉ l) :
    linesOf (unlines ls ++ t) = nls ls ++ linesOf t := by
  induction ls with
  | nil => rfl
  | cons l ls ih =>
    rw [unlines_cons, List.append_assoc, List.append_assoc, List.singleton_append, linesOf_line l _ (h l (by simp)),
      ih fun m hm => h m (by simp [hm])]
    rfl

/-- A cut text consists of the first lines, and the cut line is not seen. -/
theorem linesOf_prefix (ls : List (List Char)) (p : List Char) (h : ∀ l ∈ ls, '\n' ∉ l) (hp : p <+: unlines ls) :
    ∃ k, k ≤ ls.length ∧ linesOf p = nls (ls.take k) := by
  induction ls generalizing p with
  | nil =>
    rw [unlines_nil, List.prefix_nil] at hp
    subst hp
    exact ⟨0, Nat.le_refl _, rfl⟩
  | cons l ls ih =>
    have hl := h l (by simp)
    rw [unlines_cons, List.append_assoc, List.singleton_append] at hp
    by_cases hlen : p.length ≤ l.length
    · have : p <+: l := List.prefix_of_prefix_length_le hp (List.prefix_append _ _) hlen
      refine ⟨0, by simp, ?_⟩
      rw [linesOf_part p fun hm => hl (this.subset hm)]
      rfl
    · have hl2 : l ++ ['\n'] <+: p := by
        refine List.prefix_of_prefix_length_le (l₃ := l ++ '\n' :: unlines ls) ?_ hp (by simp; omega)
        rw [show l ++ '\n' :: unlines ls = (l ++ ['\n']) ++ unlines ls by simp]
        exact List.prefix_append _ _
      obtain ⟨q, rfl⟩ := hl2
      have hq : q <+: unlines ls := by
        rw [show l ++ '\n' :: unlines ls = (l ++ ['\n']) ++ unlines ls by simp] at hp
        exact (List.prefix_append_right_inj _).1 hp
      obtain ⟨k, hk, hk'⟩ := ih q (fun m hm => h m (by simp [hm])) hq
      refine ⟨k + 1, by simp; omega, ?_⟩
      rw [List.append_assoc, List.singleton_append, linesOf_line l q hl, hk']
      rfl

theorem strContains_mem {s sub : List Char} (h : strContains s sub = true) : ∀ c ∈ sub, c ∈ s := by
  induction s with
  | nil =>
    intro c hc
    rw [strContains, List.isEmpty_iff] at h
    subst h
    cases hc
  | cons a s ih =>
    rw [strContains, Bool.or_eq_true] at h
    intro c hc
    rcases h with h | h
    · exact (List.isPrefixOf_iff_prefix.1 h).subset hc
    · exact List.mem_cons_of_mem _ (ih h c hc)

theorem strContains_false {s sub : List Char} (c : Char) (hc : c ∈ sub) (hs : c ∉ s) : strContains s sub = false := by
  cases h : strContains s sub with
  | false => rfl
  | true => exact absurd (strContains_mem h c hc) hs

theorem strContains_prefix {s sub : List Char} (h : sub <+: s) : strContains s sub = true := by
  cases s with
  | nil => rw [List.prefix_nil] at h; subst h; rfl
  | cons c s => rw [strContains, List.isPrefixOf_iff_prefix.2 h]; rfl

theorem fmtNat_digits (n : Nat) : ∀ c ∈ fmtNat n, c.isDigit := by
  intro c hc
  have : (toString n).toList = Nat.toDigits 10 n := by
    show (Nat.repr n).toList = _
    simp [Nat.repr]
  rw [fmtNat, this] at hc
  exact Nat.isDigit_of_mem_toDigits (by omega) (by omega) hc

theorem fmtInt_chars (n : Int) : ∀ c ∈ fmtInt n, c.isDigit ∨ c = '-' := by
  intro c hc
  unfold fmtInt at hc
  cases n with
  | ofNat n => exact Or.inl (fmtNat_digits n c hc)
  | negSucc n =>
    have : (toString (Int.negSucc n)).toList = '-' :: fmtNat (n + 1) := by
      show (Int.repr (Int.negSucc n)).toList = _
      simp [Int.repr, fmtNat]
    rw [this, List.mem_cons] at hc
    rcases hc with hc | hc
    · exact Or.inr hc
    · exact Or.inl (fmtNat_digits _ c hc)

end Boo
