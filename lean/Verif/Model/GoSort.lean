import Verif.Model.GoFloat

/-!
# `sort.Sort`

Go's `sort.Sort` (pattern-defeating quicksort, not stable) only calls `Less` and `Swap`, so it
permutes its input; if `Less` is a strict weak order it sorts. It is a parameter of the model.
-/

namespace Boo

/-- `less` is a strict weak order on the elements of `l` (the precondition of `sort.Sort`). -/
def StrictWeakOn {α : Type} (less : α → α → Bool) (l : List α) : Prop :=
  (∀ a ∈ l, less a a = false) ∧
  (∀ a ∈ l, ∀ b ∈ l, ∀ c ∈ l, less a b = true → less b c = true → less a c = true) ∧
  (∀ a ∈ l, ∀ b ∈ l, ∀ c ∈ l, less a b = false → less b c = false → less a c = false)

theorem StrictWeakOn.mono {α : Type} {less : α → α → Bool} {l l' : List α}
    (h : StrictWeakOn less l) (hs : ∀ a ∈ l', a ∈ l) : StrictWeakOn less l' :=
  ⟨fun a ha => h.1 a (hs a ha),
   fun a ha b hb c hc => h.2.1 a (hs a ha) b (hs b hb) c (hs c hc),
   fun a ha b hb c hc => h.2.2 a (hs a ha) b (hs b hb) c (hs c hc)⟩

/-- Any implementation of `sort.Sort`: a permutation, sorted when `Less` is a strict weak order. -/
structure GoSort where
  sort : {α : Type} → (α → α → Bool) → List α → List α
  perm : ∀ {α : Type} (less : α → α → Bool) (l : List α), (sort less l).Perm l
  sorted : ∀ {α : Type} (less : α → α → Bool) (l : List α), StrictWeakOn less l →
    (sort less l).Pairwise (fun a b => less b a = false)

/-- insertion into a sorted list -/
def insertBy {α : Type} (less : α → α → Bool) (x : α) : List α → List α
  | [] => [x]
  | y :: ys => if less y x then y :: insertBy less x ys else x :: y :: ys

/-- insertion sort, to show that `GoSort` is inhabited and to evaluate examples
(for 12 elements or fewer Go's `sort.Sort` is an insertion sort too) -/
def insSort {α : Type} (less : α → α → Bool) : List α → List α
  | [] => []
  | x :: xs => insertBy less x (insSort less xs)

theorem insertBy_perm {α : Type} (less : α → α → Bool) (x : α) (l : List α) :
    (insertBy less x l).Perm (x :: l) := by
  induction l with
  | nil => exact List.Perm.refl _
  | cons y ys ih =>
    unfold insertBy
    split
    · exact (List.Perm.cons y ih).trans (List.Perm.swap x y ys)
    · exact List.Perm.refl _

theorem insSort_perm {α : Type} (less : α → α → Bool) (l : List α) :
    (insSort less l).Perm l := by
  induction l with
  | nil => exact List.Perm.refl _
  | cons x xs ih => exact (insertBy_perm less x _).trans (ih.cons x)

theorem insertBy_sorted {α : Type} (less : α → α → Bool) (x : α) (l : List α)
    (hw : StrictWeakOn less (x :: l)) (h : l.Pairwise (fun a b => less b a = false)) :
    (insertBy less x l).Pairwise (fun a b => less b a = false) := by
  induction l with
  | nil => simp [insertBy]
  | cons y ys ih =>
    obtain ⟨hi, ht, hn⟩ := hw
    have hw' : StrictWeakOn less (x :: ys) := by
      refine ⟨fun a ha => hi a ?_, fun a ha b hb c hc => ht a ?_ b ?_ c ?_,
        fun a ha b hb c hc => hn a ?_ b ?_ c ?_⟩ <;>
      simp only [List.mem_cons] at * <;> tauto
    rw [List.pairwise_cons] at h
    unfold insertBy
    split
    · rename_i hyx
      rw [List.pairwise_cons]
      refine ⟨fun a ha => ?_, ih hw' h.2⟩
      have := (insertBy_perm less x ys).mem_iff.1 ha
      rcases List.mem_cons.1 this with rfl | h2
      · cases hc : less a y with
        | false => rfl
        | true =>
          have := ht y (by simp) a (by simp) y (by simp) hyx hc
          rw [hi y (by simp)] at this; exact absurd this (by simp)
      · exact h.1 a h2
    · rename_i hyx
      have hyx : less y x = false := by simpa using hyx
      rw [List.pairwise_cons]
      refine ⟨fun a ha => ?_, by rw [List.pairwise_cons]; exact h⟩
      rcases List.mem_cons.1 ha with rfl | h2
      · exact hyx
      · exact hn a (by simp [h2]) y (by simp) x (by simp) (h.1 a h2) hyx

theorem insSort_sorted {α : Type} (less : α → α → Bool) (l : List α)
    (hw : StrictWeakOn less l) : (insSort less l).Pairwise (fun a b => less b a = false) := by
  induction l with
  | nil => simp [insSort]
  | cons x xs ih =>
    have hmem : ∀ a, a ∈ insSort less xs ↔ a ∈ xs := fun a => (insSort_perm less xs).mem_iff
    exact insertBy_sorted less x _ (hw.mono fun a ha => by simpa [hmem] using ha)
      (ih (hw.mono fun a ha => by simp [ha]))

/-- A computable `GoSort`. -/
def GoSort.ins : GoSort := ⟨insSort, insSort_perm, insSort_sorted⟩

end Boo
