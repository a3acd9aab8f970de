import Verif.Lemmas.Stat
import Verif.Props.Stat

/-!
# Renaming the rows renames the folds
-/

namespace Boo
open GoFloat

/-- row `i` is in fold `k` -/
def InList (folds : List (List Nat)) (k i : Nat) : Prop := ∃ f, folds[k]? = some f ∧ i ∈ f

theorem inList_flatten {folds : List (List Nat)} {i : Nat} : i ∈ folds.flatten ↔ ∃ k, InList folds k i := by
  rw [List.mem_flatten]
  constructor
  · rintro ⟨f, hf, hi⟩
    obtain ⟨k, hk⟩ := List.mem_iff_getElem?.1 hf
    exact ⟨k, f, hk, hi⟩
  · rintro ⟨k, f, hk, hi⟩
    exact ⟨f, List.mem_of_getElem? hk, hi⟩

section
variable {σ : Nat → Nat} (hσ : Function.Injective σ)
include hσ

theorem inList_map (folds : List (List Nat)) (k i : Nat) :
    InList (folds.map (List.map σ)) k (σ i) ↔ InList folds k i := by
  unfold InList
  rw [List.getElem?_map]
  cases folds[k]? with
  | none => simp
  | some f => simp [hσ.eq_iff]

theorem isInPrevious_map (n : Nat) (folds : List (List Nat)) :
    isInPrevious (σ n) (folds.map (List.map σ)) = isInPrevious n folds := by
  rw [Bool.eq_iff_iff, isInPrevious_iff, isInPrevious_iff, inList_flatten, inList_flatten]
  simp only [inList_map hσ]

theorem drawNew_map (folds : List (List Nat)) (ds : List Nat) :
    drawNew (folds.map (List.map σ)) (ds.map σ) = (drawNew folds ds).map fun p => (σ p.1, p.2.map σ) := by
  induction ds with
  | nil => rfl
  | cons n ds ih =>
    simp only [List.map_cons, drawNew, isInPrevious_map hσ]
    split
    · exact ih
    · rfl

theorem modify_map (folds : List (List Nat)) (i n : Nat) :
    (folds.map (List.map σ)).modify i (· ++ [σ n]) = (folds.modify i (· ++ [n])).map (List.map σ) := by
  apply List.ext_getElem?
  intro k
  rw [List.getElem?_map, List.getElem?_modify, List.getElem?_modify, List.getElem?_map]
  cases folds[k]? with
  | none => rfl
  | some f => simp only [Option.map_some]; split <;> simp

theorem fillFold_map (i : Nat) : ∀ (m : Nat) (folds : List (List Nat)) (ds : List Nat),
    fillFold i m (folds.map (List.map σ)) (ds.map σ) =
      (fillFold i m folds ds).map fun p => (p.1.map (List.map σ), p.2.map σ) := by
  intro m
  induction m with
  | zero => intro folds ds; rfl
  | succ m ih =>
    intro folds ds
    simp only [fillFold, drawNew_map hσ]
    cases drawNew folds ds with
    | none => rfl
    | some p => simp only [Option.map_some, modify_map hσ, ih]

theorem fillFolds_map (ns : Nat) : ∀ (is : List Nat) (folds : List (List Nat)) (ds : List Nat),
    fillFolds ns is (folds.map (List.map σ)) (ds.map σ) =
      (fillFolds ns is folds ds).map fun p => (p.1.map (List.map σ), p.2.map σ) := by
  intro is
  induction is with
  | nil => intro folds ds; rfl
  | cons i is ih =>
    intro folds ds
    simp only [fillFolds, fillFold_map hσ]
    cases fillFold i ns folds ds with
    | none => rfl
    | some p => simp only [Option.map_some, ih]
end

theorem drawNew_append (folds : List (List Nat)) (ds e : List Nat) {n : Nat} {r : List Nat}
    (h : drawNew folds ds = some (n, r)) : drawNew folds (ds ++ e) = some (n, r ++ e) := by
  induction ds with
  | nil => simp [drawNew] at h
  | cons x ds ih =>
    simp only [List.cons_append, drawNew] at h ⊢
    split at h
    · rename_i hc; rw [if_pos hc]; exact ih h
    · rename_i hc
      rw [if_neg hc]
      simp only [Option.some.injEq, Prod.mk.injEq] at h
      obtain ⟨rfl, rfl⟩ := h
      rfl

theorem fillFold_append (i : Nat) (e : List Nat) : ∀ (m : Nat) (folds : List (List Nat)) (ds : List Nat)
    (fs : List (List Nat)) (r : List Nat), fillFold i m folds ds = some (fs, r) →
    fillFold i m folds (ds ++ e) = some (fs, r ++ e) := by
  intro m
  induction m with
  | zero =>
    intro folds ds fs r h
    simp only [fillFold, Option.some.injEq, Prod.mk.injEq] at h ⊢
    obtain ⟨rfl, rfl⟩ := h
    exact ⟨rfl, rfl⟩
  | succ m ih =>
    intro folds ds fs r h
    simp only [fillFold] at h ⊢
    cases hd : drawNew folds ds with
    | none => simp [hd] at h
    | some p =>
      rw [hd] at h
      rw [drawNew_append _ _ e hd]
      exact ih _ _ _ _ h

theorem fillFolds_append (ns : Nat) (e : List Nat) : ∀ (is : List Nat) (folds : List (List Nat)) (ds : List Nat)
    (fs : List (List Nat)) (r : List Nat), fillFolds ns is folds ds = some (fs, r) →
    fillFolds ns is folds (ds ++ e) = some (fs, r ++ e) := by
  intro is
  induction is with
  | nil =>
    intro folds ds fs r h
    simp only [fillFolds, Option.some.injEq, Prod.mk.injEq] at h ⊢
    obtain ⟨rfl, rfl⟩ := h
    exact ⟨rfl, rfl⟩
  | cons i is ih =>
    intro folds ds fs r h
    simp only [fillFolds] at h ⊢
    cases hd : fillFold i ns folds ds with
    | none => simp [hd] at h
    | some p =>
      rw [hd] at h
      rw [fillFold_append i e _ _ _ _ _ hd]
      exact ih _ _ _ _ h

/-- `fillRemaining` puts the rows of no fold into the last fold. -/
theorem fillRemaining_mem (folds : List (List Nat)) (hne : folds ≠ []) (tot k i : Nat) :
    InList (fillRemaining folds tot) k i ↔
      InList folds k i ∨ (k = folds.length - 1 ∧ i < tot ∧ i ∉ folds.flatten) := by
  have hpos := List.length_pos_iff.2 hne
  have main : ∀ t, ((List.range t).foldl (fun folds i =>
      if isInPrevious i folds then folds else folds.modify (folds.length - 1) (· ++ [i])) folds).length = folds.length ∧
      ∀ k i, InList ((List.range t).foldl (fun folds i =>
      if isInPrevious i folds then folds else folds.modify (folds.length - 1) (· ++ [i])) folds) k i ↔
      InList folds k i ∨ (k = folds.length - 1 ∧ i < t ∧ i ∉ folds.flatten) := by
    intro t
    induction t with
    | zero => refine ⟨by simp, fun k i => by simp⟩
    | succ t ih =>
      rw [List.range_succ, List.foldl_append]
      generalize (List.range t).foldl (fun folds i =>
        if isInPrevious i folds then folds else folds.modify (folds.length - 1) (· ++ [i])) folds = fs at ih ⊢
      obtain ⟨hl, ih⟩ := ih
      simp only [List.foldl_cons, List.foldl_nil]
      have hmem : t ∈ fs.flatten ↔ t ∈ folds.flatten := by
        rw [inList_flatten, inList_flatten]
        constructor
        · rintro ⟨k, hk⟩
          rcases (ih k t).1 hk with h | h
          · exact ⟨k, h⟩
          · omega
        · rintro ⟨k, hk⟩
          exact ⟨k, (ih k t).2 (Or.inl hk)⟩
      by_cases hp : isInPrevious t fs = true
      · rw [if_pos hp]
        rw [isInPrevious_iff, hmem] at hp
        refine ⟨hl, fun k i => ?_⟩
        rw [ih k i]
        have : i ∉ folds.flatten → (i < t ↔ i < t + 1) := by
          intro h
          have : i ≠ t := by rintro rfl; exact h hp
          omega
        constructor
        · rintro (h | ⟨h1, h2, h3⟩)
          · exact Or.inl h
          · exact Or.inr ⟨h1, (this h3).1 h2, h3⟩
        · rintro (h | ⟨h1, h2, h3⟩)
          · exact Or.inl h
          · exact Or.inr ⟨h1, (this h3).2 h2, h3⟩
      · rw [if_neg hp]
        rw [isInPrevious_iff, hmem] at hp
        refine ⟨by simp [hl], fun k i => ?_⟩
        have key : InList (fs.modify (fs.length - 1) (· ++ [t])) k i ↔
            InList fs k i ∨ (k = folds.length - 1 ∧ i = t) := by
          unfold InList
          rw [List.getElem?_modify, hl]
          by_cases hk : folds.length - 1 = k
          · subst hk
            have : folds.length - 1 < fs.length := by omega
            rw [List.getElem?_eq_getElem this]
            simp
          · have hk' : ¬ k = folds.length - 1 := fun h => hk h.symm
            simp [hk, hk']
        rw [key, ih k i]
        constructor
        · rintro ((h | ⟨h1, h2, h3⟩) | ⟨h1, rfl⟩)
          · exact Or.inl h
          · exact Or.inr ⟨h1, by omega, h3⟩
          · exact Or.inr ⟨h1, by omega, hp⟩
        · rintro (h | ⟨h1, h2, h3⟩)
          · exact Or.inl (Or.inl h)
          · by_cases he : i = t
            · exact Or.inr ⟨h1, he⟩
            · exact Or.inl (Or.inr ⟨h1, by omega, h3⟩)
  exact (main tot).2 k i

/-- what `fillFolds` and `fillRemaining` make of the draws -/
def foldsOf (tot n : Nat) (ds : List Nat) : Option (List (List Nat)) :=
  (fillFolds (tot / n) (List.range n) (List.replicate n []) ds).map fun p => fillRemaining p.1 tot

theorem foldsOf_append {tot n : Nat} {ds : List Nat} {fs : List (List Nat)} (e : List Nat)
    (h : foldsOf tot n ds = some fs) : foldsOf tot n (ds ++ e) = some fs := by
  unfold foldsOf at h ⊢
  rw [Option.map_eq_some_iff] at h
  obtain ⟨⟨f, r⟩, h1, h2⟩ := h
  rw [fillFolds_append _ e _ _ _ _ _ h1]
  exact congrArg some h2

theorem foldsOf_parts {tot n : Nat} (hn : 1 ≤ n) {ds : List Nat} (hd : ∀ x ∈ ds, x < tot) {fs : List (List Nat)}
    (h : foldsOf tot n ds = some fs) : CVParts tot n (tot / n) fs := by
  unfold foldsOf at h
  rw [Option.map_eq_some_iff] at h
  obtain ⟨⟨f, r⟩, h1, h2⟩ := h
  rw [List.range_eq_range'] at h1
  have := fillFolds_spec n 0 _ ds f r (by omega) (cvInv_init tot n _) hd h1
  rw [← h2]
  exact fillRemaining_spec hn this

/-- A renaming of the rows renames the folds. -/
theorem foldsOf_map {tot n : Nat} (hn : 1 ≤ n) {σ : Nat → Nat} (hσ : Function.Injective σ)
    (ht : ∀ i, σ i < tot ↔ i < tot) {ds : List Nat} (hd : ∀ x ∈ ds, x < tot) {fs : List (List Nat)}
    (h : foldsOf tot n ds = some fs) :
    ∃ gs, foldsOf tot n (ds.map σ) = some gs ∧ ∀ k i, InList gs k (σ i) ↔ InList fs k i := by
  unfold foldsOf at h ⊢
  rw [Option.map_eq_some_iff] at h
  obtain ⟨⟨f, r⟩, h1, h2⟩ := h
  have h3 := fillFolds_map hσ (tot / n) (List.range n) (List.replicate n []) ds
  rw [List.map_replicate, List.map_nil, h1] at h3
  rw [h3]
  refine ⟨_, rfl, fun k i => ?_⟩
  rw [← h2]
  have hlen : f.length = n := by
    rw [List.range_eq_range'] at h1
    exact (fillFolds_spec n 0 _ ds f r (by omega) (cvInv_init tot n _) hd h1).len
  have hne : f ≠ [] := by rintro rfl; simp at hlen; omega
  simp only
  rw [fillRemaining_mem _ (by simpa using hne), fillRemaining_mem _ hne, inList_map hσ, List.length_map, ht]
  have : σ i ∈ (f.map (List.map σ)).flatten ↔ i ∈ f.flatten := by
    rw [inList_flatten, inList_flatten]
    simp only [inList_map hσ]
  rw [this]

end Boo
