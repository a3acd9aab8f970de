import Verif.Props.Tree

/-!
# C65: reusing tree options; C66: printing
-/

namespace Boo
open GoFloat
set_option linter.unusedSectionVars false
variable {F : Type} [GoFloat F]

/-! ### C65

`NewTree(X, o)` leaves the caller's options as `o.fill X`. -/

/-- options without an index list (as the constructors return them) -/
def reuseO : TreeOptions F64 :=
  { (defaultGTreeOptions : TreeOptions F64) with minChildWeight := one, maxDepth := 1, y := [.fin 1, .fin 2, .fin 3, .fin 4] }

def reuseX1 : List (List F64) := [[.fin 0], [.fin 1]]
def reuseX2 : List (List F64) := [[.fin 0], [.fin 1], [.fin 2], [.fin 3]]

/-- **C65 is violated**: after `NewTree(X1, o)` with two rows, `NewTree(X2, o)` with four rows trains on rows 0
and 1 only, although the caller never set `Indexes`. -/
theorem C65_violated : reuseO.indexes = none ∧ (∃ t1, newTree GoSort.ins reuseX1 reuseO = .ok t1) ∧
    ∃ t2 i l r, newTree GoSort.ins reuseX2 (reuseO.fill reuseX1) = .ok t2 ∧ t2 = .node i l r ∧
      i.samples = [0, 1] ∧ reuseX2.length = 4 := by
  refine ⟨rfl, ?_, ?_⟩
  · cases h : newTree GoSort.ins reuseX1 reuseO with
    | ok t => exact ⟨t, rfl⟩
    | error e =>
      have : (match newTree GoSort.ins reuseX1 reuseO with | .ok _ => true | .error _ => false) = true := by
        decide +kernel
      rw [h] at this; cases this
  · cases h : newTree GoSort.ins reuseX2 (reuseO.fill reuseX1) with
    | error e =>
      have : (match newTree GoSort.ins reuseX2 (reuseO.fill reuseX1) with
        | .ok _ => true | .error _ => false) = true := by decide +kernel
      rw [h] at this; cases this
    | ok t =>
      have : (match newTree GoSort.ins reuseX2 (reuseO.fill reuseX1) with
        | .ok (.node i _ _) => decide (i.samples = [0, 1]) | _ => false) = true := by decide +kernel
      rw [h] at this
      cases t with
      | nil => cases this
      | node i l r => exact ⟨_, i, l, r, rfl, rfl, by simpa using this, rfl⟩

/-- **C65 is violated** in the other direction too: reusing the options on a smaller data set panics. -/
theorem C65_violated_panic :
    newTree GoSort.ins reuseX1 ({ reuseO with y := [.fin 1, .fin 2] }.fill reuseX2) = .error .explicit := by
  have : (match newTree GoSort.ins reuseX1 ({ reuseO with y := [.fin 1, .fin 2] }.fill reuseX2) with
    | .error .explicit => true | _ => false) = true := by decide +kernel
  revert this
  split
  · rename_i h; intro _; exact h
  · intro h; cases h

/-- **C65, partial**: with options that have no index list (not used before), the tree is trained on all rows. -/
theorem C65_fresh_partial (S : GoSort) (X : List (List F)) (o : TreeOptions F) (t : Tree F)
    (ho : o.indexes = none) (h : newTree S X o = .ok t) :
    ∃ i l r, t = .node i l r ∧ i.samples = List.range X.length := by
  have hidx : o.idx X = List.range X.length := by simp [TreeOptions.idx, ho]
  obtain ⟨v, row0, _, _, _, h | ⟨_, b, _, _, _, h⟩ | ⟨_, b, _, l, r, _, _, _, _, _, _, h⟩⟩ :=
    newTreeD_inv S X _ o t h
  · exact ⟨_, _, _, h.2, hidx⟩
  · exact ⟨_, _, _, h, hidx⟩
  · exact ⟨_, _, _, h, hidx⟩

/-- **C65, partial**: reuse is harmless when the two data sets have the same number of rows. -/
theorem C65_same_size_partial (S : GoSort) (X1 X2 : List (List F)) (o : TreeOptions F) (t : Tree F)
    (ho : o.indexes = none) (hl : X1.length = X2.length) (h : newTree S X2 (o.fill X1) = .ok t) :
    ∃ i l r, t = .node i l r ∧ i.samples = List.range X2.length := by
  have hidx : (o.fill X1).idx X2 = List.range X2.length := by
    simp [TreeOptions.idx, TreeOptions.fill, ho, hl]
  obtain ⟨v, row0, _, _, _, h | ⟨_, b, _, _, _, h⟩ | ⟨_, b, _, l, r, _, _, _, _, _, _, h⟩⟩ :=
    newTreeD_inv S X2 _ _ t h
  · exact ⟨_, _, _, h.2, hidx⟩
  · exact ⟨_, _, _, h, hidx⟩
  · exact ⟨_, _, _, h, hidx⟩

/-! ### C66 -/

/-- The tree of `exX`, `exO` splits on feature 0. -/
theorem C66_violated (fmt3 : F64 → String) : ∃ t, newTree GoSort.ins exX exO = .ok t ∧
    t.print fmt3 "" (some []) = .error .index := by
  cases h : newTree GoSort.ins exX exO with
  | error e =>
    have : builtShape (newTree GoSort.ins exX exO) 5 2 = true := by decide +kernel
    rw [h] at this; cases this
  | ok t =>
    refine ⟨t, rfl, ?_⟩
    have : (match newTree GoSort.ins exX exO with
      | .ok (.node i _ _) => !i.leaf | _ => false) = true := by decide +kernel
    rw [h] at this
    cases t with
    | nil => cases this
    | node i l r =>
      simp only [Bool.not_eq_true'] at this
      simp [Tree.print, this, NodeInfo.featureName, goIdx, bind, Except.bind]

theorem featureName_nil (i : NodeInfo F) : i.featureName none = .ok (fmt2d i.splitFeatureIndex) := by
  simp [NodeInfo.featureName]

theorem featureName_some (i : NodeInfo F) (names : List String) (s : String)
    (h : names[i.splitFeatureIndex]? = some s) : i.featureName (some names) = .ok s := by
  simp [NodeInfo.featureName, goIdx, h]

/-- **C66, partial**: printing a tree made by `NewTree` succeeds when no names are given (the index is
printed) or when there is a name for every column of the data. -/
theorem C66_print_partial [GoFloatOrd F] (fmt3 : F → String) (S : GoSort) (X : List (List F))
    (o : TreeOptions F) (t : Tree F) (h : newTree S X o = .ok t) (names : Option (List String))
    (hn : ∀ l, names = some l → ∀ row ∈ X.head?, row.length ≤ l.length) (spacing : String) :
    ∃ s, t.print fmt3 spacing names = .ok s := by
  have key : ∀ (t : Tree F) (spacing : String), t ≠ .nil →
      (∀ p i l r, t.sub p = .node i l r →
        ((i.leaf = true ↔ l = .nil ∧ r = .nil) ∧ (i.leaf = false ↔ l ≠ .nil ∧ r ≠ .nil)) ∧
        (i.leaf = false → ∃ s, i.featureName names = .ok s)) →
      ∃ s, t.print fmt3 spacing names = .ok s := by
    intro t
    induction t with
    | nil => intro _ h; exact absurd rfl h
    | node i l r ihl ihr =>
      intro spacing _ hp
      obtain ⟨h1, h2⟩ := hp [] i l r rfl
      cases hq : i.leaf with
      | true => exact ⟨_, by simp [Tree.print, hq]; rfl⟩
      | false =>
        obtain ⟨hl, hr⟩ := h1.2.1 hq
        obtain ⟨s, hs⟩ := h2 hq
        obtain ⟨sl, hsl⟩ := ihl (spacing ++ "  ") hl (fun p i' l' r' h => hp (true :: p) i' l' r' h)
        obtain ⟨sr, hsr⟩ := ihr (spacing ++ "  ") hr (fun p i' l' r' h => hp (false :: p) i' l' r' h)
        exact ⟨_, by simp [Tree.print, hq, hs, hsl, hsr, bind, Except.bind, pure, Except.pure]; rfl⟩
  refine key t spacing (newTree_ne_nil h) ?_
  intro p i l r hp
  refine ⟨C02_leaf_iff_no_children S X o t h p i l r hp, ?_⟩
  intro hlf
  cases names with
  | none => exact ⟨_, featureName_nil i⟩
  | some names =>
    have hlt := split_feature_lt S X o t h p i l r hp
      (((C02_leaf_iff_no_children S X o t h p i l r hp).2.1 hlf).1)
    obtain ⟨row, hrow, hlt⟩ := hlt
    have hh := hn names rfl row (by
      cases X with
      | nil => simp at hrow
      | cons a X => simpa using hrow)
    exact ⟨_, featureName_some i names _ (List.getElem?_eq_getElem (lt_of_lt_of_le hlt hh))⟩

/-- names for both columns: the hypothesis holds and the tree is printed -/
example : ∀ l, (some ["a", "b"] : Option (List String)) = some l → ∀ row ∈ exX.head?, row.length ≤ l.length := by
  intro l hl row hr
  cases hl
  simp only [exX, List.head?_cons, Option.mem_def, Option.some.injEq] at hr
  subst hr; decide

end Boo
