import Verif.Props.Gain
import Verif.Props.MinChild

/-!
# C121: trees with the default options (exact arithmetic)

`DefaultXTreeOptions` and `DefaultGTreeOptions` with the gradients and Hessians (or the targets) set by the caller: what the tree is,
in numbers. `quality g h 1 idx` is `G²/(H+1)` over the rows `idx`.
-/

namespace Boo
open GoFloat Spec
set_option linter.unusedSectionVars false
variable {K : Type} [Field K] [LinearOrder K] [IsStrictOrderedRing K] [FloorRing K]

/-- **C121, xgboost trees**: with `DefaultXTreeOptions`, gradients `g` and non-negative Hessians `h`, on finite rectangular data, `NewTree`
returns a tree with at most 4 splits on each path and at most 31 nodes. Every node has the value `-G/(H+1)` over its rows. A node with
children has exactly two, and the halved gain in quality exceeds 1/2. A node without children either has depth 4, or there is no column
and no threshold with rows on both sides for which the halved gain in quality exceeds 1/2. -/
theorem C121_xgb (S : GoSort) (X : List (List K)) (hX : X ≠ []) (c : Nat) (hc : ∀ row ∈ X, row.length = c) (g h : List K)
    (hg : g.length = X.length) (hh : h.length = X.length) (hpos : ∀ v ∈ h, 0 ≤ v) :
    ∃ t, newTree S (finRows X) { (defaultXTreeOptions : TreeOptions (Exact K)) with
        gradients := some (g.map XF.fin), hessian := some (h.map XF.fin) } = .ok t ∧
      t.height ≤ 4 ∧ t.size ≤ 31 ∧
      (∀ path i l r, t.sub path = .node i l r → i.value = .fin (-sumOver g i.samples / (sumOver h i.samples + 1))) ∧
      (∀ path i il ir ll lr rl rr, t.sub path = .node i (.node il ll lr) (.node ir rl rr) →
        1 / 2 < 1 / 2 * (quality g h 1 il.samples + quality g h 1 ir.samples - quality g h 1 i.samples)) ∧
      ∀ path i, t.sub path = .node i .nil .nil → path.length = 4 ∨ ∀ f < c, ∀ θ, leftOf X i.samples f θ ≠ [] →
        rightOf X i.samples f θ ≠ [] →
        1 / 2 * (quality g h 1 (leftOf X i.samples f θ) + quality g h 1 (rightOf X i.samples f θ) - quality g h 1 i.samples) ≤ 1 / 2 := by
  set o : TreeOptions (Exact K) := { (defaultXTreeOptions : TreeOptions (Exact K)) with
        gradients := some (g.map XF.fin), hessian := some (h.map XF.fin) } with ho
  have hlen : (finRows X).length = X.length := by simp [finRows]
  have hone : (one : Exact K) = .fin 1 := by rw [Exact.one_fin]; simp
  have hin : XgbInput o g h 1 1 := ⟨rfl, rfl, rfl, hone, hone⟩
  have hp : ∀ v ∈ h, 0 ≤ v ∧ 0 < v + 1 := fun v hv => ⟨hpos v hv, by linarith [hpos v hv]⟩
  obtain ⟨t, ht⟩ := C12_exact S X o ⟨by simpa [finRows] using hX, ⟨c, by
      intro row hr
      obtain ⟨r, hr', rfl⟩ := List.mem_map.1 hr
      simpa using hc r hr'⟩,
    by
      rw [if_pos (show o.xgb = true from rfl)]
      exact ⟨_, _, rfl, rfl, by simp [hg, hlen], by simp [hh, hlen]⟩, fun l hl => by simp [ho, defaultXTreeOptions] at hl, rfl⟩
  have hm : toInt o.minChildWeight = 1 := by
    show toInt (one : Exact K) = 1
    have := XF.toInt_floor (R := exactR K) (x := 1) (by norm_num) (by norm_num)
    simpa using this
  have hs0 : ∀ l : List Nat, 0 ≤ sumOver h l := fun l => by
    unfold sumOver
    apply List.sum_nonneg
    intro x hx
    obtain ⟨i, _, rfl⟩ := List.mem_map.1 hx
    rw [List.getD_eq_getElem?_getD]
    cases e : h[i]? with
    | none => simp
    | some v => exact hpos v (List.mem_of_getElem? e)
  refine ⟨t, ht, ?_, ?_, ?_, ?_, ?_⟩
  · have := C01_height S _ o t ht
    have e : o.maxDepth = 4 := rfl
    rw [e] at this
    omega
  · exact (C05_branches S _ o t ht).2.2
  · intro path i l r hsub
    rw [C09_value S X o t g h 1 1 ht hin path i l r hsub]
    have h1 : 0 < sumOver h i.samples + 1 := by linarith [hs0 i.samples]
    exact Exact.div_fin _ _ h1.ne'
  · intro path i il ir ll lr rl rr hsub
    obtain ⟨gain, _, h1, h2⟩ := C11_gain S X o t g h 1 1 ht hin hp path i il ir ll lr rl rr hsub
    linarith
  · intro path i hsub
    have hd := C01_depth S _ o t ht path (by rw [hsub]; simp)
    have e : o.maxDepth = 4 := rfl
    by_cases h4 : path.length = 4
    · exact Or.inl h4
    refine Or.inr fun f hf θ hl hr => ?_
    obtain ⟨row0, hr0⟩ : ∃ row0, X[0]? = some row0 := by
      cases X with
      | nil => exact absurd rfl hX
      | cons a _ => exact ⟨a, rfl⟩
    have := C07_xgb_leaf S X o t g h 1 1 ht hin hp path i hsub (by rw [e] at hd ⊢; omega) row0 hr0 f
      (by rw [hc _ (List.mem_of_getElem? hr0)]; exact hf) (fun _ => Or.inl rfl) θ
      ⟨by rw [hm]; have := List.length_pos_iff.2 hl; simp; omega, by rw [hm]; have := List.length_pos_iff.2 hr; simp; omega⟩
    unfold xgbGain at this
    linarith

/-- **C121, regular trees**: with `DefaultGTreeOptions` and targets `y`, on finite rectangular data, `NewTree` returns a tree with at most
4 splits on each path and at most 31 nodes. Every node has the mean of the targets of its rows as its value. A node without children either
has depth 4, or its rows have the same value in every column. -/
theorem C121_regular (S : GoSort) (X : List (List K)) (hX : X ≠ []) (c : Nat) (hc : ∀ row ∈ X, row.length = c) (y : List K)
    (hy : y.length = X.length) :
    ∃ t, newTree S (finRows X) { (defaultGTreeOptions : TreeOptions (Exact K)) with y := y.map XF.fin } = .ok t ∧
      t.height ≤ 4 ∧ t.size ≤ 31 ∧
      (∀ path i l r, t.sub path = .node i l r → i.samples ≠ [] ∧ i.value = .fin (mean y i.samples)) ∧
      ∀ path i, t.sub path = .node i .nil .nil → path.length = 4 ∨ ∀ f < c, ∀ θ, leftOf X i.samples f θ = [] ∨
        rightOf X i.samples f θ = [] := by
  set o : TreeOptions (Exact K) := { (defaultGTreeOptions : TreeOptions (Exact K)) with y := y.map XF.fin } with ho
  have hlen : (finRows X).length = X.length := by simp [finRows]
  have hin : RegInput o y := ⟨rfl, rfl⟩
  obtain ⟨t, ht⟩ := C12_exact S X o ⟨by simpa [finRows] using hX, ⟨c, by
      intro row hr
      obtain ⟨r, hr', rfl⟩ := List.mem_map.1 hr
      simpa using hc r hr'⟩,
    by
      rw [if_neg (by simp [ho, defaultGTreeOptions])]
      simp [ho, hy, hlen], fun l hl => by simp [ho, defaultGTreeOptions] at hl, rfl⟩
  have hm : toInt o.minChildWeight = 1 := by
    show toInt (one : Exact K) = 1
    have := XF.toInt_floor (R := exactR K) (x := 1) (by norm_num) (by norm_num)
    simpa using this
  refine ⟨t, ht, ?_, ?_, ?_, ?_⟩
  · have := C01_height S _ o t ht
    have e : o.maxDepth = 4 := rfl
    rw [e] at this
    omega
  · exact (C05_branches S _ o t ht).2.2
  · intro path i l r hsub
    refine C10_node_mean S X o t y ht hin ?_ path i l r hsub
    unfold trainingRows
    simp [ho, defaultGTreeOptions, hlen, hX]
  · intro path i hsub
    have hd := C01_depth S _ o t ht path (by rw [hsub]; simp)
    have e : o.maxDepth = 4 := rfl
    by_cases h4 : path.length = 4
    · exact Or.inl h4
    refine Or.inr fun f hf θ => ?_
    obtain ⟨row0, hr0⟩ : ∃ row0, X[0]? = some row0 := by
      cases X with
      | nil => exact absurd rfl hX
      | cons a _ => exact ⟨a, rfl⟩
    by_contra hcon
    push Not at hcon
    obtain ⟨hl, hr⟩ := hcon
    exact C07_regular_leaf S X o t y ht hin path i hsub (by rw [e] at hd ⊢; omega) row0 hr0 f
      (by rw [hc _ (List.mem_of_getElem? hr0)]; exact hf) (fun _ => Or.inl rfl) θ
      ⟨by rw [hm]; have := List.length_pos_iff.2 hl; simp; omega, by rw [hm]; have := List.length_pos_iff.2 hr; simp; omega⟩

/-- six rows, gradients that a split between the third and the fourth row separates: such a tree has 3 nodes -/
def defX : List (List ℚ) := [[1, 0], [2, 0], [3, 1], [4, 1], [5, 0], [6, 1]]

example : (match newTree GoSort.ins (finRows defX) { (defaultXTreeOptions : TreeOptions (Exact ℚ)) with
      gradients := some ([-2, -2, -2, 2, 2, 2].map XF.fin), hessian := some ([1, 1, 1, 1, 1, 1].map XF.fin) } with
    | .ok t => t.size == 3
    | .error _ => false) = true := by decide +kernel

example : (match newTree GoSort.ins (finRows defX) { (defaultGTreeOptions : TreeOptions (Exact ℚ)) with
      y := [1, 1, 2, 2, 5, 7].map XF.fin } with
    | .ok t => t.size == 11
    | .error _ => false) = true := by decide +kernel

end Boo
