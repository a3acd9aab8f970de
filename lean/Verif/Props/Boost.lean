import Verif.Lemmas.Boost
import Verif.Props.TrainBugs

/-!
# C70, C72: what the trees and the other fields of a trained model are
-/

namespace Boo
open GoFloat
set_option linter.unusedSectionVars false
variable {F : Type} [GoFloat F]

/-! ### C70 -/

/-- The `MinChildWeight` training uses: at least 1. -/
def effectiveMcw (O : Options F) : F := if O.minChildWeight <. one then one else O.minChildWeight

/-- The options of the tree of one class in one round of xgboost. -/
def xgbTreeOptions (O : Options F) (rows : Option (List Nat)) (cols : List Nat) (g h y : List F) (n : Nat) :
    TreeOptions F :=
  { xgb := true, minChildWeight := effectiveMcw O, allowedColumns := cols, lambda := O.lambda, gamma := O.gamma,
    colSampleByNode := one, gradients := some g, hessian := some h, y := y, scratch := some n,
    maxDepth := O.maxDepth, indexes := rows }

/-- The options of the tree of one class in one round of regular boosting: all rows, all columns, targets `g`. -/
def regTreeOptions (O : Options F) (g : List F) (n : Nat) : TreeOptions F :=
  { xgb := false, minChildWeight := effectiveMcw O, allowedColumns := [], lambda := zero, gamma := zero,
    colSampleByNode := zero, gradients := none, hessian := none, y := g, scratch := some n,
    maxDepth := O.maxDepth, indexes := none }

/-- `p` are the probabilities of class `k` that the trees before round `r`, class `k` give to the rows of the data. -/
def ProbsBefore (exp : F → F) (M : MultiClass F) (data : List (List F)) (r k : Nat) (p : List F) : Prop :=
  p.length = data.length ∧ ∀ (i : Nat) row, data[i]? = some row → ∃ s probs,
    scoresBefore M r k row = .ok s ∧ softMax exp s none = .ok probs ∧ ∃ v, probs[k]? = some v ∧ p[i]? = some v

theorem ohe_column {labels : List Int} {ohe : Dense F} {y : List F} {k : Nat} {lab : Int}
    (hne : labels ≠ []) (ho : oneHotEncodeDense labels = .ok (ohe, distinctElements labels))
    (hk : (distinctElements labels)[k]? = some lab) (hy : denseCol ohe k = .ok y) : y = indicator labels lab := by
  obtain ⟨oh, q1, q2, q3, q4, q5⟩ := C39_matrix (F := F) labels hne
  rw [q1] at ho
  simp only [Except.ok.injEq, Prod.mk.injEq, and_true] at ho
  subst ho
  have hkl := (List.getElem?_eq_some_iff.1 hk).1
  have hn : 0 < labels.length := List.length_pos_iff.2 hne
  obtain ⟨l, h1, h2, h3⟩ := denseCol_spec (D := oh) q4 (by omega) (col := k) (by omega)
  rw [h1] at hy
  cases hy
  apply List.ext_getElem?
  intro i
  unfold indicator
  by_cases hi : i < labels.length
  · rw [h3 i (by omega), q5 i k hi hkl, hk, List.getElem?_map, List.getElem?_eq_getElem hi]
    simp only [Option.some.injEq, Option.map_some]
    by_cases he : labels[i] = lab
    · rw [if_pos he.symm, if_pos he]
    · rw [if_neg (fun h => he h.symm), if_neg he]
  · rw [List.getElem?_eq_none_iff.2 (by omega), List.getElem?_eq_none_iff.2 (by simp; omega)]

/-- **C70**: in a model in which every round has a tree for every class (always so with `EarlyStop` off, `C22_rounds`),
the tree of round `r` and class `k` is the one `NewTree` builds from the gradients and hessians of the loss between the
indicator of the class and the probabilities given by all the trees made before it (earlier rounds, and earlier classes
of the same round), on the rows and columns drawn for that round, with the depth, `MinChildWeight`, `Lambda` and `Gamma`
of the options. In regular boosting it is the tree `NewTree` builds on all rows for the negative gradients, with every
leaf value replaced by the sum of the negative gradients over the sum of the hessians in the leaf. In any arithmetic in
which `base * 1 = base`. -/
theorem C70_fitted (exp : F → F) (S : GoSort) (draws : Nat → F) (D : DataBunch F) (O : Options F) (M : MultiClass F)
    (h : newMultiClass exp S draws D O = .ok M) (hd : D.data.length = D.labels.length)
    (hb : (O.baseScore *. one) = O.baseScore) (hfull : ∀ ens ∈ M.b, ens.length = M.classLabels.length)
    (r k : Nat) (ens : List (Tree F)) (tree : Tree F) (hr : M.b[r]? = some ens) (hk : ens[k]? = some tree) :
    ∃ lab lv round p, M.classLabels[k]? = some lab ∧ O.loss = some lv ∧
      (executedRounds D.data O draws O.rounds.toNat)[r]? = some round ∧ ProbsBefore exp M D.data r k p ∧
      (O.xgb = true → ∃ g, lv.fn.gradients (indicator D.labels lab) p = .ok g ∧
        newTree S D.data (xgbTreeOptions O (if rowSub O then some (roundRows D.data O draws round) else none)
          (roundCols D.data O draws round) g (lv.fn.hessian p) (indicator D.labels lab) D.data.length) = .ok tree) ∧
      (O.xgb = false → ∃ g t0, lv.fn.negGradients (indicator D.labels lab) p = .ok g ∧
        newTree S D.data (regTreeOptions O g D.data.length) = .ok t0 ∧ NewtonOf g (lv.fn.hessian p) t0 tree) := by
  obtain ⟨labels, st, ht, rfl⟩ := newMultiClass_inv h
  obtain ⟨hl, hlab, ohe, st0, hohe, hr0, hc0, hw, hinit, hrounds⟩ := train_inv ht
  obtain ⟨i1, i2, i3, _, _, _, i7⟩ := trainInit_inv hinit hr0 hc0
  obtain ⟨e1, e2, e3, e4, e5, e6, e7, e8, e9, e10⟩ := Options.fixMcw_lr O
  have hn : 0 < D.labels.length := List.length_pos_iff.2 hl
  have hR0 : RawInv O.baseScore O.fixMcw.learningRate labels.length D.data st0 [] := by
    intro i row hi
    have hin : i < D.labels.length := by rw [← hd]; exact (List.getElem?_eq_some_iff.1 hi).1
    unfold scoreOf
    rw [i2, i7 i hin, hb]
    rfl
  obtain ⟨round, f1, f2⟩ := trainRounds_facts O.baseScore hn hrounds i1 hd i2 i3 hR0 hfull r ens hr
  obtain ⟨y, p, lv, g1, g2, g3, g4, g5⟩ := f2 k tree hk
  have hens : ens.length = labels.length := hfull ens (List.mem_of_getElem? hr)
  have hkl : k < labels.length := by rw [← hens]; exact (List.getElem?_eq_some_iff.1 hk).1
  have hlk : labels[k]? = some labels[k] := List.getElem?_eq_getElem hkl
  have hy : y = indicator D.labels labels[k] := by
    refine ohe_column hl ?_ (by rw [← hlab]; exact hlk) g1
    unfold DataBunch.oheLabels at hohe
    rw [hohe, hlab]
  have hex : executedRounds D.data O.fixMcw draws O.rounds.toNat = executedRounds D.data O draws O.rounds.toNat := by
    unfold Options.fixMcw
    split <;> rfl
  rw [hex] at f1
  rw [e9] at g3
  have hscore : ∀ (row s : List F), scoreOf O.baseScore O.fixMcw.learningRate labels.length (st.boosters.take r)
      (ens.take k) row = .ok s → scoresBefore (toModel exp O labels st) r k row = .ok s := by
    intro row s hs
    obtain ⟨q1, q2⟩ := scoreOf_get _ _ _ _ _ _ _ hs
    refine mapM_range_ok q1 fun j hj => ?_
    obtain ⟨v, q3, q4⟩ := q2 j hj
    refine ⟨v, q3, ?_⟩
    rw [← q4, e1]
    show scoreAfter O.baseScore O.learningRate (treesOf (st.boosters.take _) j) row = _
    congr 1
    have htake : st.boosters.take (r + 1) = st.boosters.take r ++ [ens] := by
      rw [List.take_add_one, show st.boosters[r]? = some ens from hr]
      rfl
    by_cases hjk : j < k
    · rw [if_pos hjk, htake, treesOf_append, treesOf_append]
      unfold treesOf
      simp only [List.filterMap_cons, List.getElem?_take_of_lt hjk]
    · rw [if_neg hjk, treesOf_append]
      have : treesOf [ens.take k] j = [] := by
        simp [treesOf, hjk]
      rw [this, List.append_nil]
  have hmcw : O.fixMcw.minChildWeight = effectiveMcw O := by
    unfold Options.fixMcw effectiveMcw
    split <;> rfl
  have hlg : O.fixMcw.lambda = O.lambda ∧ O.fixMcw.gamma = O.gamma := by
    unfold Options.fixMcw
    split <;> exact ⟨rfl, rfl⟩
  refine ⟨labels[k], lv, round, p, hlk, g3, f1, ⟨by rw [g2, hd], ?_⟩, ?_, ?_⟩
  · intro i row hrow
    obtain ⟨s, probs, s1, s2, s3⟩ := g4 i row hrow
    exact ⟨s, probs, hscore row s s1, s2, s3⟩
  · intro hx
    unfold classTree at g5
    rw [e6, if_pos hx, hy] at g5
    obtain ⟨g, hg, hnt⟩ := bind_ok g5
    refine ⟨g, hg, ?_⟩
    have hi : roundIdx D.data O.fixMcw draws round =
        (if rowSub O then some (roundRows D.data O draws round) else none) := by
      unfold Options.fixMcw
      split <;> rfl
    have hcl : roundCols D.data O.fixMcw draws round = roundCols D.data O draws round := by
      unfold Options.fixMcw
      split <;> rfl
    rw [hi, hcl, hmcw, hlg.1, hlg.2, e10] at hnt
    exact hnt
  · intro hx
    unfold classTree at g5
    rw [e6, if_neg (by simp [hx]), hy] at g5
    obtain ⟨g, hg, hnt⟩ := bind_ok g5
    obtain ⟨t0, ht0, hu⟩ := bind_ok hnt
    refine ⟨g, t0, hg, ?_, updateLeaves_newton _ _ _ _ hu⟩
    rw [hmcw, e10] at ht0
    exact ht0

/-- the numbers of trees per round -/
def shapeOf {F : Type} (M : Go (MultiClass F)) : Go (List Nat) := M.map fun M => M.b.map List.length

/-- three classes, two rounds of xgboost with row subsampling, no early stopping -/
example : shapeOf (newMultiClass (fun _ => one) GoSort.ins (fun _ => .fin 0) mixData { mixOptions with earlyStop := 0 }) =
    .ok [3, 3] := by decide +kernel
/-- three rounds of regular boosting -/
example : shapeOf (newMultiClass (fun _ => one) GoSort.ins (fun _ => .fin 0) mixData
    { (defaultGOptions 0 : Options F64) with rounds := 3, minChildWeight := .fin 1 }) = .ok [3, 3, 3] := by decide +kernel
example : ((mixOptions.baseScore *. one : F64)) = mixOptions.baseScore := by decide +kernel

end Boo
