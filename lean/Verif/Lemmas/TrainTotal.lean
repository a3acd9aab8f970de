import Verif.Lemmas.Train
import Verif.Props.MinChild

/-!
# Training does not panic
-/

namespace Boo
open GoFloat
set_option linter.unusedSectionVars false
variable {F : Type} [GoFloat F]

/-! ### updateLeaves -/

theorem leafSums_exists (g h : List F) (l : List Nat) (hg : ∀ i ∈ l, i < g.length) (hh : ∀ i ∈ l, i < h.length)
    (a b : F) : ∃ s, leafSums g h l a b = .ok s := by
  induction l generalizing a b with
  | nil => exact ⟨_, rfl⟩
  | cons w ws ih =>
    unfold leafSums
    rw [List.getElem?_eq_getElem (hg w (by simp)), List.getElem?_eq_getElem (hh w (by simp))]
    exact ih (fun i hi => hg i (by simp [hi])) (fun i hi => hh i (by simp [hi])) _ _

/-- what `updateLeaves` does to a node -/
theorem updateLeaves_inv {g h : List F} {i : NodeInfo F} {l r t : Tree F}
    (hu : updateLeaves g h (.node i l r) = .ok t) :
    ∃ i' l' r', t = .node i' l' r' ∧ updateLeaves g h l = .ok l' ∧ updateLeaves g h r = .ok r' ∧
      ((i.leaf = true ∧ ∃ sh sg, leafSums g h i.samples zero zero = .ok (sh, sg) ∧
          i' = { i with value := sg /. sh }) ∨ (i.leaf = false ∧ i' = i)) := by
  unfold updateLeaves at hu
  obtain ⟨l', hl, hu⟩ := bind_ok hu
  obtain ⟨r', hr, hu⟩ := bind_ok hu
  by_cases hleaf : i.leaf = true
  · rw [if_pos hleaf] at hu
    obtain ⟨i', hi, hu⟩ := bind_ok hu
    unfold updateLeaf at hi
    obtain ⟨⟨sh, sg⟩, hs, hi⟩ := bind_ok hi
    simp only [pure, Except.pure, Except.ok.injEq] at hi hu
    exact ⟨i', l', r', hu.symm, hl, hr, Or.inl ⟨hleaf, sh, sg, hs, hi.symm⟩⟩
  · rw [if_neg hleaf] at hu
    simp only [pure, Except.pure, bind, Except.bind, Except.ok.injEq] at hu
    exact ⟨i, l', r', hu.symm, hl, hr, Or.inr ⟨by simpa using hleaf, rfl⟩⟩

theorem updateLeaves_exists (g h : List F) (t : Tree F)
    (hs : ∀ path i l r, t.sub path = .node i l r → ∀ w ∈ i.samples, w < g.length ∧ w < h.length) :
    ∃ t', updateLeaves g h t = .ok t' := by
  induction t with
  | nil => exact ⟨_, rfl⟩
  | node i l r ihl ihr =>
    obtain ⟨l', hl⟩ := ihl fun path => hs (true :: path)
    obtain ⟨r', hr⟩ := ihr fun path => hs (false :: path)
    unfold updateLeaves
    simp only [hl, hr, bind, Except.bind]
    split
    · unfold updateLeaf
      have := hs [] i l r rfl
      obtain ⟨⟨a, b⟩, hab⟩ := leafSums_exists g h i.samples (fun w hw => (this w hw).1)
        (fun w hw => (this w hw).2) zero zero
      simp only [hab, bind, Except.bind, pure, Except.pure]
      exact ⟨_, rfl⟩
    · exact ⟨_, rfl⟩

/-- the shape, and hence where rows go, is unchanged -/
theorem updateLeaves_predict (g h : List F) (t t' : Tree F) (hu : updateLeaves g h t = .ok t') (row : List F)
    (hp : ∃ v, t.predictSingle row = .ok v) : ∃ v, t'.predictSingle row = .ok v := by
  induction t generalizing t' with
  | nil => obtain ⟨v, hv⟩ := hp; simp [Tree.predictSingle] at hv
  | node i l r ihl ihr =>
    obtain ⟨i', l', r', rfl, hl, hr, hi⟩ := updateLeaves_inv hu
    obtain ⟨v, hv⟩ := hp
    have hleaf : i'.leaf = i.leaf := by
      rcases hi with ⟨_, _, _, _, rfl⟩ | ⟨_, rfl⟩ <;> rfl
    have hf : i'.splitFeatureIndex = i.splitFeatureIndex ∧ i'.threshold = i.threshold := by
      rcases hi with ⟨_, _, _, _, rfl⟩ | ⟨_, rfl⟩ <;> exact ⟨rfl, rfl⟩
    unfold Tree.predictSingle at hv ⊢
    rw [hleaf, hf.1, hf.2]
    split
    · exact ⟨_, rfl⟩
    · rename_i hnl
      rw [if_neg hnl] at hv
      obtain ⟨x, hx, hv⟩ := bind_ok hv
      simp only [hx, bind, Except.bind]
      split
      · rename_i hc; rw [if_pos hc] at hv; exact ihl l' hl ⟨v, hv⟩
      · rename_i hc; rw [if_neg hc] at hv; exact ihr r' hr ⟨v, hv⟩

/-! ### existence -/

/-- A loss function that works on any two vectors of the same length. -/
structure LossFunc.Regular (f : LossFunc F) : Prop where
  loss : ∀ y p : List F, y.length = p.length → y ≠ [] → ∃ v, f.loss y p = .ok v
  neg : ∀ y p : List F, y.length = p.length → ∃ g, f.negGradients y p = .ok g ∧ g.length = y.length
  grad : ∀ y p : List F, y.length = p.length → ∃ g, f.gradients y p = .ok g ∧ g.length = y.length
  hess : ∀ p : List F, (f.hessian p).length = p.length

theorem subV_exists (y p : List F) (h : y.length = p.length) :
    ∃ g, subV y p = .ok g ∧ g.length = y.length := by
  unfold subV
  rw [if_neg (by simp [h])]
  exact ⟨_, rfl, by simp [h]⟩

theorem sqErrLoss_regular : (sqErrLoss : LossFunc F).Regular where
  loss y p h _ := by
    obtain ⟨g, hg, _⟩ := subV_exists y p h
    show ∃ v, mseLossVal y p = .ok v
    unfold mseLossVal
    simp only [hg, bind, Except.bind]
    exact ⟨_, rfl⟩
  neg y p h := subV_exists y p h
  grad y p h := by
    obtain ⟨g, hg, hl⟩ := subV_exists y p h
    show ∃ g, Boo.grad y p = .ok g ∧ _
    unfold Boo.grad negGrad
    simp only [hg, bind, Except.bind]
    exact ⟨_, rfl, by simp [hl]⟩
  hess p := by simp [sqErrLoss]

theorem mseLoss_regular : (mseLoss : LossFunc F).Regular where
  loss y p h := sqErrLoss_regular.loss y p h
  neg y p h := subV_exists y p h
  grad y p h := sqErrLoss_regular.grad y p h
  hess p := by simp [mseLoss]

/-- Data on which trees can be built: not empty, rectangular, no NaN, thresholds separate. -/
structure DataOk (X : List (List F)) : Prop where
  ne : X ≠ []
  rect : ∃ c, ∀ row ∈ X, row.length = c
  noNaN : NoNaN X
  mid : MidSafe X

theorem sub_samples [GoFloatOrd F] {S : GoSort} {X : List (List F)} {o : TreeOptions F} {t : Tree F}
    (h : newTree S X o = .ok t) (hr : ∀ i ∈ o.idx X, i < X.length) (path : List Bool) (i : NodeInfo F) (l r : Tree F)
    (hp : t.sub path = .node i l r) : ∀ w ∈ i.samples, w < X.length := by
  have hinv := fun p i l r => newTreeD_sub S X _ o t h p i l r
  obtain ⟨o', d', h1, _, _, hsub, _⟩ := hinv path i l r hp
  intro w hw
  obtain ⟨v, row0, _, _, _, ⟨_, h2⟩ | ⟨_, best, _, _, _, h2⟩ | ⟨_, best, col, tl, tr, _, hs, hlf, _, h3, h4, h2⟩⟩ :=
    newTreeD_inv _ _ _ _ _ h1 <;>
  · have hs' : i.samples = o'.idx X := by cases h2; rfl
    rw [hs'] at hw
    exact hr w (hsub.subset hw)

theorem tree_exists [GoFloatOrd F] (S : GoSort) {X : List (List F)} (hX : DataOk X) (o : TreeOptions F)
    (hb : BuildOk X o) : ∃ t, newTree S X o = .ok t ∧ ∀ row ∈ X, ∃ v, t.predictSingle row = .ok v := by
  obtain ⟨c, hc⟩ := hX.rect
  obtain ⟨t, ht⟩ := newTreeD_exists (S := S) hX.ne hc hX.noNaN hX.mid o.maxDepth.toNat o hb
  refine ⟨t, ht, fun row hr => ?_⟩
  obtain ⟨row0, X', rfl⟩ := List.exists_cons_of_ne_nil hX.ne
  obtain ⟨leaf, _, h⟩ := C02_predict_total_rows S _ o t ht row row0 (by simp)
    (by rw [hc row hr, hc row0 (by simp)])
  exact ⟨_, h⟩

/-- the row sample given to the trees -/
def SampleOk (n : Nat) (indexes : Option (List Nat)) : Prop :=
  ∀ l, indexes = some l → l ≠ [] ∧ l.Nodup ∧ ∀ i ∈ l, i < n

theorem classTree_exists [GoFloatOrd F] (S : GoSort) {X : List (List F)} (hX : DataOk X) (O : Options F)
    (lf : LossFunc F) (hl : lf.Regular) (indexes : Option (List Nat)) (hi : SampleOk X.length indexes)
    (cols : List Nat) (y p : List F) (hy : y.length = X.length) (hp : p.length = X.length) :
    ∃ t, classTree S X O lf indexes cols y p = .ok t ∧ ∀ row ∈ X, ∃ v, t.predictSingle row = .ok v := by
  have hx0 : 0 < X.length := List.length_pos_iff.2 hX.ne
  have hrange : List.range X.length ≠ [] := by
    intro h
    exact hX.ne (by simpa using h)
  unfold classTree
  cases hxgb : O.xgb with
  | true =>
    obtain ⟨g, hg, hgl⟩ := hl.grad y p (by omega)
    have hhl := hl.hess p
    simp only [if_true, hg, bind, Except.bind]
    refine tree_exists S hX _ ?_
    set o : TreeOptions F := { (defaultXTreeOptions : TreeOptions F) with
      minChildWeight := O.minChildWeight, maxDepth := O.maxDepth, lambda := O.lambda,
      gamma := O.gamma, indexes := indexes, allowedColumns := cols, gradients := some g,
      hessian := some (lf.hessian p), y := y, scratch := some X.length } with ho
    have hidx : o.idx X ≠ [] ∧ (o.idx X).Nodup ∧ ∀ i ∈ o.idx X, i < X.length := by
      unfold TreeOptions.idx
      cases hq : indexes with
      | some l => simpa [ho, hq] using hi l hq
      | none =>
        have : o.indexes = none := by simp [ho, hq]
        rw [this]
        exact ⟨hrange, List.nodup_range, by simp⟩
    refine ⟨?_, hidx.1, hidx.2.1, hidx.2.2, ?_⟩
    · show (if true = true then _ else _)
      rw [if_pos rfl]
      exact ⟨g, lf.hessian p, rfl, rfl, by omega, by omega⟩
    · show _ ≤ X.length
      have hs : (o.idx X) ⊆ List.range X.length := fun i hi => by simpa using hidx.2.2 i hi
      simpa using (List.subperm_of_subset hidx.2.1 hs).length_le
  | false =>
    obtain ⟨g, hg, hgl⟩ := hl.neg y p (by omega)
    have hhl := hl.hess p
    simp only [Bool.false_eq_true, if_false, hg, bind, Except.bind]
    set o : TreeOptions F := { (defaultGTreeOptions : TreeOptions F) with
      scratch := some X.length, minChildWeight := O.minChildWeight, maxDepth := O.maxDepth,
      y := g, gradients := none, hessian := none } with ho
    have hidx : o.idx X = List.range X.length := rfl
    obtain ⟨t, ht, hpred⟩ := tree_exists S hX o ⟨by
        show (if false = true then _ else _)
        rw [if_neg (by simp)]
        show g.length = _
        omega, by rw [hidx]; exact hrange, by rw [hidx]; exact List.nodup_range, by rw [hidx]; simp, by
        rw [hidx]
        show _ ≤ X.length
        simp⟩
    rw [ht]
    simp only
    have hrng : ∀ i ∈ o.idx X, i < X.length := by rw [hidx]; simp
    obtain ⟨t', ht'⟩ := updateLeaves_exists g (lf.hessian p) t fun path i l r hp w hw => by
      have := sub_samples ht hrng path i l r hp w hw
      omega
    exact ⟨t', ht', fun row hr => updateLeaves_predict g _ t t' ht' row (hpred row hr)⟩

theorem trainClass_exists [GoFloatOrd F] (exp : F → F) (S : GoSort) {X : List (List F)} (hX : DataOk X)
    (O : Options F) (lv : LossVal F) (hlv : O.loss = some lv) (hl : lv.fn.Regular) (ohe : Dense F)
    (indexes : Option (List Nat)) (hi : SampleOk X.length indexes) (cols : List Nat) (round : Nat) {m k : Nat}
    (acc : TrainState F × List (Tree F)) (hI : TInv exp X.length m acc.1) (hr : ohe.r = X.length) (hc : ohe.c = m)
    (hw : ohe.WF) (hk : k < m) :
    ∃ acc', trainClass (softMaxDense exp) S X O ohe indexes cols round acc k = .ok acc' := by
  have hx0 : 0 < X.length := List.length_pos_iff.2 hX.ne
  unfold trainClass
  simp only
  split
  · exact ⟨_, rfl⟩
  · obtain ⟨y, hy, hyl, _⟩ := denseCol_spec hw (by omega) (col := k) (by omega)
    obtain ⟨p, hp, hpl, _⟩ := denseCol_spec hI.probsWF (by rw [hI.probsR]; omega) (col := k) (by rw [hI.probsC]; exact hk)
    rw [hI.probsR] at hpl
    obtain ⟨t, ht, hpred⟩ := classTree_exists S hX O lv.fn hl indexes hi cols y p (by omega) (by omega)
    obtain ⟨vs, hvs⟩ := mapM_exists hpred
    have hvs' := mapM_ok.1 hvs
    have hpr : t.predict X (some acc.1.tmpPreds) = .ok vs := by
      rw [C13_predict_buffer]
      refine ⟨by rw [hI.tmp], vs, hvs', ?_⟩
      rw [List.drop_eq_nil_iff.2 (by rw [hI.tmp]), List.append_nil]
    obtain ⟨raw, r1, r2, r3, r4, _⟩ := addToCol_spec hI.rawWF (col := k) (by rw [hI.rawC]; exact hk)
      (vs.map fun v => v *. O.learningRate) (by rw [List.length_map, ← hvs'.length_eq, hI.rawR])
    obtain ⟨probs, p1, p2, p3, p4, _⟩ := C24_dense exp raw r4 (some acc.1.probs) (by
      rintro d hd; cases hd
      exact ⟨by rw [hI.probsR, r2, hI.rawR], by rw [hI.probsC, r3, hI.rawC], hI.probsWF⟩)
    obtain ⟨kp, k1, k2, _⟩ := denseCol_spec (D := probs) p4 (by rw [p2, r2, hI.rawR]; omega) (col := k)
      (by rw [p3, r3, hI.rawC]; exact hk)
    obtain ⟨loss, hloss⟩ := hl.loss y kp (by rw [k2, p2, r2, hI.rawR]; omega) (by
      intro h
      rw [h] at hyl
      simp at hyl
      omega)
    simp only [hy, hp, hlv, ht, hpr, r1, p1, k1, hloss, bind, Except.bind, pure, Except.pure]
    split <;> exact ⟨_, rfl⟩

theorem trainClasses_exists [GoFloatOrd F] (exp : F → F) (S : GoSort) {X : List (List F)} (hX : DataOk X)
    (O : Options F) (lv : LossVal F) (hlv : O.loss = some lv) (hl : lv.fn.Regular) (ohe : Dense F)
    (indexes : Option (List Nat)) (hi : SampleOk X.length indexes) (cols : List Nat) (round : Nat) {m : Nat}
    (st : TrainState F) (hI : TInv exp X.length m st) (hr : ohe.r = X.length) (hc : ohe.c = m)
    (hw : ohe.WF) (q : Nat) (hq : q ≤ m) :
    ∃ acc', (List.range q).foldlM (trainClass (softMaxDense exp) S X O ohe indexes cols round) (st, []) = .ok acc' := by
  induction q with
  | zero => exact ⟨_, rfl⟩
  | succ q ih =>
    obtain ⟨acc, ha⟩ := ih (by omega)
    obtain ⟨i1, _⟩ := trainClasses_inv rfl q (by omega) st acc ha hI
    obtain ⟨acc', ha'⟩ := trainClass_exists exp S hX O lv hlv hl ohe indexes hi cols round acc i1 hr hc hw
      (k := q) (by omega)
    rw [List.range_succ, List.foldlM_append, ha]
    refine ⟨acc', ?_⟩
    simp only [bind, Except.bind, List.foldlM_cons, ha', List.foldlM_nil, pure, Except.pure]

end Boo
