import Verif.Lemmas.RowOrder
import Verif.Props.RealTrain
import Verif.Props.Equivariance

/-!
# Two classes: exchanging them negates all trees
-/

namespace Boo
open GoFloat Spec
set_option linter.unusedSectionVars false
set_option linter.unusedSimpArgs false

/-- `-x` -/
noncomputable def negR (x : Exact ℝ) : Exact ℝ := scaleBy (-1) x

theorem negR_fin (x : ℝ) : negR (.fin x) = .fin (-x) := by rw [negR, scale_fin, neg_one_mul]

/-- the predictions are negated, the importances are the same -/
def NegTree (t1 t2 : Tree (Exact ℝ)) : Prop :=
  (∀ row, t2.predictSingle row = (t1.predictSingle row).map negR) ∧ ∀ S g, t2.featImp S g = t1.featImp S g

theorem NegTree.same {t1 t2 t3 : Tree (Exact ℝ)} (h : NegTree t1 t2) (h' : SameTree t2 t3) : NegTree t1 t3 :=
  ⟨fun row => by rw [h'.1, h.1], fun S g => by rw [h'.2, h.2]⟩

theorem mapValues_featImp {vf : Exact ℝ → Exact ℝ} (t : Tree (Exact ℝ)) (S : GoSort) (g : Feats (Exact ℝ)) :
    (t.mapValues vf id).featImp S g = t.featImp S g := by
  induction t generalizing g with
  | nil => rfl
  | node i l r ihl ihr =>
    unfold Tree.mapValues Tree.featImp
    have : ({ i with value := vf i.value, bestScoreSoFar := id i.bestScoreSoFar } : NodeInfo (Exact ℝ)).leaf = i.leaf := rfl
    rw [this]
    simp only [id]
    split
    · rfl
    · rw [ihl]
      cases l.featImp S (g.add i.splitFeatureIndex i.bestScoreSoFar) with
      | error => rfl
      | ok g1 => exact ihr g1

theorem leafSums_neg {g h : List ℝ} (ws : List Nat) (a b : ℝ) :
    leafSums (finV (g.map fun x => -x)) (finV h) ws (.fin a : Exact ℝ) (.fin (-b)) =
      (leafSums (finV g) (finV h) ws (.fin a) (.fin b)).map fun r => (r.1, negR r.2) := by
  induction ws generalizing a b with
  | nil => simp [leafSums, Except.map, negR_fin]
  | cons w ws ih =>
    unfold leafSums
    simp only [finV, List.getElem?_map, List.map_map]
    cases h1 : h[w]? with
    | none => simp [Except.map]
    | some u =>
      cases h2 : g[w]? with
      | none => simp [Except.map]
      | some v =>
        simp only [Option.map_some, Exact.add_fin]
        have := ih (a + u) (b + v)
        simp only [finV, List.map_map] at this
        rw [← this]
        simp only [Function.comp, Exact.add_fin]
        congr 2
        ring

theorem leafSums_fin {g h : List ℝ} (ws : List Nat) (a b : ℝ) (r : Exact ℝ × Exact ℝ)
    (hr : leafSums (finV g) (finV h) ws (.fin a) (.fin b) = .ok r) : ∃ x y, r = (.fin x, .fin y) := by
  induction ws generalizing a b with
  | nil =>
    obtain rfl := Except.ok.inj hr
    exact ⟨a, b, rfl⟩
  | cons w ws ih =>
    unfold leafSums at hr
    simp only [finV, List.getElem?_map] at hr
    cases h1 : h[w]? with
    | none => rw [h1] at hr; cases hr
    | some u =>
      cases h2 : g[w]? with
      | none => rw [h1, h2] at hr; cases hr
      | some v =>
        rw [h1, h2] at hr
        simp only [Option.map_some, Exact.add_fin] at hr
        exact ih _ _ hr

theorem zero0 : (zero : Exact ℝ) = .fin 0 := by rw [Exact.zero_fin]; simp
theorem one1 : (one : Exact ℝ) = .fin 1 := by rw [Exact.one_fin]; simp

theorem updateLeaves_neg {g h : List ℝ} {vf : Exact ℝ → Exact ℝ} {t t' : Tree (Exact ℝ)}
    (hu : updateLeaves (finV g) (finV h) t = .ok t') :
    ∃ t2, updateLeaves (finV (g.map fun x => -x)) (finV h) (t.mapValues vf id) = .ok t2 ∧ NegTree t' t2 := by
  induction t generalizing t' with
  | nil =>
    obtain rfl := Except.ok.inj hu
    exact ⟨.nil, rfl, fun row => rfl, fun S g => rfl⟩
  | node i l r ihl ihr =>
    unfold updateLeaves at hu
    obtain ⟨l1, hl1, hu⟩ := bind_ok hu
    obtain ⟨r1, hr1, hu⟩ := bind_ok hu
    obtain ⟨l2, el, nl⟩ := ihl hl1
    obtain ⟨r2, er, nr⟩ := ihr hr1
    have hm : (Tree.node i l r).mapValues vf id = .node { i with value := vf i.value } (l.mapValues vf id) (r.mapValues vf id) := rfl
    have hlf' : ({ i with value := vf i.value } : NodeInfo (Exact ℝ)).leaf = i.leaf := rfl
    rw [hm, updateLeaves, el, er]
    simp only [bind, Except.bind]
    rw [hlf']
    cases hlf : i.leaf with
    | false =>
      rw [hlf] at hu
      simp only [Bool.false_eq_true, if_false] at hu ⊢
      obtain rfl := Except.ok.inj hu
      refine ⟨_, rfl, fun row => ?_, fun S g => ?_⟩
      · rw [Tree.predictSingle, Tree.predictSingle, hlf', hlf]
        simp only [Bool.false_eq_true, if_false]
        cases goIdx row i.splitFeatureIndex with
        | error => rfl
        | ok x =>
          simp only [bind, Except.bind]
          split
          · exact nl.1 row
          · exact nr.1 row
      · rw [Tree.featImp, Tree.featImp, hlf', hlf]
        simp only [Bool.false_eq_true, if_false]
        rw [nl.2]
        cases l1.featImp S (g.add i.splitFeatureIndex i.bestScoreSoFar) with
        | error => rfl
        | ok g1 => exact nr.2 S g1
    | true =>
      rw [hlf] at hu
      simp only [if_true] at hu ⊢
      obtain ⟨i1, hi1, hu⟩ := bind_ok hu
      obtain rfl := Except.ok.inj hu
      unfold updateLeaf at hi1 ⊢
      obtain ⟨⟨sh, sg⟩, e1, e2⟩ := bind_ok hi1
      rw [zero0] at e1
      obtain ⟨x, y, hxy⟩ := leafSums_fin _ _ _ _ e1
      obtain ⟨rfl, rfl⟩ := Prod.mk.inj hxy
      have e3 := leafSums_neg (g := g) (h := h) i.samples 0 0
      rw [e1, neg_zero] at e3
      rw [zero0]
      simp only at e3 ⊢
      rw [e3]
      simp only [bind, Except.bind, pure, Except.pure, Except.map] at e2 ⊢
      obtain rfl := Except.ok.inj e2
      refine ⟨_, rfl, fun row => ?_, fun S g => ?_⟩
      · rw [Tree.predictSingle, Tree.predictSingle]
        have h1 : ({ i with value := negR (.fin y) /. .fin x } : NodeInfo (Exact ℝ)).leaf = i.leaf := rfl
        have h2 : ({ i with value := (.fin y : Exact ℝ) /. .fin x } : NodeInfo (Exact ℝ)).leaf = i.leaf := rfl
        simp only [h1, h2, hlf, if_true]
        show Except.ok (negR (.fin y) /. .fin x) = Except.ok (negR ((.fin y : Exact ℝ) /. .fin x))
        rw [negR, negR, div_scale (by norm_num)]
      · rw [Tree.featImp, Tree.featImp]
        have h1 : ({ i with value := negR (.fin y) /. .fin x } : NodeInfo (Exact ℝ)).leaf = i.leaf := rfl
        have h2 : ({ i with value := (.fin y : Exact ℝ) /. .fin x } : NodeInfo (Exact ℝ)).leaf = i.leaf := rfl
        simp only [h1, h2, hlf, if_true]

/-- the two losses of the package -/
def PackageLoss (lf : LossFunc (Exact ℝ)) : Prop := lf = sqErrLoss ∨ lf = mseLoss

theorem PackageLoss.row {lf : LossFunc (Exact ℝ)} (h : PackageLoss lf) : lf.RowWise := by
  rcases h with rfl | rfl
  · exact sqErrLoss_rowWise
  · exact mseLoss_rowWise

theorem PackageLoss.flip {lf : LossFunc (Exact ℝ)} (h : PackageLoss lf) {y p : List ℝ} (hl : y.length = p.length) :
    ∃ g hs : List ℝ, lf.gradients (finV y) (finV p) = .ok (finV g) ∧ lf.negGradients (finV y) (finV p) = .ok (finV (g.map fun x => -x)) ∧
      lf.gradients (finV (y.map fun v => 1 - v)) (finV (p.map fun v => 1 - v)) = .ok (finV (g.map fun x => -x)) ∧
      lf.negGradients (finV (y.map fun v => 1 - v)) (finV (p.map fun v => 1 - v)) = .ok (finV g) ∧
      lf.hessian (finV p) = finV hs ∧ lf.hessian (finV (p.map fun v => 1 - v)) = finV hs ∧ g.length = p.length ∧
      hs.length = p.length ∧ lf.loss (finV (y.map fun v => 1 - v)) (finV (p.map fun v => 1 - v)) = lf.loss (finV y) (finV p) := by
  obtain ⟨a1, a2⟩ := grad_fin y p hl
  obtain ⟨b1, b2⟩ := grad_fin (y.map fun v => 1 - v) (p.map fun v => 1 - v) (by simpa using hl)
  have e1 : List.zipWith (fun a b : ℝ => a - b) y p = (List.zipWith (fun a b : ℝ => b - a) y p).map fun x => -x := by
    rw [List.map_zipWith]; congr 1; funext a b; ring
  have e2 : List.zipWith (fun a b : ℝ => b - a) (y.map fun v => 1 - v) (p.map fun v => 1 - v) =
      (List.zipWith (fun a b : ℝ => b - a) y p).map fun x => -x := by
    rw [List.map_zipWith, List.zipWith_map]; congr 1; funext a b; ring
  have e3 : List.zipWith (fun a b : ℝ => a - b) (y.map fun v => 1 - v) (p.map fun v => 1 - v) =
      List.zipWith (fun a b : ℝ => b - a) y p := by
    rw [List.zipWith_map]; congr 1; funext a b; ring
  rw [e1] at a2
  rw [e2] at b1
  rw [e3] at b2
  have hloss : (mseLossVal (finV (y.map fun v => 1 - v)) (finV (p.map fun v => 1 - v)) : Go (Exact ℝ)) =
      mseLossVal (finV y) (finV p) := by
    unfold mseLossVal
    unfold negGrad at a2 b2
    rw [a2, b2]
    simp only [bind, Except.bind, finV, List.map_map, List.length_map]
    congr 4
    funext v
    simp [Exact.mul_fin]
  have hlen : (List.zipWith (fun a b : ℝ => b - a) y p).length = p.length := by simp [hl]
  rcases h with rfl | rfl
  · exact ⟨_, p.map fun _ => 1, a1, a2, b1, b2, by simp [sqErrLoss, finV, one1], by simp [sqErrLoss, finV, one1], hlen, by simp, hloss⟩
  · refine ⟨_, p.map fun v => (1 - v) * v, a1, a2, b1, b2, by simp [mseLoss, finV, one1, Exact.sub_fin, Exact.mul_fin], ?_,
      hlen, by simp, hloss⟩
    simp only [mseLoss, finV, one1, List.map_map]
    congr 1
    funext v
    simp only [Function.comp, Exact.sub_fin, Exact.mul_fin]
    congr 1
    ring

theorem finV_scale (g : List ℝ) : (finV g : List (Exact ℝ)).map (scaleBy (-1)) = finV (g.map fun x => -x) := by
  simp [finV, scale_fin]

theorem scale_one_fun : (scaleBy (1 : ℝ) : Exact ℝ → Exact ℝ) = id := funext scale_one

theorem SameRows.negClassTree {n : Nat} {X : List (List ℝ)} (h : SameRows n id X X) {S : GoSort}
    {O : Options (Exact ℝ)} {lf : LossFunc (Exact ℝ)} (hlf : PackageLoss lf) {cols : List Nat} {y p : List ℝ}
    (hy : y.length = n) (hp : p.length = n) {t : Tree (Exact ℝ)}
    (ht : Boo.classTree S (finRows X) O lf none cols (finV y) (finV p) = .ok t) :
    ∃ t', Boo.classTree S (finRows X) O lf none cols (finV (y.map fun v => 1 - v)) (finV (p.map fun v => 1 - v)) = .ok t' ∧
      NegTree t t' := by
  obtain ⟨g, hs, a1, a2, b1, b2, c1, c2, lg, lh, _⟩ := hlf.flip (y := y) (p := p) (by omega)
  unfold Boo.classTree at ht ⊢
  rw [c1] at ht
  rw [c2]
  cases hx : O.xgb with
  | true =>
    rw [hx] at ht
    simp only [if_true] at ht ⊢
    rw [a1] at ht
    rw [b1]
    simp only [bind, Except.bind] at ht ⊢
    obtain ⟨r1, r2⟩ := C84_xgb_partial S _ _ t (-1 : ℝ) 1 (by norm_num) one_pos ht rfl
    have e1 : ((-1 : ℝ) * -1 / 1) = 1 := by norm_num
    have e2 : ((-1 : ℝ) / 1) = -1 := by norm_num
    rw [e1, e2] at r1 r2
    have q := (h.corr (o := TreeOptions.rescaleX (-1 : ℝ) 1 { (defaultXTreeOptions : TreeOptions (Exact ℝ)) with
      minChildWeight := O.minChildWeight, maxDepth := O.maxDepth, lambda := O.lambda,
      gamma := O.gamma, indexes := none, allowedColumns := cols, gradients := some (finV g),
      hessian := some (finV hs), y := finV y, scratch := some (finRows X).length })
      (o' := { (defaultXTreeOptions : TreeOptions (Exact ℝ)) with
      minChildWeight := O.minChildWeight, maxDepth := O.maxDepth, lambda := O.lambda,
      gamma := O.gamma, indexes := none, allowedColumns := cols, gradients := some (finV (g.map fun x => -x)),
      hessian := some (finV hs), y := finV (y.map fun v => 1 - v), scratch := some (finRows X).length })
      rfl rfl (by simp [TreeOptions.rescaleX, scale_one]) (by simp [TreeOptions.rescaleX, e1, scale_one]) rfl rfl rfl rfl rfl
      (by simp [Boo.tgtA, defaultXTreeOptions, TreeOptions.rescaleX, finV_scale, finV])
      (by simp [Boo.tgtB, defaultXTreeOptions, TreeOptions.rescaleX])
      (fun w hw => by simp [Boo.tgtA, defaultXTreeOptions, TreeOptions.rescaleX, finV_scale])
      (fun w hw => by simp [Boo.tgtB, defaultXTreeOptions, TreeOptions.rescaleX, scale_one_fun]))
    unfold newTree at r1 ⊢
    obtain ⟨t', q1, q2, _⟩ := q.tree (S2 := S) _ r1
    refine ⟨t', q1, NegTree.same ⟨r2, fun S g => ?_⟩ q2.sameTree⟩
    rw [scale_one_fun]
    exact mapValues_featImp t S g
  | false =>
    rw [hx] at ht
    simp only [Bool.false_eq_true, if_false] at ht ⊢
    rw [a2] at ht
    rw [b2]
    simp only [bind, Except.bind] at ht ⊢
    obtain ⟨t0, ht0, ht⟩ := bind_ok ht
    obtain ⟨r1, _⟩ := C84_regular_partial S _ _ t0 (-1 : ℝ) 0 (by norm_num) ht0 rfl (by
      intro v hv
      obtain ⟨x, _, rfl⟩ := List.mem_map.1 hv
      exact ⟨x, rfl⟩)
    have e1 : ((-1 : ℝ) * -1) = 1 := by norm_num
    rw [e1, scale_one_fun] at r1
    have e2 : (finV (g.map fun x => -x) : List (Exact ℝ)).map (affineBy (-1) 0) = finV g := by
      simp [finV, affine_fin]
    simp only [TreeOptions.rescaleY, e2] at r1
    rw [r1]
    simp only
    obtain ⟨t2, u1, u2⟩ := updateLeaves_neg (vf := affineBy (-1) 0) ht
    have e3 : ((g.map fun x => -x).map fun x => -x) = g := by simp
    rw [e3] at u1
    exact ⟨t2, u1, u2⟩

/-! ### states -/

theorem softmax_two {r : List ℝ} (hr : r.length = 2) (b : ℝ) :
    softmaxSpec (r.map fun x => 2 * b - x) = (softmaxSpec r).map fun v => 1 - v := by
  match r, hr with
  | [u, v], _ =>
    have e : ∀ x : ℝ, Real.exp (2 * b - x) = Real.exp (2 * b) / Real.exp x := fun x => Real.exp_sub _ _
    have h1 := Real.exp_pos u
    have h2 := Real.exp_pos v
    have h3 := Real.exp_pos (2 * b)
    simp only [softmaxSpec, List.map_cons, List.map_nil, List.sum_cons, List.sum_nil, add_zero, e, List.cons.injEq, and_true]
    constructor <;> field_simp <;> ring

/-- two states of training: the rows correspond and the classes are exchanged -/
structure FlipRel (b : ℝ) (n : Nat) (σ : Nat → Nat) (s1 s2 : TrainState (Exact ℝ)) : Prop where
  i1 : TInv expR n 2 s1
  i2 : TInv expR n 2 s2
  raw : ∀ i < n, ∃ r : List ℝ, r.length = 2 ∧ s1.rawPred.row i = finV r ∧ s2.rawPred.row (σ i) = finV (r.map fun x => 2 * b - x)
  stopped : s2.stopped = s1.stopped
  noProgress : s2.noProgress = s1.noProgress
  prevloss : s2.prevloss = s1.prevloss
  draws : s2.draws = s1.draws
  b : List.Forall₂ (List.Forall₂ NegTree) s1.boosters s2.boosters

theorem flip_probs {b : ℝ} {n : Nat} {σ : Nat → Nat} {s1 s2 : TrainState (Exact ℝ)} (hσ : PermOn n σ)
    (i1 : TInv expR n 2 s1) (i2 : TInv expR n 2 s2)
    (raw : ∀ i < n, ∃ r : List ℝ, r.length = 2 ∧ s1.rawPred.row i = finV r ∧ s2.rawPred.row (σ i) = finV (r.map fun x => 2 * b - x)) :
    ∀ i < n, ∃ p : List ℝ, p.length = 2 ∧ s1.probs.row i = finV p ∧ s2.probs.row (σ i) = finV (p.map fun v => 1 - v) := by
  intro i hi
  obtain ⟨r, h1, h2, h3⟩ := raw i hi
  have e1 := i1.soft i hi
  have e2 := i2.soft (σ i) (hσ.lt hi)
  rw [h2, softMax_real r (by rintro rfl; simp at h1)] at e1
  rw [h3, softMax_real _ (by intro h; have := congrArg List.length h; simp at this; simp [this] at h1), softmax_two h1] at e2
  exact ⟨softmaxSpec r, by rw [softmaxSpec_length, h1], (Except.ok.inj e1).symm, (Except.ok.inj e2).symm⟩

/-- columns of matrices whose rows are `p` and `1 - p` -/
theorem denseCol_flip {n : Nat} {σ : Nat → Nat} (hσ : PermOn n σ) (hn : 0 < n) {D1 D2 : Dense (Exact ℝ)} (w1 : D1.WF) (w2 : D2.WF)
    (r1 : D1.r = n) (r2 : D2.r = n) (c1 : D1.c = 2) (c2 : D2.c = 2)
    (h : ∀ i < n, ∃ p : List ℝ, p.length = 2 ∧ D1.row i = finV p ∧ D2.row (σ i) = finV (p.map fun v => 1 - v))
    {k : Nat} (hk : k < 2) :
    ∃ (q : List ℝ) (l2 : List (Exact ℝ)), denseCol D1 k = .ok (finV q) ∧ denseCol D2 k = .ok l2 ∧ q.length = n ∧ l2.length = n ∧
      ∀ i < n, l2[σ i]? = (finV (q.map fun v => 1 - v))[i]? := by
  obtain ⟨l1, a1, a2, a3⟩ := denseCol_spec w1 (by omega) (col := k) (by omega)
  obtain ⟨l2, b1, b2, b3⟩ := denseCol_spec w2 (by omega) (col := k) (by omega)
  have key : ∀ i < n, ∃ v : ℝ, l1[i]? = some (.fin v) ∧ l2[σ i]? = some (.fin (1 - v)) := by
    intro i hi
    obtain ⟨p, e0, e1, e2⟩ := h i hi
    have := hσ.lt hi
    rw [a3 i (by omega), b3 (σ i) (by omega), ← Dense.row_get (by omega) (by omega), ← Dense.row_get (by omega) (by omega), e1, e2]
    refine ⟨p[k], ?_, ?_⟩ <;> simp [finV, hk, e0]
  have hfin : AllFin l1 := by
    intro v hv
    obtain ⟨i, hi⟩ := List.mem_iff_getElem?.1 hv
    obtain ⟨u, e, _⟩ := key i (by have := (List.getElem?_eq_some_iff.1 hi).1; omega)
    rw [hi] at e
    exact ⟨u, Option.some.inj e⟩
  obtain ⟨q, rfl⟩ := hfin.finV
  have hq : q.length = n := by have : (finV q : List (Exact ℝ)).length = q.length := by simp [finV]
                               omega
  refine ⟨q, l2, a1, b1, hq, by omega, fun i hi => ?_⟩
  obtain ⟨v, e1, e2⟩ := key i hi
  rw [e2]
  simp only [finV, List.getElem?_map] at e1 ⊢
  cases hqi : q[i]? with
  | none => rw [hqi] at e1; cases e1
  | some w =>
    rw [hqi] at e1
    simp only [Option.map_some, Option.some.injEq, XF.fin.injEq] at e1 ⊢
    rw [e1]

theorem NegTree.predictRows {n : Nat} {σ : Nat → Nat} {X X' : List (List ℝ)} (h : SameRows n σ X X') {t t' : Tree (Exact ℝ)}
    (ht : NegTree t t') {buf buf' : List (Exact ℝ)} (hb : buf.length = n) (hb' : buf'.length = n) {preds : List (Exact ℝ)}
    (hp : t.predict (finRows X) (some buf) = .ok preds) :
    ∃ preds', t'.predict (finRows X') (some buf') = .ok preds' ∧ preds'.length = n := by
  have h1 := tinv_predict h.len hb hp
  have hfl : (finRows X).length = n := by simp [finRows, h.len]
  have hfl' : (finRows X').length = n := by simp [finRows, h.len']
  have hall : ∀ row ∈ finRows X', ∃ v, t'.predictSingle row = .ok v := by
    intro row hr
    obtain ⟨j, hj⟩ := List.mem_iff_getElem?.1 hr
    have hjl := (List.getElem?_eq_some_iff.1 hj).1
    obtain ⟨i, hi, rfl⟩ := h.perm.surj (j := j) (by omega)
    have hfr : (finRows X')[σ i]? = (finRows X)[i]? := by simp only [finRows, List.getElem?_map, h.rows i hi]
    rw [hfr] at hj
    rcases forall2_get h1 i with ⟨a, b, e1, e2, e3⟩ | ⟨e, _⟩
    · rw [hj] at e1
      cases e1
      exact ⟨negR b, by rw [ht.1, e3]; rfl⟩
    · rw [hj] at e; cases e
  have hex : ∀ l : List (List (Exact ℝ)), (∀ row ∈ l, ∃ v, t'.predictSingle row = .ok v) →
      ∃ vs, List.Forall₂ (fun row v => t'.predictSingle row = .ok v) l vs := by
    intro l
    induction l with
    | nil => exact fun _ => ⟨[], .nil⟩
    | cons a l ih =>
      intro hl
      obtain ⟨v, hv⟩ := hl a (by simp)
      obtain ⟨vs, hvs⟩ := ih fun row hr => hl row (by simp [hr])
      exact ⟨v :: vs, .cons hv hvs⟩
  obtain ⟨vs, hvs⟩ := hex _ hall
  have hd : buf'.drop (finRows X').length = [] := by
    rw [List.drop_eq_nil_iff]; omega
  exact ⟨vs, (C13_predict_buffer t' _ buf' vs).2 ⟨by omega, vs, hvs, by rw [hd, List.append_nil]⟩,
    by rw [← hvs.length_eq]; exact hfl'⟩

theorem SameRows.flipClass {n : Nat} {σ : Nat → Nat} {X X' : List (List ℝ)} (h : SameRows n σ X X') (hn : 0 < n)
    {S S' : GoSort} {O : Options (Exact ℝ)} {b : ℝ} (hO : RealOptions O)
    (hlf : ∀ lv, O.loss = some lv → PackageLoss lv.fn)
    {ohe ohe' : Dense (Exact ℝ)} (w1 : ohe.WF) (w2 : ohe'.WF) (r1 : ohe.r = n) (r2 : ohe'.r = n) (c1 : ohe.c = 2) (c2 : ohe'.c = 2)
    (ho : ∀ i < n, ∃ p : List ℝ, p.length = 2 ∧ ohe.row i = finV p ∧ ohe'.row (σ i) = finV (p.map fun v => 1 - v))
    {cols : List Nat} {round k : Nat} (hk : k < 2)
    {a1 a2 a1' : TrainState (Exact ℝ) × List (Tree (Exact ℝ))} (hR : FlipRel b n σ a1.1 a2.1)
    (hT : List.Forall₂ NegTree a1.2 a2.2)
    (hc : Boo.trainClass (softMaxDense expR) S (finRows X) O ohe none cols round a1 k = .ok a1') :
    ∃ a2', Boo.trainClass (softMaxDense expR) S' (finRows X') O ohe' none cols round a2 k = .ok a2' ∧
      FlipRel b n σ a1'.1 a2'.1 ∧ List.Forall₂ NegTree a1'.2 a2'.2 := by
  obtain ⟨hs, rfl⟩ | ⟨hs, tree, ht, ⟨s⟩⟩ := trainClass_inv hc
  · refine ⟨a2, ?_, hR, hT⟩
    unfold Boo.trainClass
    simp only
    rw [hR.stopped, if_pos hs]
    rfl
  · have hfl : (finRows X).length = n := by simp [finRows, h.len]
    have hfl' : (finRows X').length = n := by simp [finRows, h.len']
    obtain ⟨y, y', ey, ey', ly, ly', hy⟩ := denseCol_flip h.perm hn w1 w2 r1 r2 c1 c2 ho hk
    obtain ⟨p, p', ep, ep', lp, lp', hp⟩ := denseCol_flip h.perm hn hR.i1.probsWF hR.i2.probsWF hR.i1.probsR hR.i2.probsR
      hR.i1.probsC hR.i2.probsC (flip_probs h.perm hR.i1 hR.i2 hR.raw) hk
    have hsy : s.y = finV y := Except.ok.inj (s.hy.symm.trans ey)
    have hsp : s.p = finV p := Except.ok.inj (s.hp.symm.trans ep)
    have hpk := hlf s.lv s.hlv
    have htree := s.htree
    rw [hsy, hsp] at htree
    have hid : SameRows n id X X := ⟨by unfold PermOn; simp, h.len, h.len, fun w hw => rfl, h.rect⟩
    obtain ⟨t1, et1, hnt⟩ := hid.negClassTree hpk ly lp htree
    obtain ⟨t', et, hst⟩ := h.classTree (S' := S') hpk.row (by simp [finV, ly]) (by simp [finV, lp]) ly' lp' hy hp et1
    replace hnt := hnt.same hst
    obtain ⟨preds', epr, lpr'⟩ := hnt.predictRows h hR.i1.tmp hR.i2.tmp s.hpreds
    obtain ⟨raw', eraw, rr, rc, rw', rne, req⟩ := addToCol_spec hR.i2.rawWF (col := k) (by rw [hR.i2.rawC]; exact hk)
      (preds'.map fun v => v *. O.learningRate) (by rw [List.length_map, lpr', hR.i2.rawR])
    obtain ⟨probs', epb, pr, pc, pw, psoft⟩ := C24_dense expR raw' rw' (some a2.1.probs) (by
      rintro d hd; cases hd
      exact ⟨by rw [hR.i2.probsR, rr, hR.i2.rawR], by rw [hR.i2.probsC, rc, hR.i2.rawC], hR.i2.probsWF⟩)
    have hreg : s.lv.fn.Regular := by
      rcases hpk with h | h <;> rw [h]
      · exact sqErrLoss_regular
      · exact mseLoss_regular
    -- the loss
    have hcur : ∃ l', (if O.earlyStop > 0 ∨ O.verbose = true then do
          let kp ← denseCol probs' k
          s.lv.fn.loss y' kp
        else pure zero : Go (Exact ℝ)) = .ok l' := by
      by_cases he : O.earlyStop > 0 ∨ O.verbose = true
      · rw [if_pos he]
        obtain ⟨kp, e1, e2, _⟩ := denseCol_spec pw (by rw [pr, rr, hR.i2.rawR]; exact hn) (col := k)
          (by rw [pc, rc, hR.i2.rawC]; exact hk)
        obtain ⟨v, hv⟩ := hreg.loss y' kp (by rw [ly', e2, pr, rr, hR.i2.rawR]) (by
          intro h0; rw [h0] at ly'; simp at ly'; omega)
        exact ⟨v, by rw [e1]; exact hv⟩
      · exact ⟨zero, by rw [if_neg he]; rfl⟩
    obtain ⟨l', hl'⟩ := hcur
    have hrun : Boo.trainClass (softMaxDense expR) S' (finRows X') O ohe' none cols round a2 k =
        .ok (earlyStopping O round k l' { a2.1 with
          rawPred := raw', probs := probs', tmpPreds := preds'.map fun v => v *. O.learningRate }, a2.2 ++ [t']) := by
      unfold Boo.trainClass
      simp only
      have hs2 : a2.1.stopped.getD k false = false := by rw [hR.stopped]; exact hs
      rw [hs2, ey', ep']
      simp only [Bool.false_eq_true, if_false, bind, Except.bind, s.hlv, et, epr, eraw, epb]
      by_cases he : O.earlyStop > 0 ∨ O.verbose = true
      · rw [if_pos he] at hl' ⊢
        obtain ⟨kp, f1, f2⟩ := bind_ok hl'
        rw [f1]
        simp only [f2]
        rfl
      · rw [if_neg he] at hl' ⊢
        obtain rfl := Except.ok.inj hl'
        rfl
    have hc2 := trainClass_inv hrun
    obtain ⟨hs', _⟩ | ⟨_, tree', ht', ⟨s'⟩⟩ := hc2
    · rw [hR.stopped, hs] at hs'; cases hs'
    obtain rfl : t' = tree' := by
      have := List.append_cancel_left ht'
      simpa using this
    obtain ⟨j1, j2, j3, j4⟩ := s.inv hR.i1 hfl hk
    obtain ⟨j1', j2', j3', j4'⟩ := s'.inv hR.i2 hfl' hk
    have hset : RealSetup X O ohe n 2 False := ⟨hO, h.len, hn, fun k' y0 hk' hy0 => by
        obtain ⟨q, _, e1, _, e2, _⟩ := denseCol_flip h.perm hn w1 w2 r1 r2 c1 c2 ho hk'
        rw [hy0] at e1
        exact ⟨q, Except.ok.inj e1, e2⟩, fun lv hlv => by
        rcases hlf lv hlv with h | h <;> rw [h]
        · exact ⟨fun y p hl hp => sqErr_real.ok y p hl fun v hv => ⟨(hp v hv).1, (hp v hv).2.imp id False.elim⟩⟩
        · exact mse_real, by omega⟩
    obtain ⟨ftree, _⟩ := s.real hset (by intro l hl; cases hl) hR.i1 (by
      intro i hi
      obtain ⟨r, _, e, _⟩ := hR.raw i hi
      rw [e]
      intro v hv
      obtain ⟨x, _, rfl⟩ := List.mem_map.1 hv
      exact ⟨x, rfl⟩) hk
    obtain ⟨lr, hlr⟩ := hO.lr
    have hraw' : ∀ i < n, ∃ r : List ℝ, r.length = 2 ∧ a1'.1.rawPred.row i = finV r ∧
        (earlyStopping O round k l' { a2.1 with
          rawPred := raw', probs := probs', tmpPreds := preds'.map fun v => v *. O.learningRate }).rawPred.row (σ i) =
        finV (r.map fun x => 2 * b - x) := by
      intro i hi
      have hsi := h.perm.lt hi
      have e1 : (finRows X)[i]? = some (finRows X)[i] := List.getElem?_eq_getElem (by omega)
      have e2 : (finRows X')[σ i]? = some (finRows X)[i] := by
        rw [← e1]; simp only [finRows, List.getElem?_map, h.rows i hi]
      obtain ⟨v, d, q1, q2, q3⟩ := j4 i _ e1
      obtain ⟨v', d', q1', q2', q3'⟩ := j4' (σ i) _ e2
      obtain ⟨r, f1, f2, f3⟩ := hR.raw i hi
      rw [hnt.1, q1] at q1'
      obtain ⟨x, rfl⟩ := ftree.predict q1
      have hv' : v' = .fin (-x) := by rw [← negR_fin]; exact (Except.ok.inj q1').symm
      rw [f2] at q2 q3
      rw [f3] at q2' q3'
      subst hv'
      have hkr : k < r.length := by omega
      have g1 : d = .fin r[k] := by
        simp only [finV, List.getElem?_map, List.getElem?_eq_getElem hkr, Option.map_some, Option.some.injEq] at q2
        exact q2.symm
      have g2 : d' = .fin (2 * b - r[k]) := by
        simp only [finV, List.getElem?_map, List.getElem?_eq_getElem hkr, Option.map_some, Option.some.injEq] at q2'
        exact q2'.symm
      have k1 : (d +. ((.fin x : Exact ℝ) *. O.learningRate)) = .fin (r[k] + x * lr) := by
        rw [g1, hlr, Exact.mul_fin, Exact.add_fin]
      have k2 : (d' +. ((.fin (-x) : Exact ℝ) *. O.learningRate)) = .fin (2 * b - (r[k] + x * lr)) := by
        rw [g2, hlr, Exact.mul_fin, Exact.add_fin]
        congr 1
        ring
      refine ⟨r.set k (r[k] + x * lr), by simp [f1], ?_, ?_⟩
      · refine q3.trans ?_
        rw [k1]; simp [finV, List.map_set]
      · refine q3'.trans ?_
        rw [k2]
        simp only [finV, List.map_set]
    have hloss : O.earlyStop > 0 → l' = s.loss := by
      intro he
      obtain ⟨kp, e1, e2⟩ := s.hloss he
      rw [if_pos (Or.inl he)] at hl'
      obtain ⟨kp'', f1, f2⟩ := bind_ok hl'
      obtain ⟨E1, E2, _, _⟩ := earlyStopping_raw O round k s.loss
        { a1.1 with rawPred := s.raw, probs := s.probs, tmpPreds := s.preds.map fun v => v *. O.learningRate }
      rw [← s.hst] at E1 E2
      obtain ⟨E1', E2', _, _⟩ := earlyStopping_raw O round k l' { a2.1 with
          rawPred := raw', probs := probs', tmpPreds := preds'.map fun v => v *. O.learningRate }
      simp only at E1 E2 E1' E2'
      have hprobs := flip_probs h.perm j1 j1' hraw'
      rw [E2, E2'] at hprobs
      obtain ⟨k1, k2, f3, f4, f5, f6, f7⟩ := denseCol_flip h.perm hn (E2 ▸ j1.probsWF) pw (E2 ▸ j1.probsR)
        (by rw [pr, rr, hR.i2.rawR]) (E2 ▸ j1.probsC) (by rw [pc, rc, hR.i2.rawC]) hprobs hk
      rw [e1] at f3
      rw [f1] at f4
      obtain rfl := Except.ok.inj f3
      obtain rfl := Except.ok.inj f4
      have := hpk.row.loss n σ _ _ y' kp'' h.perm (by simp [finV, ly]) (by simp [finV, f5]) ly' f6 hy f7
      obtain ⟨_, _, _, _, _, _, _, _, _, _, hfl⟩ := hpk.flip (y := y) (p := k1) (by omega)
      rw [hfl, ← hsy, e2, f2] at this
      exact Except.ok.inj this
    refine ⟨_, hrun, ?_, ?_⟩
    · obtain ⟨z1, z2, z3⟩ := earlyStopping_fields O round k s.loss l'
        { a1.1 with rawPred := s.raw, probs := s.probs, tmpPreds := s.preds.map fun v => v *. O.learningRate }
        { a2.1 with rawPred := raw', probs := probs', tmpPreds := preds'.map fun v => v *. O.learningRate }
        hloss hR.stopped hR.noProgress hR.prevloss
      rw [← s.hst] at z1 z2 z3
      exact ⟨j1, j1', hraw', z1, z2, z3, by rw [j3', j3, hR.draws], by rw [j2', j2]; exact hR.b⟩
    · rw [ht]
      exact List.rel_append hT (.cons hnt .nil)

theorem FlipRel.setDraws {b : ℝ} {n : Nat} {σ : Nat → Nat} {s1 s2 : TrainState (Exact ℝ)}
    (h : FlipRel b n σ s1 s2) (d : Nat → Exact ℝ) : FlipRel b n σ { s1 with draws := d } { s2 with draws := d } :=
  ⟨h.i1.draws d, h.i2.draws d, h.raw, h.stopped, h.noProgress, h.prevloss, rfl, h.b⟩

theorem SameRows.flipRound {n : Nat} {σ : Nat → Nat} {X X' : List (List ℝ)} (h : SameRows n σ X X') (hn : 0 < n)
    {S S' : GoSort} {O : Options (Exact ℝ)} {b : ℝ} (hO : RealOptions O)
    (hlf : ∀ lv, O.loss = some lv → PackageLoss lv.fn)
    (hsub : ((O.subSample <. one) && O.xgb) = false)
    {ohe ohe' : Dense (Exact ℝ)} (w1 : ohe.WF) (w2 : ohe'.WF) (r1 : ohe.r = n) (r2 : ohe'.r = n) (c1 : ohe.c = 2) (c2 : ohe'.c = 2)
    (ho : ∀ i < n, ∃ p : List ℝ, p.length = 2 ∧ ohe.row i = finV p ∧ ohe'.row (σ i) = finV (p.map fun v => 1 - v))
    {round : Nat} {s1 s2 s1' : TrainState (Exact ℝ)} (hR : FlipRel b n σ s1 s2)
    (hc : Boo.trainRound (softMaxDense expR) S (finRows X) O ohe 2 s1 round = .ok s1') :
    ∃ s2', Boo.trainRound (softMaxDense expR) S' (finRows X') O ohe' 2 s2 round = .ok s2' ∧ FlipRel b n σ s1' s2' := by
  unfold Boo.trainRound at hc ⊢
  obtain ⟨q1, q2⟩ := h.roundSamples hsub s1.draws
  rw [hR.draws, q1]
  obtain ⟨⟨idx, cols, draws⟩, hs, hc⟩ := bind_ok hc
  obtain rfl : idx = none := q2 _ hs
  rw [hs]
  simp only [bind, Except.bind] at hc ⊢
  have hR' := hR.setDraws draws
  by_cases hlt : (((none : Option (List Nat)).getD []).length : Int) < O.minSample
  · rw [if_pos hlt] at hc ⊢
    obtain rfl := Except.ok.inj hc
    exact ⟨_, rfl, hR'⟩
  · rw [if_neg hlt] at hc ⊢
    obtain ⟨acc1, hacc, hc⟩ := bind_ok hc
    obtain ⟨acc2, hacc2, z1, z2⟩ := foldlM_rel (P := fun a a' => FlipRel b n σ a.1 a'.1 ∧ List.Forall₂ NegTree a.2 a'.2)
      (g := Boo.trainClass (softMaxDense expR) S' (finRows X') O ohe' none cols round) (b := ({ s2 with draws := draws }, []))
      (fun a b a' k hk hP hf => h.flipClass hn hO hlf w1 w2 r1 r2 c1 c2 ho (List.mem_range.1 hk) hP.1 hP.2 hf)
      ⟨hR', .nil⟩ hacc
    rw [hacc2]
    obtain rfl := Except.ok.inj hc
    refine ⟨_, rfl, z1.i1.boosters _, z1.i2.boosters _, z1.raw, z1.stopped, z1.noProgress, z1.prevloss, z1.draws, ?_⟩
    exact List.rel_append z1.b (.cons z2 .nil)

/-- the encoded labels when the two classes are met in the other order -/
theorem ohe_flip {n : Nat} {σ : Nat → Nat} (hσ : PermOn n σ) {L L' : List Int} (hL : L.length = n) (hL' : L'.length = n)
    (hn : 0 < n) (h : ∀ i < n, L'[σ i]? = L[i]?) {a c : Int} (hd : distinctElements L = [a, c])
    (hd' : distinctElements L' = [c, a]) :
    ∃ ohe ohe' : Dense (Exact ℝ), oneHotEncodeDense L = .ok (ohe, [a, c]) ∧
      oneHotEncodeDense L' = .ok (ohe', [c, a]) ∧ ohe.WF ∧ ohe'.WF ∧ ohe.r = n ∧ ohe'.r = n ∧
      ohe.c = 2 ∧ ohe'.c = 2 ∧
      ∀ i < n, ∃ p : List ℝ, p.length = 2 ∧ ohe.row i = finV p ∧ ohe'.row (σ i) = finV (p.map fun v => 1 - v) := by
  have hne : L ≠ [] := by rintro rfl; simp at hL; omega
  have hne' : L' ≠ [] := by rintro rfl; simp at hL'; omega
  obtain ⟨u, a1, a2, a3, a4, a5⟩ := C39_matrix (F := Exact ℝ) L hne
  obtain ⟨w, b1, b2, b3, b4, b5⟩ := C39_matrix (F := Exact ℝ) L' hne'
  rw [hd] at a1 a3 a5
  rw [hd'] at b1 b3 b5
  have hac : a ≠ c := by
    have := (C39_distinct L).1
    rw [hd] at this
    simpa using this
  refine ⟨u, w, a1, b1, a4, b4, by omega, by omega, a3, b3, fun i hi => ?_⟩
  have hsi := hσ.lt hi
  have hLi : L[i]? = some L[i] := List.getElem?_eq_getElem (by omega)
  have hm : L[i] ∈ distinctElements L := ((C39_distinct L).2.1 _).2 (List.getElem_mem _)
  rw [hd] at hm
  have hrow : ∀ (w : Dense (Exact ℝ)) (l : Nat) (u v : Int), w.WF → l < w.r → w.c = 2 →
      (∀ j < 2, w.at? l j = some (if [u, v][j]? = some L[i] then one else zero)) →
      w.row l = finV [if L[i] = u then 1 else 0, if L[i] = v then 1 else 0] := by
    intro w l u v hw hl hc hat
    apply List.ext_getElem?
    intro j
    by_cases hj : j < 2
    · rw [Dense.row_get hl (by omega), hat j hj]
      match j, hj with
      | 0, _ =>
        by_cases h : L[i] = u
        · simp [h, finV, one1]
        · simp [h, Ne.symm h, finV, zero0]
      | 1, _ =>
        by_cases h : L[i] = v
        · simp [h, finV, one1]
        · simp [h, Ne.symm h, finV, zero0]
    · rw [List.getElem?_eq_none (by rw [Dense.row_length hw hl]; omega), List.getElem?_eq_none (by simp [finV]; omega)]
  refine ⟨[if L[i] = a then 1 else 0, if L[i] = c then 1 else 0], rfl,
    hrow u i a c a4 (by omega) a3 fun j hj => by rw [a5 i j (by omega) (by simpa using hj), hLi], ?_⟩
  rw [hrow w (σ i) c a b4 (by omega) b3 fun j hj => by rw [b5 (σ i) j (by omega) (by simpa using hj), h i hi, hLi]]
  simp only [List.mem_cons, List.not_mem_nil, or_false] at hm
  rcases hm with h | h
  · simp [h, hac]
  · simp [h, Ne.symm hac]

/-- **training on the same rows of two classes in an order in which the classes are met the other way round** -/
theorem flip_model {S S' : GoSort} {draws : Nat → Exact ℝ} {X X' : List (List ℝ)} {L L' : List Int}
    (hl : L.length = X.length) (hl' : L'.length = X'.length) (hp : (X'.zip L').Perm (X.zip L))
    (hrect : ∃ c, ∀ row ∈ X, row.length = c) {a c : Int} (hd : distinctElements L = [a, c])
    (hd' : distinctElements L' = [c, a]) {O : Options (Exact ℝ)} (hO : RealOptions O) {b : ℝ} (hb : O.baseScore = .fin b)
    (hlf : ∀ lv, O.loss = some lv → PackageLoss lv.fn) (hsub : ((O.subSample <. one) && O.xgb) = false)
    {M : MultiClass (Exact ℝ)} (h : newMultiClass expR S draws ⟨finRows X, [], L, []⟩ O = .ok M) :
    ∃ B, newMultiClass expR S' draws ⟨finRows X', [], L', []⟩ O = .ok { M with b := B, classLabels := [c, a] } ∧
      List.Forall₂ (List.Forall₂ NegTree) M.b B := by
  obtain ⟨labels, st, ht, rfl⟩ := newMultiClass_inv h
  obtain ⟨hne, hlab, ohe0, st0, ho0, hr0, hc0, hw0, hinit, hrounds⟩ := train_inv ht
  simp only at hne hlab hr0 hrounds
  rw [hd] at hlab
  subst hlab
  obtain ⟨σ, h1, h2⟩ := perm_index hp
  have e1 : (X.zip L).length = X.length := by rw [List.length_zip]; omega
  have e2 : (X'.zip L').length = X'.length := by rw [List.length_zip]; omega
  rw [e1, e2] at h1
  rw [e1] at h2
  have hlen : X'.length = X.length := by simpa using h1.length_eq
  have hn : 0 < X.length := by rw [← hl]; exact List.length_pos_iff.2 hne
  have h3 := fun w hw => zip_getElem? hl.symm hl'.symm (h2 w hw)
  have hperm : PermOn X.length σ := by rw [hlen] at h1; exact h1
  have hsame : SameRows X.length σ X X' := ⟨hperm, rfl, hlen, fun w hw => (h3 w hw).1, hrect⟩
  obtain ⟨ohe, ohe', o1, o2, w1, w2, r1, r2, c1, c2, ho⟩ := ohe_flip hperm hl (by omega) hn (fun i hi => (h3 i hi).2) hd hd'
  unfold DataBunch.oheLabels at ho0
  simp only at ho0
  rw [o1] at ho0
  simp only [Except.ok.injEq, Prod.mk.injEq, and_true] at ho0
  subst ho0
  obtain ⟨i1, ib, idr, is, inp, ipl, iraw⟩ := trainInit_inv hinit r1 c1
  have hinit' : trainInit (softMaxDense expR) O ohe' 2 draws = .ok st0 := by
    rw [← hinit]
    unfold trainInit
    rw [r1, r2, c1, c2]
    rfl
  have hfix := Options.fixMcw_lr O
  have hO' : RealOptions O.fixMcw := by
    have hfx : ∃ f, O.fixMcw = { O with minChildWeight := f } := by
      unfold Options.fixMcw
      split
      · exact ⟨_, rfl⟩
      · exact ⟨_, rfl⟩
    obtain ⟨f, hf⟩ := hfx
    rw [hf]
    exact ⟨hO.lr, hO.lam, hO.gam⟩
  obtain ⟨st2, f1, f2⟩ := foldlM_rel (P := FlipRel b X.length σ)
    (g := Boo.trainRound (softMaxDense expR) S' (finRows X') O.fixMcw ohe' 2) (b := st0)
    (fun a b a' k _ hP hf => hsame.flipRound hn hO' (by rw [hfix.2.2.2.2.2.2.2.2.1]; exact hlf)
      (by rw [hfix.2.2.2.2.2.2.1, hfix.2.2.2.2.2.1]; exact hsub)
      w1 w2 r1 r2 c1 c2 ho hP hf)
    ⟨i1, i1, fun i hi => ⟨[b, b], rfl, by
        rw [iraw i hi, hb, one1, Exact.mul_fin, mul_one]; rfl, by
        rw [iraw _ (hperm.lt hi), hb, one1, Exact.mul_fin, mul_one]
        simp only [List.map_cons, List.map_nil, two_mul, add_sub_cancel_right]
        rfl⟩, rfl, rfl, rfl, rfl, by rw [ib]; exact .nil⟩ hrounds
  refine ⟨st2.boosters, ?_, f2.b⟩
  unfold newMultiClass train trainWith DataBunch.oheLabels
  have h2l : [c, a].length = 2 := rfl
  simp only [o2, bind, Except.bind, h2l, hinit', f1]
  rfl

end Boo
