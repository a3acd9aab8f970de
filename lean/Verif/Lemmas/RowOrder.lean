import Verif.Props.Invariance

/-!
# Training on the same rows in another order
-/

namespace Boo
open GoFloat
set_option linter.unusedSectionVars false
set_option linter.unusedSimpArgs false

/-- `σ` permutes the numbers below `n`. -/
def PermOn (n : Nat) (σ : Nat → Nat) : Prop := (List.range n).Perm ((List.range n).map σ)

theorem PermOn.lt {n : Nat} {σ : Nat → Nat} (h : PermOn n σ) {i : Nat} (hi : i < n) : σ i < n :=
  List.mem_range.1 (h.mem_iff.2 (List.mem_map_of_mem (List.mem_range.2 hi)))

theorem PermOn.surj {n : Nat} {σ : Nat → Nat} (h : PermOn n σ) {j : Nat} (hj : j < n) : ∃ i < n, σ i = j := by
  obtain ⟨i, hi, rfl⟩ := List.mem_map.1 (h.mem_iff.1 (List.mem_range.2 hj))
  exact ⟨i, List.mem_range.1 hi, rfl⟩

theorem map_range_getElem? {α : Type} (l : List α) : (List.range l.length).map (fun i => l[i]?) = l.map some := by
  apply List.ext_getElem?
  intro i
  rw [List.getElem?_map, List.getElem?_map]
  by_cases hi : i < l.length
  · rw [List.getElem?_range hi, Option.map_some, List.getElem?_eq_getElem hi, Option.map_some]
  · rw [List.getElem?_eq_none (by simpa using hi), List.getElem?_eq_none (by simpa using hi)]
    rfl

theorem perm_of_sigma {α : Type} {n : Nat} {σ : Nat → Nat} (h : PermOn n σ) {l1 l2 : List α} (h1 : l1.length = n)
    (h2 : l2.length = n) (hs : ∀ i < n, l2[σ i]? = l1[i]?) : l2.Perm l1 := by
  have e1 := map_range_getElem? l1
  have e2 := map_range_getElem? l2
  rw [h1] at e1
  rw [h2] at e2
  have : (l2.map some).Perm (l1.map some) := by
    rw [← e1, ← e2]
    refine (h.map _).trans (List.Perm.of_eq ?_)
    rw [List.map_map]
    exact List.map_congr_left fun i hi => hs i (List.mem_range.1 hi)
  have h3 := this.filterMap id
  simpa [List.filterMap_map] using h3

theorem zipWith_sigma {α β γ : Type} {n : Nat} {σ : Nat → Nat} {f : α → β → γ} {a1 a2 : List α} {b1 b2 : List β}
    (ha : ∀ i < n, a2[σ i]? = a1[i]?) (hb : ∀ i < n, b2[σ i]? = b1[i]?) :
    ∀ i < n, (List.zipWith f a2 b2)[σ i]? = (List.zipWith f a1 b1)[i]? := by
  intro i hi
  rw [List.getElem?_zipWith, List.getElem?_zipWith, ha i hi, hb i hi]

section
variable {K : Type} [Field K] [LinearOrder K] [IsStrictOrderedRing K] [FloorRing K]

/-- A loss whose gradients, and hessian, belong to the rows, and whose value does not depend on their order. -/
structure LossFunc.RowWise (f : LossFunc (Exact K)) : Prop where
  loss : ∀ (n : Nat) (σ : Nat → Nat) (y p y' p' : List (Exact K)), PermOn n σ → y.length = n → p.length = n → y'.length = n →
    p'.length = n → (∀ i < n, y'[σ i]? = y[i]?) → (∀ i < n, p'[σ i]? = p[i]?) → f.loss y' p' = f.loss y p
  neg : ∀ (n : Nat) (σ : Nat → Nat) (y p y' p' g : List (Exact K)), PermOn n σ → y.length = n → p.length = n → y'.length = n →
    p'.length = n → (∀ i < n, y'[σ i]? = y[i]?) → (∀ i < n, p'[σ i]? = p[i]?) → f.negGradients y p = .ok g →
    ∃ g', f.negGradients y' p' = .ok g' ∧ g.length = n ∧ g'.length = n ∧ ∀ i < n, g'[σ i]? = g[i]?
  grad : ∀ (n : Nat) (σ : Nat → Nat) (y p y' p' g : List (Exact K)), PermOn n σ → y.length = n → p.length = n → y'.length = n →
    p'.length = n → (∀ i < n, y'[σ i]? = y[i]?) → (∀ i < n, p'[σ i]? = p[i]?) → f.gradients y p = .ok g →
    ∃ g', f.gradients y' p' = .ok g' ∧ g.length = n ∧ g'.length = n ∧ ∀ i < n, g'[σ i]? = g[i]?
  hess : ∀ (n : Nat) (σ : Nat → Nat) (p p' : List (Exact K)), PermOn n σ → p.length = n → p'.length = n →
    (∀ i < n, p'[σ i]? = p[i]?) → (f.hessian p).length = n ∧ (f.hessian p').length = n ∧
      ∀ i < n, (f.hessian p')[σ i]? = (f.hessian p)[i]?

theorem subV_sigma {n : Nat} {σ : Nat → Nat} {y p y' p' : List (Exact K)} (hy : y.length = n) (hp : p.length = n)
    (hy' : y'.length = n) (hp' : p'.length = n) (h1 : ∀ i < n, y'[σ i]? = y[i]?) (h2 : ∀ i < n, p'[σ i]? = p[i]?) :
    ∃ g g', subV y p = .ok g ∧ subV y' p' = .ok g' ∧ g.length = n ∧ g'.length = n ∧ ∀ i < n, g'[σ i]? = g[i]? := by
  refine ⟨_, _, if_neg (by omega), if_neg (by omega), by simp; omega, by simp; omega, zipWith_sigma h1 h2⟩

theorem rowWise_of_hessian {f : LossFunc (Exact K)} (hl : f.loss = mseLossVal) (hn : f.negGradients = negGrad)
    (hg : f.gradients = grad) (φ : Exact K → Exact K) (hh : f.hessian = fun p => p.map φ) : f.RowWise := by
  refine ⟨?_, ?_, ?_, ?_⟩
  · intro n σ y p y' p' hs hy hp hy' hp' h1 h2
    obtain ⟨g, g', e1, e2, l1, l2, h3⟩ := subV_sigma hy hp hy' hp' h1 h2
    rw [hl]
    unfold mseLossVal
    rw [e1, e2]
    simp only [bind, Except.bind, pure, Except.pure, List.length_map, l1, l2]
    have hperm : (g'.map fun v => v *. v).Perm (g.map fun v => v *. v) := (perm_of_sigma hs l1 l2 h3).map _
    have := hperm.foldl_eq (rcomm := addRC) (zero : Exact K)
    rw [this]
  · intro n σ y p y' p' g hs hy hp hy' hp' h1 h2 h
    rw [hn] at h ⊢
    obtain ⟨g1, g', e1, e2, l1, l2, h3⟩ := subV_sigma hy hp hy' hp' h1 h2
    unfold negGrad at h ⊢
    rw [e1] at h
    obtain rfl := Except.ok.inj h
    exact ⟨g', e2, l1, l2, h3⟩
  · intro n σ y p y' p' g hs hy hp hy' hp' h1 h2 h
    rw [hg] at h ⊢
    obtain ⟨g1, g', e1, e2, l1, l2, h3⟩ := subV_sigma hy hp hy' hp' h1 h2
    unfold grad negGrad at h ⊢
    rw [e1] at h
    rw [e2]
    obtain rfl := Except.ok.inj h
    refine ⟨_, rfl, by simp [l1], by simp [l2], fun i hi => ?_⟩
    simp only [List.getElem?_map, h3 i hi]
  · intro n σ p p' hs hp hp' h
    rw [hh]
    exact ⟨by simp [hp], by simp [hp'], fun i hi => by simp only [List.getElem?_map, h i hi]⟩

theorem sqErrLoss_rowWise : (sqErrLoss : LossFunc (Exact K)).RowWise :=
  rowWise_of_hessian rfl rfl rfl (fun _ => one) rfl

theorem mseLoss_rowWise : (mseLoss : LossFunc (Exact K)).RowWise :=
  rowWise_of_hessian rfl rfl rfl (fun v => (one -. v) *. v) rfl

/-! ### values of the leaves -/

theorem leafSums_map {g1 g2 h1 h2 : List (Exact K)} {σ : Nat → Nat} (hg : ∀ w < g1.length, g2[σ w]? = g1[w]?)
    (hh : ∀ w < g1.length, h2[σ w]? = h1[w]?) (ws : List Nat) (a b : Exact K) (r : Exact K × Exact K)
    (h : leafSums g1 h1 ws a b = .ok r) : leafSums g2 h2 (ws.map σ) a b = .ok r := by
  induction ws generalizing a b with
  | nil => exact h
  | cons w ws ih =>
    unfold leafSums at h
    rw [List.map_cons]
    unfold leafSums
    by_cases hw : w < g1.length
    · rw [hg w hw, hh w hw]
      cases e1 : h1[w]? with
      | none => rw [e1] at h; cases h
      | some x =>
        cases e2 : g1[w]? with
        | none => rw [e1, e2] at h; cases h
        | some y =>
          rw [e1, e2] at h
          exact ih _ _ h
    · rw [List.getElem?_eq_none (l := g1) (by omega)] at h
      cases e1 : h1[w]? <;> rw [e1] at h <;> cases h

theorem leafSums_perm {g h : List (Exact K)} {ws ws' : List Nat} (hp : ws.Perm ws') (a b : Exact K) (r : Exact K × Exact K)
    (h1 : leafSums g h ws a b = .ok r) : leafSums g h ws' a b = .ok r := by
  induction hp generalizing a b with
  | nil => exact h1
  | cons w _ ih =>
    unfold leafSums at h1 ⊢
    cases e1 : h[w]? <;> cases e2 : g[w]? <;> rw [e1, e2] at h1
    · cases h1
    · cases h1
    · cases h1
    · exact ih _ _ h1
  | swap w w' l =>
    unfold leafSums at h1 ⊢
    cases e1 : h[w']? <;> cases e2 : g[w']? <;> rw [e1, e2] at h1
    · cases h1
    · cases h1
    · cases h1
    · simp only at h1
      unfold leafSums at h1
      cases e3 : h[w]? <;> cases e4 : g[w]? <;> rw [e3, e4] at h1
      · cases h1
      · cases h1
      · cases h1
      · simp only at h1 ⊢
        unfold leafSums
        rw [e1, e2]
        simp only
        rw [addRC.right_comm, addRC.right_comm b] 
        exact h1
  | trans _ _ ih1 ih2 => exact ih2 a b (ih1 a b h1)

theorem TreeRel.updateLeavesPerm {σ : Nat → Nat} {φ : Nat → K → K} {X1 : List (List K)} {g1 g2 h1 h2 : List (Exact K)}
    (hg : ∀ w < g1.length, g2[σ w]? = g1[w]?) (hh : ∀ w < g1.length, h2[σ w]? = h1[w]?)
    {t1 t2 t1' : Tree (Exact K)} (h : TreeRel σ φ False X1 t1 t2) (hu : Boo.updateLeaves g1 h1 t1 = .ok t1') :
    ∃ t2', Boo.updateLeaves g2 h2 t2 = .ok t2' ∧ TreeRel σ φ False X1 t1' t2' ∧ t1'.rootSamples = t1.rootSamples := by
  induction t1 generalizing t2 t1' with
  | nil => cases t2 with
    | nil => exact ⟨.nil, rfl, by rw [← Except.ok.inj hu]; trivial, by rw [← Except.ok.inj hu]⟩
    | node => exact absurd h (by simp [TreeRel])
  | node i l r ihl ihr =>
    cases t2 with
    | nil => exact absurd h (by simp [TreeRel])
    | node i' l' r' =>
      obtain ⟨k0, k1, k2, k3, k4, k5, k6, k7, k8, k9, hl, hr⟩ := h
      unfold Boo.updateLeaves at hu ⊢
      obtain ⟨l1, hl1, hu⟩ := bind_ok hu
      obtain ⟨r1, hr1, hu⟩ := bind_ok hu
      obtain ⟨l2, el, rl, sl⟩ := ihl hl hl1
      obtain ⟨r2, er, rr, sr⟩ := ihr hr hr1
      rw [el, er]
      simp only [bind, Except.bind]
      rw [TreeRel.leaf k2 k7]
      cases hlf : i.leaf with
      | false =>
        rw [hlf] at hu
        simp only [Bool.false_eq_true, if_false] at hu ⊢
        obtain rfl := Except.ok.inj hu
        refine ⟨_, rfl, ⟨k0, k1, k2, k3, k4, k5, k6, k7, k8, ?_, rl, rr⟩, rfl⟩
        rcases k9 with ⟨h, _⟩ | ⟨hcut, hc, hsp⟩
        · rw [hlf] at h; cases h
        · refine Or.inr ⟨hcut, hc, fun _ => ?_⟩
          rw [sl, sr]
          exact hsp hlf
      | true =>
        rw [hlf] at hu
        simp only [if_true] at hu ⊢
        obtain ⟨i1, hi1, hu⟩ := bind_ok hu
        obtain rfl := Except.ok.inj hu
        unfold updateLeaf at hi1 ⊢
        obtain ⟨⟨sh, sg⟩, e1, e2⟩ := bind_ok hi1
        have e3 := leafSums_perm k0.symm _ _ _ (leafSums_map hg hh _ _ _ _ e1)
        rw [e3]
        simp only [bind, Except.bind, pure, Except.pure] at e2 ⊢
        obtain rfl := Except.ok.inj e2
        refine ⟨_, rfl, ⟨k0, k1, k2, rfl, k4, k5, k6, k7, k8, ?_, rl, rr⟩, rfl⟩
        rcases k9 with ⟨h, h', hln, hrn⟩ | ⟨hcut, hc, hsp⟩
        · subst hln; subst hrn
          obtain rfl := Except.ok.inj hl1
          obtain rfl := Except.ok.inj hr1
          exact Or.inl ⟨hlf, h', rfl, rfl⟩
        · refine Or.inr ⟨hcut, hc, fun h => ?_⟩
          have h' : i.leaf = false := h
          rw [hlf] at h'; cases h'

/-! ### trees on permuted rows -/

/-- two data sets with the same rows, and the same number of values in each row -/
structure SameRows (n : Nat) (σ : Nat → Nat) (X X' : List (List K)) : Prop where
  perm : PermOn n σ
  len : X.length = n
  len' : X'.length = n
  rows : ∀ w < n, X'[σ w]? = X[w]?
  rect : ∃ c, ∀ row ∈ X, row.length = c

theorem SameRows.first {n : Nat} {σ : Nat → Nat} {X X' : List (List K)} (h : SameRows n σ X X') :
    (X'[0]?).map List.length = (X[0]?).map List.length := by
  obtain ⟨c, hc⟩ := h.rect
  have h1 := h.len
  have h2 := h.len'
  cases h0 : X[0]? with
  | none =>
    have : X'[0]? = none := by
      rw [List.getElem?_eq_none_iff] at h0 ⊢; omega
    rw [this]
  | some row =>
    have hn := (List.getElem?_eq_some_iff.1 h0).1
    obtain ⟨i, hi, he⟩ := h.perm.surj (j := 0) (by omega)
    have h3 := h.rows i hi
    rw [he] at h3
    have h4 : X[i]? = some X[i] := List.getElem?_eq_getElem (by omega)
    rw [h3, h4, Option.map_some, Option.map_some, hc _ (List.getElem_mem _), hc row (List.mem_of_getElem? h0)]

theorem SameRows.corr {n : Nat} {σ : Nat → Nat} {X X' : List (List K)} (h : SameRows n σ X X') {o o' : TreeOptions (Exact K)}
    (hxgb : o'.xgb = o.xgb)
    (hm : o'.minChildWeight = o.minChildWeight) (hla : o'.lambda = o.lambda) (hga : o'.gamma = o.gamma)
    (hc : o'.allowedColumns = o.allowedColumns)
    (hg : (o'.gradients.isNone && o'.hessian.isNone) = (o.gradients.isNone && o.hessian.isNone))
    (hi : o.indexes = none) (hi' : o'.indexes = none) (hs : o'.scratch = o.scratch)
    (hlA : (tgtA o').length = (tgtA o).length) (hlB : (tgtB o').length = (tgtB o).length)
    (hA : ∀ w < n, (tgtA o')[σ w]? = (tgtA o)[w]?) (hB : ∀ w < n, (tgtB o')[σ w]? = (tgtB o)[w]?) :
    Corr σ (fun _ => id) (fun _ => Set.univ) False X X' o o' := by
  have hidx : o.idx (finRows X) = List.range n := by
    unfold TreeOptions.idx; rw [hi]; simp [finRows, h.len]
  have hidx' : o'.idx (finRows X') = List.range n := by
    unfold TreeOptions.idx; rw [hi']; simp [finRows, h.len']
  refine ⟨hxgb, hm, hla, hga, hc, hg, ?_, ?_, fun h => h.elim, hlA, hlB, ?_, ?_, ?_, fun _ _ _ _ _ _ _ => trivial, h.first,
    fun _ => strictMono_id.strictMonoOn _⟩
  · unfold TreeOptions.fill
    rw [hs]
    simp [finRows, h.len, h.len', hi, hi']
  · rw [hidx, hidx']; exact h.perm
  · intro w hw; rw [hidx, List.mem_range] at hw; exact hA w hw
  · intro w hw; rw [hidx, List.mem_range] at hw; exact hB w hw
  · intro w hw
    rw [hidx, List.mem_range] at hw
    rw [h.rows w hw]
    cases X[w]? with
    | none => rfl
    | some row =>
      simp only [Option.map_some, Option.some.injEq]
      apply List.ext_getElem?
      intro i
      simp

/-- two trees that a user cannot tell apart -/
def SameTree (t1 t2 : Tree (Exact K)) : Prop :=
  (∀ row, t2.predictSingle row = t1.predictSingle row) ∧ ∀ S g, t2.featImp S g = t1.featImp S g

theorem TreeRel.sameTree {σ : Nat → Nat} {e : Prop} {X : List (List K)} {t1 t2 : Tree (Exact K)}
    (h : TreeRel σ (fun _ => id) e X t1 t2) : SameTree t1 t2 :=
  ⟨fun row => h.predict_same row, fun S g => h.featImp S g⟩

theorem SameRows.classTree {n : Nat} {σ : Nat → Nat} {X X' : List (List K)} (h : SameRows n σ X X') {S S' : GoSort}
    {O : Options (Exact K)} {lf : LossFunc (Exact K)} (hlf : lf.RowWise) {cols : List Nat} {y p y' p' : List (Exact K)}
    (hy : y.length = n) (hp : p.length = n) (hy' : y'.length = n) (hp' : p'.length = n)
    (h1 : ∀ i < n, y'[σ i]? = y[i]?) (h2 : ∀ i < n, p'[σ i]? = p[i]?) {t : Tree (Exact K)}
    (ht : Boo.classTree S (finRows X) O lf none cols y p = .ok t) :
    ∃ t', Boo.classTree S' (finRows X') O lf none cols y' p' = .ok t' ∧ SameTree t t' := by
  have hlen : (finRows X').length = (finRows X).length := by simp [finRows, h.len, h.len']
  unfold Boo.classTree at ht ⊢
  obtain ⟨k1, k2, k3⟩ := hlf.hess n σ p p' h.perm hp hp' h2
  cases hx : O.xgb with
  | true =>
    rw [hx] at ht
    simp only [if_true] at ht ⊢
    obtain ⟨g, hg, ht⟩ := bind_ok ht
    obtain ⟨g', e1, e2, e3, e4⟩ := hlf.grad n σ y p y' p' g h.perm hy hp hy' hp' h1 h2 hg
    rw [e1]
    simp only [bind, Except.bind]
    rw [hlen]
    unfold newTree at ht ⊢
    obtain ⟨t', q1, q2, _⟩ := (h.corr (o := { (defaultXTreeOptions : TreeOptions (Exact K)) with
      minChildWeight := O.minChildWeight, maxDepth := O.maxDepth, lambda := O.lambda,
      gamma := O.gamma, indexes := none, allowedColumns := cols, gradients := some g,
      hessian := some (lf.hessian p), y := y, scratch := some (finRows X).length })
      (o' := { (defaultXTreeOptions : TreeOptions (Exact K)) with
      minChildWeight := O.minChildWeight, maxDepth := O.maxDepth, lambda := O.lambda,
      gamma := O.gamma, indexes := none, allowedColumns := cols, gradients := some g',
      hessian := some (lf.hessian p'), y := y', scratch := some (finRows X).length })
      rfl rfl rfl rfl rfl rfl rfl rfl rfl
      (by simp only [Boo.tgtA, defaultXTreeOptions, if_true, Option.getD_some]; omega)
      (by simp only [Boo.tgtB, defaultXTreeOptions, if_true, Option.getD_some]; omega)
      (fun w hw => by simpa only [Boo.tgtA, defaultXTreeOptions, if_true, Option.getD_some] using e4 w hw)
      (fun w hw => by simpa only [Boo.tgtB, defaultXTreeOptions, if_true, Option.getD_some] using k3 w hw)).tree (S2 := S') _ ht
    exact ⟨t', q1, q2.sameTree⟩
  | false =>
    rw [hx] at ht
    simp only [Bool.false_eq_true, if_false] at ht ⊢
    obtain ⟨g, hg, ht⟩ := bind_ok ht
    obtain ⟨t0, ht0, ht⟩ := bind_ok ht
    obtain ⟨g', e1, e2, e3, e4⟩ := hlf.neg n σ y p y' p' g h.perm hy hp hy' hp' h1 h2 hg
    rw [e1]
    simp only [bind, Except.bind]
    rw [hlen]
    unfold newTree at ht0 ⊢
    obtain ⟨t0', q1, q2, _⟩ := (h.corr (o := { (defaultGTreeOptions : TreeOptions (Exact K)) with
      scratch := some (finRows X).length, minChildWeight := O.minChildWeight, maxDepth := O.maxDepth,
      y := g, gradients := none, hessian := none })
      (o' := { (defaultGTreeOptions : TreeOptions (Exact K)) with
      scratch := some (finRows X).length, minChildWeight := O.minChildWeight, maxDepth := O.maxDepth,
      y := g', gradients := none, hessian := none })
      rfl rfl rfl rfl rfl rfl rfl rfl rfl
      (by simp only [Boo.tgtA, defaultGTreeOptions, Bool.false_eq_true, if_false]; omega)
      (by simp only [Boo.tgtB, defaultGTreeOptions, Bool.false_eq_true, if_false]; omega)
      (fun w hw => by simpa only [Boo.tgtA, defaultGTreeOptions, Bool.false_eq_true, if_false] using e4 w hw)
      (fun w hw => by simpa only [Boo.tgtB, defaultGTreeOptions, Bool.false_eq_true, if_false] using e4 w hw)).tree
        (S2 := S') _ ht0
    obtain ⟨t', r1, r2, _⟩ := q2.updateLeavesPerm (g2 := g') (h2 := lf.hessian p') (fun w hw => e4 w (by omega))
      (fun w hw => k3 w (by omega)) ht
    rw [q1]
    exact ⟨t', r1, r2.sameTree⟩

/-! ### training -/

/-- two states of training whose rows correspond -/
structure RowsRel (exp : Exact K → Exact K) (n m : Nat) (σ : Nat → Nat) (s1 s2 : TrainState (Exact K)) : Prop where
  i1 : TInv exp n m s1
  i2 : TInv exp n m s2
  raw : ∀ i < n, s2.rawPred.row (σ i) = s1.rawPred.row i
  stopped : s2.stopped = s1.stopped
  noProgress : s2.noProgress = s1.noProgress
  prevloss : s2.prevloss = s1.prevloss
  draws : s2.draws = s1.draws
  b : List.Forall₂ (List.Forall₂ SameTree) s1.boosters s2.boosters

theorem RowsRel.probs {exp : Exact K → Exact K} {n m : Nat} {σ : Nat → Nat} {s1 s2 : TrainState (Exact K)} (hσ : PermOn n σ)
    (h : RowsRel exp n m σ s1 s2) : ∀ i < n, s2.probs.row (σ i) = s1.probs.row i := by
  intro i hi
  have h1 := h.i1.soft i hi
  have h2 := h.i2.soft (σ i) (hσ.lt hi)
  rw [h.raw i hi, h1] at h2
  exact (Except.ok.inj h2).symm

theorem denseCol_sigma {n m : Nat} {σ : Nat → Nat} (hσ : PermOn n σ) (hn : 0 < n) {D1 D2 : Dense (Exact K)} (w1 : D1.WF) (w2 : D2.WF)
    (r1 : D1.r = n) (r2 : D2.r = n) (c1 : D1.c = m) (c2 : D2.c = m) (h : ∀ i < n, D2.row (σ i) = D1.row i) {k : Nat} (hk : k < m) :
    ∃ l1 l2, denseCol D1 k = .ok l1 ∧ denseCol D2 k = .ok l2 ∧ l1.length = n ∧ l2.length = n ∧ ∀ i < n, l2[σ i]? = l1[i]? := by
  obtain ⟨l1, a1, a2, a3⟩ := denseCol_spec w1 (by omega) (col := k) (by omega)
  obtain ⟨l2, b1, b2, b3⟩ := denseCol_spec w2 (by omega) (col := k) (by omega)
  refine ⟨l1, l2, a1, b1, by omega, by omega, fun i hi => ?_⟩
  have := hσ.lt hi
  rw [a3 i (by omega), b3 (σ i) (by omega), ← Dense.row_get (by omega) (by omega), ← Dense.row_get (by omega) (by omega), h i hi]

theorem earlyStopping_fields {F : Type} [GoFloat F] (O : Options F) (round k : Nat) (l l' : F) (s1 s2 : TrainState F)
    (hl : O.earlyStop > 0 → l' = l)
    (h1 : s2.stopped = s1.stopped) (h2 : s2.noProgress = s1.noProgress) (h3 : s2.prevloss = s1.prevloss) :
    (earlyStopping O round k l' s2).stopped = (earlyStopping O round k l s1).stopped ∧
    (earlyStopping O round k l' s2).noProgress = (earlyStopping O round k l s1).noProgress ∧
    (earlyStopping O round k l' s2).prevloss = (earlyStopping O round k l s1).prevloss := by
  unfold earlyStopping
  by_cases he : O.earlyStop > 0
  · rw [if_pos he, if_pos he, hl he]
    split
    · simp [h1, h2, h3]
    · split
      · simp [h1, h2, h3]
      · simp only [h1, h2, h3, and_self]
  · rw [if_neg he, if_neg he]
    exact ⟨h1, h2, h3⟩

theorem tinv_predict {n : Nat} {X : List (List K)} (hX : X.length = n) {t : Tree (Exact K)} {buf : List (Exact K)}
    (hb : buf.length = n) {preds : List (Exact K)} (h : t.predict (finRows X) (some buf) = .ok preds) :
    List.Forall₂ (fun row v => t.predictSingle row = .ok v) (finRows X) preds := by
  obtain ⟨h1, vs, h2, h3⟩ := (C13_predict_buffer t (finRows X) buf preds).1 h
  have : buf.drop (finRows X).length = [] := by
    rw [List.drop_eq_nil_iff]; simp [finRows]; omega
  rw [this, List.append_nil] at h3
  rw [h3]
  exact h2

theorem SameRows.predict {n : Nat} {σ : Nat → Nat} {X X' : List (List K)} (h : SameRows n σ X X') {t t' : Tree (Exact K)}
    (ht : SameTree t t') {buf buf' : List (Exact K)} (hb : buf.length = n) (hb' : buf'.length = n) {preds : List (Exact K)}
    (hp : t.predict (finRows X) (some buf) = .ok preds) :
    ∃ preds', t'.predict (finRows X') (some buf') = .ok preds' ∧ preds.length = n ∧ preds'.length = n ∧
      ∀ i < n, preds'[σ i]? = preds[i]? := by
  have h1 := tinv_predict h.len hb hp
  have hl := h1.length_eq
  have hfl : (finRows X).length = n := by simp [finRows, h.len]
  have hfl' : (finRows X').length = n := by simp [finRows, h.len']
  have hfr : ∀ w < n, (finRows X')[σ w]? = (finRows X)[w]? := by
    intro w hw
    simp only [finRows, List.getElem?_map, h.rows w hw]
  have hall : ∀ row ∈ finRows X', ∃ v, t'.predictSingle row = .ok v := by
    intro row hr
    obtain ⟨j, hj⟩ := List.mem_iff_getElem?.1 hr
    have hjl := (List.getElem?_eq_some_iff.1 hj).1
    obtain ⟨i, hi, rfl⟩ := h.perm.surj (j := j) (by omega)
    rw [hfr i hi] at hj
    rcases forall2_get h1 i with ⟨a, b, e1, e2, e3⟩ | ⟨e, _⟩
    · rw [hj] at e1
      cases e1
      exact ⟨b, by rw [ht.1]; exact e3⟩
    · rw [hj] at e; cases e
  have hex : ∀ l : List (List (Exact K)), (∀ row ∈ l, ∃ v, t'.predictSingle row = .ok v) →
      ∃ vs, List.Forall₂ (fun row v => t'.predictSingle row = .ok v) l vs := by
    intro l
    induction l with
    | nil => exact fun _ => ⟨[], .nil⟩
    | cons a l ih =>
      intro hl
      obtain ⟨v, hv⟩ := hl a (by simp)
      obtain ⟨vs, hvs⟩ := ih fun row hr => hl row (by simp [hr])
      exact ⟨v :: vs, .cons hv hvs⟩
  obtain ⟨vs, hvs⟩ := hex _ hall
  have hd : buf'.drop (finRows X').length = [] := by
    rw [List.drop_eq_nil_iff]; omega
  refine ⟨vs, (C13_predict_buffer t' _ buf' vs).2 ⟨by omega, vs, hvs, by rw [hd, List.append_nil]⟩, by omega,
    by rw [← hvs.length_eq]; exact hfl', fun i hi => ?_⟩
  rcases forall2_get hvs (σ i) with ⟨a, b, e1, e2, e3⟩ | ⟨e, _⟩
  · rw [hfr i hi] at e1
    rcases forall2_get h1 i with ⟨a', b', f1, f2, f3⟩ | ⟨f, _⟩
    · rw [e1] at f1
      cases f1
      rw [ht.1, f3] at e3
      rw [e2, f2, Except.ok.inj e3]
    · rw [e1] at f; cases f
  · have := h.perm.lt hi
    rw [List.getElem?_eq_none_iff] at e; omega

theorem SameRows.trainClass {n m : Nat} {σ : Nat → Nat} {X X' : List (List K)} (h : SameRows n σ X X') (hn : 0 < n)
    {exp : Exact K → Exact K} {S S' : GoSort} {O : Options (Exact K)} (hlf : ∀ lv, O.loss = some lv → lv.fn.RowWise ∧ lv.fn.Regular)
    {ohe ohe' : Dense (Exact K)} (w1 : ohe.WF) (w2 : ohe'.WF) (r1 : ohe.r = n) (r2 : ohe'.r = n) (c1 : ohe.c = m) (c2 : ohe'.c = m)
    (ho : ∀ i < n, ohe'.row (σ i) = ohe.row i) {cols : List Nat} {round k : Nat} (hk : k < m)
    {a1 a2 a1' : TrainState (Exact K) × List (Tree (Exact K))} (hR : RowsRel exp n m σ a1.1 a2.1)
    (hT : List.Forall₂ SameTree a1.2 a2.2)
    (hc : Boo.trainClass (softMaxDense exp) S (finRows X) O ohe none cols round a1 k = .ok a1') :
    ∃ a2', Boo.trainClass (softMaxDense exp) S' (finRows X') O ohe' none cols round a2 k = .ok a2' ∧
      RowsRel exp n m σ a1'.1 a2'.1 ∧ List.Forall₂ SameTree a1'.2 a2'.2 := by
  obtain ⟨hs, rfl⟩ | ⟨hs, tree, ht, ⟨s⟩⟩ := trainClass_inv hc
  · refine ⟨a2, ?_, hR, hT⟩
    unfold Boo.trainClass
    simp only
    rw [hR.stopped, if_pos hs]
    rfl
  · have hfl : (finRows X).length = n := by simp [finRows, h.len]
    have hfl' : (finRows X').length = n := by simp [finRows, h.len']
    obtain ⟨y, y', ey, ey', ly, ly', hy⟩ := denseCol_sigma h.perm hn w1 w2 r1 r2 c1 c2 ho hk
    obtain ⟨p, p', ep, ep', lp, lp', hp⟩ := denseCol_sigma h.perm hn hR.i1.probsWF hR.i2.probsWF hR.i1.probsR hR.i2.probsR
      hR.i1.probsC hR.i2.probsC (hR.probs h.perm) hk
    obtain rfl : s.y = y := Except.ok.inj (s.hy.symm.trans ey)
    obtain rfl : s.p = p := Except.ok.inj (s.hp.symm.trans ep)
    obtain ⟨hrow, hreg⟩ := hlf s.lv s.hlv
    obtain ⟨t', et, hst⟩ := h.classTree (S' := S') hrow ly lp ly' lp' hy hp s.htree
    obtain ⟨preds', epr, lpr, lpr', hpr⟩ := h.predict hst hR.i1.tmp hR.i2.tmp s.hpreds
    obtain ⟨raw', eraw, rr, rc, rw', rne, req⟩ := addToCol_spec hR.i2.rawWF (col := k) (by rw [hR.i2.rawC]; exact hk)
      (preds'.map fun v => v *. O.learningRate) (by rw [List.length_map, lpr', hR.i2.rawR])
    obtain ⟨probs', epb, pr, pc, pw, psoft⟩ := C24_dense exp raw' rw' (some a2.1.probs) (by
      rintro d hd; cases hd
      exact ⟨by rw [hR.i2.probsR, rr, hR.i2.rawR], by rw [hR.i2.probsC, rc, hR.i2.rawC], hR.i2.probsWF⟩)
    -- the loss
    have hcur : ∃ l', (if O.earlyStop > 0 ∨ O.verbose = true then do
          let kp ← denseCol probs' k
          s.lv.fn.loss y' kp
        else pure zero : Go (Exact K)) = .ok l' := by
      by_cases he : O.earlyStop > 0 ∨ O.verbose = true
      · rw [if_pos he]
        obtain ⟨kp, e1, e2, _⟩ := denseCol_spec pw (by rw [pr, rr, hR.i2.rawR]; exact hn) (col := k)
          (by rw [pc, rc, hR.i2.rawC]; exact hk)
        obtain ⟨v, hv⟩ := hreg.loss y' kp (by rw [ly', e2, pr, rr, hR.i2.rawR]) (by
          intro h0; rw [h0] at ly'; simp at ly'; omega)
        exact ⟨v, by rw [e1]; exact hv⟩
      · exact ⟨zero, by rw [if_neg he]; rfl⟩
    obtain ⟨l', hl'⟩ := hcur
    have hrun : Boo.trainClass (softMaxDense exp) S' (finRows X') O ohe' none cols round a2 k =
        .ok (earlyStopping O round k l' { a2.1 with
          rawPred := raw', probs := probs', tmpPreds := preds'.map fun v => v *. O.learningRate }, a2.2 ++ [t']) := by
      unfold Boo.trainClass
      simp only
      have hs2 : a2.1.stopped.getD k false = false := by rw [hR.stopped]; exact hs
      rw [hs2, ey', ep']
      simp only [Bool.false_eq_true, if_false, bind, Except.bind, s.hlv, et, epr, eraw, epb]
      by_cases he : O.earlyStop > 0 ∨ O.verbose = true
      · rw [if_pos he] at hl' ⊢
        obtain ⟨kp, f1, f2⟩ := bind_ok hl'
        rw [f1]
        simp only [f2]
        rfl
      · rw [if_neg he] at hl' ⊢
        obtain rfl := Except.ok.inj hl'
        rfl
    have hc2 := trainClass_inv hrun
    obtain ⟨hs', _⟩ | ⟨_, tree', ht', ⟨s'⟩⟩ := hc2
    · rw [hR.stopped, hs] at hs'; cases hs'
    obtain rfl : t' = tree' := by
      have := List.append_cancel_left ht'
      simpa using this
    obtain ⟨j1, j2, j3, j4⟩ := s.inv hR.i1 hfl hk
    obtain ⟨j1', j2', j3', j4'⟩ := s'.inv hR.i2 hfl' hk
    have hraw' : ∀ i < n, (earlyStopping O round k l' { a2.1 with
          rawPred := raw', probs := probs', tmpPreds := preds'.map fun v => v *. O.learningRate }).rawPred.row (σ i) =
        a1'.1.rawPred.row i := by
      intro i hi
      have hsi := h.perm.lt hi
      have e1 : (finRows X)[i]? = some (finRows X)[i] := List.getElem?_eq_getElem (by omega)
      have e2 : (finRows X')[σ i]? = some (finRows X)[i] := by
        rw [← e1]; simp only [finRows, List.getElem?_map, h.rows i hi]
      obtain ⟨v, d, q1, q2, q3⟩ := j4 i _ e1
      obtain ⟨v', d', q1', q2', q3'⟩ := j4' (σ i) _ e2
      rw [hR.raw i hi] at q2' q3'
      rw [hst.1, q1] at q1'
      rw [q2] at q2'
      obtain rfl := Except.ok.inj q1'
      cases q2'
      rw [q3, q3']
    have hloss : O.earlyStop > 0 → l' = s.loss := by
      intro he
      obtain ⟨kp, e1, e2⟩ := s.hloss he
      obtain ⟨kp', e1', e2'⟩ := s'.hloss he
      rw [if_pos (Or.inl he)] at hl'
      obtain ⟨kp'', f1, f2⟩ := bind_ok hl'
      have i2' := (s.inv hR.i1 hfl hk).1
      obtain ⟨E1, E2, _, _⟩ := earlyStopping_raw O round k s.loss
        { a1.1 with rawPred := s.raw, probs := s.probs, tmpPreds := s.preds.map fun v => v *. O.learningRate }
      rw [← s.hst] at E1 E2
      obtain ⟨E1', E2', _, _⟩ := earlyStopping_raw O round k l' { a2.1 with
          rawPred := raw', probs := probs', tmpPreds := preds'.map fun v => v *. O.learningRate }
      simp only at E1 E2 E1' E2'
      have hprobs : ∀ i < n, probs'.row (σ i) = s.probs.row i := by
        intro i hi
        have g1 := j1.soft i hi
        have g2 := j1'.soft (σ i) (h.perm.lt hi)
        rw [hraw' i hi, g1] at g2
        rw [← E2, ← E2']
        exact (Except.ok.inj g2).symm
      obtain ⟨k1, k2, f3, f4, f5, f6, f7⟩ := denseCol_sigma h.perm hn (E2 ▸ j1.probsWF) pw (E2 ▸ j1.probsR)
        (by rw [pr, rr, hR.i2.rawR]) (E2 ▸ j1.probsC) (by rw [pc, rc, hR.i2.rawC]) hprobs hk
      rw [e1] at f3
      rw [f1] at f4
      obtain rfl := Except.ok.inj f3
      obtain rfl := Except.ok.inj f4
      have := hrow.loss n σ s.y kp y' kp'' h.perm ly f5 ly' f6 hy f7
      rw [f2, e2] at this
      exact Except.ok.inj this
    refine ⟨_, hrun, ?_, ?_⟩
    · obtain ⟨z1, z2, z3⟩ := earlyStopping_fields O round k s.loss l'
        { a1.1 with rawPred := s.raw, probs := s.probs, tmpPreds := s.preds.map fun v => v *. O.learningRate }
        { a2.1 with rawPred := raw', probs := probs', tmpPreds := preds'.map fun v => v *. O.learningRate }
        hloss hR.stopped hR.noProgress hR.prevloss
      rw [← s.hst] at z1 z2 z3
      exact ⟨j1, j1', hraw', z1, z2, z3, by rw [j3', j3, hR.draws], by rw [j2', j2]; exact hR.b⟩
    · rw [ht]
      exact List.rel_append hT (.cons hst .nil)

theorem RowsRel.setDraws {exp : Exact K → Exact K} {n m : Nat} {σ : Nat → Nat} {s1 s2 : TrainState (Exact K)}
    (h : RowsRel exp n m σ s1 s2) (d : Nat → Exact K) : RowsRel exp n m σ { s1 with draws := d } { s2 with draws := d } :=
  ⟨h.i1.draws d, h.i2.draws d, h.raw, h.stopped, h.noProgress, h.prevloss, rfl, h.b⟩

/-- the rows are not sampled: the columns drawn are the same -/
theorem SameRows.roundSamples {n : Nat} {σ : Nat → Nat} {X X' : List (List K)} (h : SameRows n σ X X') {O : Options (Exact K)}
    (hs : ((O.subSample <. one) && O.xgb) = false) (d : Nat → Exact K) :
    Boo.roundSamples (finRows X') O d = Boo.roundSamples (finRows X) O d ∧
      ∀ r, Boo.roundSamples (finRows X) O d = .ok r → r.1 = none := by
  have h0 := h.first
  have hg : (goIdx (finRows X') 0).map List.length = (goIdx (finRows X) 0).map List.length := by
    unfold goIdx finRows
    rw [List.getElem?_map, List.getElem?_map]
    cases e1 : X[0]? <;> cases e2 : X'[0]? <;> rw [e1, e2] at h0 <;> simp at h0
    simp [Except.map, h0]
  unfold Boo.roundSamples
  rw [hs]
  simp only [Bool.false_eq_true, if_false, bind, Except.bind, pure, Except.pure]
  constructor
  · split
    · cases e1 : goIdx (finRows X) 0 <;> cases e2 : goIdx (finRows X') 0 <;> rw [e1, e2] at hg <;>
        simp only [Except.map, Except.ok.injEq, Except.error.injEq, reduceCtorEq] at hg
      · rw [hg]
      · simp only [hg]
    · rfl
  · intro r hr
    split at hr
    · cases e1 : goIdx (finRows X) 0 with
      | error => rw [e1] at hr; cases hr
      | ok row0 =>
        rw [e1] at hr
        simp only at hr
        cases e2 : Boo.subSample row0.length O.colSubSample d with
        | error => rw [e2] at hr; cases hr
        | ok c =>
          rw [e2] at hr
          obtain rfl := Except.ok.inj hr
          rfl
    · obtain rfl := Except.ok.inj hr
      rfl

theorem SameRows.trainRound {n m : Nat} {σ : Nat → Nat} {X X' : List (List K)} (h : SameRows n σ X X') (hn : 0 < n)
    {exp : Exact K → Exact K} {S S' : GoSort} {O : Options (Exact K)} (hlf : ∀ lv, O.loss = some lv → lv.fn.RowWise ∧ lv.fn.Regular)
    (hsub : ((O.subSample <. one) && O.xgb) = false)
    {ohe ohe' : Dense (Exact K)} (w1 : ohe.WF) (w2 : ohe'.WF) (r1 : ohe.r = n) (r2 : ohe'.r = n) (c1 : ohe.c = m) (c2 : ohe'.c = m)
    (ho : ∀ i < n, ohe'.row (σ i) = ohe.row i) {round : Nat} {s1 s2 s1' : TrainState (Exact K)} (hR : RowsRel exp n m σ s1 s2)
    (hc : Boo.trainRound (softMaxDense exp) S (finRows X) O ohe m s1 round = .ok s1') :
    ∃ s2', Boo.trainRound (softMaxDense exp) S' (finRows X') O ohe' m s2 round = .ok s2' ∧ RowsRel exp n m σ s1' s2' := by
  unfold Boo.trainRound at hc ⊢
  obtain ⟨q1, q2⟩ := h.roundSamples hsub s1.draws
  rw [hR.draws, q1]
  obtain ⟨⟨idx, cols, draws⟩, hs, hc⟩ := bind_ok hc
  obtain rfl : idx = none := q2 _ hs
  rw [hs]
  simp only [bind, Except.bind] at hc ⊢
  have hR' := hR.setDraws draws
  by_cases hlt : (((none : Option (List Nat)).getD []).length : Int) < O.minSample
  · rw [if_pos hlt] at hc ⊢
    obtain rfl := Except.ok.inj hc
    exact ⟨_, rfl, hR'⟩
  · rw [if_neg hlt] at hc ⊢
    obtain ⟨acc1, hacc, hc⟩ := bind_ok hc
    obtain ⟨acc2, hacc2, z1, z2⟩ := foldlM_rel (P := fun a b => RowsRel exp n m σ a.1 b.1 ∧ List.Forall₂ SameTree a.2 b.2)
      (g := Boo.trainClass (softMaxDense exp) S' (finRows X') O ohe' none cols round) (b := ({ s2 with draws := draws }, []))
      (fun a b a' k hk hP hf => h.trainClass hn hlf w1 w2 r1 r2 c1 c2 ho (List.mem_range.1 hk) hP.1 hP.2 hf)
      ⟨hR', .nil⟩ hacc
    rw [hacc2]
    obtain rfl := Except.ok.inj hc
    refine ⟨_, rfl, z1.i1.boosters _, z1.i2.boosters _, z1.raw, z1.stopped, z1.noProgress, z1.prevloss, z1.draws, ?_⟩
    exact List.rel_append z1.b (.cons z2 .nil)

/-- the encoded labels of corresponding rows, when the classes are met in the same order -/
theorem ohe_sigma {n : Nat} {σ : Nat → Nat} (hσ : PermOn n σ) {L L' : List Int} (hL : L.length = n) (hL' : L'.length = n)
    (hn : 0 < n) (h : ∀ i < n, L'[σ i]? = L[i]?) (hd : distinctElements L' = distinctElements L) :
    ∃ ohe ohe' : Dense (Exact K), oneHotEncodeDense L = .ok (ohe, distinctElements L) ∧
      oneHotEncodeDense L' = .ok (ohe', distinctElements L) ∧ ohe.WF ∧ ohe'.WF ∧ ohe.r = n ∧ ohe'.r = n ∧
      ohe.c = (distinctElements L).length ∧ ohe'.c = (distinctElements L).length ∧ ∀ i < n, ohe'.row (σ i) = ohe.row i := by
  have hne : L ≠ [] := by rintro rfl; simp at hL; omega
  have hne' : L' ≠ [] := by rintro rfl; simp at hL'; omega
  obtain ⟨a, a1, a2, a3, a4, a5⟩ := C39_matrix (F := Exact K) L hne
  obtain ⟨b, b1, b2, b3, b4, b5⟩ := C39_matrix (F := Exact K) L' hne'
  rw [hd] at b1 b3 b5
  refine ⟨a, b, a1, b1, a4, b4, by omega, by omega, a3, b3, fun i hi => ?_⟩
  have hsi := hσ.lt hi
  apply List.ext_getElem?
  intro j
  by_cases hj : j < (distinctElements L).length
  · rw [Dense.row_get (by omega) (by omega), Dense.row_get (by omega) (by omega), a5 i j (by omega) hj, b5 (σ i) j (by omega) hj,
      h i hi]
  · rw [List.getElem?_eq_none (by rw [Dense.row_length b4 (by omega)]; omega),
      List.getElem?_eq_none (by rw [Dense.row_length a4 (by omega)]; omega)]

/-- **training on the same rows in another order** -/
theorem rows_model {exp : Exact K → Exact K} {S S' : GoSort} {draws : Nat → Exact K} {X X' : List (List K)} {L L' : List Int}
    {ks ks' : List (List Char)} {fl fl' : List (Exact K)}
    (hl : L.length = X.length) (hl' : L'.length = X'.length) (hp : (X'.zip L').Perm (X.zip L))
    (hrect : ∃ c, ∀ row ∈ X, row.length = c) (hd : distinctElements L' = distinctElements L) {O : Options (Exact K)}
    (hlf : ∀ lv, O.loss = some lv → lv.fn.RowWise ∧ lv.fn.Regular) (hsub : ((O.subSample <. one) && O.xgb) = false)
    {M : MultiClass (Exact K)} (h : newMultiClass exp S draws ⟨finRows X, ks, L, fl⟩ O = .ok M) :
    ∃ B, newMultiClass exp S' draws ⟨finRows X', ks', L', fl'⟩ O = .ok { M with b := B } ∧
      List.Forall₂ (List.Forall₂ SameTree) M.b B := by
  obtain ⟨labels, st, ht, rfl⟩ := newMultiClass_inv h
  obtain ⟨hne, hlab, ohe0, st0, ho0, hr0, hc0, hw0, hinit, hrounds⟩ := train_inv ht
  simp only at hne hlab hr0 hrounds
  obtain ⟨σ, h1, h2⟩ := perm_index hp
  have e1 : (X.zip L).length = X.length := by rw [List.length_zip]; omega
  have e2 : (X'.zip L').length = X'.length := by rw [List.length_zip]; omega
  rw [e1, e2] at h1
  rw [e1] at h2
  have hlen : X'.length = X.length := by simpa using h1.length_eq
  have hn : 0 < X.length := by rw [← hl]; exact List.length_pos_iff.2 hne
  have h3 := fun w hw => zip_getElem? hl.symm hl'.symm (h2 w hw)
  have hperm : PermOn X.length σ := by rw [hlen] at h1; exact h1
  have hsame : SameRows X.length σ X X' := ⟨hperm, rfl, hlen, fun w hw => (h3 w hw).1, hrect⟩
  obtain ⟨ohe, ohe', o1, o2, w1, w2, r1, r2, c1, c2, ho⟩ := ohe_sigma (K := K) hperm hl (by omega) hn (fun i hi => (h3 i hi).2) hd
  unfold DataBunch.oheLabels at ho0
  simp only at ho0
  rw [o1] at ho0
  simp only [Except.ok.injEq, Prod.mk.injEq] at ho0
  obtain ⟨rfl, rfl⟩ := ho0
  obtain ⟨i1, ib, idr, is, inp, ipl, iraw⟩ := trainInit_inv hinit r1 c1
  have hinit' : trainInit (softMaxDense exp) O ohe' (distinctElements L).length draws = .ok st0 := by
    rw [← hinit]
    unfold trainInit
    rw [r1, r2, c1, c2]
  have hfix : O.fixMcw.loss = O.loss ∧ O.fixMcw.subSample = O.subSample ∧ O.fixMcw.xgb = O.xgb := by
    have := Options.fixMcw_lr O
    exact ⟨this.2.2.2.2.2.2.2.2.1, this.2.2.2.2.2.2.1, this.2.2.2.2.2.1⟩
  obtain ⟨st2, f1, f2⟩ := foldlM_rel (P := RowsRel exp X.length (distinctElements L).length σ)
    (g := Boo.trainRound (softMaxDense exp) S' (finRows X') O.fixMcw ohe' (distinctElements L).length) (b := st0)
    (fun a b a' k _ hP hf => hsame.trainRound hn (by rw [hfix.1]; exact hlf) (by rw [hfix.2.1, hfix.2.2]; exact hsub)
      w1 w2 r1 r2 c1 c2 ho hP hf)
    ⟨i1, i1, fun i hi => by rw [iraw i hi, iraw _ (hperm.lt hi)], rfl, rfl, rfl, rfl, by rw [ib]; exact .nil⟩ hrounds
  refine ⟨st2.boosters, ?_, f2.b⟩
  unfold newMultiClass train trainWith DataBunch.oheLabels
  simp only [o2, bind, Except.bind, hinit', f1]
  rfl

end

end Boo
