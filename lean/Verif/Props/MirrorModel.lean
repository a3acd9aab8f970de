import Verif.Props.Mirror
import Verif.Props.ReversedModel

/-!
# C149 for trained models
-/

namespace Boo
open GoFloat Spec

section Ex
set_option linter.unusedSectionVars false
variable {K : Type} [Field K] [LinearOrder K] [IsStrictOrderedRing K] [FloorRing K]

theorem UniqueCut.best {X : List (List K)} {w : Nat} {mcw : Int} {usable : List Bool → Nat → Prop}
    {gain : List Nat → List Nat → List Nat → K} {t : Tree (Exact K)} (hu : UniqueCut X w mcw usable gain t) :
    UniqueBest X w mcw usable gain t := by
  intro path i l r θ hs hl hth f hf hus θ' hadm hg
  obtain ⟨h1, h2⟩ := hu path i l r θ hs hl hth f hf hus θ' hadm hg
  refine Or.inl ⟨h2, ?_⟩
  subst h1
  unfold leftOf at h2
  unfold rightOf
  refine List.filter_congr fun j hj => ?_
  have : (j ∈ i.samples.filter fun j => decide (val X j i.splitFeatureIndex ≤ θ')) ↔
      j ∈ i.samples.filter fun j => decide (val X j i.splitFeatureIndex ≤ θ) := by rw [h2]
  simp only [List.mem_filter, hj, true_and, decide_eq_true_eq] at this
  rw [decide_eq_decide, ← not_le, ← not_le]
  exact not_congr this

/-- a split node is the same before and after Newton's leaf values -/
theorem NewtonOf.split_node {S : GoSort} {X : List (List K)} {o : TreeOptions (Exact K)} {t0 t : Tree (Exact K)} {g hs : List (Exact K)}
    (hb : newTree S (finRows X) o = .ok t0) (hn : NewtonOf g hs t0 t) {path : List Bool} {i : NodeInfo (Exact K)} {l r : Tree (Exact K)}
    (hsub : t0.sub path = .node i l r) (hl : l ≠ .nil) : ∃ l' r', t.sub path = .node i l' r' ∧ l' ≠ .nil := by
  have hlf : i.leaf = false := by
    cases hq : i.leaf with
    | false => rfl
    | true => exact absurd ((C02_leaf_iff_no_children S _ o t0 hb path i l r hsub).1.1 hq).1 hl
  cases ht : t.sub path with
  | nil =>
    rw [(hn.shape path).1 ht] at hsub
    cases hsub
  | node i' l' r' =>
    have e := (hn.node path i l r i' l' r' hsub ht).2 hlf
    subst e
    refine ⟨l', r', rfl, ?_⟩
    intro h0
    have e1 := sub_child ht true
    have e2 := sub_child hsub true
    simp only [if_true] at e1 e2
    rw [h0] at e1
    exact hl (e2.symm.trans ((hn.shape _).1 e1))

theorem UniqueCut.newton {S : GoSort} {X : List (List K)} {o : TreeOptions (Exact K)} {w : Nat} {mcw : Int} {usable : List Bool → Nat → Prop}
    {gain : List Nat → List Nat → List Nat → K} {t0 t : Tree (Exact K)} {g hs : List (Exact K)} (hb : newTree S (finRows X) o = .ok t0)
    (hn : NewtonOf g hs t0 t) (hu : UniqueCut X w mcw usable gain t) : UniqueCut X w mcw usable gain t0 := by
  intro path i l r θ hsub hl
  obtain ⟨l', r', h1, h2⟩ := hn.split_node hb hsub hl
  exact hu path i l' r' θ h1 h2

theorem OffThresholds.newton {S : GoSort} {X : List (List K)} {o : TreeOptions (Exact K)} {neg : Nat → Bool} {row : List K}
    {t0 t : Tree (Exact K)} {g hs : List (Exact K)} (hb : newTree S (finRows X) o = .ok t0)
    (hn : NewtonOf g hs t0 t) (hu : OffThresholds neg t row) : OffThresholds neg t0 row := by
  intro path i l r hsub hl
  obtain ⟨l', r', h1, h2⟩ := hn.split_node hb hsub hl
  exact hu path i l' r' h1 h2

/-- a split node after Newton's leaf values was one before -/
theorem NewtonOf.split_node' {S : GoSort} {X : List (List K)} {o : TreeOptions (Exact K)} {t0 t : Tree (Exact K)} {g hs : List (Exact K)}
    (hb : newTree S (finRows X) o = .ok t0) (hn : NewtonOf g hs t0 t) {path : List Bool} {i : NodeInfo (Exact K)} {l r : Tree (Exact K)}
    (hsub : t.sub path = .node i l r) (hl : l ≠ .nil) : ∃ l' r', t0.sub path = .node i l' r' ∧ l' ≠ .nil := by
  cases ht : t0.sub path with
  | nil =>
    rw [(hn.shape path).2 ht] at hsub
    cases hsub
  | node i' l' r' =>
    have hl' : l' ≠ .nil := by
      intro h0
      have e1 := sub_child ht true
      have e2 := sub_child hsub true
      simp only [if_true] at e1 e2
      rw [h0] at e1
      exact hl (e2.symm.trans ((hn.shape _).2 e1))
    have hlf : i'.leaf = false := by
      cases hq : i'.leaf with
      | false => rfl
      | true => exact absurd ((C02_leaf_iff_no_children S _ o t0 hb path i' l' r' ht).1.1 hq).1 hl'
    have e := (hn.node path i' l' r' i l r ht hsub).2 hlf
    exact ⟨l', r', by rw [e], hl'⟩

theorem UniqueCut.of_newton {S : GoSort} {X : List (List K)} {o : TreeOptions (Exact K)} {w : Nat} {mcw : Int} {usable : List Bool → Nat → Prop}
    {gain : List Nat → List Nat → List Nat → K} {t0 t : Tree (Exact K)} {g hs : List (Exact K)} (hb : newTree S (finRows X) o = .ok t0)
    (hn : NewtonOf g hs t0 t) (hu : UniqueCut X w mcw usable gain t0) : UniqueCut X w mcw usable gain t := by
  intro path i l r θ hsub hl
  obtain ⟨l', r', h1, h2⟩ := hn.split_node' hb hsub hl
  exact hu path i l' r' θ h1 h2

theorem OffThresholds.of_newton {S : GoSort} {X : List (List K)} {o : TreeOptions (Exact K)} {neg : Nat → Bool} {row : List K}
    {t0 t : Tree (Exact K)} {g hs : List (Exact K)} (hb : newTree S (finRows X) o = .ok t0)
    (hn : NewtonOf g hs t0 t) (hu : OffThresholds neg t0 row) : OffThresholds neg t row := by
  intro path i l r hsub hl
  obtain ⟨l', r', h1, h2⟩ := hn.split_node' hb hsub hl
  exact hu path i l' r' h1 h2

/-- with one column, unique divisions are unique splits -/
theorem UniqueBest.cut {X : List (List K)} {mcw depth : Int} {usable : List Bool → Nat → Prop} {rows : List Nat}
    {gain : List Nat → List Nat → List Nat → K} {good : K → Prop} {t : Tree (Exact K)} (hG : Grown X 1 mcw depth usable rows gain good t)
    (hu : UniqueBest X 1 mcw usable gain t) : UniqueCut X 1 mcw usable gain t := by
  intro path i l r θ hs hl hth f hf hus θ' hadm hg
  obtain ⟨f0, hf0, θ0, _, hadm0, e1, e2, _⟩ := hG.split path i l r hs hl
  rw [hth] at e2
  obtain rfl : θ = θ0 := XF.fin.inj e2
  obtain rfl : f = f0 := by omega
  have hd := hu path i l r θ hs hl hth f hf hus θ' hadm hg
  rw [e1] at hd ⊢
  refine ⟨rfl, ?_⟩
  rcases hd with ⟨h1, _⟩ | ⟨h1, h2⟩
  · exact h1
  · exfalso
    obtain ⟨n1, n2⟩ := admissible_ne hadm0
    obtain ⟨a, ha⟩ := List.exists_mem_of_ne_nil _ n1
    obtain ⟨b, hb⟩ := List.exists_mem_of_ne_nil _ n2
    have ha' := ha
    have hb' := hb
    rw [← h2] at ha'
    rw [← h1] at hb'
    unfold leftOf at ha hb'
    unfold rightOf at hb ha'
    simp only [List.mem_filter, decide_eq_true_eq] at ha hb ha' hb'
    linarith [ha.2, hb.2, ha'.2, hb'.2]

/-- with one column of two values the only threshold is in the middle -/
theorem off_two {S : GoSort} {X : List (List K)} {o : TreeOptions (Exact K)} {t : Tree (Exact K)} (hb : newTree S (finRows X) o = .ok t)
    {mcw depth : Int} {usable : List Bool → Nat → Prop} {rows : List Nat}
    {gain : List Nat → List Nat → List Nat → K} {good : K → Prop} (hG : Grown X 1 mcw depth usable rows gain good t)
    {a b : K} (hX : ∀ i < X.length, val X i 0 = a ∨ val X i 0 = b) (neg : Nat → Bool) {v : K} (hv : v ≠ (a + b) / 2) :
    OffThresholds neg t [v] := by
  intro path i l r hs hl _ u hu hth
  obtain ⟨f0, hf0, θ0, _, _, e1, _⟩ := hG.split path i l r hs hl
  obtain rfl : f0 = 0 := by omega
  obtain ⟨p, hp, q, hq, hlt, hth', _⟩ := split_between hb hs hl
  rw [e1] at hu hlt hth'
  obtain rfl : v = u := by simpa using hu
  rw [hth] at hth'
  have e := XF.fin.inj hth'
  have hin : ∀ j ∈ i.samples, j < X.length := fun j hj => hG.inRange j ((hG.sub path i l r hs).2.2 j hj)
  apply hv
  rcases hX p (hin p hp) with h1 | h1 <;> rcases hX q (hin q hq) with h2 | h2 <;> rw [h1, h2] at hlt e
  · exact absurd hlt (lt_irrefl _)
  · exact e
  · rw [e, add_comm]
  · exact absurd hlt (lt_irrefl _)

end Ex

/-- two trainings whose trees are mirror images -/
theorem mirror_model (S S' : GoSort) (draws : Nat → Exact ℝ) (X : List (List ℝ)) (neg : Nat → Bool) (w : Nat)
    (hw : ∀ row ∈ X, row.length = w)
    (D : DataBunch (Exact ℝ)) (hX : D.data = finRows X) (hd : X.length = D.labels.length) (O : Options (Exact ℝ)) (lr lam gam base : ℝ)
    (hlr : O.learningRate = .fin lr) (hlam : O.lambda = .fin lam) (hlam0 : 0 ≤ lam) (hgam : O.gamma = .fin gam)
    (hbase : O.baseScore = .fin base) (hloss : LossFits O D.labels) (hrs : rowSub O = false) (hes : O.earlyStop ≤ 0)
    (M M' : MultiClass (Exact ℝ)) (h : newMultiClass expR S draws D O = .ok M)
    (h' : newMultiClass expR S' draws { D with data := finRows (X.map (changeSigns neg)) } O = .ok M')
    (row : List ℝ) (hrow : row.length = w)
    (hu : ∀ r k tree o, treeAt M.b r k = some tree → FittedWith expR draws D O M r k o →
      (∀ g hess, XgbInput o g hess lam gam → HessOk hess lam → UniqueCut X w (toInt o.minChildWeight) (UsableAt o) (xgbQuality g hess lam gam) tree ∧
        OffThresholds neg tree row) ∧
      (∀ y, RegInput o y → UniqueCut X w (toInt o.minChildWeight) (UsableAt o) (regQuality y) tree ∧ OffThresholds neg tree row)) :
    M'.predictSingle ((changeSigns neg row).map .fin) = M.predictSingle (row.map .fin) ∧
    M'.predictSingleClass ((changeSigns neg row).map .fin) = M.predictSingleClass (row.map .fin) := by
  have hXX := sameOrders_changeSigns neg X w hw
  have hrange : ∀ o : TreeOptions (Exact ℝ), o.indexes = none → ∀ i ∈ trainingRows (finRows X) o, i < X.length := by
    intro o ho i hi
    unfold trainingRows at hi
    rw [ho] at hi
    simpa [finRows] using hi
  refine real_model_same S S' draws X _ w hXX D hX hd O lr lam gam base hlr hlam hlam0 hgam hbase hloss hrs hes M M' h h'
    (fun t t' => SameOn (finRows X) (finRows (X.map (changeSigns neg))) t t' ∧
      t'.predictSingle ((changeSigns neg row).map .fin) = t.predictSingle (row.map .fin)) (fun _ _ h => h.1) ?_ ?_ _ _ (fun t t' hs => hs.2)
  · intro r k tree tree' o g hess htr hf hi0 hi hp hb hb'
    obtain ⟨hc, hoff⟩ := (hu r k tree o htr hf).1 g hess hi hp
    exact ⟨sameOn_xgb hXX hi0 hi hp hb hb' hc.best,
      C149_xgb_partial S S' X neg o tree tree' w g hess lam gam hw (hrange o hi0) hb hb' hi hp hc row hrow hoff⟩
  · intro r k tree tree' o y g hs t0 t0' htr hf hi0 hi hb hb' hn hn'
    obtain ⟨hc, hoff⟩ := (hu r k tree o htr hf).2 y hi
    replace hc := hc.newton hb hn
    refine ⟨sameOn_reg hXX hi0 hi hb hb' hn hn' hc.best, ?_⟩
    have G' := grown_reg hXX.width' (by rw [trainingRows_signs, hXX.rows]; exact hrange o hi0) hb' hi
    rw [trainingRows_signs] at G'
    obtain ⟨leaf, leaf', h1, h2, h3, _⟩ := mirror_reach hw (fun idx L R => by unfold regQuality; ring) usable_length hb hb'
      (grown_reg hw (hrange o hi0) hb hi) G' hc hrow (hoff.newton hb hn)
    rw [hn.reach h1, hn'.reach h2, h3]

/-- **C149 (models)**, partial: over the reals, without subsampling of rows and early stopping, train on data and on the same data with the
sign of some columns changed. If in all trees of the first model the best split at a node is unique, every row, of the data or not, with no
changed value exactly at a threshold gets the same probabilities and the same class from both models. Columns may be subsampled. -/
theorem C149_model_partial (S S' : GoSort) (draws : Nat → Exact ℝ) (X : List (List ℝ)) (neg : Nat → Bool) (w : Nat)
    (hw : ∀ row ∈ X, row.length = w)
    (D : DataBunch (Exact ℝ)) (hX : D.data = finRows X) (hd : X.length = D.labels.length) (O : Options (Exact ℝ)) (lr lam gam base : ℝ)
    (hlr : O.learningRate = .fin lr) (hlam : O.lambda = .fin lam) (hlam0 : 0 ≤ lam) (hgam : O.gamma = .fin gam)
    (hbase : O.baseScore = .fin base) (hloss : LossFits O D.labels) (hrs : rowSub O = false) (hes : O.earlyStop ≤ 0)
    (M M' : MultiClass (Exact ℝ)) (h : newMultiClass expR S draws D O = .ok M)
    (h' : newMultiClass expR S' draws { D with data := finRows (X.map (changeSigns neg)) } O = .ok M')
    (hu : ∀ r k tree o, treeAt M.b r k = some tree → FittedWith expR draws D O M r k o →
      (∀ g hess, XgbInput o g hess lam gam → HessOk hess lam → UniqueCut X w (toInt o.minChildWeight) (UsableAt o) (xgbQuality g hess lam gam) tree) ∧
      (∀ y, RegInput o y → UniqueCut X w (toInt o.minChildWeight) (UsableAt o) (regQuality y) tree))
    (row : List ℝ) (hrow : row.length = w) (hoff : ∀ ens ∈ M.b, ∀ tree ∈ ens, OffThresholds neg tree row) :
    M'.predictSingle ((changeSigns neg row).map .fin) = M.predictSingle (row.map .fin) ∧
    M'.predictSingleClass ((changeSigns neg row).map .fin) = M.predictSingleClass (row.map .fin) := by
  refine mirror_model S S' draws X neg w hw D hX hd O lr lam gam base hlr hlam hlam0 hgam hbase hloss hrs hes M M' h h' row hrow ?_
  intro r k tree o htr hf
  have hoff' : OffThresholds neg tree row := by
    have ht := htr
    unfold treeAt at ht
    obtain ⟨ens, he, ht⟩ := Option.bind_eq_some_iff.1 ht
    exact hoff ens (List.mem_of_getElem? he) tree (List.mem_of_getElem? ht)
  exact ⟨fun g hess hi hp => ⟨(hu r k tree o htr hf).1 g hess hi hp, hoff'⟩, fun y hi => ⟨(hu r k tree o htr hf).2 y hi, hoff'⟩⟩

/-- **C149 (one column of two values)**: for data with one column, which has two values, train over the reals with any labels (without
subsampling of rows and early stopping) on the data and on the data with the other sign. Every number but the middle between the two values
gets the same probabilities and the same class from both models: the hypotheses of `C149_model_partial` are met. -/
theorem C149_two_values (S S' : GoSort) (draws : Nat → Exact ℝ) (X : List (List ℝ)) (neg : Nat → Bool) (hw : ∀ row ∈ X, row.length = 1)
    (a b : ℝ) (hab : a < b) (hv : ∀ i < X.length, val X i 0 = a ∨ val X i 0 = b)
    (D : DataBunch (Exact ℝ)) (hX : D.data = finRows X) (hd : X.length = D.labels.length) (O : Options (Exact ℝ)) (lr lam gam base : ℝ)
    (hlr : O.learningRate = .fin lr) (hlam : O.lambda = .fin lam) (hlam0 : 0 ≤ lam) (hgam : O.gamma = .fin gam)
    (hbase : O.baseScore = .fin base) (hloss : LossFits O D.labels) (hrs : rowSub O = false) (hes : O.earlyStop ≤ 0)
    (M M' : MultiClass (Exact ℝ)) (h : newMultiClass expR S draws D O = .ok M)
    (h' : newMultiClass expR S' draws { D with data := finRows (X.map (changeSigns neg)) } O = .ok M')
    (v : ℝ) (hne : v ≠ (a + b) / 2) :
    M'.predictSingle ((changeSigns neg [v]).map .fin) = M.predictSingle ([v].map .fin) ∧
    M'.predictSingleClass ((changeSigns neg [v]).map .fin) = M.predictSingleClass ([v].map .fin) := by
  obtain ⟨c1, c2, c3⟩ := C22_rounds expR S draws D O M h
  have hlen : D.data.length = X.length := by rw [hX]; simp [finRows]
  have hrange : ∀ o : TreeOptions (Exact ℝ), o.indexes = none → ∀ i ∈ trainingRows (finRows X) o, i < X.length := by
    intro o ho i hi
    unfold trainingRows at hi
    rw [ho] at hi
    simpa [finRows] using hi
  have key : ∀ r k tree o, treeAt M.b r k = some tree → FittedWith expR draws D O M r k o →
      (∀ g hess, XgbInput o g hess lam gam → HessOk hess lam →
        UniqueCut X 1 (toInt o.minChildWeight) (UsableAt o) (xgbQuality g hess lam gam) tree ∧ OffThresholds neg tree [v]) ∧
      (∀ y, RegInput o y → UniqueCut X 1 (toInt o.minChildWeight) (UsableAt o) (regQuality y) tree ∧ OffThresholds neg tree [v]) := by
    intro r k tree o htr hf
    unfold treeAt at htr
    obtain ⟨ens, he, hk⟩ := Option.bind_eq_some_iff.1 htr
    obtain ⟨lab, lv, round, q, f1, f2, f3, f4, f5, f6⟩ := C70_fitted expR S draws D O M h (by rw [hlen, hd]) (by rw [hbase]; simp) (c3 hes) r k _ _ he hk
    cases hx : O.xgb with
    | true =>
      obtain ⟨g, y1, y2⟩ := f5 hx
      have ho := fitted_unique hf ⟨lab, lv, round, q, g, f1, f2, f3, f4, fun _ => ⟨y1, rfl⟩, fun hf => by rw [hx] at hf; cases hf⟩
      rw [ho, hX] at y2
      have hxo : o.xgb = true := by rw [← ho]; rfl
      have hio : o.indexes = none := by rw [← ho, hrs]; rfl
      refine ⟨fun g hess hi hp => ?_, fun y hi => ?_⟩
      · have hG := grown_xgb hw (hrange o hio) y2 hi hp
        exact ⟨(uniqueBest_two hG hab hv).cut hG, off_two y2 hG hv neg hne⟩
      · have := hi.xgb
        rw [hxo] at this
        cases this
    | false =>
      obtain ⟨g, t0, y1, y2, y3⟩ := f6 hx
      have ho := fitted_unique hf ⟨lab, lv, round, q, g, f1, f2, f3, f4, (fun hf => by rw [hx] at hf; cases hf), fun _ => ⟨y1, rfl⟩⟩
      rw [ho, hX] at y2
      have hxo : o.xgb = false := by rw [← ho]; rfl
      have hio : o.indexes = none := by rw [← ho]; rfl
      refine ⟨fun g hess hi _ => ?_, fun y hi => ?_⟩
      · have := hi.xgb
        rw [hxo] at this
        cases this
      · have hG := grown_reg hw (hrange o hio) y2 hi
        exact ⟨((uniqueBest_two hG hab hv).cut hG).of_newton y2 y3, (off_two y2 hG hv neg hne).of_newton y2 y3⟩
  exact mirror_model S S' draws X neg 1 hw D hX hd O lr lam gam base hlr hlam hlam0 hgam hbase hloss hrs hes M M' h h' [v] rfl key

/-- both models exist, have 20 rounds, and agree on all numbers but 1/2 -/
example : ∃ M M', newMultiClass expR GoSort.ins (fun _ => .fin 0) ⟨finRows binaryRows, [], [0, 1, 0, 0, 1], []⟩ plainXgb = .ok M ∧
    newMultiClass expR GoSort.ins (fun _ => .fin 0) ⟨finRows (binaryRows.map (changeSigns fun _ => true)), [], [0, 1, 0, 0, 1], []⟩ plainXgb = .ok M' ∧
    M.b.length = 20 ∧ M'.b.length = 20 ∧
    ∀ v : ℝ, v ≠ 1 / 2 → M'.predictSingle [.fin (-v)] = M.predictSingle [.fin v] := by
  have hw : ∀ row ∈ binaryRows, row.length = 1 := by simp [binaryRows]
  obtain ⟨M, hM, hb⟩ := binary_model binaryRows rfl hw
  obtain ⟨M', hM', hb'⟩ := binary_model (binaryRows.map (changeSigns fun _ => true)) rfl (sameOrders_changeSigns _ binaryRows 1 hw).width'
  refine ⟨M, M', hM, hM', hb, hb', fun v hv => ?_⟩
  refine (C149_two_values GoSort.ins GoSort.ins _ binaryRows (fun _ => true) hw 0 1 one_pos ?_
    ⟨finRows binaryRows, [], [0, 1, 0, 0, 1], []⟩ rfl rfl plainXgb (3/10) (15/10) 0 (5/10) (by simp [plainXgb, defaultXOptions])
    (by simp [plainXgb, defaultXOptions]) (by norm_num) rfl (by simp [plainXgb, defaultXOptions]) ⟨_, rfl, Or.inl rfl⟩ plainXgb_sub.1
    (by simp [plainXgb]) M M' hM hM' v (by rw [zero_add]; exact hv)).1
  intro i hi
  match i, hi with
  | 0, _ => exact Or.inl rfl
  | 1, _ => exact Or.inr rfl
  | 2, _ => exact Or.inr rfl
  | 3, _ => exact Or.inl rfl
  | 4, _ => exact Or.inr rfl
  | i + 5, hi => simp [binaryRows] at hi

end Boo
