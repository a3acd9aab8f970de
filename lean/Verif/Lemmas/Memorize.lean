import Verif.Props.LogLoss

/-!
# Regular trees without limits separate rows that differ
-/

namespace Boo
open GoFloat Spec
set_option linter.unusedSectionVars false

/-! ### every split makes the nodes smaller -/

theorem sub_nil {F : Type} (q : List Bool) : (Tree.nil : Tree F).sub q = .nil := by cases q <;> rfl

theorem sub_shrink {S : GoSort} {X : List (List ℝ)} {o : TreeOptions (Exact ℝ)} {t : Tree (Exact ℝ)}
    (h : newTree S (finRows X) o = .ok t) (path : List Bool) (i : NodeInfo (Exact ℝ)) (l r : Tree (Exact ℝ))
    (hp : t.sub path = .node i l r) : i.samples.length + path.length ≤ (o.idx (finRows X)).length := by
  induction path using List.reverseRecOn generalizing i l r with
  | nil =>
    have ht : t = .node i l r := by cases t <;> simpa [Tree.sub] using hp
    rw [ht] at h
    rw [(mkInfo_samples h).1]
    simp
  | append_singleton path b ih =>
    have hp0 := hp
    rw [Tree.sub_append] at hp
    cases hsub : t.sub path with
    | nil => rw [hsub, sub_nil] at hp; cases hp
    | node i0 l0 r0 =>
      rw [hsub] at hp
      have h0 := ih i0 l0 r0 hsub
      obtain ⟨o', d', hb', _, _, _, _, _⟩ := newTreeD_sub S _ _ o t h path i0 l0 r0 hsub
      have hs0 := (mkInfo_samples hb').1
      obtain ⟨v, row0, _, _, _, ⟨_, h2⟩ | ⟨_, best, _, _, _, h2⟩ |
        ⟨d'', best, col, tl, tr, _, _, _, hc, h3, h4, h2⟩⟩ := newTreeD_inv _ _ _ _ _ hb'
      · cases h2
        cases b <;> simp [Tree.sub] at hp
      · cases h2
        cases b <;> simp [Tree.sub] at hp
      · cases h2
        have hperm := (goLeft_goRight_perm best.threshold col (o'.idx (finRows X)) (sampleCol_length hc)).length_eq
        rw [List.length_append] at hperm
        cases htl : l0 with
        | nil => exact absurd htl (newTree_ne_nil h3)
        | node il ll lr =>
          cases htr : r0 with
          | nil => exact absurd htr (newTree_ne_nil h4)
          | node ir rl rr =>
            subst htl htr
            have e1 := (mkInfo_samples h3).1
            have e2 := (mkInfo_samples h4).1
            rw [child_idx] at e1 e2
            have g1 := (C06_exact S X o t h (path ++ [true]) (by simp) il ll lr (by
              rw [Tree.sub_append, hsub]; rfl)).1
            have g2 := (C06_exact S X o t h (path ++ [false]) (by simp) ir rl rr (by
              rw [Tree.sub_append, hsub]; rfl)).1
            rw [e1] at g1
            rw [e2] at g2
            rw [hs0] at h0
            rw [List.length_append, List.length_singleton]
            cases b
            · simp only [Tree.sub, Tree.node.injEq] at hp
              rw [← hp.1, e2]
              omega
            · simp only [Tree.sub, Tree.node.injEq] at hp
              rw [← hp.1, e1]
              omega

/-! ### the rows of a leaf are equal -/

theorem leaf_same {S : GoSort} {X : List (List ℝ)} {o : TreeOptions (Exact ℝ)} {t : Tree (Exact ℝ)} {y : List ℝ}
    (hb : newTree S (finRows X) o = .ok t) (hi : RegInput o y) (hac : o.allowedColumns = [])
    (hmcw : toInt o.minChildWeight ≤ 1) (hrows : o.indexes = none) (hdep : (X.length : Int) ≤ o.maxDepth + 1) (w : Nat)
    (hw : ∀ row ∈ X, row.length = w) (leaf : NodeInfo (Exact ℝ)) (hl : leaf ∈ t.leaves) (a b : Nat) (ha : a ∈ leaf.samples)
    (hb' : b ∈ leaf.samples) : X[a]? = X[b]? := by
  obtain ⟨path, hsub⟩ := leaf_path hl
  have hlen : (finRows X).length = X.length := by simp [finRows]
  have hidx : o.idx (finRows X) = List.range X.length := by
    unfold TreeOptions.idx
    rw [hrows, hlen]
    rfl
  by_cases hd : (path.length : Int) < o.maxDepth
  · have hmem := sub_samples hb (by
      rw [hidx]
      intro v hv
      rw [hlen]
      exact List.mem_range.1 hv) path leaf _ _ hsub
    rw [hlen] at hmem
    have hal := hmem a ha
    have hbl := hmem b hb'
    have hX0 : ∃ row0, X[0]? = some row0 ∧ row0.length = w := by
      have h0 : 0 < X.length := by omega
      exact ⟨X[0], List.getElem?_eq_getElem h0, hw _ (List.getElem_mem h0)⟩
    obtain ⟨row0, hr0, hr0w⟩ := hX0
    have hval : ∀ f < w, val X a f = val X b f := by
      intro f hf
      have hno := C07_regular_leaf S X o t y hb hi path leaf hsub hd row0 hr0 f (by omega) (fun _ => Or.inl hac)
      have key : ∀ u v : Nat, u ∈ leaf.samples → v ∈ leaf.samples → ¬ val X u f < val X v f := by
        intro u v hu hv hlt
        refine hno (val X u f) ⟨?_, ?_⟩
        · have : u ∈ leftOf X leaf.samples f (val X u f) := by
            unfold leftOf
            rw [List.mem_filter]
            exact ⟨hu, by simp⟩
          have := List.length_pos_of_mem this
          omega
        · have : v ∈ rightOf X leaf.samples f (val X u f) := by
            unfold rightOf
            rw [List.mem_filter]
            exact ⟨hv, by simpa using hlt⟩
          have := List.length_pos_of_mem this
          omega
      exact le_antisymm (not_lt.1 (key b a hb' ha)) (not_lt.1 (key a b ha hb'))
    rw [List.getElem?_eq_getElem hal, List.getElem?_eq_getElem hbl]
    congr 1
    have l1 := hw _ (List.getElem_mem hal)
    have l2 := hw _ (List.getElem_mem hbl)
    apply List.ext_getElem (by rw [l1, l2])
    intro f h1 h2
    have := hval f (by omega)
    unfold val at this
    rw [getD_get hal, getD_get hbl, getD_get h1, getD_get h2] at this
    exact this
  · have := sub_shrink hb path leaf _ _ hsub
    rw [hidx, List.length_range] at this
    have h1 : leaf.samples.length ≤ 1 := by omega
    match hs : leaf.samples, h1 with
    | [], _ => rw [hs] at ha; simp at ha
    | [x], _ =>
      rw [hs, List.mem_singleton] at ha hb'
      rw [ha, hb']

/-! ### the leaf of a row -/

/-- the leaf a row ends in -/
def Tree.reach {F : Type} [GoFloat F] : Tree F → List F → Go (NodeInfo F)
  | .nil, _ => .error .nilDeref
  | .node i l r, row =>
    if i.leaf then .ok i
    else do
      let v ← goIdx row i.splitFeatureIndex
      if v <=. i.threshold then l.reach row else r.reach row

theorem reach_updateLeaves {F : Type} [GoFloat F] {g h : List F} {t0 t : Tree F} (hu : updateLeaves g h t0 = .ok t) {row : List F}
    {leaf : NodeInfo F} (hr : t0.reach row = .ok leaf) :
    t.predictSingle row = .ok (sumAt g leaf.samples /. sumAt h leaf.samples) := by
  induction t0 generalizing t with
  | nil => simp [Tree.reach] at hr
  | node i l r ihl ihr =>
    obtain ⟨i', l', r', rfl, hl, hr', hi⟩ := updateLeaves_inv hu
    unfold Tree.reach at hr
    unfold Tree.predictSingle
    rcases hi with ⟨h3, sh, sg, h4, h5⟩ | ⟨h3, h5⟩
    · rw [if_pos h3] at hr
      obtain rfl := Except.ok.inj hr
      obtain ⟨_, q2, q3⟩ := leafSums_eq _ _ _ _ _ _ h4
      have hlf : i'.leaf = true := by rw [h5]; exact h3
      rw [if_pos hlf, h5]
      unfold sumAt
      simp only at q2 q3
      rw [← q2, ← q3]
    · subst h5
      rw [h3] at hr ⊢
      simp only [Bool.false_eq_true, if_false] at hr ⊢
      obtain ⟨v, hv, hr⟩ := bind_ok hr
      rw [hv]
      simp only [bind, Except.bind]
      split at hr
      · rename_i hc
        rw [if_pos hc]
        exact ihl hl hr
      · rename_i hc
        rw [if_neg hc]
        exact ihr hr' hr

theorem reach_training_row {F : Type} [GoFloat F] [GoFloatOrd F] (S : GoSort) (X : List (List F)) (o : TreeOptions F)
    (t : Tree F) (h : newTree S X o = .ok t) (leaf : NodeInfo F) (hleaf : leaf ∈ t.leaves)
    (i : Nat) (hi : i ∈ leaf.samples) (row : List F) (hrow : X[i]? = some row) :
    t.reach row = .ok leaf := by
  unfold newTree at h
  generalize o.maxDepth.toNat = d at h
  induction d generalizing o t with
  | zero =>
    obtain ⟨v, row0, _, _, _, ⟨_, h2⟩ | ⟨_, _, h3, _⟩ | ⟨_, _, _, _, _, h3, _⟩⟩ :=
      newTreeD_inv _ _ _ _ _ h
    · rw [h2] at hleaf ⊢
      simp only [Tree.leaves, List.mem_singleton] at hleaf
      simp [Tree.reach, leaf_best0, hleaf]
    · cases h3
    · cases h3
  | succ d ih =>
    obtain ⟨v, row0, _, _, _, ⟨_, h2⟩ | ⟨_, best, _, _, hl, h2⟩ |
      ⟨_, best, col, tl, tr, hd, _, hl, hc, h3, h4, h2⟩⟩ := newTreeD_inv _ _ _ _ _ h
    · rename_i hz; cases hz
    · rw [h2] at hleaf ⊢
      simp only [Tree.leaves, List.mem_singleton] at hleaf
      simp [Tree.reach, hl, hleaf]
    · cases hd
      have hlv : t.leaves = tl.leaves ++ tr.leaves := by
        rw [h2]
        have := newTree_ne_nil h3
        cases tl with
        | nil => exact absurd rfl this
        | node => cases tr <;> rfl
      have hsub : ∀ (d : Nat) (o : TreeOptions F) (t : Tree F), newTreeD S X d o = .ok t →
          ∀ leaf ∈ t.leaves, ∀ i ∈ leaf.samples, i ∈ o.idx X := by
        intro d o t h leaf hlf i hi
        exact (leaves_perm S X d o t h).mem_iff.1 (List.mem_flatMap.2 ⟨leaf, hlf, hi⟩)
      rw [hlv, List.mem_append] at hleaf
      rw [h2]
      unfold Tree.reach
      rw [leaf_branches o X v row0.length _ 1, hl]
      simp only [Bool.false_eq_true, if_false, bind, Except.bind]
      have hvalue : ∀ v', row[best.feature]? = some v' →
          goIdx row (mkInfo o X v row0.length best (1 + tl.branches + tr.branches)).splitFeatureIndex
            = .ok v' := fun v' hv' => goIdx_ok.2 hv'
      rcases hleaf with hlf | hlf
      · have hmem := hsub _ _ _ h3 leaf hlf i hi
        rw [child_idx] at hmem
        obtain ⟨row', v', e1, e2, e3⟩ := mem_goLeft hc hmem
        rw [hrow] at e1; cases e1
        rw [hvalue v' e2]
        simp only [mkInfo, e3, if_true]
        exact ih _ _ hlf h3
      · have hmem := hsub _ _ _ h4 leaf hlf i hi
        rw [child_idx] at hmem
        obtain ⟨row', v', e1, e2, e3⟩ := mem_goRight hc hmem
        rw [hrow] at e1; cases e1
        rw [hvalue v' e2]
        simp only [mkInfo, e3, Bool.false_eq_true, if_false]
        exact ih _ _ hlf h4

/-! ### the step of a class -/

theorem sumOver_le_of {a b : List ℝ} {s : List Nat} (h : ∀ w ∈ s, a.getD w 0 ≤ b.getD w 0) : sumOver a s ≤ sumOver b s := by
  unfold sumOver
  exact List.sum_le_sum h

theorem sumOver_pos_of {a : List ℝ} {s : List Nat} (hs : s ≠ []) (h : ∀ w ∈ s, 0 < a.getD w 0) : 0 < sumOver a s := by
  unfold sumOver
  apply List.sum_pos
  · intro x hx
    obtain ⟨w, hw, rfl⟩ := List.mem_map.1 hx
    exact h w hw
  · simpa using hs

theorem sumOver_smul (c : ℝ) (a : List ℝ) (s : List Nat) : (s.map fun i => c * a.getD i 0).sum = c * sumOver a s := by
  unfold sumOver
  rw [List.sum_map_mul_left]

/-- Leaf values of the tree of a class: at least `wt` for the rows of the class, at most `-wt` and negative for the others. -/
theorem classTree_sep {S : GoSort} {X : List (List ℝ)} {O : Options (Exact ℝ)} {lf : LossFunc (Exact ℝ)} (hx : O.xgb = false)
    (hmcw : toInt O.minChildWeight ≤ 1) (hdep : (X.length : Int) ≤ O.maxDepth + 1) (w : Nat) (hw : ∀ row ∈ X, row.length = w) (hX : X ≠ [])
    {y p g hs : List ℝ} (hgl : g.length = X.length) (hhl : hs.length = X.length)
    (hg : lf.negGradients (finV y) (finV p) = .ok (finV g)) (hh : lf.hessian (finV p) = finV hs)
    (cls : Nat → Prop) (hcls : ∀ a b, a < X.length → b < X.length → X[a]? = X[b]? → (cls a ↔ cls b)) (wt : ℝ)
    (hpos : ∀ i < X.length, 0 < hs.getD i 0)
    (hin : ∀ i < X.length, cls i → wt * hs.getD i 0 ≤ g.getD i 0)
    (hout : ∀ i < X.length, ¬ cls i → g.getD i 0 ≤ -(wt * hs.getD i 0) ∧ g.getD i 0 < 0)
    {cols : List Nat} {t : Tree (Exact ℝ)}
    (h : classTree S (finRows X) O lf none cols (finV y) (finV p) = .ok t) (i : Nat) (hi : i < X.length)
    (row : List (Exact ℝ)) (hrow : (finRows X)[i]? = some row) :
    ∃ v, t.predictSingle row = .ok (.fin v) ∧ (cls i → wt ≤ v) ∧ (¬ cls i → v ≤ -wt ∧ v < 0) := by
  have hlen : (finRows X).length = X.length := by simp [finRows]
  unfold classTree at h
  rw [if_neg (by rw [hx]; simp), hg] at h
  obtain ⟨g', hg', h⟩ := bind_ok h
  cases hg'
  rw [hh] at h
  obtain ⟨t0, h0, hu⟩ := bind_ok h
  have hperm := C03_leaves_partition S (finRows X) _ t0 h0
  have htr : ∀ u, u ∈ t0.leaves.flatMap (·.samples) ↔ u < X.length := by
    intro u
    rw [hperm.mem_iff]
    unfold trainingRows
    simp [defaultGTreeOptions, hlen]
  obtain ⟨leaf, hl, hil⟩ := List.mem_flatMap.1 ((htr i).2 hi)
  have hmem : ∀ u ∈ leaf.samples, u < X.length := fun u hu => (htr u).1 (List.mem_flatMap.2 ⟨leaf, hl, hu⟩)
  have hr := reach_training_row S (finRows X) _ t0 h0 leaf hl i hil row hrow
  have hp := reach_updateLeaves hu hr
  have hne : leaf.samples ≠ [] := List.ne_nil_of_mem hil
  have hH := sumOver_pos_of hne fun u hu => hpos u (hmem u hu)
  rw [sumAt_fin, sumAt_fin, Exact.div_fin _ _ hH.ne'] at hp
  have hsame : ∀ u ∈ leaf.samples, (cls u ↔ cls i) := fun u hu =>
    hcls u i (hmem u hu) hi (leaf_same h0 ⟨rfl, rfl⟩ rfl hmcw rfl hdep w hw leaf hl u i hu hil)
  refine ⟨_, hp, ?_, ?_⟩
  · intro hc
    rw [le_div_iff₀ hH, ← sumOver_smul]
    exact List.sum_le_sum fun u hu => hin u (hmem u hu) ((hsame u hu).2 hc)
  · intro hc
    have hall := fun u hu => hout u (hmem u hu) fun h' => hc ((hsame u hu).1 h')
    refine ⟨?_, ?_⟩
    · rw [div_le_iff₀ hH, ← sumOver_smul]
      exact List.sum_le_sum fun u hu => by
        have := (hall u hu).1
        linarith
    · rw [div_lt_iff₀ hH, zero_mul]
      have : 0 < sumOver (g.map fun x => -x) leaf.samples := sumOver_pos_of hne fun u hu => by
        have h1 := (hall u hu).2
        have hul := hmem u hu
        rw [getD_get (by omega)] at h1
        rw [getD_get (by simpa [hgl] using hul), List.getElem_map]
        linarith
      rw [sumOver_neg] at this
      linarith

/-! ### the training loops -/

/-- After `r k` rounds of class `k`, the score of the class of a row is at least `base + lr·wt·r`, the other scores are at most
`base - lr·wt·r`, and below `base` after a round. -/
def Apart (n m : Nat) (c : Nat → Nat) (base lr wt : ℝ) (r : Nat → Nat) (st : TrainState (Exact ℝ)) : Prop :=
  ∀ i < n, ∀ k < m, ∃ x : ℝ, (st.rawPred.row i)[k]? = some (XF.fin x) ∧ (c i = k → base + lr * wt * r k ≤ x) ∧
    (c i ≠ k → x ≤ base - lr * wt * r k ∧ (0 < r k → x < base))

/-- what the theorem needs besides `RealSetup` -/
structure ApartSetup (X : List (List ℝ)) (O : Options (Exact ℝ)) (ohe : Dense (Exact ℝ)) (n m : Nat) (c : Nat → Nat)
    (lr wt : ℝ) : Prop where
  lrEq : O.learningRate = .fin lr
  lr0 : 0 < lr
  xgb : O.xgb = false
  mcw : toInt O.minChildWeight ≤ 1
  dep : (n : Int) ≤ O.maxDepth + 1
  wid : ∃ w, ∀ row ∈ X, row.length = w
  cons : ∀ a b, a < n → b < n → X[a]? = X[b]? → c a = c b
  wt0 : 0 ≤ wt
  ohe : ∀ k y, k < m → denseCol ohe k = .ok y → ∃ y' : List ℝ, y = finV y' ∧ y'.length = n ∧
    ∀ i < n, y'.getD i 0 = if c i = k then 1 else 0
  loss : ∀ lv, O.loss = some lv → (lv.fn = sqErrLoss ∧ wt = 0) ∨ (lv.fn = mseLoss ∧ 2 ≤ m ∧ wt = 1)

theorem ClassStep.sep {S : GoSort} {X : List (List ℝ)} {O : Options (Exact ℝ)} {ohe : Dense (Exact ℝ)} {n m : Nat}
    {one : Prop} (hs : RealSetup X O ohe n m one) {c : Nat → Nat} {base lr wt : ℝ} (hL : ApartSetup X O ohe n m c lr wt) {cols : List Nat}
    {round : Nat} {st st' : TrainState (Exact ℝ)} {k : Nat} {tree : Tree (Exact ℝ)}
    (s : ClassStep expR S (finRows X) O ohe none cols round st st' k tree) (hi : TInv expR n m st)
    (hr : ∀ i < n, AllFin (st.rawPred.row i)) (hk : k < m) {r : Nat → Nat} (h : Apart n m c base lr wt r st) :
    Apart n m c base lr wt (Function.update r k (r k + 1)) st' := by
  obtain ⟨y, hy, hyl, hyv⟩ := hL.ohe k _ hk s.hy
  obtain ⟨p, hp, hpl, hpv, _⟩ := probs_col_val hi hr hs.pos hk s.hp
  have hp1 : 2 ≤ m → ∀ v ∈ p, v < 1 := by
    obtain ⟨q, hq, _, hq2⟩ := probs_col hi hr hs.pos hk s.hp
    have : q = p := by
      have h2 := hq.symm.trans hp
      rw [← map_realOf q, h2, map_realOf]
    subst this
    intro h2 v hv
    exact (hq2 v hv).2.resolve_right (by omega)
  have hX : X ≠ [] := by
    rintro rfl
    have := hs.len
    have := hs.pos
    simp at *
    omega
  have hd : (finRows X).length = n := by simp [finRows, hs.len]
  obtain ⟨_, _, _, h4⟩ := s.inv hi hd hk
  have ht := s.htree
  rw [hy, hp] at ht
  obtain ⟨w, hw⟩ := hL.wid
  obtain ⟨_, hg2⟩ := grad_fin y p (by omega)
  have hpm : ∀ i < n, p.getD i 0 ∈ p := by
    intro i hin
    rw [getD_get (by omega)]
    exact List.getElem_mem _
  have hgi : ∀ i < n, (List.zipWith (fun a b : ℝ => a - b) y p).getD i 0 = (if c i = k then 1 else 0) - p.getD i 0 := by
    intro i hin
    rw [← hyv i hin]
    simp [List.getD_eq_getElem?_getD, List.getElem?_zipWith, hyl, hpl, hin]
  -- gradients and hessians
  obtain ⟨hess, e1, e2, e3, e4, e5⟩ : ∃ hess : List ℝ, hess.length = X.length ∧ s.lv.fn.hessian (finV p) = finV hess ∧
      s.lv.fn.negGradients (finV y) (finV p) = .ok (finV (List.zipWith (fun a b => a - b) y p)) ∧
      (∀ i < n, 0 < hess.getD i 0) ∧ ∀ i < n, wt * hess.getD i 0 ≤ 1 - p.getD i 0 ∧ wt * hess.getD i 0 ≤ p.getD i 0 := by
    rcases hL.loss _ s.hlv with ⟨hl, hwt⟩ | ⟨hl, h2, hwt⟩
    · rw [hl]
      refine ⟨p.map fun _ => 1, by simp [hpl, hs.len], by simp [sqErrLoss, finV], hg2, ?_, ?_⟩
      · intro i hin
        rw [getD_get (by simpa [hpl] using hin), List.getElem_map]
        norm_num
      · intro i hin
        have := hpv _ (hpm i hin)
        rw [hwt, zero_mul]
        exact ⟨by linarith, this.1.le⟩
    · rw [hl]
      refine ⟨p.map fun v => (1 - v) * v, by simp [hpl, hs.len], by simp [mseLoss, finV], hg2, ?_, ?_⟩
      · intro i hin
        have h0 := hpv _ (hpm i hin)
        have h1 := hp1 h2 _ (hpm i hin)
        rw [getD_get (by simpa [hpl] using hin), List.getElem_map]
        rw [getD_get (by omega)] at h0 h1
        exact mul_pos (by linarith) h0.1
      · intro i hin
        have h0 := hpv _ (hpm i hin)
        rw [getD_get (by simpa [hpl] using hin), List.getElem_map, hwt, one_mul]
        rw [getD_get (by omega)] at h0 ⊢
        have : 0 ≤ 1 - p[i] := by linarith [h0.2]
        constructor <;> nlinarith [h0.1]
  have hlen := hs.len
  intro i hin j hj
  obtain ⟨x, hx, hx1, hx2⟩ := h i hin j hj
  have hget := List.getElem?_eq_getElem (show i < (finRows X).length by rw [hd]; exact hin)
  obtain ⟨v, hv1, hv2, hv3⟩ := classTree_sep hL.xgb hL.mcw (by rw [hlen]; exact hL.dep) w hw hX
    (by simp [hyl, hpl, hlen]) e1 e3 e2 (fun a => c a = k) (by
      intro a b ha hb hab
      rw [hL.cons a b (by omega) (by omega) hab]) wt (by rw [hlen]; exact e4)
    (by
      intro a ha hc
      rw [hgi a (by omega), if_pos hc]
      exact (e5 a (by omega)).1)
    (by
      intro a ha hc
      rw [hgi a (by omega), if_neg hc]
      have := hpv _ (hpm a (by omega))
      exact ⟨by linarith [(e5 a (by omega)).2], by linarith [this.1]⟩) ht i (by omega) _ hget
  obtain ⟨w', d, h1, h2, h3⟩ := h4 i _ hget
  rw [hv1] at h1
  obtain rfl := Except.ok.inj h1
  rw [h3]
  by_cases hjk : j = k
  · subst hjk
    rw [hx] at h2
    obtain rfl := Option.some.inj h2
    have hjl := (List.getElem?_eq_some_iff.1 hx).1
    refine ⟨x + lr * v, ?_, ?_, ?_⟩
    · rw [List.getElem?_set_self hjl, hL.lrEq, Exact.mul_fin, Exact.add_fin, mul_comm]
    · intro hc
      rw [Function.update_self]
      have a1 := hx1 hc
      have a2 := mul_le_mul_of_nonneg_left (hv2 hc) hL.lr0.le
      push_cast
      linarith
    · intro hc
      rw [Function.update_self]
      have a1 := (hx2 hc).1
      have a2 := mul_le_mul_of_nonneg_left (hv3 hc).1 hL.lr0.le
      have a3 := mul_neg_of_pos_of_neg hL.lr0 (hv3 hc).2
      have a4 : 0 ≤ lr * wt * r j := mul_nonneg (mul_nonneg hL.lr0.le hL.wt0) (Nat.cast_nonneg _)
      push_cast
      exact ⟨by linarith, fun _ => by linarith⟩
  · refine ⟨x, ?_, ?_, ?_⟩
    · rw [List.getElem?_set_ne (Ne.symm hjk)]
      exact hx
    · rw [Function.update_of_ne hjk]
      exact hx1
    · rw [Function.update_of_ne hjk]
      exact hx2

theorem Apart.congr {n m : Nat} {c : Nat → Nat} {base lr wt : ℝ} {r r' : Nat → Nat} {st st' : TrainState (Exact ℝ)}
    (h : Apart n m c base lr wt r st) (hr : ∀ k < m, r' k = r k) (hst : st'.rawPred = st.rawPred) : Apart n m c base lr wt r' st' := by
  intro i hi k hk
  rw [hr k hk, hst]
  exact h i hi k hk

theorem trainClasses_sep {S : GoSort} {X : List (List ℝ)} {O : Options (Exact ℝ)} {ohe : Dense (Exact ℝ)} {n m : Nat}
    {one : Prop} (hs : RealSetup X O ohe n m one) {c : Nat → Nat} {base lr wt : ℝ} (hL : ApartSetup X O ohe n m c lr wt)
    (he : O.earlyStop ≤ 0) {cols : List Nat}
    {round : Nat} (q : Nat) (hq : q ≤ m) (st : TrainState (Exact ℝ)) (acc' : TrainState (Exact ℝ) × List (Tree (Exact ℝ)))
    (h : (List.range q).foldlM (trainClass (softMaxDense expR) S (finRows X) O ohe none cols round) (st, []) = .ok acc')
    (hi : TInv expR n m st) (hr : ∀ i < n, AllFin (st.rawPred.row i)) (hst : ∀ k, st.stopped.getD k false = false)
    {R : Nat} (hsep : Apart n m c base lr wt (fun _ => R) st) :
    Apart n m c base lr wt (fun k => if k < q then R + 1 else R) acc'.1 := by
  have hd : (finRows X).length = n := by simp [finRows, hs.len]
  induction q generalizing acc' with
  | zero =>
    simp only [List.range_zero, List.foldlM_nil, pure, Except.pure, Except.ok.injEq] at h
    subst h
    exact hsep.congr (by simp) rfl
  | succ q ih =>
    rw [List.range_succ, List.foldlM_append] at h
    obtain ⟨acc, h1, h2⟩ := bind_ok h
    rw [List.foldlM_cons] at h2
    obtain ⟨acc'', h3, h4⟩ := bind_ok h2
    simp only [List.foldlM_nil, pure, Except.pure, Except.ok.injEq] at h4
    subst h4
    obtain ⟨a1, _⟩ := trainClasses_inv hd q (by omega) st acc h1 hi
    obtain ⟨b1, _⟩ := trainClasses_real hs (fun l h => by cases h) q (by omega) st acc h1 hi hr
    obtain ⟨_, c2⟩ := trainClasses_off he q st acc hst h1
    have hb := ih (by omega) acc h1
    rcases trainClass_inv h3 with ⟨hstop, rfl⟩ | ⟨_, tree, ht, ⟨s⟩⟩
    · rw [c2, hst] at hstop
      cases hstop
    · refine (s.sep hs hL a1 b1 (by omega) hb).congr ?_ rfl
      intro k hk
      by_cases hkq : k = q
      · subst hkq
        rw [Function.update_self, if_pos (by omega), if_neg (by omega)]
      · rw [Function.update_of_ne hkq]
        by_cases hlt : k < q
        · rw [if_pos (by omega), if_pos hlt]
        · rw [if_neg (by omega), if_neg hlt]

theorem trainRounds_sep {S : GoSort} {X : List (List ℝ)} {O : Options (Exact ℝ)} {ohe : Dense (Exact ℝ)} {n m : Nat}
    {one : Prop} (hs : RealSetup X O ohe n m one) {c : Nat → Nat} {base lr wt : ℝ} (hL : ApartSetup X O ohe n m c lr wt)
    (he : O.earlyStop ≤ 0) (l : List Nat) {st st' : TrainState (Exact ℝ)}
    (h : l.foldlM (trainRound (softMaxDense expR) S (finRows X) O ohe m) st = .ok st')
    (hi : TInv expR n m st) (hr : ∀ i < n, AllFin (st.rawPred.row i)) (hst : ∀ k, st.stopped.getD k false = false)
    (hsep : Apart n m c base lr wt (fun _ => st.boosters.length) st) :
    Apart n m c base lr wt (fun _ => st'.boosters.length) st' := by
  have hd : (finRows X).length = n := by simp [finRows, hs.len]
  induction l generalizing st with
  | nil =>
    simp only [List.foldlM_nil, pure, Except.pure, Except.ok.injEq] at h
    subst h
    exact hsep
  | cons a l ih =>
    rw [List.foldlM_cons] at h
    obtain ⟨st1, h1, h2⟩ := bind_ok h
    obtain ⟨t1, _, _⟩ := trainRound_step h1 hi hd
    obtain ⟨idx, cols, draws, hsam, hcase⟩ := trainRound_inv h1
    have hidx : idx = none := by
      have := (roundSamples_inv hsam).2
      rw [show rowSub O = false by unfold rowSub; rw [hL.xgb]; simp] at this
      simpa using this
    subst hidx
    rcases hcase with ⟨_, rfl⟩ | ⟨_, acc, hacc, rfl⟩
    · exact ih h2 t1 hr hst hsep
    · have hsep' : Apart n m c base lr wt (fun _ => st.boosters.length) { st with draws := draws } := hsep
      have hc := trainClasses_sep hs hL he m le_rfl { st with draws := draws } acc hacc (hi.draws draws) hr hst hsep'
      have hr' := (trainClasses_real hs (fun l h => by cases h) m le_rfl { st with draws := draws } acc hacc (hi.draws draws) hr).1
      obtain ⟨_, e2, _⟩ := trainClasses_inv hd m le_rfl _ acc hacc (hi.draws draws)
      obtain ⟨_, c2⟩ := trainClasses_off he m { st with draws := draws } acc hst hacc
      refine ih h2 t1 hr' (fun k => by simp only [c2]; exact hst k) (hc.congr ?_ rfl)
      intro k hk
      rw [if_pos hk]
      simp only [e2, List.length_append, List.length_singleton]

end Boo
