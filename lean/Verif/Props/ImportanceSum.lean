import Verif.Props.Gain
import Verif.Props.Importance
import Verif.Props.ColOrder
import Verif.Props.Size

/-!
# C117: the importances of the features add up to the improvement of the fit

Exact arithmetic.
-/

namespace Boo
open GoFloat Spec
variable {K : Type} [Field K] [LinearOrder K] [IsStrictOrderedRing K] [FloorRing K]

/-- all values are finite and `s` is their sum -/
def FinSum (l : List (Exact K)) (s : K) : Prop := ∃ qs : List K, l = qs.map XF.fin ∧ qs.sum = s

omit [FloorRing K] in
theorem finSum_nil : FinSum ([] : List (Exact K)) 0 := ⟨[], rfl, rfl⟩

omit [FloorRing K] in
theorem finSum_cons {q s : K} {l : List (Exact K)} (h : FinSum l s) : FinSum (.fin q :: l) (q + s) := by
  obtain ⟨qs, rfl, rfl⟩ := h
  exact ⟨q :: qs, rfl, by simp⟩

omit [FloorRing K] in
theorem finSum_append {s s' : K} {l l' : List (Exact K)} (h : FinSum l s) (h' : FinSum l' s') : FinSum (l ++ l') (s + s') := by
  obtain ⟨qs, rfl, rfl⟩ := h
  obtain ⟨qs', rfl, rfl⟩ := h'
  exact ⟨qs ++ qs', by simp, by simp⟩

theorem finSum_eq {s s' : K} {l : List (Exact K)} (h : FinSum l s) (h' : FinSum l s') : s = s' := by
  obtain ⟨qs, rfl, rfl⟩ := h
  obtain ⟨qs', e, rfl⟩ := h'
  have : Function.Injective (XF.fin : K → Exact K) := fun a b h => fin_inj h
  rw [(List.map_injective_iff.2 this) e]

/-- sum by features -/
theorem sum_by_feature (l : List (Nat × K)) (fs : List Nat) (hn : fs.Nodup) (hc : ∀ p ∈ l, p.1 ∈ fs) :
    (fs.map fun f => ((l.filter fun p => p.1 = f).map Prod.snd).sum).sum = (l.map Prod.snd).sum := by
  induction l with
  | nil => simp
  | cons p l ih =>
    have hp := hc p (by simp)
    have step : ∀ f, (((p :: l).filter fun p => p.1 = f).map Prod.snd).sum =
        (if f = p.1 then p.2 else 0) + ((l.filter fun p => p.1 = f).map Prod.snd).sum := by
      intro f
      by_cases h : p.1 = f
      · simp [h]
      · rw [List.filter_cons_of_neg (by simpa using h), if_neg (fun e => h e.symm), zero_add]
    simp only [step, List.sum_map_add, List.map_cons, List.sum_cons]
    rw [ih fun q hq => hc q (by simp [hq])]
    congr 1
    have : (fs.map fun f => if f = p.1 then p.2 else (0 : K)).sum = (fs.filter fun f => f = p.1).length * p.2 := by
      clear step ih hc hp hn
      induction fs with
      | nil => simp
      | cons f fs ih =>
        by_cases h : f = p.1
        · simp only [List.map_cons, List.sum_cons, ih, h, if_true, List.filter_cons_of_pos (p := fun f => decide (f = p.1)) (a := p.1) (by simp)]
          simp only [List.length_cons]
          push_cast
          ring
        · rw [List.filter_cons_of_neg (by simpa using h)]
          simp [ih, h]
    rw [this]
    have h1 : (fs.filter fun f => f = p.1) = [p.1] := by
      have := List.Nodup.filter (fun f => decide (f = p.1)) hn
      have hm : ∀ x ∈ fs.filter (fun f => f = p.1), x = p.1 := fun x hx => by simpa using (List.mem_filter.1 hx).2
      have hne : p.1 ∈ fs.filter (fun f => f = p.1) := List.mem_filter.2 ⟨hp, by simp⟩
      match hfl : fs.filter (fun f => f = p.1) with
      | [] => rw [hfl] at hne; simp at hne
      | [x] => rw [hfl] at hm; rw [hm x (by simp)]
      | x :: y :: z =>
        rw [hfl] at hm this
        have e1 := hm x (by simp)
        have e2 := hm y (by simp)
        rw [e1, e2] at this
        simp at this
    rw [h1]
    simp

theorem foldl_fin (qs : List K) (q : K) : (qs.map XF.fin).foldl (fun s v => s +. v) (.fin q : Exact K) = .fin (q + qs.sum) := by
  induction qs generalizing q with
  | nil => simp
  | cons a qs ih =>
    rw [List.map_cons, List.foldl_cons, Exact.add_fin, ih, List.sum_cons, add_assoc]

/-- listing each feature with the sum of its scores keeps the total -/
theorem totals_sum {items l : List (Nat × Exact K)} {s : K} (h : Totals items l) (hs : FinSum (l.map Prod.snd) s) :
    FinSum (items.map Prod.snd) s := by
  obtain ⟨qs, e, rfl⟩ := hs
  -- the splits as pairs of numbers
  have hl : ∃ lk : List (Nat × K), l = lk.map (fun p => (p.1, .fin p.2)) ∧ lk.map Prod.snd = qs := by
    clear h
    induction l generalizing qs with
    | nil =>
      cases qs with
      | nil => exact ⟨[], rfl, rfl⟩
      | cons => cases e
    | cons p l ih =>
      cases qs with
      | nil => cases e
      | cons q qs =>
        simp only [List.map_cons, List.cons.injEq] at e
        obtain ⟨lk, h1, h2⟩ := ih qs e.2
        refine ⟨(p.1, q) :: lk, ?_, by simp [h2]⟩
        rw [List.map_cons, ← h1, ← e.1]
  obtain ⟨lk, rfl, rfl⟩ := hl
  obtain ⟨hn, hi⟩ := h
  have hsc : ∀ f, scoresOf f (lk.map fun p => (p.1, (XF.fin p.2 : Exact K))) = ((lk.filter fun p => p.1 = f).map Prod.snd).map XF.fin := by
    intro f
    unfold scoresOf
    rw [List.filter_map, List.map_map, List.map_map]
    rfl
  have hval : ∀ p ∈ items, p.2 = .fin (((lk.filter fun q => q.1 = p.1).map Prod.snd).sum) := by
    intro p hp
    have := (hi p.1 p.2).1 hp
    rw [hsc] at this
    cases hq : (lk.filter fun q => q.1 = p.1).map Prod.snd with
    | nil => rw [hq] at this; cases this
    | cons q qs =>
      rw [hq, List.map_cons] at this
      simp only [sumUp, Option.some.injEq] at this
      rw [foldl_fin] at this
      rw [← this, List.sum_cons]
  refine ⟨items.map fun p => ((lk.filter fun q => q.1 = p.1).map Prod.snd).sum, ?_, ?_⟩
  · rw [List.map_map]
    exact List.map_congr_left hval
  · rw [← sum_by_feature lk (items.map Prod.fst) hn, List.map_map]
    · rfl
    · intro p hp
      have hne : scoresOf p.1 (lk.map fun p => (p.1, (XF.fin p.2 : Exact K))) ≠ [] := by
        rw [hsc]
        intro h
        have : p ∈ lk.filter (fun q => q.1 = p.1) := List.mem_filter.2 ⟨hp, by simp⟩
        simp only [List.map_eq_nil_iff] at h
        rw [h] at this
        simp at this
      cases hs : scoresOf p.1 (lk.map fun p => (p.1, (XF.fin p.2 : Exact K))) with
      | nil => exact absurd hs hne
      | cons v vs =>
        have := (hi p.1 (vs.foldl (fun s v => s +. v) v)).2 (by rw [hs]; rfl)
        exact List.mem_map.2 ⟨_, this, rfl⟩

theorem splits_node {F : Type} [GoFloat F] {i : NodeInfo F} {l r : Tree F} (h : l ≠ .nil) :
    (Tree.node i l r).splits = (i.splitFeatureIndex, i.bestScoreSoFar) :: (l.splits ++ r.splits) := by
  cases l with
  | nil => exact absurd rfl h
  | node => rfl

theorem leaf_children {F : Type} [GoFloat F] {S : GoSort} {X : List (List F)} {d : Nat} {o : TreeOptions F} {i : NodeInfo F} {r : Tree F}
    (hb : newTreeD S X d o = .ok (.node i .nil r)) : r = .nil := by
  obtain ⟨v, row0, hv, hr, _, ⟨_, h2⟩ | ⟨_, best, _, _, _, h2⟩ |
    ⟨_, best, col, tl, tr, _, hs, hlf, _, h3, h4, h2⟩⟩ := newTreeD_inv _ _ _ _ _ hb
  · cases h2; rfl
  · cases h2; rfl
  · cases h2; exact absurd rfl (newTree_ne_nil h3)

/-- xgboost: the gains of the splits -/
theorem splits_xgb {S : GoSort} {X : List (List K)} {g h : List K} {lam gam : K}
    (hp : HessOk h lam) (d : Nat) (o : TreeOptions (Exact K)) (t : Tree (Exact K)) (hi : XgbInput o g h lam gam)
    (hb : newTreeD S (finRows X) d o = .ok t) (hne : o.idx (finRows X) ≠ []) :
    ∃ v, treeObjective g h lam gam t = some v ∧
      FinSum (t.splits.map Prod.snd) (-(1 / 2 * quality g h lam (o.idx (finRows X))) - v) := by
  induction t generalizing d o with
  | nil => exact absurd rfl (newTree_ne_nil hb)
  | node i l r ihl ihr =>
    obtain ⟨hsam, _, _, hv, _⟩ := mkInfo_samples hb
    obtain ⟨_, hrange, hval⟩ := nodeValue_xgb (o := o.fill (finRows X)) hi.xgb hi.grad hi.hess hv
    have hpos := den_pos hp hne hrange
    by_cases hl : l = .nil
    · subst hl
      have hr := leaf_children hb
      subst hr
      have hval' : i.value = .fin (-sumOver g (o.idx (finRows X)) / (sumOver h (o.idx (finRows X)) + lam)) := by
        rw [hval]
        show _ /. (_ +. o.lambda) = _
        rw [hi.lambda, Exact.add_fin, Exact.div_fin _ _ hpos.ne']
      refine ⟨_, by rw [treeObjective, hval'], ?_⟩
      rw [hsam, objective_opt g h lam _ hpos, sub_self]
      exact finSum_nil
    · obtain ⟨θ, _, hadm, hsc, hgain, d', hL, hR⟩ := node_split_xgb hb hl hi hp
      obtain ⟨nL, nR, _⟩ := adm_ne hadm
      obtain ⟨a, ha, ha'⟩ := ihl d' _ (hi.inherit (Inherit.child (finRows X) o _)) hL nL
      obtain ⟨b, hb2, hb'⟩ := ihr d' _ (hi.inherit (Inherit.child (finRows X) o _)) hR nR
      rw [child_idx] at ha' hb'
      refine ⟨a + b + gam / 2, ?_, ?_⟩
      · cases l with
        | nil => exact absurd rfl hl
        | node => rw [treeObjective, ha, hb2]; simp
      · rw [splits_node hl, List.map_cons, List.map_append, hsc]
        have := finSum_cons (q := xgbGain X g h lam gam i.samples i.splitFeatureIndex θ) (finSum_append ha' hb')
        convert this using 1
        unfold xgbGain
        rw [hsam]
        ring

/-- **C117, xgboost tree**: the importances of the features add up to the decrease of the regularised objective from the unsplit root (with
the best weight) to the tree. -/
theorem C117_xgb_tree (S : GoSort) (X : List (List K)) (o : TreeOptions (Exact K))
    (t : Tree (Exact K)) (g h : List K) (lam gam : K)
    (hb : newTree S (finRows X) o = .ok t) (hi : XgbInput o g h lam gam)
    (hp : ∀ v ∈ h, 0 ≤ v ∧ 0 < v + lam) (hne : trainingRows (finRows X) o ≠ []) (hsplit : t.splits ≠ []) (xgb : Bool) :
    ∃ fs v w, t.featureImportance S xgb = .ok (some fs) ∧ treeObjective g h lam gam t = some v ∧
      (∀ w', objective g h lam (trainingRows (finRows X) o) w ≤ objective g h lam (trainingRows (finRows X) o) w') ∧
      FinSum (fs.items.map Prod.snd) (objective g h lam (trainingRows (finRows X) o) w - v) := by
  obtain ⟨fs, h1, h2, _⟩ := C14_tree S (finRows X) o t hb hsplit xgb
  have hne' := hne
  rw [← idx_eq_trainingRows] at hne'
  obtain ⟨v, h3, h4⟩ := splits_xgb (S := S) hp _ o t hi hb hne'
  cases t with
  | nil => exact absurd rfl (newTree_ne_nil hb)
  | node i l r =>
    obtain ⟨hsam, _, _, hv, _⟩ := mkInfo_samples hb
    obtain ⟨_, hrange, _⟩ := nodeValue_xgb (o := o.fill (finRows X)) hi.xgb hi.grad hi.hess hv
    have hpos := den_pos hp hne' hrange
    rw [idx_eq_trainingRows] at hsam hpos h4
    refine ⟨fs, v, -sumOver g (trainingRows (finRows X) o) / (sumOver h (trainingRows (finRows X) o) + lam), h1, h3, ?_, ?_⟩
    · have := (C09_value_optimal S X o _ g h lam gam hb hi [] i l r rfl (by rw [hsam]; exact hpos)).2
      rw [hsam] at this
      exact this
    · rw [objective_opt g h lam _ hpos]
      exact totals_sum h2 h4

omit [LinearOrder K] [IsStrictOrderedRing K] [FloorRing K] in
theorem sse_at_mean [CharZero K] (y : List K) (idx : List Nat) (h : idx ≠ []) :
    (idx.map fun i => (y.getD i 0 - sumOver y idx / idx.length) ^ 2).sum = (idx.map fun i => (y.getD i 0) ^ 2).sum - sumOver y idx ^ 2 / idx.length := by
  have hpos : ((idx.length : K)) ≠ 0 := by
    have : 0 < idx.length := List.length_pos_iff.2 h
    exact_mod_cast this.ne'
  have key : ∀ (l : List Nat) (c : K), (l.map fun i => (y.getD i 0 - c) ^ 2).sum =
      (l.map fun i => (y.getD i 0) ^ 2).sum - 2 * c * sumOver y l + l.length * c ^ 2 := by
    intro l c
    unfold sumOver
    induction l with
    | nil => simp
    | cons a l ih =>
      simp only [List.map_cons, List.sum_cons, List.length_cons, ih]
      push_cast; ring
  rw [key]
  field_simp
  ring

/-- regular trees: the scores of the splits -/
theorem splits_reg {S : GoSort} {X : List (List K)} {y : List K} (d : Nat) (o : TreeOptions (Exact K)) (t : Tree (Exact K))
    (hi : RegInput o y) (hb : newTreeD S (finRows X) d o = .ok t) :
    FinSum (t.splits.map Prod.snd) (sumOver y (o.idx (finRows X)) ^ 2 / (o.idx (finRows X)).length -
      (t.leaves.map fun leaf => sumOver y leaf.samples ^ 2 / leaf.samples.length).sum) := by
  induction t generalizing d o with
  | nil => exact absurd rfl (newTree_ne_nil hb)
  | node i l r ihl ihr =>
    obtain ⟨hsam, _⟩ := mkInfo_samples hb
    by_cases hl : l = .nil
    · subst hl
      have hr := leaf_children hb
      subst hr
      simp only [Tree.leaves, List.map_cons, List.map_nil, List.sum_cons, List.sum_nil, add_zero, hsam, sub_self]
      exact finSum_nil
    · obtain ⟨θ, _, hadm, hsc, d', hL, hR⟩ := node_split_reg hb hl hi
      have ha := ihl d' _ (hi.inherit (Inherit.child (finRows X) o _)) hL
      have hb' := ihr d' _ (hi.inherit (Inherit.child (finRows X) o _)) hR
      rw [child_idx] at ha hb'
      rw [splits_node hl, List.map_cons, List.map_append, hsc, leaves_node (by rintro ⟨h, _⟩; exact hl h), List.map_append, List.sum_append]
      have := finSum_cons (q := regGain X y i.samples i.splitFeatureIndex θ) (finSum_append ha hb')
      convert this using 1
      unfold regGain
      rw [hsam]
      ring

/-- **C117, regular tree**: let `pred i` be what the tree predicts for training row `i`. The importances add up to the squared error of the
predictions minus that of the mean of the targets (importances of regular trees are negative). -/
theorem C117_regular_tree (S : GoSort) (X : List (List K)) (o : TreeOptions (Exact K))
    (t : Tree (Exact K)) (y : List K) (hb : newTree S (finRows X) o = .ok t) (hi : RegInput o y)
    (hne : trainingRows (finRows X) o ≠ []) (hsplit : t.splits ≠ []) (xgb : Bool) (pred : Nat → K)
    (hpred : ∀ i ∈ trainingRows (finRows X) o, ∃ row, X[i]? = some row ∧ t.predictSingle (row.map XF.fin) = .ok (.fin (pred i))) :
    ∃ fs, t.featureImportance S xgb = .ok (some fs) ∧
      FinSum (fs.items.map Prod.snd) (((trainingRows (finRows X) o).map fun i => (y.getD i 0 - pred i) ^ 2).sum -
        sse y (trainingRows (finRows X) o) (mean y (trainingRows (finRows X) o))) := by
  obtain ⟨fs, h1, h2, _⟩ := C14_tree S (finRows X) o t hb hsplit xgb
  refine ⟨fs, h1, ?_⟩
  have h4 := totals_sum h2 (splits_reg _ o t hi hb)
  rw [idx_eq_trainingRows] at h4
  have hperm := C03_leaves_partition S (finRows X) o t hb
  have hmean : ∀ leaf ∈ t.leaves, leaf.samples ≠ [] ∧ leaf.value = .fin (mean y leaf.samples) := by
    intro leaf hl
    obtain ⟨p, hp⟩ := leaf_path hl
    exact C10_node_mean S X o t y hb hi hne p leaf _ _ hp
  have hleaf : ∀ leaf ∈ t.leaves, ∀ i ∈ leaf.samples, pred i = mean y leaf.samples := by
    intro leaf hl i hi'
    obtain ⟨row, hr, hpr⟩ := hpred i (hperm.mem_iff.1 (List.mem_flatMap.2 ⟨leaf, hl, hi'⟩))
    have hr' : (finRows X)[i]? = some (row.map XF.fin) := by
      unfold finRows
      rw [List.getElem?_map, hr]; rfl
    have := C04_training_row S (finRows X) o t hb leaf hl i hi' _ hr'
    rw [hpr, (hmean leaf hl).2] at this
    exact fin_inj (Except.ok.inj this)
  have e1 : ((trainingRows (finRows X) o).map fun i => (y.getD i 0 - pred i) ^ 2).sum =
      ((trainingRows (finRows X) o).map fun i => (y.getD i 0) ^ 2).sum -
        (t.leaves.map fun leaf => sumOver y leaf.samples ^ 2 / leaf.samples.length).sum := by
    rw [← (hperm.map fun i => (y.getD i 0 - pred i) ^ 2).sum_eq, ← (hperm.map fun i => (y.getD i 0) ^ 2).sum_eq]
    generalize t.leaves = leaves at hmean hleaf
    clear hperm h4 h2
    induction leaves with
    | nil => simp
    | cons leaf leaves ih =>
      have := ih (fun l hl => hmean l (by simp [hl])) fun l hl => hleaf l (by simp [hl])
      simp only [List.flatMap_cons, List.map_append, List.sum_append, List.map_cons, List.sum_cons, this]
      have e2 : (leaf.samples.map fun i => (y.getD i 0 - pred i) ^ 2) =
          leaf.samples.map fun i => (y.getD i 0 - sumOver y leaf.samples / leaf.samples.length) ^ 2 := by
        refine List.map_congr_left ?_
        intro i hi'
        rw [hleaf leaf (by simp) i hi']
        rfl
      rw [e2, sse_at_mean y _ (hmean leaf (by simp)).1]
      ring
  have e3 : sse y (trainingRows (finRows X) o) (mean y (trainingRows (finRows X) o)) =
      ((trainingRows (finRows X) o).map fun i => (y.getD i 0) ^ 2).sum -
        sumOver y (trainingRows (finRows X) o) ^ 2 / (trainingRows (finRows X) o).length := sse_at_mean y _ hne
  rw [e1, e3]
  convert h4 using 1
  ring

/-- **C117, models**: if the scores of the splits of every tree add up to `δ` of the tree, the importances of a trained model add up to
the sum of the `δ` of its trees. -/
theorem C117_model (exp : Exact K → Exact K) (S : GoSort) (draws : Nat → Exact K) (D : DataBunch (Exact K)) (O : Options (Exact K))
    (M : MultiClass (Exact K)) (h : newMultiClass exp S draws D O = .ok M) (δ : Tree (Exact K) → K)
    (hδ : ∀ ens ∈ M.b, ∀ t ∈ ens, FinSum (t.splits.map Prod.snd) (δ t)) :
    ∃ fs, M.featureImportance S = .ok fs ∧ FinSum (fs.items.map Prod.snd) (M.b.flatten.map δ).sum := by
  obtain ⟨fs, h1, h2, _⟩ := C14_trained exp S draws D O M h
  refine ⟨fs, h1, totals_sum h2 ?_⟩
  have one : ∀ ens : List (Tree (Exact K)), (∀ t ∈ ens, FinSum (t.splits.map Prod.snd) (δ t)) →
      FinSum ((ens.flatMap Tree.splits).map Prod.snd) (ens.map δ).sum := by
    intro ens
    induction ens with
    | nil => exact fun _ => finSum_nil
    | cons t ens ih =>
      intro ht
      rw [List.flatMap_cons, List.map_append, List.map_cons, List.sum_cons]
      exact finSum_append (ht t (by simp)) (ih fun t h => ht t (by simp [h]))
  unfold MultiClass.splits
  generalize M.b = b at hδ
  induction b with
  | nil => exact finSum_nil
  | cons ens b ih =>
    rw [List.flatMap_cons, List.map_append, List.flatten_cons, List.map_append, List.sum_append]
    exact finSum_append (one ens (hδ ens (by simp))) (ih fun e h => hδ e (by simp [h]))

/-- trees with splits, from the examples of C07–C11 -/
def hasSplits (t : Go (Tree (Exact ℚ))) : Bool :=
  match t with
  | .ok t => !t.splits.isEmpty
  | .error _ => false

example : hasSplits (newTree GoSort.ins (finRows exXQ) exOQ) = true ∧ hasSplits (newTree GoSort.ins (finRows exXQ) exOXQ) = true := by decide +kernel

end Boo
