import Verif.Props.ImportanceSum
import Verif.Props.Boost
import Verif.Props.LogLoss

/-!
# C117 for trained models: what the importances of a model add up to

Over the reals.
-/

namespace Boo
open GoFloat Spec

/-- The gradients of both losses: probability minus 1 for the rows with the label, probability for the others. -/
noncomputable def gradOf (labels : List Int) (lab : Int) (p : List ℝ) : List ℝ :=
  List.zipWith (fun l x => x - if l = lab then 1 else 0) labels p

theorem indicator_fin (labels : List Int) (lab : Int) :
    (indicator labels lab : List (Exact ℝ)) = finV (labels.map fun l => if l = lab then (1 : ℝ) else 0) := by
  unfold indicator finV
  rw [List.map_map]
  refine List.map_congr_left fun l _ => ?_
  simp only [Function.comp]
  split <;> simp

theorem gradOf_zip (labels : List Int) (lab : Int) (p : List ℝ) :
    List.zipWith (fun a b => b - a) (labels.map fun l => if l = lab then (1 : ℝ) else 0) p = gradOf labels lab p := by
  unfold gradOf
  rw [List.zipWith_map_left]

/-- both losses have these gradients, for as many probabilities as labels -/
theorem gradients_gradOf {lf : LossFunc (Exact ℝ)} (hlf : lf = sqErrLoss ∨ lf = mseLoss) (labels : List Int) (lab : Int) (p : List ℝ)
    (hl : labels.length = p.length) :
    lf.gradients (indicator labels lab) (finV p) = .ok (finV (gradOf labels lab p)) ∧
    lf.negGradients (indicator labels lab) (finV p) = .ok (finV ((gradOf labels lab p).map fun x => -x)) := by
  obtain ⟨h1, h2⟩ := grad_fin (labels.map fun l => if l = lab then (1 : ℝ) else 0) p (by simpa using hl)
  have hneg : List.zipWith (fun a b => a - b) (labels.map fun l => if l = lab then (1 : ℝ) else 0) p =
      (gradOf labels lab p).map fun x => -x := by
    rw [← gradOf_zip, List.map_zipWith]
    congr 1
    funext a b
    ring
  rw [indicator_fin]
  rw [gradOf_zip] at h1
  rw [hneg] at h2
  rcases hlf with rfl | rfl
  · exact ⟨h1, h2⟩
  · exact ⟨h1, h2⟩

/-! ### replacing the values of the leaves keeps the splits -/

theorem NewtonOf.nil_iff {F : Type} [GoFloat F] {g h : List F} {t0 t : Tree F} (hN : NewtonOf g h t0 t) : t = .nil ↔ t0 = .nil := by
  have := hN.shape []
  cases t <;> cases t0 <;> simpa [Tree.sub] using this

theorem NewtonOf.keeps {F : Type} [GoFloat F] [GoFloatOrd F] {g h : List F} {t0 t : Tree F} (hN : NewtonOf g h t0 t) :
    t.splits = t0.splits ∧ t.leaves.map (·.samples) = t0.leaves.map (·.samples) := by
  induction t0 generalizing t with
  | nil =>
    have := hN.nil_iff.2 rfl
    subst this
    exact ⟨rfl, rfl⟩
  | node i l r ihl ihr =>
    cases t with
    | nil => exact absurd (hN.nil_iff.1 rfl) (by simp)
    | node i' l' r' =>
      have hi : i'.splitFeatureIndex = i.splitFeatureIndex ∧ i'.bestScoreSoFar = i.bestScoreSoFar ∧ i'.samples = i.samples := by
        obtain ⟨h1, h2⟩ := hN.node [] i l r i' l' r' rfl rfl
        cases hl : i.leaf with
        | true => rw [(h1 hl).2]; exact ⟨rfl, rfl, rfl⟩
        | false => rw [h2 hl]; exact ⟨rfl, rfl, rfl⟩
      obtain ⟨a1, a2⟩ := ihl hN.left
      obtain ⟨b1, b2⟩ := ihr hN.right
      by_cases hc : l = .nil ∧ r = .nil
      · obtain ⟨rfl, rfl⟩ := hc
        obtain rfl := hN.left.nil_iff.2 rfl
        obtain rfl := hN.right.nil_iff.2 rfl
        exact ⟨rfl, by simp [Tree.leaves, hi]⟩
      · have hc' : ¬ (l' = .nil ∧ r' = .nil) := fun h => hc ⟨hN.left.nil_iff.1 h.1, hN.right.nil_iff.1 h.2⟩
        have hsp : ∀ (i : NodeInfo F) (l r : Tree F), ¬ (l = .nil ∧ r = .nil) →
            (Tree.node i l r).splits = (i.splitFeatureIndex, i.bestScoreSoFar) :: (l.splits ++ r.splits) := by
          intro i l r h
          match l, r, h with
          | .nil, .nil, h => exact absurd ⟨rfl, rfl⟩ h
          | .node .., .nil, _ => rfl
          | .nil, .node .., _ => rfl
          | .node .., .node .., _ => rfl
        refine ⟨?_, ?_⟩
        · rw [hsp _ _ _ hc, hsp _ _ _ hc', hi.1, hi.2.1, a1, b1]
        · rw [leaves_node hc, leaves_node hc', List.map_append, List.map_append, a2, b2]

/-- regular trees: the scores of the splits add up to the squared error around the means of the leaves minus the squared error around the mean -/
theorem splits_reg_sse {S : GoSort} {X : List (List ℝ)} {y : List ℝ} (o : TreeOptions (Exact ℝ)) (t : Tree (Exact ℝ))
    (hi : RegInput o y) (hb : newTree S (finRows X) o = .ok t) (hne : trainingRows (finRows X) o ≠ []) :
    FinSum (t.splits.map Prod.snd) (((t.leaves.map (·.samples)).map fun s => sse y s (mean y s)).sum -
      sse y (trainingRows (finRows X) o) (mean y (trainingRows (finRows X) o))) := by
  have h4 := splits_reg _ o t hi hb
  rw [idx_eq_trainingRows] at h4
  have hperm := C03_leaves_partition S (finRows X) o t hb
  have hnl : ∀ leaf ∈ t.leaves, leaf.samples ≠ [] := by
    intro leaf hl
    obtain ⟨p, hp⟩ := leaf_path hl
    exact (C10_node_mean S X o t y hb hi hne p leaf _ _ hp).1
  have e1 : ((t.leaves.map (·.samples)).map fun s => sse y s (mean y s)).sum =
      ((trainingRows (finRows X) o).map fun i => (y.getD i 0) ^ 2).sum -
        (t.leaves.map fun leaf => sumOver y leaf.samples ^ 2 / leaf.samples.length).sum := by
    rw [← (hperm.map fun i => (y.getD i 0) ^ 2).sum_eq]
    generalize t.leaves = leaves at hnl
    clear hperm h4
    induction leaves with
    | nil => simp
    | cons leaf leaves ih =>
      have := ih fun l hl => hnl l (by simp [hl])
      simp only [List.flatMap_cons, List.map_append, List.sum_append, List.map_cons, List.sum_cons, this]
      have e2 : sse y leaf.samples (mean y leaf.samples) = (leaf.samples.map fun i => (y.getD i 0) ^ 2).sum -
          sumOver y leaf.samples ^ 2 / leaf.samples.length := sse_at_mean y _ (hnl leaf (by simp))
      rw [e2]
      ring
  have e3 : sse y (trainingRows (finRows X) o) (mean y (trainingRows (finRows X) o)) =
      ((trainingRows (finRows X) o).map fun i => (y.getD i 0) ^ 2).sum -
        sumOver y (trainingRows (finRows X) o) ^ 2 / (trainingRows (finRows X) o).length := sse_at_mean y _ hne
  rw [e1, e3]
  convert h4 using 1
  ring

/-! ### the probabilities during training are numbers -/

theorem scoreAfter_fin {base lr : Exact ℝ} (hb : ∃ x, base = XF.fin x) (hlr : ∃ x, lr = XF.fin x) (ts : List (Tree (Exact ℝ)))
    (ht : ∀ t ∈ ts, FinTree t) (row : List (Exact ℝ)) (s : Exact ℝ) (h : scoreAfter base lr ts row = .ok s) : ∃ x, s = XF.fin x := by
  induction ts generalizing base with
  | nil =>
    simp only [scoreAfter, List.foldlM_nil, pure, Except.pure, Except.ok.injEq] at h
    exact h ▸ hb
  | cons t ts ih =>
    unfold scoreAfter at h
    rw [List.foldlM_cons] at h
    obtain ⟨b', h1, h⟩ := bind_ok h
    obtain ⟨p, hp, h1⟩ := bind_ok h1
    simp only [pure, Except.pure, Except.ok.injEq] at h1
    refine ih (base := b') ?_ (fun t h => ht t (by simp [h])) h
    obtain ⟨a, rfl⟩ := (ht t (by simp)).predict hp
    obtain ⟨b, rfl⟩ := hb
    obtain ⟨c, rfl⟩ := hlr
    exact ⟨_, h1.symm⟩

theorem probsBefore_fin {M : MultiClass (Exact ℝ)} {data : List (List (Exact ℝ))} (hlr : ∃ x, M.learningRate = XF.fin x)
    (hb : ∃ x, M.baseScore = XF.fin x) (ht : ∀ ens ∈ M.b, ∀ t ∈ ens, FinTree t) {r k : Nat} {p : List (Exact ℝ)}
    (h : ProbsBefore expR M data r k p) :
    ∃ q : List ℝ, p = finV q ∧ q.length = data.length ∧ ∀ v ∈ q, 0 < v ∧ (v < 1 ∨ M.classLabels.length < 2) := by
  obtain ⟨hl, hp⟩ := h
  have hval : ∀ (i : Nat) v, p[i]? = some v → ∃ sc : List ℝ, sc.length = M.classLabels.length ∧ ∃ x ∈ softmaxSpec sc, v = XF.fin x := by
    intro i v hv
    have hi : i < data.length := hl ▸ (List.getElem?_eq_some_iff.1 hv).1
    obtain ⟨s, probs, h1, h2, w, h3, h4⟩ := hp i _ (List.getElem?_eq_getElem hi)
    rw [hv] at h4
    obtain rfl := Option.some.inj h4
    have hf := mapM_ok.1 h1
    obtain ⟨sc, rfl⟩ := AllFin.finV (l := s) (by
      intro x hx
      obtain ⟨j, hj⟩ := List.getElem?_of_mem hx
      obtain ⟨hjl, hje⟩ := List.getElem?_eq_some_iff.1 hj
      have := hf.get (i := j) (by rw [hf.length_eq]; exact hjl) hjl
      simp only [List.get_eq_getElem, hje] at this
      refine scoreAfter_fin hb hlr _ ?_ _ _ this
      intro t htm
      unfold treesOf at htm
      obtain ⟨ens, he, het⟩ := List.mem_filterMap.1 htm
      exact ht ens (List.mem_of_mem_take he) t (List.mem_of_getElem? het))
    have hsl : sc.length = M.classLabels.length := by
      have := hf.length_eq
      simp [finV] at this
      exact this.symm
    have hne : sc ≠ [] := by
      rintro rfl
      simp [softMax, finV] at h2
      subst h2
      simp at h3
    rw [softMax_real sc hne] at h2
    obtain rfl := Except.ok.inj h2
    obtain ⟨x, hx, hxe⟩ := List.mem_map.1 (List.mem_of_getElem? h3)
    exact ⟨sc, hsl, x, hx, hxe.symm⟩
  obtain ⟨q, rfl⟩ := AllFin.finV (l := p) (by
    intro v hv
    obtain ⟨i, hi⟩ := List.getElem?_of_mem hv
    obtain ⟨_, _, x, _, hx⟩ := hval i v hi
    exact ⟨x, hx⟩)
  refine ⟨q, rfl, by simpa [finV] using hl, ?_⟩
  intro v hv
  obtain ⟨i, hi⟩ := List.getElem?_of_mem hv
  obtain ⟨sc, h1, x, hx, he⟩ := hval i (.fin v) (by rw [finV, List.getElem?_map, hi]; rfl)
  cases he
  refine ⟨softmaxSpec_pos sc v hx, ?_⟩
  by_cases h2 : M.classLabels.length < 2
  · exact Or.inr h2
  · exact Or.inl (softmaxSpec_lt_one sc (by omega) v hx)

/-- **C117, trained models**: over the reals, in a model in which every round has a tree for every class, each tree has a number, and the
importances of the model add up to the sum of these numbers. For the tree of round `r` and class `k`, let `p` be the probabilities of the class that
the trees before it give to the training rows, `g` the gradients (probability, minus 1 for rows of the class) and `h` the Hessians of the loss.
With xgboost the number is the decrease of the regularised objective, from the best single weight on the rows drawn for the round to the tree.
Otherwise it is the squared error of the negative gradients around their means in the leaves, minus that around their mean. -/
theorem C117_trained (S : GoSort) (draws : Nat → Exact ℝ) (X : List (List ℝ)) (D : DataBunch (Exact ℝ)) (hX : D.data = finRows X)
    (hd : X.length = D.labels.length) (O : Options (Exact ℝ)) (lr lam gam base : ℝ) (hlr : O.learningRate = .fin lr)
    (hlam : O.lambda = .fin lam) (hlam0 : 0 ≤ lam) (hgam : O.gamma = .fin gam) (hbase : O.baseScore = .fin base)
    (hloss : LossFits O D.labels) (hms : rowSub O = true → 1 ≤ O.minSample) (M : MultiClass (Exact ℝ))
    (h : newMultiClass expR S draws D O = .ok M) (hfull : ∀ ens ∈ M.b, ens.length = M.classLabels.length) :
    ∃ fs d, M.featureImportance S = .ok fs ∧ FinSum (fs.items.map Prod.snd) (M.b.flatten.map d).sum ∧
      ∀ (r k : Nat) ens t, M.b[r]? = some ens → ens[k]? = some t → ∃ lab lv round p hess, M.classLabels[k]? = some lab ∧
        O.loss = some lv ∧ (executedRounds D.data O draws O.rounds.toNat)[r]? = some round ∧
        ProbsBefore expR M D.data r k (finV p) ∧ lv.fn.hessian (finV p) = finV hess ∧
        (O.xgb = true → ∃ v w rows, rows = (if rowSub O then roundRows D.data O draws round else List.range X.length) ∧
          treeObjective (gradOf D.labels lab p) hess lam gam t = some v ∧
          (∀ w', objective (gradOf D.labels lab p) hess lam rows w ≤ objective (gradOf D.labels lab p) hess lam rows w') ∧
          d t = objective (gradOf D.labels lab p) hess lam rows w - v) ∧
        (O.xgb = false → ∃ g, g = (gradOf D.labels lab p).map (fun x => -x) ∧
          d t = (t.leaves.map fun leaf => sse g leaf.samples (mean g leaf.samples)).sum -
            sse g (List.range X.length) (mean g (List.range X.length))) := by
  have hO : RealOptions O := ⟨⟨lr, hlr⟩, ⟨lam, hlam, hlam0⟩, ⟨gam, hgam⟩⟩
  obtain ⟨labels, st, ht, hM⟩ := newMultiClass_inv h
  have hR := train_real S draws X D hX hd O hO ⟨base, hbase⟩ hloss hms labels st ht
  have hlab : labels = distinctElements D.labels := (train_inv ht).2.1
  have hMlab : M.classLabels = distinctElements D.labels := by rw [hM, ← hlab]; rfl
  have hne : D.labels ≠ [] := (train_inv ht).1
  have hXne : X ≠ [] := by
    rintro rfl
    simp at hd
    exact hne (List.length_eq_zero_iff.1 hd.symm)
  have htrees : ∀ ens ∈ M.b, ∀ t ∈ ens, FinTree t := by rw [hM]; exact hR.trees
  have hMlr : ∃ x, M.learningRate = XF.fin x := ⟨lr, by rw [hM]; exact hlr⟩
  have hMb : ∃ x, M.baseScore = XF.fin x := ⟨base, by rw [hM]; exact hbase⟩
  obtain ⟨lv0, hlv0, hkind⟩ := hloss
  have hlen : (finRows X : List (List (Exact ℝ))).length = X.length := by simp [finRows]
  -- what is known of every tree
  have key : ∀ (r k : Nat) ens t, M.b[r]? = some ens → ens[k]? = some t → ∃ δ, FinSum (t.splits.map Prod.snd) δ ∧
      ∃ lab lv round p hess, M.classLabels[k]? = some lab ∧
        O.loss = some lv ∧ (executedRounds D.data O draws O.rounds.toNat)[r]? = some round ∧
        ProbsBefore expR M D.data r k (finV p) ∧ lv.fn.hessian (finV p) = finV hess ∧
        (O.xgb = true → ∃ v w rows, rows = (if rowSub O then roundRows D.data O draws round else List.range X.length) ∧
          treeObjective (gradOf D.labels lab p) hess lam gam t = some v ∧
          (∀ w', objective (gradOf D.labels lab p) hess lam rows w ≤ objective (gradOf D.labels lab p) hess lam rows w') ∧
          δ = objective (gradOf D.labels lab p) hess lam rows w - v) ∧
        (O.xgb = false → ∃ g, g = (gradOf D.labels lab p).map (fun x => -x) ∧
          δ = (t.leaves.map fun leaf => sse g leaf.samples (mean g leaf.samples)).sum -
            sse g (List.range X.length) (mean g (List.range X.length))) := by
    intro r k ens t hr hk
    obtain ⟨lab, lv, round, p, f1, f2, f3, f4, f5, f6⟩ := C70_fitted expR S draws D O M h (by rw [hX, hlen, hd])
      (by rw [hbase]; simp) hfull r k ens t hr hk
    obtain rfl : lv0 = lv := Option.some.inj (hlv0.symm.trans f2)
    obtain ⟨q, rfl, hql, hqv⟩ := probsBefore_fin hMlr hMb htrees f4
    have hqd : D.labels.length = q.length := by rw [hql, hX, hlen, hd]
    have hsq : lv0.fn = sqErrLoss ∨ lv0.fn = mseLoss := hkind.imp id And.left
    obtain ⟨g1, g2⟩ := gradients_gradOf hsq D.labels lab q hqd
    obtain ⟨hess, hh1, hh2, hh3⟩ : ∃ hess : List ℝ, lv0.fn.hessian (finV q) = finV hess ∧ hess.length = q.length ∧ ∀ v ∈ hess, 0 < v := by
      rcases hkind with hs | ⟨hs, a, ha, b, hb, hab⟩
      · obtain ⟨_, hs', _, q2, _, _, q5, q6⟩ := sqErr_real.ok q q rfl fun v hv => ⟨(hqv v hv).1, Or.inr trivial⟩
        exact ⟨hs', by rw [hs]; exact q5, q2, q6⟩
      · have h2 := distinct_two ha hb hab
        obtain ⟨_, hs', _, q2, _, _, q5, q6⟩ := mse_real.ok q q rfl fun v hv => ⟨(hqv v hv).1,
          Or.inl ((hqv v hv).2.resolve_right (by rw [hMlab]; omega))⟩
        exact ⟨hs', by rw [hs]; exact q5, q2, q6⟩
    cases hx : O.xgb with
    | true =>
      obtain ⟨g, hg, hnt⟩ := f5 hx
      rw [g1] at hg
      obtain rfl := Except.ok.inj hg
      rw [hh1, hX] at hnt
      have hi : XgbInput (xgbTreeOptions O (if rowSub O then some (roundRows (finRows X) O draws round) else none)
          (roundCols (finRows X) O draws round) (finV (gradOf D.labels lab q)) (finV hess) (indicator D.labels lab)
          (finRows X : List (List (Exact ℝ))).length) (gradOf D.labels lab q) hess lam gam := ⟨rfl, rfl, rfl, hlam, hgam⟩
      have hp : HessOk hess lam := fun v hv => ⟨(hh3 v hv).le, by linarith [hh3 v hv]⟩
      have hrows : trainingRows (finRows X) (xgbTreeOptions O (if rowSub O then some (roundRows (finRows X) O draws round) else none)
          (roundCols (finRows X) O draws round) (finV (gradOf D.labels lab q)) (finV hess) (indicator D.labels lab)
          (finRows X : List (List (Exact ℝ))).length) =
          if rowSub O then roundRows D.data O draws round else List.range X.length := by
        rw [hX]
        unfold trainingRows xgbTreeOptions
        split <;> simp_all
      generalize hrs : (if rowSub O then roundRows D.data O draws round else List.range X.length) = rows at hrows
      have hrne : rows ≠ [] := by
        rw [← hrs]
        split
        · rename_i hsub
          have := List.mem_of_getElem? f3
          unfold executedRounds sampleCount at this
          rw [List.mem_filter] at this
          have := this.2
          rw [if_pos hsub] at this
          have h1 := hms hsub
          simp only [decide_eq_true_eq] at this
          intro h0
          rw [h0] at this
          simp at this
          omega
        · intro h0
          exact hXne (List.length_eq_zero_iff.1 (by simpa using congrArg List.length h0))
      have hne' := hrne
      rw [← hrows, ← idx_eq_trainingRows] at hne'
      obtain ⟨v, h3, h4⟩ := splits_xgb (S := S) hp _ _ t hi hnt hne'
      cases t with
      | nil => exact absurd rfl (newTree_ne_nil hnt)
      | node i l r' =>
        obtain ⟨hsam, _, _, hv, _⟩ := mkInfo_samples hnt
        obtain ⟨_, hrange, _⟩ := nodeValue_xgb (o := (xgbTreeOptions O _ _ _ _ _ _).fill (finRows X)) hi.xgb hi.grad hi.hess hv
        have hpos := den_pos hp hne' hrange
        rw [idx_eq_trainingRows, hrows] at hsam hpos h4
        refine ⟨_, h4, lab, lv0, round, q, hess, f1, f2, f3, f4, hh1, ?_, by simp⟩
        intro _
        refine ⟨v, -sumOver (gradOf D.labels lab q) rows / (sumOver hess rows + lam), rows, hrs.symm, h3, ?_, ?_⟩
        · have := (C09_value_optimal S X _ _ _ hess lam gam hnt hi [] i l r' rfl (by rw [hsam]; exact hpos)).2
          rw [hsam] at this
          exact this
        · rw [objective_opt _ hess lam _ hpos]
    | false =>
      obtain ⟨g, t0, hg, hnt, hN⟩ := f6 hx
      rw [g2] at hg
      obtain rfl := Except.ok.inj hg
      rw [hX] at hnt
      obtain ⟨k1, k2⟩ := hN.keeps
      have hrows : trainingRows (finRows X) (regTreeOptions O (finV ((gradOf D.labels lab q).map fun x => -x))
          (finRows X : List (List (Exact ℝ))).length) = List.range X.length := by
        simp [trainingRows, regTreeOptions, hlen]
      have h4 := splits_reg_sse (S := S) (y := (gradOf D.labels lab q).map fun x => -x) _ t0 ⟨rfl, rfl⟩ hnt (by
        rw [hrows]
        intro h0
        exact hXne (List.length_eq_zero_iff.1 (by simpa using congrArg List.length h0)))
      rw [hrows, ← k1, ← k2, List.map_map] at h4
      exact ⟨_, h4, lab, lv0, round, q, hess, f1, f2, f3, f4, hh1, by simp, fun _ => ⟨_, rfl, rfl⟩⟩
  classical
  let d : Tree (Exact ℝ) → ℝ := fun t => if hs : ∃ δ, FinSum (t.splits.map Prod.snd) δ then hs.choose else 0
  have hdδ : ∀ (t : Tree (Exact ℝ)) δ, FinSum (t.splits.map Prod.snd) δ → d t = δ := by
    intro t δ hs
    have he : ∃ δ, FinSum (t.splits.map Prod.snd) δ := ⟨δ, hs⟩
    show (if hs : ∃ δ, FinSum (t.splits.map Prod.snd) δ then hs.choose else 0) = δ
    rw [dif_pos he]
    exact finSum_eq he.choose_spec hs
  obtain ⟨fs, w1, w2⟩ := C117_model expR S draws D O M h d (by
    intro ens he t htm
    obtain ⟨r, hr⟩ := List.getElem?_of_mem he
    obtain ⟨k, hk⟩ := List.getElem?_of_mem htm
    obtain ⟨δ, hs, _⟩ := key r k ens t hr hk
    rw [hdδ t δ hs]
    exact hs)
  refine ⟨fs, d, w1, w2, ?_⟩
  intro r k ens t hr hk
  obtain ⟨δ, hs, rest⟩ := key r k ens t hr hk
  rw [hdδ t δ hs]
  exact rest

/-! Non-vacuity: three rounds of xgboost, and ten rounds of regular boosting with the default options, on two rows of two classes. -/

example : ∃ M, newMultiClass expR GoSort.ins (fun _ => .fin 0) realData { keepRows with rounds := 3 } = .ok M ∧ M.b ≠ [] ∧
    (∀ ens ∈ M.b, ens.length = M.classLabels.length) ∧
    ∃ fs d, M.featureImportance GoSort.ins = .ok fs ∧ FinSum (fs.items.map Prod.snd) (M.b.flatten.map d).sum := by
  obtain ⟨M, h1, h2, h3⟩ := keepRows_full 3 (by norm_num)
  obtain ⟨fs, d, a, b, _⟩ := C117_trained GoSort.ins _ [[0], [1]] realData rfl rfl { keepRows with rounds := 3 } _ _ _ _ rfl rfl (by norm_num)
    rfl rfl ⟨_, rfl, Or.inl rfl⟩ (by simp [rowSub, keepRows]) M h1 h3
  exact ⟨M, h1, h2, h3, fs, d, a, b⟩

example : ∃ M, newMultiClass expR GoSort.ins (fun _ => .fin 0) realData (defaultGOptions 0) = .ok M ∧ M.b.length = 10 ∧
    ∃ fs d, M.featureImportance GoSort.ins = .ok fs ∧ FinSum (fs.items.map Prod.snd) (M.b.flatten.map d).sum := by
  have hr : rowSub (defaultGOptions 0 : Options (Exact ℝ)) = false := by simp [rowSub, defaultGOptions]
  obtain ⟨M, hM⟩ := C22_returns expR GoSort.ins (fun _ => .fin 0) realData (defaultGOptions 0)
    ⟨by simp [realData, finRows], ⟨1, by simp [realData, finRows]⟩, finRows_noNaN _, finRows_midSafe _⟩ rfl _ rfl
    mseLoss_regular (by
      unfold CapOk
      simp [rowSub, colSub, defaultGOptions]) (by rw [hr]; simp)
  have hl : M.b.length = 10 := by
    have := C22_requested_partial expR GoSort.ins _ realData _ M hM (Or.inr (by simp [defaultGOptions]))
    rw [hr] at this
    simpa [defaultGOptions] using this
  obtain ⟨fs, d, a, b, _⟩ := C117_trained GoSort.ins _ [[0], [1]] realData rfl rfl (defaultGOptions 0) _ 0 _ _ rfl (by simp [defaultGOptions]) le_rfl
    rfl rfl ⟨_, rfl, Or.inr ⟨rfl, 0, by simp [realData], 1, by simp [realData], by decide⟩⟩ (by rw [hr]; simp) M hM
    ((C22_rounds expR GoSort.ins _ realData _ M hM).2.2 (by simp [defaultGOptions]))
  exact ⟨M, hM, hl, fs, d, a, b⟩

end Boo
