import Verif.Lemmas.InvarianceModel
import Verif.Props.TrainBugs

/-!
# C73: what the trees do not depend on

In exact arithmetic a tree does not depend on the sorting routine or on the order of its training rows; a positive affine
change of units of each feature changes no prediction; any strictly increasing change of a feature changes only the thresholds.
Targets (gradients, hessians, residuals) are arbitrary, also infinite or NaN; feature values are finite.
-/

namespace Boo
open GoFloat Spec
set_option linter.unusedSectionVars false

namespace Spec
/-- feature `f` of a row is replaced by `φ f` of it -/
def mapFeatures {K : Type} (φ : Nat → K → K) (row : List K) : List K := row.mapIdx φ

/-- change of units: feature `f` becomes `a f * v + b f` -/
def rescale {K : Type} [Field K] (a b : Nat → K) : List K → List K := mapFeatures fun f v => a f * v + b f

/-- a tree with its thresholds erased -/
def dropThresholds {F : Type} [GoFloat F] : Tree F → Tree F
  | .nil => .nil
  | .node i l r => .node { i with threshold := zero } (dropThresholds l) (dropThresholds r)
end Spec

section
variable {K : Type} [Field K] [LinearOrder K] [IsStrictOrderedRing K] [FloorRing K]

theorem map_id_rows (X : List (List K)) : (X.map fun row => row.mapIdx fun _ => id) = X := by
  conv_rhs => rw [← List.map_id X]
  refine List.map_congr_left fun row _ => ?_
  apply List.ext_getElem?
  intro i
  simp

theorem newTree_sort {S S' : GoSort} {X : List (List K)} {o : TreeOptions (Exact K)} {t : Tree (Exact K)}
    (h : newTree S (finRows X) o = .ok t) : newTree S' (finRows X) o = .ok t := by
  obtain ⟨t2, h2, h3, _⟩ := mapped_tree (S2 := S') (φ := fun _ => id) (D := fun _ => Set.univ)
    (fun _ => strictMono_id.strictMonoOn _) (fun _ _ _ _ _ => trivial) h
  rw [map_id_rows] at h2
  rw [h2, h3.eq trivial]

/-- **C73 (sorting), partial**: NewTree returns the same tree whatever correct sorting routine `sort.Sort` is.
Missing: binary64, where the order of tied rows changes rounded sums (`C73_sort_violated_binary64`). -/
theorem C73_sort_partial (S S' : GoSort) (X : List (List K)) (o : TreeOptions (Exact K)) (t : Tree (Exact K)) :
    newTree S (finRows X) o = .ok t ↔ newTree S' (finRows X) o = .ok t :=
  ⟨newTree_sort, newTree_sort⟩

theorem classTree_sort {S S' : GoSort} {X : List (List K)} {O : Options (Exact K)} {lf : LossFunc (Exact K)}
    {idx : Option (List Nat)} {cols : List Nat} {y p : List (Exact K)} {t : Tree (Exact K)}
    (h : classTree S (finRows X) O lf idx cols y p = .ok t) : classTree S' (finRows X) O lf idx cols y p = .ok t := by
  obtain ⟨t2, h2, h3, _⟩ := mapped_classTree (S2 := S') (φ := fun _ => id) (D := fun _ => Set.univ)
    (fun _ => strictMono_id.strictMonoOn _) (fun _ _ _ _ _ => trivial) h
  rw [map_id_rows] at h2
  rw [h2, h3.eq trivial]

theorem newMultiClass_sort {exp : Exact K → Exact K} {S S' : GoSort} {draws : Nat → Exact K} {D : DataBunch (Exact K)}
    {X : List (List K)} (hD : D.data = finRows X) {O : Options (Exact K)} {M : MultiClass (Exact K)}
    (h : newMultiClass exp S draws D O = .ok M) : newMultiClass exp S' draws D O = .ok M := by
  obtain ⟨B, h1, h2⟩ := newMultiClass_rel (S2 := S') (data2 := D.data) (TR := Eq) (fun _ => rfl) (by
    intro d idx cols d' _ lf y p t1 ht
    rw [hD] at ht ⊢
    exact ⟨t1, classTree_sort ht, rfl, fun _ => rfl⟩) h
  have : M.b = B := by
    have h3 : ∀ {l l' : List (Tree (Exact K))}, List.Forall₂ Eq l l' ↔ l = l' := List.forall₂_eq_eq_eq ▸ Iff.rfl
    have h4 : List.Forall₂ Eq M.b B := h2.imp fun _ _ h => h3.1 h
    rw [List.forall₂_eq_eq_eq] at h4
    exact h4
  rw [← this] at h1
  exact h1

/-- **C73 (sorting, models), partial**: NewMultiClass returns the same model whatever correct sorting routine `sort.Sort` is.
Missing: binary64. -/
theorem C73_sort_model_partial (exp : Exact K → Exact K) (S S' : GoSort) (draws : Nat → Exact K) (D : DataBunch (Exact K))
    (X : List (List K)) (hD : D.data = finRows X) (O : Options (Exact K)) (M : MultiClass (Exact K)) :
    newMultiClass exp S draws D O = .ok M ↔ newMultiClass exp S' draws D O = .ok M :=
  ⟨newMultiClass_sort hD, newMultiClass_sort hD⟩

/-! ### units -/

theorem affine_mono {a b : K} (ha : 0 < a) (s : Set K) : StrictMonoOn (fun v => a * v + b) s := by
  intro x _ y _ hxy
  have := mul_lt_mul_of_pos_left hxy ha
  simp only
  linarith

/-- **C73 (units, trees), partial**: when each feature is expressed in other units (a positive factor and an offset per
feature), NewTree still succeeds, the new tree predicts for every converted row what the old tree predicts for the row,
and the feature importances are the same. Missing: binary64 (`C73_rescale_violated_binary64`). -/
theorem C73_rescale_partial (S S' : GoSort) (X : List (List K)) (o : TreeOptions (Exact K)) (a b : Nat → K)
    (ha : ∀ f, 0 < a f) (t : Tree (Exact K)) (ht : newTree S (finRows X) o = .ok t) :
    ∃ t', newTree S' (finRows (X.map (rescale a b))) o = .ok t' ∧
      (∀ row : List K, t'.predictSingle ((rescale a b row).map XF.fin) = t.predictSingle (row.map XF.fin)) ∧
      ∀ S'' xgb, t'.featureImportance S'' xgb = t.featureImportance S'' xgb := by
  obtain ⟨t2, h2, h3, _⟩ := mapped_tree (S2 := S') (φ := fun f v => a f * v + b f) (D := fun _ => Set.univ)
    (fun f => affine_mono (ha f) _) (fun _ _ _ _ _ => trivial) ht
  exact ⟨t2, h2, fun row => h3.predict_affine ha row, fun S'' xgb => h3.featureImportance S'' xgb⟩

theorem model_rel {S S' : GoSort} {X : List (List K)} {φ : Nat → K → K} {Dm : Nat → Set K}
    (hm : ∀ f, StrictMonoOn (φ f) (Dm f)) (hD : ∀ row ∈ X, ∀ (f : Nat) v, row[f]? = some v → v ∈ Dm f)
    {exp : Exact K → Exact K} {draws : Nat → Exact K} {D : DataBunch (Exact K)} (hd : D.data = finRows X)
    {O : Options (Exact K)}
    (hp : ∀ t1 t2 : Tree (Exact K), TreeRel id φ True X t1 t2 →
      (t1.rootSamples = List.range X.length ∨ (O.xgb = true ∧ (O.subSample <. one) = true)) →
      ∀ row ∈ X, t2.predictSingle ((row.mapIdx φ).map XF.fin) = t1.predictSingle (row.map XF.fin))
    {M : MultiClass (Exact K)} (h : newMultiClass exp S draws D O = .ok M) :
    ∃ B, newMultiClass exp S' draws { D with data := finRows (X.map fun row => row.mapIdx φ) } O = .ok { M with b := B } ∧
      List.Forall₂ (List.Forall₂ fun t1 t2 => TreeRel id φ True X t1 t2 ∧
        (t1.rootSamples = List.range X.length ∨ (O.xgb = true ∧ (O.subSample <. one) = true))) M.b B := by
  have hsm : ∀ d, roundSamples (finRows (X.map fun row => row.mapIdx φ)) O.fixMcw d = roundSamples D.data O.fixMcw d := by
    intro d
    rw [hd]
    exact mapped_roundSamples _ _
  have hT : ∀ d idx cols d', roundSamples D.data O.fixMcw d = .ok (idx, cols, d') → ∀ lf y p t1,
      classTree S D.data O.fixMcw lf idx cols y p = .ok t1 →
      ∃ t2, classTree S' (finRows (X.map fun row => row.mapIdx φ)) O.fixMcw lf idx cols y p = .ok t2 ∧
        (TreeRel id φ True X t1 t2 ∧
        (t1.rootSamples = List.range X.length ∨ (O.xgb = true ∧ (O.subSample <. one) = true))) ∧
        ∀ buf, t2.predict (finRows (X.map fun row => row.mapIdx φ)) buf = t1.predict D.data buf := by
    intro d idx cols d' hs lf y p t1 ht
    rw [hd] at ht hs ⊢
    obtain ⟨t2, h2, h3, h4⟩ := mapped_classTree (S2 := S') hm hD ht
    have hfx : O.fixMcw.xgb = O.xgb := by unfold Options.fixMcw; split <;> rfl
    have hfs : O.fixMcw.subSample = O.subSample := by unfold Options.fixMcw; split <;> rfl
    have h5 : t1.rootSamples = List.range X.length ∨ (O.xgb = true ∧ (O.subSample <. one) = true) := by
      rcases h4 with h4 | ⟨hx, h4⟩
      · exact Or.inl h4
      · rw [hfx] at hx
        cases hss : (O.subSample <. one) with
        | true => exact Or.inr ⟨hx, rfl⟩
        | false =>
          left
          have : idx = none := by
            unfold roundSamples at hs
            rw [hfs, hss] at hs
            simp only [Bool.false_and, Bool.false_eq_true, if_false] at hs
            obtain ⟨q, hq, hs⟩ := bind_ok hs
            obtain rfl := Except.ok.inj hq
            simp only at hs
            split at hs
            · obtain ⟨row0, _, hs⟩ := bind_ok hs
              obtain ⟨c, _, hs⟩ := bind_ok hs
              have := Except.ok.inj hs
              exact (congrArg Prod.fst this).symm
            · have := Except.ok.inj hs
              exact (congrArg Prod.fst this).symm
          rw [h4, this]
          rfl
    refine ⟨t2, h2, ⟨h3, h5⟩, fun buf => predict_congr ?_ buf⟩
    unfold finRows
    rw [List.forall₂_map_left_iff, List.map_map, List.forall₂_map_right_iff, List.forall₂_same]
    intro row hr
    exact hp t1 t2 h3 h5 row hr
  exact newMultiClass_rel hsm hT h

/-- **C73 (units, models), partial**: when each feature is expressed in other units, NewMultiClass still succeeds, the new
model predicts for every converted row the probabilities the old model predicts for the row, and labels and feature
importances are the same. Missing: binary64. -/
theorem C73_rescale_model_partial (exp : Exact K → Exact K) (S S' : GoSort) (draws : Nat → Exact K) (D : DataBunch (Exact K))
    (X : List (List K)) (hD : D.data = finRows X) (O : Options (Exact K)) (a b : Nat → K) (ha : ∀ f, 0 < a f)
    (M : MultiClass (Exact K)) (h : newMultiClass exp S draws D O = .ok M) :
    ∃ M', newMultiClass exp S' draws { D with data := finRows (X.map (rescale a b)) } O = .ok M' ∧
      (∀ row : List K, M'.predictSingle ((rescale a b row).map XF.fin) = M.predictSingle (row.map XF.fin)) ∧
      M'.classLabels = M.classLabels ∧ ∀ S'', M'.featureImportance S'' = M.featureImportance S'' := by
  obtain ⟨B, h1, h2⟩ := model_rel (S' := S') (φ := fun f v => a f * v + b f) (Dm := fun _ => Set.univ)
    (fun f => affine_mono (ha f) _) (fun _ _ _ _ _ => trivial) hD
    (fun t1 t2 hr _ row _ => hr.predict_affine ha row) h
  refine ⟨_, h1, fun row => MultiClass.predict_congr ?_, rfl, fun S'' => MultiClass.importance_congr ?_⟩
  · exact h2.imp fun _ _ h => h.imp fun _ _ h => h.1.predict_affine ha row
  · exact h2.imp fun _ _ h => h.imp fun _ _ h g => h.1.featImp S'' g

/-! ### increasing maps -/

theorem TreeRel.dropThresholds {φ : Nat → K → K} {X : List (List K)} {t1 t2 : Tree (Exact K)} (h : TreeRel id φ True X t1 t2) :
    Spec.dropThresholds t2 = Spec.dropThresholds t1 := by
  induction t1 generalizing t2 with
  | nil => cases t2 with
    | nil => rfl
    | node => exact absurd h (by simp [TreeRel])
  | node i l r ihl ihr =>
    cases t2 with
    | nil => exact absurd h (by simp [TreeRel])
    | node i' l' r' =>
      obtain ⟨_, h1, h2, h3, h4, h5, h6, h7, h8, _, hl, hr⟩ := h
      have h1 := h1 trivial
      rw [List.map_id] at h1
      unfold Spec.dropThresholds
      rw [ihl hl, ihr hr]
      congr 1
      cases i; cases i'
      simp_all

/-- **C73 (increasing maps, trees), partial**: when each feature is replaced by an increasing function of it (increasing on the
values that occur), NewTree still succeeds and the tree is the same except for the thresholds: same shape, same rows in
every node, same values, scores and split features. The rows it was built from get the same predictions.
Missing: binary64. -/
theorem C73_monotone_partial (S S' : GoSort) (X : List (List K)) (o : TreeOptions (Exact K)) (φ : Nat → K → K)
    (hφ : ∀ f, StrictMonoOn (φ f) {v | ∃ row ∈ X, row[f]? = some v}) (t : Tree (Exact K))
    (ht : newTree S (finRows X) o = .ok t) :
    ∃ t', newTree S' (finRows (X.map (mapFeatures φ))) o = .ok t' ∧
      Spec.dropThresholds t' = Spec.dropThresholds t ∧
      ∀ w ∈ trainingRows (finRows X) o, ∀ row, X[w]? = some row →
        t'.predictSingle ((mapFeatures φ row).map XF.fin) = t.predictSingle (row.map XF.fin) := by
  obtain ⟨t2, h2, h3, h4⟩ := mapped_tree (S2 := S') hφ (fun row hr f v hv => ⟨row, hr, hv⟩) ht
  refine ⟨t2, h2, h3.dropThresholds, fun w hw row hrow => h3.predict_training ?_ hrow⟩
  rw [h4, idx_eq_trainingRows]
  exact hw

/-- **C73 (increasing maps, models), partial**: when each feature is replaced by an increasing function of it and the rows are
not subsampled, NewMultiClass still succeeds, every training row gets the same probabilities, and labels and feature
importances are the same. Missing: binary64; with row subsampling a row outside the sample may change sides. -/
theorem C73_monotone_model_partial (exp : Exact K → Exact K) (S S' : GoSort) (draws : Nat → Exact K) (D : DataBunch (Exact K))
    (X : List (List K)) (hD : D.data = finRows X) (O : Options (Exact K)) (hO : O.xgb = false ∨ (O.subSample <. one) = false)
    (φ : Nat → K → K) (hφ : ∀ f, StrictMonoOn (φ f) {v | ∃ row ∈ X, row[f]? = some v})
    (M : MultiClass (Exact K)) (h : newMultiClass exp S draws D O = .ok M) :
    ∃ M', newMultiClass exp S' draws { D with data := finRows (X.map (mapFeatures φ)) } O = .ok M' ∧
      (∀ row ∈ X, M'.predictSingle ((mapFeatures φ row).map XF.fin) = M.predictSingle (row.map XF.fin)) ∧
      M'.classLabels = M.classLabels ∧ ∀ S'', M'.featureImportance S'' = M.featureImportance S'' := by
  have key : ∀ t1 t2 : Tree (Exact K), TreeRel id φ True X t1 t2 →
      (t1.rootSamples = List.range X.length ∨ (O.xgb = true ∧ (O.subSample <. one) = true)) →
      ∀ row ∈ X, t2.predictSingle ((row.mapIdx φ).map XF.fin) = t1.predictSingle (row.map XF.fin) := by
    intro t1 t2 hr hs row hrow
    rcases hs with hs | ⟨h1, h2⟩
    · obtain ⟨w, hw⟩ := List.mem_iff_getElem?.1 hrow
      refine hr.predict_training (w := w) ?_ hw
      rw [hs, List.mem_range]
      exact (List.getElem?_eq_some_iff.1 hw).1
    · rcases hO with hO | hO
      · rw [h1] at hO; cases hO
      · rw [h2] at hO; cases hO
  obtain ⟨B, h1, h2⟩ := model_rel (S' := S') hφ (fun row hr f v hv => ⟨row, hr, hv⟩) hD key h
  refine ⟨_, h1, fun row hrow => MultiClass.predict_congr ?_, rfl, fun S'' => MultiClass.importance_congr ?_⟩
  · exact h2.imp fun _ _ h => h.imp fun _ _ h => key _ _ h.1 h.2 row hrow
  · exact h2.imp fun _ _ h => h.imp fun _ _ h g => h.1.featImp S'' g

/-! ### order of the rows -/

theorem perm_index {α : Type} {l1 l2 : List α} (h : l2.Perm l1) :
    ∃ σ : Nat → Nat, (List.range l2.length).Perm ((List.range l1.length).map σ) ∧ ∀ w < l1.length, l2[σ w]? = l1[w]? := by
  induction h with
  | nil => exact ⟨id, by simp, by simp⟩
  | cons a _ ih =>
    obtain ⟨σ, h1, h2⟩ := ih
    refine ⟨fun w => if w = 0 then 0 else σ (w - 1) + 1, ?_, ?_⟩
    · rw [List.length_cons, List.length_cons, List.range_succ_eq_map, List.range_succ_eq_map, List.map_cons, List.map_map]
      simp only [if_true]
      refine List.Perm.cons 0 ?_
      refine (h1.map Nat.succ).trans (List.Perm.of_eq ?_)
      rw [List.map_map]
      exact List.map_congr_left fun w _ => by simp
    · intro w hw
      cases w with
      | zero => simp
      | succ w => simpa using h2 w (by simpa using hw)
  | swap a b l =>
    refine ⟨fun w => if w = 0 then 1 else if w = 1 then 0 else w, ?_, ?_⟩
    · rw [List.length_cons, List.length_cons, List.length_cons, List.length_cons, List.range_succ_eq_map, List.range_succ_eq_map]
      simp only [List.map_cons, List.map_map]
      refine (List.Perm.swap 1 0 _).trans (List.Perm.of_eq ?_)
      simp only [Nat.succ_eq_add_one, if_true, Nat.zero_add, one_ne_zero, if_false]
      congr 2
    · intro w hw
      match w with
      | 0 => simp
      | 1 => simp
      | w + 2 => simp
  | trans h1 h2 ih1 ih2 =>
    obtain ⟨σ1, p1, q1⟩ := ih1
    obtain ⟨σ2, p2, q2⟩ := ih2
    refine ⟨fun w => σ1 (σ2 w), ?_, ?_⟩
    · refine p1.trans ((p2.map σ1).trans (List.Perm.of_eq ?_))
      rw [List.map_map]
      rfl
    · intro w hw
      have hw2 : σ2 w < _ := List.mem_range.1 (p2.mem_iff.2 (List.mem_map_of_mem (List.mem_range.2 hw)))
      rw [q1 _ hw2, q2 w hw]

theorem TreeRel.predict_same {σ : Nat → Nat} {e : Prop} {X : List (List K)} {t1 t2 : Tree (Exact K)}
    (h : TreeRel σ (fun _ => id) e X t1 t2) (row : List (Exact K)) : t2.predictSingle row = t1.predictSingle row := by
  induction t1 generalizing t2 with
  | nil => cases t2 with
    | nil => rfl
    | node => exact absurd h (by simp [TreeRel])
  | node i l r ihl ihr =>
    cases t2 with
    | nil => exact absurd h (by simp [TreeRel])
    | node i' l' r' =>
      obtain ⟨_, _, h2, h3, _, _, h6, h7, _, h9, hl, hr⟩ := h
      have ht : i'.threshold = i.threshold := by
        rcases h9 with ⟨_, h, _⟩ | ⟨⟨x, x', _, _, _, e1, e2⟩, _⟩
        · exact h
        · rw [e1, e2]; rfl
      unfold Tree.predictSingle
      rw [TreeRel.leaf h2 h7, h3, h6, ht, ihl hl, ihr hr]

theorem rows_tree {S S' : GoSort} {X X' : List (List K)} {o o' : TreeOptions (Exact K)} {σ : Nat → Nat} {c : Nat}
    (hrect : ∀ row ∈ X, row.length = c) (hxgb : o'.xgb = o.xgb) (hd : o'.maxDepth = o.maxDepth)
    (hm : o'.minChildWeight = o.minChildWeight) (hla : o'.lambda = o.lambda) (hga : o'.gamma = o.gamma)
    (hc : o'.allowedColumns = o.allowedColumns)
    (hg : (o'.gradients.isNone && o'.hessian.isNone) = (o.gradients.isNone && o.hessian.isNone))
    (hi : o.indexes = none) (hi' : o'.indexes = none) (hs : o.scratch = none) (hs' : o'.scratch = none)
    (hlA : (tgtA o').length = (tgtA o).length) (hlB : (tgtB o').length = (tgtB o).length)
    (hp : (List.range X'.length).Perm ((List.range X.length).map σ))
    (hX : ∀ w < X.length, X'[σ w]? = X[w]?)
    (hA : ∀ w < X.length, (tgtA o')[σ w]? = (tgtA o)[w]?) (hB : ∀ w < X.length, (tgtB o')[σ w]? = (tgtB o)[w]?)
    {t : Tree (Exact K)} (ht : newTree S (finRows X) o = .ok t) :
    ∃ t', newTree S' (finRows X') o' = .ok t' ∧ (∀ row, t'.predictSingle row = t.predictSingle row) ∧
      ∀ S'' xgb, t'.featureImportance S'' xgb = t.featureImportance S'' xgb := by
  have hlen : X'.length = X.length := by simpa using hp.length_eq
  have hidx : o.idx (finRows X) = List.range X.length := by
    unfold TreeOptions.idx; rw [hi]; simp [finRows]
  have hidx' : o'.idx (finRows X') = List.range X'.length := by
    unfold TreeOptions.idx; rw [hi']; simp [finRows]
  have hrect' : ∀ row ∈ X', row.length = c := by
    intro row hr
    obtain ⟨k, hk⟩ := List.mem_iff_getElem?.1 hr
    have hk' := (List.getElem?_eq_some_iff.1 hk).1
    obtain ⟨w, hw, rfl⟩ := List.mem_map.1 (hp.mem_iff.1 (List.mem_range.2 hk'))
    rw [hX w (List.mem_range.1 hw)] at hk
    exact hrect row (List.mem_of_getElem? hk)
  have hcorr : Corr σ (fun _ => id) (fun _ => Set.univ) False X X' o o' := by
    refine ⟨hxgb, hm, hla, hga, hc, hg, ?_, ?_, fun h => h.elim, hlA, hlB, ?_, ?_, ?_, fun _ _ _ _ _ _ _ => trivial, ?_,
      fun _ => strictMono_id.strictMonoOn _⟩
    · unfold TreeOptions.fill
      rw [hs, hs']
      simp [finRows, hlen, hi, hi']
    · rw [hidx, hidx']; exact hp
    · intro w hw; rw [hidx, List.mem_range] at hw; exact hA w hw
    · intro w hw; rw [hidx, List.mem_range] at hw; exact hB w hw
    · intro w hw
      rw [hidx, List.mem_range] at hw
      rw [hX w hw]
      cases X[w]? with
      | none => rfl
      | some row =>
        simp only [Option.map_some, Option.some.injEq]
        apply List.ext_getElem?
        intro i
        simp
    · cases h : X[0]? with
      | none =>
        have : X'[0]? = none := by
          rw [List.getElem?_eq_none_iff] at h ⊢; omega
        rw [this]
      | some row =>
        have h1 := (List.getElem?_eq_some_iff.1 h).1
        have h2 : X'[0]? = some X'[0] := List.getElem?_eq_getElem (by omega)
        rw [h2, Option.map_some, Option.map_some, hrect row (List.mem_of_getElem? h), hrect' _ (List.mem_of_getElem? h2)]
  unfold newTree at ht ⊢
  rw [hd]
  obtain ⟨t', h1, h2, _⟩ := hcorr.tree (S2 := S') _ ht
  exact ⟨t', h1, fun row => h2.predict_same row, fun S'' xgb => h2.featureImportance S'' xgb⟩

theorem zip_getElem? {α β : Type} {l l' : List α} {m m' : List β} (hl : l.length = m.length) (hl' : l'.length = m'.length)
    {i j : Nat} (h : (l'.zip m')[i]? = (l.zip m)[j]?) : l'[i]? = l[j]? ∧ m'[i]? = m[j]? := by
  cases h1 : (l.zip m)[j]? with
  | none =>
    rw [h1] at h
    rw [List.getElem?_eq_none_iff, List.length_zip] at h h1
    rw [List.getElem?_eq_none (by omega), List.getElem?_eq_none (by omega), List.getElem?_eq_none (by omega),
      List.getElem?_eq_none (by omega)]
    exact ⟨rfl, rfl⟩
  | some q =>
    rw [h1] at h
    obtain ⟨a, b⟩ := q
    rw [List.getElem?_zip_eq_some] at h h1
    rw [h.1, h.2, h1.1, h1.2]
    exact ⟨rfl, rfl⟩

/-- **C73 (row order, xgboost), partial**: NewTree on the same rows with the same gradients and hessians in another order
builds a tree with the same predictions for every row and the same importances. Missing: binary64, where a sum depends on
the order of its terms (`C73_rows_violated_binary64`). -/
theorem C73_rows_xgb_partial (S S' : GoSort) (X X' : List (List K)) (g h g' h' : List (Exact K))
    (hl : g.length = X.length ∧ h.length = X.length) (hl' : g'.length = X'.length ∧ h'.length = X'.length)
    (hp : (X'.zip (g'.zip h')).Perm (X.zip (g.zip h))) (c : Nat) (hrect : ∀ row ∈ X, row.length = c)
    (o : TreeOptions (Exact K)) (t : Tree (Exact K))
    (ht : newTree S (finRows X) { o with
      xgb := true, gradients := some g, hessian := some h, indexes := none, scratch := none } = .ok t) :
    ∃ t', newTree S' (finRows X') { o with
        xgb := true, gradients := some g', hessian := some h', indexes := none, scratch := none } = .ok t' ∧
      (∀ row, t'.predictSingle row = t.predictSingle row) ∧
      ∀ S'' xgb, t'.featureImportance S'' xgb = t.featureImportance S'' xgb := by
  obtain ⟨σ, h1, h2⟩ := perm_index hp
  have hz : (g.zip h).length = X.length := by rw [List.length_zip]; omega
  have hz' : (g'.zip h').length = X'.length := by rw [List.length_zip]; omega
  have e1 : (X.zip (g.zip h)).length = X.length := by rw [List.length_zip, hz]; omega
  have e2 : (X'.zip (g'.zip h')).length = X'.length := by rw [List.length_zip, hz']; omega
  rw [e1, e2] at h1
  rw [e1] at h2
  have hlen : X'.length = X.length := by simpa using h1.length_eq
  have h3 := fun w hw => zip_getElem? hz.symm hz'.symm (h2 w hw)
  have h4 := fun w hw => zip_getElem? (hl.1.trans hl.2.symm) (hl'.1.trans hl'.2.symm) (h3 w hw).2
  refine rows_tree (o := { o with xgb := true, gradients := some g, hessian := some h, indexes := none, scratch := none })
    (o' := { o with xgb := true, gradients := some g', hessian := some h', indexes := none, scratch := none })
    hrect rfl rfl rfl rfl rfl rfl rfl rfl rfl rfl rfl ?_ ?_ h1 (fun w hw => (h3 w hw).1) ?_ ?_ ht
  · simp only [Boo.tgtA, if_true, Option.getD_some]; omega
  · simp only [Boo.tgtB, if_true, Option.getD_some]; omega
  · intro w hw; simpa only [Boo.tgtA, if_true, Option.getD_some] using (h4 w hw).1
  · intro w hw; simpa only [Boo.tgtB, if_true, Option.getD_some] using (h4 w hw).2

/-- **C73 (row order, regular trees), partial**: NewTree on the same rows with the same targets in another order builds a tree
with the same predictions for every row and the same importances. Missing: binary64. -/
theorem C73_rows_partial (S S' : GoSort) (X X' : List (List K)) (y y' : List (Exact K))
    (hl : y.length = X.length) (hl' : y'.length = X'.length)
    (hp : (X'.zip y').Perm (X.zip y)) (c : Nat) (hrect : ∀ row ∈ X, row.length = c)
    (o : TreeOptions (Exact K)) (t : Tree (Exact K))
    (ht : newTree S (finRows X) { o with xgb := false, y := y, indexes := none, scratch := none } = .ok t) :
    ∃ t', newTree S' (finRows X') { o with xgb := false, y := y', indexes := none, scratch := none } = .ok t' ∧
      (∀ row, t'.predictSingle row = t.predictSingle row) ∧
      ∀ S'' xgb, t'.featureImportance S'' xgb = t.featureImportance S'' xgb := by
  obtain ⟨σ, h1, h2⟩ := perm_index hp
  have e1 : (X.zip y).length = X.length := by rw [List.length_zip]; omega
  have e2 : (X'.zip y').length = X'.length := by rw [List.length_zip]; omega
  rw [e1, e2] at h1
  rw [e1] at h2
  have hlen : X'.length = X.length := by simpa using h1.length_eq
  have h3 := fun w hw => zip_getElem? hl.symm hl'.symm (h2 w hw)
  refine rows_tree (o := { o with xgb := false, y := y, indexes := none, scratch := none })
    (o' := { o with xgb := false, y := y', indexes := none, scratch := none })
    hrect rfl rfl rfl rfl rfl rfl rfl rfl rfl rfl rfl ?_ ?_ h1 (fun w hw => (h3 w hw).1) ?_ ?_ ht
  · simp only [Boo.tgtA, Bool.false_eq_true, if_false]; omega
  · simp only [Boo.tgtB, Bool.false_eq_true, if_false]; omega
  · intro w hw; simpa only [Boo.tgtA, Bool.false_eq_true, if_false] using (h3 w hw).2
  · intro w hw; simpa only [Boo.tgtB, Bool.false_eq_true, if_false] using (h3 w hw).2

end

/-! ### The hypotheses are met -/

/-- two more rows than `exXQ`, with ties -/
def invX : List (List ℚ) := [[0, 5], [1, 3], [2, 9], [3, 1], [1, 9], [0, 1]]
def invY : List ℚ := [1, 2, 10, 20, 3, 7]
def invO : TreeOptions (Exact ℚ) :=
  { (defaultGTreeOptions : TreeOptions (Exact ℚ)) with y := invY.map XF.fin, maxDepth := 3 }
/-- Celsius to Fahrenheit, grams to kilograms -/
def invA (f : Nat) : ℚ := if f = 0 then 9 / 5 else 1 / 1000
def invB (f : Nat) : ℚ := if f = 0 then 32 else 0

/-- a sorting routine that leaves ties in the opposite order of `GoSort.ins` -/
def GoSort.insRev : GoSort where
  sort less l := insSort less l.reverse
  perm less l := (insSort_perm less _).trans l.reverse_perm
  sorted less l h := GoSort.ins.sorted less l.reverse (h.mono fun _ ha => List.mem_reverse.1 ha)

example : builtShapeQ (newTree GoSort.ins (finRows invX) invO) 7 3 = true := by decide +kernel
example : builtShapeQ (newTree GoSort.insRev (finRows invX) invO) 7 3 = true := by decide +kernel
example : ∀ f, 0 < invA f := by intro f; unfold invA; split <;> norm_num
example : builtShapeQ (newTree GoSort.ins (finRows (invX.map (rescale invA invB))) invO) 7 3 = true := by decide +kernel
/-- cubing is increasing -/
example : ∀ f : Nat, StrictMonoOn ((fun _ v => v ^ 3 : Nat → ℚ → ℚ) f) {v | ∃ row ∈ invX, row[f]? = some v} := by
  intro f x _ y _ h
  exact (Odd.strictMono_pow (by decide : Odd 3)) h
example : builtShapeQ (newTree GoSort.ins (finRows (invX.map (mapFeatures fun _ v => v ^ 3))) invO) 7 3 = true := by
  decide +kernel
/-- the tree does change: a row between the training rows gets another prediction under cubing, so the claim
`C73_monotone_partial` makes for the rows of the sample cannot be made for all rows -/
example : ∃ row : List ℚ,
    ((newTree GoSort.ins (finRows invX) invO).bind fun t => t.predictSingle (row.map XF.fin)) ≠
    ((newTree GoSort.ins (finRows (invX.map (mapFeatures fun _ v => v ^ 3))) invO).bind fun t =>
      t.predictSingle ((mapFeatures (fun _ v => v ^ 3) row).map XF.fin)) := ⟨[16 / 10, 9], by decide +kernel⟩
/-- the rows of `invX` and their targets, reversed -/
example : (invX.reverse.zip invY.reverse).Perm (invX.zip invY) := by decide
example : ∀ row ∈ invX, row.length = 2 := by decide

/-- three classes on the rows of `invX` -/
def invD : DataBunch (Exact ℚ) := { data := finRows invX, labels := [1, 2, 3, 3, 1, 2], keys := [], floatLabels := [] }
def invX2 : Options (Exact ℚ) :=
  { (defaultXOptions 0 : Options (Exact ℚ)) with
    rounds := 2, minChildWeight := .fin (1 / 2), gamma := .fin 0, lambda := .fin 1, earlyStop := 0 }
def invG2 : Options (Exact ℚ) := { (defaultGOptions 0 : Options (Exact ℚ)) with rounds := 2, minChildWeight := .fin 1 }
/-- numbers of nodes of the trees -/
def sizesQ (m : Go (MultiClass (Exact ℚ))) : Option (List (List Nat)) := m.toOption.map fun M => M.b.map fun r => r.map Tree.size
-- training succeeds (with a constant for the exponential): xgboost with row and column sampling, and regular boosting
example : sizesQ (newMultiClass (fun _ => one) GoSort.ins (fun _ => .fin 0) invD invX2) = some [[5, 5, 3], [5, 5, 3]] := by
  decide +kernel
example : sizesQ (newMultiClass (fun _ => one) GoSort.ins (fun _ => .fin 0) invD invG2) = some [[11, 11, 11], [11, 11, 11]] := by
  decide +kernel
example : (invX2.subSample <. one) = true := by decide +kernel
example : invD.data = finRows invX := rfl

/-! ### binary64 -/

/-- **C73 (sorting) is violated in binary64**: two correct sorting routines give trees with different predictions, on
four rows whose targets are 1, −2⁵⁴, 2⁵⁴, 1. -/
theorem C73_sort_violated_binary64 : ∃ (X : List (List F64)) (o : TreeOptions F64) (row : List F64) (a b : ℚ), a ≠ b ∧
    ((newTree GoSort.ins X o).bind fun t => t.predictSingle row) = .ok (.fin a) ∧
    ((newTree GoSort.insRev X o).bind fun t => t.predictSingle row) = .ok (.fin b) :=
  ⟨[[.fin 1, .fin 0], [.fin 0, .fin 0], [.fin 0, .fin 0], [.fin 0, .fin 1]],
   { (defaultGTreeOptions : TreeOptions F64) with
     y := [.fin 1, .fin (-2 ^ 54), .fin (2 ^ 54), .fin 1], maxDepth := 1, minChildWeight := .fin 1 },
   [.fin 0, .fin 0], 6004799503160661 / 18014398509481984, 0, by norm_num, by decide +kernel, by decide +kernel⟩

/-- **C73 (row order) is violated in binary64**: the mean of 2⁵⁴, −2⁵⁴, 1 depends on their order. -/
theorem C73_rows_violated_binary64 : ∃ (X : List (List F64)) (y y' : List F64) (o : TreeOptions F64) (row : List F64)
    (a b : ℚ), a ≠ b ∧ (X.zip y').Perm (X.zip y) ∧
    ((newTree GoSort.ins X { o with y := y }).bind fun t => t.predictSingle row) = .ok (.fin a) ∧
    ((newTree GoSort.ins X { o with y := y' }).bind fun t => t.predictSingle row) = .ok (.fin b) :=
  ⟨[[.fin 0], [.fin 0], [.fin 0]], [.fin (2 ^ 54), .fin (-2 ^ 54), .fin 1], [.fin (2 ^ 54), .fin 1, .fin (-2 ^ 54)],
   defaultGTreeOptions, [.fin 0], 6004799503160661 / 18014398509481984, 0, by norm_num, by decide +kernel,
   by decide +kernel, by decide +kernel⟩

/-- **C73 (units) is violated in binary64**: multiplying the features 1 and 1.5 by 2¹⁰²³, which is exact, turns a split
that separates the two rows into one that does not: their midpoint overflows. -/
theorem C73_rescale_violated_binary64 : ∃ (X : List (List F64)) (c : F64) (o : TreeOptions F64) (a b : ℚ), a ≠ b ∧
    (∀ row ∈ X, ∀ v ∈ row, ∃ x y z : ℚ, v = .fin x ∧ c = .fin y ∧ v *. c = XF.fin z ∧ z = x * y) ∧
    ((newTree GoSort.ins X o).bind fun t => X.mapM t.predictSingle) = .ok [.fin a, .fin b] ∧
    ((newTree GoSort.ins (X.map fun row => row.map (· *. c)) o).bind fun t =>
      (X.map fun row => row.map (· *. c)).mapM t.predictSingle) = .ok [.fin ((a + b) / 2), .fin ((a + b) / 2)] :=
  ⟨[[.fin 1], [.fin (3 / 2)]], .fin (2 ^ 1023),
   { (defaultGTreeOptions : TreeOptions F64) with y := [.fin 2, .fin 4], maxDepth := 1 }, 2, 4, by norm_num, by
     intro row hr v hv
     simp only [List.mem_cons, List.not_mem_nil, or_false] at hr
     rcases hr with rfl | rfl <;> (simp only [List.mem_cons, List.not_mem_nil, or_false] at hv; subst hv)
     · exact ⟨1, 2 ^ 1023, 2 ^ 1023, rfl, rfl, by decide +kernel, by norm_num⟩
     · exact ⟨3 / 2, 2 ^ 1023, 3 / 2 * 2 ^ 1023, rfl, rfl, by decide +kernel, rfl⟩, by decide +kernel, by decide +kernel⟩

end Boo
