import Verif.Props.ColOrder
import Verif.Props.EarlyRun

/-!
# C102: the order of the columns, for models with early stopping
-/

namespace Boo
open GoFloat
set_option linter.unusedSectionVars false
variable {F : Type} [GoFloat F]

/-- `o` are the options of the tree in place `(r, k)` of the table of a run. -/
def FittedAt (exp : F → F) (draws : Nat → F) (D : DataBunch F) (O : Options F) (classes : List Int)
    (A : List (List (Option (Tree F)))) (r k : Nat) (o : TreeOptions F) : Prop :=
  ∃ lab lv round q g, classes[k]? = some lab ∧ O.loss = some lv ∧
    (executedRounds D.data O draws O.rounds.toNat)[r]? = some round ∧
    AlignedProbs exp O.baseScore O.learningRate classes.length (madeBefore A r k) D.data k q ∧
    (O.xgb = true → lv.fn.gradients (indicator D.labels lab) q = .ok g ∧
      o = xgbTreeOptions O (if rowSub O then some (roundRows D.data O draws round) else none)
          (roundCols D.data O draws round) g (lv.fn.hessian q) (indicator D.labels lab) D.data.length) ∧
    (O.xgb = false → lv.fn.negGradients (indicator D.labels lab) q = .ok g ∧ o = regTreeOptions O g D.data.length)

variable [GoFloatOrd F]

/-- the fitted tree for the reordered data -/
theorem fittedTree_reorder {S : GoSort} {draws : Nat → F} {D : DataBunch F} {O : Options F} {lab : Int} {lv : LossVal F} {round : Nat}
    {q : List F} {tree tree' : Tree F} {n : Nat} {p : List Nat} (hp : p.Perm (List.range n)) (hrect : ∀ row ∈ D.data, row.length = n)
    (hcs : colSub O = false) (h : FittedTree S draws D O lab lv round q tree)
    (h' : FittedTree S draws { D with data := D.data.map (reorder p) } O lab lv round q tree')
    (hties : ∀ g o, (O.xgb = true → lv.fn.gradients (indicator D.labels lab) q = .ok g ∧
      o = xgbTreeOptions O (if rowSub O then some (roundRows D.data O draws round) else none)
          (roundCols D.data O draws round) g (lv.fn.hessian q) (indicator D.labels lab) D.data.length) →
      (O.xgb = false → lv.fn.negGradients (indicator D.labels lab) q = .ok g ∧ o = regTreeOptions O g D.data.length) →
      NoTies S D.data o tree) : tree' = tree.renumber p ∧ tree.SplitsBelow n := by
  obtain ⟨_, x2, x3, x4⟩ := executedRounds_reorder p D.data O hcs draws
  cases hx : O.xgb with
  | true =>
    obtain ⟨g, y1, y2⟩ := h.1 hx
    obtain ⟨g', z1, z2⟩ := h'.1 hx
    simp only at z1 z2
    rw [y1] at z1
    cases z1
    obtain ⟨w1, w2, _⟩ := newTreeD_reorder hp hrect _ _ tree y2 (hties g _
      (fun _ => ⟨y1, rfl⟩) (fun hf => by rw [hx] at hf; cases hf))
    refine ⟨?_, w2⟩
    rw [x2, x3, List.length_map] at z2
    rw [x4] at w1
    unfold newTree at z2
    have : (xgbTreeOptions O (if rowSub O then some (roundRows D.data O draws round) else none) [] g (lv.fn.hessian q)
        (indicator D.labels lab) D.data.length).reorder p = xgbTreeOptions O (if rowSub O then some (roundRows D.data O draws round) else none) [] g (lv.fn.hessian q)
        (indicator D.labels lab) D.data.length := rfl
    rw [this] at w1
    exact Except.ok.inj (z2.symm.trans w1)
  | false =>
    obtain ⟨g, t0, y1, y2, y3⟩ := h.2 hx
    obtain ⟨g', t0', z1, z2, z3⟩ := h'.2 hx
    simp only at z1 z2
    rw [y1] at z1
    cases z1
    have ho := hties g _ (fun hf => by rw [hx] at hf; cases hf) (fun _ => ⟨y1, rfl⟩)
    obtain ⟨w1, w2, _⟩ := newTreeD_reorder hp hrect _ _ t0 y2 (y3.noTies y2 ho)
    rw [List.length_map] at z2
    unfold newTree at z2
    have : (regTreeOptions O g D.data.length).reorder p = regTreeOptions O g D.data.length := rfl
    rw [this] at w1
    have e : t0' = t0.renumber p := Except.ok.inj (z2.symm.trans w1)
    subst e
    exact ⟨y3.renumber_eq z3, y3.below w2⟩

/-- **C102 (models with early stopping), partial**: for a model trained with or without early stopping (`A` is the table of its
trees, which `C134_model` provides), if no two columns tie in a fitted tree, the model trained on the reordered columns is the
same model with the columns renumbered: same classes stopped in the same rounds, same predictions for reordered rows, same
importances. Missing: ties (`C102_violated`) and column subsampling (`C102_violated_columns`). -/
theorem C102_stopped_partial (exp : F → F) (S : GoSort) (draws : Nat → F) (D : DataBunch F) (O : Options F) (M M' : MultiClass F)
    (n : Nat) (hrect : ∀ row ∈ D.data, row.length = n) (p : List Nat) (hp : p.Perm (List.range n))
    (h : newMultiClass exp S draws D O = .ok M)
    (h' : newMultiClass exp S draws { D with data := D.data.map (reorder p) } O = .ok M')
    (hd : D.data.length = D.labels.length) (hb : (O.baseScore *. one) = O.baseScore) (hcs : colSub O = false)
    (A : List (List (Option (Tree F)))) (L : Nat → Nat → F) (hA : StoppedRun exp S draws D O M.classLabels A L)
    (hties : ∀ r k tree o, placeOf A r k = some tree → FittedAt exp draws D O M.classLabels A r k o → NoTies S D.data o tree) :
    M' = { M with b := M.b.map fun ens => ens.map (Tree.renumber p) } ∧
    (∀ row : List F, row.length = n → M'.predictSingle (reorder p row) = M.predictSingle row ∧
      M'.predictSingleClass (reorder p row) = M.predictSingleClass row) ∧
    (∃ fs fs', M.featureImportance S = .ok fs ∧ M'.featureImportance S = .ok fs' ∧ SameImportance p n fs.items fs'.items) ∧
    ∃ L', StoppedRun exp S draws { D with data := D.data.map (reorder p) } O M.classLabels
      (A.map (List.map (Option.map (Tree.renumber p)))) L' := by
  obtain ⟨A0, L0, hA0, hM0⟩ := C134_model exp S draws D O M h hd hb
  rw [C134_unique _ _ _ _ _ _ _ _ _ _ hA hA0] at hM0
  obtain ⟨A', L', hA', hM'⟩ := C134_model exp S draws _ O M' h' (by simpa using hd) hb
  obtain ⟨c1, c2, c3⟩ := C22_rounds exp S draws D O M h
  obtain ⟨c1', c2', c3'⟩ := C22_rounds exp S draws _ O M' h'
  obtain ⟨x1, x2, x3, x4⟩ := executedRounds_reorder p D.data O hcs draws
  have hcl : M'.classLabels = M.classLabels := by rw [c2, c2']
  rw [hcl] at hA'
  obtain ⟨e1, e2⟩ := StoppedRun.agree (f := Tree.renumber p) (P := fun t => t.SplitsBelow n) (ρ := reorder p) hA hA' rfl rfl x1
    (by unfold sampleCount; simp only [x2])
    (fun row hrow t ht => renumber_predict hp ht row (hrect row hrow))
    (fun r k tree tree' lab lv round q g1 g2 g3 g4 g5 g6 g7 => fittedTree_reorder hp hrect hcs g6 g7
      fun g o k1 k2 => hties r k tree o g1 ⟨lab, lv, round, q, g, g2, g3, g4, g5, k1, k2⟩)
  have hbb : M'.b = M.b.map fun ens => ens.map (Tree.renumber p) := by
    rw [hM', e1, hM0, List.map_map, List.map_map]
    apply List.map_congr_left
    intro ens _
    simp only [Function.comp]
    rw [List.filterMap_map, List.map_filterMap]
    rfl
  have hbelow : ∀ ens ∈ M.b, ∀ t ∈ ens, t.SplitsBelow n := by
    intro ens hens t ht
    rw [hM0] at hens
    obtain ⟨row, h1, rfl⟩ := List.mem_map.1 hens
    obtain ⟨r, hr⟩ := List.mem_iff_getElem?.1 h1
    obtain ⟨x, hx, hxt⟩ := List.mem_filterMap.1 ht
    obtain ⟨k, hk⟩ := List.mem_iff_getElem?.1 hx
    refine e2 r k t ?_
    unfold placeOf
    rw [hr, Option.bind_some, hk]
    exact hxt
  have hM : M' = { M with b := M.b.map fun ens => ens.map (Tree.renumber p) } := by
    obtain ⟨labels, st, ht, rfl⟩ := newMultiClass_inv h
    obtain ⟨labels', st', ht', rfl⟩ := newMultiClass_inv h'
    obtain ⟨_, hlab, _⟩ := train_inv ht
    obtain ⟨_, hlab', _⟩ := train_inv ht'
    unfold toModel at hbb ⊢
    simp only at hbb hlab'
    rw [hbb, hlab', hlab]
  have hpred : ∀ row : List F, row.length = n → M'.predictSingle (reorder p row) = M.predictSingle row := by
    intro row hrow
    rw [hM]
    refine MultiClass.predict_congr ?_
    rw [List.forall₂_map_right_iff, List.forall₂_same]
    intro ens hens
    rw [List.forall₂_map_right_iff, List.forall₂_same]
    intro t ht
    exact renumber_predict hp (hbelow ens hens t ht) row hrow
  refine ⟨hM, fun row hrow => ⟨hpred row hrow, ?_⟩, ?_, L', e1 ▸ hA'⟩
  · unfold MultiClass.predictSingleClass
    rw [hpred row hrow]
  · have hc := trained_consistent h
    obtain ⟨fs, a1, a2, _⟩ := C14_trained exp S draws D O M h
    obtain ⟨fs', b1, b2, _⟩ := C14_trained exp S draws _ O M' h'
    refine ⟨fs, fs', a1, b1, totals_renumber hp ?_ a2 ?_⟩
    · intro s hs
      unfold MultiClass.splits at hs
      simp only [List.mem_flatMap] at hs
      obtain ⟨ens, h1, t, h2, h3⟩ := hs
      exact splits_below (hc ens h1 t h2).2 (hbelow ens h1 t h2) s h3
    · have : M'.splits = M.splits.map fun s => (p.idxOf s.1, s.2) := by
        unfold MultiClass.splits
        rw [hbb, List.map_flatMap, List.flatMap_map]
        apply List.flatMap_congr
        intro ens hens
        rw [List.map_flatMap, List.flatMap_map]
        apply List.flatMap_congr
        intro t ht
        exact renumber_splits p (hc ens hens t ht).2
      rw [this] at b2
      exact b2

/-! ### The hypotheses are met -/

/-- the table of a run in which all classes are stopped in the same round -/
def fillIn (m : Nat) (b : List (List (Tree F))) : List (List (Option (Tree F))) :=
  b.map fun ens => if ens = [] then List.replicate m none else ens.map some

omit [GoFloat F] [GoFloatOrd F] in
theorem fillIn_eq {m : Nat} {A : List (List (Option (Tree F)))} (hw : ∀ ens ∈ A, ens.length = m)
    (h : ∀ ens ∈ A.map (List.filterMap id), ens.length = m ∨ ens = []) : A = fillIn m (A.map (List.filterMap id)) := by
  unfold fillIn
  rw [List.map_map]
  symm
  rw [List.map_congr_left (g := id), List.map_id]
  intro ens hens
  simp only [Function.comp, id]
  have full : ∀ ens : List (Option (Tree F)), (ens.filterMap id).length = ens.length → (ens.filterMap id).map some = ens := by
    intro ens
    induction ens with
    | nil => intro _; rfl
    | cons a ens ih =>
      intro hl
      cases a with
      | none =>
        rw [List.filterMap_cons_none rfl] at hl
        have := List.length_filterMap_le id ens
        rw [List.length_cons] at hl
        omega
      | some t =>
        rw [List.filterMap_cons_some (f := id) (b := t) rfl] at hl ⊢
        simp only [List.length_cons, Nat.add_right_cancel_iff] at hl
        rw [List.map_cons, ih hl]
  have hl := hw ens hens
  split
  · rename_i he
    rw [List.filterMap_eq_nil_iff] at he
    apply List.ext_getElem (by simp [hl])
    intro i h1 h2
    rw [List.getElem_replicate]
    exact (he _ (List.getElem_mem h2)).symm
  · rename_i he
    rcases h _ (List.mem_map_of_mem hens) with h1 | h1
    · exact full ens (h1.trans hl.symm)
    · exact absurd h1 he

/-- the probabilities of class `k` given by the trees in `A` -/
def alignedProbsOf (exp : F → F) (base lr : F) (m : Nat) (A : List (List (Option (Tree F)))) (data : List (List F)) (k : Nat) :
    Go (List F) :=
  data.mapM fun row => do
    let s ← alignedScores base lr m A row
    let probs ← softMax exp s none
    goIdx probs k

omit [GoFloatOrd F] in
theorem alignedProbsOf_eq {exp : F → F} {base lr : F} {m : Nat} {A : List (List (Option (Tree F)))} {data : List (List F)} {k : Nat}
    {q : List F} (h : AlignedProbs exp base lr m A data k q) : alignedProbsOf exp base lr m A data k = .ok q := by
  obtain ⟨h1, h2⟩ := h
  unfold alignedProbsOf
  induction data generalizing q with
  | nil => rw [List.length_eq_zero_iff.1 h1]; rfl
  | cons row data ih =>
    obtain ⟨s, probs, a1, a2, v, a3, a4⟩ := h2 0 row rfl
    cases q with
    | nil => cases a4
    | cons w q =>
      cases a4
      rw [List.mapM_cons, a1]
      simp only [bind, Except.bind, a2, goIdx, a3]
      have := ih (q := q) (by simpa using h1) fun i row hi => h2 (i + 1) row hi
      simp only [bind, Except.bind, goIdx] at this
      rw [this]
      rfl

/-- are there ties in one of the trees of the table? -/
def tableNoTies (exp : F → F) (S : GoSort) (draws : Nat → F) (D : DataBunch F) (O : Options F) (n : Nat) (classes : List Int)
    (A : List (List (Option (Tree F)))) : Bool :=
  (List.range A.length).all fun r => (List.range classes.length).all fun k =>
    match placeOf A r k with
    | none => true
    | some t =>
      match classes[k]?, O.loss, (executedRounds D.data O draws O.rounds.toNat)[r]?,
        alignedProbsOf exp O.baseScore O.learningRate classes.length (madeBefore A r k) D.data k with
      | some lab, some lv, some round, .ok q =>
        if O.xgb then
          match lv.fn.gradients (indicator D.labels lab) q with
          | .ok g => noTiesB S D.data n (xgbTreeOptions O (if rowSub O then some (roundRows D.data O draws round) else none)
            (roundCols D.data O draws round) g (lv.fn.hessian q) (indicator D.labels lab) D.data.length) t
          | .error _ => false
        else
          match lv.fn.negGradients (indicator D.labels lab) q with
          | .ok g => noTiesB S D.data n (regTreeOptions O g D.data.length) t
          | .error _ => false
      | _, _, _, _ => false

omit [GoFloatOrd F] in
theorem tableNoTies_spec {exp : F → F} {S : GoSort} {draws : Nat → F} {D : DataBunch F} {O : Options F} {n : Nat} {classes : List Int}
    {A : List (List (Option (Tree F)))} {L : Nat → Nat → F} (hA : StoppedRun exp S draws D O classes A L)
    (hcons : ∀ r k t, placeOf A r k = some t → t.Consistent) (hrect : ∀ row ∈ D.data, row.length = n)
    (hn : tableNoTies exp S draws D O n classes A = true) :
    ∀ r k tree o, placeOf A r k = some tree → FittedAt exp draws D O classes A r k o → NoTies S D.data o tree := by
  intro r k tree o ht ⟨lab, lv, round, q, g, f1, f2, f3, f4, f5, f6⟩
  obtain ⟨hr, hk⟩ := placeOf_lt hA.width (by rw [ht]; rfl)
  have hc := hcons r k tree ht
  unfold tableNoTies at hn
  rw [List.all_eq_true] at hn
  have hn := hn r (List.mem_range.2 hr)
  rw [List.all_eq_true] at hn
  have hn := hn k (List.mem_range.2 hk)
  rw [ht, f1, f2, f3, alignedProbsOf_eq f4] at hn
  simp only at hn
  have hrow : ∀ row0, D.data[0]? = some row0 → row0.length = n := fun row0 h0 => hrect row0 (List.mem_of_getElem? h0)
  cases hx : O.xgb with
  | true =>
    obtain ⟨e1, rfl⟩ := f5 hx
    rw [if_pos hx, e1] at hn
    exact noTiesB_spec hrow hc hn
  | false =>
    obtain ⟨e1, rfl⟩ := f6 hx
    rw [if_neg (by simp [hx]), e1] at hn
    exact noTiesB_spec hrow hc hn

/-- xgboost with row subsampling and early stopping; both classes are stopped after the second of four rounds -/
def orderStop : Options F64 := { orderXgb with earlyStop := 1, rounds := 4 }

/-- the hypotheses of `C102_stopped_partial` are met, by a model with stopped classes -/
example : ∃ M M' A L, newMultiClass (fun _ => one) GoSort.ins (fun _ => .fin 0) orderData orderStop = .ok M ∧
    newMultiClass (fun _ => one) GoSort.ins (fun _ => .fin 0) { orderData with data := orderData.data.map (reorder [1, 0]) } orderStop = .ok M' ∧
    StoppedRun (fun _ => one) GoSort.ins (fun _ => .fin 0) orderData orderStop M.classLabels A L ∧
    (∀ r k tree o, placeOf A r k = some tree → FittedAt (fun _ => one) (fun _ => .fin 0) orderData orderStop M.classLabels A r k o →
      NoTies GoSort.ins orderData.data o tree) ∧ 8 ≤ M.splits.length ∧ M.b.map List.length = [2, 2, 0, 0] := by
  have h : (match newMultiClass (fun _ => one) GoSort.ins (fun _ => .fin 0) orderData orderStop,
        newMultiClass (fun _ => one) GoSort.ins (fun _ => .fin 0) { orderData with data := orderData.data.map (reorder [1, 0]) } orderStop with
      | .ok M, .ok _ => tableNoTies (fun _ => one) GoSort.ins (fun _ => .fin 0) orderData orderStop 2 M.classLabels (fillIn 2 M.b) &&
          decide (8 ≤ M.splits.length ∧ M.b.map List.length = [2, 2, 0, 0] ∧ M.classLabels.length = 2)
      | _, _ => false) = true := by decide +kernel
  split at h
  · rename_i M M' hM hM'
    rw [Bool.and_eq_true] at h
    obtain ⟨h1, h2⟩ := h
    obtain ⟨h2, h3, h4⟩ := of_decide_eq_true h2
    obtain ⟨A, L, hA, hb⟩ := C134_model _ _ _ _ _ M hM (by decide) (by decide +kernel)
    have hfill : A = fillIn 2 M.b := by
      rw [hb]
      refine fillIn_eq (by rw [← h4]; exact hA.width) fun ens hens => ?_
      rw [← hb] at hens
      have : ens.length ∈ M.b.map List.length := List.mem_map_of_mem hens
      rw [h3] at this
      simp at this
      rcases this with h | h
      · exact Or.inl h
      · exact Or.inr h
    refine ⟨M, M', A, L, hM, hM', hA, tableNoTies_spec (n := 2) hA ?_ (by decide +kernel) (by rw [hfill]; exact h1), h2, h3⟩
    intro r k t ht
    have hmem : ∃ ens ∈ M.b, t ∈ ens := by
      unfold placeOf at ht
      cases hr : A[r]? with
      | none => rw [hr] at ht; cases ht
      | some row =>
        rw [hr, Option.bind_some] at ht
        refine ⟨row.filterMap id, by rw [hb]; exact List.mem_map_of_mem (List.mem_of_getElem? hr), ?_⟩
        exact List.mem_filterMap.2 ⟨some t, List.mem_of_getElem? (Option.join_eq_some_iff.1 ht), rfl⟩
    obtain ⟨ens, e1, e2⟩ := hmem
    exact (trained_consistent hM ens e1 t e2).2
  · cases h

end Boo
