import Verif.Props.Size
import Verif.Props.Robust
import Verif.Props.TrainFloat

/-!
# C146: when no split is possible the model is constant
-/

namespace Boo
open GoFloat
set_option linter.unusedSectionVars false

section Spec
variable {F : Type} [GoFloat F]

/-- In no column do two rows have different values. -/
def RowsAlike (X : List (List F)) (rows : List Nat) (used : Nat → Prop) : Prop :=
  ∀ i ∈ rows, ∀ j ∈ rows, ∀ f, used f → ∀ row row' a b, X[i]? = some row → X[j]? = some row' →
    row[f]? = some a → row'[f]? = some b → (a ==. b) = true

/-- The options or the rows of a tree leave no split: no depth, fewer rows than two children need, or only one value in every
column that may be used. -/
def NoSplit (X : List (List F)) (o : TreeOptions F) : Prop :=
  o.maxDepth ≤ 0 ∨ ((trainingRows X o).length : Int) < 2 * toInt o.minChildWeight ∨
  RowsAlike X (trainingRows X o) (fun f => o.allowedColumns = [] ∨ f ∈ o.allowedColumns)

/-- The `MinChildWeight` that training uses: at least 1. -/
def usedMinChildWeight (O : Options F) : F := if O.minChildWeight <. one then one else O.minChildWeight

/-- The options or the training data of a model leave no split. -/
def NoSplitData (D : DataBunch F) (O : Options F) : Prop :=
  O.maxDepth ≤ 0 ∨ (D.data.length : Int) < 2 * toInt (usedMinChildWeight O) ∨
  ∀ row ∈ D.data, ∀ row' ∈ D.data, ∀ (f : Nat) a b, row[f]? = some a → row'[f]? = some b → (a ==. b) = true

end Spec

section AnyOrder
variable {F : Type} [GoFloat F] [GoFloatOrd F]

/-- the two values between which a node is split are values of sampled rows in the column of the split -/
theorem SplitCut.values {S : GoSort} {X : List (List F)} {o : TreeOptions F} {best : Best F} (s : SplitCut S X o best) :
    (∃ i ∈ o.idx X, ∃ row, X[i]? = some row ∧ row[best.feature]? = some s.x) ∧
    (∃ i ∈ o.idx X, ∃ row, X[i]? = some row ∧ row[best.feature]? = some s.x') := by
  obtain ⟨col, hc, hrows, hlen, _⟩ := s.hscan.rows
  have : (o.fill X).indexes.getD [] = o.idx X := rfl
  rw [this, s.hcol] at hc
  cases hc
  obtain ⟨c1, c2, c3, c4, c5, c6⟩ := s.hcand
  obtain ⟨q, hq, hqx⟩ := Option.map_eq_some_iff.1 c2
  obtain ⟨q', hq', hqx'⟩ := Option.map_eq_some_iff.1 c3
  have hmem : ∀ q ∈ s.rows, q.1 ∈ s.col := by
    intro q hq
    have : q.1 ∈ s.rows.map (·.1) := List.mem_map_of_mem hq
    rw [hrows] at this
    unfold argSort at this
    simp only [List.mem_map] at this
    obtain ⟨⟨v, j⟩, hvj, hve⟩ := this
    have := (S.perm _ _).mem_iff.1 hvj
    rw [← hve]
    exact (List.of_mem_zip this).1
  have key : ∀ v ∈ s.col, ∃ i ∈ o.idx X, ∃ row, X[i]? = some row ∧ row[best.feature]? = some v := by
    intro v hv
    obtain ⟨i, hi, row, hr, hv⟩ := forall₂_left (sampleCol_ok s.hcol).flip v hv
    exact ⟨i, hi, row, hr, hv⟩
  have hxm := hmem q (List.mem_of_getElem? hq)
  have hxm' := hmem q' (List.mem_of_getElem? hq')
  rw [hqx] at hxm
  rw [hqx'] at hxm'
  exact ⟨key _ hxm, key _ hxm'⟩

/-- **C146 (trees)**: with a `MaxDepth` of 0 or less, with fewer than `2·MinChildWeight` rows, or with rows that are alike in every
allowed column, the tree is a single leaf and predicts the same number for every row, of any length. Any arithmetic. -/
theorem C146_tree (S : GoSort) (X : List (List F)) (o : TreeOptions F) (t : Tree F) (h : newTree S X o = .ok t) (hn : NoSplit X o) :
    t.size = 1 ∧ ∃ v, ∀ row, t.predictSingle row = .ok v := by
  cases t with
  | nil => exact absurd rfl (newTree_ne_nil h)
  | node i l r =>
    have hlf := C02_leaf_iff_no_children S _ o _ h [] i l r rfl
    cases hleaf : i.leaf with
    | true =>
      obtain ⟨rfl, rfl⟩ := hlf.1.1 hleaf
      refine ⟨rfl, i.value, fun row => ?_⟩
      unfold Tree.predictSingle
      rw [hleaf, if_pos rfl]
    | false =>
      exfalso
      have hl := (hlf.2.1 hleaf).1
      rcases hn with hd | hn
      · have := C01_depth S X o _ h [true] (by simpa [Tree.sub] using hl)
        simp at this
        omega
      · obtain ⟨s, _⟩ := splitNode h hl
        obtain ⟨c1, _, _, c4, c5, c6⟩ := s.hcand
        rcases hn with hn | hn
        · rw [(s.hscan.facts).2.2.1] at c4 c5
          rw [← idx_eq_trainingRows] at hn
          have e : (o.fill X).minChildWeight = o.minChildWeight := rfl
          rw [e] at c4 c5
          omega
        · obtain ⟨⟨a, ha, row, h1, h2⟩, b, hb, row', h3, h4⟩ := s.toSplitCut.values
          rw [idx_eq_trainingRows] at ha hb
          have := hn a ha b hb _ (by
            have := s.hallowed
            unfold columnAllowed at this
            simpa using this) _ _ _ _ h1 h3 h2 h4
          rw [this] at c6
          cases c6

/-- **C146 (models)**: when the options or the data leave no split, every tree of the model is a single leaf, and all rows get the
same scores, probabilities and class. Both kinds of boosting, any arithmetic. -/
theorem C146_model (exp : F → F) (S : GoSort) (draws : Nat → F) (D : DataBunch F) (O : Options F) (M : MultiClass F)
    (h : newMultiClass exp S draws D O = .ok M) (hn : NoSplitData D O) :
    (∀ ens ∈ M.b, ∀ t ∈ ens, t.size = 1) ∧
    ∀ row row', M.predictSingle row = M.predictSingle row' ∧ M.predictSingleClass row = M.predictSingleClass row' := by
  have key : ∀ ens ∈ M.b, ∀ t ∈ ens, t.size = 1 ∧ ∃ v, ∀ row, t.predictSingle row = .ok v := by
    refine newMultiClass_sampled h fun d idx cols d' hs lf y p t ht => ?_
    have hrows := roundSamples_rows hs
    have hmd : O.fixMcw.maxDepth = O.maxDepth := by unfold Options.fixMcw; split <;> rfl
    have hmc : O.fixMcw.minChildWeight = usedMinChildWeight O := by
      unfold Options.fixMcw usedMinChildWeight; split <;> rfl
    have tree : ∀ (o : TreeOptions F) t, newTree S D.data o = .ok t → o.minChildWeight = O.fixMcw.minChildWeight →
        o.maxDepth = O.fixMcw.maxDepth → (∀ l, o.indexes = some l → l.length ≤ D.data.length) →
        t.size = 1 ∧ ∃ v, ∀ row, t.predictSingle row = .ok v := by
      intro o t ht ho hm hi
      refine C146_tree S _ o t ht ?_
      rcases hn with hn | hn | hn
      · left
        rw [hm, hmd]
        exact hn
      · right; left
        have h2 : (trainingRows D.data o).length ≤ D.data.length := by
          unfold trainingRows
          split
          · rename_i l hl
            exact hi l hl
          · simp
        rw [ho, hmc]
        omega
      · right; right
        intro i _ j _ f _ row row' a b h1 h2 h3 h4
        exact hn row (List.mem_of_getElem? h1) row' (List.mem_of_getElem? h2) f a b h3 h4
    unfold classTree at ht
    cases hx : O.fixMcw.xgb with
    | true =>
      rw [hx] at ht
      obtain ⟨g, _, ht⟩ := bind_ok ht
      exact tree _ t ht rfl rfl hrows
    | false =>
      rw [hx] at ht
      obtain ⟨g, _, ht⟩ := bind_ok ht
      obtain ⟨t0, ht0, hu⟩ := bind_ok ht
      obtain ⟨h1, _⟩ := tree _ t0 ht0 rfl rfl (by intro l hl; cases hl)
      have h2 := (updateLeaves_shape hu).2.2.2.1
      rw [h1] at h2
      refine ⟨h2, ?_⟩
      cases t0 with
      | nil => simp [Tree.size] at h1
      | node i l r =>
        have hlf := C02_leaf_iff_no_children S _ _ _ ht0 [] i l r rfl
        have hsz : ∀ t : Tree F, t.size = 0 → t = .nil := by
          intro t ht
          cases t with
          | nil => rfl
          | node => simp [Tree.size] at ht
        have hl : l = .nil ∧ r = .nil := by
          simp only [Tree.size] at h1
          exact ⟨hsz l (by omega), hsz r (by omega)⟩
        have hleaf := hlf.1.2 hl
        obtain ⟨rfl, rfl⟩ := hl
        unfold updateLeaves at hu
        obtain ⟨l', e1, hu⟩ := bind_ok hu
        obtain ⟨r', e2, hu⟩ := bind_ok hu
        rw [hleaf, if_pos rfl] at hu
        obtain ⟨i', e3, hu⟩ := bind_ok hu
        obtain rfl := Except.ok.inj hu
        unfold updateLeaf at e3
        obtain ⟨⟨sh, sg⟩, _, e3⟩ := bind_ok e3
        obtain rfl := Except.ok.inj e3
        refine ⟨sg /. sh, fun row => ?_⟩
        unfold Tree.predictSingle
        exact if_pos hleaf
  refine ⟨fun ens he t ht => (key ens he t ht).1, fun row row' => predict_same M fun ens he t ht => ?_⟩
  obtain ⟨_, v, hv⟩ := key ens he t ht
  rw [hv, hv]

omit [GoFloatOrd F] in
theorem rightCount_replicate {M : MultiClass F} {p : Nat} (hlt : p < M.classLabels.length) (labels : List Int) :
    rightCount M (List.replicate labels.length p) labels = labels.count M.classLabels[p] := by
  unfold rightCount
  induction labels with
  | nil => rfl
  | cons c labels ih =>
    rw [List.length_cons, List.replicate_succ, List.zip_cons_cons, List.filter_cons, List.count_cons, ← ih]
    by_cases he : M.classLabels[p] = c
    · simp [List.getElem?_eq_getElem hlt, he]
    · simp [List.getElem?_eq_getElem hlt, he, Ne.symm he]

/-- **C146 (accuracy)**: the accuracy of such a model on any labelled rows is the share of one of its labels. -/
theorem C146_accuracy (exp : F → F) (S : GoSort) (draws : Nat → F) (D : DataBunch F) (O : Options F) (M : MultiClass F)
    (h : newMultiClass exp S draws D O = .ok M) (hn : NoSplitData D O) (D' : DataBunch F) (hne : D'.data ≠ [])
    (hl : D'.labels.length = D'.data.length) (a : F) (ha : M.accuracy D' = .ok a) :
    ∃ lab ∈ M.classLabels, a = ofRat 100 *. (ofInt (D'.labels.count lab : Nat) /. ofInt D'.data.length) := by
  obtain ⟨_, hsame⟩ := C146_model exp S draws D O M h hn
  obtain ⟨p, hp, hlt⟩ : ∃ p, (∀ row, M.predictSingleClass row = .ok p) ∧ p < M.classLabels.length := by
    unfold MultiClass.accuracy at ha
    obtain ⟨r, hr, _⟩ := bind_ok ha
    cases hd : D'.data with
    | nil => exact absurd hd hne
    | cons v vs =>
      rw [hd] at hr
      unfold MultiClass.countRight at hr
      obtain ⟨p, hp, hr⟩ := bind_ok hr
      obtain ⟨lab, hlab, _⟩ := bind_ok hr
      refine ⟨p, fun row => by rw [(hsame row v).2, hp], ?_⟩
      exact (List.getElem?_eq_some_iff.1 (goIdx_ok.1 hlab)).1
  have hpreds : ∀ data : List (List F), data.mapM M.predictSingleClass = .ok (List.replicate data.length p) := by
    intro data
    refine mapM_ok.2 ?_
    induction data with
    | nil => exact .nil
    | cons v vs ih => exact .cons (hp v) ih
  have hacc := C25_accuracy M D' _ (hpreds D'.data) (fun q hq => by rw [List.eq_of_mem_replicate hq]; exact hlt) hl
  rw [ha] at hacc
  refine ⟨M.classLabels[p], List.getElem_mem hlt, ?_⟩
  rw [Except.ok.inj hacc, ← hl]
  congr 3
  exact_mod_cast rightCount_replicate hlt D'.labels

end AnyOrder

/-- **C146 (default options)**: with the default options of either kind of boosting, in float64, any training set of at most five rows
gives a model that predicts the same for all rows, whatever it was trained on. -/
theorem C146_default (exp : F64 → F64) (S : GoSort) (draws : Nat → F64) (D : DataBunch F64) (id : Nat) (O : Options F64)
    (hO : O = defaultOptions id ∨ O = defaultXOptions id ∨ O = defaultGOptions id) (h5 : D.data.length ≤ 5) (M : MultiClass F64)
    (h : newMultiClass exp S draws D O = .ok M) :
    (∀ ens ∈ M.b, ∀ t ∈ ens, t.size = 1) ∧
    ∀ row row', M.predictSingle row = M.predictSingle row' ∧ M.predictSingleClass row = M.predictSingleClass row' := by
  refine C146_model exp S draws D O M h (Or.inr (Or.inl ?_))
  have : O.minChildWeight = ofRat 3 := by rcases hO with rfl | rfl | rfl <;> rfl
  unfold usedMinChildWeight
  rw [this, show ((ofRat 3 : F64) <. one) = false by decide +kernel]
  simp only [Bool.false_eq_true, if_false]
  rw [show toInt (ofRat 3 : F64) = 3 by decide +kernel]
  omega

/-- five rows of `trainD64` with three labels -/
def fiveD64 : DataBunch F64 := { data := trainX.take 5, labels := [0, 0, 7, 7, 9], keys := [], floatLabels := [] }

theorem fiveD64_apart : Apart64 fiveD64.data :=
  ⟨fun row hr => trainX_apart.1 row (List.mem_of_mem_take hr),
   fun f row row' a b hr hr' => trainX_apart.2 f row row' a b (List.mem_of_mem_take hr) (List.mem_of_mem_take hr')⟩

/-- the hypotheses are met: twenty rounds are trained on five rows with three labels, and all predictions are alike -/
example : ∃ (exp : F64 → F64) (M : MultiClass F64), ExpFloat exp ∧
    newMultiClass exp GoSort.ins (fun _ => .fin 0) fiveD64 (defaultOptions 0) = .ok M ∧ M.b.length = 20 ∧
    ∀ row row', M.predictSingle row = M.predictSingle row' := by
  obtain ⟨exp, hexp⟩ := expFloat_exists
  obtain ⟨M, hM⟩ := C22_returns_binary64 exp GoSort.ins (fun _ => .fin 0) fiveD64 (defaultXOptions 0) (by decide)
    ⟨1, by decide⟩ fiveD64_apart (by decide) _ rfl sqErrLoss_regular ⟨by decide +kernel, by decide +kernel⟩
    (fun _ => by decide)
  have hb : M.b.length = 20 := by
    rw [(C22_rounds _ _ _ _ _ _ hM).1]
    decide +kernel
  exact ⟨exp, M, hexp, hM, hb, fun row row' => ((C146_default exp _ _ _ 0 _ (Or.inl rfl) (by decide) M hM).2 row row').1⟩

/-- the other two conditions are met by data with which training can return: no depth, and rows that are alike -/
example : NoSplitData trainD64 { (defaultXOptions 0 : Options F64) with maxDepth := 0 } ∧
    NoSplitData (⟨[[.fin 4, .fin 0], [.fin 4, .fin 0]], [], [1, 2], []⟩ : DataBunch F64)
      { (defaultGOptions 0 : Options F64) with minChildWeight := .fin 0 } := by
  refine ⟨Or.inl (by decide), Or.inr (Or.inr ?_)⟩
  intro row hr row' hr' f a b ha hb
  simp only [List.mem_cons, List.not_mem_nil, or_false, or_self] at hr hr'
  subst hr hr'
  rw [ha] at hb
  cases hb
  have : a ∈ [(.fin 4 : F64), .fin 0] := List.mem_of_getElem? ha
  simp only [List.mem_cons, List.not_mem_nil, or_false] at this
  rcases this with rfl | rfl <;> decide +kernel

/-- six rows are enough for a split with the default options: the bound of five rows is the largest -/
theorem C146_six : ∃ t : Tree F64, newTree GoSort.ins trainX { (defaultXTreeOptions : TreeOptions F64) with
    gradients := some [.fin (-1), .fin 1, .fin 1, .fin (-1), .fin (-1), .fin 1],
    hessian := some [.fin 1, .fin 1, .fin 1, .fin 1, .fin 1, .fin 1], minChildWeight := ofRat 3 } = .ok t ∧ t.size = 3 := by
  have h : (match newTree GoSort.ins trainX { (defaultXTreeOptions : TreeOptions F64) with
      gradients := some [.fin (-1), .fin 1, .fin 1, .fin (-1), .fin (-1), .fin 1],
      hessian := some [.fin 1, .fin 1, .fin 1, .fin 1, .fin 1, .fin 1], minChildWeight := ofRat 3 } with
    | .ok t => decide (t.size = 3)
    | .error _ => false) = true := by decide +kernel
  revert h
  cases newTree GoSort.ins trainX { (defaultXTreeOptions : TreeOptions F64) with
      gradients := some [.fin (-1), .fin 1, .fin 1, .fin (-1), .fin (-1), .fin 1],
      hessian := some [.fin 1, .fin 1, .fin 1, .fin 1, .fin 1, .fin 1], minChildWeight := ofRat 3 } with
  | error e => intro h; cases h
  | ok t => intro h; exact ⟨t, rfl, of_decide_eq_true h⟩

end Boo
