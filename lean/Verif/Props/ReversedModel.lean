import Verif.Props.Reversed
import Verif.Props.ColOrder
import Verif.Props.ImportanceModel
import Verif.Lemmas.Memorize
import Verif.Props.Separable

/-!
# C148 for trained models: turning the order of columns round
-/

namespace Boo
open GoFloat Spec

/-! ### two trainings on data of the same shape -/

section Any
variable {F : Type} [GoFloat F]

/-- the trees give row `i` of `X` and of `X'` the same prediction, for all `i` -/
def SameOn (X X' : List (List F)) (t t' : Tree F) : Prop :=
  ∀ (i : Nat) row row', X[i]? = some row → X'[i]? = some row' → t'.predictSingle row' = t.predictSingle row

/-- the trees made before round `r`, class `k` agree on the rows -/
def SameBefore (X X' : List (List F)) (b b' : List (List (Tree F))) (r k : Nat) : Prop :=
  ∀ r' j, (r' < r ∨ r' = r ∧ j < k) → Option.Rel (SameOn X X') (treeAt b r' j) (treeAt b' r' j)

theorem filterMap_rel {α β : Type} {R : β → β → Prop} {f g : α → Option β} (l : List α) (h : ∀ a ∈ l, Option.Rel R (f a) (g a)) :
    List.Forall₂ R (l.filterMap f) (l.filterMap g) := by
  induction l with
  | nil => exact .nil
  | cons a l ih =>
    have h1 := h a List.mem_cons_self
    have h2 := ih fun b hb => h b (List.mem_cons_of_mem _ hb)
    rw [List.filterMap_cons, List.filterMap_cons]
    revert h1
    cases f a <;> cases g a <;> intro h1
    · exact h2
    · cases h1
    · cases h1
    · cases h1 with
      | some h1 => exact .cons h1 h2

theorem scoreAfter_same {base lr : F} {ts ts' : List (Tree F)} {row row' : List F}
    (h : List.Forall₂ (fun t t' => t'.predictSingle row' = t.predictSingle row) ts ts') : scoreAfter base lr ts' row' = scoreAfter base lr ts row := by
  unfold scoreAfter
  induction h generalizing base with
  | nil => rfl
  | cons h1 _ ih =>
    rename_i t t' ts ts' _
    rw [List.foldlM_cons, List.foldlM_cons, h1]
    cases t.predictSingle row with
    | error e => rfl
    | ok v => exact ih

theorem scoresBefore_same {X X' : List (List F)} {M M' : MultiClass F}
    (hcl : M'.classLabels = M.classLabels) (hlr : M'.learningRate = M.learningRate) (hbs : M'.baseScore = M.baseScore)
    {r k : Nat} (h : SameBefore X X' M.b M'.b r k) {i : Nat} {row row' : List F} (hr : X[i]? = some row) (hr' : X'[i]? = some row') :
    scoresBefore M' r k row' = scoresBefore M r k row := by
  unfold scoresBefore
  rw [hcl, hlr, hbs]
  congr 1
  funext j
  rw [treesOf_take, treesOf_take]
  refine scoreAfter_same ((filterMap_rel _ fun r' hr2 => h r' j ?_).imp fun t t' ht => ht i row row' hr hr')
  have := List.mem_range.1 hr2
  split at this <;> omega

theorem probsBefore_same {exp : F → F} {X X' : List (List F)} (hlen : X'.length = X.length) {M M' : MultiClass F}
    (hcl : M'.classLabels = M.classLabels) (hlr : M'.learningRate = M.learningRate) (hbs : M'.baseScore = M.baseScore)
    {r k : Nat} (h : SameBefore X X' M.b M'.b r k) {q q' : List F}
    (h1 : ProbsBefore exp M X r k q) (h2 : ProbsBefore exp M' X' r k q') : q' = q := by
  obtain ⟨a1, a2⟩ := h1
  obtain ⟨b1, b2⟩ := h2
  apply List.ext_getElem?
  intro i
  by_cases hi : i < X.length
  · have hd := List.getElem?_eq_getElem hi
    have hd' := List.getElem?_eq_getElem (hlen ▸ hi : i < X'.length)
    obtain ⟨s, pr, c1, c2, v, c3, c4⟩ := a2 i _ hd
    obtain ⟨s', pr', d1, d2, v', d3, d4⟩ := b2 i _ hd'
    rw [scoresBefore_same hcl hlr hbs h hd hd', c1] at d1
    cases d1
    rw [c2] at d2
    cases d2
    rw [c3] at d3
    cases d3
    rw [c4, d4]
  · rw [List.getElem?_eq_none_iff.2 (by omega), List.getElem?_eq_none_iff.2 (by omega)]

theorem rounds_same {X X' : List (List F)} (hlen : X'.length = X.length) (hw : (X'.headD []).length = (X.headD []).length) (O : Options F)
    (draws : Nat → F) : executedRounds X' O draws O.rounds.toNat = executedRounds X O draws O.rounds.toNat ∧
    (∀ r, roundRows X' O draws r = roundRows X O draws r) ∧ (∀ r, roundCols X' O draws r = roundCols X O draws r) := by
  have h0 : drawsPerRound X' O = drawsPerRound X O := by
    unfold drawsPerRound
    rw [hlen, hw]
  have h1 : ∀ r, roundRows X' O draws r = roundRows X O draws r := by
    intro r
    unfold roundRows
    rw [hlen, h0]
  refine ⟨?_, h1, fun r => ?_⟩
  · unfold executedRounds sampleCount
    simp only [h1]
  · unfold roundCols
    rw [hlen, h0, hw]

theorem optionRel_mono {α : Type} {R R' : α → α → Prop} (h : ∀ a b, R a b → R' a b) {x y : Option α} (hr : Option.Rel R x y) : Option.Rel R' x y := by
  cases hr with
  | some h1 => exact .some (h _ _ h1)
  | none => exact .none

/-- If corresponding trees, fitted to the same gradients, are related, all trees are. `R` is a relation of trees that agree on the rows. -/
theorem model_same {exp : F → F} {S S' : GoSort} {draws : Nat → F} {D : DataBunch F} {X' : List (List F)} {O : Options F}
    {M M' : MultiClass F} {R : Tree F → Tree F → Prop} (hR : ∀ t t', R t t' → SameOn D.data X' t t') (hlen : X'.length = D.data.length) (hw : (X'.headD []).length = (D.data.headD []).length)
    (h : newMultiClass exp S draws D O = .ok M) (h' : newMultiClass exp S' draws { D with data := X' } O = .ok M')
    (hd : D.data.length = D.labels.length) (hb : (O.baseScore *. one) = O.baseScore) (hes : O.earlyStop ≤ 0)
    (hx : ∀ r k tree tree' o, treeAt M.b r k = some tree → FittedWith exp draws D O M r k o → O.xgb = true → newTree S D.data o = .ok tree →
      newTree S' X' o = .ok tree' → R tree tree')
    (hr : ∀ r k tree tree' o g hs t0 t0', treeAt M.b r k = some tree → FittedWith exp draws D O M r k o → O.xgb = false →
      newTree S D.data o = .ok t0 → newTree S' X' o = .ok t0' → NewtonOf g hs t0 tree → NewtonOf g hs t0' tree' → R tree tree') :
    M'.classLabels = M.classLabels ∧ M'.learningRate = M.learningRate ∧ M'.baseScore = M.baseScore ∧ M'.b.length = M.b.length ∧
    ∀ r k, Option.Rel R (treeAt M.b r k) (treeAt M'.b r k) := by
  obtain ⟨_, _, _, m4, m5, m6, m7⟩ := C72_metadata exp S draws D O M h
  obtain ⟨_, _, _, m4', m5', m6', m7'⟩ := C72_metadata exp S' draws _ O M' h'
  obtain ⟨c1, c2, c3⟩ := C22_rounds exp S draws D O M h
  obtain ⟨c1', c2', c3'⟩ := C22_rounds exp S' draws _ O M' h'
  obtain ⟨x1, x2, x3⟩ := rounds_same hlen hw O draws
  have hcl : M'.classLabels = M.classLabels := by rw [c2, c2']
  have hlr : M'.learningRate = M.learningRate := by rw [m4, m4']
  have hbs : M'.baseScore = M.baseScore := by rw [m5, m5']
  have hbl : M'.b.length = M.b.length := by rw [c1, c1']; exact congrArg List.length x1
  have step : ∀ r k, SameBefore D.data X' M.b M'.b r k → Option.Rel R (treeAt M.b r k) (treeAt M'.b r k) := by
    intro r k hag
    by_cases hr1 : r < M.b.length
    swap
    · unfold treeAt
      rw [List.getElem?_eq_none_iff.2 (by omega : M.b.length ≤ r), List.getElem?_eq_none_iff.2 (by omega : M'.b.length ≤ r)]
      exact .none
    have hr1' : r < M'.b.length := by omega
    have e1 := List.getElem?_eq_getElem hr1
    have e1' := List.getElem?_eq_getElem hr1'
    have l1 := c3 hes _ (List.getElem_mem hr1)
    have l1' := c3' hes _ (List.getElem_mem hr1')
    by_cases hk : k < M.classLabels.length
    swap
    · unfold treeAt
      rw [hcl] at l1'
      rw [e1, e1']
      simp only [Option.bind_some]
      rw [List.getElem?_eq_none_iff.2 (by omega), List.getElem?_eq_none_iff.2 (by omega)]
      exact .none
    have hk1 : k < (M.b[r]).length := by omega
    have hk1' : k < (M'.b[r]).length := by rw [l1', hcl]; exact hk
    have e2 := List.getElem?_eq_getElem hk1
    have e2' := List.getElem?_eq_getElem hk1'
    have t1 : treeAt M.b r k = some (M.b[r])[k] := by unfold treeAt; rw [e1]; exact e2
    have t1' : treeAt M'.b r k = some (M'.b[r])[k] := by unfold treeAt; rw [e1']; exact e2'
    obtain ⟨lab, lv, round, q, f1, f2, f3, f4, f5, f6⟩ := C70_fitted exp S draws D O M h hd hb (c3 hes) r k _ _ e1 e2
    obtain ⟨lab', lv', round', q', g1, g2, g3, g4, g5, g6⟩ := C70_fitted exp S' draws _ O M' h'
      (by rw [← hd]; exact hlen) hb (c3' hes) r k _ _ e1' e2'
    rw [hcl, f1] at g1
    cases g1
    rw [f2] at g2
    cases g2
    simp only at g3 g4 g5 g6
    rw [x1, f3] at g3
    cases g3
    have hq := probsBefore_same hlen hcl hlr hbs hag f4 g4
    subst hq
    rw [t1, t1']
    generalize (M.b[r])[k] = tree at *
    generalize (M'.b[r])[k] = tree' at *
    refine .some ?_
    cases hxx : O.xgb with
    | true =>
      obtain ⟨g, y1, y2⟩ := f5 hxx
      obtain ⟨g', z1, z2⟩ := g5 hxx
      rw [y1] at z1
      cases z1
      rw [x2, x3, hlen] at z2
      exact hx r k tree tree' _ t1
        ⟨lab, lv, round, q', g, f1, f2, f3, f4, fun _ => ⟨y1, rfl⟩, fun hf => by rw [hxx] at hf; cases hf⟩ hxx y2 z2
    | false =>
      obtain ⟨g, t0, y1, y2, y3⟩ := f6 hxx
      obtain ⟨g', t0', z1, z2, z3⟩ := g6 hxx
      rw [y1] at z1
      cases z1
      rw [hlen] at z2
      exact hr r k tree tree' _ g _ t0 t0' t1
        ⟨lab, lv, round, q', g, f1, f2, f3, f4, (fun hf => by rw [hxx] at hf; cases hf), fun _ => ⟨y1, rfl⟩⟩ hxx y2 z2 y3 z3
  have rounds : ∀ r, SameBefore D.data X' M.b M'.b r 0 := by
    intro r
    induction r with
    | zero => intro r' j h; omega
    | succ r ih =>
      have inner : ∀ k, SameBefore D.data X' M.b M'.b r k := by
        intro k
        induction k with
        | zero => exact ih
        | succ k ihk =>
          intro r' j hj
          by_cases hjk : r' = r ∧ j = k
          · obtain ⟨rfl, rfl⟩ := hjk
            exact optionRel_mono hR (step _ _ ihk)
          · exact ihk r' j (by omega)
      intro r' j hj
      exact inner (j + 1) r' j (by omega)
  exact ⟨hcl, hlr, hbs, hbl, fun r k => step r k fun r' j hj => rounds (r + 1) r' j (by omega)⟩

theorem forall₂_of_index {α : Type} {R : α → α → Prop} {l l' : List α} (hl : l'.length = l.length)
    (h : ∀ (i : Nat) a a', l[i]? = some a → l'[i]? = some a' → R a a') : List.Forall₂ R l l' := by
  rw [List.forall₂_iff_get]
  exact ⟨hl.symm, fun i h1 h2 => h i _ _ (List.getElem?_eq_getElem h1) (List.getElem?_eq_getElem h2)⟩

theorem model_same_predict {exp : F → F} {S S' : GoSort} {draws : Nat → F} {D : DataBunch F} {X' : List (List F)} {O : Options F}
    {M M' : MultiClass F} {R : Tree F → Tree F → Prop} (h : newMultiClass exp S draws D O = .ok M) (h' : newMultiClass exp S' draws { D with data := X' } O = .ok M')
    (hbl : M'.b.length = M.b.length)
    (hs : ∀ r k, Option.Rel R (treeAt M.b r k) (treeAt M'.b r k)) {row row' : List F}
    (hr : ∀ t t', R t t' → t'.predictSingle row' = t.predictSingle row) : M'.predictSingle row' = M.predictSingle row := by
  have hM : M' = { M with b := M'.b } := by
    obtain ⟨labels, st, ht, rfl⟩ := newMultiClass_inv h
    obtain ⟨labels', st', ht', rfl⟩ := newMultiClass_inv h'
    obtain ⟨_, hlab, _⟩ := train_inv ht
    obtain ⟨_, hlab', _⟩ := train_inv ht'
    unfold toModel
    simp only at hlab'
    rw [hlab', hlab]
  rw [hM]
  refine MultiClass.predict_congr (forall₂_of_index hbl fun r ens ens' he he' => ?_)
  have hk : ∀ k : Nat, Option.Rel R ens[k]? ens'[k]? := by
    intro k
    have := hs r k
    unfold treeAt at this
    rw [he, he'] at this
    exact this
  refine forall₂_of_index ?_ fun k t t' ht ht' => ?_
  · apply le_antisymm
    · by_contra hlt
      have := hk ens.length
      rw [List.getElem?_eq_none_iff.2 le_rfl, List.getElem?_eq_getElem (by omega)] at this
      cases this
    · by_contra hlt
      have := hk ens'.length
      rw [List.getElem?_eq_none_iff.2 (le_refl ens'.length), List.getElem?_eq_getElem (by omega)] at this
      cases this
  · have := hk k
    rw [ht, ht'] at this
    cases this with
    | some h => exact hr _ _ h

theorem NewtonOf.reach {g h : List F} {t0 t : Tree F} (hn : NewtonOf g h t0 t) {row : List F} {leaf : NodeInfo F}
    (hr : t0.reach row = .ok leaf) : t.predictSingle row = .ok (sumAt g leaf.samples /. sumAt h leaf.samples) := by
  induction t0 generalizing t with
  | nil => simp [Tree.reach] at hr
  | node i l r ihl ihr =>
    cases t with
    | nil => exact absurd ((hn.shape []).1 rfl) (by intro h; cases h)
    | node i1 l1 r1 =>
      obtain ⟨a1, a2⟩ := hn.node [] i l r i1 l1 r1 rfl rfl
      unfold Tree.reach at hr
      unfold Tree.predictSingle
      cases hl : i.leaf with
      | true =>
        rw [hl] at hr
        simp only [if_true] at hr
        obtain rfl := Except.ok.inj hr
        rw [(a1 hl).2]
        rw [if_pos (show ({ i with value := sumAt g i.samples /. sumAt h i.samples } : NodeInfo F).leaf = true from hl)]
      | false =>
        rw [a2 hl]
        rw [hl] at hr ⊢
        simp only [Bool.false_eq_true, if_false] at hr ⊢
        obtain ⟨v, hv, hr⟩ := bind_ok hr
        rw [hv]
        simp only [bind, Except.bind]
        split at hr
        · rename_i hc
          rw [if_pos hc]
          exact ihl hn.left hr
        · rename_i hc
          rw [if_neg hc]
          exact ihr hn.right hr

end Any

/-! ### Newton's leaf values -/

section Ex
set_option linter.unusedSectionVars false
variable {K : Type} [Field K] [LinearOrder K] [IsStrictOrderedRing K] [FloorRing K]

theorem same_newton {S S' : GoSort} {X X' : List (List K)} {o : TreeOptions (Exact K)} {t t' t1 t1' : Tree (Exact K)} {g hs : List (Exact K)}
    (hb : newTree S (finRows X) o = .ok t) (hb' : newTree S' (finRows X') o = .ok t')
    (hn : ∀ path i l r, t.sub path = .node i l r → ∃ path' i' l' r', path'.length = path.length ∧ t'.sub path' = .node i' l' r' ∧
      i'.samples = i.samples ∧ (l = .nil ↔ l' = .nil))
    (h1 : NewtonOf g hs t t1) (h1' : NewtonOf g hs t' t1')
    {j : Nat} (hj : j ∈ trainingRows (finRows X) o) {row row' : List (Exact K)} (hrow : (finRows X)[j]? = some row)
    (hrow' : (finRows X')[j]? = some row') : t1'.predictSingle row' = t1.predictSingle row := by
  have hperm := C03_leaves_partition S _ o t hb
  obtain ⟨leaf, hleaf, hjl⟩ := List.mem_flatMap.1 (hperm.mem_iff.2 hj)
  obtain ⟨path, hsub⟩ := leaf_path hleaf
  obtain ⟨path', i', l', r', _, hs', hsam, hnil⟩ := hn path leaf _ _ hsub
  have hl' : l' = .nil := hnil.1 rfl
  have hr' : r' = .nil := (grown_sub hb' path' i' l' r' hs').2.1.1 hl'
  subst hl' hr'
  rw [h1.reach (reach_training_row S _ o t hb leaf hleaf j hjl row hrow),
    h1'.reach (reach_training_row S' _ o t' hb' i' (sub_mem_leaves hs') j (by rw [hsam]; exact hjl) row' hrow'), hsam]

/-- changing the values of leaves does not change the splits -/
theorem UniqueBest.newton {S : GoSort} {X : List (List K)} {o : TreeOptions (Exact K)} {w : Nat} {mcw : Int} {usable : List Bool → Nat → Prop}
    {gain : List Nat → List Nat → List Nat → K} {t0 t : Tree (Exact K)} {g hs : List (Exact K)} (hb : newTree S (finRows X) o = .ok t0)
    (hn : NewtonOf g hs t0 t) (hu : UniqueBest X w mcw usable gain t) : UniqueBest X w mcw usable gain t0 := by
  intro path i l r θ hsub hl
  have hlf : i.leaf = false := by
    cases hq : i.leaf with
    | false => rfl
    | true => exact absurd ((C02_leaf_iff_no_children S _ o t0 hb path i l r hsub).1.1 hq).1 hl
  cases ht : t.sub path with
  | nil =>
    rw [(hn.shape path).1 ht] at hsub
    cases hsub
  | node i' l' r' =>
    have e := (hn.node path i l r i' l' r' hsub ht).2 hlf
    subst e
    refine hu path i' l' r' θ ht ?_
    intro h0
    have e1 := sub_child ht true
    have e2 := sub_child hsub true
    simp only [if_true] at e1 e2
    rw [h0] at e1
    exact hl (e2.symm.trans ((hn.shape _).1 e1))

theorem UniqueBest.of_newton {S : GoSort} {X : List (List K)} {o : TreeOptions (Exact K)} {w : Nat} {mcw : Int} {usable : List Bool → Nat → Prop}
    {gain : List Nat → List Nat → List Nat → K} {t0 t : Tree (Exact K)} {g hs : List (Exact K)} (hb : newTree S (finRows X) o = .ok t0)
    (hn : NewtonOf g hs t0 t) (hu : UniqueBest X w mcw usable gain t0) : UniqueBest X w mcw usable gain t := by
  intro path i' l' r' θ hsub hl
  cases ht : t0.sub path with
  | nil =>
    rw [(hn.shape path).2 ht] at hsub
    cases hsub
  | node i l r =>
    have hl0 : l ≠ .nil := by
      intro h0
      have e1 := sub_child ht true
      have e2 := sub_child hsub true
      simp only [if_true] at e1 e2
      rw [h0] at e1
      exact hl (e2.symm.trans ((hn.shape _).2 e1))
    have hlf : i.leaf = false := by
      cases hq : i.leaf with
      | false => rfl
      | true => exact absurd ((C02_leaf_iff_no_children S _ o t0 hb path i l r ht).1.1 hq).1 hl0
    have e := (hn.node path i l r i' l' r' ht hsub).2 hlf
    subst e
    exact hu path i' l r θ ht hl0

/-- with one column of two values there is only one division -/
theorem uniqueBest_two {X : List (List K)} {mcw depth : Int} {usable : List Bool → Nat → Prop} {rows : List Nat}
    {gain : List Nat → List Nat → List Nat → K} {good : K → Prop} {t : Tree (Exact K)} (hG : Grown X 1 mcw depth usable rows gain good t)
    {a b : K} (hab : a < b) (hX : ∀ i < X.length, val X i 0 = a ∨ val X i 0 = b) : UniqueBest X 1 mcw usable gain t := by
  intro path i l r θ hs hl hth f hf _ θ' hadm _
  obtain ⟨f0, hf0, θ0, _, hadm0, e1, e2, _⟩ := hG.split path i l r hs hl
  rw [hth] at e2
  obtain rfl : θ = θ0 := XF.fin.inj e2
  obtain rfl : f = 0 := by omega
  obtain rfl : f0 = 0 := by omega
  rw [e1]
  have hv : ∀ j ∈ i.samples, val X j 0 = a ∨ val X j 0 = b := fun j hj => hX j (hG.inRange j ((hG.sub path i l r hs).2.2 j hj))
  have key : ∀ η, Admissible X mcw i.samples 0 η → a ≤ η ∧ η < b := by
    rintro η ⟨h1, h2⟩
    constructor
    · obtain ⟨j, hj⟩ := List.exists_mem_of_length_pos (by omega : 0 < (leftOf X i.samples 0 η).length)
      unfold leftOf at hj
      obtain ⟨m1, m2⟩ := List.mem_filter.1 hj
      have m2 := of_decide_eq_true m2
      rcases hv j m1 with h | h
      · rwa [h] at m2
      · rw [h] at m2
        exact hab.le.trans m2
    · obtain ⟨j, hj⟩ := List.exists_mem_of_length_pos (by omega : 0 < (rightOf X i.samples 0 η).length)
      unfold rightOf at hj
      obtain ⟨m1, m2⟩ := List.mem_filter.1 hj
      have m2 := of_decide_eq_true m2
      rcases hv j m1 with h | h
      · rw [h] at m2
        exact m2.trans hab
      · rwa [h] at m2
  obtain ⟨p1, p2⟩ := key θ hadm0
  obtain ⟨q1, q2⟩ := key θ' hadm
  refine Or.inl ⟨List.filter_congr fun j hj => ?_, List.filter_congr fun j hj => ?_⟩
  · rcases hv j hj with h | h
    · rw [h, decide_eq_true p1, decide_eq_true q1]
    · rw [h, decide_eq_false (not_le.2 p2), decide_eq_false (not_le.2 q2)]
  · rcases hv j hj with h | h
    · rw [h, decide_eq_false (not_lt.2 p1), decide_eq_false (not_lt.2 q1)]
    · rw [h, decide_eq_true p2, decide_eq_true q2]

end Ex

/-- Two trainings over the reals, without subsampling of rows and early stopping, on data whose columns have the same order or the opposite
one: if corresponding trees, fitted to the same gradients, are in a relation `R` of trees that agree on the rows, all trees are, and rows for
which trees in the relation `R` agree get the same predictions. -/
theorem real_model_same (S S' : GoSort) (draws : Nat → Exact ℝ) (X X' : List (List ℝ)) (w : Nat) (hXX : SameOrders X X' w)
    (D : DataBunch (Exact ℝ)) (hX : D.data = finRows X) (hd : X.length = D.labels.length) (O : Options (Exact ℝ)) (lr lam gam base : ℝ)
    (hlr : O.learningRate = .fin lr) (hlam : O.lambda = .fin lam) (hlam0 : 0 ≤ lam) (hgam : O.gamma = .fin gam)
    (hbase : O.baseScore = .fin base) (hloss : LossFits O D.labels) (hrs : rowSub O = false) (hes : O.earlyStop ≤ 0)
    (M M' : MultiClass (Exact ℝ)) (h : newMultiClass expR S draws D O = .ok M)
    (h' : newMultiClass expR S' draws { D with data := finRows X' } O = .ok M')
    (R : Tree (Exact ℝ) → Tree (Exact ℝ) → Prop) (hR0 : ∀ t t', R t t' → SameOn (finRows X) (finRows X') t t')
    (hx : ∀ r k tree tree' o g hess, treeAt M.b r k = some tree → FittedWith expR draws D O M r k o → o.indexes = none →
      XgbInput o g hess lam gam → HessOk hess lam → newTree S (finRows X) o = .ok tree → newTree S' (finRows X') o = .ok tree' → R tree tree')
    (hr : ∀ r k tree tree' o y g hs t0 t0', treeAt M.b r k = some tree → FittedWith expR draws D O M r k o → o.indexes = none →
      RegInput o y → newTree S (finRows X) o = .ok t0 → newTree S' (finRows X') o = .ok t0' → NewtonOf g hs t0 tree → NewtonOf g hs t0' tree' →
      R tree tree')
    (row row' : List (Exact ℝ)) (hrow : ∀ t t', R t t' → t'.predictSingle row' = t.predictSingle row) :
    M'.predictSingle row' = M.predictSingle row ∧ M'.predictSingleClass row' = M.predictSingleClass row := by
  have hO : RealOptions O := ⟨⟨lr, hlr⟩, ⟨lam, hlam, hlam0⟩, ⟨gam, hgam⟩⟩
  obtain ⟨labels, st, ht, hM⟩ := newMultiClass_inv h
  have hR := train_real S draws X D hX hd O hO ⟨base, hbase⟩ hloss (by rw [hrs]; simp) labels st ht
  have hlab : labels = distinctElements D.labels := (train_inv ht).2.1
  have hMlab : M.classLabels = distinctElements D.labels := by rw [hM, ← hlab]; rfl
  have hne : D.labels ≠ [] := (train_inv ht).1
  have htrees : ∀ ens ∈ M.b, ∀ t ∈ ens, FinTree t := by rw [hM]; exact hR.trees
  have hMlr : ∃ x, M.learningRate = XF.fin x := ⟨lr, by rw [hM]; exact hlr⟩
  have hMb : ∃ x, M.baseScore = XF.fin x := ⟨base, by rw [hM]; exact hbase⟩
  obtain ⟨lv0, hlv0, hkind⟩ := hloss
  have hlen : ∀ Y : List (List ℝ), (finRows Y : List (List (Exact ℝ))).length = Y.length := fun Y => by simp [finRows]
  have hrows : ∀ o : TreeOptions (Exact ℝ), o.indexes = none → trainingRows (finRows X) o = List.range X.length := by
    intro o ho
    unfold trainingRows
    rw [ho, hlen]
  have hrows' : ∀ o : TreeOptions (Exact ℝ), trainingRows (finRows X') o = trainingRows (finRows X) o := by
    intro o
    unfold trainingRows
    rw [hlen, hlen, hXX.rows]
  have hrange : ∀ o : TreeOptions (Exact ℝ), o.indexes = none → ∀ i ∈ trainingRows (finRows X) o, i < X.length := by
    intro o ho i hi
    rw [hrows o ho] at hi
    exact List.mem_range.1 hi
  have hinX : ∀ (i : Nat) row, (finRows X : List (List (Exact ℝ)))[i]? = some row → i < X.length := by
    intro i row hi
    have := (List.getElem?_eq_some_iff.1 hi).1
    rwa [hlen] at this
  -- the options of a tree
  have hfit : ∀ r k o, FittedWith expR draws D O M r k o → o.indexes = none ∧
      (O.xgb = true → ∃ g hess, XgbInput o g hess lam gam ∧ HessOk hess lam) ∧ (O.xgb = false → ∃ y, RegInput o y) := by
    rintro r k o ⟨lab, lv, round, q, g, f1, f2, f3, f4, f5, f6⟩
    obtain rfl : lv0 = lv := Option.some.inj (hlv0.symm.trans f2)
    obtain ⟨q, rfl, hql, hqv⟩ := probsBefore_fin hMlr hMb htrees f4
    have hqd : D.labels.length = q.length := by rw [hql, hX, hlen, hd]
    have hsq : lv0.fn = sqErrLoss ∨ lv0.fn = mseLoss := hkind.imp id And.left
    obtain ⟨g1, g2⟩ := gradients_gradOf hsq D.labels lab q hqd
    obtain ⟨hess, hh1, hh2, hh3⟩ : ∃ hess : List ℝ, lv0.fn.hessian (finV q) = finV hess ∧ hess.length = q.length ∧ ∀ v ∈ hess, 0 < v := by
      rcases hkind with hs | ⟨hs, a, ha, b, hb, hab⟩
      · obtain ⟨_, hs', _, q2, _, _, q5, q6⟩ := sqErr_real.ok q q rfl fun v hv => ⟨(hqv v hv).1, Or.inr trivial⟩
        exact ⟨hs', by rw [hs]; exact q5, q2, q6⟩
      · have h2 := distinct_two ha hb hab
        obtain ⟨_, hs', _, q2, _, _, q5, q6⟩ := mse_real.ok q q rfl fun v hv => ⟨(hqv v hv).1,
          Or.inl ((hqv v hv).2.resolve_right (by rw [hMlab]; omega))⟩
        exact ⟨hs', by rw [hs]; exact q5, q2, q6⟩
    cases hx : O.xgb with
    | true =>
      obtain ⟨hg, rfl⟩ := f5 hx
      rw [g1] at hg
      obtain rfl := Except.ok.inj hg
      rw [hh1]
      refine ⟨by rw [hrs]; rfl, fun _ => ⟨_, hess, ⟨rfl, rfl, rfl, hlam, hgam⟩, fun v hv => ⟨(hh3 v hv).le, by linarith [hh3 v hv]⟩⟩, by simp⟩
    | false =>
      obtain ⟨hg, rfl⟩ := f6 hx
      rw [g2] at hg
      obtain rfl := Except.ok.inj hg
      exact ⟨rfl, by simp, fun _ => ⟨_, rfl, rfl⟩⟩
  have hwid : ((finRows X' : List (List (Exact ℝ))).headD []).length = (D.data.headD []).length := by
    rw [hX]
    have hr := hXX.rows
    cases hXe : X with
    | nil =>
      rw [hXe] at hr
      rw [List.length_eq_zero_iff.1 hr]
    | cons a X1 =>
      cases hXe' : X' with
      | nil =>
        rw [hXe, hXe'] at hr
        simp at hr
      | cons a' X1' =>
        have e1 := hXX.width a (by rw [hXe]; exact List.mem_cons_self)
        have e2 := hXX.width' a' (by rw [hXe']; exact List.mem_cons_self)
        simp [finRows, e1, e2]
  obtain ⟨_, _, _, hbl, hs⟩ := model_same (R := R) (by rw [hX]; exact hR0) (by rw [hX, hlen, hlen, hXX.rows]) hwid h h' (by rw [hX, hlen, hd]) (by rw [hbase]; simp) hes
    (by
      intro r k tree tree' o htr hf hxx hb hb'
      obtain ⟨hi0, hxg, _⟩ := hfit r k o hf
      obtain ⟨g, hess, hi, hp⟩ := hxg hxx
      rw [hX] at hb
      exact hx r k tree tree' o g hess htr hf hi0 hi hp hb hb')
    (by
      intro r k tree tree' o g hs t0 t0' htr hf hxx hb hb' hn hn'
      obtain ⟨hi0, _, hrg⟩ := hfit r k o hf
      obtain ⟨y, hi⟩ := hrg hxx
      rw [hX] at hb
      exact hr r k tree tree' o y g hs t0 t0' htr hf hi0 hi hb hb' hn hn')
  have hpred : M'.predictSingle row' = M.predictSingle row := model_same_predict h h' hbl hs hrow
  refine ⟨hpred, ?_⟩
  unfold MultiClass.predictSingleClass
  rw [hpred]

/-- the trees of two trainings agree on the training rows, for xgboost trees -/
theorem sameOn_xgb {S S' : GoSort} {X X' : List (List ℝ)} {w : Nat} (hXX : SameOrders X X' w) {lam gam : ℝ} {tree tree' : Tree (Exact ℝ)}
    {o : TreeOptions (Exact ℝ)} {g hess : List ℝ} (hi0 : o.indexes = none) (hi : XgbInput o g hess lam gam) (hp : HessOk hess lam)
    (hb : newTree S (finRows X) o = .ok tree) (hb' : newTree S' (finRows X') o = .ok tree')
    (hu : UniqueBest X w (toInt o.minChildWeight) (UsableAt o) (xgbQuality g hess lam gam) tree) : SameOn (finRows X) (finRows X') tree tree' := by
  have hlen : ∀ Y : List (List ℝ), (finRows Y : List (List (Exact ℝ))).length = Y.length := fun Y => by simp [finRows]
  have hrows : ∀ o : TreeOptions (Exact ℝ), o.indexes = none → trainingRows (finRows X) o = List.range X.length := by
    intro o ho
    unfold trainingRows
    rw [ho, hlen]
  have hrows' : ∀ o : TreeOptions (Exact ℝ), trainingRows (finRows X') o = trainingRows (finRows X) o := by
    intro o
    unfold trainingRows
    rw [hlen, hlen, hXX.rows]
  have hrange : ∀ o : TreeOptions (Exact ℝ), o.indexes = none → ∀ i ∈ trainingRows (finRows X) o, i < X.length := by
    intro o ho i hi
    rw [hrows o ho] at hi
    exact List.mem_range.1 hi
  have hinX : ∀ (i : Nat) row, (finRows X : List (List (Exact ℝ)))[i]? = some row → i < X.length := by
    intro i row hi
    have := (List.getElem?_eq_some_iff.1 hi).1
    rwa [hlen] at this
  intro i rw1 rw2 h1 h2
  exact C148_xgb_partial S S' X X' o tree tree' w g hess lam gam hXX (hrange o hi0) hb hb' hi hp hu i
    (by rw [hrows o hi0, List.mem_range]; exact hinX i rw1 h1) rw1 rw2 h1 h2

/-- the same for regular trees with Newton's leaf values -/
theorem sameOn_reg {S S' : GoSort} {X X' : List (List ℝ)} {w : Nat} (hXX : SameOrders X X' w) {tree tree' t0 t0' : Tree (Exact ℝ)}
    {o : TreeOptions (Exact ℝ)} {y : List ℝ} {g hs : List (Exact ℝ)} (hi0 : o.indexes = none) (hi : RegInput o y)
    (hb : newTree S (finRows X) o = .ok t0) (hb' : newTree S' (finRows X') o = .ok t0') (hn : NewtonOf g hs t0 tree) (hn' : NewtonOf g hs t0' tree')
    (hu : UniqueBest X w (toInt o.minChildWeight) (UsableAt o) (regQuality y) t0) : SameOn (finRows X) (finRows X') tree tree' := by
  have hlen : ∀ Y : List (List ℝ), (finRows Y : List (List (Exact ℝ))).length = Y.length := fun Y => by simp [finRows]
  have hrows : ∀ o : TreeOptions (Exact ℝ), o.indexes = none → trainingRows (finRows X) o = List.range X.length := by
    intro o ho
    unfold trainingRows
    rw [ho, hlen]
  have hrows' : ∀ o : TreeOptions (Exact ℝ), trainingRows (finRows X') o = trainingRows (finRows X) o := by
    intro o
    unfold trainingRows
    rw [hlen, hlen, hXX.rows]
  have hrange : ∀ o : TreeOptions (Exact ℝ), o.indexes = none → ∀ i ∈ trainingRows (finRows X) o, i < X.length := by
    intro o ho i hi
    rw [hrows o ho] at hi
    exact List.mem_range.1 hi
  have hinX : ∀ (i : Nat) row, (finRows X : List (List (Exact ℝ)))[i]? = some row → i < X.length := by
    intro i row hi
    have := (List.getElem?_eq_some_iff.1 hi).1
    rwa [hlen] at this
  intro i rw1 rw2 h1 h2
  have G' := grown_reg hXX.width' (by rw [hrows', hXX.rows]; exact hrange o hi0) hb' hi
  rw [hrows'] at G'
  exact same_newton hb hb' (Grown.nodes hXX (fun idx L R => by unfold regQuality; ring) usable_length
    (grown_reg hXX.width (hrange o hi0) hb hi) G' hu) hn hn'
    (by rw [hrows o hi0, List.mem_range]; exact hinX i rw1 h1) h1 h2

/-- **C148 (models)**, partial: over the reals, without subsampling of rows and early stopping, train on data whose columns have the same
order or the opposite one. If in all trees of the first model all best divisions at a node are the same, every training row gets the same
probabilities from both models. Columns may be subsampled. -/
theorem C148_model_partial (S S' : GoSort) (draws : Nat → Exact ℝ) (X X' : List (List ℝ)) (w : Nat) (hXX : SameOrders X X' w)
    (D : DataBunch (Exact ℝ)) (hX : D.data = finRows X) (hd : X.length = D.labels.length) (O : Options (Exact ℝ)) (lr lam gam base : ℝ)
    (hlr : O.learningRate = .fin lr) (hlam : O.lambda = .fin lam) (hlam0 : 0 ≤ lam) (hgam : O.gamma = .fin gam)
    (hbase : O.baseScore = .fin base) (hloss : LossFits O D.labels) (hrs : rowSub O = false) (hes : O.earlyStop ≤ 0)
    (M M' : MultiClass (Exact ℝ)) (h : newMultiClass expR S draws D O = .ok M)
    (h' : newMultiClass expR S' draws { D with data := finRows X' } O = .ok M')
    (hu : ∀ r k tree o, treeAt M.b r k = some tree → FittedWith expR draws D O M r k o →
      (∀ g hess, XgbInput o g hess lam gam → HessOk hess lam → UniqueBest X w (toInt o.minChildWeight) (UsableAt o) (xgbQuality g hess lam gam) tree) ∧
      (∀ y, RegInput o y → UniqueBest X w (toInt o.minChildWeight) (UsableAt o) (regQuality y) tree))
    (j : Nat) (row row' : List ℝ) (hrow : X[j]? = some row) (hrow' : X'[j]? = some row') :
    M'.predictSingle (row'.map .fin) = M.predictSingle (row.map .fin) ∧
    M'.predictSingleClass (row'.map .fin) = M.predictSingleClass (row.map .fin) := by
  refine real_model_same S S' draws X X' w hXX D hX hd O lr lam gam base hlr hlam hlam0 hgam hbase hloss hrs hes M M' h h'
    (SameOn (finRows X) (finRows X')) (fun _ _ h => h) ?_ ?_ _ _ (fun t t' hs => hs j _ _ (by simp [finRows, hrow]) (by simp [finRows, hrow']))
  · intro r k tree tree' o g hess htr hf hi0 hi hp hb hb'
    exact sameOn_xgb hXX hi0 hi hp hb hb' ((hu r k tree o htr hf).1 g hess hi hp)
  · intro r k tree tree' o y g hs t0 t0' htr hf hi0 hi hb hb' hn hn'
    exact sameOn_reg hXX hi0 hi hb hb' hn hn' (((hu r k tree o htr hf).2 y hi).newton hb hn)

/-! ### The hypotheses are met

With one column of two values there are no ties, whatever the labels, the number of rows and the options. -/

theorem fitted_unique {exp : Exact ℝ → Exact ℝ} {draws : Nat → Exact ℝ} {D : DataBunch (Exact ℝ)} {O : Options (Exact ℝ)}
    {M : MultiClass (Exact ℝ)} {r k : Nat} {o o' : TreeOptions (Exact ℝ)} (h : FittedWith exp draws D O M r k o)
    (h' : FittedWith exp draws D O M r k o') : o' = o := by
  obtain ⟨lab, lv, round, q, g, f1, f2, f3, f4, f5, f6⟩ := h
  obtain ⟨lab', lv', round', q', g', g1, g2, g3, g4, g5, g6⟩ := h'
  obtain rfl := Option.some.inj (f1.symm.trans g1)
  obtain rfl := Option.some.inj (f2.symm.trans g2)
  obtain rfl := Option.some.inj (f3.symm.trans g3)
  have hrefl : SameBefore D.data D.data M.b M.b r k := by
    intro r' j _
    cases treeAt M.b r' j with
    | none => exact .none
    | some t =>
      refine .some fun i row row' h1 h2 => ?_
      obtain rfl := Option.some.inj (h1.symm.trans h2)
      rfl
  obtain rfl := probsBefore_same rfl rfl rfl rfl hrefl f4 g4
  cases hx : O.xgb with
  | true =>
    obtain ⟨a1, rfl⟩ := f5 hx
    obtain ⟨b1, rfl⟩ := g5 hx
    rw [a1] at b1
    cases b1
    rfl
  | false =>
    obtain ⟨a1, rfl⟩ := f6 hx
    obtain ⟨b1, rfl⟩ := g6 hx
    rw [a1] at b1
    cases b1
    rfl

/-- **C148 (one column of two values)**: for data with one column, which has two values, the claim holds for all models trained over the
reals with any labels (without subsampling of rows and early stopping): the hypothesis of `C148_model_partial` on ties is met. -/
theorem C148_two_values (S S' : GoSort) (draws : Nat → Exact ℝ) (X X' : List (List ℝ)) (hXX : SameOrders X X' 1)
    (a b : ℝ) (hab : a < b) (hv : ∀ i < X.length, val X i 0 = a ∨ val X i 0 = b)
    (D : DataBunch (Exact ℝ)) (hX : D.data = finRows X) (hd : X.length = D.labels.length) (O : Options (Exact ℝ)) (lr lam gam base : ℝ)
    (hlr : O.learningRate = .fin lr) (hlam : O.lambda = .fin lam) (hlam0 : 0 ≤ lam) (hgam : O.gamma = .fin gam)
    (hbase : O.baseScore = .fin base) (hloss : LossFits O D.labels) (hrs : rowSub O = false) (hes : O.earlyStop ≤ 0)
    (M M' : MultiClass (Exact ℝ)) (h : newMultiClass expR S draws D O = .ok M)
    (h' : newMultiClass expR S' draws { D with data := finRows X' } O = .ok M')
    (j : Nat) (row row' : List ℝ) (hrow : X[j]? = some row) (hrow' : X'[j]? = some row') :
    M'.predictSingle (row'.map .fin) = M.predictSingle (row.map .fin) ∧
    M'.predictSingleClass (row'.map .fin) = M.predictSingleClass (row.map .fin) := by
  refine C148_model_partial S S' draws X X' 1 hXX D hX hd O lr lam gam base hlr hlam hlam0 hgam hbase hloss hrs hes M M' h h' ?_ j row row' hrow hrow'
  intro r k tree o htr hf
  obtain ⟨c1, c2, c3⟩ := C22_rounds expR S draws D O M h
  have hlen : D.data.length = X.length := by rw [hX]; simp [finRows]
  unfold treeAt at htr
  obtain ⟨ens, he, hk⟩ := Option.bind_eq_some_iff.1 htr
  obtain ⟨lab, lv, round, q, f1, f2, f3, f4, f5, f6⟩ := C70_fitted expR S draws D O M h (by rw [hlen, hd]) (by rw [hbase]; simp) (c3 hes) r k _ _ he hk
  have hrange : ∀ o : TreeOptions (Exact ℝ), o.indexes = none → ∀ i ∈ trainingRows (finRows X) o, i < X.length := by
    intro o ho i hi
    unfold trainingRows at hi
    rw [ho] at hi
    simpa [finRows] using hi
  cases hx : O.xgb with
  | true =>
    obtain ⟨g, y1, y2⟩ := f5 hx
    have ho := fitted_unique hf ⟨lab, lv, round, q, g, f1, f2, f3, f4, fun _ => ⟨y1, rfl⟩, fun hf => by rw [hx] at hf; cases hf⟩
    rw [ho, hX] at y2
    have hxo : o.xgb = true := by rw [← ho]; rfl
    have hio : o.indexes = none := by rw [← ho, hrs]; rfl
    refine ⟨fun g hess hi hp => ?_, fun y hi => ?_⟩
    · exact uniqueBest_two (grown_xgb hXX.width (hrange o hio) y2 hi hp) hab hv
    · have := hi.xgb
      rw [hxo] at this
      cases this
  | false =>
    obtain ⟨g, t0, y1, y2, y3⟩ := f6 hx
    have ho := fitted_unique hf ⟨lab, lv, round, q, g, f1, f2, f3, f4, (fun hf => by rw [hx] at hf; cases hf), fun _ => ⟨y1, rfl⟩⟩
    rw [ho, hX] at y2
    have hxo : o.xgb = false := by rw [← ho]; rfl
    have hio : o.indexes = none := by rw [← ho]; rfl
    refine ⟨fun g hess hi _ => ?_, fun y hi => ?_⟩
    · have := hi.xgb
      rw [hxo] at this
      cases this
    · exact (uniqueBest_two (grown_reg hXX.width (hrange o hio) y2 hi) hab hv).of_newton y2 y3

/-- five rows with one column -/
def binaryRows : List (List ℝ) := [[0], [1], [1], [0], [1]]

theorem binary_model (X : List (List ℝ)) (hl : X.length = 5) (hw : ∀ row ∈ X, row.length = 1) :
    ∃ M, newMultiClass expR GoSort.ins (fun _ => .fin 0) ⟨finRows X, [], [0, 1, 0, 0, 1], []⟩ plainXgb = .ok M ∧ M.b.length = 20 := by
  obtain ⟨hr, hc⟩ := plainXgb_sub
  obtain ⟨M, hM⟩ := C22_returns expR GoSort.ins (fun _ => .fin 0) ⟨finRows X, [], [0, 1, 0, 0, 1], []⟩ plainXgb
    ⟨by
      intro h0
      have := congrArg List.length h0
      simp [finRows, hl] at this, ⟨1, by
      intro row hrow
      simp only [finRows] at hrow
      obtain ⟨row0, h0, rfl⟩ := List.mem_map.1 hrow
      simpa using hw row0 h0⟩, finRows_noNaN _, finRows_midSafe _⟩ (by simp [finRows, hl]) _ rfl
    sqErrLoss_regular (by
      unfold CapOk
      rw [hr, hc]
      simp) (by rw [hr]; simp)
  refine ⟨M, hM, ?_⟩
  have := C22_requested_partial expR GoSort.ins _ _ _ M hM (Or.inr (by simp [plainXgb]))
  rw [hr] at this
  simp [plainXgb, defaultXOptions] at this
  omega

/-- both models exist, have 20 rounds, and agree on the rows -/
example : ∃ M M', newMultiClass expR GoSort.ins (fun _ => .fin 0) ⟨finRows binaryRows, [], [0, 1, 0, 0, 1], []⟩ plainXgb = .ok M ∧
    newMultiClass expR GoSort.ins (fun _ => .fin 0) ⟨finRows (binaryRows.map (changeSigns fun _ => true)), [], [0, 1, 0, 0, 1], []⟩ plainXgb = .ok M' ∧
    M.b.length = 20 ∧ M'.b.length = 20 ∧
    ∀ row ∈ binaryRows, M'.predictSingle ((changeSigns (fun _ => true) row).map .fin) = M.predictSingle (row.map .fin) := by
  have hw : ∀ row ∈ binaryRows, row.length = 1 := by simp [binaryRows]
  obtain ⟨M, hM, hb⟩ := binary_model binaryRows rfl hw
  obtain ⟨M', hM', hb'⟩ := binary_model (binaryRows.map (changeSigns fun _ => true)) rfl (sameOrders_changeSigns _ binaryRows 1 hw).width'
  refine ⟨M, M', hM, hM', hb, hb', fun row hrow => ?_⟩
  obtain ⟨j, hj⟩ := List.mem_iff_getElem?.1 hrow
  refine (C148_two_values GoSort.ins GoSort.ins _ binaryRows _ (sameOrders_changeSigns (fun _ => true) binaryRows 1 hw) 0 1 one_pos ?_
    ⟨finRows binaryRows, [], [0, 1, 0, 0, 1], []⟩ rfl rfl plainXgb (3/10) (15/10) 0 (5/10) (by simp [plainXgb, defaultXOptions])
    (by simp [plainXgb, defaultXOptions]) (by norm_num) rfl (by simp [plainXgb, defaultXOptions]) ⟨_, rfl, Or.inl rfl⟩ plainXgb_sub.1
    (by simp [plainXgb]) M M' hM hM' j row _ hj (by simp [hj])).1
  intro i hi
  match i, hi with
  | 0, _ => exact Or.inl rfl
  | 1, _ => exact Or.inr rfl
  | 2, _ => exact Or.inr rfl
  | 3, _ => exact Or.inl rfl
  | 4, _ => exact Or.inr rfl
  | i + 5, hi => simp [binaryRows] at hi

end Boo
