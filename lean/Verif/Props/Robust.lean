import Verif.Props.ColOrder
import Verif.Lemmas.ExactGain
import Verif.Spec.Boost
import Mathlib.Tactic.Linarith

/-!
# C118: predictions only change at midpoints between training values
-/

namespace Boo
open GoFloat Spec
set_option linter.unusedSectionVars false

section anyArithmetic
variable {F : Type} [GoFloat F]

/-- `a` and `b` are on the same side of the midpoint, as computed, of any two different values of `vals`. -/
def SameSide (vals : F → Prop) (a b : F) : Prop :=
  ∀ u v, vals u → vals v → (u ==. v) = false → (a <=. ((u +. v) /. ofRat 2)) = (b <=. ((u +. v) /. ofRat 2))

/-- the values of column `f` of the data -/
def InColumn (X : List (List F)) (f : Nat) (v : F) : Prop := ∃ row ∈ X, row[f]? = some v

/-- two rows with the same number of values, each on the same side of all the midpoints of its column -/
def SameCells (X : List (List F)) (row row' : List F) : Prop :=
  row.length = row'.length ∧
  ∀ (f : Nat) a b, row[f]? = some a → row'[f]? = some b → SameSide (InColumn X f) a b

/-- every threshold of the tree is the midpoint of two different values of the column -/
def MidSplits (X : List (List F)) : Tree F → Prop
  | .nil => True
  | .node i l r => i.leaf = true ∨
      ((∃ u v, InColumn X i.splitFeatureIndex u ∧ InColumn X i.splitFeatureIndex v ∧ (u ==. v) = false ∧ i.threshold = (u +. v) /. ofRat 2) ∧
        MidSplits X l ∧ MidSplits X r)

theorem midSplits_newTree [GoFloatOrd F] {S : GoSort} {X : List (List F)} (d : Nat) (o : TreeOptions F) (t : Tree F)
    (h : newTreeD S X d o = .ok t) : MidSplits X t := by
  induction d generalizing o t with
  | zero =>
    obtain ⟨v, row0, hv, hr0, _, ⟨_, rfl⟩ | ⟨_, best, hd, _⟩ | ⟨d', best, col, tl, tr, hd, _⟩⟩ := newTreeD_inv _ _ _ _ _ h
    · exact Or.inl (leaf_best0 _ _ _ _ _)
    · cases hd
    · cases hd
  | succ d ih =>
    obtain ⟨v, row0, hv, hr0, _, ⟨hd, _⟩ | ⟨_, best, _, _, hlf, rfl⟩ |
      ⟨d', best, col, tl, tr, hd, hs, hlf, hc, h3, h4, rfl⟩⟩ := newTreeD_inv _ _ _ _ _ h
    · cases hd
    · exact Or.inl hlf
    · cases hd
      have hnl : tl ≠ .nil := newTree_ne_nil h3
      obtain ⟨s, _⟩ := splitNode h hnl
      refine Or.inr ⟨⟨s.x, s.x', ?_, ?_, s.hcand.2.2.2.2.2, s.hthr⟩, ih _ _ h3, ih _ _ h4⟩
      all_goals
        obtain ⟨col', hc', hrows, hlen, _⟩ := s.hscan.rows
        have hmem : ∀ w ∈ (argSort S col').2, w ∈ col' := by
          intro w hw
          unfold argSort at hw
          obtain ⟨q, hq, rfl⟩ := List.mem_map.1 hw
          exact (List.of_mem_zip ((S.perm _ _).mem_iff.1 hq)).1
        refine sampleCol_mem hc' (hmem _ ?_)
        rw [← hrows]
      · obtain ⟨q, hq, hx⟩ := Option.map_eq_some_iff.1 s.hcand.2.1
        exact List.mem_map.2 ⟨q, List.mem_of_getElem? hq, hx⟩
      · obtain ⟨q, hq, hx⟩ := Option.map_eq_some_iff.1 s.hcand.2.2.1
        exact List.mem_map.2 ⟨q, List.mem_of_getElem? hq, hx⟩

/-- `updateLeaves` changes values only -/
theorem updateLeaves_info {g h : List F} {i : NodeInfo F} {l r t : Tree F} (hu : updateLeaves g h (.node i l r) = .ok t) :
    ∃ i' l' r', t = .node i' l' r' ∧ updateLeaves g h l = .ok l' ∧ updateLeaves g h r = .ok r' ∧ i'.leaf = i.leaf ∧
      i'.splitFeatureIndex = i.splitFeatureIndex ∧ i'.threshold = i.threshold := by
  unfold updateLeaves at hu
  obtain ⟨l', h1, hu⟩ := bind_ok hu
  obtain ⟨r', h2, hu⟩ := bind_ok hu
  split at hu
  · obtain ⟨i', h3, hu⟩ := bind_ok hu
    obtain rfl := Except.ok.inj hu
    refine ⟨i', l', r', rfl, h1, h2, ?_⟩
    unfold updateLeaf at h3
    obtain ⟨_, _, h3⟩ := bind_ok h3
    obtain rfl := Except.ok.inj h3
    exact ⟨rfl, rfl, rfl⟩
  · obtain rfl := Except.ok.inj hu
    exact ⟨i, l', r', rfl, h1, h2, rfl, rfl, rfl⟩

theorem midSplits_update {X : List (List F)} {g h : List F} (t0 t : Tree F) (hu : updateLeaves g h t0 = .ok t)
    (h0 : MidSplits X t0) : MidSplits X t := by
  induction t0 generalizing t with
  | nil => obtain rfl := Except.ok.inj hu; trivial
  | node i l r ihl ihr =>
    obtain ⟨i', l', r', rfl, hl, hr, e1, e2, e3⟩ := updateLeaves_info hu
    unfold MidSplits at h0 ⊢
    rw [e1, e2, e3]
    rcases h0 with h0 | ⟨h0, hl0, hr0⟩
    · exact Or.inl h0
    · exact Or.inr ⟨h0, ihl _ hl hl0, ihr _ hr hr0⟩

theorem predict_cells {X : List (List F)} (t : Tree F) (h : MidSplits X t) {row row' : List F} (hc : SameCells X row row') :
    t.predictSingle row = t.predictSingle row' := by
  induction t with
  | nil => rfl
  | node i l r ihl ihr =>
    unfold Tree.predictSingle
    rcases h with h | ⟨⟨u, v, hu, hv, huv, ht⟩, hl, hr⟩
    · rw [if_pos h, if_pos h]
    · rw [ihl hl, ihr hr]
      cases hrow : row[i.splitFeatureIndex]? with
      | none =>
        have hrow' : row'[i.splitFeatureIndex]? = none := by
          rw [List.getElem?_eq_none_iff] at hrow ⊢
          rw [← hc.1]; exact hrow
        unfold goIdx
        rw [hrow, hrow']
      | some a =>
        obtain ⟨b, hb⟩ : ∃ b, row'[i.splitFeatureIndex]? = some b := by
          have := (List.getElem?_eq_some_iff.1 hrow).1
          rw [hc.1] at this
          exact ⟨_, List.getElem?_eq_getElem this⟩
        have := hc.2 _ a b hrow hb u v hu hv huv
        unfold goIdx
        rw [hrow, hb]
        simp only [bind, Except.bind, ht, this]

/-- two rows on which all trees agree get the same scores -/
theorem rawScores_same (M : MultiClass F) {row row' : List F}
    (h : ∀ ens ∈ M.b, ∀ t ∈ ens, t.predictSingle row = t.predictSingle row') : M.rawScores row = M.rawScores row' := by
  have h1 : ∀ (ts : List (Tree F)) (c : Nat) (tmp : List F), (∀ t ∈ ts, t.predictSingle row = t.predictSingle row') →
      addRound M.learningRate row ts c tmp = addRound M.learningRate row' ts c tmp := by
    intro ts
    induction ts with
    | nil => intro c tmp _; rfl
    | cons t ts ih =>
      intro c tmp ht
      unfold addRound
      rw [ht t (by simp)]
      congr 1
      funext p
      congr 1
      funext tmp'
      exact ih _ _ fun t h => ht t (by simp [h])
  unfold MultiClass.rawScores
  congr 1
  funext b0
  generalize List.replicate b0.length M.baseScore = tmp
  revert h
  generalize M.b = b
  intro h
  induction b generalizing tmp with
  | nil => rfl
  | cons e b ih =>
    rw [List.foldlM_cons, List.foldlM_cons, h1 e 0 tmp (h e (by simp))]
    congr 1
    funext tmp'
    exact ih _ fun ens he => h ens (by simp [he])

theorem predict_same (M : MultiClass F) {row row' : List F}
    (h : ∀ ens ∈ M.b, ∀ t ∈ ens, t.predictSingle row = t.predictSingle row') :
    M.predictSingle row = M.predictSingle row' ∧ M.predictSingleClass row = M.predictSingleClass row' := by
  have : M.predictSingle row = M.predictSingle row' := by
    unfold MultiClass.predictSingle
    rw [rawScores_same M h]
  refine ⟨this, ?_⟩
  unfold MultiClass.predictSingleClass
  rw [this]

/-- **C118, tree**: two rows that no midpoint of two different training values of a column separates get the same prediction. Any arithmetic. -/
theorem C118_tree [GoFloatOrd F] (S : GoSort) (X : List (List F)) (o : TreeOptions F) (t : Tree F)
    (h : newTree S X o = .ok t) (row row' : List F) (hc : SameCells X row row') :
    t.predictSingle row = t.predictSingle row' :=
  predict_cells t (midSplits_newTree _ _ _ h) hc

/-- **C118, model**: two rows that no midpoint of two different training values of a column separates get the same probabilities and the same
class from every trained model. Any arithmetic, any options. -/
theorem C118_model [GoFloatOrd F] (exp : F → F) (S : GoSort) (draws : Nat → F) (D : DataBunch F) (O : Options F)
    (M : MultiClass F) (h : newMultiClass exp S draws D O = .ok M) (row row' : List F) (hc : SameCells D.data row row') :
    M.predictSingle row = M.predictSingle row' ∧ M.predictSingleClass row = M.predictSingleClass row' := by
  refine predict_same M ?_
  have := newMultiClass_trees (P := MidSplits D.data) h fun lf idx cols y p t ht => by
    unfold classTree at ht
    split at ht
    · obtain ⟨g, _, ht⟩ := bind_ok ht
      exact midSplits_newTree _ _ _ ht
    · obtain ⟨g, _, ht⟩ := bind_ok ht
      obtain ⟨t0, h0, hu⟩ := bind_ok ht
      exact midSplits_update _ _ hu (midSplits_newTree _ _ _ h0)
  intro ens he t ht
  exact predict_cells t (this ens he t ht) hc

end anyArithmetic

variable {K : Type} [Field K] [LinearOrder K] [IsStrictOrderedRing K] [FloorRing K]

/-- every value of `row'` is nearer to the value of `row` in its column than half the way to any other training value -/
def Near (X : List (List K)) (row row' : List K) : Prop :=
  row.length = row'.length ∧
  ∀ (f : Nat) a b, row[f]? = some a → row'[f]? = some b →
    ∀ r ∈ X, ∀ w, r[f]? = some w → w ≠ a → 2 * |b - a| < |w - a|

/-- every threshold of the tree is the midpoint of two neighbouring values of the column among the rows at the node -/
def CutsAt (X : List (List K)) (idx : List Nat) : Tree (Exact K) → Prop
  | .nil => True
  | .node i l r => i.leaf = true ∨
      ∃ u v, (∃ q ∈ X, q[i.splitFeatureIndex]? = some u) ∧ (∃ q ∈ X, q[i.splitFeatureIndex]? = some v) ∧ u < v ∧
        i.threshold = .fin ((u + v) / 2) ∧
        (∀ j ∈ idx, val X j i.splitFeatureIndex ≤ u ∨ v ≤ val X j i.splitFeatureIndex) ∧
        CutsAt X (leftOf X idx i.splitFeatureIndex ((u + v) / 2)) l ∧ CutsAt X (rightOf X idx i.splitFeatureIndex ((u + v) / 2)) r

theorem cutsAt_newTree {S : GoSort} {X : List (List K)} (d : Nat) (o : TreeOptions (Exact K)) (t : Tree (Exact K))
    (h : newTreeD S (finRows X) d o = .ok t) : CutsAt X (o.idx (finRows X)) t := by
  induction d generalizing o t with
  | zero =>
    obtain ⟨v, row0, hv, hr0, _, ⟨_, rfl⟩ | ⟨_, best, hd, _⟩ | ⟨d', best, col, tl, tr, hd, _⟩⟩ := newTreeD_inv _ _ _ _ _ h
    · exact Or.inl (leaf_best0 _ _ _ _ _)
    · cases hd
    · cases hd
  | succ d ih =>
    obtain ⟨v, row0, hv, hr0, _, ⟨hd, _⟩ | ⟨_, best, _, _, hlf, rfl⟩ |
      ⟨d', best, col, tl, tr, hd, hs, hlf, hc, h3, h4, rfl⟩⟩ := newTreeD_inv _ _ _ _ _ h
    · cases hd
    · exact Or.inl hlf
    · cases hd
      obtain ⟨s, _⟩ := splitNode h (newTree_ne_nil h3)
      obtain ⟨col', hc', hrows, hlen, _⟩ := s.hscan.rows
      rw [TreeOptions.fill_idx] at hc'
      have hcc : col' = col := Except.ok.inj (hc'.symm.trans hc)
      subst hcc
      have hcol := sampleCol_fin hc
      have hmem : ∀ w, w ∈ (argSort S col').2 ↔ w ∈ col' := by
        intro w
        unfold argSort
        rw [List.mem_map]
        constructor
        · rintro ⟨q, hq, rfl⟩
          exact (List.of_mem_zip ((S.perm _ _).mem_iff.1 hq)).1
        · intro hw
          obtain ⟨j, hj⟩ := List.mem_iff_getElem?.1 hw
          have hjl := (List.getElem?_eq_some_iff.1 hj).1
          refine ⟨(w, j), (S.perm _ _).mem_iff.2 ?_, rfl⟩
          refine List.mem_iff_getElem?.2 ⟨j, ?_⟩
          rw [List.getElem?_zip_eq_some]
          exact ⟨hj, by rw [List.getElem?_range hjl]⟩
      have hsort := sorted_vals S col' (by
        intro v hv
        rw [hcol] at hv
        obtain ⟨i, _, rfl⟩ := List.mem_map.1 hv
        simp)
      obtain ⟨hk, hx, hx', _, _, hne⟩ := s.hcand
      have g1 : (argSort S col').2[s.k - 1]? = some s.x := by rw [← hrows, List.getElem?_map]; exact hx
      have g2 : (argSort S col').2[s.k]? = some s.x' := by rw [← hrows, List.getElem?_map]; exact hx'
      have m1 := (hmem _).1 (List.mem_of_getElem? g1)
      have m2 := (hmem _).1 (List.mem_of_getElem? g2)
      obtain ⟨r1, q1, q1'⟩ := sampleCol_mem hc m1
      obtain ⟨r2, q2, q2'⟩ := sampleCol_mem hc m2
      have fin_of : ∀ {r : List (Exact K)} {f : Nat} {w : Exact K}, r ∈ finRows X → r[f]? = some w →
          ∃ q ∈ X, ∃ a, q[f]? = some a ∧ w = .fin a := by
        intro r f w hr hw
        obtain ⟨q, hq, rfl⟩ := List.mem_map.1 hr
        rw [List.getElem?_map] at hw
        obtain ⟨a, ha, rfl⟩ := Option.map_eq_some_iff.1 hw
        exact ⟨q, hq, a, ha, rfl⟩
      obtain ⟨q, hq, u, hu, eu⟩ := fin_of q1 q1'
      obtain ⟨q', hq', v', hv', ev⟩ := fin_of q2 q2'
      have huv : u < v' := by
        have l1 := (List.getElem?_eq_some_iff.1 g1).1
        have l2 := (List.getElem?_eq_some_iff.1 g2).1
        have := List.pairwise_iff_getElem.1 hsort _ _ l1 l2 (by omega)
        rw [(List.getElem?_eq_some_iff.1 g1).2, (List.getElem?_eq_some_iff.1 g2).2, eu, ev] at this
        rw [eu, ev] at hne
        simp at this hne
        exact lt_of_le_of_ne this hne
      have ht : best.threshold = .fin ((u + v') / 2) := by
        have := s.hthr
        simp only at this
        rw [eu, ev] at this
        unfold mid at this
        rw [Exact.add_fin] at this
        exact this.trans (by
          show (XF.fin (u + v') : Exact K) /. XF.fin _ = _
          rw [Exact.div_fin _ _ (by norm_num)]
          norm_num)
      refine Or.inr ⟨u, v', ⟨q, hq, hu⟩, ⟨q', hq', hv'⟩, huv, ht, ?_, ?_, ?_⟩
      · intro j hj
        have hjm : (.fin (val X j best.feature) : Exact K) ∈ col' := by
          rw [hcol]; exact List.mem_map.2 ⟨j, hj, rfl⟩
        obtain ⟨m, hm⟩ := List.mem_iff_getElem?.1 ((hmem _).2 hjm)
        have l1 := (List.getElem?_eq_some_iff.1 g1).1
        have l2 := (List.getElem?_eq_some_iff.1 g2).1
        have l3 := (List.getElem?_eq_some_iff.1 hm).1
        rcases lt_trichotomy m (s.k - 1) with hlt | heq | hgt
        · have := List.pairwise_iff_getElem.1 hsort _ _ l3 l1 hlt
          rw [(List.getElem?_eq_some_iff.1 g1).2, (List.getElem?_eq_some_iff.1 hm).2, eu] at this
          left
          show val X j best.feature ≤ u
          simpa using this
        · rw [heq, g1, eu] at hm
          left
          exact le_of_eq (fin_inj (Option.some.inj hm)).symm
        · rcases Nat.eq_or_lt_of_le (show s.k ≤ m by omega) with heq | hgt
          · rw [← heq, g2, ev] at hm
            right
            exact le_of_eq (fin_inj (Option.some.inj hm))
          · have := List.pairwise_iff_getElem.1 hsort _ _ l2 l3 hgt
            rw [(List.getElem?_eq_some_iff.1 g2).2, (List.getElem?_eq_some_iff.1 hm).2, ev] at this
            right
            show v' ≤ val X j best.feature
            simpa using this
      · have := ih _ _ h3
        rw [child_idx, goLeft_exact ht hc] at this
        exact this
      · have := ih _ _ h4
        rw [child_idx, goRight_exact ht hc] at this
        exact this

theorem cutsAt_update {X : List (List K)} {g h : List (Exact K)} {idx : List Nat} (t0 t : Tree (Exact K))
    (hu : updateLeaves g h t0 = .ok t) (h0 : CutsAt X idx t0) : CutsAt X idx t := by
  induction t0 generalizing t idx with
  | nil => obtain rfl := Except.ok.inj hu; trivial
  | node i l r ihl ihr =>
    obtain ⟨i', l', r', rfl, hl, hr, e1, e2, e3⟩ := updateLeaves_info hu
    unfold CutsAt at h0 ⊢
    rw [e1, e2, e3]
    rcases h0 with h0 | ⟨u, v, h1, h2, h3, h4, h5, hl0, hr0⟩
    · exact Or.inl h0
    · exact Or.inr ⟨u, v, h1, h2, h3, h4, h5, ihl _ hl hl0, ihr _ hr hr0⟩

theorem predict_near {X : List (List K)} {idx : List Nat} (t : Tree (Exact K)) (h : CutsAt X idx t) {i : Nat} (hi : i ∈ idx)
    {row row' : List K} (hX : X[i]? = some row) (hn : Near X row row') :
    t.predictSingle (row'.map XF.fin) = t.predictSingle (row.map XF.fin) := by
  induction t generalizing idx with
  | nil => rfl
  | node n l r ihl ihr =>
    unfold Tree.predictSingle
    rcases h with h | ⟨u, v, ⟨q, hq, hu⟩, ⟨q', hq', hv⟩, huv, ht, hcut, hl, hr⟩
    · rw [if_pos h, if_pos h]
    · cases hrow : row[n.splitFeatureIndex]? with
      | none =>
        have hrow' : row'[n.splitFeatureIndex]? = none := by
          rw [List.getElem?_eq_none_iff] at hrow ⊢
          rw [← hn.1]; exact hrow
        unfold goIdx
        rw [List.getElem?_map, List.getElem?_map, hrow, hrow']
        rfl
      | some a =>
        obtain ⟨b, hb⟩ : ∃ b, row'[n.splitFeatureIndex]? = some b := by
          have := (List.getElem?_eq_some_iff.1 hrow).1
          rw [hn.1] at this
          exact ⟨_, List.getElem?_eq_getElem this⟩
        have hval : val X i n.splitFeatureIndex = a := by
          unfold val
          simp [hX, hrow]
        have hnear := hn.2 _ a b hrow hb
        have hside : (b ≤ (u + v) / 2 ↔ a ≤ (u + v) / 2) ∧ (a ≤ (u + v) / 2 → i ∈ leftOf X idx n.splitFeatureIndex ((u + v) / 2)) ∧
            (¬ a ≤ (u + v) / 2 → i ∈ rightOf X idx n.splitFeatureIndex ((u + v) / 2)) := by
          refine ⟨?_, ?_, ?_⟩
          · have := hcut i hi
            rw [hval] at this
            rcases this with hau | hva
            · have h2 := hnear q' hq' v hv (by intro h; linarith)
              rw [abs_of_pos (show 0 < v - a by linarith)] at h2
              have h3 := le_abs_self (b - a)
              constructor <;> intro _ <;> linarith
            · have h2 := hnear q hq u hu (by intro h; linarith)
              rw [abs_of_neg (show u - a < 0 by linarith)] at h2
              have h3 := neg_abs_le (b - a)
              constructor <;> intro h <;> exfalso <;> linarith
          · intro h
            unfold leftOf
            rw [List.mem_filter]
            exact ⟨hi, by rw [hval]; simpa using h⟩
          · intro h
            unfold rightOf
            rw [List.mem_filter]
            exact ⟨hi, by rw [hval]; simpa using h⟩
        unfold goIdx
        rw [List.getElem?_map, List.getElem?_map, hrow, hb]
        simp only [Option.map_some, bind, Except.bind, ht, XF.fin_le, hside.1]
        by_cases ha : a ≤ (u + v) / 2
        · rw [decide_eq_true ha, ihl hl (hside.2.1 ha)]
          split <;> rfl
        · rw [decide_eq_false ha, ihr hr (hside.2.2 ha)]
          rfl

/-- **C118, near a training row**: a row whose every value is nearer to that of a training row of the tree than half the way to any other
value of the column gets the prediction of that training row. Exact arithmetic. -/
theorem C118_near_tree (S : GoSort) (X : List (List K)) (o : TreeOptions (Exact K)) (t : Tree (Exact K))
    (h : newTree S (finRows X) o = .ok t) (i : Nat) (hi : i ∈ trainingRows (finRows X) o) (row row' : List K)
    (hX : X[i]? = some row) (hn : Near X row row') :
    t.predictSingle (row'.map XF.fin) = t.predictSingle (row.map XF.fin) := by
  rw [← idx_eq_trainingRows] at hi
  exact predict_near t (cutsAt_newTree _ _ _ h) hi hX hn

/-- **C118, models near a training row**: with no subsampling of rows, a row whose every value is nearer to that of a training row than half
the way to any other value of the column gets the probabilities and the class of that training row. Exact arithmetic. -/
theorem C118_near_model (exp : Exact K → Exact K) (S : GoSort) (draws : Nat → Exact K) (X : List (List K))
    (D : DataBunch (Exact K)) (hD : D.data = finRows X) (O : Options (Exact K))
    (hsub : O.xgb = false ∨ (O.subSample <. one) = false) (M : MultiClass (Exact K))
    (h : newMultiClass exp S draws D O = .ok M) (row row' : List K) (hX : row ∈ X) (hn : Near X row row') :
    M.predictSingle (row'.map XF.fin) = M.predictSingle (row.map XF.fin) ∧
    M.predictSingleClass (row'.map XF.fin) = M.predictSingleClass (row.map XF.fin) := by
  refine predict_same M ?_
  obtain ⟨i, hi⟩ := List.mem_iff_getElem?.1 hX
  have hil := (List.getElem?_eq_some_iff.1 hi).1
  have hall : ∀ o : TreeOptions (Exact K), o.indexes = none → o.idx (finRows X) = List.range X.length := by
    intro o ho
    rw [idx_eq_trainingRows]
    unfold trainingRows
    rw [ho]
    simp [finRows]
  have hsub' : ((O.fixMcw.subSample <. one) && O.fixMcw.xgb) = false := by
    have := Options.fixMcw_lr O
    have hfx : ∃ f, O.fixMcw = { O with minChildWeight := f } := by
      unfold Options.fixMcw
      split
      · exact ⟨_, rfl⟩
      · exact ⟨_, rfl⟩
    obtain ⟨f, hf⟩ := hfx
    rw [hf]
    rcases hsub with h | h
    · rw [Bool.and_eq_false_iff]; exact Or.inr h
    · rw [Bool.and_eq_false_iff]; exact Or.inl h
  obtain ⟨B, _, hB⟩ := newMultiClass_rel (S2 := S) (data2 := D.data) (TR := fun t1 _ => CutsAt X (List.range X.length) t1) (fun _ => rfl)
    (fun d idx cols d' hr lf y p t1 ht => ⟨t1, ht, by
      unfold roundSamples at hr
      rw [hsub'] at hr
      have hidx : idx = none := by
        simp only [Bool.false_eq_true, if_false, pure, Except.pure, bind, Except.bind] at hr
        split at hr
        · obtain ⟨_, _, hr⟩ := bind_ok hr
          obtain ⟨_, _, hr⟩ := bind_ok hr
          cases hr; rfl
        · cases hr; rfl
      subst hidx
      rw [hD] at ht
      unfold classTree at ht
      split at ht
      · obtain ⟨g, _, ht⟩ := bind_ok ht
        have := cutsAt_newTree _ _ _ ht
        rw [hall _ rfl] at this
        exact this
      · obtain ⟨g, _, ht⟩ := bind_ok ht
        obtain ⟨t0, h0, hu⟩ := bind_ok ht
        have := cutsAt_newTree _ _ _ h0
        rw [hall _ rfl] at this
        exact cutsAt_update _ _ hu this, fun _ => rfl⟩) h
  intro ens hens t ht
  obtain ⟨_, _, hE⟩ := forall₂_left hB ens hens
  obtain ⟨_, _, hT⟩ := forall₂_left hE t ht
  exact predict_near t hT (List.mem_range.2 hil) hi hn

/-- two rows that differ only in values above all the values of the column, or below all of them -/
def Beyond (X : List (List K)) (row row' : List K) : Prop :=
  row.length = row'.length ∧
  ∀ (f : Nat) a b, row[f]? = some a → row'[f]? = some b →
    a = b ∨ (∀ r ∈ X, ∀ w, r[f]? = some w → w ≤ a ∧ w ≤ b) ∨ (∀ r ∈ X, ∀ w, r[f]? = some w → a ≤ w ∧ b ≤ w)

/-- **C118, outside the range of the data**: beyond the largest, or the smallest, training value of a column predictions no longer depend on
the value. Any options. Exact arithmetic. -/
theorem C118_beyond (exp : Exact K → Exact K) (S : GoSort) (draws : Nat → Exact K) (X : List (List K))
    (D : DataBunch (Exact K)) (hD : D.data = finRows X) (O : Options (Exact K)) (M : MultiClass (Exact K))
    (h : newMultiClass exp S draws D O = .ok M) (row row' : List K) (hb : Beyond X row row') :
    M.predictSingle (row.map XF.fin) = M.predictSingle (row'.map XF.fin) ∧
    M.predictSingleClass (row.map XF.fin) = M.predictSingleClass (row'.map XF.fin) := by
  refine C118_model exp S draws D O M h _ _ ⟨by simpa using hb.1, ?_⟩
  intro f a b ha hb' u v ⟨r, hr, hu⟩ ⟨r', hr', hv⟩ huv
  rw [hD] at hr hr'
  obtain ⟨q, hq, rfl⟩ := List.mem_map.1 hr
  obtain ⟨q', hq', rfl⟩ := List.mem_map.1 hr'
  rw [List.getElem?_map] at ha hb' hu hv
  obtain ⟨a, ha1, rfl⟩ := Option.map_eq_some_iff.1 ha
  obtain ⟨b, hb1, rfl⟩ := Option.map_eq_some_iff.1 hb'
  obtain ⟨u, hu1, rfl⟩ := Option.map_eq_some_iff.1 hu
  obtain ⟨v, hv1, rfl⟩ := Option.map_eq_some_iff.1 hv
  have e : (XF.fin u +. XF.fin v) /. ofRat 2 = (XF.fin ((u + v) / 2) : Exact K) := by
    rw [Exact.add_fin]
    show (XF.fin (u + v) : Exact K) /. XF.fin _ = _
    rw [Exact.div_fin _ _ (by norm_num)]
    norm_num
  rw [e, XF.fin_le, XF.fin_le]
  have huv' : u ≠ v := by simpa using huv
  rcases hb.2 f a b ha1 hb1 with rfl | hup | hdown
  · rfl
  · obtain ⟨a1, b1⟩ := hup q hq u hu1
    obtain ⟨a2, b2⟩ := hup q' hq' v hv1
    rcases lt_or_gt_of_ne huv' with hlt | hlt <;>
      rw [decide_eq_false (by rw [not_le]; linarith), decide_eq_false (by rw [not_le]; linarith)]
  · obtain ⟨a1, b1⟩ := hdown q hq u hu1
    obtain ⟨a2, b2⟩ := hdown q' hq' v hv1
    rw [decide_eq_true (by linarith), decide_eq_true (by linarith)]

/-! ### the hypotheses are met -/

/-- 0, 1 and 3: the midpoints are 0, 1/2, 1, 3/2, 2 and 3 -/
def robustData : List (List ℚ) := [[0], [1], [3]]

/-- a value between the midpoints 1 and 3/2, and one further, still nearer to 1 than to 0 or 3 -/
example : Near robustData [1] [6/5] ∧ Near robustData [3] [19/5] := by
  constructor
  all_goals
    refine ⟨rfl, fun f a b ha hb r hr w hw hne => ?_⟩
    cases f with
    | succ f => simp at ha
    | zero =>
      simp only [List.getElem?_cons_zero, Option.some.injEq] at ha hb
      subst ha hb
      simp only [robustData, List.mem_cons, List.not_mem_nil, or_false] at hr
      rcases hr with rfl | rfl | rfl <;> simp only [List.getElem?_cons_zero, Option.some.injEq] at hw <;> subst hw <;>
        first | exact absurd rfl hne | (norm_num [abs_of_pos, abs_of_neg]; done)

example : SameCells (finRows robustData) [(XF.fin (11/10) : Exact ℚ)] [XF.fin (14/10)] := by
  refine ⟨rfl, fun f a b ha hb u v hu hv huv => ?_⟩
  cases f with
  | succ f => simp at ha
  | zero =>
    simp only [List.getElem?_cons_zero, Option.some.injEq] at ha hb
    subst ha hb
    obtain ⟨r, hr, hu⟩ := hu
    obtain ⟨r', hr', hv⟩ := hv
    simp only [robustData, finRows, List.map_cons, List.map_nil, List.mem_cons, List.not_mem_nil, or_false] at hr hr'
    rcases hr with rfl | rfl | rfl <;> rcases hr' with rfl | rfl | rfl <;>
      simp only [List.getElem?_cons_zero, Option.some.injEq] at hu hv <;> subst hu hv <;> (clear huv; decide +kernel)

example : Beyond robustData [3] [1000000] := by
  refine ⟨rfl, fun f a b ha hb => Or.inr (Or.inl fun r hr w hw => ?_)⟩
  cases f with
  | succ f => simp at ha
  | zero =>
    simp only [List.getElem?_cons_zero, Option.some.injEq] at ha hb
    subst ha hb
    simp only [robustData, List.mem_cons, List.not_mem_nil, or_false] at hr
    rcases hr with rfl | rfl | rfl <;> simp only [List.getElem?_cons_zero, Option.some.injEq] at hw <;> subst hw <;> norm_num

/-- a model with splits on these data -/
example : ∃ M, newMultiClass (fun _ : Exact ℚ => .fin 1) GoSort.ins (fun _ => .fin 0) ⟨finRows robustData, [], [1, 2, 1], []⟩
      { (defaultGOptions 0 : Options (Exact ℚ)) with rounds := 2, minChildWeight := .fin 1, maxDepth := 2 } = .ok M ∧ 4 ≤ M.splits.length := by
  have h : (match newMultiClass (fun _ : Exact ℚ => .fin 1) GoSort.ins (fun _ => .fin 0) ⟨finRows robustData, [], [1, 2, 1], []⟩
      { (defaultGOptions 0 : Options (Exact ℚ)) with rounds := 2, minChildWeight := .fin 1, maxDepth := 2 } with
    | .ok M => decide (4 ≤ M.splits.length)
    | .error _ => false) = true := by decide +kernel
  split at h
  · exact ⟨_, by assumption, of_decide_eq_true h⟩
  · cases h

end Boo
