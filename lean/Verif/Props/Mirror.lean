import Verif.Props.Reversed
import Verif.Props.ColOrder
import Verif.Lemmas.Memorize

/-!
# C149: the tree for data with other signs is the mirror image
-/

namespace Boo
open GoFloat Spec
set_option linter.unusedSectionVars false
variable {K : Type} [Field K] [LinearOrder K] [IsStrictOrderedRing K] [FloorRing K]

/-- the threshold of a node lies in the middle between two neighbouring values of its rows -/
def InMiddle (X : List (List K)) (i : NodeInfo (Exact K)) : Prop :=
  ∃ a ∈ i.samples, ∃ b ∈ i.samples, val X a i.splitFeatureIndex < val X b i.splitFeatureIndex ∧
    i.threshold = .fin ((val X a i.splitFeatureIndex + val X b i.splitFeatureIndex) / 2) ∧
    ∀ j ∈ i.samples, val X j i.splitFeatureIndex ≤ val X a i.splitFeatureIndex ∨ val X b i.splitFeatureIndex ≤ val X j i.splitFeatureIndex

theorem finRows_val {X : List (List K)} {j f : Nat} {row : List (Exact K)} {v : Exact K} (h : (finRows X)[j]? = some row)
    (hv : row[f]? = some v) : v = .fin (val X j f) := by
  unfold finRows at h
  rw [List.getElem?_map] at h
  obtain ⟨r0, h1, rfl⟩ := Option.map_eq_some_iff.1 h
  rw [List.getElem?_map] at hv
  obtain ⟨x, h2, rfl⟩ := Option.map_eq_some_iff.1 hv
  unfold val
  rw [List.getD_eq_getElem?_getD, List.getD_eq_getElem?_getD, h1, Option.getD_some, h2, Option.getD_some]

theorem split_between {S : GoSort} {X : List (List K)} {o : TreeOptions (Exact K)} {t : Tree (Exact K)}
    (hb : newTree S (finRows X) o = .ok t) {path : List Bool} {i : NodeInfo (Exact K)}
    {l r : Tree (Exact K)} (hs : t.sub path = .node i l r) (hl : l ≠ .nil) : InMiddle X i := by
  obtain ⟨o', d', hb', _⟩ := newTreeD_sub S _ _ o t hb path i l r hs
  obtain ⟨s, _⟩ := splitNode hb' hl
  obtain ⟨hrows, hlen, hsorted, hlt, hk, _, _⟩ := s.cut (by
    intro row hr v hv
    obtain ⟨r0, _, rfl⟩ := List.mem_map.1 hr
    obtain ⟨x, _, rfl⟩ := List.mem_map.1 hv
    simp)
  obtain ⟨c1, c2, c3, _⟩ := s.hcand
  have hcol := sampleCol_ok s.hcol
  have hfv : ∀ v ∈ s.col, ∃ j ∈ i.samples, v = .fin (val X j i.splitFeatureIndex) := by
    intro v hv
    obtain ⟨j, hj, row, hr, hv⟩ := forall₂_left hcol.flip v hv
    exact ⟨j, by rw [s.hsamples]; exact hj, finRows_val hr hv⟩
  have hvf : ∀ j ∈ i.samples, (.fin (val X j i.splitFeatureIndex) : Exact K) ∈ s.col := by
    intro j hj
    rw [s.hsamples] at hj
    obtain ⟨v, hv, row, hr, hrv⟩ := forall₂_left hcol j hj
    rw [finRows_val hr hrv] at hv
    exact hv
  have hmem : ∀ v : Exact K, v ∈ s.rows.map (·.1) ↔ v ∈ s.col := by
    intro v
    have h2 : ((argSort S s.col).2).Perm s.col := by
      unfold argSort
      simp only
      have := (S.perm idLess (s.col.zip (List.range s.col.length))).map Prod.fst
      rw [List.map_fst_zip (by simp)] at this
      exact this
    rw [hrows]
    exact h2.mem_iff
  rw [← List.getElem?_map] at c2 c3
  obtain ⟨a, ha, hxa⟩ := hfv s.x ((hmem _).1 (List.mem_of_getElem? c2))
  obtain ⟨b, hb2, hxb⟩ := hfv s.x' ((hmem _).1 (List.mem_of_getElem? c3))
  refine ⟨a, ha, b, hb2, ?_, ?_, ?_⟩
  · rw [hxa, hxb, XF.fin_lt] at hlt
    exact of_decide_eq_true hlt
  · have := s.hthr
    simp only at this
    rw [this, hxa, hxb]
    have hc2 : ((2 : ℚ) : K) = 2 := by norm_num
    unfold mid
    rw [Exact.add_fin, Exact.ofRat_fin, hc2, Exact.div_fin _ _ (by norm_num)]
  · intro j hj
    obtain ⟨n, hn⟩ := List.mem_iff_getElem?.1 ((hmem _).2 (hvf j hj))
    have hnl : n < (s.rows.map (·.1)).length := by
      by_contra hc
      rw [List.getElem?_eq_none (by omega)] at hn
      cases hn
    rw [List.pairwise_iff_getElem] at hsorted
    have hle : ∀ p q (hp : p < (s.rows.map (·.1)).length) (hq : q < (s.rows.map (·.1)).length), p ≤ q → ∀ u v : K,
        (s.rows.map (·.1))[p]? = some (.fin u) → (s.rows.map (·.1))[q]? = some (.fin v) → u ≤ v := by
      intro p q hp hq hpq u v hu hv
      rw [List.getElem?_eq_getElem hp] at hu
      rw [List.getElem?_eq_getElem hq] at hv
      rcases Nat.lt_or_eq_of_le hpq with h1 | rfl
      · have := hsorted p q hp hq h1
        rw [Option.some.inj hu, Option.some.inj hv, XF.fin_le] at this
        exact of_decide_eq_true this
      · rw [hu] at hv
        exact le_of_eq (XF.fin.inj (Option.some.inj hv))
    rw [hxa] at c2
    rw [hxb] at c3
    have hk' : s.k < (s.rows.map (·.1)).length := by simpa using hk
    by_cases h1 : n ≤ s.k - 1
    · exact Or.inl (hle n (s.k - 1) hnl (by omega) h1 _ _ hn c2)
    · exact Or.inr (hle s.k n hk' hnl (by omega) _ _ c3 hn)

/-- At every node of `t` that is split, all best splits use the same feature and divide the rows in the same way. -/
def UniqueCut (X : List (List K)) (w : Nat) (mcw : Int) (usable : List Bool → Nat → Prop)
    (gain : List Nat → List Nat → List Nat → K) (t : Tree (Exact K)) : Prop :=
  ∀ path i l r θ, t.sub path = .node i l r → l ≠ .nil → i.threshold = .fin θ → ∀ f < w, usable path f → ∀ θ',
    Admissible X mcw i.samples f θ' →
    gain i.samples (leftOf X i.samples f θ') (rightOf X i.samples f θ') =
      gain i.samples (leftOf X i.samples i.splitFeatureIndex θ) (rightOf X i.samples i.splitFeatureIndex θ) →
    f = i.splitFeatureIndex ∧ leftOf X i.samples f θ' = leftOf X i.samples i.splitFeatureIndex θ

/-- no value of the row in a column with changed sign is exactly at a threshold for this column -/
def OffThresholds (neg : Nat → Bool) (t : Tree (Exact K)) (row : List K) : Prop :=
  ∀ path i l r, t.sub path = .node i l r → l ≠ .nil → neg i.splitFeatureIndex = true → ∀ v, row[i.splitFeatureIndex]? = some v →
    i.threshold ≠ .fin v

/-- the two parts of a division determine the threshold in the middle between them -/
theorem middle_unique {v : Nat → K} {idx : List Nat} {a b a' b' : Nat} (ha : a ∈ idx) (hb : b ∈ idx) (ha' : a' ∈ idx) (hb' : b' ∈ idx)
    (h : v a < v b) (h' : v a' < v b') (hn : ∀ j ∈ idx, v j ≤ v a ∨ v b ≤ v j) (hn' : ∀ j ∈ idx, v j ≤ v a' ∨ v b' ≤ v j)
    (hL : ∀ j ∈ idx, (v j ≤ (v a + v b) / 2 ↔ v j ≤ (v a' + v b') / 2)) : v a = v a' ∧ v b = v b' := by
  have m1 : v a < (v a + v b) / 2 := by linarith
  have m2 : (v a + v b) / 2 < v b := by linarith
  have m1' : v a' < (v a' + v b') / 2 := by linarith
  have m2' : (v a' + v b') / 2 < v b' := by linarith
  have e1 := (hL a ha).1 m1.le
  have e2 := (hL a' ha').2 m1'.le
  have e3 := (not_congr (hL b hb)).1 (not_le.2 m2)
  have e4 := (not_congr (hL b' hb')).2 (not_le.2 m2')
  rw [not_le] at e3 e4
  constructor
  · apply le_antisymm
    · rcases hn' a ha with q | q
      · exact q
      · linarith
    · rcases hn a' ha' with q | q
      · exact q
      · linarith
  · apply le_antisymm
    · rcases hn b' hb' with q | q
      · linarith
      · exact q
    · rcases hn' b hb with q | q
      · linarith
      · exact q

/-- the second of two corresponding nodes that are split has the same feature and the same threshold, with the sign of its column, and
its parts are the same, in the opposite order if the sign was changed -/
theorem mirror_node {X : List (List K)} {neg : Nat → Bool} {idx L R L' R' : List Nat} {f : Nat} {θ θ' : K} {i i' : NodeInfo (Exact K)}
    (hi : i.samples = idx) (hi' : i'.samples = idx) (hf : i.splitFeatureIndex = f) (hf' : i'.splitFeatureIndex = f)
    (hθ : i.threshold = .fin θ) (hθ' : i'.threshold = .fin θ') (hb : InMiddle X i) (hb' : InMiddle (X.map (changeSigns neg)) i')
    (hL : L = leftOf X idx f θ) (hR : R = rightOf X idx f θ) (hL' : L' = leftOf (X.map (changeSigns neg)) idx f θ')
    (hR' : R' = rightOf (X.map (changeSigns neg)) idx f θ') (hd : SameDivision L R L' R') :
    (neg f = false ∧ θ' = θ ∧ L' = L ∧ R' = R) ∨ (neg f = true ∧ θ' = -θ ∧ L' = R ∧ R' = L) := by
  obtain ⟨a, ha, b, hbm, hlt, ht, hn⟩ := hb
  obtain ⟨a', ha', b', hbm', hlt', ht', hn'⟩ := hb'
  rw [hf] at hlt ht hn
  rw [hf'] at hlt' ht' hn'
  rw [hi] at ha hbm hn
  rw [hi'] at ha' hbm' hn'
  rw [hθ] at ht
  rw [hθ'] at ht'
  have et := XF.fin.inj ht
  have et' := XF.fin.inj ht'
  have mL : ∀ j ∈ idx, (j ∈ L ↔ val X j f ≤ θ) := by
    intro j hj
    rw [hL]
    unfold leftOf
    simp [hj]
  have mR : ∀ j ∈ idx, (j ∈ R ↔ θ < val X j f) := by
    intro j hj
    rw [hR]
    unfold rightOf
    simp [hj]
  have mL' : ∀ j ∈ idx, (j ∈ L' ↔ val (X.map (changeSigns neg)) j f ≤ θ') := by
    intro j hj
    rw [hL']
    unfold leftOf
    simp [hj]
  have mR' : ∀ j ∈ idx, (j ∈ R' ↔ θ' < val (X.map (changeSigns neg)) j f) := by
    intro j hj
    rw [hR']
    unfold rightOf
    simp [hj]
  simp only [val_changeSigns] at hlt' et' hn' mL' mR'
  cases hneg : neg f with
  | false =>
    rw [hneg] at hlt' et' hn' mL' mR'
    simp only [Bool.false_eq_true, if_false] at hlt' et' hn' mL' mR'
    rcases hd with ⟨d1, d2⟩ | ⟨d1, d2⟩
    · have := middle_unique (v := fun j => val X j f) ha hbm ha' hbm' hlt hlt' hn hn' (by
        intro j hj
        rw [← et, ← et', ← mL j hj, ← mL' j hj, d1])
      exact Or.inl ⟨rfl, by rw [et, et', this.1, this.2], d1, d2⟩
    · exfalso
      have h1 : a ∈ L := (mL a ha).2 (by linarith)
      have h2 : b ∈ R := (mR b hbm).2 (by linarith)
      rw [← d2, mR' a ha] at h1
      rw [← d1, mL' b hbm] at h2
      linarith
  | true =>
    rw [hneg] at hlt' et' hn' mL' mR'
    simp only [if_true] at hlt' et' hn' mL' mR'
    rcases hd with ⟨d1, d2⟩ | ⟨d1, d2⟩
    · exfalso
      have h1 : a ∈ L := (mL a ha).2 (by linarith)
      have h2 : b ∈ R := (mR b hbm).2 (by linarith)
      rw [← d1, mL' a ha] at h1
      rw [← d2, mR' b hbm] at h2
      linarith
    · have := middle_unique (v := fun j => val X j f) ha hbm hbm' ha' hlt (neg_lt_neg_iff.1 hlt') hn
        (fun j hj => by
          rcases hn' j hj with q | q
          · exact Or.inr (neg_le_neg_iff.1 q)
          · exact Or.inl (neg_le_neg_iff.1 q)) (by
        intro j hj
        have e := mL j hj
        rw [← d2, mR' j hj] at e
        rw [← et, ← e, et']
        -- a row of the old left part is in the new right part
        rcases hn' j hj with q | q
        · constructor
          · intro h; linarith
          · intro h; linarith
        · constructor
          · intro h; linarith
          · intro h; linarith)
      exact Or.inr ⟨rfl, by rw [et, et', this.1, this.2]; ring, d1, d2⟩

theorem reach_predict {t : Tree (Exact K)} {row : List (Exact K)} {leaf : NodeInfo (Exact K)} (h : t.reach row = .ok leaf) :
    t.predictSingle row = .ok leaf.value := by
  induction t with
  | nil => simp [Tree.reach] at h
  | node i l r ihl ihr =>
    unfold Tree.reach at h
    unfold Tree.predictSingle
    split at h
    · rename_i hl
      rw [if_pos hl, Except.ok.inj h]
    · rename_i hl
      rw [if_neg hl]
      obtain ⟨v, hv, h⟩ := bind_ok h
      rw [hv]
      simp only [bind, Except.bind]
      split at h
      · rename_i hc
        rw [if_pos hc]
        exact ihl h
      · rename_i hc
        rw [if_neg hc]
        exact ihr h

/-- in mirrored trees a row goes to leaves with the same samples and value -/
theorem mirror_reach {S S' : GoSort} {X : List (List K)} {neg : Nat → Bool} {o : TreeOptions (Exact K)} {t t' : Tree (Exact K)} {w : Nat}
    {mcw depth : Int} {usable : List Bool → Nat → Prop} {rows : List Nat}
    {gain : List Nat → List Nat → List Nat → K} {good : K → Prop} (hw : ∀ row ∈ X, row.length = w)
    (hsym : ∀ idx L R, gain idx L R = gain idx R L)
    (hus : ∀ p p' : List Bool, p.length = p'.length → ∀ f, usable p f ↔ usable p' f)
    (hb : newTree S (finRows X) o = .ok t) (hb' : newTree S' (finRows (X.map (changeSigns neg))) o = .ok t')
    (h : Grown X w mcw depth usable rows gain good t) (h' : Grown (X.map (changeSigns neg)) w mcw depth usable rows gain good t')
    (hu : UniqueCut X w mcw usable gain t) {row : List K} (hrow : row.length = w) (hoff : OffThresholds neg t row) :
    ∃ leaf leaf', t.reach (row.map XF.fin) = .ok leaf ∧ t'.reach ((changeSigns neg row).map XF.fin) = .ok leaf' ∧
      leaf'.samples = leaf.samples ∧ leaf'.value = leaf.value := by
  have hX := sameOrders_changeSigns neg X w hw
  have key : ∀ (T : Tree (Exact K)) path path' i' l' r', t.sub path = T → t'.sub path' = .node i' l' r' →
      path'.length = path.length → (∀ i l r, T = .node i l r → i'.samples = i.samples) → T ≠ .nil →
      ∃ leaf leaf', T.reach (row.map XF.fin) = .ok leaf ∧ (Tree.node i' l' r').reach ((changeSigns neg row).map XF.fin) = .ok leaf' ∧
        leaf'.samples = leaf.samples ∧ leaf'.value = leaf.value := by
    intro T
    induction T with
    | nil => intro _ _ _ _ _ _ _ _ _ hne; exact absurd rfl hne
    | node i l r ihl ihr =>
      intro path path' i' l' r' hs hs' hlen hsam _
      have hsam := hsam i l r rfl
      have hiff := Grown.split_iff hX hsym hus h h' hs hs' hlen hsam
      have hc := C02_leaf_iff_no_children S _ o t hb path i l r hs
      have hc' := C02_leaf_iff_no_children S' _ o t' hb' path' i' l' r' hs'
      by_cases hl : l = .nil
      · have hr := (h.sub path i l r hs).2.1.1 hl
        have hl' := hiff.1 hl
        have hr' := (h'.sub path' i' l' r' hs').2.1.1 hl'
        unfold Tree.reach
        rw [if_pos (hc.1.2 ⟨hl, hr⟩), if_pos (hc'.1.2 ⟨hl', hr'⟩)]
        exact ⟨i, i', rfl, rfl, hsam, same_value hb hb' hs hs' hsam⟩
      · have hl' : l' ≠ .nil := fun hc => hl (hiff.2 hc)
        have hr : r ≠ .nil := fun hc => hl ((h.sub path i l r hs).2.1.2 hc)
        have hr' : r' ≠ .nil := fun hc => hl' ((h'.sub path' i' l' r' hs').2.1.2 hc)
        have hin : ∀ j ∈ i.samples, j < X.length := fun j hj => h.inRange j ((h.sub path i l r hs).2.2 j hj)
        have hin' : ∀ j ∈ i.samples, j < (X.map (changeSigns neg)).length := fun j hj => by rw [hX.rows]; exact hin j hj
        obtain ⟨f, hf, θ, a1, a2, e1, e2, a3, ⟨il, ll, rl, hll, a4⟩, ⟨ir, lr, rr, hrr, a5⟩, a6⟩ := h.split path i l r hs hl
        obtain ⟨f', hf', θ', b1, b2, e1', e2', b3, ⟨il', ll', rl', hll', b4⟩, ⟨ir', lr', rr', hrr', b5⟩, b6⟩ := h'.split path' i' l' r' hs' hl'
        rw [hsam] at b2 b3 b4 b5 b6
        obtain ⟨θ1, c1, c2, c3⟩ := hX.transfer hsym hin hf a2
        obtain ⟨θ2, d1, d2, d3⟩ := hX.symm.transfer hsym hin' hf' b2
        have g1 := b6 f hf ((hus _ _ hlen f).2 a1) θ1 c2
        have g2 := a6 f' hf' ((hus _ _ hlen f').1 b1) θ2 d2
        rw [c3] at g1
        rw [d3] at g2
        obtain ⟨k1, k2⟩ := hu path i l r θ hs hl e2 f' hf' ((hus _ _ hlen f').1 b1) θ2 d2 (by rw [d3, e1]; exact le_antisymm g2 g1)
        have hff : f' = f := k1.trans e1
        subst hff
        rw [e1] at k2
        have k3 : rightOf X i.samples f' θ2 = rightOf X i.samples f' θ := by
          unfold leftOf at k2
          unfold rightOf
          refine List.filter_congr fun j hj => ?_
          have : (j ∈ i.samples.filter fun j => decide (val X j f' ≤ θ2)) ↔ j ∈ i.samples.filter fun j => decide (val X j f' ≤ θ) := by rw [k2]
          simp only [List.mem_filter, hj, true_and, decide_eq_true_eq] at this
          rw [decide_eq_decide, ← not_le, ← not_le]
          exact not_congr this
        have hdiv := d1.symm
        rw [k2, k3] at hdiv
        have hm := mirror_node (neg := neg) rfl hsam e1 e1' e2 e2' (split_between hb hs hl) (split_between hb' hs' hl') rfl rfl rfl rfl hdiv
        obtain ⟨v, hv⟩ : ∃ v, row[f']? = some v := ⟨row[f']'(by omega), List.getElem?_eq_getElem (by omega)⟩
        have hgi : goIdx (row.map XF.fin : List (Exact K)) i.splitFeatureIndex = .ok (.fin v) := by
          rw [e1]
          unfold goIdx
          rw [List.getElem?_map, hv]
          rfl
        have hgi' : goIdx ((changeSigns neg row).map XF.fin : List (Exact K)) i'.splitFeatureIndex = .ok (.fin (if neg f' then -v else v)) := by
          rw [e1']
          unfold goIdx changeSigns
          rw [List.getElem?_map, List.getElem?_mapIdx, hv]
          rfl
        have hlen' : ∀ b b' : Bool, (path' ++ [b']).length = (path ++ [b]).length := by intro b b'; simp [hlen]
        have ht1 : t.sub (path ++ [true]) = l := by rw [sub_child hs, if_pos rfl]
        have ht2 : t.sub (path ++ [false]) = r := by rw [sub_child hs, if_neg (by simp)]
        have ht1' : t'.sub (path' ++ [true]) = .node il' ll' rl' := by rw [sub_child hs', if_pos rfl, hll']
        have ht2' : t'.sub (path' ++ [false]) = .node ir' lr' rr' := by rw [sub_child hs', if_neg (by simp), hrr']
        have hlf := hc.2.2 ⟨hl, hr⟩
        have hlf' := hc'.2.2 ⟨hl', hr'⟩
        unfold Tree.reach
        simp only [hlf, hlf', Bool.false_eq_true, if_false, hgi, hgi', bind, Except.bind, e2, e2', XF.fin_le, decide_eq_true_eq]
        rcases hm with ⟨n1, n2, n3, n4⟩ | ⟨n1, n2, n3, n4⟩
        · rw [n1, n2]
          simp only [Bool.false_eq_true, if_false]
          by_cases hle : v ≤ θ
          · rw [if_pos hle, if_pos hle, hll']
            exact ihl _ _ _ _ _ ht1 ht1' (hlen' _ _) (fun i0 l0 r0 e => by
              rw [hll] at e
              cases e
              rw [b4, a4, n3]) hl
          · rw [if_neg hle, if_neg hle, hrr']
            exact ihr _ _ _ _ _ ht2 ht2' (hlen' _ _) (fun i0 l0 r0 e => by
              rw [hrr] at e
              cases e
              rw [b5, a5, n4]) hr
        · rw [n1, n2]
          simp only [if_true]
          have hne : v ≠ θ := by
            rintro rfl
            exact hoff path i l r hs hl (by rw [e1]; exact n1) v (by rw [e1]; exact hv) e2
          by_cases hle : v ≤ θ
          · have : ¬ -v ≤ -θ := by
              rw [neg_le_neg_iff, not_le]
              exact lt_of_le_of_ne hle hne
            rw [if_neg this, if_pos hle, hrr']
            exact ihl _ _ _ _ _ ht1 ht2' (hlen' _ _) (fun i0 l0 r0 e => by
              rw [hll] at e
              cases e
              rw [b5, a4, n4]) hl
          · have : -v ≤ -θ := by
              rw [neg_le_neg_iff]
              exact (not_le.1 hle).le
            rw [if_pos this, if_neg hle, hll']
            exact ihr _ _ _ _ _ ht2 ht1' (hlen' _ _) (fun i0 l0 r0 e => by
              rw [hrr] at e
              cases e
              rw [b4, a5, n3]) hr
  obtain ⟨i0, l0, r0, rfl, hr⟩ := h.root
  obtain ⟨i', l', r', rfl, hr'⟩ := h'.root
  exact key _ [] [] i' l' r' rfl rfl rfl (fun i l r e => by cases e; rw [hr, hr']) (by simp)

/-- mirrored trees predict the same -/
theorem mirror_predict {S S' : GoSort} {X : List (List K)} {neg : Nat → Bool} {o : TreeOptions (Exact K)} {t t' : Tree (Exact K)} {w : Nat}
    {mcw depth : Int} {usable : List Bool → Nat → Prop} {rows : List Nat}
    {gain : List Nat → List Nat → List Nat → K} {good : K → Prop} (hw : ∀ row ∈ X, row.length = w)
    (hsym : ∀ idx L R, gain idx L R = gain idx R L)
    (hus : ∀ p p' : List Bool, p.length = p'.length → ∀ f, usable p f ↔ usable p' f)
    (hb : newTree S (finRows X) o = .ok t) (hb' : newTree S' (finRows (X.map (changeSigns neg))) o = .ok t')
    (h : Grown X w mcw depth usable rows gain good t) (h' : Grown (X.map (changeSigns neg)) w mcw depth usable rows gain good t')
    (hu : UniqueCut X w mcw usable gain t) {row : List K} (hrow : row.length = w) (hoff : OffThresholds neg t row) :
    t'.predictSingle ((changeSigns neg row).map XF.fin) = t.predictSingle (row.map XF.fin) := by
  obtain ⟨leaf, leaf', h1, h2, _, h3⟩ := mirror_reach hw hsym hus hb hb' h h' hu hrow hoff
  rw [reach_predict h1, reach_predict h2, h3]

theorem trainingRows_signs (X : List (List K)) (neg : Nat → Bool) (o : TreeOptions (Exact K)) :
    trainingRows (finRows (X.map (changeSigns neg))) o = trainingRows (finRows X) o := by
  unfold trainingRows finRows
  simp

/-- **C149 (regular)**, partial: a regular tree for data in which the sign of some columns was changed gives every row, of the
data or not, the prediction of the first tree, if at every node of the first the best split is unique, and no changed value of the row is
exactly at a threshold. -/
theorem C149_regular_partial (S S' : GoSort) (X : List (List K)) (neg : Nat → Bool) (o : TreeOptions (Exact K))
    (t t' : Tree (Exact K)) (w : Nat) (y : List K) (hw : ∀ row ∈ X, row.length = w)
    (hrows : ∀ i ∈ trainingRows (finRows X) o, i < X.length)
    (hb : newTree S (finRows X) o = .ok t) (hb' : newTree S' (finRows (X.map (changeSigns neg))) o = .ok t') (hi : RegInput o y)
    (hu : UniqueCut X w (toInt o.minChildWeight) (UsableAt o) (regQuality y) t)
    (row : List K) (hrow : row.length = w) (hoff : OffThresholds neg t row) :
    t'.predictSingle ((changeSigns neg row).map XF.fin) = t.predictSingle (row.map XF.fin) := by
  have hX := sameOrders_changeSigns neg X w hw
  have G' := grown_reg hX.width' (by rw [trainingRows_signs, hX.rows]; exact hrows) hb' hi
  rw [trainingRows_signs] at G'
  refine mirror_predict hw (fun idx L R => ?_) usable_length hb hb' (grown_reg hw hrows hb hi) G' hu hrow hoff
  unfold regQuality
  ring

/-- **C149 (xgboost)**, partial: the same for xgboost trees. -/
theorem C149_xgb_partial (S S' : GoSort) (X : List (List K)) (neg : Nat → Bool) (o : TreeOptions (Exact K))
    (t t' : Tree (Exact K)) (w : Nat) (g h : List K) (lam gam : K) (hw : ∀ row ∈ X, row.length = w)
    (hrows : ∀ i ∈ trainingRows (finRows X) o, i < X.length)
    (hb : newTree S (finRows X) o = .ok t) (hb' : newTree S' (finRows (X.map (changeSigns neg))) o = .ok t')
    (hi : XgbInput o g h lam gam) (hp : ∀ v ∈ h, 0 ≤ v ∧ 0 < v + lam)
    (hu : UniqueCut X w (toInt o.minChildWeight) (UsableAt o) (xgbQuality g h lam gam) t)
    (row : List K) (hrow : row.length = w) (hoff : OffThresholds neg t row) :
    t'.predictSingle ((changeSigns neg row).map XF.fin) = t.predictSingle (row.map XF.fin) := by
  have hX := sameOrders_changeSigns neg X w hw
  have G' := grown_xgb hX.width' (by rw [trainingRows_signs, hX.rows]; exact hrows) hb' hi hp
  rw [trainingRows_signs] at G'
  refine mirror_predict hw (fun idx L R => ?_) usable_length hb hb' (grown_xgb hw hrows hb hi hp) G' hu hrow hoff
  unfold xgbQuality
  rw [add_comm]

/-- the prediction of the tree for a row -/
def predictionFor (X : List (List ℚ)) (o : TreeOptions (Exact ℚ)) (row : List ℚ) : Go (Exact ℚ) := do
  let t ← newTree GoSort.ins (finRows X) o
  t.predictSingle (row.map XF.fin)

/-- **C149, the code violates it**: the value 3/2 is at the threshold of the tree for the targets 0, 0, 5, where the best split is unique,
and goes to the left for both signs: to different leaves. -/
theorem C149_violated :
    predictionFor tieX (tieO [0, 0, 5]) [3/2] = .ok (.fin 0) ∧
    predictionFor (tieX.map (changeSigns fun _ => true)) (tieO [0, 0, 5]) (changeSigns (fun _ => true) [3/2]) = .ok (.fin 5) := by
  decide +kernel

/-- two rows that are not in the data, on both sides of the threshold -/
example : predictionFor tieX (tieO [0, 0, 5]) [7/5] = .ok (.fin 0) ∧
    predictionFor (tieX.map (changeSigns fun _ => true)) (tieO [0, 0, 5]) (changeSigns (fun _ => true) [7/5]) = .ok (.fin 0) ∧
    predictionFor tieX (tieO [0, 0, 5]) [8/5] = .ok (.fin 5) ∧
    predictionFor (tieX.map (changeSigns fun _ => true)) (tieO [0, 0, 5]) (changeSigns (fun _ => true) [8/5]) = .ok (.fin 5) := by
  decide +kernel

/-- the tree for the targets 0, 0, 5 meets the hypotheses, with the row of the example before -/
example : ∃ t, newTree GoSort.ins (finRows tieX) (tieO [0, 0, 5]) = .ok t ∧ t.size = 3 ∧ RegInput (tieO [0, 0, 5]) [0, 0, 5] ∧
    (∀ i ∈ trainingRows (finRows tieX) (tieO [0, 0, 5]), i < tieX.length) ∧
    UniqueCut tieX 1 (toInt (tieO [0, 0, 5]).minChildWeight) (UsableAt (tieO [0, 0, 5])) (regQuality [0, 0, 5]) t ∧
    OffThresholds (fun _ => true) t [7/5] := by
  have hk : (match newTree GoSort.ins (finRows tieX) (tieO [0, 0, 5]) with
      | .ok (.node i (.node _ .nil .nil) (.node _ .nil .nil)) => decide (i.samples = [0, 1, 2] ∧ i.splitFeatureIndex = 0 ∧ i.threshold = .fin (3/2))
      | _ => false) = true := by decide +kernel
  split at hk
  next i a b ht =>
    obtain ⟨e1, e2, e3⟩ := of_decide_eq_true hk
    have hroot : ∀ path j l r, (Tree.node i (.node a .nil .nil) (.node b .nil .nil)).sub path = .node j l r → l ≠ .nil → path = [] ∧ j = i := by
      intro path j l r hs hl
      cases path with
      | nil =>
        simp only [Tree.sub] at hs
        injection hs with h1 _ _
        exact ⟨rfl, h1.symm⟩
      | cons c p =>
        exfalso
        cases c <;> cases p with
        | nil =>
          simp only [Tree.sub] at hs
          injection hs with _ h2 _
          exact hl h2.symm
        | cons c' p' => cases c' <;> cases p' <;> simp [Tree.sub] at hs
    refine ⟨_, ht, rfl, ⟨rfl, rfl⟩, by decide, ?_, ?_⟩
    · intro path j l r θ hs hl hth f hf _ θ' hadm hg
      obtain ⟨rfl, rfl⟩ := hroot path j l r hs hl
      rw [e3] at hth
      obtain rfl : (3/2 : ℚ) = θ := XF.fin.inj hth
      obtain rfl : f = 0 := by omega
      rw [e1, e2] at *
      refine ⟨rfl, ?_⟩
      have hm : toInt (tieO [0, 0, 5]).minChildWeight = 1 := by decide +kernel
      rw [hm] at hadm
      have hL : leftOf tieX [0, 1, 2] 0 (3/2 : ℚ) = [0, 1] := by decide +kernel
      have hR : rightOf tieX [0, 1, 2] 0 (3/2 : ℚ) = [2] := by decide +kernel
      rw [hL, hR] at *
      rcases tie_division θ' hadm with ⟨d1, d2⟩ | ⟨d1, d2⟩
      · rw [d1, d2] at hg
        exact absurd hg (by decide +kernel)
      · exact d1
    · intro path j l r hs hl _ v hv
      obtain ⟨rfl, rfl⟩ := hroot path j l r hs hl
      rw [e2] at hv
      rw [e3]
      intro hc
      have h1 := XF.fin.inj hc
      rw [← h1] at hv
      exact absurd hv (by decide +kernel)
  next => cases hk

end Boo
