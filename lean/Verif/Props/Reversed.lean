import Verif.Props.Gain

/-!
# C148: turning the order of a column round
-/

namespace Boo
open GoFloat Spec
set_option linter.unusedSectionVars false
variable {K : Type} [Field K] [LinearOrder K] [IsStrictOrderedRing K] [FloorRing K]

/-- In every column the rows of `X` and `X'` are in the same order, or in every place in the opposite one. -/
structure SameOrders (X X' : List (List K)) (w : Nat) : Prop where
  rows : X'.length = X.length
  width : ∀ row ∈ X, row.length = w
  width' : ∀ row ∈ X', row.length = w
  order : ∀ f < w, (∀ i < X.length, ∀ j < X.length, (val X i f < val X j f ↔ val X' i f < val X' j f)) ∨
    (∀ i < X.length, ∀ j < X.length, (val X i f < val X j f ↔ val X' j f < val X' i f))

/-- Two ways to divide the same rows that differ at most in which part is called left. -/
def SameDivision (L R L' R' : List Nat) : Prop := (L' = L ∧ R' = R) ∨ (L' = R ∧ R' = L)

theorem SameOrders.symm {X X' : List (List K)} {w : Nat} (h : SameOrders X X' w) : SameOrders X' X w := by
  refine ⟨h.rows.symm, h.width', h.width, fun f hf => ?_⟩
  rw [h.rows]
  rcases h.order f hf with h1 | h1
  · exact Or.inl fun i hi j hj => (h1 i hi j hj).symm
  · exact Or.inr fun i hi j hj => (h1 j hj i hi).symm

/-- the member of a list with the largest value -/
theorem exists_max_val (v : Nat → K) : ∀ (l : List Nat), l ≠ [] → ∃ m ∈ l, ∀ i ∈ l, v i ≤ v m := by
  intro l
  induction l with
  | nil => intro h; exact absurd rfl h
  | cons a l ih =>
    intro _
    by_cases hl : l = []
    · subst hl
      exact ⟨a, by simp, by simp⟩
    · obtain ⟨m, hm, h⟩ := ih hl
      by_cases ha : v m ≤ v a
      · refine ⟨a, by simp, fun i hi => ?_⟩
        rcases List.mem_cons.1 hi with rfl | hi
        · exact le_rfl
        · exact (h i hi).trans ha
      · refine ⟨m, by simp [hm], fun i hi => ?_⟩
        rcases List.mem_cons.1 hi with rfl | hi
        · exact (not_le.1 ha).le
        · exact h i hi

/-- every division of rows by a threshold on `X` is one on `X'`, on the same column -/
theorem SameOrders.division {X X' : List (List K)} {w : Nat} (h : SameOrders X X' w) {idx : List Nat} (hidx : ∀ i ∈ idx, i < X.length)
    {f : Nat} (hf : f < w) {θ : K} (hL : leftOf X idx f θ ≠ []) (hR : rightOf X idx f θ ≠ []) :
    ∃ θ', SameDivision (leftOf X idx f θ) (rightOf X idx f θ) (leftOf X' idx f θ') (rightOf X' idx f θ') := by
  rcases h.order f hf with h1 | h1
  · obtain ⟨m, hm, hmax⟩ := exists_max_val (fun i => val X i f) _ hL
    obtain ⟨hmi, hmt⟩ := List.mem_filter.1 hm
    rw [decide_eq_true_eq] at hmt
    have key : ∀ i ∈ idx, val X i f ≤ θ ↔ val X' i f ≤ val X' m f := by
      intro i hi
      rw [← not_lt, ← not_lt (a := val X' m f), ← h1 m (hidx m hmi) i (hidx i hi), not_lt, not_lt]
      constructor
      · intro hle
        exact hmax i (List.mem_filter.2 ⟨hi, decide_eq_true hle⟩)
      · intro hle
        exact hle.trans hmt
    refine ⟨val X' m f, Or.inl ⟨List.filter_congr fun i hi => ?_, List.filter_congr fun i hi => ?_⟩⟩
    · rw [decide_eq_decide]
      exact (key i hi).symm
    · rw [decide_eq_decide, ← not_le, ← not_le]
      exact not_congr (key i hi).symm
  · obtain ⟨m, hm, hmax⟩ := exists_max_val (fun i => - val X i f) _ hR
    obtain ⟨hmi, hmt⟩ := List.mem_filter.1 hm
    rw [decide_eq_true_eq] at hmt
    have key : ∀ i ∈ idx, θ < val X i f ↔ val X' i f ≤ val X' m f := by
      intro i hi
      rw [← not_lt (a := val X' m f), ← h1 i (hidx i hi) m (hidx m hmi), not_lt]
      constructor
      · intro hle
        have := hmax i (List.mem_filter.2 ⟨hi, decide_eq_true hle⟩)
        exact neg_le_neg_iff.1 this
      · intro hle
        exact hmt.trans_le hle
    refine ⟨val X' m f, Or.inr ⟨List.filter_congr fun i hi => ?_, List.filter_congr fun i hi => ?_⟩⟩
    · rw [decide_eq_decide]
      exact (key i hi).symm
    · rw [decide_eq_decide, ← not_lt, ← not_le]
      exact not_congr (key i hi).symm

/-- What is known of a tree grown on `X` from the rows `rows`: a node is divided in the best way, a node that is not divided has no
good one. `gain` is the quality of a division of the rows of a node, `good` says which qualities are worth a split. -/
structure Grown (X : List (List K)) (w : Nat) (mcw depth : Int) (usable : List Bool → Nat → Prop) (rows : List Nat)
    (gain : List Nat → List Nat → List Nat → K) (good : K → Prop) (t : Tree (Exact K)) : Prop where
  root : ∃ i l r, t = .node i l r ∧ i.samples = rows
  inRange : ∀ i ∈ rows, i < X.length
  sub : ∀ path i l r, t.sub path = .node i l r → (path.length : Int) ≤ max 0 depth ∧ (l = .nil ↔ r = .nil) ∧ ∀ j ∈ i.samples, j ∈ rows
  split : ∀ path i l r, t.sub path = .node i l r → l ≠ .nil → ∃ f < w, ∃ θ, usable path f ∧ Admissible X mcw i.samples f θ ∧
    i.splitFeatureIndex = f ∧ i.threshold = .fin θ ∧
    good (gain i.samples (leftOf X i.samples f θ) (rightOf X i.samples f θ)) ∧
    (∃ i' l' r', l = .node i' l' r' ∧ i'.samples = leftOf X i.samples f θ) ∧
    (∃ i' l' r', r = .node i' l' r' ∧ i'.samples = rightOf X i.samples f θ) ∧
    ∀ f' < w, usable path f' → ∀ θ', Admissible X mcw i.samples f' θ' →
      gain i.samples (leftOf X i.samples f' θ') (rightOf X i.samples f' θ') ≤
        gain i.samples (leftOf X i.samples f θ) (rightOf X i.samples f θ)
  leaf : ∀ path i, t.sub path = .node i .nil .nil → (path.length : Int) < depth → ∀ f < w, usable path f → ∀ θ,
    Admissible X mcw i.samples f θ → ¬ good (gain i.samples (leftOf X i.samples f θ) (rightOf X i.samples f θ))

/-- At every node of `t` that is split, all best divisions of its rows are the same. -/
def UniqueBest (X : List (List K)) (w : Nat) (mcw : Int) (usable : List Bool → Nat → Prop)
    (gain : List Nat → List Nat → List Nat → K) (t : Tree (Exact K)) : Prop :=
  ∀ path i l r θ, t.sub path = .node i l r → l ≠ .nil → i.threshold = .fin θ → ∀ f < w, usable path f → ∀ θ',
    Admissible X mcw i.samples f θ' →
    gain i.samples (leftOf X i.samples f θ') (rightOf X i.samples f θ') =
      gain i.samples (leftOf X i.samples i.splitFeatureIndex θ) (rightOf X i.samples i.splitFeatureIndex θ) →
    SameDivision (leftOf X i.samples i.splitFeatureIndex θ) (rightOf X i.samples i.splitFeatureIndex θ)
      (leftOf X i.samples f θ') (rightOf X i.samples f θ')

theorem sub_child {t : Tree (Exact K)} {path : List Bool} {i : NodeInfo (Exact K)} {l r : Tree (Exact K)} (h : t.sub path = .node i l r)
    (b : Bool) : t.sub (path ++ [b]) = if b then l else r := by
  rw [Tree.sub_append, h]
  cases b <;> simp [Tree.sub]

theorem admissible_ne {X : List (List K)} {mcw : Int} {idx : List Nat} {f : Nat} {θ : K} (h : Admissible X mcw idx f θ) :
    leftOf X idx f θ ≠ [] ∧ rightOf X idx f θ ≠ [] := by
  obtain ⟨h1, h2⟩ := h
  constructor
  · intro h0; rw [h0] at h1; simp at h1
  · intro h0; rw [h0] at h2; simp at h2

theorem SameDivision.symm {L R L' R' : List Nat} (h : SameDivision L R L' R') : SameDivision L' R' L R := by
  rcases h with ⟨rfl, rfl⟩ | ⟨rfl, rfl⟩
  · exact Or.inl ⟨rfl, rfl⟩
  · exact Or.inr ⟨rfl, rfl⟩

theorem SameDivision.trans {L R L' R' L'' R'' : List Nat} (h : SameDivision L R L' R') (h' : SameDivision L' R' L'' R'') :
    SameDivision L R L'' R'' := by
  rcases h with ⟨rfl, rfl⟩ | ⟨rfl, rfl⟩
  · exact h'
  · rcases h' with ⟨rfl, rfl⟩ | ⟨rfl, rfl⟩
    · exact Or.inr ⟨rfl, rfl⟩
    · exact Or.inl ⟨rfl, rfl⟩

/-- a division of `X` that is admissible has a counterpart on `X'`, which is admissible and has the same gain -/
theorem SameOrders.transfer {X X' : List (List K)} {w : Nat} (h : SameOrders X X' w) {gain : List Nat → List Nat → List Nat → K}
    (hsym : ∀ idx L R, gain idx L R = gain idx R L) {idx : List Nat} (hidx : ∀ i ∈ idx, i < X.length) {mcw : Int}
    {f : Nat} (hf : f < w) {θ : K} (hadm : Admissible X mcw idx f θ) :
    ∃ θ', SameDivision (leftOf X idx f θ) (rightOf X idx f θ) (leftOf X' idx f θ') (rightOf X' idx f θ') ∧ Admissible X' mcw idx f θ' ∧
      gain idx (leftOf X' idx f θ') (rightOf X' idx f θ') = gain idx (leftOf X idx f θ) (rightOf X idx f θ) := by
  obtain ⟨hL, hR⟩ := admissible_ne hadm
  obtain ⟨θ', hd⟩ := h.division hidx hf hL hR
  refine ⟨θ', hd, ?_, ?_⟩
  · unfold Admissible at *
    rcases hd with ⟨h1, h2⟩ | ⟨h1, h2⟩ <;> rw [h1, h2]
    · exact hadm
    · exact ⟨hadm.2, hadm.1⟩
  · rcases hd with ⟨h1, h2⟩ | ⟨h1, h2⟩ <;> rw [h1, h2]
    exact hsym _ _ _

/-- corresponding nodes are both split or both leaves -/
theorem Grown.split_iff {X X' : List (List K)} {w : Nat} {mcw depth : Int} {usable : List Bool → Nat → Prop} {rows : List Nat}
    {gain : List Nat → List Nat → List Nat → K} {good : K → Prop} {t t' : Tree (Exact K)} (hX : SameOrders X X' w)
    (hsym : ∀ idx L R, gain idx L R = gain idx R L)
    (hus : ∀ p p' : List Bool, p.length = p'.length → ∀ f, usable p f ↔ usable p' f)
    (h : Grown X w mcw depth usable rows gain good t) (h' : Grown X' w mcw depth usable rows gain good t')
    {path path' : List Bool} {i i' : NodeInfo (Exact K)} {l r l' r' : Tree (Exact K)} (hs : t.sub path = .node i l r)
    (hs' : t'.sub path' = .node i' l' r') (hlen : path'.length = path.length) (hsam : i'.samples = i.samples) : l = .nil ↔ l' = .nil := by
  have hin : ∀ j ∈ i.samples, j < X.length := fun j hj => h.inRange j ((h.sub path i l r hs).2.2 j hj)
  have hin' : ∀ j ∈ i.samples, j < X'.length := fun j hj => by rw [hX.rows]; exact hin j hj
  constructor
  · intro hl
    by_contra hl'
    obtain ⟨f, hf, θ, a1, a2, _, _, a3, ⟨il, ll, rl, hll, _⟩, _⟩ := h'.split path' i' l' r' hs' hl'
    rw [hsam] at a2 a3
    obtain ⟨θ', _, b2, b3⟩ := hX.symm.transfer hsym hin' hf a2
    have hr : r = .nil := (h.sub path i l r hs).2.1.1 hl
    subst hl hr
    have hd : (path.length : Int) < depth := by
      have := (h'.sub (path' ++ [true]) il ll rl (by rw [sub_child hs', if_pos rfl, hll])).1
      rw [List.length_append, List.length_singleton, hlen] at this
      omega
    refine h.leaf path i hs hd f hf ((hus _ _ hlen f).1 a1) θ' b2 ?_
    rw [b3]
    exact a3
  · intro hl'
    by_contra hl
    obtain ⟨f, hf, θ, a1, a2, _, _, a3, ⟨il, ll, rl, hll, _⟩, _⟩ := h.split path i l r hs hl
    obtain ⟨θ', _, b2, b3⟩ := hX.transfer hsym hin hf a2
    have hr : r' = .nil := (h'.sub path' i' l' r' hs').2.1.1 hl'
    subst hl' hr
    have hd : (path'.length : Int) < depth := by
      have := (h.sub (path ++ [true]) il ll rl (by rw [sub_child hs, if_pos rfl, hll])).1
      rw [List.length_append, List.length_singleton] at this
      omega
    rw [← hsam] at b2 b3
    refine h'.leaf path' i' hs' hd f hf ((hus _ _ hlen f).2 a1) θ' b2 ?_
    rw [b3, hsam]
    exact a3

/-- nodes correspond: at every node of `t` there is a node of `t'` at the same depth with the same rows, and it is split if that of `t` is -/
theorem Grown.nodes {X X' : List (List K)} {w : Nat} {mcw depth : Int} {usable : List Bool → Nat → Prop} {rows : List Nat}
    {gain : List Nat → List Nat → List Nat → K} {good : K → Prop} {t t' : Tree (Exact K)} (hX : SameOrders X X' w)
    (hsym : ∀ idx L R, gain idx L R = gain idx R L)
    (hus : ∀ p p' : List Bool, p.length = p'.length → ∀ f, usable p f ↔ usable p' f)
    (h : Grown X w mcw depth usable rows gain good t) (h' : Grown X' w mcw depth usable rows gain good t')
    (hu : UniqueBest X w mcw usable gain t) :
    ∀ path i l r, t.sub path = .node i l r → ∃ path' i' l' r', path'.length = path.length ∧ t'.sub path' = .node i' l' r' ∧
      i'.samples = i.samples ∧ (l = .nil ↔ l' = .nil) := by
  -- a node with the same rows at the same depth is split in the same way
  have step : ∀ path i l r path' i' l' r', t.sub path = .node i l r → t'.sub path' = .node i' l' r' → path'.length = path.length →
      i'.samples = i.samples → (l = .nil ↔ l' = .nil) ∧ (l ≠ .nil → ∃ il ll rl ir lr rr il' ll' rl' ir' lr' rr',
        l = .node il ll rl ∧ r = .node ir lr rr ∧ l' = .node il' ll' rl' ∧ r' = .node ir' lr' rr' ∧
        SameDivision il.samples ir.samples il'.samples ir'.samples) := by
    intro path i l r path' i' l' r' hs hs' hlen hsam
    have hin : ∀ j ∈ i.samples, j < X.length := fun j hj => h.inRange j ((h.sub path i l r hs).2.2 j hj)
    have hin' : ∀ j ∈ i.samples, j < X'.length := fun j hj => by rw [hX.rows]; exact hin j hj
    have hiff : l = .nil ↔ l' = .nil := Grown.split_iff hX hsym hus h h' hs hs' hlen hsam
    refine ⟨hiff, fun hl => ?_⟩
    have hl' : l' ≠ .nil := fun hc => hl (hiff.2 hc)
    obtain ⟨f, hf, θ, a1, a2, e1, e2, a3, ⟨il, ll, rl, hll, a4⟩, ⟨ir, lr, rr, hrr, a5⟩, a6⟩ := h.split path i l r hs hl
    obtain ⟨f', hf', θ', b1, b2, _, _, b3, ⟨il', ll', rl', hll', b4⟩, ⟨ir', lr', rr', hrr', b5⟩, b6⟩ := h'.split path' i' l' r' hs' hl'
    refine ⟨il, ll, rl, ir, lr, rr, il', ll', rl', ir', lr', rr', hll, hrr, hll', hrr', ?_⟩
    rw [hsam] at b2 b3 b4 b5 b6
    -- the split of `t` on `X'`
    obtain ⟨θ1, c1, c2, c3⟩ := hX.transfer hsym hin hf a2
    -- the split of `t'` on `X`
    obtain ⟨θ2, d1, d2, d3⟩ := hX.symm.transfer hsym hin' hf' b2
    have g1 := b6 f hf ((hus _ _ hlen f).2 a1) θ1 c2
    have g2 := a6 f' hf' ((hus _ _ hlen f').1 b1) θ2 d2
    rw [c3] at g1
    rw [d3] at g2
    have hdiv := hu path i l r θ hs hl e2 f' hf' ((hus _ _ hlen f').1 b1) θ2 d2 (by rw [d3, e1]; exact le_antisymm g2 g1)
    rw [e1] at hdiv
    rw [a4, a5, b4, b5]
    exact hdiv.trans d1.symm
  intro path
  induction path using List.reverseRecOn with
  | nil =>
    intro i l r hs
    obtain ⟨i0, l0, r0, rfl, hr⟩ := h.root
    obtain ⟨i', l', r', rfl, hr'⟩ := h'.root
    simp only [Tree.sub] at hs
    cases hs
    refine ⟨[], i', l', r', rfl, rfl, hr'.trans hr.symm, ?_⟩
    exact (step [] _ _ _ [] _ _ _ rfl rfl rfl (hr'.trans hr.symm)).1
  | append_singleton path b ih =>
    intro i l r hs
    cases hp : t.sub path with
    | nil =>
      rw [Tree.sub_append, hp] at hs
      cases hs
    | node ip lp rp =>
      obtain ⟨path', ip', lp', rp', h1, h2, h3, _⟩ := ih ip lp rp hp
      obtain ⟨_, hch⟩ := step path ip lp rp path' ip' lp' rp' hp h2 h1 h3
      have hlp : lp ≠ .nil := by
        intro h0
        have h4 := (h.sub path ip lp rp hp).2.1.1 h0
        rw [sub_child hp, h0, h4] at hs
        cases b <;> cases hs
      obtain ⟨il, ll, rl, ir, lr, rr, il', ll', rl', ir', lr', rr', e1, e2, e3, e4, hdiv⟩ := hch hlp
      have fin : ∀ b' i' l' r', t'.sub (path' ++ [b']) = .node i' l' r' → i'.samples = i.samples →
          ∃ path' i' l' r', path'.length = (path ++ [b]).length ∧ t'.sub path' = .node i' l' r' ∧
            i'.samples = i.samples ∧ (l = .nil ↔ l' = .nil) := by
        intro b' i' l' r' hs' hsam
        have hlen : (path' ++ [b']).length = (path ++ [b]).length := by simp [h1]
        exact ⟨_, i', l', r', hlen, hs', hsam, (step _ _ _ _ _ _ _ _ hs hs' hlen hsam).1⟩
      have ht1 : t'.sub (path' ++ [true]) = .node il' ll' rl' := by rw [sub_child h2, if_pos rfl, e3]
      have ht2 : t'.sub (path' ++ [false]) = .node ir' lr' rr' := by rw [sub_child h2, if_neg (by simp), e4]
      cases b with
      | true =>
        have hs2 := hs
        rw [sub_child hp, if_pos rfl, e1] at hs2
        cases hs2
        rcases hdiv with ⟨q1, q2⟩ | ⟨q1, q2⟩
        · exact fin true _ _ _ ht1 q1
        · exact fin false _ _ _ ht2 q2
      | false =>
        have hs2 := hs
        rw [sub_child hp, if_neg (by simp), e2] at hs2
        cases hs2
        rcases hdiv with ⟨q1, q2⟩ | ⟨q1, q2⟩
        · exact fin false _ _ _ ht2 q2
        · exact fin true _ _ _ ht1 q1

/-! ### Trees of `NewTree` -/

theorem row0_width {X : List (List K)} {w : Nat} (hw : ∀ row ∈ X, row.length = w) {row0 : List (Exact K)} (h : (finRows X)[0]? = some row0) :
    ∃ r0, X[0]? = some r0 ∧ r0.length = w ∧ row0.length = w := by
  unfold finRows at h
  rw [List.getElem?_map] at h
  obtain ⟨r0, h1, rfl⟩ := Option.map_eq_some_iff.1 h
  have := hw r0 (List.mem_of_getElem? h1)
  exact ⟨r0, h1, this, by simpa using this⟩

/-- the feature of a split is one of the data, and allowed at its node -/
theorem split_feature {S : GoSort} {X : List (List K)} {o : TreeOptions (Exact K)} {t : Tree (Exact K)} {w : Nat}
    (hw : ∀ row ∈ X, row.length = w) (hb : newTree S (finRows X) o = .ok t) {path : List Bool} {i : NodeInfo (Exact K)}
    {l r : Tree (Exact K)} (hs : t.sub path = .node i l r) (hl : l ≠ .nil) : i.splitFeatureIndex < w ∧ UsableAt o path i.splitFeatureIndex := by
  obtain ⟨o', d', hb', _, hin, _, he, _⟩ := newTreeD_sub S _ _ o t hb path i l r hs
  obtain ⟨s, _⟩ := splitNode hb' hl
  obtain ⟨_, _, _, _, row0, h0, hf⟩ := mkInfo_samples hb'
  obtain ⟨_, _, _, h3⟩ := row0_width hw h0
  refine ⟨by rw [← h3, ← hf]; exact s.hfeat, fun hp => ?_⟩
  rw [← he hp]
  have := s.hallowed
  unfold columnAllowed at this
  simpa using this

theorem grown_sub {S : GoSort} {X : List (List K)} {o : TreeOptions (Exact K)} {t : Tree (Exact K)}
    (hb : newTree S (finRows X) o = .ok t) (path : List Bool) (i : NodeInfo (Exact K)) (l r : Tree (Exact K)) (hs : t.sub path = .node i l r) :
    (path.length : Int) ≤ max 0 o.maxDepth ∧ (l = .nil ↔ r = .nil) ∧ ∀ j ∈ i.samples, j ∈ trainingRows (finRows X) o := by
  refine ⟨C01_depth S _ o t hb path (by rw [hs]; simp), ?_, ?_⟩
  · have h := C02_leaf_iff_no_children S _ o t hb path i l r hs
    cases hlf : i.leaf with
    | true =>
      obtain ⟨rfl, rfl⟩ := h.1.1 hlf
      simp
    | false =>
      obtain ⟨h1, h2⟩ := h.2.1 hlf
      simp [h1, h2]
  · obtain ⟨o', d', hb', _, _, hsub, _⟩ := newTreeD_sub S _ _ o t hb path i l r hs
    intro j hj
    rw [(mkInfo_samples hb').1] at hj
    rw [← idx_eq_trainingRows]
    exact hsub.subset hj

theorem grown_root {S : GoSort} {X : List (List K)} {o : TreeOptions (Exact K)} {t : Tree (Exact K)}
    (hb : newTree S (finRows X) o = .ok t) : ∃ i l r, t = .node i l r ∧ i.samples = trainingRows (finRows X) o := by
  cases t with
  | nil => exact absurd rfl (newTree_ne_nil hb)
  | node i l r => exact ⟨i, l, r, rfl, by rw [(mkInfo_samples hb).1, idx_eq_trainingRows]⟩

/-- a subtree built from the rows `A` starts with a node for these rows -/
theorem grown_child {S : GoSort} {X : List (List K)} {o : TreeOptions (Exact K)} {d : Nat} {A : List Nat} {t : Tree (Exact K)}
    (hb : newTreeD S (finRows X) d (o.child (finRows X) A) = .ok t) : ∃ i l r, t = .node i l r ∧ i.samples = A := by
  cases t with
  | nil => exact absurd rfl (newTree_ne_nil hb)
  | node i l r => exact ⟨i, l, r, rfl, (mkInfo_samples hb).1⟩

/-- what makes a division of the rows `idx` into `L` and `R` good for an xgboost tree -/
def xgbQuality (g h : List K) (lam gam : K) (idx L R : List Nat) : K :=
  1 / 2 * (quality g h lam L + quality g h lam R - quality g h lam idx) - gam / 2

/-- what makes it good for a regular tree: the squared error that it saves -/
def regQuality (y : List K) (idx L R : List Nat) : K :=
  -(-(sumOver y L) ^ 2 / L.length - (sumOver y R) ^ 2 / R.length + (sumOver y idx) ^ 2 / idx.length)

theorem grown_xgb {S : GoSort} {X : List (List K)} {o : TreeOptions (Exact K)} {t : Tree (Exact K)} {w : Nat} {g h : List K} {lam gam : K}
    (hw : ∀ row ∈ X, row.length = w) (hrows : ∀ i ∈ trainingRows (finRows X) o, i < X.length)
    (hb : newTree S (finRows X) o = .ok t) (hi : XgbInput o g h lam gam) (hp : ∀ v ∈ h, 0 ≤ v ∧ 0 < v + lam) :
    Grown X w (toInt o.minChildWeight) o.maxDepth (UsableAt o) (trainingRows (finRows X) o) (xgbQuality g h lam gam) (0 < ·) t := by
  have hr0 : ∀ path i l r, t.sub path = .node i l r → ∃ r0, X[0]? = some r0 ∧ r0.length = w := by
    intro path i l r hs
    obtain ⟨o', d', hb', _⟩ := newTreeD_sub S _ _ o t hb path i l r hs
    obtain ⟨_, _, _, _, row0, h0, _⟩ := mkInfo_samples hb'
    obtain ⟨r0, h1, h2, _⟩ := row0_width hw h0
    exact ⟨r0, h1, h2⟩
  refine ⟨grown_root hb, hrows, grown_sub hb, ?_, ?_⟩
  · intro path i l r hs hl
    obtain ⟨r0, h1, h2⟩ := hr0 path i l r hs
    obtain ⟨hf, hus⟩ := split_feature hw hb hs hl
    obtain ⟨θ, a1, a2, _, a4⟩ := C07_xgb_split S X o t g h lam gam hb hi hp path i l r hs hl
    obtain ⟨o', d', hb', _, hin, _⟩ := newTreeD_sub S _ _ o t hb path i l r hs
    obtain ⟨θ', b1, _, _, b4, d'', b5, b6⟩ := node_split_xgb hb' hl (hi.inherit hin) hp
    obtain rfl : θ = θ' := by
      rw [a1] at b1
      exact XF.fin.inj b1
    exact ⟨_, hf, θ, hus, a2, rfl, a1, b4, grown_child b5, grown_child b6, fun f' hf' hu θ' hadm => a4 r0 h1 f' (by omega) hu θ' hadm⟩
  · intro path i hs hd f hf hu θ hadm
    obtain ⟨r0, h1, h2⟩ := hr0 path i _ _ hs
    exact not_lt.2 (C07_xgb_leaf S X o t g h lam gam hb hi hp path i hs hd r0 h1 f (by omega) hu θ hadm)

theorem grown_reg {S : GoSort} {X : List (List K)} {o : TreeOptions (Exact K)} {t : Tree (Exact K)} {w : Nat} {y : List K}
    (hw : ∀ row ∈ X, row.length = w) (hrows : ∀ i ∈ trainingRows (finRows X) o, i < X.length)
    (hb : newTree S (finRows X) o = .ok t) (hi : RegInput o y) :
    Grown X w (toInt o.minChildWeight) o.maxDepth (UsableAt o) (trainingRows (finRows X) o) (regQuality y) (fun _ => True) t := by
  have hr0 : ∀ path i l r, t.sub path = .node i l r → ∃ r0, X[0]? = some r0 ∧ r0.length = w := by
    intro path i l r hs
    obtain ⟨o', d', hb', _⟩ := newTreeD_sub S _ _ o t hb path i l r hs
    obtain ⟨_, _, _, _, row0, h0, _⟩ := mkInfo_samples hb'
    obtain ⟨r0, h1, h2, _⟩ := row0_width hw h0
    exact ⟨r0, h1, h2⟩
  refine ⟨grown_root hb, hrows, grown_sub hb, ?_, ?_⟩
  · intro path i l r hs hl
    obtain ⟨r0, h1, h2⟩ := hr0 path i l r hs
    obtain ⟨hf, hus⟩ := split_feature hw hb hs hl
    obtain ⟨θ, a1, a2, _, a4⟩ := C07_regular_split S X o t y hb hi path i l r hs hl
    obtain ⟨o', d', hb', _, hin, _⟩ := newTreeD_sub S _ _ o t hb path i l r hs
    obtain ⟨θ', b1, _, _, d'', b5, b6⟩ := node_split_reg hb' hl (hi.inherit hin)
    obtain rfl : θ = θ' := by
      rw [a1] at b1
      exact XF.fin.inj b1
    exact ⟨_, hf, θ, hus, a2, rfl, a1, trivial, grown_child b5, grown_child b6,
      fun f' hf' hu θ' hadm => neg_le_neg (a4 r0 h1 f' (by omega) hu θ' hadm)⟩
  · intro path i hs hd f hf hu θ hadm
    obtain ⟨r0, h1, h2⟩ := hr0 path i _ _ hs
    exact absurd hadm (C07_regular_leaf S X o t y hb hi path i hs hd r0 h1 f (by omega) hu θ)

theorem usable_length {o : TreeOptions (Exact K)} (p p' : List Bool) (h : p.length = p'.length) (f : Nat) : UsableAt o p f ↔ UsableAt o p' f := by
  have : p = [] ↔ p' = [] := by rw [← List.length_eq_zero_iff, ← List.length_eq_zero_iff, h]
  unfold UsableAt
  rw [this]

theorem sub_mem_leaves {t : Tree (Exact K)} {path : List Bool} {i : NodeInfo (Exact K)} (h : t.sub path = .node i .nil .nil) : i ∈ t.leaves := by
  induction t generalizing path with
  | nil => cases path <;> simp [Tree.sub] at h
  | node j l r ihl ihr =>
    cases path with
    | nil =>
      simp only [Tree.sub] at h
      injection h with h1 h2 h3
      subst h1 h2 h3
      simp [Tree.leaves]
    | cons b p =>
      have hsub : i ∈ l.leaves ++ r.leaves := by
        rw [List.mem_append]
        cases b with
        | true => exact Or.inl (ihl h)
        | false => exact Or.inr (ihr h)
      cases l with
      | nil => cases r with
        | nil => simp [Tree.leaves] at hsub
        | node => exact hsub
      | node => cases r <;> exact hsub

/-- nodes with the same rows have the same value -/
theorem same_value {S S' : GoSort} {X X' : List (List K)} {o : TreeOptions (Exact K)} {t t' : Tree (Exact K)}
    (hb : newTree S (finRows X) o = .ok t) (hb' : newTree S' (finRows X') o = .ok t')
    {path path' : List Bool} {i i' : NodeInfo (Exact K)} {l r l' r' : Tree (Exact K)} (hs : t.sub path = .node i l r)
    (hs' : t'.sub path' = .node i' l' r') (hsam : i'.samples = i.samples) : i'.value = i.value := by
  obtain ⟨o1, d1, h1, _, in1, _⟩ := newTreeD_sub S _ _ o t hb path i l r hs
  obtain ⟨o2, d2, h2, _, in2, _⟩ := newTreeD_sub S' _ _ o t' hb' path' i' l' r' hs'
  obtain ⟨s1, _, _, v1, _⟩ := mkInfo_samples h1
  obtain ⟨s2, _, _, v2, _⟩ := mkInfo_samples h2
  rw [← s1] at v1
  rw [← s2, hsam] at v2
  have e : nodeValue (o1.fill (finRows X)) i.samples = nodeValue (o2.fill (finRows X')) i.samples := by
    unfold nodeValue
    simp only [TreeOptions.fill, in1.xgb, in1.grad, in1.hess, in1.lambda, in1.y, in2.xgb, in2.grad, in2.hess, in2.lambda, in2.y]
  rw [e, v2] at v1
  exact Except.ok.inj v1

theorem same_predictions {S S' : GoSort} {X X' : List (List K)} {o : TreeOptions (Exact K)} {t t' : Tree (Exact K)}
    (hb : newTree S (finRows X) o = .ok t) (hb' : newTree S' (finRows X') o = .ok t')
    (hn : ∀ path i l r, t.sub path = .node i l r → ∃ path' i' l' r', path'.length = path.length ∧ t'.sub path' = .node i' l' r' ∧
      i'.samples = i.samples ∧ (l = .nil ↔ l' = .nil))
    {j : Nat} (hj : j ∈ trainingRows (finRows X) o) {row row' : List (Exact K)} (hrow : (finRows X)[j]? = some row)
    (hrow' : (finRows X')[j]? = some row') : t'.predictSingle row' = t.predictSingle row := by
  have hperm := C03_leaves_partition S _ o t hb
  obtain ⟨leaf, hleaf, hjl⟩ := List.mem_flatMap.1 (hperm.mem_iff.2 hj)
  obtain ⟨path, hs⟩ := leaf_path hleaf
  obtain ⟨path', i', l', r', _, hs', hsam, hnil⟩ := hn path leaf _ _ hs
  have hl' : l' = .nil := hnil.1 rfl
  have hr' : r' = .nil := (grown_sub hb' path' i' l' r' hs').2.1.1 hl'
  subst hl' hr'
  rw [C04_training_row S _ o t hb leaf hleaf j hjl row hrow,
    C04_training_row S' _ o t' hb' i' (sub_mem_leaves hs') j (by rw [hsam]; exact hjl) row' hrow',
    same_value hb hb' hs hs' hsam]

/-- **C148 (xgboost)**, partial: two xgboost trees for the same gradients are grown on data whose columns have the same order or the
opposite one. If at every node of the first all best divisions of its rows are the same, every training row gets the same prediction. -/
theorem C148_xgb_partial (S S' : GoSort) (X X' : List (List K)) (o : TreeOptions (Exact K)) (t t' : Tree (Exact K)) (w : Nat)
    (g h : List K) (lam gam : K) (hX : SameOrders X X' w) (hrows : ∀ i ∈ trainingRows (finRows X) o, i < X.length)
    (hb : newTree S (finRows X) o = .ok t) (hb' : newTree S' (finRows X') o = .ok t')
    (hi : XgbInput o g h lam gam) (hp : ∀ v ∈ h, 0 ≤ v ∧ 0 < v + lam)
    (hu : UniqueBest X w (toInt o.minChildWeight) (UsableAt o) (xgbQuality g h lam gam) t)
    (j : Nat) (hj : j ∈ trainingRows (finRows X) o) (row row' : List (Exact K)) (hrow : (finRows X)[j]? = some row)
    (hrow' : (finRows X')[j]? = some row') : t'.predictSingle row' = t.predictSingle row := by
  have hrw : trainingRows (finRows X') o = trainingRows (finRows X) o := by
    unfold trainingRows finRows
    rw [List.length_map, List.length_map, hX.rows]
  have G' := grown_xgb hX.width' (by rw [hrw, hX.rows]; exact hrows) hb' hi hp
  rw [hrw] at G'
  refine same_predictions hb hb' (Grown.nodes hX (fun idx L R => ?_) usable_length (grown_xgb hX.width hrows hb hi hp) G' hu) hj hrow hrow'
  unfold xgbQuality
  rw [add_comm]

/-- **C148 (regular)**, partial: the same for regular trees. -/
theorem C148_regular_partial (S S' : GoSort) (X X' : List (List K)) (o : TreeOptions (Exact K)) (t t' : Tree (Exact K)) (w : Nat)
    (y : List K) (hX : SameOrders X X' w) (hrows : ∀ i ∈ trainingRows (finRows X) o, i < X.length)
    (hb : newTree S (finRows X) o = .ok t) (hb' : newTree S' (finRows X') o = .ok t') (hi : RegInput o y)
    (hu : UniqueBest X w (toInt o.minChildWeight) (UsableAt o) (regQuality y) t)
    (j : Nat) (hj : j ∈ trainingRows (finRows X) o) (row row' : List (Exact K)) (hrow : (finRows X)[j]? = some row)
    (hrow' : (finRows X')[j]? = some row') : t'.predictSingle row' = t.predictSingle row := by
  have hrw : trainingRows (finRows X') o = trainingRows (finRows X) o := by
    unfold trainingRows finRows
    rw [List.length_map, List.length_map, hX.rows]
  have G' := grown_reg hX.width' (by rw [hrw, hX.rows]; exact hrows) hb' hi
  rw [hrw] at G'
  refine same_predictions hb hb' (Grown.nodes hX (fun idx L R => ?_) usable_length (grown_reg hX.width hrows hb hi) G' hu) hj hrow hrow'
  unfold regQuality
  ring

/-! ### Columns with the opposite sign -/

/-- the row with the sign of the columns in `neg` changed -/
def changeSigns (neg : Nat → Bool) (row : List K) : List K := row.mapIdx fun f v => if neg f then -v else v

theorem val_changeSigns (neg : Nat → Bool) (X : List (List K)) (i f : Nat) :
    val (X.map (changeSigns neg)) i f = if neg f then - val X i f else val X i f := by
  unfold val changeSigns
  rw [List.getD_eq_getElem?_getD, List.getD_eq_getElem?_getD, List.getElem?_map]
  simp only [List.getD_eq_getElem?_getD]
  cases hx : X[i]? with
  | none => simp
  | some row =>
    simp only [Option.map_some, Option.getD_some]
    rw [List.getElem?_mapIdx]
    cases row[f]? <;> simp

/-- changing the signs of columns turns their order round -/
theorem sameOrders_changeSigns (neg : Nat → Bool) (X : List (List K)) (w : Nat) (hw : ∀ row ∈ X, row.length = w) :
    SameOrders X (X.map (changeSigns neg)) w := by
  refine ⟨by simp, hw, ?_, ?_⟩
  · intro row hr
    obtain ⟨row0, h0, rfl⟩ := List.mem_map.1 hr
    unfold changeSigns
    rw [List.length_mapIdx]
    exact hw row0 h0
  · intro f _
    simp only [val_changeSigns]
    cases neg f with
    | true => exact Or.inr fun i _ j _ => by simp
    | false => exact Or.inl fun i _ j _ => by simp

/-- **C148 (signs, regular)**, partial: a regular tree for data in which the sign of some columns was changed gives every training row the
same prediction, if at every node all best divisions are the same. -/
theorem C148_signs_regular_partial (S S' : GoSort) (X : List (List K)) (neg : Nat → Bool) (o : TreeOptions (Exact K)) (t t' : Tree (Exact K))
    (w : Nat) (y : List K) (hw : ∀ row ∈ X, row.length = w) (hrows : ∀ i ∈ trainingRows (finRows X) o, i < X.length)
    (hb : newTree S (finRows X) o = .ok t) (hb' : newTree S' (finRows (X.map (changeSigns neg))) o = .ok t') (hi : RegInput o y)
    (hu : UniqueBest X w (toInt o.minChildWeight) (UsableAt o) (regQuality y) t)
    (j : Nat) (hj : j ∈ trainingRows (finRows X) o) (row : List K) (hrow : X[j]? = some row) :
    t'.predictSingle ((changeSigns neg row).map XF.fin) = t.predictSingle (row.map XF.fin) :=
  C148_regular_partial S S' X _ o t t' w y (sameOrders_changeSigns neg X w hw) hrows hb hb' hi hu j hj _ _
    (by simp [finRows, hrow]) (by simp [finRows, hrow])

/-- **C148 (signs, xgboost)**, partial: the same for xgboost trees. -/
theorem C148_signs_xgb_partial (S S' : GoSort) (X : List (List K)) (neg : Nat → Bool) (o : TreeOptions (Exact K)) (t t' : Tree (Exact K))
    (w : Nat) (g h : List K) (lam gam : K) (hw : ∀ row ∈ X, row.length = w) (hrows : ∀ i ∈ trainingRows (finRows X) o, i < X.length)
    (hb : newTree S (finRows X) o = .ok t) (hb' : newTree S' (finRows (X.map (changeSigns neg))) o = .ok t')
    (hi : XgbInput o g h lam gam) (hp : ∀ v ∈ h, 0 ≤ v ∧ 0 < v + lam)
    (hu : UniqueBest X w (toInt o.minChildWeight) (UsableAt o) (xgbQuality g h lam gam) t)
    (j : Nat) (hj : j ∈ trainingRows (finRows X) o) (row : List K) (hrow : X[j]? = some row) :
    t'.predictSingle ((changeSigns neg row).map XF.fin) = t.predictSingle (row.map XF.fin) :=
  C148_xgb_partial S S' X _ o t t' w g h lam gam (sameOrders_changeSigns neg X w hw) hrows hb hb' hi hp hu j hj _ _
    (by simp [finRows, hrow]) (by simp [finRows, hrow])

/-! ### What happens when two divisions are equally good -/

def tieX : List (List ℚ) := [[0], [1], [2]]
def tieO (y : List ℚ) : TreeOptions (Exact ℚ) :=
  { (defaultGTreeOptions : TreeOptions (Exact ℚ)) with y := y.map XF.fin, maxDepth := 1 }

/-- the predictions of the tree for the rows it was grown from -/
def ownPredictions (X : List (List ℚ)) (o : TreeOptions (Exact ℚ)) : Go (List (Exact ℚ)) := do
  let t ← newTree GoSort.ins (finRows X) o
  (finRows X).mapM fun row => t.predictSingle row

/-- **C148, the code violates it**: with the targets 0, 1, 0 both divisions are equally good, the first in the order of the column is
taken, and changing the sign of the only column changes the predictions of all the training rows but one. -/
theorem C148_violated :
    ownPredictions tieX (tieO [0, 1, 0]) = .ok [.fin 0, .fin (1/2), .fin (1/2)] ∧
    ownPredictions (tieX.map (changeSigns fun _ => true)) (tieO [0, 1, 0]) = .ok [.fin (1/2), .fin (1/2), .fin 0] := by
  decide +kernel

/-- with the targets 0, 0, 5 the predictions are the same -/
example : ownPredictions tieX (tieO [0, 0, 5]) = .ok [.fin 0, .fin 0, .fin 5] ∧
    ownPredictions (tieX.map (changeSigns fun _ => true)) (tieO [0, 0, 5]) = .ok [.fin 0, .fin 0, .fin 5] := by
  decide +kernel

/-- a division of the three rows is one of two -/
theorem tie_division (θ : ℚ) (h : Admissible tieX 1 [0, 1, 2] 0 θ) :
    (leftOf tieX [0, 1, 2] 0 θ = [0] ∧ rightOf tieX [0, 1, 2] 0 θ = [1, 2]) ∨
    (leftOf tieX [0, 1, 2] 0 θ = [0, 1] ∧ rightOf tieX [0, 1, 2] 0 θ = [2]) := by
  obtain ⟨h1, h2⟩ := h
  have v0 : val tieX 0 0 = 0 := rfl
  have v1 : val tieX 1 0 = 1 := rfl
  have v2 : val tieX 2 0 = 2 := rfl
  unfold leftOf rightOf at *
  simp only [List.filter_cons, List.filter_nil, v0, v1, v2, decide_eq_true_eq, ← not_le] at h1 h2 ⊢
  by_cases a : (0 : ℚ) ≤ θ
  · by_cases b : (1 : ℚ) ≤ θ
    · by_cases c : (2 : ℚ) ≤ θ
      · simp only [a, b, c] at h2
        simp at h2
      · exact Or.inr (by simp only [a, b, c]; simp)
    · have c : ¬ (2 : ℚ) ≤ θ := fun h => b (by linarith)
      exact Or.inl (by simp only [a, b, c]; simp)
  · have b : ¬ (1 : ℚ) ≤ θ := fun h => a (by linarith)
    have c : ¬ (2 : ℚ) ≤ θ := fun h => a (by linarith)
    simp only [a, b, c] at h1
    simp at h1

/-- the tree for the targets 0, 0, 5 has one split, at the root, between the second and the third row, and meets the hypotheses -/
example : ∃ t, newTree GoSort.ins (finRows tieX) (tieO [0, 0, 5]) = .ok t ∧ t.size = 3 ∧ RegInput (tieO [0, 0, 5]) [0, 0, 5] ∧
    (∀ i ∈ trainingRows (finRows tieX) (tieO [0, 0, 5]), i < tieX.length) ∧
    UniqueBest tieX 1 (toInt (tieO [0, 0, 5]).minChildWeight) (UsableAt (tieO [0, 0, 5])) (regQuality [0, 0, 5]) t := by
  have hk : (match newTree GoSort.ins (finRows tieX) (tieO [0, 0, 5]) with
      | .ok (.node i (.node _ .nil .nil) (.node _ .nil .nil)) => decide (i.samples = [0, 1, 2] ∧ i.splitFeatureIndex = 0 ∧ i.threshold = .fin (3/2))
      | _ => false) = true := by decide +kernel
  split at hk
  next i a b ht =>
    obtain ⟨e1, e2, e3⟩ := of_decide_eq_true hk
    refine ⟨_, ht, rfl, ⟨rfl, rfl⟩, by decide, ?_⟩
    intro path j l r θ hs hl hth f hf _ θ' hadm hg
    obtain rfl : path = [] := by
      cases path with
      | nil => rfl
      | cons c p =>
        exfalso
        cases c <;> cases p with
        | nil =>
          simp only [Tree.sub] at hs
          injection hs with _ h2 _
          exact hl h2.symm
        | cons c' p' => cases c' <;> cases p' <;> simp [Tree.sub] at hs
    simp only [Tree.sub] at hs
    injection hs with h1 _ _
    subst h1
    rw [e3] at hth
    obtain rfl : (3/2 : ℚ) = θ := XF.fin.inj hth
    obtain rfl : f = 0 := by omega
    rw [e1, e2] at *
    have hm : toInt (tieO [0, 0, 5]).minChildWeight = 1 := by decide +kernel
    rw [hm] at hadm
    have hL : leftOf tieX [0, 1, 2] 0 (3/2 : ℚ) = [0, 1] := by decide +kernel
    have hR : rightOf tieX [0, 1, 2] 0 (3/2 : ℚ) = [2] := by decide +kernel
    rw [hL, hR] at *
    rcases tie_division θ' hadm with ⟨d1, d2⟩ | ⟨d1, d2⟩
    · rw [d1, d2] at hg
      exact absurd hg (by decide +kernel)
    · rw [d1, d2]
      exact Or.inl ⟨rfl, rfl⟩
  next => cases hk

end Boo
