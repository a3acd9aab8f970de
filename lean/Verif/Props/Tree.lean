import Verif.Lemmas.TreeSub

/-!
# C01–C05, C08, C13: the shape of trees and prediction

All theorems of this file hold for every arithmetic `F` (`GoFloat` has no laws); those that need
the comparison laws of IEEE 754 ask for `GoFloatOrd F`.
-/

namespace Boo
open GoFloat
set_option linter.unusedSectionVars false
variable {F : Type} [GoFloat F]

/-! ### A concrete case used to show that hypotheses are met -/

/-- four rows, two features, as float64 -/
def exX : List (List F64) :=
  [[.fin 0, .fin 5], [.fin 1, .fin 3], [.fin 2, .fin 9], [.fin 3, .fin 1]]
/-- regular tree of depth 2 on targets 1, 2, 10, 20 -/
def exO : TreeOptions F64 :=
  { (defaultGTreeOptions : TreeOptions F64) with
    y := [.fin 1, .fin 2, .fin 10, .fin 20], maxDepth := 2 }
/-- xgboost tree on gradients and hessians -/
def exOX : TreeOptions F64 :=
  { (defaultXTreeOptions : TreeOptions F64) with
    gradients := some [.fin 1, .fin 2, .fin (-10), .fin (-20)],
    hessian := some [.fin 1, .fin 1, .fin 1, .fin 1], maxDepth := 2 }

/-- `NewTree` returned a tree with `n` nodes and height `h` -/
def builtShape (t : Go (Tree F64)) (n h : Nat) : Bool :=
  match t with
  | .ok t => t.size == n && t.height == h
  | .error _ => false

example : builtShape (newTree GoSort.ins exX exO) 5 2 = true := by decide +kernel
example : builtShape (newTree GoSort.ins exX exOX) 3 1 = true := by decide +kernel

/-! ### C01 -/

/-- **C01**: in a tree returned by `NewTree` no node is deeper than `max(0, MaxDepth)` splits. -/
theorem C01_depth (S : GoSort) (X : List (List F)) (o : TreeOptions F) (t : Tree F)
    (h : newTree S X o = .ok t) (path : List Bool) (hp : t.sub path ≠ .nil) :
    (path.length : Int) ≤ max 0 o.maxDepth := by
  unfold newTree at h
  cases hq : t.sub path with
  | nil => exact absurd hq hp
  | node i l r =>
    obtain ⟨o', d', _, h2, _⟩ := newTreeD_sub S X _ o t h path i l r hq
    omega

/-- the height is at most the depth limit (same claim, for `Tree.height`) -/
theorem C01_height (S : GoSort) (X : List (List F)) (o : TreeOptions F) (t : Tree F)
    (h : newTree S X o = .ok t) : (t.height : Int) ≤ max 0 o.maxDepth := by
  have key : ∀ t : Tree F, t ≠ .nil → ∃ path, t.sub path ≠ .nil ∧ path.length = t.height := by
    intro t
    induction t with
    | nil => intro h; exact absurd rfl h
    | node i l r ihl ihr =>
      intro _
      match l, r, ihl, ihr with
      | .nil, .nil, _, _ => exact ⟨[], by simp [Tree.sub], rfl⟩
      | .node i' a b, .nil, ihl, _ =>
        obtain ⟨p, h1, h2⟩ := ihl (by simp)
        exact ⟨true :: p, h1, by simp [Tree.height, h2]⟩
      | .nil, .node i' a b, _, ihr =>
        obtain ⟨p, h1, h2⟩ := ihr (by simp)
        exact ⟨false :: p, h1, by simp [Tree.height, h2]⟩
      | .node i1 a1 b1, .node i2 a2 b2, ihl, ihr =>
        have hh : Tree.height (.node i (.node i1 a1 b1) (.node i2 a2 b2)) =
          max (Tree.height (.node i1 a1 b1)) (Tree.height (.node i2 a2 b2)) + 1 := rfl
        rcases le_total (Tree.height (.node i1 a1 b1)) (Tree.height (.node i2 a2 b2)) with hle | hle
        · obtain ⟨p, h1, h2⟩ := ihr (by simp)
          exact ⟨false :: p, h1, by rw [List.length_cons, h2, hh]; omega⟩
        · obtain ⟨p, h1, h2⟩ := ihl (by simp)
          exact ⟨true :: p, h1, by rw [List.length_cons, h2, hh]; omega⟩
  have hnn : t ≠ .nil := by
    rintro rfl
    obtain ⟨_, _, _, _, _, ⟨_, h⟩ | ⟨_, _, _, _, _, h⟩ | ⟨_, _, _, _, _, _, _, _, _, _, _, h⟩⟩ :=
      newTreeD_inv _ _ _ _ _ h <;> cases h
  obtain ⟨p, h1, h2⟩ := key t hnn
  rw [← h2]
  exact C01_depth S X o t h p h1

/-! ### C02 -/

/-- **C02 (structure)**: a node of a tree returned by `NewTree` reports `Leaf()` exactly when it
has no children, and otherwise it has both. -/
theorem C02_leaf_iff_no_children [GoFloatOrd F] (S : GoSort) (X : List (List F))
    (o : TreeOptions F) (t : Tree F) (h : newTree S X o = .ok t) (path : List Bool)
    (i : NodeInfo F) (l r : Tree F) (hp : t.sub path = .node i l r) :
    (i.leaf = true ↔ l = .nil ∧ r = .nil) ∧ (i.leaf = false ↔ l ≠ .nil ∧ r ≠ .nil) := by
  obtain ⟨o', d', h1, _⟩ := newTreeD_sub S X _ o t h path i l r hp
  have hne : ∀ d o (t : Tree F), newTreeD S X d o = .ok t → t ≠ .nil := by
    rintro d o t h rfl
    obtain ⟨_, _, _, _, _, ⟨_, h⟩ | ⟨_, _, _, _, _, h⟩ | ⟨_, _, _, _, _, _, _, _, _, _, _, h⟩⟩ :=
      newTreeD_inv _ _ _ _ _ h <;> cases h
  obtain ⟨v, row0, _, _, _, ⟨_, h2⟩ | ⟨_, best, _, _, hl, h2⟩ |
    ⟨_, best, col, tl, tr, _, _, hl, _, h3, h4, h2⟩⟩ := newTreeD_inv _ _ _ _ _ h1
  · cases h2
    simp [leaf_best0]
  · cases h2
    rw [hl]; simp
  · cases h2
    rw [leaf_branches o' X v row0.length _ 1, hl]
    simp [hne _ _ _ h3, hne _ _ _ h4]

theorem predictSingle_ok_aux {t : Tree F} (hnil : t ≠ .nil)
    (hstruct : ∀ path i l r, t.sub path = .node i l r →
      (i.leaf = true ↔ l = .nil ∧ r = .nil) ∧ (i.leaf = false ↔ l ≠ .nil ∧ r ≠ .nil))
    (row : List F) (hrow : ∀ path i l r, t.sub path = .node i l r → l ≠ .nil →
      i.splitFeatureIndex < row.length) :
    ∃ leaf ∈ t.leaves, t.predictSingle row = .ok leaf.value := by
  induction t with
  | nil => exact absurd rfl hnil
  | node i l r ihl ihr =>
    have h0 := hstruct [] i l r rfl
    unfold Tree.predictSingle
    cases hl : i.leaf with
    | true =>
      obtain ⟨rfl, rfl⟩ := h0.1.1 hl
      exact ⟨i, by simp [Tree.leaves], by simp⟩
    | false =>
      obtain ⟨hln, hrn⟩ := h0.2.1 hl
      have hi := hrow [] i l r rfl hln
      have hleaves : (Tree.node i l r).leaves = l.leaves ++ r.leaves := by
        cases l with
        | nil => exact absurd rfl hln
        | node => cases r <;> rfl
      simp only [Bool.false_eq_true, if_false, bind, Except.bind]
      unfold goIdx
      rw [List.getElem?_eq_getElem hi]
      simp only
      rw [hleaves]
      split
      · obtain ⟨lf, hm, he⟩ := ihl hln (fun p => hstruct (true :: p)) (fun p => hrow (true :: p))
        exact ⟨lf, by simp [hm], he⟩
      · obtain ⟨lf, hm, he⟩ := ihr hrn (fun p => hstruct (false :: p)) (fun p => hrow (false :: p))
        exact ⟨lf, by simp [hm], he⟩

theorem newTree_ne_nil {S : GoSort} {X : List (List F)} {o : TreeOptions F} {d : Nat} {t : Tree F}
    (h : newTreeD S X d o = .ok t) : t ≠ .nil := by
  rintro rfl
  obtain ⟨_, _, _, _, _, ⟨_, h⟩ | ⟨_, _, _, _, _, h⟩ | ⟨_, _, _, _, _, _, _, _, _, _, _, h⟩⟩ :=
    newTreeD_inv _ _ _ _ _ h <;> cases h

/-- **C02 (prediction)**: on a row that has all the features the tree splits on, `PredictSingle`
returns the value of one of the leaves (it does not panic). -/
theorem C02_predict_total [GoFloatOrd F] (S : GoSort) (X : List (List F)) (o : TreeOptions F)
    (t : Tree F) (h : newTree S X o = .ok t) (row : List F)
    (hrow : ∀ path i l r, t.sub path = .node i l r → l ≠ .nil → i.splitFeatureIndex < row.length) :
    ∃ leaf ∈ t.leaves, t.predictSingle row = .ok leaf.value :=
  predictSingle_ok_aux (newTree_ne_nil h)
    (fun path i l r hp => C02_leaf_iff_no_children S X o t h path i l r hp) row hrow

/-- every split feature is a column of the first training row -/
theorem split_feature_lt [GoFloatOrd F] (S : GoSort) (X : List (List F)) (o : TreeOptions F)
    (t : Tree F) (h : newTree S X o = .ok t) (path : List Bool)
    (i : NodeInfo F) (l r : Tree F) (hp : t.sub path = .node i l r) (hl : l ≠ .nil) :
    ∃ row0, X[0]? = some row0 ∧ i.splitFeatureIndex < row0.length := by
  obtain ⟨o', d', h1, _⟩ := newTreeD_sub S X _ o t h path i l r hp
  obtain ⟨v, row0, _, hr0, _, ⟨_, h2⟩ | ⟨_, best, _, _, _, h2⟩ |
    ⟨_, best, col, tl, tr, _, hs, hlf, _, h3, h4, h2⟩⟩ := newTreeD_inv _ _ _ _ _ h1
  · cases h2; exact absurd rfl hl
  · cases h2; exact absurd rfl hl
  · cases h2
    refine ⟨row0, hr0, ?_⟩
    obtain ⟨h5 | ⟨f, p, rows, A, B, k, x, x', hf, _, _, _, hb, _⟩, _⟩ := searchSplit_spec hs
    · rw [h5, leaf_best0] at hlf; cases hlf
    · rw [hb]; exact hf

/-- **C02 (prediction, whole rows)**: `PredictSingle` succeeds on every row at least as long as the
training rows. -/
theorem C02_predict_total_rows [GoFloatOrd F] (S : GoSort) (X : List (List F)) (o : TreeOptions F)
    (t : Tree F) (h : newTree S X o = .ok t) (row row0 : List F) (h0 : X[0]? = some row0)
    (hrow : row0.length ≤ row.length) :
    ∃ leaf ∈ t.leaves, t.predictSingle row = .ok leaf.value := by
  refine C02_predict_total S X o t h row fun path i l r hp hl => ?_
  obtain ⟨row1, h1, h2⟩ := split_feature_lt S X o t h path i l r hp hl
  rw [h0] at h1; cases h1; omega

/-! ### C03 -/

theorem leaves_perm (S : GoSort) (X : List (List F)) (d : Nat) (o : TreeOptions F) (t : Tree F)
    (h : newTreeD S X d o = .ok t) : (t.leaves.flatMap (·.samples)).Perm (o.idx X) := by
  induction d generalizing o t with
  | zero =>
    obtain ⟨v, row0, _, _, _, ⟨_, h2⟩ | ⟨_, _, h3, _⟩ | ⟨_, _, _, _, _, h3, _⟩⟩ :=
      newTreeD_inv _ _ _ _ _ h
    · rw [h2]; simp [Tree.leaves, mkInfo]
    · cases h3
    · cases h3
  | succ d ih =>
    obtain ⟨v, row0, _, _, _, ⟨_, h2⟩ | ⟨_, best, _, _, hl, h2⟩ |
      ⟨_, best, col, tl, tr, hd, _, hl, hc, h3, h4, h2⟩⟩ := newTreeD_inv _ _ _ _ _ h
    · rw [h2]; simp [Tree.leaves, mkInfo]
    · rw [h2]; simp [Tree.leaves, mkInfo]
    · cases hd
      have hlv : t.leaves = tl.leaves ++ tr.leaves := by
        rw [h2]
        have := newTree_ne_nil h3
        cases tl with
        | nil => exact absurd rfl this
        | node => cases tr <;> rfl
      rw [hlv, List.flatMap_append]
      exact ((ih _ _ h3).append (ih _ _ h4)).trans
        (goLeft_goRight_perm _ _ _ (sampleCol_length hc))

/-- **C03**: the sample lists of the leaves, left to right, are a permutation of the rows the tree
was built from. -/
theorem C03_leaves_partition (S : GoSort) (X : List (List F)) (o : TreeOptions F) (t : Tree F)
    (h : newTree S X o = .ok t) :
    (t.leaves.flatMap (·.samples)).Perm (trainingRows X o) := by
  rw [← idx_eq_trainingRows]
  exact leaves_perm S X _ o t h

/-- what C03 says for distinct training rows: each is in exactly one leaf, once -/
theorem C03_exactly_once (S : GoSort) (X : List (List F)) (o : TreeOptions F) (t : Tree F)
    (h : newTree S X o = .ok t) (hnd : (trainingRows X o).Nodup) (i : Nat) :
    (t.leaves.flatMap (·.samples)).count i = if i ∈ trainingRows X o then 1 else 0 := by
  rw [(C03_leaves_partition S X o t h).count_eq]
  split
  · rename_i hi; rw [hnd.count, if_pos hi]
  · rename_i hi; exact List.count_eq_zero_of_not_mem hi

/-! ### C04 -/

/-- **C04**: a training row is predicted by the leaf whose sample list contains it. -/
theorem C04_training_row [GoFloatOrd F] (S : GoSort) (X : List (List F)) (o : TreeOptions F)
    (t : Tree F) (h : newTree S X o = .ok t) (leaf : NodeInfo F) (hleaf : leaf ∈ t.leaves)
    (i : Nat) (hi : i ∈ leaf.samples) (row : List F) (hrow : X[i]? = some row) :
    t.predictSingle row = .ok leaf.value := by
  unfold newTree at h
  generalize o.maxDepth.toNat = d at h
  induction d generalizing o t with
  | zero =>
    obtain ⟨v, row0, _, _, _, ⟨_, h2⟩ | ⟨_, _, h3, _⟩ | ⟨_, _, _, _, _, h3, _⟩⟩ :=
      newTreeD_inv _ _ _ _ _ h
    · rw [h2] at hleaf ⊢
      simp only [Tree.leaves, List.mem_singleton] at hleaf
      simp [Tree.predictSingle, leaf_best0, hleaf]
    · cases h3
    · cases h3
  | succ d ih =>
    obtain ⟨v, row0, _, _, _, ⟨_, h2⟩ | ⟨_, best, _, _, hl, h2⟩ |
      ⟨_, best, col, tl, tr, hd, _, hl, hc, h3, h4, h2⟩⟩ := newTreeD_inv _ _ _ _ _ h
    · rename_i hz; cases hz
    · rw [h2] at hleaf ⊢
      simp only [Tree.leaves, List.mem_singleton] at hleaf
      simp [Tree.predictSingle, hl, hleaf]
    · cases hd
      have hlv : t.leaves = tl.leaves ++ tr.leaves := by
        rw [h2]
        have := newTree_ne_nil h3
        cases tl with
        | nil => exact absurd rfl this
        | node => cases tr <;> rfl
      -- a leaf of a subtree only holds samples of that subtree
      have hsub : ∀ (d : Nat) (o : TreeOptions F) (t : Tree F), newTreeD S X d o = .ok t →
          ∀ leaf ∈ t.leaves, ∀ i ∈ leaf.samples, i ∈ o.idx X := by
        intro d o t h leaf hlf i hi
        exact (leaves_perm S X d o t h).mem_iff.1 (List.mem_flatMap.2 ⟨leaf, hlf, hi⟩)
      rw [hlv, List.mem_append] at hleaf
      rw [h2]
      unfold Tree.predictSingle
      rw [leaf_branches o X v row0.length _ 1, hl]
      simp only [Bool.false_eq_true, if_false, bind, Except.bind]
      have hvalue : ∀ v', row[best.feature]? = some v' →
          goIdx row (mkInfo o X v row0.length best (1 + tl.branches + tr.branches)).splitFeatureIndex
            = .ok v' := fun v' hv' => goIdx_ok.2 hv'
      rcases hleaf with hlf | hlf
      · have hmem := hsub _ _ _ h3 leaf hlf i hi
        rw [child_idx] at hmem
        obtain ⟨row', v', e1, e2, e3⟩ := mem_goLeft hc hmem
        rw [hrow] at e1; cases e1
        rw [hvalue v' e2]
        simp only [mkInfo, e3, if_true]
        exact ih _ _ hlf h3
      · have hmem := hsub _ _ _ h4 leaf hlf i hi
        rw [child_idx] at hmem
        obtain ⟨row', v', e1, e2, e3⟩ := mem_goRight hc hmem
        rw [hrow] at e1; cases e1
        rw [hvalue v' e2]
        simp only [mkInfo, e3, Bool.false_eq_true, if_false]
        exact ih _ _ hlf h4


/-! ### C05 -/

/-- **C05**: `Branches()` is the number of nodes, which is odd and at most `2^(MaxDepth+1) - 1`. -/
theorem C05_branches (S : GoSort) (X : List (List F)) (o : TreeOptions F) (t : Tree F)
    (h : newTree S X o = .ok t) :
    t.branches = t.size ∧ t.size % 2 = 1 ∧ t.size ≤ 2 ^ (o.maxDepth.toNat + 1) - 1 := by
  unfold newTree at h
  generalize o.maxDepth.toNat = d at h ⊢
  induction d generalizing o t with
  | zero =>
    obtain ⟨v, row0, _, _, _, ⟨_, h2⟩ | ⟨_, _, h3, _⟩ | ⟨_, _, _, _, _, h3, _⟩⟩ :=
      newTreeD_inv _ _ _ _ _ h
    · rw [h2]; simp [Tree.size, Tree.branches, mkInfo]
    · cases h3
    · cases h3
  | succ d ih =>
    have hpow : 2 ^ (d + 1 + 1) = 2 * 2 ^ (d + 1) := by rw [Nat.pow_succ]; omega
    have hpos : 0 < 2 ^ (d + 1) := Nat.pow_pos (by norm_num)
    obtain ⟨v, row0, _, _, _, ⟨hz, h2⟩ | ⟨_, best, _, _, hl, h2⟩ |
      ⟨_, best, col, tl, tr, hd, _, hl, hc, h3, h4, h2⟩⟩ := newTreeD_inv _ _ _ _ _ h
    · cases hz
    · rw [h2]
      refine ⟨rfl, rfl, ?_⟩
      simp only [Tree.size]; omega
    · cases hd
      obtain ⟨l1, l2, l3⟩ := ih _ _ h3
      obtain ⟨r1, r2, r3⟩ := ih _ _ h4
      rw [h2]
      simp only [Tree.size, Tree.branches, mkInfo] at *
      refine ⟨by omega, by omega, by omega⟩

/-! ### C08 -/

/-- column subsampling as promised: every split is on an allowed column -/
def SplitsAllowed (t : Tree F) (allowed : List Nat) : Prop :=
  allowed ≠ [] → ∀ path i l r, t.sub path = .node i l r → l ≠ .nil → i.splitFeatureIndex ∈ allowed

/-- data on which the root is split by column 0 and a child by column 1 -/
def c08X : List (List F64) :=
  [[.fin 0, .fin 0], [.fin 0, .fin 1], [.fin 1, .fin 0], [.fin 1, .fin 1]]
def c08O : TreeOptions F64 :=
  { (defaultGTreeOptions : TreeOptions F64) with
    y := [.fin 1, .fin 2, .fin 10, .fin 20], maxDepth := 2, allowedColumns := [0] }

/-- **C08 is violated**: a tree with `AllowedColumns = [0]` splits on column 1 (below the root). -/
theorem C08_violated : ∃ t, newTree GoSort.ins c08X c08O = .ok t ∧
    ¬ SplitsAllowed t c08O.allowedColumns := by
  have h : (match newTree GoSort.ins c08X c08O with
    | .ok t => match t.sub [true] with
      | .node i l _ => decide (l ≠ .nil) && decide (i.splitFeatureIndex = 1)
      | .nil => false
    | .error _ => false) = true := by decide +kernel
  split at h
  · rename_i t ht
    refine ⟨t, ht, fun hs => ?_⟩
    split at h
    · rename_i i l r hn
      simp only [Bool.and_eq_true, decide_eq_true_eq] at h
      have := hs (by simp [c08O]) [true] i l r hn h.1
      rw [h.2] at this
      simp [c08O] at this
    · cases h
  · cases h

/-- **C08, the part that holds**: the root of the tree is split on an allowed column (and every split
is on an existing column, theorem `split_feature_lt`). Missing: the claim for nodes below the root,
which is false (`C08_violated`) because the options of the children lose the list. -/
theorem C08_root_partial [GoFloatOrd F] (S : GoSort) (X : List (List F)) (o : TreeOptions F)
    (i : NodeInfo F) (l r : Tree F) (h : newTree S X o = .ok (.node i l r)) (hl : l ≠ .nil)
    (hne : o.allowedColumns ≠ []) : i.splitFeatureIndex ∈ o.allowedColumns := by
  obtain ⟨v, row0, _, _, _, ⟨_, h2⟩ | ⟨_, best, _, _, _, h2⟩ |
    ⟨_, best, col, tl, tr, _, hs, hlf, _, h3, h4, h2⟩⟩ := newTreeD_inv _ _ _ _ _ h
  · cases h2; exact absurd rfl hl
  · cases h2; exact absurd rfl hl
  · cases h2
    obtain ⟨h5 | ⟨f, p, rows, A, B, k, x, x', _, hf, _, _, hb, _⟩, _⟩ := searchSplit_spec hs
    · rw [h5, leaf_best0] at hlf; cases hlf
    · simp only [mkInfo, hb]
      unfold columnAllowed at hf
      have : (o.fill X).allowedColumns = o.allowedColumns := rfl
      rw [this] at hf
      simpa [hne] using hf

/-- **C08 for stumps**: the full claim holds when `MaxDepth ≤ 1`. -/
theorem C08_depth_one_partial [GoFloatOrd F] (S : GoSort) (X : List (List F)) (o : TreeOptions F)
    (t : Tree F) (h : newTree S X o = .ok t) (hd : o.maxDepth ≤ 1) :
    SplitsAllowed t o.allowedColumns := by
  intro hne path i l r hp hl
  have hlen : path = [] := by
    cases l with
    | nil => exact absurd rfl hl
    | node i' l' r' =>
      have hsub : t.sub (path ++ [true]) = .node i' l' r' := by
        clear h
        induction path generalizing t with
        | nil => simp only [Tree.sub] at hp; rw [hp]; rfl
        | cons b p ih =>
          cases t with
          | nil => cases p <;> simp [Tree.sub] at hp
          | node i2 l2 r2 => cases b <;> exact ih _ hp
      have := C01_depth S X o t h (path ++ [true]) (by rw [hsub]; simp)
      simp at this
      have : path.length = 0 := by omega
      exact List.length_eq_zero_iff.1 this
  subst hlen
  simp only [Tree.sub] at hp
  subst hp
  exact C08_root_partial S X o i l r h hl hne

/-! ### C13 -/

theorem predictLoop_ok (t : Tree F) (data : List (List F)) (i : Nat) (preds out : List F) :
    predictLoop t data i preds = .ok out ↔
      (data = [] ∧ out = preds) ∨ (i + data.length ≤ preds.length ∧
      ∃ vs, List.Forall₂ (fun row v => t.predictSingle row = .ok v) data vs ∧
        out = preds.take i ++ vs ++ preds.drop (i + data.length)) := by
  induction data generalizing i preds with
  | nil =>
    simp only [predictLoop, Except.ok.injEq, List.length_nil, Nat.add_zero]
    constructor
    · rintro rfl; exact Or.inl ⟨trivial, rfl⟩
    · rintro (⟨_, h⟩ | ⟨_, vs, h1, h2⟩)
      · exact h.symm
      · cases h1; simp [h2]
  | cons v rest ih =>
    unfold predictLoop
    simp only [bind, Except.bind]
    have hcons : ∀ q, i < preds.length →
        (preds.set i q).take (i + 1) = preds.take i ++ [q] := by
      intro q hi
      rw [List.take_succ_eq_append_getElem (by simpa using hi)]
      simp [List.take_set_of_le]
    have hdrop : ∀ q, (preds.set i q).drop (i + 1 + rest.length) = preds.drop (i + 1 + rest.length) := by
      intro q; exact List.drop_set_of_lt (by omega)
    constructor
    · intro h
      right
      split at h
      · cases h
      rename_i q hq
      split at h
      · rename_i hi
        rcases (ih (i + 1) (preds.set i q)).1 h with ⟨h1, h2⟩ | ⟨h1, vs, h2, h3⟩
        · subst h1
          refine ⟨by simp; omega, [q], .cons hq .nil, ?_⟩
          rw [h2, List.set_eq_take_append_cons_drop, if_pos hi]; simp
        · refine ⟨by simp at h1 ⊢; omega, q :: vs, .cons hq h2, ?_⟩
          rw [h3, hcons q hi, hdrop q]
          simp [Nat.add_assoc, Nat.add_comm 1]
      · cases h
    · rintro (⟨h1, _⟩ | ⟨h1, vs, h2, h3⟩)
      · cases h1
      · cases h2 with
        | cons h4 h5 =>
          rename_i q vs
          simp only [List.length_cons] at h1
          have hi : i < preds.length := by omega
          rw [h4]
          simp only
          rw [if_pos hi, ih]
          right
          refine ⟨by simp; omega, vs, h5, ?_⟩
          rw [h3, hcons q hi, hdrop q]
          simp [Nat.add_assoc, Nat.add_comm 1]

/-- **C13 (rows)**: without a buffer, `Predict` returns exactly the list of the `PredictSingle`
values of the rows (and fails exactly when one of them does). -/
theorem C13_predict_rows (t : Tree F) (data : List (List F)) (out : List F) :
    t.predict data none = .ok out ↔
      List.Forall₂ (fun row v => t.predictSingle row = .ok v) data out := by
  unfold Tree.predict
  rw [predictLoop_ok]
  simp only [Option.getD_none, List.take_zero, List.nil_append, Nat.zero_add, List.length_map,
    le_refl, true_and]
  constructor
  · rintro (⟨rfl, rfl⟩ | ⟨vs, h1, rfl⟩)
    · exact .nil
    · rw [List.drop_eq_nil_of_le (by simp)]; simpa using h1
  · intro h
    exact Or.inr ⟨out, h, by rw [List.drop_eq_nil_of_le (by simp)]; simp⟩

/-- **C13 (buffer)**: with a buffer, `Predict` succeeds exactly when the buffer is long enough and
every row can be predicted; the first `len(data)` entries are then the predictions and the others
are what the buffer held. -/
theorem C13_predict_buffer (t : Tree F) (data : List (List F)) (buf out : List F) :
    t.predict data (some buf) = .ok out ↔
      data.length ≤ buf.length ∧
      ∃ vs, List.Forall₂ (fun row v => t.predictSingle row = .ok v) data vs ∧
        out = vs ++ buf.drop data.length := by
  unfold Tree.predict
  rw [predictLoop_ok]
  simp only [Option.getD_some, List.take_zero, List.nil_append, Nat.zero_add]
  constructor
  · rintro (⟨rfl, rfl⟩ | h)
    · exact ⟨by simp, [], .nil, by simp⟩
    · exact h
  · exact Or.inr

/-- **C13 (unused features)**: two rows that agree on every feature the tree splits on get the same
prediction. -/
theorem C13_unused_features (t : Tree F) (row row' : List F)
    (h : ∀ path i l r, t.sub path = .node i l r → i.leaf = false →
      row[i.splitFeatureIndex]? = row'[i.splitFeatureIndex]?) :
    t.predictSingle row = t.predictSingle row' := by
  induction t with
  | nil => rfl
  | node i l r ihl ihr =>
    unfold Tree.predictSingle
    cases hl : i.leaf with
    | true => rfl
    | false =>
      have h0 := h [] i l r rfl hl
      simp only [Bool.false_eq_true, if_false]
      unfold goIdx
      rw [h0, ihl fun p => h (true :: p), ihr fun p => h (false :: p)]

example : (match newTree GoSort.ins exX exO with
    | .ok t => (match t.predict exX (some [.nan, .nan, .nan, .nan, .fin 7]) with
      | .ok out => decide (out = [.fin (3/2), .fin (3/2), .fin 10, .fin 20, .fin 7])
      | _ => false)
    | _ => false) = true := by decide +kernel

end Boo
