import Verif.Props.ColOrder
import Verif.Props.PredictTotal
import Verif.Props.Apart
import Verif.Props.Separable

/-!
# C104: the size of trees and models
-/

namespace Boo
open GoFloat Spec
set_option linter.unusedSectionVars false
variable {F : Type} [GoFloat F] [GoFloatOrd F]

/-- what `MaxDepth` allows: at most that many splits on a path, at most `2^MaxDepth` leaves, and `Branches` counts the nodes of a
tree in which every node has two children or none -/
def WithinDepth (maxDepth : Int) (t : Tree F) : Prop :=
  (t.height : Int) ≤ max 0 maxDepth ∧ t.leaves.length ≤ 2 ^ maxDepth.toNat ∧ t.branches = t.size ∧ t.size + 1 = 2 * t.leaves.length

/-- what `MinChildWeight` allows: a tree with a split has at most `n / max(1, MinChildWeight)` leaves for `n` training rows -/
def WithinRows (mcw : Int) (n : Nat) (t : Tree F) : Prop :=
  t.leaves.length = 1 ∨ (t.leaves.length : Int) * max 1 mcw ≤ n

theorem leaves_node {i : NodeInfo F} {l r : Tree F} (h : ¬ (l = .nil ∧ r = .nil)) :
    (Tree.node i l r).leaves = l.leaves ++ r.leaves := by
  match l, r, h with
  | .nil, .nil, h => exact absurd ⟨rfl, rfl⟩ h
  | .node .., .nil, _ => rfl
  | .nil, .node .., _ => rfl
  | .node .., .node .., _ => rfl

theorem newTreeD_leaves {S : GoSort} {X : List (List F)} {d : Nat} {o : TreeOptions F} {t : Tree F} (h : newTreeD S X d o = .ok t) :
    t ≠ .nil ∧ t.leaves.length ≤ 2 ^ d ∧ t.size + 1 = 2 * t.leaves.length := by
  induction d generalizing o t with
  | zero =>
    obtain ⟨v, row0, _, _, _, ⟨_, h2⟩ | ⟨_, _, h3, _⟩ | ⟨_, _, _, _, _, h3, _⟩⟩ :=
      newTreeD_inv _ _ _ _ _ h
    · rw [h2]; exact ⟨by simp, le_rfl, rfl⟩
    · cases h3
    · cases h3
  | succ d ih =>
    have hpow : 2 ^ (d + 1) = 2 * 2 ^ d := by rw [Nat.pow_succ]; omega
    have hpos : 0 < 2 ^ d := Nat.pow_pos (by norm_num)
    obtain ⟨v, row0, _, _, _, ⟨hz, h2⟩ | ⟨_, best, _, _, hl, h2⟩ |
      ⟨_, best, col, tl, tr, hd, _, hl, hc, h3, h4, h2⟩⟩ := newTreeD_inv _ _ _ _ _ h
    · cases hz
    · rw [h2]
      refine ⟨by simp, ?_, rfl⟩
      show 1 ≤ _
      omega
    · cases hd
      obtain ⟨l1, l2, l3⟩ := ih h3
      obtain ⟨r1, r2, r3⟩ := ih h4
      rw [h2, leaves_node (fun h => l1 h.1)]
      refine ⟨by simp, ?_, ?_⟩
      · rw [List.length_append]; omega
      · simp only [Tree.size, List.length_append]; omega

/-- **C104 (depth)**: a tree has at most `2^MaxDepth` leaves and `Branches()` is twice the number of leaves minus one. Any arithmetic. -/
theorem C104_depth (S : GoSort) (X : List (List F)) (o : TreeOptions F) (t : Tree F) (h : newTree S X o = .ok t) :
    WithinDepth o.maxDepth t :=
  have h1 := newTreeD_leaves h
  ⟨C01_height S X o t h, h1.2.1, (C05_branches S X o t h).1, h1.2.2⟩

theorem sum_length_ge {α β : Type} (f : α → List β) (m : Int) (l : List α) (h : ∀ a ∈ l, m ≤ (f a).length) :
    (l.length : Int) * m ≤ ((l.flatMap f).length : Int) := by
  induction l with
  | nil => simp
  | cons a l ih =>
    have h1 := ih fun b hb => h b (by simp [hb])
    have h2 := h a (by simp)
    rw [List.flatMap_cons, List.length_append, List.length_cons]
    push_cast
    linarith

theorem withinRows_of (S : GoSort) (X : List (List F)) (o : TreeOptions F) (t : Tree F) (h : newTree S X o = .ok t)
    (hmin : ∀ path ≠ [], ∀ i l r, t.sub path = .node i l r → 1 ≤ i.samples.length ∧ toInt o.minChildWeight ≤ i.samples.length) :
    WithinRows (toInt o.minChildWeight) (trainingRows X o).length t := by
  by_cases h1 : t.leaves.length = 1
  · exact Or.inl h1
  · right
    rw [← (C03_leaves_partition S X o t h).length_eq]
    refine sum_length_ge _ _ _ fun leaf hl => ?_
    obtain ⟨path, hp⟩ := leaf_path hl
    have hne : path ≠ [] := by
      rintro rfl
      have : t = .node leaf .nil .nil := by
        cases t <;> exact hp
      rw [this] at h1
      exact h1 rfl
    have := hmin path hne _ _ _ hp
    simp only [Int.max_le]
    constructor <;> omega

/-- **C104 (rows)**: a tree with a split has at most `n / max(1, MinChildWeight)` leaves, for `n` training rows. Exact arithmetic. -/
theorem C104_rows {K : Type} [Field K] [LinearOrder K] [IsStrictOrderedRing K] [FloorRing K] (S : GoSort) (X : List (List K))
    (o : TreeOptions (Exact K)) (t : Tree (Exact K)) (h : newTree S (finRows X) o = .ok t) :
    WithinRows (toInt o.minChildWeight) (trainingRows (finRows X) o).length t :=
  withinRows_of S _ o t h fun path hne i l r hp => C06_exact S X o t h path hne i l r hp

/-- **C104 (rows, binary64, partial)**: the same in binary64 when no two values of a column are neighbours. Missing: data with
neighbouring values, see `C104_violated_binary64`. -/
theorem C104_rows_binary64_partial (S : GoSort) (X : List (List F64)) (o : TreeOptions F64) (t : Tree F64) (h : newTree S X o = .ok t)
    (hX : Apart64 X) : WithinRows (toInt o.minChildWeight) (trainingRows X o).length t :=
  withinRows_of S _ o t h fun path hne i l r hp => C06_binary64_partial S X o t h hX path hne i l r hp

theorem updateLeaves_shape {g hs : List F} {t t' : Tree F} (h : updateLeaves g hs t = .ok t') :
    t'.height = t.height ∧ t'.leaves.length = t.leaves.length ∧ t'.branches = t.branches ∧ t'.size = t.size ∧ (t' = .nil ↔ t = .nil) := by
  induction t generalizing t' with
  | nil => obtain rfl := Except.ok.inj h; simp
  | node i l r ihl ihr =>
    unfold updateLeaves at h
    obtain ⟨l', e1, h⟩ := bind_ok h
    obtain ⟨r', e2, h⟩ := bind_ok h
    obtain ⟨a1, a2, a3, a4, a5⟩ := ihl e1
    obtain ⟨b1, b2, b3, b4, b5⟩ := ihr e2
    obtain ⟨i', hi, rfl⟩ : ∃ i' : NodeInfo F, i'.branches = i.branches ∧ t' = .node i' l' r' := by
      by_cases hlf : i.leaf = true
      · simp only [hlf, if_true] at h
        obtain ⟨i', e3, h⟩ := bind_ok h
        obtain rfl := Except.ok.inj h
        unfold updateLeaf at e3
        obtain ⟨x, _, e3⟩ := bind_ok e3
        obtain rfl := Except.ok.inj e3
        exact ⟨{ i with value := x.2 /. x.1 }, rfl, rfl⟩
      · simp only [hlf, Bool.false_eq_true, if_false] at h
        obtain rfl := Except.ok.inj h
        exact ⟨_, rfl, rfl⟩
    by_cases hn : l = .nil ∧ r = .nil
    · obtain ⟨rfl, rfl⟩ := hn
      obtain rfl := a5.2 rfl
      obtain rfl := b5.2 rfl
      exact ⟨rfl, rfl, hi, rfl, by simp⟩
    · have hn' : ¬ (l' = .nil ∧ r' = .nil) := fun h => hn ⟨a5.1 h.1, b5.1 h.2⟩
      refine ⟨?_, ?_, hi, by simp [Tree.size, a4, b4], by simp⟩
      · have e : ∀ (i : NodeInfo F) (l r : Tree F), ¬ (l = .nil ∧ r = .nil) → (Tree.node i l r).height = max l.height r.height + 1 := by
          intro i l r h
          match l, r, h with
          | .nil, .nil, h => exact absurd ⟨rfl, rfl⟩ h
          | .node .., .nil, _ => rfl
          | .nil, .node .., _ => rfl
          | .node .., .node .., _ => rfl
        rw [e _ _ _ hn, e _ _ _ hn', a1, b1]
      · rw [leaves_node hn, leaves_node hn', List.length_append, List.length_append, a2, b2]

theorem WithinDepth.of_shape {d : Int} {t t' : Tree F} (h : WithinDepth d t) {g hs : List F} (hu : updateLeaves g hs t = .ok t') :
    WithinDepth d t' := by
  obtain ⟨a1, a2, a3, a4, _⟩ := updateLeaves_shape hu
  unfold WithinDepth at *
  rw [a1, a2, a3, a4]
  exact h

theorem WithinRows.of_shape {m : Int} {n : Nat} {t t' : Tree F} (h : WithinRows m n t) {g hs : List F}
    (hu : updateLeaves g hs t = .ok t') : WithinRows m n t' := by
  obtain ⟨_, a2, _⟩ := updateLeaves_shape hu
  unfold WithinRows at *
  rw [a2]
  exact h

/-- every tree of a trained model was built by `classTree` from a row sample of some round -/
theorem newMultiClass_sampled {exp : F → F} {S : GoSort} {draws : Nat → F} {D : DataBunch F} {O : Options F} {M : MultiClass F}
    {P : Tree F → Prop} (h : newMultiClass exp S draws D O = .ok M)
    (hP : ∀ d idx cols d', roundSamples D.data O.fixMcw d = .ok (idx, cols, d') → ∀ lf y p t,
      classTree S D.data O.fixMcw lf idx cols y p = .ok t → P t) : ∀ ens ∈ M.b, ∀ t ∈ ens, P t := by
  obtain ⟨B, _, hB⟩ := newMultiClass_rel (S2 := S) (data2 := D.data) (TR := fun t1 _ => P t1) (fun _ => rfl)
    (fun d idx cols d' hs lf y p t1 ht => ⟨t1, ht, hP d idx cols d' hs lf y p t1 ht, fun _ => rfl⟩) h
  intro ens hens t ht
  obtain ⟨_, _, hE⟩ := forall₂_left hB ens hens
  obtain ⟨_, _, hT⟩ := forall₂_left hE t ht
  exact hT

omit [GoFloatOrd F] in
theorem roundSamples_rows {X : List (List F)} {O : Options F} {d d' : Nat → F} {idx : Option (List Nat)} {cols : List Nat}
    (h : roundSamples X O d = .ok (idx, cols, d')) : ∀ l, idx = some l → l.length ≤ X.length := by
  have hcols : ∀ (idx' : Option (List Nat)) (dr : Nat → F), (if (O.colSubSample <. one && O.xgb) = true then do
          let row0 ← goIdx X 0
          let cols ← subSample row0.length O.colSubSample dr
          pure (idx', cols, fun i => dr (i + row0.length))
        else pure (idx', [], dr) : Go (Option (List Nat) × List Nat × (Nat → F))) = .ok (idx, cols, d') → idx' = idx := by
    intro idx' dr h2
    split at h2
    · obtain ⟨row0, _, h2⟩ := bind_ok h2
      obtain ⟨cols', _, h2⟩ := bind_ok h2
      have := Except.ok.inj h2
      simp only [Prod.mk.injEq] at this
      exact this.1
    · have := Except.ok.inj h2
      simp only [Prod.mk.injEq] at this
      exact this.1
  rintro l rfl
  unfold roundSamples at h
  by_cases hs : (O.subSample <. one && O.xgb) = true
  · simp only [hs, if_true] at h
    obtain ⟨s, h3, h⟩ := bind_ok h
    have := hcols _ _ h
    simp only [Option.some.injEq] at this
    rw [← this]
    unfold subSample at h3
    split at h3
    · cases h3
    · obtain rfl := Except.ok.inj h3
      exact (List.length_filter_le _ _).trans_eq (List.length_range)
  · simp only [hs, Bool.false_eq_true, if_false] at h
    have := hcols _ _ h
    simp only [reduceCtorEq] at this

/-- number of nodes of all trees -/
def MultiClass.nodeCount (M : MultiClass F) : Nat := (M.b.map fun ens => (ens.map Tree.size).sum).sum

/-- **C104 (model, depth)**: a trained model has at most `Rounds` rounds, each with at most one tree for each class, each tree within
the depth limit; so it has at most `Rounds·classes·(2^(MaxDepth+1) - 1)` nodes. Any arithmetic. -/
theorem C104_model (exp : F → F) (S : GoSort) (draws : Nat → F) (D : DataBunch F) (O : Options F) (M : MultiClass F)
    (h : newMultiClass exp S draws D O = .ok M) (row0 : List F) (h0 : D.data[0]? = some row0) :
    M.b.length ≤ O.rounds.toNat ∧ (∀ ens ∈ M.b, ens.length ≤ M.classLabels.length ∧ ∀ t ∈ ens, WithinDepth O.maxDepth t) ∧
    M.nodeCount ≤ O.rounds.toNat * (M.classLabels.length * (2 ^ (O.maxDepth.toNat + 1) - 1)) := by
  have hmd : O.fixMcw.maxDepth = O.maxDepth := by unfold Options.fixMcw; split <;> rfl
  have h1 : M.b.length ≤ O.rounds.toNat := by
    rw [(C22_rounds exp S draws D O M h).1]
    unfold executedRounds
    exact (List.length_filter_le _ _).trans_eq (List.length_range)
  have h2 : ∀ ens ∈ M.b, ∀ t ∈ ens, WithinDepth O.maxDepth t := by
    refine newMultiClass_trees h fun lf idx cols y p t ht => ?_
    unfold classTree at ht
    rw [← hmd]
    cases hx : O.fixMcw.xgb with
    | true =>
      rw [hx] at ht
      obtain ⟨g, _, ht⟩ := bind_ok ht
      exact C104_depth S _ _ t ht
    | false =>
      rw [hx] at ht
      obtain ⟨g, _, ht⟩ := bind_ok ht
      obtain ⟨t0, ht0, hu⟩ := bind_ok ht
      exact (C104_depth S _ _ t0 ht0).of_shape hu
  have h3 := (trained_trees exp S draws D O M h row0 h0).1
  refine ⟨h1, fun ens he => ⟨(h3 ens he).1, h2 ens he⟩, ?_⟩
  have hsum : ∀ (l : List Nat) (c : Nat), (∀ x ∈ l, x ≤ c) → l.sum ≤ l.length * c := by
    intro l c
    induction l with
    | nil => simp
    | cons a l ih =>
      intro hl
      have e1 := hl a (by simp)
      have e2 := ih fun x hx => hl x (by simp [hx])
      rw [List.sum_cons, List.length_cons, Nat.succ_mul]
      omega
  unfold MultiClass.nodeCount
  refine (hsum _ (M.classLabels.length * (2 ^ (O.maxDepth.toNat + 1) - 1)) ?_).trans ?_
  · intro x hx
    obtain ⟨ens, he, rfl⟩ := List.mem_map.1 hx
    refine (hsum _ (2 ^ (O.maxDepth.toNat + 1) - 1) ?_).trans ?_
    · intro y hy
      obtain ⟨t, ht, rfl⟩ := List.mem_map.1 hy
      obtain ⟨_, b2, _, b4⟩ := h2 ens he t ht
      have hpow : 2 ^ (O.maxDepth.toNat + 1) = 2 * 2 ^ O.maxDepth.toNat := by rw [Nat.pow_succ]; omega
      omega
    · rw [List.length_map]
      exact Nat.mul_le_mul_right _ (h3 ens he).1
  · rw [List.length_map]
    exact Nat.mul_le_mul_right _ h1

/-- **C104 (model, rows)**: every tree of a trained model that has a split has at most `n / max(1, MinChildWeight)` leaves, for `n`
training rows. Exact arithmetic. -/
theorem C104_model_rows {K : Type} [Field K] [LinearOrder K] [IsStrictOrderedRing K] [FloorRing K] (exp : Exact K → Exact K) (S : GoSort)
    (draws : Nat → Exact K) (X : List (List K)) (D : DataBunch (Exact K)) (hD : D.data = finRows X) (O : Options (Exact K))
    (M : MultiClass (Exact K)) (h : newMultiClass exp S draws D O = .ok M) :
    ∀ ens ∈ M.b, ∀ t ∈ ens, WithinRows (toInt O.minChildWeight) X.length t := by
  have hm : max 1 (toInt O.minChildWeight) ≤ max 1 (toInt O.fixMcw.minChildWeight) := by
    unfold Options.fixMcw
    split
    · rename_i hlt
      have h1 : toInt O.minChildWeight ≤ 1 := by
        cases hv : O.minChildWeight with
        | fin x =>
          rw [hv, Exact.one_fin, XF.fin_lt] at hlt
          simp only [Rat.cast_one, decide_eq_true_eq] at hlt
          refine XF.toInt_le _ (by norm_num) ?_
          split
          · exact (Int.floor_le_floor hlt.le).trans_eq (by simp)
          · exact (Int.ceil_le.2 (by push_cast; exact hlt.le))
        | nan => show (-9223372036854775808 : Int) ≤ 1; omega
        | inf s => show (-9223372036854775808 : Int) ≤ 1; omega
      simp only
      omega
    · exact le_rfl
  refine newMultiClass_sampled h fun d idx cols d' hs lf y p t ht => ?_
  have hrows := roundSamples_rows hs
  rw [hD] at ht hrows
  have hlen : (finRows X : List (List (Exact K))).length = X.length := by simp [finRows]
  have key : ∀ (o : TreeOptions (Exact K)) t, newTree S (finRows X) o = .ok t → o.minChildWeight = O.fixMcw.minChildWeight →
      (∀ l, o.indexes = some l → l.length ≤ X.length) → WithinRows (toInt O.minChildWeight) X.length t := by
    intro o t ht ho hi
    rcases C104_rows S X o t ht with h1 | h1
    · exact Or.inl h1
    · right
      have h2 : (trainingRows (finRows X) o).length ≤ X.length := by
        unfold trainingRows
        split
        · rename_i l hl
          exact hi l hl
        · rw [List.length_range, hlen]
      rw [ho] at h1
      have h3 : (t.leaves.length : Int) * max 1 (toInt O.minChildWeight) ≤ t.leaves.length * max 1 (toInt O.fixMcw.minChildWeight) :=
        mul_le_mul_of_nonneg_left hm (by omega)
      omega
  unfold classTree at ht
  cases hx : O.fixMcw.xgb with
  | true =>
    rw [hx] at ht
    obtain ⟨g, _, ht⟩ := bind_ok ht
    exact key _ t ht rfl (fun l hl => by rw [← hlen]; exact hrows l hl)
  | false =>
    rw [hx] at ht
    obtain ⟨g, _, ht⟩ := bind_ok ht
    obtain ⟨t0, ht0, hu⟩ := bind_ok ht
    exact (key _ t0 ht0 rfl (by intro l hl; cases hl)).of_shape hu

/-- two rows with a value, two with the next float64, one with a larger value -/
def nextX : List (List F64) := [[.fin (1 + 1 / 2 ^ 52)], [.fin (1 + 1 / 2 ^ 52)], [.fin (1 + 2 / 2 ^ 52)], [.fin (1 + 2 / 2 ^ 52)], [.fin 2]]
def nextO : TreeOptions F64 :=
  { (defaultGTreeOptions : TreeOptions F64) with
    y := [.fin 0, .fin 0, .fin 1, .fin 1, .fin 1], maxDepth := 2, minChildWeight := .fin 2 }

/-- **C104 is violated in binary64**: with `MinChildWeight = 2` a tree for five rows has three leaves, because the threshold between
neighbouring values is rounded to the larger one. -/
theorem C104_violated_binary64 : ∃ t, newTree GoSort.ins nextX nextO = .ok t ∧
    ¬ WithinRows (toInt nextO.minChildWeight) (trainingRows nextX nextO).length t := by
  have h : (match newTree GoSort.ins nextX nextO with
    | .ok t => decide (t.leaves.length ≠ 1) && decide ((trainingRows nextX nextO).length <
        (t.leaves.length : Int) * max 1 (toInt nextO.minChildWeight))
    | .error _ => false) = true := by decide +kernel
  split at h
  · rename_i t ht
    refine ⟨t, ht, ?_⟩
    simp only [Bool.and_eq_true, decide_eq_true_eq] at h
    rintro (h1 | h1)
    · exact h.1 h1
    · omega
  · cases h

/-- the bounds are reached: three leaves for six rows with `MinChildWeight` 2 -/
example : ∃ t, newTree GoSort.ins (finRows [[0], [0], [1], [1], [2], [2]] : List (List (Exact ℚ)))
      { (defaultGTreeOptions : TreeOptions (Exact ℚ)) with
        y := [.fin 0, .fin 0, .fin 1, .fin 1, .fin 5, .fin 5], maxDepth := 4, minChildWeight := .fin 2 } = .ok t ∧ t.leaves.length = 3 := by
  have h : (match newTree GoSort.ins (finRows [[0], [0], [1], [1], [2], [2]] : List (List (Exact ℚ)))
      { (defaultGTreeOptions : TreeOptions (Exact ℚ)) with
        y := [.fin 0, .fin 0, .fin 1, .fin 1, .fin 5, .fin 5], maxDepth := 4, minChildWeight := .fin 2 } with
    | .ok t => decide (t.leaves.length = 3)
    | .error _ => false) = true := by decide +kernel
  split at h
  · rename_i t ht
    exact ⟨t, ht, of_decide_eq_true h⟩
  · cases h

/-- a model of 20 rounds for two classes and five rows: its trees have two leaves, the most that `MinChildWeight` 2 allows -/
example : ∃ M, newMultiClass expR GoSort.ins (fun _ => .fin 0) fiveData plainXgb = .ok M ∧
    M.nodeCount ≤ 20 * (2 * (2 ^ 6 - 1)) ∧ ∀ ens ∈ M.b, ∀ t ∈ ens, WithinRows 2 5 t := by
  obtain ⟨M, hM, _⟩ := five_model
  have hw : toInt plainXgb.minChildWeight = 2 := by
    exact (XF.toInt_floor (by norm_num) (by norm_num)).trans (by norm_num)
  have h1 := (C104_model expR GoSort.ins _ fiveData plainXgb M hM _ rfl).2.2
  have h2 := C104_model_rows expR GoSort.ins _ fiveRows fiveData rfl plainXgb M hM
  rw [hw] at h2
  have hc : M.classLabels.length = 2 := by
    rw [(C22_rounds expR GoSort.ins _ fiveData plainXgb M hM).2.1]
    decide
  rw [hc] at h1
  exact ⟨M, hM, h1, h2⟩

end Boo
