import Verif.Lemmas.TreeMk
import Verif.Props.Gain

/-!
# C80, C81: what `MaxDepth` does to a tree
-/

namespace Boo
open GoFloat Spec
set_option linter.unusedSectionVars false

section
variable {F : Type} [GoFloat F]

/-- A node without children, as the code leaves it when it does not look for a split: the same samples and value, no
split. -/
def NodeInfo.unsplit (i : NodeInfo F) : NodeInfo F :=
  { i with bestScoreSoFar := if i.xgb then zero else posInf, splitFeatureIndex := 0, threshold := zero, branches := 1 }

/-- A tree cut at depth `d`: what is deeper than `d` splits is removed. Node counts are those of the cut tree. -/
def Tree.cut : Nat → Tree F → Tree F
  | _, .nil => .nil
  | 0, .node i _ _ => .node i.unsplit .nil .nil
  | d + 1, .node i l r => .node { i with branches := 1 + (l.cut d).size + (r.cut d).size } (l.cut d) (r.cut d)

@[simp] theorem Tree.cut_nil (d : Nat) : (Tree.nil : Tree F).cut d = .nil := by cases d <;> rfl

theorem newTreeD_maxDepth (S : GoSort) (X : List (List F)) (d : Nat) (o : TreeOptions F) (m : Int) :
    newTreeD S X d { o with maxDepth := m } = newTreeD S X d o := by
  induction d generalizing o m with
  | zero => rfl
  | succ d ih =>
    rw [newTreeD_succ, newTreeD_succ]
    have h : ∀ i, newTreeD S X d (TreeOptions.child { o with maxDepth := m } X i) = newTreeD S X d (o.child X i) := by
      intro i
      exact ih (o.child X i) (m - 1)
    simp only [h]
    rfl

theorem newTreeD_cut {S : GoSort} {X : List (List F)} {d d' : Nat} {o : TreeOptions F} {t : Tree F}
    (h : newTreeD S X d o = .ok t) (hd : d' ≤ d) :
    newTreeD S X d' o = .ok (t.cut d') ∧ (t.cut d').branches = (t.cut d').size := by
  induction d' generalizing d o t with
  | zero =>
    obtain ⟨v, row0, hv, hr, hx, ⟨_, rfl⟩ | ⟨_, best, _, _, _, rfl⟩ | ⟨_, best, col, tl, tr, _, _, _, _, _, _, rfl⟩⟩ :=
      newTreeD_inv _ _ _ _ _ h
    all_goals exact ⟨newTreeD_mk_zero hx hv hr, rfl⟩
  | succ d' ih =>
    obtain ⟨v, row0, hv, hr, hx, ⟨h0, rfl⟩ | ⟨_, best, _, hs, hl, rfl⟩ |
      ⟨d1, best, col, tl, tr, h0, hs, hl, hc, h1, h2, rfl⟩⟩ := newTreeD_inv _ _ _ _ _ h
    · omega
    · rw [newTreeD_mk_leaf hx hv hr hs hl]
      simp only [Tree.cut, Tree.cut_nil]
      exact ⟨rfl, rfl⟩
    · obtain ⟨a1, a2⟩ := ih h1 (by omega)
      obtain ⟨b1, b2⟩ := ih h2 (by omega)
      constructor
      · rw [newTreeD_mk_node hx hv hr hs hl hc a1 b1, a2, b2]
        rfl
      · show 1 + _ + _ = _ + _ + 1
        omega

/-- **C80**: if `NewTree` builds `t`, then with a smaller `MaxDepth` and everything else equal it builds `t` cut at that
depth. Holds for every arithmetic and any data, also with NaNs. -/
theorem C80_cut (S : GoSort) (X : List (List F)) (o : TreeOptions F) (t : Tree F) (m : Int)
    (h : newTree S X o = .ok t) (hm : m ≤ o.maxDepth) :
    newTree S X { o with maxDepth := m } = .ok (t.cut m.toNat) := by
  unfold newTree at *
  rw [newTreeD_maxDepth]
  exact (newTreeD_cut h (by show m.toNat ≤ _; omega)).1

/-- The value that a row meets at depth `d` or, if it ends earlier, at the end of its path: the path is followed by the
rule "at most the threshold goes left". -/
def Tree.valueAt : Nat → Tree F → List F → Option F
  | _, .nil, _ => none
  | 0, .node i _ _, _ => some i.value
  | _ + 1, .node i .nil .nil, _ => some i.value
  | d + 1, .node i l r, row =>
    match row[i.splitFeatureIndex]? with
    | none => none
    | some v => if (v <=. i.threshold) = true then l.valueAt d row else r.valueAt d row

theorem leaf_nil_iff [GoFloatOrd F] {S : GoSort} {X : List (List F)} {d : Nat} {o : TreeOptions F} {i : NodeInfo F}
    {l r : Tree F} (h : newTreeD S X d o = .ok (.node i l r)) :
    (i.leaf = true ∧ l = .nil ∧ r = .nil) ∨ (i.leaf = false ∧ l ≠ .nil ∧ r ≠ .nil ∧
      ∃ d' o1 o2, d = d' + 1 ∧ newTreeD S X d' o1 = .ok l ∧ newTreeD S X d' o2 = .ok r) := by
  obtain ⟨v, row0, hv, hr, hx, ⟨_, he⟩ | ⟨_, best, _, hs, hl, he⟩ |
    ⟨d1, best, col, tl, tr, h0, hs, hl, hc, h1, h2, he⟩⟩ := newTreeD_inv _ _ _ _ _ h
  · cases he; exact Or.inl ⟨leaf_best0 .., rfl, rfl⟩
  · cases he; exact Or.inl ⟨hl, rfl, rfl⟩
  · cases he
    exact Or.inr ⟨by rw [leaf_branches o X v row0.length _ 1]; exact hl, newTree_ne_nil h1, newTree_ne_nil h2,
      d1, _, _, h0, h1, h2⟩

theorem valueAt_ok [GoFloatOrd F] {S : GoSort} {X : List (List F)} {d : Nat} {o : TreeOptions F} {t : Tree F}
    (h : newTreeD S X d o = .ok t) (row : List F) (w : F) :
    t.predictSingle row = .ok w ↔ t.valueAt d row = some w := by
  induction t generalizing d o with
  | nil => exact absurd rfl (newTree_ne_nil h)
  | node i l r ihl ihr =>
    rcases leaf_nil_iff h with ⟨hlf, rfl, rfl⟩ | ⟨hlf, hl, hr, d', o1, o2, rfl, h1, h2⟩
    · unfold Tree.predictSingle
      rw [hlf]
      cases d <;> simp [Tree.valueAt]
    · unfold Tree.predictSingle
      rw [hlf]
      have e : (Tree.node i l r).valueAt (d' + 1) row = match row[i.splitFeatureIndex]? with
          | none => none
          | some v => if (v <=. i.threshold) = true then l.valueAt d' row else r.valueAt d' row := by
        cases l with
        | nil => exact absurd rfl hl
        | node => cases r <;> rfl
      rw [e]
      unfold goIdx
      cases hq : row[i.splitFeatureIndex]? with
      | none => simp [bind, Except.bind]
      | some v =>
        simp only [Bool.false_eq_true, if_false, bind, Except.bind]
        split
        · exact ihl h1
        · exact ihr h2

theorem valueAt_cut [GoFloatOrd F] {S : GoSort} {X : List (List F)} {d d' : Nat} {o : TreeOptions F} {t : Tree F}
    (h : newTreeD S X d o = .ok t) (hd : d' ≤ d) (row : List F) :
    (t.cut d').valueAt d' row = t.valueAt d' row := by
  induction d' generalizing d o t with
  | zero => cases t <;> rfl
  | succ d' ih =>
    cases t with
    | nil => rfl
    | node i l r =>
      rcases leaf_nil_iff h with ⟨hlf, rfl, rfl⟩ | ⟨hlf, hl, hr, d1, o1, o2, rfl, h1, h2⟩
      · simp only [Tree.cut, Tree.cut_nil]
        rfl
      · have e1 := ih h1 (by omega)
        have e2 := ih h2 (by omega)
        cases l with
        | nil => exact absurd rfl hl
        | node i1 l1 r1 =>
          cases r with
          | nil => exact absurd rfl hr
          | node i2 l2 r2 =>
            have c1 : ∃ j a b, (Tree.node i1 l1 r1).cut d' = .node j a b := by cases d' <;> exact ⟨_, _, _, rfl⟩
            have c2 : ∃ j a b, (Tree.node i2 l2 r2).cut d' = .node j a b := by cases d' <;> exact ⟨_, _, _, rfl⟩
            obtain ⟨j1, a1, b1, c1⟩ := c1
            obtain ⟨j2, a2, b2, c2⟩ := c2
            simp only [Tree.cut, c1, c2, Tree.valueAt]
            rw [c1] at e1
            rw [c2] at e2
            rw [e1, e2]

/-- **C80, predictions**: the tree built with the smaller `MaxDepth` predicts, for any row, the value that the row meets
at that depth (or at the end of its path, if that comes first) in the tree built with the larger `MaxDepth`. -/
theorem C80_predict [GoFloatOrd F] (S : GoSort) (X : List (List F)) (o : TreeOptions F) (t t' : Tree F) (m : Int)
    (h : newTree S X o = .ok t) (hm : m ≤ o.maxDepth) (h' : newTree S X { o with maxDepth := m } = .ok t')
    (row : List F) (w : F) : t'.predictSingle row = .ok w ↔ t.valueAt m.toNat row = some w := by
  have hc := C80_cut S X o t m h hm
  rw [hc] at h'
  obtain rfl := Except.ok.inj h'
  unfold newTree at h hc
  rw [newTreeD_maxDepth] at hc
  rw [valueAt_ok hc]
  show (t.cut m.toNat).valueAt m.toNat row = _ ↔ _
  rw [valueAt_cut h (by omega)]

/-- the hypotheses are met: a tree of depth 2 (five nodes) and its cut of depth 1 (three nodes), in float64 -/
example : builtShape (newTree GoSort.ins exX { exO with maxDepth := 1 }) 3 1 = true := by decide +kernel
example : builtShape ((newTree GoSort.ins exX exO).map (·.cut 1)) 3 1 = true := by decide +kernel

end

/-! ### C81 -/

section
variable {K : Type} [Field K] [LinearOrder K] [IsStrictOrderedRing K] [FloorRing K]

/-- the sum of squared errors over the rows `idx`, of the predictions `pred` -/
def Spec.sseOf (y : List K) (idx : List Nat) (pred : Nat → K) : K := (idx.map fun i => (y.getD i 0 - pred i) ^ 2).sum

/-- the rows `idx` are in the data, and `pred` gives the predictions of the tree for them -/
def PredictsRows (t : Tree (Exact K)) (X : List (List (Exact K))) (idx : List Nat) (pred : Nat → K) : Prop :=
  ∀ i ∈ idx, ∃ row, X[i]? = some row ∧ t.predictSingle row = .ok (.fin (pred i))

theorem sseOf_perm {y : List K} {a b : List Nat} (h : a.Perm b) (pred : Nat → K) : sseOf y a pred = sseOf y b pred :=
  (h.map _).sum_eq

theorem sseOf_append (y : List K) (a b : List Nat) (pred : Nat → K) :
    sseOf y (a ++ b) pred = sseOf y a pred + sseOf y b pred := by
  simp [sseOf]

theorem sseOf_congr (y : List K) (a : List Nat) (p q : Nat → K) (h : ∀ i ∈ a, p i = q i) :
    sseOf y a p = sseOf y a q := by
  unfold sseOf
  congr 1
  exact List.map_congr_left fun i hi => by rw [h i hi]

/-- predictions of a split node from those of its children -/
theorem predicts_node {X : List (List (Exact K))} {i : NodeInfo (Exact K)} {l r : Tree (Exact K)} {idx : List Nat}
    {col : List (Exact K)} {p q : Nat → K} (hlf : i.leaf = false)
    (hc : sampleCol X idx i.splitFeatureIndex = .ok col)
    (hl : PredictsRows l X (goLeft i.threshold col idx) p) (hr : PredictsRows r X (goRight i.threshold col idx) q) :
    ∃ pq : Nat → K, PredictsRows (.node i l r) X idx pq ∧
      (∀ j ∈ goLeft i.threshold col idx, pq j = p j) ∧ ∀ j ∈ goRight i.threshold col idx, pq j = q j := by
  classical
  have hdisj : ∀ j ∈ goRight i.threshold col idx, j ∉ goLeft i.threshold col idx := by
    intro j h1 h2
    obtain ⟨row, v, e1, e2, e3⟩ := mem_goRight hc h1
    obtain ⟨row', v', e1', e2', e3'⟩ := mem_goLeft hc h2
    rw [e1] at e1'; cases e1'
    rw [e2] at e2'; cases e2'
    rw [e3] at e3'; cases e3'
  refine ⟨fun j => if j ∈ goLeft i.threshold col idx then p j else q j, ?_, fun j hj => if_pos hj,
    fun j hj => if_neg (hdisj j hj)⟩
  intro j hj
  have hmem := (goLeft_goRight_perm i.threshold col idx (sampleCol_length hc)).mem_iff.2 hj
  rcases List.mem_append.1 hmem with hj | hj
  · obtain ⟨row, h1, h2⟩ := hl j hj
    obtain ⟨row', v', e1, e2, e3⟩ := mem_goLeft hc hj
    rw [h1] at e1; cases e1
    refine ⟨row, h1, ?_⟩
    unfold Tree.predictSingle
    rw [hlf]
    simp only [Bool.false_eq_true, if_false, bind, Except.bind, goIdx_ok.2 e2, e3, if_true, if_pos hj]
    exact h2
  · obtain ⟨row, h1, h2⟩ := hr j hj
    obtain ⟨row', v', e1, e2, e3⟩ := mem_goRight hc hj
    rw [h1] at e1; cases e1
    refine ⟨row, h1, ?_⟩
    unfold Tree.predictSingle
    rw [hlf]
    simp only [Bool.false_eq_true, if_false, bind, Except.bind, goIdx_ok.2 e2, e3, if_neg (hdisj j hj)]
    exact h2

theorem predicts_leaf {X : List (List (Exact K))} {i : NodeInfo (Exact K)} {o : TreeOptions (Exact K)} {y : List K}
    (hi : RegInput o y) (hlf : i.leaf = true) (hv : nodeValue (o.fill X) (o.idx X) = .ok i.value)
    (hrange : ∀ j ∈ o.idx X, j < X.length) :
    PredictsRows (.node i .nil .nil) X (o.idx X) (fun _ => mean y (o.idx X)) := by
  intro j hj
  have hne : o.idx X ≠ [] := by intro h; rw [h] at hj; cases hj
  have := (nodeValue_reg (o := o.fill X) hi.xgb hi.targets hv hne).2
  refine ⟨X[j]'(hrange j hj), List.getElem?_eq_getElem _, ?_⟩
  unfold Tree.predictSingle
  rw [hlf, this]
  rfl

theorem sseOf_mean_le (y : List K) (idx : List Nat) (c : K) : sseOf y idx (fun _ => mean y idx) ≤ sse y idx c := by
  by_cases hne : idx = []
  · subst hne; simp [sseOf, sse]
  · exact sse_mean_le y idx hne c

theorem sseOf_node {y : List K} {idx : List Nat} {col : List (Exact K)} {thr : Exact K} {p q pq : Nat → K}
    (hlen : col.length = idx.length)
    (h1 : ∀ j ∈ goLeft thr col idx, pq j = p j) (h2 : ∀ j ∈ goRight thr col idx, pq j = q j) :
    sseOf y idx pq = sseOf y (goLeft thr col idx) p + sseOf y (goRight thr col idx) q := by
  rw [← sseOf_perm (goLeft_goRight_perm thr col idx hlen), sseOf_append, sseOf_congr _ _ _ _ h1,
    sseOf_congr _ _ _ _ h2]

theorem reg_tree_le {S : GoSort} {X : List (List (Exact K))} {y : List K} (d : Nat) (o : TreeOptions (Exact K))
    (t : Tree (Exact K)) (hi : RegInput o y) (hb : newTreeD S X d o = .ok t) (hrange : ∀ j ∈ o.idx X, j < X.length) :
    ∃ pred, PredictsRows t X (o.idx X) pred ∧ ∀ c, sseOf y (o.idx X) pred ≤ sse y (o.idx X) c := by
  induction d generalizing o t with
  | zero =>
    obtain ⟨v, row0, hv, hr, hx, ⟨_, rfl⟩ | ⟨_, best, h0, _⟩ | ⟨d1, best, col, tl, tr, h0, _⟩⟩ :=
      newTreeD_inv _ _ _ _ _ hb
    · exact ⟨_, predicts_leaf hi (leaf_best0 ..) hv hrange, sseOf_mean_le y _⟩
    · omega
    · omega
  | succ d ih =>
    obtain ⟨v, row0, hv, hr, hx, ⟨h0, _⟩ | ⟨_, best, _, hs, hl, rfl⟩ |
      ⟨d1, best, col, tl, tr, h0, hs, hl, hc, h1, h2, rfl⟩⟩ := newTreeD_inv _ _ _ _ _ hb
    · omega
    · exact ⟨_, predicts_leaf hi hl hv hrange, sseOf_mean_le y _⟩
    · cases h0
      have hp := goLeft_goRight_perm best.threshold col (o.idx X) (sampleCol_length hc)
      obtain ⟨p, p1, p2⟩ := ih _ _ (hi.inherit (Inherit.child X o _)) h1
        fun j hj => hrange j (hp.mem_iff.1 (List.mem_append_left _ hj))
      obtain ⟨q, q1, q2⟩ := ih _ _ (hi.inherit (Inherit.child X o _)) h2
        fun j hj => hrange j (hp.mem_iff.1 (List.mem_append_right _ hj))
      rw [child_idx] at p1 p2 q1 q2
      obtain ⟨pq, e1, e2, e3⟩ := predicts_node
        (i := mkInfo o X v row0.length best (1 + tl.branches + tr.branches))
        (by rw [leaf_branches o X v row0.length _ 1]; exact hl) hc p1 q1
      refine ⟨pq, e1, fun c => ?_⟩
      rw [sseOf_node (sampleCol_length hc) e2 e3]
      refine (add_le_add (p2 c) (q2 c)).trans (le_of_eq ?_)
      show sseOf y _ (fun _ => c) + sseOf y _ (fun _ => c) = sseOf y _ fun _ => c
      rw [← sseOf_append]
      exact sseOf_perm hp _

theorem reg_cut_le {S : GoSort} {X : List (List (Exact K))} {y : List K} (d' d : Nat) (o : TreeOptions (Exact K))
    (t t' : Tree (Exact K)) (hi : RegInput o y) (hb : newTreeD S X d o = .ok t) (hb' : newTreeD S X d' o = .ok t')
    (hd : d' ≤ d) (hrange : ∀ j ∈ o.idx X, j < X.length) :
    ∃ pred pred', PredictsRows t X (o.idx X) pred ∧ PredictsRows t' X (o.idx X) pred' ∧
      sseOf y (o.idx X) pred ≤ sseOf y (o.idx X) pred' := by
  induction d' generalizing d o t t' with
  | zero =>
    obtain ⟨pred, h1, h2⟩ := reg_tree_le d o t hi hb hrange
    obtain ⟨v, row0, hv, hr, hx, ⟨_, rfl⟩ | ⟨_, best, h0, _⟩ | ⟨d1, best, col, tl, tr, h0, _⟩⟩ :=
      newTreeD_inv _ _ _ _ _ hb'
    · exact ⟨pred, _, h1, predicts_leaf hi (leaf_best0 ..) hv hrange, h2 _⟩
    · omega
    · omega
  | succ d' ih =>
    obtain ⟨v, row0, hv, hr, hx, ⟨h0, _⟩ | ⟨_, best, hd2, hs, hl, rfl⟩ |
      ⟨d1, best, col, tl, tr, h0, hs, hl, hc, h1, h2, rfl⟩⟩ := newTreeD_inv _ _ _ _ _ hb
    · omega
    · subst hd2
      rw [newTreeD_mk_leaf hx hv hr hs hl] at hb'
      obtain rfl := Except.ok.inj hb'
      exact ⟨_, _, predicts_leaf hi hl hv hrange, predicts_leaf hi hl hv hrange, le_refl _⟩
    · subst h0
      obtain ⟨v', row0', hv', hr', _, ⟨h0, _⟩ | ⟨_, best', _, hs', hl', _⟩ |
        ⟨d1', best', col', tl', tr', h0', hs', hl', hc', h1', h2', rfl⟩⟩ := newTreeD_inv _ _ _ _ _ hb'
      · omega
      · rw [hv] at hv'; cases hv'
        rw [hr] at hr'; cases hr'
        rw [hs] at hs'; cases hs'
        rw [hl] at hl'; cases hl'
      · rw [hv] at hv'; cases hv'
        rw [hr] at hr'; cases hr'
        rw [hs] at hs'; cases hs'
        rw [hc] at hc'; cases hc'
        cases h0'
        have hp := goLeft_goRight_perm best.threshold col (o.idx X) (sampleCol_length hc)
        obtain ⟨p, p', p1, p2, p3⟩ := ih _ _ _ _ (hi.inherit (Inherit.child X o _)) h1 h1' (by omega)
          fun j hj => hrange j (hp.mem_iff.1 (List.mem_append_left _ hj))
        obtain ⟨q, q', q1, q2, q3⟩ := ih _ _ _ _ (hi.inherit (Inherit.child X o _)) h2 h2' (by omega)
          fun j hj => hrange j (hp.mem_iff.1 (List.mem_append_right _ hj))
        rw [child_idx] at p1 p2 p3 q1 q2 q3
        obtain ⟨pq, e1, e2, e3⟩ := predicts_node
          (i := mkInfo o X v row0.length best (1 + tl.branches + tr.branches))
          (by rw [leaf_branches o X v row0.length _ 1]; exact hl) hc p1 q1
        obtain ⟨pq', e1', e2', e3'⟩ := predicts_node
          (i := mkInfo o X v row0.length best (1 + tl'.branches + tr'.branches))
          (by rw [leaf_branches o X v row0.length _ 1]; exact hl) hc p2 q2
        refine ⟨pq, pq', e1, e1', ?_⟩
        rw [sseOf_node (sampleCol_length hc) e2 e3, sseOf_node (sampleCol_length hc) e2' e3']
        exact add_le_add p3 q3

/-- **C81, regular trees**: the squared error of the predictions for the training rows does not grow with `MaxDepth`
(exact arithmetic, finite targets; the features may be anything, also infinite or NaN). -/
theorem C81_regular (S : GoSort) (X : List (List (Exact K))) (o : TreeOptions (Exact K)) (t t' : Tree (Exact K)) (m : Int)
    (y : List K) (h : newTree S X o = .ok t) (hm : m ≤ o.maxDepth) (h' : newTree S X { o with maxDepth := m } = .ok t')
    (hi : RegInput o y) (hrange : ∀ i ∈ trainingRows X o, i < X.length) :
    ∃ pred pred', PredictsRows t X (trainingRows X o) pred ∧ PredictsRows t' X (trainingRows X o) pred' ∧
      sseOf y (trainingRows X o) pred ≤ sseOf y (trainingRows X o) pred' := by
  rw [← idx_eq_trainingRows] at *
  unfold newTree at h h'
  rw [newTreeD_maxDepth] at h'
  exact reg_cut_le _ _ o t t' hi h h' (by show m.toNat ≤ _; omega) hrange

theorem xgb_cut_le {S : GoSort} {X : List (List K)} {g h : List K} {lam gam : K} (hp : HessOk h lam) (d' d : Nat)
    (o : TreeOptions (Exact K)) (t t' : Tree (Exact K)) (hi : XgbInput o g h lam gam)
    (hb : newTreeD S (finRows X) d o = .ok t) (hb' : newTreeD S (finRows X) d' o = .ok t') (hd : d' ≤ d)
    (hne : o.idx (finRows X) ≠ []) :
    ∃ v v', treeObjective g h lam gam t = some v ∧ treeObjective g h lam gam t' = some v' ∧ v ≤ v' := by
  induction d' generalizing d o t t' with
  | zero =>
    obtain ⟨v, h1, h2⟩ := treeObjective_le hp d o t hi hb hne
    obtain ⟨w, row0, hv, hr, hx, ⟨_, rfl⟩ | ⟨_, best, h0, _⟩ | ⟨d1, best, col, tl, tr, h0, _⟩⟩ :=
      newTreeD_inv _ _ _ _ _ hb'
    · obtain ⟨_, hrange, hval⟩ := nodeValue_xgb (o := o.fill (finRows X)) hi.xgb hi.grad hi.hess hv
      have hpos := den_pos hp hne hrange
      have hw : w = .fin (-sumOver g (o.idx (finRows X)) / (sumOver h (o.idx (finRows X)) + lam)) := by
        rw [hval]
        show _ /. (_ +. o.lambda) = _
        rw [hi.lambda, Exact.add_fin, Exact.div_fin _ _ hpos.ne']
      refine ⟨v, objective g h lam (o.idx (finRows X))
        (-sumOver g (o.idx (finRows X)) / (sumOver h (o.idx (finRows X)) + lam)), h1, ?_, ?_⟩
      · rw [hw]; rfl
      · rw [objective_opt g h lam _ hpos]; exact h2
    · omega
    · omega
  | succ d' ih =>
    have hb0 := hb
    obtain ⟨w, row0, hv, hr, hx, ⟨h0, _⟩ | ⟨_, best, hd2, hs, hl, rfl⟩ |
      ⟨d1, best, col, tl, tr, h0, hs, hl, hc, h1, h2, rfl⟩⟩ := newTreeD_inv _ _ _ _ _ hb
    · omega
    · subst hd2
      obtain ⟨v, h1, _⟩ := treeObjective_le hp _ o _ hi hb0 hne
      rw [newTreeD_mk_leaf hx hv hr hs hl] at hb'
      obtain rfl := Except.ok.inj hb'
      exact ⟨v, v, h1, h1, le_refl _⟩
    · subst h0
      obtain ⟨v', row0', hv', hr', _, ⟨h0, _⟩ | ⟨_, best', _, hs', hl', _⟩ |
        ⟨d1', best', col', tl', tr', h0', hs', hl', hc', h1', h2', rfl⟩⟩ := newTreeD_inv _ _ _ _ _ hb'
      · omega
      · rw [hv] at hv'; cases hv'
        rw [hr] at hr'; cases hr'
        rw [hs] at hs'; cases hs'
        rw [hl] at hl'; cases hl'
      · rw [hv] at hv'; cases hv'
        rw [hr] at hr'; cases hr'
        rw [hs] at hs'; cases hs'
        rw [hc] at hc'; cases hc'
        cases h0'
        obtain ⟨θ, hthr, hadm, _⟩ := node_split_xgb hb0 (newTree_ne_nil h1) hi hp
        obtain ⟨nL, nR, _⟩ := adm_ne hadm
        have hthr' : best.threshold = .fin θ := hthr
        have eL : goLeft best.threshold col (o.idx (finRows X)) =
          leftOf X (o.idx (finRows X)) best.feature θ := goLeft_exact hthr' hc
        have eR : goRight best.threshold col (o.idx (finRows X)) =
          rightOf X (o.idx (finRows X)) best.feature θ := goRight_exact hthr' hc
        obtain ⟨a, a', ha1, ha2, ha3⟩ := ih _ _ _ _ (hi.inherit (Inherit.child (finRows X) o _)) h1 h1' (by omega)
          (by rw [child_idx, eL]; exact nL)
        obtain ⟨b, b', hb1, hb2, hb3⟩ := ih _ _ _ _ (hi.inherit (Inherit.child (finRows X) o _)) h2 h2' (by omega)
          (by rw [child_idx, eR]; exact nR)
        refine ⟨a + b + gam / 2, a' + b' + gam / 2, ?_, ?_, by linarith⟩
        · cases tl with
          | nil => exact absurd rfl (newTree_ne_nil h1)
          | node => rw [treeObjective, ha1, hb1]; simp
        · cases tl' with
          | nil => exact absurd rfl (newTree_ne_nil h1')
          | node => rw [treeObjective, ha2, hb2]; simp

/-- **C81, xgboost trees**: the regularised training objective (`treeObjective`, with the code's `Gamma/2` per split)
does not grow with `MaxDepth`. -/
theorem C81_xgb (S : GoSort) (X : List (List K)) (o : TreeOptions (Exact K)) (t t' : Tree (Exact K)) (m : Int)
    (g h : List K) (lam gam : K) (hb : newTree S (finRows X) o = .ok t) (hm : m ≤ o.maxDepth)
    (hb' : newTree S (finRows X) { o with maxDepth := m } = .ok t') (hi : XgbInput o g h lam gam)
    (hp : ∀ v ∈ h, 0 ≤ v ∧ 0 < v + lam) (hne : trainingRows (finRows X) o ≠ []) :
    ∃ v v', treeObjective g h lam gam t = some v ∧ treeObjective g h lam gam t' = some v' ∧ v ≤ v' := by
  rw [← idx_eq_trainingRows] at *
  unfold newTree at hb hb'
  rw [newTreeD_maxDepth] at hb'
  exact xgb_cut_le hp _ _ o t t' hi hb hb' (by show m.toNat ≤ _; omega) hne

/-- the hypotheses are met, and the error shrinks: the squared error over the training rows of `exXQ` for depth 2, 1, 0 -/
def errorQ (d : Int) : Option ℚ :=
  match newTree GoSort.ins (finRows exXQ) { exOQ with maxDepth := d } with
  | .ok t => (t.predict (finRows exXQ) none).toOption.map fun p =>
      (List.zipWith (fun (y : ℚ) v => match v with | .fin x => (y - x) ^ 2 | _ => 0) [1, 2, 10, 20] p).sum
  | .error _ => none

example : RegInput exOQ [1, 2, 10, 20] := ⟨rfl, rfl⟩
example : ∀ i ∈ trainingRows (finRows exXQ) exOQ, i < (finRows exXQ).length := by decide
example : (errorQ 0, errorQ 1, errorQ 2) = (some (931 / 4), some (146 / 3), some (1 / 2)) := by decide +kernel
example : XgbInput exOXQ [1, 2, -10, -20] [1, 1, 1, 1] 1 1 := ⟨rfl, rfl, rfl, rfl, rfl⟩

end

end Boo
