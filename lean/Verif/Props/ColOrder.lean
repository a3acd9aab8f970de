import Verif.Lemmas.ColOrder
import Verif.Props.Gain
import Verif.Props.Importance
import Verif.Props.Boost
import Verif.Props.Repro

/-!
# C102: the order of the columns

`reorder p` puts the entries of a row in another order (`p` is a permutation of the column numbers). If no two columns offer
equally good splits at a node, the tree for the reordered data is the tree for the data with the columns renumbered.
-/

namespace Boo
open GoFloat
set_option linter.unusedSectionVars false
variable {F : Type} [GoFloat F]

/-- the same tree, with the split columns numbered as in the reordered data -/
def Tree.renumber (p : List Nat) : Tree F → Tree F
  | .nil => .nil
  | .node i l r =>
    .node { i with splitFeatureIndex := if i.leaf then i.splitFeatureIndex else p.idxOf i.splitFeatureIndex }
      (l.renumber p) (r.renumber p)

/-- No ties: at every split of the tree, no other column that may be used there offers as good a split; how good a column is
is the score at the root of the tree grown with `MaxDepth` 1 for the samples of the node with that column only. -/
def NoTies (S : GoSort) (X : List (List F)) (o : TreeOptions F) (t : Tree F) : Prop :=
  ∀ path i l r, t.sub path = .node i l r → l ≠ .nil → ∀ row0, X[0]? = some row0 → ∀ f < row0.length, UsableAt o path f →
    f ≠ i.splitFeatureIndex →
    ∃ b l' r', newTree S X { o with indexes := some i.samples, scratch := none, allowedColumns := [f], maxDepth := 1 } =
      .ok (.node b l' r') ∧ (b.bestScoreSoFar ==. i.bestScoreSoFar) = false

/-- the options of a tree for the reordered data -/
def TreeOptions.reorder (p : List Nat) (o : TreeOptions F) : TreeOptions F :=
  { o with allowedColumns := o.allowedColumns.map p.idxOf }

variable [GoFloatOrd F]

theorem best0_self (xgb : Bool) : ((best0 xgb : Best F).score ==. (best0 xgb : Best F).score) = true := by
  unfold best0 score0
  cases xgb
  · exact GoFloatOrd.posInf_self
  · exact GoFloatOrd.zero_self

theorem leaf_better {o : TreeOptions F} {X : List (List F)} {v : F} {n b : Nat} {best : Best F}
    (h : betterX o.xgb best.score (best0 o.xgb : Best F).score = true) : (mkInfo o X v n best b).leaf = false := by
  unfold NodeInfo.leaf mkInfo
  unfold best0 score0 at h
  simp only at h ⊢
  cases hx : o.xgb with
  | true =>
    rw [hx] at h
    simp only [betterX, gt, if_true] at h ⊢
    cases hq : best.score ==. zero with
    | false => rfl
    | true =>
      have := GoFloatOrd.lt_eq _ _ _ h hq
      rw [GoFloatOrd.lt_irrefl] at this
      cases this
  | false =>
    rw [hx] at h
    simp only [betterX, Bool.false_eq_true, if_false] at h ⊢
    cases hq : isPosInf best.score with
    | false => rfl
    | true =>
      have := GoFloatOrd.lt_eq _ _ _ h (GoFloatOrd.eq_symm _ _ hq)
      have h2 := GoFloatOrd.lt_irrefl (posInf : F)
      unfold isPosInf at hq
      have h3 := GoFloatOrd.posInf_unique _ hq
      rw [h3] at h
      rw [h2] at h
      cases h

/-- the search of a column does not depend on the scratch space -/
theorem findBetterSplit_scratch {S : GoSort} {X : List (List F)} {o : TreeOptions F} {f : Nat} {init s s' : Best F}
    {k : Option Nat} {al : List Nat} {m : Int}
    (h : findBetterSplit S X o f init = .ok s)
    (h' : findBetterSplit S X { o with scratch := k, allowedColumns := al, maxDepth := m } f init = .ok s') : s' = s := by
  obtain ⟨col, h1, h2, h3⟩ := findBetterSplit_inv h
  obtain ⟨col', h1', h2', h3'⟩ := findBetterSplit_inv h'
  rw [h1] at h1'
  cases h1'
  rcases h3 with ⟨hx, g, hh, sg, sh, e1, e2, e3, e4, rfl⟩ | ⟨hx, y, sy, e1, e2, rfl⟩ <;>
  rcases h3' with ⟨hx', g', hh', sg', sh', e1', e2', e3', e4', rfl⟩ | ⟨hx', y', sy', e1', e2', rfl⟩
  · rw [e1] at e1'; cases e1'
    rw [e2] at e2'; cases e2'
    rw [e3] at e3'; cases e3'
    rw [e4] at e4'; cases e4'
    rfl
  · rw [hx] at hx'; cases hx'
  · rw [hx] at hx'; cases hx'
  · rw [e1] at e1'; cases e1'
    rw [e2] at e2'; cases e2'
    rfl

/-- a one-column tree says what the search of that column finds -/
theorem oneColumn {S : GoSort} {X : List (List F)} {o : TreeOptions F} {f : Nat} {b : NodeInfo F} {l r : Tree F}
    {row0 : List F} (hr : X[0]? = some row0) (hf : f < row0.length) {s : Best F}
    (h : newTree S X { o with indexes := some (o.idx X), scratch := none, allowedColumns := [f], maxDepth := 1 } = .ok (.node b l r))
    (hs : findBetterSplit S X (o.fill X) f (best0 o.xgb) = .ok s) : b.bestScoreSoFar = s.score := by
  have hfil : ∀ o' : TreeOptions F, o'.allowedColumns = [f] → (List.range row0.length).filter (columnAllowed o') = [f] := by
    intro o' ho
    have : ∀ n, f < n → (List.range n).filter (columnAllowed o') = [f] := by
      intro n
      induction n with
      | zero => intro h; omega
      | succ n ih =>
        intro h
        have hn : columnAllowed o' n = decide (n = f) := by
          unfold columnAllowed
          rw [ho]
          simp [List.contains_iff_mem, Bool.eq_iff_iff]
        rw [List.range_succ, List.filter_append]
        by_cases hfn : f < n
        · rw [ih hfn, List.filter_cons]
          rw [hn]
          simp [show n ≠ f by omega]
        · have : n = f := by omega
          subst this
          rw [List.filter_cons, hn]
          simp only [decide_true, if_true, List.filter_nil]
          rw [List.filter_eq_nil_iff.2]
          · rfl
          · intro a ha
            unfold columnAllowed
            rw [ho]
            simp at ha ⊢
            omega
    exact this _ hf
  obtain ⟨v, row0', hv, hr', hx, hcase⟩ := newTreeD_inv _ _ _ _ _ h
  rw [hr] at hr'
  obtain rfl := Option.some.inj hr'
  have hone : ∀ best, searchSplit S X
      (({ o with indexes := some (o.idx X), scratch := none, allowedColumns := [f], maxDepth := 1 } : TreeOptions F).fill X)
      row0.length (best0 o.xgb) = .ok best → best = s := by
    intro best hb
    unfold searchSplit at hb
    rw [hfil _ rfl, List.foldlM_cons] at hb
    obtain ⟨b1, hb1, hb2⟩ := bind_ok hb
    obtain rfl := Except.ok.inj hb2
    exact findBetterSplit_scratch (al := [f]) (m := 1) (k := some (o.idx X).length) hs hb1
  rcases hcase with ⟨h0, _⟩ | ⟨_, best, _, hs', _, ht⟩ | ⟨_, best, _, _, _, _, hs', _, _, _, _, ht⟩
  · simp at h0
  · rw [hone best hs'] at ht
    cases ht
    rfl
  · rw [hone best hs'] at ht
    cases ht
    rfl

theorem NoTies.child {S : GoSort} {X : List (List F)} {o : TreeOptions F} {i : NodeInfo F} {l r : Tree F} (turn : Bool) (j : List Nat)
    (h : NoTies S X o (.node i l r)) : NoTies S X (o.child X j) (if turn then l else r) := by
  intro path i' l' r' hsub hne row0 hr f hf _ hff
  exact h (turn :: path) i' l' r' (by cases turn <;> exact hsub) hne row0 hr f hf (by intro h; cases h) hff

theorem newTreeD_reorder {S : GoSort} {X : List (List F)} {p : List Nat} {n : Nat} (hp : p.Perm (List.range n))
    (hrect : ∀ row ∈ X, row.length = n) (d : Nat) (o : TreeOptions F) (t : Tree F)
    (h : newTreeD S X d o = .ok t) (hties : NoTies S X o t) :
    newTreeD S (X.map (reorder p)) d (o.reorder p) = .ok (t.renumber p) ∧ t.SplitsBelow n ∧
      (t.renumber p).branches = t.branches := by
  have hidx : ∀ o : TreeOptions F, (o.reorder p).idx (X.map (reorder p)) = o.idx X := by
    intro o; unfold TreeOptions.idx TreeOptions.reorder; simp
  have hfill : ∀ o : TreeOptions F, (o.reorder p).fill (X.map (reorder p)) = (o.fill X).reorder p := by
    intro o; unfold TreeOptions.fill TreeOptions.reorder; simp
  have hchild : ∀ (o : TreeOptions F) j, (o.reorder p).child (X.map (reorder p)) j = (o.child X j).reorder p := by
    intro o j
    unfold TreeOptions.child
    rw [hfill]
    rfl
  have hnv : ∀ (o : TreeOptions F) j, nodeValue (o.reorder p) j = nodeValue o j := fun _ _ => rfl
  have hget : ∀ row0 : List F, X[0]? = some row0 → (X.map (reorder p))[0]? = some (reorder p row0) ∧ (reorder p row0).length = row0.length := by
    intro row0 hr
    refine ⟨by rw [List.getElem?_map, hr]; rfl, ?_⟩
    rw [hrect row0 (List.mem_of_getElem? hr)]
    simp [reorder, hp.length_eq]
  have hinfo : ∀ (o : TreeOptions F) v m best k, mkInfo (o.reorder p) (X.map (reorder p)) v m best k = mkInfo o X v m best k := by
    intro o v m best k
    unfold mkInfo
    rw [hidx]
    rfl
  induction d generalizing o t with
  | zero =>
    obtain ⟨v, row0, hv, hr, hx, ⟨_, rfl⟩ | ⟨_, best, h0, _⟩ | ⟨d1, best, col, tl, tr, h0, _⟩⟩ :=
      newTreeD_inv _ _ _ _ _ h
    · obtain ⟨hr', hl'⟩ := hget row0 hr
      have := newTreeD_mk_zero (S := S) (X := X.map (reorder p)) (o := o.reorder p) (v := v) (row0 := reorder p row0) hx
        (by rw [hfill, hidx]; exact hv) hr'
      rw [this, hinfo, hl']
      refine ⟨?_, ⟨fun hlf => ?_, trivial, trivial⟩, rfl⟩
      · have : (mkInfo o X v row0.length (best0 o.xgb) 1).leaf = true := leaf_best0 o X v _ _
        simp only [Tree.renumber, this, if_true]
        rfl
      · rw [leaf_best0] at hlf; cases hlf
    · omega
    · omega
  | succ d ih =>
    obtain ⟨v, row0, hv, hr, hx, ⟨h0, _⟩ | ⟨_, best, _, hs, hl, rfl⟩ |
      ⟨d1, best, col, tl, tr, h0, hs, hl, hc, h1, h2, rfl⟩⟩ := newTreeD_inv _ _ _ _ _ h
    · omega
    · obtain ⟨hr', hl'⟩ := hget row0 hr
      have hlen := hrect row0 (List.mem_of_getElem? hr)
      rw [hlen] at hs
      have hnb : betterX o.xgb best.score (best0 o.xgb : Best F).score = false := by
        cases hq : betterX o.xgb best.score (best0 o.xgb : Best F).score with
        | false => rfl
        | true => rw [leaf_better hq] at hl; cases hl
      have hs' := search_reorder hp hrect (best0_self o.xgb) hs (by
        intro f _ _ _ hb
        change betterX o.xgb _ _ = true at hb
        rw [hnb] at hb; cases hb)
      have hren : best.renumber (o.fill X).xgb (best0 o.xgb) p = best := by
        unfold Best.renumber
        rw [show (o.fill X).xgb = o.xgb from rfl, hnb]
        rfl
      rw [hren] at hs'
      have := newTreeD_mk_leaf (S := S) (X := X.map (reorder p)) (o := o.reorder p) (v := v) (row0 := reorder p row0) (d := d)
        (best := best) hx (by rw [hfill, hidx]; exact hv) hr'
        (by rw [hfill, hl', hlen]; exact hs')
        (by rw [hinfo, hl']; exact hl)
      rw [this, hinfo, hl']
      refine ⟨?_, ⟨fun hlf => ?_, trivial, trivial⟩, rfl⟩
      · simp only [Tree.renumber, hl, if_true]
      · rw [hl] at hlf; cases hlf
    · cases h0
      obtain ⟨hr', hl'⟩ := hget row0 hr
      have hlen := hrect row0 (List.mem_of_getElem? hr)
      rw [hlen] at hs
      have hb : betterX o.xgb best.score (best0 o.xgb : Best F).score = true := by
        obtain ⟨h5 | ⟨f, p, rows, A, B, k, x, x', hf, _, _, _, _, hb⟩, _⟩ := searchSplit_spec hs
        · rw [h5, leaf_best0] at hl; cases hl
        · exact hb
      have hfb : best.feature < n := by
        obtain ⟨h5 | ⟨f, p, rows, A, B, k, x, x', hf, _, _, _, hb, _⟩, _⟩ := searchSplit_spec hs
        · rw [h5, leaf_best0] at hl; cases hl
        · rw [hb]; exact hf
      have htl : tl ≠ .nil := by
        rintro rfl
        obtain ⟨_, _, _, _, _, ⟨_, h⟩ | ⟨_, _, _, _, _, h⟩ | ⟨_, _, _, _, _, _, _, _, _, _, _, h⟩⟩ := newTreeD_inv _ _ _ _ _ h1 <;> cases h
      have hs' := search_reorder hp hrect (best0_self o.xgb) hs (by
        intro f hf hal hne _ s hfs
        obtain ⟨b, l', r', e1, e2⟩ := hties [] _ tl tr rfl htl row0 hr f (by omega) (by
          intro _
          unfold columnAllowed at hal
          simp only [Bool.or_eq_true, List.isEmpty_iff, List.contains_iff_mem] at hal
          exact hal) hne
        rw [← oneColumn hr (by omega) e1 hfs]
        exact e2)
      have hren : best.renumber (o.fill X).xgb (best0 o.xgb) p = { best with feature := p.idxOf best.feature } := by
        unfold Best.renumber
        rw [show (o.fill X).xgb = o.xgb from rfl, hb]
        rfl
      rw [hren] at hs'
      obtain ⟨a1, a2, a3⟩ := ih (o.child X (goLeft best.threshold col (o.idx X))) tl h1 (hties.child true _)
      obtain ⟨b1, b2, b3⟩ := ih (o.child X (goRight best.threshold col (o.idx X))) tr h2 (hties.child false _)
      have := newTreeD_mk_node (S := S) (X := X.map (reorder p)) (o := o.reorder p) (v := v) (row0 := reorder p row0) (d := d)
        (best := { best with feature := p.idxOf best.feature }) (col := col) (l := tl.renumber p) (r := tr.renumber p) hx
        (by rw [hfill, hidx]; exact hv) hr'
        (by rw [hfill, hl', hlen]; exact hs')
        (by rw [hinfo, hl']; exact hl) (by rw [hidx]; exact sampleCol_reorder hp hrect hfb hc)
        (by rw [hidx, hchild]; exact a1)
        (by rw [hidx, hchild]; exact b1)
      rw [this, hinfo, hl', a3, b3]
      have hl2 : (mkInfo o X v row0.length best (1 + tl.branches + tr.branches)).leaf = false := hl
      refine ⟨?_, ⟨fun _ => hfb, a2, b2⟩, rfl⟩
      simp only [Tree.renumber, hl2, Bool.false_eq_true, if_false]
      rfl

theorem renumber_predict {t : Tree F} {p : List Nat} {n : Nat} (hp : p.Perm (List.range n)) (h : t.SplitsBelow n) (row : List F)
    (hlen : row.length = n) : (t.renumber p).predictSingle (reorder p row) = t.predictSingle row := by
  induction t with
  | nil => rfl
  | node i l r ihl ihr =>
    obtain ⟨h1, h2, h3⟩ := h
    simp only [Tree.renumber, Tree.predictSingle]
    have hlf : ∀ k, ({ i with splitFeatureIndex := k } : NodeInfo F).leaf = i.leaf := fun _ => rfl
    rw [hlf]
    by_cases hl : i.leaf = true
    · simp [hl]
    · have hl' : i.leaf = false := by simpa using hl
      simp only [hl', Bool.false_eq_true, if_false]
      unfold goIdx
      rw [reorder_get hp hlen (h1 hl'), ihl h2, ihr h3]

omit [GoFloatOrd F] in
theorem renumber_splits {t : Tree F} (p : List Nat) (hc : t.Consistent) :
    (t.renumber p).splits = t.splits.map fun s => (p.idxOf s.1, s.2) := by
  induction t with
  | nil => rfl
  | node i l r ihl ihr =>
    have hl : l.Consistent := fun path => hc (true :: path)
    have hr : r.Consistent := fun path => hc (false :: path)
    rcases hc [] i l r rfl with ⟨_, rfl, rfl⟩ | ⟨h1, h2, h3⟩
    · rfl
    · have e1 := ihl hl
      have e2 := ihr hr
      cases l with
      | nil => exact absurd rfl h2
      | node il ll lr =>
        simp only [Tree.renumber] at e1 ⊢
        simp only [Tree.splits, h1]
        rw [e1, e2]
        simp

/-- what `FeatureImportance` lists, up to the numbering of the columns -/
def SameImportance (p : List Nat) (n : Nat) (items items' : List (Nat × F)) : Prop :=
  (∀ f < n, ∀ v, (f, v) ∈ items ↔ (p.idxOf f, v) ∈ items') ∧ (∀ q ∈ items, q.1 < n) ∧ (∀ q ∈ items', q.1 < n)

omit [GoFloatOrd F] in
theorem totals_renumber {p : List Nat} {n : Nat} (hp : p.Perm (List.range n)) {items items' l : List (Nat × F)}
    (hl : ∀ s ∈ l, s.1 < n) (h : Totals items l) (h' : Totals items' (l.map fun s => (p.idxOf s.1, s.2))) :
    SameImportance p n items items' := by
  have hsc : ∀ f < n, scoresOf (p.idxOf f) (l.map fun s => (p.idxOf s.1, s.2)) = scoresOf f l := by
    intro f hf
    unfold scoresOf
    rw [List.filter_map, List.map_map]
    have : l.filter ((fun q : Nat × F => decide (q.1 = p.idxOf f)) ∘ fun s => (p.idxOf s.1, s.2)) = l.filter fun q => decide (q.1 = f) := by
      apply List.filter_congr
      intro s hs
      simp only [Function.comp, decide_eq_decide]
      exact ⟨fun h => idxOf_inj' hp (hl s hs) h, fun h => by rw [h]⟩
    rw [this]
    rfl
  have hmem : ∀ (items l : List (Nat × F)), Totals items l → ∀ q ∈ items, ∃ s ∈ l, s.1 = q.1 := by
    intro items l h q hq
    have := (h.2 q.1 q.2).1 hq
    cases hs : scoresOf q.1 l with
    | nil => rw [hs] at this; cases this
    | cons a as =>
      have ha : a ∈ scoresOf q.1 l := by rw [hs]; exact List.mem_cons_self
      unfold scoresOf at ha
      obtain ⟨s, h1, _⟩ := List.mem_map.1 ha
      obtain ⟨h2, h3⟩ := List.mem_filter.1 h1
      exact ⟨s, h2, by simpa using h3⟩
  refine ⟨fun f hf v => ?_, fun q hq => ?_, fun q hq => ?_⟩
  · rw [h.2, h'.2, hsc f hf]
  · obtain ⟨s, h1, h2⟩ := hmem _ _ h q hq
    rw [← h2]; exact hl s h1
  · obtain ⟨s, h1, h2⟩ := hmem _ _ h' q hq
    obtain ⟨s0, h3, rfl⟩ := List.mem_map.1 h1
    rw [← h2]; exact idxOf_lt hp (hl s0 h3)

omit [GoFloatOrd F] in
theorem splits_below {t : Tree F} {n : Nat} (hc : t.Consistent) (h : t.SplitsBelow n) : ∀ s ∈ t.splits, s.1 < n := by
  induction t with
  | nil => intro s hs; simp [Tree.splits] at hs
  | node i l r ihl ihr =>
    have hl : l.Consistent := fun path => hc (true :: path)
    have hr : r.Consistent := fun path => hc (false :: path)
    obtain ⟨h1, h2, h3⟩ := h
    intro s hs
    rcases hc [] i l r rfl with ⟨_, rfl, rfl⟩ | ⟨hlf, hne, _⟩
    · simp [Tree.splits] at hs
    · cases l with
      | nil => exact absurd rfl hne
      | node il ll lr =>
        simp only [Tree.splits, List.mem_cons, List.mem_append] at hs
        rcases hs with rfl | hs | hs
        · exact h1 hlf
        · exact ihl hl h2 s (by simpa [Tree.splits] using hs)
        · exact ihr hr h3 s hs

/-- **C102, trees, partial**: if no two columns offer equally good splits at a node, the order of the columns does not matter: for the
data with the columns in another order (and the allowed columns renumbered) `NewTree` returns the same tree with the columns
renumbered, which gives every row, reordered, the same prediction, and the same importance to every column. In any arithmetic with
the IEEE comparison laws. Missing: ties, for which the claim is false (`C102_violated`). -/
theorem C102_tree_partial (S : GoSort) (X : List (List F)) (o : TreeOptions F) (t : Tree F) (h : newTree S X o = .ok t)
    (n : Nat) (hrect : ∀ row ∈ X, row.length = n) (p : List Nat) (hp : p.Perm (List.range n)) (hties : NoTies S X o t) :
    ∃ t', newTree S (X.map (reorder p)) (o.reorder p) = .ok t' ∧ t' = t.renumber p ∧
      (∀ row : List F, row.length = n → t'.predictSingle (reorder p row) = t.predictSingle row) ∧
      (t.splits ≠ [] → ∀ xgb, ∃ fs fs', t.featureImportance S xgb = .ok (some fs) ∧ t'.featureImportance S xgb = .ok (some fs') ∧
        SameImportance p n fs.items fs'.items) := by
  obtain ⟨h1, h2, h3⟩ := newTreeD_reorder hp hrect _ o t h hties
  refine ⟨_, h1, rfl, fun row hrow => renumber_predict hp h2 row hrow, fun hne xgb => ?_⟩
  have hc := consistent_of_newTree h
  obtain ⟨fs, a1, a2, _⟩ := C14_tree S X o t h hne xgb
  have hsp := renumber_splits p hc
  obtain ⟨fs', b1, b2, _⟩ := C14_tree S (X.map (reorder p)) (o.reorder p) (t.renumber p) h1 (by rw [hsp]; simpa using hne) xgb
  rw [hsp] at b2
  exact ⟨fs, fs', a1, b1, totals_renumber hp (splits_below hc h2) a2 b2⟩

/-! ### Models -/

omit [GoFloatOrd F] in
theorem NewtonOf.left {g h : List F} {i i' : NodeInfo F} {l r l' r' : Tree F} (hn : NewtonOf g h (.node i l r) (.node i' l' r')) :
    NewtonOf g h l l' :=
  ⟨fun path => hn.shape (true :: path), fun path => hn.node (true :: path)⟩

omit [GoFloatOrd F] in
theorem NewtonOf.right {g h : List F} {i i' : NodeInfo F} {l r l' r' : Tree F} (hn : NewtonOf g h (.node i l r) (.node i' l' r')) :
    NewtonOf g h r r' :=
  ⟨fun path => hn.shape (false :: path), fun path => hn.node (false :: path)⟩

omit [GoFloatOrd F] in
theorem sub_root {t : Tree F} (h : t.sub [] = .nil) : t = .nil := by
  cases t with
  | nil => rfl
  | node i l r => cases h

omit [GoFloatOrd F] in
theorem NewtonOf.renumber_eq {g h : List F} {p : List Nat} {t0 t t' : Tree F} (h1 : NewtonOf g h t0 t)
    (h2 : NewtonOf g h (t0.renumber p) t') : t' = t.renumber p := by
  induction t0 generalizing t t' with
  | nil =>
    have e1 : t = .nil := sub_root ((h1.shape []).2 rfl)
    have e2 : t' = .nil := sub_root ((h2.shape []).2 rfl)
    rw [e1, e2]; rfl
  | node i l r ihl ihr =>
    cases t with
    | nil => exact absurd ((h1.shape []).1 rfl) (by intro h; cases h)
    | node i1 l1 r1 =>
      cases t' with
      | nil => exact absurd ((h2.shape []).1 rfl) (by intro h; cases h)
      | node i2 l2 r2 =>
        obtain ⟨a1, a2⟩ := h1.node [] i l r i1 l1 r1 rfl rfl
        obtain ⟨b1, b2⟩ := h2.node [] _ _ _ i2 l2 r2 rfl rfl
        rw [Tree.renumber, ihl h1.left h2.left, ihr h1.right h2.right]
        cases hl : i.leaf with
        | true =>
          rw [(a1 hl).2, (b1 hl).2]
          simp only [hl, if_true]
          have : ({ i with value := sumAt g i.samples /. sumAt h i.samples } : NodeInfo F).leaf = true := hl
          rw [this]
          rfl
        | false =>
          rw [a2 hl, b2 hl]

omit [GoFloatOrd F] in
theorem NewtonOf.below {g h : List F} {n : Nat} {t0 t : Tree F} (h1 : NewtonOf g h t0 t) (hb : t0.SplitsBelow n) :
    t.SplitsBelow n := by
  induction t0 generalizing t with
  | nil => rw [show t = .nil from sub_root ((h1.shape []).2 rfl)]; trivial
  | node i l r ihl ihr =>
    cases t with
    | nil => trivial
    | node i1 l1 r1 =>
      obtain ⟨a1, a2⟩ := h1.node [] i l r i1 l1 r1 rfl rfl
      refine ⟨fun hlf => ?_, ihl h1.left hb.2.1, ihr h1.right hb.2.2⟩
      cases hl : i.leaf with
      | true =>
        rw [(a1 hl).2] at hlf
        exact absurd hlf (by rw [show ({ i with value := sumAt g i.samples /. sumAt h i.samples } : NodeInfo F).leaf = true from hl]; simp)
      | false =>
        rw [a2 hl]
        exact hb.1 hl

omit [GoFloatOrd F] in
theorem sub_left_ne {t : Tree F} {path : List Bool} {i : NodeInfo F} {l r : Tree F} (h : t.sub path = .node i l r) :
    t.sub (path ++ [true]) = l ∧ t.sub (path ++ [false]) = r := by
  induction path generalizing t with
  | nil =>
    cases t with
    | nil => cases h
    | node j a c =>
      cases h
      exact ⟨by cases l <;> rfl, by cases r <;> rfl⟩
  | cons b path ih =>
    cases t with
    | nil => simp [Tree.sub] at h
    | node j a c => cases b <;> exact ih h

theorem NewtonOf.noTies {S : GoSort} {X : List (List F)} {o : TreeOptions F} {g h : List F} {t0 t : Tree F}
    (ht : newTree S X o = .ok t0) (h1 : NewtonOf g h t0 t) (hties : NoTies S X o t) : NoTies S X o t0 := by
  intro path i l r hsub hne row0 hr f hf hu hff
  have hlf : i.leaf = false := by
    rcases consistent_of_newTree ht path i l r hsub with ⟨_, rfl, _⟩ | ⟨h1, _⟩
    · exact absurd rfl hne
    · exact h1
  cases hs : t.sub path with
  | nil => rw [(h1.shape path).1 hs] at hsub; cases hsub
  | node i' l' r' =>
    obtain ⟨_, a2⟩ := h1.node path i l r i' l' r' hsub hs
    have := a2 hlf
    subst this
    refine hties path i' l' r' hs ?_ row0 hr f hf hu hff
    rintro rfl
    have e1 := (sub_left_ne hs).1
    have e2 := (sub_left_ne hsub).1
    exact hne (e2.symm.trans ((h1.shape _).1 e1))

/-- `o` are the options for which the tree of round `r` and class `k` of a model was built (`C70_fitted`) -/
def FittedWith (exp : F → F) (draws : Nat → F) (D : DataBunch F) (O : Options F) (M : MultiClass F) (r k : Nat)
    (o : TreeOptions F) : Prop :=
  ∃ lab lv round q g, M.classLabels[k]? = some lab ∧ O.loss = some lv ∧
    (executedRounds D.data O draws O.rounds.toNat)[r]? = some round ∧ ProbsBefore exp M D.data r k q ∧
    (O.xgb = true → lv.fn.gradients (indicator D.labels lab) q = .ok g ∧
      o = xgbTreeOptions O (if rowSub O then some (roundRows D.data O draws round) else none)
          (roundCols D.data O draws round) g (lv.fn.hessian q) (indicator D.labels lab) D.data.length) ∧
    (O.xgb = false → lv.fn.negGradients (indicator D.labels lab) q = .ok g ∧ o = regTreeOptions O g D.data.length)

/-- the tree of round `r` and class `k` -/
def treeAt (b : List (List (Tree F))) (r k : Nat) : Option (Tree F) := b[r]?.bind fun ens => ens[k]?

omit [GoFloatOrd F] in
theorem treesOf_take (b : List (List (Tree F))) (m j : Nat) :
    treesOf (b.take m) j = (List.range m).filterMap fun r => treeAt b r j := by
  induction m with
  | zero => rfl
  | succ m ih =>
    rw [List.range_succ, List.filterMap_append, ← ih, List.take_add_one]
    unfold treesOf
    rw [List.filterMap_append]
    congr 1
    rw [List.filterMap_cons]
    unfold treeAt
    cases b[m]? with
    | none => rfl
    | some ens => simp [List.filterMap_cons]

theorem scoreAfter_renumber {base lr : F} {p : List Nat} {n : Nat} (hp : p.Perm (List.range n)) {ts : List (Tree F)}
    (h : ∀ t ∈ ts, t.SplitsBelow n) {row : List F} (hr : row.length = n) :
    scoreAfter base lr (ts.map (Tree.renumber p)) (reorder p row) = scoreAfter base lr ts row := by
  unfold scoreAfter
  induction ts generalizing base with
  | nil => rfl
  | cons t ts ih =>
    rw [List.map_cons, List.foldlM_cons, List.foldlM_cons, renumber_predict hp (h t List.mem_cons_self) row hr]
    cases t.predictSingle row with
    | error e => rfl
    | ok v => exact ih fun t ht => h t (List.mem_cons_of_mem _ ht)

/-- the trees made before round `r`, class `k` agree -/
def AgreeBefore (p : List Nat) (n : Nat) (b b' : List (List (Tree F))) (r k : Nat) : Prop :=
  ∀ r' j, (r' < r ∨ r' = r ∧ j < k) → treeAt b' r' j = (treeAt b r' j).map (Tree.renumber p) ∧
    ∀ t, treeAt b r' j = some t → t.SplitsBelow n

theorem scoresBefore_renumber {p : List Nat} {n : Nat} (hp : p.Perm (List.range n)) {M M' : MultiClass F}
    (hcl : M'.classLabels = M.classLabels) (hlr : M'.learningRate = M.learningRate) (hbs : M'.baseScore = M.baseScore)
    {r k : Nat} (h : AgreeBefore p n M.b M'.b r k) {row : List F} (hr : row.length = n) :
    scoresBefore M' r k (reorder p row) = scoresBefore M r k row := by
  unfold scoresBefore
  rw [hcl, hlr, hbs]
  congr 1
  funext j
  have hin : ∀ r' < (if j < k then r + 1 else r), r' < r ∨ r' = r ∧ j < k := by
    intro r' hr'
    split at hr' <;> omega
  have e : treesOf (M'.b.take (if j < k then r + 1 else r)) j =
      (treesOf (M.b.take (if j < k then r + 1 else r)) j).map (Tree.renumber p) := by
    rw [treesOf_take, treesOf_take, List.map_filterMap]
    apply List.filterMap_congr
    intro r' hr'
    rw [(h r' j (hin r' (List.mem_range.1 hr'))).1]
  rw [e]
  refine scoreAfter_renumber hp ?_ hr
  intro t ht
  rw [treesOf_take, List.mem_filterMap] at ht
  obtain ⟨r', h1, h2⟩ := ht
  exact (h r' j (hin r' (List.mem_range.1 h1))).2 t h2

theorem probsBefore_unique {exp : F → F} {p : List Nat} {n : Nat} (hp : p.Perm (List.range n)) {M M' : MultiClass F}
    (hcl : M'.classLabels = M.classLabels) (hlr : M'.learningRate = M.learningRate) (hbs : M'.baseScore = M.baseScore)
    {r k : Nat} (h : AgreeBefore p n M.b M'.b r k) {data : List (List F)} (hrect : ∀ row ∈ data, row.length = n) {q q' : List F}
    (h1 : ProbsBefore exp M data r k q) (h2 : ProbsBefore exp M' (data.map (reorder p)) r k q') : q' = q := by
  obtain ⟨a1, a2⟩ := h1
  obtain ⟨b1, b2⟩ := h2
  apply List.ext_getElem?
  intro i
  by_cases hi : i < data.length
  · have hd := List.getElem?_eq_getElem hi
    obtain ⟨s, pr, c1, c2, v, c3, c4⟩ := a2 i _ hd
    obtain ⟨s', pr', d1, d2, v', d3, d4⟩ := b2 i (reorder p data[i]) (by rw [List.getElem?_map, hd]; rfl)
    rw [scoresBefore_renumber hp hcl hlr hbs h (hrect _ (List.getElem_mem hi)), c1] at d1
    cases d1
    rw [c2] at d2
    cases d2
    rw [c3] at d3
    cases d3
    rw [c4, d4]
  · rw [List.length_map] at b1
    rw [List.getElem?_eq_none_iff.2 (by omega), List.getElem?_eq_none_iff.2 (by omega)]

omit [GoFloatOrd F] in
theorem executedRounds_reorder (p : List Nat) (X : List (List F)) (O : Options F) (hcs : colSub O = false) (draws : Nat → F) :
    executedRounds (X.map (reorder p)) O draws O.rounds.toNat = executedRounds X O draws O.rounds.toNat ∧
    (∀ r, roundRows (X.map (reorder p)) O draws r = roundRows X O draws r) ∧
    (∀ r, roundCols (X.map (reorder p)) O draws r = []) ∧ (∀ r, roundCols X O draws r = []) := by
  have h1 : ∀ r, roundRows (X.map (reorder p)) O draws r = roundRows X O draws r := by
    intro r
    unfold roundRows drawsPerRound
    simp [hcs]
  refine ⟨?_, h1, fun r => ?_, fun r => ?_⟩
  · unfold executedRounds sampleCount
    simp only [h1]
  · unfold roundCols
    simp [hcs]
  · unfold roundCols
    simp [hcs]

theorem model_agree {exp : F → F} {S : GoSort} {draws : Nat → F} {D : DataBunch F} {O : Options F} {M M' : MultiClass F}
    {n : Nat} {p : List Nat} (hp : p.Perm (List.range n)) (hrect : ∀ row ∈ D.data, row.length = n)
    (h : newMultiClass exp S draws D O = .ok M)
    (h' : newMultiClass exp S draws { D with data := D.data.map (reorder p) } O = .ok M')
    (hd : D.data.length = D.labels.length) (hb : (O.baseScore *. one) = O.baseScore) (hes : O.earlyStop ≤ 0)
    (hcs : colSub O = false)
    (hties : ∀ r k tree o, treeAt M.b r k = some tree → FittedWith exp draws D O M r k o → NoTies S D.data o tree) :
    ∀ r k, AgreeBefore p n M.b M'.b r k := by
  obtain ⟨_, _, _, m4, m5, m6, m7⟩ := C72_metadata exp S draws D O M h
  obtain ⟨_, _, _, m4', m5', m6', m7'⟩ := C72_metadata exp S draws _ O M' h'
  obtain ⟨c1, c2, c3⟩ := C22_rounds exp S draws D O M h
  obtain ⟨c1', c2', c3'⟩ := C22_rounds exp S draws _ O M' h'
  obtain ⟨x1, x2, x3, x4⟩ := executedRounds_reorder p D.data O hcs draws
  have hcl : M'.classLabels = M.classLabels := by rw [c2, c2']
  have hlr : M'.learningRate = M.learningRate := by rw [m4, m4']
  have hbs : M'.baseScore = M.baseScore := by rw [m5, m5']
  have hlen : M'.b.length = M.b.length := by rw [c1, c1']; exact congrArg List.length x1
  have step : ∀ r k, AgreeBefore p n M.b M'.b r k → treeAt M'.b r k = (treeAt M.b r k).map (Tree.renumber p) ∧
      ∀ t, treeAt M.b r k = some t → t.SplitsBelow n := by
    intro r k hag
    by_cases hr : r < M.b.length
    swap
    · unfold treeAt
      rw [List.getElem?_eq_none_iff.2 (by omega : M.b.length ≤ r), List.getElem?_eq_none_iff.2 (by omega : M'.b.length ≤ r)]
      exact ⟨rfl, fun t ht => by cases ht⟩
    have hr' : r < M'.b.length := by omega
    have e1 := List.getElem?_eq_getElem hr
    have e1' := List.getElem?_eq_getElem hr'
    have l1 := c3 hes _ (List.getElem_mem hr)
    have l1' := c3' hes _ (List.getElem_mem hr')
    by_cases hk : k < M.classLabels.length
    swap
    · unfold treeAt
      rw [hcl] at l1'
      rw [e1, e1']
      simp only [Option.bind_some]
      rw [List.getElem?_eq_none_iff.2 (by omega), List.getElem?_eq_none_iff.2 (by omega)]
      exact ⟨rfl, fun t ht => by cases ht⟩
    have hk1 : k < (M.b[r]).length := by omega
    have hk1' : k < (M'.b[r]).length := by rw [l1', hcl]; exact hk
    have e2 := List.getElem?_eq_getElem hk1
    have e2' := List.getElem?_eq_getElem hk1'
    have t1 : treeAt M.b r k = some (M.b[r])[k] := by unfold treeAt; rw [e1]; exact e2
    have t1' : treeAt M'.b r k = some (M'.b[r])[k] := by unfold treeAt; rw [e1']; exact e2'
    obtain ⟨lab, lv, round, q, f1, f2, f3, f4, f5, f6⟩ := C70_fitted exp S draws D O M h hd hb (c3 hes) r k _ _ e1 e2
    obtain ⟨lab', lv', round', q', g1, g2, g3, g4, g5, g6⟩ := C70_fitted exp S draws _ O M' h'
      (by simpa using hd) hb (c3' hes) r k _ _ e1' e2'
    rw [hcl, f1] at g1
    cases g1
    rw [f2] at g2
    cases g2
    simp only at g3 g4 g5 g6
    rw [x1, f3] at g3
    cases g3
    have hq := probsBefore_unique hp hcl hlr hbs hag hrect f4 g4
    subst hq
    rw [t1, t1']
    generalize (M.b[r])[k] = tree at *
    generalize (M'.b[r])[k] = tree' at *
    simp only [Option.map_some, Option.some.injEq]
    cases hx : O.xgb with
    | true =>
      obtain ⟨g, y1, y2⟩ := f5 hx
      obtain ⟨g', z1, z2⟩ := g5 hx
      rw [y1] at z1
      cases z1
      obtain ⟨w1, w2, _⟩ := newTreeD_reorder hp hrect _ _ tree y2 (hties r k tree _ t1
        ⟨lab, lv, round, q', g, f1, f2, f3, f4, fun _ => ⟨y1, rfl⟩, fun hf => by rw [hx] at hf; cases hf⟩)
      refine ⟨?_, fun t ht => by cases ht; exact w2⟩
      rw [x2, x3, List.length_map] at z2
      rw [x4] at w1
      unfold newTree at z2
      have : (xgbTreeOptions O (if rowSub O then some (roundRows D.data O draws round) else none) [] g (lv.fn.hessian q')
          (indicator D.labels lab) D.data.length).reorder p = xgbTreeOptions O (if rowSub O then some (roundRows D.data O draws round) else none) [] g (lv.fn.hessian q')
          (indicator D.labels lab) D.data.length := rfl
      rw [this] at w1
      exact Except.ok.inj (z2.symm.trans w1)
    | false =>
      obtain ⟨g, t0, y1, y2, y3⟩ := f6 hx
      obtain ⟨g', t0', z1, z2, z3⟩ := g6 hx
      rw [y1] at z1
      cases z1
      have ho := hties r k tree _ t1
        ⟨lab, lv, round, q', g, f1, f2, f3, f4, (fun hf => by rw [hx] at hf; cases hf), fun _ => ⟨y1, rfl⟩⟩
      obtain ⟨w1, w2, _⟩ := newTreeD_reorder hp hrect _ _ t0 y2 (y3.noTies y2 ho)
      rw [List.length_map] at z2
      unfold newTree at z2
      have : (regTreeOptions O g D.data.length).reorder p = regTreeOptions O g D.data.length := rfl
      rw [this] at w1
      have e : t0' = t0.renumber p := Except.ok.inj (z2.symm.trans w1)
      subst e
      exact ⟨y3.renumber_eq z3, fun t ht => by cases ht; exact y3.below w2⟩
  have rounds : ∀ r, AgreeBefore p n M.b M'.b r 0 := by
    intro r
    induction r with
    | zero => intro r' j h; omega
    | succ r ih =>
      have inner : ∀ k, AgreeBefore p n M.b M'.b r k := by
        intro k
        induction k with
        | zero => exact ih
        | succ k ihk =>
          intro r' j hj
          by_cases hjk : r' = r ∧ j = k
          · obtain ⟨rfl, rfl⟩ := hjk
            exact step _ _ ihk
          · exact ihk r' j (by omega)
      intro r' j hj
      exact inner (j + 1) r' j (by omega)
  intro r k r' j hj
  exact rounds (r' + 1) r' j (by omega)

omit [GoFloatOrd F] in
theorem NewtonOf.consistent {g h : List F} {t0 t : Tree F} (h1 : NewtonOf g h t0 t) (hc : t0.Consistent) : t.Consistent := by
  intro path i' l' r' hs
  cases hs0 : t0.sub path with
  | nil => rw [(h1.shape path).2 hs0] at hs; cases hs
  | node i l r =>
    obtain ⟨a1, a2⟩ := h1.node path i l r i' l' r' hs0 hs
    obtain ⟨e1, e2⟩ := sub_left_ne hs
    obtain ⟨e3, e4⟩ := sub_left_ne hs0
    rcases hc path i l r hs0 with ⟨b1, b2, b3⟩ | ⟨b1, b2, b3⟩
    · left
      refine ⟨?_, ?_, ?_⟩
      · rw [(a1 b1).2]; exact b1
      · rw [← e1]; exact (h1.shape _).2 (by rw [e3, b2])
      · rw [← e2]; exact (h1.shape _).2 (by rw [e4, b3])
    · right
      refine ⟨by rw [a2 b1]; exact b1, ?_, ?_⟩
      · intro hh; rw [← e1] at hh; exact b2 (e3.symm.trans ((h1.shape _).1 hh))
      · intro hh; rw [← e2] at hh; exact b3 (e4.symm.trans ((h1.shape _).1 hh))

theorem forall₂_left {α β : Type} {R : α → β → Prop} {l : List α} {l' : List β} (h : List.Forall₂ R l l') :
    ∀ a ∈ l, ∃ b ∈ l', R a b := by
  induction h with
  | nil => intro a ha; cases ha
  | cons h1 _ ih =>
    intro a ha
    rcases List.mem_cons.1 ha with rfl | ha
    · exact ⟨_, List.mem_cons_self, h1⟩
    · obtain ⟨b, hb, hr⟩ := ih a ha
      exact ⟨b, List.mem_cons_of_mem _ hb, hr⟩

omit [GoFloatOrd F] in
/-- what holds of every tree that the training loop can build holds of the trees of a model -/
theorem newMultiClass_trees {exp : F → F} {S : GoSort} {draws : Nat → F} {D : DataBunch F} {O : Options F} {M : MultiClass F}
    {P : Tree F → Prop} (h : newMultiClass exp S draws D O = .ok M)
    (hP : ∀ lf idx cols y p t, classTree S D.data O.fixMcw lf idx cols y p = .ok t → P t) : ∀ ens ∈ M.b, ∀ t ∈ ens, P t := by
  obtain ⟨B, _, hB⟩ := newMultiClass_rel (S2 := S) (data2 := D.data) (TR := fun t1 _ => P t1) (fun _ => rfl)
    (fun _ idx cols _ _ lf y p t1 ht => ⟨t1, ht, hP lf idx cols y p t1 ht, fun _ => rfl⟩) h
  intro ens hens t ht
  obtain ⟨_, _, hE⟩ := forall₂_left hB ens hens
  obtain ⟨_, _, hT⟩ := forall₂_left hE t ht
  exact hT

/-- the trees of trained models are as `FeatureImportance` expects them -/
theorem trained_consistent {exp : F → F} {S : GoSort} {draws : Nat → F} {D : DataBunch F} {O : Options F} {M : MultiClass F}
    (h : newMultiClass exp S draws D O = .ok M) : ∀ ens ∈ M.b, ∀ t ∈ ens, t ≠ .nil ∧ t.Consistent := by
  refine newMultiClass_trees h fun lf idx cols y p t ht => ?_
  unfold classTree at ht
  cases hx : O.fixMcw.xgb with
  | true =>
    rw [hx] at ht
    obtain ⟨g, _, ht⟩ := bind_ok ht
    exact ⟨newTree_ne_nil ht, consistent_of_newTree ht⟩
  | false =>
    rw [hx] at ht
    obtain ⟨g, _, ht⟩ := bind_ok ht
    obtain ⟨t0, h0, hu⟩ := bind_ok ht
    have hn := updateLeaves_newton _ _ _ _ hu
    refine ⟨?_, hn.consistent (consistent_of_newTree h0)⟩
    rintro rfl
    exact newTree_ne_nil h0 (sub_root ((hn.shape []).1 rfl))

/-- **C14, trained models**: `FeatureImportance` of a trained model returns; it lists every feature some tree splits on exactly once,
with the sum of the scores of its splits in all the trees, best first. -/
theorem C14_trained (exp : F → F) (S : GoSort) (draws : Nat → F) (D : DataBunch F) (O : Options F) (M : MultiClass F)
    (h : newMultiClass exp S draws D O = .ok M) :
    ∃ fs, M.featureImportance S = .ok fs ∧ Totals fs.items M.splits ∧
      ((∀ p ∈ fs.items, (p.2 ==. p.2) = true) → BestFirst M.xgb fs.items) :=
  C14_ensemble S M (trained_consistent h)

/-- **C102, models, partial**: if in no tree of the model two columns offer equally good splits at a node, then training on the same
data with the columns in another order gives the same model with the columns renumbered: every row, reordered, gets the same
probabilities and the same class, and every column the same importance. Rows may be subsampled. In any arithmetic with the IEEE
comparison laws. Missing: ties and column subsampling, for which the claim is false (`C102_violated`, `C102_violated_columns`), and models with early
stopping. -/
theorem C102_model_partial (exp : F → F) (S : GoSort) (draws : Nat → F) (D : DataBunch F) (O : Options F) (M M' : MultiClass F)
    (n : Nat) (hrect : ∀ row ∈ D.data, row.length = n) (p : List Nat) (hp : p.Perm (List.range n))
    (h : newMultiClass exp S draws D O = .ok M)
    (h' : newMultiClass exp S draws { D with data := D.data.map (reorder p) } O = .ok M')
    (hd : D.data.length = D.labels.length) (hb : (O.baseScore *. one) = O.baseScore) (hes : O.earlyStop ≤ 0)
    (hcs : colSub O = false)
    (hties : ∀ r k tree o, treeAt M.b r k = some tree → FittedWith exp draws D O M r k o → NoTies S D.data o tree) :
    M' = { M with b := M.b.map fun ens => ens.map (Tree.renumber p) } ∧
    (∀ row : List F, row.length = n → M'.predictSingle (reorder p row) = M.predictSingle row ∧
      M'.predictSingleClass (reorder p row) = M.predictSingleClass row) ∧
    ∃ fs fs', M.featureImportance S = .ok fs ∧ M'.featureImportance S = .ok fs' ∧ SameImportance p n fs.items fs'.items := by
  have hag := model_agree hp hrect h h' hd hb hes hcs hties
  have hbb : M'.b = M.b.map fun ens => ens.map (Tree.renumber p) := by
    obtain ⟨c1, c2, c3⟩ := C22_rounds exp S draws D O M h
    obtain ⟨c1', c2', c3'⟩ := C22_rounds exp S draws _ O M' h'
    obtain ⟨x1, _⟩ := executedRounds_reorder p D.data O hcs draws
    have hlen : M'.b.length = M.b.length := by rw [c1, c1']; exact congrArg List.length x1
    apply List.ext_getElem (by rw [hlen, List.length_map])
    intro r hr' hr
    rw [List.length_map] at hr
    rw [List.getElem_map]
    apply List.ext_getElem?
    intro k
    have := (hag (r + 1) 0 r k (by omega)).1
    unfold treeAt at this
    rw [List.getElem?_eq_getElem hr', List.getElem?_eq_getElem hr] at this
    rw [List.getElem?_map]
    exact this
  have hbelow : ∀ ens ∈ M.b, ∀ t ∈ ens, t.SplitsBelow n := by
    intro ens hens t ht
    obtain ⟨r, hr⟩ := List.mem_iff_getElem?.1 hens
    obtain ⟨k, hk⟩ := List.mem_iff_getElem?.1 ht
    exact (hag (r + 1) 0 r k (by omega)).2 t (by unfold treeAt; rw [hr]; exact hk)
  have hM : M' = { M with b := M.b.map fun ens => ens.map (Tree.renumber p) } := by
    obtain ⟨labels, st, ht, rfl⟩ := newMultiClass_inv h
    obtain ⟨labels', st', ht', rfl⟩ := newMultiClass_inv h'
    obtain ⟨_, hlab, _⟩ := train_inv ht
    obtain ⟨_, hlab', _⟩ := train_inv ht'
    unfold toModel at hbb ⊢
    simp only at hbb hlab'
    rw [hbb, hlab', hlab]
  have hpred : ∀ row : List F, row.length = n → M'.predictSingle (reorder p row) = M.predictSingle row := by
    intro row hrow
    rw [hM]
    refine MultiClass.predict_congr ?_
    rw [List.forall₂_map_right_iff, List.forall₂_same]
    intro ens hens
    rw [List.forall₂_map_right_iff, List.forall₂_same]
    intro t ht
    exact renumber_predict hp (hbelow ens hens t ht) row hrow
  refine ⟨hM, fun row hrow => ⟨hpred row hrow, ?_⟩, ?_⟩
  · unfold MultiClass.predictSingleClass
    rw [hpred row hrow]
  · have hc := trained_consistent h
    obtain ⟨fs, a1, a2, _⟩ := C14_trained exp S draws D O M h
    obtain ⟨fs', b1, b2, _⟩ := C14_trained exp S draws _ O M' h'
    refine ⟨fs, fs', a1, b1, totals_renumber hp ?_ a2 ?_⟩
    · intro s hs
      unfold MultiClass.splits at hs
      simp only [List.mem_flatMap] at hs
      obtain ⟨ens, h1, t, h2, h3⟩ := hs
      exact splits_below (hc ens h1 t h2).2 (hbelow ens h1 t h2) s h3
    · have : M'.splits = M.splits.map fun s => (p.idxOf s.1, s.2) := by
        unfold MultiClass.splits
        rw [hbb, List.map_flatMap, List.flatMap_map]
        apply List.flatMap_congr
        intro ens hens
        rw [List.map_flatMap, List.flatMap_map]
        apply List.flatMap_congr
        intro t ht
        exact renumber_splits p (hc ens hens t ht).2
      rw [this] at b2
      exact b2

/-! ### Ties -/

/-- two rows, two equal columns -/
def twinData : DataBunch F64 :=
  { data := [[.fin 0, .fin 0], [.fin 1, .fin 1]], keys := [], labels := [0, 1], floatLabels := [] }

def twinOptions : Options F64 := { (defaultGOptions 0 : Options F64) with rounds := 1, minChildWeight := .fin 1 }

/-- an increasing positive function in place of the exponential -/
def stepExp (x : F64) : F64 := if zero <. x then .fin 2 else if x <. zero then .fin (1 / 2) else .fin 1

/-- **C102 is violated when two columns tie**: two columns that agree on the training data offer equally good splits, and the first
one is used. Exchanging the columns gives the row `(0, 1)` another class. -/
theorem C102_violated :
    ∃ M M' : MultiClass F64, newMultiClass stepExp GoSort.ins (fun _ => .fin 0) twinData twinOptions = .ok M ∧
      newMultiClass stepExp GoSort.ins (fun _ => .fin 0) { twinData with data := twinData.data.map (reorder [1, 0]) } twinOptions = .ok M' ∧
      M.predictSingleClass [.fin 0, .fin 1] = .ok 0 ∧ M'.predictSingleClass (reorder [1, 0] [.fin 0, .fin 1]) = .ok 1 := by
  have h : (match newMultiClass stepExp GoSort.ins (fun _ => .fin 0) twinData twinOptions,
      newMultiClass stepExp GoSort.ins (fun _ => .fin 0) { twinData with data := twinData.data.map (reorder [1, 0]) } twinOptions with
    | .ok M, .ok M' => decide (M.predictSingleClass [.fin 0, .fin 1] = .ok 0 ∧
        M'.predictSingleClass (reorder [1, 0] [.fin 0, .fin 1]) = .ok 1)
    | _, _ => false) = true := by decide +kernel
  split at h
  · rename_i M M' hM hM'
    exact ⟨M, M', hM, hM', of_decide_eq_true h⟩
  · cases h

/-- two rows that differ in the first column -/
def oneGoodColumn : DataBunch F64 :=
  { data := [[.fin 0, .fin 5], [.fin 1, .fin 5]], keys := [], labels := [0, 1], floatLabels := [] }

/-- xgboost on half of the columns -/
def halfColumns : Options F64 :=
  { (defaultXOptions 0 : Options F64) with
      subSample := .fin 1, colSubSample := .fin (1 / 2), earlyStop := 0, minSample := 0, rounds := 1, baseScore := .fin 0,
      minChildWeight := .fin 1, lambda := .fin 0, gamma := .fin 0 }

/-- draws for which the first column is taken and the second is not -/
def firstColumn (n : Nat) : F64 := if n % 2 = 0 then .fin 0 else .fin (3 / 4)

/-- **C102 is violated with column subsampling**: the draws are for the positions of the columns. With the columns in one order the column that tells
the classes apart is in the sample, in the other it is not. -/
theorem C102_violated_columns :
    ∃ M M' : MultiClass F64, newMultiClass stepExp GoSort.ins firstColumn oneGoodColumn halfColumns = .ok M ∧
      newMultiClass stepExp GoSort.ins firstColumn { oneGoodColumn with data := oneGoodColumn.data.map (reorder [1, 0]) } halfColumns = .ok M' ∧
      M.predictSingleClass [.fin 1, .fin 5] = .ok 1 ∧ M'.predictSingleClass (reorder [1, 0] [.fin 1, .fin 5]) = .ok 0 := by
  have h : (match newMultiClass stepExp GoSort.ins firstColumn oneGoodColumn halfColumns,
      newMultiClass stepExp GoSort.ins firstColumn { oneGoodColumn with data := oneGoodColumn.data.map (reorder [1, 0]) } halfColumns with
    | .ok M, .ok M' => decide (M.predictSingleClass [.fin 1, .fin 5] = .ok 1 ∧
        M'.predictSingleClass (reorder [1, 0] [.fin 1, .fin 5]) = .ok 0)
    | _, _ => false) = true := by decide +kernel
  split at h
  · rename_i M M' hM hM'
    exact ⟨M, M', hM, hM', of_decide_eq_true h⟩
  · cases h

/-! ### The hypotheses are met -/

/-- are there ties? -/
def noTiesB (S : GoSort) (X : List (List F)) (n : Nat) (o : TreeOptions F) : Tree F → Bool
  | .nil => true
  | .node _ .nil _ => true
  | .node i l r =>
    ((List.range n).all fun f => !(o.allowedColumns.isEmpty || o.allowedColumns.contains f) || f == i.splitFeatureIndex ||
      match newTree S X { o with indexes := some i.samples, scratch := none, allowedColumns := [f], maxDepth := 1 } with
      | .ok (.node b _ _) => !(b.bestScoreSoFar ==. i.bestScoreSoFar)
      | _ => false) &&
    noTiesB S X n { o with allowedColumns := [] } l && noTiesB S X n { o with allowedColumns := [] } r

omit [GoFloatOrd F] in
theorem noTiesB_spec {S : GoSort} {X : List (List F)} {n : Nat} {o : TreeOptions F} {t : Tree F}
    (hn : ∀ row0, X[0]? = some row0 → row0.length = n) (hc : t.Consistent) (h : noTiesB S X n o t = true) : NoTies S X o t := by
  induction t generalizing o with
  | nil => intro path i l r hsub; cases path <;> cases hsub
  | node i l r ihl ihr =>
    intro path i' l' r' hsub hne row0 hr f hf hu hff
    cases hl : l with
    | nil =>
      rcases hc [] i l r rfl with ⟨_, rfl, rfl⟩ | ⟨_, h2, _⟩
      · cases path with
        | nil => cases hsub; exact absurd rfl hne
        | cons b path => cases b <;> cases path <;> cases hsub
      · exact absurd hl h2
    | node li ll lr =>
      have hk : ((List.range n).all fun f => !(o.allowedColumns.isEmpty || o.allowedColumns.contains f) || f == i.splitFeatureIndex ||
          match newTree S X { o with indexes := some i.samples, scratch := none, allowedColumns := [f], maxDepth := 1 } with
          | .ok (.node b _ _) => !(b.bestScoreSoFar ==. i.bestScoreSoFar)
          | _ => false) = true ∧ noTiesB S X n { o with allowedColumns := [] } l = true ∧
          noTiesB S X n { o with allowedColumns := [] } r = true := by
        rw [hl] at h ⊢
        rw [noTiesB] at h
        · simpa only [Bool.and_eq_true, and_assoc] using h
        · intro hh; cases hh
      obtain ⟨k1, k2, k3⟩ := hk
      cases path with
      | nil =>
        cases hsub
        rw [List.all_eq_true] at k1
        have := k1 f (List.mem_range.2 (by rw [← hn row0 hr]; exact hf))
        simp only [Bool.or_eq_true, Bool.not_eq_true', beq_iff_eq] at this
        rcases this with (h1 | h1) | h1
        · rcases hu rfl with h2 | h2
          · rw [h2] at h1; cases h1
          · have : o.allowedColumns.contains f = true := List.contains_iff_mem.2 h2
            simp [h2] at h1
        · exact absurd h1 hff
        · split at h1
          · rename_i b l2 r2 hb
            exact ⟨b, l2, r2, hb, by simpa using h1⟩
          · cases h1
      | cons b path =>
        have hlc : l.Consistent := fun path => hc (true :: path)
        have hrc : r.Consistent := fun path => hc (false :: path)
        cases b with
        | true => exact ihl hlc k2 path i' l' r' hsub hne row0 hr f hf (fun _ => Or.inl rfl) hff
        | false => exact ihr hrc k3 path i' l' r' hsub hne row0 hr f hf (fun _ => Or.inl rfl) hff

/-- the probabilities of class `k` that the trees before round `r`, class `k` give to the rows -/
def probsOf (exp : F → F) (M : MultiClass F) (data : List (List F)) (r k : Nat) : Go (List F) :=
  data.mapM fun row => do
    let s ← scoresBefore M r k row
    let probs ← softMax exp s none
    goIdx probs k

omit [GoFloatOrd F] in
theorem probsOf_eq {exp : F → F} {M : MultiClass F} {data : List (List F)} {r k : Nat} {q : List F}
    (h : ProbsBefore exp M data r k q) : probsOf exp M data r k = .ok q := by
  obtain ⟨h1, h2⟩ := h
  unfold probsOf
  induction data generalizing q with
  | nil => rw [List.length_eq_zero_iff.1 h1]; rfl
  | cons row data ih =>
    obtain ⟨s, probs, a1, a2, v, a3, a4⟩ := h2 0 row rfl
    cases q with
    | nil => cases a4
    | cons w q =>
      cases a4
      rw [List.mapM_cons, a1]
      simp only [bind, Except.bind, a2, goIdx, a3]
      have := ih (q := q) (by simpa using h1) fun i row hi => h2 (i + 1) row hi
      simp only [bind, Except.bind, goIdx] at this
      rw [this]
      rfl

/-- are there ties in one of the trees of the model? -/
def modelNoTies (exp : F → F) (S : GoSort) (draws : Nat → F) (D : DataBunch F) (O : Options F) (n : Nat) (M : MultiClass F) : Bool :=
  (List.range M.b.length).all fun r => (List.range M.classLabels.length).all fun k =>
    match treeAt M.b r k, M.classLabels[k]?, O.loss, (executedRounds D.data O draws O.rounds.toNat)[r]?, probsOf exp M D.data r k with
    | some t, some lab, some lv, some round, .ok q =>
      if O.xgb then
        match lv.fn.gradients (indicator D.labels lab) q with
        | .ok g => noTiesB S D.data n (xgbTreeOptions O (if rowSub O then some (roundRows D.data O draws round) else none)
          (roundCols D.data O draws round) g (lv.fn.hessian q) (indicator D.labels lab) D.data.length) t
        | .error _ => false
      else
        match lv.fn.negGradients (indicator D.labels lab) q with
        | .ok g => noTiesB S D.data n (regTreeOptions O g D.data.length) t
        | .error _ => false
    | _, _, _, _, _ => false

theorem modelNoTies_spec {exp : F → F} {S : GoSort} {draws : Nat → F} {D : DataBunch F} {O : Options F} {n : Nat} {M : MultiClass F}
    (h : newMultiClass exp S draws D O = .ok M) (hrect : ∀ row ∈ D.data, row.length = n) (hes : O.earlyStop ≤ 0)
    (hn : modelNoTies exp S draws D O n M = true) :
    ∀ r k tree o, treeAt M.b r k = some tree → FittedWith exp draws D O M r k o → NoTies S D.data o tree := by
  intro r k tree o ht ⟨lab, lv, round, q, g, f1, f2, f3, f4, f5, f6⟩
  have ht0 := ht
  unfold treeAt at ht
  cases hr : M.b[r]? with
  | none => rw [hr] at ht; cases ht
  | some ens =>
    rw [hr] at ht
    have hmem := List.mem_of_getElem? hr
    have hc := (trained_consistent h ens hmem tree (List.mem_of_getElem? ht)).2
    have hlen := (C22_rounds exp S draws D O M h).2.2 hes ens hmem
    have hk : k < M.classLabels.length := by rw [← hlen]; exact (List.getElem?_eq_some_iff.1 ht).1
    unfold modelNoTies at hn
    rw [List.all_eq_true] at hn
    have hn := hn r (List.mem_range.2 (List.getElem?_eq_some_iff.1 hr).1)
    rw [List.all_eq_true] at hn
    have hn := hn k (List.mem_range.2 hk)
    rw [ht0, f1, f2, f3, probsOf_eq f4] at hn
    simp only at hn
    have hrow : ∀ row0, D.data[0]? = some row0 → row0.length = n := fun row0 h0 => hrect row0 (List.mem_of_getElem? h0)
    cases hx : O.xgb with
    | true =>
      obtain ⟨e1, rfl⟩ := f5 hx
      rw [if_pos hx, e1] at hn
      exact noTiesB_spec hrow hc hn
    | false =>
      obtain ⟨e1, rfl⟩ := f6 hx
      rw [if_neg (by simp [hx]), e1] at hn
      exact noTiesB_spec hrow hc hn

/-- six rows, two columns -/
def orderData : DataBunch F64 :=
  ⟨[[.fin 3, .fin 0], [.fin 2, .fin 4], [.fin 1, .fin 3], [.fin 4, .fin 1], [.fin 2, .fin 3], [.fin 4, .fin 0]], [], [0, 0, 1, 1, 1, 0], []⟩

/-- two rounds of regular boosting: trees that split on both columns -/
def orderG : Options F64 := { (defaultGOptions 0 : Options F64) with rounds := 2, minChildWeight := .fin 1, maxDepth := 2 }

/-- two rounds of xgboost with row subsampling -/
def orderXgb : Options F64 := { mixOptions with earlyStop := 0, learningRate := .fin 1, maxDepth := 2 }

/-- the hypotheses of `C102_model_partial` are met, by trees with splits -/
example : ∀ O ∈ [orderG, orderXgb], (O.baseScore *. one) = O.baseScore ∧ O.earlyStop ≤ 0 ∧ colSub O = false ∧
    ∃ M M', newMultiClass stepExp GoSort.ins (fun _ => .fin 0) orderData O = .ok M ∧
      newMultiClass stepExp GoSort.ins (fun _ => .fin 0) { orderData with data := orderData.data.map (reorder [1, 0]) } O = .ok M' ∧
      (∀ r k tree o, treeAt M.b r k = some tree → FittedWith stepExp (fun _ => .fin 0) orderData O M r k o →
        NoTies GoSort.ins orderData.data o tree) ∧ 8 ≤ M.splits.length := by
  intro O hO
  have h : ∀ O ∈ [orderG, orderXgb], ((O.baseScore *. one) = O.baseScore ∧ O.earlyStop ≤ 0 ∧ colSub O = false) ∧
      (match newMultiClass stepExp GoSort.ins (fun _ => .fin 0) orderData O,
        newMultiClass stepExp GoSort.ins (fun _ => .fin 0) { orderData with data := orderData.data.map (reorder [1, 0]) } O with
      | .ok M, .ok _ => modelNoTies stepExp GoSort.ins (fun _ => .fin 0) orderData O 2 M && decide (8 ≤ M.splits.length)
      | _, _ => false) = true := by decide +kernel
  obtain ⟨⟨h1, h2, h3⟩, h⟩ := h O hO
  refine ⟨h1, h2, h3, ?_⟩
  split at h
  · rename_i M M' hM hM'
    rw [Bool.and_eq_true] at h
    exact ⟨M, M', hM, hM', modelNoTies_spec hM (by decide +kernel) h2 h.1, of_decide_eq_true h.2⟩
  · cases h

/-- the hypotheses of `C102_tree_partial` are met -/
example : ∃ t : Tree F64, newTree GoSort.ins orderData.data { regTreeOptions orderG [.fin 0, .fin 0, .fin 1, .fin 1, .fin 1, .fin 0] 6 with
      allowedColumns := [0, 1] } = .ok t ∧
    NoTies GoSort.ins orderData.data { regTreeOptions orderG [.fin 0, .fin 0, .fin 1, .fin 1, .fin 1, .fin 0] 6 with
      allowedColumns := [0, 1] } t ∧ 2 ≤ t.splits.length := by
  have h : (match newTree GoSort.ins orderData.data
      { (regTreeOptions orderG [.fin 0, .fin 0, .fin 1, .fin 1, .fin 1, .fin 0] 6 : TreeOptions F64) with allowedColumns := [0, 1] } with
    | .ok t => noTiesB GoSort.ins orderData.data 2
        { (regTreeOptions orderG [.fin 0, .fin 0, .fin 1, .fin 1, .fin 1, .fin 0] 6 : TreeOptions F64) with allowedColumns := [0, 1] } t &&
        decide (2 ≤ t.splits.length)
    | .error _ => false) = true := by decide +kernel
  split at h
  · rename_i t ht
    rw [Bool.and_eq_true] at h
    exact ⟨t, ht, noTiesB_spec (by decide +kernel) (consistent_of_newTree ht) h.1, of_decide_eq_true h.2⟩
  · cases h

example : [1, 0].Perm (List.range 2) := by decide

end Boo
