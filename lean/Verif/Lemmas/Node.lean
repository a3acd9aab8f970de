import Verif.Lemmas.Split
import Verif.Props.Tree

namespace Boo
open GoFloat
set_option linter.unusedSectionVars false
variable {F : Type} [GoFloat F]

theorem Tree.sub_append (t : Tree F) (p q : List Bool) : t.sub (p ++ q) = (t.sub p).sub q := by
  induction p generalizing t with
  | nil => simp [Tree.sub]
  | cons b p ih =>
    cases t with
    | nil =>
      have hn : ∀ q : List Bool, (Tree.nil : Tree F).sub q = .nil := by intro q; cases q <;> rfl
      rw [hn, hn, hn]
    | node i l r => cases b <;> simpa [Tree.sub] using ih _

/-- `(a + b) / 2` as computed -/
def mid (a b : F) : F := (a +. b) /. ofRat 2

/-- what is known about the best split found at a node -/
structure SplitCut (S : GoSort) (X : List (List F)) (o : TreeOptions F) (best : Best F) where
  col : List F
  p : ScanParams F
  rows : List (F × F × F)
  A : F
  B : F
  k : Nat
  x : F
  x' : F
  hcol : sampleCol X (o.idx X) best.feature = .ok col
  hscan : ScanOf S X (o.fill X) best.feature p rows A B
  hcand : Cand p rows 0 (o.idx X).length k x x'
  hscore : best.score = candGain p rows 0 (o.idx X).length zero A zero B k
  hthr : best.threshold = mid x x'
  hbetter : betterX o.xgb best.score (score0 o.xgb) = true
  hallowed : columnAllowed o best.feature = true

/-- what is known about a node that was split -/
structure SplitNode (S : GoSort) (X : List (List F)) (o : TreeOptions F) (i : NodeInfo F)
    (l r : Tree F) extends SplitCut S X o ⟨i.bestScoreSoFar, i.splitFeatureIndex, i.threshold⟩ where
  d : Nat
  hl : newTreeD S X d (o.child X (goLeft i.threshold col (o.idx X))) = .ok l
  hr : newTreeD S X d (o.child X (goRight i.threshold col (o.idx X))) = .ok r
  hsamples : i.samples = o.idx X
  hfeat : i.splitFeatureIndex < i.features

theorem mkInfo_samples {S : GoSort} {X : List (List F)} {d : Nat} {o : TreeOptions F}
    {i : NodeInfo F} {l r : Tree F} (h : newTreeD S X d o = .ok (.node i l r)) :
    i.samples = o.idx X ∧ i.nsamples = (o.idx X).length ∧ i.xgb = o.xgb ∧
    nodeValue (o.fill X) (o.idx X) = .ok i.value ∧
    ∃ row0, X[0]? = some row0 ∧ i.features = row0.length := by
  obtain ⟨v, row0, hv, hr, _, ⟨_, h2⟩ | ⟨_, best, _, _, _, h2⟩ |
    ⟨_, best, col, tl, tr, _, hs, hlf, _, h3, h4, h2⟩⟩ := newTreeD_inv _ _ _ _ _ h <;>
  · cases h2
    exact ⟨rfl, rfl, rfl, hv, row0, hr, rfl⟩

theorem splitNode [GoFloatOrd F] {S : GoSort} {X : List (List F)} {d : Nat} {o : TreeOptions F}
    {i : NodeInfo F} {l r : Tree F} (h : newTreeD S X d o = .ok (.node i l r))
    (hl : l ≠ .nil) : ∃ _ : SplitNode S X o i l r, True := by
  obtain ⟨v, row0, hv, hr0, _, ⟨_, h2⟩ | ⟨_, best, _, _, _, h2⟩ |
    ⟨d', best, col, tl, tr, _, hs, hlf, hc, h3, h4, h2⟩⟩ := newTreeD_inv _ _ _ _ _ h
  · cases h2; exact absurd rfl hl
  · cases h2; exact absurd rfl hl
  · cases h2
    obtain ⟨h5 | ⟨f, p, rows, A, B, k, x, x', hf, ha, hsc, hcd, hb, hbt⟩, _⟩ := searchSplit_spec hs
    · rw [h5, leaf_best0] at hlf; cases hlf
    · subst hb
      exact ⟨⟨⟨col, p, rows, A, B, k, x, x', hc, hsc, hcd, rfl, rfl, hbt, ha⟩, d', h3, h4, rfl, hf⟩, trivial⟩

/-- a leaf: either the depth is exhausted or no candidate was better than the start value -/
theorem leafNode [GoFloatOrd F] {S : GoSort} {X : List (List F)} {d : Nat} {o : TreeOptions F}
    {i : NodeInfo F} (h : newTreeD S X d o = .ok (.node i .nil .nil)) :
    d = 0 ∨ ∃ row0, X[0]? = some row0 ∧
      ∀ f, f < row0.length → columnAllowed o f = true →
        ∃ p rows A B, ScanOf S X (o.fill X) f p rows A B ∧
        ∀ k x x', Cand p rows 0 (o.idx X).length k x x' →
        betterX o.xgb (candGain p rows 0 (o.idx X).length zero A zero B k) (score0 o.xgb) = false := by
  obtain ⟨v, row0, hv, hr0, _, ⟨hd, h2⟩ | ⟨_, best, _, hs, hlf, h2⟩ |
    ⟨d', best, col, tl, tr, _, hs, hlf, hc, h3, h4, h2⟩⟩ := newTreeD_inv _ _ _ _ _ h
  · exact Or.inl hd
  · right
    refine ⟨row0, hr0, ?_⟩
    obtain ⟨h5, h6⟩ := searchSplit_spec hs
    have hb : best = best0 o.xgb := by
      rcases h5 with h5 | ⟨f, p, rows, A, B, k, x, x', hf, ha, hsc, hcd, hb, hbt⟩
      · exact h5
      · have := leaf_of_better o X v row0.length 1 best hbt
        rw [hlf] at this; cases this
    rw [hb] at h6
    exact h6
  · cases h2
    exact absurd rfl (newTree_ne_nil h3)

/-- the best split of a split node beats every candidate -/
theorem splitNode_opt [GoFloatOrd F] {S : GoSort} {X : List (List F)} {d : Nat} {o : TreeOptions F}
    {i : NodeInfo F} {l r : Tree F} (h : newTreeD S X d o = .ok (.node i l r))
    (hl : l ≠ .nil) :
    ∃ row0, X[0]? = some row0 ∧
      ∀ f, f < row0.length → columnAllowed o f = true →
        ∃ p rows A B, ScanOf S X (o.fill X) f p rows A B ∧
        ∀ k x x', Cand p rows 0 (o.idx X).length k x x' →
        betterX o.xgb (candGain p rows 0 (o.idx X).length zero A zero B k) i.bestScoreSoFar = false := by
  obtain ⟨v, row0, hv, hr0, _, ⟨_, h2⟩ | ⟨_, best, _, _, _, h2⟩ |
    ⟨d', best, col, tl, tr, _, hs, hlf, hc, h3, h4, h2⟩⟩ := newTreeD_inv _ _ _ _ _ h
  · cases h2; exact absurd rfl hl
  · cases h2; exact absurd rfl hl
  · cases h2
    exact ⟨row0, hr0, (searchSplit_spec hs).2⟩

/-- column values of the sampled rows are values of `X` -/
theorem sampleCol_mem {X : List (List F)} {idx : List Nat} {f : Nat} {col : List F}
    (h : sampleCol X idx f = .ok col) {v : F} (hv : v ∈ col) :
    ∃ row ∈ X, row[f]? = some v := by
  have h1 := sampleCol_ok h
  clear h
  induction h1 with
  | nil => simp at hv
  | cons h2 h3 ih =>
    rcases List.mem_cons.1 hv with rfl | hv
    · obtain ⟨row, hr, hrv⟩ := h2
      exact ⟨row, List.mem_of_getElem? hr, hrv⟩
    · exact ih hv

/-- a successful search that found something -/
theorem splitCut [GoFloatOrd F] {S : GoSort} {X : List (List F)} {o : TreeOptions F} {best : Best F}
    {n : Nat} {col : List F} (hs : searchSplit S X (o.fill X) n (best0 o.xgb) = .ok best)
    (hne : best ≠ best0 o.xgb) (hc : sampleCol X (o.idx X) best.feature = .ok col) :
    ∃ s : SplitCut S X o best, s.col = col := by
  obtain ⟨h5 | ⟨f, p, rows, A, B, k, x, x', hf, ha, hsc, hcd, hb, hbt⟩, _⟩ := searchSplit_spec hs
  · exact absurd h5 hne
  · subst hb
    exact ⟨⟨col, p, rows, A, B, k, x, x', hc, hsc, hcd, rfl, rfl, hbt, ha⟩, rfl⟩

/-- The facts about the cut of a split node, when column values are not NaN. -/
theorem SplitCut.cut [GoFloatOrd F] {S : GoSort} {X : List (List F)} {o : TreeOptions F}
    {best : Best F} (s : SplitCut S X o best)
    (hnan : ∀ row ∈ X, ∀ v ∈ row, (v ==. v) = true) :
    s.rows.map (·.1) = (argSort S s.col).2 ∧ s.rows.length = (o.idx X).length ∧
    (s.rows.map (·.1)).Pairwise (fun a b => (a <=. b) = true) ∧
    (s.x <. s.x') = true ∧ s.k < s.rows.length ∧
    (∃ row ∈ X, row[best.feature]? = some s.x) ∧
    (∃ row ∈ X, row[best.feature]? = some s.x') := by
  obtain ⟨col, hc, hrows, hlen, _⟩ := s.hscan.rows
  have : (o.fill X).indexes.getD [] = o.idx X := rfl
  rw [this, s.hcol] at hc
  cases hc
  have hcl := sampleCol_length s.hcol
  have hcn : ∀ v ∈ s.col, (v ==. v) = true := by
    intro v hv
    obtain ⟨row, hr, hrv⟩ := sampleCol_mem s.hcol hv
    exact hnan row hr v (List.mem_of_getElem? hrv)
  have hsorted := sorted_vals S s.col hcn
  rw [← hrows] at hsorted
  obtain ⟨c1, c2, c3, c4, c5, c6⟩ := s.hcand
  obtain ⟨q, hq, hqx⟩ := Option.map_eq_some_iff.1 c2
  obtain ⟨q', hq', hqx'⟩ := Option.map_eq_some_iff.1 c3
  have hk : s.k < s.rows.length := by
    by_contra hcon; rw [List.getElem?_eq_none (by omega)] at hq'; cases hq'
  have hmem : ∀ q ∈ s.rows, q.1 ∈ s.col := by
    intro q hq
    have : q.1 ∈ s.rows.map (·.1) := List.mem_map_of_mem hq
    rw [hrows] at this
    unfold argSort at this
    simp only [List.mem_map] at this
    obtain ⟨⟨v, j⟩, hvj, hve⟩ := this
    have := (S.perm _ _).mem_iff.1 hvj
    rw [← hve]
    exact (List.of_mem_zip this).1
  have hxm := hmem q (List.mem_of_getElem? hq)
  have hxm' := hmem q' (List.mem_of_getElem? hq')
  rw [hqx] at hxm
  rw [hqx'] at hxm'
  have hlt : (s.x <. s.x') = true := by
    refine flt_of_le_of_ne ?_ c6
    rw [List.pairwise_map, List.pairwise_iff_getElem] at hsorted
    have := hsorted (s.k - 1) s.k (by omega) hk (by omega)
    rw [List.getElem?_eq_getElem (by omega)] at hq hq'
    cases hq; cases hq'
    rw [hqx, hqx'] at this
    exact this
  exact ⟨hrows, by omega, hsorted, hlt, hk, sampleCol_mem s.hcol hxm, sampleCol_mem s.hcol hxm'⟩

/-- counts on both sides -/
theorem SplitCut.count_col [GoFloatOrd F] {S : GoSort} {X : List (List F)} {o : TreeOptions F}
    {best : Best F} (s : SplitCut S X o best)
    (hrows : s.rows.map (·.1) = (argSort S s.col).2) (P : F → Bool) :
    s.col.countP P = s.rows.countP (fun q => P q.1) := by
  have h1 : s.rows.countP (fun q => P q.1) = (s.rows.map (·.1)).countP P := by
    rw [List.countP_map]; rfl
  rw [h1, hrows]
  have h2 : ((argSort S s.col).2).Perm s.col := by
    unfold argSort
    simp only
    have := (S.perm idLess (s.col.zip (List.range s.col.length))).map Prod.fst
    rw [List.map_fst_zip (by simp)] at this
    exact this
  exact (h2.countP_eq P).symm

theorem SplitCut.left_count [GoFloatOrd F] {S : GoSort} {X : List (List F)} {o : TreeOptions F}
    {best : Best F} (s : SplitCut S X o best)
    (hnan : ∀ row ∈ X, ∀ v ∈ row, (v ==. v) = true) (hm : (s.x <=. mid s.x s.x') = true) :
    s.k ≤ (goLeft best.threshold s.col (o.idx X)).length := by
  obtain ⟨h1, h2, h3, h4, h5, _⟩ := s.cut hnan
  rw [goLeft_length _ _ _ (sampleCol_length s.hcol), s.count_col h1, s.hthr]
  have hc := cut_left s.rows s.k s.x (mid s.x s.x') h3 s.hcand.1 s.hcand.2.1 hm
  conv_rhs => rw [← List.take_append_drop s.k s.rows]
  rw [List.countP_append]
  have := List.countP_eq_length.2 hc
  rw [List.length_take] at this
  omega

theorem SplitCut.right_count [GoFloatOrd F] {S : GoSort} {X : List (List F)} {o : TreeOptions F}
    {best : Best F} (s : SplitCut S X o best)
    (hnan : ∀ row ∈ X, ∀ v ∈ row, (v ==. v) = true) (hm : (mid s.x s.x' <. s.x') = true) :
    (o.idx X).length - s.k ≤ (goRight best.threshold s.col (o.idx X)).length := by
  obtain ⟨h1, h2, h3, h4, h5, _⟩ := s.cut hnan
  rw [goRight_length _ _ _ (sampleCol_length s.hcol), s.count_col h1 (fun v => !(v <=. best.threshold)), s.hthr]
  have hc := cut_right s.rows s.k s.x' (mid s.x s.x') h3 s.hcand.2.2.1 hm
  conv_rhs => rw [← List.take_append_drop s.k s.rows]
  rw [List.countP_append]
  have : (s.rows.drop s.k).countP (fun q => !(q.1 <=. mid s.x s.x')) = (s.rows.drop s.k).length :=
    List.countP_eq_length.2 (fun q hq => by rw [hc q hq]; rfl)
  rw [List.length_drop] at this
  omega

end Boo
