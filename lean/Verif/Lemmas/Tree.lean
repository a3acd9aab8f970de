import Verif.Model.Tree
import Verif.Lemmas.XF

namespace Boo
open GoFloat
set_option linter.unusedSectionVars false
variable {F : Type} [GoFloat F]

/-- the index list a tree is built from -/
def TreeOptions.idx (o : TreeOptions F) (X : List (List F)) : List Nat :=
  o.indexes.getD (List.range X.length)

/-- options handed to a child with index list `i` -/
def TreeOptions.child (o : TreeOptions F) (X : List (List F)) (i : List Nat) : TreeOptions F :=
  { (o.fill X).clone with maxDepth := o.maxDepth - 1, indexes := some i, scratch := (o.fill X).scratch }

/-- score before any split is considered -/
def score0 (xgb : Bool) : F := if xgb then zero else posInf

theorem TreeOptions.fill_idx (o : TreeOptions F) (X : List (List F)) :
    (o.fill X).indexes.getD [] = o.idx X := rfl

/-- the fields of the node created by `NewTree`, given the best split and the branches -/
def mkInfo (o : TreeOptions F) (X : List (List F)) (value : F) (features : Nat) (best : Best F)
    (branches : Nat) : NodeInfo F :=
  { samples := o.idx X, bestScoreSoFar := best.score, value := value, nsamples := (o.idx X).length,
    features := features, splitFeatureIndex := best.feature, threshold := best.threshold,
    xgb := o.xgb, branches := branches }

def best0 (xgb : Bool) : Best F := ⟨score0 xgb, 0, zero⟩

/-- rows of the node that go left / right for a column of values -/
def goLeft (thr : F) (col : List F) (idx : List Nat) : List Nat :=
  ((col.zip idx).filter fun p => p.1 <=. thr).map Prod.snd
def goRight (thr : F) (col : List F) (idx : List Nat) : List Nat :=
  ((col.zip idx).filter fun p => !(p.1 <=. thr)).map Prod.snd

/-- Inversion of a successful `NewTree`. -/
theorem newTreeD_inv (S : GoSort) (X : List (List F)) (d : Nat) (o : TreeOptions F) (t : Tree F)
    (h : newTreeD S X d o = .ok t) :
    ∃ value row0, nodeValue (o.fill X) (o.idx X) = .ok value ∧ X[0]? = some row0 ∧
    (o.xgb && o.gradients.isNone && o.hessian.isNone) = false ∧
    ((d = 0 ∧ t = .node (mkInfo o X value row0.length (best0 o.xgb) 1) .nil .nil) ∨
     (∃ d' best, d = d' + 1 ∧
        searchSplit S X (o.fill X) row0.length (best0 o.xgb) = .ok best ∧
        (mkInfo o X value row0.length best 1).leaf = true ∧
        t = .node (mkInfo o X value row0.length best 1) .nil .nil) ∨
     (∃ d' best col l r, d = d' + 1 ∧
        searchSplit S X (o.fill X) row0.length (best0 o.xgb) = .ok best ∧
        (mkInfo o X value row0.length best 1).leaf = false ∧
        sampleCol X (o.idx X) best.feature = .ok col ∧
        newTreeD S X d' (o.child X (goLeft best.threshold col (o.idx X))) = .ok l ∧
        newTreeD S X d' (o.child X (goRight best.threshold col (o.idx X))) = .ok r ∧
        t = .node (mkInfo o X value row0.length best (1 + l.branches + r.branches)) l r)) := by
  unfold newTreeD at h
  simp only [bind, Except.bind, pure, Except.pure] at h
  split at h
  · cases h
  rename_i hx
  simp only [Bool.not_eq_true] at hx
  rw [TreeOptions.fill_idx] at h
  split at h
  · cases h
  rename_i value hv
  split at h
  · cases h
  rename_i row0 hr
  have hr' : X[0]? = some row0 := by
    unfold goIdx at hr
    split at hr
    · rename_i a ha; cases hr; exact ha
    · cases hr
  refine ⟨value, row0, hv, hr', hx, ?_⟩
  match d with
  | 0 =>
    left
    simp only [Except.ok.injEq] at h
    exact ⟨rfl, h.symm⟩
  | d' + 1 =>
    right
    simp only at h
    split at h
    · cases h
    rename_i best hb
    split at h
    · rename_i hl
      left
      simp only [Except.ok.injEq] at h
      exact ⟨d', best, rfl, hb, hl, h.symm⟩
    · rename_i hl
      right
      split at h
      · cases h
      rename_i col hc
      split at h
      · cases h
      rename_i l hl'
      split at h
      · cases h
      rename_i r hr'
      simp only [Except.ok.injEq] at h
      exact ⟨d', best, col, l, r, rfl, hb, Bool.eq_false_iff.2 hl, hc, hl', hr', h.symm⟩

/-! ### mapM, indexing -/

theorem goIdx_ok {α : Type} {l : List α} {i : Nat} {a : α} : goIdx l i = .ok a ↔ l[i]? = some a := by
  unfold goIdx
  split
  · rename_i b hb; simp [hb]
  · rename_i hb; simp [hb]

theorem mapM_ok {α β : Type} {f : α → Go β} {l : List α} {l' : List β} :
    l.mapM f = .ok l' ↔ List.Forall₂ (fun a b => f a = .ok b) l l' := by
  induction l generalizing l' with
  | nil =>
    simp only [List.mapM_nil, pure, Except.pure, Except.ok.injEq]
    constructor
    · rintro rfl; exact .nil
    · intro h; cases h; rfl
  | cons x xs ih =>
    rw [List.mapM_cons]
    simp only [bind, Except.bind, pure, Except.pure]
    constructor
    · intro h
      split at h
      · cases h
      rename_i y hy
      split at h
      · cases h
      rename_i ys hys
      cases h
      exact .cons hy (ih.1 hys)
    · intro h
      cases h with
      | cons h1 h2 => rw [h1]; simp only; rw [ih.2 h2]

theorem sampleSlice_ok {α : Type} {s : List α} {idx : List Nat} {l : List α} :
    sampleSlice s idx = .ok l ↔
      idx.length ≤ s.length ∧ List.Forall₂ (fun v a => s[v]? = some a) idx l := by
  unfold sampleSlice
  split
  · rename_i h; simp; omega
  · rename_i h
    rw [mapM_ok]
    constructor
    · intro h2
      refine ⟨by omega, h2.imp fun v a hva => ?_⟩
      split at hva
      · cases hva
      · exact goIdx_ok.1 hva
    · rintro ⟨_, h2⟩
      refine h2.imp fun v a hva => ?_
      have : v < s.length := by
        by_contra hc
        rw [List.getElem?_eq_none (by omega)] at hva; cases hva
      rw [if_neg (by omega)]
      exact goIdx_ok.2 hva

theorem sampleCol_ok {X : List (List F)} {idx : List Nat} {f : Nat} {col : List F} :
    sampleCol X idx f = .ok col →
      List.Forall₂ (fun i v => ∃ row, X[i]? = some row ∧ row[f]? = some v) idx col := by
  unfold sampleCol
  simp only [bind, Except.bind]
  intro h
  split at h
  · cases h
  rename_i x hx
  split at h
  · cases h
  rename_i xt hxt
  unfold sampleMatrix at hx
  rw [mapM_ok] at hx
  have hx' : List.Forall₂ (fun i r => ∃ row v, X[i]? = some row ∧ row[f]? = some v ∧ r = [v]) idx x := by
    refine hx.imp fun i r hir => ?_
    simp only [bind, Except.bind] at hir
    split at hir
    · cases hir
    rename_i row hrow
    obtain ⟨_, h2⟩ := sampleSlice_ok.1 hir
    cases h2 with
    | cons h3 h4 => cases h4; exact ⟨row, _, goIdx_ok.1 hrow, h3, rfl⟩
  rw [goIdx_ok] at h
  unfold transposeFloats at hxt
  simp only [bind, Except.bind] at hxt
  split at hxt
  · cases hxt
  rename_i m0 hm0
  rw [mapM_ok] at hxt
  have hlen : m0.length = 1 := by
    rw [goIdx_ok] at hm0
    have hmem : m0 ∈ x := List.mem_of_getElem? hm0
    have : ∀ r ∈ x, r.length = 1 := by
      clear hm0 hmem hxt h hx
      induction hx' with
      | nil => simp
      | cons h1 h2 ih =>
        obtain ⟨_, v, _, _, rfl⟩ := h1
        intro r hr
        rcases List.mem_cons.1 hr with rfl | hr
        · rfl
        · exact ih r hr
    exact this _ hmem
  rw [hlen] at hxt
  have : List.range 1 = [0] := rfl
  rw [this] at hxt
  cases hxt with
  | cons h1 h2 =>
    cases h2
    simp only [List.getElem?_cons_zero, Option.some.injEq] at h
    rw [h] at h1
    clear h
    rw [mapM_ok] at h1
    clear hm0 hx hlen
    induction hx' generalizing col with
    | nil => cases h1; exact .nil
    | cons h3 h4 ih =>
      cases h1 with
      | cons h5 h6 =>
        obtain ⟨row, v, hr, hv, rfl⟩ := h3
        rw [goIdx_ok] at h5
        simp only [List.getElem?_cons_zero, Option.some.injEq] at h5
        subst h5
        exact .cons ⟨row, hr, hv⟩ (ih h6)

/-! ### the scan only replaces the best split by a better one -/

section
variable [GoFloatOrd F]

theorem better_trans (p : ScanParams F) (a b c : F) (h1 : p.better a b = true)
    (h2 : p.better b c = true) : p.better a c = true := by
  unfold ScanParams.better at *
  split at h1 <;> simp_all [gt]
  · exact GoFloatOrd.lt_trans _ _ _ h2 h1
  · exact GoFloatOrd.lt_trans _ _ _ h1 h2

theorem scan_better (p : ScanParams F) (rows : List (F × F × F)) (nl nr : Int) (aL aR bL bR : F)
    (best : Best F) :
    scan p rows nl nr aL aR bL bR best = best ∨
    p.better (scan p rows nl nr aL aR bL bR best).score best.score = true := by
  induction rows generalizing nl nr aL aR bL bR best with
  | nil => simp [scan]
  | cons r1 rest ih =>
    match r1, rest with
    | (x, a, b), [] => simp [scan]
    | (x, a, b), (x', a', b') :: rest' =>
      unfold scan
      simp only
      split
      · exact ih _ _ _ _ _ _ _
      · split
        · simp
        · split
          · rename_i hb
            right
            rcases ih (nl + 1) (nr - 1) (aL +. a) (aR -. a) (bL +. b) (bR -. b)
              ⟨p.gain (nl + 1) (nr - 1) (aL +. a) (aR -. a) (bL +. b) (bR -. b), p.feature,
                (x +. x') /. ofRat 2⟩ with h | h
            · rw [h]; exact hb
            · exact better_trans p _ _ _ h hb
          · exact ih _ _ _ _ _ _ _

/-- `betterX xgb` is the comparison used for the kind of tree -/
def betterX (xgb : Bool) (gain score : F) : Bool := if xgb then gt gain score else gain <. score

theorem betterX_trans (xgb : Bool) (a b c : F) (h1 : betterX xgb a b = true)
    (h2 : betterX xgb b c = true) : betterX xgb a c = true := by
  unfold betterX at *
  split at h1 <;> simp_all [gt]
  · exact GoFloatOrd.lt_trans _ _ _ h2 h1
  · exact GoFloatOrd.lt_trans _ _ _ h1 h2

theorem findBetterSplit_inv {S : GoSort} {X : List (List F)} {o : TreeOptions F} {i : Nat}
    {best b : Best F} (h : findBetterSplit S X o i best = .ok b) :
    ∃ col, sampleCol X (o.indexes.getD []) i = .ok col ∧ col.length ≤ o.scratch.getD 0 ∧
    ((o.xgb = true ∧ ∃ g h sg sh, sampleSlice (o.gradients.getD []) (o.indexes.getD []) = .ok g ∧
        sampleSlice (o.hessian.getD []) (o.indexes.getD []) = .ok h ∧
        sampleSlice g (argSort S col).1 = .ok sg ∧ sampleSlice h (argSort S col).1 = .ok sh ∧
        b = scan ⟨true, toInt o.minChildWeight, o.lambda, o.gamma, GoFloat.sum g, GoFloat.sum h,
              (o.indexes.getD []).length, i⟩ ((argSort S col).2.zip (sg.zip sh)) 0
              ((o.indexes.getD []).length : Int) zero (GoFloat.sum g) zero (GoFloat.sum h) best) ∨
     (o.xgb = false ∧ ∃ y sy, sampleSlice o.y (o.indexes.getD []) = .ok y ∧
        sampleSlice y (argSort S col).1 = .ok sy ∧
        b = scan ⟨false, toInt o.minChildWeight, o.lambda, o.gamma, GoFloat.sum sy, zero,
              (o.indexes.getD []).length, i⟩ ((argSort S col).2.zip (sy.zip sy)) 0
              ((o.indexes.getD []).length : Int) zero (GoFloat.sum sy) zero zero best)) := by
  unfold findBetterSplit at h
  simp only [bind, Except.bind, pure, Except.pure] at h
  split at h
  · cases h
  rename_i col hcol
  split at h
  · cases h
  rename_i hs
  refine ⟨col, hcol, by omega, ?_⟩
  split at h
  · rename_i hx
    left
    split at h
    · cases h
    rename_i g hg
    split at h
    · cases h
    rename_i hh hhh
    split at h
    · cases h
    rename_i sg hsg
    split at h
    · cases h
    rename_i sh hsh
    simp only [Except.ok.injEq] at h
    exact ⟨hx, g, hh, sg, sh, hg, hhh, hsg, hsh, h.symm⟩
  · rename_i hx
    right
    split at h
    · cases h
    rename_i y hy
    split at h
    · cases h
    rename_i sy hsy
    simp only [Except.ok.injEq] at h
    exact ⟨by simpa using hx, y, sy, hy, hsy, h.symm⟩

theorem findBetterSplit_better {S : GoSort} {X : List (List F)} {o : TreeOptions F} {i : Nat}
    {best b : Best F} (h : findBetterSplit S X o i best = .ok b) :
    b = best ∨ betterX o.xgb b.score best.score = true := by
  obtain ⟨col, _, _, ⟨hx, g, hh, sg, sh, _, _, _, _, rfl⟩ | ⟨hx, y, sy, _, _, rfl⟩⟩ :=
    findBetterSplit_inv h
  all_goals
    rw [hx]
    exact scan_better _ _ _ _ _ _ _ _ _

theorem foldlM_inv {α β : Type} (f : β → α → Go β) (P : β → Prop)
    (l : List α) (hstep : ∀ b a b', a ∈ l → P b → f b a = .ok b' → P b') (b b' : β) (hb : P b)
    (h : l.foldlM f b = .ok b') : P b' := by
  induction l generalizing b with
  | nil => simp only [List.foldlM_nil, pure, Except.pure, Except.ok.injEq] at h; rw [← h]; exact hb
  | cons x xs ih =>
    rw [List.foldlM_cons] at h
    simp only [bind, Except.bind] at h
    split at h
    · cases h
    rename_i b1 hb1
    exact ih (fun b a b' ha => hstep b a b' (by simp [ha])) b1
      (hstep b x b1 (by simp) hb hb1) h

theorem searchSplit_better {S : GoSort} {X : List (List F)} {o : TreeOptions F} {n : Nat}
    {init b : Best F} (h : searchSplit S X o n init = .ok b) :
    b = init ∨ betterX o.xgb b.score init.score = true := by
  unfold searchSplit at h
  refine foldlM_inv _ (fun b => b = init ∨ betterX o.xgb b.score init.score = true) _ ?_ _ _
    (Or.inl rfl) h
  intro b a b' _ hb hf
  rcases findBetterSplit_better hf with rfl | h1
  · exact hb
  · right
    rcases hb with rfl | h2
    · exact h1
    · exact betterX_trans _ _ _ _ h1 h2

theorem leaf_best0 (o : TreeOptions F) (X : List (List F)) (v : F) (n b : Nat) :
    (mkInfo o X v n (best0 o.xgb) b).leaf = true := by
  unfold NodeInfo.leaf mkInfo best0 score0
  simp only
  split
  · exact GoFloatOrd.zero_self
  · exact GoFloatOrd.posInf_self

theorem leaf_of_better (o : TreeOptions F) (X : List (List F)) (v : F) (n k : Nat) (b : Best F)
    (h : betterX o.xgb b.score (score0 o.xgb) = true) : (mkInfo o X v n b k).leaf = false := by
  unfold betterX score0 at h
  unfold NodeInfo.leaf mkInfo
  simp only
  by_cases hx : o.xgb = true
  · simp only [hx, if_true, gt] at *
    cases hc : (b.score ==. (zero : F)) with
    | false => rfl
    | true =>
      have := GoFloatOrd.lt_eq _ _ _ h hc
      rw [GoFloatOrd.lt_irrefl] at this; exact absurd this (by simp)
  · simp only [hx] at *
    simp only [Bool.false_eq_true, if_false] at *
    unfold isPosInf
    cases hc : (b.score ==. (posInf : F)) with
    | false => rfl
    | true =>
      have h2 := GoFloatOrd.eq_symm _ _ hc
      have := GoFloatOrd.eq_lt _ _ _ h2 h
      rw [GoFloatOrd.lt_irrefl] at this; exact absurd this (by simp)

/-- the leaf test does not depend on the branch count -/
theorem leaf_branches (o : TreeOptions F) (X : List (List F)) (v : F) (n k k' : Nat) (b : Best F) :
    (mkInfo o X v n b k).leaf = (mkInfo o X v n b k').leaf := rfl

end

end Boo
