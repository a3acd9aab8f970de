import Verif.Props.Invariance
import Verif.Lemmas.ScanRel
import Verif.Props.Columns

/-!
# Two runs of NewTree on data that are ordered alike, in any arithmetic

`φ f` changes the values of feature `f` without changing their order. A sorting routine that looks at its input only through `Less` then
does the same for both data, so that even rounded sums are the same.
-/

namespace Boo
open GoFloat Spec
set_option linter.unusedSectionVars false

/-- The sorting routine looks at what it sorts only through `Less`, as `sort.Sort` does: what it does to `f a, f b, ...` is what it does to
`a, b, ...` compared through `f`. -/
def GoSort.OnlyCompares (S : GoSort) : Prop :=
  ∀ {α β : Type} (f : α → β) (less : β → β → Bool) (l : List α),
    S.sort less (l.map f) = (S.sort (fun a b => less (f a) (f b)) l).map f

theorem insertBy_map {α β : Type} (f : α → β) (less : β → β → Bool) (x : α) (l : List α) :
    insertBy less (f x) (l.map f) = (insertBy (fun a b => less (f a) (f b)) x l).map f := by
  induction l with
  | nil => rfl
  | cons y ys ih =>
    simp only [List.map_cons, insertBy]
    split
    · rw [ih]; rfl
    · rfl

/-- insertion sort only compares -/
theorem GoSort.ins_onlyCompares : GoSort.ins.OnlyCompares := by
  intro α β f less l
  change insSort less (l.map f) = (insSort _ l).map f
  induction l with
  | nil => rfl
  | cons x xs ih => simp only [List.map_cons, insSort, ih, insertBy_map]

/-- comparisons that agree on the elements give the same result -/
theorem GoSort.OnlyCompares.congr {S : GoSort} (h : S.OnlyCompares) {α : Type} {less less' : α → α → Bool} {l : List α}
    (he : ∀ a ∈ l, ∀ b ∈ l, less a b = less' a b) : S.sort less l = S.sort less' l := by
  have h1 := h (fun x : {x // x ∈ l} => x.1) less l.attach
  have h2 := h (fun x : {x // x ∈ l} => x.1) less' l.attach
  rw [List.attach_map_subtype_val] at h1 h2
  rw [h1, h2]
  congr 2
  funext a b
  exact he a.1 a.2 b.1 b.2

section
variable {F : Type} [GoFloat F]

/-- `φ` keeps the order of the values `D` (which are not NaN) -/
structure SameOrder (φ : F → F) (D : F → Prop) : Prop where
  num : ∀ a, D a → (a ==. a) = true
  lt : ∀ a b, D a → D b → (φ a <. φ b) = (a <. b)
  eq : ∀ a b, D a → D b → (φ a ==. φ b) = (a ==. b)
  /-- a value that is not between two values is on the same side of their mean before and after -/
  side : ∀ a b v, D a → D b → D v → (a <. b) = true → (v <=. a) = true ∨ (b <=. v) = true →
    (φ v <=. ((φ a +. φ b) /. ofRat 2)) = (v <=. ((a +. b) /. ofRat 2))

theorem argSort_same {S : GoSort} (hS : S.OnlyCompares) {φ : F → F} {D : F → Prop} (h : SameOrder φ D) {col : List F} (hc : ∀ v ∈ col, D v) :
    (argSort S (col.map φ)).1 = (argSort S col).1 ∧ (argSort S (col.map φ)).2 = (argSort S col).2.map φ := by
  have hz : (col.map φ).zip (List.range (col.map φ).length) = (col.zip (List.range col.length)).map (Prod.map φ id) := by
    rw [List.length_map, List.zip_map_left]
  have hs : S.sort idLess ((col.map φ).zip (List.range (col.map φ).length)) =
      (S.sort idLess (col.zip (List.range col.length))).map (Prod.map φ id) := by
    rw [hz, hS]
    congr 1
    refine hS.congr fun a ha b hb => ?_
    exact h.lt _ _ (hc _ (List.of_mem_zip ha).1) (hc _ (List.of_mem_zip hb).1)
  unfold argSort
  rw [hs]
  simp only [List.map_map]
  exact ⟨rfl, rfl⟩

/-- the thresholds lie between the same two values, before and after, and no sample is between them -/
def UCut (φ : Nat → F → F) (D : Nat → F → Prop) (f : Nat) (vals : List F) (t t' : F) : Prop :=
  ∃ a b, D f a ∧ D f b ∧ (a <. b) = true ∧ t = (a +. b) /. ofRat 2 ∧ t' = (φ f a +. φ f b) /. ofRat 2 ∧
    ∀ v ∈ vals, (v <=. a) = true ∨ (b <=. v) = true

/-- corresponding best splits: none found, or the same one -/
def UBest (φ : Nat → F → F) (D : Nat → F → Prop) (vals : Nat → List F → Prop) (xgb : Bool) (b b' : Best F) : Prop :=
  (b = best0 xgb ∧ b' = best0 xgb) ∨
  (b'.score = b.score ∧ b'.feature = b.feature ∧ ∃ l, vals b.feature l ∧ UCut φ D b.feature l b.threshold b'.threshold)

variable [GoFloatOrd F]

theorem scan_units {φ : Nat → F → F} {D : Nat → F → Prop} {vals : Nat → List F → Prop} {xgb : Bool} {p : ScanParams F}
    (h : SameOrder (φ p.feature) (D p.feature)) (all : List F) (hall : ∀ v ∈ all, D p.feature v) (hv : vals p.feature all)
    (rows : List (F × F × F)) (pre : List F) (hsort : (pre ++ rows.map Prod.fst).Pairwise fun x y => (x <=. y) = true)
    (hmem : ∀ v ∈ all, v ∈ pre ++ rows.map Prod.fst) (hmem' : ∀ v ∈ pre ++ rows.map Prod.fst, v ∈ all)
    (nl nr : Int) (aL aR bL bR : F) (best best' : Best F) (hb : UBest φ D vals xgb best best') :
    UBest φ D vals xgb (scan p rows nl nr aL aR bL bR best)
      (scan p (rows.map fun r => (φ p.feature r.1, r.2)) nl nr aL aR bL bR best') := by
  induction rows generalizing pre nl nr aL aR bL bR best best' with
  | nil => simpa [scan] using hb
  | cons r1 rest ih =>
    obtain ⟨x, a, b⟩ := r1
    cases rest with
    | nil => simpa [scan] using hb
    | cons r2 rest =>
      obtain ⟨x', a', b'⟩ := r2
      have e1 : pre ++ ((x, a, b) :: (x', a', b') :: rest).map Prod.fst = (pre ++ [x]) ++ ((x', a', b') :: rest).map Prod.fst := by simp
      have hx : D p.feature x := hall _ (hmem' _ (by simp))
      have hx' : D p.feature x' := hall _ (hmem' _ (by simp))
      have hrec := fun nl nr aL aR bL bR best best' hb => ih (pre ++ [x]) (by rw [← e1]; exact hsort) (by rw [← e1]; exact hmem)
        (by rw [← e1]; exact hmem') nl nr aL aR bL bR best best' hb
      simp only [scan, List.map_cons] at hrec ⊢
      rw [h.eq _ _ hx hx']
      split
      · exact hrec _ _ _ _ _ _ _ _ hb
      · rename_i hne
        split
        · exact hb
        · refine hrec _ _ _ _ _ _ _ _ ?_
          have hsc : best'.score = best.score := by
            rcases hb with ⟨rfl, rfl⟩ | ⟨e, _⟩
            · rfl
            · exact e
          rw [hsc]
          split
          · refine Or.inr ⟨rfl, rfl, all, hv, x, x', hx, hx', ?_, rfl, rfl, ?_⟩
            · have hle : (x <=. x') = true := by
                have := (List.pairwise_append.1 hsort).2.1
                simp only [List.map_cons, List.pairwise_cons] at this
                exact this.1 x' (by simp)
              rw [GoFloatOrd.le_iff] at hle
              simp only [not_or, Bool.not_eq_true] at hne
              simpa [hne.2] using hle
            · intro v hm
              have hvm := hmem v hm
              rw [List.pairwise_append] at hsort
              obtain ⟨_, s2, s3⟩ := hsort
              simp only [List.map_cons, List.pairwise_cons, List.mem_cons, forall_eq_or_imp] at s2
              rcases List.mem_append.1 hvm with hvm | hvm
              · exact Or.inl (s3 v hvm x (by simp))
              · simp only [List.map_cons, List.mem_cons] at hvm
                rcases hvm with rfl | rfl | hvm
                · exact Or.inl (by rw [GoFloatOrd.le_iff, h.num _ hx]; simp)
                · exact Or.inr (by rw [GoFloatOrd.le_iff, h.num _ hx']; simp)
                · exact Or.inr (s2.2.1 v hvm)
          · exact hb

end

section
variable {F : Type} [GoFloat F]

theorem sampleCol_mapped {X : List (List F)} {φ : Nat → F → F} {idx : List Nat} {f : Nat} {col : List F}
    (h : sampleCol X idx f = .ok col) : sampleCol (X.map (mapFeatures φ)) idx f = .ok (col.map (φ f)) := by
  have h1 := sampleCol_ok h
  have hget : ∀ (i : Nat) row v, X[i]? = some row → row[f]? = some v →
      (X.map (mapFeatures φ))[i]? = some (mapFeatures φ row) ∧ (mapFeatures φ row)[f]? = some (φ f v) := by
    intro i row v e1 e2
    refine ⟨by rw [List.getElem?_map, e1]; rfl, ?_⟩
    unfold mapFeatures
    rw [List.getElem?_mapIdx, e2]
    rfl
  obtain ⟨col', hc'⟩ := sampleCol_exists' (X.map (mapFeatures φ)) idx f (sampleCol_ne h) (by
    intro i hi
    obtain ⟨k, hk⟩ := List.mem_iff_getElem?.1 hi
    have hk1 : k < idx.length := (List.getElem?_eq_some_iff.1 hk).1
    have := h1.get hk1 (by rw [← h1.length_eq]; exact hk1)
    obtain ⟨row, e1, e2⟩ := this
    have hki : idx.get ⟨k, hk1⟩ = i := by
      rw [List.getElem?_eq_getElem hk1] at hk
      exact Option.some.inj hk
    rw [hki] at e1
    exact ⟨_, _, hget i row _ e1 e2⟩)
  rw [hc']
  congr 1
  have h2 := sampleCol_ok hc'
  clear hc' h
  induction h1 generalizing col' with
  | nil => cases h2; rfl
  | cons a _ ih =>
    cases h2 with
    | cons b h2 =>
      obtain ⟨row, e1, e2⟩ := a
      obtain ⟨row', e1', e2'⟩ := b
      obtain ⟨q1, q2⟩ := hget _ row _ e1 e2
      rw [q1] at e1'
      cases e1'
      rw [q2] at e2'
      cases e2'
      rw [ih _ h2]
      rfl

/-- the values of the rows `idx` in column `f` -/
def ColOf (X : List (List F)) (idx : List Nat) (f : Nat) (col : List F) : Prop := sampleCol X idx f = .ok col

variable [GoFloatOrd F]

/-- the entries of all rows are in `D` -/
def InDom (D : Nat → F → Prop) (row : List F) : Prop := ∀ (f : Nat) v, row[f]? = some v → D f v

theorem col_inDom {X : List (List F)} {D : Nat → F → Prop} (hX : ∀ row ∈ X, InDom D row) {idx : List Nat} {f : Nat} {col : List F}
    (h : sampleCol X idx f = .ok col) : ∀ v ∈ col, D f v := by
  intro v hv
  obtain ⟨k, hk⟩ := List.mem_iff_getElem?.1 hv
  have h1 := sampleCol_ok h
  have hk1 : k < col.length := (List.getElem?_eq_some_iff.1 hk).1
  have := h1.get (by rw [h1.length_eq]; exact hk1) hk1
  obtain ⟨row, e1, e2⟩ := this
  rw [List.getElem?_eq_getElem hk1] at hk
  have : col.get ⟨k, hk1⟩ = v := Option.some.inj hk
  rw [this] at e2
  exact hX row (List.mem_of_getElem? e1) f v e2

theorem findBetterSplit_units {S : GoSort} (hS : S.OnlyCompares) {X : List (List F)} {φ : Nat → F → F} {D : Nat → F → Prop}
    (hφ : ∀ f, SameOrder (φ f) (D f)) (hX : ∀ row ∈ X, InDom D row) {o : TreeOptions F} {f : Nat} {best best' b : Best F}
    (hb : UBest φ D (ColOf X (o.indexes.getD [])) o.xgb best best') (h : findBetterSplit S X o f best = .ok b) :
    ∃ b', findBetterSplit S (X.map (mapFeatures φ)) o f best' = .ok b' ∧ UBest φ D (ColOf X (o.indexes.getD [])) o.xgb b b' := by
  obtain ⟨col, h1, h2, h3⟩ := findBetterSplit_inv h
  have hd := col_inDom hX h1
  obtain ⟨a1, a2⟩ := argSort_same hS (hφ f) hd
  have hsorted := C41_sorted S col (fun v hv => (hφ f).num v (hd v hv))
  have hperm : ∀ v, v ∈ (argSort S col).2 ↔ v ∈ col := by
    intro v
    unfold argSort
    have hp := (S.perm idLess (col.zip (List.range col.length))).map Prod.fst
    rw [List.map_fst_zip (by simp)] at hp
    exact hp.mem_iff
  have key : ∀ (l : List (F × F)) (p : ScanParams F) nl nr aL aR bL bR, l.length = col.length → p.feature = f →
      UBest φ D (ColOf X (o.indexes.getD [])) o.xgb (scan p ((argSort S col).2.zip l) nl nr aL aR bL bR best)
        (scan p ((argSort S (col.map (φ f))).2.zip l) nl nr aL aR bL bR best') := by
    intro l p nl nr aL aR bL bR hl hp
    rw [a2, List.zip_map_left]
    have hz : ((argSort S col).2.zip l).map Prod.fst = (argSort S col).2 :=
      List.map_fst_zip (by rw [hl, argSort_snd_length])
    subst hp
    have := scan_units (vals := ColOf X (o.indexes.getD [])) (xgb := o.xgb) (hφ p.feature) col hd h1 ((argSort S col).2.zip l) []
      (by rw [List.nil_append, hz]; exact hsorted) (by intro v hv; rw [List.nil_append, hz]; exact (hperm v).2 hv)
      (by intro v hv; rw [List.nil_append, hz] at hv; exact (hperm v).1 hv) nl nr aL aR bL bR best best' hb
    exact this
  have hlen : (argSort S col).1.length = col.length := argSort_fst_length S col
  rcases h3 with ⟨hx, g, hh, sg, sh, e1, e2, e3, e4, rfl⟩ | ⟨hx, y, sy, e1, e2, rfl⟩
  · refine ⟨_, findBetterSplit_mk_xgb (sampleCol_mapped h1) (by rw [List.length_map]; exact h2) hx e1 e2 (by rw [a1]; exact e3)
      (by rw [a1]; exact e4), ?_⟩
    refine key _ _ _ _ _ _ _ _ ?_ rfl
    rw [List.length_zip, sampleSlice_length e3, sampleSlice_length e4, hlen, min_self]
  · refine ⟨_, findBetterSplit_mk_reg (sampleCol_mapped h1) (by rw [List.length_map]; exact h2) hx e1 (by rw [a1]; exact e2), ?_⟩
    refine key _ _ _ _ _ _ _ _ ?_ rfl
    rw [List.length_zip, sampleSlice_length e2, hlen, min_self]

/-- corresponding trees: equal but for the thresholds, which lie between the same values; every sample goes to a child -/
def UTree (φ : Nat → F → F) (D : Nat → F → Prop) (X : List (List F)) : Tree F → Tree F → Prop
  | .nil, .nil => True
  | .node i l r, .node i' l' r' =>
    i' = { i with threshold := i'.threshold } ∧
    (i.leaf = false → (∃ col, ColOf X i.samples i.splitFeatureIndex col ∧ UCut φ D i.splitFeatureIndex col i.threshold i'.threshold) ∧
      ∀ w ∈ i.samples, ∀ row v, X[w]? = some row → row[i.splitFeatureIndex]? = some v →
        w ∈ (if (v <=. i.threshold) = true then l.rootSamples else r.rootSamples)) ∧
    UTree φ D X l l' ∧ UTree φ D X r r'
  | _, _ => False

theorem UTree.branches {φ : Nat → F → F} {D : Nat → F → Prop} {X : List (List F)} {t t' : Tree F} (h : UTree φ D X t t') :
    t'.branches = t.branches := by
  cases t <;> cases t' <;> simp only [UTree] at h
  · rfl
  · simp only [Tree.branches]
    rw [h.1]

theorem mem_colOf {X : List (List F)} {idx : List Nat} {f : Nat} {col : List F} (h : sampleCol X idx f = .ok col) {w : Nat} (hw : w ∈ idx)
    {row : List F} {v : F} (e1 : X[w]? = some row) (e2 : row[f]? = some v) : v ∈ col ∧ (v, w) ∈ col.zip idx := by
  have h1 := sampleCol_ok h
  obtain ⟨k, hk⟩ := List.mem_iff_getElem?.1 hw
  have hk1 : k < idx.length := (List.getElem?_eq_some_iff.1 hk).1
  have hk2 : k < col.length := by rw [← h1.length_eq]; exact hk1
  obtain ⟨row', q1, q2⟩ := h1.get hk1 hk2
  have hki : idx.get ⟨k, hk1⟩ = w := by
    rw [List.getElem?_eq_getElem hk1] at hk
    exact Option.some.inj hk
  rw [hki, e1] at q1
  obtain rfl := Option.some.inj q1
  rw [e2] at q2
  have hcv : col[k]? = some v := by
    rw [List.getElem?_eq_getElem hk2]
    exact q2.symm
  exact ⟨List.mem_of_getElem? hcv, List.mem_of_getElem? (i := k) (List.getElem?_zip_eq_some.2 ⟨hcv, hk⟩)⟩

/-- a value of the sample is on the same side of corresponding thresholds -/
theorem UCut.side {φ : Nat → F → F} {D : Nat → F → Prop} (hφ : ∀ f, SameOrder (φ f) (D f)) {f : Nat} {vals : List F} {t t' : F}
    (h : UCut φ D f vals t t') {v : F} (hv : v ∈ vals) (hd : D f v) : (φ f v <=. t') = (v <=. t) := by
  obtain ⟨a, b, ha, hb, hab, rfl, rfl, hs⟩ := h
  exact (hφ f).side a b v ha hb hd hab (hs v hv)

theorem newTreeD_units {S : GoSort} (hS : S.OnlyCompares) {X : List (List F)} {φ : Nat → F → F} {D : Nat → F → Prop}
    (hφ : ∀ f, SameOrder (φ f) (D f)) (hX : ∀ row ∈ X, InDom D row) (d : Nat) (o : TreeOptions F) (t : Tree F)
    (h : newTreeD S X d o = .ok t) :
    ∃ t', newTreeD S (X.map (mapFeatures φ)) d o = .ok t' ∧ UTree φ D X t t' ∧ t.rootSamples = o.idx X := by
  have hidx : ∀ o : TreeOptions F, o.idx (X.map (mapFeatures φ)) = o.idx X := by
    intro o; unfold TreeOptions.idx; simp
  have hfill : ∀ o : TreeOptions F, o.fill (X.map (mapFeatures φ)) = o.fill X := by
    intro o; unfold TreeOptions.fill; simp
  have hchild : ∀ (o : TreeOptions F) j, o.child (X.map (mapFeatures φ)) j = o.child X j := by
    intro o j; unfold TreeOptions.child; rw [hfill]
  have hget : ∀ row0 : List F, X[0]? = some row0 →
      (X.map (mapFeatures φ))[0]? = some (mapFeatures φ row0) ∧ (mapFeatures φ row0).length = row0.length := by
    intro row0 hr
    exact ⟨by rw [List.getElem?_map, hr]; rfl, by simp [mapFeatures]⟩
  have hinfo : ∀ (o : TreeOptions F) v m best k, mkInfo o (X.map (mapFeatures φ)) v m best k = mkInfo o X v m best k := by
    intro o v m best k
    unfold mkInfo
    rw [hidx]
  induction d generalizing o t with
  | zero =>
    obtain ⟨v, row0, hv, hr, hx, ⟨_, rfl⟩ | ⟨_, best, h0, _⟩ | ⟨d1, best, col, tl, tr, h0, _⟩⟩ := newTreeD_inv _ _ _ _ _ h
    · obtain ⟨hr', hl'⟩ := hget row0 hr
      have := newTreeD_mk_zero (S := S) (X := X.map (mapFeatures φ)) (o := o) (v := v) (row0 := mapFeatures φ row0) hx
        (by rw [hfill, hidx]; exact hv) hr'
      rw [this, hinfo, hl']
      refine ⟨_, rfl, ⟨rfl, fun hlf => ?_, trivial, trivial⟩, rfl⟩
      rw [leaf_best0] at hlf; cases hlf
    · omega
    · omega
  | succ d ih =>
    obtain ⟨v, row0, hv, hr, hx, ⟨h0, _⟩ | ⟨_, best, _, hs, hl, rfl⟩ |
      ⟨d1, best, col, tl, tr, h0, hs, hl, hc, h1, h2, rfl⟩⟩ := newTreeD_inv _ _ _ _ _ h
    · omega
    · obtain ⟨hr', hl'⟩ := hget row0 hr
      obtain ⟨best', hs', hb⟩ := search_map_rel (X' := X.map (mapFeatures φ)) (o' := o.fill X)
        (UBest φ D (ColOf X (o.idx X)) o.xgb) rfl
        (fun f b b' b1 hb h => findBetterSplit_units (o := o.fill X) hS hφ hX hb h) (init' := best0 o.xgb) (Or.inl ⟨rfl, rfl⟩) hs
      have hsc : best'.score = best.score ∧ best'.feature = best.feature := by
        rcases hb with ⟨rfl, rfl⟩ | ⟨e, e', _⟩
        · exact ⟨rfl, rfl⟩
        · exact ⟨e, e'⟩
      have hlf' : (mkInfo o X v row0.length best' 1).leaf = (mkInfo o X v row0.length best 1).leaf := by
        unfold NodeInfo.leaf mkInfo
        simp only [hsc.1]
      have := newTreeD_mk_leaf (S := S) (X := X.map (mapFeatures φ)) (o := o) (v := v) (row0 := mapFeatures φ row0) (d := d)
        (best := best') hx (by rw [hfill, hidx]; exact hv) hr' (by rw [hfill, hl']; exact hs') (by rw [hinfo, hl', hlf']; exact hl)
      rw [this, hinfo, hl']
      refine ⟨_, rfl, ⟨?_, fun hlf => ?_, trivial, trivial⟩, rfl⟩
      · unfold mkInfo
        simp only [hsc]
      · rw [hl] at hlf; cases hlf
    · cases h0
      obtain ⟨hr', hl'⟩ := hget row0 hr
      obtain ⟨best', hs', hb⟩ := search_map_rel (X' := X.map (mapFeatures φ)) (o' := o.fill X)
        (UBest φ D (ColOf X (o.idx X)) o.xgb) rfl
        (fun f b b' b1 hb h => findBetterSplit_units (o := o.fill X) hS hφ hX hb h) (init' := best0 o.xgb) (Or.inl ⟨rfl, rfl⟩) hs
      rcases hb with ⟨rfl, rfl⟩ | ⟨hsc1, hsc2, col', hcol', hcut⟩
      · rw [leaf_best0] at hl; cases hl
      have hcc : col' = col := by
        unfold ColOf at hcol'
        rw [hc] at hcol'
        exact (Except.ok.inj hcol').symm
      subst hcc
      have hlf' : ∀ k, (mkInfo o X v row0.length best' k).leaf = (mkInfo o X v row0.length best 1).leaf := by
        intro k
        unfold NodeInfo.leaf mkInfo
        simp only [hsc1]
      have hd := col_inDom hX hc
      have hzip : (col'.map (φ best.feature)).zip (o.idx X) = (col'.zip (o.idx X)).map (Prod.map (φ best.feature) id) := by
        rw [List.zip_map_left]
      have hside : ∀ p ∈ col'.zip (o.idx X), (φ best.feature p.1 <=. best'.threshold) = (p.1 <=. best.threshold) := by
        intro p hp
        have := (List.of_mem_zip hp).1
        exact hcut.side hφ this (hd _ this)
      have hgl : goLeft best'.threshold (col'.map (φ best.feature)) (o.idx X) = goLeft best.threshold col' (o.idx X) := by
        unfold goLeft
        rw [hzip, List.filter_map, List.map_map]
        congr 1
        exact List.filter_congr fun p hp => hside p hp
      have hgr : goRight best'.threshold (col'.map (φ best.feature)) (o.idx X) = goRight best.threshold col' (o.idx X) := by
        unfold goRight
        rw [hzip, List.filter_map, List.map_map]
        congr 1
        exact List.filter_congr fun p hp => by simp only [Function.comp, Prod.map_fst, hside p hp]
      obtain ⟨l', e1, u1, s1⟩ := ih _ _ h1
      obtain ⟨r', e2, u2, s2⟩ := ih _ _ h2
      have := newTreeD_mk_node (S := S) (X := X.map (mapFeatures φ)) (o := o) (v := v) (row0 := mapFeatures φ row0) (d := d)
        (best := best') (col := col'.map (φ best.feature)) (l := l') (r := r') hx (by rw [hfill, hidx]; exact hv) hr'
        (by rw [hfill, hl']; exact hs') (by rw [hinfo, hl', hlf']; exact hl)
        (by rw [hidx, hsc2]; exact sampleCol_mapped hc)
        (by rw [hchild, hidx, hgl]; exact e1) (by rw [hchild, hidx, hgr]; exact e2)
      rw [this, hinfo, hl', u1.branches, u2.branches]
      refine ⟨_, rfl, ⟨?_, fun hlf => ⟨⟨col', hc, hcut⟩, ?_⟩, u1, u2⟩, rfl⟩
      · unfold mkInfo
        simp only [hsc1, hsc2]
      · intro w hw row val q1 q2
        have hm := (mem_colOf hc hw q1 q2).2
        rw [s1, s2]
        by_cases hle : (val <=. best.threshold) = true
        · rw [if_pos (show (val <=. (mkInfo o X v row0.length best (1 + tl.branches + tr.branches)).threshold) = true from hle)]
          change w ∈ goLeft best.threshold col' (o.idx X)
          unfold goLeft
          exact List.mem_map.2 ⟨(val, w), List.mem_filter.2 ⟨hm, hle⟩, rfl⟩
        · rw [if_neg (show ¬ (val <=. (mkInfo o X v row0.length best (1 + tl.branches + tr.branches)).threshold) = true from hle)]
          change w ∈ goRight best.threshold col' (o.idx X)
          unfold goRight
          exact List.mem_map.2 ⟨(val, w), List.mem_filter.2 ⟨hm, by simpa using hle⟩, rfl⟩

/-! ### what corresponding trees have in common -/

variable {φ : Nat → F → F} {D : Nat → F → Prop} {X : List (List F)}

theorem UTree.info_leaf {i i' : NodeInfo F} (h : i' = { i with threshold := i'.threshold }) : i'.leaf = i.leaf := by
  rw [h]; rfl

theorem UTree.dropThresholds {t t' : Tree F} (h : UTree φ D X t t') : Spec.dropThresholds t' = Spec.dropThresholds t := by
  induction t generalizing t' with
  | nil => cases t' with
    | nil => rfl
    | node => exact absurd h (by simp [UTree])
  | node i l r ihl ihr =>
    cases t' with
    | nil => exact absurd h (by simp [UTree])
    | node i' l' r' =>
      obtain ⟨h1, _, hl, hr⟩ := h
      unfold Spec.dropThresholds
      rw [ihl hl, ihr hr, h1]

theorem UTree.featImp {t t' : Tree F} (h : UTree φ D X t t') (S : GoSort) (g : Feats F) : t'.featImp S g = t.featImp S g := by
  induction t generalizing t' g with
  | nil => cases t' with
    | nil => rfl
    | node => exact absurd h (by simp [UTree])
  | node i l r ihl ihr =>
    cases t' with
    | nil => exact absurd h (by simp [UTree])
    | node i' l' r' =>
      obtain ⟨h1, _, hl, hr⟩ := h
      have e1 : i'.bestScoreSoFar = i.bestScoreSoFar := by rw [h1]
      have e2 : i'.splitFeatureIndex = i.splitFeatureIndex := by rw [h1]
      unfold Tree.featImp
      rw [UTree.info_leaf h1, e1, e2, ihl hl]
      split
      · rfl
      · cases l.featImp S (g.add i.splitFeatureIndex i.bestScoreSoFar) with
        | error e => rfl
        | ok g1 => exact ihr hr g1

theorem UTree.featureImportance {t t' : Tree F} (h : UTree φ D X t t') (S : GoSort) (xgb : Bool) :
    t'.featureImportance S xgb = t.featureImportance S xgb := by
  unfold Tree.featureImportance
  rw [h.featImp]
  cases t <;> cases t' <;> simp only [UTree] at h
  · rfl
  · simp only [Tree.leaf]
    rw [UTree.info_leaf h.1]

theorem mapFeatures_get {α : Type} {φ : Nat → α → α} (row : List α) (f : Nat) : (mapFeatures φ row)[f]? = (row[f]?).map (φ f) := by
  unfold mapFeatures
  rw [List.getElem?_mapIdx]

/-- predictions agree on a row that every threshold it meets puts on the same side -/
theorem UTree.predict_of {t t' : Tree F} (h : UTree φ D X t t') (row : List F) (P : Tree F → Prop)
    (hP : ∀ i l r v t'', P (.node i l r) → i.leaf = false → row[i.splitFeatureIndex]? = some v →
      (∃ col, ColOf X i.samples i.splitFeatureIndex col ∧ UCut φ D i.splitFeatureIndex col i.threshold t'') →
      (∀ w ∈ i.samples, ∀ row v, X[w]? = some row → row[i.splitFeatureIndex]? = some v →
        w ∈ (if (v <=. i.threshold) = true then l.rootSamples else r.rootSamples)) →
      (φ i.splitFeatureIndex v <=. t'') = (v <=. i.threshold) ∧ P (if (v <=. i.threshold) = true then l else r)) (hp : P t) :
    t'.predictSingle (mapFeatures φ row) = t.predictSingle row := by
  induction t generalizing t' with
  | nil => cases t' with
    | nil => rfl
    | node => exact absurd h (by simp [UTree])
  | node i l r ihl ihr =>
    cases t' with
    | nil => exact absurd h (by simp [UTree])
    | node i' l' r' =>
      obtain ⟨h1, h2, hl, hr⟩ := h
      have e2 : i'.splitFeatureIndex = i.splitFeatureIndex := by rw [h1]
      have e3 : i'.value = i.value := by rw [h1]
      unfold Tree.predictSingle
      rw [UTree.info_leaf h1, e2, e3]
      cases hlf : i.leaf with
      | true => rfl
      | false =>
        simp only [Bool.false_eq_true, if_false, goIdx, mapFeatures_get]
        cases hv : row[i.splitFeatureIndex]? with
        | none => rfl
        | some v =>
          obtain ⟨q1, q2⟩ := hP i l r v i'.threshold hp hlf hv (h2 hlf).1 (h2 hlf).2
          simp only [Option.map_some, bind, Except.bind]
          rw [q1]
          split
          · rename_i hle
            rw [if_pos hle] at q2
            exact ihl hl q2
          · rename_i hle
            rw [if_neg hle] at q2
            exact ihr hr q2

/-- the rows a tree was trained on get the same predictions -/
theorem UTree.predict_training (hφ : ∀ f, SameOrder (φ f) (D f)) (hX : ∀ row ∈ X, InDom D row) {t t' : Tree F} (h : UTree φ D X t t')
    {w : Nat} {row : List F} (hw : w ∈ t.rootSamples) (hrow : X[w]? = some row) :
    t'.predictSingle (mapFeatures φ row) = t.predictSingle row := by
  refine h.predict_of row (fun t => w ∈ t.rootSamples) ?_ hw
  intro i l r v t'' hw hlf hv hcut hs
  obtain ⟨col, hc, hcut⟩ := hcut
  refine ⟨hcut.side hφ (mem_colOf hc hw hrow hv).1 (hX row (List.mem_of_getElem? hrow) _ _ hv), ?_⟩
  have := hs w hw row v hrow hv
  split
  · rename_i hle; rw [if_pos hle] at this; exact this
  · rename_i hle; rw [if_neg hle] at this; exact this

/-- if `φ` keeps the order of values and means, all rows get the same predictions -/
theorem UTree.predict_all
    (hmid : ∀ f a b v, D f a → D f b → D f v → (a <. b) = true → (φ f v <=. ((φ f a +. φ f b) /. ofRat 2)) = (v <=. ((a +. b) /. ofRat 2)))
    {t t' : Tree F} (h : UTree φ D X t t') {row : List F} (hrow : InDom D row) :
    t'.predictSingle (mapFeatures φ row) = t.predictSingle row := by
  refine h.predict_of row (fun _ => True) ?_ trivial
  intro i l r v t'' _ hlf hv hcut _
  obtain ⟨col, hc, a, b, ha, hb, hab, e1, e2, _⟩ := hcut
  refine ⟨?_, trivial⟩
  rw [e1, e2]
  exact hmid _ a b v ha hb (hrow _ _ hv) hab

theorem UTree.updateLeaves {g hs : List F} {t1 t2 t1' : Tree F} (h : UTree φ D X t1 t2) (hu : updateLeaves g hs t1 = .ok t1') :
    ∃ t2', Boo.updateLeaves g hs t2 = .ok t2' ∧ UTree φ D X t1' t2' ∧ t1'.rootSamples = t1.rootSamples := by
  induction t1 generalizing t2 t1' with
  | nil => cases t2 with
    | nil => exact ⟨.nil, rfl, by rw [← Except.ok.inj hu]; trivial, by rw [← Except.ok.inj hu]⟩
    | node => exact absurd h (by simp [UTree])
  | node i l r ihl ihr =>
    cases t2 with
    | nil => exact absurd h (by simp [UTree])
    | node i' l' r' =>
      obtain ⟨h1, h2, hl, hr⟩ := h
      unfold Boo.updateLeaves at hu ⊢
      obtain ⟨l1, hl1, hu⟩ := bind_ok hu
      obtain ⟨r1, hr1, hu⟩ := bind_ok hu
      obtain ⟨l2, el, rl, sl⟩ := ihl hl hl1
      obtain ⟨r2, er, rr, sr⟩ := ihr hr hr1
      rw [el, er]
      simp only [bind, Except.bind]
      rw [UTree.info_leaf h1]
      have hs' : i'.samples = i.samples := by rw [h1]
      cases hlf : i.leaf with
      | false =>
        rw [hlf] at hu
        simp only [Bool.false_eq_true, if_false] at hu ⊢
        obtain rfl := Except.ok.inj hu
        refine ⟨_, rfl, ⟨h1, fun _ => ?_, rl, rr⟩, rfl⟩
        rw [sl, sr]
        exact h2 hlf
      | true =>
        rw [hlf] at hu
        simp only [if_true] at hu ⊢
        obtain ⟨i1, hi1, hu⟩ := bind_ok hu
        obtain rfl := Except.ok.inj hu
        unfold updateLeaf at hi1 ⊢
        rw [hs']
        obtain ⟨⟨sh, sg⟩, e1, e2⟩ := bind_ok hi1
        rw [e1]
        simp only [bind, Except.bind, pure, Except.pure] at e2 ⊢
        obtain rfl := Except.ok.inj e2
        refine ⟨_, rfl, ⟨?_, fun h => ?_, rl, rr⟩, rfl⟩
        · rw [h1]
        · have h' : i.leaf = false := h
          rw [hlf] at h'; cases h'

/-! ### models -/

theorem units_classTree {S : GoSort} (hS : S.OnlyCompares) (hφ : ∀ f, SameOrder (φ f) (D f)) (hX : ∀ row ∈ X, InDom D row)
    {O : Options F} {lf : LossFunc F} {idx : Option (List Nat)} {cols : List Nat} {y p : List F} {t1 : Tree F}
    (h : classTree S X O lf idx cols y p = .ok t1) :
    ∃ t2, classTree S (X.map (mapFeatures φ)) O lf idx cols y p = .ok t2 ∧ UTree φ D X t1 t2 ∧
      (t1.rootSamples = List.range X.length ∨ (O.xgb = true ∧ t1.rootSamples = idx.getD (List.range X.length))) := by
  have hlen : (X.map (mapFeatures φ)).length = X.length := by simp
  unfold classTree at h ⊢
  cases hx : O.xgb with
  | true =>
    rw [hx] at h
    simp only [if_true] at h ⊢
    obtain ⟨g, hg, h⟩ := bind_ok h
    rw [hg]
    simp only [bind, Except.bind]
    obtain ⟨t2, h2, h3, h4⟩ := newTreeD_units hS hφ hX _ _ _ h
    rw [hlen]
    refine ⟨t2, h2, h3, Or.inr ⟨trivial, ?_⟩⟩
    rw [h4]
    rfl
  | false =>
    rw [hx] at h
    simp only [Bool.false_eq_true, if_false] at h ⊢
    obtain ⟨g, hg, h⟩ := bind_ok h
    rw [hg]
    simp only [bind, Except.bind]
    obtain ⟨t, ht, h⟩ := bind_ok h
    obtain ⟨t2, h2, h3, h4⟩ := newTreeD_units hS hφ hX _ _ _ ht
    rw [hlen]
    unfold newTree
    rw [h2]
    simp only
    obtain ⟨t2', h5, h6, h7⟩ := h3.updateLeaves h
    refine ⟨t2', h5, h6, Or.inl ?_⟩
    rw [h7, h4]
    rfl

theorem units_roundSamples (O : Options F) (d : Nat → F) :
    roundSamples (X.map (mapFeatures φ)) O d = roundSamples X O d := by
  have hlen : (X.map (mapFeatures φ)).length = X.length := by simp
  unfold roundSamples
  rw [hlen]
  cases X with
  | nil => rfl
  | cons r X =>
    have e1 : goIdx ((r :: X).map (mapFeatures φ)) 0 = .ok (mapFeatures φ r) := rfl
    have e2 : goIdx (r :: X) 0 = .ok r := rfl
    have e3 : (mapFeatures φ r).length = r.length := by simp [mapFeatures]
    rw [e1, e2]
    simp only [bind, Except.bind, e3]

theorem units_model {S : GoSort} (hS : S.OnlyCompares) (hφ : ∀ f, SameOrder (φ f) (D f)) (hX : ∀ row ∈ X, InDom D row)
    {exp : F → F} {draws : Nat → F} {Db : DataBunch F} (hd : Db.data = X) {O : Options F}
    (hp : ∀ t1 t2 : Tree F, UTree φ D X t1 t2 →
      (t1.rootSamples = List.range X.length ∨ (O.xgb = true ∧ (O.subSample <. one) = true)) →
      ∀ row ∈ X, t2.predictSingle (mapFeatures φ row) = t1.predictSingle row)
    {M : MultiClass F} (h : newMultiClass exp S draws Db O = .ok M) :
    ∃ B, newMultiClass exp S draws { Db with data := X.map (mapFeatures φ) } O = .ok { M with b := B } ∧
      List.Forall₂ (List.Forall₂ fun t1 t2 => UTree φ D X t1 t2 ∧
        (t1.rootSamples = List.range X.length ∨ (O.xgb = true ∧ (O.subSample <. one) = true))) M.b B := by
  have hsm : ∀ d, roundSamples (X.map (mapFeatures φ)) O.fixMcw d = roundSamples Db.data O.fixMcw d := by
    intro d
    rw [hd]
    exact units_roundSamples _ _
  have hT : ∀ d idx cols d', roundSamples Db.data O.fixMcw d = .ok (idx, cols, d') → ∀ lf y p t1,
      classTree S Db.data O.fixMcw lf idx cols y p = .ok t1 →
      ∃ t2, classTree S (X.map (mapFeatures φ)) O.fixMcw lf idx cols y p = .ok t2 ∧
        (UTree φ D X t1 t2 ∧ (t1.rootSamples = List.range X.length ∨ (O.xgb = true ∧ (O.subSample <. one) = true))) ∧
        ∀ buf, t2.predict (X.map (mapFeatures φ)) buf = t1.predict Db.data buf := by
    intro d idx cols d' hs lf y p t1 ht
    rw [hd] at ht hs ⊢
    obtain ⟨t2, h2, h3, h4⟩ := units_classTree hS hφ hX ht
    have hfx : O.fixMcw.xgb = O.xgb := by unfold Options.fixMcw; split <;> rfl
    have hfs : O.fixMcw.subSample = O.subSample := by unfold Options.fixMcw; split <;> rfl
    have h5 : t1.rootSamples = List.range X.length ∨ (O.xgb = true ∧ (O.subSample <. one) = true) := by
      rcases h4 with h4 | ⟨hx, h4⟩
      · exact Or.inl h4
      · rw [hfx] at hx
        cases hss : (O.subSample <. one) with
        | true => exact Or.inr ⟨hx, rfl⟩
        | false =>
          left
          have : idx = none := by
            unfold roundSamples at hs
            rw [hfs, hss] at hs
            simp only [Bool.false_and, Bool.false_eq_true, if_false] at hs
            obtain ⟨q, hq, hs⟩ := bind_ok hs
            obtain rfl := Except.ok.inj hq
            simp only at hs
            split at hs
            · obtain ⟨row0, _, hs⟩ := bind_ok hs
              obtain ⟨c, _, hs⟩ := bind_ok hs
              have := Except.ok.inj hs
              exact (congrArg Prod.fst this).symm
            · have := Except.ok.inj hs
              exact (congrArg Prod.fst this).symm
          rw [h4, this]
          rfl
    refine ⟨t2, h2, ⟨h3, h5⟩, fun buf => predict_congr ?_ buf⟩
    rw [List.forall₂_map_right_iff, List.forall₂_same]
    intro row hr
    exact hp t1 t2 h3 h5 row hr
  exact newMultiClass_rel hsm hT h

end

end Boo
