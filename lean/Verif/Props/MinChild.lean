import Verif.Lemmas.Node
import Verif.Lemmas.B64
import Mathlib.Data.List.Perm.Subperm

/-!
# C06 (MinChildWeight) and C12 (no panic)
-/

namespace Boo
open GoFloat
set_option linter.unusedSectionVars false
variable {F : Type} [GoFloat F]

/-- No NaN in the data. -/
def NoNaN (X : List (List F)) : Prop := ∀ row ∈ X, ∀ v ∈ row, (v ==. v) = true

/-- For any two values `a < b` of one column, the threshold `(a+b)/2`, as computed, separates them. -/
def MidSafe (X : List (List F)) : Prop :=
  ∀ (f : Nat) (row row' : List F) (a b : F), row ∈ X → row' ∈ X →
    row[f]? = some a → row'[f]? = some b → (a <. b) = true →
    (a <=. ((a +. b) /. ofRat 2)) = true ∧ (((a +. b) /. ofRat 2) <. b) = true

/-- The same, but the threshold may be equal to the larger value. -/
def MidWeak (X : List (List F)) : Prop :=
  ∀ (f : Nat) (row row' : List F) (a b : F), row ∈ X → row' ∈ X →
    row[f]? = some a → row'[f]? = some b → (a <. b) = true →
    (a <=. ((a +. b) /. ofRat 2)) = true

/-- parent of a node -/
theorem child_of [GoFloatOrd F] {S : GoSort} {X : List (List F)} {o : TreeOptions F} {t : Tree F}
    (h : newTree S X o = .ok t) {path : List Bool} {b : Bool} {i : NodeInfo F} {l r : Tree F}
    (hp : t.sub (path ++ [b]) = .node i l r) :
    ∃ o' ip lp rp, ∃ s : SplitNode S X o' ip lp rp, Inherit X o o' ∧ t.sub path = .node ip lp rp ∧
      i.samples = (if b then goLeft else goRight) ip.threshold s.col (o'.idx X) := by
  rw [Tree.sub_append] at hp
  cases hq : t.sub path with
  | nil => rw [hq] at hp; cases hp
  | node ip lp rp =>
    rw [hq] at hp
    obtain ⟨o', d', h1, h2, h3, _⟩ := newTreeD_sub S X _ o t h path ip lp rp hq
    cases b with
    | true =>
      simp only [Tree.sub] at hp
      obtain ⟨s, _⟩ := splitNode h1 (by rw [hp]; simp)
      refine ⟨o', ip, lp, rp, s, h3, rfl, ?_⟩
      exact (mkInfo_samples (s.hl.trans (congrArg Except.ok hp))).1
    | false =>
      simp only [Tree.sub] at hp
      have hl : lp ≠ .nil := by
        rintro rfl
        have h4 := C02_leaf_iff_no_children S X o t h path ip .nil rp hq
        rw [hp] at h4
        cases hlf : ip.leaf with
        | true => have := h4.1.1 hlf; simp at this
        | false => have := h4.2.1 hlf; simp at this
      obtain ⟨s, _⟩ := splitNode h1 hl
      refine ⟨o', ip, lp, rp, s, h3, rfl, ?_⟩
      exact (mkInfo_samples (s.hr.trans (congrArg Except.ok hp))).1

theorem C06_left_of_midWeak [GoFloatOrd F] (S : GoSort) (X : List (List F)) (o : TreeOptions F)
    (t : Tree F) (h : newTree S X o = .ok t) (hn : NoNaN X) (hm : MidWeak X)
    (path : List Bool) (i : NodeInfo F) (l r : Tree F)
    (hp : t.sub (path ++ [true]) = .node i l r) :
    1 ≤ i.samples.length ∧ toInt o.minChildWeight ≤ i.samples.length := by
  obtain ⟨o', ip, lp, rp, s, hi, _, hs⟩ := child_of h hp
  obtain ⟨_, _, _, hlt, _, ⟨row, hr, hrv⟩, ⟨row', hr', hrv'⟩⟩ := s.cut hn
  have := s.left_count hn (hm _ row row' _ _ hr hr' hrv hrv' hlt)
  simp only [if_true] at hs
  rw [hs]
  simp only at this
  obtain ⟨c1, _, _, c4, c5, _⟩ := s.hcand
  have hmcw := (s.hscan.facts).2.2.1
  have : (o'.fill X).minChildWeight = o.minChildWeight := hi.mcw
  rw [this] at hmcw
  rw [hmcw] at c4
  constructor
  · omega
  · push_cast at *; omega

/-- General form of C06: in any arithmetic in which thresholds separate the values of a column,
every node but the root has at least `max(1, int(MinChildWeight))` samples. -/
theorem C06_of_midSafe [GoFloatOrd F] (S : GoSort) (X : List (List F)) (o : TreeOptions F)
    (t : Tree F) (h : newTree S X o = .ok t) (hn : NoNaN X) (hm : MidSafe X)
    (path : List Bool) (hne : path ≠ []) (i : NodeInfo F) (l r : Tree F)
    (hp : t.sub path = .node i l r) :
    1 ≤ i.samples.length ∧ toInt o.minChildWeight ≤ i.samples.length := by
  obtain ⟨q, b, rfl⟩ : ∃ q b, path = q ++ [b] :=
    ⟨path.dropLast, path.getLast hne, (List.dropLast_append_getLast hne).symm⟩
  cases b with
  | true =>
    exact C06_left_of_midWeak S X o t h hn
      (fun f row row' a b h1 h2 h3 h4 h5 => (hm f row row' a b h1 h2 h3 h4 h5).1) q i l r hp
  | false =>
    obtain ⟨o', ip, lp, rp, s, hi, _, hs⟩ := child_of h hp
    obtain ⟨_, h2, _, hlt, hk, ⟨row, hr, hrv⟩, ⟨row', hr', hrv'⟩⟩ := s.cut hn
    have := s.right_count hn (hm _ row row' _ _ hr hr' hrv hrv' hlt).2
    simp only [Bool.false_eq_true, if_false] at hs
    rw [hs]
    simp only at this
    obtain ⟨c1, _, _, c4, c5, _⟩ := s.hcand
    have hmcw := (s.hscan.facts).2.2.1
    have : (o'.fill X).minChildWeight = o.minChildWeight := hi.mcw
    rw [this] at hmcw
    rw [hmcw] at c5
    constructor
    · omega
    · push_cast at *; omega

/-! ### C12 -/

/-- Well-formed input of `NewTree`: non-empty rectangular data, target (gradient and hessian) vectors
of the same length, a non-empty list of distinct in-range indexes (or none), fresh options. -/
structure WellFormed (X : List (List F)) (o : TreeOptions F) : Prop where
  nonempty : X ≠ []
  rect : ∃ c, ∀ row ∈ X, row.length = c
  targets : if o.xgb then ∃ g h, o.gradients = some g ∧ o.hessian = some h ∧
      g.length = X.length ∧ h.length = X.length else o.y.length = X.length
  indexes : ∀ l, o.indexes = some l → l ≠ [] ∧ l.Nodup ∧ ∀ i ∈ l, i < X.length
  fresh : o.scratch = none

theorem mapM_exists {α β : Type} {f : α → Go β} {l : List α} (h : ∀ a ∈ l, ∃ b, f a = .ok b) :
    ∃ l', l.mapM f = .ok l' := by
  induction l with
  | nil => exact ⟨[], rfl⟩
  | cons x xs ih =>
    obtain ⟨b, hb⟩ := h x (by simp)
    obtain ⟨bs, hbs⟩ := ih fun a ha => h a (by simp [ha])
    refine ⟨b :: bs, ?_⟩
    rw [List.mapM_cons, hb]
    simp only [bind, Except.bind, pure, Except.pure]
    rw [hbs]

theorem sampleSlice_exists {α : Type} (s : List α) (idx : List Nat) (h1 : idx.length ≤ s.length)
    (h2 : ∀ i ∈ idx, i < s.length) : ∃ l, sampleSlice s idx = .ok l := by
  unfold sampleSlice
  rw [if_neg (by omega)]
  refine mapM_exists fun i hi => ?_
  have := h2 i hi
  rw [if_neg (by omega)]
  exact ⟨s[i], goIdx_ok.2 (List.getElem?_eq_getElem this)⟩

theorem sampleCol_exists (X : List (List F)) (idx : List Nat) (f c : Nat) (hne : idx ≠ [])
    (hin : ∀ i ∈ idx, i < X.length) (hrect : ∀ row ∈ X, row.length = c) (hf : f < c) :
    ∃ col, sampleCol X idx f = .ok col := by
  unfold sampleCol
  have hx : ∃ x, sampleMatrix X idx [f] = .ok x := by
    unfold sampleMatrix
    refine mapM_exists fun i hi => ?_
    have := hin i hi
    have e : goIdx X i = .ok X[i] := goIdx_ok.2 (List.getElem?_eq_getElem this)
    have hlen := hrect X[i] (List.getElem_mem this)
    obtain ⟨l, hl⟩ := sampleSlice_exists X[i] [f] (by simp; omega) (by simp; omega)
    exact ⟨l, by rw [e]; exact hl⟩
  obtain ⟨x, hx⟩ := hx
  have hx2 := hx
  unfold sampleMatrix at hx2
  rw [mapM_ok] at hx2
  have hlen1 : ∀ r ∈ x, r.length = 1 := by
    clear hx hne hin
    induction hx2 with
    | nil => simp
    | cons h1 h2 ih =>
      intro r hr
      rcases List.mem_cons.1 hr with rfl | hr
      · simp only [bind, Except.bind] at h1
        split at h1
        · cases h1
        exact (sampleSlice_ok.1 h1).2.length_eq.symm
      · exact ih r hr
  have hxne : x ≠ [] := by
    rintro rfl
    have := hx2.length_eq
    simp at this
    exact hne this
  obtain ⟨m0, xs, rfl⟩ := List.exists_cons_of_ne_nil hxne
  have ht : ∃ xt, transposeFloats (m0 :: xs) = .ok xt ∧ xt.length = 1 := by
    have hm : m0.length = 1 := hlen1 m0 (by simp)
    have : ∃ xt, (List.range m0.length).mapM (fun i => (m0 :: xs).mapM fun row => goIdx row i) = .ok xt := by
      refine mapM_exists fun i hi => ?_
      rw [hm] at hi
      simp only [List.range_one, List.mem_singleton] at hi
      subst hi
      refine mapM_exists fun row hr => ?_
      have := hlen1 row hr
      exact ⟨row[0], goIdx_ok.2 (List.getElem?_eq_getElem (by omega))⟩
    obtain ⟨xt, hxt⟩ := this
    refine ⟨xt, ?_, ?_⟩
    · unfold transposeFloats goIdx
      simp only [List.getElem?_cons_zero, bind, Except.bind]
      exact hxt
    · have := (mapM_ok.1 hxt).length_eq
      simp [hm] at this
      exact this.symm
  obtain ⟨xt, hxt, hxl⟩ := ht
  refine ⟨xt[0], ?_⟩
  rw [hx]
  simp only [bind, Except.bind]
  rw [hxt]
  exact goIdx_ok.2 (List.getElem?_eq_getElem (by omega))

theorem argSort_range (S : GoSort) (col : List F) :
    ((argSort S col).1).Perm (List.range col.length) := by
  unfold argSort
  have := (S.perm idLess (col.zip (List.range col.length))).map Prod.snd
  rw [List.map_snd_zip (by simp)] at this
  exact this

/-- invariant of the options while a tree is built -/
structure BuildOk (X : List (List F)) (o : TreeOptions F) : Prop where
  targets : if o.xgb then ∃ g h, o.gradients = some g ∧ o.hessian = some h ∧
      g.length = X.length ∧ h.length = X.length else o.y.length = X.length
  ne : o.idx X ≠ []
  nodup : (o.idx X).Nodup
  range : ∀ i ∈ o.idx X, i < X.length
  scratch : (o.idx X).length ≤ (o.fill X).scratch.getD 0

theorem BuildOk.len {X : List (List F)} {o : TreeOptions F} (h : BuildOk X o) :
    (o.idx X).length ≤ X.length := by
  have hs : (o.idx X) ⊆ List.range X.length := fun i hi => by simpa using h.range i hi
  simpa using (List.subperm_of_subset h.nodup hs).length_le

theorem nodeValue_exists {X : List (List F)} {o : TreeOptions F} (h : BuildOk X o) :
    ∃ v, nodeValue (o.fill X) (o.idx X) = .ok v := by
  have hlen := h.len
  unfold nodeValue
  have ht := h.targets
  have hx : (o.fill X).xgb = o.xgb := rfl
  rw [hx]
  cases hq : o.xgb with
  | true =>
    simp only [hq, if_true] at ht ⊢
    obtain ⟨g, hh, e1, e2, l1, l2⟩ := ht
    have e3 : (o.fill X).gradients = some g := e1
    have e4 : (o.fill X).hessian = some hh := e2
    rw [e3, e4]
    obtain ⟨a, ha⟩ := sampleSlice_exists g (o.idx X) (by omega) (fun i hi => by have := h.range i hi; omega)
    obtain ⟨b, hb⟩ := sampleSlice_exists hh (o.idx X) (by omega) (fun i hi => by have := h.range i hi; omega)
    simp only [Option.getD_some, ha, hb, bind, Except.bind, pure, Except.pure]
    exact ⟨_, rfl⟩
  | false =>
    simp only [hq, Bool.false_eq_true, if_false] at ht ⊢
    have e3 : (o.fill X).y = o.y := rfl
    rw [e3]
    obtain ⟨a, ha⟩ := sampleSlice_exists o.y (o.idx X) (by omega) (fun i hi => by have := h.range i hi; omega)
    simp only [ha, bind, Except.bind, pure, Except.pure]
    exact ⟨_, rfl⟩

theorem findBetterSplit_exists {S : GoSort} {X : List (List F)} {o : TreeOptions F} (h : BuildOk X o)
    {c f : Nat} (hrect : ∀ row ∈ X, row.length = c) (hf : f < c) (best : Best F) :
    ∃ b, findBetterSplit S X (o.fill X) f best = .ok b := by
  have hlen := h.len
  obtain ⟨col, hcol⟩ := sampleCol_exists X (o.idx X) f c h.ne h.range hrect hf
  have hcl := sampleCol_length hcol
  have hperm := argSort_range S col
  have hidx : ∀ s : List F, s.length = (o.idx X).length → ∃ l, sampleSlice s (argSort S col).1 = .ok l := by
    intro s hs
    refine sampleSlice_exists s _ ?_ ?_
    · rw [hperm.length_eq]; simp; omega
    · intro i hi
      have := hperm.mem_iff.1 hi
      simp at this; omega
  have hscr := h.scratch
  have e0 : (o.fill X).indexes.getD [] = o.idx X := rfl
  have ht := h.targets
  have hx : (o.fill X).xgb = o.xgb := rfl
  unfold findBetterSplit
  rw [e0]
  simp only [hcol, bind, Except.bind, pure, Except.pure]
  rw [if_neg (by omega), hx]
  cases hq : o.xgb with
  | true =>
    simp only [hq, if_true] at ht ⊢
    obtain ⟨g, hh, e1, e2, l1, l2⟩ := ht
    have e3 : (o.fill X).gradients = some g := e1
    have e4 : (o.fill X).hessian = some hh := e2
    rw [e3, e4]
    obtain ⟨a, ha⟩ := sampleSlice_exists g (o.idx X) (by omega) (fun i hi => by have := h.range i hi; omega)
    obtain ⟨b, hb⟩ := sampleSlice_exists hh (o.idx X) (by omega) (fun i hi => by have := h.range i hi; omega)
    obtain ⟨a', ha'⟩ := hidx a (sampleSlice_ok.1 ha).2.length_eq.symm
    obtain ⟨b', hb'⟩ := hidx b (sampleSlice_ok.1 hb).2.length_eq.symm
    simp only [Option.getD_some, ha, hb, ha', hb']
    exact ⟨_, rfl⟩
  | false =>
    simp only [hq, Bool.false_eq_true, if_false] at ht ⊢
    have e3 : (o.fill X).y = o.y := rfl
    rw [e3]
    obtain ⟨a, ha⟩ := sampleSlice_exists o.y (o.idx X) (by omega) (fun i hi => by have := h.range i hi; omega)
    obtain ⟨a', ha'⟩ := hidx a (sampleSlice_ok.1 ha).2.length_eq.symm
    simp only [ha, ha']
    exact ⟨_, rfl⟩

theorem foldlM_exists {α β : Type} (f : β → α → Go β) (l : List α)
    (h : ∀ a ∈ l, ∀ b, ∃ b', f b a = .ok b') (b : β) : ∃ b', l.foldlM f b = .ok b' := by
  induction l generalizing b with
  | nil => exact ⟨b, rfl⟩
  | cons x xs ih =>
    obtain ⟨b1, hb1⟩ := h x (by simp) b
    obtain ⟨b2, hb2⟩ := ih (fun a ha => h a (by simp [ha])) b1
    refine ⟨b2, ?_⟩
    rw [List.foldlM_cons, hb1]
    exact hb2

theorem newTreeD_succ (S : GoSort) (X : List (List F)) (d : Nat) (o : TreeOptions F) :
    newTreeD S X (d + 1) o =
      (if o.xgb && o.gradients.isNone && o.hessian.isNone then .error .explicit
      else do
        let value ← nodeValue (o.fill X) (o.idx X)
        let row0 ← goIdx X 0
        let best ← searchSplit S X (o.fill X) row0.length (best0 o.xgb)
        if (mkInfo o X value row0.length best 1).leaf then
          pure (.node (mkInfo o X value row0.length best 1) .nil .nil)
        else
          let col ← sampleCol X (o.idx X) best.feature
          let l ← newTreeD S X d (o.child X (goLeft best.threshold col (o.idx X)))
          let r ← newTreeD S X d (o.child X (goRight best.threshold col (o.idx X)))
          pure (.node (mkInfo o X value row0.length best (1 + l.branches + r.branches)) l r)) := by
  rw [newTreeD]
  rfl

theorem newTreeD_exists [GoFloatOrd F] {S : GoSort} {X : List (List F)} (hX : X ≠ []) {c : Nat}
    (hrect : ∀ row ∈ X, row.length = c) (hn : NoNaN X) (hm : MidSafe X) (d : Nat)
    (o : TreeOptions F) (h : BuildOk X o) : ∃ t, newTreeD S X d o = .ok t := by
  induction d generalizing o with
  | zero =>
    obtain ⟨v, hv⟩ := nodeValue_exists h
    obtain ⟨row0, xs, rfl⟩ := List.exists_cons_of_ne_nil hX
    have hx : (o.xgb && o.gradients.isNone && o.hessian.isNone) = false := by
      have ht := h.targets
      cases hq : o.xgb with
      | false => rfl
      | true => simp only [hq, if_true] at ht; obtain ⟨g, _, e1, _⟩ := ht; simp [e1]
    unfold newTreeD
    rw [hx]
    simp only [TreeOptions.fill_idx, Bool.false_eq_true, if_false, bind, Except.bind, hv, goIdx,
      List.getElem?_cons_zero]
    exact ⟨_, rfl⟩
  | succ d ih =>
    obtain ⟨v, hv⟩ := nodeValue_exists h
    have hx : (o.xgb && o.gradients.isNone && o.hessian.isNone) = false := by
      have ht := h.targets
      cases hq : o.xgb with
      | false => rfl
      | true => simp only [hq, if_true] at ht; obtain ⟨g, _, e1, _⟩ := ht; simp [e1]
    have hrow : ∃ row0, X[0]? = some row0 ∧ row0.length = c := by
      obtain ⟨row0, xs, rfl⟩ := List.exists_cons_of_ne_nil hX
      exact ⟨row0, rfl, hrect row0 (by simp)⟩
    obtain ⟨row0, hr0, hc⟩ := hrow
    have hss : ∃ best, searchSplit S X (o.fill X) row0.length (best0 o.xgb) = .ok best := by
      unfold searchSplit
      refine foldlM_exists _ _ (fun f hf b => ?_) _
      have hf' : f < row0.length := by simp at hf; exact hf.1
      exact findBetterSplit_exists h hrect (by omega) b
    obtain ⟨best, hbest⟩ := hss
    rw [newTreeD_succ, hx]
    have hr0' : goIdx X 0 = .ok row0 := goIdx_ok.2 hr0
    simp only [Bool.false_eq_true, if_false, bind, Except.bind, hv, hr0', hbest, pure, Except.pure]
    by_cases hleaf : (mkInfo o X v row0.length best 1).leaf = true
    · rw [if_pos hleaf]; exact ⟨_, rfl⟩
    · rw [if_neg hleaf]
      have hne : best ≠ best0 o.xgb := by
        rintro rfl
        exact hleaf (leaf_best0 o X v row0.length 1)
      have hfc : best.feature < c := by
        obtain ⟨h5 | ⟨f, p, rows, A, B, k, x, x', hf, ha, hsc, hcd, hb, hbt⟩, _⟩ := searchSplit_spec hbest
        · exact absurd h5 hne
        · rw [hb]; simp only; omega
      obtain ⟨col, hcol⟩ := sampleCol_exists X (o.idx X) best.feature c h.ne h.range hrect hfc
      rw [hcol]
      obtain ⟨s, hscol⟩ := splitCut hbest hne hcol
      obtain ⟨_, hlen, _, hlt, hk, ⟨row, hr, hrv⟩, ⟨row', hr', hrv'⟩⟩ := s.cut hn
      obtain ⟨m1, m2⟩ := hm _ row row' _ _ hr hr' hrv hrv' hlt
      have hL := s.left_count hn m1
      have hR := s.right_count hn m2
      rw [hscol] at hL hR
      have hk1 := s.hcand.1
      have mk : ∀ ix, ix.Sublist (o.idx X) → ix ≠ [] → BuildOk X (o.child X ix) := by
        intro ix hs hne
        refine ⟨h.targets, hne, h.nodup.sublist hs, fun i hi => h.range i (hs.subset hi), ?_⟩
        have := hs.length_le
        have h2 := h.scratch
        show ix.length ≤ (o.fill X).scratch.getD 0
        omega
      obtain ⟨tl, htl⟩ := ih _ (mk _ (goLeft_sublist best.threshold col (o.idx X))
        (by intro h0; rw [h0] at hL; simp at hL; omega))
      obtain ⟨tr, htr⟩ := ih _ (mk _ (goRight_sublist best.threshold col (o.idx X))
        (by intro h0; rw [h0] at hR; simp at hR; omega))
      simp only [htl, htr]
      exact ⟨_, rfl⟩

/-- General form of C12. -/
theorem C12_of_midSafe [GoFloatOrd F] (S : GoSort) (X : List (List F)) (o : TreeOptions F)
    (h : WellFormed X o) (hn : NoNaN X) (hm : MidSafe X) : ∃ t, newTree S X o = .ok t := by
  obtain ⟨c, hrect⟩ := h.rect
  refine newTreeD_exists h.nonempty hrect hn hm _ o ?_
  have hidx : o.idx X ≠ [] ∧ (o.idx X).Nodup ∧ ∀ i ∈ o.idx X, i < X.length := by
    unfold TreeOptions.idx
    cases hq : o.indexes with
    | some l => exact h.indexes l hq
    | none =>
      refine ⟨?_, List.nodup_range, by simp⟩
      intro h0
      have := congrArg List.length h0
      simp at this
      exact h.nonempty this
  refine ⟨h.targets, hidx.1, hidx.2.1, hidx.2.2, ?_⟩
  show _ ≤ (some (o.scratch.getD _)).getD 0
  rw [h.fresh]
  exact le_refl _

/-! ### Exact arithmetic -/

section Exact
variable {K : Type} [Field K] [LinearOrder K] [IsStrictOrderedRing K] [FloorRing K]

/-- finite data -/
def finRows (X : List (List K)) : List (List (Exact K)) := X.map (·.map XF.fin)

theorem finRows_noNaN (X : List (List K)) : NoNaN (finRows X) := by
  intro row hr v hv
  simp only [finRows, List.mem_map] at hr
  obtain ⟨r, _, rfl⟩ := hr
  obtain ⟨a, _, rfl⟩ := List.mem_map.1 hv
  simp

theorem finRows_midSafe (X : List (List K)) : MidSafe (finRows X) := by
  intro f row row' a b hr hr' ha hb hab
  simp only [finRows, List.mem_map] at hr hr'
  obtain ⟨r, _, rfl⟩ := hr
  obtain ⟨r', _, rfl⟩ := hr'
  obtain ⟨a, _, rfl⟩ := List.mem_map.1 (List.mem_of_getElem? ha)
  obtain ⟨b, _, rfl⟩ := List.mem_map.1 (List.mem_of_getElem? hb)
  rw [XF.fin_lt, decide_eq_true_eq] at hab
  have h2 : ((2 : ℚ) : K) ≠ 0 := by norm_num
  rw [Exact.add_fin, Exact.ofRat_fin, Exact.div_fin _ _ h2, XF.fin_le, XF.fin_lt]
  have hpos : (0 : K) < ((2 : ℚ) : K) := by norm_num
  have hc : ((2 : ℚ) : K) = 2 := by norm_num
  simp only [decide_eq_true_eq]
  rw [le_div_iff₀ hpos, div_lt_iff₀ hpos, hc]
  constructor <;> linarith

/-- **C06 (exact arithmetic)**: on finite data every node but the root has at least
`int(MinChildWeight)` samples, and at least one. -/
theorem C06_exact (S : GoSort) (X : List (List K)) (o : TreeOptions (Exact K))
    (t : Tree (Exact K)) (h : newTree S (finRows X) o = .ok t)
    (path : List Bool) (hne : path ≠ []) (i : NodeInfo (Exact K)) (l r : Tree (Exact K))
    (hp : t.sub path = .node i l r) :
    1 ≤ i.samples.length ∧ toInt o.minChildWeight ≤ i.samples.length :=
  C06_of_midSafe S _ o t h (finRows_noNaN X) (finRows_midSafe X) path hne i l r hp

/-- **C06 (exact arithmetic, in numbers)**: if `MinChildWeight` is `w` with `0 ≤ w < 2^63`, every node but the root has more than
`w - 1` samples, so at least `w` for a whole number. -/
theorem C06_weight (S : GoSort) (X : List (List K)) (o : TreeOptions (Exact K)) (w : K) (hw : o.minChildWeight = .fin w)
    (h0 : 0 ≤ w) (h1 : w < 2 ^ 63) (t : Tree (Exact K)) (h : newTree S (finRows X) o = .ok t)
    (path : List Bool) (hne : path ≠ []) (i : NodeInfo (Exact K)) (l r : Tree (Exact K))
    (hp : t.sub path = .node i l r) : w < i.samples.length + 1 ∧ ∀ n : Nat, w = n → n ≤ i.samples.length := by
  have := (C06_exact S X o t h path hne i l r hp).2
  rw [hw, XF.toInt_floor h0 h1, Int.floor_le_iff] at this
  push_cast at this
  refine ⟨this, ?_⟩
  rintro n rfl
  have : n < i.samples.length + 1 := by exact_mod_cast this
  omega

/-- **C12 (exact arithmetic)**: `NewTree` does not panic on well-formed finite input. -/
theorem C12_exact (S : GoSort) (X : List (List K)) (o : TreeOptions (Exact K))
    (h : WellFormed (finRows X) o) : ∃ t, newTree S (finRows X) o = .ok t :=
  C12_of_midSafe S _ o h (finRows_noNaN X) (finRows_midSafe X)

end Exact

/-- `WellFormed` is met by the running example (any arithmetic). -/
example : WellFormed (finRows [[(0 : ℚ), 5], [1, 3], [2, 9], [3, 1]])
    { (defaultGTreeOptions : TreeOptions (Exact ℚ)) with
      y := [.fin 1, .fin 2, .fin 10, .fin 20], indexes := some [2, 0, 3] } :=
  ⟨by simp [finRows], ⟨2, by simp [finRows]⟩, by simp [finRows, defaultGTreeOptions],
   by rintro l ⟨⟩; simp [finRows], rfl⟩

/-! ### binary64 -/

section AnyOrder

variable {τ : Option SumOrder}
/-- float64, with any order of the additions of `floats.Sum` -/
local notation "F64" => F64o τ

/-- All values are finite float64 of magnitude at most `2^1022`. -/
def Bounded64 (X : List (List F64)) : Prop :=
  ∀ row ∈ X, ∀ v ∈ row, ∃ x : ℚ, v = .fin x ∧ Rep64 x ∧ |x| ≤ 2 ^ (1022 : Int)

/-- All values are multiples `m * 2^e` of one power of two with `|m| < 2^52`, `-1073 ≤ e ≤ 970`
(e.g. `e = 0`: integers below `2^52`; `e = -20`: fixed-point numbers with 20 binary places). -/
def Grid64 (e : Int) (X : List (List F64)) : Prop :=
  -1073 ≤ e ∧ e ≤ 970 ∧
  ∀ row ∈ X, ∀ v ∈ row, ∃ m : Int, v = .fin ((m : ℚ) * 2 ^ e) ∧ |m| < 2 ^ 52

theorem Bounded64.noNaN {X : List (List F64)} (h : Bounded64 X) : NoNaN X := by
  intro row hr v hv
  obtain ⟨x, rfl, _⟩ := h row hr v hv
  simp

theorem Bounded64.midWeak {X : List (List F64)} (h : Bounded64 X) : MidWeak X := by
  intro f row row' a b hr hr' ha hb hab
  obtain ⟨a, rfl, ra, ba⟩ := h row hr a (List.mem_of_getElem? ha)
  obtain ⟨b, rfl, rb, bb⟩ := h row' hr' b (List.mem_of_getElem? hb)
  rw [XF.fin_lt, decide_eq_true_eq] at hab
  obtain ⟨m, hm, h1, h2, _⟩ := mid64 ra rb hab ba bb
  rw [hm, XF.fin_le]
  simpa using h1

theorem Grid64.bounded {e : Int} {X : List (List F64)} (h : Grid64 e X) : Bounded64 X := by
  intro row hr v hv
  obtain ⟨m, rfl, hm⟩ := h.2.2 row hr v hv
  refine ⟨_, rfl, rep64_grid (lt_trans hm (by norm_num)) (by have := h.1; omega) (by have := h.2.1; omega), ?_⟩
  rw [abs_mul, abs_of_pos (two_zpow_pos e)]
  have h1 : |(m : ℚ)| ≤ 2 ^ (52 : Int) := by
    have h1 : ((|m| : Int) : ℚ) < ((2 ^ 52 : Int) : ℚ) := by exact_mod_cast hm
    rw [Int.cast_abs] at h1
    refine le_of_lt (lt_of_lt_of_eq h1 ?_)
    norm_num
  calc |(m : ℚ)| * 2 ^ e ≤ 2 ^ (52 : Int) * 2 ^ e :=
        mul_le_mul_of_nonneg_right h1 (two_zpow_pos e).le
    _ = 2 ^ (52 + e) := by rw [← zpow_add₀ (by norm_num)]
    _ ≤ 2 ^ (1022 : Int) := zpow_le_zpow_right₀ (by norm_num) (by have := h.2.1; omega)

theorem Grid64.midSafe {e : Int} {X : List (List F64)} (h : Grid64 e X) : MidSafe X := by
  intro f row row' a b hr hr' ha hb hab
  have hb1 := h.bounded row hr a (List.mem_of_getElem? ha)
  have hb2 := h.bounded row' hr' b (List.mem_of_getElem? hb)
  obtain ⟨m, rfl, hm⟩ := h.2.2 row hr a (List.mem_of_getElem? ha)
  obtain ⟨n, rfl, hn⟩ := h.2.2 row' hr' b (List.mem_of_getElem? hb)
  rw [XF.fin_lt, decide_eq_true_eq] at hab
  obtain ⟨_, e1, ra, ba⟩ := hb1
  cases e1
  obtain ⟨_, e2, rb, bb⟩ := hb2
  cases e2
  obtain ⟨q, hq, _, _, h3⟩ := mid64 ra rb hab ba bb
  rw [mid64_grid hm hn h.1] at h3
  rw [hq, XF.fin_le, XF.fin_lt, h3]
  simp only [decide_eq_true_eq]
  constructor <;> linarith

/-- **C06 (binary64, left children)**: for finite data of magnitude up to `2^1022`, every *left* child
has at least `max(1, int(MinChildWeight))` samples. Missing: right children, see `C06_violated_binary64`. -/
theorem C06_binary64_left_partial (S : GoSort) (X : List (List F64)) (o : TreeOptions F64)
    (t : Tree F64) (h : newTree S X o = .ok t) (hX : Bounded64 X)
    (path : List Bool) (i : NodeInfo F64) (l r : Tree F64)
    (hp : t.sub (path ++ [true]) = .node i l r) :
    1 ≤ i.samples.length ∧ toInt o.minChildWeight ≤ i.samples.length :=
  C06_left_of_midWeak S X o t h hX.noNaN hX.midWeak path i l r hp

/-- **C06 (binary64, data on a grid)**: the full claim for data that are multiples of one power of two. -/
theorem C06_binary64_grid_partial (S : GoSort) (e : Int) (X : List (List F64)) (o : TreeOptions F64)
    (t : Tree F64) (h : newTree S X o = .ok t) (hX : Grid64 e X)
    (path : List Bool) (hne : path ≠ []) (i : NodeInfo F64) (l r : Tree F64)
    (hp : t.sub path = .node i l r) :
    1 ≤ i.samples.length ∧ toInt o.minChildWeight ≤ i.samples.length :=
  C06_of_midSafe S X o t h hX.bounded.noNaN hX.midSafe path hne i l r hp

/-- **C12 (binary64, data on a grid)** -/
theorem C12_binary64_grid_partial (S : GoSort) (e : Int) (X : List (List F64)) (o : TreeOptions F64)
    (h : WellFormed X o) (hX : Grid64 e X) : ∃ t, newTree S X o = .ok t :=
  C12_of_midSafe S X o h hX.bounded.noNaN hX.midSafe

end AnyOrder

example : Grid64 0 exX := by
  refine ⟨by norm_num, by norm_num, ?_⟩
  intro row hr v hv
  simp only [exX, List.mem_cons, List.not_mem_nil, or_false] at hr
  have mk : ∀ n : Int, |n| < 2 ^ 52 → ∃ m : Int, (XF.fin (n : ℚ) : F64) = .fin ((m : ℚ) * 2 ^ (0 : Int)) ∧ |m| < 2 ^ 52 :=
    fun n hn => ⟨n, by simp, hn⟩
  rcases hr with rfl | rfl | rfl | rfl <;>
    simp only [List.mem_cons, List.not_mem_nil, or_false] at hv <;> rcases hv with rfl | rfl
  · exact mk 0 (by norm_num)
  · exact mk 5 (by norm_num)
  · exact mk 1 (by norm_num)
  · exact mk 3 (by norm_num)
  · exact mk 2 (by norm_num)
  · exact mk 9 (by norm_num)
  · exact mk 3 (by norm_num)
  · exact mk 1 (by norm_num)

/-- two adjacent float64 above 1 -/
def adjX : List (List F64) := [[.fin (1 + 1 / 2 ^ 52)], [.fin (1 + 2 / 2 ^ 52)]]
def adjO (depth : Int) : TreeOptions F64 :=
  { (defaultGTreeOptions : TreeOptions F64) with y := [.fin 0, .fin 1], maxDepth := depth }

example : Rep64 (1 + 1 / 2 ^ 52) ∧ Rep64 (1 + 2 / 2 ^ 52) := by
  constructor <;> (unfold Rep64; decide +kernel)

/-- **C06 is violated in binary64**: with `MinChildWeight = 1` and two adjacent float64 values the
threshold is rounded up to the larger value and the right child gets no sample. -/
theorem C06_violated_binary64 : ∃ t i, newTree GoSort.ins adjX (adjO 1) = .ok t ∧
    t.sub [false] = .node i .nil .nil ∧ i.samples = [] ∧ i.value = .nan := by
  have h : (match newTree GoSort.ins adjX (adjO 1) with
    | .ok t => match t.sub [false] with
      | .node i .nil .nil => decide (i.samples = []) && decide (i.value = .nan)
      | _ => false
    | .error _ => false) = true := by decide +kernel
  split at h
  · rename_i t ht
    split at h
    · rename_i i hi
      simp only [Bool.and_eq_true, decide_eq_true_eq] at h
      exact ⟨t, i, ht, hi, h.1, h.2⟩
    · cases h
  · cases h

/-- **C06 is violated for huge `MinChildWeight`**: from `2^63` on (on amd64) `int(MinChildWeight)` is negative and the limit has no
effect: with `MinChildWeight = 2^63` or `+Inf` two rows are split into two children of one row each. -/
theorem C06_violated_weight (w : F64) (hw : w = .fin (2 ^ 63) ∨ w = .inf false) : ∃ t i,
    newTree GoSort.ins [[.fin 0], [.fin 1]] { adjO 1 with minChildWeight := w } = .ok t ∧ t.sub [true] = .node i .nil .nil ∧
      i.samples = [0] := by
  have h : (match newTree GoSort.ins [[.fin 0], [.fin 1]] { adjO 1 with minChildWeight := w } with
    | .ok t => match t.sub [true] with
      | .node i .nil .nil => decide (i.samples = [0])
      | _ => false
    | .error _ => false) = true := by rcases hw with rfl | rfl <;> decide +kernel
  split at h
  · rename_i t ht
    split at h
    · rename_i i hi
      simp only [decide_eq_true_eq] at h
      exact ⟨t, i, ht, hi, h⟩
    · cases h
  · cases h

/-- the violating input is well formed -/
theorem adj_wellFormed (d : Int) : WellFormed adjX (adjO d) :=
  ⟨by simp [adjX], ⟨1, by simp [adjX]⟩, by simp [adjX, adjO, defaultGTreeOptions],
   by simp [adjO, defaultGTreeOptions], rfl⟩

/-- **C12 is violated in binary64**: one level deeper, `NewTree` panics on the empty child. -/
theorem C12_violated_binary64 : WellFormed adjX (adjO 2) ∧ NoNaN adjX ∧
    newTree GoSort.ins adjX (adjO 2) = .error .index := by
  refine ⟨adj_wellFormed 2, ?_, by decide +kernel⟩
  intro row hr v hv
  simp only [adjX, List.mem_cons, List.not_mem_nil, or_false] at hr
  rcases hr with rfl | rfl <;> simp only [List.mem_cons, List.not_mem_nil, or_false] at hv <;>
    subst hv <;> simp

/-- two large values whose sum overflows: the threshold is +Inf and the right child is empty -/
theorem C06_violated_overflow : ∃ t i,
    newTree GoSort.ins ([[.fin (2 ^ 1023)], [.fin (3 * 2 ^ 1022)]] : List (List F64)) (adjO 1) = .ok t ∧
    t.sub [false] = .node i .nil .nil ∧ i.samples = [] := by
  have h : (match newTree GoSort.ins ([[.fin (2 ^ 1023)], [.fin (3 * 2 ^ 1022)]] : List (List F64)) (adjO 1) with
    | .ok t => match t.sub [false] with
      | .node i .nil .nil => decide (i.samples = [])
      | _ => false
    | .error _ => false) = true := by decide +kernel
  split at h
  · rename_i t ht
    split at h
    · rename_i i hi
      exact ⟨t, i, ht, hi, by simpa using h⟩
    · cases h
  · cases h

end Boo
