import Verif.Lemmas.ScanRel
import Verif.Lemmas.InvarianceModel

/-!
# C83: columns that carry nothing

A constant column, or a copy of a column, appended to the data changes nothing (any arithmetic with the comparison laws
of IEEE 754).
-/

namespace Boo
open GoFloat
set_option linter.unusedSectionVars false
variable {F : Type} [GoFloat F]

/-- the data with one more column: `φ row` is the new entry of a row -/
def addColumn (φ : List F → F) (X : List (List F)) : List (List F) := X.map fun row => row ++ [φ row]

/-- the new column is constant (and not NaN), or equal to column `f` -/
def CarriesNothing (φ : List F → F) (X : List (List F)) : Prop :=
  (∃ c, (c ==. c) = true ∧ ∀ row ∈ X, φ row = c) ∨ ∃ f : Nat, ∀ row ∈ X, row[f]? = some (φ row)

/-- the same tree, with the number of features that each node reports set to `n` -/
def Tree.withFeatures (n : Nat) : Tree F → Tree F
  | .nil => .nil
  | .node i l r => .node { i with features := n } (l.withFeatures n) (r.withFeatures n)

/-- every split is on one of the first `n` features -/
def Tree.SplitsBelow (n : Nat) : Tree F → Prop
  | .nil => True
  | .node i l r => (i.leaf = false → i.splitFeatureIndex < n) ∧ l.SplitsBelow n ∧ r.SplitsBelow n

theorem addColumn_fill (φ : List F → F) (X : List (List F)) (o : TreeOptions F) :
    o.fill (addColumn φ X) = o.fill X ∧ o.idx (addColumn φ X) = o.idx X := by
  unfold TreeOptions.fill TreeOptions.idx addColumn
  simp

theorem addColumn_child (φ : List F → F) (X : List (List F)) (o : TreeOptions F) (i : List Nat) :
    o.child (addColumn φ X) i = o.child X i := by
  unfold TreeOptions.child
  rw [(addColumn_fill φ X o).1]

theorem addColumn_get (φ : List F → F) (X : List (List F)) (i : Nat) :
    (addColumn φ X)[i]? = X[i]?.map fun row => row ++ [φ row] := by
  unfold addColumn; rw [List.getElem?_map]

theorem addColumn_rect {φ : List F → F} {X : List (List F)} {n : Nat} (h : ∀ row ∈ X, row.length = n) :
    ∀ row ∈ addColumn φ X, row.length = n + 1 := by
  intro row hr
  obtain ⟨r, h1, rfl⟩ := List.mem_map.1 hr
  simp [h r h1]

/-- two columns with the same entries are read alike -/
theorem sampleCol_same {X X' : List (List F)} {idx : List Nat} {f f' n' : Nat} {col : List F}
    (h : sampleCol X idx f = .ok col) (hne : idx ≠ []) (hr : ∀ row ∈ X', row.length = n') (hf' : f' < n')
    (hsame : ∀ i ∈ idx, ∀ row v, X[i]? = some row → row[f]? = some v → ∃ row', X'[i]? = some row' ∧ row'[f']? = some v) :
    sampleCol X' idx f' = .ok col := by
  have h1 := sampleCol_ok h
  have hget : ∀ (l : List Nat) (c : List F),
      List.Forall₂ (fun i v => ∃ row, X[i]? = some row ∧ row[f]? = some v) l c → (∀ i ∈ l, i ∈ idx) →
      List.Forall₂ (fun i v => ∃ row, X'[i]? = some row ∧ row[f']? = some v) l c := by
    intro l c hl
    induction hl with
    | nil => intro _; exact .nil
    | cons a b ih =>
      intro hm
      obtain ⟨row, e1, e2⟩ := a
      exact .cons (hsame _ (hm _ (by simp)) row _ e1 e2) (ih fun i hi => hm i (by simp [hi]))
  have h2 := hget _ _ h1 (fun i hi => hi)
  have hrange : ∀ i ∈ idx, i < X'.length := by
    intro i hi
    obtain ⟨k, hk⟩ := List.mem_iff_getElem?.1 hi
    obtain ⟨v, _⟩ : ∃ v, col[k]? = some v := by
      have : k < col.length := by
        rw [← h2.length_eq]
        exact (List.getElem?_eq_some_iff.1 hk).1
      exact ⟨_, List.getElem?_eq_getElem this⟩
    have hkl : k < idx.length := (List.getElem?_eq_some_iff.1 hk).1
    have := h2.get hkl (by rw [← h2.length_eq]; exact hkl)
    obtain ⟨row, e1, _⟩ := this
    have he : idx.get ⟨k, hkl⟩ = i := by
      rw [List.getElem?_eq_getElem hkl] at hk
      exact Option.some.inj hk
    rw [he] at e1
    exact (List.getElem?_eq_some_iff.1 e1).1
  obtain ⟨col', h3⟩ := sampleCol_exists X' idx f' n' hne hrange hr hf'
  have h4 := sampleCol_ok h3
  have : col' = col := by
    clear h h1 hget hrange h3 hne hsame
    induction h2 generalizing col' with
    | nil => cases h4; rfl
    | cons a b ih =>
      cases h4 with
      | cons a' b' =>
        obtain ⟨row, e1, e2⟩ := a
        obtain ⟨row', e1', e2'⟩ := a'
        rw [e1] at e1'; cases e1'
        rw [e2] at e2'; cases e2'
        rw [ih _ b']
  rw [h3, this]

theorem findBetterSplit_col {S : GoSort} {X X' : List (List F)} {o : TreeOptions F} {f : Nat} {best : Best F}
    (h : sampleCol X' (o.indexes.getD []) f = sampleCol X (o.indexes.getD []) f) :
    findBetterSplit S X' o f best = findBetterSplit S X o f best := by
  unfold findBetterSplit
  simp only [h]

/-- some step of a successful loop over the features -/
theorem foldlM_step {α β : Type} {f : β → α → Go β} {l : List α} {b b' : β} (h : l.foldlM f b = .ok b') {a : α}
    (ha : a ∈ l) : ∃ c c', f c a = .ok c' := by
  induction l generalizing b with
  | nil => cases ha
  | cons x xs ih =>
    rw [List.foldlM_cons] at h
    simp only [bind, Except.bind] at h
    split at h
    · cases h
    rename_i c hc
    rcases List.mem_cons.1 ha with rfl | ha
    · exact ⟨b, c, hc⟩
    · exact ih h ha

variable [GoFloatOrd F]

/-- the search of a column with the values of column `f` finds nothing better, once `f` was searched -/
theorem copy_step {S : GoSort} {X X' : List (List F)} {o : TreeOptions F} {n f f' : Nat} {init best : Best F}
    (hs : searchSplit S X o n init = .ok best) (hf : f < n) (ha : columnAllowed o f = true)
    (hcol : ∀ col, sampleCol X (o.indexes.getD []) f = .ok col → sampleCol X' (o.indexes.getD []) f' = .ok col) :
    findBetterSplit S X' o f' best = .ok best := by
  obtain ⟨_, hno⟩ := searchSplit_spec hs
  obtain ⟨p, rows, A, B, hsc, hno⟩ := hno f hf ha
  unfold searchSplit at hs
  obtain ⟨c, c', hc⟩ := foldlM_step hs (a := f) (by simp [hf, ha])
  obtain ⟨col, h1, h2, h3⟩ := findBetterSplit_inv hc
  rcases h3 with ⟨hx, g, hh, sg, sh, e1, e2, e3, e4, -⟩ | ⟨hx, y, sy, e1, e2, -⟩
  · obtain ⟨rfl, rfl, rfl, rfl⟩ := hsc.unique ⟨col, h1, Or.inl ⟨hx, g, hh, sg, sh, e1, e2, e3, e4, rfl, rfl, rfl, rfl⟩⟩
    rw [findBetterSplit_mk_xgb (hcol col h1) h2 hx e1 e2 e3 e4]
    obtain ⟨q | ⟨k, x, x', q1, q2, q3⟩, _⟩ := scan_spec ⟨true, toInt o.minChildWeight, o.lambda, o.gamma, GoFloat.sum g,
      GoFloat.sum hh, (o.indexes.getD []).length, f'⟩ ((argSort S col).2.zip (sg.zip sh)) 0
      ((o.indexes.getD []).length : Int) zero (GoFloat.sum g) zero (GoFloat.sum hh) best
    · rw [q]
    · have := hno k x x' q1
      rw [hx] at this
      exact absurd (q3.symm.trans this) (by simp)
  · obtain ⟨rfl, rfl, rfl, rfl⟩ := hsc.unique ⟨col, h1, Or.inr ⟨hx, y, sy, e1, e2, rfl, rfl, rfl, rfl⟩⟩
    rw [findBetterSplit_mk_reg (hcol col h1) h2 hx e1 e2]
    obtain ⟨q | ⟨k, x, x', q1, q2, q3⟩, _⟩ := scan_spec ⟨false, toInt o.minChildWeight, o.lambda, o.gamma, GoFloat.sum sy,
      zero, (o.indexes.getD []).length, f'⟩ ((argSort S col).2.zip (sy.zip sy)) 0
      ((o.indexes.getD []).length : Int) zero (GoFloat.sum sy) zero zero best
    · rw [q]
    · have := hno k x x' q1
      rw [hx] at this
      exact absurd (q3.symm.trans this) (by simp)

theorem scan_const {p : ScanParams F} {c : F} (hcc : (c ==. c) = true) (rows : List (F × F × F))
    (hrows : ∀ r ∈ rows, r.1 = c) (nl nr : Int) (aL aR bL bR : F) (best : Best F) :
    scan p rows nl nr aL aR bL bR best = best := by
  obtain ⟨q | ⟨k, x, x', ⟨_, q1, q2, _, _, q3⟩, _⟩, _⟩ := scan_spec p rows nl nr aL aR bL bR best
  · exact q
  · obtain ⟨r, hr, rfl⟩ := Option.map_eq_some_iff.1 q1
    obtain ⟨r', hr', rfl⟩ := Option.map_eq_some_iff.1 q2
    rw [hrows r (List.mem_of_getElem? hr), hrows r' (List.mem_of_getElem? hr'), hcc] at q3
    cases q3

/-- the search of a constant column finds nothing -/
theorem const_step {S : GoSort} {X X' : List (List F)} {o : TreeOptions F} {n f f' : Nat} {init b0 best : Best F}
    (hs : searchSplit S X o n init = .ok b0) (hf : f < n) (ha : columnAllowed o f = true) {c : F} (hcc : (c ==. c) = true)
    (hcol : sampleCol X' (o.indexes.getD []) f' = .ok (List.replicate (o.indexes.getD []).length c)) :
    findBetterSplit S X' o f' best = .ok best := by
  unfold searchSplit at hs
  obtain ⟨_, _, hc⟩ := foldlM_step hs (a := f) (by simp [hf, ha])
  obtain ⟨col, h1, h2, h3⟩ := findBetterSplit_inv hc
  have hlen := sampleCol_length h1
  have hperm := argSort_range S (List.replicate (o.indexes.getD []).length c)
  have hsort : ∀ s : List F, s.length = (o.indexes.getD []).length →
      ∃ l, sampleSlice s (argSort S (List.replicate (o.indexes.getD []).length c)).1 = .ok l := by
    intro s hs
    refine sampleSlice_exists s _ ?_ ?_
    · rw [hperm.length_eq]; simp; omega
    · intro i hi
      have := hperm.mem_iff.1 hi
      simp at this; omega
  have hvals : ∀ (l : List (F × F)) (r : F × F × F),
      r ∈ (argSort S (List.replicate (o.indexes.getD []).length c)).2.zip l → r.1 = c := by
    intro l r hr
    have h := (List.of_mem_zip (show (r.1, r.2) ∈ _ from hr)).1
    unfold argSort at h
    simp only at h
    obtain ⟨q, hq, hq2⟩ := List.mem_map.1 h
    have hq' := (S.perm _ _).mem_iff.1 hq
    have := (List.of_mem_zip (show (q.1, q.2) ∈ _ from hq')).1
    rw [← hq2]
    exact List.eq_of_mem_replicate this
  have hl2 : (List.replicate (o.indexes.getD []).length c).length ≤ o.scratch.getD 0 := by
    rw [List.length_replicate, ← hlen]; exact h2
  rcases h3 with ⟨hx, g, hh, sg, sh, e1, e2, e3, e4, -⟩ | ⟨hx, y, sy, e1, e2, -⟩
  · obtain ⟨sg', e3'⟩ := hsort g (sampleSlice_length e1)
    obtain ⟨sh', e4'⟩ := hsort hh (sampleSlice_length e2)
    rw [findBetterSplit_mk_xgb hcol hl2 hx e1 e2 e3' e4', scan_const hcc _ (hvals _)]
  · obtain ⟨sy', e2'⟩ := hsort y (sampleSlice_length e1)
    rw [findBetterSplit_mk_reg hcol hl2 hx e1 e2', scan_const hcc _ (hvals _)]

/-- the loop over the features of the data with the new column -/
theorem search_addColumn {S : GoSort} {X : List (List F)} {φ : List F → F} {o : TreeOptions F} {n : Nat} {init best : Best F}
    (hn : 1 ≤ n) (hrect : ∀ row ∈ X, row.length = n) (hφ : CarriesNothing φ X) (hal : ∀ c ∈ o.allowedColumns, c < n)
    (hs : searchSplit S X o n init = .ok best) : searchSplit S (addColumn φ X) o (n + 1) init = .ok best := by
  -- some column is searched
  obtain ⟨f0, hf0, ha0⟩ : ∃ f, f < n ∧ columnAllowed o f = true := by
    unfold columnAllowed
    rcases hl : o.allowedColumns with _ | ⟨c, cs⟩
    · exact ⟨0, by omega, by simp⟩
    · exact ⟨c, hal c (by simp [hl]), by simp⟩
  have hs0 := hs
  unfold searchSplit at hs0
  obtain ⟨_, _, hc0⟩ := foldlM_step hs0 (a := f0) (by simp [hf0, ha0])
  obtain ⟨col0, hcol0, _⟩ := findBetterSplit_inv hc0
  have hne := sampleCol_ne hcol0
  have hin : ∀ i ∈ o.indexes.getD [], i < X.length := by
    intro i hi
    have := sampleCol_ok hcol0
    obtain ⟨k, hk⟩ := List.mem_iff_getElem?.1 hi
    have hkl : k < (o.indexes.getD []).length := (List.getElem?_eq_some_iff.1 hk).1
    obtain ⟨row, e1, _⟩ := this.get hkl (by rw [← this.length_eq]; exact hkl)
    have he : (o.indexes.getD []).get ⟨k, hkl⟩ = i := by
      rw [List.getElem?_eq_getElem hkl] at hk
      exact Option.some.inj hk
    rw [he] at e1
    exact (List.getElem?_eq_some_iff.1 e1).1
  have hrect' := addColumn_rect (φ := φ) hrect
  -- the old columns
  have hold : ∀ f < n, sampleCol (addColumn φ X) (o.indexes.getD []) f = sampleCol X (o.indexes.getD []) f := by
    intro f hf
    obtain ⟨col, hcol⟩ := sampleCol_exists X _ f n hne hin hrect hf
    rw [hcol]
    refine sampleCol_same hcol hne hrect' (by omega) fun i hi row v e1 e2 => ⟨row ++ [φ row], ?_, ?_⟩
    · rw [addColumn_get, e1]; rfl
    · rw [List.getElem?_append_left (List.getElem?_eq_some_iff.1 e2).1]; exact e2
  have hloop : ∀ l : List Nat, (∀ f ∈ l, f < n) → ∀ b : Best F,
      l.foldlM (fun best i => findBetterSplit S (addColumn φ X) o i best) b =
      l.foldlM (fun best i => findBetterSplit S X o i best) b := by
    intro l hl
    induction l with
    | nil => intro b; rfl
    | cons f fs ih =>
      intro b
      rw [List.foldlM_cons, List.foldlM_cons, findBetterSplit_col (hold f (hl f (by simp)))]
      congr 1
      funext b'
      exact ih (fun f hf => hl f (by simp [hf])) b'
  unfold searchSplit
  rw [List.range_succ, List.filter_append, List.foldlM_append, hloop _ (by simp +contextual)]
  rw [hs0]
  simp only [bind, Except.bind]
  by_cases hnew : columnAllowed o n = true
  · have hal0 : o.allowedColumns = [] := by
      unfold columnAllowed at hnew
      rcases hl : o.allowedColumns with _ | ⟨c, cs⟩
      · rfl
      · exfalso
        have hmem : n ∈ o.allowedColumns := by
          rw [hl] at hnew ⊢
          simpa using hnew
        have := hal n hmem
        omega
    have hfil : List.filter (columnAllowed o) [n] = [n] := by simp [hnew]
    rw [hfil, List.foldlM_cons]
    have hstep : findBetterSplit S (addColumn φ X) o n best = .ok best := by
      rcases hφ with ⟨c, hcc, hc⟩ | ⟨f, hf⟩
      · refine const_step (f := f0) hs hf0 ha0 hcc ?_
        obtain ⟨col, hcol⟩ := sampleCol_exists (addColumn φ X) (o.indexes.getD []) n (n + 1) hne
          (by unfold addColumn; simpa using hin) hrect' (by omega)
        rw [hcol]
        congr 1
        have h1 := sampleCol_ok hcol
        have h2 := h1.length_eq
        refine List.eq_replicate_iff.2 ⟨h2.symm, ?_⟩
        intro v hv
        obtain ⟨k, hk⟩ := List.mem_iff_getElem?.1 hv
        have hkl : k < col.length := (List.getElem?_eq_some_iff.1 hk).1
        obtain ⟨row, e1, e2⟩ := h1.get (by rw [h2]; exact hkl) hkl
        have he : col.get ⟨k, hkl⟩ = v := by
          rw [List.getElem?_eq_getElem hkl] at hk
          exact Option.some.inj hk
        rw [he] at e2
        rw [addColumn_get] at e1
        obtain ⟨r, hr, rfl⟩ := Option.map_eq_some_iff.1 e1
        have hrm := List.mem_of_getElem? hr
        rw [List.getElem?_append_right (by rw [hrect r hrm]), hrect r hrm] at e2
        simp only [Nat.sub_self, List.getElem?_cons_zero, Option.some.injEq] at e2
        rw [← e2, hc r hrm]
      · have hX : ∃ row, row ∈ X := by
          obtain ⟨i, is, hi⟩ := List.exists_cons_of_ne_nil hne
          have := hin i (by rw [hi]; simp)
          exact ⟨X[i], List.getElem_mem this⟩
        obtain ⟨row1, hrow1⟩ := hX
        have hfn : f < n := by
          have := (List.getElem?_eq_some_iff.1 (hf row1 hrow1)).1
          rw [hrect row1 hrow1] at this; exact this
        refine copy_step (f := f) hs hfn (by unfold columnAllowed; simp [hal0]) ?_
        intro col hcol
        refine sampleCol_same hcol hne hrect' (by omega) fun i hi row v e1 e2 => ⟨row ++ [φ row], ?_, ?_⟩
        · rw [addColumn_get, e1]; rfl
        · have hrm := List.mem_of_getElem? e1
          rw [List.getElem?_append_right (by rw [hrect row hrm]), hrect row hrm]
          rw [hf row hrm] at e2
          simpa using e2
    rw [hstep]
    rfl
  · have hfil : List.filter (columnAllowed o) [n] = [] := by simp [hnew]
    rw [hfil]
    rfl

theorem newTreeD_addColumn {S : GoSort} {X : List (List F)} {φ : List F → F} {n : Nat} (hn : 1 ≤ n)
    (hrect : ∀ row ∈ X, row.length = n) (hφ : CarriesNothing φ X) (d : Nat) (o : TreeOptions F) (t : Tree F)
    (hal : ∀ c ∈ o.allowedColumns, c < n) (h : newTreeD S X d o = .ok t) :
    newTreeD S (addColumn φ X) d o = .ok (t.withFeatures (n + 1)) ∧ t.SplitsBelow n ∧
      (t.withFeatures (n + 1)).branches = t.branches := by
  induction d generalizing o t with
  | zero =>
    obtain ⟨v, row0, hv, hr, hx, ⟨_, rfl⟩ | ⟨_, best, h0, _⟩ | ⟨d1, best, col, tl, tr, h0, _⟩⟩ :=
      newTreeD_inv _ _ _ _ _ h
    · have hlen := hrect row0 (List.mem_of_getElem? hr)
      have := newTreeD_mk_zero (S := S) (X := addColumn φ X) (o := o) (v := v) (row0 := row0 ++ [φ row0]) hx
        (by rw [(addColumn_fill φ X o).1, (addColumn_fill φ X o).2]; exact hv) (by rw [addColumn_get, hr]; rfl)
      rw [this]
      refine ⟨?_, ⟨fun hlf => ?_, trivial, trivial⟩, rfl⟩
      · unfold mkInfo
        rw [(addColumn_fill φ X o).2]
        simp [Tree.withFeatures, hlen]
      · rw [leaf_best0] at hlf; cases hlf
    · omega
    · omega
  | succ d ih =>
    obtain ⟨v, row0, hv, hr, hx, ⟨h0, _⟩ | ⟨_, best, _, hs, hl, rfl⟩ |
      ⟨d1, best, col, tl, tr, h0, hs, hl, hc, h1, h2, rfl⟩⟩ := newTreeD_inv _ _ _ _ _ h
    · omega
    · have hlen := hrect row0 (List.mem_of_getElem? hr)
      rw [hlen] at hs
      have hs' := search_addColumn (φ := φ) hn hrect hφ (o := o.fill X) hal hs
      have hinfo : ∀ k, mkInfo o (addColumn φ X) v (row0 ++ [φ row0]).length best k =
          { mkInfo o X v row0.length best k with features := n + 1 } := by
        intro k
        unfold mkInfo
        rw [(addColumn_fill φ X o).2]
        simp [hlen]
      have := newTreeD_mk_leaf (S := S) (X := addColumn φ X) (o := o) (v := v) (row0 := row0 ++ [φ row0]) (d := d)
        (best := best) hx
        (by rw [(addColumn_fill φ X o).1, (addColumn_fill φ X o).2]; exact hv) (by rw [addColumn_get, hr]; rfl)
        (by rw [(addColumn_fill φ X o).1, List.length_append, hlen]; exact hs')
        (by rw [hinfo]; exact hl)
      rw [this, hinfo]
      refine ⟨rfl, ⟨fun hlf => ?_, trivial, trivial⟩, rfl⟩
      rw [hl] at hlf; cases hlf
    · cases h0
      have hlen := hrect row0 (List.mem_of_getElem? hr)
      rw [hlen] at hs
      have hs' := search_addColumn (φ := φ) hn hrect hφ (o := o.fill X) hal hs
      have hinfo : ∀ k, mkInfo o (addColumn φ X) v (row0 ++ [φ row0]).length best k =
          { mkInfo o X v row0.length best k with features := n + 1 } := by
        intro k
        unfold mkInfo
        rw [(addColumn_fill φ X o).2]
        simp [hlen]
      have hfb : best.feature < n := by
        obtain ⟨h5 | ⟨f, p, rows, A, B, k, x, x', hf, _, _, _, hb, _⟩, _⟩ := searchSplit_spec hs
        · rw [h5, leaf_best0] at hl; cases hl
        · rw [hb]; exact hf
      obtain ⟨a1, a2, a3⟩ := ih (o.child X (goLeft best.threshold col (o.idx X))) tl
        (by intro c hc; cases hc) h1
      obtain ⟨b1, b2, b3⟩ := ih (o.child X (goRight best.threshold col (o.idx X))) tr
        (by intro c hc; cases hc) h2
      have hcol : sampleCol (addColumn φ X) (o.idx X) best.feature = .ok col := by
        refine sampleCol_same hc (sampleCol_ne hc) (addColumn_rect hrect) (by omega)
          fun i hi row v e1 e2 => ⟨row ++ [φ row], ?_, ?_⟩
        · rw [addColumn_get, e1]; rfl
        · rw [List.getElem?_append_left (List.getElem?_eq_some_iff.1 e2).1]; exact e2
      have := newTreeD_mk_node (S := S) (X := addColumn φ X) (o := o) (v := v) (row0 := row0 ++ [φ row0]) (d := d)
        (best := best) (col := col) (l := tl.withFeatures (n + 1)) (r := tr.withFeatures (n + 1)) hx
        (by rw [(addColumn_fill φ X o).1, (addColumn_fill φ X o).2]; exact hv) (by rw [addColumn_get, hr]; rfl)
        (by rw [(addColumn_fill φ X o).1, List.length_append, hlen]; exact hs')
        (by rw [hinfo]; exact hl) (by rw [(addColumn_fill φ X o).2]; exact hcol)
        (by rw [(addColumn_fill φ X o).2, addColumn_child]; exact a1)
        (by rw [(addColumn_fill φ X o).2, addColumn_child]; exact b1)
      rw [this, hinfo, a3, b3]
      exact ⟨rfl, ⟨fun _ => hfb, a2, b2⟩, rfl⟩

omit [GoFloatOrd F] in
theorem withFeatures_leaf (i : NodeInfo F) (n : Nat) : ({ i with features := n } : NodeInfo F).leaf = i.leaf := rfl

omit [GoFloatOrd F] in
theorem withFeatures_predict {t : Tree F} {n m : Nat} (h : t.SplitsBelow n) (row ext : List F) (hlen : row.length = n) :
    (t.withFeatures m).predictSingle (row ++ ext) = t.predictSingle row := by
  induction t with
  | nil => rfl
  | node i l r ihl ihr =>
    obtain ⟨h1, h2, h3⟩ := h
    simp only [Tree.withFeatures, Tree.predictSingle, withFeatures_leaf]
    by_cases hlf : i.leaf = true
    · simp [hlf]
    · have := h1 (by simpa using hlf)
      simp only [hlf, Bool.false_eq_true, if_false]
      unfold goIdx
      rw [List.getElem?_append_left (by omega)]
      rw [ihl h2, ihr h3]

omit [GoFloatOrd F] in
theorem withFeatures_featImp (S : GoSort) (t : Tree F) (n : Nat) (g : Feats F) :
    (t.withFeatures n).featImp S g = t.featImp S g := by
  induction t generalizing g with
  | nil => rfl
  | node i l r ihl ihr =>
    simp only [Tree.withFeatures, Tree.featImp, withFeatures_leaf, ihl, ihr]

/-- **C83, trees**: appending a column that is constant or a copy of a column changes nothing in the tree but the number
of features that its nodes report; predictions for rows with the additional entry (whatever it is) and feature
importances are those of the tree without the column. -/
theorem C83_tree (S : GoSort) (X : List (List F)) (φ : List F → F) (o : TreeOptions F) (t : Tree F) (n : Nat)
    (h : newTree S X o = .ok t) (hn : 1 ≤ n) (hrect : ∀ row ∈ X, row.length = n) (hφ : CarriesNothing φ X)
    (hal : ∀ c ∈ o.allowedColumns, c < n) :
    newTree S (addColumn φ X) o = .ok (t.withFeatures (n + 1)) ∧
    (∀ row v, row.length = n → (t.withFeatures (n + 1)).predictSingle (row ++ [v]) = t.predictSingle row) ∧
    ∀ S' xgb, (t.withFeatures (n + 1)).featureImportance S' xgb = t.featureImportance S' xgb := by
  obtain ⟨h1, h2, _⟩ := newTreeD_addColumn (φ := φ) hn hrect hφ _ o t hal h
  refine ⟨h1, fun row v hl => withFeatures_predict h2 row [v] hl, fun S' xgb => ?_⟩
  unfold Tree.featureImportance
  have : (t.withFeatures (n + 1)).leaf = t.leaf := by cases t <;> rfl
  rw [this, withFeatures_featImp]

/-! ### The model -/

omit [GoFloatOrd F] in
theorem updateLeaves_withFeatures {g h : List F} {n : Nat} {t t' : Tree F} (hu : updateLeaves g h t = .ok t') :
    updateLeaves g h (t.withFeatures n) = .ok (t'.withFeatures n) := by
  induction t generalizing t' with
  | nil =>
    obtain rfl := Except.ok.inj hu
    rfl
  | node i l r ihl ihr =>
    unfold updateLeaves at hu
    obtain ⟨l', e1, hu⟩ := bind_ok hu
    obtain ⟨r', e2, hu⟩ := bind_ok hu
    simp only [Tree.withFeatures, updateLeaves, ihl e1, ihr e2, bind, Except.bind, withFeatures_leaf]
    by_cases hlf : i.leaf = true
    case neg =>
      simp only [hlf, Bool.false_eq_true, if_false] at hu ⊢
      obtain rfl := Except.ok.inj hu
      rfl
    case pos =>
      simp only [hlf, if_true] at hu ⊢
      obtain ⟨i', e3, hu⟩ := bind_ok hu
      obtain rfl := Except.ok.inj hu
      unfold updateLeaf at e3 ⊢
      obtain ⟨p, e4, e3⟩ := bind_ok e3
      obtain rfl := Except.ok.inj e3
      simp only [e4, bind, Except.bind, pure, Except.pure]
      rfl

theorem updateLeaves_splitsBelow {g h : List F} {n : Nat} {t t' : Tree F} (hu : updateLeaves g h t = .ok t')
    (hs : t.SplitsBelow n) : t'.SplitsBelow n := by
  induction t generalizing t' with
  | nil =>
    obtain rfl := Except.ok.inj hu
    trivial
  | node i l r ihl ihr =>
    unfold updateLeaves at hu
    obtain ⟨l', e1, hu⟩ := bind_ok hu
    obtain ⟨r', e2, hu⟩ := bind_ok hu
    obtain ⟨h1, h2, h3⟩ := hs
    cases hlf : i.leaf with
    | false =>
      simp only [hlf, Bool.false_eq_true, if_false] at hu
      obtain rfl := Except.ok.inj hu
      exact ⟨h1, ihl e1 h2, ihr e2 h3⟩
    | true =>
      simp only [hlf, if_true] at hu
      obtain ⟨i', e3, hu⟩ := bind_ok hu
      obtain rfl := Except.ok.inj hu
      unfold updateLeaf at e3
      obtain ⟨p, e4, e3⟩ := bind_ok e3
      obtain rfl := Except.ok.inj e3
      refine ⟨fun hq => ?_, ihl e1 h2, ihr e2 h3⟩
      exact h1 hq

/-- **C83, models**: training on the data with the additional column, without column subsampling (or in regular boosting,
which has none), gives a model that predicts for every row with the additional entry, whatever it is, what the model
trained without the column predicts for the row; the feature importances are the same. -/
theorem C83_model (exp : F → F) (S : GoSort) (draws : Nat → F) (D : DataBunch F) (O : Options F) (φ : List F → F) (n : Nat)
    (M : MultiClass F) (h : newMultiClass exp S draws D O = .ok M) (hn : 1 ≤ n)
    (hrect : ∀ row ∈ D.data, row.length = n) (hφ : CarriesNothing φ D.data)
    (hcols : (O.colSubSample <. one) = false ∨ O.xgb = false) :
    ∃ M', newMultiClass exp S draws { D with data := addColumn φ D.data } O = .ok M' ∧
      (∀ row v, row.length = n → M'.predictSingle (row ++ [v]) = M.predictSingle row) ∧
      ∀ S', M'.featureImportance S' = M.featureImportance S' := by
  have ho : (O.fixMcw.colSubSample <. one) = false ∨ O.fixMcw.xgb = false := by
    unfold Options.fixMcw
    split <;> exact hcols
  have hlen : (addColumn φ D.data).length = D.data.length := by unfold addColumn; simp
  have hcs : (O.fixMcw.colSubSample <. one && O.fixMcw.xgb) = false := by
    rcases ho with h | h <;> simp [h]
  have hsm : ∀ d, roundSamples (addColumn φ D.data) O.fixMcw d = roundSamples D.data O.fixMcw d := by
    intro d
    unfold roundSamples
    rw [hlen]
    simp only [hcs, Bool.false_eq_true, if_false]
  have hnocols : ∀ d idx cols d', roundSamples D.data O.fixMcw d = .ok (idx, cols, d') → cols = [] := by
    intro d idx cols d' hr
    unfold roundSamples at hr
    simp only [hcs, Bool.false_eq_true, if_false] at hr
    split at hr
    · obtain ⟨q, _, hr⟩ := bind_ok hr
      have := Except.ok.inj hr
      exact (congrArg (fun x => x.2.1) this).symm
    · have := Except.ok.inj hr
      exact (congrArg (fun x => x.2.1) this).symm
  have hT : ∀ d idx cols d', roundSamples D.data O.fixMcw d = .ok (idx, cols, d') → ∀ lf y p t1,
      classTree S D.data O.fixMcw lf idx cols y p = .ok t1 →
      ∃ t2, classTree S (addColumn φ D.data) O.fixMcw lf idx cols y p = .ok t2 ∧
        (t2 = t1.withFeatures (n + 1) ∧ t1.SplitsBelow n) ∧
        ∀ buf, t2.predict (addColumn φ D.data) buf = t1.predict D.data buf := by
    intro d idx cols d' hs lf y p t1 ht
    obtain rfl := hnocols _ _ _ _ hs
    have hpred : t1.SplitsBelow n → ∀ buf,
        (t1.withFeatures (n + 1)).predict (addColumn φ D.data) buf = t1.predict D.data buf := by
      intro hb buf
      refine predict_congr ?_ buf
      unfold addColumn
      rw [List.forall₂_map_right_iff, List.forall₂_same]
      intro row hr
      exact withFeatures_predict hb row _ (hrect row hr)
    unfold classTree at ht ⊢
    rw [hlen]
    cases hx : O.fixMcw.xgb with
    | true =>
      rw [hx] at ht
      simp only [if_true] at ht ⊢
      obtain ⟨g, hg, ht⟩ := bind_ok ht
      rw [hg]
      simp only [bind, Except.bind]
      obtain ⟨h1, h2, _⟩ := newTreeD_addColumn (φ := φ) hn hrect hφ _ _ t1 (by intro c hc; cases hc) ht
      exact ⟨_, h1, ⟨rfl, h2⟩, hpred h2⟩
    | false =>
      rw [hx] at ht
      simp only [Bool.false_eq_true, if_false] at ht ⊢
      obtain ⟨g, hg, ht⟩ := bind_ok ht
      rw [hg]
      simp only [bind, Except.bind]
      obtain ⟨t, ht, hu⟩ := bind_ok ht
      obtain ⟨h1, h2, _⟩ := newTreeD_addColumn (φ := φ) hn hrect hφ _ _ t (by intro c hc; cases hc) ht
      have h3 := updateLeaves_splitsBelow hu h2
      refine ⟨t1.withFeatures (n + 1), ?_, ⟨rfl, h3⟩, hpred h3⟩
      unfold newTree
      rw [h1]
      exact updateLeaves_withFeatures hu
  obtain ⟨B, h1, h2⟩ := newMultiClass_rel hsm hT h
  refine ⟨_, h1, fun row v hl => MultiClass.predict_congr ?_, fun S' => MultiClass.importance_congr ?_⟩
  · exact h2.imp fun _ _ h => h.imp fun _ _ h => by rw [h.1]; exact withFeatures_predict h.2 row [v] hl
  · exact h2.imp fun _ _ h => h.imp fun _ _ h g => by rw [h.1]; exact withFeatures_featImp S' _ _ g

/-! ### the hypotheses are met -/

def colX : List (List F64) := [[.fin 0, .fin 0], [.fin 0, .fin 1], [.fin 1, .fin 0], [.fin 1, .fin 1], [.fin 2, .fin 5]]
def colO : TreeOptions F64 :=
  { (defaultXTreeOptions : TreeOptions F64) with
    maxDepth := 3, minChildWeight := .fin 1, gamma := .fin 0, lambda := .fin 1,
    gradients := some [.fin 1, .fin 2, .fin (-3), .fin 4, .fin (-1)],
    hessian := some [.fin 1, .fin 1, .fin 1, .fin 1, .fin 1], allowedColumns := [] }
def colD : DataBunch F64 := { data := colX, labels := [1, 2, 1, 3, 2], keys := [], floatLabels := [] }
def colM : Options F64 :=
  { (defaultXOptions 0 : Options F64) with
    rounds := 2, minChildWeight := .fin (1 / 2), gamma := .fin 0, lambda := .fin 1, earlyStop := 0, subSample := .fin 1,
    colSubSample := .fin 1, minSample := 0 }
def colG : Options F64 := { (defaultGOptions 0 : Options F64) with rounds := 2, minChildWeight := .fin 1 }
def sizesOf (m : Go (MultiClass F64)) : Option (List (List Nat)) := m.toOption.map fun M => M.b.map fun r => r.map Tree.size
example : (newTree GoSort.ins colX colO).toOption.map Tree.size = some 7 := by decide +kernel
example : sizesOf (newMultiClass (fun _ => one) GoSort.ins (fun _ => .fin 0) colD colM) = some [[3, 7, 7], [3, 7, 7]] := by
  decide +kernel
example : sizesOf (newMultiClass (fun _ => one) GoSort.ins (fun _ => .fin 0) colD colG) = some [[9, 9, 9], [9, 9, 9]] := by
  decide +kernel
example : ∀ row ∈ colX, row.length = 2 := by decide +kernel
/-- a column of zeros -/
example : CarriesNothing (fun _ => .fin 0) colX := Or.inl ⟨.fin 0, by decide +kernel, fun _ _ => rfl⟩
/-- a copy of the second column -/
example : CarriesNothing (fun row => row.getD 1 zero) colX := Or.inr ⟨1, by decide +kernel⟩
example : (colM.colSubSample <. one) = false := by decide +kernel

/-- the feature at the root of the tree for the data with one more column -/
def colFeature (φ : List F64 → F64) : Option Nat :=
  match newTree GoSort.ins (addColumn φ colX) colO with
  | .ok (.node i _ _) => some i.splitFeatureIndex
  | _ => none
/-- a column that does carry something is used -/
example : colFeature (fun r => r.getD 0 zero -. r.getD 1 zero) = some 2 ∧ colFeature (fun _ => .fin 0) = some 1 := by
  decide +kernel

/-- **C83, NaN**: a constant column must not be NaN: on five rows with two columns of numbers NewTree succeeds, and with a
third column that is NaN everywhere it panics. -/
theorem C83_nan_column_panics : ∃ (X : List (List F64)) (o : TreeOptions F64) (t : Tree F64) (e : Panic),
    newTree GoSort.ins X o = .ok t ∧ newTree GoSort.ins (addColumn (fun _ => .nan) X) o = .error e := by
  let o := { colO with gradients := some [.fin 1, .fin 1, .fin 1, .fin (-1), .fin (-1)] }
  have h1 : (newTree GoSort.ins colX o).toOption.isSome = true := by decide +kernel
  have h2 : (newTree GoSort.ins (addColumn (fun _ => .nan) colX) o).toOption.isSome = false := by decide +kernel
  refine ⟨colX, o, ?_⟩
  cases e1 : newTree GoSort.ins colX o with
  | error => rw [e1] at h1; simp [Except.toOption] at h1
  | ok t =>
    cases e2 : newTree GoSort.ins (addColumn (fun _ => .nan) colX) o with
    | error e => exact ⟨t, e, rfl, rfl⟩
    | ok => rw [e2] at h2; simp [Except.toOption] at h2

end Boo
