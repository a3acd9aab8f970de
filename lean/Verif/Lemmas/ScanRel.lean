import Verif.Lemmas.TreeMk

/-!
# Two scans of the same sorted column with different targets
-/

namespace Boo
open GoFloat
set_option linter.unusedSectionVars false
variable {F : Type} [GoFloat F]

/-- the update of the best split with a candidate -/
def ScanParams.upd (p : ScanParams F) (best : Best F) (nl nr : Int) (aL aR bL bR thr : F) : Best F :=
  if p.better (p.gain nl nr aL aR bL bR) best.score then ⟨p.gain nl nr aL aR bL bR, p.feature, thr⟩ else best

theorem scan_map_rel {p p' : ScanParams F} (hm : p'.mcw = p.mcw)
    (Q : Int → Int → (F × F × F × F) → (F × F × F × F) → Prop) (E : F × F × F → F × F × F → Prop)
    (B : Best F → Best F → Prop) (hE : ∀ r r', E r r' → r'.1 = r.1)
    (hQ : ∀ nl nr aL aR bL bR aL' aR' bL' bR' x a b x' a' b',
      Q nl nr (aL, aR, bL, bR) (aL', aR', bL', bR') → E (x, a, b) (x', a', b') →
      Q (nl + 1) (nr - 1) (aL +. a, aR -. a, bL +. b, bR -. b) (aL' +. a', aR' -. a', bL' +. b', bR' -. b'))
    (hB : ∀ nl nr aL aR bL bR aL' aR' bL' bR' thr best best', 1 ≤ nl → 1 ≤ nr →
      Q nl nr (aL, aR, bL, bR) (aL', aR', bL', bR') → B best best' →
      B (p.upd best nl nr aL aR bL bR thr) (p'.upd best' nl nr aL' aR' bL' bR' thr))
    (rows rows' : List (F × F × F)) (hrows : List.Forall₂ E rows rows') (nl nr : Int) (hnl : 0 ≤ nl)
    (hnr : nr = rows.length) (aL aR bL bR aL' aR' bL' bR' : F) (hq : Q nl nr (aL, aR, bL, bR) (aL', aR', bL', bR'))
    (best best' : Best F) (hb : B best best') :
    B (scan p rows nl nr aL aR bL bR best) (scan p' rows' nl nr aL' aR' bL' bR' best') := by
  induction hrows generalizing nl nr aL aR bL bR aL' aR' bL' bR' best best' with
  | nil => simpa [scan] using hb
  | @cons r1 r1' l l' h1 hrest ih =>
    obtain ⟨x, a, b⟩ := r1
    obtain ⟨x0, a', b'⟩ := r1'
    have hx : x0 = x := hE _ _ h1
    subst hx
    cases hrest with
    | nil => simpa [scan] using hb
    | @cons r2 r2' l l' h2 hrest =>
      obtain ⟨y, c, d⟩ := r2
      obtain ⟨y0, c', d'⟩ := r2'
      have hy : y0 = y := hE _ _ h2
      subst hy
      have hq' := hQ _ _ _ _ _ _ _ _ _ _ _ _ _ _ _ _ hq h1
      have hlen : nr - 1 = (((y0, c, d) :: l).length : Int) := by
        rw [hnr]; simp
      simp only [scan, hm]
      split
      · exact ih _ _ (by omega) hlen _ _ _ _ _ _ _ _ hq' _ _ hb
      · split
        · exact hb
        · refine ih _ _ (by omega) hlen _ _ _ _ _ _ _ _ hq' _ _ ?_
          exact hB _ _ _ _ _ _ _ _ _ _ _ _ _ (by omega) (by rw [hlen]; simp) hq' hb

/-- the loop over the features, for two calls whose steps correspond -/
theorem search_map_rel {S : GoSort} {X X' : List (List F)} {o o' : TreeOptions F} {n : Nat} (B : Best F → Best F → Prop)
    (hal : o'.allowedColumns = o.allowedColumns)
    (hstep : ∀ f best best' b, B best best' → findBetterSplit S X o f best = .ok b →
      ∃ b', findBetterSplit S X' o' f best' = .ok b' ∧ B b b')
    {init init' b : Best F} (hi : B init init') (h : searchSplit S X o n init = .ok b) :
    ∃ b', searchSplit S X' o' n init' = .ok b' ∧ B b b' := by
  unfold searchSplit at *
  have e : columnAllowed o' = columnAllowed o := by funext i; unfold columnAllowed; rw [hal]
  rw [e]
  generalize (List.range n).filter (columnAllowed o) = l at h
  induction l generalizing init init' with
  | nil =>
    simp only [List.foldlM_nil, pure, Except.pure, Except.ok.injEq] at h
    exact ⟨init', rfl, h ▸ hi⟩
  | cons f fs ih =>
    rw [List.foldlM_cons] at h ⊢
    simp only [bind, Except.bind] at h
    split at h
    · cases h
    rename_i b1 hb1
    obtain ⟨b1', e1, e2⟩ := hstep f _ init' _ hi hb1
    obtain ⟨b', e3, e4⟩ := ih e2 h
    exact ⟨b', by simp only [bind, Except.bind, e1]; exact e3, e4⟩

/-- a split search that succeeds, from its parts (converse of `findBetterSplit_inv`), xgboost -/
theorem findBetterSplit_mk_xgb {S : GoSort} {X : List (List F)} {o : TreeOptions F} {i : Nat} {best : Best F}
    {col g h sg sh : List F} (hc : sampleCol X (o.indexes.getD []) i = .ok col) (hl : col.length ≤ o.scratch.getD 0)
    (hx : o.xgb = true) (e1 : sampleSlice (o.gradients.getD []) (o.indexes.getD []) = .ok g)
    (e2 : sampleSlice (o.hessian.getD []) (o.indexes.getD []) = .ok h)
    (e3 : sampleSlice g (argSort S col).1 = .ok sg) (e4 : sampleSlice h (argSort S col).1 = .ok sh) :
    findBetterSplit S X o i best = .ok (scan ⟨true, toInt o.minChildWeight, o.lambda, o.gamma, GoFloat.sum g,
      GoFloat.sum h, (o.indexes.getD []).length, i⟩ ((argSort S col).2.zip (sg.zip sh)) 0
      ((o.indexes.getD []).length : Int) zero (GoFloat.sum g) zero (GoFloat.sum h) best) := by
  unfold findBetterSplit
  simp only [bind, Except.bind, hc]
  rw [if_neg (by omega), if_pos hx]
  simp only [e1, e2, e3, e4]
  rfl

/-- the same for a regular tree -/
theorem findBetterSplit_mk_reg {S : GoSort} {X : List (List F)} {o : TreeOptions F} {i : Nat} {best : Best F}
    {col y sy : List F} (hc : sampleCol X (o.indexes.getD []) i = .ok col) (hl : col.length ≤ o.scratch.getD 0)
    (hx : o.xgb = false) (e1 : sampleSlice o.y (o.indexes.getD []) = .ok y)
    (e2 : sampleSlice y (argSort S col).1 = .ok sy) :
    findBetterSplit S X o i best = .ok (scan ⟨false, toInt o.minChildWeight, o.lambda, o.gamma, GoFloat.sum sy,
      zero, (o.indexes.getD []).length, i⟩ ((argSort S col).2.zip (sy.zip sy)) 0
      ((o.indexes.getD []).length : Int) zero (GoFloat.sum sy) zero zero best) := by
  unfold findBetterSplit
  simp only [bind, Except.bind, hc]
  rw [if_neg (by omega), if_neg (by simp [hx])]
  simp only [e1, e2]
  rfl

theorem sampleSlice_length {α : Type} {s : List α} {idx : List Nat} {l : List α} (h : sampleSlice s idx = .ok l) :
    l.length = idx.length := (sampleSlice_ok.1 h).2.length_eq.symm

theorem argSort_fst_length (S : GoSort) (col : List F) : (argSort S col).1.length = col.length := by
  unfold argSort
  simp only [List.length_map]
  rw [(S.perm _ _).length_eq]
  simp

theorem argSort_snd_length (S : GoSort) (col : List F) : (argSort S col).2.length = col.length := by
  unfold argSort
  simp only [List.length_map]
  rw [(S.perm _ _).length_eq]
  simp

end Boo
