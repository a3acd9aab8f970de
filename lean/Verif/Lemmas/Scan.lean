import Verif.Lemmas.Tree

namespace Boo
open GoFloat
set_option linter.unusedSectionVars false
variable {F : Type} [GoFloat F]

/-- the gain of the `k`-th candidate of a scan -/
def candGain (p : ScanParams F) (rows : List (F × F × F)) (nl nr : Int) (aL aR bL bR : F)
    (k : Nat) : F :=
  p.gain (nl + k) (nr - k)
    (((rows.take k).map (·.2.1)).foldl (· +. ·) aL) (((rows.take k).map (·.2.1)).foldl (· -. ·) aR)
    (((rows.take k).map (·.2.2)).foldl (· +. ·) bL) (((rows.take k).map (·.2.2)).foldl (· -. ·) bR)

/-- the `k`-th candidate is between row `k-1` with value `x` and row `k` with value `x'`, and is allowed -/
def Cand (p : ScanParams F) (rows : List (F × F × F)) (nl nr : Int) (k : Nat) (x x' : F) : Prop :=
  1 ≤ k ∧ (rows[k-1]?).map (·.1) = some x ∧ (rows[k]?).map (·.1) = some x' ∧
  p.mcw ≤ nl + k ∧ p.mcw ≤ nr - k ∧ (x ==. x') = false

theorem candGain_succ (p : ScanParams F) (x a b : F) (rows : List (F × F × F)) (nl nr : Int)
    (aL aR bL bR : F) (k : Nat) :
    candGain p ((x, a, b) :: rows) nl nr aL aR bL bR (k + 1) =
    candGain p rows (nl + 1) (nr - 1) (aL +. a) (aR -. a) (bL +. b) (bR -. b) k := by
  unfold candGain
  simp only [List.take_succ_cons, List.map_cons, List.foldl_cons]
  have h1 : nl + ((k + 1 : Nat) : Int) = nl + 1 + k := by push_cast; omega
  have h2 : nr - ((k + 1 : Nat) : Int) = nr - 1 - k := by push_cast; omega
  rw [h1, h2]

theorem cand_succ (p : ScanParams F) (r : F × F × F) (rows : List (F × F × F)) (nl nr : Int)
    (k : Nat) (x x' : F) (h : Cand p rows (nl + 1) (nr - 1) k x x') :
    Cand p (r :: rows) nl nr (k + 1) x x' := by
  obtain ⟨h1, h2, h3, h4, h5, h6⟩ := h
  refine ⟨by omega, ?_, by simpa using h3, by push_cast; omega, by push_cast; omega, h6⟩
  obtain ⟨j, rfl⟩ : ∃ j, k = j + 1 := ⟨k - 1, by omega⟩
  simpa using h2

theorem cand_pred (p : ScanParams F) (r : F × F × F) (rows : List (F × F × F)) (nl nr : Int)
    (k : Nat) (x x' : F) (h : Cand p (r :: rows) nl nr (k + 2) x x') :
    Cand p rows (nl + 1) (nr - 1) (k + 1) x x' := by
  obtain ⟨h1, h2, h3, h4, h5, h6⟩ := h
  refine ⟨by omega, by simpa using h2, by simpa using h3, by push_cast at *; omega,
    by push_cast at *; omega, h6⟩

variable [GoFloatOrd F]

theorem better_irrefl (p : ScanParams F) (a : F) : p.better a a = false := by
  unfold ScanParams.better gt
  split <;> exact GoFloatOrd.lt_irrefl _

/-- What the scan of one feature computes: either nothing better was found, or the result is one
of the candidates, and it beats the previous best; and no candidate beats the result. -/
theorem scan_spec (p : ScanParams F) (rows : List (F × F × F)) (nl nr : Int) (aL aR bL bR : F)
    (best : Best F) :
    (scan p rows nl nr aL aR bL bR best = best ∨
      ∃ k x x', Cand p rows nl nr k x x' ∧
        scan p rows nl nr aL aR bL bR best =
          ⟨candGain p rows nl nr aL aR bL bR k, p.feature, (x +. x') /. ofRat 2⟩ ∧
        p.better (candGain p rows nl nr aL aR bL bR k) best.score = true) ∧
    (∀ k x x', Cand p rows nl nr k x x' →
      p.better (candGain p rows nl nr aL aR bL bR k)
        (scan p rows nl nr aL aR bL bR best).score = false) := by
  induction rows generalizing nl nr aL aR bL bR best with
  | nil =>
    refine ⟨Or.inl (by simp [scan]), ?_⟩
    rintro k x x' ⟨_, _, h, _⟩
    simp at h
  | cons r1 rest ih =>
    match r1, rest, ih with
    | (x, a, b), [], _ =>
      refine ⟨Or.inl (by simp [scan]), ?_⟩
      rintro k y y' ⟨h1, _, h, _⟩
      obtain ⟨j, rfl⟩ : ∃ j, k = j + 1 := ⟨k - 1, by omega⟩
      simp at h
    | (x, a, b), (x', a', b') :: rest', ih =>
      -- the part of the claim about the remaining rows
      have hlater : ∀ best' : Best F,
          (∀ k y y', Cand p ((x, a, b) :: (x', a', b') :: rest') nl nr (k + 2) y y' →
            p.better (candGain p ((x, a, b) :: (x', a', b') :: rest') nl nr aL aR bL bR (k + 2))
              (scan p ((x', a', b') :: rest') (nl + 1) (nr - 1) (aL +. a) (aR -. a) (bL +. b)
                (bR -. b) best').score = false) := by
        intro best' k y y' hc
        rw [candGain_succ]
        exact (ih (nl + 1) (nr - 1) (aL +. a) (aR -. a) (bL +. b) (bR -. b) best').2 (k + 1) y y'
          (cand_pred _ _ _ _ _ _ _ _ hc)
      have hg1 : candGain p ((x, a, b) :: (x', a', b') :: rest') nl nr aL aR bL bR 1 =
          p.gain (nl + 1) (nr - 1) (aL +. a) (aR -. a) (bL +. b) (bR -. b) := by
        simp [candGain]
      have hfirst : ∀ y y', Cand p ((x, a, b) :: (x', a', b') :: rest') nl nr 1 y y' →
          y = x ∧ y' = x' ∧ p.mcw ≤ nl + 1 ∧ p.mcw ≤ nr - 1 ∧ (x ==. x') = false := by
        rintro y y' ⟨_, h1, h2, h3, h4, h5⟩
        simp only [Nat.sub_self, List.getElem?_cons_zero, Option.map_some, Option.some.injEq] at h1
        simp only [List.getElem?_cons_succ, List.getElem?_cons_zero, Option.map_some,
          Option.some.injEq] at h2
        subst h1; subst h2
        exact ⟨rfl, rfl, by simpa using h3, by simpa using h4, h5⟩
      unfold scan
      simp only
      split
      · rename_i hskip
        obtain ⟨i1, i2⟩ := ih (nl + 1) (nr - 1) (aL +. a) (aR -. a) (bL +. b) (bR -. b) best
        refine ⟨?_, ?_⟩
        · rcases i1 with h | ⟨k, y, y', hc, h1, h2⟩
          · exact Or.inl h
          · refine Or.inr ⟨k + 1, y, y', cand_succ _ _ _ _ _ _ _ _ hc, ?_, ?_⟩
            · rw [candGain_succ]; exact h1
            · rw [candGain_succ]; exact h2
        · intro k y y' hc
          match k, hc with
          | 0, hc => exact absurd hc.1 (by omega)
          | 1, hc =>
            obtain ⟨_, _, h3, h4, h5⟩ := hfirst y y' hc
            rcases hskip with h | h
            · omega
            · rw [h5] at h; exact absurd h (by simp)
          | k + 2, hc => exact hlater best k y y' hc
      · rename_i hskip
        split
        · rename_i hbreak
          refine ⟨Or.inl rfl, ?_⟩
          rintro k y y' ⟨h1, _, _, _, h5, _⟩
          omega
        · rename_i hbreak
          have hcand1 : Cand p ((x, a, b) :: (x', a', b') :: rest') nl nr 1 x x' := by
            refine ⟨le_refl _, by simp, by simp, ?_, ?_, ?_⟩
            · simp only [not_or] at hskip; push_cast; omega
            · push_cast; omega
            · simp only [not_or, Bool.not_eq_true] at hskip; exact hskip.2
          split
          · rename_i hb
            obtain ⟨i1, i2⟩ := ih (nl + 1) (nr - 1) (aL +. a) (aR -. a) (bL +. b) (bR -. b)
              ⟨p.gain (nl + 1) (nr - 1) (aL +. a) (aR -. a) (bL +. b) (bR -. b), p.feature,
                (x +. x') /. ofRat 2⟩
            refine ⟨?_, ?_⟩
            · right
              rcases i1 with h | ⟨k, y, y', hc, h1, h2⟩
              · exact ⟨1, x, x', hcand1, by rw [hg1]; exact h, by rw [hg1]; exact hb⟩
              · refine ⟨k + 1, y, y', cand_succ _ _ _ _ _ _ _ _ hc, ?_, ?_⟩
                · rw [candGain_succ]; exact h1
                · rw [candGain_succ]; exact better_trans p _ _ _ h2 hb
            · intro k y y' hc
              match k, hc with
              | 0, hc => exact absurd hc.1 (by omega)
              | 1, hc =>
                rw [hg1]
                rcases i1 with h | ⟨k, y, y', hc, h1, h2⟩
                · rw [h]; exact better_irrefl p _
                · rw [h1]
                  simp only at h2 ⊢
                  cases hq : p.better (p.gain (nl + 1) (nr - 1) (aL +. a) (aR -. a) (bL +. b)
                    (bR -. b)) (candGain p ((x', a', b') :: rest') (nl + 1) (nr - 1) (aL +. a)
                    (aR -. a) (bL +. b) (bR -. b) k) with
                  | false => rfl
                  | true =>
                    have := better_trans p _ _ _ hq h2
                    rw [better_irrefl] at this; exact absurd this (by simp)
              | k + 2, hc => exact hlater _ k y y' hc
          · rename_i hb
            obtain ⟨i1, i2⟩ := ih (nl + 1) (nr - 1) (aL +. a) (aR -. a) (bL +. b) (bR -. b) best
            refine ⟨?_, ?_⟩
            · rcases i1 with h | ⟨k, y, y', hc, h1, h2⟩
              · exact Or.inl h
              · refine Or.inr ⟨k + 1, y, y', cand_succ _ _ _ _ _ _ _ _ hc, ?_, ?_⟩
                · rw [candGain_succ]; exact h1
                · rw [candGain_succ]; exact h2
            · intro k y y' hc
              match k, hc with
              | 0, hc => exact absurd hc.1 (by omega)
              | 1, hc =>
                rw [hg1]
                rcases i1 with h | ⟨k, y, y', hc, h1, h2⟩
                · rw [h]; simpa using hb
                · rw [h1]
                  simp only at h2 ⊢
                  cases hq : p.better (p.gain (nl + 1) (nr - 1) (aL +. a) (aR -. a) (bL +. b)
                    (bR -. b)) (candGain p ((x', a', b') :: rest') (nl + 1) (nr - 1) (aL +. a)
                    (aR -. a) (bL +. b) (bR -. b) k) with
                  | false => rfl
                  | true =>
                    have := better_trans p _ _ _ hq h2
                    rw [this] at hb; exact absurd rfl hb
              | k + 2, hc => exact hlater _ k y y' hc

/-- The data over which `findBetterSplit` scans feature `f`. -/
def ScanOf (S : GoSort) (X : List (List F)) (o : TreeOptions F) (f : Nat) (p : ScanParams F)
    (rows : List (F × F × F)) (A B : F) : Prop :=
  ∃ col, sampleCol X (o.indexes.getD []) f = .ok col ∧
    ((o.xgb = true ∧ ∃ g h sg sh, sampleSlice (o.gradients.getD []) (o.indexes.getD []) = .ok g ∧
        sampleSlice (o.hessian.getD []) (o.indexes.getD []) = .ok h ∧
        sampleSlice g (argSort S col).1 = .ok sg ∧ sampleSlice h (argSort S col).1 = .ok sh ∧
        p = ⟨true, toInt o.minChildWeight, o.lambda, o.gamma, GoFloat.sum g, GoFloat.sum h,
              (o.indexes.getD []).length, f⟩ ∧
        rows = (argSort S col).2.zip (sg.zip sh) ∧ A = GoFloat.sum g ∧ B = GoFloat.sum h) ∨
     (o.xgb = false ∧ ∃ y sy, sampleSlice o.y (o.indexes.getD []) = .ok y ∧
        sampleSlice y (argSort S col).1 = .ok sy ∧
        p = ⟨false, toInt o.minChildWeight, o.lambda, o.gamma, GoFloat.sum sy, zero,
              (o.indexes.getD []).length, f⟩ ∧
        rows = (argSort S col).2.zip (sy.zip sy) ∧ A = GoFloat.sum sy ∧ B = zero))

omit [GoFloatOrd F] in
theorem ScanOf.unique {S : GoSort} {X : List (List F)} {o : TreeOptions F} {f : Nat}
    {p p' : ScanParams F} {rows rows' : List (F × F × F)} {A A' B B' : F}
    (h : ScanOf S X o f p rows A B) (h' : ScanOf S X o f p' rows' A' B') :
    p = p' ∧ rows = rows' ∧ A = A' ∧ B = B' := by
  obtain ⟨col, hc, h⟩ := h
  obtain ⟨col', hc', h'⟩ := h'
  rw [hc] at hc'; cases hc'
  rcases h with ⟨hx, g, hh, sg, sh, e1, e2, e3, e4, e5, e6, e7, e8⟩ | ⟨hx, y, sy, e1, e2, e3, e4, e5, e6⟩ <;>
  rcases h' with ⟨hx', g', hh', sg', sh', e1', e2', e3', e4', e5', e6', e7', e8'⟩ |
    ⟨hx', y', sy', e1', e2', e3', e4', e5', e6'⟩
  · rw [e1] at e1'; cases e1'
    rw [e2] at e2'; cases e2'
    rw [e3] at e3'; cases e3'
    rw [e4] at e4'; cases e4'
    subst_vars; simp
  · rw [hx] at hx'; cases hx'
  · rw [hx] at hx'; cases hx'
  · rw [e1] at e1'; cases e1'
    rw [e2] at e2'; cases e2'
    subst_vars; simp

omit [GoFloatOrd F] in
theorem ScanOf.facts {S : GoSort} {X : List (List F)} {o : TreeOptions F} {f : Nat}
    {p : ScanParams F} {rows : List (F × F × F)} {A B : F}
    (h : ScanOf S X o f p rows A B) : p.xgb = o.xgb ∧ p.feature = f ∧
      p.mcw = toInt o.minChildWeight ∧ p.n = (o.indexes.getD []).length := by
  obtain ⟨col, hc, ⟨hx, g, hh, sg, sh, e1, e2, e3, e4, rfl, e6, e7, e8⟩ |
    ⟨hx, y, sy, e1, e2, rfl, e4, e5, e6⟩⟩ := h
  · simp [hx]
  · simp [hx]

omit [GoFloatOrd F] in
theorem better_eq_betterX (p : ScanParams F) : p.better = betterX p.xgb := by
  funext a b; rfl

theorem findBetterSplit_spec {S : GoSort} {X : List (List F)} {o : TreeOptions F} {f : Nat}
    {best b : Best F} (h : findBetterSplit S X o f best = .ok b) :
    ∃ p rows A B, ScanOf S X o f p rows A B ∧
    (b = best ∨ ∃ k x x', Cand p rows 0 (o.indexes.getD []).length k x x' ∧
        b = ⟨candGain p rows 0 (o.indexes.getD []).length zero A zero B k, f, (x +. x') /. ofRat 2⟩ ∧
        betterX o.xgb b.score best.score = true) ∧
    (∀ k x x', Cand p rows 0 (o.indexes.getD []).length k x x' →
      betterX o.xgb (candGain p rows 0 (o.indexes.getD []).length zero A zero B k) b.score = false) := by
  obtain ⟨col, hcol, hscr, h⟩ := findBetterSplit_inv h
  have key : ∃ p rows A B, ScanOf S X o f p rows A B ∧
      b = scan p rows 0 (o.indexes.getD []).length zero A zero B best := by
    rcases h with ⟨hx, g, hh, sg, sh, e1, e2, e3, e4, rfl⟩ | ⟨hx, y, sy, e1, e2, rfl⟩
    · exact ⟨_, _, _, _, ⟨col, hcol, Or.inl ⟨hx, g, hh, sg, sh, e1, e2, e3, e4, rfl, rfl, rfl, rfl⟩⟩, rfl⟩
    · exact ⟨_, _, _, _, ⟨col, hcol, Or.inr ⟨hx, y, sy, e1, e2, rfl, rfl, rfl, rfl⟩⟩, rfl⟩
  obtain ⟨p, rows, A, B, hs, rfl⟩ := key
  obtain ⟨f1, f2, f3, f4⟩ := hs.facts
  obtain ⟨s1, s2⟩ := scan_spec p rows 0 (o.indexes.getD []).length zero A zero B best
  rw [better_eq_betterX, f1] at s1 s2
  refine ⟨p, rows, A, B, hs, ?_, s2⟩
  rcases s1 with h | ⟨k, x, x', hc, he, hb⟩
  · exact Or.inl h
  · refine Or.inr ⟨k, x, x', hc, ?_, ?_⟩
    · rw [he, f2]
    · rw [he]; exact hb

/-- What the loop over the features computes. -/
theorem searchSplit_spec {S : GoSort} {X : List (List F)} {o : TreeOptions F} {n : Nat}
    {init b : Best F} (h : searchSplit S X o n init = .ok b) :
    (b = init ∨ ∃ f p rows A B k x x', f < n ∧ columnAllowed o f = true ∧
        ScanOf S X o f p rows A B ∧
        Cand p rows 0 (o.indexes.getD []).length k x x' ∧
        b = ⟨candGain p rows 0 (o.indexes.getD []).length zero A zero B k, f, (x +. x') /. ofRat 2⟩ ∧
        betterX o.xgb b.score init.score = true) ∧
    (∀ f, f < n → columnAllowed o f = true → ∃ p rows A B, ScanOf S X o f p rows A B ∧
      ∀ k x x', Cand p rows 0 (o.indexes.getD []).length k x x' →
      betterX o.xgb (candGain p rows 0 (o.indexes.getD []).length zero A zero B k) b.score = false) := by
  unfold searchSplit at h
  suffices hgen : ∀ (l : List Nat) (init b : Best F), (∀ f ∈ l, f < n ∧ columnAllowed o f = true) →
      l.foldlM (fun best i => findBetterSplit S X o i best) init = .ok b →
      (b = init ∨ ∃ f p rows A B k x x', f ∈ l ∧
        ScanOf S X o f p rows A B ∧
        Cand p rows 0 (o.indexes.getD []).length k x x' ∧
        b = ⟨candGain p rows 0 (o.indexes.getD []).length zero A zero B k, f, (x +. x') /. ofRat 2⟩ ∧
        betterX o.xgb b.score init.score = true) ∧
      (∀ f ∈ l, ∃ p rows A B, ScanOf S X o f p rows A B ∧
        ∀ k x x', Cand p rows 0 (o.indexes.getD []).length k x x' →
        betterX o.xgb (candGain p rows 0 (o.indexes.getD []).length zero A zero B k) b.score = false) by
    have hmem : ∀ f, f ∈ (List.range n).filter (columnAllowed o) ↔ f < n ∧ columnAllowed o f = true := by
      intro f; simp
    obtain ⟨h1, h2⟩ := hgen _ init b (fun f hf => (hmem f).1 hf) h
    refine ⟨?_, fun f hf hc => h2 f ((hmem f).2 ⟨hf, hc⟩)⟩
    rcases h1 with h1 | ⟨f, p, rows, A, B, k, x, x', hf, rest⟩
    · exact Or.inl h1
    · exact Or.inr ⟨f, p, rows, A, B, k, x, x', ((hmem f).1 hf).1, ((hmem f).1 hf).2, rest⟩
  intro l
  induction l with
  | nil =>
    intro init b _ h
    simp only [List.foldlM_nil, pure, Except.pure, Except.ok.injEq] at h
    exact ⟨Or.inl h.symm, by simp⟩
  | cons f fs ih =>
    intro init b hl h
    rw [List.foldlM_cons] at h
    simp only [bind, Except.bind] at h
    split at h
    · cases h
    rename_i b1 hb1
    obtain ⟨p, rows, A, B, hs, s1, s2⟩ := findBetterSplit_spec hb1
    obtain ⟨i1, i2⟩ := ih b1 b (fun f hf => hl f (by simp [hf])) h
    refine ⟨?_, ?_⟩
    · rcases i1 with rfl | ⟨f', p', rows', A', B', k, x, x', hf', hs', hc, he, hb⟩
      · rcases s1 with rfl | ⟨k, x, x', hc, he, hb⟩
        · exact Or.inl rfl
        · exact Or.inr ⟨f, p, rows, A, B, k, x, x', by simp, hs, hc, he, hb⟩
      · refine Or.inr ⟨f', p', rows', A', B', k, x, x', by simp [hf'], hs', hc, he, ?_⟩
        rcases s1 with rfl | ⟨k, x, x', hc1, he1, hb1⟩
        · exact hb
        · exact betterX_trans _ _ _ _ hb hb1
    · intro f' hf'
      rcases List.mem_cons.1 hf' with rfl | hf'
      · refine ⟨p, rows, A, B, hs, fun k x x' hc => ?_⟩
        have h0 := s2 k x x' hc
        rcases i1 with rfl | ⟨f', p', rows', A', B', k', y, y', hf', hs', hc', he, hb⟩
        · exact h0
        · cases hq : betterX o.xgb (candGain p rows 0 (o.indexes.getD []).length zero A zero B k)
            b.score with
          | false => rfl
          | true =>
            have := betterX_trans _ _ _ _ hq hb
            rw [h0] at this; exact absurd this (by simp)
      · exact i2 f' hf'

end Boo
