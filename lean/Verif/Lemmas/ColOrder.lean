import Verif.Props.Columns

/-!
# The loop over the columns as a choice between the best splits of the columns
-/

namespace Boo
open GoFloat
set_option linter.unusedSectionVars false
variable {F : Type} [GoFloat F] [GoFloatOrd F]

theorem betterX_irrefl (xgb : Bool) (a : F) : betterX xgb a a = false := by
  unfold betterX gt
  split <;> exact GoFloatOrd.lt_irrefl _

theorem betterX_self {xgb : Bool} {a b : F} (h : betterX xgb a b = true) : (a ==. a) = true ∧ (b ==. b) = true := by
  unfold betterX gt at h
  cases xgb
  · exact GoFloatOrd.lt_self _ _ h
  · exact (GoFloatOrd.lt_self _ _ h).symm

theorem betterX_tri (xgb : Bool) {a b : F} (ha : (a ==. a) = true) (hb : (b ==. b) = true) :
    betterX xgb a b = true ∨ (a ==. b) = true ∨ betterX xgb b a = true := by
  unfold betterX gt
  cases xgb
  · exact GoFloatOrd.tri a b ha hb
  · rcases GoFloatOrd.tri a b ha hb with h | h | h
    · exact Or.inr (Or.inr h)
    · exact Or.inr (Or.inl h)
    · exact Or.inl h

theorem betterX_eq {xgb : Bool} {a b c : F} (h : betterX xgb a b = true) (he : (b ==. c) = true) : betterX xgb a c = true := by
  unfold betterX gt at *
  cases xgb
  · exact GoFloatOrd.lt_eq _ _ _ h he
  · exact GoFloatOrd.eq_lt _ _ _ (GoFloatOrd.eq_symm _ _ he) h

/-- better than something that `c` is not better than -/
theorem betterX_neg {xgb : Bool} {a b c : F} (h : betterX xgb a b = true) (hc : (c ==. c) = true) (hn : betterX xgb c b = false) :
    betterX xgb a c = true := by
  rcases betterX_tri xgb (betterX_self h).2 hc with h1 | h1 | h1
  · exact betterX_trans _ _ _ _ h h1
  · exact betterX_eq h h1
  · rw [hn] at h1; cases h1

/-- The scan started with a better split than `init`: it ends with the split found from `init` if that is better. -/
theorem scan_restart (p : ScanParams F) (rows : List (F × F × F)) (nl nr : Int) (aL aR bL bR : F) (b : Best F) :
    ∀ c0 c1 : Best F, (c0.score ==. c0.score) = true →
      ((c0 = c1 ∧ (c1 = b ∨ p.better c1.score b.score = true)) ∨ (c1 = b ∧ p.better c0.score b.score = false)) →
      scan p rows nl nr aL aR bL bR c1 =
        if p.better (scan p rows nl nr aL aR bL bR c0).score b.score then scan p rows nl nr aL aR bL bR c0 else b := by
  have hend : ∀ c0 c1 : Best F,
      ((c0 = c1 ∧ (c1 = b ∨ p.better c1.score b.score = true)) ∨ (c1 = b ∧ p.better c0.score b.score = false)) →
      c1 = if p.better c0.score b.score then c0 else b := by
    intro c0 c1 h
    rcases h with ⟨rfl, rfl | h⟩ | ⟨rfl, h⟩
    · simp
    · simp [h]
    · simp [h]
  induction rows generalizing nl nr aL aR bL bR with
  | nil =>
    intro c0 c1 _ h
    simp only [scan]
    exact hend c0 c1 h
  | cons r1 rest ih =>
    intro c0 c1 hs h
    match r1, rest, ih with
    | (x, a, b'), [], _ =>
      simp only [scan]
      exact hend c0 c1 h
    | (x, a, b'), (x', a', b'') :: rest', ih =>
      rw [scan, scan]
      simp only
      split
      · exact ih _ _ _ _ _ _ c0 c1 hs h
      · split
        · exact hend c0 c1 h
        · generalize p.gain (nl + 1) (nr - 1) (aL +. a) (aR -. a) (bL +. b') (bR -. b') = g
          rcases h with ⟨rfl, h⟩ | ⟨rfl, h⟩
          · by_cases hg : p.better g c0.score = true
            · simp only [hg, if_true]
              refine ih _ _ _ _ _ _ _ _ ?_ (Or.inl ⟨rfl, Or.inr ?_⟩)
              · rw [better_eq_betterX] at hg
                exact (betterX_self hg).1
              · rcases h with rfl | h
                · exact hg
                · exact better_trans p _ _ _ hg h
            · simp only [hg]
              exact ih _ _ _ _ _ _ _ _ hs (Or.inl ⟨rfl, h⟩)
          · by_cases hg : p.better g c1.score = true
            · have hg0 : p.better g c0.score = true := by
                rw [better_eq_betterX] at *
                exact betterX_neg hg hs h
              simp only [hg, hg0, if_true]
              refine ih _ _ _ _ _ _ _ _ ?_ (Or.inl ⟨rfl, Or.inr hg⟩)
              rw [better_eq_betterX] at hg
              exact (betterX_self hg).1
            · by_cases hg0 : p.better g c0.score = true
              · simp only [hg, hg0, if_true]
                refine ih _ _ _ _ _ _ _ _ ?_ (Or.inr ⟨rfl, by simpa using hg⟩)
                rw [better_eq_betterX] at hg0
                exact (betterX_self hg0).1
              · simp only [hg, hg0]
                exact ih _ _ _ _ _ _ _ _ hs (Or.inr ⟨rfl, h⟩)

/-- the choice between the best so far and the best split of one more column -/
def pickBest (xgb : Bool) (b s : Best F) : Best F := if betterX xgb s.score b.score then s else b

/-- `findBetterSplit` picks between the best so far and what it finds from the start -/
theorem findBetterSplit_pick {S : GoSort} {X : List (List F)} {o : TreeOptions F} {f : Nat} {init b s : Best F}
    (hi : (init.score ==. init.score) = true) (hb : b = init ∨ betterX o.xgb b.score init.score = true)
    (hs : findBetterSplit S X o f init = .ok s) : findBetterSplit S X o f b = .ok (pickBest o.xgb b s) := by
  have hcond : ∀ p : ScanParams F, p.xgb = o.xgb → ((init = b ∧ (b = b ∨ p.better b.score b.score = true)) ∨
      (b = b ∧ p.better init.score b.score = false)) := by
    intro p hp
    rcases hb with h | h
    · exact Or.inl ⟨h.symm, Or.inl rfl⟩
    · refine Or.inr ⟨rfl, ?_⟩
      rw [better_eq_betterX, hp]
      cases hq : betterX o.xgb init.score b.score with
      | false => rfl
      | true =>
        have := betterX_trans _ _ _ _ h hq
        rw [betterX_irrefl] at this
        cases this
  obtain ⟨col, h1, h2, h3⟩ := findBetterSplit_inv hs
  unfold pickBest
  rcases h3 with ⟨hx, g, hh, sg, sh, e1, e2, e3, e4, rfl⟩ | ⟨hx, y, sy, e1, e2, rfl⟩
  · rw [findBetterSplit_mk_xgb h1 h2 hx e1 e2 e3 e4, scan_restart _ _ _ _ _ _ _ _ b init b hi (hcond _ hx.symm), better_eq_betterX, hx]
  · rw [findBetterSplit_mk_reg h1 h2 hx e1 e2, scan_restart _ _ _ _ _ _ _ _ b init b hi (hcond _ hx.symm), better_eq_betterX, hx]

theorem pick_inv {xgb : Bool} {init b s : Best F} (hb : b = init ∨ betterX xgb b.score init.score = true) :
    pickBest xgb b s = init ∨ betterX xgb (pickBest xgb b s).score init.score = true := by
  unfold pickBest
  split
  · rename_i h
    rcases hb with rfl | hb
    · exact Or.inr h
    · exact Or.inr (betterX_trans _ _ _ _ h hb)
  · exact hb

/-- the loop over a list of columns is the choice between their best splits -/
theorem search_pick {S : GoSort} {X : List (List F)} {o : TreeOptions F} {init : Best F} {sol : Nat → Best F}
    (hi : (init.score ==. init.score) = true) (l : List Nat) (hl : ∀ f ∈ l, findBetterSplit S X o f init = .ok (sol f)) :
    ∀ b, (b = init ∨ betterX o.xgb b.score init.score = true) →
      l.foldlM (fun best i => findBetterSplit S X o i best) b = .ok (l.foldl (fun b f => pickBest o.xgb b (sol f)) b) := by
  induction l with
  | nil => intro b _; rfl
  | cons f fs ih =>
    intro b hb
    rw [List.foldlM_cons, findBetterSplit_pick hi hb (hl f (by simp))]
    simp only [bind, Except.bind, List.foldl_cons]
    exact ih (fun f hf => hl f (by simp [hf])) _ (pick_inv hb)

/-- what the choice is -/
theorem pick_spec {xgb : Bool} {sol : Nat → Best F} (l : List Nat) :
    ∀ b, (l.foldl (fun b f => pickBest xgb b (sol f)) b = b ∨ ∃ f ∈ l, l.foldl (fun b f => pickBest xgb b (sol f)) b = sol f ∧
        betterX xgb (sol f).score b.score = true) ∧
      ∀ f ∈ l, betterX xgb (sol f).score (l.foldl (fun b f => pickBest xgb b (sol f)) b).score = false := by
  induction l with
  | nil => intro b; simp
  | cons f fs ih =>
    intro b
    simp only [List.foldl_cons]
    obtain ⟨h1, h2⟩ := ih (pickBest xgb b (sol f))
    have hmono : ∀ R : Best F, (R = pickBest xgb b (sol f) ∨ betterX xgb R.score (pickBest xgb b (sol f)).score = true) →
        betterX xgb (sol f).score R.score = false := by
      intro R hR
      have hp : betterX xgb (sol f).score (pickBest xgb b (sol f)).score = false := by
        unfold pickBest
        split
        · exact betterX_irrefl _ _
        · rename_i hq
          exact Bool.eq_false_iff.2 hq
      rcases hR with rfl | hR
      · exact hp
      · cases hq : betterX xgb (sol f).score R.score with
        | false => rfl
        | true =>
          have := betterX_trans _ _ _ _ hq hR
          rw [hp] at this
          cases this
    refine ⟨?_, ?_⟩
    · rcases h1 with h1 | ⟨f', hf', h1, h3⟩
      · rw [h1]
        unfold pickBest
        split
        · exact Or.inr ⟨f, by simp, rfl, ‹_›⟩
        · exact Or.inl rfl
      · refine Or.inr ⟨f', by simp [hf'], h1, ?_⟩
        unfold pickBest at h3
        split at h3
        · exact betterX_trans _ _ _ _ h3 ‹_›
        · exact h3
    · intro f' hf'
      rcases List.mem_cons.1 hf' with rfl | hf'
      · refine hmono _ ?_
        rcases h1 with h1 | ⟨f'', _, h1, h3⟩
        · exact Or.inl h1
        · exact Or.inr (by rw [h1]; exact h3)
      · exact h2 f' hf'

/-- how the best split found from `init` in column `f` corresponds to the one found when the column has number `f'` -/
def Renamed (xgb : Bool) (init : Best F) (f f' : Nat) (b b' : Best F) : Prop :=
  (b = init ∧ b' = init) ∨ (betterX xgb b.score init.score = true ∧ b.feature = f ∧ b' = { b with feature := f' })

theorem scan_renamed {p : ScanParams F} {f f' : Nat} (hf : p.feature = f) (init : Best F) (rows : List (F × F × F)) (nl nr : Int)
    (aL aR bL bR : F) : ∀ b b', Renamed p.xgb init f f' b b' →
      Renamed p.xgb init f f' (scan p rows nl nr aL aR bL bR b) (scan { p with feature := f' } rows nl nr aL aR bL bR b') := by
  induction rows generalizing nl nr aL aR bL bR with
  | nil => intro b b' h; simpa only [scan] using h
  | cons r1 rest ih =>
    intro b b' h
    match r1, rest, ih with
    | (x, a, c), [], _ => simpa only [scan] using h
    | (x, a, c), (x', a', c') :: rest', ih =>
      rw [scan, scan]
      simp only
      split
      · exact ih _ _ _ _ _ _ _ _ h
      · split
        · exact h
        · have hgain : ({ p with feature := f' } : ScanParams F).gain (nl + 1) (nr - 1) (aL +. a) (aR -. a) (bL +. c) (bR -. c) =
              p.gain (nl + 1) (nr - 1) (aL +. a) (aR -. a) (bL +. c) (bR -. c) := rfl
          rw [hgain]
          generalize p.gain (nl + 1) (nr - 1) (aL +. a) (aR -. a) (bL +. c) (bR -. c) = g
          have hbet : ∀ s, ({ p with feature := f' } : ScanParams F).better g s = p.better g s := fun _ => rfl
          have hscore : b'.score = b.score := by
            rcases h with ⟨rfl, rfl⟩ | ⟨_, _, rfl⟩ <;> rfl
          rw [hbet, hscore]
          by_cases hg : p.better g b.score = true
          · simp only [hg, if_true]
            refine ih _ _ _ _ _ _ _ _ (Or.inr ⟨?_, hf, rfl⟩)
            rw [better_eq_betterX] at hg
            rcases h with ⟨rfl, _⟩ | ⟨h, _⟩
            · exact hg
            · exact betterX_trans _ _ _ _ hg h
          · simp only [hg]
            exact ih _ _ _ _ _ _ _ _ h

/-- a search from one best split succeeds if one from another does -/
theorem findBetterSplit_any {S : GoSort} {X : List (List F)} {o : TreeOptions F} {f : Nat} {c c' : Best F}
    (h : findBetterSplit S X o f c = .ok c') (b : Best F) : ∃ b', findBetterSplit S X o f b = .ok b' := by
  obtain ⟨col, h1, h2, ⟨hx, g, hh, sg, sh, e1, e2, e3, e4, -⟩ | ⟨hx, y, sy, e1, e2, -⟩⟩ := findBetterSplit_inv h
  · exact ⟨_, findBetterSplit_mk_xgb h1 h2 hx e1 e2 e3 e4⟩
  · exact ⟨_, findBetterSplit_mk_reg h1 h2 hx e1 e2⟩

/-- the search in a column with the same entries in other data -/
theorem findBetterSplit_renamed {S : GoSort} {X X' : List (List F)} {o : TreeOptions F} {f f' : Nat} {init s : Best F} {al : List Nat}
    (h : findBetterSplit S X o f init = .ok s)
    (hcol : ∀ col, sampleCol X (o.indexes.getD []) f = .ok col → sampleCol X' (o.indexes.getD []) f' = .ok col) :
    ∃ s', findBetterSplit S X' { o with allowedColumns := al } f' init = .ok s' ∧ Renamed o.xgb init f f' s s' := by
  obtain ⟨col, h1, h2, ⟨hx, g, hh, sg, sh, e1, e2, e3, e4, rfl⟩ | ⟨hx, y, sy, e1, e2, rfl⟩⟩ := findBetterSplit_inv h
  · refine ⟨_, findBetterSplit_mk_xgb (o := { o with allowedColumns := al }) (hcol _ h1) h2 hx e1 e2 e3 e4, ?_⟩
    rw [hx]
    exact scan_renamed (p := ⟨true, toInt o.minChildWeight, o.lambda, o.gamma, GoFloat.sum g,
      GoFloat.sum hh, (o.indexes.getD []).length, f⟩) rfl init _ _ _ _ _ _ _ _ _ (Or.inl ⟨rfl, rfl⟩)
  · refine ⟨_, findBetterSplit_mk_reg (o := { o with allowedColumns := al }) (hcol _ h1) h2 hx e1 e2, ?_⟩
    rw [hx]
    exact scan_renamed (p := ⟨false, toInt o.minChildWeight, o.lambda, o.gamma, GoFloat.sum sy,
      zero, (o.indexes.getD []).length, f⟩) rfl init _ _ _ _ _ _ _ _ _ (Or.inl ⟨rfl, rfl⟩)

/-! ### Data with the columns in another order -/

/-- the row with its entries in the order `p`: entry `j` of the new row is entry `p[j]` of the old one -/
def reorder (p : List Nat) (row : List F) : List F := p.map fun j => row.getD j zero

theorem reorder_get {p : List Nat} {row : List F} {n f : Nat} (hp : p.Perm (List.range n)) (hr : row.length = n) (hf : f < n) :
    (reorder p row)[p.idxOf f]? = row[f]? := by
  have hm : f ∈ p := hp.mem_iff.2 (by simpa using hf)
  have hi := List.idxOf_lt_length_of_mem hm
  unfold reorder
  rw [List.getElem?_map, List.getElem?_eq_getElem hi, List.getElem_idxOf hi]
  simp [List.getD_eq_getElem?_getD, List.getElem?_eq_getElem (show f < row.length by omega)]

theorem idxOf_lt {p : List Nat} {n f : Nat} (hp : p.Perm (List.range n)) (hf : f < n) : p.idxOf f < n := by
  have hm : f ∈ p := hp.mem_iff.2 (by simpa using hf)
  have := List.idxOf_lt_length_of_mem hm
  rwa [hp.length_eq, List.length_range] at this

/-- every column of the new data is an old one -/
theorem exists_idxOf {p : List Nat} {n f' : Nat} (hp : p.Perm (List.range n)) (hf : f' < n) : ∃ f < n, p.idxOf f = f' := by
  have hl : f' < p.length := by rw [hp.length_eq, List.length_range]; exact hf
  have hnd : p.Nodup := hp.nodup_iff.2 List.nodup_range
  refine ⟨p[f'], ?_, ?_⟩
  · have := hp.mem_iff.1 (List.getElem_mem hl)
    simpa using this
  · exact hnd.idxOf_getElem f' hl

theorem idxOf_inj' {p : List Nat} {n f g : Nat} (hp : p.Perm (List.range n)) (hf : f < n) (h : p.idxOf f = p.idxOf g) : f = g := by
  have hm : f ∈ p := hp.mem_iff.2 (by simpa using hf)
  exact (List.idxOf_inj hm).1 h

/-- the best split, with the column numbers of the reordered data -/
def Best.renumber (b : Best F) (xgb : Bool) (init : Best F) (p : List Nat) : Best F :=
  if betterX xgb b.score init.score then { b with feature := p.idxOf b.feature } else b

theorem Best.renumber_score (xgb : Bool) (init : Best F) (p : List Nat) (b : Best F) : (b.renumber xgb init p).score = b.score := by
  unfold Best.renumber
  split <;> rfl

theorem Renamed.eq {xgb : Bool} {init : Best F} {p : List Nat} {f : Nat} {b b' : Best F} (h : Renamed xgb init f (p.idxOf f) b b') :
    b' = b.renumber xgb init p := by
  unfold Best.renumber
  rcases h with ⟨rfl, rfl⟩ | ⟨h, rfl, rfl⟩
  · simp [betterX_irrefl]
  · simp [h]

theorem sampleCol_reorder {X : List (List F)} {p : List Nat} {n : Nat} (hp : p.Perm (List.range n)) (hrect : ∀ row ∈ X, row.length = n)
    {idx : List Nat} {f : Nat} (hf : f < n) {col : List F} (h : sampleCol X idx f = .ok col) :
    sampleCol (X.map (reorder p)) idx (p.idxOf f) = .ok col := by
  refine sampleCol_same h (sampleCol_ne h) (n' := n) ?_ (idxOf_lt hp hf) ?_
  · intro row hr
    obtain ⟨r, _, rfl⟩ := List.mem_map.1 hr
    simp [reorder, hp.length_eq]
  · intro i _ row v e1 e2
    refine ⟨reorder p row, by rw [List.getElem?_map, e1]; rfl, ?_⟩
    rw [reorder_get hp (hrect row (List.mem_of_getElem? e1)) hf]
    exact e2

theorem columnAllowed_reorder {o : TreeOptions F} {p : List Nat} {n f : Nat} (hp : p.Perm (List.range n)) (hf : f < n) :
    columnAllowed { o with allowedColumns := o.allowedColumns.map p.idxOf } (p.idxOf f) = columnAllowed o f := by
  unfold columnAllowed
  simp only [List.isEmpty_map]
  congr 1
  rw [Bool.eq_iff_iff]
  simp only [List.contains_iff_mem, List.mem_map]
  constructor
  · rintro ⟨g, hg, he⟩
    rw [idxOf_inj' hp hf he.symm]
    exact hg
  · exact fun h => ⟨f, h, rfl⟩

/-- The loop over the columns in another order. -/
theorem search_reorder {S : GoSort} {X : List (List F)} {p : List Nat} {n : Nat} (hp : p.Perm (List.range n))
    (hrect : ∀ row ∈ X, row.length = n) {o : TreeOptions F} {init best : Best F} (hi : (init.score ==. init.score) = true)
    (hs : searchSplit S X o n init = .ok best)
    (hties : ∀ f < n, columnAllowed o f = true → f ≠ best.feature → betterX o.xgb best.score init.score = true → ∀ s,
      findBetterSplit S X o f init = .ok s → (s.score ==. best.score) = false) :
    searchSplit S (X.map (reorder p)) { o with allowedColumns := o.allowedColumns.map p.idxOf } n init =
      .ok (best.renumber o.xgb init p) := by
  have hsol : ∀ f, ∃ s, f < n → columnAllowed o f = true → findBetterSplit S X o f init = .ok s := by
    intro f
    by_cases hf : f < n ∧ columnAllowed o f = true
    · have hs' := hs
      unfold searchSplit at hs'
      obtain ⟨c, c', hc⟩ := foldlM_step hs' (a := f) (by simp [hf])
      obtain ⟨s, h⟩ := findBetterSplit_any hc init
      exact ⟨s, fun _ _ => h⟩
    · exact ⟨init, fun h1 h2 => absurd ⟨h1, h2⟩ hf⟩
  choose sol hsol using hsol
  have hmem : ∀ f, f ∈ (List.range n).filter (columnAllowed o) ↔ f < n ∧ columnAllowed o f = true := by
    intro f; simp
  have h1 : searchSplit S X o n init = .ok (((List.range n).filter (columnAllowed o)).foldl (fun b f => pickBest o.xgb b (sol f)) init) := by
    unfold searchSplit
    exact search_pick hi _ (fun f hf => hsol f ((hmem f).1 hf).1 ((hmem f).1 hf).2) init (Or.inl rfl)
  have hbest := Except.ok.inj (hs.symm.trans h1)
  obtain ⟨a1, a2⟩ := pick_spec (xgb := o.xgb) (sol := sol) ((List.range n).filter (columnAllowed o)) init
  rw [← hbest] at a1 a2
  -- the reordered data
  set o' : TreeOptions F := { o with allowedColumns := o.allowedColumns.map p.idxOf } with ho'
  have hstep : ∀ f' ∈ (List.range n).filter (columnAllowed o'), findBetterSplit S (X.map (reorder p)) o' f' init =
      .ok ((sol (p.getD f' 0)).renumber o.xgb init p) := by
    intro f' hf'
    simp only [List.mem_filter, List.mem_range] at hf'
    obtain ⟨f, hf, rfl⟩ := exists_idxOf hp hf'.1
    have hget : p.getD (p.idxOf f) 0 = f := by
      have hm : f ∈ p := hp.mem_iff.2 (by simpa using hf)
      have := List.idxOf_lt_length_of_mem hm
      rw [List.getD_eq_getElem?_getD, List.getElem?_eq_getElem this, List.getElem_idxOf this]
      rfl
    rw [hget]
    have hall : columnAllowed o f = true := by
      rw [← columnAllowed_reorder hp hf]
      exact hf'.2
    obtain ⟨s', e1, e2⟩ := findBetterSplit_renamed (al := o.allowedColumns.map p.idxOf) (hsol f hf hall)
      (fun col hc => sampleCol_reorder hp hrect hf hc)
    rw [e1, e2.eq]
  have h2 := search_pick (o := o') hi ((List.range n).filter (columnAllowed o')) hstep init (Or.inl rfl)
  obtain ⟨b1, b2⟩ := pick_spec (xgb := o.xgb) (sol := fun f' => (sol (p.getD f' 0)).renumber o.xgb init p)
    ((List.range n).filter (columnAllowed o')) init
  unfold searchSplit
  rw [h2]
  congr 1
  change ((List.range n).filter (columnAllowed o')).foldl
    (fun b f' => pickBest o.xgb b ((sol (p.getD f' 0)).renumber o.xgb init p)) init = _
  generalize ((List.range n).filter (columnAllowed o')).foldl
    (fun b f' => pickBest o.xgb b ((sol (p.getD f' 0)).renumber o.xgb init p)) init = R at b1 b2 ⊢
  -- back and forth between the columns
  have hfwd : ∀ f ∈ (List.range n).filter (columnAllowed o), p.idxOf f ∈ (List.range n).filter (columnAllowed o') ∧ p.getD (p.idxOf f) 0 = f := by
    intro f hf
    obtain ⟨hf1, hf2⟩ := (hmem f).1 hf
    refine ⟨?_, ?_⟩
    · simp only [List.mem_filter, List.mem_range]
      exact ⟨idxOf_lt hp hf1, by rw [columnAllowed_reorder hp hf1]; exact hf2⟩
    · have hm : f ∈ p := hp.mem_iff.2 (by simpa using hf1)
      have := List.idxOf_lt_length_of_mem hm
      rw [List.getD_eq_getElem?_getD, List.getElem?_eq_getElem this, List.getElem_idxOf this]
      rfl
  have hbwd : ∀ f' ∈ (List.range n).filter (columnAllowed o'), p.getD f' 0 ∈ (List.range n).filter (columnAllowed o) := by
    intro f' hf'
    simp only [List.mem_filter, List.mem_range] at hf'
    obtain ⟨f, hf, rfl⟩ := exists_idxOf hp hf'.1
    have hall : columnAllowed o f = true := by
      rw [← columnAllowed_reorder hp hf]
      exact hf'.2
    have hm := (hmem f).2 ⟨hf, hall⟩
    rw [(hfwd f hm).2]
    exact hm
  rcases a1 with a1 | ⟨f, hf, a1, a3⟩
  · rcases b1 with b1 | ⟨f', hf', b1, b3⟩
    · rw [b1, a1]
      unfold Best.renumber
      simp [betterX_irrefl]
    · rw [Best.renumber_score] at b3
      have := a2 _ (hbwd f' hf')
      rw [a1, b3] at this
      cases this
  · obtain ⟨c1, c2⟩ := hfwd f hf
    rcases b1 with b1 | ⟨f', hf', b1, b3⟩
    · have := b2 _ c1
      simp only [c2, Best.renumber_score] at this
      rw [b1, a3] at this
      cases this
    · rw [Best.renumber_score] at b3
      set g := p.getD f' 0 with hg
      have d1 := a2 _ (hbwd f' hf')
      have d2 := b2 _ c1
      simp only [c2, Best.renumber_score] at d2
      rw [b1, Best.renumber_score] at d2
      rw [a1] at d1
      have heq : ((sol g).score ==. (sol f).score) = true := by
        rcases betterX_tri o.xgb (betterX_self b3).1 (betterX_self a3).1 with h | h | h
        · rw [d1] at h; cases h
        · exact h
        · rw [d2] at h; cases h
      obtain ⟨e1, e2⟩ := (hmem _).1 (hbwd f' hf')
      by_cases hgf : g = best.feature
      · -- the same column
        have hff : best.feature = f := by
          obtain ⟨e3, e4⟩ := (hmem _).1 hf
          obtain ⟨_, _, _, _, _, q | ⟨_, _, _, _, q, _⟩, _⟩ := findBetterSplit_spec (hsol f e3 e4)
          · rw [q, betterX_irrefl] at a3; cases a3
          · rw [a1, q]
        rw [b1, hgf, hff, a1]
      · have := hties g e1 e2 hgf (by rw [a1]; exact a3) _ (hsol g e1 e2)
        rw [a1, heq] at this
        cases this

end Boo
