import Verif.Lemmas.TreeSub

namespace Boo
open GoFloat
set_option linter.unusedSectionVars false
variable {F : Type} [GoFloat F]

/-! ### order facts -/
section
variable [GoFloatOrd F]

theorem fle_trans {a b c : F} (h1 : (a <=. b) = true) (h2 : (b <=. c) = true) :
    (a <=. c) = true := by
  rw [GoFloatOrd.le_iff] at *
  simp only [Bool.or_eq_true] at *
  rcases h1 with h1 | h1 <;> rcases h2 with h2 | h2
  · exact Or.inl (GoFloatOrd.lt_trans _ _ _ h1 h2)
  · exact Or.inl (GoFloatOrd.lt_eq _ _ _ h1 h2)
  · exact Or.inl (GoFloatOrd.eq_lt _ _ _ h1 h2)
  · exact Or.inr (GoFloatOrd.eq_trans _ _ _ h1 h2)

theorem flt_of_lt_of_le {a b c : F} (h1 : (a <. b) = true) (h2 : (b <=. c) = true) :
    (a <. c) = true := by
  rw [GoFloatOrd.le_iff] at h2
  simp only [Bool.or_eq_true] at h2
  rcases h2 with h2 | h2
  · exact GoFloatOrd.lt_trans _ _ _ h1 h2
  · exact GoFloatOrd.lt_eq _ _ _ h1 h2

theorem flt_of_le_of_lt {a b c : F} (h1 : (a <=. b) = true) (h2 : (b <. c) = true) :
    (a <. c) = true := by
  rw [GoFloatOrd.le_iff] at h1
  simp only [Bool.or_eq_true] at h1
  rcases h1 with h1 | h1
  · exact GoFloatOrd.lt_trans _ _ _ h1 h2
  · exact GoFloatOrd.eq_lt _ _ _ h1 h2

theorem fnot_le_of_lt {a b : F} (h : (a <. b) = true) : (b <=. a) = false := by
  cases hq : (b <=. a) with
  | false => rfl
  | true =>
    have := flt_of_lt_of_le h hq
    rw [GoFloatOrd.lt_irrefl] at this; cases this

theorem fle_of_not_lt {a b : F} (ha : (a ==. a) = true) (hb : (b ==. b) = true)
    (h : (b <. a) = false) : (a <=. b) = true := by
  rw [GoFloatOrd.le_iff]
  simp only [Bool.or_eq_true]
  rcases GoFloatOrd.tri a b ha hb with h1 | h1 | h1
  · exact Or.inl h1
  · exact Or.inr h1
  · rw [h] at h1; cases h1

theorem flt_of_le_of_ne {a b : F} (h : (a <=. b) = true) (hne : (a ==. b) = false) :
    (a <. b) = true := by
  rw [GoFloatOrd.le_iff] at h
  simpa [hne] using h

theorem idLess_swo (l : List (F × Nat)) (h : ∀ p ∈ l, (p.1 ==. p.1) = true) :
    StrictWeakOn idLess l := by
  refine ⟨fun a _ => GoFloatOrd.lt_irrefl _, fun a _ b _ c _ => GoFloatOrd.lt_trans _ _ _,
    fun a ha b hb c hc h1 h2 => ?_⟩
  unfold idLess at *
  have e1 := fle_of_not_lt (h b hb) (h a ha) h1
  have e2 := fle_of_not_lt (h c hc) (h b hb) h2
  have := fle_trans e2 e1
  cases hq : (a.1 <. c.1) with
  | false => rfl
  | true => rw [fnot_le_of_lt hq] at this; cases this

end

/-! ### the rows of a scan -/

theorem zip_range_mem {α : Type} {l : List α} {a : α} {j : Nat}
    (h : (a, j) ∈ l.zip (List.range l.length)) : l[j]? = some a := by
  rw [List.mem_iff_getElem?] at h
  obtain ⟨n, hn⟩ := h
  rw [List.getElem?_zip_eq_some] at hn
  obtain ⟨h1, h2⟩ := hn
  rw [List.getElem?_range] at h2
  · cases h2; exact h1
  · by_contra hc
    rw [List.getElem?_eq_none (by simpa using hc)] at h2; cases h2

/-- The scanned rows, for a column `col` and two value lists `g`, `h`, are a permutation of the
rows in sample order. -/
theorem rows_perm (S : GoSort) (col g h sg sh : List F) (hg : col.length = g.length)
    (hh : col.length = h.length) (e1 : sampleSlice g (argSort S col).1 = .ok sg)
    (e2 : sampleSlice h (argSort S col).1 = .ok sh) :
    ((argSort S col).2.zip (sg.zip sh)).Perm (col.zip (g.zip h)) ∧
    (argSort S col).2.length = sg.length ∧ sg.length = sh.length := by
  have l1 := (sampleSlice_ok.1 e1).2
  have l2 := (sampleSlice_ok.1 e2).2
  have hl1 := l1.length_eq
  have hl2 := l2.length_eq
  unfold argSort at *
  simp only at *
  have hperm : (S.sort idLess (col.zip (List.range col.length))).Perm
    (col.zip (List.range col.length)) := S.perm _ _
  generalize S.sort idLess (col.zip (List.range col.length)) = r at *
  -- rows as a map over r
  have hrows : (r.map Prod.fst).zip (sg.zip sh) =
      r.filterMap (fun p => (g[p.2]?).bind fun a => (h[p.2]?).map fun b => (p.1, a, b)) := by
    clear hperm hl1 hl2 e1 e2
    induction r generalizing sg sh with
    | nil => simp
    | cons q r ih =>
      rw [List.map_cons] at l1 l2
      cases l1 with
      | cons a1 a2 =>
        cases l2 with
        | cons b1 b2 =>
          simp only [List.map_cons, List.zip_cons_cons, List.filterMap_cons, a1, b1]
          simp [ih _ _ a2 b2]
  have horig : col.zip (g.zip h) =
      (col.zip (List.range col.length)).filterMap
        (fun p => (g[p.2]?).bind fun a => (h[p.2]?).map fun b => (p.1, a, b)) := by
    have : (col.zip (List.range col.length)).map
        (fun p => (g[p.2]?).bind fun a => (h[p.2]?).map fun b => (p.1, a, b)) =
        (col.zip (g.zip h)).map some := by
      apply List.ext_getElem?
      intro i
      by_cases hi : i < col.length
      · have hgi : i < g.length := by omega
        have hhi : i < h.length := by omega
        simp [hi, hgi, hhi, List.zip]
      · have hi' := Nat.le_of_not_lt hi
        rw [List.getElem?_eq_none (by simp; omega),
          List.getElem?_eq_none (by simp; omega)]
    have h2 := congrArg (List.filterMap id) this
    rw [List.filterMap_map, List.filterMap_map] at h2
    simpa using h2.symm
  refine ⟨?_, ?_, by omega⟩
  · rw [hrows, horig]
    exact hperm.filterMap _
  · simpa using hl1

/-- values come out sorted -/
theorem sorted_vals [GoFloatOrd F] (S : GoSort) (col : List F)
    (hn : ∀ v ∈ col, (v ==. v) = true) :
    (argSort S col).2.Pairwise (fun a b => (a <=. b) = true) := by
  unfold argSort
  simp only
  have hz : ∀ p ∈ col.zip (List.range col.length), (p.1 ==. p.1) = true := by
    rintro ⟨v, j⟩ hp
    exact hn v (List.of_mem_zip hp).1
  have hs := S.sorted idLess _ (idLess_swo _ hz)
  have hp := S.perm idLess (col.zip (List.range col.length))
  rw [List.pairwise_map]
  refine List.Pairwise.imp_of_mem ?_ hs
  intro a b ha hb h
  exact fle_of_not_lt (hz a (hp.mem_iff.1 ha)) (hz b (hp.mem_iff.1 hb)) h

/-- A cut of a sorted list of rows at a jump: the rows up to the threshold are the first `k`. -/
theorem cut_left [GoFloatOrd F] (rows : List (F × F × F)) (k : Nat) (x thr : F)
    (hs : (rows.map (·.1)).Pairwise (fun a b => (a <=. b) = true)) (hk : 1 ≤ k)
    (hx : (rows[k-1]?).map (·.1) = some x) (hxt : (x <=. thr) = true) :
    ∀ q ∈ rows.take k, (q.1 <=. thr) = true := by
  intro q hq
  obtain ⟨r, hr, rfl⟩ := Option.map_eq_some_iff.1 hx
  rw [List.mem_iff_getElem?] at hq
  obtain ⟨j, hj⟩ := hq
  have hjk : j < k := by
    by_contra hc
    rw [List.getElem?_eq_none (by simp; omega)] at hj; cases hj
  rw [List.getElem?_take_of_lt hjk] at hj
  by_cases hjk' : j = k - 1
  · subst hjk'; rw [hr] at hj; cases hj; exact hxt
  · rw [List.pairwise_map, List.pairwise_iff_getElem] at hs
    have hb : k - 1 < rows.length := by
      by_contra hc; rw [List.getElem?_eq_none (by omega)] at hr; cases hr
    have hjl : j < rows.length := by omega
    have := hs j (k-1) hjl hb (by omega)
    rw [List.getElem?_eq_getElem hjl] at hj
    rw [List.getElem?_eq_getElem hb] at hr
    cases hj; cases hr
    exact fle_trans this hxt

theorem cut_right [GoFloatOrd F] (rows : List (F × F × F)) (k : Nat) (x' thr : F)
    (hs : (rows.map (·.1)).Pairwise (fun a b => (a <=. b) = true))
    (hx : (rows[k]?).map (·.1) = some x') (hxt : (thr <. x') = true) :
    ∀ q ∈ rows.drop k, (q.1 <=. thr) = false := by
  intro q hq
  obtain ⟨r, hr, rfl⟩ := Option.map_eq_some_iff.1 hx
  rw [List.mem_iff_getElem?] at hq
  obtain ⟨j, hj⟩ := hq
  rw [List.getElem?_drop] at hj
  apply fnot_le_of_lt
  by_cases hj0 : j = 0
  · subst hj0; simp only [Nat.add_zero] at hj; rw [hr] at hj; cases hj; exact hxt
  · rw [List.pairwise_map, List.pairwise_iff_getElem] at hs
    have hjl : k + j < rows.length := by
      by_contra hc; rw [List.getElem?_eq_none (by omega)] at hj; cases hj
    have hb : k < rows.length := by omega
    have := hs k (k+j) hb hjl (by omega)
    rw [List.getElem?_eq_getElem hjl] at hj
    rw [List.getElem?_eq_getElem hb] at hr
    cases hj; cases hr
    exact flt_of_lt_of_le hxt this

/-- number of samples going left / right -/
theorem goLeft_length (thr : F) (col : List F) (idx : List Nat) (h : col.length = idx.length) :
    (goLeft thr col idx).length = col.countP (fun v => v <=. thr) := by
  unfold goLeft
  rw [List.length_map, ← List.countP_eq_length_filter]
  have : col = (col.zip idx).map Prod.fst := (List.map_fst_zip (by omega)).symm
  conv => rhs; rw [this, List.countP_map]
  rfl

theorem goRight_length (thr : F) (col : List F) (idx : List Nat) (h : col.length = idx.length) :
    (goRight thr col idx).length = col.countP (fun v => !(v <=. thr)) := by
  unfold goRight
  rw [List.length_map, ← List.countP_eq_length_filter]
  have : col = (col.zip idx).map Prod.fst := (List.map_fst_zip (by omega)).symm
  conv => rhs; rw [this, List.countP_map]
  rfl

/-- What `ScanOf` says about the rows: a permutation of the rows in sample order, sorted. -/
theorem ScanOf.rows {S : GoSort} {X : List (List F)} {o : TreeOptions F} {f : Nat}
    {p : ScanParams F} {rows : List (F × F × F)} {A B : F}
    (h : ScanOf S X o f p rows A B) :
    ∃ col, sampleCol X (o.indexes.getD []) f = .ok col ∧ rows.map (·.1) = (argSort S col).2 ∧
      rows.length = col.length ∧
      ((o.xgb = true ∧ ∃ g h, sampleSlice (o.gradients.getD []) (o.indexes.getD []) = .ok g ∧
        sampleSlice (o.hessian.getD []) (o.indexes.getD []) = .ok h ∧
        rows.Perm (col.zip (g.zip h)) ∧ A = GoFloat.sum g ∧ B = GoFloat.sum h ∧
        p = ⟨true, toInt o.minChildWeight, o.lambda, o.gamma, GoFloat.sum g, GoFloat.sum h,
              (o.indexes.getD []).length, f⟩) ∨
       (o.xgb = false ∧ ∃ y, sampleSlice o.y (o.indexes.getD []) = .ok y ∧
        rows.Perm (col.zip (y.zip y)) ∧ A = GoFloat.sum (rows.map (·.2.1)) ∧ B = zero ∧
        p = ⟨false, toInt o.minChildWeight, o.lambda, o.gamma, A, zero,
              (o.indexes.getD []).length, f⟩)) := by
  obtain ⟨col, hc, h⟩ := h
  have hcl := sampleCol_length hc
  have hal : (argSort S col).2.length = col.length := by
    unfold argSort
    simp only [List.length_map]
    rw [(S.perm _ _).length_eq]; simp
  refine ⟨col, hc, ?_⟩
  rcases h with ⟨hx, g, hh, sg, sh, e1, e2, e3, e4, rfl, rfl, rfl, rfl⟩ | ⟨hx, y, sy, e1, e2, rfl, rfl, rfl, rfl⟩
  · have lg := (sampleSlice_ok.1 e1).2.length_eq
    have lh := (sampleSlice_ok.1 e2).2.length_eq
    obtain ⟨hp, l1, l2⟩ := rows_perm S col g hh sg sh (by omega) (by omega) e3 e4
    refine ⟨?_, by simp; omega, Or.inl ⟨hx, g, hh, e1, e2, hp, rfl, rfl, rfl⟩⟩
    exact List.map_fst_zip (by simp; omega)
  · have ly := (sampleSlice_ok.1 e1).2.length_eq
    obtain ⟨hp, l1, l2⟩ := rows_perm S col y y sy sy (by omega) (by omega) e2 e2
    have h3 : ((argSort S col).2.zip (sy.zip sy)).map (·.2.1) = sy := by
      have e : (fun q : F × F × F => q.2.1) = Prod.fst ∘ Prod.snd := rfl
      rw [e, ← List.map_map, List.map_snd_zip (by simp; omega), List.map_fst_zip (by omega)]
    refine ⟨?_, by simp; omega, Or.inr ⟨hx, y, e1, hp, by rw [h3], rfl, rfl⟩⟩
    exact List.map_fst_zip (by simp; omega)

end Boo
