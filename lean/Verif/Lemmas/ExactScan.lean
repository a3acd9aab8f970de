import Verif.Props.MinChild
import Verif.Spec.Gain
import Mathlib.Tactic.Ring
import Mathlib.Tactic.FieldSimp

namespace Boo
open GoFloat Spec
set_option linter.unusedSectionVars false
variable {K : Type} [Field K] [LinearOrder K] [IsStrictOrderedRing K] [FloorRing K]

theorem fin_inj {a b : K} (h : (XF.fin a : Exact K) = .fin b) : a = b := by cases h; rfl

theorem finRows_get {X : List (List K)} {i f : Nat} {row : List (Exact K)} {v : Exact K}
    (h1 : (finRows X)[i]? = some row) (h2 : row[f]? = some v) : v = .fin (val X i f) := by
  unfold finRows at h1
  rw [List.getElem?_map] at h1
  obtain ⟨r, hr, rfl⟩ := Option.map_eq_some_iff.1 h1
  rw [List.getElem?_map] at h2
  obtain ⟨a, ha, rfl⟩ := Option.map_eq_some_iff.1 h2
  unfold val
  have e : X.getD i [] = r := by rw [List.getD_eq_getElem?_getD, hr]; rfl
  rw [e, List.getD_eq_getElem?_getD, ha]
  rfl

theorem sampleCol_fin {X : List (List K)} {idx : List Nat} {f : Nat} {col : List (Exact K)}
    (h : sampleCol (finRows X) idx f = .ok col) : col = idx.map fun i => .fin (val X i f) := by
  have h1 := sampleCol_ok h
  clear h
  induction h1 with
  | nil => rfl
  | cons h2 h3 ih =>
    obtain ⟨row, hr, hv⟩ := h2
    rw [List.map_cons, ← ih, finRows_get hr hv]

theorem sampleSlice_fin {v : List K} {idx : List Nat} {l : List (Exact K)}
    (h : sampleSlice (v.map XF.fin) idx = .ok l) : l = idx.map fun i => .fin (v.getD i 0) := by
  have h1 := (sampleSlice_ok.1 h).2
  clear h
  induction h1 with
  | nil => rfl
  | cons h2 h3 ih =>
    rw [List.map_cons, ← ih]
    rw [List.getElem?_map] at h2
    obtain ⟨a, ha, rfl⟩ := Option.map_eq_some_iff.1 h2
    rw [List.getD_eq_getElem?_getD, ha]
    rfl

theorem sum_fin_map {α : Type} (l : List α) (f : α → K) :
    GoFloat.sum (l.map fun a => (XF.fin (f a) : Exact K)) = .fin (l.map f).sum := by
  rw [← Exact.sum_fin, List.map_map]; rfl

theorem foldl_add_fin (l : List K) (z : K) :
    (l.map XF.fin).foldl (· +. ·) (XF.fin z : Exact K) = .fin (z + l.sum) := by
  induction l generalizing z with
  | nil => simp
  | cons a l ih => simp only [List.map_cons, List.foldl_cons, Exact.add_fin, ih, List.sum_cons, add_assoc]

theorem foldl_sub_fin (l : List K) (z : K) :
    (l.map XF.fin).foldl (· -. ·) (XF.fin z : Exact K) = .fin (z - l.sum) := by
  induction l generalizing z with
  | nil => simp
  | cons a l ih =>
    simp only [List.map_cons, List.foldl_cons, Exact.sub_fin, ih, List.sum_cons]
    congr 1; ring

/-- A triple of finite values. -/
def fin3 (q : K × K × K) : Exact K × Exact K × Exact K := (.fin q.1, .fin q.2.1, .fin q.2.2)

theorem perm_map_fin3 {rows : List (Exact K × Exact K × Exact K)} {l : List (K × K × K)}
    (h : rows.Perm (l.map fin3)) : ∃ rk : List (K × K × K), rows = rk.map fin3 ∧ rk.Perm l := by
  have hinj : Function.Injective (fin3 (K := K)) := by
    rintro ⟨a, b, c⟩ ⟨a', b', c'⟩ h
    simp only [fin3, Prod.mk.injEq] at h
    rw [fin_inj h.1, fin_inj h.2.1, fin_inj h.2.2]
  have : ∃ rk : List (K × K × K), rows = rk.map fin3 := by
    have hm : ∀ q ∈ rows, ∃ k, fin3 k = q := by
      intro q hq
      obtain ⟨k, _, hk⟩ := List.mem_map.1 (h.mem_iff.1 hq)
      exact ⟨k, hk⟩
    clear h
    induction rows with
    | nil => exact ⟨[], rfl⟩
    | cons q rows ih =>
      obtain ⟨k, hk⟩ := hm q (by simp)
      obtain ⟨rk, hrk⟩ := ih fun q hq => hm q (by simp [hq])
      exact ⟨k :: rk, by simp [hk, hrk]⟩
  obtain ⟨rk, rfl⟩ := this
  exact ⟨rk, rfl, (List.map_perm_map_iff hinj).1 h⟩

/-- In a sorted list the elements up to a threshold are a prefix. -/
theorem filter_sorted (rk : List (K × K × K)) (hs : (rk.map (·.1)).Pairwise (· ≤ ·)) (θ : K) :
    rk.filter (fun q => decide (q.1 ≤ θ)) = rk.take (rk.countP fun q => decide (q.1 ≤ θ)) := by
  induction rk with
  | nil => rfl
  | cons a l ih =>
    rw [List.map_cons, List.pairwise_cons] at hs
    by_cases ha : a.1 ≤ θ
    · rw [List.filter_cons_of_pos (by simpa using ha), List.countP_cons_of_pos (by simpa using ha),
        List.take_succ_cons, ih hs.2]
    · have hall : ∀ q ∈ l, ¬ q.1 ≤ θ := by
        intro q hq hle
        exact ha ((hs.1 q.1 (List.mem_map_of_mem hq)).trans hle)
      rw [List.filter_cons_of_neg (by simpa using ha), List.countP_cons_of_neg (by simpa using ha)]
      rw [List.countP_eq_zero.2 (by simpa using hall)]
      rw [List.filter_eq_nil_iff.2 (by simpa using hall)]
      rfl

/-- The rows of one feature in exact arithmetic. -/
structure ScanK (S : GoSort) (X : List (List K)) (mcw : Int) (idx : List Nat) (f : Nat)
    (u v : Nat → K) (rk : List (K × K × K)) : Prop where
  perm : rk.Perm (idx.map fun i => (val X i f, u i, v i))
  sorted : (rk.map (·.1)).Pairwise (· ≤ ·)

theorem ScanK.sum_left {S : GoSort} {X : List (List K)} {mcw : Int} {idx : List Nat} {f : Nat}
    {u v : Nat → K} {rk : List (K × K × K)} (h : ScanK S X mcw idx f u v rk) (θ : K)
    (φ : K × K × K → K) :
    ((rk.take (rk.countP fun q => decide (q.1 ≤ θ))).map φ).sum =
      ((leftOf X idx f θ).map fun i => φ (val X i f, u i, v i)).sum := by
  rw [← filter_sorted rk h.sorted θ]
  have h1 := ((h.perm.filter (fun q => decide (q.1 ≤ θ))).map φ).sum_eq
  rw [h1, List.filter_map, List.map_map]
  rfl

theorem ScanK.count_left {S : GoSort} {X : List (List K)} {mcw : Int} {idx : List Nat} {f : Nat}
    {u v : Nat → K} {rk : List (K × K × K)} (h : ScanK S X mcw idx f u v rk) (θ : K) :
    (rk.countP fun q => decide (q.1 ≤ θ)) = (leftOf X idx f θ).length := by
  rw [h.perm.countP_eq, List.countP_map, List.countP_eq_length_filter]
  rfl

theorem ScanK.length {S : GoSort} {X : List (List K)} {mcw : Int} {idx : List Nat} {f : Nat}
    {u v : Nat → K} {rk : List (K × K × K)} (h : ScanK S X mcw idx f u v rk) :
    rk.length = idx.length := by
  rw [h.perm.length_eq]; simp

theorem left_right_perm (X : List (List K)) (idx : List Nat) (f : Nat) (θ : K) :
    (leftOf X idx f θ ++ rightOf X idx f θ).Perm idx := by
  unfold leftOf rightOf
  have : (fun i => decide (θ < val X i f)) = (fun i => !decide (val X i f ≤ θ)) := by
    funext i; rw [← decide_not]; simp
  rw [this]
  exact List.filter_append_perm _ _

theorem left_right_length (X : List (List K)) (idx : List Nat) (f : Nat) (θ : K) :
    (leftOf X idx f θ).length + (rightOf X idx f θ).length = idx.length := by
  have := (left_right_perm X idx f θ).length_eq
  rw [List.length_append] at this
  exact this

theorem left_right_sum (X : List (List K)) (v : List K) (idx : List Nat) (f : Nat) (θ : K) :
    sumOver v (leftOf X idx f θ) + sumOver v (rightOf X idx f θ) = sumOver v idx := by
  unfold sumOver
  rw [← List.sum_append, ← List.map_append]
  exact ((left_right_perm X idx f θ).map _).sum_eq

/-- exact version of the rows of a scan (xgboost) -/
theorem ScanOf.exactX {S : GoSort} {X : List (List K)} {o : TreeOptions (Exact K)} {f : Nat}
    {p : ScanParams (Exact K)} {rows : List (Exact K × Exact K × Exact K)} {A B : Exact K}
    (hs : ScanOf S (finRows X) o f p rows A B) (hx : o.xgb = true) {g h : List K}
    (hg : o.gradients = some (g.map XF.fin)) (hh : o.hessian = some (h.map XF.fin)) :
    ∃ rk, rows = rk.map fin3 ∧
      ScanK S X (toInt o.minChildWeight) (o.indexes.getD []) f (fun i => g.getD i 0) (fun i => h.getD i 0) rk ∧
      A = .fin (sumOver g (o.indexes.getD [])) ∧ B = .fin (sumOver h (o.indexes.getD [])) ∧
      p = ⟨true, toInt o.minChildWeight, o.lambda, o.gamma, A, B, (o.indexes.getD []).length, f⟩ := by
  obtain ⟨col, hc, hrows, hlen, ⟨_, g', h', e1, e2, hp, rfl, rfl, rfl⟩ | ⟨hx', _⟩⟩ := hs.rows
  · have hcol := sampleCol_fin hc
    rw [hg] at e1
    rw [hh] at e2
    have eg := sampleSlice_fin e1
    have eh := sampleSlice_fin e2
    have hz : col.zip (g'.zip h') = ((o.indexes.getD []).map fun i =>
        (val X i f, g.getD i 0, h.getD i 0)).map fin3 := by
      rw [hcol, eg, eh, List.map_map]
      generalize o.indexes.getD [] = idx
      induction idx with
      | nil => rfl
      | cons a idx ih =>
        simp only [List.map_cons, List.zip_cons_cons, ih, Function.comp_apply, fin3]
    rw [hz] at hp
    obtain ⟨rk, rfl, hrk⟩ := perm_map_fin3 hp
    have hsort := sorted_vals S col (by
      intro v hv
      rw [hcol] at hv
      obtain ⟨i, _, rfl⟩ := List.mem_map.1 hv
      simp)
    rw [← hrows, List.map_map, List.pairwise_map] at hsort
    refine ⟨rk, rfl, ⟨hrk, ?_⟩, ?_, ?_, rfl⟩
    · rw [List.pairwise_map]
      refine hsort.imp ?_
      intro a b hab
      simpa [fin3] using hab
    · rw [eg, sum_fin_map]; rfl
    · rw [eh, sum_fin_map]; rfl
  · rw [hx] at hx'; cases hx'

/-- exact version of the rows of a scan (regular) -/
theorem ScanOf.exactG {S : GoSort} {X : List (List K)} {o : TreeOptions (Exact K)} {f : Nat}
    {p : ScanParams (Exact K)} {rows : List (Exact K × Exact K × Exact K)} {A B : Exact K}
    (hs : ScanOf S (finRows X) o f p rows A B) (hx : o.xgb = false) {y : List K}
    (hy : o.y = y.map XF.fin) :
    ∃ rk, rows = rk.map fin3 ∧
      ScanK S X (toInt o.minChildWeight) (o.indexes.getD []) f (fun i => y.getD i 0) (fun i => y.getD i 0) rk ∧
      A = .fin (sumOver y (o.indexes.getD [])) ∧ B = zero ∧
      p = ⟨false, toInt o.minChildWeight, o.lambda, o.gamma, A, zero, (o.indexes.getD []).length, f⟩ := by
  obtain ⟨col, hc, hrows, hlen, ⟨hx', _⟩ | ⟨_, y', e1, hp, hA, rfl, rfl⟩⟩ := hs.rows
  · rw [hx] at hx'; cases hx'
  · have hcol := sampleCol_fin hc
    rw [hy] at e1
    have ey := sampleSlice_fin e1
    have hz : col.zip (y'.zip y') = ((o.indexes.getD []).map fun i =>
        (val X i f, y.getD i 0, y.getD i 0)).map fin3 := by
      rw [hcol, ey, List.map_map]
      generalize o.indexes.getD [] = idx
      induction idx with
      | nil => rfl
      | cons a idx ih =>
        simp only [List.map_cons, List.zip_cons_cons, ih, Function.comp_apply, fin3]
    rw [hz] at hp
    obtain ⟨rk, rfl, hrk⟩ := perm_map_fin3 hp
    have hsort := sorted_vals S col (by
      intro v hv
      rw [hcol] at hv
      obtain ⟨i, _, rfl⟩ := List.mem_map.1 hv
      simp)
    rw [← hrows, List.map_map, List.pairwise_map] at hsort
    refine ⟨rk, rfl, ⟨hrk, ?_⟩, ?_, rfl, rfl⟩
    · rw [List.pairwise_map]
      refine hsort.imp ?_
      intro a b hab
      simpa [fin3] using hab
    · rw [hA, List.map_map]
      have : ((fun q : Exact K × Exact K × Exact K => q.2.1) ∘ fin3) = (fun q : K × K × K => (XF.fin q.2.1 : Exact K)) := rfl
      rw [this, sum_fin_map]
      congr 1
      rw [(hrk.map _).sum_eq, List.map_map]
      rfl

/-- An admissible threshold is a candidate of the scan, with the sums of both sides. -/
theorem cand_of_admissible {S : GoSort} {X : List (List K)} {idx : List Nat} {f : Nat}
    {u v : Nat → K} {rk : List (K × K × K)} {p : ScanParams (Exact K)}
    (h : ScanK S X p.mcw idx f u v rk) (θ : K) (hadm : Admissible X p.mcw idx f θ) :
    ∃ x x', Cand p (rk.map fin3) 0 idx.length (leftOf X idx f θ).length x x' := by
  have hlen := left_right_length X idx f θ
  have hL := hadm.1
  have hR := hadm.2
  set k := (leftOf X idx f θ).length with hk
  have hrl := h.length
  have hk1 : 1 ≤ k := by have := le_max_left 1 p.mcw; omega
  have hk2 : k < idx.length := by have := le_max_left 1 p.mcw; omega
  have hkr : k < rk.length := by omega
  have hcount : (rk.countP fun q => decide (q.1 ≤ θ)) = k := h.count_left θ
  have hf := filter_sorted rk h.sorted θ
  rw [hcount] at hf
  have hx1 : rk[k-1].1 ≤ θ := by
    have : rk[k-1] ∈ rk.take k := by
      rw [List.mem_take_iff_getElem]
      exact ⟨k - 1, by omega, rfl⟩
    rw [← hf] at this
    simpa using (List.mem_filter.1 this).2
  have hx2 : θ < rk[k].1 := by
    by_contra hc
    have hc : rk[k].1 ≤ θ := not_lt.1 hc
    -- then the first k+1 rows are all ≤ θ
    have hall : ∀ q ∈ rk.take (k + 1), q.1 ≤ θ := by
      intro q hq
      obtain ⟨j, hj, rfl⟩ := List.mem_take_iff_getElem.1 hq
      have hs := h.sorted
      rw [List.pairwise_map, List.pairwise_iff_getElem] at hs
      by_cases hjk : j = k
      · subst hjk; exact hc
      · exact (hs j k (by omega) hkr (by omega)).trans hc
    have h1 : (rk.take (k + 1)).countP (fun q => decide (q.1 ≤ θ)) = k + 1 := by
      rw [List.countP_eq_length.2 (by simpa using hall), List.length_take]; omega
    have h2 : (rk.take (k + 1)).countP (fun q => decide (q.1 ≤ θ)) ≤ rk.countP (fun q => decide (q.1 ≤ θ)) :=
      (List.take_sublist _ _).countP_le
    omega
  refine ⟨.fin rk[k-1].1, .fin rk[k].1, hk1, ?_, ?_, ?_, ?_, ?_⟩
  · rw [List.getElem?_map, List.getElem?_eq_getElem (by omega)]; rfl
  · rw [List.getElem?_map, List.getElem?_eq_getElem (by omega)]; rfl
  · have := le_max_right 1 p.mcw; omega
  · have := le_max_right 1 p.mcw; omega
  · rw [XF.fin_eq, decide_eq_false_iff_not]
    intro he
    rw [he] at hx1
    exact absurd hx2 (not_lt.2 hx1)

/-- The chosen cut is the threshold split. -/
theorem cut_is_threshold {S : GoSort} {X : List (List K)} {idx : List Nat} {f : Nat}
    {u v : Nat → K} {rk : List (K × K × K)} {p : ScanParams (Exact K)} {k : Nat} {x x' : Exact K}
    (h : ScanK S X p.mcw idx f u v rk) (hc : Cand p (rk.map fin3) 0 idx.length k x x') :
    ∃ θ : K, mid x x' = .fin θ ∧ (leftOf X idx f θ).length = k ∧ Admissible X p.mcw idx f θ := by
  obtain ⟨h1, h2, h3, h4, h5, h6⟩ := hc
  rw [List.getElem?_map] at h2 h3
  have hk : k < rk.length := by
    by_contra hcon
    rw [List.getElem?_eq_none (by omega)] at h3; cases h3
  rw [List.getElem?_eq_getElem (by omega)] at h2 h3
  simp only [Option.map_some, Option.some.injEq] at h2 h3
  subst h2; subst h3
  have hle : rk[k-1].1 ≤ rk[k].1 := by
    have hs := h.sorted
    rw [List.pairwise_map, List.pairwise_iff_getElem] at hs
    exact hs (k-1) k (by omega) hk (by omega)
  have hne : rk[k-1].1 ≠ rk[k].1 := by simpa [fin3] using h6
  have hlt := lt_of_le_of_ne hle hne
  have hc2 : ((2 : ℚ) : K) = 2 := by norm_num
  have hmid : mid (fin3 rk[k-1]).1 (fin3 rk[k]).1 = .fin ((rk[k-1].1 + rk[k].1) / 2) := by
    unfold mid fin3
    simp only
    rw [Exact.add_fin, Exact.ofRat_fin, hc2, Exact.div_fin _ _ (by norm_num)]
  set θ := (rk[k-1].1 + rk[k].1) / 2 with hθ
  have ht1 : rk[k-1].1 ≤ θ := by rw [hθ, le_div_iff₀ (by norm_num)]; linarith
  have ht2 : θ < rk[k].1 := by rw [hθ, div_lt_iff₀ (by norm_num)]; linarith
  have hs := h.sorted
  rw [List.pairwise_map, List.pairwise_iff_getElem] at hs
  have hcount : (rk.countP fun q => decide (q.1 ≤ θ)) = k := by
    conv_lhs => rw [← List.take_append_drop k rk]
    rw [List.countP_append]
    have e1 : (rk.take k).countP (fun q => decide (q.1 ≤ θ)) = k := by
      rw [List.countP_eq_length.2, List.length_take]
      · omega
      · intro q hq
        obtain ⟨j, hj, rfl⟩ := List.mem_take_iff_getElem.1 hq
        simp only [decide_eq_true_eq]
        by_cases hjk : j = k - 1
        · subst hjk; exact ht1
        · exact (hs j (k-1) (by omega) (by omega) (by omega)).trans ht1
    have e2 : (rk.drop k).countP (fun q => decide (q.1 ≤ θ)) = 0 := by
      rw [List.countP_eq_zero]
      intro q hq
      obtain ⟨j, hj, rfl⟩ := List.mem_drop_iff_getElem.1 hq
      simp only [decide_eq_true_eq, not_le]
      by_cases hj0 : j = 0
      · subst hj0; simpa using ht2
      · exact lt_of_lt_of_le ht2 (hs k (k + j) hk (by omega) (by omega))
    rw [e1, e2]; rfl
  rw [h.count_left] at hcount
  have hlr := left_right_length X idx f θ
  have hrl := h.length
  exact ⟨θ, hmid, hcount, by unfold Admissible; constructor <;> (rw [max_le_iff]; constructor <;> omega)⟩

/-- The gain of the candidate that belongs to a threshold. -/
theorem candGain_exact {S : GoSort} {X : List (List K)} {idx : List Nat} {f : Nat}
    {u v : Nat → K} {rk : List (K × K × K)} {p : ScanParams (Exact K)} {a b a0 b0 : K}
    (h : ScanK S X p.mcw idx f u v rk) (θ : K) :
    candGain p (rk.map fin3) 0 idx.length (.fin a0) (.fin a) (.fin b0) (.fin b) (leftOf X idx f θ).length =
      p.gain (leftOf X idx f θ).length (idx.length - (leftOf X idx f θ).length)
        (.fin (a0 + ((leftOf X idx f θ).map u).sum)) (.fin (a - ((leftOf X idx f θ).map u).sum))
        (.fin (b0 + ((leftOf X idx f θ).map v).sum)) (.fin (b - ((leftOf X idx f θ).map v).sum)) := by
  unfold candGain
  have h1 : ((rk.map fin3).take (leftOf X idx f θ).length).map (·.2.1) =
      ((rk.take (leftOf X idx f θ).length).map (·.2.1)).map XF.fin := by
    rw [← List.map_take, List.map_map, List.map_map]; rfl
  have h2 : ((rk.map fin3).take (leftOf X idx f θ).length).map (·.2.2) =
      ((rk.take (leftOf X idx f θ).length).map (·.2.2)).map XF.fin := by
    rw [← List.map_take, List.map_map, List.map_map]; rfl
  rw [h1, h2, foldl_add_fin, foldl_add_fin, foldl_sub_fin, foldl_sub_fin, zero_add]
  have s1 := h.sum_left θ (·.2.1)
  have s2 := h.sum_left θ (·.2.2)
  rw [h.count_left] at s1 s2
  rw [s1, s2]

end Boo
