import Verif.Lemmas.B64Gain
import Verif.Props.Apart
import Verif.Props.Gain

/-!
# The scan of a feature in binary64
-/

namespace Boo
open GoFloat Spec
set_option linter.unusedSectionVars false

section AnyOrder

variable {τ : Option SumOrder}
/-- float64, with any order of the additions of `floats.Sum` -/
local notation "F64" => F64o τ

/-- finite data as float64 -/
def rows64 (X : List (List ℚ)) : List (List F64) := X.map (·.map XF.fin)

theorem fin_inj64 {a b : ℚ} (h : (XF.fin a : F64) = .fin b) : a = b := by cases h; rfl

theorem rows64_get {X : List (List ℚ)} {i f : Nat} {row : List F64} {v : F64}
    (h1 : (rows64 X)[i]? = some row) (h2 : row[f]? = some v) : v = .fin (val X i f) := by
  unfold rows64 at h1
  rw [List.getElem?_map] at h1
  obtain ⟨r, hr, rfl⟩ := Option.map_eq_some_iff.1 h1
  rw [List.getElem?_map] at h2
  obtain ⟨a, ha, rfl⟩ := Option.map_eq_some_iff.1 h2
  unfold val
  have e : X.getD i [] = r := by rw [List.getD_eq_getElem?_getD, hr]; rfl
  rw [e, List.getD_eq_getElem?_getD, ha]
  rfl

theorem sampleCol64 {X : List (List ℚ)} {idx : List Nat} {f : Nat} {col : List F64}
    (h : sampleCol (rows64 X) idx f = .ok col) : col = idx.map fun i => .fin (val X i f) := by
  have h1 := sampleCol_ok h
  clear h
  induction h1 with
  | nil => rfl
  | cons h2 h3 ih =>
    obtain ⟨row, hr, hv⟩ := h2
    rw [List.map_cons, ← ih, rows64_get hr hv]

theorem sampleSlice64 {v : List ℚ} {idx : List Nat} {l : List F64}
    (h : sampleSlice (v.map XF.fin) idx = .ok l) : l = (idx.map fun i => v.getD i 0).map XF.fin := by
  have h1 := (sampleSlice_ok.1 h).2
  clear h
  induction h1 with
  | nil => rfl
  | cons h2 h3 ih =>
    rw [List.map_cons, List.map_cons, ← ih]
    rw [List.getElem?_map] at h2
    obtain ⟨a, ha, rfl⟩ := Option.map_eq_some_iff.1 h2
    rw [List.getD_eq_getElem?_getD, ha]
    rfl

theorem sampleSlice64_range {w : List ℚ} {idx : List Nat} {l : List F64} (h : sampleSlice (w.map XF.fin) idx = .ok l) :
    ∀ i ∈ idx, i < w.length := by
  intro i hi
  have h3 := (sampleSlice_ok.1 h).2
  clear h
  induction h3 with
  | nil => simp at hi
  | cons h4 h5 ih =>
    rcases List.mem_cons.1 hi with rfl | hi
    · rw [List.getElem?_map] at h4
      by_contra hc
      rw [List.getElem?_eq_none (by omega)] at h4; cases h4
    · exact ih hi

def fin64 (q : ℚ × ℚ × ℚ) : F64 × F64 × F64 := (.fin q.1, .fin q.2.1, .fin q.2.2)

theorem perm_map_fin64 {rows : List (F64 × F64 × F64)} {l : List (ℚ × ℚ × ℚ)}
    (h : rows.Perm (l.map fin64)) : ∃ rk : List (ℚ × ℚ × ℚ), rows = rk.map fin64 ∧ rk.Perm l := by
  have hinj : Function.Injective (fin64 (τ := τ)) := by
    rintro ⟨a, b, c⟩ ⟨a', b', c'⟩ h
    simp only [fin64, Prod.mk.injEq] at h
    rw [fin_inj64 h.1, fin_inj64 h.2.1, fin_inj64 h.2.2]
  have : ∃ rk : List (ℚ × ℚ × ℚ), rows = rk.map fin64 := by
    have hm : ∀ q ∈ rows, ∃ k, fin64 k = q := by
      intro q hq
      obtain ⟨k, _, hk⟩ := List.mem_map.1 (h.mem_iff.1 hq)
      exact ⟨k, hk⟩
    clear h
    induction rows with
    | nil => exact ⟨[], rfl⟩
    | cons q rows ih =>
      obtain ⟨k, hk⟩ := hm q (by simp)
      obtain ⟨rk, hrk⟩ := ih fun q hq => hm q (by simp [hq])
      exact ⟨k :: rk, by simp [hk, hrk]⟩
  obtain ⟨rk, rfl⟩ := this
  exact ⟨rk, rfl, (List.map_perm_map_iff hinj).1 h⟩

theorem ScanOf.reg64 {S : GoSort} {X : List (List ℚ)} {o : TreeOptions F64} {f : Nat}
    {p : ScanParams F64} {rows : List (F64 × F64 × F64)} {A B : F64}
    (hs : ScanOf S (rows64 X) o f p rows A B) (hx : o.xgb = false) {y : List ℚ} (hy : o.y = y.map XF.fin) :
    ∃ rk, rows = rk.map fin64 ∧
      ScanK S X (toInt o.minChildWeight) (o.indexes.getD []) f (fun i => y.getD i 0) (fun i => y.getD i 0) rk ∧
      A = GoFloat.sum ((rk.map (·.2.1)).map XF.fin) ∧ B = zero ∧
      p = ⟨false, toInt o.minChildWeight, o.lambda, o.gamma, A, zero, (o.indexes.getD []).length, f⟩ := by
  obtain ⟨col, hc, hrows, hlen, ⟨hx', _⟩ | ⟨_, y', e1, hp, hA, rfl, rfl⟩⟩ := hs.rows
  · rw [hx] at hx'; cases hx'
  · have hcol := sampleCol64 hc
    rw [hy] at e1
    have ey := sampleSlice64 e1
    have hz : col.zip (y'.zip y') = ((o.indexes.getD []).map fun i =>
        (val X i f, y.getD i 0, y.getD i 0)).map fin64 := by
      rw [hcol, ey, List.map_map, List.map_map]
      generalize o.indexes.getD [] = idx
      induction idx with
      | nil => rfl
      | cons a idx ih =>
        simp only [List.map_cons, List.zip_cons_cons, ih, Function.comp_apply, fin64]
    rw [hz] at hp
    obtain ⟨rk, rfl, hrk⟩ := perm_map_fin64 hp
    have hsort := sorted_vals S col (by
      intro v hv
      rw [hcol] at hv
      obtain ⟨i, _, rfl⟩ := List.mem_map.1 hv
      simp)
    rw [← hrows, List.map_map, List.pairwise_map] at hsort
    refine ⟨rk, rfl, ⟨hrk, ?_⟩, ?_, rfl, rfl⟩
    · rw [List.pairwise_map]
      refine hsort.imp ?_
      intro a b hab
      simpa [fin64] using hab
    · rw [hA, List.map_map, List.map_map]
      rfl

theorem ScanOf.xgb64 {S : GoSort} {X : List (List ℚ)} {o : TreeOptions F64} {f : Nat}
    {p : ScanParams F64} {rows : List (F64 × F64 × F64)} {A B : F64}
    (hs : ScanOf S (rows64 X) o f p rows A B) (hx : o.xgb = true) {g h : List ℚ}
    (hg : o.gradients = some (g.map XF.fin)) (hh : o.hessian = some (h.map XF.fin)) :
    ∃ rk, rows = rk.map fin64 ∧
      ScanK S X (toInt o.minChildWeight) (o.indexes.getD []) f (fun i => g.getD i 0) (fun i => h.getD i 0) rk ∧
      A = GoFloat.sum (((o.indexes.getD []).map fun i => g.getD i 0).map XF.fin) ∧
      B = GoFloat.sum (((o.indexes.getD []).map fun i => h.getD i 0).map XF.fin) ∧
      p = ⟨true, toInt o.minChildWeight, o.lambda, o.gamma, A, B, (o.indexes.getD []).length, f⟩ := by
  obtain ⟨col, hc, hrows, hlen, ⟨_, g', h', e1, e2, hp, rfl, rfl, rfl⟩ | ⟨hx', _⟩⟩ := hs.rows
  · have hcol := sampleCol64 hc
    rw [hg] at e1
    rw [hh] at e2
    have eg := sampleSlice64 e1
    have eh := sampleSlice64 e2
    have hz : col.zip (g'.zip h') = ((o.indexes.getD []).map fun i =>
        (val X i f, g.getD i 0, h.getD i 0)).map fin64 := by
      rw [hcol, eg, eh, List.map_map, List.map_map, List.map_map]
      generalize o.indexes.getD [] = idx
      induction idx with
      | nil => rfl
      | cons a idx ih =>
        simp only [List.map_cons, List.zip_cons_cons, ih, Function.comp_apply, fin64]
    rw [hz] at hp
    obtain ⟨rk, rfl, hrk⟩ := perm_map_fin64 hp
    have hsort := sorted_vals S col (by
      intro v hv
      rw [hcol] at hv
      obtain ⟨i, _, rfl⟩ := List.mem_map.1 hv
      simp)
    rw [← hrows, List.map_map, List.pairwise_map] at hsort
    refine ⟨rk, rfl, ⟨hrk, ?_⟩, ?_, ?_, rfl⟩
    · rw [List.pairwise_map]
      refine hsort.imp ?_
      intro a b hab
      simpa [fin64] using hab
    · rw [eg]
    · rw [eh]
  · rw [hx] at hx'; cases hx'

/-! ### candidates and thresholds -/

theorem cand_of_admissible64 {S : GoSort} {X : List (List ℚ)} {idx : List Nat} {f : Nat}
    {u v : Nat → ℚ} {rk : List (ℚ × ℚ × ℚ)} {p : ScanParams F64}
    (h : ScanK S X p.mcw idx f u v rk) (θ : ℚ) (hadm : Admissible X p.mcw idx f θ) :
    ∃ x x', Cand p (rk.map fin64) 0 idx.length (leftOf X idx f θ).length x x' := by
  let p' : ScanParams (Exact ℚ) := ⟨p.xgb, p.mcw, zero, zero, zero, zero, p.n, p.feature⟩
  obtain ⟨x, x', h1, h2, h3, h4, h5, h6⟩ := cand_of_admissible (p := p') (S := S) (u := u) (v := v) ⟨h.perm, h.sorted⟩ θ hadm
  rw [List.getElem?_map] at h2 h3
  simp only [Option.map_map] at h2 h3
  obtain ⟨q, hq, rfl⟩ := Option.map_eq_some_iff.1 h2
  obtain ⟨q', hq', rfl⟩ := Option.map_eq_some_iff.1 h3
  refine ⟨.fin q.1, .fin q'.1, h1, ?_, ?_, h4, h5, ?_⟩
  · rw [List.getElem?_map, hq]; rfl
  · rw [List.getElem?_map, hq']; rfl
  · simpa [fin3] using h6

/-- a threshold between two consecutive values of the sorted rows -/
theorem cut_count {S : GoSort} {X : List (List ℚ)} {mcw : Int} {idx : List Nat} {f : Nat} {u v : Nat → ℚ}
    {rk : List (ℚ × ℚ × ℚ)} {k : Nat} (h : ScanK S X mcw idx f u v rk) (h1 : 1 ≤ k) (hk : k < rk.length) {θ : ℚ}
    (ht1 : rk[k-1].1 ≤ θ) (ht2 : θ < rk[k].1) (h4 : mcw ≤ k) (h5 : mcw ≤ (idx.length : Int) - k) :
    (leftOf X idx f θ).length = k ∧ Admissible X mcw idx f θ := by
  have hs := h.sorted
  rw [List.pairwise_map, List.pairwise_iff_getElem] at hs
  have hcount : (rk.countP fun q => decide (q.1 ≤ θ)) = k := by
    conv_lhs => rw [← List.take_append_drop k rk]
    rw [List.countP_append]
    have e1 : (rk.take k).countP (fun q => decide (q.1 ≤ θ)) = k := by
      rw [List.countP_eq_length.2, List.length_take]
      · omega
      · intro q hq
        obtain ⟨j, hj, rfl⟩ := List.mem_take_iff_getElem.1 hq
        simp only [decide_eq_true_eq]
        by_cases hjk : j = k - 1
        · subst hjk; exact ht1
        · exact (hs j (k-1) (by omega) (by omega) (by omega)).trans ht1
    have e2 : (rk.drop k).countP (fun q => decide (q.1 ≤ θ)) = 0 := by
      rw [List.countP_eq_zero]
      intro q hq
      obtain ⟨j, hj, rfl⟩ := List.mem_drop_iff_getElem.1 hq
      simp only [decide_eq_true_eq, not_le]
      by_cases hj0 : j = 0
      · subst hj0; simpa using ht2
      · exact lt_of_lt_of_le ht2 (hs k (k + j) hk (by omega) (by omega))
    rw [e1, e2]; rfl
  rw [h.count_left] at hcount
  have hlr := left_right_length X idx f θ
  have hrl := h.length
  exact ⟨hcount, by unfold Admissible; constructor <;> (rw [max_le_iff]; constructor <;> omega)⟩

/-- the values of the scanned rows are values of the data -/
theorem ScanK.value {S : GoSort} {X : List (List ℚ)} {mcw : Int} {idx : List Nat} {f : Nat} {u v : Nat → ℚ}
    {rk : List (ℚ × ℚ × ℚ)} (h : ScanK S X mcw idx f u v rk) {col : List F64} (hc : sampleCol (rows64 X) idx f = .ok col)
    {q : ℚ × ℚ × ℚ} (hq : q ∈ rk) : ∃ row ∈ rows64 (τ := τ) X, row[f]? = some (.fin q.1) := by
  have := h.perm.mem_iff.1 hq
  obtain ⟨i, hi, rfl⟩ := List.mem_map.1 this
  have h1 := sampleCol_ok hc
  clear hc this hq h
  induction h1 with
  | nil => simp at hi
  | cons h2 h3 ih =>
    rcases List.mem_cons.1 hi with rfl | hi
    · obtain ⟨row, hr, hv⟩ := h2
      refine ⟨row, List.mem_of_getElem? hr, ?_⟩
      rw [hv, rows64_get hr hv]
    · exact ih hi

theorem cut_is_threshold64 {S : GoSort} {X : List (List ℚ)} {idx : List Nat} {f : Nat}
    {u v : Nat → ℚ} {rk : List (ℚ × ℚ × ℚ)} {p : ScanParams F64} {k : Nat} {x x' : F64}
    (hX : Apart64 (rows64 (τ := τ) X)) {col : List F64} (hcol : sampleCol (rows64 X) idx f = .ok col)
    (h : ScanK S X p.mcw idx f u v rk) (hc : Cand p (rk.map fin64) 0 idx.length k x x') :
    ∃ θ : ℚ, mid x x' = .fin θ ∧ (leftOf X idx f θ).length = k ∧ Admissible X p.mcw idx f θ := by
  obtain ⟨h1, h2, h3, h4, h5, h6⟩ := hc
  rw [List.getElem?_map] at h2 h3
  have hk : k < rk.length := by
    by_contra hcon
    rw [List.getElem?_eq_none (by omega)] at h3; cases h3
  rw [List.getElem?_eq_getElem (by omega)] at h2 h3
  simp only [Option.map_some, Option.some.injEq] at h2 h3
  subst h2; subst h3
  have hle : rk[k-1].1 ≤ rk[k].1 := by
    have hs := h.sorted
    rw [List.pairwise_map, List.pairwise_iff_getElem] at hs
    exact hs (k-1) k (by omega) hk (by omega)
  have hne : rk[k-1].1 ≠ rk[k].1 := by simpa [fin64] using h6
  have hlt := lt_of_le_of_ne hle hne
  obtain ⟨r1, m1, g1⟩ := h.value hcol (List.getElem_mem (by omega : k - 1 < rk.length))
  obtain ⟨r2, m2, g2⟩ := h.value hcol (List.getElem_mem hk)
  obtain ⟨a, ea, ra, ba⟩ := hX.bounded r1 m1 _ (List.mem_of_getElem? g1)
  obtain ⟨b, eb, rb, bb⟩ := hX.bounded r2 m2 _ (List.mem_of_getElem? g2)
  have ea' := fin_inj64 ea
  have eb' := fin_inj64 eb
  rw [← ea'] at ra ba
  rw [← eb'] at rb bb
  obtain ⟨c, rc, c1, c2⟩ := hX.apart f r1 r2 _ _ m1 m2 g1 g2 hlt
  obtain ⟨m, hm, l1, _, e⟩ := mid64 ra rb hlt ba bb
  have l2 := mid64_lt (rep64_rv ra).1 (rep64_rv rb).1 (rep64_rv rc).1 c1 c2
  rw [← e] at l2
  obtain ⟨q1, q2⟩ := cut_count h h1 hk l1 l2 (by omega) (by omega)
  exact ⟨m, hm, q1, q2⟩

theorem goLeft64 {X : List (List ℚ)} {idx : List Nat} {f : Nat} {col : List F64} {θ : ℚ}
    {thr : F64} (ht : thr = .fin θ) (h : sampleCol (rows64 X) idx f = .ok col) :
    goLeft thr col idx = leftOf X idx f θ := by
  subst ht
  rw [sampleCol64 h]
  unfold goLeft leftOf
  clear h
  induction idx with
  | nil => rfl
  | cons a idx ih =>
    simp only [List.map_cons, List.zip_cons_cons, List.filter_cons, XF.fin_le]
    by_cases hq : val X a f ≤ θ <;> simp [hq, ih]

theorem goRight64 {X : List (List ℚ)} {idx : List Nat} {f : Nat} {col : List F64} {θ : ℚ}
    {thr : F64} (ht : thr = .fin θ) (h : sampleCol (rows64 X) idx f = .ok col) :
    goRight thr col idx = rightOf X idx f θ := by
  subst ht
  rw [sampleCol64 h]
  unfold goRight rightOf
  clear h
  induction idx with
  | nil => rfl
  | cons a idx ih =>
    simp only [List.map_cons, List.zip_cons_cons, List.filter_cons, XF.fin_le]
    by_cases hq : val X a f ≤ θ
    · simp [hq, ih]
    · simp [hq, ih, not_le.1 hq]

/-! ### sums -/

theorem sumAbs_nonneg (v : List ℚ) (idx : List Nat) : 0 ≤ sumAbs v idx := by
  apply List.sum_nonneg
  intro x hx
  obtain ⟨i, _, rfl⟩ := List.mem_map.1 hx
  exact abs_nonneg _

theorem sumAbs_sublist (v : List ℚ) {l l' : List Nat} (h : l.Sublist l') : sumAbs v l ≤ sumAbs v l' := by
  unfold sumAbs
  induction h with
  | slnil => exact le_rfl
  | cons a _ ih =>
    rw [List.map_cons, List.sum_cons]
    have := abs_nonneg (v.getD a 0)
    linarith
  | cons_cons a _ ih =>
    rw [List.map_cons, List.sum_cons, List.map_cons, List.sum_cons]
    linarith

theorem abs_sumOver_le (v : List ℚ) (idx : List Nat) : |sumOver v idx| ≤ sumAbs v idx := by
  unfold sumOver sumAbs
  induction idx with
  | nil => simp
  | cons a l ih =>
    rw [List.map_cons, List.sum_cons, List.map_cons, List.sum_cons]
    exact (abs_add_le _ _).trans (by linarith)

theorem drop_sum_abs (l : List ℚ) (k : Nat) : |l.sum - (l.take k).sum| ≤ (l.map fun x => |x|).sum := by
  have e : l.sum - (l.take k).sum = (l.drop k).sum := by
    conv_lhs => rw [← List.take_append_drop k l]
    rw [List.sum_append]
    have : ((l.take k ++ l.drop k).take k) = l.take k := by rw [List.take_append_drop]
    rw [this]
    ring
  rw [e]
  have h1 := take_sum_abs (l.drop k) (l.drop k).length
  rw [List.take_length] at h1
  refine h1.trans ?_
  have e2 : (l.map fun x => |x|).sum = ((l.take k).map fun x => |x|).sum + ((l.drop k).map fun x => |x|).sum := by
    rw [← List.sum_append, ← List.map_append, List.take_append_drop]
  have h2 := take_sum_abs (l.take k) 0
  simp only [List.take_zero, List.sum_nil, abs_zero] at h2
  linarith

/-- the running sums of a scan after `k` rows -/
theorem run64 (l : List ℚ) (hrep : ∀ x ∈ l, rv x = x) (A : ℚ) (hsum : (l.map fun x => |x|).sum ≤ A) (hA : 2 * A ≤ big64) (n : ℚ)
    (hn : (l.length : ℚ) ≤ n) (hn4 : 4 * n * u64 ≤ 1) (k : Nat) (T : ℚ) (rT : rv T = T) (hT : |T - l.sum| ≤ 2 * n * u64 * A) :
    ∃ a b, ((l.take k).map XF.fin).foldl (· +. ·) (XF.fin 0 : F64) = .fin a ∧
      ((l.take k).map XF.fin).foldl (· -. ·) (XF.fin T : F64) = .fin b ∧ rv a = a ∧ rv b = b ∧
      |a - (l.take k).sum| ≤ 4 * n * u64 * A ∧ |b - (l.sum - (l.take k).sum)| ≤ 4 * n * u64 * A := by
  have hu := u64_pos
  have hA0 : 0 ≤ A := by
    have := take_sum_abs l 0
    simp only [List.take_zero, List.sum_nil, abs_zero] at this
    linarith
  have hk : ((l.take k).length : ℚ) ≤ n := by
    refine le_trans ?_ hn
    rw [List.length_take]
    exact_mod_cast Nat.min_le_right _ _
  have huA : 0 ≤ u64 * A := mul_nonneg hu.le hA0
  have hkuA : 2 * ((l.take k).length : ℚ) * u64 * A ≤ 2 * n * u64 * A := by
    have := mul_le_mul_of_nonneg_right hk huA
    linarith
  have hnA : 4 * n * u64 * A ≤ A := by
    have := mul_le_mul_of_nonneg_right hn4 hA0
    linarith
  have hrepk : ∀ x ∈ l.take k, rv x = x := fun x hx => hrep x (List.mem_of_mem_take hx)
  have hnuA : 0 ≤ 2 * n * u64 * A := (abs_nonneg _).trans hT
  obtain ⟨a, ha, ra, ea⟩ := foldl_add_err (l.take k) hrepk A hA 0 0 0 rv_zero (by simp)
    (by intro j _; rw [zero_add, List.take_take]; exact (take_sum_abs l _).trans hsum)
    (by linarith)
  obtain ⟨b, hb, rb, eb⟩ := foldl_sub_err (l.take k) hrepk A hA T l.sum (2 * n * u64 * A) rT hT
    (by intro j _; rw [List.take_take]; exact (drop_sum_abs l _).trans hsum)
    (by linarith)
  rw [zero_add, zero_add] at ea
  exact ⟨a, b, ha, hb, ra, rb, by linarith, by linarith⟩

end AnyOrder

end Boo
