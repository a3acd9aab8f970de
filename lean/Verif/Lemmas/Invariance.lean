import Verif.Props.Gain
import Verif.Lemmas.TrainTotal

/-!
# Two runs of NewTree on corresponding data, in exact arithmetic

Only the feature values have to be finite.
-/

namespace Boo
open GoFloat Spec
set_option linter.unusedSectionVars false

section Generic
variable {F : Type} [GoFloat F]

/-- one candidate of a scan, `j` rows from the start -/
def scanStep (p : ScanParams F) (rows : List (F × F × F)) (nl nr : Int) (aL aR bL bR : F) (best : Best F) (j : Nat) : Best F :=
  match rows[j]?, rows[j + 1]? with
  | some r, some r' =>
    if nl + (j + 1 : Nat) < p.mcw ∨ (r.1 ==. r'.1) = true ∨ nr - (j + 1 : Nat) < p.mcw then best
    else if p.better (candGain p rows nl nr aL aR bL bR (j + 1)) best.score then
      ⟨candGain p rows nl nr aL aR bL bR (j + 1), p.feature, (r.1 +. r'.1) /. ofRat 2⟩
    else best
  | _, _ => best

theorem scanStep_stop (p : ScanParams F) (rows : List (F × F × F)) (nl nr : Int) (aL aR bL bR : F) (best : Best F) (js : List Nat)
    (h : nr - 1 < p.mcw) : js.foldl (scanStep p rows nl nr aL aR bL bR) best = best := by
  induction js with
  | nil => rfl
  | cons j js ih =>
    rw [List.foldl_cons]
    have : scanStep p rows nl nr aL aR bL bR best j = best := by
      unfold scanStep
      split
      · rw [if_pos (Or.inr (Or.inr (by push_cast; omega)))]
      · rfl
    rw [this, ih]

theorem scanStep_succ (p : ScanParams F) (x a b : F) (rows : List (F × F × F)) (nl nr : Int) (aL aR bL bR : F) (best : Best F) (j : Nat) :
    scanStep p ((x, a, b) :: rows) nl nr aL aR bL bR best (j + 1) =
      scanStep p rows (nl + 1) (nr - 1) (aL +. a) (aR -. a) (bL +. b) (bR -. b) best j := by
  unfold scanStep
  simp only [List.getElem?_cons_succ, candGain_succ]
  have h1 : nl + ((j + 1 + 1 : Nat) : Int) = nl + 1 + (j + 1 : Nat) := by push_cast; omega
  have h2 : nr - ((j + 1 + 1 : Nat) : Int) = nr - 1 - (j + 1 : Nat) := by push_cast; omega
  rw [h1, h2]

/-- the scan looks at its candidates one after the other -/
theorem scan_foldl (p : ScanParams F) (rows : List (F × F × F)) (nl nr : Int) (aL aR bL bR : F) (best : Best F) :
    scan p rows nl nr aL aR bL bR best = (List.range rows.length).foldl (scanStep p rows nl nr aL aR bL bR) best := by
  induction rows generalizing nl nr aL aR bL bR best with
  | nil => simp [scan]
  | cons r1 rest ih =>
    obtain ⟨x, a, b⟩ := r1
    rw [List.length_cons, List.range_succ_eq_map, List.foldl_cons, List.foldl_map]
    have e : ∀ (bst : Best F), (List.range rest.length).foldl (fun bst j => scanStep p ((x, a, b) :: rest) nl nr aL aR bL bR bst (j + 1)) bst
        = scan p rest (nl + 1) (nr - 1) (aL +. a) (aR -. a) (bL +. b) (bR -. b) bst := by
      intro bst
      rw [ih]
      congr 1
      funext bst j
      exact scanStep_succ _ _ _ _ _ _ _ _ _ _ _ _ _
    rw [e]
    match rest with
    | [] => simp [scan, scanStep]
    | (x', a', b') :: rest' =>
      have hg1 : candGain p ((x, a, b) :: (x', a', b') :: rest') nl nr aL aR bL bR 1 =
          p.gain (nl + 1) (nr - 1) (aL +. a) (aR -. a) (bL +. b) (bR -. b) := by
        simp [candGain]
      rw [scan]
      simp only
      have hs : scanStep p ((x, a, b) :: (x', a', b') :: rest') nl nr aL aR bL bR best 0 =
          if nl + 1 < p.mcw ∨ (x ==. x') = true ∨ nr - 1 < p.mcw then best
          else if p.better (p.gain (nl + 1) (nr - 1) (aL +. a) (aR -. a) (bL +. b) (bR -. b)) best.score then
            ⟨p.gain (nl + 1) (nr - 1) (aL +. a) (aR -. a) (bL +. b) (bR -. b), p.feature, (x +. x') /. ofRat 2⟩
          else best := by
        unfold scanStep
        simp only [List.getElem?_cons_zero, List.getElem?_cons_succ, Nat.zero_add, hg1, Nat.cast_one]
      rw [hs]
      by_cases h1 : nl + 1 < p.mcw ∨ (x ==. x') = true
      · rw [if_pos h1, if_pos (by tauto)]
      · rw [if_neg h1]
        by_cases h2 : nr - 1 < p.mcw
        · rw [if_pos h2, if_pos (by tauto), ih]
          exact (scanStep_stop _ _ _ _ _ _ _ _ _ _ (by omega)).symm
        · rw [if_neg h2, if_neg (show ¬ (nl + 1 < p.mcw ∨ (x ==. x') = true ∨ nr - 1 < p.mcw) by tauto)]
theorem sampleCol_exists' (X : List (List F)) (idx : List Nat) (f : Nat) (hne : idx ≠ [])
    (hin : ∀ i ∈ idx, ∃ row v, X[i]? = some row ∧ row[f]? = some v) :
    ∃ col, sampleCol X idx f = .ok col := by
  unfold sampleCol
  have hx : ∃ x, sampleMatrix X idx [f] = .ok x := by
    unfold sampleMatrix
    refine mapM_exists fun i hi => ?_
    obtain ⟨row, v, h1, h2⟩ := hin i hi
    have hlen := (List.getElem?_eq_some_iff.1 h2).1
    obtain ⟨l, hl⟩ := sampleSlice_exists row [f] (by simp; omega) (by simp; omega)
    exact ⟨l, by rw [goIdx_ok.2 h1]; exact hl⟩
  obtain ⟨x, hx⟩ := hx
  have hx2 := hx
  unfold sampleMatrix at hx2
  rw [mapM_ok] at hx2
  have hlen1 : ∀ r ∈ x, r.length = 1 := by
    clear hx hne hin
    induction hx2 with
    | nil => simp
    | cons h1 h2 ih =>
      intro r hr
      rcases List.mem_cons.1 hr with rfl | hr
      · simp only [bind, Except.bind] at h1
        split at h1
        · cases h1
        exact (sampleSlice_ok.1 h1).2.length_eq.symm
      · exact ih r hr
  have hxne : x ≠ [] := by
    rintro rfl
    have := hx2.length_eq
    simp at this
    exact hne this
  obtain ⟨m0, xs, rfl⟩ := List.exists_cons_of_ne_nil hxne
  have ht : ∃ xt, transposeFloats (m0 :: xs) = .ok xt ∧ xt.length = 1 := by
    have hm : m0.length = 1 := hlen1 m0 (by simp)
    have : ∃ xt, (List.range m0.length).mapM (fun i => (m0 :: xs).mapM fun row => goIdx row i) = .ok xt := by
      refine mapM_exists fun i hi => ?_
      rw [hm] at hi
      simp only [List.range_one, List.mem_singleton] at hi
      subst hi
      refine mapM_exists fun row hr => ?_
      have := hlen1 row hr
      exact ⟨row[0], goIdx_ok.2 (List.getElem?_eq_getElem (by omega))⟩
    obtain ⟨xt, hxt⟩ := this
    refine ⟨xt, ?_, ?_⟩
    · unfold transposeFloats goIdx
      simp only [List.getElem?_cons_zero, bind, Except.bind]
      exact hxt
    · have := (mapM_ok.1 hxt).length_eq
      simp [hm] at this
      exact this.symm
  obtain ⟨xt, hxt, hxl⟩ := ht
  refine ⟨xt[0], ?_⟩
  rw [hx]
  simp only [bind, Except.bind]
  rw [hxt]
  exact goIdx_ok.2 (List.getElem?_eq_getElem (by omega))


theorem sampleCol_ne {X : List (List F)} {idx : List Nat} {f : Nat} {col : List F} (h : sampleCol X idx f = .ok col) : idx ≠ [] := by
  rintro rfl
  simp [sampleCol, sampleMatrix, transposeFloats, goIdx, bind, Except.bind, pure, Except.pure] at h

/-- the first list of targets the tree is fitted to: gradients or residuals -/
def tgtA (o : TreeOptions F) : List F := if o.xgb then o.gradients.getD [] else o.y
/-- the second list: hessians, or the residuals again -/
def tgtB (o : TreeOptions F) : List F := if o.xgb then o.hessian.getD [] else o.y

theorem sampleSlice_map {s : List F} {idx : List Nat} {l : List F} (h : sampleSlice s idx = .ok l) :
    l = idx.map fun w => s[w]?.getD zero := by
  have h1 := (sampleSlice_ok.1 h).2
  clear h
  induction h1 with
  | nil => rfl
  | cons h2 h3 ih => rw [List.map_cons, ← ih, h2]; rfl

/-- what a successful search reads -/
theorem split_inv [GoFloatOrd F] {S : GoSort} {X : List (List F)} {o : TreeOptions F} {f : Nat} {best b : Best F}
    (h : findBetterSplit S X o f best = .ok b) :
    ∃ col sa sb, sampleCol X (o.indexes.getD []) f = .ok col ∧ col.length ≤ o.scratch.getD 0 ∧
      sampleSlice (tgtA o) (o.indexes.getD []) = .ok sa ∧ sampleSlice (tgtB o) (o.indexes.getD []) = .ok sb := by
  obtain ⟨col, h1, h2, ⟨hx, g, hh, sg, sh, a1, a2, _⟩ | ⟨hx, y, sy, a1, _⟩⟩ := findBetterSplit_inv h
  · exact ⟨col, g, hh, h1, h2, by simp [tgtA, hx, a1], by simp [tgtB, hx, a2]⟩
  · exact ⟨col, y, y, h1, h2, by simp [tgtA, hx, a1], by simp [tgtB, hx, a1]⟩

theorem foldlM_rel {α β γ : Type} {P : α → β → Prop} {f : α → γ → Go α} {g : β → γ → Go β} {l : List γ}
    (hs : ∀ a b a', ∀ c ∈ l, P a b → f a c = .ok a' → ∃ b', g b c = .ok b' ∧ P a' b') {a a' : α} {b : β} (h : P a b)
    (hf : l.foldlM f a = .ok a') : ∃ b', l.foldlM g b = .ok b' ∧ P a' b' := by
  induction l generalizing a b with
  | nil =>
    obtain rfl : a = a' := Except.ok.inj hf
    exact ⟨b, rfl, h⟩
  | cons c l ih =>
    rw [List.foldlM_cons] at hf ⊢
    obtain ⟨a1, h1, h2⟩ := bind_ok hf
    obtain ⟨b1, h3, h4⟩ := hs a b a1 c (by simp) h h1
    rw [h3]
    exact ih (fun a b a' c hc => hs a b a' c (by simp [hc])) h4 h2
end Generic

/-! ### sums do not depend on the order -/
variable {K : Type} [Field K] [LinearOrder K] [IsStrictOrderedRing K] [FloorRing K]

instance addRC : RightCommutative (fun a b : Exact K => a +. b) := ⟨by
  intro a b c
  rcases a with _ | (_ | _) | x <;> rcases b with _ | (_ | _) | y <;> rcases c with _ | (_ | _) | z <;>
    simp [XF.add_def, XF.add, Exact.round_eq, add_right_comm]⟩

instance subRC : RightCommutative (fun a b : Exact K => a -. b) := ⟨by
  intro a b c
  rcases a with _ | (_ | _) | x <;> rcases b with _ | (_ | _) | y <;> rcases c with _ | (_ | _) | z <;>
    simp [XF.sub_def, XF.add, XF.neg, Exact.round_eq, sub_right_comm, add_right_comm]⟩

theorem sum_perm {l l' : List (Exact K)} (h : l.Perm l') : GoFloat.sum l = GoFloat.sum l' :=
  h.foldl_eq (rcomm := addRC) _

/-! ### corresponding scans -/

/-- a row with a finite feature value -/
def lift3 (q : K × Exact K × Exact K) : Exact K × Exact K × Exact K := (.fin q.1, q.2)

theorem foldl_rel {α β γ : Type} {P : α → β → Prop} {f : α → γ → α} {g : β → γ → β} {l : List γ}
    (hs : ∀ a b, ∀ c ∈ l, P a b → P (f a c) (g b c)) {a : α} {b : β} (h : P a b) : P (l.foldl f a) (l.foldl g b) := by
  induction l generalizing a b with
  | nil => exact h
  | cons c l ih => exact ih (fun a b c hc => hs a b c (by simp [hc])) (hs a b c (by simp) h)

/-- a sorted list is cut at a jump by a filter -/
theorem filter_take {α : Type} (rk : List (K × α)) (hs : (rk.map (·.1)).Pairwise (· ≤ ·)) (j : Nat) (q q' : K × α)
    (h1 : rk[j]? = some q) (h2 : rk[j + 1]? = some q') (θ : K) (ha : q.1 ≤ θ) (hb : θ < q'.1) :
    rk.filter (fun r => decide (r.1 ≤ θ)) = rk.take (j + 1) := by
  rw [List.pairwise_map, List.pairwise_iff_getElem] at hs
  obtain ⟨l1, rfl⟩ := List.getElem?_eq_some_iff.1 h1
  obtain ⟨l2, rfl⟩ := List.getElem?_eq_some_iff.1 h2
  conv_lhs => rw [← List.take_append_drop (j + 1) rk]
  rw [List.filter_append]
  have e1 : (rk.take (j + 1)).filter (fun r => decide (r.1 ≤ θ)) = rk.take (j + 1) := by
    rw [List.filter_eq_self]
    intro r hr
    obtain ⟨i, hi, rfl⟩ := List.mem_take_iff_getElem.1 hr
    simp only [decide_eq_true_eq]
    by_cases hij : i = j
    · subst hij; exact ha
    · exact (hs i j (by omega) l1 (by omega)).trans ha
  have e2 : (rk.drop (j + 1)).filter (fun r => decide (r.1 ≤ θ)) = [] := by
    rw [List.filter_eq_nil_iff]
    intro r hr
    obtain ⟨i, hi, rfl⟩ := List.mem_drop_iff_getElem.1 hr
    simp only [decide_eq_true_eq, not_le]
    by_cases hi0 : i = 0
    · subst hi0; simpa using hb
    · exact lt_of_lt_of_le hb (hs (j + 1) (j + 1 + i) l2 (by omega) (by omega))
  rw [e1, e2, List.append_nil]

theorem half_fin (a b : K) : ((XF.fin a : Exact K) +. .fin b) /. ofRat 2 = .fin ((a + b) / 2) := by
  have hc2 : ((2 : ℚ) : K) = 2 := by norm_num
  rw [Exact.add_fin, Exact.ofRat_fin, hc2, Exact.div_fin _ _ (by norm_num)]

theorem scan_rel {φ : K → K} {D : Set K} (hφ : StrictMonoOn φ D) {rk1 rk2 : List (K × Exact K × Exact K)}
    (hD : ∀ q ∈ rk1, q.1 ∈ D) (hperm : rk2.Perm (rk1.map fun q => (φ q.1, q.2)))
    (s1 : (rk1.map (·.1)).Pairwise (· ≤ ·)) (s2 : (rk2.map (·.1)).Pairwise (· ≤ ·))
    (p : ScanParams (Exact K)) (P : Best (Exact K) → Best (Exact K) → Prop) (hP : ∀ b1 b2, P b1 b2 → b2.score = b1.score)
    (hRt : ∀ g x x', x ∈ rk1.map (·.1) → x' ∈ rk1.map (·.1) → x < x' → (∀ v ∈ rk1.map (·.1), v ≤ x ∨ x' ≤ v) →
      P ⟨g, p.feature, .fin ((x + x') / 2)⟩ ⟨g, p.feature, .fin ((φ x + φ x') / 2)⟩)
    (nl nr : Int) (aL aR bL bR : Exact K) {b1 b2 : Best (Exact K)} (hb : P b1 b2) :
    P (scan p (rk1.map lift3) nl nr aL aR bL bR b1) (scan p (rk2.map lift3) nl nr aL aR bL bR b2) := by
  have hxs : rk2.map (·.1) = (rk1.map (·.1)).map φ := by
    have h1 : (rk2.map (·.1)).Perm ((rk1.map (·.1)).map φ) := by
      have := hperm.map (·.1)
      rw [List.map_map] at this
      rw [List.map_map]
      exact this
    refine h1.eq_of_pairwise (le := (· ≤ ·)) (fun a b _ _ h h' => le_antisymm h h') s2 ?_
    rw [List.pairwise_map]
    refine List.Pairwise.imp_of_mem ?_ s1
    intro a b ha hb hab
    obtain ⟨q, hq, rfl⟩ := List.mem_map.1 ha
    obtain ⟨q', hq', rfl⟩ := List.mem_map.1 hb
    exact hφ.monotoneOn (hD q hq) (hD q' hq') hab
  have hlen : rk2.length = rk1.length := by simpa using congrArg List.length hxs
  rw [scan_foldl, scan_foldl, List.length_map, List.length_map, hlen]
  refine foldl_rel ?_ hb
  intro c1 c2 j hj hc
  rw [List.mem_range] at hj
  have hj2 : j < rk2.length := by omega
  by_cases hj1 : j + 1 < rk1.length
  swap
  · unfold scanStep
    have e1 : (rk1.map lift3)[j + 1]? = none := by simp; omega
    have e2 : (rk2.map lift3)[j + 1]? = none := by simp; omega
    rw [e1, e2, List.getElem?_eq_getElem (by simpa using hj), List.getElem?_eq_getElem (by simpa using hj2)]
    exact hc
  have hj12 : j + 1 < rk2.length := by omega
  obtain ⟨q, hq⟩ : ∃ q, rk1[j]? = some q := ⟨_, List.getElem?_eq_getElem hj⟩
  obtain ⟨q', hq'⟩ : ∃ q, rk1[j + 1]? = some q := ⟨_, List.getElem?_eq_getElem hj1⟩
  obtain ⟨r, hr⟩ : ∃ r, rk2[j]? = some r := ⟨_, List.getElem?_eq_getElem hj2⟩
  obtain ⟨r', hr'⟩ : ∃ r, rk2[j + 1]? = some r := ⟨_, List.getElem?_eq_getElem hj12⟩
  have er : r.1 = φ q.1 := by
    have := congrArg (fun l : List K => l[j]?) hxs
    simpa [hr, hq] using this
  have er' : r'.1 = φ q'.1 := by
    have := congrArg (fun l : List K => l[j + 1]?) hxs
    simpa [hr', hq'] using this
  have hqm : q ∈ rk1 := List.mem_of_getElem? hq
  have hqm' : q' ∈ rk1 := List.mem_of_getElem? hq'
  have heq : ((XF.fin r.1 : Exact K) ==. .fin r'.1) = ((XF.fin q.1 : Exact K) ==. .fin q'.1) := by
    rw [XF.fin_eq, XF.fin_eq, er, er']
    exact decide_eq_decide.2 (hφ.injOn.eq_iff (hD q hqm) (hD q' hqm'))
  unfold scanStep
  have g1 : (rk1.map lift3)[j]? = some (lift3 q) := by rw [List.getElem?_map, hq]; rfl
  have g1' : (rk1.map lift3)[j + 1]? = some (lift3 q') := by rw [List.getElem?_map, hq']; rfl
  have g2 : (rk2.map lift3)[j]? = some (lift3 r) := by rw [List.getElem?_map, hr]; rfl
  have g2' : (rk2.map lift3)[j + 1]? = some (lift3 r') := by rw [List.getElem?_map, hr']; rfl
  rw [g1, g1', g2, g2']
  simp only [show (lift3 q).1 = XF.fin q.1 from rfl, show (lift3 q').1 = XF.fin q'.1 from rfl,
    show (lift3 r).1 = XF.fin r.1 from rfl, show (lift3 r').1 = XF.fin r'.1 from rfl, heq]
  by_cases hcond : nl + ((j + 1 : Nat) : Int) < p.mcw ∨ ((XF.fin q.1 : Exact K) ==. .fin q'.1) = true ∨ nr - ((j + 1 : Nat) : Int) < p.mcw
  · rw [if_pos hcond, if_pos hcond]
    exact hc
  rw [if_neg hcond, if_neg hcond]
  have hlt : q.1 < q'.1 := by
    rw [List.pairwise_map, List.pairwise_iff_getElem] at s1
    obtain ⟨l1, rfl⟩ := List.getElem?_eq_some_iff.1 hq
    obtain ⟨l2, rfl⟩ := List.getElem?_eq_some_iff.1 hq'
    refine lt_of_le_of_ne (s1 j (j + 1) l1 l2 (by omega)) ?_
    intro he
    apply hcond
    right; left
    rw [XF.fin_eq]
    simpa using he
  have hlt' : φ q.1 < φ q'.1 := hφ (hD q hqm) (hD q' hqm') hlt
  have htake : (rk2.take (j + 1)).Perm ((rk1.take (j + 1)).map fun q => (φ q.1, q.2)) := by
    rw [← filter_take rk1 s1 j q q' hq hq' q.1 le_rfl hlt, ← filter_take rk2 s2 j r r' hr hr' r.1 le_rfl (by rw [er, er']; exact hlt')]
    have h1 := hperm.filter (fun t => decide (t.1 ≤ r.1))
    refine h1.trans ?_
    rw [List.filter_map]
    refine List.Perm.of_eq ?_
    congr 1
    apply List.filter_congr
    intro t ht
    simp only [Function.comp_apply, er]
    exact decide_eq_decide.2 (hφ.le_iff_le (hD t ht) (hD q hqm))
  have ha : (((rk2.map lift3).take (j + 1)).map (·.2.1)).Perm (((rk1.map lift3).take (j + 1)).map (·.2.1)) := by
    rw [← List.map_take, ← List.map_take, List.map_map, List.map_map]
    refine (htake.map _).trans (List.Perm.of_eq ?_)
    rw [List.map_map]
    rfl
  have hb' : (((rk2.map lift3).take (j + 1)).map (·.2.2)).Perm (((rk1.map lift3).take (j + 1)).map (·.2.2)) := by
    rw [← List.map_take, ← List.map_take, List.map_map, List.map_map]
    refine (htake.map _).trans (List.Perm.of_eq ?_)
    rw [List.map_map]
    rfl
  have hgain : candGain p (rk2.map lift3) nl nr aL aR bL bR (j + 1) = candGain p (rk1.map lift3) nl nr aL aR bL bR (j + 1) := by
    unfold candGain
    rw [ha.foldl_eq (rcomm := addRC), ha.foldl_eq (rcomm := subRC), hb'.foldl_eq (rcomm := addRC), hb'.foldl_eq (rcomm := subRC)]
  rw [hgain, hP _ _ hc]
  split
  · rw [half_fin, half_fin, er, er']
    refine hRt _ _ _ (List.mem_map_of_mem hqm) (List.mem_map_of_mem hqm') hlt ?_
    intro v hv
    obtain ⟨t, ht, rfl⟩ := List.mem_map.1 hv
    obtain ⟨i, hi⟩ := List.mem_iff_getElem?.1 ht
    rw [List.pairwise_map, List.pairwise_iff_getElem] at s1
    obtain ⟨l1, rfl⟩ := List.getElem?_eq_some_iff.1 hq
    obtain ⟨l2, rfl⟩ := List.getElem?_eq_some_iff.1 hq'
    obtain ⟨l3, rfl⟩ := List.getElem?_eq_some_iff.1 hi
    rcases lt_trichotomy i j with h | h | h
    · exact Or.inl (s1 i j l3 l1 h)
    · subst h; exact Or.inl le_rfl
    · right
      rcases lt_trichotomy i (j + 1) with h' | h' | h'
      · omega
      · subst h'; exact le_rfl
      · exact s1 (j + 1) i l2 l3 h'
  · exact hc

/-! ### the rows of one search -/

theorem perm_map_lift3 {rows : List (Exact K × Exact K × Exact K)} {l : List (K × Exact K × Exact K)}
    (h : rows.Perm (l.map lift3)) : ∃ rk : List (K × Exact K × Exact K), rows = rk.map lift3 ∧ rk.Perm l := by
  have hinj : Function.Injective (lift3 (K := K)) := by
    rintro ⟨a, b⟩ ⟨a', b'⟩ h
    simp only [lift3, Prod.mk.injEq] at h
    rw [fin_inj h.1, h.2]
  have : ∃ rk : List (K × Exact K × Exact K), rows = rk.map lift3 := by
    have hm : ∀ q ∈ rows, ∃ k, lift3 k = q := by
      intro q hq
      obtain ⟨k, _, hk⟩ := List.mem_map.1 (h.mem_iff.1 hq)
      exact ⟨k, hk⟩
    clear h
    induction rows with
    | nil => exact ⟨[], rfl⟩
    | cons q rows ih =>
      obtain ⟨k, hk⟩ := hm q (by simp)
      obtain ⟨rk, hrk⟩ := ih fun q hq => hm q (by simp [hq])
      exact ⟨k :: rk, by simp [hk, hrk]⟩
  obtain ⟨rk, rfl⟩ := this
  exact ⟨rk, rfl, (List.map_perm_map_iff hinj).1 h⟩

/-- the sums a scan starts from -/
def totA (o : TreeOptions (Exact K)) (idx : List Nat) : Exact K := GoFloat.sum (idx.map fun w => (tgtA o)[w]?.getD zero)
def totB (o : TreeOptions (Exact K)) (idx : List Nat) : Exact K :=
  if o.xgb then GoFloat.sum (idx.map fun w => (tgtB o)[w]?.getD zero) else zero

theorem split_form {S : GoSort} {X : List (List K)} {o : TreeOptions (Exact K)} {f : Nat} {idx : List Nat}
    (hidx : o.indexes.getD [] = idx) {col sa sb : List (Exact K)}
    (hc : sampleCol (finRows X) idx f = .ok col) (hs : col.length ≤ o.scratch.getD 0)
    (ha : sampleSlice (tgtA o) idx = .ok sa) (hb : sampleSlice (tgtB o) idx = .ok sb) :
    ∃ rk : List (K × Exact K × Exact K),
      rk.Perm (idx.map fun w => (val X w f, (tgtA o)[w]?.getD zero, (tgtB o)[w]?.getD zero)) ∧
      (rk.map (·.1)).Pairwise (· ≤ ·) ∧
      ∀ best, findBetterSplit S (finRows X) o f best = .ok
        (scan ⟨o.xgb, toInt o.minChildWeight, o.lambda, o.gamma, totA o idx, totB o idx, idx.length, f⟩
          (rk.map lift3) 0 idx.length zero (totA o idx) zero (totB o idx) best) := by
  have hcol := sampleCol_fin hc
  have ea := sampleSlice_map ha
  have eb := sampleSlice_map hb
  have hla : col.length = sa.length := by rw [hcol, ea]; simp
  have hlb : col.length = sb.length := by rw [hcol, eb]; simp
  have hperm := argSort_range S col
  have hslice : ∀ s : List (Exact K), col.length = s.length → ∃ l, sampleSlice s (argSort S col).1 = .ok l := by
    intro s hs
    refine sampleSlice_exists s _ ?_ ?_
    · rw [hperm.length_eq]; simp; omega
    · intro i hi
      have := hperm.mem_iff.1 hi
      simp at this; omega
  obtain ⟨ta, hta⟩ := hslice sa hla
  obtain ⟨tb, htb⟩ := hslice sb hlb
  obtain ⟨hp, hl1, hl2⟩ := rows_perm S col sa sb ta tb hla hlb hta htb
  have hz : col.zip (sa.zip sb) = (idx.map fun w => (val X w f, (tgtA o)[w]?.getD zero, (tgtB o)[w]?.getD zero)).map lift3 := by
    rw [hcol, ea, eb, List.map_map]
    clear hcol ea eb hc ha hb hidx
    induction idx with
    | nil => rfl
    | cons a idx ih => simp only [List.map_cons, List.zip_cons_cons, ih, Function.comp_apply, lift3]
  have hp' := hp
  rw [hz] at hp'
  obtain ⟨rk, hrk, hrp⟩ := perm_map_lift3 hp'
  refine ⟨rk, hrp, ?_, ?_⟩
  · have hsort := sorted_vals S col (by
      intro v hv
      rw [hcol] at hv
      obtain ⟨i, _, rfl⟩ := List.mem_map.1 hv
      simp)
    have h1 : ((argSort S col).2.zip (ta.zip tb)).map Prod.fst = (argSort S col).2 :=
      List.map_fst_zip (by simp; omega)
    rw [← h1, hrk, List.map_map, List.pairwise_map] at hsort
    rw [List.pairwise_map]
    refine hsort.imp ?_
    intro a b hab
    simpa [lift3] using hab
  · intro best
    have htot : GoFloat.sum sa = totA o idx := by rw [ea]; rfl
    unfold findBetterSplit
    rw [hidx]
    simp only [hc, bind, Except.bind, pure, Except.pure]
    rw [if_neg (by omega)]
    cases hx : o.xgb with
    | true =>
      have e1 : tgtA o = o.gradients.getD [] := by simp [tgtA, hx]
      have e2 : tgtB o = o.hessian.getD [] := by simp [tgtB, hx]
      have htotB : GoFloat.sum sb = totB o idx := by rw [eb]; simp [totB, hx]
      rw [← e1, ← e2]
      simp only [if_true, ha, hb, hta, htb]
      rw [← hrk, htot, htotB]
    | false =>
      have e1 : tgtA o = o.y := by simp [tgtA, hx]
      have e2 : tgtB o = o.y := by simp [tgtB, hx]
      have htotB : zero = totB o idx := by simp [totB, hx]
      have hsab : sa = sb := by rw [ea, eb, e1, e2]
      subst hsab
      obtain rfl : ta = tb := by rw [hta] at htb; exact Except.ok.inj htb
      have hsum : GoFloat.sum ta = totA o idx := by
        rw [← htot]
        have h1 : ((argSort S col).2.zip (ta.zip ta)).map (·.2.1) = ta := by
          have : ((argSort S col).2.zip (ta.zip ta)).map Prod.snd = ta.zip ta := List.map_snd_zip (by simp; omega)
          have h2 : (ta.zip ta).map Prod.fst = ta := List.map_fst_zip le_rfl
          calc _ = ((((argSort S col).2.zip (ta.zip ta)).map Prod.snd).map Prod.fst) := by rw [List.map_map]; rfl
            _ = ta := by rw [this, h2]
        have h1' : (col.zip (sa.zip sa)).map (·.2.1) = sa := by
          have : (col.zip (sa.zip sa)).map Prod.snd = sa.zip sa := List.map_snd_zip (by simp; omega)
          have h2 : (sa.zip sa).map Prod.fst = sa := List.map_fst_zip le_rfl
          calc _ = (((col.zip (sa.zip sa)).map Prod.snd).map Prod.fst) := by rw [List.map_map]; rfl
            _ = sa := by rw [this, h2]
        have := hp.map (·.2.1)
        rw [h1, h1'] at this
        exact sum_perm this
      rw [← e1]
      simp only [Bool.false_eq_true, if_false, ha, hta]
      rw [hsum, hrk, ← htotB]

/-! ### corresponding trees -/

/-- the training rows at the root of a tree -/
def Tree.rootSamples {F : Type} : Tree F → List Nat
  | .nil => []
  | .node i _ _ => i.samples

/-- Two thresholds cut the values `vals` of a feature, and their images under `φ`, at the same place: both are midpoints of
the same neighbouring values. -/
def Cut (φ : K → K) (vals : List K) (t1 t2 : Exact K) : Prop :=
  ∃ x x', x < x' ∧ φ x < φ x' ∧ (∀ v ∈ vals, (v ≤ x ∧ φ v ≤ φ x) ∨ (x' ≤ v ∧ φ x' ≤ φ v)) ∧
    t1 = .fin ((x + x') / 2) ∧ t2 = .fin ((φ x + φ x') / 2)

/-- Two trees that agree node by node. The rows of the second are the images under `σ` of the rows of the first; `e` says
that they are even listed in the same order. -/
def TreeRel (σ : Nat → Nat) (φ : Nat → K → K) (e : Prop) (X1 : List (List K)) : Tree (Exact K) → Tree (Exact K) → Prop
  | .nil, .nil => True
  | .node i l r, .node i' l' r' =>
    i'.samples.Perm (i.samples.map σ) ∧ (e → i'.samples = i.samples.map σ) ∧
    i'.bestScoreSoFar = i.bestScoreSoFar ∧ i'.value = i.value ∧ i'.nsamples = i.nsamples ∧ i'.features = i.features ∧
    i'.splitFeatureIndex = i.splitFeatureIndex ∧ i'.xgb = i.xgb ∧ i'.branches = i.branches ∧
    ((i.leaf = true ∧ i'.threshold = i.threshold ∧ l = .nil ∧ r = .nil) ∨
      (Cut (φ i.splitFeatureIndex) (i.samples.map fun w => val X1 w i.splitFeatureIndex) i.threshold i'.threshold ∧
        i.splitFeatureIndex < i.features ∧
        (i.leaf = false → ∃ θ, i.threshold = .fin θ ∧ l.rootSamples = leftOf X1 i.samples i.splitFeatureIndex θ ∧
          r.rootSamples = rightOf X1 i.samples i.splitFeatureIndex θ))) ∧
    TreeRel σ φ e X1 l l' ∧ TreeRel σ φ e X1 r r'
  | _, _ => False

/-- Two calls of NewTree on corresponding data. -/
structure Corr (σ : Nat → Nat) (φ : Nat → K → K) (D : Nat → Set K) (e : Prop) (X1 X2 : List (List K))
    (o1 o2 : TreeOptions (Exact K)) : Prop where
  xgb : o2.xgb = o1.xgb
  mcw : o2.minChildWeight = o1.minChildWeight
  lambda : o2.lambda = o1.lambda
  gamma : o2.gamma = o1.gamma
  cols : o2.allowedColumns = o1.allowedColumns
  given : (o2.gradients.isNone && o2.hessian.isNone) = (o1.gradients.isNone && o1.hessian.isNone)
  scratch : (o2.fill (finRows X2)).scratch = (o1.fill (finRows X1)).scratch
  idx : (o2.idx (finRows X2)).Perm ((o1.idx (finRows X1)).map σ)
  same : e → o2.idx (finRows X2) = (o1.idx (finRows X1)).map σ
  lenA : (tgtA o2).length = (tgtA o1).length
  lenB : (tgtB o2).length = (tgtB o1).length
  tgtA : ∀ w ∈ o1.idx (finRows X1), (tgtA o2)[σ w]? = (tgtA o1)[w]?
  tgtB : ∀ w ∈ o1.idx (finRows X1), (tgtB o2)[σ w]? = (tgtB o1)[w]?
  rows : ∀ w ∈ o1.idx (finRows X1), X2[σ w]? = (X1[w]?).map fun row => row.mapIdx φ
  dom : ∀ w ∈ o1.idx (finRows X1), ∀ row, X1[w]? = some row → ∀ (f : Nat) v, row[f]? = some v → v ∈ D f
  feat : (X2[0]?).map List.length = (X1[0]?).map List.length
  mono : ∀ f, StrictMonoOn (φ f) (D f)

section
variable {σ : Nat → Nat} {φ : Nat → K → K} {D : Nat → Set K} {e : Prop} {X1 X2 : List (List K)}

theorem Corr.slice {s1 s2 l1 : List (Exact K)} {idx1 idx2 : List Nat} (hidx : idx2.Perm (idx1.map σ))
    (hl : s2.length = s1.length) (ht : ∀ w ∈ idx1, s2[σ w]? = s1[w]?) (h : sampleSlice s1 idx1 = .ok l1) :
    ∃ l2, sampleSlice s2 idx2 = .ok l2 ∧ l2.Perm l1 := by
  have h1 := sampleSlice_ok.1 h
  obtain ⟨l2, h2⟩ := sampleSlice_exists s2 idx2 (by rw [hidx.length_eq, List.length_map, hl]; exact h1.1) (by
    intro i hi
    obtain ⟨w, hw, rfl⟩ := List.mem_map.1 (hidx.mem_iff.1 hi)
    obtain ⟨k, hk⟩ := List.mem_iff_getElem?.1 hw
    obtain ⟨_, hf⟩ := List.forall₂_iff_get.1 h1.2
    obtain ⟨hkl, rfl⟩ := List.getElem?_eq_some_iff.1 hk
    have h3 := hf k hkl (by rw [← h1.2.length_eq]; exact hkl)
    simp only [List.get_eq_getElem] at h3
    have h4 := ht _ hw
    rw [h3] at h4
    exact (List.getElem?_eq_some_iff.1 h4).1)
  refine ⟨l2, h2, ?_⟩
  rw [sampleSlice_map h2, sampleSlice_map h]
  refine (hidx.map _).trans (List.Perm.of_eq ?_)
  rw [List.map_map]
  refine List.map_congr_left fun w hw => ?_
  simp only [Function.comp_apply, ht w hw]

theorem mem_col {X : List (List K)} {idx : List Nat} {f : Nat} {col : List (Exact K)} (h : sampleCol (finRows X) idx f = .ok col) :
    ∀ w ∈ idx, ∃ row v, X[w]? = some row ∧ row[f]? = some v := by
  have h1 := sampleCol_ok h
  intro w hw
  obtain ⟨k, hk⟩ := List.mem_iff_getElem?.1 hw
  obtain ⟨_, hf⟩ := List.forall₂_iff_get.1 h1
  obtain ⟨hkl, rfl⟩ := List.getElem?_eq_some_iff.1 hk
  obtain ⟨row, h2, h3⟩ := hf k hkl (by rw [← h1.length_eq]; exact hkl)
  simp only [List.get_eq_getElem] at h2
  unfold finRows at h2
  rw [List.getElem?_map] at h2
  obtain ⟨r, hr, rfl⟩ := Option.map_eq_some_iff.1 h2
  rw [List.getElem?_map] at h3
  obtain ⟨a, ha, _⟩ := Option.map_eq_some_iff.1 h3
  exact ⟨r, a, hr, ha⟩

theorem val_eq {X : List (List K)} {w f : Nat} {row : List K} {v : K} (h : X[w]? = some row) (hv : row[f]? = some v) :
    val X w f = v := by
  have e : X.getD w [] = row := by rw [List.getD_eq_getElem?_getD, h]; rfl
  unfold val
  rw [e, List.getD_eq_getElem?_getD, hv, Option.getD_some]

theorem Corr.col {o1 o2 : TreeOptions (Exact K)} (h : Corr σ φ D e X1 X2 o1 o2) {f : Nat} {col1 : List (Exact K)}
    (hc : sampleCol (finRows X1) (o1.idx (finRows X1)) f = .ok col1) :
    (∃ col2, sampleCol (finRows X2) (o2.idx (finRows X2)) f = .ok col2) ∧
    ∀ w ∈ o1.idx (finRows X1), val X1 w f ∈ D f ∧ val X2 (σ w) f = φ f (val X1 w f) := by
  have hm := mem_col hc
  have key : ∀ w ∈ o1.idx (finRows X1), ∃ row2, X2[σ w]? = some row2 ∧ val X1 w f ∈ D f ∧ row2[f]? = some (φ f (val X1 w f)) := by
    intro w hw
    obtain ⟨row, v, h1, h2⟩ := hm w hw
    refine ⟨row.mapIdx φ, by rw [h.rows w hw, h1]; rfl, ?_, ?_⟩
    · rw [val_eq h1 h2]; exact h.dom w hw row h1 f v h2
    · rw [val_eq h1 h2, List.getElem?_mapIdx, h2]; rfl
  refine ⟨sampleCol_exists' _ _ _ ?_ ?_, ?_⟩
  · intro h0
    have := h.idx.length_eq
    rw [h0, List.length_map] at this
    exact sampleCol_ne hc (List.length_eq_zero_iff.1 this.symm)
  · intro i hi
    obtain ⟨w, hw, rfl⟩ := List.mem_map.1 (h.idx.mem_iff.1 hi)
    obtain ⟨row2, h1, _, h2⟩ := key w hw
    refine ⟨row2.map XF.fin, .fin (φ f (val X1 w f)), ?_, ?_⟩
    · unfold finRows; rw [List.getElem?_map, h1]; rfl
    · rw [List.getElem?_map, h2]; rfl
  · intro w hw
    obtain ⟨row2, h1, h2, h3⟩ := key w hw
    exact ⟨h2, val_eq h1 h3⟩

/-- what the search of two corresponding nodes preserves -/
def BestRel (φ : Nat → K → K) (X1 : List (List K)) (idx : List Nat) (c : Nat) (xgb : Bool) (b1 b2 : Best (Exact K)) : Prop :=
  (b1 = best0 xgb ∧ b2 = best0 xgb) ∨
    (b2.score = b1.score ∧ b2.feature = b1.feature ∧ b1.feature < c ∧
      Cut (φ b1.feature) (idx.map fun w => val X1 w b1.feature) b1.threshold b2.threshold)

theorem Corr.totA {o1 o2 : TreeOptions (Exact K)} (h : Corr σ φ D e X1 X2 o1 o2) :
    totA o2 (o2.idx (finRows X2)) = totA o1 (o1.idx (finRows X1)) := by
  unfold Boo.totA
  refine sum_perm ((h.idx.map _).trans (List.Perm.of_eq ?_))
  rw [List.map_map]
  exact List.map_congr_left fun w hw => by simp only [Function.comp_apply, h.tgtA w hw]

theorem Corr.totB {o1 o2 : TreeOptions (Exact K)} (h : Corr σ φ D e X1 X2 o1 o2) :
    totB o2 (o2.idx (finRows X2)) = totB o1 (o1.idx (finRows X1)) := by
  unfold Boo.totB
  rw [h.xgb]
  cases o1.xgb
  · rfl
  · simp only [if_true]
    refine sum_perm ((h.idx.map _).trans (List.Perm.of_eq ?_))
    rw [List.map_map]
    exact List.map_congr_left fun w hw => by simp only [Function.comp_apply, h.tgtB w hw]

theorem Corr.split {S1 S2 : GoSort} {o1 o2 : TreeOptions (Exact K)} (h : Corr σ φ D e X1 X2 o1 o2) {c f : Nat} (hf : f < c)
    {b1 b1' b2 : Best (Exact K)} (hb : BestRel φ X1 (o1.idx (finRows X1)) c o1.xgb b1 b2)
    (h1 : findBetterSplit S1 (finRows X1) (o1.fill (finRows X1)) f b1 = .ok b1') :
    ∃ b2', findBetterSplit S2 (finRows X2) (o2.fill (finRows X2)) f b2 = .ok b2' ∧
      BestRel φ X1 (o1.idx (finRows X1)) c o1.xgb b1' b2' := by
  obtain ⟨col1, sa, sb, e1, e2, e3, e4⟩ := split_inv h1
  rw [TreeOptions.fill_idx] at e1 e3 e4
  obtain ⟨⟨col2, f1⟩, hval⟩ := h.col e1
  obtain ⟨sa2, f3, _⟩ := Corr.slice h.idx h.lenA h.tgtA e3
  obtain ⟨sb2, f4, _⟩ := Corr.slice h.idx h.lenB h.tgtB e4
  have f2 : col2.length ≤ (o2.fill (finRows X2)).scratch.getD 0 := by
    rw [h.scratch]
    have l1 := sampleCol_length e1
    have l2 := sampleCol_length f1
    have l3 := h.idx.length_eq
    rw [List.length_map] at l3
    omega
  obtain ⟨rk1, p1, s1, r1⟩ := split_form (S := S1) (TreeOptions.fill_idx o1 (finRows X1)) e1 e2 e3 e4
  obtain ⟨rk2, p2, s2, r2⟩ := split_form (S := S2) (TreeOptions.fill_idx o2 (finRows X2)) f1 f2 f3 f4
  rw [r1] at h1
  obtain rfl := Except.ok.inj h1
  refine ⟨_, r2 b2, ?_⟩
  have tA : Boo.totA (o2.fill (finRows X2)) (o2.idx (finRows X2)) = Boo.totA (o1.fill (finRows X1)) (o1.idx (finRows X1)) := h.totA
  have tB : Boo.totB (o2.fill (finRows X2)) (o2.idx (finRows X2)) = Boo.totB (o1.fill (finRows X1)) (o1.idx (finRows X1)) := h.totB
  have hp : (⟨(o2.fill (finRows X2)).xgb, toInt (o2.fill (finRows X2)).minChildWeight, (o2.fill (finRows X2)).lambda,
        (o2.fill (finRows X2)).gamma, Boo.totA (o2.fill (finRows X2)) (o2.idx (finRows X2)),
        Boo.totB (o2.fill (finRows X2)) (o2.idx (finRows X2)), (o2.idx (finRows X2)).length, f⟩ : ScanParams (Exact K)) =
      ⟨(o1.fill (finRows X1)).xgb, toInt (o1.fill (finRows X1)).minChildWeight, (o1.fill (finRows X1)).lambda,
        (o1.fill (finRows X1)).gamma, Boo.totA (o1.fill (finRows X1)) (o1.idx (finRows X1)),
        Boo.totB (o1.fill (finRows X1)) (o1.idx (finRows X1)), (o1.idx (finRows X1)).length, f⟩ := by
    rw [tA, tB, h.idx.length_eq, List.length_map]
    simp only [TreeOptions.fill, h.xgb, h.mcw, h.lambda, h.gamma]
  rw [hp, tA, tB, h.idx.length_eq, List.length_map]
  have hvals : (rk1.map (·.1)).Perm ((o1.idx (finRows X1)).map fun w => val X1 w f) := by
    have := p1.map (·.1)
    rw [List.map_map] at this
    exact this
  refine scan_rel (D := D f) (φ := φ f) (h.mono f) ?_ ?_ s1 s2 _ (BestRel φ X1 (o1.idx (finRows X1)) c o1.xgb) ?_ ?_ _ _ _ _ _ _ hb
  · intro q hq
    obtain ⟨w, hw, rfl⟩ := List.mem_map.1 (p1.mem_iff.1 hq)
    exact (hval w hw).1
  · refine p2.trans ((h.idx.map _).trans ?_)
    refine List.Perm.trans ?_ (p1.map _).symm
    rw [List.map_map, List.map_map]
    refine List.Perm.of_eq (List.map_congr_left fun w hw => ?_)
    have ta := h.tgtA w hw
    have tb := h.tgtB w hw
    have ta' : (Boo.tgtA (o2.fill (finRows X2)))[σ w]? = (Boo.tgtA (o1.fill (finRows X1)))[w]? := ta
    have tb' : (Boo.tgtB (o2.fill (finRows X2)))[σ w]? = (Boo.tgtB (o1.fill (finRows X1)))[w]? := tb
    simp only [Function.comp_apply, (hval w hw).2, ta', tb']
  · rintro b1 b2 (⟨rfl, rfl⟩ | ⟨h1, _⟩)
    · rfl
    · exact h1
  · intro g x x' hx hx' hlt hall
    have hdom : ∀ v ∈ rk1.map (·.1), v ∈ D f := by
      intro v hv
      obtain ⟨w, hw, rfl⟩ := List.mem_map.1 (hvals.mem_iff.1 hv)
      exact (hval w hw).1
    refine Or.inr ⟨rfl, rfl, hf, x, x', hlt, h.mono f (hdom x hx) (hdom x' hx') hlt, ?_, rfl, rfl⟩
    intro v hv
    have hv' := hvals.mem_iff.2 hv
    rcases hall v hv' with hle | hle
    · exact Or.inl ⟨hle, (h.mono f).monotoneOn (hdom v hv') (hdom x hx) hle⟩
    · exact Or.inr ⟨hle, (h.mono f).monotoneOn (hdom x' hx') (hdom v hv') hle⟩

theorem Corr.value {o1 o2 : TreeOptions (Exact K)} (h : Corr σ φ D e X1 X2 o1 o2) {v : Exact K}
    (hv : nodeValue (o1.fill (finRows X1)) (o1.idx (finRows X1)) = .ok v) :
    nodeValue (o2.fill (finRows X2)) (o2.idx (finRows X2)) = .ok v := by
  have hlA := h.lenA
  have hlB := h.lenB
  have htA := h.tgtA
  have htB := h.tgtB
  unfold nodeValue at hv ⊢
  have x1 : (o1.fill (finRows X1)).xgb = o1.xgb := rfl
  have x2 : (o2.fill (finRows X2)).xgb = o1.xgb := h.xgb
  have l1 : (o1.fill (finRows X1)).lambda = o1.lambda := rfl
  have l2 : (o2.fill (finRows X2)).lambda = o1.lambda := h.lambda
  rw [x1] at hv
  rw [x2]
  unfold Boo.tgtA at hlA htA
  unfold Boo.tgtB at hlB htB
  rw [h.xgb] at hlA hlB htA htB
  cases hx : o1.xgb with
  | true =>
    simp only [hx, if_true] at hv hlA hlB htA htB ⊢
    obtain ⟨g, hg, hv⟩ := bind_ok hv
    obtain ⟨hh, hhh, hv⟩ := bind_ok hv
    obtain ⟨g2, hg2, pg⟩ := Corr.slice h.idx hlA htA (show sampleSlice (o1.gradients.getD []) _ = .ok g from hg)
    obtain ⟨h2, hh2, ph⟩ := Corr.slice h.idx hlB htB (show sampleSlice (o1.hessian.getD []) _ = .ok hh from hhh)
    rw [show (o2.fill (finRows X2)).gradients = o2.gradients from rfl, show (o2.fill (finRows X2)).hessian = o2.hessian from rfl,
      hg2, hh2]
    simp only [bind, Except.bind]
    rw [sum_perm pg, sum_perm ph, l2, ← l1]
    exact hv
  | false =>
    simp only [hx, Bool.false_eq_true, if_false] at hv hlA hlB htA htB ⊢
    obtain ⟨g, hg, hv⟩ := bind_ok hv
    obtain ⟨g2, hg2, pg⟩ := Corr.slice h.idx hlA htA (show sampleSlice o1.y _ = .ok g from hg)
    rw [show (o2.fill (finRows X2)).y = o2.y from rfl, hg2]
    simp only [bind, Except.bind]
    rw [sum_perm pg, pg.length_eq]
    exact hv

theorem Corr.search {S1 S2 : GoSort} {o1 o2 : TreeOptions (Exact K)} (h : Corr σ φ D e X1 X2 o1 o2) {c : Nat}
    {b1 : Best (Exact K)} (h1 : searchSplit S1 (finRows X1) (o1.fill (finRows X1)) c (best0 o1.xgb) = .ok b1) :
    ∃ b2, searchSplit S2 (finRows X2) (o2.fill (finRows X2)) c (best0 o2.xgb) = .ok b2 ∧
      BestRel φ X1 (o1.idx (finRows X1)) c o1.xgb b1 b2 := by
  unfold searchSplit at h1 ⊢
  have hcols : columnAllowed (o2.fill (finRows X2)) = columnAllowed (o1.fill (finRows X1)) := by
    funext i
    unfold columnAllowed
    rw [show (o2.fill (finRows X2)).allowedColumns = (o1.fill (finRows X1)).allowedColumns from h.cols]
  rw [hcols]
  refine foldlM_rel (P := BestRel φ X1 (o1.idx (finRows X1)) c o1.xgb) ?_ (Or.inl ⟨rfl, by rw [h.xgb]⟩) h1
  intro a b a' f hf hP hs
  have hfc : f < c := by simp at hf; exact hf.1
  exact h.split hfc hP hs

theorem Cut.side {ψ : K → K} {vals : List K} {t1 t2 : Exact K}
    (h : Cut ψ vals t1 t2) : ∃ θ1 θ2, t1 = .fin θ1 ∧ t2 = .fin θ2 ∧ ∀ v ∈ vals, (ψ v ≤ θ2 ↔ v ≤ θ1) := by
  obtain ⟨x, x', hlt, hlt', hall, rfl, rfl⟩ := h
  refine ⟨_, _, rfl, rfl, fun v hv => ?_⟩
  rcases hall v hv with ⟨h1, h2⟩ | ⟨h1, h2⟩
  · constructor <;> intro _ <;> linarith
  · constructor <;> intro _ <;> linarith

theorem leftOf_map {idx1 idx2 : List Nat} {f : Nat} {θ1 θ2 : K}
    (hs : ∀ w ∈ idx1, (val X2 (σ w) f ≤ θ2 ↔ val X1 w f ≤ θ1)) :
    (idx2.Perm (idx1.map σ) → (leftOf X2 idx2 f θ2).Perm ((leftOf X1 idx1 f θ1).map σ)) ∧
    (idx2 = idx1.map σ → leftOf X2 idx2 f θ2 = (leftOf X1 idx1 f θ1).map σ) := by
  have key : leftOf X2 (idx1.map σ) f θ2 = (leftOf X1 idx1 f θ1).map σ := by
    unfold leftOf
    rw [List.filter_map]
    congr 1
    exact List.filter_congr fun w hw => decide_eq_decide.2 (hs w hw)
  refine ⟨fun h => ?_, fun h => by rw [h, key]⟩
  rw [← key]
  exact h.filter _

theorem rightOf_map {idx1 idx2 : List Nat} {f : Nat} {θ1 θ2 : K}
    (hs : ∀ w ∈ idx1, (val X2 (σ w) f ≤ θ2 ↔ val X1 w f ≤ θ1)) :
    (idx2.Perm (idx1.map σ) → (rightOf X2 idx2 f θ2).Perm ((rightOf X1 idx1 f θ1).map σ)) ∧
    (idx2 = idx1.map σ → rightOf X2 idx2 f θ2 = (rightOf X1 idx1 f θ1).map σ) := by
  have key : rightOf X2 (idx1.map σ) f θ2 = (rightOf X1 idx1 f θ1).map σ := by
    unfold rightOf
    rw [List.filter_map]
    congr 1
    refine List.filter_congr fun w hw => decide_eq_decide.2 ?_
    have := hs w hw
    rw [← not_le, ← not_le, this]
  refine ⟨fun h => ?_, fun h => by rw [h, key]⟩
  rw [← key]
  exact h.filter _

theorem Corr.sub {o1 o2 : TreeOptions (Exact K)} (h : Corr σ φ D e X1 X2 o1 o2) {i1 i2 : List Nat}
    (hs : ∀ w ∈ i1, w ∈ o1.idx (finRows X1)) (hp : i2.Perm (i1.map σ)) (he : e → i2 = i1.map σ) :
    Corr σ φ D e X1 X2 (o1.child (finRows X1) i1) (o2.child (finRows X2) i2) where
  xgb := h.xgb
  mcw := h.mcw
  lambda := h.lambda
  gamma := h.gamma
  cols := rfl
  given := h.given
  scratch := by
    show some ((o2.fill (finRows X2)).scratch.getD i2.length) = some ((o1.fill (finRows X1)).scratch.getD i1.length)
    rw [h.scratch, hp.length_eq, List.length_map]
  idx := hp
  same := he
  lenA := h.lenA
  lenB := h.lenB
  tgtA w hw := h.tgtA w (hs w hw)
  tgtB w hw := h.tgtB w (hs w hw)
  rows w hw := h.rows w (hs w hw)
  dom w hw := h.dom w (hs w hw)
  feat := h.feat
  mono := h.mono

theorem TreeRel.branches {t1 t2 : Tree (Exact K)} (h : TreeRel σ φ e X1 t1 t2) : t2.branches = t1.branches := by
  cases t1 <;> cases t2 <;> simp only [TreeRel] at h
  · rfl
  · exact h.2.2.2.2.2.2.2.2.1

/-- **two corresponding calls of NewTree build corresponding trees** -/
theorem Corr.tree {S1 S2 : GoSort} (d : Nat) {o1 o2 : TreeOptions (Exact K)} (h : Corr σ φ D e X1 X2 o1 o2)
    {t1 : Tree (Exact K)} (h1 : newTreeD S1 (finRows X1) d o1 = .ok t1) :
    ∃ t2, newTreeD S2 (finRows X2) d o2 = .ok t2 ∧ TreeRel σ φ e X1 t1 t2 ∧ t1.rootSamples = o1.idx (finRows X1) := by
  induction d generalizing o1 o2 t1 with
  | zero =>
    obtain ⟨v, row0, hv, hr, hx, ⟨_, rfl⟩ | ⟨_, _, hd, _⟩ | ⟨_, _, _, _, _, hd, _⟩⟩ := newTreeD_inv _ _ _ _ _ h1
    · obtain ⟨row0', hr', hlen⟩ : ∃ r, (finRows X2)[0]? = some r ∧ r.length = row0.length := by
        have hf := h.feat
        unfold finRows at hr ⊢
        rw [List.getElem?_map] at hr ⊢
        obtain ⟨r1, hr1, rfl⟩ := Option.map_eq_some_iff.1 hr
        rw [hr1] at hf
        obtain ⟨r2, hr2, hl⟩ := Option.map_eq_some_iff.1 hf
        exact ⟨r2.map XF.fin, by rw [hr2]; rfl, by simpa using hl⟩
      have hx2 : (o2.xgb && o2.gradients.isNone && o2.hessian.isNone) = false := by
        rw [Bool.and_assoc, h.given, h.xgb, ← Bool.and_assoc]; exact hx
      refine ⟨.node (mkInfo o2 (finRows X2) v row0'.length (best0 o2.xgb) 1) .nil .nil, ?_, ?_, rfl⟩
      · unfold newTreeD
        rw [hx2]
        simp only [TreeOptions.fill_idx, Bool.false_eq_true, if_false, bind, Except.bind, h.value hv, goIdx_ok.2 hr']
        rfl
      · rw [hlen]
        exact ⟨h.idx, h.same, by rw [h.xgb]; rfl, rfl, by simp [mkInfo, h.idx.length_eq], rfl, by rw [h.xgb]; rfl, h.xgb, rfl,
          Or.inl ⟨leaf_best0 _ _ _ _ _, by rw [h.xgb]; rfl, rfl, rfl⟩, trivial, trivial⟩
    · omega
    · omega
  | succ d ih =>
    obtain ⟨v, row0, hv, hr, hx, hcase⟩ := newTreeD_inv _ _ _ _ _ h1
    obtain ⟨row0', hr', hlen⟩ : ∃ r, (finRows X2)[0]? = some r ∧ r.length = row0.length := by
      have hf := h.feat
      unfold finRows at hr ⊢
      rw [List.getElem?_map] at hr ⊢
      obtain ⟨r1, hr1, rfl⟩ := Option.map_eq_some_iff.1 hr
      rw [hr1] at hf
      obtain ⟨r2, hr2, hl⟩ := Option.map_eq_some_iff.1 hf
      exact ⟨r2.map XF.fin, by rw [hr2]; rfl, by simpa using hl⟩
    have hx2 : (o2.xgb && o2.gradients.isNone && o2.hessian.isNone) = false := by
      rw [Bool.and_assoc, h.given, h.xgb, ← Bool.and_assoc]; exact hx
    rw [newTreeD_succ, hx2]
    simp only [Bool.false_eq_true, if_false, h.value hv, goIdx_ok.2 hr', bind, Except.bind]
    rw [hlen]
    obtain ⟨hd, _⟩ | ⟨d', best, hd, hs, hlf, rfl⟩ | ⟨d', best, col, l, r, hd, hs, hlf, hcol, hl, hr, rfl⟩ := hcase
    · omega
    · obtain ⟨best2, hs2, hrel⟩ := h.search (S2 := S2) hs
      have hsc : best2.score = best.score := by
        rcases hrel with ⟨rfl, rfl⟩ | ⟨h, _⟩
        · rfl
        · exact h
      have hft : best2.feature = best.feature := by
        rcases hrel with ⟨rfl, rfl⟩ | ⟨_, h, _⟩
        · rfl
        · exact h
      have hlf2 : (mkInfo o2 (finRows X2) v row0.length best2 1).leaf = true := by
        rw [← hlf]
        unfold NodeInfo.leaf mkInfo
        simp only
        rw [hsc, h.xgb]
      simp only [hs2, hlf2, if_true]
      refine ⟨_, rfl, ?_, rfl⟩
      refine ⟨h.idx, h.same, hsc, rfl, by simp [mkInfo, h.idx.length_eq], rfl, hft, h.xgb, rfl, ?_, trivial, trivial⟩
      rcases hrel with ⟨rfl, rfl⟩ | ⟨_, _, hc, hcut⟩
      · exact Or.inl ⟨hlf, rfl, rfl, rfl⟩
      · refine Or.inr ⟨hcut, hc, fun hlf' => ?_⟩
        rw [hlf] at hlf'
        exact absurd hlf' (by simp)
    · obtain rfl : d = d' := by omega
      obtain ⟨best2, hs2, hrel⟩ := h.search (S2 := S2) hs
      rcases hrel with ⟨rfl, rfl⟩ | ⟨hsc, hft, hc, hcut⟩
      · rw [leaf_best0] at hlf
        exact absurd hlf (by simp)
      have hlf2 : (mkInfo o2 (finRows X2) v row0.length best2 1).leaf = false := by
        rw [← hlf]
        unfold NodeInfo.leaf mkInfo
        simp only
        rw [hsc, h.xgb]
      obtain ⟨⟨col2, hcol2⟩, hval⟩ := h.col hcol
      obtain ⟨θ1, θ2, ht1, ht2, hside⟩ := hcut.side
      have hside' : ∀ w ∈ o1.idx (finRows X1), (val X2 (σ w) best.feature ≤ θ2 ↔ val X1 w best.feature ≤ θ1) := by
        intro w hw
        rw [(hval w hw).2]
        exact hside _ (List.mem_map_of_mem hw)
      rw [goLeft_exact ht1 hcol] at hl
      rw [goRight_exact ht1 hcol] at hr
      have cL := h.sub (i1 := leftOf X1 (o1.idx (finRows X1)) best.feature θ1)
        (i2 := leftOf X2 (o2.idx (finRows X2)) best.feature θ2) (fun w hw => leftOf_sub w hw)
        ((leftOf_map hside').1 h.idx) (fun he => (leftOf_map hside').2 (h.same he))
      have cR := h.sub (i1 := rightOf X1 (o1.idx (finRows X1)) best.feature θ1)
        (i2 := rightOf X2 (o2.idx (finRows X2)) best.feature θ2) (fun w hw => rightOf_sub w hw)
        ((rightOf_map hside').1 h.idx) (fun he => (rightOf_map hside').2 (h.same he))
      obtain ⟨l2, hl2, rl, sl⟩ := ih cL hl
      obtain ⟨r2, hr2, rr, sr⟩ := ih cR hr
      rw [← goLeft_exact ht2 hcol2] at hl2
      rw [← goRight_exact ht2 hcol2] at hr2
      simp only [hs2, hlf2, Bool.false_eq_true, if_false, hft, hcol2, hl2, hr2]
      refine ⟨_, rfl, ?_, rfl⟩
      refine ⟨h.idx, h.same, hsc, rfl, by simp [mkInfo, h.idx.length_eq], rfl, hft, h.xgb, ?_, ?_, rl, rr⟩
      · simp only [mkInfo, rl.branches, rr.branches]
      · exact Or.inr ⟨hcut, hc, fun _ => ⟨θ1, ht1, sl, sr⟩⟩

end

end Boo
