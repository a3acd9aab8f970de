import Verif.Lemmas.Boost
import Verif.Props.SoftFloat
import Verif.Props.NearBest
import Verif.Lemmas.RealTrain

/-!
# Training in float64 stays finite
-/

namespace Boo
open GoFloat Spec
set_option linter.unusedSectionVars false

section AnyOrder

variable {τ : Option SumOrder}
/-- float64, with any order of the additions of `floats.Sum` -/
local notation "F64" => F64o τ

theorem big64_one : (1 : ℚ) ≤ big64 := by rw [big64_def]; exact one_le_zpow₀ (by norm_num) (by norm_num)
theorem big64_large : (2 : ℚ) ^ 60 ≤ big64 := by
  rw [big64_def, show (2 : ℚ) ^ 60 = 2 ^ (60 : ℤ) by norm_num]
  exact zpow_le_zpow_right₀ (by norm_num) (by norm_num)

theorem rv_nat {k : Nat} (h : k < 2 ^ 53) : rv (k : ℚ) = k := by
  have := rv_int (n := (k : Int)) (by rw [abs_of_nonneg (by positivity)]; exact_mod_cast h)
  simpa using this

theorem rv_bound {x b : ℚ} (hb : rv b = b) (h : |x| ≤ b) : |rv x| ≤ b := by
  rw [abs_le] at h ⊢
  have h1 := rv_mono h.1
  have h2 := rv_mono h.2
  rw [rv_neg, hb] at h1
  rw [hb] at h2
  exact ⟨h1, h2⟩

/-! ### sums of small numbers -/

/-- `k` numbers of size at most 1 add up to at most `k`, rounding included -/
theorem foldl_small (l : List ℚ) (hx : ∀ x ∈ l, |x| ≤ 1) :
    ∀ (j : Nat) (z : ℚ), rv z = z → |z| ≤ j → j + l.length < 2 ^ 53 →
      ∃ s, (l.map XF.fin).foldl (· +. ·) (XF.fin z : F64) = .fin s ∧ rv s = s ∧ |s| ≤ j + l.length ∧
        ((∀ x ∈ l, 0 ≤ x) → 0 ≤ z → 0 ≤ s) := by
  induction l with
  | nil => exact fun j z hz h _ => ⟨z, rfl, hz, by simpa using h, fun _ h => h⟩
  | cons a l ih =>
    intro j z hz hj hn
    simp only [List.length_cons] at hn
    have hja : |z + a| ≤ ((j + 1 : Nat) : ℚ) := by
      have := hx a (by simp)
      push_cast
      exact (abs_add_le _ _).trans (by linarith)
    have hrep : rv (((j + 1 : Nat) : ℚ)) = ((j + 1 : Nat) : ℚ) := rv_nat (by omega)
    have hb : |z + a| ≤ big64 := by
      refine hja.trans (le_trans ?_ big64_large)
      have : j + 1 ≤ 2 ^ 60 := by omega
      exact_mod_cast this
    obtain ⟨s, h1, h2, h3, h4⟩ := ih (fun x hx' => hx x (by simp [hx'])) (j + 1) (rv (z + a)) (rv_idem _) (rv_bound hrep hja) (by omega)
    refine ⟨s, ?_, h2, ?_, ?_⟩
    · rw [List.map_cons, List.foldl_cons, add64 hb]
      exact h1
    · refine h3.trans (le_of_eq ?_)
      simp only [List.length_cons]
      push_cast
      ring
    · intro h0 hz0
      refine h4 (fun x hx' => h0 x (by simp [hx'])) (rv_nonneg ?_)
      have := h0 a (by simp)
      linarith

/-- ones add up exactly -/
theorem foldl_ones (l : List ℚ) (hx : ∀ x ∈ l, x = 1) :
    ∀ (j : Nat), j + l.length < 2 ^ 53 → (l.map XF.fin).foldl (· +. ·) (XF.fin (j : ℚ) : F64) = .fin ((j + l.length : Nat) : ℚ) := by
  induction l with
  | nil => intro j _; rfl
  | cons a l ih =>
    intro j hn
    simp only [List.length_cons] at hn
    rw [List.map_cons, List.foldl_cons, hx a (by simp), add64]
    · have e : ((j : ℚ) + 1) = ((j + 1 : Nat) : ℚ) := by push_cast; rfl
      rw [e, rv_nat (by omega), ih (fun x hx' => hx x (by simp [hx'])) (j + 1) (by omega)]
      congr 2
      simp only [List.length_cons]
      omega
    · rw [abs_of_nonneg (by positivity)]
      refine le_trans ?_ big64_large
      have : j + 1 ≤ 2 ^ 60 := by omega
      exact_mod_cast this

/-- the same for any order of the additions -/
theorem sumTree_small (l : List ℚ) (hrep : ∀ x ∈ l, rv x = x) (hx : ∀ x ∈ l, |x| ≤ 1) (t : SumTree) :
    t.leaves.length < 2 ^ 53 →
    ∃ s, XF.sumTree (l.map XF.fin : List F64) t = .fin s ∧ rv s = s ∧ |s| ≤ t.leaves.length ∧ ((∀ x ∈ l, 0 ≤ x) → 0 ≤ s) ∧
      ((∀ i ∈ t.leaves, i < l.length) → (∀ x ∈ l, x = 1) → s = t.leaves.length) := by
  induction t with
  | leaf i =>
    intro _
    refine ⟨l.getD i 0, getD_fin64 l i, getD_rv hrep i, ?_, ?_, ?_⟩
    · rw [List.getD_eq_getElem?_getD]
      cases h : l[i]? with
      | none => simp [SumTree.leaves]
      | some x => simpa [SumTree.leaves] using hx x (List.mem_of_getElem? h)
    · intro h0
      rw [List.getD_eq_getElem?_getD]
      cases h : l[i]? with
      | none => exact le_rfl
      | some x => exact h0 x (List.mem_of_getElem? h)
    · intro hr h1
      have := hr i (by simp [SumTree.leaves])
      simp only [SumTree.leaves, List.length_cons, List.length_nil]
      rw [List.getD_eq_getElem?_getD, List.getElem?_eq_getElem this]
      simpa using h1 _ (List.getElem_mem this)
  | add a b iha ihb =>
    intro hn
    simp only [SumTree.leaves, List.length_append] at hn ⊢
    obtain ⟨s, s1, s2, s3, s4, s5⟩ := iha (by omega)
    obtain ⟨r, r1, r2, r3, r4, r5⟩ := ihb (by omega)
    have hle : |s + r| ≤ ((a.leaves.length + b.leaves.length : Nat) : ℚ) := by
      push_cast
      exact (abs_add_le _ _).trans (by linarith)
    have hb : |s + r| ≤ big64 := by
      refine hle.trans (le_trans ?_ big64_large)
      have : a.leaves.length + b.leaves.length ≤ 2 ^ 60 := by omega
      exact_mod_cast this
    refine ⟨rv (s + r), ?_, rv_idem _, rv_bound (rv_nat hn) hle, ?_, ?_⟩
    · show XF.add _ _ = _
      rw [s1, r1]
      exact add64 hb
    · intro h0
      exact rv_nonneg (add_nonneg (s4 h0) (r4 h0))
    · intro hr h1
      rw [s5 (fun i hi => hr i (List.mem_append_left _ hi)) h1, r5 (fun i hi => hr i (List.mem_append_right _ hi)) h1]
      have e : (a.leaves.length : ℚ) + b.leaves.length = ((a.leaves.length + b.leaves.length : Nat) : ℚ) := by push_cast; rfl
      rw [e, rv_nat hn]

/-- a way to add up `n` numbers of size at most 1: the result is at most `n` in size; ones add up exactly -/
def SmallSum (sum : List F64 → F64) : Prop :=
  ∀ l : List ℚ, (∀ x ∈ l, rv x = x) → (∀ x ∈ l, |x| ≤ 1) → l.length < 2 ^ 53 →
    ∃ s, sum (l.map XF.fin : List F64) = .fin s ∧ rv s = s ∧ |s| ≤ l.length ∧ ((∀ x ∈ l, 0 ≤ x) → 0 ≤ s) ∧
      ((∀ x ∈ l, x = 1) → s = l.length)

/-- a loop -/
theorem foldl_smallSum : SmallSum fun l : List F64 => l.foldl (· +. ·) (.fin 0) := by
  intro l _ hx hn
  obtain ⟨s, h1, h2, h3, h4⟩ := foldl_small (τ := τ) l hx 0 0 rv_zero (by simp) (by omega)
  refine ⟨s, h1, h2, by simpa using h3, fun h0 => h4 h0 le_rfl, ?_⟩
  intro ho
  have := foldl_ones (τ := τ) l ho 0 (by omega)
  rw [Nat.cast_zero, h1] at this
  simpa using this

/-- `floats.Sum` -/
theorem sum_smallSum : SmallSum (GoFloat.sum : List F64 → F64) := by
  intro l hrep hx hn
  cases τ with
  | none => exact foldl_smallSum (τ := none) l hrep hx hn
  | some T =>
    by_cases hl : l = []
    · subst hl
      exact ⟨0, rfl, rv_zero, by simp, fun _ => le_rfl, fun _ => by simp⟩
    · have hpos := List.length_pos_iff.2 hl
      have hc := T.covers l.length hpos
      have e3 : (T.tree l.length).leaves.length = l.length := by rw [hc.length_eq, List.length_range]
      obtain ⟨s, h1, h2, h3, h4, h5⟩ := sumTree_small (τ := some T) l hrep hx (T.tree l.length) (by rw [e3]; exact hn)
      rw [e3] at h3 h5
      refine ⟨s, ?_, h2, h3, h4, h5 ?_⟩
      · show (if (l.map XF.fin : List (F64o (some T))).length = 0 then _ else XF.sumTree (l.map XF.fin) (T.tree (l.map XF.fin : List (F64o (some T))).length)) = _
        rw [List.length_map, if_neg (by omega)]
        exact h1
      · intro i hi
        simpa using hc.mem_iff.1 hi

/-! ### node values -/

/-- a float64 of size at most `W` -/
def Within (W : ℚ) (v : F64) : Prop := ∃ x : ℚ, v = .fin x ∧ rv x = x ∧ |x| ≤ W

theorem div_small {a d W k : ℚ} (hW : rv W = W) (hWb : W ≤ big64) (hd : 0 < d) (ha : |a| ≤ k) (hk : k ≤ W * d) :
    Within W ((.fin a : F64) /. .fin d) := by
  have h1 : |a / d| ≤ W := by
    rw [abs_div, abs_of_pos hd, div_le_iff₀ hd]
    linarith
  exact ⟨rv (a / d), div64 hd.ne' (h1.trans hWb), rv_idem _, rv_bound hW h1⟩

/-- every leaf value is a float64 of size at most `W` -/
def SmallTree (W : ℚ) (t : Tree F64) : Prop :=
  ∀ path i l r, t.sub path = .node i l r → i.leaf = true → Within W i.value

theorem SmallTree.left {W : ℚ} {i : NodeInfo F64} {l r : Tree F64} (h : SmallTree W (.node i l r)) : SmallTree W l :=
  fun path => h (true :: path)
theorem SmallTree.right {W : ℚ} {i : NodeInfo F64} {l r : Tree F64} (h : SmallTree W (.node i l r)) : SmallTree W r :=
  fun path => h (false :: path)

theorem SmallTree.predict {W : ℚ} {t : Tree F64} (ht : SmallTree W t) {row : List F64} {v : F64}
    (h : t.predictSingle row = .ok v) : Within W v := by
  induction t with
  | nil => simp [Tree.predictSingle] at h
  | node i l r ihl ihr =>
    unfold Tree.predictSingle at h
    split at h
    · rename_i hl
      have := ht [] i l r rfl hl
      simp only [pure, Except.pure, Except.ok.injEq] at h
      exact h ▸ this
    · obtain ⟨x, _, h⟩ := bind_ok h
      split at h
      · exact ihl ht.left h
      · exact ihr ht.right h

/-! ### gradients and Hessians -/

/-- labels 0 and 1 and probabilities -/
structure LabelsProbs (y p : List ℚ) : Prop where
  len : y.length = p.length
  lab : ∀ v ∈ y, v = 0 ∨ v = 1
  prob : ∀ v ∈ p, rv v = v ∧ 0 ≤ v ∧ v ≤ 1

theorem rv_one : rv 1 = 1 := by simpa using rv_nat (k := 1) (by norm_num)

/-- the gradients are between -1 and 1 -/
theorem grads_small {y p : List ℚ} (h : LabelsProbs y p) :
    ∃ g : List ℚ, g.length = p.length ∧ (∀ v ∈ g, rv v = v ∧ |v| ≤ 1) ∧
      negGrad (y.map XF.fin : List F64) (p.map XF.fin) = .ok (g.map XF.fin) ∧
      grad (y.map XF.fin : List F64) (p.map XF.fin) = .ok ((g.map fun w => -w).map XF.fin) := by
  have hz : ∀ y p : List ℚ, (∀ v ∈ y, v = 0 ∨ v = 1) → (∀ v ∈ p, rv v = v ∧ 0 ≤ v ∧ v ≤ 1) →
      List.zipWith (fun a b => a -. b) (y.map XF.fin : List F64) (p.map XF.fin) =
        (List.zipWith (fun a b => rv (a - b)) y p).map XF.fin ∧ ∀ v ∈ List.zipWith (fun a b => rv (a - b)) y p, rv v = v ∧ |v| ≤ 1 := by
    intro y
    induction y with
    | nil => intro p _ _; simp
    | cons a y ih =>
      intro p hy hp
      cases p with
      | nil => simp
      | cons b p =>
        obtain ⟨i1, i2⟩ := ih p (fun v hv => hy v (by simp [hv])) (fun v hv => hp v (by simp [hv]))
        have hab : |a - b| ≤ 1 := by
          obtain ⟨_, b0, b1⟩ := hp b (by simp)
          rw [abs_le]
          rcases hy a (by simp) with rfl | rfl <;> constructor <;> linarith
        simp only [List.map_cons, List.zipWith_cons_cons]
        rw [i1, sub64 (hab.trans big64_one)]
        refine ⟨rfl, ?_⟩
        intro v hv
        rcases List.mem_cons.1 hv with rfl | hv
        · exact ⟨rv_idem _, rv_bound rv_one hab⟩
        · exact i2 v hv
  obtain ⟨h1, h2⟩ := hz y p h.lab h.prob
  have hn : negGrad (y.map XF.fin : List F64) (p.map XF.fin) = .ok ((List.zipWith (fun a b => rv (a - b)) y p).map XF.fin) := by
    unfold negGrad subV
    rw [if_neg (by simp [h.len]), h1]
  refine ⟨_, by simp [h.len], h2, hn, ?_⟩
  unfold grad
  rw [hn]
  simp only [bind, Except.bind, pure, Except.pure]
  congr 1
  rw [List.map_map, List.map_map]
  apply List.map_congr_left
  intro v hv
  have hm1 : (ofInt (-1) : F64) = .fin (-1) := negOne64
  obtain ⟨v1, v2⟩ := h2 v hv
  simp only [Function.comp_apply]
  rw [hm1, mul64 (by simpa using v2.trans big64_one)]
  rw [show (-1 : ℚ) * v = -v by ring, rv_neg, v1]

/-- the Hessians of both losses are between 0 and 1 -/
theorem mse_hess_small {p : List ℚ} (hp : ∀ v ∈ p, rv v = v ∧ 0 ≤ v ∧ v ≤ 1) :
    ∃ h : List ℚ, h.length = p.length ∧ (mseLoss : LossFunc F64).hessian (p.map XF.fin) = h.map XF.fin ∧
      ∀ v ∈ h, rv v = v ∧ 0 ≤ v ∧ v ≤ 1 := by
  refine ⟨p.map fun v => rv (rv (1 - v) * v), by simp, ?_, ?_⟩
  · show (p.map XF.fin).map (fun v => (one -. v) *. v) = _
    rw [List.map_map, List.map_map]
    apply List.map_congr_left
    intro v hv
    obtain ⟨_, v0, v1⟩ := hp v hv
    have ho : (one : F64) = .fin 1 := one64
    have h1 : |1 - v| ≤ 1 := by rw [abs_le]; constructor <;> linarith
    have h2 := rv_bound rv_one h1
    simp only [Function.comp_apply]
    rw [ho, sub64 (h1.trans big64_one), mul64]
    rw [abs_mul, abs_of_nonneg v0]
    have : |rv (1 - v)| * v ≤ 1 * 1 := mul_le_mul h2 v1 v0 (by norm_num)
    linarith [big64_one]
  · intro w hw
    obtain ⟨v, hv, rfl⟩ := List.mem_map.1 hw
    obtain ⟨_, v0, v1⟩ := hp v hv
    have h1 : |1 - v| ≤ 1 := by rw [abs_le]; constructor <;> linarith
    have h2 := rv_bound rv_one h1
    have h3 : 0 ≤ rv (1 - v) := rv_nonneg (by linarith)
    have h4 : |rv (1 - v) * v| ≤ 1 := by
      rw [abs_mul, abs_of_nonneg v0]
      have : |rv (1 - v)| * v ≤ 1 * 1 := mul_le_mul h2 v1 v0 (by norm_num)
      linarith
    exact ⟨rv_idem _, rv_nonneg (mul_nonneg h3 v0), (abs_le.1 (rv_bound rv_one h4)).2⟩

/-! ### the tree of a class -/

/-- The combinations of loss and options for which the leaf values are bounded by `W`: squared error (`W = 1`) with xgboost and `Lambda > 0`, or on
data without neighbouring values; `MSELoss` (`W = n / Lambda`) with xgboost and `Lambda > 0`. -/
def LeafBound (X : List (List F64)) (O : Options F64) (lf : LossFunc F64) (lam W : ℚ) : Prop :=
  (lf = sqErrLoss ∧ 1 ≤ W ∧ ((O.xgb = true ∧ 0 < lam) ∨ (Apart64 X ∧ (rowSub O = true → 1 ≤ O.minSample)))) ∨
  (lf = mseLoss ∧ O.xgb = true ∧ 0 < lam ∧ (X.length : ℚ) ≤ W * lam)

theorem getD_small {P : ℚ → Prop} {v : List ℚ} (hv : ∀ x ∈ v, P x) {idx : List Nat} (hi : ∀ w ∈ idx, w < v.length) :
    ∀ x ∈ idx.map fun i => v.getD i 0, P x := by
  intro x hx
  obtain ⟨i, him, rfl⟩ := List.mem_map.1 hx
  have := hi i him
  rw [List.getD_eq_getElem?_getD, List.getElem?_eq_getElem this]
  exact hv _ (List.getElem_mem _)

/-- the sum of the Hessians of a node and what it says about the size of the node -/
theorem hess_sum {sum : List F64 → F64} (hS : SmallSum sum) {X : List (List F64)} {O : Options F64} {lf : LossFunc F64} {lam W : ℚ} (hL : LeafBound X O lf lam W) {p : List ℚ}
    (hp : ∀ v ∈ p, rv v = v ∧ 0 ≤ v ∧ v ≤ 1) (hW0 : 0 ≤ W) (hlam : rv lam = lam) (hlam0 : 0 ≤ lam) (hn : X.length < 2 ^ 53) (hpl : p.length = X.length) :
    ∃ h : List ℚ, h.length = p.length ∧ lf.hessian (p.map XF.fin) = h.map XF.fin ∧
      ∀ idx : List Nat, idx.length ≤ X.length → (∀ w ∈ idx, w < h.length) →
        (idx ≠ [] ∨ (O.xgb = true ∧ 0 < lam)) → ∃ H : ℚ,
        sum ((idx.map fun i => h.getD i 0).map XF.fin : List F64) = .fin H ∧ rv H = H ∧ 0 ≤ H ∧ H ≤ idx.length ∧
        (idx.length : ℚ) ≤ W * rv (H + lam) ∧ 0 < rv (H + lam) ∧ (O.xgb = false → (idx.length : ℚ) ≤ W * H ∧ 0 < H) := by
  rcases hL with ⟨rfl, hW, _⟩ | ⟨rfl, hx, hl0, hWl⟩
  · refine ⟨p.map fun _ => 1, by simp, ?_, ?_⟩
    · show (p.map XF.fin).map (fun _ => (one : F64)) = _
      have ho : (one : F64) = .fin 1 := one64
      simp [ho, Function.comp_def]
    · intro idx hlen hr hne
      have hone : ∀ x ∈ idx.map fun i => (p.map fun _ => (1 : ℚ)).getD i 0, x = 1 :=
        getD_small (by simp) hr
      obtain ⟨H, hs, _, _, _, hH⟩ := hS _ (fun x hx => by rw [hone x hx]; exact rv_one) (fun x hx => by rw [hone x hx]; simp)
        (by rw [List.length_map]; omega)
      rw [hH hone, List.length_map] at hs
      have hk : rv (idx.length : ℚ) = idx.length := rv_nat (by omega)
      have hge : (idx.length : ℚ) ≤ rv (idx.length + lam) := by
        have := rv_mono (show (idx.length : ℚ) ≤ idx.length + lam by linarith)
        rwa [hk] at this
      have hlge : lam ≤ rv (idx.length + lam) := by
        have h0 : (0 : ℚ) ≤ idx.length := by positivity
        have := rv_mono (show lam ≤ idx.length + lam by linarith)
        rwa [hlam] at this
      have hkpos : idx ≠ [] → (0 : ℚ) < idx.length := fun h => by
        have := List.length_pos_iff.2 h
        exact_mod_cast this
      have hk0 : (0 : ℚ) ≤ idx.length := by positivity
      refine ⟨idx.length, hs, hk, hk0, le_rfl, ?_, ?_, ?_⟩
      · nlinarith
      · rcases hne with h | h
        · exact lt_of_lt_of_le (hkpos h) hge
        · exact lt_of_lt_of_le h.2 hlge
      · intro hx
        rcases hne with h | h
        · exact ⟨by nlinarith, hkpos h⟩
        · rw [h.1] at hx; cases hx
  · obtain ⟨h, h1, h2, h3⟩ := mse_hess_small hp
    refine ⟨h, h1, h2, ?_⟩
    intro idx hlen hr _
    have hsm : ∀ x ∈ idx.map fun i => h.getD i 0, rv x = x ∧ |x| ≤ 1 ∧ 0 ≤ x :=
      getD_small (P := fun x => rv x = x ∧ |x| ≤ 1 ∧ 0 ≤ x)
        (fun v hv => ⟨(h3 v hv).1, by rw [abs_of_nonneg (h3 v hv).2.1]; exact (h3 v hv).2.2, (h3 v hv).2.1⟩) hr
    obtain ⟨H, e1, e2, e3, e4, _⟩ := hS _ (fun x hx => (hsm x hx).1) (fun x hx => (hsm x hx).2.1) (by rw [List.length_map]; omega)
    have hH0 : 0 ≤ H := e4 fun x hx => (hsm x hx).2.2
    rw [List.length_map, abs_of_nonneg hH0] at e3
    have hlge : lam ≤ rv (H + lam) := by
      have := rv_mono (show lam ≤ H + lam by linarith)
      rwa [hlam] at this
    refine ⟨H, e1, e2, hH0, e3, ?_, lt_of_lt_of_le hl0 hlge, fun hf => by rw [hx] at hf; cases hf⟩
    have : (idx.length : ℚ) ≤ X.length := by exact_mod_cast hlen
    nlinarith

/-- the options that matter here -/
structure FloatOptions (O : Options F64) (lr lam W : ℚ) : Prop where
  lrEq : O.learningRate = .fin lr
  lamEq : O.lambda = .fin lam
  lamRep : rv lam = lam
  lam0 : 0 ≤ lam
  lamBig : lam ≤ 2 ^ (1000 : ℤ)
  W0 : 0 ≤ W
  WRep : rv W = W
  WBig : W ≤ big64

theorem room1000 {x k : ℚ} (hx : x ≤ 2 ^ (1000 : ℤ)) (hk : k ≤ 2 ^ 53) : k + x ≤ big64 := by
  have h3 : big64 = 2 ^ (23 : Int) * 2 ^ (1000 : Int) := by
    rw [big64_def, ← zpow_add₀ (by norm_num)]
    norm_num
  have h4 : (2 : ℚ) ^ 53 ≤ 2 ^ (1000 : Int) := by
    rw [show (2 : ℚ) ^ 53 = 2 ^ (53 : ℤ) by norm_num]
    exact zpow_le_zpow_right₀ (by norm_num) (by norm_num)
  rw [h3]
  have := hk.trans h4
  generalize (2 : ℚ) ^ (1000 : Int) = P at *
  norm_num
  have : (0 : ℚ) ≤ P := le_trans (by positivity) h4
  linarith

theorem classTree64 {S : GoSort} {X : List (List F64)} {O : Options F64} {lf : LossFunc F64} {lr lam W : ℚ}
    (hO : FloatOptions O lr lam W) (hL : LeafBound X O lf lam W) {idx : Option (List Nat)} {cols : List Nat} (hX : X ≠ [])
    (hn : X.length < 2 ^ 53) (hlt : ∀ l, idx = some l → l.length ≤ X.length ∧ ∀ w ∈ l, w < X.length)
    (hidx : (O.xgb = true ∧ 0 < lam) ∨ (Apart64 X ∧ idx ≠ some [])) {y p : List ℚ} (hyp : LabelsProbs y p)
    (hpl : p.length = X.length) {t : Tree F64}
    (h : classTree S X O lf idx cols (y.map XF.fin) (p.map XF.fin) = .ok t) : SmallTree W t := by
  obtain ⟨g, hgl, hg, hng, hgr⟩ := grads_small (τ := τ) hyp
  obtain ⟨hs, hhl, hhe, hsum⟩ := hess_sum sum_smallSum hL hyp.prob hO.W0 hO.lamRep hO.lam0 hn hpl
  have hlfg : lf.gradients = grad ∧ lf.negGradients = negGrad := by
    rcases hL with ⟨rfl, _⟩ | ⟨rfl, _⟩ <;> exact ⟨rfl, rfl⟩
  unfold classTree at h
  rw [hlfg.1, hlfg.2, hhe, hng, hgr] at h
  simp only [bind, Except.bind] at h
  have hrange : ∀ (o : TreeOptions F64) (l : List Nat), l.Sublist (o.idx X) → o.indexes = idx → (o.idx X).length ≤ X.length ∧ (∀ w ∈ o.idx X, w < X.length) ∧
      (idx ≠ some [] → o.idx X ≠ []) := by
    intro o _ _ ho
    unfold TreeOptions.idx
    rw [ho]
    cases idx with
    | none => simpa using hX
    | some s =>
      obtain ⟨a, b⟩ := hlt s rfl
      refine ⟨by simpa using a, by simpa using b, ?_⟩
      intro hne h0
      exact hne (by simpa using h0)
  split at h
  · rename_i hxgb
    intro path i l r hsub _
    obtain ⟨o', d', hb', _, hin, hsl, hroot, _⟩ := newTreeD_sub S _ _ _ t h path i l r hsub
    obtain ⟨hsam, _, _, hv, _⟩ := mkInfo_samples hb'
    obtain ⟨r1, r2, r3⟩ := hrange _ _ hsl rfl
    obtain ⟨hr1, hval⟩ := nodeValue64 (o := o'.fill X) (hin.xgb.trans rfl) (hin.grad.trans rfl) (hin.hess.trans rfl) hv
    have hlam' : (o'.fill X).lambda = .fin lam := hin.lambda.trans hO.lamEq
    have hlen : (o'.idx X).length ≤ X.length := hsl.length_le.trans r1
    have hmem : ∀ w ∈ o'.idx X, w < X.length := fun w hw => r2 w (hsl.subset hw)
    have hnempty : o'.idx X ≠ [] ∨ (O.xgb = true ∧ 0 < lam) := by
      rcases hidx with h' | ⟨h1, h2⟩
      · exact Or.inr h'
      · left
        by_cases hpath : path = []
        · rw [hroot hpath]
          exact r3 h2
        · have := (C06_of_midSafe S X _ t h h1.bounded.noNaN h1.midSafe path hpath i l r hsub).1
          rw [hsam] at this
          exact List.length_pos_iff.1 this
    obtain ⟨H, e1, e2, e3, e4, e5, e6, _⟩ := hsum (o'.idx X) hlen hr1 hnempty
    have hgs : ∀ x ∈ (o'.idx X).map fun i => (g.map fun w => -w).getD i 0, rv x = x ∧ |x| ≤ 1 :=
      getD_small (P := fun x => rv x = x ∧ |x| ≤ 1) (by
        intro x hx
        obtain ⟨v, hv, rfl⟩ := List.mem_map.1 hx
        rw [abs_neg, rv_neg, (hg v hv).1]
        exact ⟨rfl, (hg v hv).2⟩) (fun w hw => by rw [List.length_map, hgl, hpl]; exact hmem w hw)
    obtain ⟨G, f1, f2, f3, _⟩ := sum_smallSum (τ := τ) _ (fun x hx => (hgs x hx).1) (fun x hx => (hgs x hx).2) (by rw [List.length_map]; omega)
    rw [List.length_map] at f3
    have hlen53 : ((o'.idx X).length : ℚ) ≤ 2 ^ 53 := by
      have : (o'.idx X).length ≤ 2 ^ 53 := by omega
      exact_mod_cast this
    have hm1 : (ofInt (-1) : F64) = .fin (-1) := negOne64
    rw [hval, hlam']
    rw [f1, e1, hm1, mul64, add64]
    · rw [show (-1 : ℚ) * G = -G by ring, rv_neg, f2]
      exact div_small hO.WRep hO.WBig e6 (by rw [abs_neg]; exact f3) e5
    · rw [abs_of_nonneg (add_nonneg e3 hO.lam0)]
      exact room1000 hO.lamBig (e4.trans hlen53)
    · rw [show (-1 : ℚ) * G = -G by ring, abs_neg]
      refine f3.trans (hlen53.trans (le_trans ?_ big64_large))
      norm_num
  · rename_i hxgb
    have hxf : O.xgb = false := by simpa using hxgb
    split at h
    · cases h
    rename_i t0 h0
    have hN := updateLeaves_newton _ _ _ _ h
    obtain ⟨hap, hne⟩ : Apart64 X ∧ idx ≠ some [] := by
      rcases hidx with h' | h'
      · rw [hxf] at h'; cases h'.1
      · exact h'
    intro path i' l' r' hsub' hleaf'
    obtain ⟨i, l, r, hsub⟩ : ∃ i l r, t0.sub path = .node i l r := by
      cases hc : t0.sub path with
      | nil => rw [(hN.shape path).2 hc] at hsub'; cases hsub'
      | node i l r => exact ⟨i, l, r, rfl⟩
    obtain ⟨n1, n2⟩ := hN.node path i l r i' l' r' hsub hsub'
    cases hleaf : i.leaf with
    | false =>
      rw [n2 hleaf, hleaf] at hleaf'
      cases hleaf'
    | true =>
      obtain ⟨m1, m2⟩ := n1 hleaf
      obtain ⟨o', d', hb', _, hin, hsl, hroot, _⟩ := newTreeD_sub S _ _ _ t0 h0 path i l r hsub
      obtain ⟨hsam, _, _, hv, _⟩ := mkInfo_samples hb'
      have r1 : ∀ (o : TreeOptions F64), o.indexes = none → o.idx X = List.range X.length := by
        intro o ho
        unfold TreeOptions.idx
        rw [ho]
        rfl
      have hr0 := r1 _ (rfl : TreeOptions.indexes { (defaultGTreeOptions : TreeOptions F64) with
        scratch := some X.length, minChildWeight := O.minChildWeight, maxDepth := O.maxDepth,
        y := g.map XF.fin, gradients := none, hessian := none } = none)
      rw [hr0] at hsl
      have hlen : i.samples.length ≤ X.length := by
        rw [hsam]
        simpa using hsl.length_le
      have hsne : i.samples ≠ [] := by
        rw [hsam]
        by_cases hpath : path = []
        · rw [hroot hpath, hr0]
          simpa using hX
        · have := (C06_of_midSafe S X _ t0 h0 hap.bounded.noNaN hap.midSafe path hpath i l r hsub).1
          rw [hsam] at this
          exact List.length_pos_iff.1 this
      obtain ⟨hs', _, hhe', hsum'⟩ := hess_sum foldl_smallSum hL hyp.prob hO.W0 hO.lamRep hO.lam0 hn hpl
      have hEq : hs = hs' := by
        rw [hhe] at hhe'
        exact (List.map_injective_iff.2 (fun a b h => fin_inj64 h) hhe')
      rw [← hEq] at hsum'
      obtain ⟨H, e1, e2, e3, e4, e5, e6, e7⟩ := hsum' i.samples hlen (fun w hw => by simpa using (m1 w hw).2) (Or.inl hsne)
      obtain ⟨e7, e8⟩ := e7 hxf
      have hgs : ∀ x ∈ i.samples.map fun i => g.getD i 0, rv x = x ∧ |x| ≤ 1 :=
        getD_small (P := fun x => rv x = x ∧ |x| ≤ 1) (fun v hv => hg v hv) (fun w hw => by simpa using (m1 w hw).1)
      obtain ⟨G, f1, f2, f3, _⟩ := foldl_smallSum (τ := τ) _ (fun x hx => (hgs x hx).1) (fun x hx => (hgs x hx).2) (by rw [List.length_map]; omega)
      rw [List.length_map] at f3
      rw [m2]
      have hsa : ∀ v : List ℚ, sumAt (v.map XF.fin : List F64) i.samples =
          ((i.samples.map fun i => v.getD i 0).map XF.fin).foldl (· +. ·) (XF.fin 0 : F64) := by
        intro v
        unfold sumAt
        have : (i.samples.map fun i => (v.map XF.fin : List F64).getD i zero) = (i.samples.map fun i => v.getD i 0).map XF.fin := by
          rw [List.map_map]
          apply List.map_congr_left
          intro j _
          simp only [Function.comp_apply, List.getD_eq_getElem?_getD, List.getElem?_map]
          cases v[j]? <;> rfl
        rw [this]
        rfl
      show Within W (sumAt (g.map XF.fin : List F64) i.samples /. sumAt (hs.map XF.fin : List F64) i.samples)
      simp only at f1 e1
      rw [hsa, hsa, f1, e1]
      exact div_small hO.WRep hO.WBig e8 f3 e7

/-! ### the training loops -/

/-- one more tree: the score grows by at most `|lr| W` and the rounding error -/
theorem step64 {W lr B : ℚ} {d v : F64} (hW0 : 0 ≤ W) (hd : Within B d) (hv : Within W v) (hB : B + (|lr| * W + 2 ^ (-40 : ℤ)) ≤ 700) :
    Within (B + (|lr| * W + 2 ^ (-40 : ℤ))) (d +. (v *. .fin lr)) := by
  obtain ⟨d, rfl, hd1, hd2⟩ := hd
  obtain ⟨v, rfl, hv1, hv2⟩ := hv
  have hu := u64_pos
  have he := eta64_pos
  have heu : eta64 ≤ u64 := by
    rw [eta64_def, u64_def]
    exact zpow_le_zpow_right₀ (by norm_num) (by norm_num)
  have hu40 : 8192 * u64 = 2 ^ (-40 : ℤ) := by rw [u64_def]; norm_num
  have hB0 : 0 ≤ B := (abs_nonneg _).trans hd2
  have hL : 0 ≤ |lr| * W := mul_nonneg (abs_nonneg _) hW0
  rw [← hu40] at hB ⊢
  have hvl : |v * lr| ≤ |lr| * W := by
    rw [abs_mul, mul_comm]
    exact mul_le_mul_of_nonneg_left hv2 (abs_nonneg _)
  have hbig : (2000 : ℚ) ≤ big64 := le_trans (by norm_num) big64_large
  have hule := u64_le
  have h1 : |rv (v * lr)| ≤ |lr| * W + (u64 * 700 + u64) := by
    have := abs_le_of_near (rv_err (v * lr)) hvl
    have h2 : u64 * |v * lr| ≤ u64 * 700 := mul_le_mul_of_nonneg_left (by linarith) hu.le
    linarith
  have h2 : |d + rv (v * lr)| ≤ B + (|lr| * W + (u64 * 700 + u64)) := (abs_add_le _ _).trans (by linarith)
  have h3 : |rv (d + rv (v * lr))| ≤ B + (|lr| * W + (u64 * 700 + u64)) + (u64 * 700 + u64) := by
    have := abs_le_of_near (rv_err (d + rv (v * lr))) h2
    have h4 : u64 * |d + rv (v * lr)| ≤ u64 * 700 := mul_le_mul_of_nonneg_left (by linarith) hu.le
    linarith
  refine ⟨rv (d + rv (v * lr)), ?_, rv_idem _, by linarith⟩
  rw [mul64 (by linarith), add64 (by linarith)]

theorem Within.mono {B B' : ℚ} {v : F64} (h : Within B v) (hle : B ≤ B') : Within B' v := by
  obtain ⟨x, h1, h2, h3⟩ := h
  exact ⟨x, h1, h2, h3.trans hle⟩

/-- the entry of class `j` is at most `B j` in size -/
def RowWithin (B : Nat → ℚ) (l : List F64) : Prop := ∀ (j : Nat) v, l[j]? = some v → Within (B j) v

theorem within_list {P : ℚ → Prop} {l : List F64} (h : ∀ v ∈ l, ∃ x : ℚ, v = .fin x ∧ P x) :
    ∃ p : List ℚ, l = p.map XF.fin ∧ ∀ x ∈ p, P x := by
  induction l with
  | nil => exact ⟨[], rfl, by simp⟩
  | cons a l ih =>
    obtain ⟨x, rfl, hx⟩ := h a (by simp)
    obtain ⟨p, rfl, hp⟩ := ih fun v hv => h v (by simp [hv])
    refine ⟨x :: p, rfl, ?_⟩
    intro z hz
    rcases List.mem_cons.1 hz with rfl | hz
    · exact hx
    · exact hp z hz

/-- the columns of the probabilities -/
theorem probs_col64 {exp : F64 → F64} (hexp : ExpFloat exp) {n m : Nat} {st : TrainState F64} {B : Nat → ℚ} (hi : TInv exp n m st)
    (hr : ∀ i < n, RowWithin B (st.rawPred.row i)) (hB : ∀ j, B j ≤ 700) (hn : 0 < n) (hm : m ≤ 1024)
    {k : Nat} (hk : k < m) {p : List F64} (hp : denseCol st.probs k = .ok p) :
    ∃ q : List ℚ, p = q.map XF.fin ∧ q.length = n ∧ ∀ v ∈ q, rv v = v ∧ 0 ≤ v ∧ v ≤ 1 := by
  obtain ⟨l, h1, h2, h3⟩ := denseCol_spec hi.probsWF (by rw [hi.probsR]; exact hn) (col := k) (by rw [hi.probsC]; exact hk)
  rw [h1] at hp
  obtain rfl : l = p := Except.ok.inj hp
  have hval : ∀ v ∈ l, ∃ x : ℚ, v = .fin x ∧ (rv x = x ∧ 0 ≤ x ∧ x ≤ 1) := by
    intro v hv
    obtain ⟨i, hv⟩ := List.getElem?_of_mem hv
    have hin : i < n := by
      have := (List.getElem?_eq_some_iff.1 hv).1
      rw [h2, hi.probsR] at this
      exact this
    obtain ⟨r, hr1, hr2⟩ := within_list (P := fun x => |x| ≤ 700) (l := st.rawPred.row i) (by
      intro v hv
      obtain ⟨j, hj⟩ := List.getElem?_of_mem hv
      obtain ⟨x, a, _, b⟩ := hr i hin j v hj
      exact ⟨x, a, b.trans (hB j)⟩)
    have hl : (st.rawPred.row i).length = m := by
      rw [Dense.row_length hi.rawWF (by rw [hi.rawR]; exact hin), hi.rawC]
    have hl' : r.length = m := by rw [← hl, hr1]; simp
    have hsoft := hi.soft i hin
    obtain ⟨y, s, he, hs0, _, hge, hq⟩ := soft64 hexp r (by rintro rfl; simp at hl'; omega) hr2 (by omega)
    rw [hr1, hq] at hsoft
    have hrow := (Except.ok.inj hsoft).symm
    rw [h3 i (by rw [hi.probsR]; exact hin), ← Dense.row_get (by rw [hi.probsR]; exact hin) (by rw [hi.probsC]; exact hk),
      hrow] at hv
    obtain ⟨x, hx, rfl⟩ := List.mem_map.1 (List.mem_of_getElem? hv)
    obtain ⟨w, hw, rfl⟩ := List.mem_map.1 hx
    refine ⟨_, rfl, rv_idem _, ?_⟩
    obtain ⟨z, _, _, q2⟩ := forall₂_mem_right he hw
    have hw0 : 0 < w := by exact_mod_cast (near_pos (Real.exp_pos _) q2).1
    refine ⟨rv_nonneg (div_nonneg hw0.le hs0.le), ?_⟩
    have := rv_mono ((div_le_one hs0).2 (hge w hw))
    rwa [rv_one] at this
  obtain ⟨q, hq, hq2⟩ := within_list hval
  exact ⟨q, hq, by rw [← hi.probsR, ← h2, hq]; simp, hq2⟩

/-- what training in float64 needs -/
structure FloatSetup (X : List (List F64)) (O : Options F64) (ohe : Dense F64) (n m : Nat) (lr lam W : ℚ) : Prop where
  opts : FloatOptions O lr lam W
  len : X.length = n
  pos : 0 < n
  small : n < 2 ^ 53
  classes : m ≤ 1024
  ohe : ∀ k y, k < m → denseCol ohe k = .ok y → ∃ y' : List ℚ, y = y'.map XF.fin ∧ y'.length = n ∧ ∀ v ∈ y', v = 0 ∨ v = 1
  loss : ∀ lv, O.loss = some lv → LeafBound X O lv.fn lam W

/-- the row sample: rows of the data, and some if that matters -/
def IdxOk64 (X : List (List F64)) (O : Options F64) (lam : ℚ) (idx : Option (List Nat)) : Prop :=
  (∀ l, idx = some l → l.length ≤ X.length ∧ ∀ w ∈ l, w < X.length) ∧ ((O.xgb = true ∧ 0 < lam) ∨ (Apart64 X ∧ idx ≠ some []))

theorem idxOk64_of_round {X : List (List F64)} {O : Options F64} {d d' : Nat → F64} {idx : Option (List Nat)}
    {cols : List Nat} {lam : ℚ} (h : roundSamples X O d = .ok (idx, cols, d'))
    (hl : ¬ ((idx.getD []).length : Int) < O.minSample)
    (hs : (O.xgb = true ∧ 0 < lam) ∨ (Apart64 X ∧ (rowSub O = true → 1 ≤ O.minSample))) : IdxOk64 X O lam idx := by
  obtain ⟨_, q2⟩ := roundSamples_inv h
  refine ⟨?_, hs.imp id ?_⟩
  · intro l hl'
    subst hl'
    by_cases hr : rowSub O = true
    · rw [if_pos hr] at q2
      have q3 := Option.some.inj q2
      rw [q3]
      refine ⟨(List.length_filter_le _ _).trans (by simp), ?_⟩
      intro w hw
      simp at hw
      exact hw.1
    · rw [if_neg hr] at q2
      cases q2
  · rintro ⟨h1, h2⟩
    refine ⟨h1, ?_⟩
    rintro rfl
    by_cases hr : rowSub O = true
    · have := h2 hr
      simp at hl
      omega
    · rw [if_neg hr] at q2
      cases q2

theorem LeafBound.safe {X : List (List F64)} {O : Options F64} {lf : LossFunc F64} {lam W : ℚ} (h : LeafBound X O lf lam W) :
    (O.xgb = true ∧ 0 < lam) ∨ (Apart64 X ∧ (rowSub O = true → 1 ≤ O.minSample)) := by
  rcases h with ⟨_, _, h⟩ | ⟨_, h1, h2, _⟩
  · exact h
  · exact Or.inl ⟨h1, h2⟩

/-- the tree was built for a class from labels 0 and 1 and probabilities -/
def Origin64 (S : GoSort) (X : List (List F64)) (O : Options F64) (lam : ℚ) (t : Tree F64) : Prop :=
  ∃ (idx : Option (List Nat)) (cols : List Nat) (y p : List ℚ) (lv : LossVal F64), O.loss = some lv ∧ IdxOk64 X O lam idx ∧ LabelsProbs y p ∧
    p.length = X.length ∧ classTree S X O lv.fn idx cols (y.map XF.fin) (p.map XF.fin) = .ok t

theorem ClassStep.float {exp : F64 → F64} (hexp : ExpFloat exp) {S : GoSort} {X : List (List F64)} {O : Options F64} {ohe : Dense F64}
    {n m : Nat} {lr lam W : ℚ} (hs : FloatSetup X O ohe n m lr lam W) {idx : Option (List Nat)} (hidx : IdxOk64 X O lam idx)
    {cols : List Nat} {round : Nat} {st st' : TrainState F64} {k : Nat} {tree : Tree F64} {B : Nat → ℚ}
    (s : ClassStep exp S X O ohe idx cols round st st' k tree) (hi : TInv exp n m st)
    (hr : ∀ i < n, RowWithin B (st.rawPred.row i)) (hB : ∀ j, B j ≤ 700) (hk : k < m)
    (hroom : B k + (|lr| * W + 2 ^ (-40 : ℤ)) ≤ 700) :
    (SmallTree W tree ∧ Origin64 S X O lam tree) ∧ ∀ i < n, RowWithin (fun j => if j = k then B k + (|lr| * W + 2 ^ (-40 : ℤ)) else B j) (st'.rawPred.row i) := by
  obtain ⟨y, hy, hyl, hylab⟩ := hs.ohe k _ hk s.hy
  obtain ⟨p, hp, hpl, hpv⟩ := probs_col64 hexp hi hr hB hs.pos hs.classes hk s.hp
  have ht := s.htree
  rw [hy, hp] at ht
  have hX : X ≠ [] := by
    intro h0
    have := hs.len
    rw [h0] at this
    simp at this
    have := hs.pos
    omega
  have hfin := classTree64 hs.opts (hs.loss _ s.hlv) hX (by rw [hs.len]; exact hs.small) hidx.1 hidx.2
    ⟨by omega, hylab, hpv⟩ (by rw [hpl, hs.len]) ht
  refine ⟨⟨hfin, idx, cols, y, p, s.lv, s.hlv, hidx, ⟨by omega, hylab, hpv⟩, by rw [hpl, hs.len], ht⟩, ?_⟩
  intro i hin
  obtain ⟨_, _, _, h4⟩ := s.inv hi hs.len hk
  obtain ⟨v, d, h1, h2, h3⟩ := h4 i _ (List.getElem?_eq_getElem (by rw [hs.len]; exact hin))
  rw [h3, hs.opts.lrEq]
  have hstep := step64 (lr := lr) hs.opts.W0 (hr i hin k d h2) (hfin.predict h1) hroom
  intro j w hw
  rw [List.getElem?_set] at hw
  by_cases hj : k = j
  · subst hj
    rw [if_pos rfl] at hw
    split at hw
    · obtain rfl := Option.some.inj hw
      simpa using hstep
    · cases hw
  · rw [if_neg hj] at hw
    simp only [if_neg (Ne.symm hj)]
    exact hr i hin j w hw

theorem trainClasses_float {exp : F64 → F64} (hexp : ExpFloat exp) {S : GoSort} {X : List (List F64)} {O : Options F64} {ohe : Dense F64}
    {n m : Nat} {lr lam W : ℚ} (hs : FloatSetup X O ohe n m lr lam W) {idx : Option (List Nat)} (hidx : IdxOk64 X O lam idx)
    {cols : List Nat} {round : Nat} {b : ℚ} (hroom : b + (|lr| * W + 2 ^ (-40 : ℤ)) ≤ 700)
    (q : Nat) (hq : q ≤ m) (st : TrainState F64) (acc' : TrainState F64 × List (Tree F64))
    (h : (List.range q).foldlM (trainClass (softMaxDense exp) S X O ohe idx cols round) (st, []) = .ok acc')
    (hi : TInv exp n m st) (hr : ∀ i < n, RowWithin (fun _ => b) (st.rawPred.row i)) :
    (∀ i < n, RowWithin (fun j => if j < q then b + (|lr| * W + 2 ^ (-40 : ℤ)) else b) (acc'.1.rawPred.row i)) ∧
      ∀ t ∈ acc'.2, SmallTree W t ∧ Origin64 S X O lam t := by
  have hδ : 0 ≤ |lr| * W + 2 ^ (-40 : ℤ) := add_nonneg (mul_nonneg (abs_nonneg _) hs.opts.W0) (by positivity)
  generalize hδe : |lr| * W + 2 ^ (-40 : ℤ) = δ at *
  induction q generalizing acc' with
  | zero =>
    simp only [List.range_zero, List.foldlM_nil, pure, Except.pure, Except.ok.injEq] at h
    subst h
    exact ⟨by simpa using hr, by simp⟩
  | succ q ih =>
    rw [List.range_succ, List.foldlM_append] at h
    obtain ⟨acc, h1, h2⟩ := bind_ok h
    rw [List.foldlM_cons] at h2
    obtain ⟨acc'', h3, h4⟩ := bind_ok h2
    simp only [List.foldlM_nil, pure, Except.pure, Except.ok.injEq] at h4
    subst h4
    obtain ⟨a1, _⟩ := trainClasses_inv hs.len q (by omega) st acc h1 hi
    obtain ⟨b1, b2⟩ := ih (by omega) acc h1
    have hle : ∀ j, (if j < q then b + δ else b) ≤ if j < q + 1 then b + δ else b := by
      intro j
      split <;> split <;> first | omega | linarith
    rcases trainClass_inv h3 with ⟨_, rfl⟩ | ⟨_, tree, ht, ⟨s⟩⟩
    · exact ⟨fun i hin j v hv => (b1 i hin j v hv).mono (hle j), b2⟩
    · obtain ⟨c1, c2⟩ := s.float hexp hs hidx a1 b1 (by intro j; split <;> linarith) (by omega) (by
        rw [hδe, if_neg (lt_irrefl q)]
        exact hroom)
      refine ⟨?_, ?_⟩
      · intro i hin j v hv
        refine (c2 i hin j v hv).mono ?_
        by_cases hj : j = q
        · subst hj
          beta_reduce
          rw [if_pos rfl, if_neg (lt_irrefl j), if_pos (Nat.lt_succ_self j)]
          linarith
        · simp only [if_neg hj]
          exact hle j
      · rw [ht]
        intro t htm
        rcases List.mem_append.1 htm with htm | htm
        · exact b2 t htm
        · rw [List.mem_singleton.1 htm]
          exact c1

theorem trainRounds_float {exp : F64 → F64} (hexp : ExpFloat exp) {S : GoSort} {X : List (List F64)} {O : Options F64} {ohe : Dense F64}
    {n m : Nat} {lr lam W : ℚ} (hs : FloatSetup X O ohe n m lr lam W) (hloss : O.loss ≠ none) {b : ℚ} {q : Nat}
    (hroom : b + q * (|lr| * W + 2 ^ (-40 : ℤ)) ≤ 700) {st st' : TrainState F64}
    (h : (List.range q).foldlM (trainRound (softMaxDense exp) S X O ohe m) st = .ok st')
    (hi : TInv exp n m st) (hb : st.boosters = []) (hr : ∀ i < n, RowWithin (fun _ => b) (st.rawPred.row i)) :
    (∀ i < n, RowWithin (fun _ => b + q * (|lr| * W + 2 ^ (-40 : ℤ))) (st'.rawPred.row i)) ∧
      ∀ ens ∈ st'.boosters, ∀ t ∈ ens, SmallTree W t ∧ Origin64 S X O lam t := by
  have hδ : 0 ≤ |lr| * W + 2 ^ (-40 : ℤ) := add_nonneg (mul_nonneg (abs_nonneg _) hs.opts.W0) (by positivity)
  generalize hδe : |lr| * W + 2 ^ (-40 : ℤ) = δ at *
  induction q generalizing st' with
  | zero =>
    simp only [List.range_zero, List.foldlM_nil, pure, Except.pure, Except.ok.injEq] at h
    subst h
    exact ⟨by simpa using hr, by simp [hb]⟩
  | succ q ih =>
    rw [List.range_succ, List.foldlM_append] at h
    obtain ⟨st1, h1, h2⟩ := bind_ok h
    rw [List.foldlM_cons] at h2
    obtain ⟨st2, h3, h4⟩ := bind_ok h2
    simp only [List.foldlM_nil, pure, Except.pure, Except.ok.injEq] at h4
    subst h4
    push_cast at hroom
    obtain ⟨a1, _⟩ := trainRounds_inv h1 hi hs.len hb
    obtain ⟨b1, b2⟩ := ih h1 (by linarith)
    obtain ⟨idx, cols, draws, hsam, ⟨_, rfl⟩ | ⟨hl, acc, hacc, rfl⟩⟩ := trainRound_inv h3
    · exact ⟨fun i hin j v hv => (b1 i hin j v hv).mono (by push_cast; linarith), b2⟩
    · have hidx : IdxOk64 X O lam idx := by
        obtain ⟨lv, hlv⟩ := Option.ne_none_iff_exists'.1 hloss
        exact idxOk64_of_round hsam hl (hs.loss lv hlv).safe
      obtain ⟨c1, c2⟩ := trainClasses_float hexp hs hidx (b := b + q * δ) (by rw [hδe]; linarith) m le_rfl _ acc hacc (a1.draws draws) b1
      obtain ⟨_, e2, _⟩ := trainClasses_inv hs.len m le_rfl _ acc hacc (a1.draws draws)
      refine ⟨?_, ?_⟩
      · intro i hin j v hv
        refine (c1 i hin j v hv).mono ?_
        rw [hδe]
        push_cast
        split <;> linarith
      · simp only [e2]
        intro ens he t ht
        rcases List.mem_append.1 he with he | he
        · exact b2 ens he t ht
        · rw [List.mem_singleton.1 he] at ht
          exact c2 t ht

/-! ### scores of a model of small trees -/

theorem scoreAfter_float {W lr : ℚ} (hW0 : 0 ≤ W) (ts : List (Tree F64)) (ht : ∀ t ∈ ts, SmallTree W t) (row : List F64) :
    ∀ (b : ℚ) (z s : F64), Within b z → b + ts.length * (|lr| * W + 2 ^ (-40 : ℤ)) ≤ 700 →
      scoreAfter z (.fin lr) ts row = .ok s → Within (b + ts.length * (|lr| * W + 2 ^ (-40 : ℤ))) s := by
  have hδ : 0 ≤ |lr| * W + 2 ^ (-40 : ℤ) := add_nonneg (mul_nonneg (abs_nonneg _) hW0) (by positivity)
  generalize hδe : |lr| * W + 2 ^ (-40 : ℤ) = δ at *
  induction ts with
  | nil =>
    intro b z s hz _ h
    simp only [scoreAfter, List.foldlM_nil, pure, Except.pure, Except.ok.injEq] at h
    subst h
    simpa using hz
  | cons t ts ih =>
    intro b z s hz hroom h
    unfold scoreAfter at h
    rw [List.foldlM_cons] at h
    obtain ⟨z1, h1, h2⟩ := bind_ok h
    obtain ⟨v, h3, h4⟩ := bind_ok h1
    simp only [pure, Except.pure, Except.ok.injEq] at h4
    subst h4
    simp only [List.length_cons] at hroom ⊢
    push_cast at hroom ⊢
    have hts : 0 ≤ (ts.length : ℚ) * δ := mul_nonneg (by positivity) hδ
    have hstep := step64 (lr := lr) hW0 hz ((ht t (by simp)).predict h3) (by rw [hδe]; linarith)
    rw [hδe] at hstep
    have := ih (fun t ht' => ht t (by simp [ht'])) (b + δ) _ s hstep (by linarith) h2
    exact this.mono (by linarith)

end AnyOrder

end Boo
