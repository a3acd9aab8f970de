import Verif.Lemmas.Additive
import Verif.Lemmas.Calibration
import Verif.Props.Size
import Mathlib.Analysis.PSeries
import Mathlib.Analysis.SpecialFunctions.Log.Basic
import Mathlib.Algebra.Order.Chebyshev
import Mathlib.Algebra.BigOperators.Field

/-!
# Boosting with stumps: the scores add up over the columns, and the loss tends to the best possible one
-/

namespace Boo
open GoFloat Spec
set_option linter.unusedSectionVars false

/-! ### the loss is convex -/

theorem gibbs (m : ℕ) (r s : ℕ → ℝ) (hm : 0 < m) :
    Real.log (∑ k ∈ Finset.range m, Real.exp (r k)) - Real.log (∑ k ∈ Finset.range m, Real.exp (s k)) ≤
      ∑ k ∈ Finset.range m, Real.exp (r k) / (∑ k ∈ Finset.range m, Real.exp (r k)) * (r k - s k) := by
  have hne : (Finset.range m).Nonempty := ⟨0, Finset.mem_range.2 hm⟩
  set A := ∑ k ∈ Finset.range m, Real.exp (r k) with hA
  set B := ∑ k ∈ Finset.range m, Real.exp (s k) with hB
  have hA0 : 0 < A := Finset.sum_pos (fun _ _ => Real.exp_pos _) hne
  have hB0 : 0 < B := Finset.sum_pos (fun _ _ => Real.exp_pos _) hne
  set t := Real.log B - Real.log A with ht
  have h1 : ∀ k ∈ Finset.range m, Real.exp (r k) / A * (s k - r k - t) ≤ Real.exp (s k) / B - Real.exp (r k) / A := by
    intro k _
    have h2 := Real.add_one_le_exp (s k - r k - t)
    have h3 : 0 ≤ Real.exp (r k) / A := by positivity
    have h4 : Real.exp (r k) / A * Real.exp (s k - r k - t) = Real.exp (s k) / B := by
      rw [ht, Real.exp_sub, Real.exp_sub, Real.exp_sub, Real.exp_log hA0, Real.exp_log hB0]
      field_simp
    nlinarith
  have h5 := Finset.sum_le_sum h1
  rw [Finset.sum_sub_distrib, ← Finset.sum_div, ← Finset.sum_div, ← hA, ← hB, div_self hA0.ne', div_self hB0.ne', sub_self] at h5
  have h6 : ∑ k ∈ Finset.range m, Real.exp (r k) / A * (s k - r k - t) =
      -∑ k ∈ Finset.range m, Real.exp (r k) / A * (r k - s k) - t := by
    have h7 : ∑ k ∈ Finset.range m, Real.exp (r k) / A * t = t := by
      rw [← Finset.sum_mul, ← Finset.sum_div, ← hA, div_self hA0.ne', one_mul]
    rw [← Finset.sum_neg_distrib]
    conv_rhs => rw [← h7]
    rw [← Finset.sum_sub_distrib]
    exact Finset.sum_congr rfl fun k _ => by ring
  rw [h6] at h5
  linarith

/-! ### scores that add up over the columns -/

/-- the scores are a constant plus one function per column, of total size at most `B` -/
def AddRep (X : List (List ℝ)) (c : ℕ) (F : ℕ → ℝ) (B : ℝ) : Prop :=
  ∃ (a : ℝ) (H : ℕ → ℝ → ℝ), (∀ i < X.length, F i = a + ∑ f ∈ Finset.range c, H f (val X i f)) ∧
    |a| + 2 * ∑ i ∈ Finset.range X.length, ∑ f ∈ Finset.range c, |H f (val X i f)| ≤ B

theorem AddRep.mono {X : List (List ℝ)} {c : ℕ} {F : ℕ → ℝ} {B B' : ℝ} (h : AddRep X c F B) (hB : B ≤ B') : AddRep X c F B' := by
  obtain ⟨a, H, h1, h2⟩ := h
  exact ⟨a, H, h1, h2.trans hB⟩

theorem AddRep.congr {X : List (List ℝ)} {c : ℕ} {F F' : ℕ → ℝ} {B : ℝ} (h : AddRep X c F B) (hF : ∀ i < X.length, F' i = F i) :
    AddRep X c F' B := by
  obtain ⟨a, H, h1, h2⟩ := h
  exact ⟨a, H, fun i hi => (hF i hi).trans (h1 i hi), h2⟩

/-- what a stump computes: a constant, or a function of one column -/
def StumpFun (X : List (List ℝ)) (c : ℕ) (v : ℕ → ℝ) : Prop :=
  (∃ a, ∀ i < X.length, v i = a) ∨ ∃ f < c, ∃ h : ℝ → ℝ, ∀ i < X.length, v i = h (val X i f)

theorem AddRep.step {X : List (List ℝ)} {c : ℕ} {F : ℕ → ℝ} {B : ℝ} (h : AddRep X c F B) (hX : 0 < X.length) {v : ℕ → ℝ}
    (hv : StumpFun X c v) (lr e : ℝ) (he : ∀ i < X.length, |lr * v i| ≤ e) :
    AddRep X c (fun i => F i + lr * v i) (B + 2 * X.length * e) := by
  obtain ⟨a, H, h1, h2⟩ := h
  have h0 : 0 ≤ e := (abs_nonneg _).trans (he 0 hX)
  have hn : (1 : ℝ) ≤ X.length := by exact_mod_cast hX
  rcases hv with ⟨b, hb⟩ | ⟨f, hf, g, hg⟩
  · refine ⟨a + lr * b, H, ?_, ?_⟩
    · intro i hi
      beta_reduce
      rw [h1 i hi, hb i hi]
      ring
    · have := abs_add_le a (lr * b)
      have h3 := he 0 hX
      rw [hb 0 hX] at h3
      nlinarith
  · refine ⟨a, fun f' x => H f' x + if f' = f then lr * g x else 0, ?_, ?_⟩
    · intro i hi
      beta_reduce
      rw [h1 i hi, hg i hi, Finset.sum_add_distrib, Finset.sum_ite_eq' (Finset.range c) f (fun f' => lr * g (val X i f')),
        if_pos (Finset.mem_range.2 hf)]
      ring
    · have h3 : ∑ i ∈ Finset.range X.length, ∑ f' ∈ Finset.range c, |H f' (val X i f') + if f' = f then lr * g (val X i f') else 0| ≤
          ∑ i ∈ Finset.range X.length, ((∑ f' ∈ Finset.range c, |H f' (val X i f')|) + e) := by
        refine Finset.sum_le_sum fun i hi => ?_
        have hin := Finset.mem_range.1 hi
        refine (Finset.sum_le_sum fun f' _ => abs_add_le _ _).trans ?_
        rw [Finset.sum_add_distrib]
        have h4 : ∑ f' ∈ Finset.range c, |if f' = f then lr * g (val X i f') else 0| = |lr * g (val X i f)| := by
          rw [← Finset.sum_ite_eq_of_mem' (Finset.range c) f (fun f' => |lr * g (val X i f')|) (Finset.mem_range.2 hf)]
          refine Finset.sum_congr rfl fun f' _ => ?_
          split <;> simp
        rw [h4]
        have := he i hin
        rw [hg i hin] at this
        linarith
      rw [Finset.sum_add_distrib, Finset.sum_const, Finset.card_range, nsmul_eq_mul] at h3
      linarith

/-- residuals that are small below all thresholds are nearly orthogonal to such scores -/
theorem AddRep.bound {X : List (List ℝ)} {c : ℕ} {F : ℕ → ℝ} {B : ℝ} (h : AddRep X c F B) (r : ℕ → ℝ) (g : ℝ)
    (hall : |∑ i ∈ Finset.range X.length, r i| ≤ g)
    (hleft : ∀ f < c, ∀ θ, (∃ i < X.length, val X i f ≤ θ) → (∃ i < X.length, θ < val X i f) →
      |∑ i ∈ (Finset.range X.length).filter (fun i => val X i f ≤ θ), r i| ≤ g) :
    |∑ i ∈ Finset.range X.length, r i * F i| ≤ g * B := by
  obtain ⟨a, H, h1, h2⟩ := h
  have hg : 0 ≤ g := (abs_nonneg _).trans hall
  have h3 := additive_sum X.length c (fun i f => val X i f) r g hall hleft H
  have e : ∑ i ∈ Finset.range X.length, r i * F i =
      (∑ i ∈ Finset.range X.length, r i) * a + ∑ i ∈ Finset.range X.length, r i * ∑ f ∈ Finset.range c, H f (val X i f) := by
    rw [Finset.sum_mul, ← Finset.sum_add_distrib]
    exact Finset.sum_congr rfl fun i hi => by rw [h1 i (Finset.mem_range.1 hi)]; ring
  rw [e]
  refine (abs_add_le _ _).trans ?_
  rw [abs_mul]
  have h4 := mul_le_mul_of_nonneg_right hall (abs_nonneg a)
  have h5 := mul_le_mul_of_nonneg_left h2 hg
  nlinarith

/-! ### the analysis -/

/-- A sequence that decreases by at least the squares of its gradients, and is not far from `Ls` when the gradient is small compared to what was
moved so far, gets below every number above `Ls`. -/
theorem limit_lemma (L e : ℕ → ℝ) (Ls c A B : ℝ) (hc : 0 < c) (hA : 0 ≤ A) (hB : 0 ≤ B) (h0 : ∀ R, 0 ≤ L R) (he : ∀ R, 0 ≤ e R)
    (hdec : ∀ R, L R - L (R + 1) = c * e R ^ 2) (hconv : ∀ R, L (R + 1) - Ls ≤ (A + B * ∑ r ∈ Finset.range (R + 1), e r) * e R)
    (ε : ℝ) (hε : 0 < ε) : ∃ R0, ∀ R ≥ R0, L R < Ls + ε := by
  have hanti : Antitone L := antitone_nat_of_succ_le fun R => by
    have := hdec R
    have : 0 ≤ c * e R ^ 2 := by positivity
    linarith
  suffices h : ∃ R, L R < Ls + ε by
    obtain ⟨R0, h⟩ := h
    exact ⟨R0, fun R hR => lt_of_le_of_lt (hanti hR) h⟩
  by_contra hcon
  push Not at hcon
  have hsum : ∀ R, ∑ r ∈ Finset.range R, e r ^ 2 ≤ L 0 / c := by
    intro R
    have : ∀ R, c * ∑ r ∈ Finset.range R, e r ^ 2 = L 0 - L R := by
      intro R
      induction R with
      | zero => simp
      | succ R ih =>
        rw [Finset.sum_range_succ, mul_add, ih, ← hdec R]
        ring
    rw [le_div_iff₀ hc, mul_comm, this R]
    have := h0 R
    linarith
  set C := L 0 / c with hC
  have hC0 : 0 ≤ C := div_nonneg (h0 0) hc.le
  have hS : ∀ R, (∑ r ∈ Finset.range (R + 1), e r) ^ 2 ≤ (R + 1) * C := by
    intro R
    have := sq_sum_le_card_mul_sum_sq (s := Finset.range (R + 1)) (f := e)
    rw [Finset.card_range] at this
    push_cast at this
    refine this.trans (mul_le_mul_of_nonneg_left (hsum _) (by positivity))
  set D := 2 * (A ^ 2 + B ^ 2 * C) + 1 with hD
  have hD0 : 0 < D := by positivity
  have hlow : ∀ R : ℕ, ε ^ 2 / D * (1 / ((R : ℝ) + 1)) ≤ e R ^ 2 := by
    intro R
    have h1 := hconv R
    have h2 := hcon (R + 1)
    have h3 : ε ≤ (A + B * ∑ r ∈ Finset.range (R + 1), e r) * e R := by linarith
    have h4 : ε ^ 2 ≤ ((A + B * ∑ r ∈ Finset.range (R + 1), e r) * e R) ^ 2 := pow_le_pow_left₀ hε.le h3 2
    have h5 : (A + B * ∑ r ∈ Finset.range (R + 1), e r) ^ 2 ≤ D * (R + 1) := by
      have h6 := hS R
      have h7 : 0 ≤ B ^ 2 := sq_nonneg B
      have h8 := mul_le_mul_of_nonneg_left h6 h7
      have h9 : (A + B * ∑ r ∈ Finset.range (R + 1), e r) ^ 2 ≤ 2 * (A ^ 2 + B ^ 2 * (∑ r ∈ Finset.range (R + 1), e r) ^ 2) := by
        nlinarith [sq_nonneg (A - B * ∑ r ∈ Finset.range (R + 1), e r)]
      have hR : (0 : ℝ) ≤ R := by positivity
      have h10 : 0 ≤ A ^ 2 * R := by positivity
      rw [hD]
      nlinarith
    rw [mul_pow] at h4
    have h11 : ε ^ 2 ≤ D * (R + 1) * e R ^ 2 := h4.trans (mul_le_mul_of_nonneg_right h5 (sq_nonneg _))
    have hR : (0 : ℝ) < (R : ℝ) + 1 := by positivity
    rw [div_mul_div_comm, mul_one, div_le_iff₀ (by positivity)]
    linarith
  have hharm := Real.tendsto_sum_range_one_div_nat_succ_atTop
  have hpos : 0 < ε ^ 2 / D := by positivity
  obtain ⟨R, hR⟩ := (Filter.tendsto_atTop.1 hharm (C / (ε ^ 2 / D) + 1)).exists
  have h1 : ε ^ 2 / D * ∑ r ∈ Finset.range R, (1 / ((r : ℝ) + 1)) ≤ C := by
    rw [Finset.mul_sum]
    exact (Finset.sum_le_sum fun r _ => hlow r).trans (hsum R)
  have h2 : ∑ r ∈ Finset.range R, (1 / ((r : ℝ) + 1)) ≤ C / (ε ^ 2 / D) := by
    rw [le_div_iff₀ hpos]
    linarith
  linarith

/-! ### the trees are stumps -/

/-- the value of the root -/
def rootValue : Tree (Exact ℝ) → ℝ
  | .nil => 0
  | .node i _ _ => realOf i.value

theorem predict_leaf {t : Tree (Exact ℝ)} (h : t.height = 0) {row : List (Exact ℝ)} {x : ℝ} (hp : t.predictSingle row = .ok (.fin x)) :
    x = rootValue t := by
  cases t with
  | nil => cases hp
  | node i l r =>
    have hl : l = .nil ∧ r = .nil := by
      cases l with
      | nil =>
        cases r with
        | nil => exact ⟨rfl, rfl⟩
        | node => simp [Tree.height] at h
      | node => simp [Tree.height] at h
    obtain ⟨rfl, rfl⟩ := hl
    unfold Tree.predictSingle at hp
    split at hp
    · show x = realOf i.value
      rw [Except.ok.inj hp]
      rfl
    · obtain ⟨v, _, hp⟩ := bind_ok hp
      split at hp <;> cases hp

theorem stump_fun {X : List (List ℝ)} {c : ℕ} (hrect : ∀ row ∈ X, row.length = c) {t : Tree (Exact ℝ)} (ht : t.height ≤ 1) {v : ℕ → ℝ}
    (hv : ∀ (i : Nat) row, (finRows X)[i]? = some row → t.predictSingle row = .ok (.fin (v i))) : StumpFun X c v := by
  have hget : ∀ i (hi : i < X.length), (finRows X)[i]? = some ((X[i]).map XF.fin) := by
    intro i hi
    unfold finRows
    rw [List.getElem?_map, List.getElem?_eq_getElem hi]
    rfl
  rcases Nat.eq_zero_or_pos X.length with h0 | hpos
  · exact Or.inl ⟨0, fun i hi => by omega⟩
  rcases Nat.eq_zero_or_pos t.height with h0 | h1
  · exact Or.inl ⟨rootValue t, fun i hi => predict_leaf h0 (hv i _ (hget i hi))⟩
  cases t with
  | nil => simp [Tree.height] at h1
  | node nd l r =>
    by_cases hleaf : nd.leaf = true
    · refine Or.inl ⟨realOf nd.value, fun i hi => ?_⟩
      have := hv i _ (hget i hi)
      unfold Tree.predictSingle at this
      rw [if_pos hleaf] at this
      rw [Except.ok.inj this]
      rfl
    · have hch : l.height = 0 ∧ r.height = 0 := by
        cases l with
        | nil =>
          cases r with
          | nil => simp [Tree.height] at h1
          | node => simp [Tree.height] at ht ⊢; omega
        | node => simp [Tree.height] at ht ⊢; omega
      have hstep : ∀ i (hi : i < X.length), nd.splitFeatureIndex < c ∧
          v i = if ((.fin (val X i nd.splitFeatureIndex) : Exact ℝ) <=. nd.threshold) = true then rootValue l else rootValue r := by
        intro i hi
        have hp := hv i _ (hget i hi)
        unfold Tree.predictSingle at hp
        rw [if_neg hleaf] at hp
        obtain ⟨w, hw, hp⟩ := bind_ok hp
        have hlen := hrect _ (List.getElem_mem hi)
        unfold goIdx at hw
        split at hw
        · rename_i a ha
          obtain rfl := Except.ok.inj hw
          rw [List.getElem?_map] at ha
          obtain ⟨b, hb, rfl⟩ := Option.map_eq_some_iff.1 ha
          have hlt := (List.getElem?_eq_some_iff.1 hb).1
          have hval : val X i nd.splitFeatureIndex = b := by
            unfold val
            simp [List.getD_eq_getElem?_getD, List.getElem?_eq_getElem hi, hb]
          refine ⟨by omega, ?_⟩
          rw [hval]
          split at hp
          · rename_i hc
            rw [if_pos hc]
            exact predict_leaf hch.1 hp
          · rename_i hc
            rw [if_neg hc]
            exact predict_leaf hch.2 hp
        · cases hw
      exact Or.inr ⟨nd.splitFeatureIndex, (hstep 0 hpos).1,
        fun x => if ((.fin x : Exact ℝ) <=. nd.threshold) = true then rootValue l else rootValue r, fun i hi => (hstep i hi).2⟩

theorem classTree_height {S : GoSort} {X : List (List (Exact ℝ))} {O : Options (Exact ℝ)} {lf : LossFunc (Exact ℝ)} {idx : Option (List Nat)}
    {cols : List Nat} {y p : List (Exact ℝ)} {t : Tree (Exact ℝ)} (ht : classTree S X O lf idx cols y p = .ok t) (hd : O.maxDepth ≤ 1) :
    t.height ≤ 1 := by
  have : WithinDepth O.maxDepth t := by
    unfold classTree at ht
    cases hx : O.xgb with
    | true =>
      rw [hx] at ht
      obtain ⟨g, _, ht⟩ := bind_ok ht
      exact C104_depth S _ _ t ht
    | false =>
      rw [hx] at ht
      obtain ⟨g, _, ht⟩ := bind_ok ht
      obtain ⟨t0, ht0, hu⟩ := bind_ok ht
      exact (C104_depth S _ _ t0 ht0).of_shape hu
  have := this.1
  omega

/-! ### a step and a round -/

theorem ClassStep.stump {S : GoSort} {X : List (List ℝ)} {O : Options (Exact ℝ)} {ohe : Dense (Exact ℝ)} {n m : Nat}
    {one : Prop} (hs : RealSetup X O ohe n m one) {c : Nat → Nat} {lr lam gam : ℝ} (hL : CalSetup X O ohe n m c lr lam gam) {cols : List Nat}
    {round : Nat} {st st' : TrainState (Exact ℝ)} {k : Nat} {tree : Tree (Exact ℝ)}
    (s : ClassStep expR S (finRows X) O ohe none cols round st st' k tree) (hi : TInv expR n m st)
    (hr : ∀ i < n, AllFin (st.rawPred.row i)) (hk : k < m) (hdep : O.maxDepth ≤ 1) {w : ℕ} (hrect : ∀ row ∈ X, row.length = w) :
    ∃ v, StumpFun X w v ∧ ∀ i < n, scoreAt st' i k = scoreAt st i k + lr * v i := by
  have hd : (finRows X).length = n := by simp [finRows, hs.len]
  obtain ⟨hfin, _⟩ := s.real hs (fun l h => by cases h) hi hr hk
  obtain ⟨_, _, _, h4⟩ := s.inv hi hd hk
  let v : Nat → ℝ := fun i => match tree.predictSingle ((finRows X).getD i []) with
    | .ok x => realOf x
    | .error _ => 0
  have hv : ∀ (i : Nat) row, (finRows X)[i]? = some row → tree.predictSingle row = .ok (.fin (v i)) := by
    intro i row hrow
    obtain ⟨w, d, h1, _⟩ := h4 i row hrow
    obtain ⟨x, rfl⟩ := hfin.predict h1
    have : v i = x := by
      simp only [v]
      rw [List.getD_eq_getElem?_getD, hrow]
      simp only [Option.getD_some, h1]
      rfl
    rw [this]
    exact h1
  refine ⟨v, stump_fun hrect (classTree_height s.htree hdep) hv, ?_⟩
  intro i hin
  have hget := List.getElem?_eq_getElem (show i < (finRows X).length by rw [hd]; exact hin)
  obtain ⟨w, d, h1, h2, h3⟩ := h4 i _ hget
  rw [hv i _ hget] at h1
  obtain rfl := Except.ok.inj h1
  have hlen : k < (st.rawPred.row i).length := (List.getElem?_eq_some_iff.1 h2).1
  obtain ⟨d', rfl⟩ := hr i hin d (List.mem_of_getElem? h2)
  have hdk : (st.rawPred.row i)[k] = .fin d' := (List.getElem?_eq_some_iff.1 h2).2
  rw [hL.lrEq, show ((XF.fin d' : Exact ℝ) +. (XF.fin (v i) *. XF.fin lr)) = .fin (d' + lr * v i) by
    rw [Exact.mul_fin, Exact.add_fin, mul_comm]] at h3
  unfold scoreAt
  rw [h3, getD_get (by simpa using hlen), getD_get (by simpa using hlen)]
  simp only [List.getElem_map, List.getElem_set_self, hdk]
  rfl

theorem trainClasses_stump {S : GoSort} {X : List (List ℝ)} {O : Options (Exact ℝ)} {ohe : Dense (Exact ℝ)} {n m : Nat}
    {one : Prop} (hs : RealSetup X O ohe n m one) {c : Nat → Nat} {lr lam gam : ℝ} (hL : CalSetup X O ohe n m c lr lam gam) {cols : List Nat}
    {round : Nat} (hdep : O.maxDepth ≤ 1) {w : ℕ} (hrect : ∀ row ∈ X, row.length = w) (q : Nat) (hq : q ≤ m)
    (st : TrainState (Exact ℝ)) (acc' : TrainState (Exact ℝ) × List (Tree (Exact ℝ)))
    (h : (List.range q).foldlM (trainClass (softMaxDense expR) S (finRows X) O ohe none cols round) (st, []) = .ok acc')
    (hi : TInv expR n m st) (hr : ∀ i < n, AllFin (st.rawPred.row i)) (hst : ∀ k, st.stopped.getD k false = false)
    (B : ℝ) (hB : ∀ j < m, AddRep X w (fun i => scoreAt st i j) B) :
    ∀ E, totalLoss n c st - totalLoss n c acc'.1 ≤ lr * (8 - lr) / 8 * E →
      ∀ j < m, (q ≤ j → AddRep X w (fun i => scoreAt acc'.1 i j) B) ∧
        AddRep X w (fun i => scoreAt acc'.1 i j) (B + 2 * X.length * (lr * Real.sqrt E)) := by
  have hd : (finRows X).length = n := by simp [finRows, hs.len]
  have hc : 0 < lr * (8 - lr) / 8 := by
    have := hL.lr0
    have := hL.lr8
    have : 0 < 8 - lr := by linarith
    positivity
  have hgrow : ∀ E, B ≤ B + 2 * X.length * (lr * Real.sqrt E) := by
    intro E
    have := hL.lr0
    have : 0 ≤ 2 * X.length * (lr * Real.sqrt E) := by positivity
    linarith
  induction q generalizing acc' with
  | zero =>
    simp only [List.range_zero, List.foldlM_nil, pure, Except.pure, Except.ok.injEq] at h
    subst h
    exact fun E _ j hj => ⟨fun _ => hB j hj, (hB j hj).mono (hgrow E)⟩
  | succ q ih =>
    rw [List.range_succ, List.foldlM_append] at h
    obtain ⟨acc, h1, h2⟩ := bind_ok h
    rw [List.foldlM_cons] at h2
    obtain ⟨acc'', h3, h4⟩ := bind_ok h2
    simp only [List.foldlM_nil, pure, Except.pure, Except.ok.injEq] at h4
    subst h4
    obtain ⟨a1, _⟩ := trainClasses_inv hd q (by omega) st acc h1 hi
    obtain ⟨b1, _⟩ := trainClasses_real hs (fun l h => by cases h) q (by omega) st acc h1 hi hr
    have hmono0 := (trainClasses_energy hs hL q (by omega) st acc h1 hi hr hst).1
    rcases trainClass_inv h3 with ⟨h5, _⟩ | ⟨_, tree, ht, ⟨s⟩⟩
    · exfalso
      obtain ⟨_, o1⟩ := trainClasses_off hL.stop q st acc hst h1
      rw [o1, hst] at h5
      cases h5
    · obtain ⟨E0, g1, g2, _, g4⟩ := s.energy hs hL a1 b1 (by omega)
      obtain ⟨v, v1, v2⟩ := s.stump hs hL a1 b1 (by omega) hdep hrect
      have hmono : totalLoss n c acc''.1 ≤ totalLoss n c acc.1 := by
        have := mul_nonneg hc.le g1
        linarith
      intro E hE j hj
      have hEle : E0 ≤ E := by
        have h6 : lr * (8 - lr) / 8 * E0 ≤ lr * (8 - lr) / 8 * E := by linarith
        exact le_of_mul_le_mul_left h6 hc
      have hsq : lr * Real.sqrt E0 ≤ lr * Real.sqrt E := mul_le_mul_of_nonneg_left (Real.sqrt_le_sqrt hEle) hL.lr0.le
      obtain ⟨i1, i2⟩ := ih (by omega) acc h1 E (by linarith) j hj
      by_cases hjq : j = q
      · subst hjq
        refine ⟨fun hq => by omega, ?_⟩
        have := (i1 le_rfl).step (by rw [hs.len]; exact hs.pos) v1 lr (lr * Real.sqrt E) (by
          intro i hi
          have hin : i < n := by rw [← hs.len]; exact hi
          have := (g4 i hin).2
          rw [v2 i hin, add_sub_cancel_left] at this
          exact this.trans hsq)
        exact this.congr fun i hi => v2 i (by rw [← hs.len]; exact hi)
      · have e : ∀ i < X.length, scoreAt acc''.1 i j = scoreAt acc.1 i j := fun i hi =>
          (g4 i (by rw [← hs.len]; exact hi)).1 j hjq
        exact ⟨fun hq => (i1 (by omega)).congr e, i2.congr e⟩

theorem trainRound_stump {S : GoSort} {X : List (List ℝ)} {O : Options (Exact ℝ)} {ohe : Dense (Exact ℝ)} {n m : Nat}
    {one : Prop} (hs : RealSetup X O ohe n m one) {c : Nat → Nat} {lr lam gam : ℝ} (hL : CalSetup X O ohe n m c lr lam gam)
    (hms : O.minSample ≤ 0) (hdep : O.maxDepth ≤ 1) {w : ℕ} (hrect : ∀ row ∈ X, row.length = w) {round : Nat} {st st' : TrainState (Exact ℝ)}
    (h : trainRound (softMaxDense expR) S (finRows X) O ohe m st round = .ok st')
    (hi : TInv expR n m st) (hr : ∀ i < n, AllFin (st.rawPred.row i)) (hst : ∀ k, st.stopped.getD k false = false)
    (B : ℝ) (hB : ∀ j < m, AddRep X w (fun i => scoreAt st i j) B) (E : ℝ)
    (hE : totalLoss n c st - totalLoss n c st' ≤ lr * (8 - lr) / 8 * E) :
    ∀ j < m, AddRep X w (fun i => scoreAt st' i j) (B + 2 * X.length * (lr * Real.sqrt E)) := by
  obtain ⟨idx, cols, draws, hsam, hcase⟩ := trainRound_inv h
  have hidx : idx = none := by
    have := (roundSamples_inv hsam).2
    rw [hL.rows] at this
    simpa using this
  subst hidx
  rcases hcase with ⟨hlt, _⟩ | ⟨_, acc, hacc, rfl⟩
  · exfalso
    simp at hlt
    omega
  intro j hj
  exact (trainClasses_stump hs hL hdep hrect m le_rfl { st with draws := draws } acc hacc (hi.draws draws) hr hst B hB E hE j hj).2

end Boo
