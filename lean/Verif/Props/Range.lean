import Verif.Props.NearBest

/-!
# C105: a tree predicts nothing outside the range of what it was trained on
-/

namespace Boo
open GoFloat Spec
set_option linter.unusedSectionVars false

section
variable {F : Type} [GoFloat F] [GoFloatOrd F]

/-- the sample list of every node is a part of the training rows -/
theorem node_samples {S : GoSort} {X : List (List F)} {o : TreeOptions F} {t : Tree F} (h : newTree S X o = .ok t)
    (path : List Bool) (i : NodeInfo F) (l r : Tree F) (hp : t.sub path = .node i l r) : ∀ w ∈ i.samples, w ∈ trainingRows X o := by
  obtain ⟨o', d', h1, _, _, hsub, _⟩ := newTreeD_sub S X _ o t h path i l r hp
  obtain ⟨hsam, _⟩ := mkInfo_samples h1
  intro w hw
  rw [hsam] at hw
  rw [← idx_eq_trainingRows]
  exact hsub.subset hw

omit [GoFloatOrd F] in
/-- what is predicted is the value of a node -/
theorem predict_node {t : Tree F} {row : List F} {v : F} (h : t.predictSingle row = .ok v) :
    ∃ path i l r, t.sub path = .node i l r ∧ i.value = v := by
  induction t with
  | nil => simp [Tree.predictSingle] at h
  | node i l r ihl ihr =>
    unfold Tree.predictSingle at h
    split at h
    · simp only [pure, Except.pure, Except.ok.injEq] at h
      exact ⟨[], i, l, r, rfl, h⟩
    · obtain ⟨x, _, h⟩ := bind_ok h
      split at h
      · obtain ⟨p, i', l', r', h1, h2⟩ := ihl h
        exact ⟨true :: p, i', l', r', h1, h2⟩
      · obtain ⟨p, i', l', r', h1, h2⟩ := ihr h
        exact ⟨false :: p, i', l', r', h1, h2⟩

end

section
variable {K : Type} [Field K] [LinearOrder K] [IsStrictOrderedRing K]

theorem sumOver_le_mul {a b : List K} {c : K} {s : List Nat} (h : ∀ w ∈ s, a.getD w 0 ≤ c * b.getD w 0) :
    sumOver a s ≤ c * sumOver b s := by
  unfold sumOver
  rw [← List.sum_map_mul_left]
  exact List.sum_le_sum h

theorem mul_le_sumOver {a b : List K} {c : K} {s : List Nat} (h : ∀ w ∈ s, c * b.getD w 0 ≤ a.getD w 0) :
    c * sumOver b s ≤ sumOver a s := by
  unfold sumOver
  rw [← List.sum_map_mul_left]
  exact List.sum_le_sum h

theorem mean_mem {y : List K} {s : List Nat} (hs : s ≠ []) {lo hi : K} (h : ∀ w ∈ s, lo ≤ y.getD w 0 ∧ y.getD w 0 ≤ hi) :
    lo ≤ mean y s ∧ mean y s ≤ hi := by
  have hn : (0 : K) < s.length := by exact_mod_cast List.length_pos_iff.2 hs
  unfold mean sumOver
  constructor
  · rw [le_div_iff₀ hn]
    have := List.sum_le_sum (l := s) (f := fun _ => lo) (g := fun i => y.getD i 0) fun w hw => (h w hw).1
    simpa [mul_comm] using this
  · rw [div_le_iff₀ hn]
    have := List.sum_le_sum (l := s) (f := fun i => y.getD i 0) (g := fun _ => hi) fun w hw => (h w hw).2
    simpa [mul_comm] using this

end

section Exact
variable {K : Type} [Field K] [LinearOrder K] [IsStrictOrderedRing K] [FloorRing K]

/-- **C105 (regular trees)**: whatever the row, what a regular tree predicts for it lies between the smallest and the largest target
of its training rows. Exact arithmetic. -/
theorem C105_regular (S : GoSort) (X : List (List K)) (o : TreeOptions (Exact K)) (t : Tree (Exact K)) (y : List K)
    (hb : newTree S (finRows X) o = .ok t) (hi : RegInput o y) (hne : trainingRows (finRows X) o ≠ []) (lo hi' : K)
    (hy : ∀ w ∈ trainingRows (finRows X) o, ∃ v, y[w]? = some v ∧ lo ≤ v ∧ v ≤ hi')
    (row : List (Exact K)) (p : Exact K) (hp : t.predictSingle row = .ok p) : ∃ v, p = .fin v ∧ lo ≤ v ∧ v ≤ hi' := by
  obtain ⟨path, i, l, r, h1, h2⟩ := predict_node hp
  obtain ⟨h3, h4⟩ := C10_node_mean S X o t y hb hi hne path i l r h1
  refine ⟨_, h2.symm.trans h4, mean_mem h3 fun w hw => ?_⟩
  obtain ⟨v, e1, e2⟩ := hy w (node_samples hb path i l r h1 w hw)
  rw [List.getD_eq_getElem?_getD, e1]
  exact e2

/-- **C105 (xgboost trees)**: whatever the row, what an xgboost tree predicts for it lies between the smallest and the largest of 0 and the
steps `-g/h` of its training rows (0 because `Lambda` pulls towards it). Exact arithmetic. -/
theorem C105_xgb (S : GoSort) (X : List (List K)) (o : TreeOptions (Exact K)) (t : Tree (Exact K)) (g h : List K) (lam gam : K)
    (hb : newTree S (finRows X) o = .ok t) (hi : XgbInput o g h lam gam) (hlam : 0 ≤ lam) (hne : trainingRows (finRows X) o ≠ [])
    (lo hi' : K) (hlo : lo ≤ 0 ∨ lam = 0) (hhi : 0 ≤ hi' ∨ lam = 0)
    (hy : ∀ w ∈ trainingRows (finRows X) o, ∃ gw hw, g[w]? = some gw ∧ h[w]? = some hw ∧ 0 < hw ∧ lo ≤ -gw / hw ∧ -gw / hw ≤ hi')
    (row : List (Exact K)) (p : Exact K) (hp : t.predictSingle row = .ok p) : ∃ v, p = .fin v ∧ lo ≤ v ∧ v ≤ hi' := by
  obtain ⟨path, i, l, r, h1, h2⟩ := predict_node hp
  have hs : i.samples ≠ [] := by
    by_cases hpath : path = []
    · subst hpath
      have ht : t = .node i l r := by cases t <;> simpa [Tree.sub] using h1
      rw [ht] at hb
      have := (mkInfo_samples hb).1
      rw [this, idx_eq_trainingRows]
      exact hne
    · have := (C06_exact S X o t hb path hpath i l r h1).1
      intro h0
      rw [h0] at this
      simp at this
  have key : ∀ w ∈ i.samples, 0 < h.getD w 0 ∧ lo * h.getD w 0 ≤ -g.getD w 0 ∧ -g.getD w 0 ≤ hi' * h.getD w 0 := by
    intro w hw
    obtain ⟨gw, hw', e1, e2, e3, e4, e5⟩ := hy w (node_samples hb path i l r h1 w hw)
    rw [List.getD_eq_getElem?_getD, List.getD_eq_getElem?_getD, e1, e2]
    exact ⟨e3, (le_div_iff₀ e3).1 e4, (div_le_iff₀ e3).1 e5⟩
  have hH : 0 < sumOver h i.samples := by
    unfold sumOver
    apply List.sum_pos
    · intro x hx
      obtain ⟨w, hw, rfl⟩ := List.mem_map.1 hx
      exact (key w hw).1
    · simpa using hs
  have hpos : 0 < sumOver h i.samples + lam := by linarith
  refine ⟨_, h2.symm.trans (C09_value_optimal S X o t g h lam gam hb hi path i l r h1 hpos).1, ?_, ?_⟩
  · rw [le_div_iff₀ hpos]
    have e : sumOver g i.samples ≤ -lo * sumOver h i.samples := sumOver_le_mul fun w hw => by linarith [(key w hw).2.1]
    have : lo * lam ≤ 0 := by
      rcases hlo with h0 | h0
      · exact mul_nonpos_of_nonpos_of_nonneg h0 hlam
      · rw [h0, mul_zero]
    linarith
  · rw [div_le_iff₀ hpos]
    have e : -hi' * sumOver h i.samples ≤ sumOver g i.samples := mul_le_sumOver fun w hw => by linarith [(key w hw).2.2]
    have : 0 ≤ hi' * lam := by
      rcases hhi with h0 | h0
      · exact mul_nonneg h0 hlam
      · rw [h0, mul_zero]
    linarith

end Exact

/-- **C105 is violated in binary64**: three rows with the target 0.1 are predicted as 0.10000000000000002. -/
theorem C105_violated_binary64 : ∃ t v, newTree GoSort.ins (rows64 [[1], [1], [1]]) tenthO = .ok t ∧
    t.predictSingle [.fin 1] = .ok (.fin v) ∧ ∀ c ∈ [tenth64, tenth64, tenth64], c < v := C94_exact_violated

/-- **C105 (binary64, partial)**: in binary64 the prediction of a regular tree leaves the range of the targets by at most
`2⁻⁵¹ Σ|y| + 2⁻¹⁰⁷⁵`. Missing: staying within the range, see `C105_violated_binary64`. -/
theorem C105_binary64_partial {τ : Option SumOrder} (S : GoSort) (X : List (List ℚ)) (o : TreeOptions (F64o τ)) (t : Tree (F64o τ)) (y : List ℚ)
    (hX : Apart64 (rows64 X : List (List (F64o τ)))) (hb : newTree S (rows64 X) o = .ok t) (hi : RegInput o y)
    (hr : RegRange y (trainingRows (rows64 X) o)) (hne : trainingRows (rows64 X) o ≠ []) (lo hi' : ℚ)
    (hy : ∀ w ∈ trainingRows (rows64 X) o, ∃ v, y[w]? = some v ∧ lo ≤ v ∧ v ≤ hi')
    (row : List (F64o τ)) (p : F64o τ) (hp : t.predictSingle row = .ok p) :
    ∃ v, p = .fin v ∧ lo - (2 ^ (-51 : Int) * sumAbs y (trainingRows (rows64 X) o) + 2 ^ (-1075 : Int)) ≤ v ∧
      v ≤ hi' + (2 ^ (-51 : Int) * sumAbs y (trainingRows (rows64 X) o) + 2 ^ (-1075 : Int)) := by
  obtain ⟨path, i, l, r, h1, h2⟩ := predict_node hp
  obtain ⟨h3, v, h4, h5⟩ := C94_mean S X o t y hX hb hi hr hne path i l r h1
  have hm := mean_mem (y := y) h3 (lo := lo) (hi := hi') fun w hw => by
    obtain ⟨v, e1, e2⟩ := hy w (node_samples hb path i l r h1 w hw)
    rw [List.getD_eq_getElem?_getD, e1]
    exact e2
  have hsub : i.samples.Sublist (trainingRows (rows64 X) o) := by
    obtain ⟨o', d', q1, _, _, hsub, _⟩ := newTreeD_sub S _ _ o t hb path i l r h1
    obtain ⟨hsam, _⟩ := mkInfo_samples q1
    rw [hsam, ← idx_eq_trainingRows]
    exact hsub
  have hs := sumAbs_sublist y hsub
  have h6 := abs_le.1 h5
  have h7 : (2 : ℚ) ^ (-51 : Int) * sumAbs y i.samples ≤ 2 ^ (-51 : Int) * sumAbs y (trainingRows (rows64 X) o) :=
    mul_le_mul_of_nonneg_left hs (by positivity)
  refine ⟨v, h2.symm.trans h4, ?_, ?_⟩ <;> linarith [h6.1, h6.2, hm.1, hm.2]

/-! Non-vacuity: trees with three leaves, and a row far away from the training rows -/

def rangeX : List (List ℚ) := [[0], [1], [2], [3]]
def rangeReg : TreeOptions (Exact ℚ) :=
  { (defaultGTreeOptions : TreeOptions (Exact ℚ)) with y := [.fin 2, .fin 3, .fin 5, .fin 9], minChildWeight := .fin 1, maxDepth := 2 }
def rangeXgb : TreeOptions (Exact ℚ) :=
  { (defaultXTreeOptions : TreeOptions (Exact ℚ)) with
    gradients := some [.fin 2, .fin 3, .fin (-5), .fin (-9)], hessian := some [.fin 1, .fin 1, .fin 1, .fin 2], lambda := .fin 1
    gamma := .fin 0, minChildWeight := .fin 1, maxDepth := 2 }

example : ∃ t v, newTree GoSort.ins (finRows rangeX) rangeReg = .ok t ∧ 3 ≤ t.leaves.length ∧
    t.predictSingle [.fin 1000] = .ok (.fin v) ∧ 2 ≤ v ∧ v ≤ 9 := by
  have h : (match newTree GoSort.ins (finRows rangeX) rangeReg with
    | .ok t => decide (3 ≤ t.leaves.length) && (match t.predictSingle [.fin 1000] with | .ok _ => true | .error _ => false)
    | .error _ => false) = true := by decide +kernel
  split at h
  · rename_i t ht
    simp only [Bool.and_eq_true, decide_eq_true_eq] at h
    obtain ⟨h1, h2⟩ := h
    split at h2
    · rename_i p hp
      obtain ⟨v, e1, e2⟩ := C105_regular GoSort.ins rangeX rangeReg t [2, 3, 5, 9] ht ⟨rfl, rfl⟩ (by decide) 2 9
        (by
          intro w hw
          have : w < 4 := by simpa [trainingRows, rangeReg, defaultGTreeOptions, finRows, rangeX] using hw
          match w, this with
          | 0, _ => exact ⟨2, rfl, by norm_num, by norm_num⟩
          | 1, _ => exact ⟨3, rfl, by norm_num, by norm_num⟩
          | 2, _ => exact ⟨5, rfl, by norm_num, by norm_num⟩
          | 3, _ => exact ⟨9, rfl, by norm_num, by norm_num⟩) [.fin 1000] p hp
      subst e1
      exact ⟨t, v, ht, h1, hp, e2⟩
    · cases h2
  · cases h

example : ∃ t v, newTree GoSort.ins (finRows rangeX) rangeXgb = .ok t ∧ 2 ≤ t.leaves.length ∧
    t.predictSingle [.fin 1000] = .ok (.fin v) ∧ -3 ≤ v ∧ v ≤ 5 := by
  have h : (match newTree GoSort.ins (finRows rangeX) rangeXgb with
    | .ok t => decide (2 ≤ t.leaves.length) && (match t.predictSingle [.fin 1000] with | .ok _ => true | .error _ => false)
    | .error _ => false) = true := by decide +kernel
  split at h
  · rename_i t ht
    simp only [Bool.and_eq_true, decide_eq_true_eq] at h
    obtain ⟨h1, h2⟩ := h
    split at h2
    · rename_i p hp
      obtain ⟨v, e1, e2⟩ := C105_xgb GoSort.ins rangeX rangeXgb t [2, 3, -5, -9] [1, 1, 1, 2] 1 0 ht ⟨rfl, rfl, rfl, rfl, rfl⟩ (by norm_num)
        (by decide) (-3) 5 (Or.inl (by norm_num)) (Or.inl (by norm_num))
        (by
          intro w hw
          have : w < 4 := by simpa [trainingRows, rangeXgb, defaultXTreeOptions, finRows, rangeX] using hw
          match w, this with
          | 0, _ => exact ⟨2, 1, rfl, rfl, by norm_num, by norm_num, by norm_num⟩
          | 1, _ => exact ⟨3, 1, rfl, rfl, by norm_num, by norm_num, by norm_num⟩
          | 2, _ => exact ⟨-5, 1, rfl, rfl, by norm_num, by norm_num, by norm_num⟩
          | 3, _ => exact ⟨-9, 2, rfl, rfl, by norm_num, by norm_num, by norm_num⟩) [.fin 1000] p hp
      subst e1
      exact ⟨t, v, ht, h1, hp, e2⟩
    · cases h2
  · cases h

end Boo
