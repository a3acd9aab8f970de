import Verif.Lemmas.Memorize
import Verif.Props.TrainFloat

/-!
# Regular trees without limits separate rows that differ, in float64 too
-/

namespace Boo
open GoFloat Spec
set_option linter.unusedSectionVars false

section AnyOrder

variable {τ : Option SumOrder}
/-- float64, with any order of the additions of `floats.Sum` -/
local notation "F64" => F64o τ

/-- every split makes the nodes smaller -/
theorem sub_shrink64 {S : GoSort} {X : List (List F64)} (hX : Apart64 X) {o : TreeOptions F64} {t : Tree F64}
    (h : newTree S X o = .ok t) (path : List Bool) (i : NodeInfo F64) (l r : Tree F64)
    (hp : t.sub path = .node i l r) : i.samples.length + path.length ≤ (o.idx X).length := by
  induction path using List.reverseRecOn generalizing i l r with
  | nil =>
    have ht : t = .node i l r := by cases t <;> simpa [Tree.sub] using hp
    rw [ht] at h
    rw [(mkInfo_samples h).1]
    simp
  | append_singleton path b ih =>
    have hp0 := hp
    rw [Tree.sub_append] at hp
    cases hsub : t.sub path with
    | nil => rw [hsub, sub_nil] at hp; cases hp
    | node i0 l0 r0 =>
      rw [hsub] at hp
      have h0 := ih i0 l0 r0 hsub
      obtain ⟨o', d', hb', _, _, _, _, _⟩ := newTreeD_sub S _ _ o t h path i0 l0 r0 hsub
      have hs0 := (mkInfo_samples hb').1
      obtain ⟨v, row0, _, _, _, ⟨_, h2⟩ | ⟨_, best, _, _, _, h2⟩ |
        ⟨d'', best, col, tl, tr, _, _, _, hc, h3, h4, h2⟩⟩ := newTreeD_inv _ _ _ _ _ hb'
      · cases h2
        cases b <;> simp [Tree.sub] at hp
      · cases h2
        cases b <;> simp [Tree.sub] at hp
      · cases h2
        have hperm := (goLeft_goRight_perm best.threshold col (o'.idx X) (sampleCol_length hc)).length_eq
        rw [List.length_append] at hperm
        cases htl : l0 with
        | nil => exact absurd htl (newTree_ne_nil h3)
        | node il ll lr =>
          cases htr : r0 with
          | nil => exact absurd htr (newTree_ne_nil h4)
          | node ir rl rr =>
            subst htl htr
            have e1 := (mkInfo_samples h3).1
            have e2 := (mkInfo_samples h4).1
            rw [child_idx] at e1 e2
            have g1 := (C06_binary64_partial S X o t h hX (path ++ [true]) (by simp) il ll lr (by
              rw [Tree.sub_append, hsub]; rfl)).1
            have g2 := (C06_binary64_partial S X o t h hX (path ++ [false]) (by simp) ir rl rr (by
              rw [Tree.sub_append, hsub]; rfl)).1
            rw [e1] at g1
            rw [e2] at g2
            rw [hs0] at h0
            rw [List.length_append, List.length_singleton]
            cases b
            · simp only [Tree.sub, Tree.node.injEq] at hp
              rw [← hp.1, e2]
              omega
            · simp only [Tree.sub, Tree.node.injEq] at hp
              rw [← hp.1, e1]
              omega

/-- the rows of a leaf are equal -/
theorem leaf_same64 {S : GoSort} {X : List (List ℚ)} (hX : Apart64 (rows64 X : List (List F64))) {o : TreeOptions F64} {t : Tree F64}
    {y : List ℚ} (hb : newTree S (rows64 X) o = .ok t) (hi : RegInput o y)
    (hr : RegRange y (trainingRows (rows64 X) o)) (hac : o.allowedColumns = [])
    (hmcw : toInt o.minChildWeight ≤ 1) (hrows : o.indexes = none) (hdep : (X.length : Int) ≤ o.maxDepth + 1) (w : Nat)
    (hw : ∀ row ∈ X, row.length = w) (leaf : NodeInfo F64) (hl : leaf ∈ t.leaves) (a b : Nat) (ha : a ∈ leaf.samples)
    (hb' : b ∈ leaf.samples) : X[a]? = X[b]? := by
  obtain ⟨path, hsub⟩ := leaf_path hl
  have hlen : (rows64 X : List (List F64)).length = X.length := by simp [rows64]
  have hidx : o.idx (rows64 X) = List.range X.length := by
    unfold TreeOptions.idx
    rw [hrows, hlen]
    rfl
  by_cases hd : (path.length : Int) < o.maxDepth
  · have hmem := sub_samples hb (by
      rw [hidx]
      intro v hv
      rw [hlen]
      exact List.mem_range.1 hv) path leaf _ _ hsub
    rw [hlen] at hmem
    have hal := hmem a ha
    have hbl := hmem b hb'
    have hX0 : ∃ row0, X[0]? = some row0 ∧ row0.length = w := by
      have h0 : 0 < X.length := by omega
      exact ⟨X[0], List.getElem?_eq_getElem h0, hw _ (List.getElem_mem h0)⟩
    obtain ⟨row0, hr0, hr0w⟩ := hX0
    have hval : ∀ f < w, val X a f = val X b f := by
      intro f hf
      have hno := C93_regular_leaf S X o t y hb hi hr path leaf hsub hd row0 hr0 f (by omega) (fun _ => Or.inl hac)
      have key : ∀ u v : Nat, u ∈ leaf.samples → v ∈ leaf.samples → ¬ val X u f < val X v f := by
        intro u v hu hv hlt
        refine hno (val X u f) ⟨?_, ?_⟩
        · have : u ∈ leftOf X leaf.samples f (val X u f) := by
            unfold leftOf
            rw [List.mem_filter]
            exact ⟨hu, by simp⟩
          have := List.length_pos_of_mem this
          omega
        · have : v ∈ rightOf X leaf.samples f (val X u f) := by
            unfold rightOf
            rw [List.mem_filter]
            exact ⟨hv, by simpa using hlt⟩
          have := List.length_pos_of_mem this
          omega
      exact le_antisymm (not_lt.1 (key b a hb' ha)) (not_lt.1 (key a b ha hb'))
    rw [List.getElem?_eq_getElem hal, List.getElem?_eq_getElem hbl]
    congr 1
    have l1 := hw _ (List.getElem_mem hal)
    have l2 := hw _ (List.getElem_mem hbl)
    apply List.ext_getElem (by rw [l1, l2])
    intro f h1 h2
    have := hval f (by omega)
    unfold val at this
    rw [getD_get hal, getD_get hbl, getD_get h1, getD_get h2] at this
    exact this
  · have := sub_shrink64 hX hb path leaf _ _ hsub
    rw [hidx, List.length_range] at this
    have h1 : leaf.samples.length ≤ 1 := by omega
    match hs : leaf.samples, h1 with
    | [], _ => rw [hs] at ha; simp at ha
    | [x], _ =>
      rw [hs, List.mem_singleton] at ha hb'
      rw [ha, hb']

/-! ### the value of a leaf -/

theorem rep64_of_small {x : ℚ} (h : rv x = x) (h1 : |x| ≤ 1) : Rep64 x := by
  unfold Rep64
  rw [rnd64_eq, h, if_neg]
  rw [not_le]
  exact lt_of_le_of_lt h1 (one_lt_zpow₀ (by norm_num) (by norm_num))

/-- small multiples of `a` are float64 numbers -/
def Steps64 (a : ℚ) : Prop := ∀ k : Nat, k < 2 ^ 53 → rv (k * a) = k * a

theorem steps64_zero : Steps64 0 := fun k _ => by rw [mul_zero, rv_zero]
theorem steps64_pow {e : Int} (he : -1074 ≤ e) : Steps64 (2 ^ e) := by
  intro k hk
  have := rv_grid (k : Int) e (by rw [abs_of_nonneg (by positivity)]; exact_mod_cast hk) he
  simpa using this
theorem Steps64.neg {a : ℚ} (h : Steps64 a) : Steps64 (-a) := by
  intro k hk
  rw [mul_neg, rv_neg, h k hk]

/-- a loop that adds numbers of size at most 1 -/
theorem foldl_between (l : List ℚ) (hx : ∀ x ∈ l, |x| ≤ 1) {a : ℚ} (ha : Steps64 a) :
    ∀ (j : Nat) (z s : ℚ), rv z = z → |z| ≤ j → j + l.length < 2 ^ 53 →
      (l.map XF.fin).foldl (· +. ·) (XF.fin z : F64) = .fin s →
      ((∀ x ∈ l, a ≤ x) → j * a ≤ z → (j + l.length : Nat) * a ≤ s) ∧ ((∀ x ∈ l, x ≤ a) → z ≤ j * a → s ≤ (j + l.length : Nat) * a) := by
  induction l with
  | nil =>
    intro j z s _ _ _ h
    rw [List.map_nil, List.foldl_nil] at h
    obtain rfl := fin_inj64 h
    exact ⟨fun _ h => by simpa using h, fun _ h => by simpa using h⟩
  | cons b l ih =>
    intro j z s hz hj hn h
    simp only [List.length_cons] at hn
    have hja : |z + b| ≤ ((j + 1 : Nat) : ℚ) := by
      have := hx b (by simp)
      push_cast
      exact (abs_add_le _ _).trans (by linarith)
    have hrep : rv (((j + 1 : Nat) : ℚ)) = ((j + 1 : Nat) : ℚ) := rv_nat (by omega)
    have hb : |z + b| ≤ big64 := by
      refine hja.trans (le_trans ?_ big64_large)
      have : j + 1 ≤ 2 ^ 60 := by omega
      exact_mod_cast this
    rw [List.map_cons, List.foldl_cons, add64 hb] at h
    have hg := ha (j + 1) (by omega)
    obtain ⟨i1, i2⟩ := ih (fun x hx' => hx x (by simp [hx'])) (j + 1) (rv (z + b)) s (rv_idem _) (rv_bound hrep hja) (by omega) h
    have e : j + (l.length + 1) = j + 1 + l.length := by omega
    simp only [List.length_cons, e]
    refine ⟨fun h1 h2 => i1 (fun x hx' => h1 x (by simp [hx'])) ?_, fun h1 h2 => i2 (fun x hx' => h1 x (by simp [hx'])) ?_⟩
    · rw [← hg]
      apply rv_mono
      have := h1 b (by simp)
      push_cast
      linarith
    · rw [← hg]
      apply rv_mono
      have := h1 b (by simp)
      push_cast
      linarith

theorem sumAt64 (v : List ℚ) (s : List Nat) : sumAt (v.map XF.fin : List F64) s =
    ((s.map fun i => v.getD i 0).map XF.fin).foldl (· +. ·) (XF.fin 0 : F64) := by
  unfold sumAt
  have : (s.map fun i => (v.map XF.fin : List F64).getD i zero) = (s.map fun i => v.getD i 0).map XF.fin := by
    rw [List.map_map]
    apply List.map_congr_left
    intro j _
    simp only [Function.comp_apply, List.getD_eq_getElem?_getD, List.getElem?_map]
    cases v[j]? <;> rfl
  rw [this]
  rfl

/-- With the squared error, the value of the tree of a class on a training row lies between the gradients of the rows equal to it. -/
theorem classTree_between64 {S : GoSort} {X : List (List ℚ)} (hap : Apart64 (rows64 X : List (List F64))) {O : Options F64}
    (hx : O.xgb = false) (hmcw : toInt O.minChildWeight ≤ 1) (hdep : (X.length : Int) ≤ O.maxDepth + 1) (w : Nat)
    (hw : ∀ row ∈ X, row.length = w) (hn : X.length ≤ 2 ^ 50) {y p g : List ℚ} (hpl : p.length = X.length) (hgl : g.length = X.length)
    (hgs : ∀ v ∈ g, rv v = v ∧ |v| ≤ 1) (hg : negGrad (y.map XF.fin : List F64) (p.map XF.fin) = .ok (g.map XF.fin))
    {cols : List Nat} {t : Tree F64}
    (h : classTree S (rows64 X) O sqErrLoss none cols (y.map XF.fin) (p.map XF.fin) = .ok t) (i : Nat) (hi : i < X.length)
    (row : List F64) (hrow : (rows64 X)[i]? = some row) :
    ∃ v : ℚ, t.predictSingle row = .ok (.fin v) ∧ ∀ a, Steps64 a →
      ((∀ u < X.length, X[u]? = X[i]? → a ≤ g.getD u 0) → a ≤ v) ∧ ((∀ u < X.length, X[u]? = X[i]? → g.getD u 0 ≤ a) → v ≤ a) := by
  have hlen : (rows64 X : List (List F64)).length = X.length := by simp [rows64]
  unfold classTree at h
  rw [if_neg (by rw [hx]; simp), show (sqErrLoss : LossFunc F64).negGradients = negGrad from rfl, hg] at h
  obtain ⟨g', hg', h⟩ := bind_ok h
  cases hg'
  obtain ⟨t0, h0, hu⟩ := bind_ok h
  have hperm := C03_leaves_partition S (rows64 X) _ t0 h0
  have htr : ∀ u, u ∈ t0.leaves.flatMap (·.samples) ↔ u < X.length := by
    intro u
    rw [hperm.mem_iff]
    unfold trainingRows
    simp [defaultGTreeOptions, hlen]
  obtain ⟨leaf, hl, hil⟩ := List.mem_flatMap.1 ((htr i).2 hi)
  have hmem : ∀ u ∈ leaf.samples, u < X.length := fun u hu => (htr u).1 (List.mem_flatMap.2 ⟨leaf, hl, hu⟩)
  have hr := reach_training_row S (rows64 X) _ t0 h0 leaf hl i hil row hrow
  have hp := reach_updateLeaves hu hr
  have hne : leaf.samples ≠ [] := List.ne_nil_of_mem hil
  have hrange : RegRange g (trainingRows (rows64 X) { (defaultGTreeOptions : TreeOptions F64) with
        scratch := some (rows64 X : List (List F64)).length, minChildWeight := O.minChildWeight, maxDepth := O.maxDepth,
        y := g.map XF.fin, gradients := none, hessian := none }) := by
    have htrain : trainingRows (rows64 X) { (defaultGTreeOptions : TreeOptions F64) with
        scratch := some (rows64 X : List (List F64)).length, minChildWeight := O.minChildWeight, maxDepth := O.maxDepth,
        y := g.map XF.fin, gradients := none, hessian := none } = List.range (rows64 X : List (List F64)).length := rfl
    rw [htrain, hlen]
    refine ⟨fun v hv => rep64_of_small (hgs v hv).1 (hgs v hv).2, by simpa using hn, ?_⟩
    have h1 : sumAbs g (List.range X.length) ≤ X.length := by
      unfold sumAbs
      have := List.sum_le_card_nsmul ((List.range X.length).map fun i => |g.getD i 0|) 1 (by
        intro x hx
        obtain ⟨i, hi, rfl⟩ := List.mem_map.1 hx
        rw [getD_get (by rw [hgl]; exact List.mem_range.1 hi)]
        exact (hgs _ (List.getElem_mem _)).2)
      simpa using this
    have h2 : (X.length : ℚ) ≤ 2 ^ (50 : Int) := by exact_mod_cast hn
    exact h1.trans (h2.trans (zpow_le_zpow_right₀ (by norm_num) (by norm_num)))
  have hsame : ∀ u ∈ leaf.samples, X[u]? = X[i]? := fun u hu =>
    leaf_same64 hap h0 ⟨rfl, rfl⟩ hrange rfl hmcw rfl hdep w hw leaf hl u i hu hil
  have hslen : leaf.samples.length ≤ X.length := by
    obtain ⟨path, hsub⟩ := leaf_path hl
    have := sub_shrink64 hap h0 path leaf _ _ hsub
    have hidx : TreeOptions.idx { (defaultGTreeOptions : TreeOptions F64) with
        scratch := some (rows64 X : List (List F64)).length, minChildWeight := O.minChildWeight, maxDepth := O.maxDepth,
        y := g.map XF.fin, gradients := none, hessian := none } (rows64 X) = List.range (rows64 X : List (List F64)).length := rfl
    rw [hidx, List.length_range, hlen] at this
    omega
  have hpos : 0 < leaf.samples.length := List.length_pos_iff.2 hne
  have hgs' : ∀ x ∈ leaf.samples.map fun i => g.getD i 0, rv x = x ∧ |x| ≤ 1 :=
    getD_small (P := fun x => rv x = x ∧ |x| ≤ 1) hgs (fun u hu => by rw [hgl]; exact hmem u hu)
  obtain ⟨G, f1, f2, f3, _⟩ := foldl_smallSum (τ := τ) _ (fun x hx => (hgs' x hx).1) (fun x hx => (hgs' x hx).2) (by rw [List.length_map]; omega)
  rw [List.length_map] at f3
  simp only at f1
  have hH : (sqErrLoss : LossFunc F64).hessian (p.map XF.fin) = (p.map fun _ => (1 : ℚ)).map XF.fin := by
    show (p.map XF.fin).map (fun _ => (one : F64)) = _
    rw [List.map_map, List.map_map]
    apply List.map_congr_left
    intro v _
    exact one64
  have hH2 : sumAt ((p.map fun _ => (1 : ℚ)).map XF.fin : List F64) leaf.samples = .fin (leaf.samples.length : ℚ) := by
    rw [sumAt64]
    have := foldl_ones (τ := τ) (leaf.samples.map fun i => (p.map fun _ => (1 : ℚ)).getD i 0) (by
      intro x hx
      obtain ⟨u, hu, rfl⟩ := List.mem_map.1 hx
      have := hmem u hu
      rw [getD_get (by simpa [hpl] using this), List.getElem_map]) 0 (by rw [List.length_map]; omega)
    rw [Nat.cast_zero, List.length_map, Nat.zero_add] at this
    exact this
  have hNpos : (0 : ℚ) < leaf.samples.length := by exact_mod_cast hpos
  rw [hH, hH2, sumAt64, f1, div64 hNpos.ne'] at hp
  · refine ⟨_, hp, ?_⟩
    intro a ha
    obtain ⟨b1, b2⟩ := foldl_between (τ := τ) _ (fun x hx => (hgs' x hx).2) ha 0 0 G rv_zero (by simp) (by rw [List.length_map]; omega) f1
    rw [List.length_map, Nat.zero_add] at b1 b2
    have ha1 : rv a = a := by simpa using ha 1 (by norm_num)
    refine ⟨fun hall => ?_, fun hall => ?_⟩
    · rw [← ha1]
      apply rv_mono
      rw [le_div_iff₀ hNpos, mul_comm]
      refine b1 ?_ (by simp)
      intro x hx
      obtain ⟨u, hu, rfl⟩ := List.mem_map.1 hx
      exact hall u (hmem u hu) (hsame u hu)
    · rw [← ha1]
      apply rv_mono
      rw [div_le_iff₀ hNpos, mul_comm]
      refine b2 ?_ (by simp)
      intro x hx
      obtain ⟨u, hu, rfl⟩ := List.mem_map.1 hx
      exact hall u (hmem u hu) (hsame u hu)
  · rw [abs_div, abs_of_pos hNpos, div_le_iff₀ hNpos]
    have := big64_one
    nlinarith

/-! ### one step of a score -/

/-- a step in the direction of the tree, and a step that is not lost to rounding -/
theorem step_dir64 {x v lr : ℚ} (hx : rv x = x) (hx1 : |x| + lr ≤ 700) (hv : |v| ≤ 1) (hlr : 2 ^ (-30 : ℤ) ≤ lr) :
    ∃ z, (XF.fin x : F64) +. ((XF.fin v : F64) *. .fin lr) = .fin z ∧ (0 ≤ v → x ≤ z) ∧ (v ≤ 0 → z ≤ x) ∧
      (2 ^ (-11 : ℤ) ≤ v → x + 2 ^ (-42 : ℤ) ≤ z) ∧ (v ≤ -2 ^ (-11 : ℤ) → z + 2 ^ (-42 : ℤ) ≤ x) := by
  have hl0 : (0 : ℚ) < lr := lt_of_lt_of_le (by positivity) hlr
  have hu := u64_pos
  have hule := u64_le
  have heu : eta64 ≤ u64 := by
    rw [eta64_def, u64_def]
    exact zpow_le_zpow_right₀ (by norm_num) (by norm_num)
  have hx0 := abs_nonneg x
  have hvl : |v * lr| ≤ lr := by
    rw [abs_mul, abs_of_pos hl0]
    nlinarith [abs_nonneg v]
  have hbig : (2000 : ℚ) ≤ big64 := le_trans (by norm_num) big64_large
  have h1 : |rv (v * lr)| ≤ lr + (u64 * 700 + u64) := by
    have := abs_le_of_near (rv_err (v * lr)) hvl
    have h2 : u64 * |v * lr| ≤ u64 * 700 := mul_le_mul_of_nonneg_left (by linarith) hu.le
    linarith
  have h2 : |x + rv (v * lr)| ≤ 701 := (abs_add_le _ _).trans (by linarith)
  have herr : |rv (x + rv (v * lr)) - (x + rv (v * lr))| ≤ u64 * 701 :=
    (rv_add_err hx (rv_idem _)).trans (mul_le_mul_of_nonneg_left h2 hu.le)
  have hnum : u64 * 701 ≤ 2 ^ (-43 : ℤ) := by rw [u64_def]; norm_num
  have h43 : (2 : ℚ) ^ (-41 : ℤ) = 2 ^ (-42 : ℤ) + 2 ^ (-43 : ℤ) + 2 ^ (-43 : ℤ) := by norm_num
  have h430 : (0 : ℚ) < 2 ^ (-43 : ℤ) := by positivity
  have hstep : ∀ v : ℚ, 2 ^ (-11 : ℤ) ≤ v → 2 ^ (-41 : ℤ) ≤ rv (v * lr) := by
    intro v hv
    rw [← rv_pow (-41) (by norm_num)]
    apply rv_mono
    rw [show (2 : ℚ) ^ (-41 : ℤ) = 2 ^ (-11 : ℤ) * 2 ^ (-30 : ℤ) by rw [← zpow_add₀ (by norm_num)]; norm_num]
    exact mul_le_mul hv hlr (by positivity) (le_trans (by positivity) hv)
  rw [abs_le] at herr
  refine ⟨rv (x + rv (v * lr)), by rw [mul64 (by linarith), add64 (by linarith)], ?_, ?_, ?_, ?_⟩
  · intro h0
    rw [← hx]
    apply rv_mono
    rw [hx]
    have := rv_nonneg (mul_nonneg h0 hl0.le)
    linarith
  · intro h0
    have := rv_nonneg (mul_nonneg (neg_nonneg.2 h0) hl0.le)
    rw [neg_mul, rv_neg] at this
    have h3 := rv_mono (show x + rv (v * lr) ≤ x by linarith)
    rwa [hx] at h3
  · intro h0
    have := hstep v h0
    linarith [herr.1]
  · intro h0
    have := hstep (-v) (by linarith)
    rw [neg_mul, rv_neg] at this
    linarith [herr.2]

/-! ### the probabilities of the training rows -/

theorem probs_near64 {exp : F64 → F64} (hexp : ExpFloat exp) {n m : Nat} {st : TrainState F64} {B : Nat → ℚ} (hi : TInv exp n m st)
    (hr : ∀ i < n, RowWithin B (st.rawPred.row i)) (hB : ∀ j, B j ≤ 700) (hn : 0 < n) (hm : m ≤ 1024)
    {k : Nat} (hk : k < m) {p : List ℚ} (hp : denseCol st.probs k = .ok (p.map XF.fin)) (i : Nat) (hin : i < n) :
    ∃ (r : List ℚ) (x : ℚ), st.rawPred.row i = r.map XF.fin ∧ r.length = m ∧ r[k]? = some x ∧
      |((p.getD i 0 : ℚ) : ℝ) - prob r x| ≤ 2 ^ (-20 : ℤ) := by
  obtain ⟨l, h1, h2, h3⟩ := denseCol_spec hi.probsWF (by rw [hi.probsR]; exact hn) (col := k) (by rw [hi.probsC]; exact hk)
  rw [h1] at hp
  obtain rfl : l = p.map XF.fin := Except.ok.inj hp
  obtain ⟨r, hr1, hr2⟩ := within_list (P := fun x => |x| ≤ 700) (l := st.rawPred.row i) (by
    intro v hv
    obtain ⟨j, hj⟩ := List.getElem?_of_mem hv
    obtain ⟨x, a, _, b⟩ := hr i hin j v hj
    exact ⟨x, a, b.trans (hB j)⟩)
  have hl : (st.rawPred.row i).length = m := by
    rw [Dense.row_length hi.rawWF (by rw [hi.rawR]; exact hin), hi.rawC]
  have hl' : r.length = m := by rw [← hl, hr1]; simp
  have hsoft := hi.soft i hin
  have hrne : r ≠ [] := by rintro rfl; simp at hl'; omega
  obtain ⟨q, q1, q2, _, q4, _⟩ := C96_softmax exp hexp r hrne hr2 (by omega)
  rw [hr1, q1] at hsoft
  have hrow := (Except.ok.inj hsoft).symm
  have hkr : k < r.length := by omega
  refine ⟨r, r[k], hr1, hl', List.getElem?_eq_getElem hkr, ?_⟩
  have hpi := h3 i (by rw [hi.probsR]; exact hin)
  rw [← Dense.row_get (by rw [hi.probsR]; exact hin) (by rw [hi.probsC]; exact hk), hrow, List.getElem?_map, List.getElem?_map] at hpi
  have hkq : k < q.length := by omega
  rw [List.getElem?_eq_getElem hkq] at hpi
  have hpq : p.getD i 0 = q[k] := by
    rw [List.getD_eq_getElem?_getD]
    cases hc : p[i]? with
    | none => rw [hc] at hpi; cases hpi
    | some z =>
      rw [hc] at hpi
      simp only [Option.map_some, Option.some.injEq] at hpi
      exact fin_inj64 hpi
  rw [hpq]
  refine (q4 k _ _ (List.getElem?_eq_getElem hkr) (List.getElem?_eq_getElem hkq)).trans ?_
  have hpr : prob r r[k] ≤ 1 := by
    unfold prob
    rw [div_le_one (sumExp_pos hrne)]
    refine List.single_le_sum ?_ _ (List.mem_map_of_mem (List.getElem_mem hkr))
    intro y hy
    obtain ⟨z, _, rfl⟩ := List.mem_map.1 hy
    exact (Real.exp_pos _).le
  have hml : (r.length : ℝ) ≤ 1024 := by rw [hl']; exact_mod_cast hm
  have e1 : (3 * (r.length : ℝ) + 8) * 2 ^ (-53 : ℤ) * prob r r[k] ≤ 2 ^ (-21 : ℤ) := by
    have : (3 * (r.length : ℝ) + 8) * 2 ^ (-53 : ℤ) ≤ 2 ^ (-21 : ℤ) := by
      have h4 : (3 * (r.length : ℝ) + 8) * 2 ^ (-53 : ℤ) ≤ 3080 * 2 ^ (-53 : ℤ) :=
        mul_le_mul_of_nonneg_right (by linarith) (by positivity)
      refine h4.trans ?_
      norm_num
    calc _ ≤ (3 * (r.length : ℝ) + 8) * 2 ^ (-53 : ℤ) * 1 := mul_le_mul_of_nonneg_left hpr (by positivity)
      _ ≤ _ := by rw [mul_one]; exact this
  have e2 : (2 : ℝ) ^ (-1075 : ℤ) ≤ 2 ^ (-21 : ℤ) := zpow_le_zpow_right₀ (by norm_num) (by norm_num)
  have e3 : (2 : ℝ) ^ (-20 : ℤ) = 2 ^ (-21 : ℤ) + 2 ^ (-21 : ℤ) := by norm_num
  linarith

/-- two equal scores: neither has more than half of the probability -/
theorem prob_half {r : List ℚ} {x : ℚ} {j k : Nat} (hjk : j ≠ k) (hj : r[j]? = some x) (hk : r[k]? = some x) : prob r x ≤ 1 / 2 := by
  have hne : r ≠ [] := by rintro rfl; simp at hj
  unfold prob
  rw [div_le_iff₀ (sumExp_pos hne)]
  have key : ∀ (r : List ℚ) (j k : Nat), j < k → r[j]? = some x → r[k]? = some x →
      2 * Real.exp (x : ℝ) ≤ (r.map fun z : ℚ => Real.exp (z : ℝ)).sum := by
    intro r
    induction r with
    | nil => intro j k _ h; simp at h
    | cons a r ih =>
      intro j k hlt hj hk
      rw [List.map_cons, List.sum_cons]
      obtain ⟨k, rfl⟩ : ∃ k', k = k' + 1 := ⟨k - 1, by omega⟩
      rw [List.getElem?_cons_succ] at hk
      cases j with
      | zero =>
        rw [List.getElem?_cons_zero, Option.some.injEq] at hj
        subst hj
        have := List.single_le_sum (l := r.map fun z : ℚ => Real.exp (z : ℝ)) (by
          intro y hy
          obtain ⟨z, _, rfl⟩ := List.mem_map.1 hy
          exact (Real.exp_pos _).le) _ (List.mem_map_of_mem (List.mem_of_getElem? hk))
        linarith
      | succ j =>
        rw [List.getElem?_cons_succ] at hj
        have := ih j k (by omega) hj hk
        have := Real.exp_pos (a : ℝ)
        linarith
  rcases Nat.lt_or_gt_of_ne hjk with h | h
  · have := key r j k h hj hk
    linarith
  · have := key r k j h hk hj
    linarith

/-- the largest of `m` scores has at least the `m`-th part of the probability -/
theorem prob_ge {r : List ℚ} {x : ℚ} (hne : r ≠ []) (h : ∀ z ∈ r, z ≤ x) : 1 / (r.length : ℝ) ≤ prob r x := by
  unfold prob
  have hl : (0 : ℝ) < r.length := by exact_mod_cast List.length_pos_iff.2 hne
  rw [div_le_div_iff₀ hl (sumExp_pos hne), one_mul]
  have := List.sum_le_card_nsmul (r.map fun z : ℚ => Real.exp (z : ℝ)) (Real.exp x) (by
    intro y hy
    obtain ⟨z, hz, rfl⟩ := List.mem_map.1 hy
    exact Real.exp_le_exp.2 (by exact_mod_cast h z hz))
  rw [List.length_map, nsmul_eq_mul] at this
  linarith

/-! ### the training loops -/

/-- After `r k` rounds of class `k`: the score of the class of a row is at least the base score, the others are at most the base
score, the score of a class that was not trained is the base score, and once one of the two was trained, the score of another class
is below the score of the class of the row by at least `2⁻⁴²`. -/
def Learn64 (n m : Nat) (c : Nat → Nat) (base : ℚ) (r : Nat → Nat) (st : TrainState F64) : Prop :=
  ∀ i < n, ∃ x : Nat → ℚ, (∀ k < m, (st.rawPred.row i)[k]? = some (XF.fin (x k))) ∧ base ≤ x (c i) ∧
    (∀ k < m, k ≠ c i → x k ≤ base) ∧ (∀ k < m, r k = 0 → x k = base) ∧
    ∀ k < m, k ≠ c i → (0 < r k ∨ 0 < r (c i)) → x k + 2 ^ (-42 : ℤ) ≤ x (c i)

/-- what the theorem needs besides `FloatSetup` -/
structure LearnSetup64 (X : List (List ℚ)) (O : Options F64) (ohe : Dense F64) (n m : Nat) (c : Nat → Nat) (lr : ℚ) : Prop where
  apart : Apart64 (rows64 X : List (List F64))
  lrLow : 2 ^ (-30 : ℤ) ≤ lr
  xgb : O.xgb = false
  mcw : toInt O.minChildWeight ≤ 1
  dep : (n : Int) ≤ O.maxDepth + 1
  wid : ∃ w, ∀ row ∈ X, row.length = w
  rows : n ≤ 2 ^ 50
  cons : ∀ a b, a < n → b < n → X[a]? = X[b]? → c a = c b
  cls : ∀ i < n, c i < m
  ohe : ∀ k y, k < m → denseCol ohe k = .ok y → ∃ y' : List ℚ, y = y'.map XF.fin ∧ y'.length = n ∧
    ∀ i < n, y'.getD i 0 = if c i = k then 1 else 0
  loss : ∀ lv, O.loss = some lv → lv.fn = sqErrLoss

theorem ClassStep.learn64 {exp : F64 → F64} (hexp : ExpFloat exp) {S : GoSort} {X : List (List ℚ)} {O : Options F64} {ohe : Dense F64}
    {n m : Nat} {lr lam : ℚ} (hs : FloatSetup (rows64 X) O ohe n m lr lam 1) {c : Nat → Nat} {base : ℚ}
    (hL : LearnSetup64 X O ohe n m c lr) {cols : List Nat} {round : Nat} {st st' : TrainState F64} {k : Nat} {tree : Tree F64}
    {B : Nat → ℚ} (s : ClassStep exp S (rows64 X) O ohe none cols round st st' k tree) (hi : TInv exp n m st)
    (hr : ∀ i < n, RowWithin B (st.rawPred.row i)) (hB : ∀ j, B j ≤ 700) (hk : k < m) (hroom : B k + lr ≤ 700)
    {r : Nat → Nat} (h : Learn64 n m c base r st) : Learn64 n m c base (Function.update r k (r k + 1)) st' := by
  obtain ⟨y, hy, hyl, hyv⟩ := hL.ohe k _ hk s.hy
  have hylab : ∀ v ∈ y, v = 0 ∨ v = 1 := by
    intro v hv
    obtain ⟨i, hi'⟩ := List.getElem?_of_mem hv
    obtain ⟨hlt, he⟩ := List.getElem?_eq_some_iff.1 hi'
    have := hyv i (by omega)
    rw [getD_get hlt, he] at this
    rw [this]
    split <;> simp
  obtain ⟨p, hp, hpl, hpv⟩ := probs_col64 hexp hi hr hB hs.pos hs.classes hk s.hp
  have hpcol := s.hp
  rw [hp] at hpcol
  have hyp : LabelsProbs y p := ⟨by omega, hylab, hpv⟩
  have hXl : X.length = n := by rw [← hs.len]; simp [rows64]
  -- the gradients
  have hpm : ∀ i < n, rv (p.getD i 0) = p.getD i 0 ∧ 0 ≤ p.getD i 0 ∧ p.getD i 0 ≤ 1 := by
    intro i hin
    rw [getD_get (by omega)]
    exact hpv _ (List.getElem_mem _)
  obtain ⟨g, hgl, hgs, hng, _⟩ := grads_small (τ := τ) hyp
  have hgv : ∀ i < n, g.getD i 0 = rv ((if c i = k then 1 else 0) - p.getD i 0) := by
    intro i hin
    have hsub : (XF.fin (y.getD i 0) : F64) -. .fin (p.getD i 0) = .fin (rv (y.getD i 0 - p.getD i 0)) := by
      rw [sub64]
      have h1 := hpm i hin
      have h2 : y.getD i 0 = 0 ∨ y.getD i 0 = 1 := by rw [getD_get (by omega)]; exact hylab _ (List.getElem_mem _)
      have h3 : |y.getD i 0 - p.getD i 0| ≤ 1 := by
        rw [abs_le]
        rcases h2 with h2 | h2 <;> rw [h2] <;> constructor <;> linarith [h1.2.1, h1.2.2]
      exact h3.trans big64_one
    have hng' := hng
    unfold negGrad subV at hng'
    rw [if_neg (by simp [hyp.len])] at hng'
    have hge := congrArg (fun l : List F64 => l[i]?) (Except.ok.inj hng')
    have hyi : y[i]? = some (y.getD i 0) := by
      rw [getD_get (show i < y.length by omega)]
      exact List.getElem?_eq_getElem _
    have hpi : p[i]? = some (p.getD i 0) := by
      rw [getD_get (show i < p.length by omega)]
      exact List.getElem?_eq_getElem _
    have hgi : g[i]? = some (g.getD i 0) := by
      rw [getD_get (show i < g.length by omega)]
      exact List.getElem?_eq_getElem _
    simp only [List.getElem?_zipWith, List.getElem?_map, hyi, hpi, hgi, Option.map_some, Option.some.injEq] at hge
    rw [hsub] at hge
    rw [← fin_inj64 hge, hyv i hin]
  have ht := s.htree
  rw [hy, hp, hL.loss _ s.hlv] at ht
  obtain ⟨w, hw⟩ := hL.wid
  obtain ⟨_, _, _, h4⟩ := s.inv hi hs.len hk
  have hrow : ∀ i < n, ∃ row, (rows64 X : List (List F64))[i]? = some row := fun i hin =>
    ⟨_, List.getElem?_eq_getElem (by rw [hs.len]; exact hin)⟩
  intro i hin
  obtain ⟨row, hrow⟩ := hrow i hin
  obtain ⟨x, x1, x2, x3, x4, x5⟩ := h i hin
  obtain ⟨v, v1, v2⟩ := classTree_between64 hL.apart hL.xgb hL.mcw (by rw [hXl]; exact hL.dep) w hw (by rw [hXl]; exact hL.rows)
    (by rw [hpl, hXl]) (by rw [hgl, hpl, hXl]) hgs hng ht i (by rw [hXl]; exact hin) row hrow
  obtain ⟨w', d, e1, e2, e3⟩ := h4 i row hrow
  rw [v1] at e1
  obtain rfl := Except.ok.inj e1
  rw [x1 k hk] at e2
  obtain rfl := Option.some.inj e2
  have hcim := hL.cls i hin
  have hcsame : ∀ u < X.length, X[u]? = X[i]? → c u = c i := fun u hu he => hL.cons u i (by omega) hin he
  -- the sizes
  obtain ⟨xk, q1, q2, q3⟩ := hr i hin k _ (x1 k hk)
  obtain rfl := fin_inj64 q1
  have hvb : |v| ≤ 1 := by
    have hone : Steps64 1 := fun j hj => by rw [mul_one]; exact rv_nat hj
    have hg1 : ∀ u < X.length, |g.getD u 0| ≤ 1 := by
      intro u hu
      rw [getD_get (by omega)]
      exact (hgs _ (List.getElem_mem _)).2
    rw [abs_le]
    exact ⟨(v2 (-1) hone.neg).1 fun u hu _ => (abs_le.1 (hg1 u hu)).1, (v2 1 hone).2 fun u hu _ => (abs_le.1 (hg1 u hu)).2⟩
  obtain ⟨z, z0, z1, z2, z3, z4⟩ := step_dir64 (τ := τ) q2 (by linarith) hvb hL.lrLow
  have hz : st'.rawPred.row i = (st.rawPred.row i).set k (XF.fin z) := by
    rw [e3, hs.opts.lrEq, z0]
  have hkl : k < (st.rawPred.row i).length := (List.getElem?_eq_some_iff.1 (x1 k hk)).1
  -- the signs
  have hpos : c i = k → 0 ≤ v := by
    intro hc
    refine (v2 0 steps64_zero).1 fun u hu he => ?_
    rw [hgv u (by omega), if_pos ((hcsame u hu he).trans hc)]
    exact rv_nonneg (by linarith [(hpm u (by omega)).2.2])
  have hneg : c i ≠ k → v ≤ 0 := by
    intro hc
    refine (v2 0 steps64_zero).2 fun u hu he => ?_
    rw [hgv u (by omega), if_neg (by rw [hcsame u hu he]; exact hc), zero_sub, rv_neg, (hpm u (by omega)).1]
    linarith [(hpm u (by omega)).2.1]
  -- the first step
  have hfirst : c i = k → r k = 0 → ∀ j < m, j ≠ k → r j = 0 → 2 ^ (-11 : ℤ) ≤ v := by
    intro hc hrk j hj hjk hrj
    refine (v2 _ (steps64_pow (by norm_num))).1 fun u hu he => ?_
    have hun : u < n := by omega
    have hcu := (hcsame u hu he).trans hc
    obtain ⟨rr, xx, a1, a2, a3, a4⟩ := probs_near64 hexp hi hr hB hs.pos hs.classes hk hpcol u hun
    obtain ⟨xu, b1, _, _, b4, _⟩ := h u hun
    have hget : ∀ j < m, rr[j]? = some (xu j) := by
      intro j hj
      have := b1 j hj
      rw [a1, List.getElem?_map] at this
      cases hc : rr[j]? with
      | none => rw [hc] at this; cases this
      | some z =>
        rw [hc] at this
        simp only [Option.map_some, Option.some.injEq] at this
        rw [fin_inj64 this]
    have hxx : xx = base := by
      have := hget k hk
      rw [a3, b4 k hk hrk] at this
      exact Option.some.inj this
    have hjb := hget j hj
    rw [b4 j hj hrj] at hjb
    rw [hxx] at a3 a4
    have hhalf := prob_half hjk hjb a3
    rw [hgv u hun, if_pos hcu, ← rv_pow (-11) (by norm_num)]
    apply rv_mono
    rw [show (2 : ℝ) ^ (-20 : ℤ) = 1 / 1048576 by norm_num] at a4
    have hle : ((p.getD u 0 : ℚ) : ℝ) ≤ ((2047 / 2048 : ℚ) : ℝ) := by
      have := (abs_le.1 a4).2
      push_cast
      linarith
    have hle' : p.getD u 0 ≤ 2047 / 2048 := Rat.cast_le.1 hle
    rw [show (2 : ℚ) ^ (-11 : ℤ) = 1 / 2048 by norm_num]
    linarith
  have hfirst' : c i ≠ k → r k = 0 → r (c i) = 0 → v ≤ -2 ^ (-11 : ℤ) := by
    intro hc hrk hrc
    refine (v2 _ (steps64_pow (by norm_num)).neg).2 fun u hu he => ?_
    have hun : u < n := by omega
    have hcu := hcsame u hu he
    obtain ⟨rr, xx, a1, a2, a3, a4⟩ := probs_near64 hexp hi hr hB hs.pos hs.classes hk hpcol u hun
    obtain ⟨xu, b1, _, b3, b4, _⟩ := h u hun
    have hget : ∀ j < m, rr[j]? = some (xu j) := by
      intro j hj
      have := b1 j hj
      rw [a1, List.getElem?_map] at this
      cases hc : rr[j]? with
      | none => rw [hc] at this; cases this
      | some z =>
        rw [hc] at this
        simp only [Option.map_some, Option.some.injEq] at this
        rw [fin_inj64 this]
    have hxx : xx = base := by
      have := hget k hk
      rw [a3, b4 k hk hrk] at this
      exact Option.some.inj this
    rw [hxx] at a3 a4
    have hall : ∀ z ∈ rr, z ≤ base := by
      intro z hz
      obtain ⟨j, hj⟩ := List.getElem?_of_mem hz
      have hjm : j < m := by rw [← a2]; exact (List.getElem?_eq_some_iff.1 hj).1
      rw [hget j hjm] at hj
      obtain rfl := Option.some.inj hj
      by_cases hjc : j = c u
      · rw [hjc, b4 (c u) (hL.cls u hun) (by rw [hcu]; exact hrc)]
      · exact b3 j hjm hjc
    have hge := prob_ge (r := rr) (by rintro rfl; simp at a3) hall
    have hml : (rr.length : ℝ) ≤ 1024 := by rw [a2]; exact_mod_cast hs.classes
    have hm0 : (0 : ℝ) < rr.length := by rw [a2]; exact_mod_cast (by omega : 0 < m)
    have hge2 : (1 : ℝ) / 1024 ≤ 1 / (rr.length : ℝ) := one_div_le_one_div_of_le hm0 hml
    rw [hgv u hun, if_neg (by rw [hcu]; exact hc), zero_sub, rv_neg, (hpm u hun).1]
    rw [show (2 : ℝ) ^ (-20 : ℤ) = 1 / 1048576 by norm_num] at a4
    have hle : ((1 / 2048 : ℚ) : ℝ) ≤ ((p.getD u 0 : ℚ) : ℝ) := by
      have := (abs_le.1 a4).1
      push_cast
      linarith
    have hle' : 1 / 2048 ≤ p.getD u 0 := Rat.cast_le.1 hle
    rw [show (2 : ℚ) ^ (-11 : ℤ) = 1 / 2048 by norm_num]
    linarith
  -- the scores after the step
  refine ⟨Function.update x k z, ?_, ?_, ?_, ?_, ?_⟩
  · intro j hj
    rw [hz]
    by_cases hjk : j = k
    · subst hjk
      rw [List.getElem?_set_self hkl, Function.update_self]
    · rw [List.getElem?_set_ne (Ne.symm hjk), Function.update_of_ne hjk]
      exact x1 j hj
  · by_cases hc : c i = k
    · rw [hc, Function.update_self]
      rw [hc] at x2
      exact x2.trans (z1 (hpos hc))
    · rw [Function.update_of_ne hc]
      exact x2
  · intro j hj hjc
    by_cases hjk : j = k
    · subst hjk
      rw [Function.update_self]
      exact (z2 (hneg (Ne.symm hjc))).trans (x3 j hj hjc)
    · rw [Function.update_of_ne hjk]
      exact x3 j hj hjc
  · intro j hj hrj
    by_cases hjk : j = k
    · subst hjk
      rw [Function.update_self] at hrj
      omega
    · rw [Function.update_of_ne hjk] at hrj ⊢
      exact x4 j hj hrj
  · intro j hj hjc hdone
    by_cases hjk : j = k
    · subst hjk
      rw [Function.update_self, Function.update_of_ne (Ne.symm hjc)]
      by_cases hprev : 0 < r j ∨ 0 < r (c i)
      · have a := x5 j hj hjc hprev
        have b := z2 (hneg (Ne.symm hjc))
        linarith
      · have e1 : r j = 0 := by omega
        have e2 : r (c i) = 0 := by omega
        have a := z4 (hfirst' (Ne.symm hjc) e1 e2)
        rw [x4 j hj e1] at a
        rw [x4 _ hcim e2]
        exact a
    · rw [Function.update_of_ne hjk] at hdone ⊢
      by_cases hc : c i = k
      · subst hc
        rw [Function.update_self]
        by_cases hprev : 0 < r j ∨ 0 < r (c i)
        · have a := x5 j hj hjc hprev
          have b := z1 (hpos rfl)
          linarith
        · have e1 : r j = 0 := by omega
          have e2 : r (c i) = 0 := by omega
          have a := z3 (hfirst rfl e2 j hj hjk e1)
          rw [x4 _ hcim e2] at a
          rw [x4 j hj e1]
          exact a
      · rw [Function.update_of_ne hc] at hdone ⊢
        exact x5 j hj hjc hdone

theorem Learn64.congr {n m : Nat} {c : Nat → Nat} {base : ℚ} {r r' : Nat → Nat} {st st' : TrainState F64}
    (h : Learn64 n m c base r st) (hc : ∀ i < n, c i < m) (hr : ∀ k < m, r' k = r k) (hst : st'.rawPred = st.rawPred) :
    Learn64 n m c base r' st' := by
  intro i hi
  obtain ⟨x, x1, x2, x3, x4, x5⟩ := h i hi
  refine ⟨x, by rw [hst]; exact x1, x2, x3, fun k hk hz => x4 k hk (by rw [← hr k hk]; exact hz), fun k hk hkc hd => x5 k hk hkc ?_⟩
  rw [← hr k hk, ← hr _ (hc i hi)]
  exact hd

theorem trainClasses_learn64 {exp : F64 → F64} (hexp : ExpFloat exp) {S : GoSort} {X : List (List ℚ)} {O : Options F64}
    {ohe : Dense F64} {n m : Nat} {lr lam : ℚ} (hs : FloatSetup (rows64 X) O ohe n m lr lam 1) {c : Nat → Nat} {base : ℚ}
    (hL : LearnSetup64 X O ohe n m c lr) (he : O.earlyStop ≤ 0) {cols : List Nat} {round : Nat} {b : ℚ}
    (hroom : b + (|lr| * 1 + 2 ^ (-40 : ℤ)) ≤ 700) (q : Nat) (hq : q ≤ m) (st : TrainState F64)
    (acc' : TrainState F64 × List (Tree F64))
    (h : (List.range q).foldlM (trainClass (softMaxDense exp) S (rows64 X) O ohe none cols round) (st, []) = .ok acc')
    (hi : TInv exp n m st) (hr : ∀ i < n, RowWithin (fun _ => b) (st.rawPred.row i)) (hst : ∀ k, st.stopped.getD k false = false)
    {R : Nat} (hsep : Learn64 n m c base (fun _ => R) st) :
    Learn64 n m c base (fun k => if k < q then R + 1 else R) acc'.1 := by
  have hl0 : (0 : ℚ) < lr := lt_of_lt_of_le (by positivity) hL.lrLow
  have h40 : (0 : ℚ) < 2 ^ (-40 : ℤ) := by positivity
  have habs : |lr| = lr := abs_of_pos hl0
  have hidx : IdxOk64 (rows64 X) O lam none := ⟨(fun l h => by cases h), Or.inr ⟨hL.apart, by simp⟩⟩
  induction q generalizing acc' with
  | zero =>
    simp only [List.range_zero, List.foldlM_nil, pure, Except.pure, Except.ok.injEq] at h
    subst h
    exact hsep.congr hL.cls (by simp) rfl
  | succ q ih =>
    rw [List.range_succ, List.foldlM_append] at h
    obtain ⟨acc, h1, h2⟩ := bind_ok h
    rw [List.foldlM_cons] at h2
    obtain ⟨acc'', h3, h4⟩ := bind_ok h2
    simp only [List.foldlM_nil, pure, Except.pure, Except.ok.injEq] at h4
    subst h4
    obtain ⟨a1, _⟩ := trainClasses_inv hs.len q (by omega) st acc h1 hi
    obtain ⟨b1, _⟩ := trainClasses_float hexp hs hidx hroom q (by omega) st acc h1 hi hr
    obtain ⟨_, c2⟩ := trainClasses_off he q st acc hst h1
    have hb := ih (by omega) acc h1
    rcases trainClass_inv h3 with ⟨hstop, rfl⟩ | ⟨_, tree, ht, ⟨s⟩⟩
    · rw [c2, hst] at hstop
      cases hstop
    · refine (s.learn64 hexp hs hL a1 b1 ?_ (by omega) ?_ hb).congr hL.cls ?_ rfl
      · intro j
        split <;> linarith [habs]
      · rw [if_neg (lt_irrefl q)]
        linarith [habs]
      intro k hk
      by_cases hkq : k = q
      · subst hkq
        rw [Function.update_self, if_pos (by omega), if_neg (by omega)]
      · rw [Function.update_of_ne hkq]
        by_cases hlt : k < q
        · rw [if_pos (by omega), if_pos hlt]
        · rw [if_neg (by omega), if_neg hlt]

theorem trainRounds_learn64 {exp : F64 → F64} (hexp : ExpFloat exp) {S : GoSort} {X : List (List ℚ)} {O : Options F64}
    {ohe : Dense F64} {n m : Nat} {lr lam : ℚ} (hs : FloatSetup (rows64 X) O ohe n m lr lam 1) {c : Nat → Nat} {base : ℚ}
    (hL : LearnSetup64 X O ohe n m c lr) (he : O.earlyStop ≤ 0) (hloss : O.loss ≠ none) {b : ℚ} {q : Nat}
    (hroom : b + q * (|lr| * 1 + 2 ^ (-40 : ℤ)) ≤ 700) {st st' : TrainState F64}
    (h : (List.range q).foldlM (trainRound (softMaxDense exp) S (rows64 X) O ohe m) st = .ok st')
    (hi : TInv exp n m st) (hb : st.boosters = []) (hr : ∀ i < n, RowWithin (fun _ => b) (st.rawPred.row i))
    (hst : ∀ k, st.stopped.getD k false = false) (hsep : Learn64 n m c base (fun _ => 0) st) :
    Learn64 n m c base (fun _ => st'.boosters.length) st' ∧ ∀ k, st'.stopped.getD k false = false := by
  have hδ : 0 ≤ |lr| * 1 + 2 ^ (-40 : ℤ) := add_nonneg (mul_nonneg (abs_nonneg _) zero_le_one) (by positivity)
  generalize hδe : |lr| * 1 + 2 ^ (-40 : ℤ) = δ at *
  induction q generalizing st' with
  | zero =>
    simp only [List.range_zero, List.foldlM_nil, pure, Except.pure, Except.ok.injEq] at h
    subst h
    exact ⟨by rw [hb]; exact hsep, hst⟩
  | succ q ih =>
    rw [List.range_succ, List.foldlM_append] at h
    obtain ⟨st1, h1, h2⟩ := bind_ok h
    rw [List.foldlM_cons] at h2
    obtain ⟨st2, h3, h4⟩ := bind_ok h2
    simp only [List.foldlM_nil, pure, Except.pure, Except.ok.injEq] at h4
    subst h4
    push_cast at hroom
    obtain ⟨a1, _⟩ := trainRounds_inv h1 hi hs.len hb
    obtain ⟨b1, _⟩ := trainRounds_float hexp hs hloss (by rw [hδe]; linarith) h1 hi hb hr
    obtain ⟨i1, i2⟩ := ih h1 (by linarith)
    obtain ⟨idx, cols, draws, hsam, hcase⟩ := trainRound_inv h3
    have hidx : idx = none := by
      have := (roundSamples_inv hsam).2
      rw [show rowSub O = false by unfold rowSub; rw [hL.xgb]; simp] at this
      simpa using this
    subst hidx
    rcases hcase with ⟨_, rfl⟩ | ⟨_, acc, hacc, rfl⟩
    · exact ⟨i1, i2⟩
    · rw [hδe] at b1
      have hc := trainClasses_learn64 hexp hs hL he (b := b + q * δ) (by rw [hδe]; linarith) m le_rfl
        { st1 with draws := draws } acc hacc (a1.draws draws) b1 i2 (R := st1.boosters.length) i1
      obtain ⟨_, e2, _⟩ := trainClasses_inv hs.len m le_rfl _ acc hacc (a1.draws draws)
      obtain ⟨_, c2⟩ := trainClasses_off he m { st1 with draws := draws } acc i2 hacc
      refine ⟨hc.congr hL.cls ?_ rfl, fun k => by simp only [c2]; exact i2 k⟩
      intro k hk
      rw [if_pos hk]
      simp only [e2, List.length_append, List.length_singleton]

end AnyOrder

end Boo
