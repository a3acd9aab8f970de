import Verif.Lemmas.ScanRel
import Verif.Props.Gain
import Verif.Lemmas.Train

/-!
# C84: targets in other units

What a change of scale (and, for regular trees, of origin) of the targets does to a tree: exact arithmetic over any
ordered field.
-/

namespace Boo
open GoFloat Spec
set_option linter.unusedSectionVars false

section generic
variable {F : Type} [GoFloat F]

/-- the same tree with all values changed by `vf` and all scores by `sf` -/
def Tree.mapValues (vf sf : F → F) : Tree F → Tree F
  | .nil => .nil
  | .node i l r => .node { i with value := vf i.value, bestScoreSoFar := sf i.bestScoreSoFar }
      (l.mapValues vf sf) (r.mapValues vf sf)

theorem mapValues_branches (vf sf : F → F) (t : Tree F) : (t.mapValues vf sf).branches = t.branches := by
  cases t <;> rfl

/-- a change `T` of the options that changes values and scores changes the whole tree accordingly -/
theorem newTreeD_equivariant {S : GoSort} {X : List (List F)} (T : TreeOptions F → TreeOptions F) (P : TreeOptions F → Prop)
    (vf sf : F → F)
    (hP : ∀ o i, P o → P (o.child X i)) (hchild : ∀ o i, (T o).child X i = T (o.child X i))
    (hg : ∀ o, P o → ((T o).xgb && (T o).gradients.isNone && (T o).hessian.isNone) =
      (o.xgb && o.gradients.isNone && o.hessian.isNone))
    (hx : ∀ o, (T o).xgb = o.xgb) (hidx : ∀ o, (T o).idx X = o.idx X)
    (hv : ∀ o v, P o → nodeValue (o.fill X) (o.idx X) = .ok v → nodeValue ((T o).fill X) (o.idx X) = .ok (vf v))
    (hs : ∀ o n b, P o → searchSplit S X (o.fill X) n (best0 o.xgb) = .ok b →
      searchSplit S X ((T o).fill X) n (best0 o.xgb) = .ok { b with score := sf b.score })
    (h0 : ∀ o, P o → sf (best0 o.xgb).score = (best0 o.xgb).score)
    (hl : ∀ o, P o → ∀ s, (if o.xgb then sf s ==. zero else isPosInf (sf s)) = if o.xgb then s ==. zero else isPosInf s)
    (d : Nat) (o : TreeOptions F) (t : Tree F) (ho : P o) (h : newTreeD S X d o = .ok t) :
    newTreeD S X d (T o) = .ok (t.mapValues vf sf) := by
  have hinfo : ∀ (o : TreeOptions F) v n (b : Best F) k, mkInfo (T o) X (vf v) n { b with score := sf b.score } k =
      { mkInfo o X v n b k with value := vf v, bestScoreSoFar := sf b.score } := by
    intro o v n b k
    unfold mkInfo
    rw [hidx, hx]
  have hleaf : ∀ (o : TreeOptions F), P o → ∀ v n (b : Best F) k,
      (mkInfo (T o) X (vf v) n { b with score := sf b.score } k).leaf = (mkInfo o X v n b k).leaf := by
    intro o ho v n b k
    rw [hinfo]
    exact hl o ho b.score
  induction d generalizing o t with
  | zero =>
    obtain ⟨v, row0, hv1, hr, hxx, ⟨_, rfl⟩ | ⟨_, best, q, _⟩ | ⟨d1, best, col, tl, tr, q, _⟩⟩ :=
      newTreeD_inv _ _ _ _ _ h
    · rw [newTreeD_mk_zero (v := vf v) ((hg o ho).trans hxx) (by rw [hidx]; exact hv o v ho hv1) hr]
      have := hinfo o v row0.length (best0 o.xgb) 1
      rw [hx]
      have e : ({ (best0 o.xgb : Best F) with score := sf (best0 o.xgb : Best F).score } : Best F) = best0 o.xgb := by
        rw [h0 o ho]
      rw [e] at this
      rw [this]
      rfl
    · omega
    · omega
  | succ d ih =>
    obtain ⟨v, row0, hv1, hr, hxx, ⟨q, _⟩ | ⟨_, best, _, hs1, hl1, rfl⟩ |
      ⟨d1, best, col, tl, tr, q, hs1, hl1, hc, h1, h2, rfl⟩⟩ := newTreeD_inv _ _ _ _ _ h
    · omega
    · rw [newTreeD_mk_leaf (v := vf v) (best := { best with score := sf best.score }) ((hg o ho).trans hxx)
        (by rw [hidx]; exact hv o v ho hv1) hr (by rw [hx]; exact hs o _ _ ho hs1) (by rw [hleaf o ho]; exact hl1), hinfo]
      rfl
    · cases q
      have a1 := ih _ tl (hP o (goLeft best.threshold col (o.idx X)) ho) h1
      have a2 := ih _ tr (hP o (goRight best.threshold col (o.idx X)) ho) h2
      rw [← hchild] at a1 a2
      rw [newTreeD_mk_node (v := vf v) (best := { best with score := sf best.score }) (col := col) ((hg o ho).trans hxx)
        (by rw [hidx]; exact hv o v ho hv1) hr (by rw [hx]; exact hs o _ _ ho hs1) (by rw [hleaf o ho]; exact hl1)
        (by rw [hidx]; exact hc) (by rw [hidx]; exact a1) (by rw [hidx]; exact a2), hinfo, mapValues_branches,
        mapValues_branches]
      rfl

/-- predictions of such a tree, when leaves stay leaves -/
theorem mapValues_predict {vf sf : F → F} {t : Tree F} {xgb : Bool}
    (hl : ∀ s, (if xgb then sf s ==. zero else isPosInf (sf s)) = if xgb then s ==. zero else isPosInf s)
    (hx : ∀ i : NodeInfo F, ∀ path l r, t.sub path = .node i l r → i.xgb = xgb) (row : List F) :
    (t.mapValues vf sf).predictSingle row = (t.predictSingle row).map vf := by
  induction t with
  | nil => rfl
  | node i l r ihl ihr =>
    have hi : i.xgb = xgb := hx i [] l r rfl
    have e : ({ i with value := vf i.value, bestScoreSoFar := sf i.bestScoreSoFar } : NodeInfo F).leaf = i.leaf := by
      unfold NodeInfo.leaf
      simp only [hi]
      exact hl _
    simp only [Tree.mapValues, Tree.predictSingle, e]
    rw [ihl (fun j p l r hs => hx j (true :: p) l r hs), ihr (fun j p l r hs => hx j (false :: p) l r hs)]
    by_cases hlf : i.leaf = true
    · simp [hlf, Except.map]
    · simp only [hlf, Bool.false_eq_true, if_false, bind, Except.bind]
      cases goIdx row i.splitFeatureIndex with
      | error => rfl
      | ok v => simp only; split <;> rfl

end generic

variable {K : Type} [Field K] [LinearOrder K] [IsStrictOrderedRing K] [FloorRing K]

/-- multiplication by a finite number -/
def scaleBy (k : K) (x : Exact K) : Exact K := XF.fin k *. x

theorem scale_nan (k : K) : scaleBy k (.nan : Exact K) = .nan := rfl
theorem scale_inf {k : K} (hk : k ≠ 0) (s : Bool) : scaleBy k (.inf s) = .inf (decide (k < 0) != s) := by
  show XF.mul (XF.fin k : Exact K) (.inf s) = _
  simp [XF.mul, hk]
theorem scale_fin (k x : K) : scaleBy k (.fin x) = .fin (k * x) := rfl

theorem scale_add {k : K} (hk : k ≠ 0) (x y : Exact K) : scaleBy k (x +. y) = scaleBy k x +. scaleBy k y := by
  rcases x with _ | s | x <;> rcases y with _ | t | y
  · rfl
  · rfl
  · rfl
  · rw [scale_inf hk]; rfl
  · rw [scale_inf hk, scale_inf hk]
    show scaleBy k (XF.add _ _) = XF.add _ _
    simp only [XF.add]
    cases s <;> cases t <;> by_cases h : k < 0 <;> simp [h, scale_inf hk, scale_nan]
  · rw [scale_inf hk, scale_fin]
    show scaleBy k (XF.add _ _) = XF.add _ _
    simp only [XF.add, scale_inf hk]
  · rfl
  · rw [scale_inf hk, scale_fin]
    show scaleBy k (XF.add _ _) = XF.add _ _
    simp only [XF.add, scale_inf hk]
  · rw [Exact.add_fin, scale_fin, scale_fin, scale_fin, Exact.add_fin, mul_add]

theorem scale_sub {k : K} (hk : k ≠ 0) (x y : Exact K) : scaleBy k (x -. y) = scaleBy k x -. scaleBy k y := by
  have hn : ∀ z : Exact K, scaleBy k (XF.neg z) = XF.neg (scaleBy k z) := by
    intro z
    rcases z with _ | s | z
    · rfl
    · simp only [XF.neg, scale_inf hk]; cases s <;> by_cases h : k < 0 <;> simp [h]
    · simp only [XF.neg, scale_fin, mul_neg]
  have := scale_add hk x (XF.neg y)
  rw [hn] at this
  exact this

theorem scale_mul {k l : K} (hk : k ≠ 0) (hl : l ≠ 0) (x y : Exact K) :
    scaleBy k x *. scaleBy l y = scaleBy (k * l) (x *. y) := by
  have hkl : k * l ≠ 0 := mul_ne_zero hk hl
  have hs : (decide (k * l < 0)) = (decide (k < 0) != decide (l < 0)) := by
    rcases lt_or_gt_of_ne hk with h1 | h1 <;> rcases lt_or_gt_of_ne hl with h2 | h2
    · simp [h1, h2, not_lt.2 (mul_pos_of_neg_of_neg h1 h2).le]
    · simp [h1, not_lt.2 h2.le, mul_neg_of_neg_of_pos h1 h2]
    · simp [h2, not_lt.2 h1.le, mul_neg_of_pos_of_neg h1 h2]
    · simp [not_lt.2 h1.le, not_lt.2 h2.le, not_lt.2 (mul_pos h1 h2).le]
  have hd : ∀ (m z : K), m ≠ 0 → z ≠ 0 → decide (m * z < 0) = (decide (m < 0) != decide (z < 0)) := by
    intro m z hm hz
    rcases lt_or_gt_of_ne hm with h1 | h1 <;> rcases lt_or_gt_of_ne hz with h2 | h2
    · simp [h1, h2, not_lt.2 (mul_pos_of_neg_of_neg h1 h2).le]
    · simp [h1, not_lt.2 h2.le, mul_neg_of_neg_of_pos h1 h2]
    · simp [h2, not_lt.2 h1.le, mul_neg_of_pos_of_neg h1 h2]
    · simp [not_lt.2 h1.le, not_lt.2 h2.le, not_lt.2 (mul_pos h1 h2).le]
  rcases x with _ | s | x <;> rcases y with _ | t | y
  all_goals try rfl
  · rw [scale_inf hk]; rfl
  · rw [scale_inf hk, scale_inf hl]
    show XF.mul _ _ = scaleBy _ (XF.mul _ _)
    simp only [XF.mul, scale_inf hkl, hs]
    cases s <;> cases t <;> cases decide (k < 0) <;> cases decide (l < 0) <;> rfl
  · rw [scale_inf hk, scale_fin]
    show XF.mul _ _ = scaleBy _ (XF.mul _ _)
    simp only [XF.mul]
    by_cases hy : y = 0
    · simp [hy, scale_nan]
    · rw [if_neg hy, if_neg (mul_ne_zero hl hy), scale_inf hkl, hs, hd _ _ hl hy]
      cases s <;> cases decide (k < 0) <;> cases decide (l < 0) <;> cases decide (y < 0) <;> rfl
  · rw [scale_inf hl, scale_fin]
    show XF.mul _ _ = scaleBy _ (XF.mul _ _)
    simp only [XF.mul]
    by_cases hy : x = 0
    · simp [hy, scale_nan]
    · rw [if_neg hy, if_neg (mul_ne_zero hk hy), scale_inf hkl, hs, hd _ _ hk hy]
      cases t <;> cases decide (k < 0) <;> cases decide (l < 0) <;> cases decide (x < 0) <;> rfl
  · rw [scale_fin, scale_fin, Exact.mul_fin, Exact.mul_fin, scale_fin]
    congr 1
    ring

theorem scale_div {k l : K} (hk : k ≠ 0) (hl : 0 < l) (x y : Exact K) :
    scaleBy k x /. scaleBy l y = scaleBy (k / l) (x /. y) := by
  have hkl : k / l ≠ 0 := div_ne_zero hk hl.ne'
  have hl0 := hl.ne'
  have hs : decide (k / l < 0) = decide (k < 0) := by
    simp only [div_neg_iff, hl, not_lt.2 hl.le]; simp
  have hly : ∀ y : K, decide (l * y < 0) = decide (y < 0) := by
    intro y; simp only [mul_neg_iff, hl, not_lt.2 hl.le]; simp
  have hl' : decide (l < 0) = false := by simp [hl.le]
  rcases x with _ | s | x <;> rcases y with _ | t | y
  all_goals try rfl
  · rw [scale_inf hk]; rfl
  · rw [scale_inf hk, scale_inf hl0]; rfl
  · rw [scale_inf hk, scale_fin]
    show XF.div _ _ = scaleBy _ (XF.div _ _)
    simp only [XF.div, scale_inf hkl, hs, hly]
    cases s <;> cases decide (k < 0) <;> cases decide (y < 0) <;> rfl
  · rw [scale_inf hl0, scale_fin]
    show XF.div _ _ = scaleBy _ (XF.div _ _)
    simp only [XF.div, scale_fin, mul_zero]
  · rw [scale_fin, scale_fin]
    show XF.div _ _ = scaleBy _ (XF.div _ _)
    simp only [XF.div, mul_eq_zero, hl0, hk, false_or]
    by_cases hy : y = 0
    · rw [if_pos hy, if_pos hy]
      by_cases hx : x = 0
      · rw [if_pos hx, if_pos hx]; rfl
      · rw [if_neg hx, if_neg hx, scale_inf hkl, hs]
        congr 1
        rcases lt_or_gt_of_ne hk with h1 | h1 <;> rcases lt_or_gt_of_ne hx with h2 | h2
        · simp [h1, h2, not_lt.2 (mul_pos_of_neg_of_neg h1 h2).le]
        · simp [h1, not_lt.2 h2.le, mul_neg_of_neg_of_pos h1 h2]
        · simp [h2, not_lt.2 h1.le, mul_neg_of_pos_of_neg h1 h2]
        · simp [not_lt.2 h1.le, not_lt.2 h2.le, not_lt.2 (mul_pos h1 h2).le]
    · rw [if_neg hy, if_neg hy]
      simp only [Exact.round_eq, scale_fin]
      congr 1
      field_simp

theorem scale_lt {k : K} (hk : 0 < k) (x y : Exact K) : (scaleBy k x <. scaleBy k y) = (x <. y) := by
  have hk' : decide (k < 0) = false := by simp [hk.le]
  rcases x with _ | s | x <;> rcases y with _ | t | y
  all_goals try rfl
  · rw [scale_inf hk.ne']; rfl
  · rw [scale_inf hk.ne', scale_inf hk.ne', hk']; simp
  · rw [scale_inf hk.ne', scale_fin, hk']; simp; rfl
  · rw [scale_inf hk.ne', scale_fin, hk']; simp; rfl
  · rw [scale_fin, scale_fin, XF.fin_lt, XF.fin_lt]
    congr 1
    exact propext (mul_lt_mul_iff_right₀ hk)

theorem scale_eq_zero {k : K} (hk : k ≠ 0) (x : Exact K) : (scaleBy k x ==. zero) = (x ==. zero) := by
  have hz : ((0 : Rat) : K) = 0 := by norm_num
  rcases x with _ | s | x
  · rfl
  · rw [scale_inf hk]; rfl
  · rw [scale_fin, Exact.zero_fin, hz, XF.fin_eq, XF.fin_eq]
    simp [hk]

theorem scale_posInf {k : K} (hk : 0 < k) (x : Exact K) : isPosInf (scaleBy k x) = isPosInf x := by
  rcases x with _ | s | x
  · rfl
  · rw [scale_inf hk.ne']
    have hk' : decide (k < 0) = false := by simp [hk.le]
    rw [hk']
    simp
  · rfl

theorem scale_zero (k : K) : scaleBy k (zero : Exact K) = zero := by
  have hz : ((0 : Rat) : K) = 0 := by norm_num
  rw [Exact.zero_fin, hz, scale_fin, mul_zero]

theorem scale_sum {k : K} (hk : k ≠ 0) (l : List (Exact K)) : GoFloat.sum (l.map (scaleBy k)) = scaleBy k (GoFloat.sum l) := by
  rw [Exact.sum_def, Exact.sum_def]
  suffices h : ∀ (l : List (Exact K)) (a : Exact K), (l.map (scaleBy k)).foldl XF.add (scaleBy k a) = scaleBy k (l.foldl XF.add a) by
    have := h l (.fin 0)
    rw [scale_fin, mul_zero] at this
    exact this
  intro l
  induction l with
  | nil => intro a; rfl
  | cons x xs ih =>
    intro a
    simp only [List.map_cons, List.foldl_cons]
    rw [← ih]
    congr 1
    exact (scale_add hk a x).symm

theorem scale_one (x : Exact K) : scaleBy 1 x = x := by
  rcases x with _ | s | x
  · rfl
  · rw [scale_inf one_ne_zero, decide_eq_false (not_lt.2 zero_le_one)]; simp
  · rw [scale_fin, one_mul]

/-- a constant factor commutes with a scale -/
theorem mul_scale {k : K} (hk : k ≠ 0) (c x : Exact K) : c *. scaleBy k x = scaleBy k (c *. x) := by
  have := scale_mul (k := 1) (l := k) one_ne_zero hk c x
  rwa [scale_one, one_mul] at this

theorem div_scale {k : K} (hk : k ≠ 0) (x c : Exact K) : scaleBy k x /. c = scaleBy k (x /. c) := by
  have := scale_div (k := k) (l := 1) hk one_pos x c
  rwa [scale_one, div_one] at this

theorem scale_sq {k : K} (hk : k ≠ 0) (x : Exact K) : sq (scaleBy k x) = scaleBy (k * k) (sq x) := scale_mul hk hk x x

theorem gainX_scale {a c : K} (ha : a ≠ 0) (hc : 0 < c) (lam gam A B C D G H : Exact K) :
    gainX (scaleBy c lam) (scaleBy (a * a / c) gam) (scaleBy a A) (scaleBy c B) (scaleBy a C) (scaleBy c D) (scaleBy a G)
      (scaleBy c H) = scaleBy (a * a / c) (gainX lam gam A B C D G H) := by
  have haa : a * a ≠ 0 := mul_ne_zero ha ha
  have hk : a * a / c ≠ 0 := div_ne_zero haa hc.ne'
  unfold gainX
  rw [scale_sq ha, scale_sq ha, scale_sq ha, ← scale_add hc.ne', ← scale_add hc.ne', ← scale_add hc.ne', scale_div haa hc,
    scale_div haa hc, scale_div haa hc, ← scale_add hk, ← scale_sub hk, mul_scale hk, div_scale hk, ← scale_sub hk]

theorem sampleSlice_mapped {α β : Type} (f : α → β) {s : List α} {idx : List Nat} {l : List α} (h : sampleSlice s idx = .ok l) :
    sampleSlice (s.map f) idx = .ok (l.map f) := by
  obtain ⟨h1, h2⟩ := sampleSlice_ok.1 h
  refine sampleSlice_ok.2 ⟨by simpa using h1, ?_⟩
  rw [List.forall₂_map_right_iff]
  exact h2.imp fun i v hv => by rw [List.getElem?_map, hv]; rfl

/-- the options with gradients multiplied by `a`, and Hessians and `Lambda` by `c`; `Gamma` is multiplied by `a²/c` -/
def TreeOptions.rescaleX (a c : K) (o : TreeOptions (Exact K)) : TreeOptions (Exact K) :=
  { o with
    gradients := o.gradients.map (List.map (scaleBy a))
    hessian := o.hessian.map (List.map (scaleBy c))
    lambda := scaleBy c o.lambda
    gamma := scaleBy (a * a / c) o.gamma }

theorem search_rescaleX {S : GoSort} {X : List (List (Exact K))} {a c : K} (ha : a ≠ 0) (hc : 0 < c)
    {o : TreeOptions (Exact K)} (hx : o.xgb = true) {n : Nat} {b : Best (Exact K)}
    (h : searchSplit S X o n (best0 true) = .ok b) :
    searchSplit S X (o.rescaleX a c) n (best0 true) = .ok { b with score := scaleBy (a * a / c) b.score } := by
  have hk : 0 < a * a / c := div_pos (mul_self_pos.2 ha) hc
  have hgr : ∀ l : List Nat, ∀ g, sampleSlice (o.gradients.getD []) l = .ok g →
      sampleSlice ((o.rescaleX a c).gradients.getD []) l = .ok (g.map (scaleBy a)) := by
    intro l g h
    have e : (o.rescaleX a c).gradients.getD [] = (o.gradients.getD []).map (scaleBy a) := by
      show (o.gradients.map _).getD [] = _
      cases o.gradients <;> rfl
    rw [e]
    exact sampleSlice_mapped _ h
  have hhs : ∀ l : List Nat, ∀ g, sampleSlice (o.hessian.getD []) l = .ok g →
      sampleSlice ((o.rescaleX a c).hessian.getD []) l = .ok (g.map (scaleBy c)) := by
    intro l g h
    have e : (o.rescaleX a c).hessian.getD [] = (o.hessian.getD []).map (scaleBy c) := by
      show (o.hessian.map _).getD [] = _
      cases o.hessian <;> rfl
    rw [e]
    exact sampleSlice_mapped _ h
  obtain ⟨b', h1, h2⟩ := search_map_rel (S := S) (X := X) (X' := X) (o := o) (o' := o.rescaleX a c) (n := n)
    (init := best0 true) (init' := best0 true) (b := b)
    (fun b b' => b' = { b with score := scaleBy (a * a / c) b.score }) rfl (by
      rintro f best _ b rfl hf
      obtain ⟨col, hcl, hl, ⟨_, g, hh, sg, sh, e1, e2, e3, e4, rfl⟩ | ⟨hx', _⟩⟩ := findBetterSplit_inv hf
      · refine ⟨_, findBetterSplit_mk_xgb (o := o.rescaleX a c) hcl hl hx (hgr _ _ e1) (hhs _ _ e2)
          (sampleSlice_mapped _ e3) (sampleSlice_mapped _ e4), ?_⟩
        refine scan_map_rel
          (p := ⟨true, toInt o.minChildWeight, o.lambda, o.gamma, GoFloat.sum g, GoFloat.sum hh,
            (o.indexes.getD []).length, f⟩)
          (p' := ⟨true, toInt o.minChildWeight, scaleBy c o.lambda, scaleBy (a * a / c) o.gamma,
            GoFloat.sum (g.map (scaleBy a)), GoFloat.sum (hh.map (scaleBy c)), (o.indexes.getD []).length, f⟩) rfl
          (fun _ _ u w => w = (scaleBy a u.1, scaleBy a u.2.1, scaleBy c u.2.2.1, scaleBy c u.2.2.2))
          (fun u w => w = (u.1, scaleBy a u.2.1, scaleBy c u.2.2))
          (fun b b' => b' = { b with score := scaleBy (a * a / c) b.score }) (fun r r' h => by rw [h]) ?_ ?_ _ _
          ?_ 0 _ (le_refl _) ?_ _ _ _ _ _ _ _ _ ?_ _ _ rfl
        · intro nl nr aL aR bL bR aL' aR' bL' bR' x u w x' u' w' hq he
          simp only [Prod.mk.injEq] at hq he
          obtain ⟨rfl, rfl, rfl, rfl⟩ := hq
          obtain ⟨rfl, rfl, rfl⟩ := he
          simp only [scale_add ha, scale_sub ha, scale_add hc.ne', scale_sub hc.ne']
        · rintro nl nr aL aR bL bR aL' aR' bL' bR' thr best _ _ _ hq rfl
          simp only [Prod.mk.injEq] at hq
          obtain ⟨rfl, rfl, rfl, rfl⟩ := hq
          unfold ScanParams.upd ScanParams.gain ScanParams.better
          simp only [if_true, scale_sum ha, scale_sum hc.ne', gainX_scale ha hc, gt, scale_lt hk]
          split <;> rfl
        · rw [List.forall₂_iff_get]
          refine ⟨by simp, ?_⟩
          intro i h1 h2
          simp
        · simp only [List.length_zip, argSort_snd_length, sampleSlice_length e3, sampleSlice_length e4,
            argSort_fst_length, sampleCol_length hcl, min_self]
          rfl
        · simp only [scale_zero, scale_sum ha, scale_sum hc.ne']
      · rw [hx] at hx'; cases hx')
    (by
      show _ = ({ score := scaleBy (a * a / c) zero, feature := 0, threshold := zero } : Best (Exact K))
      rw [scale_zero]; rfl) h
  rw [h2] at h1
  exact h1

/-- **C84, xgboost trees**: multiplying the gradients by `a ≠ 0`, the Hessians and `Lambda` by `c > 0` and `Gamma` by
`a²/c` changes no split: all predictions are multiplied by `a/c`, and the gains by `a²/c`. Any data and targets, also
infinite or NaN. -/
theorem C84_xgb_partial (S : GoSort) (X : List (List (Exact K))) (o : TreeOptions (Exact K)) (t : Tree (Exact K)) (a c : K)
    (ha : a ≠ 0) (hc : 0 < c) (h : newTree S X o = .ok t) (hx : o.xgb = true) :
    newTree S X (o.rescaleX a c) = .ok (t.mapValues (scaleBy (a / c)) (scaleBy (a * a / c))) ∧
    ∀ row, (t.mapValues (scaleBy (a / c)) (scaleBy (a * a / c))).predictSingle row =
      (t.predictSingle row).map (scaleBy (a / c)) := by
  have hk : 0 < a * a / c := div_pos (mul_self_pos.2 ha) hc
  have hleaf : ∀ (x : Bool), x = true → ∀ s : Exact K,
      (if x then scaleBy (a * a / c) s ==. zero else isPosInf (scaleBy (a * a / c) s)) =
      if x then s ==. zero else isPosInf s := by
    rintro x rfl s
    simp only [if_true]
    exact scale_eq_zero hk.ne' s
  refine ⟨?_, fun row => mapValues_predict (xgb := true) (hleaf true rfl) ?_ row⟩
  · refine newTreeD_equivariant (S := S) (X := X) (TreeOptions.rescaleX a c) (fun o => o.xgb = true) _ _ (fun o i h => h)
      (fun o i => rfl) ?_ (fun o => rfl) (fun o => rfl) ?_ ?_ ?_ (fun o ho => hleaf o.xgb ho) _ o t hx h
    · intro o ho
      show (o.xgb && (o.gradients.map _).isNone && (o.hessian.map _).isNone) = _
      simp
    · intro o v ho hv
      unfold nodeValue at hv ⊢
      have hx1 : (o.fill X).xgb = true := ho
      have hx2 : ((o.rescaleX a c).fill X).xgb = true := ho
      rw [hx1] at hv
      rw [hx2]
      simp only [if_true] at hv ⊢
      obtain ⟨g, e1, hv⟩ := bind_ok hv
      obtain ⟨hh, e2, hv⟩ := bind_ok hv
      obtain rfl := Except.ok.inj hv
      have f1 : sampleSlice (((o.rescaleX a c).fill X).gradients.getD []) (o.idx X) = .ok (g.map (scaleBy a)) := by
        have e : ((o.rescaleX a c).fill X).gradients.getD [] = (o.gradients.getD []).map (scaleBy a) := by
          show (o.gradients.map _).getD [] = _
          cases o.gradients <;> rfl
        rw [e]
        exact sampleSlice_mapped _ e1
      have f2 : sampleSlice (((o.rescaleX a c).fill X).hessian.getD []) (o.idx X) = .ok (hh.map (scaleBy c)) := by
        have e : ((o.rescaleX a c).fill X).hessian.getD [] = (o.hessian.getD []).map (scaleBy c) := by
          show (o.hessian.map _).getD [] = _
          cases o.hessian <;> rfl
        rw [e]
        exact sampleSlice_mapped _ e2
      rw [f1, f2]
      simp only [bind, Except.bind, pure, Except.pure, Except.ok.injEq]
      show (ofInt (-1) *. GoFloat.sum (g.map (scaleBy a))) /. (GoFloat.sum (hh.map (scaleBy c)) +. scaleBy c o.lambda) = _
      rw [scale_sum ha, scale_sum hc.ne', mul_scale ha, ← scale_add hc.ne', scale_div ha hc]
      rfl
    · intro o n b ho hs
      rw [ho] at hs ⊢
      exact search_rescaleX (o := o.fill X) ha hc ho hs
    · intro o ho
      rw [ho]
      exact scale_zero _
  · intro i p l r hs
    obtain ⟨o', d', h1, _, hin, _⟩ := newTreeD_sub _ _ _ _ _ h p i l r hs
    obtain ⟨_, _, h2, _⟩ := mkInfo_samples h1
    rw [h2, hin.xgb, hx]

/-! ### regular trees -/

/-- a finite number -/
abbrev Fin (x : Exact K) : Prop := ∃ v : K, x = .fin v

/-- `a·x + b` -/
def affineBy (a b : K) (x : Exact K) : Exact K := (XF.fin a *. x) +. .fin b

theorem affine_fin (a b x : K) : affineBy a b (.fin x) = .fin (a * x + b) := rfl

theorem sum_affine (a b : K) (l : List (Exact K)) (hl : ∀ v ∈ l, Fin v) :
    ∃ T, GoFloat.sum l = .fin T ∧ GoFloat.sum (l.map (affineBy a b)) = .fin (a * T + b * l.length) := by
  obtain ⟨k, rfl⟩ : ∃ k : List K, l = k.map XF.fin := by
    induction l with
    | nil => exact ⟨[], rfl⟩
    | cons x xs ih =>
      obtain ⟨k, hk⟩ := ih fun v hv => hl v (by simp [hv])
      obtain ⟨v, hv⟩ := hl x (by simp)
      exact ⟨v :: k, by rw [hk, hv]; rfl⟩
  refine ⟨k.sum, Exact.sum_fin k, ?_⟩
  have : (k.map (XF.fin : K → Exact K)).map (affineBy a b) = (k.map fun v => a * v + b).map XF.fin := by
    rw [List.map_map, List.map_map]; rfl
  rw [this, Exact.sum_fin]
  congr 1
  rw [List.length_map]
  clear hl this
  induction k with
  | nil => simp
  | cons x xs ih =>
    simp only [List.map_cons, List.sum_cons, List.length_cons, ih]
    push_cast
    ring

theorem sampleSlice_all {s : List (Exact K)} {idx : List Nat} {l : List (Exact K)} (h : sampleSlice s idx = .ok l)
    (hs : ∀ v ∈ s, Fin v) : ∀ v ∈ l, Fin v := by
  obtain ⟨_, h2⟩ := sampleSlice_ok.1 h
  intro v hv
  obtain ⟨k, hk⟩ := List.mem_iff_getElem?.1 hv
  have hkl : k < l.length := (List.getElem?_eq_some_iff.1 hk).1
  have := h2.get (by rw [h2.length_eq]; exact hkl) hkl
  have he : l.get ⟨k, hkl⟩ = v := by
    rw [List.getElem?_eq_getElem hkl] at hk
    exact Option.some.inj hk
  rw [he] at this
  exact hs v (List.mem_of_getElem? this)

theorem gainG_affine {a b L R T : K} (hT : L + R = T) {nl nr n : Int} (h1 : 1 ≤ nl) (h2 : 1 ≤ nr) (hn : nl + nr = n) :
    ∃ s : K, gainG (.fin L) (.fin R) (.fin T) nl nr n = (.fin s : Exact K) ∧
      gainG (.fin (a * L + b * nl)) (.fin (a * R + b * nr)) (.fin (a * T + b * n)) nl nr n = (.fin (a * a * s) : Exact K) := by
  have p1 : (0 : K) < nl := by exact_mod_cast (by omega : 0 < nl)
  have p2 : (0 : K) < nr := by exact_mod_cast (by omega : 0 < nr)
  have p3 : (n : K) = nl + nr := by exact_mod_cast hn.symm
  have p4 : (0 : K) < (nl : K) + nr := by positivity
  have q1 : (((nl : Int) : Rat) : K) = nl := by norm_cast
  have q2 : (((nr : Int) : Rat) : K) = nr := by norm_cast
  have q3 : (((n : Int) : Rat) : K) = n := by norm_cast
  have q4 : ((((-1 : Int)) : Rat) : K) = -1 := by norm_num
  have key : ∀ x y z : K, gainG (.fin x) (.fin y) (.fin z) nl nr n =
      (.fin (-1 * (x * x) / nl - y * y / nr + z * z / n) : Exact K) := by
    intro x y z
    unfold gainG sq
    simp only [Exact.ofInt_fin, Exact.mul_fin, q1, q2, q3, q4]
    rw [Exact.div_fin _ _ p1.ne', Exact.div_fin _ _ p2.ne', Exact.div_fin _ _ (by rw [p3]; exact p4.ne'), Exact.sub_fin,
      Exact.add_fin]
  refine ⟨_, key L R T, ?_⟩
  rw [key]
  congr 1
  rw [← hT, p3]
  field_simp
  ring

/-- the options with targets `a·y + b` -/
def TreeOptions.rescaleY (a b : K) (o : TreeOptions (Exact K)) : TreeOptions (Exact K) :=
  { o with y := o.y.map (affineBy a b) }

theorem search_rescaleY {S : GoSort} {X : List (List (Exact K))} {a b : K} (ha : a ≠ 0)
    {o : TreeOptions (Exact K)} (hx : o.xgb = false) (hy : ∀ v ∈ o.y, Fin v) {n : Nat} {bst : Best (Exact K)}
    (h : searchSplit S X o n (best0 false) = .ok bst) :
    searchSplit S X (o.rescaleY a b) n (best0 false) = .ok { bst with score := scaleBy (a * a) bst.score } := by
  have hk : 0 < a * a := mul_self_pos.2 ha
  obtain ⟨b', h1, h2⟩ := search_map_rel (S := S) (X := X) (X' := X) (o := o) (o' := o.rescaleY a b) (n := n)
    (init := best0 false) (init' := best0 false) (b := bst)
    (fun b b' => b' = { b with score := scaleBy (a * a) b.score }) rfl (by
      rintro f best _ b1 rfl hf
      obtain ⟨col, hcl, hl, ⟨hx', _⟩ | ⟨_, y, sy, e1, e2, rfl⟩⟩ := findBetterSplit_inv hf
      · rw [hx] at hx'; cases hx'
      · refine ⟨_, findBetterSplit_mk_reg (o := o.rescaleY a b) hcl hl hx (sampleSlice_mapped _ e1)
          (sampleSlice_mapped _ e2), ?_⟩
        have hfin := sampleSlice_all e2 (sampleSlice_all e1 hy)
        obtain ⟨T, hT, hT'⟩ := sum_affine a b sy hfin
        have hsl : sy.length = (o.indexes.getD []).length := by
          rw [sampleSlice_length e2, argSort_fst_length, sampleCol_length hcl]
        refine scan_map_rel
          (p := ⟨false, toInt o.minChildWeight, o.lambda, o.gamma, GoFloat.sum sy, zero,
            (o.indexes.getD []).length, f⟩)
          (p' := ⟨false, toInt o.minChildWeight, o.lambda, o.gamma,
            GoFloat.sum (sy.map (affineBy a b)), zero, (o.indexes.getD []).length, f⟩) rfl
          (fun nl nr u w => nl + nr = ((o.indexes.getD []).length : Int) ∧ ∃ L R : K, u.1 = .fin L ∧ u.2.1 = .fin R ∧
            L + R = T ∧ w.1 = .fin (a * L + b * nl) ∧ w.2.1 = .fin (a * R + b * nr))
          (fun u w => w.1 = u.1 ∧ ∃ v, u.2.1 = .fin v ∧ w.2.1 = .fin (a * v + b))
          (fun b b' => b' = { b with score := scaleBy (a * a) b.score }) (fun r r' h => h.1) ?_ ?_ _ _
          ?_ 0 _ (le_refl _) ?_ _ _ _ _ _ _ _ _ ?_ _ _ rfl
        · rintro nl nr aL aR bL bR aL' aR' bL' bR' x u w x' u' w' ⟨hn, L, R, q1, q2, q3, q4, q5⟩ ⟨hxx, v, v1, v2⟩
          simp only at q1 q2 q4 q5 v1 v2
          refine ⟨by omega, L + v, R - v, ?_, ?_, by linarith, ?_, ?_⟩
          · simp only [q1, v1, Exact.add_fin]
          · simp only [q2, v1, Exact.sub_fin]
          · simp only [q4, v2, Exact.add_fin]
            congr 1
            push_cast
            ring
          · simp only [q5, v2, Exact.sub_fin]
            congr 1
            push_cast
            ring
        · rintro nl nr aL aR bL bR aL' aR' bL' bR' thr best _ hnl hnr ⟨hn, L, R, q1, q2, q3, q4, q5⟩ rfl
          simp only at q1 q2 q4 q5
          obtain ⟨s, g1, g2⟩ := gainG_affine (a := a) (b := b) q3 hnl hnr hn
          have hlen : ((sy.length : Nat) : K) = (((o.indexes.getD []).length : Int) : K) := by rw [hsl]; norm_cast
          unfold ScanParams.upd ScanParams.gain ScanParams.better
          simp only [Bool.false_eq_true, if_false, hT, hT', q1, q2, q4, q5, hlen, g1, g2]
          have e : (XF.fin (a * a * s) : Exact K) = scaleBy (a * a) (.fin s) := rfl
          rw [e, scale_lt hk]
          split <;> rfl
        · rw [List.forall₂_iff_get]
          refine ⟨by simp, ?_⟩
          intro i h1 h2
          have hi : i < sy.length := by
            simp only [List.length_zip] at h1; omega
          obtain ⟨v, hv⟩ := hfin sy[i] (List.getElem_mem hi)
          refine ⟨by simp, v, by simp [hv], ?_⟩
          simp [hv, affine_fin]
        · simp only [List.length_zip, argSort_snd_length, sampleSlice_length e2,
            argSort_fst_length, sampleCol_length hcl, min_self]
          rfl
        · have hz : ((0 : Rat) : K) = 0 := by norm_num
          refine ⟨by simp; rfl, 0, T, by rw [Exact.zero_fin, hz], hT, by ring, ?_, ?_⟩
          · simp
          · show GoFloat.sum (sy.map (affineBy a b)) = _
            rw [hT', hsl]
            show _ = XF.fin (a * T + b * (((o.indexes.getD []).length : Int) : K))
            norm_cast)
    (by
      show _ = ({ score := scaleBy (a * a) posInf, feature := 0, threshold := zero } : Best (Exact K))
      have : scaleBy (a * a) (posInf : Exact K) = posInf := by
        show scaleBy (a * a) (.inf false) = .inf false
        rw [scale_inf hk.ne', decide_eq_false (not_lt.2 hk.le)]
        rfl
      rw [this]; rfl) h
  rw [h2] at h1
  exact h1

/-- **C84, regular trees**: replacing finite targets `y` by `a·y + b` with `a ≠ 0` changes no split: every prediction `v`
becomes `a·v + b`, and the scores are multiplied by `a²`. The rows may be anything, also infinite or NaN. -/
theorem C84_regular_partial (S : GoSort) (X : List (List (Exact K))) (o : TreeOptions (Exact K)) (t : Tree (Exact K)) (a b : K)
    (ha : a ≠ 0) (h : newTree S X o = .ok t) (hx : o.xgb = false) (hy : ∀ v ∈ o.y, Fin v) :
    newTree S X (o.rescaleY a b) = .ok (t.mapValues (affineBy a b) (scaleBy (a * a))) ∧
    ∀ row, (t.mapValues (affineBy a b) (scaleBy (a * a))).predictSingle row = (t.predictSingle row).map (affineBy a b) := by
  have hk : 0 < a * a := mul_self_pos.2 ha
  have hleaf : ∀ (x : Bool), x = false → ∀ s : Exact K,
      (if x then scaleBy (a * a) s ==. zero else isPosInf (scaleBy (a * a) s)) =
      if x then s ==. zero else isPosInf s := by
    rintro x rfl s
    simp only [Bool.false_eq_true, if_false]
    exact scale_posInf hk s
  refine ⟨?_, fun row => mapValues_predict (xgb := false) (hleaf false rfl) ?_ row⟩
  · refine newTreeD_equivariant (S := S) (X := X) (TreeOptions.rescaleY a b) (fun o => o.xgb = false ∧ ∀ v ∈ o.y, Fin v) _ _
      (fun o i h => h) (fun o i => rfl) ?_ (fun o => rfl) (fun o => rfl) ?_ ?_ ?_ (fun o ho => hleaf o.xgb ho.1) _ o t ⟨hx, hy⟩ h
    · intro o ho
      rfl
    · rintro o v ⟨ho, hyo⟩ hv
      unfold nodeValue at hv ⊢
      have hx1 : (o.fill X).xgb = false := ho
      have hx2 : ((o.rescaleY a b).fill X).xgb = false := ho
      rw [hx1] at hv
      rw [hx2]
      simp only [Bool.false_eq_true, if_false] at hv ⊢
      obtain ⟨y, e1, hv⟩ := bind_ok hv
      obtain rfl := Except.ok.inj hv
      have f1 : sampleSlice ((o.rescaleY a b).fill X).y (o.idx X) = .ok (y.map (affineBy a b)) := sampleSlice_mapped _ e1
      rw [f1]
      simp only [bind, Except.bind, pure, Except.pure, Except.ok.injEq]
      obtain ⟨T, hT, hT'⟩ := sum_affine a b y (sampleSlice_all e1 hyo)
      have hlen : (((y.length : Int) : Rat) : K) = (y.length : K) := by norm_cast
      rw [hT, hT', List.length_map, Exact.ofInt_fin, hlen]
      by_cases h0 : y.length = 0
      · obtain rfl := List.length_eq_zero_iff.1 h0
        have h00 : T = 0 := by
          have : (XF.fin 0 : Exact K) = .fin T := hT
          cases this; rfl
        subst h00
        show XF.div _ _ = affineBy a b (XF.div _ _)
        simp [XF.div]
        rfl
      · have hp : (y.length : K) ≠ 0 := by exact_mod_cast h0
        rw [Exact.div_fin _ _ hp, Exact.div_fin _ _ hp, affine_fin]
        congr 1
        field_simp
    · rintro o n b ⟨ho, hyo⟩ hs
      rw [ho] at hs ⊢
      exact search_rescaleY (o := o.fill X) ha ho hyo hs
    · rintro o ⟨ho, _⟩
      rw [ho]
      show scaleBy (a * a) (.inf false) = .inf false
      rw [scale_inf hk.ne', decide_eq_false (not_lt.2 hk.le)]
      rfl
  · intro i p l r hs
    obtain ⟨o', d', h1, _, hin, _⟩ := newTreeD_sub _ _ _ _ _ h p i l r hs
    obtain ⟨_, _, h2, _⟩ := mkInfo_samples h1
    rw [h2, hin.xgb, hx]

/-! ### the hypotheses are met; binary64 -/

def eqX : List (List (Exact ℚ)) := [[.fin 0, .fin 0], [.fin 0, .fin 1], [.fin 1, .fin 0], [.fin 1, .fin 1]]
def eqO : TreeOptions (Exact ℚ) :=
  { (defaultXTreeOptions : TreeOptions (Exact ℚ)) with
    maxDepth := 3, minChildWeight := .fin 1, gamma := .fin 1, lambda := .fin 1,
    gradients := some [.fin 1, .fin 2, .fin (-3), .fin 4],
    hessian := some [.fin 1, .fin 1, .fin 1, .fin 1] }
def eqG : TreeOptions (Exact ℚ) :=
  { (defaultGTreeOptions : TreeOptions (Exact ℚ)) with
    maxDepth := 3, minChildWeight := .fin 1, y := [.fin 1, .fin 2, .fin (-3), .fin 4] }
/-- size and prediction for a row -/
def eqRun (o : TreeOptions (Exact ℚ)) : Option (Nat × Exact ℚ) :=
  match newTree GoSort.ins eqX o with
  | .ok t => (t.predictSingle [.fin 1, .fin 1]).toOption.map fun v => (t.size, v)
  | .error _ => none
example : eqRun eqO = some (5, .fin (-2)) ∧ eqRun (eqO.rescaleX (-2) 3) = some (5, .fin (4 / 3)) := by decide +kernel
example : eqRun eqG = some (7, .fin 4) ∧ eqRun (eqG.rescaleY (-2) 3) = some (7, .fin (-5)) := by decide +kernel
example : ∀ v ∈ eqG.y, Fin v := by
  intro v hv
  simp [eqG] at hv
  rcases hv with rfl | rfl | rfl | rfl <;> exact ⟨_, rfl⟩

/-- the feature at the root of a regular tree of depth 1 for four rows with targets `0 + b, 1 + b, 0 + b, 1 + b`: the
second feature is the target (without `b`), the first one says nothing about it -/
def eqRoot (b : F64) : Option Nat :=
  match newTree GoSort.ins ([[.fin 0, .fin 0], [.fin 0, .fin 1], [.fin 1, .fin 0], [.fin 1, .fin 1]] : List (List F64))
    { (defaultGTreeOptions : TreeOptions F64) with
      maxDepth := 1, minChildWeight := .fin 1, y := [.fin 0, .fin 1, .fin 0, .fin 1].map (· +. b) } with
  | .ok (.node i _ _) => some i.splitFeatureIndex
  | _ => none

/-- **C84, binary64**: the claim fails in float64 arithmetic. For the targets 0, 1, 0, 1 the tree is split on the feature that
determines them; for 10⁸, 10⁸+1, 10⁸, 10⁸+1 on the other one, because the squares of the sums lose the difference. -/
theorem C84_violated_binary64 : eqRoot (.fin 0) = some 1 ∧ eqRoot (.fin 100000000) = some 0 := by decide +kernel

end Boo
