import Verif.Lemmas.ExactGain

/-!
# C07, C09, C10, C11: what trees optimise (exact arithmetic)

`finRows X` is a finite data matrix as float values. The gain of a split, the mean, the squared
error and the xgboost objective are specified in `Verif/Spec/Gain.lean`.
-/

namespace Boo
open GoFloat Spec
set_option linter.unusedSectionVars false
variable {K : Type} [Field K] [LinearOrder K] [IsStrictOrderedRing K] [FloorRing K]

/-- options of an xgboost tree with finite gradients `g`, hessians `h`, `Lambda`, `Gamma` -/
structure XgbInput {R : Rounder K} (o : TreeOptions (XF R)) (g h : List K) (lam gam : K) : Prop where
  xgb : o.xgb = true
  grad : o.gradients = some (g.map XF.fin)
  hess : o.hessian = some (h.map XF.fin)
  lambda : o.lambda = .fin lam
  gamma : o.gamma = .fin gam

/-- options of a regular tree with finite targets `y` -/
structure RegInput {R : Rounder K} (o : TreeOptions (XF R)) (y : List K) : Prop where
  xgb : o.xgb = false
  targets : o.y = y.map XF.fin

theorem XgbInput.inherit {R : Rounder K} {X : List (List (XF R))} {o o' : TreeOptions (XF R)} {g h : List K}
    {lam gam : K} (hi : XgbInput o g h lam gam) (hin : Inherit X o o') : XgbInput o' g h lam gam :=
  ⟨hin.xgb.trans hi.xgb, hin.grad.trans hi.grad, hin.hess.trans hi.hess, hin.lambda.trans hi.lambda,
   hin.gamma.trans hi.gamma⟩

theorem RegInput.inherit {R : Rounder K} {X : List (List (XF R))} {o o' : TreeOptions (XF R)} {y : List K}
    (hi : RegInput o y) (hin : Inherit X o o') : RegInput o' y :=
  ⟨hin.xgb.trans hi.xgb, hin.y.trans hi.targets⟩

/-- column `f` may be used at the node reached by `path`: at the root, it has to be in the list of
allowed columns if there is one; below the root the code allows all columns (see C08). -/
def UsableAt {F : Type} (o : TreeOptions F) (path : List Bool) (f : Nat) : Prop :=
  path = [] → o.allowedColumns = [] ∨ f ∈ o.allowedColumns

theorem usable_allowed {F : Type} {o o' : TreeOptions F} {path : List Bool} {f : Nat}
    (h : UsableAt o path f) (h1 : path = [] → o' = o) (h2 : path ≠ [] → o'.allowedColumns = []) :
    columnAllowed o' f = true := by
  unfold columnAllowed
  by_cases hp : path = []
  · rw [h1 hp]
    rcases h hp with h | h
    · simp [h]
    · simp [h]
  · simp [h2 hp]

/-! ### Facts about one node -/

theorem node_split_xgb {S : GoSort} {X : List (List K)} {o : TreeOptions (Exact K)} {d : Nat}
    {i : NodeInfo (Exact K)} {l r : Tree (Exact K)} {g h : List K} {lam gam : K}
    (hb : newTreeD S (finRows X) d o = .ok (.node i l r)) (hl : l ≠ .nil)
    (hi : XgbInput o g h lam gam) (hp : HessOk h lam) :
    ∃ θ, i.threshold = .fin θ ∧
      Admissible X (toInt o.minChildWeight) i.samples i.splitFeatureIndex θ ∧
      i.bestScoreSoFar = .fin (xgbGain X g h lam gam i.samples i.splitFeatureIndex θ) ∧
      0 < xgbGain X g h lam gam i.samples i.splitFeatureIndex θ ∧
      ∃ d', newTreeD S (finRows X) d' (o.child (finRows X) (leftOf X i.samples i.splitFeatureIndex θ)) = .ok l ∧
        newTreeD S (finRows X) d' (o.child (finRows X) (rightOf X i.samples i.splitFeatureIndex θ)) = .ok r := by
  obtain ⟨s, -⟩ := splitNode hb hl
  obtain ⟨hsam, _, _, hv, _⟩ := mkInfo_samples hb
  obtain ⟨_, hrange, _⟩ := nodeValue_xgb (o := o.fill (finRows X)) hi.xgb hi.grad hi.hess hv
  obtain ⟨rk, hrk, hsk, hA, hB, hpar⟩ := s.hscan.exactX hi.xgb hi.grad hi.hess
  have hidx : (o.fill (finRows X)).indexes.getD [] = o.idx (finRows X) := rfl
  rw [hidx] at hsk hA hB hpar
  have hmcw : s.p.mcw = toInt o.minChildWeight := by rw [hpar]; rfl
  have hcand := s.hcand
  rw [hrk] at hcand
  rw [← hmcw, hsam]
  have hsk' : ScanK S X s.p.mcw (o.idx (finRows X)) i.splitFeatureIndex (fun j => g.getD j 0)
    (fun j => h.getD j 0) rk := ⟨hsk.perm, hsk.sorted⟩
  obtain ⟨θ, hmid, hk, hadm⟩ := cut_is_threshold hsk' hcand
  have hscore := s.hscore
  rw [hrk, hA, hB, ← hk, candGain_xgb hsk' (by rw [hpar]) (by rw [hpar]; exact hi.lambda)
    (by rw [hpar]; exact hi.gamma) (by rw [hpar]; exact hA) (by rw [hpar]; exact hB) hp hrange θ hadm] at hscore
  have hthr : i.threshold = .fin θ := s.hthr.trans hmid
  refine ⟨θ, hthr, hadm, hscore, ?_, s.d, ?_, ?_⟩
  · have := s.hbetter
    simp only [betterX, hi.xgb, if_true, score0, gt] at this
    have hs2 : i.bestScoreSoFar = _ := hscore
    rw [hs2, Exact.zero_fin, XF.fin_lt] at this
    simpa using this
  · have := s.hl
    rw [goLeft_exact hthr s.hcol] at this
    exact this
  · have := s.hr
    rw [goRight_exact hthr s.hcol] at this
    exact this

theorem node_opt_xgb {S : GoSort} {X : List (List K)} {o : TreeOptions (Exact K)} 
    {g h : List K} {lam gam : K} (hi : XgbInput o g h lam gam) (hp : HessOk h lam)
    (hrange : ∀ j ∈ o.idx (finRows X), j < h.length) {score : K} {f : Nat}
    (hopt : ∃ p rows A B, ScanOf S (finRows X) (o.fill (finRows X)) f p rows A B ∧
        ∀ k x x', Cand p rows 0 (o.idx (finRows X)).length k x x' →
        betterX o.xgb (candGain p rows 0 (o.idx (finRows X)).length zero A zero B k) (.fin score) = false)
    (θ : K) (hadm : Admissible X (toInt o.minChildWeight) (o.idx (finRows X)) f θ) :
    xgbGain X g h lam gam (o.idx (finRows X)) f θ ≤ score := by
  obtain ⟨p, rows, A, B, hscan, hopt⟩ := hopt
  obtain ⟨rk, hrk, hsk, hA, hB, hpar⟩ := hscan.exactX hi.xgb hi.grad hi.hess
  have hidx : (o.fill (finRows X)).indexes.getD [] = o.idx (finRows X) := rfl
  rw [hidx] at hsk hA hB hpar
  have hmcw : p.mcw = toInt o.minChildWeight := by rw [hpar]; rfl
  have hsk' : ScanK S X p.mcw (o.idx (finRows X)) f (fun j => g.getD j 0)
    (fun j => h.getD j 0) rk := ⟨hsk.perm, hsk.sorted⟩
  rw [← hmcw] at hadm
  obtain ⟨x, x', hc⟩ := cand_of_admissible hsk' θ hadm
  rw [← hrk] at hc
  have h1 := hopt _ _ _ hc
  rw [hrk, hA, hB, candGain_xgb hsk' (by rw [hpar]) (by rw [hpar]; exact hi.lambda)
    (by rw [hpar]; exact hi.gamma) (by rw [hpar]; exact hA) (by rw [hpar]; exact hB) hp hrange θ hadm] at h1
  simp only [betterX, hi.xgb, if_true, gt, XF.fin_lt, decide_eq_false_iff_not, not_lt] at h1
  exact h1

theorem node_split_reg {S : GoSort} {X : List (List K)} {o : TreeOptions (Exact K)} {d : Nat}
    {i : NodeInfo (Exact K)} {l r : Tree (Exact K)} {y : List K}
    (hb : newTreeD S (finRows X) d o = .ok (.node i l r)) (hl : l ≠ .nil) (hi : RegInput o y) :
    ∃ θ, i.threshold = .fin θ ∧
      Admissible X (toInt o.minChildWeight) i.samples i.splitFeatureIndex θ ∧
      i.bestScoreSoFar = .fin (regGain X y i.samples i.splitFeatureIndex θ) ∧
      ∃ d', newTreeD S (finRows X) d' (o.child (finRows X) (leftOf X i.samples i.splitFeatureIndex θ)) = .ok l ∧
        newTreeD S (finRows X) d' (o.child (finRows X) (rightOf X i.samples i.splitFeatureIndex θ)) = .ok r := by
  obtain ⟨s, -⟩ := splitNode hb hl
  obtain ⟨hsam, _, _, hv, _⟩ := mkInfo_samples hb
  obtain ⟨rk, hrk, hsk, hA, hB, hpar⟩ := s.hscan.exactG hi.xgb hi.targets
  have hidx : (o.fill (finRows X)).indexes.getD [] = o.idx (finRows X) := rfl
  rw [hidx] at hsk hA hpar
  have hmcw : s.p.mcw = toInt o.minChildWeight := by rw [hpar]; rfl
  have hcand := s.hcand
  rw [hrk] at hcand
  rw [← hmcw, hsam]
  have hsk' : ScanK S X s.p.mcw (o.idx (finRows X)) i.splitFeatureIndex (fun j => y.getD j 0)
    (fun j => y.getD j 0) rk := ⟨hsk.perm, hsk.sorted⟩
  obtain ⟨θ, hmid, hk, hadm⟩ := cut_is_threshold hsk' hcand
  have hscore := s.hscore
  rw [hrk, hA, hB, ← hk, candGain_reg hsk' (by rw [hpar]) (by rw [hpar]; exact hA) (by rw [hpar]) θ hadm] at hscore
  have hthr : i.threshold = .fin θ := s.hthr.trans hmid
  refine ⟨θ, hthr, hadm, hscore, s.d, ?_, ?_⟩
  · have := s.hl
    rw [goLeft_exact hthr s.hcol] at this
    exact this
  · have := s.hr
    rw [goRight_exact hthr s.hcol] at this
    exact this

theorem node_opt_reg {S : GoSort} {X : List (List K)} {o : TreeOptions (Exact K)} {y : List K}
    (hi : RegInput o y) {score : Exact K} {f : Nat}
    (hopt : ∃ p rows A B, ScanOf S (finRows X) (o.fill (finRows X)) f p rows A B ∧
        ∀ k x x', Cand p rows 0 (o.idx (finRows X)).length k x x' →
        betterX o.xgb (candGain p rows 0 (o.idx (finRows X)).length zero A zero B k) score = false)
    (θ : K) (hadm : Admissible X (toInt o.minChildWeight) (o.idx (finRows X)) f θ) :
    (XF.fin (regGain X y (o.idx (finRows X)) f θ) <. score) = false := by
  obtain ⟨p, rows, A, B, hscan, hopt⟩ := hopt
  obtain ⟨rk, hrk, hsk, hA, hB, hpar⟩ := hscan.exactG hi.xgb hi.targets
  have hidx : (o.fill (finRows X)).indexes.getD [] = o.idx (finRows X) := rfl
  rw [hidx] at hsk hA hpar
  have hmcw : p.mcw = toInt o.minChildWeight := by rw [hpar]; rfl
  have hsk' : ScanK S X p.mcw (o.idx (finRows X)) f (fun j => y.getD j 0)
    (fun j => y.getD j 0) rk := ⟨hsk.perm, hsk.sorted⟩
  rw [← hmcw] at hadm
  obtain ⟨x, x', hc⟩ := cand_of_admissible hsk' θ hadm
  rw [← hrk] at hc
  have h1 := hopt _ _ _ hc
  rw [hrk, hA, hB, candGain_reg hsk' (by rw [hpar]) (by rw [hpar]; exact hA) (by rw [hpar]) θ hadm] at h1
  simpa only [betterX, hi.xgb, Bool.false_eq_true, if_false] using h1

/-! ### C07 -/

/-- **C07, xgboost.** At a split node the threshold is admissible (at least `int(MinChildWeight)` and
at least one sample on both sides), the recorded score is the gain of that split computed from the
sums over both sides, and no admissible split on a usable feature has a larger gain, whatever the
threshold. -/
theorem C07_xgb_split (S : GoSort) (X : List (List K)) (o : TreeOptions (Exact K))
    (t : Tree (Exact K)) (g h : List K) (lam gam : K)
    (hb : newTree S (finRows X) o = .ok t) (hi : XgbInput o g h lam gam)
    (hp : ∀ v ∈ h, 0 ≤ v ∧ 0 < v + lam)
    (path : List Bool) (i : NodeInfo (Exact K)) (l r : Tree (Exact K))
    (hsub : t.sub path = .node i l r) (hsplit : l ≠ .nil) :
    ∃ θ, i.threshold = .fin θ ∧
      Admissible X (toInt o.minChildWeight) i.samples i.splitFeatureIndex θ ∧
      i.bestScoreSoFar = .fin (xgbGain X g h lam gam i.samples i.splitFeatureIndex θ) ∧
      ∀ row0, X[0]? = some row0 → ∀ f < row0.length, UsableAt o path f → ∀ θ',
        Admissible X (toInt o.minChildWeight) i.samples f θ' →
        xgbGain X g h lam gam i.samples f θ' ≤
          xgbGain X g h lam gam i.samples i.splitFeatureIndex θ := by
  obtain ⟨o', d', hb', _, hin, _, he, hne⟩ := newTreeD_sub S _ _ o t hb path i l r hsub
  have hi' := hi.inherit hin
  obtain ⟨θ, h1, h2, h3, _⟩ := node_split_xgb hb' hsplit hi' hp
  rw [hin.mcw] at h2
  refine ⟨θ, h1, h2, h3, ?_⟩
  intro row0 hr0 f hf hu θ' hadm
  obtain ⟨hsam, _, _, hv, _⟩ := mkInfo_samples hb'
  obtain ⟨_, hrange, _⟩ := nodeValue_xgb (o := o'.fill (finRows X)) hi'.xgb hi'.grad hi'.hess hv
  obtain ⟨row0', hr0', hopt⟩ := splitNode_opt hb' hsplit
  rw [h3] at hopt
  have hlen : row0'.length = row0.length := by
    unfold finRows at hr0'
    rw [List.getElem?_map, hr0] at hr0'
    simp only [Option.map_some, Option.some.injEq] at hr0'
    rw [← hr0']; simp
  rw [hsam]
  rw [hsam] at hadm
  rw [← hin.mcw] at hadm
  have := node_opt_xgb hi' hp hrange (hopt f (by omega) (usable_allowed hu he hne)) θ' hadm
  rw [hsam] at this
  exact this

/-- **C07, xgboost leaf.** If a node above the maximum depth is a leaf, no admissible split on a
usable feature has a positive gain. -/
theorem C07_xgb_leaf (S : GoSort) (X : List (List K)) (o : TreeOptions (Exact K))
    (t : Tree (Exact K)) (g h : List K) (lam gam : K)
    (hb : newTree S (finRows X) o = .ok t) (hi : XgbInput o g h lam gam)
    (hp : ∀ v ∈ h, 0 ≤ v ∧ 0 < v + lam)
    (path : List Bool) (i : NodeInfo (Exact K))
    (hsub : t.sub path = .node i .nil .nil) (hdepth : (path.length : Int) < o.maxDepth)
    (row0 : List K) (hr0 : X[0]? = some row0) (f : Nat) (hf : f < row0.length)
    (hu : UsableAt o path f) (θ' : K)
    (hadm : Admissible X (toInt o.minChildWeight) i.samples f θ') :
    xgbGain X g h lam gam i.samples f θ' ≤ 0 := by
  obtain ⟨o', d', hb', hd, hin, _, he, hne⟩ := newTreeD_sub S _ _ o t hb path i _ _ hsub
  have hi' := hi.inherit hin
  obtain ⟨hsam, _, _, hv, _⟩ := mkInfo_samples hb'
  obtain ⟨_, hrange, _⟩ := nodeValue_xgb (o := o'.fill (finRows X)) hi'.xgb hi'.grad hi'.hess hv
  rcases leafNode hb' with h0 | ⟨row0', hr0', hopt⟩
  · omega
  have hlen : row0'.length = row0.length := by
    unfold finRows at hr0'
    rw [List.getElem?_map, hr0] at hr0'
    simp only [Option.map_some, Option.some.injEq] at hr0'
    rw [← hr0']; simp
  have hz : (score0 o'.xgb : Exact K) = .fin 0 := by
    rw [hi'.xgb]; simp [score0]
  rw [hz] at hopt
  rw [hsam, ← hin.mcw] at hadm
  rw [hsam]
  exact node_opt_xgb hi' hp hrange (hopt f (by omega) (usable_allowed hu he hne)) θ' hadm

/-- **C07, regular trees.** As for xgboost, with the smallest score. -/
theorem C07_regular_split (S : GoSort) (X : List (List K)) (o : TreeOptions (Exact K))
    (t : Tree (Exact K)) (y : List K)
    (hb : newTree S (finRows X) o = .ok t) (hi : RegInput o y)
    (path : List Bool) (i : NodeInfo (Exact K)) (l r : Tree (Exact K))
    (hsub : t.sub path = .node i l r) (hsplit : l ≠ .nil) :
    ∃ θ, i.threshold = .fin θ ∧
      Admissible X (toInt o.minChildWeight) i.samples i.splitFeatureIndex θ ∧
      i.bestScoreSoFar = .fin (regGain X y i.samples i.splitFeatureIndex θ) ∧
      ∀ row0, X[0]? = some row0 → ∀ f < row0.length, UsableAt o path f → ∀ θ',
        Admissible X (toInt o.minChildWeight) i.samples f θ' →
        regGain X y i.samples i.splitFeatureIndex θ ≤ regGain X y i.samples f θ' := by
  obtain ⟨o', d', hb', _, hin, _, he, hne⟩ := newTreeD_sub S _ _ o t hb path i l r hsub
  have hi' := hi.inherit hin
  obtain ⟨θ, h1, h2, h3, _⟩ := node_split_reg hb' hsplit hi'
  rw [hin.mcw] at h2
  refine ⟨θ, h1, h2, h3, ?_⟩
  intro row0 hr0 f hf hu θ' hadm
  obtain ⟨hsam, _, _, hv, _⟩ := mkInfo_samples hb'
  obtain ⟨row0', hr0', hopt⟩ := splitNode_opt hb' hsplit
  have hlen : row0'.length = row0.length := by
    unfold finRows at hr0'
    rw [List.getElem?_map, hr0] at hr0'
    simp only [Option.map_some, Option.some.injEq] at hr0'
    rw [← hr0']; simp
  rw [hsam] at hadm
  rw [← hin.mcw] at hadm
  have := node_opt_reg hi' (hopt f (by omega) (usable_allowed hu he hne)) θ' hadm
  rw [h3, XF.fin_lt, decide_eq_false_iff_not, not_lt] at this
  rw [hsam] at this ⊢
  exact this

/-- **C07, regular leaf.** If a node above the maximum depth is a leaf, there is no admissible split
on a usable feature. -/
theorem C07_regular_leaf (S : GoSort) (X : List (List K)) (o : TreeOptions (Exact K))
    (t : Tree (Exact K)) (y : List K)
    (hb : newTree S (finRows X) o = .ok t) (hi : RegInput o y)
    (path : List Bool) (i : NodeInfo (Exact K))
    (hsub : t.sub path = .node i .nil .nil) (hdepth : (path.length : Int) < o.maxDepth)
    (row0 : List K) (hr0 : X[0]? = some row0) (f : Nat) (hf : f < row0.length)
    (hu : UsableAt o path f) (θ' : K) :
    ¬ Admissible X (toInt o.minChildWeight) i.samples f θ' := by
  intro hadm
  obtain ⟨o', d', hb', hd, hin, _, he, hne⟩ := newTreeD_sub S _ _ o t hb path i _ _ hsub
  have hi' := hi.inherit hin
  obtain ⟨hsam, _, _, hv, _⟩ := mkInfo_samples hb'
  rcases leafNode hb' with h0 | ⟨row0', hr0', hopt⟩
  · omega
  have hlen : row0'.length = row0.length := by
    unfold finRows at hr0'
    rw [List.getElem?_map, hr0] at hr0'
    simp only [Option.map_some, Option.some.injEq] at hr0'
    rw [← hr0']; simp
  rw [hsam, ← hin.mcw] at hadm
  have := node_opt_reg hi' (hopt f (by omega) (usable_allowed hu he hne)) θ' hadm
  have hz : (score0 o'.xgb : Exact K) = .inf false := by
    rw [hi'.xgb]; rfl
  rw [hz] at this
  cases this

/-! ### C09 -/

/-- **C09**: the value of every node of an xgboost tree is `-G/(H+Lambda)`, and no weight has a smaller
second-order objective. -/
theorem C09_value_optimal (S : GoSort) (X : List (List K)) (o : TreeOptions (Exact K))
    (t : Tree (Exact K)) (g h : List K) (lam gam : K)
    (hb : newTree S (finRows X) o = .ok t) (hi : XgbInput o g h lam gam)
    (path : List Bool) (i : NodeInfo (Exact K)) (l r : Tree (Exact K))
    (hsub : t.sub path = .node i l r) (hpos : 0 < sumOver h i.samples + lam) :
    i.value = .fin (-sumOver g i.samples / (sumOver h i.samples + lam)) ∧
    ∀ w, objective g h lam i.samples (-sumOver g i.samples / (sumOver h i.samples + lam)) ≤
      objective g h lam i.samples w := by
  obtain ⟨o', d', hb', _, hin, _, _, _⟩ := newTreeD_sub S _ _ o t hb path i l r hsub
  have hi' := hi.inherit hin
  obtain ⟨hsam, _, _, hv, _⟩ := mkInfo_samples hb'
  obtain ⟨_, _, hval⟩ := nodeValue_xgb (o := o'.fill (finRows X)) hi'.xgb hi'.grad hi'.hess hv
  constructor
  · rw [hval, ← hsam]
    show _ /. (_ +. o'.lambda) = _
    rw [hi'.lambda, Exact.add_fin, Exact.div_fin _ _ hpos.ne']
  · intro w
    unfold objective
    generalize sumOver g i.samples = G
    generalize sumOver h i.samples + lam = D at hpos
    have key : G * w + D * w ^ 2 / 2 - (G * (-G / D) + D * (-G / D) ^ 2 / 2) = (D * w + G) ^ 2 / (2 * D) := by
      field_simp
      ring
    have : 0 ≤ (D * w + G) ^ 2 / (2 * D) := by positivity
    linarith

/-- the value also without the sign condition, as the code computes it: `-G` divided by `H+Lambda` with
IEEE semantics for a zero divisor -/
theorem C09_value (S : GoSort) (X : List (List K)) (o : TreeOptions (Exact K))
    (t : Tree (Exact K)) (g h : List K) (lam gam : K)
    (hb : newTree S (finRows X) o = .ok t) (hi : XgbInput o g h lam gam)
    (path : List Bool) (i : NodeInfo (Exact K)) (l r : Tree (Exact K))
    (hsub : t.sub path = .node i l r) :
    i.value = .fin (-sumOver g i.samples) /. .fin (sumOver h i.samples + lam) := by
  obtain ⟨o', d', hb', _, hin, _, _, _⟩ := newTreeD_sub S _ _ o t hb path i l r hsub
  have hi' := hi.inherit hin
  obtain ⟨hsam, _, _, hv, _⟩ := mkInfo_samples hb'
  obtain ⟨_, _, hval⟩ := nodeValue_xgb (o := o'.fill (finRows X)) hi'.xgb hi'.grad hi'.hess hv
  rw [hval, ← hsam]
  show _ /. (_ +. o'.lambda) = _
  rw [hi'.lambda, Exact.add_fin]

/-! ### C11 -/

/-- **C11, gain of a split**: strictly positive, and equal to half of the qualities of both sides minus
that of the parent, minus `Gamma/2`; the sides are the sample lists of the children. -/
theorem C11_gain (S : GoSort) (X : List (List K)) (o : TreeOptions (Exact K))
    (t : Tree (Exact K)) (g h : List K) (lam gam : K)
    (hb : newTree S (finRows X) o = .ok t) (hi : XgbInput o g h lam gam)
    (hp : ∀ v ∈ h, 0 ≤ v ∧ 0 < v + lam)
    (path : List Bool) (i il ir : NodeInfo (Exact K)) (ll lr rl rr : Tree (Exact K))
    (hsub : t.sub path = .node i (.node il ll lr) (.node ir rl rr)) :
    ∃ gain : K, i.bestScoreSoFar = .fin gain ∧ 0 < gain ∧
      gain = 1 / 2 * (quality g h lam il.samples + quality g h lam ir.samples
        - quality g h lam i.samples) - gam / 2 := by
  obtain ⟨o', d', hb', _, hin, _, _, _⟩ := newTreeD_sub S _ _ o t hb path i _ _ hsub
  obtain ⟨θ, _, _, h3, h4, d'', hL, hR⟩ := node_split_xgb hb' (by simp) (hi.inherit hin) hp
  have e1 := (mkInfo_samples hL).1
  have e2 := (mkInfo_samples hR).1
  rw [child_idx] at e1 e2
  rw [e1, e2]
  exact ⟨_, h3, h4, rfl⟩

/-- Regularised training objective of a tree: the second-order objective of every leaf, with the leaf's
value as weight, plus `Gamma/2` per split. `none` if a leaf value is not finite. -/
def treeObjective (g h : List K) (lam gam : K) : Tree (Exact K) → Option K
  | .nil => some 0
  | .node i .nil .nil =>
    match i.value with
    | .fin w => some (objective g h lam i.samples w)
    | _ => none
  | .node _ l r =>
    match treeObjective g h lam gam l, treeObjective g h lam gam r with
    | some a, some b => some (a + b + gam / 2)
    | _, _ => none

theorem objective_opt (g h : List K) (lam : K) (idx : List Nat) (hpos : 0 < sumOver h idx + lam) :
    objective g h lam idx (-sumOver g idx / (sumOver h idx + lam)) = -(1 / 2 * quality g h lam idx) := by
  unfold objective quality
  generalize sumOver g idx = G
  generalize sumOver h idx + lam = D at hpos
  field_simp
  ring

theorem treeObjective_le {S : GoSort} {X : List (List K)} {g h : List K} {lam gam : K}
    (hp : HessOk h lam) (d : Nat) (o : TreeOptions (Exact K)) (t : Tree (Exact K))
    (hi : XgbInput o g h lam gam)
    (hb : newTreeD S (finRows X) d o = .ok t) (hne : o.idx (finRows X) ≠ []) :
    ∃ v, treeObjective g h lam gam t = some v ∧ v ≤ -(1 / 2 * quality g h lam (o.idx (finRows X))) := by
  induction t generalizing d o with
  | nil => exact absurd rfl (newTree_ne_nil hb)
  | node i l r ihl ihr =>
    obtain ⟨hsam, _, _, hv, _⟩ := mkInfo_samples hb
    obtain ⟨_, hrange, hval⟩ := nodeValue_xgb (o := o.fill (finRows X)) hi.xgb hi.grad hi.hess hv
    have hpos := den_pos hp hne hrange
    by_cases hl : l = .nil
    · subst hl
      have hr : r = .nil := by
        obtain ⟨v, row0, hv, hr, _, ⟨_, h2⟩ | ⟨_, best, _, _, _, h2⟩ |
          ⟨_, best, col, tl, tr, _, hs, hlf, _, h3, h4, h2⟩⟩ := newTreeD_inv _ _ _ _ _ hb
        · cases h2; rfl
        · cases h2; rfl
        · cases h2; exact absurd rfl (newTree_ne_nil h3)
      subst hr
      have hval' : i.value = .fin (-sumOver g (o.idx (finRows X)) / (sumOver h (o.idx (finRows X)) + lam)) := by
        rw [hval]
        show _ /. (_ +. o.lambda) = _
        rw [hi.lambda, Exact.add_fin, Exact.div_fin _ _ hpos.ne']
      refine ⟨_, by rw [treeObjective, hval'], ?_⟩
      rw [hsam, objective_opt g h lam _ hpos]
    · obtain ⟨θ, _, hadm, _, hgain, d', hL, hR⟩ := node_split_xgb hb hl hi hp
      obtain ⟨nL, nR, _⟩ := adm_ne hadm
      obtain ⟨a, ha, ha'⟩ := ihl d' _ (hi.inherit (Inherit.child (finRows X) o _)) hL nL
      obtain ⟨b, hb2, hb'⟩ := ihr d' _ (hi.inherit (Inherit.child (finRows X) o _)) hR nR
      rw [child_idx] at ha' hb'
      refine ⟨a + b + gam / 2, ?_, ?_⟩
      · cases l with
        | nil => exact absurd rfl hl
        | node => rw [treeObjective, ha, hb2]; simp
      · unfold xgbGain at hgain
        rw [hsam] at hgain ha' hb'
        linarith

/-- **C11, objective**: the regularised objective of the tree is at most that of the unsplit root, with
any weight for the root. -/
theorem C11_objective (S : GoSort) (X : List (List K)) (o : TreeOptions (Exact K))
    (t : Tree (Exact K)) (g h : List K) (lam gam : K)
    (hb : newTree S (finRows X) o = .ok t) (hi : XgbInput o g h lam gam)
    (hp : ∀ v ∈ h, 0 ≤ v ∧ 0 < v + lam) (hne : trainingRows (finRows X) o ≠ []) :
    ∃ v, treeObjective g h lam gam t = some v ∧
      ∀ w, v ≤ objective g h lam (trainingRows (finRows X) o) w := by
  rw [← idx_eq_trainingRows] at *
  obtain ⟨v, h1, h2⟩ := treeObjective_le hp _ o t hi hb hne
  refine ⟨v, h1, fun w => h2.trans ?_⟩
  cases t with
  | nil => exact absurd rfl (newTree_ne_nil hb)
  | node i l r =>
    obtain ⟨hsam, _, _, hv, _⟩ := mkInfo_samples hb
    obtain ⟨_, hrange, _⟩ := nodeValue_xgb (o := o.fill (finRows X)) hi.xgb hi.grad hi.hess hv
    have hpos := den_pos hp hne hrange
    have := (C09_value_optimal S X o _ g h lam gam hb hi [] i l r rfl (by rw [hsam]; exact hpos)).2 w
    rw [hsam] at this
    rw [← objective_opt g h lam _ hpos]
    exact this

/-! ### C10 -/

theorem leaf_path {F : Type} {t : Tree F} {leaf : NodeInfo F} (h : leaf ∈ t.leaves) :
    ∃ path, t.sub path = .node leaf .nil .nil := by
  induction t with
  | nil => simp [Tree.leaves] at h
  | node i l r ihl ihr =>
    by_cases hc : l = .nil ∧ r = .nil
    · obtain ⟨rfl, rfl⟩ := hc
      simp only [Tree.leaves, List.mem_singleton] at h
      exact ⟨[], by rw [h]; rfl⟩
    · have hlv : (Tree.node i l r).leaves = l.leaves ++ r.leaves := by
        cases l with
        | nil => cases r with
          | nil => exact absurd ⟨rfl, rfl⟩ hc
          | node => rfl
        | node => cases r <;> rfl
      rw [hlv, List.mem_append] at h
      rcases h with h | h
      · obtain ⟨p, hp⟩ := ihl h; exact ⟨true :: p, hp⟩
      · obtain ⟨p, hp⟩ := ihr h; exact ⟨false :: p, hp⟩

/-- **C10, values**: every node of a regular tree carries the mean of the targets of its samples. -/
theorem C10_node_mean (S : GoSort) (X : List (List K)) (o : TreeOptions (Exact K))
    (t : Tree (Exact K)) (y : List K) (hb : newTree S (finRows X) o = .ok t) (hi : RegInput o y)
    (hne : trainingRows (finRows X) o ≠ []) (path : List Bool) (i : NodeInfo (Exact K))
    (l r : Tree (Exact K)) (hsub : t.sub path = .node i l r) :
    i.samples ≠ [] ∧ i.value = .fin (mean y i.samples) := by
  obtain ⟨o', d', hb', _, hin, _, he, _⟩ := newTreeD_sub S _ _ o t hb path i l r hsub
  obtain ⟨hsam, _, _, hv, _⟩ := mkInfo_samples hb'
  have hs : i.samples ≠ [] := by
    by_cases hp : path = []
    · rw [hsam, he hp, idx_eq_trainingRows]; exact hne
    · have := (C06_exact S X o t hb path hp i l r hsub).1
      intro h0; rw [h0] at this; simp at this
  refine ⟨hs, ?_⟩
  have := (nodeValue_reg (o := o'.fill (finRows X)) (hi.inherit hin).xgb (hi.inherit hin).targets hv
    (by rw [← hsam]; exact hs)).2
  rw [hsam]; exact this

theorem mean_mul (y : List K) (idx : List Nat) (h : idx ≠ []) :
    (idx.length : K) * mean y idx = sumOver y idx := by
  have hpos : ((idx.length : K)) ≠ 0 := by
    have : 0 < idx.length := List.length_pos_iff.2 h
    exact_mod_cast this.ne'
  unfold mean; field_simp

theorem sse_expand (y : List K) (idx : List Nat) (c : K) :
    sse y idx c = (idx.map fun i => (y.getD i 0) ^ 2).sum - 2 * c * sumOver y idx + idx.length * c ^ 2 := by
  unfold sse sumOver
  induction idx with
  | nil => simp
  | cons a l ih =>
    simp only [List.map_cons, List.sum_cons, List.length_cons, ih]
    push_cast; ring

theorem sse_mean_le (y : List K) (idx : List Nat) (h : idx ≠ []) (c : K) :
    sse y idx (mean y idx) ≤ sse y idx c := by
  rw [sse_expand, sse_expand, ← mean_mul y idx h]
  have hn : (0 : K) ≤ idx.length := Nat.cast_nonneg _
  have : 0 ≤ (idx.length : K) * (mean y idx - c) ^ 2 := mul_nonneg hn (sq_nonneg _)
  nlinarith

theorem mean_bounds (y : List K) (idx : List Nat) (h : idx ≠ []) (lo hi : K)
    (hb : ∀ i ∈ idx, lo ≤ y.getD i 0 ∧ y.getD i 0 ≤ hi) : lo ≤ mean y idx ∧ mean y idx ≤ hi := by
  have hpos : (0 : K) < idx.length := by
    have : 0 < idx.length := List.length_pos_iff.2 h
    exact_mod_cast this
  have hs : idx.length * lo ≤ sumOver y idx ∧ sumOver y idx ≤ idx.length * hi := by
    unfold sumOver
    clear h hpos
    induction idx with
    | nil => simp
    | cons a l ih =>
      obtain ⟨h1, h2⟩ := hb a (by simp)
      obtain ⟨h3, h4⟩ := ih fun i hi => hb i (by simp [hi])
      simp only [List.map_cons, List.sum_cons, List.length_cons]
      push_cast
      constructor <;> linarith
  unfold mean
  rw [le_div_iff₀ hpos, div_le_iff₀ hpos]
  constructor <;> linarith [hs.1, hs.2]

theorem sum_flatMap_leaves (leaves : List (NodeInfo (Exact K))) (φ ψ : Nat → K)
    (h : ∀ leaf ∈ leaves, (leaf.samples.map φ).sum = (leaf.samples.map ψ).sum) :
    ((leaves.flatMap (·.samples)).map φ).sum = ((leaves.flatMap (·.samples)).map ψ).sum := by
  induction leaves with
  | nil => rfl
  | cons a l ih =>
    simp only [List.flatMap_cons, List.map_append, List.sum_append]
    rw [h a (by simp), ih fun x hx => h x (by simp [hx])]

theorem sum_flatMap_le (leaves : List (NodeInfo (Exact K))) (φ ψ : Nat → K)
    (h : ∀ leaf ∈ leaves, (leaf.samples.map φ).sum ≤ (leaf.samples.map ψ).sum) :
    ((leaves.flatMap (·.samples)).map φ).sum ≤ ((leaves.flatMap (·.samples)).map ψ).sum := by
  induction leaves with
  | nil => exact le_refl _
  | cons a l ih =>
    simp only [List.flatMap_cons, List.map_append, List.sum_append]
    exact add_le_add (h a (by simp)) (ih fun x hx => h x (by simp [hx]))

/-- **C10, predictions**: let `pred i` be what the tree predicts for training row `i`. Predictions lie
between any bounds of the targets, their sum is the sum of the targets, and the total squared error is at
most that of any constant (so also of the mean). -/
theorem C10_predictions (S : GoSort) (X : List (List K)) (o : TreeOptions (Exact K))
    (t : Tree (Exact K)) (y : List K) (hb : newTree S (finRows X) o = .ok t) (hi : RegInput o y)
    (hne : trainingRows (finRows X) o ≠ [])
    (hrange : ∀ i ∈ trainingRows (finRows X) o, i < X.length) :
    ∃ pred : Nat → K,
      (∀ i ∈ trainingRows (finRows X) o, ∃ row, X[i]? = some row ∧
        t.predictSingle (row.map XF.fin) = .ok (.fin (pred i))) ∧
      (∀ lo hi, (∀ i ∈ trainingRows (finRows X) o, lo ≤ y.getD i 0 ∧ y.getD i 0 ≤ hi) →
        ∀ i ∈ trainingRows (finRows X) o, lo ≤ pred i ∧ pred i ≤ hi) ∧
      ((trainingRows (finRows X) o).map pred).sum = sumOver y (trainingRows (finRows X) o) ∧
      ∀ c, ((trainingRows (finRows X) o).map fun i => (y.getD i 0 - pred i) ^ 2).sum ≤
        sse y (trainingRows (finRows X) o) c := by
  classical
  have hperm := C03_leaves_partition S (finRows X) o t hb
  set rows := trainingRows (finRows X) o with hrows
  let pred : Nat → K := fun i =>
    if h : ∃ leaf ∈ t.leaves, i ∈ leaf.samples then mean y h.choose.samples else 0
  have hmean : ∀ leaf ∈ t.leaves, leaf.samples ≠ [] ∧ leaf.value = .fin (mean y leaf.samples) := by
    intro leaf hl
    obtain ⟨p, hp⟩ := leaf_path hl
    exact C10_node_mean S X o t y hb hi hne p leaf _ _ hp
  have hmemrow : ∀ leaf ∈ t.leaves, ∀ i ∈ leaf.samples, i ∈ rows := fun leaf hl i hi =>
    hperm.mem_iff.1 (List.mem_flatMap.2 ⟨leaf, hl, hi⟩)
  have hrow : ∀ i ∈ rows, ∃ row, X[i]? = some row ∧ (finRows X)[i]? = some (row.map XF.fin) := by
    intro i hi
    have := hrange i hi
    refine ⟨X[i], List.getElem?_eq_getElem this, ?_⟩
    unfold finRows
    rw [List.getElem?_map, List.getElem?_eq_getElem this]; rfl
  have hpredLeaf : ∀ leaf ∈ t.leaves, ∀ i ∈ leaf.samples, pred i = mean y leaf.samples := by
    intro leaf hl i hi
    have hex : ∃ leaf ∈ t.leaves, i ∈ leaf.samples := ⟨leaf, hl, hi⟩
    have e : pred i = mean y hex.choose.samples := dif_pos hex
    obtain ⟨row, _, hr⟩ := hrow i (hmemrow leaf hl i hi)
    have h1 := C04_training_row S (finRows X) o t hb leaf hl i hi _ hr
    have h2 := C04_training_row S (finRows X) o t hb _ hex.choose_spec.1 i hex.choose_spec.2 _ hr
    rw [h1, (hmean leaf hl).2, (hmean _ hex.choose_spec.1).2] at h2
    simp only [Except.ok.injEq] at h2
    rw [e, fin_inj h2]
  have hleaf : ∀ i ∈ rows, ∃ leaf ∈ t.leaves, i ∈ leaf.samples := fun i hi =>
    List.mem_flatMap.1 (hperm.mem_iff.2 hi)
  have hconst : ∀ leaf ∈ t.leaves, ∀ φ : Nat → K → K,
      (leaf.samples.map fun i => φ i (pred i)) = leaf.samples.map fun i => φ i (mean y leaf.samples) := by
    intro leaf hl φ
    apply List.map_congr_left
    intro i hi
    rw [hpredLeaf leaf hl i hi]
  refine ⟨pred, ?_, ?_, ?_, ?_⟩
  · intro i hi
    obtain ⟨leaf, hl, hil⟩ := hleaf i hi
    obtain ⟨row, hr0, hr⟩ := hrow i hi
    refine ⟨row, hr0, ?_⟩
    rw [C04_training_row S (finRows X) o t hb leaf hl i hil _ hr, (hmean leaf hl).2,
      hpredLeaf leaf hl i hil]
  · intro lo hi hbd i hir
    obtain ⟨leaf, hl, hil⟩ := hleaf i hir
    rw [hpredLeaf leaf hl i hil]
    exact mean_bounds y _ (hmean leaf hl).1 lo hi fun j hj => hbd j (hmemrow leaf hl j hj)
  · unfold sumOver
    rw [← (hperm.map pred).sum_eq, ← (hperm.map fun i => y.getD i 0).sum_eq]
    refine sum_flatMap_leaves _ _ _ fun leaf hl => ?_
    have := hconst leaf hl fun _ p => p
    rw [this, List.map_const', List.sum_replicate, nsmul_eq_mul, mean_mul y _ (hmean leaf hl).1]
    rfl
  · intro c
    unfold sse
    rw [← (hperm.map fun i => (y.getD i 0 - pred i) ^ 2).sum_eq,
      ← (hperm.map fun i => (y.getD i 0 - c) ^ 2).sum_eq]
    refine sum_flatMap_le _ _ _ fun leaf hl => ?_
    rw [hconst leaf hl fun i p => (y.getD i 0 - p) ^ 2]
    exact sse_mean_le y _ (hmean leaf hl).1 c

/-! ### The hypotheses are met

Trees over the exact rationals: a regular tree with two splits and an xgboost tree with a split. -/

def exXQ : List (List ℚ) := [[0, 5], [1, 3], [2, 9], [3, 1]]
def exOQ : TreeOptions (Exact ℚ) :=
  { (defaultGTreeOptions : TreeOptions (Exact ℚ)) with
    y := [1, 2, 10, 20].map XF.fin, maxDepth := 2 }
def exOXQ : TreeOptions (Exact ℚ) :=
  { (defaultXTreeOptions : TreeOptions (Exact ℚ)) with
    gradients := some ([1, 2, -10, -20].map XF.fin),
    hessian := some ([1, 1, 1, 1].map XF.fin), lambda := .fin 1, gamma := .fin 1, maxDepth := 2 }

def builtShapeQ (t : Go (Tree (Exact ℚ))) (n h : Nat) : Bool :=
  match t with
  | .ok t => t.size == n && t.height == h
  | .error _ => false

example : builtShapeQ (newTree GoSort.ins (finRows exXQ) exOQ) 5 2 = true := by decide +kernel
example : builtShapeQ (newTree GoSort.ins (finRows exXQ) exOXQ) 3 1 = true := by decide +kernel
example : RegInput exOQ [1, 2, 10, 20] := ⟨rfl, rfl⟩
example : XgbInput exOXQ [1, 2, -10, -20] [1, 1, 1, 1] 1 1 := ⟨rfl, rfl, rfl, rfl, rfl⟩
example : ∀ v ∈ [(1 : ℚ), 1, 1, 1], 0 ≤ v ∧ 0 < v + 1 := by decide +kernel
example : trainingRows (finRows exXQ) exOQ ≠ [] ∧
    ∀ i ∈ trainingRows (finRows exXQ) exOQ, i < exXQ.length := by decide
/-- there are admissible splits at the root, so optimality is not vacuous -/
example : Admissible exXQ 1 [0, 1, 2, 3] 0 (3/2) ∧ Admissible exXQ 1 [0, 1, 2, 3] 1 2 := by
  unfold Admissible; decide +kernel

end Boo
