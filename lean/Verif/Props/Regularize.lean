import Verif.Props.Confidence
import Verif.Lemmas.InvarianceModel

/-!
# C135: regularization

`Lambda` limits the steps of an xgboost model and `Gamma` its splits.
-/

namespace Boo
open GoFloat Spec
set_option linter.unusedSectionVars false

section tree
variable {K : Type} [Field K] [LinearOrder K] [IsStrictOrderedRing K] [FloorRing K]

/-- sum of bounded numbers -/
theorem sumOver_abs_le {g : List K} {B : K} (hg : ∀ v ∈ g, |v| ≤ B) {s : List Nat} (hs : ∀ w ∈ s, w < g.length) :
    |sumOver g s| ≤ B * s.length := by
  induction s with
  | nil => simp [sumOver]
  | cons w s ih =>
    have h1 := ih fun w' hw' => hs w' (by simp [hw'])
    have hw := hs w (by simp)
    have h2 : g.getD w 0 = g[w] := by simp [hw]
    have h3 := hg _ (List.getElem_mem hw)
    unfold sumOver at h1 ⊢
    rw [List.map_cons, List.sum_cons, List.length_cons, h2]
    refine (abs_add_le _ _).trans ?_
    push_cast
    linarith

/-- sum of numbers that are at least `c` -/
theorem sumOver_ge {h : List K} {c : K} (hh : ∀ v ∈ h, c ≤ v) {s : List Nat} (hs : ∀ w ∈ s, w < h.length) :
    c * s.length ≤ sumOver h s := by
  induction s with
  | nil => simp [sumOver]
  | cons w s ih =>
    have h1 := ih fun w' hw' => hs w' (by simp [hw'])
    have hw := hs w (by simp)
    have h2 : h.getD w 0 = h[w] := by simp [hw]
    have h3 := hh _ (List.getElem_mem hw)
    unfold sumOver at h1 ⊢
    rw [List.map_cons, List.sum_cons, List.length_cons, h2]
    push_cast
    linarith

/-- `k / (c k + lam)` grows with `k` -/
theorem step_mono {c lam B : K} (hc : 0 ≤ c) (hl : 0 ≤ lam) (hcl : 0 < c + lam) (hB : 0 ≤ B) {k n : Nat} (hk : 0 < k) (hkn : k ≤ n) :
    0 < c * k + lam ∧ 0 < c * n + lam ∧ B * k / (c * k + lam) ≤ B * n / (c * n + lam) := by
  have hk1 : (1 : K) ≤ k := by exact_mod_cast hk
  have hkn' : (k : K) ≤ n := by exact_mod_cast hkn
  have p1 : 0 < c * k + lam := by nlinarith
  have p2 : 0 < c * n + lam := by nlinarith
  refine ⟨p1, p2, ?_⟩
  rw [div_le_div_iff₀ p1 p2]
  have : (k : K) * lam ≤ n * lam := mul_le_mul_of_nonneg_right hkn' hl
  nlinarith

/-- value and quality of a set of rows -/
theorem step_bound {g h : List K} {lam c B : K} (hc : 0 ≤ c) (hl : 0 ≤ lam) (hcl : 0 < c + lam) (hg : ∀ v ∈ g, |v| ≤ B)
    (hh : ∀ v ∈ h, c ≤ v) {s : List Nat} (hsg : ∀ w ∈ s, w < g.length) (hsh : ∀ w ∈ s, w < h.length) (hne : s ≠ []) {n : Nat}
    (hn : s.length ≤ n) :
    0 < sumOver h s + lam ∧ |-sumOver g s / (sumOver h s + lam)| ≤ B * n / (c * n + lam) ∧
      quality g h lam s ≤ s.length * (B * (B * n / (c * n + lam))) := by
  have hB : 0 ≤ B := by
    obtain ⟨w, s', rfl⟩ := List.exists_cons_of_ne_nil hne
    exact (abs_nonneg _).trans (hg _ (List.getElem_mem (hsg w (by simp))))
  have hk : 0 < s.length := List.length_pos_iff.2 hne
  obtain ⟨p1, p2, p3⟩ := step_mono hc hl hcl hB hk hn
  have hG := sumOver_abs_le hg hsg
  have hH := sumOver_ge hh hsh
  have pos : 0 < sumOver h s + lam := by linarith
  have hval : |-sumOver g s / (sumOver h s + lam)| ≤ B * s.length / (c * s.length + lam) := by
    rw [abs_div, abs_neg, abs_of_pos pos]
    exact div_le_div₀ (by positivity) hG p1 (by linarith)
  refine ⟨pos, hval.trans p3, ?_⟩
  have e : quality g h lam s = |sumOver g s| * |-sumOver g s / (sumOver h s + lam)| := by
    unfold quality
    rw [abs_div, abs_neg, abs_of_pos pos, ← mul_div_assoc, ← pow_two, sq_abs]
  rw [e, show (s.length : K) * (B * (B * n / (c * n + lam))) = (B * s.length) * (B * n / (c * n + lam)) by ring]
  exact mul_le_mul hG (hval.trans p3) (abs_nonneg _) (by positivity)

/-- **C135 (trees, `Lambda`)**: if no gradient exceeds `B` in magnitude and no Hessian is below `c`, no value in an xgboost tree made
from `n` gradients exceeds `B n / (c n + Lambda)` in magnitude. -/
theorem C135_tree_values (S : GoSort) (X : List (List K)) (o : TreeOptions (Exact K)) (t : Tree (Exact K)) (g h : List K)
    (lam gam c B : K) (hb : newTree S (finRows X) o = .ok t) (hi : XgbInput o g h lam gam) (hne : trainingRows (finRows X) o ≠ [])
    (hc : 0 ≤ c) (hl : 0 ≤ lam) (hcl : 0 < c + lam) (hg : ∀ v ∈ g, |v| ≤ B) (hh : ∀ v ∈ h, c ≤ v)
    (path : List Bool) (i : NodeInfo (Exact K)) (l r : Tree (Exact K)) (hsub : t.sub path = .node i l r) :
    ∃ v : K, i.value = .fin v ∧ |v| ≤ B * g.length / (c * g.length + lam) := by
  obtain ⟨o', d', hb', _, hin, _, hroot, _⟩ := newTreeD_sub S _ _ o t hb path i l r hsub
  have hi' := hi.inherit hin
  obtain ⟨hsam, _, _, hv, _⟩ := mkInfo_samples hb'
  obtain ⟨r1, r2, _⟩ := nodeValue_xgb (o := o'.fill (finRows X)) hi'.xgb hi'.grad hi'.hess hv
  have hlen : i.samples.length ≤ g.length := by
    unfold nodeValue at hv
    rw [show (o'.fill (finRows X)).xgb = true from hi'.xgb, if_pos rfl] at hv
    obtain ⟨gs, h1, _⟩ := bind_ok hv
    have := ((C40_sampleSlice _ _ _).1 h1).1
    rw [show (o'.fill (finRows X)).gradients = some (g.map XF.fin) from hi'.grad] at this
    rw [hsam]
    simpa using this
  have hsne : i.samples ≠ [] := by
    by_cases hp : path = []
    · rw [hsam, hroot hp, idx_eq_trainingRows]
      exact hne
    · have := (C06_exact S X o t hb path hp i l r hsub).1
      intro h0
      rw [h0] at this
      simp at this
  rw [← hsam] at r1 r2
  obtain ⟨b1, b2, _⟩ := step_bound hc hl hcl hg hh r1 r2 hsne hlen
  exact ⟨_, (C09_value_optimal S X o t g h lam gam hb hi path i l r hsub b1).1, b2⟩

/-- **C135 (trees, `Gamma`)**: under the same bounds, a `Gamma` of at least `B² n² / (c n + Lambda)` forbids every split: the tree is a
single leaf, and predicts the same for every row. -/
theorem C135_tree_gamma (S : GoSort) (X : List (List K)) (o : TreeOptions (Exact K)) (t : Tree (Exact K)) (g h : List K)
    (lam gam c B : K) (hb : newTree S (finRows X) o = .ok t) (hi : XgbInput o g h lam gam)
    (hc : 0 ≤ c) (hl : 0 ≤ lam) (hcl : 0 < c + lam) (hg : ∀ v ∈ g, |v| ≤ B) (hh : ∀ v ∈ h, c ≤ v)
    (hgam : g.length * (B * (B * g.length / (c * g.length + lam))) ≤ gam) :
    ∃ i, t = .node i .nil .nil ∧ t.size = 1 ∧ ∀ row, t.predictSingle row = .ok i.value := by
  cases t with
  | nil => exact absurd rfl (newTree_ne_nil hb)
  | node i l r =>
    have hlf := C02_leaf_iff_no_children S _ o _ hb [] i l r rfl
    cases hleaf : i.leaf with
    | true =>
      obtain ⟨rfl, rfl⟩ := hlf.1.1 hleaf
      refine ⟨i, rfl, rfl, fun row => ?_⟩
      unfold Tree.predictSingle
      rw [hleaf, if_pos rfl]
    | false =>
      exfalso
      have hp : HessOk h lam := fun v hv => ⟨hc.trans (hh v hv), by linarith [hh v hv]⟩
      obtain ⟨θ, _, hadm, _, hpos, _⟩ := node_split_xgb hb (hlf.2.1 hleaf).1 hi hp
      obtain ⟨hsam, _, _, hv, _⟩ := mkInfo_samples hb
      obtain ⟨r1, r2, _⟩ := nodeValue_xgb (o := o.fill (finRows X)) hi.xgb hi.grad hi.hess hv
      have hlen : i.samples.length ≤ g.length := by
        unfold nodeValue at hv
        rw [show (o.fill (finRows X)).xgb = true from hi.xgb, if_pos rfl] at hv
        obtain ⟨gs, h1, _⟩ := bind_ok hv
        have := ((C40_sampleSlice _ _ _).1 h1).1
        rw [show (o.fill (finRows X)).gradients = some (g.map XF.fin) from hi.grad] at this
        rw [hsam]
        simpa using this
      rw [← hsam] at r1 r2
      have hsum := left_right_length X i.samples i.splitFeatureIndex θ
      obtain ⟨a1, a2⟩ := hadm
      have hL : leftOf X i.samples i.splitFeatureIndex θ ≠ [] := by
        intro h0
        rw [h0] at a1
        have := le_max_left 1 (toInt o.minChildWeight)
        simp at a1
      have hR : rightOf X i.samples i.splitFeatureIndex θ ≠ [] := by
        intro h0
        rw [h0] at a2
        simp at a2
      have mL : ∀ w ∈ leftOf X i.samples i.splitFeatureIndex θ, w ∈ i.samples := fun w hw => (List.mem_filter.1 hw).1
      have mR : ∀ w ∈ rightOf X i.samples i.splitFeatureIndex θ, w ∈ i.samples := fun w hw => (List.mem_filter.1 hw).1
      obtain ⟨_, _, q1⟩ := step_bound hc hl hcl hg hh (fun w hw => r1 w (mL w hw)) (fun w hw => r2 w (mL w hw)) hL
        (n := g.length) (by omega)
      obtain ⟨_, _, q2⟩ := step_bound hc hl hcl hg hh (fun w hw => r1 w (mR w hw)) (fun w hw => r2 w (mR w hw)) hR
        (n := g.length) (by omega)
      have hsne : i.samples ≠ [] := by
        rintro h0
        rw [h0] at hL
        exact hL rfl
      obtain ⟨p1, p2, _⟩ := step_bound hc hl hcl hg hh r1 r2 hsne hlen
      have hq : 0 ≤ quality g h lam i.samples := by
        unfold quality
        positivity
      have hstep : 0 ≤ B * (B * g.length / (c * g.length + lam)) := by
        have := (abs_nonneg _).trans p2
        have hB : 0 ≤ B := by
          obtain ⟨w, s', hs'⟩ := List.exists_cons_of_ne_nil hsne
          exact (abs_nonneg _).trans (hg _ (List.getElem_mem (r1 w (by rw [hs']; simp))))
        positivity
      unfold xgbGain at hpos
      generalize B * (B * g.length / (c * g.length + lam)) = Z at *
      have hsum' : ((leftOf X i.samples i.splitFeatureIndex θ).length : K) + (rightOf X i.samples i.splitFeatureIndex θ).length ≤ g.length := by
        have : (leftOf X i.samples i.splitFeatureIndex θ).length + (rightOf X i.samples i.splitFeatureIndex θ).length ≤ g.length := by omega
        exact_mod_cast this
      nlinarith

end tree

/-- the least Hessian of the loss functions of boo: 1 for squared error, 0 for `MSELoss` -/
def LeastHessian (O : Options (Exact ℝ)) (labels : List Int) (c : ℝ) : Prop :=
  ∃ lv, O.loss = some lv ∧ ((lv.fn = sqErrLoss ∧ c = 1) ∨ (lv.fn = mseLoss ∧ c = 0 ∧ ∃ a ∈ labels, ∃ b ∈ labels, a ≠ b))

/-- the trees of an xgboost model are made from gradients of magnitude at most 1 and Hessians of at least `c` -/
theorem trained_steps (S : GoSort) (draws : Nat → Exact ℝ) (X : List (List ℝ)) (D : DataBunch (Exact ℝ))
    (hX : D.data = finRows X) (hd : X.length = D.labels.length)
    (O : Options (Exact ℝ)) (hO : RealOptions O) (hbase : ∃ x, O.baseScore = XF.fin x) (c : ℝ)
    (hloss : LeastHessian O D.labels c) (hms : rowSub O = true → 1 ≤ O.minSample) (hxgb : O.xgb = true) (lam gam : ℝ)
    (hlam : O.lambda = .fin lam) (hgam : O.gamma = .fin gam) (labels : List Int)
    (st : TrainState (Exact ℝ)) (ht : train expR S draws D O = .ok (labels, st)) :
    ∀ ens ∈ st.boosters, ∀ t ∈ ens, ∃ o g h, newTree S (finRows X) o = .ok t ∧ XgbInput o g h lam gam ∧
      trainingRows (finRows X) o ≠ [] ∧ g.length = X.length ∧ (∀ v ∈ g, |v| ≤ 1) ∧ (∀ v ∈ h, c ≤ v) := by
  obtain ⟨hl, hlab, ohe, st0, hohe, hr0, hc0, hw, hinit, hrounds⟩ := train_inv ht
  obtain ⟨i1, i2, i3, _, _, _, i7⟩ := trainInit_inv hinit hr0 hc0
  obtain ⟨base, hbase⟩ := hbase
  obtain ⟨lv, hlv, hk⟩ := hloss
  have hfix : ∃ f, O.fixMcw = { O with minChildWeight := f } := by
    unfold Options.fixMcw
    split
    · exact ⟨_, rfl⟩
    · exact ⟨O.minChildWeight, rfl⟩
  obtain ⟨f, hf⟩ := hfix
  have hO' : RealOptions O.fixMcw := by
    rw [hf]
    exact ⟨hO.lr, hO.lam, hO.gam⟩
  have hohe' : oneHotEncodeDense D.labels = .ok (ohe, distinctElements D.labels) := by
    rw [hlab] at hohe
    exact hohe
  have hXne : X ≠ [] := by
    rintro rfl
    simp at hd
    exact hl (List.length_eq_zero_iff.1 hd.symm)
  have hs : RealSetup X O.fixMcw ohe D.labels.length labels.length (lv.fn = sqErrLoss) := by
    refine ⟨hO', hd, List.length_pos_iff.2 hl, ?_, ?_, ?_⟩
    · intro k y hkm hy
      rw [hlab] at hkm
      exact ohe_real hl hohe' k y hkm hy
    · intro lv' hlv'
      rw [hf] at hlv'
      rw [show lv' = lv from Option.some.inj (hlv'.symm.trans hlv)]
      rcases hk with ⟨hk, _⟩ | ⟨hk, _⟩
      · rw [hk]
        exact ⟨fun y p h1 h2 => sqErr_real.ok y p h1 fun v hv => ⟨(h2 v hv).1, Or.inr trivial⟩⟩
      · rw [hk]
        refine ⟨fun y p h1 h2 => mse_real.ok y p h1 fun v hv => ⟨(h2 v hv).1, ?_⟩⟩
        rcases (h2 v hv).2 with h | h
        · exact Or.inl h
        · exfalso
          have : (mseLoss : LossFunc (Exact ℝ)).hessian [.fin 0] = sqErrLoss.hessian [.fin 0] := by rw [h]
          simp [mseLoss, sqErrLoss] at this
    · intro hlt
      rcases hk with ⟨hk, _⟩ | ⟨_, _, a, ha, b, hb, hab⟩
      · exact hk
      · have := distinct_two ha hb hab
        rw [← hlab] at this
        omega
  have hms' : rowSub O.fixMcw = true → 1 ≤ O.fixMcw.minSample := by
    rw [hf]
    exact hms
  rw [hX] at hrounds
  refine trainRounds_trees hs hms' ?_ hrounds i1 i2 ⟨?_, by rw [i2]; simp⟩
  · intro idx cols k y p lv' t hidx hk' hy hyl hpl hpv hp1 hlv' h
    rw [hf] at hlv'
    obtain rfl : lv' = lv := Option.some.inj (hlv'.symm.trans hlv)
    have hy01 : ∀ v ∈ y, 0 ≤ v ∧ v ≤ 1 := by
      intro v hv
      rw [hlab] at hk'
      have := ohe_column hl hohe' (List.getElem?_eq_getElem hk') hy
      have hv' : (XF.fin v : Exact ℝ) ∈ finV y := List.mem_map.2 ⟨v, hv, rfl⟩
      rw [this] at hv'
      obtain ⟨l, _, hl'⟩ := List.mem_map.1 hv'
      split at hl'
      · rw [Exact.one_fin] at hl'
        have := fin_inj hl'
        simp at this
        subst this
        norm_num
      · have := fin_inj hl'
        simp at this
        subst this
        norm_num
    obtain ⟨hgr, _⟩ := grad_fin y p (by omega)
    have hgl : lv'.fn.gradients = grad := by
      rcases hk with ⟨hk, _⟩ | ⟨hk, _⟩ <;> rw [hk] <;> rfl
    obtain ⟨hs', hh1, hh2⟩ : ∃ hs' : List ℝ, lv'.fn.hessian (finV p) = finV hs' ∧ ∀ v ∈ hs', c ≤ v := by
      rcases hk with ⟨hk, rfl⟩ | ⟨hk, rfl, _⟩
      · refine ⟨p.map fun _ => 1, by rw [hk]; simp [sqErrLoss, finV], ?_⟩
        intro v hv
        obtain ⟨_, _, rfl⟩ := List.mem_map.1 hv
        exact le_rfl
      · obtain ⟨h', e1, e2, _⟩ := C30_mse_hessian p
        refine ⟨h', by rw [hk]; exact e1, ?_⟩
        intro v hv
        rw [e2] at hv
        obtain ⟨x, hx, rfl⟩ := List.mem_map.1 hv
        exact mul_nonneg (hpv x hx).1.le (by linarith [hp1 x hx])
    unfold classTree at h
    rw [hf, if_pos hxgb] at h
    obtain ⟨g', hg', h⟩ := bind_ok h
    rw [hgl, hgr] at hg'
    cases hg'
    rw [hh1] at h
    refine ⟨_, List.zipWith (fun a b => b - a) y p, hs', h, ⟨rfl, rfl, rfl, hlam, hgam⟩, ?_, ?_, ?_, hh2⟩
    · unfold trainingRows
      cases idx with
      | none => simpa [finRows] using hXne
      | some s => exact (hidx s rfl).1
    · simp [hyl, hpl, hd]
    · intro v hv
      obtain ⟨w, hw⟩ := List.getElem?_of_mem hv
      rw [List.getElem?_zipWith] at hw
      cases e1 : y[w]? with
      | none => rw [e1] at hw; simp at hw
      | some a =>
        cases e2 : p[w]? with
        | none => rw [e1, e2] at hw; simp at hw
        | some b =>
          rw [e1, e2] at hw
          obtain rfl := Option.some.inj hw
          have ha := hy01 a (List.mem_of_getElem? e1)
          have hb0 := (hpv b (List.mem_of_getElem? e2)).1
          have hb1 := hp1 b (List.mem_of_getElem? e2)
          rw [abs_le]
          constructor <;> linarith [ha.1, ha.2]
  · intro i hin v hv
    rw [i7 i hin, List.mem_replicate] at hv
    rw [hv.2, hbase]
    exact ⟨_, rfl⟩

/-- **C135 (steps)**: no tree of an xgboost model trained on `n` rows predicts more than `n / (c n + Lambda)` in magnitude, where `c`
is 1 for squared error and 0 for `MSELoss`. -/
theorem C135_steps (S : GoSort) (draws : Nat → Exact ℝ) (X : List (List ℝ)) (D : DataBunch (Exact ℝ))
    (hX : D.data = finRows X) (hd : X.length = D.labels.length)
    (O : Options (Exact ℝ)) (hO : RealOptions O) (hbase : ∃ x, O.baseScore = XF.fin x) (c : ℝ)
    (hloss : LeastHessian O D.labels c) (hms : rowSub O = true → 1 ≤ O.minSample) (hxgb : O.xgb = true) (lam : ℝ)
    (hlam : O.lambda = .fin lam) (hpos : 0 < c + lam)
    (M : MultiClass (Exact ℝ)) (h : newMultiClass expR S draws D O = .ok M) :
    ∀ trees ∈ M.b, ∀ t ∈ trees, ∀ row v, t.predictSingle row = .ok v →
      ∃ x : ℝ, v = XF.fin x ∧ |x| ≤ X.length / (c * X.length + lam) := by
  obtain ⟨labels, st, ht, rfl⟩ := newMultiClass_inv h
  obtain ⟨gam, hgam⟩ := hO.gam
  have hl0 : 0 ≤ lam := by
    obtain ⟨x, h1, h2⟩ := hO.lam
    rw [hlam] at h1
    rw [fin_inj h1]
    exact h2
  have hc0 : 0 ≤ c := by
    obtain ⟨_, _, ⟨_, rfl⟩ | ⟨_, rfl, _⟩⟩ := hloss <;> norm_num
  intro trees htr t htm row v hv
  obtain ⟨o, g, hs, e1, e2, e3, e4, e5, e6⟩ := trained_steps S draws X D hX hd O hO hbase c hloss hms hxgb lam gam hlam hgam labels st ht
    trees htr t htm
  obtain ⟨path, i, l, r, h1, h2⟩ := predict_node hv
  obtain ⟨x, x1, x2⟩ := C135_tree_values S X o t g hs lam gam c 1 e1 e2 e3 hc0 hl0 hpos e5 e6 path i l r h1
  rw [e4, one_mul] at x2
  exact ⟨x, h2.symm.trans x1, x2⟩

/-- softmax of scores that are close together is nearly uniform -/
theorem near_uniform {m p d : ℝ} (hm : 1 ≤ m) (h1 : 1 / (1 + (m - 1) * Real.exp d) ≤ p) (h2 : p ≤ 1 / (1 + (m - 1) * Real.exp (-d)))
    (hd : 0 ≤ d) : |p - 1 / m| ≤ (Real.exp d - 1) / m := by
  have e0 := Real.exp_pos d
  have e1 : 1 ≤ Real.exp d := Real.one_le_exp hd
  have e2 : Real.exp (-d) * Real.exp d = 1 := by rw [← Real.exp_add]; simp
  have e3 := Real.exp_pos (-d)
  have m0 : 0 < m := by linarith
  have hup : p ≤ Real.exp d / m := by
    refine h2.trans ?_
    rw [div_le_div_iff₀ (by nlinarith) m0]
    nlinarith
  have hlo : (2 - Real.exp d) / m ≤ p := by
    refine le_trans ?_ h1
    rw [div_le_div_iff₀ m0 (by nlinarith)]
    -- (2 - e)(1 + (m-1) e) ≤ m
    nlinarith [mul_nonneg (sub_nonneg.2 hm) (sub_nonneg.2 e1), mul_nonneg (mul_nonneg (sub_nonneg.2 hm) (sub_nonneg.2 e1)) (sub_nonneg.2 e1)]
  rw [abs_le]
  constructor
  · have : (2 - Real.exp d) / m = 1 / m - (Real.exp d - 1) / m := by ring
    linarith
  · have : Real.exp d / m = 1 / m + (Real.exp d - 1) / m := by ring
    linarith

/-- **C135 (`Lambda`)**: the probabilities an xgboost model of `R` rounds predicts for any row differ from `1/m` (`m` classes) by at most
`(e^d - 1) / m` with `d = 2 |lr| R n / (c n + Lambda)`, so that a large `Lambda` makes all classes nearly equally likely. -/
theorem C135_lambda (S : GoSort) (draws : Nat → Exact ℝ) (X : List (List ℝ)) (D : DataBunch (Exact ℝ))
    (hX : D.data = finRows X) (hd : X.length = D.labels.length)
    (O : Options (Exact ℝ)) (hO : RealOptions O) (hbase : ∃ x, O.baseScore = XF.fin x) (c : ℝ)
    (hloss : LeastHessian O D.labels c) (hms : rowSub O = true → 1 ≤ O.minSample) (hxgb : O.xgb = true) (lam lr : ℝ)
    (hlam : O.lambda = .fin lam) (hlr : O.learningRate = .fin lr) (hpos : 0 < c + lam)
    (M : MultiClass (Exact ℝ)) (h : newMultiClass expR S draws D O = .ok M)
    (row out : List (Exact ℝ)) (hp : M.predictSingle row = .ok out) :
    ∀ v ∈ out, ∃ p : ℝ, v = XF.fin p ∧
      |p - 1 / out.length| ≤ (Real.exp (2 * (|lr| * M.b.length * (X.length / (c * X.length + lam)))) - 1) / out.length := by
  obtain ⟨gam, hgam⟩ := hO.gam
  obtain ⟨base, hbase'⟩ := hbase
  have hl0 : 0 ≤ lam := by
    obtain ⟨x, h1, h2⟩ := hO.lam
    rw [hlam] at h1
    rw [fin_inj h1]
    exact h2
  have hc0 : 0 ≤ c := by
    obtain ⟨_, _, ⟨_, rfl⟩ | ⟨_, rfl, _⟩⟩ := hloss <;> norm_num
  obtain ⟨labels, st, ht, rfl⟩ := newMultiClass_inv h
  have hB : ∀ ens ∈ st.boosters, ∀ t ∈ ens, BoundTree (X.length / (c * X.length + lam)) t := by
    intro ens he t htm path i l r hsub
    obtain ⟨o, g, hs, e1, e2, e3, e4, e5, e6⟩ := trained_steps S draws X D hX hd O hO ⟨base, hbase'⟩ c hloss hms hxgb lam gam hlam hgam
      labels st ht ens he t htm
    obtain ⟨x, x1, x2⟩ := C135_tree_values S X o t g hs lam gam c 1 e1 e2 e3 hc0 hl0 hpos e5 e6 path i l r hsub
    rw [e4, one_mul] at x2
    exact ⟨x, x1, x2⟩
  have hstep : 0 ≤ (X.length : ℝ) / (c * X.length + lam) := by positivity
  have hraw : ∃ s, (toModel expR O labels st).rawScores row = .ok s := by
    unfold MultiClass.predictSingle at hp
    obtain ⟨s, hs, _⟩ := bind_ok hp
    exact ⟨s, hs⟩
  obtain ⟨s, hs⟩ := hraw
  have hsb := rawScores_bound (M := toModel expR O labels st) hstep hlr hbase' hB hs
  have hfin : AllFin s := fun v hv => by
    obtain ⟨x, hx, _⟩ := hsb v hv
    exact ⟨x, hx⟩
  obtain ⟨r, hr⟩ := hfin.finV
  have hne : r ≠ [] := by
    rintro rfl
    unfold MultiClass.predictSingle at hp
    rw [hs, hr] at hp
    simp [finV, newDense, bind, Except.bind] at hp
  rw [predictSingle_softmax expR (toModel expR O labels st) rfl row s hs (by rw [hr]; simpa [finV] using hne), hr,
    softMax_real r hne] at hp
  obtain rfl := Except.ok.inj hp
  have hbound := softmaxSpec_bounds r base (|lr| * (toModel expR O labels st).b.length * (X.length / (c * X.length + lam))) (by
    intro x hx
    obtain ⟨x', e1, e2⟩ := hsb (XF.fin x) (by rw [hr]; exact List.mem_map.2 ⟨x, hx, rfl⟩)
    rw [← fin_inj e1] at e2
    refine e2.trans (le_of_eq ?_)
    ring)
  intro v hv
  obtain ⟨p, hp', rfl⟩ := List.mem_map.1 hv
  have hb := hbound p hp'
  refine ⟨p, rfl, ?_⟩
  rw [show (finV (softmaxSpec r)).length = r.length by simp [finV, softmaxSpec]]
  refine near_uniform ?_ hb.1 hb.2 (by positivity)
  have := List.length_pos_iff.2 hne
  exact_mod_cast this

/-- **C135 (`Gamma`)**: an xgboost model trained on `n` rows with a `Gamma` of at least `n² / (c n + Lambda)` never splits: every tree
is a single leaf, and the model predicts the same for any two rows. -/
theorem C135_gamma (S : GoSort) (draws : Nat → Exact ℝ) (X : List (List ℝ)) (D : DataBunch (Exact ℝ))
    (hX : D.data = finRows X) (hd : X.length = D.labels.length)
    (O : Options (Exact ℝ)) (hO : RealOptions O) (hbase : ∃ x, O.baseScore = XF.fin x) (c : ℝ)
    (hloss : LeastHessian O D.labels c) (hms : rowSub O = true → 1 ≤ O.minSample) (hxgb : O.xgb = true) (lam gam : ℝ)
    (hlam : O.lambda = .fin lam) (hgam : O.gamma = .fin gam) (hpos : 0 < c + lam)
    (hlarge : (X.length : ℝ) ^ 2 / (c * X.length + lam) ≤ gam)
    (M : MultiClass (Exact ℝ)) (h : newMultiClass expR S draws D O = .ok M) :
    (∀ trees ∈ M.b, ∀ t ∈ trees, t.size = 1) ∧ ∀ row row', M.predictSingle row = M.predictSingle row' := by
  have hl0 : 0 ≤ lam := by
    obtain ⟨x, h1, h2⟩ := hO.lam
    rw [hlam] at h1
    rw [fin_inj h1]
    exact h2
  have hc0 : 0 ≤ c := by
    obtain ⟨_, _, ⟨_, rfl⟩ | ⟨_, rfl, _⟩⟩ := hloss <;> norm_num
  obtain ⟨labels, st, ht, rfl⟩ := newMultiClass_inv h
  have key : ∀ ens ∈ st.boosters, ∀ t ∈ ens, ∃ i, t = .node i .nil .nil ∧ t.size = 1 ∧ ∀ row, t.predictSingle row = .ok i.value := by
    intro ens he t htm
    obtain ⟨o, g, hs, e1, e2, e3, e4, e5, e6⟩ := trained_steps S draws X D hX hd O hO hbase c hloss hms hxgb lam gam hlam hgam
      labels st ht ens he t htm
    refine C135_tree_gamma S X o t g hs lam gam c 1 e1 e2 hc0 hl0 hpos e5 e6 ?_
    rw [e4]
    refine le_trans (le_of_eq ?_) hlarge
    ring
  refine ⟨fun trees htr t htm => ?_, fun row row' => ?_⟩
  · obtain ⟨_, _, h1, _⟩ := key trees htr t htm
    exact h1
  · refine MultiClass.predict_congr (M := toModel expR O labels st) (B := st.boosters) (List.forall₂_same.2 fun ens he =>
      List.forall₂_same.2 fun t htm => ?_)
    obtain ⟨i, _, _, h1⟩ := key ens he t htm
    rw [h1, h1]

/-- **C135 (limit of `Lambda`)**: for data and options (other than `Lambda`) given, and any `ε > 0`, every model trained with a
large enough `Lambda` predicts probabilities within `ε` of `1/m`, for every row. -/
theorem C135_limit (S : GoSort) (draws : Nat → Exact ℝ) (X : List (List ℝ)) (D : DataBunch (Exact ℝ))
    (hX : D.data = finRows X) (hd : X.length = D.labels.length)
    (O : Options (Exact ℝ)) (hO : RealOptions O) (hbase : ∃ x, O.baseScore = XF.fin x) (hloss : LossFits O D.labels)
    (hms : rowSub O = true → 1 ≤ O.minSample) (hxgb : O.xgb = true) (ε : ℝ) (hε : 0 < ε) :
    ∃ L : ℝ, ∀ lam ≥ L, ∀ M, newMultiClass expR S draws D { O with lambda := .fin lam } = .ok M →
      ∀ row out, M.predictSingle row = .ok out → ∀ v ∈ out, ∃ p : ℝ, v = XF.fin p ∧ |p - 1 / out.length| ≤ ε := by
  obtain ⟨lr, hlr⟩ := hO.lr
  obtain ⟨c, hc0, hc⟩ : ∃ c : ℝ, 0 ≤ c ∧ ∀ lam, LeastHessian { O with lambda := .fin lam } D.labels c := by
    obtain ⟨lv, h1, h2 | ⟨h2, h3⟩⟩ := hloss
    · exact ⟨1, zero_le_one, fun _ => ⟨lv, h1, Or.inl ⟨h2, rfl⟩⟩⟩
    · exact ⟨0, le_rfl, fun _ => ⟨lv, h1, Or.inr ⟨h2, rfl, h3⟩⟩⟩
  have hlog : 0 < Real.log (1 + ε) := Real.log_pos (by linarith)
  refine ⟨2 * (|lr| * O.rounds.toNat * X.length) / Real.log (1 + ε) + 1, fun lam hlam M hM row out hp v hv => ?_⟩
  have hn0 : 0 ≤ 2 * (|lr| * O.rounds.toNat * X.length) / Real.log (1 + ε) := by positivity
  have hl1 : 0 < lam := by linarith
  obtain ⟨p, hp1, hp2⟩ := C135_lambda S draws X D hX hd { O with lambda := .fin lam } ⟨hO.lr, ⟨lam, rfl, hl1.le⟩, hO.gam⟩ hbase c
    (hc lam) hms hxgb lam lr rfl hlr (by linarith) M hM row out hp v hv
  refine ⟨p, hp1, hp2.trans ?_⟩
  have hb : (M.b.length : ℝ) ≤ O.rounds.toNat := by
    have h1 := (C22_rounds expR S draws D _ M hM).1
    have h2 : M.b.length ≤ O.rounds.toNat := by
      rw [h1]
      unfold executedRounds
      refine (List.length_filter_le _ _).trans ?_
      simp
    exact_mod_cast h2
  have hd' : 2 * (|lr| * M.b.length * (X.length / (c * X.length + lam))) ≤ Real.log (1 + ε) := by
    have e1 : 0 < c * X.length + lam := by positivity
    rw [← mul_div_assoc, ← mul_div_assoc, div_le_iff₀ e1]
    have e2 : 2 * (|lr| * M.b.length * X.length) ≤ 2 * (|lr| * O.rounds.toNat * X.length) := by gcongr
    have e3 : 2 * (|lr| * O.rounds.toNat * X.length) ≤ Real.log (1 + ε) * lam := by
      have : 2 * (|lr| * O.rounds.toNat * X.length) / Real.log (1 + ε) ≤ lam := by linarith
      rw [div_le_iff₀ hlog] at this
      linarith
    have e4 : 0 ≤ Real.log (1 + ε) * (c * X.length) := by positivity
    linarith
  have hexp : Real.exp (2 * (|lr| * M.b.length * (X.length / (c * X.length + lam)))) - 1 ≤ ε := by
    have := Real.exp_le_exp.2 hd'
    rw [Real.exp_log (by linarith)] at this
    linarith
  have hm : (1 : ℝ) ≤ out.length := by
    have : 0 < out.length := List.length_pos_iff.2 (by rintro rfl; simp at hv)
    exact_mod_cast this
  rw [div_le_iff₀ (by linarith)]
  nlinarith

/-! Non-vacuity: the data of `five_model`. With `Gamma = 0` its trees have two leaves each; with `Gamma = 5` they have one. -/

/-- the options of `five_model` with other regularization -/
noncomputable def regXgb (lam gam : ℝ) : Options (Exact ℝ) := { plainXgb with lambda := .fin lam, gamma := .fin gam }

theorem reg_model (lam gam : ℝ) :
    ∃ M, newMultiClass expR GoSort.ins (fun _ => .fin 0) fiveData (regXgb lam gam) = .ok M ∧ M.b.length = 20 := by
  have hr : rowSub (regXgb lam gam) = false := plainXgb_sub.1
  have hc : colSub (regXgb lam gam) = false := plainXgb_sub.2
  obtain ⟨M, hM⟩ := C22_returns expR GoSort.ins (fun _ => .fin 0) fiveData (regXgb lam gam)
    ⟨by simp [fiveData, finRows, fiveRows], ⟨2, by simp [fiveData, finRows, fiveRows]⟩, finRows_noNaN _, finRows_midSafe _⟩ rfl _ rfl
    sqErrLoss_regular (by
      unfold CapOk
      rw [hr, hc]
      simp) (by rw [hr]; simp)
  refine ⟨M, hM, ?_⟩
  have := C22_requested_partial expR GoSort.ins _ fiveData _ M hM (Or.inr (by simp [regXgb, plainXgb]))
  rw [hr] at this
  simp [regXgb, plainXgb, defaultXOptions] at this
  omega

theorem reg_least (lam gam : ℝ) : LeastHessian (regXgb lam gam) fiveData.labels 1 :=
  ⟨_, rfl, Or.inl ⟨rfl, rfl⟩⟩

example : ∃ M, newMultiClass expR GoSort.ins (fun _ => .fin 0) fiveData (regXgb 1 5) = .ok M ∧ M.b.length = 20 ∧
    (∀ trees ∈ M.b, ∀ t ∈ trees, t.size = 1) ∧ ∀ row row', M.predictSingle row = M.predictSingle row' := by
  obtain ⟨M, hM, hl⟩ := reg_model 1 5
  refine ⟨M, hM, hl, ?_⟩
  refine C135_gamma _ _ fiveRows fiveData rfl rfl (regXgb 1 5) ⟨⟨_, rfl⟩, ⟨_, rfl, zero_le_one⟩, ⟨_, rfl⟩⟩
    ⟨5/10, by simp [regXgb, plainXgb, defaultXOptions]⟩ 1 (reg_least 1 5) ?_ rfl 1 5 rfl rfl (by norm_num) ?_ M hM
  · rw [show rowSub (regXgb 1 5) = false from plainXgb_sub.1]
    simp
  · norm_num [fiveRows]

/-- with `Lambda = 5·10⁵`, 20 rounds and the learning rate 0.3, no tree predicts more than 10⁻⁵ -/
example : ∃ M, newMultiClass expR GoSort.ins (fun _ => .fin 0) fiveData (regXgb 500000 0) = .ok M ∧ M.b.length = 20 ∧
    ∀ trees ∈ M.b, ∀ t ∈ trees, ∀ row v, t.predictSingle row = .ok v → ∃ x : ℝ, v = XF.fin x ∧ |x| ≤ 1 / 100000 := by
  obtain ⟨M, hM, hl⟩ := reg_model 500000 0
  refine ⟨M, hM, hl, ?_⟩
  intro trees htr t ht row v hv
  obtain ⟨x, h1, h2⟩ := C135_steps _ _ fiveRows fiveData rfl rfl (regXgb 500000 0) ⟨⟨_, rfl⟩, ⟨500000, rfl, by norm_num⟩, ⟨_, rfl⟩⟩
    ⟨5/10, by simp [regXgb, plainXgb, defaultXOptions]⟩ 1 (reg_least _ _)
    (by rw [show rowSub (regXgb 500000 0) = false from plainXgb_sub.1]; simp) rfl 500000 rfl (by norm_num) M hM trees htr t ht row v hv
  refine ⟨x, h1, h2.trans ?_⟩
  norm_num [fiveRows]

end Boo
