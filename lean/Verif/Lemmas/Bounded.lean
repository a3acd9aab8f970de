import Verif.Props.RealTrain
import Verif.Props.Range

/-!
# Trees with bounded values
-/

namespace Boo
open GoFloat Spec
set_option linter.unusedSectionVars false

/-- all values in the tree are real numbers of magnitude at most `B` -/
def BoundTree (B : ℝ) (t : Tree (Exact ℝ)) : Prop := ∀ path i l r, t.sub path = .node i l r → ∃ v, i.value = XF.fin v ∧ |v| ≤ B

theorem BoundTree.predict {B : ℝ} {t : Tree (Exact ℝ)} (ht : BoundTree B t) {row : List (Exact ℝ)} {v : Exact ℝ}
    (h : t.predictSingle row = .ok v) : ∃ x, v = XF.fin x ∧ |x| ≤ B := by
  obtain ⟨path, i, l, r, h1, h2⟩ := predict_node h
  obtain ⟨x, e1, e2⟩ := ht path i l r h1
  exact ⟨x, h2.symm.trans e1, e2⟩

/-- any property of the trees that training over the reals builds -/
theorem trainRounds_trees {S : GoSort} {X : List (List ℝ)} {O : Options (Exact ℝ)} {ohe : Dense (Exact ℝ)} {n m : Nat}
    {one : Prop} (hs : RealSetup X O ohe n m one) (hms : rowSub O = true → 1 ≤ O.minSample) {P : Tree (Exact ℝ) → Prop}
    (hP : ∀ idx cols k y p lv t, IdxOk n idx → k < m → denseCol ohe k = .ok (finV y) → y.length = n → p.length = n →
      (∀ v ∈ p, 0 < v ∧ (v < 1 ∨ m < 2)) → (∀ v ∈ p, v ≤ 1) → O.loss = some lv →
      classTree S (finRows X) O lv.fn idx cols (finV y) (finV p) = .ok t → P t) {q : Nat}
    {st st' : TrainState (Exact ℝ)}
    (h : (List.range q).foldlM (trainRound (softMaxDense expR) S (finRows X) O ohe m) st = .ok st')
    (hi : TInv expR n m st) (hb : st.boosters = []) (hr : RInv n st) : ∀ ens ∈ st'.boosters, ∀ t ∈ ens, P t := by
  have hd : (finRows X).length = n := by simp [finRows, hs.len]
  have hstep : ∀ {idx cols round} {st st' : TrainState (Exact ℝ)} {k tree}, IdxOk n idx → TInv expR n m st →
      (∀ i < n, AllFin (st.rawPred.row i)) → k < m →
      ClassStep expR S (finRows X) O ohe idx cols round st st' k tree → P tree := by
    intro idx cols round st st' k tree hidx hi hr hk s
    obtain ⟨y, hy, hyl⟩ := hs.ohe k _ hk s.hy
    obtain ⟨p, hp, hpl, hpv⟩ := probs_col hi hr hs.pos hk s.hp
    have ht := s.htree
    rw [hy, hp] at ht
    refine hP idx cols k y p _ tree hidx hk (hy ▸ s.hy) hyl hpl hpv ?_ s.hlv ht
    -- every probability is at most 1
    intro v hv
    obtain ⟨i, hi'⟩ := List.getElem?_of_mem hv
    have hin : i < n := by
      have := (List.getElem?_eq_some_iff.1 hi').1
      omega
    obtain ⟨l, h1, h2, h3⟩ := denseCol_spec hi.probsWF (by rw [hi.probsR]; exact hs.pos) (col := k) (by rw [hi.probsC]; exact hk)
    have hlp : l = finV p := by
      have := s.hp
      rw [h1, hp] at this
      exact Except.ok.inj this
    obtain ⟨r, hr'⟩ := (hr i hin).finV
    have hl : (st.rawPred.row i).length = m := by
      rw [Dense.row_length hi.rawWF (by rw [hi.rawR]; exact hin), hi.rawC]
    have hrl : r.length = m := by rw [hr'] at hl; simpa [finV] using hl
    have hrne : r ≠ [] := by rintro rfl; simp at hrl; omega
    have hsoft := hi.soft i hin
    rw [hr', softMax_real r hrne] at hsoft
    have hv' : (finV (softmaxSpec r))[k]? = some (XF.fin v) := by
      have e := h3 i (by rw [hi.probsR]; exact hin)
      rw [← Dense.row_get (by rw [hi.probsR]; exact hin) (by rw [hi.probsC]; exact hk), ← Except.ok.inj hsoft, hlp, finV,
        List.getElem?_map, hi'] at e
      exact e.symm
    obtain ⟨qq, q1, _, q3, _⟩ := C24_distribution r hrne
    rw [softMax_real r hrne] at q1
    rw [Except.ok.inj q1, finV, List.getElem?_map, Option.map_eq_some_iff] at hv'
    obtain ⟨x, hx, hxv⟩ := hv'
    cases hxv
    exact (q3 v (List.mem_of_getElem? hx)).2
  have hclasses : ∀ {idx cols round} (_ : IdxOk n idx) (q : Nat) (_ : q ≤ m) (st : TrainState (Exact ℝ))
      (acc' : TrainState (Exact ℝ) × List (Tree (Exact ℝ)))
      (_ : (List.range q).foldlM (trainClass (softMaxDense expR) S (finRows X) O ohe idx cols round) (st, []) = .ok acc')
      (_ : TInv expR n m st) (_ : ∀ i < n, AllFin (st.rawPred.row i)), ∀ t ∈ acc'.2, P t := by
    intro idx cols round hidx q
    induction q with
    | zero =>
      intro _ st acc' h _ _
      simp only [List.range_zero, List.foldlM_nil, pure, Except.pure, Except.ok.injEq] at h
      subst h
      simp
    | succ q ih =>
      intro hq st acc' h hi hr
      rw [List.range_succ, List.foldlM_append] at h
      obtain ⟨acc, h1, h2⟩ := bind_ok h
      rw [List.foldlM_cons] at h2
      obtain ⟨acc'', h3, h4⟩ := bind_ok h2
      simp only [List.foldlM_nil, pure, Except.pure, Except.ok.injEq] at h4
      subst h4
      obtain ⟨a1, _⟩ := trainClasses_inv hd q (by omega) st acc h1 hi
      obtain ⟨b1, _⟩ := trainClasses_real hs hidx q (by omega) st acc h1 hi hr
      have b2 := ih (by omega) st acc h1 hi hr
      rcases trainClass_inv h3 with ⟨_, rfl⟩ | ⟨_, tree, ht, ⟨s⟩⟩
      · exact b2
      · rw [ht]
        intro t htm
        rcases List.mem_append.1 htm with htm | htm
        · exact b2 t htm
        · rw [List.mem_singleton.1 htm]
          exact hstep hidx a1 b1 (by omega) s
  induction q generalizing st' with
  | zero =>
    simp only [List.range_zero, List.foldlM_nil, pure, Except.pure, Except.ok.injEq] at h
    subst h
    rw [hb]
    simp
  | succ q ih =>
    rw [List.range_succ, List.foldlM_append] at h
    obtain ⟨st1, h1, h2⟩ := bind_ok h
    rw [List.foldlM_cons] at h2
    obtain ⟨st2, h3, h4⟩ := bind_ok h2
    simp only [List.foldlM_nil, pure, Except.pure, Except.ok.injEq] at h4
    subst h4
    obtain ⟨a1, _⟩ := trainRounds_inv h1 hi hd hb
    have b1 := trainRounds_real hs hms h1 hi hb hr
    have b2 := ih h1
    obtain ⟨idx, cols, draws, hsam, ⟨_, rfl⟩ | ⟨hl, acc, hacc, rfl⟩⟩ := trainRound_inv h3
    · exact b2
    · have hidx : IdxOk n idx := by
        have := idxOk_of_round hsam hms hl
        rw [hd] at this
        exact this
      have c2 := hclasses hidx m le_rfl _ acc hacc (a1.draws draws) b1.raw
      obtain ⟨_, e2, _⟩ := trainClasses_inv hd m le_rfl _ acc hacc (a1.draws draws)
      simp only [e2]
      intro ens he t ht
      rcases List.mem_append.1 he with he | he
      · exact b2 ens he t ht
      · rw [List.mem_singleton.1 he] at ht
        exact c2 t ht

/-- with squared error, labels 0 and 1 and probabilities, no value of the tree of a class exceeds 1 in magnitude -/
theorem classTree_bound {S : GoSort} {X : List (List ℝ)} {O : Options (Exact ℝ)} {idx : Option (List Nat)} {cols : List Nat}
    (hO : RealOptions O) (hX : X ≠ []) (hidx : IdxOk X.length idx) {y p : List ℝ} (hy : y.length = X.length) (hp : p.length = X.length)
    (hy01 : ∀ v ∈ y, 0 ≤ v ∧ v ≤ 1) (hpv : ∀ v ∈ p, 0 ≤ v ∧ v ≤ 1) {t : Tree (Exact ℝ)}
    (h : classTree S (finRows X) O sqErrLoss idx cols (finV y) (finV p) = .ok t) : BoundTree 1 t := by
  obtain ⟨lam, hlam, hlam0⟩ := hO.lam
  obtain ⟨gam, hgam⟩ := hO.gam
  obtain ⟨hg, hng⟩ := grad_fin y p (by omega)
  have hh : (sqErrLoss : LossFunc (Exact ℝ)).hessian (finV p) = finV (p.map fun _ => 1) := by simp [sqErrLoss, finV]
  have hlen : (finRows X).length = X.length := by simp [finRows]
  have hrow : ∀ w < X.length, ∃ a b : ℝ, y[w]? = some a ∧ p[w]? = some b ∧ (0 ≤ a ∧ a ≤ 1) ∧ (0 ≤ b ∧ b ≤ 1) := by
    intro w hw
    exact ⟨y[w], p[w], List.getElem?_eq_getElem _, List.getElem?_eq_getElem _, hy01 _ (List.getElem_mem _), hpv _ (List.getElem_mem _)⟩
  unfold classTree at h
  split at h
  · obtain ⟨g', hg', h⟩ := bind_ok h
    rw [show (sqErrLoss : LossFunc (Exact ℝ)).gradients = grad from rfl, hg] at hg'
    cases hg'
    rw [hh] at h
    intro path i l r hsub
    have hmem : ∀ w ∈ i.samples, w < X.length := by
      have := sub_samples h (by
        intro w hw
        unfold TreeOptions.idx at hw
        cases idx with
        | none => simpa using hw
        | some s => rw [hlen]; exact (hidx s rfl).2 w (by simpa using hw)) path i l r hsub
      rw [hlen] at this
      exact this
    have hne : i.samples ≠ [] := by
      by_cases hpath : path = []
      · subst hpath
        have ht : t = .node i l r := by cases t <;> simpa [Tree.sub] using hsub
        rw [ht] at h
        have := (mkInfo_samples h).1
        rw [this]
        unfold TreeOptions.idx
        cases idx with
        | none => simpa [finRows] using hX
        | some s => exact (hidx s rfl).1
      · have := (C06_exact S X _ t h path hpath i l r hsub).1
        intro h0
        rw [h0] at this
        simp at this
    have hsum : sumOver (p.map fun _ => (1 : ℝ)) i.samples = i.samples.length := by
      unfold sumOver
      rw [List.map_congr_left (g := fun _ => (1 : ℝ))]
      · simp
      · intro w hw
        have : w < p.length := by rw [hp]; exact hmem w hw
        simp [List.getD_eq_getElem?_getD, List.getElem?_replicate, this]
    have hn : (0 : ℝ) < i.samples.length := by exact_mod_cast List.length_pos_iff.2 hne
    refine ⟨_, (C09_value_optimal S X _ t (List.zipWith (fun a b => b - a) y p) (p.map fun _ => 1) lam gam h ⟨rfl, rfl, rfl, hlam, hgam⟩
      path i l r hsub (by rw [hsum]; linarith)).1, ?_⟩
    have hb : |sumOver (List.zipWith (fun a b => b - a) y p) i.samples| ≤ i.samples.length := by
      rw [abs_le]
      have key : ∀ w ∈ i.samples, -1 ≤ (List.zipWith (fun a b => b - a) y p).getD w 0 ∧ (List.zipWith (fun a b => b - a) y p).getD w 0 ≤ 1 := by
        intro w hw
        obtain ⟨a, b, e1, e2, e3, e4⟩ := hrow w (hmem w hw)
        rw [List.getD_eq_getElem?_getD, List.getElem?_zipWith, e1, e2]
        simp only [Option.getD_some]
        constructor <;> linarith [e3.1, e3.2, e4.1, e4.2]
      have := mean_mem hne key
      unfold mean at this
      rw [le_div_iff₀ hn, div_le_iff₀ hn] at this
      constructor <;> linarith [this.1, this.2]
    rw [abs_div, abs_neg, hsum, abs_of_pos (show (0 : ℝ) < (i.samples.length : ℝ) + lam by linarith),
      div_le_iff₀ (by linarith)]
    linarith
  · obtain ⟨g', hg', h⟩ := bind_ok h
    rw [show (sqErrLoss : LossFunc (Exact ℝ)).negGradients = negGrad from rfl, hng] at hg'
    cases hg'
    rw [hh] at h
    obtain ⟨t0, h0, hu⟩ := bind_ok h
    have hN := updateLeaves_newton _ _ _ _ hu
    intro path i' l' r' hsub'
    obtain ⟨i, l, r, hsub⟩ : ∃ i l r, t0.sub path = .node i l r := by
      cases hc : t0.sub path with
      | nil => rw [(hN.shape path).2 hc] at hsub'; cases hsub'
      | node i l r => exact ⟨i, l, r, rfl⟩
    have hm := C10_node_mean S X _ t0 _ h0 ⟨rfl, rfl⟩ (by simpa [trainingRows, defaultGTreeOptions, finRows] using hX)
      path i l r hsub
    have hmem : ∀ w ∈ i.samples, w < X.length := by
      have := sub_samples h0 (by
        intro w hw
        unfold TreeOptions.idx at hw
        simpa [defaultGTreeOptions] using hw) path i l r hsub
      rw [hlen] at this
      exact this
    have hmean : |mean (List.zipWith (fun a b => a - b) y p) i.samples| ≤ 1 := by
      rw [abs_le]
      refine mean_mem hm.1 fun w hw => ?_
      obtain ⟨a, b, e1, e2, e3, e4⟩ := hrow w (hmem w hw)
      rw [List.getD_eq_getElem?_getD, List.getElem?_zipWith, e1, e2]
      simp only [Option.getD_some]
      constructor <;> linarith [e3.1, e3.2, e4.1, e4.2]
    obtain ⟨n1, n2⟩ := hN.node path i l r i' l' r' hsub hsub'
    cases hleaf : i.leaf with
    | false => rw [n2 hleaf]; exact ⟨_, hm.2, hmean⟩
    | true =>
      obtain ⟨m1, m2⟩ := n1 hleaf
      rw [m2]
      simp only
      have hsum : sumOver (p.map fun _ => (1 : ℝ)) i.samples = i.samples.length := by
        unfold sumOver
        rw [List.map_congr_left (g := fun _ => (1 : ℝ))]
        · simp
        · intro w hw
          have : w < p.length := by rw [hp]; exact hmem w hw
          simp [List.getD_eq_getElem?_getD, List.getElem?_replicate, this]
      have hn : (0 : ℝ) < i.samples.length := by exact_mod_cast List.length_pos_iff.2 hm.1
      rw [sumAt_fin, sumAt_fin, Exact.div_fin _ _ (by rw [hsum]; exact hn.ne')]
      refine ⟨_, rfl, ?_⟩
      rw [hsum]
      exact hmean

/-- the scores of a model of bounded trees -/
theorem rawScores_bound {M : MultiClass (Exact ℝ)} {lr base B : ℝ} (hB : 0 ≤ B) (hlr : M.learningRate = XF.fin lr)
    (hb : M.baseScore = XF.fin base) (ht : ∀ ens ∈ M.b, ∀ t ∈ ens, BoundTree B t) {row s : List (Exact ℝ)}
    (h : M.rawScores row = .ok s) : ∀ v ∈ s, ∃ x, v = XF.fin x ∧ |x - base| ≤ M.b.length * (|lr| * B) := by
  unfold MultiClass.rawScores at h
  obtain ⟨b0, _, h⟩ := bind_ok h
  have hround : ∀ (ts : List (Tree (Exact ℝ))) (_ : ∀ t ∈ ts, BoundTree B t) (c : Nat) (e : ℝ) (tmp tmp' : List (Exact ℝ))
      (_ : ∀ (j : Nat) v, tmp[j]? = some v → ∃ x, v = XF.fin x ∧ |x - base| ≤ e + if j < c then |lr| * B else 0)
      (_ : addRound M.learningRate row ts c tmp = .ok tmp'),
      ∀ v ∈ tmp', ∃ x, v = XF.fin x ∧ |x - base| ≤ e + |lr| * B := by
    intro ts
    induction ts with
    | nil =>
      intro _ c e tmp tmp' hf h
      simp only [addRound, Except.ok.injEq] at h
      subst h
      intro v hv
      obtain ⟨j, hj⟩ := List.getElem?_of_mem hv
      obtain ⟨x, e1, e2⟩ := hf j v hj
      refine ⟨x, e1, e2.trans ?_⟩
      have : 0 ≤ |lr| * B := by positivity
      split <;> linarith
    | cons t ts ih =>
      intro ht c e tmp tmp' hf h
      unfold addRound at h
      obtain ⟨p, hp, h⟩ := bind_ok h
      obtain ⟨tmp1, h1, h⟩ := bind_ok h
      refine ih (fun t ht' => ht t (by simp [ht'])) (c + 1) e tmp1 tmp' ?_ h
      unfold addAt at h1
      cases hc : tmp[c]? with
      | none => rw [hc] at h1; cases h1
      | some d =>
        rw [hc] at h1
        simp only [Except.ok.injEq] at h1
        obtain ⟨a, rfl, ha⟩ := (ht t (by simp)).predict hp
        obtain ⟨x, rfl, hx⟩ := hf c d hc
        simp only [lt_irrefl, if_false, add_zero] at hx
        rw [hlr] at h1
        intro j v hv
        rw [← h1, List.getElem?_set] at hv
        split at hv
        · rename_i hcj
          split at hv
          · obtain rfl := Option.some.inj hv
            refine ⟨x + a * lr, rfl, ?_⟩
            rw [if_pos (by omega), show x + a * lr - base = (x - base) + a * lr by ring]
            refine (abs_add_le _ _).trans ?_
            rw [abs_mul, mul_comm |a|]
            have := mul_le_mul_of_nonneg_left ha (abs_nonneg lr)
            linarith
          · cases hv
        · rename_i hcj
          obtain ⟨z, e1, e2⟩ := hf j v hv
          refine ⟨z, e1, ?_⟩
          have e3 : (j < c + 1) ↔ (j < c) := by omega
          simp only [e3]
          exact e2
  have key : ∀ (b : List (List (Tree (Exact ℝ)))) (tmp : List (Exact ℝ)) (e : ℝ), (∀ ens ∈ b, ∀ t ∈ ens, BoundTree B t) →
      (∀ v ∈ tmp, ∃ x, v = XF.fin x ∧ |x - base| ≤ e) →
      b.foldlM (fun tmp ens => addRound M.learningRate row ens 0 tmp) tmp = .ok s →
      ∀ v ∈ s, ∃ x, v = XF.fin x ∧ |x - base| ≤ e + b.length * (|lr| * B) := by
    intro b
    induction b with
    | nil =>
      intro tmp e _ hf h
      simp only [List.foldlM_nil, pure, Except.pure, Except.ok.injEq] at h
      subst h
      simpa using hf
    | cons ens b ih =>
      intro tmp e ht hf h
      rw [List.foldlM_cons] at h
      obtain ⟨tmp1, h1, h⟩ := bind_ok h
      have h2 := hround ens (ht ens (by simp)) 0 e tmp tmp1 (by
        intro j v hv
        simpa using hf v (List.mem_of_getElem? hv)) h1
      have h3 := ih tmp1 (e + |lr| * B) (fun e he => ht e (by simp [he])) h2 h
      intro v hv
      obtain ⟨x, e1, e2⟩ := h3 v hv
      refine ⟨x, e1, e2.trans (le_of_eq ?_)⟩
      rw [List.length_cons]
      push_cast
      ring
  have := key M.b _ 0 ht (by
    intro v hv
    rw [List.mem_replicate] at hv
    rw [hv.2, hb]
    exact ⟨base, rfl, by simp⟩) h
  simpa using this

/-- softmax of scores within `d` of each other's centre -/
theorem softmaxSpec_bounds (r : List ℝ) (base d : ℝ) (hr : ∀ x ∈ r, |x - base| ≤ d) :
    ∀ v ∈ softmaxSpec r, 1 / (1 + (r.length - 1) * Real.exp (2 * d)) ≤ v ∧ v ≤ 1 / (1 + (r.length - 1) * Real.exp (-(2 * d))) := by
  intro v hv
  obtain ⟨x, hx, rfl⟩ := List.mem_map.1 hv
  obtain ⟨a, b, rfl⟩ := List.append_of_mem hx
  have hle : ∀ l : List ℝ, (∀ y ∈ l, |y - base| ≤ d) → (l.map Real.exp).sum ≤ l.length * (Real.exp (2 * d) * Real.exp x) ∧
      l.length * (Real.exp (-(2 * d)) * Real.exp x) ≤ (l.map Real.exp).sum := by
    intro l hl
    have hxb := abs_le.1 (hr x hx)
    rw [← Real.exp_add, ← Real.exp_add]
    constructor
    · have := List.sum_le_sum (l := l) (f := Real.exp) (g := fun _ => Real.exp (2 * d + x)) fun y hy => by
        apply Real.exp_le_exp.2
        have := abs_le.1 (hl y hy)
        linarith
      simpa using this
    · have := List.sum_le_sum (l := l) (f := fun _ => Real.exp (-(2 * d) + x)) (g := Real.exp) fun y hy => by
        apply Real.exp_le_exp.2
        have := abs_le.1 (hl y hy)
        linarith
      simpa using this
  obtain ⟨a1, a2⟩ := hle a fun y hy => hr y (by simp [hy])
  obtain ⟨b1, b2⟩ := hle b fun y hy => hr y (by simp [hy])
  have hlen : (((a ++ x :: b).length : ℕ) : ℝ) - 1 = a.length + b.length := by
    rw [List.length_append, List.length_cons]
    push_cast
    ring
  rw [hlen]
  simp only [List.map_append, List.map_cons, List.sum_append, List.sum_cons]
  have hx0 := Real.exp_pos x
  have e2 := Real.exp_pos (2 * d)
  have e3 := Real.exp_pos (-(2 * d))
  have nn : ∀ l : List ℝ, 0 ≤ (l.map Real.exp).sum := fun l => List.sum_nonneg fun y hy => by
    obtain ⟨z, _, rfl⟩ := List.mem_map.1 hy
    exact (Real.exp_pos z).le
  have na := nn a
  have nb := nn b
  constructor
  · rw [div_le_div_iff₀ (by positivity) (by positivity)]
    nlinarith
  · rw [div_le_div_iff₀ (by positivity) (by positivity)]
    nlinarith

end Boo
