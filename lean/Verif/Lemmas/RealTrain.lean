import Verif.Lemmas.Boost
import Verif.Props.Gain
import Verif.Props.Loss

/-!
# Training over the reals stays finite
-/

namespace Boo
open GoFloat Spec
set_option linter.unusedSectionVars false

/-! ### finite trees -/

/-- every node value is a number -/
def FinTree (t : Tree (Exact ℝ)) : Prop :=
  ∀ path i l r, t.sub path = .node i l r → ∃ v, i.value = XF.fin v

theorem FinTree.left {i : NodeInfo (Exact ℝ)} {l r : Tree (Exact ℝ)} (h : FinTree (.node i l r)) : FinTree l :=
  fun path => h (true :: path)
theorem FinTree.right {i : NodeInfo (Exact ℝ)} {l r : Tree (Exact ℝ)} (h : FinTree (.node i l r)) : FinTree r :=
  fun path => h (false :: path)

theorem FinTree.predict {t : Tree (Exact ℝ)} (ht : FinTree t) {row : List (Exact ℝ)} {v : Exact ℝ}
    (h : t.predictSingle row = .ok v) : ∃ x, v = XF.fin x := by
  induction t with
  | nil => simp [Tree.predictSingle] at h
  | node i l r ihl ihr =>
    unfold Tree.predictSingle at h
    split at h
    · obtain ⟨x, hx⟩ := ht [] i l r rfl
      simp only [pure, Except.pure, Except.ok.injEq] at h
      exact ⟨x, h ▸ hx⟩
    · obtain ⟨x, _, h⟩ := bind_ok h
      split at h
      · exact ihl ht.left h
      · exact ihr ht.right h

/-! ### losses over the reals -/

/-- On real labels and positive probabilities below 1 (or, if `one`, up to any number) the gradients and hessians are
real numbers and the hessians are positive. -/
structure RealLoss (lf : LossFunc (Exact ℝ)) (one : Prop) : Prop where
  ok : ∀ y p : List ℝ, y.length = p.length → (∀ v ∈ p, 0 < v ∧ (v < 1 ∨ one)) →
    ∃ g h : List ℝ, g.length = p.length ∧ h.length = p.length ∧
      lf.gradients (finV y) (finV p) = .ok (finV g) ∧ lf.negGradients (finV y) (finV p) = .ok (finV (g.map fun x => -x)) ∧
      lf.hessian (finV p) = finV h ∧ ∀ v ∈ h, 0 < v

theorem sqErr_real : RealLoss sqErrLoss True where
  ok y p hl _ := by
    obtain ⟨h1, h2⟩ := grad_fin y p hl
    refine ⟨List.zipWith (fun a b => b - a) y p, p.map fun _ => 1, by simp [hl], by simp, h1, ?_, ?_, ?_⟩
    · have : (List.zipWith (fun a b : ℝ => b - a) y p).map (fun x => -x) = List.zipWith (fun a b => a - b) y p := by
        rw [List.map_zipWith]; congr 1; funext a b; ring
      rw [this]
      exact h2
    · simp [sqErrLoss, finV]
    · intro v hv
      obtain ⟨_, _, rfl⟩ := List.mem_map.1 hv
      norm_num

theorem mse_real : RealLoss mseLoss False where
  ok y p hl hp := by
    obtain ⟨h1, h2⟩ := grad_fin y p hl
    obtain ⟨h, q1, q2, q3⟩ := C30_mse_hessian p
    refine ⟨List.zipWith (fun a b => b - a) y p, h, by simp [hl], by simp [q2], h1, ?_, q1, ?_⟩
    · have : (List.zipWith (fun a b : ℝ => b - a) y p).map (fun x => -x) = List.zipWith (fun a b => a - b) y p := by
        rw [List.map_zipWith]; congr 1; funext a b; ring
      rw [this]
      exact h2
    · exact q3 fun x hx => ⟨(hp x hx).1, by have := (hp x hx).2; simpa using this⟩

/-! ### softmax -/

theorem softmaxSpec_pos (p : List ℝ) : ∀ v ∈ softmaxSpec p, 0 < v := by
  intro v hv
  have hne : p ≠ [] := by
    rintro rfl
    simp [softmaxSpec] at hv
  obtain ⟨x, _, rfl⟩ := List.mem_map.1 hv
  exact div_pos (Real.exp_pos x) (sum_exp_pos hne)

theorem softmaxSpec_lt_one (p : List ℝ) (h : 2 ≤ p.length) : ∀ v ∈ softmaxSpec p, v < 1 := by
  intro v hv
  have hne : p ≠ [] := by rintro rfl; simp at h
  obtain ⟨x, hx, rfl⟩ := List.mem_map.1 hv
  rw [div_lt_one (sum_exp_pos hne)]
  obtain ⟨a, b, rfl⟩ := List.append_of_mem hx
  simp only [List.map_append, List.map_cons, List.sum_append, List.sum_cons]
  have nn : ∀ l : List ℝ, 0 ≤ (l.map Real.exp).sum := fun l => List.sum_nonneg fun y hy => by
    obtain ⟨z, _, rfl⟩ := List.mem_map.1 hy
    exact (Real.exp_pos z).le
  by_cases ha : a = []
  · have hb : b ≠ [] := by
      rintro rfl
      subst ha
      simp at h
    have := sum_exp_pos hb
    have := nn a
    linarith
  · have := sum_exp_pos ha
    have := nn b
    linarith

theorem softmaxSpec_length (p : List ℝ) : (softmaxSpec p).length = p.length := by simp [softmaxSpec]

/-! ### the tree of a class -/

theorem sumAt_fin (g : List ℝ) (idx : List Nat) : sumAt (finV g : List (Exact ℝ)) idx = .fin (sumOver g idx) := by
  unfold sumAt sumOver
  have h1 : (idx.map fun i => (finV g : List (Exact ℝ)).getD i zero) =
      (idx.map fun i => g.getD i 0).map XF.fin := by
    rw [List.map_map]
    apply List.map_congr_left
    intro i _
    simp only [finV, Function.comp_apply, List.getD_eq_getElem?_getD, List.getElem?_map]
    cases g[i]? with
    | none => simp
    | some x => simp
  rw [h1, show (zero : Exact ℝ) = .fin 0 from by simp]
  exact Exact.sum_fin (K := ℝ) (idx.map fun i => g.getD i 0)

/-- the parts of the options that have to be numbers -/
structure RealOptions (O : Options (Exact ℝ)) : Prop where
  lr : ∃ x, O.learningRate = XF.fin x
  lam : ∃ x, O.lambda = XF.fin x ∧ 0 ≤ x
  gam : ∃ x, O.gamma = XF.fin x

theorem classTree_fin {S : GoSort} {X : List (List ℝ)} {O : Options (Exact ℝ)} {lf : LossFunc (Exact ℝ)} {one : Prop}
    (hO : RealOptions O) (hlf : RealLoss lf one) {idx : Option (List Nat)} {cols : List Nat} (hX : X ≠ [])
    (hidx : idx ≠ some []) (hlt : ∀ l, idx = some l → ∀ w ∈ l, w < X.length) {y p : List ℝ} (hy : y.length = X.length) (hp : p.length = X.length)
    (hpv : ∀ v ∈ p, 0 < v ∧ (v < 1 ∨ one)) {t : Tree (Exact ℝ)}
    (h : classTree S (finRows X) O lf idx cols (finV y) (finV p) = .ok t) : FinTree t := by
  obtain ⟨lam, hlam, hlam0⟩ := hO.lam
  obtain ⟨gam, hgam⟩ := hO.gam
  obtain ⟨g, hs, hgl, hhl, hg, hng, hh, hpos⟩ := hlf.ok y p (by omega) hpv
  have hlen : (finRows X).length = X.length := by simp [finRows]
  unfold classTree at h
  split at h
  · obtain ⟨g', hg', h⟩ := bind_ok h
    rw [hg] at hg'
    cases hg'
    rw [hh] at h
    intro path i l r hsub
    have hmem : ∀ w ∈ i.samples, w < X.length := by
      have := sub_samples h (by
        intro w hw
        unfold TreeOptions.idx at hw
        cases idx with
        | none => simpa using hw
        | some s => rw [hlen]; exact hlt s rfl w (by simpa using hw)) path i l r hsub
      rw [hlen] at this
      exact this
    have hne : i.samples ≠ [] := by
      by_cases hpath : path = []
      · subst hpath
        have ht : t = .node i l r := by cases t <;> simpa [Tree.sub] using hsub
        rw [ht] at h
        have := (mkInfo_samples h).1
        rw [this]
        unfold TreeOptions.idx
        cases idx with
        | none => simpa [finRows] using hX
        | some s => intro hs; exact hidx (by simpa using hs)
      · have := (C06_exact S X _ t h path hpath i l r hsub).1
        intro h0
        rw [h0] at this
        simp at this
    have hsum : 0 < sumOver hs i.samples + lam :=
      den_pos (fun v hv => ⟨(hpos v hv).le, by linarith [hpos v hv]⟩) hne fun w hw => by rw [hhl, hp]; exact hmem w hw
    exact ⟨_, (C09_value_optimal S X _ t g hs lam gam h ⟨rfl, rfl, rfl, hlam, hgam⟩ path i l r hsub hsum).1⟩
  · obtain ⟨g', hg', h⟩ := bind_ok h
    rw [hng] at hg'
    cases hg'
    rw [hh] at h
    obtain ⟨t0, h0, hu⟩ := bind_ok h
    have hN := updateLeaves_newton _ _ _ _ hu
    intro path i' l' r' hsub'
    obtain ⟨i, l, r, hsub⟩ : ∃ i l r, t0.sub path = .node i l r := by
      cases hc : t0.sub path with
      | nil => rw [(hN.shape path).2 hc] at hsub'; cases hsub'
      | node i l r => exact ⟨i, l, r, rfl⟩
    have hm := C10_node_mean S X _ t0 _ h0 ⟨rfl, rfl⟩ (by simpa [trainingRows, defaultGTreeOptions, finRows] using hX)
      path i l r hsub
    obtain ⟨n1, n2⟩ := hN.node path i l r i' l' r' hsub hsub'
    cases hleaf : i.leaf with
    | false => rw [n2 hleaf]; exact ⟨_, hm.2⟩
    | true =>
      obtain ⟨m1, m2⟩ := n1 hleaf
      rw [m2]
      simp only
      rw [sumAt_fin, sumAt_fin, Exact.div_fin]
      · exact ⟨_, rfl⟩
      · have := den_pos (h := hs) (lam := 0) (fun v hv => ⟨(hpos v hv).le, by linarith [hpos v hv]⟩) hm.1
          fun w hw => by have := (m1 w hw).2; simpa [finV] using this
        linarith

/-! ### the training loops -/

def AllFin (l : List (Exact ℝ)) : Prop := ∀ v ∈ l, ∃ x, v = XF.fin x

theorem AllFin.finV {l : List (Exact ℝ)} (h : AllFin l) : ∃ p : List ℝ, l = finV p := by
  induction l with
  | nil => exact ⟨[], rfl⟩
  | cons a l ih =>
    obtain ⟨x, rfl⟩ := h a (by simp)
    obtain ⟨p, rfl⟩ := ih fun v hv => h v (by simp [hv])
    exact ⟨x :: p, rfl⟩

theorem allFin_finV (p : List ℝ) : AllFin (finV p) := by
  intro v hv
  obtain ⟨x, _, rfl⟩ := List.mem_map.1 hv
  exact ⟨x, rfl⟩

theorem AllFin.set {l : List (Exact ℝ)} (h : AllFin l) (k : Nat) (x : ℝ) : AllFin (l.set k (.fin x)) := by
  intro v hv
  rcases List.mem_or_eq_of_mem_set hv with hv | rfl
  · exact h v hv
  · exact ⟨x, rfl⟩

theorem FinTree.step {t : Tree (Exact ℝ)} (ht : FinTree t) {O : Options (Exact ℝ)} (hO : RealOptions O) {row : List (Exact ℝ)}
    {v d : Exact ℝ} (hv : t.predictSingle row = .ok v) (hd : ∃ x, d = XF.fin x) :
    ∃ x, (d +. (v *. O.learningRate)) = XF.fin x := by
  obtain ⟨a, rfl⟩ := ht.predict hv
  obtain ⟨b, rfl⟩ := hd
  obtain ⟨c, hc⟩ := hO.lr
  rw [hc]
  exact ⟨_, rfl⟩

/-- the scores and the trees so far are numbers -/
structure RInv (n : Nat) (st : TrainState (Exact ℝ)) : Prop where
  raw : ∀ i < n, AllFin (st.rawPred.row i)
  trees : ∀ ens ∈ st.boosters, ∀ t ∈ ens, FinTree t

/-- the columns of the probabilities -/
theorem probs_col {n m : Nat} {st : TrainState (Exact ℝ)} (hi : TInv expR n m st) (hr : ∀ i < n, AllFin (st.rawPred.row i))
    (hn : 0 < n) {k : Nat} (hk : k < m) {p : List (Exact ℝ)} (hp : denseCol st.probs k = .ok p) :
    ∃ q : List ℝ, p = finV q ∧ q.length = n ∧ ∀ v ∈ q, 0 < v ∧ (v < 1 ∨ m < 2) := by
  obtain ⟨l, h1, h2, h3⟩ := denseCol_spec hi.probsWF (by rw [hi.probsR]; exact hn) (col := k) (by rw [hi.probsC]; exact hk)
  rw [h1] at hp
  obtain rfl : l = p := Except.ok.inj hp
  have hrow : ∀ i < n, ∃ r : List ℝ, r.length = m ∧ st.probs.row i = finV (softmaxSpec r) := by
    intro i hin
    obtain ⟨r, hr⟩ := (hr i hin).finV
    have hl : (st.rawPred.row i).length = m := by
      rw [Dense.row_length hi.rawWF (by rw [hi.rawR]; exact hin), hi.rawC]
    rw [hr] at hl
    have hl' : r.length = m := by simpa [finV] using hl
    refine ⟨r, hl', ?_⟩
    have := hi.soft i hin
    rw [hr, softMax_real r (by rintro rfl; simp at hl'; omega)] at this
    exact (Except.ok.inj this).symm
  have hval : ∀ (i : Nat) v, l[i]? = some v → ∃ r : List ℝ, r.length = m ∧ ∃ x ∈ softmaxSpec r, v = XF.fin x := by
    intro i v hv
    have hin : i < n := by
      have := (List.getElem?_eq_some_iff.1 hv).1
      rw [h2, hi.probsR] at this
      exact this
    obtain ⟨r, q1, q2⟩ := hrow i hin
    rw [h3 i (by rw [hi.probsR]; exact hin), ← Dense.row_get (by rw [hi.probsR]; exact hin) (by rw [hi.probsC]; exact hk),
      q2] at hv
    obtain ⟨x, hx, rfl⟩ := List.mem_map.1 (List.mem_of_getElem? hv)
    exact ⟨r, q1, x, hx, rfl⟩
  obtain ⟨q, hq⟩ := AllFin.finV (l := l) (by
    intro v hv
    obtain ⟨i, hi⟩ := List.getElem?_of_mem hv
    obtain ⟨r, _, x, _, hx⟩ := hval i v hi
    exact ⟨x, hx⟩)
  refine ⟨q, hq, by rw [← hi.probsR, ← h2, hq]; simp [finV], ?_⟩
  intro v hv
  obtain ⟨i, hi⟩ := List.getElem?_of_mem hv
  obtain ⟨r, hr, x, hx, he⟩ := hval i (.fin v) (by rw [hq, finV, List.getElem?_map, hi]; rfl)
  cases he
  refine ⟨softmaxSpec_pos r v hx, ?_⟩
  by_cases h2 : m < 2
  · exact Or.inr h2
  · exact Or.inl (softmaxSpec_lt_one r (by omega) v hx)

/-- what training over the reals needs: `n` finite rows, `m` classes, labels that are numbers, a loss of the package -/
structure RealSetup (X : List (List ℝ)) (O : Options (Exact ℝ)) (ohe : Dense (Exact ℝ)) (n m : Nat) (one : Prop) : Prop where
  opts : RealOptions O
  len : X.length = n
  pos : 0 < n
  ohe : ∀ k y, k < m → denseCol ohe k = .ok y → ∃ y' : List ℝ, y = finV y' ∧ y'.length = n
  loss : ∀ lv, O.loss = some lv → RealLoss lv.fn one
  two : m < 2 → one

/-- the row sample is a non-empty set of rows -/
def IdxOk (n : Nat) (idx : Option (List Nat)) : Prop := ∀ l, idx = some l → l ≠ [] ∧ ∀ w ∈ l, w < n

theorem ClassStep.real {S : GoSort} {X : List (List ℝ)} {O : Options (Exact ℝ)} {ohe : Dense (Exact ℝ)} {n m : Nat}
    {one : Prop} (hs : RealSetup X O ohe n m one) {idx : Option (List Nat)} (hidx : IdxOk n idx) {cols : List Nat}
    {round : Nat} {st st' : TrainState (Exact ℝ)} {k : Nat} {tree : Tree (Exact ℝ)}
    (s : ClassStep expR S (finRows X) O ohe idx cols round st st' k tree) (hi : TInv expR n m st)
    (hr : ∀ i < n, AllFin (st.rawPred.row i)) (hk : k < m) :
    FinTree tree ∧ ∀ i < n, AllFin (st'.rawPred.row i) := by
  obtain ⟨y, hy, hyl⟩ := hs.ohe k _ hk s.hy
  obtain ⟨p, hp, hpl, hpv⟩ := probs_col hi hr hs.pos hk s.hp
  have ht := s.htree
  rw [hy, hp] at ht
  have hfin := classTree_fin hs.opts (hs.loss _ s.hlv) (by
      intro h0
      have := hs.len
      rw [h0] at this
      simp at this
      have := hs.pos
      omega) (by intro h0; exact (hidx [] h0).1 rfl) (by rw [hs.len]; exact fun l hl => (hidx l hl).2)
    (by rw [hyl, hs.len]) (by rw [hpl, hs.len]) (fun v hv => ⟨(hpv v hv).1, (hpv v hv).2.imp id hs.two⟩) ht
  refine ⟨hfin, ?_⟩
  intro i hin
  have hd : (finRows X).length = n := by simp [finRows, hs.len]
  obtain ⟨_, _, _, h4⟩ := s.inv hi hd hk
  obtain ⟨v, d, h1, h2, h3⟩ := h4 i _ (List.getElem?_eq_getElem (by rw [hd]; exact hin))
  rw [h3]
  obtain ⟨x, hx⟩ := hfin.step hs.opts h1 (hr i hin d (List.mem_of_getElem? h2))
  rw [hx]
  exact (hr i hin).set k x

theorem trainClasses_real {S : GoSort} {X : List (List ℝ)} {O : Options (Exact ℝ)} {ohe : Dense (Exact ℝ)} {n m : Nat}
    {one : Prop} (hs : RealSetup X O ohe n m one) {idx : Option (List Nat)} (hidx : IdxOk n idx) {cols : List Nat}
    {round : Nat} (q : Nat) (hq : q ≤ m) (st : TrainState (Exact ℝ)) (acc' : TrainState (Exact ℝ) × List (Tree (Exact ℝ)))
    (h : (List.range q).foldlM (trainClass (softMaxDense expR) S (finRows X) O ohe idx cols round) (st, []) = .ok acc')
    (hi : TInv expR n m st) (hr : ∀ i < n, AllFin (st.rawPred.row i)) :
    (∀ i < n, AllFin (acc'.1.rawPred.row i)) ∧ ∀ t ∈ acc'.2, FinTree t := by
  have hd : (finRows X).length = n := by simp [finRows, hs.len]
  induction q generalizing acc' with
  | zero =>
    simp only [List.range_zero, List.foldlM_nil, pure, Except.pure, Except.ok.injEq] at h
    subst h
    exact ⟨hr, by simp⟩
  | succ q ih =>
    rw [List.range_succ, List.foldlM_append] at h
    obtain ⟨acc, h1, h2⟩ := bind_ok h
    rw [List.foldlM_cons] at h2
    obtain ⟨acc'', h3, h4⟩ := bind_ok h2
    simp only [List.foldlM_nil, pure, Except.pure, Except.ok.injEq] at h4
    subst h4
    obtain ⟨a1, _⟩ := trainClasses_inv hd q (by omega) st acc h1 hi
    obtain ⟨b1, b2⟩ := ih (by omega) acc h1
    rcases trainClass_inv h3 with ⟨_, rfl⟩ | ⟨_, tree, ht, ⟨s⟩⟩
    · exact ⟨b1, b2⟩
    · obtain ⟨c1, c2⟩ := s.real hs hidx a1 b1 (by omega)
      refine ⟨c2, ?_⟩
      rw [ht]
      intro t htm
      rcases List.mem_append.1 htm with htm | htm
      · exact b2 t htm
      · rw [List.mem_singleton.1 htm]
        exact c1

/-- the row samples of executed rounds are not empty -/
theorem idxOk_of_round {X : List (List (Exact ℝ))} {O : Options (Exact ℝ)} {d d' : Nat → Exact ℝ} {idx : Option (List Nat)}
    {cols : List Nat} (h : roundSamples X O d = .ok (idx, cols, d')) (hms : rowSub O = true → 1 ≤ O.minSample)
    (hl : ¬ ((idx.getD []).length : Int) < O.minSample) : IdxOk X.length idx := by
  obtain ⟨_, q2⟩ := roundSamples_inv h
  intro l hl'
  subst hl'
  by_cases hr : rowSub O = true
  · rw [if_pos hr] at q2
    have := hms hr
    refine ⟨?_, ?_⟩
    · rintro rfl
      simp at hl
      omega
    · intro w hw
      have q3 := Option.some.inj q2
      rw [q3] at hw
      simp at hw
      exact hw.1
  · rw [if_neg hr] at q2
    cases q2

theorem trainRounds_real {S : GoSort} {X : List (List ℝ)} {O : Options (Exact ℝ)} {ohe : Dense (Exact ℝ)} {n m : Nat}
    {one : Prop} (hs : RealSetup X O ohe n m one) (hms : rowSub O = true → 1 ≤ O.minSample) {q : Nat}
    {st st' : TrainState (Exact ℝ)}
    (h : (List.range q).foldlM (trainRound (softMaxDense expR) S (finRows X) O ohe m) st = .ok st')
    (hi : TInv expR n m st) (hb : st.boosters = []) (hr : RInv n st) : RInv n st' := by
  have hd : (finRows X).length = n := by simp [finRows, hs.len]
  induction q generalizing st' with
  | zero =>
    simp only [List.range_zero, List.foldlM_nil, pure, Except.pure, Except.ok.injEq] at h
    subst h
    exact hr
  | succ q ih =>
    rw [List.range_succ, List.foldlM_append] at h
    obtain ⟨st1, h1, h2⟩ := bind_ok h
    rw [List.foldlM_cons] at h2
    obtain ⟨st2, h3, h4⟩ := bind_ok h2
    simp only [List.foldlM_nil, pure, Except.pure, Except.ok.injEq] at h4
    subst h4
    obtain ⟨a1, _⟩ := trainRounds_inv h1 hi hd hb
    have b1 := ih h1
    obtain ⟨idx, cols, draws, hsam, ⟨_, rfl⟩ | ⟨hl, acc, hacc, rfl⟩⟩ := trainRound_inv h3
    · exact ⟨b1.raw, b1.trees⟩
    · have hidx : IdxOk n idx := by
        have := idxOk_of_round hsam hms hl
        rw [hd] at this
        exact this
      obtain ⟨c1, c2⟩ := trainClasses_real hs hidx m le_rfl _ acc hacc (a1.draws draws) b1.raw
      obtain ⟨_, e2, _⟩ := trainClasses_inv hd m le_rfl _ acc hacc (a1.draws draws)
      refine ⟨c1, ?_⟩
      simp only [e2]
      intro ens he t ht
      rcases List.mem_append.1 he with he | he
      · exact b1.trees ens he t ht
      · rw [List.mem_singleton.1 he] at ht
        exact c2 t ht

/-! ### predictions of a model of finite trees -/

theorem addRound_fin {lr : Exact ℝ} (hlr : ∃ x, lr = XF.fin x) {row : List (Exact ℝ)} (ts : List (Tree (Exact ℝ)))
    (ht : ∀ t ∈ ts, FinTree t) (c : Nat) (tmp tmp' : List (Exact ℝ)) (hf : AllFin tmp)
    (h : addRound lr row ts c tmp = .ok tmp') : AllFin tmp' := by
  induction ts generalizing c tmp with
  | nil =>
    simp only [addRound, Except.ok.injEq] at h
    exact h ▸ hf
  | cons t ts ih =>
    unfold addRound at h
    obtain ⟨p, hp, h⟩ := bind_ok h
    obtain ⟨tmp1, h1, h⟩ := bind_ok h
    refine ih (fun t ht' => ht t (by simp [ht'])) _ _ ?_ h
    unfold addAt at h1
    cases hc : tmp[c]? with
    | none => rw [hc] at h1; cases h1
    | some d =>
      rw [hc] at h1
      simp only [Except.ok.injEq] at h1
      obtain ⟨a, rfl⟩ := (ht t (by simp)).predict hp
      obtain ⟨b, rfl⟩ := hf d (List.mem_of_getElem? hc)
      obtain ⟨e, rfl⟩ := hlr
      rw [← h1]
      exact hf.set c _

theorem rawScores_fin {M : MultiClass (Exact ℝ)} (hlr : ∃ x, M.learningRate = XF.fin x) (hb : ∃ x, M.baseScore = XF.fin x)
    (ht : ∀ ens ∈ M.b, ∀ t ∈ ens, FinTree t) {row s : List (Exact ℝ)} (h : M.rawScores row = .ok s) : AllFin s := by
  unfold MultiClass.rawScores at h
  obtain ⟨b0, _, h⟩ := bind_ok h
  have key : ∀ (b : List (List (Tree (Exact ℝ)))) (tmp : List (Exact ℝ)), (∀ ens ∈ b, ∀ t ∈ ens, FinTree t) → AllFin tmp →
      b.foldlM (fun tmp ens => addRound M.learningRate row ens 0 tmp) tmp = .ok s → AllFin s := by
    intro b
    induction b with
    | nil =>
      intro tmp _ hf h
      simp only [List.foldlM_nil, pure, Except.pure, Except.ok.injEq] at h
      exact h ▸ hf
    | cons ens b ih =>
      intro tmp ht hf h
      rw [List.foldlM_cons] at h
      obtain ⟨tmp1, h1, h⟩ := bind_ok h
      exact ih tmp1 (fun e he => ht e (by simp [he])) (addRound_fin hlr ens (ht ens (by simp)) 0 tmp tmp1 hf h1) h
  refine key M.b _ ht ?_ h
  intro v hv
  rw [List.mem_replicate] at hv
  rw [hv.2]
  exact hb

end Boo
