import Verif.Lemmas.Stump
import Verif.Props.Additive

/-!
# C114: boosting stumps tends to the best additive model
-/

namespace Boo
open GoFloat Spec Filter Topology
set_option linter.unusedSectionVars false

/-- The logarithmic loss (cross entropy) on the rows `X` with labels `labels` of the probabilities that the softmax gives for the scores `addScore h`:
the sum over the rows of `log Σ_lab exp(score of lab) - score of the row's label`. -/
noncomputable def addLoss (h : Int → ℕ → ℝ → ℝ) (X : List (List ℝ)) (labels : List Int) : ℝ :=
  ((X.zip labels).map fun q =>
    Real.log (∑ lab ∈ labels.toFinset, Real.exp (addScore h lab q.1)) - addScore h q.2 q.1).sum

theorem zip_sum {α β : Type} (l : List α) (l' : List β) (hl : l.length = l'.length) (a : α) (b : β) (g : α × β → ℝ) :
    ((l.zip l').map g).sum = ∑ i ∈ Finset.range l.length, g (l.getD i a, l'.getD i b) := by
  rw [list_sum_range _ (a, b)]
  have : (l.zip l').length = l.length := by simp [hl]
  rw [this]
  refine Finset.sum_congr rfl fun i hi => ?_
  have hin := Finset.mem_range.1 hi
  congr 1
  rw [List.getD_eq_getElem?_getD, List.getD_eq_getElem?_getD, List.getD_eq_getElem?_getD,
    List.getElem?_eq_getElem (by omega : i < (l.zip l').length), List.getElem?_eq_getElem hin,
    List.getElem?_eq_getElem (by omega : i < l'.length)]
  simp

/-- the loss of scores given for each row and class -/
noncomputable def scoreLoss (n m : ℕ) (c : ℕ → ℕ) (s : ℕ → ℕ → ℝ) : ℝ :=
  ∑ i ∈ Finset.range n, (Real.log (∑ k ∈ Finset.range m, Real.exp (s i k)) - s i (c i))

theorem totalLoss_score {n m : ℕ} {c : ℕ → ℕ} {st : TrainState (Exact ℝ)} (hc : ∀ i < n, c i < m)
    (hl : ∀ i < n, ((st.rawPred.row i).map realOf).length = m) : totalLoss n c st = scoreLoss n m c (scoreAt st) := by
  unfold totalLoss scoreLoss
  rw [list_range_sum]
  refine Finset.sum_congr rfl fun i hi => ?_
  have hin := Finset.mem_range.1 hi
  have h1 := hl i hin
  have h2 : c i < ((st.rawPred.row i).map realOf).length := by rw [h1]; exact hc i hin
  rw [rowLoss_eq h2, list_sum_range _ 0, h1]
  congr 1
  unfold scoreAt
  rw [getD_get h2]

theorem probAt_score {m : ℕ} {st : TrainState (Exact ℝ)} {i k : ℕ} (hk : k < m) (hl : ((st.rawPred.row i).map realOf).length = m) :
    probAt st i k = Real.exp (scoreAt st i k) / ∑ k ∈ Finset.range m, Real.exp (scoreAt st i k) := by
  have h2 : k < ((st.rawPred.row i).map realOf).length := by rw [hl]; exact hk
  unfold probAt
  rw [softmax_get h2, list_sum_range _ 0, hl]
  unfold scoreAt
  rw [getD_get h2]

theorem exp_sub_one_le {x y : ℝ} (h0 : 0 ≤ x) (h : x ≤ y) : Real.exp x - 1 ≤ x * Real.exp y := by
  have h1 := Real.add_one_le_exp (-x)
  have h2 := Real.exp_pos x
  have h3 : Real.exp (-x) * Real.exp x = 1 := by rw [← Real.exp_add]; simp
  have h4 : Real.exp x ≤ Real.exp y := Real.exp_le_exp.2 h
  nlinarith

/-- the losses of the runs tend to at most that of any scores that add up over the columns -/
theorem stump_core (S : GoSort) (draws : Nat → Exact ℝ) (X : List (List ℝ)) (D : DataBunch (Exact ℝ)) (O : Options (Exact ℝ))
    (lr lam gam w : ℝ) (hF : FitsAll O X D lr lam gam w) (hw : w < 2) (hcols : O.xgb = true → (O.colSubSample <. one) = false)
    (hgam : O.xgb = true → gam = 0) (hdep : O.maxDepth = 1) (c : Nat) (hrect : ∀ row ∈ X, row.length = c) {base : ℝ}
    {M : ℕ → MultiClass (Exact ℝ)} {ohe : Dense (Exact ℝ)} {p : ℕ → List Int × TrainState (Exact ℝ)}
    (hC : CalRun S draws X D O lr lam gam base M ohe p) :
    (∀ R, ∃ B, ∀ j < (distinctElements D.labels).length, AddRep X c (fun i => scoreAt (p R).2 i j) B) ∧
    ∀ (s : ℕ → ℕ → ℝ) (Bs : ℝ), (∀ k < (distinctElements D.labels).length, AddRep X c (fun i => s i k) Bs) →
      ∀ ε > 0, ∃ R0, ∀ R ≥ R0, totalLoss X.length (classOf D.labels) (p R).2 <
        scoreLoss X.length (distinctElements D.labels).length (classOf D.labels) s + ε := by
  have hXl : X.length = D.data.length := by rw [hF.data]; simp [finRows]
  have hd : X.length = D.labels.length := hXl.trans hF.labels
  have hfix : ∃ f, O.fixMcw = { O with minChildWeight := f } := by
    unfold Options.fixMcw
    split
    · exact ⟨_, rfl⟩
    · exact ⟨O.minChildWeight, rfl⟩
  obtain ⟨fx, hf⟩ := hfix
  have hcs : colSub O = false := by
    unfold colSub
    cases hx : O.xgb with
    | false => simp
    | true => rw [hcols hx]; rfl
  obtain ⟨hbase, hp, hMp, hlab, hstep, hinv, hfin, hoff, hrep, ⟨one, hs⟩, hL, hrow⟩ := hC
  have hcls := hL.cls
  have hn0 := hs.pos
  set m := (distinctElements D.labels).length with hm
  set n := X.length with hn
  set cl := classOf D.labels with hcl
  set L : ℕ → ℝ := fun R => totalLoss n cl (p R).2 with hLdef
  set κ := lr * (8 - lr) / 8 with hκ
  have hκ0 : 0 < κ := step_pos hF.lr0 hF.lr8
  have hstep' : ∀ R : ℕ, trainRound (softMaxDense expR) S (finRows X) O.fixMcw ohe m (p R).2 R = .ok (p (R + 1)).2 := by
    intro R
    have := hstep R
    rw [hF.data] at this
    exact this
  have hround := fun R : ℕ => trainRound_cal hs hL (by rw [hf]; exact hF.minSample) (hstep' R) (hinv R) (hfin R) (hoff R)
  have hL0 : ∀ R, 0 ≤ L R := fun R => totalLoss_nonneg (hinv R) hcls
  have hL1 : ∀ R, L (R + 1) ≤ L R := fun R => (hround R).1
  set e : ℕ → ℝ := fun R => Real.sqrt ((L R - L (R + 1)) / κ) with he
  have he0 : ∀ R, 0 ≤ e R := fun R => Real.sqrt_nonneg _
  have hdec : ∀ R, L R - L (R + 1) = κ * e R ^ 2 := by
    intro R
    rw [he]
    beta_reduce
    rw [Real.sq_sqrt (div_nonneg (by linarith [hL1 R]) hκ0.le), mul_div_cancel₀ _ hκ0.ne']
  have hsqrt : ∀ R, Real.sqrt (e R ^ 2) = e R := fun R => Real.sqrt_sq (he0 R)
  have hmd : O.fixMcw.maxDepth = 1 := by rw [hf]; exact hdep
  have hlr := hF.lr0
  have hadd : ∀ R, ∀ j < m, AddRep X c (fun i => scoreAt (p R).2 i j) (|base| + 2 * n * lr * ∑ r ∈ Finset.range R, e r) := by
    intro R
    induction R with
    | zero =>
      intro j hj
      refine ⟨base, fun _ _ => 0, ?_, by simp⟩
      intro i hi
      show ((((p 0).2.rawPred.row i).map realOf).getD j 0) = _
      rw [hrep i hi]
      simp [List.getD_eq_getElem?_getD, hj]
    | succ R ih =>
      intro j hj
      have := trainRound_stump hs hL (by rw [hf]; exact hF.minSample) (by rw [hmd]) hrect (hstep' R) (hinv R) (hfin R) (hoff R)
        _ ih (e R ^ 2) (hdec R).le j hj
      rw [hsqrt] at this
      refine this.mono (le_of_eq ?_)
      rw [Finset.sum_range_succ]
      ring
  refine ⟨fun R => ⟨_, hadd R⟩, ?_⟩
  intro s Bs hsB ε hε
  have hslack : slackOf O.fixMcw gam = 0 := by
    rw [hf]
    unfold slackOf
    show (if O.xgb = true then gam else 0) = 0
    split
    · exact hgam ‹_›
    · rfl
  set emax := Real.sqrt (L 0 / κ) with hemax
  have heM : ∀ R, e R ≤ emax := by
    intro R
    apply Real.sqrt_le_sqrt
    apply div_le_div_of_nonneg_right _ hκ0.le
    have h1 : Antitone L := antitone_nat_of_succ_le hL1
    have := h1 (Nat.zero_le R)
    have := hL0 (R + 1)
    linarith
  set K := Real.sqrt (n + lam) + n * (2 * lr * Real.exp (2 * (lr * emax))) with hK
  have hlam0 := hF.lam0
  have hK0 : 0 ≤ K := by positivity
  have hg : ∀ R, Real.sqrt ((n + lam) * (e R ^ 2)) + n * (Real.exp (2 * (lr * Real.sqrt (e R ^ 2))) - 1) ≤ K * e R := by
    intro R
    rw [hsqrt, Real.sqrt_mul (by positivity), hsqrt]
    have h0 := he0 R
    have h1 : lr * e R ≤ lr * emax := mul_le_mul_of_nonneg_left (heM R) hlr.le
    have h2 := exp_sub_one_le (x := 2 * (lr * e R)) (y := 2 * (lr * emax)) (by positivity) (by linarith)
    have h3 : (n : ℝ) * (Real.exp (2 * (lr * e R)) - 1) ≤ n * (2 * (lr * e R) * Real.exp (2 * (lr * emax))) :=
      mul_le_mul_of_nonneg_left h2 (by positivity)
    rw [hK]
    nlinarith
  have hrl : ∀ R : ℕ, ∀ i < n, (((p R).2.rawPred.row i).map realOf).length = m := by
    intro R i hin
    rw [List.length_map, Dense.row_length (hinv R).rawWF (by rw [(hinv R).rawR]; exact hin), (hinv R).rawC]
  have hm0 : 0 < m := lt_of_le_of_lt (Nat.zero_le _) (hcls 0 hn0)
  have hBs : 0 ≤ Bs := by
    obtain ⟨a, H, _, h2⟩ := hsB 0 hm0
    refine le_trans ?_ h2
    have : 0 ≤ ∑ i ∈ Finset.range X.length, ∑ f ∈ Finset.range c, |H f (val X i f)| :=
      Finset.sum_nonneg fun i _ => Finset.sum_nonneg fun f _ => abs_nonneg _
    positivity
  have hres : ∀ R, ∀ k < m, ∀ (F : ℕ → ℝ) (B : ℝ), AddRep X c F B →
      |∑ i ∈ Finset.range n, ((if cl i = k then (1 : ℝ) else 0) - probAt (p (R + 1)).2 i k) * F i| ≤ K * e R * B := by
    intro R k hk F B hFB
    obtain ⟨g1, g2⟩ := (hround R).2 (e R ^ 2) (hdec R).le k hk
    refine hFB.bound _ _ ?_ ?_
    · rw [← list_range_sum]
      exact g1.trans (hg R)
    · intro f hfc θ hl hr
      have hfl := list_filter_sum n (fun i => val X i f ≤ θ) (fun i => (if cl i = k then (1 : ℝ) else 0) - probAt (p (R + 1)).2 i k)
      rw [← hfl]
      obtain ⟨a, ha, ha'⟩ := hl
      obtain ⟨b, hb, hb'⟩ := hr
      have h0 : 0 < X.length := hn0
      have hw1 : max 1 ⌊w⌋ = 1 := by
        have : ⌊w⌋ < 2 := Int.floor_lt.2 (by exact_mod_cast hw)
        omega
      have hadm : Admissible X ⌊w⌋ (List.range n) f θ := by
        unfold Admissible
        rw [hw1]
        have h1 : 0 < (leftOf X (List.range n) f θ).length :=
          List.length_pos_of_mem (a := a) (List.mem_filter.2 ⟨List.mem_range.2 ha, by simpa using ha'⟩)
        have h2 : 0 < (rightOf X (List.range n) f θ).length :=
          List.length_pos_of_mem (a := b) (List.mem_filter.2 ⟨List.mem_range.2 hb, by simpa using hb'⟩)
        exact ⟨by exact_mod_cast h1, by exact_mod_cast h2⟩
      have h3 := (g2.1 (by rw [hf]; exact hcs) (by rw [hmd]) X[0] (List.getElem?_eq_getElem h0) f
        (by rw [hrect _ (List.getElem_mem h0)]; exact hfc) θ ((admissible_fix hF.mcw hF.mcwTop _ _ _).2 hadm)).1
      rw [hslack, add_zero] at h3
      exact h3.trans (hg R)
  have hconv : ∀ R, L (R + 1) - scoreLoss n m cl s ≤
      (m * K * (|base| + Bs) + m * K * (2 * n * lr) * ∑ r ∈ Finset.range (R + 1), e r) * e R := by
    intro R
    set F := scoreAt (p (R + 1)).2 with hFs
    set P := fun i k => probAt (p (R + 1)).2 i k with hP
    have h1 : L (R + 1) - scoreLoss n m cl s ≤
        ∑ k ∈ Finset.range m, (-(∑ i ∈ Finset.range n, ((if cl i = k then (1 : ℝ) else 0) - P i k) * F i k) +
          ∑ i ∈ Finset.range n, ((if cl i = k then (1 : ℝ) else 0) - P i k) * s i k) := by
      rw [hLdef]
      beta_reduce
      rw [totalLoss_score hcls (hrl (R + 1)), ← hFs]
      unfold scoreLoss
      rw [← Finset.sum_sub_distrib]
      have e1 : ∑ k ∈ Finset.range m, (-(∑ i ∈ Finset.range n, ((if cl i = k then (1 : ℝ) else 0) - P i k) * F i k) +
          ∑ i ∈ Finset.range n, ((if cl i = k then (1 : ℝ) else 0) - P i k) * s i k) =
          ∑ i ∈ Finset.range n, ∑ k ∈ Finset.range m, (P i k * (F i k - s i k) - if cl i = k then F i k - s i k else 0) := by
        rw [Finset.sum_comm]
        refine Finset.sum_congr rfl fun k _ => ?_
        rw [← Finset.sum_neg_distrib, ← Finset.sum_add_distrib]
        refine Finset.sum_congr rfl fun i _ => ?_
        by_cases h : cl i = k
        · simp only [h, if_true]; ring
        · simp only [h, if_false]; ring
      rw [e1]
      refine Finset.sum_le_sum fun i hi => ?_
      have hin := Finset.mem_range.1 hi
      rw [Finset.sum_sub_distrib, Finset.sum_ite_eq_of_mem (Finset.range m) (cl i) (fun k => F i k - s i k) (Finset.mem_range.2 (hcls i hin))]
      have h2 := gibbs m (F i) (s i) hm0
      have h3 : ∑ k ∈ Finset.range m, P i k * (F i k - s i k) =
          ∑ k ∈ Finset.range m, Real.exp (F i k) / (∑ k ∈ Finset.range m, Real.exp (F i k)) * (F i k - s i k) := by
        refine Finset.sum_congr rfl fun k hk => ?_
        rw [hP]
        beta_reduce
        rw [probAt_score (Finset.mem_range.1 hk) (hrl (R + 1) i hin)]
      rw [h3]
      linarith
    refine h1.trans ?_
    have h4 : ∀ k ∈ Finset.range m, (-(∑ i ∈ Finset.range n, ((if cl i = k then (1 : ℝ) else 0) - P i k) * F i k) +
          ∑ i ∈ Finset.range n, ((if cl i = k then (1 : ℝ) else 0) - P i k) * s i k) ≤
        K * e R * (|base| + 2 * n * lr * ∑ r ∈ Finset.range (R + 1), e r) + K * e R * Bs := by
      intro k hk
      have hk' := Finset.mem_range.1 hk
      have a1 := hres R k hk' _ _ (hadd (R + 1) k hk')
      have a2 := hres R k hk' _ _ (hsB k hk')
      have b1 := (abs_le.1 a1).1
      have b2 := (abs_le.1 a2).2
      linarith
    refine (Finset.sum_le_sum h4).trans (le_of_eq ?_)
    rw [Finset.sum_const, Finset.card_range, nsmul_eq_mul]
    ring
  exact limit_lemma L e _ κ _ _ hκ0 (by positivity) (by positivity) hL0 he0 hdec hconv ε hε

theorem addLoss_score (h : Int → ℕ → ℝ → ℝ) (X : List (List ℝ)) (labels : List Int) (hd : X.length = labels.length) :
    addLoss h X labels = scoreLoss X.length (distinctElements labels).length (classOf labels)
      fun i k => addScore h ((distinctElements labels).getD k 0) (X.getD i []) := by
  unfold addLoss scoreLoss
  rw [zip_sum X labels hd [] 0]
  refine Finset.sum_congr rfl fun i hi => ?_
  have hin := Finset.mem_range.1 hi
  have hil : i < labels.length := by omega
  have hset : labels.toFinset = (distinctElements labels).toFinset := by
    ext x
    rw [List.mem_toFinset, List.mem_toFinset, (C39_distinct labels).2.1]
  have hci := classOf_get hil
  congr 1
  · congr 1
    rw [hset, List.sum_toFinset _ (C39_distinct labels).1, list_sum_range _ 0]
  · show addScore h (labels.getD i 0) _ = _
    beta_reduce
    rw [getD_get hil, List.getD_eq_getElem?_getD (l := distinctElements labels), hci]
    rfl

theorem addScore_rep (h : Int → ℕ → ℝ → ℝ) (X : List (List ℝ)) (c : ℕ) (hrect : ∀ row ∈ X, row.length = c) (lab : Int) :
    AddRep X c (fun i => addScore h lab (X.getD i [])) (2 * ∑ i ∈ Finset.range X.length, ∑ f ∈ Finset.range c, |h lab f (val X i f)|) := by
  refine ⟨0, h lab, ?_, by simp⟩
  intro i hi
  have : (X.getD i []).length = c := by
    rw [List.getD_eq_getElem?_getD, List.getElem?_eq_getElem hi]
    exact hrect _ (List.getElem_mem hi)
  show addScore h lab (X.getD i []) = _
  unfold addScore
  rw [this, zero_add]
  rfl

theorem addLoss_nonneg (h : Int → ℕ → ℝ → ℝ) (X : List (List ℝ)) (labels : List Int) : 0 ≤ addLoss h X labels := by
  unfold addLoss
  apply List.sum_nonneg
  intro x hx
  obtain ⟨q, hq, rfl⟩ := List.mem_map.1 hx
  have hl : q.2 ∈ labels := (List.of_mem_zip hq).2
  have h1 : Real.exp (addScore h q.2 q.1) ≤ ∑ lab ∈ labels.toFinset, Real.exp (addScore h lab q.1) :=
    Finset.single_le_sum (f := fun lab => Real.exp (addScore h lab q.1)) (fun _ _ => (Real.exp_pos _).le) (List.mem_toFinset.2 hl)
  have h2 := Real.log_le_log (Real.exp_pos _) h1
  rw [Real.log_exp] at h2
  linarith

/-- the models' own scores have the loss of some scores that add up over the columns -/
theorem exists_addLoss {X : List (List ℝ)} {labels : List Int} (hd : X.length = labels.length) {c : ℕ} (hc : 0 < c)
    (hrect : ∀ row ∈ X, row.length = c) {s : ℕ → ℕ → ℝ} {B : ℝ}
    (hs : ∀ j < (distinctElements labels).length, AddRep X c (fun i => s i j) B) :
    ∃ h, addLoss h X labels = scoreLoss X.length (distinctElements labels).length (classOf labels) s := by
  have hex : ∀ j, ∃ (a : ℝ) (H : ℕ → ℝ → ℝ), j < (distinctElements labels).length →
      ∀ i < X.length, s i j = a + ∑ f ∈ Finset.range c, H f (val X i f) := by
    intro j
    by_cases hj : j < (distinctElements labels).length
    · obtain ⟨a, H, h1, _⟩ := hs j hj
      exact ⟨a, H, fun _ => h1⟩
    · exact ⟨0, fun _ _ => 0, fun h => absurd h hj⟩
  choose a H hH using hex
  refine ⟨fun lab f x => H ((distinctElements labels).idxOf lab) f x + if f = 0 then a ((distinctElements labels).idxOf lab) else 0, ?_⟩
  rw [addLoss_score _ _ _ hd]
  have key : ∀ i < X.length, ∀ k < (distinctElements labels).length,
      addScore (fun lab f x => H ((distinctElements labels).idxOf lab) f x + if f = 0 then a ((distinctElements labels).idxOf lab) else 0)
        ((distinctElements labels).getD k 0) (X.getD i []) = s i k := by
    intro i hi k hk
    have hlen : (X.getD i []).length = c := by
      rw [List.getD_eq_getElem?_getD, List.getElem?_eq_getElem hi]
      exact hrect _ (List.getElem_mem hi)
    have hidx : (distinctElements labels).idxOf ((distinctElements labels).getD k 0) = k := by
      rw [getD_get hk]
      exact (C39_distinct labels).1.idxOf_getElem k hk
    unfold addScore
    rw [hlen]
    beta_reduce
    rw [hidx, Finset.sum_add_distrib, Finset.sum_ite_eq' (Finset.range c) 0 (fun _ => a k), if_pos (Finset.mem_range.2 hc), hH k hk i hi,
      add_comm]
    rfl
  unfold scoreLoss
  refine Finset.sum_congr rfl fun i hi => ?_
  have hin := Finset.mem_range.1 hi
  have hil : i < labels.length := by omega
  have hcm := (List.getElem?_eq_some_iff.1 (classOf_get hil)).1
  beta_reduce
  rw [key i hin _ hcm]
  congr 2
  exact Finset.sum_congr rfl fun k hk => by rw [key i hin k (Finset.mem_range.1 hk)]

theorem CalRun.probs {S : GoSort} {draws : Nat → Exact ℝ} {X : List (List ℝ)} {D : DataBunch (Exact ℝ)} {O : Options (Exact ℝ)}
    {lr lam gam w : ℝ} (hF : FitsAll O X D lr lam gam w) {base : ℝ} {M : ℕ → MultiClass (Exact ℝ)} {ohe : Dense (Exact ℝ)}
    {p : ℕ → List Int × TrainState (Exact ℝ)} (hC : CalRun S draws X D O lr lam gam base M ohe p)
    (hM : ∀ R : ℕ, newMultiClass expR S draws D { O with rounds := R } = .ok (M R)) (R : ℕ) (hR : 0 < R) :
    ∃ ps, TrueProbs (M R) D ps ∧ logLoss ps = totalLoss X.length (classOf D.labels) (p R).2 := by
  have hXl : X.length = D.data.length := by rw [hF.data]; simp [finRows]
  have hd : X.length = D.labels.length := hXl.trans hF.labels
  have hrowR : rowSub ({ O with rounds := R } : Options (Exact ℝ)) = false := hC.rows
  have hbl : (p R).2.boosters ≠ [] := by
    intro h0
    have := C22_requested_partial expR S draws D _ (M R) (hM R) (Or.inr (by simpa using hF.minSample))
    rw [hrowR] at this
    simp only [Bool.false_and, Bool.false_eq_true, decide_false, List.filter_false, List.length_nil, add_zero] at this
    rw [hC.model R] at this
    have e : (toModel expR ({ O with rounds := (R : Int) } : Options (Exact ℝ)) (p R).1 (p R).2).b = (p R).2.boosters := rfl
    rw [e, h0] at this
    simp at this
    omega
  obtain ⟨ps, h1, _, h2, _⟩ := trueProbs_of_state S draws X D hF.data hd { O with rounds := R } base hC.baseEq (p R).1 (p R).2 (hC.trainEq R)
    (by rw [hC.labs R]; exact hC.inv R) (hC.fin R) (train_off (hC.trainEq R) (by simpa using hF.stop)).2 hbl
  refine ⟨ps, ?_, h2⟩
  rw [hC.model R]
  exact h1

/-- **C114 (no additive scores are better)**: over the reals, train models with 1, 2, 3, … rounds from the same data, options and generator: squared error, a
learning rate in (0,8), MinChildWeight below 2, MaxDepth 1, no Gamma (or regular boosting), no subsampling, no early stopping. Then for all scores that
add up over the columns, the models with enough rounds have a logarithmic loss on the training data below that of these scores, or as little above it as wanted. -/
theorem C114_best (S : GoSort) (draws : Nat → Exact ℝ) (X : List (List ℝ)) (D : DataBunch (Exact ℝ)) (O : Options (Exact ℝ))
    (lr lam gam w : ℝ) (hF : FitsAll O X D lr lam gam w) (hw : w < 2) (hcols : O.xgb = true → (O.colSubSample <. one) = false)
    (hgam : O.xgb = true → gam = 0) (hdep : O.maxDepth = 1) (c : Nat) (hrect : ∀ row ∈ X, row.length = c) (M : ℕ → MultiClass (Exact ℝ))
    (hM : ∀ R : ℕ, newMultiClass expR S draws D { O with rounds := R } = .ok (M R)) (h : Int → ℕ → ℝ → ℝ) (ε : ℝ) (hε : 0 < ε) :
    ∃ R0, ∀ R ≥ R0, ∃ ps, TrueProbs (M R) D ps ∧ logLoss ps < addLoss h X D.labels + ε := by
  obtain ⟨base, ohe, p, hC⟩ := cal_states S draws X D O lr lam gam w hF M hM
  have hXl : X.length = D.data.length := by rw [hF.data]; simp [finRows]
  have hd : X.length = D.labels.length := hXl.trans hF.labels
  obtain ⟨_, h2⟩ := stump_core S draws X D O lr lam gam w hF hw hcols hgam hdep c hrect hC
  have hB : ∀ k < (distinctElements D.labels).length,
      AddRep X c (fun i => addScore h ((distinctElements D.labels).getD k 0) (X.getD i [])) (∑ k ∈ Finset.range (distinctElements D.labels).length,
        (2 * ∑ i ∈ Finset.range X.length, ∑ f ∈ Finset.range c, |h ((distinctElements D.labels).getD k 0) f (val X i f)|)) := by
    intro k hk
    refine (addScore_rep h X c hrect _).mono ?_
    exact Finset.single_le_sum (f := fun k => 2 * ∑ i ∈ Finset.range X.length, ∑ f ∈ Finset.range c,
      |h ((distinctElements D.labels).getD k 0) f (val X i f)|) (fun k _ => by
        have : 0 ≤ ∑ i ∈ Finset.range X.length, ∑ f ∈ Finset.range c, |h ((distinctElements D.labels).getD k 0) f (val X i f)| :=
          Finset.sum_nonneg fun i _ => Finset.sum_nonneg fun f _ => abs_nonneg _
        positivity) (Finset.mem_range.2 hk)
  obtain ⟨R0, hR0⟩ := h2 (fun i k => addScore h ((distinctElements D.labels).getD k 0) (X.getD i [])) _ hB ε hε
  refine ⟨R0 + 1, fun R hR => ?_⟩
  obtain ⟨ps, a1, a2⟩ := hC.probs hF hM R (by omega)
  refine ⟨ps, a1, ?_⟩
  rw [a2, addLoss_score _ _ _ hd]
  exact hR0 R (by omega)

/-- **C114 (limit)**: and the logarithmic losses of the models converge to the greatest lower bound of the losses of all such scores. -/
theorem C114_limit (S : GoSort) (draws : Nat → Exact ℝ) (X : List (List ℝ)) (D : DataBunch (Exact ℝ)) (O : Options (Exact ℝ))
    (lr lam gam w : ℝ) (hF : FitsAll O X D lr lam gam w) (hw : w < 2) (hcols : O.xgb = true → (O.colSubSample <. one) = false)
    (hgam : O.xgb = true → gam = 0) (hdep : O.maxDepth = 1) (c : Nat) (hc : 0 < c) (hrect : ∀ row ∈ X, row.length = c)
    (M : ℕ → MultiClass (Exact ℝ)) (hM : ∀ R : ℕ, newMultiClass expR S draws D { O with rounds := R } = .ok (M R)) :
    ∃ ps : ℕ → List ℝ, (∀ R > 0, TrueProbs (M R) D (ps R) ∧ ∃ h, logLoss (ps R) = addLoss h X D.labels) ∧
      Tendsto (fun R => logLoss (ps R)) atTop (𝓝 (⨅ h, addLoss h X D.labels)) := by
  obtain ⟨base, ohe, p, hC⟩ := cal_states S draws X D O lr lam gam w hF M hM
  have hXl : X.length = D.data.length := by rw [hF.data]; simp [finRows]
  have hd : X.length = D.labels.length := hXl.trans hF.labels
  obtain ⟨h1, _⟩ := stump_core S draws X D O lr lam gam w hF hw hcols hgam hdep c hrect hC
  have hrl : ∀ R : ℕ, ∀ i < X.length, (((p R).2.rawPred.row i).map realOf).length = (distinctElements D.labels).length := by
    intro R i hin
    rw [List.length_map, Dense.row_length (hC.inv R).rawWF (by rw [(hC.inv R).rawR]; exact hin), (hC.inv R).rawC]
  have hex : ∀ R, ∃ ps, 0 < R → TrueProbs (M R) D ps ∧ ∃ h, logLoss ps = addLoss h X D.labels := by
    intro R
    by_cases hR : 0 < R
    · obtain ⟨ps, a1, a2⟩ := hC.probs hF hM R hR
      refine ⟨ps, fun _ => ⟨a1, ?_⟩⟩
      obtain ⟨B, hB⟩ := h1 R
      obtain ⟨h, hh⟩ := exists_addLoss hd hc hrect hB
      exact ⟨h, by rw [a2, hh, totalLoss_score hC.cal.cls (hrl R)]⟩
    · exact ⟨[], fun h => absurd h hR⟩
  choose ps hps using hex
  refine ⟨ps, fun R hR => hps R hR, ?_⟩
  have hbdd : BddBelow (Set.range fun h => addLoss h X D.labels) := ⟨0, by rintro x ⟨h, rfl⟩; exact addLoss_nonneg _ _ _⟩
  rw [Metric.tendsto_atTop]
  intro ε hε
  obtain ⟨h, hh⟩ := exists_lt_of_ciInf_lt (f := fun h => addLoss h X D.labels) (a := (⨅ h, addLoss h X D.labels) + ε / 2) (by linarith)
  obtain ⟨R0, hR0⟩ := C114_best S draws X D O lr lam gam w hF hw hcols hgam hdep c hrect M hM h (ε / 2) (by linarith)
  refine ⟨R0 + 1, fun R hR => ?_⟩
  obtain ⟨a1, h', a2⟩ := hps R (by omega)
  obtain ⟨ps', b1, b2⟩ := hR0 R (by omega)
  have hsame : ps' = ps R := TrueProbs.unique hF.labels (by
    rw [hC.model R]
    show (p R).1.Nodup
    rw [hC.labs R]
    exact (C39_distinct _).1) b1 a1
  rw [hsame] at b2
  have b3 := ciInf_le hbdd h'
  beta_reduce at b3 hh
  rw [← a2] at b3
  rw [Real.dist_eq, abs_lt]
  constructor <;> linarith

/-! the four rows of "exclusive or": no additive scores do better than probabilities 1/2, so that the losses of boosted stumps tend to `4·log 2` -/

noncomputable def stumpOptions : Options (Exact ℝ) := { calOptions with maxDepth := 1 }
def xorPoints : List (List ℝ) := [[0, 0], [0, 1], [1, 0], [1, 1]]
def xorBunch : DataBunch (Exact ℝ) := ⟨finRows xorPoints, [], [0, 1, 1, 0], []⟩

theorem xorBunch_fits : FitsAll stumpOptions xorPoints xorBunch (3/10) (15/10) 0 0 := by
  refine ⟨rfl, rfl, ?_, by norm_num, by norm_num, ?_, by norm_num, ?_, le_rfl, ⟨_, rfl⟩, rfl, by norm_num, fun _ => ?_, ?_, ?_, ⟨_, rfl, rfl⟩⟩ <;>
    simp [stumpOptions, calOptions, keepRows, defaultXOptions]

theorem xorBunch_all : ∃ M : ℕ → MultiClass (Exact ℝ), ∀ R : ℕ,
    newMultiClass expR GoSort.ins (fun _ => .fin 0) xorBunch { stumpOptions with rounds := R } = .ok (M R) := by
  have h : ∀ R : ℕ, ∃ M, newMultiClass expR GoSort.ins (fun _ => .fin 0) xorBunch { stumpOptions with rounds := R } = .ok M := by
    intro R
    have hr : rowSub ({ stumpOptions with rounds := R } : Options (Exact ℝ)) = false := by simp [rowSub, stumpOptions, calOptions, keepRows]
    exact C22_returns expR GoSort.ins (fun _ => .fin 0) xorBunch { stumpOptions with rounds := R }
      ⟨by simp [xorBunch, xorPoints, finRows], ⟨2, by simp [xorBunch, xorPoints, finRows]⟩, finRows_noNaN _, finRows_midSafe _⟩ rfl _ rfl
      sqErrLoss_regular (by
        unfold CapOk
        simp [rowSub, colSub, stumpOptions, calOptions, keepRows]) (by rw [hr]; simp)
  choose M hM using h
  exact ⟨M, hM⟩

theorem log_two_le (a b : ℝ) : Real.log 2 + (a + b) / 2 ≤ Real.log (Real.exp a + Real.exp b) := by
  rw [Real.le_log_iff_exp_le (by positivity), Real.exp_add, Real.exp_log two_pos]
  have h1 : Real.exp ((a + b) / 2) = Real.exp (a / 2) * Real.exp (b / 2) := by rw [← Real.exp_add]; congr 1; ring
  have h2 : Real.exp a = Real.exp (a / 2) * Real.exp (a / 2) := by rw [← Real.exp_add]; congr 1; ring
  have h3 : Real.exp b = Real.exp (b / 2) * Real.exp (b / 2) := by rw [← Real.exp_add]; congr 1; ring
  rw [h1, h2, h3]
  nlinarith [mul_self_nonneg (Real.exp (a / 2) - Real.exp (b / 2))]

theorem xor_addLoss (h : Int → ℕ → ℝ → ℝ) : 4 * Real.log 2 ≤ addLoss h xorPoints xorBunch.labels := by
  have e : ([0, 1, 1, 0] : List Int).toFinset = {0, 1} := by decide
  unfold addLoss xorPoints xorBunch
  simp only [List.zip_cons_cons, List.zip_nil_right, List.map_cons, List.map_nil, List.sum_cons, List.sum_nil, e]
  rw [Finset.sum_pair (by decide), Finset.sum_pair (by decide), Finset.sum_pair (by decide), Finset.sum_pair (by decide)]
  have h1 := log_two_le (addScore h 0 [0, 0]) (addScore h 1 [0, 0])
  have h2 := log_two_le (addScore h 0 [0, 1]) (addScore h 1 [0, 1])
  have h3 := log_two_le (addScore h 0 [1, 0]) (addScore h 1 [1, 0])
  have h4 := log_two_le (addScore h 0 [1, 1]) (addScore h 1 [1, 1])
  have k : ∀ lab, addScore h lab [0, 0] + addScore h lab [1, 1] = addScore h lab [0, 1] + addScore h lab [1, 0] := by
    intro lab
    simp [addScore, Finset.sum_range_succ]
    ring
  have k0 := k 0
  have k1 := k 1
  linarith

theorem xor_infimum : ⨅ h, addLoss h xorPoints xorBunch.labels = 4 * Real.log 2 := by
  apply le_antisymm
  · refine (ciInf_le ⟨0, by rintro x ⟨h, rfl⟩; exact addLoss_nonneg _ _ _⟩ (fun _ _ _ => 0)).trans (le_of_eq ?_)
    have e : ([0, 1, 1, 0] : List Int).toFinset = {0, 1} := by decide
    unfold addLoss xorPoints xorBunch
    simp only [List.zip_cons_cons, List.zip_nil_right, List.map_cons, List.map_nil, List.sum_cons, List.sum_nil, e]
    simp [addScore]
    norm_num
    ring
  · exact le_ciInf xor_addLoss

example : ∃ M : ℕ → MultiClass (Exact ℝ), ∃ ps : ℕ → List ℝ,
    (∀ R : ℕ, newMultiClass expR GoSort.ins (fun _ => .fin 0) xorBunch { stumpOptions with rounds := R } = .ok (M R)) ∧
    (∀ R > 0, TrueProbs (M R) xorBunch (ps R) ∧ 4 * Real.log 2 ≤ logLoss (ps R)) ∧
    Tendsto (fun R => logLoss (ps R)) atTop (𝓝 (4 * Real.log 2)) := by
  obtain ⟨M, hM⟩ := xorBunch_all
  obtain ⟨ps, h1, h2⟩ := C114_limit _ _ _ _ _ _ _ _ _ xorBunch_fits (by norm_num) (fun _ => by simp [stumpOptions, calOptions, keepRows])
    (fun _ => rfl) rfl 2 (by norm_num) (by simp [xorPoints]) M hM
  refine ⟨M, ps, hM, fun R hR => ?_, by rw [← xor_infimum]; exact h2⟩
  obtain ⟨a1, h, a2⟩ := h1 R hR
  exact ⟨a1, by rw [a2]; exact xor_addLoss h⟩

end Boo
