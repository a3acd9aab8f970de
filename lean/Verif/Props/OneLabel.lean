import Verif.Lemmas.OneLabel

/-!
# C139: a model of one label gives every row the same scores

README.md:45: "Only classification is supported. Still, since its multi-class classification using one-hot-encoding, and the "activation
function" (softmax by default) can be changed, I suspect you can trick the function into doing regression by giving one class and an
activation function that does nothing."
-/

namespace Boo
open GoFloat Spec
set_option linter.unusedSectionVars false

/-- All rows have the label `lab` (and there is a row). -/
def OneLabel (labels : List Int) (lab : Int) : Prop := labels ≠ [] ∧ ∀ l ∈ labels, l = lab

theorem OneLabel.distinct {labels : List Int} {lab : Int} (h : OneLabel labels lab) : distinctElements labels = [lab] := by
  obtain ⟨h1, h2, _⟩ := C39_distinct labels
  obtain ⟨l, hl⟩ := List.exists_mem_of_ne_nil _ h.1
  have hm : ∀ x, x ∈ distinctElements labels ↔ x = lab := fun x =>
    (h2 x).trans ⟨h.2 x, fun hx => by rw [hx, ← h.2 l hl]; exact hl⟩
  match hd : distinctElements labels with
  | [] => rw [hd] at hm; simpa using (hm lab).2 rfl
  | [c] => rw [hd] at hm; rw [(hm c).1 (by simp)]
  | c :: d :: r =>
    rw [hd] at hm h1
    have e1 := (hm c).1 (by simp)
    have e2 := (hm d).1 (by simp)
    rw [e1, e2] at h1
    simp at h1

/-- training on one label starts from a flat state and one-hot targets that are all 1 -/
theorem one_label_start {act : List (Exact ℝ) → Option (List (Exact ℝ)) → Go (List (Exact ℝ))} {a : Exact ℝ → Exact ℝ}
    (ha : ∀ x b, act [x] (some [b]) = .ok [a x]) {S : GoSort} {draws : Nat → Exact ℝ} {D : DataBunch (Exact ℝ)} {O : Options (Exact ℝ)}
    {lab : Int} (hl : OneLabel D.labels lab) {labels : List Int} {st : TrainState (Exact ℝ)}
    (h : trainWith (activationDense act) S draws D O = .ok (labels, st)) :
    labels = [lab] ∧ ∃ ohe st0, denseCol ohe 0 = .ok (List.replicate D.labels.length (one : Exact ℝ)) ∧
      FlatState a D.labels.length (O.baseScore *. one) st0 ∧ st0.boosters = [] ∧ st0.stopped = [false] ∧
      (List.range O.rounds.toNat).foldlM (trainRound (activationDense act) S D.data O.fixMcw ohe 1) st0 = .ok st := by
  unfold trainWith DataBunch.oheLabels at h
  obtain ⟨ohe, q1, q2, q3, q4, q5⟩ := C39_matrix (F := Exact ℝ) D.labels hl.1
  rw [hl.distinct] at q1 q3
  rw [q1] at h
  obtain ⟨⟨ohe', labels'⟩, e, h⟩ := bind_ok h
  obtain ⟨rfl, rfl⟩ := Prod.mk.inj (Except.ok.inj e)
  simp only at h
  obtain ⟨st0, h1, h⟩ := bind_ok h
  obtain ⟨st', h2, h⟩ := bind_ok h
  obtain ⟨rfl, rfl⟩ := Prod.mk.inj (Except.ok.inj h)
  refine ⟨rfl, ohe, st0, ?_, ?_⟩
  · have hn : 0 < D.labels.length := List.length_pos_iff.2 hl.1
    obtain ⟨y, hy, _⟩ := denseCol_spec (D := ohe) q4 (by omega) (col := 0) (by rw [q3]; simp)
    rw [hy, ohe_column (k := 0) (lab := lab) hl.1 (by rw [hl.distinct]; exact q1) (by rw [hl.distinct]; rfl) hy]
    congr 1
    unfold indicator
    rw [List.map_congr_left (g := fun _ => (one : Exact ℝ)) (fun l hm => by rw [if_pos (hl.2 l hm)])]
    simp
  · unfold trainInit at h1
    obtain ⟨raw, r1, h1⟩ := bind_ok h1
    obtain ⟨probs, r2, h1⟩ := bind_ok h1
    simp only [pure, Except.pure, Except.ok.injEq] at h1
    unfold newDense at r1
    split at r1
    · cases r1
    have r1 := Except.ok.inj r1
    have hraw : (toOnes raw).scale O.baseScore = flatCol D.labels.length (O.baseScore *. one) := by
      rw [← r1, q2, q3]
      simp [toOnes, Dense.scale, flatCol]
    rw [hraw, flatCol_act (ha _) (by simp)] at r2
    have r2 := Except.ok.inj r2
    subst h1
    exact ⟨⟨hraw, r2.symm, by simp [q2]⟩, rfl, rfl, h2⟩

/-! ### two rows -/

theorem addRound_flat {lr : Exact ℝ} {row row' : List (Exact ℝ)} (ts : List (Tree (Exact ℝ))) (h : ∀ t ∈ ts, ∃ c, FlatTree c t)
    (k : Nat) (tmp s s' : List (Exact ℝ)) (h1 : addRound lr row ts k tmp = .ok s) (h2 : addRound lr row' ts k tmp = .ok s') : s = s' := by
  induction ts generalizing k tmp with
  | nil =>
    simp only [addRound, Except.ok.injEq] at h1 h2
    exact h1.symm.trans h2
  | cons t ts ih =>
    unfold addRound at h1 h2
    obtain ⟨p, hp, h1⟩ := bind_ok h1
    obtain ⟨p', hp', h2⟩ := bind_ok h2
    obtain ⟨c, hc⟩ := h t (by simp)
    obtain rfl := hc _ _ hp
    obtain rfl := hc _ _ hp'
    obtain ⟨t1, ht1, h1⟩ := bind_ok h1
    obtain ⟨t2, ht2, h2⟩ := bind_ok h2
    obtain rfl := Except.ok.inj (ht1.symm.trans ht2)
    exact ih (fun t ht => h t (by simp [ht])) _ _ h1 h2

theorem rawScores_flat {M : MultiClass (Exact ℝ)} (h : ∀ ens ∈ M.b, ∀ t ∈ ens, ∃ c, FlatTree c t) {row row' s s' : List (Exact ℝ)}
    (h1 : M.rawScores row = .ok s) (h2 : M.rawScores row' = .ok s') : s = s' := by
  unfold MultiClass.rawScores at h1 h2
  obtain ⟨b0, e1, h1⟩ := bind_ok h1
  obtain ⟨b0', e2, h2⟩ := bind_ok h2
  obtain rfl := Except.ok.inj (e1.symm.trans e2)
  generalize List.replicate b0.length M.baseScore = tmp at h1 h2
  generalize M.b = b at h h1 h2
  induction b generalizing tmp with
  | nil => exact (Except.ok.inj h1).symm.trans (Except.ok.inj h2)
  | cons ens b ih =>
    rw [List.foldlM_cons] at h1 h2
    obtain ⟨t1, ht1, h1⟩ := bind_ok h1
    obtain ⟨t2, ht2, h2⟩ := bind_ok h2
    obtain rfl := addRound_flat ens (h ens (by simp)) 0 tmp t1 t2 ht1 ht2
    exact ih _ (fun e he => h e (by simp [he])) h1 h2

theorem predict_flat {M : MultiClass (Exact ℝ)} (h : ∀ ens ∈ M.b, ∀ t ∈ ens, ∃ c, FlatTree c t) {row row' p p' : List (Exact ℝ)}
    (h1 : M.predictSingle row = .ok p) (h2 : M.predictSingle row' = .ok p') : p = p' := by
  unfold MultiClass.predictSingle at h1 h2
  obtain ⟨s, e1, h1⟩ := bind_ok h1
  obtain ⟨s', e2, h2⟩ := bind_ok h2
  obtain rfl := rawScores_flat h e1 e2
  exact Except.ok.inj (h1.symm.trans h2)

/-! ### flat trees -/

theorem gain_le {A B G lam : ℝ} (hA : 0 ≤ A) (hB : 0 ≤ B) (hAl : 0 < A + lam) (hBl : 0 < B + lam) (hl : 0 ≤ lam) (hG : 0 ≤ G) :
    A ^ 2 * G / (A + lam) + B ^ 2 * G / (B + lam) ≤ (A + B) ^ 2 * G / (A + B + lam) := by
  have hS : 0 < A + B + lam := by linarith
  have key : ∀ u w : ℝ, 0 ≤ u → 0 ≤ w → 0 < u + lam → 0 < u + w + lam → u ^ 2 / (u + lam) ≤ u * (u + w) / (u + w + lam) := by
    intro u w hu hw h1 h2
    rw [div_le_div_iff₀ h1 h2]
    nlinarith [mul_nonneg (mul_nonneg hu hw) hl]
  have e1 := mul_le_mul_of_nonneg_right (key A B hA hB hAl hS) hG
  have e2 := mul_le_mul_of_nonneg_right (key B A hB hA hBl (by linarith)) hG
  rw [show B + A + lam = A + B + lam by ring] at e2
  have e3 : (A + B) ^ 2 * G / (A + B + lam) = A * (A + B) / (A + B + lam) * G + B * (B + A) / (A + B + lam) * G := by
    field_simp
    ring
  rw [e3, mul_div_right_comm, mul_div_right_comm (B ^ 2)]
  linarith

/-- Data with one label and options for squared error. -/
structure OneLabelSetup (X : List (List ℝ)) (D : DataBunch (Exact ℝ)) (O : Options (Exact ℝ)) (lab : Int) : Prop where
  data : D.data = finRows X
  rows : X.length = D.labels.length
  one : OneLabel D.labels lab
  opts : RealOptions O
  base : ∃ x, O.baseScore = XF.fin x
  sample : rowSub O = true → 1 ≤ O.minSample

theorem OneLabelSetup.fix {X : List (List ℝ)} {D : DataBunch (Exact ℝ)} {O : Options (Exact ℝ)} {lab : Int} (h : OneLabelSetup X D O lab) :
    OneLabelSetup X D O.fixMcw lab := by
  have hfix : ∃ f, O.fixMcw = { O with minChildWeight := f } := by
    unfold Options.fixMcw
    split
    · exact ⟨_, rfl⟩
    · exact ⟨O.minChildWeight, rfl⟩
  obtain ⟨f, hf⟩ := hfix
  rw [hf]
  exact ⟨h.data, h.rows, h.one, ⟨h.opts.lr, h.opts.lam, h.opts.gam⟩, h.base, h.sample⟩

theorem OneLabelSetup.pos {X : List (List ℝ)} {D : DataBunch (Exact ℝ)} {O : Options (Exact ℝ)} {lab : Int} (h : OneLabelSetup X D O lab) :
    X ≠ [] ∧ 0 < D.labels.length ∧ D.data.length = D.labels.length := by
  have := List.length_pos_iff.2 h.one.1
  refine ⟨?_, this, by rw [h.data]; simp [finRows, h.rows]⟩
  rintro rfl
  have := h.rows
  simp at this
  omega

section
variable {S : GoSort} {X : List (List ℝ)} {D : DataBunch (Exact ℝ)} {O : Options (Exact ℝ)} {lab : Int} {idx : Option (List Nat)} {cols : List Nat}
  {t : Tree (Exact ℝ)} {c : ℝ}

/-- the samples of a node of an xgboost tree are training rows -/
theorem one_label_samples {o : TreeOptions (Exact ℝ)} {i : NodeInfo (Exact ℝ)} {l r : Tree (Exact ℝ)} (hs : OneLabelSetup X D O lab)
    (hidx : IdxOk D.labels.length idx) (ho : o.indexes = idx) (h : newTree S (finRows X) o = .ok (.node i l r)) :
    i.samples ≠ [] ∧ ∀ w ∈ i.samples, w < D.labels.length := by
  rw [(mkInfo_samples h).1]
  have hl : (finRows X).length = D.labels.length := by simp [finRows, hs.rows]
  unfold TreeOptions.idx
  rw [ho]
  cases idx with
  | none =>
    have := hs.pos.2.1
    simp [hl]
    exact List.length_pos_iff.1 this
  | some s => simpa using hidx s rfl

/-- with squared error, `Lambda >= 0` and `Gamma >= 0`, the tree on equal targets and equal scores has one value -/
theorem sqErr_flat (hs : OneLabelSetup X D O lab) (hgam : ∃ x, O.gamma = XF.fin x ∧ 0 ≤ x) (hidx : IdxOk D.labels.length idx)
    (h : classTree S (finRows X) O sqErrLoss idx cols (List.replicate D.labels.length one) (List.replicate D.labels.length (.fin c)) = .ok t) :
    ∃ v, FlatTree (.fin v) t := by
  obtain ⟨lam, hlam, hlam0⟩ := hs.opts.lam
  obtain ⟨gam, hgam, hgam0⟩ := hgam
  have hh : (sqErrLoss : LossFunc (Exact ℝ)).hessian (List.replicate D.labels.length (XF.fin c)) =
      finV (List.replicate D.labels.length 1) := by
    simp [sqErrLoss, finV]
  cases hxgb : O.xgb with
  | false =>
    refine ⟨1 - c, flatTree_of_leaves ?_⟩
    intro path i l r hsub hl
    obtain ⟨q1, q2, q3⟩ := reg_values (lf := sqErrLoss) rfl hxgb hs.pos.1 hh h path i l r hsub hl
    have : (i.samples.length : ℝ) ≠ 0 := by simpa using q1
    rw [q3, sumOver_const _ _ _ q2, sumOver_const _ _ _ q2, Exact.div_fin _ _ (by simpa using q1)]
    congr 1
    field_simp
  | true =>
    obtain ⟨o, ho, hi, hoi⟩ := xgb_values (lf := sqErrLoss) rfl hxgb hlam hgam hh h
    obtain ⟨i, l, r, rfl⟩ : ∃ i l r, t = .node i l r := by
      cases t with
      | nil => exact absurd rfl (newTree_ne_nil ho)
      | node i l r => exact ⟨i, l, r, rfl⟩
    obtain ⟨hne, hr⟩ := one_label_samples hs hidx hoi ho
    have hp : ∀ v ∈ List.replicate D.labels.length (1 : ℝ), 0 ≤ v ∧ 0 < v + lam := by
      intro v hv
      rw [List.eq_of_mem_replicate hv]
      exact ⟨by norm_num, by linarith⟩
    have hsub : (Tree.node i l r).sub [] = .node i l r := by simp [Tree.sub]
    have hc2 := C02_leaf_iff_no_children S _ o _ ho [] i l r hsub
    have hleaf : i.leaf = true := by
      by_contra hnl
      obtain ⟨hl, hr'⟩ := hc2.2.1 (by simpa using hnl)
      obtain ⟨θ, _, hadm, hsc, _⟩ := C07_xgb_split S X o _ _ _ lam gam ho hi hp [] i l r hsub hl
      obtain ⟨il, ll, lr, rfl⟩ : ∃ a b c, l = .node a b c := by
        cases l with
        | nil => exact absurd rfl hl
        | node a b c => exact ⟨a, b, c, rfl⟩
      obtain ⟨ir, rl, rr, rfl⟩ : ∃ a b c, r = .node a b c := by
        cases r with
        | nil => exact absurd rfl hr'
        | node a b c => exact ⟨a, b, c, rfl⟩
      obtain ⟨gain, hg1, hg2, _⟩ := C11_gain S X o _ _ _ lam gam ho hi hp [] i il ir ll lr rl rr hsub
      rw [hsc] at hg1
      have hg1 := XF.fin.inj hg1
      rw [← hg1] at hg2
      unfold xgbGain quality at hg2
      set A := leftOf X i.samples i.splitFeatureIndex θ with hA
      set B := rightOf X i.samples i.splitFeatureIndex θ with hB
      have hAm : ∀ w ∈ A, w < D.labels.length := fun w hw => hr w (List.mem_of_mem_filter hw)
      have hBm : ∀ w ∈ B, w < D.labels.length := fun w hw => hr w (List.mem_of_mem_filter hw)
      have hlen : i.samples.length = A.length + B.length := by
        rw [hA, hB, leftOf, rightOf]
        have := List.length_eq_length_filter_add (l := i.samples) (fun j => decide (val X j i.splitFeatureIndex ≤ θ))
        rw [this]
        have e : i.samples.filter (fun j => !decide (val X j i.splitFeatureIndex ≤ θ)) =
            i.samples.filter fun j => decide (θ < val X j i.splitFeatureIndex) :=
          List.filter_congr fun j _ => by
            rcases le_or_gt (val X j i.splitFeatureIndex) θ with hj | hj
            · simp [hj, not_lt.2 hj]
            · simp [hj, not_le.2 hj]
        rw [← e]
      have hA1 : 1 ≤ A.length := by have : max 1 _ ≤ (A.length : Int) := hadm.1; omega
      have hB1 : 1 ≤ B.length := by have : max 1 _ ≤ (B.length : Int) := hadm.2; omega
      have hA1' : (1 : ℝ) ≤ A.length := by exact_mod_cast hA1
      have hB1' : (1 : ℝ) ≤ B.length := by exact_mod_cast hB1
      rw [sumOver_const _ _ _ hAm, sumOver_const _ _ _ hAm, sumOver_const _ _ _ hBm, sumOver_const _ _ _ hBm,
        sumOver_const _ _ _ hr, sumOver_const _ _ _ hr, hlen] at hg2
      have := gain_le (A := A.length) (B := B.length) (G := (c - 1) ^ 2) (lam := lam) (by linarith) (by linarith) (by linarith)
        (by linarith) hlam0 (by positivity)
      push_cast at hg2
      rw [mul_pow, mul_pow, mul_pow, mul_one, mul_one, mul_one] at hg2
      linarith
    obtain ⟨rfl, rfl⟩ := hc2.1.1 hleaf
    have hv := C09_value S X o _ _ _ lam gam ho hi [] i _ _ hsub
    have hn : (1 : ℝ) ≤ i.samples.length := by exact_mod_cast List.length_pos_iff.2 hne
    rw [sumOver_const _ 1 _ hr, Exact.div_fin _ _ (by linarith)] at hv
    refine ⟨-sumOver (List.replicate D.labels.length (c - 1)) i.samples / (i.samples.length * 1 + lam), flatTree_of_leaves ?_⟩
    · intro path i' l' r' hs' _
      cases path with
      | nil =>
        rw [hsub] at hs'
        obtain ⟨rfl, _, _⟩ := Tree.node.inj hs'
        exact hv
      | cons b p =>
        cases b <;> cases p <;> simp [Tree.sub] at hs'

end

/-! ### C139 -/

/-- the model made from the end of training, with another activation function -/
noncomputable def actModel (act : List (Exact ℝ) → Option (List (Exact ℝ)) → Go (List (Exact ℝ))) (O : Options (Exact ℝ)) (labels : List Int)
    (st : TrainState (Exact ℝ)) : MultiClass (Exact ℝ) :=
  { toModel expR O labels st with probTransform := some (activationDense act) }

/-- **C139 (whatever the activation function)**: suppose `NewMultiClass` used another activation function of the rows, for training and
for the model: any function that makes a number of a row with one number, and in particular the one that does nothing. If all training
rows have one label, the model gives all rows the same scores. Squared error, `Lambda >= 0`, `Gamma >= 0`, exact arithmetic;
xgboost or not, any rounds, early stopping, depth, samples of rows and columns. -/
theorem C139_any_activation (act : List (Exact ℝ) → Option (List (Exact ℝ)) → Go (List (Exact ℝ))) (a : Exact ℝ → Exact ℝ)
    (ha : ∀ x b, act [x] (some [b]) = .ok [a x]) (hfin : ∀ x : ℝ, ∃ y : ℝ, a (.fin x) = .fin y)
    (S : GoSort) (draws : Nat → Exact ℝ) (X : List (List ℝ)) (D : DataBunch (Exact ℝ)) (O : Options (Exact ℝ)) (lab : Int)
    (hs : OneLabelSetup X D O lab) (hgam : ∃ x, O.gamma = XF.fin x ∧ 0 ≤ x) (lv : LossVal (Exact ℝ)) (hlv : O.loss = some lv)
    (hsq : lv.fn = sqErrLoss) (labels : List Int) (st : TrainState (Exact ℝ))
    (h : trainWith (activationDense act) S draws D O = .ok (labels, st)) (row row' p p' : List (Exact ℝ))
    (hp : (actModel act O labels st).predictSingle row = .ok p) (hp' : (actModel act O labels st).predictSingle row' = .ok p') :
    p = p' := by
  obtain ⟨_, ohe, st0, hy, hf, hb, _, hrun⟩ := one_label_start ha hs.one h
  obtain ⟨hX, hn, hd⟩ := hs.pos
  have hs' := hs.fix
  obtain ⟨lr, hlr⟩ := hs'.opts.lr
  obtain ⟨e1, e2, e3, e4, e5, e6, e7, e8, e9, e10⟩ := Options.fixMcw_lr O
  have hg : O.fixMcw.gamma = O.gamma := by unfold Options.fixMcw; split <;> rfl
  refine predict_flat ?_ hp hp'
  have := (flat_rounds (P := fun x => ∃ r, x = XF.fin r) (Q := fun _ => True) ha hn hd hy hs'.sample ?_ hrun
    ⟨_, ?_, hf⟩ hb).2
  · intro ens he t ht
    obtain ⟨c, _, hc⟩ := this ens he t ht
    exact ⟨c, hc⟩
  · rintro x ⟨r, rfl⟩ lv' idx cols tree hlv' hidx ht
    rw [e9, hlv] at hlv'
    obtain rfl := Option.some.inj hlv'
    obtain ⟨c, hc⟩ := hfin r
    rw [hsq, hc, hs.data] at ht
    obtain ⟨v, hv⟩ := sqErr_flat hs' (by rw [hg]; exact hgam) hidx ht
    exact ⟨_, trivial, hv, by rw [hlr]; exact ⟨_, rfl⟩⟩
  · obtain ⟨b, hb⟩ := hs.base
    rw [hb]
    exact ⟨b * 1, by simp⟩

/-- The activation function that does nothing. -/
def nothing (p : List (Exact ℝ)) (_ : Option (List (Exact ℝ))) : Go (List (Exact ℝ)) := .ok p

/-- One round of squared error on three rows with one label and different values. -/
noncomputable def trickOptions (xgb : Bool) : Options (Exact ℝ) :=
  { defaultGOptions (F := Exact ℝ) 0 with loss := some ⟨0, sqErrLoss⟩, rounds := 1, xgb := xgb, subSample := one, colSubSample := one, lambda := .fin 1 }

def trickRows : List (List ℝ) := [[0], [1], [2]]

noncomputable def trickData : DataBunch (Exact ℝ) := ⟨finRows trickRows, [], [7, 7, 7], []⟩

theorem trick_setup (xgb : Bool) : OneLabelSetup trickRows trickData (trickOptions xgb) 7 :=
  ⟨rfl, rfl, ⟨by simp [trickData], by simp [trickData]⟩, ⟨⟨_, rfl⟩, ⟨1, rfl, by norm_num⟩, ⟨_, rfl⟩⟩, ⟨_, rfl⟩,
    by simp [rowSub, trickOptions]⟩

/-- Data, options, a trained model and predictions that meet the hypotheses of `C139_any_activation`, for the activation function that
does nothing: the rows 0 and 2 get the same prediction. -/
theorem trick_trained (xgb : Bool) : ∃ labels st p, trainWith (activationDense nothing) GoSort.ins (fun _ => .fin 0) trickData (trickOptions xgb) =
      .ok (labels, st) ∧
    (actModel nothing (trickOptions xgb) labels st).predictSingle [.fin 0] = .ok p ∧
    (actModel nothing (trickOptions xgb) labels st).predictSingle [.fin 2] = .ok p := by
  have hs := trick_setup xgb
  have ha : ∀ x b : Exact ℝ, nothing [x] (some [b]) = .ok [id x] := fun _ _ => rfl
  have hX : DataOk (finRows trickRows) := ⟨by simp [finRows, trickRows], ⟨1, by simp [finRows, trickRows]⟩, finRows_noNaN _, finRows_midSafe _⟩
  obtain ⟨ohe, q1, q2, q3, q4, q5⟩ := C39_matrix (F := Exact ℝ) trickData.labels hs.one.1
  rw [hs.one.distinct] at q1 q3
  obtain ⟨y, hy, hyl, _⟩ := denseCol_spec (D := ohe) q4 (by rw [q2]; simp [trickData]) (col := 0) (by rw [q3]; simp)
  have hy1 : y = List.replicate 3 one := by
    rw [ohe_column (k := 0) (lab := 7) hs.one.1 (by rw [hs.one.distinct]; exact q1) (by rw [hs.one.distinct]; rfl) hy]
    simp [indicator, trickData, List.replicate]
  subst hy1
  have hraw : newDense ohe.r ohe.c (List.replicate (ohe.r * ohe.c) (zero : Exact ℝ)) = .ok ⟨3, 1, List.replicate 3 zero⟩ := by
    rw [q2, q3]
    rfl
  have hb : (trickOptions xgb).baseScore *. one = .fin 0 := by simp [trickOptions, defaultGOptions]
  have hscale : (toOnes (⟨3, 1, List.replicate 3 zero⟩ : Dense (Exact ℝ))).scale (trickOptions xgb).baseScore = flatCol 3 (.fin 0) := by
    simp only [toOnes, Dense.scale, flatCol, List.map_replicate, hb]
  have hfix : (trickOptions xgb).fixMcw = trickOptions xgb := by
    unfold Options.fixMcw
    rw [if_neg]
    simp [trickOptions, defaultGOptions]
  obtain ⟨t, ht, hpred⟩ := classTree_exists GoSort.ins hX (trickOptions xgb) sqErrLoss sqErrLoss_regular none (by simp [SampleOk]) []
    (List.replicate 3 one) (List.replicate 3 (.fin 0)) (by simp [finRows, trickRows]) (by simp [finRows, trickRows])
  obtain ⟨v, hv⟩ := sqErr_flat hs ⟨0, by simp [trickOptions, defaultGOptions], le_rfl⟩ (by simp [IdxOk]) ht
  obtain ⟨vs, hvs⟩ := mapM_exists hpred
  have hvs' := mapM_ok.1 hvs
  have hpr : t.predict (finRows trickRows) (some (List.replicate ohe.r zero)) = .ok vs := by
    rw [C13_predict_buffer]
    refine ⟨by rw [q2]; simp [finRows, trickRows, trickData], vs, hvs', ?_⟩
    rw [q2]
    simp [finRows, trickRows, trickData]
  have hvs3 := hv.predict (by rw [q2]; simp [finRows, trickRows, trickData]) hpr
  rw [show (finRows trickRows).length = 3 by simp [finRows, trickRows]] at hvs3
  subst hvs3
  obtain ⟨raw, r1, _⟩ := addToCol_spec (flatCol_WF 3 (.fin 0 : Exact ℝ)) (col := 0) (by simp [flatCol])
    (List.replicate 3 ((.fin v : Exact ℝ) *. (trickOptions xgb).learningRate)) (by simp [flatCol])
  obtain rfl := flatCol_add r1
  have hbuf : ∀ d, some (flatCol 3 (.fin 0 : Exact ℝ)) = some d → d.r = 3 ∧ d.c = 1 ∧ d.WF := by
    rintro d hd
    obtain rfl := Option.some.inj hd
    exact ⟨rfl, rfl, flatCol_WF _ _⟩
  have hact := flatCol_act (ha ((.fin 0 : Exact ℝ) +. (.fin v *. (trickOptions xgb).learningRate))) hbuf
  have hact0 := flatCol_act (n := 3) (buf := none) (ha (.fin 0)) (by simp)
  have hround : ∀ st0 : TrainState (Exact ℝ), st0.rawPred = flatCol 3 (.fin 0) → st0.probs = flatCol 3 (.fin 0) →
      st0.tmpPreds = List.replicate ohe.r zero → st0.stopped = [false] → st0.boosters = [] →
      ∃ st, trainRound (activationDense nothing) GoSort.ins (finRows trickRows) (trickOptions xgb) ohe 1 st0 0 = .ok st ∧
        st.boosters = [[t]] := by
    intro st0 e1 e2 e3 e4 e5
    have hsam : roundSamples (finRows trickRows) (trickOptions xgb) st0.draws = .ok (none, [], st0.draws) := by
      unfold roundSamples
      simp [trickOptions, bind, Except.bind, pure, Except.pure]
    unfold trainRound
    rw [hsam]
    simp only [bind, Except.bind]
    rw [if_neg (by simp [trickOptions, defaultGOptions])]
    rw [show List.range 1 = [0] from rfl]
    have hcls : trainClass (activationDense nothing) GoSort.ins (finRows trickRows) (trickOptions xgb) ohe none [] 0
        ({ st0 with draws := st0.draws }, []) 0 = .ok ({ st0 with
          rawPred := flatCol 3 ((.fin 0 : Exact ℝ) +. (.fin v *. (trickOptions xgb).learningRate)),
          probs := flatCol 3 (id ((.fin 0 : Exact ℝ) +. (.fin v *. (trickOptions xgb).learningRate))),
          tmpPreds := List.replicate 3 ((.fin v : Exact ℝ) *. (trickOptions xgb).learningRate) }, [t]) := by
      unfold trainClass
      simp only [e1, e2, e3, e4, hy, flatCol_col (show 0 < 3 by omega), bind, Except.bind]
      rw [if_neg (by simp)]
      rw [show (trickOptions xgb).loss = some ⟨0, sqErrLoss⟩ from rfl]
      simp only [ht, hpr, List.map_replicate, r1, hact]
      rw [if_neg (by simp [trickOptions, defaultGOptions])]
      simp only [pure, Except.pure, earlyStopping]
      rw [if_neg (by simp [trickOptions, defaultGOptions])]
      rfl
    simp only [List.foldlM_cons, List.foldlM_nil, bind, Except.bind, hcls, pure, Except.pure]
    exact ⟨_, rfl, by simp [e5]⟩
  obtain ⟨st, hst, hbst⟩ := hround ⟨flatCol 3 (.fin 0), flatCol 3 (.fin 0), List.replicate ohe.r zero, [false], [0], [zero], [], fun _ => .fin 0⟩
    rfl rfl rfl rfl rfl
  have htrain : trainWith (activationDense nothing) GoSort.ins (fun _ => .fin 0) trickData (trickOptions xgb) = .ok ([7], st) := by
    unfold trainWith DataBunch.oheLabels trainInit
    rw [q1]
    simp only [bind, Except.bind, hraw, hscale, hact0, id, pure, Except.pure, hfix]
    rw [show (trickOptions xgb).rounds.toNat = 1 from rfl, show List.range 1 = [0] from rfl]
    simp only [List.foldlM_cons, List.foldlM_nil, bind, Except.bind, List.length_singleton, List.replicate_one]
    rw [show trickData.data = finRows trickRows from rfl, hst]
    rfl
  have hrow : ∀ row : List (Exact ℝ), row ∈ finRows trickRows → (actModel nothing (trickOptions xgb) [7] st).predictSingle row =
      .ok [(.fin 0 : Exact ℝ) +. (.fin v *. (trickOptions xgb).learningRate)] := by
    intro row hr
    obtain ⟨w, hw⟩ := hpred row hr
    obtain rfl := hv _ _ hw
    have hsc : (actModel nothing (trickOptions xgb) [7] st).rawScores row =
        .ok [(.fin 0 : Exact ℝ) +. (.fin v *. (trickOptions xgb).learningRate)] := by
      unfold MultiClass.rawScores
      have e1 : (actModel nothing (trickOptions xgb) [7] st).b = [[t]] := hbst
      have e2 : (actModel nothing (trickOptions xgb) [7] st).baseScore = .fin 0 := by simp [actModel, toModel, trickOptions, defaultGOptions]
      have e3 : (actModel nothing (trickOptions xgb) [7] st).learningRate = (trickOptions xgb).learningRate := rfl
      rw [e1, e2, e3]
      simp [goIdx, bind, Except.bind, addRound, hw, addAt, pure, Except.pure]
    unfold MultiClass.predictSingle
    rw [hsc]
    have e4 := flatCol_act (n := 1) (buf := some (flatCol 1 zero)) (ha ((.fin 0 : Exact ℝ) +. (.fin v *. (trickOptions xgb).learningRate)))
      (by rintro d hd; obtain rfl := Option.some.inj hd; exact ⟨rfl, rfl, flatCol_WF _ _⟩)
    have n1 : ∀ x : Exact ℝ, newDense 1 [x].length [x] = .ok (flatCol 1 x) := fun _ => rfl
    simp only [bind, Except.bind, List.map_cons, List.map_nil, n1]
    rw [show (actModel nothing (trickOptions xgb) [7] st).probTransform = some (activationDense nothing) from rfl]
    have n2 : ∀ x : Exact ℝ, newDense 1 [x].length [zero] = .ok (flatCol 1 (zero : Exact ℝ)) := fun _ => rfl
    simp only [n2, e4]
    rfl
  exact ⟨[7], st, _, htrain, hrow _ (by simp [finRows, trickRows]), hrow _ (by simp [finRows, trickRows])⟩

/-! ### the code -/

/-- softmax of one score -/
noncomputable def soft1 (x : Exact ℝ) : Exact ℝ := expR x /. GoFloat.sum [expR x]

theorem softMax_one (x b : Exact ℝ) : softMax expR [x] (some [b]) = .ok [soft1 x] := by
  simp [softMax, soft1]

theorem soft1_fin (r : ℝ) : soft1 (.fin r) = .fin 1 := by
  have := softMax_real [r] (by simp)
  have h2 : softMax expR [XF.fin r] none = softMax expR [XF.fin r] (some [zero]) := by simp [softMax]
  rw [show (finV [r] : List (Exact ℝ)) = [XF.fin r] from rfl, h2, softMax_one] at this
  have h3 := Except.ok.inj this
  have h4 : softmaxSpec [r] = [1] := by
    simp [softmaxSpec]
  rw [h4] at h3
  exact List.head_eq_of_cons_eq h3

section
variable {S : GoSort} {X : List (List ℝ)} {D : DataBunch (Exact ℝ)} {O : Options (Exact ℝ)} {lab : Int} {idx : Option (List Nat)} {cols : List Nat}
  {t : Tree (Exact ℝ)} {lf : LossFunc (Exact ℝ)}

/-- the value of all leaves of a tree on targets that are reached: 0, or NaN when the hessians and `Lambda` are 0 -/
theorem reached_flat (hs : OneLabelSetup X D O lab) (hlf : lf = sqErrLoss ∨ lf = mseLoss) (hidx : IdxOk D.labels.length idx)
    (h : classTree S (finRows X) O lf idx cols (List.replicate D.labels.length one) (List.replicate D.labels.length (.fin 1)) = .ok t) :
    ((lf = sqErrLoss ∨ (O.xgb = true ∧ O.lambda ≠ .fin 0)) → FlatTree (.fin 0) t) ∧
    (lf = mseLoss → (O.xgb = false ∨ O.lambda = .fin 0) → FlatTree .nan t) := by
  obtain ⟨lam, hlam, hlam0⟩ := hs.opts.lam
  obtain ⟨gam, hgam⟩ := hs.opts.gam
  obtain ⟨u, hu, hh⟩ : ∃ u : ℝ, ((lf = sqErrLoss ∧ u = 1) ∨ (lf = mseLoss ∧ u = 0)) ∧
      lf.hessian (List.replicate D.labels.length (XF.fin 1)) = finV (List.replicate D.labels.length u) := by
    rcases hlf with rfl | rfl
    · exact ⟨1, Or.inl ⟨rfl, rfl⟩, by simp [sqErrLoss, finV]⟩
    · exact ⟨0, Or.inr ⟨rfl, rfl⟩, by simp [mseLoss, finV]⟩
  have hne : (sqErrLoss : LossFunc (Exact ℝ)) ≠ mseLoss := by
    intro he
    have : (mseLoss : LossFunc (Exact ℝ)).hessian [.fin 0] = sqErrLoss.hessian [.fin 0] := by rw [he]
    simp [mseLoss, sqErrLoss] at this
  have hg : lf.gradients = grad := by rcases hlf with rfl | rfl <;> rfl
  have hng : lf.negGradients = negGrad := by rcases hlf with rfl | rfl <;> rfl
  have hval : ∀ path i l r, t.sub path = .node i l r → i.leaf = true →
      ∃ m : ℝ, 1 ≤ m ∧ i.value = (.fin 0 : Exact ℝ) /. .fin (m * u + if O.xgb then lam else 0) := by
    intro path i l r hsub hl
    cases hxgb : O.xgb with
    | false =>
      obtain ⟨q1, q2, q3⟩ := reg_values hng hxgb hs.pos.1 hh h path i l r hsub hl
      refine ⟨i.samples.length, by exact_mod_cast List.length_pos_iff.2 q1, ?_⟩
      rw [q3, sub_self, sumOver_zero, sumOver_const _ _ _ q2]
      simp
    | true =>
      obtain ⟨o, ho, hi, hoi⟩ := xgb_values hg hxgb hlam hgam hh h
      have hmem : i.samples ≠ [] ∧ ∀ w ∈ i.samples, w < D.labels.length := by
        have hl : (finRows X).length = D.labels.length := by simp [finRows, hs.rows]
        have hroot := fun j a b (e : t = .node j a b) => one_label_samples hs hidx hoi (by rw [← e]; exact ho)
        obtain ⟨j, a, b, e⟩ : ∃ j a b, t = .node j a b := by
          cases t with
          | nil => exact absurd rfl (newTree_ne_nil ho)
          | node i l r => exact ⟨i, l, r, rfl⟩
        refine ⟨?_, ?_⟩
        · by_cases hpath : path = []
          · subst hpath
            rw [e] at hsub
            simp only [Tree.sub, Tree.node.injEq] at hsub
            rw [← hsub.1]
            exact (hroot j a b e).1
          · have := (C06_exact S X _ t ho path hpath i l r hsub).1
            intro h0
            rw [h0] at this
            simp at this
        · have := sub_samples ho (by
            intro w hw
            have h2 := (hroot j a b e).2
            rw [e] at ho
            rw [(mkInfo_samples ho).1] at h2
            rw [hl]
            exact h2 w hw) path i l r hsub
          rw [hl] at this
          exact this
      refine ⟨i.samples.length, by exact_mod_cast List.length_pos_iff.2 hmem.1, ?_⟩
      rw [C09_value S X o _ _ _ lam gam ho hi path i _ _ hsub, sub_self, sumOver_zero, sumOver_const _ _ _ hmem.2]
      simp
  constructor
  · intro hc
    refine flatTree_of_leaves fun path i l r hsub hl => ?_
    obtain ⟨m, hm, hv⟩ := hval path i l r hsub hl
    rw [hv, Exact.div_fin]
    · simp
    · rcases hu with ⟨_, rfl⟩ | ⟨rfl, rfl⟩
      · split <;> linarith
      · rcases hc with hc | ⟨hx, hc⟩
        · exact absurd hc.symm hne
        · rw [hx, mul_zero, zero_add]
          intro h0
          simp only [if_true] at h0
          exact hc (by rw [hlam, h0])
  · intro hm hc
    refine flatTree_of_leaves fun path i l r hsub hl => ?_
    obtain ⟨m, _, hv⟩ := hval path i l r hsub hl
    rcases hu with ⟨rfl, rfl⟩ | ⟨_, rfl⟩
    · exact absurd hm hne
    · rw [hv, mul_zero, zero_add]
      have h0 : (if O.xgb = true then lam else 0) = 0 := by
        rcases hc with hc | hc
        · simp [hc]
        · rw [hlam] at hc
          simp [XF.fin.inj hc]
      rw [h0]
      show XF.div _ _ = _
      simp [XF.div]

end

theorem train_soft (S : GoSort) (draws : Nat → Exact ℝ) (D : DataBunch (Exact ℝ)) (O : Options (Exact ℝ)) :
    train expR S draws D O = trainWith (activationDense (softMax expR)) S draws D O := rfl

theorem addRound_absorb {lr x : Exact ℝ} {row : List (Exact ℝ)} (ts : List (Tree (Exact ℝ)))
    (h : ∀ t ∈ ts, ∀ v, t.predictSingle row = .ok v → x +. (v *. lr) = x) (k : Nat) (s : List (Exact ℝ))
    (h1 : addRound lr row ts k [x] = .ok s) : s = [x] := by
  induction ts generalizing k with
  | nil => exact (Except.ok.inj h1).symm
  | cons t ts ih =>
    unfold addRound at h1
    obtain ⟨p, hp, h1⟩ := bind_ok h1
    obtain ⟨t1, ht1, h1⟩ := bind_ok h1
    have : t1 = [x] := by
      unfold addAt at ht1
      cases k with
      | zero =>
        simp only [List.getElem?_cons_zero, List.set_cons_zero, Except.ok.injEq] at ht1
        rw [← ht1, h t (by simp) p hp]
      | succ k => simp at ht1
    subst this
    exact ih (fun t ht => h t (by simp [ht])) _ h1

theorem rounds_absorb {lr x : Exact ℝ} {row : List (Exact ℝ)} (b : List (List (Tree (Exact ℝ))))
    (h : ∀ ens ∈ b, ∀ t ∈ ens, ∀ v, t.predictSingle row = .ok v → x +. (v *. lr) = x) (s : List (Exact ℝ))
    (h1 : b.foldlM (fun tmp ens => addRound lr row ens 0 tmp) [x] = .ok s) : s = [x] := by
  induction b with
  | nil => exact (Except.ok.inj h1).symm
  | cons ens b ih =>
    rw [List.foldlM_cons] at h1
    obtain ⟨t1, ht1, h1⟩ := bind_ok h1
    obtain rfl := addRound_absorb ens (h ens (by simp)) 0 t1 ht1
    exact ih (fun e he => h e (by simp [he])) h1

/-- what training on one label gives: the first tree -/
theorem one_label_first {S : GoSort} {draws : Nat → Exact ℝ} {X : List (List ℝ)} {D : DataBunch (Exact ℝ)} {O : Options (Exact ℝ)} {lab : Int}
    (hs : OneLabelSetup X D O lab) {lv : LossVal (Exact ℝ)} (hlv : O.loss = some lv) {c : Exact ℝ} (hlf : lv.fn = sqErrLoss ∨ lv.fn = mseLoss)
    (hc : ((lv.fn = sqErrLoss ∨ (O.xgb = true ∧ O.lambda ≠ .fin 0)) ∧ c = .fin 0) ∨
      (lv.fn = mseLoss ∧ (O.xgb = false ∨ O.lambda = .fin 0) ∧ c = .nan))
    {M : MultiClass (Exact ℝ)} (h : newMultiClass expR S draws D O = .ok M) :
    M.classLabels = [lab] ∧ (M.b = [] ∨ ∃ t rest, M.b = [t] :: rest ∧ FlatTree c t) := by
  obtain ⟨labels, st, ht, rfl⟩ := newMultiClass_inv h
  rw [train_soft] at ht
  obtain ⟨hl, ohe, st0, hy, hf, hb, hst, hrun⟩ := one_label_start softMax_one hs.one ht
  obtain ⟨hX, hn, hd⟩ := hs.pos
  have hs' := hs.fix
  obtain ⟨e1, e2, e3, e4, e5, e6, e7, e8, e9, e10⟩ := Options.fixMcw_lr O
  have hlam : O.fixMcw.lambda = O.lambda := by unfold Options.fixMcw; split <;> rfl
  refine ⟨hl, ?_⟩
  obtain ⟨b, hbase⟩ := hs.base
  have := flat_first (c := c) softMax_one hn hd hy hs'.sample ?_ hrun hf (by simp [hst]) hb
  · rcases this with ⟨_, _, hb⟩ | ⟨t, rest, hb, ht⟩
    · exact Or.inl hb
    · exact Or.inr ⟨t, rest, hb, ht⟩
  · intro lv' idx cols tree hlv' hidx ht
    rw [e9, hlv] at hlv'
    obtain rfl := Option.some.inj hlv'
    rw [hbase, show ((.fin b : Exact ℝ) *. one) = .fin (b * 1) by simp, soft1_fin, hs.data] at ht
    obtain ⟨r1, r2⟩ := reached_flat hs' hlf hidx ht
    rw [e6, hlam] at r1 r2
    rcases hc with ⟨hc, rfl⟩ | ⟨hc1, hc2, rfl⟩
    · exact r1 hc
    · exact r2 hc1 hc2

/-- **C139 (the code)**: trained on data with one label, with `SQErrLoss`, or with `MSELoss`, xgboost and a positive `Lambda`, the model
gives every row the raw score `BaseScore` and the prediction 1, whatever the row, the training rows, the label, the rounds and the other
options: nothing is learned. Exact arithmetic. -/
theorem C139_constant (S : GoSort) (draws : Nat → Exact ℝ) (X : List (List ℝ)) (D : DataBunch (Exact ℝ)) (O : Options (Exact ℝ)) (lab : Int)
    (hs : OneLabelSetup X D O lab) (lv : LossVal (Exact ℝ)) (hlv : O.loss = some lv)
    (hlf : lv.fn = sqErrLoss ∨ (lv.fn = mseLoss ∧ O.xgb = true ∧ O.lambda ≠ .fin 0)) (M : MultiClass (Exact ℝ))
    (h : newMultiClass expR S draws D O = .ok M) (hne : M.b ≠ []) (row p : List (Exact ℝ)) (hp : M.predictSingle row = .ok p) :
    M.classLabels = [lab] ∧ M.rawScores row = .ok [O.baseScore] ∧ p = [.fin 1] := by
  have hlf' : lv.fn = sqErrLoss ∨ lv.fn = mseLoss := hlf.imp id And.left
  have hc : (lv.fn = sqErrLoss ∨ (O.xgb = true ∧ O.lambda ≠ .fin 0)) := hlf.imp id And.right
  obtain ⟨hl, hfirst⟩ := one_label_first (c := .fin 0) hs hlv hlf' (Or.inl ⟨hc, rfl⟩) h
  obtain ⟨t, rest, hMb, _⟩ := hfirst.resolve_left hne
  obtain ⟨b, hbase⟩ := hs.base
  have hall : ∀ ens ∈ M.b, ∀ t ∈ ens, FlatTree (.fin 0) t := by
    obtain ⟨labels, st, ht, rfl⟩ := newMultiClass_inv h
    rw [train_soft] at ht
    obtain ⟨hl, ohe, st0, hy, hf, hb, hst, hrun⟩ := one_label_start softMax_one hs.one ht
    obtain ⟨hX, hn, hd⟩ := hs.pos
    have hs' := hs.fix
    obtain ⟨lr, hlr⟩ := hs'.opts.lr
    obtain ⟨e1, e2, e3, e4, e5, e6, e7, e8, e9, e10⟩ := Options.fixMcw_lr O
    have hlam : O.fixMcw.lambda = O.lambda := by unfold Options.fixMcw; split <;> rfl
    have := (flat_rounds (P := fun x => x = .fin b) (Q := fun c => c = .fin 0) softMax_one hn hd hy hs'.sample ?_ hrun
      ⟨_, by rw [hbase]; simp, hf⟩ hb).2
    · intro ens he t ht
      obtain ⟨c, rfl, hc⟩ := this ens he t ht
      exact hc
    · rintro x rfl lv' idx cols tree hlv' hidx ht
      rw [e9, hlv] at hlv'
      obtain rfl := Option.some.inj hlv'
      rw [soft1_fin, hs.data] at ht
      have := (reached_flat hs' hlf' hidx ht).1
      rw [e6, hlam] at this
      exact ⟨_, rfl, this hc, by rw [hlr]; simp⟩
  have hbs : M.baseScore = .fin b ∧ (∃ lr, M.learningRate = .fin lr) ∧ M.probTransform = some (softMaxDense expR) := by
    obtain ⟨labels, st, ht, rfl⟩ := newMultiClass_inv h
    exact ⟨hbase, hs.opts.lr, rfl⟩
  obtain ⟨hb1, ⟨lr, hlr⟩, hpt⟩ := hbs
  obtain ⟨s, hraw⟩ : ∃ s, M.rawScores row = .ok s := by
    unfold MultiClass.predictSingle at hp
    obtain ⟨s, hs, _⟩ := bind_ok hp
    exact ⟨s, hs⟩
  have hs1 : s = [.fin b] := by
    have h2 := hraw
    unfold MultiClass.rawScores at h2
    obtain ⟨b0, e0, h2⟩ := bind_ok h2
    rw [hMb] at e0
    simp only [goIdx, List.getElem?_cons_zero, Except.ok.injEq] at e0
    rw [← e0, hb1, hlr] at h2
    refine rounds_absorb M.b ?_ s h2
    intro ens he t ht v hv
    rw [hall ens he t ht row v hv]
    simp
  subst hs1
  refine ⟨hl, by rw [hraw, hbase], ?_⟩
  rw [predictSingle_softmax expR M hpt row _ hraw (by simp)] at hp
  have h2 : softMax expR [XF.fin b] none = softMax expR [XF.fin b] (some [zero]) := by simp [softMax]
  rw [h2, softMax_one, soft1_fin] at hp
  exact (Except.ok.inj hp).symm

/-- **C139 (the code, `MSELoss`)**: trained on data with one label, with `MSELoss` and regular boosting (or `Lambda` 0), the model gives
every row the raw score NaN: nothing is learned either. -/
theorem C139_nan (S : GoSort) (draws : Nat → Exact ℝ) (X : List (List ℝ)) (D : DataBunch (Exact ℝ)) (O : Options (Exact ℝ)) (lab : Int)
    (hs : OneLabelSetup X D O lab) (lv : LossVal (Exact ℝ)) (hlv : O.loss = some lv) (hlf : lv.fn = mseLoss)
    (hx : O.xgb = false ∨ O.lambda = .fin 0) (M : MultiClass (Exact ℝ)) (h : newMultiClass expR S draws D O = .ok M) (hne : M.b ≠ [])
    (row s : List (Exact ℝ)) (hraw : M.rawScores row = .ok s) : M.classLabels = [lab] ∧ s = [.nan] := by
  obtain ⟨hl, hfirst⟩ := one_label_first (c := .nan) hs hlv (Or.inr hlf) (Or.inr ⟨hlf, hx, rfl⟩) h
  obtain ⟨t, rest, hMb, hflat⟩ := hfirst.resolve_left hne
  refine ⟨hl, ?_⟩
  unfold MultiClass.rawScores at hraw
  obtain ⟨b0, e0, h2⟩ := bind_ok hraw
  rw [hMb] at e0 h2
  simp only [goIdx, List.getElem?_cons_zero, Except.ok.injEq] at e0
  rw [← e0, List.foldlM_cons] at h2
  obtain ⟨t1, ht1, h2⟩ := bind_ok h2
  have hnan : ∀ x y : Exact ℝ, x +. ((.nan : Exact ℝ) *. y) = .nan ∧ (.nan : Exact ℝ) +. x = .nan := by
    intro x y
    cases x <;> cases y <;> exact ⟨rfl, rfl⟩
  have : t1 = [.nan] := by
    unfold addRound at ht1
    obtain ⟨p, hp, ht1⟩ := bind_ok ht1
    obtain rfl := hflat _ _ hp
    simp only [List.length_singleton, List.replicate_one, addAt, List.getElem?_cons_zero, List.set_cons_zero, bind, Except.bind,
      addRound, Except.ok.injEq] at ht1
    rw [← ht1, (hnan _ _).1]
  subst this
  exact rounds_absorb rest (fun _ _ _ _ v _ => (hnan _ zero).2) s h2

/-- the code on the three rows returns a model with a round that predicts every row with a value -/
theorem trick_code (O : Options (Exact ℝ)) (lv : LossVal (Exact ℝ)) (hlv : O.loss = some lv) (hl : lv.fn.Regular) (hr : rowSub O = false)
    (hc : colSub O = false) (hm : O.minSample ≤ 0) (hR : O.rounds = 1) (x : ℝ) :
    ∃ M p, newMultiClass expR GoSort.ins (fun _ => .fin 0) trickData O = .ok M ∧ M.b ≠ [] ∧ M.predictSingle [.fin x] = .ok p := by
  obtain ⟨M, hM⟩ := C22_returns expR GoSort.ins (fun _ => .fin 0) trickData O
    ⟨by simp [trickData, finRows, trickRows], ⟨1, by simp [trickData, finRows, trickRows]⟩, finRows_noNaN _, finRows_midSafe _⟩ rfl lv hlv
    hl (by unfold CapOk; rw [hr, hc]; simp) (by rw [hr]; simp)
  have hne : M.b ≠ [] := by
    have h1 := (C22_rounds _ _ _ _ _ _ hM).1
    have h2 : 0 ∈ executedRounds trickData.data O (fun _ => .fin 0) O.rounds.toNat := by
      unfold executedRounds
      rw [List.mem_filter, hR]
      exact ⟨by simp, by simp; omega⟩
    have := List.length_pos_of_mem h2
    intro h0
    rw [h0] at h1
    simp at h1
    omega
  obtain ⟨p, hp, _⟩ := C79_predict_partial expR _ _ _ _ M hM hne [.fin 0] (by simp [trickData, finRows, trickRows]) [.fin x] (by simp)
  exact ⟨M, p, hM, hne, hp⟩

/-- `C139_constant` meets its hypotheses on the three rows: xgboost or not. -/
example (xgb : Bool) : ∃ M, newMultiClass expR GoSort.ins (fun _ => .fin 0) trickData (trickOptions xgb) = .ok M ∧
    M.predictSingle [.fin 0] = .ok [.fin 1] ∧ M.predictSingle [.fin 2] = .ok [.fin 1] := by
  have hc := fun x => trick_code (trickOptions xgb) _ rfl sqErrLoss_regular (by simp [rowSub, trickOptions]) (by simp [colSub, trickOptions])
    (by simp [trickOptions, defaultGOptions]) rfl x
  obtain ⟨M, p, h1, h2, h3⟩ := hc 0
  obtain ⟨M', p', h1', h2', h3'⟩ := hc 2
  obtain rfl := Except.ok.inj (h1.symm.trans h1')
  refine ⟨M, h1, ?_, ?_⟩
  · rw [h3, (C139_constant _ _ _ _ _ 7 (trick_setup xgb) _ rfl (Or.inl rfl) M h1 h2 _ _ h3).2.2]
  · rw [h3', (C139_constant _ _ _ _ _ 7 (trick_setup xgb) _ rfl (Or.inl rfl) M h1 h2 _ _ h3').2.2]

/-- `C139_nan` meets its hypotheses on the three rows: `DefaultGOptions` with one round. -/
example : ∃ M, newMultiClass expR GoSort.ins (fun _ => .fin 0) trickData { defaultGOptions (F := Exact ℝ) 0 with rounds := 1 } = .ok M ∧
    M.rawScores [.fin 0] = .ok [.nan] := by
  obtain ⟨M, p, h1, h2, h3⟩ := trick_code { defaultGOptions (F := Exact ℝ) 0 with rounds := 1 } _ rfl mseLoss_regular
    (by simp [rowSub, defaultGOptions]) (by simp [colSub, defaultGOptions]) (by simp [defaultGOptions]) rfl 0
  obtain ⟨s, hs⟩ : ∃ s, M.rawScores [.fin 0] = .ok s := by
    unfold MultiClass.predictSingle at h3
    obtain ⟨s, hs, _⟩ := bind_ok h3
    exact ⟨s, hs⟩
  refine ⟨M, h1, ?_⟩
  rw [hs, (C139_nan _ _ trickRows trickData _ 7 ⟨rfl, rfl, ⟨by simp [trickData], by simp [trickData]⟩,
    ⟨⟨_, rfl⟩, ⟨0, by simp [defaultGOptions], le_rfl⟩, ⟨_, rfl⟩⟩, ⟨_, rfl⟩, by simp [rowSub, defaultGOptions]⟩ _ rfl rfl (Or.inl rfl) M h1 h2
    _ _ hs).2]

end Boo
