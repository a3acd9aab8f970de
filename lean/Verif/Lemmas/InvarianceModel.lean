import Verif.Lemmas.Invariance

/-!
# Consequences of corresponding trees: equal trees, equal predictions, equal importances, equal training runs
-/

namespace Boo
open GoFloat Spec
set_option linter.unusedSectionVars false

section
variable {K : Type} [Field K] [LinearOrder K] [IsStrictOrderedRing K] [FloorRing K]
variable {σ : Nat → Nat} {φ : Nat → K → K} {D : Nat → Set K} {e : Prop} {X1 X2 : List (List K)}

theorem TreeRel.eq {t1 t2 : Tree (Exact K)} (he : e) (h : TreeRel id (fun _ => id) e X1 t1 t2) : t2 = t1 := by
  induction t1 generalizing t2 with
  | nil => cases t2 with
    | nil => rfl
    | node => exact absurd h (by simp [TreeRel])
  | node i l r ihl ihr =>
    cases t2 with
    | nil => exact absurd h (by simp [TreeRel])
    | node i' l' r' =>
      obtain ⟨_, h1, h2, h3, h4, h5, h6, h7, h8, h9, hl, hr⟩ := h
      have h1 := h1 he
      rw [List.map_id] at h1
      have ht : i'.threshold = i.threshold := by
        rcases h9 with ⟨_, h, _⟩ | ⟨⟨x, x', _, _, _, e1, e2⟩, _⟩
        · exact h
        · rw [e1, e2]; rfl
      have : i' = i := by
        cases i; cases i'
        simp_all
      rw [this, ihl hl, ihr hr]

theorem TreeRel.leaf {i i' : NodeInfo (Exact K)} (h2 : i'.bestScoreSoFar = i.bestScoreSoFar) (h7 : i'.xgb = i.xgb) : i'.leaf = i.leaf := by
  unfold NodeInfo.leaf
  rw [h2, h7]

theorem TreeRel.featImp {t1 t2 : Tree (Exact K)} (h : TreeRel σ φ e X1 t1 t2) (S : GoSort) (g : Feats (Exact K)) :
    t2.featImp S g = t1.featImp S g := by
  induction t1 generalizing t2 g with
  | nil => cases t2 with
    | nil => rfl
    | node => exact absurd h (by simp [TreeRel])
  | node i l r ihl ihr =>
    cases t2 with
    | nil => exact absurd h (by simp [TreeRel])
    | node i' l' r' =>
      obtain ⟨_, _, h2, _, _, _, h6, h7, _, _, hl, hr⟩ := h
      unfold Tree.featImp
      rw [TreeRel.leaf h2 h7, h2, h6, ihl hl]
      split
      · rfl
      · cases l.featImp S (g.add i.splitFeatureIndex i.bestScoreSoFar) with
        | error e => rfl
        | ok g1 => exact ihr hr g1

theorem TreeRel.featureImportance {t1 t2 : Tree (Exact K)} (h : TreeRel σ φ e X1 t1 t2) (S : GoSort) (xgb : Bool) :
    t2.featureImportance S xgb = t1.featureImportance S xgb := by
  unfold Tree.featureImportance
  rw [h.featImp]
  cases t1 <;> cases t2 <;> simp only [TreeRel] at h
  · rfl
  · simp only [Tree.leaf]
    rw [TreeRel.leaf h.2.2.1 h.2.2.2.2.2.2.2.1]

/-- predictions agree on rows that every threshold puts on the same side -/
theorem TreeRel.predict_of {t1 t2 : Tree (Exact K)} (h : TreeRel σ φ e X1 t1 t2) (row : List K) (P : List Nat → Prop)
    (hside : ∀ (f : Nat) (v : K) (smp : List Nat) θ1 θ2, row[f]? = some v → P smp →
      Cut (φ f) (smp.map fun w => val X1 w f) (.fin θ1) (.fin θ2) →
      ((φ f v ≤ θ2 ↔ v ≤ θ1) ∧ (v ≤ θ1 → P (leftOf X1 smp f θ1)) ∧ (¬ v ≤ θ1 → P (rightOf X1 smp f θ1))))
    (hP : P t1.rootSamples) :
    t2.predictSingle ((row.mapIdx φ).map XF.fin) = t1.predictSingle (row.map XF.fin) := by
  induction t1 generalizing t2 with
  | nil => cases t2 with
    | nil => rfl
    | node => exact absurd h (by simp [TreeRel])
  | node i l r ihl ihr =>
    cases t2 with
    | nil => exact absurd h (by simp [TreeRel])
    | node i' l' r' =>
      obtain ⟨_, _, h2, h3, _, _, h6, h7, _, h9, hl, hr⟩ := h
      unfold Tree.predictSingle
      rw [TreeRel.leaf h2 h7, h3, h6]
      cases hlf : i.leaf with
      | true => simp
      | false =>
        simp only [Bool.false_eq_true, if_false]
        rcases h9 with ⟨h, _⟩ | ⟨hcut, _, hs⟩
        · rw [hlf] at h; cases h
        obtain ⟨θ, hθ, sl, sr⟩ := hs hlf
        cases hv : row[i.splitFeatureIndex]? with
        | none =>
          have e1 : goIdx (row.map XF.fin) i.splitFeatureIndex = (.error .index : Go (Exact K)) := by
            unfold goIdx; rw [List.getElem?_map, hv]; rfl
          have e2 : goIdx ((row.mapIdx φ).map XF.fin) i.splitFeatureIndex = (.error .index : Go (Exact K)) := by
            unfold goIdx; rw [List.getElem?_map, List.getElem?_mapIdx, hv]; rfl
          rw [e1, e2]
          rfl
        | some v =>
          have e1 : goIdx (row.map XF.fin) i.splitFeatureIndex = (.ok (.fin v) : Go (Exact K)) := by
            rw [goIdx_ok, List.getElem?_map, hv]; rfl
          have e2 : goIdx ((row.mapIdx φ).map XF.fin) i.splitFeatureIndex = (.ok (.fin (φ i.splitFeatureIndex v)) : Go (Exact K)) := by
            rw [goIdx_ok, List.getElem?_map, List.getElem?_mapIdx, hv]; rfl
          rw [e1, e2]
          simp only [bind, Except.bind]
          obtain ⟨θ2, hθ2⟩ : ∃ θ2, i'.threshold = .fin θ2 := by
            obtain ⟨x, x', _, _, _, _, e2⟩ := hcut
            exact ⟨_, e2⟩
          rw [hθ, hθ2] at hcut
          obtain ⟨k1, k2, k3⟩ := hside _ v i.samples θ θ2 hv hP hcut
          rw [hθ, hθ2, XF.fin_le, XF.fin_le]
          by_cases hle : v ≤ θ
          · rw [if_pos (by simpa using k1.2 hle), if_pos (by simpa using hle)]
            exact ihl hl (by rw [sl]; exact k2 hle)
          · rw [if_neg (by simpa using fun h => hle (k1.1 h)), if_neg (by simpa using hle)]
            exact ihr hr (by rw [sr]; exact k3 hle)

/-- predictions agree on the rows the tree was built from -/
theorem TreeRel.predict_training {t1 t2 : Tree (Exact K)} (h : TreeRel σ φ e X1 t1 t2) {w : Nat} {row : List K}
    (hw : w ∈ t1.rootSamples) (hrow : X1[w]? = some row) :
    t2.predictSingle ((row.mapIdx φ).map XF.fin) = t1.predictSingle (row.map XF.fin) := by
  refine h.predict_of row (fun smp => w ∈ smp) ?_ hw
  intro f v smp θ1 θ2 hv hw hcut
  obtain ⟨a, b, e1, e2, hs⟩ := hcut.side
  obtain rfl := fin_inj e1
  obtain rfl := fin_inj e2
  have hval : val X1 w f = v := val_eq hrow hv
  refine ⟨?_, fun hle => ?_, fun hle => ?_⟩
  · rw [← hval]; exact hs _ (List.mem_map_of_mem hw)
  · exact List.mem_filter.2 ⟨hw, by simpa [hval] using hle⟩
  · exact List.mem_filter.2 ⟨hw, by simpa [hval] using hle⟩

/-- with affine maps predictions agree on all rows -/
theorem TreeRel.predict_affine {t1 t2 : Tree (Exact K)} {a b : Nat → K} (ha : ∀ f, 0 < a f)
    (h : TreeRel σ (fun f v => a f * v + b f) e X1 t1 t2) (row : List K) :
    t2.predictSingle ((row.mapIdx fun f v => a f * v + b f).map XF.fin) = t1.predictSingle (row.map XF.fin) := by
  refine h.predict_of row (fun _ => True) ?_ trivial
  rintro f v smp θ1 θ2 hv _ ⟨x, x', _, _, _, e1, e2⟩
  refine ⟨?_, fun _ => trivial, fun _ => trivial⟩
  rw [fin_inj e1, fin_inj e2]
  have h2 : (a f * x + b f + (a f * x' + b f)) / 2 = a f * ((x + x') / 2) + b f := by ring
  rw [h2]
  constructor
  · intro hle
    exact le_of_mul_le_mul_left (by linarith) (ha f)
  · intro hle
    have := mul_le_mul_of_nonneg_left hle (ha f).le
    linarith

theorem TreeRel.updateLeaves {g hs : List (Exact K)} {t1 t2 t1' : Tree (Exact K)} (he : e) (h : TreeRel id φ e X1 t1 t2)
    (hu : updateLeaves g hs t1 = .ok t1') :
    ∃ t2', Boo.updateLeaves g hs t2 = .ok t2' ∧ TreeRel id φ e X1 t1' t2' ∧ t1'.rootSamples = t1.rootSamples := by
  induction t1 generalizing t2 t1' with
  | nil => cases t2 with
    | nil => exact ⟨.nil, rfl, by rw [← Except.ok.inj hu]; trivial, by rw [← Except.ok.inj hu]⟩
    | node => exact absurd h (by simp [TreeRel])
  | node i l r ihl ihr =>
    cases t2 with
    | nil => exact absurd h (by simp [TreeRel])
    | node i' l' r' =>
      obtain ⟨h0, h1, h2, h3, h4, h5, h6, h7, h8, h9, hl, hr⟩ := h
      unfold Boo.updateLeaves at hu ⊢
      obtain ⟨l1, hl1, hu⟩ := bind_ok hu
      obtain ⟨r1, hr1, hu⟩ := bind_ok hu
      obtain ⟨l2, el, rl, sl⟩ := ihl hl hl1
      obtain ⟨r2, er, rr, sr⟩ := ihr hr hr1
      rw [el, er]
      simp only [bind, Except.bind]
      rw [TreeRel.leaf h2 h7]
      have hs' := h1 he
      rw [List.map_id] at hs'
      cases hlf : i.leaf with
      | false =>
        rw [hlf] at hu
        simp only [Bool.false_eq_true, if_false] at hu ⊢
        obtain rfl := Except.ok.inj hu
        refine ⟨_, rfl, ⟨h0, h1, h2, h3, h4, h5, h6, h7, h8, ?_, rl, rr⟩, rfl⟩
        rcases h9 with ⟨h, _⟩ | ⟨hcut, hc, hsp⟩
        · rw [hlf] at h; cases h
        · refine Or.inr ⟨hcut, hc, fun _ => ?_⟩
          rw [sl, sr]
          exact hsp hlf
      | true =>
        rw [hlf] at hu
        simp only [if_true] at hu ⊢
        obtain ⟨i1, hi1, hu⟩ := bind_ok hu
        obtain rfl := Except.ok.inj hu
        unfold updateLeaf at hi1 ⊢
        rw [hs']
        obtain ⟨⟨sh, sg⟩, e1, e2⟩ := bind_ok hi1
        rw [e1]
        simp only [bind, Except.bind, pure, Except.pure] at e2 ⊢
        obtain rfl := Except.ok.inj e2
        refine ⟨_, rfl, ⟨by rw [List.map_id], fun _ => (List.map_id _).symm, h2, rfl, h4, h5, h6, h7, h8, ?_, rl, rr⟩, rfl⟩
        rcases h9 with ⟨h, h', hln, hrn⟩ | ⟨hcut, hc, hsp⟩
        · subst hln; subst hrn
          obtain rfl := Except.ok.inj hl1
          obtain rfl := Except.ok.inj hr1
          exact Or.inl ⟨hlf, h', rfl, rfl⟩
        · refine Or.inr ⟨hcut, hc, fun h => ?_⟩
          have h' : i.leaf = false := h
          rw [hlf] at h'; cases h'

end

/-! ### whole training runs -/

section Generic
variable {F : Type} [GoFloat F]

theorem predictLoop_congr {t1 t2 : Tree F} {rows1 rows2 : List (List F)}
    (h : List.Forall₂ (fun r1 r2 => t2.predictSingle r2 = t1.predictSingle r1) rows1 rows2) (i : Nat) (preds : List F) :
    predictLoop t2 rows2 i preds = predictLoop t1 rows1 i preds := by
  induction h generalizing i preds with
  | nil => rfl
  | cons h1 _ ih =>
    unfold predictLoop
    rw [h1]
    simp only [ih]

theorem predict_congr {t1 t2 : Tree F} {rows1 rows2 : List (List F)}
    (h : List.Forall₂ (fun r1 r2 => t2.predictSingle r2 = t1.predictSingle r1) rows1 rows2) (buf : Option (List F)) :
    t2.predict rows2 buf = t1.predict rows1 buf := by
  unfold Tree.predict
  rw [predictLoop_congr h]
  cases buf with
  | some b => rfl
  | none =>
    have : (rows2.map fun _ => (zero : F)) = rows1.map fun _ => zero := by
      rw [List.map_const', List.map_const', h.length_eq]
    simp only [Option.getD_none, this]

theorem earlyStopping_boosters (O : Options F) (round k : Nat) (l : F) (st : TrainState F) (B : List (List (Tree F))) :
    earlyStopping O round k l { st with boosters := B } = { earlyStopping O round k l st with boosters := B } := by
  unfold earlyStopping
  split
  · split
    · rfl
    · split <;> rfl
  · rfl

theorem earlyStopping_keeps (O : Options F) (round k : Nat) (l : F) (st : TrainState F) :
    (earlyStopping O round k l st).boosters = st.boosters := by
  unfold earlyStopping
  split
  · split
    · rfl
    · split <;> rfl
  · rfl

/-- Two states of training that agree up to related trees. -/
def AccRel (TR : Tree F → Tree F → Prop) (a1 a2 : TrainState F × List (Tree F)) : Prop :=
  a2.1 = { a1.1 with boosters := a2.1.boosters } ∧ List.Forall₂ (List.Forall₂ TR) a1.1.boosters a2.1.boosters ∧
    List.Forall₂ TR a1.2 a2.2

theorem trainClass_rel {act : Dense F → Option (Dense F) → Go (Dense F)} {S1 S2 : GoSort} {data1 data2 : List (List F)}
    {O : Options F} {ohe : Dense F} {idx : Option (List Nat)} {cols : List Nat} {round k : Nat} {TR : Tree F → Tree F → Prop}
    (hT : ∀ lf y p t1, classTree S1 data1 O lf idx cols y p = .ok t1 →
      ∃ t2, classTree S2 data2 O lf idx cols y p = .ok t2 ∧ TR t1 t2 ∧ ∀ buf, t2.predict data2 buf = t1.predict data1 buf)
    {a1 a2 a1' : TrainState F × List (Tree F)} (hR : AccRel TR a1 a2)
    (h : trainClass act S1 data1 O ohe idx cols round a1 k = .ok a1') :
    ∃ a2', trainClass act S2 data2 O ohe idx cols round a2 k = .ok a2' ∧ AccRel TR a1' a2' := by
  obtain ⟨r1, r2, r3⟩ := hR
  have e1 : a2.1.stopped = a1.1.stopped := by rw [r1]
  have e2 : a2.1.probs = a1.1.probs := by rw [r1]
  have e3 : a2.1.tmpPreds = a1.1.tmpPreds := by rw [r1]
  have e4 : a2.1.rawPred = a1.1.rawPred := by rw [r1]
  unfold trainClass at h ⊢
  simp only [e1, e2, e3, e4] at h ⊢
  split at h
  · rename_i hs
    obtain rfl := Except.ok.inj h
    rw [if_pos hs]
    exact ⟨a2, rfl, r1, r2, r3⟩
  · rename_i hs
    rw [if_neg hs]
    obtain ⟨y, hy, h⟩ := bind_ok h
    obtain ⟨p, hp, h⟩ := bind_ok h
    rw [hy, hp]
    simp only [bind, Except.bind] at h ⊢
    cases hlv : O.loss with
    | none => rw [hlv] at h; cases h
    | some lv =>
      rw [hlv] at h
      simp only at h ⊢
      cases ht : classTree S1 data1 O lv.fn idx cols y p with
      | error e => rw [ht] at h; cases h
      | ok t1 =>
        rw [ht] at h
        obtain ⟨t2, ht2, hTR, hpred⟩ := hT lv.fn y p t1 ht
        rw [ht2]
        simp only [hpred] at h ⊢
        cases hpr : t1.predict data1 (some a1.1.tmpPreds) with
        | error e => rw [hpr] at h; cases h
        | ok preds =>
          rw [hpr] at h
          simp only at h ⊢
          cases hraw : addToCol a1.1.rawPred (preds.map fun v => v *. O.learningRate) k with
          | error e => rw [hraw] at h; cases h
          | ok raw =>
            rw [hraw] at h
            simp only at h ⊢
            cases hprobs : act raw (some a1.1.probs) with
            | error e => rw [hprobs] at h; cases h
            | ok probs =>
              rw [hprobs] at h
              simp only at h ⊢
              have fin : ∀ l : F, AccRel TR
                  (earlyStopping O round k l { a1.1 with
                      rawPred := raw, probs := probs, tmpPreds := preds.map fun v => v *. O.learningRate }, a1.2 ++ [t1])
                  (earlyStopping O round k l { a2.1 with
                      rawPred := raw, probs := probs, tmpPreds := preds.map fun v => v *. O.learningRate }, a2.2 ++ [t2]) := by
                intro l
                have hst : ({ a2.1 with
                      rawPred := raw, probs := probs, tmpPreds := preds.map fun v => v *. O.learningRate } : TrainState F) =
                    { ({ a1.1 with
                      rawPred := raw, probs := probs, tmpPreds := preds.map fun v => v *. O.learningRate } : TrainState F) with
                        boosters := a2.1.boosters } := by
                  rw [r1]
                rw [hst, earlyStopping_boosters]
                refine ⟨rfl, ?_, ?_⟩
                · simp only [earlyStopping_keeps]
                  exact r2
                · exact List.rel_append r3 (List.Forall₂.cons hTR List.Forall₂.nil)
              by_cases he : O.earlyStop > 0 ∨ O.verbose = true
              · rw [if_pos he] at h ⊢
                cases hkp : denseCol probs k with
                | error e => rw [hkp] at h; cases h
                | ok kp =>
                  rw [hkp] at h
                  simp only at h ⊢
                  cases hls : lv.fn.loss y kp with
                  | error e => rw [hls] at h; cases h
                  | ok l =>
                    rw [hls] at h
                    simp only at h ⊢
                    refine ⟨_, rfl, ?_⟩
                    obtain rfl := Except.ok.inj h
                    simpa only [e1] using fin l
              · rw [if_neg he] at h ⊢
                refine ⟨_, rfl, ?_⟩
                obtain rfl := Except.ok.inj h
                simpa only [e1] using fin zero

def StRel (TR : Tree F → Tree F → Prop) (s1 s2 : TrainState F) : Prop :=
  s2 = { s1 with boosters := s2.boosters } ∧ List.Forall₂ (List.Forall₂ TR) s1.boosters s2.boosters

theorem trainRound_rel {act : Dense F → Option (Dense F) → Go (Dense F)} {S1 S2 : GoSort} {data1 data2 : List (List F)}
    {O : Options F} {ohe : Dense F} {m round : Nat} {TR : Tree F → Tree F → Prop}
    (hsm : ∀ d, roundSamples data2 O d = roundSamples data1 O d)
    (hT : ∀ d idx cols d', roundSamples data1 O d = .ok (idx, cols, d') → ∀ lf y p t1, classTree S1 data1 O lf idx cols y p = .ok t1 →
      ∃ t2, classTree S2 data2 O lf idx cols y p = .ok t2 ∧ TR t1 t2 ∧ ∀ buf, t2.predict data2 buf = t1.predict data1 buf)
    {s1 s2 s1' : TrainState F} (hR : StRel TR s1 s2)
    (h : trainRound act S1 data1 O ohe m s1 round = .ok s1') :
    ∃ s2', trainRound act S2 data2 O ohe m s2 round = .ok s2' ∧ StRel TR s1' s2' := by
  obtain ⟨r1, r2⟩ := hR
  have ed : s2.draws = s1.draws := by rw [r1]
  unfold trainRound at h ⊢
  rw [hsm, ed]
  obtain ⟨⟨idx, cols, draws⟩, hs, h⟩ := bind_ok h
  rw [hs]
  simp only [bind, Except.bind] at h ⊢
  by_cases hlt : ((idx.getD []).length : Int) < O.minSample
  · rw [if_pos hlt] at h ⊢
    obtain rfl := Except.ok.inj h
    exact ⟨_, rfl, by rw [r1], r2⟩
  · rw [if_neg hlt] at h ⊢
    obtain ⟨acc1, hacc, h⟩ := bind_ok h
    obtain ⟨acc2, hacc2, q1, q2, q3⟩ := foldlM_rel (P := AccRel TR) (g := trainClass act S2 data2 O ohe idx cols round)
      (b := ({ s2 with draws := draws }, []))
      (fun a b a' k _ hP hf => trainClass_rel (hT _ _ _ _ hs) hP hf) ⟨by rw [r1], r2, List.Forall₂.nil⟩ hacc
    rw [hacc2]
    obtain rfl := Except.ok.inj h
    refine ⟨_, rfl, ?_, ?_⟩
    · simp only
      rw [q1]
    · exact List.rel_append q2 (List.Forall₂.cons q3 List.Forall₂.nil)

/-- two training runs whose trees correspond -/
theorem newMultiClass_rel {exp : F → F} {S1 S2 : GoSort} {draws : Nat → F} {data2 : List (List F)} {D : DataBunch F}
    {O : Options F} {TR : Tree F → Tree F → Prop}
    (hsm : ∀ d, roundSamples data2 O.fixMcw d = roundSamples D.data O.fixMcw d)
    (hT : ∀ d idx cols d', roundSamples D.data O.fixMcw d = .ok (idx, cols, d') → ∀ lf y p t1,
      classTree S1 D.data O.fixMcw lf idx cols y p = .ok t1 →
      ∃ t2, classTree S2 data2 O.fixMcw lf idx cols y p = .ok t2 ∧ TR t1 t2 ∧ ∀ buf, t2.predict data2 buf = t1.predict D.data buf)
    {M : MultiClass F} (h : newMultiClass exp S1 draws D O = .ok M) :
    ∃ B, newMultiClass exp S2 draws { D with data := data2 } O = .ok { M with b := B } ∧ List.Forall₂ (List.Forall₂ TR) M.b B := by
  unfold newMultiClass at h ⊢
  obtain ⟨⟨labels, st⟩, h1, h2⟩ := bind_ok h
  obtain rfl := Except.ok.inj h2
  unfold train trainWith at h1 ⊢
  have hl : ({ D with data := data2 } : DataBunch F).oheLabels = D.oheLabels := rfl
  rw [hl]
  obtain ⟨⟨ohe, labels'⟩, h3, h1⟩ := bind_ok h1
  rw [h3]
  simp only [bind, Except.bind] at h1 ⊢
  obtain ⟨st0, h4, h1⟩ := bind_ok h1
  obtain ⟨st1, h5, h1⟩ := bind_ok h1
  simp only [pure, Except.pure, Except.ok.injEq, Prod.mk.injEq] at h1
  obtain ⟨rfl, rfl⟩ := h1
  rw [h4]
  simp only
  have hb0 : st0.boosters = [] := by
    unfold trainInit at h4
    obtain ⟨raw, _, h4⟩ := bind_ok h4
    obtain ⟨probs, _, h4⟩ := bind_ok h4
    rw [← Except.ok.inj h4]
  obtain ⟨st2, h6, q1, q2⟩ := foldlM_rel (P := StRel TR)
    (g := trainRound (softMaxDense exp) S2 data2 O.fixMcw ohe labels'.length) (b := st0)
    (fun a b a' k _ hP hf => trainRound_rel hsm hT hP hf) ⟨rfl, by rw [hb0]; exact List.Forall₂.nil⟩ h5
  rw [h6]
  exact ⟨st2.boosters, rfl, q2⟩

theorem addRound_congr {row1 row2 : List F} {ts1 ts2 : List (Tree F)} (lr : F)
    (h : List.Forall₂ (fun t1 t2 => t2.predictSingle row2 = t1.predictSingle row1) ts1 ts2) (c : Nat) (tmp : List F) :
    addRound lr row2 ts2 c tmp = addRound lr row1 ts1 c tmp := by
  induction h generalizing c tmp with
  | nil => rfl
  | cons h1 _ ih =>
    unfold addRound
    rw [h1]
    simp only [ih]

theorem MultiClass.predict_congr {row1 row2 : List F} {M : MultiClass F} {B : List (List (Tree F))}
    (h : List.Forall₂ (List.Forall₂ fun t1 t2 => t2.predictSingle row2 = t1.predictSingle row1) M.b B) :
    ({ M with b := B } : MultiClass F).predictSingle row2 = M.predictSingle row1 := by
  have hraw : ({ M with b := B } : MultiClass F).rawScores row2 = M.rawScores row1 := by
    unfold MultiClass.rawScores
    have h0 : (do let b0 ← goIdx B 0; pure b0.length : Go Nat) = (do let b0 ← goIdx M.b 0; pure b0.length : Go Nat) := by
      generalize M.b = b1 at h
      cases h with
      | nil => rfl
      | cons h1 h2 =>
        simp only [goIdx, List.getElem?_cons_zero, bind, Except.bind, pure, Except.pure, h1.length_eq]
    have hf : ∀ tmp, B.foldlM (fun tmp ens => addRound M.learningRate row2 ens 0 tmp) tmp =
        M.b.foldlM (fun tmp ens => addRound M.learningRate row1 ens 0 tmp) tmp := by
      clear h0
      generalize M.b = b1 at h
      intro tmp
      induction h generalizing tmp with
      | nil => rfl
      | cons h1 _ ih =>
        rw [List.foldlM_cons, List.foldlM_cons, addRound_congr _ h1]
        congr 1
        funext x
        exact ih x
    have e : ∀ (b : List (List (Tree F))) (g : List F → Go (List F)),
        (do let b0 ← goIdx b 0; g (List.replicate b0.length M.baseScore)) =
        (do let n ← (do let b0 ← goIdx b 0; pure b0.length : Go Nat); g (List.replicate n M.baseScore)) := by
      intro b g
      cases goIdx b 0 <;> rfl
    simp only
    refine (e B fun r => B.foldlM (fun tmp ens => addRound M.learningRate row2 ens 0 tmp) r).trans ?_
    refine Eq.trans ?_ (e M.b fun r => M.b.foldlM (fun tmp ens => addRound M.learningRate row1 ens 0 tmp) r).symm
    rw [h0]
    simp only [hf]
  unfold MultiClass.predictSingle
  rw [hraw]

theorem MultiClass.importance_congr {S : GoSort} {M : MultiClass F} {B : List (List (Tree F))}
    (h : List.Forall₂ (List.Forall₂ fun t1 t2 => ∀ g, t2.featImp S g = t1.featImp S g) M.b B) :
    ({ M with b := B } : MultiClass F).featureImportance S = M.featureImportance S := by
  unfold MultiClass.featureImportance
  simp only
  have inner : ∀ {ts1 ts2 : List (Tree F)}, List.Forall₂ (fun t1 t2 => ∀ g, t2.featImp S g = t1.featImp S g) ts1 ts2 → ∀ ret,
      ts2.foldlM (fun ret t => t.featImp S ret) ret = ts1.foldlM (fun ret t => t.featImp S ret) ret := by
    intro ts1 ts2 h
    induction h with
    | nil => intro _; rfl
    | cons h1 _ ih =>
      intro ret
      rw [List.foldlM_cons, List.foldlM_cons, h1]
      congr 1
      funext x
      exact ih x
  generalize M.b = b1 at h
  generalize newFeats M.xgb = ret
  induction h generalizing ret with
  | nil => rfl
  | cons h1 _ ih =>
    rw [List.foldlM_cons, List.foldlM_cons, inner h1]
    congr 1
    funext x
    exact ih x
end Generic

section
variable {K : Type} [Field K] [LinearOrder K] [IsStrictOrderedRing K] [FloorRing K]
variable {φ : Nat → K → K} {D : Nat → Set K} {X : List (List K)}

/-- the same options on data whose features were mapped -/
theorem Corr.self (hm : ∀ f, StrictMonoOn (φ f) (D f)) (hD : ∀ row ∈ X, ∀ (f : Nat) v, row[f]? = some v → v ∈ D f)
    (o : TreeOptions (Exact K)) : Corr id φ D True X (X.map fun row => row.mapIdx φ) o o := by
  have hidx : o.idx (finRows (X.map fun row => row.mapIdx φ)) = o.idx (finRows X) := by
    unfold TreeOptions.idx
    simp [finRows]
  refine ⟨rfl, rfl, rfl, rfl, rfl, rfl, ?_, ?_, ?_, rfl, rfl, fun _ _ => rfl, fun _ _ => rfl, ?_, ?_, ?_, hm⟩
  · unfold TreeOptions.fill
    simp [finRows]
  · rw [hidx, List.map_id]
  · intro _; rw [hidx, List.map_id]
  · intro w _
    rw [id, List.getElem?_map]
  · intro w _ row hr f v hv
    exact hD row (List.mem_of_getElem? hr) f v hv
  · rw [List.getElem?_map, Option.map_map]
    congr 1
    funext row
    simp

theorem mapped_tree {S1 S2 : GoSort} (hm : ∀ f, StrictMonoOn (φ f) (D f))
    (hD : ∀ row ∈ X, ∀ (f : Nat) v, row[f]? = some v → v ∈ D f) {o : TreeOptions (Exact K)} {t1 : Tree (Exact K)}
    (h : newTree S1 (finRows X) o = .ok t1) :
    ∃ t2, newTree S2 (finRows (X.map fun row => row.mapIdx φ)) o = .ok t2 ∧ TreeRel id φ True X t1 t2 ∧
      t1.rootSamples = o.idx (finRows X) :=
  (Corr.self hm hD o).tree _ h

/-- the trees of one class correspond -/
theorem mapped_classTree {S1 S2 : GoSort} (hm : ∀ f, StrictMonoOn (φ f) (D f))
    (hD : ∀ row ∈ X, ∀ (f : Nat) v, row[f]? = some v → v ∈ D f) {O : Options (Exact K)} {lf : LossFunc (Exact K)}
    {idx : Option (List Nat)} {cols : List Nat} {y p : List (Exact K)} {t1 : Tree (Exact K)}
    (h : classTree S1 (finRows X) O lf idx cols y p = .ok t1) :
    ∃ t2, classTree S2 (finRows (X.map fun row => row.mapIdx φ)) O lf idx cols y p = .ok t2 ∧ TreeRel id φ True X t1 t2 ∧
      (t1.rootSamples = List.range X.length ∨ (O.xgb = true ∧ t1.rootSamples = idx.getD (List.range X.length))) := by
  have hlen : (finRows (X.map fun row => row.mapIdx φ)).length = (finRows X).length := by simp [finRows]
  have hlen' : (finRows X).length = X.length := by simp [finRows]
  unfold classTree at h ⊢
  cases hx : O.xgb with
  | true =>
    rw [hx] at h
    simp only [if_true] at h ⊢
    obtain ⟨g, hg, h⟩ := bind_ok h
    rw [hg]
    simp only [bind, Except.bind]
    obtain ⟨t2, h2, h3, h4⟩ := mapped_tree (S2 := S2) hm hD h
    rw [hlen]
    refine ⟨t2, h2, h3, Or.inr ⟨trivial, ?_⟩⟩
    rw [h4]
    unfold TreeOptions.idx
    rw [hlen']
  | false =>
    rw [hx] at h
    simp only [Bool.false_eq_true, if_false] at h ⊢
    obtain ⟨g, hg, h⟩ := bind_ok h
    rw [hg]
    simp only [bind, Except.bind]
    obtain ⟨t, ht, h⟩ := bind_ok h
    obtain ⟨t2, h2, h3, h4⟩ := mapped_tree (S2 := S2) hm hD ht
    rw [hlen, h2]
    simp only
    obtain ⟨t2', h5, h6, h7⟩ := h3.updateLeaves trivial h
    refine ⟨t2', h5, h6, Or.inl ?_⟩
    rw [h7, h4]
    unfold TreeOptions.idx
    rw [hlen']
    rfl

theorem mapped_roundSamples (O : Options (Exact K)) (d : Nat → Exact K) :
    roundSamples (finRows (X.map fun row => row.mapIdx φ)) O d = roundSamples (finRows X) O d := by
  have hlen : (finRows (X.map fun row => row.mapIdx φ)).length = (finRows X).length := by simp [finRows]
  unfold roundSamples
  rw [hlen]
  cases hc : ((O.colSubSample <. one) && O.xgb) with
  | false => simp only [Bool.false_eq_true, if_false]
  | true =>
    have hg : ∃ n, (goIdx (finRows (X.map fun row => row.mapIdx φ)) 0).map List.length = n ∧ (goIdx (finRows X) 0).map List.length = n := by
      cases X with
      | nil => exact ⟨_, rfl, rfl⟩
      | cons r X => exact ⟨.ok r.length, by simp [finRows, goIdx, Except.map], by simp [finRows, goIdx, Except.map]⟩
    obtain ⟨n, h1, h2⟩ := hg
    simp only [if_true]
    cases e1 : goIdx (finRows (X.map fun row => row.mapIdx φ)) 0 with
    | error e =>
      rw [e1] at h1
      cases e2 : goIdx (finRows X) 0 with
      | error e' =>
        rw [e2] at h2
        simp only [Except.map] at h1 h2
        rw [← h2] at h1
        cases h1
        rfl
      | ok r => rw [e2, ← h1] at h2; cases h2
    | ok r =>
      rw [e1] at h1
      cases e2 : goIdx (finRows X) 0 with
      | error e' => rw [e2, ← h1] at h2; cases h2
      | ok r' =>
        rw [e2, ← h1] at h2
        simp only [Except.map, Except.ok.injEq] at h2
        simp only [bind, Except.bind, h2]
end

end Boo
