import Verif.Props.RealTrain

/-!
# Training on data with one label
-/

namespace Boo
open GoFloat Spec
set_option linter.unusedSectionVars false

/-! ### matrices of one column with equal entries -/

section
variable {F : Type} [GoFloat F]

/-- `n` rows of one entry `x` -/
def flatCol (n : Nat) (x : F) : Dense F := ⟨n, 1, List.replicate n x⟩

theorem flatCol_WF (n : Nat) (x : F) : (flatCol n x).WF := by simp [flatCol, Dense.WF]

theorem flatCol_row {n : Nat} {x : F} {i : Nat} (hi : i < n) : (flatCol n x).row i = [x] := by
  unfold flatCol Dense.row
  simp only [Nat.mul_one, List.drop_replicate, List.take_replicate]
  rw [Nat.min_eq_left (by omega)]
  rfl

theorem flatCol_col {n : Nat} (hn : 0 < n) (x : F) : denseCol (flatCol n x) 0 = .ok (List.replicate n x) := by
  obtain ⟨l, h1, h2, h3⟩ := denseCol_spec (flatCol_WF n x) (show 0 < n from hn) (col := 0) (by simp [flatCol])
  rw [h1]
  congr 1
  have h2' : l.length = n := h2
  apply List.ext_getElem?
  intro i
  by_cases hi : i < n
  · rw [h3 i hi]
    simp [Dense.at?, flatCol, hi]
  · rw [List.getElem?_eq_none (by omega), List.getElem?_eq_none (by simp; omega)]

theorem dense_flat {D : Dense F} {n : Nat} {x : F} (hr : D.r = n) (hc : D.c = 1) (hw : D.WF) (h : ∀ i < n, D.row i = [x]) :
    D = flatCol n x := by
  obtain ⟨r, c, data⟩ := D
  simp only at hr hc
  subst hr hc
  unfold flatCol
  congr 1
  have hl : data.length = r := by simpa [Dense.WF] using hw
  apply List.ext_getElem?
  intro i
  by_cases hi : i < r
  · have := h i hi
    unfold Dense.row at this
    simp only [Nat.mul_one] at this
    have h2 := congrArg (fun l => l[0]?) this
    simp only [List.getElem?_take, List.getElem?_drop, Nat.add_zero] at h2
    rw [List.getElem?_replicate, if_pos hi]
    simpa using h2
  · rw [List.getElem?_eq_none (by omega), List.getElem?_eq_none (by simp; omega)]

theorem flatCol_at {n : Nat} {x : F} {i : Nat} (hi : i < n) : (flatCol n x).at? i 0 = some x := by
  simp [Dense.at?, flatCol, hi]

theorem row_of_at {D : Dense F} {x : F} {i : Nat} (hc : D.c = 1) (h : D.at? i 0 = some x) : D.row i = [x] := by
  obtain ⟨r, c, data⟩ := D
  simp only at hc
  subst hc
  unfold Dense.row
  unfold Dense.at? at h
  simp only [Nat.mul_one, Nat.add_zero] at h ⊢
  simp only [Nat.lt_irrefl, Nat.zero_lt_one, if_true] at h
  have h' : data[i]? = some x := by
    revert h
    first | (split <;> intro h <;> first | exact h | cases h) | (intro h; exact h)
  obtain ⟨hi, hx⟩ := List.getElem?_eq_some_iff.1 h'
  rw [List.drop_eq_getElem_cons hi, List.take_succ_cons, hx]
  simp

theorem flatCol_add {n : Nat} {x c : F} {D : Dense F} (h : addToCol (flatCol n x) (List.replicate n c) 0 = .ok D) :
    D = flatCol n (x +. c) := by
  obtain ⟨D', h1, h2, h3, h4, h5, h6⟩ := addToCol_spec (flatCol_WF n x) (col := 0) (by simp [flatCol]) (List.replicate n c)
    (by simp [flatCol])
  obtain rfl := Except.ok.inj (h.symm.trans h1)
  refine dense_flat h2 h3 h4 fun i hi => row_of_at h3 ?_
  exact h6 i x c hi (flatCol_at hi) (by simp [hi])

/-- an activation function that makes `a x` of a row `[x]` makes a flat column of a flat column -/
theorem flatCol_act {act : List F → Option (List F) → Go (List F)} {x y : F} (ha : ∀ b, act [x] (some [b]) = .ok [y]) {n : Nat}
    {buf : Option (Dense F)} (hb : ∀ d, buf = some d → d.r = n ∧ d.c = 1 ∧ d.WF) :
    activationDense act (flatCol n x) buf = .ok (flatCol n y) := by
  unfold activationDense
  have key : ∀ q ≤ n, ∀ D : Dense F, D.r = n → D.c = 1 → D.WF →
      ∃ D', (List.range q).foldlM (fun D i => if D.r ≤ i then .error .shape else do
        let p ← act ((flatCol n x).row i) (some (D.row i))
        D.setRow i p) D = (.ok D' : Go (Dense F)) ∧ D'.r = n ∧ D'.c = 1 ∧ D'.WF ∧ ∀ i < q, D'.row i = [y] := by
    intro q
    induction q with
    | zero => intro _ D h1 h2 h3; exact ⟨D, rfl, h1, h2, h3, by simp⟩
    | succ q ih =>
      intro hq D h1 h2 h3
      obtain ⟨D1, e1, e2, e3, e4, e5⟩ := ih (by omega) D h1 h2 h3
      obtain ⟨b, hb⟩ : ∃ b, D1.row q = [b] := by
        have : (D1.row q).length = 1 := by
          have hl : D1.data.length = n := by have := e4; unfold Dense.WF at this; rw [e2, e3] at this; simpa using this
          unfold Dense.row
          rw [e3]
          simp
          omega
        exact List.length_eq_one_iff.1 this
      obtain ⟨D2, f1, f2, f3, f4, f5, f6⟩ := setRow_spec e4 (i := q) (by omega) (p := [y]) (by simp [e3])
      refine ⟨D2, ?_, by omega, by omega, f4, ?_⟩
      · rw [List.range_succ, List.foldlM_append, e1]
        simp only [List.foldlM_cons, List.foldlM_nil, bind, Except.bind]
        rw [if_neg (by omega), flatCol_row (by omega), hb, ha b]
        simp only
        rw [f1]
        rfl
      · intro i hi
        rcases Nat.lt_succ_iff_lt_or_eq.1 hi with hi | rfl
        · rw [f6 i (by omega), e5 i hi]
        · exact f5
  obtain ⟨h1, h2, h3⟩ : (buf.getD ⟨(flatCol n x).r, (flatCol n x).c, List.replicate ((flatCol n x).r * (flatCol n x).c) zero⟩).r = n ∧
      (buf.getD ⟨(flatCol n x).r, (flatCol n x).c, List.replicate ((flatCol n x).r * (flatCol n x).c) zero⟩).c = 1 ∧
      (buf.getD ⟨(flatCol n x).r, (flatCol n x).c, List.replicate ((flatCol n x).r * (flatCol n x).c) zero⟩).WF := by
    cases buf with
    | none => exact ⟨rfl, rfl, by simp [Dense.WF, flatCol]⟩
    | some d => exact hb d rfl
  obtain ⟨D', e1, e2, e3, e4, e5⟩ := key n le_rfl _ h1 h2 h3
  rw [← dense_flat e2 e3 e4 e5]
  exact e1

/-! ### trees that predict the same for all rows -/

/-- every prediction of the tree is `c` -/
def FlatTree (c : F) (t : Tree F) : Prop := ∀ row v, t.predictSingle row = .ok v → v = c

theorem flatTree_of_leaves {c : F} {t : Tree F} (h : ∀ path i l r, t.sub path = .node i l r → i.leaf = true → i.value = c) :
    FlatTree c t := by
  intro row v hv
  induction t with
  | nil => simp [Tree.predictSingle] at hv
  | node i l r ihl ihr =>
    unfold Tree.predictSingle at hv
    split at hv
    · rename_i hl
      simp only [pure, Except.pure, Except.ok.injEq] at hv
      exact hv ▸ h [] i l r rfl hl
    · obtain ⟨x, _, hv⟩ := bind_ok hv
      split at hv
      · exact ihl (fun path => h (true :: path)) hv
      · exact ihr (fun path => h (false :: path)) hv

theorem FlatTree.predict {c : F} {t : Tree F} (ht : FlatTree c t) {data : List (List F)} {buf out : List F}
    (hb : buf.length = data.length) (h : t.predict data (some buf) = .ok out) : out = List.replicate data.length c := by
  obtain ⟨_, vs, hvs, rfl⟩ := (C13_predict_buffer t data buf out).1 h
  rw [List.drop_eq_nil_iff.2 (by omega), List.append_nil, List.eq_replicate_iff]
  refine ⟨hvs.length_eq.symm, fun v hv => ?_⟩
  obtain ⟨i, hi, rfl⟩ := List.mem_iff_getElem.1 hv
  exact ht _ _ (hvs.get (by rw [hvs.length_eq]; exact hi) hi)

/-! ### the training loops with one class -/

/-- The state of training on `n` rows with one label: all rows have the score `x`. -/
structure FlatState (a : F → F) (n : Nat) (x : F) (st : TrainState F) : Prop where
  raw : st.rawPred = flatCol n x
  probs : st.probs = flatCol n (a x)
  tmp : st.tmpPreds.length = n

variable {act : List F → Option (List F) → Go (List F)} {a : F → F} {S : GoSort} {data : List (List F)} {O : Options F}
  {ohe : Dense F} {n : Nat}

/-- one step of the loop over classes: the tree is built on equal targets and equal probabilities -/
theorem flat_class (ha : ∀ x b, act [x] (some [b]) = .ok [a x]) (hn : 0 < n) (hd : data.length = n)
    (hy : denseCol ohe 0 = .ok (List.replicate n one)) {idx : Option (List Nat)} {cols : List Nat} {round : Nat} {st : TrainState F} {x : F}
    {acc' : TrainState F × List (Tree F)} (hs : FlatState a n x st)
    (h : trainClass (activationDense act) S data O ohe idx cols round (st, []) 0 = .ok acc') :
    (st.stopped.getD 0 false = true ∧ acc' = (st, [])) ∨
    (∃ lv tree, O.loss = some lv ∧
      classTree S data O lv.fn idx cols (List.replicate n one) (List.replicate n (a x)) = .ok tree ∧
      acc'.2 = [tree] ∧ acc'.1.boosters = st.boosters ∧
      ∀ c, FlatTree c tree → FlatState a n (x +. (c *. O.learningRate)) acc'.1) := by
  unfold trainClass at h
  simp only at h
  split at h
  · rename_i hst
    simp only [pure, Except.pure, Except.ok.injEq] at h
    exact Or.inl ⟨hst, h.symm⟩
  · right
    rw [hy] at h
    obtain ⟨y, hy', h⟩ := bind_ok h
    obtain rfl := Except.ok.inj hy'
    rw [hs.probs, flatCol_col hn] at h
    obtain ⟨p, hp', h⟩ := bind_ok h
    obtain rfl := Except.ok.inj hp'
    split at h
    · cases h
    rename_i lv hlv
    obtain ⟨tree, ht, h⟩ := bind_ok h
    obtain ⟨preds, hpr, h⟩ := bind_ok h
    obtain ⟨raw, hraw, h⟩ := bind_ok h
    obtain ⟨probs, hprobs, h⟩ := bind_ok h
    obtain ⟨loss, h⟩ : ∃ loss, (earlyStopping O round 0 loss
        { st with rawPred := raw, probs := probs, tmpPreds := preds.map fun v => v *. O.learningRate }, [] ++ [tree]) = acc' := by
      split at h
      · obtain ⟨kp, _, h⟩ := bind_ok h
        obtain ⟨loss, _, h⟩ := bind_ok h
        exact ⟨loss, Except.ok.inj h⟩
      · exact ⟨zero, Except.ok.inj h⟩
    obtain ⟨e1, e2, e3, e4, e5, _⟩ := earlyStopping_raw O round 0 loss
      { st with rawPred := raw, probs := probs, tmpPreds := preds.map fun v => v *. O.learningRate }
    refine ⟨lv, tree, hlv, ht, by rw [← h]; rfl, ?_, ?_⟩
    · rw [← h]
      exact e4
    · intro c hc
      have hpre := hc.predict (by rw [hs.tmp, hd]) hpr
      rw [hpre, List.map_replicate, hs.raw, hd] at hraw
      have hr := flatCol_add hraw
      rw [hr, flatCol_act (ha _) (fun d hd => by
        obtain rfl := Option.some.inj hd
        exact ⟨rfl, rfl, flatCol_WF _ _⟩)] at hprobs
      rw [← h]
      refine ⟨?_, ?_, ?_⟩
      · rw [← hr]; exact e1
      · rw [Except.ok.inj hprobs]; exact e2
      · show (earlyStopping O round 0 loss _).tmpPreds.length = n
        rw [e3]
        show (preds.map _).length = n
        rw [hpre, List.length_map, List.length_replicate, hd]

theorem flat_round {act : Dense F → Option (Dense F) → Go (Dense F)} {st st' : TrainState F} {round : Nat}
    (h : trainRound act S data O ohe 1 st round = .ok st') :
    ∃ idx cols draws, roundSamples data O st.draws = .ok (idx, cols, draws) ∧
      (st' = { st with draws := draws } ∨
       (¬ ((idx.getD []).length : Int) < O.minSample ∧ ∃ acc,
          trainClass act S data O ohe idx cols round ({ st with draws := draws }, []) 0 = .ok acc ∧
          st' = { acc.1 with boosters := acc.1.boosters ++ [acc.2] })) := by
  unfold trainRound at h
  obtain ⟨⟨idx, cols, draws⟩, h1, h2⟩ := bind_ok h
  refine ⟨idx, cols, draws, h1, ?_⟩
  simp only at h2
  split at h2
  · simp only [pure, Except.pure, Except.ok.injEq] at h2
    exact Or.inl h2.symm
  · rename_i hl
    obtain ⟨acc, h3, h4⟩ := bind_ok h2
    simp only [pure, Except.pure, Except.ok.injEq] at h4
    rw [show List.range 1 = [0] from rfl, List.foldlM_cons] at h3
    obtain ⟨acc1, h5, h6⟩ := bind_ok h3
    simp only [List.foldlM_nil, pure, Except.pure, Except.ok.injEq] at h6
    subst h6
    exact Or.inr ⟨hl, acc1, h5, h4.symm⟩

theorem FlatState.mk' {x : F} {st st' : TrainState F} (h : FlatState a n x st) (h1 : st'.rawPred = st.rawPred) (h2 : st'.probs = st.probs)
    (h3 : st'.tmpPreds = st.tmpPreds) : FlatState a n x st' :=
  ⟨h1.trans h.raw, h2.trans h.probs, by rw [h3]; exact h.tmp⟩

end

section
variable {act : List (Exact ℝ) → Option (List (Exact ℝ)) → Go (List (Exact ℝ))} {a : Exact ℝ → Exact ℝ} {S : GoSort}
  {data : List (List (Exact ℝ))} {O : Options (Exact ℝ)} {ohe : Dense (Exact ℝ)} {n : Nat}

/-- all rounds: if every tree that can be built is flat, the scores of all rows stay equal -/
theorem flat_rounds (ha : ∀ x b, act [x] (some [b]) = .ok [a x]) (hn : 0 < n) (hd : data.length = n)
    (hy : denseCol ohe 0 = .ok (List.replicate n one)) (hms : rowSub O = true → 1 ≤ O.minSample) {P Q : Exact ℝ → Prop}
    (H : ∀ x, P x → ∀ lv idx cols tree, O.loss = some lv → IdxOk n idx →
      classTree S data O lv.fn idx cols (List.replicate n one) (List.replicate n (a x)) = .ok tree →
      ∃ c, Q c ∧ FlatTree c tree ∧ P (x +. (c *. O.learningRate)))
    {q : Nat} {st st' : TrainState (Exact ℝ)} (h : (List.range q).foldlM (trainRound (activationDense act) S data O ohe 1) st = .ok st')
    (h0 : ∃ x, P x ∧ FlatState a n x st) (hb : st.boosters = []) :
    (∃ x, P x ∧ FlatState a n x st') ∧ ∀ ens ∈ st'.boosters, ∀ t ∈ ens, ∃ c, Q c ∧ FlatTree c t := by
  induction q generalizing st' with
  | zero =>
    simp only [List.range_zero, List.foldlM_nil, pure, Except.pure, Except.ok.injEq] at h
    subst h
    exact ⟨h0, by simp [hb]⟩
  | succ q ih =>
    rw [List.range_succ, List.foldlM_append] at h
    obtain ⟨st1, h1, h2⟩ := bind_ok h
    rw [List.foldlM_cons] at h2
    obtain ⟨st2, h3, h4⟩ := bind_ok h2
    simp only [List.foldlM_nil, pure, Except.pure, Except.ok.injEq] at h4
    subst h4
    obtain ⟨⟨x, hP, hs⟩, hT⟩ := ih h1
    obtain ⟨idx, cols, draws, hsam, rfl | ⟨hl, acc, hacc, rfl⟩⟩ := flat_round h3
    · exact ⟨⟨x, hP, hs.mk' rfl rfl rfl⟩, hT⟩
    · have hidx : IdxOk n idx := by
        have := idxOk_of_round hsam hms hl
        rw [hd] at this
        exact this
      rcases flat_class ha hn hd hy (hs.mk' (st' := { st1 with draws := draws }) rfl rfl rfl) hacc with
        ⟨_, rfl⟩ | ⟨lv, tree, hlv, ht, e1, e2, e3⟩
      · refine ⟨⟨x, hP, hs.mk' rfl rfl rfl⟩, ?_⟩
        intro ens he t ht
        rcases List.mem_append.1 he with he | he
        · exact hT ens he t ht
        · rw [List.mem_singleton.1 he] at ht
          cases ht
      · obtain ⟨c, hQ, hc, hP'⟩ := H x hP lv idx cols tree hlv hidx ht
        refine ⟨⟨_, hP', (e3 c hc).mk' rfl rfl rfl⟩, ?_⟩
        intro ens he t ht
        simp only [e2] at he
        rcases List.mem_append.1 he with he | he
        · exact hT ens he t ht
        · rw [List.mem_singleton.1 he, e1, List.mem_singleton] at ht
          exact ht ▸ ⟨c, hQ, hc⟩

/-- all rounds: the first tree of the model is built from the first scores -/
theorem flat_first (ha : ∀ x b, act [x] (some [b]) = .ok [a x]) (hn : 0 < n) (hd : data.length = n)
    (hy : denseCol ohe 0 = .ok (List.replicate n one)) (hms : rowSub O = true → 1 ≤ O.minSample) {x c : Exact ℝ}
    (H : ∀ lv idx cols tree, O.loss = some lv → IdxOk n idx →
      classTree S data O lv.fn idx cols (List.replicate n one) (List.replicate n (a x)) = .ok tree → FlatTree c tree)
    {q : Nat} {st st' : TrainState (Exact ℝ)} (h : (List.range q).foldlM (trainRound (activationDense act) S data O ohe 1) st = .ok st')
    (h0 : FlatState a n x st) (hst : st.stopped.getD 0 false = false) (hb : st.boosters = []) :
    (FlatState a n x st' ∧ st'.stopped = st.stopped ∧ st'.boosters = []) ∨
      ∃ t rest, st'.boosters = [t] :: rest ∧ FlatTree c t := by
  induction q generalizing st' with
  | zero =>
    simp only [List.range_zero, List.foldlM_nil, pure, Except.pure, Except.ok.injEq] at h
    subst h
    exact Or.inl ⟨h0, rfl, hb⟩
  | succ q ih =>
    rw [List.range_succ, List.foldlM_append] at h
    obtain ⟨st1, h1, h2⟩ := bind_ok h
    rw [List.foldlM_cons] at h2
    obtain ⟨st2, h3, h4⟩ := bind_ok h2
    simp only [List.foldlM_nil, pure, Except.pure, Except.ok.injEq] at h4
    subst h4
    obtain ⟨idx, cols, draws, hsam, hcase⟩ := flat_round h3
    rcases ih h1 with ⟨hs, hst1, hb1⟩ | ⟨t, rest, hb1, ht⟩
    · rcases hcase with rfl | ⟨hl, acc, hacc, rfl⟩
      · exact Or.inl ⟨hs.mk' rfl rfl rfl, hst1, hb1⟩
      · have hidx : IdxOk n idx := by
          have := idxOk_of_round hsam hms hl
          rw [hd] at this
          exact this
        rcases flat_class ha hn hd hy (hs.mk' (st' := { st1 with draws := draws }) rfl rfl rfl) hacc with
          ⟨h5, _⟩ | ⟨lv, tree, hlv, ht, e1, e2, _⟩
        · simp only [hst1, hst] at h5
          cases h5
        · exact Or.inr ⟨tree, [], by simp [e1, e2, hb1], H lv idx cols tree hlv hidx ht⟩
    · right
      rcases hcase with rfl | ⟨hl, acc, hacc, rfl⟩
      · exact ⟨t, rest, hb1, ht⟩
      · refine ⟨t, rest ++ [acc.2], ?_, ht⟩
        have : acc.1.boosters = st1.boosters := by
          unfold trainClass at hacc
          simp only at hacc
          split at hacc
          · simp only [pure, Except.pure, Except.ok.injEq] at hacc
            rw [← hacc]
          · obtain ⟨_, _, hacc⟩ := bind_ok hacc
            obtain ⟨_, _, hacc⟩ := bind_ok hacc
            split at hacc
            · cases hacc
            obtain ⟨_, _, hacc⟩ := bind_ok hacc
            obtain ⟨_, _, hacc⟩ := bind_ok hacc
            obtain ⟨_, _, hacc⟩ := bind_ok hacc
            obtain ⟨_, _, hacc⟩ := bind_ok hacc
            split at hacc
            · obtain ⟨_, _, hacc⟩ := bind_ok hacc
              obtain ⟨_, _, hacc⟩ := bind_ok hacc
              rw [← Except.ok.inj hacc]
              exact (earlyStopping_raw _ _ _ _ _).2.2.2.1
            · rw [← Except.ok.inj hacc]
              exact (earlyStopping_raw _ _ _ _ _).2.2.2.1
        simp [this, hb1]

end

/-! ### trees built on equal targets -/

theorem sumOver_const (n : Nat) (c : ℝ) (s : List Nat) (hs : ∀ w ∈ s, w < n) :
    sumOver (List.replicate n c) s = s.length * c := by
  unfold sumOver
  rw [List.map_congr_left (g := fun _ => c) (fun w hw => by simp [List.getD_eq_getElem?_getD, hs w hw])]
  simp

theorem sumOver_zero (n : Nat) (s : List Nat) : sumOver (List.replicate n (0 : ℝ)) s = 0 := by
  unfold sumOver
  rw [List.map_congr_left (g := fun _ => (0 : ℝ)) (fun w _ => by
    simp only [List.getD_eq_getElem?_getD, List.getElem?_replicate]
    split <;> rfl)]
  simp

theorem finV_replicate (n : Nat) (c : ℝ) : (List.replicate n (XF.fin c : Exact ℝ)) = finV (List.replicate n c) := by
  simp [finV]

theorem grads_const (n : Nat) (c : ℝ) :
    grad (List.replicate n (one : Exact ℝ)) (List.replicate n (XF.fin c)) = .ok (finV (List.replicate n (c - 1))) ∧
    negGrad (List.replicate n (one : Exact ℝ)) (List.replicate n (XF.fin c)) = .ok (finV (List.replicate n (1 - c))) := by
  have h1 : (one : Exact ℝ) = XF.fin 1 := by simp
  rw [h1, finV_replicate, finV_replicate]
  obtain ⟨q1, q2⟩ := grad_fin (List.replicate n 1) (List.replicate n c) (by simp)
  refine ⟨?_, ?_⟩
  · rw [q1]; simp
  · rw [q2]; simp

section
variable {S : GoSort} {X : List (List ℝ)} {O : Options (Exact ℝ)} {idx : Option (List Nat)} {cols : List Nat} {n : Nat}
  {t : Tree (Exact ℝ)} {lf : LossFunc (Exact ℝ)} {lam gam : ℝ} {c : ℝ} {hs : List ℝ}

/-- the leaves of an xgboost tree on equal gradients -/
theorem xgb_values (hlf : lf.gradients = grad) (hxgb : O.xgb = true) (hlam : O.lambda = .fin lam) (hgam : O.gamma = .fin gam)
    (hh : lf.hessian (List.replicate n (XF.fin c)) = finV hs)
    (h : classTree S (finRows X) O lf idx cols (List.replicate n one) (List.replicate n (.fin c)) = .ok t) :
    ∃ o, newTree S (finRows X) o = .ok t ∧ XgbInput o (List.replicate n (c - 1)) hs lam gam ∧ o.indexes = idx := by
  unfold classTree at h
  rw [if_pos hxgb, hlf, (grads_const n c).1, hh] at h
  obtain ⟨g', hg', h⟩ := bind_ok h
  obtain rfl := Except.ok.inj hg'
  exact ⟨_, h, ⟨rfl, rfl, rfl, hlam, hgam⟩, rfl⟩

/-- the leaves of a regular tree on equal residuals -/
theorem reg_values (hlf : lf.negGradients = negGrad) (hxgb : O.xgb = false) (hX : X ≠ [])
    (hh : lf.hessian (List.replicate n (XF.fin c)) = finV hs)
    (h : classTree S (finRows X) O lf idx cols (List.replicate n one) (List.replicate n (.fin c)) = .ok t)
    (path : List Bool) (i : NodeInfo (Exact ℝ)) (l r : Tree (Exact ℝ)) (hsub : t.sub path = .node i l r) (hl : i.leaf = true) :
    i.samples ≠ [] ∧ (∀ w ∈ i.samples, w < n) ∧
      i.value = .fin (sumOver (List.replicate n (1 - c)) i.samples) /. .fin (sumOver hs i.samples) := by
  unfold classTree at h
  rw [if_neg (by simp [hxgb]), hlf, (grads_const n c).2, hh] at h
  obtain ⟨g', hg', h⟩ := bind_ok h
  obtain rfl := Except.ok.inj hg'
  obtain ⟨t0, h0, hu⟩ := bind_ok h
  have hN := updateLeaves_newton _ _ _ _ hu
  obtain ⟨i0, l0, r0, hsub0⟩ : ∃ i l r, t0.sub path = .node i l r := by
    cases hc : t0.sub path with
    | nil => rw [(hN.shape path).2 hc] at hsub; cases hsub
    | node i l r => exact ⟨i, l, r, rfl⟩
  have hm := C10_node_mean S X _ t0 _ h0 ⟨rfl, rfl⟩ (by simpa [trainingRows, defaultGTreeOptions, finRows] using hX)
    path i0 l0 r0 hsub0
  obtain ⟨n1, n2⟩ := hN.node path i0 l0 r0 i l r hsub0 hsub
  cases hleaf : i0.leaf with
  | false =>
    rw [n2 hleaf] at hl
    rw [hleaf] at hl
    cases hl
  | true =>
    obtain ⟨m1, m2⟩ := n1 hleaf
    rw [m2]
    simp only
    rw [sumAt_fin, sumAt_fin]
    exact ⟨hm.1, fun w hw => by simpa [finV] using (m1 w hw).1, rfl⟩

end

end Boo
