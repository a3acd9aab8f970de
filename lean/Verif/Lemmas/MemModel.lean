import Verif.Lemmas.MemTrain

/-!
Lemmas: the model of `NewMultiClass` on the memory refines the model on lists (rounds, training, prediction).
-/

namespace Boo
open GoFloat
variable {F : Type} [GoFloat F] {m : Mem F}

theorem MStRel.later {B : TrainBufs} {m' : Mem F} {st : MTrainState F} {st' : TrainState F} {X : List Sl} {ohe : MDense} {n c : Nat}
    (h : MStRel B m st st') (hb : BufsOk m X ohe n c B) (hf : Frame (fun _ => False) (fun _ => False) m m') : MStRel B m' st st' := by
  obtain ⟨a1, a2, a3, a4, a5, a6, a7, a8, a9, a10, a11, a12, a13, a14, a15⟩ := h
  refine ⟨a1, a2, a3, a4, a5, a6, a7, ?_, ?_, ?_, a11, a12, a13, a14.kept (hf.mono (fun _ _ h => h) (fun _ _ h => h.elim)), a15⟩
  · rw [MDense.rep_kept hb.raw hf id, a8]
  · rw [MDense.rep_kept hb.probs hf id, a9]
  · rw [Sl.view_kept hb.tmpPreds hf.fl id, a10]

theorem mClassLoop_sim (exp : F → F) (S : GoSort) {X : List Sl} {ohe : MDense} {n c : Nat} {B : TrainBufs} (O : Options F)
    {lf : Option MLoss} (hlf : O.loss.map LossVal.fn = lf.map MLoss.fn) {indexes : Option Sl} (cols : List Nat) (round : Nat)
    (Xl : List (List F)) (ol : Dense F) (il : Option (List Nat)) :
    ∀ (ks : List Nat) {m : Mem F} (_ : BufsOk m X ohe n c B) (_ : ∀ s, indexes = some s → s.Ok m.ix ∧ s.arr ≠ B.tin.arr)
      (_ : rowsOf m X = Xl) (_ : ohe.rep m = ol) (_ : (indexes.map fun s => s.view m.ix) = il)
      (_ : ∀ k ∈ ks, k < c) {acc : MTrainState F × List (MTree F)} {acc' : TrainState F × List (Tree F)} (_ : MStRel B m acc.1 acc'.1)
      (_ : TreesRel B.wI m acc.2 acc'.2),
    Sim B.wF B.wI m (mClassLoop exp S X O lf ohe indexes cols round ks acc)
      (ks.foldlM (trainClass (softMaxDense exp) S Xl O ol il cols round) acc')
      (fun m' a b => MStRel B m' a.1 b.1 ∧ TreesRel B.wI m' a.2 b.2)
  | [], m, _, _, _, _, _, _, acc, acc', hst, htr => Sim.pure ⟨hst, htr⟩
  | k :: ks, m, h, hi, hX, ho, hil, hk, acc, acc', hst, htr => by
    unfold mClassLoop
    rw [List.foldlM_cons]
    have := mTrainClass_sim exp S h O hlf hi cols round (hk k (List.mem_cons_self ..)) hst htr
    rw [hX, ho, hil] at this
    refine Sim.bind' this fun m' a b f hab _ => ?_
    refine mClassLoop_sim exp S O hlf cols round Xl ol il ks (h.kept f) (fun s hs => ⟨(hi s hs).1.kept f.ix, (hi s hs).2⟩) ?_ ?_ ?_
      (fun k hk' => hk k (List.mem_cons_of_mem _ hk')) hab.1 hab.2
    · rw [rowsOf_kept h.rows f h.rowsa, hX]
    · rw [MDense.rep_kept h.oheok f h.ohea, ho]
    · rw [← hil]
      cases hx : indexes with
      | none => rfl
      | some s => exact congrArg some (Sl.view_kept (hi s hx).1 f.ix (hi s hx).2)

theorem mRoundSamples_sim {W V : Nat → Prop} {X : List Sl} (hX : ∀ s ∈ X, s.Ok m.fl) (O : Options F) (draws : Nat → F) :
    Sim W V m (mRoundSamples X O draws) (roundSamples (rowsOf m X) O draws)
      (fun m' a b => (∀ s, a.1 = some s → s.Ok m'.ix ∧ m.ix.length ≤ s.arr) ∧ (a.1.map fun s => s.view m'.ix) = b.1 ∧
        (a.1.map Sl.len).getD 0 = (b.1.getD []).length ∧ a.2 = b.2 ∧ m'.fl = m.fl) := by
  have hlen : (rowsOf m X).length = X.length := List.length_map ..
  -- the column sample
  have hcols : ∀ {m' : Mem F} (a1 : Option Sl) (b1 : Option (List Nat)) (d : Nat → F), m'.fl = m.fl →
      (∀ s, a1 = some s → s.Ok m'.ix ∧ m.ix.length ≤ s.arr) → (a1.map fun s => s.view m'.ix) = b1 → (a1.map Sl.len).getD 0 = (b1.getD []).length →
      Sim W V m' (if (O.colSubSample <. one) && O.xgb then do
            let row0 ← MGo.lift (goIdx X 0)
            let cols ← MGo.lift (subSample row0.len O.colSubSample d)
            pure (a1, cols, fun i => d (i + row0.len))
          else pure (a1, [], d))
        (if (O.colSubSample <. one) && O.xgb then do
            let row0 ← goIdx (rowsOf m X) 0
            let cols ← subSample row0.length O.colSubSample d
            pure (b1, cols, fun i => d (i + row0.length))
          else pure (b1, [], d))
      (fun m' a b => (∀ s, a.1 = some s → s.Ok m'.ix ∧ m.ix.length ≤ s.arr) ∧ (a.1.map fun s => s.view m'.ix) = b.1 ∧
        (a.1.map Sl.len).getD 0 = (b.1.getD []).length ∧ a.2 = b.2 ∧ m'.fl = m.fl) := by
    intro m' a1 b1 d hm h1 h2 h3
    split
    · cases X with
      | nil => exact ⟨Frame.refl, rfl⟩
      | cons s X =>
        have hl : (s.view m.fl).length = s.len := Sl.view_length (hX s (List.mem_cons_self ..))
        show Sim W V m' (MGo.lift (subSample s.len O.colSubSample d) >>= fun cols => pure (a1, cols, fun i => d (i + s.len)))
          (subSample (s.view m.fl).length O.colSubSample d >>= fun cols => pure (b1, cols, fun i => d (i + (s.view m.fl).length))) _
        rw [hl]
        exact Sim.lift fun cols _ => Sim.pure ⟨h1, h2, h3, rfl, hm⟩
    · exact Sim.pure ⟨h1, h2, h3, rfl, hm⟩
  unfold mRoundSamples roundSamples
  rw [hlen]
  split
  · cases hs : subSample X.length O.subSample draws with
    | error e => exact ⟨Frame.refl, rfl⟩
    | ok l =>
      have fr := freshI_addI m l
      have := (hcols (m' := m.addI l) (some ⟨m.ix.length, 0, l.length⟩) (some l) (fun i => draws (i + X.length)) rfl
        (fun s hs => by rw [← Option.some.inj hs]; exact ⟨fr.ok, le_refl _⟩) (congrArg some fr.view) rfl)
      exact Sim.step (m' := m.addI l) (a := (some ⟨m.ix.length, 0, l.length⟩, fun i => draws (i + X.length))) rfl (frame_addI l)
        (fun _ _ h => h) (fun _ _ h => h) this
  · exact hcols (m' := m) none none draws rfl (fun _ h => by cases h) rfl rfl

theorem mTrainRound_sim (exp : F → F) (S : GoSort) {X : List Sl} {ohe : MDense} {n c : Nat} {B : TrainBufs} (O : Options F)
    {lf : Option MLoss} (hlf : O.loss.map LossVal.fn = lf.map MLoss.fn) (h : BufsOk m X ohe n c B)
    {st : MTrainState F} {st' : TrainState F} (hst : MStRel B m st st') (round : Nat) :
    Sim B.wF B.wI m (mTrainRound exp S X O lf ohe c st round) (trainRound (softMaxDense exp) S (rowsOf m X) O (ohe.rep m) c st' round) (MStRel B) := by
  unfold mTrainRound trainRound
  rw [hst.draws]
  refine Sim.bindSub (W0 := fun _ => False) (V0 := fun _ => False) (mRoundSamples_sim h.rows O st'.draws) (fun _ h => h.elim) (fun _ h => h.elim)
    fun m1 a b f1 hab _ => ?_
  obtain ⟨a1, a2⟩ := a
  obtain ⟨b1, b2⟩ := b
  obtain ⟨q1, q2, q3, q4, q5⟩ := hab
  simp only at q1 q2 q3 q4
  subst q4
  have hst1 := hst.later h f1
  have hst2 : MStRel B m1 { st with draws := a2.2 } { st' with draws := a2.2 } := by
    obtain ⟨a1, a2, a3, a4, a5, a6, a7, a8, a9, a10, a11, a12, a13, a14, a15⟩ := hst1
    exact ⟨a1, a2, a3, a4, a5, a6, a7, a8, a9, a10, a11, a12, a13, a14, rfl⟩
  simp only [q3]
  split
  · exact Sim.pure hst2
  · have hl := mClassLoop_sim exp S O hlf a2.1 round (rowsOf m X) (ohe.rep m) b1 (List.range c) (h.kept f1) (indexes := a1)
      (fun s hs => ⟨(q1 s hs).1, by have := (q1 s hs).2; have := h.tin.arr; omega⟩) (rowsOf_kept h.rows f1 (fun _ _ h => h))
      (MDense.rep_kept h.oheok f1 id) q2 (fun k hk => List.mem_range.1 hk) (acc := ({ st with draws := a2.2 }, []))
      (acc' := ({ st' with draws := a2.2 }, [])) hst2 ⟨rfl, fun _ h => by cases h⟩
    refine Sim.bind' hl fun m2 x y f2 hxy _ => ?_
    obtain ⟨⟨a1, a2, a3, a4, a5, a6, a7, a8, a9, a10, a11, a12, a13, a14, a15⟩, ht⟩ := hxy
    refine Sim.pure ⟨a1, a2, a3, a4, a5, a6, a7, a8, a9, a10, a11, a12, a13, ⟨?_, fun ts hts => ?_⟩, a15⟩
    · rw [List.map_append, a14.1, List.map_cons, List.map_nil, ht.1]
    · rcases List.mem_append.1 hts with hts | hts
      · exact a14.2 ts hts
      · rw [List.mem_singleton.1 hts]
        exact ht.2

theorem mRoundLoop_sim (exp : F → F) (S : GoSort) {X : List Sl} {ohe : MDense} {n c : Nat} {B : TrainBufs} (O : Options F)
    {lf : Option MLoss} (hlf : O.loss.map LossVal.fn = lf.map MLoss.fn) (Xl : List (List F)) (ol : Dense F) :
    ∀ (rs : List Nat) {m : Mem F} (_ : BufsOk m X ohe n c B) (_ : rowsOf m X = Xl) (_ : ohe.rep m = ol)
      {st : MTrainState F} {st' : TrainState F} (_ : MStRel B m st st'),
    Sim B.wF B.wI m (mRoundLoop exp S X O lf ohe c rs st) (rs.foldlM (trainRound (softMaxDense exp) S Xl O ol c) st') (MStRel B)
  | [], m, _, _, _, st, st', hst => Sim.pure hst
  | r :: rs, m, h, hX, ho, st, st', hst => by
    unfold mRoundLoop
    rw [List.foldlM_cons]
    have := mTrainRound_sim exp S O hlf h hst r
    rw [hX, ho] at this
    refine Sim.bind' this fun m' a b f hab _ => ?_
    refine mRoundLoop_sim exp S O hlf Xl ol rs (h.kept f) ?_ ?_ hab
    · rw [rowsOf_kept h.rows f h.rowsa, hX]
    · rw [MDense.rep_kept h.oheok f h.ohea, ho]

/-! ### `NewMultiClass` -/

/-- the model on lists that a model on the memory represents -/
def MModel.rep (exp : F → F) (m : Mem F) (M : MModel F) : MultiClass F :=
  { b := M.b.map fun ts => ts.map (MTree.rep m), learningRate := M.learningRate, probTransform := some (softMaxDense exp),
    classLabels := M.classLabels.view m.lb, baseScore := M.baseScore, xgb := M.xgb }

/-- the data on lists -/
def MData.rep (m : Mem F) (D : MData) (keys : List (List Char)) : DataBunch F :=
  { data := rowsOf m D.data, labels := D.labels.view m.lb, keys := keys }

/-- what training returns: a model that represents the one on lists, whose slices are not those of the caller -/
structure ModelRel (exp : F → F) (m m' : Mem F) (M : MModel F) (N : MultiClass F) : Prop where
  rep : M.rep exp m' = N
  trees : ∀ ts ∈ M.b, ∀ t ∈ ts, t.Ok m' (fun _ => False)
  labels : M.classLabels.Ok m'.lb
  new : m.lb.length ≤ M.classLabels.arr

theorem mNewMultiClass_sim (exp : F → F) (S : GoSort) (draws : Nat → F) {D : MData} (hX : ∀ s ∈ D.data, s.Ok m.fl) (O : Options F)
    {lf : Option MLoss} (hlf : O.loss.map LossVal.fn = lf.map MLoss.fn) (keys : List (List Char)) :
    Sim (fun _ => False) (fun _ => False) m (mNewMultiClass exp S draws D O lf) (newMultiClass exp S draws (D.rep m keys) O) (ModelRel exp m) := by
  unfold mNewMultiClass newMultiClass train trainWith
  show Sim _ _ m (rdL D.labels >>= _) ((oneHotEncodeDense (D.labels.view m.lb) >>= _) >>= _) _
  refine Sim.rdL ?_
  by_cases hne : D.labels.view m.lb = []
  · rw [hne, C39_empty]
    exact ⟨Frame.refl, rfl⟩
  obtain ⟨oh, e0, er, ec, el, _⟩ := C39_matrix (F := F) (D.labels.view m.lb) hne
  rw [e0]
  set labs := distinctElements (D.labels.view m.lb) with hlabs
  have hr : 0 < oh.r := by rw [er]; exact List.length_pos_iff.2 hne
  have hc : 0 < oh.c := by
    rw [ec]
    obtain ⟨x, l, hx⟩ := List.exists_cons_of_ne_nil hne
    exact List.length_pos_of_mem (((C39_distinct (D.labels.view m.lb)).2.1 x).2 (by rw [hx]; exact List.mem_cons_self ..))
  have hrc : ¬ (oh.r = 0 ∨ oh.c = 0 ∨ (List.replicate (oh.r * oh.c) (zero : F)).length ≠ oh.r * oh.c) := by
    rw [List.length_replicate]
    rintro (h | h | h)
    · omega
    · omega
    · exact h rfl
  -- the pure side
  simp only [okBind, trainInit, newDense, if_neg hrc, ← ec]
  -- the allocations
  have sW : ∀ a < m.fl.length, (fun a => m.fl.length ≤ a) a → (fun _ : Nat => False) a := fun a h1 h2 => absurd h1 (Nat.not_lt.2 h2)
  have sV : ∀ a < m.ix.length, (fun a => m.ix.length ≤ a) a → (fun _ : Nat => False) a := fun a h1 h2 => absurd h1 (Nat.not_lt.2 h2)
  refine Sim.step (W' := fun a => m.fl.length ≤ a) (V' := fun a => m.ix.length ≤ a) (a := (oh, labs)) (m' := m) rfl Frame.refl sW sV ?_
  set m1 := m.addL labs with hm1
  refine Sim.step (a := ⟨m.lb.length, 0, labs.length⟩) (m' := m1) rfl (frame_addL labs) (fun _ _ h => h) (fun _ _ h => h) ?_
  set m2 := m1.addF oh.data with hm2
  refine Sim.step (a := ⟨m.fl.length, 0, oh.data.length⟩) (m' := m2) rfl (frame_addF oh.data) (fun _ _ h => h) (fun _ _ h => h) ?_
  have fod := freshF_addF m1 oh.data
  simp only
  unfold mNewDense
  rw [if_neg hrc]
  set raw : MDense := ⟨oh.r, oh.c, ⟨m2.fl.length, 0, (List.replicate (oh.r * oh.c) (zero : F)).length⟩⟩ with hraw
  set m3 := m2.addF (List.replicate (oh.r * oh.c) zero) with hm3
  have f23 : Frame (fun _ => False) (fun _ => False) m2 m3 := frame_addF _
  refine Sim.step (a := raw) (m' := m3) rfl (frame_addF _) (fun _ _ h => h) (fun _ _ h => h) ?_
  have fraw : FreshF m2 m3 raw.data (List.replicate (oh.r * oh.c) zero) := freshF_addF m2 _
  have l2 : m2.fl.length = m.fl.length + 1 := by simp [hm2, hm1, Mem.addF, Mem.addL]
  have newraw : m.fl.length ≤ raw.data.arr := by show m.fl.length ≤ m2.fl.length; omega
  obtain ⟨m4, e4, o4, v4⟩ := mMapInPlace_run (m := m3) fraw.ok fun _ => one
  refine Sim.step e4 (o4.frame.mono (fun a _ h => h ▸ newraw) (fun _ _ h => h.elim)) (fun _ _ h => h) (fun _ _ h => h) ?_
  obtain ⟨m5, e5, o5, v5⟩ := mMapInPlace_run (m := m4) (fraw.ok.kept o4.frame.fl) fun v => O.baseScore *. v
  refine Sim.step e5 (o5.frame.mono (fun a _ h => h ▸ newraw) (fun _ _ h => h.elim)) (fun _ _ h => h) (fun _ _ h => h) ?_
  have o35 := o4.trans o5
  have rawok5 : raw.Ok m5 := ⟨fraw.ok.kept o35.frame.fl, List.length_replicate⟩
  rw [v4, fraw.view] at v5
  -- the buffers of the sorting
  set tin : Sl := ⟨m5.ix.length, 0, (List.replicate D.data.length 0).length⟩ with htin
  set m6 := m5.addI (List.replicate D.data.length 0) with hm6
  have f56 : Frame (fun _ => False) (fun _ => False) m5 m6 := frame_addI _
  refine Sim.step (a := tin) (m' := m6) rfl (frame_addI _) (fun _ _ h => h) (fun _ _ h => h) ?_
  have ftin : FreshI m5 m6 tin (List.replicate D.data.length 0) := freshI_addI m5 _
  set tval : Sl := ⟨m6.fl.length, 0, (List.replicate D.data.length (zero : F)).length⟩ with htval
  set m7 := m6.addF (List.replicate D.data.length zero) with hm7
  have f67 : Frame (fun _ => False) (fun _ => False) m6 m7 := frame_addF _
  refine Sim.step (a := tval) (m' := m7) rfl (frame_addF _) (fun _ _ h => h) (fun _ _ h => h) ?_
  have ftval : FreshF m6 m7 tval (List.replicate D.data.length zero) := freshF_addF m6 _
  -- the probabilities
  have rawok7 : raw.Ok m7 := (rawok5.kept f56).kept f67
  have rawrep : raw.rep m7 = (toOnes ⟨oh.r, oh.c, List.replicate (oh.r * oh.c) zero⟩).scale O.baseScore := by
    rw [MDense.rep_kept (rawok5.kept f56) f67 id, MDense.rep_kept rawok5 f56 id]
    show (⟨oh.r, oh.c, raw.data.view m5.fl⟩ : Dense F) = _
    rw [v5]
    rfl
  obtain ⟨probs, m8, p1, p2, p3, p4, p5, p6, p7, p8⟩ := mSoftMaxDense_new (m := m7) exp rawok7
  rw [← rawrep, p1, okBind]
  refine Sim.step p2 (p3.mono (fun _ _ h => h.elim) (fun _ _ h => h.elim)) (fun _ _ h => h) (fun _ _ h => h) ?_
  -- the other buffers
  set grads : Sl := ⟨m8.fl.length, 0, (List.replicate oh.r (zero : F)).length⟩ with hgrads
  set m9 := m8.addF (List.replicate oh.r zero) with hm9
  have f89 : Frame (fun _ => False) (fun _ => False) m8 m9 := frame_addF _
  refine Sim.step (a := grads) (m' := m9) rfl (frame_addF _) (fun _ _ h => h) (fun _ _ h => h) ?_
  have fgrads : FreshF m8 m9 grads (List.replicate oh.r zero) := freshF_addF m8 _
  set tmpPreds : Sl := ⟨m9.fl.length, 0, (List.replicate oh.r (zero : F)).length⟩ with htmpPreds
  set m10 := m9.addF (List.replicate oh.r zero) with hm10
  have f910 : Frame (fun _ => False) (fun _ => False) m9 m10 := frame_addF _
  refine Sim.step (a := tmpPreds) (m' := m10) rfl (frame_addF _) (fun _ _ h => h) (fun _ _ h => h) ?_
  have ftmp : FreshF m9 m10 tmpPreds (List.replicate oh.r zero) := freshF_addF m9 _
  set tmploss : Sl := ⟨m10.fl.length, 0, (List.replicate oh.r (zero : F)).length⟩ with htmploss
  set m11 := m10.addF (List.replicate oh.r zero) with hm11
  have f1011 : Frame (fun _ => False) (fun _ => False) m10 m11 := frame_addF _
  refine Sim.step (a := tmploss) (m' := m11) rfl (frame_addF _) (fun _ _ h => h) (fun _ _ h => h) ?_
  have floss : FreshF m10 m11 tmploss (List.replicate oh.r zero) := freshF_addF m10 _
  -- frames
  have f811 : Frame (fun _ => False) (fun _ => False) m8 m11 :=
    (f89.trans f910 (fun _ _ h => h) (fun _ _ h => h)).trans f1011 (fun _ _ h => h) (fun _ _ h => h)
  have f711 : Frame (fun _ => False) (fun _ => False) m7 m11 := p3.trans f811 (fun _ _ h => h) (fun _ _ h => h)
  have f611 : Frame (fun _ => False) (fun _ => False) m6 m11 := f67.trans f711 (fun _ _ h => h) (fun _ _ h => h)
  have f511 : Frame (fun _ => False) (fun _ => False) m5 m11 := f56.trans f611 (fun _ _ h => h) (fun _ _ h => h)
  have f02 : Frame (fun _ => False) (fun _ => False) m m2 := (frame_addL labs).trans (frame_addF oh.data) (fun _ _ h => h) (fun _ _ h => h)
  have f211 : Frame (fun a => a = raw.data.arr) (fun _ => False) m2 m11 :=
    ((f23.mono (fun _ _ h => h.elim) (fun _ _ h => h)).trans o35.frame (fun _ _ h => h) (fun _ _ h => h)).trans f511 (fun _ _ h => h.elim) (fun _ _ h => h)
  -- lengths of the memory
  have l3 : m3.fl.length = m2.fl.length + 1 := by simp [hm3, Mem.addF]
  have l5 : m3.fl.length ≤ m5.fl.length := o35.frame.fl.1
  have l6 : m6.fl.length = m5.fl.length := rfl
  have l7 : m7.fl.length = m6.fl.length + 1 := by simp [hm7, Mem.addF]
  have l8 : m7.fl.length ≤ m8.fl.length := p3.fl.1
  have l9 : m9.fl.length = m8.fl.length + 1 := by simp [hm9, Mem.addF]
  have l10 : m10.fl.length = m9.fl.length + 1 := by simp [hm10, Mem.addF]
  have p5a := p5.ok.arr
  have ra : raw.data.arr = m2.fl.length := rfl
  have ta : tval.arr = m6.fl.length := rfl
  have ga : grads.arr = m8.fl.length := rfl
  have pa : tmpPreds.arr = m9.fl.length := rfl
  have la : tmploss.arr = m10.fl.length := rfl
  set ohe : MDense := ⟨oh.r, oh.c, ⟨m.fl.length, 0, oh.data.length⟩⟩ with hohe
  have oa : ohe.data.arr = m.fl.length := rfl
  set B : TrainBufs := ⟨raw, probs, grads, tmpPreds, tmploss, tin, tval⟩ with hB
  have rarr : B.arrs = [raw.data.arr, probs.data.arr, grads.arr, tmpPreds.arr, tmploss.arr, tval.arr] := rfl
  have notin : ∀ a, a ≤ m.fl.length → a ∉ B.arrs := by
    intro a ha h
    simp only [rarr, List.mem_cons, List.not_mem_nil, or_false] at h
    omega
  have oheok2 : ohe.Ok m2 := ⟨fod.ok, el⟩
  have hb : BufsOk m11 D.data ohe oh.r oh.c B :=
    { pos := hr
      raw := rawok5.kept f511
      rawr := rfl
      rawc := rfl
      probs := p5.kept f811
      probsr := p6
      probsc := p7
      grads := (fgrads.ok.kept f910.fl).kept f1011.fl
      gradsl := List.length_replicate
      tmpPreds := ftmp.ok.kept f1011.fl
      tmpPredsl := List.length_replicate
      tmploss := floss.ok
      tmplossl := List.length_replicate
      tin := ftin.ok.kept f611.ix
      tinl := List.length_replicate
      tval := ftval.ok.kept f711.fl
      tvall := List.length_replicate
      nodup := by
        simp only [rarr, List.nodup_cons, List.mem_cons, List.not_mem_nil, or_false, not_or, not_false_eq_true, List.nodup_nil, and_true]
        omega
      rows := fun s hs => ((hX s hs).kept f02.fl).kept f211.fl
      rowsa := fun s hs => notin _ (le_of_lt (hX s hs).arr)
      oheok := oheok2.kept f211
      oher := rfl
      ohec := rfl
      ohea := notin _ (le_of_eq oa) }
  have orep : ohe.rep m11 = oh := by
    rw [MDense.rep_kept oheok2 f211 (by rw [oa, ra]; omega)]
    show (⟨oh.r, oh.c, _⟩ : Dense F) = oh
    rw [show ohe.data.view m2.fl = oh.data from fod.view]
  have xrep : rowsOf m11 D.data = rowsOf m D.data := by
    rw [rowsOf_kept (fun s hs => (hX s hs).kept f02.fl) f211 (fun s hs e => by have := (hX s hs).arr; omega), rowsOf_kept hX f02 (fun _ _ h => h)]
  have hst : MStRel B m11
      { rawPred := raw, probs := probs, grads := grads, tmpPreds := tmpPreds, tmploss := tmploss, tin := tin, tval := tval,
        stopped := List.replicate oh.c false, noProgress := List.replicate oh.c 0, prevloss := List.replicate oh.c zero,
        boosters := [], draws := draws }
      { rawPred := raw.rep m7, probs := probs.rep m8, tmpPreds := List.replicate oh.r zero,
        stopped := List.replicate oh.c false, noProgress := List.replicate oh.c 0,
        prevloss := List.replicate oh.c zero, boosters := [], draws := draws } :=
    ⟨rfl, rfl, rfl, rfl, rfl, rfl, rfl, MDense.rep_kept rawok7 f711 id, MDense.rep_kept p5 f811 id,
      by rw [Sl.view_kept ftmp.ok f1011.fl id]; exact ftmp.view, rfl, rfl, rfl, ⟨rfl, fun _ h => by cases h⟩, rfl⟩
  have hloop := mRoundLoop_sim exp S O.fixMcw (lf := lf) (by rw [(O.fixMcw_lr).2.2.2.2.2.2.2.2.1]; exact hlf) (rowsOf m D.data) oh
    (List.range O.rounds.toNat) hb xrep orep hst
  have l11 : labs.length = oh.c := ec.symm
  simp only [l11]
  have wix : ∀ a, B.wI a → m.ix.length ≤ a := by
    intro a ha
    rw [show a = m5.ix.length from ha, o5.ix, o4.ix]
    exact le_refl _
  have wfl : ∀ a, B.wF a → m.fl.length ≤ a := by
    intro a ha
    by_contra hlt
    exact notin a (by omega) ha
  simp only [bind_assoc, pure_bind]
  refine Sim.bindSub hloop wfl wix fun m12 st st' f12 hs _ => ?_
  have f12' : Frame (fun a => a = raw.data.arr) (fun _ => False) m1 m11 := (frame_addF oh.data).trans f211 (fun _ _ h => h) (fun _ _ h => h)
  have lok : (⟨m.lb.length, 0, labs.length⟩ : Sl).Ok m1.lb := Sl.ok_new _ _
  have lview : (⟨m.lb.length, 0, labs.length⟩ : Sl).view m12.lb = labs := by
    rw [Sl.view_kept (lok.kept f12'.lb) f12.lb id, Sl.view_kept lok f12'.lb id]
    exact Sl.view_new _ _
  rw [l11] at lok lview
  refine Sim.pure ⟨?_, fun ts hts t ht => (hs.boosters.2 ts hts t ht).mono (fun _ h => h.elim), (lok.kept f12'.lb).kept f12.lb, le_refl _⟩
  unfold MModel.rep toModel
  simp only
  rw [lview, hs.boosters.1]

/-! ### predictions -/

theorem mAddRound_sim (lr : F) {inst tmp : Sl} (il : List F) (hne : inst.arr ≠ tmp.arr) :
    ∀ (ts : List (MTree F)) (ts' : List (Tree F)) (c : Nat) {m : Mem F} (tl : List F) (_ : inst.Ok m.fl) (_ : tmp.Ok m.fl) (_ : inst.view m.fl = il)
      (_ : tmp.view m.fl = tl) (_ : List.Forall₂ (fun t t' => ∀ row, MTree.predictSingle t row = Tree.predictSingle t' row) ts ts'),
    Sim (fun a => a = tmp.arr) (fun _ => False) m (mAddRound lr inst tmp ts c) (addRound lr il ts' c tl) (fun m' _ b => tmp.view m'.fl = b)
  | [], _, c, m, tl, hi, ht, vi, vt, .nil => Sim.pure vt
  | t :: ts, t' :: ts', c, m, tl, hi, ht, vi, vt, .cons hp hps => by
    unfold mAddRound addRound
    refine Sim.rdF ?_
    rw [vi, hp]
    refine Sim.lift fun p _ => ?_
    cases hx : tl[c]? with
    | none =>
      have e1 : addAt tl c (p *. lr) = .error .index := by
        unfold addAt
        rw [hx]
      have e2 : atF tmp c m = (.error .index, m) := by
        show (goIdx (tmp.view m.fl) c, m) = _
        unfold goIdx
        rw [vt, hx]
      unfold Sim
      rw [run_err e2, e1]
      exact ⟨Frame.refl, rfl⟩
    | some x =>
      have e1 : addAt tl c (p *. lr) = .ok (tl.set c (x +. p *. lr)) := by
        unfold addAt
        rw [hx]
      have hc : c < tmp.len := by
        rw [← Sl.view_length ht, vt]
        exact (List.getElem?_eq_some_iff.1 hx).1
      obtain ⟨m', q1, q2, q3, q4, q5⟩ := setF_run ht hc (x +. p *. lr)
      rw [e1, okBind]
      refine Sim.step (atF_run (vt ▸ hx)) Frame.refl (fun _ _ h => h) (fun _ _ h => h) ?_
      refine Sim.step q1 q2 (fun _ _ h => h) (fun _ _ h => h) ?_
      exact mAddRound_sim lr il hne ts ts' (c + 1) _ (hi.kept q2.fl) (ht.kept q2.fl) (by rw [Sl.view_kept hi q2.fl hne, vi]) (by rw [q3, vt]) hps

theorem mAddRounds_sim (lr : F) {inst tmp : Sl} (il : List F) (hne : inst.arr ≠ tmp.arr) :
    ∀ (b : List (List (MTree F))) (b' : List (List (Tree F))) {m : Mem F} (tl : List F) (_ : inst.Ok m.fl) (_ : tmp.Ok m.fl) (_ : inst.view m.fl = il)
      (_ : tmp.view m.fl = tl) (_ : List.Forall₂ (List.Forall₂ fun t t' => ∀ row, MTree.predictSingle t row = Tree.predictSingle t' row) b b'),
    Sim (fun a => a = tmp.arr) (fun _ => False) m (mAddRounds lr inst tmp b) (b'.foldlM (fun tmp ens => addRound lr il ens 0 tmp) tl)
      (fun m' _ b => tmp.view m'.fl = b)
  | [], _, m, tl, hi, ht, vi, vt, .nil => Sim.pure vt
  | ts :: b, ts' :: b', m, tl, hi, ht, vi, vt, .cons hp hps => by
    unfold mAddRounds
    rw [List.foldlM_cons]
    refine Sim.bind' (mAddRound_sim lr il hne ts ts' 0 tl hi ht vi vt hp) fun m' _ l f hl _ => ?_
    exact mAddRounds_sim lr il hne b b' l (hi.kept f.fl) (ht.kept f.fl) (by rw [Sl.view_kept hi f.fl hne, vi]) hl hps

theorem rep_forall₂ (m : Mem F) (b : List (List (MTree F))) :
    List.Forall₂ (List.Forall₂ fun t t' => ∀ row, MTree.predictSingle t row = Tree.predictSingle t' row) b (b.map fun ts => ts.map (MTree.rep m)) := by
  rw [List.forall₂_map_right_iff]
  refine List.forall₂_same.2 fun ts _ => ?_
  rw [List.forall₂_map_right_iff]
  exact List.forall₂_same.2 fun t _ row => (MTree.rep_predictSingle m t row).symm

theorem mPredictSingle_sim (exp : F → F) (M : MModel F) {inst : Sl} (hi : inst.Ok m.fl) (m0 : Mem F) :
    Sim (fun _ => False) (fun _ => False) m (mPredictSingle exp M inst) ((M.rep exp m0).predictSingle (inst.view m.fl))
      (fun m' s l => FreshF m m' s l) := by
  unfold mPredictSingle MultiClass.predictSingle MultiClass.rawScores
  show Sim _ _ m _ ((goIdx (M.b.map fun ts => ts.map (MTree.rep m0)) 0 >>= _) >>= _) _
  cases hb : M.b with
  | nil => exact ⟨Frame.refl, rfl⟩
  | cons b0 bs =>
    rw [← hb]
    have hl : ((b0.map (MTree.rep m0)).length) = b0.length := List.length_map ..
    rw [show goIdx (M.b.map fun ts => ts.map (MTree.rep m0)) 0 = .ok (b0.map (MTree.rep m0)) by rw [hb]; rfl, okBind, hl]
    refine Sim.step (W' := fun a => m.fl.length ≤ a) (V' := fun _ => False) (a := b0) (m' := m) (by rw [hb]; rfl) Frame.refl
      (fun a h1 h2 => absurd h1 (Nat.not_lt.2 h2)) (fun _ _ h => h) ?_
    set preds : Sl := ⟨m.fl.length, 0, (List.replicate b0.length (zero : F)).length⟩ with hpreds
    set m1 := m.addF (List.replicate b0.length zero) with hm1
    have f01 : Frame (fun _ => False) (fun _ => False) m m1 := frame_addF _
    have fpreds : FreshF m m1 preds (List.replicate b0.length zero) := freshF_addF m _
    refine Sim.step (a := preds) (m' := m1) rfl (frame_addF _) (fun _ _ h => h) (fun _ _ h => h) ?_
    set tmp : Sl := ⟨m1.fl.length, 0, (List.replicate b0.length M.baseScore).length⟩ with htmp
    set m2 := m1.addF (List.replicate b0.length M.baseScore) with hm2
    have f12 : Frame (fun _ => False) (fun _ => False) m1 m2 := frame_addF _
    have ftmp : FreshF m1 m2 tmp (List.replicate b0.length M.baseScore) := freshF_addF m1 _
    refine Sim.step (a := tmp) (m' := m2) rfl (frame_addF _) (fun _ _ h => h) (fun _ _ h => h) ?_
    have l1 : m1.fl.length = m.fl.length + 1 := by simp [hm1, Mem.addF]
    have ia := hi.arr
    have hadd := mAddRounds_sim M.learningRate (inst := inst) (tmp := tmp) (m := m2) (inst.view m.fl) (by show inst.arr ≠ m1.fl.length; omega) M.b
      (M.b.map fun ts => ts.map (MTree.rep m0)) (List.replicate b0.length M.baseScore) ((hi.kept f01.fl).kept f12.fl) ftmp.ok
      (by rw [Sl.view_kept (hi.kept f01.fl) f12.fl id, Sl.view_kept hi f01.fl id]) ftmp.view (rep_forall₂ m0 M.b)
    have tlen : tmp.len = b0.length := List.length_replicate
    have plen : preds.len = b0.length := List.length_replicate
    refine Sim.bindSub hadd (fun a h => by rw [h]; show m.fl.length ≤ m1.fl.length; omega) (fun _ h => h) fun m3 _ l f23 hl3 _ => ?_
    have ll : l.length = b0.length := by
      rw [← hl3, Sl.view_length (ftmp.ok.kept f23.fl), tlen]
    unfold newDense
    rw [ll, List.length_map, ll]
    by_cases h0 : b0.length = 0
    · rw [if_pos h0, if_pos (Or.inr (Or.inl h0))]
      exact Sim.error
    · rw [if_neg h0, if_neg (by simp [h0])]
      have pv3 : preds.view m3.fl = List.replicate b0.length zero := by
        rw [Sl.view_kept ((fpreds.ok.kept f12.fl)) f23.fl (by show ¬ m.fl.length = m1.fl.length; omega), Sl.view_kept fpreds.ok f12.fl id, fpreds.view]
      have pok : MDense.Ok m3 ⟨1, b0.length, preds⟩ := ⟨(fpreds.ok.kept f12.fl).kept f23.fl, by rw [plen, Nat.one_mul]⟩
      have tok : MDense.Ok m3 ⟨1, b0.length, tmp⟩ := ⟨ftmp.ok.kept f23.fl, by rw [tlen, Nat.one_mul]⟩
      obtain ⟨m4, q1, q2, q3⟩ := mSoftMaxDense_run (m := m3) exp tok pok rfl rfl (by show m1.fl.length ≠ m.fl.length; omega)
      have r1 : MDense.rep m3 ⟨1, b0.length, tmp⟩ = ⟨1, b0.length, l⟩ := by
        show (⟨1, b0.length, tmp.view m3.fl⟩ : Dense F) = _
        rw [hl3]
      have r2 : MDense.rep m3 ⟨1, b0.length, preds⟩ = ⟨1, b0.length, l.map fun _ => zero⟩ := by
        show (⟨1, b0.length, preds.view m3.fl⟩ : Dense F) = _
        rw [pv3, ← ll, List.map_const']
      rw [r1, r2] at q1
      rw [tlen, plen]
      simp only [okBind]
      rw [if_neg (by simp [h0]), okBind]
      show Sim _ _ m3 _ (softMaxDense exp ⟨1, b0.length, l⟩ (some ⟨1, b0.length, l.map fun _ => zero⟩) >>= _) _
      rw [q1, okBind]
      refine Sim.step q2 (q3.frame.mono (fun a _ h => by rw [h]) (fun _ _ h => h)) (fun _ _ h => h) (fun _ _ h => h) ?_
      have pok4 := pok.kept q3.frame
      exact Sim.pure ⟨pok4.ok, rfl, (Sl.view_length pok4.ok).symm, le_refl _⟩

theorem mPredictSingleClass_sim (exp : F → F) (M : MModel F) {inst : Sl} (hi : inst.Ok m.fl) (m0 : Mem F) :
    Sim (fun _ => False) (fun _ => False) m (mPredictSingleClass exp M inst) ((M.rep exp m0).predictSingleClass (inst.view m.fl))
      (fun _ a b => a = b) := by
  unfold mPredictSingleClass MultiClass.predictSingleClass
  refine Sim.bind' (mPredictSingle_sim exp M hi m0) fun m' s l f hs _ => ?_
  refine Sim.rdF ?_
  rw [hs.view]
  cases argmaxFirst l with
  | error e => exact Sim.error
  | ok a => exact ⟨Frame.refl, rfl⟩

theorem mCountRight_sim (exp : F → F) (M : MModel F) (m0 : Mem F) {labels : Sl} (ll : List Int) (cl : List Int) (hcl : (M.rep exp m0).classLabels = cl) :
    ∀ (X : List Sl) (Xl : List (List F)) (i right : Nat) {m : Mem F} (_ : ∀ s ∈ X, s.Ok m.fl) (_ : labels.Ok m.lb) (_ : labels.view m.lb = ll)
      (_ : M.classLabels.Ok m.lb) (_ : M.classLabels.view m.lb = cl) (_ : rowsOf m X = Xl),
    Sim (fun _ => False) (fun _ => False) m (mCountRight exp M labels X i right) ((M.rep exp m0).countRight ll Xl i right) (fun _ a b => a = b)
  | [], _, i, right, m, _, _, _, _, _, rfl => Sim.pure rfl
  | s :: X, _, i, right, m, hX, hl, vl, hc, vc, rfl => by
    unfold mCountRight
    show Sim _ _ m _ ((M.rep exp m0).countRight ll (s.view m.fl :: rowsOf m X) i right) _
    unfold MultiClass.countRight
    refine Sim.bind' (mPredictSingleClass_sim exp M (hX s (List.mem_cons_self ..)) m0) fun m' p p' f hp _ => ?_
    subst hp
    refine Sim.rdL ?_
    rw [Sl.view_kept hc f.lb id, vc, hcl]
    refine Sim.lift fun lab _ => ?_
    refine Sim.rdL ?_
    rw [Sl.view_kept hl f.lb id, vl]
    refine Sim.lift fun actual _ => ?_
    have hX' : ∀ s ∈ X, s.Ok m.fl := fun s hs => hX s (List.mem_cons_of_mem _ hs)
    exact mCountRight_sim exp M m0 ll cl hcl X _ (i + 1) _ (fun s hs => (hX' s hs).kept f.fl) (hl.kept f.lb)
      (by rw [Sl.view_kept hl f.lb id, vl]) (hc.kept f.lb) (by rw [Sl.view_kept hc f.lb id, vc]) (rowsOf_kept hX' f (fun _ _ h => h))

theorem mAccuracy_sim (exp : F → F) (M : MModel F) {D : MData} (hX : ∀ s ∈ D.data, s.Ok m.fl) (hl : D.labels.Ok m.lb) (hc : M.classLabels.Ok m.lb)
    (m0 : Mem F) (h0 : M.classLabels.view m.lb = M.classLabels.view m0.lb) (keys : List (List Char)) :
    Sim (fun _ => False) (fun _ => False) m (mAccuracy exp M D) ((M.rep exp m0).accuracy (D.rep m keys)) (fun _ a b => a = b) := by
  unfold mAccuracy MultiClass.accuracy
  refine Sim.bind' (mCountRight_sim exp M m0 _ _ rfl D.data _ 0 0 hX hl rfl hc h0 rfl) fun m' a b f h _ => ?_
  subst h
  refine Sim.pure ?_
  show _ = ofRat 100 *. (ofInt (a : Int) /. ofInt ((rowsOf m D.data).length : Int))
  rw [show (rowsOf m D.data).length = D.data.length from List.length_map ..]

end Boo
