import Verif.Model.MemCV
import Verif.Lemmas.MemModel

/-!
# Lemmas: cross-validation with a memory
-/

namespace Boo
open GoFloat
variable {F : Type} [GoFloat F] {m : Mem F}

/-- how the rows of a sample lie in the memory: copies are in new arrays with consecutive numbers from `n`, the others are the rows themselves -/
def FillPlace (ori : List Sl) (docopy : Bool) (n : Nat) (toadd : List Nat) (rows rows' : List Sl) : Prop :=
  if docopy then rows'.map Sl.arr = rows.map Sl.arr ++ List.range' n toadd.length
  else rows'.map some = rows.map some ++ toadd.map (ori[·]?)

theorem goIdx_map {α β : Type} (f : α → β) (l : List α) (i : Nat) : goIdx (l.map f) i = (goIdx l i).map f := by
  unfold goIdx
  rw [List.getElem?_map]
  cases l[i]? <;> rfl

theorem goIdx_some {α : Type} {l : List α} {i : Nat} {a : α} (h : goIdx l i = .ok a) : l[i]? = some a := by
  unfold goIdx at h
  cases hl : l[i]? with
  | none => rw [hl] at h; cases h
  | some b => rw [hl] at h; cases h; rfl

theorem rowsOf_later {X : List Sl} {m' : Mem F} {V : Nat → Prop} (h : ∀ s ∈ X, s.Ok m.fl) (hf : Frame (fun _ => False) V m m') : rowsOf m' X = rowsOf m X :=
  List.map_congr_left fun s hs => Sl.view_kept (h s hs) hf.fl id

theorem mFillRows_sim (ori : MData) (docopy : Bool) (keys : List (List Char)) (Xl : List (List F)) (ll : List Int) :
    ∀ (toadd : List Nat) {m : Mem F} (rows : List Sl) (labs : List Int) (dest : DataBunch F) (_ : ∀ s ∈ ori.data, s.Ok m.fl) (_ : rowsOf m ori.data = Xl)
      (_ : ori.labels.view m.lb = ll) (_ : ∀ s ∈ rows, s.Ok m.fl) (_ : dest.data = rowsOf m rows) (_ : dest.labels = labs),
    Sim (fun _ => False) (fun _ => False) m (mFillRows ori docopy toadd rows labs) (fillRows ⟨Xl, keys, ll, []⟩ toadd dest)
      (fun m' a b => (∀ s ∈ a.1, s.Ok m'.fl) ∧ b = ⟨rowsOf m' a.1, dest.keys, a.2, dest.floatLabels⟩ ∧ m'.lb = m.lb ∧
        FillPlace ori.data docopy m.fl.length toadd rows a.1 ∧ (docopy = true → m'.fl.length = m.fl.length + toadd.length))
  | [], m, rows, labs, ⟨d, k, l, fl⟩, _, _, _, hr, h1, h2 => by
    simp only at h1 h2
    subst h1
    subst h2
    refine Sim.pure ⟨hr, rfl, rfl, ?_, fun _ => rfl⟩
    unfold FillPlace
    cases docopy <;> simp
  | v :: toadd, m, rows, labs, ⟨d, k, l, fl⟩, hX, hXl, hll, hr, h1, h2 => by
    simp only at h1 h2
    subst h1
    subst h2
    unfold mFillRows fillRows
    simp only
    rw [← hXl]
    show Sim _ _ m _ (goIdx (ori.data.map fun s => s.view m.fl) v >>= _) _
    rw [goIdx_map]
    cases hv : goIdx ori.data v with
    | error e => exact ⟨Frame.refl, rfl⟩
    | ok r =>
      have hrm := goIdx_some hv
      have hrok : r.Ok m.fl := hX r (List.mem_of_getElem? hrm)
      refine Sim.step (m' := m) (a := r) rfl Frame.refl (W' := fun _ => False) (V' := fun _ => False) (fun _ _ h => h) (fun _ _ h => h) ?_
      show Sim _ _ m _ (match ll[v]? with | some lab => _ | none => _) _
      cases docopy with
      | true =>
        rw [if_pos rfl]
        refine Sim.step (m' := m.addF (r.view m.fl)) (a := ⟨m.fl.length, 0, (r.view m.fl).length⟩) rfl (frame_addF _)
          (W' := fun _ => False) (V' := fun _ => False) (fun _ _ h => h) (fun _ _ h => h) ?_
        have hfr : Frame (fun _ => False) (fun _ => False) m (m.addF (r.view m.fl)) := frame_addF _
        refine Sim.rdL ?_
        rw [show ori.labels.view (m.addF (r.view m.fl)).lb = ll from hll]
        have ih : ∀ labs', Sim (fun _ => False) (fun _ => False) (m.addF (r.view m.fl))
            (mFillRows ori true toadd (rows ++ [⟨m.fl.length, 0, (r.view m.fl).length⟩]) labs')
            (fillRows ⟨rowsOf m ori.data, keys, ll, []⟩ toadd ⟨rowsOf m rows ++ [r.view m.fl], k, labs', fl⟩) _ := fun labs' =>
          mFillRows_sim ori true keys (rowsOf m ori.data) ll toadd (rows ++ [⟨m.fl.length, 0, (r.view m.fl).length⟩]) labs'
            ⟨rowsOf m rows ++ [r.view m.fl], k, labs', fl⟩ (fun s hs => (hX s hs).kept hfr.fl) (rowsOf_later hX hfr) hll
            (fun s hs => by
              rcases List.mem_append.1 hs with h | h
              · exact (hr s h).kept hfr.fl
              · rw [List.mem_singleton.1 h]
                exact Sl.ok_new _ _)
            (by
              show rowsOf m rows ++ [r.view m.fl] = rowsOf _ _
              rw [← rowsOf_later hr hfr]
              unfold rowsOf
              rw [List.map_append, List.map_singleton]
              congr 2
              rw [show (m.addF (r.view m.fl)).fl = m.fl ++ [r.view m.fl] from rfl, Sl.view_new]) rfl
        have fin : ∀ labs', Sim (fun _ => False) (fun _ => False) (m.addF (r.view m.fl))
            (mFillRows ori true toadd (rows ++ [⟨m.fl.length, 0, (r.view m.fl).length⟩]) labs')
            (fillRows ⟨rowsOf m ori.data, keys, ll, []⟩ toadd ⟨rowsOf m rows ++ [r.view m.fl], k, labs', fl⟩)
            (fun m' a b => (∀ s ∈ a.1, s.Ok m'.fl) ∧ b = ⟨rowsOf m' a.1, k, a.2, fl⟩ ∧ m'.lb = m.lb ∧
              FillPlace ori.data true m.fl.length (v :: toadd) rows a.1 ∧ (true = true → m'.fl.length = m.fl.length + (v :: toadd).length)) := fun labs' => by
          refine (ih labs').mono (fun _ _ h => h) (fun _ _ h => h) fun m' a b _ hab _ => ?_
          obtain ⟨q1, q2, q3, q4, q5⟩ := hab
          refine ⟨q1, q2, q3, ?_, fun h => ?_⟩
          · unfold FillPlace at q4 ⊢
            rw [if_pos rfl] at q4 ⊢
            rw [q4]
            simp [Mem.addF, List.range'_succ]
          · rw [q5 h]
            simp [Mem.addF]
            omega
        cases ll[v]? with
        | none => exact fin _
        | some lab => exact fin _
      | false =>
        rw [if_neg (by decide)]
        refine Sim.step (m' := m) (a := r) rfl Frame.refl (W' := fun _ => False) (V' := fun _ => False) (fun _ _ h => h) (fun _ _ h => h) ?_
        refine Sim.rdL ?_
        rw [hll]
        have fin : ∀ labs', Sim (fun _ => False) (fun _ => False) m (mFillRows ori false toadd (rows ++ [r]) labs')
            (fillRows ⟨rowsOf m ori.data, keys, ll, []⟩ toadd ⟨rowsOf m rows ++ [r.view m.fl], k, labs', fl⟩)
            (fun m' a b => (∀ s ∈ a.1, s.Ok m'.fl) ∧ b = ⟨rowsOf m' a.1, k, a.2, fl⟩ ∧ m'.lb = m.lb ∧
              FillPlace ori.data false m.fl.length (v :: toadd) rows a.1 ∧ (false = true → m'.fl.length = m.fl.length + (v :: toadd).length)) := fun labs' => by
          refine (mFillRows_sim ori false keys (rowsOf m ori.data) ll toadd (rows ++ [r]) labs'
            ⟨rowsOf m rows ++ [r.view m.fl], k, labs', fl⟩ hX rfl hll
            (fun s hs => by
              rcases List.mem_append.1 hs with h | h
              · exact hr s h
              · rw [List.mem_singleton.1 h]
                exact hrok)
            (by
              show _ = rowsOf _ _
              unfold rowsOf
              rw [List.map_append, List.map_singleton]) rfl).mono (fun _ _ h => h) (fun _ _ h => h) fun m' a b _ hab _ => ?_
          obtain ⟨q1, q2, q3, q4, q5⟩ := hab
          refine ⟨q1, q2, q3, ?_, fun h => nomatch h⟩
          unfold FillPlace at q4 ⊢
          rw [if_neg (by decide)] at q4 ⊢
          rw [q4]
          simp [hrm]
        cases ll[v]? with
        | none => exact fin _
        | some lab => exact fin _

/-- what is known of a sample made from `m`: it represents the one on lists -/
structure SampleRel (ori : List Sl) (docopy : Bool) (toadd : List Nat) (m m' : Mem F) (D : MData) (B : DataBunch F) : Prop where
  rows : ∀ s ∈ D.data, s.Ok m'.fl
  labels : D.labels.Ok m'.lb
  rep : B = D.rep m' []
  place : FillPlace ori docopy m.fl.length toadd [] D.data
  newl : D.labels.arr = m.lb.length
  lbs : m'.lb.length = m.lb.length + 1
  fls : docopy = true → m'.fl.length = m.fl.length + toadd.length

theorem mFillDataBunch_sim {ori : MData} (docopy : Bool) (keys : List (List Char)) (toadd : List Nat) (hX : ∀ s ∈ ori.data, s.Ok m.fl) :
    Sim (fun _ => False) (fun _ => False) m (mFillDataBunch ori toadd docopy) (fillDataBunch (ori.rep m keys) ⟨[], [], [], []⟩ toadd)
      (SampleRel ori.data docopy toadd m) := by
  unfold mFillDataBunch fillDataBunch
  refine Sim.bind' (mFillRows_sim ori docopy keys _ _ toadd [] [] ⟨[], [], [], []⟩ hX rfl rfl (fun _ h => by cases h) rfl rfl) fun m1 a b f1 hab _ => ?_
  obtain ⟨q1, q2, q3, q4, q5⟩ := hab
  subst q2
  refine Sim.step (m' := m1.addL a.2) rfl (frame_addL _) (W' := fun _ => False) (V' := fun _ => False) (fun _ _ h => h) (fun _ _ h => h) ?_
  refine Sim.pure ⟨q1, Sl.ok_new _ _, ?_, q4, ?_, ?_, q5⟩
  · show DataBunch.mk _ _ _ _ = MData.rep _ _ _
    unfold MData.rep
    rw [show (m1.addL a.2).lb = m1.lb ++ [a.2] from rfl, Sl.view_new]
    rfl
  · show m1.lb.length = _
    rw [q3]
  · show (m1.lb ++ [a.2]).length = _
    rw [q3]
    simp

/-- the sampler on lists -/
def MSampler.rep (m : Mem F) (s : MSampler) (keys : List (List Char)) : CVSampler F := ⟨s.data.rep m keys, s.folds, s.nf, s.calls⟩

/-- the rows that are not in the test fold, in the order of the folds -/
def MSampler.trainIdx (s : MSampler) : List Nat := ((s.folds.zip (List.range s.folds.length)).filter (fun p => p.2 ≠ s.calls)).flatMap (·.1)

/-- what a call of the sampler returns -/
structure CallRel (s : MSampler) (keys : List (List Char)) (m m' : Mem F) (train test : MData) (trainl testl : DataBunch F) : Prop where
  test : ∃ m1, Frame (fun _ => False) (fun _ => False) m m1 ∧ SampleRel s.data.data s.docopy (s.folds.getD s.calls []) m m1 test testl ∧
    SampleRel s.data.data s.docopy s.trainIdx m1 m' train trainl ∧ Frame (fun _ => False) (fun _ => False) m1 m'
  idx : s.calls < s.folds.length

theorem MData.rep_later {D : MData} {m' : Mem F} (h : ∀ s ∈ D.data, s.Ok m.fl) (hl : D.labels.Ok m.lb) (hf : Frame (fun _ => False) (fun _ => False) m m')
    (keys : List (List Char)) : D.rep m' keys = D.rep m keys := by
  unfold MData.rep
  rw [rowsOf_later h hf, Sl.view_kept hl hf.lb id]

theorem mCall_sim {s : MSampler} (hX : ∀ t ∈ s.data.data, t.Ok m.fl) (hl : s.data.labels.Ok m.lb) (keys : List (List Char)) :
    Sim (fun _ => False) (fun _ => False) m s.call (s.rep m keys).call
      (fun m' a b => (a.1 = s ∧ a.2 = none ∧ b = (s.rep m keys, none)) ∨
        a.1 = { s with calls := s.calls + 1 } ∧ ∃ train test trainl testl, a.2 = some (train, test) ∧
          b = ((MSampler.mk s.data s.folds s.nf (s.calls + 1) s.docopy).rep m keys, some (trainl, testl)) ∧ CallRel s keys m m' train test trainl testl) := by
  unfold MSampler.call CVSampler.call
  show Sim _ _ m (if s.calls ≥ s.nf then _ else _) (if s.calls ≥ s.nf then _ else _) _
  split
  · exact Sim.pure (.inl ⟨rfl, rfl, rfl⟩)
  · refine Sim.lift fun ti hti => ?_
    have hti' := goIdx_some hti
    refine Sim.bind' (mFillDataBunch_sim s.docopy keys ti hX) fun m1 test testl f1 ht _ => ?_
    have hX1 : ∀ t ∈ s.data.data, t.Ok m1.fl := fun t h => (hX t h).kept f1.fl
    have := mFillDataBunch_sim s.docopy keys s.trainIdx hX1
    rw [MData.rep_later hX hl f1] at this
    refine Sim.bind' this fun m2 train trainl f2 htr _ => ?_
    refine Sim.pure (.inr ⟨rfl, train, test, trainl, testl, rfl, rfl, ⟨m1, f1, ?_, htr, f2⟩, (List.getElem?_eq_some_iff.1 hti').1⟩)
    rw [List.getD_eq_getElem?_getD, hti']
    exact ht

theorem MModel.rep_rounds (exp : F → F) (m : Mem F) (M : MModel F) : (M.rep exp m).rounds none = M.rounds := by
  unfold MultiClass.rounds MModel.rounds MultiClass.classes MModel.rep
  cases M.b with
  | nil => simp
  | cons ts b =>
    simp
    omega

theorem fixMcw_loss (O : Options F) : O.fixMcw.loss = O.loss := by
  unfold Options.fixMcw
  split <;> rfl

/-- the states of the loop over the folds -/
structure CvRel (D : MData) (keys : List (List Char)) (lf : Option MLoss) (m : Mem F) (st : MCVState F) (st' : CVState F) : Prop where
  data : st.sampler.data = D
  rows : ∀ t ∈ D.data, t.Ok m.fl
  labels : D.labels.Ok m.lb
  sampler : st'.sampler = st.sampler.rep m keys
  accus : st'.accus = st.accus
  opts : st'.opts = st.opts
  loss : (st.opts.getD (defaultXOptions 0)).loss.map LossVal.fn = lf.map MLoss.fn

theorem CvRel.later {D : MData} {keys : List (List Char)} {lf : Option MLoss} {m' : Mem F} {st : MCVState F} {st' : CVState F}
    (h : CvRel D keys lf m st st') (hf : Frame (fun _ => False) (fun _ => False) m m') : CvRel D keys lf m' st st' := by
  obtain ⟨h1, h2, h3, h4, h5, h6, h7⟩ := h
  refine ⟨h1, fun t ht => (h2 t ht).kept hf.fl, h3.kept hf.lb, ?_, h5, h6, h7⟩
  rw [h4]
  unfold MSampler.rep
  rw [h1, MData.rep_later h2 h3 hf]

theorem mCvFold_sim (exp : F → F) (S : GoSort) (fdraws : Nat → Nat → F) {D : MData} {keys : List (List Char)} {lf : Option MLoss} (i : Nat)
    {st : MCVState F} {st' : CVState F} (h : CvRel D keys lf m st st') :
    Sim (fun _ => False) (fun _ => False) m (mCvFold exp S fdraws lf st i) (cvFold exp S fdraws st' i) (CvRel D keys lf) := by
  unfold mCvFold cvFold
  obtain ⟨h1, h2, h3, h4, h5, h6, h7⟩ := h
  rw [h4]
  refine Sim.bind' (mCall_sim (by rw [h1]; exact h2) (by rw [h1]; exact h3) keys) fun m1 a b f1 hab _ => ?_
  obtain ⟨a1, a2⟩ := a
  rcases hab with ⟨_, e2, e3⟩ | ⟨e1, train, test, trainl, testl, e2, e3, hc⟩
  · subst e3
    simp only at e2
    subst e2
    exact Sim.error
  · subst e3
    simp only at e1 e2
    subst e1
    subst e2
    obtain ⟨⟨m0, f0, ht, htr, f01⟩, _⟩ := hc
    simp only
    rw [htr.rep, h6]
    refine Sim.bind' (mNewMultiClass_sim exp S (fdraws i) htr.rows _ h7 []) fun m2 M N f2 hM _ => ?_
    have hr : N.rounds none = M.rounds := by rw [← hM.rep, MModel.rep_rounds]
    rw [hr]
    have f12 : Frame (fun _ => False) (fun _ => False) m m2 := f1.trans f2 (fun _ _ h => h) (fun _ _ h => h)
    have hloss : ((st.opts.map Options.fixMcw).getD (defaultXOptions 0)).loss.map LossVal.fn = lf.map MLoss.fn := by
      rw [← h7]
      cases st.opts with
      | none => rfl
      | some O => exact congrArg _ (fixMcw_loss O)
    have hrel : ∀ acc, CvRel D keys lf m2
        { st with sampler := ⟨st.sampler.data, st.sampler.folds, st.sampler.nf, st.sampler.calls + 1, st.sampler.docopy⟩, opts := st.opts.map Options.fixMcw, accus := acc }
        { st' with sampler := (MSampler.mk st.sampler.data st.sampler.folds st.sampler.nf (st.sampler.calls + 1) st.sampler.docopy).rep m keys,
                   opts := st.opts.map Options.fixMcw, accus := acc } := fun acc =>
      CvRel.later (m := m) ⟨h1, h2, h3, rfl, rfl, rfl, hloss⟩ f12
    split
    · refine Sim.pure ?_
      have := hrel st.accus
      rw [h5]
      exact this
    · have ht2 : ∀ s ∈ test.data, s.Ok m2.fl := fun s hs => ((ht.rows s hs).kept f01.fl).kept f2.fl
      have hl2 : test.labels.Ok m2.lb := (ht.labels.kept f01.lb).kept f2.lb
      have := mAccuracy_sim exp M ht2 hl2 hM.labels m2 rfl []
      rw [hM.rep, MData.rep_later (fun s hs => (ht.rows s hs).kept f01.fl) (ht.labels.kept f01.lb) f2, MData.rep_later ht.rows ht.labels f01, ← ht.rep] at this
      refine Sim.bind' this fun m3 x y f3 hxy _ => ?_
      subst hxy
      refine Sim.pure ?_
      have := (hrel (st.accus +. x)).later f3
      rw [h5]
      exact this

theorem mCvLoop_sim (exp : F → F) (S : GoSort) (fdraws : Nat → Nat → F) {D : MData} {keys : List (List Char)} {lf : Option MLoss} :
    ∀ (is : List Nat) {m : Mem F} {st : MCVState F} {st' : CVState F} (_ : CvRel D keys lf m st st'),
    Sim (fun _ => False) (fun _ => False) m (mCvLoop exp S fdraws lf is st) (is.foldlM (cvFold exp S fdraws) st') (CvRel D keys lf)
  | [], m, st, st', h => Sim.pure h
  | i :: is, m, st, st', h => by
    unfold mCvLoop
    rw [List.foldlM_cons]
    exact Sim.bind' (mCvFold_sim exp S fdraws i h) fun m1 a b f hab _ => mCvLoop_sim exp S fdraws is hab

theorem mCvFolds_sim (exp : F → F) (S : GoSort) (n : Nat) {s : MSampler} (hX : ∀ t ∈ s.data.data, t.Ok m.fl) (hl : s.data.labels.Ok m.lb)
    (O : Option (Options F)) {lf : Option MLoss} (hlf : (O.getD (defaultXOptions 0)).loss.map LossVal.fn = lf.map MLoss.fn) (conc : Bool)
    (fdraws : Nat → Nat → F) (keys : List (List Char)) :
    Sim (fun _ => False) (fun _ => False) m (mCvFolds exp S n s O lf conc fdraws) (cvFolds exp S n (s.rep m keys) O conc fdraws) (fun _ a b => a = b) := by
  unfold mCvFolds cvFolds
  refine Sim.bind' (mCvLoop_sim exp S fdraws (D := s.data) (keys := keys) (List.range n) ⟨rfl, hX, hl, rfl, rfl, rfl, hlf⟩) fun m1 a b f h _ => ?_
  refine Sim.pure ?_
  rw [h.accus, h.opts]

end Boo
