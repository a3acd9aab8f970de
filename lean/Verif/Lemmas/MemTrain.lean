import Verif.Lemmas.MemDense
import Verif.Lemmas.Train

/-!
# Training with and without a memory
-/

namespace Boo
open GoFloat
variable {F : Type} [GoFloat F] {m : Mem F}

/-! ### Predict, AddToCol and the losses -/

theorem mPredictLoop_sim {t : MTree F} {t' : Tree F} (ht : ∀ row, t'.predictSingle row = t.predictSingle row) {preds : Sl} (vs : List Sl) (i : Nat)
    {m : Mem F} (hp : preds.Ok m.fl) (hvs : ∀ s ∈ vs, s.Ok m.fl ∧ s.arr ≠ preds.arr) :
    Sim (fun a => a = preds.arr) (fun _ => False) m (mPredictLoop t preds vs i) (predictLoop t' (rowsOf m vs) i (preds.view m.fl))
      (fun m' _ l => preds.view m'.fl = l ∧ m'.ix = m.ix) := by
  induction vs generalizing i m with
  | nil => exact Sim.pure ⟨rfl, rfl⟩
  | cons v vs ih =>
    unfold mPredictLoop
    show Sim _ _ _ _ (predictLoop t' (v.view m.fl :: rowsOf m vs) i (preds.view m.fl)) _
    unfold predictLoop
    refine Sim.rdF ?_
    rw [ht]
    refine Sim.lift fun p _ => ?_
    rw [Sl.view_length hp]
    by_cases hi : i < preds.len
    · rw [if_pos hi]
      obtain ⟨m1, e1, f1, v1, i1, l1⟩ := setF_run hp hi p
      refine Sim.step e1 f1 (fun _ _ h => h) (fun _ _ h => h) ?_
      have hrows : rowsOf m1 vs = rowsOf m vs := List.map_congr_left fun s hs =>
        Sl.view_kept (hvs s (by simp [hs])).1 f1.fl (hvs s (by simp [hs])).2
      have := ih (i + 1) (m := m1) (hp.kept f1.fl) fun s hs => ⟨(hvs s (by simp [hs])).1.kept f1.fl, (hvs s (by simp [hs])).2⟩
      rw [v1, hrows, i1] at this
      exact this
    · rw [if_neg hi]
      have : (setF preds i p) m = (.error .index, m) := by
        unfold setF
        rw [if_neg hi]
        rfl
      have hx : (setF preds i p >>= fun _ => mPredictLoop t preds vs (i + 1)) m = (.error .index, m) := run_err this
      unfold Sim
      rw [hx]
      exact ⟨Frame.refl, rfl⟩

theorem mPredict_sim {t : MTree F} {t' : Tree F} (ht : ∀ row, t'.predictSingle row = t.predictSingle row) {preds : Sl} (vs : List Sl)
    (hp : preds.Ok m.fl) (hvs : ∀ s ∈ vs, s.Ok m.fl ∧ s.arr ≠ preds.arr) :
    Sim (fun a => a = preds.arr) (fun _ => False) m (mPredict t vs (some preds)) (t'.predict (rowsOf m vs) (some (preds.view m.fl)))
      (fun m' s l => s = preds ∧ preds.view m'.fl = l ∧ m'.ix = m.ix) := by
  unfold mPredict Tree.predict
  rw [Option.getD_some]
  refine Sim.step (m' := m) (a := preds) rfl Frame.refl (fun _ _ h => h) (fun _ _ h => h) ?_
  have h := mPredictLoop_sim ht vs 0 hp hvs
  have e : predictLoop t' (rowsOf m vs) 0 (preds.view m.fl) = (predictLoop t' (rowsOf m vs) 0 (preds.view m.fl) >>= fun l => .ok l) := by
    cases predictLoop t' (rowsOf m vs) 0 (preds.view m.fl) <;> rfl
  rw [e]
  exact Sim.bind' h fun m1 _ l _ hl _ => Sim.pure ⟨rfl, hl⟩

theorem mMapInPlace_run {s : Sl} (h : s.Ok m.fl) (f : F → F) :
    ∃ m', mMapInPlace s f m = (.ok (), m') ∧ OnlyF s.arr m m' ∧ s.view m'.fl = (s.view m.fl).map f := by
  have hl := Sl.view_length h
  obtain ⟨m', h1, h2, h3, h4, h5⟩ := putF_run h (l := (s.view m.fl).map f) (by rw [List.length_map]; omega)
  refine ⟨m', h1, ⟨h2, h4, h5⟩, ?_⟩
  rw [h3, List.drop_eq_nil_of_le (by rw [List.length_map]), List.append_nil]

theorem mAddLoop_sim {data s : Sl} (is : List Nat) (cont : Nat) {m : Mem F} (hd : data.Ok m.fl) (hs : s.Ok m.fl) (hne : s.arr ≠ data.arr) :
    Sim (fun a => a = data.arr) (fun _ => False) m (mAddLoop data s is cont) (addLoop (data.view m.fl) (s.view m.fl) is cont)
      (fun m' _ l => data.view m'.fl = l ∧ m'.ix = m.ix) := by
  induction is generalizing cont m with
  | nil => exact Sim.pure ⟨rfl, rfl⟩
  | cons i is ih =>
    unfold mAddLoop addLoop
    cases hx : (data.view m.fl)[i]? with
    | none =>
      have : atF data i m = (.error .index, m) := by
        show (goIdx (data.view m.fl) i, m) = _
        unfold goIdx
        rw [hx]
      have e : (atF data i >>= fun d => (do
          let x ← atF s cont
          setF data i (d +. x)
          mAddLoop data s is (cont + 1))) m = (.error .index, m) := run_err this
      unfold Sim
      rw [e]
      exact ⟨Frame.refl, rfl⟩
    | some d =>
      cases hy : (s.view m.fl)[cont]? with
      | none =>
        have : atF s cont m = (.error .index, m) := by
          show (goIdx (s.view m.fl) cont, m) = _
          unfold goIdx
          rw [hy]
        have e : (atF data i >>= fun d => (do
            let x ← atF s cont
            setF data i (d +. x)
            mAddLoop data s is (cont + 1))) m = (.error .index, m) := by
          rw [run_step (atF_run hx)]
          exact run_err this
        unfold Sim
        rw [e]
        exact ⟨Frame.refl, rfl⟩
      | some x =>
        have hi : i < data.len := by
          have := (List.getElem?_eq_some_iff.1 hx).1
          rwa [Sl.view_length hd] at this
        obtain ⟨m1, e1, f1, v1, i1, l1⟩ := setF_run hd hi (d +. x)
        refine Sim.step (atF_run hx) Frame.refl (fun _ _ h => h) (fun _ _ h => h) ?_
        refine Sim.step (atF_run hy) Frame.refl (fun _ _ h => h) (fun _ _ h => h) ?_
        refine Sim.step e1 f1 (fun _ _ h => h) (fun _ _ h => h) ?_
        have := ih (cont + 1) (m := m1) (hd.kept f1.fl) (hs.kept f1.fl)
        rw [v1, Sl.view_kept hs f1.fl hne, i1] at this
        exact this

theorem mAddToCol_sim {D : MDense} (hD : D.Ok m) {s : Sl} (hs : s.Ok m.fl) (hne : s.arr ≠ D.data.arr) (col : Nat) :
    Sim (fun a => a = D.data.arr) (fun _ => False) m (mAddToCol D s col) (addToCol (D.rep m) (s.view m.fl) col)
      (fun m' _ E => D.rep m' = E ∧ m'.ix = m.ix) := by
  unfold mAddToCol addToCol
  have hc : (D.rep m).c = D.c := rfl
  have hr : (D.rep m).r = D.r := rfl
  have hd : (D.rep m).data = D.data.view m.fl := rfl
  rw [hc, hr, hd, Sl.view_length hs, Sl.view_length hD.ok]
  split
  · exact Sim.error
  · split
    · exact Sim.error
    · have h := mAddLoop_sim (strideIdx D.data.len D.c (D.data.len + 1) col) 0 hD.ok hs hne
      refine ⟨h.1, ?_⟩
      have h2 := h.2
      cases hx : (mAddLoop D.data s (strideIdx D.data.len D.c (D.data.len + 1) col) 0 m).1 with
      | error e =>
        rw [hx] at h2
        cases hy : addLoop (D.data.view m.fl) (s.view m.fl) (strideIdx D.data.len D.c (D.data.len + 1) col) 0 with
        | error e' => rw [hy] at h2; exact h2
        | ok l => rw [hy] at h2; exact h2
      | ok u =>
        rw [hx] at h2
        cases hy : addLoop (D.data.view m.fl) (s.view m.fl) (strideIdx D.data.len D.c (D.data.len + 1) col) 0 with
        | error e' => rw [hy] at h2; exact h2
        | ok l =>
          rw [hy] at h2
          refine ⟨?_, h2.2⟩
          show MDense.rep _ D = _
          unfold MDense.rep
          rw [h2.1]

theorem mSub_run {dst a b : Sl} (hd : dst.Ok m.fl) (ha : a.Ok m.fl) (hb : b.Ok m.fl) (hla : a.len = dst.len) (hlb : b.len = dst.len)
    (na : a.arr ≠ dst.arr) (nb : b.arr ≠ dst.arr) :
    ∃ l m', subV (a.view m.fl) (b.view m.fl) = .ok l ∧ l.length = dst.len ∧ mSub dst a b m = (.ok (), m') ∧ OnlyF dst.arr m m' ∧
      dst.view m'.fl = l := by
  have h1 := Sl.view_length ha
  have h2 := Sl.view_length hb
  have h3 := Sl.view_length hd
  have hzl : (List.zipWith (fun x y => x -. y) (a.view m.fl) (b.view m.fl)).length = dst.len := by
    rw [List.length_zipWith]
    omega
  have hw := writeLoop_run (m := m) (mSubLoop dst a b) (fun i => do
    let x ← atF a i
    let y ← atF b i
    pure (x -. y)) (d := dst) (j := 0) (n := dst.len) rfl (fun i is => by
      show (atF a i >>= fun x => atF b i >>= fun y => setF dst i (x -. y) >>= fun _ => mSubLoop dst a b is) =
        ((atF a i >>= fun x => atF b i >>= fun y => pure (x -. y)) >>= fun v => setF dst i v >>= fun _ => mSubLoop dst a b is)
      rw [MGo.seq_assoc]
      congr 1
      funext x
      rw [MGo.seq_assoc]
      rfl) hd (by omega) (List.zipWith (fun x y => x -. y) (a.view m.fl) (b.view m.fl)) hzl (by
      intro i v hv m' ho _
      rw [← ho.view ha na, ← ho.view hb nb, List.getElem?_zipWith] at hv
      cases hx : (a.view m'.fl)[i]? with
      | none => rw [hx] at hv; cases hv
      | some x =>
        cases hy : (b.view m'.fl)[i]? with
        | none => rw [hx, hy] at hv; cases hv
        | some y =>
          rw [hx, hy] at hv
          simp only [Option.some.injEq] at hv
          rw [run_step (atF_run hx), run_step (atF_run hy), ← hv]
          rfl)
  obtain ⟨m', e1, o1, v1⟩ := hw
  refine ⟨_, m', ?_, hzl, ?_, o1, ?_⟩
  · unfold subV
    rw [if_neg (by omega)]
  · unfold mSub
    rw [if_neg (by omega), hla]
    exact e1
  · rw [v1, List.take_zero, List.nil_append, List.drop_eq_nil_of_le (by omega), List.append_nil]

theorem mGradients_run {dst a b : Sl} (hd : dst.Ok m.fl) (ha : a.Ok m.fl) (hb : b.Ok m.fl) (hla : a.len = dst.len) (hlb : b.len = dst.len)
    (na : a.arr ≠ dst.arr) (nb : b.arr ≠ dst.arr) :
    ∃ l m', grad (a.view m.fl) (b.view m.fl) = .ok l ∧ mGradients a b dst m = (.ok (), m') ∧ OnlyF dst.arr m m' ∧ dst.view m'.fl = l := by
  obtain ⟨l, m1, h1, _, h2, o1, v1⟩ := mSub_run hd ha hb hla hlb na nb
  obtain ⟨m2, h3, o2, v2⟩ := mMapInPlace_run (hd.kept o1.frame.fl) fun v => ofInt (-1) *. v
  refine ⟨l.map fun v => ofInt (-1) *. v, m2, ?_, ?_, o1.trans o2, by rw [v2, v1]⟩
  · unfold grad negGrad
    rw [h1]
    rfl
  · unfold mGradients mNegGradients
    rw [run_step h2, h3]

theorem mLoss_run {dst a b : Sl} (hd : dst.Ok m.fl) (ha : a.Ok m.fl) (hb : b.Ok m.fl) (hla : a.len = dst.len) (hlb : b.len = dst.len)
    (na : a.arr ≠ dst.arr) (nb : b.arr ≠ dst.arr) :
    ∃ v m', mseLossVal (a.view m.fl) (b.view m.fl) = .ok v ∧ mLoss a b dst m = (.ok v, m') ∧ OnlyF dst.arr m m' := by
  obtain ⟨l, m1, h1, _, h2, o1, v1⟩ := mSub_run hd ha hb hla hlb na nb
  obtain ⟨m2, h3, o2, v2⟩ := mMapInPlace_run (hd.kept o1.frame.fl) fun v => v *. v
  refine ⟨(l.map fun v => v *. v).foldl (fun s v => s +. v) zero /. ofInt (l.map fun v => v *. v).length, m2, ?_, ?_, o1.trans o2⟩
  · unfold mseLossVal
    rw [h1]
    rfl
  · unfold mLoss
    rw [run_step h2, run_step h3, run_step (show rdF dst m2 = (.ok (l.map fun v => v *. v), m2) by rw [← v1, ← v2]; rfl)]
    rfl

theorem mUpdateLeaves_sim {W V V' : Nat → Prop} (g h : Sl) (t : MTree F) (ht : t.Ok m V') :
    Sim W V m (mUpdateLeaves g h t) (updateLeaves (g.view m.fl) (h.view m.fl) (t.rep m)) (fun m' a b => m' = m ∧ MTreeRel V' m a b) := by
  induction t with
  | nil => exact Sim.pure ⟨rfl, rfl, trivial⟩
  | node i s l r ihl ihr =>
    unfold mUpdateLeaves
    rw [rep_node]
    unfold updateLeaves
    refine Sim.bind' (ihl ht.2.2.1) fun m1 l1 l1' _ hl _ => ?_
    obtain ⟨rfl, hl⟩ := hl
    refine Sim.bind' (ihr ht.2.2.2) fun m2 r1 r1' _ hr _ => ?_
    obtain ⟨rfl, hr⟩ := hr
    have hleaf : ({ i with samples := s.view m2.ix } : NodeInfo F).leaf = i.leaf := rfl
    rw [hleaf]
    cases hb : i.leaf with
    | true =>
      rw [if_pos rfl, if_pos rfl]
      refine Sim.rdF (Sim.rdF (Sim.rdI ?_))
      unfold updateLeaf
      show Sim _ _ _ _ ((leafSums (g.view m2.fl) (h.view m2.fl) (s.view m2.ix) zero zero >>= _) >>= _) _
      cases hx : leafSums (g.view m2.fl) (h.view m2.fl) (s.view m2.ix) zero zero with
      | error e => exact ⟨Frame.refl, rfl⟩
      | ok q =>
        refine Sim.step (m' := m2) rfl Frame.refl (fun _ _ h => h) (fun _ _ h => h) ?_
        refine Sim.pure ⟨rfl, ?_, ht.1, ht.2.1, hl.2, hr.2⟩
        rw [rep_node, hl.1, hr.1]
    | false =>
      rw [if_neg Bool.false_ne_true, if_neg Bool.false_ne_true]
      refine Sim.pure ⟨rfl, ?_, ht.1, ht.2.1, hl.2, hr.2⟩
      rw [rep_node, hl.1, hr.1]

/-! ### the buffers of the training -/

/-- the buffers, which stay the same during the training -/
structure TrainBufs where
  raw : MDense
  probs : MDense
  grads : Sl
  tmpPreds : Sl
  tmploss : Sl
  tin : Sl
  tval : Sl

/-- the arrays of floats of the buffers -/
def TrainBufs.arrs (B : TrainBufs) : List Nat := [B.raw.data.arr, B.probs.data.arr, B.grads.arr, B.tmpPreds.arr, B.tmploss.arr, B.tval.arr]
/-- the arrays of floats that the training writes -/
def TrainBufs.wF (B : TrainBufs) : Nat → Prop := fun a => a ∈ B.arrs
/-- the array of indexes that the training writes -/
def TrainBufs.wI (B : TrainBufs) : Nat → Prop := fun a => a = B.tin.arr

/-- The buffers are in the memory and have their lengths; each has its own array, in which nothing else is. -/
structure BufsOk (m : Mem F) (X : List Sl) (ohe : MDense) (n c : Nat) (B : TrainBufs) : Prop where
  pos : 0 < n
  raw : B.raw.Ok m
  rawr : B.raw.r = n
  rawc : B.raw.c = c
  probs : B.probs.Ok m
  probsr : B.probs.r = n
  probsc : B.probs.c = c
  grads : B.grads.Ok m.fl
  gradsl : B.grads.len = n
  tmpPreds : B.tmpPreds.Ok m.fl
  tmpPredsl : B.tmpPreds.len = n
  tmploss : B.tmploss.Ok m.fl
  tmplossl : B.tmploss.len = n
  tin : B.tin.Ok m.ix
  tinl : B.tin.len = X.length
  tval : B.tval.Ok m.fl
  tvall : B.tval.len = X.length
  nodup : B.arrs.Nodup
  rows : ∀ s ∈ X, s.Ok m.fl
  rowsa : ∀ s ∈ X, s.arr ∉ B.arrs
  oheok : ohe.Ok m
  oher : ohe.r = n
  ohec : ohe.c = c
  ohea : ohe.data.arr ∉ B.arrs

theorem BufsOk.kept {X : List Sl} {ohe : MDense} {n c : Nat} {B : TrainBufs} {W V : Nat → Prop} {m' : Mem F} (h : BufsOk m X ohe n c B)
    (hf : Frame W V m m') : BufsOk m' X ohe n c B :=
  ⟨h.pos, h.raw.kept hf, h.rawr, h.rawc, h.probs.kept hf, h.probsr, h.probsc, h.grads.kept hf.fl, h.gradsl, h.tmpPreds.kept hf.fl, h.tmpPredsl,
    h.tmploss.kept hf.fl, h.tmplossl, h.tin.kept hf.ix, h.tinl, h.tval.kept hf.fl, h.tvall, h.nodup, fun s hs => (h.rows s hs).kept hf.fl,
    h.rowsa, h.oheok.kept hf, h.oher, h.ohec, h.ohea⟩

/-- the arrays of the buffers are different -/
theorem BufsOk.ne {X : List Sl} {ohe : MDense} {n c : Nat} {B : TrainBufs} (h : BufsOk m X ohe n c B) :
    (B.raw.data.arr ≠ B.probs.data.arr ∧ B.raw.data.arr ≠ B.grads.arr ∧ B.raw.data.arr ≠ B.tmpPreds.arr ∧ B.raw.data.arr ≠ B.tmploss.arr ∧
      B.raw.data.arr ≠ B.tval.arr) ∧ (B.probs.data.arr ≠ B.grads.arr ∧ B.probs.data.arr ≠ B.tmpPreds.arr ∧ B.probs.data.arr ≠ B.tmploss.arr ∧
      B.probs.data.arr ≠ B.tval.arr) ∧ (B.grads.arr ≠ B.tmpPreds.arr ∧ B.grads.arr ≠ B.tmploss.arr ∧ B.grads.arr ≠ B.tval.arr) ∧
      (B.tmpPreds.arr ≠ B.tmploss.arr ∧ B.tmpPreds.arr ≠ B.tval.arr) ∧ B.tmploss.arr ≠ B.tval.arr := by
  have := h.nodup
  simp only [TrainBufs.arrs, List.nodup_cons, List.mem_cons, List.not_mem_nil, or_false, not_or, not_false_eq_true, List.nodup_nil, and_true] at this
  exact this

theorem TrainBufs.mem (B : TrainBufs) : B.wF B.raw.data.arr ∧ B.wF B.probs.data.arr ∧ B.wF B.grads.arr ∧ B.wF B.tmpPreds.arr ∧ B.wF B.tmploss.arr ∧
    B.wF B.tval.arr := by
  simp [TrainBufs.wF, TrainBufs.arrs]

/-- a slice that is new is in none of the arrays of the buffers -/
theorem BufsOk.new {X : List Sl} {ohe : MDense} {n c : Nat} {B : TrainBufs} (h : BufsOk m X ohe n c B) {a : Nat} (ha : m.fl.length ≤ a) : ¬ B.wF a := by
  have h1 := h.raw.ok.arr
  have h2 := h.probs.ok.arr
  have h3 := h.grads.arr
  have h4 := h.tmpPreds.arr
  have h5 := h.tmploss.arr
  have h6 := h.tval.arr
  simp only [TrainBufs.wF, TrainBufs.arrs, List.mem_cons, List.not_mem_nil, or_false, not_or]
  omega

theorem MDense.rep_kept {D : MDense} {W V : Nat → Prop} {m' : Mem F} (h : D.Ok m) (hf : Frame W V m m') (hn : ¬ W D.data.arr) : D.rep m' = D.rep m := by
  unfold MDense.rep
  rw [Sl.view_kept h.ok hf.fl hn]

theorem rowsOf_kept {X : List Sl} {W V : Nat → Prop} {m' : Mem F} (h : ∀ s ∈ X, s.Ok m.fl) (hf : Frame W V m m') (hn : ∀ s ∈ X, ¬ W s.arr) :
    rowsOf m' X = rowsOf m X := List.map_congr_left fun s hs => Sl.view_kept (h s hs) hf.fl (hn s hs)

theorem MLoss.same (lf : MLoss) : (lf.fn : LossFunc F).gradients = grad ∧ (lf.fn : LossFunc F).negGradients = negGrad ∧
    (lf.fn : LossFunc F).loss = mseLossVal := by
  cases lf <;> exact ⟨rfl, rfl, rfl⟩

theorem mClassTree_sim (S : GoSort) {X : List Sl} {ohe : MDense} {n c : Nat} {B : TrainBufs} (h : BufsOk m X ohe n c B) (O : Options F) (lf : MLoss)
    {indexes : Option Sl} (hi : ∀ s, indexes = some s → s.Ok m.ix ∧ s.arr ≠ B.tin.arr) (cols : List Nat) {y p : Sl} (hy : y.Ok m.fl)
    (hya : ¬ B.wF y.arr) (hyl : y.len = n) (hp : p.Ok m.fl) (hpa : ¬ B.wF p.arr) (hpl : p.len = n) :
    Sim (fun a => a = B.grads.arr ∨ a = B.tval.arr) B.wI m (mClassTree S X O lf indexes cols y p B.grads B.tin B.tval)
      (classTree S (rowsOf m X) O lf.fn (indexes.map fun s => s.view m.ix) cols (y.view m.fl) (p.view m.fl)) (MTreeRel B.wI) := by
  obtain ⟨b1, b2, b3, b4, b5, b6⟩ := B.mem
  obtain ⟨⟨_, _, _, _, _⟩, ⟨_, _, _, _⟩, ⟨_, _, ngt⟩, _, _⟩ := h.ne
  unfold mClassTree classTree
  -- the hessian
  refine Sim.step (m' := m.addF ((lf.fn : LossFunc F).hessian (p.view m.fl))) rfl (frame_addF _) (fun _ _ h => h) (fun _ _ h => h) ?_
  have fa := frame_addF (W := fun _ => False) (V := fun _ => False) (m := m) ((lf.fn : LossFunc F).hessian (p.view m.fl))
  have fr := freshF_addF m ((lf.fn : LossFunc F).hessian (p.view m.fl))
  generalize ehs : (⟨m.fl.length, 0, ((lf.fn : LossFunc F).hessian (p.view m.fl)).length⟩ : Sl) = hs at *
  generalize em1 : m.addF ((lf.fn : LossFunc F).hessian (p.view m.fl)) = m1 at *
  have i1 : m1.ix = m.ix := by rw [← em1]; rfl
  clear em1 ehs
  have h1 := h.kept fa
  have hhs : ¬ B.wF hs.arr := h.new fr.new
  have hy1 : y.view m1.fl = y.view m.fl := Sl.view_kept hy fa.fl id
  have hp1 : p.view m1.fl = p.view m.fl := Sl.view_kept hp fa.fl id
  have hx1 : rowsOf m1 X = rowsOf m X := rowsOf_kept h.rows fa (fun _ _ h => h)
  have hne : ∀ s : Sl, ¬ B.wF s.arr → s.arr ≠ B.grads.arr := fun s hs e => hs (e ▸ b3)
  have hne' : ∀ s : Sl, ¬ B.wF s.arr → s.arr ≠ B.tval.arr := fun s hs e => hs (e ▸ b6)
  have hidx1 : (indexes.map fun s => s.view m1.ix) = indexes.map fun s => s.view m.ix := by rw [i1]
  cases hb : O.xgb with
  | true =>
    rw [if_pos rfl, if_pos rfl]
    rw [(lf.same).1]
    obtain ⟨gl, m2, e2, e3, o2, v2⟩ := mGradients_run (m := m1) h1.grads (hy.kept fa.fl) (hp.kept fa.fl) (by rw [hyl, h.gradsl])
      (by rw [hpl, h.gradsl]) (hne y hya) (hne p hpa)
    rw [hy1, hp1] at e2
    rw [e2, okBind]
    refine Sim.step e3 (o2.frame.mono (fun a _ h => .inl h) (fun _ _ h => h.elim)) (W' := fun a => some B.tval.arr = some a)
      (V' := fun a => some B.tin.arr = some a) (fun a _ h => .inr (Option.some.inj h).symm) (fun a _ h => (Option.some.inj h).symm) ?_
    have h2 := h1.kept o2.frame
    have hT : TOk m2 X {
      xgb := true, colSampleByNode := one, minChildWeight := O.minChildWeight, maxDepth := O.maxDepth, lambda := O.lambda,
      gamma := O.gamma, indexes := indexes, allowedColumns := cols, gradients := some B.grads,
      hessian := some hs, y := some y, inn := some B.tin, val := some B.tval } := by
      refine ⟨?_, ?_, ?_, ?_, ?_, ?_, ?_⟩
      · intro s hs'
        simp only [MTreeOptions.reads, Option.toList, List.mem_append, List.mem_cons, List.not_mem_nil, or_false] at hs'
        rcases hs' with ((hs' | rfl) | rfl) | rfl
        · exact h2.rows s hs'
        · exact h2.grads
        · exact fr.ok.kept o2.frame.fl
        · exact (hy.kept fa.fl).kept o2.frame.fl
      · intro s hs'
        rw [o2.ix, i1]
        exact (hi s hs').1
      · intro s hs'
        obtain rfl : B.tin = s := Option.some.inj hs'
        exact h2.tin
      · intro s hs'
        obtain rfl : B.tval = s := Option.some.inj hs'
        exact h2.tval
      · show some B.tin.len = some B.tval.len
        rw [h.tinl, h.tvall]
      · intro s hs' hw
        have hw' : B.tval.arr = s.arr := Option.some.inj hw
        simp only [MTreeOptions.reads, Option.toList, List.mem_append, List.mem_cons, List.not_mem_nil, or_false] at hs'
        rcases hs' with ((hs' | rfl) | rfl) | rfl
        · exact h.rowsa s hs' (hw' ▸ b6)
        · exact ngt hw'.symm
        · exact hhs (hw' ▸ b6)
        · exact hya (hw' ▸ b6)
      · intro s hs' hw
        have hw' : B.tin.arr = s.arr := Option.some.inj hw
        exact (hi s hs').2 hw'.symm
    have hsim := mNewTreeD_sim S O.maxDepth.toNat hT
    have hrep : MTreeOptions.rep m2 {
      xgb := true, colSampleByNode := one, minChildWeight := O.minChildWeight, maxDepth := O.maxDepth, lambda := O.lambda,
      gamma := O.gamma, indexes := indexes, allowedColumns := cols, gradients := some B.grads,
      hessian := some hs, y := some y, inn := some B.tin, val := some B.tval } =
        { (defaultXTreeOptions : TreeOptions F) with
          minChildWeight := O.minChildWeight, maxDepth := O.maxDepth, lambda := O.lambda,
          gamma := O.gamma, indexes := indexes.map fun s => s.view m.ix, allowedColumns := cols, gradients := some gl,
          hessian := some ((lf.fn : LossFunc F).hessian (p.view m.fl)), y := y.view m.fl, scratch := some (rowsOf m X).length } := by
      have a1 : hs.view m2.fl = (lf.fn : LossFunc F).hessian (p.view m.fl) := by
        rw [o2.view fr.ok (hne hs hhs), fr.view]
      have a2 : y.view m2.fl = y.view m.fl := by rw [o2.view (hy.kept fa.fl) (hne y hya), hy1]
      have a3 : (rowsOf m X).length = B.tin.len := by rw [h.tinl]; exact List.length_map _
      have a4 : (indexes.map fun s => s.view m.ix) = indexes.map fun s => s.view m2.ix := by rw [o2.ix, i1]
      rw [← a1, ← a2, a3, a4, ← v2]
      rfl
    have hrows : rowsOf m2 X = rowsOf m X := by
      rw [rowsOf_kept h1.rows o2.frame fun s hs e => h.rowsa s hs (e ▸ b3), hx1]
    rw [hrep, hrows] at hsim
    unfold mNewTree newTree
    refine hsim.mono (fun _ _ h => h) (fun _ _ h => h) fun m' a b _ hab _ => ⟨hab.1, hab.2.mono fun a ha => ?_⟩
    have ha' : a = B.tin.arr := ha
    exact congrArg some ha'.symm
  | false =>
    rw [if_neg Bool.false_ne_true, if_neg Bool.false_ne_true]
    rw [(lf.same).2.1]
    obtain ⟨gl, m2, e2, _, e3, o2, v2⟩ := mSub_run (m := m1) h1.grads (hy.kept fa.fl) (hp.kept fa.fl) (by rw [hyl, h.gradsl])
      (by rw [hpl, h.gradsl]) (hne y hya) (hne p hpa)
    rw [hy1, hp1] at e2
    have e2' : negGrad (y.view m.fl) (p.view m.fl) = .ok gl := e2
    rw [e2', okBind]
    have e3' : mNegGradients y p B.grads m1 = (.ok (), m2) := e3
    refine Sim.step e3' (o2.frame.mono (fun a _ h => .inl h) (fun _ _ h => h.elim)) (W' := fun a => some B.tval.arr = some a)
      (V' := fun a => some B.tin.arr = some a) (fun a _ h => .inr (Option.some.inj h).symm) (fun a _ h => (Option.some.inj h).symm) ?_
    have h2 := h1.kept o2.frame
    have hT : TOk m2 X {
      xgb := false, allowedColumns := [], lambda := zero, gamma := zero, colSampleByNode := zero,
      inn := some B.tin, val := some B.tval, minChildWeight := O.minChildWeight, maxDepth := O.maxDepth,
      y := some B.grads, gradients := none, hessian := none, indexes := none } := by
      refine ⟨?_, ?_, ?_, ?_, ?_, ?_, ?_⟩
      · intro s hs'
        simp only [MTreeOptions.reads, Option.toList, List.mem_append, List.mem_cons, List.not_mem_nil, or_false] at hs'
        rcases hs' with hs' | rfl
        · exact h2.rows s hs'
        · exact h2.grads
      · intro s hs'
        cases hs'
      · intro s hs'
        obtain rfl : B.tin = s := Option.some.inj hs'
        exact h2.tin
      · intro s hs'
        obtain rfl : B.tval = s := Option.some.inj hs'
        exact h2.tval
      · show some B.tin.len = some B.tval.len
        rw [h.tinl, h.tvall]
      · intro s hs' hw
        have hw' : B.tval.arr = s.arr := Option.some.inj hw
        simp only [MTreeOptions.reads, Option.toList, List.mem_append, List.mem_cons, List.not_mem_nil, or_false] at hs'
        rcases hs' with hs' | rfl
        · exact h.rowsa s hs' (hw' ▸ b6)
        · exact ngt hw'.symm
      · intro s hs'
        cases hs'
    have hsim := mNewTreeD_sim S O.maxDepth.toNat hT
    have hrep : MTreeOptions.rep m2 {
      xgb := false, allowedColumns := [], lambda := zero, gamma := zero, colSampleByNode := zero,
      inn := some B.tin, val := some B.tval, minChildWeight := O.minChildWeight, maxDepth := O.maxDepth,
      y := some B.grads, gradients := none, hessian := none, indexes := none } =
        { (defaultGTreeOptions : TreeOptions F) with
          scratch := some (rowsOf m X).length, minChildWeight := O.minChildWeight, maxDepth := O.maxDepth,
          y := gl, gradients := none, hessian := none } := by
      have a3 : (rowsOf m X).length = B.tin.len := by rw [h.tinl]; exact List.length_map _
      rw [a3, ← v2]
      rfl
    have hrows : rowsOf m2 X = rowsOf m X := by
      rw [rowsOf_kept h1.rows o2.frame fun s hs e => h.rowsa s hs (e ▸ b3), hx1]
    rw [hrep, hrows] at hsim
    unfold mNewTree newTree
    refine Sim.bind' hsim fun m3 t t' f3 ht _ => ?_
    have ht2 : t.Ok m3 B.wI := ht.2.mono fun a ha => by
      have ha' : a = B.tin.arr := ha
      exact congrArg some ha'.symm
    have u := mUpdateLeaves_sim (W := fun a => some B.tval.arr = some a) (V := fun a => some B.tin.arr = some a) B.grads hs t ht2
    have w1 : B.grads.view m3.fl = gl := by
      rw [Sl.view_kept h2.grads f3.fl (fun e => ngt (Option.some.inj e).symm), v2]
    have w2 : hs.view m3.fl = (lf.fn : LossFunc F).hessian (p.view m.fl) := by
      rw [Sl.view_kept (fr.ok.kept o2.frame.fl) f3.fl (fun e => hne' hs hhs (Option.some.inj e).symm), o2.view fr.ok (hne hs hhs), fr.view]
    rw [w1, w2, ht.1] at u
    refine u.mono (fun _ _ h => h) (fun _ _ h => h) fun m' a b _ hab _ => ?_
    obtain ⟨rfl, hab⟩ := hab
    exact hab

/-! ### the state -/

/-- lists of trees -/
def TreesRel (V : Nat → Prop) (m : Mem F) (ts : List (MTree F)) (ts' : List (Tree F)) : Prop :=
  ts.map (MTree.rep m) = ts' ∧ ∀ t ∈ ts, t.Ok m V

/-- ensembles -/
def BoostRel (V : Nat → Prop) (m : Mem F) (b : List (List (MTree F))) (b' : List (List (Tree F))) : Prop :=
  b.map (fun ts => ts.map (MTree.rep m)) = b' ∧ ∀ ts ∈ b, ∀ t ∈ ts, t.Ok m V

theorem TreesRel.kept {W V : Nat → Prop} {m' : Mem F} {ts : List (MTree F)} {ts' : List (Tree F)} (h : TreesRel V m ts ts') (hf : Frame W V m m') :
    TreesRel V m' ts ts' := by
  refine ⟨?_, fun t ht => (h.2 t ht).kept hf⟩
  rw [← h.1]
  exact List.map_congr_left fun t ht => MTree.rep_kept (h.2 t ht) hf

theorem BoostRel.kept {W V : Nat → Prop} {m' : Mem F} {b : List (List (MTree F))} {b' : List (List (Tree F))} (h : BoostRel V m b b')
    (hf : Frame W V m m') : BoostRel V m' b b' := by
  refine ⟨?_, fun ts hts t ht => (h.2 ts hts t ht).kept hf⟩
  rw [← h.1]
  exact List.map_congr_left fun ts hts => List.map_congr_left fun t ht => MTree.rep_kept (h.2 ts hts t ht) hf

/-- the states of the two models correspond -/
structure MStRel (B : TrainBufs) (m : Mem F) (st : MTrainState F) (st' : TrainState F) : Prop where
  raw : st.rawPred = B.raw
  probs : st.probs = B.probs
  grads : st.grads = B.grads
  tmpPreds : st.tmpPreds = B.tmpPreds
  tmploss : st.tmploss = B.tmploss
  tin : st.tin = B.tin
  tval : st.tval = B.tval
  vraw : B.raw.rep m = st'.rawPred
  vprobs : B.probs.rep m = st'.probs
  vtmp : B.tmpPreds.view m.fl = st'.tmpPreds
  stopped : st.stopped = st'.stopped
  noProgress : st.noProgress = st'.noProgress
  prevloss : st.prevloss = st'.prevloss
  boosters : BoostRel B.wI m st.boosters st'.boosters
  draws : st.draws = st'.draws

theorem mEarlyStopping_rel {B : TrainBufs} {st : MTrainState F} {st' : TrainState F} (h : MStRel B m st st') (O : Options F) (round k : Nat) (l : F) :
    MStRel B m (mEarlyStopping O round k l st) (earlyStopping O round k l st') := by
  obtain ⟨a1, a2, a3, a4, a5, a6, a7, a8, a9, a10, a11, a12, a13, a14, a15⟩ := h
  unfold mEarlyStopping earlyStopping
  rw [a11, a12, a13]
  split
  · split
    · exact ⟨a1, a2, a3, a4, a5, a6, a7, a8, a9, a10, rfl, rfl, rfl, a14, a15⟩
    · split
      · exact ⟨a1, a2, a3, a4, a5, a6, a7, a8, a9, a10, rfl, rfl, rfl, a14, a15⟩
      · exact ⟨a1, a2, a3, a4, a5, a6, a7, a8, a9, a10, rfl, rfl, rfl, a14, a15⟩
  · exact ⟨a1, a2, a3, a4, a5, a6, a7, a8, a9, a10, a11, a12, a13, a14, a15⟩

theorem mTrainClass_sim (exp : F → F) (S : GoSort) {X : List Sl} {ohe : MDense} {n c : Nat} {B : TrainBufs} (h : BufsOk m X ohe n c B) (O : Options F)
    {lf : Option MLoss} (hlf : O.loss.map LossVal.fn = lf.map MLoss.fn) {indexes : Option Sl}
    (hi : ∀ s, indexes = some s → s.Ok m.ix ∧ s.arr ≠ B.tin.arr) (cols : List Nat) (round : Nat) {k : Nat} (hk : k < c)
    {acc : MTrainState F × List (MTree F)} {acc' : TrainState F × List (Tree F)} (hst : MStRel B m acc.1 acc'.1)
    (htr : TreesRel B.wI m acc.2 acc'.2) :
    Sim B.wF B.wI m (mTrainClass exp S X O lf ohe indexes cols round acc k)
      (trainClass (softMaxDense exp) S (rowsOf m X) O (ohe.rep m) (indexes.map fun s => s.view m.ix) cols round acc' k)
      (fun m' a b => MStRel B m' a.1 b.1 ∧ TreesRel B.wI m' a.2 b.2) := by
  obtain ⟨b1, b2, b3, b4, b5, b6⟩ := B.mem
  obtain ⟨⟨n12, n13, n14, n15, n16⟩, ⟨n23, n24, n25, n26⟩, ⟨n34, n35, n36⟩, ⟨n45, n46⟩, n56⟩ := h.ne
  obtain ⟨a1, a2, a3, a4, a5, a6, a7, a8, a9, a10, a11, a12, a13, a14, a15⟩ := hst
  unfold mTrainClass trainClass
  simp only [← a11, a1, a2, a3, a4, a5, a6, a7]
  split
  · exact Sim.pure ⟨⟨a1, a2, a3, a4, a5, a6, a7, a8, a9, a10, a11, a12, a13, a14, a15⟩, htr⟩
  -- the columns of the labels and of the probabilities
  refine Sim.bindSub (W0 := fun _ => False) (V0 := fun _ => False) (mDenseCol_sim ohe k) (fun _ h => h.elim) (fun _ h => h.elim)
    fun m1 y yl f1 hy ey => ?_
  have hyl : y.len = n := by
    obtain ⟨l, q1, q2, _⟩ := denseCol_spec h.oheok.wf (by rw [show (ohe.rep m).r = n from h.oher]; exact h.pos) (col := k)
      (by rw [show (ohe.rep m).c = c from h.ohec]; exact hk)
    have := q1.symm.trans ey
    rw [hy.1.len, ← Except.ok.inj this, q2]
    exact h.oher
  have h1 := h.kept f1
  have p1 : acc'.1.probs = ⟨B.probs.r, B.probs.c, B.probs.data.view m1.fl⟩ := by
    rw [← a9, ← MDense.rep_kept h.probs f1 id]
    rfl
  rw [p1]
  refine Sim.bindSub (W0 := fun _ => False) (V0 := fun _ => False) (mDenseCol_sim B.probs k) (fun _ h => h.elim) (fun _ h => h.elim)
    fun m2 p pl f2 hp ep => ?_
  have hpl : p.len = n := by
    obtain ⟨l, q1, q2, _⟩ := denseCol_spec h1.probs.wf (by rw [show (B.probs.rep m1).r = n from h.probsr]; exact h.pos) (col := k)
      (by rw [show (B.probs.rep m1).c = c from h.probsc]; exact hk)
    have := q1.symm.trans ep
    rw [hp.1.len, ← Except.ok.inj this, q2]
    exact h.probsr
  have f02 : Frame (fun _ => False) (fun _ => False) m m2 := f1.trans f2 (fun _ _ h => h) (fun _ _ h => h)
  have h2 := h1.kept f2
  cases lf with
  | none =>
    cases hl : O.loss with
    | none => exact Sim.error
    | some lv => rw [hl] at hlf; cases hlf
  | some lf =>
    cases hl : O.loss with
    | none => rw [hl] at hlf; cases hlf
    | some lv =>
      rw [hl] at hlf
      have hfn : lv.fn = lf.fn := Option.some.inj hlf
      simp only [hfn]
      -- the tree
      have hyok : y.Ok m2.fl := hy.1.ok.kept f2.fl
      have hya : ¬ B.wF y.arr := h.new hy.1.new
      have hpa : ¬ B.wF p.arr := h1.new hp.1.new
      have hyv : y.view m2.fl = yl := hy.1.later f2 id
      have hi2 : ∀ s, indexes = some s → s.Ok m2.ix ∧ s.arr ≠ B.tin.arr := fun s hs => ⟨(hi s hs).1.kept f02.ix, (hi s hs).2⟩
      have hct := mClassTree_sim S h2 O lf hi2 cols hyok hya hyl hp.1.ok hpa hpl
      have x2 : rowsOf m2 X = rowsOf m X := rowsOf_kept h.rows f02 (fun _ _ h => h)
      have j2 : (indexes.map fun s => s.view m2.ix) = indexes.map fun s => s.view m.ix := by rw [hp.2, hy.2]
      rw [x2, j2, hyv, hp.1.view] at hct
      refine Sim.bindSub hct (fun a h => by rcases h with rfl | rfl <;> assumption) (fun _ h => h) fun m3 t t' f3 ht _ => ?_
      have h3 := h2.kept f3
      have x3 : rowsOf m3 X = rowsOf m X := by
        rw [rowsOf_kept h2.rows f3 (fun s hs e => h.rowsa s hs (by rcases e with e | e <;> rw [e] <;> assumption)), x2]
      have hraw3 : B.raw.rep m3 = acc'.1.rawPred := by
        rw [MDense.rep_kept h2.raw f3 (fun e => by rcases e with e | e; exacts [n13 e, n16 e]), MDense.rep_kept h.raw f02 id, a8]
      have hprobs3 : B.probs.rep m3 = acc'.1.probs := by
        rw [MDense.rep_kept h2.probs f3 (fun e => by rcases e with e | e; exacts [n23 e, n26 e]), MDense.rep_kept h.probs f02 id, a9]
      have htmp3 : B.tmpPreds.view m3.fl = acc'.1.tmpPreds := by
        rw [Sl.view_kept h2.tmpPreds f3.fl (fun e => by rcases e with e | e; exacts [n34 e.symm, n46 e]), Sl.view_kept h.tmpPreds f02.fl id, a10]
      have hyv3 : y.view m3.fl = yl := by
        rw [Sl.view_kept hyok f3.fl (fun e => hya (by rcases e with e | e <;> rw [e] <;> assumption)), hyv]
      have hyok3 := hyok.kept f3.fl
      -- the predictions
      have hpred := mPredict_sim (m := m3) (t := t) (t' := t') (fun row => by rw [← ht.1, MTree.rep_predictSingle]) X h3.tmpPreds
        (fun s hs => ⟨h3.rows s hs, fun e => h.rowsa s hs (e ▸ b4)⟩)
      rw [x3, htmp3] at hpred
      refine Sim.bindSub hpred (fun a h => h ▸ b4) (fun _ h => h.elim) fun m4 ps pl4 f4 hps _ => ?_
      obtain ⟨rfl, vps, i4⟩ := hps
      have h4 := h3.kept f4
      obtain ⟨m5, e5, o5, v5⟩ := mMapInPlace_run (m := m4) h4.tmpPreds fun v => v *. O.learningRate
      have h5 := h4.kept o5.frame
      refine Sim.step e5 (o5.frame.mono (fun a _ h => h ▸ b4) (fun _ _ h => h.elim)) (fun _ _ h => h) (fun _ _ h => h) ?_
      rw [vps] at v5
      -- the raw predictions
      have hraw5 : B.raw.rep m5 = acc'.1.rawPred := by
        rw [MDense.rep_kept h4.raw o5.frame n14, MDense.rep_kept h3.raw f4 n14, hraw3]
      have hadd := mAddToCol_sim (m := m5) h5.raw h5.tmpPreds (Ne.symm n14) k
      rw [v5, hraw5] at hadd
      refine Sim.bindSub hadd (fun a h => h ▸ b1) (fun _ h => h.elim) fun m6 _ raw6 f6 hraw6 _ => ?_
      have h6 := h5.kept f6
      have hprobs6 : B.probs.rep m6 = acc'.1.probs := by
        rw [MDense.rep_kept h5.probs f6 (Ne.symm n12), MDense.rep_kept h4.probs o5.frame n24, MDense.rep_kept h3.probs f4 n24, hprobs3]
      -- the probabilities
      obtain ⟨m7, e7, e7', o7⟩ := mSoftMaxDense_run (m := m6) exp h6.raw h6.probs (by rw [h.probsr, h.rawr]) (by rw [h.probsc, h.rawc]) n12
      rw [hraw6.1, hprobs6, p1] at e7
      rw [e7, okBind]
      refine Sim.step e7' (o7.frame.mono (fun a _ h => h ▸ b2) (fun _ _ h => h.elim)) (fun _ _ h => h) (fun _ _ h => h) ?_
      have h7 := h6.kept o7.frame
      have hyv7 : y.view m7.fl = yl := by
        rw [o7.view (((hyok3.kept f4.fl).kept o5.frame.fl).kept f6.fl) (fun e => hya (e ▸ b2)),
          Sl.view_kept ((hyok3.kept f4.fl).kept o5.frame.fl) f6.fl (fun e => hya (e ▸ b1)), o5.view (hyok3.kept f4.fl) (fun e => hya (e ▸ b4)),
          Sl.view_kept hyok3 f4.fl (fun e => hya (e ▸ b4)), hyv3]
      have hyok7 : y.Ok m7.fl := (((hyok3.kept f4.fl).kept o5.frame.fl).kept f6.fl).kept o7.frame.fl
      -- the new state
      have hraw7 : B.raw.rep m7 = raw6 := by rw [MDense.rep_kept h6.raw o7.frame n12, hraw6.1]
      have htmp7 : B.tmpPreds.view m7.fl = pl4.map fun v => v *. O.learningRate := by
        rw [o7.view h6.tmpPreds (Ne.symm n24), Sl.view_kept h5.tmpPreds f6.fl (Ne.symm n14), v5]
      have f37 : Frame B.wF B.wI m3 m7 :=
        (((f4.mono (fun a _ h => h ▸ b4) (fun _ _ h => h.elim)).trans o5.frame (fun a _ h => h ▸ b4) (fun _ _ h => h.elim)).trans f6
          (fun a _ h => h ▸ b1) (fun _ _ h => h.elim)).trans o7.frame (fun a _ h => h ▸ b2) (fun _ _ h => h.elim)
      have f07 : Frame B.wF B.wI m m7 :=
        ((f02.mono (fun _ _ h => h.elim) (fun _ _ h => h.elim)).trans f3 (fun a _ h => by rcases h with rfl | rfl <;> assumption) (fun _ _ h => h)).trans
          f37 (fun _ _ h => h) (fun _ _ h => h)
      have hend : ∀ m8, Frame (fun a => a = B.tmploss.arr) (fun _ => False) m7 m8 →
          MStRel B m8
            ⟨B.raw, B.probs, B.grads, B.tmpPreds, B.tmploss, B.tin, B.tval, acc.1.stopped, acc.1.noProgress, acc.1.prevloss, acc.1.boosters, acc.1.draws⟩
            ⟨raw6, B.probs.rep m7, pl4.map fun v => v *. O.learningRate, acc.1.stopped, acc'.1.noProgress, acc'.1.prevloss, acc'.1.boosters, acc'.1.draws⟩ ∧
          TreesRel B.wI m8 (acc.2 ++ [t]) (acc'.2 ++ [t']) := by
        intro m8 f8
        have f8' : Frame (fun a => a = B.tmploss.arr) B.wI m7 m8 := f8.mono (fun _ _ h => h) (fun _ _ h => h.elim)
        have hb7 := a14.kept f07
        refine ⟨⟨rfl, rfl, rfl, rfl, rfl, rfl, rfl, ?_, ?_, ?_, rfl, a12, a13, hb7.kept f8', a15⟩, ?_⟩
        · rw [MDense.rep_kept h7.raw f8 n15, hraw7]
        · rw [MDense.rep_kept h7.probs f8 n25]
        · rw [Sl.view_kept h7.tmpPreds f8.fl n45, htmp7]
        · have t8 := (htr.kept f07).kept f8'
          have tk := ht.2.kept f37
          refine ⟨?_, fun x hx => ?_⟩
          · rw [List.map_append, t8.1, List.map_cons, List.map_nil, MTree.rep_kept tk f8', MTree.rep_kept ht.2 f37, ht.1]
          · rcases List.mem_append.1 hx with hx | hx
            · exact t8.2 x hx
            · rw [List.mem_singleton.1 hx]
              exact tk.kept f8'
      split
      · refine Sim.bindSub (W0 := fun _ => False) (V0 := fun _ => False) (mDenseCol_sim B.probs k) (fun _ h => h.elim) (fun _ h => h.elim)
          fun m8 kp kpl f8 hkp ekp => ?_
        have hkl : kp.len = n := by
          obtain ⟨l, q1, q2, _⟩ := denseCol_spec h7.probs.wf (by rw [show (B.probs.rep m7).r = n from h.probsr]; exact h.pos) (col := k)
            (by rw [show (B.probs.rep m7).c = c from h.probsc]; exact hk)
          have := q1.symm.trans ekp
          rw [hkp.1.len, ← Except.ok.inj this, q2]
          exact h.probsr
        have h8 := h7.kept f8
        obtain ⟨v, m9, e9, e9', o9⟩ := mLoss_run (m := m8) h8.tmploss (hyok7.kept f8.fl) hkp.1.ok (by rw [hyl, h.tmplossl])
          (by rw [hkl, h.tmplossl]) (fun e => hya (e ▸ b5)) (fun e => h7.new hkp.1.new (e ▸ b5))
        rw [Sl.view_kept hyok7 f8.fl id, hyv7, hkp.1.view] at e9
        rw [lf.same.2.2, e9, okBind]
        refine Sim.step e9' (o9.frame.mono (fun a _ h => h ▸ b5) (fun _ _ h => h.elim)) (fun _ _ h => h) (fun _ _ h => h) ?_
        obtain ⟨q1, q2⟩ := hend m9 ((f8.mono (fun _ _ h => h.elim) (fun _ _ h => h)).trans o9.frame (fun _ _ h => h) (fun _ _ h => h))
        exact Sim.pure ⟨mEarlyStopping_rel q1 O round k v, q2⟩
      · rw [show (pure zero : Go F) = .ok zero from rfl, okBind]
        refine Sim.step (a := zero) (m' := m7) rfl Frame.refl (fun _ _ h => h) (fun _ _ h => h) ?_
        obtain ⟨q1, q2⟩ := hend m7 Frame.refl
        exact Sim.pure ⟨mEarlyStopping_rel q1 O round k zero, q2⟩

end Boo
