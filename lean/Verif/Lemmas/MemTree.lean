import Verif.Lemmas.Mem

/-!
# Trees with and without a memory
-/

namespace Boo
open GoFloat
variable {F : Type} [GoFloat F] {m : Mem F}

/-- a new slice is still there later -/
theorem FreshF.later {W V : Nat → Prop} {m0 m1 m2 : Mem F} {s : Sl} {l : List F} (h : FreshF m0 m1 s l) (hf : Frame W V m1 m2) (hW : ¬ W s.arr) :
    s.view m2.fl = l := by rw [Sl.view_kept h.ok hf.fl hW, h.view]

theorem mNodeValue_sim {W V : Nat → Prop} {X : List Sl} {o : MTreeOptions F} (h : TOk m X o) (ix : Sl) (hix : ix.Ok m.ix) :
    Sim W V m (mNodeValue o ix) (nodeValue (o.rep m) (ix.view m.ix)) (fun _ a b => a = b) := by
  unfold mNodeValue nodeValue
  have hx : (o.rep m).xgb = o.xgb := rfl
  rw [hx]
  cases hb : o.xgb with
  | true =>
    rw [if_pos rfl, if_pos rfl]
    have e1 : (o.rep m).gradients.getD [] = (slOf o.gradients).view m.fl := (slOf_view _ _).symm
    have e2 : (o.rep m).hessian.getD [] = (slOf o.hessian).view m.fl := (slOf_view _ _).symm
    rw [e1, e2]
    refine Sim.mono (W := fun _ => False) (V := fun _ => False) ?_ (fun _ _ h => h.elim) (fun _ _ h => h.elim) (R := fun _ a b => a = b)
      (fun _ _ _ _ h _ => h)
    refine Sim.bind' (mSampleSlice_sim _ _) fun m1 g gl f1 hg _ => ?_
    have ek : (o.rep m1) = o.rep m := h.rep f1 (fun _ _ h => h) (fun _ _ h => h)
    have e2' : (slOf o.hessian).view m1.fl = (slOf o.hessian).view m.fl := by
      rw [slOf_view, slOf_view]
      exact congrArg (fun r : TreeOptions F => r.hessian.getD []) ek
    have e3 : ix.view m1.ix = ix.view m.ix := by rw [hg.2]
    rw [← e2', ← e3]
    refine Sim.bind' (mSampleSlice_sim _ _) fun m2 k kl f2 hk _ => ?_
    refine Sim.rdF (Sim.rdF (Sim.pure ?_))
    rw [hg.1.later f2 id, hk.1.view]
    rfl
  | false =>
    rw [if_neg Bool.false_ne_true, if_neg Bool.false_ne_true]
    have e1 : (o.rep m).y = (slOf o.y).view m.fl := rfl
    rw [e1]
    refine Sim.bind' (mSampleSlice_sim _ _) fun m1 g gl f1 hg _ => ?_
    refine Sim.rdF (Sim.pure ?_)
    rw [hg.1.view]

theorem mFindBetterSplit_sim (S : GoSort) {X : List Sl} {o : MTreeOptions F} (h : TOk m X o) {ix inn val : Sl} (hix : o.indexes = some ix)
    (hinn : o.inn = some inn) (hval : o.val = some val) (f : Nat) (best : Best F) :
    Sim o.wF o.wI m (mFindBetterSplit S X o f best) (findBetterSplit S (rowsOf m X) (o.rep m) f best) (fun _ a b => a = b) := by
  have hixk := h.idx ix hix
  have hlen : inn.len = val.len := by
    have := h.lens
    rw [hinn, hval] at this
    simpa using this
  have hinnok := h.inn inn hinn
  have hvalok := h.val val hval
  unfold mFindBetterSplit findBetterSplit
  have e1 : (o.rep m).indexes.getD [] = ix.view m.ix := by
    show (o.indexes.map _).getD [] = _
    rw [hix]
    rfl
  have e2 : (o.rep m).scratch.getD 0 = inn.len := by
    show (o.inn.map _).getD 0 = _
    rw [hinn]
    rfl
  have s1 : slOf o.indexes = ix := by rw [hix]; rfl
  have s2 : slOf o.inn = inn := by rw [hinn]; rfl
  have s3 : slOf o.val = val := by rw [hval]; rfl
  have wF : ∀ a, o.wF a ↔ a = val.arr := fun a => by
    unfold MTreeOptions.wF
    rw [hval]
    simp [eq_comm]
  have wI : ∀ a, o.wI a ↔ a = inn.arr := fun a => by
    unfold MTreeOptions.wI
    rw [hinn]
    simp [eq_comm]
  simp only [e1, e2, s1, s2, s3]
  refine Sim.bind' (mSampleCol_sim _ _ _) fun m1 col cl f1 hc hcl => ?_
  have hcol : col.len = cl.length := hc.1.len
  by_cases hs : inn.len < cl.length
  · rw [if_pos hs]
    have : reslice inn col.len = .error .slice := by
      unfold reslice
      rw [if_pos (by omega)]
    rw [this]
    exact ⟨Frame.refl, rfl⟩
  rw [if_neg hs]
  have r1 : reslice inn col.len = .ok { inn with len := col.len } := by
    unfold reslice
    rw [if_neg (by omega)]
  have r2 : reslice val col.len = .ok { val with len := col.len } := by
    unfold reslice
    rw [if_neg (by omega)]
  rw [r1, r2]
  refine Sim.step (m' := m1) rfl Frame.refl (fun _ _ h => h) (fun _ _ h => h) ?_
  refine Sim.step (m' := m1) rfl Frame.refl (fun _ _ h => h) (fun _ _ h => h) ?_
  have hinn1 : ({ inn with len := col.len } : Sl).Ok m1.ix := by
    have := (hinnok.kept f1.ix).sub (j := 0) (n := col.len) (by omega)
    exact this
  have hval1 : ({ val with len := col.len } : Sl).Ok m1.fl := by
    have := (hvalok.kept f1.fl).sub (j := 0) (n := col.len) (by omega)
    exact this
  have hne : col.arr ≠ val.arr := by
    have := hc.1.new
    have := hvalok.arr
    omega
  obtain ⟨q, m2, eq, f2, hq, hq1, hq2⟩ := (mMemArgSort_sim S hc.1.ok hinn1 hval1 rfl rfl hne).run_ok
  subst hq
  rw [hc.1.view] at hq1 hq2
  refine Sim.step eq (f2.mono (fun a _ h => (wF a).2 h) (fun a _ h => (wI a).2 h)) (W' := fun _ => False) (V' := fun _ => False)
    (fun _ _ h => h.elim) (fun _ _ h => h.elim) ?_
  have h1 := h.kept f1
  have f2' : Frame o.wF o.wI m1 m2 := f2.mono (fun a _ h => (wF a).2 h) (fun a _ h => (wI a).2 h)
  have h2 := h1.kept f2'
  have ek : o.rep m2 = o.rep m := by rw [h1.rep' f2', h.rep' f1]
  have ei : ix.view m2.ix = ix.view m.ix := by
    rw [Sl.view_kept (hixk.kept f1.ix) f2'.ix (h.sepI ix hix), hc.2]
  have el : ix.len = (ix.view m.ix).length := (Sl.view_length hixk).symm
  have hx : (o.rep m).xgb = o.xgb := rfl
  simp only [hx]
  cases hb : o.xgb with
  | true =>
    rw [if_pos rfl, if_pos rfl]
    have g1 : (o.rep m).gradients.getD [] = (slOf o.gradients).view m2.fl := by rw [← ek]; exact (slOf_view _ _).symm
    have g2 : (o.rep m).hessian.getD [] = (slOf o.hessian).view m2.fl := by rw [← ek]; exact (slOf_view _ _).symm
    rw [g1, ← ei]
    refine Sim.bind' (mSampleSlice_sim _ _) fun m3 g gl f3 hg _ => ?_
    have h3 := h2.kept f3
    have ek3 : o.rep m3 = o.rep m2 := h2.rep f3 (fun _ _ h => h) (fun _ _ h => h)
    have g2' : (o.rep m).hessian.getD [] = (slOf o.hessian).view m3.fl := by rw [← ek, ← ek3]; exact (slOf_view _ _).symm
    rw [g2', ← hg.2]
    refine Sim.bind' (mSampleSlice_sim _ _) fun m4 k kl f4 hk _ => ?_
    have s3 : (argSort S cl).1 = ({ inn with len := col.len } : Sl).view m4.ix := by rw [hk.2, hg.2, ← hq1]
    have s4 : gl = g.view m4.fl := (hg.1.later f4 id).symm
    rw [s3]
    have : sampleSlice gl (({ inn with len := col.len } : Sl).view m4.ix) = sampleSlice (g.view m4.fl) (({ inn with len := col.len } : Sl).view m4.ix) := by
      rw [s4]
    rw [this]
    refine Sim.bind' (mSampleSlice_sim _ _) fun m5 sg sgl f5 hsg _ => ?_
    have : sampleSlice kl (({ inn with len := col.len } : Sl).view m4.ix) = sampleSlice (k.view m5.fl) (({ inn with len := col.len } : Sl).view m5.ix) := by
      rw [hk.1.later f5 id, hsg.2]
    rw [this]
    refine Sim.bind' (mSampleSlice_sim _ _) fun m6 sh shl f6 hsh _ => ?_
    refine Sim.rdF (Sim.rdF (Sim.rdF (Sim.rdF (Sim.rdF (Sim.pure ?_)))))
    have fn : Frame (fun _ => False) (fun _ => False) m4 m6 := f5.trans f6 (fun _ _ h => h) (fun _ _ h => h)
    have fm : Frame (fun _ => False) (fun _ => False) m3 m6 := f4.trans fn (fun _ _ h => h) (fun _ _ h => h)
    have fk : Frame (fun _ => False) (fun _ => False) m2 m6 := f3.trans fm (fun _ _ h => h) (fun _ _ h => h)
    have v1 : g.view m6.fl = gl := hg.1.later fm id
    have v2 : k.view m6.fl = kl := hk.1.later fn id
    have v3 : ({ val with len := col.len } : Sl).view m6.fl = (argSort S cl).2 := by
      rw [Sl.view_kept (hval1.kept f2.fl) fk.fl id, hq2]
    have v4 : sg.view m6.fl = sgl := hsg.1.later f6 id
    rw [v1, v2, v3, v4, hsh.1.view, el]
    rw [hg.2, ei]
    rfl
  | false =>
    rw [if_neg Bool.false_ne_true, if_neg Bool.false_ne_true]
    have g1 : (o.rep m).y = (slOf o.y).view m2.fl := by rw [← ek]; rfl
    rw [g1, ← ei]
    refine Sim.bind' (mSampleSlice_sim _ _) fun m3 g gl f3 hg _ => ?_
    have : sampleSlice gl (argSort S cl).1 = sampleSlice (g.view m3.fl) (({ inn with len := col.len } : Sl).view m3.ix) := by
      rw [hg.1.view, hg.2, ← hq1]
    rw [this]
    refine Sim.bind' (mSampleSlice_sim _ _) fun m4 k kl f4 hk _ => ?_
    refine Sim.rdF (Sim.rdF (Sim.pure ?_))
    have fk : Frame (fun _ => False) (fun _ => False) m2 m4 := f3.trans f4 (fun _ _ h => h) (fun _ _ h => h)
    have v3 : ({ val with len := col.len } : Sl).view m4.fl = (argSort S cl).2 := by
      rw [Sl.view_kept (hval1.kept f2.fl) fk.fl id, hq2]
    rw [v3, hk.1.view, el, ei]
    rfl

theorem mSearchLoop_sim (S : GoSort) {X : List Sl} {o : MTreeOptions F} {ix inn val : Sl} (hix : o.indexes = some ix)
    (hinn : o.inn = some inn) (hval : o.val = some val) (fs : List Nat) (h : TOk m X o) (best : Best F) :
    Sim o.wF o.wI m (mSearchLoop S X o fs best) (fs.foldlM (fun best i => findBetterSplit S (rowsOf m X) (o.rep m) i best) best)
      (fun _ a b => a = b) := by
  induction fs generalizing m best with
  | nil => exact Sim.pure rfl
  | cons f fs ih =>
    unfold mSearchLoop
    rw [List.foldlM_cons]
    refine Sim.bind' (mFindBetterSplit_sim S h hix hinn hval f best) fun m1 a b f1 hab _ => ?_
    subst hab
    rw [← h.rep' f1, ← h.rows' f1]
    exact ih (h.kept f1) a

/-! ### the trees -/

/-- the tree as a value -/
def MTree.rep (m : Mem F) : MTree F → Tree F
  | .nil => .nil
  | .node i s l r => .node { i with samples := s.view m.ix } (l.rep m) (r.rep m)

/-- the samples of the tree lie in their arrays, and these are not in `V` -/
def MTree.Ok (m : Mem F) (V : Nat → Prop) : MTree F → Prop
  | .nil => True
  | .node _ s l r => s.Ok m.ix ∧ ¬ V s.arr ∧ l.Ok m V ∧ r.Ok m V

theorem MTree.Ok.kept {W V V' : Nat → Prop} {m' : Mem F} {t : MTree F} (h : t.Ok m V') (hf : Frame W V m m') : t.Ok m' V' := by
  induction t with
  | nil => trivial
  | node i s l r ihl ihr => exact ⟨h.1.kept hf.ix, h.2.1, ihl h.2.2.1, ihr h.2.2.2⟩

theorem MTree.Ok.mono {V V' : Nat → Prop} {t : MTree F} (h : t.Ok m V) (hV : ∀ a, V' a → V a) : t.Ok m V' := by
  induction t with
  | nil => trivial
  | node i s l r ihl ihr => exact ⟨h.1, fun hv => h.2.1 (hV _ hv), ihl h.2.2.1, ihr h.2.2.2⟩

theorem MTree.rep_kept {W V : Nat → Prop} {m' : Mem F} {t : MTree F} (h : t.Ok m V) (hf : Frame W V m m') : t.rep m' = t.rep m := by
  induction t with
  | nil => rfl
  | node i s l r ihl ihr =>
    unfold MTree.rep
    rw [Sl.view_kept h.1 hf.ix h.2.1, ihl h.2.2.1, ihr h.2.2.2]

theorem MTree.rep_branches (m : Mem F) (t : MTree F) : (t.rep m).branches = t.branches := by
  cases t <;> rfl

theorem MTree.rep_predictSingle (m : Mem F) (t : MTree F) (row : List F) : (t.rep m).predictSingle row = t.predictSingle row := by
  induction t with
  | nil => rfl
  | node i s l r ihl ihr =>
    unfold MTree.rep Tree.predictSingle MTree.predictSingle
    rw [ihl, ihr]
    rfl

/-- what `orNewI` gives -/
structure OrI (m m' : Mem F) (s : Option Sl) (l : List Nat) (t : Sl) : Prop where
  frame : Frame (fun _ => False) (fun _ => False) m m'
  fl : m'.fl = m.fl
  lb : m'.lb = m.lb
  ok : t.Ok m'.ix
  view : t.view m'.ix = (s.map fun s => s.view m.ix).getD l
  len : t.len = (s.map Sl.len).getD l.length
  or : s = some t ∨ s = none ∧ m.ix.length ≤ t.arr

theorem orNewI_run (s : Option Sl) (l : List Nat) (h : ∀ t, s = some t → t.Ok m.ix) : ∃ t m', orNewI s l m = (.ok t, m') ∧ OrI m m' s l t := by
  cases s with
  | some t => exact ⟨t, m, rfl, Frame.refl, rfl, rfl, h t rfl, rfl, rfl, .inl rfl⟩
  | none =>
    have := freshI_addI m l
    exact ⟨_, m.addI l, rfl, frame_addI l, rfl, rfl, this.ok, this.view, rfl, .inr ⟨rfl, le_refl _⟩⟩

/-- what `orNewF` gives -/
structure OrF (m m' : Mem F) (s : Option Sl) (l : List F) (t : Sl) : Prop where
  frame : Frame (fun _ => False) (fun _ => False) m m'
  ix : m'.ix = m.ix
  lb : m'.lb = m.lb
  ok : t.Ok m'.fl
  view : t.view m'.fl = (s.map fun s => s.view m.fl).getD l
  len : t.len = (s.map Sl.len).getD l.length
  or : s = some t ∨ s = none ∧ m.fl.length ≤ t.arr

theorem orNewF_run (s : Option Sl) (l : List F) (h : ∀ t, s = some t → t.Ok m.fl) : ∃ t m', orNewF s l m = (.ok t, m') ∧ OrF m m' s l t := by
  cases s with
  | some t => exact ⟨t, m, rfl, Frame.refl, rfl, rfl, h t rfl, rfl, rfl, .inl rfl⟩
  | none =>
    have := freshF_addF m l
    exact ⟨_, m.addF l, rfl, frame_addF l, rfl, rfl, this.ok, this.view, rfl, .inr ⟨rfl, le_refl _⟩⟩

/-- the options with the buffers and the indexes in place -/
def MTreeOptions.with (o : MTreeOptions F) (ix inn val : Sl) : MTreeOptions F := { o with indexes := some ix, inn := some inn, val := some val }

/-- what the trees of the two models have to do with each other -/
def MTreeRel (V : Nat → Prop) (m' : Mem F) (t : MTree F) (t' : Tree F) : Prop := t.rep m' = t' ∧ t.Ok m' V

/-- `NewTree` after the defaults of the options were put in place -/
def mNewTreeBody (S : GoSort) (X : List Sl) (d : Nat) (o : MTreeOptions F) (indexes : Sl) : MGo F (MTree F) := do
  let value ← mNodeValue o indexes
  let row0 ← MGo.lift (goIdx X 0)
  let score0 : F := if o.xgb then zero else posInf
  let info : NodeInfo F :=
    { samples := [], bestScoreSoFar := score0, value := value, nsamples := indexes.len,
      features := row0.len, splitFeatureIndex := 0, threshold := zero, xgb := o.xgb,
      branches := 1 }
  match d with
  | 0 => pure (.node info indexes .nil .nil)
  | d + 1 => do
    let best ← mSearchLoop S X o ((List.range info.features).filter o.columnAllowed) ⟨score0, 0, zero⟩
    let info := { info with bestScoreSoFar := best.score, splitFeatureIndex := best.feature,
                            threshold := best.threshold }
    if info.leaf then pure (.node info indexes .nil .nil)
    else do
      let col ← mSampleCol X indexes info.splitFeatureIndex
      let cs ← rdF col
      let is ← rdI indexes
      let pairs := cs.zip is
      let indexleft ← newI ((pairs.filter fun p => p.1 <=. info.threshold).map Prod.snd)
      let indexright ← newI ((pairs.filter fun p => !(p.1 <=. info.threshold)).map Prod.snd)
      let oleft := { o.clone with maxDepth := o.maxDepth - 1 }
      let oright := oleft.clone
      let left ← mNewTreeD S X d { oleft with indexes := some indexleft, inn := o.inn, val := o.val }
      let right ← mNewTreeD S X d { oright with indexes := some indexright, inn := o.inn, val := o.val }
      pure (.node { info with branches := info.branches + left.branches + right.branches } indexes left right)

theorem mNewTreeD_eq (S : GoSort) (X : List Sl) (d : Nat) (o : MTreeOptions F) :
    mNewTreeD S X d o = (if o.xgb && o.gradients.isNone && o.hessian.isNone then MGo.lift (.error .explicit) else do
      let indexes ← orNewI o.indexes (List.range X.length)
      let inn ← orNewI o.inn (List.replicate indexes.len 0)
      let val ← orNewF o.val (List.replicate indexes.len zero)
      mNewTreeBody S X d (o.with indexes inn val) indexes) := by
  cases d <;> rw [mNewTreeD] <;> rfl

/-- the same for values -/
def newTreeBody (S : GoSort) (X : List (List F)) (d : Nat) (o : TreeOptions F) (indexes : List Nat) : Go (Tree F) := do
  let value ← nodeValue o indexes
  let row0 ← goIdx X 0
  let score0 : F := if o.xgb then zero else posInf
  let info : NodeInfo F :=
    { samples := indexes, bestScoreSoFar := score0, value := value, nsamples := indexes.length,
      features := row0.length, splitFeatureIndex := 0, threshold := zero, xgb := o.xgb,
      branches := 1 }
  match d with
  | 0 => pure (.node info .nil .nil)
  | d + 1 => do
    let best ← searchSplit S X o info.features ⟨score0, 0, zero⟩
    let info := { info with bestScoreSoFar := best.score, splitFeatureIndex := best.feature,
                            threshold := best.threshold }
    if info.leaf then pure (.node info .nil .nil)
    else
      let col ← sampleCol X indexes info.splitFeatureIndex
      let pairs := col.zip indexes
      let indexleft := (pairs.filter fun p => p.1 <=. info.threshold).map Prod.snd
      let indexright := (pairs.filter fun p => !(p.1 <=. info.threshold)).map Prod.snd
      let oleft := { o.clone with maxDepth := o.maxDepth - 1 }
      let oright := oleft.clone
      let left ← newTreeD S X d { oleft with indexes := some indexleft, scratch := o.scratch }
      let right ← newTreeD S X d { oright with indexes := some indexright, scratch := o.scratch }
      pure (.node { info with branches := info.branches + left.branches + right.branches } left right)

theorem newTreeD_eq (S : GoSort) (X : List (List F)) (d : Nat) (o : TreeOptions F) :
    newTreeD S X d o = (if o.xgb && o.gradients.isNone && o.hessian.isNone then .error .explicit else
      newTreeBody S X d (o.fill X) ((o.fill X).indexes.getD [])) := by
  cases d <;> rw [newTreeD] <;> rfl

theorem okBind {α β : Type} (a : α) (f : α → Go β) : ((Except.ok a : Go α) >>= f) = f a := rfl

theorem rep_child (m : Mem F) (p : MTreeOptions F) (i : Sl) (d : Int) :
    MTreeOptions.rep m { p.clone with maxDepth := d, indexes := some i, inn := p.inn, val := p.val } =
      { (p.rep m).clone with maxDepth := d, indexes := some (i.view m.ix), scratch := (p.rep m).scratch } := rfl

theorem rep_node (m : Mem F) (i : NodeInfo F) (s : Sl) (l r : MTree F) :
    MTree.rep m (.node i s l r) = .node { i with samples := s.view m.ix } (l.rep m) (r.rep m) := rfl

theorem mNewTreeBody_sim (S : GoSort) {X : List Sl} (d : Nat) {o : MTreeOptions F} {ix inn val : Sl} (h : TOk m X (o.with ix inn val))
    (ih : ∀ d' < d, ∀ {m : Mem F} {o : MTreeOptions F}, TOk m X o →
      Sim o.wF o.wI m (mNewTreeD S X d' o) (newTreeD S (rowsOf m X) d' (o.rep m)) (MTreeRel o.wI)) :
    Sim (o.with ix inn val).wF (o.with ix inn val).wI m (mNewTreeBody S X d (o.with ix inn val) ix)
      (newTreeBody S (rowsOf m X) d ((o.with ix inn val).rep m) (ix.view m.ix)) (MTreeRel (o.with ix inn val).wI) := by
  generalize ho : o.with ix inn val = p at *
  have hix : p.indexes = some ix := by rw [← ho]; rfl
  have hinn : p.inn = some inn := by rw [← ho]; rfl
  have hval : p.val = some val := by rw [← ho]; rfl
  clear ho
  have hixk := h.idx ix hix
  unfold mNewTreeBody newTreeBody
  refine Sim.bind' (mNodeValue_sim h ix hixk) fun m1 v v' f1 hv _ => ?_
  subst hv
  have h1 := h.kept f1
  rw [← h.rep' f1, ← h.rows' f1, ← Sl.view_kept hixk f1.ix (h.sepI ix hix)]
  have hix1 := h1.idx ix hix
  have el : (ix.view m1.ix).length = ix.len := Sl.view_length hix1
  have eg : goIdx (rowsOf m1 X) 0 = (goIdx X 0 >>= fun s => .ok (s.view m1.fl)) := by
    unfold rowsOf
    cases X <;> rfl
  rw [eg]
  cases hX : goIdx X 0 with
  | error e => exact ⟨Frame.refl, rfl⟩
  | ok row0 =>
    refine Sim.step (m' := m1) rfl Frame.refl (fun _ _ h => h) (fun _ _ h => h) ?_
    have er : (row0.view m1.fl).length = row0.len := by
      refine Sl.view_length (h1.reads row0 ?_)
      have : row0 ∈ X := List.mem_of_getElem? (goIdx_ok.1 hX)
      simp [MTreeOptions.reads, this]
    rw [okBind, okBind]
    simp only [el, er]
    have hxg : (p.rep m1).xgb = p.xgb := rfl
    simp only [hxg]
    cases d with
    | zero => exact Sim.pure ⟨rfl, hix1, h1.sepI ix hix, trivial, trivial⟩
    | succ d =>
      have hall : (List.range row0.len).filter (columnAllowed (p.rep m1)) = (List.range row0.len).filter p.columnAllowed := rfl
      refine Sim.bind' (R := fun _ a b => a = b) (by
        unfold searchSplit
        rw [hall]
        exact mSearchLoop_sim S hix hinn hval _ h1 _) fun m2 best best' f2 hb _ => ?_
      subst hb
      have h2 := h1.kept f2
      have hix2 := h2.idx ix hix
      rw [← h1.rep' f2, ← h1.rows' f2, ← Sl.view_kept hix1 f2.ix (h.sepI ix hix)]
      have hleaf : ∀ s : List Nat, (({ samples := s, bestScoreSoFar := best.score, value := v, nsamples := ix.len, features := row0.len, splitFeatureIndex := best.feature, threshold := best.threshold, xgb := p.xgb, branches := 1 } : NodeInfo F).leaf)
         = (({ samples := [], bestScoreSoFar := best.score, value := v, nsamples := ix.len, features := row0.len, splitFeatureIndex := best.feature, threshold := best.threshold, xgb := p.xgb, branches := 1 } : NodeInfo F).leaf) := fun _ => rfl
      rw [hleaf (ix.view m2.ix)]
      split
      · exact Sim.pure ⟨rfl, hix2, h2.sepI ix hix, trivial, trivial⟩
      · refine Sim.bind' (mSampleCol_sim _ _ _) fun m3 col cl f3 hc _ => ?_
        have h3 := h2.kept f3
        have hix3 := h3.idx ix hix
        rw [← h2.rep' f3, ← h2.rows' f3, ← Sl.view_kept hix2 f3.ix (h.sepI ix hix)]
        refine Sim.rdF (Sim.rdI ?_)
        rw [hc.1.view]
        refine Sim.newI (fun _ _ h => h) (fun _ _ h => h) fun m4 il f4 hil _ _ => ?_
        have h4 := h3.kept f4
        have hix4 := h4.idx ix hix
        refine Sim.newI (fun _ _ h => h) (fun _ _ h => h) fun m5 ir f5 hir _ _ => ?_
        have h5 := h4.kept f5
        have hix5 := h5.idx ix hix
        rw [← h4.rep' f5 |>.trans (h3.rep' f4), ← h4.rows' f5 |>.trans (h3.rows' f4)]
        have wI : ∀ a, p.wI a ↔ a = inn.arr := fun a => by
          unfold MTreeOptions.wI
          rw [hinn]
          simp [eq_comm]
        have hinn3 := (h3.inn inn hinn).arr
        have nl : ¬ p.wI il.arr := by
          rw [wI]
          have := hil.new
          omega
        have nr : ¬ p.wI ir.arr := by
          rw [wI]
          have := hir.new
          have := f4.ix.len
          omega
        have vl := hil.view
        rw [← Sl.view_kept hil.ok f5.ix nl] at vl
        have vr := hir.view
        have tl : TOk m5 X { p.clone with maxDepth := p.maxDepth - 1, indexes := some il, inn := p.inn, val := p.val } :=
          ⟨h5.reads, fun s hs => by
            obtain rfl : il = s := Option.some.inj hs
            exact hil.ok.kept f5.ix, h5.inn, h5.val, h5.lens, h5.sepF, fun s hs => by
            obtain rfl : il = s := Option.some.inj hs
            exact nl⟩
        refine Sim.bind' (R := MTreeRel p.wI) (by
          have := ih d (Nat.lt_succ_self d) tl
          rw [rep_child, vl] at this
          exact this) fun m6 left left' f6 hl _ => ?_
        have h6 := h5.kept f6
        rw [← h5.rep' f6, ← h5.rows' f6]
        rw [← Sl.view_kept hir.ok f6.ix nr] at vr
        have tr : TOk m6 X { p.clone with maxDepth := p.maxDepth - 1, indexes := some ir, inn := p.inn, val := p.val } :=
          ⟨h6.reads, fun s hs => by
            obtain rfl : ir = s := Option.some.inj hs
            exact hir.ok.kept f6.ix, h6.inn, h6.val, h6.lens, h6.sepF, fun s hs => by
            obtain rfl : ir = s := Option.some.inj hs
            exact nr⟩
        refine Sim.bind' (R := MTreeRel p.wI) (by
          have := ih d (Nat.lt_succ_self d) tr
          rw [rep_child, vr] at this
          exact this) fun m7 right right' f7 hr _ => ?_
        have hix7 := (h6.kept f7).idx ix hix
        refine Sim.pure ⟨?_, hix7, h.sepI ix hix, hl.2.kept f7, hr.2⟩
        have ni := h.sepI ix hix
        have v7 : ix.view m7.ix = ix.view m3.ix := by
          rw [Sl.view_kept (h6.idx ix hix) f7.ix ni, Sl.view_kept hix5 f6.ix ni, Sl.view_kept hix4 f5.ix ni, Sl.view_kept hix3 f4.ix ni]
        obtain ⟨rfl, hl2⟩ := hl
        obtain ⟨rfl, hr2⟩ := hr
        rw [MTree.rep_branches, MTree.rep_branches, rep_node, v7, MTree.rep_kept hl2 f7]

/-- `NewTree` with a memory does what `NewTree` does with values -/
theorem mNewTreeD_sim (S : GoSort) {X : List Sl} (d : Nat) {m : Mem F} {o : MTreeOptions F} (h : TOk m X o) :
    Sim o.wF o.wI m (mNewTreeD S X d o) (newTreeD S (rowsOf m X) d (o.rep m)) (MTreeRel o.wI) := by
  induction d using Nat.strong_induction_on generalizing m o with
  | _ d ih =>
    rw [mNewTreeD_eq, newTreeD_eq]
    have c : ((o.rep m).xgb && (o.rep m).gradients.isNone && (o.rep m).hessian.isNone) = (o.xgb && o.gradients.isNone && o.hessian.isNone) := by
      show (o.xgb && (o.gradients.map _).isNone && (o.hessian.map _).isNone) = _
      simp
    rw [c]
    split
    · exact Sim.error
    · obtain ⟨ix, m1, e1, a1⟩ := orNewI_run (m := m) o.indexes (List.range X.length) h.idx
      obtain ⟨inn, m2, e2, a2⟩ := orNewI_run (m := m1) o.inn (List.replicate ix.len 0) (fun t ht => (h.inn t ht).kept a1.frame.ix)
      obtain ⟨val, m3, e3, a3⟩ := orNewF_run (m := m2) o.val (List.replicate ix.len zero)
        (fun t ht => ((h.val t ht).kept a1.frame.fl).kept a2.frame.fl)
      have F2 : Frame (fun _ => False) (fun _ => False) m m2 := a1.frame.trans a2.frame (fun _ _ h => h) (fun _ _ h => h)
      have F3 : Frame (fun _ => False) (fun _ => False) m m3 := F2.trans a3.frame (fun _ _ h => h) (fun _ _ h => h)
      have hfl : m2.fl = m.fl := by rw [a2.fl, a1.fl]
      have f0 : ∀ {m m' : Mem F}, Frame (fun _ => False) (fun _ => False) m m' → Frame o.wF o.wI m m' :=
        fun hf => hf.mono (fun _ _ h => h.elim) (fun _ _ h => h.elim)
      have wv : ∀ a, (o.with ix inn val).wF a ↔ a = val.arr := fun a => by
        show (some val).map Sl.arr = some a ↔ _
        simp [eq_comm]
      have wi : ∀ a, (o.with ix inn val).wI a ↔ a = inn.arr := fun a => by
        show (some inn).map Sl.arr = some a ↔ _
        simp [eq_comm]
      have ht : TOk m3 X (o.with ix inn val) := by
        refine ⟨fun s hs => (h.reads s hs).kept F3.fl, ?_, ?_, ?_, ?_, ?_, ?_⟩
        · intro s hs
          obtain rfl : ix = s := Option.some.inj hs
          exact (a1.ok.kept a2.frame.ix).kept a3.frame.ix
        · intro s hs
          obtain rfl : inn = s := Option.some.inj hs
          exact a2.ok.kept a3.frame.ix
        · intro s hs
          obtain rfl : val = s := Option.some.inj hs
          exact a3.ok
        · show some inn.len = some val.len
          rw [a2.len, a3.len, h.lens]
          simp
        · intro s hs hw
          rw [wv] at hw
          rcases a3.or with hv | ⟨hv, hn⟩
          · refine h.sepF s hs ?_
            show o.val.map Sl.arr = _
            rw [hv, hw]
            rfl
          · have := (h.reads s hs).arr
            rw [hfl] at hn
            omega
        · intro s hs hw
          obtain rfl : ix = s := Option.some.inj hs
          rw [wi] at hw
          have hi1 := a1.ok.arr
          rcases a2.or with hv | ⟨hv, hn⟩
          · rcases a1.or with hx | ⟨hx, hn⟩
            · refine h.sepI ix hx ?_
              show o.inn.map Sl.arr = _
              rw [hv, hw]
              rfl
            · have := (h.inn inn hv).arr
              omega
          · omega
      have hrep : (o.with ix inn val).rep m3 = (o.rep m).fill (rowsOf m X) := by
        have hk := (h.rep F3 (fun _ _ h => h) (fun _ _ h => h))
        have vix : ix.view m3.ix = (o.indexes.map fun s => s.view m.ix).getD (List.range X.length) := by
          rw [a3.ix, Sl.view_kept a1.ok a2.frame.ix id, a1.view]
        have lix : ix.len = ((o.indexes.map fun s => s.view m.ix).getD (List.range X.length)).length := by
          rw [← a1.view, Sl.view_length a1.ok]
        have hin : inn.len = (o.inn.map Sl.len).getD ix.len := by rw [a2.len, List.length_replicate]
        have e1 : (o.with ix inn val).rep m3 = { o.rep m3 with indexes := some (ix.view m3.ix), scratch := some inn.len } := rfl
        rw [e1, hk, vix, hin, lix]
        unfold TreeOptions.fill rowsOf
        rw [List.length_map]
        rfl
      have hrows : rowsOf m3 X = rowsOf m X := h.rows F3 (fun _ _ h => h)
      have hidx : ((o.rep m).fill (rowsOf m X)).indexes.getD [] = ix.view m3.ix := by
        rw [← hrep]
        rfl
      have hb := mNewTreeBody_sim S d ht (fun d' hd' _ _ ho => ih d' hd' ho)
      rw [hrep, hrows, ← hidx] at hb
      have hrun : (do
          let indexes ← orNewI o.indexes (List.range X.length)
          let inn ← orNewI o.inn (List.replicate indexes.len 0)
          let val ← orNewF o.val (List.replicate indexes.len zero)
          mNewTreeBody S X d (o.with indexes inn val) indexes) m = mNewTreeBody S X d (o.with ix inn val) ix m3 := by
        rw [run_step e1, run_step e2, run_step e3]
      have hb' := hb.mono (W' := (o.with ix inn val).wF) (V' := (o.with ix inn val).wI) (fun _ _ h => h) (fun _ _ h => h) (R' := MTreeRel o.wI)
        (fun m' a b _ hab _ => ⟨hab.1, hab.2.mono fun a ha => ?_⟩)
      · unfold Sim
        rw [hrun]
        refine ⟨(f0 F3).trans hb'.1 (fun a ha hw => ?_) (fun a ha hw => ?_), hb'.2⟩
        · rw [wv] at hw
          rcases a3.or with hv | ⟨hv, hn⟩
          · show o.val.map Sl.arr = _
            rw [hv, hw]
            rfl
          · rw [hfl] at hn
            omega
        · rw [wi] at hw
          rcases a2.or with hv | ⟨hv, hn⟩
          · show o.inn.map Sl.arr = _
            rw [hv, hw]
            rfl
          · have := a1.frame.ix.len
            omega
      · rw [wi]
        have ha' : o.inn.map Sl.arr = some a := ha
        rcases a2.or with hv | ⟨hv, hn⟩
        · rw [hv] at ha'
          exact (Option.some.inj ha').symm
        · rw [hv] at ha'
          exact absurd ha' (by simp)

end Boo
