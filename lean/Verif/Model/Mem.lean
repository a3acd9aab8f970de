import Verif.Model.MultiClass
import Verif.Model.Stat

/-!
# The slices of training and prediction

The other files of the model treat slices and matrices as values. Here they are references to arrays in a memory, as in Go: several slices may
share an array, buffers are reused, and a write through one slice is seen through all others. `Props/Mem` shows that the two models agree.

Simplifications: the capacity of a slice is its length; a slice that is built by `append` from an empty one is made at once when it is
complete; slices that never leave a function and are only used as lists of values (`stopped`, `prevloss`, `AllowedColumns`) are lists, and so
is the outer slice of `[][]float64` (no entry of an existing one is assigned in boo). Arrays of indexes and arrays of labels are kept apart
(both are `[]int`).
-/

namespace Boo
open GoFloat
variable {F : Type} [GoFloat F]

/-- a slice: its array, where it begins and its length -/
structure Sl where
  arr : Nat
  off : Nat
  len : Nat
  deriving DecidableEq

/-- the memory: arrays of floats, of indexes and of labels; a new array gets the next number. `wrF` and `wrI` are the numbers of the arrays of floats
and indexes that were written so far, the last one first; no computation reads them. -/
structure Mem (F : Type) where
  fl : List (List F)
  ix : List (List Nat)
  lb : List (List Int)
  wrF : List Nat := []
  wrI : List Nat := []

/-- the entries of a slice of an array -/
def Sl.view {α : Type} (s : Sl) (arrays : List (List α)) : List α := (((arrays[s.arr]?).getD []).drop s.off).take s.len

/-- overwrite the first entries of a slice -/
def Sl.put {α : Type} (s : Sl) (l : List α) (arrays : List (List α)) : List (List α) :=
  arrays.modify s.arr fun a => a.take s.off ++ l ++ a.drop (s.off + l.length)

/-- a computation with a memory: it ends or panics, or reads, writes or makes a slice and goes on -/
inductive MGo (F α : Type) where
  | ret (g : Go α)
  | readF (s : Sl) (k : List F → MGo F α)
  | readI (s : Sl) (k : List Nat → MGo F α)
  | readL (s : Sl) (k : List Int → MGo F α)
  | writeF (s : Sl) (l : List F) (k : MGo F α)
  | writeI (s : Sl) (l : List Nat) (k : MGo F α)
  | allocF (l : List F) (k : Sl → MGo F α)
  | allocI (l : List Nat) (k : Sl → MGo F α)
  | allocL (l : List Int) (k : Sl → MGo F α)

/-- one computation after the other -/
def MGo.seq {α β : Type} : MGo F α → (α → MGo F β) → MGo F β
  | .ret (.ok a), f => f a
  | .ret (.error e), _ => .ret (.error e)
  | .readF s k, f => .readF s fun l => (k l).seq f
  | .readI s k, f => .readI s fun l => (k l).seq f
  | .readL s k, f => .readL s fun l => (k l).seq f
  | .writeF s l k, f => .writeF s l (k.seq f)
  | .writeI s l k, f => .writeI s l (k.seq f)
  | .allocF l k, f => .allocF l fun s => (k s).seq f
  | .allocI l k, f => .allocI l fun s => (k s).seq f
  | .allocL l k, f => .allocL l fun s => (k s).seq f

instance : Monad (MGo F) where
  pure a := .ret (.ok a)
  bind := MGo.seq

/-- the memory after a slice of floats was written -/
def Mem.writeF (m : Mem F) (s : Sl) (l : List F) : Mem F := { m with fl := s.put l m.fl, wrF := s.arr :: m.wrF }
/-- the memory after a slice of indexes was written -/
def Mem.writeI (m : Mem F) (s : Sl) (l : List Nat) : Mem F := { m with ix := s.put l m.ix, wrI := s.arr :: m.wrI }
/-- the memory with one more array of floats -/
def Mem.addF (m : Mem F) (l : List F) : Mem F := { m with fl := m.fl ++ [l] }
/-- the memory with one more array of indexes -/
def Mem.addI (m : Mem F) (l : List Nat) : Mem F := { m with ix := m.ix ++ [l] }
/-- the memory with one more array of labels -/
def Mem.addL (m : Mem F) (l : List Int) : Mem F := { m with lb := m.lb ++ [l] }

/-- what a computation returns, and the memory afterwards (also after a panic) -/
def MGo.run {α : Type} : MGo F α → Mem F → Go α × Mem F
  | .ret g, m => (g, m)
  | .readF s k, m => (k (s.view m.fl)).run m
  | .readI s k, m => (k (s.view m.ix)).run m
  | .readL s k, m => (k (s.view m.lb)).run m
  | .writeF s l k, m => k.run (m.writeF s l)
  | .writeI s l k, m => k.run (m.writeI s l)
  | .allocF l k, m => (k ⟨m.fl.length, 0, l.length⟩).run (m.addF l)
  | .allocI l k, m => (k ⟨m.ix.length, 0, l.length⟩).run (m.addI l)
  | .allocL l k, m => (k ⟨m.lb.length, 0, l.length⟩).run (m.addL l)

instance {α : Type} : CoeFun (MGo F α) (fun _ => Mem F → Go α × Mem F) := ⟨MGo.run⟩

/-- a computation that does not use the memory -/
def MGo.lift {α : Type} (g : Go α) : MGo F α := .ret g

/-- the entries of a slice of floats -/
def rdF (s : Sl) : MGo F (List F) := .readF s fun l => .ret (.ok l)
/-- the entries of a slice of indexes -/
def rdI (s : Sl) : MGo F (List Nat) := .readI s fun l => .ret (.ok l)
/-- the entries of a slice of labels -/
def rdL (s : Sl) : MGo F (List Int) := .readL s fun l => .ret (.ok l)
/-- `s[i]` -/
def atF (s : Sl) (i : Nat) : MGo F F := .readF s fun l => .ret (goIdx l i)
/-- overwrite the first entries of a slice of floats at once -/
def putF (s : Sl) (l : List F) : MGo F Unit := .writeF s l (.ret (.ok ()))
/-- overwrite the first entries of a slice of indexes at once -/
def putI (s : Sl) (l : List Nat) : MGo F Unit := .writeI s l (.ret (.ok ()))
/-- `s[i] = v` -/
def setF (s : Sl) (i : Nat) (v : F) : MGo F Unit := if i < s.len then putF ⟨s.arr, s.off + i, 1⟩ [v] else .ret (.error .index)
/-- `s[i] = v` for indexes -/
def setI (s : Sl) (i : Nat) (v : Nat) : MGo F Unit := if i < s.len then putI ⟨s.arr, s.off + i, 1⟩ [v] else .ret (.error .index)
/-- a new slice of floats -/
def newF (l : List F) : MGo F Sl := .allocF l fun s => .ret (.ok s)
/-- a new slice of indexes -/
def newI (l : List Nat) : MGo F Sl := .allocI l fun s => .ret (.ok s)
/-- a new slice of labels -/
def newL (l : List Int) : MGo F Sl := .allocL l fun s => .ret (.ok s)

/-- `s[0:n]` -/
def reslice (s : Sl) (n : Nat) : Go Sl := if s.len < n then .error .slice else .ok { s with len := n }

/-- the entries of the rows of a `[][]float64` -/
def rdRows : List Sl → MGo F (List (List F))
  | [] => pure []
  | s :: X => do
    let r ← rdF s
    let rs ← rdRows X
    pure (r :: rs)

/-! ### utils/math.go -/

/-- utils/math.go:26-38 `SampleSlice` -/
def mSampleSlice (s indexes : Sl) : MGo F Sl := do
  let l ← rdF s
  let ix ← rdI indexes
  let r ← MGo.lift (sampleSlice l ix)
  newF r

/-- tree.go:149, 152 and 181-182: the column of the samples; the arrays of the intermediate matrices are omitted -/
def mSampleCol (X : List Sl) (indexes : Sl) (f : Nat) : MGo F Sl := do
  let rows ← rdRows X
  let ix ← rdI indexes
  let r ← MGo.lift (sampleCol rows ix f)
  newF r

/-- the loop of utils/math.go:55-58 -/
def mFillLoop (target tmpint tmpval : Sl) : List Nat → MGo F Unit
  | [] => pure ()
  | i :: is => do
    let v ← atF target i
    setI tmpint i i
    setF tmpval i v
    mFillLoop target tmpint tmpval is

/-- utils/math.go:59-60: `sort.Sort` of an `idSorter`, in place -/
def mSort (S : GoSort) (tmpint tmpval : Sl) : MGo F Unit :=
  if tmpval.len < tmpint.len then MGo.lift (.error .index) else do
    let ints ← rdI tmpint
    let vals ← rdF tmpval
    let r := S.sort idLess ((vals.take ints.length).zip ints)
    putI tmpint (r.map Prod.snd)
    putF tmpval (r.map Prod.fst)

/-- utils/math.go:54-62 `MemArgSort` -/
def mMemArgSort (S : GoSort) (target tmpint tmpval : Sl) : MGo F (Sl × Sl) := do
  mFillLoop target tmpint tmpval (List.range target.len)
  mSort S tmpint tmpval
  pure (tmpint, tmpval)

/-- A `*mat.Dense` -/
structure MDense where
  r : Nat
  c : Nat
  data : Sl

/-- gonum `mat.NewDense(r, c, nil)` -/
def mNewDense (r c : Nat) (l : List F) : MGo F MDense :=
  if r = 0 ∨ c = 0 ∨ l.length ≠ r * c then MGo.lift (.error .shape) else do
    let s ← newF l
    pure ⟨r, c, s⟩

/-- gonum `D.RawRowView(i)`, for `i` in range: not a copy -/
def MDense.row (D : MDense) (i : Nat) : Sl := ⟨D.data.arr, D.data.off + i * D.c, D.c⟩

/-- utils/math.go:104-116 `DenseCol` -/
def mDenseCol (D : MDense) (col : Nat) : MGo F Sl := do
  let l ← rdF D.data
  let r ← MGo.lift (denseCol ⟨D.r, D.c, l⟩ col)
  newF r

/-- the loop of utils/math.go:132-135 -/
def mAddLoop (data s : Sl) : List Nat → Nat → MGo F Unit
  | [], _ => pure ()
  | i :: is, cont => do
    let d ← atF data i
    let x ← atF s cont
    setF data i (d +. x)
    mAddLoop data s is (cont + 1)

/-- utils/math.go:120-137 `AddToCol` -/
def mAddToCol (D : MDense) (s : Sl) (col : Nat) : MGo F Unit :=
  if col > D.c then MGo.lift (.error .explicit)
  else if s.len ≠ D.r then MGo.lift (.error .explicit)
  else mAddLoop D.data s (strideIdx D.data.len D.c (D.data.len + 1) col) 0

/-- every entry of a slice is replaced: utils/math.go:140-145 `ToOnes`, gonum's `Scale` and `MulElem` with the receiver as argument, `floats.Scale` -/
def mMapInPlace (s : Sl) (f : F → F) : MGo F Unit := do
  let l ← rdF s
  putF s (l.map f)

/-! ### utils/loss_acti.go -/

/-- the first loop of utils/loss_acti.go:40-42 -/
def mExpLoop (exp : F → F) (p probs : Sl) : List Nat → MGo F Unit
  | [] => pure ()
  | i :: is => do
    let v ← atF p i
    setF probs i (exp v)
    mExpLoop exp p probs is

/-- the loop of utils/loss_acti.go:44-46 -/
def mDivLoop (probs : Sl) (den : F) : List Nat → MGo F Unit
  | [] => pure ()
  | i :: is => do
    let v ← atF probs i
    setF probs i (v /. den)
    mDivLoop probs den is

/-- utils/loss_acti.go:36-48 `SoftMax`; the result is the slice `probs` -/
def mSoftMax (exp : F → F) (p : Sl) (probs : Option Sl) : MGo F Sl := do
  let probs ← match probs with
    | some s => pure s
    | none => newF (List.replicate p.len zero)
  mExpLoop exp p probs (List.range p.len)
  let l ← rdF probs
  mDivLoop probs (GoFloat.sum l) (List.range p.len)
  pure probs

/-- the loop of utils/loss_acti.go:64-69: gonum's `RawRowView` and `SetRow` check the index and the length -/
def mSoftLoop (exp : F → F) (O D : MDense) : List Nat → MGo F Unit
  | [] => pure ()
  | i :: is =>
    if D.r ≤ i then MGo.lift (.error .shape) else do
      let p ← mSoftMax exp (O.row i) (some (D.row i))
      if p.len ≠ D.c then MGo.lift (.error .shape) else do
        let l ← rdF p
        putF (D.row i) l
        mSoftLoop exp O D is

/-- utils/loss_acti.go:52-71 `SoftMaxDense` -/
def mSoftMaxDense (exp : F → F) (O : MDense) (D : Option MDense) : MGo F MDense := do
  let D ← match D with
    | some D => pure D
    | none => do
      let s ← newF (List.replicate (O.r * O.c) zero)
      pure ⟨O.r, O.c, s⟩
  mSoftLoop exp O D (List.range O.r)
  pure D

/-- the loop of gonum's `dst.Sub(a, b)` -/
def mSubLoop (dst a b : Sl) : List Nat → MGo F Unit
  | [] => pure ()
  | i :: is => do
    let x ← atF a i
    let y ← atF b i
    setF dst i (x -. y)
    mSubLoop dst a b is

/-- gonum `dst.Sub(a, b)` on 1×n matrices -/
def mSub (dst a b : Sl) : MGo F Unit :=
  if a.len ≠ b.len ∨ dst.len ≠ a.len then MGo.lift (.error .shape) else mSubLoop dst a b (List.range a.len)

/-- the losses of boo -/
inductive MLoss | sqErr | mse

/-- the methods of the loss -/
def MLoss.fn : MLoss → LossFunc F
  | .sqErr => sqErrLoss
  | .mse => mseLoss

/-- utils/loss_acti.go:108-115 and 166-173 `NegGradients` into a buffer -/
def mNegGradients (y p results : Sl) : MGo F Unit := mSub results y p

/-- utils/loss_acti.go:119-124 and 177-182 `Gradients` into a buffer -/
def mGradients (y p results : Sl) : MGo F Unit := do
  mNegGradients y p results
  mMapInPlace results fun v => ofInt (-1) *. v

/-- utils/loss_acti.go:126-136 and 184-198 `Hessian(p, nil)` -/
def mHessian (lf : MLoss) (p : Sl) : MGo F Sl := do
  let l ← rdF p
  newF ((lf.fn : LossFunc F).hessian l)

/-- utils/loss_acti.go:88-104 and 142-158 `Loss` with a scratch matrix -/
def mLoss (y p scratch : Sl) : MGo F F := do
  mSub scratch y p
  mMapInPlace scratch fun v => v *. v
  let l ← rdF scratch
  pure (l.foldl (fun s v => s +. v) zero /. ofInt l.length)

/-! ### tree.go -/

/-- tree.go:40-55 `TreeOptions` -/
structure MTreeOptions (F : Type) where
  xgb : Bool
  minChildWeight : F
  allowedColumns : List Nat
  lambda : F
  gamma : F
  colSampleByNode : F
  gradients : Option Sl
  hessian : Option Sl
  y : Option Sl
  inn : Option Sl
  val : Option Sl
  maxDepth : Int
  indexes : Option Sl

/-- tree.go:73-88 `clone` -/
def MTreeOptions.clone (o : MTreeOptions F) : MTreeOptions F :=
  { xgb := o.xgb, gradients := o.gradients, hessian := o.hessian, y := o.y,
    minChildWeight := o.minChildWeight, lambda := o.lambda, gamma := o.gamma,
    colSampleByNode := o.colSampleByNode, maxDepth := o.maxDepth, indexes := o.indexes,
    allowedColumns := [], inn := none, val := none }

/-- tree.go:20-37 `*Tree`: `samples` is the slice of that name (the list in `info` is not used). -/
inductive MTree (F : Type) where
  | nil
  | node (info : NodeInfo F) (samples : Sl) (left right : MTree F)

/-- the slice that an optional slice stands for: nil is an empty slice -/
def slOf (s : Option Sl) : Sl := s.getD ⟨0, 0, 0⟩

/-- tree.go:179-253 `findBetterSplit` -/
def mFindBetterSplit (S : GoSort) (X : List Sl) (o : MTreeOptions F) (featureIndex : Nat) (best : Best F) : MGo F (Best F) := do
  let indexes := slOf o.indexes
  let col ← mSampleCol X indexes featureIndex
  let inn ← MGo.lift (reslice (slOf o.inn) col.len)
  let val ← MGo.lift (reslice (slOf o.val) col.len)
  let sorted ← mMemArgSort S col inn val
  let n := indexes.len
  if o.xgb then do
    let g ← mSampleSlice (slOf o.gradients) indexes
    let h ← mSampleSlice (slOf o.hessian) indexes
    let sortg ← mSampleSlice g sorted.1
    let sorth ← mSampleSlice h sorted.1
    let gs ← rdF g
    let hs ← rdF h
    let xs ← rdF sorted.2
    let sg ← rdF sortg
    let sh ← rdF sorth
    let p : ScanParams F := ⟨true, toInt o.minChildWeight, o.lambda, o.gamma, GoFloat.sum gs, GoFloat.sum hs, n, featureIndex⟩
    pure (scan p (xs.zip (sg.zip sh)) 0 n zero (GoFloat.sum gs) zero (GoFloat.sum hs) best)
  else do
    let ypart ← mSampleSlice (slOf o.y) indexes
    let sorty ← mSampleSlice ypart sorted.1
    let xs ← rdF sorted.2
    let sy ← rdF sorty
    let p : ScanParams F := ⟨false, toInt o.minChildWeight, o.lambda, o.gamma, GoFloat.sum sy, zero, n, featureIndex⟩
    pure (scan p (xs.zip (sy.zip sy)) 0 n zero (GoFloat.sum sy) zero zero best)

/-- tree.go:139-145, the loop over the features that are allowed -/
def mSearchLoop (S : GoSort) (X : List Sl) (o : MTreeOptions F) : List Nat → Best F → MGo F (Best F)
  | [], best => pure best
  | i :: is, best => do
    let best ← mFindBetterSplit S X o i best
    mSearchLoop S X o is best

/-- tree.go:140 -/
def MTreeOptions.columnAllowed (o : MTreeOptions F) (i : Nat) : Bool := o.allowedColumns.isEmpty || o.allowedColumns.contains i

/-- tree.go:115-123: value of a new node -/
def mNodeValue (o : MTreeOptions F) (indexes : Sl) : MGo F F :=
  if o.xgb then do
    let g ← mSampleSlice (slOf o.gradients) indexes
    let h ← mSampleSlice (slOf o.hessian) indexes
    let gs ← rdF g
    let hs ← rdF h
    pure ((ofInt (-1) *. GoFloat.sum gs) /. (GoFloat.sum hs +. o.lambda))
  else do
    let sam ← mSampleSlice (slOf o.y) indexes
    let l ← rdF sam
    pure (GoFloat.sum l /. ofInt l.length)

/-- `T.branches`, 0 for nil -/
def MTree.branches : MTree F → Nat
  | .nil => 0
  | .node i _ _ _ => i.branches

/-- a slice of indexes, made if it is nil -/
def orNewI (s : Option Sl) (l : List Nat) : MGo F Sl := match s with
  | some s => pure s
  | none => newI l

/-- a slice of floats, made if it is nil -/
def orNewF (s : Option Sl) (l : List F) : MGo F Sl := match s with
  | some s => pure s
  | none => newF l

/-- tree.go:91-177 `NewTree` with `maybeInsertChildNode` inlined; `d` is `max(0, o.MaxDepth)`. -/
def mNewTreeD (S : GoSort) (X : List Sl) : Nat → MTreeOptions F → MGo F (MTree F)
  | d, o =>
    if o.xgb && o.gradients.isNone && o.hessian.isNone then MGo.lift (.error .explicit) else do
    let indexes ← orNewI o.indexes (List.range X.length)
    let inn ← orNewI o.inn (List.replicate indexes.len 0)
    let val ← orNewF o.val (List.replicate indexes.len zero)
    let o := { o with indexes := some indexes, inn := some inn, val := some val }
    let value ← mNodeValue o indexes
    let row0 ← MGo.lift (goIdx X 0)
    let score0 : F := if o.xgb then zero else posInf
    let info : NodeInfo F :=
      { samples := [], bestScoreSoFar := score0, value := value, nsamples := indexes.len,
        features := row0.len, splitFeatureIndex := 0, threshold := zero, xgb := o.xgb,
        branches := 1 }
    match d with
    | 0 => pure (.node info indexes .nil .nil)
    | d + 1 => do
      let best ← mSearchLoop S X o ((List.range info.features).filter o.columnAllowed) ⟨score0, 0, zero⟩
      let info := { info with bestScoreSoFar := best.score, splitFeatureIndex := best.feature,
                              threshold := best.threshold }
      if info.leaf then pure (.node info indexes .nil .nil)
      else do
        let col ← mSampleCol X indexes info.splitFeatureIndex
        let cs ← rdF col
        let is ← rdI indexes
        let pairs := cs.zip is
        let indexleft ← newI ((pairs.filter fun p => p.1 <=. info.threshold).map Prod.snd)
        let indexright ← newI ((pairs.filter fun p => !(p.1 <=. info.threshold)).map Prod.snd)
        let oleft := { o.clone with maxDepth := o.maxDepth - 1 }
        let oright := oleft.clone
        let left ← mNewTreeD S X d { oleft with indexes := some indexleft, inn := o.inn, val := o.val }
        let right ← mNewTreeD S X d { oright with indexes := some indexright, inn := o.inn, val := o.val }
        pure (.node { info with branches := info.branches + left.branches + right.branches } indexes left right)

/-- tree.go:91-136 `NewTree` -/
def mNewTree (S : GoSort) (X : List Sl) (o : MTreeOptions F) : MGo F (MTree F) := mNewTreeD S X o.maxDepth.toNat o

/-- tree.go:285-296 `PredictSingle` on the entries of a row -/
def MTree.predictSingle : MTree F → List F → Go F
  | .nil, _ => .error .nilDeref
  | .node i _ l r, row =>
    if i.leaf then .ok i.value
    else do
      let v ← goIdx row i.splitFeatureIndex
      if v <=. i.threshold then l.predictSingle row else r.predictSingle row

/-- the loop of tree.go:278-280 -/
def mPredictLoop (t : MTree F) (preds : Sl) : List Sl → Nat → MGo F Unit
  | [], _ => pure ()
  | v :: vs, i => do
    let row ← rdF v
    let p ← MGo.lift (t.predictSingle row)
    setF preds i p
    mPredictLoop t preds vs (i + 1)

/-- tree.go:274-282 `Predict`; the result is the slice `preds` -/
def mPredict (t : MTree F) (data : List Sl) (preds : Option Sl) : MGo F Sl := do
  let preds ← orNewF preds (data.map fun _ => zero)
  mPredictLoop t preds data 0
  pure preds

/-- xgb.go:198-227 `updateLeaves` -/
def mUpdateLeaves (g h : Sl) : MTree F → MGo F (MTree F)
  | .nil => pure .nil
  | .node i s l r => do
    let l ← mUpdateLeaves g h l
    let r ← mUpdateLeaves g h r
    if i.leaf then do
      let gs ← rdF g
      let hs ← rdF h
      let is ← rdI s
      let v ← MGo.lift (leafSums gs hs is zero zero)
      pure (.node { i with value := v.2 /. v.1 } s l r)
    else pure (.node i s l r)

/-! ### xgb.go -/

/-- utils/libsvm.go:18-23 `DataBunch`: the rows and the labels -/
structure MData where
  data : List Sl
  labels : Sl

/-- The variables of the training loop, xgb.go:28-49 -/
structure MTrainState (F : Type) where
  rawPred : MDense
  probs : MDense
  grads : Sl
  tmpPreds : Sl
  tmploss : Sl
  tin : Sl
  tval : Sl
  stopped : List Bool
  noProgress : List Int
  prevloss : List F
  boosters : List (List (MTree F))
  draws : Nat → F

/-- xgb.go:66-98: the tree for a class -/
def mClassTree (S : GoSort) (data : List Sl) (O : Options F) (lf : MLoss) (indexes : Option Sl) (cols : List Nat) (y p : Sl)
    (grads tin tval : Sl) : MGo F (MTree F) := do
  let hess ← mHessian lf p
  if O.xgb then do
    mGradients y p grads
    mNewTree S data {
      xgb := true, colSampleByNode := one, minChildWeight := O.minChildWeight, maxDepth := O.maxDepth, lambda := O.lambda,
      gamma := O.gamma, indexes := indexes, allowedColumns := cols, gradients := some grads,
      hessian := some hess, y := some y, inn := some tin, val := some tval }
  else do
    mNegGradients y p grads
    let t ← mNewTree S data {
      xgb := false, allowedColumns := [], lambda := zero, gamma := zero, colSampleByNode := zero,
      inn := some tin, val := some tval, minChildWeight := O.minChildWeight, maxDepth := O.maxDepth,
      y := some grads, gradients := none, hessian := none, indexes := none }
    mUpdateLeaves grads hess t

/-- xgb.go:113-137: bookkeeping of early stopping -/
def mEarlyStopping (O : Options F) (round k : Nat) (currloss : F) (st : MTrainState F) : MTrainState F :=
  if O.earlyStop > 0 then
    if currloss <=. earlyEps then { st with stopped := st.stopped.set k true }
    else if round = 0 then { st with prevloss := st.prevloss.set k currloss }
    else
      let np := if (st.prevloss.getD k zero) <=. currloss then st.noProgress.getD k 0 + 1 else 0
      { st with
        noProgress := st.noProgress.set k np
        stopped := if np ≥ O.earlyStop then st.stopped.set k true else st.stopped
        prevloss := st.prevloss.set k currloss }
  else st

/-- xgb.go:62-138: the body of the loop over classes. `lf` is the loss of the options, `none` for nil. -/
def mTrainClass (exp : F → F) (S : GoSort) (data : List Sl) (O : Options F) (lf : Option MLoss) (ohe : MDense)
    (indexes : Option Sl) (cols : List Nat) (round : Nat)
    (acc : MTrainState F × List (MTree F)) (k : Nat) : MGo F (MTrainState F × List (MTree F)) :=
  let st := acc.1
  if st.stopped.getD k false then pure acc
  else do
    let y ← mDenseCol ohe k
    let p ← mDenseCol st.probs k
    match lf with
    | none => MGo.lift (.error .nilDeref)
    | some lf => do
      let tree ← mClassTree S data O lf indexes cols y p st.grads st.tin st.tval
      let preds ← mPredict tree data (some st.tmpPreds)
      mMapInPlace preds fun v => v *. O.learningRate
      mAddToCol st.rawPred preds k
      let probs ← mSoftMaxDense exp st.rawPred (some st.probs)
      let currloss ← if O.earlyStop > 0 ∨ O.verbose = true then do
          let kp ← mDenseCol probs k
          mLoss y kp st.tmploss
        else pure zero
      let st := { st with probs := probs, tmpPreds := preds }
      pure (mEarlyStopping O round k currloss st, acc.2 ++ [tree])

/-- the loop over classes -/
def mClassLoop (exp : F → F) (S : GoSort) (data : List Sl) (O : Options F) (lf : Option MLoss) (ohe : MDense)
    (indexes : Option Sl) (cols : List Nat) (round : Nat) : List Nat → MTrainState F × List (MTree F) → MGo F (MTrainState F × List (MTree F))
  | [], acc => pure acc
  | k :: ks, acc => do
    let acc ← mTrainClass exp S data O lf ohe indexes cols round acc k
    mClassLoop exp S data O lf ohe indexes cols round ks acc

/-- xgb.go:51-57: the row sample, the column sample and the remaining draws -/
def mRoundSamples (data : List Sl) (O : Options F) (draws : Nat → F) : MGo F (Option Sl × List Nat × (Nat → F)) := do
  let (idx, draws) ←
    (if (O.subSample <. one) && O.xgb then do
      let s ← MGo.lift (subSample data.length O.subSample draws)
      let s ← newI s
      pure (some s, fun i => draws (i + data.length))
    else pure (none, draws) : MGo F (Option Sl × (Nat → F)))
  if (O.colSubSample <. one) && O.xgb then do
    let row0 ← MGo.lift (goIdx data 0)
    let cols ← MGo.lift (subSample row0.len O.colSubSample draws)
    pure (idx, cols, fun i => draws (i + row0.len))
  else pure (idx, [], draws)

/-- xgb.go:50-140: the body of the loop over rounds -/
def mTrainRound (exp : F → F) (S : GoSort) (data : List Sl) (O : Options F) (lf : Option MLoss) (ohe : MDense)
    (nlabels : Nat) (st : MTrainState F) (round : Nat) : MGo F (MTrainState F) := do
  let s ← mRoundSamples data O st.draws
  let st := { st with draws := s.2.2 }
  if (((s.1.map Sl.len).getD 0 : Nat) : Int) < O.minSample then pure st
  else do
    let r ← mClassLoop exp S data O lf ohe s.1 s.2.1 round (List.range nlabels) (st, [])
    pure { r.1 with boosters := r.1.boosters ++ [r.2] }

/-- the loop over rounds -/
def mRoundLoop (exp : F → F) (S : GoSort) (data : List Sl) (O : Options F) (lf : Option MLoss) (ohe : MDense)
    (nlabels : Nat) : List Nat → MTrainState F → MGo F (MTrainState F)
  | [], st => pure st
  | r :: rs, st => do
    let st ← mTrainRound exp S data O lf ohe nlabels st r
    mRoundLoop exp S data O lf ohe nlabels rs st

/-- multiclass.go:15-24 `MultiClass`; `probTransform` is `SoftMaxDense` -/
structure MModel (F : Type) where
  b : List (List (MTree F))
  learningRate : F
  classLabels : Sl
  baseScore : F
  xgb : Bool

/-- xgb.go:21-143 `NewMultiClass`; the field `Loss` of the options is given apart -/
def mNewMultiClass (exp : F → F) (S : GoSort) (draws : Nat → F) (D : MData) (O : Options F) (lf : Option MLoss) : MGo F (MModel F) := do
  let labels ← rdL D.labels
  let enc ← MGo.lift (oneHotEncodeDense (F := F) labels)
  let de ← newL enc.2
  let od ← newF enc.1.data
  let ohe : MDense := ⟨enc.1.r, enc.1.c, od⟩
  let raw ← mNewDense ohe.r ohe.c (List.replicate (ohe.r * ohe.c) zero)
  mMapInPlace raw.data fun _ => one
  mMapInPlace raw.data fun v => O.baseScore *. v
  let tin ← newI (List.replicate D.data.length 0)
  let tval ← newF (List.replicate D.data.length zero)
  let probs ← mSoftMaxDense exp raw none
  let grads ← newF (List.replicate ohe.r zero)
  let tmpPreds ← newF (List.replicate ohe.r zero)
  let tmploss ← newF (List.replicate ohe.r zero)
  let st : MTrainState F :=
    { rawPred := raw, probs := probs, grads := grads, tmpPreds := tmpPreds, tmploss := tmploss, tin := tin, tval := tval,
      stopped := List.replicate de.len false, noProgress := List.replicate de.len 0, prevloss := List.replicate de.len zero,
      boosters := [], draws := draws }
  let st ← mRoundLoop exp S D.data O.fixMcw lf ohe de.len (List.range O.rounds.toNat) st
  pure { b := st.boosters, learningRate := O.learningRate, classLabels := de, baseScore := O.baseScore, xgb := O.xgb }

/-! ### multiclass.go -/

/-- multiclass.go:99-101: one round, `class` counts from `c` -/
def mAddRound (lr : F) (instance_ tmp : Sl) : List (MTree F) → Nat → MGo F Unit
  | [], _ => pure ()
  | t :: ts, c => do
    let row ← rdF instance_
    let p ← MGo.lift (t.predictSingle row)
    let x ← atF tmp c
    setF tmp c (x +. p *. lr)
    mAddRound lr instance_ tmp ts (c + 1)

/-- multiclass.go:98-102: all rounds -/
def mAddRounds (lr : F) (instance_ tmp : Sl) : List (List (MTree F)) → MGo F Unit
  | [] => pure ()
  | ens :: b => do
    mAddRound lr instance_ tmp ens 0
    mAddRounds lr instance_ tmp b

/-- multiclass.go:91-108 `PredictSingle`: the slice returned. A slice given for the predictions is not used. -/
def mPredictSingle (exp : F → F) (M : MModel F) (instance_ : Sl) : MGo F Sl := do
  let b0 ← MGo.lift (goIdx M.b 0)
  let preds ← newF (List.replicate b0.length zero)
  let tmp ← newF (List.replicate b0.length M.baseScore)
  mAddRounds M.learningRate instance_ tmp M.b
  if b0.length = 0 then MGo.lift (.error .shape) else do
    let D ← mSoftMaxDense exp ⟨1, tmp.len, tmp⟩ (some ⟨1, preds.len, preds⟩)
    pure D.data

/-- multiclass.go:76-87 `PredictSingleClass` -/
def mPredictSingleClass (exp : F → F) (M : MModel F) (instance_ : Sl) : MGo F Nat := do
  let preds ← mPredictSingle exp M instance_
  let l ← rdF preds
  MGo.lift (argmaxFirst l)

/-- the loop of multiclass.go:41-46 -/
def mCountRight (exp : F → F) (M : MModel F) (labels : Sl) : List Sl → Nat → Nat → MGo F Nat
  | [], _, right => pure right
  | v :: vs, i, right => do
    let p ← mPredictSingleClass exp M v
    let cl ← rdL M.classLabels
    let lab ← MGo.lift (goIdx cl p)
    let ls ← rdL labels
    let actual ← MGo.lift (goIdx ls i)
    mCountRight exp M labels vs (i + 1) (if lab = actual then right + 1 else right)

/-- multiclass.go:34-49 `Accuracy`; the buffer `predtmp` is only handed to `PredictSingle`, which does not use it -/
def mAccuracy (exp : F → F) (M : MModel F) (D : MData) : MGo F F := do
  let right ← mCountRight exp M D.labels D.data 0 0
  pure (ofRat 100 *. (ofInt right /. ofInt D.data.length))

/-- multiclass.go:26-30 `ClassLabels` -/
def mClassLabels (M : MModel F) : MGo F Sl := do
  let l ← rdL M.classLabels
  newL l

end Boo
