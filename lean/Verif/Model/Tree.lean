import Verif.Model.Math

/-!
# tree.go

A Go `*Tree` is `Tree`: `Tree.nil` is the nil pointer. The fields `x, y, grads, hess` are references
to the training data that are not read after construction, and `id` is never set; they are omitted.
Debug output is omitted.
-/

namespace Boo
open GoFloat

variable {F : Type} [GoFloat F]

/-- tree.go:40-55 `TreeOptions`. `Indexes`, `Gradients` and `Hessian` distinguish nil. `in` and `val`
are scratch buffers that are always allocated together; `scratch` is their length (`none` = nil).
`Debug` is omitted. -/
structure TreeOptions (F : Type) where
  xgb : Bool
  minChildWeight : F
  allowedColumns : List Nat
  lambda : F
  gamma : F
  colSampleByNode : F
  gradients : Option (List F)
  hessian : Option (List F)
  y : List F
  scratch : Option Nat
  maxDepth : Int
  indexes : Option (List Nat)

/-- tree.go:64-66 `DefaultGTreeOptions` -/
def defaultGTreeOptions : TreeOptions F :=
  { xgb := false, minChildWeight := one, allowedColumns := [], lambda := zero, gamma := zero,
    colSampleByNode := zero, gradients := none, hessian := none, y := [], scratch := none,
    maxDepth := 4, indexes := none }

/-- tree.go:69-71 `DefaultXTreeOptions` -/
def defaultXTreeOptions : TreeOptions F :=
  { xgb := true, minChildWeight := one, allowedColumns := [], lambda := one, gamma := one,
    colSampleByNode := one, gradients := none, hessian := none, y := [], scratch := none,
    maxDepth := 4, indexes := none }

/-- tree.go:73-88 `clone`: note that `AllowedColumns`, `in` and `val` are not copied. -/
def TreeOptions.clone (o : TreeOptions F) : TreeOptions F :=
  { xgb := o.xgb, gradients := o.gradients, hessian := o.hessian, y := o.y,
    minChildWeight := o.minChildWeight, lambda := o.lambda, gamma := o.gamma,
    colSampleByNode := o.colSampleByNode, maxDepth := o.maxDepth, indexes := o.indexes,
    allowedColumns := [], scratch := none }

/-- The data fields of a node, tree.go:20-37. -/
structure NodeInfo (F : Type) where
  samples : List Nat
  bestScoreSoFar : F
  value : F
  nsamples : Nat
  features : Nat
  splitFeatureIndex : Nat
  threshold : F
  xgb : Bool
  branches : Nat
  deriving DecidableEq

/-- tree.go:20-37 `*Tree` (`nil` is the nil pointer). -/
inductive Tree (F : Type) where
  | nil
  | node (info : NodeInfo F) (left right : Tree F)
  deriving DecidableEq

/-- tree.go:261-270 `Leaf` on the fields of a node -/
def NodeInfo.leaf (t : NodeInfo F) : Bool :=
  if t.xgb then t.bestScoreSoFar ==. zero else isPosInf t.bestScoreSoFar

/-- The score, feature and threshold of the best split so far (fields of `*Tree`). -/
structure Best (F : Type) where
  score : F
  feature : Nat
  threshold : F
  deriving DecidableEq

/-- `utils.TransposeFloats(utils.SampleMatrix(T.x, o.Indexes, []int{f}))[0]`,
tree.go:149,152 and 181-185 -/
def sampleCol (X : List (List F)) (indexes : List Nat) (f : Nat) : Go (List F) := do
  let x ← sampleMatrix X indexes [f]
  let xt ← transposeFloats x
  goIdx xt 0

/-- `sq`, tree.go:208 -/
def sq (x : F) : F := x *. x

/-- tree.go:228, the xgboost gain -/
def gainX (lambda gamma gL hL gR hR g h : F) : F :=
  (ofRat (1/2) *. (((sq gL /. (hL +. lambda)) +. (sq gR /. (hR +. lambda)))
    -. (sq g /. (h +. lambda)))) -. (gamma /. ofRat 2)

/-- tree.go:243, the score of a split of a regular tree (smaller is better) -/
def gainG (yL yR y : F) (nl nr n : Int) : F :=
  (((ofInt (-1) *. sq yL) /. ofInt nl) -. (sq yR /. ofInt nr)) +. (sq y /. ofInt n)

/-- What is constant during the scan of one feature. `sumA`, `sumB` are `sumg`, `sumh` for an
xgboost tree, `sumy` and an unused value for a regular one. -/
structure ScanParams (F : Type) where
  xgb : Bool
  mcw : Int
  lambda : F
  gamma : F
  sumA : F
  sumB : F
  n : Nat
  feature : Nat

/-- The gain of the current candidate. -/
def ScanParams.gain (p : ScanParams F) (nl nr : Int) (aL aR bL bR : F) : F :=
  if p.xgb then gainX p.lambda p.gamma aL bL aR bR p.sumA p.sumB
  else gainG aL aR p.sumA nl nr p.n

/-- `criterion`, tree.go:230 and 244 -/
def ScanParams.better (p : ScanParams F) (gain score : F) : Bool :=
  if p.xgb then gt gain score else gain <. score

/-- tree.go:209-252, the loop over the sorted samples. A row is `(x, a, b)` with `a, b` the gradient
and hessian (xgboost) or the target and an unused value (regular). Iteration `i` looks at row `i` and
the value `x` of row `i+1`; `continue` and `break` are the first two branches. -/
def scan (p : ScanParams F) : List (F × F × F) → Int → Int → F → F → F → F → Best F → Best F
  | (x, a, b) :: (x', a', b') :: rest, nl, nr, aL, aR, bL, bR, best =>
    let nr := nr - 1
    let nl := nl + 1
    let aL := aL +. a
    let aR := aR -. a
    let bL := bL +. b
    let bR := bR -. b
    if nl < p.mcw ∨ (x ==. x') = true then
      scan p ((x', a', b') :: rest) nl nr aL aR bL bR best
    else if nr < p.mcw then best
    else
      let gain := p.gain nl nr aL aR bL bR
      let best :=
        if p.better gain best.score then ⟨gain, p.feature, (x +. x') /. ofRat 2⟩ else best
      scan p ((x', a', b') :: rest) nl nr aL aR bL bR best
  | _, _, _, _, _, _, _, best => best

/-- tree.go:179-253 `findBetterSplit`. `MemArgSort` is called with scratch buffers cut to the length of
the column, for which it returns what `ArgSort` returns (theorem `memArgSort_eq_argSort`). -/
def findBetterSplit (S : GoSort) (X : List (List F)) (o : TreeOptions F) (featureIndex : Nat)
    (best : Best F) : Go (Best F) := do
  let indexes := o.indexes.getD []
  let col ← sampleCol X indexes featureIndex
  if o.scratch.getD 0 < col.length then .error .slice
  else
  let sorted := argSort S col
  let n := indexes.length
  if o.xgb then
    let g ← sampleSlice (o.gradients.getD []) indexes
    let h ← sampleSlice (o.hessian.getD []) indexes
    let sortg ← sampleSlice g sorted.1
    let sorth ← sampleSlice h sorted.1
    let sumg := GoFloat.sum g
    let sumh := GoFloat.sum h
    let p : ScanParams F := ⟨true, toInt o.minChildWeight, o.lambda, o.gamma, sumg, sumh, n, featureIndex⟩
    pure (scan p (sorted.2.zip (sortg.zip sorth)) 0 n zero sumg zero sumh best)
  else
    let ypart ← sampleSlice o.y indexes
    let sorty ← sampleSlice ypart sorted.1
    let sumy := GoFloat.sum sorty
    let p : ScanParams F := ⟨false, toInt o.minChildWeight, o.lambda, o.gamma, sumy, zero, n, featureIndex⟩
    pure (scan p (sorted.2.zip (sorty.zip sorty)) 0 n zero sumy zero zero best)

/-- tree.go:140: a column is skipped when the list of allowed columns is not empty and lacks it. -/
def columnAllowed (o : TreeOptions F) (i : Nat) : Bool :=
  o.allowedColumns.isEmpty || o.allowedColumns.contains i

/-- tree.go:139-145, the loop over the features -/
def searchSplit (S : GoSort) (X : List (List F)) (o : TreeOptions F) (features : Nat)
    (init : Best F) : Go (Best F) :=
  ((List.range features).filter (columnAllowed o)).foldlM
    (fun best i => findBetterSplit S X o i best) init

/-- tree.go:99-110: defaults written into the caller's options -/
def TreeOptions.fill (o : TreeOptions F) (X : List (List F)) : TreeOptions F :=
  let idx := o.indexes.getD (List.range X.length)
  { o with indexes := some idx, scratch := some (o.scratch.getD idx.length) }

/-- tree.go:115-123: value of a new node -/
def nodeValue (o : TreeOptions F) (indexes : List Nat) : Go F :=
  if o.xgb then do
    let g ← sampleSlice (o.gradients.getD []) indexes
    let h ← sampleSlice (o.hessian.getD []) indexes
    pure ((ofInt (-1) *. GoFloat.sum g) /. (GoFloat.sum h +. o.lambda))
  else do
    let sam ← sampleSlice o.y indexes
    pure (GoFloat.sum sam /. ofInt sam.length)

/-- Nodes of a tree as Go counts them (`T.branches`); 0 for nil. -/
def Tree.branches : Tree F → Nat
  | .nil => 0
  | .node i _ _ => i.branches

/-- tree.go:91-177 `NewTree` with `maybeInsertChildNode` inlined; `d` is `max(0, o.MaxDepth)`. -/
def newTreeD (S : GoSort) (X : List (List F)) : Nat → TreeOptions F → Go (Tree F)
  | d, o => do
    if o.xgb && o.gradients.isNone && o.hessian.isNone then .error .explicit
    else
    let o := o.fill X
    let indexes := o.indexes.getD []
    let value ← nodeValue o indexes
    let row0 ← goIdx X 0
    let score0 : F := if o.xgb then zero else posInf
    let info : NodeInfo F :=
      { samples := indexes, bestScoreSoFar := score0, value := value, nsamples := indexes.length,
        features := row0.length, splitFeatureIndex := 0, threshold := zero, xgb := o.xgb,
        branches := 1 }
    match d with
    | 0 => pure (.node info .nil .nil)
    | d + 1 => do
      let best ← searchSplit S X o info.features ⟨score0, 0, zero⟩
      let info := { info with bestScoreSoFar := best.score, splitFeatureIndex := best.feature,
                              threshold := best.threshold }
      if info.leaf then pure (.node info .nil .nil)
      else
        let col ← sampleCol X indexes info.splitFeatureIndex
        let pairs := col.zip indexes
        let indexleft := (pairs.filter fun p => p.1 <=. info.threshold).map Prod.snd
        let indexright := (pairs.filter fun p => !(p.1 <=. info.threshold)).map Prod.snd
        let oleft := { o.clone with maxDepth := o.maxDepth - 1 }
        let oright := oleft.clone
        let left ← newTreeD S X d { oleft with indexes := some indexleft, scratch := o.scratch }
        let right ← newTreeD S X d { oright with indexes := some indexright, scratch := o.scratch }
        pure (.node { info with branches := info.branches + left.branches + right.branches } left right)

/-- tree.go:91-136 `NewTree`. The caller's options become `o.fill X`. -/
def newTree (S : GoSort) (X : List (List F)) (o : TreeOptions F) : Go (Tree F) :=
  newTreeD S X o.maxDepth.toNat o

/-- tree.go:261-270 `Leaf` (a method call on a nil pointer panics when it reads a field) -/
def Tree.leaf : Tree F → Go Bool
  | .nil => .error .nilDeref
  | .node i _ _ => .ok i.leaf

/-- tree.go:285-296 `PredictSingle` -/
def Tree.predictSingle : Tree F → List F → Go F
  | .nil, _ => .error .nilDeref
  | .node i l r, row =>
    if i.leaf then .ok i.value
    else do
      let v ← goIdx row i.splitFeatureIndex
      if v <=. i.threshold then l.predictSingle row else r.predictSingle row

/-- the loop of tree.go:278-280 -/
def predictLoop (t : Tree F) : List (List F) → Nat → List F → Go (List F)
  | [], _, preds => .ok preds
  | v :: vs, i, preds => do
    let p ← t.predictSingle v
    if i < preds.length then predictLoop t vs (i + 1) (preds.set i p) else .error .index

/-- tree.go:274-282 `Predict`; `preds = none` is nil. -/
def Tree.predict (t : Tree F) (data : List (List F)) (preds : Option (List F)) : Go (List F) :=
  predictLoop t data 0 (preds.getD (data.map fun _ => zero))

/-! ## Printing -/

/-- `%2d` of `fmt.Sprintf`: padded with a blank to two characters -/
def fmt2d (n : Nat) : String := if n < 10 then " " ++ toString n else toString n

/-- `%d` of `fmt.Sprintf` on a slice of ints -/
def fmtInts (l : List Nat) : String := "[" ++ " ".intercalate (l.map toString) ++ "]"

/-- tree.go:300-305 `feature`; `none` is a nil slice. The condition uses `&&`. -/
def NodeInfo.featureName (t : NodeInfo F) (names : Option (List String)) : Go String :=
  if names.isNone && decide ((names.getD []).length ≤ t.splitFeatureIndex) then
    .ok (fmt2d t.splitFeatureIndex)
  else goIdx (names.getD []) t.splitFeatureIndex

/-- tree.go:310-336 `Print`; `fmt3` renders a float with `%.3f`. -/
def Tree.print (fmt3 : F → String) : Tree F → String → Option (List String) → Go String
  | .nil, _, _ => .error .nilDeref
  | .node i l r, spacing, names =>
    if i.leaf then
      .ok ("  " ++ spacing ++ "PREDICT    " ++ fmt3 i.value ++ " with " ++ fmtInts i.samples
        ++ " Samples\n")
    else do
      let f ← i.featureName names
      let sl ← l.print fmt3 (spacing ++ "  ") names
      let sr ← r.print fmt3 (spacing ++ "  ") names
      pure (spacing ++ "Feature " ++ f ++ " < " ++ fmt3 i.threshold ++ "\n"
        ++ spacing ++ "---> True\n" ++ sl ++ spacing ++ "---> False\n" ++ sr)

/-! ## Feature importance -/

/-- tree.go:340-345 `Feats`: the parallel slices `feat` and `gains` as one list of pairs. -/
structure Feats (F : Type) where
  xgb : Bool
  items : List (Nat × F)

/-- tree.go:347-349 `NewFeats` -/
def newFeats (xgb : Bool) : Feats F := ⟨xgb, []⟩

/-- add `gain` to the first entry for `feature`, or append an entry -/
def addItem (feature : Nat) (gain : F) : List (Nat × F) → List (Nat × F)
  | [] => [(feature, gain)]
  | (k, g) :: rest =>
    if k = feature then (k, g +. gain) :: rest else (k, g) :: addItem feature gain rest

/-- tree.go:353-366 `Add`, called by one goroutine at a time -/
def Feats.add (f : Feats F) (feature : Nat) (gain : F) : Feats F :=
  { f with items := addItem feature gain f.items }

/-- tree.go:369-373 `Merge` -/
def Feats.merge (f f2 : Feats F) : Feats F :=
  f2.items.foldl (fun f p => f.add p.1 p.2) f

/-- tree.go:377-383 `Less` -/
def Feats.less (xgb : Bool) (p q : Nat × F) : Bool :=
  if xgb then gt p.2 q.2 else p.2 <. q.2

/-- `sort.Sort(f)`; `Swap` (tree.go:385-388) moves feature and gain together. -/
def Feats.sort (S : GoSort) (f : Feats F) : Feats F :=
  { f with items := S.sort (Feats.less f.xgb) f.items }

/-- tree.go:404-419 `FeatureImportance` when `gains` is given: the final state of `*gains[0]`. -/
def Tree.featImp (S : GoSort) : Tree F → Feats F → Go (Feats F)
  | .nil, _ => .error .nilDeref
  | .node i l r, gains =>
    if i.leaf then .ok (gains.sort S)
    else do
      let g1 ← l.featImp S (gains.add i.splitFeatureIndex i.bestScoreSoFar)
      r.featImp S g1

/-- tree.go:404-419 `FeatureImportance` called by a user without `gains`: `none` is the error
returned for a tree that is a single leaf. -/
def Tree.featureImportance (S : GoSort) (t : Tree F) (xgb : Bool) : Go (Option (Feats F)) := do
  let leaf ← t.leaf
  if leaf then pure none
  else
    let g ← t.featImp S (newFeats xgb)
    pure (some g)

end Boo
