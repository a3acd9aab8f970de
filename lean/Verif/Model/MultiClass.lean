import Verif.Model.Options
import Verif.Model.Data
import Verif.Model.Tree

/-!
# multiclass.go and xgb.go

`math.Exp`, `math.Log` and `sort.Sort` are parameters; `rand.Float64` is a stream of draws.
Verbose output is omitted.
-/

namespace Boo
open GoFloat
variable {F : Type} [GoFloat F]

/-- multiclass.go:15-24 `MultiClass`. `probTransform = none` is a nil function. The scratch slices `tmp`
and `predtmp` are omitted: nothing reads what is stored in them (`PredictSingle` ignores its second
argument); `predtmp` is in `Model/Serve`. -/
structure MultiClass (F : Type) where
  b : List (List (Tree F))
  learningRate : F
  classLabels : List Int
  probTransform : Option (Dense F → Option (Dense F) → Go (Dense F))
  baseScore : F
  xgb : Bool

/-- multiclass.go:70-72 `Classes` -/
def MultiClass.classes (M : MultiClass F) : Int := M.b.length

/-- multiclass.go:54-66 `Rounds`; the optional argument is the first of the variadic ones. -/
def MultiClass.rounds (M : MultiClass F) (cls : Option Int) : Int :=
  let c : Int := match cls with
    | some c => if 0 ≤ c then c else 0
    | none => 0
  if M.classes < c ∨ (M.b.length : Int) ≤ c then -1
  else match M.b[c.toNat]? with
    | some r => r.length
    | none => -1

/-- `l[i] += v` -/
def addAt (l : List F) (i : Nat) (v : F) : Go (List F) :=
  match l[i]? with
  | some x => .ok (l.set i (x +. v))
  | none => .error .index

/-- multiclass.go:99-101: one round, `class` counts from `c` -/
def addRound (lr : F) (instance_ : List F) : List (Tree F) → Nat → List F → Go (List F)
  | [], _, tmp => .ok tmp
  | t :: ts, c, tmp => do
    let p ← t.predictSingle instance_
    let tmp ← addAt tmp c (p *. lr)
    addRound lr instance_ ts (c + 1) tmp

/-- multiclass.go:94-102: the raw scores -/
def MultiClass.rawScores (M : MultiClass F) (instance_ : List F) : Go (List F) := do
  let b0 ← goIdx M.b 0
  M.b.foldlM (fun tmp ens => addRound M.learningRate instance_ ens 0 tmp)
    (List.replicate b0.length M.baseScore)

/-- multiclass.go:91-108 `PredictSingle` -/
def MultiClass.predictSingle (M : MultiClass F) (instance_ : List F) : Go (List F) := do
  let tmp ← M.rawScores instance_
  let O ← newDense 1 tmp.length tmp
  let D ← newDense 1 tmp.length (tmp.map fun _ => zero)
  match M.probTransform with
  | none => .error .nilDeref
  | some f => do
    let D ← f O (some D)
    pure D.data

/-- the loop `for i, v := range row { if v > max {...} }`, multiclass.go:80-85 and xgb.go:174-179:
`i` is the next index -/
def argmaxLoop : List F → Nat → Nat → F → Nat
  | [], _, p, _ => p
  | v :: vs, i, p, m => if gt v m then argmaxLoop vs (i + 1) i v else argmaxLoop vs (i + 1) p m

/-- `row[0]` followed by the loop -/
def argmaxFirst (preds : List F) : Go Nat := do
  let m ← goIdx preds 0
  pure (argmaxLoop preds 0 0 m)

/-- multiclass.go:76-87 `PredictSingleClass` -/
def MultiClass.predictSingleClass (M : MultiClass F) (instance_ : List F) : Go Nat := do
  let preds ← M.predictSingle instance_
  argmaxFirst preds

/-- the loop of multiclass.go:41-46 -/
def MultiClass.countRight (M : MultiClass F) (labels : List Int) : List (List F) → Nat → Nat → Go Nat
  | [], _, right => .ok right
  | v :: vs, i, right => do
    let p ← M.predictSingleClass v
    let lab ← goIdx M.classLabels p
    let actual ← goIdx labels i
    M.countRight labels vs (i + 1) (if lab = actual then right + 1 else right)

/-- multiclass.go:34-49 `Accuracy` -/
def MultiClass.accuracy (M : MultiClass F) (D : DataBunch F) : Go F := do
  let right ← M.countRight D.labels D.data 0 0
  pure (ofRat 100 *. (ofInt right /. ofInt D.data.length))

/-- multiclass.go:111-122 `FeatureImportance` -/
def MultiClass.featureImportance (S : GoSort) (M : MultiClass F) : Go (Feats F) :=
  M.b.foldlM (fun ret ens => ens.foldlM (fun ret t => t.featImp S ret) ret) (newFeats M.xgb)

/-- xgb.go:167-183 `ClassesFromProbs` -/
def classesFromProbs (p : Dense F) : Go (Dense F) := do
  let col ← (List.range p.r).mapM fun i => do
    let m ← argmaxFirst (p.row i)
    pure (ofInt (m : Int) : F)
  newDense p.r 1 col

/-- xgb.go:148-159 `LogOddsFromProbs` -/
def logOddsFromProbs (log : F → F) (m : Dense F) : Dense F :=
  { m with data := (List.range m.r).flatMap fun i =>
      (m.row i).map fun v => log (v *. (GoFloat.sum (m.row i) -. v)) }

/-- xgb.go:188-196 `SubSample`; `draws i` is the `i`-th value of `rand.Float64`. `make` panics on a negative
capacity (a capacity too large for the memory is not modelled). -/
def subSample (totdata : Nat) (subsample : F) (draws : Nat → F) : Go (List Nat) :=
  if toInt (ofInt totdata *. subsample) + 1 < 0 then .error .slice
  else .ok ((List.range totdata).filter fun i => ge subsample (draws i))

/-- the loop of xgb.go:204-207: `(sumhess, sumgrad)`; `At` panics when out of range -/
def leafSums (g h : List F) : List Nat → F → F → Go (F × F)
  | [], sh, sg => .ok (sh, sg)
  | w :: ws, sh, sg =>
    match h[w]?, g[w]? with
    | some a, some b => leafSums g h ws (sh +. a) (sg +. b)
    | _, _ => .error .shape

/-- xgb.go:199-210: the new value of a leaf. `samples` is never nil in a tree made by `NewTree`. -/
def updateLeaf (g h : List F) (i : NodeInfo F) : Go (NodeInfo F) := do
  let (sh, sg) ← leafSums g h i.samples zero zero
  pure { i with value := sg /. sh }

/-- xgb.go:198-227 `updateLeaves` with `applyToLeafs` (calls on nil are guarded in the code) -/
def updateLeaves (g h : List F) : Tree F → Go (Tree F)
  | .nil => .ok .nil
  | .node i l r => do
    let l ← updateLeaves g h l
    let r ← updateLeaves g h r
    let i ← if i.leaf then updateLeaf g h i else pure i
    pure (.node i l r)

/-- The variables of the training loop, xgb.go:28-49. `tin` and `tval` are scratch of length `len(D.Data)`;
`grads` and `hess` are overwritten before each use. -/
structure TrainState (F : Type) where
  rawPred : Dense F
  probs : Dense F
  tmpPreds : List F
  stopped : List Bool
  noProgress : List Int
  prevloss : List F
  boosters : List (List (Tree F))
  draws : Nat → F

/-- xgb.go:66-98: the tree for class `k` from the labels `y` and the probabilities `p` of that class -/
def classTree (S : GoSort) (data : List (List F)) (O : Options F) (lf : LossFunc F)
    (indexes : Option (List Nat)) (cols : List Nat) (y p : List F) : Go (Tree F) := do
  let hess := lf.hessian p
  if O.xgb then
    let grads ← lf.gradients y p
    newTree S data { (defaultXTreeOptions : TreeOptions F) with
      minChildWeight := O.minChildWeight, maxDepth := O.maxDepth, lambda := O.lambda,
      gamma := O.gamma, indexes := indexes, allowedColumns := cols, gradients := some grads,
      hessian := some hess, y := y, scratch := some data.length }
  else
    let grads ← lf.negGradients y p
    let t ← newTree S data { (defaultGTreeOptions : TreeOptions F) with
      scratch := some data.length, minChildWeight := O.minChildWeight, maxDepth := O.maxDepth,
      y := grads, gradients := none, hessian := none }
    updateLeaves grads hess t

/-- `epsilon`, xgb.go:114 -/
def earlyEps : F := ofRat (1 / 1000000)

/-- xgb.go:113-137: bookkeeping of early stopping for class `k` after its loss was computed -/
def earlyStopping (O : Options F) (round k : Nat) (currloss : F) (st : TrainState F) : TrainState F :=
  if O.earlyStop > 0 then
    if currloss <=. earlyEps then { st with stopped := st.stopped.set k true }
    else if round = 0 then { st with prevloss := st.prevloss.set k currloss }
    else
      let np := if (st.prevloss.getD k zero) <=. currloss then st.noProgress.getD k 0 + 1 else 0
      { st with
        noProgress := st.noProgress.set k np
        stopped := if np ≥ O.earlyStop then st.stopped.set k true else st.stopped
        prevloss := st.prevloss.set k currloss }
  else st

/-- xgb.go:62-138: the body of the loop over classes. `acc` is the state and `classes`. -/
def trainClass (act : Dense F → Option (Dense F) → Go (Dense F)) (S : GoSort) (data : List (List F)) (O : Options F) (ohe : Dense F)
    (indexes : Option (List Nat)) (cols : List Nat) (round : Nat)
    (acc : TrainState F × List (Tree F)) (k : Nat) : Go (TrainState F × List (Tree F)) := do
  let st := acc.1
  if st.stopped.getD k false then pure acc
  else
    let y ← denseCol ohe k
    let p ← denseCol st.probs k
    match O.loss with
    | none => .error .nilDeref
    | some lv => do
      let tree ← classTree S data O lv.fn indexes cols y p
      let preds ← tree.predict data (some st.tmpPreds)
      let preds := preds.map fun v => v *. O.learningRate
      let rawPred ← addToCol st.rawPred preds k
      let probs ← act rawPred (some st.probs)
      let currloss ← if O.earlyStop > 0 ∨ O.verbose = true then do
          let kp ← denseCol probs k
          lv.fn.loss y kp
        else pure zero
      let st := { st with rawPred := rawPred, probs := probs, tmpPreds := preds }
      pure (earlyStopping O round k currloss st, acc.2 ++ [tree])

/-- xgb.go:51-57: the row sample, the column sample and the remaining draws -/
def roundSamples (data : List (List F)) (O : Options F) (draws : Nat → F) :
    Go (Option (List Nat) × List Nat × (Nat → F)) := do
  let (idx, draws) ←
    if (O.subSample <. one) && O.xgb then do
      let s ← subSample data.length O.subSample draws
      pure (some s, fun i => draws (i + data.length))
    else pure (none, draws)
  if (O.colSubSample <. one) && O.xgb then
    let row0 ← goIdx data 0
    let cols ← subSample row0.length O.colSubSample draws
    pure (idx, cols, fun i => draws (i + row0.length))
  else pure (idx, [], draws)

/-- xgb.go:50-140: the body of the loop over rounds -/
def trainRound (act : Dense F → Option (Dense F) → Go (Dense F)) (S : GoSort) (data : List (List F)) (O : Options F) (ohe : Dense F)
    (nlabels : Nat) (st : TrainState F) (round : Nat) : Go (TrainState F) := do
  let (idx, cols, draws) ← roundSamples data O st.draws
  let st := { st with draws := draws }
  if ((idx.getD []).length : Int) < O.minSample then pure st
  else
    let (st, classes) ← (List.range nlabels).foldlM
      (trainClass act S data O ohe idx cols round) (st, [])
    pure { st with boosters := st.boosters ++ [classes] }

/-- xgb.go:36-38: `MinChildWeight` below 1 is set to 1 (in the caller's options) -/
def Options.fixMcw (O : Options F) : Options F :=
  if O.minChildWeight <. one then { O with minChildWeight := one } else O

/-- xgb.go:28-49: the state before the first round -/
def trainInit (act : Dense F → Option (Dense F) → Go (Dense F)) (O : Options F) (ohe : Dense F) (nlabels : Nat) (draws : Nat → F) :
    Go (TrainState F) := do
  let raw ← newDense ohe.r ohe.c (List.replicate (ohe.r * ohe.c) zero)
  let raw := (toOnes raw).scale O.baseScore
  let probs ← act raw none
  pure { rawPred := raw, probs := probs, tmpPreds := List.replicate ohe.r zero,
         stopped := List.replicate nlabels false, noProgress := List.replicate nlabels 0,
         prevloss := List.replicate nlabels zero, boosters := [], draws := draws }

/-- xgb.go:21-140: training with the probability transformation `act`; returns the labels and the final state -/
def trainWith (act : Dense F → Option (Dense F) → Go (Dense F)) (S : GoSort) (draws : Nat → F) (D : DataBunch F)
    (O : Options F) : Go (List Int × TrainState F) := do
  let (ohe, labels) ← D.oheLabels
  let st0 ← trainInit act O ohe labels.length draws
  let st ← (List.range O.rounds.toNat).foldlM
    (trainRound act S D.data O.fixMcw ohe labels.length) st0
  pure (labels, st)

/-- xgb.go:21-140: the code uses `SoftMaxDense` -/
def train (exp : F → F) (S : GoSort) (draws : Nat → F) (D : DataBunch F) (O : Options F) :
    Go (List Int × TrainState F) := trainWith (softMaxDense exp) S draws D O

/-- xgb.go:141: the model made from the final state -/
def toModel (exp : F → F) (O : Options F) (labels : List Int) (st : TrainState F) : MultiClass F :=
  { b := st.boosters, learningRate := O.learningRate, probTransform := some (softMaxDense exp),
    classLabels := labels, baseScore := O.baseScore, xgb := O.xgb }

/-- xgb.go:21-143 `NewMultiClass`; the options are the given ones or `DefaultXOptions`. -/
def newMultiClass (exp : F → F) (S : GoSort) (draws : Nat → F) (D : DataBunch F) (O : Options F) :
    Go (MultiClass F) := do
  let (labels, st) ← train exp S draws D O
  pure (toModel exp O labels st)

end Boo
