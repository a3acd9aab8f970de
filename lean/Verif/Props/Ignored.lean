import Verif.Props.Repro

/-!
# Options that do nothing

`Lambda`, `Gamma`, `SubSample` and `ColSubSample` are options of xgboost: regular boosting trains the same model whatever
they are. `TreeMethod` is used by neither.
-/

namespace Boo
open GoFloat

variable {F : Type} [GoFloat F]

/-- two options that differ in nothing the training loop of their kind of boosting reads -/
structure SameTraining (O O' : Options F) : Prop where
  xgb : O'.xgb = O.xgb
  rounds : O'.rounds = O.rounds
  maxDepth : O'.maxDepth = O.maxDepth
  earlyStop : O'.earlyStop = O.earlyStop
  learningRate : O'.learningRate = O.learningRate
  minChildWeight : O'.minChildWeight = O.minChildWeight
  baseScore : O'.baseScore = O.baseScore
  minSample : O'.minSample = O.minSample
  verbose : O'.verbose = O.verbose
  loss : O'.loss = O.loss
  lambda : O.xgb = true → O'.lambda = O.lambda
  gamma : O.xgb = true → O'.gamma = O.gamma
  subSample : O.xgb = true → O'.subSample = O.subSample
  colSubSample : O.xgb = true → O'.colSubSample = O.colSubSample

theorem SameTraining.fix {O O' : Options F} (h : SameTraining O O') : SameTraining O.fixMcw O'.fixMcw := by
  unfold Options.fixMcw
  rw [h.minChildWeight]
  split
  · exact ⟨h.xgb, h.rounds, h.maxDepth, h.earlyStop, h.learningRate, rfl, h.baseScore, h.minSample, h.verbose, h.loss,
      h.lambda, h.gamma, h.subSample, h.colSubSample⟩
  · exact h

theorem SameTraining.samples {O O' : Options F} (h : SameTraining O O') (data : List (List F)) (d : Nat → F) :
    roundSamples data O' d = roundSamples data O d := by
  unfold roundSamples
  cases hx : O.xgb with
  | false => simp [h.xgb, hx]
  | true => simp only [h.xgb, hx, h.subSample hx, h.colSubSample hx]

theorem SameTraining.tree {O O' : Options F} (h : SameTraining O O') (S : GoSort) (data : List (List F)) (lf : LossFunc F)
    (idx : Option (List Nat)) (cols : List Nat) (y p : List F) :
    classTree S data O' lf idx cols y p = classTree S data O lf idx cols y p := by
  unfold classTree
  cases hx : O.xgb with
  | false => simp [h.xgb, hx, h.minChildWeight, h.maxDepth]
  | true => simp only [h.xgb, hx, h.minChildWeight, h.maxDepth, h.lambda hx, h.gamma hx]

theorem SameTraining.cls {O O' : Options F} (h : SameTraining O O') (exp : F → F) (S : GoSort) (data : List (List F))
    (ohe : Dense F) (idx : Option (List Nat)) (cols : List Nat) (round : Nat) :
    trainClass (softMaxDense exp) S data O' ohe idx cols round =
      trainClass (softMaxDense exp) S data O ohe idx cols round := by
  funext acc k
  unfold trainClass
  have he : ∀ l st, earlyStopping O' round k l st = earlyStopping O round k l st := by
    intro l st
    unfold earlyStopping
    rw [h.earlyStop]
  simp only [h.loss, h.tree, h.learningRate, h.earlyStop, h.verbose, he]

theorem SameTraining.model {O O' : Options F} (h : SameTraining O O') (exp : F → F) (S : GoSort) (draws : Nat → F)
    (D : DataBunch F) : newMultiClass exp S draws D O' = newMultiClass exp S draws D O := by
  have hr : ∀ ohe m, trainRound (softMaxDense exp) S D.data O'.fixMcw ohe m = trainRound (softMaxDense exp) S D.data O.fixMcw ohe m := by
    intro ohe m
    funext st r
    unfold trainRound
    simp only [h.fix.samples, h.fix.minSample, h.fix.cls]
  unfold newMultiClass train trainWith trainInit toModel
  simp only [h.baseScore, h.rounds, hr, h.learningRate, h.xgb]

/-- **C90**: the model that regular boosting trains does not depend on `Lambda`, `Gamma`, `SubSample`, `ColSubSample` or
`TreeMethod`. -/
theorem C90_regular (exp : F → F) (S : GoSort) (draws : Nat → F) (D : DataBunch F) (O : Options F) (hx : O.xgb = false)
    (lambda gamma subSample colSubSample : F) (treeMethod : String) :
    newMultiClass exp S draws D { O with
      lambda := lambda, gamma := gamma, subSample := subSample, colSubSample := colSubSample, treeMethod := treeMethod } =
      newMultiClass exp S draws D O :=
  SameTraining.model (O := O) (O' := { O with
    lambda := lambda, gamma := gamma, subSample := subSample, colSubSample := colSubSample, treeMethod := treeMethod }) ⟨rfl, rfl, rfl, rfl, rfl, rfl, rfl, rfl, rfl, rfl, by simp [hx], by simp [hx], by simp [hx],
    by simp [hx]⟩ exp S draws D

/-- **C90**: no model depends on `TreeMethod`. -/
theorem C90_treeMethod (exp : F → F) (S : GoSort) (draws : Nat → F) (D : DataBunch F) (O : Options F)
    (treeMethod : String) :
    newMultiClass exp S draws D { O with treeMethod := treeMethod } = newMultiClass exp S draws D O :=
  SameTraining.model (O := O) (O' := { O with treeMethod := treeMethod }) ⟨rfl, rfl, rfl, rfl, rfl, rfl, rfl, rfl, rfl, rfl, fun _ => rfl, fun _ => rfl, fun _ => rfl,
    fun _ => rfl⟩ exp S draws D

/-- C90: the defaults of regular boosting meet the hypothesis, and train two rounds of three trees here -/
example : (defaultGOptions 0 : Options F64).xgb = false ∧
    shapeOf (plainRun (fun _ => .fin 0) mixData { (defaultGOptions 0 : Options F64) with
      rounds := 2, minChildWeight := one }) = .ok [3, 3] := by
  decide +kernel
/-- C90: xgboost does depend on them -/
example : (plainRun (fun _ => .fin 0) mixData plainOptions).map (fun M => M.b.map (·.map Tree.leaves)) ≠
    (plainRun (fun _ => .fin 0) mixData { plainOptions with gamma := .fin 100 }).map (fun M => M.b.map (·.map Tree.leaves)) := by
  decide +kernel

end Boo
