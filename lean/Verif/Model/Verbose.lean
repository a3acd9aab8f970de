import Verif.Model.MultiClass
import Verif.Model.Text

/-!
# What training prints when `Verbose` is on: xgb.go:110-133

`trainClassLog`, `trainRoundLog`, `trainLog` and `newMultiClassLog` are `trainClass`, `trainRound`, `trainWith` and
`newMultiClass` of `Verif.Model.MultiClass` with the messages added. Of a run that panics the messages are not kept.
-/

namespace Boo
open GoFloat
variable {F : Type} [GoFloat F]

/-- A message: the loss of class `k` in round `round` (`fmt.Printf` to the standard output, xgb.go:110-112), or that class `k` was
stopped in round `round` (`log.Println`, xgb.go:131-133). -/
inductive TrainMsg (F : Type) where
  | loss (round k : Nat) (l : F)
  | stop (k round : Nat)

/-- xgb.go:113-133: the message about stopping class `k`. It is only in the branch for a class without progress: the branches for a
small loss and for round 0 leave before it (xgb.go:115-122). -/
def stopMsg (O : Options F) (round k : Nat) (currloss : F) (st : TrainState F) : List (TrainMsg F) :=
  if O.earlyStop > 0 then
    if currloss <=. earlyEps then []
    else if round = 0 then []
    else
      let np := if (st.prevloss.getD k zero) <=. currloss then st.noProgress.getD k 0 + 1 else 0
      if np ≥ O.earlyStop then [.stop k round] else []
  else []

/-- xgb.go:110-133: what is printed after a tree was made for class `k` -/
def classMsgs (O : Options F) (round k : Nat) (currloss : F) (st : TrainState F) : List (TrainMsg F) :=
  if O.verbose = true then .loss round k currloss :: stopMsg O round k currloss st else []

/-- xgb.go:62-138: the body of the loop over classes, with the messages so far in `acc.2` -/
def trainClassLog (act : Dense F → Option (Dense F) → Go (Dense F)) (S : GoSort) (data : List (List F)) (O : Options F) (ohe : Dense F)
    (indexes : Option (List Nat)) (cols : List Nat) (round : Nat)
    (acc : (TrainState F × List (Tree F)) × List (TrainMsg F)) (k : Nat) :
    Go ((TrainState F × List (Tree F)) × List (TrainMsg F)) := do
  let st := acc.1.1
  if st.stopped.getD k false then pure acc
  else
    let y ← denseCol ohe k
    let p ← denseCol st.probs k
    match O.loss with
    | none => .error .nilDeref
    | some lv => do
      let tree ← classTree S data O lv.fn indexes cols y p
      let preds ← tree.predict data (some st.tmpPreds)
      let preds := preds.map fun v => v *. O.learningRate
      let rawPred ← addToCol st.rawPred preds k
      let probs ← act rawPred (some st.probs)
      let currloss ← if O.earlyStop > 0 ∨ O.verbose = true then do
          let kp ← denseCol probs k
          lv.fn.loss y kp
        else pure zero
      let st := { st with rawPred := rawPred, probs := probs, tmpPreds := preds }
      pure ((earlyStopping O round k currloss st, acc.1.2 ++ [tree]), acc.2 ++ classMsgs O round k currloss st)

/-- xgb.go:50-140: the body of the loop over rounds -/
def trainRoundLog (act : Dense F → Option (Dense F) → Go (Dense F)) (S : GoSort) (data : List (List F)) (O : Options F) (ohe : Dense F)
    (nlabels : Nat) (acc : TrainState F × List (TrainMsg F)) (round : Nat) : Go (TrainState F × List (TrainMsg F)) := do
  let (idx, cols, draws) ← roundSamples data O acc.1.draws
  let st := { acc.1 with draws := draws }
  if ((idx.getD []).length : Int) < O.minSample then pure (st, acc.2)
  else
    let ((st, classes), msgs) ← (List.range nlabels).foldlM
      (trainClassLog act S data O ohe idx cols round) ((st, []), acc.2)
    pure ({ st with boosters := st.boosters ++ [classes] }, msgs)

/-- xgb.go:21-140: training; returns the labels, the final state and the messages -/
def trainLog (exp : F → F) (S : GoSort) (draws : Nat → F) (D : DataBunch F) (O : Options F) :
    Go (List Int × TrainState F × List (TrainMsg F)) := do
  let (ohe, labels) ← D.oheLabels
  let st0 ← trainInit (softMaxDense exp) O ohe labels.length draws
  let out ← (List.range O.rounds.toNat).foldlM
    (trainRoundLog (softMaxDense exp) S D.data O.fixMcw ohe labels.length) (st0, [])
  pure (labels, out)

/-- xgb.go:21-143 `NewMultiClass`, with what it prints -/
def newMultiClassLog (exp : F → F) (S : GoSort) (draws : Nat → F) (D : DataBunch F) (O : Options F) :
    Go (MultiClass F × List (TrainMsg F)) := do
  let (labels, st, msgs) ← trainLog exp S draws D O
  pure (toModel exp O labels st, msgs)

/-- xgb.go:111: what a message adds to the standard output; `fmt3` is the verb `%.3f` -/
def TrainMsg.stdout (fmt3 : F → List Char) : TrainMsg F → List Char
  | .loss round k l => "round: ".toList ++ fmtNat round ++ ", class: ".toList ++ fmtNat k ++ " train loss = ".toList ++ fmt3 l ++ ['\n']
  | .stop _ _ => []

/-- xgb.go:132: what a message adds to the log. The date and time that the package `log` puts before each line are left out. -/
def TrainMsg.logged : TrainMsg F → List Char
  | .loss _ _ _ => []
  | .stop k round => "Class ".toList ++ fmtNat k ++ " stopped early at round ".toList ++ fmtNat round ++ ['\n']

/-- the standard output of a training run -/
def trainOutput (fmt3 : F → List Char) (msgs : List (TrainMsg F)) : List Char := msgs.flatMap (·.stdout fmt3)

/-- the log of a training run -/
def trainLogged (msgs : List (TrainMsg F)) : List Char := msgs.flatMap (·.logged)

end Boo
