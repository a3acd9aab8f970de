import Verif.Model.CV
import Verif.Model.Grad
import Verif.Model.Json

/-!
# `WriteBest`: the files written by the searches

`writeBest` (cv/cv.go:261-276) trains a model on all the data with the best options so far and writes it to a file whose
name contains the integer part of the accuracy. File-system errors are not modelled.
-/

namespace Boo
open GoFloat
variable {F : Type} [GoFloat F]

/-- The files `xgbmodel<k>.json`, by `k`: `none`: there is no such file; `some none`: its writing failed (what it contains
is not modelled); `some (some text)`: its content. -/
abbrev Files := Int → Option (Option (List Char))

/-- cv/cv.go:261-276 `writeBest`. `draws`: the values of `rand.Float64` while the model is trained. The options were already
used by a cross-validation, which has raised `MinChildWeight` (xgb.go:36-38), so that training does not change them
(`C91_options_kept`). -/
def writeBest (J : JCodec F) (exp : F → F) (S : GoSort) (draws : Nat → F) (D : DataBunch F) (fs : Files)
    (bestacc : F) (bestop : Options F) : Go Files := do
  let boosted ← newMultiClass exp S draws D bestop
  let t ← jsonMultiClass J boosted "softmax".toList
  pure fun k => if k = toInt bestacc then some t else fs k

/-- successive calls of `writeBest` -/
def writeFiles (J : JCodec F) (exp : F → F) (S : GoSort) (D : DataBunch F) : (Nat → Nat → F) → Files →
    List (F × Options F) → Go Files
  | _, fs, [] => .ok fs
  | draws, fs, w :: ws => do
    let fs ← writeBest J exp S (draws 0) D fs w.1 w.2
    writeFiles J exp S D (fun i => draws (i + 1)) fs ws

/-- the best accuracy so far with its options, and the calls of `writeBest` so far -/
abbrev BestW (F : Type) := BestAcc F × List (F × Options F)

/-- cv/cv.go:246-255; nil options are the default ones for `NewMultiClass` -/
def updateBestW (write : Bool) (b : BestW F) (tmpacc : F) (tmpop : Option (Options F)) : BestW F :=
  if gt tmpacc b.1.1 then
    ((tmpacc, tmpop), if write then b.2 ++ [(tmpacc, tmpop.getD (defaultXOptions 0))] else b.2)
  else b

/-- cv/cv.go:237-255, as `rescueOne` -/
def rescueOneW (write : Bool) (b : BestW F) : List (CVMsg F) → Run (Option (BestAcc F) × List (F × Options F))
  | .err e :: rest =>
    if e then pure (none, b.2) else match rest with
    | .acc a :: rest =>
      if a <. zero then pure (none, b.2) else match rest with
      | .opt o :: _ => let b := updateBestW write b a o; pure (some b.1, b.2)
      | _ => Run.ofOption none
    | _ => Run.ofOption none
  | _ => Run.ofOption none

/-- cv/cv.go:232-259, as `rescueConcValues` -/
def rescueConcValuesW (write : Bool) : List (List (CVMsg F)) → BestW F → Run (Option (BestAcc F) × List (F × Options F))
  | [], b => pure (some b.1, b.2)
  | w :: ws, b => do
    match ← rescueOneW write b w with
    | (none, ww) => pure (none, ww)
    | (some best, ww) => rescueConcValuesW write ws (best, ww)

/-- cv/cv.go:206-217, as `gridLoop` -/
def gridLoopW (write : Bool) (nCPUs : Int) : List (Run (List (CVMsg F))) → List (Run (List (CVMsg F))) → BestW F →
    Run (Option (BestAcc F) × List (F × Options F))
  | [], _, b => pure (some b.1, b.2)
  | p :: ps, pending, b =>
    if nCPUs ≤ pending.length then Run.ofGo (.error .index)
    else
      let pending := pending ++ [p]
      if (pending.length : Int) = nCPUs then do
        let ws ← pending.mapM id
        match ← rescueConcValuesW write ws b with
        | (none, ww) => pure (none, ww)
        | (some best, ww) => gridLoopW write nCPUs ps [] (best, ww)
      else gridLoopW write nCPUs ps pending b

/-- cv/cv.go:158-229 `Grid`, as `gridWith`: what it returns and its calls of `writeBest` -/
def gridWithW (cv : Nat → Options F → Run (CVOut F)) (fuel : Nat) (o : GridOptions F) :
    Run (GridRet F × List (F × Options F)) :=
  if o.nCPUs < 0 then Run.ofGo (.error .slice)
  else do
    let pts ← Run.ofOption (gridPoints fuel o)
    let r ← gridLoopW o.writeBest o.nCPUs (pts.mapIdx fun j O => (cv j O).map CVOut.sent) [] ((zero, none), [])
    pure (gridRet r.1, r.2)

/-- cv/grad.go:220-298 `GradientGrid`: its calls of `writeBest` -/
def gradientWrites (fuel : Nat) (E : SearchEnv F) (nfold : Int) : Option (List (F × Options F)) :=
  (gradientInits fuel E.o).map fun inits => (searchAll E nfold inits searchStart).1.writes

/-- cv/hybrid.go:11-102 `HybridGradientGrid`: its calls of `writeBest` -/
def hybridWrites (fuel : Nat) (E : SearchEnv F) (nfold : Int) : Option (List (F × Options F)) :=
  (hybridInits fuel E.o).map fun inits => (searchAll E nfold inits searchStart).1.writes

end Boo
