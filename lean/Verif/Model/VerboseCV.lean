import Verif.Model.CV
import Verif.Model.Grad
import Verif.Model.Strings

/-!
# What the searches print when `Verbose` is on: cv/cv.go:185-187 and 249-251, cv/grad.go:236-238 and 258-260,
cv/hybrid.go:28-30 and 59-61

The functions are those of `Model/CV` and `Model/Grad` with the messages added. All messages are printed by the goroutine that
called the search; the models trained by the cross-validations have `Verbose` off (options.go:31-49 and 121-132) and print nothing to the
standard output. Of a run that panics the messages are not kept. The messages with which `MultiClassCrossValidation` logs that there
are fewer folds or that a fold has no model (cv/cv.go:27 and 39) are in `Model/LogCV`.
-/

namespace Boo
open GoFloat
variable {F : Type} [GoFloat F]

/-- the events of the nested loops: a loop header with the values it announces, or the body of the innermost loop -/
inductive LoopItem (η α : Type) where
  | head (h : η)
  | point (a : α)

/-- A message: the values announced by a loop header, or a new best accuracy with its options (nil is `none`; `String` would panic for
it, cv/cv.go:250, but it is not sent, `C141_grid_best`). -/
inductive SearchMsg (η F : Type) where
  | head (h : η)
  | best (acc : F) (o : Option (Options F))

/-! ### `Grid` -/

/-- cv/cv.go:188-205: the points with given `Rounds` and `MinChildWeight` -/
def gridPointsAt (fuel : Nat) (o : GridOptions F) (rounds : Int) (cw : F) : Option (List (Options F)) :=
  nest (o.maxDepth.ints fuel) fun md =>
  nest (o.colSubSample.floats fuel) fun css =>
  nest (o.learningRate.floats fuel) fun lr =>
  nest (o.lambda.floats fuel) fun lam =>
  nest (o.gamma.floats fuel) fun gam =>
  (o.subSample.floats fuel).map fun l => l.map fun ss => gridPoint o rounds cw md css lr lam gam ss

/-- cv/cv.go:183-205: the headers and points in the order of the nested loops -/
def gridItems (fuel : Nat) (o : GridOptions F) : Option (List (LoopItem (Int × F) (Options F))) :=
  nest (o.rounds.ints fuel) fun rounds =>
  nest (o.minChildWeight.floats fuel) fun cw =>
  (gridPointsAt fuel o rounds cw).map fun pts => .head (rounds, cw) :: pts.map .point

/-- cv/cv.go:206-207: what the cross-validations of the points send; the next point has number `j` -/
def runItems {η : Type} (cv : Nat → Options F → Run (CVOut F)) : Nat → List (LoopItem η (Options F)) →
    List (LoopItem η (Run (List (CVMsg F))))
  | _, [] => []
  | j, .head h :: l => .head h :: runItems cv j l
  | j, .point O :: l => .point ((cv j O).map CVOut.sent) :: runItems cv (j + 1) l

/-- cv/cv.go:246-251: the best so far and the messages so far -/
def updateBestV {η : Type} (verbose : Bool) (b : BestAcc F × List (SearchMsg η F)) (tmpacc : F) (tmpop : Option (Options F)) :
    BestAcc F × List (SearchMsg η F) :=
  if gt tmpacc b.1.1 then ((tmpacc, tmpop), if verbose then b.2 ++ [.best tmpacc tmpop] else b.2) else b

/-- cv/cv.go:237-255, as `rescueOne` -/
def rescueOneV {η : Type} (verbose : Bool) (b : BestAcc F × List (SearchMsg η F)) :
    List (CVMsg F) → Run (Option (BestAcc F) × List (SearchMsg η F))
  | .err e :: rest =>
    if e then pure (none, b.2) else match rest with
    | .acc a :: rest =>
      if a <. zero then pure (none, b.2) else match rest with
      | .opt o :: _ => let b := updateBestV verbose b a o; pure (some b.1, b.2)
      | _ => Run.ofOption none
    | _ => Run.ofOption none
  | _ => Run.ofOption none

/-- cv/cv.go:232-259, as `rescueConcValues` -/
def rescueConcValuesV {η : Type} (verbose : Bool) : List (List (CVMsg F)) → BestAcc F × List (SearchMsg η F) →
    Run (Option (BestAcc F) × List (SearchMsg η F))
  | [], b => pure (some b.1, b.2)
  | w :: ws, b => do
    match ← rescueOneV verbose b w with
    | (none, ms) => pure (none, ms)
    | (some best, ms) => rescueConcValuesV verbose ws (best, ms)

/-- cv/cv.go:185-187 (hybrid.go:28-30, grad.go:236-238): the message of a loop header -/
def headMsg {η : Type} (verbose : Bool) (h : η) : List (SearchMsg η F) := if verbose then [.head h] else []

/-- cv/cv.go:185-217, as `gridLoop` -/
def gridLoopV {η : Type} (verbose : Bool) (nCPUs : Int) : List (LoopItem η (Run (List (CVMsg F)))) →
    List (Run (List (CVMsg F))) → BestAcc F × List (SearchMsg η F) → Run (Option (BestAcc F) × List (SearchMsg η F))
  | [], _, b => pure (some b.1, b.2)
  | .head h :: ps, pending, b => gridLoopV verbose nCPUs ps pending (b.1, b.2 ++ headMsg verbose h)
  | .point p :: ps, pending, b =>
    if nCPUs ≤ pending.length then Run.ofGo (.error .index)
    else
      let pending := pending ++ [p]
      if (pending.length : Int) = nCPUs then do
        let ws ← pending.mapM id
        match ← rescueConcValuesV verbose ws b with
        | (none, ms) => pure (none, ms)
        | (some best, ms) => gridLoopV verbose nCPUs ps [] (best, ms)
      else gridLoopV verbose nCPUs ps pending b

/-- cv/cv.go:158-229 `Grid`, as `gridWith`: what it returns and its messages -/
def gridWithV (cv : Nat → Options F → Run (CVOut F)) (fuel : Nat) (o : GridOptions F) :
    Run (GridRet F × List (SearchMsg (Int × F) F)) :=
  if o.nCPUs < 0 then Run.ofGo (.error .slice)
  else do
    let its ← Run.ofOption (gridItems fuel o)
    let r ← gridLoopV o.verbose o.nCPUs (runItems cv 0 its) [] ((zero, none), [])
    pure (gridRet r.1, r.2)

/-- cv/cv.go:158-229 `Grid`, as `grid` -/
def gridV (exp : F → F) (S : GoSort) (fuel : Nat) (D : DataBunch F) (nfold : Int) (options : Option (GridOptions F))
    (idraws : Nat → List Nat) (fdraws : Nat → Nat → Nat → F) : Run (GridRet F × List (SearchMsg (Int × F) F)) :=
  gridWithV (fun j O => crossValidation exp S D nfold (some O) true (idraws j) (fdraws j)) fuel (gridOptionsOf options)

/-! ### The gradient searches -/

/-- the variables of a search and its messages so far -/
abbrev SearchV (η F : Type) := SearchState F × List (SearchMsg η F)

/-- cv/grad.go:246-260 (hybrid.go:50-61): the message of `CompareAccs`; the cross-validation has raised `MinChildWeight` in the
options that are printed -/
def bestMsg {η : Type} (E : SearchEnv F) (s : SearchState F) (t : Nat) : List (SearchMsg η F) :=
  let r := E.cv s.calls.length 5 (s.deref t)
  if r.err then []
  else if (s.accs.getLast?.map (r.acc <. ·)) = some true then []
  else if gt r.acc s.best then (if E.o.verbose then [.best r.acc (some (s.deref t).fixMcw)] else [])
  else []

/-- cv/grad.go:246-269 (hybrid.go:50-70), as `compareAccs` -/
def compareAccsV {η : Type} (E : SearchEnv F) (s : SearchV η F) (t tprev : Nat) : SearchV η F × Option Nat :=
  let r := compareAccs E s.1 t tprev
  ((r.1, s.2 ++ bestMsg E s.1 t), r.2)

/-- cv/grad.go:277-294 (hybrid.go:78-95), as `searchSteps` -/
def searchStepsV {η : Type} (E : SearchEnv F) (nfold : Int) : Nat → SearchV η F → Nat → Nat → SearchV η F × Bool
  | 0, s, _, _ => (s, true)
  | n + 1, (s, ms), t, strikes =>
    let t1 := s.heap.length
    let s := s.alloc (s.deref t).clone
    let s := { s.store t (E.grad s.steps nfold (s.deref t)) with steps := s.steps + 1 }
    if (s.deref t).equal (s.deref t1) then
      let strikes := strikes + 1
      let s := s.fuzz E t (some (ofRat (2/10)))
      if strikes = 3 then ((s, ms), true) else searchStepsV E nfold n (s, ms) t strikes
    else
      match compareAccsV E (s, ms) t t1 with
      | (s, none) => (s, false)
      | (s, some t) => searchStepsV E nfold n s t 0

/-- cv/grad.go:245-294 (hybrid.go:49-95), as `searchFrom` -/
def searchFromV {η : Type} (E : SearchEnv F) (nfold : Int) (s : SearchV η F) (init : Options F) : SearchV η F × Bool :=
  let t := s.1.heap.length
  let tprev := t + 1
  match compareAccsV E ((s.1.alloc init).alloc init.clone, s.2) t tprev with
  | (s, none) => (s, false)
  | (s, some t) => searchStepsV E nfold E.o.nSteps.toNat s t 0

/-- all headers and starting points in turn, as `searchAll` -/
def searchAllV {η : Type} (E : SearchEnv F) (nfold : Int) : List (LoopItem η (Options F)) → SearchV η F → SearchV η F × Bool
  | [], s => (s, true)
  | .head h :: its, s => searchAllV E nfold its (s.1, s.2 ++ headMsg E.o.verbose h)
  | .point init :: its, s =>
    match searchFromV E nfold s init with
    | (s, false) => (s, false)
    | (s, true) => searchAllV E nfold its s

/-- cv/grad.go:239-244: the starting points of `GradientGrid` with a given `MinChildWeight` -/
def gradientInitsAt (fuel : Nat) (o : GridOptions F) (cw : F) : Option (List (Options F)) :=
  (o.maxDepth.ints fuel).map fun l => l.map fun md =>
    ({ setSomeOptionsToMid (baseOptions o) o with
      maxDepth := md, minChildWeight := cw, xgb := o.xgb } : Options F)

/-- cv/grad.go:235-244: the headers and starting points of `GradientGrid` -/
def gradientItems (fuel : Nat) (o : GridOptions F) : Option (List (LoopItem F (Options F))) :=
  nest (o.minChildWeight.floats fuel) fun cw =>
  (gradientInitsAt fuel o cw).map fun l => .head cw :: l.map .point

/-- cv/hybrid.go:31-47: the starting points of `HybridGradientGrid` with given `Rounds` and `MinChildWeight` -/
def hybridInitsAt (fuel : Nat) (o : GridOptions F) (rounds : Int) (cw : F) : Option (List (Options F)) :=
  nest (o.maxDepth.ints fuel) fun md =>
  (o.lambda.floats fuel).map fun l => l.map fun lam =>
    ({ setSomeOptionsToMid (baseOptions o) (hybridRange o rounds lam) with
      maxDepth := md, minChildWeight := cw, xgb := o.xgb, earlyStop := o.earlyStop } : Options F)

/-- cv/hybrid.go:26-47: the headers and starting points of `HybridGradientGrid` -/
def hybridItems (fuel : Nat) (o : GridOptions F) : Option (List (LoopItem (Int × F) (Options F))) :=
  nest (o.rounds.ints fuel) fun rounds =>
  nest (o.minChildWeight.floats fuel) fun cw =>
  (hybridInitsAt fuel o rounds cw).map fun l => .head (rounds, cw) :: l.map .point

/-- what a search returns and its messages -/
def searchRetV {η : Type} (r : SearchV η F × Bool) : GridRet F × List (SearchMsg η F) := (searchRet (r.1.1, r.2), r.1.2)

/-- cv/grad.go:220-298 `GradientGrid`, as `gradientGrid` -/
def gradientGridV (fuel : Nat) (E : SearchEnv F) (nfold : Int) : Option (GridRet F × List (SearchMsg F F)) :=
  (gradientItems fuel E.o).map fun its => searchRetV (searchAllV E nfold its (searchStart, []))

/-- cv/hybrid.go:11-102 `HybridGradientGrid`, as `hybridGrid` -/
def hybridGridV (fuel : Nat) (E : SearchEnv F) (nfold : Int) : Option (GridRet F × List (SearchMsg (Int × F) F)) :=
  (hybridItems fuel E.o).map fun its => searchRetV (searchAllV E nfold its (searchStart, []))

/-! ### The text -/

/-- the ways in which the messages write floats: `%.0f`, `%.3f` and `%v` (that of `Println`) -/
structure VerbText (F : Type) where
  fmt0 : F → List Char
  fmt3 : F → List Char
  fmtv : F → List Char

/-- options.go:138-146 of a pointer; what is printed for nil is not modelled -/
def optText (V : VerbText F) (o : Option (Options F)) : List Char := (o.map fun O => O.string V.fmt3).getD []

/-- cv/cv.go:186 and hybrid.go:29: `Println` puts a space between its operands, also after `"Rounds: "` -/
def roundsHead (V : VerbText F) (h : Int × F) : List Char :=
  "Rounds:  ".toList ++ fmtInt h.1 ++ " MinChildWeight: ".toList ++ V.fmtv h.2 ++ ['\n']

/-- cv/cv.go:186 and 250: what a message of `Grid` adds to the standard output -/
def gridText (V : VerbText F) : SearchMsg (Int × F) F → List Char
  | .head h => roundsHead V h
  | .best a o => "New Best Accuracy ".toList ++ V.fmt0 a ++ "%, ".toList ++ optText V o ++ ['\n']

/-- cv/grad.go:259 (hybrid.go:60): a new best accuracy of the gradient searches -/
def newBestText (V : VerbText F) (a : F) (o : Option (Options F)) : List Char :=
  "New best accuracy:  ".toList ++ V.fmtv a ++ [' '] ++ optText V o ++ ['\n']

/-- cv/grad.go:237 and 259: what a message of `GradientGrid` adds -/
def gradientText (V : VerbText F) : SearchMsg F F → List Char
  | .head cw => "ChildrenWeight: ".toList ++ V.fmtv cw ++ ['\n']
  | .best a o => newBestText V a o

/-- cv/hybrid.go:29 and 60: what a message of `HybridGradientGrid` adds -/
def hybridText (V : VerbText F) : SearchMsg (Int × F) F → List Char
  | .head h => roundsHead V h
  | .best a o => newBestText V a o

end Boo
