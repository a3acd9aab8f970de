import Verif.Model.MultiClass
import Verif.Model.Stat

/-!
# cv/cv.go: cross-validation and grid search

Logging and verbose output are omitted here (they are in `Model/LogCV` and `Model/VerboseCV`): nothing reads them. `writeBest` (a file with a model trained on all the data) is in
`Model/WriteBest`, with the loops that call it; `C91_grid_same` says that both models of `Grid` return the same.
-/

namespace Boo
open GoFloat
variable {F : Type} [GoFloat F]

/-- A computation that may panic (`some (.error p)`) and may not end (`none`). -/
abbrev Run (α : Type) := ExceptT Panic Option α

/-- a computation that ends -/
def Run.ofGo {α : Type} (x : Go α) : Run α := ExceptT.mk (some x)

/-- a computation that may not end and does not panic -/
def Run.ofOption {α : Type} (x : Option α) : Run α := ExceptT.mk (x.map .ok)

/-- cv/cv.go:149-155: what is sent on the channels `Err`, `Acc` and `Ochan`; an error is a flag. -/
inductive CVMsg (F : Type) where
  | err (e : Bool)
  | acc (a : F)
  | opt (o : Option (Options F))

/-- What a call of `MultiClassCrossValidation` does: the values sent, in order, the returned accuracy and error, and
the options `*opts.O` after the call. -/
structure CVOut (F : Type) where
  sent : List (CVMsg F)
  acc : F
  err : Bool
  opts : Option (Options F)

/-- the variables of the loop cv/cv.go:29-45 -/
structure CVState (F : Type) where
  sampler : CVSampler F
  accus : F
  opts : Option (Options F)

/-- cv/cv.go:30-45: one fold. `fdraws i` are the values of `rand.Float64` while fold `i` is trained. A nil training set
is dereferenced by `NewMultiClass`. `NewMultiClass` raises `MinChildWeight` to 1 in the caller's options (xgb.go:36-38). -/
def cvFold (exp : F → F) (S : GoSort) (fdraws : Nat → Nat → F) (st : CVState F) (i : Nat) : Go (CVState F) := do
  let (s, out) ← st.sampler.call
  match out with
  | none => .error .nilDeref
  | some (train, test) => do
    let b ← newMultiClass exp S (fdraws i) train (st.opts.getD (defaultXOptions 0))
    let st := { st with sampler := s, opts := st.opts.map Options.fixMcw }
    if b.rounds none ≤ 0 then pure st
    else do
      let a ← b.accuracy test
      pure { st with accus := st.accus +. a }

/-- cv/cv.go:29-52: the part after the samples were made -/
def cvFolds (exp : F → F) (S : GoSort) (n : Nat) (s : CVSampler F) (O : Option (Options F)) (conc : Bool)
    (fdraws : Nat → Nat → F) : Go (CVOut F) := do
  let st ← (List.range n).foldlM (cvFold exp S fdraws) ⟨s, zero, O⟩
  let i := n
  pure { sent := if conc then [.err false, .acc (st.accus /. ofInt i), .opt st.opts] else []
         acc := st.accus /. ofInt n, err := false, opts := st.opts }

/-- cv/cv.go:15-52 `MultiClassCrossValidation`. `idraws`: the values of `rand.IntN` used to make the samples; `none`:
still drawing after them. -/
def crossValidation (exp : F → F) (S : GoSort) (D : DataBunch F) (nfold : Int) (O : Option (Options F)) (conc : Bool)
    (idraws : List Nat) (fdraws : Nat → Nat → F) : Run (CVOut F) := do
  let r ← (ExceptT.mk (crossValidationSamples D nfold idraws) : Run (CVResult F))
  if r.err ∧ r.n = 0 then
    pure { sent := if conc then [.err true, .acc (ofRat (-1)), .opt none] else []
           acc := zero, err := true, opts := O }
  else match r.sampler with
    | none => Run.ofGo (.error .nilDeref)
    | some s => Run.ofGo (cvFolds exp S r.n s O conc fdraws)

/-- a `[3]int` or `[3]float64`: initial, final, step -/
structure Range3 (α : Type) where
  lo : α
  hi : α
  step : α
  deriving DecidableEq

/-- cv/cv.go:57-75 `GridOptions` -/
structure GridOptions (F : Type) where
  xgb : Bool
  earlyStop : Int
  rounds : Range3 Int
  maxDepth : Range3 Int
  learningRate : Range3 F
  gamma : Range3 F
  lambda : Range3 F
  subSample : Range3 F
  colSubSample : Range3 F
  minChildWeight : Range3 F
  step : F
  deltaFraction : F
  verbose : Bool
  nSteps : Int
  central : Bool
  nCPUs : Int
  writeBest : Bool
  deriving DecidableEq

/-- cv/cv.go:77-97 `Clone` -/
def GridOptions.clone (o : GridOptions F) : GridOptions F :=
  { writeBest := o.writeBest, earlyStop := o.earlyStop, xgb := o.xgb, rounds := o.rounds, maxDepth := o.maxDepth,
    learningRate := o.learningRate, gamma := o.gamma, lambda := o.lambda, subSample := o.subSample,
    colSubSample := o.colSubSample, minChildWeight := o.minChildWeight, step := o.step,
    deltaFraction := o.deltaFraction, nSteps := o.nSteps, central := o.central, verbose := o.verbose,
    nCPUs := o.nCPUs }

/-- three float constants -/
def frange (a b c : Rat) : Range3 F := ⟨ofRat a, ofRat b, ofRat c⟩

/-- cv/cv.go:102-119 `DefaultGGridOptions`; the fields that are not set are zero -/
def defaultGGridOptions : GridOptions F :=
  { xgb := false, rounds := ⟨2, 100, 1⟩, maxDepth := ⟨2, 10, 1⟩, learningRate := frange (1/100) (8/10) (1/10),
    minChildWeight := frange 2 6 1, gamma := frange 0 1 2, lambda := frange 0 1 2, subSample := frange 1 1 2,
    colSubSample := frange 1 1 2, verbose := false, earlyStop := (defaultGOptions 0 : Options F).earlyStop,
    step := zero, deltaFraction := zero, nSteps := 0, central := false, nCPUs := 0, writeBest := false }

/-- cv/cv.go:124-143 `DefaultXGridOptions` -/
def defaultXGridOptions : GridOptions F :=
  { xgb := true, rounds := ⟨20, 1000, 100⟩, maxDepth := ⟨3, 6, 1⟩, learningRate := frange (1/100) (5/10) (15/100),
    gamma := frange 0 (5/10) (1/10), lambda := frange (5/10) 2 (2/10), subSample := frange (6/10) (9/10) (1/10),
    colSubSample := frange (6/10) (9/10) (1/10), minChildWeight := frange 3 5 1, step := ofRat (1/10),
    deltaFraction := ofRat (5/100), nSteps := 6, central := true,
    earlyStop := (defaultXOptions 0 : Options F).earlyStop, verbose := false, nCPUs := 1, writeBest := false }

/-- cv/cv.go:160-164: the options used -/
def gridOptionsOf (options : Option (GridOptions F)) : GridOptions F := options.getD defaultXGridOptions

/-- `for x := x; x <= hi; x += step` with floats: the values of `x` for which the body is run, or `none` if the loop
makes more than `fuel` tests. -/
def floatLoop : Nat → F → F → F → Option (List F)
  | 0, _, _, _ => none
  | fuel + 1, x, hi, step => if x <=. hi then (floatLoop fuel (x +. step) hi step).map (x :: ·) else some []

/-- the same loop with ints (without overflow) -/
def intLoop : Nat → Int → Int → Int → Option (List Int)
  | 0, _, _, _ => none
  | fuel + 1, x, hi, step => if x ≤ hi then (intLoop fuel (x + step) hi step).map (x :: ·) else some []

/-- `floatLoop` over a range of the options -/
def Range3.floats (fuel : Nat) (r : Range3 F) : Option (List F) := floatLoop fuel r.lo r.hi r.step
/-- `intLoop` over a range of the options -/
def Range3.ints (fuel : Nat) (r : Range3 Int) : Option (List Int) := intLoop fuel r.lo r.hi r.step

/-- a loop whose body is another loop: the concatenation of what the inner loops produce -/
def nest {α β : Type} (l : Option (List α)) (f : α → Option (List β)) : Option (List β) := do
  let l ← l
  let ls ← l.mapM f
  pure ls.flatten

/-- cv/cv.go:165-168 (also grad.go:227-230 and hybrid.go:18-21): `defaultoptions()`; the losses allocated by successive
calls are given the same identity. -/
def baseOptions (o : GridOptions F) : Options F :=
  if o.xgb then defaultXOptions 0 else defaultGOptions 0

/-- cv/cv.go:195-205: the options of one point of the grid -/
def gridPoint (o : GridOptions F) (rounds : Int) (cw : F) (md : Int) (css lr lam gam ss : F) : Options F :=
  { baseOptions o with
    colSubSample := css, learningRate := lr, maxDepth := md, rounds := rounds, lambda := lam, gamma := gam,
    subSample := ss, minChildWeight := cw, xgb := o.xgb, earlyStop := o.earlyStop }

/-- cv/cv.go:183-205: the points in the order of the nested loops; `none`: some loop makes more than `fuel` tests. -/
def gridPoints (fuel : Nat) (o : GridOptions F) : Option (List (Options F)) :=
  nest (o.rounds.ints fuel) fun rounds =>
  nest (o.minChildWeight.floats fuel) fun cw =>
  nest (o.maxDepth.ints fuel) fun md =>
  nest (o.colSubSample.floats fuel) fun css =>
  nest (o.learningRate.floats fuel) fun lr =>
  nest (o.lambda.floats fuel) fun lam =>
  nest (o.gamma.floats fuel) fun gam =>
  (o.subSample.floats fuel).map fun l => l.map fun ss => gridPoint o rounds cw md css lr lam gam ss

/-- the best accuracy so far and its options -/
abbrev BestAcc (F : Type) := F × Option (Options F)

/-- cv/cv.go:246-255 -/
def updateBest (best : BestAcc F) (tmpacc : F) (tmpop : Option (Options F)) : BestAcc F :=
  if gt tmpacc best.1 then (tmpacc, tmpop) else best

/-- cv/cv.go:237-255: one round of the loop of `rescueConcValues`, for a worker that sends the given values.
`none` (of `Run`): a receive that never happens; `pure none`: an error is returned. -/
def rescueOne (best : BestAcc F) : List (CVMsg F) → Run (Option (BestAcc F))
  | .err e :: rest =>
    if e then pure none else match rest with
    | .acc a :: rest =>
      if a <. zero then pure none else match rest with
      | .opt o :: _ => pure (some (updateBest best a o))
      | _ => Run.ofOption none
    | _ => Run.ofOption none
  | _ => Run.ofOption none

/-- cv/cv.go:232-259 `rescueConcValues` -/
def rescueConcValues : List (List (CVMsg F)) → BestAcc F → Run (Option (BestAcc F))
  | [], best => pure (some best)
  | w :: ws, best => do
    match ← rescueOne best w with
    | none => pure none
    | some best => rescueConcValues ws best

/-- cv/cv.go:206-217 for the successive points of the grid. Each point is given by what its cross-validation sends;
`pending` are those started since the last call of `rescueConcValues` (their number is `cpus`). A cross-validation is
only waited for in `rescueConcValues`; a panic in one that is never waited for is not modelled. -/
def gridLoop (nCPUs : Int) : List (Run (List (CVMsg F))) → List (Run (List (CVMsg F))) → BestAcc F →
    Run (Option (BestAcc F))
  | [], _, best => pure (some best)
  | p :: ps, pending, best =>
    if nCPUs ≤ pending.length then Run.ofGo (.error .index)
    else
      let pending := pending ++ [p]
      if (pending.length : Int) = nCPUs then do
        let ws ← pending.mapM id
        match ← rescueConcValues ws best with
        | none => pure none
        | some best => gridLoop nCPUs ps [] best
      else gridLoop nCPUs ps pending best

/-- what `Grid` returns; the returned slice is nil or empty in the same cases as the list is empty -/
structure GridRet (F : Type) where
  acc : F
  accs : List F
  opts : Option (Options F)
  err : Bool

/-- cv/cv.go:213-215 and 228 -/
def gridRet : Option (BestAcc F) → GridRet F
  | none => ⟨ofRat (-1), [], none, true⟩
  | some best => ⟨best.1, [], best.2, false⟩

/-- cv/cv.go:158-229 with a cross-validation `cv j O` for the `j`-th point `O`; `make` panics for a negative length. -/
def gridWith (cv : Nat → Options F → Run (CVOut F)) (fuel : Nat) (o : GridOptions F) : Run (GridRet F) :=
  if o.nCPUs < 0 then Run.ofGo (.error .slice)
  else do
    let pts ← Run.ofOption (gridPoints fuel o)
    let best ← gridLoop o.nCPUs (pts.mapIdx fun j O => (cv j O).map CVOut.sent) [] (zero, none)
    pure (gridRet best)

/-- cv/cv.go:158-229 `Grid`. The generators are shared by concurrent cross-validations; each point has its own draws
here, which may be anything. -/
def grid (exp : F → F) (S : GoSort) (fuel : Nat) (D : DataBunch F) (nfold : Int) (options : Option (GridOptions F))
    (idraws : Nat → List Nat) (fdraws : Nat → Nat → Nat → F) : Run (GridRet F) :=
  gridWith (fun j O => crossValidation exp S D nfold (some O) true (idraws j) (fdraws j)) fuel (gridOptionsOf options)

/-! ### The goroutines of `Grid` -/

/-- A goroutine running `MultiClassCrossValidation`: still computing, or about to send the values of the list. -/
structure Worker (F : Type) where
  busy : Bool
  left : List (CVMsg F)

/-- Where the goroutine that called `Grid` is. -/
inductive GridMain (F : Type) where
  /-- in the nested loops, cv/cv.go:183-209 -/
  | launching (best : BestAcc F)
  /-- cv/cv.go:237, waiting for the error of worker `i` -/
  | waitErr (i : Nat) (best : BestAcc F)
  /-- cv/cv.go:241, waiting for the accuracy of worker `i` -/
  | waitAcc (i : Nat) (best : BestAcc F)
  /-- cv/cv.go:245, waiting for the options of worker `i`, which sent accuracy `a` -/
  | waitOpt (i : Nat) (a : F) (best : BestAcc F)
  /-- `Grid` has returned -/
  | returned (r : Option (BestAcc F))

/-- The points that remain (each with what its cross-validation will send), the goroutines started so far, the index of
the first one of the current batch (the one on channel 0) and the caller. -/
structure GridState (F : Type) where
  todo : List (List (CVMsg F))
  workers : List (Worker F)
  base : Nat
  main : GridMain F

/-- cv/cv.go:236 and 211-217: after worker `i` was dealt with -/
def afterWorker (nCPUs : Nat) (s : GridState F) (i : Nat) (best : BestAcc F) : GridState F :=
  if i + 1 = nCPUs then { s with base := s.workers.length, main := .launching best }
  else { s with main := .waitErr (i + 1) best }

/-- The steps of the goroutines. The channels are unbuffered: a send and its receive are one step. -/
inductive GridStep (nCPUs : Nat) : GridState F → GridState F → Prop
  /-- cv/cv.go:206-210: `go MultiClassCrossValidation(...)` on the next channel -/
  | launch (s : GridState F) (best : BestAcc F) (p : List (CVMsg F)) (ps : List (List (CVMsg F)))
      (hm : s.main = .launching best) (ht : s.todo = p :: ps) (hc : s.workers.length - s.base < nCPUs) :
      GridStep nCPUs s { s with
        todo := ps, workers := s.workers ++ [⟨true, p⟩]
        main := if s.workers.length + 1 - s.base = nCPUs then .waitErr 0 best else .launching best }
  /-- cv/cv.go:228 -/
  | finish (s : GridState F) (best : BestAcc F) (hm : s.main = .launching best) (ht : s.todo = []) :
      GridStep nCPUs s { s with main := .returned (some best) }
  /-- cv/cv.go:17-45: a worker ends its computation -/
  | compute (s : GridState F) (k : Nat) (left : List (CVMsg F)) (hk : s.workers[k]? = some ⟨true, left⟩) :
      GridStep nCPUs s { s with workers := s.workers.set k ⟨false, left⟩ }
  /-- cv/cv.go:21 or 47 with 237-240 -/
  | recvErr (s : GridState F) (i : Nat) (best : BestAcc F) (e : Bool) (left : List (CVMsg F))
      (hm : s.main = .waitErr i best) (hk : s.workers[s.base + i]? = some ⟨false, .err e :: left⟩) :
      GridStep nCPUs s { s with
        workers := s.workers.set (s.base + i) ⟨false, left⟩
        main := if e then .returned none else .waitAcc i best }
  /-- cv/cv.go:22 or 48 with 241-244 -/
  | recvAcc (s : GridState F) (i : Nat) (best : BestAcc F) (a : F) (left : List (CVMsg F))
      (hm : s.main = .waitAcc i best) (hk : s.workers[s.base + i]? = some ⟨false, .acc a :: left⟩) :
      GridStep nCPUs s { s with
        workers := s.workers.set (s.base + i) ⟨false, left⟩
        main := if a <. zero then .returned none else .waitOpt i a best }
  /-- cv/cv.go:23 or 49 with 245-255 -/
  | recvOpt (s : GridState F) (i : Nat) (best : BestAcc F) (a : F) (o : Option (Options F)) (left : List (CVMsg F))
      (hm : s.main = .waitOpt i a best) (hk : s.workers[s.base + i]? = some ⟨false, .opt o :: left⟩) :
      GridStep nCPUs s (afterWorker nCPUs { s with workers := s.workers.set (s.base + i) ⟨false, left⟩ } i
        (updateBest best a o))

/-- before the first point, cv/cv.go:182 -/
def gridStart (todo : List (List (CVMsg F))) : GridState F := ⟨todo, [], 0, .launching (zero, none)⟩

end Boo
