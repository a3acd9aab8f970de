import Verif.Model.CV
import Mathlib.Logic.Relation

/-!
# cv/grad.go, cv/hybrid.go
-/

namespace Boo
open GoFloat
variable {F : Type} [GoFloat F]

/-- cv/grad.go:12 `av` -/
def av (a b : F) : F := (a +. b) /. ofRat 2
/-- cv/grad.go:13 `avint`: Go's division truncates (the sum is not reduced to 64 bits) -/
def avint (a b : Int) : Int := (a + b).tdiv 2

/-- cv/grad.go:11-22 `setOptionsToMid` -/
def setOptionsToMid (o : Options F) (co : GridOptions F) : Options F :=
  { o with
    rounds := avint co.rounds.lo co.rounds.hi
    learningRate := av co.learningRate.lo co.learningRate.hi
    subSample := av co.subSample.lo co.subSample.hi
    colSubSample := av co.colSubSample.lo co.colSubSample.hi
    lambda := av co.lambda.lo co.lambda.hi
    minChildWeight := av co.minChildWeight.lo co.minChildWeight.hi
    gamma := av co.gamma.lo co.gamma.hi
    maxDepth := avint co.maxDepth.lo co.maxDepth.hi }

/-- cv/grad.go:205-217 `setSomeOptionsToMid` -/
def setSomeOptionsToMid (o : Options F) (co : GridOptions F) : Options F :=
  { o with
    rounds := avint co.rounds.lo co.rounds.hi
    learningRate := av co.learningRate.lo co.learningRate.hi
    subSample := av co.subSample.lo co.subSample.hi
    colSubSample := av co.colSubSample.lo co.colSubSample.hi
    lambda := av co.lambda.lo co.lambda.hi
    gamma := av co.gamma.lo co.gamma.hi }

/-- `x < r[0] || x > r[1]` -/
def outsideF (x : F) (r : Range3 F) : Bool := (x <. r.lo) || gt x r.hi
/-- the same for ints -/
def outsideI (x : Int) (r : Range3 Int) : Bool := decide (x < r.lo) || decide (r.hi < x)

/-- cv/grad.go:24-54 `checkAgainstOptions`; `none` is nil -/
def checkAgainst (o : Options F) (co : GridOptions F) : Option CheckErr :=
  if outsideI o.rounds co.rounds then some .rounds
  else if outsideF o.learningRate co.learningRate then some .learningRate
  else if (o.subSample <. co.subSample.lo) || (o.colSubSample <. co.colSubSample.lo) then some .subSampleLow
  else if gt o.subSample co.subSample.hi || gt o.colSubSample co.colSubSample.hi then some .subSampleHigh
  else if outsideF o.lambda co.lambda then some .lambda
  else if outsideF o.minChildWeight co.minChildWeight then some .minChildWeight
  else if outsideF o.gamma co.gamma then some .gamma
  else if outsideI o.maxDepth co.maxDepth then some .maxDepth
  else if o.minSample < 1 then some .minSample
  else none

/-- The strings with which `GradStep` calls `ParamaterGradStep` (cv/grad.go:187-191). With any other string but "Curr" the
call panics (a nil function of the map is called); "Curr" is never used. -/
inductive Param where
  | gamma | lambda | subSample | colSubSample | learningRate | rounds
  deriving DecidableEq

/-- cv/grad.go:56-73 `currentValue` -/
def currentValue (O : Options F) : Param → F
  | .gamma => O.gamma
  | .lambda => O.lambda
  | .subSample => O.subSample
  | .colSubSample => O.colSubSample
  | .learningRate => O.learningRate
  | .rounds => ofInt O.rounds

/-- cv/grad.go:82-92: the second function of the entry of the map -/
def plusOpt (fd : F) (o : Options F) : Param → Options F
  | .gamma => { o with gamma := o.gamma +. o.gamma *. fd }
  | .lambda => { o with lambda := o.lambda +. o.lambda *. fd }
  | .subSample => { o with subSample := o.subSample +. o.subSample *. fd }
  | .colSubSample => { o with colSubSample := o.colSubSample +. o.colSubSample *. fd }
  | .learningRate => { o with learningRate := o.learningRate +. o.learningRate *. fd }
  | .rounds => { o with rounds := o.rounds + toInt (ofInt o.rounds *. fd) }

/-- cv/grad.go:82-92: the first function of the entry of the map -/
def minusOpt (fd : F) (o : Options F) : Param → Options F
  | .gamma => { o with gamma := o.gamma -. o.gamma *. fd }
  | .lambda => { o with lambda := o.lambda -. o.lambda *. fd }
  | .subSample => { o with subSample := o.subSample -. o.subSample *. fd }
  | .colSubSample => { o with colSubSample := o.colSubSample -. o.colSubSample *. fd }
  | .learningRate => { o with learningRate := o.learningRate -. o.learningRate *. fd }
  | .rounds => { o with rounds := o.rounds - toInt (ofInt o.rounds *. fd) }

/-- cv/grad.go:144-160: one try of the loop -/
def tryStep (co : GridOptions F) (der st : F) (o : Options F) : Param → Options F
  | .gamma => { o with gamma := o.gamma +. der *. co.gamma.step *. st }
  | .lambda => { o with lambda := o.lambda +. der *. co.lambda.step *. st }
  | .subSample => { o with subSample := o.subSample +. der *. co.subSample.step *. st }
  | .colSubSample => { o with colSubSample := o.colSubSample +. der *. co.colSubSample.step *. st }
  | .learningRate => { o with learningRate := o.learningRate +. der *. co.learningRate.step *. st }
  | .rounds => { o with rounds := o.rounds + toInt (der *. ofInt co.rounds.step *. st) }

/-- the error and the accuracy of a cross-validation -/
structure CVRes (F : Type) where
  err : Bool
  acc : F

/-- The arguments of a gradient step, and what its cross-validations report for the options they are given: any
functions. -/
structure GradEnv (F : Type) where
  co : GridOptions F
  step : F
  fd : F
  central : Bool
  plus : Param → Options F → CVRes F
  minus : Param → Options F → CVRes F

/-- cv/grad.go:143-165: the loop, from the test with `st` on, with `O` the options at that point. `none`: it makes more
than `fuel` tests. -/
def stepLoop (co : GridOptions F) (step der : F) (p : Param) (prev : Options F) : Nat → F → Options F → Option (Options F)
  | 0, _, _ => none
  | fuel + 1, st, O =>
    if gt st (ofRat (1/10) *. step) then
      let O := tryStep co der st O p
      if checkAgainst O co = none then some O
      else stepLoop co step der p prev fuel (st -. st *. ofRat (2/10)) prev.clone
    else some O

/-- What a parameter goroutine does that others can see, in order: sends (with the contents of the options at that time)
and later changes of the options first allocated, to which an earlier send gave a pointer. -/
inductive PAct (F : Type) where
  | send (o : Options F)
  | mutate (o : Options F)

/-- cv/grad.go:126-140: the derivative, from the accuracies at plus, at minus and of the current options -/
def derivative (central : Bool) (pacc macc currentAccuracy h : F) : F :=
  if central then (pacc -. macc) /. ofRat 2 *. h else (pacc -. currentAccuracy) /. h

/-- cv/grad.go:75-171 `ParamaterGradStep` after line 77, with `O` the clone made there. `none`: its loop makes
more than `fuel` tests. The sends on error paths are not followed by a return. -/
def paramActs (fuel : Nat) (E : GradEnv F) (currentAccuracy : F) (p : Param) (O : Options F) : Option (List (PAct F)) :=
  let plus := E.plus p (plusOpt E.fd O.clone p)
  let mO := minusOpt E.fd O.clone p
  let minus := E.minus p mO
  let pre : List (PAct F) := (if E.central = true ∧ mO.check ≠ none then [.send O] else []) ++
    (if plus.err then [.send O] else [])
  let h := E.fd *. currentValue O p
  if E.central = false ∧ (h <. zero) = true then some (pre ++ [.send O])
  else
    let pre := pre ++ (if E.central = true ∧ minus.err = true then [.send O] else [])
    let der := derivative E.central plus.acc minus.acc currentAccuracy h
    let prev := O.clone
    (stepLoop E.co E.step der p prev fuel E.step O).map fun O' =>
      pre ++ (if gt E.step (ofRat (1/10) *. E.step) then [.mutate (tryStep E.co der E.step O p)] else []) ++
        [.send (if checkAgainst O' E.co = none then O' else prev)]

/-! ### The goroutines of `GradStep` -/

/-- copy the field of the parameter from `a` to `b` -/
def copyField (a b : Options F) : Param → Options F
  | .gamma => { b with gamma := a.gamma }
  | .lambda => { b with lambda := a.lambda }
  | .subSample => { b with subSample := a.subSample }
  | .colSubSample => { b with colSubSample := a.colSubSample }
  | .learningRate => { b with learningRate := a.learningRate }
  | .rounds => { b with rounds := a.rounds }

/-- A goroutine running `ParamaterGradStep`: in `Op.Clone()` (options.go:98-116), with the fields that are still to be read
and the clone so far; or after it, with what it still does. -/
inductive GradWorker (F : Type) where
  | cloning (todo : List Param) (o : Options F)
  | running (acts : List (PAct F))

/-- Where the goroutine that called `GradStep` is, cv/grad.go:192-197; the lists are the parameters it has still to
receive. -/
inductive GradMain (F : Type) where
  /-- before the receive for the first parameter of the list; it has returned if there is none -/
  | recv (todo : List Param)
  /-- between the receive and reading the field of what was received -/
  | got (p : Param) (todo : List Param)
  /-- between the read and the assignment -/
  | assign (p : Param) (v : Options F) (todo : List Param)

/-- `shared`: the options of which the goroutines have the pointer; `obj p`: what the pointer received from goroutine `p`
points to. -/
structure GradState (F : Type) where
  shared : Options F
  worker : Param → GradWorker F
  obj : Param → Options F
  main : GradMain F

/-- change the worker of one parameter -/
def GradState.setWorker (s : GradState F) (p : Param) (w : GradWorker F) : Param → GradWorker F :=
  fun q => if q = p then w else s.worker q

/-- change the object of one parameter -/
def GradState.setObj (s : GradState F) (p : Param) (o : Options F) : Param → Options F :=
  fun q => if q = p then o else s.obj q

/-- The steps of the goroutines of `GradStep`. Reads and writes of one field are atomic and sequentially consistent. -/
inductive GradStep (fuel : Nat) (E : GradEnv F) (curracc : F) : GradState F → GradState F → Prop
  /-- options.go:98-116: one field is read -/
  | read (s : GradState F) (p q : Param) (todo : List Param) (o : Options F) (hw : s.worker p = .cloning (q :: todo) o) :
      GradStep fuel E curracc s { s with worker := s.setWorker p (.cloning todo (copyField s.shared o q)) }
  /-- the clone is complete -/
  | start (s : GradState F) (p : Param) (o : Options F) (acts : List (PAct F)) (hw : s.worker p = .cloning [] o)
      (ha : paramActs fuel E curracc p o = some acts) :
      GradStep fuel E curracc s { s with worker := s.setWorker p (.running acts) }
  /-- the worker changes its options -/
  | mutate (s : GradState F) (p : Param) (o : Options F) (acts : List (PAct F))
      (hw : s.worker p = .running (.mutate o :: acts)) :
      GradStep fuel E curracc s { s with worker := s.setWorker p (.running acts), obj := s.setObj p o }
  /-- a send and its receive (the channels are not buffered) -/
  | recv (s : GradState F) (p : Param) (todo : List Param) (o : Options F) (acts : List (PAct F))
      (hm : s.main = .recv (p :: todo)) (hw : s.worker p = .running (.send o :: acts)) :
      GradStep fuel E curracc s { s with
        worker := s.setWorker p (.running acts), obj := s.setObj p o, main := .got p todo }
  /-- the field of the received options is read -/
  | look (s : GradState F) (p : Param) (todo : List Param) (hm : s.main = .got p todo) :
      GradStep fuel E curracc s { s with main := .assign p (s.obj p) todo }
  /-- and assigned -/
  | assign (s : GradState F) (p : Param) (v : Options F) (todo : List Param) (hm : s.main = .assign p v todo) :
      GradStep fuel E curracc s { s with shared := copyField v s.shared p, main := .recv todo }

/-- the order in which `Clone` reads the fields that `GradStep` assigns; the others do not change -/
def cloneOrder : List Param := [.rounds, .subSample, .colSubSample, .lambda, .gamma, .learningRate]
/-- cv/grad.go:192-197: the order of the receives -/
def recvOrder : List Param := [.gamma, .lambda, .subSample, .learningRate, .rounds, .colSubSample]

/-- cv/grad.go:187-191: all goroutines were started -/
def gradStart (O : Options F) : GradState F :=
  ⟨O, fun _ => .cloning cloneOrder O.clone, fun _ => O, .recv recvOrder⟩

/-- cv/grad.go:173-203 `GradStep` with a nil channel: `Returns O O'` if some schedule of the goroutines ends with the
options `O` changed to `O'` (in place; the result is the same pointer). `curr` is the cross-validation of line 182, which
is not made with `central` and which raises `MinChildWeight` of the options (xgb.go:36-38) unless it fails. -/
def GradReturns (fuel : Nat) (E : GradEnv F) (curr : Options F → CVRes F) (O O' : Options F) : Prop :=
  let reach := fun acc o => ∃ s, Relation.ReflTransGen (GradStep fuel E acc) (gradStart o) s ∧ s.main = .recv [] ∧ s.shared = O'
  if E.central then reach zero O
  else if (curr O).err then O' = O
  else reach (curr O).acc O.fixMcw

/-! ### fuzz -/

/-- cv/grad.go:301-308 `fuzz`; `u` and `b` are the values of `rand.Float64()` and `rand.IntN(2)` -/
def fuzz (u : F) (b : Nat) (f fuzzperc : F) : F :=
  let fu := u *. fuzzperc
  let sign : F := if b < 1 then ofRat (-1) else one
  f +. sign *. fu *. f

/-- the draws of the random generators: `rand.Float64()` and `rand.IntN(2)` -/
abbrev FuzzDraws (F : Type) := Nat → F × Nat

/-- cv/grad.go:310-323 `fuzzOptions` -/
def fuzzOptions (d : FuzzDraws F) (O : Options F) (fuzzperc : Option F) : Options F :=
  let f : F := match fuzzperc with
    | some q => if gt q zero then q else ofRat (1/10)
    | none => ofRat (1/10)
  { O with
    rounds := toInt (fuzz (d 0).1 (d 0).2 (ofInt O.rounds) f)
    subSample := fuzz (d 1).1 (d 1).2 O.subSample f
    colSubSample := fuzz (d 2).1 (d 2).2 O.colSubSample f
    lambda := fuzz (d 3).1 (d 3).2 O.lambda f
    gamma := fuzz (d 4).1 (d 4).2 O.gamma f
    learningRate := fuzz (d 5).1 (d 5).2 O.learningRate f
    baseScore := fuzz (d 6).1 (d 6).2 O.baseScore f }

/-! ### The searches -/

/-- What the searches depend on: the options, and for each call in turn what the cross-validation with the given number of
folds reports, what `GradStep` (with the given number of folds) makes of the options and what the random generators
return. -/
structure SearchEnv (F : Type) where
  o : GridOptions F
  cv : Nat → Int → Options F → CVRes F
  grad : Nat → Int → Options F → Options F
  draws : Nat → FuzzDraws F

/-- The variables of the searches. `heap`: the option objects allocated so far; pointers are indices. `calls` is a history
variable: the options given to the cross-validations so far and what these reported. `writes`: the accuracies and options
given to `writeBest` so far (`Model/WriteBest`). -/
structure SearchState (F : Type) where
  heap : List (Options F)
  best : F
  accs : List F
  final : Option Nat
  calls : List (Options F × CVRes F)
  steps : Nat
  fuzzes : Nat
  writes : List (F × Options F)

/-- `*ptr` -/
def SearchState.deref (s : SearchState F) (ptr : Nat) : Options F := (s.heap[ptr]?).getD (defaultGOptions 0)

/-- `*ptr = o` -/
def SearchState.store (s : SearchState F) (ptr : Nat) (o : Options F) : SearchState F :=
  { s with heap := s.heap.set ptr o }

/-- a new object; its pointer is the former length of the heap -/
def SearchState.alloc (s : SearchState F) (o : Options F) : SearchState F := { s with heap := s.heap ++ [o] }

/-- `fuzzOptions(ptr, ...)` -/
def SearchState.fuzz (s : SearchState F) (E : SearchEnv F) (ptr : Nat) (perc : Option F) : SearchState F :=
  { s.store ptr (fuzzOptions (E.draws s.fuzzes) (s.deref ptr) perc) with fuzzes := s.fuzzes + 1 }

/-- cv/grad.go:246-269 (hybrid.go:50-70) `CompareAccs`: the new value of `t`, `none` for an error. The number of folds is
always 5. The cross-validation raises `MinChildWeight` unless it fails. -/
def compareAccs (E : SearchEnv F) (s : SearchState F) (t tprev : Nat) : SearchState F × Option Nat :=
  let r := E.cv s.calls.length 5 (s.deref t)
  let s := { s with calls := s.calls ++ [(s.deref t, r)] }
  if r.err then (s, none)
  else
    let O := (s.deref t).fixMcw
    let s := s.store t O
    if (s.accs.getLast?.map (r.acc <. ·)) = some true then (s.fuzz E tprev none, some tprev)
    else if gt r.acc s.best then
      ({ s with
         accs := s.accs ++ [r.acc], final := some t, best := r.acc
         writes := if E.o.writeBest then s.writes ++ [(r.acc, O)] else s.writes }, some t)
    else (s, some t)

/-- cv/grad.go:277-294 (hybrid.go:78-95): the loop with `n` steps to go. `false`: an error is returned. -/
def searchSteps (E : SearchEnv F) (nfold : Int) : Nat → SearchState F → Nat → Nat → SearchState F × Bool
  | 0, s, _, _ => (s, true)
  | n + 1, s, t, strikes =>
    let t1 := s.heap.length
    let s := s.alloc (s.deref t).clone
    let s := { s.store t (E.grad s.steps nfold (s.deref t)) with steps := s.steps + 1 }
    if (s.deref t).equal (s.deref t1) then
      let strikes := strikes + 1
      let s := s.fuzz E t (some (ofRat (2/10)))
      if strikes = 3 then (s, true) else searchSteps E nfold n s t strikes
    else
      match compareAccs E s t t1 with
      | (s, none) => (s, false)
      | (s, some t) => searchSteps E nfold n s t 0

/-- cv/grad.go:245-294 (hybrid.go:49-95): one starting point -/
def searchFrom (E : SearchEnv F) (nfold : Int) (s : SearchState F) (init : Options F) : SearchState F × Bool :=
  let t := s.heap.length
  let tprev := t + 1
  let s := (s.alloc init).alloc init.clone
  match compareAccs E s t tprev with
  | (s, none) => (s, false)
  | (s, some t) => searchSteps E nfold E.o.nSteps.toNat s t 0

/-- all starting points in turn -/
def searchAll (E : SearchEnv F) (nfold : Int) : List (Options F) → SearchState F → SearchState F × Bool
  | [], s => (s, true)
  | init :: inits, s =>
    match searchFrom E nfold s init with
    | (s, false) => (s, false)
    | (s, true) => searchAll E nfold inits s

/-- cv/grad.go:231-234; `Verbose` is not modelled -/
def searchStart : SearchState F := ⟨[], zero, [], none, [], 0, 0, []⟩

/-- cv/grad.go:297 and 270-273, 290-292: what is returned -/
def searchRet : SearchState F × Bool → GridRet F
  | (_, false) => ⟨ofRat (-1), [], none, true⟩
  | (s, true) => ⟨s.best, s.accs, s.final.map s.deref, false⟩

/-- cv/grad.go:235-244: the starting points of `GradientGrid`; `none`: some loop makes more than `fuel` tests -/
def gradientInits (fuel : Nat) (o : GridOptions F) : Option (List (Options F)) :=
  nest (o.minChildWeight.floats fuel) fun cw =>
  (o.maxDepth.ints fuel).map fun l => l.map fun md =>
    ({ setSomeOptionsToMid (baseOptions o) o with
      maxDepth := md, minChildWeight := cw, xgb := o.xgb } : Options F)

/-- cv/grad.go:220-298 `GradientGrid` (`options[0]` or the default is in `E`) -/
def gradientGrid (fuel : Nat) (E : SearchEnv F) (nfold : Int) : Option (GridRet F) :=
  (gradientInits fuel E.o).map fun inits => searchRet (searchAll E nfold inits searchStart)

/-- cv/hybrid.go:33-40: the options around one point of the grid -/
def hybridRange (o : GridOptions F) (rounds : Int) (lam : F) : GridOptions F :=
  { o.clone with
    rounds := ⟨rounds - o.rounds.step, rounds + o.rounds.step, toInt (ofInt o.rounds.step *. ofRat (1/10) : F)⟩
    lambda := ⟨lam -. o.lambda.step, lam +. o.lambda.step, lam *. ofRat (1/10)⟩ }

/-- cv/hybrid.go:26-47: the starting points of `HybridGradientGrid` -/
def hybridInits (fuel : Nat) (o : GridOptions F) : Option (List (Options F)) :=
  nest (o.rounds.ints fuel) fun rounds =>
  nest (o.minChildWeight.floats fuel) fun cw =>
  nest (o.maxDepth.ints fuel) fun md =>
  (o.lambda.floats fuel).map fun l => l.map fun lam =>
    ({ setSomeOptionsToMid (baseOptions o) (hybridRange o rounds lam) with
      maxDepth := md, minChildWeight := cw, xgb := o.xgb, earlyStop := o.earlyStop } : Options F)

/-- cv/hybrid.go:11-102 `HybridGradientGrid` -/
def hybridGrid (fuel : Nat) (E : SearchEnv F) (nfold : Int) : Option (GridRet F) :=
  (hybridInits fuel E.o).map fun inits => searchRet (searchAll E nfold inits searchStart)

end Boo
