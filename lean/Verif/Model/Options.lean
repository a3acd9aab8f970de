import Verif.Model.Loss

/-!
# options.go
-/

namespace Boo
open GoFloat
variable {F : Type} [GoFloat F]

/-- A non-nil value of the interface `utils.LossFunc`. `id` is the identity that Go's `==` compares
(dynamic type and pointer; the losses of boo are pointers to structs of size zero, for which the language leaves open
whether two allocations compare equal, so `id`s are arbitrary). -/
structure LossVal (F : Type) where
  id : Nat
  fn : LossFunc F

/-- options.go:10-27 `Options` -/
structure Options (F : Type) where
  xgb : Bool
  rounds : Int
  maxDepth : Int
  earlyStop : Int
  learningRate : F
  lambda : F
  minChildWeight : F
  gamma : F
  subSample : F
  colSubSample : F
  baseScore : F
  minSample : Int
  treeMethod : String
  verbose : Bool
  loss : Option (LossVal F)

/-- options.go:31-49 `DefaultXOptions`; `id` is the identity of the allocated loss. -/
def defaultXOptions (id : Nat) : Options F :=
  { xgb := true, rounds := 20, subSample := ofRat (8/10), colSubSample := ofRat (8/10),
    lambda := ofRat (15/10), minChildWeight := ofRat 3, gamma := ofRat (2/10), maxDepth := 5,
    learningRate := ofRat (3/10), baseScore := ofRat (5/10), treeMethod := "exact", earlyStop := 10,
    loss := some ⟨id, sqErrLoss⟩, verbose := false, minSample := 5 }

/-- options.go:121-131 `DefaultGOptions` -/
def defaultGOptions (id : Nat) : Options F :=
  { xgb := false, rounds := 10, maxDepth := 4, learningRate := ofRat (1/10),
    minChildWeight := ofRat 3, loss := some ⟨id, mseLoss⟩, subSample := zero, colSubSample := zero,
    lambda := zero, gamma := zero, baseScore := zero, treeMethod := "", earlyStop := 0,
    verbose := false, minSample := 0 }

/-- options.go:133-135 `DefaultOptions` -/
def defaultOptions (id : Nat) : Options F := defaultXOptions id

/-- Go `a != b` on floats -/
def fne (a b : F) : Bool := !(a ==. b)

/-- options.go:51-96 `o.Equal(O)` -/
def Options.equal (o O : Options F) : Bool :=
  if O.xgb ≠ o.xgb then false
  else if O.rounds ≠ o.rounds then false
  else if fne O.subSample o.subSample then false
  else if fne O.colSubSample o.colSubSample then false
  else if fne O.lambda o.lambda then false
  else if fne O.minChildWeight o.minChildWeight then false
  else if fne O.gamma o.gamma then false
  else if O.maxDepth ≠ o.maxDepth then false
  else if fne O.learningRate o.learningRate then false
  else if fne O.baseScore o.baseScore then false
  else if O.treeMethod ≠ "exact" then false
  else if O.loss.map (·.id) ≠ o.loss.map (·.id) then false
  else if O.verbose ≠ o.verbose then false
  else if O.minSample ≠ o.minSample then false
  else true

/-- options.go:98-116 `Clone` (`new(Options)` zeroes `EarlyStop`, which is not copied) -/
def Options.clone (o : Options F) : Options F :=
  { xgb := o.xgb, rounds := o.rounds, subSample := o.subSample, colSubSample := o.colSubSample,
    lambda := o.lambda, minChildWeight := o.minChildWeight, gamma := o.gamma, maxDepth := o.maxDepth,
    learningRate := o.learningRate, baseScore := o.baseScore, treeMethod := "exact",
    loss := o.loss, verbose := o.verbose, minSample := o.minSample, earlyStop := 0 }

/-- The branch of `Check` that returns an error. -/
inductive CheckErr where
  | rounds | learningRate | subSampleLow | subSampleHigh | lambda | minChildWeight | gamma
  | maxDepth | minSample
  deriving DecidableEq

/-- options.go:148-179 `Check`; `none` is nil. -/
def Options.check (o : Options F) : Option CheckErr :=
  if o.rounds ≤ 0 then some .rounds
  else if o.learningRate <=. zero then some .learningRate
  else if (o.subSample <=. zero) || (o.colSubSample <=. zero) then some .subSampleLow
  else if gt o.subSample one || gt o.colSubSample one then some .subSampleHigh
  else if o.lambda <. zero then some .lambda
  else if o.minChildWeight <. one then some .minChildWeight
  else if o.gamma <. zero then some .gamma
  else if o.maxDepth < 2 then some .maxDepth
  else if o.minSample < 1 then some .minSample
  else none

end Boo
