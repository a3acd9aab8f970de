import Verif.Model.Grad
import Verif.Model.TextData

/-!
# Model of examples/basicboost.go

The whole program: it reads a file, trains, searches twice for options, trains again, and classifies a row. What it writes to the standard output is a
record; the lines that `Verbose` adds are modelled in `Verbose` and `VerboseCV`.
-/

namespace Boo
open GoFloat

variable {F : Type} [GoFloat F]

/-- examples/basicboost.go:16-21: the options of the first training. `id` is the address of `&utils.SQErrLoss{}`. -/
def exampleOptions (id : Nat) : Options F :=
  { (defaultOptions id : Options F) with
    rounds := 100, colSubSample := ofRat (8/10), earlyStop := 10, verbose := true, loss := some ⟨id, sqErrLoss⟩ }

/-- examples/basicboost.go:26-33: the options of both searches -/
def exampleGrid : GridOptions F :=
  { (defaultXGridOptions : GridOptions F) with
    rounds := ⟨5, 30, 5⟩, maxDepth := ⟨3, 4, 1⟩, learningRate := ⟨ofRat (1/10), ofRat (3/10), ofRat (1/10)⟩,
    subSample := ⟨ofRat (8/10), ofRat (9/10), ofRat (1/10)⟩, minChildWeight := ⟨ofRat 2, ofRat 6, ofRat 2⟩, verbose := true, nCPUs := 2 }

/-- examples/basicboost.go:53: the row to classify -/
def exampleRow : List F :=
  [ofRat 0, ofRat 12, ofRat 100, ofRat 0, ofRat (9/1000), ofRat 0, ofRat (-1), ofRat (-9), ofRat (1/100), ofRat 60, ofRat (337/10000), ofRat 0,
    ofRat (8/100), ofRat (2/100), ofRat 0, ofRat (18/1000), ofRat 0, ofRat 120, ofRat (372911/10000), ofRat 85, ofRat (6505/10)]

/-- examples/basicboost.go:24, 38-40, 47-50, 56: the values written -/
structure ExampleOut (F : Type) where
  /-- line 24 -/
  trainAcc : F
  /-- line 38 -/
  gridAcc : F
  /-- line 39 -/
  gridBest : Options F
  /-- line 40 -/
  gridAccs : List F
  /-- line 47 -/
  searchAcc : F
  /-- lines 48 and 49 -/
  searchBest : Options F
  /-- line 50 -/
  searchAccs : List F
  /-- line 56 -/
  number : Nat

/-- examples/basicboost.go:34-37 and 43-46: `panic(err)`, and the use of a field of `best`, which may be nil -/
def exampleBest (r : GridRet F) : Go (Options F) :=
  if r.err then .error .explicit
  else match r.opts with
    | none => .error .nilDeref
    | some O => .ok O

/-- examples/basicboost.go:11-58 `main`. `file`: what is in ../tests/train.svm, `none` if it cannot be opened. `draws1`, `idraws` and `fdraws`, and
`draws2` are the draws of the first training, of `Grid` and of the second training; `E` is the surroundings of `GradientGrid` (its field `o` is set to the
options of the program). -/
def exampleMain (exp : F → F) (S : GoSort) (P : FText F) (file : Option (List Char)) (id : Nat) (draws1 : Nat → F) (idraws : Nat → List Nat)
    (fdraws : Nat → Nat → Nat → F) (E : SearchEnv F) (draws2 : Nat → F) : Run (ExampleOut F) :=
  match file with
  | none => Run.ofGo (.error .explicit)
  | some text => do
    let data ← Run.ofGo (parseLibSVM P text false true)
    match data with
    | none => Run.ofGo (.error .explicit)
    | some D =>
      let boosted ← Run.ofGo (newMultiClass exp S draws1 D (exampleOptions id))
      let trainAcc ← Run.ofGo (boosted.accuracy D)
      let r1 ← grid exp S 200 D 8 (some exampleGrid) idraws fdraws
      let best1 ← Run.ofGo (exampleBest r1)
      let r2 ← Run.ofOption (gradientGrid 200 { E with o := exampleGrid } 5)
      let best2 ← Run.ofGo (exampleBest r2)
      let boosted ← Run.ofGo (newMultiClass exp S draws2 D best2)
      let cls ← Run.ofGo (boosted.predictSingleClass exampleRow)
      pure ⟨trainAcc, r1.acc, best1, r1.accs, r2.acc, best2, r2.accs, cls + 1⟩

end Boo
