import Verif.Model.Example
import Verif.Model.Verbose
import Verif.Model.VerboseCV

/-!
# Model of what examples/basicboost.go writes to the standard output

`exampleMainV` is `exampleMain` with the text that `main` writes, together with the lines that the trainings and the searches write because of `Verbose`. Only the text
of runs that end is modelled, not what has been written before a panic.
-/

namespace Boo
open GoFloat
variable {F : Type} [GoFloat F]

/-- `fmt.Println` of operands that are given as texts -/
def printlnText (ops : List (List Char)) : List Char := strJoin ops [' '] ++ ['\n']

/-- `%v` of a `[]float64`, also that of `Println` -/
def floatsText (V : VerbText F) (l : List F) : List Char := ['['] ++ strJoin (l.map V.fmtv) [' '] ++ [']']

/-- examples/basicboost.go:39 and 48 -/
def withText (V : VerbText F) (O : Options F) : List Char :=
  "With ".toList ++ fmtInt O.rounds ++ " rounds, ".toList ++ fmtInt O.maxDepth ++ " maxdepth and ".toList ++ V.fmt3 O.learningRate ++ " learning rate\n".toList

/-- examples/basicboost.go:11-58 `main`, as `exampleMain`, with the text on the standard output: that of the first training (xgb.go, `Verbose` set in line 20), line 24,
that of `Grid` (line 32), lines 38-40, that of `GradientGrid`, lines 47-50 (line 49 prints a `*boo.Options`, which has a method `String`), that of the second training
and line 56. -/
def exampleMainV (exp : F → F) (S : GoSort) (P : FText F) (V : VerbText F) (file : Option (List Char)) (id : Nat) (draws1 : Nat → F) (idraws : Nat → List Nat)
    (fdraws : Nat → Nat → Nat → F) (E : SearchEnv F) (draws2 : Nat → F) : Run (ExampleOut F × List Char) :=
  match file with
  | none => Run.ofGo (.error .explicit)
  | some text => do
    let data ← Run.ofGo (parseLibSVM P text false true)
    match data with
    | none => Run.ofGo (.error .explicit)
    | some D =>
      let b1 ← Run.ofGo (newMultiClassLog exp S draws1 D (exampleOptions id))
      let trainAcc ← Run.ofGo (b1.1.accuracy D)
      let r1 ← gridV exp S 200 D 8 (some exampleGrid) idraws fdraws
      let best1 ← Run.ofGo (exampleBest r1.1)
      let r2 ← Run.ofOption (gradientGridV 200 { E with o := exampleGrid } 5)
      let best2 ← Run.ofGo (exampleBest r2.1)
      let b2 ← Run.ofGo (newMultiClassLog exp S draws2 D best2)
      let cls ← Run.ofGo (b2.1.predictSingleClass exampleRow)
      pure (⟨trainAcc, r1.1.acc, best1, r1.1.accs, r2.1.acc, best2, r2.1.accs, cls + 1⟩,
        trainOutput V.fmt3 b1.2 ++
        printlnText ["train set accuracy".toList, V.fmtv trainAcc] ++
        r1.2.flatMap (gridText V) ++
        printlnText ["Crossvalidation best accuracy:".toList, V.fmtv r1.1.acc] ++
        withText V best1 ++
        printlnText ["All accuracies:".toList, floatsText V r1.1.accs] ++
        r2.2.flatMap (gradientText V) ++
        printlnText ["Crossvalidation (grad) best accuracy:".toList, V.fmtv r2.1.acc] ++
        withText V best2 ++
        printlnText [best2.string V.fmt3] ++
        printlnText ["All accuracies:".toList, floatsText V r2.1.accs] ++
        trainOutput V.fmt3 b2.2 ++
        printlnText ["Data is assigned to class".toList, fmtNat (cls + 1)])

end Boo
