import Verif.Model.CV
import Verif.Model.Print

/-!
# What cross-validation logs: cv/cv.go:27 and 39, and the errors of utils/stat.go:75 and 79

The functions are those of `Model/Stat` and `Model/CV` with the errors as values, not as a flag, and the messages added. Messages of
runs that panic are not kept. The date and time that `log` puts in front of a message are not modelled, nor is the order in which
the messages of several runs at the same time reach the log.
-/

namespace Boo
open GoFloat
variable {F : Type} [GoFloat F]

/-- utils/stat.go:75 (the numbers in the error: folds tried last, rows per fold, folds that will be used, folds tried before) and
utils/stat.go:79 (final number of folds, folds tried) -/
inductive FoldErr where
  | reduced (nf left next : Nat) (tried : List Nat)
  | tooFew (nf : Nat) (tried : List Nat)
  deriving DecidableEq

/-- utils/stat.go:74-77, as `reduceFolds`: the number of folds, the last error and the numbers tried -/
def reduceFoldsE (tot : Nat) : Nat → Option FoldErr → List Nat → Go (Nat × Option FoldErr × List Nat)
  | 0, _, _ => .error .divZero
  | nf + 1, err, tried =>
    if tot / (nf + 1) < 2 then
      reduceFoldsE tot nf (some (.reduced (nf + 1) (tot / (nf + 1)) nf tried)) (tried ++ [nf + 1])
    else .ok (nf + 1, err, tried)

/-- utils/stat.go:59-119 `CrossValidationSamples`, as `crossValidationSamples`: the number of folds, the sampler and the error -/
def crossValidationSamplesE (data : DataBunch F) (nfold : Int) (draws : List Nat) :
    Option (Go (Nat × Option (CVSampler F) × Option FoldErr)) :=
  let nf := if nfold > 0 then nfold.toNat else 5
  let tot := data.data.length
  match reduceFoldsE tot nf none [] with
  | .error p => some (.error p)
  | .ok (nf, err, tried) =>
    if nf < 2 then some (.ok (0, none, some (.tooFew nf tried)))
    else
      let nsamples := tot / nf
      match fillFolds nsamples (List.range nf) (List.replicate nf []) draws with
      | none => none
      | some (folds, _) => some (.ok (nf, some ⟨data, fillRemaining folds tot, nf, 0⟩, err))

/-- cv/cv.go:27: there are fewer folds (their number, the number of rows and the error); cv/cv.go:39: a fold has no model -/
inductive CVLog where
  | fewer (n len : Nat) (e : FoldErr)
  | noModel (k : Nat)
  deriving DecidableEq

/-- cv/cv.go:30-45, as `cvFold`; `n` is the number of folds, which is what cv/cv.go:39 prints -/
def cvFoldV (exp : F → F) (S : GoSort) (fdraws : Nat → Nat → F) (n : Nat) (st : CVState F × List CVLog) (i : Nat) :
    Go (CVState F × List CVLog) := do
  let (s, out) ← st.1.sampler.call
  match out with
  | none => .error .nilDeref
  | some (train, test) => do
    let b ← newMultiClass exp S (fdraws i) train (st.1.opts.getD (defaultXOptions 0))
    let st' : CVState F := { st.1 with sampler := s, opts := st.1.opts.map Options.fixMcw }
    if b.rounds none ≤ 0 then pure (st', st.2 ++ [.noModel n])
    else do
      let a ← b.accuracy test
      pure ({ st' with accus := st'.accus +. a }, st.2)

/-- cv/cv.go:29-52, as `cvFolds`; `log` are the messages before -/
def cvFoldsV (exp : F → F) (S : GoSort) (n : Nat) (s : CVSampler F) (O : Option (Options F)) (conc : Bool)
    (fdraws : Nat → Nat → F) (log : List CVLog) : Go (CVOut F × List CVLog) := do
  let st ← (List.range n).foldlM (cvFoldV exp S fdraws n) (⟨s, zero, O⟩, log)
  let i := n
  pure ({ sent := if conc then [.err false, .acc (st.1.accus /. ofInt i), .opt st.1.opts] else []
          acc := st.1.accus /. ofInt n, err := false, opts := st.1.opts }, st.2)

/-- cv/cv.go:15-52 `MultiClassCrossValidation`, as `crossValidation`: also the error as a value, and the messages -/
def crossValidationV (exp : F → F) (S : GoSort) (D : DataBunch F) (nfold : Int) (O : Option (Options F)) (conc : Bool)
    (idraws : List Nat) (fdraws : Nat → Nat → F) : Run (CVOut F × Option FoldErr × List CVLog) := do
  let r ← (ExceptT.mk (crossValidationSamplesE D nfold idraws) : Run (Nat × Option (CVSampler F) × Option FoldErr))
  if r.2.2.isSome ∧ r.1 = 0 then
    pure ({ sent := if conc then [.err true, .acc (ofRat (-1)), .opt none] else []
            acc := zero, err := true, opts := O }, r.2.2, [])
  else match r.2.1 with
    | none => Run.ofGo (.error .nilDeref)
    | some s => do
      let out ← Run.ofGo (cvFoldsV exp S r.1 s O conc fdraws (r.2.2.toList.map (.fewer r.1 D.data.length)))
      pure (out.1, none, out.2)

/-! ### The text -/

/-- utils/stat.go:75 and 79 -/
def FoldErr.text : FoldErr → List Char
  | .reduced nf left next tried => "The ".toList ++ fmtNat nf ++ "-fold crossvalidation requested leaves only ".toList ++ fmtNat left ++
      " sample(s) per fold, when the minimum allowed is ".toList ++ fmtNat 2 ++ ". Will use ".toList ++ fmtNat next ++
      "-fold.N-folds already tried: ".toList ++ fmtSlice (tried.map fmtNat)
  | .tooFew nf tried => "Too few samples for crossvalidation. The final n-fold ".toList ++ fmtNat nf ++
      " is smaller than the minimum ".toList ++ fmtNat 2 ++ ". Folds tried: ".toList ++ fmtSlice (tried.map fmtNat)

/-- cv/cv.go:27 and 39; `log.Printf` ends the line -/
def CVLog.text : CVLog → List Char
  | .fewer n len e => "Only ".toList ++ fmtNat n ++ "-fold can be performed due to sample size (".toList ++ fmtNat len ++
      "). Error: ".toList ++ e.text ++ ['\n']
  | .noModel k => "The ".toList ++ fmtNat k ++ "-th fold didn't produce a boosting ensemble, will continue with the others\n".toList

end Boo
