import Verif.Model.Mem
import Verif.Model.CV

/-!
# The slices of cross-validation

utils/stat.go and the cross-validation of cv/cv.go with slices as references into a memory (see `Model/Mem`). The slices of `folds` do not
leave the functions and are lists.
-/

namespace Boo
open GoFloat
variable {F : Type} [GoFloat F]

/-- utils/stat.go:30-42, the loop of `fillDataBunch` -/
def mFillRows (ori : MData) (docopy : Bool) : List Nat → List Sl → List Int → MGo F (List Sl × List Int)
  | [], rows, labs => pure (rows, labs)
  | v :: toadd, rows, labs => do
    let r ← MGo.lift (goIdx ori.data v)
    let add ← if docopy then (do
        let l ← rdF r
        newF l : MGo F Sl) else pure r
    let ls ← rdL ori.labels
    mFillRows ori docopy toadd (rows ++ [add]) (match ls[v]? with
      | some lab => labs ++ [lab]
      | none => labs)

/-- utils/stat.go:26-53 `fillDataBunch` into an empty data set; it has no keys -/
def mFillDataBunch (ori : MData) (toadd : List Nat) (docopy : Bool) : MGo F MData := do
  let r ← mFillRows ori docopy toadd [] []
  let labels ← newL r.2
  pure ⟨r.1, labels⟩

/-- utils/stat.go:96-117: the variables captured by the returned function -/
structure MSampler where
  data : MData
  folds : List (List Nat)
  nf : Nat
  calls : Nat
  docopy : Bool

/-- utils/stat.go:97-117: one call of the returned function -/
def MSampler.call (s : MSampler) : MGo F (MSampler × Option (MData × MData)) :=
  if s.calls ≥ s.nf then pure (s, none) else do
    let testindexes ← MGo.lift (goIdx s.folds s.calls)
    let test ← mFillDataBunch s.data testindexes s.docopy
    let train ← mFillDataBunch s.data
      (((s.folds.zip (List.range s.folds.length)).filter (fun p => p.2 ≠ s.calls)).flatMap (·.1)) s.docopy
    pure ({ s with calls := s.calls + 1 }, some (train, test))

/-- utils/stat.go:59-119 `CrossValidationSamples`: number of folds, function (`none` for nil), if the error is set -/
def mCrossValidationSamples (data : MData) (nfold : Int) (docopy : Bool) (draws : List Nat) : Option (Go (Nat × Option MSampler × Bool)) :=
  let nf := if nfold > 0 then nfold.toNat else 5
  let tot := data.data.length
  match reduceFolds tot nf with
  | .error p => some (.error p)
  | .ok (nf, err) =>
    if nf < 2 then some (.ok (0, none, true))
    else
      match fillFolds (tot / nf) (List.range nf) (List.replicate nf []) draws with
      | none => none
      | some (folds, _) => some (.ok (nf, some ⟨data, fillRemaining folds tot, nf, 0, docopy⟩, err))

/-- multiclass.go:54-66 `Rounds()` -/
def MModel.rounds (M : MModel F) : Int := match M.b with
  | [] => -1
  | ts :: _ => ts.length

/-- the variables of the loop cv/cv.go:29-45 -/
structure MCVState (F : Type) where
  sampler : MSampler
  accus : F
  opts : Option (Options F)

/-- cv/cv.go:30-45: one fold -/
def mCvFold (exp : F → F) (S : GoSort) (fdraws : Nat → Nat → F) (lf : Option MLoss) (st : MCVState F) (i : Nat) : MGo F (MCVState F) := do
  let r ← st.sampler.call
  match r.2 with
  | none => MGo.lift (.error .nilDeref)
  | some tt => do
    let b ← mNewMultiClass exp S (fdraws i) tt.1 (st.opts.getD (defaultXOptions 0)) lf
    let st := { st with sampler := r.1, opts := st.opts.map Options.fixMcw }
    if b.rounds ≤ 0 then pure st
    else do
      let a ← mAccuracy exp b tt.2
      pure { st with accus := st.accus +. a }

/-- cv/cv.go:30-45: the loop over the folds -/
def mCvLoop (exp : F → F) (S : GoSort) (fdraws : Nat → Nat → F) (lf : Option MLoss) : List Nat → MCVState F → MGo F (MCVState F)
  | [], st => pure st
  | i :: is, st => do
    let st ← mCvFold exp S fdraws lf st i
    mCvLoop exp S fdraws lf is st

/-- cv/cv.go:29-52: the part after the samples were made -/
def mCvFolds (exp : F → F) (S : GoSort) (n : Nat) (s : MSampler) (O : Option (Options F)) (lf : Option MLoss) (conc : Bool)
    (fdraws : Nat → Nat → F) : MGo F (CVOut F) := do
  let st ← mCvLoop exp S fdraws lf (List.range n) ⟨s, zero, O⟩
  pure { sent := if conc then [.err false, .acc (st.accus /. ofInt n), .opt st.opts] else []
         acc := st.accus /. ofInt n, err := false, opts := st.opts }

/-- cv/cv.go:15-52 `MultiClassCrossValidation`; `none`: still drawing the folds after `idraws` -/
def mCrossValidation (exp : F → F) (S : GoSort) (D : MData) (nfold : Int) (O : Option (Options F)) (lf : Option MLoss) (conc : Bool)
    (idraws : List Nat) (fdraws : Nat → Nat → F) : Option (MGo F (CVOut F)) :=
  match mCrossValidationSamples D nfold true idraws with
  | none => none
  | some (.error e) => some (MGo.lift (.error e))
  | some (.ok (n, s, err)) => some (
    if err ∧ n = 0 then
      pure { sent := if conc then [.err true, .acc (ofRat (-1)), .opt none] else []
             acc := zero, err := true, opts := O }
    else match s with
      | none => MGo.lift (.error .nilDeref)
      | some s => mCvFolds exp S n s O lf conc fdraws)

end Boo
