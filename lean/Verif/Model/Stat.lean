import Verif.Model.Data

/-!
# utils/stat.go: cross-validation samples
-/

namespace Boo
open GoFloat
variable {F : Type} [GoFloat F]

/-- utils/stat.go:9-19 `isInPrevious` -/
def isInPrevious (i : Nat) (sam : List (List Nat)) : Bool :=
  if sam.length = 0 then false else sam.any (·.contains i)

/-- utils/stat.go:30-42, the loop of `fillDataBunch`. With `docopy` the rows are copies; the values are the same, so the
model does not distinguish (aliasing of rows is not modelled here). -/
def fillRows (ori : DataBunch F) : List Nat → DataBunch F → Go (DataBunch F)
  | [], dest => .ok dest
  | v :: toadd, dest => do
    let add ← goIdx ori.data v
    let dest := { dest with data := dest.data ++ [add] }
    match ori.labels[v]? with
    | some lab => fillRows ori toadd { dest with labels := dest.labels ++ [lab] }
    | none => fillRows ori toadd dest

/-- utils/stat.go:26-53 `fillDataBunch` -/
def fillDataBunch (ori dest : DataBunch F) (toadd : List Nat) : Go (DataBunch F) := do
  let dest ← fillRows ori toadd { dest with data := [], labels := [] }
  pure (if dest.keys.length > 0 then { dest with keys := ori.keys } else dest)

/-- utils/stat.go:73-76: the number of folds is reduced until a fold has 2 rows; the flag says if it was reduced.
`tot/nf` with `nf = 0` panics. -/
def reduceFolds (tot : Nat) : Nat → Go (Nat × Bool)
  | 0 => .error .divZero
  | nf + 1 => if tot / (nf + 1) < 2 then do
      let (n, _) ← reduceFolds tot nf
      pure (n, true)
    else .ok (nf + 1, false)

/-- utils/stat.go:87-88: draws until one is found that is in no fold. The values returned by the successive calls of
`rand.IntN(tot)` are a list; `none`: the draws of the list are used up and the loop still runs. -/
def drawNew (folds : List (List Nat)) : List Nat → Option (Nat × List Nat)
  | [] => none
  | n :: draws => if isInPrevious n folds then drawNew folds draws else some (n, draws)

/-- utils/stat.go:85-90 -/
def fillFold (i : Nat) : Nat → List (List Nat) → List Nat → Option (List (List Nat) × List Nat)
  | 0, folds, draws => some (folds, draws)
  | j + 1, folds, draws =>
    match drawNew folds draws with
    | none => none
    | some (n, draws) => fillFold i j (folds.modify i (· ++ [n])) draws

/-- utils/stat.go:84-92, for the folds in the list -/
def fillFolds (nsamples : Nat) : List Nat → List (List Nat) → List Nat → Option (List (List Nat) × List Nat)
  | [], folds, draws => some (folds, draws)
  | i :: is, folds, draws =>
    match fillFold i nsamples folds draws with
    | none => none
    | some (folds, draws) => fillFolds nsamples is folds draws

/-- utils/stat.go:123-132 `fillRemaining`; `folds` is not empty in its only call -/
def fillRemaining (folds : List (List Nat)) (tot : Nat) : List (List Nat) :=
  (List.range tot).foldl (fun folds i =>
    if isInPrevious i folds then folds else folds.modify (folds.length - 1) (· ++ [i])) folds

/-- utils/stat.go:96-117: the variables captured by the returned function -/
structure CVSampler (F : Type) where
  data : DataBunch F
  folds : List (List Nat)
  nf : Nat
  calls : Nat

/-- utils/stat.go:97-117: one call of the returned function: the new state, and train and test set, or `none` for
`nil, nil`. -/
def CVSampler.call (s : CVSampler F) : Go (CVSampler F × Option (DataBunch F × DataBunch F)) :=
  if s.calls ≥ s.nf then .ok (s, none) else do
    let testindexes ← goIdx s.folds s.calls
    let test ← fillDataBunch s.data ⟨[], [], [], []⟩ testindexes
    let trainindexes := ((s.folds.zip (List.range s.folds.length)).filter (fun p => p.2 ≠ s.calls)).flatMap (·.1)
    let train ← fillDataBunch s.data ⟨[], [], [], []⟩ trainindexes
    pure ({ s with calls := s.calls + 1 }, some (train, test))

/-- what `CrossValidationSamples` returns: the number of folds, the function (`none` for nil) and if the error is set -/
structure CVResult (F : Type) where
  n : Nat
  sampler : Option (CVSampler F)
  err : Bool

/-- utils/stat.go:59-119 `CrossValidationSamples`. `draws` are the values of the successive calls of `rand.IntN(tot)`;
`none`: still running after these draws. -/
def crossValidationSamples (data : DataBunch F) (nfold : Int) (draws : List Nat) : Option (Go (CVResult F)) :=
  let nf := if nfold > 0 then nfold.toNat else 5
  let tot := data.data.length
  match reduceFolds tot nf with
  | .error p => some (.error p)
  | .ok (nf, err) =>
    if nf < 2 then some (.ok ⟨0, none, true⟩)
    else
      let nsamples := tot / nf
      match fillFolds nsamples (List.range nf) (List.replicate nf []) draws with
      | none => none
      | some (folds, _) => some (.ok ⟨nf, some ⟨data, fillRemaining folds tot, nf, 0⟩, err⟩)

end Boo
