import Verif.Model.MemCV

/-!
# Goroutines that use the package at the same time

The computations of `Model/Mem` and `Model/MemCV`, run step by step by goroutines that share the arrays that exist at the beginning. A step reads or
writes a slice or makes an array. A goroutine gives its own numbers to the arrays that it makes: the shared arrays come first, then its own. No other
goroutine has a reference to these (the calls of the package do not pass slices to other goroutines).

Simplification: a slice is read or written in one step. (It does not matter for calls that do not write to shared arrays; that is what is proved.)
A panic ends only its goroutine.
-/

namespace Boo
open GoFloat
variable {F : Type} [GoFloat F] {α : Type}

/-- one step of a computation; none if it has ended -/
def MGo.step : MGo F α → Mem F → Option (MGo F α × Mem F)
  | .ret _, _ => none
  | .readF s k, m => some (k (s.view m.fl), m)
  | .readI s k, m => some (k (s.view m.ix), m)
  | .readL s k, m => some (k (s.view m.lb), m)
  | .writeF s l k, m => some (k, m.writeF s l)
  | .writeI s l k, m => some (k, m.writeI s l)
  | .allocF l k, m => some (k ⟨m.fl.length, 0, l.length⟩, m.addF l)
  | .allocI l k, m => some (k ⟨m.ix.length, 0, l.length⟩, m.addI l)
  | .allocL l k, m => some (k ⟨m.lb.length, 0, l.length⟩, m.addL l)

/-- a goroutine: what it has still to do, and the arrays that it has made -/
structure Gor (F α : Type) where
  prog : MGo F α
  own : Mem F

/-- the memory that a goroutine sees -/
def Mem.join (sh own : Mem F) : Mem F :=
  { fl := sh.fl ++ own.fl, ix := sh.ix ++ own.ix, lb := sh.lb ++ own.lb, wrF := own.wrF, wrI := own.wrI }

/-- the shared part of the memory that a goroutine sees -/
def Mem.sharedPart (sh m : Mem F) : Mem F :=
  { fl := m.fl.take sh.fl.length, ix := m.ix.take sh.ix.length, lb := m.lb.take sh.lb.length, wrF := sh.wrF, wrI := sh.wrI }

/-- the own part of the memory that a goroutine sees -/
def Mem.ownPart (sh m : Mem F) : Mem F :=
  { fl := m.fl.drop sh.fl.length, ix := m.ix.drop sh.ix.length, lb := m.lb.drop sh.lb.length, wrF := m.wrF, wrI := m.wrI }

/-- the shared arrays and the goroutines -/
structure ConcState (F α : Type) where
  shared : Mem F
  gors : List (Gor F α)

/-- the beginning -/
def concInit (m : Mem F) (progs : List (MGo F α)) : ConcState F α := ⟨m, progs.map fun p => ⟨p, { fl := [], ix := [], lb := [], wrF := m.wrF, wrI := m.wrI }⟩⟩

/-- one of the goroutines makes a step -/
inductive ConcStep : ConcState F α → ConcState F α → Prop
  | step (s : ConcState F α) (i : Nat) (g : Gor F α) (p : MGo F α) (m : Mem F) (hi : s.gors[i]? = some g)
      (hs : g.prog.step (s.shared.join g.own) = some (p, m)) :
      ConcStep s ⟨s.shared.sharedPart m, s.gors.set i ⟨p, s.shared.ownPart m⟩⟩

/-- a number of steps -/
inductive ConcRun : Nat → ConcState F α → ConcState F α → Prop
  | nil (s : ConcState F α) : ConcRun 0 s s
  | snoc {n : Nat} {s t u : ConcState F α} (h : ConcRun n s t) (hs : ConcStep t u) : ConcRun (n + 1) s u

/-- the number of steps of a computation that runs alone -/
def MGo.length : MGo F α → Mem F → Nat
  | .ret _, _ => 0
  | .readF s k, m => (k (s.view m.fl)).length m + 1
  | .readI s k, m => (k (s.view m.ix)).length m + 1
  | .readL s k, m => (k (s.view m.lb)).length m + 1
  | .writeF s l k, m => k.length (m.writeF s l) + 1
  | .writeI s l k, m => k.length (m.writeI s l) + 1
  | .allocF l k, m => (k ⟨m.fl.length, 0, l.length⟩).length (m.addF l) + 1
  | .allocI l k, m => (k ⟨m.ix.length, 0, l.length⟩).length (m.addI l) + 1
  | .allocL l k, m => (k ⟨m.lb.length, 0, l.length⟩).length (m.addL l) + 1

/-- the kinds of arrays -/
inductive ArrKind | floats | indexes | labels
  deriving DecidableEq

/-- the array that the next step reads or writes, and if it writes -/
def MGo.access : MGo F α → Option (ArrKind × Nat × Bool)
  | .readF s _ => some (.floats, s.arr, false)
  | .readI s _ => some (.indexes, s.arr, false)
  | .readL s _ => some (.labels, s.arr, false)
  | .writeF s _ _ => some (.floats, s.arr, true)
  | .writeI s _ _ => some (.indexes, s.arr, true)
  | _ => none

/-- the number of shared arrays of a kind -/
def Mem.count (m : Mem F) : ArrKind → Nat
  | .floats => m.fl.length
  | .indexes => m.ix.length
  | .labels => m.lb.length

/-- calls of the package -/
inductive ApiCall (F : Type) where
  /-- `NewMultiClass(D, O)` -/
  | train (exp : F → F) (S : GoSort) (draws : Nat → F) (D : MData) (O : Options F) (lf : Option MLoss)
  /-- `M.PredictSingle(row)` -/
  | predict (exp : F → F) (M : MModel F) (row : Sl)
  /-- `M.Accuracy(D)` -/
  | accuracy (exp : F → F) (M : MModel F) (D : MData)
  /-- `MultiClassCrossValidation` after the folds were drawn: `x` -/
  | cv (x : MGo F (CVOut F))

/-- what they return -/
inductive ApiResult (F : Type) where
  | model (M : MModel F)
  | probs (s : Sl)
  | accuracy (x : F)
  | cv (r : CVOut F)

/-- the computation of a call -/
def ApiCall.prog : ApiCall F → MGo F (ApiResult F)
  | .train exp S draws D O lf => do
    let M ← mNewMultiClass exp S draws D O lf
    pure (.model M)
  | .predict exp M row => do
    let s ← mPredictSingle exp M row
    pure (.probs s)
  | .accuracy exp M D => do
    let x ← mAccuracy exp M D
    pure (.accuracy x)
  | .cv x => do
    let r ← x
    pure (.cv r)

/-- calls one after the other -/
def apiProg : List (ApiCall F) → MGo F (List (ApiResult F))
  | [] => pure []
  | c :: cs => do
    let r ← c.prog
    let rs ← apiProg cs
    pure (r :: rs)

/-- xgb.go:20-38 `NewMultiClass(D, opts)` with the field `MinChildWeight` of the caller's `*Options` in an array of one number: it is read, and
written when it is less than 1 (lines 36-38). (The code reads it again in every tree; here once.) -/
def mTrainShared (exp : F → F) (S : GoSort) (draws : Nat → F) (D : MData) (mcw : Sl) (O : Options F) (lf : Option MLoss) : MGo F (MModel F) := do
  let w ← atF mcw 0
  if w <. one then setF mcw 0 one
  let w ← atF mcw 0
  mNewMultiClass exp S draws D { O with minChildWeight := w } lf

/-- multiclass.go:34-49 `Accuracy(D, classes...)` with the field `predtmp` of the model, of which only the length matters, in an array of one number:
it is replaced by a longer slice if a larger number of classes is given. (The code reads the field before each prediction; here once.) -/
def mAccuracyClasses (exp : F → F) (M : MModel F) (D : MData) (predtmp : Sl) (classes : List Int) : MGo F F :=
  match classes with
  | [] => do
    let _ ← rdI predtmp
    mAccuracy exp M D
  | k :: _ =>
    if 0 < k then do
      let n ← rdI predtmp
      if ((n.headD 0 : Nat) : Int) < k then do
        let _ ← newF (List.replicate k.toNat (zero : F))
        putI predtmp [k.toNat]
        let _ ← rdI predtmp
        mAccuracy exp M D
      else do
        let _ ← rdI predtmp
        mAccuracy exp M D
    else do
      let _ ← rdI predtmp
      mAccuracy exp M D

end Boo
