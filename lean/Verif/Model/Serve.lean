import Verif.Model.MultiClass

/-!
# multiclass.go: several goroutines that use one model

The memory is a list of blocks of floats; `make` adds a block. A goroutine runs the code of `PredictSingle`, `PredictSingleClass` and
`Accuracy` in small steps, between which the others may run: each allocation, each write to `tmp`, the reading and the writing of
`tmp[class] += …`. Simplifications: the transformation of `tmp` to probabilities and the comparison of a class with the label are one
step, and so are both allocations of `PredictSingle`; the assignment of the slice `M.predtmp` is atomic.
-/

namespace Boo
open GoFloat
variable {F : Type} [GoFloat F]

/-- A call of a method of the model. The numbers are the addresses of slices given as buffers. -/
inductive UseCall (F : Type)
  | predict (row : List F) (buf : Option Nat)
  | predictClass (row : List F) (buf : Option Nat)
  | accuracy (D : DataBunch F) (classes : List Int)

/-- what a call returned; for `PredictSingle` the address of the slice and what was in it at the return -/
inductive UseResult (F : Type)
  | probs (addr : Nat) (value : List F)
  | cls (k : Nat)
  | acc (x : F)

/-- where in `PredictSingle` (multiclass.go:91-108) a goroutine is: filling `tmp`, adding the trees (with their classes) that are left,
about to store a sum -/
inductive UsePhase (F : Type)
  | fill (i : Nat)
  | add (todo : List (Tree F × Nat))
  | store (c : Nat) (v : F) (todo : List (Tree F × Nat))

/-- what happens with the probabilities: they are returned (multiclass.go:107), the class is returned (:77-86), or the class is compared with
the label (:42-45) and the loop of `Accuracy` goes on with the rows `rest` -/
inductive UseCont (F : Type)
  | probs
  | cls
  | acc (D : DataBunch F) (rest : List (List F)) (i right : Nat)

/-- a running `PredictSingle`: its argument and its slices `preds` and `tmp` -/
structure UseFrame (F : Type) where
  row : List F
  preds : Nat
  tmp : Nat
  phase : UsePhase F
  cont : UseCont F

structure UseGor (F : Type) where
  todo : List (UseCall F)
  frame : Option (UseFrame F)
  results : List (UseResult F)

/-- the memory and the field `predtmp` of the model -/
structure UseMem (F : Type) where
  heap : List (List F)
  predtmp : Option Nat

/-- multiclass.go:93-94: the two slices are made -/
def useStart (M : MultiClass F) (m : UseMem F) (row : List F) (cont : UseCont F) : Go (UseMem F × UseFrame F) := do
  let b0 ← goIdx M.b 0
  let z := List.replicate b0.length (zero : F)
  pure ({ m with heap := m.heap ++ [z, z] }, ⟨row, m.heap.length, m.heap.length + 1, .fill 0, cont⟩)

/-- the trees with their classes, in the order of multiclass.go:98-100 -/
def MultiClass.treesInOrder (M : MultiClass F) : List (Tree F × Nat) := (M.b.map fun ens => ens.zipIdx).flatten

/-- multiclass.go:37-40: `predtmp` is made if a number of classes is given that is larger than its length -/
def usePredtmp (m : UseMem F) (classes : List Int) : UseMem F :=
  match classes with
  | [] => m
  | k :: _ =>
    if 0 < k ∧ (((m.predtmp.map fun a => (m.heap.getD a []).length).getD 0 : Nat) : Int) < k then
      { heap := m.heap ++ [List.replicate k.toNat (zero : F)], predtmp := some m.heap.length }
    else m

/-- multiclass.go:48 -/
def useAcc (D : DataBunch F) (right : Nat) : F := ofRat 100 *. (ofInt right /. ofInt D.data.length)

/-- the end of `PredictSingle` with the probabilities in `preds` -/
def useReturn (M : MultiClass F) (m : UseMem F) (g : UseGor F) (f : UseFrame F) : Go (UseMem F × UseGor F) := do
  let ps := m.heap.getD f.preds []
  match f.cont with
  | .probs => pure (m, { g with frame := none, results := g.results ++ [.probs f.preds ps] })
  | .cls => do
    let k ← argmaxFirst ps
    pure (m, { g with frame := none, results := g.results ++ [.cls k] })
  | .acc D rest i right => do
    let k ← argmaxFirst ps
    let lab ← goIdx M.classLabels k
    let actual ← goIdx D.labels i
    let right := if lab = actual then right + 1 else right
    match rest with
    | [] => pure (m, { g with frame := none, results := g.results ++ [.acc (useAcc D right)] })
    | row :: rest => do
      let (m, f) ← useStart M m row (.acc D rest (i + 1) right)
      pure (m, { g with frame := some f })

/-- One step of a goroutine; `none`: it has ended. -/
def useStep (M : MultiClass F) (m : UseMem F) (g : UseGor F) : Go (Option (UseMem F × UseGor F)) :=
  match g.frame with
  | none => match g.todo with
    | [] => .ok none
    | .predict row _ :: todo => do
      let (m, f) ← useStart M m row .probs
      pure (some (m, { g with todo := todo, frame := some f }))
    | .predictClass row _ :: todo => do
      let (m, f) ← useStart M m row .cls
      pure (some (m, { g with todo := todo, frame := some f }))
    | .accuracy D classes :: todo =>
      let m := usePredtmp m classes
      match D.data with
      | [] => pure (some (m, { g with todo := todo, results := g.results ++ [.acc (useAcc D 0)] }))
      | row :: rest => do
        let (m, f) ← useStart M m row (.acc D rest 0 0)
        pure (some (m, { g with todo := todo, frame := some f }))
  | some f => match f.phase with
    | .fill i =>
      let t := m.heap.getD f.tmp []
      if i < t.length then
        pure (some ({ m with heap := m.heap.set f.tmp (t.set i M.baseScore) }, { g with frame := some { f with phase := .fill (i + 1) } }))
      else pure (some (m, { g with frame := some { f with phase := .add M.treesInOrder } }))
    | .add ((t, c) :: todo) => do
      let p ← t.predictSingle f.row
      let x ← goIdx (m.heap.getD f.tmp []) c
      pure (some (m, { g with frame := some { f with phase := .store c (x +. p *. M.learningRate) todo } }))
    | .store c v todo =>
      pure (some ({ m with heap := m.heap.set f.tmp ((m.heap.getD f.tmp []).set c v) }, { g with frame := some { f with phase := .add todo } }))
    | .add [] => do
      let tmp := m.heap.getD f.tmp []
      let O ← newDense 1 tmp.length tmp
      let D ← newDense 1 tmp.length (m.heap.getD f.preds [])
      match M.probTransform with
      | none => .error .nilDeref
      | some tr => do
        let D ← tr O (some D)
        let r ← useReturn M { m with heap := m.heap.set f.preds D.data } g f
        pure (some r)

/-- the slices that only this goroutine can reach -/
def UseGor.owned (g : UseGor F) : List Nat := match g.frame with
  | none => []
  | some f => [f.preds, f.tmp]

structure UseState (F : Type) where
  mem : UseMem F
  gors : List (UseGor F)

/-- A step of the program: one of a goroutine, or a write by the rest of the program to a slice that no running call has made. `W` are the
slices the rest of the program writes to; the number counts the steps of the goroutines. -/
inductive UseState.Step (M : MultiClass F) (W : Nat → Prop) : Nat → UseState F → UseState F → Prop
  | gor {s : UseState F} {i : Nat} {g g' : UseGor F} {m' : UseMem F} : s.gors[i]? = some g → useStep M s.mem g = .ok (some (m', g')) →
      Step M W 1 s ⟨m', s.gors.set i g'⟩
  | user {s : UseState F} (a : Nat) (l : List F) : W a → (∀ g ∈ s.gors, a ∉ g.owned) →
      Step M W 0 s { s with mem := { s.mem with heap := s.mem.heap.set a l } }

/-- An execution, with the number of steps of goroutines. -/
inductive UseState.Run (M : MultiClass F) (W : Nat → Prop) (s : UseState F) : Nat → UseState F → Prop
  | start : Run M W s 0 s
  | step {n k : Nat} {s1 s2 : UseState F} : Run M W s n s1 → Step M W k s1 s2 → Run M W s (n + k) s2

/-- the program, with the calls of each goroutine -/
def useInit (heap : List (List F)) (progs : List (List (UseCall F))) : UseState F :=
  ⟨⟨heap, none⟩, progs.map fun p => ⟨p, none, []⟩⟩

end Boo
