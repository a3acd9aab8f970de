import Verif.Model.Math

/-!
# utils/loss_acti.go

Matrices of labels and predictions are always 1×n in boo; they are lists here.
`math.Exp` is a parameter.
-/

namespace Boo
open GoFloat

variable {F : Type} [GoFloat F]

/-- utils/loss_acti.go:19-32 `Normalization`; `probs = none` is nil. The sum is a plain loop. -/
def normalization (p : List F) (probs : Option (List F)) : Go (List F) :=
  let buf := probs.getD (p.map fun _ => zero)
  if buf.length < p.length then .error .index
  else
    let sum := p.foldl (fun s v => s +. v) zero
    .ok (p.map (fun v => v /. sum) ++ buf.drop p.length)

/-- utils/loss_acti.go:36-48 `SoftMax`. Note that the denominator sums the whole buffer. -/
def softMax (exp : F → F) (p : List F) (probs : Option (List F)) : Go (List F) :=
  let buf := probs.getD (p.map fun _ => zero)
  if buf.length < p.length then .error .index
  else
    let den := GoFloat.sum (p.map exp ++ buf.drop p.length)
    .ok (p.map (fun v => exp v /. den) ++ buf.drop p.length)

/-- gonum `D.SetRow(i, p)` for `i` in range: panics when the length differs. -/
def Dense.setRow (D : Dense F) (i : Nat) (p : List F) : Go (Dense F) :=
  if p.length ≠ D.c then .error .shape
  else .ok { D with data := D.data.take (i * D.c) ++ p ++ D.data.drop (i * D.c + D.c) }

/-- utils/loss_acti.go:59-71 `activationDense`; `D = none` is nil. `RawRowView` panics when `D` has
fewer rows. -/
def activationDense (act : List F → Option (List F) → Go (List F)) (O : Dense F)
    (D : Option (Dense F)) : Go (Dense F) :=
  (List.range O.r).foldlM (fun D i =>
    if D.r ≤ i then .error .shape
    else do
      let p ← act (O.row i) (some (D.row i))
      D.setRow i p) (D.getD ⟨O.r, O.c, List.replicate (O.r * O.c) zero⟩)

/-- utils/loss_acti.go:52-55 `SoftMaxDense` -/
def softMaxDense (exp : F → F) (O : Dense F) (D : Option (Dense F)) : Go (Dense F) :=
  activationDense (softMax exp) O D

/-- utils/loss_acti.go:12-15 `NormalizationDense` -/
def normalizationDense (O : Dense F) (D : Option (Dense F)) : Go (Dense F) :=
  activationDense normalization O D

/-- utils/loss_acti.go:74-80 `LossFunc`: the interface (implementable by users). The result
buffers are write-only for the implementations in boo and are omitted; each method may panic. -/
structure LossFunc (F : Type) where
  loss : List F → List F → Go F
  negGradients : List F → List F → Go (List F)
  gradients : List F → List F → Go (List F)
  hessian : List F → List F

/-- gonum `Sub` on 1×n matrices: panics when the shapes differ. -/
def subV (a b : List F) : Go (List F) :=
  if a.length ≠ b.length then .error .shape else .ok (List.zipWith (fun x y => x -. y) a b)

/-- utils/loss_acti.go:88-104 and 142-158 `Loss` (the two are identical) -/
def mseLossVal (y pred : List F) : Go F := do
  let d ← subV y pred
  let m := d.map fun v => v *. v
  let l := m.foldl (fun s v => s +. v) zero
  pure (l /. ofInt m.length)

/-- gonum `dst.Sub(a, b)` on 1×n matrices, entry by entry into `dst` (panics when the shapes differ; the
special case of an empty receiver, which gonum resizes, is not modelled) -/
def subInto (dst a b : List F) : Go (List F) :=
  if a.length ≠ b.length ∨ dst.length ≠ a.length then .error .shape
  else .ok ((List.range a.length).foldl (fun d i => d.set i (a.getD i zero -. b.getD i zero)) dst)

/-- gonum `m.MulElem(m, m)` in place -/
def squareInPlace (m : List F) : List F :=
  (List.range m.length).foldl (fun d i => d.set i (d.getD i zero *. d.getD i zero)) m

/-- utils/loss_acti.go:88-104 and 142-158 `Loss` with the scratch matrix that is its third argument
(`none` is nil). -/
def lossInto (scratch : Option (List F)) (y pred : List F) : Go F := do
  let d ← subInto (scratch.getD (y.map fun _ => zero)) y pred
  let m := squareInPlace d
  let l := m.foldl (fun s v => s +. v) zero
  pure (l /. ofInt m.length)

/-- utils/loss_acti.go:108-115 and 166-173 `NegGradients` -/
def negGrad (y pred : List F) : Go (List F) := subV y pred

/-- utils/loss_acti.go:119-124 and 177-182 `Gradients`: `g.Scale(-1, g)` -/
def grad (y pred : List F) : Go (List F) := do
  let g ← negGrad y pred
  pure (g.map fun v => ofInt (-1) *. v)

/-- utils/loss_acti.go:83-136 `SQErrLoss` -/
def sqErrLoss : LossFunc F where
  loss := mseLossVal
  negGradients := negGrad
  gradients := grad
  hessian p := p.map fun _ => one

/-- utils/loss_acti.go:139-198 `MSELoss` -/
def mseLoss : LossFunc F where
  loss := mseLossVal
  negGradients := negGrad
  gradients := grad
  hessian p := p.map fun v => (one -. v) *. v

end Boo
