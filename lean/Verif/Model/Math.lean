import Verif.Model.GoSort

/-!
# utils/math.go, utils/sorter.go, and the parts of gonum/mat they use
-/

namespace Boo
open GoFloat

variable {F : Type} [GoFloat F]

/-- utils/math.go:26-38 `SampleSlice`. Indexes are naturals (a negative index, which panics,
is not expressible). -/
def sampleSlice {α : Type} (s : List α) (indexes : List Nat) : Go (List α) :=
  if indexes.length > s.length then .error .explicit
  else indexes.mapM fun v => if v ≥ s.length then .error .explicit else goIdx s v

/-- utils/math.go:15-22 `SampleMatrix` -/
def sampleMatrix {α : Type} (m : List (List α)) (rowIndexes colIndexes : List Nat) :
    Go (List (List α)) :=
  rowIndexes.mapM fun v => do
    let row ← goIdx m v
    sampleSlice row colIndexes

/-- utils/math.go:79-89 `TransposeFloats` -/
def transposeFloats {α : Type} (m : List (List α)) : Go (List (List α)) := do
  let m0 ← goIdx m 0
  (List.range m0.length).mapM fun i => m.mapM fun row => goIdx row i

/-- utils/math.go:45-50 `idSorter`: `Less` compares values; `Swap` moves value and index
together, so the sorter sorts (value, index) pairs. -/
def idLess (p q : F × Nat) : Bool := p.1 <. q.1

/-- utils/math.go:54-62 `MemArgSort`. The buffers are overwritten from the front and the *whole*
index buffer is sorted. An index buffer longer than the value buffer makes `Less` index out of
range (modelled as a panic even for the lengths at which the sort would not compare). -/
def memArgSort (S : GoSort) (target : List F) (tmpint : List Nat) (tmpval : List F) :
    Go (List Nat × List F) :=
  if tmpint.length < target.length ∨ tmpval.length < tmpint.length then .error .index
  else
    let ints := List.range target.length ++ tmpint.drop target.length
    let vals := target ++ tmpval.drop target.length
    let r := S.sort idLess ((vals.take ints.length).zip ints)
    .ok (r.map Prod.snd, r.map Prod.fst ++ vals.drop ints.length)

/-- utils/math.go:66-76 `ArgSort` -/
def argSort (S : GoSort) (a : List F) : List Nat × List F :=
  let r := S.sort idLess (a.zip (List.range a.length))
  (r.map Prod.snd, r.map Prod.fst)

/-- A gonum `*mat.Dense` with stride = number of columns: row-major data. -/
structure Dense (F : Type) where
  r : Nat
  c : Nat
  data : List F
  deriving DecidableEq

/-- gonum `mat.NewDense(r, c, data)`: panics on a zero dimension or a wrong length. -/
def newDense (r c : Nat) (data : List F) : Go (Dense F) :=
  if r = 0 ∨ c = 0 ∨ data.length ≠ r * c then .error .shape else .ok ⟨r, c, data⟩

/-- gonum `D.RawRowView(i)` for `i` in range -/
def Dense.row (D : Dense F) (i : Nat) : List F := (D.data.drop (i * D.c)).take D.c

/-- gonum `D.At(i, j)` for `i, j` in range -/
def Dense.at? (D : Dense F) (i j : Nat) : Option F :=
  if i < D.r ∧ j < D.c then D.data[i * D.c + j]? else none

/-- the indexes visited by `for i := col; i < len(data); i += c` (`fuel` bounds the number of
iterations; `len + 1` suffices for `c > 0`) -/
def strideIdx (len c : Nat) : Nat → Nat → List Nat
  | 0, _ => []
  | fuel + 1, i => if i < len then i :: strideIdx len c fuel (i + c) else []

/-- utils/math.go:104-116 `DenseCol`; returns the only row of the 1×n result. -/
def denseCol (D : Dense F) (col : Nat) : Go (List F) :=
  if col > D.c then .error .explicit
  else do
    let newcol ← (strideIdx D.data.length D.c (D.data.length + 1) col).mapM (goIdx D.data)
    let m ← newDense 1 newcol.length newcol
    pure m.data

/-- the loop of utils/math.go:132-135 -/
def addLoop (data : List F) (s : List F) : List Nat → Nat → Go (List F)
  | [], _ => .ok data
  | i :: is, cont =>
    match data[i]?, s[cont]? with
    | some d, some x => addLoop (data.set i (d +. x)) s is (cont + 1)
    | _, _ => .error .index

/-- utils/math.go:120-137 `AddToCol`; returns the modified matrix. -/
def addToCol (D : Dense F) (s : List F) (col : Nat) : Go (Dense F) :=
  if col > D.c then .error .explicit
  else if s.length ≠ D.r then .error .explicit
  else do
    let data ← addLoop D.data s (strideIdx D.data.length D.c (D.data.length + 1) col) 0
    pure { D with data := data }

/-- utils/math.go:140-145 `ToOnes` -/
def toOnes (D : Dense F) : Dense F := { D with data := D.data.map fun _ => one }

/-- gonum `D.Scale(f, D)`: every entry becomes `f * v`. -/
def Dense.scale (f : F) (D : Dense F) : Dense F := { D with data := D.data.map fun v => f *. v }

/-! utils/sorter.go -/

/-- utils/sorter.go:7-10 `Slice`: values and the original index of each value. -/
structure SliceS (F : Type) where
  vals : List F
  idx : List Nat

/-- utils/sorter.go:17-24 `NewSlice` -/
def newSlice (n : List F) : SliceS F := ⟨n, List.range n.length⟩

/-- exchange entries `i` and `j` of a list (unchanged when out of range; Go panics) -/
def swapL {α : Type} (l : List α) (i j : Nat) : List α :=
  match l[i]?, l[j]? with
  | some a, some b => (l.set i b).set j a
  | _, _ => l

/-- utils/sorter.go:12-15 `Slice.Swap` -/
def SliceS.swap (s : SliceS F) (i j : Nat) : SliceS F := ⟨swapL s.vals i j, swapL s.idx i j⟩

end Boo
