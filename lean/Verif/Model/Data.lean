import Verif.Model.Math

/-!
# utils/libsvm.go: the data type and one-hot encoding
-/

namespace Boo
open GoFloat
variable {F : Type} [GoFloat F]

/-- utils/libsvm.go:18-23 `DataBunch` -/
structure DataBunch (F : Type) where
  data : List (List F)
  keys : List (List Char)
  labels : List Int
  floatLabels : List F := []

/-- utils/libsvm.go:227-235 `distinctElements` -/
def distinctElements {α : Type} [DecidableEq α] (s : List α) : List α :=
  s.foldl (fun diff v => if v ∈ diff then diff else diff ++ [v]) []

/-- utils/libsvm.go:238-250 `oneHotEncodeDense`. `slices.Index` returns -1 when absent, which would
make `Set` panic. -/
def oneHotEncodeDense {α : Type} [DecidableEq α] (labels : List α) : Go (Dense F × List α) := do
  let de := distinctElements labels
  let oh ← newDense labels.length de.length (List.replicate (labels.length * de.length) zero)
  let data ← (labels.zip (List.range labels.length)).foldlM (fun data (v, i) =>
      let index := de.idxOf v
      if index < de.length then pure (data.set (i * de.length + index) one)
      else (.error .shape : Go (List F))) oh.data
  pure ({ oh with data := data }, de)

/-- utils/libsvm.go:31-33 `OHELabels` -/
def DataBunch.oheLabels (D : DataBunch F) : Go (Dense F × List Int) := oneHotEncodeDense D.labels

/-- utils/libsvm.go:26-28 `OHEKeys` -/
def DataBunch.oheKeys (D : DataBunch F) : Go (Dense F × List (List Char)) := oneHotEncodeDense D.keys

/-- utils/libsvm.go:35-41 `getithLabel`; the index is in range in its only callers. -/
def DataBunch.ithLabel (D : DataBunch F) (i : Nat) : Go Int :=
  if D.labels.length = D.data.length then goIdx D.labels i else .ok (-1)

end Boo
