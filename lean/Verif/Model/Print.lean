import Verif.Model.Strings
import Verif.Model.Json

/-!
# `PrintDenseMatrix` and `JSONNode.String`

`fmtv` renders a float with `%v`, `fmt3` with `%.3f`.
-/

namespace Boo
open GoFloat
variable {F : Type} [GoFloat F]

/-- `fmt.Sprintf("%v", s)` of a slice whose entries are rendered as `ws` -/
def fmtSlice (ws : List (List Char)) : List Char := '[' :: strJoin ws [' '] ++ [']']

/-- `fmt.Sprintf("%v", b)` of a bool -/
def fmtBool (b : Bool) : List Char := if b then "true".toList else "false".toList

/-- utils/math.go:92-101 `PrintDenseMatrix`; `ret[0]` panics when there are no rows -/
def printDenseMatrix (fmtv : F → List Char) (m : Dense F) : Go (List Char) := do
  let ret := (List.range m.r).map fun i => fmtSlice ((m.row i).map fmtv)
  let first ← goIdx ret 0
  let ret := ret.set 0 ('[' :: first)
  let last ← goIdx ret (ret.length - 1)
  let ret := ret.set (ret.length - 1) (last ++ [']'])
  pure (strJoin ret ['\n'])

/-- utils/json.go:27-32 `(*JSONNode).String`; there is no separator between the value and `Threshold` -/
def JSONNode.string (fmt3 : F → List Char) (j : JSONNode F) : List Char :=
  "ID:".toList ++ fmtNat j.id ++ ", Samples:".toList ++ fmtSlice ((j.samples.getD []).map fmtNat) ++ ", ns: ".toList ++
    fmtNat j.nsamples ++ ", score: ".toList ++ fmt3 j.bestScoreSoFar ++ ",Value:".toList ++ fmt3 j.value ++
  ("Threshold: ".toList ++ fmt3 j.threshold ++ ", Leaf: ".toList ++ fmtBool j.leaf ++ ", Branches: ".toList ++
    fmtNat j.branches ++ ", LeftID: ".toList ++ fmtNat j.leftid ++ ", ".toList) ++
  ("RightID: ".toList ++ fmtNat j.rightid ++ ", XGB:".toList ++ fmtBool j.xgb)

end Boo
