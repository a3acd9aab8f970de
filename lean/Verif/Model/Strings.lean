import Verif.Model.MultiClass
import Verif.Model.TextData

/-!
# The `String` methods

`fmt3` renders a float with `%.3f`.
-/

namespace Boo
open GoFloat
variable {F : Type} [GoFloat F]

/-- tree.go:390-401 `(*Feats).String` -/
def Feats.string (fmt3 : F → List Char) (f : Feats F) : List Char :=
  let xgb := if f.xgb then "xgboost".toList else "gradient boosting".toList
  let head := "Feature Importance in descending order, for ".toList ++ xgb ++ [':']
  strJoin (head :: f.items.mapIdx fun i p => fmtNat (i + 1) ++ " Feature ".toList ++ fmtNat p.1 ++
    " with score: ".toList ++ fmt3 p.2) ['\n']

/-- options.go:138-146 `(*Options).String` -/
def Options.string (fmt3 : F → List Char) (O : Options F) : List Char :=
  if O.xgb then
    "xgboost ".toList ++ fmtInt O.rounds ++ " r/".toList ++ fmtInt O.maxDepth ++ " md/".toList ++ fmt3 O.learningRate ++
      " lr/".toList ++ fmt3 O.subSample ++ " ss/".toList ++ fmt3 O.baseScore ++ " bs/".toList ++ fmt3 O.gamma ++
      " gam/".toList ++ fmt3 O.lambda ++ " lam/".toList ++ fmt3 O.minChildWeight ++ " mcw/".toList ++
      fmt3 O.colSubSample ++ " css".toList
  else
    "gboost ".toList ++ fmtInt O.rounds ++ " r/".toList ++ fmtInt O.maxDepth ++ " md/".toList ++ fmt3 O.learningRate ++
      " lr/".toList ++ fmt3 O.minChildWeight ++ " mcw".toList

/-- utils/libsvm.go:44-62 `(*DataBunch).String` of a receiver that is not nil: with `make([]string, len(v)+1)` and `append` there
are `len(v)` empty words after the label. -/
def DataBunch.string (P : FText F) (D : DataBunch F) : Go (List Char) := do
  let rows ← (D.data.zip (List.range D.data.length)).mapM fun (v, i) => do
    let lab ← D.ithLabel i
    pure (strJoin (fmtInt3 lab :: List.replicate v.length [] ++ v.map P.fmt4) [' '])
  pure (strJoin (("Labels ".toList ++ strJoin D.keys [' ']) :: rows) ['\n'])

end Boo
