import Verif.Props.MinChild

/-!
# Building trees forwards: the converse of `newTreeD_inv`
-/

namespace Boo
open GoFloat
set_option linter.unusedSectionVars false
variable {F : Type} [GoFloat F]

theorem newTreeD_mk_zero {S : GoSort} {X : List (List F)} {o : TreeOptions F} {v : F} {row0 : List F}
    (hx : (o.xgb && o.gradients.isNone && o.hessian.isNone) = false)
    (hv : nodeValue (o.fill X) (o.idx X) = .ok v) (hr : X[0]? = some row0) :
    newTreeD S X 0 o = .ok (.node (mkInfo o X v row0.length (best0 o.xgb) 1) .nil .nil) := by
  unfold newTreeD
  rw [hx]
  simp only [TreeOptions.fill_idx, Bool.false_eq_true, if_false, bind, Except.bind, hv, goIdx_ok.2 hr]
  rfl

theorem newTreeD_mk_leaf {S : GoSort} {X : List (List F)} {o : TreeOptions F} {v : F} {row0 : List F} {d : Nat}
    {best : Best F} (hx : (o.xgb && o.gradients.isNone && o.hessian.isNone) = false)
    (hv : nodeValue (o.fill X) (o.idx X) = .ok v) (hr : X[0]? = some row0)
    (hs : searchSplit S X (o.fill X) row0.length (best0 o.xgb) = .ok best)
    (hl : (mkInfo o X v row0.length best 1).leaf = true) :
    newTreeD S X (d + 1) o = .ok (.node (mkInfo o X v row0.length best 1) .nil .nil) := by
  rw [newTreeD_succ, hx]
  simp only [Bool.false_eq_true, if_false, bind, Except.bind, hv, goIdx_ok.2 hr, hs, hl, if_true]
  rfl

theorem newTreeD_mk_node {S : GoSort} {X : List (List F)} {o : TreeOptions F} {v : F} {row0 : List F} {d : Nat}
    {best : Best F} {col : List F} {l r : Tree F}
    (hx : (o.xgb && o.gradients.isNone && o.hessian.isNone) = false)
    (hv : nodeValue (o.fill X) (o.idx X) = .ok v) (hr : X[0]? = some row0)
    (hs : searchSplit S X (o.fill X) row0.length (best0 o.xgb) = .ok best)
    (hl : (mkInfo o X v row0.length best 1).leaf = false) (hc : sampleCol X (o.idx X) best.feature = .ok col)
    (h1 : newTreeD S X d (o.child X (goLeft best.threshold col (o.idx X))) = .ok l)
    (h2 : newTreeD S X d (o.child X (goRight best.threshold col (o.idx X))) = .ok r) :
    newTreeD S X (d + 1) o = .ok (.node (mkInfo o X v row0.length best (1 + l.branches + r.branches)) l r) := by
  rw [newTreeD_succ, hx]
  simp only [Bool.false_eq_true, if_false, bind, Except.bind, hv, goIdx_ok.2 hr, hs, hl, hc, h1, h2]
  rfl

end Boo
