import Verif.Model.Grad

/-!
# Specification of the gradient searches: hill climbing on values, without pointers

The program (cv/grad.go:220-298, cv/hybrid.go:11-102) keeps its current and its best point as pointers to objects that it changes in
place. Here there is one current point, a value. Of the best point so far the search keeps either the remark that it is the current
point, or a value.
-/

namespace Boo.Spec
open GoFloat Boo
variable {F : Type} [GoFloat F]

/-- what the search returns in the end: the current point, whatever it is then, or these options -/
inductive ToReturn (F : Type) where
  | current
  | these (o : Options F)

structure Climb (F : Type) where
  cur : Options F
  best : F
  accs : List F
  kept : Option (ToReturn F)
  calls : List (Options F × CVRes F)
  steps : Nat
  fuzzes : Nat
  writes : List (F × Options F)

/-- go on from `o`; if the current point was to be returned, it is as it is now -/
def Climb.goOn (c : Climb F) (o : Options F) : Climb F :=
  { c with
    cur := o
    kept := c.kept.map fun
      | .current => .these c.cur
      | .these q => .these q }

/-- Cross-validate the current point (which raises its `MinChildWeight`). `false`: that failed. If it is worse than the last accuracy noted,
go back: go on from a random variation of the point before. If it is better than the best so far, note it. -/
def Climb.judge (E : SearchEnv F) (c : Climb F) (before : Options F) : Climb F × Bool :=
  let r := E.cv c.calls.length 5 c.cur
  let c := { c with calls := c.calls ++ [(c.cur, r)] }
  if r.err then (c, false)
  else
    let c := { c with cur := c.cur.fixMcw }
    if (c.accs.getLast?.map (r.acc <. ·)) = some true then
      ({ c.goOn (fuzzOptions (E.draws c.fuzzes) before none) with fuzzes := c.fuzzes + 1 }, true)
    else if gt r.acc c.best then
      ({ c with
         best := r.acc, accs := c.accs ++ [r.acc], kept := some .current
         writes := if E.o.writeBest then c.writes ++ [(r.acc, c.cur)] else c.writes }, true)
    else (c, true)

/-- At most `n` gradient steps. A step that does not change the point is a strike: the point is varied at random by up to 20 %, and three
strikes in a row end the search from this starting point. -/
def Climb.walk (E : SearchEnv F) (nfold : Int) : Nat → Climb F → Nat → Climb F × Bool
  | 0, c, _ => (c, true)
  | n + 1, c, strikes =>
    let before := c.cur.clone
    let c := { c with cur := E.grad c.steps nfold c.cur, steps := c.steps + 1 }
    if c.cur.equal before then
      let c := { c with cur := fuzzOptions (E.draws c.fuzzes) c.cur (some (ofRat (2/10))), fuzzes := c.fuzzes + 1 }
      if strikes + 1 = 3 then (c, true) else Climb.walk E nfold n c (strikes + 1)
    else
      match c.judge E before with
      | (c, false) => (c, false)
      | (c, true) => Climb.walk E nfold n c 0

/-- one starting point -/
def Climb.start (E : SearchEnv F) (nfold : Int) (c : Climb F) (init : Options F) : Climb F × Bool :=
  match (c.goOn init).judge E init.clone with
  | (c, false) => (c, false)
  | (c, true) => Climb.walk E nfold E.o.nSteps.toNat c 0

/-- all starting points in turn -/
def climbAll (E : SearchEnv F) (nfold : Int) : List (Options F) → Climb F → Climb F × Bool
  | [], c => (c, true)
  | init :: inits, c =>
    match c.start E nfold init with
    | (c, false) => (c, false)
    | (c, true) => climbAll E nfold inits c

/-- nothing done yet (the current point does not matter) -/
def climbStart : Climb F := ⟨defaultGOptions 0, zero, [], none, [], 0, 0, []⟩

/-- what is returned -/
def climbRet : Climb F × Bool → GridRet F
  | (_, false) => ⟨ofRat (-1), [], none, true⟩
  | (c, true) => ⟨c.best, c.accs, c.kept.map fun
      | .current => c.cur
      | .these o => o, false⟩

end Boo.Spec
