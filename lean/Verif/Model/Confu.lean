import Verif.Model.MultiClass
import Verif.Model.TextData

/-!
# confu/confu.go

Slices of `TopNForLabelM` may share memory with the buffers of the receiver, so they are references into a heap
(`IntHeap`). The matrix that `Matrix` returns is a value here: callers that overwrite it are not modelled.
-/

namespace Boo
open GoFloat
variable {F : Type} [GoFloat F]

/-- a `map[int]string`; `none` is a missing key -/
abbrev NameMap := Int → Option (List Char)

/-- `m[k] = v` -/
def NameMap.put (m : NameMap) (k : Int) (v : List Char) : NameMap := fun x => if x = k then some v else m x

/-- `m[k]`: the zero value for a missing key -/
def NameMap.get (m : NameMap) (k : Int) : List Char := (m k).getD []

/-- confu/confu.go:21-27 `MakeSimpleNameMap` -/
def makeSimpleNameMap (labels : List Int) : NameMap := labels.foldl (fun ret v => ret.put v (fmtInt v)) fun _ => none

/-- `strings.Split(s, sep)` for a `sep` that is not empty. `cur` is the piece being read, `skip` the number of
characters of a separator still to be skipped. -/
def splitStrGo (sep : List Char) : List Char → Nat → List Char → List (List Char)
  | cur, _, [] => [cur]
  | cur, skip + 1, _ :: s => splitStrGo sep cur skip s
  | cur, 0, c :: s =>
    if sep.isPrefixOf (c :: s) then cur :: splitStrGo sep [] (sep.length - 1) s
    else splitStrGo sep (cur ++ [c]) 0 s

/-- `strings.Split(s, sep)` for a `sep` that is not empty -/
def splitStr (sep s : List Char) : List (List Char) := splitStrGo sep [] 0 s

/-- confu/confu.go:46-57: one line; `none` is an error -/
def nameEntry (sep : List Char) (line : List Char) : Go (Option (Int × List Char)) :=
  let s := line.filter (· ≠ '\n')
  let l := if sep = [' '] then strFields s else splitStr sep s
  match l with
  | [] => .error .index
  | f :: rest =>
    match atoi f with
    | none => .ok none
    | some num =>
      match rest with
      | [] => .error .index
      | name :: _ => .ok (some (num, name))

/-- confu/confu.go:45-58, the loop -/
def nameLoop (sep : List Char) : List (List Char) → NameMap → Go (Option NameMap)
  | [], ret => .ok (some ret)
  | line :: lines, ret => do
    match ← nameEntry sep line with
    | none => pure none
    | some (num, name) => nameLoop sep lines (ret.put num name)

/-- what `ReadNameMap` returns: the map (`none` for nil) and if the error is set -/
structure NameResult where
  names : Option NameMap
  err : Bool

/-- confu/confu.go:32-64 `ReadNameMap` on a file that can be opened, with the given content; `sep = []` stands for no
separator given too. `readErr`: the reader ends with an error that is not `io.EOF`; the `rerr` of the loop is another
variable than the one that is returned (line 45 declares a new one), so it is lost. -/
def readNameMap (text : List Char) (_readErr : Bool) (sep : List Char) : Go NameResult := do
  let sep := if sep = [] then [' '] else sep
  match ← nameLoop sep (linesOf text) fun _ => none with
  | none => pure ⟨none, true⟩
  | some ret => pure ⟨some ret, false⟩

/-- the memory of `[]int` slices: the arrays allocated so far -/
abbrev IntHeap := List (List Nat)

/-- a `[]int` that starts at the beginning of its array; nil has length 0 -/
structure ISlice where
  addr : Nat
  len : Nat
  deriving DecidableEq

/-- the content of a slice -/
def ISlice.read (s : ISlice) (h : IntHeap) : List Nat := (h.getD s.addr []).take s.len

/-- confu/confu.go:66-75 `Confusions`; `matrix = none` is nil -/
structure Confusions where
  actual : List Int
  predicted : List Int
  labels : List Int
  matrix : Option (List (List Nat))
  tmpvals : ISlice
  tmpindx : ISlice
  m : Int → Nat

/-- confu/confu.go:81-84: label to index; a label that is missing has the zero value 0 -/
def labelMap (labels : List Int) : Int → Nat :=
  labels.zipIdx.foldl (fun m p => fun x => if x = p.1 then p.2 else m x) fun _ => 0

/-- confu/confu.go:77-93 `MCConfusions` -/
def mcConfusions (M : MultiClass F) (D : DataBunch F) : Go Confusions := do
  let predicted ← D.data.mapM fun v => do
    let p ← M.predictSingleClass v
    goIdx M.classLabels p
  pure { actual := D.labels, predicted := predicted, labels := M.classLabels, matrix := none, tmpvals := ⟨0, 0⟩,
         tmpindx := ⟨0, 0⟩, m := labelMap M.classLabels }

/-- `row[k]++` -/
def incrAt (row : List Nat) (k : Nat) : Go (List Nat) :=
  match row[k]? with
  | some x => .ok (row.set k (x + 1))
  | none => .error .index

/-- confu/confu.go:102-114: the row of label `v` -/
def Confusions.row (C : Confusions) (v : Int) : Go (List Nat) :=
  let lab := (List.range C.actual.length).filter fun j => C.actual[j]? = some v
  lab.foldlM (fun row w => do
    let p ← goIdx C.predicted w
    incrAt row (C.m p)) (List.replicate C.labels.length 0)

/-- confu/confu.go:95-118 `Matrix`: the receiver with the matrix stored, and the matrix -/
def Confusions.getMatrix (C : Confusions) : Go (Confusions × List (List Nat)) :=
  match C.matrix with
  | some mat => .ok (C, mat)
  | none => do
    let mat ← C.labels.mapM C.row
    pure ({ C with matrix := some mat }, mat)

/-- confu/confu.go:225-233 `memIntSort` with buffers of the length of `a` (as in its only caller): what the buffers `in`
and `val` hold afterwards. `sort.Sort` with the `idSorter` of lines 211-221 sorts (value, index) pairs by value. -/
def memIntSort (S : GoSort) (a : List Nat) : List Nat × List Nat :=
  let r := S.sort (fun p q : Nat × Nat => decide (p.1 < q.1)) (a.zip (List.range a.length))
  (r.map Prod.snd, r.map Prod.fst)

/-- confu/confu.go:179-184: the buffers are allocated when they have another length -/
def Confusions.buffers (C : Confusions) (h : IntHeap) (n : Nat) : Confusions × IntHeap :=
  let (C, h) := if C.tmpvals.len ≠ n then
      ({ C with tmpvals := ⟨h.length, n⟩ }, h ++ [List.replicate n 0]) else (C, h)
  if C.tmpindx.len ≠ n then ({ C with tmpindx := ⟨h.length, n⟩ }, h ++ [List.replicate n 0]) else (C, h)

/-- confu/confu.go:194-203: the slices themselves, or copies of them -/
def copySlices (docopy : Bool) (h : IntHeap) (si sv : ISlice) : IntHeap × ISlice × ISlice :=
  if docopy then (h ++ [sv.read h, si.read h], ⟨h.length + 1, si.len⟩, ⟨h.length, sv.len⟩) else (h, si, sv)

/-- confu/confu.go:205-208; `s[:N]` panics for a negative `N` -/
def firstN (N : Int) (si sv : ISlice) : Go (ISlice × ISlice) :=
  if N ≥ si.len then .ok (si, sv)
  else if N < 0 then .error .slice
  else .ok (⟨si.addr, N.toNat⟩, ⟨sv.addr, N.toNat⟩)

/-- confu/confu.go:170-209 `TopNForLabelM`: the receiver, the heap and the result (`none` for `nil, nil`) -/
def Confusions.topNForLabelM (S : GoSort) (N : Int) (M : Int) (docopy : Bool) (C : Confusions) (h : IntHeap) :
    Go (Confusions × IntHeap × Option (ISlice × ISlice)) := do
  let (C, mat) ← C.getMatrix
  match C.labels.idxOf? M with
  | none => pure (C, h, none)
  | some index => do
    let om ← goIdx mat index
    let (C, h) := C.buffers h om.length
    let sorted := memIntSort S om
    let h := (h.set C.tmpindx.addr sorted.1.reverse).set C.tmpvals.addr sorted.2.reverse
    let (h, si, sv) := copySlices docopy h C.tmpindx C.tmpvals
    let r ← firstN N si sv
    pure (C, h, some r)

/-- confu/confu.go:156-162, the loop over the labels -/
def Confusions.topNLoop (S : GoSort) (N : Int) : List Int → Confusions → IntHeap →
    Go (Confusions × IntHeap × List (Option (ISlice × ISlice)))
  | [], C, h => .ok (C, h, [])
  | v :: vs, C, h => do
    let (C, h, r) ← C.topNForLabelM S N v true h
    let (C, h, rs) ← Confusions.topNLoop S N vs C h
    pure (C, h, r :: rs)

/-- confu/confu.go:152-164 `TopNPerLabel` -/
def Confusions.topNPerLabel (S : GoSort) (N : Int) (C : Confusions) (h : IntHeap) :
    Go (Confusions × IntHeap × List (Option (ISlice × ISlice))) := Confusions.topNLoop S N C.labels C h

/-- confu/confu.go:138-144: the entries of a line; `n` of them are left, `js` and `fs` are the indexes and the counts -/
def topEntries (labels : List Int) (m : NameMap) : Nat → List Nat → List Nat → Go (List (List Char))
  | 0, _, _ => .ok []
  | n + 1, j :: js, num :: fs => do
    if num = 0 then topEntries labels m n js fs
    else do
      let lab ← goIdx labels j
      let rest ← topEntries labels m n js fs
      pure ((m.get lab ++ ':' :: fmtNat num) :: rest)
  | _ + 1, _, _ => .error .index

/-- confu/confu.go:125-145: the line of a label (`none`: no line); `make([]string, 1, N)` panics for `N < 1` -/
def topLine (labels : List Int) (m : NameMap) (N : Int) (lab : Int) (v f : List Nat) : Go (Option (List Char)) :=
  if N < 1 then .error .slice
  else if f.sum = 0 then .ok none
  else do
    let n := if (v.length : Int) < N then v.length else N.toNat
    let es ← topEntries labels m n v f
    pure (some (strJoin (("Label ".toList ++ m.get lab ++ [' ']) :: es) [' ']))

/-- confu/confu.go:124-146, the loop. A nil result reads as empty. -/
def topLines (labels : List Int) (m : NameMap) (N : Int) (h : IntHeap) :
    List (Int × Option (ISlice × ISlice)) → Go (List (List Char))
  | [] => .ok []
  | (lab, r) :: rs => do
    let v := (r.map fun p => p.1.read h).getD []
    let f := (r.map fun p => p.2.read h).getD []
    let line ← topLine labels m N lab v f
    let rest ← topLines labels m N h rs
    pure (line.toList ++ rest)

/-- confu/confu.go:120-149 `PrintTopN` (a negative capacity `len(m)+1` does not occur) -/
def Confusions.printTopN (S : GoSort) (N : Int) (m : NameMap) (C : Confusions) (h : IntHeap) :
    Go (Confusions × IntHeap × List Char) := do
  let (C, h, r) ← C.topNPerLabel S N h
  let ls ← topLines C.labels m N h (C.labels.zip r)
  pure (C, h, strJoin ("Confusions:".toList :: ls) ['\n'])

end Boo
