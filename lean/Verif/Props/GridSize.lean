import Verif.Props.Grid

/-!
# C53: how many points a grid has
-/

namespace Boo
open GoFloat

section
variable {F : Type} [GoFloat F]

theorem nest_size {α β : Type} (l : List α) (f : α → Option (List β)) (k : Nat) (h : ∀ a, ∃ b, f a = some b ∧ b.length = k) :
    ∃ r, nest (some l) f = some r ∧ r.length = l.length * k := by
  have : ∃ ls, l.mapM f = some ls ∧ ls.flatten.length = l.length * k := by
    induction l with
    | nil => exact ⟨[], rfl, by simp⟩
    | cons a l ih =>
      obtain ⟨b, hb, hk⟩ := h a
      obtain ⟨ls, hls, hl⟩ := ih
      refine ⟨b :: ls, by rw [List.mapM_cons, hb, hls]; rfl, ?_⟩
      rw [List.flatten_cons, List.length_append, hk, hl, List.length_cons, Nat.succ_mul, Nat.add_comm]
  obtain ⟨ls, hls, hl⟩ := this
  exact ⟨ls.flatten, by unfold nest; simp [hls], hl⟩

/-- **C53 (number of points)**: the grid has as many points as there are combinations of the values of its loops. -/
theorem C53_size (fuel : Nat) (o : GridOptions F) {rs mds : List Int} {cws csss lrs lams gams sss : List F}
    (e1 : o.rounds.ints fuel = some rs) (e2 : o.minChildWeight.floats fuel = some cws) (e3 : o.maxDepth.ints fuel = some mds)
    (e4 : o.colSubSample.floats fuel = some csss) (e5 : o.learningRate.floats fuel = some lrs) (e6 : o.lambda.floats fuel = some lams)
    (e7 : o.gamma.floats fuel = some gams) (e8 : o.subSample.floats fuel = some sss) :
    ∃ pts, gridPoints fuel o = some pts ∧
      pts.length = rs.length * (cws.length * (mds.length * (csss.length * (lrs.length * (lams.length * (gams.length * sss.length)))))) := by
  unfold gridPoints
  rw [e1]
  refine nest_size _ _ _ fun r => ?_
  rw [e2]
  refine nest_size _ _ _ fun cw => ?_
  rw [e3]
  refine nest_size _ _ _ fun md => ?_
  rw [e4]
  refine nest_size _ _ _ fun css => ?_
  rw [e5]
  refine nest_size _ _ _ fun lr => ?_
  rw [e6]
  refine nest_size _ _ _ fun lam => ?_
  rw [e7]
  refine nest_size _ _ _ fun gam => ?_
  rw [e8]
  exact ⟨_, rfl, by simp⟩

end

theorem getLen {α : Type} {l : Option (List α)} {n : Nat} (h : l.map List.length = some n) : ∃ r, l = some r ∧ r.length = n := by
  obtain ⟨r, h1, h2⟩ := Option.map_eq_some_iff.1 h
  exact ⟨r, h1, h2⟩

/-- **C53 (default grids)**: in binary64 the grid of `DefaultXGridOptions` has 368640 points and that of `DefaultGGridOptions` 35640. -/
theorem C53_default_sizes : (∃ pts, gridPoints 200 (defaultXGridOptions : GridOptions F64) = some pts ∧ pts.length = 368640) ∧
    ∃ pts, gridPoints 200 (defaultGGridOptions : GridOptions F64) = some pts ∧ pts.length = 35640 := by
  constructor
  · obtain ⟨l1, a1, b1⟩ := getLen (l := (defaultXGridOptions : GridOptions F64).rounds.ints 200) (n := 10) (by decide +kernel)
    obtain ⟨l2, a2, b2⟩ := getLen (l := (defaultXGridOptions : GridOptions F64).minChildWeight.floats 200) (n := 3) (by decide +kernel)
    obtain ⟨l3, a3, b3⟩ := getLen (l := (defaultXGridOptions : GridOptions F64).maxDepth.ints 200) (n := 4) (by decide +kernel)
    obtain ⟨l4, a4, b4⟩ := getLen (l := (defaultXGridOptions : GridOptions F64).colSubSample.floats 200) (n := 4) (by decide +kernel)
    obtain ⟨l5, a5, b5⟩ := getLen (l := (defaultXGridOptions : GridOptions F64).learningRate.floats 200) (n := 4) (by decide +kernel)
    obtain ⟨l6, a6, b6⟩ := getLen (l := (defaultXGridOptions : GridOptions F64).lambda.floats 200) (n := 8) (by decide +kernel)
    obtain ⟨l7, a7, b7⟩ := getLen (l := (defaultXGridOptions : GridOptions F64).gamma.floats 200) (n := 6) (by decide +kernel)
    obtain ⟨l8, a8, b8⟩ := getLen (l := (defaultXGridOptions : GridOptions F64).subSample.floats 200) (n := 4) (by decide +kernel)
    obtain ⟨pts, h1, h2⟩ := C53_size 200 _ a1 a2 a3 a4 a5 a6 a7 a8
    exact ⟨pts, h1, by rw [h2, b1, b2, b3, b4, b5, b6, b7, b8]⟩
  · obtain ⟨l1, a1, b1⟩ := getLen (l := (defaultGGridOptions : GridOptions F64).rounds.ints 200) (n := 99) (by decide +kernel)
    obtain ⟨l2, a2, b2⟩ := getLen (l := (defaultGGridOptions : GridOptions F64).minChildWeight.floats 200) (n := 5) (by decide +kernel)
    obtain ⟨l3, a3, b3⟩ := getLen (l := (defaultGGridOptions : GridOptions F64).maxDepth.ints 200) (n := 9) (by decide +kernel)
    obtain ⟨l4, a4, b4⟩ := getLen (l := (defaultGGridOptions : GridOptions F64).colSubSample.floats 200) (n := 1) (by decide +kernel)
    obtain ⟨l5, a5, b5⟩ := getLen (l := (defaultGGridOptions : GridOptions F64).learningRate.floats 200) (n := 8) (by decide +kernel)
    obtain ⟨l6, a6, b6⟩ := getLen (l := (defaultGGridOptions : GridOptions F64).lambda.floats 200) (n := 1) (by decide +kernel)
    obtain ⟨l7, a7, b7⟩ := getLen (l := (defaultGGridOptions : GridOptions F64).gamma.floats 200) (n := 1) (by decide +kernel)
    obtain ⟨l8, a8, b8⟩ := getLen (l := (defaultGGridOptions : GridOptions F64).subSample.floats 200) (n := 1) (by decide +kernel)
    obtain ⟨pts, h1, h2⟩ := C53_size 200 _ a1 a2 a3 a4 a5 a6 a7 a8
    exact ⟨pts, h1, by rw [h2, b1, b2, b3, b4, b5, b6, b7, b8]⟩

end Boo
