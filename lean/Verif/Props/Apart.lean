import Verif.Lemmas.B64Near
import Verif.Props.MinChild
import Verif.Props.Train

/-!
# C06, C12 and C22 in binary64, for data without neighbouring values

The violations of C06 and C12 need two values of a feature that are neighbours in binary64 (or an overflow of their sum).
-/

namespace Boo
open GoFloat

section AnyOrder

variable {τ : Option SumOrder}
/-- float64, with any order of the additions of `floats.Sum` -/
local notation "F64" => F64o τ

/-- All values are finite float64 of magnitude at most `2^1022`, and between two different values of the same feature there is
another float64. -/
structure Apart64 (X : List (List F64)) : Prop where
  bounded : Bounded64 X
  apart : ∀ (f : Nat) (row row' : List F64) (a b : ℚ), row ∈ X → row' ∈ X → row[f]? = some (.fin a) → row'[f]? = some (.fin b) →
    a < b → ∃ c, Rep64 c ∧ a < c ∧ c < b

theorem Apart64.midSafe {X : List (List F64)} (h : Apart64 X) : MidSafe X := by
  intro f row row' a b hr hr' ha hb hab
  obtain ⟨a, rfl, ra, ba⟩ := h.bounded row hr a (List.mem_of_getElem? ha)
  obtain ⟨b, rfl, rb, bb⟩ := h.bounded row' hr' b (List.mem_of_getElem? hb)
  rw [XF.fin_lt, decide_eq_true_eq] at hab
  obtain ⟨c, rc, h1, h2⟩ := h.apart f row row' a b hr hr' ha hb hab
  obtain ⟨m, hm, h3, _, h4⟩ := mid64 ra rb hab ba bb
  have h5 := mid64_lt (rep64_rv ra).1 (rep64_rv rb).1 (rep64_rv rc).1 h1 h2
  rw [hm, XF.fin_le, XF.fin_lt]
  exact ⟨by simpa using h3, by rw [h4]; simpa using h5⟩

/-- **C06 (binary64), partial**: for finite data up to `2^1022` in which no two values of a feature are neighbouring float64, every
node but the root has at least `max(1, int(MinChildWeight))` samples. Missing: data with neighbouring or larger values, for which
the claim is false (`C06_violated_binary64`, `C06_violated_overflow`). -/
theorem C06_binary64_partial (S : GoSort) (X : List (List F64)) (o : TreeOptions F64)
    (t : Tree F64) (h : newTree S X o = .ok t) (hX : Apart64 X)
    (path : List Bool) (hne : path ≠ []) (i : NodeInfo F64) (l r : Tree F64)
    (hp : t.sub path = .node i l r) :
    1 ≤ i.samples.length ∧ toInt o.minChildWeight ≤ i.samples.length :=
  C06_of_midSafe S X o t h hX.bounded.noNaN hX.midSafe path hne i l r hp

/-- **C12 (binary64), partial**: on well-formed data as in `C06_binary64_partial`, `NewTree` does not panic. Missing: data with
neighbouring values (`C12_violated_binary64`). -/
theorem C12_binary64_partial (S : GoSort) (X : List (List F64)) (o : TreeOptions F64)
    (h : WellFormed X o) (hX : Apart64 X) : ∃ t, newTree S X o = .ok t :=
  C12_of_midSafe S X o h hX.bounded.noNaN hX.midSafe

/-- **C22 (training returns, binary64)**: on a non-empty rectangular data set without neighbouring values, with as many labels as
rows, `NewMultiClass` returns. -/
theorem C22_returns_binary64 (exp : F64 → F64) (S : GoSort) (draws : Nat → F64) (D : DataBunch F64) (O : Options F64)
    (hne : D.data ≠ []) (hrect : ∃ c, ∀ row ∈ D.data, row.length = c) (hX : Apart64 D.data)
    (hd : D.data.length = D.labels.length) (lv : LossVal F64) (hlv : O.loss = some lv)
    (hl : lv.fn.Regular) (hcap : CapOk D.data O) (hms : rowSub O = true → 1 ≤ O.minSample) :
    ∃ M, newMultiClass exp S draws D O = .ok M :=
  C22_returns exp S draws D O ⟨hne, hrect, hX.bounded.noNaN, hX.midSafe⟩ hd lv hlv hl hcap hms

end AnyOrder

/-- values of very different sizes, which are on no common grid -/
def apartX : List (List F64) := [[.fin (1 / 2 ^ 1060)], [.fin (-5)], [.fin (3 * 2 ^ 700)], [.fin (1 / 2 ^ 1062)]]

theorem apartX_apart : Apart64 apartX := by
  refine ⟨?_, ?_⟩
  · intro row hr v hv
    simp only [apartX, List.mem_cons, List.not_mem_nil, or_false] at hr
    rcases hr with rfl | rfl | rfl | rfl <;> simp only [List.mem_cons, List.not_mem_nil, or_false] at hv <;> subst hv <;>
      exact ⟨_, rfl, by unfold Rep64; decide +kernel, by decide +kernel⟩
  · have hrep : ∀ c ∈ [(0 : ℚ), 1, 1 / 2 ^ 1061], Rep64 c := by unfold Rep64; decide +kernel
    have key : ∀ row ∈ apartX, ∀ row' ∈ apartX, ∀ v ∈ row, ∀ w ∈ row', ∀ a ∈ [(1 / 2 ^ 1060 : ℚ), -5, 3 * 2 ^ 700, 1 / 2 ^ 1062],
        ∀ b ∈ [(1 / 2 ^ 1060 : ℚ), -5, 3 * 2 ^ 700, 1 / 2 ^ 1062], v = .fin a → w = .fin b → a < b →
        ∃ c ∈ [(0 : ℚ), 1, 1 / 2 ^ 1061], a < c ∧ c < b := by decide +kernel
    have mem : ∀ row ∈ apartX, ∀ v ∈ row, ∃ a ∈ [(1 / 2 ^ 1060 : ℚ), -5, 3 * 2 ^ 700, 1 / 2 ^ 1062], v = .fin a := by decide +kernel
    intro f row row' a b hr hr' ha hb hab
    obtain ⟨a', ha', e1⟩ := mem row hr _ (List.mem_of_getElem? ha)
    obtain ⟨b', hb', e2⟩ := mem row' hr' _ (List.mem_of_getElem? hb)
    cases e1
    cases e2
    obtain ⟨c, hc, h⟩ := key row hr row' hr' _ (List.mem_of_getElem? ha) _ (List.mem_of_getElem? hb) a ha' b hb' rfl rfl hab
    exact ⟨c, hrep c hc, h⟩

/-- the hypotheses are met: a tree with two splits -/
example : ∃ t, newTree GoSort.ins apartX { (defaultGTreeOptions : TreeOptions F64) with
      y := [.fin 0, .fin 1, .fin 3, .fin 9], maxDepth := 2, minChildWeight := .fin 1 } = .ok t ∧ t ≠ .nil := by
  obtain ⟨t, ht⟩ := C12_binary64_partial GoSort.ins apartX { (defaultGTreeOptions : TreeOptions F64) with
      y := [.fin 0, .fin 1, .fin 3, .fin 9], maxDepth := 2, minChildWeight := .fin 1 }
    ⟨by decide, ⟨1, by decide⟩, by simp [apartX, defaultGTreeOptions], (fun l h => by cases h), rfl⟩ apartX_apart
  refine ⟨t, ht, ?_⟩
  rintro rfl
  revert ht
  decide +kernel

end Boo
