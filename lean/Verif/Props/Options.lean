import Verif.Model.Options
import Verif.Lemmas.Split

/-!
# C28, C29: option validation, equality and cloning
-/

namespace Boo
open GoFloat
set_option linter.unusedSectionVars false
variable {F : Type} [GoFloat F]

/-! ### C28 -/

/-- The options that C28 calls valid. -/
def ValidOptions (o : Options F) : Prop :=
  0 < o.rounds ∧ (zero <. o.learningRate) = true ∧
  (zero <. o.subSample) = true ∧ (o.subSample <=. one) = true ∧
  (zero <. o.colSubSample) = true ∧ (o.colSubSample <=. one) = true ∧
  (zero <=. o.lambda) = true ∧ (one <=. o.minChildWeight) = true ∧ (zero <=. o.gamma) = true ∧
  2 ≤ o.maxDepth ∧ 1 ≤ o.minSample

/-- no float field is NaN -/
def Options.NoNaN (o : Options F) : Prop :=
  (o.learningRate ==. o.learningRate) = true ∧ (o.subSample ==. o.subSample) = true ∧
  (o.colSubSample ==. o.colSubSample) = true ∧ (o.lambda ==. o.lambda) = true ∧
  (o.minChildWeight ==. o.minChildWeight) = true ∧ (o.gamma ==. o.gamma) = true

/-- IEEE facts: for non-NaN values `!(a <= b)` is `b < a` and `!(a < b)` is `b <= a`. -/
theorem flt_of_not_le [GoFloatOrd F] {a b : F} (ha : (a ==. a) = true) (hb : (b ==. b) = true)
    (h : (a <=. b) = false) : (b <. a) = true := by
  rw [GoFloatOrd.le_iff, Bool.or_eq_false_iff] at h
  rcases GoFloatOrd.tri a b ha hb with h1 | h1 | h1
  · rw [h.1] at h1; cases h1
  · rw [h.2] at h1; cases h1
  · exact h1

theorem fnot_lt_of_le [GoFloatOrd F] {a b : F} (h : (a <=. b) = true) : (b <. a) = false := by
  cases hq : (b <. a) with
  | false => rfl
  | true => rw [fnot_le_of_lt hq] at h; cases h

theorem le_not_lt_iff [GoFloatOrd F] {a b : F} (ha : (a ==. a) = true) (hb : (b ==. b) = true) :
    ((a <=. b) = false ↔ (b <. a) = true) ∧ ((a <. b) = false ↔ (b <=. a) = true) :=
  ⟨⟨flt_of_not_le ha hb, fnot_le_of_lt⟩, ⟨fle_of_not_lt hb ha, fnot_lt_of_le⟩⟩

/-- **C28, partial (no NaN)**: for options without NaN, `Check` accepts exactly the valid ones. Any arithmetic with
the IEEE comparison laws. The full claim fails for NaN, see `C28_violated_nan`. -/
theorem C28_check_partial [GoFloatOrd F] (h1 : ((one : F) ==. one) = true) (o : Options F) (hn : o.NoNaN) :
    o.check = none ↔ ValidOptions o := by
  obtain ⟨n1, n2, n3, n4, n5, n6⟩ := hn
  have z := GoFloatOrd.zero_self (F := F)
  have a1 := (le_not_lt_iff n1 z).1
  have a2 := (le_not_lt_iff n2 z).1
  have a3 := (le_not_lt_iff n3 z).1
  have a4 := (le_not_lt_iff h1 n2).2
  have a5 := (le_not_lt_iff h1 n3).2
  have a6 := (le_not_lt_iff n4 z).2
  have a7 := (le_not_lt_iff n5 h1).2
  have a8 := (le_not_lt_iff n6 z).2
  unfold Options.check ValidOptions gt
  rw [← a1, ← a2, ← a3, ← a4, ← a5, ← a6, ← a7, ← a8]
  constructor
  · intro h
    split at h
    · cases h
    split at h
    · cases h
    split at h
    · cases h
    split at h
    · cases h
    split at h
    · cases h
    split at h
    · cases h
    split at h
    · cases h
    split at h
    · cases h
    split at h
    · cases h
    rename_i c1 c2 c3 c4 c5 c6 c7 c8 c9
    simp only [Bool.or_eq_true, not_or, Bool.not_eq_true] at c2 c3 c4 c5 c6 c7
    exact ⟨by omega, c2, c3.1, c4.1, c3.2, c4.2, c5, c6, c7, by omega, by omega⟩
  · rintro ⟨b1, b2, b3, b4, b5, b6, b7, b8, b9, b10, b11⟩
    rw [if_neg (by omega), if_neg (by simp [b2]), if_neg (by simp [b3, b5]), if_neg (by simp [b4, b6]),
      if_neg (by simp [b7]), if_neg (by simp [b8]), if_neg (by simp [b9]), if_neg (by omega), if_neg (by omega)]

/-- the same for float64, where `1 == 1` -/
theorem C28_check_float64_partial (o : Options F64) (hn : o.NoNaN) : o.check = none ↔ ValidOptions o :=
  C28_check_partial (by decide +kernel) o hn

/-- **C28 (sound half, NaN included)**: everything `Check` rejects is invalid. -/
theorem C28_valid_accepted [GoFloatOrd F] (o : Options F) (h : ValidOptions o) : o.check = none := by
  obtain ⟨b1, b2, b3, b4, b5, b6, b7, b8, b9, b10, b11⟩ := h
  have b2 := fnot_le_of_lt b2
  have b3 := fnot_le_of_lt b3
  have b5 := fnot_le_of_lt b5
  have b4 := fnot_lt_of_le b4
  have b6 := fnot_lt_of_le b6
  have b7 := fnot_lt_of_le b7
  have b8 := fnot_lt_of_le b8
  have b9 := fnot_lt_of_le b9
  unfold Options.check gt
  rw [if_neg (by omega), if_neg (by simp [b2]), if_neg (by simp [b3, b5]), if_neg (by simp [b4, b6]),
    if_neg (by simp [b7]), if_neg (by simp [b8]), if_neg (by simp [b9]), if_neg (by omega), if_neg (by omega)]

/-- **C28**: `DefaultXOptions` passes. -/
theorem C28_defaultX (id : Nat) : (defaultXOptions id : Options F64).check = none ∧
    ValidOptions (defaultXOptions id : Options F64) := by
  constructor
  · show (defaultXOptions 0 : Options F64).check = none
    decide +kernel
  · unfold ValidOptions defaultXOptions; dsimp only; decide +kernel

example : (defaultXOptions 0 : Options F64).NoNaN := by
  unfold Options.NoNaN defaultXOptions; dsimp only; decide +kernel

/-- **C28 is violated** for NaN: options with a NaN learning rate pass `Check`. -/
theorem C28_violated_nan (id : Nat) :
    ({ (defaultXOptions id : Options F64) with learningRate := XF.nan }).check = none ∧
    ¬ ValidOptions { (defaultXOptions id : Options F64) with learningRate := XF.nan } := by
  constructor
  · show ({ (defaultXOptions 0 : Options F64) with learningRate := XF.nan }).check = none
    decide +kernel
  · rintro ⟨_, h, _⟩; cases h

/-- `DefaultGOptions` does not pass: its `SubSample` is 0. -/
theorem C28_defaultG_rejected (id : Nat) :
    (defaultGOptions id : Options F64).check = some .subSampleLow := by
  show (defaultGOptions 0 : Options F64).check = some .subSampleLow
  decide +kernel

/-! ### C29 -/

/-- The hyperparameters, compared as Go compares them. -/
def SameHyper (a b : Options F) : Prop :=
  a.xgb = b.xgb ∧ a.rounds = b.rounds ∧ a.maxDepth = b.maxDepth ∧ a.minSample = b.minSample ∧
  a.verbose = b.verbose ∧ a.loss.map (·.id) = b.loss.map (·.id) ∧
  (a.learningRate ==. b.learningRate) = true ∧ (a.lambda ==. b.lambda) = true ∧
  (a.minChildWeight ==. b.minChildWeight) = true ∧ (a.gamma ==. b.gamma) = true ∧
  (a.subSample ==. b.subSample) = true ∧ (a.colSubSample ==. b.colSubSample) = true ∧
  (a.baseScore ==. b.baseScore) = true

/-- **C29, partial (what Equal decides)**: `a.Equal(b)` holds exactly when the hyperparameters other than
`EarlyStop` agree and the *argument* has `TreeMethod == "exact"`. -/
theorem C29_equal_iff_partial [GoFloatOrd F] (a b : Options F) :
    a.equal b = true ↔ SameHyper a b ∧ b.treeMethod = "exact" := by
  have sym : ∀ x y : F, fne x y = true ↔ ¬ (y ==. x) = true := by
    intro x y
    unfold fne
    rw [Bool.not_eq_true', Bool.eq_false_iff]
    exact not_congr ⟨GoFloatOrd.eq_symm x y, GoFloatOrd.eq_symm y x⟩
  have ite : ∀ (p : Prop) [Decidable p] (b : Bool), (if p then false else b) = true ↔ ¬ p ∧ b = true := by
    intro p _ b
    by_cases h : p <;> simp [h]
  unfold Options.equal SameHyper
  simp only [ite, sym, not_not, ne_eq]
  constructor
  · rintro ⟨h1, h2, h3, h4, h5, h6, h7, h8, h9, h10, h11, h12, h13, h14, _⟩
    exact ⟨⟨h1.symm, h2.symm, h8.symm, h14.symm, h13.symm, h12.symm, h9, h5, h6, h7, h3, h4, h10⟩, h11⟩
  · rintro ⟨⟨h1, h2, h8, h14, h13, h12, h9, h5, h6, h7, h3, h4, h10⟩, h11⟩
    exact ⟨h1.symm, h2.symm, h3, h4, h5, h6, h7, h8.symm, h9, h10, h11, h12.symm, h13.symm, h14.symm, trivial⟩

/-- **C29, partial (equivalence)**: on options with `TreeMethod == "exact"` and no NaN, `Equal` is an equivalence
relation. -/
theorem C29_equivalence_partial [GoFloatOrd F] :
    (∀ a : Options F, a.treeMethod = "exact" → a.NoNaN → (a.baseScore ==. a.baseScore) = true → a.equal a = true) ∧
    (∀ a b : Options F, a.treeMethod = "exact" → a.equal b = true → b.equal a = true) ∧
    (∀ a b c : Options F, a.equal b = true → b.equal c = true → a.equal c = true) := by
  refine ⟨?_, ?_, ?_⟩
  · rintro a ht ⟨n1, n2, n3, n4, n5, n6⟩ n7
    rw [C29_equal_iff_partial]
    exact ⟨⟨rfl, rfl, rfl, rfl, rfl, rfl, n1, n4, n5, n6, n2, n3, n7⟩, ht⟩
  · intro a b ht h
    rw [C29_equal_iff_partial] at h ⊢
    obtain ⟨⟨h1, h2, h3, h4, h5, h6, h7, h8, h9, h10, h11, h12, h13⟩, _⟩ := h
    have s := fun (x y : F) => GoFloatOrd.eq_symm x y
    exact ⟨⟨h1.symm, h2.symm, h3.symm, h4.symm, h5.symm, h6.symm, s _ _ h7, s _ _ h8, s _ _ h9, s _ _ h10,
      s _ _ h11, s _ _ h12, s _ _ h13⟩, ht⟩
  · intro a b c h g
    rw [C29_equal_iff_partial] at h g ⊢
    obtain ⟨⟨h1, h2, h3, h4, h5, h6, h7, h8, h9, h10, h11, h12, h13⟩, _⟩ := h
    obtain ⟨⟨g1, g2, g3, g4, g5, g6, g7, g8, g9, g10, g11, g12, g13⟩, g14⟩ := g
    have t := fun (x y z : F) => GoFloatOrd.eq_trans x y z
    exact ⟨⟨h1.trans g1, h2.trans g2, h3.trans g3, h4.trans g4, h5.trans g5, h6.trans g6, t _ _ _ h7 g7,
      t _ _ _ h8 g8, t _ _ _ h9 g9, t _ _ _ h10 g10, t _ _ _ h11 g11, t _ _ _ h12 g12, t _ _ _ h13 g13⟩, g14⟩

/-- **C29, partial (Clone)**: for options without NaN, `o.Equal(o.Clone())` holds, and all fields of the clone except
`EarlyStop` and `TreeMethod` are those of the original. -/
theorem C29_clone_partial [GoFloatOrd F] (o : Options F) :
    (o.NoNaN → (o.baseScore ==. o.baseScore) = true → o.equal o.clone = true) ∧
    { o.clone with earlyStop := o.earlyStop, treeMethod := o.treeMethod } = o := by
  refine ⟨?_, rfl⟩
  rintro ⟨n1, n2, n3, n4, n5, n6⟩ n7
  rw [C29_equal_iff_partial]
  exact ⟨⟨rfl, rfl, rfl, rfl, rfl, rfl, n1, n4, n5, n6, n2, n3, n7⟩, rfl⟩

/-- **C29 is violated**: `DefaultGOptions` (whose `TreeMethod` is empty) is not `Equal` to itself. -/
theorem C29_violated_refl (id : Nat) :
    (defaultGOptions id : Options F64).equal (defaultGOptions id) = false := by
  cases h : (defaultGOptions id : Options F64).equal (defaultGOptions id) with
  | false => rfl
  | true =>
    rw [C29_equal_iff_partial] at h
    exact absurd h.2 (by simp [defaultGOptions])

/-- **C29 is violated**: `Equal` is not symmetric. -/
theorem C29_violated_symm (id : Nat) :
    ({ (defaultXOptions id : Options F64) with treeMethod := "" }).equal (defaultXOptions id) = true ∧
    (defaultXOptions id : Options F64).equal { (defaultXOptions id : Options F64) with treeMethod := "" } = false := by
  constructor
  · rw [C29_equal_iff_partial]
    unfold SameHyper defaultXOptions
    refine ⟨⟨rfl, rfl, rfl, rfl, rfl, rfl, ?_⟩, rfl⟩
    dsimp only; decide +kernel
  · cases h : (defaultXOptions id : Options F64).equal { (defaultXOptions id : Options F64) with treeMethod := "" } with
    | false => rfl
    | true =>
      rw [C29_equal_iff_partial] at h
      exact absurd h.2 (by simp)

/-- **C29 is violated**: `Equal` ignores `EarlyStop`, and `Clone` loses it. -/
theorem C29_violated_earlyStop (id : Nat) :
    (defaultXOptions id : Options F64).equal { (defaultXOptions id : Options F64) with earlyStop := 3 } = true ∧
    (defaultXOptions id : Options F64).earlyStop = 10 ∧ (defaultXOptions id : Options F64).clone.earlyStop = 0 := by
  refine ⟨?_, rfl, rfl⟩
  rw [C29_equal_iff_partial]
  unfold SameHyper defaultXOptions
  refine ⟨⟨rfl, rfl, rfl, rfl, rfl, rfl, ?_⟩, rfl⟩
  dsimp only; decide +kernel

end Boo
