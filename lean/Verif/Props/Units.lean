import Verif.Lemmas.Units
import Verif.Lemmas.B64Scale
import Verif.Lemmas.Decimal

/-!
# Units of measurement in float64
-/

namespace Boo
open GoFloat Spec

section AnyOrder

variable {τ : Option SumOrder}
/-- float64, with any order of the additions of `floats.Sum` -/
local notation "F64" => F64o τ

/-! ### increasing changes -/

/-- `Increasing64 φ X`: `φ f` is increasing on the values of feature `f` -/
def Increasing64 (φ : Nat → F64 → F64) (X : List (List F64)) : Prop :=
  ∀ (f : Nat) (row row' : List F64) (a b : F64), row ∈ X → row' ∈ X → row[f]? = some a → row'[f]? = some b →
    (a <. b) = true → (φ f a <. φ f b) = true

theorem increasing_sameOrder {φ : Nat → F64 → F64} {X : List (List F64)} (hX : Apart64 X) (hX' : Apart64 (X.map (mapFeatures φ)))
    (hφ : Increasing64 φ X) (f : Nat) : SameOrder (φ f) (fun v => ∃ row ∈ X, row[f]? = some v) := by
  have hfin : ∀ v, (∃ row ∈ X, row[f]? = some v) → ∃ q q' : ℚ, v = .fin q ∧ φ f v = .fin q' := by
    rintro v ⟨row, hr, hv⟩
    obtain ⟨q, rfl, _⟩ := hX.bounded row hr v (List.mem_of_getElem? hv)
    have hv' : (mapFeatures φ row)[f]? = some (φ f (.fin q)) := by rw [mapFeatures_get, hv]; rfl
    obtain ⟨q', e, _⟩ := hX'.bounded _ (List.mem_map_of_mem hr) _ (List.mem_of_getElem? hv')
    exact ⟨q, q', rfl, e⟩
  have hlt : ∀ a b, (∃ row ∈ X, row[f]? = some a) → (∃ row ∈ X, row[f]? = some b) → (a <. b) = true → (φ f a <. φ f b) = true := by
    rintro a b ⟨row, hr, ha⟩ ⟨row', hr', hb⟩ h
    exact hφ f row row' a b hr hr' ha hb h
  have hlt' : ∀ a b, (∃ row ∈ X, row[f]? = some a) → (∃ row ∈ X, row[f]? = some b) → (φ f a <. φ f b) = (a <. b) := by
    intro a b ha hb
    cases h : (a <. b) with
    | true => exact hlt a b ha hb h
    | false =>
      obtain ⟨qa, qa', rfl, ea⟩ := hfin a ha
      obtain ⟨qb, qb', rfl, eb⟩ := hfin b hb
      rw [XF.fin_lt, decide_eq_false_iff_not, not_lt] at h
      rcases lt_or_eq_of_le h with h | h
      · have := hlt _ _ hb ha (by rw [XF.fin_lt]; simpa using h)
        rw [ea, eb, XF.fin_lt] at *
        simp only [decide_eq_true_eq, decide_eq_false_iff_not] at *
        exact not_lt.2 this.le
      · subst h
        rw [ea, XF.fin_lt]
        simp
  have hmid : ∀ a b, (∃ row ∈ X, row[f]? = some a) → (∃ row ∈ X, row[f]? = some b) → (a <. b) = true →
      ((a <=. ((a +. b) /. ofRat 2)) = true ∧ (((a +. b) /. ofRat 2) <. b) = true) ∧
      ((φ f a <=. ((φ f a +. φ f b) /. ofRat 2)) = true ∧ (((φ f a +. φ f b) /. ofRat 2) <. φ f b) = true) := by
    rintro a b ⟨row, hr, ha⟩ ⟨row', hr', hb⟩ h
    refine ⟨hX.midSafe f row row' a b hr hr' ha hb h, ?_⟩
    refine hX'.midSafe f _ _ _ _ (List.mem_map_of_mem hr) (List.mem_map_of_mem hr') ?_ ?_ (hφ f row row' a b hr hr' ha hb h)
    · rw [mapFeatures_get, ha]; rfl
    · rw [mapFeatures_get, hb]; rfl
  refine ⟨?_, hlt', ?_, ?_⟩
  · intro a ha
    obtain ⟨q, _, rfl, _⟩ := hfin a ha
    rw [XF.fin_eq]
    simp
  · intro a b ha hb
    have h1 := hlt' a b ha hb
    have h2 := hlt' b a hb ha
    obtain ⟨qa, qa', rfl, ea⟩ := hfin a ha
    obtain ⟨qb, qb', rfl, eb⟩ := hfin b hb
    rw [ea, eb, XF.fin_lt, XF.fin_lt, decide_eq_decide] at h1 h2
    rw [ea, eb, XF.fin_eq, XF.fin_eq, decide_eq_decide]
    constructor
    · rintro rfl
      exact le_antisymm (not_lt.1 fun h => absurd (h2.2 h) (lt_irrefl _)) (not_lt.1 fun h => absurd (h1.2 h) (lt_irrefl _))
    · rintro rfl
      exact le_antisymm (not_lt.1 fun h => absurd (h2.1 h) (lt_irrefl _)) (not_lt.1 fun h => absurd (h1.1 h) (lt_irrefl _))
  · intro a b v ha hb hv hab hside
    obtain ⟨⟨m1, m2⟩, m3, m4⟩ := hmid a b ha hb hab
    have ho : ∀ x y, (∃ row ∈ X, row[f]? = some x) → (∃ row ∈ X, row[f]? = some y) → (φ f x <=. φ f y) = (x <=. y) := by
      intro x y hx hy
      have h1 := hlt' y x hy hx
      obtain ⟨qx, qx', rfl, ex⟩ := hfin x hx
      obtain ⟨qy, qy', rfl, ey⟩ := hfin y hy
      rw [ex, ey, XF.fin_lt, XF.fin_lt, decide_eq_decide] at h1
      rw [ex, ey, XF.fin_le, XF.fin_le, decide_eq_decide]
      rw [← not_lt, ← not_lt, h1]
    rcases hside with h | h
    · have e1 : (v <=. ((a +. b) /. ofRat 2)) = true := fle_trans h m1
      have e2 : (φ f v <=. ((φ f a +. φ f b) /. ofRat 2)) = true := fle_trans (by rw [ho v a hv ha]; exact h) m3
      rw [e1, e2]
    · have e1 := fnot_le_of_lt (flt_of_lt_of_le m2 h)
      have e2 := fnot_le_of_lt (flt_of_lt_of_le m4 (by rw [ho b v hb hv]; exact h))
      rw [e1, e2]

/-- **C133 (increasing changes, trees, float64)**: replace each feature by an increasing function of it, the values having no neighbours in
float64 before and after. `NewTree` returns the same tree up to the thresholds (the same questions about the same features, the same samples,
gains and predictions, bit for bit), every row it was trained on gets the same prediction, and the feature importances are the same. -/
theorem C133_increasing_tree (S : GoSort) (hS : S.OnlyCompares) (X : List (List F64)) (hX : Apart64 X) (φ : Nat → F64 → F64)
    (hφ : Increasing64 φ X) (hX' : Apart64 (X.map (mapFeatures φ))) (o : TreeOptions F64) (t : Tree F64)
    (ht : newTree S X o = .ok t) :
    ∃ t', newTree S (X.map (mapFeatures φ)) o = .ok t' ∧ Spec.dropThresholds t' = Spec.dropThresholds t ∧
      (∀ w ∈ trainingRows X o, ∀ row, X[w]? = some row → t'.predictSingle (mapFeatures φ row) = t.predictSingle row) ∧
      ∀ S' xgb, t'.featureImportance S' xgb = t.featureImportance S' xgb := by
  have hD : ∀ row ∈ X, InDom (fun f v => ∃ row ∈ X, row[f]? = some v) row := fun row hr f v hv => ⟨row, hr, hv⟩
  obtain ⟨t', h1, h2, h3⟩ := newTreeD_units hS (increasing_sameOrder hX hX' hφ) hD _ _ _ ht
  refine ⟨t', h1, h2.dropThresholds, fun w hw row hrow => ?_, fun S' xgb => h2.featureImportance S' xgb⟩
  refine h2.predict_training (increasing_sameOrder hX hX' hφ) hD ?_ hrow
  rw [h3, idx_eq_trainingRows]
  exact hw

/-- **C133 (increasing changes, models, float64)**: with such a change, and rows that are not subsampled, `NewMultiClass` gives every row of the
data bit for bit the same probabilities; labels and feature importances are the same. -/
theorem C133_increasing (exp : F64 → F64) (S : GoSort) (hS : S.OnlyCompares) (draws : Nat → F64) (D : DataBunch F64) (hX : Apart64 D.data)
    (φ : Nat → F64 → F64) (hφ : Increasing64 φ D.data) (hX' : Apart64 (D.data.map (mapFeatures φ))) (O : Options F64)
    (hO : O.xgb = false ∨ (O.subSample <. one) = false) (M : MultiClass F64) (h : newMultiClass exp S draws D O = .ok M) :
    ∃ M', newMultiClass exp S draws { D with data := D.data.map (mapFeatures φ) } O = .ok M' ∧
      (∀ row ∈ D.data, M'.predictSingle (mapFeatures φ row) = M.predictSingle row) ∧
      M'.classLabels = M.classLabels ∧ ∀ S', M'.featureImportance S' = M.featureImportance S' := by
  have hD : ∀ row ∈ D.data, InDom (fun f v => ∃ row ∈ D.data, row[f]? = some v) row := fun row hr f v hv => ⟨row, hr, hv⟩
  have hso := increasing_sameOrder hX hX' hφ
  have key : ∀ t1 t2 : Tree F64, UTree φ (fun f v => ∃ row ∈ D.data, row[f]? = some v) D.data t1 t2 →
      (t1.rootSamples = List.range D.data.length ∨ (O.xgb = true ∧ (O.subSample <. one) = true)) →
      ∀ row ∈ D.data, t2.predictSingle (mapFeatures φ row) = t1.predictSingle row := by
    intro t1 t2 hr hs row hrow
    rcases hs with hs | ⟨h1, h2⟩
    · obtain ⟨w, hw⟩ := List.mem_iff_getElem?.1 hrow
      refine hr.predict_training hso hD (w := w) ?_ hw
      rw [hs, List.mem_range]
      exact (List.getElem?_eq_some_iff.1 hw).1
    · rcases hO with hO | hO
      · rw [hO] at h1; cases h1
      · rw [hO] at h2; cases h2
  obtain ⟨B, h1, h2⟩ := units_model hS hso hD rfl key h
  refine ⟨_, h1, fun row hrow => MultiClass.predict_congr ?_, rfl, fun S' => MultiClass.importance_congr ?_⟩
  · exact h2.imp fun _ _ h => h.imp fun _ _ h => key _ _ h.1 h.2 row hrow
  · exact h2.imp fun _ _ h => h.imp fun _ _ h g => h.1.featImp S' g

/-! ### decimals -/

/-- rows of the float64 nearest to the numbers -/
def near64Rows (Q : List (List ℚ)) : List (List F64) := Q.map fun row => row.map near64

theorem near64_inj {x y : ℚ} (hx : Short x) (hy : Short y) (h : (near64 x : F64) = near64 y) : x = y := by
  have h' := fin_inj64 h
  rcases lt_trichotomy x y with hlt | he | hlt
  · obtain ⟨c, _, h1, h2⟩ := short_between hx hy hlt
    exact absurd (h1.trans h2) (by rw [h']; exact lt_irrefl _)
  · exact he
  · obtain ⟨c, _, h1, h2⟩ := short_between hy hx hlt
    exact absurd (h1.trans h2) (by rw [h']; exact lt_irrefl _)

open Classical in
/-- a change of decimals as a change of float64 -/
noncomputable def lift64 (ψ : Nat → ℚ → ℚ) (f : Nat) (v : F64) : F64 :=
  if h : ∃ x, Short x ∧ v = near64 x then near64 (ψ f h.choose) else v

theorem lift64_near {ψ : Nat → ℚ → ℚ} {f : Nat} {x : ℚ} (hx : Short x) : lift64 ψ f (near64 x : F64) = near64 (ψ f x) := by
  have h : ∃ y, Short y ∧ (near64 x : F64) = near64 y := ⟨x, hx, rfl⟩
  unfold lift64
  rw [dif_pos h]
  rw [near64_inj h.choose_spec.1 hx h.choose_spec.2.symm]

theorem lift64_row {ψ : Nat → ℚ → ℚ} {row : List ℚ} (h : ∀ x ∈ row, Short x) :
    mapFeatures (lift64 ψ) (row.map near64 : List F64) = (mapFeatures ψ row).map near64 := by
  refine List.ext_getElem? fun f => ?_
  rw [mapFeatures_get, List.getElem?_map, List.getElem?_map, mapFeatures_get]
  cases hv : row[f]? with
  | none => rfl
  | some x =>
    simp only [Option.map_some]
    rw [lift64_near (h x (List.mem_of_getElem? hv))]

theorem lift64_rows {ψ : Nat → ℚ → ℚ} {Q : List (List ℚ)} (h : ∀ row ∈ Q, ∀ x ∈ row, Short x) :
    (near64Rows Q : List (List F64)).map (mapFeatures (lift64 ψ)) = near64Rows (Q.map (mapFeatures ψ)) := by
  unfold near64Rows
  rw [List.map_map, List.map_map]
  refine List.map_congr_left fun row hr => ?_
  exact lift64_row (h row hr)

theorem lift64_increasing {ψ : Nat → ℚ → ℚ} {Q : List (List ℚ)} (hQ : ∀ row ∈ Q, ∀ x ∈ row, Short x)
    (hQ' : ∀ row ∈ Q.map (mapFeatures ψ), ∀ x ∈ row, Short x)
    (hψ : ∀ f, StrictMonoOn (ψ f) {x | ∃ row ∈ Q, row[f]? = some x}) : Increasing64 (lift64 ψ) (near64Rows Q : List (List F64)) := by
  have hget : ∀ (f : Nat) (row : List F64) (a : F64), row ∈ (near64Rows Q : List (List F64)) → row[f]? = some a →
      ∃ x, (∃ q ∈ Q, q[f]? = some x) ∧ Short x ∧ Short (ψ f x) ∧ a = near64 x := by
    intro f row a hr ha
    obtain ⟨q, hq, rfl⟩ := List.mem_map.1 hr
    rw [List.getElem?_map] at ha
    cases hx : q[f]? with
    | none => rw [hx] at ha; cases ha
    | some x =>
      rw [hx] at ha
      obtain rfl := Option.some.inj ha
      refine ⟨x, ⟨q, hq, hx⟩, hQ q hq x (List.mem_of_getElem? hx), ?_, rfl⟩
      refine hQ' _ (List.mem_map_of_mem hq) _ (List.mem_of_getElem? (i := f) ?_)
      rw [mapFeatures_get, hx]
      rfl
  intro f row row' a b hr hr' ha hb hab
  obtain ⟨x, mx, sx, sx', rfl⟩ := hget f row a hr ha
  obtain ⟨y, my, sy, sy', rfl⟩ := hget f row' b hr' hb
  rw [lift64_near sx, lift64_near sy]
  unfold near64 at hab ⊢
  rw [XF.fin_lt, decide_eq_true_eq] at hab ⊢
  have hxy : x < y := by
    by_contra hle
    rw [not_lt] at hle
    exact absurd (rv_mono hle) (not_le.2 hab)
  obtain ⟨c, _, h1, h2⟩ := short_between sx' sy' (hψ f mx my hxy)
  exact h1.trans h2

/-- **C133 (decimals, trees)**: the features are decimal numbers of at most 15 digits, stored as the nearest float64. When they are expressed in
other units, or changed by any other increasing function whose values have at most 15 digits, `NewTree` returns the same tree up to the thresholds
and gives every row it was trained on the same prediction, bit for bit. -/
theorem C133_decimal_tree (S : GoSort) (hS : S.OnlyCompares) (Q : List (List ℚ)) (hQ : ∀ row ∈ Q, ∀ x ∈ row, Short x) (ψ : Nat → ℚ → ℚ)
    (hψ : ∀ f, StrictMonoOn (ψ f) {x | ∃ row ∈ Q, row[f]? = some x}) (hQ' : ∀ row ∈ Q.map (mapFeatures ψ), ∀ x ∈ row, Short x)
    (o : TreeOptions F64) (t : Tree F64) (ht : newTree S (near64Rows Q) o = .ok t) :
    ∃ t', newTree S (near64Rows (Q.map (mapFeatures ψ))) o = .ok t' ∧ Spec.dropThresholds t' = Spec.dropThresholds t ∧
      (∀ w ∈ trainingRows (near64Rows Q) o, ∀ row, Q[w]? = some row →
        t'.predictSingle ((mapFeatures ψ row).map near64) = t.predictSingle (row.map near64)) ∧
      ∀ S' xgb, t'.featureImportance S' xgb = t.featureImportance S' xgb := by
  have h1 := C133_increasing_tree S hS (near64Rows Q) (short_apart Q hQ) (lift64 ψ) (lift64_increasing hQ hQ' hψ)
    (by rw [lift64_rows hQ]; exact short_apart _ hQ') o t ht
  rw [lift64_rows hQ] at h1
  obtain ⟨t', e1, e2, e3, e4⟩ := h1
  refine ⟨t', e1, e2, fun w hw row hrow => ?_, e4⟩
  have := e3 w hw (row.map near64) (by unfold near64Rows; rw [List.getElem?_map, hrow]; rfl)
  rw [lift64_row (hQ row (List.mem_of_getElem? hrow))] at this
  exact this

/-- **C133 (decimals, models)**: with such a change, and rows that are not subsampled, `NewMultiClass` gives every row of the data bit for bit the
same probabilities; labels and feature importances are the same. -/
theorem C133_decimal (exp : F64 → F64) (S : GoSort) (hS : S.OnlyCompares) (draws : Nat → F64) (D : DataBunch F64) (Q : List (List ℚ))
    (hD : D.data = near64Rows Q) (hQ : ∀ row ∈ Q, ∀ x ∈ row, Short x) (ψ : Nat → ℚ → ℚ)
    (hψ : ∀ f, StrictMonoOn (ψ f) {x | ∃ row ∈ Q, row[f]? = some x}) (hQ' : ∀ row ∈ Q.map (mapFeatures ψ), ∀ x ∈ row, Short x)
    (O : Options F64) (hO : O.xgb = false ∨ (O.subSample <. one) = false) (M : MultiClass F64)
    (h : newMultiClass exp S draws D O = .ok M) :
    ∃ M', newMultiClass exp S draws { D with data := near64Rows (Q.map (mapFeatures ψ)) } O = .ok M' ∧
      (∀ row ∈ Q, M'.predictSingle ((mapFeatures ψ row).map near64) = M.predictSingle (row.map near64)) ∧
      M'.classLabels = M.classLabels ∧ ∀ S', M'.featureImportance S' = M.featureImportance S' := by
  have h1 := C133_increasing exp S hS draws D (by rw [hD]; exact short_apart Q hQ) (lift64 ψ) (by rw [hD]; exact lift64_increasing hQ hQ' hψ)
    (by rw [hD, lift64_rows hQ]; exact short_apart _ hQ') O hO M h
  rw [hD, lift64_rows hQ] at h1
  obtain ⟨M', e1, e2, e3⟩ := h1
  refine ⟨M', e1, fun row hrow => ?_, e3⟩
  have := e2 (row.map near64) (List.mem_map_of_mem hrow)
  rw [lift64_row (hQ row hrow)] at this
  exact this

/-! ### powers of two -/

/-- multiplying feature `f` by `2^(k f)`, in float64 -/
def timesPow2 (k : Nat → Int) : List F64 → List F64 := mapFeatures fun f v => v *. .fin (2 ^ k f)

/-- a finite float64 that is zero or of a magnitude between `2^-900` and `2^1000`, before and after the multiplication by `2^k` -/
def InRange (k : Int) (v : F64) : Prop := ∃ q : ℚ, v = .fin q ∧ MidRange q ∧ MidRange (q * 2 ^ k)

theorem times_pow2 {q : ℚ} {k : Int} (h : MidRange (q * 2 ^ k)) : ((.fin q : F64) *. .fin (2 ^ k)) = .fin (q * 2 ^ k) := by
  obtain ⟨h1, h2⟩ := rep64_rv h.1
  show XF.round (q * 2 ^ k) = _
  rw [round64_fin (by rw [h1]; exact h2), h1]

theorem pow2_side {k : Int} {a b v : F64} (ha : InRange k a) (hb : InRange k b) (hv : InRange k v) (hab : (a <. b) = true) :
    ((v *. .fin (2 ^ k)) <=. (((a *. .fin (2 ^ k)) +. (b *. .fin (2 ^ k))) /. ofRat 2)) = (v <=. ((a +. b) /. ofRat 2)) := by
  obtain ⟨a, rfl, a1, a2⟩ := ha
  obtain ⟨b, rfl, b1, b2⟩ := hb
  obtain ⟨v, rfl, v1, v2⟩ := hv
  have hk := two_zpow_pos k
  rw [XF.fin_lt, decide_eq_true_eq] at hab
  rw [times_pow2 a2, times_pow2 b2, times_pow2 v2]
  obtain ⟨m, e1, _, _, e2⟩ := mid64 (τ := τ) a1.1 b1.1 hab a1.le' b1.le'
  obtain ⟨m', e1', _, _, e2'⟩ := mid64 (τ := τ) a2.1 b2.1 (mul_lt_mul_of_pos_right hab hk) a2.le' b2.le'
  rw [e1, e1', XF.fin_le, XF.fin_le, decide_eq_decide, e2', mean_scale a1 b1 a2 b2, ← e2]
  exact mul_le_mul_iff_left₀ hk

theorem pow2_mid (k : Nat → Int) (f : Nat) (a b v : F64) (ha : InRange (k f) a) (hb : InRange (k f) b) (hv : InRange (k f) v)
    (hab : (a <. b) = true) :
    ((fun (f : Nat) (v : F64) => v *. XF.fin (2 ^ k f)) f v <=. (((fun (f : Nat) (v : F64) => v *. XF.fin (2 ^ k f)) f a +.
      (fun (f : Nat) (v : F64) => v *. XF.fin (2 ^ k f)) f b) /. ofRat 2)) = (v <=. ((a +. b) /. ofRat 2)) :=
  pow2_side ha hb hv hab

theorem pow2_sameOrder (k : Int) : SameOrder (fun v : F64 => v *. .fin (2 ^ k)) (InRange k) := by
  have hk := two_zpow_pos k
  refine ⟨?_, ?_, ?_, fun a b v ha hb hv hab _ => pow2_side ha hb hv hab⟩
  · rintro _ ⟨a, rfl, _⟩
    rw [XF.fin_eq]
    simp
  · rintro _ _ ⟨a, rfl, a1, a2⟩ ⟨b, rfl, b1, b2⟩
    simp only [times_pow2 a2, times_pow2 b2, XF.fin_lt, decide_eq_decide]
    exact mul_lt_mul_iff_left₀ hk
  · rintro _ _ ⟨a, rfl, a1, a2⟩ ⟨b, rfl, b1, b2⟩
    simp only [times_pow2 a2, times_pow2 b2, XF.fin_eq, decide_eq_decide]
    exact mul_left_inj' hk.ne'

/-- **C133 (powers of two, trees)**: when each feature is multiplied by a power of two, and values stay away from the ends of the range of
float64, `NewTree` returns a tree that gives every multiplied row what the old tree gives the row, whether or not it was trained on it. -/
theorem C133_pow2_tree (S : GoSort) (hS : S.OnlyCompares) (X : List (List F64)) (k : Nat → Int)
    (hX : ∀ row ∈ X, ∀ (f : Nat) v, row[f]? = some v → InRange (k f) v) (o : TreeOptions F64) (t : Tree F64)
    (ht : newTree S X o = .ok t) :
    ∃ t', newTree S (X.map (timesPow2 k)) o = .ok t' ∧ Spec.dropThresholds t' = Spec.dropThresholds t ∧
      (∀ row : List F64, (∀ (f : Nat) v, row[f]? = some v → InRange (k f) v) → t'.predictSingle (timesPow2 k row) = t.predictSingle row) ∧
      ∀ S' xgb, t'.featureImportance S' xgb = t.featureImportance S' xgb := by
  obtain ⟨t', h1, h2, h3⟩ := newTreeD_units hS (fun f => pow2_sameOrder (k f)) hX _ _ _ ht
  exact ⟨t', h1, h2.dropThresholds, fun row hrow => h2.predict_all (pow2_mid k) hrow,
    fun S' xgb => h2.featureImportance S' xgb⟩

/-- **C133 (powers of two, models)**: with such a change of units the new model gives every multiplied row bit for bit the probabilities that the
old model gives the row, with any options; labels and feature importances are the same. -/
theorem C133_pow2 (exp : F64 → F64) (S : GoSort) (hS : S.OnlyCompares) (draws : Nat → F64) (D : DataBunch F64) (k : Nat → Int)
    (hX : ∀ row ∈ D.data, ∀ (f : Nat) v, row[f]? = some v → InRange (k f) v) (O : Options F64) (M : MultiClass F64)
    (h : newMultiClass exp S draws D O = .ok M) :
    ∃ M', newMultiClass exp S draws { D with data := D.data.map (timesPow2 k) } O = .ok M' ∧
      (∀ row : List F64, (∀ (f : Nat) v, row[f]? = some v → InRange (k f) v) → M'.predictSingle (timesPow2 k row) = M.predictSingle row) ∧
      M'.classLabels = M.classLabels ∧ ∀ S', M'.featureImportance S' = M.featureImportance S' := by
  obtain ⟨B, h1, h2⟩ := units_model hS (fun f => pow2_sameOrder (k f)) hX rfl
    (fun t1 t2 hr _ row hrow => hr.predict_all (pow2_mid k) (hX row hrow)) h
  refine ⟨_, h1, fun row hrow => MultiClass.predict_congr ?_, rfl, fun S' => MultiClass.importance_congr ?_⟩
  · exact h2.imp fun _ _ h => h.imp fun _ _ h => h.1.predict_all (pow2_mid k) hrow
  · exact h2.imp fun _ _ h => h.imp fun _ _ h g => h.1.featImp S' g

end AnyOrder

/-! ### the limit -/

/-- millimetres to centimetres -/
def mmToCm (_ : Nat) (x : ℚ) : ℚ := x / 10

/-- **C133, limit**: a row that is not in the data may change sides when decimal units change, because the threshold is rounded. Trained on 1 mm and
7 mm, a tree sends 4 mm to the left; trained on 0.1 cm and 0.7 cm it sends 0.4 cm to the right. -/
theorem C133_new_row_violated : ∃ (Q : List (List ℚ)) (row : List ℚ) (o : TreeOptions F64) (a b : ℚ), a ≠ b ∧
    (∀ row ∈ Q, ∀ x ∈ row, Short x) ∧ (∀ row ∈ Q.map (mapFeatures mmToCm), ∀ x ∈ row, Short x) ∧
    ((newTree GoSort.ins (near64Rows Q) o).bind fun t => t.predictSingle (row.map near64)) = .ok (.fin a) ∧
    ((newTree GoSort.ins (near64Rows (Q.map (mapFeatures mmToCm))) o).bind fun t =>
      t.predictSingle ((mapFeatures mmToCm row).map near64)) = .ok (.fin b) :=
  ⟨[[1], [7]], [4], { (defaultGTreeOptions : TreeOptions F64) with y := [.fin 2, .fin 4], maxDepth := 1 }, 2, 4, by norm_num,
    by
      intro row hr x hx
      simp only [List.mem_cons, List.not_mem_nil, or_false] at hr
      rcases hr with rfl | rfl <;> (simp only [List.mem_cons, List.not_mem_nil, or_false] at hx; subst hx)
      · exact ⟨1, 0, by norm_num, by norm_num, by norm_num, by norm_num⟩
      · exact ⟨7, 0, by norm_num, by norm_num, by norm_num, by norm_num⟩,
    by
      intro row hr x hx
      simp only [List.map_cons, List.map_nil, mapFeatures, mmToCm, List.mapIdx_cons, List.mapIdx_nil, List.mem_cons, List.not_mem_nil,
        or_false] at hr
      rcases hr with rfl | rfl <;> (simp only [List.mem_cons, List.not_mem_nil, or_false] at hx; subst hx)
      · exact ⟨1, -1, by norm_num, by norm_num, by norm_num, by norm_num⟩
      · exact ⟨7, -1, by norm_num, by norm_num, by norm_num, by norm_num⟩,
    by decide +kernel, by decide +kernel⟩

/-! ### the theorems are not about nothing -/

/-- lengths in millimetres and temperatures in degrees Celsius -/
def unitQ : List (List ℚ) := [[1, -5], [7, 3 / 10], [4, 21], [1 / 4, 100]]

/-- centimetres and degrees Fahrenheit -/
def otherUnits (f : Nat) (x : ℚ) : ℚ := if f = 0 then x / 10 else 9 / 5 * x + 32

/-- the hypotheses of `C133_decimal` hold for a data set and a conversion of two units, and `NewMultiClass` returns a model -/
example : (∀ row ∈ unitQ, ∀ x ∈ row, Short x) ∧ (∀ row ∈ unitQ.map (mapFeatures otherUnits), ∀ x ∈ row, Short x) ∧
    (∀ f, StrictMonoOn (otherUnits f) {x | ∃ row ∈ unitQ, row[f]? = some x}) ∧ GoSort.ins.OnlyCompares := by
  refine ⟨?_, ?_, ?_, GoSort.ins_onlyCompares⟩
  · intro row hr x hx
    have h : ∀ row ∈ unitQ, ∀ x ∈ row, ∃ m ∈ [(100 : ℤ), -500, 700, 30, 400, 2100, 25, 10000], x = m * (1 / 100 : ℚ) := by decide +kernel
    obtain ⟨m, hm, rfl⟩ := h row hr x hx
    refine ⟨m, -2, ?_, by norm_num, by norm_num, by norm_num⟩
    clear hx
    revert m
    decide
  · intro row hr x hx
    have h : ∀ row ∈ unitQ.map (mapFeatures otherUnits), ∀ x ∈ row, ∃ m ∈ [(100 : ℤ), 23000, 700, 32540, 400, 69800, 25, 212000],
        x = m * (1 / 1000 : ℚ) := by decide +kernel
    obtain ⟨m, hm, rfl⟩ := h row hr x hx
    refine ⟨m, -3, ?_, by norm_num, by norm_num, by norm_num⟩
    clear hx
    revert m
    decide
  · intro f x _ y _ h
    unfold otherUnits
    split <;> linarith

/-- and on it `NewTree` returns a tree that is not a leaf -/
example : ((newTree GoSort.ins (near64Rows unitQ)
    { (defaultGTreeOptions : TreeOptions F64) with y := [.fin 2, .fin 4, .fin 8, .fin 9], maxDepth := 3, minChildWeight := .fin 1 }).bind
      Tree.leaf) = .ok false := by decide +kernel

/-- values as the thermometer gives them are in range for a multiplication by 8 -/
example : InRange (τ := none) 3 (.fin (-5)) ∧ InRange (τ := none) 3 (.fin 0) ∧ InRange (τ := none) 3 (.fin (21 / 2)) := by
  refine ⟨⟨-5, rfl, ⟨?_, Or.inr ?_⟩, ⟨?_, Or.inr ?_⟩⟩, ⟨0, rfl, ⟨?_, Or.inl ?_⟩, ⟨?_, Or.inl ?_⟩⟩, ⟨21 / 2, rfl, ⟨?_, Or.inr ?_⟩, ⟨?_, Or.inr ?_⟩⟩⟩ <;>
    (try unfold Rep64) <;> decide +kernel

end Boo
