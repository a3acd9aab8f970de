import Verif.Props.Memorize

/-!
# xgboost trees on two classes that one column separates
-/

namespace Boo
open GoFloat Spec
set_option linter.unusedSectionVars false

/-! ### the quality `G²/(H+λ)` of pure and mixed sets of rows -/

/-- `G²/(H+λ)` -/
noncomputable def qual (lam G H : ℝ) : ℝ := G ^ 2 / (H + lam)

theorem qual_nonneg {lam G H : ℝ} (hl : 0 ≤ lam) (hH : 0 ≤ H) : 0 ≤ qual lam G H := by
  unfold qual
  positivity

theorem qual_add {lam g h a a' : ℝ} (hl : 0 ≤ lam) (hh : 0 < h) (ha : 0 ≤ a) (ha' : 0 ≤ a') :
    qual lam (a * g) (a * h) + qual lam (a' * g) (a' * h) ≤ qual lam ((a + a') * g) ((a + a') * h) := by
  have key : ∀ x A : ℝ, 0 ≤ x → x ≤ A → qual lam (x * g) (x * h) ≤ x * (A * g ^ 2 / (A * h + lam)) := by
    intro x A hx hA
    unfold qual
    rcases hx.eq_or_lt with rfl | hx
    · simp
    have h1 : 0 < x * h + lam := by positivity
    have hA0 : 0 < A := lt_of_lt_of_le hx hA
    have h2 : 0 < A * h + lam := by positivity
    rw [← mul_div_assoc, div_le_div_iff₀ h1 h2]
    have : 0 ≤ lam * (A - x) := mul_nonneg hl (by linarith)
    have h3 : 0 ≤ x * g ^ 2 := by positivity
    nlinarith [mul_nonneg this h3]
  have e : qual lam ((a + a') * g) ((a + a') * h) =
      a * ((a + a') * g ^ 2 / ((a + a') * h + lam)) + a' * ((a + a') * g ^ 2 / ((a + a') * h + lam)) := by
    unfold qual
    ring
  rw [e]
  exact add_le_add (key a _ ha (by linarith)) (key a' _ ha' (by linarith))

theorem qual_mono {lam g h a a' : ℝ} (hl : 0 ≤ lam) (hh : 0 < h) (ha : 0 ≤ a) (ha' : a ≤ a') :
    qual lam (a * g) (a * h) ≤ qual lam (a' * g) (a' * h) := by
  have := qual_add (g := g) hl hh ha (sub_nonneg.2 ha')
  have h0 : 0 ≤ qual lam ((a' - a) * g) ((a' - a) * h) := qual_nonneg hl (mul_nonneg (sub_nonneg.2 ha') hh.le)
  rw [add_sub_cancel] at this
  linarith

/-- Rows of both classes in one set are worth less than the rows of one of the classes alone. -/
theorem qual_mix {lam ga gb ha hb a b : ℝ} (hl : 0 ≤ lam) (hga : ga < 0) (hgb : 0 < gb) (hha : 0 < ha) (hhb : 0 < hb)
    (h0a : 0 < a) (h0b : 0 < b) :
    qual lam (a * ga + b * gb) (a * ha + b * hb) < max (qual lam (a * ga) (a * ha)) (qual lam (b * gb) (b * hb)) := by
  have hA : 0 < a * ha := mul_pos h0a hha
  have hB : 0 < b * hb := mul_pos h0b hhb
  have gA : a * ga < 0 := mul_neg_of_pos_of_neg h0a hga
  have gB : 0 < b * gb := mul_pos h0b hgb
  unfold qual
  rcases le_total (a * ga + b * gb) 0 with h | h
  · refine lt_max_of_lt_left ?_
    calc (a * ga + b * gb) ^ 2 / (a * ha + b * hb + lam) ≤ (a * ga + b * gb) ^ 2 / (a * ha + lam) :=
          div_le_div_of_nonneg_left (sq_nonneg _) (by linarith) (by linarith)
      _ < (a * ga) ^ 2 / (a * ha + lam) := div_lt_div_of_pos_right (by nlinarith) (by linarith)
  · refine lt_max_of_lt_right ?_
    calc (a * ga + b * gb) ^ 2 / (a * ha + b * hb + lam) ≤ (a * ga + b * gb) ^ 2 / (b * hb + lam) :=
          div_le_div_of_nonneg_left (sq_nonneg _) (by linarith) (by linarith)
      _ < (b * gb) ^ 2 / (b * hb + lam) := div_lt_div_of_pos_right (by nlinarith) (by linarith)

theorem qual_mix_le {lam ga gb ha hb a b : ℝ} (hl : 0 ≤ lam) (hga : ga < 0) (hgb : 0 < gb) (hha : 0 < ha) (hhb : 0 < hb)
    (h0a : 0 ≤ a) (h0b : 0 ≤ b) :
    qual lam (a * ga + b * gb) (a * ha + b * hb) ≤ max (qual lam (a * ga) (a * ha)) (qual lam (b * gb) (b * hb)) := by
  rcases h0a.eq_or_lt with rfl | h0a
  · simp
  rcases h0b.eq_or_lt with rfl | h0b
  · simp
  exact (qual_mix hl hga hgb hha hhb h0a h0b).le

/-- Two sets of rows are worth at most the two classes. -/
theorem qual_max {lam ga gb ha hb a a' b b' : ℝ} (hl : 0 ≤ lam) (hha : 0 < ha) (hhb : 0 < hb)
    (h0a : 0 ≤ a) (h0b : 0 ≤ b) (h0a' : 0 ≤ a') (h0b' : 0 ≤ b') :
    max (qual lam (a * ga) (a * ha)) (qual lam (b * gb) (b * hb)) +
      max (qual lam (a' * ga) (a' * ha)) (qual lam (b' * gb) (b' * hb)) ≤
      qual lam ((a + a') * ga) ((a + a') * ha) + qual lam ((b + b') * gb) ((b + b') * hb) := by
  have a1 := qual_add (g := ga) hl hha h0a h0a'
  have a2 := qual_add (g := gb) hl hhb h0b h0b'
  have b1 := qual_mono (g := ga) hl hha h0a (by linarith : a ≤ a + a')
  have b2 := qual_mono (g := ga) hl hha h0a' (by linarith : a' ≤ a + a')
  have b3 := qual_mono (g := gb) hl hhb h0b (by linarith : b ≤ b + b')
  have b4 := qual_mono (g := gb) hl hhb h0b' (by linarith : b' ≤ b + b')
  have p1 : 0 ≤ qual lam ((a + a') * ga) ((a + a') * ha) := qual_nonneg hl (by positivity)
  have p2 : 0 ≤ qual lam ((b + b') * gb) ((b + b') * hb) := qual_nonneg hl (by positivity)
  rcases max_choice (qual lam (a * ga) (a * ha)) (qual lam (b * gb) (b * hb)) with e | e <;>
  rcases max_choice (qual lam (a' * ga) (a' * ha)) (qual lam (b' * gb) (b' * hb)) with e' | e' <;>
  rw [e, e'] <;> linarith

/-! ### sets of rows of two classes -/

/-- rows of the class in `s`, and rows outside of it -/
def countIn (cls : Nat → Bool) (s : List Nat) : Nat := (s.filter cls).length
def countOut (cls : Nat → Bool) (s : List Nat) : Nat := (s.filter fun i => !cls i).length

theorem sumOver_two {g : List ℝ} {cls : Nat → Bool} {ga gb : ℝ} {s : List Nat}
    (h : ∀ i ∈ s, g.getD i 0 = if cls i then ga else gb) : sumOver g s = countIn cls s * ga + countOut cls s * gb := by
  unfold sumOver countIn countOut
  induction s with
  | nil => simp
  | cons x s ih =>
    have h1 := h x (by simp)
    have h2 := ih fun i hi => h i (by simp [hi])
    rw [List.map_cons, List.sum_cons, h2, h1]
    cases hx : cls x <;> simp [List.filter_cons, hx] <;> ring

theorem countIn_split (X : List (List ℝ)) (cls : Nat → Bool) (s : List Nat) (f : Nat) (θ : ℝ) :
    countIn cls s = countIn cls (leftOf X s f θ) + countIn cls (rightOf X s f θ) := by
  unfold countIn leftOf rightOf
  induction s with
  | nil => rfl
  | cons x s ih =>
    by_cases hv : val X x f ≤ θ
    · have hv' : ¬ θ < val X x f := not_lt.2 hv
      cases hx : cls x <;> simp [List.filter_cons, hx, hv, hv'] at ih ⊢ <;> omega
    · have hv' : θ < val X x f := not_le.1 hv
      cases hx : cls x <;> simp [List.filter_cons, hx, hv, hv'] at ih ⊢ <;> omega

theorem countOut_split (X : List (List ℝ)) (cls : Nat → Bool) (s : List Nat) (f : Nat) (θ : ℝ) :
    countOut cls s = countOut cls (leftOf X s f θ) + countOut cls (rightOf X s f θ) :=
  countIn_split X (fun i => !cls i) s f θ

theorem countIn_zero {cls : Nat → Bool} {s : List Nat} : countIn cls s = 0 ↔ ∀ i ∈ s, cls i = false := by
  unfold countIn
  rw [List.length_eq_zero_iff, List.filter_eq_nil_iff]
  simp

theorem countOut_zero {cls : Nat → Bool} {s : List Nat} : countOut cls s = 0 ↔ ∀ i ∈ s, cls i = true := by
  unfold countOut
  rw [List.length_eq_zero_iff, List.filter_eq_nil_iff]
  simp

/-- gradients and hessians that depend on the class only -/
structure TwoClass (cls : Nat → Bool) (n : Nat) (g h : List ℝ) (ga gb ha hb : ℝ) : Prop where
  grad : ∀ i < n, g.getD i 0 = if cls i then ga else gb
  hess : ∀ i < n, h.getD i 0 = if cls i then ha else hb
  ga0 : ga < 0
  gb0 : 0 < gb
  ha0 : 0 < ha
  hb0 : 0 < hb

theorem TwoClass.quality {cls : Nat → Bool} {n : Nat} {g h : List ℝ} {ga gb ha hb : ℝ} (H : TwoClass cls n g h ga gb ha hb) (lam : ℝ)
    {s : List Nat} (hs : ∀ i ∈ s, i < n) :
    Spec.quality g h lam s = qual lam (countIn cls s * ga + countOut cls s * gb) (countIn cls s * ha + countOut cls s * hb) := by
  unfold Spec.quality qual
  rw [sumOver_two fun i hi => H.grad i (hs i hi), sumOver_two fun i hi => H.hess i (hs i hi)]

theorem leftOf_mem {X : List (List ℝ)} {s : List Nat} {f : Nat} {θ : ℝ} {i : Nat} : i ∈ leftOf X s f θ ↔ i ∈ s ∧ val X i f ≤ θ := by
  simp [leftOf]

theorem rightOf_mem {X : List (List ℝ)} {s : List Nat} {f : Nat} {θ : ℝ} {i : Nat} : i ∈ rightOf X s f θ ↔ i ∈ s ∧ θ < val X i f := by
  simp [rightOf]

/-- a set of rows of one class only -/
def Pure (cls : Nat → Bool) (s : List Nat) : Prop := ∀ i ∈ s, ∀ j ∈ s, cls i = cls j

theorem pure_iff {cls : Nat → Bool} {s : List Nat} : Pure cls s ↔ countIn cls s = 0 ∨ countOut cls s = 0 := by
  rw [countIn_zero, countOut_zero]
  constructor
  · intro h
    by_contra hc
    push Not at hc
    obtain ⟨⟨i, hi, h1⟩, j, hj, h2⟩ := hc
    have := h i hi j hj
    cases hci : cls i <;> cases hcj : cls j <;> simp_all
  · rintro (h | h) i hi j hj <;> rw [h i hi, h j hj]

/-- the gain of a split between the classes is at least the gain of any other split, and more if a side is mixed -/
theorem TwoClass.gain_le {cls : Nat → Bool} {n : Nat} {g h : List ℝ} {ga gb ha hb lam gam : ℝ} (H : TwoClass cls n g h ga gb ha hb)
    (hl : 0 ≤ lam) {X : List (List ℝ)} {s : List Nat} (hs : ∀ i ∈ s, i < n) (f f0 : Nat) (θ θ0 : ℝ)
    (hL : Pure cls (leftOf X s f0 θ0)) (hR : Pure cls (rightOf X s f0 θ0)) (hmix : ¬ Pure cls s)
    (hbad : ¬ (Pure cls (leftOf X s f θ) ∧ Pure cls (rightOf X s f θ))) :
    xgbGain X g h lam gam s f θ < xgbGain X g h lam gam s f0 θ0 := by
  have hlm : ∀ f θ, ∀ i ∈ leftOf X s f θ, i < n := fun f θ i hi => hs i (leftOf_mem.1 hi).1
  have hrm : ∀ f θ, ∀ i ∈ rightOf X s f θ, i < n := fun f θ i hi => hs i (rightOf_mem.1 hi).1
  unfold xgbGain
  rw [H.quality lam (hlm f θ), H.quality lam (hrm f θ), H.quality lam (hlm f0 θ0), H.quality lam (hrm f0 θ0)]
  have c1 := countIn_split X cls s f θ
  have c2 := countOut_split X cls s f θ
  have d1 := countIn_split X cls s f0 θ0
  have d2 := countOut_split X cls s f0 θ0
  rw [pure_iff] at hL hR hmix
  rw [pure_iff, pure_iff] at hbad
  push Not at hmix
  -- the perfect split
  have hperf : qual lam (countIn cls (leftOf X s f0 θ0) * ga + countOut cls (leftOf X s f0 θ0) * gb)
        (countIn cls (leftOf X s f0 θ0) * ha + countOut cls (leftOf X s f0 θ0) * hb) +
      qual lam (countIn cls (rightOf X s f0 θ0) * ga + countOut cls (rightOf X s f0 θ0) * gb)
        (countIn cls (rightOf X s f0 θ0) * ha + countOut cls (rightOf X s f0 θ0) * hb) =
      qual lam (countIn cls s * ga) (countIn cls s * ha) + qual lam (countOut cls s * gb) (countOut cls s * hb) := by
    rcases hL with e1 | e1 <;> rcases hR with e2 | e2
    · omega
    · rw [e1, e2, show countIn cls (rightOf X s f0 θ0) = countIn cls s by omega,
        show countOut cls (leftOf X s f0 θ0) = countOut cls s by omega]
      simp only [Nat.cast_zero, zero_mul, zero_add, add_zero]
      exact add_comm _ _
    · rw [e1, e2, show countIn cls (leftOf X s f0 θ0) = countIn cls s by omega,
        show countOut cls (rightOf X s f0 θ0) = countOut cls s by omega]
      simp only [Nat.cast_zero, zero_mul, zero_add, add_zero]
    · omega
  have hmax := qual_max (ga := ga) (gb := gb) hl H.ha0 H.hb0 (Nat.cast_nonneg (countIn cls (leftOf X s f θ)))
    (Nat.cast_nonneg (countOut cls (leftOf X s f θ))) (Nat.cast_nonneg (countIn cls (rightOf X s f θ)))
    (Nat.cast_nonneg (countOut cls (rightOf X s f θ)))
  have e1 : (countIn cls s : ℝ) = countIn cls (leftOf X s f θ) + countIn cls (rightOf X s f θ) := by exact_mod_cast c1
  have e2 : (countOut cls s : ℝ) = countOut cls (leftOf X s f θ) + countOut cls (rightOf X s f θ) := by exact_mod_cast c2
  rw [← e1, ← e2] at hmax
  have l1 := qual_mix_le hl H.ga0 H.gb0 H.ha0 H.hb0 (Nat.cast_nonneg (countIn cls (leftOf X s f θ)))
    (Nat.cast_nonneg (countOut cls (leftOf X s f θ)))
  have l2 := qual_mix_le hl H.ga0 H.gb0 H.ha0 H.hb0 (Nat.cast_nonneg (countIn cls (rightOf X s f θ)))
    (Nat.cast_nonneg (countOut cls (rightOf X s f θ)))
  have hp : ∀ k : Nat, k ≠ 0 → (0 : ℝ) < k := fun k hk => by exact_mod_cast Nat.pos_of_ne_zero hk
  by_cases hb1 : countIn cls (leftOf X s f θ) = 0 ∨ countOut cls (leftOf X s f θ) = 0
  · have hb2 : ¬ (countIn cls (rightOf X s f θ) = 0 ∨ countOut cls (rightOf X s f θ) = 0) := fun h => hbad ⟨hb1, h⟩
    push Not at hb2
    have := qual_mix hl H.ga0 H.gb0 H.ha0 H.hb0 (hp _ hb2.1) (hp _ hb2.2)
    linarith
  · push Not at hb1
    have := qual_mix hl H.ga0 H.gb0 H.ha0 H.hb0 (hp _ hb1.1) (hp _ hb1.2)
    linarith

theorem TwoClass.gain_pos {cls : Nat → Bool} {n : Nat} {g h : List ℝ} {ga gb ha hb lam : ℝ} (H : TwoClass cls n g h ga gb ha hb)
    (hl : 0 ≤ lam) {X : List (List ℝ)} {s : List Nat} (hs : ∀ i ∈ s, i < n) (f0 : Nat) (θ0 : ℝ)
    (hL : Pure cls (leftOf X s f0 θ0)) (hR : Pure cls (rightOf X s f0 θ0)) (hmix : ¬ Pure cls s) :
    0 < xgbGain X g h lam 0 s f0 θ0 := by
  have hex : ∃ i ∈ s, ∃ j ∈ s, cls i ≠ cls j := by
    unfold Pure at hmix
    push Not at hmix
    exact hmix
  -- a split that leaves all rows on one side gains nothing or less
  obtain ⟨θ, hθ⟩ : ∃ θ : ℝ, ∀ i ∈ s, val X i f0 ≤ θ := by
    clear hex hmix hL hR hs
    induction s with
    | nil => exact ⟨0, by simp⟩
    | cons x s ih =>
      obtain ⟨θ, hθ⟩ := ih
      refine ⟨max θ (val X x f0), ?_⟩
      intro i hi
      rcases List.mem_cons.1 hi with rfl | hi
      · exact le_max_right _ _
      · exact (hθ i hi).trans (le_max_left _ _)
  have e1 : leftOf X s f0 θ = s := by
    unfold leftOf
    rw [List.filter_eq_self]
    intro i hi
    simpa using hθ i hi
  have e2 : rightOf X s f0 θ = [] := by
    unfold rightOf
    rw [List.filter_eq_nil_iff]
    intro i hi
    simpa using hθ i hi
  have := H.gain_le (gam := 0) hl hs f0 f0 θ θ0 hL hR hmix (by rw [e1]; exact fun h => hmix h.1)
  have h0 : xgbGain X g h lam 0 s f0 θ = 0 := by
    unfold xgbGain
    rw [e1, e2]
    simp [Spec.quality, sumOver]
  rwa [h0] at this

/-- a set of one class cannot be split with a gain -/
theorem TwoClass.gain_pure {cls : Nat → Bool} {n : Nat} {g h : List ℝ} {ga gb ha hb lam : ℝ} (H : TwoClass cls n g h ga gb ha hb)
    (hl : 0 ≤ lam) {X : List (List ℝ)} {s : List Nat} (hs : ∀ i ∈ s, i < n) (hp : Pure cls s) (f : Nat) (θ : ℝ) :
    xgbGain X g h lam 0 s f θ ≤ 0 := by
  have c1 := countIn_split X cls s f θ
  have c2 := countOut_split X cls s f θ
  unfold xgbGain
  rw [H.quality lam fun i hi => hs i (leftOf_mem.1 hi).1, H.quality lam fun i hi => hs i (rightOf_mem.1 hi).1, H.quality lam hs]
  have e1 : (countIn cls s : ℝ) = countIn cls (leftOf X s f θ) + countIn cls (rightOf X s f θ) := by exact_mod_cast c1
  have e2 : (countOut cls s : ℝ) = countOut cls (leftOf X s f θ) + countOut cls (rightOf X s f θ) := by exact_mod_cast c2
  rcases pure_iff.1 hp with h0 | h0
  · have z1 : countIn cls (leftOf X s f θ) = 0 := by omega
    have z2 : countIn cls (rightOf X s f θ) = 0 := by omega
    have := qual_add (g := gb) hl H.hb0 (Nat.cast_nonneg (countOut cls (leftOf X s f θ))) (Nat.cast_nonneg (countOut cls (rightOf X s f θ)))
    rw [h0, z1, z2, e2]
    simp only [Nat.cast_zero, zero_mul, zero_add]
    linarith
  · have z1 : countOut cls (leftOf X s f θ) = 0 := by omega
    have z2 : countOut cls (rightOf X s f θ) = 0 := by omega
    have := qual_add (g := ga) hl H.ha0 (Nat.cast_nonneg (countIn cls (leftOf X s f θ))) (Nat.cast_nonneg (countIn cls (rightOf X s f θ)))
    rw [h0, z1, z2, e1]
    simp only [Nat.cast_zero, zero_mul, add_zero]
    linarith

/-! ### the tree of a class -/

/-- The tree has two leaves, one for every class. -/
structure Stump (cls : Nat → Bool) (n : Nat) (t : Tree (Exact ℝ)) (va vb : ℝ) : Prop where
  two : t.leaves.length = 2
  pure : ∀ leaf ∈ t.leaves, Pure cls leaf.samples
  value : ∀ leaf ∈ t.leaves, ∀ i ∈ leaf.samples, leaf.value = .fin (if cls i then va else vb)
  all : ∀ i < n, ∃ leaf ∈ t.leaves, i ∈ leaf.samples
  range : ∀ leaf ∈ t.leaves, ∀ i ∈ leaf.samples, i < n

theorem pure_leaf {S : GoSort} {X : List (List ℝ)} {o : TreeOptions (Exact ℝ)} {d : Nat} {t : Tree (Exact ℝ)} {cls : Nat → Bool}
    {g h : List ℝ} {ga gb ha hb lam : ℝ} (H : TwoClass cls X.length g h ga gb ha hb) (hl : 0 ≤ lam) (hp : HessOk h lam)
    (ht : newTreeD S (finRows X) d o = .ok t) (hi : XgbInput o g h lam 0) (hr : ∀ i ∈ o.idx (finRows X), i < X.length)
    (hpure : Pure cls (o.idx (finRows X))) : ∃ i, t = .node i .nil .nil ∧ i.samples = o.idx (finRows X) := by
  cases t with
  | nil => exact absurd rfl (newTree_ne_nil ht)
  | node i l r =>
    have hsam := (mkInfo_samples ht).1
    by_cases hl' : l = .nil
    · obtain ⟨v, row0, _, _, _, ⟨_, h2⟩ | ⟨_, best, _, _, _, h2⟩ |
        ⟨d'', best, col, tl, tr, _, _, _, hc, h3, h4, h2⟩⟩ := newTreeD_inv _ _ _ _ _ ht
      · cases h2; exact ⟨_, rfl, hsam⟩
      · cases h2; exact ⟨_, rfl, hsam⟩
      · cases h2; exact absurd hl' (newTree_ne_nil h3)
    · obtain ⟨θ, _, _, _, h4, _⟩ := node_split_xgb ht hl' hi hp
      rw [hsam] at h4
      exact absurd (H.gain_pure hl hr hpure _ _) (not_le.2 h4)

theorem stump_of {S : GoSort} {X : List (List ℝ)} {o : TreeOptions (Exact ℝ)} {t : Tree (Exact ℝ)} {cls : Nat → Bool}
    {g h : List ℝ} {ga gb ha hb lam : ℝ} (H : TwoClass cls X.length g h ga gb ha hb) (hl : 0 ≤ lam) (hhl : h.length = X.length)
    (ht : newTree S (finRows X) o = .ok t) (hi : XgbInput o g h lam 0) (hac : o.allowedColumns = [])
    (hrows : o.indexes = none) (hdep : 1 ≤ o.maxDepth) (row0 : List ℝ) (hr0 : X[0]? = some row0) (f0 : Nat) (hf0 : f0 < row0.length)
    (θ0 : ℝ) (hadm : Admissible X (toInt o.minChildWeight) (List.range X.length) f0 θ0)
    (hL : Pure cls (leftOf X (List.range X.length) f0 θ0)) (hR : Pure cls (rightOf X (List.range X.length) f0 θ0))
    (hmix : ¬ Pure cls (List.range X.length)) :
    Stump cls X.length t (-(countIn cls (List.range X.length) * ga) / (countIn cls (List.range X.length) * ha + lam))
      (-(countOut cls (List.range X.length) * gb) / (countOut cls (List.range X.length) * hb + lam)) := by
  have hlen : (finRows X).length = X.length := by simp [finRows]
  have hidx : o.idx (finRows X) = List.range X.length := by
    unfold TreeOptions.idx
    rw [hrows, hlen]
    rfl
  have hrange : ∀ i ∈ List.range X.length, i < X.length := fun i h => List.mem_range.1 h
  have hp : HessOk h lam := by
    intro v hv
    obtain ⟨i, hi, rfl⟩ := List.getElem_of_mem hv
    have := H.hess i (by omega)
    rw [getD_get hi] at this
    rw [this]
    split
    · exact ⟨H.ha0.le, by linarith [H.ha0]⟩
    · exact ⟨H.hb0.le, by linarith [H.hb0]⟩
  cases t with
  | nil => exact absurd rfl (newTree_ne_nil ht)
  | node i l r =>
    have hsam := (mkInfo_samples ht).1
    rw [hidx] at hsam
    by_cases hl' : l = .nil
    · exfalso
      have hr : r = .nil := by
        obtain ⟨v, row0, _, _, _, ⟨_, h2⟩ | ⟨_, best, _, _, _, h2⟩ |
          ⟨d'', best, col, tl, tr, _, _, _, hc, h3, h4, h2⟩⟩ := newTreeD_inv _ _ _ _ _ ht
        · cases h2; rfl
        · cases h2; rfl
        · cases h2; exact absurd hl' (newTree_ne_nil h3)
      subst hl' hr
      have := C07_xgb_leaf S X o _ g h lam 0 ht hi hp [] i rfl (by simp; omega) row0 hr0 f0 hf0 (fun _ => Or.inl hac) θ0
        (by rw [hsam]; exact hadm)
      rw [hsam] at this
      exact absurd this (not_le.2 (H.gain_pos hl hrange f0 θ0 hL hR hmix))
    · obtain ⟨θ, hθ, h2, h3, h4, d', hbl, hbr⟩ := node_split_xgb ht hl' hi hp
      obtain ⟨θ', hθ', _, _, h5⟩ := C07_xgb_split S X o _ g h lam 0 ht hi hp [] i l r rfl hl'
      have hθθ : θ' = θ := fin_inj (hθ'.symm.trans hθ)
      subst hθθ
      have hbest := h5 row0 hr0 f0 hf0 (fun _ => Or.inl hac) θ0 (by rw [hsam]; exact hadm)
      rw [hsam] at hbest h2 hbl hbr
      have hpp : Pure cls (leftOf X (List.range X.length) i.splitFeatureIndex θ') ∧
          Pure cls (rightOf X (List.range X.length) i.splitFeatureIndex θ') := by
        by_contra hbad
        exact absurd hbest (not_le.2 (H.gain_le hl hrange _ f0 θ' θ0 hL hR hmix hbad))
      have hchild : ∀ s, Inherit (finRows X) o (o.child (finRows X) s) := fun s => Inherit.child _ _ _
      have hlm : ∀ j ∈ leftOf X (List.range X.length) i.splitFeatureIndex θ', j < X.length :=
        fun j hj => hrange j (leftOf_mem.1 hj).1
      have hrm : ∀ j ∈ rightOf X (List.range X.length) i.splitFeatureIndex θ', j < X.length :=
        fun j hj => hrange j (rightOf_mem.1 hj).1
      obtain ⟨il, rfl, hil⟩ := pure_leaf H hl hp hbl (hi.inherit (hchild _)) (by rw [child_idx]; exact hlm) (by rw [child_idx]; exact hpp.1)
      obtain ⟨ir, rfl, hir⟩ := pure_leaf H hl hp hbr (hi.inherit (hchild _)) (by rw [child_idx]; exact hrm) (by rw [child_idx]; exact hpp.2)
      rw [child_idx] at hil hir
      have hnl : leftOf X (List.range X.length) i.splitFeatureIndex θ' ≠ [] := by
        intro h0
        have := h2.1
        rw [h0] at this
        simp at this
      have hnr : rightOf X (List.range X.length) i.splitFeatureIndex θ' ≠ [] := by
        intro h0
        have := h2.2
        rw [h0] at this
        simp at this
      have c1 := countIn_split X cls (List.range X.length) i.splitFeatureIndex θ'
      have c2 := countOut_split X cls (List.range X.length) i.splitFeatureIndex θ'
      have hmix' : countIn cls (List.range X.length) ≠ 0 ∧ countOut cls (List.range X.length) ≠ 0 := by
        rw [pure_iff] at hmix
        push Not at hmix
        exact hmix
      -- value of a pure leaf that holds all rows of its class
      have hval : ∀ (path : List Bool) (k : NodeInfo (Exact ℝ)), (Tree.node i (.node il .nil .nil) (.node ir .nil .nil)).sub path = .node k .nil .nil →
          (∀ j ∈ k.samples, j < X.length) →
          (countIn cls k.samples = countIn cls (List.range X.length) ∧ countOut cls k.samples = 0 ∨
            countIn cls k.samples = 0 ∧ countOut cls k.samples = countOut cls (List.range X.length)) →
          ∀ j ∈ k.samples, k.value = .fin (if cls j then
            -(countIn cls (List.range X.length) * ga) / (countIn cls (List.range X.length) * ha + lam)
            else -(countOut cls (List.range X.length) * gb) / (countOut cls (List.range X.length) * hb + lam)) := by
        intro path k hsub hkr hc j hj
        have hH : 0 < sumOver h k.samples := sumOver_pos_of (List.ne_nil_of_mem hj) fun u hu => by
          rw [H.hess u (hkr u hu)]
          split
          · exact H.ha0
          · exact H.hb0
        have hv := (C09_value_optimal S X o _ g h lam 0 ht hi path k _ _ hsub (by linarith)).1
        rw [hv, sumOver_two fun u hu => H.grad u (hkr u hu), sumOver_two fun u hu => H.hess u (hkr u hu)]
        rcases hc with ⟨e1, e2⟩ | ⟨e1, e2⟩
        · rw [if_pos (countOut_zero.1 e2 j hj), e1, e2]
          simp only [Nat.cast_zero, zero_mul, add_zero]
        · rw [if_neg (by rw [countIn_zero.1 e1 j hj]; simp), e1, e2]
          simp only [Nat.cast_zero, zero_mul, zero_add]
      have hcount : (countIn cls il.samples = countIn cls (List.range X.length) ∧ countOut cls il.samples = 0 ∧
          countIn cls ir.samples = 0 ∧ countOut cls ir.samples = countOut cls (List.range X.length)) ∨
          (countIn cls il.samples = 0 ∧ countOut cls il.samples = countOut cls (List.range X.length) ∧
          countIn cls ir.samples = countIn cls (List.range X.length) ∧ countOut cls ir.samples = 0) := by
        rw [hil, hir]
        rcases pure_iff.1 hpp.1 with e1 | e1 <;> rcases pure_iff.1 hpp.2 with e2 | e2 <;> omega
      have hlv : (Tree.node i (.node il .nil .nil) (.node ir .nil .nil)).leaves = [il, ir] := rfl
      refine ⟨by rw [hlv]; rfl, ?_, ?_, ?_, ?_⟩
      · rw [hlv]
        intro leaf hlf
        simp only [List.mem_cons, List.not_mem_nil, or_false] at hlf
        rcases hlf with rfl | rfl
        · rw [hil]; exact hpp.1
        · rw [hir]; exact hpp.2
      · rw [hlv]
        intro leaf hlf
        simp only [List.mem_cons, List.not_mem_nil, or_false] at hlf
        rcases hlf with rfl | rfl
        · exact hval [true] _ rfl (by rw [hil]; exact hlm) (by tauto)
        · exact hval [false] _ rfl (by rw [hir]; exact hrm) (by tauto)
      · rw [hlv]
        intro j hj
        by_cases hv : val X j i.splitFeatureIndex ≤ θ'
        · exact ⟨il, by simp, by rw [hil]; exact leftOf_mem.2 ⟨List.mem_range.2 hj, hv⟩⟩
        · exact ⟨ir, by simp, by rw [hir]; exact rightOf_mem.2 ⟨List.mem_range.2 hj, not_le.1 hv⟩⟩
      · rw [hlv]
        intro leaf hlf
        simp only [List.mem_cons, List.not_mem_nil, or_false] at hlf
        rcases hlf with rfl | rfl
        · rw [hil]; exact hlm
        · rw [hir]; exact hrm

/-! ### the training loops -/

/-- what is needed of options and data, besides `RealSetup` -/
structure SepSetup (X : List (List ℝ)) (O : Options (Exact ℝ)) (ohe : Dense (Exact ℝ)) (n : Nat) (c : Nat → Nat)
    (lr lam : ℝ) (f0 : Nat) (θ0 : ℝ) : Prop where
  lrEq : O.learningRate = .fin lr
  lr0 : 0 < lr
  lamEq : O.lambda = .fin lam
  lam0 : 0 ≤ lam
  gamEq : O.gamma = .fin 0
  xgb : O.xgb = true
  dep : 1 ≤ O.maxDepth
  row : rowSub O = false
  col : colSub O = false
  stop : O.earlyStop ≤ 0
  wid : ∃ row0, X[0]? = some row0 ∧ f0 < row0.length
  cls : ∀ i < n, c i < 2
  side : ∀ i < n, ∀ j < n, (c i = c j ↔ (val X i f0 ≤ θ0 ↔ val X j f0 ≤ θ0))
  adm : Admissible X (toInt O.minChildWeight) (List.range n) f0 θ0
  ohe : ∀ k y, k < 2 → denseCol ohe k = .ok y → ∃ y' : List ℝ, y = finV y' ∧ y'.length = n ∧
    ∀ i < n, y'.getD i 0 = if c i = k then 1 else 0
  loss : ∀ lv, O.loss = some lv → lv.fn = sqErrLoss ∨ lv.fn = mseLoss

/-- rows of the same class have the same scores -/
def Even (n : Nat) (c : Nat → Nat) (st : TrainState (Exact ℝ)) : Prop :=
  ∀ i < n, ∀ j < n, c i = c j → st.rawPred.row i = st.rawPred.row j

/-- a tree with two leaves, each with the rows of one class -/
def TwoLeaves (n : Nat) (c : Nat → Nat) (t : Tree (Exact ℝ)) : Prop :=
  t.leaves.length = 2 ∧ ∀ leaf ∈ t.leaves, ∀ i ∈ leaf.samples, i < n ∧ ∀ j ∈ leaf.samples, c i = c j

theorem ClassStep.sepX {S : GoSort} {X : List (List ℝ)} {O : Options (Exact ℝ)} {ohe : Dense (Exact ℝ)} {n : Nat}
    {one : Prop} (hs : RealSetup X O ohe n 2 one) {c : Nat → Nat} {base lr lam : ℝ} {f0 : Nat} {θ0 : ℝ}
    (hL : SepSetup X O ohe n c lr lam f0 θ0) {round : Nat} {st st' : TrainState (Exact ℝ)} {k : Nat} {tree : Tree (Exact ℝ)}
    (s : ClassStep expR S (finRows X) O ohe none [] round st st' k tree) (hi : TInv expR n 2 st)
    (hr : ∀ i < n, AllFin (st.rawPred.row i)) (hk : k < 2) {r : Nat → Nat} (h : Apart n 2 c base lr 0 r st) (he : Even n c st) :
    Apart n 2 c base lr 0 (Function.update r k (r k + 1)) st' ∧ Even n c st' ∧ TwoLeaves n c tree := by
  obtain ⟨y, hy, hyl, hyv⟩ := hL.ohe k _ hk s.hy
  obtain ⟨p, hp, hpl, hpv, hps⟩ := probs_col_val hi hr hs.pos hk s.hp
  have hp1 : ∀ v ∈ p, v < 1 := by
    obtain ⟨q, hq, _, hq2⟩ := probs_col hi hr hs.pos hk s.hp
    have : q = p := by
      have h2 := hq.symm.trans hp
      rw [← map_realOf q, h2, map_realOf]
    subst this
    intro v hv
    exact (hq2 v hv).2.resolve_right (by omega)
  have hd : (finRows X).length = n := by simp [finRows, hs.len]
  obtain ⟨_, _, _, h4⟩ := s.inv hi hd hk
  have ht := s.htree
  rw [hy, hp] at ht
  obtain ⟨hg1, _⟩ := grad_fin y p (by omega)
  have hpm : ∀ i < n, p.getD i 0 ∈ p := by
    intro i hin
    rw [getD_get (by omega)]
    exact List.getElem_mem _
  have hgi : ∀ i < n, (List.zipWith (fun a b : ℝ => b - a) y p).getD i 0 = p.getD i 0 - (if c i = k then 1 else 0) := by
    intro i hin
    rw [← hyv i hin]
    simp [List.getD_eq_getElem?_getD, List.getElem?_zipWith, hyl, hpl, hin]
  have hpe : ∀ i < n, ∀ j < n, c i = c j → p.getD i 0 = p.getD j 0 := by
    intro i hin j hjn hc
    rw [hps i hin, hps j hjn, he i hin j hjn hc]
  -- a row of the class and another one
  obtain ⟨u, hun, v, hvn, huv⟩ : ∃ u < n, ∃ v < n, c u ≠ c v := by
    obtain ⟨h1, h2⟩ := hL.adm
    obtain ⟨u, hu⟩ := List.exists_mem_of_length_pos (l := leftOf X (List.range n) f0 θ0) (by omega)
    obtain ⟨v, hv⟩ := List.exists_mem_of_length_pos (l := rightOf X (List.range n) f0 θ0) (by omega)
    obtain ⟨u1, u2⟩ := leftOf_mem.1 hu
    obtain ⟨v1, v2⟩ := rightOf_mem.1 hv
    rw [List.mem_range] at u1 v1
    refine ⟨u, u1, v, v1, fun hc => ?_⟩
    exact absurd (((hL.side u u1 v v1).1 hc).1 u2) (not_le.2 v2)
  obtain ⟨a, han, hak, b, hbn, hbk⟩ : ∃ a, a < n ∧ c a = k ∧ ∃ b, b < n ∧ c b ≠ k := by
    have := hL.cls u hun
    have := hL.cls v hvn
    by_cases hc : c u = k
    · exact ⟨u, hun, hc, v, hvn, by omega⟩
    · exact ⟨v, hvn, by omega, u, hun, hc⟩
  have hrest : ∀ i < n, (c i = k → c i = c a) ∧ (c i ≠ k → c i = c b) := by
    intro i hin
    have := hL.cls i hin
    have := hL.cls b hbn
    omega
  have hpa := hpv _ (hpm a han)
  have hpa1 := hp1 _ (hpm a han)
  have hpb := hpv _ (hpm b hbn)
  have hpb1 := hp1 _ (hpm b hbn)
  obtain ⟨hess, ha, hb, e1, e2, e3, e4⟩ : ∃ (hess : List ℝ) (ha hb : ℝ), hess.length = X.length ∧ s.lv.fn.hessian (finV p) = finV hess ∧
      s.lv.fn.gradients (finV y) (finV p) = .ok (finV (List.zipWith (fun a b => b - a) y p)) ∧
      TwoClass (fun i => decide (c i = k)) n (List.zipWith (fun a b => b - a) y p) hess (p.getD a 0 - 1) (p.getD b 0) ha hb := by
    have hgr : ∀ i < n, (List.zipWith (fun a b : ℝ => b - a) y p).getD i 0 =
        if decide (c i = k) = true then p.getD a 0 - 1 else p.getD b 0 := by
      intro i hin
      rw [hgi i hin]
      by_cases hc : c i = k
      · simp only [hc, decide_true, if_true]
        rw [hpe i hin a han ((hrest i hin).1 hc)]
      · simp only [hc, decide_false, if_false, sub_zero, Bool.false_eq_true]
        exact hpe i hin b hbn ((hrest i hin).2 hc)
    rcases hL.loss _ s.hlv with hl | hl
    · rw [hl]
      refine ⟨p.map fun _ => 1, 1, 1, by simp [hpl, hs.len], by simp [sqErrLoss, finV], hg1, hgr, ?_, by linarith, hpb.1, by norm_num, by norm_num⟩
      intro i hin
      rw [getD_get (by simpa [hpl] using hin), List.getElem_map]
      simp
    · rw [hl]
      refine ⟨p.map fun v => (1 - v) * v, (1 - p.getD a 0) * p.getD a 0, (1 - p.getD b 0) * p.getD b 0, by simp [hpl, hs.len],
        by simp [mseLoss, finV], hg1, hgr, ?_, by linarith, hpb.1, mul_pos (by linarith) hpa.1, mul_pos (by linarith) hpb.1⟩
      intro i hin
      rw [getD_get (by simpa [hpl] using hin), List.getElem_map]
      have hpi : p[i]'(by omega) = p.getD i 0 := by rw [getD_get (by omega)]
      rw [hpi]
      by_cases hc : c i = k
      · simp only [hc, decide_true, if_true]
        rw [hpe i hin a han ((hrest i hin).1 hc)]
      · simp only [hc, decide_false, Bool.false_eq_true, if_false]
        rw [hpe i hin b hbn ((hrest i hin).2 hc)]
  have hlen := hs.len
  unfold classTree at ht
  rw [if_pos hL.xgb, e2, e3] at ht
  obtain ⟨g', hg', ht⟩ := bind_ok ht
  cases hg'
  obtain ⟨row0, hr0, hf0⟩ := hL.wid
  subst hlen
  have hpur : ∀ s : List Nat, (∀ i ∈ s, ∀ j ∈ s, c i = c j) → Pure (fun i => decide (c i = k)) s := by
    intro s hcs i hi j hj
    simp only [hcs i hi j hj]
  have hst := stump_of e4 hL.lam0 e1 ht ⟨rfl, rfl, rfl, hL.lamEq, hL.gamEq⟩ rfl rfl hL.dep row0 hr0 f0 hf0 θ0 hL.adm
    (hpur _ fun i hi j hj => by
      obtain ⟨i1, i2⟩ := leftOf_mem.1 hi
      obtain ⟨j1, j2⟩ := leftOf_mem.1 hj
      exact (hL.side i (List.mem_range.1 i1) j (List.mem_range.1 j1)).2 (by simp [i2, j2]))
    (hpur _ fun i hi j hj => by
      obtain ⟨i1, i2⟩ := rightOf_mem.1 hi
      obtain ⟨j1, j2⟩ := rightOf_mem.1 hj
      exact (hL.side i (List.mem_range.1 i1) j (List.mem_range.1 j1)).2 (by simp [not_le.2 i2, not_le.2 j2]))
    (by
      intro hP
      have := hP a (List.mem_range.2 han) b (List.mem_range.2 hbn)
      simp [hak, hbk] at this)
  set va : ℝ := -(countIn (fun i => decide (c i = k)) (List.range X.length) * (p.getD a 0 - 1)) /
    (countIn (fun i => decide (c i = k)) (List.range X.length) * ha + lam) with hva
  set vb : ℝ := -(countOut (fun i => decide (c i = k)) (List.range X.length) * p.getD b 0) /
    (countOut (fun i => decide (c i = k)) (List.range X.length) * hb + lam) with hvb
  have hca : (0 : ℝ) < countIn (fun i => decide (c i = k)) (List.range X.length) := by
    have : countIn (fun i => decide (c i = k)) (List.range X.length) ≠ 0 := by
      rw [Ne, countIn_zero]
      intro h0
      have := h0 a (List.mem_range.2 han)
      simp [hak] at this
    exact_mod_cast Nat.pos_of_ne_zero this
  have hcb : (0 : ℝ) < countOut (fun i => decide (c i = k)) (List.range X.length) := by
    have : countOut (fun i => decide (c i = k)) (List.range X.length) ≠ 0 := by
      rw [Ne, countOut_zero]
      intro h0
      have := h0 b (List.mem_range.2 hbn)
      simp [hbk] at this
    exact_mod_cast Nat.pos_of_ne_zero this
  have hlam := hL.lam0
  have hva0 : 0 < va := div_pos (by nlinarith) (by have := mul_pos hca e4.ha0; linarith)
  have hvb0 : vb < 0 := div_neg_of_neg_of_pos (by nlinarith [hpb.1]) (by have := mul_pos hcb e4.hb0; linarith)
  have hpred : ∀ i < X.length, ∀ row, (finRows X)[i]? = some row →
      tree.predictSingle row = .ok (.fin (if c i = k then va else vb)) := by
    intro i hin row hrow
    obtain ⟨leaf, hlf, hil⟩ := hst.all i hin
    rw [C04_training_row S (finRows X) _ tree ht leaf hlf i hil row hrow, hst.value leaf hlf i hil]
    simp
  have hrow' : ∀ i < X.length, ∃ x, (st.rawPred.row i)[k]? = some (XF.fin x) ∧
      st'.rawPred.row i = (st.rawPred.row i).set k (XF.fin (x + lr * (if c i = k then va else vb))) := by
    intro i hin
    obtain ⟨x, hx, _⟩ := h i hin k hk
    have hget := List.getElem?_eq_getElem (show i < (finRows X).length by rw [hd]; exact hin)
    obtain ⟨w', d, h1, h2, h3⟩ := h4 i _ hget
    rw [hpred i hin _ hget] at h1
    obtain rfl := Except.ok.inj h1
    rw [hx] at h2
    obtain rfl := Option.some.inj h2
    refine ⟨x, hx, ?_⟩
    rw [h3, hL.lrEq, Exact.mul_fin, Exact.add_fin, mul_comm]
  refine ⟨?_, ?_, hst.two, ?_⟩
  · intro i hin j hj
    obtain ⟨x, hx, hx1, hx2⟩ := h i hin j hj
    obtain ⟨x', hx', hset⟩ := hrow' i hin
    rw [hset]
    by_cases hjk : j = k
    · subst hjk
      rw [hx] at hx'
      obtain rfl := fin_inj (Option.some.inj hx')
      have hjl := (List.getElem?_eq_some_iff.1 hx).1
      refine ⟨_, List.getElem?_set_self hjl, ?_, ?_⟩
      · intro hc
        have a1 := hx1 hc
        have a2 := mul_pos hL.lr0 hva0
        rw [if_pos hc]
        simp only [mul_zero, zero_mul, add_zero] at a1 ⊢
        linarith
      · intro hc
        have a1 := (hx2 hc).1
        have a2 := mul_neg_of_pos_of_neg hL.lr0 hvb0
        rw [if_neg hc]
        simp only [mul_zero, zero_mul, sub_zero] at a1 ⊢
        exact ⟨by linarith, fun _ => by linarith⟩
    · refine ⟨x, ?_, ?_, ?_⟩
      · rw [List.getElem?_set_ne (Ne.symm hjk)]
        exact hx
      · rw [Function.update_of_ne hjk]
        exact hx1
      · rw [Function.update_of_ne hjk]
        exact hx2
  · intro i hin j hjn hc
    obtain ⟨x, hx, hset⟩ := hrow' i hin
    obtain ⟨z, hz, hset'⟩ := hrow' j hjn
    have hrr := he i hin j hjn hc
    rw [hrr, hz] at hx
    obtain rfl := fin_inj (Option.some.inj hx)
    rw [hset, hset', hrr, hc]
  · intro leaf hlf i hil
    refine ⟨hst.range leaf hlf i hil, fun j hjl => ?_⟩
    have h1 := hst.pure leaf hlf i hil j hjl
    have := hL.cls i (hst.range leaf hlf i hil)
    have := hL.cls j (hst.range leaf hlf j hjl)
    simp only [decide_eq_decide] at h1
    omega

theorem trainClasses_sepX {S : GoSort} {X : List (List ℝ)} {O : Options (Exact ℝ)} {ohe : Dense (Exact ℝ)} {n : Nat}
    {one : Prop} (hs : RealSetup X O ohe n 2 one) {c : Nat → Nat} {base lr lam : ℝ} {f0 : Nat} {θ0 : ℝ}
    (hL : SepSetup X O ohe n c lr lam f0 θ0) {round : Nat} (q : Nat) (hq : q ≤ 2) (st : TrainState (Exact ℝ))
    (acc' : TrainState (Exact ℝ) × List (Tree (Exact ℝ)))
    (h : (List.range q).foldlM (trainClass (softMaxDense expR) S (finRows X) O ohe none [] round) (st, []) = .ok acc')
    (hi : TInv expR n 2 st) (hr : ∀ i < n, AllFin (st.rawPred.row i)) (hst : ∀ k, st.stopped.getD k false = false)
    {R : Nat} (hsep : Apart n 2 c base lr 0 (fun _ => R) st) (he : Even n c st) :
    Apart n 2 c base lr 0 (fun k => if k < q then R + 1 else R) acc'.1 ∧ Even n c acc'.1 ∧ ∀ t ∈ acc'.2, TwoLeaves n c t := by
  have hd : (finRows X).length = n := by simp [finRows, hs.len]
  induction q generalizing acc' with
  | zero =>
    simp only [List.range_zero, List.foldlM_nil, pure, Except.pure, Except.ok.injEq] at h
    subst h
    exact ⟨hsep.congr (by simp) rfl, he, by simp⟩
  | succ q ih =>
    rw [List.range_succ, List.foldlM_append] at h
    obtain ⟨acc, h1, h2⟩ := bind_ok h
    rw [List.foldlM_cons] at h2
    obtain ⟨acc'', h3, h4⟩ := bind_ok h2
    simp only [List.foldlM_nil, pure, Except.pure, Except.ok.injEq] at h4
    subst h4
    obtain ⟨a1, _⟩ := trainClasses_inv hd q (by omega) st acc h1 hi
    obtain ⟨b1, _⟩ := trainClasses_real hs (fun l h => by cases h) q (by omega) st acc h1 hi hr
    obtain ⟨_, c2⟩ := trainClasses_off hL.stop q st acc hst h1
    obtain ⟨hb, hbe, hbt⟩ := ih (by omega) acc h1
    rcases trainClass_inv h3 with ⟨hstop, rfl⟩ | ⟨_, tree, ht, ⟨s⟩⟩
    · rw [c2, hst] at hstop
      cases hstop
    · obtain ⟨r1, r2, r3⟩ := s.sepX hs hL a1 b1 (by omega) hb hbe
      refine ⟨r1.congr ?_ rfl, r2, ?_⟩
      · intro k hk
        by_cases hkq : k = q
        · subst hkq
          rw [Function.update_self, if_pos (by omega), if_neg (by omega)]
        · rw [Function.update_of_ne hkq]
          by_cases hlt : k < q
          · rw [if_pos (by omega), if_pos hlt]
          · rw [if_neg (by omega), if_neg hlt]
      · rw [ht]
        intro t htm
        rcases List.mem_append.1 htm with h | h
        · exact hbt t h
        · rw [List.mem_singleton.1 h]
          exact r3

theorem trainRounds_sepX {S : GoSort} {X : List (List ℝ)} {O : Options (Exact ℝ)} {ohe : Dense (Exact ℝ)} {n : Nat}
    {one : Prop} (hs : RealSetup X O ohe n 2 one) {c : Nat → Nat} {base lr lam : ℝ} {f0 : Nat} {θ0 : ℝ}
    (hL : SepSetup X O ohe n c lr lam f0 θ0) (l : List Nat) {st st' : TrainState (Exact ℝ)}
    (h : l.foldlM (trainRound (softMaxDense expR) S (finRows X) O ohe 2) st = .ok st')
    (hi : TInv expR n 2 st) (hr : ∀ i < n, AllFin (st.rawPred.row i)) (hst : ∀ k, st.stopped.getD k false = false)
    (hsep : Apart n 2 c base lr 0 (fun _ => st.boosters.length) st) (he : Even n c st)
    (hb : ∀ ens ∈ st.boosters, ∀ t ∈ ens, TwoLeaves n c t) :
    Apart n 2 c base lr 0 (fun _ => st'.boosters.length) st' ∧ ∀ ens ∈ st'.boosters, ∀ t ∈ ens, TwoLeaves n c t := by
  have hd : (finRows X).length = n := by simp [finRows, hs.len]
  induction l generalizing st with
  | nil =>
    simp only [List.foldlM_nil, pure, Except.pure, Except.ok.injEq] at h
    subst h
    exact ⟨hsep, hb⟩
  | cons a l ih =>
    rw [List.foldlM_cons] at h
    obtain ⟨st1, h1, h2⟩ := bind_ok h
    obtain ⟨t1, _, _⟩ := trainRound_step h1 hi hd
    obtain ⟨idx, cols, draws, hsam, hcase⟩ := trainRound_inv h1
    have hidx : idx = none := by
      have := (roundSamples_inv hsam).2
      rw [hL.row] at this
      simpa using this
    have hcols : cols = [] := by
      have := roundSamples_cols hsam
      rw [hL.col] at this
      simpa using this
    subst hidx hcols
    rcases hcase with ⟨_, rfl⟩ | ⟨_, acc, hacc, rfl⟩
    · exact ih h2 t1 hr hst hsep he hb
    · have hsep' : Apart n 2 c base lr 0 (fun _ => st.boosters.length) { st with draws := draws } := hsep
      obtain ⟨hc, hce, hct⟩ := trainClasses_sepX hs hL 2 le_rfl { st with draws := draws } acc hacc (hi.draws draws) hr hst hsep' he
      have hr' := (trainClasses_real hs (fun l h => by cases h) 2 le_rfl { st with draws := draws } acc hacc (hi.draws draws) hr).1
      obtain ⟨_, e2, _⟩ := trainClasses_inv hd 2 le_rfl _ acc hacc (hi.draws draws)
      obtain ⟨_, c2⟩ := trainClasses_off hL.stop 2 { st with draws := draws } acc hst hacc
      refine ih h2 t1 hr' (fun k => by simp only [c2]; exact hst k) (hc.congr ?_ rfl) hce ?_
      · intro k hk
        rw [if_pos hk]
        simp only [e2, List.length_append, List.length_singleton]
      · intro ens hens
        simp only [e2] at hens
        rcases List.mem_append.1 hens with h | h
        · exact hb ens h
        · rw [List.mem_singleton.1 h]
          exact hct

end Boo
