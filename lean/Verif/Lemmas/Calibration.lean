import Verif.Lemmas.LogLoss
import Verif.Lemmas.Memorize

/-!
# How much a round lowers the loss, and what that says about the residuals
-/

namespace Boo
open GoFloat Spec
set_option linter.unusedSectionVars false

/-! ### the energy of a tree -/

/-- `(sum of the residuals)²/(number + lam)` -/
noncomputable def resQ (r : List ℝ) (lam : ℝ) (s : List Nat) : ℝ := sumOver r s ^ 2 / (s.length + lam)

/-- the sum of `resQ` over the leaves -/
noncomputable def energy (r : List ℝ) (lam : ℝ) (t : Tree (Exact ℝ)) : ℝ :=
  (t.leaves.map fun leaf => resQ r lam leaf.samples).sum

theorem resQ_nonneg (r : List ℝ) {lam : ℝ} (h : 0 ≤ lam) (s : List Nat) : 0 ≤ resQ r lam s :=
  div_nonneg (sq_nonneg _) (by positivity)

theorem energy_nonneg (r : List ℝ) {lam : ℝ} (h : 0 ≤ lam) (t : Tree (Exact ℝ)) : 0 ≤ energy r lam t :=
  List.sum_nonneg fun x hx => by
    obtain ⟨leaf, _, rfl⟩ := List.mem_map.1 hx
    exact resQ_nonneg r h _

theorem resQ_le_energy (r : List ℝ) {lam : ℝ} (h : 0 ≤ lam) (t : Tree (Exact ℝ)) : ∀ leaf ∈ t.leaves,
    resQ r lam leaf.samples ≤ energy r lam t := fun leaf hl =>
  List.single_le_sum (fun x hx => by
    obtain ⟨leaf, _, rfl⟩ := List.mem_map.1 hx
    exact resQ_nonneg r h _) _ (List.mem_map.2 ⟨leaf, hl, rfl⟩)

/-- the leaf values lower the quadratic bound of the loss by a multiple of the energy, and are bounded by the energy -/
theorem leaf_energy {S : GoSort} {X : List (List ℝ)} {o : TreeOptions (Exact ℝ)} {t : Tree (Exact ℝ)}
    (hb : newTree S (finRows X) o = .ok t) (hrows : trainingRows (finRows X) o = List.range X.length) (r : List ℝ)
    (lr lam : ℝ) (hlr : 0 ≤ lr) (hlam : 0 ≤ lam)
    (hval : ∀ leaf ∈ t.leaves, leaf.value = .fin (sumOver r leaf.samples / (leaf.samples.length + lam)) ∧ leaf.samples ≠ [])
    (v : Nat → ℝ) (hv : ∀ (i : Nat) row, (finRows X)[i]? = some row → t.predictSingle row = .ok (.fin (v i))) :
    ((List.range X.length).map fun i => -r.getD i 0 * (lr * v i) + (lr * v i) ^ 2 / 8).sum ≤ -(lr * (8 - lr) / 8 * energy r lam t) ∧
      ∀ i < X.length, (lr * v i) ^ 2 ≤ lr ^ 2 * energy r lam t := by
  have hperm := C03_leaves_partition S (finRows X) o t hb
  rw [hrows] at hperm
  have hvl : ∀ leaf ∈ t.leaves, ∀ i ∈ leaf.samples, v i = sumOver r leaf.samples / (leaf.samples.length + lam) := by
    intro leaf hl i hi
    have hlt : i < X.length := by
      have := hperm.mem_iff.1 (List.mem_flatMap.2 ⟨leaf, hl, hi⟩)
      simpa using this
    have hrow : (finRows X)[i]? = some (X[i].map XF.fin) := by
      unfold finRows
      rw [List.getElem?_map, List.getElem?_eq_getElem hlt]
      rfl
    have h1 := C04_training_row S (finRows X) o t hb leaf hl i hi _ hrow
    rw [hv i _ hrow, (hval leaf hl).1] at h1
    exact fin_inj (Except.ok.inj h1)
  have hpos : ∀ leaf ∈ t.leaves, (1 : ℝ) ≤ leaf.samples.length := by
    intro leaf hl
    have := List.length_pos_iff.2 (hval leaf hl).2
    exact_mod_cast this
  refine ⟨?_, ?_⟩
  · set φ : Nat → ℝ := fun i => -r.getD i 0 * (lr * v i) + (lr * v i) ^ 2 / 8 with hφ
    have hsum : ((List.range X.length).map φ).sum = (t.leaves.map fun leaf => (leaf.samples.map φ).sum).sum := by
      rw [← (hperm.map φ).sum_eq]
      generalize t.leaves = ls
      induction ls with
      | nil => rfl
      | cons a l ih => simp [List.flatMap_cons, ih]
    have hleaf : ∀ leaf ∈ t.leaves, (leaf.samples.map φ).sum ≤ -(lr * (8 - lr) / 8) * resQ r lam leaf.samples := by
      intro leaf hl
      have h1 := hpos leaf hl
      have e : (leaf.samples.map φ).sum = -(sumOver r leaf.samples) * (lr * (sumOver r leaf.samples / (leaf.samples.length + lam))) +
          leaf.samples.length * ((lr * (sumOver r leaf.samples / (leaf.samples.length + lam))) ^ 2 / 8) := by
        have hc : leaf.samples.map φ = leaf.samples.map fun i =>
            -r.getD i 0 * (lr * (sumOver r leaf.samples / (leaf.samples.length + lam))) +
              (lr * (sumOver r leaf.samples / (leaf.samples.length + lam))) ^ 2 / 8 := by
          apply List.map_congr_left
          intro i hi
          simp only [hφ, hvl leaf hl i hi]
        rw [hc]
        generalize lr * (sumOver r leaf.samples / (leaf.samples.length + lam)) = δ
        unfold sumOver
        generalize leaf.samples = ss
        induction ss with
        | nil => simp
        | cons a l ih =>
          simp only [List.map_cons, List.sum_cons, List.length_cons, ih]
          push_cast
          ring
      rw [e]
      unfold resQ
      set R := sumOver r leaf.samples with hR
      set N : ℝ := (leaf.samples.length : ℝ) with hN
      have hD : 0 < N + lam := by linarith
      have e3 : -(lr * (8 - lr) / 8) * (R ^ 2 / (N + lam)) - (-R * (lr * (R / (N + lam))) + N * ((lr * (R / (N + lam))) ^ 2 / 8)) =
          lr ^ 2 * R ^ 2 * lam / (8 * (N + lam) ^ 2) := by
        field_simp
        ring
      have : 0 ≤ lr ^ 2 * R ^ 2 * lam / (8 * (N + lam) ^ 2) := by positivity
      linarith
    rw [hsum]
    refine (List.sum_le_sum hleaf).trans ?_
    rw [List.sum_map_mul_left]
    unfold energy
    linarith
  · intro i hi
    obtain ⟨leaf, hl, hil⟩ := List.mem_flatMap.1 (hperm.mem_iff.2 (List.mem_range.2 hi))
    rw [hvl leaf hl i hil, mul_pow]
    apply mul_le_mul_of_nonneg_left _ (sq_nonneg lr)
    refine le_trans ?_ (resQ_le_energy r hlam t leaf hl)
    unfold resQ
    have h1 := hpos leaf hl
    set N : ℝ := (leaf.samples.length : ℝ)
    rw [div_pow]
    apply div_le_div_of_nonneg_left (sq_nonneg _) (by linarith)
    nlinarith

/-- If splitting never lowers `Q`, the leaves together have at least the `Q` of the root. -/
theorem leaves_quality {S : GoSort} {X : List (List ℝ)} (Q : List Nat → ℝ) (P : TreeOptions (Exact ℝ) → Prop)
    (hsplit : ∀ d o i l r, P o → newTreeD S (finRows X) d o = .ok (.node i l r) → l ≠ .nil → ∃ L R d',
      P (o.child (finRows X) L) ∧ P (o.child (finRows X) R) ∧
      Q (o.idx (finRows X)) ≤ Q L + Q R ∧ newTreeD S (finRows X) d' (o.child (finRows X) L) = .ok l ∧
      newTreeD S (finRows X) d' (o.child (finRows X) R) = .ok r)
    (d : Nat) (o : TreeOptions (Exact ℝ)) (t : Tree (Exact ℝ)) (hP : P o) (hb : newTreeD S (finRows X) d o = .ok t) :
    Q (o.idx (finRows X)) ≤ (t.leaves.map fun leaf => Q leaf.samples).sum := by
  induction t generalizing d o with
  | nil => exact absurd rfl (newTree_ne_nil hb)
  | node i l r ihl ihr =>
    have hsam := (mkInfo_samples hb).1
    by_cases hl : l = .nil
    · subst hl
      have hr : r = .nil := by
        obtain ⟨v, row0, hv, hr, _, ⟨_, h2⟩ | ⟨_, best, _, _, _, h2⟩ |
          ⟨_, best, col, tl, tr, _, hs, hlf, _, h3, h4, h2⟩⟩ := newTreeD_inv _ _ _ _ _ hb
        · cases h2; rfl
        · cases h2; rfl
        · cases h2; exact absurd rfl (newTree_ne_nil h3)
      subst hr
      simp [Tree.leaves, hsam]
    · obtain ⟨L, R, d', pL, pR, hq, hL, hR⟩ := hsplit d o i l r hP hb hl
      have a := ihl d' _ pL hL
      have b := ihr d' _ pR hR
      rw [child_idx] at a b
      have hlv : (Tree.node i l r).leaves = l.leaves ++ r.leaves := by
        cases l with
        | nil => exact absurd rfl hl
        | node => cases r <;> rfl
      rw [hlv, List.map_append, List.sum_append]
      linarith

theorem sumOver_sq_neg (g : List ℝ) (s : List Nat) : sumOver (g.map fun x => -x) s ^ 2 = sumOver g s ^ 2 := by
  rw [sumOver_neg, neg_sq]

/-- the quality of the xgboost gain is `resQ` when all Hessians are 1 -/
theorem quality_ones (g p : List ℝ) (lam : ℝ) (s : List Nat) (hs : ∀ w ∈ s, w < p.length) :
    quality g (p.map fun _ => (1 : ℝ)) lam s = resQ (g.map fun x => -x) lam s := by
  unfold quality resQ
  rw [sumOver_ones p s hs, sumOver_sq_neg]

theorem leftOf_subset (X : List (List ℝ)) (s : List Nat) (f : Nat) (θ : ℝ) : leftOf X s f θ ⊆ s := List.filter_subset' _
theorem rightOf_subset (X : List (List ℝ)) (s : List Nat) (f : Nat) (θ : ℝ) : rightOf X s f θ ⊆ s := List.filter_subset' _

theorem nil_right {S : GoSort} {X : List (List ℝ)} {d : Nat} {o : TreeOptions (Exact ℝ)} {i : NodeInfo (Exact ℝ)}
    {r : Tree (Exact ℝ)} (hb : newTreeD S (finRows X) d o = .ok (.node i .nil r)) : r = .nil := by
  obtain ⟨v, row0, hv, hr, _, ⟨_, h2⟩ | ⟨_, best, _, _, _, h2⟩ |
    ⟨_, best, col, tl, tr, _, hs, hlf, _, h3, h4, h2⟩⟩ := newTreeD_inv _ _ _ _ _ hb
  · cases h2; rfl
  · cases h2; rfl
  · cases h2; exact absurd rfl (newTree_ne_nil h3)

/-- xgboost trees: the energy is at least the quality of the root, and of both sides of any admissible split minus `Gamma` -/
theorem xgb_energy {S : GoSort} {X : List (List ℝ)} {o : TreeOptions (Exact ℝ)} {t : Tree (Exact ℝ)} {g p : List ℝ} {lam gam : ℝ}
    (hp : p.length = X.length) (hlam : 0 ≤ lam) (hgam : 0 ≤ gam) (hb : newTree S (finRows X) o = .ok t)
    (hi : XgbInput o g (p.map fun _ => 1) lam gam) (hidx : o.idx (finRows X) = List.range X.length) :
    resQ (g.map fun x => -x) lam (List.range X.length) ≤ energy (g.map fun x => -x) lam t ∧
      (o.allowedColumns = [] → 1 ≤ o.maxDepth → ∀ row0, X[0]? = some row0 → ∀ f < row0.length, ∀ θ,
        Admissible X (toInt o.minChildWeight) (List.range X.length) f θ →
        resQ (g.map fun x => -x) lam (leftOf X (List.range X.length) f θ) +
          resQ (g.map fun x => -x) lam (rightOf X (List.range X.length) f θ) ≤ energy (g.map fun x => -x) lam t + gam) := by
  have hH : HessOk (p.map fun _ => (1 : ℝ)) lam := by
    intro v hv
    obtain ⟨_, _, rfl⟩ := List.mem_map.1 hv
    exact ⟨by norm_num, by linarith⟩
  have hgen : ∀ (d : Nat) (o' : TreeOptions (Exact ℝ)) (t' : Tree (Exact ℝ)), XgbInput o' g (p.map fun _ => 1) lam gam →
      (∀ w ∈ o'.idx (finRows X), w < p.length) → newTreeD S (finRows X) d o' = .ok t' →
      resQ (g.map fun x => -x) lam (o'.idx (finRows X)) ≤ energy (g.map fun x => -x) lam t' := by
    intro d o' t' hi' hr' hb'
    refine leaves_quality (S := S) (X := X) (resQ (g.map fun x => -x) lam)
      (fun o => XgbInput o g (p.map fun _ => 1) lam gam ∧ ∀ w ∈ o.idx (finRows X), w < p.length) ?_ d o' t' ⟨hi', hr'⟩ hb'
    intro d o i l r ⟨hi, hr⟩ hb hl
    obtain ⟨θ, _, _, _, hgain, d', hL, hR⟩ := node_split_xgb hb hl hi hH
    have hsam := (mkInfo_samples hb).1
    have hrL : ∀ w ∈ leftOf X i.samples i.splitFeatureIndex θ, w < p.length := fun w hw =>
      hr w (by rw [← hsam]; exact leftOf_subset _ _ _ _ hw)
    have hrR : ∀ w ∈ rightOf X i.samples i.splitFeatureIndex θ, w < p.length := fun w hw =>
      hr w (by rw [← hsam]; exact rightOf_subset _ _ _ _ hw)
    refine ⟨_, _, d', ⟨hi.inherit (Inherit.child _ _ _), by rw [child_idx]; exact hrL⟩,
      ⟨hi.inherit (Inherit.child _ _ _), by rw [child_idx]; exact hrR⟩, ?_, hL, hR⟩
    unfold xgbGain at hgain
    rw [quality_ones _ _ _ _ hrL, quality_ones _ _ _ _ hrR, quality_ones _ _ _ _ (by rw [hsam]; exact hr), hsam] at hgain
    rw [hsam]
    linarith
  have hr0 : ∀ w ∈ o.idx (finRows X), w < p.length := by
    rw [hidx, hp]
    exact fun w hw => List.mem_range.1 hw
  have hroot := hgen _ o t hi hr0 hb
  rw [hidx] at hroot
  refine ⟨hroot, ?_⟩
  intro hac hdep row0 hrow0 f hf θ hadm
  cases t with
  | nil => exact absurd rfl (newTree_ne_nil hb)
  | node i l r =>
    have hsam := (mkInfo_samples hb).1
    rw [hidx] at hsam
    have hrL : ∀ w ∈ leftOf X (List.range X.length) f θ, w < p.length := fun w hw =>
      hr0 w (by rw [hidx]; exact leftOf_subset _ _ _ _ hw)
    have hrR : ∀ w ∈ rightOf X (List.range X.length) f θ, w < p.length := fun w hw =>
      hr0 w (by rw [hidx]; exact rightOf_subset _ _ _ _ hw)
    rw [hidx] at hr0
    by_cases hl : l = .nil
    · subst hl
      obtain rfl := nil_right hb
      have := C07_xgb_leaf S X o _ g _ lam gam hb hi hH [] i rfl (by simp; omega) row0 hrow0 f hf (fun _ => Or.inl hac) θ
        (by rw [hsam]; exact hadm)
      rw [hsam] at this
      unfold xgbGain at this
      rw [quality_ones _ _ _ _ hrL, quality_ones _ _ _ _ hrR, quality_ones _ _ _ _ hr0] at this
      linarith
    · obtain ⟨θb, hθb, _, _, hbest⟩ := C07_xgb_split S X o _ g _ lam gam hb hi hH [] i l r rfl hl
      have hbest := hbest row0 hrow0 f hf (fun _ => Or.inl hac) θ (by rw [hsam]; exact hadm)
      obtain ⟨θ', hθ', _, _, hgain, d', hL, hR⟩ := node_split_xgb hb hl hi hH
      obtain rfl : θb = θ' := fin_inj (hθb.symm.trans hθ')
      rw [hsam] at hbest hgain hL hR
      set LL := leftOf X (List.range X.length) i.splitFeatureIndex θb with hLL
      set RR := rightOf X (List.range X.length) i.splitFeatureIndex θb with hRR
      have qL : ∀ w ∈ LL, w < p.length := fun w hw => hr0 w (leftOf_subset _ _ _ _ hw)
      have qR : ∀ w ∈ RR, w < p.length := fun w hw => hr0 w (rightOf_subset _ _ _ _ hw)
      have a := hgen d' _ l (hi.inherit (Inherit.child _ _ _)) (by rw [child_idx]; exact qL) hL
      have b := hgen d' _ r (hi.inherit (Inherit.child _ _ _)) (by rw [child_idx]; exact qR) hR
      rw [child_idx] at a b
      unfold xgbGain at hbest
      rw [quality_ones _ _ _ _ hrL, quality_ones _ _ _ _ hrR, quality_ones _ _ _ _ hr0, ← hLL, ← hRR,
        quality_ones _ _ _ _ qL, quality_ones _ _ _ _ qR] at hbest
      have hlv : (Tree.node i l r).leaves = l.leaves ++ r.leaves := by
        cases l with
        | nil => exact absurd rfl hl
        | node => cases r <;> rfl
      unfold energy at a b ⊢
      rw [hlv, List.map_append, List.sum_append]
      linarith

/-- Cauchy–Schwarz for two groups -/
theorem sq_div_add_le (a b : ℝ) {p q : ℝ} (hp : 0 < p) (hq : 0 < q) : (a + b) ^ 2 / (p + q) ≤ a ^ 2 / p + b ^ 2 / q := by
  rw [← sub_nonneg]
  have : a ^ 2 / p + b ^ 2 / q - (a + b) ^ 2 / (p + q) = (a * q - b * p) ^ 2 / (p * q * (p + q)) := by
    field_simp
    ring
  rw [this]
  positivity

/-- regular trees: the energy is at least the quality of the root and of both sides of any admissible split -/
theorem reg_energy {S : GoSort} {X : List (List ℝ)} {o : TreeOptions (Exact ℝ)} {t : Tree (Exact ℝ)} {y : List ℝ}
    (hb : newTree S (finRows X) o = .ok t) (hi : RegInput o y) (hidx : o.idx (finRows X) = List.range X.length) :
    resQ y 0 (List.range X.length) ≤ energy y 0 t ∧
      (o.allowedColumns = [] → 1 ≤ o.maxDepth → ∀ row0, X[0]? = some row0 → ∀ f < row0.length, ∀ θ,
        Admissible X (toInt o.minChildWeight) (List.range X.length) f θ →
        resQ y 0 (leftOf X (List.range X.length) f θ) + resQ y 0 (rightOf X (List.range X.length) f θ) ≤ energy y 0 t) := by
  have hreg : ∀ s f θ, regGain X y s f θ = resQ y 0 s - resQ y 0 (leftOf X s f θ) - resQ y 0 (rightOf X s f θ) := by
    intro s f θ
    unfold regGain resQ
    simp only [add_zero]
    ring
  have hgen : ∀ (d : Nat) (o' : TreeOptions (Exact ℝ)) (t' : Tree (Exact ℝ)), RegInput o' y →
      newTreeD S (finRows X) d o' = .ok t' → resQ y 0 (o'.idx (finRows X)) ≤ energy y 0 t' := by
    intro d o' t' hi' hb'
    refine leaves_quality (S := S) (X := X) (resQ y 0) (fun o => RegInput o y) ?_ d o' t' hi' hb'
    intro d o i l r hi hb hl
    obtain ⟨θ, _, hadm, _, d', hL, hR⟩ := node_split_reg hb hl hi
    have hsam := (mkInfo_samples hb).1
    refine ⟨_, _, d', hi.inherit (Inherit.child _ _ _), hi.inherit (Inherit.child _ _ _), ?_, hL, hR⟩
    obtain ⟨nL, nR, _⟩ := adm_ne hadm
    rw [← hsam]
    unfold resQ
    rw [← left_right_sum X y i.samples i.splitFeatureIndex θ, ← left_right_length X i.samples i.splitFeatureIndex θ]
    push_cast
    simp only [add_zero]
    have h1 := List.length_pos_iff.2 nL
    have h2 := List.length_pos_iff.2 nR
    exact sq_div_add_le _ _ (by exact_mod_cast h1) (by exact_mod_cast h2)
  have hroot := hgen _ o t hi hb
  rw [hidx] at hroot
  refine ⟨hroot, ?_⟩
  intro hac hdep row0 hrow0 f hf θ hadm
  cases t with
  | nil => exact absurd rfl (newTree_ne_nil hb)
  | node i l r =>
    have hsam := (mkInfo_samples hb).1
    rw [hidx] at hsam
    by_cases hl : l = .nil
    · subst hl
      obtain rfl := nil_right hb
      exact absurd (by rw [hsam]; exact hadm) (C07_regular_leaf S X o _ y hb hi [] i rfl (by simp; omega) row0 hrow0 f hf
        (fun _ => Or.inl hac) θ)
    · obtain ⟨θb, hθb, _, _, hbest⟩ := C07_regular_split S X o _ y hb hi [] i l r rfl hl
      have hbest := hbest row0 hrow0 f hf (fun _ => Or.inl hac) θ (by rw [hsam]; exact hadm)
      obtain ⟨θ', hθ', _, _, d', hL, hR⟩ := node_split_reg hb hl hi
      obtain rfl : θb = θ' := fin_inj (hθb.symm.trans hθ')
      rw [hsam, hreg, hreg] at hbest
      rw [hsam] at hL hR
      have a := hgen d' _ l (hi.inherit (Inherit.child _ _ _)) hL
      have b := hgen d' _ r (hi.inherit (Inherit.child _ _ _)) hR
      rw [child_idx] at a b
      have hlv : (Tree.node i l r).leaves = l.leaves ++ r.leaves := by
        cases l with
        | nil => exact absurd rfl hl
        | node => cases r <;> rfl
      unfold energy at a b ⊢
      rw [hlv, List.map_append, List.sum_append]
      linarith

/-! ### the tree of a class -/

/-- `Gamma` counts in xgboost mode only -/
noncomputable def slackOf (O : Options (Exact ℝ)) (gam : ℝ) : ℝ := if O.xgb then gam else 0

theorem resQ_bound {r : List ℝ} {lam B : ℝ} {s : List Nat} {n : Nat} (hlam : 0 ≤ lam) (hs : s ≠ []) (hn : s.length ≤ n) (hB : resQ r lam s ≤ B) :
    sumOver r s ^ 2 ≤ (n + lam) * B := by
  have h1 : (0 : ℝ) < s.length := by exact_mod_cast List.length_pos_iff.2 hs
  have h2 : (s.length : ℝ) ≤ n := by exact_mod_cast hn
  have h0 : 0 ≤ B := (resQ_nonneg r hlam s).trans hB
  unfold resQ at hB
  rw [div_le_iff₀ (by linarith)] at hB
  nlinarith

/-- the rows equal to row `i` -/
noncomputable def sameRows (X : List (List ℝ)) (i : Nat) : List Nat := by
  classical exact (List.range X.length).filter fun j => X[j]? = X[i]?

/-- regular trees that can be grown until every leaf has equal rows -/
def Deep (X : List (List ℝ)) (O : Options (Exact ℝ)) : Prop :=
  O.xgb = false ∧ toInt O.minChildWeight ≤ 1 ∧ (X.length : Int) ≤ O.maxDepth + 1 ∧ ∃ w, ∀ row ∈ X, row.length = w

theorem mem_sameRows {X : List (List ℝ)} {i j : Nat} : j ∈ sameRows X i ↔ j < X.length ∧ X[j]? = X[i]? := by
  simp [sameRows]

/-- the rows equal to a row are the rows of a leaf, so that their quality is at most the energy -/
theorem deep_energy {S : GoSort} {X : List (List ℝ)} {o : TreeOptions (Exact ℝ)} {t : Tree (Exact ℝ)} {y : List ℝ}
    (hb : newTree S (finRows X) o = .ok t) (hi : RegInput o y) (hac : o.allowedColumns = [])
    (hmcw : toInt o.minChildWeight ≤ 1) (hrows : o.indexes = none) (hdep : (X.length : Int) ≤ o.maxDepth + 1) (w : Nat)
    (hw : ∀ row ∈ X, row.length = w) {i : Nat} (hlt : i < X.length) : resQ y 0 (sameRows X i) ≤ energy y 0 t := by
  have hperm := C03_leaves_partition S (finRows X) o t hb
  have hidx : trainingRows (finRows X) o = List.range X.length := by
    unfold trainingRows
    rw [hrows]
    simp [finRows]
  rw [hidx] at hperm
  obtain ⟨leaf, hl, hil⟩ := List.mem_flatMap.1 (hperm.mem_iff.2 (List.mem_range.2 hlt))
  have hrow : ∀ j < X.length, X[j]? = X[i]? → (finRows X)[j]? = some (X[i].map XF.fin) := by
    intro j hj hji
    unfold finRows
    rw [List.getElem?_map, hji, List.getElem?_eq_getElem hlt]
    rfl
  have hp : leaf.samples.Perm (sameRows X i) := by
    classical
    refine (List.perm_ext_iff_of_nodup ?_ ?_).2 fun j => ?_
    · have := hperm.nodup_iff.2 List.nodup_range
      exact (List.nodup_flatMap.1 this).1 leaf hl
    · unfold sameRows
      exact List.nodup_range.filter _
    · rw [mem_sameRows]
      constructor
      · intro hj
        have hjl := hperm.mem_iff.1 (List.mem_flatMap.2 ⟨leaf, hl, hj⟩)
        exact ⟨List.mem_range.1 hjl, leaf_same hb hi hac hmcw hrows hdep w hw leaf hl j i hj hil⟩
      · rintro ⟨hj, hji⟩
        obtain ⟨leaf', hl', hjl⟩ := List.mem_flatMap.1 (hperm.mem_iff.2 (List.mem_range.2 hj))
        have r1 := reach_training_row S (finRows X) o t hb leaf hl i hil _ (hrow i hlt rfl)
        have r2 := reach_training_row S (finRows X) o t hb leaf' hl' j hjl _ (hrow j hj hji)
        rw [r1] at r2
        rw [Except.ok.inj r2]
        exact hjl
  have e : resQ y 0 (sameRows X i) = resQ y 0 leaf.samples := by
    unfold resQ sumOver
    rw [(hp.map _).sum_eq, hp.length_eq]
  rw [e]
  exact resQ_le_energy y le_rfl t leaf hl

/-- What the tree of a class with squared errors does: there is a number `E` such that the quadratic bound of the loss falls by
at least `lr(8-lr)/8·E`, the scores move by at most `lr√E`, and the residuals over all rows, and over both sides of
every admissible split, and over equal rows when the trees are deep, are bounded by `E`. -/
theorem classTree_energy {S : GoSort} {X : List (List ℝ)} {O : Options (Exact ℝ)} {lr lam gam : ℝ}
    (hlam : O.lambda = .fin lam) (hgam : O.gamma = .fin gam) (hlr : 0 ≤ lr) (hlam0 : 0 ≤ lam) (hgam0 : 0 ≤ gam) (hX : X ≠ []) {cols : List Nat}
    {y p : List ℝ} (hy : y.length = X.length) (hp : p.length = X.length) {t : Tree (Exact ℝ)}
    (h : classTree S (finRows X) O sqErrLoss none cols (finV y) (finV p) = .ok t)
    (v : Nat → ℝ) (hv : ∀ (i : Nat) row, (finRows X)[i]? = some row → t.predictSingle row = .ok (.fin (v i))) :
    ∃ (E : ℝ) (r : List ℝ), (∀ i < X.length, r.getD i 0 = y.getD i 0 - p.getD i 0) ∧ 0 ≤ E ∧
      ((List.range X.length).map fun i => -r.getD i 0 * (lr * v i) + (lr * v i) ^ 2 / 8).sum ≤ -(lr * (8 - lr) / 8 * E) ∧
      (∀ i < X.length, (lr * v i) ^ 2 ≤ lr ^ 2 * E) ∧
      sumOver r (List.range X.length) ^ 2 ≤ (X.length + lam) * E ∧
      (cols = [] → 1 ≤ O.maxDepth → ∀ row0, X[0]? = some row0 → ∀ f < row0.length, ∀ θ,
        Admissible X (toInt O.minChildWeight) (List.range X.length) f θ →
        sumOver r (leftOf X (List.range X.length) f θ) ^ 2 ≤ (X.length + lam) * (E + slackOf O gam) ∧
        sumOver r (rightOf X (List.range X.length) f θ) ^ 2 ≤ (X.length + lam) * (E + slackOf O gam)) ∧
      (Deep X O → ∀ i < X.length, sumOver r (sameRows X i) ^ 2 ≤ (X.length + lam) * E) := by
  obtain ⟨hg1, hg2⟩ := grad_fin y p (by omega)
  have hlen : (finRows X).length = X.length := by simp [finRows]
  set g : List ℝ := List.zipWith (fun a b => b - a) y p with hg
  have hneg : List.zipWith (fun a b => a - b) y p = g.map fun x => -x := by
    rw [hg, List.map_zipWith]; congr 1; funext a b; ring
  have hr : ∀ i < X.length, (g.map fun x => -x).getD i 0 = y.getD i 0 - p.getD i 0 := by
    intro i hi
    rw [← hneg]
    simp [List.getD_eq_getElem?_getD, List.getElem?_zipWith, hy, hp, hi]
  have hgr : (sqErrLoss : LossFunc (Exact ℝ)).gradients (finV y) (finV p) = .ok (finV g) ∧
      (sqErrLoss : LossFunc (Exact ℝ)).negGradients (finV y) (finV p) = .ok (finV (g.map fun x => -x)) := by
    rw [← hneg]
    exact ⟨hg1, hg2⟩
  have hh : (sqErrLoss : LossFunc (Exact ℝ)).hessian (finV p) = finV (p.map fun _ => (1 : ℝ)) := by simp [sqErrLoss, finV]
  have hne : List.range X.length ≠ [] := by simpa using hX
  have hsub : ∀ s : List Nat, s.Sublist (List.range X.length) → s.length ≤ X.length := fun s hs => by
    simpa using hs.length_le
  suffices hfin : ∃ (o : TreeOptions (Exact ℝ)) (lam' : ℝ), newTree S (finRows X) o = .ok t ∧
      o.idx (finRows X) = List.range X.length ∧ 0 ≤ lam' ∧ lam' ≤ lam ∧
      (∀ leaf ∈ t.leaves, leaf.value = .fin (sumOver (g.map fun x => -x) leaf.samples / (leaf.samples.length + lam')) ∧
        leaf.samples ≠ []) ∧
      resQ (g.map fun x => -x) lam' (List.range X.length) ≤ energy (g.map fun x => -x) lam' t ∧
      (cols = [] → 1 ≤ O.maxDepth → ∀ row0, X[0]? = some row0 → ∀ f < row0.length, ∀ θ,
        Admissible X (toInt O.minChildWeight) (List.range X.length) f θ →
        resQ (g.map fun x => -x) lam' (leftOf X (List.range X.length) f θ) +
          resQ (g.map fun x => -x) lam' (rightOf X (List.range X.length) f θ) ≤ energy (g.map fun x => -x) lam' t + slackOf O gam) ∧
      (Deep X O → ∀ i < X.length, resQ (g.map fun x => -x) lam' (sameRows X i) ≤ energy (g.map fun x => -x) lam' t) by
    obtain ⟨o, lam', h1, h2, h3, h4, h5, h6, h7, h8⟩ := hfin
    obtain ⟨a1, a2⟩ := leaf_energy h1 (by rw [← idx_eq_trainingRows]; exact h2) (g.map fun x => -x) lr lam' hlr h3 h5 v hv
    have hE := energy_nonneg (g.map fun x => -x) h3 t
    refine ⟨energy (g.map fun x => -x) lam' t, g.map fun x => -x, hr, hE, a1, a2, ?_, ?_, ?_⟩
    · have := resQ_bound h3 hne (n := X.length) (by simp) h6
      nlinarith
    · intro hc hd row0 hrow0 f hf θ hadm
      have hq := h7 hc hd row0 hrow0 f hf θ hadm
      obtain ⟨nL, nR, _⟩ := adm_ne hadm
      have qL := resQ_nonneg (g.map fun x => -x) h3 (leftOf X (List.range X.length) f θ)
      have qR := resQ_nonneg (g.map fun x => -x) h3 (rightOf X (List.range X.length) f θ)
      have bL := resQ_bound h3 nL (hsub _ List.filter_sublist) (show resQ (g.map fun x => -x) lam' _ ≤ energy (g.map fun x => -x) lam' t + slackOf O gam by linarith)
      have bR := resQ_bound h3 nR (hsub _ List.filter_sublist) (show resQ (g.map fun x => -x) lam' _ ≤ energy (g.map fun x => -x) lam' t + slackOf O gam by linarith)
      have h0 : 0 ≤ energy (g.map fun x => -x) lam' t + slackOf O gam := by linarith
      have := mul_le_mul_of_nonneg_right h4 h0
      constructor <;> nlinarith
    · intro hD i hi
      have hne : sameRows X i ≠ [] := List.ne_nil_of_mem (mem_sameRows.2 ⟨hi, rfl⟩)
      have hsl : (sameRows X i).Sublist (List.range X.length) := by
        unfold sameRows
        exact List.filter_sublist
      have := resQ_bound h3 hne (hsub _ hsl) (h8 hD i hi)
      have := mul_le_mul_of_nonneg_right h4 hE
      nlinarith
  unfold classTree at h
  rw [hh, hgr.1, hgr.2] at h
  split at h
  · rename_i hx
    obtain ⟨g', hg', h⟩ := bind_ok h
    cases hg'
    have hidx : ∀ (o : TreeOptions (Exact ℝ)), o.indexes = none → o.idx (finRows X) = List.range X.length := by
      intro o ho
      unfold TreeOptions.idx
      simp [ho, hlen]
    obtain ⟨b1, b2⟩ := xgb_energy (g := g) (gam := gam) hp hlam0 hgam0 h ⟨rfl, rfl, rfl, hlam, hgam⟩ (hidx _ rfl)
    refine ⟨_, lam, h, hidx _ rfl, hlam0, le_rfl, ?_, b1, ?_, fun hD => by rw [hD.1] at hx; cases hx⟩
    · intro leaf hl
      obtain ⟨path, hsub⟩ := leaf_path hl
      have hmem : ∀ w ∈ leaf.samples, w < X.length := by
        have := sub_samples h (by
          intro w hw
          unfold TreeOptions.idx at hw
          simpa using hw) path leaf _ _ hsub
        rw [hlen] at this
        exact this
      have hne : leaf.samples ≠ [] := by
        by_cases hpath : path = []
        · subst hpath
          have ht : t = .node leaf .nil .nil := by cases t <;> simpa [Tree.sub] using hsub
          rw [ht] at h
          have := (mkInfo_samples h).1
          rw [this]
          unfold TreeOptions.idx
          simpa [finRows] using hX
        · have := (C06_exact S X _ t h path hpath leaf _ _ hsub).1
          intro h0
          rw [h0] at this
          simp at this
      have hn0 : (0 : ℝ) < leaf.samples.length := by exact_mod_cast List.length_pos_iff.2 hne
      have hs := sumOver_ones p _ (by rw [hp]; exact hmem)
      refine ⟨?_, hne⟩
      rw [(C09_value_optimal S X _ t g _ lam gam h ⟨rfl, rfl, rfl, hlam, hgam⟩ path leaf _ _ hsub (by rw [hs]; linarith)).1, sumOver_neg, hs]
    · intro hc hd row0 hrow0 f hf θ hadm
      have := b2 hc hd row0 hrow0 f hf θ hadm
      unfold slackOf
      rw [if_pos hx]
      exact this
  · rename_i hx
    obtain ⟨g', hg', h⟩ := bind_ok h
    cases hg'
    obtain ⟨t0, h0, hu⟩ := bind_ok h
    have hm := fun path i l r hsub => C10_node_mean S X _ t0 _ h0 ⟨rfl, rfl⟩
      (by simpa [trainingRows, defaultGTreeOptions, finRows] using hX) path i l r hsub
    have hmem : ∀ path i l r, t0.sub path = .node i l r → ∀ w ∈ i.samples, w < p.length := by
      intro path i l r hsub
      have := sub_samples h0 (by
        intro w hw
        unfold TreeOptions.idx at hw
        simpa [defaultGTreeOptions] using hw) path i l r hsub
      rw [hlen] at this
      rw [hp]
      exact this
    obtain rfl : t = t0 := by
      refine updateLeaves_same hu ?_
      intro path i l r hsub _
      obtain ⟨m1, m2⟩ := hm path i l r hsub
      have hn0 : (i.samples.length : ℝ) ≠ 0 := by
        have := List.length_pos_iff.2 m1
        exact_mod_cast this.ne'
      rw [sumAt_fin, sumAt_fin, m2, sumOver_ones p _ (hmem path i l r hsub), Exact.div_fin _ _ hn0]
      rfl
    have hidx : ∀ (o : TreeOptions (Exact ℝ)), o.indexes = none → o.idx (finRows X) = List.range X.length := by
      intro o ho
      unfold TreeOptions.idx
      simp [ho, hlen]
    obtain ⟨b1, b2⟩ := reg_energy h0 (y := g.map fun x => -x) ⟨rfl, rfl⟩ (hidx _ rfl)
    refine ⟨_, 0, h0, hidx _ rfl, le_rfl, hlam0, ?_, b1, ?_, ?_⟩
    · intro leaf hl
      obtain ⟨path, hsub⟩ := leaf_path hl
      obtain ⟨m1, m2⟩ := hm path leaf _ _ hsub
      refine ⟨?_, m1⟩
      rw [m2, add_zero]
      rfl
    · intro hc hd row0 hrow0 f hf θ hadm
      have := b2 rfl hd row0 hrow0 f hf θ hadm
      unfold slackOf
      rw [if_neg hx, add_zero]
      exact this
    · intro hD i hi
      obtain ⟨_, d2, d3, w, d4⟩ := hD
      exact deep_energy h0 ⟨rfl, rfl⟩ rfl d2 rfl d3 w d4 hi

/-! ### the step of a class -/

/-- score of class `j` for row `i` -/
def scoreAt (st : TrainState (Exact ℝ)) (i j : Nat) : ℝ := ((st.rawPred.row i).map realOf).getD j 0

/-- probability of class `k` for row `i` -/
noncomputable def probAt (st : TrainState (Exact ℝ)) (i k : Nat) : ℝ := (softmaxSpec ((st.rawPred.row i).map realOf)).getD k 1

/-- sum of `label is k` minus the probability of `k` over the rows `A` -/
noncomputable def residSum (c : Nat → Nat) (st : TrainState (Exact ℝ)) (k : Nat) (A : List Nat) : ℝ :=
  (A.map fun i => (if c i = k then 1 else 0) - probAt st i k).sum

/-- the residuals of class `k` are bounded by `E` over all rows, over the sides of admissible splits and, with
deep trees, over equal rows -/
def ResidOk (X : List (List ℝ)) (O : Options (Exact ℝ)) (c : Nat → Nat) (lam gam : ℝ) (cols : List Nat) (st : TrainState (Exact ℝ)) (k : Nat)
    (E : ℝ) : Prop :=
  residSum c st k (List.range X.length) ^ 2 ≤ (X.length + lam) * E ∧
  (cols = [] → 1 ≤ O.maxDepth → ∀ row0, X[0]? = some row0 → ∀ f < row0.length, ∀ θ,
    Admissible X (toInt O.minChildWeight) (List.range X.length) f θ →
    residSum c st k (leftOf X (List.range X.length) f θ) ^ 2 ≤ (X.length + lam) * (E + slackOf O gam) ∧
    residSum c st k (rightOf X (List.range X.length) f θ) ^ 2 ≤ (X.length + lam) * (E + slackOf O gam)) ∧
  (Deep X O → ∀ i < X.length, residSum c st k (sameRows X i) ^ 2 ≤ (X.length + lam) * E)

theorem ResidOk.mono {X : List (List ℝ)} {O : Options (Exact ℝ)} {c : Nat → Nat} {lam gam : ℝ} {cols : List Nat} {st : TrainState (Exact ℝ)} {k : Nat}
    {E E' : ℝ} (h : ResidOk X O c lam gam cols st k E) (hlam : 0 ≤ lam) (he : E ≤ E') : ResidOk X O c lam gam cols st k E' := by
  have h0 : (0 : ℝ) ≤ X.length + lam := by positivity
  refine ⟨h.1.trans (mul_le_mul_of_nonneg_left he h0), ?_, fun hD i hi =>
    (h.2.2 hD i hi).trans (mul_le_mul_of_nonneg_left he h0)⟩
  intro hc hd row0 hrow0 f hf θ hadm
  obtain ⟨a, b⟩ := h.2.1 hc hd row0 hrow0 f hf θ hadm
  exact ⟨a.trans (mul_le_mul_of_nonneg_left (by linarith) h0), b.trans (mul_le_mul_of_nonneg_left (by linarith) h0)⟩

/-- what the theorem needs besides `RealSetup` -/
structure CalSetup (X : List (List ℝ)) (O : Options (Exact ℝ)) (ohe : Dense (Exact ℝ)) (n m : Nat) (c : Nat → Nat)
    (lr lam gam : ℝ) : Prop where
  lrEq : O.learningRate = .fin lr
  lamEq : O.lambda = .fin lam
  gamEq : O.gamma = .fin gam
  lr0 : 0 < lr
  lr8 : lr < 8
  lam0 : 0 ≤ lam
  gam0 : 0 ≤ gam
  rows : rowSub O = false
  stop : O.earlyStop ≤ 0
  cls : ∀ i < n, c i < m
  ohe : ∀ k y, k < m → denseCol ohe k = .ok y → ∃ y' : List ℝ, y = finV y' ∧ y'.length = n ∧
    ∀ i < n, y'.getD i 0 = if c i = k then 1 else 0
  loss : ∀ lv, O.loss = some lv → lv.fn = sqErrLoss

theorem ClassStep.energy {S : GoSort} {X : List (List ℝ)} {O : Options (Exact ℝ)} {ohe : Dense (Exact ℝ)} {n m : Nat}
    {one : Prop} (hs : RealSetup X O ohe n m one) {c : Nat → Nat} {lr lam gam : ℝ} (hL : CalSetup X O ohe n m c lr lam gam) {cols : List Nat}
    {round : Nat} {st st' : TrainState (Exact ℝ)} {k : Nat} {tree : Tree (Exact ℝ)}
    (s : ClassStep expR S (finRows X) O ohe none cols round st st' k tree) (hi : TInv expR n m st)
    (hr : ∀ i < n, AllFin (st.rawPred.row i)) (hk : k < m) :
    ∃ E, 0 ≤ E ∧ totalLoss n c st' ≤ totalLoss n c st - lr * (8 - lr) / 8 * E ∧ ResidOk X O c lam gam cols st k E ∧
      ∀ i < n, (∀ j, j ≠ k → scoreAt st' i j = scoreAt st i j) ∧ |scoreAt st' i k - scoreAt st i k| ≤ lr * Real.sqrt E := by
  obtain ⟨y, hy, hyl, hyv⟩ := hL.ohe k _ hk s.hy
  obtain ⟨p, hp, hpl, hpv, hpval⟩ := probs_col_val hi hr hs.pos hk s.hp
  have hX : X ≠ [] := by
    rintro rfl
    have := hs.len
    have := hs.pos
    simp at *
    omega
  have hd : (finRows X).length = n := by simp [finRows, hs.len]
  obtain ⟨hfin, _⟩ := s.real hs (fun l h => by cases h) hi hr hk
  obtain ⟨_, _, _, h4⟩ := s.inv hi hd hk
  have ht := s.htree
  rw [hy, hp, hL.loss _ s.hlv] at ht
  let v : Nat → ℝ := fun i => match tree.predictSingle ((finRows X).getD i []) with
    | .ok x => realOf x
    | .error _ => 0
  have hv : ∀ (i : Nat) row, (finRows X)[i]? = some row → tree.predictSingle row = .ok (.fin (v i)) := by
    intro i row hrow
    obtain ⟨w, d, h1, _⟩ := h4 i row hrow
    obtain ⟨x, rfl⟩ := hfin.predict h1
    have : v i = x := by
      simp only [v]
      rw [List.getD_eq_getElem?_getD, hrow]
      simp only [Option.getD_some, h1]
      rfl
    rw [this]
    exact h1
  obtain ⟨E, r, e1, e2, e3, e4, e5, e6, e7⟩ := classTree_energy hL.lamEq hL.gamEq hL.lr0.le hL.lam0 hL.gam0 hX
    (by rw [hyl, hs.len]) (by rw [hpl, hs.len]) ht v hv
  have hrow : ∀ i < n, ∃ hlen : k < ((st.rawPred.row i).map realOf).length,
      (st'.rawPred.row i).map realOf = ((st.rawPred.row i).map realOf).set k (((st.rawPred.row i).map realOf)[k] + lr * v i) := by
    intro i hin
    have hget := List.getElem?_eq_getElem (show i < (finRows X).length by rw [hd]; exact hin)
    obtain ⟨w, d, h1, h2, h3⟩ := h4 i _ hget
    rw [hv i _ hget] at h1
    obtain rfl := Except.ok.inj h1
    have hlen : k < (st.rawPred.row i).length := (List.getElem?_eq_some_iff.1 h2).1
    obtain ⟨d', rfl⟩ := hr i hin d (List.mem_of_getElem? h2)
    have hdk : (st.rawPred.row i)[k] = .fin d' := (List.getElem?_eq_some_iff.1 h2).2
    rw [hL.lrEq, show ((XF.fin d' : Exact ℝ) +. (XF.fin (v i) *. XF.fin lr)) = .fin (d' + lr * v i) by
      rw [Exact.mul_fin, Exact.add_fin, mul_comm]] at h3
    refine ⟨by simpa using hlen, ?_⟩
    rw [h3, List.map_set]
    simp only [List.getElem_map, hdk]
    rfl
  have hlenX := hs.len
  have hres : ∀ A : List Nat, (∀ i ∈ A, i < n) → residSum c st k A = sumOver r A := by
    intro A hA
    unfold residSum sumOver
    congr 1
    apply List.map_congr_left
    intro i hiA
    have hin := hA i hiA
    rw [e1 i (by omega), hyv i hin, hpval i hin]
    rfl
  have hall : ∀ A : List Nat, A ⊆ List.range X.length → ∀ i ∈ A, i < n := by
    intro A hA i hiA
    have := List.mem_range.1 (hA hiA)
    omega
  refine ⟨E, e2, ?_, ⟨?_, ?_, ?_⟩, ?_⟩
  · unfold totalLoss
    have hle : ((List.range n).map fun i => rowLoss ((st'.rawPred.row i).map realOf) (c i)).sum ≤
        ((List.range n).map fun i => rowLoss ((st.rawPred.row i).map realOf) (c i) +
          (-r.getD i 0 * (lr * v i) + (lr * v i) ^ 2 / 8)).sum := by
      apply List.sum_le_sum
      intro i hir
      have hin := List.mem_range.1 hir
      obtain ⟨hlen, h5⟩ := hrow i hin
      have hl : ((st.rawPred.row i).map realOf).length = m := by
        rw [List.length_map, Dense.row_length hi.rawWF (by rw [hi.rawR]; exact hin), hi.rawC]
      have := rowLoss_step (r := (st.rawPred.row i).map realOf) (j := c i) (k := k) (by rw [hl]; exact hL.cls i hin) hlen (lr * v i)
      rw [← h5, ← hpval i hin, ← hyv i hin] at this
      rw [e1 i (by omega)]
      linarith
    rw [List.sum_map_add] at hle
    rw [hlenX] at e3
    linarith
  · rw [hres _ (hall _ (List.Subset.refl _))]
    exact e5
  · intro hc hdp row0 hrow0 f hf θ hadm
    rw [hres _ (hall _ (leftOf_subset _ _ _ _)), hres _ (hall _ (rightOf_subset _ _ _ _))]
    exact e6 hc hdp row0 hrow0 f hf θ hadm
  · intro hD i hi
    rw [hres _ fun j hj => by have := (mem_sameRows.1 hj).1; omega]
    exact e7 hD i hi
  · intro i hin
    obtain ⟨hlen, h5⟩ := hrow i hin
    refine ⟨?_, ?_⟩
    · intro j hj
      unfold scoreAt
      rw [h5, List.getD_eq_getElem?_getD, List.getElem?_set_ne (Ne.symm hj), ← List.getD_eq_getElem?_getD]
    · unfold scoreAt
      rw [h5, getD_get (by simpa using hlen), getD_get hlen, List.getElem_set_self, add_sub_cancel_left]
      apply abs_le_of_sq_le_sq _ (mul_nonneg hL.lr0.le (Real.sqrt_nonneg _))
      rw [mul_pow lr (Real.sqrt E), Real.sq_sqrt e2]
      exact e4 i (by omega)

/-! ### softmax of nearby scores -/

theorem softmax_near {a b : List ℝ} (hl : a.length = b.length) {η : ℝ} (h : ∀ j, |a.getD j 0 - b.getD j 0| ≤ η) {k : Nat} (hk : k < a.length) :
    |(softmaxSpec a).getD k 1 - (softmaxSpec b).getD k 1| ≤ Real.exp (2 * η) - 1 := by
  have key : ∀ a b : List ℝ, a.length = b.length → (∀ j, |a.getD j 0 - b.getD j 0| ≤ η) → ∀ k < a.length,
      (softmaxSpec a).getD k 1 - (softmaxSpec b).getD k 1 ≤ Real.exp (2 * η) - 1 := by
    intro a b hl h k hk
    have hkb : k < b.length := by omega
    have hη : 0 ≤ η := (abs_nonneg _).trans (h 0)
    rw [softmax_get hk, softmax_get hkb]
    have hna : a ≠ [] := by rintro rfl; simp at hk
    have hnb : b ≠ [] := by rintro rfl; simp at hkb
    have sa := sum_exp_pos hna
    have sb := sum_exp_pos hnb
    have hsum : (b.map Real.exp).sum ≤ Real.exp η * (a.map Real.exp).sum := by
      clear hk hkb hna hnb sa sb
      induction a generalizing b with
      | nil =>
        have : b = [] := List.length_eq_zero_iff.1 hl.symm
        simp [this]
      | cons x a ih =>
        cases b with
        | nil => simp at hl
        | cons y b =>
          have h0 := h 0
          simp only [List.getD_cons_zero] at h0
          have := ih b (by simpa using hl) (fun j => by simpa using h (j + 1))
          simp only [List.map_cons, List.sum_cons, mul_add]
          rw [← Real.exp_add]
          have : Real.exp y ≤ Real.exp (η + x) := Real.exp_le_exp.2 (by linarith [(abs_le.1 h0).1])
          linarith
    have hak : Real.exp a[k] ≤ Real.exp η * Real.exp b[k] := by
      rw [← Real.exp_add]
      have := h k
      rw [getD_get hk, getD_get hkb] at this
      exact Real.exp_le_exp.2 (by linarith [(abs_le.1 this).2])
    have hpb : Real.exp b[k] / (b.map Real.exp).sum ≤ 1 := by
      rw [div_le_one sb]
      exact List.single_le_sum (fun x hx => by
        obtain ⟨y, _, rfl⟩ := List.mem_map.1 hx
        exact (Real.exp_pos y).le) _ (List.mem_map.2 ⟨_, List.getElem_mem _, rfl⟩)
    have h1 : Real.exp a[k] / (a.map Real.exp).sum ≤ Real.exp (2 * η) * (Real.exp b[k] / (b.map Real.exp).sum) := by
      rw [← mul_div_assoc, div_le_div_iff₀ sa sb]
      have e : Real.exp (2 * η) = Real.exp η * Real.exp η := by rw [← Real.exp_add]; ring_nf
      rw [e]
      calc Real.exp a[k] * (b.map Real.exp).sum ≤ (Real.exp η * Real.exp b[k]) * (Real.exp η * (a.map Real.exp).sum) :=
            mul_le_mul hak hsum sb.le (by positivity)
        _ = _ := by ring
    have h2 : 1 ≤ Real.exp (2 * η) := Real.one_le_exp (by linarith)
    nlinarith
  rw [abs_le]
  have a1 := key a b hl h k hk
  have a2 := key b a hl.symm (fun j => by rw [abs_sub_comm]; exact h j) k (by omega)
  constructor <;> linarith

/-! ### a round -/

theorem trainClasses_energy {S : GoSort} {X : List (List ℝ)} {O : Options (Exact ℝ)} {ohe : Dense (Exact ℝ)} {n m : Nat}
    {one : Prop} (hs : RealSetup X O ohe n m one) {c : Nat → Nat} {lr lam gam : ℝ} (hL : CalSetup X O ohe n m c lr lam gam) {cols : List Nat}
    {round : Nat} (q : Nat) (hq : q ≤ m) (st : TrainState (Exact ℝ)) (acc' : TrainState (Exact ℝ) × List (Tree (Exact ℝ)))
    (h : (List.range q).foldlM (trainClass (softMaxDense expR) S (finRows X) O ohe none cols round) (st, []) = .ok acc')
    (hi : TInv expR n m st) (hr : ∀ i < n, AllFin (st.rawPred.row i)) (hst : ∀ k, st.stopped.getD k false = false) :
    totalLoss n c acc'.1 ≤ totalLoss n c st ∧
    ∀ E, totalLoss n c st - totalLoss n c acc'.1 ≤ lr * (8 - lr) / 8 * E → ∀ k < q, ∃ s, TInv expR n m s ∧ ResidOk X O c lam gam cols s k E ∧
      ∀ i < n, ∀ j, |scoreAt acc'.1 i j - scoreAt s i j| ≤ lr * Real.sqrt E ∧ (q ≤ j → scoreAt acc'.1 i j = scoreAt s i j) := by
  have hd : (finRows X).length = n := by simp [finRows, hs.len]
  have hc : 0 < lr * (8 - lr) / 8 := by
    have := hL.lr0
    have := hL.lr8
    have : 0 < 8 - lr := by linarith
    positivity
  induction q generalizing acc' with
  | zero =>
    simp only [List.range_zero, List.foldlM_nil, pure, Except.pure, Except.ok.injEq] at h
    subst h
    exact ⟨le_rfl, fun E _ k hk => by omega⟩
  | succ q ih =>
    have hall := h
    rw [List.range_succ, List.foldlM_append] at h
    obtain ⟨acc, h1, h2⟩ := bind_ok h
    rw [List.foldlM_cons] at h2
    obtain ⟨acc'', h3, h4⟩ := bind_ok h2
    simp only [List.foldlM_nil, pure, Except.pure, Except.ok.injEq] at h4
    subst h4
    obtain ⟨a1, _⟩ := trainClasses_inv hd q (by omega) st acc h1 hi
    obtain ⟨b1, _⟩ := trainClasses_real hs (fun l h => by cases h) q (by omega) st acc h1 hi hr
    obtain ⟨hle, hb⟩ := ih (by omega) acc h1
    rcases trainClass_inv h3 with ⟨h5, _⟩ | ⟨_, tree, ht, ⟨s⟩⟩
    · exfalso
      obtain ⟨_, o1⟩ := trainClasses_off hL.stop q st acc hst h1
      rw [o1, hst] at h5
      cases h5
    · obtain ⟨E0, g1, g2, g3, g4⟩ := s.energy hs hL a1 b1 (by omega)
      have hmono : totalLoss n c acc''.1 ≤ totalLoss n c acc.1 := by
        have := mul_nonneg hc.le g1
        linarith
      refine ⟨hmono.trans hle, ?_⟩
      intro E hE k hk
      have hEle : E0 ≤ E := by
        have h6 : lr * (8 - lr) / 8 * E0 ≤ lr * (8 - lr) / 8 * E := by linarith
        exact le_of_mul_le_mul_left h6 hc
      have hsq : lr * Real.sqrt E0 ≤ lr * Real.sqrt E := mul_le_mul_of_nonneg_left (Real.sqrt_le_sqrt hEle) hL.lr0.le
      have h0 : 0 ≤ lr * Real.sqrt E := mul_nonneg hL.lr0.le (Real.sqrt_nonneg _)
      by_cases hkq : k = q
      · subst hkq
        refine ⟨acc.1, a1, g3.mono hL.lam0 hEle, ?_⟩
        intro i hin j
        obtain ⟨w1, w2⟩ := g4 i hin
        by_cases hj : j = k
        · subst hj
          exact ⟨w2.trans hsq, fun hq => by omega⟩
        · rw [w1 j hj]
          exact ⟨by simpa using h0, fun _ => rfl⟩
      · obtain ⟨s', t1, t2, t3⟩ := hb E (by linarith) k (by omega)
        refine ⟨s', t1, t2, ?_⟩
        intro i hin j
        obtain ⟨w1, w2⟩ := g4 i hin
        obtain ⟨z1, z2⟩ := t3 i hin j
        by_cases hj : j = q
        · subst hj
          rw [← z2 le_rfl]
          exact ⟨w2.trans hsq, fun hq => by omega⟩
        · rw [w1 j hj]
          exact ⟨z1, fun hq => z2 (by omega)⟩

/-- The calibration after a round that lowered the loss by at most `lr(8-lr)/8·E`. -/
theorem trainRound_cal {S : GoSort} {X : List (List ℝ)} {O : Options (Exact ℝ)} {ohe : Dense (Exact ℝ)} {n m : Nat}
    {one : Prop} (hs : RealSetup X O ohe n m one) {c : Nat → Nat} {lr lam gam : ℝ} (hL : CalSetup X O ohe n m c lr lam gam)
    (hms : O.minSample ≤ 0) {round : Nat} {st st' : TrainState (Exact ℝ)}
    (h : trainRound (softMaxDense expR) S (finRows X) O ohe m st round = .ok st')
    (hi : TInv expR n m st) (hr : ∀ i < n, AllFin (st.rawPred.row i)) (hst : ∀ k, st.stopped.getD k false = false) :
    totalLoss n c st' ≤ totalLoss n c st ∧
    ∀ E, totalLoss n c st - totalLoss n c st' ≤ lr * (8 - lr) / 8 * E → ∀ k < m,
      |residSum c st' k (List.range n)| ≤ Real.sqrt ((n + lam) * E) + n * (Real.exp (2 * (lr * Real.sqrt E)) - 1) ∧
      (colSub O = false → 1 ≤ O.maxDepth → ∀ row0, X[0]? = some row0 → ∀ f < row0.length, ∀ θ,
        Admissible X (toInt O.minChildWeight) (List.range n) f θ →
        |residSum c st' k (leftOf X (List.range n) f θ)| ≤
          Real.sqrt ((n + lam) * (E + slackOf O gam)) + n * (Real.exp (2 * (lr * Real.sqrt E)) - 1) ∧
        |residSum c st' k (rightOf X (List.range n) f θ)| ≤
          Real.sqrt ((n + lam) * (E + slackOf O gam)) + n * (Real.exp (2 * (lr * Real.sqrt E)) - 1)) ∧
      (Deep X O → ∀ i < n, |residSum c st' k (sameRows X i)| ≤
        Real.sqrt ((n + lam) * E) + n * (Real.exp (2 * (lr * Real.sqrt E)) - 1)) := by
  have hd : (finRows X).length = n := by simp [finRows, hs.len]
  obtain ⟨idx, cols, draws, hsam, hcase⟩ := trainRound_inv h
  have hidx : idx = none := by
    have := (roundSamples_inv hsam).2
    rw [hL.rows] at this
    simpa using this
  subst hidx
  have hcols : colSub O = false → cols = [] := by
    intro hc
    unfold roundSamples at hsam
    have hr' : ((O.subSample <. GoFloat.one) && O.xgb) = false := hL.rows
    have hc' : ((O.colSubSample <. GoFloat.one) && O.xgb) = false := hc
    rw [hr', hc'] at hsam
    simp only [Bool.false_eq_true, if_false, pure, Except.pure, bind, Except.bind, Except.ok.injEq, Prod.mk.injEq] at hsam
    exact hsam.2.1.symm
  rcases hcase with ⟨hlt, _⟩ | ⟨_, acc, hacc, rfl⟩
  · exfalso
    simp at hlt
    omega
  obtain ⟨e1, e2⟩ := trainClasses_energy hs hL m le_rfl { st with draws := draws } acc hacc (hi.draws draws) hr hst
  obtain ⟨a1, _⟩ := trainClasses_inv hd m le_rfl { st with draws := draws } acc hacc (hi.draws draws)
  refine ⟨e1, ?_⟩
  intro E hE k hk
  obtain ⟨s, t1, t2, t3⟩ := e2 E hE k hk
  have hnear : ∀ i < n, |probAt acc.1 i k - probAt s i k| ≤ Real.exp (2 * (lr * Real.sqrt E)) - 1 := by
    intro i hin
    have l1 : ((acc.1.rawPred.row i).map realOf).length = m := by
      rw [List.length_map, Dense.row_length a1.rawWF (by rw [a1.rawR]; exact hin), a1.rawC]
    have l2 : ((s.rawPred.row i).map realOf).length = m := by
      rw [List.length_map, Dense.row_length t1.rawWF (by rw [t1.rawR]; exact hin), t1.rawC]
    exact softmax_near (l1.trans l2.symm) (fun j => (t3 i hin j).1) (by omega)
  have hsum : ∀ A : List Nat, A.Sublist (List.range n) → ∀ B, residSum c s k A ^ 2 ≤ B →
      |residSum c acc.1 k A| ≤ Real.sqrt B + n * (Real.exp (2 * (lr * Real.sqrt E)) - 1) := by
    intro A hA B hB
    have h1 : |residSum c s k A| ≤ Real.sqrt B := Real.abs_le_sqrt hB
    have h2 : ∀ A : List Nat, (∀ i ∈ A, i < n) → |residSum c acc.1 k A - residSum c s k A| ≤ A.length * (Real.exp (2 * (lr * Real.sqrt E)) - 1) := by
      intro A
      unfold residSum
      induction A with
      | nil => simp
      | cons a A ih =>
        intro hlt
        have := ih fun i hi => hlt i (by simp [hi])
        have h3 := hnear a (hlt a (by simp))
        simp only [List.map_cons, List.sum_cons, List.length_cons]
        push_cast
        rw [abs_le] at this h3 ⊢
        constructor <;> nlinarith [this.1, this.2, h3.1, h3.2]
    have h3 := h2 A (fun i hi => List.mem_range.1 (hA.subset hi))
    have h4 : (A.length : ℝ) ≤ n := by
      have := hA.length_le
      rw [List.length_range] at this
      exact_mod_cast this
    have h5 : 0 ≤ Real.exp (2 * (lr * Real.sqrt E)) - 1 := by
      have : 0 ≤ 2 * (lr * Real.sqrt E) := by
        have := mul_nonneg hL.lr0.le (Real.sqrt_nonneg E)
        linarith
      linarith [Real.one_le_exp this]
    have h6 := mul_le_mul_of_nonneg_right h4 h5
    have h7 := abs_sub_abs_le_abs_sub (residSum c acc.1 k A) (residSum c s k A)
    linarith
  have hres : ∀ A, residSum c { acc.1 with boosters := acc.1.boosters ++ [acc.2] } k A = residSum c acc.1 k A := fun A => rfl
  obtain ⟨r1, r2, r3⟩ := t2
  rw [hs.len] at r1 r2 r3
  refine ⟨?_, ?_, ?_⟩
  · rw [hres]
    exact hsum _ (List.Sublist.refl _) _ r1
  · intro hc hdp row0 hrow0 f hf θ hadm
    obtain ⟨g1, g2⟩ := r2 (hcols hc) hdp row0 hrow0 f hf θ hadm
    rw [hres, hres]
    exact ⟨hsum _ List.filter_sublist _ g1, hsum _ List.filter_sublist _ g2⟩
  · intro hD i hi
    have hsl : (sameRows X i).Sublist (List.range n) := by
      unfold sameRows
      rw [hs.len]
      exact List.filter_sublist
    rw [hres]
    exact hsum _ hsl _ (r3 hD i hi)

theorem totalLoss_nonneg {n m : Nat} {c : Nat → Nat} {st : TrainState (Exact ℝ)} (hi : TInv expR n m st) (hc : ∀ i < n, c i < m) :
    0 ≤ totalLoss n c st := by
  unfold totalLoss
  apply List.sum_nonneg
  intro x hx
  obtain ⟨i, hir, rfl⟩ := List.mem_map.1 hx
  have hin := List.mem_range.1 hir
  have hl : ((st.rawPred.row i).map realOf).length = m := by
    rw [List.length_map, Dense.row_length hi.rawWF (by rw [hi.rawR]; exact hin), hi.rawC]
  have hlt : c i < ((st.rawPred.row i).map realOf).length := by rw [hl]; exact hc i hin
  have hne : (st.rawPred.row i).map realOf ≠ [] := by intro h0; rw [h0] at hlt; simp at hlt
  unfold rowLoss
  rw [softmax_get hlt, neg_nonneg]
  apply Real.log_nonpos (div_nonneg (Real.exp_pos _).le (sum_exp_pos hne).le)
  rw [div_le_one (sum_exp_pos hne)]
  exact List.single_le_sum (fun x hx => by
    obtain ⟨y, _, rfl⟩ := List.mem_map.1 hx
    exact (Real.exp_pos y).le) _ (List.mem_map.2 ⟨_, List.getElem_mem _, rfl⟩)

end Boo
