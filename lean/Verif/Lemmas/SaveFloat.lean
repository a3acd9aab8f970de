import Verif.Lemmas.FloatTrain
import Verif.Lemmas.Json
import Verif.Lemmas.Invariance
import Verif.Lemmas.ScanRel

/-!
# All numbers of a tree trained in float64 are finite
-/

namespace Boo
open GoFloat Spec
set_option linter.unusedSectionVars false

section AnyOrder

variable {τ : Option SumOrder}
/-- float64, with any order of the additions of `floats.Sum` -/
local notation "F64" => F64o τ

/-! ### sizes of results -/

theorem zpow2_le {e f : ℤ} (h : e ≤ f) : (2 : ℚ) ^ e ≤ 2 ^ f := zpow_le_zpow_right₀ (by norm_num) h

theorem within_rv {x : ℚ} {v : F64} {e : ℤ} (hv : v = .fin (rv x)) (he : -1074 ≤ e) (hx : |x| ≤ 2 ^ e) : Within (2 ^ e) v :=
  ⟨rv x, hv, rv_idem _, rv_bound (rv_pow e he) hx⟩

theorem nat_le_pow {k e : Nat} (h : k ≤ 2 ^ e) : (k : ℚ) ≤ 2 ^ e := by
  have : (k : ℚ) ≤ ((2 ^ e : ℕ) : ℚ) := Nat.cast_le.2 h
  rwa [Nat.cast_pow, Nat.cast_ofNat] at this

theorem pow_big {e : ℤ} (he : e ≤ 1023) : (2 : ℚ) ^ e ≤ big64 := by
  rw [big64_def]
  exact zpow2_le he

theorem Within.add {e : ℤ} {a b : F64} (ha : Within (2 ^ e) a) (hb : Within (2 ^ e) b) (h0 : -1074 ≤ e) (h1 : e + 1 ≤ 1023) :
    Within (2 ^ (e + 1)) (a +. b) := by
  obtain ⟨x, rfl, _, hx⟩ := ha
  obtain ⟨y, rfl, _, hy⟩ := hb
  have h : |x + y| ≤ 2 ^ (e + 1) := by
    rw [zpow_add₀ (by norm_num)]
    refine (abs_add_le _ _).trans ?_
    norm_num
    linarith
  exact within_rv (add64 (h.trans (pow_big h1))) (by omega) h

theorem Within.sub {e : ℤ} {a b : F64} (ha : Within (2 ^ e) a) (hb : Within (2 ^ e) b) (h0 : -1074 ≤ e) (h1 : e + 1 ≤ 1023) :
    Within (2 ^ (e + 1)) (a -. b) := by
  obtain ⟨x, rfl, _, hx⟩ := ha
  obtain ⟨y, rfl, _, hy⟩ := hb
  have h : |x - y| ≤ 2 ^ (e + 1) := by
    rw [zpow_add₀ (by norm_num)]
    refine (abs_sub _ _).trans ?_
    norm_num
    linarith
  exact within_rv (sub64 (h.trans (pow_big h1))) (by omega) h

theorem Within.mul {e f : ℤ} {a b : F64} (ha : Within (2 ^ e) a) (hb : Within (2 ^ f) b) (h0 : -1074 ≤ e + f) (h1 : e + f ≤ 1023) :
    Within (2 ^ (e + f)) (a *. b) := by
  obtain ⟨x, rfl, _, hx⟩ := ha
  obtain ⟨y, rfl, _, hy⟩ := hb
  have h : |x * y| ≤ 2 ^ (e + f) := by
    rw [zpow_add₀ (by norm_num), abs_mul]
    exact mul_le_mul hx hy (abs_nonneg _) (by positivity)
  exact within_rv (mul64 (h.trans (pow_big h1))) h0 h

theorem Within.div {e f : ℤ} {a : F64} {d : ℚ} (ha : Within (2 ^ e) a) (hd : 2 ^ f ≤ d) (h0 : -1074 ≤ e - f) (h1 : e - f ≤ 1023) :
    Within (2 ^ (e - f)) (a /. .fin d) := by
  obtain ⟨x, rfl, _, hx⟩ := ha
  have hf : (0 : ℚ) < 2 ^ f := by positivity
  have hd0 : 0 < d := hf.trans_le hd
  have h : |x / d| ≤ 2 ^ (e - f) := by
    rw [zpow_sub₀ (by norm_num), abs_div, abs_of_pos hd0]
    exact div_le_div₀ (by positivity) hx hf hd
  exact within_rv (div64 hd0.ne' (h.trans (pow_big h1))) h0 h

theorem Within.pow_mono {e f : ℤ} {a : F64} (ha : Within (2 ^ e) a) (h : e ≤ f) : Within (2 ^ f) a := ha.mono (zpow2_le h)

theorem Within.nat {k : Nat} {a : F64} (ha : Within (k : ℚ) a) (hk : k ≤ 2 ^ 51) : Within (2 ^ (51 : ℤ)) a := by
  refine ha.mono ?_
  have : (k : ℚ) ≤ ((2 ^ 51 : ℕ) : ℚ) := by exact_mod_cast hk
  refine this.trans (le_of_eq ?_)
  norm_num

/-- a number that is at most `2¹⁰²³` in size -/
abbrev Big (v : F64) : Prop := Within (2 ^ (1023 : ℤ)) v

theorem Within.big {e : ℤ} {a : F64} (ha : Within (2 ^ e) a) (h : e ≤ 1023) : Big a := ha.pow_mono h

theorem isFin64 {v : F64} (h : Big v) : isFin v = true := by
  obtain ⟨x, rfl, _, hx⟩ := h
  have hz : ((zero : F64) -. .fin x) = .fin (rv (0 - x)) := sub64 (by rw [zero_sub, abs_neg, big64_def]; exact hx)
  unfold isFin
  rw [hz]
  have hp : ∀ y : ℚ, ((.fin y : F64) ==. posInf) = false := fun y => rfl
  rw [hp, hp]
  simp

/-! ### the scores of splits -/

/-- a denominator that is not too small -/
def Den (lam : ℚ) (v : F64) : Prop := ∃ d : ℚ, (v +. .fin lam) = .fin d ∧ 2 ^ (-20 : ℤ) ≤ d

theorem gainG_fin {yL yR y : F64} {nl nr n : Nat} (h1 : Within (2 ^ (51 : ℤ)) yL) (h2 : Within (2 ^ (51 : ℤ)) yR)
    (h3 : Within (2 ^ (51 : ℤ)) y) (hl : 1 ≤ nl) (hr : 1 ≤ nr) (hn : 1 ≤ n) (hl' : nl ≤ 2 ^ 50) (hr' : nr ≤ 2 ^ 50) (hn' : n ≤ 2 ^ 50) :
    Big (gainG yL yR y nl nr n) := by
  have hint : ∀ k : Nat, k ≤ 2 ^ 50 → (ofInt (k : Int) : F64) = .fin (k : ℚ) := by
    intro k hk
    have := ofInt64 (τ := τ) (n := (k : Int)) (by
      rw [abs_of_nonneg (by positivity)]
      have : (k : Int) ≤ 2 ^ 50 := by exact_mod_cast hk
      exact this.trans_lt (by norm_num))
    simpa using this
  have hpos : ∀ k : Nat, 1 ≤ k → (2 : ℚ) ^ (0 : ℤ) ≤ k := by
    intro k hk
    simpa using hk
  have hm1 : Within (2 ^ (0 : ℤ)) (ofInt (-1) : F64) := ⟨-1, negOne64, by rw [rv_neg, rv_one], by norm_num⟩
  have a1 := (hm1.mul (h1.mul h1 (by norm_num) (by norm_num)) (by norm_num) (by norm_num)).div (hpos nl hl) (by norm_num) (by norm_num)
  have a2 := (h2.mul h2 (by norm_num) (by norm_num)).div (hpos nr hr) (by norm_num) (by norm_num)
  have a3 := (h3.mul h3 (by norm_num) (by norm_num)).div (hpos n hn) (by norm_num) (by norm_num)
  have a4 := ((a1.pow_mono (f := 102) (by norm_num)).sub (a2.pow_mono (f := 102) (by norm_num)) (by norm_num) (by norm_num)).add
    (a3.pow_mono (f := 103) (by norm_num)) (by norm_num) (by norm_num)
  have a5 := a4.big (by norm_num)
  rw [← hint nl hl', ← hint nr hr', ← hint n hn'] at a5
  exact a5

theorem gainX_fin {gL hL gR hR g h : F64} {lam gam : ℚ} (h1 : Within (2 ^ (51 : ℤ)) gL) (h2 : Within (2 ^ (51 : ℤ)) gR)
    (h3 : Within (2 ^ (51 : ℤ)) g) (hl : Den lam hL) (hr : Den lam hR) (hn : Den lam h) (hg : |gam| ≤ 2 ^ (1000 : ℤ)) (rg : rv gam = gam) :
    Big (gainX (.fin lam) (.fin gam) gL hL gR hR g h) := by
  obtain ⟨d1, e1, l1⟩ := hl
  obtain ⟨d2, e2, l2⟩ := hr
  obtain ⟨d3, e3, l3⟩ := hn
  have a1 := (h1.mul h1 (by norm_num) (by norm_num)).div l1 (by norm_num) (by norm_num)
  have a2 := (h2.mul h2 (by norm_num) (by norm_num)).div l2 (by norm_num) (by norm_num)
  have a3 := (h3.mul h3 (by norm_num) (by norm_num)).div l3 (by norm_num) (by norm_num)
  have hhalf : Within (2 ^ (0 : ℤ)) (ofRat (1/2) : F64) := ⟨1/2, ofRat64 (by decide +kernel), by decide +kernel, by norm_num⟩
  have a4 := hhalf.mul ((a1.add a2 (by norm_num) (by norm_num)).sub (a3.pow_mono (f := 51 + 51 - -20 + 1) (by norm_num)) (by norm_num) (by norm_num))
    (by norm_num) (by norm_num)
  have hgw : Within (2 ^ (1000 : ℤ)) (.fin gam : F64) := ⟨gam, rfl, rg, hg⟩
  have a5 := hgw.div (f := 1) (d := 2) (by norm_num) (by norm_num) (by norm_num)
  have a6 := (a4.pow_mono (f := 1000 - 1) (by norm_num)).sub a5 (by norm_num) (by norm_num)
  have a7 := a6.big (by norm_num)
  unfold gainX Boo.sq
  rw [e1, e2, e3, ofRat64_two]
  exact a7

/-- a split whose numbers are finite, or none -/
def GoodBest (xgb : Bool) (b : Best F64) : Prop :=
  (Big b.score ∨ (xgb = false ∧ isPosInf b.score = true)) ∧ Big b.threshold

theorem goodBest0 (xgb : Bool) : GoodBest xgb (best0 xgb : Best F64) := by
  have h0 : Big (zero : F64) := ⟨0, rfl, rv_zero, by rw [abs_zero]; positivity⟩
  refine ⟨?_, h0⟩
  cases xgb with
  | true => exact Or.inl h0
  | false => exact Or.inr ⟨rfl, rfl⟩

/-- one finite value of a column of `Bounded64` data -/
def Val64 (v : F64) : Prop := ∃ x : ℚ, v = .fin x ∧ Rep64 x ∧ |x| ≤ 2 ^ (1022 : Int)

theorem thr_fin {x x' : F64} (h : Val64 x) (h' : Val64 x') : Big ((x +. x') /. ofRat 2) := by
  obtain ⟨a, rfl, ra, ba⟩ := h
  obtain ⟨b, rfl, rb, bb⟩ := h'
  have wa : Within (2 ^ (1022 : ℤ)) (.fin a : F64) := ⟨a, rfl, (rep64_rv ra).1, ba⟩
  have wb : Within (2 ^ (1022 : ℤ)) (.fin b : F64) := ⟨b, rfl, (rep64_rv rb).1, bb⟩
  rw [ofRat64_two]
  exact ((wa.add wb (by norm_num) (by norm_num)).div (f := 1) (d := 2) (by norm_num) (by norm_num) (by norm_num)).big (by norm_num)

theorem step_small {k : Nat} {a b : F64} (ha : Within (k : ℚ) a) (hb : Within 1 b) (hk : k + 1 < 2 ^ 53) :
    Within ((k + 1 : Nat) : ℚ) (a +. b) ∧ Within ((k + 1 : Nat) : ℚ) (a -. b) := by
  obtain ⟨x, rfl, _, hx⟩ := ha
  obtain ⟨y, rfl, _, hy⟩ := hb
  have hrep : rv (((k + 1 : Nat) : ℚ)) = ((k + 1 : Nat) : ℚ) := rv_nat hk
  have hbig : ((k + 1 : Nat) : ℚ) ≤ big64 := by
    refine le_trans ?_ big64_large
    have : k + 1 ≤ 2 ^ 60 := by omega
    exact_mod_cast this
  have h1 : |x + y| ≤ ((k + 1 : Nat) : ℚ) := by
    push_cast
    exact (abs_add_le _ _).trans (by linarith)
  have h2 : |x - y| ≤ ((k + 1 : Nat) : ℚ) := by
    push_cast
    exact (abs_sub _ _).trans (by linarith)
  exact ⟨⟨_, add64 (h1.trans hbig), rv_idem _, rv_bound hrep h1⟩, ⟨_, sub64 (h2.trans hbig), rv_idem _, rv_bound hrep h2⟩⟩

/-- what the scan of one column needs: small targets, finite values, and denominators that stay away from 0 -/
theorem scan_fin {p : ScanParams F64} {N : Nat} (hN : N ≤ 2 ^ 50) (hn : p.n = N) (hsum : Within (2 ^ (51 : ℤ)) p.sumA) {lam gam : ℚ}
    (hx : p.xgb = true → p.lambda = .fin lam ∧ p.gamma = .fin gam ∧ |gam| ≤ 2 ^ (1000 : ℤ) ∧ rv gam = gam ∧ Den lam p.sumB)
    (I : List (F64 × F64 × F64) → F64 → F64 → Prop)
    (hI : p.xgb = true → ∀ x a b r rest bL bR, I ((x, a, b) :: r :: rest) bL bR →
      I (r :: rest) (bL +. b) (bR -. b) ∧ Den lam (bL +. b) ∧ Den lam (bR -. b)) :
    ∀ (rows : List (F64 × F64 × F64)) (nl nr : Nat) (aL aR bL bR : F64) (best : Best F64),
      (∀ r ∈ rows, Val64 r.1 ∧ Within 1 r.2.1) → nl + nr = N → rows.length ≤ nr → Within (nl : ℚ) aL → Within ((N + nl : Nat) : ℚ) aR →
      (p.xgb = true → I rows bL bR) → GoodBest p.xgb best → GoodBest p.xgb (scan p rows nl nr aL aR bL bR best) := by
  intro rows
  induction rows with
  | nil => intro nl nr aL aR bL bR best _ _ _ _ _ _ hb; simpa [scan] using hb
  | cons r rest ih =>
    obtain ⟨x, a, b⟩ := r
    cases rest with
    | nil => intro nl nr aL aR bL bR best _ _ _ _ _ _ hb; simpa [scan] using hb
    | cons r' rest =>
      obtain ⟨x', a', b'⟩ := r'
      intro nl nr aL aR bL bR best hr hs hle hL hR hi hb
      simp only [List.length_cons] at hle
      obtain ⟨hx0, ha⟩ := hr (x, a, b) (by simp)
      obtain ⟨hx1, _⟩ := hr (x', a', b') (by simp)
      have hL' := (step_small hL ha (by omega)).1
      have hR' := (step_small hR ha (by omega)).2
      rw [show N + nl + 1 = N + (nl + 1) by omega] at hR'
      have e1 : (nr : Int) - 1 = ((nr - 1 : Nat) : Int) := by omega
      have e2 : (nl : Int) + 1 = ((nl + 1 : Nat) : Int) := by omega
      have hrest : ∀ r ∈ (x', a', b') :: rest, Val64 r.1 ∧ Within 1 r.2.1 := fun r h => hr r (by simp only [List.mem_cons] at h ⊢; exact Or.inr h)
      have hi' : p.xgb = true → I ((x', a', b') :: rest) (bL +. b) (bR -. b) ∧ Den lam (bL +. b) ∧ Den lam (bR -. b) :=
        fun h => hI h _ _ _ _ _ _ _ (hi h)
      unfold scan
      simp only [e1, e2]
      have hrec := fun best hb => ih (nl + 1) (nr - 1) (aL +. a) (aR -. a) (bL +. b) (bR -. b) best hrest (by omega)
        (by simp only [List.length_cons]; omega) hL' hR' (fun h => (hi' h).1) hb
      split
      · exact hrec best hb
      · split
        · exact hb
        · refine hrec _ ?_
          split
          · refine ⟨Or.inl ?_, thr_fin hx0 hx1⟩
            show Big (p.gain _ _ _ _ _ _)
            unfold ScanParams.gain
            split
            · rename_i hxg
              obtain ⟨q1, q2, q3, q4, q5⟩ := hx hxg
              rw [q1, q2]
              exact gainX_fin (hL'.nat (by omega)) (hR'.nat (by omega)) hsum (hi' hxg).2.1 (hi' hxg).2.2 q5 q3 q4
            · rw [hn]
              exact gainG_fin (hL'.nat (by omega)) (hR'.nat (by omega)) hsum (by omega) (by omega) (by omega) (by omega) (by omega) hN
          · exact hb

/-! ### sums of Hessians -/

/-- Hessians for which the denominators stay away from 0: all 1 and `Lambda ≥ 0`, or between 0 and 1, for at most `2²⁰` rows and
`Lambda ≥ 2⁻⁸`. -/
def HessCase (lam : ℚ) (l : List ℚ) : Prop :=
  (0 ≤ lam ∧ ∀ v ∈ l, v = 1) ∨ (2 ^ (-8 : ℤ) ≤ lam ∧ l.length ≤ 2 ^ 20 ∧ ∀ v ∈ l, rv v = v ∧ 0 ≤ v ∧ v ≤ 1)

theorem den_of {lam x : ℚ} (hlamB : lam ≤ 2 ^ (1000 : ℤ)) (hx : |x| ≤ 2 ^ 52) (h : 2 ^ (-9 : ℤ) ≤ x + lam) : Den lam (.fin x : F64) := by
  have h9 : (0 : ℚ) < 2 ^ (-9 : ℤ) := by positivity
  have hb : |x + lam| ≤ big64 := by
    rw [abs_of_pos (by linarith)]
    exact room1000 hlamB ((le_abs_self _).trans (hx.trans (by norm_num)))
  refine ⟨rv (x + lam), add64 hb, ?_⟩
  have := rv_mono h
  rw [rv_pow _ (by norm_num)] at this
  exact (zpow2_le (by norm_num)).trans this

/-- the value of a finite number -/
def finPart64 (v : F64) : ℚ := match v with | .fin x => x | _ => 0

theorem hess_inv_ones {lam : ℚ} {l : List ℚ} (hN : l.length ≤ 2 ^ 50) (hne : l ≠ []) (hlamB : lam ≤ 2 ^ (1000 : ℤ)) (h0 : 0 ≤ lam)
    (h1 : ∀ v ∈ l, v = 1) :
    ∃ I : List (F64 × F64 × F64) → F64 → F64 → Prop,
      (∀ x a b r rest bL bR, I ((x, a, b) :: r :: rest) bL bR →
        I (r :: rest) (bL +. b) (bR -. b) ∧ Den lam (bL +. b) ∧ Den lam (bR -. b)) ∧
      Den lam (GoFloat.sum (l.map XF.fin : List F64)) ∧
      ∀ rows, (rows.map fun r => r.2.2).Perm (l.map XF.fin) → I rows (.fin 0) (GoFloat.sum (l.map XF.fin : List F64)) := by
  obtain ⟨H, e1, _, _, _, e5⟩ := sum_smallSum (τ := τ) l (fun x hx => by rw [h1 x hx]; exact rv_one) (fun x hx => by rw [h1 x hx]; simp)
    (by omega)
  have e5 := e5 h1
  subst e5
  have h9 : (2 : ℚ) ^ (-9 : ℤ) ≤ 1 := by norm_num
  have hden : ∀ k : Nat, 1 ≤ k → k ≤ 2 ^ 51 → Den lam (.fin (k : ℚ) : F64) := by
    intro k hk hk'
    have h2 : (1 : ℚ) ≤ k := by exact_mod_cast hk
    refine den_of hlamB ?_ (by linarith)
    rw [abs_of_nonneg (by linarith)]
    exact nat_le_pow (by omega)
  refine ⟨fun rows bL bR => (∀ r ∈ rows, r.2.2 = .fin 1) ∧ ∃ nl nr : Nat, bL = .fin (nl : ℚ) ∧ bR = .fin (nr : ℚ) ∧ rows.length ≤ nr ∧
    nl + nr ≤ 2 ^ 50, ?_, ?_, ?_⟩
  · rintro x a b r rest _ _ ⟨hb, nl, nr, rfl, rfl, hle, hs⟩
    simp only [List.length_cons] at hle
    have hb1 : b = .fin 1 := hb (x, a, b) (by simp)
    subst hb1
    have ea : ((.fin (nl : ℚ) : F64) +. .fin 1) = .fin ((nl + 1 : Nat) : ℚ) := by
      have : |(nl : ℚ) + 1| ≤ big64 := by
        rw [abs_of_nonneg (add_nonneg (Nat.cast_nonneg _) zero_le_one)]
        refine le_trans ?_ big64_large
        have := nat_le_pow (k := nl + 1) (e := 60) (by omega)
        rwa [Nat.cast_add, Nat.cast_one] at this
      rw [add64 this]
      have := rv_nat (k := nl + 1) (by omega)
      push_cast at this ⊢
      rw [this]
    have er : ((.fin (nr : ℚ) : F64) -. .fin 1) = .fin ((nr - 1 : Nat) : ℚ) := by
      have hc : (nr : ℚ) - 1 = ((nr - 1 : Nat) : ℚ) := by
        rw [Nat.cast_sub (by omega)]
        simp
      have : |(nr : ℚ) - 1| ≤ big64 := by
        rw [hc, abs_of_nonneg (Nat.cast_nonneg _)]
        refine le_trans ?_ big64_large
        exact nat_le_pow (by omega)
      rw [sub64 this, hc, rv_nat (by omega)]
    rw [ea, er]
    refine ⟨⟨fun r' h => hb r' (by simp only [List.mem_cons] at h ⊢; exact Or.inr h), nl + 1, nr - 1, rfl, rfl, ?_, by omega⟩, hden _ (by omega) (by omega),
      hden _ (by omega) (by omega)⟩
    simp only [List.length_cons]
    omega
  · rw [e1]
    exact hden _ (List.length_pos_iff.2 hne) (by omega)
  · intro rows hp
    refine ⟨?_, 0, l.length, by simp, e1, ?_, by omega⟩
    · intro r hr
      have : r.2.2 ∈ rows.map fun r => r.2.2 := List.mem_map.2 ⟨r, hr, rfl⟩
      obtain ⟨v, hv, he⟩ := List.mem_map.1 (hp.mem_iff.1 this)
      rw [← he, h1 v hv]
    · have := hp.length_eq
      simp only [List.length_map] at this
      omega

theorem hess_inv_small {lam : ℚ} {l : List ℚ} (hlamB : lam ≤ 2 ^ (1000 : ℤ)) (hlam : 2 ^ (-8 : ℤ) ≤ lam) (hN : l.length ≤ 2 ^ 20)
    (h1 : ∀ v ∈ l, rv v = v ∧ 0 ≤ v ∧ v ≤ 1) :
    ∃ I : List (F64 × F64 × F64) → F64 → F64 → Prop,
      (∀ x a b r rest bL bR, I ((x, a, b) :: r :: rest) bL bR →
        I (r :: rest) (bL +. b) (bR -. b) ∧ Den lam (bL +. b) ∧ Den lam (bR -. b)) ∧
      Den lam (GoFloat.sum (l.map XF.fin : List F64)) ∧
      ∀ rows, (rows.map fun r => r.2.2).Perm (l.map XF.fin) → I rows (.fin 0) (GoFloat.sum (l.map XF.fin : List F64)) := by
  have hrep : ∀ x ∈ l, rv x = x := fun x hx => (h1 x hx).1
  have hsm : ∀ x ∈ l, |x| ≤ 1 := fun x hx => by rw [abs_of_nonneg (h1 x hx).2.1]; exact (h1 x hx).2.2
  have hNq : (l.length : ℚ) ≤ 2 ^ 20 := nat_le_pow hN
  have hN0 : (0 : ℚ) ≤ l.length := Nat.cast_nonneg _
  obtain ⟨H, e1, _, e3, e4, _⟩ := sum_smallSum (τ := τ) l hrep hsm (by omega)
  have hH0 : 0 ≤ H := e4 fun x hx => (h1 x hx).2.1
  rw [abs_of_nonneg hH0] at e3
  obtain ⟨H', f1, _, f3, _⟩ := sum64_any (τ := τ) l hrep l.length (by
      refine le_trans ?_ big64_large
      norm_num
      linarith) (by
      have : ∀ l : List ℚ, (∀ x ∈ l, |x| ≤ 1) → (l.map fun x => |x|).sum ≤ l.length := by
        intro l
        induction l with
        | nil => intro _; simp
        | cons a l ih =>
          intro h
          have h2 := h a (by simp)
          have h3 := ih fun x hx => h x (by simp [hx])
          simp only [List.map_cons, List.sum_cons, List.length_cons]
          push_cast
          linarith
      exact this l hsm) (by
      rw [u64_def]
      norm_num
      linarith)
  rw [e1] at f1
  obtain rfl := fin_inj64 f1
  have hH : l.sum - l.length * (1 / 1073741824) ≤ H := by
    have h2 := (abs_le.1 f3).1
    rw [u64_def, show (2 : ℚ) ^ (-53 : ℤ) = 1 / 9007199254740992 by norm_num] at h2
    nlinarith
  have h8 : (2 : ℚ) ^ (-8 : ℤ) = 1 / 256 := by norm_num
  have h9 : (2 : ℚ) ^ (-9 : ℤ) = 1 / 512 := by norm_num
  have hu : ∀ x : ℚ, |x| ≤ 2 ^ 22 → |rv x - x| ≤ 1 / 1073741824 := by
    intro x hx
    refine (rv_err x).trans ?_
    have he : eta64 ≤ 2 ^ (-40 : ℤ) := by rw [eta64_def]; exact zpow2_le (by norm_num)
    rw [u64_def]
    norm_num at he hx ⊢
    linarith
  refine ⟨fun rows bL bR => (∀ r ∈ rows, ∃ b, r.2.2 = .fin b ∧ 0 ≤ b ∧ b ≤ 1) ∧ rows.length ≤ l.length ∧ ∃ x z : ℚ, bL = .fin x ∧ bR = .fin z ∧
    0 ≤ x ∧ x + rows.length ≤ l.length ∧ rv x = x ∧ |z| + rows.length ≤ 2 * l.length ∧ rv z = z ∧
    (rows.map fun r => finPart64 r.2.2).sum - (2 * l.length - rows.length) * (1 / 1073741824) ≤ z, ?_, ?_, ?_⟩
  · rintro x' a b r rest _ _ ⟨hb, hlen, x, z, rfl, rfl, hx0, hxn, hxr, hzn, hzr, hz⟩
    obtain ⟨b', hb', hb0, hb1⟩ := hb (x', a, b) (by simp)
    simp only at hb'
    subst hb'
    simp only [List.length_cons, Nat.cast_add, Nat.cast_one, List.map_cons, List.sum_cons] at hlen hxn hzn hz
    rw [show finPart64 (.fin b' : F64) = b' from rfl] at hz
    have hr0 : (0 : ℚ) ≤ rest.length := Nat.cast_nonneg _
    have hlq : (l.length : ℚ) ≤ 1048576 := hNq.trans (by norm_num)
    have habs : |z - b'| ≤ |z| + 1 := (abs_sub _ _).trans (by rw [abs_of_nonneg hb0]; linarith)
    have hz2 := hu (z - b') (by norm_num; linarith)
    have hxb : |x + b'| ≤ big64 := by
      rw [abs_of_nonneg (by linarith)]
      refine le_trans ?_ big64_large
      norm_num
      linarith
    have hzb : |z - b'| ≤ big64 := by
      refine le_trans ?_ big64_large
      norm_num
      linarith
    rw [add64 hxb, sub64 hzb]
    have hx1 : 0 ≤ rv (x + b') := by
      have := rv_mono (show 0 ≤ x + b' by linarith)
      rwa [rv_zero] at this
    have hup : rv (x + b') ≤ ((l.length - (rest.length + 1) : Nat) : ℚ) := by
      have hc : ((l.length - (rest.length + 1) : Nat) : ℚ) = l.length - (rest.length + 1) := by
        rw [Nat.cast_sub (by omega)]
        push_cast
        ring
      have := rv_mono (show x + b' ≤ ((l.length - (rest.length + 1) : Nat) : ℚ) by rw [hc]; linarith)
      rwa [rv_nat (by omega)] at this
    rw [Nat.cast_sub (by omega)] at hup
    push_cast at hup
    have hzup : |rv (z - b')| ≤ ((2 * l.length - (rest.length + 1) : Nat) : ℚ) := by
      refine rv_bound (rv_nat (by omega)) ?_
      rw [Nat.cast_sub (by omega)]
      push_cast
      linarith
    rw [Nat.cast_sub (by omega)] at hzup
    push_cast at hzup
    have hS : 0 ≤ ((r :: rest).map fun r => finPart64 r.2.2).sum := by
      apply List.sum_nonneg
      intro v hv
      obtain ⟨r', hr', rfl⟩ := List.mem_map.1 hv
      obtain ⟨w, hw, hw0, _⟩ := hb r' (List.mem_cons_of_mem _ hr')
      rw [hw]
      exact hw0
    have hS' := hS
    simp only [List.map_cons, List.sum_cons] at hS'
    have hz3 := (abs_le.1 hz2).1
    have hlow : ((r :: rest).map fun r => finPart64 r.2.2).sum - (2 * l.length - ((r :: rest).length : ℚ)) * (1 / 1073741824) ≤ rv (z - b') := by
      simp only [List.map_cons, List.sum_cons, List.length_cons, Nat.cast_add, Nat.cast_one]
      linarith
    refine ⟨⟨fun r' h => hb r' (List.mem_cons_of_mem _ h), by simp only [List.length_cons]; omega, rv (x + b'), rv (z - b'), rfl, rfl, hx1, ?_, rv_idem _, ?_,
      rv_idem _, hlow⟩, ?_, ?_⟩
    · simp only [List.length_cons, Nat.cast_add, Nat.cast_one]
      linarith
    · simp only [List.length_cons, Nat.cast_add, Nat.cast_one]
      linarith
    · refine den_of hlamB ?_ (by rw [h9]; rw [h8] at hlam; linarith)
      rw [abs_of_nonneg hx1]
      norm_num
      linarith
    · refine den_of hlamB ?_ ?_
      · norm_num
        linarith
      · simp only [List.length_cons, Nat.cast_add, Nat.cast_one] at hlow
        rw [h9]
        rw [h8] at hlam
        linarith
  · rw [e1]
    exact den_of hlamB (by rw [abs_of_nonneg hH0]; exact e3.trans (hNq.trans (by norm_num))) (by rw [h9]; rw [h8] at hlam; linarith)
  · intro rows hp
    have hlen : rows.length = l.length := by
      have := hp.length_eq
      simpa using this
    have hfin : (rows.map fun r => finPart64 r.2.2).Perm l := by
      have := hp.map finPart64
      simpa [List.map_map, Function.comp_def, finPart64] using this
    refine ⟨?_, hlen.le, 0, H, rfl, e1, le_rfl, by rw [hlen]; simp, rv_zero, ?_, ?_, ?_⟩
    · intro r hr
      have : r.2.2 ∈ rows.map fun r => r.2.2 := List.mem_map.2 ⟨r, hr, rfl⟩
      obtain ⟨v, hv, he⟩ := List.mem_map.1 (hp.mem_iff.1 this)
      exact ⟨v, he.symm, (h1 v hv).2⟩
    · rw [hlen, abs_of_nonneg hH0]
      linarith
    · assumption
    · rw [hfin.sum_eq, hlen]
      linarith

theorem hess_inv {lam : ℚ} {l : List ℚ} (hN : l.length ≤ 2 ^ 50) (hne : l ≠ []) (hlamB : lam ≤ 2 ^ (1000 : ℤ)) (h : HessCase lam l) :
    ∃ I : List (F64 × F64 × F64) → F64 → F64 → Prop,
      (∀ x a b r rest bL bR, I ((x, a, b) :: r :: rest) bL bR →
        I (r :: rest) (bL +. b) (bR -. b) ∧ Den lam (bL +. b) ∧ Den lam (bR -. b)) ∧
      Den lam (GoFloat.sum (l.map XF.fin : List F64)) ∧
      ∀ rows, (rows.map fun r => r.2.2).Perm (l.map XF.fin) → I rows (.fin 0) (GoFloat.sum (l.map XF.fin : List F64)) := by
  rcases h with ⟨h0, h1⟩ | ⟨h0, h1, h2⟩
  · exact hess_inv_ones hN hne hlamB h0 h1
  · exact hess_inv_small hlamB h0 h1 h2

/-! ### trees -/

/-- Hessians of all rows, as in `HessCase` -/
def HessAll (lam : ℚ) (n : Nat) (h : List ℚ) : Prop :=
  (0 ≤ lam ∧ ∀ v ∈ h, v = 1) ∨ (2 ^ (-8 : ℤ) ≤ lam ∧ n ≤ 2 ^ 20 ∧ ∀ v ∈ h, rv v = v ∧ 0 ≤ v ∧ v ≤ 1)

theorem HessAll.case {lam : ℚ} {n : Nat} {h : List ℚ} (hh : HessAll lam n h) {idx : List Nat} (hi : ∀ i ∈ idx, i < h.length)
    (hn : idx.length ≤ n) : HessCase lam (idx.map fun i => h.getD i 0) := by
  rcases hh with ⟨h0, h1⟩ | ⟨h0, h1, h2⟩
  · exact Or.inl ⟨h0, getD_small h1 hi⟩
  · exact Or.inr ⟨h0, by rw [List.length_map]; omega, getD_small (P := fun v => rv v = v ∧ 0 ≤ v ∧ v ≤ 1) h2 hi⟩

/-- options of a tree whose targets, gradients and Hessians are small -/
structure SmallIn (o : TreeOptions F64) (n : Nat) : Prop where
  count : n ≤ 2 ^ 50
  reg : o.xgb = false → ∃ y : List ℚ, o.y = y.map XF.fin ∧ ∀ v ∈ y, rv v = v ∧ |v| ≤ 1
  xgb : o.xgb = true → ∃ (g h : List ℚ) (lam gam : ℚ), o.gradients = some (g.map XF.fin) ∧ o.hessian = some (h.map XF.fin) ∧
    o.lambda = .fin lam ∧ o.gamma = .fin gam ∧ |gam| ≤ 2 ^ (1000 : ℤ) ∧ rv gam = gam ∧ lam ≤ 2 ^ (1000 : ℤ) ∧ rv lam = lam ∧ 0 ≤ lam ∧
    (∀ v ∈ g, rv v = v ∧ |v| ≤ 1) ∧ HessAll lam n h

theorem small_sum_within {l : List ℚ} (h : ∀ v ∈ l, rv v = v ∧ |v| ≤ 1) (hn : l.length ≤ 2 ^ 50) :
    Within (l.length : ℚ) (GoFloat.sum (l.map XF.fin : List F64)) := by
  obtain ⟨s, h1, h2, h3, _⟩ := sum_smallSum (τ := τ) l (fun x hx => (h x hx).1) (fun x hx => (h x hx).2) (by omega)
  exact ⟨s, h1, h2, h3⟩

theorem mem_within {l : List ℚ} (h : ∀ v ∈ l, rv v = v ∧ |v| ≤ 1) {a : F64} (ha : a ∈ (l.map XF.fin : List F64)) : Within 1 a := by
  obtain ⟨v, hv, rfl⟩ := List.mem_map.1 ha
  exact ⟨v, rfl, h v hv⟩

theorem findBetter_fin {S : GoSort} {X : List (List F64)} (hX : Bounded64 X) {o : TreeOptions F64} {n : Nat} (ho : SmallIn o n)
    (hn : (o.indexes.getD []).length ≤ n) {f : Nat} {best best' : Best F64} (hb : GoodBest o.xgb best)
    (h : findBetterSplit S X o f best = .ok best') : GoodBest o.xgb best' := by
  unfold findBetterSplit at h
  generalize hidx : o.indexes.getD [] = idx at h hn
  obtain ⟨col, hcol, h⟩ := bind_ok h
  have hne := sampleCol_ne hcol
  have hval : ∀ v ∈ col, Val64 v := by
    intro v hv
    obtain ⟨row, hr, hf⟩ := sampleCol_mem hcol hv
    exact hX row hr v (List.mem_of_getElem? hf)
  have hcl := sampleCol_length hcol
  have hc := ho.count
  split at h
  · cases h
  simp only at h
  split at h
  · rename_i hx
    obtain ⟨g, hs, lam, gam, e1, e2, e3, e4, e5, e6, e7, e8, e9, hg, hh⟩ := ho.xgb hx
    rw [e1, e2, e3, e4] at h
    simp only [Option.getD_some] at h
    obtain ⟨gs, q1, h⟩ := bind_ok h
    obtain ⟨hs', q2, h⟩ := bind_ok h
    obtain ⟨sg, q3, h⟩ := bind_ok h
    obtain ⟨sh, q4, h⟩ := bind_ok h
    have h := Except.ok.inj h
    have hgs := sampleSlice64 q1
    have hhs := sampleSlice64 q2
    have lg : gs.length = idx.length := by rw [hgs]; simp
    have lh : hs'.length = idx.length := by rw [hhs]; simp
    have hgsm := getD_small hg (sampleSlice64_range q1)
    obtain ⟨hperm, _, _⟩ := rows_perm S col gs hs' sg sh (by omega) (by omega) q3 q4
    obtain ⟨I, i1, i2, i3⟩ := hess_inv (τ := τ) (l := idx.map fun i => hs.getD i 0) (by rw [List.length_map]; omega) (by simpa using hne) e7
      (hh.case (sampleSlice64_range q2) hn)
    have hwsum := small_sum_within (τ := τ) hgsm (by rw [List.length_map]; omega)
    rw [List.length_map] at hwsum
    rw [← hgs] at hwsum
    rw [← hhs] at i2 i3
    rw [← h, hx]
    refine scan_fin (N := idx.length) (lam := lam) (gam := gam) (by omega) rfl (hwsum.nat (by omega))
      (fun _ => ⟨rfl, rfl, e5, e6, i2⟩) I (fun _ => i1) _ 0 idx.length zero (GoFloat.sum gs) zero (GoFloat.sum hs') best ?_ (by omega) ?_ ?_ ?_ ?_ ?_
    · intro r hr
      have hr := hperm.mem_iff.1 hr
      obtain ⟨x, a, b⟩ := r
      have m1 := (List.of_mem_zip hr).1
      have m2 := (List.of_mem_zip (List.of_mem_zip hr).2).1
      rw [hgs] at m2
      exact ⟨hval x m1, mem_within hgsm m2⟩
    · rw [hperm.length_eq]
      simp only [List.length_zip]
      omega
    · exact ⟨0, rfl, rv_zero, by simp⟩
    · simpa using hwsum
    · intro _
      refine i3 _ ?_
      refine (hperm.map _).trans ?_
      have : (col.zip (gs.zip hs')).map (fun r => r.2.2) = hs' := by
        have e : (col.zip (gs.zip hs')).map (fun r => r.2.2) = ((col.zip (gs.zip hs')).map Prod.snd).map Prod.snd := by
          rw [List.map_map]; rfl
        rw [e, List.map_snd_zip (by simp only [List.length_zip]; omega), List.map_snd_zip (by omega)]
      rw [this, hhs]
    · rw [hx] at hb
      exact hb
  · rename_i hx
    have hx : o.xgb = false := by simpa using hx
    obtain ⟨y, e1, hy⟩ := ho.reg hx
    rw [e1] at h
    obtain ⟨ys, q1, h⟩ := bind_ok h
    obtain ⟨sy, q2, h⟩ := bind_ok h
    have h := Except.ok.inj h
    have hys := sampleSlice64 q1
    have ly : ys.length = idx.length := by rw [hys]; simp
    have hysm := getD_small hy (sampleSlice64_range q1)
    obtain ⟨hperm, l1, l2⟩ := rows_perm S col ys ys sy sy (by omega) (by omega) q2 q2
    have hsy : ∃ l : List ℚ, sy = l.map XF.fin ∧ l.length = idx.length ∧ ∀ v ∈ l, rv v = v ∧ |v| ≤ 1 := by
      rw [hys] at q2
      refine ⟨_, sampleSlice64 q2, ?_, getD_small hysm (sampleSlice64_range q2)⟩
      rw [List.length_map, argSort_fst_length]
      omega
    obtain ⟨l, rfl, hl, hlv⟩ := hsy
    have hwsum := small_sum_within (τ := τ) hlv (by omega)
    rw [hl] at hwsum
    rw [← h, hx]
    refine scan_fin (N := idx.length) (lam := 0) (gam := 0) (by omega) rfl (hwsum.nat (by omega))
      (fun h => by cases h) (fun _ _ _ => True) (fun h => by cases h) _ 0 idx.length zero _ zero zero best ?_ (by omega) ?_ ?_ ?_ ?_ ?_
    · intro r hr
      obtain ⟨x, a, b⟩ := r
      have hr' := hperm.mem_iff.1 hr
      have m1 := (List.of_mem_zip hr').1
      have m2 := (List.of_mem_zip (List.of_mem_zip hr).2).1
      exact ⟨hval x m1, mem_within hlv m2⟩
    · rw [hperm.length_eq]
      simp only [List.length_zip]
      omega
    · exact ⟨0, rfl, rv_zero, by simp⟩
    · simpa using hwsum
    · intro h; cases h
    · rw [hx] at hb
      exact hb

theorem searchSplit_fin {S : GoSort} {X : List (List F64)} (hX : Bounded64 X) {o : TreeOptions F64} {n : Nat} (ho : SmallIn o n)
    (hn : (o.indexes.getD []).length ≤ n) {w : Nat} {best : Best F64}
    (h : searchSplit S X o w (best0 o.xgb) = .ok best) : GoodBest o.xgb best := by
  unfold searchSplit at h
  exact foldlM_inv _ (fun b => GoodBest o.xgb b) _ (fun b f b' _ hb h => findBetter_fin hX ho hn hb h) _ _ (goodBest0 _) h

/-- the numbers of one node are finite -/
def FinNode (i : NodeInfo F64) : Prop :=
  isFin i.threshold = true ∧ isFin i.value = true ∧ (isFin i.bestScoreSoFar = true ∨ (i.xgb = false ∧ isPosInf i.bestScoreSoFar = true))

theorem allFin_of_sub {t : Tree F64} (h : ∀ path i l r, t.sub path = .node i l r → FinNode i) : t.AllFin := by
  induction t with
  | nil => trivial
  | node i l r ihl ihr => exact ⟨h [] i l r rfl, ihl fun path => h (true :: path), ihr fun path => h (false :: path)⟩

theorem GoodBest.node {xgb : Bool} {b : Best F64} (h : GoodBest xgb b) :
    isFin b.threshold = true ∧ (isFin b.score = true ∨ (xgb = false ∧ isPosInf b.score = true)) := by
  exact ⟨isFin64 h.2, h.1.imp isFin64 id⟩

theorem SmallIn.of_inherit {X : List (List F64)} {o o' : TreeOptions F64} {n : Nat} (h : SmallIn o n) (hi : Inherit X o o') : SmallIn o' n := by
  refine ⟨h.count, ?_, ?_⟩
  · rw [hi.xgb, hi.y]
    exact h.reg
  · rw [hi.xgb, hi.grad, hi.hess, hi.lambda, hi.gamma]
    exact h.xgb

theorem SmallIn.fill {X : List (List F64)} {o : TreeOptions F64} {n : Nat} (h : SmallIn o n) : SmallIn (o.fill X) n :=
  ⟨h.count, h.reg, h.xgb⟩

/-- the value of a node -/
theorem nodeValue_fin {o : TreeOptions F64} {n : Nat} (ho : SmallIn o n) {idx : List Nat} (hn : idx.length ≤ n)
    (hne : idx ≠ [] ∨ (o.xgb = true ∧ o.lambda ≠ .fin 0)) {v : F64} (h : nodeValue o idx = .ok v) : isFin v = true := by
  have hc := ho.count
  cases hx : o.xgb with
  | true =>
    obtain ⟨g, hs, lam, gam, e1, e2, e3, e4, e5, e6, e7, e8, e9, hg, hh⟩ := ho.xgb hx
    obtain ⟨hr, hv⟩ := nodeValue64 hx e1 e2 h
    have hgr : ∀ i ∈ idx, i < g.length := by
      unfold nodeValue at h
      rw [hx, if_pos rfl, e1] at h
      obtain ⟨gs, h1, _⟩ := bind_ok h
      exact sampleSlice64_range h1
    rw [e3] at hv
    have hm1 : Within (2 ^ (0 : ℤ)) (ofInt (-1) : F64) := ⟨-1, negOne64, by rw [rv_neg, rv_one], by norm_num⟩
    have hsum := (small_sum_within (τ := τ) (getD_small hg hgr) (by rw [List.length_map]; omega)).nat (by rw [List.length_map]; omega)
    by_cases he : idx = []
    · subst he
      have hl0 : lam ≠ 0 := by
        rcases hne with h' | ⟨_, h'⟩
        · exact absurd rfl h'
        · rw [e3] at h'
          exact fun h0 => h' (by rw [h0])
      obtain ⟨s, s1, _, s3, _⟩ := sum_smallSum (τ := τ) [] (by simp) (by simp) (by simp)
      have s0 : s = 0 := by simpa using s3
      subst s0
      simp only [List.map_nil] at hv s1
      have hlb : |lam| ≤ big64 := by
        rw [abs_of_nonneg e9]
        exact e7.trans (pow_big (by norm_num))
      rw [s1, negOne64, mul64 (by simpa using big64_pos.le), mul_zero, rv_zero, add64 (by rw [zero_add]; exact hlb), zero_add, e8,
        div64 hl0 (by simpa using big64_pos.le)] at hv
      rw [hv, zero_div, rv_zero]
      exact isFin64 ⟨0, rfl, rv_zero, by rw [abs_zero]; positivity⟩
    · obtain ⟨_, _, ⟨d, hd, hd2⟩, _⟩ := hess_inv (τ := τ) (l := idx.map fun i => hs.getD i 0) (by rw [List.length_map]; omega) (by simpa using he) e7
        (hh.case hr hn)
      rw [hd] at hv
      rw [hv]
      exact isFin64 (((hm1.mul hsum (by norm_num) (by norm_num)).div hd2 (by norm_num) (by norm_num)).big (by norm_num))
  | false =>
    obtain ⟨y, e1, hy⟩ := ho.reg hx
    have he : idx ≠ [] := by
      rcases hne with h' | ⟨h', _⟩
      · exact h'
      · rw [hx] at h'; cases h'
    unfold nodeValue at h
    rw [hx, e1] at h
    simp only [Bool.false_eq_true, if_false] at h
    obtain ⟨ys, h1, h⟩ := bind_ok h
    have hv := (Except.ok.inj h).symm
    have hsum := (small_sum_within (τ := τ) (getD_small hy (sampleSlice64_range h1)) (by rw [List.length_map]; omega)).nat
      (by rw [List.length_map]; omega)
    have hys := sampleSlice64 h1
    have hlen : ys.length = idx.length := by rw [hys]; simp
    rw [← hys] at hsum
    have hint : (ofInt (ys.length : Int) : F64) = .fin (ys.length : ℚ) := by
      have := ofInt64 (τ := τ) (n := (ys.length : Int)) (by
        rw [abs_of_nonneg (Int.natCast_nonneg _)]
        have : (ys.length : Int) ≤ 2 ^ 50 := by
          have : ys.length ≤ 2 ^ 50 := by omega
          exact_mod_cast this
        exact this.trans_lt (by norm_num))
      simpa using this
    rw [hint] at hv
    have hpos : (2 : ℚ) ^ (0 : ℤ) ≤ (ys.length : ℚ) := by
      rw [hlen]
      have : 1 ≤ idx.length := List.length_pos_iff.2 he
      simpa using this
    rw [hv]
    exact isFin64 ((hsum.div hpos (by norm_num) (by norm_num)).big (by norm_num))

theorem newTree_fin {S : GoSort} {X : List (List F64)} (hX : Bounded64 X) {o : TreeOptions F64} {n d : Nat} (ho : SmallIn o n)
    (hn : (o.idx X).length ≤ n) {t : Tree F64} (h : newTreeD S X d o = .ok t)
    (hne : ∀ path i l r, t.sub path = .node i l r → i.samples ≠ [] ∨ (o.xgb = true ∧ o.lambda ≠ .fin 0)) :
    ∀ path i l r, t.sub path = .node i l r → FinNode i := by
  intro path i l r hsub
  obtain ⟨o', d', hb', _, hin, hsl, hroot, _⟩ := newTreeD_sub S _ _ _ t h path i l r hsub
  have ho' := ho.of_inherit hin
  have hlen : (o'.idx X).length ≤ n := hsl.length_le.trans hn
  obtain ⟨hsam, _, _, hv, _⟩ := mkInfo_samples hb'
  have hval : isFin i.value = true := by
    refine nodeValue_fin ho'.fill hlen ?_ hv
    rw [← hsam]
    rcases hne path i l r hsub with h' | h'
    · exact Or.inl h'
    · right
      show o'.xgb = true ∧ o'.lambda ≠ _
      rw [hin.xgb, hin.lambda]
      exact h'
  obtain ⟨v, row0, _, _, _, ⟨_, h2⟩ | ⟨_, best, _, hs, _, h2⟩ | ⟨_, best, col, tl, tr, _, hs, _, _, _, _, h2⟩⟩ := newTreeD_inv _ _ _ _ _ hb'
  · cases h2
    obtain ⟨g1, g2⟩ := (goodBest0 (τ := τ) o'.xgb).node
    exact ⟨g1, hval, g2⟩
  · cases h2
    obtain ⟨g1, g2⟩ := (searchSplit_fin (o := o'.fill X) hX ho'.fill hlen hs).node
    exact ⟨g1, hval, g2⟩
  · cases h2
    obtain ⟨g1, g2⟩ := (searchSplit_fin (o := o'.fill X) hX ho'.fill hlen hs).node
    exact ⟨g1, hval, g2⟩

/-- the tree of a class -/
theorem classTree_fin64 {S : GoSort} {X : List (List F64)} (hB : Bounded64 X) {O : Options F64} {lr lam gam W : ℚ}
    (hO : FloatOptions O lr lam W) (hgam : O.gamma = .fin gam) (hgrep : rv gam = gam) (hgB : |gam| ≤ 2 ^ (1000 : ℤ)) (hX : X ≠ [])
    (hn : X.length ≤ 2 ^ 50) (hL : ∀ lv, O.loss = some lv → LeafBound X O lv.fn lam W ∧
      (lv.fn = mseLoss → 2 ^ (-8 : ℤ) ≤ lam ∧ X.length ≤ 2 ^ 20)) {t : Tree F64} (ht : Origin64 S X O lam t) : t ≠ .nil ∧ t.AllFin := by
  obtain ⟨idx, cols, y, p, lv, hlv, hidx, hyp, hpl, h⟩ := ht
  obtain ⟨hLB, hmse⟩ := hL lv hlv
  have hsmall := classTree64 hO hLB hX (by omega) hidx.1 hidx.2 hyp hpl h
  obtain ⟨g, hgl, hg, hng, hgr⟩ := grads_small (τ := τ) hyp
  have hlfg : lv.fn.gradients = grad ∧ lv.fn.negGradients = negGrad := by
    rcases hLB with ⟨h, _⟩ | ⟨h, _⟩ <;> rw [h] <;> exact ⟨rfl, rfl⟩
  have hhess : ∃ hs : List ℚ, lv.fn.hessian (p.map XF.fin) = hs.map XF.fin ∧ HessAll lam X.length hs := by
    rcases hLB with ⟨h, _⟩ | ⟨h, _⟩
    · refine ⟨p.map fun _ => 1, ?_, Or.inl ⟨hO.lam0, by simp⟩⟩
      rw [h]
      show (p.map XF.fin).map (fun _ => (one : F64)) = _
      have ho : (one : F64) = .fin 1 := one64
      simp [ho, Function.comp_def]
    · obtain ⟨hs, _, h2, h3⟩ := mse_hess_small (τ := τ) hyp.prob
      rw [h]
      exact ⟨hs, h2, Or.inr ⟨(hmse h).1, (hmse h).2, h3⟩⟩
  obtain ⟨hs, hhe, hHA⟩ := hhess
  unfold classTree at h
  rw [hlfg.1, hlfg.2, hhe, hng, hgr] at h
  simp only [bind, Except.bind] at h
  split at h
  · rename_i hxgb
    refine ⟨newTree_ne_nil h, allFin_of_sub (newTree_fin hB (n := X.length) ⟨hn, ?_, ?_⟩ ?_ h ?_)⟩
    · intro hf; cases hf
    · intro _
      refine ⟨_, hs, lam, gam, rfl, rfl, hO.lamEq, hgam, hgB, hgrep, hO.lamBig, hO.lamRep, hO.lam0, ?_, hHA⟩
      intro v hv
      obtain ⟨w, hw, rfl⟩ := List.mem_map.1 hv
      rw [abs_neg, rv_neg, (hg w hw).1]
      exact ⟨rfl, (hg w hw).2⟩
    · unfold TreeOptions.idx
      cases idx with
      | none => simp
      | some s => simpa using (hidx.1 s rfl).1
    · intro path i l r hsub
      rcases hidx.2 with ⟨_, h2⟩ | ⟨h1, h2⟩
      · right
        refine ⟨rfl, ?_⟩
        show O.lambda ≠ _
        rw [hO.lamEq]
        intro he
        exact h2.ne' (fin_inj64 he)
      · left
        obtain ⟨o', d', hb', _, hin, hsl, hroot, _⟩ := newTreeD_sub S _ _ _ t h path i l r hsub
        obtain ⟨hsam, _⟩ := mkInfo_samples hb'
        by_cases hpath : path = []
        · rw [hsam, hroot hpath]
          unfold TreeOptions.idx
          cases idx with
          | none => simpa using hX
          | some s =>
            intro h0
            exact h2 (by simpa using h0)
        · exact List.length_pos_iff.1 (C06_of_midSafe S X _ t h h1.bounded.noNaN h1.midSafe path hpath i l r hsub).1
  · rename_i hxgb
    have hxf : O.xgb = false := by simpa using hxgb
    split at h
    · cases h
    rename_i t0 h0
    have hN := updateLeaves_newton _ _ _ _ h
    obtain ⟨hap, hne⟩ : Apart64 X ∧ idx ≠ some [] := by
      rcases hidx.2 with h' | h'
      · rw [hxf] at h'; cases h'.1
      · exact h'
    have hfin := newTree_fin hB (n := X.length) ⟨hn, fun _ => ⟨g, rfl, hg⟩, fun hf => by cases hf⟩ (by
        unfold TreeOptions.idx
        show (List.range X.length).length ≤ X.length
        simp) h0 (by
      intro path i l r hsub
      left
      obtain ⟨o', d', hb', _, hin, hsl, hroot, _⟩ := newTreeD_sub S _ _ _ t0 h0 path i l r hsub
      obtain ⟨hsam, _⟩ := mkInfo_samples hb'
      by_cases hpath : path = []
      · rw [hsam, hroot hpath]
        show List.range X.length ≠ []
        simpa using hX
      · exact List.length_pos_iff.1 (C06_of_midSafe S X _ t0 h0 hap.bounded.noNaN hap.midSafe path hpath i l r hsub).1)
    refine ⟨?_, allFin_of_sub ?_⟩
    · rintro rfl
      refine newTree_ne_nil h0 ?_
      cases t0 with
      | nil => rfl
      | node => exact absurd ((hN.shape []).1 rfl) (by intro h; cases h)
    intro path i' l' r' hsub'
    obtain ⟨i, l, r, hsub⟩ : ∃ i l r, t0.sub path = .node i l r := by
      cases hc : t0.sub path with
      | nil => rw [(hN.shape path).2 hc] at hsub'; cases hsub'
      | node i l r => exact ⟨i, l, r, rfl⟩
    obtain ⟨n1, n2⟩ := hN.node path i l r i' l' r' hsub hsub'
    obtain ⟨f1, f2, f3⟩ := hfin path i l r hsub
    cases hleaf : i.leaf with
    | false =>
      rw [n2 hleaf]
      exact ⟨f1, f2, f3⟩
    | true =>
      obtain ⟨_, m2⟩ := n1 hleaf
      have hleaf' : i'.leaf = true := by rw [m2]; exact hleaf
      obtain ⟨x, q1, q2, q3⟩ := hsmall path i' l' r' hsub' hleaf'
      refine ⟨by rw [m2]; exact f1, isFin64 ⟨x, q1, q2, ?_⟩, by rw [m2]; exact f3⟩
      rw [← big64_def]
      exact q3.trans hO.WBig

end AnyOrder

end Boo
