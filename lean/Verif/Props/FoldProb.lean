import Verif.Lemmas.FoldPerm
import Mathlib.Probability.Independence.InfinitePi
import Mathlib.Probability.BorelCantelli
import Mathlib.GroupTheory.Perm.DomMulAct
import Mathlib.Probability.UniformOn

/-!
# C111: the cross-validation folds are drawn fairly

The draws of `rand.IntN(tot)` are random variables with values in `Fin tot`, independent and uniform, on any probability
space `(Ω, P)`. `Tested` says that a row is in the test set of the `k`-th call. `foldSize` is the size of the `k`-th fold
that C33 gives.
-/

namespace Boo
open GoFloat MeasureTheory ProbabilityTheory

/-- the size of fold `k` of `n` folds of `tot` rows -/
def foldSize (tot n k : Nat) : Nat := if k + 1 < n then tot / n else tot - (n - 1) * (tot / n)

section
variable {F : Type} [GoFloat F]

/-- With these draws `CrossValidationSamples` returns a function whose call number `k` (from 0) returns a test set that
contains the row `x`. -/
def Tested (D : DataBunch F) (nfold : Int) (draws : ℕ → ℕ) (k : Nat) (x : List F) : Prop :=
  ∃ m n s outs train test, Sampled D nfold ((List.range m).map draws) n s ∧ callMany n s = .ok outs ∧
    outs[k]? = some (some (train, test)) ∧ x ∈ test.data

/-- the number of folds -/
def foldNumber (tot : Nat) (nfold : Int) : Nat := min (requested nfold) (tot / 2)

theorem foldNumber_ge {tot : Nat} (h4 : 4 ≤ tot) {nfold : Int} (h1 : nfold ≠ 1) : 2 ≤ foldNumber tot nfold := by
  unfold foldNumber requested
  split <;> omega

theorem sampled_iff {D : DataBunch F} {nfold : Int} (h4 : 4 ≤ D.data.length) (h1 : nfold ≠ 1) {draws : List Nat} {n : Nat}
    {s : CVSampler F} : Sampled D nfold draws n s ↔ n = foldNumber D.data.length nfold ∧
      ∃ fs, foldsOf D.data.length n draws = some fs ∧ s = ⟨D, fs, n, 0⟩ := by
  have h2 := foldNumber_ge h4 h1
  unfold Sampled crossValidationSamples foldsOf
  simp only
  rw [show (if nfold > 0 then nfold.toNat else 5) = requested nfold from rfl,
    reduceFolds_eq _ (by omega) _ (requested_pos nfold), show min (requested nfold) (D.data.length / 2) =
    foldNumber D.data.length nfold from rfl]
  simp only
  rw [if_neg (by omega)]
  constructor
  · rintro ⟨err, h⟩
    revert h
    cases hf : fillFolds (D.data.length / foldNumber D.data.length nfold) (List.range (foldNumber D.data.length nfold))
      (List.replicate (foldNumber D.data.length nfold) []) draws with
    | none => intro h; simp at h
    | some p =>
      intro h
      simp only [Option.some.injEq, Except.ok.injEq, CVResult.mk.injEq] at h
      obtain ⟨rfl, rfl, _⟩ := h
      rw [hf]
      exact ⟨rfl, _, rfl, rfl⟩
  · rintro ⟨rfl, fs, h, rfl⟩
    rw [Option.map_eq_some_iff] at h
    obtain ⟨p, h, rfl⟩ := h
    rw [h]
    exact ⟨_, rfl⟩

/-- the first `m` draws -/
def firstDraws {tot : Nat} (x : ℕ → Fin tot) (m : Nat) : List Nat := (List.range m).map fun j => (x j : ℕ)

theorem firstDraws_lt {tot : Nat} (x : ℕ → Fin tot) (m : Nat) : ∀ i ∈ firstDraws x m, i < tot := by
  intro i hi
  simp only [firstDraws, List.mem_map] at hi
  obtain ⟨j, _, rfl⟩ := hi
  exact (x j).2

/-- with the draws `x`, row `i` is put into fold `k` -/
def InFold {tot : Nat} (n : Nat) (x : ℕ → Fin tot) (k i : Nat) : Prop :=
  ∃ m fs, foldsOf tot n (firstDraws x m) = some fs ∧ InList fs k i

theorem foldsOf_unique {tot n : Nat} {x : ℕ → Fin tot} {m m' : Nat} {fs fs' : List (List Nat)}
    (h : foldsOf tot n (firstDraws x m) = some fs) (h' : foldsOf tot n (firstDraws x m') = some fs') : fs = fs' := by
  have ext : ∀ a b : Nat, a ≤ b → ∃ e, firstDraws x b = firstDraws x a ++ e := by
    intro a b hab
    refine ⟨(List.range' a (b - a)).map fun j => (x j : ℕ), ?_⟩
    unfold firstDraws
    rw [← List.map_append, List.range_eq_range', List.range_eq_range']
    congr 1
    have := List.range'_append_1 (s := 0) (m := a) (n := b - a)
    rw [Nat.zero_add, Nat.add_sub_cancel' hab] at this
    exact this.symm
  rcases le_total m m' with hm | hm
  · obtain ⟨e, he⟩ := ext _ _ hm
    rw [he, foldsOf_append e h] at h'
    exact Option.some.inj h'
  · obtain ⟨e, he⟩ := ext _ _ hm
    rw [he, foldsOf_append e h'] at h
    exact (Option.some.inj h).symm

theorem tested_iff {D : DataBunch F} {nfold : Int} (h4 : 4 ≤ D.data.length) (h1 : nfold ≠ 1) (hnd : D.data.Nodup)
    (x : ℕ → Fin D.data.length) (k : Nat) (i : Fin D.data.length) :
    Tested D nfold (fun j => x j) k (D.data.get i) ↔ InFold (foldNumber D.data.length nfold) x k i := by
  have h2 := foldNumber_ge h4 h1
  unfold Tested InFold
  constructor
  · rintro ⟨m, n, s, outs, train, test, hs, hc, ho, hx⟩
    rw [sampled_iff h4 h1] at hs
    obtain ⟨rfl, fs, hf, rfl⟩ := hs
    have hp := foldsOf_parts (by omega) (firstDraws_lt x m) hf
    obtain ⟨folds, _, _, _, pairs, hcall, _, hpairs⟩ := C33_folds D nfold _ (firstDraws_lt x m) _ _
      ((sampled_iff h4 h1).2 ⟨rfl, fs, hf, rfl⟩)
    refine ⟨m, fs, hf, ?_⟩
    rw [callMany_eq hp _ 0 (by omega)] at hc
    have hc := Except.ok.inj hc
    rw [← hc] at ho
    simp only [List.drop_zero, Nat.sub_zero, Nat.sub_self, List.replicate_zero, List.append_nil,
      ← List.range_eq_range'] at ho
    rw [List.take_of_length_le (by simp [hp.len]), List.getElem?_map, Option.map_eq_some_iff] at ho
    obtain ⟨⟨f, c⟩, hz, he⟩ := ho
    rw [List.getElem?_zip_eq_some] at hz
    simp only [Option.some.injEq, Prod.mk.injEq] at he
    obtain ⟨-, rfl⟩ := he
    refine ⟨f, hz.1, ?_⟩
    simp only [pick, List.mem_filterMap] at hx
    obtain ⟨j, hj, hx⟩ := hx
    obtain ⟨hlt, hx⟩ := List.getElem?_eq_some_iff.1 hx
    have : j = i.1 := by
      have := (List.nodup_iff_injective_get.1 hnd) (a₁ := ⟨j, hlt⟩) (a₂ := i) hx
      rw [← this]
    exact this ▸ hj
  · rintro ⟨m, fs, hf, f, hk, hi⟩
    have hp := foldsOf_parts (by omega) (firstDraws_lt x m) hf
    have hk' : k < foldNumber D.data.length nfold := by
      have := (List.getElem?_eq_some_iff.1 hk).1
      rwa [hp.len] at this
    refine ⟨m, _, _, _, _, _, (sampled_iff h4 h1).2 ⟨rfl, fs, hf, rfl⟩, callMany_eq hp _ 0 (by omega),
      (?_ : _ = some (some (pick D (fs.eraseIdx k).flatten, pick D f))), ?_⟩
    · simp only [List.drop_zero, Nat.sub_zero, Nat.sub_self, List.replicate_zero, List.append_nil,
        ← List.range_eq_range']
      rw [List.take_of_length_le (by simp [hp.len]), List.getElem?_map, Option.map_eq_some_iff]
      refine ⟨(f, k), ?_, rfl⟩
      rw [List.getElem?_zip_eq_some]
      exact ⟨hk, by simp [hk']⟩
    · simp only [pick, List.mem_filterMap]
      exact ⟨i, hi, by simp⟩
end

section
variable {tot n : Nat}

/-- renaming the draws renames the rows -/
theorem inFold_perm (hn : 1 ≤ n) (σ : Equiv.Perm (Fin tot)) (x : ℕ → Fin tot) (k : Nat) (i : Fin tot) :
    InFold n (fun j => σ (x j)) k (σ i) ↔ InFold n x k i := by
  have one : ∀ (σ : Equiv.Perm (Fin tot)) (x : ℕ → Fin tot) (i : Fin tot), InFold n x k i →
      InFold n (fun j => σ (x j)) k (σ i) := by
    intro σ x i
    rintro ⟨m, fs, hf, hi⟩
    let τ : ℕ → ℕ := σ.extendDomain (Fin.equivSubtype (n := tot))
    have hτ : ∀ i : Fin tot, τ i = σ i := fun i => Equiv.Perm.extendDomain_apply_image σ Fin.equivSubtype i
    have hτ' : ∀ i, ¬ i < tot → τ i = i := fun i hi => Equiv.Perm.extendDomain_apply_not_subtype σ Fin.equivSubtype hi
    have ht : ∀ i, τ i < tot ↔ i < tot := by
      intro i
      by_cases hi : i < tot
      · have := hτ ⟨i, hi⟩
        simp only at this
        rw [this]
        simp [hi]
      · rw [hτ' i hi]
    obtain ⟨gs, hg, hm⟩ := foldsOf_map hn (σ.extendDomain (Fin.equivSubtype (n := tot))).injective ht (firstDraws_lt x m) hf
    refine ⟨m, gs, ?_, ?_⟩
    · rw [← hg]
      congr 1
      unfold firstDraws
      rw [List.map_map]
      exact List.map_congr_left fun j _ => (hτ (x j)).symm
    · rw [← hτ i]
      exact (hm k i).2 hi
  refine ⟨fun h => ?_, one σ x i⟩
  have := one σ.symm _ _ h
  simpa using this

theorem measurableSet_first (Q : List ℕ → Prop) (m : ℕ) :
    MeasurableSet {x : ℕ → Fin tot | Q (firstDraws x m)} := by
  have : Measurable (fun (x : ℕ → Fin tot) (j : Fin m) => x j) := measurable_pi_lambda _ fun j => measurable_pi_apply _
  have h := this (MeasurableSet.of_discrete (s := {v : Fin m → Fin tot | Q (List.ofFn fun j => (v j : ℕ))}))
  convert h using 1
  ext x
  simp only [Set.mem_setOf_eq, Set.mem_preimage]
  have : firstDraws x m = List.ofFn fun j : Fin m => (x j : ℕ) := by
    unfold firstDraws
    apply List.ext_getElem <;> simp
  rw [this]

theorem measurableSet_inFold (n k i : Nat) : MeasurableSet {x : ℕ → Fin tot | InFold n x k i} := by
  have : {x : ℕ → Fin tot | InFold n x k i} =
      ⋃ m, {x : ℕ → Fin tot | ∃ fs, foldsOf tot n (firstDraws x m) = some fs ∧ InList fs k i} := by
    ext x
    simp [InFold]
  rw [this]
  exact MeasurableSet.iUnion fun m => measurableSet_first (fun l => ∃ fs, foldsOf tot n l = some fs ∧ InList fs k i) m
end

section
variable {Ω : Type} [MeasurableSpace Ω] {P : Measure Ω} [IsProbabilityMeasure P] {tot : Nat}
  {d : ℕ → Ω → Fin tot} (hd : ∀ j, Measurable (d j)) (hi : iIndepFun d P)
  (hu : ∀ j k, P {ω | d j ω = k} = (tot : ENNReal)⁻¹)
include hd hi hu

/-- The sequence of the draws and the sequence of the renamed draws have the same law. -/
theorem law_perm (σ : Equiv.Perm (Fin tot)) {S : Set (ℕ → Fin tot)} (hS : MeasurableSet S) :
    P {ω | (fun j => σ (d j ω)) ∈ S} = P {ω | (fun j => d j ω) ∈ S} := by
  have hσ : Measurable σ := Measurable.of_discrete
  have hd' : ∀ j, Measurable (fun ω => σ (d j ω)) := fun j => hσ.comp (hd j)
  have hi' : iIndepFun (fun j ω => σ (d j ω)) P := hi.comp (fun _ => σ) (fun _ => hσ)
  have e1 := hi.map_fun_eq_infinitePi_map hd
  have e2 := hi'.map_fun_eq_infinitePi_map hd'
  have e3 : ∀ j, P.map (fun ω => σ (d j ω)) = P.map (d j) := by
    intro j
    refine Measure.ext_of_singleton fun k => ?_
    rw [Measure.map_apply (hd' j) (measurableSet_singleton k), Measure.map_apply (hd j) (measurableSet_singleton k)]
    have a1 : (fun ω => σ (d j ω)) ⁻¹' {k} = {ω | d j ω = σ.symm k} := by
      ext ω
      simp [Equiv.eq_symm_apply]
    have a2 : (d j) ⁻¹' {k} = {ω | d j ω = k} := rfl
    rw [a1, a2, hu, hu]
  have hm1 : Measurable (fun ω j => d j ω) := measurable_pi_lambda _ hd
  have hm2 : Measurable (fun ω j => σ (d j ω)) := measurable_pi_lambda _ hd'
  have e : P.map (fun ω j => σ (d j ω)) = P.map (fun ω j => d j ω) := by
    rw [e1, e2]
    congr 1
    funext j
    exact e3 j
  have := congrArg (fun μ => μ S) e
  rw [Measure.map_apply hm2 hS, Measure.map_apply hm1 hS] at this
  exact this

/-- every row keeps being drawn, almost surely -/
theorem fair_ae (h0 : tot ≠ 0) : ∀ᵐ ω ∂P, Fair tot (fun j => (d j ω : ℕ)) := by
  have one : ∀ k : Fin tot, ∀ᵐ ω ∂P, ∀ N, ∃ m ≥ N, d m ω = k := by
    intro k
    let s : ℕ → Set Ω := fun j => {ω | d j ω = k}
    have hs : ∀ j, MeasurableSet (s j) := fun j => hd j (measurableSet_singleton k)
    have hind : iIndepSet s P := by
      rw [iIndepSet_iff_meas_biInter hs]
      intro T
      exact hi.measure_inter_preimage_eq_mul (sets := fun _ => {k}) T (fun _ _ => measurableSet_singleton k)
    have hsum : ∑' j, P (s j) = ⊤ := by
      have : ∀ j, P (s j) = (tot : ENNReal)⁻¹ := fun j => hu j k
      simp only [this]
      exact ENNReal.tsum_const_eq_top_of_ne_zero (by simp)
    have h1 := measure_limsup_eq_one hs hind hsum
    have h2 : ∀ᵐ ω ∂P, ω ∈ Filter.limsup s Filter.atTop :=
      (mem_ae_iff_prob_eq_one (MeasurableSet.measurableSet_limsup hs)).2 h1
    filter_upwards [h2] with ω hω N
    rw [Filter.mem_limsup_iff_frequently_mem, Filter.frequently_atTop] at hω
    exact hω N
  have all : ∀ᵐ ω ∂P, ∀ k : Fin tot, ∀ N, ∃ m ≥ N, d m ω = k := ae_all_iff.2 one
  filter_upwards [all] with ω hω k hk N
  obtain ⟨m, hm, he⟩ := hω ⟨k, hk⟩ N
  exact ⟨m, hm, by simp [he]⟩

theorem foldsOf_ae (h0 : tot ≠ 0) (n : Nat) : ∀ᵐ ω ∂P, ∃ m fs, foldsOf tot n (firstDraws (fun j => d j ω) m) = some fs := by
  filter_upwards [fair_ae hd hi hu h0] with ω hω
  obtain ⟨q, folds, h⟩ := fillFolds_seg (fun m => (d m ω).2) hω (Nat.mul_div_le tot n) n 0
      _ 0 (Nat.zero_add _) (cvInv_init tot n _)
  obtain ⟨rest, hr⟩ := h q (Nat.le_refl _)
  refine ⟨q, fillRemaining folds tot, ?_⟩
  unfold foldsOf firstDraws
  have hseg : (List.range q).map (fun j => (d j ω : ℕ)) = seg (fun j => (d j ω : ℕ)) 0 q := by
    unfold seg; rw [List.range_eq_range', Nat.sub_zero]
  rw [hseg, List.range_eq_range', hr]
  rfl

end

/-! ### sizes -/

section
variable {tot n : Nat}

theorem parts_size (hn : 1 ≤ n) {fs : List (List Nat)} (hp : CVParts tot n (tot / n) fs) {k : Nat} {f : List Nat}
    (hk : fs[k]? = some f) : f.length = foldSize tot n k := by
  unfold foldSize
  split
  · rename_i h
    exact hp.sizes k f hk h
  · rename_i h
    have hkn : k = n - 1 := by
      have := (List.getElem?_eq_some_iff.1 hk).1
      rw [hp.len] at this
      omega
    have hlen : (fs.map List.length).sum = tot := by
      have := hp.perm.length_eq
      rwa [List.length_flatten, List.length_range] at this
    have hspl : fs = fs.take (n - 1) ++ [f] := by
      have := List.take_concat_get' fs (n - 1) (by rw [hp.len]; omega)
      rw [show n - 1 + 1 = fs.length by rw [hp.len]; omega, List.take_length] at this
      conv_lhs => rw [← this]
      congr 2
      subst hkn
      exact (List.getElem?_eq_some_iff.1 hk).2
    have hsum : ((fs.take (n - 1)).map List.length).sum = (n - 1) * (tot / n) := by
      have : ∀ l ∈ (fs.take (n - 1)).map List.length, l = tot / n := by
        intro l hl
        rw [List.mem_map] at hl
        obtain ⟨g, hg, rfl⟩ := hl
        obtain ⟨j, hj⟩ := List.mem_iff_getElem?.1 hg
        rw [List.getElem?_take] at hj
        split at hj
        · exact hp.sizes j g hj (by omega)
        · cases hj
      rw [List.eq_replicate_of_mem this, List.sum_replicate, List.length_map, List.length_take, hp.len, smul_eq_mul,
        min_eq_left (by omega)]
    rw [hspl, List.map_append, List.sum_append, hsum] at hlen
    simp at hlen
    omega

theorem parts_unique {fs : List (List Nat)} (hp : CVParts tot n (tot / n) fs) {k k' i : Nat} (h : InList fs k i)
    (h' : InList fs k' i) : k = k' := by
  have hnd : fs.flatten.Nodup := hp.perm.nodup_iff.2 List.nodup_range
  rw [List.nodup_flatten] at hnd
  have hpw := List.pairwise_iff_getElem.1 hnd.2
  obtain ⟨f, hf, hi⟩ := h
  obtain ⟨g, hg, hi'⟩ := h'
  obtain ⟨hk, rfl⟩ := List.getElem?_eq_some_iff.1 hf
  obtain ⟨hk', rfl⟩ := List.getElem?_eq_some_iff.1 hg
  rcases Nat.lt_trichotomy k k' with hlt | rfl | hlt
  · exact absurd hi' (hpw _ _ _ _ hlt hi)
  · rfl
  · exact absurd hi (hpw _ _ _ _ hlt hi')

open Classical in
theorem parts_card (hn : 1 ≤ n) {fs : List (List Nat)} (hp : CVParts tot n (tot / n) fs) {k : Nat} (hk : k < n) :
    Fintype.card {i : Fin tot // InList fs k i} = foldSize tot n k := by
  have hlt : k < fs.length := by rw [hp.len]; exact hk
  have hf := List.getElem?_eq_getElem hlt
  rw [← parts_size hn hp hf]
  have hnd : fs.flatten.Nodup := hp.perm.nodup_iff.2 List.nodup_range
  have hfn : (fs[k]).Nodup := (List.nodup_flatten.1 hnd).1 _ (List.getElem_mem hlt)
  rw [← List.toFinset_card_of_nodup hfn, Fintype.card_subtype, ← Finset.card_map Fin.valEmbedding]
  congr 1
  ext j
  simp only [Finset.mem_map, Finset.mem_filter, Finset.mem_univ, true_and, Fin.valEmbedding_apply, List.mem_toFinset]
  constructor
  · rintro ⟨i, ⟨g, hg, hi⟩, rfl⟩
    rw [hf] at hg
    cases hg
    exact hi
  · intro hj
    have : j < tot := by
      have : j ∈ fs.flatten := List.mem_flatten.2 ⟨_, List.getElem_mem hlt, hj⟩
      rw [hp.perm.mem_iff, List.mem_range] at this
      exact this
    exact ⟨⟨j, this⟩, ⟨_, hf, hj⟩, rfl⟩
end

section
variable {Ω : Type} [MeasurableSpace Ω] {P : Measure Ω} [IsProbabilityMeasure P] {tot : Nat}
  {d : ℕ → Ω → Fin tot} (hd : ∀ j, Measurable (d j)) (hi : iIndepFun d P)
  (hu : ∀ j k, P {ω | d j ω = k} = (tot : ENNReal)⁻¹)
include hd hi hu

theorem inFold_iff {n : Nat} {x : ℕ → Fin tot} {m : Nat} {fs : List (List Nat)}
    (hf : foldsOf tot n (firstDraws x m) = some fs) (k i : Nat) : InFold n x k i ↔ InList fs k i := by
  constructor
  · rintro ⟨m', fs', h, hk⟩
    rw [foldsOf_unique hf h]
    exact hk
  · intro h
    exact ⟨m, fs, hf, h⟩

open Classical in
theorem share_prob (h0 : tot ≠ 0) {n : Nat} (hn : 1 ≤ n) {k : Nat} (hk : k < n) (i : Fin tot) :
    P {ω | InFold n (fun j => d j ω) k i} = (foldSize tot n k : ENNReal) / tot := by
  have hm : ∀ i : Fin tot, MeasurableSet {ω | InFold n (fun j => d j ω) k i} := fun i =>
    (measurable_pi_lambda _ hd : Measurable fun ω j => d j ω) (measurableSet_inFold n k i)
  have hsame : ∀ i', P {ω | InFold n (fun j => d j ω) k (i' : Fin tot)} = P {ω | InFold n (fun j => d j ω) k i} := by
    intro i'
    have := law_perm hd hi hu (Equiv.swap i i') (measurableSet_inFold (tot := tot) n k i')
    simp only [Set.mem_setOf_eq] at this
    rw [← this]
    congr 1
    ext ω
    have := inFold_perm hn (Equiv.swap i i') (fun j => d j ω) k i
    rw [Equiv.swap_apply_left] at this
    exact this
  have hsum : ∑ i' : Fin tot, P {ω | InFold n (fun j => d j ω) k (i' : Fin tot)} = foldSize tot n k := by
    have : ∀ i' : Fin tot, P {ω | InFold n (fun j => d j ω) k i'} =
        ∫⁻ ω, {ω | InFold n (fun j => d j ω) k i'}.indicator 1 ω ∂P := fun i' => (lintegral_indicator_one (hm i')).symm
    simp only [this]
    rw [← lintegral_finsetSum _ (fun i' _ => measurable_one.indicator (hm i'))]
    have hae : ∀ᵐ ω ∂P, ∑ i' : Fin tot, {ω | InFold n (fun j => d j ω) k i'}.indicator (1 : Ω → ENNReal) ω =
        foldSize tot n k := by
      filter_upwards [foldsOf_ae hd hi hu h0 n] with ω ⟨m, fs, hf⟩
      simp only [Set.indicator_apply, Set.mem_setOf_eq, Pi.one_apply, Finset.sum_boole]
      rw [← parts_card hn (foldsOf_parts hn (firstDraws_lt _ m) hf) hk, Fintype.card_subtype]
      congr 2
      ext i'
      simp only [Finset.mem_filter, Finset.mem_univ, true_and]
      exact inFold_iff hd hi hu hf k i'
    rw [lintegral_congr_ae hae]
    simp
  rw [Finset.sum_congr rfl fun i' _ => hsame i', Finset.sum_const, Finset.card_univ, Fintype.card_fin, nsmul_eq_mul] at hsum
  rw [ENNReal.eq_div_iff (by exact_mod_cast h0) (by simp)]
  exact hsum

open Classical in
theorem assignment_prob (h0 : tot ≠ 0) {n : Nat} (hn : 1 ≤ n) (a : Fin tot → Fin n)
    (ha : ∀ k : Fin n, Fintype.card {i // a i = k} = foldSize tot n k) :
    P {ω | ∀ i, InFold n (fun j => d j ω) (a i) (i : Fin tot)} =
      ((∏ k : Fin n, (foldSize tot n k).factorial : ℕ) : ENNReal) / (tot.factorial : ℕ) := by
  have hmS : ∀ a : Fin tot → Fin n, MeasurableSet {x : ℕ → Fin tot | ∀ i : Fin tot, InFold n x (a i) i} := by
    intro a
    rw [Set.setOf_forall]
    exact MeasurableSet.iInter fun i => measurableSet_inFold n (a i) i
  have hm : ∀ a : Fin tot → Fin n, MeasurableSet {ω | ∀ i : Fin tot, InFold n (fun j => d j ω) (a i) i} := fun a =>
    (measurable_pi_lambda _ hd : Measurable fun ω j => d j ω) (hmS a)
  have hsame : ∀ σ : Equiv.Perm (Fin tot), P {ω | ∀ i : Fin tot, InFold n (fun j => d j ω) (a (σ i)) i} =
      P {ω | ∀ i, InFold n (fun j => d j ω) (a i) (i : Fin tot)} := by
    intro σ
    have := law_perm hd hi hu σ (hmS a)
    simp only [Set.mem_setOf_eq] at this
    rw [← this]
    congr 1
    ext ω
    simp only [Set.mem_setOf_eq]
    rw [← σ.forall_congr_right (q := fun i => InFold n (fun j => σ (d j ω)) (a i) i)]
    exact forall_congr' fun i => (inFold_perm hn σ (fun j => d j ω) (a (σ i)) i).symm
  have hsum : ∑ σ : Equiv.Perm (Fin tot), P {ω | ∀ i : Fin tot, InFold n (fun j => d j ω) (a (σ i)) i} =
      ((∏ k : Fin n, (foldSize tot n k).factorial : ℕ) : ENNReal) := by
    have : ∀ σ : Equiv.Perm (Fin tot), P {ω | ∀ i : Fin tot, InFold n (fun j => d j ω) (a (σ i)) i} =
        ∫⁻ ω, {ω | ∀ i : Fin tot, InFold n (fun j => d j ω) (a (σ i)) i}.indicator 1 ω ∂P :=
      fun σ => (lintegral_indicator_one (hm (a ∘ σ))).symm
    simp only [this]
    have hm' : ∀ σ : Equiv.Perm (Fin tot), MeasurableSet {ω | ∀ i : Fin tot, InFold n (fun j => d j ω) (a (σ i)) i} :=
      fun σ => hm (a ∘ σ)
    rw [← lintegral_finsetSum _ (fun (σ : Equiv.Perm (Fin tot)) _ => measurable_one.indicator (hm' σ))]
    have hae : ∀ᵐ ω ∂P, ∑ σ : Equiv.Perm (Fin tot),
        {ω | ∀ i : Fin tot, InFold n (fun j => d j ω) (a (σ i)) i}.indicator (1 : Ω → ENNReal) ω =
        ((∏ k : Fin n, (foldSize tot n k).factorial : ℕ) : ENNReal) := by
      filter_upwards [foldsOf_ae hd hi hu h0 n] with ω ⟨m, fs, hf⟩
      have hp := foldsOf_parts hn (firstDraws_lt _ m) hf
      have hex : ∀ i : Fin tot, ∃ k : Fin n, InList fs k i := by
        intro i
        have : (i : ℕ) ∈ fs.flatten := by rw [hp.perm.mem_iff, List.mem_range]; exact i.2
        obtain ⟨k, hk⟩ := inList_flatten.1 this
        have hlt : k < n := by
          obtain ⟨f, hf, _⟩ := hk
          have := (List.getElem?_eq_some_iff.1 hf).1
          rwa [hp.len] at this
        exact ⟨⟨k, hlt⟩, hk⟩
      choose b hb using hex
      have hbk : ∀ (k : Fin n) (i : Fin tot), InList fs k i ↔ b i = k := by
        intro k i
        constructor
        · intro h
          exact Fin.ext (parts_unique hp (hb i) h)
        · rintro rfl
          exact hb i
      have hbc : ∀ k : Fin n, Fintype.card {i // b i = k} = foldSize tot n k := by
        intro k
        rw [← parts_card hn hp k.2]
        exact Fintype.card_congr (Equiv.subtypeEquivRight fun i => (hbk k i).symm)
      have hcard : ∀ k, Nonempty ({i // b i = k} ≃ {i // a i = k}) := fun k =>
        Fintype.card_eq.1 ((hbc k).trans (ha k).symm)
      let τ : Equiv.Perm (Fin tot) := Equiv.ofFiberEquiv (f := b) (g := a) fun k => (hcard k).some
      have hτ : ∀ i, a (τ i) = b i := fun i => Equiv.ofFiberEquiv_map _ i
      simp only [Set.indicator_apply, Set.mem_setOf_eq, Pi.one_apply, Finset.sum_boole]
      have hst := DomMulAct.stabilizer_card a
      have e1 : ∀ σ : Equiv.Perm (Fin tot), (∀ i : Fin tot, InFold n (fun j => d j ω) (a (σ i)) i) ↔ a ∘ (σ * τ⁻¹ : Equiv.Perm _) = a := by
        intro σ
        have : (∀ i : Fin tot, InFold n (fun j => d j ω) (a (σ i)) i) ↔ ∀ i, a (σ i) = a (τ i) := by
          refine forall_congr' fun i => ?_
          rw [inFold_iff hd hi hu hf, hbk, hτ]
          exact eq_comm
        rw [this, funext_iff, ← τ.forall_congr_right (q := fun i => (a ∘ (σ * τ⁻¹ : Equiv.Perm _)) i = a i)]
        simp
      have e2 : (Finset.univ.filter fun σ : Equiv.Perm (Fin tot) => ∀ i : Fin tot, InFold n (fun j => d j ω) (a (σ i)) i).card =
          Fintype.card {g : Equiv.Perm (Fin tot) // a ∘ g = a} := by
        rw [← Fintype.card_subtype]
        exact Fintype.card_congr ((Equiv.mulRight τ⁻¹).subtypeEquiv fun σ => e1 σ)
      rw [e2, hst]
      congr 1
      exact Finset.prod_congr rfl fun k _ => by rw [ha k]
    rw [lintegral_congr_ae hae]
    simp
  rw [Finset.sum_congr rfl fun σ _ => hsame σ, Finset.sum_const, Finset.card_univ, Fintype.card_perm, Fintype.card_fin,
    nsmul_eq_mul] at hsum
  rw [ENNReal.eq_div_iff (by exact_mod_cast Nat.factorial_ne_zero tot) (by simp)]
  exact hsum
end

section
variable {F : Type} [GoFloat F] {Ω : Type} [MeasurableSpace Ω] {P : Measure Ω} [IsProbabilityMeasure P]

/-- **C111 (returns)**: with independent uniform draws `CrossValidationSamples` returns almost surely. -/
theorem C111_returns (D : DataBunch F) (nfold : Int) (h4 : 4 ≤ D.data.length) (h1 : nfold ≠ 1)
    (d : ℕ → Ω → Fin D.data.length) (hd : ∀ j, Measurable (d j)) (hi : iIndepFun d P)
    (hu : ∀ j k, P {ω | d j ω = k} = (D.data.length : ENNReal)⁻¹) :
    ∀ᵐ ω ∂P, ∃ m s, Sampled D nfold ((List.range m).map fun j => (d j ω : ℕ)) (foldNumber D.data.length nfold) s := by
  filter_upwards [foldsOf_ae hd hi hu (by omega) (foldNumber D.data.length nfold)] with ω ⟨m, fs, hf⟩
  exact ⟨m, _, (sampled_iff h4 h1).2 ⟨rfl, fs, hf, rfl⟩⟩

/-- **C111 (share)**: a row is in the test set of call `k` with probability (size of fold `k`)/(number of rows),
whatever its position in the table. -/
theorem C111_share (D : DataBunch F) (hnd : D.data.Nodup) (nfold : Int) (h4 : 4 ≤ D.data.length) (h1 : nfold ≠ 1)
    (d : ℕ → Ω → Fin D.data.length) (hd : ∀ j, Measurable (d j)) (hi : iIndepFun d P)
    (hu : ∀ j k, P {ω | d j ω = k} = (D.data.length : ENNReal)⁻¹) (k : Nat) (hk : k < foldNumber D.data.length nfold)
    (x : List F) (hx : x ∈ D.data) :
    P {ω | Tested D nfold (fun j => d j ω) k x} =
      (foldSize D.data.length (foldNumber D.data.length nfold) k : ENNReal) / D.data.length := by
  obtain ⟨i, rfl⟩ := List.get_of_mem hx
  have h2 := foldNumber_ge h4 h1
  rw [← share_prob hd hi hu (by omega) (by omega) hk i]
  congr 1
  ext ω
  exact tested_iff h4 h1 hnd (fun j => d j ω) k i

/-- **C111 (assignments)**: all the ways of distributing the rows over folds of the given sizes have the same
probability: one over their number. -/
theorem C111_assignment (D : DataBunch F) (hnd : D.data.Nodup) (nfold : Int) (h4 : 4 ≤ D.data.length) (h1 : nfold ≠ 1)
    (d : ℕ → Ω → Fin D.data.length) (hd : ∀ j, Measurable (d j)) (hi : iIndepFun d P)
    (hu : ∀ j k, P {ω | d j ω = k} = (D.data.length : ENNReal)⁻¹)
    (a : Fin D.data.length → Fin (foldNumber D.data.length nfold))
    (ha : ∀ k, Nat.card {i // a i = k} = foldSize D.data.length (foldNumber D.data.length nfold) k) :
    P {ω | ∀ i : Fin D.data.length, Tested D nfold (fun j => d j ω) (a i) (D.data.get i)} =
      ((∏ k : Fin (foldNumber D.data.length nfold),
        (foldSize D.data.length (foldNumber D.data.length nfold) k).factorial : ℕ) : ENNReal) /
        (D.data.length.factorial : ℕ) := by
  have h2 := foldNumber_ge h4 h1
  classical
  rw [← assignment_prob hd hi hu (by omega) (by omega) a fun k => by rw [← ha k, Nat.card_eq_fintype_card]]
  congr 1
  ext ω
  exact forall_congr' fun i => tested_iff h4 h1 hnd (fun j => d j ω) (a i) i

/-- five rows in two folds, of 2 and 3 rows: each of the 10 ways has probability 1/10, a row is in the first test set
with probability 2/5 -/
example (d : ℕ → Ω → Fin 5) (hd : ∀ j, Measurable (d j)) (hi : iIndepFun d P)
    (hu : ∀ j k, P {ω | d j ω = k} = ((5 : ℕ) : ENNReal)⁻¹) :
    P {ω | ∀ i : Fin 5, Tested (⟨[[.fin 0], [.fin 1], [.fin 2], [.fin 3], [.fin 4]], [], [], []⟩ : DataBunch (Exact ℚ)) 2
      (fun j => d j ω) (![1, 0, 1, 1, 0] i : Fin 2) [.fin (i : ℚ)]} = 12 / 120 ∧
    P {ω | Tested (⟨[[.fin 0], [.fin 1], [.fin 2], [.fin 3], [.fin 4]], [], [], []⟩ : DataBunch (Exact ℚ)) 2
      (fun j => d j ω) 0 [.fin 3]} = 2 / 5 := by
  have hnd : ([[.fin 0], [.fin 1], [.fin 2], [.fin 3], [.fin 4]] : List (List (Exact ℚ))).Nodup := by decide +kernel
  constructor
  · have hc : ∀ k : Fin 2, Nat.card {i : Fin 5 // (![1, 0, 1, 1, 0] : Fin 5 → Fin 2) i = k} = foldSize 5 2 k := by
      intro k
      rw [Nat.card_eq_fintype_card]
      revert k
      decide +kernel
    have h := C111_assignment (⟨[[.fin 0], [.fin 1], [.fin 2], [.fin 3], [.fin 4]], [], [], []⟩ : DataBunch (Exact ℚ)) hnd 2
      (by decide) (by decide) d hd hi hu (![1, 0, 1, 1, 0] : Fin 5 → Fin 2)
      hc
    have e : (∏ k : Fin (foldNumber 5 2), (foldSize 5 (foldNumber 5 2) k).factorial) = 12 := by decide +kernel
    have e2 : Nat.factorial 5 = 120 := by decide +kernel
    simp only [List.length_cons, List.length_nil, Nat.reduceAdd, e, e2] at h
    refine Eq.trans ?_ (h.trans (by norm_num))
    congr 1
    ext ω
    refine forall_congr' fun i => ?_
    fin_cases i <;> norm_num
  · have h := C111_share (⟨[[.fin 0], [.fin 1], [.fin 2], [.fin 3], [.fin 4]], [], [], []⟩ : DataBunch (Exact ℚ)) hnd 2
      (by decide) (by decide) d hd hi hu 0 (by decide) [.fin 3] (by simp)
    have e : foldSize 5 (foldNumber 5 2) 0 = 2 := by decide +kernel
    simp only [List.length_cons, List.length_nil, Nat.reduceAdd, e] at h
    exact h.trans (by norm_num)

/-- such draws exist -/
example (tot : ℕ) (h0 : tot ≠ 0) : ∃ (Ω : Type) (_ : MeasurableSpace Ω) (P : Measure Ω) (_ : IsProbabilityMeasure P)
    (d : ℕ → Ω → Fin tot), (∀ j, Measurable (d j)) ∧ iIndepFun d P ∧ ∀ j k, P {ω | d j ω = k} = (tot : ENNReal)⁻¹ := by
  have : Nonempty (Fin tot) := ⟨⟨0, by omega⟩⟩
  let ν : Measure (Fin tot) := uniformOn Set.univ
  have hν : IsProbabilityMeasure ν := uniformOn_isProbabilityMeasure Set.finite_univ Set.univ_nonempty
  refine ⟨ℕ → Fin tot, inferInstance, Measure.infinitePi fun _ => ν, inferInstance,
    fun j ω => ω j, fun j => measurable_pi_apply j, ?_, ?_⟩
  · exact iIndepFun_infinitePi (P := fun _ : ℕ => ν) (X := fun _ x => x) (fun _ => measurable_id)
  · intro j k
    have h2 := Measure.infinitePi_map_eval (fun _ : ℕ => ν) j
    have h4 := congrArg (fun μ : Measure (Fin tot) => μ {k}) h2
    beta_reduce at h4
    rw [Measure.map_apply (measurable_pi_apply j) (measurableSet_singleton k)] at h4
    refine Eq.trans ?_ (h4.trans ?_)
    · rfl
    · show uniformOn Set.univ {k} = _
      rw [uniformOn_univ]
      simp
end

end Boo
