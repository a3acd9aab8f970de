import Verif.Props.Example

/-!
# C144: data with one label, and data with few rows, in cross-validation
-/

namespace Boo
open GoFloat Spec

section
variable {F : Type} [GoFloat F]

theorem goIdx_mem {α : Type} {l : List α} {i : Nat} {x : α} (h : goIdx l i = .ok x) : x ∈ l := by
  unfold goIdx at h
  cases h' : l[i]? with
  | none => rw [h'] at h; cases h
  | some y => rw [h'] at h; cases h; exact List.mem_of_getElem? h'

theorem countRight_one {M : MultiClass F} {lab : Int} (hM : ∀ l ∈ M.classLabels, l = lab) {labels : List Int} (hl : ∀ l ∈ labels, l = lab) :
    ∀ (rows : List (List F)) (i r r' : Nat), M.countRight labels rows i r = .ok r' → r' = r + rows.length := by
  intro rows
  induction rows with
  | nil =>
    intro i r r' h
    unfold MultiClass.countRight at h
    cases h
    rfl
  | cons v vs ih =>
    intro i r r' h
    unfold MultiClass.countRight at h
    obtain ⟨p, _, h⟩ := bind_ok h
    obtain ⟨a, ha, h⟩ := bind_ok h
    obtain ⟨b, hb, h⟩ := bind_ok h
    rw [if_pos ((hM a (goIdx_mem ha)).trans (hl b (goIdx_mem hb)).symm)] at h
    rw [ih _ _ _ h, List.length_cons]
    omega

/-- the rows and labels of a fold -/
theorem fold_sizes {D : DataBunch F} (hlab : D.labels.length = D.data.length) {nfold : Int} {draws : List Nat}
    (hd : ∀ x ∈ draws, x < D.data.length) {n : Nat} {s : CVSampler F} (h : Sampled D nfold draws n s)
    {pairs : List (DataBunch F × DataBunch F)} (hp : callMany n s = .ok (pairs.map some))
    (p : DataBunch F × DataBunch F) (hm : p ∈ pairs) :
    p.1.data.length + p.2.data.length = D.data.length ∧ 2 ≤ p.1.data.length ∧ 2 ≤ p.2.data.length ∧ p.1.labels.length = p.1.data.length := by
  have hn := sampled_two h
  obtain ⟨folds, hfl, hperm, h2, pairs', h3, _, h5⟩ := C33_folds D nfold draws hd n s h
  rw [hp] at h3
  simp only [Except.ok.injEq] at h3
  obtain rfl : pairs = pairs' := List.map_injective_iff.2 (Option.some_injective _) h3
  obtain ⟨i, hi⟩ := List.getElem?_of_mem hm
  obtain ⟨f, hf, e1, e2⟩ := h5 i p.1 p.2 hi
  have l1 := congrArg List.length e1
  have l2 := congrArg List.length e2
  rw [List.length_map, List.length_map] at l1 l2
  have hflat : ∀ (L : List (List Nat)) (i : Nat) f, L[i]? = some f → (L.eraseIdx i).flatten.length + f.length = L.flatten.length := by
    intro L
    induction L with
    | nil => intro i f h; cases h
    | cons a L ih =>
      intro i f h
      cases i with
      | zero =>
        rw [List.getElem?_cons_zero] at h
        cases h
        simp [Nat.add_comm]
      | succ i =>
        rw [List.getElem?_cons_succ] at h
        have := ih i f h
        rw [List.eraseIdx_cons_succ, List.flatten_cons, List.flatten_cons, List.length_append, List.length_append]
        omega
  have hs := hflat folds i f hf
  rw [hperm.length_eq, List.length_range] at hs
  obtain ⟨j, hj, hji⟩ : ∃ j < n, j ≠ i := by
    rcases Nat.eq_zero_or_pos i with h0 | h0
    · exact ⟨1, by omega, by omega⟩
    · exact ⟨0, by omega, by omega⟩
  have hfj : folds[j]? = some folds[j] := List.getElem?_eq_getElem (by omega)
  have hg := (h2 j _ hfj).1
  have hmem : folds[j] ∈ folds.eraseIdx i := by
    rw [List.mem_eraseIdx_iff_getElem?]
    exact ⟨j, hji, hfj⟩
  have hle := (List.sublist_flatten_of_mem hmem).length_le
  obtain ⟨q1, q2⟩ := fold_labels hlab hd h hp p hm
  have q3 := q1.length_eq
  rw [List.length_append] at q3
  have hf2 := (h2 i f hf).1
  omega

/-- a trained model has a tree in its first round, or no round -/
theorem rounds_pos_iff [GoFloatOrd F] {exp : F → F} {S : GoSort} {draws : Nat → F} {D : DataBunch F} {O : Options F} {M : MultiClass F}
    (h : newMultiClass exp S draws D O = .ok M) (hd : 0 < D.data.length) (hl : 0 < D.labels.length) : 0 < M.rounds none ↔ M.b ≠ [] := by
  constructor
  · intro hr hb
    unfold MultiClass.rounds at hr
    rw [hb] at hr
    simp at hr
  · intro hb
    have hbl : 0 < M.b.length := List.length_pos_iff.2 hb
    have hens := (trained_trees exp S draws D O M h _ (List.getElem?_eq_getElem hd)).2 M.b[0] (List.getElem?_eq_getElem hbl)
    have hcls : 0 < M.classLabels.length := by
      rw [(C22_rounds exp S draws D O M h).2.1]
      exact List.length_pos_of_mem (((C39_distinct D.labels).2.1 _).2 (List.getElem_mem hl))
    unfold MultiClass.rounds MultiClass.classes
    simp only
    rw [if_neg (by omega)]
    simp only [Int.toNat_zero, List.getElem?_eq_getElem hbl]
    omega

end

theorem accuracy_one {M : MultiClass F64} {lab : Int} (hM : ∀ l ∈ M.classLabels, l = lab) {D : DataBunch F64} (hl : ∀ l ∈ D.labels, l = lab)
    (hne : 0 < D.data.length) (hn : D.data.length < 2 ^ 53) {a : F64} (h : M.accuracy D = .ok a) : a = .fin 100 := by
  unfold MultiClass.accuracy at h
  obtain ⟨r, hr, h⟩ := bind_ok h
  have := countRight_one hM hl _ _ _ _ hr
  simp only [pure, Except.pure, Except.ok.injEq] at h
  obtain ⟨q, hq, _, _, h100⟩ := acc64 (τ := none) (r := r) (n := D.data.length) (by omega) hne hn
  rw [← h, hq, h100.2 (by omega)]

/-- the sum of hundreds is exact -/
theorem sum_hundreds : ∀ (m k : Nat), 100 * (k + m) < 2 ^ 53 →
    (List.replicate m (.fin 100 : F64)).foldl (· +. ·) (.fin (100 * (k : ℚ))) = .fin (100 * ((k + m : Nat) : ℚ)) := by
  intro m
  induction m with
  | zero => intro k _; simp
  | succ m ih =>
    intro k hk
    rw [List.replicate_succ, List.foldl_cons]
    have hadd : ((.fin (100 * (k : ℚ)) : F64) +. .fin 100) = XF.round (100 * (k : ℚ) + 100) := rfl
    have e : (100 * (k : ℚ) + 100) = ((100 * ((k + 1 : Nat) : Int) : Int) : ℚ) := by push_cast; ring
    have hrep : Rep64 (100 * (k : ℚ) + 100) := by
      rw [e]
      exact rep64_int (by rw [abs_of_nonneg (by omega)]; omega)
    obtain ⟨y, hy, h1, h2⟩ := round64_between (τ := none) hrep hrep le_rfl le_rfl
    rw [hadd, hy, le_antisymm h2 h1]
    have := ih (k + 1) (by omega)
    rw [show (100 * (k : ℚ) + 100) = 100 * ((k + 1 : Nat) : ℚ) by push_cast; ring, this]
    congr 2
    push_cast
    ring

/-- **C144 (one label), partial**: if all rows have the same label, a cross-validation that returns without an error reports 100 k / n, where k of its n folds have a model with
a round: all predictions are right, and a fold without a model counts as if all were wrong. Missing: every fold has a model (`C144_few_violated`). -/
theorem C144_one_label_partial (exp : F64 → F64) (S : GoSort) (D : DataBunch F64) (hN : D.data.length ≤ 2 ^ 46) (hlab : D.labels.length = D.data.length)
    (lab : Int) (hone : ∀ l ∈ D.labels, l = lab) (nfold : Int) (O : Option (Options F64)) (conc : Bool) (idraws : List Nat)
    (hd : ∀ x ∈ idraws, x < D.data.length) (fdraws : Nat → Nat → F64) (out : CVOut F64)
    (h : crossValidation exp S D nfold O conc idraws fdraws = pure out) (he : out.err = false) :
    ∃ n s, Sampled D nfold idraws n s ∧ ∃ pairs : List (DataBunch F64 × DataBunch F64), callMany n s = .ok (pairs.map some) ∧ pairs.length = n ∧
      ∃ models : List (MultiClass F64), models.length = n ∧
        (∀ (i : Nat) p M, pairs[i]? = some p → models[i]? = some M → newMultiClass exp S (fdraws i) p.1 (O.getD (defaultXOptions 0)) = .ok M) ∧
        out.acc = ofInt (100 * (models.countP fun M => !M.b.isEmpty : Nat)) /. ofInt n ∧
        ((∀ M ∈ models, M.b ≠ []) → out.acc = .fin 100) ∧ ((∃ M ∈ models, M.b ≠ []) → (zero <. out.acc) = true) := by
  obtain ⟨n, s, hs, pairs, hp, hl, accs, hla, hf, hacc, _⟩ := C54_cross_validation_partial exp S D nfold O conc idraws fdraws out h he
  have hn2 := sampled_two hs
  have hnD : n ≤ D.data.length := by
    have := (sampled_parts hs hd).2.1
    by_contra hlt
    rw [Nat.div_eq_of_lt (by omega)] at this
    omega
  refine ⟨n, s, hs, pairs, hp, hl, ?_⟩
  have hmod : ∀ i < n, ∃ M a, accs[i]? = some a ∧ (∀ p, pairs[i]? = some p → newMultiClass exp S (fdraws i) p.1 (O.getD (defaultXOptions 0)) = .ok M) ∧
      a = if M.b.isEmpty then none else some (.fin 100) := by
    intro i hi
    have hai : accs[i]? = some accs[i] := List.getElem?_eq_getElem (by omega)
    have hpi : pairs[i]? = some pairs[i] := List.getElem?_eq_getElem (by omega)
    obtain ⟨M, hM, hM2⟩ := hf i _ _ hpi hai
    have hmem := List.mem_of_getElem? hpi
    refine ⟨M, accs[i], hai, fun p hp' => ?_, ?_⟩
    · rw [hpi] at hp'
      cases hp'
      exact hM
    · generalize pairs[i] = p at *
      obtain ⟨z1, z2, z3, z4⟩ := fold_sizes hlab hd hs hp p hmem
      have hr := rounds_pos_iff hM (by omega) (by omega)
      obtain ⟨q1, _⟩ := fold_labels hlab hd hs hp p hmem
      rcases hM2 with ⟨hle, ha⟩ | ⟨hpos, x, hx, ha⟩
      · have hb : M.b = [] := by
          by_contra hb
          have := hr.2 hb
          omega
        rw [ha, hb]
        rfl
      · have hb := hr.1 hpos
        have hML : ∀ l ∈ M.classLabels, l = lab := fun l hl' =>
          hone l (q1.subset (List.mem_append_left _ (((C72_metadata exp S (fdraws i) p.1 _ M hM).2.1 l).1 hl')))
        rw [ha, accuracy_one hML (fun l hl' => hone l (q1.subset (List.mem_append_right _ hl'))) (by omega) (by omega) hx]
        rw [if_neg (by simpa using hb)]
  choose Mf af hmf using hmod
  let models : List (MultiClass F64) := List.ofFn fun i : Fin n => Mf i i.2
  have hget : ∀ i (hi : i < n), models[i]? = some (Mf i hi) := by
    intro i hi
    rw [List.getElem?_ofFn, dif_pos hi]
  have haccs : accs = models.map fun M => if M.b.isEmpty then none else some (.fin 100) := by
    apply List.ext_getElem?
    intro i
    by_cases hi : i < n
    · rw [List.getElem?_map, hget i hi, (hmf i hi).1, (hmf i hi).2.2]
      rfl
    · rw [List.getElem?_eq_none (by omega), List.getElem?_eq_none (by rw [List.length_map, List.length_ofFn]; omega)]
  have hml : models.length = n := List.length_ofFn
  have hfm : ∀ l : List (MultiClass F64), (l.map fun M => if M.b.isEmpty then none else some (.fin 100 : F64)).filterMap id =
      List.replicate (l.countP fun M => !M.b.isEmpty) (.fin 100) := by
    intro l
    induction l with
    | nil => rfl
    | cons M l ih =>
      rw [List.map_cons, List.countP_cons]
      cases hb : M.b.isEmpty
      · rw [List.filterMap_cons_some (b := (.fin 100 : F64)) (by simp), ih]
        simp [List.replicate_succ]
      · rw [List.filterMap_cons_none (by simp), ih]
        simp
  have hk : (models.countP fun M => !M.b.isEmpty) ≤ n := hml ▸ List.countP_le_length
  have hsum := sum_hundreds (models.countP fun M => !M.b.isEmpty) 0 (by omega)
  rw [haccs, hfm, show (zero : F64) = .fin (100 * ((0 : Nat) : ℚ)) by decide +kernel, hsum, zero_add] at hacc
  have hnn : (ofInt (n : Int) : F64) = .fin (n : ℚ) := by
    rw [ofInt64 (by rw [abs_of_nonneg (by omega)]; omega)]; simp
  have hn0 : (0 : ℚ) < (n : ℚ) := by exact_mod_cast (by omega : 0 < n)
  have hdiv : ∀ t : ℚ, ((.fin t : F64) /. .fin (n : ℚ)) = XF.round (t / (n : ℚ)) := by
    intro t
    show XF.div _ _ = _
    simp only [XF.div, if_neg hn0.ne']
  refine ⟨models, hml, ?_, ?_, fun hall => ?_, ?_⟩
  · intro i p M hpi hMi
    have hi : i < n := by rw [← hml]; exact (List.getElem?_eq_some_iff.1 hMi).1
    rw [hget i hi] at hMi
    cases hMi
    exact (hmf i hi).2.1 p hpi
  · rw [hacc]
    congr 1
    rw [ofInt64 (by rw [abs_of_nonneg (by omega)]; omega)]
    push_cast
    rfl
  · have hcnt : (models.countP fun M => !M.b.isEmpty) = n := by
      rw [← hml, List.countP_eq_length]
      intro M hM
      simpa using hall M hM
    rw [hcnt, hnn, hdiv, mul_div_assoc, div_self hn0.ne', mul_one] at hacc
    rw [hacc]
    decide +kernel
  · rintro ⟨M, hM, hb⟩
    have hpos : 0 < models.countP fun M => !M.b.isEmpty := List.countP_pos_iff.2 ⟨M, hM, by simpa using hb⟩
    generalize (models.countP fun M => !M.b.isEmpty) = k at *
    rw [hnn, hdiv] at hacc
    have hk0 : (1 : ℚ) ≤ k := by exact_mod_cast hpos
    have hkn : (k : ℚ) ≤ n := by exact_mod_cast hk
    have hn46 : (n : ℚ) ≤ 2 ^ 46 := by exact_mod_cast hnD.trans hN
    obtain ⟨y, hy, hy0, _⟩ := round64_between (τ := none) (lo := 1 / 2 ^ 46) (hi := 100) (x := 100 * k / n) (by unfold Rep64; decide +kernel)
      (by unfold Rep64; decide +kernel) (by rw [div_le_div_iff₀ (by positivity) hn0]; nlinarith) (by rw [div_le_iff₀ hn0]; linarith)
    rw [hacc, hy, show (zero : F64) = .fin 0 by decide +kernel, XF.fin_lt]
    simp only [decide_eq_true_eq]
    exact lt_of_lt_of_le (by positivity) hy0

/-- **C144 is violated (few rows)**: a cross-validation of fewer than `MinSample + 2` rows that returns without an error reports 0, whatever the labels. -/
theorem C144_few_violated (exp : F64 → F64) (S : GoSort) (D : DataBunch F64) (hlab : D.labels.length = D.data.length) (nfold : Int) (O : Option (Options F64))
    (hN : (D.data.length : Int) < (O.getD (defaultXOptions 0)).minSample + 2) (h46 : D.data.length ≤ 2 ^ 46) (conc : Bool) (idraws : List Nat)
    (hd : ∀ x ∈ idraws, x < D.data.length) (fdraws : Nat → Nat → F64) (out : CVOut F64)
    (h : crossValidation exp S D nfold O conc idraws fdraws = pure out) (he : out.err = false) : out.acc = .fin 0 := by
  obtain ⟨n, s, hs, pairs, hp, hl, accs, hla, hf, hacc, _⟩ := C54_cross_validation_partial exp S D nfold O conc idraws fdraws out h he
  have hn2 := sampled_two hs
  have hnD : n ≤ D.data.length := by
    have := (sampled_parts hs hd).2.1
    by_contra hlt
    rw [Nat.div_eq_of_lt (by omega)] at this
    omega
  have hnone : accs.filterMap id = [] := by
    rw [List.filterMap_eq_nil_iff]
    intro a ha
    obtain ⟨i, hi⟩ := List.getElem?_of_mem ha
    have hlt := (List.getElem?_eq_some_iff.1 hi).1
    have hpi : pairs[i]? = some pairs[i] := List.getElem?_eq_getElem (by omega)
    obtain ⟨M, hM, hM2⟩ := hf i _ _ hpi hi
    obtain ⟨z1, z2, z3, z4⟩ := fold_sizes hlab hd hs hp _ (List.mem_of_getElem? hpi)
    have hb : M.b = [] := by
      have hlen := (C22_rounds exp S _ _ _ M hM).1
      have h0 : executedRounds pairs[i].1.data (O.getD (defaultXOptions 0)) (fdraws i) (O.getD (defaultXOptions 0)).rounds.toNat = [] := by
        unfold executedRounds
        rw [List.filter_eq_nil_iff]
        intro r _
        rw [decide_eq_true_eq, not_le]
        have : sampleCount pairs[i].1.data (O.getD (defaultXOptions 0)) (fdraws i) r ≤ pairs[i].1.data.length := by
          unfold sampleCount roundRows
          split
          · refine (List.length_filter_le _ _).trans ?_
            rw [List.length_range]
          · omega
        omega
      rw [h0, List.length_nil, List.length_eq_zero_iff] at hlen
      exact hlen
    rcases hM2 with ⟨_, h1⟩ | ⟨hpos, _⟩
    · exact h1
    · exact absurd hb ((rounds_pos_iff hM (by omega) (by omega)).1 hpos)
  rw [hnone, List.foldl_nil, (zeroFacts64 (N := n) (by omega)).div n (by omega) le_rfl] at hacc
  rw [hacc]
  decide +kernel

/-- the first fold has a model -/
theorem cv_one_pos {exp : F64 → F64} {S : GoSort} {D : DataBunch F64} (hN : D.data.length ≤ 2 ^ 46) (h10 : 10 ≤ D.data.length)
    (hlab : D.labels.length = D.data.length) {lab : Int} (hone : ∀ l ∈ D.labels, l = lab) {nfold : Int} {O : Options F64} {conc : Bool} {idraws : List Nat}
    (hd : ∀ x ∈ idraws, x < D.data.length) {fdraws : Nat → Nat → F64} {out : CVOut F64}
    (h : crossValidation exp S D nfold (some O) conc idraws fdraws = pure out) (he : out.err = false)
    (hx : O.xgb = true) (hr : 1 ≤ O.rounds) (hss : (O.subSample <. one) = true) (hm : O.minSample = 5)
    (hdr : ∀ j < D.data.length, (fdraws 0 j <=. O.subSample) = true) : (zero <. out.acc) = true := by
  obtain ⟨n, s, hs, pairs, hp, hl, models, hml, hmod, _, _, hpos⟩ := C144_one_label_partial exp S D hN hlab lab hone nfold (some O) conc idraws hd fdraws out h he
  have hn2 := sampled_two hs
  apply hpos
  have hp0 : pairs[0]? = some pairs[0] := List.getElem?_eq_getElem (by omega)
  have hm0 : models[0]? = some models[0] := List.getElem?_eq_getElem (by omega)
  refine ⟨models[0], List.getElem_mem _, ?_⟩
  have hM := hmod 0 _ _ hp0 hm0
  have hsz : 5 ≤ pairs[0].1.data.length ∧ pairs[0].1.data.length ≤ D.data.length := by
    obtain ⟨folds, hfl, hperm, h2, pairs', h3, _, h5⟩ := C33_folds D nfold idraws hd n s hs
    rw [hp] at h3
    simp only [Except.ok.injEq] at h3
    obtain rfl : pairs = pairs' := List.map_injective_iff.2 (Option.some_injective _) h3
    obtain ⟨f, hf, e1, _⟩ := h5 0 pairs[0].1 pairs[0].2 hp0
    have l1 := congrArg List.length e1
    rw [List.length_map, List.length_map, (h2 0 f hf).2 (by omega)] at l1
    have := (fold_sizes hlab hd hs hp _ (List.mem_of_getElem? hp0)).1
    have hdiv : D.data.length / n ≤ D.data.length / 2 := Nat.div_le_div_left hn2 (by decide)
    omega
  generalize pairs[0] = p at *
  have hlen := (C22_rounds exp S (fdraws 0) p.1 O models[0] hM).1
  have hsub : rowSub O = true := by unfold rowSub; rw [hss, hx]; rfl
  have hmem : 0 ∈ executedRounds p.1.data O (fdraws 0) O.rounds.toNat := by
    unfold executedRounds
    rw [List.mem_filter, List.mem_range, decide_eq_true_eq]
    refine ⟨by omega, ?_⟩
    unfold sampleCount
    rw [if_pos hsub, hm]
    unfold roundRows
    rw [List.filter_eq_self.2 (fun j hj => by
      rw [List.mem_range] at hj
      rw [Nat.zero_mul, Nat.add_zero]
      exact hdr j (by omega)), List.length_range]
    exact_mod_cast hsz.1
  intro hb
  rw [hb, List.length_nil] at hlen
  rw [List.length_eq_zero_iff.1 hlen.symm] at hmem
  cases hmem

/-! ### Grid -/

/-- **C144 (Grid, one label), partial**: on 10 or more rows with the same label, `Grid` returns options and a positive accuracy, if the first point of the grid samples rows and all
rows are drawn in the first round of its first fold. Missing: without this, and for fewer rows (`C144_grid_violated`). -/
theorem C144_grid_partial (exp : F64 → F64) (S : GoSort) (fuel : Nat) (Q : List (Int × List ℚ)) (c : Nat) (D : DataBunch F64)
    (hD : NumberData Q c D) (h10 : 10 ≤ Q.length) (h46 : Q.length ≤ 2 ^ 46) (lab : Int) (hone : ∀ q ∈ Q, q.1 = lab) (nfold : Int) (h1 : nfold ≠ 1)
    (o : GridOptions F64) (hn : 0 < o.nCPUs) (hx : o.xgb = true) (pts : List (Options F64)) (hp : gridPoints fuel o = some pts) (hbatch : o.nCPUs ≤ pts.length)
    (hs : ∀ O ∈ pts, Share O.subSample ∧ Share O.colSubSample)
    (idraws : Nat → List Nat) (hd : ∀ j, ∀ x ∈ idraws j, x < Q.length) (hsam : ∀ j, crossValidationSamples D nfold (idraws j) ≠ none)
    (fdraws : Nat → Nat → Nat → F64)
    (hfirst : ∀ O, pts[0]? = some O → 1 ≤ O.rounds ∧ (O.subSample <. one) = true ∧ ∀ j < Q.length, (fdraws 0 0 j <=. O.subSample) = true) :
    ∃ ret best, grid exp S fuel D nfold (some o) idraws fdraws = pure ret ∧ ret.err = false ∧ ret.opts = some best ∧ (zero <. ret.acc) = true := by
  obtain ⟨g1, g2, g3, g4, g5, g6⟩ := hD.rows
  obtain ⟨ret, outs, hret, hlen, hcv, hb, _, hbest⟩ := C125_grid_partial exp S fuel Q c D hD (by omega) h46 nfold h1 o hn pts hp hs idraws hd hsam fdraws
  have hpl : 0 < pts.length := by omega
  have hol : 0 < outs.length := by
    rw [hlen]
    have hdiv : 0 < pts.length / o.nCPUs.toNat := Nat.div_pos (by omega) (by omega)
    exact Nat.mul_pos (by omega) hdiv
  have hO := List.getElem?_eq_getElem hpl
  have ho := List.getElem?_eq_getElem hol
  obtain ⟨f1, f2, f3⟩ := hfirst _ hO
  obtain ⟨c1, c2⟩ := hcv 0 _ _ hO ho
  have hof : OtherFields o pts[0] := by
    obtain ⟨_, _, _, _, _, _, _, _, h⟩ := (C53_points fuel o pts hp _).1 (List.getElem_mem hpl)
    exact h
  have hxx : pts[0].xgb = true := by
    unfold OtherFields at hof
    rw [hof]
    exact hx
  have hsub : rowSub pts[0] = true := by unfold rowSub; rw [f2, hxx]; rfl
  have hpos := cv_one_pos (by omega) (by omega) g4.symm (lab := lab) (by
    intro l hl
    rw [hD.labels, List.mem_map] at hl
    obtain ⟨q, hq, rfl⟩ := hl
    exact hone q hq) (fun x hx => by rw [g3]; exact hd 0 x hx) c1 c2 hxx f1 f2 ((point_fields hof).2 hsub) (fun j hj => f3 j (by omega))
  obtain ⟨b1, ⟨_, _, b2⟩ | ⟨⟨out, hout, _, b4⟩, b2, _⟩⟩ := hb
  · rw [b2 _ (List.mem_of_getElem? ho)] at hpos
    cases hpos
  · obtain ⟨i, hi⟩ := List.getElem?_of_mem hout
    have hil := (List.getElem?_eq_some_iff.1 hi).1
    have hile : i < pts.length := by
      rw [hlen] at hil
      exact lt_of_lt_of_le hil (Nat.mul_div_le _ _)
    have hci := hcv i _ out (List.getElem?_eq_getElem hile) hi
    obtain ⟨_, _, _, _, _, _, _, _, _, _, _, hopts⟩ := C54_cross_validation_partial exp S D nfold _ true _ _ out hci.1 hci.2
    cases hq : ret.opts with
    | some best => exact ⟨ret, best, hret, b1, hq, b2⟩
    | none =>
      rw [hq] at b4
      rw [hopts] at b4
      cases b4

/-- **C144 is violated (Grid, few rows)**: on 4 to 6 rows `Grid` with XGBoost returns nil options and a nil error, whatever the labels and the draws. -/
theorem C144_grid_violated (exp : F64 → F64) (S : GoSort) (fuel : Nat) (Q : List (Int × List ℚ)) (c : Nat) (D : DataBunch F64)
    (hD : NumberData Q c D) (h4 : 4 ≤ Q.length) (h6 : Q.length ≤ 6) (nfold : Int) (h1 : nfold ≠ 1)
    (o : GridOptions F64) (hn : 0 < o.nCPUs) (hx : o.xgb = true) (pts : List (Options F64)) (hp : gridPoints fuel o = some pts)
    (hs : ∀ O ∈ pts, Share O.subSample ∧ Share O.colSubSample)
    (idraws : Nat → List Nat) (hd : ∀ j, ∀ x ∈ idraws j, x < Q.length) (hsam : ∀ j, crossValidationSamples D nfold (idraws j) ≠ none)
    (fdraws : Nat → Nat → Nat → F64) :
    ∃ ret, grid exp S fuel D nfold (some o) idraws fdraws = pure ret ∧ ret.err = false ∧ ret.opts = none ∧ ret.acc = .fin 0 := by
  obtain ⟨g1, g2, g3, g4, g5, g6⟩ := hD.rows
  obtain ⟨ret, outs, hret, hlen, hcv, hb, _, _⟩ := C125_grid_partial exp S fuel Q c D hD h4 (by omega) nfold h1 o hn pts hp hs idraws hd hsam fdraws
  have hall : ∀ out ∈ outs, out.acc = .fin 0 := by
    intro out hout
    obtain ⟨i, hi⟩ := List.getElem?_of_mem hout
    have hil := (List.getElem?_eq_some_iff.1 hi).1
    have hile : i < pts.length := by
      rw [hlen] at hil
      exact lt_of_lt_of_le hil (Nat.mul_div_le _ _)
    have hci := hcv i _ out (List.getElem?_eq_getElem hile) hi
    have hof : OtherFields o pts[i] := by
      obtain ⟨_, _, _, _, _, _, _, _, h⟩ := (C53_points fuel o pts hp _).1 (List.getElem_mem hile)
      exact h
    have hm5 : pts[i].minSample = 5 := by
      unfold OtherFields at hof
      rw [hof]
      show (baseOptions o).minSample = 5
      unfold baseOptions
      rw [if_pos hx]
      rfl
    refine C144_few_violated exp S D g4.symm nfold (some pts[i]) ?_ (by omega) true (idraws i) (fun x hx => by rw [g3]; exact hd i x hx) (fdraws i) out hci.1 hci.2
    show _ < pts[i].minSample + 2
    omega
  obtain ⟨b1, ⟨b2, b3, _⟩ | ⟨⟨out, hout, b3, _⟩, b2, _⟩⟩ := hb
  · exact ⟨ret, hret, b1, b3, by rw [b2]; decide +kernel⟩
  · rw [b3, hall out hout] at b2
    exact absurd b2 (by decide +kernel)

/-! ### GradientGrid and HybridGradientGrid -/

section
variable {F : Type} [GoFloat F]

/-- the first call is kept -/
theorem firstCall_kept (E : SearchEnv F) (x : Options F × CVRes F) : Kept E fun s => s.calls[0]? = some x := by
  constructor
  · intro s s' _ _ _ h4 _ h
    rw [h4]
    exact h
  · intro s t tprev h
    have hc : ∀ y, (s.calls ++ [y])[0]? = some x := fun y => by
      rw [List.getElem?_append_left (List.getElem?_eq_some_iff.1 h).1]
      exact h
    unfold compareAccs
    simp only
    split
    · exact hc _
    · split
      · exact hc _
      · split <;> exact hc _

/-- once there is an accuracy there is one -/
theorem hasAcc_kept (E : SearchEnv F) : Kept E fun s => s.accs ≠ [] := by
  constructor
  · intro s s' _ h2 _ _ _ h
    rw [h2]
    exact h
  · intro s t tprev h
    unfold compareAccs
    simp only
    split
    · exact h
    · split
      · exact h
      · split
        · show s.accs ++ [_] ≠ []
          simp
        · exact h

/-- a search whose first cross-validation has a positive accuracy -/
theorem search_first {E : SearchEnv F} {nfold : Int} {i0 : Options F} {inits : List (Options F)} :
    (searchEnd E nfold (i0 :: inits)).calls[0]? = some (i0, E.cv 0 5 i0) ∧
    ((E.cv 0 5 i0).err = false → (zero <. (E.cv 0 5 i0).acc) = true → (searchEnd E nfold (i0 :: inits)).accs ≠ []) := by
  have hder : ((searchStart.alloc i0).alloc i0.clone : SearchState F).deref 0 = i0 := rfl
  have main : ∀ {P : SearchState F → Prop}, Kept E P → P (compareAccs E ((searchStart.alloc i0).alloc i0.clone) 0 1).1 →
      P (searchEnd E nfold (i0 :: inits)) := by
    intro P hP h
    have hfrom : P (searchFrom E nfold searchStart i0).1 := by
      unfold searchFrom
      simp only
      have h' : P (compareAccs E ((searchStart.alloc i0).alloc i0.clone) (searchStart : SearchState F).heap.length ((searchStart : SearchState F).heap.length + 1)).1 := h
      split
      · rename_i heq
        rw [heq] at h'
        exact h'
      · rename_i heq
        rw [heq] at h'
        exact searchSteps_kept hP nfold _ _ _ _ h'
    unfold searchEnd searchAll
    split
    · rename_i heq
      rw [heq] at hfrom
      exact hfrom
    · rename_i heq
      rw [heq] at hfrom
      exact searchAll_kept hP nfold _ _ hfrom
  refine ⟨main (firstCall_kept E _) ?_, fun he ha => main (hasAcc_kept E) ?_⟩
  · unfold compareAccs
    simp only [hder]
    split
    · rfl
    · split
      · rfl
      · split <;> rfl
  · have he' : (E.cv ((searchStart.alloc i0).alloc i0.clone : SearchState F).calls.length 5 i0).err = false := he
    have ha' : gt (E.cv ((searchStart.alloc i0).alloc i0.clone : SearchState F).calls.length 5 i0).acc (zero : F) = true := ha
    unfold compareAccs
    simp only [hder]
    rw [if_neg (by rw [he']; decide)]
    rw [if_neg (by intro h; cases h)]
    split
    · show _ ++ [_] ≠ []
      simp
    · rename_i hno
      exact absurd ha' hno

end

/-- **C144 (gradient searches, one label), partial**: on 10 or more rows with the same label, `GradientGrid` and `HybridGradientGrid` return options and a positive accuracy, if the
first starting point samples rows and all rows are drawn in the first round of the first fold. Missing: without this, and for fewer rows. -/
theorem C144_search_partial (exp : F64 → F64) (S : GoSort) (Q : List (Int × List ℚ)) (c : Nat) (D : DataBunch F64) (hD : NumberData Q c D) (h10 : 10 ≤ Q.length)
    (h46 : Q.length ≤ 2 ^ 46) (lab : Int) (hone : ∀ q ∈ Q, q.1 = lab) (nfold : Int) (h1 : nfold ≠ 1) (E : SearchEnv F64) (ho : Calm E.o)
    (hs : Share (av E.o.subSample.lo E.o.subSample.hi)) (hc : Share (av E.o.colSubSample.lo E.o.colSubSample.hi)) (di : Nat → List Nat) (df : Nat → Nat → Nat → F64)
    (gi : Nat → Param → Bool → List Nat) (gf : Nat → Param → Bool → Nat → Nat → F64) (G : Nat → GradEnv F64) (fuel fuel' : Nat)
    (hE : RealSearch exp S D nfold fuel E di df gi gf G) (i0 : Options F64) (inits : List (Options F64))
    (hi : gradientInits fuel' E.o = some (i0 :: inits) ∨ hybridInits fuel' E.o = some (i0 :: inits))
    (hx : i0.xgb = true) (hr : 1 ≤ i0.rounds) (hss : (i0.subSample <. one) = true) (hdr : ∀ j < Q.length, (df 0 0 j <=. i0.subSample) = true) :
    let ret := searchRet (searchAll E nfold (i0 :: inits) searchStart)
    ret.err = false ∧ (zero <. ret.acc) = true ∧ ∃ best, ret.opts = some best := by
  obtain ⟨g1, g2, g3, g4, g5, g6⟩ := hD.rows
  obtain ⟨r1, r2, _, _, _⟩ := C126_search_partial exp S Q c D hD (by omega) h46 nfold h1 E ho hs hc di df gi gf G fuel fuel' hE (i0 :: inits) hi
  intro ret
  obtain ⟨s1, s2⟩ := search_first (E := E) (nfold := nfold) (i0 := i0) (inits := inits)
  obtain ⟨⟨out', e1', e2', _⟩, he, out, e1, e2⟩ := r2 0 _ _ s1
  have heq : out' = out := by
    rw [e1'] at e1
    exact Except.ok.inj (Option.some.inj e1)
  subst heq
  have hb := (inits_fit E.o hi hs hc i0 List.mem_cons_self).1
  have hsub : rowSub i0 = true := by unfold rowSub; rw [hss, hx]; rfl
  have hpos := cv_one_pos (by omega) (by omega) g4.symm (lab := lab) (by
    intro l hl
    rw [hD.labels, List.mem_map] at hl
    obtain ⟨q, hq, rfl⟩ := hl
    exact hone q hq) (hE.folds 0).1 e1 e2' hx hr hss (hb.2 hx) (fun j hj => hdr j (by omega))
  rw [← e2] at hpos
  have hne := s2 he hpos
  have hR : SearchReturns fuel' E nfold ret := by
    rcases hi with hi | hi
    · left; unfold gradientGrid; rw [hi]; rfl
    · right; unfold hybridGrid; rw [hi]; rfl
  obtain ⟨_, k2, _, k4⟩ := (C56_accuracies fuel' E nfold ret hR).1 r1
  have haccs : ret.accs = (searchEnd E nfold (i0 :: inits)).accs := by
    have hre : ret.err = false := r1
    show (searchRet (searchAll E nfold (i0 :: inits) searchStart)).accs = (searchAll E nfold (i0 :: inits) searchStart).1.accs
    have hre' : (searchRet (searchAll E nfold (i0 :: inits) searchStart)).err = false := r1
    revert hre'
    generalize searchAll E nfold (i0 :: inits) searchStart = x
    rcases x with ⟨s, b⟩
    cases b
    · intro h; cases h
    · intro _; rfl
  have hn : ret.accs ≠ [] := by rw [haccs]; exact hne
  obtain ⟨k5, k6⟩ := k4 _ (List.getLast?_eq_some_getLast hn)
  refine ⟨r1, ?_, Option.isSome_iff_exists.1 k6⟩
  rw [k5]
  exact k2 _ (List.getLast_mem hn)

/-! ### The example program -/

/-- **C143 is violated** by all files of 4 to 6 rows: `main` panics, whatever the labels and the draws. -/
theorem C143_small_violated (exp : F64 → F64) (S : GoSort) (P : FText F64) (hP : ReadsDecimals P) (text : List Char) (h : List Char) (lines : List (List Char))
    (hL : Lines (h :: lines) text) (keys : List (List Char)) (hH : SvmNames h keys)
    (Q : List (Int × List ℚ)) (hQ : List.Forall₂ (fun l p => SvmNumbers l p.1 p.2) lines Q) (c : Nat) (hc : ∀ p ∈ Q, p.2.length = c) (hc21 : c ≤ 21)
    (h4 : 4 ≤ Q.length) (h6 : Q.length ≤ 6) (id : Nat) (draws1 : Nat → F64) (idraws : Nat → List Nat) (fdraws : Nat → Nat → Nat → F64)
    (E : SearchEnv F64) (draws2 : Nat → F64) (hW : ExampleWorld exp S (numberBunch Q keys) idraws E) :
    ∃ e, exampleMain exp S P (some text) id draws1 idraws fdraws E draws2 = Run.ofGo (.error e) ∧ (e = .index ∨ e = .nilDeref) := by
  have hD : NumberData Q c (numberBunch Q keys : DataBunch F64) :=
    ⟨fun e => by rw [e] at h4; exact absurd h4 (by decide), hc, svm_numberData hQ, by omega, hc21.trans (by norm_num), rfl, rfl⟩
  obtain ⟨M1, r1, r2, _, e1, _, _, _, t1, t2, _⟩ := C143_main_partial exp S P hP text h lines hL keys hH Q hQ c hc hc21 h4 (by omega) id draws1 idraws fdraws E draws2 hW
  have hlen := hD.rows.2.2.1
  obtain ⟨pts, hp, _, hs, _⟩ := C125_readme_points
  obtain ⟨ret, g1, _, g2, _⟩ := C144_grid_violated exp S 200 Q c _ hD h4 h6 8 (by decide) readmeGrid (by decide) rfl pts hp hs idraws
    (fun j x hx => by rw [← hlen]; exact (hW.grid j).1 x hx) (fun j => (hW.grid j).2) fdraws
  rw [← exampleGrid_eq, e1, run_pure_eq] at g1
  subst g1
  by_cases hb : M1.b = []
  · exact ⟨_, t1 hb, Or.inl rfl⟩
  · exact ⟨_, t2 hb (Or.inl g2), Or.inr rfl⟩

/-! ### The theorems apply -/

/-- the points of the grid of the README -/
theorem readme_point {pts : List (Options F64)} (h : gridPoints 200 readmeGrid = some pts) : ∀ O ∈ pts,
    1 ≤ O.rounds ∧ (O.subSample <. one) = true ∧ (.fin 0 <=. O.subSample) = true := by
  intro O hO
  obtain ⟨⟨l1, e1, m1⟩, _, _, _, _, _, _, ⟨l8, e8, m8⟩, _⟩ := (C53_points 200 _ pts h O).1 hO
  have a1 : (readmeGrid.rounds.ints 200).all (fun l => l.all fun r => decide (1 ≤ r)) = true := by decide +kernel
  have a8 : (readmeGrid.subSample.floats 200).all (fun l => l.all fun x => (x <. one) && (.fin 0 <=. x)) = true := by decide +kernel
  rw [show readmeGrid.rounds.ints 200 = some l1 from e1, Option.all_some, List.all_eq_true] at a1
  rw [show readmeGrid.subSample.floats 200 = some l8 from e8, Option.all_some, List.all_eq_true] at a8
  have b1 := a1 _ m1
  have b8 := a8 _ m8
  rw [Bool.and_eq_true] at b8
  exact ⟨by simpa using b1, b8⟩

/-- ten rows with the label 7 -/
def tenText : List Char := "Labels 1:a\n7 1:0\n7 1:1\n7 1:2\n7 1:3\n7 1:4\n7 1:0\n7 1:1\n7 1:2\n7 1:3\n7 1:4\n".toList

def fiveLines : List (List Char) := ["7 1:0".toList, "7 1:1".toList, "7 1:2".toList, "7 1:3".toList, "7 1:4".toList]

def fiveQ : List (Int × List ℚ) := [(7, [0]), (7, [1]), (7, [2]), (7, [3]), (7, [4])]

theorem five_rows : List.Forall₂ (fun l p => SvmNumbers l p.1 p.2) fiveLines fiveQ := by
  have row : ∀ (l f : List Char) (lab : Int) (a b : List Char) (x : ℚ), strFields l = [f, a ++ ':' :: b] →
      atoi f = some lab → ':' ∉ a → numValue b = some x → Short x → SvmNumbers l lab [x] :=
    fun l f lab a b x h1 h2 h3 h4 h5 => ⟨f, _, (strFields_iff _ _).1 h1, (atoi_iff _ _).1 h2, .cons ⟨a, b, rfl, h3, numValue_iff.1 h4, h5⟩ .nil⟩
  refine .cons ?_ (.cons ?_ (.cons ?_ (.cons ?_ (.cons ?_ .nil))))
  · exact row _ "7".toList _ "1".toList "0".toList _ (by decide +kernel) (by decide +kernel) (by decide +kernel) (by decide +kernel) (short_mk 0 0 (by decide +kernel))
  · exact row _ "7".toList _ "1".toList "1".toList _ (by decide +kernel) (by decide +kernel) (by decide +kernel) (by decide +kernel) (short_mk 1 0 (by decide +kernel))
  · exact row _ "7".toList _ "1".toList "2".toList _ (by decide +kernel) (by decide +kernel) (by decide +kernel) (by decide +kernel) (short_mk 2 0 (by decide +kernel))
  · exact row _ "7".toList _ "1".toList "3".toList _ (by decide +kernel) (by decide +kernel) (by decide +kernel) (by decide +kernel) (short_mk 3 0 (by decide +kernel))
  · exact row _ "7".toList _ "1".toList "4".toList _ (by decide +kernel) (by decide +kernel) (by decide +kernel) (by decide +kernel) (short_mk 4 0 (by decide +kernel))

theorem ten_rows : List.Forall₂ (fun l p => SvmNumbers l p.1 p.2) (fiveLines ++ fiveLines) (fiveQ ++ fiveQ) :=
  List.rel_append five_rows five_rows

/-- the data of the file -/
def tenBunch : DataBunch F64 := numberBunch (fiveQ ++ fiveQ) ["a".toList]

theorem ten_data : NumberData (fiveQ ++ fiveQ) 1 tenBunch :=
  ⟨by decide, by decide +kernel, svm_numberData ten_rows, by decide, by decide, rfl, rfl⟩

theorem ten_enough (n : Int) (hn : n = 5 ∨ n = 8) : Enough tenBunch n (List.range 10) := by
  have e : tenBunch.data.length = 10 := rfl
  refine ⟨by rw [e]; decide, ?_⟩
  have e1 : ∃ b, reduceFolds 10 (if n > 0 then Int.toNat n else 5) = .ok (5, b) := by rcases hn with rfl | rfl <;> exact ⟨_, rfl⟩
  obtain ⟨b, e1⟩ := e1
  have e2 : fillFolds (10 / 5) (List.range 5) (List.replicate 5 []) (List.range 10) = some ([[0, 1], [2, 3], [4, 5], [6, 7], [8, 9]], []) := rfl
  unfold crossValidationSamples
  simp only [e]
  rw [e1]
  simp only [e2]
  exact fun h => by cases h

/-- `C144_grid_partial` applies, and so do `C144_one_label_partial` and, on the first five rows, `C144_grid_violated` -/
theorem ten_grid (exp : F64 → F64) (S : GoSort) : ∃ ret best, grid exp S 200 tenBunch 8 (some exampleGrid) (fun _ => List.range 10) (fun _ _ _ => .fin 0) = pure ret ∧
    ret.err = false ∧ ret.opts = some best ∧ (zero <. ret.acc) = true := by
  obtain ⟨pts, hp, hl, hs, _⟩ := C125_readme_points
  refine C144_grid_partial exp S 200 (fiveQ ++ fiveQ) 1 tenBunch ten_data (by decide) (by decide) 7 (by decide +kernel) 8 (by decide) readmeGrid (by decide) rfl pts hp
    (by rw [hl]; decide) hs _ (fun _ => (ten_enough 8 (Or.inr rfl)).1) (fun _ => (ten_enough 8 (Or.inr rfl)).2) _ fun O hO => ?_
  obtain ⟨h1, h2, h3⟩ := readme_point hp O (List.mem_of_getElem? hO)
  exact ⟨h1, h2, fun _ _ => h3⟩

/-- `C144_search_partial` applies -/
theorem ten_search (exp : F64 → F64) (S : GoSort) : ∃ E, ExampleWorld exp S tenBunch (fun _ => List.range 10) E ∧
    ∃ ret best, gradientGrid 200 { E with o := exampleGrid } 5 = some ret ∧ ret.err = false ∧ ret.opts = some best ∧ (zero <. ret.acc) = true := by
  have h5 := ten_enough 5 (Or.inl rfl)
  obtain ⟨E, G, ho, hE⟩ := realSearch_exists exp S tenBunch 5 (fun _ => List.range 10) (fun _ => h5) (fun _ _ _ => .fin 0)
    (fun _ _ _ => List.range 10) (fun _ _ _ => h5) (fun _ _ _ _ _ => .fin 0) (fun _ _ => (.fin (1/2), 1)) (fun _ _ => ⟨1/2, rfl, by norm_num, by norm_num⟩)
  have he : ({ E with o := exampleGrid } : SearchEnv F64) = E := by rw [exampleGrid_eq, ← ho]
  have hE' := hE
  rw [← he] at hE'
  refine ⟨E, ⟨fun _ => ten_enough 8 (Or.inr rfl), ⟨12, _, _, _, _, G, hE'⟩⟩, ?_⟩
  rw [he]
  obtain ⟨inits, hi, hl⟩ := getLen (l := gradientInits 200 readmeGrid) (n := 6) (by decide +kernel)
  obtain ⟨i0, inits, rfl⟩ := List.exists_cons_of_ne_nil (l := inits) (fun h => by rw [h] at hl; cases hl)
  have hall : (gradientInits 200 readmeGrid).all (fun l => l.all fun O => O.xgb && decide (1 ≤ O.rounds) && (O.subSample <. one) && (.fin 0 <=. O.subSample)) = true := by
    decide +kernel
  rw [hi, Option.all_some, List.all_eq_true] at hall
  have h0 := hall i0 List.mem_cons_self
  simp only [Bool.and_eq_true, decide_eq_true_eq] at h0
  obtain ⟨⟨⟨a1, a2⟩, a3⟩, a4⟩ := h0
  rw [← ho] at hi
  obtain ⟨k1, k2, best, k3⟩ := C144_search_partial exp S (fiveQ ++ fiveQ) 1 tenBunch ten_data (by decide) (by decide) 7 (by decide +kernel) 5 (by decide) E
    (by rw [ho]; exact readme_calm) (by rw [ho]; exact readme_mid.1) (by rw [ho]; exact readme_mid.2) _ _ _ _ G 12 200 hE i0 inits (Or.inl hi) a1 a2 a3 (fun _ _ => a4)
  exact ⟨_, best, by unfold gradientGrid; rw [hi]; rfl, k1, k3, k2⟩

/-- the example program gets options from both searches -/
example (exp : F64 → F64) (S : GoSort) (id : Nat) : ∃ P E O2, ReadsDecimals P ∧ ∀ draws2, ∃ M2, newMultiClass exp S draws2 tenBunch O2 = .ok M2 ∧
    (M2.b ≠ [] → ∃ out, exampleMain exp S P (some tenText) id (fun _ => .fin 0) (fun _ => List.range 10) (fun _ _ _ => .fin 0) E draws2 = pure out ∧ out.searchBest = O2) := by
  obtain ⟨E, hW, ret2, O2, s1, _, s2, _⟩ := ten_search exp S
  obtain ⟨ret1, O1, g1, _, g2, _⟩ := ten_grid exp S
  refine ⟨_, E, O2, numText_reads, fun draws2 => ?_⟩
  obtain ⟨M1, r1, r2, t1, e1, _, f1, _, _, _, t3⟩ := C143_main_partial exp S _ numText_reads tenText "Labels 1:a".toList (fiveLines ++ fiveLines)
    ((linesOf_iff _ _).1 (by decide +kernel)) _ differ_names (fiveQ ++ fiveQ) ten_rows 1
    (by decide +kernel) (by decide) (by decide) (by decide) id (fun _ => .fin 0) (fun _ => List.range 10) (fun _ _ _ => .fin 0) E draws2 hW
  have e1' : grid exp S 200 tenBunch 8 (some exampleGrid) (fun _ => List.range 10) (fun _ _ _ => .fin 0) = pure r1 := e1
  rw [g1, run_pure_eq] at e1'
  subst e1'
  rw [s1] at f1
  cases f1
  obtain ⟨M, m1, _, m3⟩ := example_trains exp S ten_data id (fun _ => .fin 0)
  have hw := m3 rfl (by show ((ofRat (8/10) : F64) <. one) = true; decide +kernel) (by show ((ofRat (8/10) : F64) <. one) = true; decide +kernel)
    ⟨0, by show (0 : Int) < 100; decide, by show 5 ≤ ((List.range 10).filter fun _ => (.fin 0 : F64) <=. ofRat (8/10)).length; decide +kernel⟩
  have t1' : newMultiClass exp S (fun _ => .fin 0) tenBunch (exampleOptions id) = .ok M1 := t1
  rw [m1] at t1'
  cases t1'
  have hb : M1.b ≠ [] := by
    intro hb
    obtain ⟨a, ha, _⟩ := hw.2
    rw [(noTrees_panic hb).2 _ ten_data.rows.1] at ha
    cases ha
  obtain ⟨M2, u1, _, u2⟩ := t3 hb O1 O2 g2 s2
  refine ⟨M2, u1, fun hb2 => ?_⟩
  obtain ⟨out, _, _, _, _, _, _, hout, _, _, _, _, _, _, _, _, _, _, hsb, _⟩ := u2 hb2
  exact ⟨out, hout, hsb⟩

/-- five rows with the label 7: the example program panics -/
example (exp : F64 → F64) (S : GoSort) (id : Nat) : ∃ P E, ReadsDecimals P ∧ ∀ draws1 fdraws draws2, ∃ e,
    exampleMain exp S P (some "Labels 1:a\n7 1:0\n7 1:1\n7 1:2\n7 1:3\n7 1:4\n".toList) id draws1 (fun _ => List.range 5) fdraws E draws2 = Run.ofGo (.error e) := by
  obtain ⟨E, hW⟩ := five_world exp S (D := numberBunch fiveQ ["a".toList]) rfl
  refine ⟨_, E, numText_reads, fun draws1 fdraws draws2 => ?_⟩
  obtain ⟨e, he, _⟩ := C143_small_violated exp S _ numText_reads "Labels 1:a\n7 1:0\n7 1:1\n7 1:2\n7 1:3\n7 1:4\n".toList "Labels 1:a".toList fiveLines
    ((linesOf_iff _ _).1 (by decide +kernel)) _ differ_names fiveQ five_rows 1
    (by decide +kernel) (by decide) (by decide) (by decide) id draws1 _ fdraws E draws2 hW
  exact ⟨e, he⟩

end Boo
