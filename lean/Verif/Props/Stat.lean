import Verif.Lemmas.Stat
import Verif.Lemmas.B64

/-!
# C33–C37: cross-validation samples
-/

namespace Boo
open GoFloat
set_option linter.unusedSectionVars false
variable {F : Type} [GoFloat F]

/-- The outcomes of `k` successive calls of the function returned by `CrossValidationSamples`. -/
def callMany : Nat → CVSampler F → Go (List (Option (DataBunch F × DataBunch F)))
  | 0, _ => .ok []
  | k + 1, s => do
    let (s', out) ← s.call
    let outs ← callMany k s'
    pure (out :: outs)

theorem callMany_done {s : CVSampler F} (h : s.nf ≤ s.calls) (k : Nat) : callMany k s = .ok (List.replicate k none) := by
  induction k with
  | zero => rfl
  | succ k ih =>
    have : s.call = .ok (s, none) := by unfold CVSampler.call; rw [if_pos h]
    simp only [callMany, this, bind, Except.bind, ih]
    rfl

theorem callMany_eq {ns : Nat} {D : DataBunch F} {folds : List (List Nat)} {nf : Nat}
    (hp : CVParts D.data.length nf ns folds) : ∀ (k c : Nat), c ≤ nf →
    callMany k ⟨D, folds, nf, c⟩ = .ok (((folds.drop c).zip (List.range' c (nf - c))).map (fun p =>
        some (pick D (folds.eraseIdx p.2).flatten, pick D p.1)) |>.take k |> (· ++ List.replicate (k - (nf - c)) none)) := by
  intro k
  induction k with
  | zero => intro c hc; simp [callMany]
  | succ k ih =>
    intro c hc
    by_cases he : c = nf
    · subst he
      rw [callMany_done (Nat.le_refl _)]
      simp
    · obtain ⟨f, hf, hcall⟩ := call_eq (s := ⟨D, folds, nf, c⟩) hp (show c < nf by omega)
      simp only at hf hcall
      simp only [callMany, hcall, bind, Except.bind]
      rw [ih (c + 1) (by omega)]
      have hlt : c < folds.length := by rw [hp.len]; omega
      have hd : folds.drop c = f :: folds.drop (c + 1) := by
        rw [List.drop_eq_getElem_cons hlt]
        congr 1
        rw [List.getElem?_eq_getElem hlt] at hf
        exact Option.some.inj hf
      rw [hd, show nf - c = (nf - (c + 1)) + 1 by omega, List.range'_succ, List.zip_cons_cons]
      simp [pure, Except.pure]

/-- `CrossValidationSamples` returned a sampler with `n` folds for these draws. -/
def Sampled (D : DataBunch F) (nfold : Int) (draws : List Nat) (n : Nat) (s : CVSampler F) : Prop :=
  ∃ err, crossValidationSamples D nfold draws = some (.ok ⟨n, some s, err⟩)

theorem sampled_parts {D : DataBunch F} {nfold : Int} {draws : List Nat} {n : Nat} {s : CVSampler F}
    (h : Sampled D nfold draws n s) (hd : ∀ x ∈ draws, x < D.data.length) :
    2 ≤ n ∧ 2 ≤ D.data.length / n ∧ ∃ folds, s = ⟨D, folds, n, 0⟩ ∧
      CVParts D.data.length n (D.data.length / n) folds := by
  obtain ⟨err, h⟩ := h
  unfold crossValidationSamples at h
  simp only at h
  cases hr : reduceFolds D.data.length (if nfold > 0 then nfold.toNat else 5) with
  | error p => rw [hr] at h; simp at h
  | ok q =>
    obtain ⟨nf, e⟩ := q
    rw [hr] at h
    simp only at h
    have hge : ∀ m nf e, reduceFolds D.data.length m = .ok (nf, e) → 2 ≤ D.data.length / nf := by
      intro m
      induction m with
      | zero => intro nf e h; simp [reduceFolds] at h
      | succ m ih =>
        intro nf e h
        unfold reduceFolds at h
        split at h
        · obtain ⟨⟨n', e'⟩, h1, h2⟩ := bind_ok h
          simp only [pure, Except.pure, Except.ok.injEq, Prod.mk.injEq] at h2
          obtain ⟨rfl, rfl⟩ := h2
          exact ih _ _ h1
        · simp only [Except.ok.injEq, Prod.mk.injEq] at h
          obtain ⟨rfl, rfl⟩ := h
          omega
    have hq := hge _ _ _ hr
    split at h
    · simp at h
    · rename_i hnf
      cases hff : fillFolds (D.data.length / nf) (List.range nf) (List.replicate nf []) draws with
      | none => rw [hff] at h; simp at h
      | some p =>
        obtain ⟨folds, rest⟩ := p
        rw [hff] at h
        simp only [Option.some.injEq, Except.ok.injEq, CVResult.mk.injEq] at h
        obtain ⟨rfl, h2, rfl⟩ := h
        subst h2
        rw [List.range_eq_range'] at hff
        have := fillFolds_spec nf 0 _ draws folds rest (by omega) (cvInv_init D.data.length nf _) hd hff
        exact ⟨by omega, hq, _, rfl, fillRemaining_spec (by omega) this⟩

/-- **C33**: there is a partition of the row numbers into `n` folds such that the `k`-th call returns the rows of the
`k`-th fold as test set and the rows of the other folds as training set. Every fold has at least 2 rows, every fold but
the last has exactly `tot/n`. -/
theorem C33_folds (D : DataBunch F) (nfold : Int) (draws : List Nat) (hd : ∀ x ∈ draws, x < D.data.length) (n : Nat)
    (s : CVSampler F) (h : Sampled D nfold draws n s) :
    ∃ folds : List (List Nat), folds.length = n ∧ folds.flatten.Perm (List.range D.data.length) ∧
      (∀ (k : Nat) f, folds[k]? = some f → 2 ≤ f.length ∧ (k + 1 < n → f.length = D.data.length / n)) ∧
      ∃ pairs : List (DataBunch F × DataBunch F), callMany n s = .ok (pairs.map some) ∧ pairs.length = n ∧
        ∀ (k : Nat) train test, pairs[k]? = some (train, test) → ∃ f, folds[k]? = some f ∧
          test.data.map some = f.map (D.data[·]?) ∧ train.data.map some = (folds.eraseIdx k).flatten.map (D.data[·]?) := by
  obtain ⟨h2, hq, folds, rfl, hp⟩ := sampled_parts h hd
  refine ⟨folds, hp.len, hp.perm, ?_, ?_⟩
  · intro k f hk
    by_cases hl : k + 1 < n
    · rw [hp.sizes k f hk hl]
      exact ⟨hq, fun _ => rfl⟩
    · have : k = n - 1 := by
        have := (List.getElem?_eq_some_iff.1 hk).1
        rw [hp.len] at this
        omega
      subst this
      have := hp.last f hk
      exact ⟨by omega, fun h => absurd h hl⟩
  · refine ⟨(folds.zip (List.range n)).map fun p => (pick D (folds.eraseIdx p.2).flatten, pick D p.1), ?_, ?_, ?_⟩
    · rw [callMany_eq hp n 0 (by omega)]
      simp only [List.drop_zero, Nat.sub_zero, Nat.sub_self, List.replicate_zero, List.append_nil,
        ← List.range_eq_range', List.map_map]
      rw [List.take_of_length_le (by simp)]
      rfl
    · simp [hp.len]
    · intro k train test hk
      rw [List.getElem?_map, Option.map_eq_some_iff] at hk
      obtain ⟨⟨f, i⟩, hz, he⟩ := hk
      rw [List.getElem?_zip_eq_some] at hz
      obtain ⟨hf, hi⟩ := hz
      have hki : i = k := by
        obtain ⟨hlt, hi⟩ := List.getElem?_eq_some_iff.1 hi
        simpa using hi.symm
      subst hki
      simp only [Prod.mk.injEq] at he
      obtain ⟨rfl, rfl⟩ := he
      have hmem : ∀ v ∈ folds.flatten, v < D.data.length := by
        intro v hv
        rw [hp.perm.mem_iff, List.mem_range] at hv
        exact hv
      have hmap : ∀ idx : List Nat, (∀ v ∈ idx, v < D.data.length) →
          (idx.filterMap (D.data[·]?)).map some = idx.map (D.data[·]?) := by
        intro idx
        induction idx with
        | nil => intro _; rfl
        | cons v vs ih =>
          intro h
          have hlt : v < D.data.length := h v (by simp)
          rw [List.filterMap_cons_some (List.getElem?_eq_getElem hlt), List.map_cons, List.map_cons,
            ih fun w hw => h w (by simp [hw]), List.getElem?_eq_getElem hlt]
      refine ⟨f, hf, hmap f ?_, hmap _ ?_⟩
      · intro v hv
        exact hmem v (List.mem_flatten.2 ⟨f, List.mem_of_getElem? hf, hv⟩)
      · intro v hv
        apply hmem v
        rw [List.mem_flatten] at hv ⊢
        obtain ⟨l, hl, hv⟩ := hv
        exact ⟨l, List.mem_of_mem_eraseIdx hl, hv⟩

/-- number of folds: `nfold`, or 5 -/
def requested (nfold : Int) : Nat := if nfold > 0 then nfold.toNat else 5

theorem reduceFolds_eq (tot : Nat) (h : 2 ≤ tot) : ∀ m, 1 ≤ m →
    reduceFolds tot m = .ok (min m (tot / 2), decide (tot / 2 < m)) := by
  intro m
  induction m with
  | zero => intro h; omega
  | succ m ih =>
    intro _
    unfold reduceFolds
    by_cases hq : tot / (m + 1) < 2
    · rw [if_pos hq]
      rw [Nat.div_lt_iff_lt_mul (by omega)] at hq
      have h1 : tot / 2 < m + 1 := by omega
      rw [ih (by omega)]
      simp only [bind, Except.bind, pure, Except.pure, Except.ok.injEq, Prod.mk.injEq]
      refine ⟨by omega, by simp [h1]⟩
    · rw [if_neg hq]
      rw [Nat.div_lt_iff_lt_mul (by omega)] at hq
      have h1 : ¬ tot / 2 < m + 1 := by omega
      simp only [Except.ok.injEq, Prod.mk.injEq]
      refine ⟨by omega, by simp [h1]⟩

theorem requested_pos (nfold : Int) : 1 ≤ requested nfold := by
  unfold requested
  split <;> omega

/-- **C34 (enough rows), partial**: with at least 4 rows and `nfold ≠ 1` the number of folds is the largest number up to
the one requested (5 if `nfold ≤ 0`) that leaves 2 rows per fold, and the error is set exactly when this is less than
the one requested. Missing: fewer than 2 rows (`C34_violated`). -/
theorem C34_number_partial (D : DataBunch F) (nfold : Int) (draws : List Nat) (h4 : 4 ≤ D.data.length) (h1 : nfold ≠ 1)
    (r : Go (CVResult F)) (h : crossValidationSamples D nfold draws = some r) :
    ∃ n s err, r = .ok ⟨n, some s, err⟩ ∧ n ≤ requested nfold ∧ 2 ≤ D.data.length / n ∧
      (∀ m ≤ requested nfold, 2 ≤ D.data.length / m → m ≤ n) ∧ (err = true ↔ n ≠ requested nfold) := by
  unfold crossValidationSamples at h
  simp only at h
  rw [show (if nfold > 0 then nfold.toNat else 5) = requested nfold from rfl,
    reduceFolds_eq _ (by omega) _ (requested_pos nfold)] at h
  have hr2 : 2 ≤ requested nfold := by
    unfold requested
    split <;> omega
  simp only at h
  rw [if_neg (by omega)] at h
  split at h
  · simp at h
  · simp only [Option.some.injEq] at h
    subst h
    refine ⟨_, _, _, rfl, by omega, ?_, ?_, ?_⟩
    · rw [Nat.le_div_iff_mul_le (by omega)]; omega
    · intro m hm hq
      have hm0 : m ≠ 0 := by rintro rfl; simp at hq
      rw [Nat.le_div_iff_mul_le (by omega)] at hq
      omega
    · simp only [decide_eq_true_eq]
      omega

/-- **C34 (few rows), partial**: with 2 or 3 rows, or when one fold is requested, the number of folds is 0 and the error
is set, without any draw. -/
theorem C34_few_partial (D : DataBunch F) (nfold : Int) (draws : List Nat) (h2 : 2 ≤ D.data.length)
    (h : D.data.length ≤ 3 ∨ nfold = 1) : crossValidationSamples D nfold draws = some (.ok ⟨0, none, true⟩) := by
  unfold crossValidationSamples
  simp only
  rw [show (if nfold > 0 then nfold.toNat else 5) = requested nfold from rfl,
    reduceFolds_eq _ (by omega) _ (requested_pos nfold)]
  have : min (requested nfold) (D.data.length / 2) < 2 := by
    rcases h with h | rfl
    · omega
    · have : requested 1 = 1 := rfl
      omega
  simp only
  rw [if_pos this]

/-- **C34 is violated**: with no row or one row the program divides by zero and panics, whatever is requested. -/
theorem C34_violated (D : DataBunch F) (nfold : Int) (draws : List Nat) (h : D.data.length < 2) :
    crossValidationSamples D nfold draws = some (.error .divZero) := by
  have hr : ∀ m, reduceFolds D.data.length m = .error .divZero := by
    intro m
    induction m with
    | zero => rfl
    | succ m ih =>
      unfold reduceFolds
      have : D.data.length / (m + 1) < 2 := by
        have := Nat.div_le_self D.data.length (m + 1)
        omega
      rw [if_pos this, ih]
      rfl
  unfold crossValidationSamples
  simp only
  rw [hr]

/-- **C35**: if every row number keeps being drawn, `CrossValidationSamples` returns after finitely many draws. -/
theorem C35_terminates (D : DataBunch F) (nfold : Int) (d : Nat → Nat) (hd : ∀ m, d m < D.data.length)
    (hf : Fair D.data.length d) :
    ∃ q r, ∀ m ≥ q, crossValidationSamples D nfold ((List.range m).map d) = some r := by
  by_cases h2 : D.data.length < 2
  · exact ⟨0, _, fun m _ => C34_violated D nfold _ h2⟩
  unfold crossValidationSamples
  simp only
  rw [show (if nfold > 0 then nfold.toNat else 5) = requested nfold from rfl,
    reduceFolds_eq _ (by omega) _ (requested_pos nfold)]
  simp only
  split
  · exact ⟨0, _, fun m _ => rfl⟩
  · rename_i hn
    have hseg : ∀ m, (List.range m).map d = seg d 0 m := by
      intro m; unfold seg; rw [List.range_eq_range', Nat.sub_zero]
    obtain ⟨q, folds, h⟩ := fillFolds_seg hd hf (Nat.mul_div_le _ _) _ 0
      _ 0 (Nat.zero_add _) (cvInv_init D.data.length (min (requested nfold) (D.data.length / 2)) _)
    refine ⟨q, (.ok ⟨min (requested nfold) (D.data.length / 2),
      some ⟨D, fillRemaining folds D.data.length, min (requested nfold) (D.data.length / 2), 0⟩,
      decide (D.data.length / 2 < requested nfold)⟩), fun m hm => ?_⟩
    obtain ⟨rest, hr⟩ := h m hm
    rw [hseg, List.range_eq_range', hr]

/-- **C36 (labels)**: in the train and test sets there are as many labels as rows, and the pairs of
`i`-th row and `i`-th label of train and test together are exactly the pairs of the original data. Missing: the keys
(`C36_violated`). -/
theorem C36_labels_partial (D : DataBunch F) (hl : D.labels.length = D.data.length) (nfold : Int) (draws : List Nat)
    (hd : ∀ x ∈ draws, x < D.data.length) (n : Nat) (s : CVSampler F) (h : Sampled D nfold draws n s) (k : Nat)
    (outs : List (Option (DataBunch F × DataBunch F))) (ho : callMany k s = .ok outs) (train test : DataBunch F)
    (hm : some (train, test) ∈ outs) :
    train.labels.length = train.data.length ∧ test.labels.length = test.data.length ∧
    (train.data.zip train.labels ++ test.data.zip test.labels).Perm (D.data.zip D.labels) := by
  obtain ⟨h2, hq, folds, rfl, hp⟩ := sampled_parts h hd
  rw [callMany_eq hp k 0 (by omega)] at ho
  simp only [Except.ok.injEq] at ho
  subst ho
  rw [List.mem_append] at hm
  have hm : some (train, test) ∈ (List.map (fun p => some (pick D (folds.eraseIdx p.2).flatten, pick D p.1))
      ((folds.drop 0).zip (List.range' 0 (n - 0)))) := by
    rcases hm with hm | hm
    · exact List.mem_of_mem_take hm
    · have := List.eq_of_mem_replicate hm
      simp at this
  rw [List.mem_map] at hm
  obtain ⟨⟨f, i⟩, hz, he⟩ := hm
  simp only [Option.some.injEq, Prod.mk.injEq] at he
  obtain ⟨rfl, rfl⟩ := he
  simp only [List.drop_zero, Nat.sub_zero, ← List.range_eq_range'] at hz
  obtain ⟨j, hj⟩ := List.mem_iff_getElem?.1 hz
  rw [List.getElem?_zip_eq_some] at hj
  obtain ⟨hf, hi⟩ := hj
  obtain ⟨hlt, hi⟩ := List.getElem?_eq_some_iff.1 hi
  have hij : j = i := by simpa using hi
  subst hij
  have hzip : ∀ idx : List Nat, (pick D idx).data.zip (pick D idx).labels = idx.filterMap ((D.data.zip D.labels)[·]?) ∧
      (pick D idx).labels.length = (pick D idx).data.length := by
    intro idx
    induction idx with
    | nil => exact ⟨rfl, rfl⟩
    | cons v vs ih =>
      simp only [pick] at ih ⊢
      by_cases hv : v < D.data.length
      · have hv' : v < D.labels.length := by omega
        have h3 : (D.data.zip D.labels)[v]? = some (D.data[v], D.labels[v]) :=
          List.getElem?_zip_eq_some.2 ⟨List.getElem?_eq_getElem hv, List.getElem?_eq_getElem hv'⟩
        rw [List.filterMap_cons_some (List.getElem?_eq_getElem hv), List.filterMap_cons_some (List.getElem?_eq_getElem hv'),
          List.filterMap_cons_some h3, List.zip_cons_cons, ih.1]
        exact ⟨rfl, by simp [ih.2]⟩
      · have hv' : ¬ v < D.labels.length := by omega
        have h3 : (D.data.zip D.labels)[v]? = none := by
          rw [List.getElem?_eq_none]; simp; omega
        rw [List.filterMap_cons_none (List.getElem?_eq_none (by omega)),
          List.filterMap_cons_none (List.getElem?_eq_none (by omega)), List.filterMap_cons_none h3]
        exact ih
  refine ⟨(hzip _).2, (hzip _).2, ?_⟩
  rw [(hzip _).1, (hzip _).1, ← List.filterMap_append]
  have hflat : ((folds.eraseIdx j).flatten ++ f).Perm folds.flatten := by
    have : ∀ (fs : List (List Nat)) (j : Nat) f, fs[j]? = some f → ((fs.eraseIdx j).flatten ++ f).Perm fs.flatten := by
      intro fs
      induction fs with
      | nil => intro j f h; simp at h
      | cons g fs ih =>
        intro j f h
        cases j with
        | zero =>
          simp only [List.getElem?_cons_zero, Option.some.injEq] at h
          subst h
          simpa using List.perm_append_comm
        | succ j =>
          simp only [List.getElem?_cons_succ] at h
          simp only [List.eraseIdx_cons_succ, List.flatten_cons, List.append_assoc]
          exact (ih j f h).append_left g
    exact this folds j f hf
  refine ((hflat.trans hp.perm).filterMap _).trans (List.Perm.of_eq ?_)
  have : ∀ (l : List (List F × Int)), (List.range l.length).filterMap (l[·]?) = l := by
    intro l
    apply List.ext_getElem?
    intro i
    have hm : (List.range l.length).filterMap (l[·]?) = (List.range l.length).pmap (fun i h => l[i]'h)
        (fun i h => List.mem_range.1 h) := by
      have : ∀ (is : List Nat) (hh : ∀ i ∈ is, i < l.length), is.filterMap (l[·]?) = is.pmap (fun i h => l[i]'h) hh := by
        intro is
        induction is with
        | nil => intro _; rfl
        | cons a as ih =>
          intro hh
          have ha : a < l.length := hh a (by simp)
          rw [List.filterMap_cons_some (List.getElem?_eq_getElem ha), ih fun i h => hh i (by simp [h])]
          rfl
      exact this _ _
    rw [hm, List.getElem?_pmap]
    by_cases hi : i < l.length
    · simp [hi]
    · simp [hi]
  have hlen : (D.data.zip D.labels).length = D.data.length := by simp [hl]
  rw [← hlen]
  exact this _

/-- **C36 is violated**: the keys are lost: they are empty in every train and test set of every data set. -/
theorem C36_violated (D : DataBunch F) (nfold : Int) (draws : List Nat)
    (hd : ∀ x ∈ draws, x < D.data.length) (n : Nat) (s : CVSampler F) (h : Sampled D nfold draws n s) (k : Nat)
    (outs : List (Option (DataBunch F × DataBunch F))) (ho : callMany k s = .ok outs) (train test : DataBunch F)
    (hm : some (train, test) ∈ outs) : train.keys = [] ∧ test.keys = [] := by
  obtain ⟨h2, hq, folds, rfl, hp⟩ := sampled_parts h hd
  rw [callMany_eq hp k 0 (by omega)] at ho
  simp only [Except.ok.injEq] at ho
  subst ho
  rw [List.mem_append] at hm
  have hm : some (train, test) ∈ (List.map (fun p => some (pick D (folds.eraseIdx p.2).flatten, pick D p.1))
      ((folds.drop 0).zip (List.range' 0 (n - 0)))) := by
    rcases hm with hm | hm
    · exact List.mem_of_mem_take hm
    · have := List.eq_of_mem_replicate hm
      simp at this
  rw [List.mem_map] at hm
  obtain ⟨⟨f, i⟩, _, he⟩ := hm
  simp only [Option.some.injEq, Prod.mk.injEq] at he
  obtain ⟨rfl, rfl⟩ := he
  exact ⟨rfl, rfl⟩

/-- **C37**: however often it is called, the function does not panic, returns a pair in each of its first `n` calls and
`nil, nil` afterwards, and the test sets of different calls have different rows: no row number is in two of them. -/
theorem C37_history (D : DataBunch F) (nfold : Int) (draws : List Nat) (hd : ∀ x ∈ draws, x < D.data.length) (n : Nat)
    (s : CVSampler F) (h : Sampled D nfold draws n s) (k : Nat) :
    ∃ outs, callMany k s = .ok outs ∧ outs.length = k ∧
      (∀ i < k, (i < n ↔ ∃ p, outs[i]? = some (some p)) ∧ (n ≤ i ↔ outs[i]? = some none)) ∧
      ∃ folds : List (List Nat), folds.flatten.Nodup ∧ ∀ (i : Nat) train test, outs[i]? = some (some (train, test)) →
        ∃ f, folds[i]? = some f ∧ test.data = f.filterMap (D.data[·]?) := by
  obtain ⟨h2, hq, folds, rfl, hp⟩ := sampled_parts h hd
  refine ⟨_, callMany_eq hp k 0 (by omega), ?_, ?_, folds, ?_, ?_⟩
  · simp [hp.len]
    omega
  · intro i hi
    simp only [List.drop_zero, Nat.sub_zero, ← List.range_eq_range']
    by_cases hin : i < n
    · rw [List.getElem?_append_left (by simp [hp.len]; omega), List.getElem?_take_of_lt hi]
      have hlt : i < ((folds.zip (List.range n)).map (fun p =>
          some (pick D (folds.eraseIdx p.2).flatten, pick D p.1))).length := by simp [hp.len, hin]
      rw [List.getElem?_eq_getElem hlt]
      simp [hin]
    · rw [List.getElem?_append_right (by simp [hp.len]; omega)]
      simp [hp.len, hin, List.getElem?_replicate]
      omega
  · rw [hp.perm.nodup_iff]
    exact List.nodup_range
  · intro i train test hi
    simp only [List.drop_zero, Nat.sub_zero, ← List.range_eq_range'] at hi
    by_cases hlt : i < (List.take k ((folds.zip (List.range n)).map (fun p =>
          some (pick D (folds.eraseIdx p.2).flatten, pick D p.1)))).length
    · rw [List.getElem?_append_left hlt] at hi
      have hik : i < k := by
        simp at hlt
        omega
      rw [List.getElem?_take_of_lt hik, List.getElem?_map, Option.map_eq_some_iff] at hi
      obtain ⟨⟨f, j⟩, hz, he⟩ := hi
      rw [List.getElem?_zip_eq_some] at hz
      simp only [Option.some.injEq, Prod.mk.injEq] at he
      obtain ⟨rfl, rfl⟩ := he
      exact ⟨f, hz.1, rfl⟩
    · rw [List.getElem?_append_right (by omega), List.getElem?_replicate] at hi
      split at hi <;> simp at hi

/-! Non-vacuity: 9 rows with keys, 5 folds requested (4 used), a draw sequence with repetitions. -/

/-- 9 labelled rows -/
def cvData : DataBunch F64 :=
  ⟨(List.range 9).map fun i => [XF.fin (i : ℚ)], ["x".toList], (List.range 9).map fun i => (i : Int), []⟩

/-- draws with repetitions -/
def cvDraws : List Nat := [3, 3, 7, 0, 3, 7, 1, 5, 5, 0, 8, 2, 6]

example : ∃ s, Sampled cvData 0 cvDraws 4 s ∧ (∀ x ∈ cvDraws, x < cvData.data.length) ∧
    cvData.labels.length = cvData.data.length ∧ s.folds = [[3, 7], [0, 1], [5, 8], [2, 6, 4]] :=
  ⟨⟨cvData, [[3, 7], [0, 1], [5, 8], [2, 6, 4]], 4, 0⟩, ⟨true, rfl⟩, by decide, by decide, rfl⟩

example : Fair 9 (fun m => m % 9) := by
  intro k hk N
  exact ⟨9 * N + k, by omega, by show (9 * N + k) % 9 = k; omega⟩

end Boo
