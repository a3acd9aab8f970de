import Verif.Props.Unseen
import Mathlib.Algebra.BigOperators.Pi
import Mathlib.Algebra.BigOperators.Field
import Mathlib.Data.Fintype.BigOperators

/-!
# C131: cross-validation judges every row by a model that has not seen it
-/

namespace Boo
open GoFloat
set_option linter.unusedSectionVars false
variable {F : Type} [GoFloat F]

/-- the folds `CrossValidationSamples` makes for `N` rows -/
def foldsFor (N : Nat) (nfold : Int) (draws : List Nat) : List (List Nat) :=
  match reduceFolds N (if nfold > 0 then nfold.toNat else 5) with
  | .error _ => []
  | .ok (nf, _) =>
    match fillFolds (N / nf) (List.range nf) (List.replicate nf []) draws with
    | none => []
    | some (folds, _) => fillRemaining folds N

theorem sampled_folds {D : DataBunch F} {nfold : Int} {draws : List Nat} {n : Nat} {s : CVSampler F}
    (h : Sampled D nfold draws n s) : s = ⟨D, foldsFor D.data.length nfold draws, n, 0⟩ := by
  obtain ⟨err, h⟩ := h
  unfold crossValidationSamples at h
  unfold foldsFor
  simp only at h
  cases hr : reduceFolds D.data.length (if nfold > 0 then nfold.toNat else 5) with
  | error p => rw [hr] at h; simp at h
  | ok q =>
    obtain ⟨nf, e⟩ := q
    rw [hr] at h
    simp only at h
    split at h
    · simp at h
    · cases hff : fillFolds (D.data.length / nf) (List.range nf) (List.replicate nf []) draws with
      | none => rw [hff] at h; simp at h
      | some p =>
        obtain ⟨folds, rest⟩ := p
        rw [hff] at h
        simp only [Option.some.injEq, Except.ok.injEq, CVResult.mk.injEq] at h
        obtain ⟨rfl, h2, rfl⟩ := h
        subst h2
        simp only [hff]

/-- The rows of `D` with the given numbers, with their labels, in that order. -/
def rowsAt (D : DataBunch F) (idx : List Nat) : DataBunch F :=
  ⟨idx.filterMap (D.data[·]?), [], idx.filterMap (D.labels[·]?), []⟩

/-- the model gives row `i` of `D` the label it has in `D` -/
def labelsRight (M : MultiClass F) (D : DataBunch F) (i : Nat) : Bool :=
  match D.data[i]? with
  | none => false
  | some row =>
    match M.predictSingleClass row with
    | .error _ => false
    | .ok c => decide (M.classLabels[c]? = D.labels[i]?)

/-- What one fold `f` contributes to the accuracy, when the other rows are `rest`: the model is trained on the other rows only;
`none` if it has no round, else the percentage of the rows of the fold that it labels right. -/
def FoldResult (exp : F → F) (S : GoSort) (draws : Nat → F) (O : Options F) (D : DataBunch F) (rest f : List Nat)
    (a : Option F) : Prop :=
  ∃ M, newMultiClass exp S draws (rowsAt D rest) O = .ok M ∧
    ((M.rounds none ≤ 0 ∧ a = none) ∨
      (0 < M.rounds none ∧ (∀ i ∈ f, ∃ row c, D.data[i]? = some row ∧ M.predictSingleClass row = .ok c ∧ c < M.classLabels.length) ∧
        a = some (ofRat 100 *. (ofInt (f.countP (labelsRight M D) : Nat) /. ofInt f.length))))

theorem countRight_rows {M : MultiClass F} {D : DataBunch F} : ∀ (f : List Nat) (pre : List Int) (r0 r : Nat),
    (∀ i ∈ f, i < D.data.length) → D.labels.length = D.data.length →
    M.countRight (pre ++ f.filterMap (D.labels[·]?)) (f.filterMap (D.data[·]?)) pre.length r0 = .ok r →
    (∀ i ∈ f, ∃ row c, D.data[i]? = some row ∧ M.predictSingleClass row = .ok c ∧ c < M.classLabels.length) ∧
      r = r0 + f.countP (labelsRight M D) := by
  intro f
  induction f with
  | nil =>
    intro pre r0 r _ _ h
    simp only [List.filterMap_nil, MultiClass.countRight, Except.ok.injEq] at h
    simp [h]
  | cons i f ih =>
    intro pre r0 r hlt hl h
    have hi := hlt i (by simp)
    have e1 : D.data[i]? = some D.data[i] := List.getElem?_eq_getElem hi
    have e2 : D.labels[i]? = some (D.labels[i]'(by omega)) := List.getElem?_eq_getElem (by omega)
    rw [List.filterMap_cons_some e1, List.filterMap_cons_some e2] at h
    unfold MultiClass.countRight at h
    obtain ⟨c, h1, h⟩ := bind_ok h
    obtain ⟨lab, h2, h⟩ := bind_ok h
    obtain ⟨actual, h3, h⟩ := bind_ok h
    have h2 := goIdx_ok.1 h2
    have h3 := goIdx_ok.1 h3
    simp only [List.getElem?_append_right (le_refl _), Nat.sub_self, List.getElem?_cons_zero, Option.some.injEq] at h3
    rw [show pre ++ D.labels[i]'(by omega) :: f.filterMap (D.labels[·]?) =
      (pre ++ [D.labels[i]'(by omega)]) ++ f.filterMap (D.labels[·]?) by simp,
      show pre.length + 1 = (pre ++ [D.labels[i]'(by omega)]).length by simp] at h
    obtain ⟨a1, a2⟩ := ih _ _ _ (fun j hj => hlt j (by simp [hj])) hl h
    constructor
    · intro j hj
      rcases List.mem_cons.1 hj with rfl | hj
      · exact ⟨_, c, e1, h1, (List.getElem?_eq_some_iff.1 h2).1⟩
      · exact a1 j hj
    · rw [a2, List.countP_cons]
      have : labelsRight M D i = decide (lab = actual) := by
        unfold labelsRight
        rw [e1]
        simp only [h1, h2, e2, h3, Option.some.injEq]
      rw [this]
      by_cases he : lab = actual
      · simp [he]; omega
      · simp [he]

theorem filterMap_length {α : Type} {l : List α} : ∀ {idx : List Nat}, (∀ i ∈ idx, i < l.length) →
    (idx.filterMap (l[·]?)).length = idx.length := by
  intro idx
  induction idx with
  | nil => intro _; rfl
  | cons v vs ih =>
    intro h
    rw [List.filterMap_cons_some (List.getElem?_eq_getElem (h v (by simp))), List.length_cons, List.length_cons,
      ih fun w hw => h w (by simp [hw])]

theorem fold_lt {N n : Nat} {q : Nat} {folds : List (List Nat)} (hp : CVParts N n q folds) {k : Nat} {f : List Nat}
    (hf : folds[k]? = some f) : ∀ i ∈ f, i < N := by
  intro i hi
  have : i ∈ folds.flatten := List.mem_flatten.2 ⟨f, List.mem_of_getElem? hf, hi⟩
  rw [hp.perm.mem_iff, List.mem_range] at this
  exact this

/-- **C131 (folds)**, any arithmetic: for each number of rows, number of folds and sequence of random draws there is one partition
of the row numbers such that, whatever the values and labels of the data, the options and the draws of the training: a
cross-validation that returns without error has judged the rows of each fold by a model trained on the rows of the other folds,
and has returned the sum of the percentages divided by the number of folds. -/
theorem C131_folds (N : Nat) (nfold : Int) (idraws : List Nat) (hd : ∀ x ∈ idraws, x < N) :
    ∃ folds : List (List Nat), ∀ (exp : F → F) (S : GoSort) (D : DataBunch F) (O : Option (Options F)) (conc : Bool)
      (fdraws : Nat → Nat → F) (out : CVOut F), D.data.length = N → D.labels.length = N →
      crossValidation exp S D nfold O conc idraws fdraws = pure out → out.err = false →
      2 ≤ folds.length ∧ folds.flatten.Perm (List.range N) ∧ (∀ f ∈ folds, f ≠ []) ∧
      ∃ accs : List (Option F), accs.length = folds.length ∧
        out.acc = (accs.filterMap id).foldl (· +. ·) zero /. ofInt folds.length ∧
        ∀ (k : Nat) f a, folds[k]? = some f → accs[k]? = some a →
          FoldResult exp S (fdraws k) (O.getD (defaultXOptions 0)) D (folds.eraseIdx k).flatten f a := by
  refine ⟨foldsFor N nfold idraws, ?_⟩
  intro exp S D O conc fdraws out hN hlab h he
  subst hN
  obtain ⟨n, s, hs, pairs, hp, hl, accs, hla, hf, hacc, _⟩ :=
    C54_cross_validation_partial exp S D nfold O conc idraws fdraws out h he
  obtain ⟨h2, hq, folds, hsf, hpt⟩ := sampled_parts hs hd
  have hsf' := sampled_folds hs
  rw [hsf] at hsf'
  have hfe : folds = foldsFor D.data.length nfold idraws := by cases hsf'; rfl
  rw [← hfe]
  have hlen := hpt.len
  refine ⟨by omega, hpt.perm, ?_, accs, by omega, by rw [hlen]; exact hacc, ?_⟩
  · intro f hfm hnil
    subst hnil
    obtain ⟨k, hk⟩ := List.getElem?_of_mem hfm
    have hkl := (List.getElem?_eq_some_iff.1 hk).1
    by_cases hl : k + 1 < n
    · have := hpt.sizes k _ hk hl
      simp only [List.length_nil] at this
      omega
    · have hk1 : k = n - 1 := by omega
      subst hk1
      have := hpt.last _ hk
      simp only [List.length_nil] at this
      omega
  · intro k f a hkf hka
    have hkn : k < n := by
      have := (List.getElem?_eq_some_iff.1 hka).1
      omega
    have hpk : pairs[k]? = some (pick D (folds.eraseIdx k).flatten, pick D f) := by
      rw [hsf, callMany_eq hpt n 0 (by omega)] at hp
      simp only [List.drop_zero, Nat.sub_zero, Nat.sub_self, List.replicate_zero, List.append_nil,
        ← List.range_eq_range', Except.ok.injEq] at hp
      have hk : (pairs.map some)[k]? = some (some (pick D (folds.eraseIdx k).flatten, pick D f)) := by
        rw [← hp, List.getElem?_take_of_lt hkn, List.getElem?_map]
        have : (folds.zip (List.range n))[k]? = some (f, k) := by
          rw [List.getElem?_zip_eq_some]
          exact ⟨hkf, by rw [List.getElem?_range hkn]⟩
        rw [this]
        rfl
      rw [List.getElem?_map] at hk
      cases hx : pairs[k]? with
      | none => rw [hx] at hk; simp at hk
      | some p =>
        rw [hx] at hk
        simp only [Option.map_some, Option.some.injEq] at hk
        rw [hk]
    obtain ⟨M, hM, hM2⟩ := hf k _ _ hpk hka
    refine ⟨M, hM, ?_⟩
    rcases hM2 with ⟨h1, h2⟩ | ⟨h1, x, hx, h2⟩
    · exact Or.inl ⟨h1, h2⟩
    · right
      unfold MultiClass.accuracy at hx
      obtain ⟨r, h3, h4⟩ := bind_ok hx
      have hflt := fold_lt hpt hkf
      obtain ⟨b1, b2⟩ := countRight_rows f [] 0 r hflt hlab h3
      refine ⟨h1, b1, ?_⟩
      rw [h2, ← Except.ok.inj h4, b2, Nat.zero_add]
      have hlen2 : (pick D f).data.length = f.length := by
        simp only [pick]
        exact filterMap_length hflt
      rw [hlen2]

theorem rowsAt_congr {D D' : DataBunch F} {idx : List Nat} (h : ∀ i ∈ idx, D.data[i]? = D'.data[i]? ∧ D.labels[i]? = D'.labels[i]?) :
    rowsAt D idx = rowsAt D' idx := by
  unfold rowsAt
  rw [List.filterMap_congr fun i hi => (h i hi).1, List.filterMap_congr fun i hi => (h i hi).2]

/-- numbers in a fold are in no other fold -/
theorem other_folds {folds : List (List Nat)} {N : Nat} (hp : folds.flatten.Perm (List.range N)) {k : Nat} {f : List Nat}
    (hk : folds[k]? = some f) : ∀ i ∈ f, i ∉ (folds.eraseIdx k).flatten := by
  obtain ⟨hlt, hfe⟩ := List.getElem?_eq_some_iff.1 hk
  have h1 : (folds[k] :: folds.eraseIdx k).Perm folds := List.getElem_cons_eraseIdx_perm hlt
  have h1 := h1.flatten
  rw [List.flatten_cons, hfe] at h1
  have hnd : (f ++ (folds.eraseIdx k).flatten).Nodup := by
    rw [(h1.trans hp).nodup_iff]
    exact List.nodup_range
  intro i hi hj
  exact (List.nodup_append.1 hnd).2.2 i hi i hj rfl

/-- **C131 (unseen rows)**, any arithmetic: two cross-validations of data sets of the same size, with the same draws, make the same
folds; if the data sets differ only in the values and labels of the rows of one fold, then both judge the rows of that fold by
the same model. -/
theorem C131_unseen (exp : F → F) (S : GoSort) (D D' : DataBunch F) (nfold : Int) (O : Option (Options F)) (conc : Bool)
    (idraws : List Nat) (hd : ∀ x ∈ idraws, x < D.data.length) (fdraws : Nat → Nat → F) (out out' : CVOut F)
    (hN : D'.data.length = D.data.length) (hl : D.labels.length = D.data.length) (hl' : D'.labels.length = D.data.length)
    (h : crossValidation exp S D nfold O conc idraws fdraws = pure out) (he : out.err = false)
    (h' : crossValidation exp S D' nfold O conc idraws fdraws = pure out') (he' : out'.err = false) :
    ∃ folds : List (List Nat), folds.flatten.Perm (List.range D.data.length) ∧
      ∃ accs accs' : List (Option F), accs.length = folds.length ∧ accs'.length = folds.length ∧
        out.acc = (accs.filterMap id).foldl (· +. ·) zero /. ofInt folds.length ∧
        out'.acc = (accs'.filterMap id).foldl (· +. ·) zero /. ofInt folds.length ∧
        ∀ (k : Nat) f, folds[k]? = some f →
          (∀ i < D.data.length, i ∉ f → D.data[i]? = D'.data[i]? ∧ D.labels[i]? = D'.labels[i]?) →
          ∃ M : MultiClass F, (M.rounds none ≤ 0 ∧ accs[k]? = some none ∧ accs'[k]? = some none) ∨
            (0 < M.rounds none ∧
              accs[k]? = some (some (ofRat 100 *. (ofInt (f.countP (labelsRight M D) : Nat) /. ofInt f.length))) ∧
              accs'[k]? = some (some (ofRat 100 *. (ofInt (f.countP (labelsRight M D') : Nat) /. ofInt f.length)))) := by
  obtain ⟨folds, hfolds⟩ := C131_folds (F := F) D.data.length nfold idraws hd
  obtain ⟨_, a2, _, accs, a4, a5, a6⟩ := hfolds exp S D O conc fdraws out rfl hl h he
  obtain ⟨_, _, _, accs', b4, b5, b6⟩ := hfolds exp S D' O conc fdraws out' hN hl' h' he'
  refine ⟨folds, a2, accs, accs', a4, b4, a5, b5, ?_⟩
  intro k f hk hag
  have hkl := (List.getElem?_eq_some_iff.1 hk).1
  have e1 : accs[k]? = some accs[k] := List.getElem?_eq_getElem (by omega)
  have e2 : accs'[k]? = some accs'[k] := List.getElem?_eq_getElem (by omega)
  obtain ⟨M, hM, hM2⟩ := a6 k f _ hk e1
  obtain ⟨M', hM', hM2'⟩ := b6 k f _ hk e2
  have hrows : rowsAt D (folds.eraseIdx k).flatten = rowsAt D' (folds.eraseIdx k).flatten := by
    apply rowsAt_congr
    intro i hi
    have hlt : i < D.data.length := by
      obtain ⟨g, hg, hig⟩ := List.mem_flatten.1 hi
      have : i ∈ folds.flatten := List.mem_flatten.2 ⟨g, List.mem_of_mem_eraseIdx hg, hig⟩
      rw [a2.mem_iff, List.mem_range] at this
      exact this
    exact hag i hlt fun hif => other_folds a2 hk i hif hi
  rw [← hrows, hM] at hM'
  cases hM'
  refine ⟨M, ?_⟩
  rcases hM2 with ⟨h1, h2⟩ | ⟨h1, _, h2⟩ <;> rcases hM2' with ⟨h3, h4⟩ | ⟨h3, _, h4⟩
  · exact Or.inl ⟨h1, by rw [e1, h2], by rw [e2, h4]⟩
  · omega
  · omega
  · exact Or.inr ⟨h1, by rw [e1, h2], by rw [e2, h4]⟩

/-! ### labels that carry no information -/

section
variable {K : Type} [Field K] [LinearOrder K] [IsStrictOrderedRing K] [FloorRing K]

/-- a label drawn anew, independently of the others, does not change a mean -/
theorem resample {m N : Nat} (w : Fin m → K) (hw : ∑ l, w l = 1) (i : Fin N) (h : (Fin N → Fin m) → K) :
    ∑ L : Fin N → Fin m, (∏ j, w (L j)) * h L =
      ∑ L : Fin N → Fin m, (∏ j, w (L j)) * ∑ l, w l * h (Function.update L i l) := by
  have key : ∀ (L : Fin N → Fin m) (l : Fin m), (∏ j, w (L j)) * w l = (∏ j, w (Function.update L i l j)) * w (L i) := by
    intro L l
    rw [← Finset.mul_prod_erase Finset.univ (fun j => w (L j)) (Finset.mem_univ i),
      ← Finset.mul_prod_erase Finset.univ (fun j => w (Function.update L i l j)) (Finset.mem_univ i)]
    have : ∏ x ∈ Finset.univ.erase i, w (Function.update L i l x) = ∏ x ∈ Finset.univ.erase i, w (L x) := by
      apply Finset.prod_congr rfl
      intro j hj
      rw [Function.update_of_ne (Finset.ne_of_mem_erase hj)]
    rw [this, Function.update_self]
    ring
  have step : ∑ L : Fin N → Fin m, (∏ j, w (L j)) * ∑ l, w l * h (Function.update L i l) =
      ∑ p : (Fin N → Fin m) × Fin m, (∏ j, w (p.1 j)) * w p.2 * h (Function.update p.1 i p.2) := by
    rw [Fintype.sum_prod_type]
    apply Finset.sum_congr rfl
    intro L _
    rw [Finset.mul_sum]
    apply Finset.sum_congr rfl
    intro l _
    ring
  have step2 : ∑ L : Fin N → Fin m, (∏ j, w (L j)) * h L =
      ∑ p : (Fin N → Fin m) × Fin m, (∏ j, w (p.1 j)) * w p.2 * h p.1 := by
    rw [Fintype.sum_prod_type]
    apply Finset.sum_congr rfl
    intro L _
    show _ = ∑ y, (∏ j, w (L j)) * w y * h L
    rw [← Finset.sum_mul, ← Finset.mul_sum, hw, mul_one]
  rw [step, step2]
  let e : (Fin N → Fin m) × Fin m ≃ (Fin N → Fin m) × Fin m :=
    { toFun := fun p => (Function.update p.1 i p.2, p.1 i)
      invFun := fun p => (Function.update p.1 i p.2, p.1 i)
      left_inv := by intro p; simp
      right_inv := by intro p; simp }
  rw [← Equiv.sum_comp e]
  apply Finset.sum_congr rfl
  rintro ⟨L, l⟩ _
  simp only [e, Equiv.coe_fn_mk]
  rw [key L l]

theorem prod_weights {m N : Nat} (w : Fin m → K) (hw : ∑ l, w l = 1) : ∑ L : Fin N → Fin m, ∏ j, w (L j) = 1 := by
  have := Finset.prod_univ_sum (fun _ : Fin N => (Finset.univ : Finset (Fin m))) (fun _ => w)
  rw [Fintype.piFinset_univ] at this
  rw [← this]
  simp [hw]

/-- A guess that does not look at label `i` is right with probability at most `q`, the largest probability of a label. -/
theorem guess_le {m N : Nat} (w : Fin m → K) (hw0 : ∀ l, 0 ≤ w l) (hw : ∑ l, w l = 1) (q : K) (hq0 : 0 ≤ q) (hq : ∀ l, w l ≤ q)
    (lab : Fin m → Int) (hinj : Function.Injective lab) (i : Fin N) (g : (Fin N → Fin m) → Option Int)
    (hg : ∀ L l, g (Function.update L i l) = g L) :
    ∑ L : Fin N → Fin m, (∏ j, w (L j)) * (if g L = some (lab (L i)) then 1 else 0) ≤ q := by
  rw [resample w hw i]
  have : ∀ L : Fin N → Fin m, ∑ l, w l * (if g (Function.update L i l) = some (lab (Function.update L i l i)) then (1 : K) else 0) ≤ q := by
    intro L
    simp only [hg, Function.update_self, mul_ite, mul_one, mul_zero]
    by_cases hex : ∃ l, g L = some (lab l)
    · obtain ⟨l, hl⟩ := hex
      rw [Finset.sum_eq_single l]
      · rw [if_pos hl]; exact hq l
      · intro l' _ hne
        rw [if_neg]
        intro h
        rw [hl] at h
        exact hne (hinj (Option.some.inj h)).symm
      · intro h; exact absurd (Finset.mem_univ l) h
    · rw [Finset.sum_eq_zero]
      · exact hq0
      · intro l _
        rw [if_neg fun h => hex ⟨l, h⟩]
  calc _ ≤ ∑ L : Fin N → Fin m, (∏ j, w (L j)) * q := by
        apply Finset.sum_le_sum
        intro L _
        exact mul_le_mul_of_nonneg_left (this L) (Finset.prod_nonneg fun j _ => hw0 _)
    _ = q := by rw [← Finset.sum_mul, prod_weights w hw, one_mul]

/-- A guess among `m` equally likely labels that does not look at label `i` is right with probability `1/m`. -/
theorem guess_uniform {m N : Nat} (lab : Fin m → Int) (hinj : Function.Injective lab) (hm : 0 < m) (i : Fin N)
    (g : (Fin N → Fin m) → Option Int) (hg : ∀ L l, g (Function.update L i l) = g L) (hgl : ∀ L, ∃ l, g L = some (lab l)) :
    ∑ L : Fin N → Fin m, (∏ _j : Fin N, (1 / m : K)) * (if g L = some (lab (L i)) then 1 else 0) = 1 / m := by
  have hm' : (m : K) ≠ 0 := by exact_mod_cast hm.ne'
  have hw : ∑ _l : Fin m, (1 / m : K) = 1 := by
    rw [Finset.sum_const, Finset.card_univ, Fintype.card_fin, nsmul_eq_mul]
    field_simp
  have hr := resample (fun _ : Fin m => (1 / m : K)) hw i (fun L => if g L = some (lab (L i)) then 1 else 0)
  rw [hr]
  have : ∀ L : Fin N → Fin m, ∑ l, (1 / m : K) * (if g (Function.update L i l) = some (lab (Function.update L i l i)) then (1 : K) else 0) = 1 / m := by
    intro L
    simp only [hg, Function.update_self, mul_ite, mul_one, mul_zero]
    obtain ⟨l, hl⟩ := hgl L
    rw [Finset.sum_eq_single l]
    · rw [if_pos hl]
    · intro l' _ hne
      rw [if_neg]
      intro h
      rw [hl] at h
      exact hne (hinj (Option.some.inj h)).symm
    · intro h; exact absurd (Finset.mem_univ l) h
  simp only [this]
  rw [← Finset.sum_mul, prod_weights (fun _ : Fin m => (1 / m : K)) hw, one_mul]

/-- the data `D` with the labels `lab (L 0), lab (L 1), …` -/
def DataBunch.relabel (D : DataBunch F) {m : Nat} (lab : Fin m → Int) (L : Fin D.data.length → Fin m) : DataBunch F :=
  { D with labels := List.ofFn fun i => lab (L i) }

/-- the label that the model of a fold gives to row `i`; `rest` are the rows of the other folds -/
def foldGuess (exp : F → F) (S : GoSort) (draws : Nat → F) (O : Options F) (D : DataBunch F) (rest : List Nat) (i : Nat) : Option Int :=
  match newMultiClass exp S draws (rowsAt D rest) O with
  | .error _ => none
  | .ok M =>
    if M.rounds none ≤ 0 then none
    else match D.data[i]? with
      | none => none
      | some row =>
        match M.predictSingleClass row with
        | .error _ => none
        | .ok c => M.classLabels[c]?

theorem relabel_get {D : DataBunch F} {m : Nat} {lab : Fin m → Int} {L : Fin D.data.length → Fin m} (i : Fin D.data.length) :
    (D.relabel lab L).labels[(i : Nat)]? = some (lab (L i)) := by
  simp [DataBunch.relabel]

/-- the model of a fold does not look at the label of a row of the fold -/
theorem foldGuess_update {exp : F → F} {S : GoSort} {draws : Nat → F} {O : Options F} {D : DataBunch F} {m : Nat} {lab : Fin m → Int}
    {L : Fin D.data.length → Fin m} {rest : List Nat} {i : Fin D.data.length} (hi : (i : Nat) ∉ rest) (l : Fin m) (j : Nat) :
    foldGuess exp S draws O (D.relabel lab (Function.update L i l)) rest j = foldGuess exp S draws O (D.relabel lab L) rest j := by
  have : rowsAt (D.relabel lab (Function.update L i l)) rest = rowsAt (D.relabel lab L) rest := by
    apply rowsAt_congr
    intro v hv
    refine ⟨rfl, ?_⟩
    by_cases hlt : v < D.data.length
    · have hne : (⟨v, hlt⟩ : Fin D.data.length) ≠ i := by
        rintro rfl
        exact hi hv
      rw [relabel_get (D := D) (i := ⟨v, hlt⟩), relabel_get (D := D) (i := ⟨v, hlt⟩), Function.update_of_ne hne]
    · simp [DataBunch.relabel, hlt]
  unfold foldGuess
  rw [this]
  rfl

theorem sum_options : ∀ (accs : List (Option (Exact K))) (vs : List K),
    List.Forall₂ (fun a v => (a = none ∧ v = 0) ∨ a = some (.fin v)) accs vs →
    ∃ qs : List K, accs.filterMap id = qs.map XF.fin ∧ qs.sum = vs.sum := by
  intro accs vs h
  induction h with
  | nil => exact ⟨[], rfl, rfl⟩
  | @cons a v accs vs h _ ih =>
    obtain ⟨qs, h1, h2⟩ := ih
    rcases h with ⟨rfl, rfl⟩ | rfl
    · exact ⟨qs, (List.filterMap_cons_none rfl).trans h1, by simp [h2]⟩
    · exact ⟨v :: qs, by show XF.fin v :: accs.filterMap id = _; rw [h1]; rfl, by simp [h2]⟩

theorem countP_sum {α : Type} (l : List α) (p : α → Prop) [DecidablePred p] :
    (((l.countP fun x => decide (p x)) : Nat) : K) = (l.map fun x => if p x then (1 : K) else 0).sum := by
  induction l with
  | nil => simp
  | cons x l ih =>
    rw [List.countP_cons, List.map_cons, List.sum_cons, ← ih]
    by_cases h : p x
    · simp [h, add_comm]
    · simp [h]

/-- the percentage of the rows of fold `k` that get their label -/
def foldShare (exp : Exact K → Exact K) (S : GoSort) (fdraws : Nat → Nat → Exact K) (O : Options (Exact K)) (D : DataBunch (Exact K))
    (folds : List (List Nat)) (k : Nat) : K :=
  100 * ((((folds.getD k []).map fun i =>
    if foldGuess exp S (fdraws k) O D (folds.eraseIdx k).flatten i = D.labels[i]? then (1 : K) else 0).sum) / (folds.getD k []).length)

/-- the accuracy of a cross-validation is the mean of the percentages -/
theorem acc_shares {exp : Exact K → Exact K} {S : GoSort} {fdraws : Nat → Nat → Exact K} {O : Options (Exact K)} {D : DataBunch (Exact K)}
    {folds : List (List Nat)} (h2 : 2 ≤ folds.length) (hp : folds.flatten.Perm (List.range D.data.length)) (hne : ∀ f ∈ folds, f ≠ [])
    (hlab : D.labels.length = D.data.length) {accs : List (Option (Exact K))} (hl : accs.length = folds.length)
    (hf : ∀ (k : Nat) f a, folds[k]? = some f → accs[k]? = some a →
      FoldResult exp S (fdraws k) O D (folds.eraseIdx k).flatten f a) :
    (accs.filterMap id).foldl (· +. ·) zero /. ofInt folds.length =
      XF.fin (((List.range folds.length).map (foldShare exp S fdraws O D folds)).sum / folds.length) := by
  have hlt : ∀ f ∈ folds, ∀ i ∈ f, i < D.data.length := by
    intro f hf i hi
    have : i ∈ folds.flatten := List.mem_flatten.2 ⟨f, hf, hi⟩
    rw [hp.mem_iff, List.mem_range] at this
    exact this
  have hall : List.Forall₂ (fun a v => (a = none ∧ v = 0) ∨ a = some (.fin v)) accs
      ((List.range folds.length).map (foldShare exp S fdraws O D folds)) := by
    rw [List.forall₂_iff_get]
    refine ⟨by simp [hl], ?_⟩
    intro k hk1 hk2
    have hk : k < folds.length := by omega
    have hfk : folds[k]? = some folds[k] := List.getElem?_eq_getElem hk
    have hgd : folds.getD k [] = folds[k] := by rw [List.getD_eq_getElem?_getD, hfk]; rfl
    obtain ⟨M, hM, hM2⟩ := hf k _ _ hfk (List.getElem?_eq_getElem hk1)
    simp only [List.get_eq_getElem, List.getElem_map, List.getElem_range]
    have hlab' : ∀ i ∈ folds[k], ∃ lb, D.labels[i]? = some lb := by
      intro i hi
      have := hlt _ (List.getElem_mem hk) i hi
      exact ⟨_, List.getElem?_eq_getElem (by omega)⟩
    rcases hM2 with ⟨h1, h2⟩ | ⟨h1, h2, h3⟩
    · refine Or.inl ⟨h2, ?_⟩
      have : (folds[k].map fun i => if foldGuess exp S (fdraws k) O D (folds.eraseIdx k).flatten i = D.labels[i]? then (1 : K) else 0).sum = 0 := by
        apply List.sum_eq_zero
        intro x hx
        obtain ⟨i, hi, rfl⟩ := List.mem_map.1 hx
        obtain ⟨lb, hlb⟩ := hlab' i hi
        rw [if_neg]
        unfold foldGuess
        rw [hM, hlb]
        simp only [if_pos h1]
        simp
      unfold foldShare
      rw [hgd, this]
      simp
    · right
      rw [h3]
      have hpos : (0 : K) < folds[k].length := by
        have := List.length_pos_iff.2 (hne _ (List.getElem_mem hk))
        exact_mod_cast this
      have e1 : ((((folds[k].countP (labelsRight M D) : Nat) : Int) : Rat) : K) = ((folds[k].countP (labelsRight M D) : Nat) : K) := by push_cast; rfl
      have e2 : (((folds[k].length : Int) : Rat) : K) = (folds[k].length : K) := by push_cast; rfl
      have e3 : ((100 : Rat) : K) = 100 := by push_cast; rfl
      rw [Exact.ofInt_fin, Exact.ofInt_fin, Exact.ofRat_fin, e1, e2, e3, Exact.div_fin _ _ hpos.ne', Exact.mul_fin]
      unfold foldShare
      rw [hgd]
      congr 4
      rw [← countP_sum]
      congr 1
      apply List.countP_congr
      intro i hi
      obtain ⟨row, c, a1, a2, a3⟩ := h2 i hi
      unfold labelsRight foldGuess
      rw [hM, a1]
      simp only [if_neg (not_le.2 h1), a2]
  obtain ⟨qs, h3, h4⟩ := sum_options _ _ hall
  have hz : (zero : Exact K) = .fin 0 := by simp
  rw [h3, hz, sum_exact, zero_add, h4]
  have hn0 : (0 : K) < folds.length := by
    have : 0 < folds.length := by omega
    exact_mod_cast this
  have e : (((folds.length : Int) : Rat) : K) = (folds.length : K) := by push_cast; rfl
  rw [Exact.ofInt_fin, e, Exact.div_fin _ _ hn0.ne']

theorem mean_list_le {α ι : Type} [Fintype ι] (P : ι → K) (q : K) : ∀ (l : List α) (c : α → ι → K), (∀ x ∈ l, ∑ i, P i * c x i ≤ q) →
    ∑ i, P i * (l.map fun x => c x i).sum ≤ l.length * q := by
  intro l c
  induction l with
  | nil => intro _; simp
  | cons x l ih =>
    intro h
    have h1 := h x (by simp)
    have h2 := ih fun y hy => h y (by simp [hy])
    simp only [List.map_cons, List.sum_cons, mul_add, Finset.sum_add_distrib, List.length_cons]
    push_cast
    linarith

theorem mean_list_eq {α ι : Type} [Fintype ι] (P : ι → K) (q : K) : ∀ (l : List α) (c : α → ι → K), (∀ x ∈ l, ∑ i, P i * c x i = q) →
    ∑ i, P i * (l.map fun x => c x i).sum = l.length * q := by
  intro l c
  induction l with
  | nil => intro _; simp
  | cons x l ih =>
    intro h
    have h1 := h x (by simp)
    have h2 := ih fun y hy => h y (by simp [hy])
    simp only [List.map_cons, List.sum_cons, mul_add, Finset.sum_add_distrib, List.length_cons]
    push_cast
    linarith

/-- **C131 (noise)**, exact arithmetic: if the labels are drawn independently of each other, of the rows and of the random draws of the
cross-validation, label `lab l` with probability `w l`, then the mean accuracy that a cross-validation reports is at most `100 q`, with
`q` the largest probability of a label: on average it is not better than always guessing the most frequent label. -/
theorem C131_noise (exp : Exact K → Exact K) (S : GoSort) (D : DataBunch (Exact K)) (nfold : Int) (O : Option (Options (Exact K)))
    (conc : Bool) (idraws : List Nat) (hd : ∀ x ∈ idraws, x < D.data.length) (fdraws : Nat → Nat → Exact K)
    {m : Nat} (lab : Fin m → Int) (hinj : Function.Injective lab) (w : Fin m → K) (hw0 : ∀ l, 0 ≤ w l) (hw : ∑ l, w l = 1)
    (q : K) (hq : ∀ l, w l ≤ q) (acc : (Fin D.data.length → Fin m) → K)
    (h : ∀ L, ∃ out, crossValidation exp S (D.relabel lab L) nfold O conc idraws fdraws = pure out ∧ out.err = false ∧
      out.acc = .fin (acc L)) :
    ∑ L, (∏ i, w (L i)) * acc L ≤ 100 * q := by
  obtain ⟨folds, hfolds⟩ := C131_folds (F := Exact K) D.data.length nfold idraws hd
  have hall : ∀ L, 2 ≤ folds.length ∧ folds.flatten.Perm (List.range D.data.length) ∧ (∀ f ∈ folds, f ≠ []) ∧
      acc L = ((List.range folds.length).map (foldShare exp S fdraws (O.getD (defaultXOptions 0)) (D.relabel lab L) folds)).sum / folds.length := by
    intro L
    obtain ⟨out, h1, h2, h3⟩ := h L
    obtain ⟨a1, a2, a3, accs, a4, a5, a6⟩ := hfolds exp S (D.relabel lab L) O conc fdraws out rfl (by simp [DataBunch.relabel]) h1 h2
    refine ⟨a1, a2, a3, ?_⟩
    rw [acc_shares (D := D.relabel lab L) a1 a2 a3 (by simp [DataBunch.relabel]) a4 a6, h3] at a5
    exact XF.fin.inj a5
  have hm : 0 < m := by
    by_contra hm
    have : m = 0 := by omega
    subst this
    simp at hw
  have hq0 : 0 ≤ q := (hw0 ⟨0, hm⟩).trans (hq _)
  obtain ⟨hn2, hp, hne, _⟩ := hall fun _ => ⟨0, hm⟩
  have hn0 : (0 : K) < folds.length := by
    have : 0 < folds.length := by omega
    exact_mod_cast this
  have hsum : ∑ L, (∏ i, w (L i)) * ((List.range folds.length).map
      fun k => foldShare exp S fdraws (O.getD (defaultXOptions 0)) (D.relabel lab L) folds k).sum ≤ (List.range folds.length).length * (100 * q) := by
    apply mean_list_le (fun L : Fin D.data.length → Fin m => ∏ i, w (L i)) (100 * q) (List.range folds.length)
      (fun k L => foldShare exp S fdraws (O.getD (defaultXOptions 0)) (D.relabel lab L) folds k)
    intro k hk
    rw [List.mem_range] at hk
    have hfk : folds[k]? = some folds[k] := List.getElem?_eq_getElem hk
    have hgd : folds.getD k [] = folds[k] := by rw [List.getD_eq_getElem?_getD, hfk]; rfl
    have hpos : (0 : K) < folds[k].length := by
      have := List.length_pos_iff.2 (hne _ (List.getElem_mem hk))
      exact_mod_cast this
    have hin := mean_list_le (fun L : Fin D.data.length → Fin m => ∏ i, w (L i)) q folds[k]
      (fun i L => if foldGuess exp S (fdraws k) (O.getD (defaultXOptions 0)) (D.relabel lab L) (folds.eraseIdx k).flatten i =
        (D.relabel lab L).labels[i]? then (1 : K) else 0) (by
        intro i hi
        have hilt : i < D.data.length := by
          have : i ∈ folds.flatten := List.mem_flatten.2 ⟨_, List.getElem_mem hk, hi⟩
          rw [hp.mem_iff, List.mem_range] at this
          exact this
        have := guess_le w hw0 hw q hq0 hq lab hinj ⟨i, hilt⟩
          (fun L => foldGuess exp S (fdraws k) (O.getD (defaultXOptions 0)) (D.relabel lab L) (folds.eraseIdx k).flatten i)
          (fun L l => foldGuess_update (other_folds hp hfk i hi) l i)
        simp only [relabel_get (D := D) (i := ⟨i, hilt⟩)]
        exact this)
    have hc := mul_le_mul_of_nonneg_left hin (show (0 : K) ≤ 100 / folds[k].length by positivity)
    rw [Finset.mul_sum] at hc
    have e : (100 : K) / folds[k].length * (folds[k].length * q) = 100 * q := by field_simp
    rw [e] at hc
    refine le_trans (le_of_eq ?_) hc
    apply Finset.sum_congr rfl
    intro L _
    unfold foldShare
    rw [hgd]
    ring
  rw [List.length_range] at hsum
  have : ∑ L, (∏ i, w (L i)) * acc L = (∑ L, (∏ i, w (L i)) * ((List.range folds.length).map
      fun k => foldShare exp S fdraws (O.getD (defaultXOptions 0)) (D.relabel lab L) folds k).sum) / folds.length := by
    rw [Finset.sum_div]
    apply Finset.sum_congr rfl
    intro L _
    rw [(hall L).2.2.2, mul_div_assoc]
  rw [this, div_le_iff₀ hn0]
  linarith

theorem rounds_pos {exp : F → F} {S : GoSort} {draws : Nat → F} {D : DataBunch F} {O : Options F} {M : MultiClass F}
    (h : newMultiClass exp S draws D O = .ok M) (hes : O.earlyStop ≤ 0) (hr : 1 ≤ O.rounds) (hs : rowSub O = false)
    (hms : O.minSample ≤ 0) (hne : D.labels ≠ []) : 0 < M.rounds none := by
  obtain ⟨h1, h2, h3⟩ := C22_rounds exp S draws D O M h
  have hlen : 0 < M.b.length := by
    have := C22_requested_partial exp S draws D O M h (Or.inr hms)
    rw [hs] at this
    simp at this
    omega
  have hcl : 0 < M.classLabels.length := by
    rw [h2]
    obtain ⟨x, l, hx⟩ := List.exists_cons_of_ne_nil hne
    exact List.length_pos_of_mem (((C39_distinct D.labels).2.1 x).2 (by rw [hx]; simp))
  have h0 : M.b[0]? = some M.b[0] := List.getElem?_eq_getElem hlen
  have h4 := h3 hes _ (List.mem_of_getElem? h0)
  unfold MultiClass.rounds MultiClass.classes
  simp only
  rw [if_neg (by omega)]
  simp only [Int.toNat_zero, h0]
  omega

/-- **C131 (equally likely labels)**, exact arithmetic: without early stopping and row subsampling and with at least one round, the mean over
all ways to label the rows with `m` labels of the accuracy that a cross-validation reports is exactly `100 / m`. -/
theorem C131_uniform (exp : Exact K → Exact K) (S : GoSort) (D : DataBunch (Exact K)) (nfold : Int) (O : Options (Exact K))
    (conc : Bool) (idraws : List Nat) (hd : ∀ x ∈ idraws, x < D.data.length) (fdraws : Nat → Nat → Exact K)
    (hes : O.earlyStop ≤ 0) (hr : 1 ≤ O.rounds) (hs : rowSub O = false) (hms : O.minSample ≤ 0)
    {m : Nat} (hm : 0 < m) (lab : Fin m → Int) (hinj : Function.Injective lab) (acc : (Fin D.data.length → Fin m) → K)
    (h : ∀ L, ∃ out, crossValidation exp S (D.relabel lab L) nfold (some O) conc idraws fdraws = pure out ∧ out.err = false ∧
      out.acc = .fin (acc L)) :
    (∑ L, acc L) / m ^ D.data.length = 100 / m := by
  obtain ⟨folds, hfolds⟩ := C131_folds (F := Exact K) D.data.length nfold idraws hd
  have hm' : (m : K) ≠ 0 := by exact_mod_cast hm.ne'
  have hall : ∀ L, 2 ≤ folds.length ∧ folds.flatten.Perm (List.range D.data.length) ∧ (∀ f ∈ folds, f ≠ []) ∧
      acc L = ((List.range folds.length).map (foldShare exp S fdraws O (D.relabel lab L) folds)).sum / folds.length ∧
      ∀ (k : Nat) f, folds[k]? = some f → ∀ i ∈ f,
        ∃ l, foldGuess exp S (fdraws k) O (D.relabel lab L) (folds.eraseIdx k).flatten i = some (lab l) := by
    intro L
    obtain ⟨out, h1, h2, h3⟩ := h L
    obtain ⟨a1, a2, a3, accs, a4, a5, a6⟩ := hfolds exp S (D.relabel lab L) (some O) conc fdraws out rfl (by simp [DataBunch.relabel]) h1 h2
    refine ⟨a1, a2, a3, ?_, ?_⟩
    · rw [acc_shares (D := D.relabel lab L) a1 a2 a3 (by simp [DataBunch.relabel]) a4 a6, h3] at a5
      exact XF.fin.inj a5
    · intro k f hk i hi
      have hkl := (List.getElem?_eq_some_iff.1 hk).1
      obtain ⟨M, hM, hM2⟩ := a6 k f _ hk (List.getElem?_eq_getElem (by omega))
      have hlabs : ∀ v ∈ (rowsAt (D.relabel lab L) (folds.eraseIdx k).flatten).labels, ∃ l, v = lab l := by
        intro v hv
        obtain ⟨j, _, hj⟩ := List.mem_filterMap.1 hv
        have := List.mem_of_getElem? hj
        simp only [DataBunch.relabel] at this
        obtain ⟨x, hx⟩ := (List.mem_ofFn' _ _).1 this
        exact ⟨_, hx.symm⟩
      have hne : (rowsAt (D.relabel lab L) (folds.eraseIdx k).flatten).labels ≠ [] := by
        have hel : 0 < (folds.eraseIdx k).length := by rw [List.length_eraseIdx_of_lt hkl]; omega
        have hmem : (folds.eraseIdx k)[0] ∈ folds.eraseIdx k := List.getElem_mem hel
        obtain ⟨j, l', hj⟩ := List.exists_cons_of_ne_nil (a3 _ (List.mem_of_mem_eraseIdx hmem))
        have hjm : j ∈ (folds.eraseIdx k).flatten := List.mem_flatten.2 ⟨_, hmem, by rw [hj]; simp⟩
        have hjlt : j < D.data.length := by
          have : j ∈ folds.flatten := List.mem_flatten.2 ⟨_, List.mem_of_mem_eraseIdx hmem, by rw [hj]; simp⟩
          rw [a2.mem_iff, List.mem_range] at this
          exact this
        apply List.ne_nil_of_mem (a := lab (L ⟨j, hjlt⟩))
        exact List.mem_filterMap.2 ⟨j, hjm, relabel_get (D := D) (i := ⟨j, hjlt⟩)⟩
      have hpos := rounds_pos hM hes hr hs hms hne
      rcases hM2 with ⟨h1, _⟩ | ⟨_, h2, _⟩
      · have h1 := h1; omega
      · obtain ⟨row, c, b1, b2, b3⟩ := h2 i hi
        obtain ⟨v, hv⟩ : ∃ v, M.classLabels[c]? = some v := ⟨_, List.getElem?_eq_getElem b3⟩
        have hcl := List.mem_of_getElem? hv
        rw [(C22_rounds _ _ _ _ _ M hM).2.1] at hcl
        obtain ⟨l, rfl⟩ := hlabs _ (((C39_distinct _).2.1 _).1 hcl)
        refine ⟨l, ?_⟩
        have hM' : newMultiClass exp S (fdraws k) (rowsAt (D.relabel lab L) (folds.eraseIdx k).flatten) O = .ok M := hM
        unfold foldGuess
        rw [hM', b1]
        simp only [if_neg (not_le.2 hpos), b2]
        exact hv
  obtain ⟨hn2, hp, hne, _, _⟩ := hall fun _ => ⟨0, hm⟩
  have hn0 : (folds.length : K) ≠ 0 := by
    have : folds.length ≠ 0 := by omega
    exact_mod_cast this
  have hsum : ∑ L, (∏ _i : Fin D.data.length, (1 / m : K)) * ((List.range folds.length).map
      fun k => foldShare exp S fdraws O (D.relabel lab L) folds k).sum = (List.range folds.length).length * (100 * (1 / m : K)) := by
    apply mean_list_eq (fun L : Fin D.data.length → Fin m => ∏ _i : Fin D.data.length, (1 / m : K)) (100 * (1 / m : K)) (List.range folds.length)
      (fun k L => foldShare exp S fdraws O (D.relabel lab L) folds k)
    intro k hk
    rw [List.mem_range] at hk
    have hfk : folds[k]? = some folds[k] := List.getElem?_eq_getElem hk
    have hgd : folds.getD k [] = folds[k] := by rw [List.getD_eq_getElem?_getD, hfk]; rfl
    have hpos : (folds[k].length : K) ≠ 0 := by
      have := (List.length_pos_iff.2 (hne _ (List.getElem_mem hk))).ne'
      exact_mod_cast this
    have hin := mean_list_eq (fun L : Fin D.data.length → Fin m => ∏ _i : Fin D.data.length, (1 / m : K)) (1 / m : K) folds[k]
      (fun i L => if foldGuess exp S (fdraws k) O (D.relabel lab L) (folds.eraseIdx k).flatten i =
        (D.relabel lab L).labels[i]? then (1 : K) else 0) (by
        intro i hi
        have hilt : i < D.data.length := by
          have : i ∈ folds.flatten := List.mem_flatten.2 ⟨_, List.getElem_mem hk, hi⟩
          rw [hp.mem_iff, List.mem_range] at this
          exact this
        have := guess_uniform (K := K) lab hinj hm ⟨i, hilt⟩
          (fun L => foldGuess exp S (fdraws k) O (D.relabel lab L) (folds.eraseIdx k).flatten i)
          (fun L l => foldGuess_update (other_folds hp hfk i hi) l i)
          (fun L => (hall L).2.2.2.2 k _ hfk i hi)
        simp only [relabel_get (D := D) (i := ⟨i, hilt⟩)]
        exact this)
    have hc := congrArg (fun x => (100 : K) / folds[k].length * x) hin
    beta_reduce at hc
    rw [Finset.mul_sum] at hc
    have e : (100 : K) / folds[k].length * (folds[k].length * (1 / m)) = 100 * (1 / m) := by field_simp
    rw [e] at hc
    rw [← hc]
    apply Finset.sum_congr rfl
    intro L _
    unfold foldShare
    rw [hgd]
    ring
  rw [List.length_range] at hsum
  have hP : ∏ _i : Fin D.data.length, (1 / m : K) = 1 / m ^ D.data.length := by
    rw [Finset.prod_const, Finset.card_univ, Fintype.card_fin, one_div_pow]
  rw [hP, ← Finset.mul_sum] at hsum
  have : ∑ L, acc L = (∑ L, ((List.range folds.length).map
      fun k => foldShare exp S fdraws O (D.relabel lab L) folds k).sum) / folds.length := by
    rw [Finset.sum_div]
    apply Finset.sum_congr rfl
    intro L _
    rw [(hall L).2.2.2.1]
  rw [this]
  generalize ∑ L, ((List.range folds.length).map
      fun k => foldShare exp S fdraws O (D.relabel lab L) folds k).sum = T at hsum ⊢
  calc T / folds.length / m ^ D.data.length = 1 / m ^ D.data.length * T / folds.length := by ring
    _ = 100 / m := by rw [hsum]; field_simp

end

/-! ### examples -/

/-- four rows, one column -/
def noiseData : DataBunch (Exact ℚ) := ⟨[[.fin 0], [.fin 1], [.fin 2], [.fin 3]], [], [], []⟩

/-- a monotone stand-in for `math.Exp` -/
def stepExpQ (x : Exact ℚ) : Exact ℚ := if zero <. x then .fin 2 else if x <. zero then .fin (1 / 2) else .fin 1

/-- one round of regular boosting -/
def noiseOptions : Options (Exact ℚ) :=
  { (defaultGOptions 0 : Options (Exact ℚ)) with rounds := 1, minChildWeight := .fin 1, maxDepth := 1, learningRate := .fin 1, baseScore := .fin 0, earlyStop := 0 }

/-- a grid with two points: one round and two rounds -/
def noiseGrid : GridOptions (Exact ℚ) :=
  { (defaultGGridOptions : GridOptions (Exact ℚ)) with
    rounds := ⟨1, 2, 1⟩, maxDepth := ⟨1, 1, 1⟩, learningRate := frange 1 1 1, minChildWeight := frange 1 1 1, earlyStop := 0, nCPUs := 1 }

/-- the number in a result, 0 if there is none -/
def numOf : Exact ℚ → ℚ
  | .fin q => q
  | _ => 0

/-- the accuracy of a cross-validation with two folds -/
def noiseAcc (L : Fin 4 → Fin 2) : ℚ :=
  match crossValidation stepExpQ GoSort.ins (noiseData.relabel (fun l : Fin 2 => (l : Int)) L) 2 (some noiseOptions) false [0, 2, 1, 3]
    (fun _ _ => .fin 0) |>.run with
  | some (.ok out) => numOf out.acc
  | _ => 0

theorem noise_runs : ∀ L : Fin 4 → Fin 2,
    ∃ out, crossValidation stepExpQ GoSort.ins (noiseData.relabel (fun l : Fin 2 => (l : Int)) L) 2 (some noiseOptions) false [0, 2, 1, 3]
      (fun _ _ => .fin 0) = pure out ∧ out.err = false ∧ out.acc = .fin (noiseAcc L) := by
  intro L
  have h : ∀ L : Fin 4 → Fin 2, (match crossValidation stepExpQ GoSort.ins (noiseData.relabel (fun l : Fin 2 => (l : Int)) L) 2
      (some noiseOptions) false [0, 2, 1, 3] (fun _ _ => .fin 0) |>.run with
      | some (.ok out) => decide (out.err = false ∧ out.acc = .fin (numOf out.acc))
      | _ => false) = true := by decide +kernel
  have h := h L
  have hn : noiseAcc L = (match crossValidation stepExpQ GoSort.ins (noiseData.relabel (fun l : Fin 2 => (l : Int)) L) 2
      (some noiseOptions) false [0, 2, 1, 3] (fun _ _ => .fin 0) |>.run with
    | some (.ok out) => numOf out.acc
    | _ => 0) := rfl
  split at h
  · rename_i out ho
    rw [ho] at hn
    obtain ⟨h1, h2⟩ := of_decide_eq_true h
    exact ⟨out, ho, h1, by rw [hn]; exact h2⟩
  · cases h

/-- the hypotheses of `C131_unseen` are met: the labels of one fold are exchanged, which takes the accuracy from 100 to 0 -/
example : ∃ out out', crossValidation stepExpQ GoSort.ins (noiseData.relabel (fun l : Fin 2 => (l : Int)) ![0, 0, 0, 0]) 2 (some noiseOptions)
      false [0, 2, 1, 3] (fun _ _ => .fin 0) = pure out ∧ out.err = false ∧
    crossValidation stepExpQ GoSort.ins (noiseData.relabel (fun l : Fin 2 => (l : Int)) ![1, 0, 1, 0]) 2 (some noiseOptions)
      false [0, 2, 1, 3] (fun _ _ => .fin 0) = pure out' ∧ out'.err = false ∧ out.acc = .fin 100 ∧ out'.acc = .fin 0 := by
  obtain ⟨out, h1, h2, h3⟩ := noise_runs ![0, 0, 0, 0]
  obtain ⟨out', h1', h2', h3'⟩ := noise_runs ![1, 0, 1, 0]
  refine ⟨out, out', h1, h2, h1', h2', ?_, ?_⟩
  · rw [h3, show noiseAcc ![0, 0, 0, 0] = 100 by decide +kernel]
  · rw [h3', show noiseAcc ![1, 0, 1, 0] = 0 by decide +kernel]

/-- the hypotheses of `C131_uniform` are met; the accuracies are not all equal -/
example : (∑ L : Fin 4 → Fin 2, noiseAcc L) / 2 ^ 4 = 100 / 2 ∧ noiseAcc (fun _ => 0) = 100 ∧ noiseAcc ![1, 0, 1, 0] = 0 := by
  refine ⟨?_, by decide +kernel, by decide +kernel⟩
  exact_mod_cast C131_uniform stepExpQ GoSort.ins noiseData 2 noiseOptions false [0, 2, 1, 3] (by decide) (fun _ _ => .fin 0)
    (by decide) (by decide) (by decide +kernel) (by decide) (by decide) (fun l : Fin 2 => (l : Int))
    (fun a b h => by simpa [Fin.ext_iff] using h) noiseAcc noise_runs

/-- the hypotheses of `C131_noise` are met: a label that is drawn three times as often as the other -/
example : ∑ L : Fin 4 → Fin 2, (∏ i, (![1 / 4, 3 / 4] : Fin 2 → ℚ) (L i)) * noiseAcc L ≤ 100 * (3 / 4) :=
  C131_noise stepExpQ GoSort.ins noiseData 2 (some noiseOptions) false [0, 2, 1, 3] (by decide) (fun _ _ => .fin 0)
    (fun l : Fin 2 => (l : Int)) (fun a b h => by simpa [Fin.ext_iff] using h) ![1 / 4, 3 / 4] (by decide +kernel) (by decide +kernel)
    (3 / 4) (by decide +kernel) noiseAcc noise_runs

/-- the accuracy that `Grid` returns on the data with the given labels -/
def noiseBest (L : Fin 4 → Fin 2) : ℚ :=
  match grid stepExpQ GoSort.ins 5 (noiseData.relabel (fun l : Fin 2 => (l : Int)) L) 2 (some noiseGrid)
    (fun j => if j = 0 then [0, 2, 1, 3] else [0, 1, 2, 3]) (fun _ _ _ => .fin 0) |>.run with
  | some (.ok out) => numOf out.acc
  | _ => 0

/-- **C131 (limit)**: the accuracy that `Grid` returns is not such an estimate: with two points in the grid its mean over all ways to
label four rows with two labels is 62.5, not 50. The largest of several unbiased numbers is biased. -/
theorem C131_grid_optimistic :
    (∀ L : Fin 4 → Fin 2, ∃ ret, grid stepExpQ GoSort.ins 5 (noiseData.relabel (fun l : Fin 2 => (l : Int)) L) 2 (some noiseGrid)
      (fun j => if j = 0 then [0, 2, 1, 3] else [0, 1, 2, 3]) (fun _ _ _ => .fin 0) = pure ret ∧ ret.err = false ∧
      ret.acc = .fin (noiseBest L)) ∧
    (∑ L : Fin 4 → Fin 2, noiseBest L) / 2 ^ 4 = 125 / 2 := by
  constructor
  · intro L
    have h : ∀ L : Fin 4 → Fin 2, (match grid stepExpQ GoSort.ins 5 (noiseData.relabel (fun l : Fin 2 => (l : Int)) L) 2 (some noiseGrid)
        (fun j => if j = 0 then [0, 2, 1, 3] else [0, 1, 2, 3]) (fun _ _ _ => .fin 0) |>.run with
        | some (.ok out) => decide (out.err = false ∧ out.acc = .fin (numOf out.acc))
        | _ => false) = true := by decide +kernel
    have h := h L
    have hn : noiseBest L = (match grid stepExpQ GoSort.ins 5 (noiseData.relabel (fun l : Fin 2 => (l : Int)) L) 2 (some noiseGrid)
        (fun j => if j = 0 then [0, 2, 1, 3] else [0, 1, 2, 3]) (fun _ _ _ => .fin 0) |>.run with
      | some (.ok out) => numOf out.acc
      | _ => 0) := rfl
    split at h
    · rename_i out ho
      rw [ho] at hn
      obtain ⟨h1, h2⟩ := of_decide_eq_true h
      exact ⟨out, ho, h1, by rw [hn]; exact h2⟩
    · cases h
  · decide +kernel

end Boo
