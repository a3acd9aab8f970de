import Verif.Props.Confu

/-!
# C138: test data can be evaluated in parts and in any order

The labelled rows of a data set are those of its parts, in some order; then the confusion matrix is the sum of the matrices of
the parts, and the accuracy is the mean of theirs, weighted with the numbers of rows.
-/

namespace Boo
open GoFloat
set_option linter.unusedSectionVars false
variable {F : Type} [GoFloat F]

/-- the matrix that a user gets: `MCConfusions(m, D).Matrix()` -/
def matrixOf (M : MultiClass F) (D : DataBunch F) : Go (List (List Nat)) := do
  let C ← mcConfusions M D
  let r ← C.getMatrix
  pure r.2

/-- the rows of a data set with their labels -/
def labelled (D : DataBunch F) : List (List F × Int) := D.data.zip D.labels

/-- `D` consists of the parts, its rows may be in another order -/
structure Parts (D : DataBunch F) (parts : List (DataBunch F)) : Prop where
  rows : (labelled D).Perm (parts.flatMap labelled)
  whole : D.labels.length = D.data.length
  part : ∀ A ∈ parts, A.labels.length = A.data.length

section
variable {M : MultiClass F}

/-- every row that occurs can be predicted -/
def TestRows (M : MultiClass F) (D : DataBunch F) : Prop := ∀ row ∈ D.data, ∃ k, M.predictSingleClass row = .ok k

open Classical in
/-- the class that is predicted for a row -/
noncomputable def predClass (M : MultiClass F) (row : List F) : Nat :=
  if h : ∃ k, M.predictSingleClass row = .ok k then h.choose else 0

theorem predClass_eq {row : List F} (h : ∃ k, M.predictSingleClass row = .ok k) : M.predictSingleClass row = .ok (predClass M row) := by
  unfold predClass
  rw [dif_pos h]
  exact h.choose_spec

theorem preds_eq {D : DataBunch F} (h : TestRows M D) : D.data.mapM M.predictSingleClass = .ok (D.data.map (predClass M)) := by
  rw [mapM_ok, List.forall₂_map_right_iff]
  exact List.forall₂_same.2 fun row hr => predClass_eq (h row hr)

theorem mem_labelled {D : DataBunch F} (h : D.labels.length = D.data.length) {row : List F} (hr : row ∈ D.data) :
    ∃ l, (row, l) ∈ labelled D := by
  obtain ⟨i, hi⟩ := List.mem_iff_getElem?.1 hr
  have hil := (List.getElem?_eq_some_iff.1 hi).1
  refine ⟨D.labels[i]'(by omega), List.mem_iff_getElem?.2 ⟨i, ?_⟩⟩
  unfold labelled
  rw [List.getElem?_zip_eq_some]
  exact ⟨hi, List.getElem?_eq_getElem _⟩

theorem Parts.predicts {D : DataBunch F} {parts : List (DataBunch F)} (h : Parts D parts) (hp : TestRows M D) :
    ∀ A ∈ parts, TestRows M A := by
  intro A hA row hr
  obtain ⟨l, hl⟩ := mem_labelled (h.part A hA) hr
  have : (row, l) ∈ labelled D := h.rows.symm.subset (List.mem_flatMap.2 ⟨A, hA, hl⟩)
  exact hp row (List.of_mem_zip this).1

theorem zip_swap (D : DataBunch F) (f : List F → Nat) :
    D.labels.zip (D.data.map f) = (labelled D).map fun p => (p.2, f p.1) := by
  unfold labelled
  rw [← List.zip_swap, List.zip_map_left, List.map_map]
  rfl

theorem confCount_eq (D : DataBunch F) (a b : Int) : confCount M D (D.data.map (predClass M)) a b =
    (labelled D).countP fun p => decide (p.2 = a) && decide (M.classLabels[predClass M p.1]? = some b) := by
  unfold confCount
  rw [zip_swap, ← List.countP_eq_length_filter, List.countP_map]
  rfl

theorem rightCount_pairs (D : DataBunch F) : rightCount M (D.data.map (predClass M)) D.labels =
    (labelled D).countP fun p => decide (M.classLabels[predClass M p.1]? = some p.2) := by
  unfold rightCount labelled
  rw [List.zip_map_left, ← List.countP_eq_length_filter, List.countP_map]
  rfl

theorem countP_flatMap {α β : Type} (p : β → Bool) (f : α → List β) (l : List α) :
    (l.flatMap f).countP p = (l.map fun a => (f a).countP p).sum := by
  induction l with
  | nil => rfl
  | cons a l ih => rw [List.flatMap_cons, List.countP_append, ih, List.map_cons, List.sum_cons]

/-- what is known of a model that `NewMultiClass` has returned -/
structure Model (M : MultiClass F) : Prop where
  nodup : M.classLabels.Nodup
  index : ∀ row k, M.predictSingleClass row = .ok k → k < M.classLabels.length

theorem trained_model [GoFloatOrd F] {exp : F → F} {S : GoSort} {draws : Nat → F} {D0 : DataBunch F} {O : Options F}
    (h : newMultiClass exp S draws D0 O = .ok M) (hd : D0.data.length = D0.labels.length) : Model M :=
  ⟨by rw [(C22_rounds exp S draws D0 O M h).2.1]; exact (C39_distinct _).1,
    fun row k hk => C23_label exp S draws D0 O M h hd row k hk⟩

theorem Model.predClass_lt (hM : Model M) {D : DataBunch F} (h : TestRows M D) : ∀ p ∈ D.data.map (predClass M), p < M.classLabels.length := by
  intro p hp
  obtain ⟨row, hr, rfl⟩ := List.mem_map.1 hp
  exact hM.index row _ (predClass_eq (h row hr))

theorem Model.usable (hM : Model M) {D : DataBunch F} (h : TestRows M D) (hl : D.labels.length = D.data.length) :
    Usable M D (D.data.map (predClass M)) :=
  ⟨preds_eq h, hM.predClass_lt h, hM.nodup, by omega⟩

/-- the number of rows with a label that are predicted as a label -/
noncomputable def pairCount (M : MultiClass F) (D : DataBunch F) (i j : Nat) : Nat :=
  (labelled D).countP fun p => decide (M.classLabels[i]? = some p.2) && decide (M.classLabels[predClass M p.1]? = M.classLabels[j]?)

theorem matrixOf_eq (hM : Model M) {D : DataBunch F} (h : TestRows M D) (hl : D.labels.length = D.data.length) :
    ∃ m, matrixOf M D = .ok m ∧ m.length = M.classLabels.length ∧ (∀ row ∈ m, row.length = M.classLabels.length) ∧
      ∀ i j, i < M.classLabels.length → j < M.classLabels.length → confEntry m i j = some (pairCount M D i j) := by
  obtain ⟨C, C', m, h1, h2, _, h3, h4, h5, _⟩ := C46_matrix M D _ (hM.usable h hl)
  refine ⟨m, ?_, h3, h4, fun i j hi hj => ?_⟩
  · unfold matrixOf
    simp only [h1, h2, bind, Except.bind, pure, Except.pure]
  · rw [h5 i j _ _ (List.getElem?_eq_getElem hi) (List.getElem?_eq_getElem hj), confCount_eq]
    unfold pairCount
    congr 2
    funext p
    rw [List.getElem?_eq_getElem hi, List.getElem?_eq_getElem hj]
    simp only [Option.some.injEq, eq_comm]

theorem Parts.pairCount {D : DataBunch F} {parts : List (DataBunch F)} (h : Parts D parts) (i j : Nat) :
    pairCount M D i j = (parts.map fun A => Boo.pairCount M A i j).sum := by
  unfold Boo.pairCount
  rw [h.rows.countP_eq, countP_flatMap]

theorem Parts.rightCount {D : DataBunch F} {parts : List (DataBunch F)} (h : Parts D parts) :
    rightCount M (D.data.map (predClass M)) D.labels = (parts.map fun A => Boo.rightCount M (A.data.map (predClass M)) A.labels).sum := by
  simp only [rightCount_pairs]
  rw [h.rows.countP_eq, countP_flatMap]

theorem labelled_length {D : DataBunch F} (h : D.labels.length = D.data.length) : (labelled D).length = D.data.length := by
  unfold labelled
  rw [List.length_zip]; omega

theorem Parts.length {D : DataBunch F} {parts : List (DataBunch F)} (h : Parts D parts) :
    D.data.length = (parts.map fun A => A.data.length).sum := by
  rw [← labelled_length h.whole, h.rows.length_eq, List.length_flatMap]
  congr 1
  apply List.map_congr_left
  intro A hA
  exact labelled_length (h.part A hA)

end

section
variable [GoFloatOrd F] (exp : F → F) (S : GoSort) (draws : Nat → F) (D0 : DataBunch F) (O : Options F) (M : MultiClass F)
    (h : newMultiClass exp S draws D0 O = .ok M) (hd : D0.data.length = D0.labels.length)
include h hd

/-- **C138 (confusion matrix)**: for a trained model and data that it can predict, in parts and in any order, every entry of the
confusion matrix is the sum of those of the parts. -/
theorem C138_matrix (D : DataBunch F) (parts : List (DataBunch F)) (hD : Parts D parts) (hp : TestRows M D) :
    ∃ m ms, matrixOf M D = .ok m ∧ List.Forall₂ (fun A mA => matrixOf M A = .ok mA) parts ms ∧
      ∀ i j, i < M.classLabels.length → j < M.classLabels.length →
        ∃ xs, List.Forall₂ (fun mA x => confEntry mA i j = some x) ms xs ∧ confEntry m i j = some xs.sum := by
  have hM := trained_model h hd
  obtain ⟨m, h1, _, _, h2⟩ := matrixOf_eq hM hp hD.whole
  have h3 : ∀ A ∈ parts, ∃ mA, matrixOf M A = .ok mA ∧ ∀ i j, i < M.classLabels.length → j < M.classLabels.length →
      confEntry mA i j = some (pairCount M A i j) := by
    intro A hA
    obtain ⟨mA, g1, _, _, g2⟩ := matrixOf_eq hM (hD.predicts hp A hA) (hD.part A hA)
    exact ⟨mA, g1, g2⟩
  have h4 : ∃ ms, List.Forall₂ (fun A mA => matrixOf M A = .ok mA ∧ ∀ i j, i < M.classLabels.length → j < M.classLabels.length →
      confEntry mA i j = some (pairCount M A i j)) parts ms := by
    clear hD
    induction parts with
    | nil => exact ⟨[], .nil⟩
    | cons A l ih =>
      obtain ⟨ms, hms⟩ := ih fun B hB => h3 B (List.mem_cons_of_mem _ hB)
      obtain ⟨mA, hA⟩ := h3 A List.mem_cons_self
      exact ⟨mA :: ms, .cons hA hms⟩
  obtain ⟨ms, h4⟩ := h4
  refine ⟨m, ms, h1, h4.imp fun _ _ h => h.1, fun i j hi hj => ⟨parts.map fun A => pairCount M A i j, ?_, ?_⟩⟩
  · rw [List.forall₂_map_right_iff]
    exact h4.flip.imp fun _ _ h => h.2 i j hi hj
  · rw [h2 i j hi hj, hD.pairCount]

/-- **C138 (order)**: the order of the rows makes no difference to the confusion matrix and, bit for bit, to the accuracy. -/
theorem C138_order (D D' : DataBunch F) (hD : D.labels.length = D.data.length) (hD' : D'.labels.length = D'.data.length)
    (hperm : (labelled D').Perm (labelled D)) (hp : TestRows M D) :
    matrixOf M D' = matrixOf M D ∧ M.accuracy D' = M.accuracy D ∧ ∃ m a, matrixOf M D = .ok m ∧ M.accuracy D = .ok a := by
  have hM := trained_model h hd
  have hP : Parts D' [D] := ⟨by simpa using hperm, hD', by simpa using hD⟩
  have hP' : Parts D [D'] := ⟨by simpa using hperm.symm, hD, by simpa using hD'⟩
  have hp' : TestRows M D' := hP'.predicts hp D' (by simp)
  obtain ⟨m, h1, l1, l1', h2⟩ := matrixOf_eq hM hp hD
  obtain ⟨m', h1', l2, l2', h2'⟩ := matrixOf_eq hM hp' hD'
  refine ⟨?_, ?_, m, _, h1, C25_accuracy M D _ (preds_eq hp) (hM.predClass_lt hp) hD⟩
  · rw [h1, h1']
    congr 1
    apply List.ext_getElem (by omega)
    intro i hi hi'
    have e1 := l2' _ (List.getElem_mem hi)
    have e2 := l1' _ (List.getElem_mem hi')
    apply List.ext_getElem (by omega)
    intro j hj hj'
    have g1 := h2 i j (by omega) (by omega)
    have g2 := h2' i j (by omega) (by omega)
    rw [hP.pairCount] at g2
    unfold confEntry at g1 g2
    rw [List.getElem?_eq_getElem hi', Option.bind_some, List.getElem?_eq_getElem hj'] at g1
    rw [List.getElem?_eq_getElem hi, Option.bind_some, List.getElem?_eq_getElem hj] at g2
    simp only [Option.some.injEq, List.map_cons, List.map_nil, List.sum_cons, List.sum_nil, Nat.add_zero] at g1 g2
    rw [g1, g2]
  · rw [C25_accuracy M D _ (preds_eq hp) (hM.predClass_lt hp) hD, C25_accuracy M D' _ (preds_eq hp') (hM.predClass_lt hp') hD',
      hP.rightCount, hP.length]
    simp

end

section
variable {K : Type} [Field K] [LinearOrder K] [IsStrictOrderedRing K] [FloorRing K] (exp : Exact K → Exact K) (S : GoSort)
    (draws : Nat → Exact K) (D0 : DataBunch (Exact K)) (O : Options (Exact K)) (M : MultiClass (Exact K))
    (h : newMultiClass exp S draws D0 O = .ok M) (hd : D0.data.length = D0.labels.length)
include h hd

/-- **C138 (accuracy)**: in exact arithmetic the accuracy is the mean of the accuracies of the parts, weighted with their numbers
of rows. -/
theorem C138_accuracy (D : DataBunch (Exact K)) (parts : List (DataBunch (Exact K))) (hD : Parts D parts) (hp : TestRows M D)
    (hne : ∀ A ∈ parts, A.data ≠ []) (hne' : D.data ≠ []) :
    ∃ (a : K) (as : List K), M.accuracy D = .ok (.fin a) ∧ List.Forall₂ (fun A x => M.accuracy A = .ok (.fin x)) parts as ∧
      a = (List.zipWith (fun A x => x * (A.data.length : K)) parts as).sum / D.data.length := by
  have hM := trained_model h hd
  obtain ⟨a, h1, h2, _⟩ := C25_percentage M D _ hne' (preds_eq hp) (hM.predClass_lt hp) hD.whole
  have hP := hD.predicts hp
  have h3 : ∀ A ∈ parts, M.accuracy A = .ok (.fin (100 * (rightCount M (A.data.map (predClass M)) A.labels : K) / A.data.length)) := by
    intro A hA
    obtain ⟨x, g1, g2, _⟩ := C25_percentage M A _ (hne A hA) (preds_eq (hP A hA)) (hM.predClass_lt (hP A hA)) (hD.part A hA)
    rw [g1, g2]
  refine ⟨a, parts.map fun A => 100 * (rightCount M (A.data.map (predClass M)) A.labels : K) / A.data.length, h1, ?_, ?_⟩
  · rw [List.forall₂_map_right_iff]
    exact List.forall₂_same.2 h3
  · rw [h2, hD.rightCount]
    congr 1
    clear h1 h2 h3 hD hP
    induction parts with
    | nil => simp
    | cons A l ih =>
      have hA : (A.data.length : K) ≠ 0 := by
        have := List.length_pos_iff.2 (hne A List.mem_cons_self)
        positivity
      have := ih fun B hB => hne B (List.mem_cons_of_mem _ hB)
      simp only [List.map_cons, List.sum_cons, List.zipWith_cons_cons]
      rw [← this]
      push_cast
      field_simp

/-- **C138 (parts of the same size)**: the accuracy is then the plain mean of the accuracies of the parts. -/
theorem C138_equal_parts (D : DataBunch (Exact K)) (parts : List (DataBunch (Exact K))) (hD : Parts D parts) (hp : TestRows M D)
    (n : Nat) (hn : 0 < n) (hsize : ∀ A ∈ parts, A.data.length = n) (hne : parts ≠ []) :
    ∃ (a : K) (as : List K), M.accuracy D = .ok (.fin a) ∧ List.Forall₂ (fun A x => M.accuracy A = .ok (.fin x)) parts as ∧
      a = as.sum / parts.length := by
  have hlen : D.data.length = parts.length * n := by
    rw [hD.length, List.map_congr_left hsize, List.map_const', List.sum_replicate, smul_eq_mul]
  have hpos : 0 < parts.length := List.length_pos_iff.2 hne
  obtain ⟨a, as, h1, h2, h3⟩ := C138_accuracy exp S draws D0 O M h hd D parts hD hp
    (fun A hA => List.length_pos_iff.1 (by rw [hsize A hA]; exact hn))
    (List.length_pos_iff.1 (by rw [hlen]; positivity))
  refine ⟨a, as, h1, h2, ?_⟩
  have e : (List.zipWith (fun A x => x * (A.data.length : K)) parts as).sum = as.sum * n := by
    clear h1 h3 hD hlen hne hpos
    induction h2 with
    | nil => simp
    | @cons A x l xs _ _ ih =>
      rw [List.zipWith_cons_cons, List.sum_cons, List.sum_cons, ih (fun B hB => hsize B (List.mem_cons_of_mem _ hB)),
        hsize A List.mem_cons_self]
      ring
  have hn' : (n : K) ≠ 0 := by positivity
  rw [h3, e, hlen]
  push_cast
  rw [mul_div_mul_right _ _ hn']

end

/-! ### an example -/

/-- four rows of two classes -/
def poolTrain : DataBunch F64 :=
  { data := [[.fin 0], [.fin 1], [.fin 2], [.fin 3]], keys := [], labels := [7, 7, -3, -3] }

def poolOptions : Options F64 := { (defaultGOptions 0 : Options F64) with rounds := 1, maxDepth := 1, minChildWeight := .fin 1 }

/-- any increasing positive function will do for the example -/
def poolExp (x : F64) : F64 := if (x <. zero) = true then .fin (1/2) else if (zero <. x) = true then .fin 2 else .fin 1

/-- three rows to test, one with the wrong label -/
def poolTest : DataBunch F64 := { data := [[.fin 3], [.fin 0], [.fin 2]], keys := [], labels := [-3, -3, 7] }

def poolParts : List (DataBunch F64) :=
  [{ data := [[.fin 0]], keys := [], labels := [-3] }, { data := [[.fin 2], [.fin 3]], keys := [], labels := [7, -3] }]

example : Parts poolTest poolParts := ⟨by decide +kernel, rfl, by decide⟩

/-- the model is trained, the rows are predicted, the matrices add up -/
example : (do
    let M ← newMultiClass poolExp GoSort.ins (fun _ => (.fin 0 : F64)) poolTrain poolOptions
    let ps ← poolTest.data.mapM M.predictSingleClass
    let m ← matrixOf M poolTest
    let ms ← poolParts.mapM (matrixOf M)
    pure (ps, m, ms)) = .ok ([1, 0, 1], [[0, 1], [1, 1]], [[[0, 0], [1, 0]], [[0, 1], [0, 1]]]) := by
  decide +kernel

end Boo
