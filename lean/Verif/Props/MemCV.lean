import Verif.Lemmas.MemCV
import Verif.Props.Mem

/-!
# C129: what cross-validation does to the memory of the caller

About the model with slices as references into a memory (`Model/Mem`, `Model/MemCV`).
-/

namespace Boo
open GoFloat
variable {F : Type} [GoFloat F] {m : Mem F}

/-! ### Specification -/

/-- whatever is written into the slice `r` of the memory `A'`, the entries of `t` stay those that they are in `A` -/
def KeepsOnWrite {α : Type} (r t : Sl) (A' A : List (List α)) : Prop := ∀ l : List α, t.view (r.put l A') = t.view A

/-- the same pair of sets -/
def SamePair (m : Mem F) : Option (MData × MData) → Option (DataBunch F × DataBunch F) → Prop
  | none, none => True
  | some (train, test), some (train', test') => train.rep m [] = train' ∧ test.rep m [] = test' ∧ train.InMem m ∧ test.InMem m
  | _, _ => False

/-! ### C129 -/

/-- **C129 (the sampler)**: `CrossValidationSamples` makes, without touching the memory, the sampler that the program without shared memory makes. -/
theorem C129_samples (D : MData) (nfold : Int) (docopy : Bool) (draws : List Nat) (keys : List (List Char)) :
    crossValidationSamples (D.rep m keys) nfold draws =
      (mCrossValidationSamples D nfold docopy draws).map (Except.map fun r => ⟨r.1, r.2.1.map (MSampler.rep m · keys), r.2.2⟩) ∧
    ∀ n s err, mCrossValidationSamples D nfold docopy draws = some (.ok (n, some s, err)) → s.data = D ∧ s.docopy = docopy := by
  unfold mCrossValidationSamples crossValidationSamples
  have hlen : (D.rep m keys).data.length = D.data.length := List.length_map ..
  simp only [hlen]
  cases reduceFolds D.data.length (if nfold > 0 then nfold.toNat else 5) with
  | error p => exact ⟨rfl, fun n s err h => by cases h⟩
  | ok r =>
    obtain ⟨nf, e⟩ := r
    simp only
    split
    · exact ⟨rfl, fun n s err h => by cases h⟩
    · cases fillFolds (D.data.length / nf) (List.range nf) (List.replicate nf []) draws with
      | none => exact ⟨rfl, fun n s err h => by cases h⟩
      | some r =>
        refine ⟨rfl, fun n s err h => ?_⟩
        cases h
        exact ⟨rfl, rfl⟩

/-- **C129 (values)**: a call of the sampler changes no entry of an array that existed before, and the two sets have the values that the data set has
at the time of this call, whatever happened to the memory since the sampler was made. -/
theorem C129_values (s : MSampler) (hD : s.data.InMem m) (keys : List (List Char)) :
    m.Untouched (s.call m).2 ∧
    SameResult (fun a b => SamePair (s.call m).2 a.2 b.2 ∧ a.1.rep m keys = b.1 ∧ a.1.data = s.data ∧ a.1.docopy = s.docopy) (s.call m).1
      (s.rep m keys).call := by
  have := mCall_sim hD.rows hD.labels keys
  refine ⟨this.1.untouched, this.same.mono fun a b h => ?_⟩
  obtain ⟨a1, a2⟩ := a
  obtain ⟨b1, b2⟩ := b
  rcases h with ⟨e1, e2, e3⟩ | ⟨e1, train, test, trainl, testl, e2, e3, ⟨m1, f0, ht, htr, f1⟩, _⟩
  · simp only at e1 e2
    subst e1
    subst e2
    cases e3
    exact ⟨trivial, rfl, rfl, rfl⟩
  · simp only at e1 e2
    subst e1
    subst e2
    cases e3
    refine ⟨⟨htr.rep.symm, ?_, ⟨htr.rows, htr.labels⟩, ⟨fun r hr => (ht.rows r hr).kept f1.fl, ht.labels.kept f1.lb⟩⟩, rfl, rfl, rfl⟩
    rw [MData.rep_later ht.rows ht.labels f1, ht.rep]

theorem callRel_of_run {s s' : MSampler} (hD : s.data.InMem m) {train test : MData} {m' : Mem F}
    (h : s.call m = (.ok (s', some (train, test)), m')) : ∃ trainl testl, CallRel s [] m m' train test trainl testl := by
  have hs := mCall_sim hD.rows hD.labels []
  have h2 := hs.2
  rw [h] at h2
  cases hb : (s.rep m []).call with
  | error e => rw [hb] at h2; exact h2.elim
  | ok b =>
    rw [hb] at h2
    rcases h2 with ⟨_, e2, _⟩ | ⟨_, tr, te, trl, tel, e2, _, hc⟩
    · cases e2
    · cases e2
      exact ⟨trl, tel, hc⟩

/-- **C129 (copies)**: with `usecopies` the rows of both sets are copies that share no memory. Whatever the caller writes into a row of one of the
sets, every slice that existed before the call (the data set, and the sets of earlier calls) keeps its entries, and so does every other row of the
two sets; and whatever the caller writes into a slice that existed before, the rows of the sets keep their entries. -/
theorem C129_copies {s s' : MSampler} (hD : s.data.InMem m) (hc : s.docopy = true) {train test : MData} {m' : Mem F}
    (h : s.call m = (.ok (s', some (train, test)), m')) :
    (∀ r ∈ train.data ++ test.data, ∀ t : Sl, t.Ok m.fl → KeepsOnWrite r t m'.fl m.fl ∧ KeepsOnWrite t r m'.fl m'.fl) ∧
    ∀ (i j : Nat) (r t : Sl), i ≠ j → (train.data ++ test.data)[i]? = some r → (train.data ++ test.data)[j]? = some t → KeepsOnWrite r t m'.fl m'.fl := by
  obtain ⟨trl, tel, ⟨m1, f0, ht, htr, f1⟩, _⟩ := callRel_of_run hD h
  have p1 := ht.place
  have p2 := htr.place
  have l1 := ht.fls hc
  unfold FillPlace at p1 p2
  rw [hc, if_pos rfl] at p1 p2
  simp only [List.map_nil, List.nil_append] at p1 p2
  have hf : Frame (fun _ => False) (fun _ => False) m m' := f0.trans f1 (fun _ _ h => h) (fun _ _ h => h)
  have harr : (train.data ++ test.data).map Sl.arr = List.range' m1.fl.length s.trainIdx.length ++ List.range' m.fl.length (s.folds.getD s.calls []).length := by
    rw [List.map_append, p1, p2]
  have hnd : ((train.data ++ test.data).map Sl.arr).Nodup := by
    rw [harr]
    refine List.Nodup.append List.nodup_range' List.nodup_range' ?_
    intro a h1 h2
    rw [List.mem_range'_1] at h1 h2
    omega
  have hnew : ∀ r ∈ train.data ++ test.data, m.fl.length ≤ r.arr := by
    intro r hr
    have := List.mem_map_of_mem (f := Sl.arr) hr
    rw [harr, List.mem_append, List.mem_range'_1, List.mem_range'_1] at this
    omega
  refine ⟨fun r hr t hto => ?_, fun i j r t hij hi hj l => ?_⟩
  · have hne : t.arr ≠ r.arr := by
      have := hnew r hr
      have := hto.arr
      omega
    exact ⟨fun l => by rw [Sl.view_put_ne hne, Sl.view_kept hto hf.fl id], fun l => Sl.view_put_ne hne.symm⟩
  · refine Sl.view_put_ne fun e => hij ?_
    have hil : i < ((train.data ++ test.data).map Sl.arr).length := by
      rw [List.length_map]
      exact (List.getElem?_eq_some_iff.1 hi).1
    refine (List.getElem?_inj hil hnd).1 ?_
    rw [List.getElem?_map, List.getElem?_map, hi, hj]
    simp [e]

/-- **C129 (labels)**: the labels of the sets are always copies. -/
theorem C129_labels {s s' : MSampler} (hD : s.data.InMem m) {train test : MData} {m' : Mem F} (h : s.call m = (.ok (s', some (train, test)), m')) :
    (∀ r ∈ [train.labels, test.labels], ∀ t : Sl, t.Ok m.lb → KeepsOnWrite r t m'.lb m.lb ∧ KeepsOnWrite t r m'.lb m'.lb) ∧
    KeepsOnWrite train.labels test.labels m'.lb m'.lb ∧ KeepsOnWrite test.labels train.labels m'.lb m'.lb := by
  obtain ⟨trl, tel, ⟨m1, f0, ht, htr, f1⟩, _⟩ := callRel_of_run hD h
  have hf : Frame (fun _ => False) (fun _ => False) m m' := f0.trans f1 (fun _ _ h => h) (fun _ _ h => h)
  have e1 := ht.newl
  have e2 := htr.newl
  have e3 := ht.lbs
  refine ⟨fun r hr t hto => ?_, fun l => Sl.view_put_ne (by omega), fun l => Sl.view_put_ne (by omega)⟩
  have hne : t.arr ≠ r.arr := by
    have := hto.arr
    rcases List.mem_cons.1 hr with rfl | hr
    · omega
    · rw [List.mem_singleton.1 hr]
      omega
  exact ⟨fun l => by rw [Sl.view_put_ne hne, Sl.view_kept hto hf.lb id], fun l => Sl.view_put_ne hne.symm⟩

/-- **C129 (no copies)**: without `usecopies` the rows of the sets are the rows of the data set themselves: what is written into one is written into
the other. -/
theorem C129_shared {s s' : MSampler} (hD : s.data.InMem m) (hc : s.docopy = false) {train test : MData} {m' : Mem F}
    (h : s.call m = (.ok (s', some (train, test)), m')) :
    (∀ r ∈ train.data ++ test.data, r ∈ s.data.data) ∧ test.data.map some = (s.folds.getD s.calls []).map (s.data.data[·]?) := by
  obtain ⟨trl, tel, ⟨m1, f0, ht, htr, f1⟩, _⟩ := callRel_of_run hD h
  have p1 := ht.place
  have p2 := htr.place
  unfold FillPlace at p1 p2
  rw [hc, if_neg (by decide)] at p1 p2
  simp only [List.map_nil, List.nil_append] at p1 p2
  refine ⟨fun r hr => ?_, p1⟩
  have key : ∀ (rows : List Sl) (idx : List Nat), rows.map some = idx.map (s.data.data[·]?) → r ∈ rows → r ∈ s.data.data := by
    intro rows idx e hr
    have := List.mem_map_of_mem (f := some) hr
    rw [e, List.mem_map] at this
    obtain ⟨i, _, hi⟩ := this
    exact List.mem_of_getElem? hi
  rcases List.mem_append.1 hr with hr | hr
  · exact key _ _ p2 hr
  · exact key _ _ p1 hr

/-- **C129 (cross-validation)**: `MultiClassCrossValidation`, for any options or none, changes no entry of an array that existed before, also when it
panics, and returns and sends what the program without shared memory does. -/
theorem C129_cv (exp : F → F) (S : GoSort) (D : MData) (hD : D.InMem m) (nfold : Int) (O : Option (Options F)) (lf : Option MLoss)
    (hlf : NamesLoss (O.getD (defaultXOptions 0)) lf) (conc : Bool) (idraws : List Nat) (fdraws : Nat → Nat → F) (keys : List (List Char)) :
    match mCrossValidation exp S D nfold O lf conc idraws fdraws with
    | none => (crossValidation exp S (D.rep m keys) nfold O conc idraws fdraws).run = none
    | some x => m.Untouched (x m).2 ∧ (crossValidation exp S (D.rep m keys) nfold O conc idraws fdraws).run = some (x m).1 := by
  obtain ⟨h1, h2⟩ := C129_samples (m := m) D nfold true idraws keys
  unfold mCrossValidation crossValidation
  rw [h1]
  cases hr : mCrossValidationSamples D nfold true idraws with
  | none => rfl
  | some r =>
    cases r with
    | error e => exact ⟨(Frame.refl).untouched, rfl⟩
    | ok r =>
      obtain ⟨n, s, err⟩ := r
      show m.Untouched _ ∧ ExceptT.run (if err = true ∧ n = 0 then _ else _) = some _
      split
      · exact ⟨(Frame.refl).untouched, rfl⟩
      · cases s with
        | none => exact ⟨(Frame.refl).untouched, rfl⟩
        | some s =>
          obtain ⟨e, _⟩ := h2 n s err hr
          subst e
          have := mCvFolds_sim exp S n hD.rows hD.labels O hlf conc fdraws keys
          exact ⟨this.1.untouched, congrArg some this.same.eq.symm⟩

/-! ### The hypotheses are met -/

/-- two folds of two rows of `someData` -/
def someSampler (docopy : Bool) : MSampler := ⟨someData, [[0, 2], [3, 1]], 2, 0, docopy⟩

example : mCrossValidationSamples someData 2 true [0, 0, 2, 3, 2, 1] = some (.ok (2, some (someSampler true), false)) := by rfl
/-- the copies of the overlapping rows are four new arrays -/
example : ((someSampler true).call someMem).1.map (fun r => r.2.map fun p => (p.1.data, p.2.data)) =
    .ok (some ([⟨3, 0, 1⟩, ⟨4, 0, 1⟩], [⟨1, 0, 1⟩, ⟨2, 0, 1⟩])) := by decide +kernel
example : ((someSampler false).call someMem).1.map (fun r => r.2.map fun p => (p.1.data, p.2.data)) =
    .ok (some ([⟨0, 1, 1⟩, ⟨0, 1, 1⟩], [⟨0, 0, 1⟩, ⟨0, 1, 1⟩])) := by decide +kernel
example : NamesLoss ((none : Option (Options F64)).getD (defaultXOptions 0)) (some .sqErr) := rfl
/-- a cross-validation that returns -/
example : (mCrossValidation (fun _ => one) GoSort.ins someData 2 (some plainOptions) (some .sqErr) false [0, 1, 2, 3] (fun _ _ => .fin 0)).map
    (fun x => (x someMem).1.map fun r => (r.acc, r.err)) = some (.ok (.fin 0, false)) := by decide +kernel

end Boo
