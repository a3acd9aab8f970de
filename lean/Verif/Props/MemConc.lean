import Verif.Lemmas.MemConc
import Verif.Props.MemCV

/-!
# C130: goroutines that use the package at the same time

About the model of goroutines with shared arrays (`Model/MemConc`).
-/

namespace Boo
open GoFloat
variable {F : Type} [GoFloat F] {α : Type} {m : Mem F}

/-! ### Specification -/

/-- a data race: two goroutines are about to access the same shared array, and at least one of them to write it -/
def Race (s : ConcState F α) : Prop :=
  ∃ (i j : Nat) (g h : Gor F α) (k : ArrKind) (a : Nat) (w : Bool), i ≠ j ∧ s.gors[i]? = some g ∧ s.gors[j]? = some h ∧
    a < s.shared.count k ∧ g.prog.access = some (k, a, true) ∧ h.prog.access = some (k, a, w)

/-- the goroutine `i` has returned `r` (or panicked), and sees the memory `v` -/
def ConcState.Done (s : ConcState F α) (i : Nat) (r : Go α) (v : Mem F) : Prop :=
  ∃ g, s.gors[i]? = some g ∧ g.prog = .ret r ∧ s.shared.join g.own = v

/-- no goroutine can do anything -/
def ConcState.Stopped (s : ConcState F α) : Prop := ∀ t, ¬ ConcStep s t

/-- the arguments of a call are slices of arrays of `m` -/
def ApiCall.In (m : Mem F) : ApiCall F → Prop
  | .train _ _ _ D O lf => D.InMem m ∧ NamesLoss O lf
  | .predict _ _ row => row.Ok m.fl
  | .accuracy _ M D => D.InMem m ∧ M.classLabels.Ok m.lb
  | .cv x => ∃ (exp : F → F) (S : GoSort) (D : MData) (nfold : Int) (O : Option (Options F)) (lf : Option MLoss) (conc : Bool) (idraws : List Nat)
      (fdraws : Nat → Nat → F), D.InMem m ∧ NamesLoss (O.getD (defaultXOptions 0)) lf ∧
      mCrossValidation exp S D nfold O lf conc idraws fdraws = some x

/-! ### lemmas -/

theorem mCrossValidation_frame (exp : F → F) (S : GoSort) {D : MData} (hD : D.InMem m) (nfold : Int)
    (O : Option (Options F)) {lf : Option MLoss} (hlf : NamesLoss (O.getD (defaultXOptions 0)) lf) (conc : Bool)
    (idraws : List Nat) (fdraws : Nat → Nat → F) {x : MGo F (CVOut F)} (h : mCrossValidation exp S D nfold O lf conc idraws fdraws = some x) :
    Frame (fun _ => False) (fun _ => False) m (x m).2 := by
  obtain ⟨h1, h2⟩ := C129_samples (m := m) D nfold true idraws []
  unfold mCrossValidation at h
  cases hr : mCrossValidationSamples D nfold true idraws with
  | none => rw [hr] at h; cases h
  | some r =>
    rw [hr] at h
    cases r with
    | error e => cases h; exact Frame.refl
    | ok r =>
      obtain ⟨n, s, err⟩ := r
      cases h
      show Frame _ _ m ((if err = true ∧ n = 0 then _ else _ : MGo F (CVOut F)) m).2
      split
      · exact Frame.refl
      · cases s with
        | none => exact Frame.refl
        | some s =>
          obtain ⟨e, _⟩ := h2 n s err hr
          subst e
          exact (mCvFolds_sim exp S n hD.rows hD.labels O hlf conc fdraws []).1

theorem MData.InMem.later {D : MData} {m' : Mem F} {W V : Nat → Prop} (h : D.InMem m) (f : Frame W V m m') : D.InMem m' :=
  ⟨fun s hs => (h.rows s hs).kept f.fl, h.labels.kept f.lb⟩

theorem ApiCall.In.later {c : ApiCall F} {m' : Mem F} {W V : Nat → Prop} (h : c.In m) (f : Frame W V m m') : c.In m' := by
  cases c with
  | train exp S draws D O lf => exact ⟨h.1.later f, h.2⟩
  | predict exp M row => exact Sl.Ok.kept h f.fl
  | accuracy exp M D => exact ⟨h.1.later f, h.2.kept f.lb⟩
  | cv x =>
    obtain ⟨exp, S, D, nfold, O, lf, conc, idraws, fdraws, h1, h2, h3⟩ := h
    exact ⟨exp, S, D, nfold, O, lf, conc, idraws, fdraws, h1.later f, h2, h3⟩

theorem ApiCall.frame {c : ApiCall F} (h : c.In m) : Frame (fun _ => False) (fun _ => False) m (c.prog m).2 := by
  cases c with
  | train exp S draws D O lf => exact MGo.bind_frame (mNewMultiClass_sim exp S draws h.1.rows O h.2 []).1 fun _ _ _ _ => Frame.refl
  | predict exp M row => exact MGo.bind_frame (mPredictSingle_sim exp M h m).1 fun _ _ _ _ => Frame.refl
  | accuracy exp M D => exact MGo.bind_frame (mAccuracy_sim exp M h.1.rows h.1.labels h.2 m rfl []).1 fun _ _ _ _ => Frame.refl
  | cv x =>
    obtain ⟨exp, S, D, nfold, O, lf, conc, idraws, fdraws, h1, h2, h3⟩ := h
    exact MGo.bind_frame (mCrossValidation_frame exp S h1 nfold O h2 conc idraws fdraws h3) fun _ _ _ _ => Frame.refl

theorem apiProg_frame (cs : List (ApiCall F)) : ∀ {m : Mem F}, (∀ c ∈ cs, c.In m) → Frame (fun _ => False) (fun _ => False) m (apiProg cs m).2 := by
  induction cs with
  | nil => intro m _; exact Frame.refl
  | cons c cs ih =>
    intro m h
    refine MGo.bind_frame (ApiCall.frame (h c (List.mem_cons_self ..))) fun r m' f _ => ?_
    exact MGo.bind_frame (ih fun d hd => (h d (List.mem_cons_of_mem _ hd)).later f) fun _ _ _ _ => Frame.refl

/-! ### C130 -/

/-- **C130 (any computations)**: goroutines each of which, when it runs alone, writes only to arrays that it made. In every interleaving of their steps:
the shared arrays never change; there is no data race; a goroutine that has returned or panicked has the result, and the slices, of its run alone;
the number of steps is bounded by the number of steps of the runs alone; and when nothing can go on all have returned. -/
theorem C130_schedule (xs : List (MGo F α)) (hx : ∀ x ∈ xs, WritesOnlyNew m x) {n : Nat} {s : ConcState F α} (h : ConcRun n (concInit m xs) s) :
    s.shared = m ∧ ¬ Race s ∧
    (∀ (i : Nat) (x : MGo F α) (r : Go α) (v : Mem F), xs[i]? = some x → s.Done i r v → (r, v) = x m) ∧
    n ≤ (xs.map fun x => x.length m).sum ∧
    (s.Stopped → n = (xs.map fun x => x.length m).sum ∧ ∀ (i : Nat) (x : MGo F α), xs[i]? = some x → s.Done i (x m).1 (x m).2) := by
  obtain ⟨hI, hn⟩ := ConcInv.run hx h
  rw [todo_init] at hn
  have hdone : ∀ (i : Nat) (x : MGo F α) (r : Go α) (v : Mem F), xs[i]? = some x → s.Done i r v → (r, v) = x m := by
    rintro i x r v hxi ⟨g, hg, hp, rfl⟩
    have := (hI.gors i x g hxi hg).run
    rw [hp] at this
    rw [hI.shared]
    exact this
  refine ⟨hI.shared, ?_, hdone, by omega, fun hst => ?_⟩
  · rintro ⟨i, j, g, g', k, a, w, _, hi, _, ha, hw, _⟩
    have hil : i < xs.length := hI.len ▸ (List.getElem?_eq_some_iff.1 hi).1
    have := (hI.gors i _ g (List.getElem?_eq_getElem hil) hi).access (hx _ (List.getElem_mem hil)) hw
    rw [hI.shared] at ha
    omega
  · have hret : ∀ (i : Nat) (g : Gor F α), s.gors[i]? = some g → ∃ r, g.prog = .ret r := fun i g hg => by
      cases hs : g.prog.step (s.shared.join g.own) with
      | none => exact MGo.step_none hs
      | some pm => exact absurd (ConcStep.step s i g pm.1 pm.2 hg hs) (hst _)
    refine ⟨?_, fun i x hxi => ?_⟩
    · have h0 : s.todo = 0 := by
        unfold ConcState.todo
        refine List.sum_eq_zero fun y hy => ?_
        obtain ⟨g, hg, rfl⟩ := List.mem_map.1 hy
        obtain ⟨i, hi, rfl⟩ := List.mem_iff_getElem.1 hg
        obtain ⟨r, hr⟩ := hret i _ (List.getElem?_eq_getElem hi)
        rw [hr]
        rfl
      omega
    · have hil : i < s.gors.length := hI.len ▸ (List.getElem?_eq_some_iff.1 hxi).1
      obtain ⟨r, hr⟩ := hret i _ (List.getElem?_eq_getElem hil)
      have hd : s.Done i r (s.shared.join (s.gors[i]).own) := ⟨_, List.getElem?_eq_getElem hil, hr, rfl⟩
      rw [← hdone i x r _ hxi hd]
      exact hd

/-- **C130 (they can end)**: there is such a state where nothing can go on. -/
theorem C130_ends (xs : List (MGo F α)) (hx : ∀ x ∈ xs, WritesOnlyNew m x) : ∃ n s, ConcRun n (concInit m xs) s ∧ s.Stopped := by
  have key : ∀ (k n : Nat) (s : ConcState F α), s.todo = k → ConcRun n (concInit m xs) s → ∃ n s, ConcRun n (concInit m xs) s ∧ s.Stopped := by
    intro k
    induction k with
    | zero =>
      intro n s hk hr
      refine ⟨n, s, hr, fun t ht => ?_⟩
      have := ((ConcInv.run hx hr).1.step hx ht).2
      omega
    | succ k ih =>
      intro n s hk hr
      by_cases hs : s.Stopped
      · exact ⟨n, s, hr, hs⟩
      · obtain ⟨t, ht⟩ : ∃ t, ConcStep s t := by
          by_contra hc
          exact hs fun t ht => hc ⟨t, ht⟩
        have := ((ConcInv.run hx hr).1.step hx ht).2
        exact ih (n + 1) t (by omega) (.snoc hr ht)
  exact key _ 0 _ rfl (.nil _)

/-- **C130 (calls of the package)**: any number of goroutines, each making any calls of `NewMultiClass`, `PredictSingle`, `Accuracy` and
`MultiClassCrossValidation` one after the other, on the same data sets and models or on others, with rows that may overlap. In every interleaving
the data and the models never change, there is no data race, every goroutine gets what it would get alone, and all of them end. (`Grid` and the
gradient steps start such goroutines.) -/
theorem C130_calls (css : List (List (ApiCall F))) (hc : ∀ cs ∈ css, ∀ c ∈ cs, c.In m) {n : Nat} {s : ConcState F (List (ApiResult F))}
    (h : ConcRun n (concInit m (css.map apiProg)) s) :
    s.shared = m ∧ ¬ Race s ∧
    (∀ (i : Nat) (cs : List (ApiCall F)) (r : Go (List (ApiResult F))) (v : Mem F), css[i]? = some cs → s.Done i r v → (r, v) = apiProg cs m) ∧
    n ≤ ((css.map apiProg).map fun x => x.length m).sum ∧
    (s.Stopped → ∀ (i : Nat) (cs : List (ApiCall F)), css[i]? = some cs → s.Done i (apiProg cs m).1 (apiProg cs m).2) := by
  obtain ⟨h1, h2, h3, h4, h5⟩ := C130_schedule (css.map apiProg) (by
    intro x hx
    obtain ⟨cs, hcs, rfl⟩ := List.mem_map.1 hx
    exact (apiProg_frame cs (hc cs hcs)).writesOnlyNew) h
  exact ⟨h1, h2, fun i cs r v hi => h3 i _ r v (by rw [List.getElem?_map, hi]; rfl), h4,
    fun hs i cs hi => (h5 hs).2 i _ (by rw [List.getElem?_map, hi]; rfl)⟩

/-- one training of a list of trainings -/
structure TrainArgs (F : Type) where
  exp : F → F
  sort : GoSort
  draws : Nat → F
  data : MData
  opts : Options F
  loss : Option MLoss

/-- the training as a computation with a memory -/
def TrainArgs.prog (t : TrainArgs F) : MGo F (MModel F) := mNewMultiClass t.exp t.sort t.draws t.data t.opts t.loss

/-- **C130 (trainings)**: goroutines that train at the same time, with the same data or others. In every interleaving each gets the model that the
program without shared memory computes from the data as they were at the beginning, or panics like it. -/
theorem C130_train (ts : List (TrainArgs F)) (ht : ∀ t ∈ ts, t.data.InMem m ∧ NamesLoss t.opts t.loss) (keys : List (List Char)) {n : Nat}
    {s : ConcState F (MModel F)} (h : ConcRun n (concInit m (ts.map TrainArgs.prog)) s) :
    s.shared = m ∧ ¬ Race s ∧
    ∀ (i : Nat) (t : TrainArgs F) (r : Go (MModel F)) (v : Mem F), ts[i]? = some t → s.Done i r v →
      SameResult (fun M N => M.rep t.exp v = N) r (newMultiClass t.exp t.sort t.draws (t.data.rep m keys) t.opts) := by
  obtain ⟨h1, h2, h3, _, _⟩ := C130_schedule (ts.map TrainArgs.prog) (by
    intro x hx
    obtain ⟨t, hm, rfl⟩ := List.mem_map.1 hx
    exact (mNewMultiClass_sim t.exp t.sort t.draws (ht t hm).1.rows t.opts (ht t hm).2 []).1.writesOnlyNew) h
  refine ⟨h1, h2, fun i t r v hi hd => ?_⟩
  have e := h3 i t.prog r v (by rw [List.getElem?_map, hi]; rfl) hd
  have hm := List.mem_of_getElem? hi
  have := (C127_train t.exp t.sort t.draws t.data (ht t hm).1 t.opts t.loss (ht t hm).2 keys).2
  change SameResult (fun M N => M.rep t.exp (t.prog m).2 = N) (t.prog m).1 _ at this
  rw [← e] at this
  exact this

/-- **C130 (the same options)**: trainings that get the same `*Options` in different goroutines race with each other if the field `MinChildWeight` is
less than 1: after one step one of them is about to write the field that the other is about to read. For all data and other options. -/
theorem C130_options_violated (exp : F → F) (S : GoSort) (draws draws' : Nat → F) (D D' : MData) (mcw : Sl) (O : Options F) (lf : Option MLoss)
    (hm : mcw.Ok m.fl) (hl : mcw.len = 1) {w : F} (hw : mcw.view m.fl = [w]) (h1 : (w <. one) = true) :
    ∃ s, ConcRun 1 (concInit m [mTrainShared exp S draws D mcw O lf, mTrainShared exp S draws' D' mcw O lf]) s ∧ Race s := by
  obtain ⟨p, hp, ha⟩ : ∃ p, (mTrainShared exp S draws D mcw O lf).step m = some (p, m) ∧ p.access = some (.floats, mcw.arr, true) := by
    refine ⟨_, rfl, ?_⟩
    rw [hw]
    show MGo.access (if (w <. (one : F)) = true then setF mcw 0 one >>= _ else _) = _
    rw [if_pos h1, setF, if_pos (by omega)]
    rfl
  have hs := ConcStep.step (concInit m [mTrainShared exp S draws D mcw O lf, mTrainShared exp S draws' D' mcw O lf]) 0 _ p m rfl
    (by show MGo.step _ (m.join _) = _; rw [Mem.join_init]; exact hp)
  refine ⟨_, .snoc (.nil _) hs, 0, 1, _, _, .floats, mcw.arr, false, by decide, rfl, rfl, ?_, ha, rfl⟩
  show mcw.arr < (m.fl.take m.fl.length).length
  rw [List.take_length]
  exact hm.arr

/-- **C130 (the same options)**: there is no race if `MinChildWeight` is not less than 1, and every training does what it does alone. -/
theorem C130_options_partial (ts : List (TrainArgs F)) (ht : ∀ t ∈ ts, t.data.InMem m ∧ NamesLoss t.opts t.loss) (mcw : Sl)
    {w : F} (hw : mcw.view m.fl = [w]) (h1 : (w <. one) = false) {n : Nat} {s : ConcState F (MModel F)}
    (h : ConcRun n (concInit m (ts.map fun t => mTrainShared t.exp t.sort t.draws t.data mcw t.opts t.loss)) s) :
    s.shared = m ∧ ¬ Race s ∧
    ∀ (i : Nat) (t : TrainArgs F) (r : Go (MModel F)) (v : Mem F), ts[i]? = some t → s.Done i r v →
      SameResult (fun M N => M.rep t.exp v = N) r (newMultiClass t.exp t.sort t.draws (t.data.rep m []) { t.opts with minChildWeight := w }) := by
  have key : ∀ t : TrainArgs F, mTrainShared t.exp t.sort t.draws t.data mcw t.opts t.loss m =
      mNewMultiClass t.exp t.sort t.draws t.data { t.opts with minChildWeight := w } t.loss m := fun t => by
    have hat : ∀ (f : F → MGo F (MModel F)), (atF mcw 0 >>= f) m = f w m := fun f => by
      rw [MGo.run_bind]
      rw [show (atF mcw 0 : MGo F F) m = (.ok w, m) from by
        show (goIdx (mcw.view m.fl) 0, m) = _
        rw [hw]
        rfl]
    unfold mTrainShared
    rw [hat]
    show MGo.run (if (w <. (one : F)) = true then setF mcw 0 one >>= _ else _) m = _
    rw [if_neg (by rw [h1]; decide)]
    exact hat _
  obtain ⟨g1, g2, g3, _, _⟩ := C130_schedule (ts.map fun t => mTrainShared t.exp t.sort t.draws t.data mcw t.opts t.loss) (by
    intro x hx
    obtain ⟨t, hmem, rfl⟩ := List.mem_map.1 hx
    refine Frame.writesOnlyNew ?_
    rw [key]
    exact (mNewMultiClass_sim t.exp t.sort t.draws (ht t hmem).1.rows { t.opts with minChildWeight := w } (ht t hmem).2 []).1) h
  refine ⟨g1, g2, fun i t r v hi hd => ?_⟩
  have e := g3 i _ r v (by rw [List.getElem?_map, hi]; rfl) hd
  rw [key] at e
  have hmem := List.mem_of_getElem? hi
  have := (C127_train t.exp t.sort t.draws t.data (ht t hmem).1 { t.opts with minChildWeight := w } t.loss (ht t hmem).2 []).2
  rw [← e] at this
  exact this

/-- the calls `cs` return `rs`, each started on the memory that the one before it left; `m` is the first memory, `v` the last -/
inductive InOrder : List (ApiCall F) → Mem F → List (ApiResult F) → Mem F → Prop
  | nil (m : Mem F) : InOrder [] m [] m
  | cons {c : ApiCall F} {cs : List (ApiCall F)} {m m' v : Mem F} {r : ApiResult F} {rs : List (ApiResult F)} :
      c.prog m = (.ok r, m') → InOrder cs m' rs v → InOrder (c :: cs) m (r :: rs) v

/-- **C130 (order of the calls)**: the calls of a goroutine are made one after the other, all of them, and their results are in this order. -/
theorem C130_in_order (cs : List (ApiCall F)) : ∀ (m : Mem F) (rs : List (ApiResult F)) (v : Mem F), apiProg cs m = (.ok rs, v) → InOrder cs m rs v := by
  induction cs with
  | nil =>
    intro m rs v h
    obtain ⟨h1, h2⟩ := Prod.mk.inj (h : ((.ok [] : Go (List (ApiResult F))), m) = _)
    cases h1
    subst h2
    exact .nil m
  | cons c cs ih =>
    intro m rs v h
    unfold apiProg at h
    rw [MGo.run_bind] at h
    rcases hc : c.prog m with ⟨r | r, m'⟩
    · rw [hc] at h
      cases h
    · rw [hc] at h
      simp only at h
      rw [MGo.run_bind] at h
      rcases hq : apiProg cs m' with ⟨q | q, m''⟩
      · rw [hq] at h
        cases h
      · rw [hq] at h
        obtain ⟨h1, h2⟩ := Prod.mk.inj (h : ((.ok (r :: q) : Go (List (ApiResult F))), m'') = _)
        cases h1
        subst h2
        exact .cons hc (ih m' q m'' hq)

/-- **C130 (number of classes)**: `Accuracy` with a number of classes larger than any before replaces a field of the model: two such calls for the
same model race, for all data. -/
theorem C130_classes_violated (exp : F → F) (M : MModel F) (D D' : MData) (predtmp : Sl) (hp : predtmp.Ok m.ix) {l : Nat}
    (hl : predtmp.view m.ix = [l]) {k k' : Int} (hk : 0 < k) (hlk : (l : Int) < k) (hk' : 0 < k') (ks ks' : List Int) :
    ∃ s, ConcRun 2 (concInit m [mAccuracyClasses exp M D predtmp (k :: ks), mAccuracyClasses exp M D' predtmp (k' :: ks')]) s ∧ Race s := by
  have hst : ∃ p q v, (mAccuracyClasses exp M D predtmp (k :: ks)).step m = some (p, m) ∧ p.step m = some (q, m.addF v) ∧
      q.access = some (.indexes, predtmp.arr, true) := by
    simp only [mAccuracyClasses, if_pos hk]
    refine ⟨_, putI predtmp [k.toNat] >>= fun _ => rdI predtmp >>= fun _ => mAccuracy exp M D, List.replicate k.toNat zero, rfl, ?_, rfl⟩
    rw [hl]
    show MGo.step (if ((([l] : List Nat).headD 0 : Nat) : Int) < k then newF _ >>= _ else _) m = _
    rw [if_pos (by simpa using hlk)]
    rfl
  have hac : (mAccuracyClasses exp M D' predtmp (k' :: ks')).access = some (.indexes, predtmp.arr, false) := by
    simp only [mAccuracyClasses, if_pos hk']
    rfl
  obtain ⟨p, q, v, h1, h2, h3⟩ := hst
  have s1 := ConcStep.step (concInit m [mAccuracyClasses exp M D predtmp (k :: ks), mAccuracyClasses exp M D' predtmp (k' :: ks')]) 0 _ p m rfl
    (by show MGo.step _ (m.join _) = _; rw [Mem.join_init]; exact h1)
  have e : Extends m m := ⟨List.take_length, List.take_length, List.take_length, ⟨[], rfl⟩, ⟨[], rfl⟩⟩
  have e' : Extends m (m.addF v) := ⟨take_add _ List.take_length, List.take_length, List.take_length, ⟨[], rfl⟩, ⟨[], rfl⟩⟩
  have s2 := ConcStep.step ⟨m.sharedPart m, [⟨p, m.ownPart m⟩,
    ⟨mAccuracyClasses exp M D' predtmp (k' :: ks'), { fl := [], ix := [], lb := [], wrF := m.wrF, wrI := m.wrI }⟩]⟩ 0 _ q (m.addF v) rfl
    (by show MGo.step _ ((m.sharedPart m).join _) = _; rw [e.shared, e.join]; exact h2)
  refine ⟨_, .snoc (.snoc (.nil _) s1) s2, 0, 1, _, _, .indexes, predtmp.arr, false, by decide, rfl, rfl, ?_, h3, hac⟩
  show predtmp.arr < (Mem.sharedPart (m.sharedPart m) (m.addF v)).ix.length
  rw [e.shared, e'.shared]
  exact hp.arr

/-- one call of `Accuracy` of a list of such calls -/
structure AccArgs (F : Type) where
  exp : F → F
  data : MData
  classes : List Int

/-- **C130 (number of classes)**: there is no race if no call gives a number of classes larger than an earlier one, or none gives one, and every call
returns the accuracy that the program without shared memory computes. -/
theorem C130_classes_partial (M : MModel F) (hM : M.classLabels.Ok m.lb) (as : List (AccArgs F)) (ha : ∀ t ∈ as, t.data.InMem m) (predtmp : Sl) {l : Nat}
    (hl : predtmp.view m.ix = [l]) (hk : ∀ t ∈ as, ∀ k ∈ t.classes, k ≤ l) (keys : List (List Char)) {n : Nat} {s : ConcState F F}
    (h : ConcRun n (concInit m (as.map fun t => mAccuracyClasses t.exp M t.data predtmp t.classes)) s) :
    s.shared = m ∧ ¬ Race s ∧
    ∀ (i : Nat) (t : AccArgs F) (r : Go F) (v : Mem F), as[i]? = some t → s.Done i r v → r = (M.rep t.exp m).accuracy (t.data.rep m keys) := by
  have key : ∀ t ∈ as, mAccuracyClasses t.exp M t.data predtmp t.classes m = mAccuracy t.exp M t.data m := fun t ht => by
    have hb := hk t ht
    unfold mAccuracyClasses
    cases hc : t.classes with
    | nil => rfl
    | cons k ks =>
      have := hb k (by rw [hc]; exact List.mem_cons_self ..)
      simp only
      split
      · show MGo.run (if (((predtmp.view m.ix).headD 0 : Nat) : Int) < k then _ else _) m = _
        rw [hl, if_neg (by simpa using this)]
        rfl
      · rfl
  obtain ⟨g1, g2, g3, _, _⟩ := C130_schedule (as.map fun t => mAccuracyClasses t.exp M t.data predtmp t.classes) (by
    intro x hx
    obtain ⟨t, hmem, rfl⟩ := List.mem_map.1 hx
    refine Frame.writesOnlyNew ?_
    rw [key t hmem]
    exact (mAccuracy_sim t.exp M (ha t hmem).rows (ha t hmem).labels hM m rfl []).1) h
  refine ⟨g1, g2, fun i t r v hi hd => ?_⟩
  have hmem := List.mem_of_getElem? hi
  have e := g3 i _ r v (by rw [List.getElem?_map, hi]; rfl) hd
  rw [key t hmem] at e
  rw [← (C127_accuracy t.exp M t.data (ha t hmem) hM keys).2, ← e]

/-! ### The hypotheses are met -/

/-- two goroutines train with the same data; one of them then computes the accuracy of a model that exists before -/
def someCalls (M : MModel F64) : List (List (ApiCall F64)) :=
  [[.train (fun _ => one) GoSort.ins (fun _ => .fin 0) someData plainOptions (some .sqErr)],
   [.train (fun _ => one) GoSort.ins (fun _ => .fin 1) someData plainOptions (some .sqErr), .accuracy (fun _ => one) M someData]]

theorem someCalls_in (M : MModel F64) (hM : M.classLabels.Ok someMem.lb) : ∀ cs ∈ someCalls M, ∀ c ∈ cs, c.In someMem := by
  intro cs hcs c hc
  simp only [someCalls, List.mem_cons, List.not_mem_nil, or_false] at hcs
  rcases hcs with rfl | rfl <;> simp only [List.mem_cons, List.not_mem_nil, or_false] at hc
  · subst hc
    exact ⟨someData_inMem, plainOptions_loss⟩
  · rcases hc with rfl | rfl
    · exact ⟨someData_inMem, plainOptions_loss⟩
    · exact ⟨someData_inMem, hM⟩

example (M : MModel F64) (hM : M.classLabels.Ok someMem.lb) :
    ∃ n s, ConcRun n (concInit someMem ((someCalls M).map apiProg)) s ∧ s.Stopped ∧ s.shared = someMem ∧ ¬ Race s ∧
      s.Done 0 (apiProg [.train (fun _ => one) GoSort.ins (fun _ => .fin 0) someData plainOptions (some .sqErr)] someMem).1
        (apiProg [.train (fun _ => one) GoSort.ins (fun _ => .fin 0) someData plainOptions (some .sqErr)] someMem).2 := by
  obtain ⟨n, s, h, hs⟩ := C130_ends (m := someMem) ((someCalls M).map apiProg) (by
    intro x hx
    obtain ⟨cs, hcs, rfl⟩ := List.mem_map.1 hx
    exact (apiProg_frame cs (someCalls_in M hM cs hcs)).writesOnlyNew)
  obtain ⟨h1, h2, _, _, h5⟩ := C130_calls (someCalls M) (someCalls_in M hM) h
  exact ⟨n, s, h, hs, h1, h2, h5 hs 0 _ rfl⟩

/-- two trainings with the same data and different draws -/
def someTrainings : List (TrainArgs F64) :=
  [⟨fun _ => one, GoSort.ins, fun _ => .fin 0, someData, plainOptions, some .sqErr⟩, ⟨fun _ => one, GoSort.ins, fun _ => .fin 1, someData, plainOptions, some .sqErr⟩]

theorem someTrainings_in : ∀ t ∈ someTrainings, t.data.InMem someMem ∧ NamesLoss t.opts t.loss := by
  intro t ht
  simp only [someTrainings, List.mem_cons, List.not_mem_nil, or_false] at ht
  rcases ht with rfl | rfl <;> exact ⟨someData_inMem, plainOptions_loss⟩

example : ¬ Race (concInit someMem (someTrainings.map TrainArgs.prog)) := (C130_train someTrainings someTrainings_in [] (.nil _)).2.1

/-- the first number of `someMem`, 0, as the field of the options: a race -/
example : ∃ s, ConcRun 1 (concInit someMem [mTrainShared (fun _ => one) GoSort.ins (fun _ => .fin 0) someData ⟨0, 0, 1⟩ plainOptions (some .sqErr),
    mTrainShared (fun _ => one) GoSort.ins (fun _ => .fin 1) someData ⟨0, 0, 1⟩ plainOptions (some .sqErr)]) s ∧ Race s :=
  C130_options_violated _ _ _ _ _ _ ⟨0, 0, 1⟩ _ _ ⟨by decide, by decide⟩ rfl (w := .fin 0) (by decide +kernel) (by decide +kernel)

/-- the last one, 7: none -/
example : ¬ Race (concInit someMem (someTrainings.map fun t => mTrainShared t.exp t.sort t.draws t.data ⟨0, 2, 1⟩ t.opts t.loss)) :=
  (C130_options_partial someTrainings someTrainings_in ⟨0, 2, 1⟩ (w := .fin 7) (by decide +kernel) (by decide +kernel) (.nil _)).2.1

/-- the second index of `someMem`, 6, as the length of the buffer: 7 classes race, 6 do not -/
example (M : MModel F64) : ∃ s, ConcRun 2 (concInit someMem [mAccuracyClasses (fun _ => one) M someData ⟨0, 1, 1⟩ [7],
    mAccuracyClasses (fun _ => one) M someData ⟨0, 1, 1⟩ [7]]) s ∧ Race s :=
  C130_classes_violated _ M _ _ ⟨0, 1, 1⟩ ⟨by decide, by decide⟩ (l := 6) rfl (by decide) (by decide) (by decide) [] []

example (M : MModel F64) (hM : M.classLabels.Ok someMem.lb) :
    ¬ Race (concInit someMem ([⟨fun _ => one, someData, [6]⟩, ⟨fun _ => one, someData, []⟩].map fun t : AccArgs F64 =>
      mAccuracyClasses t.exp M t.data ⟨0, 1, 1⟩ t.classes)) :=
  (C130_classes_partial M hM [⟨fun _ => one, someData, [6]⟩, ⟨fun _ => one, someData, []⟩] (by
    intro t ht
    simp only [List.mem_cons, List.not_mem_nil, or_false] at ht
    rcases ht with rfl | rfl <;> exact someData_inMem) ⟨0, 1, 1⟩ (l := 6) rfl (by
    intro t ht k hk
    simp only [List.mem_cons, List.not_mem_nil, or_false] at ht
    rcases ht with rfl | rfl <;> simp at hk
    simp [hk]) [] (.nil _)).2.1

end Boo
