import Verif.Lemmas.MemModel
import Verif.Props.Repro

/-!
# C127, C128: what training and prediction do to the memory of the caller

The theorems of this file are about the model with slices as references into a memory (`Model/Mem`).
-/

namespace Boo
open GoFloat
variable {F : Type} [GoFloat F] {m : Mem F}

/-! ### Specification -/

/-- every array of the memory `m` is still there with the same entries; there may be new arrays -/
structure Mem.Untouched (m m' : Mem F) : Prop where
  floats : m.fl <+: m'.fl
  indexes : m.ix <+: m'.ix
  labels : m.lb <+: m'.lb

/-- all rows and the labels of a data set are slices of arrays of the memory; rows may overlap -/
structure MData.InMem (m : Mem F) (D : MData) : Prop where
  rows : ∀ s ∈ D.data, s.Ok m.fl
  labels : D.labels.Ok m.lb

/-- the results of two runs: both return, and what they return is related, or both panic in the same way -/
def SameResult {α β : Type} (R : α → β → Prop) : Go α → Go β → Prop
  | .ok a, .ok b => R a b
  | .error e, .error e' => e = e'
  | _, _ => False

/-- the options name the given loss -/
def NamesLoss (O : Options F) (lf : Option MLoss) : Prop := O.loss.map LossVal.fn = lf.map MLoss.fn

/-! ### lemmas -/

theorem KeptArr.prefix {α : Type} {A A' : List (List α)} (h : KeptArr (fun _ => False) A A') : A <+: A' := by
  rw [List.prefix_iff_eq_take]
  refine List.ext_getElem? fun i => ?_
  rw [List.getElem?_take]
  split
  · rename_i hi
    exact (h.same i hi id).symm
  · rename_i hi
    exact List.getElem?_eq_none (by omega)

theorem Frame.untouched {m' : Mem F} (h : Frame (fun _ => False) (fun _ => False) m m') : m.Untouched m' := ⟨h.fl.prefix, h.ix.prefix, h.lb.prefix⟩

theorem Sim.same {α β : Type} {W V : Nat → Prop} {x : MGo F α} {p : Go β} {R : Mem F → α → β → Prop} (h : Sim W V m x p R) :
    SameResult (R (x m).2) (x m).1 p := by
  have := h.2
  revert this
  cases (x m).1 <;> cases p <;> exact id

theorem SameResult.mono {α β : Type} {R R' : α → β → Prop} {x : Go α} {y : Go β} (h : SameResult R x y) (hR : ∀ a b, R a b → R' a b) : SameResult R' x y := by
  revert h
  cases x <;> cases y <;> first | exact id | exact hR _ _

theorem SameResult.eq {α : Type} {x y : Go α} (h : SameResult (fun a b => a = b) x y) : x = y := by
  revert h
  cases x <;> cases y <;> intro h
  · exact congrArg _ h
  · exact h.elim
  · exact h.elim
  · exact congrArg _ h

/-! ### C127 -/

/-- **C127 (training)**: whatever the memory holds, and also when it panics, `NewMultiClass` changes no entry of an array that existed before:
neither rows nor labels of the training data nor anything else of the caller. And the buffers that it uses again and again, for every node, tree,
class and round, do not show in the result: it returns the model (or panics in the way) that the program without any shared memory would. -/
theorem C127_train (exp : F → F) (S : GoSort) (draws : Nat → F) (D : MData) (hD : D.InMem m) (O : Options F) (lf : Option MLoss) (hlf : NamesLoss O lf)
    (keys : List (List Char)) :
    m.Untouched (mNewMultiClass exp S draws D O lf m).2 ∧
    SameResult (fun M N => M.rep exp (mNewMultiClass exp S draws D O lf m).2 = N) (mNewMultiClass exp S draws D O lf m).1
      (newMultiClass exp S draws (D.rep m keys) O) := by
  have := mNewMultiClass_sim exp S draws hD.rows O hlf keys
  exact ⟨this.1.untouched, this.same.mono fun M N h => h.rep⟩

/-- **C127 (trees)**: the same for `NewTree` with options that were not used before. -/
theorem C127_tree (S : GoSort) (X : List Sl) (o : MTreeOptions F) (hr : ∀ s ∈ o.reads X, s.Ok m.fl) (hi : ∀ s, o.indexes = some s → s.Ok m.ix)
    (h1 : o.inn = none) (h2 : o.val = none) :
    m.Untouched (mNewTree S X o m).2 ∧
    SameResult (fun t t' => t.rep (mNewTree S X o m).2 = t') (mNewTree S X o m).1 (newTree S (rowsOf m X) (o.rep m)) := by
  have hW : ∀ a, ¬ o.wF a := fun a h => by simp [MTreeOptions.wF, h2] at h
  have hV : ∀ a, ¬ o.wI a := fun a h => by simp [MTreeOptions.wI, h1] at h
  have := mNewTreeD_sim S o.maxDepth.toNat (X := X) (m := m) (o := o)
    ⟨hr, hi, fun s h => by simp [h1] at h, fun s h => by simp [h2] at h, by simp [h1, h2], fun s _ => hW _, fun s _ => hV _⟩
  exact ⟨(this.1.mono (fun a _ h => hW a h) (fun a _ h => hV a h)).untouched, this.same.mono fun t t' h => h.1⟩

/-- **C127 (predictions)**: `PredictSingle` changes no entry of an array that existed before, and what it returns is a new slice with the
probabilities that the program without shared memory computes. -/
theorem C127_predict (exp : F → F) (M : MModel F) (inst : Sl) (hi : inst.Ok m.fl) :
    m.Untouched (mPredictSingle exp M inst m).2 ∧
    SameResult (fun s l => s.view (mPredictSingle exp M inst m).2.fl = l ∧ m.fl.length ≤ s.arr) (mPredictSingle exp M inst m).1
      ((M.rep exp m).predictSingle (inst.view m.fl)) := by
  have := mPredictSingle_sim exp M hi m
  exact ⟨this.1.untouched, this.same.mono fun s l h => ⟨h.view, h.new⟩⟩

/-- **C127 (accuracy)**: the same for `Accuracy`. -/
theorem C127_accuracy (exp : F → F) (M : MModel F) (D : MData) (hD : D.InMem m) (hM : M.classLabels.Ok m.lb) (keys : List (List Char)) :
    m.Untouched (mAccuracy exp M D m).2 ∧ (mAccuracy exp M D m).1 = (M.rep exp m).accuracy (D.rep m keys) := by
  have := mAccuracy_sim exp M hD.rows hD.labels hM m rfl keys
  exact ⟨this.1.untouched, this.same.eq⟩

/-! ### C128 -/

/-- **C128 (the training data)**: a model does not change when the caller afterwards overwrites the training data. Let `m'` be the memory after
training and `m''` any later memory in which the arrays of labels made by the training are as they were: the caller may have changed all floats,
all indexes and all labels that were there before. Then predictions and accuracies are those of the model at the time of training. -/
theorem C128_train (exp : F → F) (S : GoSort) (draws : Nat → F) (D : MData) (hD : D.InMem m) (O : Options F) (lf : Option MLoss) (hlf : NamesLoss O lf)
    (keys : List (List Char)) {M : MModel F} {m' m'' : Mem F} (hM : mNewMultiClass exp S draws D O lf m = (.ok M, m'))
    (hlb : ∀ a, m.lb.length ≤ a → a < m'.lb.length → m''.lb[a]? = m'.lb[a]?) :
    ∃ N, newMultiClass exp S draws (D.rep m keys) O = .ok N ∧
      (∀ inst : Sl, inst.Ok m''.fl → SameResult (fun s l => s.view (mPredictSingle exp M inst m'').2.fl = l) (mPredictSingle exp M inst m'').1
        (N.predictSingle (inst.view m''.fl))) ∧
      ∀ D' : MData, D'.InMem m'' → ∀ keys', (mAccuracy exp M D' m'').1 = N.accuracy (D'.rep m'' keys') := by
  have hs := mNewMultiClass_sim exp S draws hD.rows O hlf keys
  have hs2 := hs.2
  rw [hM] at hs2
  cases hN : newMultiClass exp S draws (D.rep m keys) O with
  | error e => rw [hN] at hs2; exact hs2.elim
  | ok N =>
    rw [hN] at hs2
    have hrel : ModelRel exp m m' M N := hs2
    have hget := hlb M.classLabels.arr hrel.new hrel.labels.arr
    have hv : M.classLabels.view m''.lb = M.classLabels.view m'.lb := by
      unfold Sl.view
      rw [hget]
    have hok : M.classLabels.Ok m''.lb := by
      have h1 := hrel.labels.arr
      have h2 := hrel.labels.fits
      rw [← hget] at h2
      refine ⟨?_, h2⟩
      rw [List.getElem?_eq_getElem h1] at hget
      exact (List.getElem?_eq_some_iff.1 hget).1
    refine ⟨N, rfl, fun inst hi => ?_, fun D' hD' keys' => ?_⟩
    · have := (mPredictSingle_sim exp M hi m').same
      rw [hrel.rep] at this
      exact this.mono fun s l h => h.view
    · have := (mAccuracy_sim exp M hD'.rows hD'.labels hok m' hv keys').same.eq
      rw [hrel.rep] at this
      exact this

/-- **C128 (ClassLabels)**: the slice that `ClassLabels` returns is a copy: it has the labels of the model, the call changes nothing, and when the
caller writes any entries into the slice the labels of the model stay the same. -/
theorem C128_labels (M : MModel F) (hM : M.classLabels.Ok m.lb) :
    ∃ s m', mClassLabels M m = (.ok s, m') ∧ m.Untouched m' ∧ s.Ok m'.lb ∧ s.view m'.lb = M.classLabels.view m.lb ∧
      ∀ l, M.classLabels.view (s.put l m'.lb) = M.classLabels.view m.lb := by
  refine ⟨_, m.addL (M.classLabels.view m.lb), rfl, (frame_addL _).untouched, Sl.ok_new _ _, Sl.view_new _ _, fun l => ?_⟩
  have f : Frame (fun _ => False) (fun _ => False) m (m.addL (M.classLabels.view m.lb)) := frame_addL _
  rw [Sl.view_put_ne (Nat.ne_of_lt hM.arr), Sl.view_kept hM f.lb id]

/-- **C128 (PredictSingle)**: the slice that `PredictSingle` returns belongs to the caller: when the caller writes any entries into it, a second
prediction for the same row returns the same probabilities, in another slice, and leaves the first slice alone. -/
theorem C128_predict (exp : F → F) (M : MModel F) (inst : Sl) (hi : inst.Ok m.fl) {s : Sl} {m' : Mem F}
    (h : mPredictSingle exp M inst m = (.ok s, m')) (l : List F) (hl : l.length ≤ s.len) :
    ∃ s' m'', mPredictSingle exp M inst (m'.writeF s l) = (.ok s', m'') ∧ s'.view m''.fl = s.view m'.fl ∧ s'.arr ≠ s.arr ∧
      s.view m''.fl = s.view (s.put l m'.fl) := by
  have h1 := mPredictSingle_sim exp M hi m
  have h2 := h1.2
  rw [h] at h2
  have hf := h1.1
  rw [h] at hf
  cases hp : (M.rep exp m).predictSingle (inst.view m.fl) with
  | error e => rw [hp] at h2; exact h2.elim
  | ok p =>
    rw [hp] at h2
    have hfr : FreshF m m' s p := h2
    have hne : inst.arr ≠ s.arr := fun e => by
      have := hi.arr
      have := hfr.new
      omega
    set m1 : Mem F := m'.writeF s l with hm1
    have hput : Frame (fun a => a = s.arr) (fun _ => False) m' m1 := ⟨keptArr_put hfr.ok hl rfl, .refl, .refl, .one rfl, .refl⟩
    have hi1 : inst.Ok m1.fl := (hi.kept hf.fl).kept hput.fl
    have hv1 : inst.view m1.fl = inst.view m.fl := by rw [Sl.view_kept (hi.kept hf.fl) hput.fl hne, Sl.view_kept hi hf.fl id]
    have h3 := mPredictSingle_sim exp M hi1 m
    rw [hv1, hp] at h3
    obtain ⟨s', m'', e1, e2, e3⟩ := h3.run_ok
    refine ⟨s', m'', e1, by rw [e3.view, hfr.view], fun e => ?_, Sl.view_kept (hfr.ok.kept hput.fl) e2.fl id⟩
    have h4 := e3.new
    have h5 := (hfr.ok.kept hput.fl).arr
    omega

/-! ### The hypotheses are met -/

/-- a memory with one array of floats and one of labels -/
def someMem : Mem F64 := { fl := [[.fin 0, .fin 1, .fin 7]], ix := [[5, 6]], lb := [[0, 1, 2, 2]] }

/-- the data `mixData`: three rows are the same part of the array -/
def someData : MData := ⟨[⟨0, 0, 1⟩, ⟨0, 1, 1⟩, ⟨0, 1, 1⟩, ⟨0, 1, 1⟩], ⟨0, 0, 4⟩⟩

theorem someData_inMem : someData.InMem someMem :=
  ⟨fun s hs => by
    rcases List.mem_cons.1 hs with rfl | hs
    · exact ⟨by decide, by decide⟩
    · have : s = ⟨0, 1, 1⟩ := by simpa using hs
      subst this
      exact ⟨by decide, by decide⟩, ⟨by decide, by decide⟩⟩
example : someData.rep someMem [] = mixData := rfl
theorem plainOptions_loss : NamesLoss plainOptions (some .sqErr) := rfl
example : NamesLoss (defaultGOptions 0 : Options F64) (some .mse) := rfl

/-- training in this memory, with two rounds of three trees -/
def someRun : Go (MModel F64) × Mem F64 := mNewMultiClass (fun _ => one) GoSort.ins (fun _ => .fin 0) someData plainOptions (some .sqErr) someMem

example : someRun.1.map (fun M => (M.b.map List.length, M.classLabels.view someRun.2.lb)) = .ok ([3, 3], [0, 1, 2]) := by decide +kernel
/-- the memory grew: the caller's arrays are the first ones -/
example : 20 ≤ someRun.2.fl.length ∧ someRun.2.fl.take 1 = someMem.fl ∧ someRun.2.ix.take 1 = someMem.ix ∧ someRun.2.lb = [[0, 1, 2, 2], [0, 1, 2]] := by
  decide +kernel

/-- afterwards the caller overwrites the data and the labels -/
def laterMem : Mem F64 := { someRun.2 with fl := [[.fin 9, .fin 1, .fin 9]], ix := [], lb := [[8, 8, 8, 8], [0, 1, 2]] }

/-- the hypothesis of `C128_train` is met -/
example : ∀ a, someMem.lb.length ≤ a → a < someRun.2.lb.length → laterMem.lb[a]? = someRun.2.lb[a]? := by
  have h : someRun.2.lb = [[0, 1, 2, 2], [0, 1, 2]] := by decide +kernel
  intro a h1 h2
  rw [h] at h2 ⊢
  have : a = 1 := by
    have : someMem.lb.length = 1 := rfl
    have : ([[0, 1, 2, 2], [0, 1, 2]] : List (List Int)).length = 2 := rfl
    omega
  subst this
  rfl

/-- and a prediction for the row that is left returns -/
example : (someRun.1 >>= fun M => (mPredictSingle (fun _ => one) M ⟨0, 1, 1⟩ laterMem).1.map Sl.len) = .ok 3 := by decide +kernel

/-- a tree fitted to rows and targets that overlap: the hypotheses of `C127_tree` are met, and the tree has a split -/
def someTree : MTreeOptions F64 :=
  { xgb := false, minChildWeight := .fin 1, allowedColumns := [], lambda := .fin 0, gamma := .fin 0, colSampleByNode := .fin 1,
    gradients := none, hessian := none, y := some ⟨0, 0, 2⟩, inn := none, val := none, maxDepth := 1, indexes := none }
example : ∀ s ∈ someTree.reads [⟨0, 0, 1⟩, ⟨0, 1, 1⟩], s.Ok someMem.fl := by
  intro s hs
  have : s = ⟨0, 0, 1⟩ ∨ s = ⟨0, 1, 1⟩ ∨ s = ⟨0, 0, 2⟩ := by simpa [MTreeOptions.reads, someTree] using hs
  rcases this with rfl | rfl | rfl <;> exact ⟨by decide, by decide⟩
example : (mNewTree GoSort.ins [⟨0, 0, 1⟩, ⟨0, 1, 1⟩] someTree someMem).1.map MTree.branches = .ok 3 := by decide +kernel

end Boo
