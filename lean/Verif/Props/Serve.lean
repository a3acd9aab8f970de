import Verif.Model.Serve
import Verif.Lemmas.Train
import Mathlib.Logic.Relation

/-!
# C115: using a model from several goroutines
-/

namespace Boo
open GoFloat
set_option linter.unusedSectionVars false
variable {F : Type} [GoFloat F]

/-- what a call returns -/
inductive UseValue (F : Type)
  | probs (l : List F)
  | cls (k : Nat)
  | acc (x : F)

/-- what a call returns in a program that only makes this call -/
def UseCall.alone (M : MultiClass F) : UseCall F → Go (UseValue F)
  | .predict row _ => (M.predictSingle row).map .probs
  | .predictClass row _ => (M.predictSingleClass row).map .cls
  | .accuracy D _ => (M.accuracy D).map .acc

def UseResult.value : UseResult F → UseValue F
  | .probs _ l => .probs l
  | .cls k => .cls k
  | .acc x => .acc x

/-- the addresses of the slices that calls have returned -/
def UseResult.addrs : UseResult F → List Nat
  | .probs a _ => [a]
  | _ => []

/-! ## One goroutine -/

/-- the rest of the loop over the trees -/
def addTodo (lr : F) (row : List F) (todo : List (Tree F × Nat)) (tmp : List F) : Go (List F) :=
  todo.foldlM (fun tmp tc => do
    let p ← tc.1.predictSingle row
    addAt tmp tc.2 (p *. lr)) tmp

theorem addRound_todo (lr : F) (row : List F) (ens : List (Tree F)) (c : Nat) (tmp : List F) :
    addRound lr row ens c tmp = addTodo lr row (ens.zipIdx c) tmp := by
  induction ens generalizing c tmp with
  | nil => rfl
  | cons t ens ih =>
    rw [addRound, List.zipIdx_cons, addTodo, List.foldlM_cons]
    cases ht : t.predictSingle row with
    | error e => rfl
    | ok p =>
      simp only [bind, Except.bind]
      cases hx : addAt tmp c (p *. lr) with
      | error e => rfl
      | ok tmp' =>
        simp only
        rw [ih]
        rfl

theorem addTodo_append (lr : F) (row : List F) (a b : List (Tree F × Nat)) (tmp : List F) :
    addTodo lr row (a ++ b) tmp = (addTodo lr row a tmp >>= fun t => addTodo lr row b t) := by
  unfold addTodo
  rw [List.foldlM_append]

theorem rawScores_todo (M : MultiClass F) (row : List F) {b0 : List (Tree F)} (h : goIdx M.b 0 = .ok b0) :
    M.rawScores row = addTodo M.learningRate row M.treesInOrder (List.replicate b0.length M.baseScore) := by
  unfold MultiClass.rawScores MultiClass.treesInOrder
  rw [h]
  simp only [bind, Except.bind]
  generalize List.replicate b0.length M.baseScore = tmp
  generalize M.b = b
  induction b generalizing tmp with
  | nil => rfl
  | cons ens b ih =>
    rw [List.foldlM_cons, List.map_cons, List.flatten_cons, addRound_todo, addTodo_append]
    cases addTodo M.learningRate row ens.zipIdx tmp with
    | error e => rfl
    | ok tmp' => exact ih tmp'

theorem addAt_length {l l' : List F} {i : Nat} {v : F} (h : addAt l i v = .ok l') : l'.length = l.length := by
  unfold addAt at h
  split at h
  · rw [← Except.ok.inj h, List.length_set]
  · cases h

theorem addTodo_length {lr : F} {row : List F} {todo : List (Tree F × Nat)} {tmp out : List F} (h : addTodo lr row todo tmp = .ok out) :
    out.length = tmp.length := by
  induction todo generalizing tmp with
  | nil => exact congrArg List.length (Except.ok.inj h).symm
  | cons tc todo ih =>
    rw [addTodo, List.foldlM_cons] at h
    obtain ⟨tmp', h1, h2⟩ := bind_ok h
    obtain ⟨p, h3, h4⟩ := bind_ok h1
    rw [ih h2, addAt_length h4]

/-- what is known about a running `PredictSingle` -/
structure FrameOk (M : MultiClass F) (heap : List (List F)) (f : UseFrame F) (b0 : List (Tree F)) (out : List F) : Prop where
  first : goIdx M.b 0 = .ok b0
  predict : M.predictSingle f.row = .ok out
  ne : f.preds ≠ f.tmp
  preds : heap[f.preds]? = some (List.replicate b0.length zero)
  tmp : ∃ t, heap[f.tmp]? = some t ∧ t.length = b0.length ∧ match f.phase with
    | .fill i => i ≤ b0.length ∧ t = List.replicate i M.baseScore ++ List.replicate (b0.length - i) zero
    | .add todo => addTodo M.learningRate f.row todo t = M.rawScores f.row
    | .store c v todo => addTodo M.learningRate f.row todo (t.set c v) = M.rawScores f.row

/-- what is known about the call that made it -/
def ContOk (M : MultiClass F) (f : UseFrame F) (v : UseValue F) : Prop := match f.cont with
  | .probs => (M.predictSingle f.row).map .probs = .ok v
  | .cls => (M.predictSingleClass f.row).map .cls = .ok v
  | .acc D rest i right => (do
      let r ← M.countRight D.labels (f.row :: rest) i right
      pure (UseValue.acc (useAcc D r)) : Go (UseValue F)) = .ok v

/-- what is known about a goroutine whose calls return `vals` -/
def GorOk (M : MultiClass F) (heap : List (List F)) (g : UseGor F) (vals : List (UseValue F)) : Prop :=
  match g.frame with
  | none => ∃ rest, vals = g.results.map UseResult.value ++ rest ∧ List.Forall₂ (fun c v => c.alone M = .ok v) g.todo rest
  | some f => ∃ b0 out v rest, FrameOk M heap f b0 out ∧ ContOk M f v ∧ vals = g.results.map UseResult.value ++ v :: rest ∧
      List.Forall₂ (fun c v => c.alone M = .ok v) g.todo rest

theorem predictSingle_parts {M : MultiClass F} {row out : List F} (h : M.predictSingle row = .ok out) :
    ∃ b0 raw O D tr D', goIdx M.b 0 = .ok b0 ∧ M.rawScores row = .ok raw ∧ raw.length = b0.length ∧ newDense 1 raw.length raw = .ok O ∧
      newDense 1 raw.length (List.replicate b0.length (zero : F)) = .ok D ∧ M.probTransform = some tr ∧ tr O (some D) = .ok D' ∧ D'.data = out := by
  unfold MultiClass.predictSingle at h
  obtain ⟨raw, h1, h⟩ := bind_ok h
  obtain ⟨O, h2, h⟩ := bind_ok h
  obtain ⟨D, h3, h⟩ := bind_ok h
  have hb : ∃ b0, goIdx M.b 0 = .ok b0 := by
    unfold MultiClass.rawScores at h1
    obtain ⟨b0, h4, _⟩ := bind_ok h1
    exact ⟨b0, h4⟩
  obtain ⟨b0, hb⟩ := hb
  have hl : raw.length = b0.length := by
    rw [rawScores_todo M row hb] at h1
    rw [addTodo_length h1, List.length_replicate]
  have hz : (raw.map fun _ => (zero : F)) = List.replicate b0.length zero := by rw [List.map_const', hl]
  rw [hz] at h3
  split at h
  · cases h
  · rename_i tr htr
    obtain ⟨D', h5, h6⟩ := bind_ok h
    exact ⟨b0, raw, O, D, tr, D', hb, h1, hl, h2, h3, htr, h5, Except.ok.inj h6⟩

/-- what a goroutine step leaves -/
structure UseStepOk (M : MultiClass F) (m m' : UseMem F) (g g' : UseGor F) (vals : List (UseValue F)) : Prop where
  ok : GorOk M m'.heap g' vals
  grow : m.heap.length ≤ m'.heap.length
  keep : ∀ a < m.heap.length, a ∉ g.owned → m'.heap[a]? = m.heap[a]?
  fresh : ∀ a ∈ g'.owned, a ∈ g.owned ∨ m.heap.length ≤ a
  small : ∀ a ∈ g'.owned, a < m'.heap.length
  nodup : g'.owned.Nodup
  res : g'.results = g.results ∨ ∃ r, g'.results = g.results ++ [r] ∧ (∀ a ∈ r.addrs, a ∈ g.owned ∧ a ∉ g'.owned) ∧
    ∀ a l, r = .probs a l → m'.heap[a]? = some l

theorem start_ok {M : MultiClass F} (m : UseMem F) {row out : List F} (h : M.predictSingle row = .ok out) (cont : UseCont F) :
    ∃ b0 m', useStart M m row cont = .ok (m', ⟨row, m.heap.length, m.heap.length + 1, .fill 0, cont⟩) ∧
      m'.heap.length = m.heap.length + 2 ∧ (∀ a < m.heap.length, m'.heap[a]? = m.heap[a]?) ∧
      FrameOk M m'.heap ⟨row, m.heap.length, m.heap.length + 1, .fill 0, cont⟩ b0 out := by
  obtain ⟨b0, raw, O, D, tr, D', hb, _⟩ := predictSingle_parts h
  refine ⟨b0, { m with heap := m.heap ++ [List.replicate b0.length zero, List.replicate b0.length zero] }, ?_, by simp, ?_, ?_⟩
  · unfold useStart
    rw [hb]
    rfl
  · intro a ha
    exact List.getElem?_append_left ha
  · refine ⟨hb, h, by simp, ?_, List.replicate b0.length zero, ?_, by simp, ?_⟩
    · show (m.heap ++ _)[m.heap.length]? = _
      rw [List.getElem?_append_right (le_refl _)]
      simp
    · show (m.heap ++ _)[m.heap.length + 1]? = _
      rw [List.getElem?_append_right (by omega)]
      simp
    · exact ⟨Nat.zero_le _, by simp⟩

theorem predtmp_ok (m : UseMem F) (classes : List Int) : m.heap.length ≤ (usePredtmp m classes).heap.length ∧
    ∀ a < m.heap.length, (usePredtmp m classes).heap[a]? = m.heap[a]? := by
  unfold usePredtmp
  split
  · exact ⟨le_refl _, fun _ _ => rfl⟩
  · split
    · refine ⟨by simp, fun a ha => ?_⟩
      exact List.getElem?_append_left ha
    · exact ⟨le_refl _, fun _ _ => rfl⟩

theorem getD_of {α : Type} {l : List α} {i : Nat} {a d : α} (h : l[i]? = some a) : l.getD i d = a := by
  rw [List.getD_eq_getElem?_getD, h]
  rfl

theorem addTodo_cons {lr : F} {row : List F} {t : Tree F} {c : Nat} {todo : List (Tree F × Nat)} {tmp out : List F}
    (h : addTodo lr row ((t, c) :: todo) tmp = .ok out) :
    ∃ p x, t.predictSingle row = .ok p ∧ goIdx tmp c = .ok x ∧ addTodo lr row todo (tmp.set c (x +. p *. lr)) = .ok out := by
  rw [addTodo, List.foldlM_cons] at h
  obtain ⟨tmp', h1, h2⟩ := bind_ok h
  obtain ⟨p, h3, h4⟩ := bind_ok h1
  unfold addAt at h4
  split at h4
  · rename_i x hx
    refine ⟨p, x, h3, goIdx_ok.2 hx, ?_⟩
    rw [Except.ok.inj h4]
    exact h2
  · cases h4

theorem fill_step {A : Type} (i n : Nat) (h : i < n) (x y : A) :
    (List.replicate i x ++ List.replicate (n - i) y).set i x = List.replicate (i + 1) x ++ List.replicate (n - (i + 1)) y := by
  rw [List.set_append_right _ _ (by simp)]
  have : n - i = (n - (i + 1)) + 1 := by omega
  rw [this, List.replicate_succ, List.replicate_succ']
  simp

theorem predictClass_parts {M : MultiClass F} {row : List F} {k : Nat} (h : M.predictSingleClass row = .ok k) :
    ∃ out, M.predictSingle row = .ok out ∧ argmaxFirst out = .ok k := bind_ok h

theorem map_ok {α β : Type} {x : Go α} {f : α → β} {b : β} (h : x.map f = .ok b) : ∃ a, x = .ok a ∧ f a = b := by
  cases x with
  | error e => cases h
  | ok a => exact ⟨a, rfl, Except.ok.inj h⟩

theorem countRight_cons {M : MultiClass F} {labels : List Int} {row : List F} {rest : List (List F)} {i right r : Nat}
    (h : M.countRight labels (row :: rest) i right = .ok r) :
    ∃ out k lab actual, M.predictSingle row = .ok out ∧ argmaxFirst out = .ok k ∧ goIdx M.classLabels k = .ok lab ∧
      goIdx labels i = .ok actual ∧ M.countRight labels rest (i + 1) (if lab = actual then right + 1 else right) = .ok r := by
  rw [MultiClass.countRight] at h
  obtain ⟨k, h1, h⟩ := bind_ok h
  obtain ⟨lab, h2, h⟩ := bind_ok h
  obtain ⟨actual, h3, h⟩ := bind_ok h
  obtain ⟨out, h4, h5⟩ := predictClass_parts h1
  exact ⟨out, k, lab, actual, h4, h5, h2, h3, h⟩

/-- starting a call -/
theorem start_step {M : MultiClass F} {m m1 : UseMem F} {g : UseGor F} {todo : List (UseCall F)} {row out : List F} {cont : UseCont F}
    (hf : g.frame = none) (hm : m.heap.length ≤ m1.heap.length) (hk : ∀ a < m.heap.length, m1.heap[a]? = m.heap[a]?)
    (h : M.predictSingle row = .ok out) {v : UseValue F} {rest vals : List (UseValue F)}
    (hc : ∀ p t, ContOk M ⟨row, p, t, .fill 0, cont⟩ v) (hv : vals = g.results.map UseResult.value ++ v :: rest)
    (ht : List.Forall₂ (fun c v => c.alone M = .ok v) todo rest) :
    ∃ m' f, useStart M m1 row cont = .ok (m', f) ∧ UseStepOk M m m' g { g with todo := todo, frame := some f } vals := by
  obtain ⟨b0, m', h1, h2, h3, h4⟩ := start_ok m1 h cont
  refine ⟨m', _, h1, ?_⟩
  have ho : g.owned = [] := by unfold UseGor.owned; rw [hf]
  constructor
  · exact ⟨b0, out, v, rest, h4, hc _ _, hv, ht⟩
  · omega
  · intro a ha _
    rw [h3 a (by omega), hk a ha]
  · intro a ha
    simp only [UseGor.owned, List.mem_cons, List.not_mem_nil, or_false] at ha
    omega
  · intro a ha
    simp only [UseGor.owned, List.mem_cons, List.not_mem_nil, or_false] at ha
    omega
  · simp [UseGor.owned]
  · exact Or.inl rfl

theorem set_keep {α : Type} (l : List α) {a b : Nat} (h : a ≠ b) (x : α) : (l.set b x)[a]? = l[a]? := by
  rw [List.getElem?_set_ne (Ne.symm h)]

theorem set_here {α : Type} {l : List α} {b : Nat} {y : α} (h : l[b]? = some y) (x : α) : (l.set b x)[b]? = some x := by
  rw [List.getElem?_set_self (List.getElem?_eq_some_iff.1 h).1]

theorem gor_step (M : MultiClass F) (m : UseMem F) (g : UseGor F) (vals : List (UseValue F)) (h : GorOk M m.heap g vals)
    (hsm : ∀ a ∈ g.owned, a < m.heap.length) :
    (useStep M m g = .ok none ∧ g.results.map UseResult.value = vals) ∨
      ∃ m' g', useStep M m g = .ok (some (m', g')) ∧ UseStepOk M m m' g g' vals := by
  obtain ⟨todo, frame, results⟩ := g
  cases frame with
  | none =>
    obtain ⟨rest, hv, ht⟩ := h
    have hf : (⟨todo, none, results⟩ : UseGor F).frame = none := rfl
    cases ht with
    | nil =>
      refine Or.inl ⟨rfl, ?_⟩
      rw [hv, List.append_nil]
    | @cons c v todo rest hc ht =>
      right
      cases c with
      | predict row buf =>
        obtain ⟨out, h1, _⟩ := map_ok hc
        obtain ⟨m', f, h2, h3⟩ := start_step hf (le_refl _) (fun _ _ => rfl) h1 (cont := .probs) (fun _ _ => hc) hv ht
        refine ⟨m', _, ?_, h3⟩
        simp only [useStep]
        rw [h2]
        rfl
      | predictClass row buf =>
        obtain ⟨k, h1, _⟩ := map_ok hc
        obtain ⟨out, h1, _⟩ := predictClass_parts h1
        obtain ⟨m', f, h2, h3⟩ := start_step hf (le_refl _) (fun _ _ => rfl) h1 (cont := .cls) (fun _ _ => hc) hv ht
        refine ⟨m', _, ?_, h3⟩
        simp only [useStep]
        rw [h2]
        rfl
      | accuracy D classes =>
        obtain ⟨p1, p2⟩ := predtmp_ok m classes
        obtain ⟨x, h1, hx⟩ := map_ok hc
        obtain ⟨r, h2, h3⟩ := bind_ok h1
        have hx' : useAcc D r = x := Except.ok.inj h3
        cases hd : D.data with
        | nil =>
          rw [hd] at h2
          have hr : 0 = r := Except.ok.inj h2
          subst hr
          refine ⟨usePredtmp m classes, ⟨todo, none, results ++ [.acc (useAcc D 0)]⟩, ?_, ?_⟩
          · simp only [useStep, hd]
            rfl
          · constructor
            · refine ⟨rest, ?_, ht⟩
              rw [hv, List.map_append, List.append_assoc]
              simp only [List.map_cons, List.map_nil, UseResult.value, List.cons_append, List.nil_append]
              rw [hx', ← hx]
            · exact p1
            · exact fun a ha _ => p2 a ha
            · intro a ha; simp [UseGor.owned] at ha
            · intro a ha; simp [UseGor.owned] at ha
            · simp [UseGor.owned]
            · exact Or.inr ⟨_, rfl, by simp [UseResult.addrs], by simp⟩
        | cons row rest' =>
          rw [hd] at h2
          obtain ⟨out, k, lab, actual, g1, _⟩ := countRight_cons h2
          obtain ⟨m', f, h4, h5⟩ := start_step (M := M) (todo := todo) hf p1 p2 g1 (cont := .acc D rest' 0 0) (v := v) (fun _ _ => by
            unfold ContOk
            simp only
            rw [h2]
            show Except.ok _ = _
            rw [hx', hx]) hv ht
          refine ⟨m', _, ?_, h5⟩
          simp only [useStep, hd]
          rw [h4]
          rfl
  | some f =>
    right
    obtain ⟨b0, out, v, rest, hF, hC, hv, ht⟩ := h
    obtain ⟨row, preds, tmp, phase, cont⟩ := f
    obtain ⟨hb, hp, hne, hpr, t, ht1, ht2, hph⟩ := hF
    simp only at hb hp hne hpr ht1 ht2 hph
    have hown : (⟨todo, some ⟨row, preds, tmp, phase, cont⟩, results⟩ : UseGor F).owned = [preds, tmp] := rfl
    have hpl := (List.getElem?_eq_some_iff.1 hpr).1
    have htl := (List.getElem?_eq_some_iff.1 ht1).1
    have hnd : [preds, tmp].Nodup := by simp [hne]
    -- a step that writes to `tmp` or nothing
    have wr : ∀ (phase' : UsePhase F) (t' : List F), FrameOk M (m.heap.set tmp t') ⟨row, preds, tmp, phase', cont⟩ b0 out →
        UseStepOk M m { m with heap := m.heap.set tmp t' } ⟨todo, some ⟨row, preds, tmp, phase, cont⟩, results⟩
          ⟨todo, some ⟨row, preds, tmp, phase', cont⟩, results⟩ vals := by
      intro phase' t' hF'
      constructor
      · exact ⟨b0, out, v, rest, hF', hC, hv, ht⟩
      · simp
      · intro a ha hno
        rw [hown] at hno
        exact set_keep _ (fun e => hno (by simp [e])) _
      · intro a ha
        exact Or.inl ha
      · intro a ha
        simp only [UseGor.owned, List.mem_cons, List.not_mem_nil, or_false] at ha
        simp only [List.length_set]
        rcases ha with rfl | rfl <;> assumption
      · exact hnd
      · exact Or.inl rfl
    have hself : m.heap.set tmp t = m.heap := by
      obtain ⟨h1, h2⟩ := List.getElem?_eq_some_iff.1 ht1
      rw [← h2]
      exact List.set_getElem_self h1
    cases phase with
    | fill i =>
      obtain ⟨hi, rfl⟩ := hph
      by_cases hin : i < b0.length
      · refine ⟨_, _, ?_, wr (.fill (i + 1)) (List.replicate (i + 1) M.baseScore ++ List.replicate (b0.length - (i + 1)) zero) ?_⟩
        · simp only [useStep]
          rw [getD_of ht1, if_pos (by omega), fill_step i _ hin]
          rfl
        · refine ⟨hb, hp, hne, ?_, _, set_here ht1 _, by simp; omega, ?_⟩
          · rw [set_keep _ hne]; exact hpr
          · exact ⟨by omega, rfl⟩
      · have hie : i = b0.length := by omega
        refine ⟨_, _, ?_, wr (.add M.treesInOrder) (List.replicate i M.baseScore ++ List.replicate (b0.length - i) zero) ?_⟩
        · simp only [useStep]
          rw [getD_of ht1, if_neg (by omega), hself]
          rfl
        · refine ⟨hb, hp, hne, ?_, _, set_here ht1 _, ht2, ?_⟩
          · rw [set_keep _ hne]; exact hpr
          · subst hie
            simp only [Nat.sub_self, List.replicate_zero, List.append_nil]
            exact (rawScores_todo M row hb).symm
    | store c x todo' =>
      refine ⟨_, _, ?_, wr (.add todo') (t.set c x) ?_⟩
      · simp only [useStep]
        rw [getD_of ht1]
        rfl
      · refine ⟨hb, hp, hne, ?_, _, set_here ht1 _, by simp [ht2], hph⟩
        rw [set_keep _ hne]; exact hpr
    | add todo' =>
      obtain ⟨b0', raw, O, D, tr, D', q1, q2, q3, q4, q5, q6, q7, q8⟩ := predictSingle_parts hp
      have hbb : b0' = b0 := Except.ok.inj (q1.symm.trans hb)
      subst hbb
      rw [q2] at hph
      cases todo' with
      | cons tc todo' =>
        obtain ⟨tr', c⟩ := tc
        obtain ⟨p, x, e1, e2, e3⟩ := addTodo_cons hph
        refine ⟨_, _, ?_, wr (.store c (x +. p *. M.learningRate) todo') t ?_⟩
        · simp only [useStep]
          rw [getD_of ht1, e1, e2, hself]
          rfl
        · refine ⟨hb, hp, hne, ?_, t, set_here ht1 _, ht2, ?_⟩
          · rw [set_keep _ hne]; exact hpr
          · simp only
            rw [e3, q2]
      | nil =>
        have hraw : t = raw := Except.ok.inj hph
        subst hraw
        have hout : (m.heap.set preds D'.data).getD preds [] = out := by rw [getD_of (set_here hpr _), q8]
        have red : useStep M m ⟨todo, some ⟨row, preds, tmp, .add [], cont⟩, results⟩ =
            (useReturn M { m with heap := m.heap.set preds D'.data } ⟨todo, some ⟨row, preds, tmp, .add [], cont⟩, results⟩
              ⟨row, preds, tmp, .add [], cont⟩).map some := by
          simp only [useStep]
          rw [getD_of ht1, getD_of hpr, q4, q5, q6]
          simp only [bind, Except.bind, q7]
          cases useReturn M { m with heap := m.heap.set preds D'.data } ⟨todo, some ⟨row, preds, tmp, .add [], cont⟩, results⟩
              ⟨row, preds, tmp, .add [], cont⟩ <;> rfl
        rw [red]
        -- a return with a result
        have ret : ∀ r : UseResult F, r.value = v → (∀ a ∈ r.addrs, a = preds) → (∀ a l, r = .probs a l → a = preds ∧ l = out) →
            UseStepOk M m { m with heap := m.heap.set preds D'.data } ⟨todo, some ⟨row, preds, tmp, .add [], cont⟩, results⟩
              ⟨todo, none, results ++ [r]⟩ vals := by
          intro r hr ha hl
          constructor
          · refine ⟨rest, ?_, ht⟩
            rw [hv, List.map_append, List.append_assoc]
            simp [hr]
          · simp
          · intro a ha hno
            rw [hown] at hno
            exact set_keep _ (fun e => hno (by simp [e])) _
          · intro a ha; simp [UseGor.owned] at ha
          · intro a ha; simp [UseGor.owned] at ha
          · simp [UseGor.owned]
          · refine Or.inr ⟨r, rfl, ?_, ?_⟩
            · intro a h
              rw [ha a h]
              simp [UseGor.owned]
            · intro a l h
              obtain ⟨rfl, rfl⟩ := hl a l h
              rw [set_here hpr, q8]
        cases cont with
        | probs =>
          unfold ContOk at hC
          simp only at hC
          rw [hp] at hC
          refine ⟨_, _, ?_, ret (.probs preds out) (Except.ok.inj hC) (by simp [UseResult.addrs])
            (by rintro a l ⟨⟩; exact ⟨rfl, rfl⟩)⟩
          simp only [useReturn, hout]
          rfl
        | cls =>
          obtain ⟨k, h1, h2⟩ := map_ok hC
          obtain ⟨out', h3, h4⟩ := predictClass_parts h1
          rw [show out' = out from Except.ok.inj (h3.symm.trans hp)] at h4
          refine ⟨_, _, ?_, ret (.cls k) h2 (by simp [UseResult.addrs]) (by simp)⟩
          simp only [useReturn, hout, h4]
          rfl
        | acc Dt rest' i right =>
          obtain ⟨r, h1, h2⟩ := bind_ok hC
          obtain ⟨out', k, lab, actual, e1, e2, e3, e4, e5⟩ := countRight_cons h1
          rw [show out' = out from Except.ok.inj (e1.symm.trans hp)] at e2
          cases rest' with
          | nil =>
            have hr : (if lab = actual then right + 1 else right) = r := Except.ok.inj e5
            refine ⟨_, _, ?_, ret (.acc (useAcc Dt r)) (Except.ok.inj h2) (by simp [UseResult.addrs]) (by simp)⟩
            simp only [useReturn, hout, e2, e3, e4, bind, Except.bind]
            rw [hr]
            rfl
          | cons row' rest'' =>
            obtain ⟨out2, _, _, _, f1, _⟩ := countRight_cons e5
            obtain ⟨b1, m', s1, s2, s3, s4⟩ := start_ok { m with heap := m.heap.set preds D'.data } f1
              (.acc Dt rest'' (i + 1) (if lab = actual then right + 1 else right))
            simp only [List.length_set] at s1 s2 s3 s4
            refine ⟨m', ⟨todo, some ⟨row', m.heap.length, m.heap.length + 1, .fill 0,
              .acc Dt rest'' (i + 1) (if lab = actual then right + 1 else right)⟩, results⟩, ?_, ?_⟩
            · simp only [useReturn, hout, e2, e3, e4, bind, Except.bind]
              rw [s1]
              rfl
            · constructor
              · refine ⟨b1, out2, v, rest, s4, ?_, hv, ht⟩
                unfold ContOk
                simp only
                rw [e5]
                exact h2
              · omega
              · intro a ha hno
                rw [s3 a ha]
                rw [hown] at hno
                exact set_keep _ (fun e => hno (by simp [e])) _
              · intro a ha
                simp only [UseGor.owned, List.mem_cons, List.not_mem_nil, or_false] at ha
                omega
              · intro a ha
                simp only [UseGor.owned, List.mem_cons, List.not_mem_nil, or_false] at ha
                omega
              · simp [UseGor.owned]
              · exact Or.inl rfl

/-! ## All goroutines -/

/-- the slices a goroutine has made or returned -/
def UseGor.cells (g : UseGor F) : List Nat := g.owned ++ g.results.flatMap UseResult.addrs

/-- the calls alone return `vals` -/
def CallsReturn (M : MultiClass F) (progs : List (List (UseCall F))) (vals : List (List (UseValue F))) : Prop :=
  List.Forall₂ (List.Forall₂ fun c v => c.alone M = .ok v) progs vals

structure StateOk (M : MultiClass F) (W : Nat → Prop) (heap : List (List F)) (vals : List (List (UseValue F))) (s : UseState F) : Prop where
  len : s.gors.length = vals.length
  gor : ∀ (i : Nat) (g : UseGor F) (vs : List (UseValue F)), s.gors[i]? = some g → vals[i]? = some vs → GorOk M s.mem.heap g vs
  nodup : ∀ (i : Nat) (g : UseGor F), s.gors[i]? = some g → g.cells.Nodup
  bound : ∀ (i : Nat) (g : UseGor F), s.gors[i]? = some g → ∀ a ∈ g.cells, heap.length ≤ a ∧ a < s.mem.heap.length
  apart : ∀ (i j : Nat) (g g' : UseGor F), i ≠ j → s.gors[i]? = some g → s.gors[j]? = some g' → ∀ a ∈ g.cells, a ∉ g'.cells
  grow : heap.length ≤ s.mem.heap.length
  old : ∀ a < heap.length, ¬ W a → s.mem.heap[a]? = heap[a]?
  held : ∀ (i : Nat) (g : UseGor F) (a : Nat) (l : List F), s.gors[i]? = some g → .probs a l ∈ g.results → ¬ W a → s.mem.heap[a]? = some l

theorem addrs_of {g : UseGor F} {a : Nat} {l : List F} (h : .probs a l ∈ g.results) : a ∈ g.results.flatMap UseResult.addrs :=
  List.mem_flatMap.2 ⟨_, h, by simp [UseResult.addrs]⟩

theorem gorOk_keep {M : MultiClass F} {h h' : List (List F)} {g : UseGor F} {vs : List (UseValue F)} (hg : GorOk M h g vs)
    (e : ∀ a ∈ g.owned, h'[a]? = h[a]?) : GorOk M h' g vs := by
  obtain ⟨todo, frame, results⟩ := g
  cases frame with
  | none => exact hg
  | some f =>
    obtain ⟨b0, out, v, rest, hF, hC, hv, ht⟩ := hg
    obtain ⟨h1, h2, h3, h4, t, h5, h6⟩ := hF
    refine ⟨b0, out, v, rest, ⟨h1, h2, h3, ?_, t, ?_, h6⟩, hC, hv, ht⟩
    · rw [e _ (by simp [UseGor.owned]), h4]
    · rw [e _ (by simp [UseGor.owned]), h5]

theorem init_ok {M : MultiClass F} {W : Nat → Prop} {heap : List (List F)} {progs : List (List (UseCall F))}
    {vals : List (List (UseValue F))} (h : CallsReturn M progs vals) : StateOk M W heap vals (useInit heap progs) := by
  have get : ∀ (i : Nat) (g : UseGor F), (useInit heap progs).gors[i]? = some g → ∃ p, progs[i]? = some p ∧ g = ⟨p, none, []⟩ := by
    intro i g hg
    simp only [useInit, List.getElem?_map, Option.map_eq_some_iff] at hg
    obtain ⟨p, h1, h2⟩ := hg
    exact ⟨p, h1, h2.symm⟩
  constructor
  · simp only [useInit, List.length_map]
    exact h.length_eq
  · intro i g vs hg hv
    obtain ⟨p, h1, rfl⟩ := get i g hg
    refine ⟨vs, rfl, ?_⟩
    obtain ⟨a1, a2⟩ := List.getElem?_eq_some_iff.1 h1
    obtain ⟨b1, b2⟩ := List.getElem?_eq_some_iff.1 hv
    have := (List.forall₂_iff_get.1 h).2 i a1 b1
    simp only [List.get_eq_getElem] at this
    rw [a2, b2] at this
    exact this
  · intro i g hg
    obtain ⟨p, h1, rfl⟩ := get i g hg
    simp [UseGor.cells, UseGor.owned]
  · intro i g hg
    obtain ⟨p, h1, rfl⟩ := get i g hg
    simp [UseGor.cells, UseGor.owned]
  · intro i j g g' _ hg
    obtain ⟨p, h1, rfl⟩ := get i g hg
    simp [UseGor.cells, UseGor.owned]
  · exact le_refl _
  · intro a _ _; rfl
  · intro i g a l hg hm
    obtain ⟨p, h1, rfl⟩ := get i g hg
    simp at hm

theorem cells_step {M : MultiClass F} {m m' : UseMem F} {g g' : UseGor F} {vs : List (UseValue F)} (h : UseStepOk M m m' g g' vs)
    {a : Nat} (ha : a ∈ g'.cells) : a ∈ g.cells ∨ m.heap.length ≤ a := by
  unfold UseGor.cells at ha ⊢
  rcases List.mem_append.1 ha with ha | ha
  · rcases h.fresh a ha with h1 | h1
    · exact Or.inl (List.mem_append_left _ h1)
    · exact Or.inr h1
  · rcases h.res with e | ⟨r, e, h1, _⟩
    · rw [e] at ha
      exact Or.inl (List.mem_append_right _ ha)
    · rw [e, List.flatMap_append] at ha
      rcases List.mem_append.1 ha with ha | ha
      · exact Or.inl (List.mem_append_right _ ha)
      · refine Or.inl (List.mem_append_left _ (h1 a ?_).1)
        simpa using ha

theorem cells_nodup {M : MultiClass F} {m m' : UseMem F} {g g' : UseGor F} {vs : List (UseValue F)} (h : UseStepOk M m m' g g' vs)
    (hn : g.cells.Nodup) (hb : ∀ a ∈ g.cells, a < m.heap.length) : g'.cells.Nodup := by
  unfold UseGor.cells at hn hb ⊢
  obtain ⟨n1, n2, n3⟩ := List.nodup_append.1 hn
  have ow : ∀ a ∈ g'.owned, a ∉ g.results.flatMap UseResult.addrs := by
    intro a ha hm
    rcases h.fresh a ha with h1 | h1
    · exact n3 a h1 a hm rfl
    · exact absurd (hb a (List.mem_append_right _ hm)) (by omega)
  refine List.nodup_append.2 ⟨h.nodup, ?_, ?_⟩
  · rcases h.res with e | ⟨r, e, h1, _⟩
    · rw [e]; exact n2
    · rw [e, List.flatMap_append]
      refine List.nodup_append.2 ⟨n2, ?_, ?_⟩
      · cases r <;> simp [UseResult.addrs]
      · intro a ha b hb' hab
        subst hab
        exact n3 a (h1 a (by simpa using hb')).1 a ha rfl
  · intro a ha b hb' hab
    subst hab
    rcases h.res with e | ⟨r, e, h1, _⟩
    · rw [e] at hb'
      exact ow a ha hb'
    · rw [e, List.flatMap_append] at hb'
      rcases List.mem_append.1 hb' with h2 | h2
      · exact ow a ha h2
      · exact (h1 a (by simpa using h2)).2 ha

theorem state_gor {M : MultiClass F} {W : Nat → Prop} {heap : List (List F)} {vals : List (List (UseValue F))} {s : UseState F}
    (h : StateOk M W heap vals s) {i : Nat} {g : UseGor F} (hg : s.gors[i]? = some g) :
    ∃ vs, vals[i]? = some vs ∧ ((useStep M s.mem g = .ok none ∧ g.results.map UseResult.value = vs) ∨
      ∃ m' g', useStep M s.mem g = .ok (some (m', g')) ∧ UseStepOk M s.mem m' g g' vs) := by
  have hi : i < vals.length := by
    rw [← h.len]
    exact (List.getElem?_eq_some_iff.1 hg).1
  refine ⟨vals[i], List.getElem?_eq_getElem hi, ?_⟩
  refine gor_step M s.mem g _ (h.gor i g _ hg (List.getElem?_eq_getElem hi)) ?_
  intro a ha
  exact (h.bound i g hg a (List.mem_append_left _ ha)).2

theorem state_step {M : MultiClass F} {W : Nat → Prop} {heap : List (List F)} {vals : List (List (UseValue F))} {s s' : UseState F} {k : Nat}
    (h : StateOk M W heap vals s) (st : UseState.Step M W k s s') : StateOk M W heap vals s' := by
  cases st with
  | user a l hw hno =>
    have keep : ∀ b, b ≠ a → (s.mem.heap.set a l)[b]? = s.mem.heap[b]? := fun b hb => set_keep _ hb _
    constructor
    · exact h.len
    · intro i g vs hg hv
      refine gorOk_keep (h.gor i g vs hg hv) ?_
      intro b hb
      refine keep b ?_
      rintro rfl
      exact hno g (List.mem_of_getElem? hg) hb
    · exact h.nodup
    · intro i g hg b hb
      simp only [List.length_set]
      exact h.bound i g hg b hb
    · exact h.apart
    · simp only [List.length_set]
      exact h.grow
    · intro b hb hW
      rw [← h.old b hb hW]
      exact keep b (by rintro rfl; exact hW hw)
    · intro i g b l' hg hm hW
      rw [← h.held i g b l' hg hm hW]
      exact keep b (by rintro rfl; exact hW hw)
  | @gor _ i g g' m' hg hst =>
    obtain ⟨vs, hvs, hcase⟩ := state_gor h hg
    have S : UseStepOk M s.mem m' g g' vs := by
      rcases hcase with ⟨e, _⟩ | ⟨m'', g'', e, S⟩
      · rw [e] at hst; cases hst
      · rw [e] at hst
        obtain ⟨rfl, rfl⟩ := Prod.mk.inj (Option.some.inj (Except.ok.inj hst))
        exact S
    have hil := (List.getElem?_eq_some_iff.1 hg).1
    have self : (s.gors.set i g')[i]? = some g' := set_here hg g'
    have other : ∀ j, j ≠ i → (s.gors.set i g')[j]? = s.gors[j]? := fun j hj => set_keep _ hj _
    -- the other goroutines do not notice
    have keepO : ∀ j gj, j ≠ i → s.gors[j]? = some gj → ∀ a ∈ gj.cells, m'.heap[a]? = s.mem.heap[a]? := by
      intro j gj hj hgj a ha
      refine S.keep a (h.bound j gj hgj a ha).2 ?_
      intro ho
      exact h.apart j i gj g hj hgj hg a ha (List.mem_append_left _ ho)
    constructor
    · simp only [List.length_set]
      exact h.len
    · intro j gj v hgj hv
      by_cases hj : j = i
      · subst hj
        simp only [self, Option.some.injEq] at hgj
        subst hgj
        rw [hvs] at hv
        rw [← Option.some.inj hv]
        exact S.ok
      · simp only [other j hj] at hgj
        exact gorOk_keep (h.gor j gj v hgj hv) fun a ha => keepO j gj hj hgj a (List.mem_append_left _ ha)
    · intro j gj hgj
      by_cases hj : j = i
      · subst hj
        simp only [self, Option.some.injEq] at hgj
        subst hgj
        exact cells_nodup S (h.nodup j g hg) fun a ha => (h.bound j g hg a ha).2
      · simp only [other j hj] at hgj
        exact h.nodup j gj hgj
    · intro j gj hgj a ha
      by_cases hj : j = i
      · subst hj
        simp only [self, Option.some.injEq] at hgj
        subst hgj
        constructor
        · rcases cells_step S ha with h1 | h1
          · exact (h.bound j g hg a h1).1
          · exact le_trans h.grow h1
        · unfold UseGor.cells at ha
          rcases List.mem_append.1 ha with h1 | h1
          · exact S.small a h1
          · have : a ∈ g.cells := by
              unfold UseGor.cells
              rcases S.res with e | ⟨r, e, h2, _⟩
              · rw [e] at h1
                exact List.mem_append_right _ h1
              · rw [e, List.flatMap_append] at h1
                rcases List.mem_append.1 h1 with h3 | h3
                · exact List.mem_append_right _ h3
                · exact List.mem_append_left _ (h2 a (by simpa using h3)).1
            exact lt_of_lt_of_le (h.bound j g hg a this).2 S.grow
      · simp only [other j hj] at hgj
        exact ⟨(h.bound j gj hgj a ha).1, lt_of_lt_of_le (h.bound j gj hgj a ha).2 S.grow⟩
    · intro j k gj gk hjk hgj hgk a ha hk
      by_cases hj : j = i
      · subst hj
        simp only [self, Option.some.injEq] at hgj
        subst hgj
        simp only [other k (Ne.symm hjk)] at hgk
        rcases cells_step S ha with h1 | h1
        · exact h.apart j k g gk hjk hg hgk a h1 hk
        · exact absurd (h.bound k gk hgk a hk).2 (by omega)
      · simp only [other j hj] at hgj
        by_cases hki : k = i
        · subst hki
          simp only [self, Option.some.injEq] at hgk
          subst hgk
          rcases cells_step S hk with h1 | h1
          · exact h.apart j k gj g hjk hgj hg a ha h1
          · exact absurd (h.bound j gj hgj a ha).2 (by omega)
        · simp only [other k hki] at hgk
          exact h.apart j k gj gk hjk hgj hgk a ha hk
    · exact le_trans h.grow S.grow
    · intro a ha hW
      rw [← h.old a ha hW]
      refine S.keep a (lt_of_lt_of_le ha h.grow) ?_
      intro ho
      exact absurd (h.bound i g hg a (List.mem_append_left _ ho)).1 (by omega)
    · intro j gj a l hgj hm hW
      by_cases hj : j = i
      · subst hj
        simp only [self, Option.some.injEq] at hgj
        subst hgj
        have old : .probs a l ∈ g.results → m'.heap[a]? = some l := by
          intro hm
          rw [← h.held j g a l hg hm hW]
          refine S.keep a (h.bound j g hg a (List.mem_append_right _ (addrs_of hm))).2 ?_
          intro ho
          exact (List.nodup_append.1 (h.nodup j g hg)).2.2 a ho a (addrs_of hm) rfl
        rcases S.res with e | ⟨r, e, _, h2⟩
        · rw [e] at hm
          exact old hm
        · rw [e] at hm
          rcases List.mem_append.1 hm with h1 | h1
          · exact old h1
          · exact h2 a l (List.mem_singleton.1 h1).symm
      · simp only [other j hj] at hgj
        rw [← h.held j gj a l hgj hm hW]
        exact keepO j gj hj hgj a (List.mem_append_right _ (addrs_of hm))

theorem run_ok {M : MultiClass F} {W : Nat → Prop} {heap : List (List F)} {progs : List (List (UseCall F))}
    {vals : List (List (UseValue F))} (h : CallsReturn M progs vals) {n : Nat} {s : UseState F} (r : (useInit heap progs).Run M W n s) :
    StateOk M W heap vals s := by
  induction r with
  | start => exact init_ok h
  | step _ st ih => exact state_step ih st

/-- **C115** Goroutines make calls on one model, each of which returns a value `vals` when it is made alone. In every execution no call
panics, what the calls of a goroutine have returned so far are the first of these values, and all of them when it has ended. -/
theorem C115_concurrent (M : MultiClass F) (W : Nat → Prop) (heap : List (List F)) (progs : List (List (UseCall F)))
    (vals : List (List (UseValue F))) (h : CallsReturn M progs vals) (n : Nat) (s : UseState F) (r : (useInit heap progs).Run M W n s)
    (i : Nat) (g : UseGor F) (hg : s.gors[i]? = some g) :
    ∃ vs, vals[i]? = some vs ∧ g.results.map UseResult.value <+: vs ∧ (∀ e, useStep M s.mem g ≠ .error e) ∧
      (useStep M s.mem g = .ok none → g.results.map UseResult.value = vs) := by
  have S := run_ok h r
  obtain ⟨vs, h1, h2⟩ := state_gor S hg
  refine ⟨vs, h1, ?_, ?_, ?_⟩
  · have := S.gor i g vs hg h1
    unfold GorOk at this
    split at this
    · obtain ⟨rest, e, _⟩ := this
      exact ⟨rest, e.symm⟩
    · obtain ⟨_, _, v, rest, _, _, e, _⟩ := this
      exact ⟨v :: rest, e.symm⟩
  · intro e he
    rcases h2 with ⟨h3, _⟩ | ⟨_, _, h3, _⟩ <;> · rw [h3] at he; cases he
  · intro he
    rcases h2 with ⟨_, h3⟩ | ⟨_, _, h3, _⟩
    · exact h3
    · rw [h3] at he; cases he

/-- **C115** Slices are not shared: the calls leave all slices of the program as they are (also those given as buffers), and the slices that
calls return are all different, no slice of the program before, and hold the returned values as long as the program does not write to them. -/
theorem C115_slices (M : MultiClass F) (W : Nat → Prop) (heap : List (List F)) (progs : List (List (UseCall F)))
    (vals : List (List (UseValue F))) (h : CallsReturn M progs vals) (n : Nat) (s : UseState F) (r : (useInit heap progs).Run M W n s) :
    (∀ a < heap.length, ¬ W a → s.mem.heap[a]? = heap[a]?) ∧
    (∀ g ∈ s.gors, ∀ a l, .probs a l ∈ g.results → heap.length ≤ a ∧ (¬ W a → s.mem.heap[a]? = some l)) ∧
    (s.gors.flatMap fun g => g.results.flatMap UseResult.addrs).Nodup := by
  have S := run_ok h r
  refine ⟨S.old, ?_, ?_⟩
  · intro g hg a l hm
    obtain ⟨i, hi⟩ := List.getElem?_of_mem hg
    exact ⟨(S.bound i g hi a (List.mem_append_right _ (addrs_of hm))).1, S.held i g a l hi hm⟩
  · refine List.nodup_flatMap.2 ⟨?_, ?_⟩
    · intro g hg
      obtain ⟨i, hi⟩ := List.getElem?_of_mem hg
      exact (List.nodup_append.1 (S.nodup i g hi)).2.1
    · refine List.pairwise_iff_getElem.2 ?_
      intro i j hi hj hij
      intro a ha hb
      exact S.apart i j _ _ (by omega) (List.getElem?_eq_getElem hi) (List.getElem?_eq_getElem hj) a (List.mem_append_right _ ha)
        (List.mem_append_right _ hb)

/-! ## Termination -/

/-- the number of classes and of trees -/
def MultiClass.rowCost (M : MultiClass F) : Nat := ((M.b[0]?).getD []).length + 2 * M.treesInOrder.length + 2

/-- the number of steps of a call -/
def UseCall.cost (M : MultiClass F) : UseCall F → Nat
  | .predict _ _ => 1 + M.rowCost
  | .predictClass _ _ => 1 + M.rowCost
  | .accuracy D _ => 1 + D.data.length * M.rowCost

def UseFrame.cost (M : MultiClass F) (f : UseFrame F) : Nat :=
  (match f.phase with
    | .fill i => (((M.b[0]?).getD []).length - i) + 2 * M.treesInOrder.length + 2
    | .add todo => 2 * todo.length + 1
    | .store _ _ todo => 2 * todo.length + 2) +
  (match f.cont with
    | .acc _ rest _ _ => rest.length * M.rowCost
    | _ => 0)

def UseGor.cost (M : MultiClass F) (g : UseGor F) : Nat :=
  ((g.frame.map fun f => f.cost M).getD 0) + (g.todo.map fun c => c.cost M).sum

theorem start_cost {M : MultiClass F} {m m' : UseMem F} {row : List F} {cont : UseCont F} {f : UseFrame F}
    (h : useStart M m row cont = .ok (m', f)) :
    f.cost M = M.rowCost + (match cont with | .acc _ rest _ _ => rest.length * M.rowCost | _ => 0) := by
  obtain ⟨b0, h1, h2⟩ := bind_ok h
  obtain ⟨_, rfl⟩ := Prod.mk.inj (Except.ok.inj h2)
  simp only [UseFrame.cost, MultiClass.rowCost]
  cases cont <;> simp <;> omega

theorem step_cost {M : MultiClass F} {m m' : UseMem F} {g g' : UseGor F} {vs : List (UseValue F)} (hg : GorOk M m.heap g vs)
    (h : useStep M m g = .ok (some (m', g'))) : g'.cost M + 1 = g.cost M := by
  obtain ⟨todo, frame, results⟩ := g
  cases frame with
  | none =>
    cases todo with
    | nil => cases h
    | cons c todo =>
      cases c with
      | predict row buf =>
        simp only [useStep] at h
        obtain ⟨⟨m1, f⟩, h1, h2⟩ := bind_ok h
        obtain ⟨_, rfl⟩ := Prod.mk.inj (Option.some.inj (Except.ok.inj h2))
        simp [UseGor.cost, UseCall.cost, start_cost h1]
        omega
      | predictClass row buf =>
        simp only [useStep] at h
        obtain ⟨⟨m1, f⟩, h1, h2⟩ := bind_ok h
        obtain ⟨_, rfl⟩ := Prod.mk.inj (Option.some.inj (Except.ok.inj h2))
        simp [UseGor.cost, UseCall.cost, start_cost h1]
        omega
      | accuracy D classes =>
        simp only [useStep] at h
        split at h
        · rename_i hd
          obtain ⟨_, rfl⟩ := Prod.mk.inj (Option.some.inj (Except.ok.inj h))
          simp [UseGor.cost, UseCall.cost, hd]
          omega
        · rename_i row rest hd
          obtain ⟨⟨m1, f⟩, h1, h2⟩ := bind_ok h
          obtain ⟨_, rfl⟩ := Prod.mk.inj (Option.some.inj (Except.ok.inj h2))
          simp [UseGor.cost, UseCall.cost, start_cost h1, hd, Nat.add_mul]
          omega
  | some f =>
    obtain ⟨b0, out, v, rest, hF, hC, hv, ht⟩ := hg
    obtain ⟨row, preds, tmp, phase, cont⟩ := f
    obtain ⟨hb, hp, hne, hpr, t, ht1, ht2, hph⟩ := hF
    simp only at hb hp hne hpr ht1 ht2 hph
    have hK : ((M.b[0]?).getD []).length = b0.length := by rw [goIdx_ok.1 hb]; rfl
    cases phase with
    | fill i =>
      simp only [useStep] at h
      rw [getD_of ht1] at h
      split at h
      · obtain ⟨_, rfl⟩ := Prod.mk.inj (Option.some.inj (Except.ok.inj h))
        simp only [UseGor.cost, UseFrame.cost, hK, Option.map_some, Option.getD_some]
        omega
      · obtain ⟨_, rfl⟩ := Prod.mk.inj (Option.some.inj (Except.ok.inj h))
        simp only [UseGor.cost, UseFrame.cost, hK, Option.map_some, Option.getD_some]
        omega
    | store c x todo' =>
      simp only [useStep] at h
      obtain ⟨_, rfl⟩ := Prod.mk.inj (Option.some.inj (Except.ok.inj h))
      simp only [UseGor.cost, UseFrame.cost, Option.map_some, Option.getD_some]
      omega
    | add todo' =>
      cases todo' with
      | cons tc todo' =>
        obtain ⟨tr', c⟩ := tc
        simp only [useStep] at h
        obtain ⟨p, _, h⟩ := bind_ok h
        obtain ⟨x, _, h⟩ := bind_ok h
        obtain ⟨_, rfl⟩ := Prod.mk.inj (Option.some.inj (Except.ok.inj h))
        simp only [UseGor.cost, UseFrame.cost, Option.map_some, Option.getD_some, List.length_cons]
        omega
      | nil =>
        simp only [useStep] at h
        obtain ⟨O, _, h⟩ := bind_ok h
        obtain ⟨D, _, h⟩ := bind_ok h
        split at h
        · cases h
        · obtain ⟨D', _, h0⟩ := bind_ok h
          obtain ⟨⟨m1, g1⟩, h3, h2⟩ := bind_ok h0
          obtain ⟨rfl, rfl⟩ := Prod.mk.inj (Option.some.inj (Except.ok.inj h2))
          clear h h0 h2
          have h := h3
          unfold useReturn at h
          cases cont with
          | probs =>
            obtain ⟨_, rfl⟩ := Prod.mk.inj (Except.ok.inj h)
            simp [UseGor.cost, UseFrame.cost]
            omega
          | cls =>
            simp only at h
            obtain ⟨k, _, h⟩ := bind_ok h
            obtain ⟨_, rfl⟩ := Prod.mk.inj (Except.ok.inj h)
            simp [UseGor.cost, UseFrame.cost]
            omega
          | acc Dt rest' i right =>
            simp only at h
            obtain ⟨k, _, h⟩ := bind_ok h
            obtain ⟨lab, _, h⟩ := bind_ok h
            obtain ⟨act, _, h⟩ := bind_ok h
            cases rest' with
            | nil =>
              obtain ⟨_, rfl⟩ := Prod.mk.inj (Except.ok.inj h)
              simp [UseGor.cost, UseFrame.cost]
              omega
            | cons row' rest'' =>
              simp only at h
              obtain ⟨⟨m2, f2⟩, h1, h2⟩ := bind_ok h
              obtain ⟨_, rfl⟩ := Prod.mk.inj (Except.ok.inj h2)
              have hc := start_cost h1
              simp only [UseGor.cost, Option.map_some, Option.getD_some, hc]
              simp [UseFrame.cost, Nat.add_mul]
              omega

theorem sum_set_cost (M : MultiClass F) (l : List (UseGor F)) (i : Nat) (g g' : UseGor F) (h : l[i]? = some g)
    (e : g'.cost M + 1 = g.cost M) : ((l.set i g').map fun g => g.cost M).sum + 1 = (l.map fun g => g.cost M).sum := by
  induction l generalizing i with
  | nil => simp at h
  | cons x l ih =>
    cases i with
    | zero =>
      simp only [List.getElem?_cons_zero, Option.some.injEq] at h
      subst h
      simp only [List.set_cons_zero, List.map_cons, List.sum_cons]
      omega
    | succ i =>
      simp only [List.getElem?_cons_succ] at h
      have := ih i h
      simp only [List.set_cons_succ, List.map_cons, List.sum_cons]
      omega

/-- **C115** All executions end, after the same number of steps of the goroutines; the execution goes on until all goroutines have made
all their calls. -/
theorem C115_ends (M : MultiClass F) (W : Nat → Prop) (heap : List (List F)) (progs : List (List (UseCall F)))
    (vals : List (List (UseValue F))) (h : CallsReturn M progs vals) (n : Nat) (s : UseState F) (r : (useInit heap progs).Run M W n s) :
    n ≤ (progs.map fun p => (p.map fun c => c.cost M).sum).sum ∧
    (n = (progs.map fun p => (p.map fun c => c.cost M).sum).sum → ∀ g ∈ s.gors, useStep M s.mem g = .ok none) ∧
    (n < (progs.map fun p => (p.map fun c => c.cost M).sum).sum → ∃ s', UseState.Step M W 1 s s') := by
  have inv : n + (s.gors.map fun g => g.cost M).sum = (progs.map fun p => (p.map fun c => c.cost M).sum).sum := by
    induction r with
    | start =>
      simp only [useInit, List.map_map, Nat.zero_add]
      congr 1
      refine List.map_congr_left ?_
      intro p _
      simp [UseGor.cost]
    | @step n k s1 s2 r st ih =>
      cases st with
      | user => exact ih
      | @gor _ i g g' m' hg hst =>
        have S := run_ok h r
        obtain ⟨vs, h1, _⟩ := state_gor S hg
        have := sum_set_cost M s1.gors i g g' hg (step_cost (S.gor i g vs hg h1) hst)
        simp only
        omega
  have S := run_ok h r
  refine ⟨by omega, ?_, ?_⟩
  · intro hn g hg
    obtain ⟨i, hi⟩ := List.getElem?_of_mem hg
    obtain ⟨vs, h1, h2⟩ := state_gor S hi
    rcases h2 with ⟨h2, _⟩ | ⟨m', g', h2, _⟩
    · exact h2
    · have := sum_set_cost M s.gors i g g' hi (step_cost (S.gor i g vs hi h1) h2)
      omega
  · intro hn
    by_contra hno
    have all : ∀ g ∈ s.gors, g.cost M = 0 := by
      intro g hg
      obtain ⟨i, hi⟩ := List.getElem?_of_mem hg
      obtain ⟨vs, h1, h2⟩ := state_gor S hi
      rcases h2 with ⟨h2, _⟩ | ⟨m', g', h2, _⟩
      · obtain ⟨todo, frame, results⟩ := g
        cases frame with
        | some f =>
          exfalso
          have := S.gor i _ vs hi h1
          obtain ⟨vs', h3, h4⟩ := state_gor S hi
          obtain ⟨b0, out, v, rest, hF, hC, hv, ht⟩ := this
          rcases h4 with ⟨_, h5⟩ | ⟨_, _, h5, _⟩
          · rw [h1] at h3
            rw [← Option.some.inj h3, hv] at h5
            have := congrArg List.length h5
            simp at this
          · rw [h5] at h2; cases h2
        | none =>
          cases todo with
          | nil => rfl
          | cons c todo =>
            exfalso
            have := S.gor i _ vs hi h1
            obtain ⟨rest, hv, ht⟩ := this
            obtain ⟨vs', h3, h4⟩ := state_gor S hi
            rcases h4 with ⟨_, h5⟩ | ⟨_, _, h5, _⟩
            · rw [h1] at h3
              rw [← Option.some.inj h3, hv] at h5
              have h6 := congrArg List.length h5
              have h7 := ht.length_eq
              simp at h6 h7
              subst h6
              simp at h7
            · rw [h5] at h2; cases h2
      · exact absurd ⟨_, .gor hi h2⟩ hno
    have : (s.gors.map fun g => g.cost M).sum = 0 := by
      refine List.sum_eq_zero ?_
      intro x hx
      obtain ⟨g, hg, rfl⟩ := List.mem_map.1 hx
      exact all g hg
    omega

/-- **C116** The slice given to `PredictSingle` (or `PredictSingleClass`) is never filled: when the calls have returned it is as before. -/
theorem C116_violated (M : MultiClass F) (heap : List (List F)) (a : Nat) (l row out : List F) (ha : heap[a]? = some l) (hl : l ≠ out)
    (hp : M.predictSingle row = .ok out) (n : Nat) (s : UseState F)
    (r : (useInit heap [[.predict row (some a)]]).Run M (fun _ => False) n s) (he : ∀ g ∈ s.gors, useStep M s.mem g = .ok none) :
    s.mem.heap[a]? = some l ∧ ∃ b g, s.gors = [g] ∧ g.results = [.probs b out] ∧ b ≠ a ∧ s.mem.heap[b]? = some out := by
  have h : CallsReturn M [[.predict row (some a)]] [[.probs out]] :=
    .cons (.cons (by simp [UseCall.alone, hp, Except.map]) .nil) .nil
  obtain ⟨h1, h2, _⟩ := C115_slices M _ heap _ _ h n s r
  have hal := (List.getElem?_eq_some_iff.1 ha).1
  refine ⟨by rw [h1 a hal (by simp), ha], ?_⟩
  have S := run_ok h r
  have hlen : s.gors.length = 1 := S.len
  obtain ⟨g, hg⟩ := List.length_eq_one_iff.1 hlen
  have hm : g ∈ s.gors := by rw [hg]; simp
  obtain ⟨vs, h3, _, _, h4⟩ := C115_concurrent M _ heap _ _ h n s r 0 g (by rw [hg]; rfl)
  have h5 := h4 (he g hm)
  simp only [List.getElem?_cons_zero, Option.some.injEq] at h3
  rw [← h3] at h5
  obtain ⟨res, h6, h7⟩ := List.map_eq_singleton_iff.1 h5
  cases res with
  | probs b l' =>
    have e : l' = out := by injection h7
    subst e
    obtain ⟨h8, h9⟩ := h2 g hm b l' (by rw [h6]; simp)
    exact ⟨b, g, hg, h6, by omega, h9 (by simp)⟩
  | cls k => cases h7
  | acc x => cases h7

end Boo
