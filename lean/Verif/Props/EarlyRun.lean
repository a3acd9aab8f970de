import Verif.Lemmas.EarlyRun
import Verif.Lemmas.RunAgree
import Verif.Props.Repro

/-!
# C134: what training with early stopping computes
-/

namespace Boo
open GoFloat
set_option linter.unusedSectionVars false
variable {F : Type} [GoFloat F]

/-- what the tree of a class is, in terms of the options -/
theorem fittedTree_of {S : GoSort} {draws : Nat → F} {D : DataBunch F} {O : Options F} {lab : Int} {lv : LossVal F} {round : Nat}
    {p : List F} {tree : Tree F}
    (h : classTree S D.data O.fixMcw lv.fn (roundIdx D.data O.fixMcw draws round) (roundCols D.data O.fixMcw draws round)
      (indicator D.labels lab) p = .ok tree) : FittedTree S draws D O lab lv round p tree := by
  obtain ⟨e1, e2, e3, e4, e5, e6, e7, e8, e9, e10⟩ := Options.fixMcw_lr O
  have hmcw : O.fixMcw.minChildWeight = effectiveMcw O := by
    unfold Options.fixMcw effectiveMcw
    split <;> rfl
  have hlg : O.fixMcw.lambda = O.lambda ∧ O.fixMcw.gamma = O.gamma := by
    unfold Options.fixMcw
    split <;> exact ⟨rfl, rfl⟩
  refine ⟨?_, ?_⟩
  · intro hx
    unfold classTree at h
    rw [e6, if_pos hx] at h
    obtain ⟨g, hg, hnt⟩ := bind_ok h
    refine ⟨g, hg, ?_⟩
    have hi : roundIdx D.data O.fixMcw draws round =
        (if rowSub O then some (roundRows D.data O draws round) else none) := by
      unfold Options.fixMcw
      split <;> rfl
    have hcl : roundCols D.data O.fixMcw draws round = roundCols D.data O draws round := by
      unfold Options.fixMcw
      split <;> rfl
    rw [hi, hcl, hmcw, hlg.1, hlg.2, e10] at hnt
    exact hnt
  · intro hx
    unfold classTree at h
    rw [e6, if_neg (by simp [hx])] at h
    obtain ⟨g, hg, hnt⟩ := bind_ok h
    obtain ⟨t0, ht0, hu⟩ := bind_ok hnt
    refine ⟨g, t0, hg, ?_, updateLeaves_newton _ _ _ _ hu⟩
    rw [hmcw, e10] at ht0
    exact ht0

theorem lossesUpTo_drop (h : List F) {r : Nat} (hr : r < h.length) :
    lossesUpTo (fun r => h.reverse.getD r zero) r = h.drop (h.length - (r + 1)) := by
  unfold lossesUpTo
  have : (List.range (r + 1)).map (fun r => h.reverse.getD r zero) = h.reverse.take (r + 1) := by
    apply List.ext_getElem?
    intro i
    rw [List.getElem?_map, List.getElem?_take]
    by_cases hi : i < r + 1
    · rw [List.getElem?_range hi, if_pos hi, Option.map_some, List.getD_eq_getElem?_getD,
        List.getElem?_eq_getElem (by simp; omega)]
      rfl
    · rw [List.getElem?_eq_none_iff.2 (by simp; omega), if_neg hi]
      rfl
  rw [this, List.take_reverse, List.reverse_reverse]

/-- **C134 (training)**: training with early stopping runs as `StoppedRun` says: every class gets a tree in the first executed
round; it gets one in the next round exactly if it got one in this round and there is no reason to stop it (its loss is above 1e-6
and decreased in one of the last `EarlyStop` rounds); every tree is fitted to the probabilities given by the trees made before it,
each counted for its own class. The rounds of the model are the rounds of the table without the empty places, and the
probabilities at the end of the training are the softmax of the scores of the trees in their places. `st` is the state at the end of the training -/
theorem C134_training (exp : F → F) (S : GoSort) (draws : Nat → F) (D : DataBunch F) (O : Options F) (labels : List Int)
    (st : TrainState F) (h : train exp S draws D O = .ok (labels, st)) (hd : D.data.length = D.labels.length)
    (hb : (O.baseScore *. one) = O.baseScore) (he : O.earlyStop > 0) :
    ∃ A L, StoppedRun exp S draws D O labels A L ∧ st.boosters = A.map (List.filterMap id) ∧
      ∀ (i : Nat) row, D.data[i]? = some row → ∃ s, alignedScores O.baseScore O.learningRate labels.length A row = .ok s ∧
        softMax exp s none = .ok (st.probs.row i) := by
  obtain ⟨hl, hlab, ohe, st0, hohe, hr0, hc0, hw, hinit, hrounds⟩ := train_inv h
  obtain ⟨i1, i2, i3, i4, i5, i6, i7⟩ := trainInit_inv hinit hr0 hc0
  obtain ⟨e1, e2, e3, e4, e5, e6, e7, e8, e9, e10⟩ := Options.fixMcw_lr O
  have hn : 0 < D.labels.length := List.length_pos_iff.2 hl
  have hR0 : RawA O.baseScore O.fixMcw.learningRate labels.length D.data [] st0 := by
    intro i row hi j hj
    have hin : i < D.labels.length := by rw [← hd]; exact (List.getElem?_eq_some_iff.1 hi).1
    refine ⟨O.baseScore, ?_, rfl⟩
    rw [i7 i hin, hb, List.getElem?_replicate, if_pos hj]
  obtain ⟨A, hist, a⟩ := RoundInv.loop (base := O.baseScore) (S := S) hd hn (by rw [e3]; exact he) i1 i2 i3 hR0 i4 i5 i6 _ st hrounds
  obtain ⟨c1, c2⟩ := trainRounds_count hrounds i3 i2
  obtain ⟨j1, _, _⟩ := trainRounds_inv hrounds i1 hd i2
  have hex : executedRounds D.data O.fixMcw draws O.rounds.toNat = executedRounds D.data O draws O.rounds.toNat := by
    unfold Options.fixMcw
    split <;> rfl
  have hsc : sampleCount D.data O.fixMcw draws 0 = sampleCount D.data O draws 0 := by
    unfold Options.fixMcw
    split <;> rfl
  have hind : ∀ (k : Nat) y, k < labels.length → denseCol ohe k = .ok y → ∃ lab, labels[k]? = some lab ∧ y = indicator D.labels lab := by
    intro k y hk hy
    refine ⟨_, List.getElem?_eq_getElem hk, ?_⟩
    refine ohe_column hl ?_ (by rw [← hlab]; exact List.getElem?_eq_getElem hk) hy
    unfold DataBunch.oheLabels at hohe
    rw [hohe, hlab]
  have hkm : ∀ r k tree, placeOf A r k = some tree → r < A.length ∧ k < labels.length := by
    intro r k tree hp
    unfold placeOf at hp
    cases hA : A[r]? with
    | none => rw [hA] at hp; cases hp
    | some ens =>
      rw [hA] at hp
      have hw := a.width ens (List.mem_of_getElem? hA)
      refine ⟨(List.getElem?_eq_some_iff.1 hA).1, ?_⟩
      rw [← hw]
      exact (List.getElem?_eq_some_iff.1 (Option.join_eq_some_iff.1 hp)).1
  have hAl : A.length = (executedRounds D.data O draws O.rounds.toNat).length := by
    rw [← hex, ← c1, a.boosters, List.length_map]
  refine ⟨A, fun k r => (hist k).reverse.getD r zero, ⟨hAl, a.width, ?_, ?_, ?_, ?_⟩, a.boosters, ?_⟩
  · intro r k tree hp
    obtain ⟨hrA, hk⟩ := hkm r k tree hp
    obtain ⟨round, f1, y, p, lv, f2, f3, f4, f5⟩ := a.trees r k tree hp
    obtain ⟨lab, g1, rfl⟩ := hind k y hk f2
    rw [hex] at f1
    rw [e9] at f3
    rw [e1] at f4
    exact ⟨lab, lv, round, p, g1, f3, f1, f4, fittedTree_of f5⟩
  · intro _ r k tree hp
    obtain ⟨hrA, hk⟩ := hkm r k tree hp
    have hrl := (a.col k hk r hrA).1 (by rw [hp]; rfl)
    have hg : (hist k).reverse[r]? = some ((hist k).reverse.getD r zero) := by
      rw [List.getD_eq_getElem?_getD, List.getElem?_eq_getElem (by simpa using hrl)]
      rfl
    obtain ⟨y, p, lv, f2, f3, f4, f5⟩ := a.loss k hk r _ hg
    obtain ⟨lab, g1, rfl⟩ := hind k y hk f2
    rw [e9] at f3
    rw [e1] at f4
    exact ⟨lab, lv, p, g1, f3, f4, f5⟩
  · intro k hk hA
    rw [a.col k hk 0 hA]
    cases hst : st.stopped.getD k false with
    | true => exact List.length_pos_iff.2 ((a.book k hk).stop hst).1
    | false => rw [a.live k hk hst]; exact hA
  · intro r k hr hk
    have hB := a.book k hk
    rw [e3, e5, hsc] at hB
    rw [a.col k hk _ hr, a.col k hk r (by omega)]
    have key : r < (hist k).length → lossesUpTo (fun r => (hist k).reverse.getD r zero) r = (hist k).drop ((hist k).length - (r + 1)) :=
      fun hrl => lossesUpTo_drop _ hrl
    constructor
    · intro hlt
      refine ⟨by omega, ?_⟩
      rintro ⟨_, hreason⟩
      rw [key (by omega)] at hreason
      obtain ⟨x, xs, hx⟩ : ∃ x xs, (hist k).drop ((hist k).length - (r + 1)) = x :: xs := by
        cases hq : (hist k).drop ((hist k).length - (r + 1)) with
        | nil =>
          have := congrArg List.length hq
          simp at this
          omega
        | cons x xs => exact ⟨x, xs, rfl⟩
      refine hB.cont ((hist k).take ((hist k).length - (r + 1))) x xs ?_ ?_ ?_
      · rw [← hx, List.take_append_drop]
      · intro hc
        have := congrArg List.length hc
        simp at this
        omega
      · rw [hx] at hreason
        exact hreason
    · rintro ⟨hrl, hno⟩
      by_contra hc
      have hlen : (hist k).length = r + 1 := by omega
      have hst : st.stopped.getD k false = true := by
        by_contra hf
        have := a.live k hk (by simpa using hf)
        omega
      apply hno
      refine ⟨he, ?_⟩
      rw [key hrl, hlen, Nat.sub_self, List.drop_zero]
      exact (hB.stop hst).2
  · intro i row hrow
    have hin : i < D.labels.length := by rw [← hd]; exact (List.getElem?_eq_some_iff.1 hrow).1
    refine ⟨st.rawPred.row i, ?_, j1.soft i hin⟩
    have := a.raw.scores j1 hd hrow
    rw [e1] at this
    exact this

theorem placeOf_full (b : List (List (Tree F))) (r k : Nat) :
    placeOf (b.map fun ens => ens.map some) r k = b[r]?.bind fun ens => ens[k]? := by
  unfold placeOf
  rw [List.getElem?_map]
  cases b[r]? with
  | none => rfl
  | some ens =>
    simp only [Option.map_some, Option.bind_some, List.getElem?_map]
    cases ens[k]? <;> rfl

theorem full_trees (b : List (List (Tree F))) (r k j : Nat) :
    alignedTrees (madeBefore (b.map fun ens => ens.map some) r k) j = treesOf (b.take (if j < k then r + 1 else r)) j := by
  rw [madeBefore_trees]
  generalize (if j < k then r + 1 else r) = q
  induction q with
  | zero => rfl
  | succ q ih =>
    rw [List.range_succ, List.filterMap_append, ih, List.take_add_one, treesOf_append]
    congr 1
    rw [filterMap_single, placeOf_full]
    cases b[q]? with
    | none => rfl
    | some ens => exact (filterMap_single _ _).symm

/-- **C134 (model)**: every trained model, with early stopping or without, is a table of trees made as `StoppedRun` says, with the
empty places taken out. -/
theorem C134_model (exp : F → F) (S : GoSort) (draws : Nat → F) (D : DataBunch F) (O : Options F) (M : MultiClass F)
    (h : newMultiClass exp S draws D O = .ok M) (hd : D.data.length = D.labels.length)
    (hb : (O.baseScore *. one) = O.baseScore) :
    ∃ A L, StoppedRun exp S draws D O M.classLabels A L ∧ M.b = A.map (List.filterMap id) := by
  by_cases he : O.earlyStop > 0
  · obtain ⟨labels, st, ht, rfl⟩ := newMultiClass_inv h
    obtain ⟨A, L, h1, h2, _⟩ := C134_training exp S draws D O labels st ht hd hb he
    exact ⟨A, L, h1, h2⟩
  · obtain ⟨c1, c2, c3⟩ := C22_rounds exp S draws D O M h
    have hfull := c3 (by omega)
    have hsome : ∀ r k, r < M.b.length → k < M.classLabels.length →
        (placeOf (M.b.map fun ens => ens.map some) r k).isSome := by
      intro r k hr hk
      rw [placeOf_full, List.getElem?_eq_getElem hr, Option.bind_some,
        List.getElem?_eq_getElem (by rw [hfull _ (List.getElem_mem hr)]; exact hk)]
      rfl
    refine ⟨M.b.map fun ens => ens.map some, fun _ _ => zero, ⟨by rw [List.length_map, c1], ?_, ?_, ?_, ?_, ?_⟩, ?_⟩
    · intro ens hens
      obtain ⟨e, h1, rfl⟩ := List.mem_map.1 hens
      rw [List.length_map, hfull e h1]
    · intro r k tree hp
      rw [placeOf_full] at hp
      cases hr : M.b[r]? with
      | none => rw [hr] at hp; cases hp
      | some ens =>
        rw [hr] at hp
        obtain ⟨lab, lv, round, p, g1, g2, g3, g4, g5⟩ := C70_fitted exp S draws D O M h hd hb hfull r k ens tree hr hp
        refine ⟨lab, lv, round, p, g1, g2, g3, ⟨g4.1, fun i row hrow => ?_⟩, g5⟩
        obtain ⟨s, probs, s1, s2⟩ := g4.2 i row hrow
        refine ⟨s, probs, ?_, s2⟩
        obtain ⟨_, _, _, m4, m5, _⟩ := C72_metadata exp S draws D O M h
        rw [← s1]
        unfold alignedScores scoresBefore
        simp only [full_trees, m4, m5]
    · intro hc; exact absurd hc he
    · intro k hk hA
      exact hsome 0 k (by rwa [List.length_map] at hA) hk
    · intro r k hr hk
      rw [List.length_map] at hr
      refine ⟨fun _ => ⟨hsome r k (by omega) hk, fun hc => he hc.1⟩, fun _ => hsome (r + 1) k hr hk⟩
    · rw [List.map_map]
      symm
      rw [List.map_congr_left (g := id), List.map_id]
      intro ens _
      simp [List.filterMap_map]

/-- **C134 (unique)**: `StoppedRun` describes the run completely: there is only one table of trees for given data, options, draws
and sort. -/
theorem C134_unique (exp : F → F) (S : GoSort) (draws : Nat → F) (D : DataBunch F) (O : Options F) (classes : List Int)
    (A A' : List (List (Option (Tree F)))) (L L' : Nat → Nat → F) (h : StoppedRun exp S draws D O classes A L)
    (h' : StoppedRun exp S draws D O classes A' L') : A' = A := by
  obtain ⟨h1, _⟩ := StoppedRun.agree (f := id) (P := fun _ => True) (ρ := id) h h' (by simp) rfl rfl rfl (fun _ _ _ _ => rfl)
    (fun r k tree tree' lab lv round p _ _ _ _ _ h1 h2 => ⟨h1.unique h2, trivial⟩)
  simpa using h1

/-! ### What the model predicts -/

/-- In every round the empty places come after the trees. -/
def GapsLast (A : List (List (Option (Tree F)))) : Prop :=
  ∀ ens ∈ A, ∀ (j k : Nat), j < k → ens[j]? = some none → ens[k]?.join = none

theorem filterMap_gaps {ens : List (Option (Tree F))} (h : ∀ (j k : Nat), j < k → ens[j]? = some none → ens[k]?.join = none) (j : Nat) :
    (ens.filterMap id)[j]? = ens[j]?.join := by
  induction ens generalizing j with
  | nil => rfl
  | cons a ens ih =>
    cases a with
    | none =>
      have hall : ∀ k, ens[k]?.join = none := fun k => by simpa using h 0 (k + 1) (by omega) rfl
      have hnil : ens.filterMap id = [] := by
        rw [List.filterMap_eq_nil_iff]
        intro x hx
        obtain ⟨k, hk⟩ := List.mem_iff_getElem?.1 hx
        have := hall k
        rw [hk] at this
        exact this
      rw [List.filterMap_cons_none rfl, hnil]
      cases j with
      | zero => rfl
      | succ j => simpa using (hall j).symm
    | some t =>
      rw [List.filterMap_cons_some (f := id) (b := t) rfl]
      cases j with
      | zero => rfl
      | succ j =>
        simp only [List.getElem?_cons_succ]
        exact ih (fun j k hjk hj => by simpa using h (j + 1) (k + 1) (by omega) (by simpa using hj)) j

theorem addRound_ok {lr : F} {x : List F} {ts : List (Tree F)} {c : Nat} {tmp : List F} (h : ∀ t ∈ ts, ∃ v, t.predictSingle x = .ok v)
    (hl : c + ts.length ≤ tmp.length) : ∃ tmp', addRound lr x ts c tmp = .ok tmp' ∧ tmp'.length = tmp.length := by
  induction ts generalizing c tmp with
  | nil => exact ⟨tmp, rfl, rfl⟩
  | cons t ts ih =>
    obtain ⟨v, hv⟩ := h t List.mem_cons_self
    simp only [List.length_cons] at hl
    have hc : c < tmp.length := by omega
    unfold addRound
    simp only [hv, bind, Except.bind, addAt, List.getElem?_eq_getElem hc]
    obtain ⟨tmp', h1, h2⟩ := ih (c := c + 1) (tmp := tmp.set c (tmp[c] +. (v *. lr))) (fun t ht => h t (List.mem_cons_of_mem _ ht))
      (by simp; omega)
    exact ⟨tmp', h1, by rw [h2]; simp⟩

theorem scoreAfter_trees {base lr : F} {ts : List (Tree F)} {x : List F} {v : F} (h : scoreAfter base lr ts x = .ok v) :
    ∀ t ∈ ts, ∃ w, t.predictSingle x = .ok w := by
  unfold scoreAfter at h
  induction ts generalizing base with
  | nil => intro t ht; cases ht
  | cons t ts ih =>
    rw [List.foldlM_cons] at h
    obtain ⟨s, h1, h2⟩ := bind_ok h
    obtain ⟨w, h3, _⟩ := bind_ok h1
    intro t' ht'
    rcases List.mem_cons.1 ht' with rfl | ht'
    · exact ⟨w, h3⟩
    · exact ih h2 t' ht'

/-- **C134 (prediction)**: if the stopped classes are the last ones in every round, the model predicts for every row what the
trees in their places predict, so it agrees with what training computed (with other orders it need not: `C20_violated`). -/
theorem C134_predicts (exp : F → F) (S : GoSort) (draws : Nat → F) (D : DataBunch F) (O : Options F) (M : MultiClass F)
    (h : newMultiClass exp S draws D O = .ok M) (A : List (List (Option (Tree F)))) (L : Nat → Nat → F)
    (hA : StoppedRun exp S draws D O M.classLabels A L) (hM : M.b = A.map (List.filterMap id)) (hne : A ≠ []) (hg : GapsLast A)
    (x s : List F) (hs : alignedScores O.baseScore O.learningRate M.classLabels.length A x = .ok s) :
    M.rawScores x = .ok s ∧ M.predictSingle x = softMax exp s none := by
  obtain ⟨_, _, _, m4, m5, _⟩ := C72_metadata exp S draws D O M h
  have hP : M.probTransform = some (softMaxDense exp) := by
    obtain ⟨labels, st, ht, rfl⟩ := newMultiClass_inv h
    rfl
  have hm : 0 < M.classLabels.length := by
    obtain ⟨labels, st, ht, rfl⟩ := newMultiClass_inv h
    obtain ⟨hl, hlab, _⟩ := train_inv ht
    obtain ⟨y, l, hy⟩ := List.exists_cons_of_ne_nil hl
    show 0 < labels.length
    rw [hlab]
    exact List.length_pos_of_mem (((C39_distinct D.labels).2.1 y).2 (by rw [hy]; simp))
  generalize hmm : M.classLabels.length = m at *
  have htr : ∀ j, treesOf M.b j = alignedTrees A j := by
    intro j
    rw [hM]
    unfold treesOf alignedTrees
    rw [List.filterMap_map]
    apply List.filterMap_congr
    intro ens hens
    exact filterMap_gaps (hg ens hens) j
  have hscore : s.length = m ∧ ∀ j < m, ∃ v, s[j]? = some v ∧ scoreAfter O.baseScore O.learningRate (alignedTrees A j) x = .ok v := by
    unfold alignedScores at hs
    rw [mapM_ok, List.forall₂_iff_get] at hs
    obtain ⟨h1, h2⟩ := hs
    rw [List.length_range] at h1
    refine ⟨h1.symm, fun j hj => ⟨s[j]'(by omega), List.getElem?_eq_getElem (by omega), ?_⟩⟩
    simpa using h2 j (by simpa using hj) (by omega)
  have hpred : ∀ ens ∈ M.b, ∀ t ∈ ens, ∃ v, t.predictSingle x = .ok v := by
    intro ens hens t ht
    obtain ⟨j, hj⟩ := List.mem_iff_getElem?.1 ht
    have hmem : t ∈ treesOf M.b j := by
      unfold treesOf
      exact List.mem_filterMap.2 ⟨ens, hens, hj⟩
    have hjm : j < m := by
      rw [hM] at hens
      obtain ⟨e, h1, rfl⟩ := List.mem_map.1 hens
      have := (List.getElem?_eq_some_iff.1 hj).1
      have h2 := List.length_filterMap_le id e
      have h3 := hA.width e h1
      rw [hmm] at h3
      omega
    obtain ⟨v, _, hv⟩ := hscore.2 j hjm
    rw [← htr j] at hv
    exact scoreAfter_trees hv t hmem
  have hwid : ∀ ens ∈ M.b, ens.length ≤ m := by
    intro ens hens
    rw [hM] at hens
    obtain ⟨e, h1, rfl⟩ := List.mem_map.1 hens
    have h3 := hA.width e h1
    rw [hmm] at h3
    exact (List.length_filterMap_le id e).trans (le_of_eq h3)
  have hfold : ∀ (b : List (List (Tree F))) (tmp : List F), tmp.length = m → (∀ ens ∈ b, ens ∈ M.b) →
      ∃ tmp', b.foldlM (fun tmp ens => addRound O.learningRate x ens 0 tmp) tmp = .ok tmp' := by
    intro b
    induction b with
    | nil => intro tmp _ _; exact ⟨tmp, rfl⟩
    | cons ens b ih =>
      intro tmp htmp hin
      have he := hin ens List.mem_cons_self
      obtain ⟨t1, h1, h2⟩ := addRound_ok (lr := O.learningRate) (c := 0) (tmp := tmp) (hpred ens he) (by have := hwid ens he; omega)
      obtain ⟨t2, h3⟩ := ih t1 (by omega) fun e h => hin e (List.mem_cons_of_mem _ h)
      refine ⟨t2, ?_⟩
      rw [List.foldlM_cons, h1]
      exact h3
  have hraw : M.rawScores x = .ok s := by
    unfold MultiClass.rawScores
    obtain ⟨a0, as, has⟩ := List.exists_cons_of_ne_nil hne
    have hb0 : goIdx M.b 0 = .ok (a0.filterMap id) := goIdx_ok.2 (by rw [hM, has]; rfl)
    have hl0 : (a0.filterMap id).length = m := by
      have h0 : ∀ k < m, (placeOf A 0 k).isSome := fun k hk => hA.first k (by omega) (by rw [has]; simp)
      have hw := hA.width a0 (by rw [has]; simp)
      rw [hmm] at hw
      apply Nat.le_antisymm ((List.length_filterMap_le id a0).trans (le_of_eq hw))
      by_contra hc
      have h1 := h0 (m - 1) (by omega)
      have h2 := filterMap_gaps (hg a0 (by rw [has]; simp)) (m - 1)
      unfold placeOf at h1
      rw [has] at h1
      simp only [List.getElem?_cons_zero, Option.bind_some] at h1
      rw [← h2, List.getElem?_eq_none_iff.2 (by omega)] at h1
      cases h1
    simp only [hb0, bind, Except.bind, hl0, m4, m5]
    obtain ⟨s', hs'⟩ := hfold M.b (List.replicate m O.baseScore) (by simp) fun _ h => h
    rw [hs']
    obtain ⟨q1, q2⟩ := foldRounds_get _ _ _ _ _ _ hs'
    congr 1
    apply List.ext_getElem?
    intro j
    by_cases hj : j < m
    · obtain ⟨v, r1, r2⟩ := q2 j hj
      obtain ⟨w, r3, r4⟩ := hscore.2 j hj
      rw [htr, r4] at r2
      cases r2
      rw [r1, r3]
    · rw [List.getElem?_eq_none_iff.2 (by omega), List.getElem?_eq_none_iff.2 (by omega)]
  refine ⟨hraw, predictSingle_softmax exp M hP x s hraw ?_⟩
  intro hnil
  rw [hnil] at hscore
  have := hscore.1
  simp at this
  omega

/-! ### The hypotheses are met -/

/-- two classes that cannot be told apart better after the first round -/
def evenData : DataBunch F64 := { mixData with labels := [0, 1, 0, 1] }

/-- an increasing positive function in place of the exponential -/
def fiveSteps (x : F64) : F64 :=
  if (.fin 4) <. x then .fin 50 else if (.fin 1) <. x then .fin 5 else if zero <. x then .fin 2
  else if x <. zero then .fin (1 / 2) else .fin 1

/-- a run with early stopping in which both classes are stopped after the second round -/
example : ∃ M A L, newMultiClass fiveSteps GoSort.ins (fun _ => .fin 0) evenData { mixOptions with rounds := 4 } = .ok M ∧
    StoppedRun fiveSteps GoSort.ins (fun _ => .fin 0) evenData { mixOptions with rounds := 4 } M.classLabels A L ∧
    M.b = A.map (List.filterMap id) ∧ A.length = 4 ∧ GapsLast A ∧ placeOf A 1 0 ≠ none ∧ placeOf A 2 0 = none := by
  have hs : shapeOf (newMultiClass fiveSteps GoSort.ins (fun _ => .fin 0) evenData { mixOptions with rounds := 4 }) = .ok [2, 2, 0, 0] := by
    decide +kernel
  cases hM : newMultiClass fiveSteps GoSort.ins (fun _ => .fin 0) evenData { mixOptions with rounds := 4 } with
  | error e => rw [hM] at hs; cases hs
  | ok M =>
    rw [hM] at hs
    have hsh : M.b.map List.length = [2, 2, 0, 0] := Except.ok.inj hs
    obtain ⟨A, L, h1, h2⟩ := C134_model _ _ _ _ _ M hM (by decide) (by decide +kernel)
    have hm : M.classLabels.length = 2 := by
      rw [(C22_rounds _ _ _ _ _ M hM).2.1]
      decide
    rw [h2, List.map_map] at hsh
    have hlen : A.length = 4 := by simpa using congrArg List.length hsh
    have hget : ∀ (r : Nat) ens, A[r]? = some ens → ([2, 2, 0, 0] : List Nat)[r]? = some (ens.filterMap id).length := by
      intro r ens hr
      rw [← hsh, List.getElem?_map, hr]
      rfl
    have hfull : ∀ (ens : List (Option (Tree F64))) (n : Nat), ens.length = n → (ens.filterMap id).length = n → ∀ x ∈ ens, x ≠ none := by
      intro ens
      induction ens with
      | nil => intro n _ _ x hx; cases hx
      | cons a ens ih =>
        intro n hn hf x hx
        cases a with
        | none =>
          rw [List.filterMap_cons_none rfl] at hf
          have := List.length_filterMap_le id ens
          simp at hn
          omega
        | some t =>
          rw [List.filterMap_cons_some (f := id) (b := t) rfl] at hf
          simp only [List.length_cons] at hn hf
          rcases List.mem_cons.1 hx with rfl | hx
          · simp
          · exact ih (n - 1) (by omega) (by omega) x hx
    have hempty : ∀ ens : List (Option (Tree F64)), (ens.filterMap id).length = 0 → ∀ x ∈ ens, x = none := by
      intro ens he x hx
      rw [List.length_eq_zero_iff, List.filterMap_eq_nil_iff] at he
      exact he x hx
    have hrow : ∀ (r : Nat) ens, A[r]? = some ens → (∀ x ∈ ens, x ≠ none) ∨ ∀ x ∈ ens, x = none := by
      intro r ens hr
      have hw := h1.width ens (List.mem_of_getElem? hr)
      rw [hm] at hw
      have hg := hget r ens hr
      have hr4 : r < 4 := by rw [← hlen]; exact (List.getElem?_eq_some_iff.1 hr).1
      have : (ens.filterMap id).length = 2 ∨ (ens.filterMap id).length = 0 := by
        rcases r with _ | _ | _ | _ | r
        · left; simpa using hg.symm
        · left; simpa using hg.symm
        · right; simpa using hg.symm
        · right; simpa using hg.symm
        · omega
      rcases this with h | h
      · exact Or.inl (hfull ens 2 hw h)
      · exact Or.inr (hempty ens h)
    refine ⟨M, A, L, rfl, h1, h2, hlen, ?_, ?_, ?_⟩
    · intro ens hens j k _ hj
      obtain ⟨r, hr⟩ := List.mem_iff_getElem?.1 hens
      rcases hrow r ens hr with h | h
      · exact absurd rfl (h none (List.mem_of_getElem? hj))
      · cases hk : ens[k]? with
        | none => rfl
        | some x => rw [h x (List.mem_of_getElem? hk)]; rfl
    · obtain ⟨ens, hr⟩ : ∃ ens, A[1]? = some ens := ⟨_, List.getElem?_eq_getElem (by omega)⟩
      have hw := h1.width ens (List.mem_of_getElem? hr)
      rw [hm] at hw
      have hf := hfull ens 2 hw (by simpa using (hget 1 ens hr).symm)
      unfold placeOf
      rw [hr, Option.bind_some, List.getElem?_eq_getElem (by omega), Option.join_some]
      exact hf _ (List.getElem_mem _)
    · obtain ⟨ens, hr⟩ : ∃ ens, A[2]? = some ens := ⟨_, List.getElem?_eq_getElem (by omega)⟩
      have hw := h1.width ens (List.mem_of_getElem? hr)
      rw [hm] at hw
      have hf := hempty ens (by simpa using (hget 2 ens hr).symm)
      unfold placeOf
      rw [hr, Option.bind_some, List.getElem?_eq_getElem (by omega), Option.join_some]
      exact hf _ (List.getElem_mem _)

/-- three classes of which some are stopped and others go on -/
example : shapeOf (newMultiClass fiveSteps GoSort.ins (fun _ => .fin 0) mixData { mixOptions with rounds := 4 }) =
    .ok [3, 3, 1, 1] := by decide +kernel

end Boo
