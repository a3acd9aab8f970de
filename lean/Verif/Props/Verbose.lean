import Verif.Lemmas.Verbose
import Verif.Spec.Verbose
import Verif.Props.EarlyRun
import Verif.Props.Strings

/-!
# C140: what training prints when `Verbose` is on
-/

namespace Boo
open GoFloat
set_option linter.unusedSectionVars false
variable {F : Type} [GoFloat F]

/-! ### The table of a run -/

theorem lossLines_append (a b : List (TrainMsg F)) : lossLines (a ++ b) = lossLines a ++ lossLines b := List.filterMap_append

theorem stopMsg_lines (O : Options F) (round k : Nat) (l : F) (st : TrainState F) : lossLines (stopMsg O round k l st) = [] := by
  unfold stopMsg
  split
  · split
    · rfl
    · split
      · rfl
      · simp only
        split <;> (split <;> rfl)
  · rfl

theorem roundLines_append (round : Nat) (a : List (Option (Tree F × F))) (x : Option (Tree F × F)) :
    roundLines round (a ++ [x]) = roundLines round a ++ (x.map fun tl => (round, a.length, tl.2)).toList := by
  unfold roundLines
  rw [List.zipIdx_append, List.filterMap_append]
  congr 1
  cases x <;> simp

/-- inside a round: the classes below `cur.length` have been seen -/
structure VInv (exp : F → F) (S : GoSort) (data : List (List F)) (O : Options F) (ohe : Dense F) (base : F) (n m round : Nat)
    (idx : Option (List Nat)) (cols : List Nat) (A : List (List (Option (Tree F)))) (st : TrainState F) (msgs : List (TrainMsg F))
    (cur : List (Option (Tree F × F))) (acc : (TrainState F × List (Tree F)) × List (TrainMsg F)) : Prop where
  classes : acc.1.2 = cur.filterMap (Option.map Prod.fst)
  inv : TInv exp n m acc.1.1
  boosters : acc.1.1.boosters = st.boosters
  draws : acc.1.1.draws = st.draws
  raw : RawA base O.learningRate m data (A ++ [cur.map (Option.map Prod.fst)]) acc.1.1
  lines : lossLines acc.2 = lossLines msgs ++ roundLines round cur
  trees : ∀ (k : Nat) tree l, cur[k]? = some (some (tree, l)) →
    TreeFactA exp S data O ohe base m idx cols (A ++ [(cur.map (Option.map Prod.fst)).take k]) k tree ∧
    LossFactA exp data O ohe base m (A ++ [(cur.map (Option.map Prod.fst)).take (k + 1)]) k l

theorem VInv.loop {exp : F → F} {S : GoSort} {data : List (List F)} {O : Options F} {ohe : Dense F} {base : F} {n m : Nat}
    {idx : Option (List Nat)} {cols : List Nat} {A : List (List (Option (Tree F)))}
    {st : TrainState F} {msgs : List (TrainMsg F)} {round : Nat} (hd : data.length = n) (hn : 0 < n) (hv : O.verbose = true)
    (hi : TInv exp n m st) (hR : RawA base O.learningRate m data A st)
    (q : Nat) (hq : q ≤ m) (acc : (TrainState F × List (Tree F)) × List (TrainMsg F))
    (h : (List.range q).foldlM (trainClassLog (softMaxDense exp) S data O ohe idx cols round) ((st, []), msgs) = .ok acc) :
    ∃ cur, cur.length = q ∧ VInv exp S data O ohe base n m round idx cols A st msgs cur acc := by
  induction q generalizing acc with
  | zero =>
    simp only [List.range_zero, List.foldlM_nil, pure, Except.pure, Except.ok.injEq] at h
    subst h
    refine ⟨[], rfl, ⟨rfl, hi, rfl, rfl, hR.congr ?_, by simp [roundLines], by simp⟩⟩
    intro j _
    rw [alignedTrees_append, alignedTrees_single]
    simp
  | succ q ih =>
    rw [List.range_succ, List.foldlM_append] at h
    obtain ⟨acc1, h2, h3⟩ := bind_ok h
    rw [List.foldlM_cons] at h3
    obtain ⟨acc2, h4, h5⟩ := bind_ok h3
    simp only [List.foldlM_nil, pure, Except.pure, Except.ok.injEq] at h5
    subst h5
    obtain ⟨cur, hl, c⟩ := ih (by omega) acc1 h2
    have hqm : q < m := by omega
    have hlm : (cur.map (Option.map Prod.fst)).length = q := by rw [List.length_map, hl]
    rcases trainClassLog_inv h4 with ⟨hs, rfl⟩ | ⟨hs, tree, ht, s, hms, hls⟩
    · -- the class is stopped
      refine ⟨cur ++ [none], by simp [hl], ⟨by rw [c.classes]; simp, c.inv, c.boosters, c.draws, c.raw.congr ?_, ?_, ?_⟩⟩
      · intro j _
        rw [alignedTrees_append, alignedTrees_append, alignedTrees_single, alignedTrees_single, List.map_append]
        congr 1
        by_cases hj : j < q
        · rw [List.getElem?_append_left (by omega)]
        · rw [List.getElem?_append_right (by omega), List.getElem?_eq_none_iff.2 (by omega : (cur.map (Option.map Prod.fst)).length ≤ j)]
          by_cases hj' : j = q
          · subst hj'; simp [hl]
          · rw [List.getElem?_eq_none_iff.2 (by simp; omega)]
      · rw [roundLines_append, c.lines]; simp
      · intro k tree l hk
        by_cases hkl : k < cur.length
        · rw [List.getElem?_append_left hkl] at hk
          rw [List.map_append, List.take_append_of_le_length (by omega), List.take_append_of_le_length (by omega)]
          exact c.trees k tree l hk
        · rw [List.getElem?_append_right (by omega)] at hk
          have := List.mem_of_getElem? hk
          simp at this
    · -- the class gets a tree
      obtain ⟨i1, i2, i3, i4⟩ := s.inv c.inv hd hqm
      have hraw : RawA base O.learningRate m data (A ++ [cur.map (Option.map Prod.fst) ++ [some tree]]) acc2.1.1 := by
        intro i row hrow j hj
        obtain ⟨v, d, hv, hdk, hset⟩ := i4 i row hrow
        obtain ⟨w, hw1, hw2⟩ := c.raw i row hrow j hj
        rw [alignedTrees_append, alignedTrees_single] at hw2 ⊢
        by_cases hjq : j = q
        · subst hjq
          rw [hdk] at hw1
          cases hw1
          rw [List.getElem?_eq_none_iff.2 (by omega : (cur.map (Option.map Prod.fst)).length ≤ j)] at hw2
          simp only [Option.join_none, Option.toList_none, List.append_nil] at hw2
          refine ⟨_, by rw [hset, List.getElem?_set_self (List.getElem?_eq_some_iff.1 hdk).1], ?_⟩
          rw [List.getElem?_append_right (by omega), hlm]
          simp only [Nat.sub_self, List.getElem?_cons_zero, Option.join_some, Option.toList_some]
          exact scoreAfter_snoc hw2 hv
        · refine ⟨w, by rw [hset, List.getElem?_set_ne (Ne.symm hjq)]; exact hw1, ?_⟩
          rw [← hw2]
          congr 3
          by_cases hj' : j < q
          · rw [List.getElem?_append_left (by omega)]
          · rw [List.getElem?_append_right (by omega), List.getElem?_eq_none_iff.2 (by simp; omega),
              List.getElem?_eq_none_iff.2 (by omega : (cur.map (Option.map Prod.fst)).length ≤ j)]
      have hpr : acc2.1.1.probs = s.probs := by
        have := congrArg TrainState.probs s.hst
        rw [(earlyStopping_raw _ _ _ _ _).2.1] at this
        exact this
      have hmap : (cur ++ [some (tree, s.loss)]).map (Option.map Prod.fst) = cur.map (Option.map Prod.fst) ++ [some tree] := by simp
      refine ⟨cur ++ [some (tree, s.loss)], by simp [hl],
        ⟨by rw [ht, c.classes]; simp, i1, i2.trans c.boosters, i3.trans c.draws, by rw [hmap]; exact hraw, ?_, ?_⟩⟩
      · rw [hms, lossLines_append, c.lines, roundLines_append]
        unfold classMsgs
        rw [if_pos hv]
        simp only [Option.map_some, Option.toList_some, hl, List.append_assoc]
        congr 2
        show (round, q, s.loss) :: lossLines (stopMsg O round q s.loss acc1.1.1) = _
        rw [stopMsg_lines]
      · intro k tree' l hk
        rw [hmap]
        by_cases hkl : k < cur.length
        · rw [List.getElem?_append_left hkl] at hk
          rw [List.take_append_of_le_length (by omega), List.take_append_of_le_length (by omega)]
          exact c.trees k tree' l hk
        · have hke : k = q := by
            have := (List.getElem?_eq_some_iff.1 hk).1
            simp at this
            omega
          subst hke
          rw [List.getElem?_append_right (by omega), hl] at hk
          simp only [Nat.sub_self, List.getElem?_cons_zero, Option.some.injEq, Prod.mk.injEq] at hk
          obtain ⟨rfl, rfl⟩ := hk
          rw [List.take_append_of_le_length (by omega), List.take_of_length_le (by omega), List.take_of_length_le (by simp; omega)]
          obtain ⟨kp, hk1, hk2⟩ := hls hv
          exact ⟨⟨s.y, s.p, s.lv, s.hy, s.hlv, c.raw.probs c.inv hd hn hqm s.hp, s.htree⟩,
            ⟨s.y, kp, s.lv, s.hy, s.hlv, hraw.probs i1 hd hn hqm (by rw [hpr]; exact hk1), hk2⟩⟩

theorem entryOf_append_left (A B : List (List (Option (Tree F × F)))) {r : Nat} (k : Nat) (h : r < A.length) :
    entryOf (A ++ B) r k = entryOf A r k := by
  unfold entryOf
  rw [List.getElem?_append_left h]

theorem treesIn_length (T : List (List (Option (Tree F × F)))) : (treesIn T).length = T.length := by
  unfold treesIn
  rw [List.length_map]

theorem treesIn_append (T : List (List (Option (Tree F × F)))) (c : List (Option (Tree F × F))) :
    treesIn (T ++ [c]) = treesIn T ++ [c.map (Option.map Prod.fst)] := by
  unfold treesIn
  simp

/-- after some rounds -/
structure VRound (exp : F → F) (S : GoSort) (data : List (List F)) (O : Options F) (ohe : Dense F) (base : F) (m : Nat)
    (draws : Nat → F) (T : List (List (Option (Tree F × F)))) (q : Nat) (acc : TrainState F × List (TrainMsg F)) : Prop where
  boosters : acc.1.boosters = T.map (List.filterMap (Option.map Prod.fst))
  width : ∀ ens ∈ T, ens.length = m
  raw : RawA base O.learningRate m data (treesIn T) acc.1
  lines : lossLines acc.2 = ((executedRounds data O draws q).zip T).flatMap fun e => roundLines e.1 e.2
  trees : ∀ r k tree l, entryOf T r k = some (tree, l) → ∃ round, (executedRounds data O draws q)[r]? = some round ∧
    TreeFactA exp S data O ohe base m (roundIdx data O draws round) (roundCols data O draws round) (madeBefore (treesIn T) r k) k tree ∧
    LossFactA exp data O ohe base m (madeBefore (treesIn T) r (k + 1)) k l

theorem VRound.loop {exp : F → F} {S : GoSort} {data : List (List F)} {O : Options F} {ohe : Dense F} {base : F} {n m : Nat}
    {draws : Nat → F} {st0 : TrainState F} (hd : data.length = n) (hn : 0 < n) (hv : O.verbose = true)
    (hi : TInv exp n m st0) (hb : st0.boosters = []) (hdr : st0.draws = draws)
    (hR : RawA base O.learningRate m data [] st0) (q : Nat) (acc : TrainState F × List (TrainMsg F))
    (h : (List.range q).foldlM (trainRoundLog (softMaxDense exp) S data O ohe m) (st0, []) = .ok acc) :
    ∃ T, VRound exp S data O ohe base m draws T q acc := by
  induction q generalizing acc with
  | zero =>
    simp only [List.range_zero, List.foldlM_nil, pure, Except.pure, Except.ok.injEq] at h
    subst h
    refine ⟨[], ⟨by rw [hb]; rfl, by simp, hR, by simp [lossLines], ?_⟩⟩
    intro r k tree l hh
    simp [entryOf] at hh
  | succ q ih =>
    rw [List.range_succ, List.foldlM_append] at h
    obtain ⟨st1, h1, h2⟩ := bind_ok h
    rw [List.foldlM_cons] at h2
    obtain ⟨st2, h3, h4⟩ := bind_ok h2
    simp only [List.foldlM_nil, pure, Except.pure, Except.ok.injEq] at h4
    subst h4
    obtain ⟨T, a⟩ := ih st1 h1
    have h1' := map_fst_ok (foldlM_map_go Prod.fst _ _ (trainRoundLog_fst (softMaxDense exp) S data O ohe m) _ (st0, [])) h1
    obtain ⟨a1, _, _⟩ := trainRounds_inv h1' hi hd hb
    obtain ⟨c1, c2⟩ := trainRounds_count h1' hdr hb
    have hTl : T.length = (executedRounds data O draws q).length := by
      rw [← c1, a.boosters, List.length_map]
    have hex : executedRounds data O draws (q + 1) = executedRounds data O draws q ++
        (if O.minSample ≤ (sampleCount data O draws q : Int) then [q] else []) := by
      unfold executedRounds
      rw [List.range_succ, List.filter_append, List.filter_cons]
      simp
    obtain ⟨idx, cols, d', hs', hcase⟩ := trainRoundLog_inv h3
    obtain ⟨_, q2⟩ := roundSamples_inv hs'
    have q3 := roundSamples_cols hs'
    have hidx : idx = roundIdx data O draws q := by
      rw [q2, c2]
      rfl
    have hcols : cols = roundCols data O draws q := by
      rw [q3, c2]
      rfl
    have hcnt : (idx.getD []).length = sampleCount data O draws q := by
      rw [hidx]
      unfold sampleCount roundIdx
      split <;> rfl
    rcases hcase with ⟨hlt, rfl⟩ | ⟨hge, acc, hacc, rfl⟩
    · rw [hcnt] at hlt
      have hex' : executedRounds data O draws (q + 1) = executedRounds data O draws q := by
        rw [hex, if_neg (by omega), List.append_nil]
      exact ⟨T, ⟨a.boosters, a.width, a.raw, by rw [hex']; exact a.lines, by rw [hex']; exact a.trees⟩⟩
    · rw [hcnt] at hge
      have hexq : O.minSample ≤ (sampleCount data O draws q : Int) := by omega
      rw [if_pos hexq] at hex
      obtain ⟨cur, hl, c⟩ := VInv.loop (A := treesIn T) (base := base) (st := { st1.1 with draws := d' }) hd hn hv
        (a1.draws d') a.raw m le_rfl acc hacc
      refine ⟨T ++ [cur], ⟨?_, ?_, by rw [treesIn_append]; exact c.raw, ?_, ?_⟩⟩
      · simp only [List.map_append, List.map_cons, List.map_nil]
        rw [c.boosters, c.classes, ← a.boosters]
      · intro ens hens
        rcases List.mem_append.1 hens with h | h
        · exact a.width ens h
        · rw [List.mem_singleton.1 h, hl]
      · simp only
        rw [c.lines, a.lines, hex, List.zip_append hTl.symm, List.flatMap_append]
        simp
      · intro r k tree l hr
        by_cases hrl : r < T.length
        · rw [entryOf_append_left _ _ _ hrl] at hr
          obtain ⟨round, g1, g2, g3⟩ := a.trees r k tree l hr
          refine ⟨round, ?_, ?_, ?_⟩
          · rw [hex, List.getElem?_append_left (List.getElem?_eq_some_iff.1 g1).1]
            exact g1
          · rw [treesIn_append, madeBefore_append_left _ _ _ (by rw [treesIn_length]; exact hrl)]
            exact g2
          · rw [treesIn_append, madeBefore_append_left _ _ _ (by rw [treesIn_length]; exact hrl)]
            exact g3
        · have hre : r = T.length := by
            by_contra hc
            unfold entryOf at hr
            rw [List.getElem?_eq_none_iff.2 (by simp; omega)] at hr
            cases hr
          subst hre
          refine ⟨q, ?_, ?_⟩
          · rw [hex, List.getElem?_append_right (by omega), hTl]
            simp
          · unfold entryOf at hr
            rw [List.getElem?_append_right le_rfl] at hr
            simp only [Nat.sub_self, List.getElem?_cons_zero, Option.bind_some] at hr
            have := c.trees k tree l (Option.join_eq_some_iff.1 hr)
            rw [treesIn_append, ← treesIn_length T, madeBefore_append_last, madeBefore_append_last, ← hidx, ← hcols]
            exact this

/-- **C140 (model)**: the messages do not change the model: training with its messages returns the model that training returns, and
without `Verbose` nothing is printed. -/
theorem C140_model (exp : F → F) (S : GoSort) (draws : Nat → F) (D : DataBunch F) (O : Options F) (M : MultiClass F) :
    newMultiClass exp S draws D O = .ok M ↔ ∃ msgs, newMultiClassLog exp S draws D O = .ok (M, msgs) := by
  constructor
  · exact ok_of_map_fst (newMultiClassLog_fst exp S draws D O)
  · rintro ⟨msgs, h⟩
    exact map_fst_ok (newMultiClassLog_fst exp S draws D O) h

/-- **C140 (quiet)**: without `Verbose` training prints nothing. -/
theorem C140_quiet (exp : F → F) (S : GoSort) (draws : Nat → F) (D : DataBunch F) (O : Options F) (M : MultiClass F)
    (msgs : List (TrainMsg F)) (h : newMultiClassLog exp S draws D O = .ok (M, msgs)) (hv : O.verbose = false) : msgs = [] := by
  obtain ⟨labels, st, rfl, _, _, ohe, st0, _, _, _, _, _, hr⟩ := newMultiClassLog_inv h
  have hv' : O.fixMcw.verbose = false := by
    unfold Options.fixMcw
    split <;> exact hv
  refine foldlM_inv _ (fun a : TrainState F × List (TrainMsg F) => a.2 = []) _ ?_ _ _ rfl hr
  intro a r a' _ ha hstep
  obtain ⟨idx, cols, d', _, ⟨_, rfl⟩ | ⟨_, b, hb, rfl⟩⟩ := trainRoundLog_inv hstep
  · exact ha
  · refine foldlM_inv _ (fun a : (TrainState F × List (Tree F)) × List (TrainMsg F) => a.2 = []) _ ?_ _ _ ha hb
    intro c k c' _ hc hk
    rcases trainClassLog_inv hk with ⟨_, rfl⟩ | ⟨_, tree, _, s, hms, _⟩
    · exact hc
    · rw [hms, hc]
      unfold classMsgs
      rw [if_neg (by simp [hv'])]
      rfl

/-- **C140 (losses)**: with `Verbose` training prints one loss for every tree of the model, in the order in which the trees are made,
round by round and class by class. The number of the round is that of the loop, in which rounds with too few sampled rows count;
the class is the index of the label in the model. The loss is that of the class with all the trees made up to then, the new one
included. In particular the messages tell to which class each tree of a round belongs, also when classes were stopped early. In any
arithmetic in which `base * 1 = base`. -/
theorem C140_losses (exp : F → F) (S : GoSort) (draws : Nat → F) (D : DataBunch F) (O : Options F) (M : MultiClass F)
    (msgs : List (TrainMsg F)) (h : newMultiClassLog exp S draws D O = .ok (M, msgs)) (hd : D.data.length = D.labels.length)
    (hb : (O.baseScore *. one) = O.baseScore) (hv : O.verbose = true) :
    ∃ T : List (List (Option (Tree F × F))), T.length = (executedRounds D.data O draws O.rounds.toNat).length ∧
      (∀ ens ∈ T, ens.length = M.classLabels.length) ∧ M.b = T.map (List.filterMap (Option.map Prod.fst)) ∧
      lossLines msgs = ((executedRounds D.data O draws O.rounds.toNat).zip T).flatMap (fun e => roundLines e.1 e.2) ∧
      ∀ r k tree l, entryOf T r k = some (tree, l) → ∃ lab lv round p p', M.classLabels[k]? = some lab ∧ O.loss = some lv ∧
        (executedRounds D.data O draws O.rounds.toNat)[r]? = some round ∧
        AlignedProbs exp O.baseScore O.learningRate M.classLabels.length (madeBefore (treesIn T) r k) D.data k p ∧
        FittedTree S draws D O lab lv round p tree ∧
        AlignedProbs exp O.baseScore O.learningRate M.classLabels.length (madeBefore (treesIn T) r (k + 1)) D.data k p' ∧
        lv.fn.loss (indicator D.labels lab) p' = .ok l := by
  obtain ⟨labels, st, rfl, hl, hlab, ohe, st0, hohe, hr0, hc0, hw, hinit, hrounds⟩ := newMultiClassLog_inv h
  obtain ⟨i1, i2, i3, i4, i5, i6, i7⟩ := trainInit_inv hinit hr0 hc0
  obtain ⟨e1, e2, e3, e4, e5, e6, e7, e8, e9, e10⟩ := Options.fixMcw_lr O
  have hv' : O.fixMcw.verbose = true := by
    unfold Options.fixMcw
    split <;> exact hv
  have hn : 0 < D.labels.length := List.length_pos_iff.2 hl
  have hR0 : RawA O.baseScore O.fixMcw.learningRate labels.length D.data [] st0 := by
    intro i row hi j hj
    have hin : i < D.labels.length := by rw [← hd]; exact (List.getElem?_eq_some_iff.1 hi).1
    refine ⟨O.baseScore, ?_, rfl⟩
    rw [i7 i hin, hb, List.getElem?_replicate, if_pos hj]
  obtain ⟨T, a⟩ := VRound.loop (base := O.baseScore) (S := S) hd hn hv' i1 i2 i3 hR0 _ _ hrounds
  have hrounds' := map_fst_ok (foldlM_map_go Prod.fst _ _ (trainRoundLog_fst (softMaxDense exp) S D.data O.fixMcw ohe labels.length) _ (st0, [])) hrounds
  obtain ⟨c1, c2⟩ := trainRounds_count hrounds' i3 i2
  have hex : executedRounds D.data O.fixMcw draws O.rounds.toNat = executedRounds D.data O draws O.rounds.toNat := by
    unfold Options.fixMcw
    split <;> rfl
  have hind : ∀ (k : Nat) y, k < labels.length → denseCol ohe k = .ok y → ∃ lab, labels[k]? = some lab ∧ y = indicator D.labels lab := by
    intro k y hk hy
    refine ⟨_, List.getElem?_eq_getElem hk, ?_⟩
    refine ohe_column hl ?_ (by rw [← hlab]; exact List.getElem?_eq_getElem hk) hy
    unfold DataBunch.oheLabels at hohe
    rw [hohe, hlab]
  refine ⟨T, ?_, a.width, a.boosters, by rw [← hex]; exact a.lines, ?_⟩
  · have := a.boosters
    simp only at this c1
    rw [← hex, ← c1, this, List.length_map]
  · intro r k tree l hp
    have hk : k < labels.length := by
      unfold entryOf at hp
      cases hT : T[r]? with
      | none => rw [hT] at hp; cases hp
      | some ens =>
        rw [hT] at hp
        rw [← a.width ens (List.mem_of_getElem? hT)]
        exact (List.getElem?_eq_some_iff.1 (Option.join_eq_some_iff.1 hp)).1
    obtain ⟨round, f1, ⟨y, p, lv, f2, f3, f4, f5⟩, ⟨y', p', lv', g2, g3, g4, g5⟩⟩ := a.trees r k tree l hp
    obtain ⟨lab, w1, rfl⟩ := hind k y hk f2
    rw [f2] at g2
    cases g2
    rw [f3] at g3
    cases g3
    rw [hex] at f1
    rw [e9] at f3
    rw [e1] at f4 g4
    exact ⟨lab, lv, round, p, p', w1, f3, f1, f4, fittedTree_of f5, g4, g5⟩

/-! ### Who is reported as stopped -/

theorem mem_stopMsg {O : Options F} {round k : Nat} {l : F} {st : TrainState F} {x : TrainMsg F}
    (h : x ∈ stopMsg O round k l st) : x = .stop k round := by
  unfold stopMsg at h
  split at h
  · split at h
    · cases h
    · split at h
      · cases h
      · simp only at h
        split at h <;> (split at h <;> simp_all)
  · cases h

/-- a class is stopped with a message or because its loss is small -/
theorem stopped_iff {O : Options F} {round k : Nat} {l : F} {st : TrainState F} (hk : k < st.stopped.length)
    (hs : st.stopped.getD k false = false) :
    (earlyStopping O round k l st).stopped.getD k false = true ↔
      (O.earlyStop > 0 ∧ (l <=. (earlyEps : F)) = true) ∨ TrainMsg.stop k round ∈ stopMsg O round k l st := by
  unfold earlyStopping stopMsg
  by_cases he : O.earlyStop > 0
  · rw [if_pos he, if_pos he]
    by_cases hl : (l <=. (earlyEps : F)) = true
    · rw [if_pos hl, if_pos hl]
      simp only [getD_set_self hk, true_iff]
      exact Or.inl ⟨he, hl⟩
    · rw [if_neg hl, if_neg hl]
      by_cases hr : round = 0
      · rw [if_pos hr, if_pos hr]
        simp only [hs, List.not_mem_nil, or_false]
        simp [hl]
      · rw [if_neg hr, if_neg hr]
        simp only
        generalize (if (st.prevloss.getD k zero <=. l) = true then st.noProgress.getD k 0 + 1 else 0) = np
        by_cases hnp : np ≥ O.earlyStop
        · rw [if_pos hnp, if_pos hnp, getD_set_self hk]
          simp
        · rw [if_neg hnp, if_neg hnp, hs]
          simp [hl]
  · rw [if_neg he, if_neg he, hs]
    simp [he]

/-- class `k` was stopped in round `r`, with a message or after a loss of at most 1e-6 -/
def StopShown (msgs : List (TrainMsg F)) (k r : Nat) : Prop :=
  TrainMsg.stop k r ∈ msgs ∨ ∃ l, TrainMsg.loss r k l ∈ msgs ∧ (l <=. (earlyEps : F)) = true

theorem StopShown.mono {msgs : List (TrainMsg F)} {k r : Nat} (h : StopShown msgs k r) (b : List (TrainMsg F)) :
    StopShown (msgs ++ b) k r := by
  rcases h with h | ⟨l, h1, h2⟩
  · exact Or.inl (List.mem_append_left _ h)
  · exact Or.inr ⟨l, List.mem_append_left _ h1, h2⟩

/-- class `k` of round `r` comes before class `j` of round `q` -/
def Earlier (q j r k : Nat) : Prop := r < q ∨ (r = q ∧ k < j)

/-- what the messages say when class `j` of round `q` is about to be trained; `E` are the executed rounds -/
structure SInv (O : Options F) (E : Nat → Prop) (m q j : Nat) (st : TrainState F) (msgs : List (TrainMsg F)) : Prop where
  len : st.stopped.length = m
  cause : ∀ k, st.stopped.getD k false = true → ∃ r, Earlier q j r k ∧ StopShown msgs k r
  small : 0 < O.earlyStop → ∀ k r l, TrainMsg.loss r k l ∈ msgs → (l <=. (earlyEps : F)) = true → st.stopped.getD k false = true
  stop : ∀ k r, TrainMsg.stop k r ∈ msgs → st.stopped.getD k false = true ∧ Earlier q j r k ∧
    ∃ l, TrainMsg.loss r k l ∈ msgs
  loss : ∀ k r l, TrainMsg.loss r k l ∈ msgs → Earlier q j r k ∧ E r
  out : ∀ r k, E r → k < m → Earlier q j r k → (∀ l, TrainMsg.loss r k l ∉ msgs) → ∃ r', r' < r ∧ StopShown msgs k r'
  last : ∀ k r r' l, TrainMsg.loss r' k l ∈ msgs → TrainMsg.stop k r ∈ msgs → r' ≤ r
  lastSmall : 0 < O.earlyStop → ∀ k r r' l l', TrainMsg.loss r' k l' ∈ msgs → TrainMsg.loss r k l ∈ msgs →
    (l <=. (earlyEps : F)) = true → r' ≤ r

theorem SInv.step {exp : F → F} {S : GoSort} {data : List (List F)} {O : Options F} {ohe : Dense F}
    {idx : Option (List Nat)} {cols : List Nat} {E : Nat → Prop} {m q j : Nat} (hq : E q) (hj : j < m) (hv : O.verbose = true)
    {acc acc' : (TrainState F × List (Tree F)) × List (TrainMsg F)}
    (h : trainClassLog (softMaxDense exp) S data O ohe idx cols q acc j = .ok acc') (hi : SInv O E m q j acc.1.1 acc.2) :
    SInv O E m q (j + 1) acc'.1.1 acc'.2 := by
  have hE : ∀ {r k}, Earlier q j r k → Earlier q (j + 1) r k := by
    intro r k hh
    rcases hh with hh | ⟨h1, h2⟩
    · exact Or.inl hh
    · exact Or.inr ⟨h1, by omega⟩
  rcases trainClassLog_inv h with ⟨hs, rfl⟩ | ⟨hs, tree, ht, s, hms, _⟩
  · refine ⟨hi.len, ?_, hi.small, ?_, ?_, ?_, hi.last, hi.lastSmall⟩
    · intro k hk
      obtain ⟨r, h1, h2⟩ := hi.cause k hk
      exact ⟨r, hE h1, h2⟩
    · intro k r hk
      obtain ⟨h1, h2, h3⟩ := hi.stop k r hk
      exact ⟨h1, hE h2, h3⟩
    · intro k r l hk
      obtain ⟨h1, h2⟩ := hi.loss k r l hk
      exact ⟨hE h1, h2⟩
    · intro r k hr hk he hno
      by_cases hold : Earlier q j r k
      · exact hi.out r k hr hk hold hno
      · have : r = q ∧ k = j := by
          rcases he with he | ⟨h1, h2⟩
          · exact absurd (Or.inl he) hold
          · exact ⟨h1, by by_contra hc; exact hold (Or.inr ⟨h1, by omega⟩)⟩
        obtain ⟨rfl, rfl⟩ := this
        obtain ⟨r', h1, h2⟩ := hi.cause k hs
        exact ⟨r', by rcases h1 with h1 | ⟨_, h1⟩ <;> omega, h2⟩
  · have hnew : classMsgs O q j s.loss acc.1.1 = TrainMsg.loss q j s.loss :: stopMsg O q j s.loss acc.1.1 := by
      unfold classMsgs
      rw [if_pos hv]
    rw [hnew] at hms
    have hmem : ∀ x, x ∈ acc'.2 ↔ x ∈ acc.2 ∨ x = .loss q j s.loss ∨ x ∈ stopMsg O q j s.loss acc.1.1 := by
      intro x
      rw [hms, List.mem_append, List.mem_cons]
    have hst : acc'.1.1.stopped = (earlyStopping O q j s.loss { acc.1.1 with rawPred := s.raw, probs := s.probs, tmpPreds := s.preds.map fun v => v *. O.learningRate }).stopped :=
      congrArg TrainState.stopped s.hst
    have hjj : acc'.1.1.stopped.getD j false = true ↔
        (O.earlyStop > 0 ∧ (s.loss <=. (earlyEps : F)) = true) ∨ TrainMsg.stop j q ∈ stopMsg O q j s.loss acc.1.1 := by
      rw [hst]
      exact stopped_iff (st := { acc.1.1 with rawPred := s.raw, probs := s.probs, tmpPreds := s.preds.map fun v => v *. O.learningRate })
        (by rw [← hi.len] at hj; exact hj) hs
    have hother : ∀ k, k ≠ j → acc'.1.1.stopped.getD k false = acc.1.1.stopped.getD k false := by
      intro k hk
      rw [hst]
      exact (earlyStopping_other O q j k s.loss _ (Ne.symm hk)).1
    have hlen : acc'.1.1.stopped.length = m := by
      rw [hst, (earlyStopping_raw _ _ _ _ _).2.2.2.2.2.1]
      exact hi.len
    -- no earlier message stops class `j`
    have hnostop : ∀ r, TrainMsg.stop j r ∉ acc.2 := by
      intro r hc
      rw [(hi.stop j r hc).1] at hs
      cases hs
    have hlossmem : ∀ k r l, TrainMsg.loss r k l ∈ acc'.2 ↔ TrainMsg.loss r k l ∈ acc.2 ∨ (r = q ∧ k = j ∧ l = s.loss) := by
      intro k r l
      rw [hmem]
      constructor
      · rintro (h | h | h)
        · exact Or.inl h
        · cases h; exact Or.inr ⟨rfl, rfl, rfl⟩
        · cases mem_stopMsg h
      · rintro (h | ⟨rfl, rfl, rfl⟩)
        · exact Or.inl h
        · exact Or.inr (Or.inl rfl)
    have hstopmem : ∀ k r, TrainMsg.stop k r ∈ acc'.2 ↔ TrainMsg.stop k r ∈ acc.2 ∨
        (r = q ∧ k = j ∧ TrainMsg.stop j q ∈ stopMsg O q j s.loss acc.1.1) := by
      intro k r
      rw [hmem]
      constructor
      · rintro (h | h | h)
        · exact Or.inl h
        · cases h
        · have := mem_stopMsg h
          cases this
          exact Or.inr ⟨rfl, rfl, h⟩
      · rintro (h | ⟨rfl, rfl, h⟩)
        · exact Or.inl h
        · exact Or.inr (Or.inr h)
    have hbefore : ∀ r k l, TrainMsg.loss r k l ∈ acc.2 → r ≤ q := by
      intro r k l hh
      rcases (hi.loss k r l hh).1 with h | ⟨h, _⟩ <;> omega
    refine ⟨hlen, ?_, ?_, ?_, ?_, ?_, ?_, ?_⟩
    · intro k hk
      by_cases hkj : k = j
      · subst hkj
        refine ⟨q, Or.inr ⟨rfl, by omega⟩, ?_⟩
        rcases hjj.1 hk with ⟨_, h2⟩ | h
        · exact Or.inr ⟨s.loss, (hlossmem _ _ _).2 (Or.inr ⟨rfl, rfl, rfl⟩), h2⟩
        · exact Or.inl ((hstopmem _ _).2 (Or.inr ⟨rfl, rfl, h⟩))
      · rw [hother k hkj] at hk
        obtain ⟨r, h1, h2⟩ := hi.cause k hk
        exact ⟨r, hE h1, by rw [hms]; exact h2.mono _⟩
    · intro hes k r l hl hsm
      rcases (hlossmem _ _ _).1 hl with hl | ⟨rfl, rfl, rfl⟩
      · by_cases hkj : k = j
        · subst hkj
          have := hi.small hes k r l hl hsm
          rw [hs] at this
          cases this
        · rw [hother k hkj]
          exact hi.small hes k r l hl hsm
      · exact hjj.2 (Or.inl ⟨hes, hsm⟩)
    · intro k r hk
      rcases (hstopmem _ _).1 hk with hk | ⟨rfl, rfl, hk⟩
      · have hkj : k ≠ j := by rintro rfl; exact hnostop r hk
        obtain ⟨h1, h2, l, h3⟩ := hi.stop k r hk
        exact ⟨by rw [hother k hkj]; exact h1, hE h2, l, (hlossmem _ _ _).2 (Or.inl h3)⟩
      · exact ⟨hjj.2 (Or.inr hk), Or.inr ⟨rfl, by omega⟩, s.loss, (hlossmem _ _ _).2 (Or.inr ⟨rfl, rfl, rfl⟩)⟩
    · intro k r l hk
      rcases (hlossmem _ _ _).1 hk with hk | ⟨rfl, rfl, rfl⟩
      · obtain ⟨h1, h2⟩ := hi.loss k r l hk
        exact ⟨hE h1, h2⟩
      · exact ⟨Or.inr ⟨rfl, by omega⟩, hq⟩
    · intro r k hr hk he hno
      by_cases hold : Earlier q j r k
      · obtain ⟨r', h1, h2⟩ := hi.out r k hr hk hold (fun l hc => hno l ((hlossmem _ _ _).2 (Or.inl hc)))
        exact ⟨r', h1, by rw [hms]; exact h2.mono _⟩
      · have : r = q ∧ k = j := by
          rcases he with he | ⟨h1, h2⟩
          · exact absurd (Or.inl he) hold
          · exact ⟨h1, by by_contra hc; exact hold (Or.inr ⟨h1, by omega⟩)⟩
        obtain ⟨rfl, rfl⟩ := this
        exact absurd ((hlossmem _ _ _).2 (Or.inr ⟨rfl, rfl, rfl⟩)) (hno s.loss)
    · intro k r r' l hl hk
      rcases (hstopmem _ _).1 hk with hk | ⟨rfl, rfl, hk⟩
      · have hkj : k ≠ j := by rintro rfl; exact hnostop r hk
        rcases (hlossmem _ _ _).1 hl with hl | ⟨_, hc, _⟩
        · exact hi.last k r r' l hl hk
        · exact absurd hc hkj
      · rcases (hlossmem _ _ _).1 hl with hl | ⟨rfl, _, _⟩
        · exact hbefore _ _ _ hl
        · exact le_rfl
    · intro hes k r r' l l' hl' hl hsm
      rcases (hlossmem _ _ _).1 hl with hl | ⟨rfl, rfl, rfl⟩
      · have hkj : k ≠ j := by
          rintro rfl
          have := hi.small hes k r l hl hsm
          rw [hs] at this
          cases this
        rcases (hlossmem _ _ _).1 hl' with hl' | ⟨_, hc, _⟩
        · exact hi.lastSmall hes k r r' l l' hl' hl hsm
        · exact absurd hc hkj
      · rcases (hlossmem _ _ _).1 hl' with hl' | ⟨rfl, _, _⟩
        · exact hbefore _ _ _ hl'
        · exact le_rfl

theorem SInv.next {O : Options F} {E : Nat → Prop} {m q j : Nat} {st st' : TrainState F} {msgs : List (TrainMsg F)}
    (hi : SInv O E m q j st msgs) (hj : E q → j = m) (hst : st'.stopped = st.stopped) : SInv O E m (q + 1) 0 st' msgs := by
  have hE : ∀ {r k}, Earlier q j r k → Earlier (q + 1) 0 r k := by
    intro r k hh
    rcases hh with hh | ⟨h1, h2⟩ <;> exact Or.inl (by omega)
  refine ⟨by rw [hst]; exact hi.len, ?_, by rw [hst]; exact hi.small, ?_, ?_, ?_, hi.last, hi.lastSmall⟩
  · intro k hk
    rw [hst] at hk
    obtain ⟨r, h1, h2⟩ := hi.cause k hk
    exact ⟨r, hE h1, h2⟩
  · intro k r hk
    obtain ⟨h1, h2, h3⟩ := hi.stop k r hk
    exact ⟨by rw [hst]; exact h1, hE h2, h3⟩
  · intro k r l hk
    obtain ⟨h1, h2⟩ := hi.loss k r l hk
    exact ⟨hE h1, h2⟩
  · intro r k hr hk he hno
    refine hi.out r k hr hk ?_ hno
    rcases he with he | ⟨_, hc⟩
    · by_cases hrq : r = q
      · subst hrq
        exact Or.inr ⟨rfl, by rw [hj hr]; exact hk⟩
      · exact Or.inl (by omega)
    · omega

theorem SInv.loop {exp : F → F} {S : GoSort} {data : List (List F)} {O : Options F} {ohe : Dense F} {m : Nat}
    {draws : Nat → F} {st0 : TrainState F} (hv : O.verbose = true) (hb : st0.boosters = []) (hdr : st0.draws = draws)
    (hs : st0.stopped = List.replicate m false) (q : Nat) (acc : TrainState F × List (TrainMsg F))
    (h : (List.range q).foldlM (trainRoundLog (softMaxDense exp) S data O ohe m) (st0, []) = .ok acc) :
    SInv O (fun r => O.minSample ≤ (sampleCount data O draws r : Int)) m q 0 acc.1 acc.2 := by
  induction q generalizing acc with
  | zero =>
    simp only [List.range_zero, List.foldlM_nil, pure, Except.pure, Except.ok.injEq] at h
    subst h
    refine ⟨by rw [hs]; simp, ?_, by simp, by simp, by simp, ?_, by simp, by simp⟩
    · intro k hk
      simp only at hk
      rw [hs, List.getD_eq_getElem?_getD, List.getElem?_replicate] at hk
      split at hk <;> cases hk
    · intro r k _ _ he
      rcases he with he | ⟨_, he⟩ <;> omega
  | succ q ih =>
    rw [List.range_succ, List.foldlM_append] at h
    obtain ⟨st1, h1, h2⟩ := bind_ok h
    rw [List.foldlM_cons] at h2
    obtain ⟨st2, h3, h4⟩ := bind_ok h2
    simp only [List.foldlM_nil, pure, Except.pure, Except.ok.injEq] at h4
    subst h4
    have a := ih st1 h1
    have h1' := map_fst_ok (foldlM_map_go Prod.fst _ _ (trainRoundLog_fst (softMaxDense exp) S data O ohe m) _ (st0, [])) h1
    obtain ⟨c1, c2⟩ := trainRounds_count h1' hdr hb
    obtain ⟨idx, cols, d', hs', hcase⟩ := trainRoundLog_inv h3
    obtain ⟨_, q2⟩ := roundSamples_inv hs'
    have hidx : idx = roundIdx data O draws q := by
      rw [q2, c2]
      rfl
    have hcnt : (idx.getD []).length = sampleCount data O draws q := by
      rw [hidx]
      unfold sampleCount roundIdx
      split <;> rfl
    rcases hcase with ⟨hlt, rfl⟩ | ⟨hge, acc, hacc, rfl⟩
    · rw [hcnt] at hlt
      exact a.next (fun hc => by omega) rfl
    · rw [hcnt] at hge
      have key : ∀ p ≤ m, ∀ acc, (List.range p).foldlM (trainClassLog (softMaxDense exp) S data O ohe idx cols q)
          (({ st1.1 with draws := d' }, []), st1.2) = .ok acc →
          SInv O (fun r => O.minSample ≤ (sampleCount data O draws r : Int)) m q p acc.1.1 acc.2 := by
        intro p hp acc hacc
        induction p generalizing acc with
        | zero =>
          simp only [List.range_zero, List.foldlM_nil, pure, Except.pure, Except.ok.injEq] at hacc
          subst hacc
          exact ⟨a.len, a.cause, a.small, a.stop, a.loss, a.out, a.last, a.lastSmall⟩
        | succ p ihp =>
          rw [List.range_succ, List.foldlM_append] at hacc
          obtain ⟨acc1, k1, k2⟩ := bind_ok hacc
          rw [List.foldlM_cons] at k2
          obtain ⟨acc2, k3, k4⟩ := bind_ok k2
          simp only [List.foldlM_nil, pure, Except.pure, Except.ok.injEq] at k4
          subst k4
          exact SInv.step (by show O.minSample ≤ _; omega) (by omega) hv k3 (ihp (by omega) acc1 k1)
      exact (key m le_rfl acc hacc).next (fun _ => rfl) rfl

/-- what the messages of a training run say about stopped classes -/
theorem SInv.of_run {exp : F → F} {S : GoSort} {draws : Nat → F} {D : DataBunch F} {O : Options F} {M : MultiClass F}
    {msgs : List (TrainMsg F)} (h : newMultiClassLog exp S draws D O = .ok (M, msgs)) (hv : O.verbose = true) :
    ∃ st, SInv O (fun r => O.minSample ≤ (sampleCount D.data O draws r : Int)) M.classLabels.length O.rounds.toNat 0 st msgs := by
  obtain ⟨labels, st, rfl, hl, hlab, ohe, st0, hohe, hr0, hc0, hw, hinit, hrounds⟩ := newMultiClassLog_inv h
  obtain ⟨i1, i2, i3, i4, i5, i6, i7⟩ := trainInit_inv hinit hr0 hc0
  obtain ⟨e1, e2, e3, e4, e5, e6, e7, e8, e9, e10⟩ := Options.fixMcw_lr O
  have hv' : O.fixMcw.verbose = true := by
    unfold Options.fixMcw
    split <;> exact hv
  have hsc : (fun r => O.fixMcw.minSample ≤ (sampleCount D.data O.fixMcw draws r : Int)) =
      fun r => O.minSample ≤ (sampleCount D.data O draws r : Int) := by
    unfold Options.fixMcw
    split <;> rfl
  have a := SInv.loop hv' i2 i3 i4 _ _ hrounds
  rw [hsc] at a
  exact ⟨st, ⟨a.len, a.cause, by rw [← e3]; exact a.small, a.stop, a.loss, a.out, a.last, by rw [← e3]; exact a.lastSmall⟩⟩

theorem mem_executed {X : List (List F)} {O : Options F} {draws : Nat → F} {q r : Nat} :
    r ∈ executedRounds X O draws q ↔ r < q ∧ O.minSample ≤ (sampleCount X O draws r : Int) := by
  unfold executedRounds
  simp

/-- **C140 (stopped, partial)**: a class without a loss in an executed round was stopped in an earlier round: either the log says so,
or a loss of at most 1e-6 was printed for it in that round. What is missing is that the log says so in both cases: `C140_violated`. -/
theorem C140_stopped_partial (exp : F → F) (S : GoSort) (draws : Nat → F) (D : DataBunch F) (O : Options F) (M : MultiClass F)
    (msgs : List (TrainMsg F)) (h : newMultiClassLog exp S draws D O = .ok (M, msgs)) (hv : O.verbose = true)
    (round k : Nat) (hr : round ∈ executedRounds D.data O draws O.rounds.toNat) (hk : k < M.classLabels.length)
    (hno : ∀ l, (round, k, l) ∉ lossLines msgs) :
    ∃ r, r < round ∧ ((k, r) ∈ stopLines msgs ∨ ∃ l, (r, k, l) ∈ lossLines msgs ∧ (l <=. (ofRat (1 / 1000000) : F)) = true) := by
  obtain ⟨st, a⟩ := SInv.of_run h hv
  obtain ⟨hr1, hr2⟩ := mem_executed.1 hr
  have hl : ∀ r k l, (r, k, l) ∈ lossLines msgs ↔ TrainMsg.loss r k l ∈ msgs := by
    intro r k l
    unfold lossLines
    rw [List.mem_filterMap]
    constructor
    · rintro ⟨x, h1, h2⟩
      cases x with
      | loss => simp only [Option.some.injEq, Prod.mk.injEq] at h2; obtain ⟨rfl, rfl, rfl⟩ := h2; exact h1
      | stop => cases h2
    · exact fun h => ⟨_, h, rfl⟩
  obtain ⟨r, h1, h2⟩ := a.out round k hr2 hk (Or.inl hr1) (fun l hc => hno l ((hl _ _ _).2 hc))
  refine ⟨r, h1, ?_⟩
  rcases h2 with h2 | ⟨l, h2, h3⟩
  · refine Or.inl ?_
    unfold stopLines
    exact List.mem_filterMap.2 ⟨_, h2, rfl⟩
  · exact Or.inr ⟨l, (hl _ _ _).2 h2, h3⟩

/-- **C140 (announced)**: what the log says about stopping is right: the class had a loss in that round, and has none in a later
round. With early stopping the same holds after a loss of at most 1e-6. -/
theorem C140_announced (exp : F → F) (S : GoSort) (draws : Nat → F) (D : DataBunch F) (O : Options F) (M : MultiClass F)
    (msgs : List (TrainMsg F)) (h : newMultiClassLog exp S draws D O = .ok (M, msgs)) (hv : O.verbose = true) (k r : Nat) :
    ((k, r) ∈ stopLines msgs → (∃ l, (r, k, l) ∈ lossLines msgs) ∧ ∀ r' l, (r', k, l) ∈ lossLines msgs → r' ≤ r) ∧
    (0 < O.earlyStop → ∀ l, (r, k, l) ∈ lossLines msgs → (l <=. (ofRat (1 / 1000000) : F)) = true →
      ∀ r' l', (r', k, l') ∈ lossLines msgs → r' ≤ r) := by
  obtain ⟨st, a⟩ := SInv.of_run h hv
  have hl : ∀ r k l, (r, k, l) ∈ lossLines msgs ↔ TrainMsg.loss r k l ∈ msgs := by
    intro r k l
    unfold lossLines
    rw [List.mem_filterMap]
    constructor
    · rintro ⟨x, h1, h2⟩
      cases x with
      | loss => simp only [Option.some.injEq, Prod.mk.injEq] at h2; obtain ⟨rfl, rfl, rfl⟩ := h2; exact h1
      | stop => cases h2
    · exact fun h => ⟨_, h, rfl⟩
  refine ⟨fun hs => ?_, fun he l h1 h2 r' l' h3 => ?_⟩
  · have hs' : TrainMsg.stop k r ∈ msgs := by
      unfold stopLines at hs
      obtain ⟨x, h1, h2⟩ := List.mem_filterMap.1 hs
      cases x with
      | loss => cases h2
      | stop => simp only [Option.some.injEq, Prod.mk.injEq] at h2; obtain ⟨rfl, rfl⟩ := h2; exact h1
    obtain ⟨_, _, l, h3⟩ := a.stop k r hs'
    exact ⟨⟨l, (hl _ _ _).2 h3⟩, fun r' l h4 => a.last k r r' l ((hl _ _ _).1 h4) hs'⟩
  · exact a.lastSmall he k r r' l l' ((hl _ _ _).1 h3) ((hl _ _ _).1 h1) h2

/-! ### The text -/

theorem linesIn_blocks (ls : List (List Char)) (h : ∀ l ∈ ls, '\n' ∉ l) :
    linesIn (ls.flatMap fun l => l ++ ['\n']) = ls ++ [[]] := by
  induction ls with
  | nil => rfl
  | cons a ls ih =>
    have := ih fun l hl => h l (List.mem_cons_of_mem _ hl)
    unfold linesIn at this ⊢
    rw [List.flatMap_cons, List.append_assoc, List.singleton_append, splitBy_append _ _ _ _ (by decide), this,
      splitBy_none _ a]
    · rfl
    · intro c hc
      simp only [beq_eq_false_iff_ne, ne_eq]
      rintro rfl
      exact h a (by simp) hc

/-- the line of a loss, without the end of line -/
def lossText (fmt3 : F → List Char) (x : Nat × Nat × F) : List Char :=
  "round: ".toList ++ fmtNat x.1 ++ ", class: ".toList ++ fmtNat x.2.1 ++ " train loss = ".toList ++ fmt3 x.2.2

theorem trainOutput_eq (fmt3 : F → List Char) (msgs : List (TrainMsg F)) :
    trainOutput fmt3 msgs = ((lossLines msgs).map (lossText fmt3)).flatMap fun l => l ++ ['\n'] := by
  induction msgs with
  | nil => rfl
  | cons a msgs ih =>
    unfold trainOutput at ih ⊢
    rw [List.flatMap_cons, ih]
    cases a <;> rfl

theorem lossText_fields (a b c : List Char) (ha : IsField a) (hb : IsField b) (hc : IsField c) :
    strFields ("round: ".toList ++ a ++ ", class: ".toList ++ b ++ " train loss = ".toList ++ c) =
      ["round:".toList, a ++ [','], "class:".toList, b, "train".toList, "loss".toList, "=".toList, c] := by
  have ha' : IsField (a ++ [',']) := by
    refine ⟨by simp, fun x hx => ?_⟩
    rcases List.mem_append.1 hx with hx | hx
    · exact ha.2 x hx
    · rw [List.mem_singleton.1 hx]; decide
  have e : "round: ".toList ++ a ++ ", class: ".toList ++ b ++ " train loss = ".toList ++ c =
      strJoin ["round:".toList, a ++ [','], "class:".toList, b, "train".toList, "loss".toList, "=".toList, c] [' '] := by
    simp [strJoin, List.intercalate, List.intersperse]
  rw [e, strFields_join]
  simp only [List.flatMap_cons, List.flatMap_nil, strFields_word _ ha'.1 ha'.2, strFields_word b hb.1 hb.2,
    strFields_word c hc.1 hc.2]
  rfl

/-- **C140 (text)**: the standard output has one line for each loss, in the same order, from which the round, the class and the loss
(with three decimals) can be read; the text ends with the end of the last line. `fmt3` is `%.3f`, of which only this is used: it gives
a text without white space. -/
theorem C140_text (fmt3 : F → List Char) (hf : ∀ x, IsField (fmt3 x)) (msgs : List (TrainMsg F)) :
    ∃ lines, linesIn (trainOutput fmt3 msgs) = lines ++ [[]] ∧
      lines.map strFields = (lossLines msgs).map fun x =>
        ["round:".toList, fmtNat x.1 ++ [','], "class:".toList, fmtNat x.2.1, "train".toList, "loss".toList, "=".toList, fmt3 x.2.2] := by
  refine ⟨(lossLines msgs).map (lossText fmt3), ?_, ?_⟩
  · rw [trainOutput_eq, linesIn_blocks]
    intro l hl
    obtain ⟨x, _, rfl⟩ := List.mem_map.1 hl
    unfold lossText
    have h1 := (isField_fmtNat x.1).noNewline
    have h2 := (isField_fmtNat x.2.1).noNewline
    have h3 := (hf x.2.2).noNewline
    simp only [List.mem_append, not_or]
    exact ⟨⟨⟨⟨⟨by decide, h1⟩, by decide⟩, h2⟩, by decide⟩, h3⟩
  · rw [List.map_map]
    apply List.map_congr_left
    intro x _
    exact lossText_fields _ _ _ (isField_fmtNat _) (isField_fmtNat _) (hf _)

/-- the line about a stopped class, without the end of line -/
def stopText (x : Nat × Nat) : List Char := "Class ".toList ++ fmtNat x.1 ++ " stopped early at round ".toList ++ fmtNat x.2

/-- **C140 (log)**: the log has one line for each class reported as stopped, with the class and the round. -/
theorem C140_log (msgs : List (TrainMsg F)) :
    ∃ lines, linesIn (trainLogged msgs) = lines ++ [[]] ∧
      lines.map strFields = (stopLines msgs).map fun x =>
        ["Class".toList, fmtNat x.1, "stopped".toList, "early".toList, "at".toList, "round".toList, fmtNat x.2] := by
  refine ⟨(stopLines msgs).map stopText, ?_, ?_⟩
  · have : trainLogged msgs = ((stopLines msgs).map stopText).flatMap fun l => l ++ ['\n'] := by
      induction msgs with
      | nil => rfl
      | cons a msgs ih =>
        unfold trainLogged at ih ⊢
        rw [List.flatMap_cons, ih]
        cases a <;> rfl
    rw [this, linesIn_blocks]
    intro l hl
    obtain ⟨x, _, rfl⟩ := List.mem_map.1 hl
    unfold stopText
    have h1 := (isField_fmtNat x.1).noNewline
    have h2 := (isField_fmtNat x.2).noNewline
    simp only [List.mem_append, not_or]
    exact ⟨⟨⟨by decide, h1⟩, by decide⟩, h2⟩
  · rw [List.map_map]
    apply List.map_congr_left
    intro x _
    have e : stopText x = strJoin ["Class".toList, fmtNat x.1, "stopped".toList, "early".toList, "at".toList, "round".toList, fmtNat x.2] [' '] := by
      unfold stopText
      simp [strJoin, List.intercalate, List.intersperse]
    have h1 := isField_fmtNat x.1
    have h2 := isField_fmtNat x.2
    simp only [Function.comp]
    rw [e, strFields_join]
    simp only [List.flatMap_cons, List.flatMap_nil, strFields_word _ h1.1 h1.2, strFields_word _ h2.1 h2.2]
    rfl

/-! ### The last line -/

theorem filterMap_full {α β : Type} (f : α → β) (l : List (Option α)) (h : (l.filterMap (Option.map f)).length = l.length) :
    l.map (Option.map f) = (l.filterMap (Option.map f)).map some ∧ ∀ x ∈ l, x ≠ none := by
  induction l with
  | nil => simp
  | cons a l ih =>
    cases a with
    | none =>
      rw [List.filterMap_cons_none rfl] at h
      have := List.length_filterMap_le (Option.map f) l
      simp at h
      omega
    | some a =>
      rw [List.filterMap_cons_some (f := Option.map f) (b := f a) rfl] at h ⊢
      simp only [List.length_cons, Nat.add_right_cancel_iff] at h
      obtain ⟨i1, i2⟩ := ih h
      refine ⟨by simp [i1], ?_⟩
      intro x hx
      rcases List.mem_cons.1 hx with rfl | hx
      · simp
      · exact i2 x hx

/-- **C140 (last line)**: the last line printed is about the model that is returned: it has the loss between the last label and the
probabilities the model predicts for it on the training data (in a model in which every round has a tree for every class). -/
theorem C140_last (exp : F → F) (S : GoSort) (draws : Nat → F) (D : DataBunch F) (O : Options F) (M : MultiClass F)
    (msgs : List (TrainMsg F)) (h : newMultiClassLog exp S draws D O = .ok (M, msgs)) (hd : D.data.length = D.labels.length)
    (hb : (O.baseScore *. one) = O.baseScore) (hv : O.verbose = true)
    (hfull : ∀ ens ∈ M.b, ens.length = M.classLabels.length) (hne : M.b ≠ []) :
    ∃ round l lab lv p, (lossLines msgs).getLast? = some (round, M.classLabels.length - 1, l) ∧
      M.classLabels.getLast? = some lab ∧ O.loss = some lv ∧ p.length = D.data.length ∧
      (∀ (i : Nat) row, D.data[i]? = some row → ∃ out v, M.predictSingle row = .ok out ∧ out.length = M.classLabels.length ∧
        out.getLast? = some v ∧ p[i]? = some v) ∧
      lv.fn.loss (indicator D.labels lab) p = .ok l := by
  obtain ⟨T, t1, t2, t3, t4, t5⟩ := C140_losses exp S draws D O M msgs h hd hb hv
  have hM := (C140_model exp S draws D O M).2 ⟨msgs, h⟩
  have hfT : ∀ ens ∈ T, (ens.filterMap (Option.map Prod.fst)).length = ens.length := by
    intro ens hens
    rw [t2 ens hens]
    apply hfull
    rw [t3]
    exact List.mem_map_of_mem hens
  have htin : treesIn T = M.b.map fun ens => ens.map some := by
    unfold treesIn
    rw [t3, List.map_map]
    apply List.map_congr_left
    intro ens hens
    exact (filterMap_full _ ens (hfT ens hens)).1
  obtain ⟨A, L, a1, a2⟩ := C134_model exp S draws D O M hM hd hb
  have hAM : A = M.b.map fun ens => ens.map some := by
    rw [a2, List.map_map]
    symm
    rw [List.map_congr_left (g := id), List.map_id]
    intro ens hens
    have hl : (ens.filterMap (Option.map id)).length = ens.length := by
      rw [Option.map_id, a1.width ens hens]
      apply hfull
      rw [a2]
      exact List.mem_map_of_mem hens
    have := (filterMap_full id ens hl).1
    rw [Option.map_id, List.map_id] at this
    exact this.symm
  have hm : 0 < M.classLabels.length := by
    obtain ⟨labels, st, ht, rfl⟩ := newMultiClass_inv hM
    obtain ⟨hl, hlab, _⟩ := train_inv ht
    obtain ⟨y, l, hy⟩ := List.exists_cons_of_ne_nil hl
    show 0 < labels.length
    rw [hlab]
    exact List.length_pos_of_mem (((C39_distinct D.labels).2.1 y).2 (by rw [hy]; simp))
  -- the last round and its last class
  have hTne : T ≠ [] := by
    rintro rfl
    exact hne t3
  obtain ⟨T', ens, rfl⟩ : ∃ T' ens, T = T' ++ [ens] := ⟨T.dropLast, T.getLast hTne, (List.dropLast_append_getLast hTne).symm⟩
  have hensl : ens.length = M.classLabels.length := t2 ens (by simp)
  have hensne : ens ≠ [] := by
    rintro rfl
    simp at hensl
    omega
  obtain ⟨ens', x, rfl⟩ : ∃ ens' x, ens = ens' ++ [x] := ⟨ens.dropLast, ens.getLast hensne, (List.dropLast_append_getLast hensne).symm⟩
  have hx : x ≠ none := (filterMap_full Prod.fst _ (hfT (ens' ++ [x]) (by simp))).2 x (by simp)
  obtain ⟨⟨tree, l⟩, rfl⟩ := Option.ne_none_iff_exists'.1 hx
  have hk : ens'.length = M.classLabels.length - 1 := by
    simp at hensl
    omega
  have hentry : entryOf (T' ++ [ens' ++ [some (tree, l)]]) T'.length (M.classLabels.length - 1) = some (tree, l) := by
    unfold entryOf
    rw [List.getElem?_append_right le_rfl]
    simp only [Nat.sub_self, List.getElem?_cons_zero, Option.bind_some]
    rw [← hk, List.getElem?_append_right le_rfl]
    simp
  obtain ⟨lab, lv, round, p0, p, g1, g2, g3, _, _, g6, g7⟩ := t5 _ _ tree l hentry
  have hex : ∃ ex, executedRounds D.data O draws O.rounds.toNat = ex ++ [round] ∧ ex.length = T'.length := by
    have hl := t1
    rw [List.length_append] at hl
    generalize executedRounds D.data O draws O.rounds.toNat = E at g3 hl
    have hE : E ≠ [] := by rintro rfl; simp at hl
    refine ⟨E.dropLast, ?_, by simp at hl ⊢; omega⟩
    have hlast : E.getLast hE = round := by
      have := List.getElem?_eq_some_iff.1 g3
      obtain ⟨w1, w2⟩ := this
      rw [List.getLast_eq_getElem, ← w2]
      congr 1
      simp at hl
      omega
    rw [← hlast, List.dropLast_append_getLast hE]
  obtain ⟨ex, hex, hexl⟩ := hex
  have hmade : madeBefore (treesIn (T' ++ [ens' ++ [some (tree, l)]])) T'.length (M.classLabels.length - 1 + 1) = A := by
    rw [hAM, ← htin, treesIn_append, ← treesIn_length T', madeBefore_append_last, List.take_of_length_le (by simp; omega)]
  rw [hmade] at g6
  refine ⟨round, l, lab, lv, p, ?_, ?_, g2, g6.1, ?_, g7⟩
  · rw [t4, hex, List.zip_append hexl, List.flatMap_append]
    simp only [List.zip_cons_cons, List.zip_nil_right, List.flatMap_cons, List.flatMap_nil, List.append_nil]
    rw [roundLines_append, ← hk]
    simp
  · rw [List.getLast?_eq_getElem?]
    exact g1
  · intro i row hrow
    obtain ⟨s, probs, s1, s2, v, s3, s4⟩ := g6.2 i row hrow
    have hg : GapsLast A := by
      intro ens hens j k _ hj
      rw [hAM] at hens
      obtain ⟨e, _, rfl⟩ := List.mem_map.1 hens
      have := List.mem_of_getElem? hj
      simp at this
    have hAne : A ≠ [] := by
      rw [hAM]
      simpa using hne
    obtain ⟨_, hp⟩ := C134_predicts exp S draws D O M hM A L a1 a2 hAne hg row s s1
    have hsl : s.length = M.classLabels.length := by
      unfold alignedScores at s1
      rw [mapM_ok] at s1
      rw [← s1.length_eq, List.length_range]
    have hpl : probs.length = M.classLabels.length := by
      rw [← hsl]
      obtain ⟨_, q, w1, w2⟩ := C24_buffer exp s s rfl
      rw [s2] at w1
      cases w1
      exact w2
    refine ⟨probs, v, by rw [hp, s2], hpl, ?_, s4⟩
    rw [List.getLast?_eq_getElem?, hpl]
    exact s3

/-! ### The hypotheses are met, and what is not announced -/

/-- training with messages in binary64, with 1 in place of the exponential -/
def spoken (D : DataBunch F64) (O : Options F64) : Go (MultiClass F64 × List (TrainMsg F64)) :=
  newMultiClassLog (fun _ => one) GoSort.ins (fun _ => .fin 0) D { O with verbose := true }

/-- training with `Verbose` returns, and every tree has its line; `C140_losses`, `C140_last` -/
example : (spoken mixData plainOptions).map (fun x => (x.1.b.map List.length, (lossLines x.2).map fun y => (y.1, y.2.1), stopLines x.2)) =
    .ok ([3, 3], [(0, 0), (0, 1), (0, 2), (1, 0), (1, 1), (1, 2)], []) := by decide +kernel

/-- classes without progress: the log names them, and they have no line in the later rounds; `C140_stopped_partial`, `C140_announced` -/
example : (spoken mixData { mixOptions with rounds := 4 }).map
    (fun x => (x.1.b.map List.length, (lossLines x.2).map fun y => (y.1, y.2.1), stopLines x.2)) =
    .ok ([3, 3, 0, 0], [(0, 0), (0, 1), (0, 2), (1, 0), (1, 1), (1, 2)], [(0, 1), (1, 1), (2, 1)]) := by decide +kernel

/-- the first round is skipped for want of rows, and the lines begin with round 1 -/
example : (newMultiClassLog (fun _ => one) GoSort.ins (fun i => if i < 4 then .fin 1 else .fin 0) mixData
    { plainOptions with verbose := true }).map (fun x => (x.1.b.map List.length, (lossLines x.2).map fun y => (y.1, y.2.1))) =
    .ok ([3], [(1, 0), (1, 1), (1, 2)]) := by decide +kernel

/-- four rows of one label -/
def oneLabelData : DataBunch F64 := { mixData with labels := [3, 3, 3, 3] }

/-- **C140 (violated)**: a class that is stopped because its loss is at most 1e-6 is not reported: with one label the class has no
line (and the model no tree) in the executed rounds 1 and 2, and the log is empty. -/
theorem C140_violated : ∃ M msgs, spoken oneLabelData { mixOptions with rounds := 3 } = .ok (M, msgs) ∧ M.classLabels = [3] ∧
    executedRounds oneLabelData.data { mixOptions with rounds := 3, verbose := true } (fun _ => .fin 0) 3 = [0, 1, 2] ∧
    M.b.map List.length = [1, 0, 0] ∧ lossLines msgs = [(0, 0, .fin 0)] ∧ trainLogged msgs = [] := by
  have k1 : (spoken oneLabelData { mixOptions with rounds := 3 }).map (fun x => (x.1.classLabels, x.1.b.map List.length)) =
      .ok ([3], [1, 0, 0]) := by decide +kernel
  have k2 : (spoken oneLabelData { mixOptions with rounds := 3 }).map (fun x => lossLines x.2) = .ok [(0, 0, .fin 0)] := by
    decide +kernel
  have k3 : (spoken oneLabelData { mixOptions with rounds := 3 }).map (fun x => trainLogged x.2) = .ok [] := by decide +kernel
  cases h : spoken oneLabelData { mixOptions with rounds := 3 } with
  | error e => rw [h] at k1; cases k1
  | ok x =>
    rw [h] at k1 k2 k3
    have h1 := Except.ok.inj k1
    simp only [Prod.mk.injEq] at h1
    exact ⟨x.1, x.2, rfl, h1.1, by decide +kernel, h1.2, Except.ok.inj k2, Except.ok.inj k3⟩

end Boo
