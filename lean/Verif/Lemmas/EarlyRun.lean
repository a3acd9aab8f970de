import Verif.Spec.EarlyRun

/-!
# Training with early stopping, class by class and round by round
-/

namespace Boo
open GoFloat
set_option linter.unusedSectionVars false
variable {F : Type} [GoFloat F]

/-! ### The bookkeeping of one class -/

theorem NoProgress.mono {n n' : Nat} {H : List F} (h : NoProgress n H) (hn : n' ≤ n) : NoProgress n' H :=
  fun i hi => h i (by omega)

theorem NoProgress.tail {n : Nat} {H : List F} {l : F} (h : NoProgress (n + 1) (l :: H)) : NoProgress n H := by
  intro i hi
  obtain ⟨a, b, h1, h2, h3⟩ := h (i + 1) (by omega)
  exact ⟨a, b, by simpa using h1, by simpa using h2, h3⟩

/-- the variables of class `k` are as its losses `h` (newest first) say; `tail` is the loss before the first executed round -/
structure HInv (e : Int) (m : Nat) (tail : List F) (st : TrainState F) (h : List F) (k : Nat) : Prop where
  sl : st.stopped.length = m
  nl : st.noProgress.length = m
  pl : st.prevloss.length = m
  stop : st.stopped.getD k false = true → h ≠ [] ∧ StopReason e (h ++ tail)
  np0 : st.stopped.getD k false = false → 0 ≤ st.noProgress.getD k 0 ∧ st.noProgress.getD k 0 < e
  np : st.stopped.getD k false = false → NoProgress (st.noProgress.getD k 0).toNat (h ++ tail) ∧
    ¬ NoProgress ((st.noProgress.getD k 0).toNat + 1) (h ++ tail)
  eps : st.stopped.getD k false = false → ∀ l, h[0]? = some l → (l <=. (earlyEps : F)) = false
  prev : st.stopped.getD k false = false → h ++ tail ≠ [] → (h ++ tail)[0]? = some (st.prevloss.getD k zero)
  cont : ∀ h1 l h2, h = h1 ++ l :: h2 → h1 ≠ [] → ¬ StopReason e (l :: h2 ++ tail)

theorem HInv.noReason {e : Int} {m : Nat} {tail : List F} {st : TrainState F} {h : List F} {k : Nat}
    (hi : HInv e m tail st h k) (hs : st.stopped.getD k false = false) (hne : h ≠ []) : ¬ StopReason e (h ++ tail) := by
  rintro (⟨l, h1, h2⟩ | h1)
  · cases h with
    | nil => exact hne rfl
    | cons a h =>
      simp only [List.cons_append, List.getElem?_cons_zero, Option.some.injEq] at h1
      subst h1
      have := hi.eps hs a rfl
      unfold earlyEps at this
      rw [this] at h2
      cases h2
  · obtain ⟨a, b⟩ := hi.np0 hs
    exact (hi.np hs).2 (h1.mono (by omega))

/-- the bookkeeping after another loss -/
theorem HInv.push {O : Options F} {m round : Nat} {tail : List F} {st : TrainState F} {h : List F} {k : Nat} (l : F)
    (hi : HInv O.earlyStop m tail st h k) (hk : k < m) (he : O.earlyStop > 0) (hs : st.stopped.getD k false = false)
    (h0 : round = 0 → h ++ tail = []) (h1 : round ≠ 0 → h ++ tail ≠ []) :
    HInv O.earlyStop m tail (earlyStopping O round k l st) (l :: h) k := by
  obtain ⟨_, _, _, _, _, l1, l2, l3⟩ := earlyStopping_raw O round k l st
  have hnl : k < st.noProgress.length := by rw [hi.nl]; exact hk
  have hsl : k < st.stopped.length := by rw [hi.sl]; exact hk
  have hpl : k < st.prevloss.length := by rw [hi.pl]; exact hk
  obtain ⟨n0, n1⟩ := hi.np0 hs
  obtain ⟨p0, p1⟩ := hi.np hs
  refine ⟨by rw [l1, hi.sl], by rw [l2, hi.nl], by rw [l3, hi.pl], ?_, ?_, ?_, ?_, ?_, ?_⟩
  case refine_6 =>
    rintro a x b hab hne
    cases a with
    | nil => exact absurd rfl hne
    | cons y a =>
      simp only [List.cons_append, List.cons.injEq] at hab
      obtain ⟨rfl, hab⟩ := hab
      cases a with
      | nil =>
        simp only [List.nil_append] at hab
        rw [← hab]
        exact hi.noReason hs (by rw [hab]; simp)
      | cons z a => exact hi.cont _ x b hab (by simp)
  all_goals unfold earlyStopping
  all_goals rw [if_pos he]
  all_goals by_cases hle : (l <=. (earlyEps : F)) = true
  all_goals first | rw [if_pos hle] | rw [if_neg hle]
  all_goals try simp only
  -- stop
  · exact fun _ => ⟨by simp, Or.inl ⟨l, rfl, hle⟩⟩
  · by_cases hr : round = 0
    · rw [if_pos hr]
      simp only
      intro hst
      rw [hs] at hst
      cases hst
    · rw [if_neg hr]
      simp only
      intro hst
      refine ⟨by simp, Or.inr ?_⟩
      by_cases hp : (st.prevloss.getD k zero <=. l) = true
      · rw [if_pos hp] at hst
        by_cases hge : st.noProgress.getD k 0 + 1 ≥ O.earlyStop
        · exact (p0.push (hi.prev hs (h1 hr)) hp).mono (by omega)
        · rw [if_neg hge, hs] at hst; cases hst
      · rw [if_neg hp, if_neg (by omega), hs] at hst
        cases hst
  -- np0
  · rw [getD_set_self hsl]; intro hh; cases hh
  · by_cases hr : round = 0
    · rw [if_pos hr]; exact fun _ => ⟨n0, n1⟩
    · rw [if_neg hr]
      simp only
      rw [getD_set_self hnl]
      by_cases hp : (st.prevloss.getD k zero <=. l) = true
      · rw [if_pos hp]
        by_cases hge : st.noProgress.getD k 0 + 1 ≥ O.earlyStop
        · rw [if_pos hge, getD_set_self hsl]; intro hh; cases hh
        · exact fun _ => by omega
      · rw [if_neg hp]; exact fun _ => by omega
  -- np
  · rw [getD_set_self hsl]; intro hh; cases hh
  · by_cases hr : round = 0
    · rw [if_pos hr]
      simp only
      intro _
      have hn : (st.noProgress.getD k 0).toNat = 0 := by
        by_contra hc
        obtain ⟨a, b, x1, x2, _⟩ := p0 0 (by omega)
        rw [h0 hr] at x1
        simp at x1
      rw [hn]
      refine ⟨fun i hi => by omega, fun hc => ?_⟩
      obtain ⟨a, b, x1, x2, _⟩ := hc 0 (by omega)
      rw [List.cons_append, h0 hr] at x2
      simp at x2
    · rw [if_neg hr]
      simp only
      rw [getD_set_self hnl]
      intro _
      have hpv := hi.prev hs (h1 hr)
      by_cases hp : (st.prevloss.getD k zero <=. l) = true
      · rw [if_pos hp]
        rw [show (st.noProgress.getD k 0 + 1).toNat = (st.noProgress.getD k 0).toNat + 1 by omega]
        exact ⟨p0.push hpv hp, fun hc => p1 (NoProgress.tail hc)⟩
      · rw [if_neg hp]
        refine ⟨fun i hi => by simp at hi, fun hc => ?_⟩
        obtain ⟨a, b, x1, x2, x3⟩ := hc 0 (by simp)
        simp only [List.cons_append, List.getElem?_cons_zero, Option.some.injEq, Nat.zero_add, List.getElem?_cons_succ] at x1 x2
        rw [hpv] at x2
        cases x1; cases x2
        exact hp x3
  -- eps
  · rw [getD_set_self hsl]; intro hh; cases hh
  · intro _ x hx
    cases hx
    simpa using hle
  -- prev
  · rw [getD_set_self hsl]; intro hh; cases hh
  · intro _ _
    by_cases hr : round = 0
    · rw [if_pos hr]; simp only; rw [getD_set_self hpl]; rfl
    · rw [if_neg hr]; simp only; rw [getD_set_self hpl]; rfl

/-- the bookkeeping of another class -/
theorem HInv.other {O : Options F} {m round : Nat} {tail : List F} {st : TrainState F} {h : List F} {k j : Nat} (l : F)
    (hi : HInv O.earlyStop m tail st h j) (hj : k ≠ j) : HInv O.earlyStop m tail (earlyStopping O round k l st) h j := by
  obtain ⟨_, _, _, _, _, l1, l2, l3⟩ := earlyStopping_raw O round k l st
  obtain ⟨o1, o2, o3⟩ := earlyStopping_other O round k j l st hj
  refine ⟨by rw [l1, hi.sl], by rw [l2, hi.nl], by rw [l3, hi.pl], ?_, ?_, ?_, ?_, ?_, hi.cont⟩
  · rw [o1]; exact hi.stop
  · rw [o1, o2]; exact hi.np0
  · rw [o1, o2]; exact hi.np
  · rw [o1]; exact hi.eps
  · rw [o1, o3]; exact hi.prev

theorem HInv.congr {e : Int} {m : Nat} {tail : List F} {st st' : TrainState F} {h : List F} {k : Nat}
    (hi : HInv e m tail st h k) (h1 : st'.stopped = st.stopped) (h2 : st'.noProgress = st.noProgress)
    (h3 : st'.prevloss = st.prevloss) : HInv e m tail st' h k := by
  refine ⟨by rw [h1, hi.sl], by rw [h2, hi.nl], by rw [h3, hi.pl], ?_, ?_, ?_, ?_, ?_, hi.cont⟩
  · rw [h1]; exact hi.stop
  · rw [h1, h2]; exact hi.np0
  · rw [h1, h2]; exact hi.np
  · rw [h1]; exact hi.eps
  · rw [h1, h3]; exact hi.prev

/-! ### Scores -/

theorem alignedTrees_append (A B : List (List (Option (Tree F)))) (j : Nat) :
    alignedTrees (A ++ B) j = alignedTrees A j ++ alignedTrees B j := by
  unfold alignedTrees
  rw [List.filterMap_append]

theorem alignedTrees_single (c : List (Option (Tree F))) (j : Nat) : alignedTrees [c] j = c[j]?.join.toList := by
  unfold alignedTrees
  cases hq : c[j]?.join <;> simp [hq]

/-- the raw predictions of the training are the scores of the trees in their places -/
def RawA (base lr : F) (m : Nat) (data : List (List F)) (B : List (List (Option (Tree F)))) (st : TrainState F) : Prop :=
  ∀ (i : Nat) row, data[i]? = some row → ∀ j < m, ∃ v, (st.rawPred.row i)[j]? = some v ∧
    scoreAfter base lr (alignedTrees B j) row = .ok v

theorem RawA.congr {base lr : F} {m : Nat} {data : List (List F)} {B B' : List (List (Option (Tree F)))} {st : TrainState F}
    (h : RawA base lr m data B st) (he : ∀ j < m, alignedTrees B' j = alignedTrees B j) : RawA base lr m data B' st := by
  intro i row hrow j hj
  rw [he j hj]
  exact h i row hrow j hj

theorem RawA.scores {exp : F → F} {base lr : F} {n m : Nat} {data : List (List F)} {B : List (List (Option (Tree F)))} {st : TrainState F}
    (h : RawA base lr m data B st) (hi : TInv exp n m st) (hd : data.length = n) {i : Nat} {row : List F} (hrow : data[i]? = some row) :
    alignedScores base lr m B row = .ok (st.rawPred.row i) := by
  have hin : i < n := by rw [← hd]; exact (List.getElem?_eq_some_iff.1 hrow).1
  exact mapM_range_ok (by rw [Dense.row_length hi.rawWF (by rw [hi.rawR]; exact hin), hi.rawC]) fun j hj => h i row hrow j hj

theorem RawA.probs {exp : F → F} {base lr : F} {n m : Nat} {data : List (List F)} {B : List (List (Option (Tree F)))} {st : TrainState F}
    (h : RawA base lr m data B st) (hi : TInv exp n m st) (hd : data.length = n) (hn : 0 < n) {k : Nat} (hk : k < m) {p : List F}
    (hp : denseCol st.probs k = .ok p) : AlignedProbs exp base lr m B data k p := by
  obtain ⟨p', hp', hpl, hpv⟩ := denseCol_spec hi.probsWF (by rw [hi.probsR]; exact hn) (col := k) (by rw [hi.probsC]; exact hk)
  rw [hp'] at hp
  cases hp
  refine ⟨by rw [hpl, hi.probsR, hd], fun i row hrow => ?_⟩
  have hin : i < n := by rw [← hd]; exact (List.getElem?_eq_some_iff.1 hrow).1
  obtain ⟨v, hv⟩ := Dense.at?_some hi.probsWF (i := i) (j := k) (by rw [hi.probsR]; exact hin) (by rw [hi.probsC]; exact hk)
  refine ⟨_, _, h.scores hi hd hrow, hi.soft i hin, v, ?_, ?_⟩
  · rw [Dense.row_get (by rw [hi.probsR]; exact hin) (by rw [hi.probsC]; exact hk), hv]
  · rw [hpv i (by rw [hi.probsR]; exact hin), hv]

theorem scoreAfter_snoc {base lr : F} {ts : List (Tree F)} {t : Tree F} {x : List F} {s v : F}
    (h : scoreAfter base lr ts x = .ok s) (hv : t.predictSingle x = .ok v) : scoreAfter base lr (ts ++ [t]) x = .ok (s +. (v *. lr)) := by
  rw [scoreAfter_append _ _ _ _ _ _ h]
  unfold scoreAfter
  simp [List.foldlM_cons, hv, bind, Except.bind, pure, Except.pure]

/-! ### One round -/

/-- how a tree is made when the trees `B` exist -/
def TreeFactA (exp : F → F) (S : GoSort) (data : List (List F)) (O : Options F) (ohe : Dense F) (base : F) (m : Nat)
    (idx : Option (List Nat)) (cols : List Nat) (B : List (List (Option (Tree F)))) (k : Nat) (tree : Tree F) : Prop :=
  ∃ y p lv, denseCol ohe k = .ok y ∧ O.loss = some lv ∧ AlignedProbs exp base O.learningRate m B data k p ∧
    classTree S data O lv.fn idx cols y p = .ok tree

/-- the loss of class `k` when the trees `B` exist -/
def LossFactA (exp : F → F) (data : List (List F)) (O : Options F) (ohe : Dense F) (base : F) (m : Nat)
    (B : List (List (Option (Tree F)))) (k : Nat) (l : F) : Prop :=
  ∃ y p lv, denseCol ohe k = .ok y ∧ O.loss = some lv ∧ AlignedProbs exp base O.learningRate m B data k p ∧
    lv.fn.loss y p = .ok l

/-- inside a round: the classes below `cur.length` have been seen -/
structure CInv (exp : F → F) (S : GoSort) (data : List (List F)) (O : Options F) (ohe : Dense F) (base : F) (n m : Nat)
    (idx : Option (List Nat)) (cols : List Nat) (tail : List F) (A : List (List (Option (Tree F)))) (hist : Nat → List F)
    (st : TrainState F) (cur : List (Option (Tree F))) (hist' : Nat → List F) (acc : TrainState F × List (Tree F)) : Prop where
  classes : acc.2 = cur.filterMap id
  inv : TInv exp n m acc.1
  boosters : acc.1.boosters = st.boosters
  draws : acc.1.draws = st.draws
  raw : RawA base O.learningRate m data (A ++ [cur]) acc.1
  trees : ∀ (k : Nat) tree, cur[k]? = some (some tree) → TreeFactA exp S data O ohe base m idx cols (A ++ [cur.take k]) k tree
  book : ∀ k < m, HInv O.earlyStop m tail acc.1 (hist' k) k
  later : ∀ k, cur.length ≤ k → hist' k = hist k ∧ acc.1.stopped.getD k false = st.stopped.getD k false
  done : ∀ k < cur.length,
    (∃ tree l, cur[k]? = some (some tree) ∧ st.stopped.getD k false = false ∧ hist' k = l :: hist k ∧
      LossFactA exp data O ohe base m (A ++ [cur.take (k + 1)]) k l) ∨
    (cur[k]? = some none ∧ st.stopped.getD k false = true ∧ hist' k = hist k ∧ acc.1.stopped.getD k false = true)

theorem CInv.loop {exp : F → F} {S : GoSort} {data : List (List F)} {O : Options F} {ohe : Dense F} {base : F} {n m : Nat}
    {idx : Option (List Nat)} {cols : List Nat} {tail : List F} {A : List (List (Option (Tree F)))} {hist : Nat → List F}
    {st : TrainState F} {round : Nat} (hd : data.length = n) (hn : 0 < n) (he : O.earlyStop > 0)
    (hi : TInv exp n m st) (hR : RawA base O.learningRate m data A st) (hB : ∀ k < m, HInv O.earlyStop m tail st (hist k) k)
    (h0 : round = 0 → ∀ k < m, hist k ++ tail = []) (h1 : round ≠ 0 → ∀ k < m, hist k ++ tail ≠ [])
    (q : Nat) (hq : q ≤ m) (acc : TrainState F × List (Tree F))
    (h : (List.range q).foldlM (trainClass (softMaxDense exp) S data O ohe idx cols round) (st, []) = .ok acc) :
    ∃ cur hist', cur.length = q ∧ CInv exp S data O ohe base n m idx cols tail A hist st cur hist' acc := by
  induction q generalizing acc with
  | zero =>
    simp only [List.range_zero, List.foldlM_nil, pure, Except.pure, Except.ok.injEq] at h
    subst h
    refine ⟨[], hist, rfl, ⟨rfl, hi, rfl, rfl, hR.congr ?_, by simp, hB, fun k _ => ⟨rfl, rfl⟩, by simp⟩⟩
    intro j _
    rw [alignedTrees_append, alignedTrees_single]
    simp
  | succ q ih =>
    rw [List.range_succ, List.foldlM_append] at h
    obtain ⟨acc1, h2, h3⟩ := bind_ok h
    rw [List.foldlM_cons] at h3
    obtain ⟨acc2, h4, h5⟩ := bind_ok h3
    simp only [List.foldlM_nil, pure, Except.pure, Except.ok.injEq] at h5
    subst h5
    obtain ⟨cur, hist', hl, c⟩ := ih (by omega) acc1 h2
    have hqm : q < m := by omega
    have hlat := c.later q (by omega)
    rcases trainClass_inv h4 with ⟨hs, rfl⟩ | ⟨hs, tree, ht, ⟨s⟩⟩
    · -- the class is stopped
      refine ⟨cur ++ [none], hist', by simp [hl], ⟨by rw [c.classes]; simp, c.inv, c.boosters, c.draws, c.raw.congr ?_, ?_, c.book, ?_, ?_⟩⟩
      · intro j _
        rw [alignedTrees_append, alignedTrees_append, alignedTrees_single, alignedTrees_single]
        congr 1
        by_cases hj : j < cur.length
        · rw [List.getElem?_append_left hj]
        · rw [List.getElem?_append_right (by omega), List.getElem?_eq_none_iff.2 (by omega : cur.length ≤ j)]
          by_cases hj' : j = cur.length
          · subst hj'; simp
          · rw [List.getElem?_eq_none_iff.2 (by simp; omega)]
      · intro k tree hk
        by_cases hkl : k < cur.length
        · rw [List.getElem?_append_left hkl] at hk
          rw [List.take_append_of_le_length (by omega)]
          exact c.trees k tree hk
        · rw [List.getElem?_append_right (by omega)] at hk
          have := List.mem_of_getElem? hk
          simp at this
      · intro k hk
        exact c.later k (by simp at hk; omega)
      · intro k hk
        simp only [List.length_append, List.length_cons, List.length_nil, Nat.zero_add] at hk
        by_cases hkl : k < cur.length
        · rw [List.getElem?_append_left hkl, List.take_append_of_le_length (by omega)]
          exact c.done k hkl
        · have hke : k = q := by omega
          subst hke
          right
          refine ⟨?_, ?_, hlat.1, hs⟩
          · rw [List.getElem?_append_right (by omega), hl]; simp
          · rw [← hlat.2]; exact hs
    · -- the class gets a tree
      obtain ⟨i1, i2, i3, i4⟩ := s.inv c.inv hd hqm
      have hraw : RawA base O.learningRate m data (A ++ [cur ++ [some tree]]) acc2.1 := by
        intro i row hrow j hj
        obtain ⟨v, d, hv, hdk, hset⟩ := i4 i row hrow
        obtain ⟨w, hw1, hw2⟩ := c.raw i row hrow j hj
        rw [alignedTrees_append, alignedTrees_single] at hw2 ⊢
        by_cases hjq : j = q
        · subst hjq
          rw [hdk] at hw1
          cases hw1
          rw [List.getElem?_eq_none_iff.2 (by omega : cur.length ≤ j)] at hw2
          simp only [Option.join_none, Option.toList_none, List.append_nil] at hw2
          refine ⟨_, by rw [hset, List.getElem?_set_self (List.getElem?_eq_some_iff.1 hdk).1], ?_⟩
          rw [List.getElem?_append_right (by omega), hl]
          simp only [Nat.sub_self, List.getElem?_cons_zero, Option.join_some, Option.toList_some]
          exact scoreAfter_snoc hw2 hv
        · refine ⟨w, by rw [hset, List.getElem?_set_ne (Ne.symm hjq)]; exact hw1, ?_⟩
          rw [← hw2]
          congr 3
          by_cases hj' : j < cur.length
          · rw [List.getElem?_append_left hj']
          · rw [List.getElem?_append_right (by omega), List.getElem?_eq_none_iff.2 (by simp; omega),
              List.getElem?_eq_none_iff.2 (by omega : cur.length ≤ j)]
      have hpr : acc2.1.probs = s.probs := by
        have := congrArg TrainState.probs s.hst
        rw [(earlyStopping_raw _ _ _ _ _).2.1] at this
        exact this
      refine ⟨cur ++ [some tree], Function.update hist' q (s.loss :: hist' q), by simp [hl],
        ⟨by rw [ht, c.classes]; simp, i1, i2.trans c.boosters, i3.trans c.draws, hraw, ?_, ?_, ?_, ?_⟩⟩
      · intro k tree' hk
        by_cases hkl : k < cur.length
        · rw [List.getElem?_append_left hkl] at hk
          rw [List.take_append_of_le_length (by omega)]
          exact c.trees k tree' hk
        · have hke : k = q := by
            have := (List.getElem?_eq_some_iff.1 hk).1
            simp at this
            omega
          subst hke
          rw [List.getElem?_append_right (by omega), hl] at hk
          simp only [Nat.sub_self, List.getElem?_cons_zero, Option.some.injEq] at hk
          subst hk
          rw [List.take_append_of_le_length (by omega), List.take_of_length_le (by omega)]
          exact ⟨s.y, s.p, s.lv, s.hy, s.hlv, c.raw.probs c.inv hd hn hqm s.hp, s.htree⟩
      · intro k hk
        have hst := s.hst
        have hc := (c.book k hk).congr (st' := { acc1.1 with
          rawPred := s.raw, probs := s.probs, tmpPreds := s.preds.map fun v => v *. O.learningRate }) rfl rfl rfl
        generalize s.loss = l at hst ⊢
        rw [hst]
        by_cases hkq : k = q
        · subst hkq
          rw [Function.update_self]
          exact hc.push l hk he hs
            (fun hr => by rw [hlat.1]; exact h0 hr k hk) (fun hr => by rw [hlat.1]; exact h1 hr k hk)
        · rw [Function.update_of_ne hkq]
          exact hc.other l (Ne.symm hkq)
      · intro k hk
        simp only [List.length_append, List.length_cons, List.length_nil, Nat.zero_add] at hk
        have hkq : k ≠ q := by omega
        obtain ⟨x1, x2⟩ := c.later k (by omega)
        refine ⟨by rw [Function.update_of_ne hkq]; exact x1, ?_⟩
        rw [s.hst, (earlyStopping_other O round q k s.loss _ (Ne.symm hkq)).1]
        exact x2
      · intro k hk
        simp only [List.length_append, List.length_cons, List.length_nil, Nat.zero_add] at hk
        by_cases hkl : k < cur.length
        · have hkq : k ≠ q := by omega
          rw [List.getElem?_append_left hkl, List.take_append_of_le_length (by omega), Function.update_of_ne hkq]
          rcases c.done k hkl with x | ⟨x1, x2, x3, x4⟩
          · exact Or.inl x
          · refine Or.inr ⟨x1, x2, x3, ?_⟩
            rw [s.hst, (earlyStopping_other O round q k s.loss _ (Ne.symm hkq)).1]
            exact x4
        · have hke : k = q := by omega
          subst hke
          left
          obtain ⟨kp, hk1, hk2⟩ := s.hloss he
          refine ⟨tree, s.loss, ?_, by rw [← hlat.2]; exact hs, by rw [Function.update_self, hlat.1], ?_⟩
          · rw [List.getElem?_append_right (by omega), hl]; simp
          · rw [List.take_of_length_le (by simp; omega)]
            exact ⟨s.y, kp, s.lv, s.hy, s.hlv, hraw.probs i1 hd hn hqm (by rw [hpr]; exact hk1), hk2⟩

/-! ### The rounds -/

theorem placeOf_append_left (A B : List (List (Option (Tree F)))) {r : Nat} (k : Nat) (h : r < A.length) :
    placeOf (A ++ B) r k = placeOf A r k := by
  unfold placeOf
  rw [List.getElem?_append_left h]

theorem placeOf_append_last (A : List (List (Option (Tree F)))) (c : List (Option (Tree F))) (k : Nat) :
    placeOf (A ++ [c]) A.length k = c[k]?.join := by
  unfold placeOf
  rw [List.getElem?_append_right (by omega)]
  simp

theorem madeBefore_append_left (A B : List (List (Option (Tree F)))) {r : Nat} (k : Nat) (h : r < A.length) :
    madeBefore (A ++ B) r k = madeBefore A r k := by
  unfold madeBefore
  rw [List.take_append_of_le_length (by omega), List.getD_eq_getElem?_getD, List.getElem?_append_left h, List.getD_eq_getElem?_getD]

theorem madeBefore_append_last (A : List (List (Option (Tree F)))) (c : List (Option (Tree F))) (k : Nat) :
    madeBefore (A ++ [c]) A.length k = A ++ [c.take k] := by
  unfold madeBefore
  rw [List.take_left, List.getD_eq_getElem?_getD, List.getElem?_append_right le_rfl]
  simp

/-- after some rounds -/
structure RoundInv (exp : F → F) (S : GoSort) (data : List (List F)) (O : Options F) (ohe : Dense F) (base : F) (m : Nat)
    (tail : List F) (draws : Nat → F) (A : List (List (Option (Tree F)))) (hist : Nat → List F) (q : Nat) (st : TrainState F) :
    Prop where
  boosters : st.boosters = A.map (List.filterMap id)
  width : ∀ ens ∈ A, ens.length = m
  raw : RawA base O.learningRate m data A st
  trees : ∀ r k tree, placeOf A r k = some tree → ∃ round, (executedRounds data O draws q)[r]? = some round ∧
    TreeFactA exp S data O ohe base m (roundIdx data O draws round) (roundCols data O draws round) (madeBefore A r k) k tree
  book : ∀ k < m, HInv O.earlyStop m tail st (hist k) k
  len : ∀ k < m, (hist k).length ≤ A.length
  live : ∀ k < m, st.stopped.getD k false = false → (hist k).length = A.length
  col : ∀ k < m, ∀ r < A.length, (placeOf A r k).isSome ↔ r < (hist k).length
  loss : ∀ k < m, ∀ r l, (hist k).reverse[r]? = some l → LossFactA exp data O ohe base m (madeBefore A r (k + 1)) k l

theorem RoundInv.loop {exp : F → F} {S : GoSort} {data : List (List F)} {O : Options F} {ohe : Dense F} {base : F} {n m : Nat}
    {draws : Nat → F} {st0 : TrainState F} (hd : data.length = n) (hn : 0 < n) (he : O.earlyStop > 0)
    (hi : TInv exp n m st0) (hb : st0.boosters = []) (hdr : st0.draws = draws)
    (hR : RawA base O.learningRate m data [] st0)
    (hs : st0.stopped = List.replicate m false) (hnp : st0.noProgress = List.replicate m 0)
    (hpl : st0.prevloss = List.replicate m zero) (q : Nat) (st : TrainState F)
    (h : (List.range q).foldlM (trainRound (softMaxDense exp) S data O ohe m) st0 = .ok st) :
    ∃ A hist, RoundInv exp S data O ohe base m (if O.minSample ≤ (sampleCount data O draws 0 : Int) then [] else [zero]) draws A hist q st := by
  generalize htail : (if O.minSample ≤ (sampleCount data O draws 0 : Int) then ([] : List F) else [zero]) = tail
  induction q generalizing st with
  | zero =>
    simp only [List.range_zero, List.foldlM_nil, pure, Except.pure, Except.ok.injEq] at h
    subst h
    refine ⟨[], fun _ => [], ⟨by rw [hb]; rfl, by simp, hR, ?_, ?_, by simp, by simp, by simp, by simp⟩⟩
    · intro r k tree hh
      simp [placeOf] at hh
    · intro k hk
      have e1 : st0.stopped.getD k false = false := by
        rw [hs, List.getD_eq_getElem?_getD, List.getElem?_replicate, if_pos hk]; rfl
      have e2 : st0.noProgress.getD k 0 = 0 := by
        rw [hnp, List.getD_eq_getElem?_getD, List.getElem?_replicate, if_pos hk]; rfl
      have e3 : st0.prevloss.getD k zero = zero := by
        rw [hpl, List.getD_eq_getElem?_getD, List.getElem?_replicate, if_pos hk]; rfl
      refine ⟨by rw [hs]; simp, by rw [hnp]; simp, by rw [hpl]; simp, ?_, ?_, ?_, by simp, ?_, ?_⟩
      · rw [e1]; intro hh; cases hh
      · rw [e2]; exact fun _ => ⟨le_rfl, he⟩
      · rw [e2]
        refine fun _ => ⟨fun i hi => by simp at hi, fun hc => ?_⟩
        obtain ⟨_, b, _, x, _⟩ := hc 0 (by simp)
        rw [← htail] at x
        split at x <;> simp at x
      · rw [e3, ← htail]
        intro _ hne
        split
        · rename_i hh; rw [if_pos hh] at hne; exact absurd rfl hne
        · rfl
      · intro h1 l h2 hh
        simp at hh
  | succ q ih =>
    rw [List.range_succ, List.foldlM_append] at h
    obtain ⟨st1, h1, h2⟩ := bind_ok h
    rw [List.foldlM_cons] at h2
    obtain ⟨st2, h3, h4⟩ := bind_ok h2
    simp only [List.foldlM_nil, pure, Except.pure, Except.ok.injEq] at h4
    subst h4
    obtain ⟨A, hist, a⟩ := ih st1 h1
    obtain ⟨a1, _, _⟩ := trainRounds_inv h1 hi hd hb
    obtain ⟨c1, c2⟩ := trainRounds_count h1 hdr hb
    have hAl : A.length = (executedRounds data O draws q).length := by
      rw [← c1, a.boosters, List.length_map]
    have hex : executedRounds data O draws (q + 1) = executedRounds data O draws q ++
        (if O.minSample ≤ (sampleCount data O draws q : Int) then [q] else []) := by
      unfold executedRounds
      rw [List.range_succ, List.filter_append, List.filter_cons]
      simp
    obtain ⟨idx, cols, d', hs', hcase⟩ := trainRound_inv h3
    obtain ⟨_, q2⟩ := roundSamples_inv hs'
    have q3 := roundSamples_cols hs'
    have hidx : idx = roundIdx data O draws q := by
      rw [q2, c2]
      rfl
    have hcols : cols = roundCols data O draws q := by
      rw [q3, c2]
      rfl
    have hcnt : (idx.getD []).length = sampleCount data O draws q := by
      rw [hidx]
      unfold sampleCount roundIdx
      split <;> rfl
    rcases hcase with ⟨hlt, rfl⟩ | ⟨hge, acc, hacc, rfl⟩
    · rw [hcnt] at hlt
      have hex' : executedRounds data O draws (q + 1) = executedRounds data O draws q := by
        rw [hex, if_neg (by omega), List.append_nil]
      exact ⟨A, hist, ⟨a.boosters, a.width, a.raw, by rw [hex']; exact a.trees, fun k hk => (a.book k hk).congr rfl rfl rfl,
        a.len, a.live, a.col, a.loss⟩⟩
    · rw [hcnt] at hge
      have hexq : O.minSample ≤ (sampleCount data O draws q : Int) := by omega
      rw [if_pos hexq] at hex
      have r0 : q = 0 → ∀ k < m, hist k ++ tail = [] := by
        intro hq k hk
        subst hq
        have : A.length = 0 := by rw [hAl]; rfl
        have hh : hist k = [] := List.length_eq_zero_iff.1 (by have := a.len k hk; omega)
        rw [hh, ← htail, if_pos hexq]
        rfl
      have r1 : q ≠ 0 → ∀ k < m, hist k ++ tail ≠ [] := by
        intro hq k hk hc
        obtain ⟨x1, x2⟩ := List.append_eq_nil_iff.1 hc
        rw [← htail] at x2
        have h00 : O.minSample ≤ (sampleCount data O draws 0 : Int) := by
          by_contra hh
          rw [if_neg hh] at x2
          cases x2
        have hpos : 0 < A.length := by
          rw [hAl]
          apply List.length_pos_of_mem (a := 0)
          unfold executedRounds
          simp only [List.mem_filter, List.mem_range, decide_eq_true_eq]
          exact ⟨by omega, h00⟩
        cases hst : st1.stopped.getD k false with
        | true => exact ((a.book k hk).stop hst).1 x1
        | false =>
          have := a.live k hk hst
          rw [x1] at this
          simp at this
          omega
      obtain ⟨cur, hist', hl, c⟩ := CInv.loop (A := A) (hist := hist) (base := base) (tail := tail) (st := { st1 with draws := d' }) hd hn he (a1.draws d') a.raw
        (fun k hk => (a.book k hk).congr rfl rfl rfl) r0 r1 m le_rfl acc hacc
      refine ⟨A ++ [cur], hist', ⟨?_, ?_, c.raw, ?_, fun k hk => (c.book k hk).congr rfl rfl rfl, ?_, ?_, ?_, ?_⟩⟩
      · simp only [List.map_append, List.map_cons, List.map_nil]
        rw [c.boosters, c.classes, ← a.boosters]
      · intro ens hens
        rcases List.mem_append.1 hens with h | h
        · exact a.width ens h
        · rw [List.mem_singleton.1 h, hl]
      · intro r k tree hr
        by_cases hrl : r < A.length
        · rw [placeOf_append_left _ _ _ hrl] at hr
          obtain ⟨round, g1, g2⟩ := a.trees r k tree hr
          refine ⟨round, ?_, ?_⟩
          · rw [hex, List.getElem?_append_left (List.getElem?_eq_some_iff.1 g1).1]
            exact g1
          · rw [madeBefore_append_left _ _ _ hrl]
            exact g2
        · have hre : r = A.length := by
            by_contra hc
            have : placeOf (A ++ [cur]) r k = none := by
              unfold placeOf
              rw [List.getElem?_eq_none_iff.2 (by simp; omega)]
              rfl
            rw [this] at hr
            cases hr
          subst hre
          rw [placeOf_append_last] at hr
          refine ⟨q, ?_, ?_⟩
          · rw [hex, List.getElem?_append_right (by omega), hAl]
            simp
          · rw [madeBefore_append_last, ← hidx, ← hcols]
            exact c.trees k tree (Option.join_eq_some_iff.1 hr)
      · intro k hk
        have := a.len k hk
        rcases c.done k (by omega) with ⟨_, _, _, _, x, _⟩ | ⟨_, _, x, _⟩
        · rw [x]; simp; omega
        · rw [x]; simp; omega
      · intro k hk hst
        rcases c.done k (by omega) with ⟨_, _, _, y, x, _⟩ | ⟨_, _, _, y⟩
        · have := a.live k hk y
          rw [x]; simp; omega
        · rw [y] at hst; cases hst
      · intro k hk r hr
        have hln := a.len k hk
        by_cases hrl : r < A.length
        · rw [placeOf_append_left _ _ _ hrl, a.col k hk r hrl]
          rcases c.done k (by omega) with ⟨_, _, _, y, x, _⟩ | ⟨_, _, x, _⟩
          · have := a.live k hk y
            rw [x]; simp; omega
          · rw [x]
        · have hre : r = A.length := by simp at hr; omega
          subst hre
          rw [placeOf_append_last]
          rcases c.done k (by omega) with ⟨_, _, z, y, x, _⟩ | ⟨z, _, x, _⟩
          · have := a.live k hk y
            rw [x, z]; simp; omega
          · rw [x, z]; simp; omega
      · intro k hk r l hrl
        have hln := a.len k hk
        have old : (hist k).reverse[r]? = some l → LossFactA exp data O ohe base m (madeBefore (A ++ [cur]) r (k + 1)) k l := by
          intro hh
          have hrA : r < A.length := by
            have := (List.getElem?_eq_some_iff.1 hh).1
            simp at this
            omega
          rw [madeBefore_append_left _ _ _ hrA]
          exact a.loss k hk r l hh
        rcases c.done k (by omega) with ⟨_, l', _, y, x, z⟩ | ⟨_, _, x, _⟩
        · rw [x, List.reverse_cons] at hrl
          have hll := a.live k hk y
          by_cases hrA : r < A.length
          · rw [List.getElem?_append_left (by simp; omega)] at hrl
            exact old hrl
          · have hre : r = A.length := by
              have := (List.getElem?_eq_some_iff.1 hrl).1
              simp at this
              omega
            subst hre
            rw [List.getElem?_append_right (by simp; omega)] at hrl
            simp only [List.length_reverse, hll, Nat.sub_self, List.getElem?_cons_zero, Option.some.injEq] at hrl
            subst hrl
            rw [madeBefore_append_last]
            exact z
        · rw [x] at hrl
          exact old hrl

end Boo
