import Verif.Spec.Boost
import Verif.Props.Train

/-!
# How the trees of a trained model were made
-/

namespace Boo
open GoFloat
set_option linter.unusedSectionVars false
variable {F : Type} [GoFloat F]

/-! ### scores -/

theorem treesOf_append (b b' : List (List (Tree F))) (j : Nat) :
    treesOf (b ++ b') j = treesOf b j ++ treesOf b' j := by
  unfold treesOf
  rw [List.filterMap_append]

theorem scoreAfter_append (base lr : F) (ts us : List (Tree F)) (x : List F) (s : F)
    (h : scoreAfter base lr ts x = .ok s) : scoreAfter base lr (ts ++ us) x = scoreAfter s lr us x := by
  unfold scoreAfter at *
  rw [List.foldlM_append, h]
  rfl

/-- one round, class by class -/
theorem addRound_get (lr : F) (x : List F) (ts : List (Tree F)) (c : Nat) (tmp tmp' : List F)
    (h : addRound lr x ts c tmp = .ok tmp') : tmp'.length = tmp.length ∧
    ∀ (j : Nat) v, tmp[j]? = some v → ∃ v', tmp'[j]? = some v' ∧
      scoreAfter v lr (if c ≤ j then (ts[j - c]?).toList else []) x = .ok v' := by
  induction ts generalizing c tmp with
  | nil =>
    simp only [addRound, Except.ok.injEq] at h
    subst h
    refine ⟨rfl, fun j v hv => ⟨v, hv, ?_⟩⟩
    simp [scoreAfter, pure, Except.pure]
  | cons t ts ih =>
    unfold addRound at h
    obtain ⟨p, hp, h⟩ := bind_ok h
    obtain ⟨tmp1, h1, h⟩ := bind_ok h
    obtain ⟨i1, i2⟩ := ih _ _ h
    unfold addAt at h1
    cases hc : tmp[c]? with
    | none => rw [hc] at h1; cases h1
    | some d =>
      rw [hc] at h1
      simp only [Except.ok.injEq] at h1
      subst h1
      refine ⟨by rw [i1]; simp, fun j v hv => ?_⟩
      by_cases hj : j = c
      · subst hj
        rw [hc] at hv
        cases hv
        obtain ⟨v', q1, q2⟩ := i2 j (d +. (p *. lr))
          (List.getElem?_set_self (List.getElem?_eq_some_iff.1 hc).1)
        refine ⟨v', q1, ?_⟩
        rw [if_neg (by omega)] at q2
        rw [if_pos le_rfl, Nat.sub_self]
        simp only [List.getElem?_cons_zero, Option.toList_some]
        unfold scoreAfter at *
        simp only [List.foldlM_cons, List.foldlM_nil, hp, bind, Except.bind, pure, Except.pure] at *
        exact q2
      · obtain ⟨v', q1, q2⟩ := i2 j v (by rw [List.getElem?_set_ne (Ne.symm hj)]; exact hv)
        refine ⟨v', q1, ?_⟩
        by_cases hcj : c ≤ j
        · rw [if_pos (by omega)] at q2
          rw [if_pos hcj, show j - c = (j - (c + 1)) + 1 by omega, List.getElem?_cons_succ]
          exact q2
        · rw [if_neg (by omega)] at q2
          rw [if_neg hcj]
          exact q2

theorem foldRounds_get (base lr : F) (m : Nat) (b : List (List (Tree F))) (x : List F) (s : List F)
    (h : b.foldlM (fun tmp ens => addRound lr x ens 0 tmp) (List.replicate m base) = .ok s) :
    s.length = m ∧ ∀ j < m, ∃ v, s[j]? = some v ∧ scoreAfter base lr (treesOf b j) x = .ok v := by
  induction b using List.reverseRecOn generalizing s with
  | nil =>
    simp only [List.foldlM_nil, pure, Except.pure, Except.ok.injEq] at h
    subst h
    refine ⟨by simp, fun j hj => ⟨base, by simp [hj], ?_⟩⟩
    simp [scoreAfter, treesOf, pure, Except.pure]
  | append_singleton b ens ih =>
    rw [List.foldlM_append] at h
    obtain ⟨s0, h1, h2⟩ := bind_ok h
    simp only [List.foldlM_cons, List.foldlM_nil] at h2
    obtain ⟨s1, h3, h4⟩ := bind_ok h2
    simp only [pure, Except.pure, Except.ok.injEq] at h4
    subst h4
    obtain ⟨i1, i2⟩ := ih s0 h1
    obtain ⟨j1, j2⟩ := addRound_get lr x ens 0 s0 s1 h3
    refine ⟨by omega, fun j hj => ?_⟩
    obtain ⟨v, q1, q2⟩ := i2 j hj
    obtain ⟨v', q3, q4⟩ := j2 j v q1
    refine ⟨v', q3, ?_⟩
    rw [treesOf_append, scoreAfter_append _ _ _ _ _ _ q2]
    simp only [Nat.zero_le, if_true, Nat.sub_zero] at q4
    rw [← q4]
    have : treesOf [ens] j = (ens[j]?).toList := by
      unfold treesOf
      cases hq : ens[j]? <;> simp [hq]
    rw [this]

/-- `scoreOf` class by class -/
theorem scoreOf_get (base lr : F) (m : Nat) (b : List (List (Tree F))) (c : List (Tree F)) (x : List F) (s : List F)
    (h : scoreOf base lr m b c x = .ok s) :
    s.length = m ∧ ∀ j < m, ∃ v, s[j]? = some v ∧ scoreAfter base lr (treesOf (b ++ [c]) j) x = .ok v := by
  rw [← scoreOf_append] at h
  unfold scoreOf at h
  obtain ⟨s0, h1, h2⟩ := bind_ok h
  simp only [addRound, Except.ok.injEq] at h2
  subst h2
  exact foldRounds_get base lr m _ x s0 h1

theorem mapM_range_ok {α : Type} {f : Nat → Go α} {m : Nat} {s : List α} (hl : s.length = m)
    (h : ∀ j < m, ∃ v, s[j]? = some v ∧ f j = .ok v) : (List.range m).mapM f = .ok s := by
  rw [mapM_ok]
  rw [List.forall₂_iff_get]
  refine ⟨by simp [hl], fun i h1 h2 => ?_⟩
  obtain ⟨v, q1, q2⟩ := h i (by simpa using h1)
  rw [List.getElem?_eq_getElem h2] at q1
  cases q1
  simpa using q2

/-! ### Newton leaves -/

theorem leafSums_eq (g h : List F) (l : List Nat) (a b : F) (out : F × F) (hs : leafSums g h l a b = .ok out) :
    (∀ w ∈ l, w < g.length ∧ w < h.length) ∧
    out.1 = (l.map fun i => h.getD i zero).foldl (fun s x => s +. x) a ∧
    out.2 = (l.map fun i => g.getD i zero).foldl (fun s x => s +. x) b := by
  induction l generalizing a b with
  | nil =>
    simp only [leafSums, Except.ok.injEq] at hs
    subst hs
    simp
  | cons w ws ih =>
    unfold leafSums at hs
    cases hh : h[w]? with
    | none => rw [hh] at hs; simp at hs
    | some x =>
      cases hg : g[w]? with
      | none => rw [hh, hg] at hs; simp at hs
      | some y =>
        rw [hh, hg] at hs
        simp only at hs
        obtain ⟨i1, i2, i3⟩ := ih _ _ hs
        refine ⟨?_, ?_, ?_⟩
        · intro v hv
          rcases List.mem_cons.1 hv with rfl | hv
          · exact ⟨(List.getElem?_eq_some_iff.1 hg).1, (List.getElem?_eq_some_iff.1 hh).1⟩
          · exact i1 v hv
        · rw [i2]
          simp [List.getD_eq_getElem?_getD, hh]
        · rw [i3]
          simp [List.getD_eq_getElem?_getD, hg]

theorem updateLeaves_newton (g h : List F) (t0 t : Tree F) (hu : updateLeaves g h t0 = .ok t) :
    NewtonOf g h t0 t := by
  induction t0 generalizing t with
  | nil =>
    simp only [updateLeaves, Except.ok.injEq] at hu
    subst hu
    refine ⟨fun _ => Iff.rfl, ?_⟩
    intro path i l r i' l' r' h
    cases path <;> simp [Tree.sub] at h
  | node i l r ihl ihr =>
    obtain ⟨i', l', r', rfl, hl, hr, hi⟩ := updateLeaves_inv hu
    have hL := ihl l' hl
    have hR := ihr r' hr
    refine ⟨?_, ?_⟩
    · intro path
      cases path with
      | nil => simp [Tree.sub]
      | cons d path =>
        cases d
        · exact hR.shape path
        · exact hL.shape path
    · intro path j a b j' a' b' h1 h2
      cases path with
      | nil =>
        simp only [Tree.sub, Tree.node.injEq] at h1 h2
        obtain ⟨rfl, rfl, rfl⟩ := h1
        obtain ⟨rfl, rfl, rfl⟩ := h2
        rcases hi with ⟨h3, sh, sg, h4, h5⟩ | ⟨h3, h5⟩
        · refine ⟨fun _ => ?_, fun h => by rw [h3] at h; cases h⟩
          obtain ⟨q1, q2, q3⟩ := leafSums_eq _ _ _ _ _ _ h4
          refine ⟨q1, ?_⟩
          rw [h5]
          simp only at q2 q3
          unfold sumAt
          rw [q2, q3]
        · exact ⟨fun h => absurd (h3.symm.trans h) (by simp), fun _ => h5⟩
      | cons d path =>
        cases d
        · exact hR.node path j a b j' a' b' h1 h2
        · exact hL.node path j a b j' a' b' h1 h2

/-! ### the columns of a round -/

/-- the columns sampled in round `r`; empty when columns are not subsampled -/
def roundCols (X : List (List F)) (O : Options F) (draws : Nat → F) (r : Nat) : List Nat :=
  if colSub O then
    (List.range (X.headD []).length).filter fun i =>
      draws (i + (if rowSub O then X.length else 0) + r * drawsPerRound X O) <=. O.colSubSample
  else []

theorem roundSamples_cols {X : List (List F)} {O : Options F} {d d' : Nat → F} {idx : Option (List Nat)}
    {cols : List Nat} (h : roundSamples X O d = .ok (idx, cols, d')) :
    cols = (if colSub O then (List.range (X.headD []).length).filter fun i =>
      d (i + if rowSub O then X.length else 0) <=. O.colSubSample else []) := by
  have hsub : ∀ n s (d : Nat → F) l, subSample n s d = .ok l → l = (List.range n).filter fun i => d i <=. s := by
    intro n s d l h
    unfold subSample at h
    split at h
    · cases h
    · cases h; rfl
  have hcol : ∀ (idx0 : Option (List Nat)) (d0 : Nat → F),
      (if (O.colSubSample <. one) && O.xgb then do
        let row0 ← goIdx X 0
        let cols ← subSample row0.length O.colSubSample d0
        pure (idx0, cols, fun i => d0 (i + row0.length))
      else pure (idx0, [], d0) : Go (Option (List Nat) × List Nat × (Nat → F))) = .ok (idx, cols, d') →
      cols = (if colSub O then (List.range (X.headD []).length).filter fun i => d0 i <=. O.colSubSample else []) := by
    intro idx0 d0 h
    by_cases hc : colSub O = true
    · have hc' : ((O.colSubSample <. one) && O.xgb) = true := hc
      rw [if_pos hc'] at h
      obtain ⟨row0, h1, h⟩ := bind_ok h
      obtain ⟨c, h2, h⟩ := bind_ok h
      simp only [pure, Except.pure, Except.ok.injEq, Prod.mk.injEq] at h
      have : X.headD [] = row0 := by
        have := goIdx_ok.1 h1
        cases X with
        | nil => simp at this
        | cons a X => simpa using this
      rw [if_pos hc, this, ← h.2.1, hsub _ _ _ _ h2]
    · have hc' : ¬ ((O.colSubSample <. one) && O.xgb) = true := hc
      rw [if_neg hc'] at h
      simp only [pure, Except.pure, Except.ok.injEq, Prod.mk.injEq] at h
      rw [if_neg hc, ← h.2.1]
  unfold roundSamples at h
  by_cases hr : rowSub O = true
  · have hr' : ((O.subSample <. one) && O.xgb) = true := hr
    rw [if_pos hr'] at h
    obtain ⟨s, hs, h⟩ := bind_ok h
    rw [hcol (some s) (fun i => d (i + X.length)) h, if_pos hr]
  · have hr' : ¬ ((O.subSample <. one) && O.xgb) = true := hr
    rw [if_neg hr'] at h
    obtain ⟨⟨idx0, d0⟩, h1, h⟩ := bind_ok h
    simp only [pure, Except.pure, Except.ok.injEq, Prod.mk.injEq] at h1
    obtain ⟨rfl, rfl⟩ := h1
    rw [hcol _ _ h, if_neg hr]
    simp only [Nat.add_zero]

/-! ### the trees of a round -/

/-- how a tree was made: from the scores given by earlier rounds `b` and earlier classes `c` -/
def TreeFact (exp : F → F) (S : GoSort) (data : List (List F)) (O : Options F) (ohe : Dense F) (base : F) (m n : Nat)
    (idx : Option (List Nat)) (cols : List Nat) (b : List (List (Tree F))) (c : List (Tree F)) (k : Nat) (tree : Tree F) :
    Prop :=
  ∃ y p lv, denseCol ohe k = .ok y ∧ p.length = n ∧ O.loss = some lv ∧
    (∀ (i : Nat) row, data[i]? = some row → ∃ s probs, scoreOf base O.learningRate m b c row = .ok s ∧
      softMax exp s none = .ok probs ∧ ∃ v, probs[k]? = some v ∧ p[i]? = some v) ∧
    classTree S data O lv.fn idx cols y p = .ok tree

theorem trainClasses_facts {exp : F → F} {S : GoSort} {data : List (List F)} {O : Options F} {ohe : Dense F}
    {indexes : Option (List Nat)} {cols : List Nat} {round : Nat} {n m : Nat} (hd : data.length = n) (base : F)
    (hn : 0 < n)
    (q : Nat) (hq : q ≤ m) (st : TrainState F) (acc' : TrainState F × List (Tree F))
    (h : (List.range q).foldlM (trainClass (softMaxDense exp) S data O ohe indexes cols round) (st, []) = .ok acc')
    (hi : TInv exp n m st) (hR : RawInv base O.learningRate m data st []) (hf : acc'.2.length = q) :
    ∀ (k : Nat) tree, acc'.2[k]? = some tree →
      TreeFact exp S data O ohe base m n indexes cols st.boosters (acc'.2.take k) k tree := by
  induction q generalizing acc' with
  | zero =>
    intro k tree hk
    rw [List.length_eq_zero_iff.1 hf] at hk
    simp at hk
  | succ q ih =>
    rw [List.range_succ, List.foldlM_append] at h
    obtain ⟨acc, h1, h2⟩ := bind_ok h
    rw [List.foldlM_cons] at h2
    obtain ⟨acc'', h3, h4⟩ := bind_ok h2
    simp only [List.foldlM_nil, pure, Except.pure, Except.ok.injEq] at h4
    subst h4
    obtain ⟨a1, a2, a3, a4, a5⟩ := trainClasses_inv hd q (by omega) st acc h1 hi
    rcases trainClass_inv h3 with ⟨_, rfl⟩ | ⟨_, tree', ht, ⟨s⟩⟩
    · omega
    · have hlen : acc.2.length = q := by
        rw [ht] at hf
        simp at hf
        exact hf
      intro k tree hk
      rw [ht] at hk ⊢
      by_cases hkq : k < q
      · rw [List.getElem?_append_left (by omega)] at hk
        rw [List.take_append_of_le_length (by omega)]
        exact ih (by omega) acc h1 hlen k tree hk
      · have hke : k = q := by
          have := (List.getElem?_eq_some_iff.1 hk).1
          simp at this
          omega
        subst hke
        rw [List.getElem?_append_right (by omega), hlen] at hk
        simp only [Nat.sub_self, List.getElem?_cons_zero, Option.some.injEq] at hk
        subst hk
        rw [List.take_append_of_le_length (by omega), List.take_of_length_le (by omega)]
        have hRa := a5 hlen base hR
        obtain ⟨p, hp, hpl, hpv⟩ := denseCol_spec a1.probsWF (by rw [a1.probsR]; exact hn) (col := k)
          (by rw [a1.probsC]; omega)
        have hps : p = s.p := by
          have := s.hp
          rw [hp] at this
          exact Except.ok.inj this
        subst hps
        refine ⟨s.y, s.p, s.lv, s.hy, by rw [hpl, a1.probsR], s.hlv, ?_, s.htree⟩
        intro i row hrow
        have hin : i < n := by rw [← hd]; exact (List.getElem?_eq_some_iff.1 hrow).1
        have hsc := hRa i row hrow
        rw [a2] at hsc
        obtain ⟨v, hv⟩ := Dense.at?_some a1.probsWF (i := i) (j := k) (by rw [a1.probsR]; exact hin)
          (by rw [a1.probsC]; omega)
        refine ⟨_, _, hsc, a1.soft i hin, v, ?_, ?_⟩
        · rw [Dense.row_get (by rw [a1.probsR]; exact hin) (by rw [a1.probsC]; omega), hv]
        · rw [hpv i (by rw [a1.probsR]; exact hin), hv]

/-- `len(sampleIndexes)` and the row sample of round `r` -/
def roundIdx (X : List (List F)) (O : Options F) (draws : Nat → F) (r : Nat) : Option (List Nat) :=
  if rowSub O then some (roundRows X O draws r) else none

theorem trainRounds_facts {exp : F → F} {S : GoSort} {data : List (List F)} {O : Options F} {ohe : Dense F}
    {st st' : TrainState F} {n m q : Nat} {draws : Nat → F} (base : F) (hn : 0 < n)
    (h : (List.range q).foldlM (trainRound (softMaxDense exp) S data O ohe m) st = .ok st') (hi : TInv exp n m st)
    (hd : data.length = n) (hb : st.boosters = []) (hdr : st.draws = draws)
    (hR : RawInv base O.learningRate m data st []) (hfull : Full m st'.boosters) :
    ∀ (r : Nat) ens, st'.boosters[r]? = some ens → ∃ round, (executedRounds data O draws q)[r]? = some round ∧
      ∀ (k : Nat) tree, ens[k]? = some tree →
        TreeFact exp S data O ohe base m n (roundIdx data O draws round) (roundCols data O draws round)
          (st'.boosters.take r) (ens.take k) k tree := by
  induction q generalizing st' with
  | zero =>
    simp only [List.range_zero, List.foldlM_nil, pure, Except.pure, Except.ok.injEq] at h
    subst h
    intro r ens hr
    rw [hb] at hr
    simp at hr
  | succ q ih =>
    rw [List.range_succ, List.foldlM_append] at h
    obtain ⟨st1, h1, h2⟩ := bind_ok h
    rw [List.foldlM_cons] at h2
    obtain ⟨st2, h3, h4⟩ := bind_ok h2
    simp only [List.foldlM_nil, pure, Except.pure, Except.ok.injEq] at h4
    subst h4
    obtain ⟨a1, a2, a3⟩ := trainRounds_inv h1 hi hd hb
    obtain ⟨c1, c2⟩ := trainRounds_count h1 hdr hb
    obtain ⟨_, _, b3⟩ := trainRound_step h3 a1 hd
    obtain ⟨f1, _⟩ := b3 hfull
    have hR1 := a3 f1 base hR
    have hprev := ih h1 f1
    have hex : executedRounds data O draws (q + 1) = executedRounds data O draws q ++
        (if O.minSample ≤ (sampleCount data O draws q : Int) then [q] else []) := by
      unfold executedRounds
      rw [List.range_succ, List.filter_append, List.filter_cons]
      simp
    obtain ⟨idx, cols, d', hs, hcase⟩ := trainRound_inv h3
    obtain ⟨_, q2⟩ := roundSamples_inv hs
    have q3 := roundSamples_cols hs
    have hidx : idx = roundIdx data O draws q := by
      rw [q2, c2]
      rfl
    have hcols : cols = roundCols data O draws q := by
      rw [q3, c2]
      rfl
    have hcnt : (idx.getD []).length = sampleCount data O draws q := by
      rw [hidx]
      unfold sampleCount roundIdx
      split <;> rfl
    rw [hex]
    rcases hcase with ⟨hlt, rfl⟩ | ⟨hge, acc, hacc, rfl⟩
    · rw [hcnt] at hlt
      rw [if_neg (by omega), List.append_nil]
      exact hprev
    · rw [hcnt] at hge
      rw [if_pos (by omega)]
      obtain ⟨e1, e2⟩ := trainClasses_boosters hacc
      simp only at e1
      intro r ens hr
      simp only [e1] at hr hfull ⊢
      by_cases hrl : r < st1.boosters.length
      · rw [List.getElem?_append_left hrl] at hr
        obtain ⟨round, g1, g2⟩ := hprev r ens hr
        refine ⟨round, ?_, ?_⟩
        · rw [List.getElem?_append_left (List.getElem?_eq_some_iff.1 g1).1]
          exact g1
        · rw [List.take_append_of_le_length (by omega)]
          exact g2
      · have hre : r = st1.boosters.length := by
          have := (List.getElem?_eq_some_iff.1 hr).1
          simp at this
          omega
        rw [List.getElem?_append_right (by omega), hre] at hr
        simp only [Nat.sub_self, List.getElem?_cons_zero, Option.some.injEq] at hr
        subst hr
        refine ⟨q, ?_, ?_⟩
        · rw [List.getElem?_append_right (by omega), hre, c1]
          simp
        · rw [hre, List.take_left', ← hidx, ← hcols]
          · exact trainClasses_facts hd base hn m le_rfl { st1 with draws := d' } acc hacc (a1.draws d') hR1 (hfull acc.2 (by simp))
          · rfl

end Boo
