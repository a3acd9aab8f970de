import Verif.Lemmas.Locality
import Verif.Props.Apart
import Verif.Props.TrainBugs

/-!
# C124: rows that are never drawn do not influence the model

`SubSample` below 1 makes every round work on the rows whose draws are at most `SubSample`. A row that no round draws
(or only rounds that are skipped for having too few rows) has no effect on the model: its values and its label can be
replaced. The arithmetic, the exponential and the sorting algorithm are arbitrary.
-/

namespace Boo
open GoFloat Spec

section
variable {F : Type} [GoFloat F]

/-- **C124 (trees)**: a tree grown from the rows `idx` is the same, as is a panic, whatever the values, gradients, hessians and
targets of the other rows are. -/
theorem C124_tree (S : GoSort) (X X' : List (List F)) (o : TreeOptions F) (idx : List Nat) (hidx : o.indexes = some idx)
    (c : Nat) (hne : X ≠ []) (hne' : X' ≠ []) (hc : ∀ row ∈ X, row.length = c) (hc' : ∀ row ∈ X', row.length = c)
    (g h y g' h' y' : List F) (hg : g.length = g'.length) (hh : h.length = h'.length) (hy : y.length = y'.length)
    (hrows : ∀ i ∈ idx, X[i]? = X'[i]? ∧ g[i]? = g'[i]? ∧ h[i]? = h'[i]? ∧ y[i]? = y'[i]?) :
    newTree S X { o with gradients := some g, hessian := some h, y := y } =
      newTree S X' { o with gradients := some g', hessian := some h', y := y' } := by
  unfold newTree
  refine newTreeD_agree ?_ _ (fun i hi => (hrows i hi).1)
    ⟨rfl, rfl, rfl, ⟨hg, fun i hi => (hrows i hi).2.1⟩, ⟨hh, fun i hi => (hrows i hi).2.2.1⟩, ⟨hy, fun i hi => (hrows i hi).2.2.2⟩⟩ hidx
  obtain ⟨r, X, rfl⟩ := List.exists_cons_of_ne_nil hne
  obtain ⟨r', X', rfl⟩ := List.exists_cons_of_ne_nil hne'
  simp [hc r (by simp), hc' r' (by simp)]

/-- a loss function whose gradients and hessians at a row are those of the label and the probability of that row -/
structure LossFunc.Pointwise (f : LossFunc F) : Prop where
  gradLen : ∀ y p g : List F, f.gradients y p = .ok g → g.length = y.length
  hessLen : ∀ p : List F, (f.hessian p).length = p.length
  grad : ∀ (y p g y' p' g' : List F) (i : Nat), f.gradients y p = .ok g → f.gradients y' p' = .ok g' →
    y[i]? = y'[i]? → p[i]? = p'[i]? → g[i]? = g'[i]?
  hess : ∀ (p p' : List F) (i : Nat), p[i]? = p'[i]? → (f.hessian p)[i]? = (f.hessian p')[i]?

theorem grad_ok {y p g : List F} (h : grad y p = .ok g) :
    y.length = p.length ∧ g = (List.zipWith (fun x y => x -. y) y p).map fun v => ofInt (-1) *. v := by
  unfold grad negGrad at h
  obtain ⟨d, h1, h2⟩ := bind_ok h
  unfold subV at h1
  split at h1
  · cases h1
  · rename_i hl
    obtain rfl := Except.ok.inj h1
    exact ⟨not_not.1 hl, (Except.ok.inj h2).symm⟩

theorem grad_pointwise : (∀ y p g : List F, grad y p = .ok g → g.length = y.length) ∧
    ∀ (y p g y' p' g' : List F) (i : Nat), grad y p = .ok g → grad y' p' = .ok g' → y[i]? = y'[i]? → p[i]? = p'[i]? →
      g[i]? = g'[i]? := by
  constructor
  · intro y p g h
    obtain ⟨hl, rfl⟩ := grad_ok h
    simp [hl]
  · intro y p g y' p' g' i h h' hy hp
    obtain ⟨_, rfl⟩ := grad_ok h
    obtain ⟨_, rfl⟩ := grad_ok h'
    rw [List.getElem?_map, List.getElem?_map, List.getElem?_zipWith, List.getElem?_zipWith, hy, hp]

/-- both loss functions of the library are of this kind -/
theorem sqErrLoss_pointwise : (sqErrLoss : LossFunc F).Pointwise :=
  ⟨grad_pointwise.1, fun p => by simp [sqErrLoss], grad_pointwise.2, fun p p' i h => by
    simp only [sqErrLoss, List.getElem?_map, h]⟩

theorem mseLoss_pointwise : (mseLoss : LossFunc F).Pointwise :=
  ⟨grad_pointwise.1, fun p => by simp [mseLoss], grad_pointwise.2, fun p p' i h => by
    simp only [mseLoss, List.getElem?_map, h]⟩

/-- two states of training that agree on the rows in `K` -/
structure UndrawnRel (exp : F → F) (n m : Nat) (K : Nat → Prop) (s1 s2 : TrainState F) : Prop where
  i1 : TInv exp n m s1
  i2 : TInv exp n m s2
  raw : ∀ i < n, K i → s2.rawPred.row i = s1.rawPred.row i
  stopped : s2.stopped = s1.stopped
  draws : s2.draws = s1.draws
  b : s2.boosters = s1.boosters

theorem denseCol_agree {n m : Nat} (hn : 0 < n) {D1 D2 : Dense F} (w1 : D1.WF) (w2 : D2.WF) (r1 : D1.r = n) (r2 : D2.r = n)
    (c1 : D1.c = m) (c2 : D2.c = m) {K : Nat → Prop} (h : ∀ i < n, K i → D2.row i = D1.row i) {k : Nat} (hk : k < m)
    {l1 l2 : List F} (e1 : denseCol D1 k = .ok l1) (e2 : denseCol D2 k = .ok l2) :
    l1.length = n ∧ l2.length = n ∧ ∀ i < n, K i → l1[i]? = l2[i]? := by
  obtain ⟨l1', a1, a2, a3⟩ := denseCol_spec w1 (by omega) (col := k) (by omega)
  obtain ⟨l2', b1, b2, b3⟩ := denseCol_spec w2 (by omega) (col := k) (by omega)
  obtain rfl := Except.ok.inj (e1.symm.trans a1)
  obtain rfl := Except.ok.inj (e2.symm.trans b1)
  refine ⟨by omega, by omega, fun i hi hK => ?_⟩
  rw [a3 i (by omega), b3 i (by omega), ← Dense.row_get (by omega) (by omega), ← Dense.row_get (by omega) (by omega), h i hi hK]

theorem undrawn_class {exp : F → F} {S : GoSort} {O : Options F} (hx : O.xgb = true) (he : O.earlyStop ≤ 0)
    (hlf : ∀ lv, O.loss = some lv → lv.fn.Pointwise) {n m : Nat} (hn : 0 < n) {K : Nat → Prop} {X X' : List (List F)}
    (hl : X.length = n) (hl' : X'.length = n) (h0 : X[0]?.map List.length = X'[0]?.map List.length)
    (hX : ∀ i < n, K i → X[i]? = X'[i]?) {ohe ohe' : Dense F} (w1 : ohe.WF) (w2 : ohe'.WF) (r1 : ohe.r = n) (r2 : ohe'.r = n)
    (c1 : ohe.c = m) (c2 : ohe'.c = m) (ho : ∀ i < n, K i → ohe'.row i = ohe.row i) {idx cols : List Nat}
    (hidx : ∀ i ∈ idx, i < n ∧ K i) {round k : Nat} (hk : k < m) {a1 a2 a1' a2' : TrainState F × List (Tree F)}
    (hR : UndrawnRel exp n m K a1.1 a2.1) (hT : a2.2 = a1.2)
    (e1 : trainClass (softMaxDense exp) S X O ohe (some idx) cols round a1 k = .ok a1')
    (e2 : trainClass (softMaxDense exp) S X' O ohe' (some idx) cols round a2 k = .ok a2') :
    UndrawnRel exp n m K a1'.1 a2'.1 ∧ a2'.2 = a1'.2 := by
  obtain ⟨hs, rfl⟩ | ⟨hs, t, ht, ⟨s⟩⟩ := trainClass_inv e1
  · obtain ⟨hs', rfl⟩ | ⟨hs', t', ht', ⟨s'⟩⟩ := trainClass_inv e2
    · exact ⟨hR, hT⟩
    · rw [hR.stopped, hs] at hs'; cases hs'
  · obtain ⟨hs', rfl⟩ | ⟨hs', t', ht', ⟨s'⟩⟩ := trainClass_inv e2
    · rw [hR.stopped, hs] at hs'; cases hs'
    have hpr : ∀ i < n, K i → a2.1.probs.row i = a1.1.probs.row i := by
      intro i hi hK
      have h1 := hR.i1.soft i hi
      have h2 := hR.i2.soft i hi
      rw [hR.raw i hi hK, h1] at h2
      exact (Except.ok.inj h2).symm
    obtain ⟨ly, ly', hy⟩ := denseCol_agree hn w1 w2 r1 r2 c1 c2 ho hk s.hy s'.hy
    obtain ⟨lp, lp', hp⟩ := denseCol_agree hn hR.i1.probsWF hR.i2.probsWF hR.i1.probsR hR.i2.probsR hR.i1.probsC hR.i2.probsC
      hpr hk s.hp s'.hp
    have hlv : s'.lv = s.lv := by
      have := s.hlv.symm.trans s'.hlv
      exact (Option.some.inj this).symm
    obtain ⟨q1, q2, q3, q4⟩ := hlf _ s.hlv
    have htt : t' = t := by
      have g1 := s.htree
      have g2 := s'.htree
      rw [hlv] at g2
      unfold classTree at g1 g2
      simp only [hx, if_true] at g1 g2
      obtain ⟨gr, u1, u2⟩ := bind_ok g1
      obtain ⟨gr', v1, v2⟩ := bind_ok g2
      unfold newTree at u2 v2
      rw [hl] at u2
      rw [hl'] at v2
      have := newTreeD_agree (S := S) h0 O.maxDepth.toNat (fun i hi => hX i (hidx i hi).1 (hidx i hi).2)
        (o := { (defaultXTreeOptions : TreeOptions F) with
          minChildWeight := O.minChildWeight, maxDepth := O.maxDepth, lambda := O.lambda,
          gamma := O.gamma, indexes := some idx, allowedColumns := cols, gradients := some gr,
          hessian := some (s.lv.fn.hessian s.p), y := s.y, scratch := some n })
        (o' := { (defaultXTreeOptions : TreeOptions F) with
          minChildWeight := O.minChildWeight, maxDepth := O.maxDepth, lambda := O.lambda,
          gamma := O.gamma, indexes := some idx, allowedColumns := cols, gradients := some gr',
          hessian := some (s.lv.fn.hessian s'.p), y := s'.y, scratch := some n })
        ⟨rfl, rfl, rfl,
          ⟨by simp only [Option.getD_some]; rw [q1 _ _ _ u1, q1 _ _ _ v1, ly, ly'], fun i hi =>
            q3 _ _ _ _ _ _ i u1 v1 (hy i (hidx i hi).1 (hidx i hi).2) (hp i (hidx i hi).1 (hidx i hi).2)⟩,
          ⟨by simp only [Option.getD_some]; rw [q2, q2, lp, lp'], fun i hi => q4 _ _ i (hp i (hidx i hi).1 (hidx i hi).2)⟩,
          ⟨by simp only; rw [ly, ly'], fun i hi => hy i (hidx i hi).1 (hidx i hi).2⟩⟩ rfl
      rw [u2, v2] at this
      exact (Except.ok.inj this).symm
    subst htt
    obtain ⟨j1, j2, j3, j4⟩ := s.inv hR.i1 hl hk
    obtain ⟨j1', j2', j3', j4'⟩ := s'.inv hR.i2 hl' hk
    refine ⟨⟨j1, j1', fun i hi hK => ?_, ?_, by rw [j3', j3, hR.draws], by rw [j2', j2, hR.b]⟩, by rw [ht, ht', hT]⟩
    · have e1 : X[i]? = some X[i] := List.getElem?_eq_getElem (by omega)
      have e2 : X'[i]? = some X[i] := by rw [← hX i hi hK, e1]
      obtain ⟨v, d, z1, z2, z3⟩ := j4 i _ e1
      obtain ⟨v', d', z1', z2', z3'⟩ := j4' i _ e2
      rw [hR.raw i hi hK] at z2' z3'
      rw [z1] at z1'
      rw [z2] at z2'
      obtain rfl := Except.ok.inj z1'
      cases z2'
      rw [z3, z3']
    · rw [s.hst, s'.hst, earlyStopping_off _ he, earlyStopping_off _ he]
      exact hR.stopped

/-- runs of two loops in step -/
theorem foldlM_both {α β γ : Type} {P : β → γ → Prop} {l : List α} {f : β → α → Go β} {g : γ → α → Go γ}
    (hstep : ∀ a ∈ l, ∀ b c b' c', P b c → f b a = .ok b' → g c a = .ok c' → P b' c') {b b' : β} {c c' : γ} (h : P b c)
    (h1 : l.foldlM f b = .ok b') (h2 : l.foldlM g c = .ok c') : P b' c' := by
  induction l generalizing b c with
  | nil =>
    obtain rfl := Except.ok.inj h1
    obtain rfl := Except.ok.inj h2
    exact h
  | cons a l ih =>
    rw [List.foldlM_cons] at h1 h2
    obtain ⟨b1, e1, h1⟩ := bind_ok h1
    obtain ⟨c1, e2, h2⟩ := bind_ok h2
    exact ih (fun a ha => hstep a (by simp [ha])) (hstep a (by simp) _ _ _ _ h e1 e2) h1 h2

theorem roundSamples_agree {X X' : List (List F)} (hl : X.length = X'.length)
    (h0 : X[0]?.map List.length = X'[0]?.map List.length) (O : Options F) (d : Nat → F) :
    roundSamples X O d = roundSamples X' O d := by
  have hg : (∃ e, goIdx X 0 = .error e ∧ goIdx X' 0 = .error e) ∨
      ∃ a a', goIdx X 0 = .ok a ∧ goIdx X' 0 = .ok a' ∧ a.length = a'.length := by
    unfold goIdx
    rcases q : X[0]? with _ | a <;> rcases q' : X'[0]? with _ | a'
    · exact .inl ⟨_, rfl, rfl⟩
    · rw [q, q'] at h0; simp at h0
    · rw [q, q'] at h0; simp at h0
    · rw [q, q'] at h0
      exact .inr ⟨_, _, rfl, rfl, by simpa using h0⟩
  unfold roundSamples
  rw [hl]
  obtain ⟨e, g1, g2⟩ | ⟨a, a', g1, g2, g3⟩ := hg
  · rw [g1, g2]
  · simp only [g1, g2, g3, bind, Except.bind]

theorem undrawn_rounds {exp : F → F} {S : GoSort} {O : Options F} (hs : rowSub O = true) (he : O.earlyStop ≤ 0)
    (hlf : ∀ lv, O.loss = some lv → lv.fn.Pointwise) {n m : Nat} (hn : 0 < n) {K : Nat → Prop} {X X' : List (List F)}
    (hl : X.length = n) (hl' : X'.length = n) (h0 : X[0]?.map List.length = X'[0]?.map List.length)
    (hX : ∀ i < n, K i → X[i]? = X'[i]?) {ohe ohe' : Dense F} (w1 : ohe.WF) (w2 : ohe'.WF) (r1 : ohe.r = n) (r2 : ohe'.r = n)
    (c1 : ohe.c = m) (c2 : ohe'.c = m) (ho : ∀ i < n, K i → ohe'.row i = ohe.row i) {draws : Nat → F} (q : Nat)
    (hK : ∀ r ∈ executedRounds X O draws q, ∀ i ∈ roundRows X O draws r, K i) {s1 s2 s1' s2' : TrainState F}
    (hR : UndrawnRel exp n m K s1 s2) (hd : s1.draws = draws) (hb : s1.boosters = [])
    (e1 : (List.range q).foldlM (trainRound (softMaxDense exp) S X O ohe m) s1 = .ok s1')
    (e2 : (List.range q).foldlM (trainRound (softMaxDense exp) S X' O ohe' m) s2 = .ok s2') :
    UndrawnRel exp n m K s1' s2' := by
  induction q generalizing s1' s2' with
  | zero =>
    obtain rfl := Except.ok.inj e1
    obtain rfl := Except.ok.inj e2
    exact hR
  | succ q ih =>
    rw [List.range_succ, List.foldlM_append] at e1 e2
    obtain ⟨t1, a1, a2⟩ := bind_ok e1
    obtain ⟨t2, b1, b2⟩ := bind_ok e2
    rw [List.foldlM_cons] at a2 b2
    obtain ⟨u1, a3, a4⟩ := bind_ok a2
    obtain ⟨u2, b3, b4⟩ := bind_ok b2
    obtain rfl := Except.ok.inj a4
    obtain rfl := Except.ok.inj b4
    have hsub : ∀ r ∈ executedRounds X O draws q, r ∈ executedRounds X O draws (q + 1) := by
      intro r hr
      unfold executedRounds at hr ⊢
      rw [List.mem_filter, List.mem_range] at hr ⊢
      exact ⟨by omega, hr.2⟩
    have hR1 := ih (fun r hr => hK r (hsub r hr)) a1 b1
    have hdr := (trainRounds_count a1 hd hb).2
    obtain ⟨idx, cols, d', h1, hc⟩ := trainRound_inv a3
    obtain ⟨idx', cols', d'', h1', hc'⟩ := trainRound_inv b3
    rw [hR1.draws, ← roundSamples_agree (by omega) h0, h1] at h1'
    simp only [Except.ok.injEq, Prod.mk.injEq] at h1'
    obtain ⟨rfl, rfl, rfl⟩ := h1'
    have hR2 : UndrawnRel exp n m K { t1 with draws := d' } { t2 with draws := d' } :=
      ⟨hR1.i1.draws d', hR1.i2.draws d', hR1.raw, hR1.stopped, rfl, hR1.b⟩
    obtain ⟨hlt, rfl⟩ | ⟨hge, acc, f1, rfl⟩ := hc
    · obtain ⟨_, rfl⟩ | ⟨hge', _⟩ := hc'
      · exact hR2
      · exact absurd hlt hge'
    · obtain ⟨hlt', _⟩ | ⟨_, acc', f1', rfl⟩ := hc'
      · exact absurd hlt' hge
      obtain ⟨_, hi⟩ := roundSamples_inv h1
      rw [hs, if_pos rfl, hdr] at hi
      have hi2 : idx = some (roundRows X O draws q) := hi
      subst hi2
      have hex : q ∈ executedRounds X O draws (q + 1) := by
        unfold executedRounds
        rw [List.mem_filter]
        refine ⟨by simp, ?_⟩
        unfold sampleCount
        rw [hs, if_pos rfl]
        simpa using hge
      have hmem : ∀ i ∈ roundRows X O draws q, i < n ∧ K i := by
        intro i hi
        refine ⟨?_, hK q hex i hi⟩
        unfold roundRows at hi
        have := List.mem_range.1 (List.mem_filter.1 hi).1
        omega
      have hx : O.xgb = true := by
        unfold rowSub at hs
        exact (Bool.and_eq_true_iff.1 hs).2
      obtain ⟨z1, z2⟩ := foldlM_both (P := fun a b => UndrawnRel exp n m K a.1 b.1 ∧ b.2 = a.2)
        (fun k hk a b a' b' hP g1 g2 => undrawn_class hx he hlf hn hl hl' h0 hX w1 w2 r1 r2 c1 c2 ho hmem (List.mem_range.1 hk)
          hP.1 hP.2 g1 g2) ⟨hR2, rfl⟩ f1 f1'
      exact ⟨z1.i1.boosters _, z1.i2.boosters _, z1.raw, z1.stopped, z1.draws, by simp only; rw [z1.b, z2]⟩

/-- **C124 (models)**: rows are subsampled and early stopping is off. `K` is any set of rows that contains the rows drawn by
the rounds that are not skipped. Two data sets with the same numbers of rows and columns and the same classes (in the same order)
that agree on the rows in `K` give the same model: the values and the labels of all other rows do not matter. -/
theorem C124_model (exp : F → F) (S : GoSort) (draws : Nat → F) (D D' : DataBunch F) (O : Options F)
    (hs : rowSub O = true) (he : O.earlyStop ≤ 0) (lv : LossVal F) (hlv : O.loss = some lv) (hlf : lv.fn.Pointwise)
    (n c : Nat) (hn : D.data.length = n) (hn' : D'.data.length = n) (hlab : D.labels.length = n) (hlab' : D'.labels.length = n)
    (hc : ∀ row ∈ D.data, row.length = c) (hc' : ∀ row ∈ D'.data, row.length = c)
    (hd : distinctElements D'.labels = distinctElements D.labels)
    (K : Nat → Prop) (hK : ∀ r ∈ executedRounds D.data O draws O.rounds.toNat, ∀ i ∈ roundRows D.data O draws r, K i)
    (hsame : ∀ i < n, K i → D'.data[i]? = D.data[i]? ∧ D'.labels[i]? = D.labels[i]?)
    (M M' : MultiClass F) (h : newMultiClass exp S draws D O = .ok M) (h' : newMultiClass exp S draws D' O = .ok M') : M' = M := by
  obtain ⟨labels, st, ht, rfl⟩ := newMultiClass_inv h
  obtain ⟨labels', st', ht', rfl⟩ := newMultiClass_inv h'
  obtain ⟨hne, rfl, ohe0, st0, ho0, hr0, hc0, hw0, hinit, hrounds⟩ := train_inv ht
  obtain ⟨hne', rfl, ohe0', st0', ho0', hr0', hc0', hw0', hinit', hrounds'⟩ := train_inv ht'
  have hn0 : 0 < n := by rw [← hlab]; exact List.length_pos_iff.2 hne
  obtain ⟨a, a1, a2, a3, a4, a5⟩ := C39_matrix (F := F) D.labels hne
  obtain ⟨b, b1, b2, b3, b4, b5⟩ := C39_matrix (F := F) D'.labels hne'
  unfold DataBunch.oheLabels at ho0 ho0'
  rw [a1] at ho0
  rw [b1] at ho0'
  simp only [Except.ok.injEq, Prod.mk.injEq, and_true] at ho0 ho0'
  subst ho0 ho0'
  rw [hd] at b3 b5 hinit' hrounds' ⊢
  set m := (distinctElements D.labels).length with hm
  have hohe : ∀ i < n, K i → b.row i = a.row i := by
    intro i hi hKi
    apply List.ext_getElem?
    intro j
    by_cases hj : j < m
    · rw [Dense.row_get (by omega) (by omega), Dense.row_get (by omega) (by omega), a5 i j (by omega) hj, b5 i j (by omega) hj,
        (hsame i hi hKi).2]
    · rw [List.getElem?_eq_none (by rw [Dense.row_length b4 (by omega)]; omega),
        List.getElem?_eq_none (by rw [Dense.row_length a4 (by omega)]; omega)]
  obtain ⟨i1, ib, idr, _⟩ := trainInit_inv hinit (by omega : a.r = n) a3
  have hinit2 : st0' = st0 := by
    have e : trainInit (softMaxDense exp) O b m draws = trainInit (softMaxDense exp) O a m draws := by
      unfold trainInit
      rw [a2, b2, a3, b3, hlab, hlab']
    rw [e, hinit] at hinit'
    exact (Except.ok.inj hinit').symm
  subst hinit2
  have hfix := Options.fixMcw_lr O
  have h0 : D.data[0]?.map List.length = D'.data[0]?.map List.length := by
    rw [List.getElem?_eq_getElem (by omega), List.getElem?_eq_getElem (by omega)]
    simp only [Option.map_some]
    rw [hc _ (List.getElem_mem _), hc' _ (List.getElem_mem _)]
  have hsf : rowSub O.fixMcw = true := by
    rw [← hs]; unfold rowSub Options.fixMcw; split <;> rfl
  have hef : O.fixMcw.earlyStop ≤ 0 := by
    have : O.fixMcw.earlyStop = O.earlyStop := by unfold Options.fixMcw; split <;> rfl
    omega
  have hlvf : O.fixMcw.loss = some lv := by
    have : O.fixMcw.loss = O.loss := by unfold Options.fixMcw; split <;> rfl
    rw [this, hlv]
  have hKf : ∀ r ∈ executedRounds D.data O.fixMcw draws O.rounds.toNat, ∀ i ∈ roundRows D.data O.fixMcw draws r, K i := by
    have q1 : executedRounds D.data O.fixMcw draws O.rounds.toNat = executedRounds D.data O draws O.rounds.toNat := by
      unfold Options.fixMcw; split <;> rfl
    have q2 : ∀ r, roundRows D.data O.fixMcw draws r = roundRows D.data O draws r := by
      intro r; unfold Options.fixMcw; split <;> rfl
    rw [q1]
    intro r hr i hi
    exact hK r hr i (by rw [← q2]; exact hi)
  have := undrawn_rounds hsf hef (fun lv' h => by rw [hlvf] at h; cases h; exact hlf) hn0 hn hn' h0
    (fun i hi hKi => (hsame i hi hKi).1.symm) a4 b4 (by omega) (by omega) a3 b3 hohe _ hKf
    (⟨i1, i1, fun _ _ _ => rfl, rfl, rfl, rfl⟩ : UndrawnRel exp n m K st0' st0') idr ib hrounds hrounds'
  unfold toModel
  rw [this.b]

/-- **C124 (training returns the same model)**: on data on which training returns (C22), training on the changed data set returns, and
returns the same model. -/
theorem C124_returns [GoFloatOrd F] (exp : F → F) (S : GoSort) (draws : Nat → F) (D D' : DataBunch F) (O : Options F)
    (hs : rowSub O = true) (he : O.earlyStop ≤ 0) (lv : LossVal F) (hlv : O.loss = some lv) (hlf : lv.fn.Pointwise)
    (hreg : lv.fn.Regular) (hms : 1 ≤ O.minSample) (hX : DataOk D.data) (hX' : DataOk D'.data)
    (n c : Nat) (hn : D.data.length = n) (hn' : D'.data.length = n) (hlab : D.labels.length = n) (hlab' : D'.labels.length = n)
    (hc : ∀ row ∈ D.data, row.length = c) (hc' : ∀ row ∈ D'.data, row.length = c) (hcap : CapOk D.data O) (hcap' : CapOk D'.data O)
    (hd : distinctElements D'.labels = distinctElements D.labels)
    (K : Nat → Prop) (hK : ∀ r ∈ executedRounds D.data O draws O.rounds.toNat, ∀ i ∈ roundRows D.data O draws r, K i)
    (hsame : ∀ i < n, K i → D'.data[i]? = D.data[i]? ∧ D'.labels[i]? = D.labels[i]?) :
    ∃ M, newMultiClass exp S draws D O = .ok M ∧ newMultiClass exp S draws D' O = .ok M := by
  obtain ⟨M, hM⟩ := C22_returns exp S draws D O hX (by omega) lv hlv hreg hcap fun _ => hms
  obtain ⟨M', hM'⟩ := C22_returns exp S draws D' O hX' (by omega) lv hlv hreg hcap' fun _ => hms
  obtain rfl := C124_model exp S draws D D' O hs he lv hlv hlf n c hn hn' hlab hlab' hc hc' hd K hK hsame M M' hM hM'
  exact ⟨M', hM, hM'⟩

end

/-! ### Examples and limits (binary64) -/

/-- the first two rows are drawn in every round, the others never -/
def firstTwo (i : Nat) : F64 := if i % 4 < 2 then .fin (1 / 4) else .fin (3 / 4)

def undrawnD : DataBunch F64 := ⟨[[.fin 0], [.fin 1], [.fin 1], [.fin 1]], [], [0, 1, 1, 1], []⟩
/-- other labels and values in the rows that are not drawn -/
def undrawnD' : DataBunch F64 := ⟨[[.fin 0], [.fin 1], [.fin 1], [.fin 7]], [], [0, 1, 0, 0], []⟩

def undrawnOptions (es : Int) : Options F64 :=
  { (defaultXOptions 0 : Options F64) with
      rounds := 2, subSample := .fin (1 / 2), colSubSample := .fin 1, minSample := 1, earlyStop := es,
      minChildWeight := .fin 1, lambda := .fin 0, gamma := .fin 0, learningRate := .fin 100 }

/-- values of the exponential -/
def undrawnExp : List (F64 × F64) :=
  [(.fin (1 / 2), .fin (1856295125090727 / 1125899906842624)), (.fin (101 / 2), .fin 8548134287298057469952),
   (.fin (-99 / 2), .fin (6763050154118735 / 21267647932558653966460912964485513216))]

theorem undrawn_apart : ∀ X ∈ [undrawnD.data, undrawnD'.data], Apart64 X := by
  intro X hX
  have mem : ∀ X ∈ [undrawnD.data, undrawnD'.data], ∀ row ∈ X, ∀ v ∈ row, ∃ a ∈ [(0 : ℚ), 1, 7], v = .fin a := by decide +kernel
  refine ⟨?_, ?_⟩
  · intro row hr v hv
    obtain ⟨a, ha, rfl⟩ := mem X hX row hr v hv
    simp only [List.mem_cons, List.not_mem_nil, or_false] at ha
    rcases ha with rfl | rfl | rfl <;> exact ⟨_, rfl, by unfold Rep64; decide +kernel, by decide +kernel⟩
  · have hrep : ∀ c ∈ [(1/2 : ℚ), 5], Rep64 c := by unfold Rep64; decide +kernel
    have key : ∀ a ∈ [(0 : ℚ), 1, 7], ∀ b ∈ [(0 : ℚ), 1, 7], a < b → ∃ c ∈ [(1/2 : ℚ), 5], a < c ∧ c < b := by decide +kernel
    intro f row row' a b hr hr' ha hb hab
    obtain ⟨a', ha', e1⟩ := mem X hX row hr _ (List.mem_of_getElem? ha)
    obtain ⟨b', hb', e2⟩ := mem X hX row' hr' _ (List.mem_of_getElem? hb)
    cases e1
    cases e2
    obtain ⟨c, hc, h⟩ := key a ha' b hb' hab
    exact ⟨c, hrep c hc, h⟩

/-- the hypotheses of `C124_returns` are met, with any exponential: replacing the labels of two of four rows and a value changes nothing, and
the model has two rounds -/
example (exp : F64 → F64) : ∃ M, newMultiClass exp GoSort.ins firstTwo undrawnD (undrawnOptions 0) = .ok M ∧
    newMultiClass exp GoSort.ins firstTwo undrawnD' (undrawnOptions 0) = .ok M ∧ M.b.length = 2 := by
  have a1 := undrawn_apart undrawnD.data (by simp)
  have a2 := undrawn_apart undrawnD'.data (by simp)
  obtain ⟨M, h1, h2⟩ := C124_returns exp GoSort.ins firstTwo undrawnD undrawnD' (undrawnOptions 0) (by decide +kernel) (by decide) _ rfl
    sqErrLoss_pointwise sqErrLoss_regular (by decide) ⟨by decide, ⟨1, by decide⟩, a1.bounded.noNaN, a1.midSafe⟩
    ⟨by decide, ⟨1, by decide⟩, a2.bounded.noNaN, a2.midSafe⟩ 4 1 rfl rfl rfl rfl (by decide) (by decide)
    ⟨by decide +kernel, by decide +kernel⟩ ⟨by decide +kernel, by decide +kernel⟩ (by decide) (· < 2) (by decide +kernel) (by decide +kernel)
  refine ⟨M, h1, h2, ?_⟩
  rw [(C22_rounds _ _ _ _ _ _ h1).1]
  decide +kernel

/-- **the limit of C124**: with early stopping, rows that are never drawn do influence the model, because the loss that decides when a
class stops is taken over all rows. The two data sets differ in rows that no round draws; with `EarlyStop` 1 the first model
has no tree in its second round, the second model has two. -/
theorem C124_early_stopping (exp : F64 → F64) (hexp : HasValues exp undrawnExp) :
    ∃ M M', newMultiClass exp GoSort.ins firstTwo undrawnD (undrawnOptions 1) = .ok M ∧
      newMultiClass exp GoSort.ins firstTwo undrawnD' (undrawnOptions 1) = .ok M' ∧
      M.b.map List.length = [2, 0] ∧ M'.b.map List.length = [2, 2] := by
  have key : ∀ (D : DataBunch F64) (l : List Nat), (match trainWith (activationDense (softMaxT undrawnExp)) GoSort.ins firstTwo D
      (undrawnOptions 1) with | .ok (_, st) => decide (st.boosters.map List.length = l) | .error _ => false) = true →
      ∃ M, newMultiClass exp GoSort.ins firstTwo D (undrawnOptions 1) = .ok M ∧ M.b.map List.length = l := by
    intro D l h
    split at h
    · rename_i labels st h1
      refine ⟨toModel exp (undrawnOptions 1) labels st, ?_, of_decide_eq_true h⟩
      unfold newMultiClass
      rw [show train exp GoSort.ins firstTwo D (undrawnOptions 1) = .ok (labels, st) from trainWith_mono (softMaxDenseT_le hexp) _ h1]
      rfl
    · cases h
  obtain ⟨M, h1, h2⟩ := key undrawnD [2, 0] (by decide +kernel)
  obtain ⟨M', h3, h4⟩ := key undrawnD' [2, 2] (by decide +kernel)
  exact ⟨M, M', h1, h3, h2, h4⟩

end Boo
