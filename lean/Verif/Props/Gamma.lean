import Verif.Lemmas.ScanRel
import Verif.Props.Depth

/-!
# C82: what `Gamma` does to an xgboost tree
-/

namespace Boo
open GoFloat Spec
set_option linter.unusedSectionVars false
variable {K : Type} [Field K] [LinearOrder K] [IsStrictOrderedRing K] [FloorRing K]

/-- A tree of which every split that gains no more than `δ` is undone, with all that is below it. The gain of the splits
that stay is reduced by `δ`; node counts are those of the pruned tree. -/
def Tree.prune (δ : K) : Tree (Exact K) → Tree (Exact K)
  | .nil => .nil
  | .node i l r =>
    if (XF.fin δ <. i.bestScoreSoFar) = true then
      .node { i with
        bestScoreSoFar := i.bestScoreSoFar -. .fin δ
        branches := 1 + (l.prune δ).size + (r.prune δ).size } (l.prune δ) (r.prune δ)
    else .node i.unsplit .nil .nil

/-- the best split of the run with the larger `Gamma`, from that with the smaller one -/
def shiftBest (δ : K) (b : Best (Exact K)) : Best (Exact K) :=
  if (XF.fin δ <. b.score) = true then { b with score := b.score -. .fin δ } else best0 true

/-- scores of best splits: not negative -/
def ScoreOk (s : Exact K) : Prop := s = .inf false ∨ ∃ x, 0 ≤ x ∧ s = .fin x

theorem gainX_gamma (lam A B C D G H : Exact K) (gam δ : K) :
    gainX lam (.fin (gam + 2 * δ)) A B C D G H = gainX lam (.fin gam) A B C D G H -. .fin δ := by
  have h2 : ((2 : Rat) : K) = 2 := by norm_num
  have e : ∀ x : K, ((.fin x : Exact K) /. ofRat 2) = .fin (x / 2) := by
    intro x
    rw [Exact.ofRat_fin, h2, Exact.div_fin _ _ (by norm_num)]
  unfold gainX
  rw [e, e]
  generalize (ofRat (1 / 2) *. _ : Exact K) = Z
  rcases Z with _ | (_ | _) | z
  · rfl
  · rfl
  · rfl
  · simp only [Exact.sub_fin]
    congr 1
    ring

theorem upd_gamma {p p' : ScanParams (Exact K)} {gam δ : K} (hδ : 0 ≤ δ) (hx : p.xgb = true)
    (hg : p.gamma = .fin gam) (hp : p' = { p with gamma := .fin (gam + 2 * δ) }) (nl nr : Int)
    (aL aR bL bR thr : Exact K) (best : Best (Exact K)) (hs : ScoreOk best.score) :
    ScoreOk (p.upd best nl nr aL aR bL bR thr).score ∧
    p'.upd (shiftBest δ best) nl nr aL aR bL bR thr = shiftBest δ (p.upd best nl nr aL aR bL bR thr) := by
  have hz : ((0 : Rat) : K) = 0 := by norm_num
  have eg : p'.gain nl nr aL aR bL bR = p.gain nl nr aL aR bL bR -. .fin δ := by
    rw [hp]
    unfold ScanParams.gain
    rw [hx, if_pos rfl, if_pos rfl, hg]
    exact gainX_gamma ..
  have ef : p'.feature = p.feature := by rw [hp]
  have eb : ∀ a b, p'.better a b = (b <. a) := by
    intro a b; rw [hp]; unfold ScanParams.better; simp only [hx]; rfl
  have eb' : ∀ a b, p.better a b = (b <. a) := by
    intro a b; unfold ScanParams.better; simp only [hx]; rfl
  unfold ScanParams.upd
  rw [eg, ef, eb, eb']
  generalize p.gain nl nr aL aR bL bR = g
  obtain ⟨sc, f, th⟩ := best
  simp only at hs ⊢
  rcases hs with rfl | ⟨s, h0, rfl⟩
  · -- the score is infinite: nothing is better
    have n1 : ((.inf false : Exact K) <. g) = false := by rcases g with _ | (_ | _) | x <;> rfl
    have n2 : ((.inf false : Exact K) <. (g -. .fin δ)) = false := by rcases g with _ | (_ | _) | x <;> rfl
    have sh : shiftBest δ ⟨.inf false, f, th⟩ = (⟨.inf false, f, th⟩ : Best (Exact K)) := rfl
    rw [n1, sh]
    simp only [n2, Bool.false_eq_true, if_false]
    exact ⟨Or.inl rfl, sh.symm⟩
  · have ok : ScoreOk (XF.fin s : Exact K) := Or.inr ⟨s, h0, rfl⟩
    have sh : (shiftBest δ ⟨.fin s, f, th⟩ : Best (Exact K)) =
        if δ < s then ⟨.fin (s - δ), f, th⟩ else best0 true := by
      unfold shiftBest
      simp only [XF.fin_lt, decide_eq_true_eq, Exact.sub_fin]
    have b0 : (best0 true : Best (Exact K)).score = .fin 0 := by
      show (zero : Exact K) = _
      rw [Exact.zero_fin, hz]
    have keep : ∀ s2 : Exact K, ((shiftBest δ ⟨.fin s, f, th⟩ : Best (Exact K)).score <. s2) = false →
        (if ((shiftBest δ ⟨.fin s, f, th⟩ : Best (Exact K)).score <. s2) = true then ⟨s2, p.feature, thr⟩
          else shiftBest δ ⟨.fin s, f, th⟩) = shiftBest δ ⟨.fin s, f, th⟩ := by
      intro s2 h; rw [h]; simp
    rcases g with _ | (_ | _) | x
    · -- NaN
      have n1 : ((.fin s : Exact K) <. .nan) = false := rfl
      rw [n1]
      simp only [Bool.false_eq_true, if_false]
      refine ⟨ok, keep _ ?_⟩
      generalize (shiftBest δ ⟨.fin s, f, th⟩).score = q
      rcases q with _ | (_ | _) | q <;> rfl
    · -- +Inf
      have n1 : ((.fin s : Exact K) <. .inf false) = true := rfl
      rw [n1]
      simp only [if_true]
      refine ⟨Or.inl rfl, ?_⟩
      have n2 : ((.inf false : Exact K) -. .fin δ) = .inf false := rfl
      rw [n2]
      have n3 : ((shiftBest δ ⟨.fin s, f, th⟩ : Best (Exact K)).score <. .inf false) = true := by
        rw [sh]
        split
        · rfl
        · rw [b0]; rfl
      rw [n3]
      rfl
    · -- -Inf
      have n1 : ((.fin s : Exact K) <. .inf true) = false := rfl
      rw [n1]
      simp only [Bool.false_eq_true, if_false]
      refine ⟨ok, keep _ ?_⟩
      have n2 : ((.inf true : Exact K) -. .fin δ) = .inf true := rfl
      rw [n2]
      generalize (shiftBest δ ⟨.fin s, f, th⟩).score = q
      rcases q with _ | (_ | _) | q <;> rfl
    · simp only [XF.fin_lt, decide_eq_true_eq, Exact.sub_fin]
      by_cases hsx : s < x
      · rw [if_pos hsx]
        refine ⟨Or.inr ⟨x, by linarith, rfl⟩, ?_⟩
        have shx : (shiftBest δ ⟨.fin x, p.feature, thr⟩ : Best (Exact K)) =
            if δ < x then ⟨.fin (x - δ), p.feature, thr⟩ else best0 true := by
          unfold shiftBest
          simp only [XF.fin_lt, decide_eq_true_eq, Exact.sub_fin]
        rw [sh, shx]
        by_cases h1 : δ < s
        · rw [if_pos h1, if_pos (by linarith : δ < x)]
          simp only [XF.fin_lt, decide_eq_true_eq]
          rw [if_pos (by linarith)]
        · rw [if_neg h1, b0]
          simp only [XF.fin_lt, decide_eq_true_eq]
          by_cases h2 : δ < x
          · rw [if_pos h2, if_pos (by linarith)]
          · rw [if_neg h2, if_neg (by linarith)]
      · rw [if_neg hsx]
        refine ⟨ok, keep _ ?_⟩
        rw [sh]
        split
        · simp only [XF.fin_lt, decide_eq_false_iff_not]; linarith
        · rw [b0]; simp only [XF.fin_lt, decide_eq_false_iff_not]; linarith

theorem search_gamma {S : GoSort} {X : List (List (Exact K))} {o : TreeOptions (Exact K)} {n : Nat} {gam δ : K}
    (hδ : 0 ≤ δ) (hx : o.xgb = true) (hg : o.gamma = .fin gam) {b : Best (Exact K)}
    (h : searchSplit S X o n (best0 true) = .ok b) :
    searchSplit S X { o with gamma := .fin (gam + 2 * δ) } n (best0 true) = .ok (shiftBest δ b) ∧ ScoreOk b.score := by
  have hz : ((0 : Rat) : K) = 0 := by norm_num
  have b0 : (best0 true : Best (Exact K)).score = .fin 0 := by
    show (zero : Exact K) = _
    rw [Exact.zero_fin, hz]
  have hs0 : shiftBest δ (best0 true : Best (Exact K)) = best0 true := by
    unfold shiftBest
    rw [b0]
    simp only [XF.fin_lt, decide_eq_true_eq]
    rw [if_neg (by linarith)]
  obtain ⟨b', h1, h2, h3⟩ := search_map_rel (S := S) (X := X) (X' := X) (o := o)
    (o' := { o with gamma := .fin (gam + 2 * δ) }) (n := n) (init := best0 true) (init' := best0 true) (b := b)
    (fun b b' => ScoreOk b.score ∧ b' = shiftBest δ b) rfl (by
      rintro f best _ b ⟨hs, rfl⟩ hf
      obtain ⟨col, hc, hl, ⟨_, g, hh, sg, sh, e1, e2, e3, e4, rfl⟩ | ⟨hx', _⟩⟩ := findBetterSplit_inv hf
      · refine ⟨_, findBetterSplit_mk_xgb (o := { o with gamma := .fin (gam + 2 * δ) }) hc hl hx e1 e2 e3 e4, ?_⟩
        refine scan_map_rel
          (p := ⟨true, toInt o.minChildWeight, o.lambda, o.gamma, GoFloat.sum g, GoFloat.sum hh,
            (o.indexes.getD []).length, f⟩)
          (p' := ⟨true, toInt o.minChildWeight, o.lambda, .fin (gam + 2 * δ), GoFloat.sum g, GoFloat.sum hh,
            (o.indexes.getD []).length, f⟩) rfl (fun _ _ a b => a = b) (fun a b => a = b)
          (fun b b' => ScoreOk b.score ∧ b' = shiftBest δ b) (fun r r' h => by rw [h]) ?_ ?_ _ _
          (List.forall₂_refl _) 0 _ (le_refl _) ?_ _ _ _ _ _ _ _ _ rfl _ _ ⟨hs, rfl⟩
        · intro nl nr aL aR bL bR aL' aR' bL' bR' x a b x' a' b' hq he
          cases hq; cases he; rfl
        · rintro nl nr aL aR bL bR aL' aR' bL' bR' thr best _ _ _ hq ⟨hs, rfl⟩
          cases hq
          exact upd_gamma hδ rfl hg rfl nl nr _ _ _ _ thr best hs
        · simp only [List.length_zip, argSort_snd_length, sampleSlice_length e3, sampleSlice_length e4,
            argSort_fst_length, sampleCol_length hc, min_self]
      · rw [hx] at hx'; cases hx')
    ⟨Or.inr ⟨0, le_refl _, b0⟩, hs0.symm⟩ h
  rw [h3] at h1
  exact ⟨h1, h2⟩

theorem shiftBest_leaf {o : TreeOptions (Exact K)} {X : List (List (Exact K))} {v : Exact K} {n k : Nat} {δ : K}
    {b : Best (Exact K)} (hx : o.xgb = true) (hδ : 0 ≤ δ) (hs : ScoreOk b.score)
    (hlf : (mkInfo o X v n b k).leaf = true) : (XF.fin δ <. b.score) = false := by
  have hz : ((0 : Rat) : K) = 0 := by norm_num
  unfold NodeInfo.leaf mkInfo at hlf
  simp only [hx, if_true, Exact.zero_fin, hz] at hlf
  rcases hs with h | ⟨x, h0, h⟩
  · rw [h] at hlf; cases hlf
  · rw [h, XF.fin_eq, decide_eq_true_eq] at hlf
    rw [h, XF.fin_lt, decide_eq_false_iff_not]
    linarith

theorem unsplit_gamma {X : List (List (Exact K))} {o : TreeOptions (Exact K)} (hx : o.xgb = true) (g' : Exact K)
    (v : Exact K) (n : Nat) (b : Best (Exact K)) (k : Nat) :
    NodeInfo.unsplit (mkInfo o X v n b k) = mkInfo { o with gamma := g' } X v n (best0 true) 1 := by
  unfold NodeInfo.unsplit mkInfo best0 score0
  simp only [hx]
  rfl

theorem newTreeD_prune {S : GoSort} {X : List (List (Exact K))} {gam δ : K} (hδ : 0 ≤ δ) (d : Nat)
    (o : TreeOptions (Exact K)) (t : Tree (Exact K)) (hx : o.xgb = true) (hg : o.gamma = .fin gam)
    (h : newTreeD S X d o = .ok t) :
    newTreeD S X d { o with gamma := .fin (gam + 2 * δ) } = .ok (t.prune δ) ∧ (t.prune δ).branches = (t.prune δ).size := by
  have hz : ((0 : Rat) : K) = 0 := by norm_num
  have b0 : (best0 true : Best (Exact K)).score = .fin 0 := by
    show (zero : Exact K) = _
    rw [Exact.zero_fin, hz]
  induction d generalizing o t with
  | zero =>
    obtain ⟨v, row0, hv, hr, hxx, ⟨_, rfl⟩ | ⟨_, best, h0, _⟩ | ⟨d1, best, col, tl, tr, h0, _⟩⟩ :=
      newTreeD_inv _ _ _ _ _ h
    · have : (XF.fin δ <. (mkInfo o X v row0.length (best0 o.xgb) 1).bestScoreSoFar) = false := by
        show (XF.fin δ <. (best0 o.xgb : Best (Exact K)).score) = false
        rw [hx, b0, XF.fin_lt, decide_eq_false_iff_not]; linarith
      have e : Tree.prune δ (.node (mkInfo o X v row0.length (best0 o.xgb) 1) .nil .nil) =
          .node (mkInfo { o with gamma := .fin (gam + 2 * δ) } X v row0.length (best0 o.xgb) 1) .nil .nil := by
        rw [Tree.prune, this, unsplit_gamma hx (.fin (gam + 2 * δ)), hx]; rfl
      rw [e]
      exact ⟨newTreeD_mk_zero (o := { o with gamma := .fin (gam + 2 * δ) }) hxx hv hr, rfl⟩
    · omega
    · omega
  | succ d ih =>
    obtain ⟨v, row0, hv, hr, hxx, ⟨h0, _⟩ | ⟨_, best, _, hs, hl, rfl⟩ |
      ⟨d1, best, col, tl, tr, h0, hs, hl, hc, h1, h2, rfl⟩⟩ := newTreeD_inv _ _ _ _ _ h
    · omega
    · rw [hx] at hs
      obtain ⟨s1, s2⟩ := search_gamma (o := o.fill X) hδ hx hg hs
      have hn := shiftBest_leaf hx hδ s2 hl
      have hb : shiftBest δ best = best0 true := by unfold shiftBest; rw [hn]; rfl
      rw [hb] at s1
      have e : Tree.prune δ (.node (mkInfo o X v row0.length best 1) .nil .nil) =
          .node (mkInfo { o with gamma := .fin (gam + 2 * δ) } X v row0.length (best0 true) 1) .nil .nil := by
        rw [Tree.prune]
        have : (XF.fin δ <. (mkInfo o X v row0.length best 1).bestScoreSoFar) = false := hn
        rw [this, unsplit_gamma hx (.fin (gam + 2 * δ))]; rfl
      rw [e]
      refine ⟨newTreeD_mk_leaf (o := { o with gamma := .fin (gam + 2 * δ) }) hxx hv hr ?_ ?_, rfl⟩
      · show searchSplit S X _ row0.length (best0 o.xgb) = _
        rw [show (best0 o.xgb : Best (Exact K)) = best0 true by rw [hx]]; exact s1
      · have := leaf_best0 { o with gamma := XF.fin (gam + 2 * δ) } X v row0.length 1
        rw [show (best0 true : Best (Exact K)) = best0 o.xgb by rw [hx]]
        exact this
    · cases h0
      rw [hx] at hs
      obtain ⟨s1, s2⟩ := search_gamma (o := o.fill X) hδ hx hg hs
      by_cases hn : (XF.fin δ <. best.score) = true
      · have hb : shiftBest δ best = ⟨best.score -. .fin δ, best.feature, best.threshold⟩ := by
          unfold shiftBest; rw [hn]; rfl
        rw [hb] at s1
        obtain ⟨a1, a2⟩ := ih (o.child X (goLeft best.threshold col (o.idx X))) tl hx hg h1
        obtain ⟨c1, c2⟩ := ih (o.child X (goRight best.threshold col (o.idx X))) tr hx hg h2
        have e : Tree.prune δ (.node (mkInfo o X v row0.length best (1 + tl.branches + tr.branches)) tl tr) =
            .node (mkInfo { o with gamma := .fin (gam + 2 * δ) } X v row0.length
              ⟨best.score -. .fin δ, best.feature, best.threshold⟩ (1 + (tl.prune δ).branches + (tr.prune δ).branches))
              (tl.prune δ) (tr.prune δ) := by
          rw [Tree.prune]
          have : (XF.fin δ <. (mkInfo o X v row0.length best (1 + tl.branches + tr.branches)).bestScoreSoFar) = true := hn
          rw [if_pos this, a2, c2]
          rfl
        refine ⟨?_, ?_⟩
        · rw [e]
          refine newTreeD_mk_node (o := { o with gamma := .fin (gam + 2 * δ) })
            (best := ⟨best.score -. .fin δ, best.feature, best.threshold⟩) hxx hv hr ?_ ?_ hc a1 c1
          · show searchSplit S X _ row0.length (best0 o.xgb) = _
            rw [show (best0 o.xgb : Best (Exact K)) = best0 true by rw [hx]]; exact s1
          · unfold NodeInfo.leaf mkInfo
            simp only [hx, if_true, Exact.zero_fin, hz]
            rcases s2 with h | ⟨x, h0, h⟩
            · rw [h]; rfl
            · rw [h] at hn ⊢
              simp only [XF.fin_lt, decide_eq_true_eq] at hn
              rw [Exact.sub_fin, XF.fin_eq, decide_eq_false_iff_not]
              intro hq; linarith
        · rw [e]
          show 1 + _ + _ = _ + _ + 1
          omega
      · have hn' : (XF.fin δ <. best.score) = false := by simpa using hn
        have hb : shiftBest δ best = best0 true := by unfold shiftBest; rw [hn']; rfl
        rw [hb] at s1
        have e : Tree.prune δ (.node (mkInfo o X v row0.length best (1 + tl.branches + tr.branches)) tl tr) =
            .node (mkInfo { o with gamma := .fin (gam + 2 * δ) } X v row0.length (best0 true) 1) .nil .nil := by
          rw [Tree.prune]
          have : (XF.fin δ <. (mkInfo o X v row0.length best (1 + tl.branches + tr.branches)).bestScoreSoFar) = false := hn'
          rw [this, unsplit_gamma hx (.fin (gam + 2 * δ))]; rfl
        rw [e]
        refine ⟨newTreeD_mk_leaf (o := { o with gamma := .fin (gam + 2 * δ) }) hxx hv hr ?_ ?_, rfl⟩
        · show searchSplit S X _ row0.length (best0 o.xgb) = _
          rw [show (best0 o.xgb : Best (Exact K)) = best0 true by rw [hx]]; exact s1
        · have := leaf_best0 { o with gamma := XF.fin (gam + 2 * δ) } X v row0.length 1
          rw [show (best0 true : Best (Exact K)) = best0 o.xgb by rw [hx]]
          exact this

/-- **C82**: with a larger `Gamma` and everything else equal, `NewTree` builds the same tree with every split undone that
gained no more than half the increase of `Gamma` (exact arithmetic, any data and targets). -/
theorem C82_prune_partial (S : GoSort) (X : List (List (Exact K))) (o : TreeOptions (Exact K)) (t : Tree (Exact K)) (gam gam' : K)
    (h : newTree S X o = .ok t) (hx : o.xgb = true) (hg : o.gamma = .fin gam) (hle : gam ≤ gam') :
    newTree S X { o with gamma := .fin gam' } = .ok (t.prune ((gam' - gam) / 2)) := by
  have := (newTreeD_prune (S := S) (X := X) (gam := gam) (δ := (gam' - gam) / 2) (by linarith) o.maxDepth.toNat o t hx hg h).1
  have e : gam + 2 * ((gam' - gam) / 2) = gam' := by ring
  rw [e] at this
  exact this

/-! ### The hypotheses are met; binary64 -/

/-- an xgboost tree of depth 2 on the data `exXQ`, with the given `Gamma` -/
def gammaTree (gam : ℚ) : Go (Tree (Exact ℚ)) :=
  newTree GoSort.ins (finRows exXQ) { exOXQ with gradients := some ([1, 2, -10, -16].map XF.fin), lambda := .fin 0, gamma := .fin gam }

/-- the hypotheses are met, and a larger `Gamma` prunes: the numbers of nodes for `Gamma` 0, 1, 64, 256 -/
example : [0, 1, 64, 256].map (fun g => ((gammaTree g).map Tree.size).toOption) = [some 7, some 5, some 3, some 1] := by
  decide +kernel

/-- four rows, two features -/
def gamX : List (List F64) := [[.fin 0, .fin 0], [.fin 0, .fin 1], [.fin 1, .fin 0], [.fin 1, .fin 1]]
/-- gradients for which the splits on the two features have neighbouring gains -/
def gamO (gam : ℚ) : TreeOptions F64 :=
  { (defaultXTreeOptions : TreeOptions F64) with
    gradients := some ([6755399441055745 / 4503599627370496, 0, 1 / 4503599627370496,
      -3377699720527873 / 2251799813685248].map XF.fin)
    hessian := some ([1, 1, 1, 1].map XF.fin), lambda := .fin 0, gamma := .fin gam, maxDepth := 1 }

/-- the feature on which the root is split -/
def rootFeature {F : Type} : Go (Tree F) → Option Nat
  | .ok (.node i (.node ..) _) => some i.splitFeatureIndex
  | _ => none

/-- all numbers in the example are float64 -/
example : ∀ x ∈ [6755399441055745 / 4503599627370496, 0, 1 / 4503599627370496, -3377699720527873 / 2251799813685248, 1],
    Rep64 x := by unfold Rep64; decide +kernel

/-- **C82, binary64**: in float64 arithmetic the claim fails. The root of the tree with `Gamma = 0` is split on feature 1,
that of the tree with a (tiny) positive `Gamma` on feature 0: subtracting `Gamma/2` rounds two gains to the same number,
and the first candidate wins. -/
theorem C82_violated_binary64 : rootFeature (newTree GoSort.ins gamX (gamO 0)) = some 1 ∧
    rootFeature (newTree GoSort.ins gamX (gamO (1 / 4503599627370496))) = some 0 := by decide +kernel

end Boo
