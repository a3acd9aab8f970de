import Verif.Lemmas.Feats
import Verif.Model.MultiClass
import Verif.Lemmas.XF

/-!
# C14: feature importance; C15: concurrent `Feats.Add`
-/

namespace Boo
open GoFloat
set_option linter.unusedSectionVars false
variable {F : Type} [GoFloat F]

/-! ### C14 -/

/-- **C14, tree**: for a tree that is not a single leaf, `FeatureImportance` returns every feature used in a
split exactly once with the sum of the scores of its splits, best first if no score is NaN. `xgb` is the
argument of `FeatureImportance`. Any sort, any arithmetic with the IEEE comparison laws. -/
theorem C14_tree [GoFloatOrd F] (S : GoSort) (X : List (List F)) (o : TreeOptions F) (t : Tree F)
    (hb : newTree S X o = .ok t) (hsplit : t.splits ≠ []) (xgb : Bool) :
    ∃ fs, t.featureImportance S xgb = .ok (some fs) ∧ Totals fs.items t.splits ∧
      ((∀ p ∈ fs.items, (p.2 ==. p.2) = true) → BestFirst xgb fs.items) := by
  have hc := consistent_of_newTree hb
  have hne : t ≠ .nil := by rintro rfl; exact hsplit rfl
  obtain ⟨g0, e, hx, ht⟩ := featImp_spec S t hne hc (newFeats xgb) [] totals_nil
  refine ⟨g0.sort S, ?_, ht.perm (S.perm _ _), ?_⟩
  · cases t with
    | nil => exact absurd rfl hne
    | node i l r =>
      have hlf : i.leaf = false := by
        rcases hc [] i l r rfl with ⟨_, rfl, rfl⟩ | ⟨h1, _⟩
        · exact absurd rfl hsplit
        · exact h1
      unfold Tree.featureImportance Tree.leaf
      simp only [bind, Except.bind, hlf, Bool.false_eq_true, if_false, e, pure, Except.pure]
  · intro hn
    have := bestFirst_sort S g0 hn
    rw [hx] at this
    exact this

/-- a tree that is a single leaf has no features: an error is returned -/
theorem C14_single_leaf (S : GoSort) (X : List (List F)) [GoFloatOrd F] (o : TreeOptions F) (t : Tree F)
    (hb : newTree S X o = .ok t) (hsplit : t.splits = []) (xgb : Bool) :
    t.featureImportance S xgb = .ok none := by
  have hc := consistent_of_newTree hb
  cases t with
  | nil => exact absurd rfl (newTree_ne_nil hb)
  | node i l r =>
    rcases hc [] i l r rfl with ⟨h1, rfl, rfl⟩ | ⟨_, h2, h3⟩
    · unfold Tree.featureImportance Tree.leaf
      simp only [bind, Except.bind, h1, if_true, pure, Except.pure]
    · cases l with
      | nil => exact absurd rfl h2
      | node => cases r <;> cases hsplit

/-- all splits of an ensemble, in order of round, class, preorder -/
def MultiClass.splits (M : MultiClass F) : List (Nat × F) :=
  M.b.flatMap fun ens => ens.flatMap Tree.splits

theorem ensemble_featImp (S : GoSort) (ts : List (Tree F))
    (h : ∀ t ∈ ts, t ≠ .nil ∧ t.Consistent) (g : Feats F) (l : List (Nat × F))
    (ht : Totals g.items l) :
    ∃ g', ts.foldlM (fun ret t => t.featImp S ret) g = .ok g' ∧ g'.xgb = g.xgb ∧
      Totals g'.items (l ++ ts.flatMap Tree.splits) ∧
      (g' = g ∧ ts = [] ∨ ∃ g0 : Feats F, g' = g0.sort S ∧ g0.xgb = g.xgb) := by
  induction ts generalizing g l with
  | nil => exact ⟨g, rfl, rfl, by simpa using ht, Or.inl ⟨rfl, rfl⟩⟩
  | cons t ts ih =>
    obtain ⟨h1, h2⟩ := h t (by simp)
    obtain ⟨g0, e, hx, ht0⟩ := featImp_spec S t h1 h2 g l ht
    obtain ⟨g', e', hx', ht', hs⟩ := ih (fun t ht => h t (by simp [ht])) (g0.sort S) _
      (ht0.perm (S.perm _ _))
    refine ⟨g', ?_, hx'.trans hx, by simpa using ht', Or.inr ?_⟩
    · rw [List.foldlM_cons]
      simp only [bind, Except.bind, e]
      exact e'
    · rcases hs with ⟨rfl, _⟩ | ⟨g1, h3, h4⟩
      · exact ⟨g0, rfl, hx⟩
      · exact ⟨g1, h3, h4.trans hx⟩

/-- **C14, ensemble**: for a model whose trees are consistent (all trees made by `NewTree` are),
`FeatureImportance` returns every feature used in a split exactly once with its summed score, best first
for the model's kind if no score is NaN. -/
theorem C14_ensemble [GoFloatOrd F] (S : GoSort) (M : MultiClass F)
    (h : ∀ ens ∈ M.b, ∀ t ∈ ens, t ≠ .nil ∧ t.Consistent) :
    ∃ fs, M.featureImportance S = .ok fs ∧ Totals fs.items M.splits ∧
      ((∀ p ∈ fs.items, (p.2 ==. p.2) = true) → BestFirst M.xgb fs.items) := by
  unfold MultiClass.featureImportance MultiClass.splits
  have key : ∀ (b : List (List (Tree F))) (g : Feats F) (l : List (Nat × F)),
      (∀ ens ∈ b, ∀ t ∈ ens, t ≠ .nil ∧ t.Consistent) → Totals g.items l →
      ((∀ p ∈ g.items, (p.2 ==. p.2) = true) → BestFirst g.xgb g.items) →
      ∃ fs, b.foldlM (fun ret ens => ens.foldlM (fun ret t => t.featImp S ret) ret) g = .ok fs ∧
        fs.xgb = g.xgb ∧
        Totals fs.items (l ++ b.flatMap fun ens => ens.flatMap Tree.splits) ∧
        ((∀ p ∈ fs.items, (p.2 ==. p.2) = true) → BestFirst fs.xgb fs.items) := by
    intro b
    induction b with
    | nil => intro g l _ ht hs; exact ⟨g, rfl, rfl, by simpa using ht, hs⟩
    | cons ens b ih =>
      intro g l hb ht hs
      obtain ⟨g', e, hx, ht', hq⟩ := ensemble_featImp S ens (hb ens (by simp)) g l ht
      have hs' : (∀ p ∈ g'.items, (p.2 ==. p.2) = true) → BestFirst g'.xgb g'.items := by
        rcases hq with ⟨rfl, _⟩ | ⟨g0, rfl, _⟩
        · exact hs
        · exact fun hn => bestFirst_sort S g0 hn
      obtain ⟨fs, e2, hx2, ht2, hs2⟩ := ih g' _ (fun ens he => hb ens (by simp [he])) ht' hs'
      refine ⟨fs, ?_, hx2.trans hx, by simpa using ht2, hs2⟩
      rw [List.foldlM_cons]
      simp only [bind, Except.bind, e]
      exact e2
  obtain ⟨fs, e, hx, ht, hs⟩ := key M.b (newFeats M.xgb) [] h totals_nil
    (fun _ => by simp [newFeats, BestFirst])
  exact ⟨fs, e, by simpa using ht, fun hn => by have := hs hn; rw [hx] at this; exact this⟩

/-- In exact arithmetic the score of a feature is the sum of its scores. -/
theorem sumUp_exact {K : Type} [Field K] [LinearOrder K] [FloorRing K] (l : List K) (h : l ≠ []) :
    sumUp (l.map (XF.fin : K → Exact K)) = some (.fin l.sum) := by
  obtain ⟨a, l, rfl⟩ := List.exists_cons_of_ne_nil h
  rw [List.map_cons, sumUp, List.sum_cons]
  congr 1
  clear h
  induction l generalizing a with
  | nil => simp
  | cons b l ih =>
    rw [List.map_cons, List.foldl_cons, Exact.add_fin, ih, List.sum_cons, add_assoc]

/-- a tree with two splits on the same feature (float64): hypotheses of C14 met, result computed -/
example : (match newTree GoSort.ins exX exO with
    | .ok t => decide (t.splits.length = 2)
    | .error _ => false) = true := by decide +kernel

/-- an ensemble of two trees meets the hypotheses -/
def exEnsemble : MultiClass F64 :=
  { b := match newTree GoSort.ins exX exOX with
      | .ok t => [[t], [t]]
      | .error _ => [],
    learningRate := one, classLabels := [1], probTransform := none, baseScore := zero, xgb := true }

example : ∀ ens ∈ exEnsemble.b, ∀ t ∈ ens, t ≠ .nil ∧ t.Consistent := by
  intro ens he t ht
  unfold exEnsemble at he
  cases hb : newTree GoSort.ins exX exOX with
  | error e => simp [hb] at he
  | ok t' =>
    simp only [hb, List.mem_cons, List.not_mem_nil, or_false, or_self] at he
    subst he
    simp only [List.mem_singleton] at ht
    subst ht
    exact ⟨newTree_ne_nil hb, consistent_of_newTree hb⟩

example : exEnsemble.splits.length = 2 := by decide +kernel

/-! ### C15

`Add` looks the feature up without the lock, then takes the lock to update. Each of these is one step; a
thread is a call of `Add`. -/

/-- progress of one call of `Add` -/
inductive AddPhase where
  | start
  | found (index : Nat)
  | notFound
  | done
  deriving DecidableEq

/-- a pending or finished call `Add(feature, gain)` -/
structure AddCall (F : Type) where
  feature : Nat
  gain : F
  phase : AddPhase

/-- shared list and the calls -/
structure AddState (F : Type) where
  items : List (Nat × F)
  calls : List (AddCall F)

/-- tree.go:353-366, one step of the call at position `j`: the unlocked `slices.Index`
(tree.go:354), or the locked update (tree.go:356-358, 361-364). -/
inductive AddStep : AddState F → AddState F → Prop where
  | lookupFound {s : AddState F} {j : Nat} {c : AddCall F} {i : Nat}
      (h : s.calls[j]? = some c) (hp : c.phase = .start)
      (hf : (s.items.map Prod.fst).idxOf? c.feature = some i) :
      AddStep s { s with calls := s.calls.set j { c with phase := .found i } }
  | lookupNone {s : AddState F} {j : Nat} {c : AddCall F}
      (h : s.calls[j]? = some c) (hp : c.phase = .start)
      (hf : (s.items.map Prod.fst).idxOf? c.feature = none) :
      AddStep s { s with calls := s.calls.set j { c with phase := .notFound } }
  | update {s : AddState F} {j : Nat} {c : AddCall F} {i : Nat} {p : Nat × F}
      (h : s.calls[j]? = some c) (hp : c.phase = .found i) (hi : s.items[i]? = some p) :
      AddStep s { items := s.items.set i (p.1, p.2 +. c.gain),
                  calls := s.calls.set j { c with phase := .done } }
  | append {s : AddState F} {j : Nat} {c : AddCall F}
      (h : s.calls[j]? = some c) (hp : c.phase = .notFound) :
      AddStep s { items := s.items ++ [(c.feature, c.gain)],
                  calls := s.calls.set j { c with phase := .done } }

/-- any number of steps -/
inductive AddSteps : AddState F → AddState F → Prop where
  | refl (s : AddState F) : AddSteps s s
  | tail {s t u : AddState F} : AddSteps s t → AddStep t u → AddSteps s u

/-- the state in which all `calls` are about to start on the list `items` -/
def addInit (items adds : List (Nat × F)) : AddState F :=
  ⟨items, adds.map fun p => ⟨p.1, p.2, .start⟩⟩

/-- all calls have returned -/
def AddState.finished (s : AddState F) : Prop := ∀ c ∈ s.calls, c.phase = .done

/-- **C15 is violated**: two concurrent `Add(0, 1)` on an empty set can both miss the feature and append
it, so it is listed twice. Holds for every arithmetic. -/
theorem C15_violated : ∃ s : AddState F,
    AddSteps (addInit [] [(0, one), (0, one)]) s ∧ s.finished ∧ ¬ (s.items.map Prod.fst).Nodup := by
  refine ⟨⟨[(0, one), (0, one)], [⟨0, one, .done⟩, ⟨0, one, .done⟩]⟩, ?_, ?_, by simp⟩
  · refine .tail (.tail (.tail (.tail (.refl _) (.lookupNone (j := 0) (c := ⟨0, one, .start⟩) rfl rfl rfl))
      (.lookupNone (j := 1) (c := ⟨0, one, .start⟩) rfl rfl rfl))
      (.append (j := 0) (c := ⟨0, one, .notFound⟩) rfl rfl))
      (.append (j := 1) (c := ⟨0, one, .notFound⟩) rfl rfl)
  · intro c hc
    simp only [List.mem_cons, List.not_mem_nil, or_false, or_self] at hc
    rw [hc]

/-- Invariant of `Add`: indexes found before still point at the feature. -/
def AddState.Inv (s : AddState F) : Prop :=
  ∀ c ∈ s.calls, ∀ i, c.phase = .found i → ∃ v, s.items[i]? = some (c.feature, v)

theorem idxOf?_get {l : List (Nat × F)} {f i : Nat}
    (h : (l.map Prod.fst).idxOf? f = some i) : ∃ v, l[i]? = some (f, v) := by
  rw [List.idxOf?, List.findIdx?_eq_some_iff_getElem] at h
  obtain ⟨hi, h1, _⟩ := h
  rw [List.length_map] at hi
  refine ⟨l[i].2, ?_⟩
  rw [List.getElem?_eq_getElem hi]
  simp only [List.getElem_map, beq_iff_eq] at h1
  rw [← h1]

theorem AddStep.inv {s t : AddState F} (h : AddStep s t) (hs : s.Inv) : t.Inv := by
  cases h with
  | lookupFound hc hp hf =>
    intro c hcm i hi
    rcases List.mem_or_eq_of_mem_set hcm with h | rfl
    · exact hs c h i hi
    · simp only [AddPhase.found.injEq] at hi
      subst hi
      exact idxOf?_get hf
  | lookupNone hc hp hf =>
    intro c hcm i hi
    rcases List.mem_or_eq_of_mem_set hcm with h | rfl
    · exact hs c h i hi
    · cases hi
  | @update j c0 i0 p hc hp hi0 =>
    intro c hcm i hi
    rcases List.mem_or_eq_of_mem_set hcm with h | rfl
    · obtain ⟨v, hv⟩ := hs c h i hi
      by_cases he : i0 = i
      · subst he
        rw [hi0] at hv
        cases hv
        exact ⟨v +. c0.gain, List.getElem?_set_self ((List.getElem?_eq_some_iff.1 hi0).1)⟩
      · exact ⟨v, by rw [List.getElem?_set_ne he]; exact hv⟩
    · cases hi
  | append hc hp =>
    intro c hcm i hi
    rcases List.mem_or_eq_of_mem_set hcm with h | rfl
    · obtain ⟨v, hv⟩ := hs c h i hi
      refine ⟨v, ?_⟩
      rw [List.getElem?_append_left ((List.getElem?_eq_some_iff.1 hv).1)]
      exact hv
    · cases hi

theorem addInit_inv (items adds : List (Nat × F)) : (addInit items adds).Inv := by
  intro c hc i hi
  simp only [addInit, List.mem_map] at hc
  obtain ⟨p, _, rfl⟩ := hc
  cases hi

theorem AddSteps.inv {s t : AddState F} (h : AddSteps s t) (hs : s.Inv) : t.Inv := by
  induction h with
  | refl => exact hs
  | tail _ h ih => exact h.inv ih

/-- **C15, partial (progress)**: in every interleaving a call that has not returned can take a step: the index found
outside the lock is still in range when the lock is taken (no panic). -/
theorem C15_progress_partial (items adds : List (Nat × F)) (s : AddState F)
    (h : AddSteps (addInit items adds) s) (hn : ¬ s.finished) : ∃ t, AddStep s t := by
  have hinv := h.inv (addInit_inv items adds)
  unfold AddState.finished at hn
  push Not at hn
  obtain ⟨c, hc, hp⟩ := hn
  obtain ⟨j, hj⟩ := List.mem_iff_getElem?.1 hc
  cases hq : c.phase with
  | start =>
    cases hf : (s.items.map Prod.fst).idxOf? c.feature with
    | none => exact ⟨_, .lookupNone hj hq hf⟩
    | some i => exact ⟨_, .lookupFound hj hq hf⟩
  | found i =>
    obtain ⟨v, hv⟩ := hinv c hc i hq
    exact ⟨_, .update hj hq hv⟩
  | notFound => exact ⟨_, .append hj hq⟩
  | done => exact absurd hq hp

section conserve
variable {K : Type} [Field K] [LinearOrder K] [FloorRing K]

/-- the number of a finite value -/
def finVal : Exact K → K
  | .fin x => x
  | _ => 0

/-- total score listed for feature `f` -/
def listed (f : Nat) (items : List (Nat × Exact K)) : K :=
  (items.map fun p => if p.1 = f then finVal p.2 else 0).sum

/-- every score is a (finite) number -/
def AllFinite (items : List (Nat × Exact K)) : Prop := ∀ p ∈ items, ∃ x, p.2 = .fin x

theorem sum_set {α : Type} (φ : α → K) (l : List α) (i : Nat) (a b : α) (h : l[i]? = some a) :
    ((l.set i b).map φ).sum = (l.map φ).sum - φ a + φ b := by
  induction l generalizing i with
  | nil => simp at h
  | cons x l ih =>
    cases i with
    | zero =>
      simp only [List.getElem?_cons_zero, Option.some.injEq] at h
      subst h
      simp only [List.set_cons_zero, List.map_cons, List.sum_cons]
      ring
    | succ i =>
      simp only [List.getElem?_cons_succ] at h
      simp only [List.set_cons_succ, List.map_cons, List.sum_cons, ih i h]
      ring

/-- what call `c` still has to add to feature `f` -/
def owed (f : Nat) (c : AddCall (Exact K)) : K :=
  if c.phase ≠ .done ∧ c.feature = f then finVal c.gain else 0

theorem conserve_step {s t : AddState (Exact K)} (h : AddStep s t) (hinv : s.Inv)
    (hf : AllFinite s.items) (hg : ∀ c ∈ s.calls, ∃ x, c.gain = .fin x) :
    AllFinite t.items ∧ (∀ c ∈ t.calls, ∃ x, c.gain = .fin x) ∧
    ∀ f, listed f t.items + (t.calls.map (owed f)).sum = listed f s.items + (s.calls.map (owed f)).sum := by
  cases h with
  | @lookupFound j c i hc hp hl =>
    refine ⟨hf, ?_, ?_⟩
    · intro c' hc'
      rcases List.mem_or_eq_of_mem_set hc' with h | rfl
      · exact hg _ h
      · exact hg c (List.mem_of_getElem? hc)
    · intro f
      rw [sum_set (owed f) _ _ c _ hc]
      have : owed f { c with phase := .found i } = owed f c := by simp [owed, hp]
      rw [this]; ring
  | @lookupNone j c hc hp hl =>
    refine ⟨hf, ?_, ?_⟩
    · intro c' hc'
      rcases List.mem_or_eq_of_mem_set hc' with h | rfl
      · exact hg _ h
      · exact hg c (List.mem_of_getElem? hc)
    · intro f
      rw [sum_set (owed f) _ _ c _ hc]
      have : owed f { c with phase := .notFound } = owed f c := by simp [owed, hp]
      rw [this]; ring
  | @update j c i p hc hp hi =>
    have hcm := List.mem_of_getElem? hc
    obtain ⟨x, hx⟩ := hg c hcm
    obtain ⟨y, hy⟩ := hf p (List.mem_of_getElem? hi)
    obtain ⟨v, hv⟩ := hinv c hcm i hp
    rw [hi] at hv
    cases hv
    simp only at hy
    subst hy
    refine ⟨?_, ?_, ?_⟩
    · intro q hq
      rcases List.mem_or_eq_of_mem_set hq with h | rfl
      · exact hf _ h
      · exact ⟨y + x, by rw [hx, Exact.add_fin]⟩
    · intro c' hc'
      rcases List.mem_or_eq_of_mem_set hc' with h | rfl
      · exact hg _ h
      · exact ⟨x, hx⟩
    · intro f
      unfold listed
      rw [sum_set (owed f) _ _ c _ hc, sum_set _ _ _ _ _ hi]
      rw [hx, Exact.add_fin]
      by_cases hcf : c.feature = f
      · simp only [owed, hp, hcf, hx, finVal, if_true, ne_eq, not_true, false_and, if_false,
          reduceCtorEq, not_false_eq_true, and_self]
        ring
      · simp only [owed, hp, hcf, if_false, and_false]
        ring
  | @append j c hc hp =>
    have hcm := List.mem_of_getElem? hc
    obtain ⟨x, hx⟩ := hg c hcm
    refine ⟨?_, ?_, ?_⟩
    · intro q hq
      rcases List.mem_append.1 hq with h | h
      · exact hf _ h
      · simp only [List.mem_singleton] at h
        subst h
        exact ⟨x, hx⟩
    · intro c' hc'
      rcases List.mem_or_eq_of_mem_set hc' with h | rfl
      · exact hg _ h
      · exact ⟨x, hx⟩
    · intro f
      unfold listed
      rw [sum_set (owed f) _ _ c _ hc, List.map_append, List.sum_append]
      by_cases hcf : c.feature = f
      · simp [owed, hp, hcf, hx, finVal]
      · simp [owed, hp, hcf]

/-- **C15, partial (no lost update)**: exact arithmetic. However the concurrent calls interleave, when all have
returned the scores listed for a feature add up to the initial score plus all that was added.
Missing from C15: each feature listed once (see `C15_violated`, `C15_unique_partial`). -/
theorem C15_sums_partial (items adds : List (Nat × Exact K)) (hi : AllFinite items)
    (ha : AllFinite adds) (s : AddState (Exact K)) (h : AddSteps (addInit items adds) s)
    (hd : s.finished) (f : Nat) : listed f s.items = listed f items + listed f adds := by
  have key : ∀ s, AddSteps (addInit items adds) s → s.Inv ∧ AllFinite s.items ∧
      (∀ c ∈ s.calls, ∃ x, c.gain = .fin x) ∧
      listed f s.items + (s.calls.map (owed f)).sum = listed f items + listed f adds := by
    intro s h
    induction h with
    | refl =>
      refine ⟨addInit_inv _ _, hi, ?_, ?_⟩
      · intro c hc
        simp only [addInit, List.mem_map] at hc
        obtain ⟨p, hp, rfl⟩ := hc
        exact ha p hp
      · congr 1
        simp only [addInit, List.map_map, listed]
        congr 1
        apply List.map_congr_left
        intro p _
        simp [owed]
    | tail _ hst ih =>
      obtain ⟨i1, i2, i3, i4⟩ := ih
      obtain ⟨j1, j2, j3⟩ := conserve_step hst i1 i2 i3
      exact ⟨hst.inv i1, j1, j2, (j3 f).trans i4⟩
  obtain ⟨_, _, _, h4⟩ := key s h
  have hz : (s.calls.map (owed f)).sum = 0 := by
    apply List.sum_eq_zero
    intro x hx
    obtain ⟨c, hc, rfl⟩ := List.mem_map.1 hx
    simp [owed, hd c hc]
  rw [hz, add_zero] at h4
  exact h4

example : AllFinite [((0 : Nat), (.fin 1 : Exact ℚ)), (0, .fin 2)] := by
  intro p hp
  simp only [List.mem_cons, List.not_mem_nil, or_false] at hp
  rcases hp with rfl | rfl <;> exact ⟨_, rfl⟩

end conserve

/-- number of calls that may still append feature `f` -/
def mayAppend (f : Nat) (c : AddCall F) : Bool :=
  decide (c.feature = f) && (c.phase == .start || c.phase == .notFound)

theorem filter_set_length {α : Type} (P : α → Bool) (l : List α) (i : Nat) (a b : α) (h : l[i]? = some a) :
    ((l.set i b).filter P).length + (if P a then 1 else 0) =
      (l.filter P).length + (if P b then 1 else 0) := by
  induction l generalizing i with
  | nil => simp at h
  | cons x l ih =>
    cases i with
    | zero =>
      simp only [List.getElem?_cons_zero, Option.some.injEq] at h
      subst h
      simp only [List.set_cons_zero, List.filter_cons]
      cases P x <;> cases P b <;> simp
    | succ i =>
      simp only [List.getElem?_cons_succ] at h
      have := ih i h
      simp only [List.set_cons_succ, List.filter_cons]
      cases P x <;> simp <;> omega

/-- Invariant for uniqueness: a feature is either listed once and no call has missed it, or is not listed and at most one
call is going to add it. -/
def UniqueInv (s : AddState F) : Prop :=
  (s.items.map Prod.fst).Nodup ∧ ∀ f, (f ∈ s.items.map Prod.fst →
      ∀ c ∈ s.calls, c.feature = f → c.phase ≠ .notFound) ∧
    (f ∉ s.items.map Prod.fst → (s.calls.filter (mayAppend f)).length ≤ 1)

theorem UniqueInv.step {s t : AddState F} (h : AddStep s t) (hu : UniqueInv s) : UniqueInv t := by
  cases h with
  | @lookupFound j c i hc hp hf =>
    refine ⟨hu.1, fun f => ⟨?_, ?_⟩⟩
    · intro hm c' hc' he
      rcases List.mem_or_eq_of_mem_set hc' with h | rfl
      · exact (hu.2 f).1 hm c' h he
      · simp
    · intro hm
      have h1 := (hu.2 f).2 hm
      have h2 := filter_set_length (mayAppend f) s.calls j c { c with phase := .found i } hc
      have h3 : mayAppend f { c with phase := .found i } = false := by simp [mayAppend]
      rw [h3] at h2
      simp only [Bool.false_eq_true, if_false] at h2
      show ((s.calls.set j _).filter (mayAppend f)).length ≤ 1
      omega
  | @lookupNone j c hc hp hf =>
    have hnf : c.feature ∉ s.items.map Prod.fst := by
      rw [List.idxOf?_eq_none_iff] at hf; exact hf
    refine ⟨hu.1, fun f => ⟨?_, ?_⟩⟩
    · intro hm c' hc' he
      rcases List.mem_or_eq_of_mem_set hc' with h | rfl
      · exact (hu.2 f).1 hm c' h he
      · simp only at he
        subst he
        exact absurd hm hnf
    · intro hm
      have h1 := (hu.2 f).2 hm
      have h2 := filter_set_length (mayAppend f) s.calls j c { c with phase := .notFound } hc
      have h3 : mayAppend f { c with phase := .notFound } = mayAppend f c := by simp [mayAppend, hp]
      rw [h3] at h2
      show ((s.calls.set j _).filter (mayAppend f)).length ≤ 1
      omega
  | @update j c i p hc hp hip =>
    have hfst : (s.items.set i (p.1, p.2 +. c.gain)).map Prod.fst = s.items.map Prod.fst := by
      rw [List.map_set]
      apply List.ext_getElem?
      intro n
      by_cases hn : i = n
      · subst hn
        have := (List.getElem?_eq_some_iff.1 hip).1
        rw [List.getElem?_set_self (by simpa using this), List.getElem?_map, hip]; rfl
      · rw [List.getElem?_set_ne hn]
    unfold UniqueInv
    simp only [hfst]
    refine ⟨hu.1, fun f => ⟨?_, ?_⟩⟩
    · intro hm c' hc' he
      rcases List.mem_or_eq_of_mem_set hc' with h | rfl
      · exact (hu.2 f).1 hm c' h he
      · simp
    · intro hm
      have h1 := (hu.2 f).2 hm
      have h2 := filter_set_length (mayAppend f) s.calls j c { c with phase := .done } hc
      have h3 : mayAppend f { c with phase := .done } = false := by simp [mayAppend]
      rw [h3] at h2
      simp only [Bool.false_eq_true, if_false] at h2
      omega
  | @append j c hc hp =>
    have hcm := List.mem_of_getElem? hc
    have hnf : c.feature ∉ s.items.map Prod.fst := fun hm => (hu.2 c.feature).1 hm c hcm rfl hp
    have hfst : (s.items ++ [(c.feature, c.gain)]).map Prod.fst = s.items.map Prod.fst ++ [c.feature] := by
      simp
    unfold UniqueInv
    simp only [hfst]
    refine ⟨?_, fun f => ⟨?_, ?_⟩⟩
    · rw [List.nodup_append]
      refine ⟨hu.1, by simp, ?_⟩
      intro a ha b hb
      simp only [List.mem_singleton] at hb
      subst hb
      rintro rfl
      exact hnf ha
    · intro hm c' hc' he
      rcases List.mem_append.1 hm with hm | hm
      · rcases List.mem_or_eq_of_mem_set hc' with h | rfl
        · exact (hu.2 f).1 hm c' h he
        · simp
      · simp only [List.mem_singleton] at hm
        subst hm
        have h1 := (hu.2 c.feature).2 hnf
        have h2 := filter_set_length (mayAppend c.feature) s.calls j c { c with phase := .done } hc
        have h3 : mayAppend c.feature { c with phase := .done } = false := by simp [mayAppend]
        have h4 : mayAppend c.feature c = true := by simp [mayAppend, hp]
        rw [h3, h4] at h2
        simp only [Bool.false_eq_true, if_false, if_true] at h2
        have h5 : (s.calls.set j { c with phase := .done }).filter (mayAppend c.feature) = [] := by
          apply List.eq_nil_of_length_eq_zero; omega
        intro hpn
        have : c' ∈ (s.calls.set j { c with phase := .done }).filter (mayAppend c.feature) := by
          rw [List.mem_filter]
          exact ⟨hc', by simp [mayAppend, he, hpn]⟩
        rw [h5] at this
        cases this
    · intro hm
      simp only [List.mem_append, not_or] at hm
      have h1 := (hu.2 f).2 hm.1
      have h2 := filter_set_length (mayAppend f) s.calls j c { c with phase := .done } hc
      have h3 : mayAppend f { c with phase := .done } = false := by simp [mayAppend]
      rw [h3] at h2
      simp only [Bool.false_eq_true, if_false] at h2
      omega

/-- **C15, partial (unique)**: if every feature that is not yet listed is added by at most one of the concurrent calls,
then in every interleaving every feature is listed at most once. Any arithmetic. -/
theorem C15_unique_partial (items adds : List (Nat × F)) (hn : (items.map Prod.fst).Nodup)
    (h1 : ∀ f, f ∉ items.map Prod.fst → (adds.filter fun p => p.1 = f).length ≤ 1)
    (s : AddState F) (h : AddSteps (addInit items adds) s) : (s.items.map Prod.fst).Nodup := by
  have key : ∀ s, AddSteps (addInit items adds) s → s.Inv ∧ UniqueInv s := by
    intro s h
    induction h with
    | refl =>
      refine ⟨addInit_inv _ _, hn, fun f => ⟨?_, ?_⟩⟩
      · intro _ c hc _
        simp only [addInit, List.mem_map] at hc
        obtain ⟨p, _, rfl⟩ := hc
        simp
      · intro hm
        have := h1 f hm
        simp only [addInit, List.filter_map, List.length_map]
        refine le_trans (le_of_eq ?_) this
        congr 1
        apply List.filter_congr
        intro p _
        simp [mayAppend]
    | tail _ hst ih =>
      obtain ⟨i1, i2⟩ := ih
      exact ⟨hst.inv i1, UniqueInv.step hst i2⟩
  exact (key s h).2.1

/-- two concurrent adds of different features, one already listed -/
example : ∀ f, f ∉ ([(0, one)] : List (Nat × F64)).map Prod.fst →
    (([(0, one), (1, one), (0, one)] : List (Nat × F64)).filter fun p => p.1 = f).length ≤ 1 := by
  intro f hf
  simp at hf
  have : (0 : Nat) ≠ f := fun h => hf h.symm
  by_cases h1 : (1 : Nat) = f <;> simp [this, h1]

/-- **C15, partial (sequential)**: calls of `Add` one after the other list each feature once with the sum of
what was added to it. Any arithmetic. -/
theorem C15_sequential_partial (xgb : Bool) (adds : List (Nat × F)) :
    Totals (adds.foldl (fun f p => f.add p.1 p.2) (newFeats xgb : Feats F)).items adds := by
  have key : ∀ (l done : List (Nat × F)) (f : Feats F), Totals f.items done →
      Totals (l.foldl (fun f p => f.add p.1 p.2) f).items (done ++ l) := by
    intro l
    induction l with
    | nil => intro d f h; simpa using h
    | cons p l ih =>
      intro d f h
      have := ih (d ++ [p]) (f.add p.1 p.2) (h.add p.1 p.2)
      simpa using this
  simpa using key adds [] (newFeats xgb) totals_nil

/-- `Merge` is a sequence of `Add`s -/
theorem C15_merge_partial (f g : Feats F) (lf : List (Nat × F)) (hf : Totals f.items lf) :
    Totals (f.merge g).items (lf ++ g.items) := by
  have key : ∀ (l done : List (Nat × F)) (f : Feats F), Totals f.items done →
      Totals (l.foldl (fun f p => f.add p.1 p.2) f).items (done ++ l) := by
    intro l
    induction l with
    | nil => intro d f h; simpa using h
    | cons p l ih =>
      intro d f h
      have := ih (d ++ [p]) (f.add p.1 p.2) (h.add p.1 p.2)
      simpa using this
  exact key g.items lf f hf

end Boo
