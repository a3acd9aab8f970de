import Verif.Spec.EarlyRun

/-!
# Runs of the training that agree

Two descriptions of a run (`StoppedRun`) whose trees correspond to each other one by one have corresponding tables.
-/

namespace Boo
open GoFloat
set_option linter.unusedSectionVars false
variable {F : Type} [GoFloat F]

theorem filterMap_single {α β : Type} (f : α → Option β) (a : α) : [a].filterMap f = (f a).toList := by
  cases h : f a <;> simp [h]

theorem madeBefore_trees (A : List (List (Option (Tree F)))) (r k j : Nat) :
    alignedTrees (madeBefore A r k) j = (List.range (if j < k then r + 1 else r)).filterMap fun r' => placeOf A r' j := by
  have h1 : ∀ r, alignedTrees (A.take r) j = (List.range r).filterMap fun r' => placeOf A r' j := by
    intro r
    induction r with
    | zero => rfl
    | succ r ih =>
      rw [List.range_succ, List.filterMap_append, ← ih, List.take_add_one]
      unfold alignedTrees placeOf
      rw [List.filterMap_append]
      congr 1
      rw [filterMap_single]
      cases A[r]? with
      | none => rfl
      | some ens => exact filterMap_single _ _
  have h2 : alignedTrees (madeBefore A r k) j = alignedTrees (A.take r) j ++ (((A.getD r []).take k)[j]?.join).toList := by
    unfold madeBefore alignedTrees
    rw [List.filterMap_append, filterMap_single]
  rw [h2, h1]
  by_cases hj : j < k
  · rw [if_pos hj, List.range_succ, List.filterMap_append, List.getElem?_take_of_lt hj]
    congr 1
    rw [filterMap_single]
    unfold placeOf
    rw [List.getD_eq_getElem?_getD]
    cases A[r]? <;> rfl
  · rw [if_neg hj, List.getElem?_eq_none_iff.2 (by simp; omega)]
    simp

theorem scoreAfter_map {base lr : F} {f : Tree F → Tree F} {x y : List F} {ts : List (Tree F)}
    (h : ∀ t ∈ ts, (f t).predictSingle y = t.predictSingle x) : scoreAfter base lr (ts.map f) y = scoreAfter base lr ts x := by
  unfold scoreAfter
  induction ts generalizing base with
  | nil => rfl
  | cons t ts ih =>
    rw [List.map_cons, List.foldlM_cons, List.foldlM_cons, h t List.mem_cons_self]
    cases t.predictSingle x with
    | error e => rfl
    | ok v =>
      simp only [bind, Except.bind, pure, Except.pure]
      exact ih fun t ht => h t (List.mem_cons_of_mem _ ht)

/-- the tables correspond up to class `k` of round `r` -/
def Agree (f : Tree F → Tree F) (P : Tree F → Prop) (A A' : List (List (Option (Tree F)))) (r k : Nat) : Prop :=
  ∀ r' j, (r' < r ∨ r' = r ∧ j < k) → placeOf A' r' j = (placeOf A r' j).map f ∧ ∀ t, placeOf A r' j = some t → P t

theorem Agree.probs {exp : F → F} {base lr : F} {m : Nat} {f : Tree F → Tree F} {P : Tree F → Prop} {ρ : List F → List F}
    {A A' : List (List (Option (Tree F)))} {r k c : Nat} {data : List (List F)} (h : Agree f P A A' r k)
    (hρ : ∀ row ∈ data, ∀ t, P t → (f t).predictSingle (ρ row) = t.predictSingle row) {p p' : List F}
    (h1 : AlignedProbs exp base lr m (madeBefore A r k) data c p)
    (h2 : AlignedProbs exp base lr m (madeBefore A' r k) (data.map ρ) c p') : p' = p := by
  obtain ⟨a1, a2⟩ := h1
  obtain ⟨b1, b2⟩ := h2
  apply List.ext_getElem?
  intro i
  by_cases hi : i < data.length
  · have hd := List.getElem?_eq_getElem hi
    obtain ⟨s, pr, c1, c2, v, c3, c4⟩ := a2 i _ hd
    obtain ⟨s', pr', d1, d2, v', d3, d4⟩ := b2 i (ρ data[i]) (by rw [List.getElem?_map, hd]; rfl)
    have hs : alignedScores base lr m (madeBefore A' r k) (ρ data[i]) = alignedScores base lr m (madeBefore A r k) data[i] := by
      unfold alignedScores
      congr 1
      funext j
      have hin : ∀ r' < (if j < k then r + 1 else r), r' < r ∨ r' = r ∧ j < k := by
        intro r' hr'
        split at hr' <;> omega
      have e : alignedTrees (madeBefore A' r k) j = (alignedTrees (madeBefore A r k) j).map f := by
        rw [madeBefore_trees, madeBefore_trees, List.map_filterMap]
        apply List.filterMap_congr
        intro r' hr'
        rw [(h r' j (hin r' (List.mem_range.1 hr'))).1]
      rw [e]
      refine scoreAfter_map fun t ht => hρ _ (List.getElem_mem hi) t ?_
      rw [madeBefore_trees, List.mem_filterMap] at ht
      obtain ⟨r', h1, h2⟩ := ht
      exact (h r' j (hin r' (List.mem_range.1 h1))).2 t h2
    rw [hs, c1] at d1
    cases d1
    rw [c2] at d2
    cases d2
    rw [c3] at d3
    cases d3
    rw [c4, d4]
  · rw [List.length_map] at b1
    rw [List.getElem?_eq_none_iff.2 (by omega), List.getElem?_eq_none_iff.2 (by omega)]

theorem placeOf_lt {A : List (List (Option (Tree F)))} {r k m : Nat} (hw : ∀ ens ∈ A, ens.length = m)
    (h : (placeOf A r k).isSome) : r < A.length ∧ k < m := by
  unfold placeOf at h
  cases hA : A[r]? with
  | none => rw [hA] at h; cases h
  | some ens =>
    rw [hA] at h
    refine ⟨(List.getElem?_eq_some_iff.1 hA).1, ?_⟩
    rw [← hw ens (List.mem_of_getElem? hA)]
    by_contra hc
    simp only [Option.bind_some] at h
    rw [List.getElem?_eq_none_iff.2 (by omega)] at h
    cases h

/-- two runs with corresponding trees -/
theorem StoppedRun.agree {exp : F → F} {S S' : GoSort} {draws draws' : Nat → F} {D D' : DataBunch F} {O : Options F} {classes : List Int}
    {A A' : List (List (Option (Tree F)))} {L L' : Nat → Nat → F} {f : Tree F → Tree F} {P : Tree F → Prop} {ρ : List F → List F}
    (h : StoppedRun exp S draws D O classes A L) (h' : StoppedRun exp S' draws' D' O classes A' L')
    (hdata : D'.data = D.data.map ρ) (hlabels : D'.labels = D.labels)
    (hex : executedRounds D'.data O draws' O.rounds.toNat = executedRounds D.data O draws O.rounds.toNat)
    (hsc : sampleCount D'.data O draws' 0 = sampleCount D.data O draws 0)
    (hρ : ∀ row ∈ D.data, ∀ t, P t → (f t).predictSingle (ρ row) = t.predictSingle row)
    (hfit : ∀ r k tree tree' lab lv round p, placeOf A r k = some tree → classes[k]? = some lab → O.loss = some lv →
      (executedRounds D.data O draws O.rounds.toNat)[r]? = some round →
      AlignedProbs exp O.baseScore O.learningRate classes.length (madeBefore A r k) D.data k p →
      FittedTree S draws D O lab lv round p tree → FittedTree S' draws' D' O lab lv round p tree' → tree' = f tree ∧ P tree) :
    A' = A.map (List.map (Option.map f)) ∧ ∀ r k t, placeOf A r k = some t → P t := by
  have hlen : A'.length = A.length := by rw [h.rounds, h'.rounds, hex]
  have hlb : lossBefore D' O draws' = lossBefore D O draws := by
    unfold lossBefore
    rw [hsc]
  have down : ∀ r k, r < A.length → k < classes.length → (placeOf A r k).isSome → ∀ r' ≤ r, (placeOf A r' k).isSome := by
    intro r k
    induction r with
    | zero => intro _ _ hs r' hr'; rw [Nat.le_zero.1 hr']; exact hs
    | succ r ih =>
      intro hr hk hs r' hr'
      rcases Nat.lt_or_ge r' (r + 1) with hlt | hge
      · exact ih (by omega) hk ((h.next r k hr hk).1 hs).1 r' (by omega)
      · rw [show r' = r + 1 by omega]; exact hs
  have step : ∀ r k, Agree f P A A' r k → placeOf A' r k = (placeOf A r k).map f ∧ ∀ t, placeOf A r k = some t → P t := by
    intro r k hag
    have hsome : (placeOf A' r k).isSome ↔ (placeOf A r k).isSome := by
      by_cases hrk : r < A.length ∧ k < classes.length
      swap
      · constructor
        · intro hs; have := placeOf_lt h'.width hs; exact absurd ⟨by omega, this.2⟩ hrk
        · intro hs; exact absurd (placeOf_lt h.width hs) hrk
      obtain ⟨hr, hk⟩ := hrk
      cases r with
      | zero => exact ⟨fun _ => h.first k hk hr, fun _ => h'.first k hk (by omega)⟩
      | succ r =>
        rw [h.next r k hr hk, h'.next r k (by omega) hk, hlb]
        have e := (hag r k (by omega)).1
        have e1 : (placeOf A' r k).isSome ↔ (placeOf A r k).isSome := by rw [e, Option.isSome_map]
        rw [e1]
        refine and_congr_right fun hs => ?_
        refine not_congr (and_congr_right fun he => ?_)
        have hL : ∀ r' ≤ r, L' k r' = L k r' := by
          intro r' hr'
          have hs' := down r k (by omega) hk hs r' hr'
          obtain ⟨t, ht⟩ := Option.isSome_iff_exists.1 hs'
          obtain ⟨lab, lv, p, a1, a2, a3, a4⟩ := h.loss he r' k t ht
          obtain ⟨lab', lv', p', b1, b2, b3, b4⟩ := h'.loss he r' k (f t) (by rw [(hag r' k (by omega)).1, ht]; rfl)
          rw [a1] at b1
          cases b1
          rw [a2] at b2
          cases b2
          rw [hdata] at b3
          have hpp := Agree.probs (c := k) (fun r'' j hj => hag r'' j (by omega)) hρ a3 b3
          subst hpp
          rw [hlabels, a4] at b4
          exact (Except.ok.inj b4).symm
        have : lossesUpTo (L' k) r = lossesUpTo (L k) r := by
          unfold lossesUpTo
          congr 1
          apply List.map_congr_left
          intro r' hr'
          exact hL r' (by have := List.mem_range.1 hr'; omega)
        rw [this]
    cases ht : placeOf A r k with
    | none =>
      refine ⟨?_, fun t hh => by cases hh⟩
      rw [ht] at hsome
      cases hq : placeOf A' r k with
      | none => rfl
      | some t => rw [hq] at hsome; simp at hsome
    | some t =>
      rw [ht] at hsome
      obtain ⟨t', ht'⟩ := Option.isSome_iff_exists.1 (hsome.2 rfl)
      obtain ⟨lab, lv, round, p, a1, a2, a3, a4, a5⟩ := h.tree r k t ht
      obtain ⟨lab', lv', round', p', b1, b2, b3, b4, b5⟩ := h'.tree r k t' ht'
      rw [a1] at b1
      cases b1
      rw [a2] at b2
      cases b2
      rw [hex, a3] at b3
      cases b3
      rw [hdata] at b4
      have hpp := hag.probs hρ a4 b4
      subst hpp
      obtain ⟨c1, c2⟩ := hfit r k t t' lab lv round p' ht a1 a2 a3 a4 a5 b5
      refine ⟨by rw [ht', c1]; rfl, fun t1 hh => by cases hh; exact c2⟩
  have rounds : ∀ r, Agree f P A A' r 0 := by
    intro r
    induction r with
    | zero => intro r' j h; omega
    | succ r ih =>
      have inner : ∀ k, Agree f P A A' r k := by
        intro k
        induction k with
        | zero => exact ih
        | succ k ihk =>
          intro r' j hj
          by_cases hjk : r' = r ∧ j = k
          · obtain ⟨rfl, rfl⟩ := hjk
            exact step _ _ ihk
          · exact ihk r' j (by omega)
      intro r' j hj
      exact inner (j + 1) r' j (by omega)
  have all : ∀ r k, placeOf A' r k = (placeOf A r k).map f ∧ ∀ t, placeOf A r k = some t → P t :=
    fun r k => rounds (r + 1) r k (by omega)
  refine ⟨?_, fun r k => (all r k).2⟩
  apply List.ext_getElem (by rw [hlen, List.length_map])
  intro r hr' hr
  rw [List.length_map] at hr
  rw [List.getElem_map]
  have w := h.width _ (List.getElem_mem hr)
  have w' := h'.width _ (List.getElem_mem hr')
  apply List.ext_getElem (by rw [List.length_map, w, w'])
  intro k hk' hk
  rw [List.length_map] at hk
  rw [List.getElem_map]
  have := (all r k).1
  unfold placeOf at this
  rw [List.getElem?_eq_getElem hr', List.getElem?_eq_getElem hr] at this
  simp only [Option.bind_some, List.getElem?_eq_getElem hk', List.getElem?_eq_getElem hk, Option.join_some] at this
  exact this

/-- Newton steps are determined by the tree -/
theorem NewtonOf.unique {g h : List F} {t0 t t' : Tree F} (h1 : NewtonOf g h t0 t) (h2 : NewtonOf g h t0 t') : t' = t := by
  have root : ∀ {t : Tree F}, t.sub [] = .nil → t = .nil := by
    intro t ht; cases t <;> simp [Tree.sub] at ht ⊢
  induction t0 generalizing t t' with
  | nil =>
    rw [root ((h1.shape []).2 rfl), root ((h2.shape []).2 rfl)]
  | node i l r ihl ihr =>
    cases t with
    | nil => exact absurd ((h1.shape []).1 rfl) (by intro h; cases h)
    | node i1 l1 r1 =>
      cases t' with
      | nil => exact absurd ((h2.shape []).1 rfl) (by intro h; cases h)
      | node i2 l2 r2 =>
        obtain ⟨a1, a2⟩ := h1.node [] i l r i1 l1 r1 rfl rfl
        obtain ⟨b1, b2⟩ := h2.node [] _ _ _ i2 l2 r2 rfl rfl
        have el : l2 = l1 := ihl
          ⟨fun path => h1.shape (true :: path), fun path => h1.node (true :: path)⟩
          ⟨fun path => h2.shape (true :: path), fun path => h2.node (true :: path)⟩
        have er : r2 = r1 := ihr
          ⟨fun path => h1.shape (false :: path), fun path => h1.node (false :: path)⟩
          ⟨fun path => h2.shape (false :: path), fun path => h2.node (false :: path)⟩
        rw [el, er]
        cases hl : i.leaf with
        | true => rw [(a1 hl).2, (b1 hl).2]
        | false => rw [a2 hl, b2 hl]

theorem FittedTree.unique {S : GoSort} {draws : Nat → F} {D : DataBunch F} {O : Options F} {lab : Int} {lv : LossVal F} {round : Nat}
    {p : List F} {tree tree' : Tree F} (h : FittedTree S draws D O lab lv round p tree)
    (h' : FittedTree S draws D O lab lv round p tree') : tree' = tree := by
  cases hx : O.xgb with
  | true =>
    obtain ⟨g, a1, a2⟩ := h.1 hx
    obtain ⟨g', b1, b2⟩ := h'.1 hx
    rw [a1] at b1
    cases b1
    rw [a2] at b2
    exact (Except.ok.inj b2).symm
  | false =>
    obtain ⟨g, t0, a1, a2, a3⟩ := h.2 hx
    obtain ⟨g', t0', b1, b2, b3⟩ := h'.2 hx
    rw [a1] at b1
    cases b1
    rw [a2] at b2
    cases b2
    exact a3.unique b3

end Boo
