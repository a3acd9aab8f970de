import Verif.Lemmas.Split
import Verif.Props.Tree
import Verif.Spec.Feats

namespace Boo
open GoFloat
set_option linter.unusedSectionVars false
variable {F : Type} [GoFloat F]

theorem sumUp_append (l : List F) (g : F) :
    sumUp (l ++ [g]) = some (match sumUp l with | none => g | some s => s +. g) := by
  cases l with
  | nil => rfl
  | cons a l => simp [sumUp]

theorem sumUp_eq_none {l : List F} : sumUp l = none ↔ l = [] := by
  cases l <;> simp [sumUp]

theorem scoresOf_append (f : Nat) (l l' : List (Nat × F)) :
    scoresOf f (l ++ l') = scoresOf f l ++ scoresOf f l' := by
  simp [scoresOf, List.filter_append]

theorem totals_nil : Totals ([] : List (Nat × F)) [] := by
  refine ⟨List.nodup_nil, ?_⟩
  intro f v
  simp [scoresOf, sumUp]

theorem Totals.perm {items items' l : List (Nat × F)} (h : Totals items l) (hp : items'.Perm items) :
    Totals items' l := by
  refine ⟨((hp.map Prod.fst).nodup_iff).2 h.1, ?_⟩
  intro f v
  rw [hp.mem_iff]
  exact h.2 f v

theorem addItem_fst (f : Nat) (g : F) (items : List (Nat × F)) :
    (addItem f g items).map Prod.fst =
      if f ∈ items.map Prod.fst then items.map Prod.fst else items.map Prod.fst ++ [f] := by
  induction items with
  | nil => simp [addItem]
  | cons p rest ih =>
    obtain ⟨k, v⟩ := p
    unfold addItem
    by_cases hk : k = f
    · subst hk; simp
    · rw [if_neg hk, List.map_cons, ih]
      have : f ≠ k := fun h => hk h.symm
      by_cases hm : f ∈ rest.map Prod.fst
      · rw [if_pos hm, if_pos (by simp [this]; simpa using hm)]; rfl
      · rw [if_neg hm, if_neg (by simp [this]; simpa using hm)]; rfl

theorem mem_addItem (f : Nat) (g : F) (items : List (Nat × F)) (hn : (items.map Prod.fst).Nodup)
    (k : Nat) (v : F) :
    (k, v) ∈ addItem f g items ↔
      if k = f then (∃ s, (f, s) ∈ items ∧ v = s +. g) ∨ ((∀ s, (f, s) ∉ items) ∧ v = g)
      else (k, v) ∈ items := by
  induction items with
  | nil => by_cases hk : k = f <;> simp [addItem, hk]
  | cons p rest ih =>
    obtain ⟨k', v'⟩ := p
    rw [List.map_cons, List.nodup_cons] at hn
    have ih := ih hn.2
    unfold addItem
    by_cases hk' : k' = f
    · subst hk'
      have hnot : ∀ s, (k', s) ∉ rest := fun s hs => hn.1 (List.mem_map.2 ⟨_, hs, rfl⟩)
      rw [if_pos rfl]
      by_cases hk : k = k'
      · subst hk
        rw [if_pos rfl]
        constructor
        · intro h
          rcases List.mem_cons.1 h with h | h
          · simp only [Prod.mk.injEq, true_and] at h
            exact Or.inl ⟨v', by simp, h⟩
          · exact absurd h (hnot v)
        · rintro (⟨s, hs, rfl⟩ | ⟨h, _⟩)
          · rcases List.mem_cons.1 hs with h | h
            · simp only [Prod.mk.injEq, true_and] at h; subst h; simp
            · exact absurd h (hnot s)
          · exact absurd (List.mem_cons_self) (h v')
      · rw [if_neg hk]; simp [hk]
    · rw [if_neg hk']
      by_cases hk : k = f
      · subst hk
        have hne : k ≠ k' := fun h => hk' h.symm
        rw [if_pos rfl] at ih ⊢
        simp only [List.mem_cons, Prod.mk.injEq, hne, false_and, false_or] at ih ⊢
        exact ih
      · rw [if_neg hk] at ih ⊢
        simp only [List.mem_cons, ih]

theorem Totals.add {items l : List (Nat × F)} (h : Totals items l) (f : Nat) (g : F) :
    Totals (addItem f g items) (l ++ [(f, g)]) := by
  constructor
  · rw [addItem_fst]
    split
    · exact h.1
    · rename_i hf
      rw [List.nodup_append]
      refine ⟨h.1, by simp, ?_⟩
      intro a ha b hb
      simp only [List.mem_singleton] at hb
      subst hb
      rintro rfl
      exact hf ha
  · intro k v
    rw [mem_addItem f g items h.1, scoresOf_append]
    by_cases hk : k = f
    · subst hk
      rw [if_pos rfl]
      have : scoresOf k [(k, g)] = [g] := by simp [scoresOf]
      rw [this, sumUp_append]
      cases hs : sumUp (scoresOf k l) with
      | none =>
        have hno : ∀ s, (k, s) ∉ items := by
          intro s hm; rw [(h.2 k s).1 hm] at hs; cases hs
        simp only [hno, not_false_eq_true, implies_true, true_and, false_and, exists_false, false_or,
          Option.some.injEq]
        exact eq_comm
      | some s0 =>
        have hm0 : (k, s0) ∈ items := (h.2 k s0).2 hs
        simp only [Option.some.injEq]
        constructor
        · rintro (⟨s, hm, rfl⟩ | ⟨hno, _⟩)
          · rw [(h.2 k s).1 hm] at hs; cases hs; rfl
          · exact absurd hm0 (hno s0)
        · rintro rfl
          exact Or.inl ⟨s0, hm0, rfl⟩
    · rw [if_neg hk]
      have : scoresOf k [(f, g)] = [] := by simp [scoresOf, Ne.symm hk]
      rw [this, List.append_nil]
      exact h.2 k v

theorem featsLess_swo [GoFloatOrd F] (xgb : Bool) (l : List (Nat × F))
    (h : ∀ p ∈ l, (p.2 ==. p.2) = true) : StrictWeakOn (Feats.less xgb) l := by
  have key : ∀ a b c : F, (a ==. a) = true → (b ==. b) = true → (c ==. c) = true →
      (a <. b) = false → (b <. c) = false → (a <. c) = false := by
    intro a b c ha hb hc h1 h2
    have e1 := fle_of_not_lt hb ha h1
    have e2 := fle_of_not_lt hc hb h2
    have := fle_trans e2 e1
    cases hq : (a <. c) with
    | false => rfl
    | true => rw [fnot_le_of_lt hq] at this; cases this
  cases xgb with
  | false =>
    refine ⟨fun a _ => GoFloatOrd.lt_irrefl _, fun a _ b _ c _ => GoFloatOrd.lt_trans _ _ _, ?_⟩
    intro a ha b hb c hc
    exact key _ _ _ (h a ha) (h b hb) (h c hc)
  | true =>
    refine ⟨fun a _ => GoFloatOrd.lt_irrefl _,
      fun a _ b _ c _ h1 h2 => GoFloatOrd.lt_trans _ _ _ h2 h1, ?_⟩
    intro a ha b hb c hc h1 h2
    exact key _ _ _ (h c hc) (h b hb) (h a ha) h2 h1

theorem bestFirst_sort [GoFloatOrd F] (S : GoSort) (f : Feats F)
    (h : ∀ p ∈ (f.sort S).items, (p.2 ==. p.2) = true) : BestFirst f.xgb (f.sort S).items := by
  have hp : (f.sort S).items.Perm f.items := S.perm _ _
  have := S.sorted (Feats.less f.xgb) f.items
    (featsLess_swo f.xgb f.items fun p hpm => h p (hp.mem_iff.2 hpm))
  unfold BestFirst
  refine this.imp ?_
  intro a b hab
  unfold Feats.less gt at hab
  exact hab

theorem Tree.Consistent.left {i : NodeInfo F} {l r : Tree F} (h : (Tree.node i l r).Consistent) :
    l.Consistent := fun path i' l' r' hp => h (true :: path) i' l' r' hp
theorem Tree.Consistent.right {i : NodeInfo F} {l r : Tree F} (h : (Tree.node i l r).Consistent) :
    r.Consistent := fun path i' l' r' hp => h (false :: path) i' l' r' hp

/-- What `FeatureImportance` does to an accumulator: it succeeds, adds the splits, and ends with a
sort. -/
theorem featImp_spec (S : GoSort) (t : Tree F) (hne : t ≠ .nil) (hc : t.Consistent) (g : Feats F)
    (l : List (Nat × F)) (ht : Totals g.items l) :
    ∃ g0 : Feats F, t.featImp S g = .ok (g0.sort S) ∧ g0.xgb = g.xgb ∧
      Totals g0.items (l ++ t.splits) := by
  induction t generalizing g l with
  | nil => exact absurd rfl hne
  | node i lt rt ihl ihr =>
    rcases hc [] i lt rt rfl with ⟨h1, rfl, rfl⟩ | ⟨h1, hl, hr⟩
    · refine ⟨g, ?_, rfl, ?_⟩
      · simp [Tree.featImp, h1]
      · simpa [Tree.splits] using ht
    · obtain ⟨g1, e1, x1, t1⟩ := ihl hl hc.left (g.add i.splitFeatureIndex i.bestScoreSoFar)
        (l ++ [(i.splitFeatureIndex, i.bestScoreSoFar)]) (ht.add _ _)
      obtain ⟨g2, e2, x2, t2⟩ := ihr hr hc.right (g1.sort S) _ (t1.perm (S.perm _ _))
      refine ⟨g2, ?_, ?_, ?_⟩
      · rw [Tree.featImp, if_neg (by simp [h1])]
        simp only [bind, Except.bind, e1, e2]
      · rw [x2]; exact x1
      · have : (Tree.node i lt rt).splits =
            (i.splitFeatureIndex, i.bestScoreSoFar) :: (lt.splits ++ rt.splits) := by
          cases lt with
          | nil => exact absurd rfl hl
          | node => cases rt <;> rfl
        rw [this]
        simpa using t2

theorem consistent_of_newTree [GoFloatOrd F] {S : GoSort} {X : List (List F)} {o : TreeOptions F}
    {t : Tree F} (h : newTree S X o = .ok t) : t.Consistent := by
  intro path i l r hp
  obtain ⟨h1, h2⟩ := C02_leaf_iff_no_children S X o t h path i l r hp
  cases hq : i.leaf with
  | true => exact Or.inl ⟨rfl, (h1.1 hq).1, (h1.1 hq).2⟩
  | false => exact Or.inr ⟨rfl, (h2.1 hq).1, (h2.1 hq).2⟩

end Boo
