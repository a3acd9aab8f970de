import Verif.Lemmas.Scan
import Verif.Spec.Tree

namespace Boo
open GoFloat
set_option linter.unusedSectionVars false
variable {F : Type} [GoFloat F]

theorem idx_eq_trainingRows (o : TreeOptions F) (X : List (List F)) :
    o.idx X = trainingRows X o := by
  unfold TreeOptions.idx trainingRows
  cases o.indexes <;> rfl

/-- options that only differ in indexes, depth, allowed columns -/
structure Inherit (X : List (List F)) (o o' : TreeOptions F) : Prop where
  xgb : o'.xgb = o.xgb
  grad : o'.gradients = o.gradients
  hess : o'.hessian = o.hessian
  y : o'.y = o.y
  mcw : o'.minChildWeight = o.minChildWeight
  lambda : o'.lambda = o.lambda
  gamma : o'.gamma = o.gamma
  scratch : (o'.fill X).scratch = (o.fill X).scratch

theorem Inherit.refl (X : List (List F)) (o : TreeOptions F) : Inherit X o o :=
  ⟨rfl, rfl, rfl, rfl, rfl, rfl, rfl, rfl⟩

theorem Inherit.trans {X : List (List F)} {o o' o'' : TreeOptions F} (h : Inherit X o o')
    (h' : Inherit X o' o'') : Inherit X o o'' :=
  ⟨h'.xgb.trans h.xgb, h'.grad.trans h.grad, h'.hess.trans h.hess, h'.y.trans h.y,
   h'.mcw.trans h.mcw, h'.lambda.trans h.lambda, h'.gamma.trans h.gamma, h'.scratch.trans h.scratch⟩

theorem Inherit.child (X : List (List F)) (o : TreeOptions F) (i : List Nat) :
    Inherit X o (o.child X i) := ⟨rfl, rfl, rfl, rfl, rfl, rfl, rfl, rfl⟩

theorem child_idx (X : List (List F)) (o : TreeOptions F) (i : List Nat) :
    (o.child X i).idx X = i := rfl

theorem goLeft_sublist (thr : F) (col : List F) (idx : List Nat) :
    (goLeft thr col idx).Sublist idx := by
  unfold goLeft
  have h1 : ((col.zip idx).filter fun p => p.1 <=. thr).Sublist (col.zip idx) := List.filter_sublist
  refine (h1.map Prod.snd).trans ?_
  clear h1
  induction col generalizing idx with
  | nil => simp
  | cons c cs ih =>
    cases idx with
    | nil => simp
    | cons i is => simpa using ih is

theorem goRight_sublist (thr : F) (col : List F) (idx : List Nat) :
    (goRight thr col idx).Sublist idx := by
  unfold goRight
  have h1 : ((col.zip idx).filter fun p => !(p.1 <=. thr)).Sublist (col.zip idx) := List.filter_sublist
  refine (h1.map Prod.snd).trans ?_
  clear h1
  induction col generalizing idx with
  | nil => simp
  | cons c cs ih =>
    cases idx with
    | nil => simp
    | cons i is => simpa using ih is

/-- Every node of a tree was itself built by `NewTree` with inherited options. -/
theorem newTreeD_sub (S : GoSort) (X : List (List F)) (d : Nat) (o : TreeOptions F) (t : Tree F)
    (h : newTreeD S X d o = .ok t) (p : List Bool) (i : NodeInfo F) (l r : Tree F)
    (hp : t.sub p = .node i l r) :
    ∃ o' d', newTreeD S X d' o' = .ok (.node i l r) ∧ d' + p.length = d ∧ Inherit X o o' ∧
      (o'.idx X).Sublist (o.idx X) ∧ (p = [] → o' = o) ∧ (p ≠ [] → o'.allowedColumns = []) := by
  induction p generalizing d o t with
  | nil =>
    simp only [Tree.sub] at hp
    rw [hp] at h
    exact ⟨o, d, h, by simp, Inherit.refl X o, List.Sublist.refl _, fun _ => rfl, by simp⟩
  | cons b p ih =>
    have hinv := newTreeD_inv S X d o t h
    obtain ⟨value, row0, hv, hr, hx, h1 | ⟨d', best, hd, hs, hl, ht⟩ |
      ⟨d', best, col, tl, tr, hd, hs, hl, hc, htl, htr, ht⟩⟩ := hinv
    · rw [h1.2] at hp
      cases b <;> cases p <;> simp [Tree.sub] at hp
    · rw [ht] at hp
      cases b <;> cases p <;> simp [Tree.sub] at hp
    · subst hd
      rw [ht] at hp
      cases b with
      | true =>
        obtain ⟨o', d'', h1, h2, h3, h4, h5, h6⟩ := ih _ _ _ htl hp
        refine ⟨o', d'', h1, by simp; omega, (Inherit.child X o _).trans h3,
          h4.trans (goLeft_sublist _ _ _), by simp, fun _ => ?_⟩
        by_cases hp0 : p = []
        · rw [h5 hp0]; rfl
        · exact h6 hp0
      | false =>
        obtain ⟨o', d'', h1, h2, h3, h4, h5, h6⟩ := ih _ _ _ htr hp
        refine ⟨o', d'', h1, by simp; omega, (Inherit.child X o _).trans h3,
          h4.trans (goRight_sublist _ _ _), by simp, fun _ => ?_⟩
        by_cases hp0 : p = []
        · rw [h5 hp0]; rfl
        · exact h6 hp0

theorem goLeft_goRight_perm (thr : F) (col : List F) (idx : List Nat)
    (h : col.length = idx.length) :
    (goLeft thr col idx ++ goRight thr col idx).Perm idx := by
  unfold goLeft goRight
  rw [← List.map_append]
  have h1 := List.filter_append_perm (fun p : F × Nat => p.1 <=. thr) (col.zip idx)
  refine (h1.map Prod.snd).trans ?_
  have h2 : (col.zip idx).map Prod.snd = idx := List.map_snd_zip (by omega)
  rw [h2]

theorem sampleCol_length {X : List (List F)} {idx : List Nat} {f : Nat} {col : List F}
    (h : sampleCol X idx f = .ok col) : col.length = idx.length :=
  (sampleCol_ok h).length_eq.symm

theorem forall₂_zip_mem {α β : Type} {R : α → β → Prop} {l : List α} {l' : List β}
    (h : List.Forall₂ R l l') {a : α} {b : β} (hm : (b, a) ∈ l'.zip l) : R a b := by
  induction h with
  | nil => simp at hm
  | cons h1 h2 ih =>
    simp only [List.zip_cons_cons, List.mem_cons, Prod.mk.injEq] at hm
    rcases hm with ⟨rfl, rfl⟩ | hm
    · exact h1
    · exact ih hm

theorem mem_goLeft {X : List (List F)} {idx : List Nat} {f : Nat} {col : List F} {thr : F}
    (h : sampleCol X idx f = .ok col) {i : Nat} (hi : i ∈ goLeft thr col idx) :
    ∃ row v, X[i]? = some row ∧ row[f]? = some v ∧ (v <=. thr) = true := by
  unfold goLeft at hi
  simp only [List.mem_map, List.mem_filter] at hi
  obtain ⟨⟨v, j⟩, ⟨hm, hv⟩, rfl⟩ := hi
  obtain ⟨row, h1, h2⟩ := forall₂_zip_mem (sampleCol_ok h) hm
  exact ⟨row, v, h1, h2, hv⟩

theorem mem_goRight {X : List (List F)} {idx : List Nat} {f : Nat} {col : List F} {thr : F}
    (h : sampleCol X idx f = .ok col) {i : Nat} (hi : i ∈ goRight thr col idx) :
    ∃ row v, X[i]? = some row ∧ row[f]? = some v ∧ (v <=. thr) = false := by
  unfold goRight at hi
  simp only [List.mem_map, List.mem_filter] at hi
  obtain ⟨⟨v, j⟩, ⟨hm, hv⟩, rfl⟩ := hi
  obtain ⟨row, h1, h2⟩ := forall₂_zip_mem (sampleCol_ok h) hm
  exact ⟨row, v, h1, h2, by simpa using hv⟩

end Boo
