import Verif.Props.Columns

/-!
# C86: features that are not listed do not matter
-/

namespace Boo
open GoFloat
variable {F : Type} [GoFloat F]

/-- the features of a list of importances -/
def Feats.features (f : Feats F) : List Nat := f.items.map Prod.fst

theorem addItem_features (f : Nat) (g : F) (l : List (Nat × F)) (k : Nat) :
    k ∈ (addItem f g l).map Prod.fst ↔ k = f ∨ k ∈ l.map Prod.fst := by
  induction l with
  | nil => simp [addItem]
  | cons p rest ih =>
    obtain ⟨k', g'⟩ := p
    unfold addItem
    split
    · rename_i h
      subst h
      simp
    · simp only [List.map_cons, List.mem_cons, ih]
      tauto

theorem sort_features (S : GoSort) (f : Feats F) (k : Nat) : k ∈ (f.sort S).features ↔ k ∈ f.features := by
  unfold Feats.features Feats.sort
  exact ((S.perm _ _).map Prod.fst).mem_iff

theorem featImp_features {S : GoSort} {t : Tree F} {g g' : Feats F} (h : t.featImp S g = .ok g') :
    ∀ k ∈ g.features, k ∈ g'.features := by
  induction t generalizing g g' with
  | nil => cases h
  | node i l r ihl ihr =>
    unfold Tree.featImp at h
    split at h
    · obtain rfl := Except.ok.inj h
      intro k hk
      exact (sort_features S g k).2 hk
    · obtain ⟨g1, h1, h2⟩ := bind_ok h
      intro k hk
      refine ihr h2 k (ihl h1 k ?_)
      exact (addItem_features _ _ _ _).2 (Or.inr hk)

theorem featImp_predict {S : GoSort} {t : Tree F} {g g' : Feats F} (h : t.featImp S g = .ok g') {row row' : List F}
    (hr : ∀ k ∈ g'.features, row[k]? = row'[k]?) : t.predictSingle row = t.predictSingle row' := by
  induction t generalizing g g' with
  | nil => cases h
  | node i l r ihl ihr =>
    unfold Tree.featImp at h
    unfold Tree.predictSingle
    split at h
    · rename_i hl
      rw [hl]
      rfl
    · rename_i hl
      obtain ⟨g1, h1, h2⟩ := bind_ok h
      have hk : i.splitFeatureIndex ∈ g'.features := by
        refine featImp_features h2 _ (featImp_features h1 _ ?_)
        exact (addItem_features _ _ _ _).2 (Or.inl rfl)
      rw [if_neg hl, if_neg hl]
      unfold goIdx
      rw [hr _ hk, ihl h1 (fun k hk => hr k (featImp_features h2 k hk)), ihr h2 hr]

/-- **C86, trees**: rows that agree on the features that FeatureImportance lists get the same prediction. -/
theorem C86_tree (S : GoSort) (t : Tree F) (xgb : Bool) (fs : Feats F) (h : t.featureImportance S xgb = .ok (some fs))
    (row row' : List F) (hr : ∀ k ∈ fs.features, row[k]? = row'[k]?) : t.predictSingle row = t.predictSingle row' := by
  unfold Tree.featureImportance at h
  obtain ⟨b, h1, h⟩ := bind_ok h
  cases b with
  | true => simp [pure, Except.pure] at h
  | false =>
    simp only [Bool.false_eq_true, if_false] at h
    obtain ⟨g, h2, h⟩ := bind_ok h
    simp only [pure, Except.pure, Except.ok.injEq, Option.some.injEq] at h
    subst h
    exact featImp_predict h2 hr

/-- **C86, models**: rows that agree on the features that the FeatureImportance of a model lists get the same
probabilities and the same class. -/
theorem C86_model (S : GoSort) (M : MultiClass F) (fs : Feats F) (h : M.featureImportance S = .ok fs)
    (row row' : List F) (hr : ∀ k ∈ fs.features, row[k]? = row'[k]?) :
    M.predictSingle row = M.predictSingle row' ∧ M.predictSingleClass row = M.predictSingleClass row' := by
  have inner : ∀ (ts : List (Tree F)) (g g' : Feats F), ts.foldlM (fun ret t => t.featImp S ret) g = .ok g' →
      (∀ k ∈ g.features, k ∈ g'.features) ∧ ((∀ k ∈ g'.features, row[k]? = row'[k]?) →
        List.Forall₂ (fun t1 t2 : Tree F => t2.predictSingle row = t1.predictSingle row') ts ts) := by
    intro ts
    induction ts with
    | nil =>
      intro g g' h
      obtain rfl := Except.ok.inj h
      exact ⟨fun _ h => h, fun _ => .nil⟩
    | cons t ts ih =>
      intro g g' h
      rw [List.foldlM_cons] at h
      obtain ⟨g1, h1, h⟩ := bind_ok h
      obtain ⟨a, b⟩ := ih _ _ h
      refine ⟨fun k hk => a k (featImp_features h1 k hk), fun hr => .cons ?_ (b hr)⟩
      exact featImp_predict h1 fun k hk => hr k (a k hk)
  have outer : ∀ (b : List (List (Tree F))) (g g' : Feats F),
      b.foldlM (fun ret ens => ens.foldlM (fun ret t => t.featImp S ret) ret) g = .ok g' →
      (∀ k ∈ g.features, k ∈ g'.features) ∧ ((∀ k ∈ g'.features, row[k]? = row'[k]?) →
        List.Forall₂ (List.Forall₂ fun t1 t2 : Tree F => t2.predictSingle row = t1.predictSingle row') b b) := by
    intro b
    induction b with
    | nil =>
      intro g g' h
      obtain rfl := Except.ok.inj h
      exact ⟨fun _ h => h, fun _ => .nil⟩
    | cons ts b ih =>
      intro g g' h
      rw [List.foldlM_cons] at h
      obtain ⟨g1, h1, h⟩ := bind_ok h
      obtain ⟨a1, b1⟩ := inner _ _ _ h1
      obtain ⟨a, b⟩ := ih _ _ h
      exact ⟨fun k hk => a k (a1 k hk), fun hr => .cons (b1 fun k hk => hr k (a k hk)) (b hr)⟩
  unfold MultiClass.featureImportance at h
  have hp : M.predictSingle row = M.predictSingle row' := MultiClass.predict_congr ((outer _ _ _ h).2 hr)
  refine ⟨hp, ?_⟩
  unfold MultiClass.predictSingleClass
  rw [hp]

/-- the features listed for a model trained on data with a third column of zeros -/
def listedQ (O : Options F64) : Option (List Nat) :=
  match newMultiClass (fun _ => one) GoSort.ins (fun _ => .fin 0) { colD with data := addColumn (fun _ => .fin 0) colX } O with
  | .ok M => (M.featureImportance GoSort.ins).toOption.map Feats.features
  | .error _ => none
/-- FeatureImportance succeeds, and does not list the third column -/
example : (listedQ colM, listedQ colG) = (some [1, 0], some [1, 0]) := by decide +kernel
/-- and for a tree -/
example : ((newTree GoSort.ins (addColumn (fun _ => .fin 0) colX) colO).bind fun t => t.featureImportance GoSort.ins true).toOption.map
    (Option.map Feats.features) = some (some [0, 1]) := by decide +kernel

end Boo
