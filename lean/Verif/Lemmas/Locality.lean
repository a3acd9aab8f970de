import Verif.Lemmas.RowOrder
import Verif.Props.Train

/-!
# A tree only reads the rows it is grown from

For C124. Arithmetic is arbitrary; the outcomes agree including panics.
-/

namespace Boo
open GoFloat Spec

variable {F : Type} [GoFloat F]

/-- two slices of the same length that agree at the given places -/
def AgreeAt {α : Type} (idx : List Nat) (s s' : List α) : Prop :=
  s.length = s'.length ∧ ∀ i ∈ idx, s[i]? = s'[i]?

theorem AgreeAt.sub {α : Type} {idx idx' : List Nat} {s s' : List α} (h : AgreeAt idx s s') (hs : ∀ i ∈ idx', i ∈ idx) :
    AgreeAt idx' s s' := ⟨h.1, fun i hi => h.2 i (hs i hi)⟩

theorem mapM_congr {α β : Type} {l : List α} {f g : α → Go β} (h : ∀ a ∈ l, f a = g a) : l.mapM f = l.mapM g := by
  induction l with
  | nil => rfl
  | cons a l ih =>
    rw [List.mapM_cons, List.mapM_cons, h a (by simp), ih fun b hb => h b (by simp [hb])]

theorem foldlM_congr {α β : Type} {l : List α} {f g : β → α → Go β} (h : ∀ a ∈ l, ∀ b, f b a = g b a) (b : β) :
    l.foldlM f b = l.foldlM g b := by
  induction l generalizing b with
  | nil => rfl
  | cons a l ih =>
    rw [List.foldlM_cons, List.foldlM_cons, h a (by simp)]
    congr 1
    funext b'
    exact ih (fun c hc => h c (by simp [hc])) b'

theorem goIdx_congr {α : Type} {s s' : List α} {i : Nat} (h : s[i]? = s'[i]?) : goIdx s i = goIdx s' i := by
  unfold goIdx; rw [h]

theorem AgreeAt.sampleSlice {α : Type} {idx : List Nat} {s s' : List α} (h : AgreeAt idx s s') :
    Boo.sampleSlice s idx = Boo.sampleSlice s' idx := by
  unfold Boo.sampleSlice
  rw [h.1]
  split
  · rfl
  · exact mapM_congr fun i hi => by rw [goIdx_congr (h.2 i hi)]

theorem sampleCol_agree {idx : List Nat} {X X' : List (List F)} (h : ∀ i ∈ idx, X[i]? = X'[i]?) (f : Nat) :
    sampleCol X idx f = sampleCol X' idx f := by
  unfold sampleCol sampleMatrix
  rw [mapM_congr fun i hi => by rw [goIdx_congr (h i hi)]]

/-- options that differ in the values of gradients, hessians and targets only, and not at the given places -/
structure OptsAgree (idx : List Nat) (o o' : TreeOptions F) : Prop where
  rest : o' = { o with gradients := o'.gradients, hessian := o'.hessian, y := o'.y }
  gNone : o.gradients.isNone = o'.gradients.isNone
  hNone : o.hessian.isNone = o'.hessian.isNone
  g : AgreeAt idx (o.gradients.getD []) (o'.gradients.getD [])
  h : AgreeAt idx (o.hessian.getD []) (o'.hessian.getD [])
  y : AgreeAt idx o.y o'.y

theorem findBetterSplit_agree {S : GoSort} {idx : List Nat} {X X' : List (List F)} (hX : ∀ i ∈ idx, X[i]? = X'[i]?)
    {o o' : TreeOptions F} (h : OptsAgree idx o o') (hi : o.indexes = some idx) (f : Nat) (b : Best F) :
    findBetterSplit S X o f b = findBetterSplit S X' o' f b := by
  obtain ⟨hr, _, _, hg, hh, hy⟩ := h
  have e1 : o'.indexes = some idx := by rw [hr]; exact hi
  have e2 : o'.scratch = o.scratch := by rw [hr]
  have e3 : o'.xgb = o.xgb := by rw [hr]
  have e4 : o'.minChildWeight = o.minChildWeight := by rw [hr]
  have e5 : o'.lambda = o.lambda := by rw [hr]
  have e6 : o'.gamma = o.gamma := by rw [hr]
  unfold findBetterSplit
  rw [hi, e1, e2, e3, e4, e5, e6]
  simp only [Option.getD_some]
  rw [sampleCol_agree hX f, hg.sampleSlice, hh.sampleSlice, hy.sampleSlice]

theorem searchSplit_agree {S : GoSort} {idx : List Nat} {X X' : List (List F)} (hX : ∀ i ∈ idx, X[i]? = X'[i]?)
    {o o' : TreeOptions F} (h : OptsAgree idx o o') (hi : o.indexes = some idx) (n : Nat) (b : Best F) :
    searchSplit S X o n b = searchSplit S X' o' n b := by
  have e : columnAllowed o' = columnAllowed o := by
    funext i; unfold columnAllowed; rw [h.rest]
  unfold searchSplit
  rw [e]
  exact foldlM_congr (fun f _ b => findBetterSplit_agree hX h hi f b) b

/-- **a tree only reads the rows it is grown from** -/
theorem newTreeD_agree {S : GoSort} {X X' : List (List F)} (h0 : X[0]?.map List.length = X'[0]?.map List.length) (d : Nat)
    {idx : List Nat} (hX : ∀ i ∈ idx, X[i]? = X'[i]?) {o o' : TreeOptions F} (h : OptsAgree idx o o') (hi : o.indexes = some idx) :
    newTreeD S X d o = newTreeD S X' d o' := by
  induction d generalizing idx o o' with
  | zero =>
    obtain ⟨x, mcw, cols, lam, gam, cs, g, hs, y, sc, dep, ix⟩ := o
    obtain ⟨x', mcw', cols', lam', gam', cs', g', hs', y', sc', dep', ix'⟩ := o'
    have hr := h.rest
    simp only [TreeOptions.mk.injEq, true_and] at hr hi
    obtain ⟨rfl, rfl, rfl, rfl, rfl, rfl, rfl, rfl, rfl⟩ := hr
    subst hi
    obtain ⟨_, hgn, hhn, hg, hh, hy⟩ := h
    simp only at hgn hhn hg hh hy
    unfold newTreeD
    simp only [hgn, hhn]
    split
    · rfl
    · unfold TreeOptions.fill nodeValue
      simp only [Option.getD_some]
      rw [hg.sampleSlice, hh.sampleSlice, hy.sampleSlice]
      congr 1
      funext v
      unfold goIdx
      cases q : X[0]? <;> cases q' : X'[0]? <;> rw [q, q'] at h0 <;> simp at h0
      simp only [bind, Except.bind, h0]
  | succ d ih =>
    obtain ⟨x, mcw, cols, lam, gam, cs, g, hs, y, sc, dep, ix⟩ := o
    obtain ⟨x', mcw', cols', lam', gam', cs', g', hs', y', sc', dep', ix'⟩ := o'
    have hr := h.rest
    simp only [TreeOptions.mk.injEq, true_and] at hr hi
    obtain ⟨rfl, rfl, rfl, rfl, rfl, rfl, rfl, rfl, rfl⟩ := hr
    subst hi
    obtain ⟨_, hgn, hhn, hg, hh, hy⟩ := h
    simp only at hgn hhn hg hh hy
    unfold newTreeD
    simp only [hgn, hhn]
    split
    · rfl
    · have hag : ∀ (J : List Nat), (∀ i ∈ J, i ∈ idx) → ∀ (cl : List Nat) (w : Option Nat) (dp : Int), OptsAgree J
          (⟨x', mcw', cl, lam', gam', cs', g, hs, y, w, dp, some J⟩ : TreeOptions F)
          ⟨x', mcw', cl, lam', gam', cs', g', hs', y', w, dp, some J⟩ :=
        fun J hJ cl w dp => ⟨rfl, hgn, hhn, hg.sub hJ, hh.sub hJ, hy.sub hJ⟩
      unfold TreeOptions.fill nodeValue
      simp only [Option.getD_some]
      rw [hg.sampleSlice, hh.sampleSlice, hy.sampleSlice]
      congr 1
      funext v
      unfold goIdx
      rcases q : X[0]? with _ | r <;> rcases q' : X'[0]? with _ | r'
      · rfl
      · rw [q, q'] at h0; simp at h0
      · rw [q, q'] at h0; simp at h0
      have h0 : r.length = r'.length := by rw [q, q'] at h0; simpa using h0
      simp only [bind, Except.bind, ← h0]
      rw [searchSplit_agree hX (hag idx (fun _ h => h) _ _ _) rfl]
      generalize searchSplit S X' _ _ _ = q0
      obtain e | best := q0
      · rfl
      simp only
      by_cases hl : (⟨idx, best.score, v, idx.length, r.length, best.feature, best.threshold, x', 1⟩ : NodeInfo F).leaf = true
      · rw [if_pos hl, if_pos hl]
      rw [if_neg hl, if_neg hl, sampleCol_agree hX]
      generalize sampleCol X' idx best.feature = q1
      obtain e | col := q1
      · rfl
      have hsub : ∀ (P : F × Nat → Bool), ∀ i ∈ ((col.zip idx).filter P).map Prod.snd, i ∈ idx := by
        intro P i hm
        obtain ⟨⟨a, b⟩, hm', rfl⟩ := List.mem_map.1 hm
        exact (List.of_mem_zip (List.mem_filter.1 hm').1).2
      have l1 := fun P => ih (fun i hm => hX i (hsub P i hm)) (hag _ (hsub P) [] (some (sc'.getD idx.length)) (dep' - 1)) rfl
      unfold TreeOptions.clone
      simp only
      rw [l1, l1]

end Boo
