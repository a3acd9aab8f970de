import Verif.Model.Confu
import Verif.Lemmas.TextData
import Verif.Lemmas.Train
import Mathlib.Algebra.BigOperators.Group.List.Basic

/-!
# Lemmas for confu/confu.go
-/

namespace Boo
open GoFloat
set_option linter.unusedSectionVars false
variable {F : Type} [GoFloat F]

/-! ### the matrix -/

theorem labelMap_aux (l : List Int) (k : Nat) (m : Int → Nat) (hn : l.Nodup) (x : Int) :
    ((l.zipIdx k).foldl (fun m p => fun x => if x = p.1 then p.2 else m x) m) x =
      if x ∈ l then k + l.idxOf x else m x := by
  induction l generalizing k m with
  | nil => simp
  | cons a l ih =>
    rw [List.zipIdx_cons, List.foldl_cons, ih _ _ (List.nodup_cons.1 hn).2]
    by_cases hx : x = a
    · subst hx
      simp [(List.nodup_cons.1 hn).1]
    · by_cases hm : x ∈ l
      · simp only [hm, if_true, List.mem_cons, or_true]
        rw [List.idxOf_cons_ne _ (fun e => hx e.symm)]
        omega
      · simp [hm, hx]

theorem labelMap_spec (l : List Int) (hn : l.Nodup) (x : Int) (h : x ∈ l) : labelMap l x = l.idxOf x := by
  unfold labelMap
  rw [labelMap_aux l 0 _ hn, if_pos h, Nat.zero_add]

theorem labelMap_get (l : List Int) (hn : l.Nodup) (p : Nat) (x : Int) (h : l[p]? = some x) : labelMap l x = p := by
  rw [labelMap_spec l hn x (List.mem_of_getElem? h)]
  rw [List.getElem?_eq_some_iff] at h
  obtain ⟨hp, rfl⟩ := h
  exact hn.idxOf_getElem p hp

theorem incrAll (ks : List Nat) (row : List Nat) (h : ∀ k ∈ ks, k < row.length) :
    ∃ row', ks.foldlM incrAt row = .ok row' ∧ row'.length = row.length ∧
      ∀ j, row'[j]? = (row[j]?).map (· + ks.count j) := by
  induction ks generalizing row with
  | nil => exact ⟨row, rfl, rfl, fun j => by simp⟩
  | cons k ks ih =>
    have hk := h k (by simp)
    obtain ⟨row', h1, h2, h3⟩ := ih (row.set k (row[k] + 1)) (by simpa using fun a ha => h a (by simp [ha]))
    refine ⟨row', ?_, by simpa using h2, ?_⟩
    · rw [List.foldlM_cons]
      have : incrAt row k = .ok (row.set k (row[k] + 1)) := by
        unfold incrAt
        rw [List.getElem?_eq_getElem hk]
      rw [this]
      exact h1
    · intro j
      rw [h3 j, List.getElem?_set, List.count_cons]
      by_cases hj : k = j
      · subst hj
        simp [hk]
        omega
      · simp [hj]

/-- the number of pairs with a property -/
def npairs (ps : List (Int × Nat)) (q : Int × Nat → Bool) : Nat := (ps.filter q).length

theorem filter_range_map {α β : Type} (l : List α) (g : α → Bool) (f : α → β) (r : Nat → β)
    (hr : ∀ i a, l[i]? = some a → r i = f a) :
    ((List.range l.length).filter fun i => (l[i]?).any g).map r = (l.filter g).map f := by
  induction l generalizing r with
  | nil => rfl
  | cons a l ih =>
    rw [List.length_cons, List.range_succ_eq_map, List.filter_cons]
    have h0 := hr 0 a rfl
    have := ih (fun i => r (i + 1)) (fun i b hb => hr (i + 1) b (by simpa using hb))
    have e : (List.map Nat.succ (List.range l.length)).filter (fun i => ((a :: l)[i]?).any g) =
        ((List.range l.length).filter fun i => (l[i]?).any g).map Nat.succ := by
      rw [List.filter_map]
      rfl
    rw [e]
    rw [List.filter_cons]
    simp only [List.getElem?_cons_zero, Option.any_some]
    split
    · rw [List.map_cons, List.map_map, List.map_cons, h0]
      congr 1
    · rw [List.map_map]
      exact this

theorem npairs_or (ps : List (Int × Nat)) (q r : Int × Nat → Bool) (h : ∀ p ∈ ps, q p = true → r p = false) :
    npairs ps (fun p => q p || r p) = npairs ps q + npairs ps r := by
  unfold npairs
  induction ps with
  | nil => rfl
  | cons p ps ih =>
    have := ih fun p hp => h p (by simp [hp])
    have hp := h p (by simp)
    simp only [List.filter_cons]
    cases hq : q p <;> cases hr : r p <;> simp_all <;> omega

theorem npairs_congr {ps : List (Int × Nat)} {q r : Int × Nat → Bool} (h : ∀ p ∈ ps, q p = r p) :
    npairs ps q = npairs ps r := by
  unfold npairs
  rw [List.filter_congr h]

theorem sum_npairs (ps : List (Int × Nat)) (R : Int × Nat → Bool) (key : Int × Nat → Option Int) (L : List Int)
    (hn : L.Nodup) :
    (L.map fun b => npairs ps fun p => R p && decide (key p = some b)).sum =
      npairs ps fun p => R p && decide (∃ b ∈ L, key p = some b) := by
  induction L with
  | nil => simp [npairs]
  | cons b L ih =>
    rw [List.map_cons, List.sum_cons, ih (List.nodup_cons.1 hn).2, ← npairs_or]
    · apply npairs_congr
      intro p _
      rw [Bool.eq_iff_iff]
      simp
      tauto
    · intro p _ hq
      simp only [Bool.and_eq_true, decide_eq_true_eq] at hq
      simp only [Bool.and_eq_false_imp, decide_eq_false_iff_not]
      rintro _ ⟨b', hb', e⟩
      rw [hq.2] at e
      cases e
      exact (List.nodup_cons.1 hn).1 hb'

theorem foldlM_map' {α β γ : Type} (f : γ → β → Go γ) (g : α → β) (l : List α) (init : γ) :
    (l.map g).foldlM f init = l.foldlM (fun c a => f c (g a)) init := by
  rw [List.foldlM_map]

/-- the row of label `v`: entry `j` is the number of rows with actual label `v` that are predicted as `Labels[j]` -/
theorem row_spec (labels actual : List Int) (preds : List Nat) (C : Confusions) (hn : labels.Nodup)
    (hC : C.actual = actual ∧ C.labels = labels ∧ C.m = labelMap labels)
    (hp : C.predicted = preds.map fun p => labels.getD p 0)
    (hc : ∀ p ∈ preds, p < labels.length) (hl : actual.length ≤ preds.length) (v : Int) :
    ∃ row, C.row v = .ok row ∧ row.length = labels.length ∧
      ∀ j, j < labels.length → row[j]? = some (npairs (actual.zip preds) fun p => decide (p.1 = v) && decide (p.2 = j)) := by
  obtain ⟨h1, h2, h3⟩ := hC
  have hlen : (actual.zip preds).length = actual.length := by rw [List.length_zip]; omega
  set lab := (List.range actual.length).filter fun j => actual[j]? = some v with hlab
  have hks : ∀ w ∈ lab, ∃ p, preds[w]? = some p ∧ p < labels.length ∧ goIdx C.predicted w = .ok (labels.getD p 0) ∧
      C.m (labels.getD p 0) = p := by
    intro w hw
    rw [hlab, List.mem_filter, List.mem_range] at hw
    have hwp : w < preds.length := by omega
    have hpl := hc _ (List.getElem_mem hwp)
    refine ⟨preds[w], List.getElem?_eq_getElem hwp, hpl, ?_, ?_⟩
    · rw [goIdx_ok, hp, List.getElem?_map, List.getElem?_eq_getElem hwp]
      rfl
    · rw [h3]
      apply labelMap_get labels hn
      rw [List.getD_eq_getElem?_getD, List.getElem?_eq_getElem hpl]
      rfl
  have hfold : C.row v = (lab.map fun w => preds.getD w 0).foldlM incrAt (List.replicate labels.length 0) := by
    unfold Confusions.row
    simp only [h1, h2]
    rw [← hlab, foldlM_map']
    have : ∀ (l : List Nat) (init : List Nat), (∀ w ∈ l, w ∈ lab) →
        l.foldlM (fun row w => do
          let p ← goIdx C.predicted w
          incrAt row (C.m p)) init = l.foldlM (fun row w => incrAt row (preds.getD w 0)) init := by
      intro l
      induction l with
      | nil => intro _ _; rfl
      | cons w l ih =>
        intro init hl
        rw [List.foldlM_cons, List.foldlM_cons]
        obtain ⟨p, hp1, _, hp2, hp3⟩ := hks w (hl w (by simp))
        have e : (do let p ← goIdx C.predicted w; incrAt init (C.m p)) = incrAt init (preds.getD w 0) := by
          rw [hp2]
          show incrAt init (C.m (labels.getD p 0)) = _
          rw [hp3, List.getD_eq_getElem?_getD, hp1]
          rfl
        rw [e]
        cases incrAt init (preds.getD w 0) with
        | error _ => rfl
        | ok a => exact ih a fun x hx => hl x (by simp [hx])
    exact this lab _ fun _ h => h
  have hmap : (lab.map fun w => preds.getD w 0) = ((actual.zip preds).filter fun p => decide (p.1 = v)).map (·.2) := by
    rw [← filter_range_map (actual.zip preds) (fun p => decide (p.1 = v)) (·.2) fun w => preds.getD w 0]
    · rw [hlen, hlab]
      congr 1
      apply List.filter_congr
      intro w hw
      rw [List.mem_range] at hw
      rw [List.getElem?_eq_getElem hw, List.getElem?_eq_getElem (by rw [hlen]; exact hw), List.getElem_zip]
      simp
    · intro i a ha
      rw [List.getElem?_zip_eq_some] at ha
      rw [List.getD_eq_getElem?_getD, ha.2]
      rfl
  obtain ⟨row, r1, r2, r3⟩ := incrAll (lab.map fun w => preds.getD w 0) (List.replicate labels.length 0) (by
    intro k hk
    rw [List.mem_map] at hk
    obtain ⟨w, hw, rfl⟩ := hk
    obtain ⟨p, hp1, hp2, _⟩ := hks w hw
    rw [List.getD_eq_getElem?_getD, hp1, List.length_replicate]
    exact hp2)
  rw [List.length_replicate] at r2
  refine ⟨row, by rw [hfold, r1], r2, ?_⟩
  intro j hj
  rw [r3 j, List.getElem?_replicate, if_pos hj, hmap]
  simp only [Option.map_some, Nat.zero_add, Option.some.injEq]
  unfold npairs
  rw [List.count_eq_countP, List.countP_map, List.countP_eq_length_filter, List.filter_filter]
  congr 1
  apply List.filter_congr
  intro p _
  rw [Bool.eq_iff_iff]
  simp
  tauto

/-- `C` is made by `MCConfusions` for the labels `actual` and the class indexes `preds`, up to the stored matrix and the
buffers -/
def MadeFrom (C : Confusions) (labels actual : List Int) (preds : List Nat) : Prop :=
  C.actual = actual ∧ C.labels = labels ∧ C.m = labelMap labels ∧ C.predicted = preds.map fun p => labels.getD p 0

/-- the matrix of counts -/
def countMatrix (labels actual : List Int) (preds : List Nat) : List (List Nat) :=
  labels.map fun v => (List.range labels.length).map fun j =>
    npairs (actual.zip preds) fun p => decide (p.1 = v) && decide (p.2 = j)

theorem matrix_spec {labels actual : List Int} {preds : List Nat} {C : Confusions} (hn : labels.Nodup)
    (hC : MadeFrom C labels actual preds)
    (hc : ∀ p ∈ preds, p < labels.length) (hl : actual.length ≤ preds.length) :
    C.labels.mapM C.row = .ok (countMatrix labels actual preds) := by
  rw [hC.2.1]
  apply mapM_map_ok
  intro v _
  obtain ⟨row, h1, h2, h3⟩ := row_spec labels actual preds C hn ⟨hC.1, hC.2.1, hC.2.2.1⟩ hC.2.2.2 hc hl v
  rw [h1]
  congr 1
  apply List.ext_getElem?
  intro j
  by_cases hj : j < labels.length
  · rw [h3 j hj, List.getElem?_map, List.getElem?_range hj]
    rfl
  · rw [List.getElem?_eq_none (by omega), List.getElem?_eq_none (by simp; omega)]

theorem mcConfusions_spec (M : MultiClass F) (D : DataBunch F) (preds : List Nat)
    (hp : D.data.mapM M.predictSingleClass = .ok preds) (hc : ∀ p ∈ preds, p < M.classLabels.length) :
    ∃ C, mcConfusions M D = .ok C ∧ MadeFrom C M.classLabels D.labels preds ∧ C.matrix = none ∧
      C.tmpvals = ⟨0, 0⟩ ∧ C.tmpindx = ⟨0, 0⟩ := by
  have : (D.data.mapM fun v => do
      let p ← M.predictSingleClass v
      goIdx M.classLabels p) = .ok (preds.map fun p => M.classLabels.getD p 0) := by
    rw [mapM_ok] at hp ⊢
    generalize D.data = data at hp ⊢
    induction hp with
    | nil => exact List.Forall₂.nil
    | @cons v p vs ps h1 h2 ih =>
      refine List.Forall₂.cons ?_ (ih fun q hq => hc q (by simp [hq]))
      rw [h1]
      show goIdx M.classLabels p = _
      rw [goIdx_ok, List.getElem?_eq_getElem (hc p (by simp))]
      simp only [List.getD_eq_getElem?_getD]
      rw [List.getElem?_eq_getElem (hc p (by simp))]
      rfl
  refine ⟨{ actual := D.labels, predicted := preds.map fun p => M.classLabels.getD p 0, labels := M.classLabels,
            matrix := none, tmpvals := ⟨0, 0⟩, tmpindx := ⟨0, 0⟩, m := labelMap M.classLabels },
    ?_, ⟨rfl, rfl, rfl, rfl⟩, rfl, rfl, rfl⟩
  unfold mcConfusions
  rw [this]
  rfl

/-! ### the most frequent predictions -/

/-- `idx` and `vals` are the indexes of `min N len` different entries of `row` and these entries, largest first; no
other entry is larger. -/
def TopSpec (row : List Nat) (N : Nat) (idx vals : List Nat) : Prop :=
  idx.length = min N row.length ∧ vals.length = min N row.length ∧ idx.Nodup ∧
  (∀ (k j : Nat), idx[k]? = some j → ∃ x, row[j]? = some x ∧ vals[k]? = some x) ∧
  vals.Pairwise (· ≥ ·) ∧
  ∀ (j x : Nat), row[j]? = some x → j ∉ idx → ∀ v ∈ vals, x ≤ v

theorem memIntSort_spec (S : GoSort) (row : List Nat) (N : Nat) :
    TopSpec row N ((memIntSort S row).1.reverse.take N) ((memIntSort S row).2.reverse.take N) ∧
    (memIntSort S row).1.length = row.length ∧ (memIntSort S row).2.length = row.length := by
  set less : Nat × Nat → Nat × Nat → Bool := fun p q => decide (p.1 < q.1) with hless
  set r := S.sort less (row.zip (List.range row.length)) with hr
  have e1 : (memIntSort S row).1 = r.map Prod.snd := rfl
  have e2 : (memIntSort S row).2 = r.map Prod.fst := rfl
  have hperm : r.Perm (row.zip (List.range row.length)) := S.perm _ _
  have hlen : r.length = row.length := by rw [hperm.length_eq]; simp
  have hsorted : r.Pairwise fun a b => less b a = false := by
    apply S.sorted
    refine ⟨?_, ?_, ?_⟩
    · intro a _; simp [hless]
    · intro a _ b _ c _ h1 h2
      simp only [hless, decide_eq_true_eq] at h1 h2 ⊢
      omega
    · intro a _ b _ c _ h1 h2
      simp only [hless, decide_eq_false_iff_not] at h1 h2 ⊢
      omega
  have hmem : ∀ p ∈ r, row[p.2]? = some p.1 := by
    intro p hp
    have := hperm.mem_iff.1 hp
    obtain ⟨i, hi⟩ := List.mem_iff_getElem?.1 this
    rw [List.getElem?_zip_eq_some] at hi
    obtain ⟨h1, h2⟩ := hi
    rw [List.getElem?_eq_some_iff] at h2
    obtain ⟨h3, h4⟩ := h2
    rw [List.getElem_range] at h4
    rw [← h4]; exact h1
  rw [e1, e2, ← List.map_reverse, ← List.map_reverse, ← List.map_take, ← List.map_take]
  refine ⟨⟨?_, ?_, ?_, ?_, ?_, ?_⟩, by simp [hlen], by simp [hlen]⟩
  · simp [hlen]
  · simp [hlen]
  · have hn : (r.map Prod.snd).Nodup := by
      rw [(hperm.map Prod.snd).nodup_iff, List.map_snd_zip (by simp)]
      exact List.nodup_range
    rw [List.map_take, List.map_reverse]
    exact (List.nodup_reverse.2 hn).sublist (List.take_sublist _ _)
  · intro k j hk
    rw [List.getElem?_map, Option.map_eq_some_iff] at hk
    obtain ⟨p, hp, rfl⟩ := hk
    refine ⟨p.1, hmem p ?_, ?_⟩
    · have := List.mem_of_getElem? hp
      exact List.mem_reverse.1 (List.mem_of_mem_take this)
    · rw [List.getElem?_map, hp]; rfl
  · rw [List.pairwise_map]
    refine List.Pairwise.sublist (List.take_sublist _ _) ?_
    rw [List.pairwise_reverse]
    refine hsorted.imp ?_
    intro a b h
    simp only [hless, decide_eq_false_iff_not] at h
    omega
  · intro j x hx hj v hv
    rw [List.mem_map] at hv
    obtain ⟨p, hp, rfl⟩ := hv
    have hjl : j < row.length := (List.getElem?_eq_some_iff.1 hx).1
    have hin : (x, j) ∈ r := by
      rw [hperm.mem_iff]
      apply List.mem_of_getElem? (i := j)
      rw [List.getElem?_zip_eq_some]
      exact ⟨hx, by simp [hjl]⟩
    have hrev : r.reverse.Pairwise fun a b => less a b = false := by
      rw [List.pairwise_reverse]; exact hsorted
    have hsplit : (x, j) ∈ r.reverse.drop N := by
      have : (x, j) ∈ r.reverse := List.mem_reverse.2 hin
      rw [← List.take_append_drop N r.reverse, List.mem_append] at this
      rcases this with h | h
      · exact absurd (List.mem_map.2 ⟨_, h, rfl⟩) hj
      · exact h
    rw [← List.take_append_drop N r.reverse, List.pairwise_append] at hrev
    have := hrev.2.2 p hp _ hsplit
    simp only [hless, decide_eq_false_iff_not] at this
    omega

/-! ### the buffers -/

/-- a buffer: not allocated yet, or a whole array -/
def BufOK (s : ISlice) (h : IntHeap) : Prop := s.len = 0 ∨ ∃ a, h[s.addr]? = some a ∧ a.length = s.len

/-- the two buffers are whole arrays, and different ones -/
def Bufs (C : Confusions) (h : IntHeap) : Prop :=
  BufOK C.tmpvals h ∧ BufOK C.tmpindx h ∧
    (0 < C.tmpvals.len → 0 < C.tmpindx.len → C.tmpvals.addr ≠ C.tmpindx.addr)

theorem BufOK.append {s : ISlice} {h : IntHeap} (hs : BufOK s h) (t : IntHeap) : BufOK s (h ++ t) := by
  rcases hs with h0 | ⟨a, ha, hl⟩
  · exact Or.inl h0
  · refine Or.inr ⟨a, ?_, hl⟩
    rw [List.getElem?_append_left (List.getElem?_eq_some_iff.1 ha).1]; exact ha

theorem BufOK.lt {s : ISlice} {h : IntHeap} (hs : BufOK s h) (hp : 0 < s.len) : s.addr < h.length := by
  rcases hs with h0 | ⟨a, ha, hl⟩
  · omega
  · exact (List.getElem?_eq_some_iff.1 ha).1

/-- a slice that does not share memory with the buffers -/
def Sep (s : ISlice) (C : Confusions) (h : IntHeap) : Prop :=
  s.addr < h.length ∧ (0 < C.tmpvals.len → s.addr ≠ C.tmpvals.addr) ∧ (0 < C.tmpindx.len → s.addr ≠ C.tmpindx.addr)

theorem buffers_spec (C : Confusions) (h : IntHeap) (n : Nat) (hn : 0 < n) (hb : Bufs C h) :
    ∃ C' h', C.buffers h n = (C', h') ∧ Bufs C' h' ∧ C'.tmpvals.len = n ∧ C'.tmpindx.len = n ∧
      C'.actual = C.actual ∧ C'.predicted = C.predicted ∧ C'.labels = C.labels ∧ C'.matrix = C.matrix ∧ C'.m = C.m ∧
      h <+: h' ∧ ∀ s, Sep s C h → Sep s C' h' := by
  obtain ⟨b1, b2, b3⟩ := hb
  have halloc : ∀ (h : IntHeap), BufOK ⟨h.length, n⟩ (h ++ [List.replicate n 0]) :=
    fun h => Or.inr ⟨List.replicate n 0, by simp, by simp⟩
  unfold Confusions.buffers
  by_cases hv : C.tmpvals.len ≠ n
  · simp only [hv, if_true, ne_eq, not_false_eq_true]
    by_cases hi : C.tmpindx.len ≠ n
    · simp only [hi, if_true, ne_eq, not_false_eq_true]
      refine ⟨_, _, rfl, ⟨(halloc h).append _, halloc _, ?_⟩, rfl, rfl, rfl, rfl, rfl, rfl, rfl,
        (List.prefix_append _ _).trans (List.prefix_append _ _), ?_⟩
      · intro _ _; simp
      · rintro s ⟨s1, s2, s3⟩
        refine ⟨by simp; omega, ?_, ?_⟩
        · intro _; simp only; omega
        · intro _; simp only [List.length_append, List.length_cons, List.length_nil]; omega
    · simp only [hi, if_false]
      rw [ne_eq, not_not] at hi
      refine ⟨_, _, rfl, ⟨halloc h, b2.append _, ?_⟩, rfl, hi, rfl, rfl, rfl, rfl, rfl, List.prefix_append _ _, ?_⟩
      · intro _ hp
        have := b2.lt hp
        simp only at this ⊢
        omega
      · rintro s ⟨s1, s2, s3⟩
        refine ⟨by simp; omega, ?_, s3⟩
        intro _; simp only; omega
  · simp only [hv, if_false]
    rw [ne_eq, not_not] at hv
    by_cases hi : C.tmpindx.len ≠ n
    · simp only [hi, if_true, ne_eq, not_false_eq_true]
      refine ⟨_, _, rfl, ⟨b1.append _, halloc h, ?_⟩, hv, rfl, rfl, rfl, rfl, rfl, rfl, List.prefix_append _ _, ?_⟩
      · intro hp _
        have := b1.lt hp
        simp only at this ⊢
        omega
      · rintro s ⟨s1, s2, s3⟩
        refine ⟨by simp; omega, s2, ?_⟩
        intro _; simp only; omega
    · simp only [hi, if_false]
      rw [ne_eq, not_not] at hi
      exact ⟨_, _, rfl, ⟨b1, b2, b3⟩, hv, hi, rfl, rfl, rfl, rfl, rfl, List.prefix_rfl, fun s h => h⟩

/-- the invariant of the histories of calls -/
structure Good (labels actual : List Int) (preds : List Nat) (C : Confusions) (h : IntHeap) : Prop where
  made : MadeFrom C labels actual preds
  mat : C.matrix = none ∨ C.matrix = some (countMatrix labels actual preds)
  bufs : Bufs C h

theorem getMatrix_spec {labels actual : List Int} {preds : List Nat} {C : Confusions} {h : IntHeap} (hn : labels.Nodup)
    (hg : Good labels actual preds C h)
    (hc : ∀ p ∈ preds, p < labels.length) (hl : actual.length ≤ preds.length) :
    C.getMatrix = .ok ({ C with matrix := some (countMatrix labels actual preds) }, countMatrix labels actual preds) := by
  unfold Confusions.getMatrix
  rcases hg.mat with hm | hm
  · rw [hm]
    simp only
    rw [matrix_spec hn hg.made hc hl]
    rfl
  · rw [hm]
    simp only
    rw [← hm]

theorem countMatrix_len (labels actual : List Int) (preds : List Nat) :
    (countMatrix labels actual preds).length = labels.length ∧ ∀ row ∈ countMatrix labels actual preds, row.length = labels.length := by
  unfold countMatrix
  refine ⟨by simp, ?_⟩
  intro row hr
  rw [List.mem_map] at hr
  obtain ⟨v, _, rfl⟩ := hr
  simp

theorem take_getD_read (s : ISlice) (h : IntHeap) (a : List Nat) (ha : h[s.addr]? = some a) : s.read h = a.take s.len := by
  unfold ISlice.read
  rw [List.getD_eq_getElem?_getD, ha]; rfl

theorem read_append (s : ISlice) (h t : IntHeap) (hs : s.addr < h.length) : s.read (h ++ t) = s.read h := by
  unfold ISlice.read
  rw [List.getD_eq_getElem?_getD, List.getD_eq_getElem?_getD, List.getElem?_append_left hs]

/-- one call of `TopNForLabelM` -/
theorem topN_spec {labels actual : List Int} {preds : List Nat} {C : Confusions} {h : IntHeap} (S : GoSort) (hn : labels.Nodup)
    (hg : Good labels actual preds C h)
    (hc : ∀ p ∈ preds, p < labels.length) (hl : actual.length ≤ preds.length) (N : Nat) (M : Int) (docopy : Bool) :
    (M ∉ labels → ∀ N : Int, ∃ C', C.topNForLabelM S N M docopy h = .ok (C', h, none) ∧
      Good labels actual preds C' h ∧ ∀ s, Sep s C h → Sep s C' h) ∧
    (M ∈ labels → ∀ N : Int, N < 0 → C.topNForLabelM S N M docopy h = .error .slice) ∧
    (∀ i row, labels.idxOf? M = some i → (countMatrix labels actual preds)[i]? = some row →
      ∃ C' h' si sv, C.topNForLabelM S N M docopy h = .ok (C', h', some (si, sv)) ∧ Good labels actual preds C' h' ∧
        si.read h' = (memIntSort S row).1.reverse.take N ∧ sv.read h' = (memIntSort S row).2.reverse.take N ∧
        (∀ s, Sep s C h → Sep s C' h' ∧ s.read h' = s.read h) ∧ (docopy = true → Sep si C' h' ∧ Sep sv C' h')) := by
  have hmat := getMatrix_spec hn hg hc hl
  set mat := countMatrix labels actual preds with hmatdef
  have hgood1 : Good labels actual preds { C with matrix := some mat } h := ⟨hg.made, Or.inr rfl, hg.bufs⟩
  refine ⟨?_, ?_, ?_⟩
  · intro hM N
    refine ⟨{ C with matrix := some mat }, ?_, hgood1, fun s hs => hs⟩
    unfold Confusions.topNForLabelM
    rw [hmat]
    simp only [bind, Except.bind]
    rw [show C.labels = labels from hg.made.2.1, List.idxOf?_eq_none_iff.2 hM]
    rfl
  · intro hM N hN
    obtain ⟨i, hi⟩ : ∃ i, labels.idxOf? M = some i := by
      cases hq : labels.idxOf? M with
      | none => exact absurd hM (List.idxOf?_eq_none_iff.1 hq)
      | some i => exact ⟨i, rfl⟩
    have hil : i < mat.length := by
      rw [(countMatrix_len labels actual preds).1]
      exact (List.idxOf?_eq_some_iff.1 hi).1
    unfold Confusions.topNForLabelM
    rw [hmat]
    simp only [bind, Except.bind]
    have hi' : C.labels.idxOf? M = some i := by rw [show C.labels = labels from hg.made.2.1]; exact hi
    rw [hi']
    simp only
    rw [goIdx_ok.2 (List.getElem?_eq_getElem hil)]
    simp only
    have : ∀ si sv : ISlice, firstN N si sv = .error .slice := by
      intro si sv
      unfold firstN
      rw [if_neg (by omega), if_pos hN]
    rw [this]
  · intro i row hi hrow
    have hrl : row.length = labels.length := (countMatrix_len labels actual preds).2 row (List.mem_of_getElem? hrow)
    have hpos : 0 < row.length := by
      rw [hrl]
      cases labels with
      | nil => simp at hi
      | cons => simp
    obtain ⟨C', h', hbuf, hB, lv, li, e1, e2, e3, e4, e5, hpre, hsep⟩ :=
      buffers_spec { C with matrix := some mat } h row.length hpos hg.bufs
    obtain ⟨b1, b2, b3⟩ := hB
    have b3' := b3 (by omega) (by omega)
    have hlv := b1.lt (by omega)
    have hli := b2.lt (by omega)
    obtain ⟨hspec, hl1, hl2⟩ := memIntSort_spec S row N
    set ix := (memIntSort S row).1.reverse with hix
    set vs := (memIntSort S row).2.reverse with hvs
    have hixl : ix.length = row.length := by rw [hix, List.length_reverse, hl1]
    have hvsl : vs.length = row.length := by rw [hvs, List.length_reverse, hl2]
    set h2 := (h'.set C'.tmpindx.addr ix).set C'.tmpvals.addr vs with hh2
    have hh2l : h2.length = h'.length := by rw [hh2]; simp
    have gi : h2[C'.tmpindx.addr]? = some ix := by
      rw [hh2, List.getElem?_set_ne b3', List.getElem?_set_self hli]
    have gv : h2[C'.tmpvals.addr]? = some vs := by
      rw [hh2, List.getElem?_set_self (by simpa using hlv)]
    have hB2 : Bufs C' h2 :=
      ⟨Or.inr ⟨vs, gv, by omega⟩, Or.inr ⟨ix, gi, by omega⟩, b3⟩
    have hother : ∀ s, Sep s C h → s.read h2 = s.read h := by
      intro s hs
      obtain ⟨s1, s2, s3⟩ := hsep s hs
      have s2' := s2 (by omega)
      have s3' := s3 (by omega)
      have : h2[s.addr]? = h[s.addr]? := by
        rw [hh2, List.getElem?_set_ne (fun e => s2' e.symm), List.getElem?_set_ne (fun e => s3' e.symm)]
        obtain ⟨t, rfl⟩ := hpre
        rw [List.getElem?_append_left hs.1]
      unfold ISlice.read
      rw [List.getD_eq_getElem?_getD, List.getD_eq_getElem?_getD, this]
    have hmade : MadeFrom C' labels actual preds := by
      refine ⟨e1.trans hg.made.1, e3.trans hg.made.2.1, e5.trans hg.made.2.2.1, e2.trans hg.made.2.2.2⟩
    have hfirst : ∀ si sv : ISlice, si.len = row.length → sv.len = row.length → ∃ r, firstN (N : Int) si sv = .ok r ∧
        r.1.addr = si.addr ∧ r.2.addr = sv.addr ∧ r.1.len = min N row.length ∧ r.2.len = min N row.length := by
      intro si sv h1 h2
      unfold firstN
      by_cases hN : (N : Int) ≥ si.len
      · rw [if_pos hN]
        exact ⟨_, rfl, rfl, rfl, by rw [h1]; omega, by rw [h2]; omega⟩
      · rw [if_neg hN, if_neg (by omega)]
        exact ⟨_, rfl, rfl, rfl, by simp; omega, by simp; omega⟩
    have hcall : ∀ r, firstN (N : Int) (copySlices docopy h2 C'.tmpindx C'.tmpvals).2.1
          (copySlices docopy h2 C'.tmpindx C'.tmpvals).2.2 = .ok r →
        C.topNForLabelM S N M docopy h = .ok (C', (copySlices docopy h2 C'.tmpindx C'.tmpvals).1, some r) := by
      intro r hr
      unfold Confusions.topNForLabelM
      rw [hmat]
      simp only [bind, Except.bind]
      have hi' : C.labels.idxOf? M = some i := by rw [show C.labels = labels from hg.made.2.1]; exact hi
      rw [hi']
      simp only
      rw [goIdx_ok.2 hrow]
      simp only
      rw [hbuf]
      simp only [← hix, ← hvs, ← hh2, hr, pure, Except.pure]
    have hread : ∀ (s : ISlice) (H : IntHeap) (a : List Nat), H[s.addr]? = some a → a.length = row.length →
        s.len = min N row.length → s.read H = a.take N := by
      intro s H a ha hal hs
      rw [take_getD_read s H a ha, hs, List.take_eq_take_iff]
      omega
    cases docopy with
    | false =>
      simp only [copySlices] at hcall
      obtain ⟨r, hr, r1, r2, r3, r4⟩ := hfirst C'.tmpindx C'.tmpvals li lv
      refine ⟨C', h2, r.1, r.2, hcall r hr, ⟨hmade, Or.inr e4, hB2⟩, ?_, ?_, ?_, by simp⟩
      · exact hread _ _ ix (by rw [r1]; exact gi) hixl r3
      · exact hread _ _ vs (by rw [r2]; exact gv) hvsl r4
      · intro s hs
        refine ⟨?_, hother s hs⟩
        have := hsep s hs
        exact ⟨by rw [hh2l]; exact this.1, this.2⟩
    | true =>
      simp only [copySlices, if_true] at hcall
      obtain ⟨r, hr, r1, r2, r3, r4⟩ := hfirst ⟨h2.length + 1, C'.tmpindx.len⟩ ⟨h2.length, C'.tmpvals.len⟩ li lv
      have ri : C'.tmpindx.read h2 = ix := by
        rw [take_getD_read _ _ ix gi, li, ← hixl, List.take_length]
      have rv : C'.tmpvals.read h2 = vs := by
        rw [take_getD_read _ _ vs gv, lv, ← hvsl, List.take_length]
      refine ⟨C', _, r.1, r.2, hcall r hr, ⟨hmade, Or.inr e4, hB2.1.append _, hB2.2.1.append _, hB2.2.2⟩, ?_, ?_, ?_, ?_⟩
      · refine hread _ _ ix ?_ hixl r3
        rw [r1]
        simp [ri]
      · refine hread _ _ vs ?_ hvsl r4
        rw [r2]
        simp [rv]
      · intro s hs
        obtain ⟨s1, s2, s3⟩ := hsep s hs
        refine ⟨⟨by simp; omega, s2, s3⟩, ?_⟩
        rw [← hother s hs]
        exact read_append s h2 _ (by omega)
      · intro _
        refine ⟨⟨?_, ?_, ?_⟩, ?_, ?_, ?_⟩ <;> simp only [r1, r2, List.length_append, List.length_cons, List.length_nil] <;> omega

/-! ### names -/

theorem splitStrGo_skip (sep : List Char) (cur u t : List Char) : splitStrGo sep cur u.length (u ++ t) = splitStrGo sep cur 0 t := by
  induction u with
  | nil => rfl
  | cons c u ih =>
    rw [List.length_cons, List.cons_append, splitStrGo]
    exact ih

theorem splitStrGo_pass (sep cur w t : List Char) (hsep : sep ≠ []) (h : ∀ c ∈ w, sep.head? ≠ some c) :
    splitStrGo sep cur 0 (w ++ t) = splitStrGo sep (cur ++ w) 0 t := by
  induction w generalizing cur with
  | nil => simp
  | cons c w ih =>
    obtain ⟨d, s, rfl⟩ := List.exists_cons_of_ne_nil hsep
    have hc : d ≠ c := fun e => h c (by simp) (by simp [e])
    rw [List.cons_append, splitStrGo]
    rw [if_neg (by simp [List.isPrefixOf, hc]), ih _ fun x hx => h x (by simp [hx])]
    simp

theorem splitStrGo_sep (sep cur t : List Char) (hsep : sep ≠ []) :
    splitStrGo sep cur 0 (sep ++ t) = cur :: splitStrGo sep [] 0 t := by
  obtain ⟨d, s, rfl⟩ := List.exists_cons_of_ne_nil hsep
  rw [List.cons_append, splitStrGo, if_pos (by
    rw [List.isPrefixOf_iff_prefix]; exact List.prefix_append (d :: s) t)]
  rw [List.length_cons, Nat.add_sub_cancel, splitStrGo_skip]

theorem splitStrGo_none (sep cur w : List Char) (h : ¬ sep <:+: w) : splitStrGo sep cur 0 w = [cur ++ w] := by
  induction w generalizing cur with
  | nil => simp [splitStrGo]
  | cons c w ih =>
    rw [splitStrGo, if_neg]
    · rw [ih _ fun hw => h (hw.trans (List.suffix_cons c w).isInfix)]
      simp
    · rw [List.isPrefixOf_iff_prefix]
      exact fun hp => h hp.isInfix

theorem splitStr_two (sep a b : List Char) (hsep : sep ≠ []) (ha : ∀ c ∈ a, sep.head? ≠ some c) (hb : ¬ sep <:+: b) :
    splitStr sep (a ++ sep ++ b) = [a, b] := by
  unfold splitStr
  rw [List.append_assoc, splitStrGo_pass sep [] a _ hsep ha, splitStrGo_sep _ _ _ hsep, splitStrGo_none _ _ _ hb]
  simp

theorem filter_newline (l : List Char) (h : '\n' ∉ l) : (l ++ ['\n']).filter (fun c => decide (c ≠ '\n')) = l := by
  rw [List.filter_append, List.filter_eq_self.2]
  · simp
  · intro c hc
    simp only [decide_eq_true_eq]
    rintro rfl
    exact h hc

theorem makeSimple_aux (labels : List Int) (m : NameMap) (k : Int) :
    (labels.foldl (fun ret v => NameMap.put ret v (fmtInt v)) m) k = if k ∈ labels then some (fmtInt k) else m k := by
  induction labels generalizing m with
  | nil => simp
  | cons v l ih =>
    rw [List.foldl_cons, ih]
    by_cases hk : k ∈ l
    · simp [hk]
    · by_cases he : k = v
      · subst he; simp [hk, NameMap.put]
      · simp [hk, he, NameMap.put]

end Boo
