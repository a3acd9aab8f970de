import Verif.Model.Stat
import Verif.Lemmas.Train
import Mathlib.Data.List.Perm.Subperm
import Mathlib.Data.List.Nodup

/-! # Lemmas on cross-validation folds -/

namespace Boo
open GoFloat
set_option linter.unusedSectionVars false
variable {F : Type} [GoFloat F]

theorem isInPrevious_iff {i : Nat} {folds : List (List Nat)} : isInPrevious i folds = true ↔ i ∈ folds.flatten := by
  unfold isInPrevious
  cases folds with
  | nil => simp
  | cons f fs => simp

theorem modify_flatten (folds : List (List Nat)) (i n : Nat) (h : i < folds.length) :
    (folds.modify i (· ++ [n])).flatten.Perm (n :: folds.flatten) := by
  induction folds generalizing i with
  | nil => simp at h
  | cons f fs ih =>
    cases i with
    | zero => simpa using List.perm_middle
    | succ i =>
      simp only [List.modify_succ_cons, List.flatten_cons]
      refine ((ih i (by simpa using h)).append_left f).trans ?_
      exact List.perm_middle

/-- invariant of the fold filling loops, in fold `i` after `j` draws -/
structure CVInv (tot nf ns i j : Nat) (folds : List (List Nat)) : Prop where
  len : folds.length = nf
  nodup : folds.flatten.Nodup
  lt : ∀ x ∈ folds.flatten, x < tot
  count : folds.flatten.length = i * ns + j
  sizes : ∀ (k : Nat) f, folds[k]? = some f → f.length = if k < i then ns else if k = i then j else 0

theorem drawNew_spec {folds : List (List Nat)} {draws rest : List Nat} {n : Nat}
    (h : drawNew folds draws = some (n, rest)) : n ∉ folds.flatten ∧ n ∈ draws ∧ ∀ x ∈ rest, x ∈ draws := by
  induction draws with
  | nil => simp [drawNew] at h
  | cons d ds ih =>
    unfold drawNew at h
    split at h
    · obtain ⟨h1, h2, h3⟩ := ih h
      exact ⟨h1, by simp [h2], fun x hx => by simp [h3 x hx]⟩
    · rename_i hp
      simp only [Option.some.injEq, Prod.mk.injEq] at h
      obtain ⟨rfl, rfl⟩ := h
      rw [isInPrevious_iff] at hp
      exact ⟨hp, by simp, fun x hx => by simp [hx]⟩

theorem CVInv.step {tot nf ns i j : Nat} {folds : List (List Nat)} (h : CVInv tot nf ns i j folds) (hi : i < nf)
    {n : Nat} (hn : n < tot) (hnew : n ∉ folds.flatten) : CVInv tot nf ns i (j + 1) (folds.modify i (· ++ [n])) := by
  have hp := modify_flatten folds i n (by rw [h.len]; exact hi)
  refine ⟨by simp [h.len], ?_, ?_, ?_, ?_⟩
  · rw [hp.nodup_iff]
    exact List.nodup_cons.2 ⟨hnew, h.nodup⟩
  · intro x hx
    rw [hp.mem_iff, List.mem_cons] at hx
    rcases hx with rfl | hx
    · exact hn
    · exact h.lt x hx
  · rw [hp.length_eq, List.length_cons, h.count]; omega
  · intro k f hk
    rw [List.getElem?_modify] at hk
    cases hf : folds[k]? with
    | none => simp [hf] at hk
    | some g =>
      rw [hf] at hk
      have := h.sizes k g hf
      by_cases hik : i = k
      · subst hik
        simp at hk
        subst hk
        simp [this]
      · simp [hik] at hk
        subst hk
        rw [this]
        have : ¬ k = i := fun e => hik e.symm
        simp [this]

theorem fillFold_spec {tot nf ns i : Nat} (hi : i < nf) : ∀ (m j : Nat) (folds : List (List Nat)) (draws : List Nat)
    (folds' : List (List Nat)) (rest : List Nat), CVInv tot nf ns i j folds → (∀ x ∈ draws, x < tot) →
    fillFold i m folds draws = some (folds', rest) →
    CVInv tot nf ns i (j + m) folds' ∧ ∀ x ∈ rest, x < tot := by
  intro m
  induction m with
  | zero =>
    intro j folds draws folds' rest hinv hd h
    simp only [fillFold, Option.some.injEq, Prod.mk.injEq] at h
    obtain ⟨rfl, rfl⟩ := h
    exact ⟨hinv, hd⟩
  | succ m ih =>
    intro j folds draws folds' rest hinv hd h
    unfold fillFold at h
    cases hdn : drawNew folds draws with
    | none => simp [hdn] at h
    | some p =>
      obtain ⟨n, ds⟩ := p
      simp only [hdn] at h
      obtain ⟨h1, h2, h3⟩ := drawNew_spec hdn
      have := ih (j + 1) _ ds folds' rest (hinv.step hi (hd n h2) h1) (fun x hx => hd x (h3 x hx)) h
      rw [show j + (m + 1) = j + 1 + m by omega]
      exact this

theorem CVInv.next {tot nf ns i : Nat} {folds : List (List Nat)} (h : CVInv tot nf ns i ns folds) :
    CVInv tot nf ns (i + 1) 0 folds := by
  refine ⟨h.len, h.nodup, h.lt, ?_, ?_⟩
  · rw [h.count]; ring
  · intro k f hk
    rw [h.sizes k f hk]
    by_cases h1 : k < i
    · rw [if_pos h1, if_pos (by omega)]
    · rw [if_neg h1]
      by_cases h2 : k = i
      · rw [if_pos h2, if_pos (by omega)]
      · rw [if_neg h2, if_neg (by omega)]; simp

theorem fillFolds_spec {tot nf ns : Nat} : ∀ (m i : Nat) (folds : List (List Nat)) (draws : List Nat)
    (folds' : List (List Nat)) (rest : List Nat), i + m = nf → CVInv tot nf ns i 0 folds → (∀ x ∈ draws, x < tot) →
    fillFolds ns (List.range' i m) folds draws = some (folds', rest) →
    CVInv tot nf ns nf 0 folds' := by
  intro m
  induction m with
  | zero =>
    intro i folds draws folds' rest hm hinv hd h
    simp only [List.range'_zero, fillFolds, Option.some.injEq, Prod.mk.injEq] at h
    obtain ⟨rfl, rfl⟩ := h
    simp only [Nat.add_zero] at hm
    subst hm
    exact hinv
  | succ m ih =>
    intro i folds draws folds' rest hm hinv hd h
    rw [List.range'_succ, fillFolds] at h
    cases hf : fillFold i ns folds draws with
    | none => simp [hf] at h
    | some p =>
      obtain ⟨f1, ds⟩ := p
      simp only [hf] at h
      obtain ⟨h1, h2⟩ := fillFold_spec (by omega) ns 0 folds draws f1 ds hinv hd hf
      rw [Nat.zero_add] at h1
      exact ih (i + 1) f1 ds folds' rest (by omega) h1.next h2 h

theorem cvInv_init (tot nf ns : Nat) : CVInv tot nf ns 0 0 (List.replicate nf []) := by
  have hfl : (List.replicate nf ([] : List Nat)).flatten = [] := by simp
  refine ⟨by simp, by rw [hfl]; simp, by rw [hfl]; simp, by rw [hfl]; simp, ?_⟩
  intro k f hk
  rw [List.getElem?_replicate] at hk
  split at hk
  · simp only [Option.some.injEq] at hk
    subst hk
    simp
  · simp at hk

/-- after `fillRemaining` the folds are a partition of the rows -/
structure CVParts (tot nf ns : Nat) (folds : List (List Nat)) : Prop where
  len : folds.length = nf
  perm : folds.flatten.Perm (List.range tot)
  sizes : ∀ (k : Nat) f, folds[k]? = some f → k + 1 < nf → f.length = ns
  last : ∀ (f : List Nat), folds[nf - 1]? = some f → ns ≤ f.length

theorem fillRemaining_spec {tot nf ns : Nat} (hnf : 1 ≤ nf) {folds : List (List Nat)} (h : CVInv tot nf ns nf 0 folds) :
    CVParts tot nf ns (fillRemaining folds tot) := by
  have main : ∀ t ≤ tot, ∃ fs, (List.range t).foldl (fun folds i =>
      if isInPrevious i folds then folds else folds.modify (folds.length - 1) (· ++ [i])) folds = fs ∧
      fs.length = nf ∧ fs.flatten.Nodup ∧ (∀ x ∈ fs.flatten, x < tot) ∧ (∀ x < t, x ∈ fs.flatten) ∧
      (∀ (k : Nat) f, fs[k]? = some f → k + 1 < nf → f.length = ns) ∧
      (∀ (f : List Nat), fs[nf - 1]? = some f → ns ≤ f.length) := by
    intro t
    induction t with
    | zero =>
      intro _
      refine ⟨folds, rfl, h.len, h.nodup, h.lt, by simp, ?_, ?_⟩
      · intro k f hk hlt
        rw [h.sizes k f hk, if_pos (by omega)]
      · intro f hf
        rw [h.sizes _ f hf, if_pos (by omega)]
    | succ t ih =>
      intro ht
      obtain ⟨fs, hfs, h1, h2, h3, h4, h5, h6⟩ := ih (by omega)
      rw [List.range_succ, List.foldl_append, hfs]
      simp only [List.foldl_cons, List.foldl_nil]
      by_cases hp : isInPrevious t fs = true
      · rw [if_pos hp]
        refine ⟨fs, rfl, h1, h2, h3, ?_, h5, h6⟩
        intro x hx
        by_cases he : x = t
        · subst he; exact isInPrevious_iff.1 hp
        · exact h4 x (by omega)
      · rw [if_neg hp]
        rw [isInPrevious_iff] at hp
        have hperm := modify_flatten fs (fs.length - 1) t (by omega)
        refine ⟨_, rfl, by simp [h1], ?_, ?_, ?_, ?_, ?_⟩
        · rw [hperm.nodup_iff]
          exact List.nodup_cons.2 ⟨hp, h2⟩
        · intro x hx
          rw [hperm.mem_iff, List.mem_cons] at hx
          rcases hx with rfl | hx
          · omega
          · exact h3 x hx
        · intro x hx
          rw [hperm.mem_iff, List.mem_cons]
          by_cases he : x = t
          · exact Or.inl he
          · exact Or.inr (h4 x (by omega))
        · intro k f hk hlt
          rw [List.getElem?_modify] at hk
          have hne : ¬ fs.length - 1 = k := by omega
          simp only [hne, if_false] at hk
          exact h5 k f (by simpa using hk) hlt
        · intro f hf
          rw [h1, List.getElem?_modify] at hf
          simp only [if_true] at hf
          cases hg : fs[nf - 1]? with
          | none => simp [hg] at hf
          | some g =>
            rw [hg] at hf
            simp at hf
            subst hf
            have := h6 g hg
            simp; omega
  obtain ⟨fs, hfs, h1, h2, h3, h4, h5, h6⟩ := main tot (Nat.le_refl _)
  have he : fillRemaining folds tot = fs := hfs
  rw [he]
  refine ⟨h1, ?_, h5, h6⟩
  rw [List.perm_ext_iff_of_nodup h2 List.nodup_range]
  intro x
  rw [List.mem_range]
  exact ⟨h3 x, h4 x⟩

/-! ### termination -/

/-- the draws from number `p` to number `q - 1` -/
def seg (d : Nat → Nat) (p q : Nat) : List Nat := (List.range' p (q - p)).map d

theorem seg_cons (d : Nat → Nat) {p q : Nat} (h : p < q) : seg d p q = d p :: seg d (p + 1) q := by
  unfold seg
  rw [show q - p = (q - (p + 1)) + 1 by omega, List.range'_succ]
  rfl

theorem drawNew_seg (d : Nat → Nat) (folds : List (List Nat)) (m : Nat) (hm : d m ∉ folds.flatten) :
    ∀ (gap p : Nat), p + gap = m → ∃ q n, ∀ r ≥ q, drawNew folds (seg d p r) = some (n, seg d q r) := by
  intro gap
  induction gap with
  | zero =>
    intro p hp
    refine ⟨p + 1, d p, fun r hr => ?_⟩
    rw [seg_cons d (by omega), drawNew, if_neg]
    rw [isInPrevious_iff]
    rw [show p = m by omega]
    exact hm
  | succ gap ih =>
    intro p hp
    by_cases hin : isInPrevious (d p) folds = true
    · obtain ⟨q, n, h⟩ := ih (p + 1) (by omega)
      refine ⟨max q (p + 1), n, fun r hr => ?_⟩
      have hqp : p + 1 ≤ q ∨ q ≤ p := by omega
      rw [seg_cons d (by omega), drawNew, if_pos hin, h r (by omega)]
      rcases hqp with hqp | hqp
      · rw [max_eq_left hqp]
      · exfalso
        have h1 := h q (Nat.le_refl _)
        have : seg d (p + 1) q = [] := by
          unfold seg
          rw [show q - (p + 1) = 0 by omega]
          rfl
        rw [this] at h1
        simp [drawNew] at h1
    · refine ⟨p + 1, d p, fun r hr => ?_⟩
      rw [seg_cons d (by omega), drawNew, if_neg hin]

/-- every row index keeps being drawn -/
def Fair (tot : Nat) (d : Nat → Nat) : Prop := ∀ k < tot, ∀ N, ∃ m ≥ N, d m = k

theorem exists_unseen {tot : Nat} {l : List Nat} (h : l.length < tot) : ∃ k < tot, k ∉ l := by
  by_contra hc
  push Not at hc
  have hsub : List.Subperm (List.range tot) l :=
    List.subperm_of_subset List.nodup_range fun x hx => hc x (List.mem_range.1 hx)
  have := hsub.length_le
  simp at this
  omega

theorem seg_mem {d : Nat → Nat} {tot : Nat} (hd : ∀ m, d m < tot) (p q : Nat) : ∀ x ∈ seg d p q, x < tot := by
  intro x hx
  unfold seg at hx
  rw [List.mem_map] at hx
  obtain ⟨m, _, rfl⟩ := hx
  exact hd m

theorem fillFold_seg {tot nf ns i : Nat} {d : Nat → Nat} (hd : ∀ m, d m < tot) (hf : Fair tot d) (hi : i < nf)
    (htot : nf * ns ≤ tot) : ∀ (m j : Nat) (folds : List (List Nat)) (p : Nat), j + m = ns → CVInv tot nf ns i j folds →
    ∃ q folds', ∀ r ≥ q, fillFold i m folds (seg d p r) = some (folds', seg d q r) := by
  intro m
  induction m with
  | zero =>
    intro j folds p _ _
    exact ⟨p, folds, fun r _ => rfl⟩
  | succ m ih =>
    intro j folds p hj hinv
    have hlt : folds.flatten.length < tot := by
      rw [hinv.count]
      have : (i + 1) * ns ≤ nf * ns := Nat.mul_le_mul_right _ hi
      have e : (i + 1) * ns = i * ns + ns := by ring
      omega
    obtain ⟨k, hk, hkn⟩ := exists_unseen hlt
    obtain ⟨M, hM, hdM⟩ := hf k hk p
    obtain ⟨q1, n, h1⟩ := drawNew_seg d folds M (by rw [hdM]; exact hkn) (M - p) p (by omega)
    obtain ⟨s1, s2, _⟩ := drawNew_spec (h1 q1 (Nat.le_refl _))
    obtain ⟨q, folds', h2⟩ := ih (j + 1) (folds.modify i (· ++ [n])) q1 (by omega)
      (hinv.step hi (seg_mem hd _ _ n s2) s1)
    refine ⟨max q q1, folds', fun r hr => ?_⟩
    rw [fillFold, h1 r (by omega)]
    simp only
    rw [h2 r (by omega)]
    rcases Nat.le_total q1 q with h | h
    · rw [max_eq_left h]
    · rw [max_eq_right h]
      have e := h2 q1 h
      by_cases he : q = q1
      · rw [he]
      · exfalso
        have hs : seg d q1 q1 = [] := by unfold seg; simp
        rw [hs] at e
        have hl : ∀ (m : Nat) (fo : List (List Nat)) fo' rest, fillFold i m fo [] = some (fo', rest) → rest = [] := by
          intro m fo fo' rest h
          cases m with
          | zero => simp only [fillFold, Option.some.injEq, Prod.mk.injEq] at h; exact h.2.symm
          | succ m => simp [fillFold, drawNew] at h
        have := hl _ _ _ _ e
        rw [seg_cons d (by omega)] at this
        simp at this

theorem fillFolds_seg {tot nf ns : Nat} {d : Nat → Nat} (hd : ∀ m, d m < tot) (hf : Fair tot d)
    (htot : nf * ns ≤ tot) : ∀ (m i : Nat) (folds : List (List Nat)) (p : Nat), i + m = nf → CVInv tot nf ns i 0 folds →
    ∃ q folds', ∀ r ≥ q, ∃ rest, fillFolds ns (List.range' i m) folds (seg d p r) = some (folds', rest) := by
  intro m
  induction m with
  | zero =>
    intro i folds p _ _
    exact ⟨p, folds, fun r _ => ⟨_, rfl⟩⟩
  | succ m ih =>
    intro i folds p hi hinv
    obtain ⟨q1, f1, h1⟩ := fillFold_seg hd hf (show i < nf by omega) htot ns 0 folds p (by omega) hinv
    obtain ⟨h3, _⟩ := fillFold_spec (by omega) ns 0 folds _ f1 _ hinv (seg_mem hd p q1) (h1 q1 (Nat.le_refl _))
    rw [Nat.zero_add] at h3
    obtain ⟨q, f2, h2⟩ := ih (i + 1) f1 q1 (by omega) h3.next
    refine ⟨max q q1, f2, fun r hr => ?_⟩
    rw [List.range'_succ, fillFolds, h1 r (by omega)]
    exact h2 r (by omega)

/-! ### the sampler -/

theorem fillRows_eq (ori : DataBunch F) : ∀ (toadd : List Nat) (dest : DataBunch F), (∀ v ∈ toadd, v < ori.data.length) →
    fillRows ori toadd dest = .ok { dest with
      data := dest.data ++ toadd.filterMap (ori.data[·]?), labels := dest.labels ++ toadd.filterMap (ori.labels[·]?) } := by
  intro toadd
  induction toadd with
  | nil => intro dest _; simp [fillRows]
  | cons v vs ih =>
    intro dest h
    have hlt : v < ori.data.length := h v (by simp)
    have hv : ori.data[v]? = some ori.data[v] := List.getElem?_eq_getElem hlt
    unfold fillRows
    have hg : goIdx ori.data v = .ok ori.data[v] := goIdx_ok.2 hv
    simp only [hg, bind, Except.bind]
    cases hl : ori.labels[v]? with
    | none =>
      simp only
      rw [ih _ fun w hw => h w (by simp [hw])]
      simp [hv, hl]
    | some lab =>
      simp only
      rw [ih _ fun w hw => h w (by simp [hw])]
      simp [hv, hl]

/-- the rows with these indexes, and their labels -/
def pick (D : DataBunch F) (idx : List Nat) : DataBunch F :=
  ⟨idx.filterMap (D.data[·]?), [], idx.filterMap (D.labels[·]?), []⟩

theorem fillDataBunch_eq (ori : DataBunch F) (toadd : List Nat) (h : ∀ v ∈ toadd, v < ori.data.length) :
    fillDataBunch ori ⟨[], [], [], []⟩ toadd = .ok (pick ori toadd) := by
  unfold fillDataBunch
  rw [fillRows_eq ori toadd _ h]
  rfl

theorem zip_range_filter (fs : List (List Nat)) (k : Nat) : ∀ off,
    ((fs.zip (List.range' off fs.length)).filter (fun p => p.2 ≠ off + k)).flatMap (·.1) = (fs.eraseIdx k).flatten := by
  induction fs generalizing k with
  | nil => intro off; simp
  | cons f fs ih =>
    intro off
    rw [List.length_cons, List.range'_succ, List.zip_cons_cons]
    cases k with
    | zero =>
      rw [List.filter_cons_of_neg (by simp)]
      have : ∀ (l : List (List Nat)) (o : Nat), off < o →
          ((l.zip (List.range' o l.length)).filter (fun p => p.2 ≠ off + 0)).flatMap (·.1) = l.flatten := by
        intro l
        induction l with
        | nil => intro o _; simp
        | cons a l ih2 =>
          intro o ho
          rw [List.length_cons, List.range'_succ, List.zip_cons_cons, List.filter_cons_of_pos (by simp; omega),
            List.flatMap_cons, ih2 (o + 1) (by omega)]
          rfl
      rw [this fs (off + 1) (by omega)]
      rfl
    | succ k =>
      rw [List.filter_cons_of_pos (by simp), List.flatMap_cons, List.eraseIdx_cons_succ, List.flatten_cons]
      have := ih k (off + 1)
      rw [show off + 1 + k = off + (k + 1) by omega] at this
      rw [this]

theorem call_eq {s : CVSampler F} {ns : Nat} (hp : CVParts s.data.data.length s.nf ns s.folds) (hc : s.calls < s.nf) :
    ∃ f, s.folds[s.calls]? = some f ∧ s.call = .ok ({ s with calls := s.calls + 1 },
      some (pick s.data (s.folds.eraseIdx s.calls).flatten, pick s.data f)) := by
  have hlt : s.calls < s.folds.length := by rw [hp.len]; exact hc
  refine ⟨s.folds[s.calls], List.getElem?_eq_getElem hlt, ?_⟩
  have hmem : ∀ v ∈ s.folds.flatten, v < s.data.data.length := by
    intro v hv
    rw [hp.perm.mem_iff, List.mem_range] at hv
    exact hv
  unfold CVSampler.call
  rw [if_neg (by omega)]
  have hg : goIdx s.folds s.calls = .ok s.folds[s.calls] := goIdx_ok.2 (List.getElem?_eq_getElem hlt)
  have hz := zip_range_filter s.folds s.calls 0
  rw [Nat.zero_add, ← List.range_eq_range'] at hz
  simp only [hg, bind, Except.bind]
  rw [fillDataBunch_eq _ _ fun v hv => hmem v (List.mem_flatten.2 ⟨_, List.getElem_mem hlt, hv⟩)]
  simp only
  rw [hz, fillDataBunch_eq]
  · rfl
  · intro v hv
    apply hmem v
    rw [List.mem_flatten] at hv ⊢
    obtain ⟨l, hl, hv⟩ := hv
    exact ⟨l, List.mem_of_mem_eraseIdx hl, hv⟩

end Boo
