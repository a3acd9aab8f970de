import Verif.Props.Serve
import Verif.Props.PredictTotal

/-!
# C115: trained models
-/

namespace Boo
open GoFloat
variable {F : Type} [GoFloat F]

/-- Every execution can be continued until all goroutines have ended. -/
theorem C115_completes (M : MultiClass F) (W : Nat → Prop) (heap : List (List F)) (progs : List (List (UseCall F)))
    (vals : List (List (UseValue F))) (h : CallsReturn M progs vals) (n : Nat) (s : UseState F) (r : (useInit heap progs).Run M W n s) :
    ∃ k s', (useInit heap progs).Run M W (n + k) s' ∧ (∀ g ∈ s'.gors, useStep M s'.mem g = .ok none) ∧
      s'.gors.map (fun g => g.results.map UseResult.value) = vals := by
  generalize hN : (progs.map fun p => (p.map fun c => c.cost M).sum).sum = N
  have key : ∀ d n s, N - n = d → (useInit heap progs).Run M W n s →
      ∃ k s', (useInit heap progs).Run M W (n + k) s' ∧ ∀ g ∈ s'.gors, useStep M s'.mem g = .ok none := by
    intro d
    induction d with
    | zero =>
      intro n s hd r
      obtain ⟨h1, h2, _⟩ := C115_ends M W heap progs vals h n s r
      exact ⟨0, s, r, h2 (by omega)⟩
    | succ d ih =>
      intro n s hd r
      obtain ⟨h1, _, h3⟩ := C115_ends M W heap progs vals h n s r
      obtain ⟨s', hs⟩ := h3 (by omega)
      obtain ⟨k, s'', h4, h5⟩ := ih (n + 1) s' (by omega) (.step r hs)
      exact ⟨1 + k, s'', by rw [← Nat.add_assoc]; exact h4, h5⟩
  obtain ⟨k, s', h1, h2⟩ := key _ n s rfl r
  refine ⟨k, s', h1, h2, ?_⟩
  refine List.ext_getElem? ?_
  intro i
  rw [List.getElem?_map]
  cases hi : s'.gors[i]? with
  | some g =>
    obtain ⟨vs, h3, _, _, h4⟩ := C115_concurrent M W heap progs vals h _ s' h1 i g hi
    rw [h3, ← h4 (h2 g (List.mem_of_getElem? hi))]
    rfl
  | none =>
    have := (run_ok h h1).len
    have h5 := List.getElem?_eq_none_iff.1 hi
    rw [Option.map_none, eq_comm, List.getElem?_eq_none_iff]
    omega

/-- the calls give rows that are wide enough and as many labels as rows -/
def UseCall.Fits (w : Nat) : UseCall F → Prop
  | .predict row _ => w ≤ row.length
  | .predictClass row _ => w ≤ row.length
  | .accuracy D _ => D.labels.length = D.data.length ∧ ∀ row ∈ D.data, w ≤ row.length

/-- **C115** A trained model (with a round) can be used: all calls with rows as wide as those of the training data return. -/
theorem C115_trained [GoFloatOrd F] (exp : F → F) (S : GoSort) (draws : Nat → F) (D : DataBunch F) (O : Options F)
    (M : MultiClass F) (h : newMultiClass exp S draws D O = .ok M) (hne : M.b ≠ []) (row0 : List F) (h0 : D.data[0]? = some row0)
    (progs : List (List (UseCall F))) (hp : ∀ p ∈ progs, ∀ c ∈ p, c.Fits row0.length) : ∃ vals, CallsReturn M progs vals := by
  have one : ∀ c : UseCall F, c.Fits row0.length → ∃ v, c.alone M = .ok v := by
    intro c hc
    cases c with
    | predict row buf =>
      obtain ⟨out, h1, _⟩ := C79_predict_partial exp S draws D O M h hne row0 h0 row hc
      exact ⟨.probs out, by simp [UseCall.alone, h1, Except.map]⟩
    | predictClass row buf =>
      obtain ⟨out, _, _, k, h1, _⟩ := C79_predict_partial exp S draws D O M h hne row0 h0 row hc
      exact ⟨.cls k, by simp [UseCall.alone, h1, Except.map]⟩
    | accuracy D' classes =>
      obtain ⟨a, h1⟩ := C79_accuracy_partial exp S draws D O M h hne row0 h0 D' hc.1 hc.2
      exact ⟨.acc a, by simp [UseCall.alone, h1, Except.map]⟩
  have many : ∀ p : List (UseCall F), (∀ c ∈ p, c.Fits row0.length) → ∃ vs, List.Forall₂ (fun c v => c.alone M = .ok v) p vs := by
    intro p
    induction p with
    | nil => exact fun _ => ⟨[], .nil⟩
    | cons c p ih =>
      intro hp
      obtain ⟨v, hv⟩ := one c (hp c (by simp))
      obtain ⟨vs, hvs⟩ := ih fun c hc => hp c (by simp [hc])
      exact ⟨v :: vs, .cons hv hvs⟩
  unfold CallsReturn
  induction progs with
  | nil => exact ⟨[], .nil⟩
  | cons p progs ih =>
    obtain ⟨vs, hvs⟩ := many p (hp p (by simp))
    obtain ⟨vals, hv⟩ := ih fun p hm => hp p (by simp [hm])
    exact ⟨vs :: vals, .cons hvs hv⟩

/-- three goroutines use a trained model; a slice is given as buffer to two of them -/
def mixProgs : List (List (UseCall F64)) :=
  [[.predict [.fin 0] (some 0), .accuracy mixData [2]], [.predictClass [.fin 1] (some 0)], [.accuracy mixData [], .predict [.fin 3] none]]

example (exp : F64 → F64) (hexp : HasValues exp mixExp) (heap : List (List F64)) :
    ∃ M, newMultiClass exp GoSort.ins (fun _ => .fin 0) mixData mixOptions = .ok M ∧ ∃ vals, CallsReturn M mixProgs vals ∧
      ∃ n s, (useInit heap mixProgs).Run M (fun _ => False) n s ∧ 0 < n ∧ s.gors.map (fun g => g.results.map UseResult.value) = vals := by
  obtain ⟨M, h1, _, h2, _⟩ := C21_violated exp hexp
  obtain ⟨vals, hv⟩ := C115_trained exp GoSort.ins (fun _ => .fin 0) mixData mixOptions M h1 (fun h => by rw [h] at h2; simp at h2)
    [.fin 0] rfl mixProgs (by
      intro p hp c hc
      simp only [mixProgs, List.mem_cons, List.not_mem_nil, or_false] at hp
      have hm : mixData.labels.length = mixData.data.length ∧ ∀ row ∈ mixData.data, ([.fin 0] : List F64).length ≤ row.length := by decide
      rcases hp with rfl | rfl | rfl <;> simp only [List.mem_cons, List.not_mem_nil, or_false] at hc
      · rcases hc with rfl | rfl
        · simp [UseCall.Fits]
        · exact hm
      · subst hc; simp [UseCall.Fits]
      · rcases hc with rfl | rfl
        · exact hm
        · simp [UseCall.Fits])
  refine ⟨M, h1, vals, hv, ?_⟩
  obtain ⟨k, s, r, _, h4⟩ := C115_completes M (fun _ => False) heap mixProgs vals hv 0 _ .start
  refine ⟨0 + k, s, r, ?_, h4⟩
  rcases Nat.eq_zero_or_pos (0 + k) with h | h
  · exfalso
    rw [h] at r
    have e := C115_ends M _ heap mixProgs vals hv 0 s r
    have pos : 0 < (mixProgs.map fun p => (p.map fun c => c.cost M).sum).sum := by
      simp only [mixProgs, List.map_cons, List.sum_cons, UseCall.cost]
      omega
    obtain ⟨s', hs⟩ := e.2.2 pos
    have hend : ∀ g ∈ s.gors, useStep M s.mem g = .ok none := by
      rw [h] at *
      assumption
    cases hs with
    | gor hg hst =>
      rw [hend _ (List.mem_of_getElem? hg)] at hst
      cases hst
  · exact h

/-- the hypotheses of `C116_violated` are met by a slice of the right length -/
example (exp : F64 → F64) (hexp : HasValues exp mixExp) :
    ∃ M l out, newMultiClass exp GoSort.ins (fun _ => .fin 0) mixData mixOptions = .ok M ∧ M.predictSingle [.fin 0] = .ok out ∧
      l.length = out.length ∧ l ≠ out ∧ ∃ n s, (useInit [l] [[.predict [.fin 0] (some 0)]]).Run M (fun _ => False) n s ∧
        (∀ g ∈ s.gors, useStep M s.mem g = .ok none) := by
  obtain ⟨M, h1, _, h2, _⟩ := C21_violated exp hexp
  have hne : M.b ≠ [] := fun h => by rw [h] at h2; simp at h2
  obtain ⟨out, hp, hl, k, _, hk⟩ := C79_predict_partial exp GoSort.ins (fun _ => .fin 0) mixData mixOptions M h1 hne [.fin 0] rfl [.fin 0] (le_refl _)
  have hl' : ∃ l : List F64, l.length = out.length ∧ l ≠ out := by
    cases out with
    | nil => simp only [List.length_nil] at hl; omega
    | cons x out =>
      by_cases hx : x = .fin 0
      · exact ⟨.fin 1 :: out, rfl, by subst hx; intro h; have := (List.cons.inj h).1; revert this; decide⟩
      · exact ⟨.fin 0 :: out, rfl, fun h => hx (List.cons.inj h).1.symm⟩
  obtain ⟨l, h3, h4⟩ := hl'
  refine ⟨M, l, out, h1, hp, h3, h4, ?_⟩
  obtain ⟨k, s, r, h5, _⟩ := C115_completes M (fun _ => False) [l] [[.predict [.fin 0] (some 0)]] [[.probs out]]
    (.cons (.cons (by simp [UseCall.alone, hp, Except.map]) .nil) .nil) 0 _ .start
  exact ⟨0 + k, s, r, h5⟩

end Boo
