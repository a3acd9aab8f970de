import Verif.Props.GradSearch

/-!
# C107: when gradient searches end
-/

namespace Boo
open GoFloat Relation
set_option linter.unusedSectionVars false
variable {F : Type} [GoFloat F]

/-! ### The calls that a search makes -/

theorem compareAccs_calls (E : SearchEnv F) (s : SearchState F) (t tprev : Nat) :
    ∃ r : CVRes F, (compareAccs E s t tprev).1.calls = s.calls ++ [(s.deref t, r)] ∧
      (compareAccs E s t tprev).1.steps = s.steps ∧ ((compareAccs E s t tprev).2 = none ↔ r.err = true) := by
  refine ⟨E.cv s.calls.length 5 (s.deref t), ?_⟩
  unfold compareAccs
  simp only
  split
  · rename_i h
    exact ⟨rfl, rfl, by simp [h]⟩
  · rename_i h
    split
    · exact ⟨rfl, rfl, by simp [h]⟩
    · split
      · exact ⟨rfl, rfl, by simp [h]⟩
      · exact ⟨rfl, rfl, by simp [h]⟩

/-- from state `s` the search has made the calls `l` and `n` steps, with or without an error in the last call -/
structure Went (s : SearchState F) (r : SearchState F × Bool) (l : List (Options F × CVRes F)) (n : Nat) : Prop where
  calls : r.1.calls = s.calls ++ l
  steps : r.1.steps = s.steps + n
  ok : r.2 = true → ∀ c ∈ l, c.2.err = false
  err : r.2 = false → ∃ l' c, l = l' ++ [c] ∧ c.2.err = true ∧ ∀ c ∈ l', c.2.err = false

theorem Went.trans {s s1 : SearchState F} {r : SearchState F × Bool} {l l1 : List (Options F × CVRes F)} {n n1 : Nat}
    (h : Went s (s1, true) l n) (h1 : Went s1 r l1 n1) : Went s r (l ++ l1) (n + n1) := by
  refine ⟨by rw [h1.calls, h.calls, List.append_assoc], by rw [h1.steps, h.steps, Nat.add_assoc], ?_, ?_⟩
  · intro hr c hc
    rcases List.mem_append.1 hc with hc | hc
    · exact h.ok rfl c hc
    · exact h1.ok hr c hc
  · intro hr
    obtain ⟨l', c, e1, e2, e3⟩ := h1.err hr
    refine ⟨l ++ l', c, by rw [e1, List.append_assoc], e2, ?_⟩
    intro c hc
    rcases List.mem_append.1 hc with hc | hc
    · exact h.ok rfl c hc
    · exact e3 c hc

theorem searchSteps_went (E : SearchEnv F) (nfold : Int) : ∀ (n : Nat) (s : SearchState F) (t strikes : Nat),
    ∃ l k, Went s (searchSteps E nfold n s t strikes) l k ∧ k ≤ n ∧ l.length ≤ k := by
  intro n
  induction n with
  | zero => intro s t strikes; exact ⟨[], 0, ⟨by simp [searchSteps], by simp [searchSteps], by simp, by simp [searchSteps]⟩, le_rfl, le_rfl⟩
  | succ n ih =>
    intro s t strikes
    unfold searchSteps
    simp only
    split
    · split
      · exact ⟨[], 1, ⟨by simp [SearchState.fuzz, SearchState.store, SearchState.alloc],
          by simp [SearchState.fuzz, SearchState.store, SearchState.alloc], by simp, by simp⟩, by omega, by simp⟩
      · obtain ⟨l, k, h1, h2, h3⟩ := ih (({ (s.alloc (s.deref t).clone).store t (E.grad (s.alloc (s.deref t).clone).steps nfold
          ((s.alloc (s.deref t).clone).deref t)) with steps := (s.alloc (s.deref t).clone).steps + 1 }).fuzz E t (some (ofRat (2/10)))) t (strikes + 1)
        refine ⟨l, 1 + k, ?_, by omega, by omega⟩
        refine Went.trans (l := []) ⟨?_, ?_, by simp, by simp⟩ h1
        · simp [SearchState.fuzz, SearchState.store, SearchState.alloc]
        · simp [SearchState.fuzz, SearchState.store, SearchState.alloc]
    · obtain ⟨r, c1, c2, c3⟩ := compareAccs_calls E ({ (s.alloc (s.deref t).clone).store t (E.grad (s.alloc (s.deref t).clone).steps nfold
          ((s.alloc (s.deref t).clone).deref t)) with steps := (s.alloc (s.deref t).clone).steps + 1 }) t s.heap.length
      split
      · rename_i heq
        rw [heq] at c1 c2 c3
        refine ⟨_, 1, ⟨c1, c2, by simp, fun _ => ⟨[], _, rfl, c3.1 rfl, by simp⟩⟩, by omega, by simp⟩
      · rename_i t' heq
        rw [heq] at c1 c2 c3
        obtain ⟨l, k, h1, h2, h3⟩ := ih _ t' 0
        refine ⟨_, 1 + k, Went.trans ⟨c1, c2, ?_, by simp⟩ h1, by omega, by simp; omega⟩
        intro _ c hc
        rw [List.mem_singleton] at hc
        subst hc
        cases he : r.err with
        | false => rfl
        | true => exact absurd (c3.2 he) (by simp)

theorem searchFrom_went (E : SearchEnv F) (nfold : Int) (s : SearchState F) (init : Options F) :
    ∃ r l k, Went s (searchFrom E nfold s init) ((init, r) :: l) k ∧ k ≤ E.o.nSteps.toNat ∧ l.length ≤ k := by
  unfold searchFrom
  simp only
  obtain ⟨r, c1, c2, c3⟩ := compareAccs_calls E ((s.alloc init).alloc init.clone) s.heap.length (s.heap.length + 1)
  have hd : ((s.alloc init).alloc init.clone).deref s.heap.length = init := by
    simp [SearchState.deref, SearchState.alloc]
  rw [hd] at c1
  refine ⟨r, ?_⟩
  split
  · rename_i heq
    rw [heq] at c1 c2 c3
    exact ⟨[], 0, ⟨c1, c2, by simp, fun _ => ⟨[], _, rfl, c3.1 rfl, by simp⟩⟩, by omega, by simp⟩
  · rename_i t' heq
    rw [heq] at c1 c2 c3
    obtain ⟨l, k, h1, h2, h3⟩ := searchSteps_went E nfold E.o.nSteps.toNat _ t' 0
    refine ⟨l, 0 + k, Went.trans (s := s) (l := [(init, r)]) (n := 0) ⟨c1, c2, ?_, by simp⟩ h1, by omega, by omega⟩
    intro _ c hc
    rw [List.mem_singleton] at hc
    subst hc
    cases he : r.err with
    | false => rfl
    | true => exact absurd (c3.2 he) (by simp)

theorem searchAll_went (E : SearchEnv F) (nfold : Int) : ∀ (inits : List (Options F)) (s : SearchState F),
    ∃ l k, Went s (searchAll E nfold inits s) l k ∧ k ≤ inits.length * E.o.nSteps.toNat ∧
      l.length ≤ inits.length * (E.o.nSteps.toNat + 1) ∧
      ((searchAll E nfold inits s).2 = true → ∀ I ∈ inits, ∃ c ∈ l, c.1 = I) := by
  intro inits
  induction inits with
  | nil => intro s; exact ⟨[], 0, ⟨by simp [searchAll], by simp [searchAll], by simp, by simp [searchAll]⟩, by omega, by simp, by simp⟩
  | cons init inits ih =>
    intro s
    obtain ⟨r, l, k, h1, h2, h3⟩ := searchFrom_went E nfold s init
    unfold searchAll
    split
    · rename_i heq
      rw [heq] at h1
      refine ⟨_, k, h1, ?_, ?_, by simp⟩
      · rw [List.length_cons, Nat.succ_mul]; omega
      · simp only [List.length_cons, Nat.succ_mul]; omega
    · rename_i s' heq
      rw [heq] at h1
      obtain ⟨l', k', g1, g2, g3, g4⟩ := ih s'
      refine ⟨_, _, h1.trans g1, ?_, ?_, ?_⟩
      · rw [List.length_cons, Nat.succ_mul]; omega
      · simp only [List.length_cons, List.length_append, Nat.succ_mul]; omega
      · intro hr I hI
        rcases List.mem_cons.1 hI with rfl | hI
        · exact ⟨(I, r), by simp, rfl⟩
        · obtain ⟨c, c1, c2⟩ := g4 hr I hI
          exact ⟨c, by simp [c1], c2⟩

theorem searchRet_err (r : SearchState F × Bool) : (searchRet r).err = !r.2 := by
  obtain ⟨s, b⟩ := r
  cases b <;> rfl

/-- the starting points of a search with the result `ret` -/
def StartsOf (fuel : Nat) (E : SearchEnv F) (nfold : Int) (ret : GridRet F) (inits : List (Options F)) : Prop :=
  (gradientInits fuel E.o = some inits ∨ hybridInits fuel E.o = some inits) ∧
    ret = searchRet (searchAll E nfold inits searchStart)

theorem startsOf {fuel : Nat} {E : SearchEnv F} {nfold : Int} {ret : GridRet F} (h : SearchReturns fuel E nfold ret) :
    ∃ inits, StartsOf fuel E nfold ret inits := by
  rcases h with h | h
  · obtain ⟨inits, hi, h⟩ := Option.map_eq_some_iff.1 h
    exact ⟨inits, Or.inl hi, h.symm⟩
  · obtain ⟨inits, hi, h⟩ := Option.map_eq_some_iff.1 h
    exact ⟨inits, Or.inr hi, h.symm⟩

/-- **C107 (work)**: a gradient search makes at most `NSteps` gradient steps for each starting point, and at most `NSteps + 1`
cross-validations to compare options; unless it returns an error it measures every starting point. -/
theorem C107_work (fuel : Nat) (E : SearchEnv F) (nfold : Int) (ret : GridRet F) (h : SearchReturns fuel E nfold ret) :
    ∃ inits, StartsOf fuel E nfold ret inits ∧
      (searchEnd E nfold inits).steps ≤ inits.length * E.o.nSteps.toNat ∧
      (searchEnd E nfold inits).calls.length ≤ inits.length * (E.o.nSteps.toNat + 1) ∧
      (ret.err = false → ∀ I ∈ inits, ∃ c ∈ (searchEnd E nfold inits).calls, c.1 = I) := by
  obtain ⟨inits, hi⟩ := startsOf h
  obtain ⟨l, k, h1, h2, h3, h4⟩ := searchAll_went E nfold inits searchStart
  have hc : (searchEnd E nfold inits).calls = l := by simpa [searchEnd, searchStart] using h1.calls
  refine ⟨inits, hi, ?_, by rw [hc]; exact h3, ?_⟩
  · have : (searchEnd E nfold inits).steps = k := by simpa [searchEnd, searchStart] using h1.steps
    omega
  · intro he
    rw [hc]
    refine h4 ?_
    rw [hi.2, searchRet_err] at he
    simpa using he

/-- **C107 (errors)**: a gradient search returns an error exactly if one of the cross-validations that compare options failed, and it
ends with the first one that fails. -/
theorem C107_error (fuel : Nat) (E : SearchEnv F) (nfold : Int) (ret : GridRet F) (h : SearchReturns fuel E nfold ret) :
    ∃ inits, StartsOf fuel E nfold ret inits ∧
      (ret.err = true ↔ ∃ c ∈ (searchEnd E nfold inits).calls, c.2.err = true) ∧
      ∀ (i : Nat) c, (searchEnd E nfold inits).calls[i]? = some c → c.2.err = true →
        i + 1 = (searchEnd E nfold inits).calls.length := by
  obtain ⟨inits, hi⟩ := startsOf h
  obtain ⟨l, k, h1, h2, h3, h4⟩ := searchAll_went E nfold inits searchStart
  have hc : (searchEnd E nfold inits).calls = l := by simpa [searchEnd, searchStart] using h1.calls
  have he : ret.err = !(searchAll E nfold inits searchStart).2 := by rw [hi.2, searchRet_err]
  refine ⟨inits, hi, ?_, ?_⟩
  · rw [hc, he]
    cases hr : (searchAll E nfold inits searchStart).2 with
    | true =>
      have := h1.ok hr
      simp only [Bool.not_true, Bool.false_eq_true, false_iff, not_exists, not_and, Bool.not_eq_true]
      exact this
    | false =>
      obtain ⟨l', c, e1, e2, _⟩ := h1.err hr
      simp only [Bool.not_false, true_iff]
      exact ⟨c, by simp [e1], e2⟩
  · rw [hc]
    intro i c hi' hce
    cases hr : (searchAll E nfold inits searchStart).2 with
    | true =>
      have := h1.ok hr c (List.mem_of_getElem? hi')
      rw [this] at hce
      cases hce
    | false =>
      obtain ⟨l', c', e1, e2, e3⟩ := h1.err hr
      rw [e1] at hi' ⊢
      rw [List.getElem?_append] at hi'
      split at hi'
      · have := e3 c (List.mem_of_getElem? hi')
        rw [this] at hce
        cases hce
      · have := (List.getElem?_eq_some_iff.1 hi').1
        simp at this ⊢
        omega

/-! ### Strikes -/

/-- No gradient step changes options for which `P` holds, and the search does not leave `P`. -/
structure NoMoves (E : SearchEnv F) (nfold : Int) (P : Options F → Prop) : Prop where
  grad : ∀ k O, P O → P (E.grad k nfold O) ∧ (E.grad k nfold O).equal O.clone = true
  fuzz : ∀ k O perc, perc = none ∨ perc = some (ofRat (2/10)) → P O → P (fuzzOptions (E.draws k) O perc)
  raised : ∀ O, P O → P O.fixMcw
  clone : ∀ O, P O → P O.clone

/-- `t` points to options for which `P` holds -/
def Points (P : Options F → Prop) (s : SearchState F) (t : Nat) : Prop := t < s.heap.length ∧ P (s.deref t)

theorem Points.alloc {P : Options F → Prop} {s : SearchState F} {t : Nat} (h : Points P s t) (O : Options F) :
    Points P (s.alloc O) t ∧ (s.alloc O).deref t = s.deref t := by
  have e : (s.alloc O).deref t = s.deref t := by
    simp [SearchState.deref, SearchState.alloc, List.getElem?_append, h.1]
  have hl := h.1
  refine ⟨⟨by simp [SearchState.alloc]; omega, by rw [e]; exact h.2⟩, e⟩

theorem deref_store {s : SearchState F} {t : Nat} (h : t < s.heap.length) (O : Options F) : (s.store t O).deref t = O := by
  simp [SearchState.deref, SearchState.store, h]

theorem deref_store_ne {s : SearchState F} {t u : Nat} (h : u ≠ t) (O : Options F) : (s.store t O).deref u = s.deref u := by
  unfold SearchState.deref SearchState.store
  simp only
  rw [List.getElem?_set, if_neg (fun h' => h h'.symm)]

theorem Points.store {P : Options F → Prop} {s : SearchState F} {t : Nat} (h : t < s.heap.length) {O : Options F} (hO : P O) :
    Points P (s.store t O) t := by
  refine ⟨by simpa [SearchState.store] using h, ?_⟩
  rw [deref_store h]
  exact hO

theorem searchSteps_stuck {E : SearchEnv F} {nfold : Int} {P : Options F → Prop} (hP : NoMoves E nfold P) :
    ∀ (n : Nat) (s : SearchState F) (t strikes : Nat), Points P s t → strikes < 3 →
      (searchSteps E nfold n s t strikes).2 = true ∧
      (searchSteps E nfold n s t strikes).1.steps = s.steps + min (3 - strikes) n ∧
      (searchSteps E nfold n s t strikes).1.calls = s.calls := by
  intro n
  induction n with
  | zero => intro s t strikes _ _; simp [searchSteps]
  | succ n ih =>
    intro s t strikes hs hk
    obtain ⟨ha, hd⟩ := hs.alloc (s.deref t).clone
    obtain ⟨g1, g2⟩ := hP.grad (s.alloc (s.deref t).clone).steps _ ha.2
    have hst := Points.store (P := P) ha.1 g1
    have hne : s.heap.length ≠ t := by have := hs.1; omega
    have e1 : ((s.alloc (s.deref t).clone).store t (E.grad (s.alloc (s.deref t).clone).steps nfold
          ((s.alloc (s.deref t).clone).deref t))).deref t = E.grad (s.alloc (s.deref t).clone).steps nfold
          ((s.alloc (s.deref t).clone).deref t) := deref_store ha.1 _
    have e2 : ((s.alloc (s.deref t).clone).store t (E.grad (s.alloc (s.deref t).clone).steps nfold
          ((s.alloc (s.deref t).clone).deref t))).deref s.heap.length = (s.deref t).clone := by
      rw [deref_store_ne hne]
      simp [SearchState.deref, SearchState.alloc]
    unfold searchSteps
    simp only
    rw [if_pos]
    · split
      · rename_i h3
        refine ⟨rfl, ?_, rfl⟩
        simp only [SearchState.fuzz, SearchState.store, SearchState.alloc]
        omega
      · rename_i h3
        obtain ⟨i1, i2, i3⟩ := ih (({ (s.alloc (s.deref t).clone).store t (E.grad (s.alloc (s.deref t).clone).steps nfold
          ((s.alloc (s.deref t).clone).deref t)) with steps := (s.alloc (s.deref t).clone).steps + 1 }).fuzz E t (some (ofRat (2/10)))) t
          (strikes + 1) (Points.store (P := P) hst.1 (hP.fuzz _ _ _ (Or.inr rfl) hst.2)) (by omega)
        refine ⟨i1, i2.trans ?_, i3⟩
        simp only [SearchState.fuzz, SearchState.store, SearchState.alloc]
        omega
    · have : (E.grad (s.alloc (s.deref t).clone).steps nfold ((s.alloc (s.deref t).clone).deref t)).equal (s.deref t).clone = true := by
        rw [hd] at g2 ⊢
        exact g2
      have e3 : (((s.alloc (s.deref t).clone).store t (E.grad (s.alloc (s.deref t).clone).steps nfold
          ((s.alloc (s.deref t).clone).deref t))).deref t).equal (((s.alloc (s.deref t).clone).store t
          (E.grad (s.alloc (s.deref t).clone).steps nfold ((s.alloc (s.deref t).clone).deref t))).deref s.heap.length) = true := by
        rw [e1, e2]
        exact this
      exact e3

theorem compareAccs_points {E : SearchEnv F} {nfold : Int} {P : Options F → Prop} (hP : NoMoves E nfold P) {s : SearchState F} {t tprev t' : Nat}
    (h1 : Points P s t) (h2 : Points P s tprev) (hne : t ≠ tprev) (h : (compareAccs E s t tprev).2 = some t') :
    Points P (compareAccs E s t tprev).1 t' := by
  have key : ∀ c, Points P ({ s with calls := c }.store t (s.deref t).fixMcw) t := fun c => Points.store (P := P) h1.1 (hP.raised _ h1.2)
  unfold compareAccs at h ⊢
  simp only at h ⊢
  split at h
  · cases h
  · rename_i he
    rw [if_neg he]
    split at h
    · rename_i hl
      rw [if_pos hl]
      obtain rfl := Option.some.inj h
      refine Points.store (P := P) (by simpa [SearchState.store] using h2.1) (hP.fuzz _ _ _ (Or.inl rfl) ?_)
      rw [deref_store_ne hne.symm]
      exact h2.2
    · rename_i hl
      rw [if_neg hl]
      split at h
      · rename_i hb
        rw [if_pos hb]
        obtain rfl := Option.some.inj h
        exact key _
      · rename_i hb
        rw [if_neg hb]
        obtain rfl := Option.some.inj h
        exact key _

/-- **C107 (strikes)**: if no gradient step changes the options the search gives up each starting point after three steps (or `NSteps` if
that is less), without further cross-validations. -/
theorem C107_strikes (fuel : Nat) (E : SearchEnv F) (nfold : Int) (ret : GridRet F) (h : SearchReturns fuel E nfold ret)
    (he : ret.err = false) (P : Options F → Prop) (hP : NoMoves E nfold P) :
    ∃ inits, StartsOf fuel E nfold ret inits ∧
      ((∀ I ∈ inits, P I) → (searchEnd E nfold inits).steps = inits.length * min 3 E.o.nSteps.toNat ∧
        (searchEnd E nfold inits).calls.map (·.1) = inits) := by
  obtain ⟨inits, hi⟩ := startsOf h
  refine ⟨inits, hi, ?_⟩
  intro hin
  have hr : (searchAll E nfold inits searchStart).2 = true := by
    rw [hi.2, searchRet_err] at he
    simpa using he
  have key : ∀ (inits : List (Options F)) (s : SearchState F), (∀ I ∈ inits, P I) → (searchAll E nfold inits s).2 = true →
      (searchAll E nfold inits s).1.steps = s.steps + inits.length * min 3 E.o.nSteps.toNat ∧
      (searchAll E nfold inits s).1.calls.map (·.1) = s.calls.map (·.1) ++ inits := by
    intro inits
    induction inits with
    | nil => intro s _ _; simp [searchAll]
    | cons init inits ih =>
      intro s hin hr
      have hfrom : (searchFrom E nfold s init).2 = true → (searchFrom E nfold s init).1.steps = s.steps + min 3 E.o.nSteps.toNat ∧
          (searchFrom E nfold s init).1.calls.map (·.1) = s.calls.map (·.1) ++ [init] := by
        unfold searchFrom
        simp only
        have hI := hin init (by simp)
        have hp1 : Points P ((s.alloc init).alloc init.clone) s.heap.length := by
          refine ⟨by simp [SearchState.alloc], ?_⟩
          rw [show ((s.alloc init).alloc init.clone).deref s.heap.length = init by simp [SearchState.deref, SearchState.alloc]]
          exact hI
        have hp2 : Points P ((s.alloc init).alloc init.clone) (s.heap.length + 1) := by
          refine ⟨by simp [SearchState.alloc], ?_⟩
          rw [show ((s.alloc init).alloc init.clone).deref (s.heap.length + 1) = init.clone by
            simp [SearchState.deref, SearchState.alloc, List.getElem?_append]]
          exact hP.clone _ hI
        obtain ⟨r, c1, c2, c3⟩ := compareAccs_calls E ((s.alloc init).alloc init.clone) s.heap.length (s.heap.length + 1)
        have hd : ((s.alloc init).alloc init.clone).deref s.heap.length = init := by
          simp [SearchState.deref, SearchState.alloc]
        rw [hd] at c1
        have hpt := fun t' => compareAccs_points hP (t' := t') hp1 hp2 (by omega)
        split
        · simp
        · rename_i t' heq
          rw [heq] at c1 c2 c3 hpt
          intro _
          obtain ⟨_, k2, k3⟩ := searchSteps_stuck hP E.o.nSteps.toNat _ t' 0 (hpt t' rfl) (by omega)
          rw [k2, k3, c1, c2]
          exact ⟨rfl, by simp [SearchState.alloc]⟩
      unfold searchAll at hr ⊢
      split at hr
      · cases hr
      · rename_i s' heq
        rw [heq] at hfrom
        obtain ⟨f1, f2⟩ := hfrom rfl
        obtain ⟨i1, i2⟩ := ih s' (fun I hI => hin I (by simp [hI])) hr
        simp only at i1 i2 f1 f2 ⊢
        rw [i1, i2, f1, f2]
        refine ⟨?_, by simp⟩
        rw [List.length_cons, Nat.succ_mul]
        omega
  have := key inits searchStart hin hr
  simpa [searchEnd, searchStart] using this

/-! Non-vacuity: a search in which nothing moves, over all options without NaN or infinities; and one that fails. -/

/-- all numbers in the options are finite -/
structure FinOptions (O : Options (Exact ℚ)) : Prop where
  subSample : ∃ x, O.subSample = XF.fin x
  colSubSample : ∃ x, O.colSubSample = XF.fin x
  lambda : ∃ x, O.lambda = XF.fin x
  minChildWeight : ∃ x, O.minChildWeight = XF.fin x
  gamma : ∃ x, O.gamma = XF.fin x
  learningRate : ∃ x, O.learningRate = XF.fin x
  baseScore : ∃ x, O.baseScore = XF.fin x

/-- the perturbation of a finite number is finite -/
theorem fuzz_fin {u f p : Exact ℚ} (b : Nat) (hu : ∃ x, u = XF.fin x) (hf : ∃ x, f = XF.fin x) (hp : ∃ x, p = XF.fin x) :
    ∃ x, fuzz u b f p = XF.fin x := by
  obtain ⟨u, rfl⟩ := hu
  obtain ⟨f, rfl⟩ := hf
  obtain ⟨p, rfl⟩ := hp
  unfold fuzz
  simp only
  split <;> exact ⟨_, rfl⟩

/-- a search over one starting point with `n` steps, in which nothing moves -/
def idleSearch (n : Int) : SearchEnv (Exact ℚ) :=
  { flatSearch with o := oneStart n ⟨.fin (8/10), .fin (8/10), .fin (1/10)⟩ }

theorem idle_noMoves (n : Int) : NoMoves (idleSearch n) 5 FinOptions := by
  constructor
  · rintro k O h
    refine ⟨h, ?_⟩
    show O.equal O.clone = true
    obtain ⟨⟨a1, h1⟩, ⟨a2, h2⟩, ⟨a3, h3⟩, ⟨a4, h4⟩, ⟨a5, h5⟩, ⟨a6, h6⟩, ⟨a7, h7⟩⟩ := h
    simp [Options.equal, Options.clone, h1, h2, h3, h4, h5, h6, h7, fne]
  · rintro k O perc hperc h
    have hu : ∃ x, (XF.fin (1/2) : Exact ℚ) = XF.fin x := ⟨_, rfl⟩
    have hq : ∃ x, (if gt (ofRat (2/10) : Exact ℚ) zero then ofRat (2/10) else ofRat (1/10) : Exact ℚ) = XF.fin x := ⟨2/10, by decide +kernel⟩
    have hq' : ∃ x, (ofRat (1/10) : Exact ℚ) = XF.fin x := ⟨_, rfl⟩
    rcases hperc with rfl | rfl
    · exact ⟨fuzz_fin _ hu h.1 hq', fuzz_fin _ hu h.2 hq', fuzz_fin _ hu h.3 hq', h.4, fuzz_fin _ hu h.5 hq',
        fuzz_fin _ hu h.6 hq', fuzz_fin _ hu h.7 hq'⟩
    · exact ⟨fuzz_fin _ hu h.1 hq, fuzz_fin _ hu h.2 hq, fuzz_fin _ hu h.3 hq, h.4, fuzz_fin _ hu h.5 hq,
        fuzz_fin _ hu h.6 hq, fuzz_fin _ hu h.7 hq⟩
  · rintro O h
    unfold Options.fixMcw
    split
    · exact ⟨h.1, h.2, h.3, ⟨_, rfl⟩, h.5, h.6, h.7⟩
    · exact h
  · rintro O h
    exact ⟨h.1, h.2, h.3, h.4, h.5, h.6, h.7⟩

/-- with 100 steps allowed the idle search makes three -/
example : ∃ ret, SearchReturns 3 (idleSearch 100) 5 ret ∧ ret.err = false ∧
    gradientInits 3 (idleSearch 100).o = some [startPoint (idleSearch 100).o] ∧ FinOptions (startPoint (idleSearch 100).o) ∧
    (searchEnd (idleSearch 100) 5 [startPoint (idleSearch 100).o]).steps = 3 := by
  have hi : gradientInits 3 (idleSearch 100).o = some [startPoint (idleSearch 100).o] := oneStart_inits _ _
  refine ⟨searchRet (searchAll (idleSearch 100) 5 [startPoint (idleSearch 100).o] searchStart), Or.inl ?_, ?_, hi, ?_, ?_⟩
  · unfold gradientGrid
    rw [hi]
    rfl
  · decide +kernel
  · have h : ∀ x : Exact ℚ, (match x with | XF.fin _ => true | _ => false) = true → ∃ y, x = XF.fin y := by
      intro x hx
      cases x with
      | fin y => exact ⟨y, rfl⟩
      | _ => cases hx
    constructor <;> apply h <;> decide +kernel
  · decide +kernel

/-- the third cross-validation fails -/
def failingSearch : SearchEnv (Exact ℚ) :=
  { peakSearch with
    o := oneStart 9 ⟨.fin (6/10), .fin (9/10), .fin (1/10)⟩
    cv := fun k _ O => ⟨k == 2, .fin (peakAcc O)⟩
    grad := fun k _ O => { O with gamma := .fin (k + 2) } }

example : ∃ ret, SearchReturns 3 failingSearch 5 ret ∧ ret.err = true ∧
    (searchEnd failingSearch 5 [startPoint failingSearch.o]).calls.map (fun c => c.2.err) = [false, false, true] := by
  have hi : gradientInits 3 failingSearch.o = some [startPoint failingSearch.o] := oneStart_inits _ _
  refine ⟨searchRet (searchAll failingSearch 5 [startPoint failingSearch.o] searchStart), Or.inl ?_, ?_, ?_⟩
  · unfold gradientGrid
    rw [hi]
    rfl
  · decide +kernel
  · decide +kernel

end Boo
