import Verif.Model.MemConc
import Verif.Lemmas.MemCV

/-!
# Goroutines that write only to their own arrays

Each goroutine does what it does alone (`GorInv`), whatever the others do.
-/

namespace Boo
open GoFloat
variable {F : Type} [GoFloat F] {α β : Type} {m : Mem F}

/-- run alone from `m` the computation writes only to arrays that it makes -/
structure WritesOnlyNew (m : Mem F) (x : MGo F α) : Prop where
  floats : ∃ l, (x m).2.wrF = l ++ m.wrF ∧ ∀ a ∈ l, m.fl.length ≤ a
  indexes : ∃ l, (x m).2.wrI = l ++ m.wrI ∧ ∀ a ∈ l, m.ix.length ≤ a

theorem Frame.writesOnlyNew {x : MGo F α} (h : Frame (fun _ => False) (fun _ => False) m (x m).2) : WritesOnlyNew m x := by
  obtain ⟨_, _, _, ⟨l, e, h1⟩, ⟨l', e', h2⟩⟩ := h
  exact ⟨⟨l, e, fun a ha => (h1 a ha).resolve_left id⟩, ⟨l', e', fun a ha => (h2 a ha).resolve_left id⟩⟩

/-! ### one computation -/

theorem MGo.step_run {p p' : MGo F α} {m m' : Mem F} (h : p.step m = some (p', m')) : p'.run m' = p.run m := by
  cases p <;> simp only [MGo.step, Option.some.injEq, Prod.mk.injEq, reduceCtorEq] at h <;> (obtain ⟨rfl, rfl⟩ := h; rfl)

theorem MGo.step_length {p p' : MGo F α} {m m' : Mem F} (h : p.step m = some (p', m')) : p.length m = p'.length m' + 1 := by
  cases p <;> simp only [MGo.step, Option.some.injEq, Prod.mk.injEq, reduceCtorEq] at h <;> (obtain ⟨rfl, rfl⟩ := h; rfl)

theorem MGo.step_none {p : MGo F α} {m : Mem F} (h : p.step m = none) : ∃ r, p = .ret r := by
  cases p <;> simp only [MGo.step, reduceCtorEq] at h
  exact ⟨_, rfl⟩

/-- the logs only grow -/
theorem MGo.run_logs (p : MGo F α) (m : Mem F) : (∃ l, (p.run m).2.wrF = l ++ m.wrF) ∧ ∃ l, (p.run m).2.wrI = l ++ m.wrI := by
  induction p generalizing m with
  | ret g => exact ⟨⟨[], rfl⟩, ⟨[], rfl⟩⟩
  | readF s k ih => exact ih _ m
  | readI s k ih => exact ih _ m
  | readL s k ih => exact ih _ m
  | writeF s l k ih =>
    obtain ⟨⟨l1, h1⟩, h2⟩ := ih (m.writeF s l)
    exact ⟨⟨l1 ++ [s.arr], by
      show (k.run (m.writeF s l)).2.wrF = _
      rw [h1]
      simp [Mem.writeF]⟩, h2⟩
  | writeI s l k ih =>
    obtain ⟨h1, ⟨l2, h2⟩⟩ := ih (m.writeI s l)
    exact ⟨h1, ⟨l2 ++ [s.arr], by
      show (k.run (m.writeI s l)).2.wrI = _
      rw [h2]
      simp [Mem.writeI]⟩⟩
  | allocF l k ih => exact ih _ _
  | allocI l k ih => exact ih _ _
  | allocL l k ih => exact ih _ _

/-! ### shared and own arrays -/

/-- the memory begins with the arrays of `m`, and its logs with those of `m` -/
structure Extends (m v : Mem F) : Prop where
  fl : v.fl.take m.fl.length = m.fl
  ix : v.ix.take m.ix.length = m.ix
  lb : v.lb.take m.lb.length = m.lb
  logF : ∃ l, v.wrF = l ++ m.wrF
  logI : ∃ l, v.wrI = l ++ m.wrI

theorem Extends.shared {v : Mem F} (h : Extends m v) : m.sharedPart v = m := by
  unfold Mem.sharedPart
  rw [h.fl, h.ix, h.lb]

theorem Extends.join {v : Mem F} (h : Extends m v) : m.join (m.ownPart v) = v := by
  have h1 := List.take_append_drop m.fl.length v.fl
  have h2 := List.take_append_drop m.ix.length v.ix
  have h3 := List.take_append_drop m.lb.length v.lb
  rw [h.fl] at h1
  rw [h.ix] at h2
  rw [h.lb] at h3
  unfold Mem.join Mem.ownPart
  simp only [h1, h2, h3]

theorem take_put {γ : Type} {s : Sl} {l : List γ} {A : List (List γ)} {n : Nat} (h : n ≤ s.arr) : (s.put l A).take n = A.take n := by
  refine List.ext_getElem? fun i => ?_
  rw [List.getElem?_take, List.getElem?_take]
  split
  · rw [s.put_ne l A (by omega)]
  · rfl

theorem take_add {γ : Type} {A B : List γ} (x : γ) (h : A.take B.length = B) : (A ++ [x]).take B.length = B := by
  have : B.length ≤ A.length := by
    have := congrArg List.length h
    rw [List.length_take] at this
    omega
  rw [List.take_append_of_le_length this, h]

/-- a computation that writes only to new arrays, in the middle: it sees a memory that extends `m` -/
structure GorInv (m : Mem F) (x : MGo F α) (p : MGo F α) (v : Mem F) : Prop where
  ext : Extends m v
  run : p.run v = x.run m

theorem own_write {L L1 L2 l l1 : List Nat} {a n : Nat} (h : L = l ++ L1) (hl : ∀ b ∈ l, n ≤ b) (h1 : L2 = l1 ++ L1) (hL : ∃ k, L = k ++ a :: L2) : n ≤ a := by
  obtain ⟨k, hk⟩ := hL
  have : l = k ++ a :: l1 := by
    have e : l ++ L1 = (k ++ a :: l1) ++ L1 := by
      rw [← h, hk, h1]
      simp
    exact List.append_cancel_right e
  exact hl a (by simp [this])

theorem GorInv.step {x p p' : MGo F α} {v v' : Mem F} (hx : WritesOnlyNew m x) (h : GorInv m x p v) (hs : p.step v = some (p', v')) : GorInv m x p' v' := by
  refine ⟨?_, (MGo.step_run hs).trans h.run⟩
  have he := h.ext
  have hrun := h.run
  cases p <;> simp only [MGo.step, Option.some.injEq, Prod.mk.injEq, reduceCtorEq] at hs
  case readF s k => obtain ⟨rfl, rfl⟩ := hs; exact he
  case readI s k => obtain ⟨rfl, rfl⟩ := hs; exact he
  case readL s k => obtain ⟨rfl, rfl⟩ := hs; exact he
  case writeF s l k =>
    obtain ⟨rfl, rfl⟩ := hs
    obtain ⟨l0, e0, h0⟩ := hx.floats
    obtain ⟨l1, e1⟩ := he.logF
    have ha := own_write e0 h0 e1 (by
      rw [← hrun]
      exact (MGo.run_logs k (v.writeF s l)).1)
    exact ⟨(take_put ha).trans he.fl, he.ix, he.lb, ⟨s.arr :: l1, by simp [Mem.writeF, e1]⟩, he.logI⟩
  case writeI s l k =>
    obtain ⟨rfl, rfl⟩ := hs
    obtain ⟨l0, e0, h0⟩ := hx.indexes
    obtain ⟨l1, e1⟩ := he.logI
    have ha := own_write e0 h0 e1 (by
      rw [← hrun]
      exact (MGo.run_logs k (v.writeI s l)).2)
    exact ⟨he.fl, (take_put ha).trans he.ix, he.lb, he.logF, ⟨s.arr :: l1, by simp [Mem.writeI, e1]⟩⟩
  case allocF l k => obtain ⟨rfl, rfl⟩ := hs; exact ⟨take_add _ he.fl, he.ix, he.lb, he.logF, he.logI⟩
  case allocI l k => obtain ⟨rfl, rfl⟩ := hs; exact ⟨he.fl, take_add _ he.ix, he.lb, he.logF, he.logI⟩
  case allocL l k => obtain ⟨rfl, rfl⟩ := hs; exact ⟨he.fl, he.ix, take_add _ he.lb, he.logF, he.logI⟩

/-- the next step does not write to a shared array -/
theorem GorInv.access {x p : MGo F α} {v : Mem F} (hx : WritesOnlyNew m x) (h : GorInv m x p v) {k : ArrKind} {a : Nat} (hs : p.access = some (k, a, true)) :
    m.count k ≤ a := by
  have he := h.ext
  have hrun := h.run
  cases p <;> simp only [MGo.access, Option.some.injEq, Prod.mk.injEq, reduceCtorEq, and_false] at hs
  case writeF s l k' =>
    obtain ⟨rfl, rfl, _⟩ := hs
    obtain ⟨l0, e0, h0⟩ := hx.floats
    obtain ⟨l1, e1⟩ := he.logF
    exact own_write e0 h0 e1 (by
      rw [← hrun]
      exact (MGo.run_logs k' (v.writeF s l)).1)
  case writeI s l k' =>
    obtain ⟨rfl, rfl, _⟩ := hs
    obtain ⟨l0, e0, h0⟩ := hx.indexes
    obtain ⟨l1, e1⟩ := he.logI
    exact own_write e0 h0 e1 (by
      rw [← hrun]
      exact (MGo.run_logs k' (v.writeI s l)).2)

/-! ### all goroutines -/

/-- every goroutine is somewhere in its own run -/
structure ConcInv (m : Mem F) (xs : List (MGo F α)) (s : ConcState F α) : Prop where
  shared : s.shared = m
  len : s.gors.length = xs.length
  gors : ∀ (i : Nat) (x : MGo F α) (g : Gor F α), xs[i]? = some x → s.gors[i]? = some g → GorInv m x g.prog (m.join g.own)

theorem Mem.join_init (m : Mem F) : m.join { fl := [], ix := [], lb := [], wrF := m.wrF, wrI := m.wrI } = m := by
  unfold Mem.join
  simp

theorem ConcInv.init (m : Mem F) (xs : List (MGo F α)) : ConcInv m xs (concInit m xs) := by
  refine ⟨rfl, List.length_map .., fun i x g hx hg => ?_⟩
  simp only [concInit, List.getElem?_map, hx, Option.map_some, Option.some.injEq] at hg
  subst hg
  refine ⟨?_, by rw [Mem.join_init]⟩
  rw [Mem.join_init]
  exact ⟨List.take_length, List.take_length, List.take_length, ⟨[], rfl⟩, ⟨[], rfl⟩⟩

/-- the steps that the goroutines have still to do -/
def ConcState.todo (s : ConcState F α) : Nat := (s.gors.map fun g => g.prog.length (s.shared.join g.own)).sum

theorem sum_set_one {γ : Type} (f : γ → Nat) (l : List γ) {i : Nat} {x y : γ} (h : l[i]? = some x) (hf : f x = f y + 1) :
    (l.map f).sum = ((l.set i y).map f).sum + 1 := by
  induction l generalizing i with
  | nil => simp at h
  | cons a l ih =>
    cases i with
    | zero =>
      simp only [List.getElem?_cons_zero, Option.some.injEq] at h
      subst h
      simp [hf]
      omega
    | succ i =>
      have := ih (i := i) (by simpa using h)
      simp only [List.set_cons_succ, List.map_cons, List.sum_cons]
      omega

theorem ConcInv.step {xs : List (MGo F α)} (hx : ∀ x ∈ xs, WritesOnlyNew m x) {s t : ConcState F α} (h : ConcInv m xs s) (hs : ConcStep s t) :
    ConcInv m xs t ∧ s.todo = t.todo + 1 := by
  obtain ⟨i, g, p, v, hi, hst⟩ := hs
  obtain ⟨h1, h2, h3⟩ := h
  have hil : i < xs.length := h2 ▸ (List.getElem?_eq_some_iff.1 hi).1
  have hxi : xs[i]? = some xs[i] := List.getElem?_eq_getElem hil
  have hg := h3 i _ g hxi hi
  rw [h1] at hst
  have hg' := hg.step (hx _ (List.getElem_mem hil)) hst
  have hj := hg'.ext.join
  have hsh : s.shared.sharedPart v = m := h1 ▸ hg'.ext.shared
  refine ⟨⟨hsh, by rw [List.length_set, h2], fun j x g' hxj hgj => ?_⟩, ?_⟩
  · rw [List.getElem?_set] at hgj
    split at hgj
    · rename_i e
      subst e
      rw [hxi, Option.some.injEq] at hxj
      subst hxj
      split at hgj
      · rw [Option.some.injEq] at hgj
        subst hgj
        show GorInv m _ p (m.join (s.shared.ownPart v))
        rw [h1, hj]
        exact hg'
      · cases hgj
    · exact h3 j x g' hxj hgj
  · unfold ConcState.todo
    rw [hsh, h1]
    refine sum_set_one (fun g : Gor F α => g.prog.length (m.join g.own)) s.gors hi ?_
    show g.prog.length _ = p.length _ + 1
    rw [hj]
    exact MGo.step_length hst

theorem ConcInv.run {xs : List (MGo F α)} (hx : ∀ x ∈ xs, WritesOnlyNew m x) {n : Nat} {s : ConcState F α} (h : ConcRun n (concInit m xs) s) :
    ConcInv m xs s ∧ (concInit m xs).todo = s.todo + n := by
  generalize hc : concInit m xs = c at h
  induction h with
  | nil s => subst hc; exact ⟨.init m xs, rfl⟩
  | snoc h hs ih =>
    obtain ⟨h1, h2⟩ := ih hc
    obtain ⟨h3, h4⟩ := h1.step hx hs
    exact ⟨h3, by omega⟩

theorem todo_init (m : Mem F) (xs : List (MGo F α)) : (concInit m xs).todo = (xs.map fun x => x.length m).sum := by
  unfold ConcState.todo concInit
  rw [List.map_map]
  congr 1
  refine List.map_congr_left fun x _ => ?_
  show x.length (m.join _) = _
  rw [Mem.join_init]

/-! ### the calls -/

theorem MGo.bind_frame {x : MGo F α} {f : α → MGo F β} (h : Frame (fun _ => False) (fun _ => False) m (x m).2)
    (hf : ∀ a m', Frame (fun _ => False) (fun _ => False) m m' → x m = (.ok a, m') → Frame (fun _ => False) (fun _ => False) m' (f a m').2) :
    Frame (fun _ => False) (fun _ => False) m ((x >>= f) m).2 := by
  rw [MGo.run_bind]
  rcases hx : x m with ⟨r, m'⟩
  rw [hx] at h
  cases r with
  | error e => exact h
  | ok a => exact h.trans (hf a m' h hx) (fun _ _ h => h) (fun _ _ h => h)

end Boo
