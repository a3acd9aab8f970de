import Verif.Model.Mem
import Verif.Lemmas.Dense

/-!
# Reasoning about the memory

`Frame W V m m'`: from `m` to `m'` arrays were only added, except that the arrays of floats in `W` and of indexes in `V` may have been written.
`Sim`: a computation with a memory does what a computation with values does.
-/

namespace Boo
open GoFloat
variable {F : Type} [GoFloat F]

/-! ### arrays and slices -/

/-- arrays were added; the old ones have their lengths, and their contents unless they are in `W` -/
structure KeptArr {α : Type} (W : Nat → Prop) (A A' : List (List α)) : Prop where
  len : A.length ≤ A'.length
  same : ∀ a < A.length, ¬ W a → A'[a]? = A[a]?
  size : ∀ a < A.length, (A'[a]?).map List.length = (A[a]?).map List.length

/-- the slice lies in its array -/
structure Sl.Ok {α : Type} (s : Sl) (A : List (List α)) : Prop where
  arr : s.arr < A.length
  fits : s.off + s.len ≤ ((A[s.arr]?).getD []).length

section arrays
variable {α : Type} {W W' : Nat → Prop} {A A' A'' : List (List α)}

theorem KeptArr.refl : KeptArr W A A := ⟨le_refl _, fun _ _ _ => rfl, fun _ _ => rfl⟩

theorem KeptArr.trans (h : KeptArr W A A') (h' : KeptArr W' A' A'') (hW : ∀ a < A.length, W' a → W a) : KeptArr W A A'' := by
  refine ⟨h.len.trans h'.len, fun a ha hn => ?_, fun a ha => ?_⟩
  · rw [h'.same a (lt_of_lt_of_le ha h.len) (fun hw => hn (hW a ha hw)), h.same a ha hn]
  · rw [h'.size a (lt_of_lt_of_le ha h.len), h.size a ha]

theorem KeptArr.mono (h : KeptArr W A A') (hW : ∀ a < A.length, W a → W' a) : KeptArr W' A A' :=
  ⟨h.len, fun a ha hn => h.same a ha (fun hw => hn (hW a ha hw)), h.size⟩

theorem keptArr_append (l : List α) : KeptArr W A (A ++ [l]) := by
  refine ⟨by simp, fun a ha _ => ?_, fun a ha => ?_⟩ <;> rw [List.getElem?_append_left ha]

theorem Sl.Ok.kept {s : Sl} (h : s.Ok A) (hk : KeptArr W A A') : s.Ok A' := by
  refine ⟨lt_of_lt_of_le h.arr hk.len, ?_⟩
  have := hk.size s.arr h.arr
  have h2 := h.fits
  obtain ⟨x, hx⟩ : ∃ x, A[s.arr]? = some x := ⟨A[s.arr]'h.arr, List.getElem?_eq_getElem h.arr⟩
  rw [hx] at this h2
  cases hA : A'[s.arr]? with
  | none => rw [hA] at this; simp at this
  | some y =>
    rw [hA] at this
    simp only [Option.map_some, Option.some.injEq, Option.getD_some] at *
    omega

theorem Sl.view_kept {s : Sl} (h : s.Ok A) (hk : KeptArr W A A') (hn : ¬ W s.arr) : s.view A' = s.view A := by
  unfold Sl.view
  rw [hk.same s.arr h.arr hn]

theorem Sl.view_length {s : Sl} (h : s.Ok A) : (s.view A).length = s.len := by
  unfold Sl.view
  have := h.fits
  rw [List.length_take, List.length_drop]
  omega

theorem Sl.view_new (A : List (List α)) (l : List α) : (⟨A.length, 0, l.length⟩ : Sl).view (A ++ [l]) = l := by
  unfold Sl.view
  simp

theorem Sl.ok_new (A : List (List α)) (l : List α) : (⟨A.length, 0, l.length⟩ : Sl).Ok (A ++ [l]) := ⟨by simp, by simp⟩

theorem Sl.put_length (s : Sl) (l : List α) (A : List (List α)) : (s.put l A).length = A.length := by
  unfold Sl.put
  rw [List.length_modify]

theorem Sl.put_arr (s : Sl) (l : List α) (A : List (List α)) (x : List α) (h : A[s.arr]? = some x) :
    (s.put l A)[s.arr]? = some (x.take s.off ++ l ++ x.drop (s.off + l.length)) := by
  unfold Sl.put
  rw [List.getElem?_modify_eq, h]
  rfl

theorem Sl.put_ne (s : Sl) (l : List α) (A : List (List α)) {a : Nat} (h : a ≠ s.arr) : (s.put l A)[a]? = A[a]? := by
  unfold Sl.put
  simp [List.getElem?_modify, Ne.symm h]

/-- part of a slice -/
def Sl.sub (s : Sl) (j n : Nat) : Sl := ⟨s.arr, s.off + j, n⟩

theorem Sl.Ok.sub {s : Sl} (h : s.Ok A) {j n : Nat} (hj : j + n ≤ s.len) : (s.sub j n).Ok A := by
  refine ⟨h.arr, ?_⟩
  have := h.fits
  show s.off + j + n ≤ _
  simp only [Sl.sub]
  omega

theorem Sl.view_sub {s : Sl} {j n : Nat} (hj : j + n ≤ s.len) : (s.sub j n).view A = ((s.view A).drop j).take n := by
  unfold Sl.view Sl.sub
  simp only
  rw [List.drop_take, List.take_take, List.drop_drop, min_eq_left (by omega)]

theorem keptArr_put {s : Sl} {l : List α} (h : s.Ok A) (hl : l.length ≤ s.len) (hw : W s.arr) : KeptArr W A (s.put l A) := by
  refine ⟨by rw [Sl.put_length], fun a _ hn => s.put_ne l A (fun h => hn (h ▸ hw)), fun a ha => ?_⟩
  by_cases e : a = s.arr
  · subst e
    obtain ⟨x, hx⟩ : ∃ x, A[s.arr]? = some x := ⟨A[s.arr]'h.arr, List.getElem?_eq_getElem h.arr⟩
    have := h.fits
    rw [hx] at this
    rw [s.put_arr l A x hx, hx]
    simp only [Option.map_some, Option.some.injEq, Option.getD_some, List.length_append, List.length_take, List.length_drop] at *
    omega
  · rw [s.put_ne l A e]

theorem Sl.view_put_ne {s t : Sl} {l : List α} (h : t.arr ≠ s.arr) : t.view (s.put l A) = t.view A := by
  unfold Sl.view
  rw [s.put_ne l A h]

/-- writing to a part of a slice -/
theorem Sl.view_put_sub {s : Sl} {l : List α} (h : s.Ok A) {j n : Nat} (hj : j + l.length ≤ s.len) :
    s.view ((s.sub j n).put l A) = (s.view A).take j ++ l ++ (s.view A).drop (j + l.length) := by
  obtain ⟨x, hx⟩ : ∃ x, A[s.arr]? = some x := ⟨A[s.arr]'h.arr, List.getElem?_eq_getElem h.arr⟩
  have hf := h.fits
  unfold Sl.view
  rw [show ((s.sub j n).put l A)[s.arr]? = _ from (s.sub j n).put_arr l A x hx, hx]
  rw [hx] at hf
  simp only [Option.getD_some, Sl.sub] at *
  refine List.ext_getElem? fun i => ?_
  simp only [List.getElem?_take, List.getElem?_drop, List.getElem?_append, List.length_append, List.length_take, List.length_drop, List.append_assoc]
  by_cases h1 : i < j
  · rw [if_pos (by omega : i < s.len), if_pos (by omega : s.off + i < min (s.off + j) x.length), if_pos (by omega : s.off + i < s.off + j),
      if_pos (by omega : i < min j (min s.len (x.length - s.off))), if_pos h1, if_pos (by omega : i < s.len)]
  · by_cases h2 : i < j + l.length
    · rw [if_pos (by omega : i < s.len), if_neg (by omega : ¬ s.off + i < min (s.off + j) x.length),
        if_pos (by omega : s.off + i - min (s.off + j) x.length < l.length),
        if_neg (by omega : ¬ i < min j (min s.len (x.length - s.off))), if_pos (by omega : i - min j (min s.len (x.length - s.off)) < l.length)]
      congr 1
      omega
    · rw [if_neg (by omega : ¬ s.off + i < min (s.off + j) x.length),
        if_neg (by omega : ¬ s.off + i - min (s.off + j) x.length < l.length),
        if_neg (by omega : ¬ i < min j (min s.len (x.length - s.off))), if_neg (by omega : ¬ i - min j (min s.len (x.length - s.off)) < l.length)]
      by_cases h3 : i < s.len
      · rw [if_pos h3, if_pos (by omega)]
        congr 1
        omega
      · rw [if_neg h3, if_neg (by omega)]

theorem Sl.view_put {s : Sl} {l : List α} (h : s.Ok A) (hl : l.length ≤ s.len) : s.view (s.put l A) = l ++ (s.view A).drop l.length := by
  have := Sl.view_put_sub (l := l) h (j := 0) (n := s.len) (by omega)
  simpa [Sl.sub] using this

/-- writing one entry -/
theorem Sl.view_set {s : Sl} (h : s.Ok A) {i : Nat} (hi : i < s.len) (v : α) : s.view ((⟨s.arr, s.off + i, 1⟩ : Sl).put [v] A) = (s.view A).set i v := by
  rw [show (⟨s.arr, s.off + i, 1⟩ : Sl) = s.sub i 1 from rfl, Sl.view_put_sub h (by simp; omega)]
  rw [List.set_eq_take_append_cons_drop, if_pos (by rw [Sl.view_length h]; exact hi)]
  simp

end arrays

/-! ### memories -/

/-- the arrays that were written are in `W` or were made later than the first `n` -/
def LogIn (W : Nat → Prop) (n : Nat) (L L' : List Nat) : Prop := ∃ l, L' = l ++ L ∧ ∀ a ∈ l, W a ∨ n ≤ a

theorem LogIn.refl {W : Nat → Prop} {n : Nat} {L : List Nat} : LogIn W n L L := ⟨[], rfl, fun _ h => by cases h⟩

theorem LogIn.one {W : Nat → Prop} {n : Nat} {L : List Nat} {a : Nat} (h : W a) : LogIn W n L (a :: L) :=
  ⟨[a], rfl, fun _ hb => .inl (List.mem_singleton.1 hb ▸ h)⟩

theorem LogIn.trans {W W' : Nat → Prop} {n n' : Nat} {L L' L'' : List Nat} (h : LogIn W n L L') (h' : LogIn W' n' L' L'') (hn : n ≤ n')
    (hW : ∀ a < n, W' a → W a) : LogIn W n L L'' := by
  obtain ⟨l, rfl, h1⟩ := h
  obtain ⟨l', rfl, h2⟩ := h'
  refine ⟨l' ++ l, (List.append_assoc ..).symm, fun a ha => ?_⟩
  rcases List.mem_append.1 ha with ha | ha
  · rcases h2 a ha with h | h
    · by_cases han : a < n
      · exact .inl (hW a han h)
      · exact .inr (by omega)
    · exact .inr (by omega)
  · exact h1 a ha

theorem LogIn.mono {W W' : Nat → Prop} {n : Nat} {L L' : List Nat} (h : LogIn W n L L') (hW : ∀ a < n, W a → W' a) : LogIn W' n L L' := by
  obtain ⟨l, e, h⟩ := h
  refine ⟨l, e, fun a ha => ?_⟩
  rcases h a ha with h | h
  · by_cases han : a < n
    · exact .inl (hW a han h)
    · exact .inr (by omega)
  · exact .inr h

/-- only the arrays of floats in `W` and the arrays of indexes in `V`, and new ones, were written -/
structure Frame (W V : Nat → Prop) (m m' : Mem F) : Prop where
  fl : KeptArr W m.fl m'.fl
  ix : KeptArr V m.ix m'.ix
  lb : KeptArr (fun _ => False) m.lb m'.lb
  logF : LogIn W m.fl.length m.wrF m'.wrF
  logI : LogIn V m.ix.length m.wrI m'.wrI

section frames
variable {W V W' V' : Nat → Prop} {m m' m'' : Mem F}

theorem Frame.refl : Frame W V m m := ⟨.refl, .refl, .refl, .refl, .refl⟩

theorem Frame.trans (h : Frame W V m m') (h' : Frame W' V' m' m'') (hW : ∀ a < m.fl.length, W' a → W a) (hV : ∀ a < m.ix.length, V' a → V a) :
    Frame W V m m'' :=
  ⟨h.fl.trans h'.fl hW, h.ix.trans h'.ix hV, h.lb.trans h'.lb fun _ _ h => h, h.logF.trans h'.logF h.fl.len hW, h.logI.trans h'.logI h.ix.len hV⟩

theorem Frame.mono (h : Frame W V m m') (hW : ∀ a < m.fl.length, W a → W' a) (hV : ∀ a < m.ix.length, V a → V' a) : Frame W' V' m m' :=
  ⟨h.fl.mono hW, h.ix.mono hV, h.lb, h.logF.mono hW, h.logI.mono hV⟩

end frames

/-! ### computations -/

theorem MGo.run_bind {α β : Type} (x : MGo F α) (f : α → MGo F β) (m : Mem F) :
    (x >>= f) m = (match x m with | (.ok a, m') => f a m' | (.error e, m') => (.error e, m') : Go β × Mem F) := by
  show (x.seq f) m = _
  induction x generalizing m with
  | ret g => cases g <;> rfl
  | readF s k ih => exact ih _ m
  | readI s k ih => exact ih _ m
  | readL s k ih => exact ih _ m
  | writeF s l k ih => exact ih _
  | writeI s l k ih => exact ih _
  | allocF l k ih => exact ih _ _
  | allocI l k ih => exact ih _ _
  | allocL l k ih => exact ih _ _

theorem MGo.seq_assoc {α β γ : Type} (x : MGo F α) (f : α → MGo F β) (g : β → MGo F γ) : (x >>= f) >>= g = x >>= fun a => f a >>= g := by
  show (x.seq f).seq g = x.seq fun a => (f a).seq g
  induction x with
  | ret r => cases r <;> rfl
  | readF s k ih => exact congrArg _ (funext ih)
  | readI s k ih => exact congrArg _ (funext ih)
  | readL s k ih => exact congrArg _ (funext ih)
  | writeF s l k ih => exact congrArg _ ih
  | writeI s l k ih => exact congrArg _ ih
  | allocF l k ih => exact congrArg _ (funext ih)
  | allocI l k ih => exact congrArg _ (funext ih)
  | allocL l k ih => exact congrArg _ (funext ih)

theorem rdRows_run (X : List Sl) (m : Mem F) : rdRows X m = (.ok (X.map fun s => s.view m.fl), m) := by
  induction X with
  | nil => rfl
  | cons s X ih =>
    show (rdF s >>= fun r => rdRows X >>= fun rs => pure (r :: rs)) m = _
    rw [MGo.run_bind]
    show (rdRows X >>= fun rs => pure (s.view m.fl :: rs)) m = _
    rw [MGo.run_bind, ih]
    rfl

/-- The computation `x` from the memory `m` does what `p` does: it panics in the same way, or ends with a result related to that of `p`. In any
case it only writes to the arrays of floats in `W` and of indexes in `V`. -/
def Sim {α β : Type} (W V : Nat → Prop) (m : Mem F) (x : MGo F α) (p : Go β) (R : Mem F → α → β → Prop) : Prop :=
  Frame W V m (x m).2 ∧ match (x m).1, p with
    | .ok a, .ok b => R (x m).2 a b
    | .error e, .error e' => e = e'
    | _, _ => False

section sim
variable {α β γ δ : Type} {W V W' V' : Nat → Prop} {m m' : Mem F}

theorem Sim.bind {x : MGo F α} {p : Go β} {R : Mem F → α → β → Prop} {f : α → MGo F γ} {g : β → Go δ} {R' : Mem F → γ → δ → Prop}
    (h : Sim W V m x p R) (hW : ∀ a < m.fl.length, W' a → W a) (hV : ∀ a < m.ix.length, V' a → V a)
    (hf : ∀ m' a b, Frame W V m m' → R m' a b → p = .ok b → Sim W' V' m' (f a) (g b) R') : Sim W V m (x >>= f) (p >>= g) R' := by
  obtain ⟨h1, h2⟩ := h
  unfold Sim
  rcases hx : x m with ⟨r, m'⟩
  rw [hx] at h1 h2
  have hxm : (x >>= f) m = (match x m with | (.ok a, m') => f a m' | (.error e, m') => (.error e, m') : Go γ × Mem F) := MGo.run_bind x f m
  rw [hxm, hx]
  cases r with
  | error e =>
    cases p with
    | error e' => exact ⟨h1, h2⟩
    | ok b => exact absurd h2 id
  | ok a =>
    cases p with
    | error e' => exact absurd h2 id
    | ok b =>
      have := hf m' a b h1 h2 rfl
      exact ⟨h1.trans this.1 hW hV, this.2⟩

/-- the same with the same sets -/
theorem Sim.bind' {x : MGo F α} {p : Go β} {R : Mem F → α → β → Prop} {f : α → MGo F γ} {g : β → Go δ} {R' : Mem F → γ → δ → Prop}
    (h : Sim W V m x p R) (hf : ∀ m' a b, Frame W V m m' → R m' a b → p = .ok b → Sim W V m' (f a) (g b) R') : Sim W V m (x >>= f) (p >>= g) R' :=
  h.bind (fun _ _ h => h) (fun _ _ h => h) hf

/-- the first part may write less -/
theorem Sim.bindSub {W0 V0 : Nat → Prop} {x : MGo F α} {p : Go β} {R : Mem F → α → β → Prop} {f : α → MGo F γ} {g : β → Go δ}
    {R' : Mem F → γ → δ → Prop} (h : Sim W0 V0 m x p R) (hW : ∀ a, W0 a → W a) (hV : ∀ a, V0 a → V a)
    (hf : ∀ m' a b, Frame W0 V0 m m' → R m' a b → p = .ok b → Sim W V m' (f a) (g b) R') : Sim W V m (x >>= f) (p >>= g) R' := by
  obtain ⟨h1, h2⟩ := h
  have hxm : (x >>= f) m = (match x m with | (.ok a, m') => f a m' | (.error e, m') => (.error e, m') : Go γ × Mem F) := MGo.run_bind x f m
  unfold Sim
  rw [hxm]
  rcases hx : x m with ⟨r, m'⟩
  rw [hx] at h1 h2
  have h1' : Frame W V m m' := h1.mono (fun a _ h => hW a h) (fun a _ h => hV a h)
  cases r with
  | error e =>
    cases p with
    | error e' => exact ⟨h1', h2⟩
    | ok b => exact absurd h2 id
  | ok a =>
    cases p with
    | error e' => exact absurd h2 id
    | ok b =>
      have := hf m' a b h1 h2 rfl
      exact ⟨h1'.trans this.1 (fun _ _ h => h) (fun _ _ h => h), this.2⟩

/-- a step of the computation with memory to which nothing corresponds -/
theorem Sim.step {x : MGo F α} {a : α} {f : α → MGo F γ} {p : Go δ} {R : Mem F → γ → δ → Prop} (hx : x m = (.ok a, m')) (hfr : Frame W V m m')
    (hW : ∀ a < m.fl.length, W' a → W a) (hV : ∀ a < m.ix.length, V' a → V a) (h : Sim W' V' m' (f a) p R) : Sim W V m (x >>= f) p R := by
  have hxm : (x >>= f) m = (match x m with | (.ok a, m') => f a m' | (.error e, m') => (.error e, m') : Go γ × Mem F) := MGo.run_bind x f m
  unfold Sim
  rw [hxm, hx]
  exact ⟨hfr.trans h.1 hW hV, h.2⟩

theorem Sim.pure {a : α} {b : β} {R : Mem F → α → β → Prop} (h : R m a b) : Sim W V m (pure a) (.ok b) R := ⟨Frame.refl, h⟩

theorem Sim.error {e : Panic} {R : Mem F → α → β → Prop} : Sim W V m (MGo.lift (.error e)) (.error e) R := ⟨Frame.refl, rfl⟩

theorem Sim.lift {g : Go α} {f : α → MGo F γ} {k : α → Go δ} {R : Mem F → γ → δ → Prop} (h : ∀ a, g = .ok a → Sim W V m (f a) (k a) R) :
    Sim W V m (MGo.lift g >>= f) (g >>= k) R := by
  cases g with
  | error e => exact ⟨Frame.refl, rfl⟩
  | ok a => exact h a rfl

theorem Sim.rdF {s : Sl} {f : List F → MGo F γ} {p : Go δ} {R : Mem F → γ → δ → Prop} (h : Sim W V m (f (s.view m.fl)) p R) :
    Sim W V m (rdF s >>= f) p R := h

theorem Sim.rdI {s : Sl} {f : List Nat → MGo F γ} {p : Go δ} {R : Mem F → γ → δ → Prop} (h : Sim W V m (f (s.view m.ix)) p R) :
    Sim W V m (rdI s >>= f) p R := h

theorem Sim.rdL {s : Sl} {f : List Int → MGo F γ} {p : Go δ} {R : Mem F → γ → δ → Prop} (h : Sim W V m (f (s.view m.lb)) p R) :
    Sim W V m (rdL s >>= f) p R := h

theorem Sim.rdRows {X : List Sl} {f : List (List F) → MGo F γ} {p : Go δ} {R : Mem F → γ → δ → Prop}
    (h : Sim W V m (f (X.map fun s => s.view m.fl)) p R) : Sim W V m (rdRows X >>= f) p R :=
  Sim.step (rdRows_run X m) Frame.refl (fun _ _ h => h) (fun _ _ h => h) h

/-- a computation that agrees with one that does not panic -/
theorem Sim.run_ok {x : MGo F α} {q : β} {R : Mem F → α → β → Prop} (h : Sim W V m x (.ok q) R) :
    ∃ a m', x m = (.ok a, m') ∧ Frame W V m m' ∧ R m' a q := by
  obtain ⟨h1, h2⟩ := h
  rcases hx : x m with ⟨r, m'⟩
  rw [hx] at h1 h2
  cases r with
  | error e => exact absurd h2 id
  | ok a => exact ⟨a, m', rfl, h1, h2⟩

/-- weaker relation, larger sets -/
theorem Sim.mono {x : MGo F α} {p : Go β} {R R' : Mem F → α → β → Prop} (h : Sim W V m x p R) (hW : ∀ a < m.fl.length, W a → W' a)
    (hV : ∀ a < m.ix.length, V a → V' a) (hR : ∀ m' a b, Frame W V m m' → R m' a b → p = .ok b → R' m' a b) : Sim W' V' m x p R' := by
  refine ⟨h.1.mono hW hV, ?_⟩
  have h2 := h.2
  cases hr : (x m).1 with
  | error e => rw [hr] at h2; cases p with
    | error e' => exact h2
    | ok b => exact h2
  | ok a => rw [hr] at h2; cases p with
    | error e' => exact h2
    | ok b => exact hR _ a b h.1 h2 rfl

end sim

/-! ### new slices -/

variable {W V : Nat → Prop} {m : Mem F}

theorem frame_addF (l : List F) : Frame W V m (m.addF l) := ⟨keptArr_append l, .refl, .refl, .refl, .refl⟩
theorem frame_addI (l : List Nat) : Frame W V m (m.addI l) := ⟨.refl, keptArr_append l, .refl, .refl, .refl⟩
theorem frame_addL (l : List Int) : Frame W V m (m.addL l) := ⟨.refl, .refl, keptArr_append l, .refl, .refl⟩

/-- what is known of a new slice of floats with the entries `l` -/
structure FreshF (m m' : Mem F) (s : Sl) (l : List F) : Prop where
  ok : s.Ok m'.fl
  view : s.view m'.fl = l
  len : s.len = l.length
  new : m.fl.length ≤ s.arr

theorem freshF_addF (m : Mem F) (l : List F) : FreshF m (m.addF l) ⟨m.fl.length, 0, l.length⟩ l :=
  ⟨Sl.ok_new _ _, Sl.view_new _ _, rfl, le_refl _⟩

/-- what is known of a new slice of indexes with the entries `l` -/
structure FreshI (m m' : Mem F) (s : Sl) (l : List Nat) : Prop where
  ok : s.Ok m'.ix
  view : s.view m'.ix = l
  len : s.len = l.length
  new : m.ix.length ≤ s.arr

theorem freshI_addI (m : Mem F) (l : List Nat) : FreshI m (m.addI l) ⟨m.ix.length, 0, l.length⟩ l :=
  ⟨Sl.ok_new _ _, Sl.view_new _ _, rfl, le_refl _⟩

theorem Sim.newF {W' V' : Nat → Prop} {γ δ : Type} {l : List F} {f : Sl → MGo F γ} {p : Go δ} {R : Mem F → γ → δ → Prop}
    (hW : ∀ a < m.fl.length, W' a → W a) (hV : ∀ a < m.ix.length, V' a → V a)
    (h : ∀ m' s, Frame W V m m' → FreshF m m' s l → m'.ix = m.ix → m'.lb = m.lb → Sim W' V' m' (f s) p R) : Sim W V m (newF l >>= f) p R :=
  Sim.step (m' := m.addF l) rfl (frame_addF l) hW hV (h _ _ (frame_addF l) (freshF_addF m l) rfl rfl)

theorem Sim.newI {W' V' : Nat → Prop} {γ δ : Type} {l : List Nat} {f : Sl → MGo F γ} {p : Go δ} {R : Mem F → γ → δ → Prop}
    (hW : ∀ a < m.fl.length, W' a → W a) (hV : ∀ a < m.ix.length, V' a → V a)
    (h : ∀ m' s, Frame W V m m' → FreshI m m' s l → m'.fl = m.fl → m'.lb = m.lb → Sim W' V' m' (f s) p R) : Sim W V m (newI l >>= f) p R :=
  Sim.step (m' := m.addI l) rfl (frame_addI l) hW hV (h _ _ (frame_addI l) (freshI_addI m l) rfl rfl)

/-- a computation that ends with a new slice of floats -/
theorem Sim.newFEnd {l : List F} {b : List F} (h : l = b) : Sim W V m (Boo.newF l) (.ok b) (fun m' s b => FreshF m m' s b ∧ m'.ix = m.ix) :=
  ⟨frame_addF l, h ▸ freshF_addF m l, rfl⟩

/-! ### loops that write a slice from the front -/

/-- the state after the first `n` entries of the slice were overwritten with those of `vs` -/
structure Filled (dst : Sl) (m m' : Mem F) (l : List F) : Prop where
  frame : Frame (fun a => a = dst.arr) (fun _ => False) m m'
  view : dst.view m'.fl = l ++ (dst.view m.fl).drop l.length
  ix : m'.ix = m.ix
  lb : m'.lb = m.lb

theorem Filled.nil (dst : Sl) (m : Mem F) : Filled dst m m [] := ⟨Frame.refl, by simp, rfl, rfl⟩

/-- one more entry is written -/
theorem Filled.snoc {dst : Sl} {m m' : Mem F} {l : List F} (h : Filled dst m m' l) (hok : dst.Ok m.fl) (hl : l.length < dst.len) (v : F) :
    ∃ m'', setF dst l.length v m' = (.ok (), m'') ∧ Filled dst m m'' (l ++ [v]) := by
  have hok' : dst.Ok m'.fl := hok.kept h.frame.fl
  refine ⟨m'.writeF (⟨dst.arr, dst.off + l.length, 1⟩ : Sl) [v], ?_, ?_, ?_, h.ix, h.lb⟩
  · unfold setF
    rw [if_pos hl]
    rfl
  · refine h.frame.trans (W' := fun a => a = dst.arr) (V' := fun _ => False) ?_ (fun _ _ h => h) (fun _ _ h => h)
    exact ⟨keptArr_put (hok'.sub (j := l.length) (n := 1) (by omega)) (le_refl _) rfl, .refl, .refl, .one rfl, .refl⟩
  · show dst.view ((⟨dst.arr, dst.off + l.length, 1⟩ : Sl).put [v] m'.fl) = _
    rw [Sl.view_set hok' hl, h.view]
    have h1 := Sl.view_length hok
    rw [List.set_append_right _ _ (le_refl _), Nat.sub_self]
    rw [List.drop_eq_getElem_cons (by omega : l.length < (dst.view m.fl).length), List.set_cons_zero]
    simp

/-! ### utils/math.go -/

/-- a new slice with the result of a computation on values -/
theorem sim_liftNew (g : Go (List F)) : Sim W V m (MGo.lift g >>= newF) g (fun m' t l => FreshF m m' t l ∧ m'.ix = m.ix) := by
  cases g with
  | error e => exact ⟨Frame.refl, rfl⟩
  | ok l => exact Sim.newFEnd rfl

theorem mSampleSlice_sim (s ix : Sl) :
    Sim W V m (mSampleSlice s ix) (sampleSlice (s.view m.fl) (ix.view m.ix)) (fun m' t l => FreshF m m' t l ∧ m'.ix = m.ix) :=
  sim_liftNew _

theorem mSampleCol_sim (X : List Sl) (ix : Sl) (f : Nat) :
    Sim W V m (mSampleCol X ix f) (sampleCol (X.map fun s => s.view m.fl) (ix.view m.ix) f) (fun m' t l => FreshF m m' t l ∧ m'.ix = m.ix) :=
  Sim.rdRows (sim_liftNew _)

theorem mDenseCol_sim (D : MDense) (col : Nat) :
    Sim W V m (mDenseCol D col) (denseCol ⟨D.r, D.c, D.data.view m.fl⟩ col) (fun m' t l => FreshF m m' t l ∧ m'.ix = m.ix) :=
  sim_liftNew _

/-- one entry of a slice of floats is written -/
theorem setF_run {s : Sl} (h : s.Ok m.fl) {i : Nat} (hi : i < s.len) (v : F) : ∃ m', setF s i v m = (.ok (), m') ∧
    Frame (fun a => a = s.arr) (fun _ => False) m m' ∧ s.view m'.fl = (s.view m.fl).set i v ∧ m'.ix = m.ix ∧ m'.lb = m.lb := by
  refine ⟨m.writeF (⟨s.arr, s.off + i, 1⟩ : Sl) [v], ?_, ?_, Sl.view_set h hi v, rfl, rfl⟩
  · unfold setF
    rw [if_pos hi]
    rfl
  · exact ⟨keptArr_put (h.sub (j := i) (n := 1) (by omega)) (le_refl _) rfl, .refl, .refl, .one rfl, .refl⟩

/-- one entry of a slice of indexes is written -/
theorem setI_run {s : Sl} (h : s.Ok m.ix) {i : Nat} (hi : i < s.len) (v : Nat) : ∃ m', setI s i v m = (.ok (), m') ∧
    Frame (fun _ => False) (fun a => a = s.arr) m m' ∧ s.view m'.ix = (s.view m.ix).set i v ∧ m'.fl = m.fl ∧ m'.lb = m.lb := by
  refine ⟨m.writeI (⟨s.arr, s.off + i, 1⟩ : Sl) [v], ?_, ?_, Sl.view_set h hi v, rfl, rfl⟩
  · unfold setI
    rw [if_pos hi]
    rfl
  · exact ⟨.refl, keptArr_put (h.sub (j := i) (n := 1) (by omega)) (le_refl _) rfl, .refl, .refl, .one rfl⟩

/-- the first entries of a slice of floats are overwritten -/
theorem putF_run {s : Sl} (h : s.Ok m.fl) {l : List F} (hl : l.length ≤ s.len) : ∃ m', putF s l m = (.ok (), m') ∧
    Frame (fun a => a = s.arr) (fun _ => False) m m' ∧ s.view m'.fl = l ++ (s.view m.fl).drop l.length ∧ m'.ix = m.ix ∧ m'.lb = m.lb :=
  ⟨m.writeF s l, rfl, ⟨keptArr_put h hl rfl, .refl, .refl, .one rfl, .refl⟩, Sl.view_put h hl, rfl, rfl⟩

/-- the first entries of a slice of indexes are overwritten -/
theorem putI_run {s : Sl} (h : s.Ok m.ix) {l : List Nat} (hl : l.length ≤ s.len) : ∃ m', putI s l m = (.ok (), m') ∧
    Frame (fun _ => False) (fun a => a = s.arr) m m' ∧ s.view m'.ix = l ++ (s.view m.ix).drop l.length ∧ m'.fl = m.fl ∧ m'.lb = m.lb :=
  ⟨m.writeI s l, rfl, ⟨.refl, keptArr_put h hl rfl, .refl, .refl, .one rfl⟩, Sl.view_put h hl, rfl, rfl⟩

theorem run_step {α β : Type} {x : MGo F α} {f : α → MGo F β} {a : α} {m m' : Mem F} (h : x m = (.ok a, m')) : (x >>= f) m = f a m' := by
  rw [MGo.run_bind, h]

theorem run_err {α β : Type} {x : MGo F α} {f : α → MGo F β} {e : Panic} {m m' : Mem F} (h : x m = (.error e, m')) :
    (x >>= f) m = (.error e, m') := by
  rw [MGo.run_bind, h]

theorem atF_run {s : Sl} {i : Nat} {v : F} (h : (s.view m.fl)[i]? = some v) : atF s i m = (.ok v, m) := by
  show (goIdx (s.view m.fl) i, m) = _
  rw [goIdx_ok.2 h]

/-- the loop that fills the buffers of `MemArgSort` -/
theorem mFillLoop_run {target ti tv : Sl} (ht : target.Ok m.fl) (hi : ti.Ok m.ix) (hv : tv.Ok m.fl) (h1 : ti.len = target.len)
    (h2 : tv.len = target.len) (hne : target.arr ≠ tv.arr) (k i : Nat) (hk : i + k = target.len) (m0 : Mem F)
    (hf : Frame (fun a => a = tv.arr) (fun a => a = ti.arr) m m0)
    (v1 : ti.view m0.ix = List.range i ++ (ti.view m.ix).drop i) (v2 : tv.view m0.fl = (target.view m.fl).take i ++ (tv.view m.fl).drop i) :
    ∃ m', mFillLoop target ti tv (List.range' i k) m0 = (.ok (), m') ∧ Frame (fun a => a = tv.arr) (fun a => a = ti.arr) m m' ∧
      ti.view m'.ix = List.range target.len ∧ tv.view m'.fl = target.view m.fl := by
  have hlt := Sl.view_length ht
  have hli := Sl.view_length hi
  have hlv := Sl.view_length hv
  induction k generalizing i m0 with
  | zero =>
    obtain rfl : i = target.len := by omega
    refine ⟨m0, rfl, hf, ?_, ?_⟩
    · rw [v1, List.drop_eq_nil_of_le (by omega), List.append_nil]
    · rw [v2, List.drop_eq_nil_of_le (by omega), List.append_nil, List.take_of_length_le (by omega)]
  | succ k ih =>
    have hi0 := hi.kept hf.ix
    have hv0 := hv.kept hf.fl
    have hget : (target.view m0.fl)[i]? = some ((target.view m.fl)[i]'(by omega)) := by
      rw [Sl.view_kept ht hf.fl hne, List.getElem?_eq_getElem]
    obtain ⟨ma, ea, fa, va, la, _⟩ := setI_run hi0 (by omega : i < ti.len) i
    have hva : tv.Ok ma.fl := by rw [la]; exact hv0
    obtain ⟨mb, eb, fb, vb, lb, _⟩ := setF_run hva (by omega : i < tv.len) ((target.view m.fl)[i]'(by omega))
    rw [List.range'_succ]
    unfold mFillLoop
    rw [run_step (atF_run hget), run_step ea, run_step eb]
    refine ih (i + 1) (by omega) mb ?_ ?_ ?_
    · exact (hf.trans fa (fun _ _ h => h.elim) (fun _ _ h => h)).trans fb (fun _ _ h => h) (fun _ _ h => h.elim)
    · rw [lb, va, v1]
      rw [List.set_append_right _ _ (by simp), List.length_range, Nat.sub_self, List.drop_eq_getElem_cons (by omega), List.set_cons_zero,
        List.range_succ]
      simp
    · rw [vb, la, v2]
      rw [List.set_append_right _ _ (by simp), List.length_take, min_eq_left (by omega), Nat.sub_self,
        List.drop_eq_getElem_cons (by omega), List.set_cons_zero, List.take_succ_eq_append_getElem (by omega), List.append_assoc]
      rfl

/-- `MemArgSort` with buffers of the length of the column -/
theorem mMemArgSort_sim (S : GoSort) {target ti tv : Sl} (ht : target.Ok m.fl) (hi : ti.Ok m.ix) (hv : tv.Ok m.fl) (h1 : ti.len = target.len)
    (h2 : tv.len = target.len) (hne : target.arr ≠ tv.arr) :
    Sim (fun a => a = tv.arr) (fun a => a = ti.arr) m (mMemArgSort S target ti tv) (.ok (argSort S (target.view m.fl)))
      (fun m' p q => p = (ti, tv) ∧ ti.view m'.ix = q.1 ∧ tv.view m'.fl = q.2) := by
  obtain ⟨ma, ea, fa, va, wa⟩ := mFillLoop_run ht hi hv h1 h2 hne target.len 0 (by omega) m Frame.refl (by simp) (by simp)
  rw [← List.range_eq_range'] at ea
  have hlt := Sl.view_length ht
  have hia := hi.kept fa.ix
  have hva := hv.kept fa.fl
  have hlen : (S.sort idLess ((target.view m.fl).zip (List.range target.len))).length = target.len := by
    rw [(S.perm _ _).length_eq, List.length_zip, List.length_range, hlt, min_self]
  obtain ⟨mb, eb, fb, vb, lb, _⟩ := putI_run hia (l := (S.sort idLess ((target.view m.fl).zip (List.range target.len))).map Prod.snd)
    (by rw [List.length_map, hlen, h1])
  have hvb : tv.Ok mb.fl := by rw [lb]; exact hva
  obtain ⟨mc, ec, fc, vc, lc, _⟩ := putF_run hvb (l := (S.sort idLess ((target.view m.fl).zip (List.range target.len))).map Prod.fst)
    (by rw [List.length_map, hlen, h2])
  have hrun : mMemArgSort S target ti tv m = (.ok (ti, tv), mc) := by
    unfold mMemArgSort
    rw [run_step ea]
    have : mSort S ti tv ma = (.ok (), mc) := by
      unfold mSort
      rw [if_neg (by omega)]
      show (putI ti ((S.sort idLess (((tv.view ma.fl).take (ti.view ma.ix).length).zip (ti.view ma.ix))).map Prod.snd) >>= fun _ =>
        putF tv ((S.sort idLess (((tv.view ma.fl).take (ti.view ma.ix).length).zip (ti.view ma.ix))).map Prod.fst)) ma = _
      rw [va, wa, List.length_range, List.take_of_length_le (by omega), run_step eb, ec]
    rw [run_step this]
    rfl
  unfold Sim
  rw [hrun]
  refine ⟨(fa.trans fb (fun _ _ h => h.elim) (fun _ _ h => h)).trans fc (fun _ _ h => h) (fun _ _ h => h.elim), rfl, ?_, ?_⟩
  · rw [lc, vb, va]
    unfold argSort
    rw [hlt, List.length_map, hlen]
    simp
  · rw [vc, lb, wa]
    unfold argSort
    rw [hlt, List.length_map, hlen, List.drop_eq_nil_of_le (by omega), List.append_nil]

/-! ### tree.go -/

/-- the arrays of floats that may be written: that of the buffer -/
def MTreeOptions.wF (o : MTreeOptions F) : Nat → Prop := fun a => o.val.map Sl.arr = some a
/-- the arrays of indexes that may be written: that of the buffer -/
def MTreeOptions.wI (o : MTreeOptions F) : Nat → Prop := fun a => o.inn.map Sl.arr = some a
/-- the slices of floats that are read -/
def MTreeOptions.reads (X : List Sl) (o : MTreeOptions F) : List Sl := X ++ o.gradients.toList ++ o.hessian.toList ++ o.y.toList

/-- the options as values -/
def MTreeOptions.rep (m : Mem F) (o : MTreeOptions F) : TreeOptions F :=
  { xgb := o.xgb, minChildWeight := o.minChildWeight, allowedColumns := o.allowedColumns, lambda := o.lambda, gamma := o.gamma,
    colSampleByNode := o.colSampleByNode, gradients := o.gradients.map fun s => s.view m.fl, hessian := o.hessian.map fun s => s.view m.fl,
    y := (slOf o.y).view m.fl, scratch := o.inn.map Sl.len, maxDepth := o.maxDepth, indexes := o.indexes.map fun s => s.view m.ix }

/-- all slices lie in their arrays, and the buffers are not in the arrays that are read -/
structure TOk (m : Mem F) (X : List Sl) (o : MTreeOptions F) : Prop where
  reads : ∀ s ∈ o.reads X, s.Ok m.fl
  idx : ∀ s, o.indexes = some s → s.Ok m.ix
  inn : ∀ s, o.inn = some s → s.Ok m.ix
  val : ∀ s, o.val = some s → s.Ok m.fl
  lens : o.inn.map Sl.len = o.val.map Sl.len
  sepF : ∀ s ∈ o.reads X, ¬ o.wF s.arr
  sepI : ∀ s, o.indexes = some s → ¬ o.wI s.arr

/-- the rows as values -/
def rowsOf (m : Mem F) (X : List Sl) : List (List F) := X.map fun s => s.view m.fl

theorem slOf_view {α : Type} (A : List (List α)) (s : Option Sl) : (slOf s).view A = (s.map fun s => s.view A).getD [] := by
  cases s with
  | none => simp [slOf, Sl.view]
  | some s => rfl

theorem TOk.kept {X : List Sl} {o : MTreeOptions F} {W V : Nat → Prop} {m' : Mem F} (h : TOk m X o) (hf : Frame W V m m') : TOk m' X o :=
  ⟨fun s hs => (h.reads s hs).kept hf.fl, fun s hs => (h.idx s hs).kept hf.ix, fun s hs => (h.inn s hs).kept hf.ix,
    fun s hs => (h.val s hs).kept hf.fl, h.lens, h.sepF, h.sepI⟩

theorem TOk.rows {X : List Sl} {o : MTreeOptions F} {W V : Nat → Prop} {m' : Mem F} (h : TOk m X o) (hf : Frame W V m m')
    (hW : ∀ s ∈ o.reads X, ¬ W s.arr) : rowsOf m' X = rowsOf m X :=
  List.map_congr_left fun s hs => Sl.view_kept (h.reads s (by unfold MTreeOptions.reads; simp [hs])) hf.fl
    (hW s (by unfold MTreeOptions.reads; simp [hs]))

theorem TOk.rep {X : List Sl} {o : MTreeOptions F} {W V : Nat → Prop} {m' : Mem F} (h : TOk m X o) (hf : Frame W V m m')
    (hW : ∀ s ∈ o.reads X, ¬ W s.arr) (hV : ∀ s, o.indexes = some s → ¬ V s.arr) : o.rep m' = o.rep m := by
  have key : ∀ s ∈ o.reads X, s.view m'.fl = s.view m.fl := fun s hs => Sl.view_kept (h.reads s hs) hf.fl (hW s hs)
  have kg : (o.gradients.map fun s => s.view m'.fl) = o.gradients.map fun s => s.view m.fl := by
    refine Option.map_congr fun s hs => key s ?_
    simp [MTreeOptions.reads, Option.mem_def.1 hs]
  have kh : (o.hessian.map fun s => s.view m'.fl) = o.hessian.map fun s => s.view m.fl := by
    refine Option.map_congr fun s hs => key s ?_
    simp [MTreeOptions.reads, Option.mem_def.1 hs]
  have ky : (slOf o.y).view m'.fl = (slOf o.y).view m.fl := by
    rw [slOf_view, slOf_view]
    congr 1
    refine Option.map_congr fun s hs => key s ?_
    simp [MTreeOptions.reads, Option.mem_def.1 hs]
  have ki : (o.indexes.map fun s => s.view m'.ix) = o.indexes.map fun s => s.view m.ix :=
    Option.map_congr fun s hs => Sl.view_kept (h.idx s hs) hf.ix (hV s hs)
  unfold MTreeOptions.rep
  rw [kg, kh, ky, ki]

/-- the options whose buffers are those of `o` are as they were after a computation that only wrote to the buffers -/
theorem TOk.rep' {X : List Sl} {o : MTreeOptions F} {m' : Mem F} (h : TOk m X o) (hf : Frame o.wF o.wI m m') : o.rep m' = o.rep m :=
  h.rep hf h.sepF h.sepI
theorem TOk.rows' {X : List Sl} {o : MTreeOptions F} {m' : Mem F} (h : TOk m X o) (hf : Frame o.wF o.wI m m') : rowsOf m' X = rowsOf m X :=
  h.rows hf h.sepF

end Boo
