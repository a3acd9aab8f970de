import Verif.Lemmas.MemTree
import Verif.Lemmas.Dense

/-!
# Matrices, activations and losses with and without a memory
-/

namespace Boo
open GoFloat
variable {F : Type} [GoFloat F] {m : Mem F}

/-- only floats were written, and only in the array `a` -/
structure OnlyF (a : Nat) (m m' : Mem F) : Prop where
  frame : Frame (fun b => b = a) (fun _ => False) m m'
  ix : m'.ix = m.ix
  lb : m'.lb = m.lb

theorem OnlyF.refl (a : Nat) (m : Mem F) : OnlyF a m m := ⟨Frame.refl, rfl, rfl⟩

theorem OnlyF.trans {a : Nat} {m m' m'' : Mem F} (h : OnlyF a m m') (h' : OnlyF a m' m'') : OnlyF a m m'' :=
  ⟨h.frame.trans h'.frame (fun _ _ h => h) (fun _ _ h => h), h'.ix.trans h.ix, h'.lb.trans h.lb⟩

theorem OnlyF.view {a : Nat} {m m' : Mem F} (h : OnlyF a m m') {s : Sl} (hs : s.Ok m.fl) (hne : s.arr ≠ a) : s.view m'.fl = s.view m.fl :=
  Sl.view_kept hs h.frame.fl hne

/-- a part of a slice is written -/
theorem setSub_run {d : Sl} (hd : d.Ok m.fl) {j n : Nat} (hj : j + n ≤ d.len) {i : Nat} (hi : i < n) (v : F) :
    ∃ m', setF (d.sub j n) i v m = (.ok (), m') ∧ OnlyF d.arr m m' ∧ d.view m'.fl = (d.view m.fl).set (j + i) v := by
  have hset : setF d (j + i) v m = setF (d.sub j n) i v m := by
    unfold setF Sl.sub
    rw [if_pos (by omega : j + i < d.len), if_pos hi, Nat.add_assoc]
  obtain ⟨m', h1, h2, h3, h4, h5⟩ := setF_run hd (by omega : j + i < d.len) v
  exact ⟨m', hset ▸ h1, ⟨h2, h4, h5⟩, h3⟩

/-- a loop that writes a part of a slice entry by entry from computed values: `f i` is the value for entry `i`, which may be read from a memory in
which the entries from `i` on are still the old ones -/
theorem writeLoop_run (loop : List Nat → MGo F Unit) (f : Nat → MGo F F) {d : Sl} {j n : Nat} (hloop0 : loop [] = pure ())
    (hloop : ∀ i is, loop (i :: is) = (do
      let v ← f i
      setF (d.sub j n) i v
      loop is))
    (hd : d.Ok m.fl) (hj : j + n ≤ d.len) (vs : List F) (hvs : vs.length = n)
    (hf : ∀ i v, vs[i]? = some v → ∀ m', OnlyF d.arr m m' → (∀ k, i ≤ k → ((d.sub j n).view m'.fl)[k]? = ((d.sub j n).view m.fl)[k]?) →
      f i m' = (.ok v, m')) :
    ∃ m', loop (List.range n) m = (.ok (), m') ∧ OnlyF d.arr m m' ∧ d.view m'.fl = (d.view m.fl).take j ++ vs ++ (d.view m.fl).drop (j + n) := by
  have hdl := Sl.view_length hd
  have key : ∀ k i, i + k = n → ∀ m0, OnlyF d.arr m m0 → d.view m0.fl = (d.view m.fl).take j ++ vs.take i ++ (d.view m.fl).drop (j + i) →
      ∃ m', loop (List.range' i k) m0 = (.ok (), m') ∧ OnlyF d.arr m m' ∧ d.view m'.fl = (d.view m.fl).take j ++ vs ++ (d.view m.fl).drop (j + n) := by
    intro k
    induction k with
    | zero =>
      intro i hi m0 h0 hv
      obtain rfl : i = n := by omega
      refine ⟨m0, by rw [List.range'_zero, hloop0]; rfl, h0, ?_⟩
      rw [hv, show vs.take i = vs from List.take_of_length_le (by omega)]
    | succ k ih =>
      intro i hi m0 h0 hv
      have hil : i < vs.length := by omega
      have hd0 := hd.kept h0.frame.fl
      have hrest : ∀ k, i ≤ k → ((d.sub j n).view m0.fl)[k]? = ((d.sub j n).view m.fl)[k]? := by
        intro k hk
        rw [Sl.view_sub hj, Sl.view_sub hj, hv]
        by_cases hkn : k < n
        · rw [List.getElem?_take_of_lt hkn, List.getElem?_take_of_lt hkn, List.getElem?_drop, List.getElem?_drop,
            List.getElem?_append_right (by simp; omega), List.getElem?_drop]
          congr 1
          simp
          omega
        · rw [List.getElem?_take, if_neg hkn, List.getElem?_take, if_neg hkn]
      have hfi := hf i vs[i] (List.getElem?_eq_getElem hil) m0 h0 hrest
      obtain ⟨m1, e1, o1, v1⟩ := setSub_run hd0 hj (i := i) (by omega) vs[i]
      rw [List.range'_succ, hloop, run_step hfi, run_step e1]
      refine ih (i + 1) (by omega) m1 (h0.trans o1) ?_
      rw [v1, hv, List.set_append_right _ _ (by simp; omega)]
      have e2 : j + i - ((d.view m.fl).take j ++ vs.take i).length = 0 := by
        simp
        omega
      rw [e2, List.drop_eq_getElem_cons (by omega), List.set_cons_zero, List.take_succ_eq_append_getElem hil]
      simp only [List.append_assoc, List.cons_append, List.nil_append, Nat.add_assoc]
  have := key n 0 (by omega) m (OnlyF.refl _ m) (by simp)
  rwa [← List.range_eq_range'] at this

theorem mExpLoop_run (exp : F → F) {d p : Sl} {j n : Nat} (hd : d.Ok m.fl) (hj : j + n ≤ d.len) (hp : p.Ok m.fl) (hn : p.len = n)
    (hne : p.arr ≠ d.arr) :
    ∃ m', mExpLoop exp p (d.sub j n) (List.range n) m = (.ok (), m') ∧ OnlyF d.arr m m' ∧
      d.view m'.fl = (d.view m.fl).take j ++ (p.view m.fl).map exp ++ (d.view m.fl).drop (j + n) := by
  refine writeLoop_run (mExpLoop exp p (d.sub j n)) (fun i => do
    let v ← atF p i
    pure (exp v)) rfl (fun i is => ?_) hd hj _ (by rw [List.length_map, Sl.view_length hp, hn]) ?_
  · show (atF p i >>= fun v => setF (d.sub j n) i (exp v) >>= fun _ => mExpLoop exp p (d.sub j n) is) =
      ((atF p i >>= fun v => pure (exp v)) >>= fun v => setF (d.sub j n) i v >>= fun _ => mExpLoop exp p (d.sub j n) is)
    rw [MGo.seq_assoc]
    rfl
  · intro i v hv m' ho _
    rw [List.getElem?_map, ← ho.view hp hne] at hv
    cases hx : (p.view m'.fl)[i]? with
    | none => rw [hx] at hv; cases hv
    | some x =>
      rw [hx] at hv
      rw [run_step (atF_run hx)]
      simp only [Option.map_some, Option.some.injEq] at hv
      rw [hv]
      rfl

theorem mDivLoop_run (den : F) {d : Sl} {j n : Nat} (hd : d.Ok m.fl) (hj : j + n ≤ d.len) :
    ∃ m', mDivLoop (d.sub j n) den (List.range n) m = (.ok (), m') ∧ OnlyF d.arr m m' ∧
      d.view m'.fl = (d.view m.fl).take j ++ ((d.sub j n).view m.fl).map (fun v => v /. den) ++ (d.view m.fl).drop (j + n) := by
  refine writeLoop_run (mDivLoop (d.sub j n) den) (fun i => do
    let v ← atF (d.sub j n) i
    pure (v /. den)) rfl (fun i is => ?_) hd hj _ (by rw [List.length_map, Sl.view_length (hd.sub hj)]; rfl) ?_
  · show (atF (d.sub j n) i >>= fun v => setF (d.sub j n) i (v /. den) >>= fun _ => mDivLoop (d.sub j n) den is) =
      ((atF (d.sub j n) i >>= fun v => pure (v /. den)) >>= fun v => setF (d.sub j n) i v >>= fun _ => mDivLoop (d.sub j n) den is)
    rw [MGo.seq_assoc]
    rfl
  · intro i v hv m' ho hrest
    rw [List.getElem?_map, ← hrest i (le_refl _)] at hv
    cases hx : ((d.sub j n).view m'.fl)[i]? with
    | none => rw [hx] at hv; cases hv
    | some x =>
      rw [hx] at hv
      rw [run_step (atF_run hx)]
      simp only [Option.map_some, Option.some.injEq] at hv
      rw [hv]
      rfl

/-- the middle of a list in three parts -/
theorem mid_view {α : Type} (l vs : List α) (j : Nat) (hj : j ≤ l.length) (n : Nat) (hn : vs.length = n) :
    ((l.take j ++ vs ++ l.drop (j + n)).drop j).take n = vs := by
  rw [List.append_assoc, List.drop_append_of_le_length (by simp; omega), List.drop_of_length_le (by simp), List.nil_append,
    List.take_append_of_le_length (by omega), List.take_of_length_le (by omega)]

/-- `SoftMax` of a slice into a part of another array -/
theorem mSoftMax_run (exp : F → F) {d p : Sl} {j n : Nat} (hd : d.Ok m.fl) (hj : j + n ≤ d.len) (hp : p.Ok m.fl) (hn : p.len = n)
    (hne : p.arr ≠ d.arr) :
    ∃ l m', softMax exp (p.view m.fl) (some ((d.sub j n).view m.fl)) = .ok l ∧ l.length = n ∧
      mSoftMax exp p (some (d.sub j n)) m = (.ok (d.sub j n), m') ∧ OnlyF d.arr m m' ∧
      d.view m'.fl = (d.view m.fl).take j ++ l ++ (d.view m.fl).drop (j + n) := by
  obtain ⟨m1, e1, o1, v1⟩ := mExpLoop_run exp hd hj hp hn hne
  have hpl := Sl.view_length hp
  have hdl := Sl.view_length hd
  have hd1 := hd.kept o1.frame.fl
  have hsub : (d.sub j n).view m1.fl = (p.view m.fl).map exp := by
    rw [Sl.view_sub hj, v1]
    exact mid_view _ _ _ (by omega) _ (by rw [List.length_map]; omega)
  obtain ⟨m2, e2, o2, v2⟩ := mDivLoop_run (GoFloat.sum ((p.view m.fl).map exp)) hd1 hj
  refine ⟨(p.view m.fl).map (fun v => exp v /. GoFloat.sum ((p.view m.fl).map exp)), m2, ?_, by rw [List.length_map]; omega, ?_, o1.trans o2, ?_⟩
  · have hl : ((d.sub j n).view m.fl).length = n := Sl.view_length (hd.sub hj)
    unfold softMax
    rw [Option.getD_some]
    simp only
    rw [if_neg (by omega), List.drop_eq_nil_of_le (by omega), List.append_nil, List.append_nil]
  · rw [show mSoftMax exp p (some (d.sub j n)) = ((pure (d.sub j n) : MGo F Sl) >>= fun probs => (do
        mExpLoop exp p probs (List.range p.len)
        let l ← rdF probs
        mDivLoop probs (GoFloat.sum l) (List.range p.len)
        pure probs)) from rfl]
    rw [run_step (show (pure (d.sub j n) : MGo F Sl) m = (.ok (d.sub j n), m) from rfl), hn, run_step e1,
      run_step (show rdF (d.sub j n) m1 = (.ok ((p.view m.fl).map exp), m1) by rw [← hsub]; rfl), run_step e2]
    rfl
  · rw [v2, hsub, v1]
    have hlen : ((d.view m.fl).take j ++ (p.view m.fl).map exp ++ (d.view m.fl).drop (j + n)).length = (d.view m.fl).length := by
      simp
      omega
    have e3 : ((d.view m.fl).take j ++ (p.view m.fl).map exp ++ (d.view m.fl).drop (j + n)).take j = (d.view m.fl).take j := by
      rw [List.append_assoc, List.take_append_of_le_length (by simp; omega), List.take_take, min_self]
    have e4 : ((d.view m.fl).take j ++ (p.view m.fl).map exp ++ (d.view m.fl).drop (j + n)).drop (j + n) = (d.view m.fl).drop (j + n) := by
      rw [List.drop_append, List.drop_of_length_le (by simp; omega), List.nil_append]
      have : j + n - ((d.view m.fl).take j ++ (p.view m.fl).map exp).length = 0 := by simp; omega
      rw [this]
      rfl
    rw [e3, e4, List.map_map]
    rfl

/-! ### matrices -/

/-- the matrix as a value -/
def MDense.rep (m : Mem F) (D : MDense) : Dense F := ⟨D.r, D.c, D.data.view m.fl⟩

/-- the matrix is in the memory, with the right number of entries -/
structure MDense.Ok (m : Mem F) (D : MDense) : Prop where
  ok : D.data.Ok m.fl
  len : D.data.len = D.r * D.c

theorem MDense.Ok.wf {D : MDense} (h : D.Ok m) : (D.rep m).WF := by
  show (D.data.view m.fl).length = D.r * D.c
  rw [Sl.view_length h.ok, h.len]

theorem MDense.Ok.kept {D : MDense} {W V : Nat → Prop} {m' : Mem F} (h : D.Ok m) (hf : Frame W V m m') : D.Ok m' := ⟨h.ok.kept hf.fl, h.len⟩

theorem row_le {r c i : Nat} (hi : i < r) : i * c + c ≤ r * c := by
  have : (i + 1) * c ≤ r * c := Nat.mul_le_mul_right _ hi
  have h2 : (i + 1) * c = i * c + c := by ring
  omega

theorem MDense.row_eq (D : MDense) (i : Nat) : D.row i = D.data.sub (i * D.c) D.c := rfl

theorem MDense.row_view {D : MDense} (h : D.Ok m) {i : Nat} (hi : i < D.r) : (D.row i).view m.fl = (D.rep m).row i := by
  rw [D.row_eq, Sl.view_sub (by rw [h.len]; exact row_le hi)]
  rfl

theorem mSoftLoop_sim (exp : F → F) {O D : MDense} (hO : O.Ok m) (hD : D.Ok m) (hr : D.r = O.r) (hc : D.c = O.c) (hne : O.data.arr ≠ D.data.arr)
    (is : List Nat) (his : ∀ i ∈ is, i < O.r) :
    ∃ E m', is.foldlM (fun (D : Dense F) i =>
        if D.r ≤ i then .error .shape
        else do
          let p ← softMax exp ((O.rep m).row i) (some (D.row i))
          D.setRow i p) (D.rep m) = .ok E ∧
      mSoftLoop exp O D is m = (.ok (), m') ∧ OnlyF D.data.arr m m' ∧ E = D.rep m' := by
  have key : ∀ (is : List Nat) (m0 : Mem F), (∀ i ∈ is, i < O.r) → OnlyF D.data.arr m m0 → ∃ E m', is.foldlM (fun (D : Dense F) i =>
        if D.r ≤ i then .error .shape
        else do
          let p ← softMax exp ((O.rep m).row i) (some (D.row i))
          D.setRow i p) (D.rep m0) = .ok E ∧
      mSoftLoop exp O D is m0 = (.ok (), m') ∧ OnlyF D.data.arr m m' ∧ E = D.rep m' := by
    intro is
    induction is with
    | nil => intro m0 _ h0; exact ⟨D.rep m0, m0, rfl, rfl, h0, rfl⟩
    | cons i is ih =>
      intro m0 hi h0
      have hir : i < O.r := hi i (by simp)
      have hO0 := hO.kept h0.frame
      have hD0 := hD.kept h0.frame
      have hle : i * D.c + D.c ≤ D.data.len := by rw [hD.len]; exact row_le (by omega)
      have hOrow : (O.row i).view m0.fl = (O.rep m).row i := by
        rw [MDense.row_view hO0 hir]
        unfold MDense.rep
        rw [h0.view hO.ok hne]
      obtain ⟨l, m1, e1, hl, e2, o1, v1⟩ := mSoftMax_run (m := m0) exp hD0.ok hle (p := O.row i)
        (by rw [O.row_eq]; exact hO0.ok.sub (by rw [hO.len]; exact row_le hir)) hc.symm hne
      rw [hOrow] at e1
      have hD1 := hD0.kept o1.frame
      have vl : (D.row i).view m1.fl = l := by
        rw [D.row_eq, Sl.view_sub hle, v1]
        exact mid_view _ _ _ (by rw [Sl.view_length hD0.ok]; omega) _ hl
      have hput : ∃ m2, putF (D.row i) l m1 = (.ok (), m2) ∧ OnlyF D.data.arr m1 m2 ∧ D.data.view m2.fl = D.data.view m1.fl := by
        refine ⟨m1.writeF (D.row i) l, rfl, ⟨⟨keptArr_put (s := D.row i) (by rw [D.row_eq]; exact hD1.ok.sub hle) (by
          show l.length ≤ D.c
          omega) rfl, .refl, .refl, .one rfl, .refl⟩, rfl, rfl⟩, ?_⟩
        show D.data.view ((D.data.sub (i * D.c) D.c).put l m1.fl) = _
        rw [Sl.view_put_sub hD1.ok (by omega), hl]
        rw [← vl, D.row_eq, Sl.view_sub hle]
        rw [List.append_assoc, ← List.drop_drop, List.take_append_drop, List.take_append_drop]
      obtain ⟨m2, e3, o2, v2⟩ := hput
      obtain ⟨E, m3, q1, q2, q3, q4⟩ := ih m2 (fun k hk => hi k (by simp [hk])) ((h0.trans o1).trans o2)
      refine ⟨E, m3, ?_, ?_, q3, q4⟩
      · rw [List.foldlM_cons]
        have hnr : ¬ (D.rep m0).r ≤ i := by
          show ¬ D.r ≤ i
          omega
        rw [if_neg hnr]
        have hrow : (D.rep m0).row i = (D.row i).view m0.fl := (MDense.row_view hD0 (by omega)).symm
        rw [hrow, D.row_eq, e1]
        have hset : (D.rep m0).setRow i l = .ok (D.rep m2) := by
          unfold Dense.setRow
          have : ¬ l.length ≠ (D.rep m0).c := by
            show ¬ l.length ≠ D.c
            omega
          rw [if_neg this]
          unfold MDense.rep
          rw [v2, v1]
        show ((D.rep m0).setRow i l >>= fun D' => _) = _
        rw [hset]
        exact q1
      · unfold mSoftLoop
        rw [if_neg (by omega), D.row_eq, run_step e2]
        have : ¬ (D.data.sub (i * D.c) D.c).len ≠ D.c := by
          show ¬ D.c ≠ D.c
          simp
        rw [if_neg this]
        rw [run_step (show rdF (D.data.sub (i * D.c) D.c) m1 = (.ok l, m1) by rw [← vl]; rfl)]
        have e3' : putF (D.data.sub (i * D.c) D.c) l m1 = (.ok (), m2) := e3
        rw [run_step e3']
        exact q2
  exact key is m his (OnlyF.refl _ m)

/-- `SoftMaxDense` into a matrix of the same shape -/
theorem mSoftMaxDense_run (exp : F → F) {O D : MDense} (hO : O.Ok m) (hD : D.Ok m) (hr : D.r = O.r) (hc : D.c = O.c)
    (hne : O.data.arr ≠ D.data.arr) :
    ∃ m', softMaxDense exp (O.rep m) (some (D.rep m)) = .ok (D.rep m') ∧ mSoftMaxDense exp O (some D) m = (.ok D, m') ∧ OnlyF D.data.arr m m' := by
  obtain ⟨E, m', h1, h2, h3, rfl⟩ := mSoftLoop_sim exp hO hD hr hc hne (List.range O.r) (by simp)
  refine ⟨m', h1, ?_, h3⟩
  rw [show mSoftMaxDense exp O (some D) = ((pure D : MGo F MDense) >>= fun D => (do
    mSoftLoop exp O D (List.range O.r)
    pure D)) from rfl]
  rw [run_step (show (pure D : MGo F MDense) m = (.ok D, m) from rfl), run_step h2]
  rfl

/-- `SoftMaxDense` into a new matrix -/
theorem mSoftMaxDense_new (exp : F → F) {O : MDense} (hO : O.Ok m) :
    ∃ D m', softMaxDense exp (O.rep m) none = .ok (D.rep m') ∧ mSoftMaxDense exp O none m = (.ok D, m') ∧
      Frame (fun _ => False) (fun _ => False) m m' ∧ m'.ix = m.ix ∧ D.Ok m' ∧ D.r = O.r ∧ D.c = O.c ∧ m.fl.length ≤ D.data.arr := by
  have fr := freshF_addF m (List.replicate (O.r * O.c) zero)
  have fa := frame_addF (W := fun _ => False) (V := fun _ => False) (m := m) (List.replicate (O.r * O.c) zero)
  have hD : MDense.Ok (m.addF (List.replicate (O.r * O.c) zero)) ⟨O.r, O.c, ⟨m.fl.length, 0, (List.replicate (O.r * O.c) (zero : F)).length⟩⟩ :=
    ⟨fr.ok, by simp⟩
  have hne : O.data.arr ≠ m.fl.length := Nat.ne_of_lt hO.ok.arr
  obtain ⟨m', h1, h2, h3⟩ := mSoftMaxDense_run exp (hO.kept fa) hD rfl rfl hne
  refine ⟨_, m', ?_, ?_, fa.trans h3.frame (fun a ha h => by
    simp only at h
    omega) (fun _ _ h => h), by rw [h3.ix]; rfl, hD.kept h3.frame, rfl, rfl, le_refl _⟩
  · rw [← h1]
    unfold softMaxDense activationDense MDense.rep
    rw [Option.getD_some, Option.getD_none, fr.view, Sl.view_kept hO.ok fa.fl id]
  · unfold mSoftMaxDense at h2 ⊢
    exact h2

end Boo
