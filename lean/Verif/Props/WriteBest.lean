import Verif.Model.WriteBest
import Verif.Props.Json
import Verif.Props.Grid
import Verif.Props.GradSearch
import Verif.Props.Repro

/-!
# C91: the files written with `WriteBest`
-/

namespace Boo
open GoFloat

variable {F : Type} [GoFloat F]

/-! ### `Grid` -/

/-- the last call of `writeBest` was made with the best accuracy and its options -/
def LastWritten (write : Bool) (b : BestW F) : Prop :=
  (write = true → ∀ O, b.1.2 = some O → b.2.getLast? = some (b.1.1, O)) ∧ (write = false → b.2 = [])

theorem updateBestW_fst (write : Bool) (b : BestW F) (a : F) (o : Option (Options F)) :
    (updateBestW write b a o).1 = updateBest b.1 a o := by
  unfold updateBestW updateBest
  split <;> rfl

theorem rescueOneW_inv {write : Bool} {b : BestW F} (hb : LastWritten write b) {m : List (CVMsg F)}
    {r : Option (BestAcc F)} {ww : List (F × Options F)} (h : rescueOneW write b m = pure (r, ww)) :
    rescueOne b.1 m = pure r ∧ ∀ best, r = some best → LastWritten write (best, ww) := by
  unfold rescueOneW at h
  unfold rescueOne
  split at h
  · rename_i e rest
    dsimp only
    split at h
    · rename_i he
      rw [run_pure_eq] at h
      simp only [Prod.mk.injEq] at h
      rw [if_pos he, ← h.1]
      exact ⟨rfl, fun _ h => by cases h⟩
    · rename_i he
      rw [if_neg he]
      split at h
      · rename_i a rest
        split at h
        · rename_i ha
          rw [run_pure_eq] at h
          simp only [Prod.mk.injEq] at h
          simp only [ha, if_true, ← h.1]
          exact ⟨trivial, fun _ h => by cases h⟩
        · rename_i ha
          split at h
          · rename_i o rest
            simp only [run_pure_eq, Prod.mk.injEq] at h
            obtain ⟨rfl, rfl⟩ := h
            dsimp only
            rw [if_neg ha]
            refine ⟨?_, ?_⟩
            · rw [updateBestW_fst]
            · intro best hbest
              obtain rfl := Option.some.inj hbest
              unfold updateBestW
              split
              · refine ⟨?_, ?_⟩
                · intro hw O hO
                  simp only at hO
                  subst hO
                  simp [hw]
                · intro hw
                  simp [hw, hb.2 hw]
              · exact hb
          · cases h
      · cases h
  · cases h

theorem rescueConcValuesW_inv {write : Bool} (ws : List (List (CVMsg F))) {b : BestW F} (hb : LastWritten write b)
    {r : Option (BestAcc F)} {ww : List (F × Options F)} (h : rescueConcValuesW write ws b = pure (r, ww)) :
    rescueConcValues ws b.1 = pure r ∧ ∀ best, r = some best → LastWritten write (best, ww) := by
  induction ws generalizing b with
  | nil =>
    unfold rescueConcValuesW at h
    rw [run_pure_eq] at h
    simp only [Prod.mk.injEq] at h
    obtain ⟨rfl, rfl⟩ := h
    exact ⟨rfl, fun best hbest => by obtain rfl := Option.some.inj hbest; exact hb⟩
  | cons w ws ih =>
    unfold rescueConcValuesW at h
    obtain ⟨⟨r1, w1⟩, h1, h⟩ := run_bind_ok h
    obtain ⟨q1, q2⟩ := rescueOneW_inv hb h1
    unfold rescueConcValues
    rw [run_bind_some q1]
    cases r1 with
    | none =>
      simp only [run_pure_eq, Prod.mk.injEq] at h
      obtain ⟨rfl, rfl⟩ := h
      exact ⟨rfl, fun _ h => by cases h⟩
    | some best => exact ih (q2 best rfl) h

theorem gridLoopW_inv {write : Bool} {n : Int} (ps : List (Run (List (CVMsg F)))) {pending : List (Run (List (CVMsg F)))}
    {b : BestW F} (hb : LastWritten write b) {r : Option (BestAcc F)} {ww : List (F × Options F)}
    (h : gridLoopW write n ps pending b = pure (r, ww)) :
    gridLoop n ps pending b.1 = pure r ∧ ∀ best, r = some best → LastWritten write (best, ww) := by
  induction ps generalizing pending b with
  | nil =>
    unfold gridLoopW at h
    rw [run_pure_eq] at h
    simp only [Prod.mk.injEq] at h
    obtain ⟨rfl, rfl⟩ := h
    exact ⟨rfl, fun best hbest => by obtain rfl := Option.some.inj hbest; exact hb⟩
  | cons p ps ih =>
    unfold gridLoopW at h
    unfold gridLoop
    split at h
    · rw [ofGo_eq] at h; cases h
    · rename_i hle
      rw [if_neg hle]
      simp only at h ⊢
      split at h
      · rename_i hl
        rw [if_pos hl]
        obtain ⟨ws, h1, h⟩ := run_bind_ok h
        rw [run_bind_some h1]
        obtain ⟨⟨r1, w1⟩, h2, h⟩ := run_bind_ok h
        obtain ⟨q1, q2⟩ := rescueConcValuesW_inv ws hb h2
        rw [run_bind_some q1]
        cases r1 with
        | none =>
          simp only [run_pure_eq, Prod.mk.injEq] at h
          obtain ⟨rfl, rfl⟩ := h
          exact ⟨rfl, fun _ h => by cases h⟩
        | some best => exact ih (q2 best rfl) h
      · rename_i hl
        rw [if_neg hl]
        exact ih hb h

theorem rescueOneW_total (write : Bool) (b : BestW F) {m : List (CVMsg F)} {r : Option (BestAcc F)}
    (h : rescueOne b.1 m = pure r) : ∃ ww, rescueOneW write b m = pure (r, ww) := by
  unfold rescueOne at h
  unfold rescueOneW
  split at h
  · dsimp only
    split at h
    · rename_i he
      rw [run_pure_eq] at h
      rw [if_pos he, ← h]
      exact ⟨_, rfl⟩
    · rename_i he
      rw [if_neg he]
      split at h
      · split at h
        · rename_i ha
          rw [run_pure_eq] at h
          simp only [ha, if_true, ← h]
          exact ⟨_, rfl⟩
        · rename_i ha
          split at h
          · rw [run_pure_eq] at h
            dsimp only
            rw [if_neg ha, ← h]
            rw [updateBestW_fst]
            exact ⟨_, rfl⟩
          · cases h
      · cases h
  · cases h

theorem rescueConcValuesW_total (write : Bool) (ws : List (List (CVMsg F))) {b : BestW F} {r : Option (BestAcc F)}
    (h : rescueConcValues ws b.1 = pure r) : ∃ ww, rescueConcValuesW write ws b = pure (r, ww) := by
  induction ws generalizing b with
  | nil =>
    unfold rescueConcValues at h
    rw [run_pure_eq] at h
    exact ⟨b.2, by rw [← h]; rfl⟩
  | cons w ws ih =>
    unfold rescueConcValues at h
    obtain ⟨r1, h1, h⟩ := run_bind_ok h
    obtain ⟨w1, q1⟩ := rescueOneW_total write b h1
    unfold rescueConcValuesW
    rw [run_bind_some q1]
    cases r1 with
    | none =>
      rw [run_pure_eq] at h
      exact ⟨w1, by rw [← h]⟩
    | some best => exact ih (b := (best, w1)) h

theorem gridLoopW_total (write : Bool) {n : Int} (ps : List (Run (List (CVMsg F)))) {pending : List (Run (List (CVMsg F)))}
    {b : BestW F} {r : Option (BestAcc F)} (h : gridLoop n ps pending b.1 = pure r) :
    ∃ ww, gridLoopW write n ps pending b = pure (r, ww) := by
  induction ps generalizing pending b with
  | nil =>
    unfold gridLoop at h
    rw [run_pure_eq] at h
    exact ⟨b.2, by rw [← h]; rfl⟩
  | cons p ps ih =>
    unfold gridLoop at h
    unfold gridLoopW
    split at h
    · rw [ofGo_eq] at h; cases h
    · rename_i hle
      rw [if_neg hle]
      simp only at h ⊢
      split at h
      · rename_i hl
        rw [if_pos hl]
        obtain ⟨ws, h1, h⟩ := run_bind_ok h
        rw [run_bind_some h1]
        obtain ⟨r1, h2, h⟩ := run_bind_ok h
        obtain ⟨w1, q1⟩ := rescueConcValuesW_total write ws h2
        rw [run_bind_some q1]
        cases r1 with
        | none =>
          rw [run_pure_eq] at h
          exact ⟨w1, by rw [← h]⟩
        | some best => exact ih (b := (best, w1)) h
      · rename_i hl
        rw [if_neg hl]
        exact ih h

theorem gridWithW_inv {cv : Nat → Options F → Run (CVOut F)} {fuel : Nat} {o : GridOptions F} {ret : GridRet F}
    {ww : List (F × Options F)} (h : gridWithW cv fuel o = pure (ret, ww)) :
    gridWith cv fuel o = pure ret ∧ (o.writeBest = false → ret.err = false → ww = []) ∧
      (o.writeBest = true → ∀ O, ret.opts = some O → ww.getLast? = some (ret.acc, O)) := by
  unfold gridWithW at h
  unfold gridWith
  split at h
  · rw [ofGo_eq] at h; cases h
  · rename_i hn
    rw [if_neg hn]
    obtain ⟨pts, h1, h⟩ := run_bind_ok h
    rw [run_bind_some h1]
    obtain ⟨⟨r, w⟩, h2, h⟩ := run_bind_ok h
    rw [run_pure_eq] at h
    simp only [Prod.mk.injEq] at h
    obtain ⟨rfl, rfl⟩ := h
    obtain ⟨q1, q2⟩ := gridLoopW_inv _ (b := ((zero, none), [])) ⟨fun _ _ h => (by cases h), fun _ => rfl⟩ h2
    rw [run_bind_some q1]
    refine ⟨rfl, ?_, ?_⟩
    · intro hw he
      cases r with
      | none => cases he
      | some best => exact (q2 best rfl).2 hw
    · intro hw O hO
      cases r with
      | none => cases hO
      | some best => exact (q2 best rfl).1 hw O hO

/-- **C91**: `WriteBest` does not change what `Grid` returns. -/
theorem C91_grid_same (cv : Nat → Options F → Run (CVOut F)) (fuel : Nat) (o : GridOptions F) (ret : GridRet F) :
    gridWith cv fuel o = pure ret ↔ ∃ writes, gridWithW cv fuel o = pure (ret, writes) := by
  constructor
  · intro h
    unfold gridWith at h
    unfold gridWithW
    split at h
    · rw [ofGo_eq] at h; cases h
    · rename_i hn
      rw [if_neg hn]
      obtain ⟨pts, h1, h⟩ := run_bind_ok h
      rw [run_bind_some h1]
      obtain ⟨r, h2, h⟩ := run_bind_ok h
      rw [run_pure_eq] at h
      obtain ⟨w1, q1⟩ := gridLoopW_total o.writeBest _ (b := ((zero, none), [])) h2
      exact ⟨w1, by rw [run_bind_some q1, ← h]⟩
  · rintro ⟨_, h⟩
    exact (gridWithW_inv h).1

/-! ### the files -/

theorem writeFiles_append {J : JCodec F} {exp : F → F} {S : GoSort} {D : DataBunch F} (ws : List (F × Options F))
    (w : F × Options F) {draws : Nat → Nat → F} {fs0 fs : Files}
    (h : writeFiles J exp S D draws fs0 (ws ++ [w]) = .ok fs) :
    ∃ fs1, writeBest J exp S (draws ws.length) D fs1 w.1 w.2 = .ok fs := by
  induction ws generalizing draws fs0 with
  | nil =>
    simp only [List.nil_append] at h
    unfold writeFiles at h
    obtain ⟨fs1, h1, h⟩ := bind_ok h
    unfold writeFiles at h
    obtain rfl := Except.ok.inj h
    exact ⟨fs0, h1⟩
  | cons v ws ih =>
    rw [List.cons_append] at h
    unfold writeFiles at h
    obtain ⟨fs1, h1, h⟩ := bind_ok h
    exact ih h

theorem writeFiles_last {J : JCodec F} {exp : F → F} {S : GoSort} {D : DataBunch F} {ws : List (F × Options F)}
    {acc : F} {O : Options F} (hl : ws.getLast? = some (acc, O)) {draws : Nat → Nat → F} {fs0 fs : Files}
    (h : writeFiles J exp S D draws fs0 ws = .ok fs) :
    ∃ M text, newMultiClass exp S (draws (ws.length - 1)) D O = .ok M ∧
      jsonMultiClass J M "softmax".toList = .ok text ∧ fs (toInt acc) = some text := by
  obtain ⟨l, rfl⟩ := List.getLast?_eq_some_iff.1 hl
  obtain ⟨fs1, h1⟩ := writeFiles_append l (acc, O) h
  unfold writeBest at h1
  obtain ⟨M, hM, h1⟩ := bind_ok h1
  obtain ⟨t, ht, h1⟩ := bind_ok h1
  simp only [pure, Except.pure, Except.ok.injEq] at h1
  refine ⟨M, t, by simpa using hM, ht, ?_⟩
  rw [← h1]
  simp

/-- **C91 for `Grid`**: with `WriteBest`, when `Grid` has returned the accuracy `acc` and options `O`, the file
`xgbmodel<int(acc)>.json` holds what `JSONMultiClass` writes for a model trained on all the data with `O`
(or an error of `JSONMultiClass`). -/
theorem C91_grid (J : JCodec F) (exp : F → F) (S : GoSort) (D : DataBunch F) (cv : Nat → Options F → Run (CVOut F))
    (fuel : Nat) (o : GridOptions F) (hw : o.writeBest = true) (ret : GridRet F) (writes : List (F × Options F))
    (h : gridWithW cv fuel o = pure (ret, writes)) (draws : Nat → Nat → F) (before after : Files)
    (hf : writeFiles J exp S D draws before writes = .ok after) (O : Options F) (hO : ret.opts = some O) :
    ∃ M text, newMultiClass exp S (draws (writes.length - 1)) D O = .ok M ∧
      jsonMultiClass J M "softmax".toList = .ok text ∧ after (toInt ret.acc) = some text :=
  writeFiles_last ((gridWithW_inv h).2.2 hw O hO) hf

/-- **C91**: without `WriteBest`, `Grid` writes no file. -/
theorem C91_grid_off (cv : Nat → Options F → Run (CVOut F)) (fuel : Nat) (o : GridOptions F) (hw : o.writeBest = false)
    (ret : GridRet F) (writes : List (F × Options F)) (h : gridWithW cv fuel o = pure (ret, writes))
    (he : ret.err = false) : writes = [] :=
  (gridWithW_inv h).2.1 hw he

/-- **C91 violated (with C17)**: the model read back from that file is not the model trained with the best options: it
lacks its last round. -/
theorem C91_violated_read_back [GoFloatOrd F] (J : JCodec F) (exp : F → F) (S : GoSort) (D : DataBunch F)
    (cv : Nat → Options F → Run (CVOut F)) (fuel : Nat) (o : GridOptions F) (hw : o.writeBest = true) (ret : GridRet F)
    (writes : List (F × Options F)) (h : gridWithW cv fuel o = pure (ret, writes)) (draws : Nat → Nat → F)
    (before after : Files) (hf : writeFiles J exp S D draws before writes = .ok after) (O : Options F)
    (hO : ret.opts = some O) (text : List Char) (ht : after (toInt ret.acc) = some (some text)) :
    ∃ M M', newMultiClass exp S (draws (writes.length - 1)) D O = .ok M ∧ unJSONMultiClass J exp text = some M' ∧
      M'.b.length = M.b.length - 1 := by
  obtain ⟨M, t, hM, hj, ha⟩ := C91_grid J exp S D cv fuel o hw ret writes h draws before after hf O hO
  rw [ha] at ht
  obtain rfl := Option.some.inj ht
  refine ⟨M, _, hM, C17_read_back_partial J exp M _ text hj, ?_⟩
  simp

/-- the results that beat `b` and all results before them, with their options -/
def recordsOf (b : F) : List (F × Options F) → List (F × Options F)
  | [] => []
  | r :: l => if (b <. r.1) = true then r :: recordsOf r.1 l else recordsOf b l

/-- the writes, from a state on -/
def writesFrom (write : Bool) (b : BestW F) (l : List (F × Options F)) : BestW F :=
  (bestOf b.1 (l.map fun r => (r.1, some r.2)), b.2 ++ if write then recordsOf b.1.1 l else [])

theorem updateBestW_from (write : Bool) (b : BestW F) (r : F × Options F) (l : List (F × Options F)) :
    writesFrom write (updateBestW write b r.1 (some r.2)) l = writesFrom write b (r :: l) := by
  unfold writesFrom updateBestW gt
  simp only [List.map_cons, bestOf, List.foldl_cons, recordsOf, updateBest, gt]
  by_cases h : (b.1.1 <. r.1) = true
  · simp only [h, if_true]
    cases write <;> simp
  · simp [h]

theorem rescueW_ok (write : Bool) (l : List (F × Options F)) (h : ∀ r ∈ l, (r.1 <. zero) = false) (b : BestW F) :
    rescueConcValuesW write (l.map fun r => okMsgs r.1 (some r.2)) b =
      pure (some (writesFrom write b l).1, (writesFrom write b l).2) := by
  induction l generalizing b with
  | nil =>
    show (pure (some b.1, b.2) : Run _) = _
    unfold writesFrom
    cases write <;> simp [recordsOf, bestOf]
  | cons r l ih =>
    have hr := h r List.mem_cons_self
    rw [List.map_cons]
    unfold rescueConcValuesW
    have : rescueOneW write b (okMsgs r.1 (some r.2)) =
        pure (some (updateBestW write b r.1 (some r.2)).1, (updateBestW write b r.1 (some r.2)).2) := by
      unfold rescueOneW okMsgs
      simp [hr]
    rw [run_bind_some this]
    rw [← updateBestW_from]
    exact ih (fun r hr => h r (List.mem_cons_of_mem _ hr)) _

theorem gridLoopW_tail (write : Bool) (n : Nat) (tail pending : List (Run (List (CVMsg F)))) (b : BestW F)
    (h : pending.length + tail.length < n) : gridLoopW write n tail pending b = pure (some b.1, b.2) := by
  induction tail generalizing pending with
  | nil => rfl
  | cons p ps ih =>
    simp only [List.length_cons] at h
    unfold gridLoopW
    rw [if_neg (by omega)]
    simp only [List.length_append, List.length_cons, List.length_nil]
    rw [if_neg (by omega)]
    exact ih _ (by simp; omega)

/-- what happens after the batch -/
def afterBatchW (write : Bool) (n : Nat) (rest : List (Run (List (CVMsg F)))) :
    Option (BestAcc F) × List (F × Options F) → Run (Option (BestAcc F) × List (F × Options F))
  | (none, ww) => pure (none, ww)
  | (some best, ww) => gridLoopW write n rest [] (best, ww)

theorem gridLoopW_batch (write : Bool) (n : Nat) (a rest pending : List (Run (List (CVMsg F)))) (b : BestW F) (ha : a ≠ [])
    (h : pending.length + a.length = n) : gridLoopW write n (a ++ rest) pending b =
      (do let ws ← (pending ++ a).mapM id
          let r ← rescueConcValuesW write ws b
          afterBatchW write n rest r) := by
  induction a generalizing pending with
  | nil => exact absurd rfl ha
  | cons p ps ih =>
    simp only [List.length_cons] at h
    rw [List.cons_append]
    unfold gridLoopW
    rw [if_neg (by omega)]
    simp only [List.length_append, List.length_cons, List.length_nil]
    by_cases he : ps = []
    · subst he
      simp only [List.length_nil] at h
      rw [if_pos (by omega), List.nil_append]
      congr 1
    · have : 0 < ps.length := List.length_pos_iff.2 he
      rw [if_neg (by omega), ih (pending ++ [p]) he (by simp; omega), List.append_assoc]
      rfl

theorem recordsOf_append (b : BestAcc F) (l l' : List (F × Options F)) :
    recordsOf b.1 (l ++ l') = recordsOf b.1 l ++ recordsOf (bestOf b (l.map fun r => (r.1, some r.2))).1 l' := by
  induction l generalizing b with
  | nil => rfl
  | cons r l ih =>
    simp only [List.cons_append, recordsOf, List.map_cons, bestOf, List.foldl_cons, updateBest, gt]
    by_cases h : (b.1 <. r.1) = true
    · simp only [h, if_true, List.cons_append]
      rw [ih (r.1, some r.2)]
      rfl
    · simp only [h]
      exact ih b

theorem writesFrom_append (write : Bool) (b : BestW F) (l l' : List (F × Options F)) :
    writesFrom write (writesFrom write b l) l' = writesFrom write b (l ++ l') := by
  unfold writesFrom
  simp only [List.map_append, bestOf, List.foldl_append]
  cases write
  · simp
  · simp only [if_true]
    rw [recordsOf_append, List.append_assoc]
    rfl

theorem gridLoopW_ok (write : Bool) (n : Nat) (hn : 0 < n) (tail : List (Run (List (CVMsg F)))) (ht : tail.length < n) :
    ∀ (m : Nat) (l : List (F × Options F)), l.length = n * m → (∀ r ∈ l, (r.1 <. zero) = false) → ∀ b : BestW F,
    gridLoopW write n ((l.map fun r => pure (okMsgs r.1 (some r.2))) ++ tail) [] b =
      pure (some (writesFrom write b l).1, (writesFrom write b l).2) := by
  intro m
  induction m with
  | zero =>
    intro l hl _ b
    have : l = [] := List.length_eq_zero_iff.1 (by rw [hl, Nat.mul_zero])
    subst this
    rw [List.map_nil, List.nil_append, gridLoopW_tail write n tail [] b (by simpa using ht)]
    unfold writesFrom
    cases write <;> simp [recordsOf, bestOf]
  | succ m ih =>
    intro l hl h0 b
    have hsplit : l = l.take n ++ l.drop n := (List.take_append_drop n l).symm
    have hlen : (l.take n).length = n := by
      rw [List.length_take, hl, Nat.mul_succ]; omega
    have hlen2 : (l.drop n).length = n * m := by
      rw [List.length_drop, hl, Nat.mul_succ]; omega
    rw [hsplit, List.map_append, List.append_assoc, gridLoopW_batch]
    · rw [List.nil_append]
      have hm : (List.map (fun r : F × Options F => (pure (okMsgs r.1 (some r.2)) : Run (List (CVMsg F)))) (l.take n)) =
          ((l.take n).map fun r => okMsgs r.1 (some r.2)).map pure := by rw [List.map_map]; rfl
      rw [hm, mapM_id_pure]
      rw [run_bind_some rfl, rescueW_ok write _ (fun r hr => h0 r (List.mem_of_mem_take hr)), run_bind_some rfl]
      show gridLoopW _ _ _ _ _ = _
      rw [ih _ hlen2 (fun r hr => h0 r (List.mem_of_mem_drop hr)), ← hsplit]
      have e : writesFrom write ((writesFrom write b (l.take n)).1, (writesFrom write b (l.take n)).2) (l.drop n) =
          writesFrom write b l := by
        rw [Prod.mk.eta, writesFrom_append, ← hsplit]
      rw [e]
    · intro h
      have := congrArg List.length h
      rw [List.length_map, hlen] at this
      simp at this
      omega
    · rw [List.length_map, hlen]; simp

/-- **C91 for `Grid`, all files**: if the cross-validations whose results are looked at (`C51_best_partial`) end without
error, with accuracies and options `runs` in the order of the points, then `writeBest` is called exactly for those that beat
all before them (and 0), in that order. -/
theorem C91_grid_records (cv : Nat → Options F → Run (CVOut F)) (fuel : Nat) (o : GridOptions F) (n : Nat) (hn : 0 < n)
    (ho : o.nCPUs = n) (hw : o.writeBest = true) (pts : List (Options F)) (hp : gridPoints fuel o = some pts)
    (runs : List (F × Options F)) (hl : runs.length = n * (pts.length / n))
    (hcv : ∀ (i : Nat) O r, pts[i]? = some O → runs[i]? = some r → ∃ out, EndsWell (cv i O) out ∧ out.acc = r.1 ∧
      out.opts = some r.2) :
    ∃ ret, gridWithW cv fuel o = pure (ret, recordsOf zero runs) := by
  unfold gridWithW
  rw [if_neg (by omega), hp, ho, hw]
  rw [run_bind_some (show Run.ofOption (some pts) = pure pts from rfl)]
  set evs := pts.mapIdx fun j O => (cv j O).map CVOut.sent with hevs
  have hle : runs.length ≤ pts.length := by rw [hl]; exact Nat.mul_div_le _ _
  have hsplit : evs = runs.map (fun r => pure (okMsgs r.1 (some r.2))) ++ evs.drop runs.length := by
    conv_lhs => rw [← List.take_append_drop runs.length evs]
    congr 1
    apply List.ext_getElem?
    intro i
    rw [List.getElem?_take, List.getElem?_map]
    by_cases hi : i < runs.length
    · rw [if_pos hi, hevs, List.getElem?_mapIdx, List.getElem?_eq_getElem (show i < pts.length by omega),
        List.getElem?_eq_getElem hi]
      obtain ⟨out, ⟨h1, h2, _⟩, h4, h5⟩ :=
        hcv i _ _ (List.getElem?_eq_getElem (show i < pts.length by omega)) (List.getElem?_eq_getElem hi)
      simp only [Option.map_some, Option.some.injEq]
      rw [h1]
      show (pure out.sent : Run (List (CVMsg F))) = _
      rw [h2, h4, h5]
      rfl
    · rw [if_neg hi, List.getElem?_eq_none (by omega)]
      rfl
  have hlen : evs.length = pts.length := by rw [hevs, List.length_mapIdx]
  rw [hsplit, gridLoopW_ok true n hn _ (by
    rw [List.length_drop, hlen, hl]
    have := Nat.div_add_mod pts.length n
    have := Nat.mod_lt pts.length hn
    omega) (pts.length / n) _ hl]
  · exact ⟨gridRet (some (bestOf (zero, none) (runs.map fun r => (r.1, some r.2)))), rfl⟩
  · intro r hr
    obtain ⟨i, hi⟩ := List.getElem?_of_mem hr
    have hlt := (List.getElem?_eq_some_iff.1 hi).1
    obtain ⟨out, ⟨_, _, h3⟩, h4, _⟩ := hcv i _ _ (List.getElem?_eq_getElem (show i < pts.length by omega)) hi
    rw [← h4]
    exact h3

/-- a worker that reports an error, or a negative accuracy -/
def Fails (p : List (CVMsg F)) : Prop := (∃ t, p = .err true :: t) ∨ ∃ a t, p = .err false :: .acc a :: t ∧ (a <. zero) = true

theorem rescueW_bad (write : Bool) (l : List (F × Options F)) (h : ∀ r ∈ l, (r.1 <. zero) = false) (bad : List (CVMsg F))
    (hb : Fails bad) (more : List (List (CVMsg F))) (b : BestW F) :
    rescueConcValuesW write ((l.map fun r => okMsgs r.1 (some r.2)) ++ bad :: more) b = pure (none, (writesFrom write b l).2) := by
  induction l generalizing b with
  | nil =>
    rw [List.map_nil, List.nil_append]
    unfold rescueConcValuesW
    have : rescueOneW write b bad = pure (none, b.2) := by
      rcases hb with ⟨t, rfl⟩ | ⟨a, t, rfl, ha⟩
      · simp [rescueOneW]
      · simp [rescueOneW, ha]
    rw [run_bind_some this]
    unfold writesFrom
    cases write <;> simp [recordsOf]
  | cons r l ih =>
    have hr := h r List.mem_cons_self
    rw [List.map_cons, List.cons_append]
    unfold rescueConcValuesW
    have : rescueOneW write b (okMsgs r.1 (some r.2)) =
        pure (some (updateBestW write b r.1 (some r.2)).1, (updateBestW write b r.1 (some r.2)).2) := by
      unfold rescueOneW okMsgs
      simp [hr]
    rw [run_bind_some this]
    rw [← updateBestW_from]
    exact ih (fun r hr => h r (List.mem_cons_of_mem _ hr)) _

theorem gridLoopW_front (write : Bool) (n : Nat) (hn : 0 < n) (rest : List (Run (List (CVMsg F)))) :
    ∀ (m : Nat) (l : List (F × Options F)), l.length = n * m → (∀ r ∈ l, (r.1 <. zero) = false) → ∀ b : BestW F,
    gridLoopW write n ((l.map fun r => pure (okMsgs r.1 (some r.2))) ++ rest) [] b =
      gridLoopW write n rest [] (writesFrom write b l) := by
  intro m
  induction m with
  | zero =>
    intro l hl _ b
    have : l = [] := List.length_eq_zero_iff.1 (by rw [hl, Nat.mul_zero])
    subst this
    rw [List.map_nil, List.nil_append]
    unfold writesFrom
    cases write <;> simp [recordsOf, bestOf]
  | succ m ih =>
    intro l hl h0 b
    have hsplit : l = l.take n ++ l.drop n := (List.take_append_drop n l).symm
    have hlen : (l.take n).length = n := by
      rw [List.length_take, hl, Nat.mul_succ]; omega
    have hlen2 : (l.drop n).length = n * m := by
      rw [List.length_drop, hl, Nat.mul_succ]; omega
    rw [hsplit, List.map_append, List.append_assoc, gridLoopW_batch]
    · rw [List.nil_append]
      have hm : (List.map (fun r : F × Options F => (pure (okMsgs r.1 (some r.2)) : Run (List (CVMsg F)))) (l.take n)) =
          ((l.take n).map fun r => okMsgs r.1 (some r.2)).map pure := by rw [List.map_map]; rfl
      rw [hm, mapM_id_pure]
      rw [run_bind_some rfl, rescueW_ok write _ (fun r hr => h0 r (List.mem_of_mem_take hr)), run_bind_some rfl]
      show gridLoopW _ _ _ _ _ = _
      rw [ih _ hlen2 (fun r hr => h0 r (List.mem_of_mem_drop hr)), ← hsplit]
      have e : writesFrom write ((writesFrom write b (l.take n)).1, (writesFrom write b (l.take n)).2) (l.drop n) =
          writesFrom write b l := by
        rw [Prod.mk.eta, writesFrom_append, ← hsplit]
      rw [e]
    · intro h
      have := congrArg List.length h
      rw [List.length_map, hlen] at this
      simp at this
      omega
    · rw [List.length_map, hlen]; simp

/-- **C91 for `Grid`, errors**: if the first cross-validations end without error with accuracies and options `runs`, the next one
fails, its result is looked at, and those started with it end, then `Grid` returns the error, and `writeBest` has been called exactly
for the results that beat all before them: the files remain. -/
theorem C91_grid_error (cv : Nat → Options F → Run (CVOut F)) (fuel : Nat) (o : GridOptions F) (n : Nat) (hn : 0 < n)
    (ho : o.nCPUs = n) (pts : List (Options F)) (hp : gridPoints fuel o = some pts)
    (runs : List (F × Options F)) (hl : runs.length < n * (pts.length / n))
    (hcv : ∀ (i : Nat) O r, pts[i]? = some O → runs[i]? = some r → ∃ out, EndsWell (cv i O) out ∧ out.acc = r.1 ∧
      out.opts = some r.2)
    (hbad : ∀ O, pts[runs.length]? = some O → ∃ out, cv runs.length O = pure out ∧ Fails out.sent)
    (hend : ∀ (i : Nat) O, runs.length < i → i < n * (runs.length / n + 1) → pts[i]? = some O → ∃ out, cv i O = pure out) :
    gridWithW cv fuel o = pure (⟨ofRat (-1), [], none, true⟩, if o.writeBest then recordsOf zero runs else []) := by
  set k := runs.length with hk
  set m := k / n with hmdef
  have hdm := Nat.div_add_mod k n
  have hmod := Nat.mod_lt k hn
  have hnm : n * (m + 1) ≤ n * (pts.length / n) := by
    apply Nat.mul_le_mul_left
    have : k / n < pts.length / n := Nat.div_lt_of_lt_mul hl
    omega
  have hle : n * (pts.length / n) ≤ pts.length := Nat.mul_div_le _ _
  rw [← hmdef] at hdm
  have hms : n * (m + 1) = n * m + n := Nat.mul_succ _ _
  unfold gridWithW
  rw [if_neg (by omega), hp, ho]
  rw [run_bind_some (show Run.ofOption (some pts) = pure pts from rfl)]
  set evs := pts.mapIdx fun j O => (cv j O).map CVOut.sent with hevs
  have hlen : evs.length = pts.length := by rw [hevs, List.length_mapIdx]
  have hev : ∀ (i : Nat) O, pts[i]? = some O → evs[i]? = some ((cv i O).map CVOut.sent) := by
    intro i O h
    rw [hevs, List.getElem?_mapIdx, h]
    rfl
  have hrun : ∀ (i : Nat) r, runs[i]? = some r → evs[i]? = some (pure (okMsgs r.1 (some r.2))) ∧ (r.1 <. zero) = false := by
    intro i r hi
    have hik := (List.getElem?_eq_some_iff.1 hi).1
    have hO := List.getElem?_eq_getElem (show i < pts.length by omega)
    obtain ⟨out, ⟨h1, h2, h3⟩, h4, h5⟩ := hcv i _ _ hO hi
    refine ⟨?_, by rw [← h4]; exact h3⟩
    rw [hev i _ hO, h1]
    show some (pure out.sent : Run (List (CVMsg F))) = _
    rw [h2, h4, h5]
    rfl
  have hpos : ∀ r ∈ runs, (r.1 <. zero) = false := by
    intro r hr
    obtain ⟨i, hi⟩ := List.getElem?_of_mem hr
    exact (hrun i r hi).2
  obtain ⟨bad, hb1, hb2⟩ : ∃ bad, evs[k]? = some (pure bad) ∧ Fails bad := by
    have hO := List.getElem?_eq_getElem (show k < pts.length by omega)
    obtain ⟨out, h1, h2⟩ := hbad _ hO
    exact ⟨out.sent, by rw [hev k _ hO, h1]; rfl, h2⟩
  obtain ⟨more, hmore⟩ : ∃ more : List (List (CVMsg F)), (evs.take (n * (m + 1))).drop (k + 1) = more.map pure := by
    have : ∀ p ∈ (evs.take (n * (m + 1))).drop (k + 1), ∃ x : List (CVMsg F), p = pure x := by
      intro p hp
      obtain ⟨i, hi⟩ := List.getElem?_of_mem hp
      rw [List.getElem?_drop, List.getElem?_take] at hi
      split at hi
      · rename_i hlt
        have hO := List.getElem?_eq_getElem (show k + 1 + i < pts.length by omega)
        obtain ⟨out, h1⟩ := hend (k + 1 + i) _ (by omega) hlt hO
        rw [hev _ _ hO, h1] at hi
        exact ⟨out.sent, (Option.some.inj hi).symm⟩
      · cases hi
    generalize (evs.take (n * (m + 1))).drop (k + 1) = L at this
    induction L with
    | nil => exact ⟨[], rfl⟩
    | cons p L ih =>
      obtain ⟨x, rfl⟩ := this p (by simp)
      obtain ⟨xs, rfl⟩ := ih fun p hp => this p (by simp [hp])
      exact ⟨x :: xs, rfl⟩
  have hsplit : evs = ((runs.take (n * m)).map fun r => pure (okMsgs r.1 (some r.2))) ++
      ((((runs.drop (n * m)).map fun r => okMsgs r.1 (some r.2)) ++ bad :: more).map pure ++ evs.drop (n * (m + 1))) := by
    have e1 : evs.take k = runs.map fun r => pure (okMsgs r.1 (some r.2)) := by
      apply List.ext_getElem?
      intro i
      rw [List.getElem?_take, List.getElem?_map]
      by_cases hi : i < k
      · rw [if_pos hi, (hrun i _ (List.getElem?_eq_getElem hi)).1, List.getElem?_eq_getElem hi]
        rfl
      · rw [if_neg hi, List.getElem?_eq_none (by omega)]
        rfl
    have e2 : evs.take (n * (m + 1)) = evs.take k ++ pure bad :: (evs.take (n * (m + 1))).drop (k + 1) := by
      conv_lhs => rw [← List.take_append_drop k (evs.take (n * (m + 1)))]
      rw [List.take_take, min_eq_left (by omega)]
      congr 1
      rw [List.drop_eq_getElem_cons (by rw [List.length_take, hlen]; omega)]
      congr 1
      rw [List.getElem_take]
      exact Option.some.inj ((List.getElem?_eq_getElem _).symm.trans hb1)
    have e3 : evs = evs.take (n * (m + 1)) ++ evs.drop (n * (m + 1)) := (List.take_append_drop _ _).symm
    have e4 : (runs.map fun r => (pure (okMsgs r.1 (some r.2)) : Run (List (CVMsg F)))) =
        ((runs.take (n * m)).map fun r => pure (okMsgs r.1 (some r.2))) ++ (runs.drop (n * m)).map fun r => pure (okMsgs r.1 (some r.2)) := by
      rw [← List.map_append, List.take_append_drop]
    rw [e2, hmore, e1, e4] at e3
    refine e3.trans ?_
    simp only [List.map_append, List.map_cons, List.map_map, List.append_assoc, List.cons_append]
    rfl
  rw [hsplit, gridLoopW_front o.writeBest n hn _ m _ (by rw [List.length_take]; omega) fun r hr => hpos r (List.mem_of_mem_take hr),
    gridLoopW_batch]
  · rw [List.nil_append, mapM_id_pure, run_bind_some rfl, rescueW_bad _ _ (fun r hr => hpos r (List.mem_of_mem_drop hr)) _ hb2,
      run_bind_some rfl, writesFrom_append, List.take_append_drop]
    show (pure (gridRet none, _) : Run _) = _
    unfold writesFrom
    rw [List.nil_append]
    rfl
  · simp
  · have h1 := congrArg List.length hmore
    rw [List.length_drop, List.length_take, hlen, List.length_map] at h1
    simp only [List.length_nil, List.length_map, List.length_append, List.length_drop, List.length_cons]
    omega

/-- a grid of two points; the first one has accuracy 40, the second one fails: the error is returned and one file is there -/
def failSecond (i : Nat) (O : Options F64) : Run (CVOut F64) :=
  if i = 0 then pure ⟨okMsgs (.fin 40) (some O), .fin 40, false, some O⟩ else pure ⟨[.err true], .fin 0, true, none⟩

theorem failSecond_grid (o : GridOptions F64) (hn : o.nCPUs = 1) (hw : o.writeBest = true) (O O' : Options F64)
    (hp : gridPoints 3 o = some [O, O']) :
    gridWithW failSecond 3 o = pure (⟨ofRat (-1), [], none, true⟩, [(.fin 40, O)]) := by
  have h : ((zero : F64) <. .fin 40) = true := by decide +kernel
  have hz : ((.fin 40 : F64) <. zero) = false := by decide +kernel
  have h2 : recordsOf (zero : F64) [(.fin 40, O)] = [(.fin 40, O)] := by simp only [recordsOf, h, if_true]
  have := C91_grid_error failSecond 3 o 1 (by decide) hn _ hp [(.fin 40, O)] (by simp) (fun i P r h1 h2 => ?_)
    (fun P h => ⟨_, rfl, Or.inl ⟨_, rfl⟩⟩) (fun i P h1 h2 => ?_)
  · rw [this, if_pos hw, h2]
  · cases i with
    | zero =>
      obtain rfl := Option.some.inj h1
      obtain rfl := Option.some.inj h2
      exact ⟨_, ⟨rfl, rfl, hz⟩, rfl, rfl⟩
    | succ i => cases h2
  · simp at h1 h2
    omega

example : ∃ (o : GridOptions F64) (O O' : Options F64), o.nCPUs = 1 ∧ o.writeBest = true ∧ gridPoints 3 o = some [O, O'] := by
  have h : ∀ o : GridOptions F64, (gridPoints 3 o).map List.length = some 2 → ∃ O O', gridPoints 3 o = some [O, O'] := by
    intro o h
    obtain ⟨pts, hp, hl⟩ := Option.map_eq_some_iff.1 h
    obtain ⟨O, O', rfl⟩ := List.length_eq_two.1 hl
    exact ⟨O, O', hp⟩
  obtain ⟨O, O', hO⟩ := h { onePoint 1 with rounds := ⟨20, 21, 1⟩, writeBest := true } (by decide +kernel)
  exact ⟨_, O, O', rfl, rfl, hO⟩

/-- accuracies 40, 70, 60, 90: three files -/
example (O : Options F64) : recordsOf zero [(.fin 40, O), (.fin 70, O), (.fin 60, O), (.fin 90, O)] =
    [(.fin 40, O), (.fin 70, O), (.fin 90, O)] := by
  have h : ((zero : F64) <. .fin 40) = true ∧ ((.fin 40 : F64) <. .fin 70) = true ∧ ((.fin 70 : F64) <. .fin 60) = false ∧
      ((.fin 70 : F64) <. .fin 90) = true := by decide +kernel
  simp [recordsOf, h.1, h.2.1, h.2.2.1, h.2.2.2]

/-! ### The gradient searches -/

/-- the last call of `writeBest` was made with the best accuracy and with options for which it was measured -/
def LastMeasured (E : SearchEnv F) (s : SearchState F) : Prop :=
  (E.o.writeBest = true → s.accs ≠ [] → ∃ O, (O, ⟨false, s.best⟩) ∈ s.calls ∧ s.writes.getLast? = some (s.best, O.fixMcw)) ∧
  (E.o.writeBest = false → s.writes = [])

theorem lastMeasured_kept (E : SearchEnv F) : Kept E (LastMeasured E) := by
  constructor
  · intro s s' h1 h2 _ h4 h5 h
    unfold LastMeasured
    rw [h1, h2, h4, h5]
    exact h
  · intro s t tprev h
    have mono : ∀ c, LastMeasured E { s with calls := s.calls ++ [c] } := by
      intro c
      refine ⟨fun hw hne => ?_, h.2⟩
      obtain ⟨O, h1, h2⟩ := h.1 hw hne
      exact ⟨O, List.mem_append_left _ h1, h2⟩
    unfold compareAccs
    simp only
    split
    · exact mono _
    · rename_i he
      split
      · exact mono _
      · split
        · refine ⟨fun hw _ => ⟨s.deref t, ?_, ?_⟩, fun hw => ?_⟩
          · refine List.mem_append_right _ ?_
            rw [List.mem_singleton]
            congr 1
            cases hr : E.cv s.calls.length 5 (s.deref t) with
            | mk e a =>
              rw [hr] at he
              simp only at he
              simp [he]
          · simp [hw]
            rfl
          · simp only [hw]
            exact h.2 hw
        · exact mono _

theorem fixMcw_fixMcw (O : Options F) : O.fixMcw.fixMcw = O.fixMcw := by
  by_cases h : (O.minChildWeight <. one) = true
  · simp only [Options.fixMcw, h, if_true]
    split <;> rfl
  · simp only [Options.fixMcw, h]
    simp [h]

/-- **C91**: options that were used by a cross-validation (which has raised `MinChildWeight`) are not changed by the
training in `writeBest`; and the model is the one trained with the options before that. -/
theorem C91_options_kept (exp : F → F) (S : GoSort) (draws : Nat → F) (D : DataBunch F) (O : Options F) :
    O.fixMcw.fixMcw = O.fixMcw ∧ newMultiClass exp S draws D O.fixMcw = newMultiClass exp S draws D O := by
  refine ⟨fixMcw_fixMcw O, ?_⟩
  unfold newMultiClass train trainWith
  rw [fixMcw_fixMcw]
  unfold Options.fixMcw
  split <;> rfl

/-- what `GradientGrid` or `HybridGradientGrid` returns, with their calls of `writeBest` -/
def SearchWrites (fuel : Nat) (E : SearchEnv F) (nfold : Int) (ret : GridRet F) (writes : List (F × Options F)) : Prop :=
  (gradientGrid fuel E nfold = some ret ∧ gradientWrites fuel E nfold = some writes) ∨
  (hybridGrid fuel E nfold = some ret ∧ hybridWrites fuel E nfold = some writes)

theorem SearchWrites.inits {fuel : Nat} {E : SearchEnv F} {nfold : Int} {ret : GridRet F} {writes : List (F × Options F)}
    (h : SearchWrites fuel E nfold ret writes) :
    ∃ inits, (gradientInits fuel E.o = some inits ∨ hybridInits fuel E.o = some inits) ∧
      searchRet (searchAll E nfold inits searchStart) = ret ∧ (searchEnd E nfold inits).writes = writes := by
  rcases h with ⟨h1, h2⟩ | ⟨h1, h2⟩
  · obtain ⟨inits, hi, h1⟩ := Option.map_eq_some_iff.1 h1
    obtain ⟨inits', hi', h2⟩ := Option.map_eq_some_iff.1 h2
    rw [hi] at hi'
    obtain rfl := Option.some.inj hi'
    exact ⟨inits, Or.inl hi, h1, h2⟩
  · obtain ⟨inits, hi, h1⟩ := Option.map_eq_some_iff.1 h1
    obtain ⟨inits', hi', h2⟩ := Option.map_eq_some_iff.1 h2
    rw [hi] at hi'
    obtain rfl := Option.some.inj hi'
    exact ⟨inits, Or.inr hi, h1, h2⟩

/-- **C91 for the gradient searches**: with `WriteBest`, when a search has returned the accuracy `acc` (and some accuracy was
recorded), the file `xgbmodel<int(acc)>.json` holds what `JSONMultiClass` writes for a model trained on all the data with
options for which a cross-validation has reported `acc`. -/
theorem C91_gradient (J : JCodec F) (exp : F → F) (S : GoSort) (D : DataBunch F) (fuel : Nat) (E : SearchEnv F)
    (nfold : Int) (hw : E.o.writeBest = true) (ret : GridRet F) (writes : List (F × Options F))
    (h : SearchWrites fuel E nfold ret writes) (hne : ret.accs ≠ []) (draws : Nat → Nat → F) (before after : Files)
    (hf : writeFiles J exp S D draws before writes = .ok after) :
    ∃ inits, (gradientInits fuel E.o = some inits ∨ hybridInits fuel E.o = some inits) ∧
      ∃ O, (O, ⟨false, ret.acc⟩) ∈ (searchEnd E nfold inits).calls ∧
        ∃ M text, newMultiClass exp S (draws (writes.length - 1)) D O = .ok M ∧
          jsonMultiClass J M "softmax".toList = .ok text ∧ after (toInt ret.acc) = some text := by
  obtain ⟨inits, hi, hr, rfl⟩ := h.inits
  refine ⟨inits, hi, ?_⟩
  have hk := searchAll_kept (lastMeasured_kept E) nfold inits searchStart
    ⟨fun _ h => absurd rfl h, fun _ => rfl⟩
  unfold searchEnd at hf ⊢
  cases hs : searchAll E nfold inits searchStart with
  | mk s b =>
    rw [hs] at hk hr hf
    subst hr
    cases b with
    | false => exact absurd rfl hne
    | true =>
      obtain ⟨O, h1, h2⟩ := hk.1 hw hne
      refine ⟨O, h1, ?_⟩
      obtain ⟨M, t, q1, q2, q3⟩ := writeFiles_last h2 hf
      rw [(C91_options_kept exp S _ D O).2] at q1
      exact ⟨M, t, q1, q2, q3⟩

/-- **C91**: without `WriteBest` the searches write no file. -/
theorem C91_gradient_off (fuel : Nat) (E : SearchEnv F) (nfold : Int) (hw : E.o.writeBest = false) (ret : GridRet F)
    (writes : List (F × Options F)) (h : SearchWrites fuel E nfold ret writes) : writes = [] := by
  obtain ⟨inits, hi, hr, rfl⟩ := h.inits
  exact (searchAll_kept (lastMeasured_kept E) nfold inits searchStart ⟨fun _ h => absurd rfl h, fun _ => rfl⟩).2 hw

/-- **C91 for the gradient searches, all files**: with `WriteBest` there is one call of `writeBest` for each of the
accuracies that are returned, in that order. -/
theorem C91_gradient_records (fuel : Nat) (E : SearchEnv F) (nfold : Int) (hw : E.o.writeBest = true) (ret : GridRet F)
    (writes : List (F × Options F)) (h : SearchWrites fuel E nfold ret writes) (he : ret.err = false) :
    writes.map Prod.fst = ret.accs := by
  obtain ⟨inits, hi, hr, rfl⟩ := h.inits
  have hk : Kept E (fun s : SearchState F => s.writes.map Prod.fst = s.accs) := by
    constructor
    · intro s s' h1 h2 h3 h4 h5 h
      simp only [h1, h2, h3, h4, h5] at *
      simpa using h
    · intro s t tprev h
      unfold compareAccs
      simp only
      split
      · exact h
      · split
        · exact h
        · split
          · simp only [hw, if_true, List.map_append, List.map_cons, List.map_nil]
            congr 1
          · exact h
  have hk := searchAll_kept hk nfold inits searchStart rfl
  unfold searchEnd
  cases hs : searchAll E nfold inits searchStart with
  | mk s b =>
    rw [hs] at hk hr
    subst hr
    cases b with
    | false => cases he
    | true => exact hk

/-- the search of `C57_violated`, with `WriteBest` -/
def peakSearchW : SearchEnv (Exact ℚ) := { peakSearch with o := { peakSearch.o with writeBest := true } }

/-- **C91 violated for the gradient searches (with C57)**: the file holds the model of the options with accuracy 90, but
the options that are returned are others, with accuracy 50. -/
theorem C91_violated_gradient : ∃ ret O' O writes,
    SearchWrites 3 peakSearchW 5 ret writes ∧ ret.acc = .fin 90 ∧ ret.opts = some O' ∧ peakAcc O' = 50 ∧
    writes = [(ret.acc, O)] ∧ peakAcc O = 90 ∧ (∀ k nfold O, peakSearchW.cv k nfold O = ⟨false, .fin (peakAcc O)⟩) := by
  have h1 : ((gradientGrid 3 peakSearchW 5).map fun r => (r.acc, r.opts.map peakAcc)) = some (.fin 90, some 50) := by
    decide +kernel
  have h2 : ((gradientWrites 3 peakSearchW 5).map fun w => w.map fun p => (p.1, peakAcc p.2)) = some [(.fin 90, 90)] := by
    decide +kernel
  obtain ⟨ret, hr, h1⟩ := Option.map_eq_some_iff.1 h1
  obtain ⟨w, hw, h2⟩ := Option.map_eq_some_iff.1 h2
  simp only [Prod.mk.injEq] at h1
  obtain ⟨O', hO', h3⟩ := Option.map_eq_some_iff.1 h1.2
  cases w with
  | nil => simp at h2
  | cons p w =>
    cases w with
    | cons => simp at h2
    | nil =>
      simp only [List.map_cons, List.map_nil, List.cons.injEq, Prod.mk.injEq, and_true] at h2
      refine ⟨ret, O', p.2, [p], Or.inl ⟨hr, hw⟩, h1.1, hO', h3, ?_, h2.2, fun _ _ _ => rfl⟩
      rw [h1.1, ← h2.1]

/-! ### cases that meet the hypotheses -/

/-- C91 for `Grid`: a grid of one point, whose cross-validation reports 90: one call of `writeBest` -/
example (cv : Nat → Options F64 → Run (CVOut F64))
    (hcv : ∀ j O, cv j O = pure ⟨[.err false, .acc (.fin 90), .opt (some O)], .fin 90, false, some O⟩) :
    ∃ O, gridWithW cv 2 { onePoint 1 with writeBest := true } =
      pure (⟨.fin 90, [], some O, false⟩, [(.fin 90, O)]) := by
  obtain ⟨O, hO, _⟩ := onePoint_points 1
  refine ⟨O, ?_⟩
  unfold gridWithW
  have hO' : gridPoints 2 { onePoint 1 with writeBest := true } = some [O] := hO
  rw [if_neg (by show ¬ ((1 : Int) < 0); decide), hO', run_bind_some (show Run.ofOption (some [O]) = pure [O] from rfl)]
  rw [run_bind_some (a := (some (.fin 90, some O), [(.fin 90, O)]))]
  · rfl
  · simp only [List.mapIdx_cons, List.mapIdx_nil, hcv]
    have h0 : ((XF.fin 90 : F64) <. zero) = false := by decide +kernel
    have h1 : gt (XF.fin 90 : F64) zero = true := by decide +kernel
    unfold gridLoopW
    rw [if_neg (by show ¬ ((1 : Int) ≤ 0); decide)]
    simp only [List.nil_append, List.length_singleton]
    rw [if_pos (by rfl)]
    rw [run_bind_some (a := [[CVMsg.err false, CVMsg.acc (.fin 90), CVMsg.opt (some O)]])
      (show List.mapM id [ExceptT.map CVOut.sent _] = _ from rfl)]
    rw [run_bind_some (a := (some (.fin 90, some O), [(.fin 90, O)]))]
    · rfl
    · unfold rescueConcValuesW
      rw [run_bind_some (a := (some (.fin 90, some O), [(.fin 90, O)]))]
      · rfl
      · unfold rescueOneW updateBestW
        simp [h0, h1]

/-- whether all numbers of the tree are finite -/
def Tree.allFinB : Tree F → Bool
  | .nil => true
  | .node i l r => isFin i.threshold && (isFin i.value && (isFin i.bestScoreSoFar || !i.xgb && isPosInf i.bestScoreSoFar)) &&
      l.allFinB && r.allFinB

/-- whether there is a node -/
def Tree.some : Tree F → Bool
  | .nil => false
  | .node .. => true

theorem Tree.allFinB_spec : ∀ t : Tree F, t.allFinB = true → t.AllFin
  | .nil, _ => trivial
  | .node i l r, h => by
    simp only [Tree.allFinB, Bool.and_eq_true, Bool.or_eq_true, Bool.not_eq_true'] at h
    exact ⟨⟨h.1.1.1, h.1.1.2.1, h.1.1.2.2⟩, l.allFinB_spec h.1.2, r.allFinB_spec h.2⟩

/-- C91: training a model on a small data set and writing it succeed -/
example (J : JCodec F64) : ∃ after text, writeFiles J (fun _ => one) GoSort.ins mixData (fun _ _ => .fin 0) (fun _ => none)
      [(.fin 90, plainOptions)] = .ok after ∧ after 90 = some (some text) := by
  have h : (plainRun (fun _ => .fin 0) mixData plainOptions).map (fun M =>
      isFin M.learningRate && isFin M.baseScore && M.b.all fun round => round.length ≤ M.classLabels.length &&
        round.all fun t => t.some && t.allFinB) = .ok true := by decide +kernel
  cases hM : plainRun (fun _ => .fin 0) mixData plainOptions with
  | error e => rw [hM] at h; cases h
  | ok M =>
    rw [hM] at h
    have h := Except.ok.inj h
    have hM' : newMultiClass (fun _ => one) GoSort.ins (fun _ => .fin 0) mixData plainOptions = .ok M := hM
    simp only [Bool.and_eq_true, List.all_eq_true, decide_eq_true_eq] at h
    obtain ⟨t, ht⟩ := C17_writes J (by decide +kernel) M "softmax".toList
      ⟨h.1.1, h.1.2, fun round hr t ht => ⟨(fun he => by
        have := ((h.2 round hr).2 t ht).1
        rw [he] at this
        cases this), t.allFinB_spec ((h.2 round hr).2 t ht).2⟩, fun round hr => (h.2 round hr).1⟩
    refine ⟨fun k => if k = toInt (XF.fin 90 : F64) then some (some t) else none, t, ?_, ?_⟩
    · simp only [writeFiles, writeBest, hM', ht, bind, Except.bind, pure, Except.pure]
    · have : toInt (XF.fin 90 : F64) = 90 := by decide +kernel
      simp [this]

end Boo
