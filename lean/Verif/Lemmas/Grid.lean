import Verif.Lemmas.CV

/-!
# Lemmas about grid search: the batches and the goroutines
-/

namespace Boo
open GoFloat
set_option linter.unusedSectionVars false
variable {F : Type} [GoFloat F]

/-! ### batches -/

/-- what a worker that ends without error sends -/
def okMsgs (a : F) (o : Option (Options F)) : List (CVMsg F) := [.err false, .acc a, .opt o]

/-- the best of a list of results -/
def bestOf (best : BestAcc F) (l : List (F × Option (Options F))) : BestAcc F :=
  l.foldl (fun b r => updateBest b r.1 r.2) best

theorem rescue_ok (l : List (F × Option (Options F))) (h : ∀ r ∈ l, (r.1 <. zero) = false) (best : BestAcc F) :
    rescueConcValues (l.map fun r => okMsgs r.1 r.2) best = pure (some (bestOf best l)) := by
  induction l generalizing best with
  | nil => rfl
  | cons r l ih =>
    have hr := h r List.mem_cons_self
    rw [List.map_cons]
    unfold rescueConcValues
    have : rescueOne best (okMsgs r.1 r.2) = pure (some (updateBest best r.1 r.2)) := by
      unfold rescueOne okMsgs
      simp [hr]
    rw [run_bind_some this]
    exact ih (fun r hr => h r (List.mem_cons_of_mem _ hr)) _

theorem mapM_id_pure {α : Type} (l : List α) : (l.map (pure : α → Run α)).mapM id = pure l := by
  induction l with
  | nil => rfl
  | cons a l ih =>
    rw [List.map_cons, List.mapM_cons]
    simp only [id, pure_bind, ih]

theorem gridLoop_tail (n : Nat) (tail pending : List (Run (List (CVMsg F)))) (best : BestAcc F)
    (h : pending.length + tail.length < n) : gridLoop n tail pending best = pure (some best) := by
  induction tail generalizing pending with
  | nil => rfl
  | cons p ps ih =>
    simp only [List.length_cons] at h
    unfold gridLoop
    rw [if_neg (by omega)]
    simp only [List.length_append, List.length_cons, List.length_nil]
    rw [if_neg (by omega)]
    exact ih _ (by simp; omega)

/-- what happens after the batch -/
def afterBatch (n : Nat) (rest : List (Run (List (CVMsg F)))) : Option (BestAcc F) → Run (Option (BestAcc F))
  | none => pure none
  | some best => gridLoop n rest [] best

theorem gridLoop_batch (n : Nat) (a rest pending : List (Run (List (CVMsg F)))) (best : BestAcc F) (ha : a ≠ [])
    (h : pending.length + a.length = n) : gridLoop n (a ++ rest) pending best =
      (do let ws ← (pending ++ a).mapM id
          let r ← rescueConcValues ws best
          afterBatch n rest r) := by
  induction a generalizing pending with
  | nil => exact absurd rfl ha
  | cons p ps ih =>
    simp only [List.length_cons] at h
    rw [List.cons_append]
    unfold gridLoop
    rw [if_neg (by omega)]
    simp only [List.length_append, List.length_cons, List.length_nil]
    by_cases he : ps = []
    · subst he
      simp only [List.length_nil] at h
      rw [if_pos (by omega), List.nil_append]
      congr 1
    · have : 0 < ps.length := List.length_pos_iff.2 he
      rw [if_neg (by omega), ih (pending ++ [p]) he (by simp; omega), List.append_assoc]
      rfl

theorem gridLoop_ok (n : Nat) (hn : 0 < n) (tail : List (Run (List (CVMsg F)))) (ht : tail.length < n) : ∀ (m : Nat)
    (l : List (F × Option (Options F))), l.length = n * m → (∀ r ∈ l, (r.1 <. zero) = false) → ∀ best : BestAcc F,
    gridLoop n ((l.map fun r => pure (okMsgs r.1 r.2)) ++ tail) [] best = pure (some (bestOf best l)) := by
  intro m
  induction m with
  | zero =>
    intro l hl _ best
    have : l = [] := List.length_eq_zero_iff.1 (by rw [hl, Nat.mul_zero])
    subst this
    exact gridLoop_tail n tail [] best (by simpa using ht)
  | succ m ih =>
    intro l hl h0 best
    have hsplit : l = l.take n ++ l.drop n := (List.take_append_drop n l).symm
    have hlen : (l.take n).length = n := by
      rw [List.length_take, hl, Nat.mul_succ]; omega
    have hlen2 : (l.drop n).length = n * m := by
      rw [List.length_drop, hl, Nat.mul_succ]; omega
    rw [hsplit, List.map_append, List.append_assoc, gridLoop_batch]
    · rw [List.nil_append]
      have hm : (List.map (fun r : F × Option (Options F) => (pure (okMsgs r.1 r.2) : Run (List (CVMsg F)))) (l.take n)) =
          ((l.take n).map fun r => okMsgs r.1 r.2).map pure := by rw [List.map_map]; rfl
      rw [hm, mapM_id_pure]
      rw [run_bind_some rfl, rescue_ok _ (fun r hr => h0 r (List.mem_of_mem_take hr)), run_bind_some rfl]
      show gridLoop _ _ _ _ = _
      rw [ih _ hlen2 (fun r hr => h0 r (List.mem_of_mem_drop hr))]
      unfold bestOf
      rw [← List.foldl_append]
    · intro h
      have := congrArg List.length h
      rw [List.length_map, hlen] at this
      simp at this
      omega
    · rw [List.length_map, hlen]; simp

/-- what the fold finds -/
theorem bestOf_spec [GoFloatOrd F] (l : List (F × Option (Options F))) (best : BestAcc F) :
    (bestOf best l = best ∨ (bestOf best l ∈ l ∧ (best.1 <. (bestOf best l).1) = true)) ∧
    (∀ r ∈ l, ((bestOf best l).1 <. r.1) = false) := by
  induction l generalizing best with
  | nil => exact ⟨Or.inl rfl, by simp⟩
  | cons r l ih =>
    have hb : bestOf best (r :: l) = bestOf (updateBest best r.1 r.2) l := rfl
    rw [hb]
    obtain ⟨h1, h2⟩ := ih (updateBest best r.1 r.2)
    by_cases hgt : (best.1 <. r.1) = true
    · have hu : updateBest best r.1 r.2 = r := by
        unfold updateBest gt; rw [if_pos hgt]
      rw [hu] at h1 h2 ⊢
      constructor
      · right
        rcases h1 with h1 | ⟨h1, h3⟩
        · rw [h1]; exact ⟨List.mem_cons_self, hgt⟩
        · exact ⟨List.mem_cons_of_mem _ h1, GoFloatOrd.lt_trans _ _ _ hgt h3⟩
      · intro r' hr'
        rcases List.mem_cons.1 hr' with rfl | hr'
        · rcases h1 with h1 | ⟨_, h3⟩
          · rw [h1]; exact GoFloatOrd.lt_irrefl _
          · by_contra hlt
            have := GoFloatOrd.lt_trans _ _ _ h3 (by simpa using hlt)
            rw [GoFloatOrd.lt_irrefl] at this
            cases this
        · exact h2 r' hr'
    · have hu : updateBest best r.1 r.2 = best := by
        unfold updateBest gt; rw [if_neg hgt]
      rw [hu] at h1 h2 ⊢
      constructor
      · rcases h1 with h1 | ⟨h1, h3⟩
        · exact Or.inl h1
        · exact Or.inr ⟨List.mem_cons_of_mem _ h1, h3⟩
      · intro r' hr'
        rcases List.mem_cons.1 hr' with rfl | hr'
        · rcases h1 with h1 | ⟨_, h3⟩
          · rw [h1]; simpa using hgt
          · by_contra hlt
            exact hgt (GoFloatOrd.lt_trans _ _ _ h3 (by simpa using hlt))
        · exact h2 r' hr'

/-! ### goroutines -/

/-- `rescueOne` after the error was received -/
def rescueAcc (best : BestAcc F) : List (CVMsg F) → Run (Option (BestAcc F))
  | .acc a :: rest =>
      if a <. zero then pure none else match rest with
      | .opt o :: _ => pure (some (updateBest best a o))
      | _ => Run.ofOption none
  | _ => Run.ofOption none

/-- `rescueOne` after the accuracy was received -/
def rescueOpt (best : BestAcc F) (a : F) : List (CVMsg F) → Run (Option (BestAcc F))
  | .opt o :: _ => pure (some (updateBest best a o))
  | _ => Run.ofOption none

/-- the rest of the batch -/
def restOfBatch (ws : List (List (CVMsg F))) : Option (BestAcc F) → Run (Option (BestAcc F))
  | none => pure none
  | some best => rescueConcValues ws best

/-- the messages of the workers from `k` on -/
def GridState.msgs (s : GridState F) (k : Nat) : List (List (CVMsg F)) := (s.workers.drop k).map Worker.left

/-- what remains to be sent by worker `k` -/
def GridState.left (s : GridState F) (k : Nat) : List (CVMsg F) := ((s.workers[k]?).map Worker.left).getD []

/-- What the sequential program returns from this state on. -/
def seqRest (n : Nat) (s : GridState F) : Run (Option (BestAcc F)) :=
  match s.main with
  | .launching b => gridLoop n (s.todo.map pure) ((s.msgs s.base).map pure) b
  | .waitErr i b => do
    let r ← rescueConcValues (s.msgs (s.base + i)) b
    afterBatch n (s.todo.map pure) r
  | .waitAcc i b => do
    let r ← rescueAcc b (s.left (s.base + i))
    let r ← restOfBatch (s.msgs (s.base + i + 1)) r
    afterBatch n (s.todo.map pure) r
  | .waitOpt i a b => do
    let r ← rescueOpt b a (s.left (s.base + i))
    let r ← restOfBatch (s.msgs (s.base + i + 1)) r
    afterBatch n (s.todo.map pure) r
  | .returned r => pure r

/-- where the caller is in the batch -/
structure GridInv (n : Nat) (s : GridState F) : Prop where
  base : s.base ≤ s.workers.length
  launching : ∀ b, s.main = .launching b → s.workers.length - s.base < n
  waitErr : ∀ i b, s.main = .waitErr i b → i < n ∧ s.workers.length = s.base + n
  waitAcc : ∀ i b, s.main = .waitAcc i b → i < n ∧ s.workers.length = s.base + n
  waitOpt : ∀ i a b, s.main = .waitOpt i a b → i < n ∧ s.workers.length = s.base + n

theorem rescueOne_cons (best : BestAcc F) (e : Bool) (rest : List (CVMsg F)) :
    rescueOne best (.err e :: rest) = if e then pure none else rescueAcc best rest := by
  unfold rescueOne
  cases e
  · simp only [Bool.false_eq_true, if_false]
    unfold rescueAcc
    cases rest with
    | nil => rfl
    | cons m ms => cases m <;> rfl
  · rfl

theorem rescue_cons (w : List (CVMsg F)) (ws : List (List (CVMsg F))) (best : BestAcc F) :
    rescueConcValues (w :: ws) best = (do let r ← rescueOne best w; restOfBatch ws r) := by
  conv_lhs => unfold rescueConcValues
  congr 1

theorem msgs_set_same {s : GridState F} {k j : Nat} {w : Worker F} {left : List (CVMsg F)} {b c : Bool}
    (h : s.workers[k]? = some ⟨b, left⟩) (hw : w = ⟨c, left⟩) :
    ((s.workers.set k w).drop j).map Worker.left = (s.workers.drop j).map Worker.left := by
  subst hw
  apply List.ext_getElem?
  intro i
  simp only [List.getElem?_map, List.getElem?_drop, List.getElem?_set]
  split
  · rename_i hk
    split
    · rw [← hk, h]; rfl
    · rename_i hl
      rw [← hk, h]
      exact absurd (List.getElem?_eq_some_iff.1 h).1 (by omega)
  · rfl

theorem msgs_set_lt {s : GridState F} {k j : Nat} (w : Worker F) (h : k < j) :
    (s.workers.set k w).drop j = s.workers.drop j := by
  rw [List.drop_set_of_lt h]

theorem left_set {s : GridState F} {k : Nat} {w w' : Worker F} (h : s.workers[k]? = some w') :
    (((s.workers.set k w)[k]?).map Worker.left).getD [] = w.left := by
  rw [List.getElem?_set_self (List.getElem?_eq_some_iff.1 h).1]
  rfl

theorem left_set_same {s : GridState F} {k j : Nat} {left : List (CVMsg F)} {b c : Bool}
    (h : s.workers[k]? = some ⟨b, left⟩) :
    (((s.workers.set k ⟨c, left⟩)[j]?).map Worker.left).getD [] = ((s.workers[j]?).map Worker.left).getD [] := by
  rw [List.getElem?_set]
  split
  · rename_i hk
    subst hk
    rw [h, if_pos (List.getElem?_eq_some_iff.1 h).1]
    rfl
  · rfl

/-- every step keeps the invariant and what the sequential program returns -/
theorem gridStep_inv {n : Nat} (hn : 0 < n) {s s' : GridState F} (h : GridStep n s s') (hi : GridInv n s) :
    GridInv n s' ∧ seqRest n s' = seqRest n s := by
  cases h with
  | launch best p ps hm ht hc =>
    have hb := hi.base
    constructor
    · constructor
      · simp; omega
      · intro b hb'
        simp only at hb' ⊢
        split at hb'
        · cases hb'
        · rename_i hne
          simp only [List.length_append, List.length_cons, List.length_nil]
          omega
      · intro i b hb'
        simp only at hb' ⊢
        split at hb'
        · rename_i he
          simp only [GridMain.waitErr.injEq] at hb'
          simp only [List.length_append, List.length_cons, List.length_nil]
          omega
        · cases hb'
      · intro i b hb'
        simp only at hb'
        split at hb' <;> cases hb'
      · intro i a b hb'
        simp only at hb'
        split at hb' <;> cases hb'
    · have hmsg : ((s.workers ++ [(⟨true, p⟩ : Worker F)]).drop s.base).map Worker.left = s.msgs s.base ++ [p] := by
        rw [List.drop_append_of_le_length hb, List.map_append]
        rfl
      have hlen : (s.msgs s.base).length = s.workers.length - s.base := by
        unfold GridState.msgs; simp
      have hR : seqRest n s = gridLoop n (s.todo.map pure) ((s.msgs s.base).map pure) best := by
        unfold seqRest; rw [hm]
      rw [hR, ht, List.map_cons]
      by_cases he : s.workers.length + 1 - s.base = n
      · rw [if_pos he]
        have hL : seqRest n { s with todo := ps, workers := s.workers ++ [⟨true, p⟩], main := GridMain.waitErr 0 best } =
            (do let r ← rescueConcValues (s.msgs s.base ++ [p]) best
                afterBatch n (ps.map pure) r) := by
          rw [← hmsg]; rfl
        rw [hL]
        have := gridLoop_batch n [(pure p : Run (List (CVMsg F)))] (ps.map pure) ((s.msgs s.base).map pure) best (by simp)
          (by simp [hlen]; omega)
        rw [List.singleton_append] at this
        rw [this]
        have h2 : (s.msgs s.base).map (pure : _ → Run (List (CVMsg F))) ++ [pure p] = (s.msgs s.base ++ [p]).map pure := by
          simp
        rw [h2, mapM_id_pure, run_bind_some rfl]
      · rw [if_neg he]
        have hL : seqRest n { s with todo := ps, workers := s.workers ++ [⟨true, p⟩], main := GridMain.launching best } =
            gridLoop n (ps.map pure) ((s.msgs s.base ++ [p]).map pure) best := by
          rw [← hmsg]; rfl
        rw [hL]
        conv_rhs => unfold gridLoop
        simp only [List.length_map, List.length_append, List.length_cons, List.length_nil, hlen]
        rw [if_neg (by omega), if_neg (by omega), List.map_append]
        rfl
  | finish best hm ht =>
    constructor
    · constructor
      · exact hi.base
      all_goals intros; rename_i h; cases h
    · show pure (some best) = _
      unfold seqRest
      rw [hm, ht]
      rfl
  | compute k left hk =>
    constructor
    · constructor
      · simp only [List.length_set]; exact hi.base
      · simp only [List.length_set]; exact hi.launching
      · simp only [List.length_set]; exact hi.waitErr
      · simp only [List.length_set]; exact hi.waitAcc
      · simp only [List.length_set]; exact hi.waitOpt
    · unfold seqRest GridState.msgs GridState.left
      simp only [msgs_set_same hk rfl, left_set_same hk]
  | recvErr i best e left hm hk =>
    obtain ⟨h1, h2⟩ := hi.waitErr i best hm
    constructor
    · constructor
      · simp only [List.length_set]; exact hi.base
      all_goals
        intros; rename_i hh
        simp only at hh
        split at hh <;> cases hh
      · simp only [List.length_set]; exact ⟨h1, h2⟩
    · have hR : seqRest n s = (do
          let r ← rescueOne best (.err e :: left)
          let r ← restOfBatch (s.msgs (s.base + i + 1)) r
          afterBatch n (s.todo.map pure) r) := by
        unfold seqRest
        rw [hm]
        have : s.msgs (s.base + i) = (.err e :: left) :: s.msgs (s.base + i + 1) := by
          unfold GridState.msgs
          obtain ⟨hl, hg⟩ := List.getElem?_eq_some_iff.1 hk
          rw [List.drop_eq_getElem_cons hl, hg]
          rfl
        simp only [this, rescue_cons, bind_assoc]
      rw [hR, rescueOne_cons]
      cases e with
      | true => rfl
      | false =>
        simp only [Bool.false_eq_true, if_false]
        unfold seqRest GridState.msgs GridState.left
        simp only [left_set hk, msgs_set_lt _ (show s.base + i < s.base + i + 1 by omega)]
  | recvAcc i best a left hm hk =>
    obtain ⟨h1, h2⟩ := hi.waitAcc i best hm
    constructor
    · constructor
      · simp only [List.length_set]; exact hi.base
      all_goals
        intros; rename_i hh
        simp only at hh
        split at hh <;> cases hh
      · simp only [List.length_set]; exact ⟨h1, h2⟩
    · have hR : seqRest n s = (do
          let r ← rescueAcc best (.acc a :: left)
          let r ← restOfBatch (s.msgs (s.base + i + 1)) r
          afterBatch n (s.todo.map pure) r) := by
        unfold seqRest
        rw [hm]
        have : s.left (s.base + i) = .acc a :: left := by
          unfold GridState.left
          rw [hk]; rfl
        simp only [this]
      rw [hR]
      have hA : rescueAcc best (.acc a :: left) = if a <. zero then pure none else rescueOpt best a left := by
        unfold rescueAcc rescueOpt
        rfl
      rw [hA]
      by_cases hz : (a <. zero) = true
      · rw [if_pos hz, if_pos hz]
        rfl
      · rw [if_neg hz, if_neg hz]
        unfold seqRest GridState.msgs GridState.left
        simp only [left_set hk, msgs_set_lt _ (show s.base + i < s.base + i + 1 by omega)]
  | recvOpt i best a o left hm hk =>
    obtain ⟨h1, h2⟩ := hi.waitOpt i a best hm
    have hR : seqRest n s = (do
          let r ← restOfBatch (s.msgs (s.base + i + 1)) (some (updateBest best a o))
          afterBatch n (s.todo.map pure) r) := by
        unfold seqRest
        rw [hm]
        have : s.left (s.base + i) = .opt o :: left := by
          unfold GridState.left
          rw [hk]; rfl
        simp only [this]
        rfl
    unfold afterWorker
    by_cases he : i + 1 = n
    · rw [if_pos he]
      constructor
      · constructor
        · exact le_refl _
        all_goals
          intros; rename_i hh
          simp only at hh
          cases hh
        · simp; omega
      · rw [hR]
        have : s.msgs (s.base + i + 1) = [] := by
          unfold GridState.msgs
          rw [List.drop_eq_nil_of_le (by omega)]
          rfl
        rw [this]
        unfold seqRest GridState.msgs
        simp only
        rw [List.drop_eq_nil_of_le (by simp)]
        rfl
    · rw [if_neg he]
      constructor
      · constructor
        · simp only [List.length_set]; exact hi.base
        all_goals
          intros; rename_i hh
          simp only at hh
          cases hh
        · simp only [List.length_set]; exact ⟨by omega, h2⟩
      · rw [hR]
        unfold seqRest GridState.msgs
        simp only
        rw [show s.base + (i + 1) = s.base + i + 1 by omega, msgs_set_lt _ (show s.base + i < s.base + i + 1 by omega)]
        rfl

/-- an error, an accuracy and options, in this order -/
def IsTriple (p : List (CVMsg F)) : Prop := ∃ e a o, p = [.err e, .acc a, .opt o]

/-- what is known of worker `k`, of which the cross-validation sends `p` -/
def Shape (s : GridState F) (k : Nat) (w : Worker F) (p : List (CVMsg F)) : Prop :=
  match s.main with
  | .launching _ => if k < s.base then w = ⟨false, []⟩ else w.left = p
  | .waitErr i _ => if k < s.base + i then w = ⟨false, []⟩ else w.left = p
  | .waitAcc i _ => if k < s.base + i then w = ⟨false, []⟩ else if k = s.base + i then w = ⟨false, p.drop 1⟩ else w.left = p
  | .waitOpt i _ _ => if k < s.base + i then w = ⟨false, []⟩ else if k = s.base + i then w = ⟨false, p.drop 2⟩ else w.left = p
  | .returned (some _) => if k < s.base then w = ⟨false, []⟩ else w.left = p
  | .returned none => True

structure GridShape (n : Nat) (msgs : List (List (CVMsg F))) (s : GridState F) : Prop where
  todo : s.todo = msgs.drop s.workers.length
  len : s.workers.length ≤ msgs.length
  shape : ∀ (k : Nat) w p, s.workers[k]? = some w → msgs[k]? = some p → Shape s k w p
  dvd : n ∣ s.base
  ended : ∀ b, s.main = .returned (some b) → s.todo = [] ∧ s.workers.length - s.base < n

theorem gridStep_shape {n : Nat} {msgs : List (List (CVMsg F))} (hmsgs : ∀ p ∈ msgs, IsTriple p)
    {s s' : GridState F} (h : GridStep n s s') (hi : GridInv n s) (hs : GridShape n msgs s) : GridShape n msgs s' := by
  cases h with
  | launch best p ps hm ht hc =>
    have hlt : s.workers.length < msgs.length := by
      by_contra hge
      have := hs.todo
      rw [ht, List.drop_eq_nil_of_le (by omega)] at this
      cases this
    have hd := hs.todo
    rw [ht, List.drop_eq_getElem_cons hlt, List.cons.injEq] at hd
    obtain ⟨hp, hps⟩ := hd
    constructor
    · simp [hps]
    · simp; omega
    · intro k w q hk hq
      have hold : ∀ (k : Nat) w, s.workers[k]? = some w → msgs[k]? = some q →
          if k < s.base then w = ⟨false, []⟩ else w.left = q := by
        intro k w hk hq
        have := hs.shape k w q hk hq
        unfold Shape at this
        rwa [hm] at this
      have hnew : if k < s.base then w = ⟨false, []⟩ else w.left = q := by
        simp only [List.getElem?_append] at hk
        split at hk
        · exact hold k w hk hq
        · rename_i hge
          have hb := hi.base
          have hk0 : k - s.workers.length = 0 := by
            have := (List.getElem?_eq_some_iff.1 hk).1
            simpa using this
          rw [hk0] at hk
          simp only [List.getElem?_cons_zero, Option.some.injEq] at hk
          have hke : k = s.workers.length := by omega
          subst hke
          rw [if_neg (by omega), ← hk, hp]
          rw [List.getElem?_eq_getElem hlt, Option.some.injEq] at hq
          exact hq
      unfold Shape
      simp only
      split
      · rename_i heq
        split at heq
        · cases heq
        · exact hnew
      · rename_i heq
        split at heq
        · simp only [GridMain.waitErr.injEq] at heq
          rw [← heq.1]
          exact hnew
        · cases heq
      all_goals
        rename_i heq
        split at heq <;> cases heq
    · exact hs.dvd
    · intro b hb
      simp only at hb
      split at hb <;> cases hb
  | finish best hm ht =>
    have hl := hi.launching best hm
    constructor
    · exact hs.todo
    · exact hs.len
    · intro k w q hk hq
      have := hs.shape k w q hk hq
      unfold Shape at this ⊢
      rw [hm] at this
      exact this
    · exact hs.dvd
    · intro b _
      exact ⟨ht, hl⟩
  | compute k left hk =>
    have hset : ∀ (j : Nat) w p, (s.workers.set k ⟨false, left⟩)[j]? = some w → msgs[j]? = some p →
        ∃ w', s.workers[j]? = some w' ∧ w'.left = w.left ∧ (w' = w ∨ (w'.busy = true)) := by
      intro j w p hj hq
      rw [List.getElem?_set] at hj
      split at hj
      · rename_i hkj
        subst hkj
        split at hj
        · simp only [Option.some.injEq] at hj
          exact ⟨_, hk, by rw [← hj], Or.inr rfl⟩
        · cases hj
      · exact ⟨w, hj, rfl, Or.inl rfl⟩
    constructor
    · simp only [List.length_set]; exact hs.todo
    · simp only [List.length_set]; exact hs.len
    · intro j w q hj hq
      obtain ⟨w', h1, h2, h3⟩ := hset j w q hj hq
      have := hs.shape j w' q h1 hq
      rcases h3 with rfl | h3
      · exact this
      · unfold Shape at this ⊢
        simp only
        split
        · rename_i hm
          rw [hm] at this
          simp only at this
          split at this
          · rw [this] at h3; cases h3
          · rename_i hk'; rw [if_neg hk', ← h2]; exact this
        · rename_i hm
          rw [hm] at this
          simp only at this
          split at this
          · rw [this] at h3; cases h3
          · rename_i hk'; rw [if_neg hk', ← h2]; exact this
        · rename_i hm
          rw [hm] at this
          simp only at this
          split at this
          · rw [this] at h3; cases h3
          · rename_i hk'
            split at this
            · rw [this] at h3; cases h3
            · rename_i hk2; rw [if_neg hk', if_neg hk2, ← h2]; exact this
        · rename_i hm
          rw [hm] at this
          simp only at this
          split at this
          · rw [this] at h3; cases h3
          · rename_i hk'
            split at this
            · rw [this] at h3; cases h3
            · rename_i hk2; rw [if_neg hk', if_neg hk2, ← h2]; exact this
        · rename_i hm
          rw [hm] at this
          simp only at this
          split at this
          · rw [this] at h3; cases h3
          · rename_i hk'; rw [if_neg hk', ← h2]; exact this
        · trivial
    · exact hs.dvd
    · simp only [List.length_set]; exact hs.ended
  | recvErr i best e left hm hk =>
    constructor
    · simp only [List.length_set]; exact hs.todo
    · simp only [List.length_set]; exact hs.len
    · intro j w q hj hq
      cases e with
      | true => exact trivial
      | false =>
        unfold Shape
        simp only [Bool.false_eq_true, if_false]
        rw [List.getElem?_set] at hj
        split at hj
        · rename_i hkj
          subst hkj
          split at hj
          · simp only [Option.some.injEq] at hj
            rw [if_neg (by omega), if_pos rfl, ← hj]
            have := hs.shape _ _ q hk hq
            unfold Shape at this
            rw [hm] at this
            simp only at this
            rw [if_neg (by omega)] at this
            rw [← this]
            rfl
          · cases hj
        · rename_i hkj
          have := hs.shape _ _ q hj hq
          unfold Shape at this
          rw [hm] at this
          simp only at this
          split at this
          · rename_i hlt; rw [if_pos hlt]; exact this
          · rename_i hlt; rw [if_neg hlt, if_neg (by omega)]; exact this
    · exact hs.dvd
    · intro b hb
      simp only at hb
      split at hb <;> cases hb
  | recvAcc i best a left hm hk =>
    constructor
    · simp only [List.length_set]; exact hs.todo
    · simp only [List.length_set]; exact hs.len
    · intro j w q hj hq
      unfold Shape
      simp only
      by_cases ha : (a <. zero) = true
      · rw [if_pos ha]
        exact trivial
      · rw [if_neg ha]
        simp only
        rw [List.getElem?_set] at hj
        split at hj
        · rename_i hkj
          subst hkj
          split at hj
          · simp only [Option.some.injEq] at hj
            rw [if_neg (by omega), if_pos rfl, ← hj]
            have := hs.shape _ _ q hk hq
            unfold Shape at this
            rw [hm] at this
            simp only at this
            rw [if_neg (by omega), if_pos trivial, Worker.mk.injEq] at this
            have h2 := congrArg (List.drop 1) this.2
            rw [List.drop_drop] at h2
            rw [← h2]
            rfl
          · cases hj
        · rename_i hkj
          have := hs.shape _ _ q hj hq
          unfold Shape at this
          rw [hm] at this
          simp only at this
          split at this
          · rename_i hlt; rw [if_pos hlt]; exact this
          · rename_i hlt
            rw [if_neg (by omega)] at this
            rw [if_neg hlt, if_neg (by omega)]; exact this
    · exact hs.dvd
    · intro b hb
      simp only at hb
      split at hb <;> cases hb
  | recvOpt i best a o left hm hk =>
    obtain ⟨h1, h2⟩ := hi.waitOpt i a best hm
    have hcond : ∀ (j : Nat) w q, (s.workers.set (s.base + i) ⟨false, left⟩)[j]? = some w → msgs[j]? = some q →
        if j < s.base + i + 1 then w = ⟨false, []⟩ else w.left = q := by
      intro j w q hj hq
      rw [List.getElem?_set] at hj
      split at hj
      · rename_i hkj
        subst hkj
        split at hj
        · simp only [Option.some.injEq] at hj
          rw [if_pos (by omega), ← hj]
          have := hs.shape _ _ q hk hq
          unfold Shape at this
          rw [hm] at this
          simp only at this
          rw [if_neg (by omega), if_pos trivial, Worker.mk.injEq] at this
          obtain ⟨e, a', o', rfl⟩ := hmsgs q (List.mem_of_getElem? hq)
          simp only [List.drop_succ_cons, List.drop_zero, List.cons.injEq] at this
          rw [this.2.2]
        · cases hj
      · rename_i hkj
        have := hs.shape _ _ q hj hq
        unfold Shape at this
        rw [hm] at this
        simp only at this
        split at this
        · rename_i hlt; rw [if_pos (by omega)]; exact this
        · rename_i hlt
          rw [if_neg (by omega)] at this
          rw [if_neg (by omega)]; exact this
    unfold afterWorker
    by_cases he : i + 1 = n
    · rw [if_pos he]
      constructor
      · simp only [List.length_set]; exact hs.todo
      · simp only [List.length_set]; exact hs.len
      · intro j w q hj hq
        have := hcond j w q hj hq
        unfold Shape
        simp only [List.length_set]
        rw [h2, ← he]
        exact this
      · simp only [List.length_set, h2]
        exact (Nat.dvd_add_right hs.dvd).2 (dvd_refl n)
      · intro b hb; cases hb
    · rw [if_neg he]
      constructor
      · simp only [List.length_set]; exact hs.todo
      · simp only [List.length_set]; exact hs.len
      · intro j w q hj hq
        have := hcond j w q hj hq
        unfold Shape
        exact this
      · exact hs.dvd
      · intro b hb; cases hb

theorem gridStart_inv {n : Nat} (hn : 0 < n) (msgs : List (List (CVMsg F))) : GridInv n (gridStart msgs) := by
  constructor
  · exact le_refl _
  · intro b _; simpa [gridStart] using hn
  all_goals intros; rename_i h; cases h

theorem gridStart_shape (n : Nat) (msgs : List (List (CVMsg F))) : GridShape n msgs (gridStart msgs) := by
  constructor
  · rfl
  · simp [gridStart]
  · intro k w p hk; simp [gridStart] at hk
  · simp [gridStart]
  · intro b h; cases h

/-- a state in which no goroutine can make a step is one in which the caller has returned -/
theorem grid_progress {n : Nat} {msgs : List (List (CVMsg F))} (hmsgs : ∀ p ∈ msgs, IsTriple p) {s : GridState F}
    (hi : GridInv n s) (hs : GridShape n msgs s) (hstuck : ∀ s', ¬ GridStep n s s') :
    (∃ r, s.main = .returned r) ∧ ∀ w ∈ s.workers, w.busy = false := by
  have hbusy : ∀ w ∈ s.workers, w.busy = false := by
    intro w hw
    obtain ⟨k, hk⟩ := List.getElem?_of_mem hw
    cases hb : w.busy with
    | false => rfl
    | true =>
      obtain ⟨b, l⟩ := w
      simp only at hb
      subst hb
      exact absurd (GridStep.compute s k l hk) (hstuck _)
  refine ⟨?_, hbusy⟩
  have hget : ∀ k < s.workers.length, ∃ w p e a o, s.workers[k]? = some w ∧ msgs[k]? = some p ∧
      p = [.err e, .acc a, .opt o] ∧ w.busy = false := by
    intro k hk
    have hl := hs.len
    have h1 : s.workers[k]? = some s.workers[k] := List.getElem?_eq_getElem hk
    have h2 : msgs[k]? = some msgs[k] := List.getElem?_eq_getElem (by omega)
    obtain ⟨e, a, o, hp⟩ := hmsgs _ (List.mem_of_getElem? h2)
    exact ⟨_, _, e, a, o, h1, h2, hp, hbusy _ (List.mem_of_getElem? h1)⟩
  cases hm : s.main with
  | launching b =>
    cases ht : s.todo with
    | nil => exact absurd (GridStep.finish s b hm ht) (hstuck _)
    | cons p ps => exact absurd (GridStep.launch s b p ps hm ht (hi.launching b hm)) (hstuck _)
  | waitErr i b =>
    obtain ⟨h1, h2⟩ := hi.waitErr i b hm
    obtain ⟨w, p, e, a, o, hk, hp, rfl, hb⟩ := hget (s.base + i) (by omega)
    have := hs.shape _ _ _ hk hp
    unfold Shape at this
    rw [hm] at this
    simp only at this
    rw [if_neg (by omega)] at this
    obtain ⟨bz, l⟩ := w
    simp only at this hb
    subst this hb
    exact absurd (GridStep.recvErr s i b e _ hm hk) (hstuck _)
  | waitAcc i b =>
    obtain ⟨h1, h2⟩ := hi.waitAcc i b hm
    obtain ⟨w, p, e, a, o, hk, hp, rfl, hb⟩ := hget (s.base + i) (by omega)
    have := hs.shape _ _ _ hk hp
    unfold Shape at this
    rw [hm] at this
    simp only at this
    rw [if_neg (by omega), if_pos trivial] at this
    subst this
    exact absurd (GridStep.recvAcc s i b a _ hm hk) (hstuck _)
  | waitOpt i a' b =>
    obtain ⟨h1, h2⟩ := hi.waitOpt i a' b hm
    obtain ⟨w, p, e, a, o, hk, hp, rfl, hb⟩ := hget (s.base + i) (by omega)
    have := hs.shape _ _ _ hk hp
    unfold Shape at this
    rw [hm] at this
    simp only at this
    rw [if_neg (by omega), if_pos trivial] at this
    subst this
    exact absurd (GridStep.recvOpt s i b a' o _ hm hk) (hstuck _)
  | returned r => exact ⟨r, rfl⟩

/-! ### every schedule ends -/

/-- steps a worker can still make -/
def Worker.cost (w : Worker F) : Nat := w.left.length + if w.busy then 1 else 0

/-- a bound on the number of steps that remain -/
def GridState.cost (s : GridState F) : Nat :=
  (s.todo.map (fun p => p.length + 2)).sum + (s.workers.map Worker.cost).sum +
    match s.main with | .returned _ => 0 | _ => 1

theorem cost_sum_set (l : List (Worker F)) (k : Nat) (w w' : Worker F) (h : l[k]? = some w) :
    ((l.set k w').map Worker.cost).sum + w.cost = (l.map Worker.cost).sum + w'.cost := by
  induction l generalizing k with
  | nil => cases h
  | cons x xs ih =>
    cases k with
    | zero =>
      simp only [List.getElem?_cons_zero, Option.some.injEq] at h
      subst h
      simp only [List.set_cons_zero, List.map_cons, List.sum_cons]
      omega
    | succ k =>
      simp only [List.getElem?_cons_succ] at h
      simp only [List.set_cons_succ, List.map_cons, List.sum_cons]
      have := ih k h
      omega

theorem gridStep_cost {n : Nat} {s s' : GridState F} (h : GridStep n s s') : s'.cost < s.cost := by
  cases h with
  | launch best p ps hm ht hc =>
    unfold GridState.cost
    simp only [ht, hm, List.map_cons, List.sum_cons, List.map_append, List.sum_append, List.map_nil, List.sum_nil,
      Worker.cost]
    split
    · split <;> omega
    · split <;> omega
  | finish best hm ht =>
    unfold GridState.cost
    simp only [hm]
    omega
  | compute k left hk =>
    unfold GridState.cost
    have := cost_sum_set s.workers k _ ⟨false, left⟩ hk
    simp only [Worker.cost, if_true, Bool.false_eq_true, if_false] at this
    simp only [Worker.cost]
    omega
  | recvErr i best e left hm hk =>
    unfold GridState.cost
    have := cost_sum_set s.workers _ _ ⟨false, left⟩ hk
    simp only [Worker.cost, List.length_cons, Bool.false_eq_true, if_false] at this
    simp only [hm, Worker.cost]
    split <;> omega
  | recvAcc i best a left hm hk =>
    unfold GridState.cost
    have := cost_sum_set s.workers _ _ ⟨false, left⟩ hk
    simp only [Worker.cost, List.length_cons, Bool.false_eq_true, if_false] at this
    simp only [hm, Worker.cost]
    split <;> omega
  | recvOpt i best a o left hm hk =>
    have := cost_sum_set s.workers _ _ ⟨false, left⟩ hk
    simp only [Worker.cost, List.length_cons, Bool.false_eq_true, if_false] at this
    unfold afterWorker
    split
    · unfold GridState.cost
      simp only [hm, Worker.cost]
      omega
    · unfold GridState.cost
      simp only [hm, Worker.cost]
      omega

end Boo
