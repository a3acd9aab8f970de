import Verif.Spec.VerboseCV
import Verif.Lemmas.Grid
import Verif.Props.GradSearch
import Verif.Props.Grid

/-!
# Lemmas about what the searches print
-/

namespace Boo
open GoFloat
set_option linter.unusedSectionVars false
variable {F : Type} [GoFloat F] {η : Type}

/-! ### reading messages -/

@[simp] theorem headLines_append (a b : List (SearchMsg η F)) : headLines (a ++ b) = headLines a ++ headLines b := by
  unfold headLines; exact List.filterMap_append
@[simp] theorem bestLines_append (a b : List (SearchMsg η F)) : bestLines (a ++ b) = bestLines a ++ bestLines b := by
  unfold bestLines; exact List.filterMap_append
@[simp] theorem headLines_nil : headLines ([] : List (SearchMsg η F)) = [] := rfl
@[simp] theorem bestLines_nil : bestLines ([] : List (SearchMsg η F)) = [] := rfl
@[simp] theorem headLines_head (h : η) : headLines ([.head h] : List (SearchMsg η F)) = [h] := rfl
@[simp] theorem bestLines_head (h : η) : bestLines ([.head h] : List (SearchMsg η F)) = [] := rfl
@[simp] theorem headLines_best (a : F) (o : Option (Options F)) : headLines ([.best a o] : List (SearchMsg η F)) = [] := rfl
@[simp] theorem bestLines_best (a : F) (o : Option (Options F)) : bestLines ([.best a o] : List (SearchMsg η F)) = [(a, o)] := rfl

theorem snoc_eq_split {α : Type} {l before after : List α} {x y : α} (h : l ++ [x] = before ++ y :: after) :
    (after = [] ∧ before = l ∧ y = x) ∨ ∃ after', after = after' ++ [x] ∧ l = before ++ y :: after' := by
  rcases List.eq_nil_or_concat after with rfl | ⟨a', z, rfl⟩
  · left
    obtain ⟨h1, h2⟩ := List.append_inj' h rfl
    simp only [List.cons.injEq, and_true] at h2
    exact ⟨rfl, h1.symm, h2.symm⟩
  · right
    have h' : l ++ [x] = (before ++ y :: a') ++ [z] := by rw [h]; simp
    obtain ⟨h1, h2⟩ := List.append_inj' h' rfl
    simp only [List.cons.injEq, and_true] at h2
    subst h2
    exact ⟨a', by simp, h1⟩

theorem underHead_nil (Q : η → F → Option (Options F) → Prop) : UnderHead Q [] := by
  intro before a o after h
  simp at h

theorem UnderHead.head {Q : η → F → Option (Options F) → Prop} {ms : List (SearchMsg η F)} (hu : UnderHead Q ms) (h : η) :
    UnderHead Q (ms ++ [.head h]) := by
  intro before a o after e
  rcases snoc_eq_split e with ⟨_, _, h2⟩ | ⟨after', _, h2⟩
  · cases h2
  · exact hu _ _ _ _ h2

theorem UnderHead.best {Q : η → F → Option (Options F) → Prop} {ms : List (SearchMsg η F)} (hu : UnderHead Q ms) {h : η}
    (hl : (headLines ms).getLast? = some h) {a : F} {o : Option (Options F)} (hq : Q h a o) :
    UnderHead Q (ms ++ [.best a o]) := by
  intro before a' o' after e
  rcases snoc_eq_split e with ⟨_, rfl, h2⟩ | ⟨after', _, h2⟩
  · cases h2
    exact ⟨h, hl, hq⟩
  · exact hu _ _ _ _ h2

/-! ### loops -/

/-- the point, if it is one -/
def LoopItem.point? {α : Type} : LoopItem η α → Option α
  | .head _ => none
  | .point a => some a

/-- the points of the loops -/
def pointsOf {α : Type} (l : List (LoopItem η α)) : List α := l.filterMap LoopItem.point?

/-- the headers of the loops -/
def headsOf {α : Type} (l : List (LoopItem η α)) : List η :=
  l.filterMap fun i => match i with
    | .head h => some h
    | .point _ => none

theorem mapM_some_map {α β γ : Type} (f : α → Option β) (g : β → γ) (l : List α) :
    (l.mapM f).map (List.map g) = l.mapM fun a => (f a).map g := by
  induction l with
  | nil => rfl
  | cons a l ih =>
    rw [List.mapM_cons, List.mapM_cons, ← ih]
    cases h1 : f a with
    | none => simp
    | some b => cases h2 : l.mapM f <;> simp

theorem nest_filterMap {α β γ : Type} (g : β → Option γ) (l : Option (List α)) (f : α → Option (List β)) :
    (nest l f).map (List.filterMap g) = nest l fun a => (f a).map (List.filterMap g) := by
  unfold nest
  cases l with
  | none => rfl
  | some l =>
    simp only [Option.bind_eq_bind, Option.bind_some]
    rw [← mapM_some_map]
    cases l.mapM f with
    | none => rfl
    | some ls => simp [List.filterMap_flatten]

theorem segment_points {α : Type} (h : η) (pts : List α) :
    pointsOf (LoopItem.head h :: pts.map LoopItem.point) = pts := by
  unfold pointsOf
  rw [List.filterMap_cons]
  simp [List.filterMap_map, Function.comp_def, LoopItem.point?]

theorem segment_heads {α : Type} (h : η) (pts : List α) :
    headsOf (LoopItem.head h :: pts.map LoopItem.point) = [h] := by
  unfold headsOf
  rw [List.filterMap_cons]
  simp [List.filterMap_map, Function.comp_def]

theorem gridItems_points (fuel : Nat) (o : GridOptions F) : (gridItems fuel o).map pointsOf = gridPoints fuel o := by
  have e : gridPoints fuel o = nest (o.rounds.ints fuel) fun r => nest (o.minChildWeight.floats fuel) fun c =>
      gridPointsAt fuel o r c := rfl
  rw [e]
  unfold gridItems
  unfold pointsOf
  rw [nest_filterMap]
  congr 1
  funext r
  rw [nest_filterMap]
  congr 1
  funext c
  rw [Option.map_map]
  have : (List.filterMap LoopItem.point?) ∘
      (fun pts : List (Options F) => LoopItem.head (r, c) :: pts.map LoopItem.point) = id := by
    funext pts
    exact segment_points _ pts
  rw [this, Option.map_id_fun, id]

/-- the points after each header satisfy `Match` with it; `cur` is the header before the list -/
def Matched {α : Type} (Match : η → α → Prop) : Option η → List (LoopItem η α) → Prop
  | _, [] => True
  | _, .head h :: l => Matched Match (some h) l
  | cur, .point a :: l => (∃ h, cur = some h ∧ Match h a) ∧ Matched Match cur l

theorem matched_points {α : Type} {Match : η → α → Prop} {h : η} {rest : List (LoopItem η α)}
    (hr : ∀ c, Matched Match c rest) : ∀ pts : List α, (∀ a ∈ pts, Match h a) →
      Matched Match (some h) (pts.map LoopItem.point ++ rest)
  | [], _ => hr _
  | a :: pts, hp => ⟨⟨h, rfl, hp a List.mem_cons_self⟩, matched_points hr pts fun b hb => hp b (List.mem_cons_of_mem _ hb)⟩

/-- each list is a header with points that match it, or a sequence of such lists -/
inductive Segments {α : Type} (Match : η → α → Prop) : List (LoopItem η α) → Prop
  | one (h : η) (pts : List α) (hp : ∀ a ∈ pts, Match h a) : Segments Match (.head h :: pts.map .point)
  | all (ls : List (List (LoopItem η α))) (hl : ∀ l ∈ ls, Segments Match l) : Segments Match ls.flatten

theorem Segments.matched {α : Type} {Match : η → α → Prop} {l : List (LoopItem η α)} (h : Segments Match l) :
    ∀ rest, (∀ c, Matched Match c rest) → ∀ c, Matched Match c (l ++ rest) := by
  induction h with
  | one h pts hp => intro rest hr c; exact matched_points hr pts hp
  | all ls hl ih =>
    intro rest hr
    clear hl
    induction ls with
    | nil => exact hr
    | cons l ls ihl =>
      rw [List.flatten_cons, List.append_assoc]
      exact ih l List.mem_cons_self _ (ihl fun l hl => ih l (List.mem_cons_of_mem _ hl))

theorem mapM_mem {α β : Type} {f : α → Option β} {l : List α} {r : List β} (h : l.mapM f = some r) {b : β} (hb : b ∈ r) :
    ∃ a ∈ l, f a = some b := by
  induction l generalizing r with
  | nil =>
    simp only [List.mapM_nil, Option.pure_def, Option.some.injEq] at h
    subst h
    cases hb
  | cons a l ih =>
    rw [List.mapM_cons] at h
    cases h1 : f a with
    | none => simp [h1] at h
    | some x =>
      cases h2 : l.mapM f with
      | none => simp [h1, h2] at h
      | some r' =>
        simp only [h1, h2, Option.pure_def, Option.bind_eq_bind, Option.bind_some, Option.some.injEq] at h
        subst h
        rcases List.mem_cons.1 hb with rfl | hb
        · exact ⟨a, List.mem_cons_self, h1⟩
        · obtain ⟨a', h3, h4⟩ := ih h2 hb
          exact ⟨a', List.mem_cons_of_mem _ h3, h4⟩

theorem nest_segments {α β : Type} {Match : η → β → Prop} {l : Option (List α)} {f : α → Option (List (LoopItem η β))}
    {r : List (LoopItem η β)} (h : nest l f = some r) (hf : ∀ a r', f a = some r' → Segments Match r') : Segments Match r := by
  unfold nest at h
  cases l with
  | none => cases h
  | some l =>
    cases h2 : l.mapM f with
    | none => simp [h2] at h
    | some ls =>
      simp only [h2, Option.pure_def, Option.bind_eq_bind, Option.bind_some, Option.some.injEq] at h
      subst h
      refine .all _ fun l' hl' => ?_
      obtain ⟨a, _, ha⟩ := mapM_mem h2 hl'
      exact hf a l' ha

/-- the headers of a loop over `l` -/
theorem nest_heads {α β : Type} {l : Option (List α)} {f : α → Option (List (LoopItem η β))} {r : List (LoopItem η β)}
    {hs : α → List η} (h : nest l f = some r) (hf : ∀ a r', f a = some r' → headsOf r' = hs a) :
    ∃ xs, l = some xs ∧ headsOf r = xs.flatMap hs := by
  unfold nest at h
  cases l with
  | none => cases h
  | some xs =>
    refine ⟨xs, rfl, ?_⟩
    cases h2 : xs.mapM f with
    | none => simp [h2] at h
    | some ls =>
      simp only [h2, Option.pure_def, Option.bind_eq_bind, Option.bind_some, Option.some.injEq] at h
      subst h
      induction xs generalizing ls with
      | nil =>
        simp only [List.mapM_nil, Option.pure_def, Option.some.injEq] at h2
        subst h2
        rfl
      | cons a xs ih =>
        rw [List.mapM_cons] at h2
        cases h3 : f a with
        | none => simp [h3] at h2
        | some x =>
          cases h4 : xs.mapM f with
          | none => simp [h3, h4] at h2
          | some ls' =>
            simp only [h3, h4, Option.pure_def, Option.bind_eq_bind, Option.bind_some, Option.some.injEq] at h2
            subst h2
            rw [List.flatten_cons, List.flatMap_cons, ← ih _ h4, ← hf a x h3]
            unfold headsOf
            exact List.filterMap_append

/-! ### `Grid` -/

theorem runItems_points (cv : Nat → Options F → Run (CVOut F)) (l : List (LoopItem η (Options F))) (j : Nat) :
    pointsOf (runItems cv j l) = (pointsOf l).mapIdx fun i O => (cv (j + i) O).map CVOut.sent := by
  induction l generalizing j with
  | nil => rfl
  | cons a l ih =>
    cases a with
    | head h => exact ih j
    | point O =>
      show (cv j O).map CVOut.sent :: pointsOf (runItems cv (j + 1) l) = ((O :: pointsOf l).mapIdx _)
      rw [ih, List.mapIdx_cons]
      simp only [Nat.add_zero]
      congr 2
      funext i O
      rw [show j + (i + 1) = j + 1 + i by omega]

theorem runItems_heads (cv : Nat → Options F → Run (CVOut F)) (l : List (LoopItem η (Options F))) (j : Nat) :
    headsOf (runItems cv j l) = headsOf l := by
  induction l generalizing j with
  | nil => rfl
  | cons a l ih =>
    cases a with
    | head h => exact congrArg (h :: ·) (ih j)
    | point O => exact ih (j + 1)

theorem updateBestV_fst (v : Bool) (b : BestAcc F × List (SearchMsg η F)) (a : F) (o : Option (Options F)) :
    (updateBestV v b a o).1 = updateBest b.1 a o := by
  unfold updateBestV updateBest
  split <;> rfl

theorem rescueOneV_fst (v : Bool) (b : BestAcc F × List (SearchMsg η F)) (m : List (CVMsg F)) :
    Prod.fst <$> rescueOneV v b m = rescueOne b.1 m := by
  rcases m with _ | ⟨m0, m⟩
  · rfl
  cases m0 with
  | acc a => rfl
  | opt o => rfl
  | err e =>
    cases e with
    | true => rfl
    | false =>
      rcases m with _ | ⟨m1, m⟩
      · rfl
      cases m1 with
      | err e => rfl
      | opt o => rfl
      | acc a =>
        unfold rescueOneV rescueOne
        simp only [Bool.false_eq_true, if_false]
        by_cases ha : (a <. zero) = true
        · rw [if_pos ha, if_pos ha]; rfl
        · rw [if_neg ha, if_neg ha]
          rcases m with _ | ⟨m2, m⟩
          · rfl
          cases m2 with
          | err e => rfl
          | acc a => rfl
          | opt o =>
            show Prod.fst <$> pure (some (updateBestV v b a o).1, (updateBestV v b a o).2) = _
            rw [updateBestV_fst]
            rfl

theorem rescueConcValuesV_fst (v : Bool) (ws : List (List (CVMsg F))) (b : BestAcc F × List (SearchMsg η F)) :
    Prod.fst <$> rescueConcValuesV v ws b = rescueConcValues ws b.1 := by
  induction ws generalizing b with
  | nil => rfl
  | cons w ws ih =>
    unfold rescueConcValuesV rescueConcValues
    rw [← rescueOneV_fst v b, map_bind, bind_map_left]
    congr 1
    funext x
    obtain ⟨r, ms⟩ := x
    cases r with
    | none => rfl
    | some best => exact ih (best, ms)

theorem gridLoopV_fst (v : Bool) (n : Int) (its : List (LoopItem η (Run (List (CVMsg F))))) (pending : List (Run (List (CVMsg F))))
    (b : BestAcc F × List (SearchMsg η F)) :
    Prod.fst <$> gridLoopV v n its pending b = gridLoop n (pointsOf its) pending b.1 := by
  induction its generalizing pending b with
  | nil => rfl
  | cons a its ih =>
    cases a with
    | head h =>
      unfold gridLoopV
      exact ih _ _
    | point p =>
      show _ = gridLoop n (p :: pointsOf its) pending b.1
      unfold gridLoopV gridLoop
      split
      · rfl
      · simp only
        split
        · rw [map_bind]
          congr 1
          funext ws
          rw [← rescueConcValuesV_fst v ws b, map_bind, bind_map_left]
          congr 1
          funext x
          obtain ⟨r, ms⟩ := x
          cases r with
          | none => rfl
          | some best => exact ih [] (best, ms)
        · exact ih _ _

/-- the worker, when it ends without error, reports results with the property -/
def Reports (Rep : F → Option (Options F) → Prop) (p : Run (List (CVMsg F))) : Prop :=
  ∀ a o rest, p = pure (.err false :: .acc a :: .opt o :: rest) → Rep a o

/-- kept by a new result -/
def KeptBy (v : Bool) (Rep : F → Option (Options F) → Prop) (P : BestAcc F → List (SearchMsg η F) → Prop) : Prop :=
  ∀ b a o, Rep a o → P b.1 b.2 → P (updateBestV v b a o).1 (updateBestV v b a o).2

theorem rescueConcValuesV_inv {v : Bool} {Rep : F → Option (Options F) → Prop} {P : BestAcc F → List (SearchMsg η F) → Prop}
    (hP : KeptBy v Rep P) (ws : List (List (CVMsg F)))
    (hw : ∀ w ∈ ws, Reports Rep (pure w)) {b : BestAcc F × List (SearchMsg η F)} (hb : P b.1 b.2) {r : Option (BestAcc F)}
    {ms : List (SearchMsg η F)} (h : rescueConcValuesV v ws b = pure (r, ms)) :
    ∃ b', P b' ms ∧ ∀ b'', r = some b'' → b'' = b' := by
  induction ws generalizing b with
  | nil =>
    unfold rescueConcValuesV at h
    rw [run_pure_eq] at h
    simp only [Prod.mk.injEq] at h
    obtain ⟨rfl, rfl⟩ := h
    exact ⟨b.1, hb, fun b'' h => (Option.some.inj h).symm⟩
  | cons w ws ih =>
    unfold rescueConcValuesV at h
    obtain ⟨⟨r1, m1⟩, h1, h⟩ := run_bind_ok h
    have h2 : (r1 = none ∧ m1 = b.2) ∨ ∃ b1, r1 = some b1 ∧ P b1 m1 := by
      have hr := hw w List.mem_cons_self
      unfold rescueOneV at h1
      split at h1
      · rename_i e rest1
        split at h1
        · rw [run_pure_eq] at h1
          simp only [Prod.mk.injEq] at h1
          exact Or.inl ⟨h1.1.symm, h1.2.symm⟩
        · rename_i he
          simp only [Bool.not_eq_true] at he
          subst he
          split at h1
          · rename_i a rest2
            split at h1
            · rw [run_pure_eq] at h1
              simp only [Prod.mk.injEq] at h1
              exact Or.inl ⟨h1.1.symm, h1.2.symm⟩
            · split at h1
              · rename_i o rest3
                rw [run_pure_eq] at h1
                simp only [Prod.mk.injEq] at h1
                obtain ⟨rfl, rfl⟩ := h1
                exact Or.inr ⟨_, rfl, hP b a o (hr a o rest3 rfl) hb⟩
              · cases h1
          · cases h1
      · cases h1
    rcases h2 with ⟨rfl, rfl⟩ | ⟨b1, rfl, h2⟩
    · rw [run_pure_eq] at h
      simp only [Prod.mk.injEq] at h
      obtain ⟨rfl, rfl⟩ := h
      exact ⟨b.1, hb, fun _ h => by cases h⟩
    · exact ih (fun w hw' => hw w (List.mem_cons_of_mem _ hw')) h2 h

theorem gridRuns_mem {α : Type} {l : List (Run α)} {ws : List α} (h : l.mapM id = pure ws) {w : α} (hw : w ∈ ws) :
    (pure w : Run α) ∈ l := by
  induction l generalizing ws with
  | nil =>
    rw [List.mapM_nil, run_pure_eq] at h
    subst h
    cases hw
  | cons p l ih =>
    rw [List.mapM_cons] at h
    obtain ⟨x, h1, h⟩ := run_bind_ok h
    obtain ⟨xs, h2, h⟩ := run_bind_ok h
    rw [run_pure_eq] at h
    subst h
    rcases List.mem_cons.1 hw with rfl | hw
    · rw [← h1]; exact List.mem_cons_self
    · exact List.mem_cons_of_mem _ (ih h2 hw)

theorem gridLoopV_inv {v : Bool} {Rep : F → Option (Options F) → Prop} {P : BestAcc F → List (SearchMsg η F) → Prop}
    (hP : KeptBy v Rep P) (hh : ∀ b ms h, P b ms → P b (ms ++ headMsg v h)) {n : Int}
    (its : List (LoopItem η (Run (List (CVMsg F))))) {pending : List (Run (List (CVMsg F)))}
    (hi : ∀ p ∈ pointsOf its, Reports Rep p) (hp : ∀ p ∈ pending, Reports Rep p)
    {b : BestAcc F × List (SearchMsg η F)} (hb : P b.1 b.2) {r : Option (BestAcc F)} {ms : List (SearchMsg η F)}
    (h : gridLoopV v n its pending b = pure (r, ms)) : ∃ b', P b' ms ∧ ∀ b'', r = some b'' → b'' = b' := by
  induction its generalizing pending b with
  | nil =>
    unfold gridLoopV at h
    rw [run_pure_eq] at h
    simp only [Prod.mk.injEq] at h
    obtain ⟨rfl, rfl⟩ := h
    exact ⟨b.1, hb, fun b'' h => (Option.some.inj h).symm⟩
  | cons a its ih =>
    cases a with
    | head hd =>
      unfold gridLoopV at h
      exact ih (b := (b.1, b.2 ++ headMsg v hd)) hi hp (hh _ _ _ hb) h
    | point p =>
      have hi' : ∀ q ∈ p :: pointsOf its, Reports Rep q := hi
      unfold gridLoopV at h
      split at h
      · rw [ofGo_eq] at h; cases h
      · have hpp : ∀ q ∈ pending ++ [p], Reports Rep q := by
          intro q hq
          rcases List.mem_append.1 hq with hq | hq
          · exact hp q hq
          · rw [List.mem_singleton.1 hq]; exact hi' p List.mem_cons_self
        have hi2 : ∀ q ∈ pointsOf its, Reports Rep q := fun q hq => hi' q (List.mem_cons_of_mem _ hq)
        simp only at h
        split at h
        · obtain ⟨ws, h1, h⟩ := run_bind_ok h
          obtain ⟨⟨r1, m1⟩, h2, h⟩ := run_bind_ok h
          obtain ⟨b', q1, q2⟩ := rescueConcValuesV_inv hP ws (fun w hw => hpp _ (gridRuns_mem h1 hw)) hb h2
          cases r1 with
          | none =>
            simp only [run_pure_eq, Prod.mk.injEq] at h
            obtain ⟨rfl, rfl⟩ := h
            exact ⟨b', q1, fun _ h => by cases h⟩
          | some best =>
            obtain rfl := q2 best rfl
            exact ih (b := (best, m1)) hi2 (fun _ h => by cases h) q1 h
        · exact ih hi2 hpp hb h

theorem rescueConcValuesV_heads {v : Bool} (ws : List (List (CVMsg F))) {b : BestAcc F × List (SearchMsg η F)}
    {r : Option (BestAcc F)} {ms : List (SearchMsg η F)} (h : rescueConcValuesV v ws b = pure (r, ms)) :
    headLines ms = headLines b.2 := by
  obtain ⟨_, h1, _⟩ := rescueConcValuesV_inv (Rep := fun _ _ => True) (P := fun _ m => headLines m = headLines b.2) (by
    intro b1 a o _ hb
    unfold updateBestV
    split
    · split
      · simpa using hb
      · exact hb
    · exact hb) ws (fun _ _ _ _ _ _ => trivial) rfl h
  exact h1

theorem gridLoopV_heads {n : Int} (its : List (LoopItem η (Run (List (CVMsg F))))) {pending : List (Run (List (CVMsg F)))}
    {b : BestAcc F × List (SearchMsg η F)} {b' : BestAcc F} {ms : List (SearchMsg η F)}
    (h : gridLoopV true n its pending b = pure (some b', ms)) : headLines ms = headLines b.2 ++ headsOf its := by
  induction its generalizing pending b with
  | nil =>
    unfold gridLoopV at h
    rw [run_pure_eq] at h
    simp only [Prod.mk.injEq] at h
    rw [← h.2]
    simp [headsOf]
  | cons a its ih =>
    cases a with
    | head hd =>
      unfold gridLoopV at h
      rw [ih h]
      simp [headMsg, headsOf]
    | point p =>
      unfold gridLoopV at h
      split at h
      · rw [ofGo_eq] at h; cases h
      · simp only at h
        split at h
        · obtain ⟨ws, h1, h⟩ := run_bind_ok h
          obtain ⟨⟨r1, m1⟩, h2, h⟩ := run_bind_ok h
          cases r1 with
          | none =>
            simp only [run_pure_eq, Prod.mk.injEq] at h
            cases h.1
          | some best =>
            have h3 := ih h
            rw [h3, rescueConcValuesV_heads ws h2]
            rfl
        · exact ih h

/-- with one CPU each point is dealt with before the next header -/
theorem gridLoopV_under {Match : η → Run (List (CVMsg F)) → Prop} {Q : η → F → Option (Options F) → Prop}
    (hQ : ∀ h p a o rest, Match h p → p = pure (.err false :: .acc a :: .opt o :: rest) → Q h a o)
    (its : List (LoopItem η (Run (List (CVMsg F))))) {b : BestAcc F × List (SearchMsg η F)}
    (hm : Matched Match (headLines b.2).getLast? its) (hu : UnderHead Q b.2) {r : Option (BestAcc F)} {ms : List (SearchMsg η F)}
    (h : gridLoopV true 1 its [] b = pure (r, ms)) : UnderHead Q ms := by
  induction its generalizing b with
  | nil =>
    unfold gridLoopV at h
    rw [run_pure_eq] at h
    simp only [Prod.mk.injEq] at h
    rw [← h.2]
    exact hu
  | cons a its ih =>
    cases a with
    | head hd =>
      unfold gridLoopV at h
      refine ih (b := (b.1, b.2 ++ headMsg true hd)) ?_ (hu.head hd) h
      have : Matched Match (some hd) its := hm
      simpa [headMsg] using this
    | point p =>
      obtain ⟨⟨hd, hl, hmp⟩, hm⟩ : (∃ h, (headLines b.2).getLast? = some h ∧ Match h p) ∧
        Matched Match (headLines b.2).getLast? its := hm
      unfold gridLoopV at h
      rw [if_neg (by simp)] at h
      simp only [List.nil_append] at h
      rw [if_pos (by simp)] at h
      obtain ⟨ws, h1, h⟩ := run_bind_ok h
      obtain ⟨⟨r1, m1⟩, h2, h⟩ := run_bind_ok h
      have hh := rescueConcValuesV_heads ws h2
      obtain ⟨b', q1, q2⟩ := rescueConcValuesV_inv (Rep := fun a o => Q hd a o)
        (P := fun _ m => UnderHead Q m ∧ (headLines m).getLast? = some hd) (by
          rintro b1 a o hq ⟨g1, g2⟩
          unfold updateBestV
          split
          · exact ⟨g1.best g2 hq, by simpa using g2⟩
          · exact ⟨g1, g2⟩) ws (by
          intro w hw a o rest hw'
          have := gridRuns_mem h1 hw
          rw [List.mem_singleton] at this
          exact hQ hd p a o rest hmp (by rw [← this, hw'])) ⟨hu, hl⟩ h2
      cases r1 with
      | none =>
        simp only [run_pure_eq, Prod.mk.injEq] at h
        rw [← h.2]
        exact q1.1
      | some best => exact ih (b := (best, m1)) (by rw [hh]; exact hm) q1.1 h

/-! ### The gradient searches -/

theorem compareAccsV_fst (E : SearchEnv F) (s : SearchV η F) (t tprev : Nat) :
    ((compareAccsV E s t tprev).1.1, (compareAccsV E s t tprev).2) = compareAccs E s.1 t tprev := rfl

theorem searchStepsV_fst (E : SearchEnv F) (nfold : Int) : ∀ (n : Nat) (s : SearchV η F) (t strikes : Nat),
    ((searchStepsV E nfold n s t strikes).1.1, (searchStepsV E nfold n s t strikes).2) = searchSteps E nfold n s.1 t strikes := by
  intro n
  induction n with
  | zero => intro s t strikes; rfl
  | succ n ih =>
    rintro ⟨s, ms⟩ t strikes
    unfold searchStepsV searchSteps
    simp only
    split
    · split
      · rfl
      · exact ih _ _ _
    · have h1 := compareAccsV_fst E
        (({ (s.alloc (s.deref t).clone).store t (E.grad (s.alloc (s.deref t).clone).steps nfold
          ((s.alloc (s.deref t).clone).deref t)) with steps := (s.alloc (s.deref t).clone).steps + 1 } : SearchState F), ms) t s.heap.length
      split
      · rename_i heq
        rw [heq] at h1
        simp only at h1
        rw [← h1]
      · rename_i heq
        rw [heq] at h1
        simp only at h1
        rw [← h1]
        exact ih _ _ _

theorem searchFromV_fst (E : SearchEnv F) (nfold : Int) (s : SearchV η F) (init : Options F) :
    ((searchFromV E nfold s init).1.1, (searchFromV E nfold s init).2) = searchFrom E nfold s.1 init := by
  unfold searchFromV searchFrom
  simp only
  have h1 := compareAccsV_fst E ((s.1.alloc init).alloc init.clone, s.2) s.1.heap.length (s.1.heap.length + 1)
  split
  · rename_i heq
    rw [heq] at h1
    simp only at h1
    rw [← h1]
  · rename_i heq
    rw [heq] at h1
    simp only at h1
    rw [← h1]
    exact searchStepsV_fst E nfold _ _ _ _

theorem searchAllV_fst (E : SearchEnv F) (nfold : Int) (its : List (LoopItem η (Options F))) (s : SearchV η F) :
    ((searchAllV E nfold its s).1.1, (searchAllV E nfold its s).2) = searchAll E nfold (pointsOf its) s.1 := by
  induction its generalizing s with
  | nil => rfl
  | cons a its ih =>
    cases a with
    | head h => exact ih _
    | point init =>
      have h1 := searchFromV_fst E nfold s init
      show _ = searchAll E nfold (init :: pointsOf its) s.1
      unfold searchAllV searchAll
      split
      · rename_i heq
        rw [heq] at h1
        simp only at h1
        rw [← h1]
      · rename_i heq
        rw [heq] at h1
        simp only at h1
        rw [← h1]
        exact ih _

theorem gradientItems_points (fuel : Nat) (o : GridOptions F) : (gradientItems fuel o).map pointsOf = gradientInits fuel o := by
  have e : gradientInits fuel o = nest (o.minChildWeight.floats fuel) fun c => gradientInitsAt fuel o c := rfl
  rw [e]
  unfold gradientItems pointsOf
  rw [nest_filterMap]
  congr 1
  funext c
  rw [Option.map_map]
  have : (List.filterMap LoopItem.point?) ∘
      (fun pts : List (Options F) => LoopItem.head c :: pts.map LoopItem.point) = id := by
    funext pts
    exact segment_points _ pts
  rw [this, Option.map_id_fun, id]

theorem hybridItems_points (fuel : Nat) (o : GridOptions F) : (hybridItems fuel o).map pointsOf = hybridInits fuel o := by
  have e : hybridInits fuel o = nest (o.rounds.ints fuel) fun r => nest (o.minChildWeight.floats fuel) fun c =>
      hybridInitsAt fuel o r c := rfl
  rw [e]
  unfold hybridItems pointsOf
  rw [nest_filterMap]
  congr 1
  funext r
  rw [nest_filterMap]
  congr 1
  funext c
  rw [Option.map_map]
  have : (List.filterMap LoopItem.point?) ∘
      (fun pts : List (Options F) => LoopItem.head (r, c) :: pts.map LoopItem.point) = id := by
    funext pts
    exact segment_points _ pts
  rw [this, Option.map_id_fun, id]

/-- What does not change the results so far keeps `P`, and so do the comparisons and the headers. -/
structure KeptV (E : SearchEnv F) (P : SearchV η F → Prop) : Prop where
  frame : ∀ (s s' : SearchState F) ms, s'.best = s.best → s'.accs = s.accs → s'.final = s.final → s'.calls = s.calls →
    P (s, ms) → P (s', ms)
  compare : ∀ s t tprev, P s → P (compareAccsV E s t tprev).1
  head : ∀ (s : SearchState F) ms h, P (s, ms) → P (s, ms ++ headMsg E.o.verbose h)

theorem searchStepsV_kept {E : SearchEnv F} {P : SearchV η F → Prop} (hP : KeptV E P) (nfold : Int) :
    ∀ (n : Nat) (s : SearchV η F) (t strikes : Nat), P s → P (searchStepsV E nfold n s t strikes).1 := by
  intro n
  induction n with
  | zero => intro s t strikes h; exact h
  | succ n ih =>
    rintro ⟨s, ms⟩ t strikes h
    unfold searchStepsV
    simp only
    split
    · split
      · exact hP.frame s _ ms rfl rfl rfl rfl h
      · exact ih _ _ _ (hP.frame s _ ms rfl rfl rfl rfl h)
    · have h1 := hP.compare _ t s.heap.length (hP.frame s
        ({ (s.alloc (s.deref t).clone).store t (E.grad (s.alloc (s.deref t).clone).steps nfold
          ((s.alloc (s.deref t).clone).deref t)) with steps := (s.alloc (s.deref t).clone).steps + 1 }) ms rfl rfl rfl rfl h)
      split
      · rename_i heq
        rw [heq] at h1
        exact h1
      · rename_i heq
        rw [heq] at h1
        exact ih _ _ _ h1

theorem searchFromV_kept {E : SearchEnv F} {P : SearchV η F → Prop} (hP : KeptV E P) (nfold : Int) (s : SearchV η F)
    (init : Options F) (h : P s) : P (searchFromV E nfold s init).1 := by
  unfold searchFromV
  simp only
  have h1 := hP.compare _ s.1.heap.length (s.1.heap.length + 1)
    (hP.frame s.1 ((s.1.alloc init).alloc init.clone) s.2 rfl rfl rfl rfl h)
  split
  · rename_i heq
    rw [heq] at h1
    exact h1
  · rename_i heq
    rw [heq] at h1
    exact searchStepsV_kept hP nfold _ _ _ _ h1

theorem searchAllV_kept {E : SearchEnv F} {P : SearchV η F → Prop} (hP : KeptV E P) (nfold : Int) :
    ∀ (its : List (LoopItem η (Options F))) (s : SearchV η F), P s → P (searchAllV E nfold its s).1 := by
  intro its
  induction its with
  | nil => intro s h; exact h
  | cons a its ih =>
    intro s h
    cases a with
    | head hd => exact ih _ (hP.head _ _ _ h)
    | point init =>
      have h1 := searchFromV_kept hP nfold s init h
      unfold searchAllV
      split
      · rename_i heq
        rw [heq] at h1
        exact h1
      · rename_i heq
        rw [heq] at h1
        exact ih _ h1

/-- the messages of `CompareAccs` are no headers -/
theorem bestMsg_heads (E : SearchEnv F) (s : SearchState F) (t : Nat) : headLines (bestMsg E s t : List (SearchMsg η F)) = [] := by
  unfold bestMsg
  simp only
  split
  · rfl
  · split
    · rfl
    · split
      · split <;> rfl
      · rfl

theorem searchAllV_heads {E : SearchEnv F} (hv : E.o.verbose = true) (nfold : Int) :
    ∀ (its : List (LoopItem η (Options F))) (s : SearchV η F), (searchAllV E nfold its s).2 = true →
      headLines (searchAllV E nfold its s).1.2 = headLines s.2 ++ headsOf its := by
  intro its
  induction its with
  | nil => intro s _; simp [searchAllV, headsOf]
  | cons a its ih =>
    intro s h
    cases a with
    | head hd =>
      unfold searchAllV at h ⊢
      rw [ih _ h]
      simp [headMsg, hv, headsOf]
    | point init =>
      have key : headLines (searchFromV E nfold s init).1.2 = headLines s.2 := by
        have hc : ∀ (x : SearchV η F) t tprev, headLines (compareAccsV E x t tprev).1.2 = headLines x.2 := by
          intro x t tprev
          show headLines (x.2 ++ bestMsg E x.1 t) = _
          rw [headLines_append, bestMsg_heads, List.append_nil]
        have hs : ∀ (n : Nat) (x : SearchV η F) (t k : Nat), headLines (searchStepsV E nfold n x t k).1.2 = headLines x.2 := by
          intro n
          induction n with
          | zero => intro x t k; rfl
          | succ n ihn =>
            rintro ⟨x, ms⟩ t k
            unfold searchStepsV
            simp only
            split
            · split
              · rfl
              · exact ihn _ _ _
            · have h1 := hc (({ (x.alloc (x.deref t).clone).store t (E.grad (x.alloc (x.deref t).clone).steps nfold
                  ((x.alloc (x.deref t).clone).deref t)) with steps := (x.alloc (x.deref t).clone).steps + 1 } : SearchState F), ms)
                t x.heap.length
              split
              · rename_i heq
                rw [heq] at h1
                exact h1
              · rename_i heq
                rw [heq] at h1
                rw [ihn]
                exact h1
        unfold searchFromV
        simp only
        have h1 := hc ((s.1.alloc init).alloc init.clone, s.2) s.1.heap.length (s.1.heap.length + 1)
        split
        · rename_i heq
          rw [heq] at h1
          exact h1
        · rename_i heq
          rw [heq] at h1
          rw [hs]
          exact h1
      unfold searchAllV at h ⊢
      split at h
      · cases h
      · rename_i heq
        rw [heq] at key
        simp only at key
        rw [ih _ h, key]
        rfl

/-! Options objects made since a starting point -/

/-- the option objects from index `base` on have the property -/
def FromInv (P : Options F → Prop) (base : Nat) (s : SearchState F) : Prop :=
  ∀ i O, base ≤ i → s.heap[i]? = some O → P O

theorem FromInv.deref {P : Options F → Prop} {base : Nat} {s : SearchState F} (h : FromInv P base s) {t : Nat} (hb : base ≤ t)
    (ht : t < s.heap.length) : P (s.deref t) := by
  unfold SearchState.deref
  rw [List.getElem?_eq_getElem ht]
  exact h t _ hb (List.getElem?_eq_getElem ht)

theorem FromInv.store {P : Options F → Prop} {base : Nat} {s : SearchState F} (h : FromInv P base s) (t : Nat) {o : Options F}
    (ho : P o) : FromInv P base (s.store t o) := by
  intro i O hi hO
  have hO' : (s.heap.set t o)[i]? = some O := hO
  rw [List.getElem?_set] at hO'
  split at hO'
  · split at hO'
    · cases hO'; exact ho
    · cases hO'
  · exact h i O hi hO'

theorem FromInv.alloc {P : Options F → Prop} {base : Nat} {s : SearchState F} (h : FromInv P base s) {o : Options F}
    (ho : P o) : FromInv P base (s.alloc o) := by
  intro i O hi hO
  have hO' : (s.heap ++ [o])[i]? = some O := hO
  rcases Nat.lt_or_ge i s.heap.length with hl | hl
  · rw [List.getElem?_append_left hl] at hO'
    exact h i O hi hO'
  · rw [List.getElem?_append_right hl] at hO'
    have := List.mem_of_getElem? hO'
    rw [List.mem_singleton] at this
    rw [this]; exact ho

/-- the objects since the starting point have the property, and the lines are under a header for which they have it -/
structure UnderInv (P : Options F → Prop) (Q : η → F → Option (Options F) → Prop) (hd : η) (base : Nat) (s : SearchV η F) : Prop where
  objs : FromInv P base s.1
  under : UnderHead Q s.2
  last : (headLines s.2).getLast? = some hd

theorem compareAccsV_under {P : Options F → Prop} {Q : η → F → Option (Options F) → Prop} {hd : η} {base : Nat} {E : SearchEnv F}
    {nfold : Int} (hP : OptProp E nfold P) (hQ : ∀ a O, P O → Q hd a (some O.fixMcw)) {s : SearchV η F} {t tprev : Nat}
    (h : UnderInv P Q hd base s) (hb : base ≤ t) (ht : t < s.1.heap.length) (hbp : base ≤ tprev) (htp : tprev < s.1.heap.length) :
    UnderInv P Q hd base (compareAccsV E s t tprev).1 ∧
    ∀ t', (compareAccsV E s t tprev).2 = some t' → base ≤ t' ∧ t' < (compareAccsV E s t tprev).1.1.heap.length := by
  have hfix := hP.fixMcw _ (h.objs.deref hb ht)
  have hmsg : UnderHead Q (s.2 ++ bestMsg E s.1 t) ∧ (headLines (s.2 ++ bestMsg E s.1 t)).getLast? = some hd := by
    refine ⟨?_, by rw [headLines_append, bestMsg_heads, List.append_nil]; exact h.last⟩
    unfold bestMsg
    simp only
    split
    · rw [List.append_nil]; exact h.under
    · split
      · rw [List.append_nil]; exact h.under
      · split
        · split
          · exact h.under.best h.last (hQ _ _ (h.objs.deref hb ht))
          · rw [List.append_nil]; exact h.under
        · rw [List.append_nil]; exact h.under
  have hobj : FromInv P base (compareAccs E s.1 t tprev).1 ∧
      ∀ t', (compareAccs E s.1 t tprev).2 = some t' → base ≤ t' ∧ t' < (compareAccs E s.1 t tprev).1.heap.length := by
    unfold compareAccs
    simp only
    have h1 : FromInv P base ({ s.1 with calls := s.1.calls ++ [(s.1.deref t, E.cv s.1.calls.length 5 (s.1.deref t))] } : SearchState F) :=
      h.objs
    split
    · exact ⟨h1, fun t' h => by cases h⟩
    · have h2 := h1.store t hfix
      have hlen : ∀ o, (s.1.heap.set t o).length = s.1.heap.length := fun o => List.length_set
      split
      · refine ⟨h2.store tprev (hP.fuzz _ _ none (h2.deref hbp (by show tprev < (s.1.heap.set t _).length; rw [hlen]; exact htp))),
          fun t' ht' => ?_⟩
        simp only [Option.some.injEq] at ht'
        subst ht'
        refine ⟨hbp, ?_⟩
        show tprev < ((s.1.heap.set t _).set tprev _).length
        rw [List.length_set, hlen]
        exact htp
      · split
        · refine ⟨h2, fun t' ht' => ?_⟩
          simp only [Option.some.injEq] at ht'
          subst ht'
          refine ⟨hb, ?_⟩
          show t < (s.1.heap.set t _).length
          rw [hlen]; exact ht
        · refine ⟨h2, fun t' ht' => ?_⟩
          simp only [Option.some.injEq] at ht'
          subst ht'
          refine ⟨hb, ?_⟩
          show t < (s.1.heap.set t _).length
          rw [hlen]; exact ht
  exact ⟨⟨hobj.1, hmsg.1, hmsg.2⟩, hobj.2⟩

theorem searchStepsV_under {P : Options F → Prop} {Q : η → F → Option (Options F) → Prop} {hd : η} {base : Nat} {E : SearchEnv F}
    {nfold : Int} (hP : OptProp E nfold P) (hQ : ∀ a O, P O → Q hd a (some O.fixMcw)) :
    ∀ (n : Nat) (s : SearchV η F) (t strikes : Nat), UnderInv P Q hd base s → base ≤ t → t < s.1.heap.length →
      UnderInv P Q hd base (searchStepsV E nfold n s t strikes).1 := by
  intro n
  induction n with
  | zero => intro s t strikes h _ _; exact h
  | succ n ih =>
    rintro ⟨s, ms⟩ t strikes h hb ht
    unfold searchStepsV
    simp only
    simp only at ht
    have h1 := h.objs.alloc (hP.clone _ (h.objs.deref hb ht))
    have ht1 : t < (s.alloc (s.deref t).clone).heap.length := by
      show t < (s.heap ++ [_]).length
      rw [List.length_append]; omega
    have h2 := h1.store t (hP.grad (s.alloc (s.deref t).clone).steps _ (h1.deref hb ht1))
    have h3 : FromInv P base ({ (s.alloc (s.deref t).clone).store t (E.grad (s.alloc (s.deref t).clone).steps nfold
          ((s.alloc (s.deref t).clone).deref t)) with steps := (s.alloc (s.deref t).clone).steps + 1 }) := h2
    have hlen : ∀ o, ((s.heap ++ [(s.deref t).clone]).set t o).length = s.heap.length + 1 := by
      intro o
      rw [List.length_set, List.length_append, List.length_singleton]
    split
    · have h4 := h3.store t (hP.fuzz (E.draws s.fuzzes) _ (some (ofRat (2/10)))
        (h3.deref (t := t) hb (by show t < ((s.heap ++ [(s.deref t).clone]).set t _).length; rw [hlen]; omega)))
      split
      · exact ⟨h4, h.under, h.last⟩
      · refine ih _ _ _ ⟨h4, h.under, h.last⟩ hb ?_
        show t < (((s.heap ++ [(s.deref t).clone]).set t _).set t _).length
        rw [List.length_set, hlen]; omega
    · have h4 := compareAccsV_under (t := t) (tprev := s.heap.length) hP hQ (s := (_, ms)) ⟨h3, h.under, h.last⟩ hb
        (by show t < ((s.heap ++ [(s.deref t).clone]).set t _).length; rw [hlen]; omega) (by omega)
        (by show s.heap.length < ((s.heap ++ [(s.deref t).clone]).set t _).length; rw [hlen]; omega)
      split
      · rename_i heq
        rw [heq] at h4
        exact h4.1
      · rename_i heq
        rw [heq] at h4
        exact ih _ _ _ h4.1 (h4.2 _ rfl).1 (h4.2 _ rfl).2

theorem searchAllV_under {Match : η → Options F → Prop} {Q : η → F → Option (Options F) → Prop} {E : SearchEnv F} {nfold : Int}
    (hv : E.o.verbose = true) (hP : ∀ h, OptProp E nfold (Match h)) (hQ : ∀ h a O, Match h O → Q h a (some O.fixMcw)) :
    ∀ (its : List (LoopItem η (Options F))) (s : SearchV η F), Matched Match (headLines s.2).getLast? its → UnderHead Q s.2 →
      UnderHead Q (searchAllV E nfold its s).1.2 := by
  intro its
  induction its with
  | nil => intro s _ h; exact h
  | cons a its ih =>
    intro s hm hu
    cases a with
    | head hd =>
      unfold searchAllV
      rw [headMsg, if_pos hv]
      refine ih _ ?_ (hu.head hd)
      have : Matched Match (some hd) its := hm
      simpa using this
    | point init =>
      obtain ⟨⟨hd, hl, hmp⟩, hm⟩ : (∃ h, (headLines s.2).getLast? = some h ∧ Match h init) ∧
        Matched Match (headLines s.2).getLast? its := hm
      have key : UnderInv (Match hd) Q hd s.1.heap.length (searchFromV E nfold s init).1 := by
        unfold searchFromV
        simp only
        have h0 : FromInv (Match hd) s.1.heap.length s.1 := by
          intro i O hi hO
          rw [List.getElem?_eq_none hi] at hO
          cases hO
        have h2 := (h0.alloc hmp).alloc ((hP hd).clone _ hmp)
        have hlen : ((s.1.alloc init).alloc init.clone).heap.length = s.1.heap.length + 2 := by
          show ((s.1.heap ++ [init]) ++ [init.clone]).length = _
          simp
        have h3 := compareAccsV_under (t := s.1.heap.length) (tprev := s.1.heap.length + 1) (hP hd) (hQ hd)
          (s := ((s.1.alloc init).alloc init.clone, s.2)) ⟨h2, hu, hl⟩ (by omega) (by simp only; omega) (by omega) (by simp only; omega)
        split
        · rename_i heq
          rw [heq] at h3
          exact h3.1
        · rename_i heq
          rw [heq] at h3
          exact searchStepsV_under (hP hd) (hQ hd) _ _ _ _ h3.1 (h3.2 _ rfl).1 (h3.2 _ rfl).2
      unfold searchAllV
      split
      · rename_i heq
        rw [heq] at key
        exact key.under
      · rename_i heq
        rw [heq] at key
        refine ih _ ?_ key.under
        rw [key.last, ← hl]
        exact hm

end Boo
