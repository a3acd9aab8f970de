import Verif.Props.EarlyStop

/-!
# Training with a partial table of `exp`

Used for the counterexamples only: when training succeeds with an `exp` known at finitely many points, it gives the
same result for every `exp` that has those values.
-/

namespace Boo
open GoFloat
variable {F : Type} [GoFloat F]

/-- `act'` agrees with `act` wherever `act` returns -/
def ActLe (act act' : Dense F → Option (Dense F) → Go (Dense F)) : Prop :=
  ∀ raw P r, act raw P = .ok r → act' raw P = .ok r

theorem bind_mono {α β : Type} {x x' : Go α} {f f' : α → Go β} {b : β} (h : (x >>= f) = .ok b)
    (hx : ∀ a, x = .ok a → x' = .ok a) (hf : ∀ a, x = .ok a → f a = .ok b → f' a = .ok b) : (x' >>= f') = .ok b := by
  obtain ⟨a, h1, h2⟩ := bind_ok h
  rw [hx a h1]
  exact hf a h1 h2

theorem foldlM_mono {α β : Type} {f g : β → α → Go β} (l : List α) (hfg : ∀ b a b', f b a = .ok b' → g b a = .ok b')
    (b b' : β) (h : l.foldlM f b = .ok b') : l.foldlM g b = .ok b' := by
  induction l generalizing b with
  | nil => exact h
  | cons x xs ih =>
    rw [List.foldlM_cons] at h ⊢
    exact bind_mono h (hfg b x) (fun a _ h => ih a h)

section
variable {act act' : Dense F → Option (Dense F) → Go (Dense F)} (hact : ActLe act act')
include hact

theorem trainClass_mono {S : GoSort} {data : List (List F)} {O : Options F} {ohe : Dense F}
    {indexes : Option (List Nat)} {cols : List Nat} {round : Nat} (acc : TrainState F × List (Tree F)) (k : Nat)
    (r : TrainState F × List (Tree F)) (h : trainClass act S data O ohe indexes cols round acc k = .ok r) :
    trainClass act' S data O ohe indexes cols round acc k = .ok r := by
  unfold trainClass at h ⊢
  simp only at h ⊢
  split
  · rename_i hs; rw [if_pos hs] at h; exact h
  · rename_i hs
    rw [if_neg hs] at h
    refine bind_mono h (fun _ h => h) fun y _ h => ?_
    refine bind_mono h (fun _ h => h) fun p _ h => ?_
    cases hl : O.loss with
    | none => rw [hl] at h; cases h
    | some lv =>
      rw [hl] at h
      refine bind_mono h (fun _ h => h) fun tree _ h => ?_
      refine bind_mono h (fun _ h => h) fun preds _ h => ?_
      refine bind_mono h (fun _ h => h) fun raw _ h => ?_
      exact bind_mono h (hact _ _) fun probs _ h => h

theorem trainClassH_mono {S : GoSort} {data : List (List F)} {O : Options F} {ohe : Dense F}
    {indexes : Option (List Nat)} {cols : List Nat} {round : Nat}
    (acc : (TrainState F × List (Tree F)) × (Nat → List F)) (k : Nat)
    (r : (TrainState F × List (Tree F)) × (Nat → List F))
    (h : trainClassH act S data O ohe indexes cols round acc k = .ok r) :
    trainClassH act' S data O ohe indexes cols round acc k = .ok r := by
  unfold trainClassH at h ⊢
  exact bind_mono h (trainClass_mono hact _ _) fun _ _ h => h

theorem trainRound_mono {S : GoSort} {data : List (List F)} {O : Options F} {ohe : Dense F} {m : Nat}
    (st : TrainState F) (round : Nat) (r : TrainState F) (h : trainRound act S data O ohe m st round = .ok r) :
    trainRound act' S data O ohe m st round = .ok r := by
  unfold trainRound at h ⊢
  refine bind_mono h (fun _ h => h) ?_
  rintro ⟨idx, cols, draws⟩ _ h
  simp only at h ⊢
  split
  · rename_i hs; rw [if_pos hs] at h; exact h
  · rename_i hs
    rw [if_neg hs] at h
    exact bind_mono h (foldlM_mono _ (trainClass_mono hact) _) fun _ _ h => h

theorem trainRoundH_mono {S : GoSort} {data : List (List F)} {O : Options F} {ohe : Dense F} {m : Nat}
    (st : TrainState F × (Nat → List F)) (round : Nat) (r : TrainState F × (Nat → List F))
    (h : trainRoundH act S data O ohe m st round = .ok r) :
    trainRoundH act' S data O ohe m st round = .ok r := by
  unfold trainRoundH at h ⊢
  refine bind_mono h (fun _ h => h) ?_
  rintro ⟨idx, cols, draws⟩ _ h
  simp only at h ⊢
  split
  · rename_i hs; rw [if_pos hs] at h; exact h
  · rename_i hs
    rw [if_neg hs] at h
    exact bind_mono h (foldlM_mono _ (trainClassH_mono hact) _) fun _ _ h => h

theorem trainInit_mono {O : Options F} {ohe : Dense F} {m : Nat} {draws : Nat → F} (r : TrainState F)
    (h : trainInit act O ohe m draws = .ok r) : trainInit act' O ohe m draws = .ok r := by
  unfold trainInit at h ⊢
  refine bind_mono h (fun _ h => h) fun raw _ h => ?_
  exact bind_mono h (hact _ _) fun _ _ h => h

theorem trainWith_mono {S : GoSort} {draws : Nat → F} {D : DataBunch F} {O : Options F}
    (r : List Int × TrainState F) (h : trainWith act S draws D O = .ok r) : trainWith act' S draws D O = .ok r := by
  unfold trainWith at h ⊢
  refine bind_mono h (fun _ h => h) ?_
  rintro ⟨ohe, labels⟩ _ h
  refine bind_mono h (trainInit_mono hact) fun st0 _ h => ?_
  exact bind_mono h (foldlM_mono _ (trainRound_mono hact) _) fun _ _ h => h

theorem trainWithH_mono {S : GoSort} {draws : Nat → F} {D : DataBunch F} {O : Options F}
    (r : List Int × TrainState F × (Nat → List F)) (h : trainWithH act S draws D O = .ok r) :
    trainWithH act' S draws D O = .ok r := by
  unfold trainWithH at h ⊢
  refine bind_mono h (fun _ h => h) ?_
  rintro ⟨ohe, labels⟩ _ h
  refine bind_mono h (trainInit_mono hact) fun st0 _ h => ?_
  exact bind_mono h (foldlM_mono _ (trainRoundH_mono hact) _) fun _ _ h => h
end

/-! ### softmax from a table -/

section
variable [DecidableEq F]

/-- `SoftMax` when only the values of `exp` in the table `t` are known -/
def softMaxT (t : List (F × F)) (p : List F) (probs : Option (List F)) : Go (List F) :=
  if p.all (fun x => (t.lookup x).isSome) then softMax (fun x => (t.lookup x).getD zero) p probs
  else .error .explicit

/-- `exp` has the values of the table -/
def HasValues (exp : F → F) (t : List (F × F)) : Prop := ∀ p ∈ t, exp p.1 = p.2

theorem HasValues.lookup {exp : F → F} {t : List (F × F)} (h : HasValues exp t) {x y : F}
    (hx : t.lookup x = some y) : exp x = y := by
  induction t with
  | nil => cases hx
  | cons p t ih =>
    obtain ⟨a, b⟩ := p
    rw [List.lookup_cons] at hx
    split at hx
    · rename_i he
      cases hx
      rw [eq_of_beq he]
      exact h (a, y) (by simp)
    · exact ih (fun p hp => h p (by simp [hp])) hx

theorem softMaxT_le {exp : F → F} {t : List (F × F)} (h : HasValues exp t) (p : List F) (probs : Option (List F))
    (r : List F) (hr : softMaxT t p probs = .ok r) : softMax exp p probs = .ok r := by
  unfold softMaxT at hr
  split at hr
  · rename_i hall
    rw [List.all_eq_true] at hall
    have hm : ∀ x ∈ p, (t.lookup x).getD zero = exp x := by
      intro x hx
      obtain ⟨y, hy⟩ := Option.isSome_iff_exists.1 (hall x hx)
      rw [hy, h.lookup hy]
      rfl
    rw [← hr]
    unfold softMax
    simp only
    rw [List.map_congr_left hm]
    split
    · rfl
    · congr 2
      exact List.map_congr_left fun x hx => by rw [hm x hx]
  · cases hr

theorem softMaxDenseT_le {exp : F → F} {t : List (F × F)} (h : HasValues exp t) :
    ActLe (activationDense (softMaxT t)) (softMaxDense exp) := by
  intro raw P r hr
  unfold softMaxDense
  unfold activationDense at hr ⊢
  refine foldlM_mono _ ?_ _ _ hr
  intro b a b' hb
  split
  · rename_i hs; rw [if_pos hs] at hb; cases hb
  · rename_i hs
    rw [if_neg hs] at hb
    exact bind_mono hb (softMaxT_le h _ _) fun _ _ h => h
end
end Boo
