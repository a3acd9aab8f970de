import Verif.Model.ExampleText
import Verif.Props.VerboseCV
import Verif.Props.Verbose
import Verif.Props.CVOneLabel

/-!
# C145: what the program examples/basicboost.go writes
-/

namespace Boo
open GoFloat Spec
set_option linter.unusedSectionVars false
variable {F : Type} [GoFloat F]

/-! ### Lines of texts -/

theorem splitBy_lines (p : Char → Bool) (X Y : List Char) : ∀ L, splitBy p X = L ++ [[]] → splitBy p (X ++ Y) = L ++ splitBy p Y := by
  induction X with
  | nil =>
    intro L h
    rcases L with _ | ⟨a, L⟩
    · rfl
    · simp [splitBy] at h
  | cons c X ih =>
    intro L h
    have e : ∀ Z, splitBy p (c :: Z) = if p c then [] :: splitBy p Z else match splitBy p Z with
      | [] => [[c]]
      | w :: ws => (c :: w) :: ws := fun _ => rfl
    rw [List.cons_append, e]
    rw [e] at h
    by_cases hp : p c = true
    · rw [if_pos hp] at h ⊢
      rcases L with _ | ⟨a, L⟩
      · simp only [List.nil_append, List.cons.injEq, true_and] at h
        exact absurd h (splitBy_ne_nil p X)
      · simp only [List.cons_append, List.cons.injEq] at h
        rw [ih L h.2, ← h.1]
        rfl
    · rw [if_neg hp] at h ⊢
      obtain ⟨w, ws, hw⟩ := List.exists_cons_of_ne_nil (splitBy_ne_nil p X)
      rw [hw] at h
      rcases L with _ | ⟨a, L⟩
      · simp at h
      · simp only [List.cons_append, List.cons.injEq] at h
        rw [ih (w :: L) (by rw [hw, h.2]; rfl), ← h.1]
        rfl

theorem linesIn_then {X Y : List Char} {L M : List (List Char)} (hX : linesIn X = L ++ [[]]) (hY : linesIn Y = M ++ [[]]) :
    linesIn (X ++ Y) = (L ++ M) ++ [[]] := by
  unfold linesIn at *
  rw [splitBy_lines _ _ _ _ hX, hY, List.append_assoc]

theorem linesIn_line {l : List Char} (h : '\n' ∉ l) : linesIn (l ++ ['\n']) = [l] ++ [[]] := by
  have := linesIn_blocks [l] (by simpa using h)
  simpa using this

/-! ### Runs -/

theorem fst_bind {α β γ δ : Type} {x : Run (α × β)} {y : Run α} (hxy : Prod.fst <$> x = y) {f : α × β → Run (γ × δ)} {g : α → Run γ}
    (h : ∀ p, Prod.fst <$> f p = g p.1) : Prod.fst <$> (x >>= f) = y >>= g := by
  subst hxy
  cases x with
  | none => rfl
  | some r =>
    cases r with
    | error e => rfl
    | ok p => exact h p

theorem fst_bind_same {α γ δ : Type} (x : Run α) {f : α → Run (γ × δ)} {g : α → Run γ} (h : ∀ a, Prod.fst <$> f a = g a) :
    Prod.fst <$> (x >>= f) = x >>= g := by
  cases x with
  | none => rfl
  | some r =>
    cases r with
    | error e => rfl
    | ok a => exact h a

theorem run_fst_pure {α β : Type} {x : Run (α × β)} {a : α} (hx : Prod.fst <$> x = pure a) : ∃ b, x = pure (a, b) := by
  cases x with
  | none => cases hx
  | some r =>
    cases r with
    | error e => cases hx
    | ok p =>
      have : p.1 = a := by
        have h : (some (Except.ok p.1) : Option (Except Panic α)) = some (.ok a) := hx
        injection h with h
        injection h
      exact ⟨p.2, by rw [← this]; rfl⟩

/-- **C145 (the program)**: `exampleMainV` does what `exampleMain` (C143) does. -/
theorem C145_same (exp : F → F) (S : GoSort) (P : FText F) (V : VerbText F) (file : Option (List Char)) (id : Nat) (draws1 : Nat → F) (idraws : Nat → List Nat)
    (fdraws : Nat → Nat → Nat → F) (E : SearchEnv F) (draws2 : Nat → F) :
    Prod.fst <$> exampleMainV exp S P V file id draws1 idraws fdraws E draws2 = exampleMain exp S P file id draws1 idraws fdraws E draws2 := by
  cases file with
  | none => rfl
  | some text =>
    unfold exampleMainV exampleMain
    refine fst_bind_same _ fun data => ?_
    cases data with
    | none => rfl
    | some D =>
      have e1 : ∀ draws O, Prod.fst <$> Run.ofGo (newMultiClassLog exp S draws D O) = Run.ofGo (newMultiClass exp S draws D O) := by
        intro draws O
        rw [← newMultiClassLog_fst exp S draws D O]
        cases newMultiClassLog exp S draws D O <;> rfl
      have e2 := (C141_same exp S 200 D 8 (some exampleGrid) idraws fdraws E).1
      have e3 : Prod.fst <$> Run.ofOption (gradientGridV 200 { E with o := exampleGrid } 5) = Run.ofOption (gradientGrid 200 { E with o := exampleGrid } 5) := by
        rw [← (C141_same exp S 200 D 5 (some exampleGrid) idraws fdraws { E with o := exampleGrid }).2.1]
        cases gradientGridV 200 { E with o := exampleGrid } 5 <;> rfl
      refine fst_bind (e1 _ _) fun b1 => fst_bind_same _ fun a => fst_bind e2 fun r1 => fst_bind_same _ fun O1 => fst_bind e3 fun r2 => fst_bind_same _ fun O2 =>
        fst_bind (e1 _ _) fun b2 => fst_bind_same _ fun k => rfl

/-! ### The second training is quiet -/

/-- the options that a gradient search returns do not have `Verbose` set -/
theorem search_quiet (fuel : Nat) (E : SearchEnv F) (nfold : Int) (hg : RealSteps E nfold) (ret : GridRet F) (h : gradientGrid fuel E nfold = some ret)
    (O : Options F) (hO : ret.opts = some O) : O.verbose = false := by
  have fix : ∀ o : Options F, o.verbose = false → o.fixMcw.verbose = false := by
    intro o ho
    unfold Options.fixMcw
    split <;> exact ho
  have hP : OptProp E nfold (fun o => o.verbose = false) := by
    refine ⟨fun o h => h, fix, fun k o h => ?_, fun d o q h => h⟩
    obtain ⟨f, G, curr, hr⟩ := hg k o
    have move : ∀ a b : Options F, SameOthers a b → a.verbose = false → b.verbose = false := by
      intro a b hab ha
      have := congrArg Options.verbose hab
      rw [ha] at this
      exact this
    rcases gradReturns_others hr with h' | h'
    · exact move _ _ h' h
    · exact move _ _ h' (fix o h)
  obtain ⟨inits, hi, hr⟩ := Option.map_eq_some_iff.1 h
  have hin : ∀ I ∈ inits, I.verbose = false := by
    refine nest_all _ (fun cw l hl x hx => ?_) hi
    obtain ⟨l', _, rfl⟩ := Option.map_eq_some_iff.1 hl
    obtain ⟨md, _, rfl⟩ := List.mem_map.1 hx
    show (baseOptions E.o).verbose = false
    unfold baseOptions
    split <;> rfl
  have hh := searchAll_heap hP inits searchStart hin ⟨(fun o ho => by cases ho), (fun ptr hp => by cases hp), (fun c hc => by cases hc)⟩
  cases hs : searchAll E nfold inits searchStart with
  | mk s b =>
    rw [hs] at hr hh
    subst hr
    cases b with
    | false => cases hO
    | true =>
      obtain ⟨ptr, hp, rfl⟩ := Option.map_eq_some_iff.1 hO
      exact hh.deref (hh.final ptr hp)

/-! ### The output -/

theorem mem_intercalate {sep : List Char} {c : Char} : ∀ ws : List (List Char), c ∈ List.intercalate sep ws → c ∈ sep ∨ ∃ w ∈ ws, c ∈ w := by
  intro ws
  induction ws with
  | nil => intro h; simp [List.intercalate] at h
  | cons w ws ih =>
    intro h
    rcases ws with _ | ⟨v, ws⟩
    · right
      exact ⟨w, by simp, by simpa [List.intercalate] using h⟩
    · have e : List.intercalate sep (w :: v :: ws) = w ++ (sep ++ List.intercalate sep (v :: ws)) := by
        simp [List.intercalate, List.intersperse]
      rw [e] at h
      rcases List.mem_append.1 h with h | h
      · exact Or.inr ⟨w, by simp, h⟩
      · rcases List.mem_append.1 h with h | h
        · exact Or.inl h
        · rcases ih h with h | ⟨u, hu, h⟩
          · exact Or.inl h
          · exact Or.inr ⟨u, List.mem_cons_of_mem _ hu, h⟩

theorem floatsText_noNewline (V : VerbText F) (hv : ∀ x, IsField (V.fmtv x)) (l : List F) : '\n' ∉ floatsText V l := by
  unfold floatsText strJoin
  simp only [List.mem_append, not_or]
  refine ⟨⟨by decide, fun h => ?_⟩, by decide⟩
  rcases mem_intercalate _ h with h | ⟨w, hw, h⟩
  · exact absurd h (by decide)
  · obtain ⟨x, _, rfl⟩ := List.mem_map.1 hw
    exact (hv x).noNewline h

theorem two_ops (a b : List Char) : printlnText [a, b] = (a ++ ' ' :: b) ++ ['\n'] := by
  simp [printlnText, strJoin, List.intercalate, List.intersperse]

theorem one_op (a : List Char) : printlnText [a] = a ++ ['\n'] := by
  simp [printlnText, strJoin, List.intercalate]

/-- the line about the options found, without the end of line -/
def withLine (V : VerbText F) (O : Options F) : List Char :=
  "With ".toList ++ fmtInt O.rounds ++ " rounds, ".toList ++ fmtInt O.maxDepth ++ " maxdepth and ".toList ++ V.fmt3 O.learningRate ++ " learning rate".toList

theorem withText_eq (V : VerbText F) (O : Options F) : withText V O = withLine V O ++ ['\n'] := by
  unfold withText withLine
  rw [show " learning rate\n".toList = " learning rate".toList ++ ['\n'] by decide]
  simp only [List.append_assoc]

theorem withLine_noNewline (V : VerbText F) (h3 : ∀ x, IsField (V.fmt3 x)) (O : Options F) : '\n' ∉ withLine V O := by
  have n3 := (h3 O.learningRate).noNewline
  have n1 := (isField_fmtInt O.rounds).noNewline
  have n2 := (isField_fmtInt O.maxDepth).noNewline
  unfold withLine
  simp only [List.mem_append, not_or]
  exact ⟨⟨⟨⟨⟨⟨by decide, n1⟩, by decide⟩, n2⟩, by decide⟩, n3⟩, by decide⟩

/-- **C145, partial**: what a run of the example that ends has written, line for line: for each tree of the first model a line with the round, the class and the loss;
the accuracy of that model on the file; the lines of `Grid`, of which the last "New Best Accuracy" has the accuracy and the options that are then printed; an empty list
of accuracies; the lines of `GradientGrid`, where the list printed in the end has the accuracies of its lines "New best accuracy", in their order, and its last number is
the best accuracy; the options, also as `String` gives them; nothing of the second training; and the number of the class. Of the number formats only this is used:
they give texts without white space. Missing: the first list is that of the accuracies of `Grid` (`C145_violated`). -/
theorem C145_output_partial [GoFloatOrd F] (exp : F → F) (S : GoSort) (P : FText F) (V : VerbText F) (h0 : ∀ x, IsField (V.fmt0 x)) (h3 : ∀ x, IsField (V.fmt3 x))
    (hv : ∀ x, IsField (V.fmtv x)) (file : Option (List Char)) (id : Nat) (draws1 : Nat → F) (idraws : Nat → List Nat)
    (fdraws : Nat → Nat → Nat → F) (E : SearchEnv F) (draws2 : Nat → F) (out : ExampleOut F) (text : List Char)
    (h : exampleMainV exp S P V file id draws1 idraws fdraws E draws2 = pure (out, text)) :
    exampleMain exp S P file id draws1 idraws fdraws E draws2 = pure out ∧
    ∃ (D : DataBunch F) (M1 M2 : MultiClass F) (msgs1 msgs2 : List (TrainMsg F)) (r1 r2 : GridRet F) (gms : List (SearchMsg (Int × F) F)) (sms : List (SearchMsg F F))
      (L1 L2 L3 L4 : List (List Char)),
      newMultiClassLog exp S draws1 D (exampleOptions id) = .ok (M1, msgs1) ∧ M1.accuracy D = .ok out.trainAcc ∧
      gridV exp S 200 D 8 (some exampleGrid) idraws fdraws = pure (r1, gms) ∧ gradientGridV 200 { E with o := exampleGrid } 5 = some (r2, sms) ∧
      newMultiClassLog exp S draws2 D out.searchBest = .ok (M2, msgs2) ∧
      linesIn text = L1 ++ ["train set accuracy ".toList ++ V.fmtv out.trainAcc] ++ L2 ++
        ["Crossvalidation best accuracy: ".toList ++ V.fmtv out.gridAcc, withLine V out.gridBest, "All accuracies: []".toList] ++ L3 ++
        ["Crossvalidation (grad) best accuracy: ".toList ++ V.fmtv out.searchAcc, withLine V out.searchBest, out.searchBest.string V.fmt3,
          "All accuracies: [".toList ++ List.intercalate [' '] (out.searchAccs.map V.fmtv) ++ "]".toList] ++ L4 ++
        ["Data is assigned to class ".toList ++ fmtNat out.number, []] ∧
      (L1.map strFields = (lossLines msgs1).map fun x =>
        ["round:".toList, fmtNat x.1 ++ [','], "class:".toList, fmtNat x.2.1, "train".toList, "loss".toList, "=".toList, V.fmt3 x.2.2]) ∧
      List.Forall₂ (fun m line => match m with
        | .head h => strFields line = ["Rounds:".toList, fmtInt h.1, "MinChildWeight:".toList, V.fmtv h.2]
        | .best a o => ∃ O, o = some O ∧ strFields line =
            ["New".toList, "Best".toList, "Accuracy".toList, V.fmt0 a ++ "%,".toList] ++ strFields (O.string V.fmt3)) gms L2 ∧
      (bestLines gms).getLast? = some (out.gridAcc, some out.gridBest) ∧
      List.Forall₂ (fun m line => match m with
        | .head cw => strFields line = ["ChildrenWeight:".toList, V.fmtv cw]
        | .best a o => ∃ O, o = some O ∧ strFields line =
            ["New".toList, "best".toList, "accuracy:".toList, V.fmtv a] ++ strFields (O.string V.fmt3)) sms L3 ∧
      (bestLines sms).map Prod.fst = out.searchAccs ∧ out.searchAccs.getLast? = some out.searchAcc ∧
      (RealSteps { E with o := exampleGrid } 5 → L4 = []) := by
  refine ⟨by rw [← C145_same exp S P V, h]; rfl, ?_⟩
  cases file with
  | none => cases h
  | some f =>
    unfold exampleMainV at h
    simp only [] at h
    obtain ⟨data, _, h⟩ := run_bind_ok h
    cases data with
    | none => cases h
    | some D =>
      simp only [] at h
      obtain ⟨⟨M1, msgs1⟩, t1, h⟩ := run_bind_ok h
      obtain ⟨a1, t2, h⟩ := run_bind_ok h
      obtain ⟨⟨r1, gms⟩, t3, h⟩ := run_bind_ok h
      obtain ⟨O1, t4, h⟩ := run_bind_ok h
      obtain ⟨⟨r2, sms⟩, t5, h⟩ := run_bind_ok h
      obtain ⟨O2, t6, h⟩ := run_bind_ok h
      obtain ⟨⟨M2, msgs2⟩, t7, h⟩ := run_bind_ok h
      obtain ⟨k, t8, h⟩ := run_bind_ok h
      rw [run_pure_eq, Prod.mk.injEq] at h
      obtain ⟨rfl, rfl⟩ := h
      rw [ofGo_eq] at t1 t2 t4 t6 t7 t8
      rw [ofOption_eq] at t5
      have best : ∀ (r : GridRet F) (O : Options F), exampleBest r = .ok O → r.err = false ∧ r.opts = some O := by
        intro r O hb
        unfold exampleBest at hb
        split at hb
        · cases hb
        · rename_i he
          refine ⟨by simpa using he, ?_⟩
          split at hb
          · cases hb
          · rename_i O' ho
            rw [ho]
            cases hb
            rfl
      obtain ⟨b1, b2⟩ := best _ _ t4
      obtain ⟨b3, b4⟩ := best _ _ t6
      obtain ⟨_, _, g1, g2⟩ := C141_grid_best exp S 200 D 8 (some exampleGrid) idraws fdraws rfl r1 gms t3
      obtain ⟨s1, s2⟩ := (C141_search_best 200 { E with o := exampleGrid } rfl 5 r2).1 sms t5
      have hg : gradientGrid 200 { E with o := exampleGrid } 5 = some r2 := by
        rw [← (C141_same exp S 200 D 5 (some exampleGrid) idraws fdraws { E with o := exampleGrid }).2.1, t5]
        rfl
      have hr1 : r1.accs = [] := by
        have e := (C141_same exp S 200 D 8 (some exampleGrid) idraws fdraws { E with o := exampleGrid }).1
        rw [t3] at e
        exact C51_no_accuracies _ _ _ _ e.symm
      have memBest : ∀ {η : Type} (ms : List (SearchMsg η F)) (a : F) (o : Option (Options F)), .best a o ∈ ms → (a, o) ∈ bestLines ms := by
        intro η ms a o hm
        exact List.mem_filterMap.2 ⟨_, hm, rfl⟩
      obtain ⟨L1, l1, w1⟩ := C140_text V.fmt3 h3 msgs1
      obtain ⟨L4, l4, w4⟩ := C140_text V.fmt3 h3 msgs2
      obtain ⟨L2, l2, w2⟩ := C141_text_grid V h0 h3 hv gms (by
        intro a o hm ho
        obtain ⟨_, _, _, _, _, _, _, _, e⟩ := g1 _ (memBest _ _ _ hm)
        rw [ho] at e
        cases e)
      obtain ⟨L3, l3, w3⟩ := (C141_text_search V h3 hv).1 sms (by
        intro a o hm ho
        obtain ⟨_, _, _, e⟩ := s1 _ (memBest _ _ _ hm)
        rw [ho] at e
        cases e)
      have nv := fun x => (hv x).noNewline
      have nn := fun x : Nat => (isField_fmtNat x).noNewline
      have hwith : ∀ O : Options F, linesIn (withText V O) = [withLine V O] ++ [[]] := by
        intro O
        rw [withText_eq]
        exact linesIn_line (withLine_noNewline V h3 O)
      have two : ∀ a b : List Char, '\n' ∉ a → '\n' ∉ b → linesIn (printlnText [a, b]) = [a ++ ' ' :: b] ++ [[]] := by
        intro a b ha hb
        rw [two_ops]
        exact linesIn_line (by simp [ha, hb])
      have one : linesIn (printlnText [O2.string V.fmt3]) = [O2.string V.fmt3] ++ [[]] := by
        rw [one_op]
        exact linesIn_line (options_noNewline V.fmt3 h3 O2)
      refine ⟨D, M1, M2, msgs1, msgs2, r1, r2, gms, sms, L1, L2, L3, L4, t1, t2, t3, t5, t7, ?_, w1, w2, ?_, w3, s2 b3, ?_, fun hR => ?_⟩
      · have hall := linesIn_then (linesIn_then (linesIn_then (linesIn_then (linesIn_then (linesIn_then (linesIn_then (linesIn_then (linesIn_then
          (linesIn_then (linesIn_then (linesIn_then l1 (two "train set accuracy".toList (V.fmtv a1) (by decide) (nv _))) l2)
          (two "Crossvalidation best accuracy:".toList (V.fmtv r1.acc) (by decide) (nv _))) (hwith O1))
          (two "All accuracies:".toList (floatsText V r1.accs) (by decide) (floatsText_noNewline V hv _))) l3)
          (two "Crossvalidation (grad) best accuracy:".toList (V.fmtv r2.acc) (by decide) (nv _))) (hwith O2))
          one)
          (two "All accuracies:".toList (floatsText V r2.accs) (by decide) (floatsText_noNewline V hv _))) l4)
          (two "Data is assigned to class".toList (fmtNat (k + 1)) (by decide) (nn _))
        rw [hr1] at hall ⊢
        refine hall.trans ?_
        simp [floatsText, strJoin]
      · have e := g2 b1
        rw [b2] at e
        cases hl : (bestLines gms).getLast? with
        | none =>
          rw [hl] at e
          have := congrArg Prod.snd e
          cases this
        | some x =>
          rw [hl] at e
          exact congrArg some e
      · obtain ⟨_, _, c1, c2⟩ := (C56_accuracies 200 { E with o := exampleGrid } 5 r2 (Or.inl hg)).1 b3
        cases hl : r2.accs.getLast? with
        | none =>
          rw [List.getLast?_eq_none_iff] at hl
          rw [(c1 hl).2] at b4
          cases b4
        | some x => rw [(c2 x hl).1]
      · have hq := C140_quiet exp S draws2 D O2 M2 msgs2 t7 (search_quiet 200 _ 5 hR r2 hg O2 b4)
        subst hq
        have : L4.map strFields = [] := w4
        simpa using this

/-- **C145 is violated**: in every run that ends the list printed after `Grid` is empty, although a line above it reports an accuracy. -/
theorem C145_violated [GoFloatOrd F] (exp : F → F) (S : GoSort) (P : FText F) (V : VerbText F) (h0 : ∀ x, IsField (V.fmt0 x)) (h3 : ∀ x, IsField (V.fmt3 x))
    (hv : ∀ x, IsField (V.fmtv x)) (file : Option (List Char)) (id : Nat) (draws1 : Nat → F) (idraws : Nat → List Nat)
    (fdraws : Nat → Nat → Nat → F) (E : SearchEnv F) (draws2 : Nat → F) (out : ExampleOut F) (text : List Char)
    (h : exampleMainV exp S P V file id draws1 idraws fdraws E draws2 = pure (out, text)) :
    ∃ before line between after, linesIn text = before ++ line :: between ++ "All accuracies: []".toList :: after ∧
      strFields line = ["New".toList, "Best".toList, "Accuracy".toList, V.fmt0 out.gridAcc ++ "%,".toList] ++ strFields (out.gridBest.string V.fmt3) := by
  obtain ⟨_, D, M1, M2, msgs1, msgs2, r1, r2, gms, sms, L1, L2, L3, L4, _, _, _, _, _, hl, _, hg, hlast, _⟩ :=
    C145_output_partial exp S P V h0 h3 hv file id draws1 idraws fdraws E draws2 out text h
  obtain ⟨m, hm, he⟩ := List.mem_filterMap.1 (List.mem_of_getLast? hlast)
  cases m with
  | head => cases he
  | best a o =>
    simp only [Option.some.injEq, Prod.mk.injEq] at he
    obtain ⟨rfl, rfl⟩ := he
    obtain ⟨i, hi, hmi⟩ := List.getElem_of_mem hm
    have hi' : i < L2.length := hg.length_eq ▸ hi
    have hline := hg.get hi hi'
    rw [List.get_eq_getElem, List.get_eq_getElem, hmi] at hline
    obtain ⟨O, hO, hf⟩ := hline
    cases hO
    refine ⟨L1 ++ ["train set accuracy ".toList ++ V.fmtv out.trainAcc] ++ L2.take i, L2[i],
      L2.drop (i + 1) ++ ["Crossvalidation best accuracy: ".toList ++ V.fmtv out.gridAcc, withLine V out.gridBest], L3 ++
        ["Crossvalidation (grad) best accuracy: ".toList ++ V.fmtv out.searchAcc, withLine V out.searchBest, out.searchBest.string V.fmt3,
          "All accuracies: [".toList ++ List.intercalate [' '] (out.searchAccs.map V.fmtv) ++ "]".toList] ++ L4 ++
        ["Data is assigned to class ".toList ++ fmtNat out.number, []], ?_, hf⟩
    rw [hl]
    conv_lhs => rw [← List.take_append_drop i L2, List.drop_eq_getElem_cons hi']
    simp only [List.append_assoc, List.cons_append, List.nil_append]

/-! ### A run that ends -/

/-- a search in which every cross-validation reports 50 and no step moves -/
def stillEnv : SearchEnv F64 := ⟨exampleGrid, fun _ _ _ => ⟨false, .fin 50⟩, fun _ _ O => O, fun _ _ => (.fin (1/128), 0)⟩

def isShare (x : F64) : Bool :=
  match x with
  | .fin s => decide (0 ≤ s ∧ s ≤ 1)
  | _ => false

theorem isShare_share {x : F64} (h : isShare x = true) : Share x := by
  cases x with
  | fin s => exact ⟨s, rfl, of_decide_eq_true h⟩
  | _ => cases h

theorem still_search : ∃ r O, gradientGrid 200 stillEnv 5 = some r ∧ r.err = false ∧ r.opts = some O ∧ O.xgb = true ∧ 1 ≤ O.rounds ∧ O.minSample = 5 ∧
    Share O.subSample ∧ Share O.colSubSample ∧ (O.subSample <. one) = true ∧ (O.colSubSample <. one) = true ∧
    5 ≤ ((List.range 10).filter fun _ => (.fin 0 : F64) <=. O.subSample).length ∧
    r.accs = [.fin 50] ∧ ∃ lv, O.loss = some lv ∧ lv.fn.Regular := by
  have h1 : ((gradientGrid 200 stillEnv 5).map fun r => (r.err, r.accs)) = some (false, [(.fin 50 : F64)]) := by decide +kernel
  have h2 : ((gradientGrid 200 stillEnv 5).map fun r => r.opts.map fun O => (O.xgb, decide (1 ≤ O.rounds), O.minSample)) = some (some (true, true, 5)) := by decide +kernel
  have h3 : ((gradientGrid 200 stillEnv 5).map fun r => r.opts.map fun O => (isShare O.subSample, isShare O.colSubSample,
      (O.subSample <. one) && (O.colSubSample <. one), decide (5 ≤ ((List.range 10).filter fun _ => (.fin 0 : F64) <=. O.subSample).length))) =
      some (some (true, true, true, true)) := by
    decide +kernel
  obtain ⟨r, hr, h1⟩ := Option.map_eq_some_iff.1 h1
  rw [hr] at h2 h3
  simp only [Prod.mk.injEq] at h1
  obtain ⟨a1, a2⟩ := h1
  rw [Option.map_some, Option.some.injEq] at h2 h3
  obtain ⟨O, hO, h2⟩ := Option.map_eq_some_iff.1 h2
  rw [hO] at h3
  simp only [Option.map_some, Option.some.injEq, Prod.mk.injEq, decide_eq_true_eq, Bool.and_eq_true] at h2 h3
  obtain ⟨b1, b2, b3⟩ := h2
  obtain ⟨b4, b5, ⟨b6, b7⟩, b8⟩ := h3
  refine ⟨r, O, hr, a1, hO, b1, b2, b3, isShare_share b4, isShare_share b5, b6, b7, b8, a2, ?_⟩
  have fix : ∀ o : Options F64, (∃ lv, o.loss = some lv ∧ lv.fn.Regular) → ∃ lv, o.fixMcw.loss = some lv ∧ lv.fn.Regular := by
    intro o ho
    unfold Options.fixMcw
    split <;> exact ho
  have hP : OptProp stillEnv 5 (fun o => ∃ lv, o.loss = some lv ∧ lv.fn.Regular) := ⟨fun o h => h, fix, fun k o h => h, fun d o q h => h⟩
  obtain ⟨inits, hi, hret⟩ := Option.map_eq_some_iff.1 hr
  have hh := searchAll_heap hP inits searchStart (fun I hI => (inits_fit _ (Or.inl hi) readme_mid.1 readme_mid.2 I hI).1.1)
    ⟨(fun o ho => by cases ho), (fun ptr hp => by cases hp), (fun c hc => by cases hc)⟩
  cases hs : searchAll stillEnv 5 inits searchStart with
  | mk s b =>
    rw [hs] at hret hh
    subst hret
    cases b with
    | false => cases hO
    | true =>
      obtain ⟨ptr, hp, rfl⟩ := Option.map_eq_some_iff.1 hO
      exact hh.deref (hh.final ptr hp)

/-- `C145_output_partial` and `C145_violated` apply: the program ends on `tenText`, ten rows with the label 7 -/
theorem ten_run (exp : F64 → F64) (S : GoSort) (V : VerbText F64) (id : Nat) : ∃ P out text, ReadsDecimals P ∧
    exampleMainV exp S P V (some tenText) id (fun _ => .fin 0) (fun _ => List.range 10) (fun _ _ _ => .fin 0) stillEnv (fun _ => .fin 0) = pure (out, text) ∧
    out.searchAccs = [.fin 50] := by
  obtain ⟨r1, O1, g1, g2, g3, _⟩ := ten_grid exp S
  obtain ⟨r2, O2, s1, s2, s3, c1, c2, c3, c4, c5, c8, c9, c10, c6, c7⟩ := still_search
  have hread := C123_read_libsvm (numText (b64o none)) numText_reads tenText ("Labels 1:a".toList :: (fiveLines ++ fiveLines)) (fiveLines ++ fiveLines)
    ((linesOf_iff _ _).1 (by decide +kernel)) true ["a".toList] ⟨_, rfl, differ_names⟩ (fiveQ ++ fiveQ) ten_rows
  obtain ⟨M1, m1, _, m3⟩ := example_trains exp S ten_data id (fun _ => .fin 0)
  obtain ⟨_, a, ha, _⟩ := m3 rfl (by show ((ofRat (8/10) : F64) <. one) = true; decide +kernel) (by show ((ofRat (8/10) : F64) <. one) = true; decide +kernel)
    ⟨0, by show (0 : Int) < 100; decide, by show 5 ≤ ((List.range 10).filter fun _ => (.fin 0 : F64) <=. ofRat (8/10)).length; decide +kernel⟩
  obtain ⟨M2, n1, _, n3⟩ := trainsWith_caps exp S ten_data (O := O2) ⟨c7, fun _ => c3⟩
    (capsOk_share ten_data.rows.2.2.2.2.1 ten_data.narrow c4 c5) (fun _ => .fin 0)
  rw [newMultiClass_fixMcw] at n1
  have e : O2.fixMcw.xgb = O2.xgb ∧ O2.fixMcw.subSample = O2.subSample ∧ O2.fixMcw.colSubSample = O2.colSubSample ∧ O2.fixMcw.rounds = O2.rounds := by
    unfold Options.fixMcw
    split <;> exact ⟨rfl, rfl, rfl, rfl⟩
  rw [e.1, e.2.1, e.2.2.1, e.2.2.2] at n3
  obtain ⟨w, _⟩ := n3 c1 c8 c9 ⟨0, by omega, c10⟩
  obtain ⟨k, hk, _⟩ := w exampleRow (by decide)
  have hmain : exampleMain exp S (numText (b64o none)) (some tenText) id (fun _ => .fin 0) (fun _ => List.range 10) (fun _ _ _ => .fin 0) stillEnv (fun _ => .fin 0) =
      pure ⟨.fin a, r1.acc, O1, r1.accs, r2.acc, O2, r2.accs, k + 1⟩ := by
    unfold exampleMain
    simp only []
    rw [run_bind_some (ofGo_eq.2 hread)]
    simp only []
    rw [show (numberBunch (fiveQ ++ fiveQ) ["a".toList] : DataBunch F64) = tenBunch from rfl,
      show ({ stillEnv with o := exampleGrid } : SearchEnv F64) = stillEnv from rfl, run_bind_some (ofGo_eq.2 m1), run_bind_some (ofGo_eq.2 ha), run_bind_some g1,
      run_bind_some (ofGo_eq.2 (show exampleBest r1 = .ok O1 by unfold exampleBest; rw [g2, g3]; rfl)), run_bind_some (ofOption_eq.2 s1),
      run_bind_some (ofGo_eq.2 (show exampleBest r2 = .ok O2 by unfold exampleBest; rw [s2, s3]; rfl)), run_bind_some (ofGo_eq.2 n1), run_bind_some (ofGo_eq.2 hk)]
  rw [← C145_same exp S _ V] at hmain
  obtain ⟨text, ht⟩ := run_fst_pure hmain
  exact ⟨_, _, text, numText_reads, ht, c6⟩

/-- formats as the theorems need them -/
example : ∃ V : VerbText F64, (∀ x, IsField (V.fmt0 x)) ∧ (∀ x, IsField (V.fmt3 x)) ∧ ∀ x, IsField (V.fmtv x) :=
  ⟨⟨fun _ => ['x'], fun _ => ['x'], fun _ => ['x']⟩, fun _ => isField_x, fun _ => isField_x, fun _ => isField_x⟩

end Boo
