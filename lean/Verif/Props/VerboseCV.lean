import Verif.Lemmas.VerboseCV
import Verif.Props.Verbose
import Verif.Props.SearchFixed

/-!
# C141: what the searches print with `Verbose`
-/

namespace Boo
open GoFloat
set_option linter.unusedSectionVars false
variable {F : Type} [GoFloat F] {η : Type}

/-! ### The results do not depend on the messages -/

theorem gridWithV_fst (cv : Nat → Options F → Run (CVOut F)) (fuel : Nat) (o : GridOptions F) :
    Prod.fst <$> gridWithV cv fuel o = gridWith cv fuel o := by
  unfold gridWithV gridWith
  split
  · rfl
  · rw [← gridItems_points]
    cases h : gridItems fuel o with
    | none => rfl
    | some its =>
      show Prod.fst <$> (gridLoopV o.verbose o.nCPUs (runItems cv 0 its) [] ((zero, none), []) >>= fun r => pure (gridRet r.1, r.2)) =
        (gridLoop o.nCPUs ((pointsOf its).mapIdx fun j O => (cv j O).map CVOut.sent) [] (zero, none) >>= fun best => pure (gridRet best))
      have e := runItems_points cv its 0
      simp only [Nat.zero_add] at e
      rw [← e, ← gridLoopV_fst o.verbose o.nCPUs (runItems cv 0 its) [] ((zero, none), []), map_bind, bind_map_left]
      rfl

/-- **C141 (same result)**: the messages do not change what the searches return, nor whether they return: with the messages left out the
functions that keep them are those of the other theorems about the searches. -/
theorem C141_same (exp : F → F) (S : GoSort) (fuel : Nat) (D : DataBunch F) (nfold : Int) (options : Option (GridOptions F))
    (idraws : Nat → List Nat) (fdraws : Nat → Nat → Nat → F) (E : SearchEnv F) :
    Prod.fst <$> gridV exp S fuel D nfold options idraws fdraws = grid exp S fuel D nfold options idraws fdraws ∧
    (gradientGridV fuel E nfold).map Prod.fst = gradientGrid fuel E nfold ∧
    (hybridGridV fuel E nfold).map Prod.fst = hybridGrid fuel E nfold := by
  refine ⟨gridWithV_fst _ _ _, ?_, ?_⟩
  · unfold gradientGridV gradientGrid
    rw [← gradientItems_points, Option.map_map, Option.map_map]
    congr 1
    funext its
    show searchRet (_, _) = searchRet _
    rw [searchAllV_fst]
  · unfold hybridGridV hybridGrid
    rw [← hybridItems_points, Option.map_map, Option.map_map]
    congr 1
    funext its
    show searchRet (_, _) = searchRet _
    rw [searchAllV_fst]

/-! ### `Grid` -/

/-- what is known of a run of `gridWithV` -/
theorem gridWithV_cases {cv : Nat → Options F → Run (CVOut F)} {fuel : Nat} {o : GridOptions F} {ret : GridRet F}
    {ms : List (SearchMsg (Int × F) F)} (h : gridWithV cv fuel o = pure (ret, ms)) :
    ∃ its r, gridItems fuel o = some its ∧ ret = gridRet r ∧
      gridLoopV o.verbose o.nCPUs (runItems cv 0 its) [] ((zero, none), []) = pure (r, ms) := by
  unfold gridWithV at h
  split at h
  · rw [ofGo_eq] at h; cases h
  · obtain ⟨its, h1, h⟩ := run_bind_ok h
    obtain ⟨⟨r, m⟩, h2, h⟩ := run_bind_ok h
    rw [run_pure_eq] at h
    simp only [Prod.mk.injEq] at h
    obtain ⟨rfl, rfl⟩ := h
    exact ⟨its, r, ofOption_eq.1 h1, rfl, h2⟩

/-- a point of the grid whose cross-validation reported this -/
def GridReported (cv : Nat → Options F → Run (CVOut F)) (fuel : Nat) (o : GridOptions F) (a : F) (op : Option (Options F)) : Prop :=
  ∃ pts j O out, gridPoints fuel o = some pts ∧ pts[j]? = some O ∧ cv j O = pure out ∧ out.err = false ∧ a = out.acc ∧
    op = some O.fixMcw

/-- the cross-validations report as those of the package do -/
def FairCV (cv : Nat → Options F → Run (CVOut F)) : Prop :=
  ∀ j O out, cv j O = pure out → ∀ a op rest, out.sent = .err false :: .acc a :: .opt op :: rest →
    out.err = false ∧ a = out.acc ∧ op = some O.fixMcw

theorem crossValidation_fair (exp : F → F) (S : GoSort) (D : DataBunch F) (nfold : Int) (idraws : Nat → List Nat)
    (fdraws : Nat → Nat → Nat → F) :
    FairCV fun j O => crossValidation exp S D nfold (some O) true (idraws j) (fdraws j) := by
  intro j O out h a op rest hs
  cases he : out.err with
  | true =>
    obtain ⟨_, hs', _⟩ := C54_error _ _ _ _ _ _ _ _ _ h he
    rw [hs] at hs'
    simp at hs'
  | false =>
    obtain ⟨_, _, _, _, _, _, _, _, _, _, hs', ho⟩ := C54_cross_validation_partial _ _ _ _ _ _ _ _ _ h he
    rw [hs] at hs'
    simp only [if_true, List.cons.injEq, true_and, CVMsg.acc.injEq, CVMsg.opt.injEq] at hs'
    exact ⟨rfl, hs'.1, by rw [hs'.2.1, ho]; rfl⟩

/-- what a point sends when it ends -/
theorem map_sent_eq {x : Run (CVOut F)} {l : List (CVMsg F)} (h : x.map CVOut.sent = pure l) : ∃ out, x = pure out ∧ out.sent = l := by
  cases x with
  | none => cases h
  | some y =>
    cases y with
    | error p => cases h
    | ok out =>
      refine ⟨out, rfl, ?_⟩
      have h' : (some (Except.ok out.sent) : Option (Except Panic (List (CVMsg F)))) = some (.ok l) := h
      injection h' with h'
      injection h'

theorem reports_points {cv : Nat → Options F → Run (CVOut F)} (hf : FairCV cv) {fuel : Nat} {o : GridOptions F}
    {its : List (LoopItem (Int × F) (Options F))} (hi : gridItems fuel o = some its) :
    ∀ p ∈ pointsOf (runItems cv 0 its), Reports (GridReported cv fuel o) p := by
  intro p hp a op rest hpr
  rw [runItems_points] at hp
  obtain ⟨j, hj, rfl⟩ := List.mem_mapIdx.1 hp
  simp only [Nat.zero_add] at hpr
  obtain ⟨out, h1, h2⟩ := map_sent_eq hpr
  obtain ⟨g1, g2, g3⟩ := hf _ _ _ h1 _ _ _ h2
  refine ⟨pointsOf its, j, (pointsOf its)[j], out, ?_, List.getElem?_eq_getElem hj, h1, g1, g2, g3⟩
  rw [← gridItems_points, hi]
  rfl

/-- the lines so far, and the best so far -/
structure LinesInv (Rep : F → Option (Options F) → Prop) (b : BestAcc F) (ms : List (SearchMsg η F)) : Prop where
  last : ((zero, none) :: bestLines ms).getLast? = some b
  sorted : ((zero, none) :: bestLines ms).Pairwise fun x y => (x.1 <. y.1) = true
  rep : ∀ x ∈ bestLines ms, Rep x.1 x.2

theorem linesInv_kept [GoFloatOrd F] (Rep : F → Option (Options F) → Prop) : KeptBy true Rep (LinesInv (η := η) Rep) := by
  rintro ⟨b, ms⟩ a o hr h
  unfold updateBestV
  split
  · rename_i hgt
    have hgt' : (b.1 <. a) = true := hgt
    have e : bestLines (ms ++ [SearchMsg.best a o]) = bestLines ms ++ [(a, o)] := by simp
    simp only [if_true]
    refine ⟨?_, ?_, ?_⟩
    · rw [e, ← List.cons_append]; exact List.getLast?_concat
    · rw [e, ← List.cons_append, List.pairwise_append]
      refine ⟨h.sorted, List.pairwise_singleton _ _, ?_⟩
      intro x hx y hy
      rw [List.mem_singleton] at hy
      subst hy
      obtain ⟨l, hl⟩ := List.getLast?_eq_some_iff.1 h.last
      rw [hl] at hx
      rcases List.mem_append.1 hx with hx | hx
      · have hs := h.sorted
        rw [hl, List.pairwise_append] at hs
        exact GoFloatOrd.lt_trans _ _ _ (hs.2.2 x hx b (by simp)) hgt'
      · rw [List.mem_singleton.1 hx]; exact hgt'
    · intro x hx
      rw [e] at hx
      rcases List.mem_append.1 hx with hx | hx
      · exact h.rep x hx
      · rw [List.mem_singleton.1 hx]; exact hr
  · exact h

/-- **C141 (`Grid`, best lines)**: the accuracies of the lines "New Best Accuracy" are positive and increase strictly. Each line has the
accuracy of the cross-validation of a point of the grid with the options of that point (with `MinChildWeight` raised to 1). When `Grid`
returns without error the last line has the accuracy and the options that it returns; without lines it returns accuracy 0 and nil. -/
theorem C141_grid_best [GoFloatOrd F] (exp : F → F) (S : GoSort) (fuel : Nat) (D : DataBunch F) (nfold : Int)
    (options : Option (GridOptions F)) (idraws : Nat → List Nat) (fdraws : Nat → Nat → Nat → F)
    (hv : (gridOptionsOf options).verbose = true) (ret : GridRet F) (ms : List (SearchMsg (Int × F) F))
    (h : gridV exp S fuel D nfold options idraws fdraws = pure (ret, ms)) :
    (bestLines ms).Pairwise (fun x y => (x.1 <. y.1) = true) ∧ (∀ x ∈ bestLines ms, (zero <. x.1) = true) ∧
    (∀ x ∈ bestLines ms, ∃ pts j O out, gridPoints fuel (gridOptionsOf options) = some pts ∧ pts[j]? = some O ∧
      crossValidation exp S D nfold (some O) true (idraws j) (fdraws j) = pure out ∧ out.err = false ∧ x = (out.acc, some O.fixMcw)) ∧
    (ret.err = false → (bestLines ms).getLast?.getD (zero, none) = (ret.acc, ret.opts)) := by
  obtain ⟨its, r, hi, rfl, hl⟩ := gridWithV_cases h
  rw [hv] at hl
  obtain ⟨b, hb, hr⟩ := gridLoopV_inv (linesInv_kept _) (by
    intro b ms h hb
    have e : bestLines (ms ++ headMsg true h) = bestLines ms := by simp [headMsg]
    exact ⟨by rw [e]; exact hb.last, by rw [e]; exact hb.sorted, by rw [e]; exact hb.rep⟩) _
    (reports_points (crossValidation_fair exp S D nfold idraws fdraws) hi) (fun _ h => by cases h)
    (b := ((zero, none), [])) ⟨rfl, List.pairwise_singleton _ _, fun _ h => by cases h⟩ hl
  have hs := List.pairwise_cons.1 hb.sorted
  refine ⟨hs.2, fun x hx => hs.1 x hx, fun x hx => ?_, fun he => ?_⟩
  · obtain ⟨pts, j, O, out, g1, g2, g3, g4, g5, g6⟩ := hb.rep x hx
    exact ⟨pts, j, O, out, g1, g2, g3, g4, Prod.ext g5 g6⟩
  · cases r with
    | none => cases he
    | some b' =>
      obtain rfl := hr b' rfl
      have := hb.last
      rw [List.getLast?_cons] at this
      exact Option.some.inj this

theorem gridItems_heads {fuel : Nat} {o : GridOptions F} {its : List (LoopItem (Int × F) (Options F))}
    (hi : gridItems fuel o = some its) : ∃ rs cws, o.rounds.ints fuel = some rs ∧
      (rs ≠ [] → o.minChildWeight.floats fuel = some cws) ∧ headsOf its = rs.flatMap fun r => cws.map fun c => (r, c) := by
  have inner : ∀ r its', (nest (o.minChildWeight.floats fuel) fun cw =>
      (gridPointsAt fuel o r cw).map fun pts => LoopItem.head (r, cw) :: pts.map LoopItem.point) = some its' →
      headsOf its' = ((o.minChildWeight.floats fuel).getD []).map fun c => (r, c) := by
    intro r its' h
    obtain ⟨cws, h1, h2⟩ := nest_heads (hs := fun c => [(r, c)]) h (by
      intro c r' h'
      obtain ⟨pts, _, rfl⟩ := Option.map_eq_some_iff.1 h'
      exact segment_heads _ _)
    rw [h2, h1, Option.getD_some, List.map_eq_flatMap]
  unfold gridItems at hi
  obtain ⟨rs, h1, h2⟩ := nest_heads hi inner
  refine ⟨rs, _, h1, ?_, h2⟩
  intro hne
  cases hc : o.minChildWeight.floats fuel with
  | some cws => rfl
  | none =>
    exfalso
    obtain ⟨a, rs', rfl⟩ := List.exists_cons_of_ne_nil hne
    rw [h1, hc] at hi
    simp [nest] at hi

/-- **C141 (`Grid`, headers)**: when `Grid` returns without error there is one header for each value of `Rounds` and each value of
`MinChildWeight`, in the order of the loops (C53 says which values these are). -/
theorem C141_grid_heads (exp : F → F) (S : GoSort) (fuel : Nat) (D : DataBunch F) (nfold : Int)
    (options : Option (GridOptions F)) (idraws : Nat → List Nat) (fdraws : Nat → Nat → Nat → F)
    (hv : (gridOptionsOf options).verbose = true) (ret : GridRet F) (ms : List (SearchMsg (Int × F) F))
    (h : gridV exp S fuel D nfold options idraws fdraws = pure (ret, ms)) (he : ret.err = false) :
    ∃ rs cws, (gridOptionsOf options).rounds.ints fuel = some rs ∧
      (rs ≠ [] → (gridOptionsOf options).minChildWeight.floats fuel = some cws) ∧
      headLines ms = rs.flatMap fun r => cws.map fun c => (r, c) := by
  obtain ⟨its, r, hi, rfl, hl⟩ := gridWithV_cases h
  rw [hv] at hl
  cases r with
  | none => cases he
  | some b =>
    have h1 := gridLoopV_heads _ hl
    rw [runItems_heads] at h1
    obtain ⟨rs, cws, g1, g2, g3⟩ := gridItems_heads hi
    exact ⟨rs, cws, g1, g2, by rw [h1, g3]; rfl⟩

/-- `MinChildWeight` as training uses it -/
def raised (cw : F) : F := if cw <. one then one else cw

theorem fixMcw_raised (O : Options F) : O.fixMcw.minChildWeight = raised O.minChildWeight := by
  unfold Options.fixMcw raised
  split <;> rfl

theorem fixMcw_rounds (O : Options F) : O.fixMcw.rounds = O.rounds := by
  unfold Options.fixMcw
  split <;> rfl

theorem gridItems_segments {fuel : Nat} {o : GridOptions F} {its : List (LoopItem (Int × F) (Options F))}
    (hi : gridItems fuel o = some its) :
    Segments (fun (h : Int × F) (O : Options F) => O.rounds = h.1 ∧ O.minChildWeight = h.2) its := by
  unfold gridItems at hi
  refine nest_segments hi fun r l hl => nest_segments hl fun c l' hl' => ?_
  obtain ⟨pts, hp, rfl⟩ := Option.map_eq_some_iff.1 hl'
  refine .one _ _ ?_
  unfold gridPointsAt at hp
  refine nest_all _ (fun md l h => ?_) hp
  refine nest_all _ (fun css l h => ?_) h
  refine nest_all _ (fun lr l h => ?_) h
  refine nest_all _ (fun lam l h => ?_) h
  refine nest_all _ (fun gam l h => ?_) h
  obtain ⟨ss, _, rfl⟩ := Option.map_eq_some_iff.1 h
  intro O hO
  obtain ⟨s, _, rfl⟩ := List.mem_map.1 hO
  exact ⟨rfl, rfl⟩

theorem runItems_matched {cv : Nat → Options F → Run (CVOut F)} {Match : η → Options F → Prop} {Match' : η → Run (List (CVMsg F)) → Prop}
    (hm : ∀ h j O, Match h O → Match' h ((cv j O).map CVOut.sent)) :
    ∀ (its : List (LoopItem η (Options F))) (c : Option η) (j : Nat), Matched Match c its → Matched Match' c (runItems cv j its)
  | [], _, _, _ => trivial
  | .head h :: its, _, j, hi => runItems_matched hm its (some h) j hi
  | .point _ :: its, c, j, hi =>
    ⟨let ⟨h, h1, h2⟩ := hi.1; ⟨h, h1, hm h j _ h2⟩, runItems_matched hm its c (j + 1) hi.2⟩

/-- **C141 (`Grid`, under the header), one CPU**: each line "New Best Accuracy" is printed under the header with the `Rounds` and the
`MinChildWeight` of its options (raised to 1).

Missing from the full claim: with more CPUs the line can be under a later header (`C141_grid_violated`). -/
theorem C141_grid_under_partial (exp : F → F) (S : GoSort) (fuel : Nat) (D : DataBunch F) (nfold : Int)
    (options : Option (GridOptions F)) (idraws : Nat → List Nat) (fdraws : Nat → Nat → Nat → F)
    (hv : (gridOptionsOf options).verbose = true) (hc : (gridOptionsOf options).nCPUs = 1) (ret : GridRet F)
    (ms : List (SearchMsg (Int × F) F)) (h : gridV exp S fuel D nfold options idraws fdraws = pure (ret, ms)) :
    UnderHead (fun h _ o => ∃ O, o = some O ∧ O.rounds = h.1 ∧ O.minChildWeight = if h.2 <. one then one else h.2) ms := by
  obtain ⟨its, r, hi, rfl, hl⟩ := gridWithV_cases h
  rw [hv, hc] at hl
  have hm := (gridItems_segments hi).matched [] (fun _ => trivial) none
  rw [List.append_nil] at hm
  have hf := crossValidation_fair exp S D nfold idraws fdraws
  refine gridLoopV_under (Match := fun h p => ∃ j O, p = (crossValidation exp S D nfold (some O) true (idraws j) (fdraws j)).map CVOut.sent ∧
    O.rounds = h.1 ∧ O.minChildWeight = h.2) ?_ _ ?_ (underHead_nil _) hl
  · rintro ⟨r, c⟩ p a o rest ⟨j, O, rfl, e1, e2⟩ hp
    obtain ⟨out, h1, h2⟩ := map_sent_eq hp
    obtain ⟨_, _, g3⟩ := hf _ _ _ h1 _ _ _ h2
    refine ⟨_, g3, by rw [fixMcw_rounds]; exact e1, ?_⟩
    rw [fixMcw_raised, e2]
    rfl
  · exact runItems_matched (fun h j O hO => ⟨j, O, rfl, hO⟩) its _ 0 hm

/-! ### The gradient searches -/

/-- the printed accuracies are those recorded, each with options that were measured -/
structure PrintInv (E : SearchEnv F) (s : SearchV η F) : Prop where
  accs : (bestLines s.2).map Prod.fst = s.1.accs
  scored : ∀ x ∈ bestLines s.2, ∃ k O, E.cv k 5 O = ⟨false, x.1⟩ ∧ x.2 = some O.fixMcw

theorem printInv_kept (E : SearchEnv F) (hv : E.o.verbose = true) : KeptV E (PrintInv (η := η) E) := by
  constructor
  · intro s s' ms _ h2 _ _ h
    exact ⟨by rw [h2]; exact h.accs, h.scored⟩
  · rintro ⟨s, ms⟩ t tprev h
    unfold compareAccsV compareAccs bestMsg
    simp only
    split
    · simp only [List.append_nil]; exact ⟨h.accs, h.scored⟩
    · rename_i hne
      split
      · rename_i hrej
        have hrej' : (s.accs.getLast?.map ((E.cv s.calls.length 5 (s.deref t)).acc <. ·)) = some true := hrej
        rw [if_pos hrej', List.append_nil]
        exact ⟨h.accs, h.scored⟩
      · rename_i hrej
        have hrej' : ¬ (s.accs.getLast?.map ((E.cv s.calls.length 5 (s.deref t)).acc <. ·)) = some true := hrej
        rw [if_neg hrej']
        split
        · rename_i hgt
          have hgt' : gt (E.cv s.calls.length 5 (s.deref t)).acc s.best = true := hgt
          simp only [hgt', hv, if_true]
          constructor
          · show (bestLines (ms ++ _)).map Prod.fst = s.accs ++ _
            rw [bestLines_append, List.map_append]
            have := h.accs
            simp only at this
            rw [this]
            rfl
          · intro x hx
            have hx' : x ∈ bestLines (ms ++ [SearchMsg.best (E.cv s.calls.length 5 (s.deref t)).acc (some (s.deref t).fixMcw)]) := hx
            rw [bestLines_append] at hx'
            rcases List.mem_append.1 hx' with hx' | hx'
            · exact h.scored x hx'
            · have hx'' := List.mem_singleton.1 hx'
              subst hx''
              refine ⟨s.calls.length, s.deref t, ?_, rfl⟩
              simp only [Bool.not_eq_true] at hne
              cases hc : E.cv s.calls.length 5 (s.deref t) with
              | mk e a => rw [hc] at hne; simp only at hne; subst hne; rfl
        · rename_i hgt
          have hgt' : ¬ gt (E.cv s.calls.length 5 (s.deref t)).acc s.best = true := hgt
          rw [if_neg hgt', List.append_nil]
          exact ⟨h.accs, h.scored⟩
  · intro s ms h hb
    have e : bestLines (ms ++ headMsg E.o.verbose h) = bestLines ms := by simp [headMsg, hv]
    exact ⟨by rw [e]; exact hb.accs, by rw [e]; exact hb.scored⟩

theorem searchRetV_best {E : SearchEnv F} (hv : E.o.verbose = true) {nfold : Int} {its : List (LoopItem η (Options F))}
    {ret : GridRet F} {ms : List (SearchMsg η F)} (h : searchRetV (searchAllV E nfold its (searchStart, [])) = (ret, ms)) :
    (∀ x ∈ bestLines ms, ∃ k O, E.cv k 5 O = ⟨false, x.1⟩ ∧ x.2 = some O.fixMcw) ∧
    (ret.err = false → (bestLines ms).map Prod.fst = ret.accs) := by
  have hi := searchAllV_kept (printInv_kept (η := η) E hv) nfold its (searchStart, []) ⟨rfl, fun _ h => by cases h⟩
  unfold searchRetV at h
  simp only [Prod.mk.injEq] at h
  obtain ⟨h1, rfl⟩ := h
  refine ⟨hi.scored, fun he => ?_⟩
  rw [hi.accs, ← h1]
  cases hb : (searchAllV E nfold its (searchStart, [])).2 with
  | false => rw [hb] at h1; rw [← h1] at he; cases he
  | true => rfl

/-- **C141 (gradient searches, best lines)**: each line "New best accuracy" of `GradientGrid` and `HybridGradientGrid` has an accuracy
that a cross-validation reported and the options for which it did (with `MinChildWeight` raised to 1). When the search returns without
error the accuracies of the lines are the returned ones, in the same order. -/
theorem C141_search_best (fuel : Nat) (E : SearchEnv F) (hv : E.o.verbose = true) (nfold : Int) (ret : GridRet F) :
    (∀ ms, gradientGridV fuel E nfold = some (ret, ms) →
      (∀ x ∈ bestLines ms, ∃ k O, E.cv k 5 O = ⟨false, x.1⟩ ∧ x.2 = some O.fixMcw) ∧
      (ret.err = false → (bestLines ms).map Prod.fst = ret.accs)) ∧
    (∀ ms, hybridGridV fuel E nfold = some (ret, ms) →
      (∀ x ∈ bestLines ms, ∃ k O, E.cv k 5 O = ⟨false, x.1⟩ ∧ x.2 = some O.fixMcw) ∧
      (ret.err = false → (bestLines ms).map Prod.fst = ret.accs)) := by
  constructor
  · intro ms h
    obtain ⟨its, _, h⟩ := Option.map_eq_some_iff.1 h
    exact searchRetV_best hv h
  · intro ms h
    obtain ⟨its, _, h⟩ := Option.map_eq_some_iff.1 h
    exact searchRetV_best hv h

theorem searchRetV_heads {E : SearchEnv F} (hv : E.o.verbose = true) {nfold : Int} {its : List (LoopItem η (Options F))}
    {ret : GridRet F} {ms : List (SearchMsg η F)} (h : searchRetV (searchAllV E nfold its (searchStart, [])) = (ret, ms))
    (he : ret.err = false) : headLines ms = headsOf its := by
  unfold searchRetV at h
  simp only [Prod.mk.injEq] at h
  obtain ⟨h1, rfl⟩ := h
  rw [searchAllV_heads hv nfold its (searchStart, []) ?_]
  · rfl
  · cases hb : (searchAllV E nfold its (searchStart, [])).2 with
    | false => rw [hb] at h1; rw [← h1] at he; cases he
    | true => rfl

/-- **C141 (gradient searches, headers)**: when it returns without error, `GradientGrid` has printed one header for each value of
`MinChildWeight`, and `HybridGradientGrid` one for each value of `Rounds` and each of `MinChildWeight`, in the order of the loops. -/
theorem C141_search_heads (fuel : Nat) (E : SearchEnv F) (hv : E.o.verbose = true) (nfold : Int) (ret : GridRet F)
    (he : ret.err = false) :
    (∀ ms, gradientGridV fuel E nfold = some (ret, ms) → E.o.minChildWeight.floats fuel = some (headLines ms)) ∧
    (∀ ms, hybridGridV fuel E nfold = some (ret, ms) → ∃ rs cws, E.o.rounds.ints fuel = some rs ∧
      (rs ≠ [] → E.o.minChildWeight.floats fuel = some cws) ∧ headLines ms = rs.flatMap fun r => cws.map fun c => (r, c)) := by
  constructor
  · intro ms h
    obtain ⟨its, hi, h⟩ := Option.map_eq_some_iff.1 h
    rw [searchRetV_heads hv h he]
    unfold gradientItems at hi
    obtain ⟨cws, h1, h2⟩ := nest_heads (hs := fun c => [c]) hi (by
      intro c r' h'
      obtain ⟨pts, _, rfl⟩ := Option.map_eq_some_iff.1 h'
      exact segment_heads _ _)
    rw [h1, h2]
    simp
  · intro ms h
    obtain ⟨its, hi, h⟩ := Option.map_eq_some_iff.1 h
    rw [searchRetV_heads hv h he]
    have inner : ∀ r its', (nest (E.o.minChildWeight.floats fuel) fun cw =>
        (hybridInitsAt fuel E.o r cw).map fun pts => LoopItem.head (r, cw) :: pts.map LoopItem.point) = some its' →
        headsOf its' = ((E.o.minChildWeight.floats fuel).getD []).map fun c => (r, c) := by
      intro r its' h
      obtain ⟨cws, h1, h2⟩ := nest_heads (hs := fun c => [(r, c)]) h (by
        intro c r' h'
        obtain ⟨pts, _, rfl⟩ := Option.map_eq_some_iff.1 h'
        exact segment_heads _ _)
      rw [h2, h1, Option.getD_some, List.map_eq_flatMap]
    unfold hybridItems at hi
    obtain ⟨rs, h1, h2⟩ := nest_heads hi inner
    refine ⟨rs, _, h1, ?_, h2⟩
    intro hne
    cases hc : E.o.minChildWeight.floats fuel with
    | some cws => rfl
    | none =>
      exfalso
      obtain ⟨a, rs', rfl⟩ := List.exists_cons_of_ne_nil hne
      rw [h1, hc] at hi
      simp [nest] at hi

/-- the weight is the one of the header or, if that is below 1, it is 1 -/
def WeightOf (cw : F) (O : Options F) : Prop :=
  O.minChildWeight = cw ∨ ((cw <. one) = true ∧ O.minChildWeight = one)

theorem weightOf_prop {E : SearchEnv F} {nfold : Int} (hg : RealSteps E nfold) (cw : F) : OptProp E nfold (WeightOf cw) := by
  have hfix : ∀ o, WeightOf cw o → WeightOf cw o.fixMcw := by
    intro o h
    unfold Options.fixMcw
    split
    · rename_i hlt
      rcases h with h | h
      · exact Or.inr ⟨by rw [← h]; exact hlt, rfl⟩
      · exact Or.inr ⟨h.1, rfl⟩
    · exact h
  refine ⟨fun o h => h, hfix, fun k o h => ?_, fun d o q h => h⟩
  obtain ⟨fuel, G, curr, hr⟩ := hg k o
  rcases gradReturns_others hr with h' | h'
  · unfold WeightOf
    rw [(SameOthers.facts h').1]
    exact h
  · unfold WeightOf
    rw [(SameOthers.facts h').1]
    exact hfix o h

theorem weightOf_printed {cw : F} {O : Options F} (h : WeightOf cw O) : O.fixMcw.minChildWeight = raised cw := by
  rw [fixMcw_raised]
  rcases h with h | ⟨h1, h2⟩
  · rw [h]
  · rw [h2]
    unfold raised
    rw [if_pos h1]
    split <;> rfl

/-- **C141 (gradient searches, under the header)**: each line "New best accuracy" is printed under the header with the `MinChildWeight` of
its options (raised to 1), for all accuracies, random numbers and steps that `GradStep` can make. -/
theorem C141_search_under (fuel : Nat) (E : SearchEnv F) (hv : E.o.verbose = true) (nfold : Int) (hg : RealSteps E nfold)
    (ret : GridRet F) :
    (∀ ms, gradientGridV fuel E nfold = some (ret, ms) →
      UnderHead (fun cw _ o => ∃ O, o = some O ∧ O.minChildWeight = if cw <. one then one else cw) ms) ∧
    (∀ ms, hybridGridV fuel E nfold = some (ret, ms) →
      UnderHead (fun h _ o => ∃ O, o = some O ∧ O.minChildWeight = if h.2 <. one then one else h.2) ms) := by
  constructor
  · intro ms h
    obtain ⟨its, hi, h⟩ := Option.map_eq_some_iff.1 h
    have hm : Segments WeightOf its := by
      unfold gradientItems at hi
      refine nest_segments hi fun c l' hl' => ?_
      obtain ⟨pts, hp, rfl⟩ := Option.map_eq_some_iff.1 hl'
      refine .one _ _ ?_
      unfold gradientInitsAt at hp
      obtain ⟨mds, _, rfl⟩ := Option.map_eq_some_iff.1 hp
      intro O hO
      obtain ⟨s, _, rfl⟩ := List.mem_map.1 hO
      exact Or.inl rfl
    have hm := hm.matched [] (fun _ => trivial) none
    rw [List.append_nil] at hm
    have := searchAllV_under (Q := fun cw _ o => ∃ O, o = some O ∧ O.minChildWeight = if cw <. one then one else cw) hv
      (fun cw => weightOf_prop hg cw) (fun cw a O hO => ⟨_, rfl, weightOf_printed hO⟩) its (searchStart, []) hm (underHead_nil _)
    unfold searchRetV at h
    simp only [Prod.mk.injEq] at h
    rw [← h.2]
    exact this
  · intro ms h
    obtain ⟨its, hi, h⟩ := Option.map_eq_some_iff.1 h
    have hm : Segments (fun (h : Int × F) => WeightOf h.2) its := by
      unfold hybridItems at hi
      refine nest_segments hi fun r l hl => nest_segments hl fun c l' hl' => ?_
      obtain ⟨pts, hp, rfl⟩ := Option.map_eq_some_iff.1 hl'
      refine .one _ _ ?_
      unfold hybridInitsAt at hp
      refine nest_all _ (fun md l h => ?_) hp
      obtain ⟨lams, _, rfl⟩ := Option.map_eq_some_iff.1 h
      intro O hO
      obtain ⟨s, _, rfl⟩ := List.mem_map.1 hO
      exact Or.inl rfl
    have hm := hm.matched [] (fun _ => trivial) none
    rw [List.append_nil] at hm
    have := searchAllV_under (Q := fun (h : Int × F) _ o => ∃ O, o = some O ∧ O.minChildWeight = if h.2 <. one then one else h.2) hv
      (fun h => weightOf_prop hg h.2) (fun cw a O hO => ⟨_, rfl, weightOf_printed hO⟩) its (searchStart, []) hm (underHead_nil _)
    unfold searchRetV at h
    simp only [Prod.mk.injEq] at h
    rw [← h.2]
    exact this

/-! ### Without `Verbose` -/

/-- **C141 (quiet)**: without `Verbose` the searches print nothing. -/
theorem C141_quiet (exp : F → F) (S : GoSort) (fuel : Nat) (D : DataBunch F) (nfold : Int) (options : Option (GridOptions F))
    (idraws : Nat → List Nat) (fdraws : Nat → Nat → Nat → F) (E : SearchEnv F) (ret : GridRet F) :
    ((gridOptionsOf options).verbose = false → ∀ ms, gridV exp S fuel D nfold options idraws fdraws = pure (ret, ms) → ms = []) ∧
    (E.o.verbose = false → ∀ ms, gradientGridV fuel E nfold = some (ret, ms) → ms = []) ∧
    (E.o.verbose = false → ∀ ms, hybridGridV fuel E nfold = some (ret, ms) → ms = []) := by
  have hk : ∀ (η : Type), E.o.verbose = false → KeptV E fun s : SearchV η F => s.2 = [] := by
    intro η hv
    refine ⟨fun s s' ms _ _ _ _ h => h, fun s t tprev h => ?_, fun s ms h hm => ?_⟩
    · show s.2 ++ bestMsg E s.1 t = []
      have : bestMsg E s.1 t = ([] : List (SearchMsg η F)) := by
        unfold bestMsg
        simp only [hv]
        split
        · rfl
        · split
          · rfl
          · split <;> rfl
      rw [h, this, List.append_nil]
    · show ms ++ headMsg E.o.verbose h = []
      have hm' : ms = [] := hm
      rw [hm', hv]
      rfl
  refine ⟨fun hv ms h => ?_, fun hv ms h => ?_, fun hv ms h => ?_⟩
  · obtain ⟨its, r, hi, rfl, hl⟩ := gridWithV_cases h
    rw [hv] at hl
    obtain ⟨_, hb, _⟩ := gridLoopV_inv (Rep := fun _ _ => True) (P := fun _ ms => ms = []) (by
      rintro ⟨b, ms⟩ a o _ h
      unfold updateBestV
      split <;> exact h) (by
      intro b ms h hb
      rw [hb]; rfl) _ (fun _ _ _ _ _ _ => trivial) (fun _ h => by cases h) rfl hl
    exact hb
  · obtain ⟨its, hi, h⟩ := Option.map_eq_some_iff.1 h
    have := searchAllV_kept (hk _ hv) nfold its (searchStart, []) rfl
    unfold searchRetV at h
    simp only [Prod.mk.injEq] at h
    rw [← h.2]
    exact this
  · obtain ⟨its, hi, h⟩ := Option.map_eq_some_iff.1 h
    have := searchAllV_kept (hk _ hv) nfold its (searchStart, []) rfl
    unfold searchRetV at h
    simp only [Prod.mk.injEq] at h
    rw [← h.2]
    exact this

/-! ### What is wrong -/

/-- two values of `Rounds`, one of everything else -/
def twoRounds (nCPUs : Int) : GridOptions F64 :=
  { onePoint nCPUs with rounds := ⟨20, 40, 20⟩, verbose := true }

/-- the point of `twoRounds` with the given `Rounds` -/
def roundsPoint (n : Int) (rounds : Int) : Options F64 :=
  gridPoint (twoRounds n) rounds (.fin 3) 5 (.fin (1/2)) (.fin (1/2)) (.fin 1) (.fin 0) (.fin (1/2))

theorem twoRounds_items (n : Int) : gridItems 3 (twoRounds n) =
    some [.head (20, .fin 3), .point (roundsPoint n 20), .head (40, .fin 3), .point (roundsPoint n 40)] := by
  have h1 : (twoRounds n).rounds.ints 3 = some [20, 40] := rfl
  have h2 : (twoRounds n).minChildWeight.floats 3 = some [.fin 3] := by
    show floatLoop 3 (XF.fin 3 : F64) (.fin 3) (.fin 1) = _
    decide +kernel
  have h3 : (twoRounds n).maxDepth.ints 3 = some [5] := rfl
  have h4 : (twoRounds n).colSubSample.floats 3 = some [.fin (1/2)] := by
    show floatLoop 3 (XF.fin (1/2) : F64) (.fin (1/2)) (.fin 1) = _
    decide +kernel
  have h5 : (twoRounds n).learningRate.floats 3 = some [.fin (1/2)] := h4
  have h6 : (twoRounds n).lambda.floats 3 = some [.fin 1] := by
    show floatLoop 3 (XF.fin 1 : F64) (.fin 1) (.fin 1) = _
    decide +kernel
  have h7 : (twoRounds n).gamma.floats 3 = some [.fin 0] := by
    show floatLoop 3 (XF.fin 0 : F64) (.fin 0) (.fin 1) = _
    decide +kernel
  have h8 : (twoRounds n).subSample.floats 3 = some [.fin (1/2)] := h4
  have hp : ∀ r, gridPointsAt 3 (twoRounds n) r (.fin 3) = some [roundsPoint n r] := by
    intro r
    unfold gridPointsAt
    rw [h3, nest_single, h4, nest_single, h5, nest_single, h6, nest_single, h7, nest_single, h8]
    rfl
  unfold gridItems
  rw [h1, h2]
  unfold nest
  simp [hp]

theorem rescueOneV_ok (v : Bool) (b : BestAcc F × List (SearchMsg η F)) {a : F} (ha : (a <. zero) = false) (o : Option (Options F)) :
    rescueOneV v b [.err false, .acc a, .opt o] = pure (some (updateBestV v b a o).1, (updateBestV v b a o).2) := by
  unfold rescueOneV
  simp [ha]

theorem gridLoopV_two (h1 h2 : η) {a1 a2 : F} (n1 : (a1 <. zero) = false) (n2 : (a2 <. zero) = false) (o1 o2 : Option (Options F))
    (b : BestAcc F) :
    gridLoopV true 2 [.head h1, .point (pure [.err false, .acc a1, .opt o1]), .head h2, .point (pure [.err false, .acc a2, .opt o2])]
      [] (b, []) = pure (some (updateBestV true (updateBestV true (b, [.head h1, .head h2]) a1 o1) a2 o2).1,
        (updateBestV true (updateBestV true (b, [.head h1, .head h2]) a1 o1) a2 o2).2) := by
  show (rescueConcValuesV true [[.err false, .acc a1, .opt o1], [.err false, .acc a2, .opt o2]]
        ((b, [.head h1, .head h2]) : BestAcc F × List (SearchMsg η F)) >>= _) = _
  have e : rescueConcValuesV true [[.err false, .acc a1, .opt o1], [.err false, .acc a2, .opt o2]]
        ((b, [.head h1, .head h2]) : BestAcc F × List (SearchMsg η F)) =
      pure (some (updateBestV true (updateBestV true (b, [.head h1, .head h2]) a1 o1) a2 o2).1,
        (updateBestV true (updateBestV true (b, [.head h1, .head h2]) a1 o1) a2 o2).2) := by
    unfold rescueConcValuesV
    rw [run_bind_some (rescueOneV_ok _ _ n1 _)]
    simp only
    unfold rescueConcValuesV
    rw [run_bind_some (rescueOneV_ok _ _ n2 _)]
    rfl
  rw [run_bind_some e]
  rfl

/-- **C141 violated (`Grid`)**: with 2 CPUs and two values of `Rounds`, whatever positive accuracies the cross-validations report, the
accuracy of the point with 20 rounds is printed under the header "Rounds: 40". -/
theorem C141_grid_violated (cv : Nat → Options F64 → Run (CVOut F64)) (acc : Nat → F64) (hpos : ∀ j, (zero <. acc j) = true)
    (hcv : ∀ j O, cv j O = pure ⟨[.err false, .acc (acc j), .opt (some O.fixMcw)], acc j, false, some O.fixMcw⟩) :
    (twoRounds 2).nCPUs = 2 ∧ (twoRounds 2).verbose = true ∧ ∃ ret ms, gridWithV cv 3 (twoRounds 2) = pure (ret, ms) ∧ ret.err = false ∧
      ∃ before O after, ms = before ++ .best (acc 0) (some O) :: after ∧ O.rounds = 20 ∧
        (headLines before).getLast? = some (40, .fin 3) := by
  have hneg : ∀ j, (acc j <. zero) = false := by
    intro j
    rw [Bool.eq_false_iff]
    intro h
    have := GoFloatOrd.lt_trans _ _ _ h (hpos j)
    exact absurd this (by rw [Bool.not_eq_true]; exact GoFloatOrd.lt_irrefl _)
  refine ⟨rfl, rfl, ?_⟩
  have hl : gridWithV cv 3 (twoRounds 2) = pure (gridRet (some (updateBestV true (updateBestV true
      ((zero, none), [SearchMsg.head ((20 : Int), (XF.fin 3 : F64)), .head (40, .fin 3)]) (acc 0) (some (roundsPoint 2 20).fixMcw))
        (acc 1) (some (roundsPoint 2 40).fixMcw)).1), (updateBestV true (updateBestV true
      ((zero, none), [SearchMsg.head ((20 : Int), (XF.fin 3 : F64)), .head (40, .fin 3)]) (acc 0) (some (roundsPoint 2 20).fixMcw))
        (acc 1) (some (roundsPoint 2 40).fixMcw)).2) := by
    unfold gridWithV
    rw [if_neg (by decide), twoRounds_items, ofOption_eq.2 rfl, run_bind_some rfl]
    have e : runItems cv 0 [.head ((20 : Int), (XF.fin 3 : F64)), .point (roundsPoint 2 20), .head (40, .fin 3), .point (roundsPoint 2 40)] =
        [.head (20, .fin 3), .point (pure [.err false, .acc (acc 0), .opt (some (roundsPoint 2 20).fixMcw)]), .head (40, .fin 3),
          .point (pure [.err false, .acc (acc 1), .opt (some (roundsPoint 2 40).fixMcw)])] := by
      simp only [runItems, hcv]
      rfl
    rw [e]
    show (gridLoopV true 2 _ [] ((zero, none), []) >>= _) = _
    rw [gridLoopV_two _ _ (hneg 0) (hneg 1)]
    rfl
  refine ⟨_, _, hl, rfl, [.head (20, .fin 3), .head (40, .fin 3)], (roundsPoint 2 20).fixMcw, ?_⟩
  have hb0 : updateBestV true ((zero, none), [SearchMsg.head ((20 : Int), (XF.fin 3 : F64)), .head (40, .fin 3)])
      (acc 0) (some (roundsPoint 2 20).fixMcw) = ((acc 0, some (roundsPoint 2 20).fixMcw),
        [.head (20, .fin 3), .head (40, .fin 3), .best (acc 0) (some (roundsPoint 2 20).fixMcw)]) := by
    unfold updateBestV
    rw [if_pos (by exact hpos 0)]
    rfl
  rw [hb0]
  have hr : (roundsPoint 2 20).fixMcw.rounds = 20 := by rw [fixMcw_rounds]; rfl
  unfold updateBestV
  split
  · exact ⟨[.best (acc 1) (some (roundsPoint 2 40).fixMcw)], rfl, hr, rfl⟩
  · exact ⟨[], rfl, hr, rfl⟩

/-- the hypotheses are met: all accuracies are 90 -/
example : ∃ (cv : Nat → Options F64 → Run (CVOut F64)) (acc : Nat → F64), (∀ j, (zero <. acc j) = true) ∧
    ∀ j O, cv j O = pure ⟨[.err false, .acc (acc j), .opt (some O.fixMcw)], acc j, false, some O.fixMcw⟩ :=
  ⟨fun _ O => pure ⟨[.err false, .acc (.fin 90), .opt (some O.fixMcw)], .fin 90, false, some O.fixMcw⟩, fun _ => .fin 90,
    fun _ => (by decide +kernel : (zero <. (XF.fin 90 : F64)) = true), fun _ _ => rfl⟩

/-- the search of `C57_violated` with `Verbose` -/
def loudPeak : SearchEnv (Exact ℚ) := { peakSearch with o := { peakSearch.o with verbose := true } }

/-- **C141 violated (gradient searches)**: the options that are returned are not those of the last line "New best accuracy". The only line
has accuracy 90 and options with which the cross-validation reports 90; the search returns accuracy 90 with options for which it reports
50, as the step after the line changed them in place (C57). -/
theorem C141_search_violated : ∃ ret ms O O', gradientGridV 3 loudPeak 5 = some (ret, ms) ∧ ret.err = false ∧
    bestLines ms = [(.fin 90, some O)] ∧ peakAcc O = 90 ∧ ret.acc = .fin 90 ∧ ret.opts = some O' ∧ peakAcc O' = 50 ∧
    (∀ k nfold O, loudPeak.cv k nfold O = ⟨false, .fin (peakAcc O)⟩) ∧ loudPeak.o.verbose = true := by
  have h1 : ((gradientGridV 3 loudPeak 5).map fun r => (r.1.err, r.1.acc, r.1.opts.map peakAcc)) =
      some (false, .fin 90, some 50) := by decide +kernel
  have h2 : ((gradientGridV 3 loudPeak 5).map fun r => (bestLines r.2).map fun x => (x.1, x.2.map peakAcc)) =
      some [(.fin 90, some 90)] := by decide +kernel
  obtain ⟨⟨ret, ms⟩, hr, h1⟩ := Option.map_eq_some_iff.1 h1
  rw [hr] at h2
  simp only [Option.map_some, Option.some.injEq] at h2
  simp only [Prod.mk.injEq] at h1
  obtain ⟨e1, e2, e3⟩ := h1
  obtain ⟨O', hO, e3⟩ := Option.map_eq_some_iff.1 e3
  obtain ⟨x, hx, h3⟩ := List.map_eq_singleton_iff.1 h2
  simp only [Prod.mk.injEq] at h3
  obtain ⟨O, hO2, e4⟩ := Option.map_eq_some_iff.1 h3.2
  exact ⟨ret, ms, O, O', hr, e1, by rw [hx, ← h3.1, ← hO2], e4, e2, hO, e3, fun _ _ _ => rfl, rfl⟩

/-! ### The text -/

theorem text_lines {α : Type} (txt body : α → List Char) (ms : List α) (h : ∀ m ∈ ms, txt m = body m ++ ['\n'] ∧ '\n' ∉ body m) :
    linesIn (ms.flatMap txt) = ms.map body ++ [[]] := by
  have e : ms.flatMap txt = (ms.map body).flatMap fun l => l ++ ['\n'] := by
    rw [List.flatMap_map]
    clear * - h
    induction ms with
    | nil => rfl
    | cons a ms ih =>
      rw [List.flatMap_cons, List.flatMap_cons, ih fun m hm => h m (List.mem_cons_of_mem _ hm), (h a (by simp)).1]
  rw [e, linesIn_blocks]
  intro l hl
  obtain ⟨m, hm, rfl⟩ := List.mem_map.1 hl
  exact (h m hm).2

theorem options_noNewline (fmt3 : F → List Char) (hf : ∀ x, IsField (fmt3 x)) (O : Options F) : '\n' ∉ O.string fmt3 := by
  have hi := fun x : Int => (isField_fmtInt x).noNewline
  have hf' := fun x => (hf x).noNewline
  unfold Options.string
  split <;> simp [hi, hf']

theorem optText_noNewline (V : VerbText F) (h3 : ∀ x, IsField (V.fmt3 x)) (o : Option (Options F)) : '\n' ∉ optText V o := by
  cases o with
  | none => exact List.not_mem_nil
  | some O => exact options_noNewline _ h3 O

theorem fields_word (w r : List Char) (h : IsField w) : strFields (w ++ ' ' :: r) = w :: strFields r := by
  rw [strFields_append _ _ _ (by decide), strFields_word w h.1 h.2]
  rfl

theorem roundsHead_fields (V : VerbText F) (hv : ∀ x, IsField (V.fmtv x)) (h : Int × F) :
    strFields ("Rounds:  ".toList ++ fmtInt h.1 ++ " MinChildWeight: ".toList ++ V.fmtv h.2) =
      ["Rounds:".toList, fmtInt h.1, "MinChildWeight:".toList, V.fmtv h.2] := by
  have e : "Rounds:  ".toList ++ fmtInt h.1 ++ " MinChildWeight: ".toList ++ V.fmtv h.2 =
      "Rounds:".toList ++ ' ' :: ([] ++ ' ' :: (fmtInt h.1 ++ ' ' :: ("MinChildWeight:".toList ++ ' ' :: V.fmtv h.2))) := by
    simp
  rw [e, fields_word _ _ ⟨by decide, by decide⟩, strFields_append _ _ _ (by decide), fields_word _ _ (isField_fmtInt _),
    fields_word _ _ ⟨by decide, by decide⟩, strFields_word _ (hv _).1 (hv _).2]
  rfl

theorem newBest_fields (V : VerbText F) (hv : ∀ x, IsField (V.fmtv x)) (a : F) (t : List Char) :
    strFields ("New best accuracy:  ".toList ++ V.fmtv a ++ [' '] ++ t) =
      ["New".toList, "best".toList, "accuracy:".toList, V.fmtv a] ++ strFields t := by
  have e : "New best accuracy:  ".toList ++ V.fmtv a ++ [' '] ++ t =
      "New".toList ++ ' ' :: ("best".toList ++ ' ' :: ("accuracy:".toList ++ ' ' :: ([] ++ ' ' :: (V.fmtv a ++ ' ' :: t)))) := by
    simp
  rw [e, fields_word _ _ ⟨by decide, by decide⟩, fields_word _ _ ⟨by decide, by decide⟩, fields_word _ _ ⟨by decide, by decide⟩,
    strFields_append _ _ _ (by decide), fields_word _ _ (hv _)]
  rfl

/-- **C141 (text, `Grid`)**: the standard output has one line for each message, in the same order; the words of a header line give the
number of rounds and the `MinChildWeight`, those of a line "New Best Accuracy" the accuracy without decimals and a percent sign, and the
words of the options (see `C92_options`). Of `%v`, `%.0f` and `%.3f` only this is used: they give a text without white space. -/
theorem C141_text_grid (V : VerbText F) (h0 : ∀ x, IsField (V.fmt0 x)) (h3 : ∀ x, IsField (V.fmt3 x)) (hv : ∀ x, IsField (V.fmtv x))
    (ms : List (SearchMsg (Int × F) F)) (hs : ∀ a o, .best a o ∈ ms → o ≠ none) :
    ∃ lines, linesIn (ms.flatMap (gridText V)) = lines ++ [[]] ∧ List.Forall₂ (fun m line => match m with
      | .head h => strFields line = ["Rounds:".toList, fmtInt h.1, "MinChildWeight:".toList, V.fmtv h.2]
      | .best a o => ∃ O, o = some O ∧ strFields line =
          ["New".toList, "Best".toList, "Accuracy".toList, V.fmt0 a ++ "%,".toList] ++ strFields (O.string V.fmt3)) ms lines := by
  let body : SearchMsg (Int × F) F → List Char
    | .head h => "Rounds:  ".toList ++ fmtInt h.1 ++ " MinChildWeight: ".toList ++ V.fmtv h.2
    | .best a o => "New Best Accuracy ".toList ++ V.fmt0 a ++ "%, ".toList ++ optText V o
  have n0 := fun x => (h0 x).noNewline
  have nv := fun x => (hv x).noNewline
  have ni := fun x : Int => (isField_fmtInt x).noNewline
  have no := optText_noNewline V h3
  refine ⟨ms.map body, text_lines _ _ _ ?_, ?_⟩
  · rintro (⟨r, cw⟩ | ⟨a, o⟩) _
    · exact ⟨rfl, by simp [body, ni, nv]⟩
    · exact ⟨rfl, by simp [body, n0, no]⟩
  · rw [List.forall₂_map_right_iff, List.forall₂_same]
    rintro (h | ⟨a, o⟩) hm
    · exact roundsHead_fields V hv h
    · obtain ⟨O, rfl⟩ := Option.ne_none_iff_exists'.1 (hs a o hm)
      refine ⟨O, rfl, ?_⟩
      have hw : IsField (V.fmt0 a ++ "%,".toList) := by
        refine ⟨by simp, fun x hx => ?_⟩
        rcases List.mem_append.1 hx with hx | hx
        · exact (h0 a).2 x hx
        · have : ∀ y ∈ "%,".toList, isSpace y = false := by decide
          exact this x hx
      have e : "New Best Accuracy ".toList ++ V.fmt0 a ++ "%, ".toList ++ O.string V.fmt3 =
          "New".toList ++ ' ' :: ("Best".toList ++ ' ' :: ("Accuracy".toList ++ ' ' :: ((V.fmt0 a ++ "%,".toList) ++ ' ' :: O.string V.fmt3))) := by
        simp
      show strFields ("New Best Accuracy ".toList ++ V.fmt0 a ++ "%, ".toList ++ O.string V.fmt3) = _
      rw [e, fields_word _ _ ⟨by decide, by decide⟩, fields_word _ _ ⟨by decide, by decide⟩, fields_word _ _ ⟨by decide, by decide⟩,
        fields_word _ _ hw]
      rfl

/-- **C141 (text, gradient searches)**: the same for `GradientGrid` and `HybridGradientGrid`, whose lines "New best accuracy" have the
accuracy as `Println` gives it; the header of `GradientGrid` has the weight alone. -/
theorem C141_text_search (V : VerbText F) (h3 : ∀ x, IsField (V.fmt3 x)) (hv : ∀ x, IsField (V.fmtv x)) :
    (∀ ms : List (SearchMsg F F), (∀ a o, .best a o ∈ ms → o ≠ none) →
      ∃ lines, linesIn (ms.flatMap (gradientText V)) = lines ++ [[]] ∧ List.Forall₂ (fun m line => match m with
        | .head cw => strFields line = ["ChildrenWeight:".toList, V.fmtv cw]
        | .best a o => ∃ O, o = some O ∧ strFields line =
            ["New".toList, "best".toList, "accuracy:".toList, V.fmtv a] ++ strFields (O.string V.fmt3)) ms lines) ∧
    (∀ ms : List (SearchMsg (Int × F) F), (∀ a o, .best a o ∈ ms → o ≠ none) →
      ∃ lines, linesIn (ms.flatMap (hybridText V)) = lines ++ [[]] ∧ List.Forall₂ (fun m line => match m with
        | .head h => strFields line = ["Rounds:".toList, fmtInt h.1, "MinChildWeight:".toList, V.fmtv h.2]
        | .best a o => ∃ O, o = some O ∧ strFields line =
            ["New".toList, "best".toList, "accuracy:".toList, V.fmtv a] ++ strFields (O.string V.fmt3)) ms lines) := by
  have nv := fun x => (hv x).noNewline
  have ni := fun x : Int => (isField_fmtInt x).noNewline
  have no := optText_noNewline V h3
  constructor
  · intro ms hs
    let body : SearchMsg F F → List Char
      | .head cw => "ChildrenWeight: ".toList ++ V.fmtv cw
      | .best a o => "New best accuracy:  ".toList ++ V.fmtv a ++ [' '] ++ optText V o
    refine ⟨ms.map body, text_lines _ _ _ ?_, ?_⟩
    · rintro (cw | ⟨a, o⟩) _
      · exact ⟨rfl, by simp [body, nv]⟩
      · exact ⟨rfl, by simp [body, nv, no]⟩
    · rw [List.forall₂_map_right_iff, List.forall₂_same]
      rintro (cw | ⟨a, o⟩) hm
      · have e : "ChildrenWeight: ".toList ++ V.fmtv cw = "ChildrenWeight:".toList ++ ' ' :: V.fmtv cw := by simp
        show strFields ("ChildrenWeight: ".toList ++ V.fmtv cw) = _
        rw [e, fields_word _ _ ⟨by decide, by decide⟩, strFields_word _ (hv _).1 (hv _).2]
      · obtain ⟨O, rfl⟩ := Option.ne_none_iff_exists'.1 (hs a o hm)
        exact ⟨O, rfl, newBest_fields V hv a _⟩
  · intro ms hs
    let body : SearchMsg (Int × F) F → List Char
      | .head h => "Rounds:  ".toList ++ fmtInt h.1 ++ " MinChildWeight: ".toList ++ V.fmtv h.2
      | .best a o => "New best accuracy:  ".toList ++ V.fmtv a ++ [' '] ++ optText V o
    refine ⟨ms.map body, text_lines _ _ _ ?_, ?_⟩
    · rintro (⟨r, cw⟩ | ⟨a, o⟩) _
      · exact ⟨rfl, by simp [body, ni, nv]⟩
      · exact ⟨rfl, by simp [body, nv, no]⟩
    · rw [List.forall₂_map_right_iff, List.forall₂_same]
      rintro (h | ⟨a, o⟩) hm
      · exact roundsHead_fields V hv h
      · obtain ⟨O, rfl⟩ := Option.ne_none_iff_exists'.1 (hs a o hm)
        exact ⟨O, rfl, newBest_fields V hv a _⟩

theorem isField_x : IsField ['x'] := ⟨by decide, by decide⟩

/-- the hypotheses are met -/
example : ∃ (V : VerbText F64) (ms : List (SearchMsg (Int × F64) F64)), (∀ x, IsField (V.fmt0 x)) ∧ (∀ x, IsField (V.fmt3 x)) ∧
    (∀ x, IsField (V.fmtv x)) ∧ (∀ a o, .best a o ∈ ms → o ≠ none) ∧ ms.length = 2 :=
  ⟨⟨fun _ => ['x'], fun _ => ['x'], fun _ => ['x']⟩, [.head (20, .fin 3), .best (.fin 90) (some (roundsPoint 1 20))],
    fun _ => isField_x, fun _ => isField_x, fun _ => isField_x, fun a o h => by simp at h; rw [h.2]; simp, rfl⟩

/-! ### The hypotheses are met -/

def loudGrid (nCPUs : Int) : GridOptions (Exact ℚ) :=
  { (defaultXGridOptions : GridOptions (Exact ℚ)) with
      rounds := ⟨1, 2, 1⟩, maxDepth := ⟨5, 5, 1⟩, learningRate := ⟨.fin (1/2), .fin (1/2), .fin 1⟩,
      gamma := ⟨.fin 0, .fin 0, .fin 1⟩, lambda := ⟨.fin 1, .fin 1, .fin 1⟩,
      subSample := ⟨.fin (1/2), .fin (1/2), .fin 1⟩, colSubSample := ⟨.fin 1, .fin 1, .fin 1⟩,
      minChildWeight := ⟨.fin (1/2), .fin (3/2), .fin 1⟩, nCPUs := nCPUs, verbose := true }

/-- sixteen rows of two classes -/
def loudData : DataBunch (Exact ℚ) :=
  ⟨(List.replicate 4 [[.fin 0], [.fin 8], [.fin 1], [.fin 9]]).flatten, [], (List.replicate 8 [7, 8]).flatten, []⟩

def loudExp (x : Exact ℚ) : Exact ℚ := if x <. .fin (1/2) then .fin (1/2) else .fin 2

def loudRun : Run (GridRet (Exact ℚ) × List (SearchMsg (Int × Exact ℚ) (Exact ℚ))) :=
  gridV loudExp GoSort.ins 3 loudData 2 (some (loudGrid 1)) (fun _ => List.range 16) fun _ _ _ => .fin 0

/-- `Grid` with two folds: four header lines and one line "New Best Accuracy" -/
example : ∃ ret ms, loudRun = pure (ret, ms) ∧ (gridOptionsOf (some (loudGrid 1))).verbose = true ∧
    (gridOptionsOf (some (loudGrid 1))).nCPUs = 1 ∧ ret.err = false ∧
    headLines ms = [(1, .fin (1/2)), (1, .fin (3/2)), (2, .fin (1/2)), (2, .fin (3/2))] ∧ (bestLines ms).map Prod.fst = [.fin 100] := by
  have h1 : (loudRun.run.map fun r => r.toOption.map fun r => (r.1.err, (headLines r.2).map Prod.fst)) =
      some (some (false, [1, 1, 2, 2])) := by decide +kernel
  have h2 : (loudRun.run.map fun r => r.toOption.map fun r => (headLines r.2).map Prod.snd) =
      some (some [.fin (1/2), .fin (3/2), .fin (1/2), .fin (3/2)]) := by decide +kernel
  have h3 : (loudRun.run.map fun r => r.toOption.map fun r => (bestLines r.2).map Prod.fst) = some (some [.fin 100]) := by
    decide +kernel
  obtain ⟨r, hr, h1⟩ := Option.map_eq_some_iff.1 h1
  rw [hr] at h2 h3
  cases r with
  | error e => cases h1
  | ok r =>
    obtain ⟨ret, ms⟩ := r
    simp only [Except.toOption, Option.map_some, Option.some.injEq, Prod.mk.injEq] at h1 h2 h3
    refine ⟨ret, ms, hr, rfl, rfl, h1.1, ?_, h3⟩
    have : ∀ l : List (Int × Exact ℚ), l = (l.map Prod.fst).zip (l.map Prod.snd) := by
      intro l; induction l with
      | nil => rfl
      | cons a l ih => exact congrArg (a :: ·) ih
    rw [this (headLines ms), h1.2, h2]
    rfl

/-- `twoStarts` of C56 and C57 with `Verbose` -/
def loudStarts : SearchEnv (Exact ℚ) := { twoStarts with o := { twoStarts.o with verbose := true } }

/-- a gradient search with one header line and two lines "New best accuracy" -/
example : ∃ ret ms, gradientGridV 4 loudStarts 5 = some (ret, ms) ∧ loudStarts.o.verbose = true ∧ ret.err = false ∧
    headLines ms = [.fin 3] ∧ (bestLines ms).map Prod.fst = [.fin 40, .fin 60] := by
  have h1 : ((gradientGridV 4 loudStarts 5).map fun r => (r.1.err, headLines r.2, (bestLines r.2).map Prod.fst)) =
      some (false, [.fin 3], [.fin 40, .fin 60]) := by decide +kernel
  obtain ⟨⟨ret, ms⟩, hr, h1⟩ := Option.map_eq_some_iff.1 h1
  simp only [Prod.mk.injEq] at h1
  exact ⟨ret, ms, hr, rfl, h1.1, h1.2.1, h1.2.2⟩

/-- `stopSearch` of C89 with `Verbose` -/
def loudStop : SearchEnv (Exact ℚ) := { stopSearch with o := { stopSearch.o with verbose := true } }

/-- a hybrid search with real gradient steps, one header line and two lines "New best accuracy" -/
example : RealSteps loudStop 5 ∧ loudStop.o.verbose = true ∧ ∃ ret ms, hybridGridV 5 loudStop 5 = some (ret, ms) ∧ ret.err = false ∧
    (headLines ms).map Prod.fst = [20] ∧ (bestLines ms).map Prod.fst = [.fin 50, .fin 60] := by
  refine ⟨fun _ O => ⟨20, gradRun_returns 20 (gradEnvOf stopSearch.o peakAcc) rfl O⟩, rfl, ?_⟩
  have h1 : ((hybridGridV 5 loudStop 5).map fun r => (r.1.err, (headLines r.2).map Prod.fst, (bestLines r.2).map Prod.fst)) =
      some (false, [20], [.fin 50, .fin 60]) := by decide +kernel
  obtain ⟨⟨ret, ms⟩, hr, h1⟩ := Option.map_eq_some_iff.1 h1
  simp only [Prod.mk.injEq] at h1
  exact ⟨ret, ms, hr, h1.1, h1.2.1, h1.2.2⟩

end Boo
