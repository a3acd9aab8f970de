import Verif.Model.Example
import Verif.Props.GradUse

/-!
# C143: the program examples/basicboost.go
-/

namespace Boo
open GoFloat Spec

theorem exampleGrid_eq : (exampleGrid : GridOptions F64) = readmeGrid := rfl

/-- a model without trees cannot be used -/
theorem noTrees_panic {F : Type} [GoFloat F] {M : MultiClass F} (h : M.b = []) : (∀ row, M.predictSingleClass row = .error .index) ∧
    ∀ D : DataBunch F, D.data ≠ [] → M.accuracy D = .error .index := by
  have hp : ∀ row, M.predictSingleClass row = .error .index := by
    intro row
    unfold MultiClass.predictSingleClass MultiClass.predictSingle MultiClass.rawScores
    rw [h]
    rfl
  refine ⟨hp, fun D hD => ?_⟩
  obtain ⟨r, rs, hr⟩ := List.exists_cons_of_ne_nil hD
  unfold MultiClass.accuracy
  rw [hr]
  unfold MultiClass.countRight
  rw [hp]
  rfl

theorem share_eight : Share (ofRat (8/10) : F64) := by
  have h8 : (ofRat (8/10) : F64) = .fin (rv (8/10)) := by decide +kernel
  refine ⟨rv (8/10), h8, by decide +kernel, by decide +kernel⟩

/-- the first training of the program -/
theorem example_trains (exp : F64 → F64) (S : GoSort) {Q : List (Int × List ℚ)} {c : Nat} {D : DataBunch F64} (hD : NumberData Q c D) (id : Nat) :
    TrainsWith exp S Q c D (exampleOptions id) := by
  have h := trainsWith_caps exp S hD (O := exampleOptions id) ⟨⟨_, rfl, sqErrLoss_regular⟩, fun _ => rfl⟩
    (capsOk_share hD.rows.2.2.2.2.1 hD.narrow share_eight share_eight)
  have e : (exampleOptions id : Options F64).fixMcw = exampleOptions id := by
    unfold Options.fixMcw
    rw [if_neg (by show ¬ ((ofRat 3 : F64) <. one) = true; decide +kernel)]
  rwa [e] at h

theorem idxOf_le_of_getElem? {l : List Int} {i : Nat} {x : Int} (h : l[i]? = some x) : l.idxOf x ≤ i := by
  induction l generalizing i with
  | nil => cases h
  | cons a l ih =>
    rw [List.idxOf_cons]
    cases i with
    | zero =>
      rw [List.getElem?_cons_zero] at h
      cases h
      simp
    | succ i =>
      rw [List.getElem?_cons_succ] at h
      have := ih h
      cases a == x <;> simp <;> omega

/-- the position of a label of a trained model: how many different labels appear before it -/
theorem label_position {labels cls : List Int} (h1 : cls.Nodup) (h2 : ∀ l, l ∈ cls ↔ l ∈ labels)
    (h3 : cls.Pairwise (fun a b => labels.idxOf a < labels.idxOf b)) {k : Nat} {lab : Int} (hk : cls[k]? = some lab) :
    lab ∈ labels ∧ k = (labels.take (labels.idxOf lab)).toFinset.card := by
  obtain ⟨hkl, hke⟩ := List.getElem?_eq_some_iff.1 hk
  have hmem : lab ∈ labels := (h2 lab).1 (hke ▸ List.getElem_mem hkl)
  refine ⟨hmem, ?_⟩
  have hset : (labels.take (labels.idxOf lab)).toFinset = (cls.take k).toFinset := by
    ext x
    rw [List.mem_toFinset, List.mem_toFinset]
    constructor
    · intro hx
      have hx' : x ∈ labels := List.mem_of_mem_take hx
      have hlt : labels.idxOf x < labels.idxOf lab := by
        obtain ⟨i, hi, he⟩ := List.getElem_of_mem hx
        rw [List.length_take] at hi
        rw [List.getElem_take] at he
        have : labels.idxOf x ≤ i := by
          exact idxOf_le_of_getElem? (List.getElem?_eq_some_iff.2 ⟨_, he⟩)
        omega
      obtain ⟨j, hj, he⟩ := List.getElem_of_mem ((h2 x).2 hx')
      have hjk : j < k := by
        by_contra hge
        rcases Nat.lt_or_eq_of_le (not_lt.1 hge) with hg | hg
        · have := List.pairwise_iff_getElem.1 h3 k j hkl hj hg
          rw [he, hke] at this
          omega
        · subst hg
          rw [he] at hke
          subst hke
          omega
      rw [List.mem_iff_getElem]
      exact ⟨j, by rw [List.length_take]; omega, by rw [List.getElem_take]; exact he⟩
    · intro hx
      obtain ⟨j, hj, he⟩ := List.getElem_of_mem hx
      rw [List.length_take] at hj
      rw [List.getElem_take] at he
      have hlt := List.pairwise_iff_getElem.1 h3 j k (by omega) hkl (by omega)
      rw [he, hke] at hlt
      have hxl : labels.idxOf x < labels.length := by
        rw [List.idxOf_lt_length_iff]
        exact (h2 x).1 (List.mem_of_mem_take hx)
      rw [List.mem_iff_getElem]
      exact ⟨labels.idxOf x, by rw [List.length_take]; omega, by rw [List.getElem_take]; exact List.getElem_idxOf hxl⟩
  rw [hset, List.toFinset_card_of_nodup (h1.sublist (List.take_sublist _ _)), List.length_take]
  omega

/-- the draws of the program: those of the samples suffice, and the surroundings of the search are those on the data -/
structure ExampleWorld (exp : F64 → F64) (S : GoSort) (D : DataBunch F64) (idraws : Nat → List Nat) (E : SearchEnv F64) : Prop where
  grid : ∀ j, Enough D 8 (idraws j)
  search : ∃ fuel di df gi gf G, RealSearch exp S D 5 fuel { E with o := exampleGrid } di df gi gf G

/-- **C143, partial**: `main` of the example, on a libSVM file with a header and 4 to 2^46 rows of at most 21 numbers of at most 15 digits. Reading, the trainings and
the searches return without an error. If the first model has no round, or a search returns no options, or the second model has no round, `main` panics. Otherwise it writes
everything: the percentages are from 0 to 100, the first list of accuracies is empty, and the number in the last line is one more than the number of
different labels that the file has before the first row with the label `lab`, where `lab` is the first most probable label for the row. Missing: `main` never panics
(`C143_violated`, `C143_few_violated`). -/
theorem C143_main_partial (exp : F64 → F64) (S : GoSort) (P : FText F64) (hP : ReadsDecimals P) (text : List Char) (h : List Char) (lines : List (List Char))
    (hL : Lines (h :: lines) text) (keys : List (List Char)) (hH : SvmNames h keys)
    (Q : List (Int × List ℚ)) (hQ : List.Forall₂ (fun l p => SvmNumbers l p.1 p.2) lines Q) (c : Nat) (hc : ∀ p ∈ Q, p.2.length = c) (hc21 : c ≤ 21)
    (h4 : 4 ≤ Q.length) (h46 : Q.length ≤ 2 ^ 46) (id : Nat) (draws1 : Nat → F64) (idraws : Nat → List Nat) (fdraws : Nat → Nat → Nat → F64)
    (E : SearchEnv F64) (draws2 : Nat → F64) (hW : ExampleWorld exp S (numberBunch Q keys) idraws E) :
    ∃ M1 r1 r2, newMultiClass exp S draws1 (numberBunch Q keys) (exampleOptions id) = .ok M1 ∧
      grid exp S 200 (numberBunch Q keys) 8 (some exampleGrid) idraws fdraws = pure r1 ∧ r1.err = false ∧
      gradientGrid 200 { E with o := exampleGrid } 5 = some r2 ∧ r2.err = false ∧
      (M1.b = [] → exampleMain exp S P (some text) id draws1 idraws fdraws E draws2 = Run.ofGo (.error .index)) ∧
      (M1.b ≠ [] → r1.opts = none ∨ r2.opts = none → exampleMain exp S P (some text) id draws1 idraws fdraws E draws2 = Run.ofGo (.error .nilDeref)) ∧
      (M1.b ≠ [] → ∀ O1 O2, r1.opts = some O1 → r2.opts = some O2 → ∃ M2, newMultiClass exp S draws2 (numberBunch Q keys) O2 = .ok M2 ∧
        (M2.b = [] → exampleMain exp S P (some text) id draws1 idraws fdraws E draws2 = Run.ofGo (.error .index)) ∧
        (M2.b ≠ [] → ∃ (out : ExampleOut F64) (a1 a2 a3 : ℚ) (k : Nat) (lab : Int) (probs : List F64),
          exampleMain exp S P (some text) id draws1 idraws fdraws E draws2 = pure out ∧
          out.trainAcc = .fin a1 ∧ 0 ≤ a1 ∧ a1 ≤ 100 ∧ out.gridAcc = .fin a2 ∧ 0 ≤ a2 ∧ a2 ≤ 100 ∧ out.searchAcc = .fin a3 ∧ 0 ≤ a3 ∧ a3 ≤ 100 ∧
          out.gridBest = O1 ∧ out.searchBest = O2 ∧ out.gridAccs = [] ∧
          out.number = k + 1 ∧ M2.classLabels[k]? = some lab ∧ lab ∈ Q.map Prod.fst ∧
          k = ((Q.map Prod.fst).take ((Q.map Prod.fst).idxOf lab)).toFinset.card ∧
          M2.predictSingle exampleRow = .ok probs ∧ FirstMax probs k)) := by
  have hD : NumberData Q c (numberBunch Q keys : DataBunch F64) :=
    ⟨fun e => by rw [e] at h4; exact absurd h4 (by decide), hc, svm_numberData hQ, h46.trans (by norm_num), hc21.trans (by norm_num), rfl, rfl⟩
  have hread := C123_read_libsvm P hP text (h :: lines) lines hL true keys ⟨h, rfl, hH⟩ Q hQ
  generalize hDD : (numberBunch Q keys : DataBunch F64) = D at *
  have hlabs : D.labels = Q.map Prod.fst := hD.labels
  obtain ⟨g1, g2, g3, g4, g5, g6⟩ := hD.rows
  obtain ⟨fuel, di, df, gi, gf, G, hE⟩ := hW.search
  obtain ⟨M1, t1, t2, _⟩ := example_trains exp S hD id draws1
  obtain ⟨_, r1, _, _, _, _, e1, _, _, e2, e3, e4, _⟩ := C125_readme_partial exp S Q c D hD h4 h46 idraws
    (fun j x hx => by rw [← g3]; exact (hW.grid j).1 x hx) (fun j => (hW.grid j).2) fdraws
  obtain ⟨r2, _, _, _, f1, f2, _, f3, f4, _⟩ := C126_readme_partial exp S Q c D hD h4 h46 { E with o := exampleGrid } rfl di df gi gf G fuel hE
  rw [← exampleGrid_eq] at e1
  have hmain : exampleMain exp S P (some text) id draws1 idraws fdraws E draws2 = (do
      let trainAcc ← Run.ofGo (M1.accuracy D)
      let best1 ← Run.ofGo (exampleBest r1)
      let best2 ← Run.ofGo (exampleBest r2)
      let boosted ← Run.ofGo (newMultiClass exp S draws2 D best2)
      let cls ← Run.ofGo (boosted.predictSingleClass exampleRow)
      pure ⟨trainAcc, r1.acc, best1, r1.accs, r2.acc, best2, r2.accs, cls + 1⟩) := by
    unfold exampleMain
    simp only []
    rw [run_bind_some (ofGo_eq.2 hread)]
    simp only []
    rw [run_bind_some (ofGo_eq.2 t1)]
    congr 1
    funext a
    rw [run_bind_some e1]
    congr 1
    funext b
    rw [run_bind_some (ofOption_eq.2 f1)]
  have err : ∀ {α β : Type} (e : Panic) (f : α → Run β), (Run.ofGo (.error e) >>= f) = Run.ofGo (.error e) := fun _ _ => rfl
  refine ⟨M1, r1, r2, t1, e1, e3, f1, f2, fun hb => ?_, fun hb hn => ?_, fun hb O1 O2 ho1 ho2 => ?_⟩
  · rw [hmain, (noTrees_panic hb).2 D g1]
    rfl
  · obtain ⟨a, ha, _⟩ := (t2 hb).2
    rw [hmain, run_bind_some (ofGo_eq.2 ha)]
    rcases hr1 : r1.opts with _ | O1
    · have : exampleBest r1 = .error .nilDeref := by unfold exampleBest; rw [e3, hr1]; rfl
      rw [this]
      rfl
    · have h1 : exampleBest r1 = .ok O1 := by unfold exampleBest; rw [e3, hr1]; rfl
      have hr2 : r2.opts = none := hn.resolve_left (by rw [hr1]; simp)
      have h2 : exampleBest r2 = .error .nilDeref := by unfold exampleBest; rw [f2, hr2]; rfl
      rw [run_bind_some (ofGo_eq.2 h1), h2]
      rfl
  · obtain ⟨a, ha, ha0, ha1, _⟩ := (t2 hb).2
    have h1 : exampleBest r1 = .ok O1 := by unfold exampleBest; rw [e3, ho1]; rfl
    have h2 : exampleBest r2 = .ok O2 := by unfold exampleBest; rw [f2, ho2]; rfl
    obtain ⟨M2, u1, u2, _⟩ := f4 O2 ho2 draws2
    rw [hmain, run_bind_some (ofGo_eq.2 ha), run_bind_some (ofGo_eq.2 h1), run_bind_some (ofGo_eq.2 h2), run_bind_some (ofGo_eq.2 u1)]
    refine ⟨M2, u1, fun hb2 => ?_, fun hb2 => ?_⟩
    · rw [(noTrees_panic hb2).1]
      rfl
    · obtain ⟨k, hk, hkl⟩ := (u2 hb2).1 exampleRow (by show c ≤ 21; exact hc21)
      obtain ⟨probs, hpr, hfm⟩ := C23_first_most_probable M2 _ k hk
      obtain ⟨a2, ea2, b2, c2⟩ := e2
      obtain ⟨a3, ea3, b3, c3⟩ := f3
      obtain ⟨m1, m2, m3, _⟩ := C72_metadata exp S draws2 D O2 M2 u1
      rw [hlabs] at m2 m3
      rw [run_bind_some (ofGo_eq.2 hk)]
      have hlab := List.getElem?_eq_getElem hkl
      obtain ⟨p1, p2⟩ := label_position m1 m2 m3 hlab
      exact ⟨_, a, a2, a3, k, M2.classLabels[k], probs, rfl, rfl, ha0, ha1, ea2, b2, c2, ea3, b3, c3, rfl, rfl, e4, rfl, hlab, p1, p2, hpr, hfm⟩

/-- **C143 is violated**: on a file whose labels are all different `main` dereferences nil, as soon as 5 rows are drawn in some round of the first training. -/
theorem C143_violated (exp : F64 → F64) (S : GoSort) (P : FText F64) (hP : ReadsDecimals P) (text : List Char) (h : List Char) (lines : List (List Char))
    (hL : Lines (h :: lines) text) (keys : List (List Char)) (hH : SvmNames h keys)
    (Q : List (Int × List ℚ)) (hQ : List.Forall₂ (fun l p => SvmNumbers l p.1 p.2) lines Q) (c : Nat) (hc : ∀ p ∈ Q, p.2.length = c) (hc21 : c ≤ 21)
    (h4 : 4 ≤ Q.length) (h46 : Q.length ≤ 2 ^ 46) (hnd : (Q.map Prod.fst).Nodup) (id : Nat) (draws1 : Nat → F64)
    (hdraw : ∃ r < 100, 5 ≤ ((List.range Q.length).filter fun i => draws1 (i + r * (Q.length + c)) <=. ofRat (8/10)).length)
    (idraws : Nat → List Nat) (fdraws : Nat → Nat → Nat → F64)
    (E : SearchEnv F64) (draws2 : Nat → F64) (hW : ExampleWorld exp S (numberBunch Q keys) idraws E) :
    exampleMain exp S P (some text) id draws1 idraws fdraws E draws2 = Run.ofGo (.error .nilDeref) := by
  have hD : NumberData Q c (numberBunch Q keys : DataBunch F64) :=
    ⟨fun e => by rw [e] at h4; exact absurd h4 (by decide), hc, svm_numberData hQ, h46.trans (by norm_num), hc21.trans (by norm_num), rfl, rfl⟩
  obtain ⟨M1, r1, r2, t1, e1, _, _, _, _, t2, _⟩ := C143_main_partial exp S P hP text h lines hL keys hH Q hQ c hc hc21 h4 h46 id draws1 idraws fdraws E draws2 hW
  have hlen := hD.rows.2.2.1
  obtain ⟨ret, g1, _, g2, _⟩ := C125_readme_violated exp S Q c _ hD h4 h46 hnd idraws (fun j x hx => by rw [← hlen]; exact (hW.grid j).1 x hx)
    (fun j => (hW.grid j).2) fdraws
  rw [← exampleGrid_eq, e1, run_pure_eq] at g1
  subst g1
  refine t2 ?_ (Or.inl g2)
  obtain ⟨M, m1, m2, m3⟩ := example_trains exp S hD id draws1
  rw [t1] at m1
  cases m1
  intro hb
  obtain ⟨r, hr, hd⟩ := hdraw
  have hw := m3 rfl (by show ((ofRat (8/10) : F64) <. one) = true; decide +kernel) (by show ((ofRat (8/10) : F64) <. one) = true; decide +kernel)
    ⟨r, by show (r : Int) < 100; omega, hd⟩
  obtain ⟨a, ha, _⟩ := hw.2
  rw [(noTrees_panic hb).2 _ hD.rows.1] at ha
  cases ha

/-- **C143 is violated** by files of 4 rows: `main` panics when it measures the accuracy of the first model, whatever is drawn. -/
theorem C143_few_violated (exp : F64 → F64) (S : GoSort) (P : FText F64) (hP : ReadsDecimals P) (text : List Char) (h : List Char) (lines : List (List Char))
    (hL : Lines (h :: lines) text) (keys : List (List Char)) (hH : SvmNames h keys)
    (Q : List (Int × List ℚ)) (hQ : List.Forall₂ (fun l p => SvmNumbers l p.1 p.2) lines Q) (c : Nat) (hc : ∀ p ∈ Q, p.2.length = c) (hc21 : c ≤ 21)
    (h4 : Q.length = 4) (id : Nat) (draws1 : Nat → F64) (idraws : Nat → List Nat) (fdraws : Nat → Nat → Nat → F64)
    (E : SearchEnv F64) (draws2 : Nat → F64) (hW : ExampleWorld exp S (numberBunch Q keys) idraws E) :
    exampleMain exp S P (some text) id draws1 idraws fdraws E draws2 = Run.ofGo (.error .index) := by
  obtain ⟨M1, r1, r2, t1, _, _, _, _, t2, _⟩ := C143_main_partial exp S P hP text h lines hL keys hH Q hQ c hc hc21 (by omega) (by omega) id draws1 idraws fdraws E draws2 hW
  apply t2
  have hlen := (C22_rounds exp S draws1 _ _ M1 t1).1
  have hl4 : (numberBunch Q keys : DataBunch F64).data.length = 4 := by
    show (Q.map _).length = 4
    rw [List.length_map, h4]
  have h0 : executedRounds (numberBunch Q keys : DataBunch F64).data (exampleOptions id) draws1 (exampleOptions id : Options F64).rounds.toNat = [] := by
    unfold executedRounds
    rw [List.filter_eq_nil_iff]
    intro r _
    rw [decide_eq_true_eq, not_le]
    have : sampleCount (numberBunch Q keys : DataBunch F64).data (exampleOptions id) draws1 r ≤ (numberBunch Q keys : DataBunch F64).data.length := by
      unfold sampleCount roundRows
      split
      · refine (List.length_filter_le _ _).trans ?_
        rw [List.length_range]
      · omega
    show _ < (5 : Int)
    omega
  rw [h0, List.length_nil, List.length_eq_zero_iff] at hlen
  exact hlen

/-! ### The theorems apply -/

/-- there are worlds for all data, if the samples can be made -/
theorem world_exists (exp : F64 → F64) (S : GoSort) (D : DataBunch F64) (l : List Nat) (h5 : Enough D 5 l) (h8 : Enough D 8 l) :
    ∃ E, ExampleWorld exp S D (fun _ => l) E := by
  obtain ⟨E, G, ho, hE⟩ := realSearch_exists exp S D 5 (fun _ => l) (fun _ => h5) (fun _ _ _ => .fin 0)
    (fun _ _ _ => l) (fun _ _ _ => h5) (fun _ _ _ _ _ => .fin 0) (fun _ _ => (.fin (1/2), 1)) (fun _ _ => ⟨1/2, rfl, by norm_num, by norm_num⟩)
  have he : ({ E with o := exampleGrid } : SearchEnv F64) = E := by rw [exampleGrid_eq, ← ho]
  rw [← he] at hE
  exact ⟨E, ⟨fun _ => h8, ⟨12, _, _, _, _, G, hE⟩⟩⟩

theorem five_world (exp : F64 → F64) (S : GoSort) {D : DataBunch F64} (e : D.data.length = 5) : ∃ E, ExampleWorld exp S D (fun _ => List.range 5) E := by
  have hs : ∀ n : Int, n = 5 ∨ n = 8 → Enough D n (List.range 5) := by
    intro n hn
    refine ⟨by rw [e]; decide, ?_⟩
    have e1 : reduceFolds 5 (if n > 0 then Int.toNat n else 5) = .ok (2, true) := by rcases hn with rfl | rfl <;> rfl
    have e2 : fillFolds (5 / 2) (List.range 2) (List.replicate 2 []) (List.range 5) = some ([[0, 1], [2, 3]], [4]) := rfl
    unfold crossValidationSamples
    simp only [e]
    rw [e1]
    simp only [e2]
    exact fun h => by cases h
  exact world_exists exp S D _ (hs 5 (Or.inl rfl)) (hs 8 (Or.inr rfl))

example (exp : F64 → F64) (S : GoSort) (id : Nat) : ∃ P E M1, ReadsDecimals P ∧
    newMultiClass exp S (fun _ => .fin 0) (numberBunch basicQ ["a".toList, "b".toList] : DataBunch F64) (exampleOptions id) = .ok M1 ∧ M1.b ≠ [] ∧
    ∀ draws2, (∃ out, exampleMain exp S P (some basicText) id (fun _ => .fin 0) (fun _ => List.range 5) (fun _ _ _ => .fin 0) E draws2 = pure out) ∨
      ∃ e, exampleMain exp S P (some basicText) id (fun _ => .fin 0) (fun _ => List.range 5) (fun _ _ _ => .fin 0) E draws2 = Run.ofGo (.error e) := by
  obtain ⟨E, hW⟩ := five_world exp S (D := numberBunch basicQ ["a".toList, "b".toList]) rfl
  have hD : NumberData basicQ 2 (numberBunch basicQ ["a".toList, "b".toList] : DataBunch F64) :=
    ⟨by decide, by decide +kernel, svm_numberData basic_rows, by decide, by decide, rfl, rfl⟩
  obtain ⟨M, m1, _, m3⟩ := example_trains exp S hD id (fun _ => .fin 0)
  have hw := m3 rfl (by show ((ofRat (8/10) : F64) <. one) = true; decide +kernel) (by show ((ofRat (8/10) : F64) <. one) = true; decide +kernel)
    ⟨0, by show (0 : Int) < 100; decide, by show 5 ≤ ((List.range 5).filter fun _ => (.fin 0 : F64) <=. ofRat (8/10)).length; decide +kernel⟩
  have hb : M.b ≠ [] := by
    intro hb
    obtain ⟨a, ha, _⟩ := hw.2
    rw [(noTrees_panic hb).2 _ hD.rows.1] at ha
    cases ha
  refine ⟨_, E, M, numText_reads, m1, hb, fun draws2 => ?_⟩
  obtain ⟨M1, r1, r2, t1, _, _, _, _, _, t2, t3⟩ := C143_main_partial exp S _ numText_reads basicText _ basicLines basic_lines _ basic_names basicQ basic_rows 2
    (by decide +kernel) (by decide) (by decide) (by decide) id (fun _ => .fin 0) (fun _ => List.range 5) (fun _ _ _ => .fin 0) E draws2 hW
  rw [m1] at t1
  cases t1
  rcases h1 : r1.opts with _ | O1
  · exact Or.inr ⟨_, t2 hb (Or.inl h1)⟩
  · rcases h2 : r2.opts with _ | O2
    · exact Or.inr ⟨_, t2 hb (Or.inr h2)⟩
    · obtain ⟨M2, _, u1, u2⟩ := t3 hb O1 O2 h1 h2
      by_cases hb2 : M2.b = []
      · exact Or.inr ⟨_, u1 hb2⟩
      · obtain ⟨out, _, _, _, _, _, _, hout, _⟩ := u2 hb2
        exact Or.inl ⟨out, hout⟩

/-- a file with five different labels -/
def differText : List Char := "Labels 1:a\n1 1:0\n2 1:1\n3 1:2\n4 1:3\n5 1:4\n".toList

def differLines : List (List Char) := ["1 1:0".toList, "2 1:1".toList, "3 1:2".toList, "4 1:3".toList, "5 1:4".toList]

def differQ : List (Int × List ℚ) := [(1, [0]), (2, [1]), (3, [2]), (4, [3]), (5, [4])]

theorem differ_rows : List.Forall₂ (fun l p => SvmNumbers l p.1 p.2) differLines differQ := by
  have row : ∀ (l f : List Char) (lab : Int) (a b : List Char) (x : ℚ), strFields l = [f, a ++ ':' :: b] →
      atoi f = some lab → ':' ∉ a → numValue b = some x → Short x → SvmNumbers l lab [x] :=
    fun l f lab a b x h1 h2 h3 h4 h5 => ⟨f, _, (strFields_iff _ _).1 h1, (atoi_iff _ _).1 h2, .cons ⟨a, b, rfl, h3, numValue_iff.1 h4, h5⟩ .nil⟩
  refine .cons ?_ (.cons ?_ (.cons ?_ (.cons ?_ (.cons ?_ .nil))))
  · exact row _ "1".toList _ "1".toList "0".toList _ (by decide +kernel) (by decide +kernel) (by decide +kernel) (by decide +kernel) (short_mk 0 0 (by decide +kernel))
  · exact row _ "2".toList _ "1".toList "1".toList _ (by decide +kernel) (by decide +kernel) (by decide +kernel) (by decide +kernel) (short_mk 1 0 (by decide +kernel))
  · exact row _ "3".toList _ "1".toList "2".toList _ (by decide +kernel) (by decide +kernel) (by decide +kernel) (by decide +kernel) (short_mk 2 0 (by decide +kernel))
  · exact row _ "4".toList _ "1".toList "3".toList _ (by decide +kernel) (by decide +kernel) (by decide +kernel) (by decide +kernel) (short_mk 3 0 (by decide +kernel))
  · exact row _ "5".toList _ "1".toList "4".toList _ (by decide +kernel) (by decide +kernel) (by decide +kernel) (by decide +kernel) (short_mk 4 0 (by decide +kernel))

theorem differ_names : SvmNames "Labels 1:a".toList ["a".toList] :=
  ⟨"Labels".toList, ["1:a".toList], (strFields_iff _ _).1 (by decide +kernel), .cons ⟨"1".toList, by decide, by decide, by decide⟩ .nil⟩

example (exp : F64 → F64) (S : GoSort) (id : Nat) : ∃ P E, ReadsDecimals P ∧
    ∀ fdraws draws2, exampleMain exp S P (some differText) id (fun _ => .fin 0) (fun _ => List.range 5) fdraws E draws2 = Run.ofGo (.error .nilDeref) := by
  obtain ⟨E, hW⟩ := five_world exp S (D := numberBunch differQ ["a".toList]) rfl
  refine ⟨_, E, numText_reads, fun fdraws draws2 => ?_⟩
  exact C143_violated exp S _ numText_reads differText "Labels 1:a".toList differLines ((linesOf_iff _ _).1 (by decide +kernel)) _ differ_names differQ differ_rows 1
    (by decide +kernel) (by decide) (by decide) (by decide) (by decide) id _
    ⟨0, by decide, by show 5 ≤ ((List.range 5).filter fun _ => (.fin 0 : F64) <=. ofRat (8/10)).length; decide +kernel⟩ _ fdraws E draws2 hW

/-- the same file with four rows -/
def fourText : List Char := "Labels 1:a\n1 1:0\n2 1:1\n3 1:2\n4 1:3\n".toList

example (exp : F64 → F64) (S : GoSort) (id : Nat) : ∃ P E, ReadsDecimals P ∧ ∀ draws1 fdraws draws2,
    exampleMain exp S P (some fourText) id draws1 (fun _ => List.range 4) fdraws E draws2 = Run.ofGo (.error .index) := by
  have hs : ∀ n : Int, n = 5 ∨ n = 8 → Enough (numberBunch (differQ.take 4) ["a".toList] : DataBunch F64) n (List.range 4) := by
    intro n hn
    have e : (numberBunch (differQ.take 4) ["a".toList] : DataBunch F64).data.length = 4 := rfl
    refine ⟨by rw [e]; decide, ?_⟩
    have e1 : reduceFolds 4 (if n > 0 then Int.toNat n else 5) = .ok (2, true) := by rcases hn with rfl | rfl <;> rfl
    have e2 : fillFolds (4 / 2) (List.range 2) (List.replicate 2 []) (List.range 4) = some ([[0, 1], [2, 3]], []) := rfl
    unfold crossValidationSamples
    simp only [e]
    rw [e1]
    simp only [e2]
    exact fun h => by cases h
  obtain ⟨E, hW⟩ := world_exists exp S (numberBunch (differQ.take 4) ["a".toList]) _ (hs 5 (Or.inl rfl)) (hs 8 (Or.inr rfl))
  refine ⟨_, E, numText_reads, fun draws1 fdraws draws2 => ?_⟩
  exact C143_few_violated exp S _ numText_reads fourText "Labels 1:a".toList (differLines.take 4) ((linesOf_iff _ _).1 (by decide +kernel)) _ differ_names
    (differQ.take 4) (List.forall₂_take 4 differ_rows) 1 (by decide +kernel) (by decide) rfl id draws1 _ fdraws E draws2 hW

end Boo
