import Verif.Lemmas.Json
import Verif.Props.Predict
import Mathlib.Logic.Encodable.Basic
import Mathlib.Data.Rat.Encodable

/-!
# C16–C19: serialisation
-/

namespace Boo
open GoFloat
set_option linter.unusedSectionVars false
variable {F : Type} [GoFloat F]

/-! ### the laws assumed of `encoding/json` are consistent -/

/-- A codec: the number of the value, in unary (for non-vacuity only; not the format of `encoding/json`). -/
def JCodec.unary [Encodable F] : JCodec F where
  encNode n := if isFin n.bestScoreSoFar && isFin n.threshold && isFin n.value then
      some (List.replicate (Encodable.encode ((n.id, n.nsamples, n.samples, n.splitFeatureIndex),
        (n.bestScoreSoFar, n.leaf, n.threshold, n.leftid), (n.rightid, n.branches, n.value, n.xgb))) '1')
    else none
  decNode s := (Encodable.decode (s.count '1') :
      Option ((ℕ × ℕ × Option (List ℕ) × ℕ) × (F × Bool × F × ℕ) × (ℕ × ℕ × F × Bool))).map
    fun p => ⟨p.1.1, p.1.2.1, p.1.2.2.1, p.1.2.2.2, p.2.1.1, p.2.1.2.1, p.2.1.2.2.1, p.2.1.2.2.2, p.2.2.1, p.2.2.2.1,
      p.2.2.2.2.1, p.2.2.2.2.2⟩
  encMeta m := if isFin m.learningRate && isFin m.baseScore then
      some (List.replicate (Encodable.encode (m.learningRate, m.classLabels, m.probTransformName.map Char.toNat,
        m.baseScore)) '1')
    else none
  decMeta s := (Encodable.decode (s.count '1') : Option (F × List ℤ × List ℕ × F)).map
    fun p => ⟨p.1, p.2.1, p.2.2.1.map Char.ofNat, p.2.2.2⟩
  encNode_isSome n := by split <;> simp_all
  decNode_encNode n s h := by
    split at h
    · cases h
      simp
    · cases h
  encNode_line n s h := by
    split at h
    · cases h
      intro hm
      have := List.eq_of_mem_replicate hm
      revert this
      decide
    · cases h
  encNode_words n s h := by
    split at h
    · cases h
      refine ⟨strContains_false 'R' (by decide) ?_, strContains_false 'C' (by decide) ?_⟩
      all_goals
        intro hm
        rw [List.mem_append] at hm
        rcases hm with hm | hm
        · have := List.eq_of_mem_replicate hm
          revert this
          decide
        · revert hm
          decide
    · cases h
  encMeta_isSome m := by split <;> simp_all
  decMeta_encMeta m s h := by
    split at h
    · cases h
      simp [Function.comp_def]
    · cases h
  encMeta_line m s h := by
    split at h
    · cases h
      intro hm
      have := List.eq_of_mem_replicate hm
      revert this
      decide
    · cases h

instance : Encodable F64 :=
  Encodable.ofLeftInverse (fun x : F64 => match x with
      | .nan => (Sum.inl none : Option Bool ⊕ ℚ)
      | .inf b => Sum.inl (some b)
      | .fin x => Sum.inr x)
    (fun y => match y with
      | Sum.inl none => .nan
      | Sum.inl (some b) => .inf b
      | Sum.inr x => .fin x)
    (by intro x; cases x <;> rfl)

example : Nonempty (JCodec F64) := ⟨JCodec.unary⟩

/-! ### C16 -/

theorem jsonSub_isSome (J : JCodec F) (hls : isFin (leafScore : F) = true) (t : Tree F) (last : Nat) :
    (jsonSub J t last).isSome = true ↔ t.AllFin := by
  induction t generalizing last with
  | nil => simp [jsonSub, Tree.AllFin]
  | node i l r ihl ihr =>
    have hn : ∀ a b, (J.encNode { i.jnode (last + 1) with leftid := a, rightid := b }).isSome = true ↔
        (isFin i.threshold = true ∧ isFin i.value = true ∧
          (isFin i.bestScoreSoFar = true ∨ (i.xgb = false ∧ isPosInf i.bestScoreSoFar = true))) := by
      intro a b
      rw [J.encNode_isSome]
      simp only [NodeInfo.jnode, Bool.and_eq_true]
      by_cases h : i.leaf = true ∧ (!i.xgb) = true
      · rw [if_pos h, hls]
        have h2 : i.xgb = false := by simpa using h.2
        have h1 := h.1
        unfold NodeInfo.leaf at h1
        rw [h2] at h1
        simp only [Bool.false_eq_true, if_false] at h1
        simp [h1, h2]
      · rw [if_neg h]
        have : ¬ (i.xgb = false ∧ isPosInf i.bestScoreSoFar = true) := by
          rintro ⟨h1, h2⟩
          apply h
          unfold NodeInfo.leaf
          rw [h1]
          exact ⟨h2, rfl⟩
        tauto
    unfold jsonSub Tree.AllFin
    constructor
    · intro h
      obtain ⟨p, hp⟩ := Option.isSome_iff_exists.1 h
      simp only [Option.bind_eq_bind, Option.bind_eq_some_iff, Option.pure_def, Option.some.injEq] at hp
      obtain ⟨⟨ll, lid, last1⟩, h1, ⟨rl, rid, last2⟩, h2, s, h3, _⟩ := hp
      exact ⟨(hn lid rid).1 (by rw [h3]; rfl), (ihl (last + 1)).1 (by rw [h1]; rfl), (ihr last1).1 (by rw [h2]; rfl)⟩
    · rintro ⟨h1, h2, h3⟩
      obtain ⟨⟨ll, lid, last1⟩, hl⟩ := Option.isSome_iff_exists.1 ((ihl (last + 1)).2 h2)
      obtain ⟨⟨rl, rid, last2⟩, hr⟩ := Option.isSome_iff_exists.1 ((ihr last1).2 h3)
      obtain ⟨s, hs⟩ := Option.isSome_iff_exists.1 ((hn lid rid).2 h1)
      simp [hl, hr, hs]

theorem leafScore_F64 : isFin (leafScore : F64) = true := by decide +kernel
theorem leafScore_exact {K : Type} [Field K] [LinearOrder K] [IsStrictOrderedRing K] [FloorRing K] :
    isFin (leafScore : Exact K) = true := by
  unfold leafScore isFin
  rw [Exact.ofRat_fin, Exact.zero_fin, Exact.sub_fin]
  simp [XF.eq_def, XF.eq, XF.posInf_def]

/-- **C16 (round trip)**: `JSONTree` writes a tree whose numbers are finite, one line per node, root id 1;
`UnJSONTree`, given the first line and a reader at the rest of the lines followed by any text, returns the tree (without
the training samples and the number of features, which are not written) and leaves the reader at that text. -/
theorem C16_round_trip [GoFloatOrd F] (J : JCodec F) (hls : isFin (leafScore : F) = true) (t : Tree F)
    (hne : t ≠ .nil) (hfin : t.AllFin) (text : List Char) :
    ∃ s rest, jsonTree J t = .ok (some (s :: rest, 1)) ∧ (s :: rest).length = t.size ∧
      (∀ l ∈ s :: rest, '\n' ∉ l) ∧
      unJSONTree J (s ++ ['\n']) (linesOf (unlines rest ++ text)) = some (t.strip, linesOf text) := by
  obtain ⟨⟨lines, id, last⟩, h⟩ := Option.isSome_iff_exists.1 ((jsonSub_isSome J hls t 0).2 hfin)
  obtain ⟨h1, h2, h3, h4, h5⟩ := jsonSub_ids h
  obtain ⟨e1, e2⟩ := h5 hne
  obtain ⟨s, rest, rfl⟩ := List.exists_cons_of_ne_nil e2
  refine ⟨s, rest, ?_, h2, h3, ?_⟩
  · cases t with
    | nil => exact absurd rfl hne
    | node i l r => simp [jsonTree, h, e1]
  · rw [linesOf_unlines rest text fun l hl => h3 l (by simp [hl]),
      unJSONTree_fuel ((nls rest ++ linesOf text).length + 1 + t.size) _ _ (by omega)]
    exact unJSON_round_trip h _ (by omega) _ s rest rfl

/-- **C16 (errors)**: `JSONTree` returns an error exactly when some number is not finite. -/
theorem C16_error (J : JCodec F) (hls : isFin (leafScore : F) = true) (t : Tree F) (hne : t ≠ .nil) :
    jsonTree J t = .ok none ↔ ¬ t.AllFin := by
  rw [← jsonSub_isSome J hls t 0]
  cases t with
  | nil => exact absurd rfl hne
  | node i l r => simp [jsonTree]

/-- **C16 (ids)**: the lines are the nodes in preorder, numbered from 1; what is written of a child is its number. -/
theorem C16_ids [GoFloatOrd F] (J : JCodec F) (t : Tree F) (lines : List (List Char)) (id : Nat)
    (h : jsonTree J t = .ok (some (lines, id))) (k : Nat) (i : NodeInfo F) (l r : Tree F)
    (hk : t.nodes[k]? = some (.node i l r)) :
    ∃ s n, lines[k]? = some s ∧ J.decNode (s ++ ['\n']) = some n ∧ n.id = k + 1 ∧ n.create = i.strip ∧
      n.leftid = (if l.size = 0 then 0 else k + 2) ∧ n.rightid = (if r.size = 0 then 0 else k + 2 + l.size) := by
  obtain ⟨last', hs, _⟩ := jsonTree_ok h
  have main : ∀ (t : Tree F) last lines id last', jsonSub J t last = some (lines, id, last') → ∀ k i l r,
      t.nodes[k]? = some (.node i l r) →
      ∃ s n, lines[k]? = some s ∧ J.decNode (s ++ ['\n']) = some n ∧ n.id = last + k + 1 ∧ n.create = i.strip ∧
        n.leftid = (if l.size = 0 then 0 else last + k + 2) ∧
        n.rightid = (if r.size = 0 then 0 else last + k + 2 + l.size) := by
    intro t
    induction t with
    | nil => intro last lines id last' _ k i l r hk; simp [Tree.nodes] at hk
    | node i0 l0 r0 ihl ihr =>
      intro last lines id last' h k i l r hk
      obtain ⟨ll, lid, last1, rl, rid, last2, s', h1, h2, h3, h4⟩ := jsonSub_node h
      simp only [Prod.mk.injEq] at h4
      obtain ⟨rfl, rfl, rfl⟩ := h4
      obtain ⟨a1, a2, _, a4, a5⟩ := jsonSub_ids h1
      obtain ⟨b1, b2, _, b4, b5⟩ := jsonSub_ids h2
      have size_nodes : ∀ t : Tree F, t.nodes.length = t.size := by
        intro t
        induction t with
        | nil => rfl
        | node i l r hl hr => simp [Tree.nodes, Tree.size, hl, hr]
      have size0 : ∀ t : Tree F, t.size = 0 ↔ t = .nil := by
        intro t; cases t <;> simp [Tree.size]
      rw [Tree.nodes] at hk
      cases k with
      | zero =>
        simp only [List.getElem?_cons_zero, Option.some.injEq, Tree.node.injEq] at hk
        obtain ⟨rfl, rfl, rfl⟩ := hk
        refine ⟨s', _, by simp, J.decNode_encNode _ _ h3, rfl, create_jnode _ _ _ _, ?_, ?_⟩
        · show lid = _
          by_cases h0 : l0 = .nil
          · rw [if_pos ((size0 _).2 h0)]; exact (a4 h0).2
          · rw [if_neg (fun e => h0 ((size0 _).1 e))]; exact (a5 h0).1
        · show rid = _
          by_cases h0 : r0 = .nil
          · rw [if_pos ((size0 _).2 h0)]; exact (b4 h0).2
          · rw [if_neg (fun e => h0 ((size0 _).1 e)), (b5 h0).1, a1]; omega
      | succ k =>
        rw [List.getElem?_cons_succ] at hk
        by_cases hlt : k < l0.nodes.length
        · rw [List.getElem?_append_left hlt] at hk
          obtain ⟨s, n, q1, q2, q3, q4, q5, q6⟩ := ihl _ _ _ _ h1 k i l r hk
          refine ⟨s, n, ?_, q2, by rw [q3]; omega, q4, ?_, ?_⟩
          · rw [List.cons_append, List.getElem?_cons_succ, List.getElem?_append_left (by rw [a2, ← size_nodes]; exact hlt)]
            exact q1
          · rw [q5]; split <;> omega
          · rw [q6]; split <;> omega
        · rw [List.getElem?_append_right (by omega)] at hk
          obtain ⟨s, n, q1, q2, q3, q4, q5, q6⟩ := ihr _ _ _ _ h2 _ i l r hk
          rw [size_nodes] at hlt q1 q3 q5 q6
          refine ⟨s, n, ?_, q2, by rw [q3, a1]; omega, q4, ?_, ?_⟩
          · rw [List.cons_append, List.getElem?_cons_succ, List.getElem?_append_right (by omega), a2]
            exact q1
          · rw [q5, a1]; split <;> omega
          · rw [q6, a1]; split <;> omega
  obtain ⟨s, n, q1, q2, q3, q4, q5, q6⟩ := main t 0 _ _ _ hs k i l r hk
  exact ⟨s, n, q1, q2, by omega, q4, by rw [q5]; simp, by rw [q6]; simp⟩

theorem strip_predict (t : Tree F) (row : List F) : t.strip.predictSingle row = t.predictSingle row := by
  induction t with
  | nil => rfl
  | node i l r ihl ihr =>
    simp only [Tree.strip, Tree.predictSingle, ihl, ihr]
    rfl

theorem strip_featImp (S : GoSort) (t : Tree F) (g : Feats F) : t.strip.featImp S g = t.featImp S g := by
  induction t generalizing g with
  | nil => rfl
  | node i l r ihl ihr =>
    simp only [Tree.strip, Tree.featImp, ihl, ihr]
    rfl

/-- **C16 (use)**: the tree that is read back predicts the same for every row, has the same feature importance, the
same number of nodes and the same answer of `Leaf`. -/
theorem C16_same_use (t : Tree F) :
    (∀ row, t.strip.predictSingle row = t.predictSingle row) ∧
    (∀ data preds, t.strip.predict data preds = t.predict data preds) ∧
    (∀ S g, t.strip.featImp S g = t.featImp S g) ∧ t.strip.branches = t.branches ∧ t.strip.leaf = t.leaf ∧
    t.strip.size = t.size := by
  refine ⟨strip_predict t, ?_, fun S g => strip_featImp S t g, ?_, ?_, ?_⟩
  · intro data preds
    unfold Tree.predict
    have : ∀ vs i p, predictLoop t.strip vs i p = predictLoop t vs i p := by
      intro vs
      induction vs with
      | nil => intro i p; rfl
      | cons v vs ih =>
        intro i p
        unfold predictLoop
        rw [strip_predict]
        simp only [ih]
    rw [this]
  · cases t <;> rfl
  · cases t <;> rfl
  · induction t with
    | nil => rfl
    | node i l r hl hr => simp [Tree.strip, Tree.size, hl, hr]

/-- a regular tree of one split and an xgboost tree, with the infinite leaf scores of regular trees -/
def jExample : Tree F64 :=
  .node ⟨[0, 1, 2], .fin (-2), .fin 1, 3, 2, 1, .fin (1 / 2), false, 3⟩
    (.node ⟨[0], posInf, .fin 0, 1, 2, 0, .fin 0, false, 1⟩ .nil .nil)
    (.node ⟨[1, 2], posInf, .fin (3 / 2), 2, 2, 0, .fin 0, false, 1⟩ .nil .nil)

example : jExample.AllFin := by
  simp only [Tree.AllFin, jExample]
  decide +kernel

/-! ### C17 -/

/-- **C17, what is read back**: the model without its last round, and without its kind. Missing for C17: the last
round, which `UnJSONMultiClass` never appends (`C17_violated`). -/
theorem C17_read_back_partial [GoFloatOrd F] (J : JCodec F) (exp : F → F) (m : MultiClass F) (name text : List Char)
    (h : jsonMultiClass J m name = .ok (some text)) :
    unJSONMultiClass J exp text = some
      { learningRate := m.learningRate, classLabels := m.classLabels, baseScore := m.baseScore,
        probTransform := if name = "softmax".toList then some (softMaxDense exp) else none,
        b := m.b.dropLast.map (·.map Tree.strip), xgb := false } := by
  unfold jsonMultiClass at h
  cases hm : marshalMCMetaData J m name with
  | none => rw [hm] at h; simp at h
  | some j =>
    rw [hm] at h
    simp only at h
    obtain ⟨o, ho, h⟩ := bind_ok h
    cases o with
    | none => simp [pure, Except.pure] at h
    | some rest =>
      simp only [pure, Except.pure, Except.ok.injEq, Option.some.injEq] at h
      subst h
      unfold marshalMCMetaData at hm
      rw [Option.map_eq_some_iff] at hm
      obtain ⟨s, hs, rfl⟩ := hm
      obtain ⟨L, hL, hnl, hrt, _⟩ := jsonRounds_lines m.b 0 rest ho
      have hl : linesOf (s ++ ['\n'] ++ rest) = (s ++ ['\n']) :: nls L := by
        rw [List.append_assoc, List.singleton_append, linesOf_line s rest (J.encMeta_line _ _ hs), hL]
        have := linesOf_unlines L [] hnl
        rw [List.append_nil] at this
        rw [this]
        simp [linesOf, splitLines]
      unfold unJSONMultiClass
      rw [hl]
      simp only [J.decMeta_encMeta _ _ hs, Option.bind_eq_bind, Option.bind_some]
      have := hrt [] none
      unfold readLoop at this
      rw [this]
      simp only [Option.bind_some, Option.pure_def, probTransformMap]
      cases hb : m.b with
      | nil => simp
      | cons b bs => simp

/-- **C17 is violated**: whenever a model with at least one round is written, the model read back has one round less;
a model of one round comes back empty and panics on every prediction. -/
theorem C17_violated [GoFloatOrd F] (J : JCodec F) (exp : F → F) (m : MultiClass F) (name text : List Char)
    (h : jsonMultiClass J m name = .ok (some text)) (hb : m.b ≠ []) :
    ∃ m', unJSONMultiClass J exp text = some m' ∧ m'.b.length + 1 = m.b.length ∧
      (m.b.length = 1 → ∀ row, m'.predictSingle row = .error .index) := by
  refine ⟨_, C17_read_back_partial J exp m name text h, ?_, ?_⟩
  · have := List.length_pos_iff.2 hb
    simp
    omega
  · intro h1 row
    obtain ⟨x, hx⟩ := List.length_eq_one_iff.1 h1
    unfold MultiClass.predictSingle MultiClass.rawScores
    simp [hx, goIdx, bind, Except.bind]

/-- **C17, predictions**: for `name = "softmax"` the model read back predicts for every row what the original predicts
when its last round is taken away. -/
theorem C17_predictions_partial [GoFloatOrd F] (J : JCodec F) (exp : F → F) (m : MultiClass F) (text : List Char)
    (h : jsonMultiClass J m "softmax".toList = .ok (some text)) (hp : m.probTransform = some (softMaxDense exp)) :
    ∃ m', unJSONMultiClass J exp text = some m' ∧
      ∀ row, m'.rawScores row = ({ m with b := m.b.dropLast } : MultiClass F).rawScores row ∧
        m'.predictSingle row = ({ m with b := m.b.dropLast } : MultiClass F).predictSingle row ∧
        m'.predictSingleClass row = ({ m with b := m.b.dropLast } : MultiClass F).predictSingleClass row := by
  refine ⟨_, C17_read_back_partial J exp m _ text h, ?_⟩
  intro row
  have hadd : ∀ lr (ts : List (Tree F)) c tmp, addRound lr row (ts.map Tree.strip) c tmp = addRound lr row ts c tmp := by
    intro lr ts
    induction ts with
    | nil => intro c tmp; rfl
    | cons t ts ih =>
      intro c tmp
      simp only [List.map_cons, addRound, strip_predict, ih]
  have hraw : (MultiClass.rawScores
      { learningRate := m.learningRate, classLabels := m.classLabels, baseScore := m.baseScore,
        probTransform := if "softmax".toList = "softmax".toList then some (softMaxDense exp) else none,
        b := m.b.dropLast.map (·.map Tree.strip), xgb := false } row) =
      ({ m with b := m.b.dropLast } : MultiClass F).rawScores row := by
    unfold MultiClass.rawScores
    simp only [List.foldlM_map, hadd]
    cases hb : m.b.dropLast with
    | nil => rfl
    | cons b bs => simp [goIdx, bind, Except.bind]
  have hps : (MultiClass.predictSingle
      { learningRate := m.learningRate, classLabels := m.classLabels, baseScore := m.baseScore,
        probTransform := if "softmax".toList = "softmax".toList then some (softMaxDense exp) else none,
        b := m.b.dropLast.map (·.map Tree.strip), xgb := false } row) =
      ({ m with b := m.b.dropLast } : MultiClass F).predictSingle row := by
    unfold MultiClass.predictSingle
    rw [hraw]
    simp only [if_true, hp]
  refine ⟨hraw, hps, ?_⟩
  unfold MultiClass.predictSingleClass
  rw [hps]

/-- **C17, other names**: with a name that is not in `ProbTransformMap` the model is written and read, and every
prediction panics (for the package's own test the name is "softmaxDense"). -/
theorem C17_unknown_name_violated [GoFloatOrd F] (J : JCodec F) (exp : F → F) (m : MultiClass F) (name text : List Char)
    (h : jsonMultiClass J m name = .ok (some text)) (hn : name ≠ "softmax".toList) :
    ∃ m', unJSONMultiClass J exp text = some m' ∧ ∀ row p, m'.predictSingle row ≠ .ok p := by
  refine ⟨_, C17_read_back_partial J exp m name text h, ?_⟩
  intro row p hp
  unfold MultiClass.predictSingle at hp
  obtain ⟨raw, _, hp⟩ := bind_ok hp
  obtain ⟨O, _, hp⟩ := bind_ok hp
  obtain ⟨D, _, hp⟩ := bind_ok hp
  rw [if_neg hn] at hp
  simp at hp

/-- what `JSONMultiClass` can write -/
structure Writable (m : MultiClass F) : Prop where
  lr : isFin m.learningRate = true
  base : isFin m.baseScore = true
  trees : ∀ round ∈ m.b, ∀ t ∈ round, t ≠ .nil ∧ t.AllFin
  labels : ∀ round ∈ m.b, round.length ≤ m.classLabels.length

/-- **C17 (writing succeeds)** for models whose numbers are finite and which have a label for each class. -/
theorem C17_writes (J : JCodec F) (hls : isFin (leafScore : F) = true) (m : MultiClass F) (name : List Char)
    (h : Writable m) : ∃ text, jsonMultiClass J m name = .ok (some text) := by
  have hcls : ∀ (ts : List (Tree F)) cn, (∀ t ∈ ts, t ≠ .nil ∧ t.AllFin) → cn + ts.length ≤ m.classLabels.length →
      ∃ text, jsonClasses J m.classLabels ts cn = .ok (some text) := by
    intro ts
    induction ts with
    | nil => intro cn _ _; exact ⟨[], rfl⟩
    | cons t ts ih =>
      intro cn ht hl
      simp only [List.length_cons] at hl
      obtain ⟨rest, hr⟩ := ih (cn + 1) (fun t h => ht t (by simp [h])) (by omega)
      obtain ⟨lab, hlab⟩ : ∃ lab, goIdx m.classLabels cn = .ok lab :=
        ⟨_, goIdx_ok.2 (List.getElem?_eq_getElem (by omega))⟩
      obtain ⟨hne, hf⟩ := ht t (by simp)
      obtain ⟨p, hp⟩ := Option.isSome_iff_exists.1 ((jsonSub_isSome J hls t 0).2 hf)
      have hj : jsonTree J t = .ok (some (p.1, p.2.1)) := by
        cases t with
        | nil => exact absurd rfl hne
        | node i l r => simp [jsonTree, hp]
      unfold jsonClasses
      simp only [hlab, hj, hr, bind, Except.bind]
      exact ⟨_, rfl⟩
  have hrd : ∀ (rs : List (List (Tree F))) rn, (∀ r ∈ rs, r ∈ m.b) →
      ∃ text, jsonRounds J m.classLabels rs rn = .ok (some text) := by
    intro rs
    induction rs with
    | nil => intro rn _; exact ⟨[], rfl⟩
    | cons r rs ih =>
      intro rn hr
      obtain ⟨rest, hrest⟩ := ih (rn + 1) (fun r h => hr r (by simp [h]))
      have hm := hr r (by simp)
      obtain ⟨c, hc⟩ := hcls r 0 (h.trees r hm) (by have := h.labels r hm; omega)
      unfold jsonRounds
      simp only [hc, hrest, bind, Except.bind]
      exact ⟨_, rfl⟩
  obtain ⟨rest, hrest⟩ := hrd m.b 0 (fun _ h => h)
  obtain ⟨s, hs⟩ := Option.isSome_iff_exists.1 (show (J.encMeta ⟨m.learningRate, m.classLabels, name, m.baseScore⟩).isSome
    = true by rw [J.encMeta_isSome]; simp [h.lr, h.base])
  unfold jsonMultiClass marshalMCMetaData
  rw [hs]
  simp only [Option.map_some, hrest, bind, Except.bind]
  exact ⟨_, rfl⟩

/-! ### C18 -/

/-- two rounds of an xgboost model; the first tree splits on feature 0 with gain 1, then on feature 1 with gain 2 -/
def kindModel : MultiClass F64 :=
  let leaf : Tree F64 := .node ⟨[], .fin 0, .fin 1, 1, 2, 0, .fin 0, true, 1⟩ .nil .nil
  let t : Tree F64 := .node ⟨[], .fin 1, .fin 1, 4, 2, 0, .fin 0, true, 5⟩ leaf
    (.node ⟨[], .fin 2, .fin 1, 3, 2, 1, .fin 0, true, 3⟩ leaf leaf)
  ⟨[[t], [t]], .fin 1, [7], none, .fin 0, true⟩

theorem kindModel_writable : Writable kindModel where
  lr := by decide +kernel
  base := by decide +kernel
  trees := by
    intro round hr t ht
    simp only [kindModel, List.mem_cons, List.not_mem_nil, or_false, or_self] at hr
    subst hr
    simp only [List.mem_cons, List.not_mem_nil, or_false] at ht
    subst ht
    refine ⟨by simp, ?_⟩
    simp only [Tree.AllFin]
    decide +kernel
  labels := by
    intro round hr
    simp only [kindModel, List.mem_cons, List.not_mem_nil, or_false, or_self] at hr
    subst hr
    decide

/-- **C18 is violated**: the xgboost flag is not restored, so the features of an xgboost model are listed worst first
after a round trip, whatever the codec. -/
theorem C18_violated (J : JCodec F64) (exp : F64 → F64) :
    ∃ text m', jsonMultiClass J kindModel "softmax".toList = .ok (some text) ∧
      unJSONMultiClass J exp text = some m' ∧
      (kindModel.featureImportance GoSort.ins).map (fun f => f.items.map Prod.fst) = .ok [1, 0] ∧
      (m'.featureImportance GoSort.ins).map (fun f => f.items.map Prod.fst) = .ok [0, 1] := by
  obtain ⟨text, h⟩ := C17_writes J leafScore_F64 kindModel "softmax".toList kindModel_writable
  refine ⟨text, _, h, C17_read_back_partial J exp kindModel _ text h, by decide +kernel, ?_⟩
  have key : (MultiClass.featureImportance GoSort.ins (⟨kindModel.b.dropLast.map (·.map Tree.strip), .fin 1, [7], none,
      .fin 0, false⟩ : MultiClass F64)).map (fun f => f.items.map Prod.fst) = .ok [0, 1] := by decide +kernel
  exact key

/-- **C18 for regular models, partial**: the model read back lists the features like the original without its last
round. Missing: the last round (see C17) and xgboost models (`C18_violated`). -/
theorem C18_regular_partial [GoFloatOrd F] (J : JCodec F) (exp : F → F) (S : GoSort) (m : MultiClass F)
    (name text : List Char) (h : jsonMultiClass J m name = .ok (some text)) (hx : m.xgb = false) :
    ∃ m', unJSONMultiClass J exp text = some m' ∧
      m'.featureImportance S = ({ m with b := m.b.dropLast } : MultiClass F).featureImportance S := by
  refine ⟨_, C17_read_back_partial J exp m name text h, ?_⟩
  unfold MultiClass.featureImportance
  simp only [List.foldlM_map, strip_featImp, hx]

/-! ### C19 -/

/-- **C19**: whatever prefix of the file is left, reading it returns an error or a model whose rounds are an initial
segment of the rounds that were written, each tree complete, with the parameters that were written. -/
theorem C19_truncated [GoFloatOrd F] (J : JCodec F) (exp : F → F) (m : MultiClass F) (name text : List Char)
    (h : jsonMultiClass J m name = .ok (some text)) (cut : List Char) (hcut : cut <+: text) :
    unJSONMultiClass J exp cut = none ∨ ∃ m' k, unJSONMultiClass J exp cut = some m' ∧
      m'.b = (m.b.take k).map (·.map Tree.strip) ∧ m'.learningRate = m.learningRate ∧
      m'.classLabels = m.classLabels ∧ m'.baseScore = m.baseScore := by
  unfold jsonMultiClass at h
  cases hm : marshalMCMetaData J m name with
  | none => rw [hm] at h; simp at h
  | some j =>
    rw [hm] at h
    simp only at h
    obtain ⟨o, ho, h⟩ := bind_ok h
    cases o with
    | none => simp [pure, Except.pure] at h
    | some rest =>
      simp only [pure, Except.pure, Except.ok.injEq, Option.some.injEq] at h
      subst h
      unfold marshalMCMetaData at hm
      rw [Option.map_eq_some_iff] at hm
      obtain ⟨s, hs, rfl⟩ := hm
      obtain ⟨L, hL, hnl, _, htr⟩ := jsonRounds_lines m.b 0 rest ho
      rw [show s ++ ['\n'] ++ rest = unlines (s :: L) by rw [hL]; rfl] at hcut
      obtain ⟨k, _, hk⟩ := linesOf_prefix (s :: L) cut (by
        intro l hl
        rw [List.mem_cons] at hl
        rcases hl with rfl | hl
        · exact J.encMeta_line _ _ hs
        · exact hnl l hl) hcut
      unfold unJSONMultiClass
      rw [hk]
      cases k with
      | zero => exact Or.inl rfl
      | succ k =>
        simp only [List.take_succ_cons, nls_cons, J.decMeta_encMeta _ _ hs, Option.bind_eq_bind, Option.bind_some]
        have := htr k [] none
        unfold readLoop at this
        rcases this with h | ⟨j, h⟩
        · left; rw [h]; rfl
        · right
          rw [h]
          refine ⟨_, j - 1, rfl, ?_, rfl, rfl, rfl⟩
          cases j <;> simp

/-- The hypotheses of C16–C19 are met: the example model can be written with the example codec. -/
example : ∃ text, jsonMultiClass (JCodec.unary : JCodec F64) kindModel "softmax".toList = .ok (some text) :=
  C17_writes _ leafScore_F64 _ _ kindModel_writable

end Boo
