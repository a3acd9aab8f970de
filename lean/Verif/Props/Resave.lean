import Verif.Props.Json

/-!
# C85: saving a loaded model, and saving and loading repeatedly
-/

namespace Boo
open GoFloat
variable {F : Type} [GoFloat F]

theorem jsonSub_strip (J : JCodec F) (t : Tree F) : ∀ last, jsonSub J t.strip last = jsonSub J t last := by
  induction t with
  | nil => intro last; rfl
  | node i l r ihl ihr =>
    intro last
    simp only [Tree.strip, jsonSub, ihl, ihr]
    rfl

theorem jsonTree_strip (J : JCodec F) (t : Tree F) : jsonTree J t.strip = jsonTree J t := by
  cases t with
  | nil => rfl
  | node i l r =>
    show Except.ok ((jsonSub J (Tree.node i l r).strip 0).map _) = Except.ok _
    rw [jsonSub_strip]

theorem jsonClasses_strip (J : JCodec F) (labels : List Int) (ts : List (Tree F)) :
    ∀ cn, jsonClasses J labels (ts.map Tree.strip) cn = jsonClasses J labels ts cn := by
  induction ts with
  | nil => intro cn; rfl
  | cons t ts ih =>
    intro cn
    simp only [List.map_cons, jsonClasses, jsonTree_strip, ih]

theorem jsonRounds_strip (J : JCodec F) (labels : List Int) (b : List (List (Tree F))) :
    ∀ rn, jsonRounds J labels (b.map (·.map Tree.strip)) rn = jsonRounds J labels b rn := by
  induction b with
  | nil => intro rn; rfl
  | cons r b ih =>
    intro rn
    simp only [List.map_cons, jsonRounds, jsonClasses_strip, ih]

theorem jsonRounds_append (J : JCodec F) (labels : List Int) (a b : List (List (Tree F))) :
    ∀ rn x, jsonRounds J labels (a ++ b) rn = .ok (some x) →
      ∃ y z, jsonRounds J labels a rn = .ok (some y) ∧ jsonRounds J labels b (rn + a.length) = .ok (some z) ∧ x = y ++ z := by
  induction a with
  | nil => intro rn x h; exact ⟨[], x, rfl, h, rfl⟩
  | cons r a ih =>
    intro rn x h
    simp only [List.cons_append, jsonRounds] at h ⊢
    obtain ⟨c, hc, h⟩ := bind_ok h
    cases c with
    | none => cases Except.ok.inj h
    | some c =>
      obtain ⟨o, ho, h⟩ := bind_ok h
      cases o with
      | none => cases Except.ok.inj h
      | some rest =>
        obtain ⟨y, z, hy, hz, rfl⟩ := ih _ _ ho
        have hx := Option.some.inj (Except.ok.inj h)
        refine ⟨"ROUND ".toList ++ fmtNat rn ++ "\n".toList ++ c ++ y, z, ?_, ?_, ?_⟩
        · simp only [hc, hy, bind, Except.bind, pure, Except.pure]
        · rw [List.length_cons, ← Nat.add_assoc, Nat.add_right_comm]
          exact hz
        · rw [← hx]
          simp only [List.append_assoc]

/-- **C85 (what is saved again)**: a model that was loaded can always be saved again, under any name that is the one it was
saved with. The file is a beginning of the first one: it has the same first line and the same text for the rounds that are
still there. It is the same file only if there are no rounds. -/
theorem C85_file_violated [GoFloatOrd F] (J : JCodec F) (exp : F → F) (m : MultiClass F) (name text : List Char)
    (h : jsonMultiClass J m name = .ok (some text)) :
    ∃ m' text', unJSONMultiClass J exp text = some m' ∧ jsonMultiClass J m' name = .ok (some text') ∧ text' <+: text ∧
      (text' = text ↔ m.b = []) := by
  have hread := C17_read_back_partial J exp m name text h
  unfold jsonMultiClass at h
  cases hm : marshalMCMetaData J m name with
  | none => rw [hm] at h; simp at h
  | some j =>
    rw [hm] at h
    simp only at h
    obtain ⟨o, ho, h⟩ := bind_ok h
    cases o with
    | none => simp [pure, Except.pure] at h
    | some rest =>
      have ht : j ++ rest = text := Option.some.inj (Except.ok.inj h)
      have hsplit : ∃ y z, jsonRounds J m.classLabels m.b.dropLast 0 = .ok (some y) ∧ rest = y ++ z ∧ (z = [] ↔ m.b = []) := by
        rcases List.eq_nil_or_concat m.b with hb | ⟨bs, b, hb⟩
        · rw [hb] at ho ⊢
          have := Option.some.inj (Except.ok.inj ho)
          exact ⟨[], [], rfl, this.symm, by simp⟩
        · rw [hb] at ho ⊢
          simp only [List.concat_eq_append, List.dropLast_concat] at ho ⊢
          obtain ⟨y, z, hy, hz, rfl⟩ := jsonRounds_append J _ _ _ _ _ ho
          refine ⟨y, z, hy, rfl, ?_⟩
          simp only [List.append_eq_nil_iff, List.cons_ne_nil, and_false, iff_false]
          rintro rfl
          simp only [jsonRounds] at hz
          obtain ⟨c, hc, hz⟩ := bind_ok hz
          cases c with
          | none => cases Except.ok.inj hz
          | some c =>
            have := Option.some.inj (Except.ok.inj hz)
            simp at this
      obtain ⟨y, z, hy, rfl, hz⟩ := hsplit
      refine ⟨_, j ++ y, hread, ?_, ?_, ?_⟩
      · have hm' : marshalMCMetaData J ({ learningRate := m.learningRate, classLabels := m.classLabels, baseScore := m.baseScore, probTransform := if name = "softmax".toList then some (softMaxDense exp) else none, b := m.b.dropLast.map (·.map Tree.strip), xgb := false } : MultiClass F) name = some j := hm
        unfold jsonMultiClass
        rw [hm']
        simp only [jsonRounds_strip, hy]
        rfl
      · exact ⟨z, by rw [← ht, List.append_assoc]⟩
      · rw [← ht, ← hz, ← List.append_assoc]
        constructor
        · intro he
          simpa using he
        · rintro rfl
          simp

/-- save a model under the name "softmax" and load what was saved; `none`: an error or a panic -/
def reload (J : JCodec F) (exp : F → F) (m : MultiClass F) : Option (MultiClass F) :=
  match jsonMultiClass J m "softmax".toList with
  | .ok (some text) => unJSONMultiClass J exp text
  | _ => none

/-- save and load `k` times -/
def reloads (J : JCodec F) (exp : F → F) : Nat → MultiClass F → Option (MultiClass F)
  | 0, m => some m
  | k + 1, m => (reload J exp m).bind (reloads J exp k)

theorem NodeInfo.strip_strip (i : NodeInfo F) : i.strip.strip = i.strip := rfl

theorem Tree.strip_ne_nil {t : Tree F} (h : t ≠ .nil) : t.strip ≠ .nil := by
  cases t with
  | nil => exact absurd rfl h
  | node i l r => intro h; cases h

theorem Tree.allFin_strip : ∀ {t : Tree F}, t.AllFin → t.strip.AllFin
  | .nil, _ => trivial
  | .node _ _ _, h => ⟨h.1, Tree.allFin_strip h.2.1, Tree.allFin_strip h.2.2⟩

theorem reload_writable [GoFloatOrd F] (J : JCodec F) (exp : F → F) (hls : isFin (leafScore : F) = true) (m : MultiClass F)
    (h : Writable m) : ∃ m', reload J exp m = some m' ∧ Writable m' ∧ m'.b = m.b.dropLast.map (·.map Tree.strip) ∧
      m'.learningRate = m.learningRate ∧ m'.classLabels = m.classLabels ∧ m'.baseScore = m.baseScore ∧
      m'.probTransform = some (softMaxDense exp) := by
  obtain ⟨text, ht⟩ := C17_writes J hls m "softmax".toList h
  refine ⟨⟨m.b.dropLast.map (·.map Tree.strip), m.learningRate, m.classLabels, some (softMaxDense exp), m.baseScore, false⟩, ?_, ?_, rfl, rfl, rfl,
    rfl, rfl⟩
  · unfold reload
    rw [ht]
    exact (C17_read_back_partial J exp m _ text ht).trans (by rw [if_pos rfl])
  · refine ⟨h.lr, h.base, ?_, ?_⟩
    · intro round hr t ht
      obtain ⟨r0, hr0, rfl⟩ := List.mem_map.1 hr
      obtain ⟨t0, ht0, rfl⟩ := List.mem_map.1 ht
      obtain ⟨h1, h2⟩ := h.trees r0 (List.dropLast_subset _ hr0) t0 ht0
      exact ⟨Tree.strip_ne_nil h1, Tree.allFin_strip h2⟩
    · intro round hr
      obtain ⟨r0, hr0, rfl⟩ := List.mem_map.1 hr
      rw [List.length_map]
      exact h.labels r0 (List.dropLast_subset _ hr0)

theorem dropLast_take {α : Type} (l : List α) (n : Nat) : l.dropLast.take n = l.take (min n (l.length - 1)) := by
  rw [List.dropLast_eq_take, List.take_take]

/-- two models whose rounds have the same trees but for what is not saved -/
structure SameButStripped (m m' : MultiClass F) : Prop where
  b : m'.b.map (·.map Tree.strip) = m.b.map (·.map Tree.strip)
  lr : m'.learningRate = m.learningRate
  labels : m'.classLabels = m.classLabels
  base : m'.baseScore = m.baseScore

theorem Tree.strip_strip (t : Tree F) : t.strip.strip = t.strip := by
  induction t with
  | nil => rfl
  | node i l r ihl ihr => simp only [Tree.strip, ihl, ihr]; rfl

theorem rawScores_strip (m : MultiClass F) (row : List F) :
    ({ m with b := m.b.map (·.map Tree.strip) } : MultiClass F).rawScores row = m.rawScores row := by
  have hadd : ∀ lr (ts : List (Tree F)) c tmp, addRound lr row (ts.map Tree.strip) c tmp = addRound lr row ts c tmp := by
    intro lr ts
    induction ts with
    | nil => intro c tmp; rfl
    | cons t ts ih =>
      intro c tmp
      simp only [List.map_cons, addRound, strip_predict, ih]
  unfold MultiClass.rawScores
  simp only [List.foldlM_map, hadd]
  cases hb : m.b with
  | nil => rfl
  | cons b bs => simp [goIdx, bind, Except.bind]

theorem SameButStripped.raw {m m' : MultiClass F} (h : SameButStripped m m') (row : List F) :
    m'.rawScores row = m.rawScores row := by
  rw [← rawScores_strip m, ← rawScores_strip m', h.b]
  unfold MultiClass.rawScores
  simp only [h.lr, h.base]

theorem SameButStripped.single {m m' : MultiClass F} (h : SameButStripped m m') (hp : m'.probTransform = m.probTransform)
    (row : List F) : m'.predictSingle row = m.predictSingle row ∧ m'.predictSingleClass row = m.predictSingleClass row := by
  have h1 : m'.predictSingle row = m.predictSingle row := by
    unfold MultiClass.predictSingle
    rw [h.raw, hp]
  refine ⟨h1, ?_⟩
  unfold MultiClass.predictSingleClass
  rw [h1]

/-- **C85 (repeated)**: a model that can be saved can be saved and loaded any number of times. After `k` times it predicts,
for every row, what the original predicts without its last `k` rounds. After as many times as there are rounds, every
prediction panics. -/
theorem C85_repeated_violated [GoFloatOrd F] (J : JCodec F) (exp : F → F) (hls : isFin (leafScore : F) = true)
    (m : MultiClass F) (h : Writable m) (hp : m.probTransform = some (softMaxDense exp)) (k : Nat) :
    ∃ m', reloads J exp k m = some m' ∧ m'.b.length = m.b.length - k ∧
      (∀ row, m'.predictSingle row = ({ m with b := m.b.take (m.b.length - k) } : MultiClass F).predictSingle row ∧
        m'.predictSingleClass row = ({ m with b := m.b.take (m.b.length - k) } : MultiClass F).predictSingleClass row) ∧
      (m.b.length ≤ k → ∀ row, m'.predictSingle row = .error .index) := by
  have main : ∀ k (m : MultiClass F), Writable m → m.probTransform = some (softMaxDense exp) →
      ∃ m', reloads J exp k m = some m' ∧ SameButStripped ({ m with b := m.b.take (m.b.length - k) }) m' ∧
        m'.probTransform = some (softMaxDense exp) := by
    intro k
    induction k with
    | zero =>
      intro m h hp
      refine ⟨m, rfl, ⟨?_, rfl, rfl, rfl⟩, hp⟩
      simp
    | succ k ih =>
      intro m h hp
      obtain ⟨m1, hr, hw, hb, hlr, hla, hba, hpt⟩ := reload_writable J exp hls m h
      obtain ⟨m', hm', hs, hpt'⟩ := ih m1 hw hpt
      refine ⟨m', ?_, ⟨?_, ?_, ?_, ?_⟩, hpt'⟩
      · unfold reloads
        rw [hr]
        exact hm'
      · rw [hs.b]
        simp only [hb, List.length_map, List.length_dropLast, List.map_take, List.map_map]
        have e : (m.b.dropLast.map (((·.map Tree.strip) : List (Tree F) → List (Tree F)) ∘ (·.map Tree.strip))) =
            (m.b.map (·.map Tree.strip)).dropLast := by
          rw [List.map_dropLast]
          congr 1
          refine List.map_congr_left fun r _ => ?_
          simp [Function.comp_def, Tree.strip_strip]
        rw [e, dropLast_take, List.length_map]
        congr 1
        omega
      · rw [hs.lr]; exact hlr
      · rw [hs.labels]; exact hla
      · rw [hs.base]; exact hba
  obtain ⟨m', hr, hs, hpt⟩ := main k m h hp
  have hlen : m'.b.length = m.b.length - k := by
    have := congrArg List.length hs.b
    simpa using this
  refine ⟨m', hr, hlen, fun row => hs.single (by rw [hpt, hp]) row, fun hk row => ?_⟩
  have hnil : m'.b = [] := List.length_eq_zero_iff.1 (by omega)
  unfold MultiClass.predictSingle MultiClass.rawScores
  simp [hnil, goIdx, bind, Except.bind]

/-- C85: a model with rounds that can be saved, in binary64 -/
example (exp : F64 → F64) : ∃ m : MultiClass F64, Writable m ∧ m.probTransform = some (softMaxDense exp) ∧ m.b.length = 2 ∧
    isFin (leafScore : F64) = true :=
  ⟨{ kindModel with probTransform := some (softMaxDense exp) },
    ⟨kindModel_writable.lr, kindModel_writable.base, kindModel_writable.trees, kindModel_writable.labels⟩, rfl, rfl, leafScore_F64⟩

end Boo
