import Verif.Lemmas.JsonCodec
import Verif.Props.Json

/-!
# C137: model files are lines of JSON, and JSON with the same content is read as the same model

`goJSON N` is `encoding/json` as boo uses it (Model/JsonText.lean); `N` is the text of float64 numbers. What a JSON text is
and what a struct gets from an object is said in Spec/Json.lean.
-/

namespace Boo
open GoFloat Spec
set_option linter.unusedSectionVars false
variable {F : Type} [GoFloat F]

theorem isFin_inf (R : Rounder ℚ) (b : Bool) : isFin (.inf b : XF R) = false := by
  cases b with
  | false => rfl
  | true =>
    have h : ((zero : XF R) -. .inf true) = .inf false := by
      show XF.add (XF.round ((0 : ℚ) : ℚ)) (.inf false) = .inf false
      unfold XF.round
      cases R.rnd ((0 : ℚ) : ℚ) <;> simp [XF.add]
    unfold isFin
    rw [h]
    rfl

/-- A text of numbers for the examples: a fraction is written as its numerator, the letter e and its denominator. (Not what
Go writes; any text with the laws of `JNum` will do.) -/
def fracNum (R : Rounder ℚ) : JNum (XF R) where
  fmt
    | .fin q => fmtInt q.num ++ 'e' :: fmtNat q.den
    | _ => []
  parse s := (intLit (s.takeWhile (· != 'e'))).bind fun a => (natLit ((s.dropWhile (· != 'e')).drop 1)).map fun b : Nat =>
    .fin ((a : ℚ) / b)
  fmt_num x h := by
    cases x with
    | fin q =>
      have he : JExpText ('e' :: fmtNat q.den) := Or.inr ⟨'e', [], fmtNat q.den, Or.inl rfl, Or.inl rfl,
        ⟨fmtNat_ne_nil _, fmtNat_digits _⟩, rfl⟩
      have hn : JNumText (fmtInt q.num ++ 'e' :: fmtNat q.den) := by
        cases hq : q.num with
        | ofNat n =>
          rw [fmtInt_nat]
          exact ⟨[], fmtNat n, [], _, Or.inl rfl, fmtNat_int n, Or.inl rfl, he, by simp⟩
        | negSucc n =>
          rw [fmtInt_neg]
          exact ⟨['-'], fmtNat (n + 1), [], _, Or.inr rfl, fmtNat_int _, Or.inl rfl, he, by simp⟩
      have := scanNum_append hn (r := []) (by intro c hc; cases hc)
      simpa using this
    | nan => exact absurd h (by rw [show isFin (.nan : XF R) = false from rfl]; simp)
    | inf b => exact absurd h (by rw [isFin_inf]; simp)
  parse_fmt x h := by
    cases x with
    | fin q =>
      have hc : ∀ c ∈ fmtInt q.num, (c != 'e') = true := by
        intro c hc
        rcases fmtInt_chars _ c hc with h | rfl
        · simp only [bne_iff_ne]; rintro rfl; exact absurd h (by decide)
        · decide
      have h1 : (fmtInt q.num ++ 'e' :: fmtNat q.den).takeWhile (· != 'e') = fmtInt q.num := by
        rw [List.takeWhile_append_of_pos hc]; simp
      have h2 : (fmtInt q.num ++ 'e' :: fmtNat q.den).dropWhile (· != 'e') = 'e' :: fmtNat q.den := by
        rw [List.dropWhile_append_of_pos hc]; simp
      have h3 : intLit (fmtInt q.num) = some q.num := by
        rw [intLit_iff]
        obtain ⟨ds, hd, h⟩ := intVal_fmt q.num
        refine ⟨ds, hd, ?_⟩
        rcases h with ⟨h, h'⟩ | ⟨h, h'⟩
        · exact Or.inl ⟨by cases h; rfl, h'⟩
        · exact Or.inr ⟨JVal.num.inj h, h'⟩
      have h4 : natLit (fmtNat q.den) = some q.den := by
        rw [natLit_iff]
        exact ⟨fun c hc => (digit_iff c).1 (fmtNat_digits _ c hc), (decimal_fmtNat _).symm⟩
      simp only [h1, h2, h3, List.drop_one, List.tail_cons, h4, Option.bind_some, Option.map_some]
      rw [Rat.num_div_den]
    | nan => exact absurd h (by rw [show isFin (.nan : XF R) = false from rfl]; simp)
    | inf b => exact absurd h (by rw [isFin_inf]; simp)

/-! ### reading -/

theorem decStruct_iff {α : Type} (set : α → List Char × JVal → Option α) (z : α) (s : List Char) (x : α) :
    decStruct set z s = some x ↔ (JsonText .null s ∧ x = z) ∨ ∃ ms, JsonText (.obj ms) s ∧ ms.foldlM set z = some x := by
  unfold decStruct
  simp only [Option.bind_eq_some_iff, jsonParse_iff]
  constructor
  · rintro ⟨v, hv, h⟩
    split at h
    · cases h; exact Or.inl ⟨hv, rfl⟩
    · exact Or.inr ⟨_, hv, h⟩
    · cases h
  · rintro (⟨hv, rfl⟩ | ⟨ms, hv, h⟩)
    · exact ⟨_, hv, rfl⟩
    · exact ⟨_, hv, h⟩

/-- **C137 (what is read as a node)**: a line is read as a node if, and only if, it is a JSON text of an object whose members
give the fields these values, whatever their order, the case of the letters of their names, the white space, and other
members; or it is null, which is read as a node with all fields zero. Everything else is an error. -/
theorem C137_reads_node (N : JNum F) (s : List Char) (n : JSONNode F) :
    (goJSON N).decNode s = some n ↔ (JsonText .null s ∧ NodeOf N [] n) ∨ ∃ ms, JsonText (.obj ms) s ∧ NodeOf N ms n := by
  have h0 : NodeOf N [] n ↔ n = JSONNode.zero := by
    rw [← node_members]; simp [eq_comm]
  rw [h0]
  simp only [← node_members]
  exact decStruct_iff _ _ _ _

/-- **C137 (what is read as metadata)** -/
theorem C137_reads_meta (N : JNum F) (s : List Char) (j : JSONMetaData F) :
    (goJSON N).decMeta s = some j ↔ (JsonText .null s ∧ MetaOf N [] j) ∨ ∃ ms, JsonText (.obj ms) s ∧ MetaOf N ms j := by
  have h0 : MetaOf N [] j ↔ j = JSONMetaData.zero := by
    rw [← meta_members]; simp [eq_comm]
  rw [h0]
  simp only [← meta_members]
  exact decStruct_iff _ _ _ _

/-! ### writing -/

/-- **C137 (what is written for a node)**: a line with a JSON object that has exactly the twelve fields, with the values of the
node; the line is the object and nothing else, also no line break in it. -/
theorem C137_writes_node (N : JNum F) (n : JSONNode F) (s : List Char) (h : (goJSON N).encNode n = some s) :
    ∃ ms, JText 2 (.obj ms) s ∧ ms.map (·.1) = nodeFields.map String.toList ∧ NodeOf N ms n ∧ '\n' ∉ s := by
  have hl := (goJSON N).encNode_line n s h
  simp only [goJSON] at h
  split at h
  · next hf =>
    cases h
    simp only [Bool.and_eq_true, and_assoc] at hf
    exact ⟨_, nodeText_text N n hf, by simp only [nodeMembers, nodeFields, List.map_cons, List.map_nil], (node_members N _ _).1 (node_read N n hf), hl⟩
  · cases h

/-- **C137 (what is written as metadata)** -/
theorem C137_writes_meta (N : JNum F) (j : JSONMetaData F) (s : List Char) (h : (goJSON N).encMeta j = some s) :
    ∃ ms, JText 2 (.obj ms) s ∧ ms.map (·.1) = metaFields.map String.toList ∧ MetaOf N ms j ∧ '\n' ∉ s := by
  have hl := (goJSON N).encMeta_line j s h
  simp only [goJSON] at h
  split at h
  · next hf =>
    cases h
    simp only [Bool.and_eq_true] at hf
    exact ⟨_, metaText_text N j hf, by simp only [metaMembers, metaFields, List.map_cons, List.map_nil], (meta_members N _ _).1 (meta_read N j hf), hl⟩
  · cases h

/-! ### the same content -/

theorem fieldFold_given {α : Type} {name : String} (hn : ∀ c ∈ name.toList, Letter c) (f : JVal → α → Option α) (z : α)
    (ms : List (List Char × JVal)) : fieldFold name f z ms = (given name ms).foldlM (fun x v => f v x) z := by
  induction ms generalizing z with
  | nil => rfl
  | cons m ms ih =>
    unfold fieldFold given at ih ⊢
    rw [List.foldlM_cons, List.filter_cons]
    by_cases hm : Named name m.1
    · rw [(isField_iff hn _).2 hm]
      simp only [hm, decide_true, if_true, List.map_cons, List.foldlM_cons]
      congr 1; funext y; exact ih y
    · have : isField name m.1 = false := by rw [← Bool.not_eq_true, isField_iff hn]; exact hm
      rw [this]
      simp only [hm, decide_false, Bool.false_eq_true, if_false]
      exact ih z

theorem node_given (N : JNum F) {ms ms' : List (List Char × JVal)} (h : ∀ name ∈ nodeFields, given name ms = given name ms') :
    ms.foldlM (JSONNode.set N) JSONNode.zero = ms'.foldlM (JSONNode.set N) JSONNode.zero := by
  apply Option.ext
  intro n
  have e : ∀ {α : Type} (name : String) (f : JVal → α → Option α) (z : α), (∀ c ∈ name.toList, Letter c) → name ∈ nodeFields →
      fieldFold name f z ms = fieldFold name f z ms' := by
    intro α name f z hn hm
    rw [fieldFold_given hn, fieldFold_given hn, h name hm]
  rw [node_fold, node_fold]
  rw [e "Id" _ _ (letters _ (by decide)) (by decide), e "Nsamples" _ _ (letters _ (by decide)) (by decide),
    e "Samples" _ _ (letters _ (by decide)) (by decide), e "SplitFeatureIndex" _ _ (letters _ (by decide)) (by decide),
    e "BestScoreSoFar" _ _ (letters _ (by decide)) (by decide), e "Leaf" _ _ (letters _ (by decide)) (by decide),
    e "Threshold" _ _ (letters _ (by decide)) (by decide), e "Leftid" _ _ (letters _ (by decide)) (by decide),
    e "Rightid" _ _ (letters _ (by decide)) (by decide), e "Branches" _ _ (letters _ (by decide)) (by decide),
    e "Value" _ _ (letters _ (by decide)) (by decide), e "XGB" _ _ (letters _ (by decide)) (by decide)]

theorem meta_given (N : JNum F) {ms ms' : List (List Char × JVal)} (h : ∀ name ∈ metaFields, given name ms = given name ms') :
    ms.foldlM (JSONMetaData.set N) JSONMetaData.zero = ms'.foldlM (JSONMetaData.set N) JSONMetaData.zero := by
  apply Option.ext
  intro n
  have e : ∀ {α : Type} (name : String) (f : JVal → α → Option α) (z : α), (∀ c ∈ name.toList, Letter c) → name ∈ metaFields →
      fieldFold name f z ms = fieldFold name f z ms' := by
    intro α name f z hn hm
    rw [fieldFold_given hn, fieldFold_given hn, h name hm]
  rw [meta_fold, meta_fold]
  rw [e "LearningRate" _ _ (letters _ (by decide)) (by decide), e "ClassLabels" _ _ (letters _ (by decide)) (by decide),
    e "ProbTransformName" _ _ (letters _ (by decide)) (by decide), e "BaseScore" _ _ (letters _ (by decide)) (by decide)]

/-- `strings.Contains` -/
theorem strContains_iff (s t : List Char) : strContains s t = true ↔ t <:+: s := by
  induction s with
  | nil => simp [strContains]
  | cons c s ih =>
    rw [strContains, Bool.or_eq_true, ih, List.isPrefixOf_iff_prefix, List.infix_cons_iff]

/-- what the loop of the reader looks at in a line -/
theorem sameLine_facts {N : JNum F} {l l' : List Char} (h : SameLine l l') : (goJSON N).decNode l = (goJSON N).decNode l' ∧
    strContains l "ROUND".toList = strContains l' "ROUND".toList ∧ strContains l "CLASS".toList = strContains l' "CLASS".toList := by
  rcases h with rfl | ⟨⟨ms, ms', h1, h2, h3⟩, h4⟩
  · exact ⟨rfl, rfl, rfl⟩
  · have hR := h4 ['R', 'O', 'U', 'N', 'D'] (by simp)
    have hC := h4 ['C', 'L', 'A', 'S', 'S'] (by simp)
    simp only [← strContains_iff, Bool.not_eq_true] at hR hC
    refine ⟨?_, ?_, ?_⟩
    · show decStruct _ _ l = decStruct _ _ l'
      rw [decStruct_obj _ _ h1, decStruct_obj _ _ h2]
      exact node_given N h3
    · show strContains l ['R', 'O', 'U', 'N', 'D'] = strContains l' ['R', 'O', 'U', 'N', 'D']
      rw [hR.1, hR.2]
    · show strContains l ['C', 'L', 'A', 'S', 'S'] = strContains l' ['C', 'L', 'A', 'S', 'S']
      rw [hC.1, hC.2]

/-- results of reading a tree: the same tree, and the same number of lines left -/
theorem unJSONTreeF_same {J : JCodec F} {R : List Char → List Char → Prop}
    (hR : ∀ l l', R l l' → J.decNode l = J.decNode l') (n : Nat) : ∀ {s s' : List Char} {ls ls' : List (List Char)}, R s s' →
    List.Forall₂ R ls ls' → (unJSONTreeF J n s ls = none ∧ unJSONTreeF J n s' ls' = none) ∨
      ∃ t r r', unJSONTreeF J n s ls = some (t, r) ∧ unJSONTreeF J n s' ls' = some (t, r') ∧ List.Forall₂ R r r' := by
  induction n with
  | zero => intro s s' ls ls' _ _; exact Or.inl ⟨rfl, rfl⟩
  | succ n ih =>
    intro s s' ls ls' hs hls
    have child : ∀ (id : Nat) {ls ls' : List (List Char)}, List.Forall₂ R ls ls' →
        (readChild (unJSONTreeF J n) id ls = none ∧ readChild (unJSONTreeF J n) id ls' = none) ∨
          ∃ t r r', readChild (unJSONTreeF J n) id ls = some (t, r) ∧ readChild (unJSONTreeF J n) id ls' = some (t, r') ∧
            List.Forall₂ R r r' := by
      intro id ls ls' hls
      unfold readChild
      split
      · cases hls with
        | nil => exact Or.inl ⟨rfl, rfl⟩
        | cons h1 h2 => exact ih h1 h2
      · exact Or.inr ⟨_, _, _, rfl, rfl, hls⟩
    unfold unJSONTreeF
    rw [hR _ _ hs]
    cases J.decNode s' with
    | none => exact Or.inl ⟨rfl, rfl⟩
    | some j =>
      simp only [Option.bind_eq_bind, Option.bind_some]
      rcases child j.leftid hls with ⟨e1, e2⟩ | ⟨t, r, r', e1, e2, hr⟩
      · left; rw [e1, e2]; exact ⟨rfl, rfl⟩
      · rw [e1, e2]
        simp only [Option.bind_some]
        rcases child j.rightid hr with ⟨e3, e4⟩ | ⟨t2, r2, r2', e3, e4, hr2⟩
        · left; rw [e3, e4]; exact ⟨rfl, rfl⟩
        · right; rw [e3, e4]; exact ⟨_, _, _, rfl, rfl, hr2⟩

theorem unJSONLoop_same (N : JNum F) (n : Nat) : ∀ {ls ls' : List (List Char)} (trees : List (List (Tree F)))
    (cls : Option (List (Tree F))), List.Forall₂ SameLine ls ls' →
    unJSONLoop (goJSON N) n ls trees cls = unJSONLoop (goJSON N) n ls' trees cls := by
  induction n with
  | zero =>
    intro ls ls' trees cls h
    cases h with
    | nil => rfl
    | cons h1 h2 => rw [unJSONLoop, unJSONLoop]
  | succ n ih =>
    intro ls ls' trees cls h
    cases h with
    | nil => rfl
    | cons h1 h2 =>
      rename_i l l' ls ls'
      obtain ⟨f1, f2, f3⟩ := sameLine_facts (N := N) h1
      rw [unJSONLoop.eq_def, unJSONLoop.eq_def]
      simp only
      rw [f2, f3]
      split
      · exact ih _ _ h2
      · split
        · exact ih _ _ h2
        · have hlen := h2.length_eq
          unfold unJSONTree
          rw [hlen]
          rcases unJSONTreeF_same (J := goJSON N) (R := SameLine) (fun l l' h => (sameLine_facts h).1)
            (ls'.length + 1) h1 h2 with ⟨e1, e2⟩ | ⟨t, r, r', e1, e2, hr⟩
          · rw [e1, e2]
          · rw [e1, e2]
            simp only [Option.bind_eq_bind, Option.bind_some]
            exact ih _ _ hr

/-- **C137 (the same content)**: two files with the same content are read as the same model (or both are errors): a first line
with the same metadata, and then line by line either the same text or JSON objects that give the fields the same values (and
no word ROUND or CLASS). White space, the order of the members, the case of the names, ways to write characters, and members
with other names make no difference. -/
theorem C137_same_model (N : JNum F) (exp : F → F) (text text' : List Char) (l l' : List Char) (ls ls' : List (List Char))
    (h : linesOf text = l :: ls) (h' : linesOf text' = l' :: ls') (hl : SameHead l l') (hls : List.Forall₂ SameLine ls ls') :
    unJSONMultiClass (goJSON N) exp text = unJSONMultiClass (goJSON N) exp text' := by
  obtain ⟨ms, ms', h1, h2, h3⟩ := hl
  have hm : (goJSON N).decMeta l = (goJSON N).decMeta l' := by
    show decStruct _ _ l = decStruct _ _ l'
    rw [decStruct_obj _ _ h1, decStruct_obj _ _ h2]
    exact meta_given N h3
  unfold unJSONMultiClass
  rw [h, h']
  simp only
  rw [hm, hls.length_eq]
  cases (goJSON N).decMeta l' with
  | none => rfl
  | some j =>
    simp only [Option.bind_eq_bind, Option.bind_some]
    rw [unJSONLoop_same N _ _ _ hls]

/-! ### concrete files -/

theorem empty_json : JsonText (.obj []) "{}\n".toList :=
  ⟨[], ['{', '}'], ['\n'], ws_nil, .obj0 (d := 9999) ws_nil, by intro c hc; simp at hc; simp [hc], rfl⟩

theorem null_json : JsonText .null "null\n".toList :=
  ⟨[], ['n', 'u', 'l', 'l'], ['\n'], ws_nil, .null, by intro c hc; simp at hc; simp [hc], rfl⟩

theorem decNode_eq (N : JNum F) : (goJSON N).decNode = decStruct (JSONNode.set N) JSONNode.zero := rfl

theorem decMeta_eq (N : JNum F) : (goJSON N).decMeta = decStruct (JSONMetaData.set N) JSONMetaData.zero := rfl

theorem empty_node (N : JNum F) : (goJSON N).decNode "{}\n".toList = some JSONNode.zero := by
  rw [decNode_eq, decStruct_obj _ _ empty_json]; rfl

theorem empty_meta (N : JNum F) : (goJSON N).decMeta "{}\n".toList = some JSONMetaData.zero := by
  rw [decMeta_eq, decStruct_obj _ _ empty_json]; rfl

theorem null_meta (N : JNum F) : (goJSON N).decMeta "null\n".toList = some JSONMetaData.zero := by
  rw [decMeta_eq]
  unfold decStruct
  rw [(jsonParse_iff _ _).2 null_json]
  rfl

theorem empty_tree (N : JNum F) (ls : List (List Char)) :
    unJSONTree (goJSON N) "{}\n".toList ls = some (.node JSONNode.zero.create .nil .nil, ls) := by
  unfold unJSONTree unJSONTreeF
  rw [empty_node]
  rfl

/-- **C137 is limited**: a member that boo ignores but that contains the word ROUND ends the round; the tree is lost. -/
theorem C137_words_violated (N : JNum F) (exp : F → F) :
    (unJSONMultiClass (goJSON N) exp "{}\nROUND 0\n{}\nROUND 1\n".toList).map (fun m => m.b.map List.length) = some [1] ∧
    (unJSONMultiClass (goJSON N) exp "{}\nROUND 0\n{\"Note\":\"ROUND\"}\nROUND 1\n".toList).map (fun m => m.b.map List.length) =
      some [0, 0] := by
  have l1 : linesOf "{}\nROUND 0\n{}\nROUND 1\n".toList = ["{}\n".toList, "ROUND 0\n".toList, "{}\n".toList, "ROUND 1\n".toList] := by
    decide
  have l2 : linesOf "{}\nROUND 0\n{\"Note\":\"ROUND\"}\nROUND 1\n".toList =
      ["{}\n".toList, "ROUND 0\n".toList, "{\"Note\":\"ROUND\"}\n".toList, "ROUND 1\n".toList] := by
    decide
  constructor
  · unfold unJSONMultiClass
    rw [l1]
    simp only
    rw [empty_meta]
    simp only [Option.bind_eq_bind, Option.bind_some]
    have := readLoop_round (goJSON N) "ROUND 0\n".toList ["{}\n".toList, "ROUND 1\n".toList] [] none (by decide)
    unfold readLoop at this
    rw [this]
    have := readLoop_tree (goJSON N) "{}\n".toList ["ROUND 1\n".toList] ([] ++ Option.toList none) (some []) (by decide) (by decide)
    unfold readLoop at this
    rw [this, empty_tree]
    simp only [Option.bind_some]
    have := readLoop_round (goJSON N) "ROUND 1\n".toList [] ([] ++ Option.toList none)
      (some ((some ([] : List (Tree F))).getD [] ++ [.node JSONNode.zero.create .nil .nil])) (by decide)
    unfold readLoop at this
    rw [this]
    rfl
  · unfold unJSONMultiClass
    rw [l2]
    simp only
    rw [empty_meta]
    simp only [Option.bind_eq_bind, Option.bind_some]
    have := readLoop_round (goJSON N) "ROUND 0\n".toList ["{\"Note\":\"ROUND\"}\n".toList, "ROUND 1\n".toList] [] none (by decide)
    unfold readLoop at this
    rw [this]
    have := readLoop_round (goJSON N) "{\"Note\":\"ROUND\"}\n".toList ["ROUND 1\n".toList] ([] ++ Option.toList none) (some []) (by decide)
    unfold readLoop at this
    rw [this]
    have := readLoop_round (goJSON N) "ROUND 1\n".toList [] ([] ++ Option.toList none ++ Option.toList (some ([] : List (Tree F)))) (some [])
      (by decide)
    unfold readLoop at this
    rw [this]
    rfl

/-- **C137 (no check of the content)**: a file that says only `{}`, or null, is read without an error, as a model without
labels, rounds or function for the probabilities. -/
theorem C137_empty_accepted (N : JNum F) (exp : F → F) :
    unJSONMultiClass (goJSON N) exp "{}\n".toList =
      some { learningRate := zero, classLabels := [], probTransform := none, baseScore := zero, b := [], xgb := false } ∧
    unJSONMultiClass (goJSON N) exp "null\n".toList =
      some { learningRate := zero, classLabels := [], probTransform := none, baseScore := zero, b := [], xgb := false } := by
  have l1 : linesOf "{}\n".toList = ["{}\n".toList] := by decide
  have l2 : linesOf "null\n".toList = ["null\n".toList] := by decide
  constructor
  · unfold unJSONMultiClass
    rw [l1]
    simp only
    rw [empty_meta]
    rfl
  · unfold unJSONMultiClass
    rw [l2]
    simp only
    rw [null_meta]
    rfl

/-! ### examples -/

mutual

/-- equality of values, to check the examples -/
def JVal.same : JVal → JVal → Bool
  | .null, .null => true
  | .bool a, .bool b => a == b
  | .num a, .num b => a == b
  | .str a, .str b => a == b
  | .arr a, .arr b => sameList a b
  | .obj a, .obj b => sameMembers a b
  | _, _ => false

def sameList : List JVal → List JVal → Bool
  | [], [] => true
  | a :: l, b :: m => a.same b && sameList l m
  | _, _ => false

def sameMembers : List (List Char × JVal) → List (List Char × JVal) → Bool
  | [], [] => true
  | (k, a) :: l, (k', b) :: m => k == k' && a.same b && sameMembers l m
  | _, _ => false

end

mutual

theorem same_eq : ∀ a b : JVal, a.same b = true → a = b
  | .null, b, h => by cases b <;> simp [JVal.same] at h ⊢
  | .bool _, b, h => by cases b <;> simp [JVal.same] at h ⊢; exact h
  | .num _, b, h => by cases b <;> simp [JVal.same] at h ⊢; exact h
  | .str _, b, h => by cases b <;> simp [JVal.same] at h ⊢; exact h
  | .arr l, b, h => by
    cases b <;> simp [JVal.same] at h ⊢
    exact sameList_eq _ _ h
  | .obj l, b, h => by
    cases b <;> simp [JVal.same] at h ⊢
    exact sameMembers_eq _ _ h

theorem sameList_eq : ∀ a b : List JVal, sameList a b = true → a = b
  | [], b, h => by cases b <;> simp [sameList] at h ⊢
  | a :: l, b, h => by
    cases b with
    | nil => simp [sameList] at h
    | cons b m =>
      simp only [sameList, Bool.and_eq_true] at h
      rw [same_eq a b h.1, sameList_eq l m h.2]

theorem sameMembers_eq : ∀ a b : List (List Char × JVal), sameMembers a b = true → a = b
  | [], b, h => by cases b <;> simp [sameMembers] at h ⊢
  | (k, a) :: l, b, h => by
    cases b with
    | nil => simp [sameMembers] at h
    | cons b m =>
      obtain ⟨k', b⟩ := b
      simp only [sameMembers, Bool.and_eq_true, beq_iff_eq] at h
      rw [h.1.1, same_eq a b h.1.2, sameMembers_eq l m h.2]

end

/-- the value of a text, by running the reader -/
theorem json_of {s : List Char} {v : JVal} (h : ((jsonParse s).map fun w => w.same v) = some true) : JsonText v s := by
  cases hp : jsonParse s with
  | none => rw [hp] at h; cases h
  | some w =>
    rw [hp] at h
    simp only [Option.map_some, Option.some.injEq] at h
    rw [← same_eq _ _ h]
    exact (jsonParse_iff _ _).1 hp

theorem given_eq {name : String} (hn : ∀ c ∈ name.toList, Letter c) (ms : List (List Char × JVal)) :
    given name ms = (ms.filter fun m => isField name m.1).map (·.2) := by
  unfold given
  congr 2
  funext m
  rw [Bool.eq_iff_iff, isField_iff hn]
  simp

/-- the members give the fields the same values, by looking at them -/
theorem given_of (names : List String) (hn : (names.all fun n => n.toList.all fun c => ((65 ≤ c.toNat && c.toNat ≤ 90) || (97 ≤ c.toNat && c.toNat ≤ 122))) = true)
    {ms ms' : List (List Char × JVal)} (h : (names.all fun n => sameList ((ms.filter fun m => isField n m.1).map (·.2))
      ((ms'.filter fun m => isField n m.1).map (·.2))) = true) : ∀ name ∈ names, given name ms = given name ms' := by
  intro name hm
  have hl : ∀ c ∈ name.toList, Letter c := by
    intro c hc
    simpa [Letter] using List.all_eq_true.1 (List.all_eq_true.1 hn name hm) c hc
  rw [given_eq hl, given_eq hl]
  exact sameList_eq _ _ (List.all_eq_true.1 h name hm)

def exHead : List Char := "{\"LearningRate\":1e2,\"ClassLabels\":[0,-1],\"ProbTransformName\":\"softmax\",\"BaseScore\":1e2}\n".toList

/-- another order, other letters, white space, an escaped letter, another member -/
def exHead' : List Char :=
  " { \"baseScore\" : 1e2 ,\t\"classlabels\":[0 , -1],\"Version\":{\"major\":[1,{}]},\"probTransformName\":\"s\\u006Fftmax\",\"LEARNINGRATE\":1e2}\r\n".toList

def exNode : List Char := "{\"Id\":1,\"Leaf\":true,\"Value\":3e4}\n".toList

def exNode' : List Char := "{ \"value\":3e4, \"Parent\":null, \"LEAF\":true, \"\\u0049d\":1 }\n".toList

theorem exHead_same : SameHead exHead exHead' :=
  ⟨_, _, json_of (v := .obj [("LearningRate".toList, .num "1e2".toList), ("ClassLabels".toList, .arr [.num ['0'], .num "-1".toList]),
      ("ProbTransformName".toList, .str "softmax".toList), ("BaseScore".toList, .num "1e2".toList)]) (by decide +kernel),
    json_of (v := .obj [("baseScore".toList, .num "1e2".toList), ("classlabels".toList, .arr [.num ['0'], .num "-1".toList]),
      ("Version".toList, .obj [("major".toList, .arr [.num ['1'], .obj []])]), ("probTransformName".toList, .str "softmax".toList),
      ("LEARNINGRATE".toList, .num "1e2".toList)]) (by decide +kernel), given_of _ (by decide +kernel) (by decide +kernel)⟩

theorem exNode_same : SameLine exNode exNode' := by
  refine Or.inr ⟨⟨_, _, json_of (v := .obj [("Id".toList, .num ['1']), ("Leaf".toList, .bool true), ("Value".toList, .num "3e4".toList)])
      (by decide +kernel),
    json_of (v := .obj [("value".toList, .num "3e4".toList), ("Parent".toList, .null), ("LEAF".toList, .bool true), ("Id".toList, .num ['1'])])
      (by decide +kernel), given_of _ (by decide +kernel) (by decide +kernel)⟩, ?_⟩
  intro w hw
  simp only [← strContains_iff]
  fin_cases hw <;> decide +kernel

/-- the hypotheses of `C137_same_model` -/
example (N : JNum F) (exp : F → F) :
    unJSONMultiClass (goJSON N) exp (exHead ++ "ROUND 0\n".toList ++ exNode ++ "ROUND 1\n".toList) =
      unJSONMultiClass (goJSON N) exp (exHead' ++ "ROUND 0\n".toList ++ exNode' ++ "ROUND 1\n".toList) :=
  C137_same_model N exp _ _ exHead exHead' ["ROUND 0\n".toList, exNode, "ROUND 1\n".toList] ["ROUND 0\n".toList, exNode', "ROUND 1\n".toList]
    (by decide +kernel) (by decide +kernel) exHead_same (.cons (Or.inl rfl) (.cons exNode_same (.cons (Or.inl rfl) .nil)))

/-- and this file is read: learning rate 1/2 and one round with one leaf of value 3/4 -/
example : (unJSONMultiClass (goJSON (fracNum (exactR ℚ))) (fun x => x) (exHead' ++ "ROUND 0\n".toList ++ exNode' ++ "ROUND 1\n".toList)).any
    (fun m => m.classLabels == [0, -1] && m.learningRate == .fin (1/2) && match m.b with
      | [[.node d .nil .nil]] => d.leaf && d.value == .fin (3/4)
      | _ => false) = true := by
  decide +kernel

/-- the hypothesis of `C137_writes_node` -/
example : (goJSON (fracNum (exactR ℚ))).encNode { JSONNode.zero with id := 7, value := .fin (-3/4), samples := some [1, 0], xgb := true } =
    some ("{\"Id\":7,\"Nsamples\":0,\"Samples\":[1,0],\"SplitFeatureIndex\":0,\"BestScoreSoFar\":0e1,\"Leaf\":false,\"Threshold\":0e1," ++
      "\"Leftid\":0,\"Rightid\":0,\"Branches\":0,\"Value\":-3e4,\"XGB\":true}").toList := by
  decide +kernel

/-- texts that are not JSON are not read -/
example : (["{'Id':1}", "{\"Id\":01}", "{\"Id\":1,}", "{\"Id\":1} {}", "[1,2", "{\"a\":\"\t\"}", "{\"a\":+1}", "{a:1}", "True"].all fun s =>
    (jsonParse s.toList).isNone) = true := by decide +kernel

end Boo
