import Verif.Model.Json
import Verif.Lemmas.Text
import Verif.Lemmas.Train

/-!
# Lemmas about the serialisation
-/

namespace Boo
open GoFloat
set_option linter.unusedSectionVars false
variable {F : Type} [GoFloat F]

/-! ### fuel -/

theorem readChild_length {rd : List Char → List (List Char) → Option (Tree F × List (List Char))} {id : Nat}
    {ls : List (List Char)} {p : Tree F × List (List Char)}
    (hrd : ∀ s ls p, rd s ls = some p → p.2.length ≤ ls.length) (h : readChild rd id ls = some p) :
    p.2.length ≤ ls.length := by
  unfold readChild at h
  split at h
  · cases ls with
    | nil => cases h
    | cons s ls =>
      have := hrd s ls p h
      simp; omega
  · cases h; exact le_rfl

theorem unJSONTreeF_length {J : JCodec F} (n : Nat) (s : List Char) (ls : List (List Char)) 
    (p : Tree F × List (List Char)) (h : unJSONTreeF J n s ls = some p) : p.2.length ≤ ls.length := by
  induction n generalizing s ls p with
  | zero => cases h
  | succ n ih =>
    unfold unJSONTreeF at h
    simp only [Option.bind_eq_bind, Option.bind_eq_some_iff, Option.pure_def, Option.some.injEq] at h
    obtain ⟨j, _, ⟨l, ls1⟩, h1, ⟨r, ls2⟩, h2, rfl⟩ := h
    exact (readChild_length ih h2).trans (readChild_length ih h1)

theorem unJSONTreeF_fuel {J : JCodec F} (n m : Nat) (s : List Char) (ls : List (List Char)) (hn : ls.length < n)
    (hm : ls.length < m) : unJSONTreeF J n s ls = unJSONTreeF J m s ls := by
  induction n generalizing m s ls with
  | zero => omega
  | succ n ih =>
    cases m with
    | zero => omega
    | succ m =>
      have e : ∀ (id : Nat) (ls : List (List Char)), ls.length < n + 1 → ls.length < m + 1 →
          readChild (unJSONTreeF J n) id ls = readChild (unJSONTreeF J m) id ls := by
        intro id ls h1 h2
        unfold readChild
        split
        · cases ls with
          | nil => rfl
          | cons s ls =>
            simp only [List.length_cons] at h1 h2
            exact ih m s ls (by omega) (by omega)
        · rfl
      unfold unJSONTreeF
      cases J.decNode s with
      | none => rfl
      | some j =>
        simp only [Option.bind_eq_bind, Option.bind_some]
        rw [e _ ls hn hm]
        cases hl : readChild (unJSONTreeF J m) j.leftid ls with
        | none => rfl
        | some p =>
          have hlen := readChild_length (unJSONTreeF_length m) hl
          simp only [Option.bind_some]
          rw [e _ p.2 (by omega) (by omega)]

theorem unJSONTree_fuel {J : JCodec F} (m : Nat) (s : List Char) (ls : List (List Char)) (hm : ls.length < m) :
    unJSONTree J s ls = unJSONTreeF J m s ls := unJSONTreeF_fuel _ _ s ls (by omega) hm

theorem unJSONLoop_fuel {J : JCodec F} (n m : Nat) (ls : List (List Char)) (trees : List (List (Tree F)))
    (cls : Option (List (Tree F))) (hn : ls.length ≤ n) (hm : ls.length ≤ m) :
    unJSONLoop J n ls trees cls = unJSONLoop J m ls trees cls := by
  induction n generalizing m ls trees cls with
  | zero =>
    cases ls with
    | nil => cases m <;> rfl
    | cons s ls => simp at hn
  | succ n ih =>
    cases ls with
    | nil => cases m <;> rfl
    | cons s ls =>
      cases m with
      | zero => simp at hm
      | succ m =>
        simp only [List.length_cons] at hn hm
        unfold unJSONLoop
        split
        · exact ih _ _ _ _ (by omega) (by omega)
        · split
          · exact ih _ _ _ _ (by omega) (by omega)
          · cases ht : unJSONTree J s ls with
            | none => rfl
            | some p =>
              obtain ⟨t, ls'⟩ := p
              have : ls'.length ≤ ls.length := unJSONTreeF_length _ _ _ _ ht
              simp only [Option.bind_eq_bind, Option.bind_some]
              exact ih _ _ _ _ (by omega) (by omega)

/-- the loop with enough fuel -/
def readLoop (J : JCodec F) (ls : List (List Char)) (trees : List (List (Tree F))) (cls : Option (List (Tree F))) :
    Option (List (List (Tree F))) := unJSONLoop J ls.length ls trees cls

theorem readLoop_nil (J : JCodec F) (trees : List (List (Tree F))) (cls : Option (List (Tree F))) :
    readLoop J [] trees cls = some trees := rfl

theorem readLoop_round (J : JCodec F) (s : List Char) (ls : List (List Char)) (trees : List (List (Tree F)))
    (cls : Option (List (Tree F))) (h : strContains s "ROUND".toList = true) :
    readLoop J (s :: ls) trees cls = readLoop J ls (trees ++ cls.toList) (some []) := by
  unfold readLoop
  rw [List.length_cons, unJSONLoop.eq_def]
  simp only
  rw [if_pos h]
  cases cls with
  | none => simp
  | some c => rfl

theorem readLoop_class (J : JCodec F) (s : List Char) (ls : List (List Char)) (trees : List (List (Tree F)))
    (cls : Option (List (Tree F))) (h : strContains s "ROUND".toList = false)
    (h' : strContains s "CLASS".toList = true) : readLoop J (s :: ls) trees cls = readLoop J ls trees cls := by
  unfold readLoop
  rw [List.length_cons, unJSONLoop.eq_def]
  simp only
  rw [if_neg (by rw [h]; simp), if_pos h']

theorem readLoop_tree (J : JCodec F) (s : List Char) (ls : List (List Char)) (trees : List (List (Tree F)))
    (cls : Option (List (Tree F))) (h : strContains s "ROUND".toList = false)
    (h' : strContains s "CLASS".toList = false) :
    readLoop J (s :: ls) trees cls = (unJSONTree J s ls).bind fun p => readLoop J p.2 trees (some (cls.getD [] ++ [p.1])) := by
  unfold readLoop
  rw [List.length_cons, unJSONLoop.eq_def]
  simp only
  rw [if_neg (by rw [h]; simp), if_neg (by rw [h']; simp)]
  cases ht : unJSONTree J s ls with
  | none => rfl
  | some p =>
    obtain ⟨t, ls'⟩ := p
    have := unJSONTreeF_length _ _ _ _ ht
    simp only [Option.bind_eq_bind, Option.bind_some]
    exact unJSONLoop_fuel _ _ _ _ _ this le_rfl

/-! ### trees -/

/-- a node without what is not serialized: the samples and the number of features -/
def NodeInfo.strip (i : NodeInfo F) : NodeInfo F := { i with samples := [], features := 0 }

/-- a tree without what is not serialized -/
def Tree.strip : Tree F → Tree F
  | .nil => .nil
  | .node i l r => .node i.strip l.strip r.strip

/-- all numbers of the tree are finite; the score of a regular leaf, which is infinite by definition, excepted -/
def Tree.AllFin : Tree F → Prop
  | .nil => True
  | .node i l r => (isFin i.threshold = true ∧ isFin i.value = true ∧
      (isFin i.bestScoreSoFar = true ∨ (i.xgb = false ∧ isPosInf i.bestScoreSoFar = true))) ∧ l.AllFin ∧ r.AllFin

theorem create_jnode [GoFloatOrd F] (i : NodeInfo F) (id a b : Nat) :
    JSONNode.create { i.jnode id with leftid := a, rightid := b } = i.strip := by
  unfold JSONNode.create NodeInfo.jnode NodeInfo.strip
  simp only [Option.getD_none]
  by_cases h : (i.leaf && !i.xgb) = true
  · rw [if_pos h]
    congr 1
    rw [Bool.and_eq_true, Bool.not_eq_true'] at h
    have hl := h.1
    unfold NodeInfo.leaf at hl
    rw [h.2] at hl
    exact (GoFloatOrd.posInf_unique _ hl).symm
  · rw [if_neg h, if_neg h]

theorem jsonSub_node {J : JCodec F} {i : NodeInfo F} {l r : Tree F} {last : Nat}
    {p : List (List Char) × Nat × Nat} (h : jsonSub J (.node i l r) last = some p) :
    ∃ ll lid last1 rl rid last2 s, jsonSub J l (last + 1) = some (ll, lid, last1) ∧
      jsonSub J r last1 = some (rl, rid, last2) ∧
      J.encNode { i.jnode (last + 1) with leftid := lid, rightid := rid } = some s ∧
      p = (s :: ll ++ rl, last + 1, last2) := by
  unfold jsonSub at h
  simp only [Option.bind_eq_bind, Option.bind_eq_some_iff, Option.pure_def, Option.some.injEq] at h
  obtain ⟨⟨ll, lid, last1⟩, h1, ⟨rl, rid, last2⟩, h2, s, h3, h4⟩ := h
  exact ⟨ll, lid, last1, rl, rid, last2, s, h1, h2, h3, h4.symm⟩

/-- ids: the next id is given to the root, ids are given consecutively, one line per node, and the id is 0 exactly for
nil -/
theorem jsonSub_ids {J : JCodec F} {t : Tree F} {last : Nat} {lines : List (List Char)} {id last' : Nat}
    (h : jsonSub J t last = some (lines, id, last')) :
    last' = last + t.size ∧ lines.length = t.size ∧ (∀ l ∈ lines, '\n' ∉ l) ∧
      (t = .nil → lines = [] ∧ id = 0) ∧ (t ≠ .nil → id = last + 1 ∧ lines ≠ []) := by
  induction t generalizing last lines id last' with
  | nil =>
    simp only [jsonSub, Option.some.injEq, Prod.mk.injEq] at h
    obtain ⟨rfl, rfl, rfl⟩ := h
    exact ⟨rfl, rfl, by simp, fun _ => ⟨rfl, rfl⟩, fun h => absurd rfl h⟩
  | node i l r ihl ihr =>
    obtain ⟨ll, lid, last1, rl, rid, last2, s, h1, h2, h3, h4⟩ := jsonSub_node h
    simp only [Prod.mk.injEq] at h4
    obtain ⟨rfl, rfl, rfl⟩ := h4
    obtain ⟨a1, a2, a3, _⟩ := ihl h1
    obtain ⟨b1, b2, b3, _⟩ := ihr h2
    refine ⟨by rw [b1, a1]; simp only [Tree.size]; omega, by simp [Tree.size, a2, b2, Nat.add_comm], ?_, by simp, by simp⟩
    intro x hx
    simp only [List.cons_append, List.mem_cons, List.mem_append] at hx
    rcases hx with rfl | hx | hx
    · exact J.encNode_line _ _ h3
    · exact a3 x hx
    · exact b3 x hx

/-- first lines of subtrees contain no ROUND or CLASS -/
theorem jsonSub_words {J : JCodec F} {t : Tree F} {last : Nat} {s : List Char} {rest : List (List Char)}
    {id last' : Nat} (h : jsonSub J t last = some (s :: rest, id, last')) :
    strContains (s ++ ['\n']) "ROUND".toList = false ∧ strContains (s ++ ['\n']) "CLASS".toList = false := by
  cases t with
  | nil => simp [jsonSub] at h
  | node i l r =>
    obtain ⟨ll, lid, last1, rl, rid, last2, s', h1, h2, h3, h4⟩ := jsonSub_node h
    simp only [List.cons_append, Prod.mk.injEq, List.cons.injEq] at h4
    rw [h4.1.1]
    exact J.encNode_words _ _ h3

theorem unJSON_child {J : JCodec F} {t : Tree F} {last : Nat} {lines : List (List Char)} {id last' : Nat}
    (h : jsonSub J t last = some (lines, id, last')) (n : Nat) (tail : List (List Char))
    (ih : ∀ s rest, lines = s :: rest → unJSONTreeF J n (s ++ ['\n']) (nls rest ++ tail) = some (t.strip, tail)) :
    readChild (unJSONTreeF J n) id (nls lines ++ tail) = some (t.strip, tail) := by
  unfold readChild
  obtain ⟨_, _, _, h4, h5⟩ := jsonSub_ids h
  by_cases ht : t = .nil
  · obtain ⟨e1, e2⟩ := h4 ht
    rw [e1, e2, ht]
    rfl
  · obtain ⟨e1, e2⟩ := h5 ht
    obtain ⟨s, rest, rfl⟩ := List.exists_cons_of_ne_nil e2
    rw [if_pos (by omega)]
    exact ih s rest rfl

theorem unJSON_round_trip [GoFloatOrd F] {J : JCodec F} {t : Tree F} {last : Nat} {lines : List (List Char)}
    {id last' : Nat} (h : jsonSub J t last = some (lines, id, last')) (n : Nat) (hn : t.size ≤ n)
    (tail : List (List Char)) (s : List Char) (rest : List (List Char)) (hl : lines = s :: rest) :
    unJSONTreeF J n (s ++ ['\n']) (nls rest ++ tail) = some (t.strip, tail) := by
  induction t generalizing last lines id last' n tail s rest with
  | nil =>
    simp only [jsonSub, Option.some.injEq, Prod.mk.injEq] at h
    rw [hl] at h
    cases h.1
  | node i l r ihl ihr =>
    obtain ⟨ll, lid, last1, rl, rid, last2, s', h1, h2, h3, h4⟩ := jsonSub_node h
    simp only [Prod.mk.injEq] at h4
    obtain ⟨e, rfl, rfl⟩ := h4
    rw [e, List.cons_append, List.cons.injEq] at hl
    obtain ⟨rfl, rfl⟩ := hl
    simp only [Tree.size] at hn
    obtain ⟨n, rfl⟩ : ∃ m, n = m + 1 := ⟨n - 1, by omega⟩
    unfold unJSONTreeF
    rw [J.decNode_encNode _ _ h3]
    simp only [Option.bind_eq_bind, Option.bind_some, nls_append, List.append_assoc]
    rw [unJSON_child h1 n (nls rl ++ tail) fun s rest hl => ihl h1 n (by omega) _ s rest hl]
    simp only [Option.bind_some]
    rw [unJSON_child h2 n tail fun s rest hl => ihr h2 n (by omega) _ s rest hl]
    simp only [Option.bind_some, Option.pure_def, Tree.strip]
    rw [create_jnode]

theorem unJSON_truncated [GoFloatOrd F] {J : JCodec F} {t : Tree F} {last : Nat} {lines : List (List Char)}
    {id last' : Nat} (h : jsonSub J t last = some (lines, id, last')) (n : Nat) (hn : t.size ≤ n)
    (s : List Char) (rest : List (List Char)) (hl : lines = s :: rest) (k : Nat) (hk : k < rest.length) :
    unJSONTreeF J n (s ++ ['\n']) (nls (rest.take k)) = none := by
  induction t generalizing last lines id last' n s rest k with
  | nil =>
    simp only [jsonSub, Option.some.injEq, Prod.mk.injEq] at h
    rw [hl] at h
    cases h.1
  | node i l r ihl ihr =>
    obtain ⟨ll, lid, last1, rl, rid, last2, s', h1, h2, h3, h4⟩ := jsonSub_node h
    simp only [Prod.mk.injEq] at h4
    obtain ⟨e, rfl, rfl⟩ := h4
    rw [e, List.cons_append, List.cons.injEq] at hl
    obtain ⟨rfl, rfl⟩ := hl
    simp only [Tree.size] at hn
    obtain ⟨n, rfl⟩ : ∃ m, n = m + 1 := ⟨n - 1, by omega⟩
    unfold unJSONTreeF
    rw [J.decNode_encNode _ _ h3]
    simp only [Option.bind_eq_bind, Option.bind_some]
    obtain ⟨_, _, _, l4, l5⟩ := jsonSub_ids h1
    obtain ⟨_, _, _, r4, r5⟩ := jsonSub_ids h2
    by_cases hkl : k < ll.length
    · have hlne : l ≠ .nil := by
        intro h0
        rw [(l4 h0).1] at hkl
        simp at hkl
      obtain ⟨q1, q2⟩ := l5 hlne
      obtain ⟨sl, ll', rfl⟩ := List.exists_cons_of_ne_nil q2
      unfold readChild
      rw [if_pos (by omega), List.take_append_of_le_length (by omega)]
      cases k with
      | zero => rfl
      | succ k =>
        simp only [List.take_succ_cons, nls_cons]
        rw [ihl h1 n (by omega) sl ll' rfl k (by simpa using hkl)]
        rfl
    · rw [List.length_append] at hk
      have hrne : r ≠ .nil := by
        intro h0
        rw [(r4 h0).1, List.length_nil] at hk
        omega
      obtain ⟨q1, q2⟩ := r5 hrne
      obtain ⟨sr, rl', rfl⟩ := List.exists_cons_of_ne_nil q2
      rw [List.take_append, List.take_of_length_le (by omega), nls_append,
        unJSON_child h1 n _ fun s rest hl => unJSON_round_trip h1 n (by omega) _ s rest hl]
      simp only [Option.bind_some]
      unfold readChild
      rw [if_pos (by omega)]
      cases hk' : k - ll.length with
      | zero => rfl
      | succ k' =>
        simp only [List.take_succ_cons, nls_cons]
        rw [ihr h2 n (by omega) sr rl' rfl k' (by simp at hk; omega)]
        rfl

/-! ### classes and rounds -/

theorem joinLines_eq (ls : List (List Char)) (h : ls ≠ []) : joinLines ls = unlines ls := by
  induction ls with
  | nil => exact absurd rfl h
  | cons l ls ih =>
    cases ls with
    | nil => simp [joinLines, unlines, List.intercalate]
    | cons m ls =>
      have := ih (by simp)
      unfold joinLines at this ⊢
      rw [unlines_cons, ← this]
      simp [List.intercalate]

theorem classLine_facts (cn : Nat) (lab : Int) :
    let s := "CLASS ".toList ++ fmtNat cn ++ ", label: ".toList ++ fmtInt lab ++ " ".toList
    '\n' ∉ s ∧ strContains (s ++ ['\n']) "ROUND".toList = false ∧ strContains (s ++ ['\n']) "CLASS".toList = true := by
  intro s
  have hc : ∀ c ∈ fmtNat cn, c.isDigit := fmtNat_digits cn
  have hl : ∀ c ∈ fmtInt lab, c.isDigit ∨ c = '-' := fmtInt_chars lab
  refine ⟨?_, ?_, ?_⟩
  · intro h
    simp only [s, List.mem_append] at h
    rcases h with (((h | h) | h) | h) | h
    · revert h; decide
    · have := hc _ h; revert this; decide
    · revert h; decide
    · have := hl _ h; revert this; decide
    · revert h; decide
  · refine strContains_false 'U' (by decide) ?_
    intro h
    simp only [s, List.mem_append] at h
    rcases h with ((((h | h) | h) | h) | h) | h
    · revert h; decide
    · have := hc _ h; revert this; decide
    · revert h; decide
    · have := hl _ h; revert this; decide
    · revert h; decide
    · revert h; decide
  · refine strContains_prefix ?_
    simp only [s, List.append_assoc]
    exact ⟨' ' :: (fmtNat cn ++ (", label: ".toList ++ (fmtInt lab ++ (" ".toList ++ ['\n'])))), by simp⟩

theorem roundLine_facts (rn : Nat) :
    let s := "ROUND ".toList ++ fmtNat rn
    '\n' ∉ s ∧ strContains (s ++ ['\n']) "ROUND".toList = true := by
  intro s
  refine ⟨?_, ?_⟩
  · intro h
    simp only [s, List.mem_append] at h
    rcases h with h | h
    · revert h; decide
    · have := fmtNat_digits rn _ h; revert this; decide
  · refine strContains_prefix ?_
    simp only [s, List.append_assoc]
    exact ⟨' ' :: (fmtNat rn ++ ['\n']), by simp⟩

theorem jsonTree_ok {J : JCodec F} {t : Tree F} {p : List (List Char) × Nat} (h : jsonTree J t = .ok (some p)) :
    ∃ last', jsonSub J t 0 = some (p.1, p.2, last') ∧ t ≠ .nil := by
  cases t with
  | nil => simp [jsonTree] at h
  | node i l r =>
    simp only [jsonTree, Except.ok.injEq, Option.map_eq_some_iff] at h
    obtain ⟨⟨a, b, c⟩, h1, rfl⟩ := h
    exact ⟨c, h1, by simp⟩

/-- the lines of the classes of a round, and what the reader does with them -/
theorem jsonClasses_lines [GoFloatOrd F] {J : JCodec F} {labels : List Int} (ts : List (Tree F)) (cn : Nat)
    (text : List Char) (h : jsonClasses J labels ts cn = .ok (some text)) :
    ∃ L, text = unlines L ∧ (∀ l ∈ L, '\n' ∉ l) ∧
      (∀ tail trees c, readLoop J (nls L ++ tail) trees (some c) = readLoop J tail trees (some (c ++ ts.map Tree.strip))) ∧
      ∀ k trees c, readLoop J (nls (L.take k)) trees (some c) = none ∨
        readLoop J (nls (L.take k)) trees (some c) = some trees := by
  induction ts generalizing cn text with
  | nil =>
    simp only [jsonClasses, Except.ok.injEq, Option.some.injEq] at h
    subst h
    exact ⟨[], rfl, by simp, by simp, fun k trees c => Or.inr (by simp [readLoop_nil])⟩
  | cons t ts ih =>
    unfold jsonClasses at h
    obtain ⟨lab, hlab, h⟩ := bind_ok h
    obtain ⟨o, ho, h⟩ := bind_ok h
    cases o with
    | none => simp [pure, Except.pure] at h
    | some p =>
      obtain ⟨lines, id⟩ := p
      simp only at h
      obtain ⟨o, ho', h⟩ := bind_ok h
      cases o with
      | none => simp [pure, Except.pure] at h
      | some rest =>
        simp only [pure, Except.pure, Except.ok.injEq, Option.some.injEq] at h
        subst h
        obtain ⟨L, hL, hnl, hrt, htr⟩ := ih (cn + 1) rest ho'
        obtain ⟨last', hs, hne⟩ := jsonTree_ok ho
        obtain ⟨_, hlen, hnl', _, h5⟩ := jsonSub_ids hs
        obtain ⟨f1, f2, f3⟩ := classLine_facts cn lab
        set head := "CLASS ".toList ++ fmtNat cn ++ ", label: ".toList ++ fmtInt lab ++ " ".toList with hhead
        obtain ⟨s, lr, hls⟩ := List.exists_cons_of_ne_nil (h5 hne).2
        simp only at hls hs hlen hnl'
        subst hls
        obtain ⟨w1, w2⟩ := jsonSub_words hs
        have hread : ∀ tail trees c, readLoop J (nls (s :: lr) ++ tail) trees (some c) =
            readLoop J tail trees (some (c ++ [t.strip])) := by
          intro tail trees c
          rw [nls_cons, List.cons_append, readLoop_tree J _ _ _ _ w1 w2,
            unJSONTree_fuel ((nls lr ++ tail).length + 1 + t.size) _ _ (by omega),
            unJSON_round_trip hs _ (by omega) tail s lr rfl]
          rfl
        refine ⟨head :: (s :: lr) ++ L, ?_, ?_, ?_, ?_⟩
        · rw [joinLines_eq _ (by simp), hL, unlines_append, unlines_cons]
          rw [show " \n".toList = " ".toList ++ ['\n'] from rfl]
          simp only [hhead, List.append_assoc, unlines_cons]
        · intro l hl
          simp only [List.cons_append, List.mem_cons, List.mem_append] at hl
          rcases hl with rfl | rfl | hl | hl
          · exact f1
          · exact hnl' _ (by simp)
          · exact hnl' _ (by simp [hl])
          · exact hnl _ hl
        · intro tail trees c
          rw [List.cons_append, nls_cons, List.cons_append, readLoop_class J _ _ _ _ f2 f3, nls_append, List.append_assoc,
            hread, hrt]
          simp
        · intro k trees c
          cases k with
          | zero => right; rfl
          | succ k =>
            rw [List.cons_append, List.take_succ_cons, nls_cons, readLoop_class J _ _ _ _ f2 f3]
            by_cases hk : k < (s :: lr).length
            · rw [List.take_append_of_le_length (by omega)]
              cases k with
              | zero => right; rfl
              | succ k =>
                left
                rw [List.take_succ_cons, nls_cons, readLoop_tree J _ _ _ _ w1 w2,
                  unJSONTree_fuel ((nls (lr.take k)).length + 1 + t.size) _ _ (by omega),
                  unJSON_truncated hs _ (by omega) s lr rfl k (by simpa using hk)]
                rfl
            · rw [List.take_append, List.take_of_length_le (by omega), nls_append, hread]
              exact htr _ _ _

theorem jsonRounds_lines [GoFloatOrd F] {J : JCodec F} {labels : List Int} (rounds : List (List (Tree F))) (rn : Nat)
    (text : List Char) (h : jsonRounds J labels rounds rn = .ok (some text)) :
    ∃ L, text = unlines L ∧ (∀ l ∈ L, '\n' ∉ l) ∧
      (∀ trees cls, readLoop J (nls L) trees cls =
        some (if rounds = [] then trees else trees ++ cls.toList ++ rounds.dropLast.map (·.map Tree.strip))) ∧
      ∀ k trees cls, readLoop J (nls (L.take k)) trees cls = none ∨
        ∃ j, readLoop J (nls (L.take k)) trees cls =
          some (if j = 0 then trees else trees ++ cls.toList ++ (rounds.take (j - 1)).map (·.map Tree.strip)) := by
  induction rounds generalizing rn text with
  | nil =>
    simp only [jsonRounds, Except.ok.injEq, Option.some.injEq] at h
    subst h
    exact ⟨[], rfl, by simp, by simp [readLoop_nil], fun k trees c => Or.inr ⟨0, by simp [readLoop_nil]⟩⟩
  | cons round rounds ih =>
    unfold jsonRounds at h
    obtain ⟨o, ho, h⟩ := bind_ok h
    cases o with
    | none => simp [pure, Except.pure] at h
    | some c =>
      simp only at h
      obtain ⟨o, ho', h⟩ := bind_ok h
      cases o with
      | none => simp [pure, Except.pure] at h
      | some rest =>
        simp only [pure, Except.pure, Except.ok.injEq, Option.some.injEq] at h
        subst h
        obtain ⟨L, hL, hnl, hrt, htr⟩ := ih (rn + 1) rest ho'
        obtain ⟨C, hC, cnl, crt, ctr⟩ := jsonClasses_lines round 0 c ho
        obtain ⟨f1, f2⟩ := roundLine_facts rn
        set head := "ROUND ".toList ++ fmtNat rn with hhead
        refine ⟨head :: C ++ L, ?_, ?_, ?_, ?_⟩
        · rw [hL, hC, unlines_append, unlines_cons]
          rw [show "\n".toList = ['\n'] from rfl]
        · intro l hl
          simp only [List.cons_append, List.mem_cons, List.mem_append] at hl
          rcases hl with rfl | hl | hl
          · exact f1
          · exact cnl _ hl
          · exact hnl _ hl
        · intro trees cls
          rw [List.cons_append, nls_cons, readLoop_round J _ _ _ _ f2, nls_append, crt, hrt]
          cases rounds with
          | nil => simp
          | cons r rs => simp
        · intro k trees cls
          cases k with
          | zero => right; exact ⟨0, rfl⟩
          | succ k =>
            rw [List.cons_append, List.take_succ_cons, nls_cons, readLoop_round J _ _ _ _ f2]
            by_cases hk : k < C.length
            · rw [List.take_append_of_le_length (by omega)]
              rcases ctr k (trees ++ cls.toList) [] with h | h
              · exact Or.inl h
              · right
                exact ⟨1, by rw [h]; simp⟩
            · rw [List.take_append, List.take_of_length_le (by omega), nls_append, crt]
              rcases htr (k - C.length) (trees ++ cls.toList) (some ([] ++ round.map Tree.strip)) with h | ⟨j, h⟩
              · exact Or.inl h
              · right
                refine ⟨j + 1, ?_⟩
                rw [h]
                cases j with
                | zero => simp
                | succ j => simp

end Boo
