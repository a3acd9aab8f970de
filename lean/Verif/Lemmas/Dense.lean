import Verif.Model.Loss
import Verif.Lemmas.Tree
import Mathlib.Data.List.Nodup
import Mathlib.Tactic.Ring
import Mathlib.Tactic.Linarith

namespace Boo
open GoFloat
set_option linter.unusedSectionVars false
variable {F : Type} [GoFloat F]

/-- the data has the size the dimensions say -/
def Dense.WF (D : Dense F) : Prop := D.data.length = D.r * D.c

theorem cell_lt {r c i j : Nat} (hi : i < r) (hj : j < c) : i * c + j < r * c := by
  have : (i + 1) * c ≤ r * c := Nat.mul_le_mul_right c hi
  have h2 : (i + 1) * c = i * c + c := by ring
  omega

theorem cell_inj {c i j i' j' : Nat} (hj : j < c) (hj' : j' < c) (h : i * c + j = i' * c + j') :
    i = i' ∧ j = j' := by
  have hc : 0 < c := by omega
  have h1 : (i * c + j) / c = i := by
    rw [Nat.mul_comm, Nat.mul_add_div hc, Nat.div_eq_of_lt hj, add_zero]
  have h2 : (i' * c + j') / c = i' := by
    rw [Nat.mul_comm, Nat.mul_add_div hc, Nat.div_eq_of_lt hj', add_zero]
  rw [h, h2] at h1
  subst h1
  exact ⟨rfl, by omega⟩

theorem Dense.at?_some {D : Dense F} (h : D.WF) {i j : Nat} (hi : i < D.r) (hj : j < D.c) :
    ∃ v, D.at? i j = some v := by
  unfold Dense.at?
  rw [if_pos ⟨hi, hj⟩]
  exact ⟨_, List.getElem?_eq_getElem (by rw [h]; exact cell_lt hi hj)⟩

theorem Dense.at?_eq {D : Dense F} {i j : Nat} (hi : i < D.r) (hj : j < D.c) :
    D.at? i j = D.data[i * D.c + j]? := by
  unfold Dense.at?
  rw [if_pos ⟨hi, hj⟩]

theorem Dense.row_get {D : Dense F} {i j : Nat} (hi : i < D.r) (hj : j < D.c) :
    (D.row i)[j]? = D.at? i j := by
  rw [Dense.at?_eq hi hj]
  unfold Dense.row
  rw [List.getElem?_take_of_lt hj, List.getElem?_drop]

theorem Dense.row_length {D : Dense F} (h : D.WF) {i : Nat} (hi : i < D.r) :
    (D.row i).length = D.c := by
  unfold Dense.row
  rw [List.length_take, List.length_drop, h]
  have : (i + 1) * D.c ≤ D.r * D.c := Nat.mul_le_mul_right _ hi
  have h2 : (i + 1) * D.c = i * D.c + D.c := by ring
  omega

/-- two matrices of the same shape with the same rows are equal -/
theorem Dense.ext_rows {D E : Dense F} (hD : D.WF) (hE : E.WF) (hr : D.r = E.r) (hc : D.c = E.c)
    (h : ∀ i < D.r, D.row i = E.row i) : D = E := by
  have hd : D.data = E.data := by
    apply List.ext_getElem?
    intro n
    by_cases hn : n < D.r * D.c
    · have hc0 : 0 < D.c := by
        rcases Nat.eq_zero_or_pos D.c with h0 | h0
        · rw [h0] at hn; simp at hn
        · exact h0
      have hi : n / D.c < D.r := Nat.div_lt_of_lt_mul (by rw [Nat.mul_comm]; exact hn)
      have hj : n % D.c < D.c := Nat.mod_lt _ hc0
      have e : n / D.c * D.c + n % D.c = n := by rw [Nat.mul_comm]; exact Nat.div_add_mod n D.c
      have h1 := Dense.row_get (D := D) hi hj
      have h2 := Dense.row_get (D := E) (i := n / D.c) (j := n % D.c) (hr ▸ hi) (hc ▸ hj)
      rw [h _ hi, h2, Dense.at?_eq (hr ▸ hi) (hc ▸ hj), Dense.at?_eq hi hj, ← hc, e] at h1
      exact h1.symm
    · rw [List.getElem?_eq_none (by rw [hD]; omega), List.getElem?_eq_none (by rw [hE, ← hr, ← hc]; omega)]
  cases D; cases E; simp_all

/-! ### stride loops -/

theorem strideIdx_eq (r c col : Nat) (hcol : col < c) (fuel k : Nat) (hf : r - k ≤ fuel) :
    strideIdx (r * c) c fuel (k * c + col) = (List.range' k (r - k)).map fun j => j * c + col := by
  induction fuel generalizing k with
  | zero =>
    have : r - k = 0 := by omega
    rw [this]; rfl
  | succ fuel ih =>
    unfold strideIdx
    by_cases hk : k < r
    · rw [if_pos (cell_lt hk hcol)]
      have e : k * c + col + c = (k + 1) * c + col := by ring
      rw [e, ih (k + 1) (by omega)]
      have : r - k = (r - (k + 1)) + 1 := by omega
      rw [this, List.range'_succ, List.map_cons]
    · have hr : r - k = 0 := by omega
      have h2 : r * c ≤ k * c := Nat.mul_le_mul_right c (by omega)
      rw [if_neg (by omega), hr]; rfl

theorem strideIdx_col {D : Dense F} (h : D.WF) {col : Nat} (hcol : col < D.c) :
    strideIdx D.data.length D.c (D.data.length + 1) col = (List.range D.r).map fun j => j * D.c + col := by
  have hle : D.r ≤ D.r * D.c := Nat.le_mul_of_pos_right _ (by omega)
  have := strideIdx_eq D.r D.c col hcol (D.data.length + 1) 0 (by rw [h]; omega)
  rw [h] at this ⊢
  rw [Nat.zero_mul, Nat.zero_add, Nat.sub_zero] at this
  rw [this, List.range_eq_range']

theorem mapM_goIdx {α : Type} (d : List α) (l : List Nat) (h : ∀ i ∈ l, i < d.length) :
    ∃ out, l.mapM (goIdx d) = .ok out ∧ out.length = l.length ∧
      ∀ m i : Nat, l[m]? = some i → out[m]? = d[i]? := by
  induction l with
  | nil => exact ⟨[], rfl, rfl, by simp⟩
  | cons i l ih =>
    obtain ⟨out, h1, h2, h3⟩ := ih fun i hi => h i (by simp [hi])
    have hi := h i (by simp)
    refine ⟨d[i] :: out, ?_, by simp [h2], ?_⟩
    · rw [List.mapM_cons]
      have : goIdx d i = .ok d[i] := goIdx_ok.2 (List.getElem?_eq_getElem hi)
      simp only [this, h1, bind, Except.bind, pure, Except.pure]
    · intro m k hm
      cases m with
      | zero =>
        simp only [List.getElem?_cons_zero, Option.some.injEq] at hm
        subst hm
        simp
      | succ m => simpa using h3 m k (by simpa using hm)

theorem denseCol_spec {D : Dense F} (h : D.WF) (hr : 0 < D.r) {col : Nat} (hcol : col < D.c) :
    ∃ l, denseCol D col = .ok l ∧ l.length = D.r ∧ ∀ i < D.r, l[i]? = D.at? i col := by
  unfold denseCol
  rw [if_neg (by omega), strideIdx_col h hcol]
  obtain ⟨out, h1, h2, h3⟩ := mapM_goIdx D.data ((List.range D.r).map fun j => j * D.c + col) (by
    intro i hi
    simp only [List.mem_map, List.mem_range] at hi
    obtain ⟨j, hj, rfl⟩ := hi
    rw [h]; exact cell_lt hj hcol)
  rw [List.length_map, List.length_range] at h2
  refine ⟨out, ?_, h2, ?_⟩
  · simp only [h1, bind, Except.bind, newDense]
    rw [if_neg (by omega)]
    rfl
  · intro i hi
    rw [Dense.at?_eq hi hcol]
    exact h3 i _ (by simp [hi])

theorem addLoop_spec (s : List F) (is : List Nat) (hn : is.Nodup) (data : List F) (cont : Nat)
    (hi : ∀ i ∈ is, i < data.length) (hs : cont + is.length ≤ s.length) :
    ∃ data', addLoop data s is cont = .ok data' ∧ data'.length = data.length ∧
      (∀ n, n ∉ is → data'[n]? = data[n]?) ∧
      ∀ (m i : Nat) (d x : F), is[m]? = some i → data[i]? = some d → s[cont + m]? = some x →
        data'[i]? = some (d +. x) := by
  induction is generalizing data cont with
  | nil => exact ⟨data, rfl, rfl, fun _ _ => rfl, by simp⟩
  | cons i is ih =>
    rw [List.nodup_cons] at hn
    have hil : i < data.length := hi i (by simp)
    have hsl : cont < s.length := by simp at hs; omega
    obtain ⟨data', h1, h2, h3, h4⟩ := ih hn.2 (data.set i (data[i] +. s[cont])) (cont + 1)
      (by intro k hk; rw [List.length_set]; exact hi k (by simp [hk])) (by simp at hs; omega)
    refine ⟨data', ?_, by rw [h2, List.length_set], ?_, ?_⟩
    · unfold addLoop
      rw [List.getElem?_eq_getElem hil, List.getElem?_eq_getElem hsl]
      exact h1
    · intro n hnn
      simp only [List.mem_cons, not_or] at hnn
      rw [h3 n hnn.2, List.getElem?_set_ne (Ne.symm hnn.1)]
    · intro m k d x hm hd hx
      cases m with
      | zero =>
        simp only [List.getElem?_cons_zero, Option.some.injEq] at hm
        subst hm
        rw [h3 i hn.1, List.getElem?_set_self hil]
        rw [List.getElem?_eq_getElem hil] at hd
        rw [Nat.add_zero, List.getElem?_eq_getElem hsl] at hx
        cases hd; cases hx; rfl
      | succ m =>
        simp only [List.getElem?_cons_succ] at hm
        have hne : i ≠ k := by
          rintro rfl
          exact hn.1 (List.mem_of_getElem? hm)
        exact h4 m k d x hm (by rw [List.getElem?_set_ne hne]; exact hd)
          (by rw [show cont + 1 + m = cont + (m + 1) by omega]; exact hx)

theorem addToCol_spec {D : Dense F} (h : D.WF) {col : Nat} (hcol : col < D.c) (s : List F)
    (hs : s.length = D.r) :
    ∃ D', addToCol D s col = .ok D' ∧ D'.r = D.r ∧ D'.c = D.c ∧ D'.WF ∧
      (∀ i j, i < D.r → j < D.c → j ≠ col → D'.at? i j = D.at? i j) ∧
      ∀ i d x, i < D.r → D.at? i col = some d → s[i]? = some x → D'.at? i col = some (d +. x) := by
  unfold addToCol
  rw [if_neg (by omega), if_neg (by simp [hs]), strideIdx_col h hcol]
  obtain ⟨data', h1, h2, h3, h4⟩ := addLoop_spec s ((List.range D.r).map fun j => j * D.c + col) (by
      rw [List.nodup_map_iff_inj_on List.nodup_range]
      intro a _ b _ hab
      exact (cell_inj hcol hcol hab).1) D.data 0 (by
      intro i hi
      simp only [List.mem_map, List.mem_range] at hi
      obtain ⟨j, hj, rfl⟩ := hi
      rw [h]; exact cell_lt hj hcol) (by simp [hs])
  refine ⟨{ D with data := data' }, ?_, rfl, rfl, ?_, ?_, ?_⟩
  · simp only [h1, bind, Except.bind, pure, Except.pure]
  · show data'.length = D.r * D.c
    rw [h2, h]
  · intro i j hi hj hne
    rw [Dense.at?_eq (D := { D with data := data' }) hi hj, Dense.at?_eq hi hj]
    apply h3
    simp only [List.mem_map, List.mem_range, not_exists, not_and]
    intro k hk he
    exact hne (cell_inj hcol hj he).2.symm
  · intro i d x hi hd hx
    rw [Dense.at?_eq (D := { D with data := data' }) hi hcol]
    rw [Dense.at?_eq hi hcol] at hd
    exact h4 i _ d x (by simp [hi]) hd (by rw [Nat.zero_add]; exact hx)

/-! ### rows of activations -/

theorem setRow_spec {D : Dense F} (h : D.WF) {i : Nat} (hi : i < D.r) {p : List F} (hp : p.length = D.c) :
    ∃ D', D.setRow i p = .ok D' ∧ D'.r = D.r ∧ D'.c = D.c ∧ D'.WF ∧ D'.row i = p ∧
      ∀ j, j ≠ i → D'.row j = D.row j := by
  have hle : i * D.c + D.c ≤ D.data.length := by
    rw [h]
    have : (i + 1) * D.c ≤ D.r * D.c := Nat.mul_le_mul_right _ hi
    have h2 : (i + 1) * D.c = i * D.c + D.c := by ring
    omega
  have htl : (D.data.take (i * D.c)).length = i * D.c := by rw [List.length_take]; omega
  refine ⟨{ D with data := D.data.take (i * D.c) ++ p ++ D.data.drop (i * D.c + D.c) }, ?_, rfl, rfl, ?_, ?_, ?_⟩
  · unfold Dense.setRow; rw [if_neg (by simp [hp])]
  · show (D.data.take (i * D.c) ++ p ++ D.data.drop (i * D.c + D.c)).length = D.r * D.c
    rw [List.length_append, List.length_append, htl, hp, List.length_drop, ← h]
    omega
  · show ((D.data.take (i * D.c) ++ p ++ D.data.drop (i * D.c + D.c)).drop (i * D.c)).take D.c = p
    rw [List.append_assoc, List.drop_append_of_le_length (by omega)]
    rw [List.drop_of_length_le (by omega), List.nil_append, List.take_append_of_le_length (by omega)]
    rw [List.take_of_length_le (by omega)]
  · intro j hj
    show ((D.data.take (i * D.c) ++ p ++ D.data.drop (i * D.c + D.c)).drop (j * D.c)).take D.c =
      (D.data.drop (j * D.c)).take D.c
    apply List.ext_getElem?
    intro n
    by_cases hn : n < D.c
    · rw [List.getElem?_take_of_lt hn, List.getElem?_take_of_lt hn, List.getElem?_drop, List.getElem?_drop]
      rcases Nat.lt_or_gt_of_ne hj with hlt | hgt
      · have h1 : (j + 1) * D.c ≤ i * D.c := Nat.mul_le_mul_right _ hlt
        have h2 : (j + 1) * D.c = j * D.c + D.c := by ring
        rw [List.append_assoc, List.getElem?_append_left (by omega),
          List.getElem?_take_of_lt (by omega)]
      · have h1 : (i + 1) * D.c ≤ j * D.c := Nat.mul_le_mul_right _ hgt
        have h2 : (i + 1) * D.c = i * D.c + D.c := by ring
        rw [List.getElem?_append_right (by rw [List.length_append]; omega), List.getElem?_drop]
        congr 1
        rw [List.length_append, htl, hp]
        omega
    · rw [List.getElem?_eq_none (by rw [List.length_take]; omega),
        List.getElem?_eq_none (by rw [List.length_take]; omega)]

/-- `activationDense` applies the activation row by row, given that it succeeds on each row with a result of the
length of the row. -/
theorem activation_rows (act : List F → Option (List F) → Go (List F)) (f : List F → List F) (O D : Dense F)
    (hD : D.WF) (hr : D.r = O.r) (hf : ∀ i < O.r, ∀ b : List F, b.length = D.c →
      act (O.row i) (some b) = .ok (f (O.row i)) ∧ (f (O.row i)).length = D.c) :
    ∃ D', activationDense act O (some D) = .ok D' ∧ D'.r = O.r ∧ D'.c = D.c ∧ D'.WF ∧
      ∀ i < O.r, D'.row i = f (O.row i) := by
  unfold activationDense
  rw [Option.getD_some]
  have key : ∀ k ≤ O.r, ∃ D', (List.range k).foldlM (fun (D : Dense F) i =>
      if D.r ≤ i then .error .shape
      else do
        let p ← act (O.row i) (some (D.row i))
        D.setRow i p) D = .ok D' ∧ D'.r = O.r ∧ D'.c = D.c ∧ D'.WF ∧
        ∀ i < k, D'.row i = f (O.row i) := by
    intro k
    induction k with
    | zero => intro _; exact ⟨D, rfl, hr, rfl, hD, by simp⟩
    | succ k ih =>
      intro hk
      obtain ⟨D', h1, h2, h3, h4, h5⟩ := ih (by omega)
      obtain ⟨a1, a2⟩ := hf k (by omega) (D'.row k) (by rw [Dense.row_length h4 (by omega), h3])
      obtain ⟨D'', b1, b2, b3, b4, b5, b6⟩ := setRow_spec h4 (i := k) (by omega) (p := f (O.row k)) (by rw [a2, h3])
      refine ⟨D'', ?_, b2.trans h2, b3.trans h3, b4, ?_⟩
      · rw [List.range_succ, List.foldlM_append, h1]
        simp only [bind, Except.bind, List.foldlM_cons, List.foldlM_nil]
        rw [if_neg (by omega), a1]
        simp only [b1]
        rfl
      · intro i hi
        by_cases hik : i = k
        · subst hik; exact b5
        · rw [b6 i hik]; exact h5 i (by omega)
  exact key O.r le_rfl

theorem replicate_wf (r c : Nat) (x : F) : (⟨r, c, List.replicate (r * c) x⟩ : Dense F).WF := by
  simp [Dense.WF]

/-- the same with a nil result matrix -/
theorem activation_rows_nil (act : List F → Option (List F) → Go (List F)) (f : List F → List F) (O : Dense F)
    (hf : ∀ i < O.r, ∀ b : List F, b.length = O.c →
      act (O.row i) (some b) = .ok (f (O.row i)) ∧ (f (O.row i)).length = O.c) :
    ∃ D', activationDense act O none = .ok D' ∧ D'.r = O.r ∧ D'.c = O.c ∧ D'.WF ∧
      ∀ i < O.r, D'.row i = f (O.row i) := by
  have := activation_rows act f O ⟨O.r, O.c, List.replicate (O.r * O.c) zero⟩ (replicate_wf _ _ _) rfl hf
  simpa [activationDense] using this

end Boo
