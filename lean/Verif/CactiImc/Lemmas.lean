import Verif.CactiImc.Model
import Mathlib.Tactic.FieldSimp
import Mathlib.Tactic.Ring

/-! What the output file of CACTI says, and lemmas on the parser. -/
namespace Verif.CactiImc

/-! ### Specification -/

/-- The number in a cell. -/
def Cell.val? : Cell → Option ℚ
  | .num v => some v
  | .text _ => none

/-- Every cell below a name is a number. -/
def Numeric (o : Out) : Prop := ∀ r ∈ o.rows, ∀ p ∈ o.header.zip r, p.2.val? ≠ none

/-- The numbers below a name, from top to bottom. -/
def below (o : Out) (name : String) : List ℚ :=
  o.rows.flatMap fun r => (o.header.zip r).filterMap fun p => if p.1 = name then p.2.val? else none

/-- The last number below a name. -/
def lastOf (o : Out) (name : String) : Option ℚ := (below o name).getLast?

/-! ### Lemmas -/

/-- The numbers below a name in a line. -/
def rowVals (h : List String) (r : List Cell) (name : String) : List ℚ :=
  (h.zip r).filterMap fun p => if p.1 = name then p.2.val? else none

/-- The table has exactly the names of the header. -/
def Named (h : List String) (d : Dict String (List ℚ)) : Prop := ∀ a, d.get? a ≠ none ↔ a ∈ h

theorem start_get (h : List String) (d : Dict String (List ℚ)) (a : String) :
    (h.foldl (fun d a => d.set a []) d).get? a = if a ∈ h then some [] else d.get? a := by
  induction h generalizing d with
  | nil => simp
  | cons b h ih =>
    rw [List.foldl_cons, ih]
    by_cases hh : a ∈ h
    · simp [hh]
    · by_cases e : a = b
      · subst e; simp [hh, Dict.get?_set_self]
      · rw [if_neg hh, Dict.get?_set_of_ne _ _ (Ne.symm e), if_neg (by simp [e, hh])]

theorem drop_of_get {h : List String} {j : ℕ} {a : String} (e : h[j]? = some a) : h.drop j = a :: h.drop (j + 1) := by
  obtain ⟨hj, rfl⟩ := List.getElem?_eq_some_iff.mp e
  exact List.drop_eq_getElem_cons hj

theorem addRow_ok (h : List String) (cs : List Cell) (j : ℕ) (d : Dict String (List ℚ)) (hd : Named h d)
    (hn : ∀ p ∈ (h.drop j).zip cs, p.2.val? ≠ none) :
    ∃ d', addRow h d j cs = .ok d' ∧ Named h d' ∧
      ∀ a ∈ h, d'.get? a = some ((d.get? a).getD [] ++ rowVals (h.drop j) cs a) := by
  induction cs generalizing j d with
  | nil =>
    refine ⟨d, rfl, hd, fun a ha => ?_⟩
    have := (hd a).mpr ha
    cases e : d.get? a with
    | none => exact absurd e this
    | some v => simp [rowVals]
  | cons c cs ih =>
    cases e : h[j]? with
    | none =>
      have hdrop : h.drop j = [] := List.drop_eq_nil_of_le (List.getElem?_eq_none_iff.mp e)
      have hdrop' : h.drop (j + 1) = [] := List.drop_eq_nil_of_le (le_trans (List.getElem?_eq_none_iff.mp e) (Nat.le_succ _))
      obtain ⟨d', h1, h2, h3⟩ := ih (j + 1) d hd (by simp [hdrop'])
      refine ⟨d', ?_, h2, fun a ha => ?_⟩
      · simp only [addRow, addCell, e, bind, Except.bind]; exact h1
      · rw [h3 a ha, hdrop, hdrop']; simp [rowVals]
    | some b =>
      have hdrop := drop_of_get e
      rw [hdrop] at hn
      cases c with
      | text s => exact absurd rfl (hn (b, .text s) (by simp))
      | num v =>
        have hb : b ∈ h := List.mem_of_getElem? e
        obtain ⟨d', h1, h2, h3⟩ := ih (j + 1) (d.set b ((d.get? b).getD [] ++ [v]))
          (by
            intro a
            by_cases eab : a = b
            · subst eab; simp [Dict.get?_set_self, hb]
            · rw [Dict.get?_set_of_ne _ _ (Ne.symm eab)]; exact hd a)
          (fun p hp => hn p (by simp [hp]))
        refine ⟨d', ?_, h2, fun a ha => ?_⟩
        · simp only [addRow, addCell, e, bind, Except.bind]; exact h1
        · rw [h3 a ha, hdrop]
          by_cases eab : a = b
          · subst eab; simp [Dict.get?_set_self, rowVals, Cell.val?]
          · rw [Dict.get?_set_of_ne _ _ (Ne.symm eab)]
            have : ¬ b = a := fun h => eab h.symm
            simp [rowVals, this]

theorem addRow_bad (h : List String) (cs : List Cell) (j : ℕ) (d : Dict String (List ℚ))
    (hn : ∃ p ∈ (h.drop j).zip cs, p.2.val? = none) : addRow h d j cs = .error .value := by
  induction cs generalizing j d with
  | nil => simp at hn
  | cons c cs ih =>
    cases e : h[j]? with
    | none =>
      have hdrop : h.drop j = [] := List.drop_eq_nil_of_le (List.getElem?_eq_none_iff.mp e)
      simp [hdrop] at hn
    | some b =>
      rw [drop_of_get e] at hn
      cases c with
      | text s => simp only [addRow, addCell, e, bind, Except.bind]
      | num v =>
        simp only [addRow, addCell, e, bind, Except.bind]
        refine ih _ _ ?_
        obtain ⟨p, hp, hv⟩ := hn
        rcases List.mem_cons.mp hp with rfl | hp
        · simp [Cell.val?] at hv
        · exact ⟨p, hp, hv⟩

theorem addRows_ok (h : List String) (rs : List (List Cell)) (d : Dict String (List ℚ)) (hd : Named h d)
    (hn : ∀ r ∈ rs, ∀ p ∈ h.zip r, p.2.val? ≠ none) :
    ∃ d', addRows h d rs = .ok d' ∧ Named h d' ∧
      ∀ a ∈ h, d'.get? a = some ((d.get? a).getD [] ++ rs.flatMap fun r => rowVals h r a) := by
  induction rs generalizing d with
  | nil =>
    refine ⟨d, rfl, hd, fun a ha => ?_⟩
    have := (hd a).mpr ha
    cases e : d.get? a with
    | none => exact absurd e this
    | some v => simp
  | cons r rs ih =>
    obtain ⟨d1, h1, h2, h3⟩ := addRow_ok h r 0 d hd (by simpa using hn r (by simp))
    obtain ⟨d2, k1, k2, k3⟩ := ih d1 h2 (fun r' hr' => hn r' (by simp [hr']))
    refine ⟨d2, ?_, k2, fun a ha => ?_⟩
    · simp only [addRows, h1, bind, Except.bind]; exact k1
    · rw [k3 a ha, h3 a ha]; simp

theorem addRows_bad (h : List String) (rs : List (List Cell)) (d : Dict String (List ℚ)) (hd : Named h d)
    (hn : ∃ r ∈ rs, ∃ p ∈ h.zip r, p.2.val? = none) : addRows h d rs = .error .value := by
  induction rs generalizing d with
  | nil => simp at hn
  | cons r rs ih =>
    by_cases hr : ∃ p ∈ h.zip r, p.2.val? = none
    · have := addRow_bad h r 0 d (by simpa using hr)
      simp only [addRows, this, bind, Except.bind]
    · push Not at hr
      obtain ⟨d1, h1, h2, -⟩ := addRow_ok h r 0 d hd (by simpa using hr)
      simp only [addRows, h1, bind, Except.bind]
      refine ih d1 h2 ?_
      obtain ⟨r', hr', p, hp, hv⟩ := hn
      rcases List.mem_cons.mp hr' with rfl | hr'
      · exact absurd hv (hr p hp)
      · exact ⟨r', hr', p, hp, hv⟩

theorem start_named (h : List String) : Named h (start h) := by
  intro a
  rw [start, start_get]
  by_cases ha : a ∈ h <;> simp [ha, Dict.get?_nil]

theorem below_nil_of_not_mem {o : Out} {a : String} (ha : a ∉ o.header) : below o a = [] := by
  rw [below, List.flatMap_eq_nil_iff]
  intro r _
  rw [List.filterMap_eq_nil_iff]
  intro p hp
  have := List.of_mem_zip hp
  rw [if_neg]
  rintro rfl
  exact ha this.1

/-- The table of a file, looked up. -/
theorem table_ok (o : Out) (hn : Numeric o) :
    ∃ d, addRows o.header (start o.header) o.rows = .ok d ∧ ∀ a,
      column d a = (match lastOf o a with
        | some v => .ok v
        | none => .error (if a ∈ o.header then .index else .key)) := by
  obtain ⟨d, h1, h2, h3⟩ := addRows_ok o.header o.rows (start o.header) (start_named _) hn
  refine ⟨d, h1, fun a => ?_⟩
  by_cases ha : a ∈ o.header
  · have := h3 a ha
    rw [start, start_get, if_pos ha] at this
    simp only [Option.getD_some, List.nil_append] at this
    have e : (o.rows.flatMap fun r => rowVals o.header r a) = below o a := rfl
    rw [e] at this
    simp only [column, this, lastOf, if_pos ha]
    cases (below o a).getLast? <;> rfl
  · have : d.get? a = none := by
      by_contra hh
      exact ha ((h2 a).mp hh)
    simp only [column, this, lastOf, below_nil_of_not_mem ha, List.getLast?_nil, if_neg ha]

theorem readOut_bad (round7 : ℚ → ℚ) (tech : ℚ) (bw : ℕ) (o : Out) (hn : ¬ Numeric o) : readOut round7 tech bw o = .error .value := by
  have := addRows_bad o.header o.rows (start o.header) (start_named _) (by
    unfold Numeric at hn; push Not at hn; exact hn)
  simp only [readOut, this, bind, Except.bind]

end Verif.CactiImc
