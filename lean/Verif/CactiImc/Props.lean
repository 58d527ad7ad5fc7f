import Verif.CactiImc.Lemmas
import Mathlib.Tactic.Linarith

/-! C113: costs of the cell arrays of in-memory-computing macros extracted with CACTI. -/
namespace Verif.CactiImc

/-! ### Specification -/

/-- The scaling of a 28 nm node simulated as 32 nm. -/
def factor (tech : ℚ) : ℚ := if tech = 28 / 1000 then 81 / 100 else 1

/-- How many arrays of 32 bits stand side by side (a fraction is allowed); one for a narrow array. -/
def lanes (bw : ℕ) : ℚ := max 1 ((bw : ℚ) / 32)

/-- What CACTI must be asked for: the same number of rows, at most 32 bits each. -/
def asked (tech : ℚ) (memType : String) (size : ℚ) (bw : ℕ) : Cfg where
  tech := if tech = 28 / 1000 then 32 / 1000 else tech
  sizeByte := size / lanes bw
  lineSize := min bw 32 / 8
  width := min bw 32
  mainMemory := memType = "dram"

/-- The answer that belongs to the four numbers of CACTI. -/
def expected (round7 : ℚ → ℚ) (tech : ℚ) (bw : ℕ) (t a r w : ℚ) : ℚ × ℚ × ℚ × ℚ :=
  (factor tech * t, round7 (2 * factor tech * a * lanes bw), 1000 * factor tech * r * lanes bw, 1000 * factor tech * w * lanes bw)

/-! ### Helpers -/

theorem lanes_wide {bw : ℕ} (h : 32 < bw) : lanes bw = (bw : ℚ) / 32 := by
  have : (32 : ℚ) < bw := by exact_mod_cast h
  exact max_eq_right (by rw [le_div_iff₀ (by norm_num)]; linarith)

theorem lanes_narrow {bw : ℕ} (h : ¬ 32 < bw) : lanes bw = 1 := by
  have : (bw : ℚ) ≤ 32 := by exact_mod_cast not_lt.mp h
  exact max_eq_left (by rw [div_le_iff₀ (by norm_num)]; linarith)

theorem adjust_fst (tech : ℚ) : (adjust tech).1 = if tech = 28 / 1000 then 32 / 1000 else tech := by
  unfold adjust; split_ifs <;> rfl

theorem adjust_snd (tech : ℚ) : (adjust tech).2 = factor tech := by
  unfold adjust factor; split_ifs <;> norm_num

theorem cfg_ok {tech : ℚ} {m : String} {size : ℚ} {bw : ℕ} (hm : m = "dram" ∨ m = "sram") (hb : bw ≠ 0) :
    cfgOf tech m size bw = .ok (asked tech m size bw) := by
  have h0 : (bw : ℚ) ≠ 0 := by exact_mod_cast hb
  rw [cfgOf, if_pos hm, if_neg hb]
  by_cases h : 32 < bw
  · rw [if_pos h]
    simp only [asked, adjust_fst, lanes_wide h, min_eq_right h.le]
    congr 2
    field_simp
  · rw [if_neg h]
    simp only [asked, adjust_fst, lanes_narrow h, min_eq_left (not_lt.mp h), div_one]

theorem cfg_bad {tech : ℚ} {m : String} {size : ℚ} {bw : ℕ} (h : ¬ ((m = "dram" ∨ m = "sram") ∧ bw ≠ 0)) :
    ∃ e, cfgOf tech m size bw = .error e := by
  unfold cfgOf
  by_cases hm : m = "dram" ∨ m = "sram"
  · have hb : bw = 0 := by by_contra hb; exact h ⟨hm, hb⟩
    exact ⟨_, by rw [if_pos hm, if_pos hb]⟩
  · exact ⟨_, by rw [if_neg hm]⟩

theorem readOut_iff (round7 : ℚ → ℚ) (tech : ℚ) (bw : ℕ) (o : Out) (v : ℚ × ℚ × ℚ × ℚ) :
    readOut round7 tech bw o = .ok v ↔ Numeric o ∧ ∃ t a r w, lastOf o " Access time (ns)" = some t ∧ lastOf o " Area (mm2)" = some a ∧
      lastOf o " Dynamic read energy (nJ)" = some r ∧ lastOf o " Dynamic write energy (nJ)" = some w ∧ v = expected round7 tech bw t a r w := by
  by_cases hn : Numeric o
  swap
  · rw [readOut_bad _ _ _ _ hn]; simp [hn]
  obtain ⟨d, hd, hc⟩ := table_ok o hn
  simp only [readOut, hd, hc, bind, Except.bind, hn, true_and]
  cases h1 : lastOf o " Access time (ns)" with
  | none => simp
  | some t =>
  cases h2 : lastOf o " Area (mm2)" with
  | none => simp
  | some a =>
  cases h3 : lastOf o " Dynamic read energy (nJ)" with
  | none => simp
  | some r =>
  cases h4 : lastOf o " Dynamic write energy (nJ)" with
  | none => simp
  | some w =>
  have key : (if bw > 32 then (Except.ok ((adjust tech).2 * t, round7 ((adjust tech).2 * a * 2 * bw / 32), (adjust tech).2 * r * bw / 32 * 1000,
      (adjust tech).2 * w * bw / 32 * 1000) : Except Err (ℚ × ℚ × ℚ × ℚ))
      else .ok ((adjust tech).2 * t, round7 ((adjust tech).2 * a * 2), (adjust tech).2 * r * 1000, (adjust tech).2 * w * 1000)) =
      .ok (expected round7 tech bw t a r w) := by
    rw [adjust_snd, expected]
    by_cases h : bw > 32
    · rw [if_pos h, lanes_wide h]
      refine congrArg Except.ok (Prod.ext rfl (Prod.ext (congrArg round7 ?_) (Prod.ext ?_ ?_))) <;> ring
    · rw [if_neg h, lanes_narrow h]
      refine congrArg Except.ok (Prod.ext rfl (Prod.ext (congrArg round7 ?_) (Prod.ext ?_ ?_))) <;> ring
  simp only [pure, Except.pure]
  rw [key]
  constructor
  · rintro h
    exact ⟨t, a, r, w, rfl, rfl, rfl, rfl, (Except.ok.inj h).symm⟩
  · rintro ⟨t', a', r', w', ht, ha, hr, hw, rfl⟩
    cases ht; cases ha; cases hr; cases hw
    rfl

/-- The file of CACTI, or no file. -/
def ByCacti (o : Option Out) : Prop := o = none ∨ ∃ vs : List Values, vs ≠ [] ∧ o = some ⟨cactiHeader, vs.map cactiRow⟩

theorem byCacti_append (v : Values) {o : Option Out} (h : ByCacti o) : ByCacti (cactiAppend v o) := by
  rcases h with rfl | ⟨vs, _, rfl⟩
  · exact Or.inr ⟨[v], by simp, rfl⟩
  · exact Or.inr ⟨vs ++ [v], by simp, by simp [cactiAppend]⟩

theorem cactiRow_length (v : Values) : (cactiRow v).length = 27 := by
  unfold cactiRow
  cases v.tags <;> simp

theorem not_numeric {vs : List Values} (h : vs ≠ []) : ¬ Numeric ⟨cactiHeader, vs.map cactiRow⟩ := by
  obtain ⟨v, vs, rfl⟩ := List.exists_cons_of_ne_nil h
  intro hn
  refine hn (cactiRow v) (by simp) (" \n", .text " \n") ?_ rfl
  have e : (cactiHeader.zip (cactiRow v))[26]? = some (" \n", .text " \n") := by
    rw [List.getElem?_zip_eq_some]
    refine ⟨rfl, ?_⟩
    have hl := cactiRow_length v
    unfold cactiRow at hl ⊢
    rw [List.length_append] at hl
    rw [List.getElem?_append_right (by simp at hl ⊢; omega)]
    simp only [List.length_cons, List.length_nil] at hl
    rw [show ((List.ofFn v.first).map Cell.num ++ [(v.search.map Cell.num).getD na] ++ (List.ofFn v.data).map Cell.num ++
      ((v.tags.map fun t => (List.ofFn t).map Cell.num).getD (List.replicate 7 na))).length = 26 by omega]
    rfl
  exact List.mem_of_getElem? e

/-! ### C113 -/

/-- An extraction started in the directory of the project answers iff the memory type is known, the width is not zero, CACTI — asked for an array with the same
number of rows and at most 32 bits per row — leaves an output file in which every cell below a name is a number and each of the four columns
has a number; the answer then is made of the last numbers of the four columns, scaled for the node and for the number of 32 bit arrays. -/
theorem answers_iff (round7 : ℚ → ℚ) (sim : Sim) (w : World) (hw : w.inside = false) (tech : ℚ) (m : String) (size : ℚ) (bw : ℕ) (v : ℚ × ℚ × ℚ × ℚ) :
    (getCost round7 sim w tech m size bw).2 = .ok v ↔
      (m = "dram" ∨ m = "sram") ∧ bw ≠ 0 ∧ ∃ o, sim (asked tech m size bw) w.out = some o ∧ Numeric o ∧
        ∃ t a r e, lastOf o " Access time (ns)" = some t ∧ lastOf o " Area (mm2)" = some a ∧
          lastOf o " Dynamic read energy (nJ)" = some r ∧ lastOf o " Dynamic write energy (nJ)" = some e ∧
          v = expected round7 tech bw t a r e := by
  by_cases hp : (m = "dram" ∨ m = "sram") ∧ bw ≠ 0
  swap
  · obtain ⟨e, he⟩ := cfg_bad (tech := tech) (size := size) hp
    simp only [getCost, hw, he]
    constructor
    · intro h; simp at h
    · rintro ⟨h1, h2, -⟩; exact absurd ⟨h1, h2⟩ hp
  obtain ⟨hm, hb⟩ := hp
  simp only [getCost, hw, cfg_ok hm hb, hm, hb, ne_eq, not_false_eq_true, true_and, Bool.false_eq_true, if_false]
  cases ho : sim (asked tech m size bw) w.out with
  | none => simp
  | some o =>
    rw [show (∃ o', some o = some o' ∧ Numeric o' ∧
        ∃ t a r e, lastOf o' " Access time (ns)" = some t ∧ lastOf o' " Area (mm2)" = some a ∧
          lastOf o' " Dynamic read energy (nJ)" = some r ∧ lastOf o' " Dynamic write energy (nJ)" = some e ∧
          v = expected round7 tech bw t a r e) ↔ readOut round7 tech bw o = .ok v by
      rw [readOut_iff]
      constructor
      · rintro ⟨o', h, h'⟩; cases h; exact h'
      · intro h; exact ⟨o, rfl, h⟩]
    simp only []
    cases hr : readOut round7 tech bw o with
    | error e => simp
    | ok u => simp

/-- CACTI is asked for as many rows as the array has. -/
theorem rows_kept (tech : ℚ) (m : String) (size : ℚ) (bw : ℕ) (hb : bw ≠ 0) :
    (asked tech m size bw).sizeByte * 8 / (asked tech m size bw).width = size * 8 / bw := by
  have h0 : (bw : ℚ) ≠ 0 := by exact_mod_cast hb
  by_cases h : 32 < bw
  · simp only [asked, lanes_wide h, min_eq_right h.le]
    push_cast
    field_simp
  · simp only [asked, lanes_narrow h, min_eq_left (not_lt.mp h), div_one]

/-- For the cell array of a macro with `wl` columns, `bl` rows and `cells` bits in each cell group these are `bl · cells / precision` rows. -/
theorem macro_rows (tech : ℚ) (wl bl cells prec : ℕ) (hw : wl ≠ 0) (hp : prec ≠ 0) :
    (asked tech "sram" ((wl : ℚ) * bl * cells / 8) (wl * prec)).sizeByte * 8 / (asked tech "sram" ((wl : ℚ) * bl * cells / 8) (wl * prec)).width =
      (bl : ℚ) * cells / prec := by
  rw [rows_kept _ _ _ _ (Nat.mul_ne_zero hw hp)]
  have h1 : (wl : ℚ) ≠ 0 := by exact_mod_cast hw
  have h2 : (prec : ℚ) ≠ 0 := by exact_mod_cast hp
  push_cast
  field_simp

/-- The cost of the cell array of a macro: an answer needs a precision and columns, CACTI is asked for `bl · cells / precision` rows of at most 32 bits in the
technology of the macro, and the answer is scaled to the `wl · precision` bits of a row. -/
theorem macro_answers (round7 : ℚ → ℚ) (sim : Sim) (w : World) (hw : w.inside = false) (tech : ℚ) (wl bl cells prec : ℕ) (v : ℚ × ℚ × ℚ × ℚ) :
    (cellArrayCost round7 sim w tech wl bl cells prec).2 = .ok v ↔ wl ≠ 0 ∧ prec ≠ 0 ∧ ∃ c o, c.sizeByte * 8 / c.width = (bl : ℚ) * cells / prec ∧
      c.width = min (wl * prec) 32 ∧ c.lineSize = c.width / 8 ∧ c.mainMemory = false ∧ c.tech = (if tech = 28 / 1000 then 32 / 1000 else tech) ∧
      sim c w.out = some o ∧ Numeric o ∧ ∃ t a r e, lastOf o " Access time (ns)" = some t ∧ lastOf o " Area (mm2)" = some a ∧
        lastOf o " Dynamic read energy (nJ)" = some r ∧ lastOf o " Dynamic write energy (nJ)" = some e ∧ v = expected round7 tech (wl * prec) t a r e := by
  unfold cellArrayCost
  rw [answers_iff round7 sim w hw]
  constructor
  · rintro ⟨-, hb, o, ho, hn, hx⟩
    have hwl : wl ≠ 0 := fun h => hb (by rw [h, Nat.zero_mul])
    have hp : prec ≠ 0 := fun h => hb (by rw [h, Nat.mul_zero])
    exact ⟨hwl, hp, asked tech "sram" ((wl : ℚ) * bl * cells / 8) (wl * prec), o, macro_rows tech wl bl cells prec hwl hp, rfl, rfl, by simp [asked], rfl, ho, hn, hx⟩
  · rintro ⟨hwl, hp, c, o, h1, h2, h3, h4, h5, ho, hn, hx⟩
    have hb : wl * prec ≠ 0 := Nat.mul_ne_zero hwl hp
    refine ⟨Or.inr rfl, hb, o, ?_, hn, hx⟩
    have hc : c = asked tech "sram" ((wl : ℚ) * bl * cells / 8) (wl * prec) := by
      have hr := macro_rows tech wl bl cells prec hwl hp
      rw [← h1] at hr
      have hwid : (asked tech "sram" ((wl : ℚ) * bl * cells / 8) (wl * prec)).width = c.width := h2.symm
      rw [hwid] at hr
      have hne : (c.width : ℚ) ≠ 0 := by
        rw [h2]
        have : min (wl * prec) 32 ≠ 0 := by omega
        exact_mod_cast this
      have hs : (asked tech "sram" ((wl : ℚ) * bl * cells / 8) (wl * prec)).sizeByte = c.sizeByte := by
        field_simp at hr
        linarith
      obtain ⟨ct, cs, cl, cw, cm⟩ := c
      simp only at h2 h3 h4 h5 hs
      subst h2 h3 h4 h5
      rw [← hs]
      simp [asked]
    rw [← hc]
    exact ho

/-- A successful call leaves the process in the directory where it was. -/
theorem directory_kept (round7 : ℚ → ℚ) (sim : Sim) (w : World) (tech : ℚ) (m : String) (size : ℚ) (bw : ℕ) (v : ℚ × ℚ × ℚ × ℚ)
    (h : (getCost round7 sim w tech m size bw).2 = .ok v) : (getCost round7 sim w tech m size bw).1.inside = w.inside := by
  unfold getCost at h ⊢
  cases hw : w.inside with
  | true => simp [hw] at h
  | false =>
    simp only [hw, Bool.false_eq_true, if_false] at h ⊢
    cases hc : cfgOf tech m size bw with
    | error e => simp [hc] at h
    | ok c =>
      simp only [hc] at h ⊢
      cases ho : sim c w.out with
      | none => simp [ho] at h
      | some o =>
        simp only [ho] at h ⊢
        cases hr : readOut round7 tech bw o with
        | error e => simp [hr] at h
        | ok u => rfl

/-- A call that fails leaves the process in the directory of CACTI. -/
theorem directory_lost (round7 : ℚ → ℚ) (sim : Sim) (w : World) (tech : ℚ) (m : String) (size : ℚ) (bw : ℕ) (e : Err)
    (h : (getCost round7 sim w tech m size bw).2 = .error e) : (getCost round7 sim w tech m size bw).1.inside = true := by
  unfold getCost at h ⊢
  cases hw : w.inside with
  | true => simp [hw]
  | false =>
    simp only [hw, Bool.false_eq_true, if_false] at h ⊢
    cases hc : cfgOf tech m size bw with
    | error e => rfl
    | ok c =>
      simp only [hc] at h ⊢
      cases ho : sim c w.out with
      | none => rfl
      | some o =>
        simp only [ho] at h ⊢
        cases hr : readOut round7 tech bw o with
        | error e => rfl
        | ok u => simp [hr] at h

theorem lost_forever (round7 : ℚ → ℚ) (sim : Sim) (w : World) (hw : w.inside = true) (cs : List Call) :
    history round7 sim w cs = cs.map fun _ => .error .noDir := by
  induction cs generalizing w with
  | nil => rfl
  | cons c cs ih =>
    have e : getCost round7 sim w c.tech c.memType c.size c.bw = (w, .error .noDir) := by simp [getCost, hw]
    simp only [history, e, List.map_cons, ih w hw]

/-- After a first call that fails no later call of the process answers, whatever CACTI does: each one raises FileNotFoundError. -/
theorem after_failure (round7 : ℚ → ℚ) (sim : Sim) (w : World) (c : Call) (cs : List Call) (e : Err)
    (h : (getCost round7 sim w c.tech c.memType c.size c.bw).2 = .error e) :
    history round7 sim w (c :: cs) = .error e :: cs.map fun _ => .error .noDir := by
  rw [history]
  simp only [h]
  rw [lost_forever _ _ _ (directory_lost _ _ _ _ _ _ _ _ h)]

/-- The extraction works with no file that CACTI writes. Whatever numbers CACTI computes, whether it accepts a configuration or not, whichever files it
wrote in earlier runs and however many calls are made: no call ever answers, because CACTI ends each line with a comma and writes `N/A`
in the columns of other kinds of memories, and every cell is converted to a number. -/
theorem extraction_crash (round7 : ℚ → ℚ) (compute : Cfg → Option Values) (w : World) (hw : ByCacti w.out) (cs : List Call) :
    ∀ r ∈ history round7 (fun c o => match compute c with
      | some v => cactiAppend v o
      | none => o) w cs, ∃ e, r = .error e := by
  cases cs with
  | nil => simp [history]
  | cons c cs =>
    generalize hs : (fun (c : Cfg) (o : Option Out) => match compute c with
      | some v => cactiAppend v o
      | none => o) = sim
    have hsim : ∀ c o, ByCacti o → ByCacti (sim c o) := by
      intro c o ho
      subst hs
      cases hc : compute c with
      | none => simpa only [hc] using ho
      | some v => simpa only [hc] using byCacti_append v ho
    have hfail : ∃ e, (getCost round7 sim w c.tech c.memType c.size c.bw).2 = .error e := by
      cases hr : (getCost round7 sim w c.tech c.memType c.size c.bw).2 with
      | error e => exact ⟨e, rfl⟩
      | ok v =>
        exfalso
        cases hin : w.inside with
        | true => simp [getCost, hin] at hr
        | false =>
          obtain ⟨-, -, o, ho, hn, -⟩ := (answers_iff round7 sim w hin _ _ _ _ v).mp hr
          rcases hsim (asked c.tech c.memType c.size c.bw) w.out hw with h | ⟨vs, hvs, h⟩
          · rw [h] at ho; cases ho
          · rw [h] at ho; cases ho; exact not_numeric hvs hn
    obtain ⟨e, he⟩ := hfail
    rw [after_failure _ _ _ _ _ _ he]
    intro r hr
    rcases List.mem_cons.mp hr with rfl | hr
    · exact ⟨e, rfl⟩
    · obtain ⟨_, _, rfl⟩ := List.mem_map.mp hr
      exact ⟨_, rfl⟩

/-- A file with numbers only. -/
def plain : Out := ⟨[" Access time (ns)", " Area (mm2)", " Dynamic read energy (nJ)", " Dynamic write energy (nJ)"], [[.num 1, .num 2, .num 3, .num 4]]⟩

/-- An answer for an old array: the output file is never removed. When CACTI refuses an array (here: fewer than 64 bytes) the numbers of the last
accepted array are answered instead of an error. -/
theorem stale_false : ¬ ∀ (sim : Sim) (w : World) (tech : ℚ) (m : String) (size : ℚ) (bw : ℕ), w.inside = false →
    (∀ o, sim (asked tech m size bw) o = o) → ∃ e, (getCost id sim w tech m size bw).2 = .error e := by
  intro h
  obtain ⟨e, he⟩ := h (fun _ o => o) ⟨false, some plain⟩ (32 / 1000) "sram" 32 8 rfl (fun _ => rfl)
  have : (getCost id (fun _ o => o) ⟨false, some plain⟩ (32 / 1000) "sram" 32 8).2 = .ok (expected id (32 / 1000) 8 1 2 3 4) := by
    rw [answers_iff _ _ _ rfl]
    refine ⟨Or.inr rfl, by decide, plain, rfl, ?_, 1, 2, 3, 4, by decide +kernel, by decide +kernel, by decide +kernel, by decide +kernel, rfl⟩
    intro r hr p hp
    simp only [plain, List.mem_singleton] at hr
    subst hr
    simp [plain] at hp
    rcases hp with rfl | rfl | rfl | rfl <;> simp [Cell.val?]
  rw [this] at he
  cases he

/-- An array of 64 columns: simulated with 32 bits and half the size, at 28 nm. -/
example : asked (28 / 1000) "sram" 1024 64 = ⟨32 / 1000, 512, 4, 32, false⟩ := by decide +kernel
example : expected id (28 / 1000) 64 1 2 3 4 = (81 / 100, 324 / 50, 4860, 6480) := by decide +kernel
/-- The hypothesis of `after_failure` is met by a call with an unknown memory type. -/
example : (getCost id (fun _ _ => some plain) ⟨false, none⟩ (32 / 1000) "rf" 1024 64).2 = .error .value := by decide +kernel
/-- The hypothesis of `directory_kept` is met. -/
example : (getCost id (fun _ _ => some plain) ⟨false, none⟩ (32 / 1000) "sram" 1024 64).2.toOption = some (1, 8, 6000, 8000) := by decide +kernel
/-- The hypothesis of `extraction_crash` is met by a file of two runs. -/
example (u v : Values) : ByCacti (cactiAppend v (cactiAppend u none)) := byCacti_append v (byCacti_append u (Or.inl rfl))

end Verif.CactiImc
