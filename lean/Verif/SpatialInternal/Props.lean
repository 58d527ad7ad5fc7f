import Verif.SpatialInternal.Model
import Verif.Decouple.Props
import Mathlib.Tactic.NormNum
import Mathlib.Tactic.Linarith

/-! C19: unit counts factor in unique and duplicate parts. -/

namespace Verif.SpatialInternal

variable {Name : Type}

/-- Specification: product of the loop sizes of a level selected by a predicate. -/
def selProd (p : Name → Bool) (l : List (Name × ℚ)) : ℚ := ((l.filter (fun x => p x.1)).map Prod.snd).prod

private theorem foldl_sel (p : Name → Bool) : ∀ (l : List (Name × ℚ)) (a : ℚ),
    l.foldl (fun acc x => if p x.1 then acc * x.2 else acc) a = a * selProd p l
  | [], a => by simp [selProd]
  | x :: l, a => by
    rw [List.foldl_cons, foldl_sel p l]
    unfold selProd
    by_cases h : p x.1 = true
    · rw [if_pos h, List.filter_cons_of_pos (by simpa using h), List.map_cons, List.prod_cons, mul_assoc]
    · rw [if_neg h, List.filter_cons_of_neg (by simpa using h)]

theorem unrollR_eq (isR : Name → Bool) (m : List (List (Name × ℚ))) : unrollR isR m = m.map (selProd isR) := by
  unfold unrollR
  apply List.map_congr_left
  intro l _
  rw [foldl_sel, one_mul]

theorem unrollIr_eq (isR : Name → Bool) (m : List (List (Name × ℚ))) : unrollIr isR m = m.map (selProd (fun d => !isR d)) := by
  unfold unrollIr
  apply List.map_congr_left
  intro l _
  have := foldl_sel (fun d => !isR d) l 1
  rw [one_mul] at this
  rw [← this]
  congr 1
  funext acc x
  cases isR x.1 <;> simp

theorem unrollTotal_eq (m : List (List (Name × ℚ))) : unrollTotal m = m.map (fun l => (l.map Prod.snd).prod) := by
  unfold unrollTotal
  apply List.map_congr_left
  intro l _
  have := foldl_sel (fun _ : Name => true) l 1
  rw [one_mul] at this
  simp [selProd] at this
  rw [← this]

theorem selProd_split (isR : Name → Bool) (l : List (Name × ℚ)) :
    selProd isR l * selProd (fun d => !isR d) l = (l.map Prod.snd).prod := by
  induction l with
  | nil => simp [selProd]
  | cons x l ih =>
    unfold selProd at ih ⊢
    rw [List.map_cons, List.prod_cons, ← ih]
    by_cases h : isR x.1 = true
    · rw [List.filter_cons_of_pos (by exact h), List.filter_cons_of_neg (by simp [h]), List.map_cons, List.prod_cons]; ring
    · rw [List.filter_cons_of_neg (by exact h), List.filter_cons_of_pos (by simp [h]), List.map_cons, List.prod_cons]; ring

theorem above_get (sizes : List ℚ) (lv : Nat) (h : lv < sizes.length) : (above sizes)[lv]? = some ((sizes.drop lv).prod) := by
  unfold above
  rw [List.getElem?_map, List.getElem?_range h]; rfl

theorem pyRound_int (z : ℤ) : pyRound (z : ℚ) = z := by
  unfold pyRound
  simp

theorem pyRound3_int (z : ℤ) : pyRound3 (z : ℚ) = z := by
  unfold pyRound3
  have : (z : ℚ) * 1000 = ((z * 1000 : ℤ) : ℚ) := by push_cast; ring
  rw [this, pyRound_int]
  push_cast
  field_simp

/-- C19: at every level, units with unique data times units with the same data is the product of all unrollings at that level
and above, and the reported unit count is that number whenever it is an integer. -/
theorem unit_count_factors (isR : Name → Bool) (m : List (List (Name × ℚ))) (lv : Nat) (h : lv < m.length) :
    ∃ u d, (unitUnique isR m)[lv]? = some u ∧ (unitDuplicate isR m)[lv]? = some d ∧
      u * d = ((m.drop lv).flatten.map Prod.snd).prod ∧
      ∀ z : ℤ, u * d = z → (unitCount m)[lv]? = some z := by
  refine ⟨_, _, above_get _ lv (by simpa [unrollR] using h), above_get _ lv (by simpa [unrollIr] using h), ?_⟩
  have hprod : ((unrollR isR m).drop lv).prod * ((unrollIr isR m).drop lv).prod = ((m.drop lv).flatten.map Prod.snd).prod := by
    rw [unrollR_eq, unrollIr_eq, ← List.map_drop, ← List.map_drop]
    generalize m.drop lv = t
    induction t with
    | nil => simp
    | cons l t ih =>
      rw [List.map_cons, List.map_cons, List.prod_cons, List.prod_cons, List.flatten_cons, List.map_append, List.prod_append, ← ih,
        ← selProd_split isR l]
      ring
  refine ⟨hprod, fun z hz => ?_⟩
  unfold unitCount
  rw [List.getElem?_map, above_get _ lv (by simpa [unrollTotal] using h), Option.map_some]
  congr 1
  have : ((unrollTotal m).drop lv).prod = ((m.drop lv).flatten.map Prod.snd).prod := by
    rw [unrollTotal_eq, ← List.map_drop]
    generalize m.drop lv = t
    induction t with
    | nil => simp
    | cons l t ih => rw [List.map_cons, List.prod_cons, List.flatten_cons, List.map_append, List.prod_append, ih]
  rw [this, ← hprod, hz, pyRound3_int, pyRound_int]

theorem stepRatios_get : ∀ (l r : List ℚ), stepRatios l = .ok r → ∀ i a b, l[i]? = some a → l[i + 1]? = some b →
    b ≠ 0 ∧ r[i]? = some (a / b)
  | [], r, _, i, a, b, h1, _ => by simp at h1
  | [x], r, _, i, a, b, _, h2 => by simp at h2
  | x :: y :: t, r, h, i, a, b, h1, h2 => by
    unfold stepRatios pyDiv at h
    by_cases hy : y = 0
    · rw [if_pos hy] at h; cases h
    · rw [if_neg hy] at h
      simp only [bind, Except.bind, pure, Except.pure] at h
      cases hr : stepRatios (y :: t) with
      | error e => rw [hr] at h; cases h
      | ok r' =>
        rw [hr] at h
        cases h
        cases i with
        | zero => simp at h1 h2; subst h1; subst h2; exact ⟨hy, rfl⟩
        | succ i =>
          have := stepRatios_get (y :: t) r' hr i a b (by simpa using h1) (by simpa using h2)
          exact ⟨this.1, by simpa using this.2⟩

theorem stepRatios_total : ∀ (l : List ℚ), (∀ x ∈ l, x ≠ 0) → ∃ r, stepRatios l = .ok r
  | [], _ => ⟨_, rfl⟩
  | [x], _ => ⟨_, rfl⟩
  | x :: y :: t, h => by
    obtain ⟨r, hr⟩ := stepRatios_total (y :: t) (fun z hz => h z (by simp at hz ⊢; tauto))
    unfold stepRatios pyDiv
    rw [if_neg (h y (by simp))]
    simp only [bind, Except.bind]
    rw [hr]
    exact ⟨_, rfl⟩

private theorem above_step (sizes : List ℚ) (lv : Nat) (h : lv < sizes.length) : (sizes.drop lv).prod = sizes[lv] * (sizes.drop (lv + 1)).prod := by
  rw [List.drop_eq_getElem_cons h, List.prod_cons]

/-- C19: the number of units a data element serves at the level below is the product of the irrelevant unrollings between the two
levels; times the duplicate count of the level above it gives the duplicate count. -/
theorem serve_scope (isR : Name → Bool) (m : List (List (Name × ℚ))) (r : List ℚ) (hr : serveScope isR m = .ok r) (lv : Nat) (h : lv + 1 < m.length) :
    ∃ s d d', r[lv]? = some s ∧ (unitDuplicate isR m)[lv]? = some d ∧ (unitDuplicate isR m)[lv + 1]? = some d' ∧
      s * d' = d ∧ s = selProd (fun x => !isR x) m[lv] := by
  have h1 := above_get (unrollIr isR m) lv (by simp [unrollIr]; omega)
  have h2 := above_get (unrollIr isR m) (lv + 1) (by simp [unrollIr]; omega)
  obtain ⟨hne, hget⟩ := stepRatios_get _ r hr lv _ _ h1 h2
  refine ⟨_, _, _, hget, h1, h2, div_mul_cancel₀ _ hne, ?_⟩
  rw [above_step _ lv (by simp [unrollIr]; omega), mul_div_cancel_right₀ _ hne]
  simp only [unrollIr_eq, List.getElem_map]

/-- C19: the bandwidth boost of a level is the product of the relevant unrollings there, when that is an integer. -/
theorem bw_boost (isR : Name → Bool) (m : List (List (Name × ℚ))) (r : List ℤ) (hr : bwBoost isR m = .ok r) (lv : Nat) (h : lv + 1 < m.length)
    (z : ℤ) (hz : selProd isR m[lv] = z) : r[lv]? = some z := by
  unfold bwBoost at hr
  cases hs : stepRatios (unitUnique isR m) with
  | error e => rw [hs] at hr; cases hr
  | ok l =>
    rw [hs] at hr
    cases hr
    have h1 := above_get (unrollR isR m) lv (by simp [unrollR]; omega)
    have h2 := above_get (unrollR isR m) (lv + 1) (by simp [unrollR]; omega)
    obtain ⟨hne, hget⟩ := stepRatios_get _ l hs lv _ _ h1 h2
    rw [List.getElem?_map, hget, Option.map_some, above_step _ lv (by simp [unrollR]; omega), mul_div_cancel_right₀ _ hne]
    simp only [unrollR_eq, List.getElem_map, hz, pyRound_int]

private theorem one_le_prod : ∀ l : List ℚ, (∀ x ∈ l, 1 ≤ x) → 1 ≤ l.prod
  | [], _ => by simp
  | x :: l, h => by
    rw [List.prod_cons]
    have h1 := h x (by simp)
    have h2 := one_le_prod l (fun y hy => h y (by simp [hy]))
    nlinarith

private theorem one_le_selProd (p : Name → Bool) (l : List (Name × ℚ)) (h : ∀ x ∈ l, 1 ≤ x.2) : 1 ≤ selProd p l := by
  apply one_le_prod
  intro x hx
  obtain ⟨y, hy, rfl⟩ := List.mem_map.1 hx
  exact h y (List.mem_of_mem_filter hy)

/-- C19: with unrollings of at least one, the counts are at least one, never increase towards higher levels, and no division by zero
occurs. -/
theorem unit_counts_monotone (isR : Name → Bool) (m : List (List (Name × ℚ))) (hm : ∀ l ∈ m, ∀ x ∈ l, 1 ≤ x.2) :
    (∃ r, serveScope isR m = .ok r) ∧ (∃ r, bwBoost isR m = .ok r) ∧
    ∀ lv, lv + 1 < m.length → ∃ u u' d d', (unitUnique isR m)[lv]? = some u ∧ (unitUnique isR m)[lv + 1]? = some u' ∧
      (unitDuplicate isR m)[lv]? = some d ∧ (unitDuplicate isR m)[lv + 1]? = some d' ∧ 1 ≤ u' ∧ u' ≤ u ∧ 1 ≤ d' ∧ d' ≤ d := by
  have hsel : ∀ p : Name → Bool, ∀ x ∈ m.map (selProd p), 1 ≤ x := by
    intro p x hx
    obtain ⟨l, hl, rfl⟩ := List.mem_map.1 hx
    exact one_le_selProd p l (hm l hl)
  have habove : ∀ p : Name → Bool, ∀ x ∈ above (m.map (selProd p)), x ≠ 0 := by
    intro p x hx
    obtain ⟨lv, _, rfl⟩ := List.mem_map.1 hx
    have := one_le_prod _ (fun y hy => hsel p y (List.mem_of_mem_drop hy) : ∀ y ∈ (m.map (selProd p)).drop lv, 1 ≤ y)
    linarith
  have step : ∀ (sizes : List ℚ) (lv : Nat), lv + 1 < sizes.length → (∀ x ∈ sizes, 1 ≤ x) →
      1 ≤ (sizes.drop (lv + 1)).prod ∧ (sizes.drop (lv + 1)).prod ≤ (sizes.drop lv).prod := by
    intro sizes lv hlv hall
    have h1 := one_le_prod _ (fun y hy => hall y (List.mem_of_mem_drop hy) : ∀ y ∈ sizes.drop (lv + 1), 1 ≤ y)
    refine ⟨h1, ?_⟩
    rw [above_step sizes lv (by omega)]
    have := hall _ (List.getElem_mem (show lv < sizes.length by omega))
    nlinarith
  refine ⟨?_, ?_, fun lv hlv => ?_⟩
  · unfold serveScope unitDuplicate
    rw [unrollIr_eq]
    exact stepRatios_total _ (habove _)
  · unfold bwBoost unitUnique
    rw [unrollR_eq]
    obtain ⟨r, hr⟩ := stepRatios_total _ (habove isR)
    rw [hr]
    exact ⟨_, rfl⟩
  · have s1 := step (unrollR isR m) lv (by simpa [unrollR] using hlv) (by rw [unrollR_eq]; exact hsel _)
    have s2 := step (unrollIr isR m) lv (by simpa [unrollIr] using hlv) (by rw [unrollIr_eq]; exact hsel _)
    exact ⟨_, _, _, _, above_get _ _ (by simp [unrollR]; omega), above_get _ _ (by simp [unrollR]; omega),
      above_get _ _ (by simp [unrollIr]; omega), above_get _ _ (by simp [unrollIr]; omega), s1.1, s1.2, s2.1, s2.2⟩

/-- C19: operands whose (reformed) mappings multiply to the same number pass the check on the bottom level, whatever the levels. -/
theorem check_bottom_ok (ms : List (List (List (Name × ℚ)))) (hne : ms ≠ []) (hl : ∀ m ∈ ms, m ≠ []) (t : ℚ)
    (h : ∀ m ∈ ms, (m.flatten.map Prod.snd).prod = t) : checkBottom ms = .ok (pyRound (pyRound3 t)) := by
  have hc : ∀ m ∈ ms, (unitCount m)[0]? = some (pyRound (pyRound3 t)) := by
    intro m hm
    unfold unitCount
    rw [List.getElem?_map, above_get _ 0 (by simpa [unrollTotal] using List.length_pos_iff.2 (hl m hm)), Option.map_some, List.drop_zero,
      unrollTotal_eq, ← h m hm]
    congr 3
    clear hm hl
    induction m with
    | nil => simp
    | cons l m ih => rw [List.map_cons, List.prod_cons, List.flatten_cons, List.map_append, List.prod_append, ih]
  have hm : ∀ l : List (List (List (Name × ℚ))), (∀ m ∈ l, m ∈ ms) →
      l.mapM (fun m => (unitCount m)[0]?) = some (List.replicate l.length (pyRound (pyRound3 t))) := by
    intro l
    induction l with
    | nil => intro _; rfl
    | cons p l ih =>
      intro hl'
      rw [List.mapM_cons, hc p (hl' p (by simp)), ih (fun q hq => hl' q (by simp [hq]))]
      rfl
  unfold checkBottom
  rw [hm ms (fun p hp => hp)]
  cases ms with
  | nil => exact absurd rfl hne
  | cons p ms =>
    simp only [List.length_cons, List.replicate_succ]
    rw [if_pos]
    rw [List.all_eq_true]
    intro x hx
    rcases List.mem_cons.1 hx with rfl | hx
    · exact decide_eq_true rfl
    · exact decide_eq_true (List.eq_of_mem_replicate hx)

/-- C19, end to end: after splitting partially relevant loops, every operand's bottom unit count is the product of its original
unrollings, so operands with the same product of unrollings (at whatever levels) pass the check. -/
theorem check_bottom_decoupled {Dim : Type} [DecidableEq Dim] (envs : List (Decouple.DEnv Dim × List (List (Dim × ℚ))))
    (outs : List (List (List (Decouple.TDim Dim × ℚ)))) (loops : List (Dim × ℚ)) (hne : envs ≠ [])
    (hw : ∀ e ∈ envs, e.1.lut.WF ∧ Decouple.Uniq e.1 ∧ e.2 ≠ [] ∧ (e.2.flatten.map Prod.snd).prod = (loops.map Prod.snd).prod)
    (h : List.Forall₂ (fun e o => Decouple.decouple e.1 e.2 = .ok o) envs outs) :
    checkBottom outs = .ok (pyRound (pyRound3 ((loops.map Prod.snd).prod))) := by
  have key : ∀ o ∈ outs, o ≠ [] ∧ (o.flatten.map Prod.snd).prod = (loops.map Prod.snd).prod := by
    intro o ho
    obtain ⟨i, hi, rfl⟩ := List.getElem_of_mem ho
    have hi' : i < envs.length := by rw [h.length_eq]; exact hi
    have hd := (List.forall₂_iff_get.1 h).2 i hi' hi
    simp only [List.get_eq_getElem] at hd
    obtain ⟨w1, w2, w3, w4⟩ := hw _ (List.getElem_mem hi')
    have hp := Decouple.decouple_product w1 w2 hd
    have flat : ∀ {N : Type} (m : List (List (N × ℚ))), (m.flatten.map Prod.snd).prod = (m.map (fun l => (l.map Prod.snd).prod)).prod := by
      intro N m
      induction m with
      | nil => simp
      | cons l m ih => rw [List.map_cons, List.prod_cons, List.flatten_cons, List.map_append, List.prod_append, ih]
    constructor
    · intro hc
      have : (outs[i].map (fun l => (l.map Prod.snd).prod)).length = (envs[i].2.map (fun l => (l.map Prod.snd).prod)).length := by rw [hp]
      rw [hc] at this
      simp at this
      exact w3 (List.length_eq_zero_iff.1 this.symm)
    · rw [flat, hp, ← flat, w4]
  refine check_bottom_ok outs ?_ (fun m hm => (key m hm).1) _ (fun m hm => (key m hm).2)
  intro hc
  rw [hc] at h
  cases h
  exact hne rfl

/-- Non-trivial case. -/
example : unitCount [[("K", (4 : ℚ)), ("C", 2)], [("OX", 3)], []] = [24, 3, 1] ∧
    unitUnique (fun d => d == "K") [[("K", (4 : ℚ)), ("C", 2)], [("OX", 3)], []] = [4, 1, 1] ∧
    unitDuplicate (fun d => d == "K") [[("K", (4 : ℚ)), ("C", 2)], [("OX", 3)], []] = [6, 3, 1] ∧
    serveScope (fun d => d == "K") [[("K", (4 : ℚ)), ("C", 2)], [("OX", 3)], []] = .ok [2, 3] := by decide +kernel

/-- Rounding only for non-integers: a fractional product is rounded, the exact factorisation is then lost. -/
example : unitCount [[("K", (5 / 2 : ℚ))]] = [2] := by decide +kernel

end Verif.SpatialInternal
