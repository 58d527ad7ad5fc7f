import Verif.Evaluate.Lemmas

/-! Transfers that take less time, or that may take more time, do not make the stall of a port longer. -/

namespace Verif.Evaluate

open Cme (Dir FourWay)
open MapInfo
open Window (Duty portStall stallComb windowUnion busyCycles activities sums_spec pos_add_neg)
open Transfer (IsSide WholeLoops FromNest below side_values input_sides output_sides)
open Energy (trunc)

/-- Same movement, but it takes at most as long and may take at least as long. -/
structure Easier {K : Type} (e d : Duty K) : Prop where
  key : e.key = d.key
  count : e.count = d.count
  period : e.period = d.period
  real : e.real ≤ d.real
  allowed : d.count ≠ 0 → d.allowed ≤ e.allowed

section
variable {K : Type} [DecidableEq K]

theorem easier_activities {es ds : List (Duty K)} (h : List.Forall₂ Easier es ds) (c : Nat) :
    List.Forall₂ (fun e d => Easier e d ∧ d.count ≠ 0) (activities (· * c) es) (activities (· * c) ds) := by
  unfold activities
  induction h with
  | nil => exact .nil
  | @cons e d es ds hed _ ih =>
    by_cases hz : d.count = 0
    · rw [List.filter_cons_of_neg (by simp [hed.count, hz]), List.filter_cons_of_neg (by simp [hz])]
      exact ih
    · rw [List.filter_cons_of_pos (by simp [hed.count, hz]), List.filter_cons_of_pos (by simp [hz])]
      refine .cons ⟨⟨hed.key, hed.count, ?_, hed.real, fun h0 => ?_⟩, hz⟩ ih
      · simp only [hed.period]
      · exact Nat.mul_le_mul_right _ (hed.allowed h0)

theorem busy_easier {es ds : List (Duty K)} (h : List.Forall₂ (fun e d => Easier e d ∧ d.count ≠ 0) es ds) (T : Nat) : busyCycles T ds ≤ busyCycles T es := by
  refine Window.count_mono_pred (fun t => ?_) T
  rintro ⟨d, hd, hlt⟩
  obtain ⟨i, hi, rfl⟩ := List.getElem_of_mem hd
  have hlen := h.length_eq
  have := List.forall₂_iff_get.1 h |>.2 i (by omega) hi
  simp only [List.get_eq_getElem] at this
  refine ⟨es[i], List.getElem_mem _, ?_⟩
  rw [this.1.period]
  exact lt_of_lt_of_le hlt (this.1.allowed this.2)

/-- The stall of a port with several duties. -/
theorem portStall_max {ds : List (Duty K)} (h2 : 2 ≤ ds.length) {u : Nat} (hu : windowUnion ds = .ok u) :
    portStall ds = .ok (some (max ((ds.map fun d => max 0 d.stall).sum) (Window.needed ds u))) := by
  obtain ⟨a, b, t, rfl⟩ : ∃ a b t, ds = a :: b :: t := by
    match ds, h2 with
    | a :: b :: t, _ => exact ⟨a, b, t, rfl⟩
  unfold portStall
  rw [hu]
  simp only
  rw [sums_spec]
  have h1 := pos_add_neg (a :: b :: t)
  have hsum : ∀ ds : List (Duty K), (ds.map fun d => (d.real : Int) * ((d.count : Int) - 1)).sum
      = (ds.map fun d => d.stall).sum + (ds.map fun d => d.window).sum := by
    intro ds
    induction ds with
    | nil => simp
    | cons d ds ih =>
      simp only [List.map_cons, List.sum_cons, ih, Duty.stall, Duty.window]
      ring
  have h3 := hsum (a :: b :: t)
  unfold Window.needed
  generalize a :: b :: t = ds at *
  congr 2
  simp only
  omega

theorem portStall_easier {es ds : List (Duty K)} (h : List.Forall₂ (fun e d => Easier e d ∧ d.count ≠ 0) es ds) {T : Nat}
    (he : es ≠ [] → windowUnion es = .ok (busyCycles T es)) (hd : ds ≠ [] → windowUnion ds = .ok (busyCycles T ds)) {s s' : Option Int}
    (h1 : portStall es = .ok s') (h2 : portStall ds = .ok s) : s'.getD 0 ≤ s.getD 0 := by
  have hone : ∀ {e d : Duty K}, Easier e d → d.count ≠ 0 → e.stall ≤ d.stall := by
    intro e d h h0
    unfold Duty.stall
    rw [h.count]
    have := h.real
    have := h.allowed h0
    exact mul_le_mul_of_nonneg_right (by omega) (by omega)
  match es, ds, h with
  | [], [], .nil => cases h1; cases h2; exact le_rfl
  | [e], [d], .cons hed .nil =>
    unfold portStall at h1 h2
    cases h1; cases h2
    exact hone hed.1 hed.2
  | e :: e' :: es, d :: d' :: ds, .cons ha (.cons hb hr) =>
    have h : List.Forall₂ (fun e d => Easier e d ∧ d.count ≠ 0) (e :: e' :: es) (d :: d' :: ds) := .cons ha (.cons hb hr)
    rw [portStall_max (by simp) (he (by simp))] at h1
    rw [portStall_max (by simp) (hd (by simp))] at h2
    cases h1; cases h2
    have hbusy := busy_easier h T
    generalize e :: e' :: es = es at *
    generalize d :: d' :: ds = ds at *
    simp only [Option.getD_some]
    refine max_le_max ?_ ?_
    · clear he hd hbusy ha hb hr
      induction h with
      | nil => exact le_rfl
      | cons hed _ ih =>
        simp only [List.map_cons, List.sum_cons]
        have := hone hed.1 hed.2
        omega
    · unfold Window.needed
      have : (es.map fun d => (d.real : Int) * ((d.count : Int) - 1)).sum ≤ (ds.map fun d => (d.real : Int) * ((d.count : Int) - 1)).sum := by
        clear he hd hbusy ha hb hr
        induction h with
        | nil => exact le_rfl
        | @cons e d es ds hed _ ih =>
          simp only [List.map_cons, List.sum_cons]
          refine add_le_add ?_ ih
          rw [hed.1.count]
          have := hed.1.real
          have := hed.2
          exact mul_le_mul_of_nonneg_right (by omega) (by omega)
      omega

theorem stallComb_easier {ess dss : List (List (Duty K))}
    (h : List.Forall₂ (fun es ds => ∀ s s', portStall es = .ok s' → portStall ds = .ok s → s'.getD 0 ≤ s.getD 0) ess dss) {r r' : Int}
    (h1 : stallComb ess = .ok r') (h2 : stallComb dss = .ok r) : r' ≤ r := by
  induction h generalizing r r' with
  | nil => cases h1; cases h2; exact le_rfl
  | @cons es ds ess dss hd _ ih =>
    unfold stallComb at h1 h2
    cases a : portStall es with
    | error e => rw [a] at h1; cases h1
    | ok s' =>
      cases b : portStall ds with
      | error e => rw [b] at h2; cases h2
      | ok s =>
        rw [a] at h1
        rw [b] at h2
        simp only at h1 h2
        cases c : stallComb ess with
        | error e => rw [c] at h1; cases h1
        | ok x =>
          cases d : stallComb dss with
          | error e => rw [d] at h2; cases h2
          | ok y =>
            rw [c] at h1
            rw [d] at h2
            cases h1; cases h2
            exact max_le_max (hd _ _ a b) (ih c d)

end

variable {Dim : Type} [DecidableEq Dim]

/-- The time in which a transfer may take place without double buffering is at most the period. -/
theorem window_le {loops : List (Dim × ℚ)} (hw : WholeLoops loops) {p : Pattern} (h : FromNest loops p) (d : Dir) :
    p.periodCount.get d = 0 ∨ p.window.get d ≤ p.period.get d := by
  obtain ⟨c, ps, lv, hfl, htot, ⟨k0, hk0⟩, hm, hp⟩ := h
  have hwc : WholeLoops c.tm.flatten := by rw [hfl]; exact hw
  have key : ∀ {out : Bool} {i : Nat} {x y z : ℚ}, i ≤ c.tm.length → IsSide c out i x y z → z ≤ x := by
    intro out i x y z hi hs
    have hx : 0 ≤ x := by
      by_cases hc : c.noAccess = false ∨ out = true ∨ i ≠ 0
      · obtain ⟨e1, -, -⟩ := side_values hwc hi hc hs
        obtain ⟨a, ha, -⟩ := (hwc.sub (Transfer.below_sub c i)).iters
        rw [e1, ha]; exact Nat.cast_nonneg a
      · push Not at hc
        obtain ⟨c1, c2, rfl⟩ := hc
        obtain ⟨cy, top, a1, -, -, a3, -, -⟩ := hs
        unfold cycles at a1
        rw [if_pos ⟨by simpa using c1, by simpa using c2⟩, List.getElem?_cons_zero] at a1
        cases a1
        obtain ⟨a, ha, -⟩ := (hw.sub (a := loops.take k0) (fun l hl => List.mem_of_mem_take hl)).iters
        rw [a3, hk0, ha, trunc_nat]
        exact_mod_cast Nat.zero_le a
    obtain ⟨cy, top, -, a2, -, a3, -, a5⟩ := hs
    obtain ⟨q, hq, hq1⟩ := topLoopSize_get c (fun d => decide (d ∈ c.rel.ir)) (fun l hl => by
      obtain ⟨n, hn, h1⟩ := hwc l hl
      rw [hn]; exact_mod_cast h1) i hi
    change (Transfer.tops c)[i]? = _ at hq
    rw [hq] at a2
    cases a2
    have ht : (1 : ℚ) ≤ (trunc top : ℤ) := by
      have := (trunc_bounds (q := top) (by linarith)).2
      have h1 : (0 : ℚ) < (trunc top : ℤ) := by linarith
      have : (0 : ℤ) < trunc top := by exact_mod_cast h1
      exact_mod_cast this
    rw [a5, ← a3]
    have hdiv : 0 ≤ x / (trunc top : ℤ) := div_nonneg hx (by linarith)
    refine ((trunc_bounds hdiv).1).trans ?_
    exact div_le_self hx ht
  rcases hm with hm | hm
  · obtain ⟨hl, -, lo, hi, top, z1, z2⟩ := input_sides hm hp
    cases d with
    | rdToLow => exact Or.inr (key (le_of_lt hl) lo)
    | wrByLow => exact Or.inl z1
    | rdToHigh => exact Or.inl z2
    | wrByHigh =>
      by_cases hn : lv + 1 < c.tm.length
      · exact Or.inr (key hl (hi hn))
      · exact Or.inl (top (by omega))
  · obtain ⟨hl, -, t, -, lo, hi, top, ⟨b, -, hb1, hb2⟩, hph⟩ := output_sides hm hp
    cases d with
    | wrByLow => exact Or.inr (key (le_of_lt hl) lo)
    | rdToLow =>
      cases b with
      | true => exact Or.inr (key (le_of_lt hl) (hb1 rfl))
      | false => exact Or.inl (hb2 rfl).2.1
    | rdToHigh =>
      by_cases hn : lv + 1 < c.tm.length
      · exact Or.inr (key hl (hi hn))
      · exact Or.inl (top (by omega)).1
    | wrByHigh =>
      by_cases hn : lv + 1 < c.tm.length
      · obtain ⟨b', -, hc1, hc2⟩ := hph hn
        cases b' with
        | true => exact Or.inr (key hl (hc1 rfl))
        | false => exact Or.inl (hc2 rfl).2.1
      · exact Or.inl (top (by omega)).2

end Verif.Evaluate
