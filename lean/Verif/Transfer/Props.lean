import Verif.Transfer.Lemmas

/-! C94 and C95: the time a transfer takes, the time it may take, and the use of shared ports by all operands of one mapping.  Specification: loop
nests and numbers of iterations (`MapInfo.iters`), and cycles in which a port is used (`Window.busyCycles`). -/

namespace Verif.Transfer

open Cme (Dir FourWay)
open MapInfo
open Decouple (pyGet)
open Energy (trunc)

variable {Dim : Type} [DecidableEq Dim]

/-! ### C94: times of a transfer -/

/-- C94: the cycles of a transfer are the least whole number of cycles in which the port can move the bits of one period; without a port there
are none. -/
theorem real_cycles (bw : Dir → Option Nat) (p : Pattern) (d : Dir) :
    (∀ w, bw d = some w → 0 < w → ∀ n : ℤ, realCycles bw p d ≤ n ↔ p.amount.get d * p.precision.get d ≤ n * w) ∧
      (bw d = none → realCycles bw p d = 0) := by
  refine ⟨fun w hw h0 n => ?_, fun h => by unfold realCycles; rw [h]⟩
  unfold realCycles
  rw [hw]
  simp only [if_neg (Nat.pos_iff_ne_zero.1 h0)]
  rw [Int.ceil_le, div_le_iff₀ (by exact_mod_cast h0)]

/-- The loops whose iterations make up one period of the side between the memories below level `i` and level `i`. -/
def below (c : Cfg Dim) (i : Nat) : List (Dim × ℚ) := (c.tm.take i).flatten

/-- These loops without the outermost ones over which the data of the lower memory stay the same. -/
def fresh (c : Cfg Dim) : Nat → List (Dim × ℚ)
  | 0 => []
  | i + 1 => below c i ++ ((c.tm[i]?.getD []).reverse.dropWhile (fun l => decide (l.1 ∈ c.rel.ir))).reverse

/-- Whole temporal loops with at least one iteration. -/
def WholeLoops (loops : List (Dim × ℚ)) : Prop := ∀ l ∈ loops, ∃ n : ℕ, l.2 = n ∧ 1 ≤ n

theorem WholeLoops.iters {loops : List (Dim × ℚ)} (h : WholeLoops loops) : ∃ n : ℕ, iters loops = n ∧ 1 ≤ n := by
  induction loops with
  | nil => exact ⟨1, by simp [MapInfo.iters], le_refl _⟩
  | cons l ls ih =>
    obtain ⟨a, ha, h1⟩ := h l (by simp)
    obtain ⟨b, hb, h2⟩ := ih (fun x hx => h x (by simp [hx]))
    refine ⟨a * b, ?_, Nat.mul_pos h1 h2⟩
    unfold MapInfo.iters at hb ⊢
    rw [List.map_cons, List.prod_cons, ha, hb]; push_cast; rfl

theorem WholeLoops.sub {a b : List (Dim × ℚ)} (h : WholeLoops b) (hs : ∀ l ∈ a, l ∈ b) : WholeLoops a := fun l hl => h l (hs l hl)

theorem below_sub (c : Cfg Dim) (i : Nat) : ∀ l ∈ below c i, l ∈ c.tm.flatten := by
  intro l hl
  obtain ⟨a, ha, hla⟩ := List.mem_flatten.1 hl
  exact List.mem_flatten.2 ⟨a, List.mem_of_mem_take ha, hla⟩

theorem below_succ (c : Cfg Dim) (i : Nat) : below c (i + 1) = below c i ++ c.tm[i]?.getD [] := by
  unfold below
  rw [List.take_add_one, List.flatten_append]
  cases c.tm[i]? <;> simp

/-- The two numbers of a side, for whole loops. -/
theorem side_values {c : Cfg Dim} (hw : WholeLoops c.tm.flatten) {out : Bool} {i : Nat} (hi : i ≤ c.tm.length)
    (hc : c.noAccess = false ∨ out = true ∨ i ≠ 0) {p n w : ℚ} (h : IsSide c out i p n w) :
    p = iters (below c i) ∧ w = iters (fresh c i) ∧ n = ⌊c.totalCycle / iters (below c i)⌋ := by
  obtain ⟨cy, top, a1, a2, a0, a3, a4, a5⟩ := h
  rw [cycles_get c out i hi hc] at a1
  cases a1
  change (tops c)[i]? = _ at a2
  obtain ⟨k, hk, hk1⟩ := (hw.sub (below_sub c i)).iters
  have hk' : iters (c.tm.take i).flatten = k := hk
  have hp : p = k := by rw [a3, hk', trunc_nat]; simp
  refine ⟨by rw [hp, hk], ?_, a4⟩
  rw [hk', trunc_nat] at a5
  cases i with
  | zero =>
    rw [tops, TemporalMapping.top_loops, List.getElem?_cons_zero] at a2
    cases a2
    have hk2 : (k : ℚ) = 1 := by rw [← hk']; simp [MapInfo.iters]
    have e1 : trunc (1 : ℚ) = 1 := by have := trunc_nat 1; simpa using this
    rw [a5, e1]
    change _ = MapInfo.iters []
    push_cast
    rw [hk2, div_one, e1]; simp [MapInfo.iters]
  | succ i =>
    have hlt : i < c.tm.length := by omega
    rw [tops, TemporalMapping.top_loops, List.getElem?_cons_succ, List.getElem?_map, List.getElem?_eq_getElem hlt, Option.map_some] at a2
    injection a2 with a2
    have hsplit := List.takeWhile_append_dropWhile (p := fun l : Dim × ℚ => decide (l.1 ∈ c.rel.ir)) (l := c.tm[i].reverse)
    have hmem : ∀ l ∈ c.tm[i].reverse, l ∈ c.tm.flatten := fun l hl =>
      List.mem_flatten.2 ⟨_, List.getElem_mem hlt, List.mem_reverse.1 hl⟩
    obtain ⟨a, ha, ha1⟩ := (hw.sub (a := c.tm[i].reverse.takeWhile (fun l => decide (l.1 ∈ c.rel.ir)))
      (fun l hl => hmem l ((List.takeWhile_sublist _).subset hl))).iters
    obtain ⟨b, hb, hb1⟩ := (hw.sub (a := c.tm[i].reverse.dropWhile (fun l => decide (l.1 ∈ c.rel.ir)))
      (fun l hl => hmem l ((List.dropWhile_sublist _).subset hl))).iters
    obtain ⟨m, hm, hm1⟩ := (hw.sub (below_sub c i)).iters
    have htop : top = a := by rw [← a2, ← ha]; rfl
    have hfresh : iters (fresh c (i + 1)) = m * b := by
      unfold fresh
      rw [iters_append, hm, List.getElem?_eq_getElem hlt, Option.getD_some, iters_perm (List.reverse_perm _), hb]
    have hkk : (k : ℚ) = m * b * a := by
      rw [← hk, below_succ, iters_append, hm, List.getElem?_eq_getElem hlt, Option.getD_some, ← iters_perm (List.reverse_perm _), ← hsplit,
        iters_append, ha, hb]; ring
    have haq : (a : ℚ) ≠ 0 := by exact_mod_cast (by omega : a ≠ 0)
    rw [a5, htop, trunc_nat, hfresh]
    push_cast
    rw [hkk, mul_div_assoc, div_self haq, mul_one, ← Nat.cast_mul, trunc_nat]
    push_cast; rfl

theorem allowed_of {flags : List Bool} {lv : Nat} {cur nxt : Bool} (h1 : flags[lv]? = some cur) (h2 : flags[lv + 1]? = some nxt) (p : Pattern)
    (d : Dir) : allowedTime flags lv p d =
      .ok ((if (if d = .rdToHigh ∨ d = .wrByHigh then nxt else cur) then p.period else p.window).get d) := by
  unfold allowedTime
  rw [pyGet_ok h1, pyGet_ok h2]; rfl

/-- C94: the time in which data may be written into a memory from above, or read from it towards the level below.  With double buffering it is
the number of iterations of all loops below; without, of those loops up to the outermost loop that changes the data. -/
theorem allowed_input {c : Cfg Dim} (hw : WholeLoops c.tm.flatten) {ps : List Pattern} (h : inputMoves c = .ok ps) {lv : Nat} {p : Pattern}
    (hp : ps[lv]? = some p) {flags : List Bool} {cur nxt : Bool} (h1 : flags[lv]? = some cur) (h2 : flags[lv + 1]? = some nxt) :
    (c.noAccess = false ∨ lv ≠ 0 → allowedTime flags lv p .rdToLow = .ok (iters (if cur then below c lv else fresh c lv))) ∧
      (lv + 1 < c.tm.length → allowedTime flags lv p .wrByHigh = .ok (iters (if nxt then below c (lv + 1) else fresh c (lv + 1)))) := by
  obtain ⟨hl, -, lo, hi, -⟩ := input_sides h hp
  constructor
  · intro hc
    obtain ⟨e1, e2, -⟩ := side_values hw (le_of_lt hl) (hc.imp_right Or.inr) lo
    rw [allowed_of h1 h2]
    cases cur
    · exact congrArg _ e2
    · exact congrArg _ e1
  · intro hn
    obtain ⟨e1, e2, -⟩ := side_values hw hl (Or.inr (Or.inr (by omega))) (hi hn)
    rw [allowed_of h1 h2]
    cases nxt
    · exact congrArg _ e2
    · exact congrArg _ e1

/-- C94: the same for the output operand; partial sums that return have the time of the results that leave. -/
theorem allowed_output {c : Cfg Dim} (hw : WholeLoops c.tm.flatten) {ps : List Pattern} (h : outputMoves c = .ok ps) {lv : Nat} {p : Pattern}
    (hp : ps[lv]? = some p) {flags : List Bool} {cur nxt : Bool} (h1 : flags[lv]? = some cur) (h2 : flags[lv + 1]? = some nxt) :
    allowedTime flags lv p .wrByLow = .ok (iters (if cur then below c lv else fresh c lv)) ∧
      (p.periodCount.rdToLow ≠ 0 → allowedTime flags lv p .rdToLow = .ok (iters (if cur then below c lv else fresh c lv))) ∧
      (lv + 1 < c.tm.length →
        allowedTime flags lv p .rdToHigh = .ok (iters (if nxt then below c (lv + 1) else fresh c (lv + 1))) ∧
        (p.periodCount.wrByHigh ≠ 0 → allowedTime flags lv p .wrByHigh = .ok (iters (if nxt then below c (lv + 1) else fresh c (lv + 1))))) := by
  obtain ⟨hl, -, t, -, lo, hi, -, ⟨b, -, hb1, hb2⟩, hph⟩ := output_sides h hp
  have low : ∀ {x y z : ℚ}, IsSide c true lv x y z → x = iters (below c lv) ∧ z = iters (fresh c lv) := fun hs =>
    ⟨(side_values hw (le_of_lt hl) (Or.inr (Or.inl rfl)) hs).1, (side_values hw (le_of_lt hl) (Or.inr (Or.inl rfl)) hs).2.1⟩
  have high : ∀ {x y z : ℚ}, IsSide c true (lv + 1) x y z → x = iters (below c (lv + 1)) ∧ z = iters (fresh c (lv + 1)) := fun hs =>
    ⟨(side_values hw hl (Or.inr (Or.inl rfl)) hs).1, (side_values hw hl (Or.inr (Or.inl rfl)) hs).2.1⟩
  simp only [allowed_of h1 h2]
  refine ⟨?_, fun h0 => ?_, fun hn => ⟨?_, fun h0 => ?_⟩⟩
  · cases cur
    · exact congrArg _ (low lo).2
    · exact congrArg _ (low lo).1
  · have hb : b = true := by
      cases b with
      | true => rfl
      | false => exact absurd (hb2 rfl).2.1 h0
    cases cur
    · exact congrArg _ (low (hb1 hb)).2
    · exact congrArg _ (low (hb1 hb)).1
  · cases nxt
    · exact congrArg _ (high (hi hn)).2
    · exact congrArg _ (high (hi hn)).1
  · obtain ⟨b', -, hc1, hc2⟩ := hph hn
    have hb : b' = true := by
      cases b' with
      | true => rfl
      | false => exact absurd (hc2 rfl).2.1 h0
    cases nxt
    · exact congrArg _ (high (hc1 hb)).2
    · exact congrArg _ (high (hc1 hb)).1

/-- C94: with "same data is no access" an input operand of the array may be replaced within the cycles in which it stays the same. -/
theorem allowed_stationary {c : Cfg Dim} {ps : List Pattern} (h : inputMoves c = .ok ps) {p : Pattern} (hp : ps[0]? = some p)
    (hn : c.noAccess = true) {n : ℕ} (hs : c.stationary = n) {flags : List Bool} {cur nxt : Bool} (h1 : flags[0]? = some cur)
    (h2 : flags[1]? = some nxt) : allowedTime flags 0 p .rdToLow = .ok c.stationary := by
  obtain ⟨-, -, ⟨cy, top, a1, a2, -, a3, -, a5⟩, -⟩ := input_sides h hp
  have e1 : cy = c.stationary := by
    unfold cycles at a1
    rw [if_pos ⟨by simp [hn], rfl⟩, List.getElem?_cons_zero] at a1
    cases a1; rfl
  rw [tops, TemporalMapping.top_loops, List.getElem?_cons_zero] at a2
  cases a2
  have t1 : trunc (1 : ℚ) = 1 := by have := trunc_nat 1; simpa using this
  have t2 : trunc c.stationary = n := by rw [hs, trunc_nat]
  rw [e1, t2] at a3 a5
  rw [t1] at a5
  rw [allowed_of h1 h2]
  have a5' : p.window.rdToLow = n := by rw [a5]; push_cast; rw [div_one, trunc_nat]; simp
  cases cur
  · rw [hs]; exact congrArg _ a5'
  · rw [hs]; exact congrArg _ (a3.trans (by simp))

/-- C94: both memories of a link of an input operand see the same transfer: same period, number of periods, precision and, whatever the
buffering, the same time. -/
theorem input_link {c : Cfg Dim} {ps : List Pattern} (h : inputMoves c = .ok ps) {lv : Nat} {p q : Pattern} (hp : ps[lv]? = some p)
    (hq : ps[lv + 1]? = some q) (flags : List Bool) (hf : flags.length = ps.length + 1) :
    p.period.wrByHigh = q.period.rdToLow ∧ p.periodCount.wrByHigh = q.periodCount.rdToLow ∧ p.precision.wrByHigh = q.precision.rdToLow ∧
      allowedTime flags lv p .wrByHigh = allowedTime flags (lv + 1) q .rdToLow := by
  obtain ⟨hl, hlen, -, hi, -⟩ := input_sides h hp
  obtain ⟨hl', -, lo, -⟩ := input_sides h hq
  obtain ⟨e1, e2, e3⟩ := (hi hl').unique lo
  refine ⟨e1, e2, ?_, ?_⟩
  · obtain ⟨-, t, -, hall⟩ := inputMoves_get h
    obtain ⟨p', hp', hg⟩ := hall lv hl
    obtain ⟨q', hq', hg'⟩ := hall (lv + 1) hl'
    rw [hp] at hg; cases hg
    rw [hq] at hg'; cases hg'
    obtain ⟨_, _, _, -, -, -, -, ep, -⟩ := inputPattern_unfold hp'
    obtain ⟨_, _, _, -, -, -, -, eq, -⟩ := inputPattern_unfold hq'
    unfold topCut
    rw [if_neg (by omega : ¬ lv + 1 = c.tm.length)]
    split
    · change p'.precision.wrByHigh = q'.precision.rdToLow
      rw [ep, eq]; rfl
    · rw [ep, eq]; rfl
  · obtain ⟨x, hx⟩ : ∃ x, flags[lv]? = some x := ⟨_, List.getElem?_eq_getElem (by omega)⟩
    obtain ⟨y, hy⟩ : ∃ y, flags[lv + 1]? = some y := ⟨_, List.getElem?_eq_getElem (by omega)⟩
    obtain ⟨z, hz⟩ : ∃ z, flags[lv + 1 + 1]? = some z := ⟨_, List.getElem?_eq_getElem (by omega)⟩
    rw [allowed_of hx hy, allowed_of hy hz]
    cases y
    · exact congrArg _ e3
    · exact congrArg _ e1

/-- C94: both memories of a link of the output operand see the same transfers, of results that leave and of partial sums that return. -/
theorem output_link {c : Cfg Dim} {ps : List Pattern} (h : outputMoves c = .ok ps) {lv : Nat} {p q : Pattern} (hp : ps[lv]? = some p)
    (hq : ps[lv + 1]? = some q) (flags : List Bool) (hf : flags.length = ps.length + 1) :
    (p.period.rdToHigh = q.period.wrByLow ∧ p.periodCount.rdToHigh = q.periodCount.wrByLow ∧ p.precision.rdToHigh = q.precision.wrByLow ∧
      allowedTime flags lv p .rdToHigh = allowedTime flags (lv + 1) q .wrByLow) ∧
    (p.period.wrByHigh = q.period.rdToLow ∧ p.periodCount.wrByHigh = q.periodCount.rdToLow ∧ p.precision.wrByHigh = q.precision.rdToLow ∧
      allowedTime flags lv p .wrByHigh = allowedTime flags (lv + 1) q .rdToLow) := by
  obtain ⟨hl, hlen, t, ht, -, hi, -, -, hph⟩ := output_sides h hp
  obtain ⟨hl', -, t', ht', lo, -, -, ⟨b, hb, hb1, hb2⟩, -⟩ := output_sides h hq
  rw [ht] at ht'; cases ht'
  obtain ⟨b', hb', hc1, hc2⟩ := hph hl'
  rw [hb] at hb'; cases hb'
  obtain ⟨e1, e2, e3⟩ := (hi hl').unique lo
  have psum : p.period.wrByHigh = q.period.rdToLow ∧ p.periodCount.wrByHigh = q.periodCount.rdToLow ∧ p.window.wrByHigh = q.window.rdToLow := by
    cases b with
    | true => exact (hc1 rfl).unique (hb1 rfl)
    | false =>
      obtain ⟨x1, x2, x3⟩ := hb2 rfl
      obtain ⟨y1, y2, y3⟩ := hc2 rfl
      exact ⟨y1.trans x1.symm, y2.trans x2.symm, y3.trans x3.symm⟩
  have prec : p.precision.rdToHigh = q.precision.wrByLow ∧ p.precision.wrByHigh = q.precision.rdToLow := by
    obtain ⟨-, u, s, -, -, hall⟩ := outputMoves_get h
    obtain ⟨p', hp', hg⟩ := hall lv hl
    obtain ⟨q', hq', hg'⟩ := hall (lv + 1) hl'
    rw [hp] at hg; cases hg
    rw [hq] at hg'; cases hg'
    obtain ⟨_, _, _, _, _, _, mp, -, -, -, -, -, -, ep, -⟩ := outputPattern_unfold hp'
    obtain ⟨_, _, _, _, _, _, mq, -, -, -, -, -, -, eq, -⟩ := outputPattern_unfold hq'
    obtain ⟨_, _, _, c2, -, -, -, g1, -, -, -, g2⟩ := outputCounts_unfold mp
    obtain ⟨_, _, c1, _, -, -, k1, -, -, -, k2, -⟩ := outputCounts_unfold mq
    have : c1 = c2 := by
      have := g1.symm.trans k1
      injection this with this
      exact this.symm
    have hm : p'.moves.wrByHigh = q'.moves.rdToLow := by rw [g2, k2, this]
    unfold topCut
    rw [if_neg (by omega : ¬ lv + 1 = c.tm.length)]
    split
    · change p'.precision.rdToHigh = q'.precision.wrByLow ∧ p'.precision.wrByHigh = q'.precision.rdToLow
      rw [ep, eq]; unfold outputPrec; rw [hm]; exact ⟨rfl, rfl⟩
    · rw [ep, eq]; unfold outputPrec; rw [hm]; exact ⟨rfl, rfl⟩
  obtain ⟨x, hx⟩ : ∃ x, flags[lv]? = some x := ⟨_, List.getElem?_eq_getElem (by omega)⟩
  obtain ⟨y, hy⟩ : ∃ y, flags[lv + 1]? = some y := ⟨_, List.getElem?_eq_getElem (by omega)⟩
  obtain ⟨z, hz⟩ : ∃ z, flags[lv + 1 + 1]? = some z := ⟨_, List.getElem?_eq_getElem (by omega)⟩
  refine ⟨⟨e1, e2, prec.1, ?_⟩, psum.1, psum.2.1, prec.2, ?_⟩
  · rw [allowed_of hx hy, allowed_of hy hz]
    cases y
    · exact congrArg _ e3
    · exact congrArg _ e1
  · rw [allowed_of hx hy, allowed_of hy hz]
    cases y
    · exact congrArg _ psum.2.2
    · exact congrArg _ psum.1

/-! ### C95: all operands of one mapping on one port -/

/-- The pattern `p` describes a memory level of some operand under a mapping whose temporal loops, innermost first, are `loops`.  The operands may
have different numbers of levels, and loops may be assigned to levels in different ways. -/
def FromNest (loops : List (Dim × ℚ)) (p : Pattern) : Prop :=
  ∃ (c : Cfg Dim) (ps : List Pattern) (lv : Nat), c.tm.flatten = loops ∧ c.totalCycle = iters loops ∧
    (∃ k, c.stationary = iters (loops.take k)) ∧ (inputMoves c = .ok ps ∨ outputMoves c = .ok ps) ∧ ps[lv]? = some p

/-- C95: in every direction in which data move, a period consists of the innermost loops, and the number of periods of the others. -/
theorem period_of_nest {loops : List (Dim × ℚ)} (hw : WholeLoops loops) {p : Pattern} (h : FromNest loops p) (d : Dir) :
    p.periodCount.get d = 0 ∨ ∃ k, p.period.get d = iters (loops.take k) ∧ p.periodCount.get d = iters (loops.drop k) := by
  obtain ⟨c, ps, lv, hfl, htot, ⟨k0, hk0⟩, hm, hp⟩ := h
  have hwc : WholeLoops c.tm.flatten := by rw [hfl]; exact hw
  have split : ∀ k, ((⌊c.totalCycle / iters (loops.take k)⌋ : ℤ) : ℚ) = iters (loops.drop k) := by
    intro k
    obtain ⟨a, ha, ha1⟩ := (hw.sub (a := loops.take k) (fun l hl => List.mem_of_mem_take hl)).iters
    obtain ⟨b, hb, -⟩ := (hw.sub (a := loops.drop k) (fun l hl => List.mem_of_mem_drop hl)).iters
    have haq : (a : ℚ) ≠ 0 := by exact_mod_cast (by omega : a ≠ 0)
    rw [htot, ha, hb]
    conv_lhs => rw [← List.take_append_drop k loops, iters_append, ha, hb]
    rw [mul_comm, mul_div_assoc, div_self haq, mul_one, Int.floor_natCast]; simp
  have cut : ∀ i, ∃ k, below c i = loops.take k := by
    intro i
    refine ⟨(below c i).length, ?_⟩
    conv_rhs => rw [← hfl, ← List.take_append_drop i c.tm, List.flatten_append]
    exact (List.take_left' rfl).symm
  have key : ∀ {out : Bool} {i : Nat} {x y z : ℚ}, i ≤ c.tm.length → IsSide c out i x y z →
      ∃ k, x = iters (loops.take k) ∧ y = iters (loops.drop k) := by
    intro out i x y z hi hs
    by_cases hc : c.noAccess = false ∨ out = true ∨ i ≠ 0
    · obtain ⟨e1, -, e3⟩ := side_values hwc hi hc hs
      obtain ⟨k, hk⟩ := cut i
      exact ⟨k, by rw [e1, hk], by rw [e3, hk, split]⟩
    · push Not at hc
      obtain ⟨c1, c2, rfl⟩ := hc
      obtain ⟨cy, top, a1, -, -, a3, a4, -⟩ := hs
      unfold cycles at a1
      rw [if_pos ⟨by simpa using c1, by simpa using c2⟩, List.getElem?_cons_zero] at a1
      cases a1
      obtain ⟨a, ha, -⟩ := (hw.sub (a := loops.take k0) (fun l hl => List.mem_of_mem_take hl)).iters
      refine ⟨k0, ?_, by rw [a4, hk0, split]⟩
      rw [a3, hk0, ha, trunc_nat]; simp
  rcases hm with hm | hm
  · obtain ⟨hl, -, lo, hi, top, z1, z2⟩ := input_sides hm hp
    cases d with
    | rdToLow => exact Or.inr (key (le_of_lt hl) lo)
    | wrByLow => exact Or.inl z1
    | rdToHigh => exact Or.inl z2
    | wrByHigh =>
      by_cases hn : lv + 1 < c.tm.length
      · exact Or.inr (key hl (hi hn))
      · exact Or.inl (top (by omega))
  · obtain ⟨hl, -, t, -, lo, hi, top, ⟨b, -, hb1, hb2⟩, hph⟩ := output_sides hm hp
    cases d with
    | wrByLow => exact Or.inr (key (le_of_lt hl) lo)
    | rdToLow =>
      cases b with
      | true => exact Or.inr (key (le_of_lt hl) (hb1 rfl))
      | false => exact Or.inl (hb2 rfl).2.1
    | rdToHigh =>
      by_cases hn : lv + 1 < c.tm.length
      · exact Or.inr (key hl (hi hn))
      · exact Or.inl (top (by omega)).1
    | wrByHigh =>
      by_cases hn : lv + 1 < c.tm.length
      · obtain ⟨b', -, hc1, hc2⟩ := hph hn
        cases b' with
        | true => exact Or.inr (key hl (hc1 rfl))
        | false => exact Or.inl (hc2 rfl).2.1
      · exact Or.inl (top (by omega)).2

/-- The periods of all movements of one mapping fit together. -/
theorem port_consistent {K : Type} [DecidableEq K] {loops : List (Dim × ℚ)} (hw : WholeLoops loops) {c : Nat} (hc : 0 < c)
    {raw : List (Window.Duty K)} (hk : (raw.map Window.Duty.key).Nodup)
    (hr : ∀ x ∈ raw, ∃ bw flags lv p d, FromNest loops p ∧ duty x.key bw flags lv p d = .ok x) :
    Window.Consistent (c * ⌊iters loops⌋₊) (Window.activities (· * c) raw) := by
  have nat : ∀ ls : List (Dim × ℚ), WholeLoops ls → iters ls = ((ls.map (fun l => ⌊l.2⌋₊)).prod : ℕ) := by
    intro ls
    induction ls with
    | nil => intro _; simp [MapInfo.iters]
    | cons l ls ih =>
      intro h
      obtain ⟨a, ha, -⟩ := h l (by simp)
      have := ih (fun x hx => h x (by simp [hx]))
      unfold MapInfo.iters at this ⊢
      rw [List.map_cons, List.prod_cons, this, List.map_cons, List.prod_cons, ha, Nat.floor_natCast]; push_cast; rfl
  have hcons := Window.loop_nest_consistent (loops.map (fun l => ⌊l.2⌋₊)) (by
    intro x hx
    obtain ⟨l, hl, rfl⟩ := List.mem_map.1 hx
    obtain ⟨a, ha, h1⟩ := hw l hl
    rw [ha, Nat.floor_natCast]; exact h1) c hc raw hk (by
    intro x hx h0
    obtain ⟨bw, flags, lv, p, d, hn, hd⟩ := hr x hx
    unfold duty at hd
    cases ha : allowedTime flags lv p d with
    | error e => rw [ha] at hd; cases hd
    | ok a =>
      rw [ha] at hd
      simp only [bind, Except.bind, pure, Except.pure, Except.ok.injEq] at hd
      have e1 : x.period = ⌊p.period.get d⌋.toNat := by rw [← hd]
      have e2 : x.count = ⌊p.periodCount.get d⌋.toNat := by rw [← hd]
      rcases period_of_nest hw hn d with hz | ⟨k, h1, h2⟩
      · rw [e2, hz] at h0; simp at h0
      · refine ⟨k, ?_, ?_⟩
        · rw [e1, h1, nat _ (hw.sub (fun l hl => List.mem_of_mem_take hl)), Int.floor_natCast, Int.toNat_natCast, List.map_take]
        · rw [e2, h2, nat _ (hw.sub (fun l hl => List.mem_of_mem_drop hl)), Int.floor_natCast, Int.toNat_natCast, List.map_drop])
  rw [nat _ hw, Nat.floor_natCast]
  exact hcons

/-- C95: whatever movements of whatever operands of one mapping share a port, and whatever the bandwidths and the buffering, the union of the times in
which they may use the port is computed without exception and is the number of cycles of the computation in which at least one of them may. -/
theorem port_sharing {K : Type} [DecidableEq K] {loops : List (Dim × ℚ)} (hw : WholeLoops loops) {c : Nat} (hc : 0 < c)
    {raw : List (Window.Duty K)} (hk : (raw.map Window.Duty.key).Nodup)
    (hr : ∀ x ∈ raw, ∃ bw flags lv p d, FromNest loops p ∧ duty x.key bw flags lv p d = .ok x) (hne : Window.activities (· * c) raw ≠ []) :
    Window.windowUnion (Window.activities (· * c) raw) =
      .ok (Window.busyCycles (c * ⌊iters loops⌋₊) (Window.activities (· * c) raw)) :=
  Window.window_union hne (port_consistent hw hc hk hr)

/-- C95: the temporal mapping made by merging reusable loops down is of this kind: if the operands have the same loop nest before, they have it after,
and the stationary cycles of each are a product of its innermost loops. -/
theorem merged_nest {Op : Type} [DecidableEq Op] (ir : Op → Dim → Bool) (ms : Dict Op (TemporalMapping.Levels Dim)) {loops : List (Dim × ℚ)}
    (h : ∀ m ∈ ms, m.2.flatten = loops ∧ m.2 ≠ []) :
    ∃ N out, (∀ fuel, N ≤ fuel → TemporalMapping.mergeLoop ir fuel ms = some out) ∧ out.length = ms.length ∧
      ∀ q ∈ out, q.2.1.flatten = loops ∧ ∃ k, q.2.2 = iters (loops.take k) := by
  obtain ⟨N, out, h1, h2⟩ := TemporalMapping.merge_down_preserves ir ms
  obtain ⟨N', out', h1', h2'⟩ := TemporalMapping.merge_down_stationary ir ms
  have : out' = out := by
    have := (h1 (max N N') (le_max_left _ _)).symm.trans (h1' (max N N') (le_max_right _ _))
    injection this with this
    exact this.symm
  subst this
  refine ⟨N, out', h1, h2.length_eq.symm, fun q hq => ?_⟩
  obtain ⟨i, hi, rfl⟩ := List.getElem_of_mem hq
  have hi' : i < ms.length := by rw [h2.length_eq]; exact hi
  obtain ⟨-, -, a3⟩ := (List.forall₂_iff_get.1 h2).2 i hi' hi
  obtain ⟨-, -, -, b4⟩ := (List.forall₂_iff_get.1 h2').2 i hi' hi
  obtain ⟨m1, m2⟩ := h ms[i] (List.getElem_mem hi')
  refine ⟨a3.trans m1, ?_⟩
  have := b4 m2
  refine ⟨(loops.takeWhile (fun l => ir ms[i].1 l.1)).length, ?_⟩
  rw [show (out'[i]).2.2 = _ from this]
  simp only [List.get_eq_getElem]
  rw [m1]
  unfold MapInfo.iters
  congr 2
  have hs := List.takeWhile_append_dropWhile (p := fun l : Dim × ℚ => ir ms[i].1 l.1) (l := loops)
  generalize loops.takeWhile (fun l => ir ms[i].1 l.1) = a at hs ⊢
  rw [← hs]
  exact (List.take_left' rfl).symm

/-! ### Concrete cases -/

theorem exI_loops : WholeLoops exI.tm.flatten := by
  have h : ∀ l ∈ exI.tm.flatten, l.2 = ((l.2.num.natAbs : ℕ) : ℚ) ∧ 1 ≤ l.2.num.natAbs := by decide +kernel
  exact fun l hl => ⟨_, h l hl⟩

/-- What the theorems say, computably. -/
def allowedOf (r : Except PyErr (List Pattern)) (flags : List Bool) (lv : Nat) (d : Dir) : ℚ :=
  match r with
  | .ok ps => match ps[lv]? with
    | some p => match allowedTime flags lv p d with
      | .ok a => a
      | .error _ => -1
    | none => -2
  | .error _ => -3

/-- The input of the example: period 6 (FX 3, K 2), of which the last loop reuses the data. -/
example : allowedOf (inputMoves exI) [false, true, false] 0 .wrByHigh = 6 ∧ allowedOf (inputMoves exI) [false, false, false] 0 .wrByHigh = 3 ∧
    allowedOf (inputMoves exI) [false, true, false] 1 .rdToLow = 6 ∧ iters (fresh exI 1) = 3 ∧ iters (below exI 1) = 6 := by decide +kernel
example : allowedOf (outputMoves exO) [false, true, false] 0 .rdToHigh = 6 ∧ allowedOf (outputMoves exO) [false, false, false] 1 .wrByLow = 6 ∧
    allowedOf (inputMoves exS) [false, false, false] 0 .rdToLow = 2 := by decide +kernel

theorem FromNest.of_input {c : Cfg Dim} (ht : c.totalCycle = iters c.tm.flatten) (hs : ∃ k, c.stationary = iters (c.tm.flatten.take k))
    {ps : List Pattern} (h : inputMoves c = .ok ps) {lv : Nat} {p : Pattern} (hp : ps[lv]? = some p) : FromNest c.tm.flatten p :=
  ⟨c, ps, lv, rfl, ht, hs, Or.inl h, hp⟩

/-- A movement of an input operand on a port of 8 bits per cycle. -/
def exDuty (c : Cfg Nat) (key : Nat) (flags : List Bool) (lv : Nat) (d : Dir) : Option (Window.Duty Nat) :=
  match inputMoves c with
  | .ok ps => match ps[lv]? with
    | some p => match duty key (fun _ => some 8) flags lv p d with
      | .ok x => some x
      | .error _ => none
    | none => none
  | .error _ => none

theorem exDuty_from {c : Cfg Nat} (ht : c.totalCycle = iters c.tm.flatten) (hs : ∃ k, c.stationary = iters (c.tm.flatten.take k)) {key : Nat}
    {flags : List Bool} {lv : Nat} {d : Dir} {x : Window.Duty Nat} (h : exDuty c key flags lv d = some x) (hk : x.key = key) :
    ∃ bw flags lv p d, FromNest c.tm.flatten p ∧ duty x.key bw flags lv p d = .ok x := by
  unfold exDuty at h
  cases h1 : inputMoves c with
  | error e => rw [h1] at h; cases h
  | ok ps =>
    rw [h1] at h
    simp only at h
    cases h2 : ps[lv]? with
    | none => rw [h2] at h; cases h
    | some p =>
      rw [h2] at h
      simp only at h
      cases h3 : duty key (fun _ => some 8) flags lv p d with
      | error e => rw [h3] at h; cases h
      | ok y =>
        rw [h3] at h
        cases h
        exact ⟨_, flags, lv, p, d, FromNest.of_input ht hs h1 h2, by rw [hk]; exact h3⟩

/-- Input and weights share a port. -/
example : exDuty exI 0 [false, false, false] 0 .wrByHigh = some ⟨0, 6, 3, 6, 4⟩ ∧ exDuty exW 1 [false, false, false] 0 .wrByHigh = some ⟨1, 12, 6, 6, 4⟩ := by
  decide +kernel

example : (∀ x ∈ [(⟨0, 6, 3, 6, 4⟩ : Window.Duty Nat), ⟨1, 12, 6, 6, 4⟩],
      ∃ bw flags lv p d, FromNest exI.tm.flatten p ∧ duty x.key bw flags lv p d = .ok x) ∧
    Window.windowUnion (Window.activities (· * 2) [(⟨0, 6, 3, 6, 4⟩ : Window.Duty Nat), ⟨1, 12, 6, 6, 4⟩]) = .ok 48 := by
  have ht : exI.totalCycle = iters exI.tm.flatten := by decide +kernel
  have hs : exI.stationary = iters (exI.tm.flatten.take 0) := by decide +kernel
  refine ⟨?_, rfl⟩
  intro x hx
  simp only [List.mem_cons, List.not_mem_nil, or_false] at hx
  rcases hx with rfl | rfl
  · exact exDuty_from (c := exI) ht ⟨0, hs⟩ (key := 0) (flags := [false, false, false]) (lv := 0) (d := .wrByHigh) (by decide +kernel) rfl
  · exact exDuty_from (c := exW) ht ⟨0, hs⟩ (key := 1) (flags := [false, false, false]) (lv := 0) (d := .wrByHigh) (by decide +kernel) rfl

/-- Two operands with the same nest and different levels. -/
example : ∀ m ∈ ([(0, [[(0, 2)], [(1, 3)]]), (1, [[(0, 2), (1, 3)]])] : Dict Nat (TemporalMapping.Levels Nat)),
    m.2.flatten = [(0, 2), (1, 3)] ∧ m.2 ≠ [] := by decide +kernel

end Verif.Transfer
