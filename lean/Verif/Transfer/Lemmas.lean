import Verif.Transfer.Model
import Verif.MapInfo.Props
import Verif.Window.Props
import Verif.TemporalMapping.Props

namespace Verif.Transfer

open Cme (Dir FourWay)
open MapInfo
open Decouple (pyGet)
open SpatialInternal (pyDiv)
open Energy (trunc)

variable {Dim : Type} [DecidableEq Dim]

/-- Size of the outermost irrelevant loops, entry for side `i` (side `0` is the array). -/
abbrev tops (c : Cfg Dim) : List ℚ := TemporalMapping.topLoopSize (fun d => decide (d ∈ c.rel.ir)) c.tm

/-- Period, count and window of the side with index `i`. -/
def IsSide (c : Cfg Dim) (out : Bool) (i : Nat) (period count window : ℚ) : Prop :=
  ∃ cy top, (cycles c out)[i]? = some cy ∧ (tops c)[i]? = some top ∧ cy ≠ 0 ∧ period = trunc cy ∧ count = ⌊c.totalCycle / cy⌋ ∧
    window = trunc ((trunc cy : ℚ) / (trunc top : ℚ))

theorem instant_windows {c : Cfg Dim} {lvl : Nat} {bw pd : FourWay} {i : FourWay × FourWay} (h : instant c lvl bw pd = .ok i) :
    ∃ cur nxt, (tops c)[lvl]? = some cur ∧ (tops c)[lvl + 1]? = some nxt ∧
      i.2.rdToLow = trunc (pd.rdToLow / (trunc cur : ℤ)) ∧ i.2.wrByLow = trunc (pd.wrByLow / (trunc cur : ℤ)) ∧
      i.2.rdToHigh = trunc (pd.rdToHigh / (trunc nxt : ℤ)) ∧ i.2.wrByHigh = trunc (pd.wrByHigh / (trunc nxt : ℤ)) := by
  unfold instant at h
  cases h1 : pyGet (tops c) lvl with
  | error e => simp only [bind, Except.bind, h1] at h; cases h
  | ok cur =>
    cases h2 : pyGet (tops c) (lvl + 1) with
    | error e => simp only [bind, Except.bind, h1, h2] at h; cases h
    | ok nxt =>
      simp only [bind, Except.bind, h1, h2, pyDiv] at h
      by_cases e1 : ((trunc cur : ℤ) : ℚ) = 0
      · rw [if_pos e1] at h; cases h
      · simp only [if_neg e1] at h
        by_cases e2 : ((trunc nxt : ℤ) : ℚ) = 0
        · rw [if_pos e2] at h; cases h
        · simp only [if_neg e2, pure, Except.pure] at h
          cases h
          exact ⟨cur, nxt, pyGet_of h1, pyGet_of h2, rfl, rfl, rfl, rfl⟩

/-- An attribute direction of an input pattern is a side or absent. -/
theorem input_sides {c : Cfg Dim} {ps : List Pattern} (h : inputMoves c = .ok ps) {lvl : Nat} {p : Pattern} (hp : ps[lvl]? = some p) :
    lvl < c.tm.length ∧ ps.length = c.tm.length ∧
      IsSide c false lvl p.period.rdToLow p.periodCount.rdToLow p.window.rdToLow ∧
      (lvl + 1 < c.tm.length → IsSide c false (lvl + 1) p.period.wrByHigh p.periodCount.wrByHigh p.window.wrByHigh) ∧
      (lvl + 1 = c.tm.length → p.periodCount.wrByHigh = 0) ∧ p.periodCount.wrByLow = 0 ∧ p.periodCount.rdToHigh = 0 := by
  obtain ⟨hlen, t, ht, hall⟩ := inputMoves_get h
  have hl : lvl < c.tm.length := by rw [← hlen]; exact (List.getElem?_eq_some_iff.1 hp).1
  obtain ⟨q, hq, hget⟩ := hall lvl hl
  rw [hp] at hget
  cases hget
  obtain ⟨lo, hi, i, -, hlo, hhi, hin, -, -, -, ed, ec, -, ew⟩ := inputPattern_unfold hq
  obtain ⟨-, cy1, -, -, -, g1, g2, -, -, -, g3, g4, -⟩ := lowSide_unfold hlo
  obtain ⟨-, cy2, -, -, k1, k2, -, -, k3, k4, -⟩ := highSide_unfold hhi
  obtain ⟨cur, nxt, w1, w2, w3, w4, w5, w6⟩ := instant_windows hin
  have low : IsSide c false lvl q.period.rdToLow q.periodCount.rdToLow q.window.rdToLow := by
    refine ⟨cy1, cur, g1, w1, g2, ?_, ?_, ?_⟩
    · rw [ed]; exact g3
    · rw [ec]; exact g4
    · rw [ew, w3]
      change ((trunc (lo.period / _) : ℤ) : ℚ) = _
      rw [g3]
  have high : IsSide c false (lvl + 1) q.period.wrByHigh q.periodCount.wrByHigh q.window.wrByHigh := by
    refine ⟨cy2, nxt, k1, w2, k2, ?_, ?_, ?_⟩
    · rw [ed]; exact k3
    · rw [ec]; exact k4
    · rw [ew, w6]
      change ((trunc (hi.period / _) : ℤ) : ℚ) = _
      rw [k3]
  refine ⟨hl, hlen, ?_, fun hn => ?_, fun hn => ?_, ?_, ?_⟩
  · unfold topCut; split <;> exact low
  · unfold topCut; rw [if_neg (by omega)]; exact high
  · unfold topCut; rw [if_pos hn]; rfl
  · unfold topCut; split
    · change q.periodCount.wrByLow = 0; rw [ec]; rfl
    · rw [ec]; rfl
  · unfold topCut; split
    · rfl
    · rw [ec]; rfl

/-- An attribute direction of an output pattern is a side or absent. -/
theorem output_sides {c : Cfg Dim} {ps : List Pattern} (h : outputMoves c = .ok ps) {lvl : Nat} {p : Pattern} (hp : ps[lvl]? = some p) :
    lvl < c.tm.length ∧ ps.length = c.tm.length ∧ ∃ t, tables c = .ok t ∧
      IsSide c true lvl p.period.wrByLow p.periodCount.wrByLow p.window.wrByLow ∧
      (lvl + 1 < c.tm.length → IsSide c true (lvl + 1) p.period.rdToHigh p.periodCount.rdToHigh p.window.rdToHigh) ∧
      (lvl + 1 = c.tm.length → p.periodCount.rdToHigh = 0 ∧ p.periodCount.wrByHigh = 0) ∧
      (∃ b, (psumFlags (isIr c) t.ra)[lvl]? = some b ∧ (b = true → IsSide c true lvl p.period.rdToLow p.periodCount.rdToLow p.window.rdToLow) ∧
        (b = false → p.period.rdToLow = 0 ∧ p.periodCount.rdToLow = 0 ∧ p.window.rdToLow = 0)) ∧
      (lvl + 1 < c.tm.length → ∃ b, (psumFlags (isIr c) t.ra)[lvl + 1]? = some b ∧
        (b = true → IsSide c true (lvl + 1) p.period.wrByHigh p.periodCount.wrByHigh p.window.wrByHigh) ∧
        (b = false → p.period.wrByHigh = 0 ∧ p.periodCount.wrByHigh = 0 ∧ p.window.wrByHigh = 0)) := by
  obtain ⟨hlen, t, s, ht, -, hall⟩ := outputMoves_get h
  have hl : lvl < c.tm.length := by rw [← hlen]; exact (List.getElem?_eq_some_iff.1 hp).1
  obtain ⟨q, hq, hget⟩ := hall lvl hl
  rw [hp] at hget
  cases hget
  obtain ⟨prec, lo, hi, pl, ph, i, -, -, hlo, hhi, hpl, hph, hin, -, -, -, ed, ec, -, ew⟩ := outputPattern_unfold hq
  obtain ⟨-, cy1, -, -, -, g1, g2, -, -, -, g3, g4, -⟩ := lowSide_unfold hlo
  obtain ⟨-, cy2, -, -, k1, k2, -, -, k3, k4, -⟩ := highSide_unfold hhi
  obtain ⟨cur, nxt, w1, w2, w3, w4, w5, w6⟩ := instant_windows hin
  have hz : ∀ x : ℚ, ((trunc (0 / x) : ℤ) : ℚ) = 0 := by
    intro x; rw [zero_div]; have := trunc_nat 0; simpa using this
  have low : IsSide c true lvl q.period.wrByLow q.periodCount.wrByLow q.window.wrByLow := by
    refine ⟨cy1, cur, g1, w1, g2, ?_, ?_, ?_⟩
    · rw [ed]; exact g3
    · rw [ec]; exact g4
    · rw [ew, w4]
      change ((trunc (lo.period / _) : ℤ) : ℚ) = _
      rw [g3]
  have high : IsSide c true (lvl + 1) q.period.rdToHigh q.periodCount.rdToHigh q.window.rdToHigh := by
    refine ⟨cy2, nxt, k1, w2, k2, ?_, ?_, ?_⟩
    · rw [ed]; exact k3
    · rw [ec]; exact k4
    · rw [ew, w5]
      change ((trunc (hi.period / _) : ℤ) : ℚ) = _
      rw [k3]
  have plow : (pl = true → IsSide c true lvl q.period.rdToLow q.periodCount.rdToLow q.window.rdToLow) ∧
      (pl = false → q.period.rdToLow = 0 ∧ q.periodCount.rdToLow = 0 ∧ q.window.rdToLow = 0) := by
    constructor
    · rintro rfl
      refine ⟨cy1, cur, g1, w1, g2, ?_, ?_, ?_⟩
      · rw [ed]; exact g3
      · rw [ec]; exact g4
      · rw [ew, w3]
        change ((trunc (lo.period / _) : ℤ) : ℚ) = _
        rw [g3]
    · rintro rfl
      refine ⟨by rw [ed]; rfl, by rw [ec]; rfl, ?_⟩
      rw [ew, w3]; exact hz _
  have phigh : (ph = true → IsSide c true (lvl + 1) q.period.wrByHigh q.periodCount.wrByHigh q.window.wrByHigh) ∧
      (ph = false → q.period.wrByHigh = 0 ∧ q.periodCount.wrByHigh = 0 ∧ q.window.wrByHigh = 0) := by
    constructor
    · rintro rfl
      refine ⟨cy2, nxt, k1, w2, k2, ?_, ?_, ?_⟩
      · rw [ed]; exact k3
      · rw [ec]; exact k4
      · rw [ew, w6]
        change ((trunc (hi.period / _) : ℤ) : ℚ) = _
        rw [k3]
    · rintro rfl
      refine ⟨by rw [ed]; rfl, by rw [ec]; rfl, ?_⟩
      rw [ew, w6]; exact hz _
  refine ⟨hl, hlen, t, ht, ?_, fun hn => ?_, fun hn => ?_, ⟨pl, pyGet_of hpl, ?_⟩,
    fun hn => ⟨ph, pyGet_of hph, ?_⟩⟩
  · unfold topCut; split <;> exact low
  · unfold topCut; rw [if_neg (by omega)]; exact high
  · unfold topCut; rw [if_pos hn]; exact ⟨rfl, rfl⟩
  · unfold topCut; split <;> exact plow
  · unfold topCut; rw [if_neg (by omega)]; exact phigh

theorem IsSide.unique {c : Cfg Dim} {out : Bool} {i : Nat} {p n w p' n' w' : ℚ} (h : IsSide c out i p n w) (h' : IsSide c out i p' n' w') :
    p = p' ∧ n = n' ∧ w = w' := by
  obtain ⟨cy, top, a1, a2, -, a3, a4, a5⟩ := h
  obtain ⟨cy', top', b1, b2, -, b3, b4, b5⟩ := h'
  rw [a1] at b1; cases b1
  rw [a2] at b2; cases b2
  exact ⟨a3.trans b3.symm, a4.trans b4.symm, a5.trans b5.symm⟩

end Verif.Transfer
