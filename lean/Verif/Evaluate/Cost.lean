import Verif.Energy.Order
import Verif.Evaluate.Change

/-! The energy of an evaluation: amounts of data, numbers of periods and numbers of units are not negative. -/

namespace Verif.Evaluate

open Cme (Dir FourWay)
open MapInfo
open Decouple (TDim decouple layerEnv pyGet)
open LayerNode (Relation operandSizeElem)
open SpatialInternal (pyRound pyRound3 unitCount above unitUnique bwBoost stepRatios pyDiv)
open Energy (trunc Plain WiderOp Wider)
open Latency (Operand Key)

variable {Dim : Type} [DecidableEq Dim]

/-! ### Numbers -/

theorem pyRound_nonneg {q : ℚ} (h : 0 ≤ q) : 0 ≤ pyRound q := by
  have hf := Int.floor_nonneg.2 h
  unfold pyRound
  simp only
  split_ifs <;> omega

theorem pyRound3_nonneg {q : ℚ} (h : 0 ≤ q) : 0 ≤ pyRound3 q := by
  unfold pyRound3
  have : (0 : ℚ) ≤ pyRound (q * 1000) := by exact_mod_cast pyRound_nonneg (by positivity)
  positivity

theorem trunc_nonneg {q : ℚ} (h : 0 ≤ q) : 0 ≤ trunc q := by
  unfold trunc
  rw [if_pos h]
  exact Int.floor_nonneg.2 h

theorem prod_pos' {l : List ℚ} (h : ∀ x ∈ l, 0 < x) : 0 < l.prod := List.prod_pos h

theorem selP_pos {N : Type} (p : N → Bool) {l : List (N × ℚ)} (h : ∀ x ∈ l, 0 < x.2) : 0 < selP p l := by
  unfold selP
  refine prod_pos' (fun x hx => ?_)
  obtain ⟨y, hy, rfl⟩ := List.mem_map.1 hx
  exact h y (List.mem_of_mem_filter hy)

theorem above_pos {l : List ℚ} (h : ∀ x ∈ l, 0 < x) : ∀ x ∈ above l, 0 < x := by
  intro x hx
  unfold above at hx
  obtain ⟨n, _, rfl⟩ := List.mem_map.1 hx
  exact prod_pos' (fun y hy => h y (List.mem_of_mem_drop hy))

theorem stepRatios_pos : ∀ (l r : List ℚ), stepRatios l = .ok r → (∀ x ∈ l, 0 < x) → ∀ x ∈ r, 0 < x
  | [], r, h, _ => by cases h; simp
  | [_], r, h, _ => by cases h; simp
  | a :: b :: t, r, h, hp => by
    have hb : b ≠ 0 := (hp b (by simp)).ne'
    unfold stepRatios pyDiv at h
    simp only [if_neg hb, bind, Except.bind] at h
    cases hr : stepRatios (b :: t) with
    | error e => rw [hr] at h; cases h
    | ok r' =>
      rw [hr] at h
      cases h
      intro x hx
      rcases List.mem_cons.1 hx with rfl | hx
      · exact div_pos (hp a (by simp)) (hp b (by simp))
      · exact stepRatios_pos (b :: t) r' hr (fun y hy => hp y (List.mem_cons_of_mem _ hy)) x hx

/-! ### Tables of one operand -/

section
variable {c : Cfg Dim} {rl : List Dim} {rels : List (Relation Dim)} (hv : Shape c rl rels)
  (hp : ∀ r ∈ rels, ∃ m, c.L.prSizes.get? r.dim1 = some m ∧ 0 < m)
include hv hp

theorem tables_nonneg {t : Tables Dim} (h : tables c = .ok t) : (∀ x ∈ t.unrolled, 0 ≤ x) ∧ ∀ x ∈ t.boost, 0 ≤ x := by
  obtain ⟨rs, ab, ra, rb, h1, h2, h3, -, h5, -, -, -, -, h10, -⟩ := tables_unfold h
  have all1 : ∀ l ∈ c.tm.flatten ++ c.su.flatten, 1 ≤ l.2 := fun l hl => (hv.loops l hl).2
  obtain ⟨a, b, hab, la, lb, _, _, pa, pb⟩ := combine_ok hv.levels
  rw [hab] at h3
  cases h3
  have hb := hv.decouple_pos hp (fun l hl => all1 l (pb.mem_iff.1 hl)) h5
  have hs := hv.decouple_pos hp (fun l hl => all1 l (List.mem_append_right _ hl)) h1
  constructor
  · rw [h10]
    intro x hx
    obtain ⟨y, hy, rfl⟩ := List.mem_map.1 hx
    refine pyRound_nonneg (le_of_lt ?_)
    unfold MapInfo.cabl at hy
    obtain ⟨n, _, rfl⟩ := List.mem_map.1 hy
    refine prod_pos' (fun z hz => ?_)
    obtain ⟨l, hl, rfl⟩ := List.mem_map.1 (List.mem_of_mem_take hz)
    exact selP_pos _ (fun w hw => hb w (List.mem_flatten.2 ⟨l, List.mem_of_mem_take hl, hw⟩))
  · unfold bwBoost at h2
    cases hr : stepRatios (unitUnique (isR c) rs) with
    | error e => rw [hr] at h2; cases h2
    | ok r =>
      rw [hr] at h2
      simp only [bind, Except.bind, pure, Except.pure] at h2
      injection h2 with h2
      rw [← h2]
      intro x hx
      obtain ⟨y, hy, rfl⟩ := List.mem_map.1 hx
      refine pyRound_nonneg (le_of_lt (stepRatios_pos _ _ hr ?_ y hy))
      refine above_pos (fun z hz => ?_)
      rw [SpatialInternal.unrollR_eq] at hz
      obtain ⟨l, hl, rfl⟩ := List.mem_map.1 hz
      exact selP_pos _ (fun w hw => hs w (List.mem_flatten.2 ⟨l, hl, hw⟩))

omit hp in
theorem cycles_nonneg (hst : 0 ≤ c.stationary) (out : Bool) : ∀ x ∈ cycles c out, 0 ≤ x := by
  intro x hx
  unfold cycles at hx
  rcases List.mem_cons.1 hx with rfl | hx
  · split_ifs
    · exact hst
    · exact zero_le_one
  · unfold TemporalMapping.cycleCabl at hx
    obtain ⟨n, _, rfl⟩ := List.mem_map.1 hx
    refine List.prod_nonneg (fun y hy => ?_)
    have hy := List.mem_of_mem_take hy
    unfold TemporalMapping.iterationEachLevel at hy
    obtain ⟨l, hl, rfl⟩ := List.mem_map.1 hy
    refine List.prod_nonneg (fun z hz => ?_)
    obtain ⟨w, hw, rfl⟩ := List.mem_map.1 hz
    have := (hv.loops w (List.mem_append_left _ (List.mem_flatten.2 ⟨l, hl, hw⟩))).2
    linarith

theorem sides_nonneg (hst : 0 ≤ c.stationary) (hT : 0 ≤ c.totalCycle) {t : Tables Dim} (h : tables c = .ok t) {prec : List ℚ} {out : Bool}
    {lvl : Nat} {lo hi : Side} (h1 : lowSide c t prec out lvl = .ok lo) (h2 : highSide c t prec out lvl = .ok hi) :
    0 ≤ lo.amount ∧ 0 ≤ lo.count ∧ 0 ≤ hi.amount ∧ 0 ≤ hi.count := by
  obtain ⟨hu, hb⟩ := tables_nonneg hv hp h
  obtain ⟨_, cy, f, d, -, e1, -, e2, e3, -, -, e4, e5⟩ := lowSide_unfold h1
  obtain ⟨_, cy', d', -, f1, -, f2, -, -, f3, f4⟩ := highSide_unfold h2
  have hf : 0 ≤ f := by
    rcases List.mem_append.1 (List.mem_of_getElem? e2) with hm | hm
    · exact hb f hm
    · rw [List.mem_singleton.1 hm]; exact zero_le_one
  have hd := hu d (List.mem_of_getElem? e3)
  have hd' := hu d' (List.mem_of_getElem? f2)
  have hcy := cycles_nonneg hv hst out cy (List.mem_of_getElem? e1)
  have hcy' := cycles_nonneg hv hst out cy' (List.mem_of_getElem? f1)
  refine ⟨?_, ?_, ?_, ?_⟩
  · rw [e5]; exact mul_nonneg (by exact_mod_cast hd) (by exact_mod_cast hf)
  · rw [e4]; exact_mod_cast Int.floor_nonneg.2 (div_nonneg hT hcy)
  · rw [f4]; exact_mod_cast hd'
  · rw [f3]; exact_mod_cast Int.floor_nonneg.2 (div_nonneg hT hcy')

/-- The attributes of a movement that the energy depends on are not negative. -/
def NonNeg (p : Pattern) : Prop := ∀ d, 0 ≤ p.amount.get d ∧ 0 ≤ p.precision.get d ∧ 0 ≤ p.periodCount.get d

omit hv hp [DecidableEq Dim] in
theorem NonNeg.cut {p : Pattern} (h : NonNeg p) (n lvl : Nat) : NonNeg (topCut n lvl p) := by
  unfold topCut
  split_ifs
  · intro d
    have := h d
    cases d <;> simp_all [Pattern.update, FourWay.set, FourWay.get]
  · exact h

theorem input_nonneg (hst : 0 ≤ c.stationary) (hT : 0 ≤ c.totalCycle) (hpr : 0 ≤ c.precision) {ps : List Pattern} (h : inputMoves c = .ok ps) :
    ∀ p ∈ ps, NonNeg p := by
  obtain ⟨hl, t, ht, hg⟩ := inputMoves_get h
  intro p hpm
  obtain ⟨n, hn⟩ := List.mem_iff_getElem?.1 hpm
  have hlt := (List.getElem?_eq_some_iff.1 hn).1
  obtain ⟨q, hq, hq'⟩ := hg n (by omega)
  rw [hn] at hq'
  cases hq'
  obtain ⟨lo, hi, i, -, h1, h2, -, e1, -, -, -, e2, e3, -⟩ := inputPattern_unfold hq
  obtain ⟨a, b, a', b'⟩ := sides_nonneg hv hp hst hT ht h1 h2
  refine NonNeg.cut (fun d => ?_) _ _
  rw [e1, e2, e3]
  cases d <;> simp [inWay, inputPrec, FourWay.get, a, b, a', b', hpr]

theorem output_nonneg (hst : 0 ≤ c.stationary) (hT : 0 ≤ c.totalCycle) (hpr : 0 ≤ c.precision) (hfp : 0 ≤ c.finalPrecision) {ps : List Pattern}
    (h : outputMoves c = .ok ps) : ∀ p ∈ ps, NonNeg p := by
  obtain ⟨hl, t, s, ht, -, hg⟩ := outputMoves_get h
  intro p hpm
  obtain ⟨n, hn⟩ := List.mem_iff_getElem?.1 hpm
  have hlt := (List.getElem?_eq_some_iff.1 hn).1
  obtain ⟨q, hq, hq'⟩ := hg n (by omega)
  rw [hn] at hq'
  cases hq'
  obtain ⟨_, lo, hi, pl, ph, i, -, -, h1, h2, -, -, -, e1, -, -, -, e2, e3, -⟩ := outputPattern_unfold hq
  obtain ⟨a, b, a', b'⟩ := sides_nonneg hv hp hst hT ht h1 h2
  have ta : (0 : ℚ) ≤ trunc lo.amount := by exact_mod_cast trunc_nonneg a
  refine NonNeg.cut (fun d => ?_) _ _
  rw [e1, e2, e3]
  have ite : ∀ (p : Prop) [Decidable p] {x y : ℚ}, 0 ≤ x → 0 ≤ y → 0 ≤ if p then x else y := by
    intro p _ x y hx hy
    split_ifs <;> assumption
  cases d <;> refine ⟨?_, ?_, ?_⟩ <;> simp only [outWay, outputPrec, FourWay.get] <;> first | assumption | exact ite _ (by assumption) le_rfl |
    exact ite _ (by assumption) (by assumption)

theorem units_nonneg {rs : Lv (TDim Dim)} (h : decouple (layerEnv c.L c.rel) c.su = .ok rs) : ∀ u ∈ unitCount rs, 0 ≤ u := by
  have hs := hv.decouple_pos hp (fun l hl => (hv.loops l (List.mem_append_right _ hl)).2) h
  intro u hu
  unfold unitCount at hu
  obtain ⟨x, hx, rfl⟩ := List.mem_map.1 hu
  refine pyRound_nonneg (pyRound3_nonneg (le_of_lt (above_pos (fun y hy => ?_) x hx)))
  rw [SpatialInternal.unrollTotal_eq] at hy
  obtain ⟨l, hl, rfl⟩ := List.mem_map.1 hy
  refine prod_pos' (fun z hz => ?_)
  obtain ⟨w, hw, rfl⟩ := List.mem_map.1 hz
  exact hs w (List.mem_flatten.2 ⟨l, hl, hw⟩)

end

/-! ### All operands -/

variable {h : Hw} {j : Job Dim} {rl : Operand → List Dim} {rels : List (Relation Dim)} {loops array : List (Dim × ℚ)}

theorem opData_plain (R : Mapped h j rl rels loops array) {op : Operand} (ho : op ∈ j.ops) {i : OpInfo Dim} (G : Good h j false op i)
    (he : ∀ m ∈ h.mems, 0 ≤ m.readEnergy ∧ 0 ≤ m.writeEnergy) : Plain (opData h op i) := by
  have hv := R.shape false op ho
  have h1 := R.whole.iters
  have hst : 0 ≤ (cfg h j false op).stationary := by
    obtain ⟨k, hk⟩ := R.stationary op ho
    change 0 ≤ j.stationary op
    rw [hk]
    unfold MapInfo.iters
    refine List.prod_nonneg (fun x hx => ?_)
    obtain ⟨l, hl, rfl⟩ := List.mem_map.1 hx
    obtain ⟨n, hn, -⟩ := R.whole l (List.mem_of_mem_take hl)
    rw [hn]; positivity
  have hT : 0 ≤ (cfg h j false op).totalCycle := by
    change 0 ≤ j.totalCycle
    obtain ⟨n, hn, -⟩ := h1
    rw [R.total, hn]; positivity
  have hpr : 0 ≤ (cfg h j false op).precision := by change (0 : ℚ) ≤ ((j.precision op : ℕ) : ℚ); positivity
  have hfp : 0 ≤ (cfg h j false op).finalPrecision := by change (0 : ℚ) ≤ ((j.finalPrecision : ℕ) : ℚ); positivity
  refine ⟨?_, ?_, ?_⟩
  · intro m hm d
    obtain ⟨p, hp, rfl⟩ := List.mem_map.1 hm
    have hmv := G.moves
    split_ifs at hmv with hop
    · exact output_nonneg hv R.sizes hst hT hpr hfp hmv p hp d
    · exact input_nonneg hv R.sizes hst hT hpr hmv p hp d
  · intro lv hl
    obtain ⟨m, hm, rfl⟩ := List.mem_map.1 hl
    exact he m (R.built.inside op m hm)
  · intro u hu
    obtain ⟨z, hz, rfl⟩ := List.mem_map.1 hu
    exact_mod_cast units_nonneg hv R.sizes G.reform z hz

end Verif.Evaluate
