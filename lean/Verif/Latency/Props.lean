import Verif.Latency.Model
import Verif.Balance.Props
import Mathlib.Tactic.FieldSimp

/-! C30 and C64: order of the latency figures, and on-loading time against the transfers it has to contain. -/

namespace Verif.Latency

open Verif.Cme (Dir)

/-- C30 for given stall, on-loading and off-loading cycles that are not negative: the latency figures are ordered and the utilizations are ordered
and lie between zero and one.  `macs ≤ units * totalCycle` says that the array can do the work in the given number of cycles. -/
theorem overall_ordered {macs units totalCycle cyclesPerOp : Nat} {stall on off : ℚ} {r : Overall}
    (h : overall macs units totalCycle cyclesPerOp stall on off = .ok r) (hw : macs ≤ units * totalCycle) (h1 : 0 ≤ stall) (h2 : 0 ≤ on)
    (h3 : 0 ≤ off) :
    (0 ≤ r.ideal ∧ r.ideal ≤ r.idealTemporal ∧ r.idealTemporal ≤ r.latency0 ∧ r.latency0 ≤ r.latency1 ∧ r.latency1 ≤ r.latency2) ∧
      (0 ≤ r.util2 ∧ r.util2 ≤ r.util1 ∧ r.util1 ≤ r.util0 ∧ r.util0 ≤ r.spatialUtil ∧ r.spatialUtil ≤ 1) := by
  unfold overall at h
  split at h
  · cases h
  · rename_i hu
    simp only at h
    split at h
    · cases h
    · rename_i hz
      push Not at hz
      simp only [Except.ok.injEq] at h
      subst h
      simp only
      have hU : (0 : ℚ) < units := by exact_mod_cast Nat.pos_of_ne_zero hu
      have hceil : (0 : ℚ) ≤ (⌈(macs : ℚ) / units⌉ : ℚ) :=
        Int.cast_nonneg (Int.ceil_nonneg (div_nonneg (Nat.cast_nonneg _) (Nat.cast_nonneg _)))
      have hle : (⌈(macs : ℚ) / units⌉ : ℚ) ≤ totalCycle := by
        have : ⌈(macs : ℚ) / units⌉ ≤ (totalCycle : Int) := by
          rw [Int.ceil_le]
          rw [div_le_iff₀ hU]
          push_cast
          have : ((macs : Nat) : ℚ) ≤ ((units * totalCycle : Nat) : ℚ) := by exact_mod_cast hw
          push_cast at this
          linarith
        exact_mod_cast this
      have hC : (0 : ℚ) ≤ cyclesPerOp := by positivity
      have hid : 0 ≤ (⌈(macs : ℚ) / units⌉ : ℚ) * cyclesPerOp := mul_nonneg hceil hC
      have hit : (⌈(macs : ℚ) / units⌉ : ℚ) * cyclesPerOp ≤ (totalCycle : ℚ) * cyclesPerOp := mul_le_mul_of_nonneg_right hle hC
      have hpos : 0 < (totalCycle : ℚ) * cyclesPerOp := lt_of_le_of_ne (by positivity) (Ne.symm hz.1)
      refine ⟨⟨hid, hit, by linarith, by linarith, by linarith⟩, ?_, ?_, ?_, ?_, ?_⟩
      · exact div_nonneg hid (by linarith)
      · exact div_le_div_of_nonneg_left hid (by linarith) (by linarith)
      · exact div_le_div_of_nonneg_left hid (by linarith) (by linarith)
      · exact div_le_div_of_nonneg_left hid (by linarith) (by linarith)
      · rw [div_le_one hpos]; exact hit

/-- All recorded cycles are not negative. -/
def NonNeg (t : Table) : Prop := ∀ k v, t.get? k = some v → 0 ≤ v.1

private theorem NonNeg.set {t : Table} (h : NonNeg t) (k : Key) (v : ℚ × Bool) (hv : 0 ≤ v.1) : NonNeg (t.set k v) := by
  intro k' v' hg
  rw [Dict.get?_set] at hg
  split at hg
  · cases hg; exact hv
  · exact h k' v' hg

/-- A port whose movements with a single period do not compete for spare cycles: there is at most one, or there are no spare cycles. -/
def Calm (info : Info) (p : Port) : Prop := (once info p).length ≤ 1 ∨ surplus info p = 0

private theorem minCycles_nonneg (info : Info) (p : Port) (k : Key) : 0 ≤ minCycles info p k := by
  unfold minCycles
  exact Int.cast_nonneg (Int.ceil_nonneg (div_nonneg (Nat.cast_nonneg _) (Nat.cast_nonneg _)))

private theorem single_nonneg (c m s : ℚ) (hc : 0 ≤ c) (hm : 0 ≤ m) (r d : List ℚ) (h : Balance.reduceBalanced [c] [m] s = .ok (r, d)) :
    ∀ x ∈ r, 0 ≤ x := by
  have ho : Balance.order [c] = [0] := rfl
  unfold Balance.reduceBalanced at h
  split at h
  · cases h
    intro x hx
    rw [List.mem_singleton.1 hx]; exact hc
  · rw [if_neg (by simp), ho] at h
    simp only [List.map_cons, List.map_nil, List.length_cons, List.length_nil, List.replicate_succ, List.replicate_zero,
      List.range_succ, List.range_zero, List.nil_append, Balance.loop, List.getD_cons_zero, Nat.cast_zero, zero_add, mul_one, div_one] at h
    split at h
    · rename_i hge
      simp only [Except.ok.injEq, Prod.mk.injEq] at h
      rw [← h.1]
      intro x hx
      simp [Balance.unsort, Balance.subFirst] at hx
      rw [hx]; exact hm
    · rename_i hlt
      push Not at hlt
      simp only [Except.ok.injEq, Prod.mk.injEq] at h
      rw [← h.1]
      intro x hx
      simp [Balance.unsort, Balance.subFirst] at hx
      linarith

private theorem zip_foldl_nonneg (b : Bool) (z : List (Key × ℚ)) (t : Table) (h : NonNeg t) (hz : ∀ e ∈ z, 0 ≤ e.2) :
    NonNeg (z.foldl (fun t e => t.set e.1 (e.2, b)) t) := by
  induction z generalizing t with
  | nil => exact h
  | cons e z ih =>
    rw [List.foldl_cons]
    exact ih _ (h.set _ _ (hz e List.mem_cons_self)) fun x hx => hz x (List.mem_cons_of_mem _ hx)

private theorem often_foldl_nonneg (info : Info) (b : Bool) (z : List Key) (t : Table) (h : NonNeg t) :
    NonNeg (z.foldl (fun t k => t.set k (((info.real k : Nat) : ℚ), b)) t) := by
  induction z generalizing t with
  | nil => exact h
  | cons e z ih =>
    rw [List.foldl_cons]
    exact ih _ (h.set _ _ (by simp))

theorem loadPort_nonneg {info : Info} {p : Port} (hp : Calm info p) {t t' : Table} (h : loadPort info p t = .ok t') (ht : NonNeg t) : NonNeg t' := by
  unfold loadPort at h
  split at h
  · cases h
  · cases hb : Balance.reduceBalanced ((once info p).map fun k => (info.real k : ℚ)) ((once info p).map (minCycles info p)) (surplus info p) with
    | error e => rw [hb] at h; cases h
    | ok x =>
      obtain ⟨rem, d⟩ := x
      rw [hb] at h
      simp only [Except.ok.injEq] at h
      rw [← h]
      refine often_foldl_nonneg _ _ _ _ (zip_foldl_nonneg _ _ _ ht ?_)
      have hrem : ∀ x ∈ rem, 0 ≤ x := by
        rcases hp with hp | hp
        · generalize once info p = l at hp hb
          match l, hp with
          | [], _ =>
            unfold Balance.reduceBalanced at hb
            simp only [List.map_nil] at hb
            rw [if_pos (Or.inr trivial)] at hb
            cases hb
            simp
          | [k], _ =>
            exact single_nonneg _ _ _ (by simp) (minCycles_nonneg info p k) rem d hb
        · unfold Balance.reduceBalanced at hb
          rw [if_pos (Or.inl hp.le)] at hb
          cases hb
          intro x hx
          obtain ⟨k, -, rfl⟩ := List.mem_map.1 hx
          simp
      intro e he
      exact hrem _ (List.of_mem_zip he).2

theorem loadPorts_nonneg {info : Info} {ps : List Port} (hp : ∀ p ∈ ps, Calm info p) {t t' : Table} (h : loadPorts info ps t = .ok t')
    (ht : NonNeg t) : NonNeg t' := by
  induction ps generalizing t with
  | nil => cases h; exact ht
  | cons p ps ih =>
    unfold loadPorts at h
    cases h1 : loadPort info p t with
    | error e => rw [h1] at h; cases h
    | ok t1 =>
      rw [h1] at h
      exact ih (fun q hq => hp q (List.mem_cons_of_mem _ hq)) h (loadPort_nonneg (hp p List.mem_cons_self) h1 ht)

/-- Transfer time of the link between levels `lv` and `lv + 1` of an operand: the slower side. -/
def linkTime (t : Table) (op : Operand) (lv : Nat) : ℚ :=
  match t.get? (op, lv, .wrByHigh), t.get? (op, lv + 1, .rdToLow) with
  | some a, some b => max a.1 b.1
  | _, _ => 0

/-- The link is half shared: exactly one side uses a port shared by both input operands. -/
def halfShared (t : Table) (op : Operand) (lv : Nat) : Bool :=
  match t.get? (op, lv, .wrByHigh), t.get? (op, lv + 1, .rdToLow) with
  | some a, some b => a.2 != b.2
  | _, _ => false

/-- Time of all links from level `lv` on. -/
def allLinks (t : Table) (op : Operand) (lv n : Nat) : ℚ := ((List.range' lv n).map (linkTime t op)).sum

/-- Number of half-shared links from level `lv` on. -/
def halfLinks (t : Table) (op : Operand) (lv n : Nat) : Nat := ((List.range' lv n).filter (halfShared t op)).length

private theorem linkTime_nonneg {t : Table} (h : NonNeg t) (op : Operand) (lv : Nat) : 0 ≤ linkTime t op lv := by
  unfold linkTime
  split
  · rename_i a b h1 h2
    exact le_max_of_le_left (h _ _ h1)
  · exact le_rfl

theorem parts_nonneg {t : Table} (h : NonNeg t) (op : Operand) {lv n : Nat} {p q : Parts} (hp : parts t op lv n p = .ok q)
    (h1 : 0 ≤ p.individual) (h2 : 0 ≤ p.half) (h3 : 0 ≤ p.shared) : 0 ≤ q.individual ∧ 0 ≤ q.half ∧ 0 ≤ q.shared := by
  induction n generalizing lv p with
  | zero => cases hp; exact ⟨h1, h2, h3⟩
  | succ n ih =>
    unfold parts at hp
    cases ha : t.get? (op, lv, Dir.wrByHigh) with
    | none => rw [ha] at hp; cases hp
    | some a =>
      cases hb : t.get? (op, lv + 1, Dir.rdToLow) with
      | none => rw [ha, hb] at hp; cases hp
      | some b =>
        rw [ha, hb] at hp
        simp only at hp
        have hmax : 0 ≤ max a.1 b.1 := le_max_of_le_left (h _ _ ha)
        refine ih hp ?_ ?_ ?_ <;> unfold addLink <;> simp only <;> split <;> (try split) <;> simp only <;> linarith

private theorem parts_total {t : Table} (op : Operand) {lv n : Nat} {p q : Parts} (hp : parts t op lv n p = .ok q)
    (hh : halfLinks t op lv n ≤ 1) (h0 : p.half = 0 ∨ halfLinks t op lv n = 0) :
    q.individual + q.half + q.shared = p.individual + p.half + p.shared + allLinks t op lv n := by
  induction n generalizing lv p with
  | zero => cases hp; simp [allLinks]
  | succ n ih =>
    unfold parts at hp
    cases ha : t.get? (op, lv, Dir.wrByHigh) with
    | none => rw [ha] at hp; cases hp
    | some a =>
      cases hb : t.get? (op, lv + 1, Dir.rdToLow) with
      | none => rw [ha, hb] at hp; cases hp
      | some b =>
        rw [ha, hb] at hp
        simp only at hp
        have hlt : linkTime t op lv = max a.1 b.1 := by unfold linkTime; rw [ha, hb]
        have hhs : halfShared t op lv = (a.2 != b.2) := by unfold halfShared; rw [ha, hb]
        have hal : allLinks t op lv (n + 1) = max a.1 b.1 + allLinks t op (lv + 1) n := by
          unfold allLinks
          rw [List.range'_succ, List.map_cons, List.sum_cons, hlt]
        have hhl : halfLinks t op lv (n + 1) = (if a.2 != b.2 then 1 else 0) + halfLinks t op (lv + 1) n := by
          unfold halfLinks
          rw [List.range'_succ, List.filter_cons, hhs]
          split
          · simp; omega
          · simp
        rw [hhl] at hh h0
        rw [hal]
        have hrec := ih hp
        cases h1 : a.2 <;> cases h2 : b.2 <;> rw [h1, h2] at hh h0 <;>
          simp only [addLink, h1, h2, bne_self_eq_false, Bool.not_false, Bool.not_true, Bool.and_self, Bool.and_false, Bool.and_true,
            if_true, if_false, Bool.false_eq_true, zero_add] at hrec hh h0
        · rw [hrec hh h0]; ring
        · have hz : halfLinks t op (lv + 1) n = 0 := by
            simp at hh; omega
          rw [hrec (by omega) (Or.inr hz)]
          have : p.half = 0 := by
            rcases h0 with h0 | h0
            · exact h0
            · simp at h0
          rw [this]; ring
        · have hz : halfLinks t op (lv + 1) n = 0 := by
            simp at hh; omega
          rw [hrec (by omega) (Or.inr hz)]
          have : p.half = 0 := by
            rcases h0 with h0 | h0
            · exact h0
            · simp at h0
          rw [this]; ring
        · rw [hrec hh h0]; ring

theorem onloading_nonneg {t : Table} (h : NonNeg t) {inputs : List (Operand × Nat)} {r : ℚ} (ho : onloading t inputs = .ok r) : 0 ≤ r := by
  unfold onloading at ho
  split at ho
  · cases ho
  · rename_i a n
    cases h1 : parts t a 0 n ⟨0, 0, 0⟩ with
    | error e => rw [h1] at ho; cases ho
    | ok p =>
      rw [h1] at ho
      cases ho
      exact (parts_nonneg h a h1 le_rfl le_rfl le_rfl).1
  · rename_i a n b m _
    cases h1 : parts t a 0 n ⟨0, 0, 0⟩ with
    | error e => rw [h1] at ho; cases ho
    | ok p =>
      rw [h1] at ho
      simp only at ho
      cases h2 : parts t b 0 m ⟨0, 0, 0⟩ with
      | error e => rw [h2] at ho; cases ho
      | ok q =>
        rw [h2] at ho
        cases ho
        have hp := parts_nonneg h a h1 le_rfl le_rfl le_rfl
        have hq := parts_nonneg h b h2 le_rfl le_rfl le_rfl
        unfold combine
        refine le_min ?_ ?_
        · exact add_nonneg hp.2.2 (le_max_of_le_right (by linarith [hp.1, hp.2.1]))
        · exact add_nonneg hq.2.2 (le_max_of_le_right (by linarith [hq.1, hq.2.1]))

theorem offloading_nonneg {t : Table} (h : NonNeg t) {lv n : Nat} {r : ℚ} (ho : offloading t lv n = .ok r) : 0 ≤ r := by
  induction n generalizing lv r with
  | zero => cases ho; exact le_rfl
  | succ n ih =>
    unfold offloading at ho
    cases ha : t.get? (Operand.out, lv, Dir.rdToHigh) with
    | none => rw [ha] at ho; cases ho
    | some a =>
      cases hb : t.get? (Operand.out, lv + 1, Dir.wrByLow) with
      | none => rw [ha, hb] at ho; cases ho
      | some b =>
        rw [ha, hb] at ho
        simp only at ho
        cases h1 : offloading t (lv + 1) n with
        | error e => rw [h1] at ho; cases ho
        | ok q =>
          rw [h1] at ho
          cases ho
          exact add_nonneg (le_max_of_le_left (h _ _ ha)) (ih h1)

/-- C30, partial: the latency figures of the complete loading computation are ordered, for any number of memory levels, ports and movements, when on
every port at most one movement happens once only, or the port has no spare cycles.  Missing: ports with several such movements and spare cycles, for
which the statement is false (`latency_ordered_false`). -/
theorem latency_ordered_partial {info : Info} {ports : List Port} {inputs : List (Operand × Nat)}
    {outLinks macs units totalCycle cyclesPerOp : Nat} {stall : ℚ} {r : Overall} (hp : ∀ p ∈ ports, Calm info p)
    (hw : macs ≤ units * totalCycle) (hs : 0 ≤ stall)
    (h : latency info ports inputs outLinks macs units totalCycle cyclesPerOp stall = .ok r) :
    (0 ≤ r.ideal ∧ r.ideal ≤ r.idealTemporal ∧ r.idealTemporal ≤ r.latency0 ∧ r.latency0 ≤ r.latency1 ∧ r.latency1 ≤ r.latency2) ∧
      (0 ≤ r.util2 ∧ r.util2 ≤ r.util1 ∧ r.util1 ≤ r.util0 ∧ r.util0 ≤ r.spatialUtil ∧ r.spatialUtil ≤ 1) := by
  unfold latency at h
  cases h1 : loadPorts info ports [] with
  | error e => rw [h1] at h; cases h
  | ok t =>
    rw [h1] at h
    simp only at h
    cases h2 : onloading t inputs with
    | error e => rw [h2] at h; cases h
    | ok on =>
      rw [h2] at h
      simp only at h
      cases h3 : offloading t 0 outLinks with
      | error e => rw [h3] at h; cases h
      | ok off =>
        rw [h3] at h
        simp only at h
        have ht : NonNeg t := loadPorts_nonneg hp h1 (fun k v hk => (by cases hk))
        exact overall_ordered h hw hs (onloading_nonneg ht h2) (offloading_nonneg ht h3)

/-- Two input operands in a register file, a shared buffer and a shared outer memory; all loops are at or below the buffer. -/
def badInfo : Info where
  count k := if k.2.1 = 0 ∨ (k.2.1 = 1 ∧ k.2.2 = .rdToLow) then 10 else 1
  real k := if k.2.1 = 0 ∨ (k.2.1 = 1 ∧ k.2.2 = .rdToLow) then 1 else if k.1 = .in1 then 10 else 9
  reqBw _ := 1
  bits _ := 16
  compute := 100

def badPorts : List Port :=
  [⟨16, [(.in1, 0, .wrByHigh), (.in2, 0, .wrByHigh)]⟩, ⟨16, [(.in1, 1, .rdToLow), (.in2, 1, .rdToLow)]⟩,
   ⟨8, [(.in1, 1, .wrByHigh), (.in2, 1, .wrByHigh)]⟩, ⟨8, [(.in1, 2, .rdToLow), (.in2, 2, .rdToLow)]⟩]

/-- C30 is false in general: the latency including on-loading is smaller than the latency without it, because the balanced reduction makes loading
cycles negative. -/
theorem latency_ordered_false : ∃ (info : Info) (ports : List Port) (r : Overall),
    latency info ports [(.in1, 2), (.in2, 2)] 0 100 1 100 1 0 = .ok r ∧ r.latency1 < r.latency0 := by
  have h : (match latency badInfo badPorts [(.in1, 2), (.in2, 2)] 0 100 1 100 1 0 with
      | .ok r => decide (r.latency1 < r.latency0) | .error _ => false) = true := by decide +kernel
  cases hl : latency badInfo badPorts [(.in1, 2), (.in2, 2)] 0 100 1 100 1 0 with
  | error e => rw [hl] at h; cases h
  | ok r =>
    rw [hl] at h
    exact ⟨badInfo, badPorts, r, hl, by simpa using h⟩

/-- C64, partial: for two input operands the on-loading time is at least the time of all links of each operand, and at most that of both together, when
each operand has at most one half-shared link.  Missing: several half-shared links (`onloading_half_false`) and layers with one input operand
(`onloading_single_false`), for which the lower bound is false. -/
theorem onloading_covers_partial {t : Table} (h : NonNeg t) {a b : Operand} {n m : Nat} {r : ℚ} (ha : halfLinks t a 0 n ≤ 1)
    (hb : halfLinks t b 0 m ≤ 1) (ho : onloading t [(a, n), (b, m)] = .ok r) :
    allLinks t a 0 n ≤ r ∧ allLinks t b 0 m ≤ r ∧ r ≤ allLinks t a 0 n + allLinks t b 0 m := by
  unfold onloading at ho
  simp only at ho
  cases h1 : parts t a 0 n ⟨0, 0, 0⟩ with
  | error e => rw [h1] at ho; cases ho
  | ok p =>
    rw [h1] at ho
    simp only at ho
    cases h2 : parts t b 0 m ⟨0, 0, 0⟩ with
    | error e => rw [h2] at ho; cases ho
    | ok q =>
      rw [h2] at ho
      cases ho
      have hp := parts_nonneg h a h1 le_rfl le_rfl le_rfl
      have hq := parts_nonneg h b h2 le_rfl le_rfl le_rfl
      have tp := parts_total a h1 ha (Or.inl rfl)
      have tq := parts_total b h2 hb (Or.inl rfl)
      simp only [add_zero, zero_add] at tp tq
      obtain ⟨p1, p2, p3⟩ := hp
      obtain ⟨q1, q2, q3⟩ := hq
      unfold combine
      have l1 := le_max_left (q.shared + q.half + q.individual) (p.half + p.individual)
      have l2 := le_max_right (q.shared + q.half + q.individual) (p.half + p.individual)
      have l3 := le_max_left (p.shared + p.half + p.individual) (q.half + q.individual)
      have l4 := le_max_right (p.shared + p.half + p.individual) (q.half + q.individual)
      refine ⟨?_, ?_, ?_⟩
      · refine le_min ?_ ?_ <;> linarith
      · refine le_min ?_ ?_ <;> linarith
      · refine (min_le_left _ _).trans ?_
        have : max (q.shared + q.half + q.individual) (p.half + p.individual)
            ≤ q.shared + q.half + q.individual + (p.half + p.individual) := max_le (by linarith) (by linarith)
        linarith

/-- C64 is false with two half-shared links: the time of the first one is lost. -/
theorem onloading_half_false : ∃ (t : Table) (r : ℚ), NonNeg t ∧ onloading t [(.in1, 2), (.in2, 0)] = .ok r ∧ r < linkTime t .in1 0 := by
  refine ⟨[((.in1, 0, .wrByHigh), (100, false)), ((.in1, 1, .rdToLow), (100, true)), ((.in1, 1, .wrByHigh), (1, true)),
    ((.in1, 2, .rdToLow), (1, false))], 1, ?_, by decide +kernel, by decide +kernel⟩
  intro k v hk
  have := Dict.mem_of_get? hk
  simp only [List.mem_cons, Prod.mk.injEq, List.not_mem_nil, or_false] at this
  rcases this with ⟨-, rfl⟩ | ⟨-, rfl⟩ | ⟨-, rfl⟩ | ⟨-, rfl⟩ <;> norm_num

/-- C64 is false for a layer with one input operand on ports that both operands may use: nothing is counted. -/
theorem onloading_single_false : ∃ (t : Table) (r : ℚ), NonNeg t ∧ onloading t [(.in1, 1)] = .ok r ∧ r = 0 ∧ 0 < linkTime t .in1 0 := by
  refine ⟨[((.in1, 0, .wrByHigh), (100, true)), ((.in1, 1, .rdToLow), (100, true))], 0, ?_, by decide +kernel, rfl, by decide +kernel⟩
  intro k v hk
  have := Dict.mem_of_get? hk
  simp only [List.mem_cons, Prod.mk.injEq, List.not_mem_nil, or_false] at this
  rcases this with ⟨-, rfl⟩ | ⟨-, rfl⟩ <;> norm_num

/-- A case that meets the conditions of `latency_ordered_partial`: separate ports. -/
def goodPorts : List Port :=
  [⟨16, [(.in1, 0, .wrByHigh)]⟩, ⟨16, [(.in1, 1, .rdToLow), (.in2, 1, .rdToLow)]⟩, ⟨16, [(.in2, 0, .wrByHigh)]⟩,
   ⟨8, [(.in1, 1, .wrByHigh)]⟩, ⟨8, [(.in2, 1, .wrByHigh)]⟩, ⟨8, [(.in1, 2, .rdToLow)]⟩, ⟨8, [(.in2, 2, .rdToLow)]⟩,
   ⟨8, [(.out, 0, .rdToHigh)]⟩, ⟨8, [(.out, 1, .wrByLow), (.out, 1, .rdToLow)]⟩]

example : ∀ p ∈ goodPorts, Calm badInfo p := by
  have : ∀ p ∈ goodPorts, (once badInfo p).length ≤ 1 := by decide +kernel
  exact fun p hp => Or.inl (this p hp)

example : (match latency badInfo goodPorts [(.in1, 2), (.in2, 2)] 1 100 1 100 1 7 with
    | .ok r => decide (r.latency0 = 107 ∧ r.latency1 = 110 ∧ r.latency2 = 112) | .error _ => false) = true := by decide +kernel

end Verif.Latency
