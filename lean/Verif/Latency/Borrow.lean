import Verif.Latency.Loading
import Verif.Conversion.Convert

/-! C93: bandwidth borrowed by transfers that happen once, and the instantaneous bandwidth of a memory level: `calc_loading_single_port_period_count_1`
(/repo/zigzag/cost_model/cost_model.py lines 865-878), `get_inst_bandwidth` and `get_total_inst_bandwidth` (lines 1115-1167). -/

namespace Verif.Latency

open Verif.Cme (Dir)

/-! ## Model -/

/-- `loading_cycles_during_computation[port]`, `loading_bw_during_computation[port]` and their totals. -/
structure Borrowed where
  cycles : Dict Operand ℚ
  bw : Dict Operand Int
  totalCycles : ℚ
  totalBw : Int

/-- Lines 838-878: what the transfers of a port that happen once borrow.  Both tables are indexed by the operand only. -/
def borrow (info : Info) (p : Port) : Except PyErr Borrowed :=
  if p.bw = 0 then .error .zeroDivision
  else
    match Balance.reduceBalanced ((once info p).map fun k => (info.real k : ℚ)) ((once info p).map (minCycles info p)) (surplus info p) with
    | .error e => .error e
    | .ok (_, reductions) =>
      if info.compute = 0 ∧ once info p ≠ [] then .error .zeroDivision
      else
        let es := (once info p).zip reductions
        let cycles := es.foldl (fun d e => Dict.set d e.1.1 e.2) ([] : Dict Operand ℚ)
        let bw := es.foldl (fun d e => Dict.set d e.1.1 ⌈e.2 / info.compute * p.bw⌉) ([] : Dict Operand Int)
        .ok { cycles := cycles, bw := bw, totalCycles := (cycles.map Prod.snd).sum, totalBw := (bw.map Prod.snd).sum }

/-- A memory level with its ports and what they borrow. -/
structure BwLevel where
  operands : List Operand
  ports : List (Port × Borrowed)

/-- Line 1152: the direction in which borrowed bandwidth is reported. -/
def BwLevel.target (lv : BwLevel) : Dir := if .out ∈ lv.operands then .wrByHigh else .rdToLow

/-- Lines 1143-1155: one port. -/
def addBorrowed (lv : BwLevel) (op : Operand) (scaling : ℚ) (bw : Dir → Int) (p : Port × Borrowed) : Dir → Int :=
  if (p.1.served.map Prod.fst).contains op then
    fun d => if d = lv.target then bw d + ⌈(((p.2.bw.get? op).getD 0 : Int) : ℚ) * scaling⌉ else bw d
  else bw

/-- `get_inst_bandwidth` (lines 1115-1156).  `req` is the instantaneous bandwidth of the operand at this level, `cyclesPerOp` is not zero. -/
def instBw (lv : BwLevel) (req : Operand → Dir → ℚ) (cyclesPerOp scaling : ℚ) (op : Operand) : Dir → Int :=
  lv.ports.foldl (addBorrowed lv op scaling) fun d => ⌈req op d * scaling / cyclesPerOp⌉

/-- `get_total_inst_bandwidth` (lines 1158-1167) -/
def totalInstBw (lv : BwLevel) (req : Operand → Dir → ℚ) (cyclesPerOp scaling : ℚ) : Dir → Int :=
  lv.operands.foldl (fun t op d => t d + instBw lv req cyclesPerOp scaling op d) fun _ => 0

/-! ## Specification and proofs -/

private theorem instBw_foldl (lv : BwLevel) (op : Operand) (s : ℚ) (ps : List (Port × Borrowed)) (bw : Dir → Int) (d : Dir) :
    ps.foldl (addBorrowed lv op s) bw d = bw d + if d = lv.target then
      ((ps.filter fun p => (p.1.served.map Prod.fst).contains op).map fun p => ⌈(((p.2.bw.get? op).getD 0 : Int) : ℚ) * s⌉).sum else 0 := by
  induction ps generalizing bw with
  | nil => simp
  | cons p ps ih =>
    rw [List.foldl_cons, ih, addBorrowed, List.filter_cons]
    by_cases hc : (p.1.served.map Prod.fst).contains op = true
    · rw [if_pos hc, if_pos hc]
      by_cases hd : d = lv.target
      · rw [if_pos hd, if_pos hd, if_pos hd, List.map_cons, List.sum_cons]; ring
      · rw [if_neg hd, if_neg hd, if_neg hd]
    · rw [if_neg hc, if_neg hc]

/-- The sum over the four directions. -/
def allDirs (bw : Dir → Int) : Int := bw .rdToHigh + bw .wrByHigh + bw .rdToLow + bw .wrByLow

/-- C93: what is reported for a level is the sum over its operands; in each direction it covers what the computation needs (scaled, spread over the
cycles of an operation); summed over the directions it is exactly what the computation needs, rounded up in every direction, plus what every port that
serves the operand lends to it. -/
theorem inst_bandwidth (lv : BwLevel) (req : Operand → Dir → ℚ) (c s : ℚ) :
    (∀ d, totalInstBw lv req c s d = (lv.operands.map fun op => instBw lv req c s op d).sum) ∧
      (∀ op d, d ≠ lv.target → instBw lv req c s op d = ⌈req op d * s / c⌉) ∧
      (0 ≤ s → (∀ p ∈ lv.ports, ∀ e ∈ p.2.bw, 0 ≤ e.2) → ∀ op d, req op d * s / c ≤ instBw lv req c s op d) ∧
      ∀ op, allDirs (instBw lv req c s op) = allDirs (fun d => ⌈req op d * s / c⌉) +
        ((lv.ports.filter fun p => decide (∃ k ∈ p.1.served, k.1 = op)).map fun p => ⌈(((p.2.bw.get? op).getD 0 : Int) : ℚ) * s⌉).sum := by
  refine ⟨fun d => ?_, fun op d hd => ?_, fun hs hp op d => ?_, fun op => ?_⟩
  · have : ∀ (l : List Operand) (t : Dir → Int), l.foldl (fun t op d => t d + instBw lv req c s op d) t d
        = t d + (l.map fun op => instBw lv req c s op d).sum := by
      intro l
      induction l with
      | nil => intro t; simp
      | cons x l ih => intro t; rw [List.foldl_cons, ih, List.map_cons, List.sum_cons]; ring
    unfold totalInstBw
    rw [this]; simp
  · unfold instBw
    rw [instBw_foldl, if_neg hd, add_zero]
  · unfold instBw
    rw [instBw_foldl]
    have h1 : (0 : Int) ≤ if d = lv.target then
      ((lv.ports.filter fun p => (p.1.served.map Prod.fst).contains op).map fun p => ⌈(((p.2.bw.get? op).getD 0 : Int) : ℚ) * s⌉).sum else 0 := by
      split
      · refine List.sum_nonneg fun x hx => ?_
        obtain ⟨p, hp', rfl⟩ := List.mem_map.1 hx
        refine Int.ceil_nonneg (mul_nonneg ?_ hs)
        cases hg : p.2.bw.get? op with
        | none => simp
        | some v =>
          have := hp p (List.mem_filter.1 hp').1 _ (Dict.mem_of_get? hg)
          simpa using this
      · exact le_rfl
    have h2 := Int.le_ceil (req op d * s / c)
    push_cast
    have h3 : (0 : ℚ) ≤ ((if d = lv.target then
      ((lv.ports.filter fun p => (p.1.served.map Prod.fst).contains op).map fun p => ⌈(((p.2.bw.get? op).getD 0 : Int) : ℚ) * s⌉).sum else 0 : Int) : ℚ) := by
      exact_mod_cast h1
    push_cast at h3
    linarith
  · have hf : (lv.ports.filter fun p => (p.1.served.map Prod.fst).contains op) = lv.ports.filter fun p => decide (∃ k ∈ p.1.served, k.1 = op) := by
      refine List.filter_congr fun p _ => ?_
      rw [Bool.eq_iff_iff]
      simp
    unfold allDirs instBw
    simp only [instBw_foldl, hf]
    unfold BwLevel.target
    split <;> simp <;> ring

/-- The recorded cycles of the transfers of a port that happen once, in the table of C92. -/
def recorded (t : Table) (k : Key) : ℚ := ((t.get? k).map Prod.fst).getD 0

/-- C93, partial: if all transfers of a port that happen once belong to different operands, then what each borrows is what the loading table saves on
it, the bandwidth over the computation carries the bits that were moved there, and the total is all that the port lends, at most its spare cycles.
Missing: a port with two one-time transfers of one operand (`borrow_lost_false`). -/
theorem borrow_table_partial {info : Info} {p : Port} {t t' : Table} {b : Borrowed} (h : borrow info p = .ok b) (ht : loadPort info p t = .ok t')
    (hs : p.served.Nodup) (hn : ((single info p).map Prod.fst).Nodup) (hc : 0 < info.compute) :
    (∀ k ∈ single info p, b.cycles.get? k.1 = some ((info.real k : ℚ) - recorded t' k) ∧
      ∃ w, b.bw.get? k.1 = some w ∧ ((info.real k : ℚ) - recorded t' k) * p.bw ≤ w * info.compute ∧
        (w - 1) * info.compute < ((info.real k : ℚ) - recorded t' k) * p.bw) ∧
      b.totalCycles = ((single info p).map fun k => (info.real k : ℚ) - recorded t' k).sum ∧
      b.totalCycles ≤ max 0 (spareCycles info p) := by
  obtain ⟨-, -, rem, d, g3, g4, g5⟩ := loadPort_spec ht hs
  unfold borrow at h
  split at h
  · cases h
  rw [g3] at h
  simp only at h
  rw [if_neg (by push Not; exact fun hz => absurd hz hc.ne')] at h
  simp only [Except.ok.injEq] at h
  obtain ⟨c1, c2, c3, c4, c5⟩ := Balance.balance_conserves g3
  rw [once_eq] at *
  rw [List.length_map] at c1 c2
  have hf1 : ((single info p).zip d).foldl (fun d e => Dict.set d e.1.1 e.2) ([] : Dict Operand ℚ)
      = ((single info p).zip d).map fun e => (e.1.1, e.2) := by
    have := Conversion.foldl_set_nodup (((single info p).zip d).map fun e => (e.1.1, e.2)) ([] : Dict Operand ℚ) (by
      unfold Dict.WF Dict.keys
      rw [List.nil_append, List.map_map]
      have : ((single info p).zip d).map (Prod.fst ∘ fun e => (e.1.1, e.2)) = (single info p).map Prod.fst := by
        conv_rhs => rw [← List.map_fst_zip (l₁ := single info p) (l₂ := d) (by omega), List.map_map]
        rfl
      rw [this]; exact hn)
    rw [List.foldl_map, List.nil_append] at this
    exact this
  have hf2 : ((single info p).zip d).foldl (fun d e => Dict.set d e.1.1 ⌈e.2 / info.compute * p.bw⌉) ([] : Dict Operand Int)
      = ((single info p).zip d).map fun e => (e.1.1, ⌈e.2 / info.compute * p.bw⌉) := by
    have := Conversion.foldl_set_nodup (((single info p).zip d).map fun e => (e.1.1, ⌈e.2 / info.compute * p.bw⌉)) ([] : Dict Operand Int) (by
      unfold Dict.WF Dict.keys
      rw [List.nil_append, List.map_map]
      have : ((single info p).zip d).map (Prod.fst ∘ fun e => (e.1.1, ⌈e.2 / info.compute * p.bw⌉)) = (single info p).map Prod.fst := by
        conv_rhs => rw [← List.map_fst_zip (l₁ := single info p) (l₂ := d) (by omega), List.map_map]
        rfl
      rw [this]; exact hn)
    rw [List.foldl_map, List.nil_append] at this
    exact this
  rw [hf1, hf2] at h
  have hw1 : Dict.WF (((single info p).zip d).map fun e => (e.1.1, e.2)) := by
    unfold Dict.WF Dict.keys
    rw [List.map_map]
    have : ((single info p).zip d).map (Prod.fst ∘ fun e => (e.1.1, e.2)) = (single info p).map Prod.fst := by
      conv_rhs => rw [← List.map_fst_zip (l₁ := single info p) (l₂ := d) (by omega), List.map_map]
      rfl
    rw [this]; exact hn
  have hw2 : Dict.WF (((single info p).zip d).map fun e => (e.1.1, ⌈e.2 / info.compute * p.bw⌉)) := by
    unfold Dict.WF Dict.keys
    rw [List.map_map]
    have : ((single info p).zip d).map (Prod.fst ∘ fun e => (e.1.1, ⌈e.2 / info.compute * p.bw⌉)) = (single info p).map Prod.fst := by
      conv_rhs => rw [← List.map_fst_zip (l₁ := single info p) (l₂ := d) (by omega), List.map_map]
      rfl
    rw [this]; exact hn
  have hval : ∀ (i : Nat) (k : Key) (x : ℚ), (single info p)[i]? = some k → d[i]? = some x → x = (info.real k : ℚ) - recorded t' k := by
    intro i k x hi hx
    have hil : i < (single info p).length := (List.getElem?_eq_some_iff.1 hi).1
    have hr : rem[i]? = some rem[i] := List.getElem?_eq_getElem (by omega)
    have h1 := g5 i k _ hi hr
    have h2 := c3 i
    rw [List.getD_eq_getElem?_getD, List.getD_eq_getElem?_getD, List.getD_eq_getElem?_getD, hr, hx, List.getElem?_map, hi] at h2
    simp only [Option.getD_some, Option.map_some] at h2
    unfold recorded
    rw [h1]
    simp only [Option.map_some, Option.getD_some]
    linarith
  subst h
  simp only
  have hdl : d = (single info p).map fun k => (info.real k : ℚ) - recorded t' k := by
    refine List.ext_getElem (by rw [List.length_map]; exact c2) fun i h1 h2 => ?_
    rw [List.getElem_map]
    exact hval i _ _ (List.getElem?_eq_getElem (by simpa using h2)) (List.getElem?_eq_getElem h1)
  have hsum : ((((single info p).zip d).map fun e => (e.1.1, e.2)).map Prod.snd).sum = d.sum := by
    rw [List.map_map]
    have : ((single info p).zip d).map (Prod.snd ∘ fun e => (e.1.1, e.2)) = d := by
      conv_rhs => rw [← List.map_snd_zip (l₁ := single info p) (l₂ := d) (by omega)]
      rfl
    rw [this]
  refine ⟨fun k hk => ?_, ?_, ?_⟩
  · obtain ⟨i, hi⟩ := List.getElem?_of_mem hk
    have hil : i < (single info p).length := (List.getElem?_eq_some_iff.1 hi).1
    have hx : d[i]? = some d[i] := List.getElem?_eq_getElem (by omega)
    have hv := hval i k _ hi hx
    have hm : (k, d[i]) ∈ (single info p).zip d := List.mem_of_getElem? (List.getElem?_zip_eq_some.2 ⟨hi, hx⟩)
    refine ⟨?_, ⌈d[i] / info.compute * p.bw⌉, ?_, ?_, ?_⟩
    · rw [Dict.get?_of_mem hw1 (List.mem_map.2 ⟨_, hm, rfl⟩), hv]
    · exact Dict.get?_of_mem hw2 (List.mem_map.2 ⟨_, hm, rfl⟩)
    · rw [← hv]
      have := Int.le_ceil (d[i] / info.compute * p.bw)
      have h2 := mul_le_mul_of_nonneg_right this hc.le
      have h3 : d[i] / info.compute * p.bw * info.compute = d[i] * p.bw := by field_simp
      linarith
    · rw [← hv]
      have := Int.ceil_lt_add_one (d[i] / info.compute * p.bw)
      have h2 := mul_lt_mul_of_pos_right this hc
      have h3 : (d[i] / info.compute * p.bw + 1) * info.compute = d[i] * p.bw + info.compute := by field_simp
      linarith
  · rw [hsum]; rw [← hdl]
  · rw [hsum, surplus_eq, max_eq_left (le_max_left (0 : ℚ) _)] at *
    exact c5

/-- One operand, two one-time transfers on one port: filled from above and read towards below. -/
def lostPort : Port := ⟨8, [(.in1, 1, .wrByHigh), (.in1, 1, .rdToLow)]⟩
def lostInfo : Info where
  count _ := 1
  real k := if k.2.2 = .wrByHigh then 12 else 10
  reqBw _ := 0
  bits _ := 8
  compute := 4

/-- C93 is false for a port that serves two one-time transfers of the same operand: the table of borrowed cycles is indexed by the operand, the second
transfer overwrites the first, and the total that the port lends is smaller than what the loading table saves. -/
theorem borrow_lost_false : ∃ (b : Borrowed) (t : Table), borrow lostInfo lostPort = .ok b ∧ loadPort lostInfo lostPort [] = .ok t ∧
    b.totalCycles < ((single lostInfo lostPort).map fun k => (lostInfo.real k : ℚ) - recorded t k).sum := by
  have h : (match borrow lostInfo lostPort, loadPort lostInfo lostPort [] with
    | .ok b, .ok t => decide (b.totalCycles < ((single lostInfo lostPort).map fun k => (lostInfo.real k : ℚ) - recorded t k).sum)
    | _, _ => false) = true := by decide +kernel
  cases hb : borrow lostInfo lostPort with
  | error e => rw [hb] at h; cases h
  | ok b =>
    cases ht : loadPort lostInfo lostPort [] with
    | error e => rw [hb, ht] at h; cases h
    | ok t => rw [hb, ht] at h; exact ⟨b, t, rfl, rfl, by simpa using h⟩

def weightPort : Port := ⟨8, [(.in2, 0, .wrByHigh)]⟩
def weightInfo : Info := { lostInfo with real := fun _ => 10 }

/-- C93 is false by direction: a weight memory whose only port is filled once from above borrows bandwidth for writing, but the bandwidth is reported
as reading towards the level below, and nothing is reported for writing. -/
theorem direction_false : ∃ b : Borrowed, borrow weightInfo weightPort = .ok b ∧
    instBw ⟨[.in2], [(weightPort, b)]⟩ (fun _ _ => 0) 1 1 .in2 .wrByHigh = 0 ∧
    0 < instBw ⟨[.in2], [(weightPort, b)]⟩ (fun _ _ => 0) 1 1 .in2 .rdToLow := by
  have h : (match borrow weightInfo weightPort with
    | .ok b => decide (instBw ⟨[.in2], [(weightPort, b)]⟩ (fun _ _ => 0) 1 1 .in2 .wrByHigh = 0 ∧
      0 < instBw ⟨[.in2], [(weightPort, b)]⟩ (fun _ _ => 0) 1 1 .in2 .rdToLow)
    | _ => false) = true := by decide +kernel
  cases hb : borrow weightInfo weightPort with
  | error e => rw [hb] at h; cases h
  | ok b => rw [hb] at h; exact ⟨b, rfl, by simpa using h⟩

/-- Two operands on one port, each filled once. -/
def lendPort : Port := ⟨8, [(.in1, 1, .wrByHigh), (.in2, 1, .wrByHigh)]⟩

example : lendPort.served.Nodup ∧ ((single lostInfo lendPort).map Prod.fst).Nodup := by decide
example : (match borrow lostInfo lendPort with | .ok b => decide (b.totalCycles = 4 ∧ b.totalBw = 8) | .error _ => false) = true := by decide +kernel
example : (match borrow lostInfo lendPort with
  | .ok b => decide (totalInstBw ⟨[.in1, .in2, .out], [(lendPort, b)]⟩ (fun _ _ => 3) 2 1 .wrByHigh = 14 ∧ ∀ e ∈ b.bw, 0 ≤ e.2)
  | .error _ => false) = true := by decide +kernel

end Verif.Latency
