import Verif.Evaluate.Roofline

/-! C142: the accesses and memory energies that an evaluation reports, from the loops of the mapping. -/

namespace Verif.Evaluate

open Cme (Dir FourWay)
open MapInfo
open Decouple (TDim decouple layerEnv pyGet)
open LayerNode (Relation)
open Latency (Operand Key)
open Energy (trunc)

variable {Dim : Type} [DecidableEq Dim]

/-- The accesses with the full width of a port for `n` transfers of `bits` each, of which every one is filled up to a multiple of the smallest
access. -/
def words (p : Port) (bits n : ℚ) : ℤ := ⌊(⌈bits / p.bwMin⌉ : ℚ) * p.bwMin * n / p.bwMax⌋

/-- Outside the `i` innermost levels and the array below the next one results are accumulated: a loop runs over a dimension that the operand does
not have. -/
def Accumulates (c : Cfg Dim) (rl : List Dim) (i : Nat) : Prop := ∃ l ∈ outside c.su c.tm i (i + 1), l.1 ∉ rl ∧ 1 < l.2

theorem memAccess_words {amount precision count units : ℚ} (p : Port) (h1 : 0 ≤ amount) (h2 : 0 ≤ precision) (h3 : 0 ≤ count) (h4 : 0 ≤ units) :
    Energy.memAccess amount precision count p.bwMax p.bwMin units = words p (amount * precision) (count * units) := by
  unfold Energy.memAccess words
  split_ifs with h0
  · have : amount * precision = 0 := by rcases h0 with h | h <;> simp [h]
    simp [this]
  · have hc : (0 : ℚ) ≤ (⌈amount * precision / p.bwMin⌉ : ℚ) := by exact_mod_cast Int.ceil_nonneg (by positivity)
    unfold Energy.trunc
    rw [if_pos (by positivity)]
    congr 1
    ring

/-! ### One operand -/

section operand
variable {c : Cfg Dim} {rl : List Dim} {rels : List (Relation Dim)} (hv : Valid c rl rels) (hw : Whole c)
include hv hw

/-- The units of a level are the product of the spatial loops above it. -/
theorem units_get {rs : Lv (TDim Dim)} (h : decouple (layerEnv c.L c.rel) c.su = .ok rs) {lv : Nat} (hl : lv < c.su.length) :
    ∃ z : ℤ, (SpatialInternal.unitCount rs)[lv]? = some z ∧ (z : ℚ) = iters (c.su.drop lv).flatten := by
  have hprod := Decouple.decouple_product hv.lutWF hv.uniq h
  have hlen : rs.length = c.su.length := by simpa using congrArg List.length hprod
  obtain ⟨u, d, -, -, h1, h2⟩ := SpatialInternal.unit_count_factors (isR c) rs lv (by omega)
  have e : ((rs.drop lv).flatten.map Prod.snd).prod = iters (c.su.drop lv).flatten := by
    unfold iters
    rw [List.map_flatten, List.prod_flatten, List.map_flatten, List.prod_flatten, List.map_map, List.map_map]
    have := congrArg (fun l => (l.drop lv).prod) hprod
    simp only [List.map_drop]
    exact this
  obtain ⟨n, hn⟩ : ∃ n : ℕ, iters (c.su.drop lv).flatten = n := iters_nat (fun l hl => hw l (by
    obtain ⟨a, ha, hla⟩ := List.mem_flatten.1 hl
    exact List.mem_append_right _ (List.mem_flatten.2 ⟨a, List.mem_of_mem_drop ha, hla⟩)))
  refine ⟨n, h2 n (by rw [h1, e, hn]; simp), by rw [hn]; simp⟩

private theorem count_low {t : Tables Dim} {prec : List ℚ} {out : Bool} {lvl : Nat} {s : Side} (hl : lvl < c.tm.length)
    (hT : c.totalCycle = iters c.tm.flatten) (hc : c.noAccess = false ∨ out = true ∨ lvl ≠ 0) (h : lowSide c t prec out lvl = .ok s) :
    s.count = iters (c.tm.drop lvl).flatten := by
  obtain ⟨pr, cy, f, d, _, h2, _, _, _, _, _, h7, _⟩ := lowSide_unfold h
  rw [cycles_get c out lvl (Nat.le_of_lt hl) hc] at h2
  cases h2
  rw [h7, count_eq hv hw hT lvl]

private theorem count_high {t : Tables Dim} {prec : List ℚ} {out : Bool} {lvl : Nat} {s : Side} (hl : lvl < c.tm.length)
    (hT : c.totalCycle = iters c.tm.flatten) (h : highSide c t prec out lvl = .ok s) : s.count = iters (c.tm.drop (lvl + 1)).flatten := by
  obtain ⟨pr, cy, d, _, h2, _, _, _, _, h7, _⟩ := highSide_unfold h
  rw [cycles_get c out (lvl + 1) hl (Or.inr (Or.inr (by omega)))] at h2
  cases h2
  rw [h7, count_eq hv hw hT (lvl + 1)]

/-- The transfers of an input operand at one level. -/
theorem input_sides (hpr : c.rel.pr = []) {ps : List Pattern} (h : inputMoves c = .ok ps) {lvl : Nat} (hl : lvl < c.tm.length)
    (hT : c.totalCycle = iters c.tm.flatten) (hn : c.noAccess = false ∨ lvl ≠ 0) :
    ∃ p, ps[lvl]? = some p ∧ p.amount.wrByLow = 0 ∧ p.amount.rdToHigh = 0 ∧ p.amount.rdToLow = elements rl rels (tileOf (inside c.su c.tm lvl (lvl + 1))) ∧
      p.precision.rdToLow = c.precision ∧ p.periodCount.rdToLow = iters (c.tm.drop lvl).flatten ∧
      (lvl + 1 = c.tm.length → p.amount.wrByHigh = 0) ∧
      (lvl + 1 < c.tm.length → p.amount.wrByHigh = elements rl rels (tileOf (inside c.su c.tm (lvl + 1) (lvl + 1))) ∧
        p.precision.wrByHigh = c.precision ∧ p.periodCount.wrByHigh = iters (c.tm.drop (lvl + 1)).flatten) := by
  obtain ⟨_, t, ht, hp⟩ := inputMoves_get h
  obtain ⟨p, hpat, hget⟩ := hp lvl hl
  obtain ⟨lo, hi, i, _, hlo, hhi, _, e0, _, _, _, e1, e2, _⟩ := inputPattern_unfold hpat
  have hc : c.noAccess = false ∨ false = true ∨ lvl ≠ 0 := by
    rcases hn with h | h
    · exact Or.inl h
    · exact Or.inr (Or.inr h)
  have hs := (low_side hv hw hpr ht hl hT hc hlo).1
  have hs2 := (high_side hv hw ht hl (exact_plain hv hpr _) hT hhi).1
  have k1 := count_low hv hw hl hT hc hlo
  have k2 := count_high hv hw hl hT hhi
  refine ⟨_, hget, ?_⟩
  unfold topCut
  by_cases htop : lvl + 1 = c.tm.length
  · rw [if_pos htop]
    refine ⟨?_, rfl, ?_, ?_, ?_, fun _ => rfl, fun hc => absurd htop (by omega)⟩
    · change p.amount.wrByLow = 0; rw [e2]; rfl
    · change p.amount.rdToLow = _; rw [e2]; exact hs
    · change p.precision.rdToLow = _; rw [e0]; rfl
    · change p.periodCount.rdToLow = _; rw [e1]; exact k1
  · rw [if_neg htop, e0, e1, e2]
    exact ⟨rfl, rfl, hs, rfl, k1, fun hc => absurd hc htop, fun _ => ⟨hs2, rfl, k2⟩⟩

omit hw in
/-- Partial sums are kept where results are accumulated outside. -/
theorem flag_iff (hpr : c.rel.pr = []) {t : Tables Dim} (ht : tables c = .ok t) {i : Nat} (hi : i ≤ c.tm.length) {b : Bool}
    (hb : pyGet (psumFlags (isIr c) t.ra) i = .ok b) : b = true ↔ Accumulates c rl i := by
  obtain ⟨rs, ab, ra, rb, _, _, h3, h4, _, _, _, e1, _⟩ := tables_unfold ht
  obtain ⟨a, b', hab, la, _, _, hout, pa, _⟩ := combine_ok hv.levels
  rw [hab] at h3; cases h3
  simp only at h4
  have hra := hv.plain hpr h4
  have lra : ra.length = c.su.length := by rw [hra]; simp [la]
  have hpl' := pyGet_of hb
  rw [e1, psum_get _ _ _ (by rw [lra, hv.levels]; omega)] at hpl'
  have hperm := hout i hi
  have hirr : ∀ l ∈ outside c.su c.tm i (i + 1), 1 < l.2 → (l.1 ∈ c.rel.ir ↔ l.1 ∉ rl) := by
    intro l hl' h1
    have hm := outside_sub l hl'
    have := (hv.plain_sel hpr (ls := [l]) (by simpa using hm)).2
    rw [selP_cons, selP_cons] at this
    by_cases x1 : l.1 ∈ c.rel.ir <;> by_cases x2 : l.1 ∈ rl <;> simp [x1, x2, selP] at this ⊢ <;> linarith
  have hpl'' : ((ra.drop (i + 1)).flatten.any (fun x => isIr c x.1 && decide (1 < x.2))) = b := by injection hpl'
  unfold Accumulates
  rw [← hpl'', List.any_eq_true, hra, ← List.map_drop, ← List.map_flatten]
  constructor
  · rintro ⟨x, hx, hxx⟩
    obtain ⟨l, hl', rfl⟩ := List.mem_map.1 hx
    have hlo' := hperm.mem_iff.1 hl'
    simp only [isIr, Bool.and_eq_true, decide_eq_true_eq] at hxx
    exact ⟨l, hlo', (hirr l hlo' hxx.2).1 hxx.1, hxx.2⟩
  · rintro ⟨l, hl', h1, h2⟩
    refine ⟨_, List.mem_map.2 ⟨l, hperm.mem_iff.2 hl', rfl⟩, ?_⟩
    simp only [isIr, Bool.and_eq_true, decide_eq_true_eq]
    exact ⟨(hirr l hl' h2).2 h1, h2⟩

open Classical in
/-- The transfers of the output operand at one level. -/
theorem output_sides (hpr : c.rel.pr = []) {ps : List Pattern} (h : outputMoves c = .ok ps) {lvl : Nat} (hl : lvl < c.tm.length)
    (hT : c.totalCycle = iters c.tm.flatten) :
    ∃ p, ps[lvl]? = some p ∧ p.amount.wrByLow = elements rl rels (tileOf (inside c.su c.tm lvl (lvl + 1))) ∧
      p.precision.wrByLow = (if Accumulates c rl lvl then c.precision else c.finalPrecision) ∧
      p.periodCount.wrByLow = iters (c.tm.drop lvl).flatten ∧
      (¬ Accumulates c rl lvl → p.amount.rdToLow = 0) ∧
      (Accumulates c rl lvl → p.amount.rdToLow = elements rl rels (tileOf (inside c.su c.tm lvl (lvl + 1))) ∧ p.precision.rdToLow = c.precision ∧
        p.periodCount.rdToLow = iters (c.tm.drop lvl).flatten) ∧
      (lvl + 1 = c.tm.length → p.amount.rdToHigh = 0 ∧ p.amount.wrByHigh = 0) ∧
      (lvl + 1 < c.tm.length → p.amount.rdToHigh = elements rl rels (tileOf (inside c.su c.tm (lvl + 1) (lvl + 1))) ∧
        p.precision.rdToHigh = (if Accumulates c rl (lvl + 1) then c.precision else c.finalPrecision) ∧
        p.periodCount.rdToHigh = iters (c.tm.drop (lvl + 1)).flatten ∧
        (¬ Accumulates c rl (lvl + 1) → p.amount.wrByHigh = 0) ∧
        (Accumulates c rl (lvl + 1) → p.amount.wrByHigh = elements rl rels (tileOf (inside c.su c.tm (lvl + 1) (lvl + 1))) ∧
          p.precision.wrByHigh = c.precision ∧ p.periodCount.wrByHigh = iters (c.tm.drop (lvl + 1)).flatten)) := by
  have he := exact_plain hv hpr
  obtain ⟨_, t, s, ht, _, hp⟩ := outputMoves_get h
  obtain ⟨p, hpat, hget⟩ := hp lvl hl
  obtain ⟨prec, lo, hi, pl, ph, i, _, _, hlo, hhi, hpl, hph, _, e0, _, _, _, e1, e2, _⟩ := outputPattern_unfold hpat
  have hs := (low_side hv hw hpr ht hl hT (Or.inr (Or.inl rfl)) hlo).1
  have ht' : ((trunc lo.amount : ℤ) : ℚ) = elements rl rels (tileOf (inside c.su c.tm lvl (lvl + 1))) := by rw [hs, trunc_nat]; simp
  have hs2 := (high_side hv hw ht hl (he _) hT hhi).1
  have k1 := count_low hv hw hl hT (Or.inr (Or.inl rfl)) hlo
  have k2 := count_high hv hw hl hT hhi
  have f1 := flag_iff hv hpr ht (Nat.le_of_lt hl) hpl
  have f2 := flag_iff hv hpr ht (i := lvl + 1) hl hph
  -- the number of partial sums
  have hm : ∀ l, l < c.tm.length → ∀ p', ps[l]? = some p' → (p'.moves.rdToLow ≠ 0 ↔ Accumulates c rl l) := by
    intro l hl' p' hp'
    obtain ⟨q, hq, a1, a2⟩ := output_psum_partial hv hw hpr h hl'
    rw [hp'] at hq; cases hq
    by_cases ha : Accumulates c rl l
    · exact ⟨fun _ => ha, fun _ => (a1 ha).1.ne'⟩
    · exact ⟨fun hne => absurd (a2 ha).1 hne, fun hc => absurd hc ha⟩
  have m1 : p.moves.rdToLow ≠ 0 ↔ Accumulates c rl lvl := by
    rw [← hm lvl hl _ hget]
    have : (topCut c.tm.length lvl p).moves.rdToLow = p.moves.rdToLow := by unfold topCut; split_ifs <;> rfl
    rw [this]
  have p1 : p.precision.wrByLow = if Accumulates c rl lvl then c.precision else c.finalPrecision := by
    rw [e0]; unfold outputPrec; simp only [m1]
  have p2 : Accumulates c rl lvl → p.precision.rdToLow = c.precision := by
    intro ha; rw [e0]; unfold outputPrec; simp only [if_pos (m1.2 ha)]
  have am : p.amount = outWay pl ph (trunc lo.amount) hi.amount := e2
  have r1 : ¬ Accumulates c rl lvl → p.amount.rdToLow = 0 := by
    intro ha
    have : pl = false := by rw [← Bool.not_eq_true, f1]; exact ha
    rw [am, this]; rfl
  have r2 : Accumulates c rl lvl → p.amount.rdToLow = elements rl rels (tileOf (inside c.su c.tm lvl (lvl + 1))) ∧ p.precision.rdToLow = c.precision ∧
      p.periodCount.rdToLow = iters (c.tm.drop lvl).flatten := by
    intro ha
    refine ⟨?_, p2 ha, ?_⟩
    · rw [am, f1.2 ha]; exact ht'
    · rw [e1, f1.2 ha]; exact k1
  have w1 : p.amount.wrByLow = elements rl rels (tileOf (inside c.su c.tm lvl (lvl + 1))) := by rw [am]; exact ht'
  have w2 : p.periodCount.wrByLow = iters (c.tm.drop lvl).flatten := by rw [e1]; exact k1
  refine ⟨_, hget, ?_⟩
  by_cases htop : lvl + 1 = c.tm.length
  · unfold topCut
    rw [if_pos htop]
    exact ⟨w1, p1, w2, r1, r2, fun _ => ⟨rfl, rfl⟩, fun hc => absurd htop (by omega)⟩
  · have hlt : lvl + 1 < c.tm.length := by omega
    have m2 : p.moves.wrByHigh ≠ 0 ↔ Accumulates c rl (lvl + 1) := by
      obtain ⟨p', hp', _, _, _, hnext, _⟩ := output_traffic_partial hv hw h hl (he _) (he _) (he _)
      rw [hget] at hp'
      obtain ⟨q, _, hq⟩ := hp (lvl + 1) hlt
      have := (hnext _ hq).1
      have e : p'.moves.wrByHigh = p.moves.wrByHigh := by
        cases hp'; unfold topCut; rw [if_neg htop]
      rw [← e, this, hm _ hlt _ hq]
    unfold topCut
    rw [if_neg htop]
    refine ⟨w1, p1, w2, r1, r2, fun hc => absurd hc htop, fun _ => ⟨?_, ?_, ?_, ?_, ?_⟩⟩
    · rw [am]; exact hs2
    · rw [e0]; unfold outputPrec; simp only [m2]
    · rw [e1]; exact k2
    · intro ha
      have : ph = false := by rw [← Bool.not_eq_true, f2]; exact ha
      rw [am, this]; rfl
    · intro ha
      refine ⟨?_, ?_, ?_⟩
      · rw [am, f2.2 ha]; exact hs2
      · rw [e0]; unfold outputPrec; simp only [if_pos (m2.2 ha)]
      · rw [e1, f2.2 ha]; exact k2

end operand

/-! ### The whole evaluation -/

variable {h : Hw} {j : Job Dim} {rl : Operand → List Dim} {rels : List (Relation Dim)} {loops array : List (Dim × ℚ)}

/-- What is reported for one operand and level: the accesses, which follow from the transfers, and their energy. -/
theorem entry (R : Mapped h j rl rels loops array) {r : Result} (hr : evaluate h j = .ok r) {op : Operand} (ho : op ∈ j.ops)
    (V : Valid (cfg h j false op) (rl op) rels) (W : Whole (cfg h j false op)) {lv : Nat} {m : Mem} (hm : (h.levels op)[lv]? = some m) :
    ∃ i q acc row a, Good h j false op i ∧ i.moves[lv]? = some q ∧ r.energy.access.get? op = some acc ∧ r.energy.breakdown.get? op = some row ∧
      acc[lv]? = some a ∧
      row[lv]? = some ((a.rdToLow + a.rdToHigh) * m.readEnergy + (a.wrByLow + a.wrByHigh) * m.writeEnergy) ∧
      (∀ d, q.amount.get d = 0 → a.get d = 0) ∧
      ∀ d, 0 ≤ q.amount.get d → 0 ≤ q.precision.get d → 0 ≤ q.periodCount.get d → ∀ p ∈ m.ports, (op, lv, d) ∈ p.served →
        a.get d = words p (q.amount.get d * q.precision.get d) (q.periodCount.get d * iters ((cfg h j false op).su.drop (lv + 1)).flatten) := by
  obtain ⟨fr, it, hfr, -, -, hen, -⟩ := parts R hr
  obtain ⟨fr', f1, f2, f3⟩ := mapping_ok R false
  rw [hfr] at f1
  cases f1
  obtain ⟨i, hi, G⟩ := f3 op ho
  have hwf : Dict.WF (fr.map fun e => (e.1, opData h e.1 e.2)) := by
    unfold Dict.WF Dict.keys
    rw [List.map_map]
    change (fr.map Prod.fst).Nodup
    rw [f2]; exact R.ops
  have hmem : (op, opData h op i) ∈ fr.map fun e => (e.1, opData h e.1 e.2) :=
    List.mem_map.2 ⟨(op, i), Dict.mem_of_get? hi, rfl⟩
  obtain ⟨-, -, -, -, -, -, hall⟩ := Energy.energy_breakdown hwf hen
  obtain ⟨acc, row, fur, ha, hrow, -, -, -, -, hpaid⟩ := hall _ _ hmem
  obtain ⟨-, hlen, -⟩ := R.tm op ho
  have hlt : lv < (h.levels op).length := (List.getElem?_eq_some_iff.1 hm).1
  have hmv : lv < i.moves.length := by rw [G.movesLength]; omega
  have hmin : m ∈ h.mems := R.built.inside op m (List.mem_of_getElem? hm)
  have hsu : (cfg h j false op).su.length = (j.tm op).length + 1 := V.levels
  obtain ⟨z, hz, hz'⟩ := units_get V W G.reform (lv := lv + 1) (by omega)
  have hlv : (opData h op i).levels[lv]? = some ⟨m.readEnergy, m.writeEnergy, m.bw Port.bwMax op, m.bw Port.bwMin op⟩ := by
    simp only [opData, List.getElem?_map, hm, Option.map_some]
  obtain ⟨a, ha', hdir⟩ := Energy.table_access hwf hen hmem ha (j := lv)
    (m := ⟨i.moves[lv].amount, i.moves[lv].precision, i.moves[lv].periodCount⟩)
    (by simp only [opData, List.getElem?_map, List.getElem?_eq_getElem hmv, Option.map_some]) hlv (u := (z : ℚ))
    (by simp only [opData, List.getElem?_map, hz, Option.map_some])
  have hu : (0 : ℚ) ≤ z := by
    rw [hz']
    obtain ⟨n, hn⟩ : ∃ n : ℕ, iters ((cfg h j false op).su.drop (lv + 1)).flatten = n := iters_nat (fun l hl => W l (by
      obtain ⟨x, hx, hlx⟩ := List.mem_flatten.1 hl
      exact List.mem_append_right _ (List.mem_flatten.2 ⟨x, List.mem_of_mem_drop hx, hlx⟩)))
    rw [hn]; positivity
  refine ⟨i, i.moves[lv], acc, row, a, G, List.getElem?_eq_getElem hmv, ha, hrow, ha', (hpaid lv a _ ha' hlv).1, ?_, ?_⟩
  · intro d hd
    obtain ⟨x, hx, hget⟩ := hdir d
    rw [hget]
    unfold Energy.dirAccess at hx
    split at hx
    · rw [if_pos hd] at hx; cases hx; rfl
    · split at hx
      · cases hx
        unfold Energy.memAccess
        rw [if_pos (Or.inl hd)]; rfl
      · cases hx
    · cases hx
  · intro d d1 d2 d3 p hp hk
    obtain ⟨x, hx, hget⟩ := hdir d
    have hpp := mem_ports hmin hp
    have hb : ∀ f : Port → Nat, m.bw f op d = some (f p) := by
      intro f
      have := bw_served R.built hpp hk f
      unfold Hw.bw at this
      rw [hm] at this
      exact this
    obtain ⟨b1, b2⟩ := R.built.bw p hpp
    unfold Energy.dirAccess at hx
    simp only [hb, ne_eq, b1, b2, not_false_eq_true, and_self, if_true] at hx
    cases hx
    rw [hget, memAccess_words p d1 d2 d3 hu, hz']

/-- C142: for an input operand without partially relevant dimensions, the accesses of a memory for reads are those of the elements of the tile below,
for every iteration of the loops outside, with the port that serves them; likewise for writes from above, and there are no others.  The energy is
accesses times the price. -/
theorem input_accesses_partial (R : Mapped h j rl rels loops array) {r : Result} (hr : evaluate h j = .ok r) {op : Operand} (ho : op ∈ j.ops)
    (hop : op ≠ .out) (V : Valid (cfg h j false op) (rl op) rels) (W : Whole (cfg h j false op)) (hpr : (j.rel op).pr = []) {lv : Nat} {m : Mem}
    (hm : (h.levels op)[lv]? = some m) (hn : j.noAccess = false ∨ lv ≠ 0) :
    ∃ acc row a, r.energy.access.get? op = some acc ∧ r.energy.breakdown.get? op = some row ∧ acc[lv]? = some a ∧
      row[lv]? = some ((a.rdToLow + a.rdToHigh) * m.readEnergy + (a.wrByLow + a.wrByHigh) * m.writeEnergy) ∧
      a.wrByLow = 0 ∧ a.rdToHigh = 0 ∧
      (∀ p ∈ m.ports, (op, lv, Dir.rdToLow) ∈ p.served → a.rdToLow =
        words p (elements (rl op) rels (tileOf (inside (j.su op) (j.tm op) lv (lv + 1))) * j.precision op)
          (iters (outside (j.su op) (j.tm op) lv (lv + 1)))) ∧
      (lv + 1 = (h.levels op).length → a.wrByHigh = 0) ∧
      (lv + 1 < (h.levels op).length → ∀ p ∈ m.ports, (op, lv, Dir.wrByHigh) ∈ p.served → a.wrByHigh =
        words p (elements (rl op) rels (tileOf (inside (j.su op) (j.tm op) (lv + 1) (lv + 1))) * j.precision op)
          (iters (outside (j.su op) (j.tm op) (lv + 1) (lv + 1)))) := by
  obtain ⟨i, q, acc, row, a, G, hq, h1, h2, h3, h4, hz, hword⟩ := entry R hr ho V W hm
  obtain ⟨htm, hlen, -⟩ := R.tm op ho
  have hlt : lv < (h.levels op).length := (List.getElem?_eq_some_iff.1 hm).1
  have hmv := G.moves
  rw [if_neg hop] at hmv
  have hT : (cfg h j false op).totalCycle = iters (cfg h j false op).tm.flatten := by
    change j.totalCycle = iters (j.tm op).flatten
    rw [htm, R.total]
  have hl' : lv < (cfg h j false op).tm.length := by change lv < (j.tm op).length; omega
  have hlen' : (cfg h j false op).tm.length = (h.levels op).length := hlen
  obtain ⟨q', hq', s1, s2, s3, s4, s5, s6, s7⟩ := input_sides V W hpr hmv hl' hT hn
  rw [hq] at hq'; cases hq'
  have it0 : ∀ (k : Nat), 0 ≤ iters ((cfg h j false op).tm.drop k).flatten := by
    intro k
    obtain ⟨n, hn⟩ : ∃ n : ℕ, iters ((cfg h j false op).tm.drop k).flatten = n := iters_nat (fun l hl => W l (by
      obtain ⟨x, hx, hlx⟩ := List.mem_flatten.1 hl
      exact List.mem_append_left _ (List.mem_flatten.2 ⟨x, List.mem_of_mem_drop hx, hlx⟩)))
    rw [hn]; positivity
  have hp0 : (0 : ℚ) ≤ (cfg h j false op).precision := by change (0 : ℚ) ≤ ((j.precision op : ℕ) : ℚ); positivity
  refine ⟨acc, row, a, h1, h2, h3, h4, hz .wrByLow s1, hz .rdToHigh s2, ?_, ?_, ?_⟩
  · intro p hp hk
    have := hword .rdToLow (by change 0 ≤ q.amount.rdToLow; rw [s3]; positivity) (by change 0 ≤ q.precision.rdToLow; rw [s4]; exact hp0)
      (by change 0 ≤ q.periodCount.rdToLow; rw [s5]; exact it0 _) p hp hk
    simp only [FourWay.get] at this
    rw [this, s3, s4, s5, ← iters_outside]
    rfl
  · intro htop
    exact hz .wrByHigh (s6 (by omega))
  · intro hlt2 p hp hk
    obtain ⟨u1, u2, u3⟩ := s7 (by omega)
    have := hword .wrByHigh (by change 0 ≤ q.amount.wrByHigh; rw [u1]; positivity) (by change 0 ≤ q.precision.wrByHigh; rw [u2]; exact hp0)
      (by change 0 ≤ q.periodCount.wrByHigh; rw [u3]; exact it0 _) p hp hk
    simp only [FourWay.get] at this
    rw [this, u1, u2, u3, ← iters_outside]
    rfl

open Classical in
/-- C142: likewise for the output.  Results move with the final precision unless they are accumulated outside; in that case as many partial sums are
read back as are written, which is one for each output element too many (`psum_reads_false`). -/
theorem output_accesses_partial (R : Mapped h j rl rels loops array) {r : Result} (hr : evaluate h j = .ok r)
    (V : Valid (cfg h j false .out) (rl .out) rels) (W : Whole (cfg h j false .out)) (hpr : (j.rel .out).pr = []) {lv : Nat} {m : Mem}
    (hm : (h.levels .out)[lv]? = some m) :
    ∃ acc row a, r.energy.access.get? Operand.out = some acc ∧ r.energy.breakdown.get? Operand.out = some row ∧ acc[lv]? = some a ∧
      row[lv]? = some ((a.rdToLow + a.rdToHigh) * m.readEnergy + (a.wrByLow + a.wrByHigh) * m.writeEnergy) ∧
      (∀ p ∈ m.ports, (Operand.out, lv, Dir.wrByLow) ∈ p.served → a.wrByLow =
        words p (elements (rl .out) rels (tileOf (inside (j.su .out) (j.tm .out) lv (lv + 1))) *
          (if Accumulates (cfg h j false .out) (rl .out) lv then j.precision .out else j.finalPrecision))
          (iters (outside (j.su .out) (j.tm .out) lv (lv + 1)))) ∧
      (¬ Accumulates (cfg h j false .out) (rl .out) lv → a.rdToLow = 0) ∧
      (Accumulates (cfg h j false .out) (rl .out) lv → ∀ p ∈ m.ports, (Operand.out, lv, Dir.rdToLow) ∈ p.served → a.rdToLow =
        words p (elements (rl .out) rels (tileOf (inside (j.su .out) (j.tm .out) lv (lv + 1))) * j.precision .out)
          (iters (outside (j.su .out) (j.tm .out) lv (lv + 1)))) ∧
      (lv + 1 = (h.levels .out).length → a.rdToHigh = 0 ∧ a.wrByHigh = 0) ∧
      (lv + 1 < (h.levels .out).length →
        (∀ p ∈ m.ports, (Operand.out, lv, Dir.rdToHigh) ∈ p.served → a.rdToHigh =
          words p (elements (rl .out) rels (tileOf (inside (j.su .out) (j.tm .out) (lv + 1) (lv + 1))) *
            (if Accumulates (cfg h j false .out) (rl .out) (lv + 1) then j.precision .out else j.finalPrecision))
            (iters (outside (j.su .out) (j.tm .out) (lv + 1) (lv + 1)))) ∧
        (¬ Accumulates (cfg h j false .out) (rl .out) (lv + 1) → a.wrByHigh = 0) ∧
        (Accumulates (cfg h j false .out) (rl .out) (lv + 1) → ∀ p ∈ m.ports, (Operand.out, lv, Dir.wrByHigh) ∈ p.served → a.wrByHigh =
          words p (elements (rl .out) rels (tileOf (inside (j.su .out) (j.tm .out) (lv + 1) (lv + 1))) * j.precision .out)
            (iters (outside (j.su .out) (j.tm .out) (lv + 1) (lv + 1))))) := by
  obtain ⟨i, q, acc, row, a, G, hq, h1, h2, h3, h4, hz, hword⟩ := entry R hr R.out V W hm
  obtain ⟨htm, hlen, -⟩ := R.tm .out R.out
  have hlt : lv < (h.levels .out).length := (List.getElem?_eq_some_iff.1 hm).1
  have hmv := G.moves
  rw [if_pos rfl] at hmv
  have hT : (cfg h j false .out).totalCycle = iters (cfg h j false .out).tm.flatten := by
    change j.totalCycle = iters (j.tm .out).flatten
    rw [htm, R.total]
  have hl' : lv < (cfg h j false .out).tm.length := by change lv < (j.tm .out).length; omega
  have hlen' : (cfg h j false .out).tm.length = (h.levels .out).length := hlen
  obtain ⟨q', hq', s1, s2, s3, s4, s5, s6, s7⟩ := output_sides V W hpr hmv hl' hT
  rw [hq] at hq'; cases hq'
  have it0 : ∀ (k : Nat), 0 ≤ iters ((cfg h j false .out).tm.drop k).flatten := by
    intro k
    obtain ⟨n, hn⟩ : ∃ n : ℕ, iters ((cfg h j false .out).tm.drop k).flatten = n := iters_nat (fun l hl => W l (by
      obtain ⟨x, hx, hlx⟩ := List.mem_flatten.1 hl
      exact List.mem_append_left _ (List.mem_flatten.2 ⟨x, List.mem_of_mem_drop hx, hlx⟩)))
    rw [hn]; positivity
  have hp0 : (0 : ℚ) ≤ (cfg h j false .out).precision := by change (0 : ℚ) ≤ ((j.precision .out : ℕ) : ℚ); positivity
  have hf0 : (0 : ℚ) ≤ (cfg h j false .out).finalPrecision := by change (0 : ℚ) ≤ ((j.finalPrecision : ℕ) : ℚ); positivity
  have cast : ∀ P : Prop, (if P then (cfg h j false .out).precision else (cfg h j false .out).finalPrecision) =
      ((if P then j.precision .out else j.finalPrecision : ℕ) : ℚ) := by
    intro P; split_ifs <;> rfl
  refine ⟨acc, row, a, h1, h2, h3, h4, ?_, fun ha => hz .rdToLow (s4 ha), ?_, fun htop => ?_, fun hlt2 => ?_⟩
  · intro p hp hk
    have := hword .wrByLow (by change 0 ≤ q.amount.wrByLow; rw [s1]; positivity) (by change 0 ≤ q.precision.wrByLow; rw [s2]; split_ifs <;> assumption)
      (by change 0 ≤ q.periodCount.wrByLow; rw [s3]; exact it0 _) p hp hk
    simp only [FourWay.get] at this
    rw [this, s1, s2, s3, ← iters_outside, cast]
    rfl
  · intro ha p hp hk
    obtain ⟨u1, u2, u3⟩ := s5 ha
    have := hword .rdToLow (by change 0 ≤ q.amount.rdToLow; rw [u1]; positivity) (by change 0 ≤ q.precision.rdToLow; rw [u2]; exact hp0)
      (by change 0 ≤ q.periodCount.rdToLow; rw [u3]; exact it0 _) p hp hk
    simp only [FourWay.get] at this
    rw [this, u1, u2, u3, ← iters_outside]
    rfl
  · obtain ⟨u1, u2⟩ := s6 (by omega)
    exact ⟨hz .rdToHigh u1, hz .wrByHigh u2⟩
  · obtain ⟨u1, u2, u3, u4, u5⟩ := s7 (by omega)
    refine ⟨?_, fun ha => hz .wrByHigh (u4 ha), ?_⟩
    · intro p hp hk
      have := hword .rdToHigh (by change 0 ≤ q.amount.rdToHigh; rw [u1]; positivity) (by change 0 ≤ q.precision.rdToHigh; rw [u2]; split_ifs <;> assumption)
        (by change 0 ≤ q.periodCount.rdToHigh; rw [u3]; exact it0 _) p hp hk
      simp only [FourWay.get] at this
      rw [this, u1, u2, u3, ← iters_outside, cast]
      rfl
    · intro ha p hp hk
      obtain ⟨v1, v2, v3⟩ := u5 ha
      have := hword .wrByHigh (by change 0 ≤ q.amount.wrByHigh; rw [v1]; positivity) (by change 0 ≤ q.precision.wrByHigh; rw [v2]; exact hp0)
        (by change 0 ≤ q.periodCount.wrByHigh; rw [v3]; exact it0 _) p hp hk
      simp only [FourWay.get] at this
      rw [this, v1, v2, v3, ← iters_outside]
      rfl

end Verif.Evaluate
