import Verif.Evaluate.CostProps

/-! C141: the latency of an evaluation lies between the time that its busiest port needs and the sum of that and the time of the computation. -/

namespace Verif.Evaluate

open Cme (Dir FourWay)
open MapInfo (iters Pattern)
open LayerNode (Relation)
open Latency (Operand Key)
open Transfer (WholeLoops FromNest)
open Window (Duty)

variable {Dim : Type} [DecidableEq Dim]
variable {h : Hw} {j : Job Dim} {rl : Operand → List Dim} {rels : List (Relation Dim)} {loops array : List (Dim × ℚ)}

/-- The cycles that one port needs for all its transfers after the first one of each kind: bits of a transfer over the width of the port, rounded up,
times the number of transfers. -/
def portTime (it : Dict Operand (OpInfo Dim)) (p : Port) : ℚ :=
  (p.served.map fun k =>
    match pattern it k.1 k.2.1 with
    | none => 0
    | some q => (⌈q.amount.get k.2.2 * q.precision.get k.2.2 / p.bwMax⌉ : ℚ) * max 0 (q.periodCount.get k.2.2 - 1)).sum

/-- What a port serves is seen with the width of that port. -/
theorem bw_served (B : Built h) {p : Port} (hp : p ∈ h.ports) {k : Key} (hk : k ∈ p.served) (f : Port → Nat) :
    h.bw f k.1 k.2.1 k.2.2 = some (f p) := by
  obtain ⟨m, hm, hpm⟩ := List.mem_flatMap.1 hp
  have hh := B.served m hm p hpm k hk
  unfold Hw.bw
  rw [B.numbered m hm _ hh, Option.bind_some]
  unfold Mem.bw
  cases hf : m.ports.find? (fun p => p.served.any fun k' => decide (k'.1 = k.1 ∧ k'.2.2 = k.2.2)) with
  | none =>
    have := List.find?_eq_none.1 hf p hpm
    simp only [List.any_eq_true, decide_eq_true_eq, not_exists, not_and] at this
    exact absurd rfl (this k hk rfl)
  | some q =>
    have hq := List.mem_of_find?_eq_some hf
    have hs := List.find?_some hf
    simp only [List.any_eq_true, decide_eq_true_eq] at hs
    obtain ⟨k', hk', e1, e2⟩ := hs
    have hh' := B.served m hm q hq k' hk'
    have e3 : k'.2.1 = k.2.1 := by
      have := List.inj_on_of_nodup_map (B.single m hm) hh' hh e1
      exact (Prod.mk.inj this).2
    have ek : k' = k := Prod.ext e1 (Prod.ext e3 e2)
    subst ek
    have hqp : q = p := by
      by_contra hne
      have hsym : Std.Symm (Function.onFun List.Disjoint Port.served) := ⟨fun _ _ hd => hd.symm⟩
      exact ((List.nodup_flatMap.1 B.once).2.forall (mem_ports hm hq) hp hne) hk' hk
    rw [hqp]; rfl

/-- The transfers of a port as they enter the computation of the stall. -/
def acts (j : Job Dim) (ds : List (Duty Key)) : List (Duty Key) := Window.activities (· * j.cyclesPerOp) ds

/-- Their cycles. -/
def actTime (ds : List (Duty Key)) : Int := (ds.map fun d => (d.real : Int) * ((d.count : Int) - 1)).sum

theorem int_nonneg (R : Mapped h j rl rels loops array) {op : Operand} (ho : op ∈ j.ops) {i : OpInfo Dim} (G : Good h j true op i) :
    ∀ p ∈ i.moves, NonNeg p := by
  have hv := R.shape true op ho
  have hst : 0 ≤ (cfg h j true op).stationary := by
    obtain ⟨k, hk⟩ := R.stationary op ho
    change 0 ≤ j.stationary op
    rw [hk]
    unfold MapInfo.iters
    refine List.prod_nonneg (fun x hx => ?_)
    obtain ⟨l, hl, rfl⟩ := List.mem_map.1 hx
    obtain ⟨n, hn, -⟩ := R.whole l (List.mem_of_mem_take hl)
    rw [hn]; positivity
  have hT : 0 ≤ (cfg h j true op).totalCycle := by
    change 0 ≤ j.totalCycle
    obtain ⟨n, hn, -⟩ := R.whole.iters
    rw [R.total, hn]; positivity
  have hpr : 0 ≤ (cfg h j true op).precision := by change (0 : ℚ) ≤ ((j.precision op : ℕ) : ℚ); positivity
  have hfp : 0 ≤ (cfg h j true op).finalPrecision := by change (0 : ℚ) ≤ ((j.finalPrecision : ℕ) : ℚ); positivity
  have hmv := G.moves
  split_ifs at hmv with hop
  · exact output_nonneg hv R.sizes hst hT hpr hfp hmv
  · exact input_nonneg hv R.sizes hst hT hpr hmv

/-- The time of a port is that of its transfers. -/
theorem portTime_eq (R : Ready h j rl rels loops array) {it : Dict Operand (OpInfo Dim)} (hg : ∀ op ∈ j.ops, ∃ i, it.get? op = some i ∧ Good h j true op i)
    {fl : Operand → List Bool} {p : Port} (hp : p ∈ h.ports) {ds : List (Duty Key)} (hd : duties h j it fl p.served = .ok ds) :
    portTime it p = actTime (acts j ds) ∧ ∀ d ∈ acts j ds, d.allowed ≤ d.period ∧ 1 ≤ d.count := by
  have hin : ∀ k ∈ p.served, k ∈ p.served := fun _ h => h
  unfold portTime
  revert hd
  generalize hks : p.served = ks at hin ⊢
  have hin : ∀ k ∈ ks, k ∈ p.served := by rw [hks]; exact fun _ h => h
  clear hks
  induction ks generalizing ds with
  | nil => intro hd; cases hd; exact ⟨by simp [acts, actTime, Window.activities], by simp [acts, Window.activities]⟩
  | cons k ks ih =>
    intro hd
    have hk := hin k List.mem_cons_self
    have ho := R.linked p hp k hk
    unfold duties at hd
    rw [if_pos ho] at hd
    obtain ⟨i, q, hi, G, hq, hpat⟩ := pattern_some R.toMapped hg ho (served_in R.toMapped hp hk)
    rw [hpat] at hd
    simp only [bind, Except.bind] at hd
    cases g1 : Transfer.duty k (h.bw Port.bwMax k.1 k.2.1) (fl k.1) k.2.1 q k.2.2 with
    | error e => rw [g1] at hd; cases hd
    | ok x =>
      rw [g1] at hd
      simp only at hd
      cases g2 : duties h j it fl ks with
      | error e => rw [g2] at hd; cases hd
      | ok rest =>
        rw [g2] at hd
        cases hd
        obtain ⟨ih1, ih2⟩ := ih (fun _ hm => hm) (fun k hm => hin k (List.mem_cons_of_mem _ hm)) g2
        have hnest := fromNest R.toMapped ho G hq
        have hnn := int_nonneg R.toMapped ho G q (List.mem_of_getElem? hq) k.2.2
        unfold Transfer.duty at g1
        cases ha : Transfer.allowedTime (fl k.1) k.2.1 q k.2.2 with
        | error e => rw [ha] at g1; cases g1
        | ok a =>
          rw [ha] at g1
          simp only [bind, Except.bind, pure, Except.pure, Except.ok.injEq] at g1
          have hbw := bw_served R.built hp hk Port.bwMax
          have hreal : (x.real : ℚ) = (⌈q.amount.get k.2.2 * q.precision.get k.2.2 / p.bwMax⌉ : ℚ) := by
            rw [← g1]
            simp only [Transfer.realCycles, hbw, if_neg (R.built.bw p hp).1]
            have h0 : 0 ≤ ⌈q.amount.get k.2.2 * q.precision.get k.2.2 / p.bwMax⌉ :=
              Int.ceil_nonneg (div_nonneg (mul_nonneg hnn.1 hnn.2.1) (by positivity))
            have := Int.toNat_of_nonneg h0
            exact_mod_cast this
          have hcount : (x.count : ℚ) = q.periodCount.get k.2.2 := by
            rw [← g1]
            simp only
            rcases Transfer.period_of_nest R.whole hnest k.2.2 with hz | ⟨n, -, hz⟩
            · rw [hz]; simp
            · obtain ⟨b, hb, -⟩ := (R.whole.sub (a := loops.drop n) (fun l hl => List.mem_of_mem_drop hl)).iters
              rw [hz, hb]; simp
          rw [List.map_cons, List.sum_cons, ih1, hpat]
          simp only
          have hcons : acts j (x :: rest) = (if x.count = 0 then [] else [{ x with period := x.period * j.cyclesPerOp, allowed := x.allowed * j.cyclesPerOp }])
              ++ acts j rest := by
            unfold acts Window.activities
            by_cases h0 : x.count = 0
            · simp [h0]
            · simp [h0]
          rw [hcons, ← hreal, ← hcount]
          constructor
          · unfold actTime
            rw [List.map_append, List.sum_append]
            by_cases h0 : x.count = 0
            · rw [if_pos h0, h0]; simp
            · rw [if_neg h0]
              have h1 : (1 : ℚ) ≤ x.count := by exact_mod_cast Nat.one_le_iff_ne_zero.2 h0
              rw [max_eq_right (by linarith)]
              simp
          · intro d hd
            rcases List.mem_append.1 hd with hd | hd
            · by_cases h0 : x.count = 0
              · rw [if_pos h0] at hd; cases hd
              · rw [if_neg h0, List.mem_singleton] at hd
                subst hd
                refine ⟨Nat.mul_le_mul_right _ ?_, Nat.one_le_iff_ne_zero.2 h0⟩
                rcases window_le R.whole hnest k.2.2 with hz | hw
                · rw [hz] at hcount
                  exact absurd (by exact_mod_cast hcount) h0
                · rw [← g1]
                  simp only
                  refine Int.toNat_le_toNat (Int.floor_le_floor ?_)
                  unfold Transfer.allowedTime at ha
                  simp only [bind, Except.bind, pure, Except.pure] at ha
                  split at ha
                  · cases ha
                  split at ha
                  · cases ha
                  injection ha with ha
                  rw [← ha]
                  split
                  · split
                    · exact le_rfl
                    · exact hw
                  · split
                    · exact le_rfl
                    · exact hw
            · exact ih2 d hd

/-- The stall of one port against the time of its transfers. -/
theorem portStall_bounds {T : Nat} {ds : List (Duty Key)} (hc : Window.Consistent T ds) (ha : ∀ d ∈ ds, d.allowed ≤ d.period ∧ 1 ≤ d.count) {s : Option Int}
    (hs : Window.portStall ds = .ok s) : actTime ds - T ≤ s.getD 0 ∧ s.getD 0 ≤ actTime ds := by
  match ds with
  | [] => cases hs; simp [actTime]
  | [d] =>
    cases hs
    obtain ⟨h1, h2⟩ := ha d (by simp)
    have ht := hc.total d (by simp)
    have hm : d.allowed * (d.count - 1) ≤ T := by
      rw [← ht]
      exact Nat.mul_le_mul h1 (Nat.sub_le _ _)
    have hm' : (d.allowed : Int) * ((d.count : Int) - 1) ≤ T := by
      have := (Int.ofNat_le.2 hm)
      push_cast [Nat.cast_sub h2] at this
      exact this
    have h0 : 0 ≤ (d.allowed : Int) * ((d.count : Int) - 1) := mul_nonneg (by positivity) (by omega)
    simp only [actTime, List.map_cons, List.map_nil, List.sum_cons, List.sum_nil, add_zero, Option.getD_some, Window.Duty.stall, sub_mul]
    constructor <;> omega
  | a :: b :: t =>
    have hu := Window.window_union (by simp) hc
    rw [portStall_max (by simp) hu] at hs
    cases hs
    generalize a :: b :: t = ds at *
    have hbusy : Window.busyCycles T ds ≤ T := Nat.count_le _
    simp only [Option.getD_some]
    constructor
    · refine le_trans ?_ (le_max_right _ _)
      unfold Window.needed actTime
      omega
    · refine max_le ?_ (by unfold Window.needed actTime; omega)
      unfold actTime
      clear hu hbusy hc
      induction ds with
      | nil => simp
      | cons d ds ih =>
        have := ih (fun d hd => ha d (List.mem_cons_of_mem _ hd))
        obtain ⟨-, h2⟩ := ha d List.mem_cons_self
        simp only [List.map_cons, List.sum_cons]
        have hd : max 0 d.stall ≤ (d.real : Int) * ((d.count : Int) - 1) := by
          have h0 : 0 ≤ (d.allowed : Int) * ((d.count : Int) - 1) := mul_nonneg (by positivity) (by omega)
          have h3 : 0 ≤ (d.real : Int) * ((d.count : Int) - 1) := mul_nonneg (by positivity) (by omega)
          unfold Window.Duty.stall
          rw [sub_mul]
          omega
        omega

private theorem mapM_ok {α β : Type} {f : α → Except PyErr β} : ∀ {l : List α} {r : List β}, l.mapM f = .ok r → List.Forall₂ (fun a b => f a = .ok b) l r
  | [], r, h => by cases h; exact .nil
  | a :: l, r, h => by
    rw [List.mapM_cons] at h
    simp only [bind, Except.bind, pure, Except.pure] at h
    cases h1 : f a with
    | error e => rw [h1] at h; cases h
    | ok b =>
      rw [h1] at h
      simp only at h
      cases h2 : l.mapM f with
      | error e => rw [h2] at h; cases h
      | ok t =>
        rw [h2] at h
        cases h
        exact .cons h1 (mapM_ok h2)

/-- C141: the latency without loading is at least the time that any port needs for its transfers, and at most the time of the computation plus the
time of the busiest port. -/
theorem roofline (R : Ready h j rl rels loops array) {r : Result} (hr : evaluate h j = .ok r) : ∃ it, mapping h j true = .ok it ∧
    (∀ p ∈ h.ports, portTime it p ≤ r.overall.latency0) ∧
    (r.overall.latency0 = r.overall.idealTemporal ∨ ∃ p ∈ h.ports, r.overall.latency0 ≤ r.overall.idealTemporal + portTime it p) := by
  obtain ⟨fr, it, -, hit, hg, -, hst, -⟩ := parts R.toMapped hr
  obtain ⟨t1, t2⟩ := latency0_of R hr
  refine ⟨it, hit, ?_⟩
  unfold stall at hst
  simp only [bind, Except.bind] at hst
  cases hm : h.ports.mapM (fun p => duties h j it (flags h j fr) p.served) with
  | error e => rw [hm] at hst; cases hst
  | ok dss =>
    rw [hm] at hst
    simp only at hst
    have hF := mapM_ok hm
    have each : ∀ p ∈ h.ports, ∀ ds, duties h j it (flags h j fr) p.served = .ok ds → ∀ s, Window.portStall (acts j ds) = .ok s →
        portTime it p - iters loops * j.cyclesPerOp ≤ ((s.getD 0 : ℤ) : ℚ) ∧ ((s.getD 0 : ℤ) : ℚ) ≤ portTime it p := by
      intro p hp ds hd s hs
      obtain ⟨e1, e2⟩ := portTime_eq R hg hp hd
      obtain ⟨ds', d1, d2, d3⟩ := duties_ok R.toMapped hg (fl := flags h j fr) (fun op _ => by simp [flags]) p.served
        (fun k hk => served_in R.toMapped hp hk)
      rw [hd] at d1
      cases d1
      have hc := Transfer.port_consistent R.whole R.cycles (raw := ds) (by rw [d2]; exact (ports_nodup R.toMapped hp).filter _) d3
      obtain ⟨b1, b2⟩ := portStall_bounds hc e2 hs
      obtain ⟨n, hn, -⟩ := R.whole.iters
      have hT : ((j.cyclesPerOp * ⌊iters loops⌋₊ : ℕ) : ℚ) = iters loops * j.cyclesPerOp := by
        rw [hn, Nat.floor_natCast]; push_cast; ring
      rw [e1]
      constructor
      · have : ((actTime (acts j ds) - ((j.cyclesPerOp * ⌊iters loops⌋₊ : ℕ) : ℤ) : ℤ) : ℚ) ≤ ((s.getD 0 : ℤ) : ℚ) := by exact_mod_cast b1
        rw [Int.cast_sub, Int.cast_natCast, hT] at this
        exact this
      · exact_mod_cast b2
    rw [t1, t2]
    constructor
    · intro p hp
      obtain ⟨n, hn⟩ := List.getElem?_of_mem hp
      obtain ⟨hlt, rfl⟩ := List.getElem?_eq_some_iff.1 hn
      have hlt' : n < dss.length := hF.length_eq ▸ hlt
      have hd : duties h j it (flags h j fr) (h.ports[n]).served = .ok dss[n] := (List.forall₂_iff_get.1 hF).2 n hlt hlt'
      obtain ⟨-, hall⟩ := Window.stall_comb_bounds hst
      obtain ⟨s, hs, hle⟩ := hall _ (List.mem_map.2 ⟨dss[n], List.getElem_mem _, rfl⟩)
      have h1 := (each _ hp _ hd s hs).1
      have h2 : ((s.getD 0 : ℤ) : ℚ) ≤ (r.stall : ℚ) := by exact_mod_cast hle
      linarith
    · rcases Window.stall_comb_attained hst with h0 | ⟨a, ha, hs⟩
      · left; rw [h0]; simp
      · right
        obtain ⟨ds, hds, rfl⟩ := List.mem_map.1 ha
        obtain ⟨n, hn⟩ := List.getElem?_of_mem hds
        obtain ⟨hlt', rfl⟩ := List.getElem?_eq_some_iff.1 hn
        have hlt : n < h.ports.length := hF.length_eq ▸ hlt'
        have hd : duties h j it (flags h j fr) (h.ports[n]).served = .ok dss[n] := (List.forall₂_iff_get.1 hF).2 n hlt hlt'
        have h2 := (each _ (List.getElem_mem hlt) _ hd _ hs).2
        simp only [Option.getD_some] at h2
        exact ⟨_, List.getElem_mem hlt, by linarith⟩

/-- C141, in bits: over the whole latency a port has the bandwidth for all transfers after the first one of each kind. -/
theorem traffic_fits (R : Ready h j rl rels loops array) {r : Result} (hr : evaluate h j = .ok r) : ∃ it, mapping h j true = .ok it ∧
    ∀ p ∈ h.ports, (p.served.map fun k =>
      match pattern it k.1 k.2.1 with
      | none => 0
      | some q => q.amount.get k.2.2 * q.precision.get k.2.2 * max 0 (q.periodCount.get k.2.2 - 1)).sum ≤ p.bwMax * r.overall.latency0 := by
  obtain ⟨it, hit, h1, -⟩ := roofline R hr
  refine ⟨it, hit, fun p hp => ?_⟩
  have hb : (0 : ℚ) < p.bwMax := by exact_mod_cast Nat.pos_of_ne_zero (R.built.bw p hp).1
  refine le_trans ?_ (mul_le_mul_of_nonneg_left (h1 p hp) hb.le)
  unfold portTime
  rw [← List.sum_map_mul_left]
  refine List.sum_le_sum (fun k _ => ?_)
  cases pattern it k.1 k.2.1 with
  | none => simp
  | some q =>
    simp only
    rw [← mul_assoc]
    refine mul_le_mul_of_nonneg_right ?_ (le_max_left _ _)
    have := Int.le_ceil (q.amount.get k.2.2 * q.precision.get k.2.2 / (p.bwMax : ℚ))
    rw [div_le_iff₀ hb] at this
    linarith

end Verif.Evaluate
