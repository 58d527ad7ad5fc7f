import Verif.Latency.Props

/-! C92: which transfers take part in loading and off-loading, and how many cycles remain of them; C64: the off-loading time. -/

namespace Verif.Latency

open Verif.Cme (Dir)

/-- The output flows up, the inputs flow in both directions of a link; partial sums do not take part. -/
def Takes (info : Info) (k : Key) : Prop := info.count k ≠ 0 ∧ ¬ (k.1 = .out ∧ (k.2.2 = .rdToLow ∨ k.2.2 = .wrByHigh))

instance (info : Info) (k : Key) : Decidable (Takes info k) := by unfold Takes; infer_instance

theorem relevant_iff (info : Info) (k : Key) : relevant info k = true ↔ Takes info k := by
  obtain ⟨o, l, d⟩ := k
  unfold relevant Takes
  cases o <;> cases d <;> simp

theorem mem_once {info : Info} {p : Port} {k : Key} : k ∈ once info p ↔ k ∈ p.served ∧ Takes info k ∧ info.count k = 1 := by
  unfold once
  simp [List.mem_filter, relevant_iff]

theorem mem_often {info : Info} {p : Port} {k : Key} : k ∈ often info p ↔ k ∈ p.served ∧ Takes info k ∧ info.count k ≠ 1 := by
  unfold often
  simp [List.mem_filter, relevant_iff]

private theorem foldl_set_other {V : Type} (f : Key → V) (l : List Key) (t : Dict Key V) (k : Key) (h : k ∉ l) :
    (l.foldl (fun t k => t.set k (f k)) t).get? k = t.get? k := by
  induction l generalizing t with
  | nil => rfl
  | cons x l ih =>
    rw [List.foldl_cons, ih _ (fun hm => h (List.mem_cons_of_mem _ hm)), Dict.get?_set_of_ne]
    exact fun e => h (e ▸ List.mem_cons_self)

private theorem foldl_set_mem {V : Type} (f : Key → V) (l : List Key) (t : Dict Key V) (k : Key) (h : k ∈ l) :
    (l.foldl (fun t k => t.set k (f k)) t).get? k = some (f k) := by
  induction l generalizing t with
  | nil => cases h
  | cons x l ih =>
    rw [List.foldl_cons]
    by_cases hk : k ∈ l
    · exact ih _ hk
    · rw [foldl_set_other _ _ _ _ hk]
      rcases List.mem_cons.1 h with rfl | h
      · exact Dict.get?_set_self ..
      · exact absurd h hk

private theorem zip_set_other {V : Type} (l : List (Key × V)) (t : Dict Key V) (k : Key) (h : k ∉ l.map Prod.fst) :
    (l.foldl (fun t e => t.set e.1 e.2) t).get? k = t.get? k := by
  induction l generalizing t with
  | nil => rfl
  | cons x l ih =>
    rw [List.map_cons, List.mem_cons, not_or] at h
    rw [List.foldl_cons, ih _ h.2, Dict.get?_set_of_ne]
    exact fun e => h.1 e.symm

private theorem zip_set_mem {V : Type} (l : List (Key × V)) (t : Dict Key V) (e : Key × V) (h : e ∈ l) (hn : (l.map Prod.fst).Nodup) :
    (l.foldl (fun t e => t.set e.1 e.2) t).get? e.1 = some e.2 := by
  induction l generalizing t with
  | nil => cases h
  | cons x l ih =>
    rw [List.map_cons, List.nodup_cons] at hn
    rw [List.foldl_cons]
    rcases List.mem_cons.1 h with rfl | h
    · rw [zip_set_other _ _ _ hn.1]; exact Dict.get?_set_self ..
    · exact ih _ h hn.2

/-- What one port leaves in the table. -/
theorem loadPort_spec {info : Info} {p : Port} {t t' : Table} (h : loadPort info p t = .ok t') (hn : p.served.Nodup) :
    (∀ k, k ∉ p.served ∨ ¬ Takes info k → t'.get? k = t.get? k) ∧
      (∀ k ∈ p.served, Takes info k → info.count k ≠ 1 → t'.get? k = some ((info.real k : ℚ), p.shared)) ∧
      ∃ remaining spare, Balance.reduceBalanced ((once info p).map fun k => (info.real k : ℚ)) ((once info p).map (minCycles info p)) (surplus info p)
          = .ok (remaining, spare) ∧ remaining.length = (once info p).length ∧
        ∀ (i : Nat) (k : Key) (v : ℚ), (once info p)[i]? = some k → remaining[i]? = some v → t'.get? k = some (v, p.shared) := by
  unfold loadPort at h
  split at h
  · cases h
  cases hb : Balance.reduceBalanced ((once info p).map fun k => (info.real k : ℚ)) ((once info p).map (minCycles info p)) (surplus info p) with
  | error e => rw [hb] at h; cases h
  | ok x =>
    obtain ⟨rem, d⟩ := x
    rw [hb] at h
    simp only [Except.ok.injEq] at h
    obtain ⟨hlen, -⟩ := Balance.balance_conserves hb
    rw [List.length_map] at hlen
    have hz : ∀ t : Table, ((once info p).zip rem).foldl (fun t e => t.set e.1 (e.2, p.shared)) t
        = (((once info p).zip rem).map fun e => (e.1, (e.2, p.shared))).foldl (fun t e => t.set e.1 e.2) t := by
      intro t; rw [List.foldl_map]
    have hfst : (((once info p).zip rem).map fun e => (e.1, (e.2, p.shared))).map Prod.fst = once info p := by
      rw [List.map_map]
      exact List.map_fst_zip (by omega)
    have hno : (once info p).Nodup := hn.filter _
    rw [hz] at h
    subst h
    refine ⟨fun k hk => ?_, fun k hk ht hc => ?_, rem, d, rfl, hlen, fun i k v hi hv => ?_⟩
    · rw [foldl_set_other (fun k => (((info.real k : Nat) : ℚ), p.shared)), zip_set_other]
      · rw [hfst, mem_once]; tauto
      · rw [mem_often]; tauto
    · exact foldl_set_mem (fun k => (((info.real k : Nat) : ℚ), p.shared)) _ _ _ (mem_often.2 ⟨hk, ht, hc⟩)
    · have hko : k ∈ once info p := List.mem_of_getElem? hi
      rw [foldl_set_other (fun k => (((info.real k : Nat) : ℚ), p.shared))]
      · refine zip_set_mem _ t (k, (v, p.shared)) (List.mem_map.2 ⟨(k, v), ?_, rfl⟩) (by rw [hfst]; exact hno)
        exact List.mem_of_getElem? (List.getElem?_zip_eq_some.2 ⟨hi, hv⟩)
      · rw [mem_often]; rw [mem_once] at hko; tauto

private theorem loadPorts_other {info : Info} {ps : List Port} {t t' : Table} (h : loadPorts info ps t = .ok t')
    (hn : ∀ p ∈ ps, p.served.Nodup) (k : Key) (hk : ∀ p ∈ ps, k ∉ p.served) : t'.get? k = t.get? k := by
  induction ps generalizing t with
  | nil => cases h; rfl
  | cons p ps ih =>
    unfold loadPorts at h
    cases h1 : loadPort info p t with
    | error e => rw [h1] at h; cases h
    | ok t1 =>
      rw [h1] at h
      rw [ih h (fun q hq => hn q (List.mem_cons_of_mem _ hq)) (fun q hq => hk q (List.mem_cons_of_mem _ hq))]
      exact (loadPort_spec h1 (hn p List.mem_cons_self)).1 k (Or.inl (hk p List.mem_cons_self))

private theorem loadPorts_at {info : Info} {ps : List Port} {t t' : Table} (h : loadPorts info ps t = .ok t')
    (hn : (ps.flatMap Port.served).Nodup) (p : Port) (hp : p ∈ ps) :
    ∃ t1 t2, loadPort info p t1 = .ok t2 ∧ (∀ k ∈ p.served, t1.get? k = t.get? k) ∧ ∀ k ∈ p.served, t'.get? k = t2.get? k := by
  induction ps generalizing t with
  | nil => cases hp
  | cons q ps ih =>
    rw [List.flatMap_cons, List.nodup_append] at hn
    have hns : ∀ r ∈ ps, r.served.Nodup := fun r hr => by
      have := hn.2.1
      rw [List.nodup_flatMap] at this
      exact this.1 r hr
    unfold loadPorts at h
    cases h1 : loadPort info q t with
    | error e => rw [h1] at h; cases h
    | ok t1 =>
      rw [h1] at h
      rcases List.mem_cons.1 hp with rfl | hp'
      · refine ⟨t, t1, h1, fun _ _ => rfl, fun k hk => ?_⟩
        exact loadPorts_other h hns k fun r hr hkr => hn.2.2 k hk k (List.mem_flatMap.2 ⟨r, hr, hkr⟩) rfl
      · obtain ⟨a, b, h2, h3, h4⟩ := ih h hn.2.1 hp'
        refine ⟨a, b, h2, fun k hk => ?_, h4⟩
        rw [h3 k hk]
        exact (loadPort_spec h1 hn.1).1 k (Or.inl fun hkq => hn.2.2 k hkq k (List.mem_flatMap.2 ⟨p, hp', hk⟩) rfl)

/-- The transfers of a port that happen once, and those that repeat. -/
def single (info : Info) (p : Port) : List Key := p.served.filter fun k => decide (Takes info k ∧ info.count k = 1)
def repeated (info : Info) (p : Port) : List Key := p.served.filter fun k => decide (Takes info k ∧ info.count k ≠ 1)

/-- Cycles a port has to spare during the computation, after the bandwidth of the transfers that repeat. -/
def spareCycles (info : Info) (p : Port) : ℚ := ((p.bw : ℚ) - ((repeated info p).map fun k => (info.reqBw k : ℚ)).sum) / p.bw * info.compute

theorem once_eq (info : Info) (p : Port) : once info p = single info p := by
  unfold once single
  refine List.filter_congr fun k _ => ?_
  rw [Bool.eq_iff_iff]
  simp [relevant_iff]

theorem often_eq (info : Info) (p : Port) : often info p = repeated info p := by
  unfold often repeated
  refine List.filter_congr fun k _ => ?_
  rw [Bool.eq_iff_iff]
  simp [relevant_iff]

theorem surplus_eq (info : Info) (p : Port) : surplus info p = max 0 (spareCycles info p) := by
  unfold surplus spareCycles
  rw [often_eq]
  have : ∀ l : List Key, (((l.map info.reqBw).sum : Nat) : ℚ) = (l.map fun k => (info.reqBw k : ℚ)).sum := by
    intro l
    induction l with
    | nil => rfl
    | cons x l ih => rw [List.map_cons, List.sum_cons, List.map_cons, List.sum_cons, Nat.cast_add, ih]
  rw [this]

/-- C92: for ports that serve different transfers, the table has an entry exactly for the transfers that happen and are not partial sums; a transfer
that repeats is recorded with the cycles of one period; what is recorded for the transfers that happen once differs from their cycles, over one
port, by no more than the spare cycles of the port, and exceeds none of them if no transfer is shorter than the data of the lowest level needs; every
entry records whether its port serves both inputs. -/
theorem loading_table {info : Info} {ports : List Port} {t : Table} (hn : (ports.flatMap Port.served).Nodup)
    (h : loadPorts info ports [] = .ok t) (p : Port) (hp : p ∈ ports) :
    (∀ k ∈ p.served, (t.get? k).isSome = true ↔ Takes info k) ∧
      (∀ k ∈ repeated info p, t.get? k = some ((info.real k : ℚ), p.shared)) ∧
      ∃ rest : List (Key × ℚ), rest.map Prod.fst = single info p ∧ (∀ e ∈ rest, t.get? e.1 = some (e.2, p.shared)) ∧
        (rest.map fun e => (info.real e.1 : ℚ) - e.2).sum ≤ max 0 (spareCycles info p) ∧
        ((∀ k ∈ single info p, ((⌈(info.bits k.1 : ℚ) / p.bw⌉ : ℤ) : ℚ) ≤ info.real k) →
          (∀ e ∈ rest, e.2 ≤ info.real e.1) ∧
          (0 ≤ spareCycles info p → spareCycles info p ≤ ((single info p).map fun k => (info.real k : ℚ) - ((⌈(info.bits k.1 : ℚ) / p.bw⌉ : ℤ) : ℚ)).sum →
            (rest.map fun e => (info.real e.1 : ℚ) - e.2).sum = spareCycles info p)) := by
  have hns : p.served.Nodup := by
    rw [List.nodup_flatMap] at hn
    exact hn.1 p hp
  obtain ⟨t1, t2, h1, h2, h3⟩ := loadPorts_at h hn p hp
  obtain ⟨g1, g2, rem, d, g3, g4, g5⟩ := loadPort_spec h1 hns
  rw [once_eq] at g3 g4 g5
  have hrep : ∀ k ∈ repeated info p, t.get? k = some ((info.real k : ℚ), p.shared) := by
    intro k hk
    unfold repeated at hk
    rw [List.mem_filter, decide_eq_true_eq] at hk
    rw [h3 k hk.1, g2 k hk.1 hk.2.1 hk.2.2]
  have hmem : ∀ k ∈ single info p, k ∈ p.served := fun k hk => (List.mem_filter.1 hk).1
  have hrest : ∀ e ∈ (single info p).zip rem, t.get? e.1 = some (e.2, p.shared) := by
    intro e he
    obtain ⟨i, hi⟩ := List.getElem?_of_mem he
    have hz := List.getElem?_zip_eq_some.1 hi
    rw [h3 e.1 (hmem e.1 (List.of_mem_zip he).1), g5 i e.1 e.2 hz.1 hz.2]
  have hfst : ((single info p).zip rem).map Prod.fst = single info p := List.map_fst_zip (by omega)
  obtain ⟨c1, c2, c3, c4, c5⟩ := Balance.balance_conserves g3
  have hsum : (((single info p).zip rem).map fun e => (info.real e.1 : ℚ) - e.2).sum = d.sum := by
    have : ∀ (l : List Key) (r : List ℚ), r.length = l.length →
        ((l.zip r).map fun e => (info.real e.1 : ℚ) - e.2).sum = (l.map fun k => (info.real k : ℚ)).sum - r.sum := by
      intro l
      induction l with
      | nil => intro r hr; cases r with
        | nil => simp
        | cons x r => simp at hr
      | cons x l ih =>
        intro r hr
        cases r with
        | nil => simp at hr
        | cons y r =>
          rw [List.zip_cons_cons, List.map_cons, List.sum_cons, ih r (by simpa using hr), List.map_cons, List.sum_cons, List.sum_cons]
          ring
    rw [this _ _ g4]
    linarith
  refine ⟨fun k hk => ?_, hrep, (single info p).zip rem, hfst, hrest, ?_, fun hmin => ?_⟩
  · constructor
    · intro hs
      by_contra hc
      rw [h3 k hk, g1 k (Or.inr hc), h2 k hk] at hs
      cases hs
    · intro ht
      by_cases hc : info.count k = 1
      · have : k ∈ ((single info p).zip rem).map Prod.fst := by
          rw [hfst]; unfold single; rw [List.mem_filter, decide_eq_true_eq]; exact ⟨hk, ht, hc⟩
        obtain ⟨e, he, rfl⟩ := List.mem_map.1 this
        rw [hrest e he]; rfl
      · rw [hrep k (by unfold repeated; rw [List.mem_filter, decide_eq_true_eq]; exact ⟨hk, ht, hc⟩)]; rfl
  · rw [hsum]
    rw [surplus_eq] at c5
    rw [max_eq_left (le_max_left (0 : ℚ) _)] at c5
    exact c5
  · have hm : ∀ i, i < ((single info p).map fun k => (info.real k : ℚ)).length →
        ((single info p).map (minCycles info p)).getD i 0 ≤ ((single info p).map fun k => (info.real k : ℚ)).getD i 0 := by
      intro i hi
      rw [List.length_map] at hi
      rw [List.getD_eq_getElem _ _ (by simpa using hi), List.getD_eq_getElem _ _ (by simpa using hi), List.getElem_map, List.getElem_map]
      exact hmin _ (List.getElem_mem hi)
    obtain ⟨b1, b2⟩ := Balance.balance_exact g3 hm
    constructor
    · intro e he
      obtain ⟨i, hi⟩ := List.getElem?_of_mem he
      have hz := List.getElem?_zip_eq_some.1 hi
      have hb := b1 i
      rw [List.getD_eq_getElem?_getD, List.getD_eq_getElem?_getD, hz.2, List.getElem?_map, hz.1] at hb
      exact hb
    · intro hs hle
      rw [hsum]
      rw [surplus_eq, max_eq_right hs] at b2
      refine b2 hs ?_
      rw [List.length_map]
      refine hle.trans (le_of_eq ?_)
      congr 1
      refine List.ext_getElem (by simp) fun i h1 h2 => ?_
      rw [List.length_map] at h1
      simp only [List.getElem_map, List.getElem_range]
      rw [List.getD_eq_getElem _ _ (by simpa using h1), List.getD_eq_getElem _ _ (by simpa using h1), List.getElem_map, List.getElem_map]
      rfl

/-- Time of the link of the output above level `lv`: the slower of its two sides. -/
def outLink (t : Table) (lv : Nat) : ℚ := max (((t.get? (.out, lv, .rdToHigh)).map Prod.fst).getD 0) (((t.get? (.out, lv + 1, .wrByLow)).map Prod.fst).getD 0)

/-- C64: the off-loading time is the sum over the links of the output of the slower side; it is computed exactly if both sides of every link are in
the table. -/
theorem offloading_exact (t : Table) (lv n : Nat) (r : ℚ) : offloading t lv n = .ok r ↔
    (∀ l, lv ≤ l → l < lv + n → (t.get? (.out, l, .rdToHigh)).isSome = true ∧ (t.get? (.out, l + 1, .wrByLow)).isSome = true) ∧
      r = ((List.range' lv n).map (outLink t)).sum := by
  induction n generalizing lv r with
  | zero =>
    unfold offloading
    constructor
    · intro h; cases h
      exact ⟨fun l h1 h2 => absurd h2 (by omega), rfl⟩
    · rintro ⟨-, rfl⟩; rfl
  | succ n ih =>
    unfold offloading
    cases ha : t.get? (Operand.out, lv, Dir.rdToHigh) with
    | none =>
      refine ⟨fun h => (by cases h), fun h => ?_⟩
      have := (h.1 lv le_rfl (by omega)).1
      rw [ha] at this; cases this
    | some a =>
      cases hb : t.get? (Operand.out, lv + 1, Dir.wrByLow) with
      | none =>
        refine ⟨fun h => (by cases h), fun h => ?_⟩
        have := (h.1 lv le_rfl (by omega)).2
        rw [hb] at this; cases this
      | some b =>
        simp only
        have hl : outLink t lv = max a.1 b.1 := by unfold outLink; rw [ha, hb]; rfl
        rw [List.range'_succ, List.map_cons, List.sum_cons, hl]
        cases ho : offloading t (lv + 1) n with
        | error e =>
          refine ⟨fun h => (by cases h), fun h => ?_⟩
          have := (ih (lv + 1) ((List.range' (lv + 1) n).map (outLink t)).sum).2
            ⟨fun l h1 h2 => h.1 l (by omega) (by omega), rfl⟩
          rw [ho] at this; cases this
        | ok q =>
          obtain ⟨h1, h2⟩ := (ih (lv + 1) q).1 ho
          simp only [Except.ok.injEq]
          rw [h2]
          refine ⟨fun h => ⟨fun l g1 g2 => ?_, h.symm⟩, fun h => h.2.symm⟩
          by_cases hc : l = lv
          · subst hc; rw [ha, hb]; exact ⟨rfl, rfl⟩
          · exact h1 l (by omega) (by omega)

example : (goodPorts.flatMap Port.served).Nodup := by decide
example : (match loadPorts badInfo goodPorts [] with | .ok t => t.get? (.in1, 1, .wrByHigh) == some (2, false) | .error _ => false) = true := by
  decide +kernel
example : ∀ p ∈ goodPorts, ∀ k ∈ single badInfo p, ((⌈(badInfo.bits k.1 : ℚ) / p.bw⌉ : ℤ) : ℚ) ≤ badInfo.real k := by decide +kernel
example : (match loadPorts badInfo goodPorts [] with
    | .ok t => (match offloading t 0 1 with | .ok r => decide (0 < r) | .error _ => false) | .error _ => false) = true := by decide +kernel

end Verif.Latency
