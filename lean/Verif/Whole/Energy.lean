import Verif.Whole.Props
import Verif.Evaluate.CostProps

/-! The energy that a run reports. -/

namespace Verif.Whole

open Evaluate (Hw Mem Job Result)
open LayerNode (Relation)
open Latency (Operand)
open Ports (MemD buildMem)
open SpatialMapping (SM)

section
variable {OA : Type} [DecidableEq OA]

theorem memOf_prices {cacti : MemD Operand OA → ℚ × ℚ} {m : MemD Operand OA} {levels : Dict Operand Nat} {x : Mem} (h : memOf cacti m levels = .ok x) :
    (x.readEnergy, x.writeEnergy) = prices cacti m := by
  unfold memOf at h
  split_ifs at h
  cases hb : buildMem m levels with
  | error e => rw [hb] at h; cases h
  | ok st =>
    rw [hb] at h
    cases h
    rfl

theorem memsOf_prices {cacti : MemD Operand OA → ℚ × ℚ} : ∀ {ms : List (MemD Operand OA)} {ns : List (Hierarchy.Mem Operand)} {xs : List Mem},
    memsOf cacti ms ns = .ok xs → ∀ x ∈ xs, ∃ m ∈ ms, (x.readEnergy, x.writeEnergy) = prices cacti m
  | [], _, xs, h => by
    unfold memsOf at h
    cases h
    simp
  | m :: ms, [], xs, h => by
    unfold memsOf at h
    cases h
    simp
  | m :: ms, n :: ns, xs, h => by
    unfold memsOf at h
    cases h1 : memOf cacti m n.levels with
    | error e => rw [h1] at h; cases h
    | ok y =>
      rw [h1] at h
      cases h2 : memsOf cacti ms ns with
      | error e => simp only [h2] at h; cases h
      | ok ys =>
        simp only [h2] at h
        cases h
        intro x hx
        rcases List.mem_cons.1 hx with rfl | hx
        · exact ⟨m, List.mem_cons_self, memOf_prices h1⟩
        · obtain ⟨m', h3, h4⟩ := memsOf_prices h2 x hx
          exact ⟨m', List.mem_cons_of_mem _ h3, h4⟩

theorem accelerator_prices {cacti : MemD Operand OA → ℚ × ℚ} {a : AccD OA} {c : Acc OA} (h : accelerator cacti a = .ok c) :
    c.hw.macEnergy = a.macEnergy ∧ ∀ x ∈ c.hw.mems, ∃ m ∈ a.mems, (x.readEnergy, x.writeEnergy) = prices cacti m := by
  unfold accelerator at h
  simp only at h
  cases h1 : memsOf cacti a.mems (Hierarchy.build (a.mems.map MemD.operands)).nodes with
  | error e => rw [h1] at h; cases h
  | ok ms =>
    rw [h1] at h
    simp only at h
    split at h
    · cases h
    · cases h
      exact ⟨rfl, memsOf_prices h1⟩

end

variable {OA : Type} [DecidableEq OA] {D : Type} [LinearOrder D]
variable {a : AccD OA} {l : LayerIn D} {user : SM OA D} {rl : Operand → List D} {rels : List (Relation D)} {cacti : MemD Operand OA → ℚ × ℚ}

/-- C152: if no memory has a negative price, every evaluation of a run takes at least the energy of one multiplication for every combination of indices. -/
theorem run_energy (I : InputOk a l user rl rels) (hp : ∀ m ∈ a.mems, 0 ≤ (prices cacti m).1 ∧ 0 ≤ (prices cacti m).2) (fact : Nat → List (Nat × Nat))
    (hf : Lpf.FactContract fact) (limit : Option Nat) (hlim : ∀ n, limit = some n → 1 ≤ n) (hfo : Follows cacti a l user) : ∃ N, ∀ fuel, N ≤ fuel → ∃ evals err,
      run cacti fact a l user limit fuel = some (evals, err) ∧ ∀ e ∈ evals,
        e.2.energy.total = a.macEnergy * operations l + e.2.energy.mem ∧ 0 ≤ e.2.energy.mem := by
  obtain ⟨c, hc, C⟩ := accelerator_ok (cacti := cacti) I.acc
  obtain ⟨lim, limI, t, -, ht, P, e1, e2, e3, -⟩ := task_ok I C
  obtain ⟨s1, s2, s3, s4, -, s6⟩ := engine_sizes I.layer
  have hlk : ∀ p ∈ c.hw.ports, ∀ k ∈ p.served, k.1 ∈ t.ops := fun p hp k hk => by
    obtain ⟨m, hm, hmk⟩ := C.linked p hp k hk
    rw [e1]
    exact I.linked m hm _ hmk
  obtain ⟨N, o₀, L, -, -, -, -, -, q6⟩ := Search.search_partial P hlk fact hf _ s1 s2 s3 (by rw [e3]; exact s4) (spatialLoops t)
    (fun x hx => (spatialLoops_mem P x hx).1) limit hlim _ (hfo.task hc ht)
  refine ⟨N, fun fuel hfu => ?_⟩
  obtain ⟨jobs, err, g1, -, -, g4, -⟩ := q6 fuel hfu
  refine ⟨_, _, by simp only [run, hc, ht, g1]; rfl, fun e he => ?_⟩
  obtain ⟨hj, hr⟩ := Search.evaluations_mem he
  obtain ⟨o, ho, hm, R⟩ := g4 _ hj
  obtain ⟨tm, -, -, -, eL, -⟩ := Search.mapOrder_ok P hm
  obtain ⟨p1, p2⟩ := accelerator_prices hc
  obtain ⟨w1, w2, -⟩ := Evaluate.energy_bounds R.toMapped (fun x hx => by
    obtain ⟨m, hm, hx⟩ := p2 x hx
    have := hp m hm
    rw [← hx] at this
    exact this) hr
  refine ⟨?_, w2⟩
  rw [w1, p1, ← s6, eL, e3]
  rfl

/-! ### The prices of the file -/

/-- The words that are read and written at the levels of an operand, at the prices of the entries of the file. -/
def bill (ms : List (MemD Operand OA)) (acc : List Cme.FourWay) : ℚ :=
  ((acc.zip ms).map fun x => (x.1.rdToLow + x.1.rdToHigh) * x.2.rCost.getD 0 + (x.1.wrByLow + x.1.wrByHigh) * x.2.wCost.getD 0).sum

theorem bill_levels {f : Mem → Energy.Level} (hf : ∀ x, (f x).readEnergy = x.readEnergy ∧ (f x).writeEnergy = x.writeEnergy) : ∀ {ms : List (MemD Operand OA)} {xs : List Mem},
    List.Forall₂ IsEntry ms xs → (∀ m ∈ ms, m.auto = false) → ∀ acc : List Cme.FourWay,
    ((acc.zip (xs.map f)).map fun x => Energy.levelEnergy x.1 x.2).sum = bill ms acc
  | _, _, .nil, _, acc => by simp [bill]
  | _, _, .cons (a := m) (b := x) h hs, ha, [] => by simp [bill]
  | _, _, .cons (a := m) (b := x) h hs, ha, y :: acc => by
    have ih := bill_levels hf hs (fun m' hm' => ha m' (List.mem_cons_of_mem _ hm')) acc
    obtain ⟨p1, p2⟩ := h.price (ha m List.mem_cons_self)
    unfold bill at ih ⊢
    rw [List.map_cons, List.zip_cons_cons, List.zip_cons_cons, List.map_cons, List.map_cons, List.sum_cons, List.sum_cons, ih, Energy.levelEnergy_eq_paid]
    congr 1
    unfold Energy.paid
    rw [(hf x).1, (hf x).2, p1, p2]

/-- C152: unless prices are to be extracted, an evaluation bills every word that is read or written at a level of an operand at the prices of that memory in the file, and
every operation at the price of the file. -/
theorem run_paid (I : InputOk a l user rl rels) (ha : ∀ m ∈ a.mems, m.auto = false) (fact : Nat → List (Nat × Nat))
    (hf : Lpf.FactContract fact) (limit : Option Nat) (hlim : ∀ n, limit = some n → 1 ≤ n) (hfo : Follows cacti a l user) : ∃ N, ∀ fuel, N ≤ fuel → ∃ evals err,
      run cacti fact a l user limit fuel = some (evals, err) ∧ ∀ e ∈ evals, e.2.energy.access.map Prod.fst = l.ops ∧
        e.2.energy.total = a.macEnergy * operations l + (e.2.energy.access.map fun x => bill (storing a x.1) x.2).sum := by
  obtain ⟨c, hc, C⟩ := accelerator_ok (cacti := cacti) I.acc
  obtain ⟨lim, limI, t, -, ht, P, e1, e2, e3, -⟩ := task_ok I C
  obtain ⟨s1, s2, s3, s4, -, s6⟩ := engine_sizes I.layer
  have hlk : ∀ p ∈ c.hw.ports, ∀ k ∈ p.served, k.1 ∈ t.ops := fun p hp k hk => by
    obtain ⟨m, hm, hmk⟩ := C.linked p hp k hk
    rw [e1]
    exact I.linked m hm _ hmk
  obtain ⟨N, o₀, L, -, -, -, -, -, q6⟩ := Search.search_partial P hlk fact hf _ s1 s2 s3 (by rw [e3]; exact s4) (spatialLoops t)
    (fun x hx => (spatialLoops_mem P x hx).1) limit hlim _ (hfo.task hc ht)
  refine ⟨N, fun fuel hfu => ?_⟩
  obtain ⟨jobs, err, g1, -, -, g4, -⟩ := q6 fuel hfu
  refine ⟨_, _, by simp only [run, hc, ht, g1]; rfl, fun e he => ?_⟩
  obtain ⟨hj, hr⟩ := Search.evaluations_mem he
  obtain ⟨o, ho, hm, R⟩ := g4 _ hj
  obtain ⟨tm, -, eO, -, eL, -⟩ := Search.mapOrder_ok P hm
  obtain ⟨fr, it, hfr, -, -, hen, -⟩ := Evaluate.parts R.toMapped hr
  obtain ⟨fr', f1, f2, f3⟩ := Evaluate.mapping_ok R.toMapped false
  rw [hfr] at f1
  cases f1
  have hwf := Evaluate.wf_opData (h := c.hw) f2 R.toMapped.ops
  obtain ⟨w1, w2⟩ := Energy.energy_mem hwf hen
  obtain ⟨b1, b2, -⟩ := Energy.energy_breakdown hwf hen
  have hkeys : e.2.energy.access.map Prod.fst = l.ops := by
    have := Energy.forall₂_keys (Energy.wordAccess_spec _ _ w1)
    unfold Dict.keys at this
    rw [this, List.map_map, ← e1, ← eO, ← f2]
    rfl
  refine ⟨hkeys, ?_⟩
  rw [b1, b2, w2, C.mac]
  congr 1
  · rw [← s6, ← e3, ← eL]
    rfl
  · congr 1
    refine List.map_congr_left fun x hx => ?_
    have hx1 : x.1 ∈ e.1.ops := by
      rw [eO, e1, ← hkeys]
      exact List.mem_map_of_mem hx
    obtain ⟨i, hi, -⟩ := f3 x.1 hx1
    have hlv : Energy.levelsOf (fr.map fun e => (e.1, Evaluate.opData c.hw e.1 e.2)) x.1 = (Evaluate.opData c.hw x.1 i).levels := by
      unfold Energy.levelsOf
      rw [Dict.get?_of_mem hwf (List.mem_map.2 ⟨_, Dict.mem_of_get? hi, rfl⟩)]
      rfl
    rw [hlv]
    refine bill_levels (f := fun m => { readEnergy := m.readEnergy, writeEnergy := m.writeEnergy, bwMax := m.bw Evaluate.Port.bwMax x.1, bwMin := m.bw Evaluate.Port.bwMin x.1 })
      (fun _ => ⟨rfl, rfl⟩) (C.written x.1) (fun m hm => ha m (List.mem_filter.1 hm).1) x.2

end Verif.Whole
