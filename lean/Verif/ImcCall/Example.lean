import Verif.ImcCall.Props
import Verif.Reuse.Example

/-! Concrete calls for in-memory-computing arrays (C166). -/

namespace Verif.ImcCall.Ex

open Compare.Ex
open Evaluate.Ex (rl)
open Latency (Operand)
open Net (Node)
open Ports (MemD)
open Reuse (LayerOk Uniform Stacked)
open Reuse.Ex (lnode chain graph)
open Whole (AccD)

/-- A memory for everything, for the dimensions `served` of the array, below a main memory; the array has two wordlines and two bitlines. -/
def file (small : Int) (served : List Nat) : AccD Nat := ⟨[
  { size := small, auto := false, rCost := some 1, wCost := some 1, area := some 5, operands := [.in1, .in2, .out], served := served
    ports := [⟨"r1", .read, 1, 8, [(.in1, .rdLow)]⟩, ⟨"r2", .read, 1, 8, [(.in2, .rdLow)]⟩, ⟨"r3", .read, 1, 8, [(.out, .rdLow)]⟩, ⟨"r4", .read, 1, 8, [(.out, .rdHigh)]⟩,
      ⟨"w1", .write, 1, 8, [(.in1, .wrHigh)]⟩, ⟨"w2", .write, 1, 8, [(.in2, .wrHigh)]⟩, ⟨"w3", .write, 1, 8, [(.out, .wrLow)]⟩, ⟨"w4", .write, 1, 8, [(.out, .wrHigh)]⟩] },
  { size := 100000, auto := false, rCost := some 10, wCost := some 10, area := some 7, operands := [.in1, .in2, .out], served := [0, 1]
    ports := [⟨"rw1", .readWrite, 1, 8, [(.in1, .rdLow), (.in1, .wrHigh)]⟩, ⟨"rw2", .readWrite, 1, 8, [(.in2, .rdLow), (.in2, .wrHigh)]⟩,
      ⟨"rw3", .readWrite, 1, 8, [(.out, .rdLow), (.out, .rdHigh), (.out, .wrLow), (.out, .wrHigh)]⟩] }], [(0, 2), (1, 2)], 1 / 2⟩

/-- A digital array of 2 × 2 cells. -/
def arr : Imc.Arr := { Imc.sampleArr with wl := 2, bl := 2 }
/-- It with this many bits in a group of cells. -/
def chip (cells : Nat) : Chip Nat := ⟨arr, 0, 1, cells⟩
/-- A layer (0, 1, 2 are its dimensions; the weights depend on 1 and 2) with 1 on the wordlines and 2 on the bitlines. -/
def layer (size : Nat) : Node Nat Nat := node (size, 2, 2) eight 8 [(0, [(1, 2)]), (1, [(2, 2)])] []
/-- A layer with a dimension on the wordlines on which the weights do not depend. -/
def across : Node Nat Nat := node (2, 2, 2) eight 8 [(0, [(0, 2)]), (1, [(2, 2)])] []

/-- A call. -/
def call (K : Chip Nat) (a : AccD Nat) (opt : String) (ns : List (Node Nat Nat)) (fuel : Nat) : Except PyErr (Reply Nat Nat) :=
  network (fun _ => (0, 0)) quick K a (opts 1 none id) opt (graph ns) (chain ns) fuel

/-- Energy and latency. -/
def result (r : Except PyErr (Reply Nat Nat)) : Option (ℚ × ℚ) :=
  match r with
  | .ok a => some (a.energy, a.latency)
  | .error _ => none

theorem result_ok {r : Except PyErr (Reply Nat Nat)} {e l : ℚ} (h : result r = some (e, l)) : ∃ a, r = .ok a ∧ a.energy = e ∧ a.latency = l := by
  cases r with
  | error x => cases h
  | ok a =>
    cases h
    exact ⟨a, rfl, rfl, rfl⟩

/-- The area and the energy of precharging. -/
def first (r : Except PyErr (Reply Nat Nat)) : Option (ℚ × Option ℚ) :=
  match r with
  | .ok a => a.first.map fun f => (f.area, (f.parts.find? fun x => x.1 = "local_bl_precharging").map Prod.snd)
  | .error _ => none

theorem first_ok {r : Except PyErr (Reply Nat Nat)} {x : ℚ} {y : Option ℚ} (h : first r = some (x, y)) :
    ∃ a f, r = .ok a ∧ a.first = some f ∧ f.area = x ∧ (f.parts.find? fun x => x.1 = "local_bl_precharging").map Prod.snd = y := by
  cases r with
  | error x => cases h
  | ok a =>
    simp only [first] at h
    cases hf : a.first with
    | none => rw [hf] at h; cases h
    | some f =>
      rw [hf] at h
      cases h
      exact ⟨a, f, rfl, hf, rfl, rfl⟩

/-- The exception. -/
def raised (r : Except PyErr (Reply Nat Nat)) : Option PyErr :=
  match r with
  | .ok _ => none
  | .error e => some e

theorem raised_error {r : Except PyErr (Reply Nat Nat)} {e : PyErr} (h : raised r = some e) : r = .error e := by
  cases r with
  | error x => cases h; rfl
  | ok a => cases h

theorem stacked (small : Int) (served : List Nat) : Stacked (file small served).mems := by
  intro i j l a b c hij hjl ha hb hc
  have := (List.getElem?_eq_some_iff.1 hc).1
  simp [file] at this
  omega

theorem uniform (small : Int) (served : List Nat) (n1 n2 : Node Nat Nat) (h1 : n1.layer.ops = [.out, .in1, .in2]) (h2 : n2.layer.ops = [.out, .in1, .in2]) :
    Uniform (file small served) (graph [n1, n2]) (chain [n1, n2]) .in1 .in2 :=
  have U := Reuse.Ex.uniform_pair small served n1 n2 h1 h2
  { names := U.names, root := U.root, distinct := U.distinct
    memories := fun m hm => by
      simp only [file, List.mem_cons, List.not_mem_nil, or_false] at hm
      rcases hm with rfl | rfl <;> simp
    top := ⟨_, rfl, by simp, by simp, by simp⟩
    ids := U.ids, topo := U.topo, symm := U.symm, dummies := U.dummies, operands := U.operands }

theorem layer_ok (id : Nat) : LayerOk (file 64 []) (lnode id (layer 2)) rl [] where
  node := nodeC (by decide +kernel)
  delivers m hm op hop p hp _ := by
    simp only [file, List.mem_cons, List.not_mem_nil, or_false] at hm
    rcases hm with rfl | rfl
    · simp only [List.mem_cons, List.not_mem_nil, or_false] at hp
      rcases hp with rfl | rfl | rfl | rfl | rfl | rfl | rfl | rfl <;> exact (show ((8 : Nat) : Int) ≤ 8 by decide)
    · simp only [List.mem_cons, List.not_mem_nil, or_false] at hp
      rcases hp with rfl | rfl | rfl <;> exact (show ((8 : Nat) : Int) ≤ 8 by decide)
  holds m hm op hop := by
    simp only [file, List.mem_cons, List.not_mem_nil, or_false] at hm
    rcases hm with rfl | rfl
    · exact (show ((8 : Nat) : Int) ≤ 64 by decide)
    · exact (show ((8 : Nat) : Int) ≤ 100000 by decide)

theorem file_ok : Net.FileOk (file 64 []) := fileC (by decide +kernel)

theorem chip_ok (cells : Nat) : ChipOk (chip cells) (file 64 []) where
  dims := by show (0 : Nat) ≠ 1; decide
  wl := rfl
  bl := rfl
  bs := by show 1 ≤ 1; decide
  tech := Imc.tech28_nonneg
  wlCap := by
    show 0 ≤ Imc.tech28.wlCap
    norm_num [Imc.tech28]
  adc := le_refl (0 : ℚ)

theorem layers_ok : ∀ n ∈ chain [layer 2, layer 2], n.node.skip = false → ∃ rl rels, LayerOk (file 64 []) n rl rels := by
  intro n hn _
  simp only [chain, List.zipIdx_cons, List.zipIdx_nil, List.map_cons, List.map_nil, List.mem_cons, List.not_mem_nil, or_false] at hn
  rcases hn with rfl | rfl
  · exact ⟨rl, [], layer_ok 0⟩
  · exact ⟨rl, [], layer_ok 1⟩

/-- No generated mapping of the example has a dimension on the wordlines on which the weights do not depend. -/
def straight (K : Chip Nat) (a : AccD Nat) (ns : List (Node Nat Nat)) : Bool :=
  match Reuse.plan a (graph ns) (chain ns) with
  | .error _ => true
  | .ok s => (chain ns).all fun n =>
    match Reuse.reduced (fun _ => (0, 0)) a s n with
    | .error _ => true
    | .ok b =>
      match Net.spatialMappings (opts 1 none id) b n.node with
      | .error _ => true
      | .ok sms => sms.all fun sm => match sm.get? K.wlDim with
        | none => true
        | some w => w.all fun x => decide (x.1 ∉ (n.node.layer.rel n.weight).ir)

theorem straight_ok {K : Chip Nat} {a : AccD Nat} {ns : List (Node Nat Nat)} (h : straight K a ns = true) : ∀ s, Reuse.plan a (graph ns) (chain ns) = .ok s →
    ∀ n ∈ chain ns, n.node.skip = false → ∀ b, Reuse.reduced (fun _ => (0, 0)) a s n = .ok b → ∀ sms, Net.spatialMappings (opts 1 none id) b n.node = .ok sms →
      ∀ sm ∈ sms, Straight K n sm := by
  intro s hs n hn _ b hb sms hm sm hsm w hw x hx
  unfold straight at h
  rw [hs] at h
  have h := List.all_eq_true.1 h n hn
  rw [hb] at h
  simp only at h
  rw [hm] at h
  have h := List.all_eq_true.1 h sm hsm
  rw [hw] at h
  exact of_decide_eq_true (List.all_eq_true.1 h x hx)

/-- Two layers: energy, latency, and the area of the array and of both memories. -/
example : (∃ r, call (chip 8) (file 64 []) "energy" [layer 2, layer 2] 40 = .ok r ∧ r.energy = 2493503 / 15625 ∧ r.latency = 8) ∧
    ∃ r f, call (chip 8) (file 64 []) "energy" [layer 2, layer 2] 40 = .ok r ∧ r.first = some f ∧ f.area = 3250096091 / 250000000 ∧
      (f.parts.find? fun x => x.1 = "local_bl_precharging").map Prod.snd = some 0 :=
  ⟨result_ok (show result _ = some (_, _) by decide +kernel), first_ok (show first _ = some (_, _) by decide +kernel)⟩

/-- Non-trivial case of `imc_outcome`: this call answers for every criterion for which the one without the array does. -/
example : ∃ N, ∀ fuel, N ≤ fuel → ∀ opt, (∃ ans, call (chip 8) (file 64 []) opt [layer 2, layer 2] fuel = .ok ans) ↔
    ∃ ans, Reuse.Ex.local_ (file 64 []) opt (graph [layer 2, layer 2]) (chain [layer 2, layer 2]) fuel = .ok ans := by
  obtain ⟨N, h⟩ := imc_outcome (cacti := fun _ => (0, 0)) (K := chip 8) file_ok (stacked 64 []) (optsOk (nb := 1) (limit := none) (setOrder := id) (by decide)
    (fun k h => by cases h) (fun l => .refl _)) quickOk (uniform 64 [] (layer 2) (layer 2) rfl rfl).fits layers_ok (chip_ok 8) (straight_ok (by decide +kernel))
  refine ⟨N, fun fuel hf opt => (h fuel hf opt).trans ⟨fun h => h.2.2.1, fun h => ⟨?_, ?_, h, lnode 0 (layer 2), List.mem_cons_self, rfl⟩⟩⟩
  · exact (Imc.area_ok_iff arr).2 ⟨fun _ => ⟨1, by decide⟩, ⟨0, by decide⟩⟩
  · have : (Imc.getTclk arr).toOption.isSome = true := by decide +kernel
    cases ht : Imc.getTclk arr with
    | error e => rw [ht] at this; cases this
    | ok t => exact ⟨t, ht⟩

/-- Non-trivial case of `imc_bounds`: the energy is at least that of the multiplications of sixteen operations. -/
example : ∃ N, ∀ fuel, N ≤ fuel → ∀ opt ans, call (chip 8) (file 64 []) opt [layer 2, layer 2] fuel = .ok ans → 4536 / 15625 ≤ ans.energy := by
  obtain ⟨N, h⟩ := imc_bounds (cacti := fun _ => (0, 0)) (K := chip 8) file_ok (stacked 64 []) (optsOk (nb := 1) (limit := none) (setOrder := id) (by decide)
    (fun k h => by cases h) (fun l => .refl _)) quickOk (uniform 64 [] (layer 2) (layer 2) rfl rfl).fits layers_ok (chip_ok 8)
  refine ⟨N, fun fuel hf opt ans ha => ?_⟩
  have := (h fuel hf opt ans ha).2 (fun m hm => by
    simp only [file, List.mem_cons, List.not_mem_nil, or_false] at hm
    rcases hm with rfl | rfl <;> norm_num [Whole.prices])
  have hsum : (((chain [layer 2, layer 2]).filter fun n => !n.node.skip).map fun n => multiply (chip 8).arr * Whole.operations n.node.layer).sum = 4536 / 15625 := by
    decide +kernel
  rw [hsum] at this
  exact this

/-- C166: the area that a call returns is not that of the accelerator. For the same accelerator and the same two layers in another order it is 13.0004 or 6.0004: only
memories that the first layer needs are counted. -/
theorem area_first_false :
    (∃ r f, call (chip 8) (file 128 [0, 1]) "energy" [layer 4, layer 2] 40 = .ok r ∧ r.first = some f ∧ f.area = 3250096091 / 250000000 ∧
      (f.parts.find? fun x => x.1 = "local_bl_precharging").map Prod.snd = some 0) ∧
    ∃ r f, call (chip 8) (file 128 [0, 1]) "energy" [layer 2, layer 4] 40 = .ok r ∧ r.first = some f ∧ f.area = 1500096091 / 250000000 ∧
      (f.parts.find? fun x => x.1 = "local_bl_precharging").map Prod.snd = some 0 :=
  ⟨first_ok (show first _ = some (_, _) by decide +kernel), first_ok (show first _ = some (_, _) by decide +kernel)⟩

/-- The layer with repeated accesses to the same data counted once, as the API asks for. -/
def still : Node Nat Nat := { layer 4 with layer := { (layer 4).layer with noAccess := true } }

/-- C166: precharging is billed for fewer weights than a layer has. A layer with four weights in four groups of two cells, each used in four cycles, is billed the precharging of one: that the
same weight stays in use is taken off twice, by the reads and by the interval. -/
theorem precharge_twice_false :
    (∃ r f, call (chip 16) (file 128 []) "energy" [layer 4] 40 = .ok r ∧ r.first = some f ∧ f.area = 3250096091 / 250000000 ∧
      (f.parts.find? fun x => x.1 = "local_bl_precharging").map Prod.snd = some (1701 / 62500)) ∧
    (∃ r f, call (chip 16) (file 128 []) "energy" [still] 40 = .ok r ∧ r.first = some f ∧ f.area = 3250096091 / 250000000 ∧
      (f.parts.find? fun x => x.1 = "local_bl_precharging").map Prod.snd = some (1701 / 250000)) ∧
    (Imc.tech28.wlCap * Imc.tech28.vdd ^ 2 + Imc.tech28.blCap * Imc.tech28.vdd ^ 2 * 2) * 8 = 1701 / 250000 :=
  ⟨first_ok (show first _ = some (_, _) by decide +kernel), first_ok (show first _ = some (_, _) by decide +kernel), by decide +kernel⟩

/-- C166: without `Straight` the array may fail a call that answers otherwise. A dimension of a matrix product on which the weights do not depend is unrolled along the wordlines: no other
dimension is paired with it and a `KeyError` is raised. -/
theorem across_crash : Net.FileOk (file 64 []) ∧ Net.NodeOk (file 64 []) across rl [] ∧
    (∃ r, Reuse.Ex.local_ (file 64 []) "energy" (graph [across]) (chain [across]) 40 = .ok r ∧ r.energy = 84 ∧ r.latency = 4) ∧
    call (chip 8) (file 64 []) "energy" [across] 40 = .error .keyError :=
  ⟨file_ok, nodeC (by decide +kernel), Reuse.Ex.result_ok (show Reuse.Ex.result _ = some (_, _) by decide +kernel),
    raised_error (show raised _ = some _ by decide +kernel)⟩

end Verif.ImcCall.Ex
