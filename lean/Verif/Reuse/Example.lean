import Verif.Reuse.Props
import Verif.Reuse.Room
import Verif.Reuse.RoomAll
import Verif.Compare.Cases

/-! Concrete calls in which data stay in lower memories (C165). -/

namespace Verif.Reuse.Ex

open Compare.Ex
open Evaluate.Ex (rl)
open Latency (Operand)
open Net (Node)
open Ports (MemD)
open Whole (AccD)

/-- A memory for everything, for the dimensions `served` of the array, below a main memory. -/
def stack (small : Int) (served : List Nat) : AccD Nat := ⟨[
  { size := small, auto := false, rCost := some 1, wCost := some 1, area := some 0, operands := [.in1, .in2, .out], served := served
    ports := [⟨"r1", .read, 1, 8, [(.in1, .rdLow)]⟩, ⟨"r2", .read, 1, 8, [(.in2, .rdLow)]⟩, ⟨"r3", .read, 1, 8, [(.out, .rdLow)]⟩, ⟨"r4", .read, 1, 8, [(.out, .rdHigh)]⟩,
      ⟨"w1", .write, 1, 8, [(.in1, .wrHigh)]⟩, ⟨"w2", .write, 1, 8, [(.in2, .wrHigh)]⟩, ⟨"w3", .write, 1, 8, [(.out, .wrLow)]⟩, ⟨"w4", .write, 1, 8, [(.out, .wrHigh)]⟩] },
  { size := 100000, auto := false, rCost := some 10, wCost := some 10, area := none, operands := [.in1, .in2, .out], served := [0]
    ports := [⟨"rw1", .readWrite, 1, 8, [(.in1, .rdLow), (.in1, .wrHigh)]⟩, ⟨"rw2", .readWrite, 1, 8, [(.in2, .rdLow), (.in2, .wrHigh)]⟩,
      ⟨"rw3", .readWrite, 1, 8, [(.out, .rdLow), (.out, .rdHigh), (.out, .wrLow), (.out, .wrHigh)]⟩] }], [(0, 2)], 1 / 2⟩

theorem stacked (small : Int) (served : List Nat) : Stacked (stack small served).mems := by
  intro i j l a b c hij hjl ha hb hc
  have := (List.getElem?_eq_some_iff.1 hc).1
  simp [stack] at this
  omega

/-- A layer with constant weights. -/
def lnode (id : Nat) (n : Node Nat Nat) : LNode Nat Nat := ⟨n, false, id, .in1, .in2, false⟩
/-- A layer of 2 × 2 × 2. -/
def cubic : Node Nat Nat := node (2, 2, 2) eight 8 [] []
/-- Layers one after the other. -/
def chain (ns : List (Node Nat Nat)) : List (LNode Nat Nat) := ns.zipIdx.map fun x => lnode x.2 x.1
/-- The graph of such a network. -/
def graph (ns : List (Node Nat Nat)) : Graph Nat Nat :=
  ⟨fun i => if i + 1 < ns.length then [i + 1] else [], fun i => if 0 < i ∧ i < ns.length then [i - 1] else [], lnode 0 cubic⟩

/-- A call with the stages for locality. -/
def local_ (a : AccD Nat) (opt : String) (g : Graph Nat Nat) (nodes : List (LNode Nat Nat)) (fuel : Nat) : Except PyErr (Reply Nat Nat) :=
  network (fun _ => (0, 0)) quick a (opts 1 none id) opt g nodes fuel

/-- Energy and latency. -/
def result (r : Except PyErr (Reply Nat Nat)) : Option (ℚ × ℚ) :=
  match r with
  | .ok a => some (a.energy, a.latency)
  | .error _ => none

theorem result_ok {r : Except PyErr (Reply Nat Nat)} {e l : ℚ} (h : result r = some (e, l)) : ∃ a, r = .ok a ∧ a.energy = e ∧ a.latency = l := by
  cases r with
  | error x => cases h
  | ok a =>
    cases h
    exact ⟨a, rfl, rfl, rfl⟩

/-- The exception. -/
def raised (r : Except PyErr (Reply Nat Nat)) : Option PyErr :=
  match r with
  | .ok _ => none
  | .error e => some e

theorem raised_error {r : Except PyErr (Reply Nat Nat)} {e : PyErr} (h : raised r = some e) : r = .error e := by
  cases r with
  | error x => cases h; rfl
  | ok a => cases h

theorem uniform_pair (small : Int) (served : List Nat) (n1 n2 : Node Nat Nat) (h1 : n1.layer.ops = [.out, .in1, .in2]) (h2 : n2.layer.ops = [.out, .in1, .in2]) :
    Uniform (stack small served) (graph [n1, n2]) (chain [n1, n2]) .in1 .in2 where
  names n hn _ := by
    simp only [chain, List.zipIdx_cons, List.zipIdx_nil, List.map_cons, List.map_nil, List.mem_cons, List.not_mem_nil, or_false] at hn
    rcases hn with rfl | rfl <;> exact ⟨rfl, rfl, rfl⟩
  root := ⟨rfl, rfl⟩
  distinct := by decide
  memories m hm := by
    simp only [stack, List.mem_cons, List.not_mem_nil, or_false] at hm
    rcases hm with rfl | rfl <;> simp
  top := ⟨_, rfl, by simp, by simp, by simp⟩
  ids := by
    show ([0, 1] : List Nat).Nodup
    decide
  topo pre n post h p hp := by
    have h' : [lnode 0 n1, lnode 1 n2] = pre ++ n :: post := h
    rcases pre with _ | ⟨x, _ | ⟨y, pre⟩⟩
    · simp only [List.nil_append, List.cons.injEq] at h'
      obtain ⟨rfl, -⟩ := h'
      simp [graph, lnode] at hp
    · simp only [List.cons_append, List.nil_append, List.cons.injEq] at h'
      obtain ⟨rfl, rfl, -⟩ := h'
      simp only [graph, lnode, List.length_cons, List.length_nil] at hp
      exact ⟨_, List.mem_cons_self, by simp at hp; simp [hp, lnode]⟩
    · simp at h'
  symm u v := by
    simp only [graph, List.length_cons, List.length_nil]
    split_ifs <;> simp <;> omega
  dummies n hn _ := by
    simp only [chain, List.zipIdx_cons, List.zipIdx_nil, List.map_cons, List.map_nil, List.mem_cons, List.not_mem_nil, or_false] at hn
    rcases hn with rfl | rfl <;> rfl
  operands n hn _ op hop := by
    simp only [chain, List.zipIdx_cons, List.zipIdx_nil, List.map_cons, List.map_nil, List.mem_cons, List.not_mem_nil, or_false] at hn
    cases op <;> simp

theorem cubic_ok (id : Nat) : LayerOk (stack 64 []) (lnode id cubic) rl [] where
  node := nodeC (by decide +kernel)
  delivers m hm op hop p hp _ := by
    simp only [stack, List.mem_cons, List.not_mem_nil, or_false] at hm
    rcases hm with rfl | rfl
    · simp only [List.mem_cons, List.not_mem_nil, or_false] at hp
      rcases hp with rfl | rfl | rfl | rfl | rfl | rfl | rfl | rfl <;> exact (show ((8 : Nat) : Int) ≤ 8 by decide)
    · simp only [List.mem_cons, List.not_mem_nil, or_false] at hp
      rcases hp with rfl | rfl | rfl <;> exact (show ((8 : Nat) : Int) ≤ 8 by decide)
  holds m hm op hop := by
    simp only [stack, List.mem_cons, List.not_mem_nil, or_false] at hm
    rcases hm with rfl | rfl
    · exact (show ((8 : Nat) : Int) ≤ 64 by decide)
    · exact (show ((8 : Nat) : Int) ≤ 100000 by decide)

theorem file_ok : Net.FileOk (stack 64 []) := fileC (by decide +kernel)

/-- Two layers whose data stay in the memories of the units, compared with the call without these stages. -/
example : (∃ r, local_ (stack 64 []) "energy" (graph [cubic, cubic]) (chain [cubic, cubic]) 40 = .ok r ∧ r.energy = 168 ∧ r.latency = 16) ∧
    (∃ r, call (stack 64 []) (opts 1 none id) "energy" [cubic, cubic] 40 = .ok r ∧ r.energy = 344 ∧ r.latency = 20) :=
  ⟨result_ok (show result _ = some (_, _) by decide +kernel), answer_ok (show answer _ = some (_, _) by decide +kernel)⟩

/-- Non-trivial case of C165: whatever the criterion and the fuel from some point on, such a call answers at least the energy of the multiplications. -/
example : ∃ N, ∀ fuel, N ≤ fuel → ∀ opt ans, local_ (stack 64 []) opt (graph [cubic, cubic]) (chain [cubic, cubic]) fuel = .ok ans → 8 ≤ ans.energy := by
  obtain ⟨N, h⟩ := call_bounds (cacti := fun _ => (0, 0)) file_ok (stacked 64 []) (optsOk (nb := 1) (limit := none) (setOrder := id) (by decide) (fun k h => by cases h)
    (fun l => .refl _)) quickOk (uniform_pair 64 [] cubic cubic rfl rfl).fits fun n hn _ => by
      simp only [chain, List.zipIdx_cons, List.zipIdx_nil, List.map_cons, List.map_nil, List.mem_cons, List.not_mem_nil, or_false] at hn
      rcases hn with rfl | rfl
      · exact ⟨rl, [], cubic_ok 0⟩
      · exact ⟨rl, [], cubic_ok 1⟩
  refine ⟨N, fun fuel hf opt ans ha => ?_⟩
  have := (h fuel hf opt ans ha).2 fun m hm => by
    simp only [stack, List.mem_cons, List.not_mem_nil, or_false] at hm
    rcases hm with rfl | rfl <;> norm_num [Whole.prices]
  have hsum : (((chain [cubic, cubic]).filter fun n => !n.node.skip).map fun n => (stack 64 []).macEnergy * Whole.operations n.node.layer).sum = 8 := by
    decide +kernel
  rw [hsum] at this
  exact this

/-- Non-trivial case of the hand-over: the first layer writes to the memory from which the second one reads. -/
example (s : Locality.St Operand) (h : plan (stack 64 []) (graph [cubic, cubic]) (chain [cubic, cubic]) = .ok s) :
    ∃ i : Nat, levelFor s (lnode 0 cubic) .out = some (i : Int) ∧ levelFor s (lnode 1 cubic) .in1 = some (i : Int) := by
  obtain ⟨i, m, -, -, -, h1, h2⟩ := handed_over (uniform_pair 64 [] cubic cubic rfl rfl).fits h (u := lnode 0 cubic) (v := lnode 1 cubic) List.mem_cons_self
    (List.mem_cons_of_mem _ List.mem_cons_self) rfl rfl (by decide)
  exact ⟨i, h1, h2⟩

/-- Non-trivial case of the room for data: the results of the first layer stay in a memory that has room for them, the inputs and the weights of both layers. -/
example (s : Locality.St Operand) (h : plan (stack 64 []) (graph [cubic, cubic]) (chain [cubic, cubic]) = .ok s) :
    ∃ (i : Nat) (m : MemD Operand Nat), (stack 64 []).mems[i]? = some m ∧ levelFor s (lnode 0 cubic) .out = some (i : Int) ∧
      Room (stack 64 []) (chain [cubic, cubic]) .in2 (fun v op => data v.node.layer rl [] op) (lnode 0 cubic) .in1 m := by
  obtain ⟨i, m, h1, h2, -, -, h3, -⟩ := kept_room (rl := fun _ => rl) (rels := fun _ => []) (uniform_pair 64 [] cubic cubic rfl rfl) h (u := lnode 0 cubic)
    (fun n hn _ => by
      have : n.node = cubic := by
        simp only [chain, List.zipIdx_cons, List.zipIdx_nil, List.map_cons, List.map_nil, List.mem_cons, List.not_mem_nil, or_false] at hn
        rcases hn with rfl | rfl <;> rfl
      rw [this]
      exact ⟨nodeC (by decide +kernel), fun op _ r hr => by cases hr⟩)
    List.mem_cons_self rfl (by decide) (by decide)
  exact ⟨i, m, h1, h2, h3⟩

/-- A layer of 2 × 2 × 2 with the second dimension unrolled over the array. -/
def spread : Node Nat Nat := node (2, 2, 2) eight 8 [(0, [(1, 2)])] []

/-- C165: a call that answers without the stages for locality may fail with them. The room in the memories of the units is counted as a whole, but both units need a copy of
the inputs; the main memory is removed and no loop order fits any more. -/
theorem duplicates_crash : Net.FileOk (stack 48 []) ∧ Net.NodeOk (stack 48 []) spread rl [] ∧
    (∃ r, call (stack 48 []) (opts 1 none id) "energy" [spread] 40 = .ok r ∧ r.energy = 172 ∧ r.latency = 8) ∧
    local_ (stack 48 []) "energy" (graph [spread]) (chain [spread]) 40 = .error .noValidOrdering :=
  ⟨fileC (by decide +kernel), nodeC (by decide +kernel), answer_ok (show answer _ = some (_, _) by decide +kernel),
    raised_error (show raised _ = some _ by decide +kernel)⟩

/-- C165: data that the network reads and writes are never moved from or to the main memory. A shared memory with room for everything is left alone for the layer, and the
answer has energy 36: that of 8 multiplications and 32 accesses for them. -/
theorem never_loaded_false : Net.FileOk (stack 96 [0]) ∧ Net.NodeOk (stack 96 [0]) cubic rl [] ∧
    (∃ s b, plan (stack 96 [0]) (graph [cubic]) (chain [cubic]) = .ok s ∧ reduced (fun _ => (0, 0)) (stack 96 [0]) s (lnode 0 cubic) = .ok b ∧ b.mems.map MemD.size = [96]) ∧
    (∃ r, local_ (stack 96 [0]) "energy" (graph [cubic]) (chain [cubic]) 40 = .ok r ∧ r.energy = 36 ∧ r.latency = 8) ∧
    (∃ r, call (stack 96 [0]) (opts 1 none id) "energy" [cubic] 40 = .ok r ∧ r.energy = 168 ∧ r.latency = 16) := by
  refine ⟨fileC (by decide +kernel), nodeC (by decide +kernel), ?_, result_ok (show result _ = some (_, _) by decide +kernel),
    answer_ok (show answer _ = some (_, _) by decide +kernel)⟩
  have h : (match plan (stack 96 [0]) (graph [cubic]) (chain [cubic]) with
    | .ok s => (match reduced (fun _ => (0, 0)) (stack 96 [0]) s (lnode 0 cubic) with
      | .ok b => some (b.mems.map MemD.size)
      | .error _ => none)
    | .error _ => none) = some [96] := by decide +kernel
  cases hs : plan (stack 96 [0]) (graph [cubic]) (chain [cubic]) with
  | error e => rw [hs] at h; cases h
  | ok s =>
    rw [hs] at h
    simp only at h
    cases hb : reduced (fun _ => (0, 0)) (stack 96 [0]) s (lnode 0 cubic) with
    | error e => rw [hb] at h; cases h
    | ok b =>
      rw [hb] at h
      exact ⟨s, b, rfl, hb, Option.some.inj h⟩

/-- One layer followed by two. -/
def fork : Graph Nat Nat := ⟨fun i => if i = 0 then [1, 2] else [], fun i => if i = 1 ∨ i = 2 then [0] else [], lnode 0 cubic⟩

/-- C165: networks with two outputs have no answer with the stages for locality: the call raises a RuntimeError. -/
theorem two_outputs_crash : (∃ r, call (stack 64 []) (opts 1 none id) "energy" [cubic, cubic, cubic] 40 = .ok r ∧ r.energy = 516 ∧ r.latency = 30) ∧
    local_ (stack 64 []) "energy" fork (chain [cubic, cubic, cubic]) 40 = .error .runtimeError :=
  ⟨answer_ok (show answer _ = some (_, _) by decide +kernel), raised_error (show raised _ = some _ by decide +kernel)⟩

/-- A layer without constants, which reads the results of the one before it twice. -/
def both (id : Nat) (n : Node Nat Nat) : LNode Nat Nat := ⟨n, false, id, .in2, .in1, true⟩

theorem fits_sum : Fits (stack 64 []) (graph [cubic, cubic]) [lnode 0 cubic, both 1 cubic] .in1 .in2 :=
  have U := uniform_pair 64 [] cubic cubic rfl rfl
  { names := fun n hn _ => by
      simp only [List.mem_cons, List.not_mem_nil, or_false] at hn
      rcases hn with rfl | rfl
      · exact .inl ⟨rfl, rfl⟩
      · exact .inr ⟨rfl, rfl⟩
    root := ⟨.inl rfl, .inr rfl⟩
    early := .inr fun i m _ op hop _ => ⟨0, _, Nat.zero_le _, rfl, by rcases hop with rfl | rfl <;> simp⟩
    distinct := U.distinct, memories := U.memories, top := U.top
    ids := by
      show ([0, 1] : List Nat).Nodup
      decide
    topo := fun pre n post h p hp => by
      have h' : [lnode 0 cubic, both 1 cubic] = pre ++ n :: post := h
      rcases pre with _ | ⟨x, _ | ⟨y, pre⟩⟩
      · simp only [List.nil_append, List.cons.injEq] at h'
        obtain ⟨rfl, -⟩ := h'
        simp [graph, lnode] at hp
      · simp only [List.cons_append, List.nil_append, List.cons.injEq] at h'
        obtain ⟨rfl, rfl, -⟩ := h'
        simp only [graph, both, List.length_cons, List.length_nil] at hp
        exact ⟨_, List.mem_cons_self, by simp at hp; simp [hp, lnode]⟩
      · simp at h'
    symm := U.symm
    dummies := fun n hn _ => by
      simp only [List.mem_cons, List.not_mem_nil, or_false] at hn
      rcases hn with rfl | rfl <;> rfl
    operands := fun n hn _ op hop => by
      simp only [List.mem_cons, List.not_mem_nil, or_false] at hn
      cases op <;> simp }

/-- Non-trivial case of C165 with a layer without constants: whatever the criterion and the fuel from some point on, the call answers at least the energy of the
multiplications. -/
example : (∃ r, local_ (stack 640 []) "energy" (graph [cubic, cubic]) [lnode 0 cubic, both 1 cubic] 40 = .ok r ∧ r.energy = 120 ∧ r.latency = 12) ∧
    ∃ N, ∀ fuel, N ≤ fuel → ∀ opt ans, local_ (stack 64 []) opt (graph [cubic, cubic]) [lnode 0 cubic, both 1 cubic] fuel = .ok ans → 8 ≤ ans.energy := by
  refine ⟨result_ok (show result _ = some (_, _) by decide +kernel), ?_⟩
  obtain ⟨N, h⟩ := call_bounds (cacti := fun _ => (0, 0)) file_ok (stacked 64 []) (optsOk (nb := 1) (limit := none) (setOrder := id) (by decide) (fun k h => by cases h)
    (fun l => .refl _)) quickOk fits_sum fun n hn _ => by
      simp only [List.mem_cons, List.not_mem_nil, or_false] at hn
      rcases hn with rfl | rfl
      · exact ⟨rl, [], cubic_ok 0⟩
      · exact ⟨rl, [], ⟨(cubic_ok 1).node, (cubic_ok 1).delivers, (cubic_ok 1).holds⟩⟩
  refine ⟨N, fun fuel hf opt ans ha => ?_⟩
  have := (h fuel hf opt ans ha).2 fun m hm => by
    simp only [stack, List.mem_cons, List.not_mem_nil, or_false] at hm
    rcases hm with rfl | rfl <;> norm_num [Whole.prices]
  have hsum : (([lnode 0 cubic, both 1 cubic].filter fun n => !n.node.skip).map fun n => (stack 64 []).macEnergy * Whole.operations n.node.layer).sum = 8 := by
    decide +kernel
  rw [hsum] at this
  exact this

/-- Non-trivial case of the room for data of a layer without constants: its results stay in a memory that has room for them and for both inputs. -/
example (s : Locality.St Operand) (h : plan (stack 64 []) (graph [cubic, cubic]) [lnode 0 cubic, both 1 cubic] = .ok s) :
    ∃ (i : Nat) (m : MemD Operand Nat), (stack 64 []).mems[i]? = some m ∧ levelFor s (both 1 cubic) .out = some (i : Int) ∧
      data cubic.layer rl [] .in1 + data cubic.layer rl [] .in2 + data cubic.layer rl [] .out ≤
        m.size.toNat * (((stack 64 []).sizes.filter fun d => decide (d.1 ∉ m.served)).map Prod.snd).prod := by
  obtain ⟨b, i, m, -, h1, h2, -, -, h3, -⟩ := kept_room_all (rl := fun _ => rl) (rels := fun _ => []) fits_sum h (u := both 1 cubic)
    (fun n hn _ => by
      have : n.node = cubic := by
        simp only [List.mem_cons, List.not_mem_nil, or_false] at hn
        rcases hn with rfl | rfl <;> rfl
      rw [this]
      exact ⟨nodeC (by decide +kernel), fun op _ r hr => by cases hr⟩)
    (List.mem_cons_of_mem _ List.mem_cons_self) rfl (by decide) (by decide)
  refine ⟨i, m, h1, h2, ?_⟩
  unfold RoomFor needed at h3
  rw [if_pos (show (both 1 cubic).adder = true from rfl)] at h3
  refine le_of_eq_of_le ?_ h3
  show _ = (([.in1, .in2] : List Operand).map _).sum + _
  rw [List.map_cons, List.map_cons, List.map_nil, List.sum_cons, List.sum_cons, List.sum_nil, add_zero]
  rfl

/-- A memory for inputs and outputs of the whole array listed before the one for weights. -/
def shelf (size : Int) : AccD Nat := ⟨[
  { size := size, auto := false, rCost := some 1, wCost := some 1, area := some 0, operands := [.in1, .out], served := [0]
    ports := [⟨"r1", .read, 1, 8, [(.in1, .rdLow)]⟩, ⟨"r3", .read, 1, 8, [(.out, .rdLow)]⟩, ⟨"r4", .read, 1, 8, [(.out, .rdHigh)]⟩,
      ⟨"w1", .write, 1, 8, [(.in1, .wrHigh)]⟩, ⟨"w3", .write, 1, 8, [(.out, .wrLow)]⟩, ⟨"w4", .write, 1, 8, [(.out, .wrHigh)]⟩] },
  { size := 64, auto := false, rCost := some 1, wCost := some 1, area := some 0, operands := [.in2], served := [0]
    ports := [⟨"r2", .read, 1, 8, [(.in2, .rdLow)]⟩, ⟨"w2", .write, 1, 8, [(.in2, .wrHigh)]⟩] },
  { size := 100000, auto := false, rCost := some 10, wCost := some 10, area := none, operands := [.in1, .in2, .out], served := [0]
    ports := [⟨"rw1", .readWrite, 1, 8, [(.in1, .rdLow), (.in1, .wrHigh)]⟩, ⟨"rw2", .readWrite, 1, 8, [(.in2, .rdLow), (.in2, .wrHigh)]⟩,
      ⟨"rw3", .readWrite, 1, 8, [(.out, .rdLow), (.out, .rdHigh), (.out, .wrLow), (.out, .wrHigh)]⟩] }], [(0, 2)], 1 / 2⟩

/-- C165: an addition behind a layer can take away the memories for the weights of that layer. The weights are put into the memory for inputs and outputs, because the addition
keeps one of its inputs in it; without the addition, and without the stages for locality, the call has an answer. -/
theorem weights_lost_crash : Net.FileOk (shelf 640) ∧ Net.NodeOk (shelf 640) cubic rl [] ∧
    (∃ r, call (shelf 640) (opts 1 none id) "energy" [cubic, cubic] 40 = .ok r ∧ r.energy = 336 ∧ r.latency = 32) ∧
    (∃ r, local_ (shelf 640) "energy" (graph [cubic, cubic]) [lnode 0 cubic, lnode 1 cubic] 40 = .ok r ∧ r.energy = 72 ∧ r.latency = 16) ∧
    local_ (shelf 640) "energy" (graph [cubic, cubic]) [lnode 0 cubic, both 1 cubic] 40 = .error .indexError :=
  ⟨fileC (by decide +kernel), nodeC (by decide +kernel), answer_ok (show answer _ = some (_, _) by decide +kernel),
    result_ok (show result _ = some (_, _) by decide +kernel), raised_error (show raised _ = some _ by decide +kernel)⟩

end Verif.Reuse.Ex
