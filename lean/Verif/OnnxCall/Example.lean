import Verif.OnnxCall.Props
import Verif.Call.Example

/-! A concrete model for C154: a convolution, an activation, a reshaping and a product of matrices, on the accelerator and the mapping file of `Call.Ex`. -/

namespace Verif.OnnxCall

open Call.Ex (accDoc acc accSays fileOk mapDoc cacti options optionsOk gemmEntry convEntry gemmAttr convAttr report of_toOption innermost_mem)
open Equation (Text)
open Files (Doc MapR MapAttr)
open Latency (Operand)
open LayerBuild (tx)
open Onnx (OModel ConvOp)
open OnnxModel (OpNode)

namespace Ex

def model : OModel where
  inputs := [("x", [0, 1, 2, 3])]
  outputs := [("y", [1, 2])]
  hidden := [("a", [0, 2, 1, 2]), ("b", [0, 2, 1, 2]), ("c", [1, 4])]
  inits := [("v", [2, 1, 2, 2]), ("w", [4, 2])]

def nodes : List OpNode :=
  [⟨"Conv", "", ["x", "v"], ["a"], [("kernel_shape", .ints [2, 2]), ("weight_size", .int 4)]⟩,
   ⟨"Relu", "act", ["a"], ["b"], []⟩,
   ⟨"Flatten", "flat", ["b"], ["c"], []⟩,
   ⟨"Gemm", "last", ["c", "w"], ["y"], [("output_size", .int 24)]⟩]

def convOp : ConvOp := ⟨0, 1, 2, 3, 2, 1, 2, 2, 1, 1, 1, 1, 0, 0, 0, 0⟩

def conv : Layer := ⟨.conv convOp, ⟨8, 4, 16⟩, convEntry, convAttr, fun t => if t = tx "O" then .out else if t = tx "W" then .in1 else .in2⟩
def gemm : Layer := ⟨.product [] 1 4 2, ⟨8, 8, 24⟩, gemmEntry, gemmAttr, fun t => if t = tx "O" then .out else if t = tx "W" then .in2 else .in1⟩

def layers : List (Option Layer) := [some conv, none, none, some gemm]

theorem convIs : IsConv model (nodes[0]) convOp where
  op := .inl rfl
  valid := by refine ⟨?_, ?_, ?_, ?_, ?_, ?_, ?_, ?_, ?_, ?_, ?_, ?_, ?_, ?_, ?_⟩ <;> decide
  kernel := by decide +kernel
  strides := .inr (by decide +kernel)
  dilations := .inr (by decide +kernel)
  group := .inr (by decide +kernel)
  pads := .inr (by decide +kernel)
  input := ⟨"x", rfl, by decide +kernel⟩
  output := ⟨"a", rfl, by decide +kernel⟩

theorem gemmIs : IsProduct model (nodes[3]) [] 1 4 2 where
  op := .inr rfl
  pos := by decide
  rank := by decide
  input := .inl ⟨.inr (by decide +kernel), "c", rfl, by decide +kernel⟩
  output := ⟨"y", rfl, by decide +kernel⟩

theorem wide (l : Layer) (hl : l = conv ∨ l = gemm) (k : Nat) (hk : k = 0 ∨ k = 1) : ∀ m ∈ acc.mems, ∀ t ∈ operands l k, (∀ p ∈ m.ports, (t.2 : Int) ≤ p.bwMax) ∧ (t.2 : Int) ≤ m.size := by
  rcases hl with rfl | rfl <;> rcases hk with rfl | rfl <;> decide +kernel

theorem counts : computed nodes 0 = 0 ∧ computed nodes 3 = 1 := by decide +kernel

theorem convFits : Fits acc conv (computed nodes 0) := by
  rw [counts.1]
  exact
    { sources := by decide
      attr := of_toOption (by decide +kernel)
      link := by decide +kernel
      out := rfl
      stored := by decide +kernel
      linked := by decide +kernel
      delivers := fun m hm t ht _ p hp _ => (wide conv (.inl rfl) 0 (.inl rfl) m (innermost_mem hm) t ht).1 p hp
      holds := fun m hm t ht _ => (wide conv (.inl rfl) 0 (.inl rfl) m (innermost_mem hm) t ht).2
      user := by decide +kernel
      order := by decide +kernel }

theorem gemmFits : Fits acc gemm (computed nodes 3) := by
  rw [counts.2]
  exact
    { sources := by decide
      attr := of_toOption (by decide +kernel)
      link := by decide +kernel
      out := rfl
      stored := by decide +kernel
      linked := by decide +kernel
      delivers := fun m hm t ht _ p hp _ => (wide gemm (.inr rfl) 1 (.inr rfl) m (innermost_mem hm) t ht).1 p hp
      holds := fun m hm t ht _ => (wide gemm (.inr rfl) 1 (.inr rfl) m (innermost_mem hm) t ht).2
      user := by decide +kernel
      order := by decide +kernel }

theorem modelIs : ModelIs acc model nodes mapDoc layers where
  length := rfl
  entries := by
    refine ⟨[gemmEntry, convEntry], of_toOption (by decide +kernel), ?_⟩
    intro k n l hn hl
    rcases k with _ | _ | _ | _ | k
    · cases hn
      cases hl
      exact ⟨⟨convIs, ⟨.inr (by decide +kernel), .inl (by decide +kernel), .inr (by decide +kernel)⟩, Call.chosen_iff.2 (of_toOption (by decide +kernel))⟩, convFits⟩
    · cases hl
    · cases hl
    · cases hn
      cases hl
      exact ⟨⟨gemmIs, ⟨.inr (by decide +kernel), .inr (by decide +kernel), .inl (by decide +kernel)⟩, Call.chosen_iff.2 (of_toOption (by decide +kernel))⟩, gemmFits⟩
    · cases hn
  others := by
    intro k n hn hl
    unfold Other
    rcases k with _ | _ | _ | _ | k
    · cases hl
    · cases hn
      decide
    · cases hn
      decide
    · cases hl
    · cases hn
  forward := by
    intro i j ⟨a, b, t, ha, hb, h1, h2⟩
    rcases i with _ | _ | _ | _ | i <;> rcases j with _ | _ | _ | _ | j <;> cases ha <;> cases hb <;> first | omega | (revert t; decide +kernel)

end Ex

open Ex

/-! ### Cases that meet the hypotheses -/

/-- The convolution and the product are evaluated. -/
example : report (call cacti Net.Ex.few ⟨false, false⟩ options "energy" accDoc model nodes mapDoc 40) = some (44, 32, 2) := by decide +kernel

/-- The layers are evaluated in the order of the model. -/
example : ∃ ns order, workload ⟨false, false⟩ model nodes mapDoc = .ok ns ∧ Sorted nodes order ∧ ns.length = (layersIn layers order).length := by
  obtain ⟨ns, h, order, ho, hf⟩ := workload_model modelIs ⟨false, false⟩
  exact ⟨ns, order, h, ho, hf.length_eq.symm⟩

/-- The convolution and the product are parsed, nothing else is evaluated. -/
example : ∃ ns, workload ⟨false, false⟩ model nodes mapDoc = .ok ns ∧ ns.length = 2 := by
  obtain ⟨ns, h, -⟩ := workload_model modelIs ⟨false, false⟩
  obtain ⟨ms, xs, -, hf, hp⟩ := nothing_left_out h
  refine ⟨ns, h, ?_⟩
  rw [hp.length_eq, ← hf.length_eq]
  decide +kernel

/-- The call on the model ends. -/
example : ∃ N, ∀ fuel, N ≤ fuel → ∀ opt, Net.Known opt →
    (∃ ans, call cacti Whole.Ex.fact ⟨false, false⟩ options opt accDoc model nodes mapDoc fuel = .ok ans) ∨
      ∃ e, call cacti Whole.Ex.fact ⟨false, false⟩ options opt accDoc model nodes mapDoc fuel = .error e ∧ e ∈ [PyErr.noValidOrdering, .zeroDivision, .memoryHierarchyTooSmall, .memoryTooSmall, .indexError] := by
  obtain ⟨_, _, N, _, _, h⟩ := call_partial accSays fileOk modelIs optionsOk rfl Lpf.factContract_primeFactorsList ⟨false, false⟩
  exact ⟨N, fun fuel hf opt ho => (h fuel hf opt ho).1.imp_right fun ⟨e, he, hs⟩ => ⟨e, he, by rcases hs with rfl | rfl | ⟨rfl | rfl, -⟩ | ⟨rfl, -⟩ <;> simp⟩⟩

/-- The energy is at least that of the 16 multiplications of the convolution and the 8 of the product. -/
example : ∃ N, ∀ fuel, N ≤ fuel → ∀ opt ans, call cacti Whole.Ex.fact ⟨false, false⟩ options opt accDoc model nodes mapDoc fuel = .ok ans → 12 ≤ ans.energy := by
  obtain ⟨N, h⟩ := call_bounds accSays fileOk modelIs optionsOk rfl Lpf.factContract_primeFactorsList ⟨false, false⟩
  refine ⟨N, fun fuel hf opt ans ha => ?_⟩
  have := (h fuel hf opt ans ha).2 (by decide +kernel)
  rw [show operations layers = 24 by decide +kernel, show acc.macEnergy = 1 / 2 from rfl] at this
  norm_num at this
  exact this

example : call cacti Whole.Ex.fact ⟨false, false⟩ options "area" accDoc model nodes mapDoc 0 = .error .notImplemented :=
  criterion_refused _ _ _ _ _ _ _ _ _ _ (by unfold Net.Known; decide +kernel)

end Verif.OnnxCall
