import Verif.ImcCall.Model
import Verif.Imc.Props

/-! What is said about calls for in-memory-computing arrays. -/

namespace Verif.ImcCall

open Evaluate (Job Result)
open Latency (Operand)
open Net (Options)
open Ports (MemD)
open Reuse (LNode)
open SpatialMapping (SM)
open Whole (AccD Acc)

variable {OA : Type} [DecidableEq OA] {D : Type} [LinearOrder D]

/-- An evaluation of a layer: on the accelerator without the memories that the layer does not need (C165) one of its generated spatial mappings, one of the temporal
mappings of that and its result, and the parts of the energy of the array. -/
structure Eval (OA D : Type) where
  file : AccD OA
  built : Acc OA
  spatial : SM OA D
  job : Job D
  result : Result
  parts : List (String × ℚ)

/-- Energy of the memories and of the array. -/
def Eval.energy (e : Eval OA D) : ℚ := e.result.energy.mem + (e.parts.map Prod.snd).sum

/-- The latency that is reported. -/
def Eval.latency (e : Eval OA D) : ℚ := e.result.overall.latency2

/-- It is one that a call makes for the layer. -/
structure Made (cacti : MemD Operand OA → ℚ × ℚ) (fact : Nat → List (Nat × Nat)) (K : Chip OA) (a : AccD OA) (s : Locality.St Operand) (o : Options OA D) (fuel : Nat)
    (n : LNode OA D) (e : Eval OA D) : Prop where
  file : Reuse.reduced cacti a s n = .ok e.file
  built : Whole.accelerator cacti e.file = .ok e.built
  spatial : ∃ sms, Net.spatialMappings o e.file n.node = .ok sms ∧ e.spatial ∈ sms
  run : ∃ evals, Whole.run cacti fact e.file n.node.layer e.spatial o.limit fuel = some (evals, none) ∧ (e.job, e.result) ∈ evals
  parts : arrayEnergy K o.setOrder e.file e.built n e.spatial e.job = .ok e.parts

/-- What a criterion compares. -/
def NoWorse (opt : String) (x y : Eval OA D) : Prop :=
  (opt = "energy" → x.energy ≤ y.energy) ∧ (opt = "latency" → x.latency ≤ y.latency) ∧ (opt = "EDP" → x.latency * x.energy ≤ y.latency * y.energy)

/-- No dimension that the weights do not depend on is unrolled along the wordlines. -/
def Straight (K : Chip OA) (n : LNode OA D) (sm : SM OA D) : Prop := ∀ w, sm.get? K.wlDim = some w → ∀ x ∈ w, x.1 ∉ (n.node.layer.rel n.weight).ir

/-- The array of the file: its first two dimensions are those of the macro. -/
structure ChipOk (K : Chip OA) (a : AccD OA) : Prop where
  dims : K.wlDim ≠ K.blDim
  wl : a.sizes.get? K.wlDim = some K.arr.wl
  bl : a.sizes.get? K.blDim = some K.arr.bl
  bs : 1 ≤ K.arr.bs
  tech : K.arr.tech.NonNeg
  wlCap : 0 ≤ K.arr.tech.wlCap
  adc : 0 ≤ K.arr.adc.2.2

end Verif.ImcCall
