import Verif.ImcFiles.Model
import Verif.ImcCall.Spec
import Verif.LocalCall.Spec

/-! What an accelerator file has to say for calls for in-memory-computing arrays. -/

namespace Verif.ImcFiles

open Call (Written MemSays)
open Files (Doc AccR)
open ImcCall (Chip)
open Whole (AccD)

/-- The array that a file describes: its kind, precisions and resolution; the area of all cells; the first two dimensions in alphabetical order are those of a macro, the
others count the macros; the costs of a converter for this resolution and length of bitlines in the technology of 28 nm with 0.9 V. -/
structure ArraySays (adcArea : Nat → ℚ) (a : AccR) (sizes : Dict String Nat) (K : Chip String) : Prop where
  kind : K.arr.aimc = true ↔ a.arr.type = some "analog"
  serial : a.arr.bitSerial = some (K.arr.bs : ℚ)
  precision : a.arr.prec = some [(K.arr.act : Int), (K.arr.wp : Int)]
  analog : K.arr.aimc = true → a.arr.adc = some (K.arr.adcRes : ℚ)
  digital : K.arr.aimc = false → K.arr.adcRes = 0
  cells : ∃ m area, Dict.get? a.mems "cells" = some m ∧ m.auto = false ∧ m.size = K.cellsSize ∧ m.area = some area ∧ K.arr.cells = (sizes.map Prod.snd).prod * area
  dims : ∃ rest, sizes.Perm ((K.wlDim, K.arr.wl) :: (K.blDim, K.arr.bl) :: rest) ∧ K.wlDim < K.blDim ∧ (∀ e ∈ rest, K.blDim < e.1) ∧ K.arr.banks = (rest.map Prod.snd).prod
  tech : K.arr.tech = Imc.tech28
  none : K.arr.adcRes = 0 → K.arr.adc = (0, 0, 0)
  area : 0 < K.arr.adcRes → K.arr.adc.1 = if K.arr.adcRes = 1 then 0 else adcArea K.arr.adcRes
  delay : 0 < K.arr.adcRes → K.arr.adc.2.1 = K.arr.adcRes * (0.00653 * K.arr.bl + 0.640)
  energy : 0 < K.arr.adcRes → K.arr.adc.2.2 = (100 * K.arr.adcRes + 0.001 * 4 ^ K.arr.adcRes) * 0.9 ^ 2 / 1000

/-- An accelerator file that is accepted and describes an accelerator with an in-memory-computing array. -/
structure ImcSays (cacti : String → String → Int → Int → Except PyErr (ℚ × ℚ × ℚ)) (adcArea : Nat → ℚ) (d : Doc) (A : AccD String) (K : Chip String) : Prop where
  accepted : Files.accepts Files.accRule (Files.normalize Files.accRule d) = true
  energy : A.macEnergy = 0
  read : ∃ a, Files.readAcc (Files.normalize Files.accRule d) = some a ∧ Files.checkAcc a = .ok true ∧ a.arr.imc = true ∧
    A.sizes.map (fun e => (e.1, (e.2 : Int))) = a.arr.dims.zip a.arr.sizes ∧ List.Forall₂ (fun e m => MemSays cacti e.1 e.2 m) a.mems A.mems ∧
    ArraySays adcArea a A.sizes K

/-- No area of the file or of a converter is negative, and macros have at least two rows. -/
structure Sensible (adcArea : Nat → ℚ) (K : Chip String) : Prop where
  cells : 0 ≤ K.arr.cells
  adc : ∀ r, 0 ≤ adcArea r
  rows : 2 ≤ K.arr.bl

/-- A layer that is not skipped. -/
def Counted (w : Written) : Prop := w.operator ≠ "Pooling" ∧ w.operator ≠ "Add"

instance (w : Written) : Decidable (Counted w) := by unfold Counted; infer_instance

/-- The operations of the layers that are not skipped. -/
def counted (ws : List Written) : Nat := ((ws.filter fun w => decide (Counted w)).map Written.operations).sum

end Verif.ImcFiles
