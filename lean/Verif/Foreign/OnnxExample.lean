import Verif.Foreign.Example
import Verif.Foreign.Onnx
import Verif.Shipped.OnnxExample

/-! The mapping files that come with the tool, used for ONNX models on accelerators that they are not for. -/

namespace Verif.Foreign

open Call (LayerOptions)
open Equation (Text)
open Files (Doc)
open Net (OptionsOk Known)
open Onnx (OModel Precisions)
open OnnxCall (Op)
open OnnxModel (OpNode)
open Shipped (accelerators Described)
open Whole (AccD)

variable {fact : Nat → List (Nat × Nat)} {o : Net.Options String Text} {dm : Doc} {m : OModel} {nodes : List OpNode} {os : List (Option (Op × Precisions))}

/-- C172: the same for every ONNX model of which at least one node is a convolution or a matrix product. -/
theorem shipped_onnx_refused {x : Doc × AccD String × (Int × Int)} (hx : x ∈ accelerators) (hm : dm ∈ maps) (hn : MapNames x.2.1 dm = true) (D : Described x.2.2 [] m nodes os)
    (h0 : ∃ p, some p ∈ os) (O : OptionsOk o) (hf : Lpf.FactContract fact) (lo : LayerOptions) (cacti : String → String → Int → Int → Except PyErr (ℚ × ℚ × ℚ)) (fuel : Nat)
    {opt : String} (hopt : Known opt) : OnnxCall.call cacti fact lo o opt x.1 m nodes dm fuel = .error .keyError := by
  obtain ⟨hA, F, R, -⟩ := Shipped.accelerators_ok x hx
  obtain ⟨ms, ls, hp, M, hent, hls⟩ := Shipped.onnx_written (A := { x.2.1 with sizes := four }) R (maps_ok x hx dm hm) (by simp) D
  have hall : ∀ l, some l ∈ ls → LayerNames x.2.1 l := by
    intro l hl
    obtain ⟨h1, h2⟩ := hent _ hl l rfl
    unfold MapNames at hn
    rw [hp] at hn
    have := List.all_eq_true.1 hn _ h1
    unfold EntryNames at this
    rw [h2] at this
    simp only [List.any_eq_true, decide_eq_true_eq] at this
    exact this
  obtain ⟨p, h0⟩ := h0
  rw [← hls] at h0
  obtain ⟨l, hl, e⟩ := List.mem_map.1 h0
  obtain ⟨l', rfl, -⟩ := Option.map_eq_some_iff.1 e
  exact (model_refused (hA cacti) F four M O hf lo ⟨l', hl, hall l' hl⟩).2.2 hall fuel opt hopt

/-- ResNet-18 as an ONNX model on the accelerator like the one for tensors, with the mapping file for the array of Tesla. -/
example (fuel : Nat) : OnnxCall.call (fun _ _ _ _ => .error .valueError) Whole.Ex.fact ⟨false, false⟩ Shipped.Ex.options "energy" Shipped.tpuLikeDoc Shipped.resnet18Tensors
    Shipped.resnet18Nodes Shipped.teslaNpuLikeMap fuel = .error .keyError := by
  refine shipped_onnx_refused (x := (Shipped.tpuLikeDoc, Shipped.tpuLike, (8, 16))) (by simp [accelerators]) (by simp [maps]) (by decide +kernel)
    (Shipped.modelC Shipped.Ex.resnet18_ok.1 ⟨by decide, by decide⟩ (by simp)) ?_ Call.Ex.optionsOk Lpf.factContract_primeFactorsList ⟨false, false⟩ _ fuel (.inl rfl)
  by_contra hc
  have : Shipped.multiplications (Shipped.bits8 Shipped.resnet18Ops) = 0 := by
    unfold Shipped.multiplications
    refine List.sum_eq_zero fun k hk => ?_
    obtain ⟨y, hy, rfl⟩ := List.mem_map.1 hk
    cases y with
    | none => rfl
    | some y => exact absurd ⟨y, hy⟩ hc
  rw [Shipped.Ex.resnet18_ok.2] at this
  cases this

end Verif.Foreign
