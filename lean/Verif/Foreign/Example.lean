import Verif.Foreign.Props
import Verif.Shipped.Example

/-! The mapping files that come with the tool, used for accelerators that they are not for. -/

namespace Verif.Foreign

open Call (LayerOptions)
open Equation (Text)
open Files (Doc MapR)
open LayerBuild (LayerD)
open Net (OptionsOk Known)
open Shipped (accelerators MapC Layers Listed)
open Whole (AccD)

/-- The entry has a mapping for a dimension that the array does not have. -/
def EntryNames (a : AccD String) (m : MapR) : Bool :=
  match Files.mapAttr m with
  | .error _ => false
  | .ok t => t.spatial.any fun e => decide (e.1 ∉ a.sizes.keys)

/-- All entries have. -/
def MapNames (a : AccD String) (dm : Doc) : Bool :=
  match Files.parseMapping dm with
  | .error _ => false
  | .ok ms => ms.all (EntryNames a)

/-- Four dimensions of an array. -/
def four : Dict String Nat := [("D1", 1), ("D2", 1), ("D3", 1), ("D4", 1)]

/-- Mapping files that come with the tool. -/
def maps : List Doc :=
  [Shipped.ascendLikeMap, Shipped.ascendLikeMixedMap, Shipped.edgeTpuLikeMap, Shipped.edgeTpuLikeMixedMap, Shipped.metaPrototypeLikeMap, Shipped.metaPrototypeLikeMixedMap,
    Shipped.teslaNpuLikeMap, Shipped.teslaNpuLikeMixedMap, Shipped.gemmL1Map, Shipped.gemmL1L3Map]

theorem maps_ok : ∀ x ∈ accelerators, ∀ dm ∈ maps, MapC { x.2.1 with sizes := four } [] dm = true := by decide +kernel

variable {eqn : List Char → Bool} {rel : List Char → Option LayerBuild.RelD} {fact : Nat → List (Nat × Nat)} {o : Net.Options String Text} {dw dm : Doc}

/-- C172: a mapping file that comes with the tool whose entries all have a mapping for a dimension that the array does not have: for every workload file with layers of
the usual forms the call raises `KeyError`. -/
theorem shipped_refused {x : Doc × AccD String × (Int × Int)} (hx : x ∈ accelerators) (hm : dm ∈ maps) (hn : MapNames x.2.1 dm = true)
    {ys : List (Option String × String × LayerD)} (hy : Files.parseLayers eqn rel dw = .ok ys) (h0 : ys ≠ []) (hu : Layers x.2.2 [] ys) (hk : Listed ys) (O : OptionsOk o)
    (hf : Lpf.FactContract fact) (lo : LayerOptions) (cacti : String → String → Int → Int → Except PyErr (ℚ × ℚ × ℚ)) (fuel : Nat) {opt : String} (hopt : Known opt) :
    Call.call cacti eqn rel fact lo o opt x.1 dw dm fuel = .error .keyError := by
  obtain ⟨hA, F, R, -⟩ := Shipped.accelerators_ok x hx
  obtain ⟨ms, ws, hp, S, K, L, hent, hlay, -⟩ := Shipped.written (A := { x.2.1 with sizes := four }) R (maps_ok x hx dm hm) (by simp) hy hu hk
  have hall : ∀ w ∈ ws, Names x.2.1 w := by
    intro w hw
    unfold MapNames at hn
    rw [hp] at hn
    have := List.all_eq_true.1 hn _ (hent w hw)
    unfold EntryNames at this
    rw [(L w hw).attr] at this
    simp only [List.any_eq_true, decide_eq_true_eq] at this
    exact this
  have hne : ws ≠ [] := by
    rintro rfl
    exact h0 (List.map_eq_nil_iff.1 hlay.symm)
  obtain ⟨w, hw⟩ := List.exists_mem_of_ne_nil _ hne
  exact (call_refused (hA cacti) F S K four L O hf lo ⟨w, hw, hall w hw⟩).2.2 hall fuel opt hopt

/-- Which files that is: those for arrays of more dimensions, but for one of which only some entries have a mapping for the third dimension. -/
theorem mismatched : (accelerators.map fun x => maps.map fun dm => MapNames x.2.1 dm) =
    [[false, false, false, false, false, false, false, false, false, false], [false, false, false, false, false, false, false, false, false, false],
      [true, true, true, true, true, true, true, false, true, true], [true, true, true, true, true, true, false, false, false, false],
      [true, true, true, true, true, true, false, false, false, false], [false, false, false, false, false, false, false, false, false, false],
      [true, true, true, true, true, true, false, false, false, false], [true, true, true, true, true, true, true, false, true, true]] := by decide +kernel

/-! ### Cases that meet the hypotheses -/

/-- ResNet-18 on the accelerator like the one for tensors, with the mapping file for the array of Tesla. -/
example (fuel : Nat) : Call.call (fun _ _ _ _ => .error .valueError) Shipped.Ex.eqn Shipped.Ex.relOf Whole.Ex.fact ⟨false, false⟩ Shipped.Ex.options "latency" Shipped.tpuLikeDoc
    Shipped.resnet18Doc Shipped.teslaNpuLikeMap fuel = .error .keyError := by
  obtain ⟨r1, r2, -, r4, r5, -⟩ := Shipped.Ex.resnet_ok
  refine shipped_refused (x := (Shipped.tpuLikeDoc, Shipped.tpuLike, (8, 16))) (by simp [accelerators]) (by simp [maps]) (by decide +kernel) (Shipped.Ex.parsed r1) ?_
    (Shipped.Ex.layersC r2) (Shipped.Ex.listedC r4) Call.Ex.optionsOk Lpf.factContract_primeFactorsList ⟨false, false⟩ _ fuel (.inr (.inl rfl))
  intro h
  rw [h] at r5
  cases r5

/-- Any layer, with a mapping for a seventh dimension of an array with two dimensions. -/
example : ∀ n : Net.Node String Text, Net.spatialMappings Call.Ex.options Shipped.tpuLike { n with mapping := ("D7", []) :: n.mapping } = .error .keyError := by
  intro n
  exact layer_refused (Shipped.accelerators_ok (Shipped.tpuLikeDoc, Shipped.tpuLike, (8, 16)) (by simp [accelerators])).2.1 Call.Ex.optionsOk (oa := "D7") (by simp [Dict.keys])
    (by decide +kernel)

end Verif.Foreign
