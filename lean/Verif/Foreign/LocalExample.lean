import Verif.Foreign.Local
import Verif.Foreign.Example
import Verif.ImcFiles.Example

/-! The mapping files that come with the tool, used for accelerators that they are not for, in calls with data in lower memories and for in-memory-computing arrays. -/

namespace Verif.Foreign

open Call (Written LayerOptions LayerFits FilesSay SourcesKnown)
open Equation (Text)
open Files (Doc MapR)
open ImcCall (Chip)
open ImcFiles (imcFiles macros)
open LayerBuild (LayerD)
open LocalCall (Both Fed)
open Net (OptionsOk Known)
open Shipped (accelerators MapC RoomC Layers Listed)
open Whole (AccD)

variable {eqn : List Char → Bool} {rel : List Char → Option LayerBuild.RelD} {fact : Nat → List (Nat × Nat)} {o : Net.Options String Text} {dw dm : Doc} {lo : LayerOptions}

theorem named {A : AccD String} {lim : Int × Int} (R : RoomC lim { A with sizes := four }) (hm : MapC { A with sizes := four } [] dm = true) (hn : MapNames A dm = true)
    {ys : List (Option String × String × LayerD)} (hy : Files.parseLayers eqn rel dw = .ok ys) (hu : Layers lim [] ys) (hk : Listed ys) (hfed : ∀ y ∈ ys, Fed y.2.2)
    (hid : (ys.map fun y => y.2.2.id).Nodup) :
    ∃ ws : List Written, FilesSay eqn rel dw dm ws ∧ SourcesKnown ws ∧ (∀ w ∈ ws, LayerFits { A with sizes := four } w) ∧ (∀ w ∈ ws, Both { A with sizes := four } w) ∧
      (ws.map fun w => w.layer.id).Nodup ∧ (∀ w ∈ ws, Names A w) ∧ (ws.map fun w => (w.name, w.operator, w.layer)) = ys := by
  obtain ⟨ms, ws, hp, S, K, L, hent, hlay, hforms⟩ := Shipped.written (A := { A with sizes := four }) R hm (by simp) hy hu hk
  refine ⟨ws, S, K, L, ?_, ?_, fun w hw => ?_, ?_⟩
  · intro w hw
    obtain ⟨f, h1, h2, h3, h4⟩ := hforms w hw
    refine LocalCall.both_of R h1 (L w hw) h2 h3 h4 ?_
    have : w.layer ∈ ys.map fun y => y.2.2 := by rw [← hlay]; exact List.mem_map_of_mem hw
    obtain ⟨y, hy, e⟩ := List.mem_map.1 this
    rw [← e]
    exact hfed y hy
  · have : (ws.map fun w => w.layer.id) = ys.map fun y => y.2.2.id := by
      have := congrArg (List.map LayerD.id) hlay
      rw [List.map_map, List.map_map] at this
      exact this
    rw [this]
    exact hid
  · unfold MapNames at hn
    rw [hp] at hn
    have := List.all_eq_true.1 hn _ (hent w hw)
    unfold EntryNames at this
    rw [(L w hw).attr] at this
    simp only [List.any_eq_true, decide_eq_true_eq] at this
    exact this
  · have := S.layers
    rw [hy] at this
    cases this
    rfl

/-- C172: a mapping file that comes with the tool whose entries all have a mapping for a dimension that the array does not have: for every workload file with layers of
the usual forms a call with data in lower memories has no answer. -/
theorem shipped_local_refused {x : Doc × AccD String × (Int × Int)} (hx : x ∈ accelerators) (hm : dm ∈ maps) (hn : MapNames x.2.1 dm = true)
    {ys : List (Option String × String × LayerD)} (hy : Files.parseLayers eqn rel dw = .ok ys) (h0 : ys ≠ []) (hu : Layers x.2.2 [] ys) (hk : Listed ys)
    (hfed : ∀ y ∈ ys, Fed y.2.2) (hid : (ys.map fun y => y.2.2.id).Nodup) (O : OptionsOk o) (cacti : String → String → Int → Int → Except PyErr (ℚ × ℚ × ℚ)) (opt : String)
    (fuel : Nat) (ans : Reuse.Reply String Text) : LocalCall.call cacti eqn rel fact lo o opt x.1 dw dm fuel ≠ .ok ans := by
  obtain ⟨hA, F, R, -⟩ := Shipped.accelerators_ok x hx
  obtain ⟨ws, S, K, L, B, hids, hN, rfl⟩ := named (A := x.2.1) R (maps_ok x hx dm hm) hn hy hu hk hfed hid
  obtain ⟨w, hw⟩ := List.exists_mem_of_ne_nil ws (by rintro rfl; exact h0 rfl)
  exact local_refused (hA cacti) F S K four L B hids O ⟨w, hw, hN w hw⟩ opt fuel ans

/-- The mapping files fit the accelerators with in-memory-computing arrays, but for the dimensions. -/
theorem imc_maps_ok : RoomC (8, 16) { macros with sizes := four } ∧ ∀ dm ∈ maps, MapC { macros with sizes := four } [] dm = true := by decide +kernel

/-- Which of them are for other dimensions than those of the in-memory-computing arrays. -/
theorem imc_mismatched : (maps.map fun dm => MapNames macros dm) = [true, true, true, true, true, true, true, false, true, true] := by decide +kernel

/-- C172: the same for the two accelerators with in-memory-computing arrays that come with the tool. -/
theorem shipped_imc_refused (adcArea : Nat → ℚ) (hadc : ∀ r, 0 ≤ adcArea r) {x : Doc × Chip String} (hx : x ∈ imcFiles adcArea) (hm : dm ∈ maps)
    (hn : MapNames macros dm = true) {ys : List (Option String × String × LayerD)} (hy : Files.parseLayers eqn rel dw = .ok ys) (hu : Layers (8, 16) [] ys) (hk : Listed ys)
    (hfed : ∀ y ∈ ys, Fed y.2.2) (hid : (ys.map fun y => y.2.2.id).Nodup) (h0 : ∃ y ∈ ys, y.2.1 ≠ "Pooling" ∧ y.2.1 ≠ "Add") (O : OptionsOk o)
    (cacti : String → String → Int → Int → Except PyErr (ℚ × ℚ × ℚ)) (opt : String) (fuel : Nat) (ans : ImcCall.Reply String Text) :
    ImcFiles.call cacti adcArea eqn rel fact lo o opt x.1 dw dm fuel ≠ .ok ans := by
  obtain ⟨F, -⟩ := ImcFiles.macros_ok
  obtain ⟨hA, H, -⟩ := ImcFiles.files_ok adcArea hadc x hx
  obtain ⟨ws, S, K, L, B, hids, hN, rfl⟩ := named (A := macros) imc_maps_ok.1 (imc_maps_ok.2 dm hm) hn hy hu hk hfed hid
  obtain ⟨y, h1, h2⟩ := h0
  obtain ⟨w, hw, rfl⟩ := List.mem_map.1 h1
  exact imc_refused (hA cacti) F H S K four L B hids O ⟨w, hw, h2, hN w hw⟩ opt fuel ans

/-! ### Cases that meet the hypotheses -/

/-- ResNet-18 with data in lower memories on the accelerator like the one for tensors, with the mapping file for the array of Tesla. -/
example (opt : String) (fuel : Nat) (ans : Reuse.Reply String Text) : LocalCall.call (fun _ _ _ _ => .error .valueError) Shipped.Ex.eqn Shipped.Ex.relOf Whole.Ex.fact
    ⟨false, false⟩ Shipped.Ex.options opt Shipped.tpuLikeDoc Shipped.resnet18Doc Shipped.teslaNpuLikeMap fuel ≠ .ok ans := by
  obtain ⟨r1, r2, -, r4, r5, -⟩ := Shipped.Ex.resnet_ok
  obtain ⟨q1, q2⟩ := LocalCall.resnet_fed
  refine shipped_local_refused (x := (Shipped.tpuLikeDoc, Shipped.tpuLike, (8, 16))) (by simp [accelerators]) (by simp [maps]) (by decide +kernel) (Shipped.Ex.parsed r1) ?_
    (Shipped.Ex.layersC r2) (Shipped.Ex.listedC r4) (fun y hy => LocalCall.fedC (List.all_eq_true.1 q1 y hy)) q2 Call.Ex.optionsOk _ opt fuel ans
  intro h
  rw [h] at r5
  cases r5

/-- ResNet-18 on both in-memory-computing arrays, with the mapping file for the array of Tesla. -/
example (adcArea : Nat → ℚ) (hadc : ∀ r, 0 ≤ adcArea r) (opt : String) (fuel : Nat) (ans : ImcCall.Reply String Text) : ∀ x ∈ imcFiles adcArea,
    ImcFiles.call (fun _ _ _ _ => .error .valueError) adcArea Shipped.Ex.eqn Shipped.Ex.relOf Whole.Ex.fact ⟨false, false⟩ Shipped.Ex.options opt x.1 Shipped.resnet18Doc
      Shipped.teslaNpuLikeMap fuel ≠ .ok ans := by
  intro x hx
  obtain ⟨r1, r2, -, r4, r5, -⟩ := Shipped.Ex.resnet_ok
  obtain ⟨q1, q2⟩ := LocalCall.resnet_fed
  exact shipped_imc_refused adcArea hadc hx (by simp [maps]) (by decide +kernel) (Shipped.Ex.parsed r1) (Shipped.Ex.layersC r2) (Shipped.Ex.listedC r4)
    (fun y hy => LocalCall.fedC (List.all_eq_true.1 q1 y hy)) q2 (by decide +kernel) Call.Ex.optionsOk _ opt fuel ans

end Verif.Foreign
