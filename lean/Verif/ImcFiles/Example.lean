import Verif.ImcFiles.Props
import Verif.ImcFiles.Docs
import Verif.LocalCall.Example

/-! C170 for the two accelerators with in-memory-computing arrays that come with the tool. -/

namespace Verif.ImcFiles

open Call (Written LayerFits LayerOptions)
open Equation (Text)
open Files (Doc AccR)
open ImcCall (Chip total multiply)
open LayerBuild (LayerD)
open LocalCall (Both Fed NetSays AccFits AccFitsC Feeds)
open Net (FileOk OptionsOk Known)
open Shipped (MemC FileC RoomC CostC MapC Layers Listed)
open Whole (AccD)

/-- What is read from the file: memories, sizes, and the entries for the array. -/
def ReadC (a : AccR) (A : AccD String) (type : String) (bs : ℚ) (adc : Option ℚ) : Prop :=
  (Files.checkAcc a).toOption = some true ∧ a.arr.imc = true ∧ A.sizes.map (fun e => (e.1, (e.2 : Int))) = a.arr.dims.zip a.arr.sizes ∧
    a.mems.length = A.mems.length ∧ (∀ x ∈ a.mems.zip A.mems, MemC x.1.2 x.2) ∧ a.arr.type = some type ∧ a.arr.bitSerial = some bs ∧ a.arr.prec = some [8, 8] ∧
    (∀ r, adc = some r → a.arr.adc = some r) ∧ ((Dict.get? a.mems "cells").map fun m => (m.auto, m.size, m.area)) = some (false, 8, some 0)

/-- `ReadC` as a check. -/
def ReadB (a : AccR) (A : AccD String) (type : String) (bs : ℚ) (adc : Option ℚ) : Bool :=
  decide ((Files.checkAcc a).toOption = some true) && a.arr.imc && decide (A.sizes.map (fun e => (e.1, (e.2 : Int))) = a.arr.dims.zip a.arr.sizes) &&
    decide (a.mems.length = A.mems.length) && decide (∀ x ∈ a.mems.zip A.mems, MemC x.1.2 x.2) && decide (a.arr.type = some type) && decide (a.arr.bitSerial = some bs) &&
    decide (a.arr.prec = some [8, 8]) && (adc.isNone || decide (a.arr.adc = adc)) &&
    decide (((Dict.get? a.mems "cells").map fun m => (m.auto, m.size, m.area)) = some (false, 8, some 0))

theorem readB {a : AccR} {A : AccD String} {type : String} {bs : ℚ} {adc : Option ℚ} (h : ReadB a A type bs adc = true) : ReadC a A type bs adc := by
  unfold ReadB at h
  simp only [Bool.and_eq_true, decide_eq_true_eq, Bool.or_eq_true] at h
  obtain ⟨⟨⟨⟨⟨⟨⟨⟨⟨h1, h2⟩, h3⟩, h4⟩, h5⟩, h6⟩, h7⟩, h8⟩, h9⟩, h10⟩ := h
  refine ⟨h1, h2, h3, h4, h5, h6, h7, h8, fun r hr => ?_, h10⟩
  rcases h9 with h9 | h9
  · rw [hr] at h9
    cases h9
  · rw [h9, hr]

/-- The file is accepted and says this. -/
def FileB (d : Doc) (type : String) (bs : ℚ) (adc : Option ℚ) : Bool :=
  Files.accepts Files.accRule (Files.normalize Files.accRule d) &&
    match Files.readAcc (Files.normalize Files.accRule d) with
    | none => false
    | some a => ReadB a macros type bs adc

theorem says_of {d : Doc} {type : String} {bs : ℚ} {adc : Option ℚ} (h : FileB d type bs adc = true) {adcArea : Nat → ℚ} {K : Chip String}
    (hK : ∀ a, ReadC a macros type bs adc → ArraySays adcArea a macros.sizes K) (cacti : String → String → Int → Int → Except PyErr (ℚ × ℚ × ℚ)) :
    ImcSays cacti adcArea d macros K := by
  unfold FileB at h
  rw [Bool.and_eq_true] at h
  obtain ⟨h1, h2⟩ := h
  refine ⟨h1, rfl, ?_⟩
  cases hr : Files.readAcc (Files.normalize Files.accRule d) with
  | none => rw [hr] at h2; cases h2
  | some a =>
    rw [hr] at h2
    have hR := readB h2
    have ⟨k1, k2, k3, k4, k5, _⟩ := hR
    refine ⟨a, rfl, ?_, k2, k3, ?_, hK a hR⟩
    · cases hc : Files.checkAcc a with
      | error e => rw [hc] at k1; cases k1
      | ok b => rw [hc] at k1; cases k1; rfl
    · rw [List.forall₂_iff_zip]
      refine ⟨k4, fun {x m} hx => ?_⟩
      obtain ⟨m1, m2, m3, m4, m5, m6, m7, m8, m9, m10⟩ := k5 _ hx
      refine ⟨m1, m2, ?_, m5, fun _ => ⟨m7, m8, m9⟩, fun ha => (by rw [m6] at ha; cases ha), m10⟩
      rw [List.forall₂_iff_zip]
      refine ⟨m3, fun {p q} hp => ?_⟩
      obtain ⟨p1, p2, p3, p4, p5⟩ := m4 _ hp
      exact ⟨p1, p2, p3, p4, p5⟩

theorem array_of {a : AccR} {type : String} {bs : ℚ} {adc : Option ℚ} (h : ReadC a macros type bs adc) {adcArea : Nat → ℚ} {K : Chip String}
    (h1 : K.arr.aimc = decide (type = "analog")) (h2 : bs = K.arr.bs) (h3 : K.arr.act = 8 ∧ K.arr.wp = 8) (h4 : if K.arr.aimc then adc = some (K.arr.adcRes : ℚ) else K.arr.adcRes = 0)
    (h5 : K.cellsSize = 8 ∧ K.arr.cells = 0) (h6 : K.wlDim = "D1" ∧ K.arr.wl = 128 ∧ K.blDim = "D2" ∧ K.arr.bl = 128 ∧ K.arr.banks = 1) (h7 : K.arr.tech = Imc.tech28)
    (h8 : K.arr.adcRes = 0 → K.arr.adc = (0, 0, 0)) (h9 : 0 < K.arr.adcRes → K.arr.adc.1 = (if K.arr.adcRes = 1 then 0 else adcArea K.arr.adcRes) ∧
      K.arr.adc.2.1 = K.arr.adcRes * (0.00653 * K.arr.bl + 0.640) ∧ K.arr.adc.2.2 = (100 * K.arr.adcRes + 0.001 * 4 ^ K.arr.adcRes) * 0.9 ^ 2 / 1000) :
    ArraySays adcArea a macros.sizes K := by
  obtain ⟨-, -, -, -, -, k6, k7, k8, k9, k10⟩ := h
  refine ⟨?_, by rw [k7, h2], by rw [k8, h3.1, h3.2]; rfl, fun hm => ?_, fun hm => ?_, ?_, ⟨[], ?_, ?_, by simp, by rw [h6.2.2.2.2]; rfl⟩, h7, h8, fun h => (h9 h).1, fun h => (h9 h).2.1,
    fun h => (h9 h).2.2⟩
  · rw [h1, decide_eq_true_eq, k6, Option.some.injEq]
  · rw [if_pos hm] at h4
    exact k9 _ h4
  · rw [if_neg (by rw [hm]; decide)] at h4
    exact h4
  · obtain ⟨m, hm, e⟩ := Option.map_eq_some_iff.1 k10
    simp only [Prod.mk.injEq] at e
    exact ⟨m, 0, hm, e.1, by rw [e.2.1, h5.1]; rfl, e.2.2, by rw [h5.2, mul_zero]⟩
  · rw [h6.1, h6.2.1, h6.2.2.1, h6.2.2.2.1]
    exact List.Perm.refl _
  · rw [h6.1, h6.2.2.1]
    decide

theorem dimc_read : FileB dimcDoc "digital" 1 none = true := by decide +kernel

theorem aimc_read : FileB aimcDoc "analog" 2 (some 8) = true := by decide +kernel

/-- C170: both files are accepted and describe proper accelerators with an array that can be made. -/
theorem files_ok (adcArea : Nat → ℚ) (hadc : ∀ r, 0 ≤ adcArea r) (x : Doc × Chip String) (hx : x ∈ imcFiles adcArea) :
    (∀ cacti, ImcSays cacti adcArea x.1 macros x.2) ∧ Sensible adcArea x.2 ∧ ∃ k, x.2.arr.bl = 2 ^ k := by
  simp only [imcFiles, List.mem_cons, List.not_mem_nil, or_false] at hx
  rcases hx with rfl | rfl
  · refine ⟨says_of dimc_read fun a h => array_of h ?_ ?_ ?_ ?_ ?_ ?_ rfl ?_ ?_, ⟨?_, hadc, ?_⟩, 7, rfl⟩
    · decide
    · norm_num [dimcChip]
    · decide
    · simp [dimcChip]
    · simp [dimcChip]
    · simp [dimcChip]
    · intro _; rfl
    · intro h; simp [dimcChip] at h
    · simp [dimcChip]
    · simp [dimcChip]
  · refine ⟨says_of aimc_read fun a h => array_of h ?_ ?_ ?_ ?_ ?_ ?_ rfl ?_ ?_, ⟨?_, hadc, ?_⟩, 7, rfl⟩
    · simp [aimcChip]
    · norm_num [aimcChip]
    · simp [aimcChip]
    · simp [aimcChip]
    · simp [aimcChip]
    · simp [aimcChip]
    · intro h; simp [aimcChip] at h
    · intro _
      simp only [aimcChip]
      norm_num
    · simp [aimcChip]
    · simp [aimcChip]

theorem macros_ok : FileOk macros ∧ RoomC (8, 16) macros ∧ CostC macros ∧ AccFits macros := by
  have h : FileC macros ∧ RoomC (8, 16) macros ∧ CostC macros ∧ AccFitsC macros := by decide +kernel
  exact ⟨Shipped.fileC h.1, h.2.1, h.2.2.1, LocalCall.accFitsC h.2.2.2⟩

/-- The mapping file for in-memory computing fits both accelerators. -/
theorem map_ok : MapC macros [] Shipped.defaultImcMap = true := by decide +kernel

/-! ### Calls -/

variable {eqn : List Char → Bool} {rel : List Char → Option LayerBuild.RelD} {fact : Nat → List (Nat × Nat)} {o : Net.Options String Text} {dw dm : Doc}

/-- The operations of the layers that are not skipped. -/
def operationsOf (ys : List (Option String × String × LayerD)) : Nat := Shipped.operations (ys.filter fun y => decide (y.2.1 ≠ "Pooling" ∧ y.2.1 ≠ "Add"))

theorem counted_eq (ws : List Written) : counted ws = operationsOf (ws.map fun w => (w.name, w.operator, w.layer)) := by
  unfold counted operationsOf Shipped.operations
  induction ws with
  | nil => rfl
  | cons w t ih =>
    by_cases h : Counted w
    · rw [List.filter_cons_of_pos (by simpa using h), List.map_cons, List.map_cons (l := t), List.filter_cons_of_pos (by simpa [Counted] using h), List.map_cons, List.sum_cons, ih,
        List.sum_cons]
      rfl
    · rw [List.filter_cons_of_neg (by simpa using h), List.map_cons (l := t), List.filter_cons_of_neg (by simpa [Counted] using h), ih]

theorem shipped_says {sized : List String} (hm : MapC macros sized dm = true) (hd : "default" ∉ sized) {ys : List (Option String × String × LayerD)}
    (hy : Files.parseLayers eqn rel dw = .ok ys) (hu : Layers (8, 16) sized ys) (hk : Listed ys) (hfed : ∀ y ∈ ys, Fed y.2.2) (hid : (ys.map fun y => y.2.2.id).Nodup) :
    ∃ ws : List Written, Call.FilesSay eqn rel dw dm ws ∧ Call.SourcesKnown ws ∧ (∀ w ∈ ws, LayerFits macros w) ∧ (∀ w ∈ ws, Both macros w) ∧
      (ws.map fun w => w.layer.id).Nodup ∧ (∀ w ∈ ws, ∃ f ∈ Shipped.forms, Shipped.Usual (8, 16) f w.layer ∧ w.eqn = f.eqn) ∧
      (ws.map fun w => (w.name, w.operator, w.layer)) = ys := by
  obtain ⟨F, R, C, X⟩ := macros_ok
  obtain ⟨ms, ws, hp, S, K, L, hent, hlay, hforms⟩ := Shipped.written R hm hd hy hu hk
  refine ⟨ws, S, K, L, ?_, ?_, fun w hw => ?_, ?_⟩
  · intro w hw
    obtain ⟨f, h1, h2, h3, h4⟩ := hforms w hw
    refine LocalCall.both_of R h1 (L w hw) h2 h3 h4 ?_
    have : w.layer ∈ ys.map fun y => y.2.2 := by rw [← hlay]; exact List.mem_map_of_mem hw
    obtain ⟨y, hy, e⟩ := List.mem_map.1 this
    rw [← e]
    exact hfed y hy
  · have : (ws.map fun w => w.layer.id) = ys.map fun y => y.2.2.id := by
      have := congrArg (List.map LayerD.id) hlay
      rw [List.map_map, List.map_map] at this
      exact this
    rw [this]
    exact hid
  · obtain ⟨f, h1, h2, h3, -⟩ := hforms w hw
    exact ⟨f, h1, h2, h3⟩
  · have := S.layers
    rw [hy] at this
    cases this
    rfl

/-- C170: for the two accelerators with in-memory-computing arrays that come with the tool, every mapping file that fits and every workload file with layers of the usual
forms: an answer has at least the energy of the multiplications of bits of all layers that are not skipped, of which there is one; its clock period and area are those of
the array. -/
theorem shipped_imc (adcArea : Nat → ℚ) (hadc : ∀ r, 0 ≤ adcArea r) {x : Doc × Chip String} (hx : x ∈ imcFiles adcArea) {sized : List String}
    (hm : MapC macros sized dm = true) (hd : "default" ∉ sized) {ys : List (Option String × String × LayerD)} (hy : Files.parseLayers eqn rel dw = .ok ys)
    (hu : Layers (8, 16) sized ys) (hk : Listed ys) (hfed : ∀ y ∈ ys, Fed y.2.2) (hid : (ys.map fun y => y.2.2.id).Nodup) (O : OptionsOk o) (hf : Lpf.FactContract fact)
    (lo : LayerOptions) (cacti : String → String → Int → Int → Except PyErr (ℚ × ℚ × ℚ)) :
    ∃ N, ∀ fuel, N ≤ fuel → ∀ opt ans, call cacti adcArea eqn rel fact lo o opt x.1 dw dm fuel = .ok ans →
      (∃ y ∈ ys, y.2.1 ≠ "Pooling" ∧ y.2.1 ≠ "Add") ∧ multiply x.2.arr * (operationsOf ys : ℚ) ≤ ans.energy ∧
      ∃ area clock f, Imc.getArea x.2.arr = .ok area ∧ Imc.getTclk x.2.arr = .ok clock ∧ ans.first = some f ∧ f.clock = total clock ∧ f.area = total area := by
  obtain ⟨F, R, C, X⟩ := macros_ok
  obtain ⟨hA, H, -⟩ := files_ok adcArea hadc x hx
  obtain ⟨ws, S, K, L, B, hids, -, rfl⟩ := shipped_says hm hd hy hu hk hfed hid
  obtain ⟨N, hN⟩ := imc_file_bounds (hA cacti) F H X S K L B hids O hf lo
  refine ⟨N, fun fuel hfu opt ans hans => ?_⟩
  obtain ⟨⟨w, w1, w2⟩, -, h2, area, clock, f, h3, h4, h5, h6, h7⟩ := hN fuel hfu opt ans hans
  refine ⟨⟨_, List.mem_map.2 ⟨w, w1, rfl⟩, w2⟩, by rw [← counted_eq]; exact h2 C, area, clock, f, h3, h4, h5, h6, ?_⟩
  have hz : ∀ m ∈ macros.mems, m.area.getD 0 = 0 := by decide +kernel
  obtain ⟨q1, q2⟩ := h7 fun m hm => (hz m hm).ge
  rw [List.map_congr_left hz, List.map_const', List.sum_replicate, nsmul_zero, add_zero] at q2
  exact le_antisymm q2 q1

/-- ResNet-18 on both accelerators: its pooling layers and additions are skipped. -/
example (adcArea : Nat → ℚ) (hadc : ∀ r, 0 ≤ adcArea r) : ∀ x ∈ imcFiles adcArea, ∃ N, ∀ fuel, N ≤ fuel → ∀ opt ans,
    call (fun _ _ _ _ => .error .valueError) adcArea Shipped.Ex.eqn Shipped.Ex.relOf Whole.Ex.fact ⟨false, false⟩ Shipped.Ex.options opt x.1 Shipped.resnet18Doc
      Shipped.defaultImcMap fuel = .ok ans → multiply x.2.arr * (operationsOf (Shipped.Ex.layers Shipped.resnet18Doc) : ℚ) ≤ ans.energy := by
  intro x hx
  obtain ⟨r1, r2, r3, r4, r5, r6⟩ := Shipped.Ex.resnet_ok
  obtain ⟨q1, q2⟩ := LocalCall.resnet_fed
  obtain ⟨N, hN⟩ := shipped_imc (o := Shipped.Ex.options) (fact := Whole.Ex.fact) adcArea hadc hx map_ok (by simp) (Shipped.Ex.parsed r1) (Shipped.Ex.layersC r2)
    (Shipped.Ex.listedC r4) (fun y hy => LocalCall.fedC (List.all_eq_true.1 q1 y hy)) q2 Call.Ex.optionsOk Lpf.factContract_primeFactorsList ⟨false, false⟩ (fun _ _ _ _ => .error .valueError)
  exact ⟨N, fun fuel hfu opt ans hans => (hN fuel hfu opt ans hans).2.1⟩

end Verif.ImcFiles
