import Verif.Shipped.Props
import Verif.Call.Example

/-! The workload files that come with the tool, and what does not fit together. -/

namespace Verif.Shipped

open Equation (Text upper)
open Files (Doc)
open LayerBuild (LayerD RelD mkRel)

namespace Ex

/-! ### ResNet-18 and a product of matrices -/

def eqn (t : List Char) : Bool := !t.isEmpty

/-- The relations of the workload files. -/
def relOf (t : List Char) : Option RelD :=
  if t = tx "ix=1*ox+1*fx" then some ⟨tx "ix", some (tx "1"), tx "ox", some (tx "1"), tx "fx"⟩
  else if t = tx "iy=1*oy+1*fy" then some ⟨tx "iy", some (tx "1"), tx "oy", some (tx "1"), tx "fy"⟩
  else if t = tx "ix=2*ox+1*fx" then some ⟨tx "ix", some (tx "2"), tx "ox", some (tx "1"), tx "fx"⟩
  else if t = tx "iy=2*oy+1*fy" then some ⟨tx "iy", some (tx "2"), tx "oy", some (tx "1"), tx "fy"⟩
  else none

/-- The layers of a workload file. -/
def layers (dw : Doc) : List (Option String × String × LayerD) := ((Files.parseLayers eqn relOf dw).toOption).getD []

/-- A layer of the form, without padding. -/
def UsualC (lim : Int × Int) (f : Form) (d : LayerD) : Bool :=
  match LayerBuild.mapE mkRel d.relations with
  | .error _ => false
  | .ok rels => decide (d.equation = f.eqn.text ∧ rels.map (fun r => (r.dim1, r.dim2, r.dim3)) = f.axes ∧ (∀ r ∈ rels, 1 ≤ r.coef2) ∧
      (d.loopDims.map upper).Perm f.dims ∧ d.loopDims.length = d.loopSizes.length ∧ (∀ n ∈ d.loopSizes, 1 ≤ n) ∧
      (∀ x ∈ [tx "O", tx "W", tx "I"], x ∈ d.precision.keys) ∧ (∀ e ∈ d.precision, 0 ≤ e.2) ∧ (d.precision.get? (tx "O")).getD 0 ≤ lim.2 ∧
      (∀ x ∈ [tx "W", tx "I"], (d.precision.get? x).getD 0 ≤ lim.1) ∧ d.prSizes = none ∧ d.padding = none)

theorem mapE_forall₂ {α β : Type} {f : α → Except PyErr β} : ∀ {l : List α} {bs : List β}, LayerBuild.mapE f l = .ok bs → List.Forall₂ (fun a b => f a = .ok b) l bs
  | [], bs, h => by cases h; exact .nil
  | a :: t, bs, h => by
    unfold LayerBuild.mapE at h
    split at h
    · cases h
    · rename_i b hb
      split at h
      · cases h
      · rename_i bs' hbs
        cases h
        exact .cons hb (mapE_forall₂ hbs)

theorem usualC {lim : Int × Int} {f : Form} {d : LayerD} (h : UsualC lim f d = true) : Usual lim f d := by
  unfold UsualC at h
  split at h
  · cases h
  · rename_i rels hr
    obtain ⟨h1, h2, h3, h4, h5, h6, h7, h8, h9, h10, h11⟩ := of_decide_eq_true h
    exact ⟨h1, ⟨rels, mapE_forall₂ hr, h2, h3⟩, h4, h5, h6, h7, h8, h9, h10, Or.inr h11⟩

/-- All layers of the workload. -/
def LayersC (lim : Int × Int) (sized : List String) (ys : List (Option String × String × LayerD)) : Bool :=
  ys.all fun y => (forms.any fun f => UsualC lim f y.2.2) && decide (y.1.getD ("Layer" ++ toString y.2.2.id) ∉ sized) && decide (y.2.1 ∉ sized)

theorem layersC {lim : Int × Int} {sized : List String} {ys : List (Option String × String × LayerD)} (h : LayersC lim sized ys = true) : Layers lim sized ys := by
  intro y hy
  have := List.all_eq_true.1 h y hy
  simp only [Bool.and_eq_true, List.any_eq_true, decide_eq_true_eq] at this
  obtain ⟨⟨⟨f, hf, h1⟩, h2⟩, h3⟩ := this
  exact ⟨⟨f, hf, usualC h1⟩, h2, h3⟩

/-- Every source is listed before. -/
def ListedC (ys : List (Option String × String × LayerD)) : Bool :=
  (List.range ys.length).all fun j => match ys[j]? with
    | none => true
    | some y => y.2.2.sources.all fun s => decide (s.2 = y.2.2.id) || (ys.take j).any fun z => decide (z.2.2.id = s.2)

theorem listedC {ys : List (Option String × String × LayerD)} (h : ListedC ys = true) : Listed ys := by
  intro j y hy s hs
  have hj : j < ys.length := (List.getElem?_eq_some_iff.1 hy).1
  have := List.all_eq_true.1 h j (List.mem_range.2 hj)
  rw [hy] at this
  have := List.all_eq_true.1 this s hs
  simp only [Bool.or_eq_true, decide_eq_true_eq, List.any_eq_true] at this
  rcases this with h | ⟨z, hz, hid⟩
  · exact Or.inl h
  · obtain ⟨i, hi⟩ := List.mem_iff_getElem?.1 hz
    rw [List.getElem?_take] at hi
    split_ifs at hi with hij
    exact Or.inr ⟨i, hij, z, hi, hid⟩

theorem parsed {dw : Doc} (h : (Files.parseLayers eqn relOf dw).toOption.isSome = true) : Files.parseLayers eqn relOf dw = .ok (layers dw) := by
  unfold layers
  cases hp : Files.parseLayers eqn relOf dw with
  | error e => rw [hp] at h; cases h
  | ok ys => rfl

/-- The 31 layers of ResNet-18. -/
theorem resnet_ok : (Files.parseLayers eqn relOf resnet18Doc).toOption.isSome = true ∧ LayersC (8, 16) [] (layers resnet18Doc) = true ∧
    LayersC (8, 32) [] (layers resnet18Doc) = true ∧ ListedC (layers resnet18Doc) = true ∧ (layers resnet18Doc).length = 31 ∧
    operations (layers resnet18Doc) = 1970798080 := by decide +kernel

theorem gemm_ok : (Files.parseLayers eqn relOf gemmLayerDoc).toOption.isSome = true ∧ LayersC (8, 32) [] (layers gemmLayerDoc) = true ∧
    ListedC (layers gemmLayerDoc) = true ∧ operations (layers gemmLayerDoc) = 128 ^ 3 := by decide +kernel

theorem limits : ∀ x ∈ accelerators, x.2.2 = (8, 16) ∨ x.2.2 = (8, 32) := by decide

/-! ### What does not fit together -/

/-- The memory of the array for the cloud whose ports are declared twice for the results. -/
def doubled : Ports.MemD Latency.Operand String := (genericArrayCacti.mems[3]?).getD ⟨0, false, none, none, none, [], [], []⟩

/-- C167: in one of the accelerator files that come with the tool (generic_array_cacti.yaml) the large memory declares all movements of the results for two ports
each; the file is accepted, and the first two ports do not serve the results. -/
theorem doubled_ports_false : AccC genericArrayCactiDoc genericArrayCacti = true ∧ doubled ∈ genericArrayCacti.mems ∧
    (doubled.ports.map fun p => decide ((.out, .rdLow) ∈ p.alloc)) = [true, true, false, false] ∧
    (doubled.ports.map fun p => decide ((.out, .wrLow) ∈ p.alloc)) = [false, false, true, true] ∧
    ∃ st, Ports.buildMem doubled [(.in1, 1), (.in2, 1), (.out, 1)] = .ok st ∧ st.served 0 = [(.in1, 1, .rdLow)] ∧ st.served 2 = [(.in1, 1, .wrHigh)] := by
  refine ⟨by decide +kernel, ?_, by decide +kernel, by decide +kernel, ?_⟩
  · exact List.mem_of_getElem? (i := 3) rfl
  · refine ⟨_, rfl, by decide +kernel, by decide +kernel⟩

/-- Options of a call. -/
def options : Net.Options String Text := ⟨false, 3, none, ⟨fun _ l => l, fun _ l => l, fun _ l => l⟩, id, id⟩

/-- C167: a mapping file for an array with more dimensions is accepted together with this accelerator and workload, which both come with the tool; the call ends with a
`KeyError` for the dimension that the array does not have. -/
theorem foreign_mapping_crash : ∃ ms, Files.parseMapping ascendLikeMap = .ok ms ∧
    (Call.call (fun _ _ _ _ => .error .valueError) eqn relOf Whole.Ex.fact ⟨false, false⟩ options "energy" tpuLikeDoc resnet18Doc ascendLikeMap 100).toOption = none ∧
    ∀ r, Call.call (fun _ _ _ _ => .error .valueError) eqn relOf Whole.Ex.fact ⟨false, false⟩ options "energy" tpuLikeDoc resnet18Doc ascendLikeMap 100 = .error r →
      r = .keyError := by
  have h : (match Call.call (fun _ _ _ _ => .error .valueError) eqn relOf Whole.Ex.fact ⟨false, false⟩ options "energy" tpuLikeDoc resnet18Doc ascendLikeMap 100 with
    | .ok _ => false | .error r => decide (r = .keyError)) = true := by decide +kernel
  have hm : (Files.parseMapping ascendLikeMap).toOption.isSome = true := by decide +kernel
  cases hp : Files.parseMapping ascendLikeMap with
  | error e => rw [hp] at hm; cases hm
  | ok ms =>
    refine ⟨ms, rfl, ?_⟩
    cases hc : Call.call (fun _ _ _ _ => .error .valueError) eqn relOf Whole.Ex.fact ⟨false, false⟩ options "energy" tpuLikeDoc resnet18Doc ascendLikeMap 100 with
    | ok a => rw [hc] at h; cases h
    | error r =>
      rw [hc] at h
      exact ⟨rfl, fun r' hr => by cases hr; exact of_decide_eq_true h⟩

end Ex

open Ex

/-! ### Cases that meet the hypotheses -/

/-- A call for ResNet-18 with any of the accelerators and its mapping file ends, unless the mapping file has an entry with numbers of iterations for the first layer. -/
example : ∀ x ∈ pairs, x.2.2 = [] → ∃ N, ∀ fuel, N ≤ fuel → ∀ opt, Net.Known opt →
    ((∃ ans, Call.call Call.Ex.cacti eqn relOf Whole.Ex.fact ⟨false, false⟩ options opt x.1.1 resnet18Doc x.2.1 fuel = .ok ans) ∨
      ∃ e, Call.call Call.Ex.cacti eqn relOf Whole.Ex.fact ⟨false, false⟩ options opt x.1.1 resnet18Doc x.2.1 fuel = .error e) ∧
    ∀ ans, Call.call Call.Ex.cacti eqn relOf Whole.Ex.fact ⟨false, false⟩ options opt x.1.1 resnet18Doc x.2.1 fuel = .ok ans →
      x.1.2.1.macEnergy * 1970798080 ≤ ans.energy := by
  intro x hx hs
  obtain ⟨h1, h2, h3⟩ := pairs_ok x hx
  obtain ⟨r1, r2, r3, r4, -, r6⟩ := resnet_ok
  have hu : Layers x.1.2.2 x.2.2 (layers resnet18Doc) := by
    rw [hs]
    rcases limits _ h1 with h | h <;> rw [h]
    · exact layersC r2
    · exact layersC r3
  obtain ⟨N, hN⟩ := shipped (lo := ⟨false, false⟩) (cacti := Call.Ex.cacti) (o := options) h1 h2 h3 (parsed r1) hu (listedC r4) Call.Ex.optionsOk rfl
    Lpf.factContract_primeFactorsList
  refine ⟨N, fun fuel hf opt ho => ⟨?_, fun ans hans => ?_⟩⟩
  · exact (hN fuel hf opt ho).1.imp_right fun ⟨e, he, _⟩ => ⟨e, he⟩
  · have := ((hN fuel hf opt ho).2 ans hans).1
    rw [r6] at this
    exact_mod_cast this

/-- The product of matrices. -/
example : ∃ N, ∀ fuel, N ≤ fuel → ∀ opt, Net.Known opt →
    ∀ ans, Call.call Call.Ex.cacti eqn relOf Whole.Ex.fact ⟨false, false⟩ options opt gemmL1Doc gemmLayerDoc gemmL1Map fuel = .ok ans → 83886 ≤ ans.energy := by
  obtain ⟨h1, h2, h3⟩ := pairs_ok ((gemmL1Doc, gemmL1, (8, 32)), gemmL1Map, []) (by simp [pairs])
  obtain ⟨r1, r2, r3, r4⟩ := gemm_ok
  obtain ⟨N, hN⟩ := shipped (lo := ⟨false, false⟩) (cacti := Call.Ex.cacti) (o := options) h1 h2 h3 (parsed r1) (layersC r2) (listedC r3) Call.Ex.optionsOk rfl
    Lpf.factContract_primeFactorsList
  refine ⟨N, fun fuel hf opt ho ans hans => ?_⟩
  have := ((hN fuel hf opt ho).2 ans hans).1
  rw [r4, show ((gemmL1Doc, gemmL1, ((8, 32) : Int × Int)) : Doc × Whole.AccD String × (Int × Int)).2.1.macEnergy = 1 / 25 from rfl] at this
  norm_num at this
  linarith

end Verif.Shipped
