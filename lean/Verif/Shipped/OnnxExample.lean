import Verif.Shipped.Onnx
import Verif.Shipped.OnnxDocs
import Verif.Shipped.Example

/-! Two ONNX models that come with the tool, as cases of C168. -/

namespace Verif.Shipped

open Onnx (OModel Precisions AttrVal ConvOp)
open OnnxCall (Op IsConv IsProduct Precise Shape Attr attr Other computed)
open OnnxModel (OpNode)

/-! ### Checks that the kernel can evaluate -/

def ShapeC (m : OModel) (t : Option String) (s : List Nat) : Bool :=
  match t with
  | none => false
  | some x => decide (((m.inputs ++ m.outputs ++ m.hidden ++ m.inits).find? fun y => y.1 == x) = some (x, s))

theorem shapeC {m : OModel} {t : Option String} {s : List Nat} (h : ShapeC m t s = true) : Shape m t s := by
  unfold ShapeC at h
  cases t with
  | none => cases h
  | some x => exact ⟨x, rfl, of_decide_eq_true h⟩

instance (n : OpNode) (name : String) (v d : AttrVal) : Decidable (Attr n name v d) := by unfold Attr; infer_instance

def ConvC (m : OModel) (n : OpNode) (c : ConvOp) : Bool :=
  decide (n.op = "Conv" ∨ n.op = "QLinearConv") && decide ((0 < c.cin ∧ 0 < c.hin ∧ 0 < c.win ∧ 0 < c.m ∧ 0 < c.g ∧ 0 < c.kh ∧ 0 < c.kw ∧ 0 < c.sh) ∧ 0 < c.sw ∧ 0 < c.dh ∧ 0 < c.dw ∧
    c.cin % c.g = 0 ∧ c.m % c.g = 0 ∧ c.dh * (c.kh - 1) + 1 ≤ c.hin + c.hb + c.he ∧ c.dw * (c.kw - 1) + 1 ≤ c.win + c.wb + c.we) &&
  decide (attr n "kernel_shape" = some (.ints c.kernel)) && decide (Attr n "strides" (.ints c.strides) (.ints [1, 1])) &&
  decide (Attr n "dilations" (.ints c.dilations) (.ints [1, 1])) && decide (Attr n "group" (.int c.g) (.int 1)) && decide (Attr n "pads" (.ints c.pads) (.ints [0, 0, 0, 0])) &&
  ShapeC m n.input[0]? c.ia && ShapeC m n.output[0]? c.oa

def ProductC (m : OModel) (n : OpNode) (lead : List Nat) (D C K : Nat) : Bool :=
  decide (n.op = "MatMul" ∨ n.op = "Gemm") && decide (0 < D ∧ 0 < C ∧ 0 < K) && decide (lead.length ≤ 2) && decide (Attr n "transA" (.int 0) (.int 0)) &&
  ShapeC m n.input[0]? (lead ++ [D, C]) && ShapeC m n.output[0]? (lead ++ [D, K])

def OpC (m : OModel) (n : OpNode) : Op → Bool
  | .conv c => ConvC m n c
  | .product lead D C K => ProductC m n lead D C K

theorem opC {m : OModel} {n : OpNode} {o : Op} (h : OpC m n o = true) : OpIs m n o := by
  cases o with
  | conv c =>
    simp only [OpC, ConvC, Bool.and_eq_true, decide_eq_true_eq] at h
    obtain ⟨⟨⟨⟨⟨⟨⟨⟨h1, ⟨a1, a2, a3, a4, a5, a6, a7, a8⟩, a9, a10, a11, a12, a13, a14, a15⟩, h3⟩, h4⟩, h5⟩, h6⟩, h7⟩, h8⟩, h9⟩ := h
    exact ⟨h1, ⟨a1, a2, a3, a4, a5, a6, a7, a8, a9, a10, a11, Nat.dvd_of_mod_eq_zero a12, Nat.dvd_of_mod_eq_zero a13, a14, a15⟩, h3, h4, h5, h6, h7, shapeC h8, shapeC h9⟩
  | product lead D C K =>
    simp only [OpC, ProductC, Bool.and_eq_true, decide_eq_true_eq] at h
    obtain ⟨⟨⟨⟨⟨h1, h2⟩, h3⟩, h4⟩, h5⟩, h6⟩ := h
    exact ⟨h1, h2, h3, .inl ⟨h4, shapeC h5⟩, shapeC h6⟩

/-- No tensor is used before it is computed. -/
def forwardC : List OpNode → Bool
  | [] => true
  | n :: t => (n :: t).all (fun x => n.input.all fun y => !x.output.contains y) && forwardC t

theorem forwardC_feeds : ∀ {ns : List OpNode}, forwardC ns = true → ∀ i j, Workload.Feeds (ns.map OnnxModel.ONode.ofOp) i j → i < j
  | [], _, i, j, ⟨a, _, _, h, _⟩ => by simp at h
  | n :: t, hf, i, j, ⟨a, b, x, ha, hb, h1, h2⟩ => by
    simp only [forwardC, Bool.and_eq_true, List.all_eq_true] at hf
    obtain ⟨h3, h4⟩ := hf
    cases j with
    | zero =>
      rw [List.map_cons, List.getElem?_cons_zero] at hb
      cases hb
      rw [List.getElem?_map] at ha
      obtain ⟨y, hy, rfl⟩ := Option.map_eq_some_iff.1 ha
      have := h3 y (List.mem_of_getElem? hy) x h2
      simp only [Bool.not_eq_eq_eq_not, Bool.not_true, List.contains_eq_mem, decide_eq_false_iff_not] at this
      exact absurd h1 this
    | succ j =>
      cases i with
      | zero => omega
      | succ i =>
        rw [List.map_cons, List.getElem?_cons_succ] at ha hb
        have := forwardC_feeds h4 i j ⟨a, b, x, ha, hb, h1, h2⟩
        omega

/-- A node with eight bits for activations and weights. -/
def NodeC (m : OModel) (nodes : List OpNode) (e : (OpNode × Nat) × Option Op) : Bool :=
  match e.2 with
  | none => decide (e.1.1.op ∉ ["Conv", "QLinearConv", "MatMul", "Gemm", "If"])
  | some o => OpC m e.1.1 o && decide (attr e.1.1 "act_size" = none ∧ attr e.1.1 "weight_size" = none ∧ attr e.1.1 "output_size" = none) &&
      decide (computed nodes e.1.2 ≤ 2) && decide (e.1.1.name ≠ "" ∧ e.1.1.name ≠ "example_name_of_layer0" ∧ e.1.1.op ≠ "example_name_of_layer0")

def ModelC (m : OModel) (nodes : List OpNode) (os : List (Option Op)) : Bool :=
  decide (os.length = nodes.length) && (nodes.zipIdx.zip os).all (NodeC m nodes) && forwardC nodes

/-- The layers with the default precisions. -/
def bits8 (os : List (Option Op)) : List (Option (Op × Precisions)) := os.map (Option.map fun o => (o, ⟨8, 8, 16⟩))

theorem modelC {m : OModel} {nodes : List OpNode} {os : List (Option Op)} (h : ModelC m nodes os = true) {lim : Int × Int} (hl : 8 ≤ lim.1 ∧ 16 ≤ lim.2)
    {sized : List String} (hs : ∀ s ∈ sized, s = "example_name_of_layer0") : Described lim sized m nodes (bits8 os) := by
  simp only [ModelC, Bool.and_eq_true, decide_eq_true_eq, List.all_eq_true] at h
  obtain ⟨⟨h1, h2⟩, h3⟩ := h
  have key : ∀ (k : Nat) n x, nodes[k]? = some n → os[k]? = some x → NodeC m nodes ((n, k), x) = true := by
    intro k n x hn hx
    refine h2 _ (List.mem_of_getElem? (i := k) ?_)
    rw [List.getElem?_zip_eq_some]
    refine ⟨?_, hx⟩
    rw [List.getElem?_zipIdx, hn]
    simp
  refine ⟨by rw [bits8, List.length_map, h1], fun k n x hn hx => ?_, fun k n hn hx => ?_, forwardC_feeds h3⟩
  · unfold bits8 at hx
    rw [List.getElem?_map] at hx
    obtain ⟨y, hy, hx⟩ := Option.map_eq_some_iff.1 hx
    obtain ⟨o, rfl, rfl⟩ := Option.map_eq_some_iff.1 hx
    have := key k n _ hn hy
    simp only [NodeC, Bool.and_eq_true, decide_eq_true_eq] at this
    obtain ⟨⟨⟨n1, n2⟩, n3⟩, n4⟩ := this
    refine ⟨opC n1, ⟨.inr ⟨n2.1, rfl⟩, .inr ⟨n2.2.1, rfl⟩, .inr ⟨n2.2.2, rfl⟩⟩, ⟨hl.1, hl.1, hl.2⟩, n3, ?_, fun hc => n4.2.2 (hs _ hc)⟩
    rw [if_neg n4.1]
    exact fun hc => n4.2.1 (hs _ hc)
  · unfold bits8 at hx
    rw [List.getElem?_map] at hx
    obtain ⟨y, hy, hx⟩ := Option.map_eq_some_iff.1 hx
    rw [Option.map_eq_none_iff] at hx
    subst hx
    have := key k n _ hn hy
    exact of_decide_eq_true (p := n.op ∉ ["Conv", "QLinearConv", "MatMul", "Gemm", "If"]) this

namespace Ex

/-- AlexNet: 5 convolutions, two of them in groups, and 3 products. -/
theorem alexnet_ok : ModelC alexnetTensors alexnetNodes alexnetOps = true ∧ multiplications (bits8 alexnetOps) = 654560384 := by decide +kernel

/-- ResNet-18: 20 convolutions and a product. -/
theorem resnet18_ok : ModelC resnet18Tensors resnet18Nodes resnet18Ops = true ∧ multiplications (bits8 resnet18Ops) = 1814073344 := by decide +kernel

theorem sized_names : ∀ x ∈ pairs, ∀ s ∈ x.2.2, s = "example_name_of_layer0" := by decide +kernel

end Ex

open Ex

/-- A call on ResNet-18 ends on every accelerator with its mapping files, and charges at least the energy of all multiplications. -/
example : ∀ x ∈ pairs, ∃ N, ∀ fuel, N ≤ fuel → ∀ opt, Net.Known opt →
    ((∃ ans, OnnxCall.call Call.Ex.cacti Whole.Ex.fact ⟨false, false⟩ options opt x.1.1 resnet18Tensors resnet18Nodes x.2.1 fuel = .ok ans) ∨
      ∃ e, OnnxCall.call Call.Ex.cacti Whole.Ex.fact ⟨false, false⟩ options opt x.1.1 resnet18Tensors resnet18Nodes x.2.1 fuel = .error e) ∧
    ∀ ans, OnnxCall.call Call.Ex.cacti Whole.Ex.fact ⟨false, false⟩ options opt x.1.1 resnet18Tensors resnet18Nodes x.2.1 fuel = .ok ans →
      x.1.2.1.macEnergy * 1814073344 ≤ ans.energy := by
  intro x hx
  obtain ⟨h1, h2, h3⟩ := pairs_ok x hx
  have hl : 8 ≤ x.1.2.2.1 ∧ 16 ≤ x.1.2.2.2 := by rcases limits _ h1 with h | h <;> rw [h] <;> decide
  obtain ⟨N, hN⟩ := shipped_onnx (lo := ⟨false, false⟩) (cacti := Call.Ex.cacti) (o := options) h1 h2 h3 (modelC resnet18_ok.1 hl (sized_names x hx)) Call.Ex.optionsOk rfl
    Lpf.factContract_primeFactorsList
  refine ⟨N, fun fuel hf opt ho => ⟨(hN fuel hf opt ho).1.imp id fun ⟨e, he, _⟩ => ⟨e, he⟩, fun ans hans => ?_⟩⟩
  have := ((hN fuel hf opt ho).2 ans hans).1
  rw [resnet18_ok.2] at this
  exact_mod_cast this

/-- The same for AlexNet on the accelerator that is like a TPU. -/
example : ∃ N, ∀ fuel, N ≤ fuel → ∀ opt, Net.Known opt →
    ∀ ans, OnnxCall.call Call.Ex.cacti Whole.Ex.fact ⟨false, false⟩ options opt tpuLikeDoc alexnetTensors alexnetNodes tpuLikeMap fuel = .ok ans →
      tpuLike.macEnergy * 654560384 ≤ ans.energy := by
  have hx : ((tpuLikeDoc, tpuLike, (8, 16)), tpuLikeMap, ["example_name_of_layer0"]) ∈ pairs := by simp [pairs]
  obtain ⟨h1, h2, h3⟩ := pairs_ok _ hx
  obtain ⟨N, hN⟩ := shipped_onnx (lo := ⟨false, false⟩) (cacti := Call.Ex.cacti) (o := options) h1 h2 h3 (modelC alexnet_ok.1 ⟨by decide, by decide⟩ (sized_names _ hx))
    Call.Ex.optionsOk rfl Lpf.factContract_primeFactorsList
  refine ⟨N, fun fuel hf opt ho ans hans => ?_⟩
  have := ((hN fuel hf opt ho).2 ans hans).1
  rw [alexnet_ok.2] at this
  exact_mod_cast this

end Verif.Shipped
