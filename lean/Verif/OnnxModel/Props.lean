import Verif.OnnxModel.Model
import Verif.Onnx.Props
import Verif.Workload.Props

/-! Properties of parsed ONNX models (C130) and of conditional branches (C131). -/

namespace Verif.OnnxModel

open Verif.Onnx Verif.LayerBuild Verif.Workload

/-! ### The operators of a model -/

/-- What a node computes: a convolution, a matrix product of tensors of sizes `lead × D × C` and `C × K`, or something else. -/
inductive Oper where
  | conv (c : ConvOp)
  | gemm (lead : List Nat) (D C K : Nat)
  | other

/-- The number of multiplications; a size that is not known (zero) counts as one. -/
def Oper.macs : Oper → Nat
  | .conv c => c.macs
  | .gemm lead D C K => (lead.map fun n => if n = 0 then 1 else n).prod * D * C * K
  | .other => 0

/-- The attribute is `v`, or missing while `v` is the default of ONNX. -/
def HasAttr (n : OpNode) (name : String) (v dflt : AttrVal) : Prop :=
  n.attrs.find? (fun t => t.1 == name) = some (name, v) ∨ n.attrs.find? (fun t => t.1 == name) = none ∧ v = dflt

/-- First tensor read and first tensor written, with their shapes. -/
def HasShapes (m : OModel) (n : OpNode) (i o : List Nat) : Prop := ∃ x y, n.input[0]? = some x ∧ n.output[0]? = some y ∧ shape m x = .ok i ∧ shape m y = .ok o

/-- The node of the model says that it computes the operator. -/
def Says (m : OModel) (n : OpNode) : Oper → Prop
  | .conv c => n.op ∈ ["Conv", "QLinearConv"] ∧ c.Valid ∧ n.attrs.find? (fun t => t.1 == "kernel_shape") = some ("kernel_shape", .ints c.kernel) ∧
      HasAttr n "strides" (.ints c.strides) (.ints [1, 1]) ∧ HasAttr n "dilations" (.ints c.dilations) (.ints [1, 1]) ∧ HasAttr n "group" (.int c.g) (.int 1) ∧
      HasAttr n "pads" (.ints c.pads) (.ints [0, 0, 0, 0]) ∧ HasShapes m n c.ia c.oa ∧ ∃ p, precisions n.attrs = .ok p
  | .gemm lead D C K => n.op ∈ ["MatMul", "Gemm"] ∧ lead.length ≤ 2 ∧ 0 < D ∧ 0 < C ∧ 0 < K ∧ HasAttr n "transA" (.int 0) (.int 0) ∧
      HasShapes m n (lead ++ [D, C]) (lead ++ [D, K]) ∧ ∃ p, precisions n.attrs = .ok p
  | .other => n.op ∉ ["Conv", "QLinearConv", "MatMul", "Gemm"]

/-- The parsed node stands for the operator. -/
def Stands (nodes : List OpNode) (k : Nat) (n : OpNode) (o : Oper) (p : Parsed) : Prop :=
  let name := if n.name = "" then "Op" ++ toString k else n.name
  match o with
  | .conv c => ∃ d b rO rW, p = .layer name n.op d b ∧ d.id = k ∧ b.macs = (c.macs : ℚ) ∧
      b.operands[0]? = some ("O".toList, rO, ((c.batch * c.m * c.oh * c.ow : Nat) : ℚ)) ∧
      b.operands[1]? = some ("W".toList, rW, ((c.m * (c.cin / c.g) * c.kh * c.kw : Nat) : ℚ))
  | .gemm lead D C K => ∃ d b rO rI rW, p = .layer name n.op d b ∧ d.id = k ∧ b.macs = ((Oper.macs (.gemm lead D C K) : Nat) : ℚ) ∧
      b.operands[0]? = some ("O".toList, rO, (((lead.map known).prod * D * K : Nat) : ℚ)) ∧ b.operands[1]? = some ("I".toList, rI, (((lead.map known).prod * D * C : Nat) : ℚ)) ∧
      b.operands[2]? = some ("W".toList, rW, (((if (predecessors (nodes.map ONode.ofOp) k).length < 2 then 1 else (lead.map known).prod) * C * K : Nat) : ℚ))
  | .other => p = .dummy name (lower n.op) (["I", "W"].zip (predecessors (nodes.map ONode.ofOp) k))

/-! ### The loop -/

theorem bind_ok {α β : Type} {x : Except PyErr α} {f : α → Except PyErr β} {y : β} (h : (x >>= f) = .ok y) : ∃ a, x = .ok a ∧ f a = .ok y := by
  cases x with
  | error e => cases h
  | ok a => exact ⟨a, rfl, h⟩

theorem operandSource_le {id : Nat} {preds : List Nat} {s : Dict Equation.Text Int} (h : operandSource id preds = .ok s) : preds.length ≤ 2 := by
  match preds, h with
  | [], _ => simp
  | [_], _ => simp
  | [_, _], _ => simp
  | _ :: _ :: _ :: _, h => cases h

theorem conv_le {n : Node} {preds : List Nat} {m : OModel} {d : LayerD} (h : conv n preds m = .ok d) : preds.length ≤ 2 := by
  unfold conv at h
  obtain ⟨_, -, h⟩ := bind_ok h
  obtain ⟨_, -, h⟩ := bind_ok h
  obtain ⟨_, -, h⟩ := bind_ok h
  obtain ⟨_, -, h⟩ := bind_ok h
  obtain ⟨_, -, h⟩ := bind_ok h
  obtain ⟨_, -, h⟩ := bind_ok h
  obtain ⟨_, -, h⟩ := bind_ok h
  unfold convData at h
  obtain ⟨_, hs, -⟩ := bind_ok h
  exact operandSource_le hs

theorem gemm_le {n : Node} {preds : List Nat} {m : OModel} {d : LayerD} (h : gemm n preds m = .ok d) : preds.length ≤ 2 := by
  unfold gemm at h
  obtain ⟨⟨si, so⟩, -, h⟩ := bind_ok h
  simp only at h
  by_cases hl : si.length ≠ so.length
  · rw [if_pos hl] at h
    cases h
  · rw [if_neg hl] at h
    obtain ⟨_, -, h⟩ := bind_ok h
    obtain ⟨_, -, h⟩ := bind_ok h
    obtain ⟨_, -, h⟩ := bind_ok h
    unfold gemmData at h
    obtain ⟨_, hs, -⟩ := bind_ok h
    exact operandSource_le hs

theorem convData_id {id : Nat} {preds : List Nat} {p : Precisions} {kernel strides dilations : List Nat} {group : Nat} {pads ia oa : List Nat} {d : LayerD}
    (h : convData id preds p kernel strides dilations group pads ia oa = .ok d) : d.id = id := by
  unfold convData at h
  obtain ⟨_, -, h⟩ := bind_ok h
  obtain ⟨ia0, -, h⟩ := bind_ok h
  obtain ⟨oa0, -, h⟩ := bind_ok h
  by_cases hc : ia0 ≠ oa0
  · rw [if_pos hc] at h
    obtain ⟨_, h0, _⟩ := bind_ok h
    cases h0
  · rw [if_neg hc] at h
    repeat (obtain ⟨_, -, h⟩ := bind_ok h)
    cases h
    rfl

theorem gemmData_id {id : Nat} {preds : List Nat} {p : Precisions} {i o : List Nat} {d : LayerD} (h : gemmData id preds p i o = .ok d) : d.id = id := by
  unfold gemmData at h
  obtain ⟨src, -, h⟩ := bind_ok h
  obtain ⟨i2, -, h⟩ := bind_ok h
  obtain ⟨o2, -, h⟩ := bind_ok h
  split_ifs at h with hc
  · obtain ⟨_, h0, _⟩ := bind_ok h
    cases h0
  · obtain ⟨c, -, h⟩ := bind_ok h
    obtain ⟨k, -, h⟩ := bind_ok h
    obtain ⟨bh, -, h⟩ := bind_ok h
    cases h
    rfl

/-- A node can only be parsed if its sources can be named. -/
theorem parseNode_sources {mapping : String → String → Except PyErr Unit} {m : OModel} {nodes : List OpNode} {k : Nat} {n : OpNode} {p : Parsed}
    (h : parseNode mapping m nodes k n = .ok p) :
    ∃ ss, sources (decide (parserOf n.op ≠ .dummy)) k (predecessors (nodes.map ONode.ofOp) k) = .ok ss := by
  rw [sources_ok_iff]
  unfold parseNode at h
  cases hp : parserOf n.op with
  | conv =>
    right
    simp only [hp] at h
    cases hc : conv ⟨k, n.input, n.output, n.attrs⟩ (predecessors (nodes.map ONode.ofOp) k) m with
    | error e => simp only [hc] at h; cases h
    | ok d => exact conv_le hc
  | gemm =>
    right
    simp only [hp] at h
    cases hc : gemm ⟨k, n.input, n.output, n.attrs⟩ (predecessors (nodes.map ONode.ofOp) k) m with
    | error e => simp only [hc] at h; cases h
    | ok d => exact gemm_le hc
  | dummy => simp

theorem loop_ok (mapping : String → String → Except PyErr Unit) (m : OModel) (nodes : List OpNode) : ∀ (rest : List OpNode) (k : Nat) (b b' : Builder) (ps : List Parsed),
    loop mapping m nodes k b rest = .ok (ps, b') ↔
      (ps.length = rest.length ∧ ∀ (i : Nat) n p, rest[i]? = some n → ps[i]? = some p → parseNode mapping m nodes (k + i) n = .ok p) ∧
      onnxLoop (nodes.map ONode.ofOp) k b (rest.map ONode.ofOp) = .ok b'
  | [], k, b, b', ps => by
    rw [loop, List.map_nil, onnxLoop]
    simp only [Except.ok.injEq, Prod.mk.injEq, List.length_nil, List.getElem?_nil, reduceCtorEq, false_implies, implies_true, and_true, List.length_eq_zero_iff]
    constructor
    · rintro ⟨rfl, rfl⟩
      exact ⟨rfl, rfl⟩
    · rintro ⟨rfl, rfl⟩
      exact ⟨rfl, rfl⟩
  | n :: ns, k, b, b', ps => by
    rw [loop, List.map_cons, onnxLoop]
    have hl : (ONode.ofOp n).layer = decide (parserOf n.op ≠ .dummy) := rfl
    rw [hl]
    cases hp : parseNode mapping m nodes k n with
    | error e =>
      simp only [reduceCtorEq, false_iff, not_and]
      rintro ⟨h1, h2⟩
      cases ps with
      | nil => simp at h1
      | cons p ps =>
        have := h2 0 n p rfl rfl
        rw [Nat.add_zero, hp] at this
        cases this
    | ok p =>
      obtain ⟨ss, hss⟩ := parseNode_sources hp
      rw [hss]
      simp only
      cases ha : addLayer .keyError b k k ss with
      | error e => simp
      | ok b1 =>
        simp only
        have ih := loop_ok mapping m nodes ns (k + 1) b1
        cases hs : loop mapping m nodes (k + 1) b1 ns with
        | error e =>
          simp only [reduceCtorEq, false_iff, not_and]
          rintro ⟨h1, h2⟩ h3
          cases ps with
          | nil => simp at h1
          | cons p' ps =>
            have := (ih b' ps).2 ⟨⟨by simpa using h1, fun i x y hx hy => by
              have := h2 (i + 1) x y (by simpa using hx) (by simpa using hy)
              rwa [show k + (i + 1) = k + 1 + i by omega] at this⟩, h3⟩
            rw [hs] at this
            cases this
        | ok r =>
          obtain ⟨ps', b''⟩ := r
          simp only [Except.ok.injEq, Prod.mk.injEq]
          obtain ⟨⟨i1, i2⟩, i3⟩ := (ih b'' ps').1 hs
          constructor
          · rintro ⟨rfl, rfl⟩
            refine ⟨⟨by simp [i1], fun i x y hx hy => ?_⟩, i3⟩
            cases i with
            | zero =>
              simp only [List.getElem?_cons_zero, Option.some.injEq] at hx hy
              subst hx hy
              exact hp
            | succ i =>
              rw [show k + (i + 1) = k + 1 + i by omega]
              exact i2 i x y (by simpa using hx) (by simpa using hy)
          · rintro ⟨⟨h1, h2⟩, h3⟩
            cases ps with
            | nil => simp at h1
            | cons p' ps =>
              have e0 := h2 0 n p' rfl rfl
              rw [Nat.add_zero, hp] at e0
              cases e0
              have := (ih b' ps).2 ⟨⟨by simpa using h1, fun i x y hx hy => by
                have := h2 (i + 1) x y (by simpa using hx) (by simpa using hy)
                rwa [show k + (i + 1) = k + 1 + i by omega] at this⟩, h3⟩
              rw [hs] at this
              cases this
              exact ⟨rfl, rfl⟩

theorem parse_spec (mapping : String → String → Except PyErr Unit) (m : OModel) (nodes : List OpNode) (ps : List Parsed) (g : Graph) :
    parse mapping m nodes = .ok (ps, g) ↔
      (ps.length = nodes.length ∧ ∀ (i : Nat) n p, nodes[i]? = some n → ps[i]? = some p → parseNode mapping m nodes i n = .ok p) ∧ onnx (nodes.map ONode.ofOp) = .ok g := by
  unfold parse onnx
  have key := loop_ok mapping m nodes nodes 0 emptyBuilder
  simp only [Nat.zero_add] at key
  cases hl : loop mapping m nodes 0 emptyBuilder nodes with
  | error e =>
    simp only [reduceCtorEq, false_iff, not_and]
    intro h1 h2
    cases ho : onnxLoop (nodes.map ONode.ofOp) 0 emptyBuilder (nodes.map ONode.ofOp) with
    | error e => rw [ho] at h2; cases h2
    | ok b =>
      have := (key b ps).2 ⟨h1, ho⟩
      rw [hl] at this
      cases this
  | ok r =>
    obtain ⟨ps', b⟩ := r
    obtain ⟨h1, h2⟩ := (key b ps').1 hl
    simp only [Except.ok.injEq, Prod.mk.injEq, h2]
    constructor
    · rintro ⟨rfl, rfl⟩
      exact ⟨h1, rfl⟩
    · rintro ⟨h3, rfl⟩
      refine ⟨?_, rfl⟩
      have := (key b ps).2 ⟨h3, h2⟩
      rw [hl] at this
      exact (Prod.mk.inj (Except.ok.inj this)).1

/-- C130: a model is parsed exactly when each of its nodes is. -/
theorem parse_ok_iff (mapping : String → String → Except PyErr Unit) (m : OModel) (nodes : List OpNode) :
    (∃ r, parse mapping m nodes = .ok r) ↔ ∀ (k : Nat) n, nodes[k]? = some n → ∃ p, parseNode mapping m nodes k n = .ok p := by
  constructor
  · rintro ⟨⟨ps, g⟩, h⟩ k n hn
    obtain ⟨⟨h1, h2⟩, -⟩ := (parse_spec mapping m nodes ps g).1 h
    have hlt : k < ps.length := by
      rw [h1]
      exact (List.getElem?_eq_some_iff.1 hn).1
    exact ⟨_, h2 k n _ hn (List.getElem?_eq_getElem hlt)⟩
  · intro h
    have ex : ∀ k : Fin nodes.length, ∃ p, parseNode mapping m nodes k nodes[k] = .ok p := fun k => h k _ (List.getElem?_eq_getElem k.2)
    choose f hf using ex
    obtain ⟨g, hg⟩ := (onnx_ok_iff (nodes.map ONode.ofOp)).2 (by
      intro j n hj hl
      rw [List.getElem?_map] at hj
      obtain ⟨n', hn', rfl⟩ := Option.map_eq_some_iff.1 hj
      obtain ⟨p, hp⟩ := h j n' hn'
      obtain ⟨ss, hss⟩ := parseNode_sources hp
      rcases sources_ok_iff.1 ⟨ss, hss⟩ with h0 | h0
      · rw [show (ONode.ofOp n').layer = decide (parserOf n'.op ≠ .dummy) from rfl, h0] at hl
        cases hl
      · exact h0)
    refine ⟨(List.ofFn f, g), (parse_spec mapping m nodes _ g).2 ⟨⟨by simp, fun i n p hn hp => ?_⟩, hg⟩⟩
    obtain ⟨hlt, e⟩ := List.getElem?_eq_some_iff.1 hn
    rw [List.getElem?_ofFn, dif_pos hlt] at hp
    cases hp
    subst e
    exact hf ⟨i, hlt⟩

theorem getAttr_of {n : OpNode} {name : String} {v dflt : AttrVal} (h : HasAttr n name v dflt) (hv : v ≠ .other) : getAttr name n.attrs (some dflt) = .ok v := by
  unfold getAttr
  rcases h with h | ⟨h, rfl⟩
  · rw [h]
    cases v with
    | other => exact absurd rfl hv
    | int a => rfl
    | ints a => rfl
  · rw [h]

theorem ioShapes_of {m : OModel} {n : OpNode} {k : Nat} {i o : List Nat} (h : HasShapes m n i o) : ioShapes ⟨k, n.input, n.output, n.attrs⟩ m = .ok (i, o) := by
  obtain ⟨x, y, h1, h2, h3, h4⟩ := h
  unfold ioShapes name!
  simp only [h1, h2, bind, Except.bind, h3, h4, pure, Except.pure]

/-- C130: a node that says what it computes is parsed to a node that stands for it. -/
theorem node_stands (mapping : String → String → Except PyErr Unit) (hmap : ∀ a b, mapping a b = .ok ()) (m : OModel) (nodes : List OpNode) (k : Nat) (n : OpNode) (o : Oper)
    (hs : Says m n o) (h2 : parserOf n.op ≠ .dummy → (predecessors (nodes.map ONode.ofOp) k).length ≤ 2) :
    ∃ p, parseNode mapping m nodes k n = .ok p ∧ Stands nodes k n o p := by
  cases o with
  | other =>
    have hp : parserOf n.op = .dummy := by
      unfold Says at hs
      simp only [List.mem_cons, List.not_mem_nil, or_false, not_or] at hs
      unfold parserOf
      rw [if_neg (by simp [hs]), if_neg (by simp [hs])]
    refine ⟨.dummy (nameOf k n) (lower n.op) (dummySources (predecessors (nodes.map ONode.ofOp) k)), by simp [parseNode, hp], ?_⟩
    unfold Stands
    simp only
    congr 1
    generalize predecessors (nodes.map ONode.ofOp) k = ps
    match ps with
    | [] => rfl
    | [p] => rfl
    | p :: q :: r => rfl
  | conv c =>
    obtain ⟨hop, hc, hk, hst, hdi, hgr, hpa, hsh, p, hpr⟩ := hs
    have hp : parserOf n.op = .conv := by
      unfold parserOf
      rw [if_pos]
      simp only [List.mem_cons, List.not_mem_nil, or_false] at hop
      exact hop.symm
    obtain ⟨d, b, rO, rW, hd, -, hb, e1, e2, e3⟩ := conv_ok c hc k (predecessors (nodes.map ONode.ofOp) k) (h2 (by simp [hp])) p
    have hconv : conv ⟨k, n.input, n.output, n.attrs⟩ (predecessors (nodes.map ONode.ofOp) k) m = .ok d := by
      have hk' : getAttr "kernel_shape" n.attrs none = .ok (.ints c.kernel) := by
        unfold getAttr
        rw [hk]
      unfold conv
      simp only [hk', getAttr_of hst (by simp), getAttr_of hdi (by simp), getAttr_of hgr (by simp), getAttr_of hpa (by simp), asInts, asInt, ioShapes_of hsh, hpr, bind, Except.bind]
      exact hd
    refine ⟨.layer (nameOf k n) n.op d b, ?_, d, b, rO, rW, rfl, convData_id hd, e1, e2, e3⟩
    unfold parseNode
    simp only [hp, hconv, hmap, hb]
  | gemm lead D C K =>
    obtain ⟨hop, hl, hD, hC, hK, hta, hsh, p, hpr⟩ := hs
    have hp : parserOf n.op = .gemm := by
      simp only [List.mem_cons, List.not_mem_nil, or_false] at hop
      unfold parserOf
      rcases hop with e | e <;> rw [e] <;> decide +kernel
    obtain ⟨d, b, rO, rI, rW, hd, -, hb, e1, e2⟩ := gemm_ok_partial lead hl D C K hD hC hK k (predecessors (nodes.map ONode.ofOp) k) (h2 (by simp [hp])) p
    have hgemm : gemm ⟨k, n.input, n.output, n.attrs⟩ (predecessors (nodes.map ONode.ofOp) k) m = .ok d := by
      rw [gemm_plain ⟨k, n.input, n.output, n.attrs⟩ _ m (lead ++ [D, C]) (lead ++ [D, K]) (getAttr_of hta (by simp)) (ioShapes_of hsh) (by simp) (by simp) p hpr]
      exact hd
    refine ⟨.layer (nameOf k n) n.op d b, ?_, d, b, rO, rI, rW, rfl, gemmData_id hd, ?_, ?_, ?_, ?_⟩
    · unfold parseNode
      simp only [hp, hgemm, hmap, hb]
    · rw [e1]
      rfl
    · rw [e2]
      rfl
    · rw [e2]
      rfl
    · rw [e2]
      rfl

/-- The multiplications of a parsed node. -/
def Parsed.macs : Parsed → ℚ
  | .layer _ _ _ b => b.macs
  | .dummy _ _ _ => 0

/-- C130: every node of the model is represented in the workload, at its place and under its name; the workload has the multiplications of the model. -/
theorem model_parsed (mapping : String → String → Except PyErr Unit) (hmap : ∀ a b, mapping a b = .ok ()) (m : OModel) (nodes : List OpNode) (ops : List Oper)
    (hs : List.Forall₂ (Says m) nodes ops) (h2 : ∀ (k : Nat) n, nodes[k]? = some n → parserOf n.op ≠ .dummy → (predecessors (nodes.map ONode.ofOp) k).length ≤ 2) :
    ∃ ps g, parse mapping m nodes = .ok (ps, g) ∧ ps.length = nodes.length ∧ g.nodes = List.range nodes.length ∧
      (∀ (k : Nat) n o p, nodes[k]? = some n → ops[k]? = some o → ps[k]? = some p → Stands nodes k n o p) ∧
      (ps.map Parsed.macs).sum = ((ops.map Oper.macs).sum : Nat) := by
  have hlen := hs.length_eq
  have each : ∀ (k : Nat) n o, nodes[k]? = some n → ops[k]? = some o → ∃ p, parseNode mapping m nodes k n = .ok p ∧ Stands nodes k n o p := by
    intro k n o hn ho
    refine node_stands mapping hmap m nodes k n o ?_ (h2 k n hn)
    obtain ⟨l1, e1⟩ := List.getElem?_eq_some_iff.1 hn
    obtain ⟨l2, e2⟩ := List.getElem?_eq_some_iff.1 ho
    rw [← e1, ← e2]
    exact List.Forall₂.get hs l1 l2
  obtain ⟨⟨ps, g⟩, hpg⟩ := (parse_ok_iff mapping m nodes).2 (by
    intro k n hn
    obtain ⟨l1, e1⟩ := List.getElem?_eq_some_iff.1 hn
    obtain ⟨p, hp, -⟩ := each k n _ hn (List.getElem?_eq_getElem (hlen ▸ l1))
    exact ⟨p, hp⟩)
  obtain ⟨⟨p1, p2⟩, hg⟩ := (parse_spec mapping m nodes ps g).1 hpg
  have stands : ∀ (k : Nat) n o p, nodes[k]? = some n → ops[k]? = some o → ps[k]? = some p → Stands nodes k n o p := by
    intro k n o p hn ho hp
    obtain ⟨p', hp', hst⟩ := each k n o hn ho
    rw [p2 k n p hn hp] at hp'
    cases hp'
    exact hst
  refine ⟨ps, g, hpg, p1, by simpa using (onnx_edges hg).1, stands, ?_⟩
  have heq : ps.map Parsed.macs = ops.map (fun o => ((o.macs : Nat) : ℚ)) := by
    apply List.ext_getElem?
    intro k
    rw [List.getElem?_map, List.getElem?_map]
    by_cases hk : k < nodes.length
    · have e1 : nodes[k]? = some nodes[k] := List.getElem?_eq_getElem hk
      have e2 : ops[k]? = some (ops[k]'(hlen ▸ hk)) := List.getElem?_eq_getElem _
      have e3 : ps[k]? = some (ps[k]'(p1 ▸ hk)) := List.getElem?_eq_getElem _
      have := stands k _ _ _ e1 e2 e3
      rw [e2, e3, Option.map_some, Option.map_some]
      generalize ops[k]'(hlen ▸ hk) = o at this
      generalize ps[k]'(p1 ▸ hk) = p at this
      congr 1
      cases o with
      | conv c =>
        obtain ⟨d, b, _, _, rfl, -, h, -⟩ := this
        exact h
      | gemm lead D C K =>
        obtain ⟨d, b, _, _, _, rfl, -, h, -⟩ := this
        exact h
      | other =>
        unfold Stands at this
        simp only at this
        subst this
        simp [Parsed.macs, Oper.macs]
    · rw [List.getElem?_eq_none (by omega), List.getElem?_eq_none (by omega)]
      rfl
  rw [heq]
  clear heq stands each hs hlen hpg p1 p2 hg h2
  induction ops with
  | nil => simp
  | cons o os ih => simp [ih]

/-! ### Conditional branches -/

/-- C131: a model without `If` is left as it is. -/
theorem dynamic_plain (merge : G → G → String → Except PyErr G) (g : G) (h : ∀ n ∈ g.nodes, n.op ≠ "If") : dynamic merge g = .ok g := by
  unfold dynamic
  rw [if_neg]
  rw [List.contains_iff_mem, List.mem_map]
  rintro ⟨n, hn, e⟩
  exact h n hn e

theorem unrollNodes_plain (merge : G → G → String → Except PyErr G) (g : G) : ∀ ns : List GN, (∀ n ∈ ns, n.op ≠ "If") → unrollNodes merge g ns = .ok g
  | [], _ => by rw [unrollNodes]
  | .mk op i o gs :: ns, h => by
    rw [unrollNodes, if_neg (show op ≠ "If" from h _ (List.mem_cons_self ..))]
    exact unrollNodes_plain merge g ns (fun n hn => h n (by simp [hn]))

theorem unroll_plain (merge : G → G → String → Except PyErr G) (g : G) (h : ∀ n ∈ g.nodes, n.op ≠ "If") : unroll merge g = .ok g := by
  cases g with
  | mk ns i o v =>
    rw [unroll]
    exact unrollNodes_plain merge _ ns h

theorem unrollNodes_first (merge : G → G → String → Except PyErr G) (g : G) (n : GN) (hn : n.op = "If") (post : List GN) : ∀ pre : List GN, (∀ n ∈ pre, n.op ≠ "If") →
    unrollNodes merge g (pre ++ n :: post) = unrollIf merge g n.graphs
  | [], _ => by
    cases n with
    | mk op i o gs =>
      rw [List.nil_append, unrollNodes, if_pos (show op = "If" from hn)]
      rfl
  | .mk op i o gs :: pre, h => by
    rw [List.cons_append, unrollNodes, if_neg (show op ≠ "If" from h _ (List.mem_cons_self ..))]
    exact unrollNodes_first merge g n hn post pre (fun n hn => h n (by simp [hn]))

/-- The tensor through which a branch is connected: the first input of its first node. -/
def Entry (g : G) (t : String) : Prop := ∃ n ns ts, g.nodes = n :: ns ∧ n.input = t :: ts

/-- C131: a model with `If` (whose branches have none) is flattened exactly when the first tensor read by the larger branch is a known tensor of the model
and also an output of the model, and the graphs can be merged. -/
theorem dynamic_ok_iff (merge : G → G → String → Except PyErr G) (pre post : List GN) (n : GN) (ins outs infos : List String) (g0 g1 : G) (rest : List G) (hn : n.op = "If")
    (hpre : ∀ n ∈ pre, n.op ≠ "If") (hg : n.graphs = g0 :: g1 :: rest) (h0 : ∀ n ∈ g0.nodes, n.op ≠ "If") (h1 : ∀ n ∈ g1.nodes, n.op ≠ "If") (r : G) :
    dynamic merge (.mk (pre ++ n :: post) ins outs infos) = .ok r ↔
      ∃ big t, big = (if g1.nodes.length > g0.nodes.length then g1 else g0) ∧ Entry big t ∧ t ∈ infos ∧ t ∈ outs ∧
        merge (.mk (pre ++ n :: post) ins outs infos) (.mk big.nodes (if t ∈ big.inputs then big.inputs else big.inputs ++ [t]) big.outputs big.infos) t = .ok r := by
  unfold dynamic
  rw [if_pos (by
    rw [List.contains_iff_mem, List.mem_map]
    exact ⟨n, by simp [G.nodes], hn⟩), unroll, unrollNodes_first merge _ n hn post pre hpre, hg, unrollIf, unroll_plain merge g0 h0, unroll_plain merge g1 h1]
  simp only
  have key : ∀ big : G, attach merge (.mk (pre ++ n :: post) ins outs infos) big = .ok r ↔ ∃ t, Entry big t ∧ t ∈ infos ∧ t ∈ outs ∧
      merge (.mk (pre ++ n :: post) ins outs infos) (.mk big.nodes (if t ∈ big.inputs then big.inputs else big.inputs ++ [t]) big.outputs big.infos) t = .ok r := by
    intro big
    unfold attach Entry
    cases hb : big.nodes with
    | nil => simp
    | cons s ns =>
      simp only
      cases hi : s.input with
      | nil =>
        simp only [reduceCtorEq, false_iff]
        rintro ⟨t, ⟨n', ns', ts, e, e'⟩, -⟩
        cases e
        rw [hi] at e'
        cases e'
      | cons t ts =>
        have huniq : ∀ t', (∃ n' ns' ts', s :: ns = n' :: ns' ∧ GN.input n' = t' :: ts') ↔ t' = t := by
          intro t'
          constructor
          · rintro ⟨n', ns', ts', e, e'⟩
            cases e
            rw [hi] at e'
            cases e'
            rfl
          · rintro rfl
            exact ⟨s, ns, ts, rfl, hi⟩
        simp only [huniq, exists_eq_left]
        by_cases a : t ∈ infos
        · by_cases b : t ∈ outs
          · by_cases c : t ∈ big.inputs
            · have he : big = .mk (s :: ns) big.inputs big.outputs big.infos := by
                cases big
                simp only [G.nodes] at hb
                subst hb
                rfl
              have a' : t ∈ (G.mk (pre ++ n :: post) ins outs infos).infos := a
              have b' : t ∈ (G.mk (pre ++ n :: post) ins outs infos).outputs := b
              simp only [a, b, a', b', c, not_true_eq_false, if_false, if_true, true_and]
              rw [← he]
            · simp [G.infos, G.outputs, a, b, c]
          · simp [G.infos, G.outputs, a, b]
        · simp [G.infos, a]
  by_cases hc : g1.nodes.length > g0.nodes.length
  · simp only [if_pos hc, key]
    exact ⟨fun ⟨t, h⟩ => ⟨g1, t, rfl, h⟩, fun ⟨_, t, e, h⟩ => ⟨t, e ▸ h⟩⟩
  · simp only [if_neg hc, key]
    exact ⟨fun ⟨t, h⟩ => ⟨g0, t, rfl, h⟩, fun ⟨_, t, e, h⟩ => ⟨t, e ▸ h⟩⟩

theorem attach_keeps {merge : G → G → String → Except PyErr G} (hm : ∀ a b t r, merge a b t = .ok r → r.nodes = a.nodes ++ b.nodes) {g big r : G} (h : attach merge g big = .ok r) :
    r.nodes = g.nodes ++ big.nodes := by
  unfold attach at h
  cases hb : big.nodes with
  | nil => rw [hb] at h; cases h
  | cons s ns =>
    rw [hb] at h
    simp only at h
    cases hi : s.input with
    | nil => rw [hi] at h; cases h
    | cons t ts =>
      rw [hi] at h
      simp only at h
      split_ifs at h
      · rw [hm _ _ _ _ h, hb]
      · rw [hm _ _ _ _ h]
        rfl

mutual

/-- `Flat g ns`: the nodes of `g`, then those of the larger branch of its first `If`, flattened in the same way. -/
inductive Flat : G → List GN → Prop
  | mk {nodes i o v ext} (h : Extra nodes ext) : Flat (.mk nodes i o v) (nodes ++ ext)

inductive Extra : List GN → List GN → Prop
  | none : Extra [] []
  | skip {op i o gs rest ext} (h : op ≠ "If") (hr : Extra rest ext) : Extra (.mk op i o gs :: rest) ext
  | only {i o g rest ext} (h : Flat g ext) : Extra (.mk "If" i o [g] :: rest) ext
  | first {i o g0 g1 gs rest ext} (hl : g1.nodes.length ≤ g0.nodes.length) (h : Flat g0 ext) : Extra (.mk "If" i o (g0 :: g1 :: gs) :: rest) ext
  | second {i o g0 g1 gs rest ext} (hl : g0.nodes.length < g1.nodes.length) (h : Flat g1 ext) : Extra (.mk "If" i o (g0 :: g1 :: gs) :: rest) ext

end

mutual

theorem unroll_flat {merge : G → G → String → Except PyErr G} (hm : ∀ a b t r, merge a b t = .ok r → r.nodes = a.nodes ++ b.nodes) :
    ∀ {g r : G}, unroll merge g = .ok r → Flat g r.nodes
  | .mk nodes i o v, r, h => by
    rw [unroll] at h
    obtain ⟨ext, h1, h2⟩ := unrollNodes_flat hm nodes h
    rw [h1]
    exact .mk h2

theorem unrollNodes_flat {merge : G → G → String → Except PyErr G} (hm : ∀ a b t r, merge a b t = .ok r → r.nodes = a.nodes ++ b.nodes) {g r : G} :
    ∀ ns : List GN, unrollNodes merge g ns = .ok r → ∃ ext, r.nodes = g.nodes ++ ext ∧ Extra ns ext
  | [], h => by
    rw [unrollNodes] at h
    cases h
    exact ⟨[], by simp, .none⟩
  | .mk op i o gs :: rest, h => by
    rw [unrollNodes] at h
    by_cases hop : op = "If"
    · rw [if_pos hop] at h
      subst hop
      match gs, h with
      | [], h => rw [unrollIf] at h; cases h
      | [g0], h =>
        rw [unrollIf] at h
        cases hu : unroll merge g0 with
        | error e => rw [hu] at h; cases h
        | ok b =>
          rw [hu] at h
          exact ⟨b.nodes, attach_keeps hm h, .only (unroll_flat hm hu)⟩
      | g0 :: g1 :: gs, h =>
        rw [unrollIf] at h
        by_cases hc : g1.nodes.length > g0.nodes.length
        · rw [if_pos hc] at h
          cases hu : unroll merge g1 with
          | error e => rw [hu] at h; cases h
          | ok b =>
            rw [hu] at h
            exact ⟨b.nodes, attach_keeps hm h, .second hc (unroll_flat hm hu)⟩
        · rw [if_neg hc] at h
          cases hu : unroll merge g0 with
          | error e => rw [hu] at h; cases h
          | ok b =>
            rw [hu] at h
            exact ⟨b.nodes, attach_keeps hm h, .first (by omega) (unroll_flat hm hu)⟩
    · rw [if_neg hop] at h
      obtain ⟨ext, h1, h2⟩ := unrollNodes_flat hm rest h
      exact ⟨ext, h1, .skip hop h2⟩

end

/-- C131, for branches of any depth: whenever a model is flattened, the result has exactly its nodes followed by those of the larger branch of the first `If`. -/
theorem dynamic_flat_partial (merge : G → G → String → Except PyErr G) (hm : ∀ a b t r, merge a b t = .ok r → r.nodes = a.nodes ++ b.nodes) (g r : G) (h : dynamic merge g = .ok r) :
    Flat g r.nodes := by
  unfold dynamic at h
  split_ifs at h with hc
  · exact unroll_flat hm h
  · cases h
    have plain : ∀ ns : List GN, "If" ∉ ns.map GN.op → Extra ns [] := by
      intro ns
      induction ns with
      | nil => exact fun _ => .none
      | cons n ns ih =>
        cases n with
        | mk op i o gs =>
          intro hn
          simp only [List.map_cons, List.mem_cons, not_or] at hn
          exact .skip (fun e => hn.1 (by rw [e]; rfl)) (ih hn.2)
    cases g with
    | mk nodes i o v =>
      have := Flat.mk (i := i) (o := o) (v := v) (plain nodes (by simpa [List.contains_iff_mem, G.nodes] using hc))
      simpa [G.nodes] using this

/-- A merge that puts the nodes one after the other. -/
def concat (a b : G) (t : String) : Except PyErr G := .ok (.mk (a.nodes ++ b.nodes) (a.inputs ++ b.inputs.filter (· ≠ t)) (a.outputs.filter (· ≠ t) ++ b.outputs) (a.infos ++ b.infos))

/-- A branch of one convolution of tensor `t`. -/
def convBranch (t y : String) : G := .mk [.mk "Conv" [t] [y] []] [] [y] []

/-- A branch that passes the tensor on. -/
def skipBranch (y : String) : G := .mk [] [] [y] []

/-- A model `x → Relu → h`, then `If` with a convolution of `h` in one branch. -/
def hidden : G := .mk [.mk "Relu" ["x"] ["h"] [], .mk "If" ["c"] ["y"] [convBranch "h" "y", skipBranch "y"]] ["x", "c"] ["y"] ["h"]

/-- C131 is false of the code for the usual model with a branch: the tensor read by the branch is a hidden tensor of the model and no output, and making it an output uses
`graph.results`, a field that graphs do not have (onnx/utils.py line 56): `AttributeError`, however graphs are merged. -/
theorem hidden_tensor_crash (merge : G → G → String → Except PyErr G) : dynamic merge hidden = .error .attributeError := by
  unfold dynamic hidden
  rw [if_pos (by decide +kernel), unroll, unrollNodes, if_neg (by decide +kernel), unrollNodes, if_pos rfl, unrollIf, if_neg (by decide), unroll_plain merge (convBranch "h" "y") (by simp [convBranch, G.nodes, GN.op])]
  unfold attach convBranch
  simp [G.nodes, GN.input, G.infos, G.outputs]

/-- A model with two `If` operators, one convolution each. -/
def twice : G := .mk [.mk "If" ["c"] ["y"] [convBranch "h" "y", skipBranch "y"], .mk "If" ["d"] ["z"] [convBranch "y" "z", skipBranch "z"]] ["x"] ["z", "h", "y"] ["h", "y"]

/-- C131 is false of the code for models with two `If` operators: the check that there is only one (onnx/utils.py lines 41-42) is never reached because the loop ends at the
first, and the branches of the second are left out without a message. -/
theorem second_if_false : ∃ r, dynamic concat twice = .ok r ∧ (∃ n ∈ r.nodes, n.op = "Conv" ∧ n.input = ["h"]) ∧ ¬ ∃ n ∈ r.nodes, n.op = "Conv" ∧ n.input = ["y"] := by
  refine ⟨.mk (twice.nodes ++ (convBranch "h" "y").nodes) ["x"] ["z", "y", "y"] ["h", "y"], ?_, ?_, ?_⟩
  · unfold dynamic twice
    rw [if_pos (by decide +kernel), unroll, unrollNodes, if_pos rfl, unrollIf, if_neg (by decide), unroll_plain concat (convBranch "h" "y") (by simp [convBranch, G.nodes, GN.op])]
    unfold attach concat convBranch
    simp [G.nodes, GN.input, G.infos, G.outputs, G.inputs]
  · exact ⟨.mk "Conv" ["h"] ["y"] [], by simp [convBranch, G.nodes], rfl, rfl⟩
  · rintro ⟨n, hn, h1, h2⟩
    simp only [twice, convBranch, G.nodes, List.cons_append, List.nil_append, List.mem_cons, List.not_mem_nil, or_false] at hn
    rcases hn with rfl | rfl | rfl
    · exact absurd h1 (by decide +kernel)
    · exact absurd h1 (by decide +kernel)
    · exact absurd h2 (by decide +kernel)

/-! ### Examples -/

/-- A convolution of 8 channels of 6x6 to 4 of 4x4, an activation and a matrix product. -/
def exModel : OModel := ⟨[("x", [1, 8, 6, 6])], [("p", [1, 4, 4, 10])], [("y", [1, 4, 4, 4]), ("z", [1, 4, 4, 4])], []⟩

def exNodes : List OpNode :=
  [⟨"Conv", "c1", ["x", "w"], ["y"], [("kernel_shape", .ints [3, 3])]⟩, ⟨"Relu", "", ["y"], ["z"], []⟩, ⟨"MatMul", "fc", ["z", "v"], ["p"], []⟩]

def exConv : ConvOp := ⟨1, 8, 6, 6, 4, 1, 3, 3, 1, 1, 1, 1, 0, 0, 0, 0⟩

def exOps : List Oper := [.conv exConv, .other, .gemm [1, 4] 4 4 10]

theorem exSays : List.Forall₂ (Says exModel) exNodes exOps := by
  refine .cons ⟨by simp, ?_, rfl, .inr ⟨rfl, rfl⟩, .inr ⟨rfl, rfl⟩, .inr ⟨rfl, rfl⟩, .inr ⟨rfl, rfl⟩, ⟨"x", "y", rfl, rfl, by decide +kernel, by decide +kernel⟩, ⟨_, rfl⟩⟩
    (.cons (by simp [Says]) (.cons ⟨by simp, by simp, by simp, by simp, by simp, .inr ⟨rfl, rfl⟩, ⟨"z", "p", rfl, rfl, by decide +kernel, by decide +kernel⟩, ⟨_, rfl⟩⟩ .nil))
  constructor <;> decide

/-- The hypotheses of `model_parsed` hold of it; it has 4·4·4·8·9 + 16·4·10 multiplications. -/
example : ∃ ps g, parse (fun _ _ => .ok ()) exModel exNodes = .ok (ps, g) ∧ ps.length = 3 ∧ g.nodes = [0, 1, 2] ∧ (ps.map Parsed.macs).sum = 4608 + 640 := by
  obtain ⟨ps, g, h1, h2, h3, -, h4⟩ := model_parsed (fun _ _ => .ok ()) (fun _ _ => rfl) exModel exNodes exOps exSays (by
    have : ∀ k < 3, (predecessors (exNodes.map ONode.ofOp) k).length ≤ 2 := by decide +kernel
    intro k n hn _
    exact this k (List.getElem?_eq_some_iff.1 hn).1)
  refine ⟨ps, g, h1, h2, h3, ?_⟩
  rw [h4]
  have : (exOps.map Oper.macs).sum = 5248 := by decide +kernel
  rw [this]
  norm_num

/-- A model where the branch reads an output: it is flattened. -/
def shown : G := .mk [.mk "Relu" ["x"] ["h"] [], .mk "If" ["c"] ["y"] [skipBranch "y", convBranch "h" "y"]] ["x", "c"] ["y", "h"] ["h"]

example : ∃ r, dynamic concat shown = .ok r ∧ r.nodes = shown.nodes ++ [.mk "Conv" ["h"] ["y"] []] := by
  refine ⟨_, (dynamic_ok_iff concat [.mk "Relu" ["x"] ["h"] []] [] (.mk "If" ["c"] ["y"] [skipBranch "y", convBranch "h" "y"]) ["x", "c"] ["y", "h"] ["h"]
    (skipBranch "y") (convBranch "h" "y") [] rfl (by simp [GN.op]) rfl (by simp [skipBranch, G.nodes]) (by simp [convBranch, G.nodes, GN.op]) _).2
    ⟨_, "h", rfl, ?_, by simp, by simp, rfl⟩, ?_⟩
  · rw [if_pos (by decide)]
    exact ⟨_, _, _, rfl, rfl⟩
  · rw [if_pos (by decide)]
    rfl

example : ∀ a b t r, concat a b t = .ok r → r.nodes = a.nodes ++ b.nodes := by
  intro a b t r h
  cases h
  rfl

end Verif.OnnxModel
