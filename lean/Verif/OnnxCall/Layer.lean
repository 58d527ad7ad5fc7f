import Verif.OnnxCall.Spec
import Verif.Call.Layer
import Verif.Onnx.Props

/-! Layers of an ONNX model that fits: they are parsed as the layers of `Call`. -/

namespace Verif.OnnxCall

open Call (LayerOptions Written LayerFits NodeSays opName nodeName dimsOf nodeOf)
open Equation (Text Eqn Term upper)
open Files (Doc MapR MapAttr)
open Latency (Operand)
open LayerBuild (LayerD Good GivenPr ComputedPr validate)
open LayerNode (Relation Axis axisOf extractPr extractRel)
open Net (Node Innermost)
open Onnx (OModel AttrVal ConvOp Precisions conv gemm convData gemmData convLayer gemmRecord convEqn convRels gemmEqn operandSource)
open OnnxModel (OpNode)
open Whole (AccD)

/-! ### Attributes and shapes -/

theorem attr_ok {n : OpNode} {k : Nat} {name : String} {v d : AttrVal} (h : Attr n name v d) (hv : v ≠ .other) :
    Onnx.getAttr name n.attrs (some d) = .ok v := by
  unfold Onnx.getAttr
  unfold Attr attr at h
  rcases h with h | ⟨h, rfl⟩
  · obtain ⟨x, hx, rfl⟩ := Option.map_eq_some_iff.1 h
    rw [hx]
    obtain ⟨a, b⟩ := x
    cases b with
    | int => rfl
    | ints => rfl
    | other => exact absurd rfl hv
  · rw [Option.map_eq_none_iff.1 h]

theorem attr_some {n : OpNode} {name : String} {v : AttrVal} (h : attr n name = some v) (hv : v ≠ .other) (d : Option AttrVal) :
    Onnx.getAttr name n.attrs d = .ok v := by
  unfold Onnx.getAttr
  unfold attr at h
  obtain ⟨x, hx, rfl⟩ := Option.map_eq_some_iff.1 h
  rw [hx]
  obtain ⟨a, b⟩ := x
  cases b with
  | int => rfl
  | ints => rfl
  | other => exact absurd rfl hv

theorem precise_ok {n : OpNode} {p : Precisions} (h : Precise n p) : Onnx.precisions n.attrs = .ok p := by
  have one : ∀ name (v d : Nat), Attr n name (.int v) (.int d) → Onnx.precisionAttr name n.attrs d = .ok v := by
    intro name v d h
    unfold Onnx.precisionAttr
    rw [attr_ok (k := 0) h (by simp)]
    rfl
  unfold Onnx.precisions
  rw [one _ _ _ h.act]
  show (do let w ← Onnx.precisionAttr "weight_size" n.attrs 8; let o ← Onnx.precisionAttr "output_size" n.attrs (2 * p.act); return ⟨p.act, w, o⟩ : Except PyErr Precisions) = _
  rw [one _ _ _ h.weight]
  show (do let o ← Onnx.precisionAttr "output_size" n.attrs (2 * p.act); return ⟨p.act, p.weight, o⟩ : Except PyErr Precisions) = _
  rw [one _ _ _ h.inter]
  rfl

theorem shapes_ok {m : OModel} {n : OpNode} {k : Nat} {si so : List Nat} (hi : Shape m n.input[0]? si) (ho : Shape m n.output[0]? so) :
    Onnx.ioShapes ⟨k, n.input, n.output, n.attrs⟩ m = .ok (si, so) := by
  obtain ⟨x, hx, hx'⟩ := hi
  obtain ⟨y, hy, hy'⟩ := ho
  have e1 : Onnx.name! n.input 0 = .ok x := by unfold Onnx.name!; rw [hx]
  have e2 : Onnx.shape m x = .ok si := by unfold Onnx.shape; rw [hx']
  have e3 : Onnx.name! n.output 0 = .ok y := by unfold Onnx.name!; rw [hy]
  have e4 : Onnx.shape m y = .ok so := by unfold Onnx.shape; rw [hy']
  have bind_ok : ∀ {α β : Type} (x : α) (f : α → Except PyErr β), ((Except.ok x : Except PyErr α) >>= f) = f x := fun _ _ => rfl
  unfold Onnx.ioShapes
  simp only
  rw [e1, bind_ok, e2, bind_ok, e3, bind_ok, e4, bind_ok]
  rfl

/-! ### The description of a layer -/

/-- Batch size and number of heads of a product. -/
def lead2 : List Nat → Nat × Nat
  | [] => (0, 0)
  | [b] => (size b, 0)
  | b :: h :: _ => (size b, h)

/-- The description that the parser makes. -/
def record (o : Op) (p : Precisions) (k : Nat) (src : Dict Text Int) (cnt : Nat) : LayerD :=
  match o with
  | .conv c => convLayer c k src p
  | .product lead D C K => gemmRecord k src p (decide (cnt < 2)) C D K (lead2 lead).1 (lead2 lead).2

/-- The equation of a layer. -/
def eqnOf (o : Op) (cnt : Nat) : Eqn :=
  match o with
  | .conv _ => convEqn
  | .product lead _ _ _ => gemmEqn (lead2 lead).1 (lead2 lead).2 (decide (cnt < 2))

/-- The layer as written in a workload file. -/
def written (k : Nat) (n : OpNode) (l : Layer) (src : Dict Text Int) (cnt : Nat) : Written where
  name := some (OnnxModel.nameOf k n)
  operator := n.op
  layer := record l.op l.bits k src cnt
  eqn := eqnOf l.op cnt
  rels := relations l.op
  entry := l.entry
  attr := l.attr
  link := l.link

/-- The description of a node that is a convolution. -/
theorem conv_data {m : OModel} {n : OpNode} {c : ConvOp} (h : IsConv m n c) {p : Precisions} (hp : Precise n p) (k : Nat) (preds : List Nat) (src : Dict Text Int)
    (hs : operandSource k preds = .ok src) : conv ⟨k, n.input, n.output, n.attrs⟩ preds m = .ok (convLayer c k src p) := by
  have bind_ok : ∀ {α β : Type} (x : α) (f : α → Except PyErr β), ((Except.ok x : Except PyErr α) >>= f) = f x := fun _ _ => rfl
  have e1 : Onnx.asInts (Onnx.getAttr "kernel_shape" n.attrs none) = .ok c.kernel := by rw [attr_some h.kernel (by simp)]; rfl
  have e2 : Onnx.asInts (Onnx.getAttr "strides" n.attrs (some (.ints [1, 1]))) = .ok c.strides := by rw [attr_ok (k := 0) h.strides (by simp)]; rfl
  have e3 : Onnx.asInts (Onnx.getAttr "dilations" n.attrs (some (.ints [1, 1]))) = .ok c.dilations := by rw [attr_ok (k := 0) h.dilations (by simp)]; rfl
  have e4 : Onnx.asInt (Onnx.getAttr "group" n.attrs (some (.int 1))) = .ok c.g := by rw [attr_ok (k := 0) h.group (by simp)]; rfl
  have e5 : Onnx.asInts (Onnx.getAttr "pads" n.attrs (some (.ints [0, 0, 0, 0]))) = .ok c.pads := by rw [attr_ok (k := 0) h.pads (by simp)]; rfl
  unfold conv
  simp only
  rw [e1, bind_ok, e2, bind_ok, e3, bind_ok, e4, bind_ok, e5, bind_ok, shapes_ok h.input h.output, bind_ok]
  simp only
  rw [precise_ok hp, bind_ok]
  exact Onnx.convData_eq c h.valid k preds p src hs

/-- The description of a node that is a product. -/
theorem product_data {m : OModel} {n : OpNode} {lead : List Nat} {D C K : Nat} (h : IsProduct m n lead D C K) {p : Precisions} (hp : Precise n p) (k : Nat)
    (preds : List Nat) (src : Dict Text Int) (hs : operandSource k preds = .ok src) :
    gemm ⟨k, n.input, n.output, n.attrs⟩ preds m = .ok (gemmRecord k src p (decide (preds.length < 2)) C D K (lead2 lead).1 (lead2 lead).2) := by
  have bind_ok : ∀ {α β : Type} (x : α) (f : α → Except PyErr β), ((Except.ok x : Except PyErr α) >>= f) = f x := fun _ _ => rfl
  have hg : gemm ⟨k, n.input, n.output, n.attrs⟩ preds m = gemmData k preds p (lead ++ [D, C]) (lead ++ [D, K]) := by
    rcases h.input with ⟨ha, hi⟩ | ⟨t, ht, ha, hl, hi⟩
    · exact Onnx.gemm_plain ⟨k, n.input, n.output, n.attrs⟩ preds m (lead ++ [D, C]) (lead ++ [D, K]) (attr_ok (k := 0) ha (by simp)) (shapes_ok hi h.output) (by simp)
        (by simp) p (precise_ok hp)
    · subst hl
      exact Onnx.gemm_transposed ⟨k, n.input, n.output, n.attrs⟩ preds m C D K t ht (attr_some ha (by simp) _) (shapes_ok hi h.output) p (precise_ok hp)
  have hbh : Onnx.batchHeads (lead ++ [D, C]) (lead ++ [D, K]) = .ok (lead2 lead) := by
    have := h.rank
    match lead, this with
    | [], _ => rfl
    | [b], _ => simp [Onnx.batchHeads, Onnx.at!, bind, Except.bind, pure, Except.pure, lead2, size]
    | [b, g], _ => simp [Onnx.batchHeads, Onnx.at!, bind, Except.bind, pure, Except.pure, lead2, size]
  have f1 : Onnx.fromEnd (lead ++ [D, C]) 2 = .ok D := by simp [Onnx.fromEnd, Onnx.at!]
  have f2 : Onnx.fromEnd (lead ++ [D, K]) 2 = .ok D := by simp [Onnx.fromEnd, Onnx.at!]
  have f3 : Onnx.fromEnd (lead ++ [D, C]) 1 = .ok C := by simp [Onnx.fromEnd, Onnx.at!]
  have f4 : Onnx.fromEnd (lead ++ [D, K]) 1 = .ok K := by simp [Onnx.fromEnd, Onnx.at!]
  rw [hg]
  unfold gemmData
  rw [hs, bind_ok, f1, bind_ok, f2, bind_ok, if_neg (by simp), f3, bind_ok, f4, bind_ok, hbh, bind_ok]
  rfl

/-! ### It fits -/

theorem layerFits {A : AccD String} {l : Layer} {cnt : Nat} (F : Fits A l cnt) {w : Written} (he : w.entry = l.entry) (ha : w.attr = l.attr) (hl : w.link = l.link)
    (good : Good w.layer w.eqn w.rels) (pr : GivenPr w.layer w.rels ∨ ComputedPr w.layer) (hsome : w.layer.loopDims ≠ []) (inputs : w.eqn.rest ≠ [])
    (names : (w.eqn.terms.map Term.name).Nodup) (fresh : ∀ r ∈ w.rels, r.dim1 ∉ w.layer.loopDims.map upper ∧ 1 ≤ r.coef2)
    (index : ∀ t ∈ w.eqn.terms, (dimsOf t).Nodup)
    (mix : ∀ t ∈ w.eqn.terms, (∀ r ∈ w.rels, r.dim1 ∈ dimsOf t) ∨ ∀ r ∈ w.rels, r.dim1 ∉ dimsOf t)
    (vars : ∀ t ∈ w.eqn.terms, (((dimsOf t).map (axisOf w.rels)).flatMap Axis.vars).Nodup) (precise : ∀ e ∈ w.layer.precision, 0 ≤ e.2)
    (hout : w.eqn.out.name = "O".toList) (h1 : ∀ t ∈ w.eqn.terms, ∃ x ∈ operands l cnt, x.1 = t.name ∧ w.precision t.name = x.2)
    (h2 : ∀ x ∈ operands l cnt, ∃ t ∈ w.eqn.terms, t.name = x.1) (h3 : w.layer.loopDims.map upper = (loops l.op).map Prod.fst) : LayerFits A w where
  good := good
  pr := pr
  some := hsome
  inputs := inputs
  names := names
  fresh := fresh
  index := index
  mix := mix
  vars := vars
  precise := precise
  attr := by rw [he, ha]; exact F.attr
  link := by
    intro t ht
    obtain ⟨x, hx, hn, -⟩ := h1 t ht
    rw [ha, hl, ← hn]
    exact F.link x hx
  out := by rw [hl, hout]; exact F.out
  stored := by
    intro t ht
    obtain ⟨x, hx, hn, -⟩ := h1 t ht
    rw [hl, ← hn]
    exact F.stored x hx
  linked := by
    intro m hm op ho
    obtain ⟨x, hx, rfl⟩ := F.linked m hm op ho
    obtain ⟨t, ht, hn⟩ := h2 x hx
    exact ⟨t, ht, by rw [hl, hn]⟩
  delivers := by
    intro m hm t ht ho p hp hpa
    obtain ⟨x, hx, hn, hv⟩ := h1 t ht
    rw [hv]
    rw [hl, ← hn] at ho hpa
    rw [hout] at hpa
    exact F.delivers m hm x hx ho p hp hpa
  holds := by
    intro m hm t ht ho
    obtain ⟨x, hx, hn, hv⟩ := h1 t ht
    rw [hv]
    rw [hl, ← hn] at ho
    exact F.holds m hm x hx ho
  user := by rw [ha]; exact F.user
  order := by rw [ha, h3]; exact F.order

theorem conv_fits {A : AccD String} {l : Layer} {cnt : Nat} (F : Fits A l cnt) {c : ConvOp} (hop : l.op = .conv c) (hc : c.Valid) (k : Nat) (n : OpNode) (src : Dict Text Int) :
    LayerFits A (written k n l src cnt) ∧ validate (written k n l src cnt).layer = .ok true := by
  have hbp : 0 < c.batch := by unfold ConvOp.batch; split_ifs <;> omega
  have hmg : 0 < c.m / c.g := Nat.div_pos (Nat.le_of_dvd hc.m hc.gout) hc.g
  have hcg : 0 < c.cin / c.g := Nat.div_pos (Nat.le_of_dvd hc.cin hc.gin) hc.g
  have e1 : (written k n l src cnt).layer = convLayer c k src l.bits := by simp only [written, record, hop]
  have e2 : (written k n l src cnt).eqn = convEqn := by simp only [written, eqnOf, hop]
  have e3 : (written k n l src cnt).rels = convRels c.sh c.sw c.dh c.dw := by simp only [written, relations, hop, convRels]
  have hg := Onnx.conv_good k src l.bits c.batch (c.m / c.g) c.g c.ow c.oh (c.cin / c.g) c.kh c.kw c.sh c.sw c.dh c.dw c.win c.hin c.hb c.wb c.he c.we
    ⟨hbp, hmg, hc.g, Onnx.outExtent_pos _ _ _ _ _ _, Onnx.outExtent_pos _ _ _ _ _ _, hcg, hc.kh, hc.kw⟩ ⟨hc.sh, hc.sw⟩
  have hd : ["B".toList, "K".toList, "G".toList, "OX".toList, "OY".toList, "C".toList, "FX".toList, "FY".toList].map upper =
      ["B".toList, "K".toList, "G".toList, "OX".toList, "OY".toList, "C".toList, "FX".toList, "FY".toList] := by decide +kernel
  have ht : convEqn.terms = [⟨"O".toList, ["b".toList, "g".toList, "k".toList, "oy".toList, "ox".toList]⟩,
      ⟨"W".toList, ["g".toList, "k".toList, "c".toList, "fy".toList, "fx".toList]⟩, ⟨"I".toList, ["b".toList, "g".toList, "c".toList, "iy".toList, "ix".toList]⟩] := rfl
  have d1 : dimsOf ⟨"O".toList, ["b".toList, "g".toList, "k".toList, "oy".toList, "ox".toList]⟩ = ["B".toList, "G".toList, "K".toList, "OY".toList, "OX".toList] := by decide +kernel
  have d2 : dimsOf ⟨"W".toList, ["g".toList, "k".toList, "c".toList, "fy".toList, "fx".toList]⟩ = ["G".toList, "K".toList, "C".toList, "FY".toList, "FX".toList] := by decide +kernel
  have d3 : dimsOf ⟨"I".toList, ["b".toList, "g".toList, "c".toList, "iy".toList, "ix".toList]⟩ = ["B".toList, "G".toList, "C".toList, "IY".toList, "IX".toList] := by decide +kernel
  refine ⟨layerFits F rfl rfl rfl ?_ ?_ ?_ ?_ ?_ ?_ ?_ ?_ ?_ ?_ ?_ ?_ ?_ ?_, by rw [e1]; rfl⟩
  · rw [e1, e2, e3]; exact hg
  · rw [e1, e3]
    exact .inl (Onnx.conv_given k src l.bits c.batch (c.m / c.g) c.g c.ow c.oh (c.cin / c.g) c.kh c.kw c.sh c.sw c.dh c.dw c.win c.hin c.hb c.wb c.he c.we ⟨hc.win, hc.hin⟩)
  · rw [e1]; simp [convLayer, Onnx.convRecord]
  · rw [e2]; simp [convEqn]
  · rw [e2]; decide +kernel
  · rw [e1, e3]
    show ∀ r ∈ convRels c.sh c.sw c.dh c.dw, r.dim1 ∉ ["B".toList, "K".toList, "G".toList, "OX".toList, "OY".toList, "C".toList, "FX".toList, "FY".toList].map upper ∧ 1 ≤ r.coef2
    rw [hd]
    intro r hr
    simp only [convRels, List.mem_cons, List.not_mem_nil, or_false] at hr
    rcases hr with rfl | rfl
    · exact ⟨by simp only; decide +kernel, hc.sh⟩
    · exact ⟨by simp only; decide +kernel, hc.sw⟩
  · rw [e2]; decide +kernel
  · rw [e2, e3, ht]
    intro t hmem
    simp only [List.mem_cons, List.not_mem_nil, or_false] at hmem
    rcases hmem with rfl | rfl | rfl
    · right
      rw [d1]
      intro r hr
      simp only [convRels, List.mem_cons, List.not_mem_nil, or_false] at hr
      rcases hr with rfl | rfl <;> simp only <;> decide +kernel
    · right
      rw [d2]
      intro r hr
      simp only [convRels, List.mem_cons, List.not_mem_nil, or_false] at hr
      rcases hr with rfl | rfl <;> simp only <;> decide +kernel
    · left
      rw [d3]
      intro r hr
      simp only [convRels, List.mem_cons, List.not_mem_nil, or_false] at hr
      rcases hr with rfl | rfl <;> simp only <;> decide +kernel
  · rw [e2, e3, ht]
    intro t hmem
    have hv : ∀ x : Text, axisOf (convRels c.sh c.sw c.dh c.dw) x = if x = "IX".toList then .lin c.sh "OX".toList c.dh "FX".toList
        else if x = "IY".toList then .lin c.sw "OY".toList c.dw "FY".toList else .dim x := by
      intro x
      unfold axisOf convRels
      by_cases hx : x = "IX".toList
      · subst hx; simp
      · by_cases hy : x = "IY".toList
        · subst hy; simp
        · rw [if_neg hx, if_neg hy, List.find?_cons_of_neg (by simpa using Ne.symm hx), List.find?_cons_of_neg (by simpa using Ne.symm hy), List.find?_nil]
    simp only [List.mem_cons, List.not_mem_nil, or_false] at hmem
    rcases hmem with rfl | rfl | rfl
    · rw [d1]
      simp only [List.map_cons, List.map_nil, hv]
      simp [Axis.vars]
    · rw [d2]
      simp only [List.map_cons, List.map_nil, hv]
      simp [Axis.vars]
    · rw [d3]
      simp only [List.map_cons, List.map_nil, hv]
      simp [Axis.vars]
  · rw [e1]
    intro e he
    simp only [convLayer, Onnx.convRecord, Onnx.precisionDict, List.mem_cons, List.not_mem_nil, or_false] at he
    rcases he with rfl | rfl | rfl | rfl <;> simp
  · rw [e2]; rfl
  · rw [e2, ht]
    intro t hmem
    unfold Written.precision
    rw [e1]
    simp only [operands, hop]
    simp only [List.mem_cons, List.not_mem_nil, or_false] at hmem
    rcases hmem with rfl | rfl | rfl
    · exact ⟨_, List.mem_cons_self, rfl, rfl⟩
    · exact ⟨_, List.mem_cons_of_mem _ List.mem_cons_self, rfl, rfl⟩
    · exact ⟨_, List.mem_cons_of_mem _ (List.mem_cons_of_mem _ List.mem_cons_self), rfl, rfl⟩
  · rw [e2, ht]
    intro x hx
    simp only [operands, List.mem_cons, List.not_mem_nil, or_false] at hx
    rcases hx with rfl | rfl | rfl <;> simp
  · rw [e1, hop]
    exact hd

/-- The cases of the leading dimensions: names of the dimensions. -/
def leadDims : List Nat → List Text
  | [] => []
  | [_] => ["b".toList]
  | _ :: h :: _ => "b".toList :: if h = 0 then [] else ["h".toList]

theorem size_pos (n : Nat) : size n ≠ 0 := by unfold size; split_ifs <;> omega

/-- Names of the leading dimensions are one of three. -/
theorem lead_cases (lead : List Nat) (hr : lead.length ≤ 2) :
    (lead2 lead = (0, 0) ∧ Onnx.bhDims (lead2 lead).1 (lead2 lead).2 = [] ∧ leadDims lead = []) ∨
    ((lead2 lead).1 ≠ 0 ∧ (lead2 lead).2 = 0 ∧ Onnx.bhDims (lead2 lead).1 (lead2 lead).2 = ["b".toList] ∧ leadDims lead = ["b".toList]) ∨
    ((lead2 lead).1 ≠ 0 ∧ (lead2 lead).2 ≠ 0 ∧ Onnx.bhDims (lead2 lead).1 (lead2 lead).2 = ["b".toList, "h".toList] ∧ leadDims lead = ["b".toList, "h".toList]) := by
  match lead, hr with
  | [], _ => left; exact ⟨rfl, rfl, rfl⟩
  | [b], _ => right; left; exact ⟨size_pos b, rfl, by simp [Onnx.bhDims, lead2, size_pos], rfl⟩
  | [b, h], _ =>
    by_cases hh : h = 0
    · right; left
      exact ⟨size_pos b, hh, by simp [Onnx.bhDims, lead2, size_pos, hh], by simp [leadDims, hh]⟩
    · right; right
      exact ⟨size_pos b, hh, by simp [Onnx.bhDims, lead2, size_pos, hh], by simp [leadDims, hh]⟩

theorem loops_product (lead : List Nat) (hr : lead.length ≤ 2) (D C K k : Nat) (src : Dict Text Int) (p : Precisions) (const : Bool) :
    ((gemmRecord k src p const C D K (lead2 lead).1 (lead2 lead).2).loopDims.map upper).zip (gemmRecord k src p const C D K (lead2 lead).1 (lead2 lead).2).loopSizes =
      (loops (.product lead D C K)).map fun x => (x.1, (x.2 : Int)) := by
  have u1 : upper ['C'] = ['C'] := by decide +kernel
  have u2 : upper ['D'] = ['D'] := by decide +kernel
  have u3 : upper ['K'] = ['K'] := by decide +kernel
  have u4 : upper ['B'] = ['B'] := by decide +kernel
  have u5 : upper ['H'] = ['H'] := by decide +kernel
  match lead, hr with
  | [], _ => simp only [gemmRecord, lead2, loops]; simp [u1, u2, u3]
  | [b], _ => simp only [gemmRecord, lead2, loops]; simp [u1, u2, u3, u4, size_pos]
  | [b, h], _ =>
    by_cases hh : h = 0
    · simp only [gemmRecord, lead2, loops, hh]; simp [u1, u2, u3, u4, size_pos]
    · simp only [gemmRecord, lead2, loops, hh]; simp [u1, u2, u3, u4, u5, size_pos, hh]

/-- The terms of a product. -/
theorem product_terms (lead : List Nat) (const : Bool) : (gemmEqn (lead2 lead).1 (lead2 lead).2 const).terms =
    [⟨"O".toList, Onnx.bhDims (lead2 lead).1 (lead2 lead).2 ++ ["d".toList, "k".toList]⟩, ⟨"I".toList, Onnx.bhDims (lead2 lead).1 (lead2 lead).2 ++ ["d".toList, "c".toList]⟩,
      ⟨"W".toList, (if const then [] else Onnx.bhDims (lead2 lead).1 (lead2 lead).2) ++ ["c".toList, "k".toList]⟩] := rfl

theorem product_fits {A : AccD String} {l : Layer} {cnt : Nat} (F : Fits A l cnt) {lead : List Nat} {D C K : Nat} (hop : l.op = .product lead D C K)
    (hr : lead.length ≤ 2) (hpos : 0 < D ∧ 0 < C ∧ 0 < K) (k : Nat) (n : OpNode) (src : Dict Text Int) :
    LayerFits A (written k n l src cnt) ∧ validate (written k n l src cnt).layer = .ok true := by
  have e1 : (written k n l src cnt).layer = gemmRecord k src l.bits (decide (cnt < 2)) C D K (lead2 lead).1 (lead2 lead).2 := by simp only [written, record, hop]
  have e2 : (written k n l src cnt).eqn = gemmEqn (lead2 lead).1 (lead2 lead).2 (decide (cnt < 2)) := by simp only [written, eqnOf, hop]
  have e3 : (written k n l src cnt).rels = [] := by simp only [written, relations, hop]
  have hg := Onnx.gemm_good k src l.bits (decide (cnt < 2)) C D K (lead2 lead).1 (lead2 lead).2 hpos.2.1 hpos.1 hpos.2.2
  have hnd : ∀ t ∈ (gemmEqn (lead2 lead).1 (lead2 lead).2 (decide (cnt < 2))).terms, (dimsOf t).Nodup := by
    rw [product_terms]
    generalize decide (cnt < 2) = const
    rcases lead_cases lead hr with ⟨-, h, -⟩ | ⟨-, -, h, -⟩ | ⟨-, -, h, -⟩ <;> rw [h] <;> cases const <;> decide +kernel
  refine ⟨layerFits F rfl rfl rfl ?_ ?_ ?_ ?_ ?_ ?_ ?_ ?_ ?_ ?_ ?_ ?_ ?_ ?_, by rw [e1]; rfl⟩
  · rw [e1, e2, e3]; exact hg
  · rw [e1]; exact .inr ⟨rfl, rfl⟩
  · rw [e1]; simp [gemmRecord]
  · rw [e2]; simp [gemmEqn]
  · rw [e2, product_terms]
    show ["O".toList, "I".toList, "W".toList].Nodup
    decide +kernel
  · rw [e3]; intro r hr; cases hr
  · rw [e2]; exact hnd
  · rw [e3]; intro t _; left; intro r hr; cases hr
  · rw [e2, e3]
    intro t ht
    have hv : ∀ ds : List Text, (ds.map (axisOf ([] : List (Relation Text)))).flatMap Axis.vars = ds := by
      intro ds
      induction ds with
      | nil => rfl
      | cons x t ih => rw [List.map_cons, List.flatMap_cons, ih]; rfl
    rw [hv]
    exact hnd t ht
  · rw [e1]
    intro e he
    simp only [gemmRecord, Onnx.precisionDict, List.mem_cons, List.not_mem_nil, or_false] at he
    rcases he with rfl | rfl | rfl | rfl <;> exact Int.natCast_nonneg _
  · rw [e2]; rfl
  · rw [e2, product_terms]
    intro t hmem
    unfold Written.precision
    rw [e1]
    simp only [operands, hop]
    simp only [List.mem_cons, List.not_mem_nil, or_false] at hmem
    rcases hmem with rfl | rfl | rfl
    · exact ⟨_, List.mem_cons_self, rfl, rfl⟩
    · exact ⟨_, List.mem_cons_of_mem _ (List.mem_cons_of_mem _ List.mem_cons_self), rfl, rfl⟩
    · refine ⟨_, List.mem_cons_of_mem _ List.mem_cons_self, rfl, ?_⟩
      by_cases h : cnt < 2 <;> simp [gemmRecord, Onnx.precisionDict, Dict.get?, h]
  · rw [e2, product_terms]
    intro x hx
    simp only [operands, List.mem_cons, List.not_mem_nil, or_false] at hx
    rcases hx with rfl | rfl | rfl <;> simp
  · rw [e1, hop]
    have := congrArg (List.map Prod.fst) (loops_product lead hr D C K k src l.bits (decide (cnt < 2)))
    rw [List.map_fst_zip (by rw [List.length_map]; exact hg.lens.le), List.map_map] at this
    exact this

/-! ### The layer that the stages get -/

theorem zip_cast {ks : List Text} {vs : List Int} {xs : List (Text × Nat)} (h : ks.zip vs = xs.map fun x => (x.1, (x.2 : Int))) :
    ks.zip (vs.map fun k : Int => (k : ℚ)) = xs.map fun x => (x.1, (x.2 : ℚ)) := by
  rw [List.zip_map_right, h, List.map_map]
  exact List.map_congr_left fun x _ => by simp

theorem conv_is {A : AccD String} {l : Layer} {cnt : Nat} (F : Fits A l cnt) {c : ConvOp} (hop : l.op = .conv c) {k : Nat} {n : OpNode} {src : Dict Text Int} {lo : LayerOptions}
    {x : Node String Text} (S : NodeSays lo (written k n l src cnt) x) : LayerIs lo l cnt x := by
  have e1 : (written k n l src cnt).layer = convLayer c k src l.bits := by simp only [written, record, hop]
  have e2 : (written k n l src cnt).eqn = convEqn := by simp only [written, eqnOf, hop]
  have ht : convEqn.terms = [⟨"O".toList, ["b".toList, "g".toList, "k".toList, "oy".toList, "ox".toList]⟩,
      ⟨"W".toList, ["g".toList, "k".toList, "c".toList, "fy".toList, "fx".toList]⟩, ⟨"I".toList, ["b".toList, "g".toList, "c".toList, "iy".toList, "ix".toList]⟩] := rfl
  have d1 : dimsOf ⟨"O".toList, ["b".toList, "g".toList, "k".toList, "oy".toList, "ox".toList]⟩ = ["B".toList, "G".toList, "K".toList, "OY".toList, "OX".toList] := by decide +kernel
  have d2 : dimsOf ⟨"W".toList, ["g".toList, "k".toList, "c".toList, "fy".toList, "fx".toList]⟩ = ["G".toList, "K".toList, "C".toList, "FY".toList, "FX".toList] := by decide +kernel
  have d3 : dimsOf ⟨"I".toList, ["b".toList, "g".toList, "c".toList, "iy".toList, "ix".toList]⟩ = ["B".toList, "G".toList, "C".toList, "IY".toList, "IX".toList] := by decide +kernel
  have hd : ["B".toList, "K".toList, "G".toList, "OX".toList, "OY".toList, "C".toList, "FX".toList, "FY".toList].map upper =
      ["B".toList, "K".toList, "G".toList, "OX".toList, "OY".toList, "C".toList, "FX".toList, "FY".toList] := by decide +kernel
  have hops : operands l cnt = [("O".toList, l.bits.inter), ("W".toList, l.bits.weight), ("I".toList, l.bits.act)] := by simp only [operands, hop]
  have hz : x.layer.L.dimSizes = (loops l.op).map fun x => (x.1, (x.2 : ℚ)) := by
    rw [S.sizes, e1, hop]
    refine zip_cast ?_
    show (["B".toList, "K".toList, "G".toList, "OX".toList, "OY".toList, "C".toList, "FX".toList, "FY".toList].map upper).zip _ = _
    rw [hd]
    rfl
  have hp : ∀ t, (written k n l src cnt).precision t = ((Onnx.precisionDict l.bits.act l.bits.weight l.bits.inter).get? t).getD 0 := by
    intro t
    unfold Written.precision
    rw [e1]
    rfl
  have hrel : ∀ t ∈ convEqn.terms, extractRel (dimsOf t) x.layer.L.dimSizes (extractPr (relations l.op)) = .ok (x.layer.rel (l.link t.name)) := by
    intro t ht
    exact S.rel t (by rw [e2]; exact ht)
  have hprec : ∀ t ∈ convEqn.terms, (x.layer.precision (l.link t.name) : Int) = ((Onnx.precisionDict l.bits.act l.bits.weight l.bits.inter).get? t.name).getD 0 := by
    intro t ht
    rw [← hp]
    exact S.precision t (by rw [e2]; exact ht)
  rw [ht] at hrel hprec
  refine ⟨S.skip, ?_, ?_, hz, S.pi, ?_, ?_, ?_, S.noAccess, S.even, S.cycles, S.mapping, S.hints, ?_⟩
  rotate_right
  · have h3 : (written k n l src cnt).layer.loopDims.map upper = (loops l.op).map Prod.fst := by
      rw [e1, hop]
      exact hd
    rw [S.order, h3]
    rfl
  · rw [S.ops, e2, hops]; exact List.Perm.refl _
  · rw [S.inputs, e2, hops]; exact List.Perm.refl _
  · rw [hops]
    intro t hmem
    simp only [List.mem_cons, List.not_mem_nil, or_false] at hmem
    rcases hmem with rfl | rfl | rfl
    · have := hrel _ List.mem_cons_self
      rw [d1] at this
      simpa only [hop, dims, if_true] using this
    · have := hrel _ (List.mem_cons_of_mem _ List.mem_cons_self)
      rw [d2] at this
      have h0 : ¬ "W".toList = "O".toList := by decide
      simpa only [hop, dims, if_true, h0, if_false] using this
    · have := hrel _ (List.mem_cons_of_mem _ (List.mem_cons_of_mem _ List.mem_cons_self))
      rw [d3] at this
      have h0 : ¬ "I".toList = "O".toList := by decide
      have h1 : ¬ "I".toList = "W".toList := by decide
      simpa only [hop, dims, h0, h1, if_false] using this
  · rw [hops]
    intro t hmem
    simp only [List.mem_cons, List.not_mem_nil, or_false] at hmem
    rcases hmem with rfl | rfl | rfl
    · exact Int.ofNat_inj.1 (hprec _ List.mem_cons_self)
    · exact Int.ofNat_inj.1 (hprec _ (List.mem_cons_of_mem _ List.mem_cons_self))
    · exact Int.ofNat_inj.1 (hprec _ (List.mem_cons_of_mem _ (List.mem_cons_of_mem _ List.mem_cons_self)))
  · have := S.final
    rw [hp] at this
    exact Int.ofNat_inj.1 this

theorem product_is {A : AccD String} {l : Layer} {cnt : Nat} (F : Fits A l cnt) {lead : List Nat} {D C K : Nat} (hop : l.op = .product lead D C K)
    (hr : lead.length ≤ 2) {k : Nat} {n : OpNode} {src : Dict Text Int} {lo : LayerOptions} {x : Node String Text} (S : NodeSays lo (written k n l src cnt) x) :
    LayerIs lo l cnt x := by
  have e1 : (written k n l src cnt).layer = gemmRecord k src l.bits (decide (cnt < 2)) C D K (lead2 lead).1 (lead2 lead).2 := by simp only [written, record, hop]
  have e2 : (written k n l src cnt).eqn = gemmEqn (lead2 lead).1 (lead2 lead).2 (decide (cnt < 2)) := by simp only [written, eqnOf, hop]
  set wb := if cnt < 2 then l.bits.weight else l.bits.act with hwb
  have hops : operands l cnt = [("O".toList, l.bits.inter), ("W".toList, wb), ("I".toList, l.bits.act)] := by simp only [operands, hop, hwb]
  have hz : x.layer.L.dimSizes = (loops l.op).map fun x => (x.1, (x.2 : ℚ)) := by
    rw [S.sizes, e1, hop]
    exact zip_cast (loops_product lead hr D C K k src l.bits (decide (cnt < 2)))
  have hp : ∀ t, (written k n l src cnt).precision t = ((Onnx.precisionDict l.bits.act wb l.bits.inter).get? t).getD 0 := by
    intro t
    unfold Written.precision
    rw [e1]
    by_cases h : cnt < 2 <;> simp [gemmRecord, hwb, h]
  have hrel : ∀ t ∈ (gemmEqn (lead2 lead).1 (lead2 lead).2 (decide (cnt < 2))).terms,
      extractRel (dimsOf t) x.layer.L.dimSizes (extractPr (relations l.op)) = .ok (x.layer.rel (l.link t.name)) := by
    intro t ht
    exact S.rel t (by rw [e2]; exact ht)
  have hprec : ∀ t ∈ (gemmEqn (lead2 lead).1 (lead2 lead).2 (decide (cnt < 2))).terms,
      (x.layer.precision (l.link t.name) : Int) = ((Onnx.precisionDict l.bits.act wb l.bits.inter).get? t.name).getD 0 := by
    intro t ht
    rw [← hp]
    exact S.precision t (by rw [e2]; exact ht)
  have hdims : ∀ t ∈ (gemmEqn (lead2 lead).1 (lead2 lead).2 (decide (cnt < 2))).terms, dimsOf t = dims l.op cnt t.name := by
    rw [product_terms, hop]
    have key : ∀ lead : List Nat, lead.length ≤ 2 → ((leadDims lead).filter fun x => decide (x ≠ [])).map upper = leadNames lead := by
      intro lead hr
      match lead, hr with
      | [], _ => rfl
      | [b], _ => show ((["b".toList]).filter _).map upper = ["B".toList]; decide +kernel
      | [b, h], _ =>
        by_cases hh : h = 0
        · simp only [leadDims, leadNames, hh, if_true]; decide +kernel
        · simp only [leadDims, leadNames, hh, if_false]; decide +kernel
    have hbh : Onnx.bhDims (lead2 lead).1 (lead2 lead).2 = leadDims lead := by
      rcases lead_cases lead hr with ⟨-, h, h'⟩ | ⟨-, -, h, h'⟩ | ⟨-, -, h, h'⟩ <;> rw [h, h']
    have hk := key lead hr
    rw [hbh]
    have ap : ∀ (a : List Text) (b : List Text) (nm : Text), dimsOf ⟨nm, a ++ b⟩ = ((a.filter fun x => decide (x ≠ [])).map upper) ++ ((b.filter fun x => decide (x ≠ [])).map upper) := by
      intro a b nm
      unfold dimsOf
      rw [List.filter_append, List.map_append]
    have t1 : ((["d".toList, "k".toList]).filter fun x : Text => decide (x ≠ [])).map upper = ["D".toList, "K".toList] := by decide +kernel
    have t2 : ((["d".toList, "c".toList]).filter fun x : Text => decide (x ≠ [])).map upper = ["D".toList, "C".toList] := by decide +kernel
    have t3 : ((["c".toList, "k".toList]).filter fun x : Text => decide (x ≠ [])).map upper = ["C".toList, "K".toList] := by decide +kernel
    have h0 : ¬ "W".toList = "O".toList := by decide
    have h1 : ¬ "I".toList = "O".toList := by decide
    have h2 : ¬ "I".toList = "W".toList := by decide
    intro t hmem
    simp only [List.mem_cons, List.not_mem_nil, or_false] at hmem
    rcases hmem with rfl | rfl | rfl
    · rw [ap, hk, t1]
      simp only [dims, if_true]
    · rw [ap, hk, t2]
      simp only [dims, h1, h2, if_false]
    · rw [ap, t3]
      simp only [dims, h0, if_false, if_true, decide_eq_true_eq]
      by_cases h : cnt < 2
      · simp [h]
      · simp only [h, if_false]
        rw [hk]
  rw [product_terms] at hrel hprec hdims
  refine ⟨S.skip, ?_, ?_, hz, S.pi, ?_, ?_, ?_, S.noAccess, S.even, S.cycles, S.mapping, S.hints, ?_⟩
  rotate_right
  · have h3 : (written k n l src cnt).layer.loopDims.map upper = (loops l.op).map Prod.fst := by
      rw [e1, hop]
      have := congrArg (List.map Prod.fst) (loops_product lead hr D C K k src l.bits (decide (cnt < 2)))
      rw [List.map_fst_zip (by
        rw [List.length_map]
        by_cases h : (lead2 lead).1 = 0 <;> by_cases h' : (lead2 lead).2 = 0 <;> simp [gemmRecord, Onnx.gemmRecord, h, h']), List.map_map] at this
      exact this
    rw [S.order, h3]
    rfl
  · rw [S.ops, e2, hops, product_terms]
    exact (List.Perm.swap _ _ _).cons _
  · rw [S.inputs, e2, hops]
    exact List.Perm.swap _ _ _
  · rw [hops]
    have a0 := hrel _ List.mem_cons_self
    have a1 := hrel _ (List.mem_cons_of_mem _ List.mem_cons_self)
    have a2 := hrel _ (List.mem_cons_of_mem _ (List.mem_cons_of_mem _ List.mem_cons_self))
    rw [hdims _ List.mem_cons_self] at a0
    rw [hdims _ (List.mem_cons_of_mem _ List.mem_cons_self)] at a1
    rw [hdims _ (List.mem_cons_of_mem _ (List.mem_cons_of_mem _ List.mem_cons_self))] at a2
    intro t hmem
    simp only [List.mem_cons, List.not_mem_nil, or_false] at hmem
    rcases hmem with rfl | rfl | rfl
    · exact a0
    · exact a2
    · exact a1
  · rw [hops]
    intro t hmem
    simp only [List.mem_cons, List.not_mem_nil, or_false] at hmem
    rcases hmem with rfl | rfl | rfl
    · exact Int.ofNat_inj.1 (hprec _ List.mem_cons_self)
    · exact Int.ofNat_inj.1 (hprec _ (List.mem_cons_of_mem _ (List.mem_cons_of_mem _ List.mem_cons_self)))
    · exact Int.ofNat_inj.1 (hprec _ (List.mem_cons_of_mem _ List.mem_cons_self))
  · have := S.final
    rw [hp] at this
    exact Int.ofNat_inj.1 this

/-- The multiplications of the layer. -/
theorem macs_loops (o : Op) (h : match o with | .conv c => c.Valid | .product lead _ _ _ => lead.length ≤ 2) : ((loops o).map Prod.snd).prod = o.macs := by
  cases o with
  | conv c =>
    have h : c.Valid := h
    simp only [loops, Op.macs, ConvOp.macs, List.map_cons, List.map_nil, List.prod_cons, List.prod_nil, Nat.mul_one]
    obtain ⟨q, hq⟩ := h.gout
    have : c.m / c.g * c.g = c.m := Nat.div_mul_cancel ⟨q, hq⟩
    calc c.batch * (c.m / c.g * (c.g * (c.ow * (c.oh * (c.cin / c.g * (c.kh * c.kw))))))
        = c.batch * (c.m / c.g * c.g) * c.oh * c.ow * (c.cin / c.g) * c.kh * c.kw := by ring
      _ = _ := by rw [this]
  | product lead D C K =>
    match lead, h with
    | [], _ => simp [loops, Op.macs]; ring
    | [b], _ => simp [loops, Op.macs]; ring
    | [b, g], _ =>
      by_cases hg : g = 0
      · subst hg
        simp [loops, Op.macs, size]; ring
      · simp [loops, Op.macs, size, hg]; ring

end Verif.OnnxCall
