import Verif.OnnxCall.Layer
import Verif.Call.Props

/-! C154: a whole call on an ONNX model. -/

namespace Verif.OnnxCall

open Call (LayerOptions AccSays nodeOf NodeSays)
open Equation (Text)
open Evaluate (Job Result Separate)
open Files (Doc MapR)
open Net (Node NodeOk FileOk OptionsOk Known NoWorse spatialMappings)
open Onnx (OModel)
open OnnxModel (OpNode parserOf)
open Whole (AccD run)

variable {cacti : String → String → Int → Int → Except PyErr (ℚ × ℚ × ℚ)} {fact : Nat → List (Nat × Nat)} {o : Net.Options String Text}
variable {da dm : Doc} {A : AccD String} {m : OModel} {nodes : List OpNode} {ls : List (Option Layer)}

/-! ### Parsing -/

theorem operations_loops {lo : LayerOptions} {l : Layer} {cnt : Nat} {x : Node String Text} (S : LayerIs lo l cnt x) : Whole.operations x.layer = ((loops l.op).map Prod.snd).prod := by
  unfold Whole.operations Whole.LayerIn.sizes
  rw [S.sizes, List.map_map, List.map_map]
  congr 1

theorem node_parsed {ms : List MapR} {k : Nat} {n : OpNode} {l : Layer} (N : NodeIs m ms k n l) (F : Fits A l (computed nodes k)) (lo : LayerOptions) :
    ∃ x, parseNode lo ms m nodes k n = .ok (some x) ∧ LayerIs lo l (computed nodes k) x ∧ (∃ rl rels, NodeOk A x rl rels) ∧ Whole.operations x.layer = l.op.macs ∧
      parserOf n.op ≠ .dummy := by
  obtain ⟨src, hs⟩ := Onnx.operandSource_ok k (Workload.predecessors (nodes.map OnnxModel.ONode.ofOp) k) F.sources
  have hch : Links.choose (Call.nodeName (some (OnnxModel.nameOf k n)) (record l.op l.bits k src (computed nodes k)).id) n.op (ms.map fun m => (m.name, m)) = .ok (l.entry.name, l.entry) :=
    Call.chosen_iff.1 N.entry
  have fin : ∀ (h : Call.LayerFits A (written k n l src (computed nodes k)) ∧ LayerBuild.validate (written k n l src (computed nodes k)).layer = .ok true)
      (hd : dataOf m nodes k n = some (.ok (record l.op l.bits k src (computed nodes k))))
      (hi : ∀ x, NodeSays lo (written k n l src (computed nodes k)) x → LayerIs lo l (computed nodes k) x)
      (hv : match l.op with | .conv c => c.Valid | .product lead _ _ _ => lead.length ≤ 2) (hp : parserOf n.op ≠ .dummy),
      ∃ x, parseNode lo ms m nodes k n = .ok (some x) ∧ LayerIs lo l (computed nodes k) x ∧ (∃ rl rels, NodeOk A x rl rels) ∧ Whole.operations x.layer = l.op.macs ∧
        parserOf n.op ≠ .dummy := by
    intro h hd hi hv hp
    obtain ⟨x, h1, h2, h3⟩ := Call.node_built h.1 h.2 lo ms hch
    obtain ⟨rl, hok⟩ := Call.node_ok h.1 h2 h3
    refine ⟨x, ?_, hi x h2, ⟨rl, _, hok⟩, ?_, hp⟩
    · unfold parseNode
      rw [hd]
      simp only
      have : nodeOf lo ms (some (OnnxModel.nameOf k n), n.op, record l.op l.bits k src (computed nodes k)) = .ok x := h1
      rw [this]
    · rw [operations_loops (hi x h2), macs_loops l.op hv]
  have hop := N.op
  cases hl : l.op with
  | conv c =>
    rw [hl] at hop
    have hop : IsConv m n c := hop
    have hp : parserOf n.op = .conv := by
      rcases hop.op with h | h <;> rw [h] <;> decide +kernel
    rw [← hl]
    refine fin (conv_fits F hl hop.valid k n src) ?_ (fun x hx => conv_is F hl hx) (by rw [hl]; exact hop.valid) (by rw [hp]; simp)
    unfold dataOf
    simp only
    rw [hp]
    simp only
    rw [conv_data hop N.precise k _ src hs, hl]
    rfl
  | product lead D C K =>
    rw [hl] at hop
    have hop : IsProduct m n lead D C K := hop
    have hp : parserOf n.op = .gemm := by
      rcases hop.op with h | h <;> rw [h] <;> decide +kernel
    rw [← hl]
    refine fin (product_fits F hl hop.rank hop.pos k n src) ?_ (fun x hx => product_is F hl hop.rank hx) (by rw [hl]; exact hop.rank) (by rw [hp]; simp)
    unfold dataOf
    simp only
    rw [hp]
    simp only
    rw [product_data hop N.precise k _ src hs, hl]
    rfl

theorem other_dummy {n : OpNode} (h : Other n) : parserOf n.op = .dummy := by
  unfold Other at h
  simp only [List.mem_cons, List.not_mem_nil, or_false, not_or] at h
  unfold parserOf
  rw [if_neg (by rintro (h' | h'); exact h.2.1 h'; exact h.1 h'), if_neg (by rintro (h' | h'); exact h.2.2.1 h'; exact h.2.2.2.1 h')]

/-- What the parsed node has to do with the layer of the model. -/
def ParsedAs (A : AccD String) (lo : LayerOptions) (nodes : List OpNode) (k : Nat) (l : Option Layer) (x : Option (Node String Text)) : Prop :=
  match l, x with
  | none, none => True
  | some l, some x => LayerIs lo l (computed nodes k) x ∧ (∃ rl rels, NodeOk A x rl rels) ∧ Whole.operations x.layer = l.op.macs
  | _, _ => False

theorem nodes_parsed (lo : LayerOptions) (ms : List MapR) : ∀ (rest : List OpNode) (k : Nat) (ls' : List (Option Layer)), rest.length = ls'.length →
    (∀ (i : Nat) n l, rest[i]? = some n → ls'[i]? = some (some l) → NodeIs m ms (k + i) n l ∧ Fits A l (computed nodes (k + i))) →
    (∀ (i : Nat) n, rest[i]? = some n → ls'[i]? = some none → Other n) →
    ∃ xs, parseNodes lo ms m nodes k rest = .ok xs ∧ xs.length = rest.length ∧
      ∀ (i : Nat) l x, ls'[i]? = some l → xs[i]? = some x → ParsedAs A lo nodes (k + i) l x
  | [], k, ls', hlen, _, _ => ⟨[], rfl, rfl, fun i l x _ hx => by simp at hx⟩
  | n :: t, k, [], hlen, _, _ => by simp at hlen
  | n :: t, k, l :: ls', hlen, hN, hO => by
    obtain ⟨xs, h1, h2, h3⟩ := nodes_parsed lo ms t (k + 1) ls' (by simpa using hlen)
      (fun i n' l' hn hl => by
        have := hN (i + 1) n' l' (by simpa using hn) (by simpa using hl)
        rwa [show k + 1 + i = k + (i + 1) by omega])
      (fun i n' hn hl => hO (i + 1) n' (by simpa using hn) (by simpa using hl))
    have hx : ∃ x, parseNode lo ms m nodes k n = .ok x ∧ ParsedAs A lo nodes k l x := by
      cases l with
      | none =>
        have hd := other_dummy (hO 0 n rfl rfl)
        refine ⟨none, ?_, trivial⟩
        unfold parseNode dataOf
        simp only
        rw [hd]
      | some l =>
        obtain ⟨hN0, hF0⟩ := hN 0 n l rfl rfl
        obtain ⟨x, hx, p1, p2, p3, -⟩ := node_parsed (nodes := nodes) hN0 hF0 lo
        exact ⟨some x, hx, p1, p2, p3⟩
    obtain ⟨x, hx, hp⟩ := hx
    refine ⟨x :: xs, ?_, by simp [h2], ?_⟩
    · rw [parseNodes, hx]
      simp only
      rw [h1]
    · intro i l' x' hl hx'
      cases i with
      | zero =>
        simp only [List.getElem?_cons_zero, Option.some.injEq] at hl hx'
        rw [← hl, ← hx']
        exact hp
      | succ i =>
        simp only [List.getElem?_cons_succ] at hl hx'
        have := h3 i l' x' hl hx'
        rwa [show k + 1 + i = k + (i + 1) by omega] at this

theorem picked {R : Nat → Option Layer → Option (Node String Text) → Prop} {xs : List (Option (Node String Text))} (hlen : xs.length = ls.length)
    (h : ∀ (i : Nat) l x, ls[i]? = some l → xs[i]? = some x → R i l x) (hR : ∀ i l x, R i l x → (l = none ↔ x = none)) : ∀ order : List Nat, (∀ i ∈ order, i < ls.length) →
    List.Forall₂ (fun (kl : Nat × Layer) n => R kl.1 (some kl.2) (some n)) (layersIn ls order) (order.filterMap fun i => xs[i]?.bind id)
  | [], _ => .nil
  | i :: t, hi => by
    have ih := picked hlen h hR t fun j hj => hi j (List.mem_cons_of_mem _ hj)
    have hl := hi i List.mem_cons_self
    have hx : i < xs.length := by omega
    have hr := h i _ _ (List.getElem?_eq_getElem hl) (List.getElem?_eq_getElem hx)
    have hn := hR _ _ _ hr
    unfold layersIn at ih ⊢
    rw [List.filterMap_cons, List.filterMap_cons, List.getElem?_eq_getElem hl, List.getElem?_eq_getElem hx]
    generalize ls[i] = l at hr hn
    generalize xs[i] = x at hr hn
    cases l with
    | none =>
      cases x with
      | none => exact ih
      | some x => exact absurd (hn.1 rfl) (by simp)
    | some l =>
      cases x with
      | none => exact absurd (hn.2 rfl) (by simp)
      | some x => exact .cons hr ih

theorem filter_picked {α : Type} (xs : List (Option α)) (order : List Nat) :
    (order.filter fun v => !(xs[v]?.bind id).isNone && !false).filterMap (fun i => xs[i]?.bind id) = order.filterMap fun i => xs[i]?.bind id := by
  induction order with
  | nil => rfl
  | cons i t ih =>
    rw [List.filter_cons]
    cases hx : xs[i]?.bind id with
    | none =>
      rw [if_neg (by simp), List.filterMap_cons, hx]
      exact ih
    | some y =>
      rw [if_pos (by simp), List.filterMap_cons, List.filterMap_cons, hx]
      simp only
      rw [ih]

/-- C154: the layers that the stages get are those of the model, each once and after the nodes that compute its inputs. -/
theorem workload_model (M : ModelIs A m nodes dm ls) (lo : LayerOptions) :
    ∃ ns, workload lo m nodes dm = .ok ns ∧ ∃ order, Sorted nodes order ∧
      List.Forall₂ (fun (kl : Nat × Layer) n => LayerIs lo kl.2 (computed nodes kl.1) n ∧ (∃ rl rels, NodeOk A n rl rels) ∧ Whole.operations n.layer = kl.2.op.macs)
        (layersIn ls order) ns := by
  obtain ⟨ms, hms, hN⟩ := M.entries
  obtain ⟨xs, hxs, hlen, hP⟩ := nodes_parsed (nodes := nodes) (A := A) (m := m) lo ms nodes 0 ls M.length.symm
    (fun i n l hn hl => by rw [Nat.zero_add]; exact hN i n l hn hl) (fun i n hn hl => M.others i n hn hl)
  have hP : ∀ (i : Nat) l x, ls[i]? = some l → xs[i]? = some x → ParsedAs A lo nodes i l x := by
    intro i l x hl hx
    have := hP i l x hl hx
    rwa [Nat.zero_add] at this
  have hcase : ∀ (k : Nat) n, nodes[k]? = some n → (parserOf n.op = .dummy ∧ n.op ≠ "If") ∨ ((∃ l, ls[k]? = some (some l)) ∧ computed nodes k ≤ 2 ∧ n.op ≠ "If") := by
    intro k n hn
    have hk : k < ls.length := by rw [M.length]; exact (List.getElem?_eq_some_iff.1 hn).1
    cases hl : ls[k] with
    | none =>
      have := M.others k n hn (by rw [List.getElem?_eq_getElem hk, hl])
      refine .inl ⟨other_dummy this, fun h => ?_⟩
      unfold Other at this
      simp [h] at this
    | some l =>
      have hl' : ls[k]? = some (some l) := by rw [List.getElem?_eq_getElem hk, hl]
      obtain ⟨h1, h2⟩ := hN k n l hn hl'
      refine .inr ⟨⟨l, hl'⟩, h2.sources, fun h => ?_⟩
      have hop := h1.op
      cases hc : l.op with
      | conv c =>
        rw [hc] at hop
        have hop : IsConv m n c := hop
        rcases hop.op with h' | h' <;> rw [h] at h' <;> revert h' <;> decide
      | product lead D C K =>
        rw [hc] at hop
        have hop : IsProduct m n lead D C K := hop
        rcases hop.op with h' | h' <;> rw [h] at h' <;> revert h' <;> decide
  have hif : (nodes.map OpNode.op).contains "If" = false := by
    rw [Bool.eq_false_iff]
    intro h
    rw [List.contains_iff_mem, List.mem_map] at h
    obtain ⟨n, hn, h⟩ := h
    obtain ⟨k, hk, hk'⟩ := List.getElem_of_mem hn
    rcases hcase k n (by rw [List.getElem?_eq_getElem hk, hk']) with h' | h'
    · exact h'.2 h
    · exact h'.2.2 h
  have hget : ∀ k : Nat, (nodes.map OnnxModel.ONode.ofOp)[k]? = nodes[k]?.map OnnxModel.ONode.ofOp := fun k => List.getElem?_map
  obtain ⟨g, hg⟩ := (Workload.onnx_ok_iff (nodes.map OnnxModel.ONode.ofOp)).2 fun j n' hn' hl => by
    rw [hget] at hn'
    obtain ⟨n, hn, rfl⟩ := Option.map_eq_some_iff.1 hn'
    rcases hcase j n hn with h | h
    · simp [OnnxModel.ONode.ofOp, h.1] at hl
    · exact h.2.1
  obtain ⟨e1, e2, e3⟩ := Workload.onnx_edges hg
  obtain ⟨hG, ht⟩ := Workload.forward_topo e1 e2 (by
    intro i j hij
    have hf := (Workload.onnx_edges_sound hg i j hij).2
    refine ⟨M.forward i j hf, ?_⟩
    obtain ⟨_, n, t, -, hn, -⟩ := hf
    exact (List.getElem?_eq_some_iff.1 hn).1)
  obtain ⟨order, ho⟩ := Topo.topoSort_complete hG ht
  have hs := Topo.topoSort_sound hG ho
  have hperm : order.Perm (List.range nodes.length) := by
    have := hs.1
    rw [e1, List.length_map] at this
    exact this
  have hin : ∀ i ∈ order, i < ls.length := by
    intro i hi
    rw [M.length]
    exact List.mem_range.1 (hperm.mem_iff.1 hi)
  have hfm := filter_picked xs order
  refine ⟨order.filterMap fun i => xs[i]?.bind id, ?_, order, ⟨hperm, ?_⟩, ?_⟩
  · unfold workload
    rw [hif, if_neg (by simp), hms]
    simp only
    rw [hxs]
    simp only
    rw [hg]
    simp only
    unfold Workload.schedule
    rw [ho]
    simp only
    rw [hfm]
  · intro pre j post hsplit hc i hf
    refine hs.2 pre j post hsplit i ?_
    have hlt := M.forward i j hf
    obtain ⟨_, n, t, -, hn, -⟩ := id hf
    obtain ⟨ss, hss⟩ := (Workload.sources_ok_iff (k := j)).2 (Or.inr hc : n.layer = false ∨ (Workload.predecessors (nodes.map OnnxModel.ONode.ofOp) j).length ≤ 2)
    refine (e3 i j).2 ⟨n, ss, hn, hss, ?_⟩
    rcases (Workload.sources_spec hss).2 hc i (Workload.mem_predecessors.2 ⟨hlt.le, hf⟩) with h | h
    · omega
    · exact h
  · exact picked (R := ParsedAs A lo nodes) (by rw [hlen, M.length]) hP (by
      intro i l x h
      cases l <;> cases x <;> simp_all [ParsedAs]) order hin

/-! ### All layers of the model -/

theorem parseNode_made {lo : LayerOptions} {ms : List MapR} {k : Nat} {n : OpNode} {x : Option (Node String Text)} (h : parseNode lo ms m nodes k n = .ok x) :
    (x = none → n.op ∉ ["Conv", "QLinearConv", "MatMul", "Gemm"]) ∧ ∀ y, x = some y → n.op ∈ ["Conv", "QLinearConv", "MatMul", "Gemm"] ∧ Made lo m nodes ms k n y := by
  unfold parseNode at h
  cases hd : dataOf m nodes k n with
  | none =>
    rw [hd] at h
    cases h
    unfold dataOf parserOf at hd
    simp only at hd
    split_ifs at hd with h1 h2
    refine ⟨fun _ => ?_, fun y hy => by cases hy⟩
    simp only [List.mem_cons, List.not_mem_nil, or_false, not_or]
    tauto
  | some r =>
    rw [hd] at h
    cases r with
    | error e => cases h
    | ok d =>
      simp only at h
      cases hn : nodeOf lo ms (some (OnnxModel.nameOf k n), n.op, d) with
      | error e => rw [hn] at h; cases h
      | ok y =>
        rw [hn] at h
        cases h
        unfold dataOf parserOf at hd
        simp only at hd
        refine ⟨fun hy => by (cases hy), fun z hz => ?_⟩
        cases hz
        split_ifs at hd with h1 h2
        · simp only [Option.some.injEq] at hd
          have hm : n.op ∈ ["Conv", "QLinearConv"] := by
            simp only [List.mem_cons, List.not_mem_nil, or_false]
            tauto
          refine ⟨?_, d, hn, .inl ⟨hm, hd⟩⟩
          simp only [List.mem_cons, List.not_mem_nil, or_false] at hm ⊢
          tauto
        · simp only [Option.some.injEq] at hd
          have hm : n.op ∈ ["MatMul", "Gemm"] := by
            simp only [List.mem_cons, List.not_mem_nil, or_false]
            tauto
          refine ⟨?_, d, hn, .inr ⟨hm, hd⟩⟩
          simp only [List.mem_cons, List.not_mem_nil, or_false] at hm ⊢
          tauto

theorem parseNodes_made {lo : LayerOptions} {ms : List MapR} : ∀ (rest : List OpNode) (k : Nat) {xs : List (Option (Node String Text))},
    parseNodes lo ms m nodes k rest = .ok xs → xs.length = rest.length ∧
      List.Forall₂ (fun (e : OpNode × Nat) x => Made lo m nodes ms e.2 e.1 x)
        ((rest.zipIdx k).filter fun e => decide (e.1.op ∈ ["Conv", "QLinearConv", "MatMul", "Gemm"])) (xs.filterMap id)
  | [], k, xs, h => by
    cases h
    exact ⟨rfl, .nil⟩
  | n :: t, k, xs, h => by
    unfold parseNodes at h
    cases h1 : parseNode lo ms m nodes k n with
    | error e => rw [h1] at h; cases h
    | ok x =>
      rw [h1] at h
      simp only at h
      cases h2 : parseNodes lo ms m nodes (k + 1) t with
      | error e => rw [h2] at h; cases h
      | ok ys =>
        rw [h2] at h
        cases h
        obtain ⟨l, ih⟩ := parseNodes_made t (k + 1) h2
        refine ⟨by simp [l], ?_⟩
        have hx := parseNode_made h1
        rw [List.zipIdx_cons]
        cases x with
        | none =>
          rw [List.filter_cons_of_neg (by simpa using hx.1 rfl), List.filterMap_cons]
          exact ih
        | some y =>
          rw [List.filter_cons_of_pos (by simpa using (hx.2 y rfl).1), List.filterMap_cons]
          exact .cons (hx.2 y rfl).2 ih

theorem range_pick {α : Type} : ∀ (xs : List (Option α)), (List.range xs.length).filterMap (fun i => xs[i]?.bind id) = xs.filterMap id
  | [] => rfl
  | x :: xs => by
    rw [List.length_cons, List.range_succ_eq_map, List.filterMap_cons, List.filterMap_map, List.filterMap_cons]
    have ih := range_pick xs
    have : (List.range xs.length).filterMap ((fun i => (x :: xs)[i]?.bind id) ∘ Nat.succ) = xs.filterMap id := by
      rw [← ih]
      rfl
    rw [this]
    cases x <;> rfl

/-- C154: whatever the model is, no convolution and no matrix product is left out: if a call gets as far as evaluating layers, each of them has been described by its parser
and built, and these layers, each once, are the ones that are evaluated. -/
theorem nothing_left_out {lo : LayerOptions} {ns : List (Node String Text)} (h : workload lo m nodes dm = .ok ns) : ∃ ms xs, Files.parseMapping dm = .ok ms ∧
    List.Forall₂ (fun (e : OpNode × Nat) x => Made lo m nodes ms e.2 e.1 x)
      (nodes.zipIdx.filter fun e => decide (e.1.op ∈ ["Conv", "QLinearConv", "MatMul", "Gemm"])) xs ∧ ns.Perm xs := by
  unfold workload at h
  split_ifs at h
  cases hms : Files.parseMapping dm with
  | error e => rw [hms] at h; cases h
  | ok ms =>
    rw [hms] at h
    simp only at h
    cases hxs : parseNodes lo ms m nodes 0 nodes with
    | error e => rw [hxs] at h; cases h
    | ok xs =>
      rw [hxs] at h
      simp only at h
      cases hg : Workload.onnx (nodes.map OnnxModel.ONode.ofOp) with
      | error e => rw [hg] at h; cases h
      | ok g =>
        rw [hg] at h
        simp only at h
        unfold Workload.schedule at h
        cases ho : Topo.topoSort g.nodes g.edges with
        | error e => rw [ho] at h; cases h
        | ok order =>
          rw [ho] at h
          cases h
          obtain ⟨e1, e2, e3⟩ := Workload.onnx_edges hg
          have hlt : ∀ i j, (i, j) ∈ g.edges → i < nodes.length ∧ j < nodes.length := by
            intro i j hij
            obtain ⟨_, n, t, -, hn, -⟩ := (Workload.onnx_edges_sound hg i j hij).2
            have h1 := (List.getElem?_eq_some_iff.1 hn).1
            rw [List.length_map] at h1
            have := (Workload.onnx_edges_sound hg i j hij).1
            omega
          rw [List.length_map] at e1
          have hG : Topo.Graph g.nodes g.edges := ⟨by rw [e1]; exact List.nodup_range, e2,
            fun e he => by rw [e1, List.mem_range]; exact (hlt e.1 e.2 he).1, fun e he => by rw [e1, List.mem_range]; exact (hlt e.1 e.2 he).2⟩
          have hs := (Topo.topoSort_sound hG ho).1
          rw [e1] at hs
          obtain ⟨l, hm⟩ := parseNodes_made (m := m) (nodes := nodes) nodes 0 hxs
          refine ⟨ms, xs.filterMap id, rfl, hm, ?_⟩
          rw [filter_picked, ← range_pick, l]
          exact hs.filterMap _

/-! ### The call -/

theorem call_eq (hA : AccSays cacti da A) (F : FileOk A) {lo : LayerOptions} {ns : List (Node String Text)} (hw : workload lo m nodes dm = .ok ns) (opt : String)
    (hk : Known opt) (fuel : Nat) : call cacti fact lo o opt da m nodes dm fuel = Net.network (fun _ => (0, 0)) fact A o opt ns fuel := by
  have : ∃ x, Pipeline.Opt.parse opt = .ok x := by
    rcases hk with rfl | rfl | rfl <;> exact ⟨_, rfl⟩
  obtain ⟨x, hx⟩ := this
  unfold call
  rw [hx]
  simp only
  rw [hw]
  simp only
  rw [Call.accelerator_written hA F]

/-- C154: a call with another criterion than energy, latency and EDP raises an exception, whatever the model and the files are. -/
theorem criterion_refused (cacti : String → String → Int → Int → Except PyErr (ℚ × ℚ × ℚ)) (fact : Nat → List (Nat × Nat)) (lo : LayerOptions) (o : Net.Options String Text)
    (opt : String) (da : Doc) (m : OModel) (nodes : List OpNode) (dm : Doc) (fuel : Nat) (h : ¬ Known opt) :
    call cacti fact lo o opt da m nodes dm fuel = .error .notImplemented := by
  unfold Known at h
  push Not at h
  unfold call Pipeline.Opt.parse
  rw [if_neg h.1, if_neg h.2.1, if_neg h.2.2]

/-- C154: a call on an ONNX model whose layers fit the accelerator ends, with the best evaluation of every layer of the model, or with one of the exceptions of the
search (`Net.Stopped`); it has an answer exactly if the run of every generated spatial mapping ends without exception. -/
theorem call_partial (hA : AccSays cacti da A) (F : FileOk A) (M : ModelIs A m nodes dm ls) (O : OptionsOk o) (_ : o.mix = false) (hf : Lpf.FactContract fact)
    (lo : LayerOptions) :
    ∃ order ns N, Sorted nodes order ∧ List.Forall₂ (fun kl n => LayerIs lo kl.2 (computed nodes kl.1) n) (layersIn ls order) ns ∧ ∀ fuel, N ≤ fuel → ∀ opt, Known opt →
      ((∃ ans, call cacti fact lo o opt da m nodes dm fuel = .ok ans) ∨ ∃ e, call cacti fact lo o opt da m nodes dm fuel = .error e ∧ Net.Stopped ns e) ∧
      ((∃ ans, call cacti fact lo o opt da m nodes dm fuel = .ok ans) ↔ ∀ n ∈ ns, ∀ sms, spatialMappings o A n = .ok sms → ∀ sm ∈ sms,
        ∃ evals, run (fun _ => (0, 0)) fact A n.layer sm o.limit fuel = some (evals, none)) ∧
      ∀ ans, call cacti fact lo o opt da m nodes dm fuel = .ok ans → ∃ best : List (Job Text × Result),
        ans.energy = (best.map fun x => x.2.energy.total).sum ∧ ans.latency = (best.map fun x => x.2.overall.latency2).sum ∧
        List.Forall₂ (fun n x => ∃ sms, spatialMappings o A n = .ok sms ∧
          (∃ sm ∈ sms, ∃ evals, run (fun _ => (0, 0)) fact A n.layer sm o.limit fuel = some (evals, none) ∧ x ∈ evals) ∧
          ∀ sm ∈ sms, ∃ evals, run (fun _ => (0, 0)) fact A n.layer sm o.limit fuel = some (evals, none) ∧ ∀ e ∈ evals, NoWorse opt x.2 e.2) ns best := by
  obtain ⟨ns, hw, order, hord, hall⟩ := workload_model M lo
  have hskip : ∀ n ∈ ns, n.skip = false := by
    intro n hn
    obtain ⟨w, -, h, -⟩ := Files.forall2_right hall n hn
    exact h.skip
  have hn : ∀ n ∈ ns, n.skip = false → ∃ rl rels, NodeOk A n rl rels := by
    intro n hn _
    obtain ⟨w, -, -, h, -⟩ := Files.forall2_right hall n hn
    exact h
  obtain ⟨N1, h1⟩ := Net.network_partial (cacti := fun _ => (0, 0)) F O hf hn
  obtain ⟨N2, h2⟩ := Net.network_answer (cacti := fun _ => (0, 0)) F O hf hn
  refine ⟨order, ns, max N1 N2, hord, Files.forall2_imp (fun _ _ h => h.1) hall, fun fuel hfu opt hopt => ?_⟩
  rw [call_eq hA F hw opt hopt fuel]
  obtain ⟨k1, k2⟩ := h1 fuel (le_of_max_le_left hfu) opt hopt
  refine ⟨k1, ?_, fun ans hans => ?_⟩
  · rw [k2]
    exact ⟨fun h n hn => h n hn (hskip n hn), fun h n hn _ => h n hn⟩
  · obtain ⟨best, b1, b2, b3, b4⟩ := h2 fuel (le_of_max_le_right hfu) opt ans hans
    refine ⟨best.map Prod.snd, by rw [b2, List.map_map]; rfl, by rw [b3, List.map_map]; rfl, ?_⟩
    have : ns.filter (fun n => !n.skip) = ns := List.filter_eq_self.2 fun n hn => by simp [hskip n hn]
    rw [this] at b1
    rw [← b1, List.forall₂_map_left_iff, List.forall₂_map_right_iff]
    exact List.forall₂_same.2 fun x hx => b4 x hx

theorem layersIn_sum (ls : List (Option Layer)) (order : List Nat) : ((layersIn ls order).map fun kl => kl.2.op.macs).sum = (order.map fun k => match ls[k]?.bind id with
    | none => 0
    | some l => l.op.macs).sum := by
  unfold layersIn
  induction order with
  | nil => rfl
  | cons k t ih =>
    rw [List.filterMap_cons, List.map_cons, List.sum_cons, ← ih]
    cases h : ls[k]?.bind id with
    | none => exact (Nat.zero_add _).symm
    | some l =>
      rw [Option.map_some]
      simp only
      rw [List.map_cons, List.sum_cons]

theorem range_sum (ls : List (Option Layer)) : ((List.range ls.length).map fun k => match ls[k]?.bind id with
    | none => 0
    | some l => l.op.macs).sum = operations ls := by
  unfold operations
  congr 1
  refine List.ext_getElem? fun i => ?_
  rw [List.getElem?_map, List.getElem?_map]
  by_cases hi : i < ls.length
  · rw [List.getElem?_range hi, List.getElem?_eq_getElem hi]
    simp only [Option.map_some, List.getElem?_eq_getElem hi, Option.bind_some, id]
    cases ls[i] <;> rfl
  · rw [List.getElem?_eq_none (by simpa using hi), List.getElem?_eq_none (by omega)]
    rfl

/-- C154: bounds from the model alone: the units of the array times the reported latency are at least the multiplications of all convolutions and matrix products of the
model, if no two movements of a port happen exactly once in the evaluations; and if no written cost is negative the reported energy is at least the energy of all these
multiplications. -/
theorem call_bounds (hA : AccSays cacti da A) (F : FileOk A) (M : ModelIs A m nodes dm ls) (O : OptionsOk o) (_ : o.mix = false) (hf : Lpf.FactContract fact)
    (lo : LayerOptions) :
    ∃ N, ∀ fuel, N ≤ fuel → ∀ opt ans, call cacti fact lo o opt da m nodes dm fuel = .ok ans →
      ((∀ c ns, Whole.accelerator (fun _ => (0, 0)) A = .ok c → workload lo m nodes dm = .ok ns → ∀ n ∈ ns, ∀ sms, spatialMappings o A n = .ok sms →
          ∀ sm ∈ sms, ∀ evals err, run (fun _ => (0, 0)) fact A n.layer sm o.limit fuel = some (evals, err) → ∀ e ∈ evals, Separate c.hw e.1) →
        ((operations ls : ℕ) : ℚ) ≤ ((A.sizes.map Prod.snd).prod : ℕ) * ans.latency) ∧
      ((∀ m ∈ A.mems, 0 ≤ m.rCost.getD 0 ∧ 0 ≤ m.wCost.getD 0) → A.macEnergy * (operations ls : ℕ) ≤ ans.energy) := by
  obtain ⟨ns, hw, order, hord, hall⟩ := workload_model M lo
  have hskip : ∀ n ∈ ns, n.skip = false := by
    intro n hn
    obtain ⟨w, -, h, -⟩ := Files.forall2_right hall n hn
    exact h.skip
  have hn : ∀ n ∈ ns, n.skip = false → ∃ rl rels, NodeOk A n rl rels := by
    intro n hn _
    obtain ⟨w, -, -, h, -⟩ := Files.forall2_right hall n hn
    exact h
  have hfil : ns.filter (fun n => !n.skip) = ns := List.filter_eq_self.2 fun n hn => by simp [hskip n hn]
  have hops : ns.map (fun n => Whole.operations n.layer) = (layersIn ls order).map fun kl => kl.2.op.macs :=
    Call.forall₂_map_eq (Files.forall2_imp (fun _ _ h => h.2.2) hall)
  have hcyc : ∀ n ∈ ns, n.layer.cyclesPerOp = 1 := by
    intro n hn
    obtain ⟨w, -, h, -⟩ := Files.forall2_right hall n hn
    exact h.cycles
  have hsum : (ns.map fun n => Whole.operations n.layer).sum = operations ls := by
    rw [hops, layersIn_sum, ← range_sum, M.length]
    exact (hord.1.map _).sum_eq
  obtain ⟨N, hN⟩ := Net.network_bounds (cacti := fun _ => (0, 0)) F O hf hn
  obtain ⟨c, hc, -⟩ := Whole.accelerator_ok (cacti := fun _ => (0, 0)) F.acc
  refine ⟨N, fun fuel hfu opt ans hans => ?_⟩
  have hk : Known opt := by
    by_contra h
    rw [criterion_refused _ _ _ _ _ _ _ _ _ _ h] at hans
    cases hans
  rw [call_eq hA F hw opt hk fuel] at hans
  obtain ⟨k1, k2⟩ := hN fuel hfu opt ans hans
  rw [hfil] at k1 k2
  have hcast : ∀ l : List (Node String Text), (l.map fun n => ((Whole.operations n.layer : ℕ) : ℚ)).sum = (((l.map fun n => Whole.operations n.layer).sum : ℕ) : ℚ) := by
    intro l
    induction l with
    | nil => simp
    | cons x t ih => simp only [List.map_cons, List.sum_cons, ih]; push_cast; ring
  constructor
  · intro hs
    have := k1 fun c' hc' n hn _ => hs c' ns hc' hw n hn
    have hmap : (ns.map fun n => ((Whole.operations n.layer : ℕ) * n.layer.cyclesPerOp : ℚ)) = ns.map fun n => ((Whole.operations n.layer : ℕ) : ℚ) :=
      List.map_congr_left fun n hn => by rw [hcyc n hn]; norm_num
    rw [hmap, hcast, hsum] at this
    exact this
  · intro hp
    have hauto : ∀ m ∈ A.mems, m.auto = false := by
      obtain ⟨a, -, -, -, -, -, -, hms⟩ := hA.read
      intro m hm
      obtain ⟨e, -, h⟩ := Files.forall2_right hms m hm
      exact h.auto
    have := k2 fun m hm => by
      unfold Whole.prices
      rw [hauto m hm]
      exact hp m hm
    have hmap : (ns.map fun n => A.macEnergy * (Whole.operations n.layer : ℕ)).sum = A.macEnergy * (ns.map fun n => ((Whole.operations n.layer : ℕ) : ℚ)).sum :=
      List.sum_map_mul_left _ _ _
    rw [hmap, hcast, hsum] at this
    exact this

end Verif.OnnxCall
