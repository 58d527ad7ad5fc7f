import Verif.Reuse.Stored
import Verif.Net.Props

/-! C165: calls in which data stay in lower memories between layers. -/

namespace Verif.Reuse

open Evaluate (Separate)
open Latency (Operand)
open LayerNode (Relation)
open Net (NodeOk FileOk OptionsOk Options)
open Ports (MemD PortD)
open Whole (AccD operations prices)

variable {OA : Type} [DecidableEq OA] {D : Type} [LinearOrder D] {cacti : MemD Operand OA → ℚ × ℚ} {fact : Nat → List (Nat × Nat)} {a : AccD OA}
  {o : Options OA D} {g : Graph OA D} {nodes : List (LNode OA D)} {A W : Operand}

theorem reduced_cases {s : Locality.St Operand} {n : LNode OA D} {b : AccD OA} (h : reduced cacti a s n = .ok b) :
    ∃ l t, layerOf n = .ok l ∧ Locality.targets s l = .ok t ∧ b = pruned cacti a l t := by
  unfold reduced at h
  cases hl : layerOf n with
  | error e => rw [hl] at h; cases h
  | ok l =>
    rw [hl] at h
    simp only at h
    cases ht : Locality.targets s l with
    | error e => rw [ht] at h; cases h
    | ok t =>
      rw [ht] at h
      cases h
      exact ⟨l, t, rfl, ht, rfl⟩

/-- The recorded level of an operand of a layer: that of the activations, of the outputs, or the one for weights (for layers without constants that of the
activations). -/
def levelFor (s : Locality.St Operand) (n : LNode OA D) (op : Operand) : Option Int :=
  if op = n.act then s.lv n.id n.act
  else if op = .out then s.lv n.id .out
  else if op = n.weight then (if n.adder then s.lv n.id n.act else some s.weight)
  else none

/-- A memory entry apart from the operands: size, dimensions, prices, ports. -/
def Same (cacti : MemD Operand OA → ℚ × ℚ) (m' m : MemD Operand OA) : Prop :=
  m'.size = m.size ∧ m'.served = m.served ∧ prices cacti m' = prices cacti m ∧ m'.area = m.area ∧
    m'.ports.map (fun p => (p.name, p.type, p.bwMin, p.bwMax)) = m.ports.map (fun p => (p.name, p.type, p.bwMin, p.bwMax)) ∧
    ∀ op ∈ m'.operands, m'.ports.map (fun p => p.alloc.filter fun x => decide (x.1 = op)) = m.ports.map fun p => p.alloc.filter fun x => decide (x.1 = op)

theorem same_restrict {m : MemD Operand OA} (ops : List Operand) : Same cacti (restrict cacti ops m) m := by
  refine ⟨rfl, rfl, ?_, rfl, ?_, fun op hop => ?_⟩
  · unfold prices restrict
    simp
    rfl
  · unfold restrict
    rw [List.map_map]
    rfl
  · unfold restrict
    rw [List.map_map]
    apply List.map_congr_left
    intro p _
    simp only [Function.comp]
    rw [List.filter_filter]
    apply List.filter_congr
    intro x _
    by_cases hx : x.1 = op
    · have : op ∈ ops := hop
      simp [hx, this]
    · simp [hx]

/-- C165: the accelerator of a layer has for every operand of the layer exactly the memories of the file that store it, from the innermost one up to the recorded
level, in the same order, with the same size, prices, dimensions and ports, and nothing else is changed. -/
theorem kept_exact {s : Locality.St Operand} {n : LNode OA D} {b : AccD OA} (h : reduced cacti a s n = .ok b) (h1 : n.act ≠ n.weight) (h2 : n.act ≠ .out)
    (h3 : n.weight ≠ .out) :
    b.sizes = a.sizes ∧ b.macEnergy = a.macEnergy ∧ (∀ m ∈ b.mems, ∀ op ∈ m.operands, op = n.act ∨ op = n.weight ∨ op = .out) ∧
      ∀ op, op = n.act ∨ op = n.weight ∨ op = .out → ∃ t, levelFor s n op = some t ∧
        List.Forall₂ (Same cacti) (b.mems.filter fun m => decide (op ∈ m.operands))
          ((a.mems.zipIdx.filter fun m => decide (op ∈ m.1.operands) && decide ((m.2 : Int) ≤ t)).map Prod.fst) := by
  obtain ⟨l, t, hl, ht, rfl⟩ := reduced_cases h
  obtain ⟨e0, e1, e2, e3, e4⟩ := layerOf_fields hl
  refine ⟨rfl, rfl, fun m' hm op hop => ?_, fun op hop => ?_⟩
  · obtain ⟨j, m, j1, rfl⟩ := from_file hm
    obtain ⟨-, hk⟩ := ((cut (cacti := cacti) (a := a) l t).ops m j op).1 hop
    rw [← e1, ← e2, ← e3]
    rcases hk with ⟨hk, -⟩ | ⟨hk, -⟩ | ⟨hk, -⟩
    · exact .inl hk
    · exact .inr (.inl hk)
    · exact .inr (.inr hk)
  · have hlev : ∃ q, levelFor s n op = some q ∧ ∀ i, Keeps l t op i ↔ (i : Int) ≤ q := by
      unfold Locality.targets at ht
      cases ha : s.lv l.id l.act with
      | none => rw [ha] at ht; cases ht
      | some ta =>
        rw [ha] at ht
        simp only at ht
        cases hu : s.lv l.id l.out with
        | none => rw [hu] at ht; cases ht
        | some tu =>
          rw [hu] at ht
          simp only at ht
          cases ht
          rw [e0, e1] at ha
          rw [e0, e3] at hu
          unfold levelFor Keeps
          rw [e1, e2, e3, e4]
          rcases hop with rfl | rfl | rfl
          · exact ⟨ta, by simp [ha], fun i => by simp [h1, h2]⟩
          · refine ⟨if n.adder then ta else s.weight, ?_, fun i => by simp [h1.symm, h3]⟩
            rw [if_neg h1.symm, if_neg h3, if_pos rfl]
            split_ifs
            · exact ha
            · rfl
          · exact ⟨tu, by simp [h2.symm, hu], fun i => by simp [h2.symm, h3.symm]⟩
    obtain ⟨q, hq, hk⟩ := hlev
    refine ⟨q, hq, ?_⟩
    rw [pruned_mems]
    unfold rest
    rw [List.filter_filter, List.filter_map]
    have : (a.mems.zipIdx.filter ((fun m : MemD Operand OA => decide (op ∈ m.operands) && decide (m.operands ≠ [])) ∘ keep cacti l t)) =
        a.mems.zipIdx.filter fun m => decide (op ∈ m.1.operands) && decide ((m.2 : Int) ≤ q) := by
      apply List.filter_congr
      intro m _
      have hm := (cut (cacti := cacti) (a := a) l t).ops m.1 m.2 op
      rw [hk] at hm
      simp only [Function.comp]
      by_cases hc : op ∈ (keep cacti l t m).operands
      · have hne : (keep cacti l t m).operands ≠ [] := List.ne_nil_of_mem hc
        simp [hc, hne, (hm.1 hc).1, (hm.1 hc).2]
      · simp only [hc, decide_false, Bool.false_and]
        symm
        rw [Bool.and_eq_false_iff]
        by_contra hx
        push Not at hx
        exact hc (hm.2 ⟨by simpa using hx.1, by simpa using hx.2⟩)
    rw [this]
    generalize (a.mems.zipIdx.filter fun m => decide (op ∈ m.1.operands) && decide ((m.2 : Int) ≤ q)) = ms
    induction ms with
    | nil => exact .nil
    | cons x r ih => exact .cons (same_restrict _) ih

/-- C165: what a layer writes is read by the next ones from the same memory, which stores outputs and the operand for the activations of the reader. -/
theorem handed_over (U : Fits a g nodes A W) {s : Locality.St Operand} (hp : plan a g nodes = .ok s) {u v : LNode OA D} (hu : u ∈ nodes) (hv : v ∈ nodes)
    (du : u.dummy = false) (dv : v.dummy = false) (he : u.id ∈ g.pred v.id) :
    ∃ (i : Nat) (m : MemD Operand OA), a.mems[i]? = some m ∧ v.act ∈ m.operands ∧ .out ∈ m.operands ∧ levelFor s u .out = some (i : Int) ∧ levelFor s v v.act = some (i : Int) := by
  obtain ⟨net, h, hs⟩ := plan_cases hp
  obtain ⟨h1, h2, h3, h4, h5, h6, h7⟩ := stage_cases h
  obtain ⟨lu, hlu⟩ : ∃ l, layerOf u = .ok l := by
    obtain ⟨i, hi⟩ := List.mem_iff_getElem?.1 (List.mem_filter.2 ⟨hu, by simp [du]⟩ : u ∈ nodes.filter fun n => !n.dummy)
    obtain ⟨b, hb, -⟩ := (MapInfo.mapM_get h1).2 i u hi
    exact ⟨b, hb⟩
  obtain ⟨lv, hlv⟩ : ∃ l, layerOf v = .ok l := by
    obtain ⟨i, hi⟩ := List.mem_iff_getElem?.1 (List.mem_filter.2 ⟨hv, by simp [dv]⟩ : v ∈ nodes.filter fun n => !n.dummy)
    obtain ⟨b, hb, -⟩ := (MapInfo.mapM_get h1).2 i v hi
    exact ⟨b, hb⟩
  obtain ⟨e0, e1, e2, e3, e4⟩ := layerOf_fields hlu
  obtain ⟨f0, f1, f2, f3, f4⟩ := layerOf_fields hlv
  have mu := in_order h1 hu du hlu
  have mv := in_order h1 hv dv hlv
  have hw := net_wf U h
  obtain ⟨d1, d2, d3⟩ := U.distinct
  have hpl : lu.id ∈ net.pred lv.id := by rw [h3, e0, f0]; exact he
  have huo : u.act ≠ .out := by rcases U.names u hu du with ⟨h, -⟩ | ⟨h, -⟩ <;> rw [h] <;> assumption
  have hvo : v.act = A ∨ v.act = W := by
    rcases U.names v hv dv with ⟨h, -⟩ | ⟨h, -⟩
    · exact .inl h
    · exact .inr h
  obtain ⟨i, m, i1, i2, i3, i4⟩ : ∃ (i : Nat) (m : MemD Operand OA), s.lv lu.id lu.out = some (i : Int) ∧ a.mems[i]? = some m ∧ v.act ∈ m.operands ∧ .out ∈ m.operands := by
    by_cases hb : Locality.isBranch net lu = true
    · obtain ⟨m, m1, m2, m3, m4⟩ := U.top
      have hlast : a.mems[a.mems.length - 1]? = some m := by rw [← List.getLast?_eq_getElem?]; exact m1
      have hlen : (memsOf a).length = a.mems.length := by unfold memsOf; rw [List.length_map]
      have := (Locality.search_levels net hw s hs lu mu).1
      unfold Locality.outLevel at this
      rw [if_pos hb, h6, topLevel_last (m := ⟨m.operands, m.size.toNat * Hierarchy.unrollCount a.sizes m.served, decide (m.served.length = a.sizes.length)⟩) (by
        rw [hlen]
        unfold memsOf
        rw [List.getElem?_map, hlast]
        rfl) m4, hlen] at this
      exact ⟨_, m, this, hlast, by rcases hvo with h | h <;> rw [h] <;> assumption, m4⟩
    · have hsu : lv.id ∈ net.succ lu.id := (hw.symm _ _).2 hpl
      have hsucc : net.succ lu.id = [lv.id] := by
        unfold Locality.isBranch at hb
        rw [Bool.or_eq_true, not_or] at hb
        have hb1 := hb.1
        rw [decide_eq_true_eq] at hb1
        match hx : net.succ lu.id with
        | [] => rw [hx] at hsu; cases hsu
        | [y] => rw [hx, List.mem_singleton] at hsu; rw [hsu]
        | y :: z :: r => rw [hx] at hb1; simp at hb1
      have hpred : net.pred lv.id = [lu.id] := by
        unfold Locality.isBranch at hb
        rw [hsucc, Bool.or_eq_true, not_or] at hb
        have hb2 := hb.2
        simp only [decide_eq_true_eq] at hb2
        match hx : net.pred lv.id with
        | [] => rw [hx] at hpl; cases hpl
        | [y] => rw [hx, List.mem_singleton] at hpl; rw [hpl]
        | y :: z :: r => rw [hx] at hb2; simp at hb2
      have hnl : lu.id ≠ Locality.lastId net := by
        obtain ⟨p, q, hsplit⟩ := List.append_of_mem mv
        obtain ⟨z, hz, hzu⟩ := hw.topo p lv q hsplit _ hpl
        have hnd := hw.ids
        rw [hsplit, List.map_append, List.nodup_append] at hnd
        intro hc
        refine hnd.2.2 lu.id (by rw [← hzu]; exact List.mem_map.2 ⟨z, hz, rfl⟩) lu.id ?_ rfl
        rw [hc]
        unfold Locality.lastId
        rw [hsplit, List.getLast?_append_of_ne_nil _ (by simp), List.getLast?_eq_some_getLast (by simp), Option.map_some, Option.getD_some]
        exact List.mem_map.2 ⟨_, List.getLast_mem _, rfl⟩
      obtain ⟨i, x, i1, i2, i3, i4⟩ := Locality.input_stored_partial net hw s hs lu lv mu mv hsucc hpred hnl
        (by rw [e1, e2]; rcases U.names u hu du with ⟨u1, u2⟩ | ⟨u1, u2⟩ <;> rw [u1, u2] <;> first | exact d1 | exact d1.symm)
        (by rw [e1, e3]; exact huo)
        (by rw [e2, e3]; rcases U.names u hu du with ⟨-, u2⟩ | ⟨-, u2⟩ <;> rw [u2] <;> assumption) (by
          intro x hx
          rw [h4] at hx
          obtain ⟨y, hy, rfl⟩ := List.mem_map.1 hx
          obtain ⟨w1, w2⟩ := U.memories y hy
          refine ⟨w1, fun o ho => ?_⟩
          rw [e1, e2, e3]
          rcases U.names u hu du with ⟨u1, u2⟩ | ⟨u1, u2⟩ <;> rw [u1, u2]
          · exact w2 o ho
          · rcases w2 o ho with w | w | w
            · exact .inr (.inl w)
            · exact .inl w
            · exact .inr (.inr w))
      have hag := Locality.edges_agree net hw s hs lu lv mu mv hpl
      rw [h4] at i2
      unfold memsOf at i2
      rw [List.getElem?_map, Option.map_eq_some_iff] at i2
      obtain ⟨y, y1, rfl⟩ := i2
      exact ⟨i, y, by rw [← hag, i1], y1, by rw [← f1]; exact i3, by rw [← e3]; exact i4⟩
  have hag := Locality.edges_agree net hw s hs lu lv mu mv hpl
  rw [i1, f0, f1] at hag
  rw [e0, e3] at i1
  refine ⟨i, m, i2, i3, i4, ?_, ?_⟩
  · unfold levelFor
    rw [if_neg huo.symm, if_pos rfl]
    exact i1
  · unfold levelFor
    rw [if_pos rfl]
    exact hag

/-- The layer on its accelerator. -/
theorem pruned_node {n : LNode OA D} {rl : Operand → List D} {rels : List (Relation D)} (L : LayerOk a n rl rels) {l : Locality.Layer Operand} {t : Int × Int × Int}
    (hst : ∀ op ∈ n.node.layer.ops, ∃ (i : Nat) (m : MemD Operand OA), a.mems[i]? = some m ∧ op ∈ m.operands ∧ Keeps l t op i) :
    NodeOk (pruned cacti a l t) n.node rl rels where
  layer := L.node.layer
  stored op hop := by
    obtain ⟨i, m, h1, h2, h3⟩ := hst op hop
    exact ⟨_, stays (cut l t) h1 h2 h3, ((cut (cacti := cacti) (a := a) l t).ops m i op).2 ⟨h2, h3⟩⟩
  linked m' hm op hop := by
    obtain ⟨j, m, h1, rfl⟩ := from_file hm
    exact L.node.linked m (List.mem_of_getElem? h1) op (((cut (cacti := cacti) (a := a) l t).ops m j op).1 hop).1
  delivers m' hi op hop p hp hal := by
    obtain ⟨pre, post, he, -⟩ := hi
    have hm : m' ∈ rest a.mems (keep cacti l t) := by rw [← pruned_mems, he]; simp
    obtain ⟨j, m, h1, rfl⟩ := from_file hm
    obtain ⟨q, hq, rfl⟩ := List.mem_map.1 hp
    exact L.delivers m (List.mem_of_getElem? h1) op (((cut (cacti := cacti) (a := a) l t).ops m j op).1 hop).1 q hq (List.mem_filter.1 hal).1
  holds m' hi op hop := by
    obtain ⟨pre, post, he, -⟩ := hi
    have hm : m' ∈ rest a.mems (keep cacti l t) := by rw [← pruned_mems, he]; simp
    obtain ⟨j, m, h1, rfl⟩ := from_file hm
    exact L.holds m (List.mem_of_getElem? h1) op (((cut (cacti := cacti) (a := a) l t).ops m j op).1 hop).1
  user := L.node.user
  whole := L.node.whole
  known := L.node.known
  hints := L.node.hints
  order := L.node.order

/-- The accelerator of every layer is a proper file for it. -/
theorem reduced_ok (F : FileOk a) (S : Stacked a.mems) (U : Fits a g nodes A W) {s : Locality.St Operand} (hp : plan a g nodes = .ok s) {n : LNode OA D} (hn : n ∈ nodes)
    (hs : n.node.skip = false) {rl : Operand → List D} {rels : List (Relation D)} (L : LayerOk a n rl rels) :
    ∃ b, reduced cacti a s n = .ok b ∧ FileOk b ∧ NodeOk b n.node rl rels ∧ b.sizes = a.sizes ∧ b.macEnergy = a.macEnergy ∧
      ((∀ m ∈ a.mems, 0 ≤ (prices cacti m).1 ∧ 0 ≤ (prices cacti m).2) → ∀ m ∈ b.mems, 0 ≤ (prices cacti m).1 ∧ 0 ≤ (prices cacti m).2) := by
  have hd := U.dummies n hn hs
  obtain ⟨net, h, hse⟩ := plan_cases hp
  obtain ⟨h1, -⟩ := stage_cases h
  obtain ⟨l, hl⟩ : ∃ l, layerOf n = .ok l := by
    obtain ⟨i, hi⟩ := List.mem_iff_getElem?.1 (List.mem_filter.2 ⟨hn, by simp [hd]⟩ : n ∈ nodes.filter fun n => !n.dummy)
    obtain ⟨b, hb, -⟩ := (MapInfo.mapM_get h1).2 i n hi
    exact ⟨b, hb⟩
  obtain ⟨ta, tu, t1, t2, -⟩ := Locality.levels_determined net (net_wf U h) s hse l (in_order h1 hn hd hl)
  have ht : Locality.targets s l = .ok (ta, if l.adder then ta else s.weight, tu) := by
    unfold Locality.targets
    rw [t1, t2]
  refine ⟨pruned cacti a l (ta, if l.adder then ta else s.weight, tu), ?_, pruned_file F S l _, pruned_node L fun op hop => ?_, rfl, rfl, fun hpr m' hm => ?_⟩
  · unfold reduced
    rw [hl]
    simp only
    rw [ht]
  · exact levels_stored U hp hn hd hl ht op (U.operands n hn hd op hop)
  · obtain ⟨j, m, j1, rfl⟩ := from_file hm
    have := (same_restrict (cacti := cacti) (m := m) (Locality.pruneOps m.operands l ta (if l.adder then ta else s.weight) tu j)).2.2.1
    simp only
    rw [this]
    exact hpr m (List.mem_of_getElem? j1)

/-- C165: bounds for calls in which data stay in lower memories: the same ones as for calls with the whole accelerator (C152), although every layer is evaluated on
its own accelerator. -/
theorem call_bounds (F : FileOk a) (S : Stacked a.mems) (O : OptionsOk o) (hf : Lpf.FactContract fact) (U : Fits a g nodes A W)
    (hn : ∀ n ∈ nodes, n.node.skip = false → ∃ rl rels, LayerOk a n rl rels) :
    ∃ N, ∀ fuel, N ≤ fuel → ∀ opt ans, network cacti fact a o opt g nodes fuel = .ok ans →
      ((∀ s, plan a g nodes = .ok s → ∀ n ∈ nodes, n.node.skip = false → ∀ b, reduced cacti a s n = .ok b → ∀ c, Whole.accelerator cacti b = .ok c → ∀ sms,
          Net.spatialMappings o b n.node = .ok sms → ∀ sm ∈ sms, ∀ evals err,
          Whole.run cacti fact b n.node.layer sm o.limit fuel = some (evals, err) → ∀ e ∈ evals, Separate c.hw e.1) →
        (((nodes.filter fun n => !n.node.skip).map fun n => (operations n.node.layer * n.node.layer.cyclesPerOp : ℚ)).sum ≤ Hierarchy.totalUnits a.sizes * ans.latency)) ∧
      ((∀ m ∈ a.mems, 0 ≤ (prices cacti m).1 ∧ 0 ≤ (prices cacti m).2) →
        ((nodes.filter fun n => !n.node.skip).map fun n => a.macEnergy * operations n.node.layer).sum ≤ ans.energy) := by
  cases hp : plan a g nodes with
  | error e =>
    refine ⟨0, fun fuel _ opt ans hans => ?_⟩
    obtain ⟨c, s, -, hs, -⟩ := network_cases hans
    rw [hp] at hs
    cases hs
  | ok s =>
    obtain ⟨N, hN⟩ := Net.bound_all (P := fun (n : LNode OA D) fuel => n.node.skip = false → ∀ b, reduced cacti a s n = .ok b → ∀ opt r,
        Net.network cacti fact b o opt [n.node] fuel = .ok r →
        ((∀ c, Whole.accelerator cacti b = .ok c → ∀ sms, Net.spatialMappings o b n.node = .ok sms → ∀ sm ∈ sms, ∀ evals err,
            Whole.run cacti fact b n.node.layer sm o.limit fuel = some (evals, err) → ∀ e ∈ evals, Separate c.hw e.1) →
          (operations n.node.layer * n.node.layer.cyclesPerOp : ℚ) ≤ Hierarchy.totalUnits a.sizes * r.latency) ∧
        ((∀ m ∈ a.mems, 0 ≤ (prices cacti m).1 ∧ 0 ≤ (prices cacti m).2) → a.macEnergy * operations n.node.layer ≤ r.energy)) nodes fun n hmem => by
      by_cases hs : n.node.skip = false
      · obtain ⟨rl, rels, L⟩ := hn n hmem hs
        obtain ⟨b, b1, b2, b3, b4, b5, b6⟩ := reduced_ok (cacti := cacti) F S U hp hmem hs L
        obtain ⟨M, hM⟩ := Net.network_bounds (cacti := cacti) (nodes := [n.node]) b2 O hf fun x hx _ => by
          rw [List.mem_singleton] at hx
          subst hx
          exact ⟨rl, rels, b3⟩
        refine ⟨M, fun fuel hfu _ b' hb' opt r hr => ?_⟩
        rw [b1] at hb'
        cases hb'
        obtain ⟨q1, q2⟩ := hM fuel hfu opt r hr
        simp only [List.mem_singleton, forall_eq, hs, Bool.not_false, List.filter_cons, if_true, List.filter_nil, List.map_cons, List.map_nil, List.sum_cons,
          List.sum_nil, add_zero, forall_const, b4, b5] at q1 q2
        exact ⟨q1, fun hpr => q2 (b6 hpr)⟩
      · exact ⟨0, fun _ _ hc => absurd hc hs⟩
    refine ⟨N, fun fuel hfu opt ans hans => ?_⟩
    obtain ⟨s', hs', each, h1, h2, h3⟩ := layers_alone hans
    rw [hp] at hs'
    cases hs'
    have hmem : ∀ n ∈ nodes.filter fun n => !n.node.skip, n ∈ nodes ∧ n.node.skip = false := by
      intro n hn
      simpa using List.mem_filter.1 hn
    constructor
    · intro hsep
      rw [h3]
      have hsep' := hsep s rfl
      clear hans h2 h3 hsep
      generalize (nodes.filter fun n => !n.node.skip) = ns at h1 hmem
      induction h1 with
      | nil => simp
      | cons hx _ ih =>
        rw [List.map_cons, List.map_cons, List.sum_cons, List.sum_cons, mul_add]
        obtain ⟨b, hb1, hb2⟩ := hx
        obtain ⟨m1, m2⟩ := hmem _ List.mem_cons_self
        exact add_le_add ((hN fuel hfu _ m1 m2 b hb1 opt _ hb2).1 fun c hc sms hsms => hsep' _ m1 m2 b hb1 c hc sms hsms) (ih fun n hn => hmem n (by simp [hn]))
    · intro hpr
      rw [h2]
      clear hans h2 h3
      generalize (nodes.filter fun n => !n.node.skip) = ns at h1 hmem
      induction h1 with
      | nil => simp
      | cons hx _ ih =>
        rw [List.map_cons, List.map_cons, List.sum_cons, List.sum_cons]
        obtain ⟨b, hb1, hb2⟩ := hx
        obtain ⟨m1, m2⟩ := hmem _ List.mem_cons_self
        exact add_le_add ((hN fuel hfu _ m1 m2 b hb1 opt _ hb2).2 hpr) (ih fun n hn => hmem n (by simp [hn]))

/-- C165: a call with planned locality answers exactly if for every layer that is not skipped, on its own accelerator, every generated spatial
mapping is evaluated without exception. -/
theorem call_outcome (F : FileOk a) (S : Stacked a.mems) (O : OptionsOk o) (hf : Lpf.FactContract fact) (U : Fits a g nodes A W)
    (hn : ∀ n ∈ nodes, n.node.skip = false → ∃ rl rels, LayerOk a n rl rels) {s : Locality.St Operand} (hp : plan a g nodes = .ok s) :
    ∃ N, ∀ fuel, N ≤ fuel → ∀ opt, Net.Known opt →
      ((∃ ans, network cacti fact a o opt g nodes fuel = .ok ans) ↔ ∀ n ∈ nodes, n.node.skip = false → ∀ b, reduced cacti a s n = .ok b →
        ∀ sms, Net.spatialMappings o b n.node = .ok sms → ∀ sm ∈ sms, ∃ evals, Whole.run cacti fact b n.node.layer sm o.limit fuel = some (evals, none)) := by
  obtain ⟨N, hN⟩ := Net.bound_all (P := fun (n : LNode OA D) fuel => n.node.skip = false → ∀ b, reduced cacti a s n = .ok b → ∀ opt, Net.Known opt →
      ((∃ r, Net.network cacti fact b o opt [n.node] fuel = .ok r) ↔ ∀ sms, Net.spatialMappings o b n.node = .ok sms → ∀ sm ∈ sms,
        ∃ evals, Whole.run cacti fact b n.node.layer sm o.limit fuel = some (evals, none))) nodes fun n hmem => by
    by_cases hs : n.node.skip = false
    · obtain ⟨rl, rels, L⟩ := hn n hmem hs
      obtain ⟨b, b1, b2, b3, -⟩ := reduced_ok (cacti := cacti) F S U hp hmem hs L
      obtain ⟨M, hM⟩ := Net.network_partial (cacti := cacti) (nodes := [n.node]) b2 O hf fun x hx _ => by
        rw [List.mem_singleton] at hx
        subst hx
        exact ⟨rl, rels, b3⟩
      refine ⟨M, fun fuel hfu _ b' hb' opt hk => ?_⟩
      rw [b1] at hb'
      cases hb'
      have := (hM fuel hfu opt hk).2
      simp only [List.mem_singleton, forall_eq, hs, forall_const] at this
      exact this
    · exact ⟨0, fun _ _ hc => absurd hc hs⟩
  obtain ⟨c, hc, -⟩ := Whole.accelerator_ok (cacti := cacti) F.acc
  refine ⟨N, fun fuel hfu opt hk => ?_⟩
  rw [layers_together hk hc]
  constructor
  · rintro ⟨s', hs', hall⟩ n hmem hs b hb
    rw [hp] at hs'
    cases hs'
    obtain ⟨b', r, hb', hr⟩ := hall n hmem hs
    rw [hb] at hb'
    cases hb'
    exact (hN fuel hfu n hmem hs b hb opt hk).1 ⟨r, hr⟩
  · intro hall
    refine ⟨s, hp, fun n hmem hs => ?_⟩
    obtain ⟨rl, rels, L⟩ := hn n hmem hs
    obtain ⟨b, b1, -⟩ := reduced_ok (cacti := cacti) F S U hp hmem hs L
    obtain ⟨r, hr⟩ := (hN fuel hfu n hmem hs b b1 opt hk).2 (hall n hmem hs b b1)
    exact ⟨b, r, b1, hr⟩

end Verif.Reuse
