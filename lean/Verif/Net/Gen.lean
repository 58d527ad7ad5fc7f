import Verif.Net.Spec
import Verif.Whole.Props
import Verif.Hints.Props

/-! The spatial mappings generated from the files are mappings that the search accepts. -/

namespace Verif.Net

open Evaluate (needed)
open Latency (Operand)
open LayerNode (Relation)
open Ports (MemD PortD buildMem LvState)
open SpatialMapping (SM SMWF SameOas)
open SpatialGen (MemOp castDict castTable)
open Whole (AccD AccOk LayerOk LayerIn MemOk InputOk meaning)

variable {OA : Type} [DecidableEq OA] {D : Type} [DecidableEq D]

/-- The direction whose bandwidth limits the unrolling of an operand. -/
def feed (op : Operand) : Ports.Dir := if op = .out then .wrLow else .rdLow

/-- What is needed of an innermost memory. -/
structure Feeds (m : MemD Operand OA) (levels : Dict Operand Nat) : Prop where
  ok : MemOk m
  wf : levels.WF
  keys : ∀ o, o ∈ levels.keys ↔ o ∈ m.operands
  has : ∀ op ∈ m.operands, ∃ p ∈ m.ports, (op, feed op) ∈ p.alloc

/-- What an entry says: one operand of a memory, with the port that feeds the array. -/
def Fed (l : LayerIn D) (m : MemD Operand OA) (mo : MemOp OA D) : Prop := ∃ op ∈ m.operands, ∃ p ∈ m.ports, (op, feed op) ∈ p.alloc ∧
  mo = { bandwidth := p.bwMax.toNat, capacity := m.size.toNat, precision := l.precision op, irrelevant := (l.rel op).ir, served := m.served }

theorem opsOf_ok {l : LayerIn D} {m : MemD Operand OA} {levels : Dict Operand Nat} (F : Feeds m levels) {st : LvState Operand} (hst : buildMem m levels = .ok st) :
    ∀ ops : List Operand, (∀ op ∈ ops, op ∈ m.operands) → ∃ ms, opsOf l m st ops = .ok ms ∧ ∀ mo ∈ ms, Fed l m mo
  | [], _ => ⟨[], rfl, by simp⟩
  | op :: t, h => by
    obtain ⟨ms, h1, h2⟩ := opsOf_ok F hst t fun o ho => h o (List.mem_cons_of_mem _ ho)
    have ho := h op List.mem_cons_self
    obtain ⟨p, hp, ha⟩ := F.has op ho
    obtain ⟨-, hb, -, -⟩ := Ports.ports_partial m F.ok.names levels F.wf (fun o ho => (F.keys o).1 ho) F.ok.unique st hst
    have hb' := hb p hp op (feed op) ((F.keys op).2 ho) ha
    have hm : memOp l m st op = .ok
        { bandwidth := p.bwMax.toNat, capacity := m.size.toNat, precision := l.precision op, irrelevant := (l.rel op).ir, served := m.served } := by
      unfold memOp
      unfold feed at hb'
      rw [hb']
    refine ⟨_, by unfold opsOf; rw [hm]; simp only; rw [h1], fun mo hmo => ?_⟩
    rcases List.mem_cons.1 hmo with rfl | hmo
    · exact ⟨op, ho, p, hp, ha, rfl⟩
    · exact h2 mo hmo

theorem innerOps_ok {l : LayerIn D} : ∀ ps : List (MemD Operand OA × Hierarchy.Mem Operand), (∀ p ∈ ps, Feeds p.1 p.2.levels) →
    ∃ ms, innerOps l ps = .ok ms ∧ ∀ mo ∈ ms, ∃ p ∈ ps, Fed l p.1 mo
  | [], _ => ⟨[], rfl, by simp⟩
  | (m, n) :: t, h => by
    obtain ⟨ms, h1, h2⟩ := innerOps_ok t fun p hp => h p (List.mem_cons_of_mem _ hp)
    have F := h (m, n) List.mem_cons_self
    obtain ⟨st, hst⟩ := (Ports.build_ok_iff m F.ok.names n.levels F.wf (fun o ho => (F.keys o).1 ho)).2 F.ok.only
    obtain ⟨xs, h3, h4⟩ := opsOf_ok (l := l) F hst m.operands fun _ h => h
    refine ⟨xs ++ ms, by unfold innerOps; rw [hst]; simp only; rw [h3]; simp only; rw [h1], fun mo hmo => ?_⟩
    rcases List.mem_append.1 hmo with hmo | hmo
    · exact ⟨_, List.mem_cons_self, h4 mo hmo⟩
    · obtain ⟨p, hp, hf⟩ := h2 mo hmo
      exact ⟨p, List.mem_cons_of_mem _ hp, hf⟩

theorem meaning_inj {x y : Ports.Dir} (h : meaning x = meaning y) : x = y := by cases x <;> cases y <;> first | rfl | cases h

/-- The memories that `get_inner_memories` lists. -/
theorem inner_mem {a : AccD OA} {x : Hierarchy.Mem Operand} {m : MemD Operand OA} (F : FileOk a) (hx : x ∈ Hierarchy.innerMemories (Hierarchy.build (a.mems.map MemD.operands)))
    (hm : a.mems[x.id]? = some m) : Innermost a m ∧ Feeds m x.levels := by
  set ml := a.mems.map MemD.operands with hml
  have hxn : x ∈ (Hierarchy.build ml).nodes := (List.mem_filter.1 hx).1
  obtain ⟨k, hk⟩ := List.mem_iff_getElem?.1 hxn
  have hi := Hierarchy.inv_build ml
  have hid := hi.ids k x hk
  have hkm : ml[x.id]? = some m.operands := by rw [hml, List.getElem?_map, hm]; rfl
  have hnum : ∀ op, x.operands = m.operands ∧
      x.levels.get? op = if op ∈ m.operands then some ((ml.take x.id).filter fun l => decide (op ∈ l)).length else none := fun op => by
    obtain ⟨y, y1, -, y3, y4⟩ := Hierarchy.level_numbering ml x.id m.operands hkm op
    rw [hid, hk] at y1
    cases y1
    exact ⟨y3, y4⟩
  have hin : Innermost a m := by
    obtain ⟨hl, he⟩ := List.getElem?_eq_some_iff.1 hm
    refine ⟨a.mems.take x.id, a.mems.drop (x.id + 1), ?_, fun m' hm' op ho hc => ?_⟩
    · rw [← he, List.cons_getElem_drop_succ, List.take_append_drop]
    · have h0 := (Hierarchy.inner_memories_partial ml k x hk).1 hx op (by rw [(hnum op).1]; exact ho)
      rw [(hnum op).2, if_pos ho] at h0
      have h3 := List.length_eq_zero_iff.1 (Option.some.inj h0)
      have h4 : m'.operands ∈ ml.take x.id := by rw [hml, ← List.map_take]; exact List.mem_map.2 ⟨m', hm', rfl⟩
      exact (List.filter_eq_nil_iff.1 h3) _ h4 (by simpa using hc)
  refine ⟨hin, ?_⟩
  exact
    { ok := F.acc.mems m (List.mem_of_getElem? hm)
      wf := hi.wf x hxn
      keys := fun o => by
        have := Dict.get?_eq_none_iff x.levels o
        rw [(hnum o).2] at this
        by_cases ho : o ∈ m.operands
        · rw [if_pos ho] at this
          exact iff_of_true (by by_contra hc; exact absurd (this.2 hc) (by simp)) ho
        · rw [if_neg ho] at this
          exact iff_of_false (this.1 rfl) ho
      has := fun op ho => by
        obtain ⟨pre, post, e, -⟩ := hin
        obtain ⟨p, hp, y, hy, y1, y2⟩ := F.acc.declared pre m post e op ho (meaning (feed op)) (by unfold needed feed; cases op <;> simp [meaning])
        refine ⟨p, hp, ?_⟩
        rw [← meaning_inj y2, ← y1]
        exact hy }

/-- The entries are those of the innermost memories. -/
theorem memOps_ok {a : AccD OA} (l : LayerIn D) (F : FileOk a) : ∃ ms, memOps a l = .ok ms ∧ ∀ mo ∈ ms, ∃ m ∈ a.mems, Innermost a m ∧ Fed l m mo := by
  obtain ⟨ms, h1, h2⟩ := innerOps_ok (l := l)
    ((Hierarchy.innerMemories (Hierarchy.build (a.mems.map MemD.operands))).filterMap fun x => a.mems[x.id]?.map fun m => (m, x)) (by
      intro p hp
      obtain ⟨x, hx, hxp⟩ := List.mem_filterMap.1 hp
      obtain ⟨m, hm, rfl⟩ := Option.map_eq_some_iff.1 hxp
      exact (inner_mem F hx hm).2)
  refine ⟨ms, h1, fun mo hmo => ?_⟩
  obtain ⟨p, hp, hf⟩ := h2 mo hmo
  obtain ⟨x, hx, hxp⟩ := List.mem_filterMap.1 hp
  obtain ⟨m, hm, rfl⟩ := Option.map_eq_some_iff.1 hxp
  exact ⟨m, List.mem_of_getElem? hm, (inner_mem F hx hm).1, hf⟩

/-- What the generator is given for a layer, the entries of the innermost memories being `ms`. -/
def inputs (o : Options OA D) (a : AccD OA) (n : Node OA D) (ms : List (MemOp OA D)) : SpatialGen.Inputs OA D :=
  { mems := ms, oaSizes := a.sizes, sizes := n.layer.sizes, provided := n.mapping
    hints := Hints.construct o.setOrder n.layer.sizes.keys a.sizes.keys n.hints, mix := o.mix, nbMappings := o.nb, order := o.order, capOrder := o.capOrder }

theorem spatialMappings_eq {a : AccD OA} {n : Node OA D} {o : Options OA D} {ms : List (MemOp OA D)} (hms : memOps a n.layer = .ok ms) (h0 : 1 ≤ o.nb) :
    spatialMappings o a n = SpatialGen.generate (inputs o a n ms) := by
  have h0 : o.nb ≠ 0 := by omega
  unfold spatialMappings
  rw [if_neg h0, hms]
  simp only [Hints.generateChecked, Hints.fresh, Hints.inputsOf]
  cases hu : SpatialGen.getMaxUnrolling ms a.sizes n.layer.sizes with
  | error e =>
    simp only
    unfold SpatialGen.generate SpatialGen.template
    rw [show SpatialGen.getMaxUnrolling (inputs o a n ms).mems (inputs o a n ms).oaSizes (inputs o a n ms).sizes = .error e from hu]
  | ok maxU => rfl

theorem sizes_keys (l : LayerIn D) : l.sizes.keys = l.L.dimSizes.keys := by
  unfold LayerIn.sizes Dict.keys
  rw [List.map_map]
  rfl

theorem inputs_ok {a : AccD OA} {n : Node OA D} {rl : Operand → List D} {rels : List (Relation D)} {o : Options OA D} {ms : List (MemOp OA D)} (F : FileOk a)
    (N : NodeOk a n rl rels) (O : OptionsOk o) (hfed : ∀ mo ∈ ms, ∃ m ∈ a.mems, Innermost a m ∧ Fed n.layer m mo) :
    SpatialGen.InputsOk (inputs o a n ms) ∧ SpatialGen.Fitting (inputs o a n ms) := by
  have hsz : ∀ e ∈ n.layer.sizes, 1 ≤ e.2 := fun e he => by
    unfold LayerIn.sizes at he
    obtain ⟨x, hx, rfl⟩ := List.mem_map.1 he
    obtain ⟨k, hk, hxk⟩ := N.layer.whole x hx
    simp only [hxk]
    simpa using hk
  have hne : n.layer.sizes.keys ≠ [] := by
    rw [sizes_keys]
    intro hc
    exact N.layer.some (List.map_eq_nil_iff.1 hc)
  have ok : SpatialGen.InputsOk (inputs o a n ms) :=
    { oas := F.acc.dims
      dims := by
        show n.layer.sizes.WF
        unfold Dict.WF
        rw [sizes_keys]
        exact N.layer.wf
      user := N.user
      nat := fun e he x hx => by
        obtain ⟨k, -, hk⟩ := N.whole e he x hx
        exact ⟨k, hk⟩
      served := fun mo hmo => by
        obtain ⟨m, hm, -, op, -, p, -, -, rfl⟩ := hfed mo hmo
        exact (F.served m hm).1
      hints := fun oa h hh => by
        have hh' : (Hints.construct o.setOrder n.layer.sizes.keys a.sizes.keys n.hints).get? oa = some h := hh
        rw [Hints.get?_construct _ _ _ _ N.hints.1, Option.or_eq_some_iff] at hh'
        rcases hh' with h1 | ⟨-, h1⟩
        · exact N.hints.2 oa h (Option.filter_eq_some_iff.1 h1).1
        · split_ifs at h1
          cases h1
          exact (O.setOrder _).nodup_iff.2 (List.nodup_dedup _)
      capOrder := O.capOrder }
  refine ⟨ok, ?_⟩
  exact
    { served := fun mo hmo oa hoa => by
        obtain ⟨m, hm, -, op, -, p, -, -, rfl⟩ := hfed mo hmo
        exact (F.served m hm).2 oa hoa
      delivers := fun mo hmo => by
        obtain ⟨m, hm, hin, op, ho, p, hp, ha, rfl⟩ := hfed mo hmo
        have := N.delivers m hin op ho p hp ha
        simp only
        omega
      holds := fun mo hmo => by
        obtain ⟨m, hm, hin, op, ho, p, hp, ha, rfl⟩ := hfed mo hmo
        have := N.holds m hin op ho
        simp only
        omega
      array := F.acc.units
      layer := hsz
      known := N.known
      once := fun e he x hx => by
        obtain ⟨k, hk, hxk⟩ := N.whole e he x hx
        rw [hxk]
        exact_mod_cast hk
      hinted := fun oa hoa _ => Hints.hints_usable o.setOrder O.setOrder n.layer.sizes.keys hne n.hints N.hints.1 [] a.sizes.keys oa hoa
      order := O.order }

/-- C151: from files that fit together mappings are generated, every one of which the conversion and the search accept, for exactly the dimensions of the
array. -/
theorem generated {a : AccD OA} {n : Node OA D} {rl : Operand → List D} {rels : List (Relation D)} {o : Options OA D} (F : FileOk a) (N : NodeOk a n rl rels)
    (O : OptionsOk o) : ∃ sms, spatialMappings o a n = .ok sms ∧ sms ≠ [] ∧ ∀ sm ∈ sms, InputOk a n.layer sm rl rels ∧ ∀ oa, oa ∈ sm.keys ↔ oa ∈ a.sizes.keys := by
  obtain ⟨ms, hms, hfed⟩ := memOps_ok n.layer F
  obtain ⟨ok, fit⟩ := inputs_ok F N O hfed
  obtain ⟨maxU, ys, hu, hg, hy, hall⟩ := SpatialGen.generate_total _ ok fit O.nb
  refine ⟨ys, (spatialMappings_eq hms O.nb).trans hg, hy, fun sm hsm => ?_⟩
  obtain ⟨w, s, v, p⟩ := hall sm hsm
  refine ⟨⟨F.acc, N.layer, N.stored, N.linked, Conversion.convert_of_valid w v p, fun e he s' hs' => ?_⟩, fun oa => ?_⟩
  · obtain ⟨s2, h1, h2⟩ := v.fits e.1 e.2 (Dict.get?_of_mem w.1 he)
    rw [SpatialGen.castDict_get?] at h1
    rw [show (inputs o a n ms).oaSizes = a.sizes from rfl, hs'] at h1
    cases h1
    exact h2
  · rw [s oa, SpatialGen.castDict_keys]
    rfl

end Verif.Net
