import Verif.Compare.More
import Verif.Whole.Order

/-! C163: calls with and without an ordering of the temporal loops. -/

namespace Verif.Compare

open Latency (Operand)
open LayerNode (Relation)
open Evaluate (Job Result)
open Net (Node Options Reply network env FileOk NodeOk OptionsOk Known)
open Ports (MemD)
open Whole (AccD Acc)

variable {OA : Type} [DecidableEq OA] {D : Type} [LinearOrder D]

/-- The layer without the ordering of the user. -/
def freed (n : Node OA D) : Node OA D := { n with layer := { n.layer with order := [] } }

theorem spatial_freed (o : Options OA D) (a : AccD OA) (n : Node OA D) : Net.spatialMappings o a (freed n) = Net.spatialMappings o a n := by
  have h : Net.memOps a (freed n).layer = Net.memOps a n.layer := by
    have ho : ∀ (m : MemD Operand OA) st (ops : List Operand), Net.opsOf (freed n).layer m st ops = Net.opsOf n.layer m st ops := by
      intro m st ops
      induction ops with
      | nil => rfl
      | cons op ops ih =>
        unfold Net.opsOf
        rw [ih]
        rfl
    have hi : ∀ ms : List (MemD Operand OA × Hierarchy.Mem Operand), Net.innerOps (freed n).layer ms = Net.innerOps n.layer ms := by
      intro ms
      induction ms with
      | nil => rfl
      | cons m ms ih =>
        obtain ⟨m, nd⟩ := m
        unfold Net.innerOps
        simp only [ih, ho]
    unfold Net.memOps
    exact hi _
  unfold Net.spatialMappings
  rw [h]
  rfl

/-- The mappings that are found with an ordering are found without. -/
theorem temporal_less {cacti : MemD Operand OA → ℚ × ℚ} {fact : Nat → List (Nat × Nat)} (hf : Lpf.FactContract fact) {a : AccD OA} {o : Options OA D} {n : Node OA D}
    {rl : Operand → List D} {rels : List (Relation D)} {sm : SpatialMapping.SM OA D} (I : Whole.InputOk a n.layer sm rl rels) (O : OptionsOk o)
    (hor : ∀ e ∈ n.layer.order, e.2 = none) (hbig : Hierarchy.totalUnits a.sizes < Whole.operations n.layer) {c : Acc OA} (hc : Whole.accelerator cacti a = .ok c) :
    ∃ N, ∀ fuel, N ≤ fuel → ((env fact a c o fuel).temporal n sm).1.Sublist ((env fact a c o fuel).temporal (freed n) sm).1 ∧
      (((env fact a c o fuel).temporal n sm).2 = none → ((env fact a c o fuel).temporal (freed n) sm).2 = none) := by
  obtain ⟨c', hc', C⟩ := Whole.accelerator_ok (cacti := cacti) I.acc
  rw [hc] at hc'
  cases hc'
  obtain ⟨lim, limI, t, -, ht, P, -⟩ := Whole.task_ok I C
  obtain ⟨s1, s2, s3, s4, -, -⟩ := Whole.engine_sizes I.layer
  set sizes : Dict D Int := n.layer.sizes.map fun e => (e.1, (e.2 : Int)) with hsz
  obtain ⟨ld, lds, hk⟩ : ∃ ld lds, sizes.keys = ld :: lds := by
    clear_value sizes
    cases sizes with
    | nil => exact absurd rfl s3
    | cons p s => exact ⟨p.1, Dict.keys s, rfl⟩
  obtain ⟨N, hN⟩ := Ordering.generate_less fact lds sizes (Whole.spatialLoops t) o.limit n.layer.order (fun x => Search.mapOrder c.hw c.topo t (Engine.toAlloc x)) hf ld s1 s2
    (fun x hx => (Whole.spatialLoops_mem P x hx).1) O.limit hor (fun loops hl => Whole.loops_left I hc ht hbig hl) (fun x e he => Search.mapOrder_error P he)
  refine ⟨N, fun fuel hfu => ?_⟩
  obtain ⟨l, err, l', err', g1, g2, g3, g4⟩ := hN fuel hfu
  have ht' : Whole.task a c (freed n).layer sm = .ok t := ht
  have h1 : (env fact a c o fuel).temporal n sm = (l, err) := by
    unfold env
    simp only [ht, Search.mappings]
    rw [← hsz, hk, g1]
  have h2 : (env fact a c o fuel).temporal (freed n) sm = (l', err') := by
    unfold env
    simp only [ht', Search.mappings]
    have : ((freed n).layer.sizes.map fun e => (e.1, (e.2 : Int))) = sizes := rfl
    rw [this, hk]
    have he : (freed n).layer.order = [] := rfl
    rw [he, g2]
  rw [h1, h2]
  exact ⟨g3, g4⟩

/-- C163 (partial): an ordering that only says which dimensions come first never makes the answer better: for layers with more operations than the array has units, the
call without the orderings has an answer that is no worse, if no evaluation divides by zero. Missing: layers that fit the array at once, and orderings with numbers of
iterations (`Whole.Ex.sized_ordering_false`). -/
theorem ordering_partial {cacti : MemD Operand OA → ℚ × ℚ} {fact : Nat → List (Nat × Nat)} (hf : Lpf.FactContract fact) {a : AccD OA} {o : Options OA D}
    {nodes : List (Node OA D)} (F : FileOk a) (O : OptionsOk o)
    (N : ∀ n ∈ nodes, n.skip = false → Hierarchy.totalUnits a.sizes < Whole.operations n.layer ∧ ∃ (rl : Operand → List D) (rels : List (Relation D)), NodeOk a n rl rels) :
    ∃ M, ∀ fuel, M ≤ fuel → ∀ opt ans, network cacti fact a o opt nodes fuel = .ok ans →
      (∃ ans', network cacti fact a o opt (nodes.map freed) fuel = .ok ans' ∧ NoWorse opt nodes ans' ans) ∨
        network cacti fact a o opt (nodes.map freed) fuel = .error .zeroDivision := by
  obtain ⟨c, hc, C⟩ := Whole.accelerator_ok (cacti := cacti) F.acc
  have hfree : ∀ n ∈ nodes.map freed, n.skip = false → ∃ (rl : Operand → List D) (rels : List (Relation D)), NodeOk a n rl rels := by
    intro n hn hs
    obtain ⟨m, hm, rfl⟩ := List.mem_map.1 hn
    obtain ⟨-, rl, rels, K⟩ := N m hm hs
    exact ⟨rl, rels, ⟨{ K.layer with }, K.stored, K.linked, K.delivers, K.holds, K.user, K.whole, K.known, K.hints, by intro e he; cases he⟩⟩
  obtain ⟨M1, hM1⟩ := Net.all_runs (cacti := cacti) (nodes := nodes.map freed) F O hf hfree
  obtain ⟨M2, hM2⟩ := Net.bound_all (P := fun n fuel => n.skip = false → ∀ sms, Net.spatialMappings o a n = .ok sms → ∀ sm ∈ sms,
      ((env fact a c o fuel).temporal n sm).1.Sublist ((env fact a c o fuel).temporal (freed n) sm).1 ∧
      (((env fact a c o fuel).temporal n sm).2 = none → ((env fact a c o fuel).temporal (freed n) sm).2 = none)) nodes fun n hn => by
    by_cases hs : n.skip = false
    · obtain ⟨hb, rl, rels, K⟩ := N n hn hs
      obtain ⟨sms, h1, -, h3⟩ := Net.generated (o := o) F K O
      obtain ⟨M, hM⟩ := Net.bound_all (P := fun sm fuel => ((env fact a c o fuel).temporal n sm).1.Sublist ((env fact a c o fuel).temporal (freed n) sm).1 ∧
        (((env fact a c o fuel).temporal n sm).2 = none → ((env fact a c o fuel).temporal (freed n) sm).2 = none)) sms
        fun sm hsm => temporal_less hf (h3 sm hsm).1 O K.order hb hc
      refine ⟨M, fun fuel hfu _ sms' h' sm hsm => ?_⟩
      rw [h1] at h'
      cases h'
      exact hM fuel hfu sm hsm
    · exact ⟨0, fun _ _ h => absurd h hs⟩
  refine ⟨max M1 M2, fun fuel hfu opt ans hans => ?_⟩
  rw [network_pipeline hc] at hans ⊢
  have hless := hM2 fuel (le_of_max_le_right hfu)
  obtain ⟨hopt, hw⟩ := (Pipeline.api_ok_iff (Net.single c fuel) opt nodes).1 ⟨ans, hans⟩
  have hr := Pipeline.api_raises (Net.single (fact := fact) (a := a) (o := o) c fuel) (Q := fun e => e = .zeroDivision) opt hopt (nodes.map freed)
    fun n hmem hs => by
      obtain ⟨sms, h1, R⟩ := hM1 fuel (le_of_max_le_left hfu) n hmem hs
      obtain ⟨m, hm, rfl⟩ := List.mem_map.1 hmem
      refine ⟨sms, h1, R.some, fun sm hsm => ?_⟩
      obtain ⟨k1, k2⟩ := R.search c hc sm hsm
      have hs' : m.skip = false := hs
      have h1' : Net.spatialMappings o a m = .ok sms := by rw [← spatial_freed]; exact h1
      obtain ⟨sms', w1, -, w3⟩ := hw m hm hs'
      have w1' : Net.spatialMappings o a m = .ok sms' := w1
      rw [h1'] at w1'
      cases w1'
      have hnone := (hless m hm hs' sms h1' sm hsm).2 (w3 sm hsm).1
      refine ⟨fun e he => ?_, fun h0 => ?_, fun j hj e he => ?_⟩
      · rw [hnone] at he
        cases he
      · rcases k1 with ⟨-, k1⟩ | ⟨x, k1, -⟩
        · exact k1
        · rw [hnone] at k1
          cases k1
      · have he' : (match Evaluate.evaluate c.hw j with
            | .error e => .error e
            | .ok r => .ok ⟨⟨r.energy.total, r.overall.latency2, true⟩, (j, r)⟩ : Except PyErr (Pipeline.Cme (Job D × Result))) = .error e := he
        rcases k2 j hj with h | ⟨r, h⟩
        · rw [h] at he'
          cases he'
          rfl
        · rw [h] at he'
          cases he'
  rcases hr with ⟨ans', ha⟩ | ⟨e, he, rfl⟩
  · refine Or.inl ⟨ans', ha, answers_compare_map freed (fun _ => rfl) ha hans fun op _ n hn hs y hy => ⟨y, ?_, le_refl _⟩⟩
    obtain ⟨sms, w1, -, -⟩ := hw n hn hs
    unfold Pipeline.cands at hy ⊢
    rw [w1] at hy
    have w1' : (env fact a c o fuel).spatial (freed n) = .ok sms := (spatial_freed o a n).trans w1
    rw [w1']
    simp only [List.mem_flatMap] at hy ⊢
    obtain ⟨sm, hsm, hx⟩ := hy
    obtain ⟨j, hj, hjx⟩ := List.mem_filterMap.1 hx
    exact ⟨sm, hsm, List.mem_filterMap.2 ⟨j, (hless n hn hs sms w1 sm hsm).1.subset hj, hjx⟩⟩
  · exact Or.inr he

end Verif.Compare
