import Verif.Compare.Layers
import Verif.SpatialGen.Roomy

/-! C157: calls whose answer does not depend on the order in which sets are traversed. -/

namespace Verif.Compare

open Latency (Operand)
open LayerNode (Relation)
open Net (Node Options network env Innermost FileOk NodeOk OptionsOk)
open Ports (MemD)
open SpatialMapping (factor)
open Whole (AccD)

variable {OA : Type} [DecidableEq OA] {D : Type} [LinearOrder D]

/-! ### Congruence -/

theorem forEach_congr {A B : Type} {f g : A → Pipeline.Gen B} {l : List A} {e : Option PyErr} (h : ∀ x ∈ l, f x = g x) : Pipeline.forEach f (l, e) = Pipeline.forEach g (l, e) := by
  have key : ∀ (q : Pipeline.Gen A) (l : List A), (∀ x ∈ l, f x = g x) → Pipeline.forEach.go f q l = Pipeline.forEach.go g q l := by
    intro q l h
    induction l with
    | nil => rfl
    | cons x t ih =>
      unfold Pipeline.forEach.go
      rw [h x (by simp), ih fun y hy => h y (by simp [hy])]
  exact key _ l h

/-- Two calls whose options differ only in how spatial mappings are generated agree if the generated mappings agree. -/
theorem network_congr {cacti : MemD Operand OA → ℚ × ℚ} {fact : Nat → List (Nat × Nat)} {a : AccD OA} {o o' : Options OA D} (hl : o'.limit = o.limit) {opt : String}
    {nodes : List (Node OA D)} {fuel : Nat} (h : ∀ n ∈ nodes, n.skip = false → Net.spatialMappings o' a n = Net.spatialMappings o a n) :
    network cacti fact a o' opt nodes fuel = network cacti fact a o opt nodes fuel := by
  unfold network
  cases hc : Whole.accelerator cacti a with
  | error e => rfl
  | ok c =>
    simp only
    have key : ∀ better : Stages.Res → Stages.Res → Bool,
        Pipeline.workloadStage better false (env fact a c o' fuel) nodes = Pipeline.workloadStage better false (env fact a c o fuel) nodes := by
      intro better
      unfold Pipeline.workloadStage
      apply forEach_congr
      intro n hn
      show (if n.skip = true then _ else _) = (if n.skip = true then _ else _)
      cases hs : n.skip with
      | true => rfl
      | false =>
        have : Pipeline.spatialStage better (env fact a c o' fuel) n = Pipeline.spatialStage better (env fact a c o fuel) n := by
          unfold Pipeline.spatialStage
          rw [show (env fact a c o' fuel).spatial n = Net.spatialMappings o' a n from rfl, h n hn hs,
            show (env fact a c o fuel).spatial n = Net.spatialMappings o a n from rfl]
          have ht : Pipeline.temporalStage (env fact a c o' fuel) n = Pipeline.temporalStage (env fact a c o fuel) n := by
            funext sm
            unfold Pipeline.temporalStage env
            simp only
            rw [hl]
            rfl
          rw [ht]
        rw [this]
    unfold Pipeline.api
    simp only [key]

/-! ### Complete mappings -/

/-- The mapping of the user is complete and fits: it covers the array and stays within the array and the layer, and every innermost memory feeds and holds what it unrolls. -/
structure Complete (a : AccD OA) (n : Node OA D) : Prop where
  all : ∀ oa ∈ a.sizes.keys, oa ∈ n.mapping.keys
  array : ∀ e ∈ n.mapping, ∀ s, a.sizes.get? e.1 = some s → (e.2.map Prod.snd).prod ≤ s
  dims : ∀ e ∈ n.mapping, ∀ x ∈ e.2, x.1 ∈ n.layer.L.dimSizes.keys
  layer : ∀ d s, n.layer.L.dimSizes.get? d = some s → (n.mapping.map fun e => factor e.2 d).prod ≤ s
  delivers : ∀ m, Innermost a m → ∀ op ∈ m.operands, ∀ p ∈ m.ports, (op, if op = .out then Ports.Dir.wrLow else .rdLow) ∈ p.alloc →
    ∀ e ∈ n.mapping, e.1 ∈ m.served → ∀ x ∈ e.2, x.1 ∉ (n.layer.rel op).ir → x.2 * (n.layer.precision op : ℚ) ≤ (p.bwMax : ℚ)
  holds : ∀ m, Innermost a m → ∀ op ∈ m.operands,
    (m.served.map fun oa => ((((n.mapping.get? oa).getD []).filter fun x => decide (x.1 ∉ (n.layer.rel op).ir)).map Prod.snd).prod).prod * (n.layer.precision op : ℚ) ≤ (m.size : ℚ)

theorem le_prod {l : List ℚ} (h : ∀ x ∈ l, 1 ≤ x) : 1 ≤ l.prod ∧ ∀ x ∈ l, x ≤ l.prod := by
  induction l with
  | nil => simp
  | cons y t ih =>
    obtain ⟨i1, i2⟩ := ih fun x hx => h x (by simp [hx])
    have hy := h y (by simp)
    rw [List.prod_cons]
    refine ⟨by nlinarith, fun x hx => ?_⟩
    rcases List.mem_cons.1 hx with rfl | hx
    · nlinarith
    · have := i2 x hx
      nlinarith

theorem complete_spatial {a : AccD OA} {n : Node OA D} {rl : Operand → List D} {rels : List (Relation D)} {o : Options OA D} (F : FileOk a) (N : NodeOk a n rl rels)
    (O : OptionsOk o) (C : Complete a n) : Net.spatialMappings o a n = .ok [n.mapping] := by
  obtain ⟨ms, hms, hfed⟩ := Net.memOps_ok n.layer F
  obtain ⟨ok, fit⟩ := Net.inputs_ok F N O hfed
  rw [Net.spatialMappings_eq hms O.nb]
  obtain ⟨maxU, hu⟩ := SpatialGen.max_unrolling_total ms a.sizes n.layer.sizes fit.served
  obtain ⟨hk, hex⟩ := SpatialGen.max_unrolling_exact ms a.sizes n.layer.sizes maxU hu
  have hone : ∀ e ∈ n.mapping, ∀ x ∈ e.2, 1 ≤ x.2 := fun e he x hx => by
    obtain ⟨k, hk, e⟩ := N.whole e he x hx
    rw [e]
    exact_mod_cast hk
  have hsize : ∀ d, (SpatialGen.castDict n.layer.sizes).get? d = n.layer.L.dimSizes.get? d := by
    intro d
    have h1 : SpatialGen.castDict n.layer.sizes = n.layer.L.dimSizes := by
      unfold SpatialGen.castDict Whole.LayerIn.sizes
      rw [List.map_map]
      conv_rhs => rw [← List.map_id n.layer.L.dimSizes]
      refine List.map_congr_left fun e he => ?_
      obtain ⟨k, -, hk⟩ := N.layer.whole e he
      simp only [Function.comp, id]
      refine Prod.ext rfl ?_
      simp only
      rw [hk]
      simp
    rw [h1]
  refine SpatialGen.generate_user (Net.inputs o a n ms) ok.dims O.order N.user hu ?_ ?_ ?_
  · intro oa
    rw [SpatialGen.castDict_keys]
    exact ⟨N.known oa, C.all oa⟩
  · refine ⟨fun oa l hl d u hu' => ?_, fun oa l hl => ?_, fun oa l hl d hd => ?_, fun d s hs => ?_⟩
    · have hel := Dict.mem_of_get? hl
      have hdu := Dict.mem_of_get? hu'
      obtain ⟨k, hk1, hku⟩ := N.whole _ hel _ hdu
      obtain ⟨s, hs⟩ := SpatialGen.get?_of_keys (N.known oa (SpatialGen.keys_of_get? hl))
      obtain ⟨q, hq⟩ := SpatialGen.get?_of_keys (d := n.layer.sizes) (k := d) (by rw [Net.sizes_keys]; exact C.dims _ hel _ hdu)
      obtain ⟨mx, v, m1, m2, -, m4⟩ := hex oa s d q hs hq
      refine ⟨SpatialGen.castDict mx, (v : ℚ), by rw [SpatialGen.castTable_get?, m1]; rfl, by rw [SpatialGen.castDict_get?, m2]; rfl, ?_⟩
      have hku' : u = k := hku
      rw [hku']
      have : k ≤ v := (m4 k).2 ⟨?_, ?_, fun mo hmo hoa hd _ => ?_⟩
      · exact_mod_cast this
      · have h1 := C.layer d (q : ℚ) (by rw [← hsize d, SpatialGen.castDict_get?, hq]; rfl)
        have hf : ∀ x ∈ n.mapping.map (fun e => factor e.2 d), 1 ≤ x := by
          intro x hx
          obtain ⟨e, he, rfl⟩ := List.mem_map.1 hx
          unfold factor
          cases hg : Dict.get? e.2 d with
          | none => simp
          | some y => exact hone e he _ (Dict.mem_of_get? hg)
        have h2 := (le_prod hf).2 (factor l d) (List.mem_map.2 ⟨(oa, l), hel, rfl⟩)
        have h3 : factor l d = k := by unfold factor; rw [hu', ← hku']; rfl
        rw [h3] at h2
        exact_mod_cast h2.trans h1
      · have h1 := C.array _ hel s hs
        have h2 := (le_prod (l := l.map Prod.snd) fun x hx => by
          obtain ⟨y, hy, rfl⟩ := List.mem_map.1 hx
          exact hone _ hel y hy).2 u (List.mem_map.2 ⟨(d, u), hdu, rfl⟩)
        rw [hku'] at h2
        exact_mod_cast h2.trans h1
      · obtain ⟨m, hm, hin, op, ho, p, hp, ha, rfl⟩ := hfed mo hmo
        have h1 := C.delivers m hin op ho p hp ha (oa, l) hel hoa (d, u) hdu hd
        simp only at h1 ⊢
        rw [hku'] at h1
        have h2 : ((k * n.layer.precision op : ℕ) : ℤ) ≤ p.bwMax := by exact_mod_cast h1
        omega
    · obtain ⟨s, hs⟩ := SpatialGen.get?_of_keys (N.known oa (SpatialGen.keys_of_get? hl))
      refine ⟨(s : ℚ), ?_, C.array _ (Dict.mem_of_get? hl) s hs⟩
      rw [SpatialGen.castDict_get?, show (Net.inputs o a n ms).oaSizes = a.sizes from rfl, hs]
      rfl
    · rw [SpatialGen.castDict_keys, show (Net.inputs o a n ms).sizes = n.layer.sizes from rfl, Net.sizes_keys]
      obtain ⟨x, hx, rfl⟩ := List.mem_map.1 hd
      exact C.dims _ (Dict.mem_of_get? hl) x hx
    · exact C.layer d s (by rw [← hsize d]; exact hs)
  · intro mo hmo
    refine ⟨fit.served mo hmo, ?_⟩
    obtain ⟨m, hm, hin, op, ho, p, hp, ha, rfl⟩ := hfed mo hmo
    have h1 := C.holds m hin op ho
    have h2 : (m.size : ℚ) = ((m.size.toNat : ℕ) : ℚ) := by
      have := (F.acc.mems m hm).size
      have h3 : ((m.size.toNat : ℕ) : ℤ) = m.size := Int.toNat_of_nonneg (by omega)
      exact_mod_cast h3.symm
    rw [h2] at h1
    exact h1

/-- C157 (partial): if the mapping file gives a complete spatial mapping for every layer, and these mappings fit, then the answer does not depend on the order in
which sets are traversed, and not on how many spatial mappings are asked for. Missing: mappings that the generator has to complete or to reduce, for which it does
depend on the order (`set_order_false`). -/
theorem complete_orders_partial {cacti : MemD Operand OA → ℚ × ℚ} {fact : Nat → List (Nat × Nat)} {a : AccD OA} {o o' : Options OA D} {nodes : List (Node OA D)} (F : FileOk a)
    (O : OptionsOk o) (O' : OptionsOk o') (hl : o'.limit = o.limit)
    (N : ∀ n ∈ nodes, n.skip = false → Complete a n ∧ ∃ (rl : Operand → List D) (rels : List (Relation D)), NodeOk a n rl rels) (opt : String) (fuel : Nat) :
    network cacti fact a o' opt nodes fuel = network cacti fact a o opt nodes fuel :=
  network_congr hl fun n hn hs => by
    obtain ⟨C, rl, rels, K⟩ := N n hn hs
    rw [complete_spatial F K O C, complete_spatial F K O' C]

end Verif.Compare
