import Verif.ImcCall.Array

/-! C166: calls for in-memory-computing arrays. -/

namespace Verif.ImcCall

open Evaluate (Job Result Separate)
open Latency (Operand)
open LayerNode (Relation)
open Net (Options OptionsOk FileOk)
open Pipeline (Cme)
open Ports (MemD)
open Reuse (LNode Graph Fits LayerOk)
open SpatialMapping (SM)
open Whole (AccD Acc InputOk operations prices)

variable {OA : Type} [DecidableEq OA] {D : Type} [LinearOrder D]
variable {cacti : MemD Operand OA → ℚ × ℚ} {fact : Nat → List (Nat × Nat)} {K : Chip OA} {a : AccD OA} {s : Locality.St Operand} {o : Options OA D}
  {g : Graph OA D} {nodes : List (LNode OA D)} {A W : Operand}

/-- What is known about the evaluations of a layer. -/
theorem node_facts (F : FileOk a) (S : Reuse.Stacked a.mems) (O : OptionsOk o) (hf : Lpf.FactContract fact) (U : Fits a g nodes A W)
    (hp : Reuse.plan a g nodes = .ok s) {n : LNode OA D} (hn : n ∈ nodes) (hs : n.node.skip = false) {rl : Operand → List D} {rels : List (Relation D)}
    (L : LayerOk a n rl rels) :
    ∃ b c sms, Reuse.reduced cacti a s n = .ok b ∧ Whole.accelerator cacti b = .ok c ∧ Net.spatialMappings o b n.node = .ok sms ∧ b.sizes = a.sizes ∧
      (∀ sm ∈ sms, InputOk b n.node.layer sm rl rels ∧ ∀ oa, oa ∈ sm.keys ↔ oa ∈ b.sizes.keys) ∧
      ∃ N, ∀ fuel, N ≤ fuel → ∀ sm ∈ sms, ∀ evals err, Whole.run cacti fact b n.node.layer sm o.limit fuel = some (evals, err) → ∀ e ∈ evals,
        Evaluate.macs e.1 = operations n.node.layer ∧
        (∃ loops rd, lowest b c n sm e.1 n.weight = .ok loops ∧ (∀ x ∈ loops, 1 ≤ x.2) ∧ reads c e.1 n.weight = .ok rd ∧ 0 ≤ rd) ∧
        (Separate c.hw e.1 → (operations n.node.layer * n.node.layer.cyclesPerOp : ℚ) ≤ Hierarchy.totalUnits a.sizes * e.2.overall.latency2) ∧
        ((∀ m ∈ a.mems, 0 ≤ (prices cacti m).1 ∧ 0 ≤ (prices cacti m).2) → 0 ≤ e.2.energy.mem) := by
  obtain ⟨b, b1, b2, b3, b4, b5, b6⟩ := Reuse.reduced_ok (cacti := cacti) F S U hp hn hs L
  obtain ⟨c, hc, C⟩ := Whole.accelerator_ok (cacti := cacti) b2.acc
  obtain ⟨sms, h1, -, h3⟩ := Net.generated b2 b3 O
  have hw : n.weight ∈ n.node.layer.ops ∧ n.weight ≠ .out := by
    obtain ⟨m, hm, hA, hW, -⟩ := U.top
    rcases U.names n hn (U.dummies n hn hs) with ⟨-, e⟩ | ⟨-, e⟩ <;> rw [e]
    · exact ⟨L.node.linked m (List.mem_of_getLast? hm) W hW, U.distinct.2.2⟩
    · exact ⟨L.node.linked m (List.mem_of_getLast? hm) A hA, U.distinct.2.1⟩
  refine ⟨b, c, sms, b1, hc, h1, b4, h3, ?_⟩
  refine Net.bound_all (P := fun sm fuel => ∀ evals err, Whole.run cacti fact b n.node.layer sm o.limit fuel = some (evals, err) → ∀ e ∈ evals,
        Evaluate.macs e.1 = operations n.node.layer ∧
        (∃ loops rd, lowest b c n sm e.1 n.weight = .ok loops ∧ (∀ x ∈ loops, 1 ≤ x.2) ∧ reads c e.1 n.weight = .ok rd ∧ 0 ≤ rd) ∧
        (Separate c.hw e.1 → (operations n.node.layer * n.node.layer.cyclesPerOp : ℚ) ≤ Hierarchy.totalUnits a.sizes * e.2.overall.latency2) ∧
        ((∀ m ∈ a.mems, 0 ≤ (prices cacti m).1 ∧ 0 ≤ (prices cacti m).2) → 0 ≤ e.2.energy.mem)) sms fun sm hsm => ?_
  have I := (h3 sm hsm).1
  obtain ⟨c', Mu, hc', hu⟩ := Whole.run_utilization (cacti := cacti) I fact hf o.limit O.limit (Or.inl b3.order)
  rw [hc] at hc'
  cases hc'
  obtain ⟨Ma, ha⟩ := run_array I hc hf o.limit O.limit (Or.inl b3.order)
  have hen : ∃ Me, ∀ fuel, Me ≤ fuel → (∀ m ∈ a.mems, 0 ≤ (prices cacti m).1 ∧ 0 ≤ (prices cacti m).2) → ∃ evals err,
      Whole.run cacti fact b n.node.layer sm o.limit fuel = some (evals, err) ∧ ∀ e ∈ evals,
        e.2.energy.total = b.macEnergy * operations n.node.layer + e.2.energy.mem ∧ 0 ≤ e.2.energy.mem := by
    by_cases hp : ∀ m ∈ a.mems, 0 ≤ (prices cacti m).1 ∧ 0 ≤ (prices cacti m).2
    · obtain ⟨Me, h⟩ := Whole.run_energy I (b6 hp) fact hf o.limit O.limit (Or.inl b3.order)
      exact ⟨Me, fun f hf _ => h f hf⟩
    · exact ⟨0, fun f _ h => absurd h hp⟩
  obtain ⟨Me, hen⟩ := hen
  refine ⟨max Mu (max Ma Me), fun fuel hfu evals err hr e he => ?_⟩
  obtain ⟨evals', err', hr', hall⟩ := ha fuel (le_of_max_le_left (le_of_max_le_right hfu))
  rw [hr] at hr'
  cases hr'
  obtain ⟨q1, q2⟩ := hall e he
  refine ⟨q1, q2 _ hw.1 hw.2, fun hsep => ?_, fun hp => ?_⟩
  · obtain ⟨evals', err', hr', hall⟩ := hu fuel (le_of_max_le_left hfu)
    rw [hr] at hr'
    cases hr'
    obtain ⟨u1, -, -, -, -, -, u7⟩ := hall e he
    obtain ⟨-, -, -, l1, l2⟩ := u7 hsep
    rw [← b4]
    exact u1.trans (mul_le_mul_of_nonneg_left (l1.trans l2) (Nat.cast_nonneg _))
  · obtain ⟨evals', err', hr', hall⟩ := hen fuel (le_of_max_le_right (le_of_max_le_right hfu)) hp
    rw [hr] at hr'
    cases hr'
    exact (hall e he).2

/-- An evaluation of a layer that works. -/
theorem evaluated {fuel : Nat} {n : LNode OA D} (hw : Pipeline.Works (Reuse.env cacti fact a s o fuel) n) {sms : List (SM OA D)}
    (hs : (Reuse.env cacti fact a s o fuel).spatial n = .ok sms) {sm : SM OA D} (hsm : sm ∈ sms) {j : Job D}
    (hj : j ∈ ((Reuse.env cacti fact a s o fuel).temporal n sm).1) {x : Cme (Job D × Result)} (hx : (Reuse.env cacti fact a s o fuel).cost n sm j = .ok x) :
    ∃ b c q evals, Reuse.reduced cacti a s n = .ok b ∧ Whole.accelerator cacti b = .ok c ∧ Net.spatialMappings o b n.node = .ok sms ∧ x.tag = (j, q) ∧
      Whole.run cacti fact b n.node.layer sm o.limit fuel = some (evals, none) ∧ (j, q) ∈ evals := by
  obtain ⟨b, c, hb⟩ := Reuse.works_built hw
  obtain ⟨q1, q2⟩ := Reuse.built_iff.1 hb
  obtain ⟨s1, s2, s3⟩ := Reuse.stages (fact := fact) (o := o) (fuel := fuel) hb
  obtain ⟨sms', w1, -, w3⟩ := (Reuse.works_iff (fact := fact) (o := o) (fuel := fuel) hb).1 hw
  rw [s1, w1] at hs
  cases hs
  rw [s2] at hj
  rw [s3] at hx
  have hcost : ∀ j r, (Net.env fact b c o fuel).cost n.node sm j = .ok r → ∃ q, Evaluate.evaluate c.hw j = .ok q ∧ r = Net.cme (j, q) := by
    intro j r h
    unfold Net.env at h
    simp only at h
    cases hq : Evaluate.evaluate c.hw j with
    | error e => rw [hq] at h; cases h
    | ok q =>
      rw [hq] at h
      simp only [Except.ok.injEq] at h
      exact ⟨q, rfl, h.symm⟩
  have hall : ∀ j ∈ ((Net.env fact b c o fuel).temporal n.node sm).1, ∃ r, Evaluate.evaluate c.hw j = .ok r := by
    intro j hj
    obtain ⟨r, hr⟩ := (w3 sm hsm).2.2 j hj
    obtain ⟨q, hq, -⟩ := hcost j r hr
    exact ⟨q, hq⟩
  obtain ⟨q, hq, rfl⟩ := hcost j x hx
  refine ⟨b, c, q, _, q1, q2, w1, rfl, ?_, (mem_evaluations (err := none) hall).2 ⟨hj, hq⟩⟩
  rw [run_of_temporal q2 (w3 sm hsm).1]
  congr 1
  refine Prod.ext rfl ?_
  exact Net.evaluations_done.2 ⟨rfl, hall⟩

/-- C166: if no dimension that the weights do not depend on is unrolled along the wordlines, the array adds no way to fail: the call answers exactly if the array can be
made, the call without an in-memory-computing array but with planned locality answers (C165), and there is a layer that is not skipped. -/
theorem imc_outcome (F : FileOk a) (S : Reuse.Stacked a.mems) (O : OptionsOk o) (hf : Lpf.FactContract fact) (U : Fits a g nodes A W)
    (hn : ∀ n ∈ nodes, n.node.skip = false → ∃ rl rels, LayerOk a n rl rels) (C : ChipOk K a)
    (hst : ∀ s, Reuse.plan a g nodes = .ok s → ∀ n ∈ nodes, n.node.skip = false → ∀ b, Reuse.reduced cacti a s n = .ok b → ∀ sms,
      Net.spatialMappings o b n.node = .ok sms → ∀ sm ∈ sms, Straight K n sm) :
    ∃ N, ∀ fuel, N ≤ fuel → ∀ opt, (∃ ans, network cacti fact K a o opt g nodes fuel = .ok ans) ↔
      (∃ area, Imc.getArea K.arr = .ok area) ∧ (∃ clock, Imc.getTclk K.arr = .ok clock) ∧ (∃ ans, Reuse.network cacti fact a o opt g nodes fuel = .ok ans) ∧
        ∃ n ∈ nodes, n.node.skip = false := by
  cases hp : Reuse.plan a g nodes with
  | error e =>
    refine ⟨0, fun fuel _ opt => ⟨fun ⟨ans, h⟩ => ?_, fun ⟨_, _, ⟨ans, h⟩, _⟩ => ?_⟩⟩
    · obtain ⟨_, _, _, s, -, -, -, hs, -⟩ := network_cases h
      rw [hp] at hs
      cases hs
    · obtain ⟨_, s, -, hs, -⟩ := Reuse.network_cases h
      rw [hp] at hs
      cases hs
  | ok s =>
    obtain ⟨N, hN⟩ := Net.bound_all (P := fun (n : LNode OA D) fuel => n.node.skip = false → ∀ area, Imc.getArea K.arr = .ok area →
        Pipeline.Works (Reuse.env cacti fact a s o fuel) n → ∀ clock array, Pipeline.Works (env cacti fact K clock array a s o fuel) n) nodes fun n hmem => by
      by_cases hs : n.node.skip = false
      · obtain ⟨rl, rels, L⟩ := hn n hmem hs
        obtain ⟨b, c, sms, b1, b2, b3, b4, b5, M, hM⟩ := node_facts (cacti := cacti) F S O hf U hp hmem hs L
        refine ⟨M, fun fuel hfu _ area hA hw clock array => ?_⟩
        refine wrap_works.2 ⟨hw, fun sms' hs' sm hsm j hj x hx => ?_⟩
        obtain ⟨b', c', q, evals, e1, e2, e3, e4, e5, e6⟩ := evaluated hw hs' hsm hj hx
        rw [b1] at e1
        cases e1
        rw [b2] at e2
        cases e2
        rw [b3] at e3
        cases e3
        obtain ⟨m1, ⟨loops, rd, m2, m3, m4, m5⟩, -⟩ := hM fuel hfu sm hsm evals none e5 _ e6
        obtain ⟨I, hk⟩ := b5 sm hsm
        have C' : ChipOk K b := ⟨C.dims, by rw [b4]; exact C.wl, by rw [b4]; exact C.bl, C.bs, C.tech, C.wlCap, C.adc⟩
        obtain ⟨w, v, u1, u2, u3, u4, u5, u6, u7, u8, u9⟩ := unrollings I hk C'
        have hpos : 0 < inMacro K sm := by rw [u7]; positivity
        have hst' := hst s hp n hmem hs b b1 sms b3 sm hsm
        obtain ⟨rows, cols, r1, -, -, r4⟩ := Imc.rows_plain (n.node.layer.rel n.weight).ir (n.node.layer.rel n.act).pr.values (sm.get? K.wlDim) (sm.get? K.blDim)
          (o.setOrder ((sm.get? K.blDim).getD []).keys) K.arr.bl (by
            have : (1 : ℚ) ≤ K.arr.bl := u5.trans u6
            exact_mod_cast this) hst' (fun v' hv' => by
            rw [u2] at hv'
            cases hv'
            exact u6)
        have hcols : 0 ≤ cols := by
          rw [r4 w u1]
          linarith
        obtain ⟨p, p1, -⟩ := layer_ge K.arr C.tech C.adc ⟨area, hA⟩ rows.toNat cols ((Evaluate.macs j : ℚ) / inMacro K sm) _ hcols (by positivity)
          (precharge_nonneg K C.tech C.wlCap (n.node.layer.rel n.weight).r (n.node.layer.rel n.weight).ir m3 m5)
        have hb : Reuse.built cacti a s n = .ok (b, c) := Reuse.built_iff.2 ⟨b1, b2⟩
        refine ⟨_, price_iff.2 ⟨b, c, p, hb, ?_, rfl⟩⟩
        rw [e4]
        exact arrayEnergy_cases.2 ⟨_, loops, rd, r1, hpos.ne', m2, m4, p1⟩
      · exact ⟨0, fun _ _ hc => absurd hc hs⟩
    obtain ⟨c, hc, -⟩ := Whole.accelerator_ok (cacti := cacti) F.acc
    refine ⟨N, fun fuel hfu opt => ⟨fun ⟨ans, h⟩ => ?_, fun ⟨⟨area, hA⟩, ⟨clock, hT⟩, ⟨ans, h⟩, n, hmem, hsk⟩ => ?_⟩⟩
    · obtain ⟨area, clock, c', s', h1, h2, -, h4, h⟩ := network_cases h
      rw [hp] at h4
      cases h4
      obtain ⟨hok, l, hl, hsk⟩ := (api_imc_iff single).1 ⟨ans, h⟩
      obtain ⟨ho, hw⟩ := (Pipeline.api_ok_iff single opt nodes).1 hok
      refine ⟨⟨area, h1⟩, ⟨clock, h2⟩, ?_, l, hl, hsk⟩
      unfold Reuse.network
      rw [hc, hp]
      exact (Pipeline.api_ok_iff Reuse.single opt nodes).2 ⟨ho, fun n hn hs => (wrap_works.1 (hw n hn hs)).1⟩
    · obtain ⟨c', s', -, h4, h⟩ := Reuse.network_cases h
      rw [hp] at h4
      cases h4
      obtain ⟨ho, hw⟩ := (Pipeline.api_ok_iff Reuse.single opt nodes).1 ⟨ans, h⟩
      unfold network
      rw [hA, hT, hc, hp]
      exact (api_imc_iff single).2 ⟨(Pipeline.api_ok_iff single opt nodes).2 ⟨ho, fun n hn hs => hN fuel hfu n hn hs area hA (hw n hn hs) _ _⟩, n, hmem, hsk⟩

/-- The energy of the multipliers for one operation: for a digital array the multiplications of all bits, for an analog one those of all bits that enter at once. -/
def multiply (k : Imc.Arr) : ℚ := Imc.multE k.tech * k.wp * (if k.aimc then (k.act : ℚ) / k.bs else k.act)

/-- What the array takes for an evaluation. -/
theorem made_array (F : FileOk a) (S : Reuse.Stacked a.mems) (O : OptionsOk o) (hf : Lpf.FactContract fact) (U : Fits a g nodes A W)
    (hp : Reuse.plan a g nodes = .ok s) {n : LNode OA D} (hn : n ∈ nodes) (hs : n.node.skip = false) {rl : Operand → List D} {rels : List (Relation D)}
    (L : LayerOk a n rl rels) (C : ChipOk K a) (hA : ∃ area, Imc.getArea K.arr = .ok area) :
    ∃ N, ∀ fuel, N ≤ fuel → ∀ e, Made cacti fact K a s o fuel n e →
      (Separate e.built.hw e.job → (operations n.node.layer * n.node.layer.cyclesPerOp : ℚ) ≤ Hierarchy.totalUnits a.sizes * e.latency) ∧
      ((∀ m ∈ a.mems, 0 ≤ (prices cacti m).1 ∧ 0 ≤ (prices cacti m).2) → 0 ≤ e.result.energy.mem) ∧
      (multiply K.arr * operations n.node.layer ≤ (e.parts.map Prod.snd).sum) ∧
      (Straight K n e.spatial → ∃ times : ℚ, operations n.node.layer ≤ times * (K.arr.wl * K.arr.bl) ∧ times ≤ operations n.node.layer ∧
        List.Forall₂ (fun x y => x.1 = y.1 ∧ (x.1 = "local_bl_precharging" ∨ x.2 * K.arr.banks ≤ y.2 * ((K.arr.act : ℚ) / K.arr.bs * times))) e.parts
          (Imc.peakEnergy K.arr)) := by
  obtain ⟨b, c, sms, b1, b2, b3, b4, b5, M, hM⟩ := node_facts (cacti := cacti) F S O hf U hp hn hs L
  refine ⟨M, fun fuel hfu e hm => ?_⟩
  have e1 := hm.file
  have e2 := hm.built
  obtain ⟨sms', w1, hsm⟩ := hm.spatial
  obtain ⟨evals, hr, he⟩ := hm.run
  have hparts := hm.parts
  obtain ⟨eb, ec, sm, j, q, p⟩ := e
  simp only at e1 e2 w1 hsm hr he hparts ⊢
  rw [b1] at e1
  cases e1
  rw [b2] at e2
  cases e2
  rw [b3] at w1
  cases w1
  obtain ⟨m1, ⟨loops, rd, m2, m3, m4, m5⟩, m6, m7⟩ := hM fuel hfu sm hsm evals none hr _ he
  refine ⟨m6, m7, ?_⟩
  obtain ⟨I, hk⟩ := b5 sm hsm
  have C' : ChipOk K b := ⟨C.dims, by rw [b4]; exact C.wl, by rw [b4]; exact C.bl, C.bs, C.tech, C.wlCap, C.adc⟩
  obtain ⟨w, v, u1, u2, u3, u4, u5, u6, u7, u8, u9⟩ := unrollings I hk C'
  have hpos : 0 < inMacro K sm := by rw [u7]; positivity
  have hbl : (1 : ℚ) ≤ K.arr.bl := u5.trans u6
  have hwl : (1 : ℚ) ≤ K.arr.wl := u3.trans u4
  have hle : inMacro K sm ≤ K.arr.wl * K.arr.bl := by
    rw [u7]
    exact mul_le_mul u4 u6 (by linarith) (by linarith)
  have hone : 1 ≤ inMacro K sm := by
    rw [u7]
    nlinarith
  obtain ⟨d, loops', rd', d1, -, d3, d4, d5⟩ := arrayEnergy_cases.1 hparts
  rw [m2] at d3
  cases d3
  rw [m4] at d4
  cases d4
  have hcol : d.2.2 = (w.map Prod.snd).prod := by
    unfold Imc.mappedDims at d1
    rw [u1, u2] at d1
    simp only at d1
    split at d1
    · cases d1; rfl
    · split at d1
      · cases d1
      · cases d1; rfl
  have hplain : Straight K n sm → d.1 = ⌈(v.map Prod.snd).prod⌉ := by
    intro hst
    obtain ⟨rows, cols, r1, -, r3, -⟩ := Imc.rows_plain (n.node.layer.rel n.weight).ir (n.node.layer.rel n.act).pr.values (sm.get? K.wlDim) (sm.get? K.blDim)
      (o.setOrder ((sm.get? K.blDim).getD []).keys) K.arr.bl (by exact_mod_cast hbl) hst (fun v' hv' => by
        rw [u2] at hv'
        cases hv'
        exact u6)
    rw [r1] at d1
    cases d1
    exact r3 v u2
  have htimes : (0 : ℚ) ≤ (Evaluate.macs j : ℚ) / inMacro K sm := by positivity
  have hmac : (Evaluate.macs j : ℚ) = operations n.node.layer := by exact_mod_cast m1
  constructor
  · obtain ⟨p', p1, p2⟩ := layer_ge K.arr C.tech C.adc hA d.1.toNat d.2.2 ((Evaluate.macs j : ℚ) / inMacro K sm) _ (by rw [hcol]; linarith) htimes
      (precharge_nonneg K C.tech C.wlCap (n.node.layer.rel n.weight).r (n.node.layer.rel n.weight).ir m3 m5)
    rw [d5] at p1
    cases p1
    refine le_trans ?_ p2
    have hM0 : 0 ≤ Imc.multE K.arr.tech := by
      have := C.tech.nd2Cap
      unfold Imc.multE
      positivity
    have hbs : (0 : ℚ) < K.arr.bs := by exact_mod_cast C.bs
    rw [← hmac]
    unfold multiply
    have hops : (Evaluate.macs j : ℚ) = inMacro K sm * ((Evaluate.macs j : ℚ) / inMacro K sm) := by field_simp
    rcases Bool.eq_false_or_eq_true K.arr.aimc with h | h
    · rw [h]
      simp only [if_true]
      have hrows : (v.map Prod.snd).prod ≤ (d.1.toNat : ℚ) := by
        have h1 : (v.map Prod.snd).prod ≤ ((d.1 : ℤ) : ℚ) := by
          rw [u1, u2] at d1
          refine rows_ge d1 u8 u9 ?_
          rw [(O.setOrder _).length_eq]
          exact List.length_map _
        have h2 : d.1 ≤ (d.1.toNat : ℤ) := Int.self_le_toNat _
        have h3 : ((d.1 : ℤ) : ℚ) ≤ ((d.1.toNat : ℤ) : ℚ) := by exact_mod_cast h2
        exact h1.trans (by exact_mod_cast h3)
      have hin : inMacro K sm ≤ K.arr.wl * d.1.toNat := by
        rw [u7]
        exact mul_le_mul u4 hrows (by linarith) (by linarith)
      push_cast
      calc Imc.multE K.arr.tech * K.arr.wp * ((K.arr.act : ℚ) / K.arr.bs) * (Evaluate.macs j : ℚ)
          = (Imc.multE K.arr.tech * K.arr.wp * ((K.arr.act : ℚ) / K.arr.bs) * ((Evaluate.macs j : ℚ) / inMacro K sm)) * inMacro K sm := by
            conv_lhs => rw [hops]
            ring
        _ ≤ (Imc.multE K.arr.tech * K.arr.wp * ((K.arr.act : ℚ) / K.arr.bs) * ((Evaluate.macs j : ℚ) / inMacro K sm)) * (K.arr.wl * d.1.toNat) :=
            mul_le_mul_of_nonneg_left hin (by positivity)
        _ = _ := by ring
    · rw [h]
      simp only [Bool.false_eq_true, if_false]
      push_cast
      calc Imc.multE K.arr.tech * K.arr.wp * (K.arr.act : ℚ) * (Evaluate.macs j : ℚ)
          = (Imc.multE K.arr.tech * K.arr.wp * (K.arr.act : ℚ) * ((Evaluate.macs j : ℚ) / inMacro K sm)) * inMacro K sm := by
            conv_lhs => rw [hops]
            ring
        _ ≤ (Imc.multE K.arr.tech * K.arr.wp * (K.arr.act : ℚ) * ((Evaluate.macs j : ℚ) / inMacro K sm)) * (K.arr.wl * K.arr.bl) :=
            mul_le_mul_of_nonneg_left hle (by positivity)
        _ = _ := by field_simp
  · intro hst
    have hrows : d.1.toNat ≤ K.arr.bl := by
      rw [hplain hst]
      have : ⌈(v.map Prod.snd).prod⌉ ≤ (K.arr.bl : ℤ) := Int.ceil_le.2 (by exact_mod_cast u6)
      omega
    obtain ⟨p', p1, p2⟩ := Imc.layer_le_peak K.arr C.tech C.adc hA C.bs d.1.toNat d.2.2 ((Evaluate.macs j : ℚ) / inMacro K sm)
      (precharge K.arr K.cellsSize (n.node.layer.rel n.weight).r (n.node.layer.rel n.weight).ir loops rd).1 hrows (by rw [hcol]; linarith) (by rw [hcol]; exact u4) htimes
    rw [d5] at p1
    cases p1
    refine ⟨_, ?_, ?_, p2⟩
    · rw [← hmac, div_mul_eq_mul_div, le_div_iff₀ hpos]
      exact mul_le_mul_of_nonneg_left hle (by positivity)
    · rw [← hmac]
      exact div_le_self (by positivity) hone

/-- C166: bounds for calls for in-memory-computing arrays.  The latency is at least the number of operations and the cycles of each, over the number of units, if every port serves
its duties separately; the energy is, with prices that are not negative, at least that of one multiplication of the bits for every operation. -/
theorem imc_bounds (F : FileOk a) (S : Reuse.Stacked a.mems) (O : OptionsOk o) (hf : Lpf.FactContract fact) (U : Fits a g nodes A W)
    (hn : ∀ n ∈ nodes, n.node.skip = false → ∃ rl rels, LayerOk a n rl rels) (C : ChipOk K a) :
    ∃ N, ∀ fuel, N ≤ fuel → ∀ opt ans, network cacti fact K a o opt g nodes fuel = .ok ans →
      ((∀ s, Reuse.plan a g nodes = .ok s → ∀ n ∈ nodes, ∀ e, Made cacti fact K a s o fuel n e → Separate e.built.hw e.job) →
        ((nodes.filter fun n => !n.node.skip).map fun n => (operations n.node.layer * n.node.layer.cyclesPerOp : ℚ)).sum ≤ Hierarchy.totalUnits a.sizes * ans.latency) ∧
      ((∀ m ∈ a.mems, 0 ≤ (prices cacti m).1 ∧ 0 ≤ (prices cacti m).2) →
        ((nodes.filter fun n => !n.node.skip).map fun n => multiply K.arr * operations n.node.layer).sum ≤ ans.energy) := by
  cases hp : Reuse.plan a g nodes with
  | error e =>
    refine ⟨0, fun fuel _ opt ans h => ?_⟩
    obtain ⟨_, _, _, s, -, -, -, hs, -⟩ := network_cases h
    rw [hp] at hs
    cases hs
  | ok s =>
    by_cases hA : ∃ area, Imc.getArea K.arr = .ok area
    swap
    · refine ⟨0, fun fuel _ opt ans h => ?_⟩
      obtain ⟨area, _, _, _, h1, -⟩ := network_cases h
      exact absurd ⟨area, h1⟩ hA
    obtain ⟨N, hN⟩ := Net.bound_all (P := fun (n : LNode OA D) fuel => n.node.skip = false → ∀ e, Made cacti fact K a s o fuel n e →
        (Separate e.built.hw e.job → (operations n.node.layer * n.node.layer.cyclesPerOp : ℚ) ≤ Hierarchy.totalUnits a.sizes * e.latency) ∧
        ((∀ m ∈ a.mems, 0 ≤ (prices cacti m).1 ∧ 0 ≤ (prices cacti m).2) → 0 ≤ e.result.energy.mem) ∧
        (multiply K.arr * operations n.node.layer ≤ (e.parts.map Prod.snd).sum)) nodes fun n hmem => by
      by_cases hs : n.node.skip = false
      · obtain ⟨rl, rels, L⟩ := hn n hmem hs
        obtain ⟨M, hM⟩ := made_array (cacti := cacti) (K := K) F S O hf U hp hmem hs L C hA
        exact ⟨M, fun fuel hfu _ e he => ⟨(hM fuel hfu e he).1, (hM fuel hfu e he).2.1, (hM fuel hfu e he).2.2.1⟩⟩
      · exact ⟨0, fun _ _ hc => absurd hc hs⟩
    refine ⟨N, fun fuel hfu opt ans h => ?_⟩
    obtain ⟨area, clock, s', -, -, hs', best, h1, h2, h3, h4, -⟩ := imc_answer h
    rw [hp] at hs'
    cases hs'
    have hmem : ∀ x ∈ best, x.1 ∈ nodes ∧ x.1.node.skip = false := by
      intro x hx
      have : x.1 ∈ best.map Prod.fst := List.mem_map.2 ⟨x, hx, rfl⟩
      rw [h1] at this
      simpa using List.mem_filter.1 this
    rw [← h1, h3, h4]
    clear h1 h3 h4 h
    constructor
    · intro hsep
      induction best with
      | nil => simp
      | cons x t ih =>
        simp only [List.map_cons, List.sum_cons, mul_add]
        obtain ⟨m1, m2⟩ := hmem x List.mem_cons_self
        have hx := (h2 x List.mem_cons_self).1
        exact add_le_add ((hN fuel hfu _ m1 m2 _ hx).1 (hsep s rfl _ m1 _ hx)) (ih (fun y hy => h2 y (List.mem_cons_of_mem _ hy)) fun y hy =>
          hmem y (List.mem_cons_of_mem _ hy))
    · intro hpr
      induction best with
      | nil => simp
      | cons x t ih =>
        simp only [List.map_cons, List.sum_cons]
        obtain ⟨m1, m2⟩ := hmem x List.mem_cons_self
        have hx := (h2 x List.mem_cons_self).1
        obtain ⟨-, q2, q3⟩ := hN fuel hfu _ m1 m2 _ hx
        refine add_le_add ?_ (ih (fun y hy => h2 y (List.mem_cons_of_mem _ hy)) fun y hy => hmem y (List.mem_cons_of_mem _ hy))
        have hm := q2 hpr
        unfold Eval.energy
        linarith

/-- C166: every part of the energy of the array of an evaluation except precharging is at most that of the array at its peak, for a number of activations between the
operations over the cells and the operations. -/
theorem imc_peak (F : FileOk a) (S : Reuse.Stacked a.mems) (O : OptionsOk o) (hf : Lpf.FactContract fact) (U : Fits a g nodes A W)
    (hp : Reuse.plan a g nodes = .ok s) {n : LNode OA D} (hn : n ∈ nodes) (hs : n.node.skip = false) {rl : Operand → List D} {rels : List (Relation D)}
    (L : LayerOk a n rl rels) (C : ChipOk K a) (hA : ∃ area, Imc.getArea K.arr = .ok area) :
    ∃ N, ∀ fuel, N ≤ fuel → ∀ e, Made cacti fact K a s o fuel n e → Straight K n e.spatial →
      ∃ times : ℚ, operations n.node.layer ≤ times * (K.arr.wl * K.arr.bl) ∧ times ≤ operations n.node.layer ∧
        List.Forall₂ (fun x y => x.1 = y.1 ∧ (x.1 = "local_bl_precharging" ∨ x.2 * K.arr.banks ≤ y.2 * ((K.arr.act : ℚ) / K.arr.bs * times))) e.parts
          (Imc.peakEnergy K.arr) := by
  obtain ⟨N, hN⟩ := made_array (cacti := cacti) (K := K) (o := o) F S O hf U hp hn hs L C hA
  exact ⟨N, fun fuel hfu e he hst => (hN fuel hfu e he).2.2.2 hst⟩

omit [DecidableEq OA] in
theorem restrict_area (cacti : MemD Operand OA → ℚ × ℚ) (ops : List Operand) (m : MemD Operand OA) : (Reuse.restrict cacti ops m).area = m.area := rfl

omit [DecidableEq OA] in
theorem area_kept {f : MemD Operand OA × Nat → MemD Operand OA} (hf : ∀ m, (f m).area = m.1.area) : ∀ (ms : List (MemD Operand OA)) (i : Nat),
    (∀ m ∈ ms, 0 ≤ m.area.getD 0) →
    0 ≤ ((((ms.zipIdx i).map f).filter fun m => decide (m.operands ≠ [])).map fun m => m.area.getD 0).sum ∧
      ((((ms.zipIdx i).map f).filter fun m => decide (m.operands ≠ [])).map fun m => m.area.getD 0).sum ≤ (ms.map fun m => m.area.getD 0).sum
  | [], _, _ => by simp
  | m :: ms, i, h => by
    obtain ⟨i1, i2⟩ := area_kept hf ms (i + 1) fun x hx => h x (List.mem_cons_of_mem _ hx)
    have h0 := h m List.mem_cons_self
    rw [List.zipIdx_cons, List.map_cons, List.filter_cons]
    split_ifs
    · rw [List.map_cons, List.sum_cons, List.map_cons, List.sum_cons, hf]
      exact ⟨add_nonneg h0 i1, add_le_add_right i2 _⟩
    · rw [List.map_cons, List.sum_cons]
      exact ⟨i1, i2.trans (le_add_of_nonneg_left h0)⟩

/-- C166: with areas that are not negative, the area that is returned is at least that of the array and at most that of the whole accelerator. -/
theorem imc_area {fuel : Nat} {opt : String} {ans : Reply OA D} (h : network cacti fact K a o opt g nodes fuel = .ok ans)
    (hpos : ∀ m ∈ a.mems, 0 ≤ m.area.getD 0) :
    ∃ area f, Imc.getArea K.arr = .ok area ∧ ans.first = some f ∧ (area.map Prod.snd).sum ≤ f.area ∧
      f.area ≤ (area.map Prod.snd).sum + (a.mems.map fun m => m.area.getD 0).sum := by
  obtain ⟨area, clock, s, h1, -, -, best, -, h2, -, -, x, t, f, hb, hf, -, ha⟩ := imc_answer h
  refine ⟨area, f, h1, hf, ?_⟩
  have hm := (h2 x (by rw [hb]; exact List.mem_cons_self)).1.file
  obtain ⟨l, ta, -, -, hb'⟩ := Reuse.reduced_cases hm
  rw [ha, hb']
  obtain ⟨q1, q2⟩ := area_kept (fun m => restrict_area cacti (Locality.pruneOps m.1.operands l ta.1 ta.2.1 ta.2.2 m.2) m.1) a.mems 0 hpos
  exact ⟨le_add_of_nonneg_right q1, add_le_add_right q2 _⟩

end Verif.ImcCall
