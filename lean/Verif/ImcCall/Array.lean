import Verif.ImcCall.Answer
import Verif.Evaluate.CostProps

/-! The energy of the array for an evaluation. -/

namespace Verif.ImcCall

open Evaluate (Job Result Mapped)
open Latency (Operand)
open LayerNode (Relation)
open MapInfo
open Net (Options)
open Ports (MemD)
open Reuse (LNode)
open SpatialInternal (pyRound pyDiv)
open SpatialMapping (SM)
open Whole (AccD Acc InputOk operations)

section
variable {Dim : Type} [DecidableEq Dim]

theorem rawAccess_nonneg {total : ℚ} (ht : 0 ≤ total) : ∀ {l : List ℚ} {r : List ℤ}, rawAccess total l = .ok r → (∀ x ∈ l, 0 ≤ x) → ∀ x ∈ r, 0 ≤ x
  | [], r, h, _ => by cases h; simp
  | c :: cs, r, h, hp => by
    unfold rawAccess pyDiv at h
    by_cases hc : c = 0
    · rw [if_pos hc] at h
      cases h
    · rw [if_neg hc] at h
      cases hr : rawAccess total cs with
      | error e => rw [hr] at h; cases h
      | ok r' =>
        rw [hr] at h
        cases h
        intro x hx
        rcases List.mem_cons.1 hx with rfl | hx
        · exact Evaluate.pyRound_nonneg (div_nonneg ht (hp c List.mem_cons_self))
        · exact rawAccess_nonneg ht hr (fun y hy => hp y (List.mem_cons_of_mem _ hy)) x hx

theorem raw_nonneg {c : Cfg Dim} {rl : List Dim} {rels : List (Relation Dim)} (hv : Shape c rl rels)
    (hp : ∀ r ∈ rels, ∃ m, c.L.prSizes.get? r.dim1 = some m ∧ 0 < m) (hs : 0 ≤ c.L.dimSizes.values.prod) {t : Tables Dim} (h : tables c = .ok t) :
    ∀ x ∈ t.raw, 0 ≤ x := by
  obtain ⟨rs, ab, ra, rb, h1, h2, h3, h4, h5, h6, -⟩ := tables_unfold h
  obtain ⟨a, b, hab, la, lb, _, _, pa, pb⟩ := combine_ok hv.levels
  rw [hab] at h3
  cases h3
  have ha := hv.decouple_pos hp (fun l hl => (hv.loops l (pa.mem_iff.1 hl)).2) h4
  refine rawAccess_nonneg hs h6 fun y hy => ?_
  unfold MapInfo.cabl at hy
  obtain ⟨n, _, rfl⟩ := List.mem_map.1 hy
  refine le_of_lt (Evaluate.prod_pos' (fun z hz => ?_))
  obtain ⟨l, hl, rfl⟩ := List.mem_map.1 (List.mem_of_mem_take hz)
  exact Evaluate.selP_pos _ (fun w hw => ha w (List.mem_flatten.2 ⟨l, hl, hw⟩))

variable {h : Evaluate.Hw} {j : Job Dim} {rl : Operand → List Dim} {rels : List (Relation Dim)} {loops array : List (Dim × ℚ)}

/-- The lowest memory of an input operand gives a number of elements to the array. -/
theorem first_reads (R : Mapped h j rl rels loops array) (hs : 0 ≤ j.L.dimSizes.values.prod) {op : Operand} (ho : op ∈ j.ops) (hne : op ≠ .out) :
    ∃ it p, Evaluate.mapping h j false = .ok it ∧ Evaluate.pattern it op 0 = some p ∧ 0 ≤ p.moves.rdToLow := by
  obtain ⟨it, hit, -, hg⟩ := Evaluate.mapping_ok R false
  obtain ⟨i, p, hi, G, hp, hpat⟩ := Evaluate.pattern_some R hg ho (R.tm op ho).2.2
  refine ⟨it, p, hit, hpat, ?_⟩
  have hm := G.moves
  rw [if_neg hne] at hm
  obtain ⟨hl, t, ht, hget⟩ := inputMoves_get hm
  obtain ⟨q, hq, hq'⟩ := hget 0 (by
    have := (R.tm op ho).2
    change 0 < (j.tm op).length
    omega)
  rw [hp] at hq'
  cases hq'
  obtain ⟨lo, hi', i', h1, -⟩ := inputPattern_unfold hq
  obtain ⟨nb, el, raw, wr, w, -, -, -, -, u1, -, -, -, -, u2⟩ := inputCounts_unfold h1
  have hraw : 0 ≤ raw := raw_nonneg (R.shape false op ho) R.sizes hs ht raw (List.mem_of_getElem? u1)
  have hmv : 0 ≤ q.moves.rdToLow := by
    rcases u2 with ⟨-, u⟩ | ⟨-, -, u⟩
    · rw [u]
      exact_mod_cast hraw
    · rw [u]
      obtain ⟨k, hk⟩ := R.stationary op ho
      have hst : 0 ≤ (Evaluate.cfg h j false op).stationary := by
        change 0 ≤ j.stationary op
        rw [hk]
        unfold MapInfo.iters
        refine List.prod_nonneg (fun x hx => ?_)
        obtain ⟨l, hl, rfl⟩ := List.mem_map.1 hx
        obtain ⟨n, hn, -⟩ := R.whole l (List.mem_of_mem_take hl)
        rw [hn]; positivity
      have hr : (0 : ℚ) ≤ raw := by exact_mod_cast hraw
      exact_mod_cast Evaluate.trunc_nonneg (div_nonneg hr hst)
  unfold topCut
  split_ifs
  · simpa [Pattern.update, Cme.FourWay.set] using hmv
  · exact hmv

end

variable {OA : Type} [DecidableEq OA] {D : Type} [LinearOrder D]
variable {cacti : MemD Operand OA → ℚ × ℚ} {fact : Nat → List (Nat × Nat)} {o : Options OA D}

/-- What the array needs of an evaluation: the number of operations, the loops of the lowest memory and what it gives. -/
theorem run_array {b : AccD OA} {c : Acc OA} {n : LNode OA D} {sm : SM OA D} {rl : Operand → List D} {rels : List (Relation D)} (I : InputOk b n.node.layer sm rl rels)
    (hc : Whole.accelerator cacti b = .ok c) (hf : Lpf.FactContract fact) (limit : Option Nat) (hlim : ∀ n, limit = some n → 1 ≤ n)
    (hfo : Whole.Follows cacti b n.node.layer sm) :
    ∃ N, ∀ fuel, N ≤ fuel → ∃ evals err, Whole.run cacti fact b n.node.layer sm limit fuel = some (evals, err) ∧ ∀ e ∈ evals,
      Evaluate.macs e.1 = operations n.node.layer ∧ ∀ op ∈ n.node.layer.ops, op ≠ .out →
        ∃ loops rd, lowest b c n sm e.1 op = .ok loops ∧ (∀ x ∈ loops, 1 ≤ x.2) ∧ reads c e.1 op = .ok rd ∧ 0 ≤ rd := by
  obtain ⟨c', hc', C⟩ := Whole.accelerator_ok (cacti := cacti) I.acc
  rw [hc] at hc'
  cases hc'
  obtain ⟨lim, limI, t, -, ht, P, e1, e2, e3, -⟩ := Whole.task_ok I C
  obtain ⟨s1, s2, s3, s4, -, s6⟩ := Whole.engine_sizes I.layer
  have hlk : ∀ p ∈ c.hw.ports, ∀ k ∈ p.served, k.1 ∈ t.ops := fun p hp k hk => by
    obtain ⟨m, hm, hmk⟩ := C.linked p hp k hk
    rw [e1]
    exact I.linked m hm _ hmk
  obtain ⟨N, o₀, L, -, -, -, -, -, q6⟩ := Search.search_partial P hlk fact hf _ s1 s2 s3 (by rw [e3]; exact s4) (Whole.spatialLoops t)
    (fun x hx => (Whole.spatialLoops_mem P x hx).1) limit hlim _ (hfo.task hc ht)
  refine ⟨N, fun fuel hfu => ?_⟩
  obtain ⟨jobs, err, g1, -, -, g4, -⟩ := q6 fuel hfu
  refine ⟨_, _, by simp only [Whole.run, hc, ht, g1]; rfl, fun e he => ?_⟩
  obtain ⟨hj, hr⟩ := Search.evaluations_mem he
  obtain ⟨ord, ho, hm, R⟩ := g4 _ hj
  obtain ⟨tm, ha, k1, -, eL, -, -, -, -, -, -, -, -, htm⟩ := Search.mapOrder_ok P hm
  have hmac : Evaluate.macs e.1 = operations n.node.layer := by
    rw [← s6, ← e3, ← eL]
    rfl
  refine ⟨hmac, fun op hop hne => ?_⟩
  have hop' : op ∈ t.ops := by rw [e1]; exact hop
  obtain ⟨m1, m2, m3, m4, -⟩ := htm op hop'
  obtain ⟨-, -, hpos⟩ := R.tm op (by rw [k1]; exact hop')
  have hlt : 0 < (tm op).length := by rw [m2]; exact hpos
  have hs : 0 ≤ e.1.L.dimSizes.values.prod := by
    rw [eL, e3]
    refine List.prod_nonneg fun x hx => ?_
    obtain ⟨y, hy, rfl⟩ := List.mem_map.1 hx
    obtain ⟨k, -, hk⟩ := I.layer.whole y hy
    rw [hk]
    positivity
  obtain ⟨it, p, w1, w2, w3⟩ := first_reads R.toMapped hs (by rw [k1]; exact hop') hne
  refine ⟨(tm op)[0], p.moves.rdToLow, ?_, ?_, ?_, w3⟩
  · simp only [lowest, bind, Except.bind, ht, m4, ha, List.getElem?_eq_getElem hlt]
  · intro x hx
    have hin : x ∈ Engine.toAlloc ord := by
      rw [← m1]
      exact List.mem_flatten.2 ⟨_, List.getElem_mem hlt, hx⟩
    obtain ⟨k, hk, hk'⟩ := R.whole x hin
    rw [hk]
    exact_mod_cast hk'
  · simp only [reads, bind, Except.bind, w1, w2]

/-! ### Unrollings in the macro -/

omit [LinearOrder D] in
theorem prod_pair {X : Type} (f : X → ℚ) {k k' : OA} (hne : k ≠ k') : ∀ {d : Dict OA X}, d.WF →
    ((d.filter fun e => decide (e.1 = k ∨ e.1 = k')).map fun e => f e.2).prod = ((d.get? k).map f).getD 1 * ((d.get? k').map f).getD 1
  | [], _ => by simp [Dict.get?_nil]
  | e :: t, h => by
    have h' : (e.1 :: t.map Prod.fst).Nodup := h
    obtain ⟨h1, h2⟩ := List.nodup_cons.1 h'
    have ih := prod_pair f hne (d := t) h2
    have hn : Dict.get? t e.1 = none := (Dict.get?_eq_none_iff _ _).2 h1
    rw [Dict.get?_cons, Dict.get?_cons]
    by_cases e1 : e.1 = k
    · have e2 : e.1 ≠ k' := fun h => hne (e1.symm.trans h)
      rw [if_pos e1, if_neg e2, List.filter_cons, if_pos (by simp [e1]), List.map_cons, List.prod_cons, ih, ← e1, hn]
      simp
    · by_cases e2 : e.1 = k'
      · rw [if_neg e1, if_pos e2, List.filter_cons, if_pos (by simp [e2]), List.map_cons, List.prod_cons, ih, ← e2, hn]
        simp [mul_comm]
      · rw [if_neg e1, if_neg e2, List.filter_cons, if_neg (by simp [e1, e2]), ih]

/-- The unrollings of a generated mapping in the macro. -/
theorem unrollings {K : Chip OA} {b : AccD OA} {l : Whole.LayerIn D} {sm : SM OA D} {rl : Operand → List D} {rels : List (Relation D)} (I : InputOk b l sm rl rels)
    (hk : ∀ oa, oa ∈ sm.keys ↔ oa ∈ b.sizes.keys) (C : ChipOk K b) :
    ∃ w v, sm.get? K.wlDim = some w ∧ sm.get? K.blDim = some v ∧ 1 ≤ (w.map Prod.snd).prod ∧ (w.map Prod.snd).prod ≤ K.arr.wl ∧
      1 ≤ (v.map Prod.snd).prod ∧ (v.map Prod.snd).prod ≤ K.arr.bl ∧ inMacro K sm = (w.map Prod.snd).prod * (v.map Prod.snd).prod ∧
      (∀ x ∈ w, 1 ≤ x.2) ∧ ∀ x ∈ v, 1 ≤ x.2 := by
  have hget : ∀ oa s, b.sizes.get? oa = some s → ∃ w, sm.get? oa = some w ∧ 1 ≤ (w.map Prod.snd).prod ∧ (w.map Prod.snd).prod ≤ s ∧ ∀ x ∈ w, 1 ≤ x.2 := by
    intro oa s hs
    have hin : oa ∈ sm.keys := (hk oa).2 (List.mem_map.2 ⟨_, Dict.mem_of_get? hs, rfl⟩)
    cases hg : sm.get? oa with
    | none => exact absurd hin ((Dict.get?_eq_none_iff _ _).1 hg)
    | some w =>
      have hm := Dict.mem_of_get? hg
      refine ⟨w, rfl, ?_, I.array _ hm s hs, fun x hx => by
        obtain ⟨n, h1, h2⟩ := I.mapping.whole _ hm x hx
        rw [h2]
        exact_mod_cast h1⟩
      have hone : ∀ ws : List (D × ℚ), (∀ x ∈ ws, ∃ n : ℕ, 1 ≤ n ∧ x.2 = n) → 1 ≤ (ws.map Prod.snd).prod := by
        intro ws
        induction ws with
        | nil => simp
        | cons x t ih =>
          intro h
          obtain ⟨n, h1, h2⟩ := h x List.mem_cons_self
          have ih := ih fun y hy => h y (List.mem_cons_of_mem _ hy)
          rw [List.map_cons, List.prod_cons, h2]
          have : (1 : ℚ) ≤ n := by exact_mod_cast h1
          nlinarith
      exact hone w (I.mapping.whole _ hm)
  obtain ⟨w, w1, w2, w3, w4⟩ := hget _ _ C.wl
  obtain ⟨v, v1, v2, v3, v4⟩ := hget _ _ C.bl
  refine ⟨w, v, w1, v1, w2, w3, v2, v3, ?_, w4, v4⟩
  unfold inMacro
  rw [prod_pair (fun l : Dict D ℚ => (l.map Prod.snd).prod) C.dims I.mapping.wf.1, w1, v1]
  rfl

/-! ### Rows of diagonal mappings -/

/-- Every entry of every table is at least one. -/
def AtLeastOne {D : Type} (t : Dict D (Dict D ℚ)) : Prop := ∀ e ∈ t, ∀ x ∈ e.2, 1 ≤ x.2

theorem AtLeastOne.set {D : Type} [DecidableEq D] {t : Dict D (Dict D ℚ)} (h : AtLeastOne t) (k : D) {v : Dict D ℚ} (hv : ∀ x ∈ v, 1 ≤ x.2) : AtLeastOne (t.set k v) := by
  intro e he
  rcases (SpatialGen.mem_set he).symm with rfl | he
  · exact hv
  · exact h e he

theorem pairs_one {D : Type} [DecidableEq D] (ir : List D) : ∀ (pairs : List (D × D)) (s : Dict D (Dict D ℚ) × Dict D D), AtLeastOne s.1 →
    AtLeastOne (pairs.foldl (Imc.prStep ir) s).1
  | [], _, h => h
  | p :: t, s, h => by
    refine pairs_one ir t _ ?_
    unfold Imc.prStep
    split <;> exact h.set _ (by simp)

theorem wordlines_one {D : Type} [DecidableEq D] (link : Dict D D) {wl : Dict D ℚ} (hwl : ∀ x ∈ wl, 1 ≤ x.2) : ∀ (ws : List D) (t r : Dict D (Dict D ℚ)), AtLeastOne t →
    Imc.wlLoop link wl t ws = .ok r → AtLeastOne r
  | [], t, r, h, hr => by cases hr; exact h
  | w :: ws, t, r, h, hr => by
    unfold Imc.wlLoop at hr
    split at hr
    · cases hr
    · rename_i t' ht
      refine wordlines_one link hwl ws t' r ?_ hr
      unfold Imc.wlStep at ht
      split at ht
      · cases ht
      · split at ht
        · cases ht; exact h
        · rename_i f hf
          have hf := hwl _ (Dict.mem_of_get? hf)
          split at ht
          · cases ht
          · rename_i t0 ht0
            have h0 := h _ (Dict.mem_of_get? ht0)
            split at ht
            · cases ht
              refine h.set _ fun x hx => ?_
              rcases (SpatialGen.mem_set hx).symm with rfl | hx
              · exact hf
              · exact h0 x hx
            · split at ht
              · cases ht
              · rename_i v hv
                have hv := h0 _ (Dict.mem_of_get? hv)
                cases ht
                refine h.set _ fun x hx => ?_
                rcases (SpatialGen.mem_set hx).symm with rfl | hx
                · show 1 ≤ v * f
                  have h1 : 1 ≤ v := hv
                  have h2 : 1 ≤ f := hf
                  nlinarith
                · exact h0 x hx

theorem extra_nonneg {D : Type} [DecidableEq D] {t : Dict D (Dict D ℚ)} (h : AtLeastOne t) {d : D} {x : ℚ} (hx : Imc.extra t d = .ok x) : 0 ≤ x := by
  unfold Imc.extra at hx
  split at hx
  · cases hx; exact le_rfl
  · rename_i t0 ht
    split at hx
    · cases hx
    · rename_i e _
      cases hx
      have := h _ (Dict.mem_of_get? ht) e List.mem_cons_self
      linarith

theorem rows_one {D : Type} [DecidableEq D] {t : Dict D (Dict D ℚ)} (h : AtLeastOne t) : ∀ (l : List (D × ℚ)) (x y : ℚ) (r : ℚ × ℚ), (∀ e ∈ l, 1 ≤ e.2) → 0 ≤ x →
    Imc.rowsLoop t l x y = .ok r → x * (l.map Prod.snd).prod ≤ r.1
  | [], x, y, r, _, _, hr => by cases hr; simp
  | (d, s) :: l, x, y, r, hl, hx, hr => by
    unfold Imc.rowsLoop at hr
    split at hr
    · cases hr
    · rename_i z hz
      have hz := extra_nonneg h hz
      have hs : 1 ≤ s := hl _ List.mem_cons_self
      have ih := rows_one h l _ _ r (fun e he => hl e (List.mem_cons_of_mem _ he)) (by positivity) hr
      rw [List.map_cons, List.prod_cons]
      refine le_trans ?_ ih
      have hp : 0 ≤ (l.map Prod.snd).prod := List.prod_nonneg fun e he => by
        obtain ⟨q, hq, rfl⟩ := List.mem_map.1 he
        exact le_trans zero_le_one (hl q (List.mem_cons_of_mem _ hq))
      have : x * s ≤ x * (s + z) := mul_le_mul_of_nonneg_left (by linarith) hx
      calc x * (s * (l.map Prod.snd).prod) = x * s * (l.map Prod.snd).prod := by ring
        _ ≤ _ := mul_le_mul_of_nonneg_right this hp

/-- Rows are never fewer than the unrollings along the bitlines, also when more are needed because inputs are shared along a diagonal. -/
theorem rows_ge {D : Type} [DecidableEq D] {ir : List D} {pairs : List (D × D)} {wl bl : Dict D ℚ} {dims : List D} {d : Int × Int × ℚ}
    (h : Imc.mappedDims ir pairs (some wl) (some bl) dims = .ok d) (hwl : ∀ x ∈ wl, 1 ≤ x.2) (hbl : ∀ x ∈ bl, 1 ≤ x.2) (hd : dims.length = bl.length) :
    (bl.map Prod.snd).prod ≤ d.1 := by
  unfold Imc.mappedDims at h
  simp only at h
  split at h
  · cases h
    exact Int.le_ceil _
  · split at h
    · cases h
    · rename_i r hr
      cases h
      unfold Imc.mappedRows at hr
      simp only [Option.getD_some] at hr
      split at hr
      · cases hr
      · rename_i t ht
        have T := wordlines_one _ hwl _ _ _ (pairs_one ir pairs ([], []) (by simp [AtLeastOne])) ht
        split at hr
        · split at hr
          · cases hr
          · rename_i size hsize
            obtain ⟨x, rfl⟩ := List.length_eq_one_iff.1 hd.symm
            cases hsize
        · split at hr
          · cases hr
          · rename_i q hq
            cases hr
            have := rows_one T _ _ _ q (fun e he => ?_) zero_le_one hq
            · rw [one_mul] at this
              have hz : (dims.zip (bl.map Prod.snd)).map Prod.snd = bl.map Prod.snd := by
                rw [List.map_snd_zip]
                rw [List.length_map, hd]
              rw [hz] at this
              exact this.trans (Int.le_ceil _)
            · have := (List.of_mem_zip he).2
              obtain ⟨y, hy, hy'⟩ := List.mem_map.1 this
              rw [← hy']
              exact hbl y hy

/-! ### Energy -/

theorem layer_ge (a : Imc.Arr) (ht : a.tech.NonNeg) (hadc : 0 ≤ a.adc.2.2) (hok : ∃ r, Imc.getArea a = .ok r) (rows : Nat) (cols times pre : ℚ) (hc0 : 0 ≤ cols)
    (htimes : 0 ≤ times) (hpre : 0 ≤ pre) :
    ∃ e, Imc.layerEnergy a rows cols times pre = some e ∧
      Imc.multE a.tech * ((if a.aimc then a.wp * a.wl * rows else a.bs * a.wp * a.wl * a.bl : Nat) : ℚ) * ((a.act : ℚ) / a.bs) * times ≤ total e := by
  obtain ⟨hp, k, hk⟩ := (Imc.area_ok_iff a).1 hok
  have hpv1 : 1 ≤ Imc.pvIn a := by rw [hk]; exact Nat.one_le_two_pow
  have h3 := Imc.pvAdders_nonneg (Imc.pvIn a) (Imc.pvPrec a) hpv1
  have hnd := ht.nd2Cap
  have hxo := ht.xor2Cap
  have hdf := ht.dffCap
  have hbc := ht.blCap
  have hE : 0 ≤ Imc.adderE a.tech := by unfold Imc.adderE; positivity
  have hR : 0 ≤ Imc.regE a.tech := by unfold Imc.regE; positivity
  have hD : 0 ≤ Imc.dacE a := by unfold Imc.dacE; split; exact le_refl _; positivity
  have hser : (0 : ℚ) ≤ (a.act : ℚ) / a.bs := by positivity
  obtain ⟨tree, htree, ht0⟩ : ∃ tree, (if a.aimc then some 0 else Imc.treeEnergy a.tech a.wp rows (Nat.log 2 a.bl)) = some tree ∧ 0 ≤ tree := by
    by_cases ha : a.aimc = true
    · exact ⟨0, by simp [ha], le_rfl⟩
    · rw [if_neg ha]
      obtain ⟨e, e', h5, -, h6, -⟩ := Imc.tree_energy_mono a.tech hnd hxo a.wp (Nat.log 2 a.bl) (le_refl rows)
      exact ⟨e, h5, h6⟩
  unfold Imc.layerEnergy
  simp only
  rw [htree]
  refine ⟨_, rfl, ?_⟩
  have ite : ∀ (p : Prop) [Decidable p] {x y : ℚ}, 0 ≤ x → 0 ≤ y → 0 ≤ if p then x else y := by
    intro p _ x y hx hy
    split_ifs <;> assumption
  unfold total
  simp only [List.map_cons, List.map_nil, List.sum_cons, List.sum_nil]
  have q1 : 0 ≤ if a.aimc = true then Imc.dacE a * rows * ((a.act : ℚ) / a.bs) * times else 0 := ite _ (by positivity) le_rfl
  have q2 : 0 ≤ if a.aimc = true then a.adc.2.2 * a.wp * cols * ((a.act : ℚ) / a.bs) * times else 0 := ite _ (by positivity) le_rfl
  have q3 : 0 ≤ if a.aimc = true then (a.tech.blCap * a.tech.vdd ^ 2 * a.wp) * cols * a.bl * ((a.act : ℚ) / a.bs) * times else 0 := ite _ (by positivity) le_rfl
  have q4 : 0 ≤ if a.aimc = true then 0 else tree * (a.bs * cols) * ((a.act : ℚ) / a.bs) * times := ite _ le_rfl (by positivity)
  have q5 : 0 ≤ Imc.adderE a.tech * Imc.pvAdders (Imc.pvIn a) (Imc.pvPrec a) * cols * ((a.act : ℚ) / a.bs) * times := by positivity
  have q6 : 0 ≤ if a.bs = a.act then 0 else (Imc.adderE a.tech + Imc.regE a.tech) * Imc.accPrec a * cols * ((a.act : ℚ) / a.bs) * times := ite _ le_rfl (by positivity)
  linarith

omit [DecidableEq OA] in
theorem precharge_nonneg {D : Type} [DecidableEq D] (K : Chip OA) (ht : K.arr.tech.NonNeg) (hw : 0 ≤ K.arr.tech.wlCap) (r ir : List D) {loops : List (D × ℚ)} {rd : ℚ}
    (hl : ∀ x ∈ loops, 1 ≤ x.2) (hr : 0 ≤ rd) : 0 ≤ (precharge K.arr K.cellsSize r ir loops rd).1 := by
  have hi : 0 ≤ interval ir loops := by
    induction loops with
    | nil => exact zero_le_one
    | cons x t ih =>
      unfold interval
      have := hl x List.mem_cons_self
      split_ifs
      · exact mul_nonneg (by linarith) (ih fun y hy => hl y (List.mem_cons_of_mem _ hy))
      · exact zero_le_one
  have hbc := ht.blCap
  unfold precharge
  simp only
  split_ifs
  · positivity
  · exact le_rfl

/-- The energy of the array as it is computed. -/
theorem arrayEnergy_cases {K : Chip OA} {ord : List D → List D} {b : AccD OA} {c : Acc OA} {n : LNode OA D} {sm : SM OA D} {j : Job D} {p : List (String × ℚ)} :
    arrayEnergy K ord b c n sm j = .ok p ↔ ∃ d loops rd, Imc.mappedDims (n.node.layer.rel n.weight).ir (n.node.layer.rel n.act).pr.values (sm.get? K.wlDim)
      (sm.get? K.blDim) (ord ((sm.get? K.blDim).getD []).keys) = .ok d ∧ inMacro K sm ≠ 0 ∧ lowest b c n sm j n.weight = .ok loops ∧ reads c j n.weight = .ok rd ∧
      Imc.layerEnergy K.arr d.1.toNat d.2.2 ((Evaluate.macs j : ℚ) / inMacro K sm)
        (precharge K.arr K.cellsSize (n.node.layer.rel n.weight).r (n.node.layer.rel n.weight).ir loops rd).1 = some p := by
  unfold arrayEnergy
  simp only [bind, Except.bind]
  cases hd : Imc.mappedDims (n.node.layer.rel n.weight).ir (n.node.layer.rel n.act).pr.values (sm.get? K.wlDim)
      (sm.get? K.blDim) (ord ((sm.get? K.blDim).getD []).keys) with
  | error e => simp
  | ok d =>
    by_cases hz : inMacro K sm = 0
    · simp [hz]
    · simp only [if_neg hz]
      cases hl : lowest b c n sm j n.weight with
      | error e => simp
      | ok loops =>
        cases hr : reads c j n.weight with
        | error e => simp
        | ok rd =>
          simp only [Except.ok.injEq, exists_eq_left', ne_eq, hz, not_false_eq_true, true_and]
          cases he : Imc.layerEnergy K.arr d.1.toNat d.2.2 ((Evaluate.macs j : ℚ) / inMacro K sm)
            (precharge K.arr K.cellsSize (n.node.layer.rel n.weight).r (n.node.layer.rel n.weight).ir loops rd).1 with
          | none => simp [he]
          | some e => simp [he]

end Verif.ImcCall
