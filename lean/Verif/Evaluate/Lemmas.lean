import Verif.Evaluate.Spec
import Verif.Latency.Loading
import Verif.SpatialInternal.Props

/-! No step of the evaluation fails. -/

namespace Verif.Evaluate

open Cme (Dir FourWay)
open MapInfo
open Decouple (TDim decouple layerEnv pyGet)
open LayerNode (Layer Rel Relation operandSizeElem calcTensorDim lookup)
open Latency (Operand Key)
open Transfer (WholeLoops FromNest)

variable {Dim : Type} [DecidableEq Dim]

/-! ### One operand -/

section operand
variable {c : Cfg Dim} {rl : List Dim} {rels : List (Relation Dim)} (hv : Shape c rl rels)
  (hp : ∀ r ∈ rels, ∃ m, c.L.prSizes.get? r.dim1 = some m ∧ 0 < m)

private theorem lookup_ok {V : Type} {d : Dict Dim V} {k : Dim} (h : k ∈ d.keys) : ∃ v, lookup d k = .ok v := by
  unfold lookup
  cases hg : d.get? k with
  | none => exact absurd h ((Dict.get?_eq_none_iff d k).1 hg)
  | some v => exact ⟨v, rfl⟩

include hv

include hp in
theorem size_ok : ∃ s, operandSizeElem c.L c.rel = .ok s := by
  have hr : ∀ d ∈ c.rel.r, ∃ v, lookup c.L.dimSizes d = .ok v := by
    intro d hd
    refine lookup_ok ?_
    rcases hv.cases with ⟨_, _, h2, _⟩ | ⟨_, h1, h2, _⟩
    · rw [h2, List.mem_filter] at hd
      refine hv.dims d hd.1 (fun r hr e => ?_)
      have := (LayerNode.mem_prList rels hv.names d).2 ⟨r, hr, Or.inl e.symm⟩
      simp [this] at hd
    · rw [h2, List.mem_filter] at hd
      exact hv.dims d hd.1 (fun r hr e => h1 r hr (e ▸ hd.1))
  have hq : ∀ d ∈ c.rel.pr.keys, ∃ v, calcTensorDim c.L c.L.dimSizes d = .ok v := by
    intro d hd
    obtain ⟨⟨k, xy⟩, he, rfl⟩ := List.mem_map.1 hd
    obtain ⟨_, r, hr, rfl, rfl⟩ := hv.lut_mem (k := k) (xy := xy) he
    obtain ⟨k2, k3, k1, kc⟩ := hv.related r hr
    have hs := LayerNode.extractPr_spec rels hv.names
    have e1 : c.L.pi.prLoop.get? r.dim1 = some (r.dim2, r.dim3) := by
      rw [hv.pi]
      refine Dict.get?_of_mem ?_ ?_
      · rw [hs.1]; unfold Dict.WF Dict.keys; simpa [Function.comp_def] using hv.names
      · rw [hs.1]; exact List.mem_map.2 ⟨r, hr, rfl⟩
    have e2 : c.L.pi.scaling.get? r.dim1 = some (r.coef2, r.coef3) := by
      rw [hv.pi]
      refine Dict.get?_of_mem ?_ ?_
      · rw [hs.2.1]; unfold Dict.WF Dict.keys; simpa [Function.comp_def] using hv.names
      · rw [hs.2.1]; exact List.mem_map.2 ⟨r, hr, rfl⟩
    obtain ⟨a, ha⟩ := lookup_ok k2
    obtain ⟨b, hb⟩ := lookup_ok k3
    obtain ⟨m, hm, _⟩ := hp r hr
    have e0 : c.L.dimSizes.get? r.dim1 = none := (Dict.get?_eq_none_iff _ _).2 k1
    have hg : ((Int.gcd (r.coef2 : ℤ) (r.coef3 : ℤ) : ℕ) : ℤ) ≠ 0 := by
      rw [Int.gcd_natCast_natCast]
      have := Nat.gcd_pos_of_pos_left r.coef3 kc
      omega
    have s1 : lookup c.L.pi.scaling r.dim1 = .ok (r.coef2, r.coef3) := by unfold lookup; rw [e2]
    have s2 : lookup c.L.prSizes r.dim1 = .ok m := by unfold lookup; rw [hm]
    unfold calcTensorDim
    rw [e0, e1]
    simp only [bind, Except.bind, ha, hb, s1, LayerNode.calcPr, if_neg hg, s2]
    exact ⟨_, rfl⟩
  obtain ⟨rs, h1⟩ := mapM_of hr
  obtain ⟨ps, h2⟩ := mapM_of hq
  unfold operandSizeElem
  simp only [bind, Except.bind, h1, h2]
  exact ⟨_, rfl⟩

private theorem effective_ok (l : List ℚ) (hl : l.length ≤ c.tm.length + 1) : ∃ r, effective c l = .ok r ∧ r.length = l.length := by
  have h1 : ∀ x ∈ c.tm.flatten, 1 ≤ x.2 := fun x hx => (hv.loops x (List.mem_append_left _ hx)).2
  have : ∃ r, effective c l = .ok r := by
    unfold effective
    refine mapM_of (fun x hx => ?_)
    obtain ⟨q, i⟩ := x
    have hi : i < l.length := by
      have := List.mem_zipIdx hx
      omega
    obtain ⟨a, ha, ha1⟩ := topLoopSize_get c (fun d => decide (d ∈ c.rel.r)) h1 i (by omega)
    simp only [bind, Except.bind]
    rw [pyGet_ok ha]
    simp only [fdiv, if_neg (show a ≠ 0 by intro h0; rw [h0] at ha1; norm_num at ha1)]
    exact ⟨_, rfl⟩
  obtain ⟨r, hr⟩ := this
  refine ⟨r, hr, ?_⟩
  have := (mapM_get hr).1
  simpa using this

include hp in
/-- The tables of one operand. -/
theorem opInfo_ok (out : Bool) (hl : 0 < c.tm.length) (hst : c.stationary ≠ 0)
    (hbw : out = false → ∀ lvl, lvl < c.tm.length → (c.bw lvl).isSome) :
    ∃ i, opInfo c out = .ok i ∧ decouple (layerEnv c.L c.rel) c.su = .ok i.reform ∧ i.reform.length = c.tm.length + 1 ∧
      (if out then outputMoves c else inputMoves c) = .ok i.moves ∧ i.moves.length = c.tm.length ∧ i.bits.length = c.tm.length + 1 ∧
      i.effBits.length = c.tm.length + 1 := by
  have hlen := hv.levels
  have hsu : ∀ l ∈ c.su.flatten, 1 ≤ l.2 := fun l hl => (hv.loops l (List.mem_append_right _ hl)).2
  obtain ⟨rs, hrs⟩ := hv.decouple_ok hp c.su hsu
  have hsplit := Decouple.decouple_split hv.lutWF hv.uniq hrs
  have ls := split_length hsplit
  have ns : ∀ x ∈ rs.flatten, x.2 ≠ 0 := split_ne hsplit (fun l hl h0 => by have := hsu l hl; rw [h0] at this; linarith)
  obtain ⟨sc, hsc⟩ : ∃ sc, SpatialInternal.serveScope (isR c) rs = .ok sc := by
    refine SpatialInternal.stepRatios_total _ (fun x hx => ?_)
    unfold SpatialInternal.unitDuplicate SpatialInternal.above at hx
    obtain ⟨n, _, rfl⟩ := List.mem_map.1 hx
    refine prod_ne (fun y hy => ?_)
    rw [SpatialInternal.unrollIr_eq] at hy
    obtain ⟨l, hl, rfl⟩ := List.mem_map.1 (List.mem_of_mem_drop hy)
    exact selP_ne (fun d => !isR c d) (fun x hx => ns x (List.mem_flatten.2 ⟨l, hl, hx⟩))
  obtain ⟨t, ht, lra, _, _, lun, _⟩ := hv.tables_ok hp
  obtain ⟨prec, hprec, lprec⟩ : ∃ prec, precisions c (if out then some (psumFlags (isIr c) t.ra) else none) = .ok prec ∧
      prec.length = c.tm.length + 1 := by
    cases out
    · exact ⟨_, rfl, by simp⟩
    · have hfl := psum_length (isIr c) t.ra (by intro hc; rw [hc] at lra; simp at lra; omega)
      have : ∃ prec, precisions c (some (psumFlags (isIr c) t.ra)) = .ok prec := by
        refine mapM_of (fun i hi => ?_)
        rw [List.mem_range] at hi
        have : i < (psumFlags (isIr c) t.ra).length := by omega
        rw [pyGet_ok (List.getElem?_eq_getElem this)]
        exact ⟨_, rfl⟩
      obtain ⟨prec, h⟩ := this
      refine ⟨prec, h, ?_⟩
      have := (mapM_get h).1
      rwa [List.length_range] at this
  obtain ⟨bits, hbits⟩ : ∃ bits, t.unrolled.zipIdx.mapM (fun x => do
      let p ← pyGet prec x.2
      return (x.1 : ℚ) * p : ℤ × ℕ → Except PyErr ℚ) = .ok bits := by
    refine mapM_of (fun x hx => ?_)
    obtain ⟨q, i⟩ := x
    have hi : i < prec.length := by
      have := List.mem_zipIdx hx
      omega
    simp only [bind, Except.bind]
    rw [pyGet_ok (List.getElem?_eq_getElem hi)]
    exact ⟨_, rfl⟩
  have lbits : bits.length = c.tm.length + 1 := by
    have := (mapM_get hbits).1
    rw [List.length_zipIdx] at this
    omega
  obtain ⟨e1, he1, _⟩ := effective_ok hv (t.unrolled.map fun (n : ℤ) => (n : ℚ)) (by rw [List.length_map]; omega)
  obtain ⟨e2, he2, le2⟩ := effective_ok hv bits (by omega)
  obtain ⟨ps, hps, lps⟩ : ∃ ps, (if out then outputMoves c else inputMoves c) = .ok ps ∧ ps.length = c.tm.length := by
    cases out
    · exact input_total hv hp hl hst (hbw rfl)
    · obtain ⟨s, hs⟩ := size_ok hv hp
      exact output_total hv hp hl hst hs
  refine ⟨⟨rs, ps, bits, e2⟩, ?_, hrs, ls.trans hlen, hps, lps, lbits, le2.trans lbits⟩
  unfold opInfo
  rw [hrs]
  simp only [bind, Except.bind] at hbits ⊢
  rw [hsc, ht]
  simp only [hprec, hbits, he1, he2]
  cases out
  · simp only [Bool.false_eq_true, if_false] at hps ⊢
    rw [hps]; rfl
  · simp only [if_true] at hps ⊢
    rw [hps]; rfl

end operand

/-! ### All operands -/

section ready
variable {h : Hw} {j : Job Dim} {rl : Operand → List Dim} {rels : List (Relation Dim)} {loops array : List (Dim × ℚ)}

theorem bw_some {m : Mem} {op : Operand} {lv : Nat} {d : Dir} (hs : ∃ p ∈ m.ports, (op, lv, d) ∈ p.served) :
    ∃ p ∈ m.ports, ∀ f, m.bw f op d = some (f p) := by
  obtain ⟨p, hp, hk⟩ := hs
  cases hf : m.ports.find? (fun p => p.served.any fun k => decide (k.1 = op ∧ k.2.2 = d)) with
  | none =>
    rw [List.find?_eq_none] at hf
    refine absurd ?_ (hf p hp)
    rw [List.any_eq_true]
    exact ⟨_, hk, by simp⟩
  | some q =>
    refine ⟨q, List.mem_of_find?_eq_some hf, fun f => ?_⟩
    unfold Mem.bw; rw [hf]; rfl

theorem bw_cases (m : Mem) (op : Operand) (d : Dir) : (∀ f, m.bw f op d = none) ∨ ∃ p ∈ m.ports, ∀ f, m.bw f op d = some (f p) := by
  cases hf : m.ports.find? (fun p => p.served.any fun k => decide (k.1 = op ∧ k.2.2 = d)) with
  | none => left; intro f; unfold Mem.bw; rw [hf]; rfl
  | some q =>
    right
    refine ⟨q, List.mem_of_find?_eq_some hf, fun f => ?_⟩
    unfold Mem.bw; rw [hf]; rfl

theorem mem_ports {m : Mem} (hm : m ∈ h.mems) {p : Port} (hp : p ∈ m.ports) : p ∈ h.ports := List.mem_flatMap.2 ⟨m, hm, hp⟩

variable (R : Mapped h j rl rels loops array)
include R

theorem stationary_ne {op : Operand} (ho : op ∈ j.ops) : j.stationary op ≠ 0 := by
  obtain ⟨k, hk⟩ := R.stationary op ho
  obtain ⟨n, hn, h1⟩ := (R.whole.sub (a := loops.take k) (fun l hl => List.mem_of_mem_take hl)).iters
  rw [hk, hn]
  exact_mod_cast (by omega : n ≠ 0)

/-- What is known about the tables of one operand. -/
structure Good (h : Hw) (j : Job Dim) (int : Bool) (op : Operand) (i : OpInfo Dim) : Prop where
  reform : decouple (layerEnv j.L (j.rel op)) (if int then j.suInt op else j.su op) = .ok i.reform
  reformLength : i.reform.length = (j.tm op).length + 1
  moves : (if op = .out then outputMoves (cfg h j int op) else inputMoves (cfg h j int op)) = .ok i.moves
  movesLength : i.moves.length = (j.tm op).length
  bits : i.bits.length = (j.tm op).length + 1
  effBits : i.effBits.length = (j.tm op).length + 1

theorem opInfo_good (int : Bool) {op : Operand} (ho : op ∈ j.ops) :
    ∃ i, opInfo (cfg h j int op) (decide (op = .out)) = .ok i ∧ Good h j int op i := by
  obtain ⟨-, hlen, hpos⟩ := R.tm op ho
  obtain ⟨i, h1, h2, h3, h4, h5, h6, h7⟩ := opInfo_ok (R.shape int op ho) R.sizes (decide (op = .out)) (by
      change 0 < (j.tm op).length; omega) (stationary_ne R ho) (fun hout lvl hl => by
    have hne : op ≠ .out := by simpa using hout
    have hl' : lvl < (h.levels op).length := by rw [← hlen]; exact hl
    have hm := List.getElem?_eq_getElem hl'
    obtain ⟨p, hp, hf⟩ := bw_some (R.serves op ho lvl _ hm .rdToLow (by simp [needed, hne]))
    simp only [cfg, Hw.bw, hm, Option.bind_some, hf, Option.map_some, Option.isSome_some])
  refine ⟨i, h1, h2, h3, ?_, h5, h6, h7⟩
  by_cases hop : op = .out
  · simpa [hop] using h4
  · simpa [hop] using h4

theorem mapping_ok (int : Bool) : ∃ it, mapping h j int = .ok it ∧ it.map Prod.fst = j.ops ∧
    ∀ op ∈ j.ops, ∃ i, it.get? op = some i ∧ Good h j int op i := by
  have : ∀ ops : List Operand, (∀ op ∈ ops, op ∈ j.ops) → ops.Nodup →
      ∃ it : Dict Operand (OpInfo Dim), ops.mapM (fun op => do
          let i ← opInfo (cfg h j int op) (decide (op = .out))
          return (op, i) : Operand → Except PyErr (Operand × OpInfo Dim)) = .ok it ∧ it.map Prod.fst = ops ∧
        ∀ op ∈ ops, ∃ i, it.get? op = some i ∧ Good h j int op i := by
    intro ops
    induction ops with
    | nil => intro _ _; exact ⟨[], rfl, rfl, by simp⟩
    | cons o os ih =>
      intro hs hn
      obtain ⟨it, h1, h2, h3⟩ := ih (fun x hx => hs x (List.mem_cons_of_mem _ hx)) (List.nodup_cons.1 hn).2
      obtain ⟨i, hi, hg⟩ := opInfo_good R int (hs o List.mem_cons_self)
      refine ⟨(o, i) :: it, ?_, by simp [h2], ?_⟩
      · rw [List.mapM_cons, h1]
        simp only [bind, Except.bind, hi]
        rfl
      · intro op hop
        rcases List.mem_cons.1 hop with rfl | hop
        · exact ⟨i, by rw [Dict.get?_cons, if_pos rfl], hg⟩
        · obtain ⟨i', hi', hg'⟩ := h3 op hop
          refine ⟨i', ?_, hg'⟩
          rw [Dict.get?_cons, if_neg, hi']
          intro e
          exact (List.nodup_cons.1 hn).1 (by rw [show o = op from e]; exact hop)
  exact this j.ops (fun _ h => h) R.ops

theorem bottom_ok {it : Dict Operand (OpInfo Dim)} (hk : it.map Prod.fst = j.ops)
    (hg : ∀ op ∈ j.ops, ∃ i, it.get? op = some i ∧ Good h j true op i) :
    ∃ z, SpatialInternal.checkBottom (it.map fun e => e.2.reform) = .ok z := by
  refine ⟨_, SpatialInternal.check_bottom_decoupled (j.ops.map fun op => (layerEnv j.L (j.rel op), j.suInt op)) _ array ?_ ?_ ?_⟩
  · intro hc
    have := R.out
    rw [List.map_eq_nil_iff] at hc
    rw [hc] at this; cases this
  · intro e he
    obtain ⟨op, ho, rfl⟩ := List.mem_map.1 he
    have hv := R.shape true op ho
    refine ⟨hv.lutWF, hv.uniq, ?_, R.array op ho⟩
    have := hv.levels
    intro hc
    simp only [cfg, if_true] at this
    rw [show j.suInt op = [] from hc] at this; simp at this
  · have hwf : it.WF := by unfold Dict.WF Dict.keys; rw [hk]; exact R.ops
    rw [← hk, List.map_map, List.forall₂_map_left_iff, List.forall₂_map_right_iff, List.forall₂_same]
    intro e he
    have ho : e.1 ∈ j.ops := hk ▸ List.mem_map.2 ⟨e, he, rfl⟩
    obtain ⟨i, hi, hgi⟩ := hg e.1 ho
    have : e.2 = i := by
      have := Dict.get?_of_mem hwf (show (e.1, e.2) ∈ it from he)
      rw [hi] at this; cases this; rfl
    rw [this]
    exact hgi.reform

theorem util_ok : checkUtil h j = .ok () := by
  have hplace : ∀ p ∈ places j, p.1 ∈ j.ops ∧ p.2 < (h.levels p.1).length := by
    intro p hp
    unfold places at hp
    obtain ⟨op, ho, hp⟩ := List.mem_flatMap.1 hp
    obtain ⟨lv, hl, rfl⟩ := List.mem_map.1 hp
    rw [List.mem_range] at hl
    exact ⟨ho, by rw [← (R.tm op ho).2.1]; exact hl⟩
  unfold checkUtil
  rw [if_neg, if_neg, if_neg]
  · simp only [List.any_eq_true, decide_eq_true_eq, not_exists, not_and, not_le]
    intro g hg p hp
    unfold groups at hg
    obtain ⟨m, hm, rfl⟩ := List.mem_map.1 hg
    rw [List.mem_filter, decide_eq_true_eq] at hp
    have := R.built.numbered m (List.mem_of_mem_filter hm) p hp.1
    rw [(R.tm p.1 hp.2).2.1]
    exact (List.getElem?_eq_some_iff.1 this).1
  · simp only [List.any_eq_true, decide_eq_true_eq, not_exists, not_and]
    intro p hp h0
    obtain ⟨ho, hl⟩ := hplace p hp
    unfold sizeOf at h0
    rw [List.getElem?_eq_getElem hl] at h0
    have := R.built.size _ (R.built.inside p.1 _ (List.getElem_mem hl))
    simp at h0
    exact this h0
  · simp only [List.any_eq_true, decide_eq_true_eq, not_exists, not_and, not_le]
    exact fun p hp => (hplace p hp).2

/-! ### Energy -/

omit R in
private theorem opAccess_ok (o : Energy.OpData) (ms : List Energy.Move) (n : Nat)
    (hm : ∀ (i : Nat) (m : Energy.Move), ms[i]? = some m → ∃ lv u, o.levels[n + i]? = some lv ∧ o.units[n + i + 1]? = some u ∧
      ∀ d, ∃ z, Energy.dirAccess m lv u d = .ok z) : ∃ a, Energy.opAccess o n ms = .ok a := by
  induction ms generalizing n with
  | nil => exact ⟨[], rfl⟩
  | cons m ms ih =>
    obtain ⟨lv, u, h1, h2, h3⟩ := hm 0 m rfl
    obtain ⟨a, ha⟩ := ih (n + 1) (fun i x hx => by
      have := hm (i + 1) x (by simpa using hx)
      rwa [show n + (i + 1) = n + 1 + i by omega] at this)
    obtain ⟨z1, e1⟩ := h3 .rdToLow
    obtain ⟨z2, e2⟩ := h3 .wrByLow
    obtain ⟨z3, e3⟩ := h3 .rdToHigh
    obtain ⟨z4, e4⟩ := h3 .wrByHigh
    rw [Nat.add_zero] at h1 h2
    unfold Energy.opAccess Energy.levelAccess
    simp only [h1, h2, e1, e2, e3, e4, ha]
    exact ⟨_, rfl⟩

omit R in
private theorem wordAccess_ok (ops : List (Operand × Energy.OpData)) (ho : ∀ e ∈ ops, ∃ a, Energy.opAccess e.2 0 e.2.moves = .ok a) :
    ∃ a, Energy.wordAccess ops = .ok a := by
  induction ops with
  | nil => exact ⟨[], rfl⟩
  | cons e es ih =>
    obtain ⟨a, ha⟩ := ho e List.mem_cons_self
    obtain ⟨t, ht⟩ := ih (fun x hx => ho x (List.mem_cons_of_mem _ hx))
    obtain ⟨k, o⟩ := e
    unfold Energy.wordAccess
    simp only [ha, ht]
    exact ⟨_, rfl⟩

omit R in
/-- Directions without a port carry no data. -/
private theorem amount_zero {int : Bool} {op : Operand} {i : OpInfo Dim} (hg : Good h j int op i) {lv : Nat} {p : Pattern}
    (hp : i.moves[lv]? = some p) (d : Dir) (hd : d ∉ needed op (decide (lv + 1 = (j.tm op).length))) : p.amount.get d = 0 := by
  have hmv := hg.moves
  by_cases ho : op = .out
  · rw [if_pos ho] at hmv
    obtain ⟨hlen, t, s, -, -, hall⟩ := outputMoves_get hmv
    have hl : lv < (j.tm op).length := by rw [← hg.movesLength]; exact (List.getElem?_eq_some_iff.1 hp).1
    obtain ⟨q, hq, hget⟩ := hall lv hl
    rw [hp] at hget
    cases hget
    subst ho
    by_cases ht : lv + 1 = (j.tm .out).length
    · have ht' : lv + 1 = (cfg h j int .out).tm.length := ht
      simp only [needed, ht, decide_true, if_true, List.append_nil, List.mem_cons, List.not_mem_nil, or_false, not_or] at hd
      rw [topCut, if_pos ht']
      cases d
      all_goals first | rfl | exact absurd rfl hd.1 | exact absurd rfl hd.2
    · exfalso
      simp [needed, ht] at hd
      cases d <;> simp at hd
  · rw [if_neg ho] at hmv
    obtain ⟨hlen, t, -, hall⟩ := inputMoves_get hmv
    have hl : lv < (j.tm op).length := by rw [← hg.movesLength]; exact (List.getElem?_eq_some_iff.1 hp).1
    obtain ⟨q, hq, hget⟩ := hall lv hl
    rw [hp] at hget
    cases hget
    obtain ⟨lo, hi, i, -, -, -, -, -, -, -, -, -, ha, -⟩ := inputPattern_unfold hq
    by_cases ht : lv + 1 = (j.tm op).length
    · have ht' : lv + 1 = (cfg h j int op).tm.length := ht
      simp [needed, ht, ho] at hd
      rw [topCut, if_pos ht']
      cases d
      · rfl
      · rfl
      · exact absurd rfl hd
      · change q.amount.wrByLow = 0
        rw [ha]; rfl
    · have ht' : ¬ lv + 1 = (cfg h j int op).tm.length := ht
      simp [needed, ht, ho] at hd
      rw [topCut, if_neg ht', ha]
      cases d
      · rfl
      · exact absurd rfl hd.2
      · exact absurd rfl hd.1
      · rfl

theorem energy_ok {fr : Dict Operand (OpInfo Dim)} (hk : fr.map Prod.fst = j.ops)
    (hg : ∀ op ∈ j.ops, ∃ i, fr.get? op = some i ∧ Good h j false op i) :
    ∃ en, Energy.energy (fr.map fun e => (e.1, opData h e.1 e.2)) h.macEnergy (macs j) = .ok en := by
  have hwf : fr.WF := by unfold Dict.WF Dict.keys; rw [hk]; exact R.ops
  have : ∃ a, Energy.wordAccess (fr.map fun e => (e.1, opData h e.1 e.2)) = .ok a := by
    refine wordAccess_ok _ (fun x hx => ?_)
    obtain ⟨e, he, rfl⟩ := List.mem_map.1 hx
    have ho : e.1 ∈ j.ops := hk ▸ List.mem_map.2 ⟨e, he, rfl⟩
    obtain ⟨i, hi, hgi⟩ := hg e.1 ho
    have hei : e.2 = i := by
      have := Dict.get?_of_mem hwf (show (e.1, e.2) ∈ fr from he)
      rw [hi] at this; cases this; rfl
    rw [hei]
    obtain ⟨-, hlen, -⟩ := R.tm e.1 ho
    refine opAccess_ok _ _ 0 (fun n m hm => ?_)
    simp only [opData, List.getElem?_map, Option.map_eq_some_iff] at hm
    obtain ⟨p, hp, rfl⟩ := hm
    have hn : n < (j.tm e.1).length := by rw [← hgi.movesLength]; exact (List.getElem?_eq_some_iff.1 hp).1
    have hl : n < (h.levels e.1).length := by omega
    have hmem := List.getElem?_eq_getElem hl
    have hu : n + 1 < (SpatialInternal.unitCount i.reform).length := by
      simp [SpatialInternal.unitCount, SpatialInternal.above, SpatialInternal.unrollTotal, hgi.reformLength]; omega
    refine ⟨_, _, by simp only [opData, List.getElem?_map, Nat.zero_add, hmem]; rfl,
      by simp only [opData, List.getElem?_map, Nat.zero_add, List.getElem?_eq_getElem hu]; rfl, fun d => ?_⟩
    have hin := R.built.inside e.1 _ (List.getElem_mem hl)
    unfold Energy.dirAccess
    rcases bw_cases (h.levels e.1)[n] e.1 d with hb | ⟨q, hq, hb⟩
    · simp only [hb]
      refine ⟨_, if_pos (amount_zero hgi hp d (fun hd => ?_))⟩
      rw [hlen] at hd
      obtain ⟨q, -, hf⟩ := bw_some (R.serves e.1 ho n _ hmem d hd)
      have hf := hf Port.bwMax
      rw [hb] at hf
      cases hf
    · simp only [hb]
      exact ⟨_, if_pos (R.built.bw q (mem_ports hin hq))⟩
  obtain ⟨a, ha⟩ := this
  unfold Energy.energy
  rw [ha]
  exact ⟨_, rfl⟩

/-! ### Stall -/

theorem fromNest {int : Bool} {op : Operand} (ho : op ∈ j.ops) {i : OpInfo Dim} (hg : Good h j int op i) {lv : Nat} {p : Pattern}
    (hp : i.moves[lv]? = some p) : FromNest loops p := by
  refine ⟨cfg h j int op, i.moves, lv, (R.tm op ho).1, R.total, R.stationary op ho, ?_, hp⟩
  have := hg.moves
  by_cases hop : op = .out
  · rw [if_pos hop] at this; exact Or.inr this
  · rw [if_neg hop] at this; exact Or.inl this

theorem served_in {p : Port} (hp : p ∈ h.ports) {k : Key} (hk : k ∈ p.served) : k.2.1 < (h.levels k.1).length := by
  obtain ⟨m, hm, hpm⟩ := List.mem_flatMap.1 hp
  have := R.built.numbered m hm _ (R.built.served m hm p hpm k hk)
  exact (List.getElem?_eq_some_iff.1 this).1

theorem pattern_some {int : Bool} {it : Dict Operand (OpInfo Dim)} (hg : ∀ op ∈ j.ops, ∃ i, it.get? op = some i ∧ Good h j int op i) {op : Operand}
    (ho : op ∈ j.ops) {lv : Nat} (hl : lv < (h.levels op).length) :
    ∃ i p, it.get? op = some i ∧ Good h j int op i ∧ i.moves[lv]? = some p ∧ pattern it op lv = some p := by
  obtain ⟨i, hi, hgi⟩ := hg op ho
  have : lv < i.moves.length := by rw [hgi.movesLength, (R.tm op ho).2.1]; exact hl
  refine ⟨i, _, hi, hgi, List.getElem?_eq_getElem this, ?_⟩
  unfold pattern
  rw [hi, Option.bind_some, List.getElem?_eq_getElem this]

theorem duties_ok {it : Dict Operand (OpInfo Dim)} (hg : ∀ op ∈ j.ops, ∃ i, it.get? op = some i ∧ Good h j true op i)
    {fl : Operand → List Bool} (hfl : ∀ op ∈ j.ops, (fl op).length = (j.tm op).length + 1) (ks : List Key)
    (hks : ∀ k ∈ ks, k.2.1 < (h.levels k.1).length) :
    ∃ ds, duties h j it fl ks = .ok ds ∧ ds.map Window.Duty.key = ks.filter (fun k => decide (k.1 ∈ j.ops)) ∧
      ∀ x ∈ ds, ∃ bw flags lv p d, FromNest loops p ∧ Transfer.duty x.key bw flags lv p d = .ok x := by
  induction ks with
  | nil => exact ⟨[], rfl, rfl, by simp⟩
  | cons k ks ih =>
    obtain ⟨ds, h1, h2, h3⟩ := ih (fun x hx => hks x (List.mem_cons_of_mem _ hx))
    have hl := hks k List.mem_cons_self
    by_cases ho : k.1 ∈ j.ops
    swap
    · refine ⟨ds, ?_, by simp [h2, ho], h3⟩
      unfold duties
      rw [if_neg ho, h1]
    obtain ⟨i, p, -, hgi, hpi, hpat⟩ := pattern_some R hg ho hl
    have hlen := hfl k.1 ho
    have htm := (R.tm k.1 ho).2.1
    have e1 := List.getElem?_eq_getElem (show k.2.1 < (fl k.1).length by omega)
    have e2 := List.getElem?_eq_getElem (show k.2.1 + 1 < (fl k.1).length by omega)
    have ha := Transfer.allowed_of e1 e2 p k.2.2
    obtain ⟨x, hx, hxk⟩ : ∃ x, Transfer.duty k (h.bw Port.bwMax k.1 k.2.1) (fl k.1) k.2.1 p k.2.2 = .ok x ∧ x.key = k := by
      unfold Transfer.duty
      rw [ha]
      exact ⟨_, rfl, rfl⟩
    refine ⟨x :: ds, ?_, by simp [h2, hxk, ho], ?_⟩
    · unfold duties
      rw [if_pos ho, hpat]
      simp only [bind, Except.bind, hx, h1]
      rfl
    · intro y hy
      rcases List.mem_cons.1 hy with rfl | hy
      · exact ⟨_, _, _, p, _, fromNest R ho hgi hpi, by rw [hxk]; exact hx⟩
      · exact h3 y hy

omit R in
theorem stallComb_ok {l : List (List (Window.Duty Key))} (hl : ∀ ds ∈ l, ∃ s, Window.portStall ds = .ok s) :
    ∃ r, Window.stallComb l = .ok r ∧ 0 ≤ r := by
  induction l with
  | nil => exact ⟨0, rfl, le_rfl⟩
  | cons a l ih =>
    obtain ⟨s, hs⟩ := hl a List.mem_cons_self
    obtain ⟨r, hr, h0⟩ := ih (fun x hx => hl x (List.mem_cons_of_mem _ hx))
    refine ⟨_, by unfold Window.stallComb; rw [hs, hr], le_max_of_le_right h0⟩

theorem ports_nodup {p : Port} (hp : p ∈ h.ports) : p.served.Nodup := (List.nodup_flatMap.1 R.built.once).1 p hp

theorem portStall_ok {ds : List (Window.Duty Key)} (hn : (ds.map Window.Duty.key).Nodup)
    (hd : ∀ x ∈ ds, ∃ bw flags lv p d, FromNest loops p ∧ Transfer.duty x.key bw flags lv p d = .ok x) :
    ∃ s, Window.portStall (Window.activities (· * j.cyclesPerOp) ds) = .ok s := by
  have hu := Transfer.port_sharing R.whole R.cycles hn hd
  generalize Window.activities (· * j.cyclesPerOp) ds = acts at hu
  unfold Window.portStall
  split
  · exact ⟨_, rfl⟩
  · exact ⟨_, rfl⟩
  · rename_i h1 h2
    rw [hu h1]
    exact ⟨_, rfl⟩

theorem stall_ok {it : Dict Operand (OpInfo Dim)} (hg : ∀ op ∈ j.ops, ∃ i, it.get? op = some i ∧ Good h j true op i)
    {fl : Operand → List Bool} (hfl : ∀ op ∈ j.ops, (fl op).length = (j.tm op).length + 1) :
    ∃ st, stall h j it fl = .ok st ∧ 0 ≤ st := by
  have hd : ∀ p ∈ h.ports, ∃ ds, duties h j it fl p.served = .ok ds ∧ ds.map Window.Duty.key = p.served.filter (fun k => decide (k.1 ∈ j.ops)) ∧
      ∀ x ∈ ds, ∃ bw flags lv p d, FromNest loops p ∧ Transfer.duty x.key bw flags lv p d = .ok x :=
    fun p hp => duties_ok R hg hfl p.served (fun k hk => served_in R hp hk)
  have : ∀ ps : List Port, (∀ p ∈ ps, p ∈ h.ports) → ∃ l, ps.mapM (fun p => duties h j it fl p.served) = .ok l ∧
      ∀ ds ∈ l, ∃ s, Window.portStall (Window.activities (· * j.cyclesPerOp) ds) = .ok s := by
    intro ps
    induction ps with
    | nil => intro _; exact ⟨[], rfl, by simp⟩
    | cons p ps ih =>
      intro hs
      obtain ⟨l, h1, h2⟩ := ih (fun x hx => hs x (List.mem_cons_of_mem _ hx))
      obtain ⟨ds, h3, h4, h5⟩ := hd p (hs p List.mem_cons_self)
      refine ⟨ds :: l, by rw [List.mapM_cons, h3, h1]; rfl, ?_⟩
      intro x hx
      rcases List.mem_cons.1 hx with rfl | hx
      · exact portStall_ok R (by rw [h4]; exact (ports_nodup R (hs p List.mem_cons_self)).filter _) h5
      · exact h2 x hx
  obtain ⟨l, h1, h2⟩ := this h.ports (fun _ h => h)
  obtain ⟨r, hr, h0⟩ := stallComb_ok (l := l.map (Window.activities (· * j.cyclesPerOp))) (fun ds hds => by
    obtain ⟨x, hx, rfl⟩ := List.mem_map.1 hds
    exact h2 x hx)
  refine ⟨r, ?_, h0⟩
  unfold stall
  rw [h1]
  exact hr

/-! ### Loading -/

omit R in
private theorem loadPorts_ok (info : Latency.Info) (ps : List Latency.Port) (hb : ∀ p ∈ ps, p.bw ≠ 0) (t : Latency.Table) :
    ∃ t', Latency.loadPorts info ps t = .ok t' := by
  induction ps generalizing t with
  | nil => exact ⟨t, rfl⟩
  | cons p ps ih =>
    have : ∃ t1, Latency.loadPort info p t = .ok t1 := by
      unfold Latency.loadPort
      rw [if_neg (hb p List.mem_cons_self)]
      have : ∃ x, Balance.reduceBalanced ((Latency.once info p).map fun k => (info.real k : ℚ)) ((Latency.once info p).map (Latency.minCycles info p))
          (Latency.surplus info p) = .ok x := by
        unfold Balance.reduceBalanced
        split
        · exact ⟨_, rfl⟩
        · rw [if_neg (by simp)]
          exact ⟨_, rfl⟩
      obtain ⟨x, hx⟩ := this
      rw [hx]
      exact ⟨_, rfl⟩
    obtain ⟨t1, ht1⟩ := this
    obtain ⟨t2, ht2⟩ := ih (fun q hq => hb q (List.mem_cons_of_mem _ hq)) t1
    exact ⟨t2, by unfold Latency.loadPorts; rw [ht1]; exact ht2⟩

/-- A side above the array carries data at least once. -/
private theorem side_count {int out : Bool} {op : Operand} (ho : op ∈ j.ops) {i : Nat} (h0 : i ≠ 0) (hi : i ≤ (j.tm op).length) {p n w : ℚ}
    (hs : Transfer.IsSide (cfg h j int op) out i p n w) : 1 ≤ ⌊n⌋.toNat := by
  have hfl : (cfg h j int op).tm.flatten = loops := (R.tm op ho).1
  obtain ⟨-, -, hn⟩ := Transfer.side_values (by rw [hfl]; exact R.whole) hi (Or.inr (Or.inr h0)) hs
  have hsplit : loops = Transfer.below (cfg h j int op) i ++ ((cfg h j int op).tm.drop i).flatten := by
    unfold Transfer.below
    rw [← List.flatten_append, List.take_append_drop, hfl]
  obtain ⟨a, ha, ha1⟩ := (R.whole.sub (a := Transfer.below (cfg h j int op) i) (fun l hl => by rw [hsplit]; exact List.mem_append_left _ hl)).iters
  obtain ⟨b, hb, hb1⟩ := (R.whole.sub (a := ((cfg h j int op).tm.drop i).flatten) (fun l hl => by
    rw [hsplit]; exact List.mem_append_right _ hl)).iters
  have htot : (cfg h j int op).totalCycle = (a : ℚ) * b := by
    change j.totalCycle = _
    rw [R.total, hsplit, iters_append, ha, hb]
  rw [hn, htot, ha, mul_comm, mul_div_assoc, div_self (by exact_mod_cast (by omega : a ≠ 0)), mul_one, Int.floor_natCast]
  simpa using hb1

/-- The movements between two levels take part in loading and off-loading. -/
private theorem takes {it : Dict Operand (OpInfo Dim)} (hg : ∀ op ∈ j.ops, ∃ i, it.get? op = some i ∧ Good h j true op i) (st : Int) {op : Operand}
    (ho : op ∈ j.ops) {lv : Nat} (hl : lv + 1 < (h.levels op).length) :
    (op ≠ .out → Latency.Takes (info h j it st) (op, lv, .wrByHigh) ∧ Latency.Takes (info h j it st) (op, lv + 1, .rdToLow)) ∧
      (op = .out → Latency.Takes (info h j it st) (op, lv, .rdToHigh) ∧ Latency.Takes (info h j it st) (op, lv + 1, .wrByLow)) := by
  obtain ⟨i, p, hi, hgi, hpi, hpat⟩ := pattern_some R hg ho (show lv < _ by omega)
  obtain ⟨i', q, hi', -, hqi, hqat⟩ := pattern_some R hg ho hl
  rw [hi] at hi'; cases hi'
  have htm := (R.tm op ho).2.1
  have hmv := hgi.moves
  constructor
  · intro hop
    rw [if_neg hop] at hmv
    obtain ⟨-, -, -, hhi, -⟩ := Transfer.input_sides hmv hpi
    obtain ⟨-, -, hlo, -⟩ := Transfer.input_sides hmv hqi
    have c1 := side_count R ho (by omega) (by omega) (hhi (by change lv + 1 < (j.tm op).length; omega))
    have c2 := side_count R ho (by omega) (by omega) hlo
    refine ⟨⟨?_, fun hc => hop hc.1⟩, ⟨?_, fun hc => hop hc.1⟩⟩
    · simp only [info, hpat, Option.map_some, Option.getD_some]
      exact Nat.one_le_iff_ne_zero.1 c1
    · simp only [info, hqat, Option.map_some, Option.getD_some]
      exact Nat.one_le_iff_ne_zero.1 c2
  · intro hop
    rw [if_pos hop] at hmv
    obtain ⟨-, -, t, -, -, hhi, -⟩ := Transfer.output_sides hmv hpi
    obtain ⟨-, -, t', -, hlo, -⟩ := Transfer.output_sides hmv hqi
    have c1 := side_count R ho (by omega) (by omega) (hhi (by change lv + 1 < (j.tm op).length; omega))
    have c2 := side_count R ho (by omega) (by omega) hlo
    refine ⟨⟨?_, fun hc => by simp at hc⟩, ⟨?_, fun hc => by simp at hc⟩⟩
    · simp only [info, hpat, Option.map_some, Option.getD_some]
      exact Nat.one_le_iff_ne_zero.1 c1
    · simp only [info, hqat, Option.map_some, Option.getD_some]
      exact Nat.one_le_iff_ne_zero.1 c2

/-- The ports as the loading computation sees them. -/
abbrev loadingPorts (h : Hw) : List Latency.Port := h.ports.map fun p => ⟨p.bwMax, p.served⟩

theorem table_some {info : Latency.Info} {t : Latency.Table} (ht : Latency.loadPorts info (loadingPorts h) [] = .ok t) {op : Operand}
    (ho : op ∈ j.ops) {lv : Nat} (hl : lv < (h.levels op).length) {d : Dir} (hd : d ∈ needed op (decide (lv + 1 = (h.levels op).length)))
    (htk : Latency.Takes info (op, lv, d)) : ∃ v, t.get? (op, lv, d) = some v := by
  obtain ⟨p, hp, hk⟩ := R.serves op ho lv _ (List.getElem?_eq_getElem hl) d hd
  have hpp := mem_ports (R.built.inside op _ (List.getElem_mem hl)) hp
  have hn : ((loadingPorts h).flatMap Latency.Port.served).Nodup := by
    have : (loadingPorts h).flatMap Latency.Port.served = h.ports.flatMap Port.served := by
      unfold loadingPorts
      rw [List.flatMap_map]
    rw [this]; exact R.built.once
  have := ((Latency.loading_table hn ht ⟨p.bwMax, p.served⟩ (List.mem_map.2 ⟨p, hpp, rfl⟩)).1 _ hk).2 htk
  exact Option.isSome_iff_exists.1 this

private theorem parts_ok {it : Dict Operand (OpInfo Dim)} (hg : ∀ op ∈ j.ops, ∃ i, it.get? op = some i ∧ Good h j true op i) {st : Int}
    {t : Latency.Table} (ht : Latency.loadPorts (info h j it st) (loadingPorts h) [] = .ok t) {op : Operand} (ho : op ∈ j.ops) (hop : op ≠ .out)
    (n lv : Nat) (hn : lv + n < (h.levels op).length) (p : Latency.Parts) : ∃ q, Latency.parts t op lv n p = .ok q := by
  induction n generalizing lv p with
  | zero => exact ⟨p, rfl⟩
  | succ n ih =>
    obtain ⟨k1, k2⟩ := (takes R hg st ho (lv := lv) (by omega)).1 hop
    obtain ⟨a, ha⟩ := table_some R ht ho (lv := lv) (by omega) (d := .wrByHigh) (by
      rw [decide_eq_false (by omega)]; simp [needed, hop]) k1
    obtain ⟨b, hb⟩ := table_some R ht ho (lv := lv + 1) (by omega) (d := .rdToLow) (by simp [needed, hop]) k2
    obtain ⟨q, hq⟩ := ih (lv + 1) (by omega) (Latency.addLink p a b)
    exact ⟨q, by unfold Latency.parts; rw [ha, hb]; exact hq⟩

private theorem offloading_ok {it : Dict Operand (OpInfo Dim)} (hg : ∀ op ∈ j.ops, ∃ i, it.get? op = some i ∧ Good h j true op i) {st : Int}
    {t : Latency.Table} (ht : Latency.loadPorts (info h j it st) (loadingPorts h) [] = .ok t) (n lv : Nat)
    (hn : lv + n < (h.levels .out).length) : ∃ q, Latency.offloading t lv n = .ok q := by
  induction n generalizing lv with
  | zero => exact ⟨0, rfl⟩
  | succ n ih =>
    obtain ⟨k1, k2⟩ := (takes R hg st R.out (lv := lv) (by omega)).2 rfl
    obtain ⟨a, ha⟩ := table_some R ht R.out (lv := lv) (by omega) (d := .rdToHigh) (by
      rw [decide_eq_false (by omega)]; simp [needed]) k1
    obtain ⟨b, hb⟩ := table_some R ht R.out (lv := lv + 1) (by omega) (d := .wrByLow) (by simp [needed]) k2
    obtain ⟨q, hq⟩ := ih (lv + 1) (by omega)
    exact ⟨max a.1 b.1 + q, by unfold Latency.offloading; rw [ha, hb, hq]⟩

/-- Loading and off-loading are computed without exception. -/
theorem loading_ok {it : Dict Operand (OpInfo Dim)} (hg : ∀ op ∈ j.ops, ∃ i, it.get? op = some i ∧ Good h j true op i) (st : Int) :
    ∃ t on off, Latency.loadPorts (info h j it st) (loadingPorts h) [] = .ok t ∧
      Latency.onloading t (j.inputs.map fun op => (op, (j.tm op).length - 1)) = .ok on ∧
      Latency.offloading t 0 ((j.tm .out).length - 1) = .ok off := by
  obtain ⟨t, ht⟩ := loadPorts_ok (info h j it st) (loadingPorts h) (fun p hp => by
    obtain ⟨q, hq, rfl⟩ := List.mem_map.1 hp
    exact (R.built.bw q hq).1) []
  obtain ⟨off, hoff⟩ := offloading_ok R hg ht ((j.tm .out).length - 1) 0 (by
    obtain ⟨-, h1, h2⟩ := R.tm .out R.out; omega)
  have hpart : ∀ op ∈ j.inputs, ∃ q, Latency.parts t op 0 ((j.tm op).length - 1) ⟨0, 0, 0⟩ = .ok q := by
    intro op hop
    obtain ⟨ho, hne⟩ := R.inputs.2 op hop
    obtain ⟨-, h1, h2⟩ := R.tm op ho
    exact parts_ok R hg ht ho hne _ 0 (by omega) _
  obtain ⟨on, hon⟩ : ∃ on, Latency.onloading t (j.inputs.map fun op => (op, (j.tm op).length - 1)) = .ok on := by
    have hne := R.inputs.1
    generalize j.inputs = ins at hne hpart
    match ins with
    | [] => exact absurd rfl hne
    | [a] =>
      obtain ⟨q, hq⟩ := hpart a (by simp)
      simp only [List.map_cons, List.map_nil, Latency.onloading, hq]
      exact ⟨_, rfl⟩
    | a :: b :: l =>
      obtain ⟨q, hq⟩ := hpart a (by simp)
      obtain ⟨q', hq'⟩ := hpart b (by simp)
      simp only [List.map_cons, Latency.onloading, hq, hq']
      exact ⟨_, rfl⟩
  exact ⟨t, on, off, ht, hon, hoff⟩

end ready

end Verif.Evaluate
