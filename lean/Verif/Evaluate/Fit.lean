import Verif.Evaluate.Traffic
import Verif.Buffer.Props

/-! C143: the reported memory utilization, from the loops of the mapping; C144: double buffering fits. -/

namespace Verif.Evaluate

open Cme (Dir FourWay)
open MapInfo
open Decouple (TDim decouple layerEnv pyGet)
open LayerNode (Relation)
open Latency (Operand Key)

variable {Dim : Type} [DecidableEq Dim]

/-! ### One operand -/

section operand
variable {c : Cfg Dim}

theorem opInfo_unfold {out : Bool} {i : OpInfo Dim} (h : opInfo c out = .ok i) : ∃ t prec, tables c = .ok t ∧
    precisions c (if out then some (psumFlags (isIr c) t.ra) else none) = .ok prec ∧ effective c i.bits = .ok i.effBits ∧
    ∀ (lv : Nat) (d : ℤ) (p : ℚ), t.unrolled[lv]? = some d → prec[lv]? = some p → i.bits[lv]? = some (d * p) := by
  unfold opInfo at h
  simp only [bind, Except.bind, pure, Except.pure] at h
  cases g1 : decouple (layerEnv c.L c.rel) c.su with
  | error e => rw [g1] at h; cases h
  | ok rs =>
    rw [g1] at h; simp only at h
    cases g2 : SpatialInternal.serveScope (isR c) rs with
    | error e => rw [g2] at h; cases h
    | ok sc =>
      rw [g2] at h; simp only at h
      cases g3 : tables c with
      | error e => rw [g3] at h; cases h
      | ok t =>
        rw [g3] at h; simp only at h
        cases g4 : precisions c (if out then some (psumFlags (isIr c) t.ra) else none) with
        | error e => rw [g4] at h; cases h
        | ok prec =>
          rw [g4] at h; simp only at h
          split at h
          · cases h
          · rename_i bits g5
            cases g6 : effective c (t.unrolled.map fun (n : ℤ) => (n : ℚ)) with
            | error e => rw [g6] at h; cases h
            | ok e1 =>
              rw [g6] at h; simp only at h
              cases g7 : effective c bits with
              | error e => rw [g7] at h; cases h
              | ok e2 =>
                rw [g7] at h; simp only at h
                have hi : i.bits = bits ∧ i.effBits = e2 := by
                  split_ifs at h
                  all_goals
                    split at h
                    · cases h
                    · cases h; exact ⟨rfl, rfl⟩
                refine ⟨t, prec, rfl, g4, by rw [hi.1, hi.2, g7], fun lv d p hd hp => ?_⟩
                obtain ⟨y, hy1, hy2⟩ := (mapM_get g5).2 lv (d, lv) (by rw [List.getElem?_zipIdx, hd]; simp)
                rw [pyGet_ok hp] at hy1
                cases hy1
                rw [hi.1]
                exact hy2

end operand

theorem mapping_get {h : Hw} {j : Job Dim} {int : Bool} {it : Dict Operand (OpInfo Dim)} (hit : mapping h j int = .ok it) {op : Operand}
    {i : OpInfo Dim} (hi : it.get? op = some i) : opInfo (cfg h j int op) (decide (op = .out)) = .ok i := by
  have key : ∀ (ops : List Operand) (it : Dict Operand (OpInfo Dim)), (ops.mapM fun op => do
      let i ← opInfo (cfg h j int op) (decide (op = .out))
      return (op, i) : Except PyErr _) = .ok it → ∀ e ∈ it, opInfo (cfg h j int e.1) (decide (e.1 = .out)) = .ok e.2 := by
    intro ops
    induction ops with
    | nil => intro it h e he; cases h; cases he
    | cons o ops ih =>
      intro it hm e he
      rw [List.mapM_cons] at hm
      simp only [bind, Except.bind, pure, Except.pure] at hm ih
      cases g1 : opInfo (cfg h j int o) (decide (o = .out)) with
      | error e => rw [g1] at hm; cases hm
      | ok i =>
        rw [g1] at hm
        simp only at hm
        split at hm
        · cases hm
        · rename_i t ht
          cases hm
          rcases List.mem_cons.1 he with rfl | he
          · exact g1
          · exact ih t ht e he
  exact key j.ops it hit (op, i) (Dict.mem_of_get? hi)

/-! ### The whole evaluation -/

variable {h : Hw} {j : Job Dim} {rl : Operand → List Dim} {rels : List (Relation Dim)} {loops array : List (Dim × ℚ)}

theorem util_at (R : Mapped h j rl rels loops array) {fr : Dict Operand (OpInfo Dim)} (hfr : mapping h j false = .ok fr) {op : Operand} (ho : op ∈ j.ops)
    {lv : Nat} {m : Mem} (hm : (h.levels op)[lv]? = some m) : ∃ t prec, tables (cfg h j false op) = .ok t ∧
    precisions (cfg h j false op) (if op = .out then some (psumFlags (isIr (cfg h j false op)) t.ra) else none) = .ok prec ∧
    ∀ (d : ℤ) (p : ℚ), t.unrolled[lv + 1]? = some d → prec[lv + 1]? = some p → util h fr (op, lv) = d * p / m.size := by
  obtain ⟨fr', f1, f2, f3⟩ := mapping_ok R false
  rw [hfr] at f1
  cases f1
  obtain ⟨i, hi, G⟩ := f3 op ho
  obtain ⟨t, prec, h1, h2, -, h3⟩ := opInfo_unfold (mapping_get hfr hi)
  refine ⟨t, prec, h1, by simpa using h2, fun d p hd hp => ?_⟩
  unfold util Buffer.individual bitsAt sizeOf
  simp only [hi, hm, Option.map_some, Option.getD_some, h3 _ d p hd hp]

/-- C143: the reported utilization of a memory by an input operand is the number of bits of the elements that the tile of the loops inside that level
touches, over the size of the memory. -/
theorem input_utilization_partial (R : Mapped h j rl rels loops array) {r : Result} (hr : evaluate h j = .ok r) {op : Operand} (ho : op ∈ j.ops)
    (hop : op ≠ .out) (V : Valid (cfg h j false op) (rl op) rels) (W : Whole (cfg h j false op)) {lv : Nat} {m : Mem}
    (hm : (h.levels op)[lv]? = some m) (he : Exact (cfg h j false op) (rl op) rels (tileOf (inside (j.su op) (j.tm op) (lv + 1) (lv + 1)))) :
    r.util (op, lv) = elements (rl op) rels (tileOf (inside (j.su op) (j.tm op) (lv + 1) (lv + 1))) * j.precision op / m.size := by
  obtain ⟨fr, it, hfr, -, -, -, -, -, hu⟩ := parts R hr
  obtain ⟨t, prec, ht, hp, hall⟩ := util_at R hfr ho hm
  obtain ⟨-, hlen, -⟩ := R.tm op ho
  have hlt : lv < (h.levels op).length := (List.getElem?_eq_some_iff.1 hm).1
  have hlt' : lv + 1 ≤ (cfg h j false op).tm.length := by change lv + 1 ≤ (j.tm op).length; omega
  have hd := data_elements_partial V W ht hlt' he
  rw [if_neg hop] at hp
  cases hp
  rw [hu, hall _ (j.precision op) hd (by rw [List.getElem?_replicate, if_pos (by omega)]; rfl)]
  push_cast
  rfl

open Classical in
/-- C143: likewise for the output, with the precision of partial sums if results are accumulated outside and the final precision otherwise. -/
theorem output_utilization_partial (R : Mapped h j rl rels loops array) {r : Result} (hr : evaluate h j = .ok r)
    (V : Valid (cfg h j false .out) (rl .out) rels) (W : Whole (cfg h j false .out)) (hpr : (j.rel .out).pr = []) {lv : Nat} {m : Mem}
    (hm : (h.levels .out)[lv]? = some m) :
    r.util (.out, lv) = elements (rl .out) rels (tileOf (inside (j.su .out) (j.tm .out) (lv + 1) (lv + 1))) *
      (if Accumulates (cfg h j false .out) (rl .out) (lv + 1) then j.precision .out else j.finalPrecision : ℕ) / m.size := by
  obtain ⟨fr, it, hfr, -, -, -, -, -, hu⟩ := parts R hr
  obtain ⟨t, prec, ht, hp, hall⟩ := util_at R hfr R.out hm
  obtain ⟨-, hlen, -⟩ := R.tm .out R.out
  have hlt : lv < (h.levels .out).length := (List.getElem?_eq_some_iff.1 hm).1
  have hlt' : lv + 1 ≤ (cfg h j false .out).tm.length := by change lv + 1 ≤ (j.tm .out).length; omega
  have hd := data_elements_partial V W ht hlt' (exact_plain V hpr _)
  rw [if_pos rfl] at hp
  have hq : prec[lv + 1]? = some ((if Accumulates (cfg h j false .out) (rl .out) (lv + 1) then j.precision .out else j.finalPrecision : ℕ) : ℚ) := by
    obtain ⟨y, hy1, hy2⟩ := (mapM_get hp).2 (lv + 1) (lv + 1) (by rw [List.getElem?_range (by omega)])
    rw [hy2]
    simp only [bind, Except.bind] at hy1
    cases hb : pyGet (psumFlags (isIr (cfg h j false .out)) t.ra) (lv + 1) with
    | error e => rw [hb] at hy1; cases hy1
    | ok b =>
      rw [hb] at hy1
      cases hy1
      have := flag_iff V hpr ht hlt' hb
      by_cases ha : Accumulates (cfg h j false .out) (rl .out) (lv + 1)
      · rw [this.2 ha, if_pos ha]; rfl
      · rw [if_neg ha, if_neg (by rw [this]; exact ha)]; rfl
  rw [hu, hall _ _ hd hq]
  push_cast
  rfl

/-! ### Memories with several operands -/

/-- The operands of the layer that a memory holds, with their levels. -/
def Mem.holding (m : Mem) (j : Job Dim) : List (Operand × Nat) := m.holds.filter fun p => decide (p.1 ∈ j.ops)

theorem held (R : Mapped h j rl rels loops array) {op : Operand} (ho : op ∈ j.ops) {lv : Nat} {m : Mem} (hm : (h.levels op)[lv]? = some m) :
    (op, lv) ∈ m.holding j := by
  have hmin : m ∈ h.mems := R.built.inside op m (List.mem_of_getElem? hm)
  obtain ⟨p, hp, hk⟩ := R.serves op ho lv m hm .rdToLow (by unfold needed; split_ifs <;> simp)
  exact List.mem_filter.2 ⟨R.built.served m hmin p hp _ hk, by simpa using ho⟩

theorem groups_disjoint (R : Mapped h j rl rels loops array) : Buffer.Disjoint (groups h j) := by
  have hn := R.built.once
  unfold Hw.ports at hn
  rw [List.flatMap_assoc] at hn
  have hp := (List.nodup_flatMap.1 hn).2
  unfold Buffer.Disjoint groups
  rw [List.pairwise_map]
  refine List.Pairwise.filter _ ?_
  refine List.Pairwise.imp_of_mem (fun {a b} ha hb hd => ?_) hp
  intro p hpa hpb
  rw [List.mem_filter] at hpa hpb
  have e1 := R.built.numbered a ha p hpa.1
  have e2 := R.built.numbered b hb p hpb.1
  rw [e1] at e2
  cases e2
  have ho : p.1 ∈ j.ops := by simpa using hpa.2
  obtain ⟨q, hq, hk⟩ := R.serves p.1 ho p.2 a e1 .rdToLow (by unfold needed; split_ifs <;> simp)
  exact hd (List.mem_flatMap.2 ⟨q, hq, hk⟩) (List.mem_flatMap.2 ⟨q, hq, hk⟩)

/-- What is computed for a memory from the utilization by each operand. -/
theorem shared_at (R : Mapped h j rl rels loops array) (ind : Operand × Nat → ℚ) {op : Operand} (ho : op ∈ j.ops) {lv : Nat} {m : Mem}
    (hm : (h.levels op)[lv]? = some m) : Buffer.shared (groups h j) ind (op, lv) = ((m.holding j).map ind).sum := by
  have hmin : m ∈ h.mems := R.built.inside op m (List.mem_of_getElem? hm)
  have hh := held R ho hm
  obtain ⟨h1, h2⟩ := Buffer.shared_utilization ind (groups_disjoint R) (op, lv)
  by_cases hl : 1 < m.holds.length
  · exact h1 _ (List.mem_map.2 ⟨m, List.mem_filter.2 ⟨hmin, by simpa using hl⟩, rfl⟩) hh
  · rw [h2 ?_]
    · have h0 := (List.mem_filter.1 hh).1
      have : m.holds = [(op, lv)] := by
        match hx : m.holds with
        | [] => rw [hx] at h0; cases h0
        | [x] => rw [hx] at h0; rw [List.mem_singleton.1 h0]
        | x :: y :: t => rw [hx] at hl; simp at hl
      unfold Mem.holding
      rw [this]
      simp [ho]
    · intro g hg hin
      obtain ⟨m', hm', rfl⟩ := List.mem_map.1 hg
      rw [List.mem_filter] at hm'
      have e := R.built.numbered m' hm'.1 _ (List.mem_filter.1 hin).1
      simp only [hm] at e
      cases e
      exact hl (by simpa using hm'.2)

/-- C143: the utilization that is reported for a memory is the sum over all operands of the layer that it holds. -/
theorem shared_utilization (R : Mapped h j rl rels loops array) {r : Result} (hr : evaluate h j = .ok r) {op : Operand} (ho : op ∈ j.ops) {lv : Nat}
    {m : Mem} (hm : (h.levels op)[lv]? = some m) : r.utilShared (op, lv) = ((m.holding j).map r.util).sum := by
  have hs : r.utilShared = Buffer.shared (groups h j) r.util := by
    obtain ⟨fr, it, en, st, hfr, hit, hen, hst, -, hg, he⟩ := before_loading R
    rw [he] at hr
    simp only [bind, Except.bind] at hr
    split at hr
    · cases hr
    · split at hr
      · cases hr
      · cases hr
        rfl
  rw [hs, shared_at R r.util ho hm]

/-! ### Double buffering -/

/-- Number of iterations of the loops over indices of the operand that a level ends with: data is not used again after one of them. -/
def ending (rel : List Dim) (loops : List (Dim × ℚ)) : ℚ := ((loops.reverse.takeWhile fun l => decide (l.1 ∈ rel)).map Prod.snd).prod

/-- Part of a memory that the data in use of an operand takes, in whole bits; `u` is the part that all its data takes. -/
def inUse (j : Job Dim) (u : Operand × Nat → ℚ) (size : Nat) (p : Operand × Nat) : ℚ :=
  (⌊u p * size / ending (j.rel p.1).r (((j.tm p.1)[p.2]?).getD [])⌋ : ℤ) / size

/-- One copy, or two copies of what is double buffered. -/
def copies (f : Operand → List Bool) (p : Operand × Nat) : ℚ := if (f p.1)[p.2 + 1]? = some true then 2 else 1

section effective
variable {c : Cfg Dim}

private theorem effective_get {l : List ℚ} {e : List ℤ} (h : effective c l = .ok e) {lv : Nat} {x : ℚ} (hx : l[lv + 1]? = some x)
    (hl : lv < c.tm.length) : e[lv + 1]? = some ⌊x / ending c.rel.r ((c.tm[lv]?).getD [])⌋ := by
  obtain ⟨y, hy1, hy2⟩ := (mapM_get h).2 (lv + 1) (x, lv + 1) (by rw [List.getElem?_zipIdx, hx]; simp)
  simp only [bind, Except.bind] at hy1
  have : (TemporalMapping.topLoopSize (fun d => decide (d ∈ c.rel.r)) c.tm)[lv + 1]? = some (ending c.rel.r ((c.tm[lv]?).getD [])) := by
    rw [TemporalMapping.top_loops, List.getElem?_cons_succ, List.getElem?_map, List.getElem?_eq_getElem hl]
    rfl
  rw [pyGet_ok this] at hy1
  simp only [fdiv] at hy1
  split_ifs at hy1
  cases hy1
  exact hy2

end effective

theorem ending_pos {rel : List Dim} {loops : List (Dim × ℚ)} (h : ∀ l ∈ loops, 1 ≤ l.2) : 1 ≤ ending rel loops := by
  refine one_le_prod (fun x hx => ?_)
  obtain ⟨l, hl, rfl⟩ := List.mem_map.1 hx
  exact h l (List.mem_reverse.1 ((List.takeWhile_prefix _).subset hl))

/-- The utilization by data in use. -/
private theorem effUtil_eq (R : Mapped h j rl rels loops array) {fr : Dict Operand (OpInfo Dim)} (hfr : mapping h j false = .ok fr) {op : Operand}
    (ho : op ∈ j.ops) {lv : Nat} {m : Mem} (hm : (h.levels op)[lv]? = some m) : 0 ≤ util h fr (op, lv) ∧
    effUtil h fr (op, lv) = inUse j (util h fr) m.size (op, lv) := by
  obtain ⟨fr', f1, f2, f3⟩ := mapping_ok R false
  rw [hfr] at f1
  cases f1
  obtain ⟨i, hi, G⟩ := f3 op ho
  obtain ⟨t, prec, h1, h2, h3, h4⟩ := opInfo_unfold (mapping_get hfr hi)
  obtain ⟨-, hlen, -⟩ := R.tm op ho
  have hlt : lv < (h.levels op).length := (List.getElem?_eq_some_iff.1 hm).1
  have hb := G.bits
  have hx := List.getElem?_eq_getElem (l := i.bits) (i := lv + 1) (by omega)
  have he := effective_get h3 hx (show lv < (j.tm op).length by omega)
  have hs : (m.size : ℚ) ≠ 0 := by exact_mod_cast R.built.size m (R.built.inside op m (List.mem_of_getElem? hm))
  have hu : util h fr (op, lv) = i.bits[lv + 1] / m.size := by
    unfold util Buffer.individual bitsAt sizeOf
    simp only [hi, hm, Option.map_some, Option.getD_some, hx]
  refine ⟨?_, ?_⟩
  · rw [hu]
    refine div_nonneg ?_ (by positivity)
    obtain ⟨t', ht', _, _, _, lun, _⟩ := (R.shape false op ho).tables_ok R.sizes
    rw [h1] at ht'
    cases ht'
    have hl2 : lv + 1 < t.unrolled.length := by
      rw [lun, (R.shape false op ho).levels]
      change lv + 1 < (j.tm op).length + 1
      omega
    have lp : lv + 1 < prec.length ∧ ∀ x ∈ prec, 0 ≤ x := by
      by_cases hop : op = .out
      · simp only [hop, decide_true, if_true] at h2
        have hl := (mapM_get h2).1
        rw [List.length_range] at hl
        refine ⟨by rw [hl]; change lv + 1 < (j.tm .out).length + 1; subst hop; omega, fun x hx => ?_⟩
        obtain ⟨k, hk⟩ := List.getElem?_of_mem hx
        have hk' : k < prec.length := (List.getElem?_eq_some_iff.1 hk).1
        obtain ⟨y, hy1, hy2⟩ := (mapM_get h2).2 k k (by rw [List.getElem?_range (by omega)])
        rw [hk] at hy2
        cases hy2
        simp only [bind, Except.bind] at hy1
        split at hy1
        · cases hy1
        · cases hy1
          split_ifs
          · exact Nat.cast_nonneg (j.precision .out)
          · exact Nat.cast_nonneg j.finalPrecision
      · simp only [hop, decide_false, Bool.false_eq_true, if_false] at h2
        cases h2
        rw [List.length_replicate]
        refine ⟨by change lv + 1 < (j.tm op).length + 1; omega, fun x hx => ?_⟩
        rw [(List.mem_replicate.1 hx).2]
        exact Nat.cast_nonneg (j.precision op)
    have := h4 (lv + 1) _ _ (List.getElem?_eq_getElem hl2) (List.getElem?_eq_getElem lp.1)
    rw [hx] at this
    injection this with this
    rw [this]
    exact mul_nonneg (by exact_mod_cast (tables_nonneg (R.shape false op ho) R.sizes h1).1 _ (List.getElem_mem hl2)) (lp.2 _ (List.getElem_mem lp.1))
  · unfold inUse
    rw [hu, div_mul_cancel₀ _ hs]
    unfold effUtil Buffer.individual bitsAt sizeOf
    simp only [hi, hm, Option.map_some, Option.getD_some, List.getElem?_map, he]
    rfl

private theorem effUtil_out (R : Mapped h j rl rels loops array) {fr : Dict Operand (OpInfo Dim)} (hfr : mapping h j false = .ok fr) (p : Operand × Nat)
    (hp : ¬ (p.1 ∈ j.ops ∧ ∃ m, (h.levels p.1)[p.2]? = some m)) : effUtil h fr p = 0 := by
  obtain ⟨fr', f1, f2, f3⟩ := mapping_ok R false
  rw [hfr] at f1
  cases f1
  unfold effUtil Buffer.individual bitsAt sizeOf
  cases hm : (h.levels p.1)[p.2]? with
  | none => simp
  | some m =>
    have : fr.get? p.1 = none := by
      rw [Dict.get?_eq_none_iff]
      change p.1 ∉ fr.map Prod.fst
      rw [f2]
      exact fun ho => hp ⟨ho, m, hm⟩
    simp [this]

private theorem inUse_bounds (R : Mapped h j rl rels loops array) {op : Operand} (ho : op ∈ j.ops) {lv : Nat} {u : Operand × Nat → ℚ}
    (hu : 0 ≤ u (op, lv)) {size : Nat} (hs : size ≠ 0) : 0 ≤ inUse j u size (op, lv) ∧ inUse j u size (op, lv) ≤ u (op, lv) := by
  have h1 : 1 ≤ ending (j.rel op).r (((j.tm op)[lv]?).getD []) := by
    refine ending_pos (fun l hl => ((R.shape false op ho).loops l (List.mem_append_left _ ?_)).2)
    cases hx : (j.tm op)[lv]? with
    | none => rw [hx] at hl; cases hl
    | some x => rw [hx] at hl; exact List.mem_flatten.2 ⟨x, List.mem_of_getElem? hx, hl⟩
  have hs' : (0 : ℚ) < size := by exact_mod_cast Nat.pos_of_ne_zero hs
  have hq : 0 ≤ u (op, lv) * size / ending (j.rel op).r (((j.tm op)[lv]?).getD []) := div_nonneg (mul_nonneg hu hs'.le) (by linarith)
  constructor
  · exact div_nonneg (by exact_mod_cast Int.floor_nonneg.2 hq) hs'.le
  · unfold inUse
    rw [div_le_iff₀ hs']
    exact le_trans (Int.floor_le _) (div_le_self (mul_nonneg hu hs'.le) h1)

private theorem places_nodup (R : Mapped h j rl rels loops array) : (places j).Nodup := by
  unfold places
  rw [List.nodup_flatMap]
  refine ⟨fun op _ => List.Nodup.map (fun a b hab => by cases hab; rfl) List.nodup_range, ?_⟩
  refine List.Pairwise.imp (fun {a b} hab => ?_) R.ops
  intro x hx hy
  obtain ⟨_, _, rfl⟩ := List.mem_map.1 hx
  obtain ⟨_, _, e⟩ := List.mem_map.1 hy
  cases e
  exact hab rfl

private theorem groups_nodup (R : Mapped h j rl rels loops array) : ∀ g ∈ groups h j, g.Nodup := by
  intro g hg
  obtain ⟨m, hm, rfl⟩ := List.mem_map.1 hg
  exact List.Nodup.filter _ (List.Nodup.of_map _ (R.built.single m (List.mem_filter.1 hm).1))

/-- What is known about double buffering before it is decided. -/
private theorem setting (R : Mapped h j rl rels loops array) {r : Result} (hr : evaluate h j = .ok r) : ∃ ind : Operand × Nat → ℚ,
    (∀ op ∈ j.ops, ∀ lv m, (h.levels op)[lv]? = some m → 0 ≤ r.util (op, lv) ∧ ind (op, lv) = inUse j r.util m.size (op, lv)) ∧ (∀ p, 0 ≤ ind p) ∧
    (∀ p, ¬ (p.1 ∈ j.ops ∧ ∃ m, (h.levels p.1)[p.2]? = some m) → ind p = 0) ∧
    ∀ op ∈ j.ops, ∀ lv m, (h.levels op)[lv]? = some m → (r.flags op)[lv + 1]? = some (Buffer.flags (groups h j) ind (places j) (op, lv)) := by
  obtain ⟨fr, it, hfr, -, -, -, -, hf, hu⟩ := parts R hr
  refine ⟨effUtil h fr, fun op ho lv m hm => ?_, fun p => ?_, effUtil_out R hfr, fun op ho lv m hm => ?_⟩
  · rw [hu]; exact effUtil_eq R hfr ho hm
  · by_cases hp : p.1 ∈ j.ops ∧ ∃ m, (h.levels p.1)[p.2]? = some m
    · obtain ⟨ho, m, hm⟩ := hp
      obtain ⟨h1, h2⟩ := effUtil_eq R hfr ho hm
      rw [show p = (p.1, p.2) from rfl, h2]
      exact (inUse_bounds R ho h1 (R.built.size m (R.built.inside _ m (List.mem_of_getElem? hm)))).1
    · rw [effUtil_out R hfr p hp]
  · obtain ⟨-, hlen, -⟩ := R.tm op ho
    have hlt : lv < (h.levels op).length := (List.getElem?_eq_some_iff.1 hm).1
    rw [hf]
    unfold flags
    rw [List.getElem?_cons_succ, List.getElem?_map, List.getElem?_range (by omega)]
    rfl

private theorem holding_mem (R : Mapped h j rl rels loops array) {m : Mem} (hm : m ∈ h.mems) {p : Operand × Nat} (hp : p ∈ m.holding j) :
    p.1 ∈ j.ops ∧ (h.levels p.1)[p.2]? = some m := by
  unfold Mem.holding at hp
  rw [List.mem_filter] at hp
  exact ⟨by simpa using hp.2, R.built.numbered m hm p hp.1⟩

private theorem fits (R : Mapped h j rl rels loops array) {r : Result} {ind : Operand × Nat → ℚ}
    (h1 : ∀ op ∈ j.ops, ∀ lv m, (h.levels op)[lv]? = some m → 0 ≤ r.util (op, lv) ∧ ind (op, lv) = inUse j r.util m.size (op, lv)) {m : Mem}
    (hm : m ∈ h.mems) : ((m.holding j).map ind).sum ≤ ((m.holding j).map r.util).sum := by
  refine List.sum_le_sum (fun p hp => ?_)
  obtain ⟨ho, hl⟩ := holding_mem R hm hp
  obtain ⟨h0, he⟩ := h1 p.1 ho p.2 m hl
  rw [show p = (p.1, p.2) from rfl, he]
  exact (inUse_bounds R ho h0 (R.built.size m hm)).2

private theorem place_mem (R : Mapped h j rl rels loops array) {m : Mem} (hm : m ∈ h.mems) {p : Operand × Nat} (hp : p ∈ m.holding j) :
    p ∈ places j := by
  obtain ⟨ho, hl⟩ := holding_mem R hm hp
  obtain ⟨-, hlen, -⟩ := R.tm p.1 ho
  have hlt : p.2 < (h.levels p.1).length := (List.getElem?_eq_some_iff.1 hl).1
  exact List.mem_flatMap.2 ⟨p.1, ho, List.mem_map.2 ⟨p.2, List.mem_range.2 (by omega), rfl⟩⟩

omit [DecidableEq Dim] in
private theorem alone_holding {m : Mem} {p : Operand × Nat} (hp : p ∈ m.holding j) (hl : ¬ 1 < m.holds.length) : m.holding j = [p] := by
  have := List.length_filter_le (fun p => decide (p.1 ∈ j.ops)) m.holds
  change (m.holding j).length ≤ _ at this
  match hh : m.holding j with
  | [] => rw [hh] at hp; cases hp
  | [q] => rw [hh] at hp; rw [List.mem_singleton.1 hp]
  | q :: q' :: t => rw [hh] at this; simp at this; omega

private theorem lone (R : Mapped h j rl rels loops array) {m : Mem} (hm : m ∈ h.mems) {p : Operand × Nat} (hp : p ∈ m.holding j)
    (hl : ¬ 1 < m.holds.length) : ∀ g ∈ groups h j, p ∉ g := by
  intro g hg hin
  obtain ⟨m', hm', rfl⟩ := List.mem_map.1 hg
  rw [List.mem_filter] at hm'
  have e := (holding_mem R hm'.1 (p := p) hin).2
  rw [(holding_mem R hm hp).2] at e
  cases e
  exact hl (by simpa using hm'.2)

private theorem total_eq (R : Mapped h j rl rels loops array) {m : Mem} (hm : m ∈ h.mems) {r : Result} {ind : Operand × Nat → ℚ}
    (h1 : ∀ op ∈ j.ops, ∀ lv m, (h.levels op)[lv]? = some m → 0 ≤ r.util (op, lv) ∧ ind (op, lv) = inUse j r.util m.size (op, lv))
    (h4 : ∀ op ∈ j.ops, ∀ lv m, (h.levels op)[lv]? = some m → (r.flags op)[lv + 1]? = some (Buffer.flags (groups h j) ind (places j) (op, lv))) :
    ((m.holding j).map fun p => copies r.flags p * inUse j r.util m.size p).sum =
      Buffer.load ind (Buffer.flags (groups h j) ind (places j)) (m.holding j) := by
  unfold Buffer.load
  congr 1
  refine List.map_congr_left (fun p hp => ?_)
  obtain ⟨ho, hl⟩ := holding_mem R hm hp
  unfold copies
  rw [h4 p.1 ho p.2 m hl, show ind p = _ from (h1 p.1 ho p.2 m hl).2]
  simp only [Option.some.injEq]
  split_ifs <;> ring

/-- C144: if every memory has room for the data in it, it also has room for a second copy of what is in use of every operand that is taken to be double
buffered there. -/
theorem double_buffers_fit (R : Mapped h j rl rels loops array) {r : Result} (hr : evaluate h j = .ok r)
    (hfit : ∀ op ∈ j.ops, ∀ lv, lv < (h.levels op).length → r.utilShared (op, lv) ≤ 1) {m : Mem} (hm : m ∈ h.mems) :
    ((m.holding j).map fun p => copies r.flags p * inUse j r.util m.size p).sum ≤ 1 := by
  obtain ⟨ind, h1, h2, h3, h4⟩ := setting R hr
  have room : ∀ m ∈ h.mems, ((m.holding j).map r.util).sum ≤ 1 := by
    intro m hm
    cases hh : m.holding j with
    | nil => simp
    | cons p t =>
      have hp : p ∈ m.holding j := by rw [hh]; exact List.mem_cons_self
      obtain ⟨ho, hl⟩ := holding_mem R hm hp
      rw [← hh, ← shared_utilization R hr ho hl]
      exact hfit _ ho _ (List.getElem?_eq_some_iff.1 hl).1
  have one : ∀ p, ind p ≤ 1 := by
    intro p
    by_cases hp : p.1 ∈ j.ops ∧ ∃ m, (h.levels p.1)[p.2]? = some m
    · obtain ⟨ho, m, hl⟩ := hp
      have hm := R.built.inside _ m (List.mem_of_getElem? hl)
      refine le_trans (List.single_le_sum ?_ (ind p) (List.mem_map.2 ⟨p, held R ho hl, rfl⟩)) (le_trans (fits R h1 hm) (room m hm))
      intro x hx
      obtain ⟨q, _, rfl⟩ := List.mem_map.1 hx
      exact h2 q
    · rw [h3 p hp]; norm_num
  have main := Buffer.double_buffer_fits (groups_disjoint R) (groups_nodup R) (places_nodup R) h2 (fun g hg => by
    obtain ⟨m, hm, rfl⟩ := List.mem_map.1 hg
    have hm := (List.mem_filter.1 hm).1
    exact le_trans (fits R h1 hm) (room m hm)) one
  rw [total_eq R hm h1 h4]
  by_cases hl : 1 < m.holds.length
  · exact main.1 _ (List.mem_map.2 ⟨m, List.mem_filter.2 ⟨hm, by simpa using hl⟩, rfl⟩)
  · cases hh : m.holding j with
    | nil => simp [Buffer.load]
    | cons p t =>
      have hp : p ∈ m.holding j := by rw [hh]; exact List.mem_cons_self
      rw [← hh, alone_holding hp hl]
      exact main.2 p (lone R hm hp hl)

/-- C144: everything is double buffered in a memory of which at most half is taken by data in use. -/
theorem double_buffers_half (R : Mapped h j rl rels loops array) {r : Result} (hr : evaluate h j = .ok r) {m : Mem} (hm : m ∈ h.mems)
    (hhalf : ((m.holding j).map (inUse j r.util m.size)).sum ≤ 1 / 2) {p : Operand × Nat} (hp : p ∈ m.holding j) :
    (r.flags p.1)[p.2 + 1]? = some true := by
  obtain ⟨ind, h1, h2, h3, h4⟩ := setting R hr
  obtain ⟨ho, hl⟩ := holding_mem R hm hp
  have hsum : ((m.holding j).map ind).sum ≤ 1 / 2 := by
    refine le_of_eq_of_le ?_ hhalf
    congr 1
    refine List.map_congr_left (fun q hq => ?_)
    obtain ⟨ho, hl⟩ := holding_mem R hm hq
    exact (h1 q.1 ho q.2 m hl).2
  have hpl := place_mem R hm hp
  rw [h4 p.1 ho p.2 m hl]
  congr 1
  by_cases hlen : 1 < m.holds.length
  · exact Buffer.double_buffer_half (groups_disjoint R) (groups_nodup R) (places_nodup R) h2 _
      (List.mem_map.2 ⟨m, List.mem_filter.2 ⟨hm, by simpa using hlen⟩, rfl⟩) hsum p hp hpl
  · refine (Buffer.double_buffer_alone (groups_disjoint R) (groups_nodup R) (places_nodup R) h2 p (lone R hm hp hlen) hpl).2 ?_
    rw [alone_holding hp hlen] at hsum
    simpa using hsum

/-- C144: an operand that is not taken to be double buffered has no room for a second copy next to what is in its memory. -/
theorem double_buffers_full (R : Mapped h j rl rels loops array) {r : Result} (hr : evaluate h j = .ok r) {m : Mem} (hm : m ∈ h.mems)
    {p : Operand × Nat} (hp : p ∈ m.holding j) (hf : (r.flags p.1)[p.2 + 1]? ≠ some true) :
    1 < ((m.holding j).map fun p => copies r.flags p * inUse j r.util m.size p).sum + inUse j r.util m.size p := by
  obtain ⟨ind, h1, h2, h3, h4⟩ := setting R hr
  obtain ⟨ho, hl⟩ := holding_mem R hm hp
  have hf' : Buffer.flags (groups h j) ind (places j) p = false := by
    rw [h4 p.1 ho p.2 m hl] at hf
    simpa using hf
  rw [total_eq R hm h1 h4, show inUse j r.util m.size p = ind p from ((h1 p.1 ho p.2 m hl).2).symm]
  by_cases hlen : 1 < m.holds.length
  · exact Buffer.double_buffer_full (groups_disjoint R) (groups_nodup R) (places_nodup R) h2 _
      (List.mem_map.2 ⟨m, List.mem_filter.2 ⟨hm, by simpa using hlen⟩, rfl⟩) p hp (place_mem R hm hp) hf'
  · have := (Buffer.double_buffer_alone (groups_disjoint R) (groups_nodup R) (places_nodup R) h2 p (lone R hm hp hlen) (place_mem R hm hp)).not.1
      (by rw [hf']; simp)
    rw [alone_holding hp hlen]
    simp only [Buffer.load, hf', List.map_cons, List.map_nil, List.sum_cons, List.sum_nil, Bool.false_eq_true, if_false]
    linarith

end Verif.Evaluate
