import Verif.Search.Errors

/-! What the allocator reserves is what the cost model reports as used. -/

namespace Verif.Search

open Evaluate (Hw Mem Job Mapped Result evaluate cfg util)
open LayerNode (Relation Rel Layer lookup calcTensorDim calcTensorSize extractPr mem_prLoop mem_prList)
open MapInfo
open Decouple (TDim decouple layerEnv pyGet)
open SpatialInternal (pyRound)
open Latency (Operand)
open Alloc (resident tmLoops spLoops)

section tensor
variable {Dim : Type} [DecidableEq Dim] {L : Layer Dim} {rel : Rel Dim}

theorem mapM_congr' {α β : Type} {f g : α → Except PyErr β} : ∀ {l : List α}, (∀ x ∈ l, f x = g x) → l.mapM f = l.mapM g
  | [], _ => rfl
  | x :: l, h => by
    rw [List.mapM_cons, List.mapM_cons, h x (by simp), mapM_congr' (fun y hy => h y (by simp [hy]))]

/-- The allocator computes the same tensor sizes. -/
theorem tensorSize_eq {loops : List (Alloc.Loop Dim)} (hk : ∀ l ∈ loops, l.dim ∈ L.dimSizes.keys)
    (hp : ∀ d x y, L.pi.prLoop.get? d = some (x, y) → d ∉ L.dimSizes.keys ∧ x ∈ L.dimSizes.keys ∧ y ∈ L.dimSizes.keys) :
    tensorSize L rel (Alloc.dimSizes loops) = calcTensorSize L rel (tileSizes L (loops.map fun l => (l.dim, l.size))) := by
  have hext : ∀ d, extent d (loops.map fun l => (l.dim, l.size)) = ((loops.filter (fun l => decide (l.dim = d))).map (fun l => l.size)).prod := by
    intro d
    unfold extent
    rw [List.filter_map, List.map_map]
    rfl
  have hone : ∀ d, (¬ ∃ l ∈ loops, l.dim = d) → extent d (loops.map fun l => (l.dim, l.size)) = 1 := by
    intro d hd
    apply extent_one
    intro l hl
    obtain ⟨l', hl', rfl⟩ := List.mem_map.1 hl
    exact fun hc => hd ⟨l', hl', hc⟩
  have hgetD : ∀ d, ((Alloc.dimSizes loops).get? d).getD 1 = extent d (loops.map fun l => (l.dim, l.size)) := by
    intro d
    rw [Alloc.dimSizes_get]
    split_ifs with h
    · exact (hext d).symm
    · exact (hone d h).symm
  unfold tensorSize calcTensorSize
  rw [mapM_congr' (g := calcTensorDim L (tileSizes L (loops.map fun l => (l.dim, l.size))))]
  intro d _
  unfold tensorDim calcTensorDim
  by_cases hd : d ∈ L.dimSizes.keys
  · rw [tileSizes_get, if_pos hd]
    simp only
    by_cases hl : ∃ l ∈ loops, l.dim = d
    · rw [Alloc.dimSizes_get, if_pos hl, hext]
    · rw [Alloc.dimSizes_get, if_neg hl]
      simp only
      have hn : L.pi.prLoop.get? d = none := by
        cases hg : L.pi.prLoop.get? d with
        | none => rfl
        | some xy => exact absurd hd (hp d xy.1 xy.2 hg).1
      have hs : (L.dimSizes.get? d).isSome = true := by
        rw [Option.isSome_iff_ne_none]
        exact fun hc => (Dict.get?_eq_none_iff _ _).1 hc hd
      rw [hn]
      simp only [hs, if_true]
      rw [hone d hl]
  · have hl : ¬ ∃ l ∈ loops, l.dim = d := by
      rintro ⟨l, hl, rfl⟩
      exact hd (hk l hl)
    rw [tileSizes_get, if_neg hd, Alloc.dimSizes_get, if_neg hl]
    simp only
    cases hg : L.pi.prLoop.get? d with
    | none => rfl
    | some xy =>
      obtain ⟨x, y⟩ := xy
      obtain ⟨-, hx, hy⟩ := hp d x y hg
      simp only [lookup, hgetD, tileSizes_get, if_pos hx, if_pos hy, bind, Except.bind]

theorem tensor_congr {a b : List (Dim × ℚ)} (h1 : ∀ d ∈ rel.r ++ rel.pr.keys, d ∈ L.dimSizes.keys → extent d a = extent d b)
    (h2 : ∀ d ∈ rel.r ++ rel.pr.keys, ∀ x y, L.pi.prLoop.get? d = some (x, y) → extent x a = extent x b ∧ extent y a = extent y b) :
    calcTensorSize L rel (tileSizes L a) = calcTensorSize L rel (tileSizes L b) := by
  unfold calcTensorSize
  rw [mapM_congr' (g := calcTensorDim L (tileSizes L b))]
  intro d hd
  unfold calcTensorDim
  rw [tileSizes_get, tileSizes_get]
  by_cases hk : d ∈ L.dimSizes.keys
  · rw [if_pos hk, if_pos hk, h1 d hd hk]
  · rw [if_neg hk, if_neg hk]
    simp only
    cases hg : L.pi.prLoop.get? d with
    | none => rfl
    | some xy =>
      obtain ⟨x, y⟩ := xy
      obtain ⟨e1, e2⟩ := h2 d hd x y hg
      simp only [lookup, tileSizes_get, e1, e2]

/-- Whole numbers of iterations give whole sizes. -/
theorem tensor_whole {a : List (Dim × ℚ)} (ha : ∀ d, ∃ n : ℤ, extent d a = n) (hs : ∀ d m, L.prSizes.get? d = some m → d ∈ L.pi.prLoop.keys → ∃ n : ℤ, m = n)
    {s : ℚ} (h : calcTensorSize L rel (tileSizes L a) = .ok s) : ∃ n : ℤ, s = n := by
  unfold calcTensorSize at h
  simp only [bind, Except.bind] at h
  split at h
  · cases h
  · rename_i l hl
    cases h
    have : ∀ (ds : List Dim) (l : List ℚ), ds.mapM (calcTensorDim L (tileSizes L a)) = .ok l → ∃ n : ℤ, l.prod = n := by
      intro ds
      induction ds with
      | nil => intro l hl; cases hl; exact ⟨1, by simp⟩
      | cons d ds ih =>
        intro l hl
        rw [List.mapM_cons] at hl
        simp only [bind, Except.bind, pure, Except.pure] at hl
        split at hl
        · cases hl
        · rename_i v hv
          split at hl
          · cases hl
          · rename_i l' hl'
            cases hl
            obtain ⟨n, hn⟩ := ih l' hl'
            have hvn : ∃ k : ℤ, v = k := by
              unfold calcTensorDim at hv
              rw [tileSizes_get] at hv
              by_cases hk : d ∈ L.dimSizes.keys
              · rw [if_pos hk] at hv
                cases hv
                exact ha d
              · rw [if_neg hk] at hv
                simp only at hv
                cases hg : L.pi.prLoop.get? d with
                | none =>
                  rw [hg] at hv
                  simp only at hv
                  split_ifs at hv
                  cases hv
                  exact ⟨1, by simp⟩
                | some xy =>
                  obtain ⟨x, y⟩ := xy
                  rw [hg] at hv
                  simp only [bind, Except.bind, pure, Except.pure] at hv
                  split at hv
                  · cases hv
                  · split at hv
                    · cases hv
                    · split at hv
                      · cases hv
                      · split at hv
                        · cases hv
                        · split at hv
                          · cases hv
                          · rename_i p _ _ m hm
                            cases hv
                            have hm' : L.prSizes.get? d = some m := by
                              unfold lookup at hm
                              cases hx : L.prSizes.get? d with
                              | none => rw [hx] at hm; cases hm
                              | some z => rw [hx] at hm; cases hm; rfl
                            obtain ⟨k, hk'⟩ := hs d m hm' (List.mem_map.2 ⟨_, Dict.mem_of_get? hg, rfl⟩)
                            refine ⟨min k p, ?_⟩
                            rw [hk']
                            push_cast
                            rfl
            obtain ⟨k, hk⟩ := hvn
            exact ⟨k * n, by rw [List.prod_cons, hk, hn]; push_cast; rfl⟩
    exact this _ l hl

end tensor

/-! ### One operand in one memory -/

section
variable {Dim : Type} [DecidableEq Dim]

theorem pyRound_le (q : ℚ) : (pyRound q : ℚ) ≤ q + 1 / 2 := by
  unfold pyRound
  simp only
  have h1 := Int.floor_le q
  have h2 := Int.lt_floor_add_one q
  split_ifs <;> push_cast <;> linarith

theorem pyRound_nonneg {q : ℚ} (h : 0 ≤ q) : 0 ≤ pyRound q := by
  have h1 : 0 ≤ ⌊q⌋ := Int.floor_nonneg.2 h
  unfold pyRound
  simp only
  split_ifs <;> omega

theorem flatten_take_succ (a : Lv Dim) (l : Nat) : (a.take (l + 1)).flatten = (a.take l).flatten ++ a.getD l [] := by
  rw [List.take_add_one, List.flatten_append]
  congr 1
  rw [List.getD_eq_getElem?_getD]
  cases a[l]? <;> simp

theorem resident_perm (su tm : Lv Dim) : ∀ l : Nat,
    ((resident su tm l).map fun x => (x.dim, x.size)).Perm ((tm.take l).flatten ++ (su.take (l + 1)).flatten)
  | 0 => by
    unfold resident spLoops
    rw [flatten_take_succ]
    simp [Function.comp_def]
  | l + 1 => by
    rw [Alloc.resident_succ, flatten_take_succ tm, flatten_take_succ su (l + 1), List.map_append, List.map_append]
    have e1 : (tmLoops (tm.getD l [])).map (fun x => (x.dim, x.size)) = tm.getD l [] := Alloc.tmLoops_map _
    have e2 : (spLoops (su.getD (l + 1) [])).map (fun x => (x.dim, x.size)) = su.getD (l + 1) [] := by simp [spLoops, Function.comp_def]
    rw [e1, e2]
    have := ((resident_perm su tm l).append_right (tm.getD l [])).append_right (su.getD (l + 1) [])
    refine this.trans ?_
    rw [List.append_assoc, List.append_assoc, List.append_assoc]
    refine List.Perm.append_left _ ?_
    rw [← List.append_assoc, ← List.append_assoc]
    exact List.Perm.append_right _ List.perm_append_comm

end

variable {Dim : Type} [DecidableEq Dim] {h : Hw} {topo : List Mem} {t : Task Dim} {rl : Operand → List Dim} {rels : List (Relation Dim)}
  {array order : List (Dim × ℚ)}

theorem prLoop_dims (P : Prepared h topo t rl rels array) : ∀ d x y, t.L.pi.prLoop.get? d = some (x, y) →
    d ∉ t.L.dimSizes.keys ∧ x ∈ t.L.dimSizes.keys ∧ y ∈ t.L.dimSizes.keys := by
  intro d x y hg
  have hm := Dict.mem_of_get? hg
  rw [P.pi] at hm
  obtain ⟨r, hr, e⟩ := (mem_prLoop rels P.names _).1 hm
  cases e
  obtain ⟨h1, h2, h3, -⟩ := P.related r hr
  exact ⟨h3, h1, h2⟩

/-- What the allocator reserves for an operand, in elements: the tensor size of the loops inside. -/
theorem reserved (P : Prepared h topo t rl rels array) (O : Order t order) {tm : Operand → Lv Dim} (hfl : ∀ op ∈ t.ops, (tm op).flatten = order)
    {op : Operand} (ho : op ∈ t.ops) (l : Nat) :
    (allocEnv t).tensor op (Alloc.dimSizes (resident (t.su op) (tm op) l ++
        tmLoops ((order.drop (Alloc.pos (tm op) l)).take ((tm op).getD l []).length))) =
      ((calcTensorSize t.L (t.rel op) (tileSizes t.L (inside (t.su op) (tm op) (l + 1) (l + 1)))).toOption).getD 0 := by
  have hx : (order.drop (Alloc.pos (tm op) l)).take ((tm op).getD l []).length = (tm op).getD l [] := by
    unfold Alloc.pos
    have e : order = (((tm op).take l).flatten ++ (tm op).getD l []) ++ ((tm op).drop (l + 1)).flatten := by
      rw [← flatten_take_succ, ← List.flatten_append, List.take_append_drop, hfl op ho]
    conv_lhs => rw [e]
    rw [List.append_assoc, List.drop_left, List.take_left]
  rw [hx]
  have hperm : ((resident (t.su op) (tm op) l ++ tmLoops ((tm op).getD l [])).map fun x => (x.dim, x.size)).Perm
      (inside (t.su op) (tm op) (l + 1) (l + 1)) := by
    rw [List.map_append, Alloc.tmLoops_map]
    refine ((resident_perm (t.su op) (tm op) l).append_right _).trans ?_
    unfold inside
    rw [flatten_take_succ (tm op), List.append_assoc, List.append_assoc]
    exact List.Perm.append_left _ List.perm_append_comm
  have hsub : ∀ x ∈ inside (t.su op) (tm op) (l + 1) (l + 1), x.1 ∈ t.L.dimSizes.keys := by
    intro x hx
    rcases List.mem_append.1 hx with hx | hx
    · apply O.dims
      rw [← hfl op ho]
      exact ((List.take_sublist _ _).flatten).subset hx
    · exact (P.unrolled op ho x (List.mem_append_left _ (((List.take_sublist _ _).flatten).subset hx))).1
  unfold allocEnv
  simp only
  rw [tensorSize_eq (fun x hx => hsub (x.dim, x.size) (hperm.mem_iff.1 (List.mem_map.2 ⟨x, hx, rfl⟩))) (prLoop_dims P)]
  rw [tensor_congr (b := inside (t.su op) (tm op) (l + 1) (l + 1)) (fun d _ _ => extent_perm d hperm) (fun d _ x y _ => ⟨extent_perm x hperm, extent_perm y hperm⟩)]

/-- The cost model counts the tensor size of the loops inside. -/
theorem counted {c : Cfg Dim} {rl : List Dim} {rels : List (Relation Dim)} (S : Shape c rl rels)
    (hc : ∀ r ∈ rels, r.dim1 ∈ rl → ∃ mx, c.L.prSizes.get? r.dim1 = some mx ∧ 1 ≤ mx) {tb : Tables Dim} (ht : tables c = .ok tb) {n : Nat} (hn : n ≤ c.tm.length) :
    ∃ s, calcTensorSize c.L c.rel (tileSizes c.L (inside c.su c.tm n n)) = .ok s ∧ tb.unrolled[n]? = some (pyRound s) := by
  obtain ⟨rs, ab, ra, rb, -, -, h3, -, h5, -, -, -, -, h6, -⟩ := tables_unfold ht
  obtain ⟨a, b, hab, -, lb, hin, -, -, hb⟩ := combine_ok S.levels
  rw [hab] at h3; cases h3
  simp only at h5
  have hs := S.tile_size h5 hc (n + 1)
  have hp := (hin n hn).2
  rw [tensor_congr (b := inside c.su c.tm n n) (fun d _ _ => extent_perm d hp) (fun d _ x y _ => ⟨extent_perm x hp, extent_perm y hp⟩)] at hs
  refine ⟨_, hs, ?_⟩
  · rw [h6, List.getElem?_map, cabl_get]
    · rw [← List.map_take, ← selP_flatten, List.take_take, Nat.min_eq_left (by rw [S.levels]; omega)]
      rfl
    · have hlen : rb.length = b.length := by
        have := Decouple.decouple_product S.lutWF S.uniq h5
        simpa using congrArg List.length this
      rw [List.length_map, List.length_take, hlen, lb, S.levels]
      omega

/-- Loops over irrelevant dimensions do not change the size. -/
theorem tensor_irrelevant (P : Prepared h topo t rl rels array) {op : Operand} (ho : op ∈ t.ops) {a w b : List (Dim × ℚ)}
    (hw : ∀ l ∈ w, l.1 ∈ (t.rel op).ir) : calcTensorSize t.L (t.rel op) (tileSizes t.L (a ++ w ++ b)) =
      calcTensorSize t.L (t.rel op) (tileSizes t.L (a ++ b)) := by
  have hext : ∀ d, d ∉ (t.rel op).ir → extent d (a ++ w ++ b) = extent d (a ++ b) := by
    intro d hd
    rw [extent_append, extent_append, extent_append, extent_one d w (fun l hl hc => hd (hc ▸ hw l hl)), mul_one]
  have hk : ∀ k xy, t.L.pi.prLoop.get? k = some xy → ∃ r ∈ rels, k = r.dim1 ∧ xy = (r.dim2, r.dim3) := by
    intro k xy hg
    have hm := Dict.mem_of_get? hg
    rw [P.pi] at hm
    obtain ⟨r, hr, e⟩ := (mem_prLoop rels P.names _).1 hm
    cases e
    exact ⟨r, hr, rfl, rfl⟩
  refine tensor_congr (fun d hd hdk => hext d ?_) (fun d hd x y hg => ?_)
  · rcases LayerNode.extractRel_spec P.names (P.rel op ho) with ⟨-, h1, h2, h3⟩ | ⟨-, h1, -, h2, h3⟩
    · rcases List.mem_append.1 hd with hd | hd
      · rw [h1] at hd
        rw [h2]
        exact fun hc => hc.2.1 (List.mem_of_mem_filter hd)
      · rw [h3] at hd
        obtain ⟨e, he, rfl⟩ := List.mem_map.1 hd
        obtain ⟨r, hr, rfl⟩ := (mem_prLoop rels P.names _).1 he
        exact absurd hdk (P.related r hr).2.2.1
    · rw [h3] at hd
      simp only [Dict.keys, List.map_nil, List.append_nil] at hd
      rw [h1] at hd
      rw [h2]
      exact fun hc => hc.2.1 (List.mem_of_mem_filter hd)
  · obtain ⟨r, hr, rfl, e⟩ := hk d _ hg
    cases e
    rcases LayerNode.extractRel_spec P.names (P.rel op ho) with ⟨-, h1, h2, h3⟩ | ⟨h0, h1, -, h2, h3⟩
    · refine ⟨hext _ ?_, hext _ ?_⟩ <;> rw [h2] <;> intro hc
      · exact hc.2.2.1 ((mem_prList rels P.names _).2 ⟨r, hr, Or.inr (Or.inl rfl)⟩)
      · exact hc.2.2.1 ((mem_prList rels P.names _).2 ⟨r, hr, Or.inr (Or.inr rfl)⟩)
    · rw [h3] at hd
      simp only [Dict.keys, List.map_nil, List.append_nil] at hd
      rw [h1] at hd
      exact absurd (List.mem_of_mem_filter hd) (h0 r hr)

theorem plain {c : Cfg Dim} {rl : List Dim} {rels : List (Relation Dim)} (S : Shape c rl rels) (hpr : c.rel.pr = []) {m : Lv Dim} {out : Lv (TDim Dim)}
    (h : decouple (layerEnv c.L c.rel) m = .ok out) : out = m.map (fun l => l.map (fun x => (TDim.orig x.1, x.2))) := by
  have hk : ∀ d, Decouple.keyOf (layerEnv c.L c.rel) d = none := by
    intro d
    unfold Decouple.keyOf
    split_ifs
    · rfl
    · have : (layerEnv c.L c.rel).lut = [] := hpr
      rw [this]; rfl
  have hsp := Decouple.decouple_split S.lutWF S.uniq h
  clear h
  induction hsp with
  | nil => rfl
  | @cons l o ls os hl _ ih =>
    rw [ih, List.map_cons]
    congr 1
    obtain ⟨blocks, hb, rfl⟩ := hl
    clear ih
    induction hb with
    | nil => rfl
    | @cons x b xs bs hx _ ihb =>
      unfold Decouple.Split at hx
      rw [hk] at hx
      simp only at hx
      rw [List.flatten_cons, hx, ihb, List.map_cons]; rfl

/-- Partial sums are assumed only where a loop outside accumulates. -/
theorem flag_outside {c : Cfg Dim} {rl : List Dim} {rels : List (Relation Dim)} (S : Shape c rl rels) (hpr : c.rel.pr = []) {tb : Tables Dim}
    (ht : tables c = .ok tb) {i : Nat} (hi : i ≤ c.tm.length) (hb : pyGet (psumFlags (isIr c) tb.ra) i = .ok true) :
    ∃ l ∈ outside c.su c.tm i (i + 1), l.1 ∈ c.rel.ir := by
  obtain ⟨rs, ab, ra, rb, _, _, h3, h4, _, _, _, e1, _⟩ := tables_unfold ht
  obtain ⟨a, b', hab, la, _, _, hout, pa, _⟩ := combine_ok S.levels
  rw [hab] at h3; cases h3
  simp only at h4
  have hra := plain S hpr h4
  have lra : ra.length = c.su.length := by rw [hra]; simp [la]
  have hpl := pyGet_of hb
  rw [e1, psum_get _ _ _ (by rw [lra, S.levels]; omega)] at hpl
  injection hpl with hpl
  rw [List.any_eq_true, hra, ← List.map_drop, ← List.map_flatten] at hpl
  obtain ⟨x, hx, hxx⟩ := hpl
  obtain ⟨l, hl', rfl⟩ := List.mem_map.1 hx
  simp only [isIr, Bool.and_eq_true, decide_eq_true_eq] at hxx
  exact ⟨l, (hout i hi).mem_iff.1 hl', hxx.1⟩

/-- The bits that the cost model counts for an operand in a memory are at most those that the allocator reserved, up to the rounding of the number of
elements. -/
theorem used_le (P : Prepared h topo t rl rels array) (O : Order t order) (hfp : t.finalPrecision ≤ t.precision .out) (hpr : (t.rel .out).pr = [])
    {j : Job Dim} (hj : mapOrder h topo t order = .ok j) {tm : Operand → Lv Dim} (ha : allocate h topo t order = .ok tm)
    {fr : Dict Operand (Evaluate.OpInfo Dim)} (hfr : Evaluate.mapping h j false = .ok fr) {op : Operand} (ho : op ∈ t.ops) {lv : Nat} {m : Mem}
    (hm : (h.levels op)[lv]? = some m) :
    util h fr (op, lv) * m.size ≤ Alloc.heldBits (allocEnv t) order (tm op) op lv ((tm op).getD lv []).length + t.precision op / 2 ∧
    ((∀ l ∈ (t.su op).flatten, ∃ n : ℕ, l.2 = n) →
      util h fr (op, lv) * m.size ≤ Alloc.heldBits (allocEnv t) order (tm op) op lv ((tm op).getD lv []).length) := by
  have R := mapped P O hj
  obtain ⟨tm', ha', e1, e2, e3, e4, e5, e6, e7, e8, e9, e10, e11, e12⟩ := mapOrder_ok P hj
  rw [ha] at ha'
  cases ha'
  obtain ⟨k1, k2, k3, k4, k5, -⟩ := e12 op ho
  have ho' : op ∈ j.ops := by rw [e1]; exact ho
  obtain ⟨tb, prec, ht, hp, hall⟩ := Evaluate.util_at R hfr ho' hm
  have S := R.shape false op ho'
  have hlt : lv < (h.levels op).length := (List.getElem?_eq_some_iff.1 hm).1
  have hlt' : lv + 1 ≤ (cfg h j false op).tm.length := by change lv + 1 ≤ (j.tm op).length; omega
  obtain ⟨s, hs1, hs2⟩ := counted S (fun r hr _ => by
    change ∃ mx, j.L.prSizes.get? r.dim1 = some mx ∧ 1 ≤ mx
    rw [e3]
    obtain ⟨n, g1, g2⟩ := P.sizes r hr
    exact ⟨n, g1, by exact_mod_cast g2⟩) ht hlt'
  have hs0 : 0 ≤ pyRound s := by exact_mod_cast (Evaluate.tables_nonneg S R.sizes ht).1 _ (List.mem_of_getElem? hs2)
  -- the same number of elements
  have hins : inside (t.su op) (j.tm op) (lv + 1) (lv + 1) = ((tm op).take (lv + 1)).flatten ++
      ((tm op).drop (lv + 1)).flatten.takeWhile (fun l => decide (l.1 ∈ (t.rel op).ir)) ++ ((t.su op).take (lv + 1)).flatten := by
    unfold inside
    rw [k5]
  have hs1' : calcTensorSize t.L (t.rel op) (tileSizes t.L (inside (t.su op) (tm op) (lv + 1) (lv + 1))) = .ok s := by
    change calcTensorSize j.L (j.rel op) (tileSizes j.L (inside (j.su op) (j.tm op) (lv + 1) (lv + 1))) = .ok s at hs1
    rw [e3, e4, e7, hins, tensor_irrelevant P ho (fun l hl => by simpa using TemporalMapping.mem_takeWhile_imp (p := fun l : Dim × ℚ => decide (l.1 ∈ (t.rel op).ir)) hl)] at hs1
    exact hs1
  have hheld : Alloc.heldBits (allocEnv t) order (tm op) op lv ((tm op).getD lv []).length = s * Alloc.precAt (allocEnv t) order (tm op) op lv := by
    unfold Alloc.heldBits
    have := reserved P O (tm := tm) (fun op ho => (e12 op ho).1) ho lv
    rw [hs1'] at this
    change (allocEnv t).tensor op _ = s at this
    rw [← this]
    rfl
  -- the precision
  have hq : ∃ p : ℚ, prec[lv + 1]? = some p ∧ p ≤ Alloc.precAt (allocEnv t) order (tm op) op lv := by
    by_cases hop : op = .out
    · subst hop
      rw [if_pos rfl] at hp
      obtain ⟨y, hy1, hy2⟩ := (MapInfo.mapM_get hp).2 (lv + 1) (lv + 1) (by rw [List.getElem?_range (by omega)])
      refine ⟨y, hy2, ?_⟩
      simp only [bind, Except.bind] at hy1
      cases hb : pyGet (psumFlags (isIr (cfg h j false .out)) tb.ra) (lv + 1) with
      | error e => rw [hb] at hy1; cases hy1
      | ok b =>
        rw [hb] at hy1
        cases hy1
        have c1 : (cfg h j false .out).precision = t.precision .out := by change ((j.precision .out : ℕ) : ℚ) = _; rw [e5]
        have c2 : (cfg h j false .out).finalPrecision = t.finalPrecision := by change ((j.finalPrecision : ℕ) : ℚ) = _; rw [e6]
        have hfp' : (t.finalPrecision : ℚ) ≤ t.precision .out := by exact_mod_cast hfp
        unfold Alloc.precAt
        cases b with
        | false =>
          rw [if_neg (by simp), c2]
          split_ifs
          · exact le_rfl
          · exact hfp'
        | true =>
          rw [if_pos rfl, c1]
          obtain ⟨l, hl1, hl2⟩ := flag_outside S (by change (j.rel .out).pr = []; rw [e4]; exact hpr) ht hlt' hb
          rw [if_neg]
          · exact le_rfl
          · rintro ⟨-, hno⟩
            refine hno l ?_ (by change l.1 ∈ (t.rel .out).ir; rw [← e4]; exact hl2)
            change l ∈ outside (j.su .out) (j.tm .out) (lv + 1) (lv + 1 + 1) at hl1
            unfold outside at hl1
            rw [e7] at hl1
            rcases List.mem_append.1 hl1 with hl1 | hl1
            · apply List.mem_append_right
              have hd : ((j.tm .out).drop (lv + 1)).flatten = order.drop (((j.tm .out).take (lv + 1)).flatten).length := by
                have : order = ((j.tm .out).take (lv + 1)).flatten ++ ((j.tm .out).drop (lv + 1)).flatten := by
                  rw [← List.flatten_append, List.take_append_drop, k4]
                conv_rhs => rw [this]
                rw [List.drop_left]
              rw [hd] at hl1
              have hle : Alloc.pos (tm .out) lv ≤ (((j.tm .out).take (lv + 1)).flatten).length := by
                unfold Alloc.pos
                rw [k5, flatten_take_succ]
                simp only [List.length_append]
                omega
              exact (List.drop_sublist_drop_left order hle).subset hl1
            · apply List.mem_append_left
              exact ((List.drop_sublist_drop_left (t.su .out) (by omega)).flatten).subset hl1
    · rw [if_neg hop] at hp
      cases hp
      refine ⟨(cfg h j false op).precision, by rw [List.getElem?_replicate, if_pos (by omega)], ?_⟩
      unfold Alloc.precAt
      rw [if_neg (by simp [allocEnv, hop])]
      change ((j.precision op : ℕ) : ℚ) ≤ (t.precision op : ℚ)
      rw [e5]
  obtain ⟨p, hp1, hp2⟩ := hq
  have hsz : (m.size : ℚ) ≠ 0 := by exact_mod_cast P.built.size m (P.built.inside op m (List.mem_of_getElem? hm))
  have hA : Alloc.precAt (allocEnv t) order (tm op) op lv ≤ t.precision op := by
    unfold Alloc.precAt
    split_ifs with hc
    · have : op = .out := by simpa [allocEnv] using hc.1
      subst this
      change ((t.finalPrecision : ℕ) : ℚ) ≤ (t.precision .out : ℚ)
      exact_mod_cast hfp
    · exact le_rfl
  have hA0 : 0 ≤ Alloc.precAt (allocEnv t) order (tm op) op lv := by
    unfold Alloc.precAt
    split_ifs
    · exact Nat.cast_nonneg t.finalPrecision
    · exact Nat.cast_nonneg (t.precision op)
  have hz : (0 : ℚ) ≤ pyRound s := by exact_mod_cast hs0
  rw [hall _ p hs2 hp1, div_mul_cancel₀ _ hsz, hheld]
  constructor
  · have h1 : (pyRound s : ℚ) * p ≤ pyRound s * Alloc.precAt (allocEnv t) order (tm op) op lv := mul_le_mul_of_nonneg_left hp2 hz
    have h2 := mul_le_mul_of_nonneg_right (pyRound_le s) hA0
    linarith
  · intro hsu
    have hint : ∃ n : ℤ, s = n := by
      refine tensor_whole (L := t.L) (fun d => ?_) (fun d mx hd hk => ?_) hs1'
      · have : ∀ x ∈ inside (t.su op) (tm op) (lv + 1) (lv + 1), ∃ n : ℤ, x.2 = n := by
          intro x hx
          rcases List.mem_append.1 hx with hx | hx
          · obtain ⟨n, hn, -⟩ := O.whole x (by rw [← k1]; exact ((List.take_sublist _ _).flatten).subset hx)
            exact ⟨n, by rw [hn]; simp⟩
          · obtain ⟨n, hn⟩ := hsu x (((List.take_sublist _ _).flatten).subset hx)
            exact ⟨n, by rw [hn]; simp⟩
        revert this
        generalize inside (t.su op) (tm op) (lv + 1) (lv + 1) = ls
        intro hls
        induction ls with
        | nil => exact ⟨1, by simp [extent]⟩
        | cons x ls ih =>
          obtain ⟨n, hn⟩ := ih (fun y hy => hls y (by simp [hy]))
          obtain ⟨k, hk⟩ := hls x (by simp)
          rw [extent_cons, hn, hk]
          split_ifs
          · exact ⟨k * n, by push_cast; rfl⟩
          · exact ⟨n, by simp⟩
      · obtain ⟨e, he, rfl⟩ := List.mem_map.1 hk
        rw [P.pi] at he
        obtain ⟨r, hr, rfl⟩ := (mem_prLoop rels P.names _).1 he
        obtain ⟨n, g1, -⟩ := P.sizes r hr
        simp only [g1, Option.some.injEq] at hd
        exact ⟨n, by rw [← hd]; simp⟩
    obtain ⟨n, rfl⟩ := hint
    rw [SpatialInternal.pyRound_int] at hz ⊢
    exact mul_le_mul_of_nonneg_left hp2 hz

end Verif.Search
