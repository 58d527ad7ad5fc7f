import Verif.Whole.Spec
import Verif.Evaluate.Lemmas

/-! The spatial mapping that the conversion gives. -/

namespace Verif.Whole

open Conversion (Good Converted Step clean known convert perMemLvl level levels mulIn)
open SpatialMapping (SM SMWF factor)
open MapInfo (iters Lv Cfg Shape)
open Latency (Operand)
open LayerNode (Relation)

variable {OA : Type} [DecidableEq OA] {Dim : Type} [DecidableEq Dim]

theorem forall₂_keys {α β K : Type} {R : α → β → Prop} {f : α → K} {g : β → K} (hR : ∀ x y, R x y → g y = f x) : ∀ {l : List α} {l' : List β},
    List.Forall₂ R l l' → l'.map g = l.map f
  | _, _, .nil => rfl
  | _, _, .cons h hs => by rw [List.map_cons, List.map_cons, hR _ _ h, forall₂_keys hR hs]

theorem forall₂_mem {α β : Type} {R : α → β → Prop} : ∀ {l : List α} {l' : List β}, List.Forall₂ R l l' → ∀ y ∈ l', ∃ x ∈ l, R x y
  | _, _, .nil, y, hy => by cases hy
  | _, _, .cons h hs, y, hy => by
    rcases List.mem_cons.1 hy with rfl | hy
    · exact ⟨_, List.mem_cons_self, h⟩
    · obtain ⟨x, hx, hr⟩ := forall₂_mem hs y hy
      exact ⟨x, List.mem_cons_of_mem _ hx, hr⟩

theorem forall₂_prod {R : Dim × ℚ → Dim × ℚ → Prop} (hR : ∀ x y, R x y → 0 ≤ y.2 ∧ y.2 ≤ x.2) : ∀ {l l' : List (Dim × ℚ)}, List.Forall₂ R l l' →
    0 ≤ (l'.map Prod.snd).prod ∧ (l'.map Prod.snd).prod ≤ (l.map Prod.snd).prod
  | _, _, .nil => by simp
  | _, _, .cons h hs => by
    obtain ⟨h1, h2⟩ := hR _ _ h
    obtain ⟨h3, h4⟩ := forall₂_prod hR hs
    simp only [List.map_cons, List.prod_cons]
    exact ⟨mul_nonneg h1 h3, mul_le_mul h2 h4 h3 (h1.trans h2)⟩

theorem filter_prod_le (p : Dim × ℚ → Bool) : ∀ (l : List (Dim × ℚ)), (∀ x ∈ l, 1 ≤ x.2) →
    1 ≤ (l.map Prod.snd).prod ∧ 0 ≤ ((l.filter p).map Prod.snd).prod ∧ ((l.filter p).map Prod.snd).prod ≤ (l.map Prod.snd).prod
  | [], _ => by simp
  | x :: l, h => by
    obtain ⟨h1, h2, h3⟩ := filter_prod_le p l fun y hy => h y (List.mem_cons_of_mem _ hy)
    have hx := h x List.mem_cons_self
    rw [List.map_cons, List.prod_cons, List.filter_cons]
    split
    · rw [List.map_cons, List.prod_cons]
      exact ⟨by nlinarith, mul_nonneg (by linarith) h2, mul_le_mul_of_nonneg_left h3 (by linarith)⟩
    · exact ⟨by nlinarith, h2, by nlinarith⟩

/-- What the conversion keeps of the mapping of the user. -/
theorem converted_facts {dec : Bool} {oaSizes : Dict OA Nat} {sizes : Dict Dim Nat} {user lim : SM OA Dim} (hg : Good oaSizes sizes user)
    (h : Converted dec sizes user user lim lim) :
    SMWF lim ∧ ∀ e' ∈ lim, (∃ e ∈ user, e'.1 = e.1 ∧ 0 ≤ (e'.2.map Prod.snd).prod ∧ (e'.2.map Prod.snd).prod ≤ (e.2.map Prod.snd).prod) ∧
      ∀ y ∈ e'.2, y.1 ∈ sizes.keys ∧ 1 ≤ y.2 := by
  unfold Converted at h
  have hpos : ∀ e ∈ user, ∀ x ∈ e.2, 1 ≤ x.2 := by
    intro e he x hx
    obtain ⟨n, h1, h2⟩ := hg.whole e he x hx
    rw [h2]
    exact_mod_cast h1
  have hfrom : ∀ e' ∈ lim, ∃ e ∈ user, e'.1 = e.1 ∧ List.Forall₂ (Step dec sizes user lim e.1) (known sizes e.2) e'.2 := by
    intro e' he'
    obtain ⟨e, he, h1, h2⟩ := forall₂_mem h e' he'
    obtain ⟨e0, h3, rfl⟩ := List.mem_map.1 (List.mem_filter.1 he).1
    exact ⟨e0, h3, h1, h2⟩
  refine ⟨⟨?_, ?_⟩, ?_⟩
  · unfold Dict.WF Dict.keys
    rw [forall₂_keys (f := Prod.fst) (fun x y hr => hr.1) h]
    unfold clean
    refine ((List.filter_sublist.map Prod.fst).nodup ?_)
    rw [List.map_map]
    exact hg.wf.1
  · intro e' he'
    obtain ⟨e, he, -, h2⟩ := hfrom e' he'
    unfold Dict.WF Dict.keys
    rw [forall₂_keys (f := Prod.fst) (fun x y hr => hr.dim) h2]
    exact (List.filter_sublist.map Prod.fst).nodup (hg.wf.2 e he)
  · intro e' he'
    obtain ⟨e, he, h1, h2⟩ := hfrom e' he'
    constructor
    · obtain ⟨a1, a2⟩ := forall₂_prod (fun x y hr => ⟨by linarith [hr.pos], hr.le⟩) h2
      obtain ⟨-, -, a3⟩ := filter_prod_le (fun x => decide (x.1 ∈ sizes.keys)) e.2 (hpos e he)
      exact ⟨e, he, h1, a1, a2.trans a3⟩
    · intro y hy
      obtain ⟨x, hx, hr⟩ := forall₂_mem h2 y hy
      have := (List.mem_filter.1 hx).2
      exact ⟨by rw [hr.dim]; simpa using this, hr.pos⟩

/-! ### Levels -/

theorem mulIn_keys {d : Dict Dim ℚ} {x : Dim × ℚ} {k : Dim} (h : k ∈ (mulIn d x).keys) : k ∈ d.keys ∨ k = x.1 := by
  unfold mulIn at h
  split at h <;> (rw [Dict.keys_set] at h; split at h <;> first | exact Or.inl h | (simp at h; tauto))

theorem foldl_mulIn_keys : ∀ (l : List (Dim × ℚ)) {d : Dict Dim ℚ} {k : Dim}, k ∈ (l.foldl mulIn d).keys → k ∈ d.keys ∨ k ∈ l.map Prod.fst
  | [], d, k, h => Or.inl h
  | x :: l, d, k, h => by
    rcases foldl_mulIn_keys l h with h | h
    · rcases mulIn_keys h with h | h
      · exact Or.inl h
      · exact Or.inr (by simp [h])
    · exact Or.inr (by simp at h ⊢; tauto)

theorem level_keys : ∀ (s : List OA) (m : SM OA Dim) (d : Dict Dim ℚ) (S : Dim → Prop), (∀ e ∈ m, ∀ x ∈ e.2, S x.1) → (∀ k ∈ d.keys, S k) →
    (∀ e ∈ (level s m d).1, ∀ x ∈ e.2, S x.1) ∧ ∀ k ∈ (level s m d).2.keys, S k
  | [], m, d, S, hm, hd => ⟨hm, hd⟩
  | oa :: s, m, d, S, hm, hd => by
    unfold level
    cases hg : m.get? oa with
    | none => exact level_keys s m d S hm hd
    | some l =>
      refine level_keys s _ _ S (fun e he => hm e (List.mem_filter.1 he).1) (fun k hk => ?_)
      rcases foldl_mulIn_keys l hk with h | h
      · exact hd k h
      · obtain ⟨x, hx, rfl⟩ := List.mem_map.1 h
        exact hm _ (Dict.mem_of_get? hg) x hx

theorem levels_keys (S : Dim → Prop) : ∀ (s : List (List OA)) (m : SM OA Dim), (∀ e ∈ m, ∀ x ∈ e.2, S x.1) →
    (∀ e ∈ (levels s m).1, ∀ x ∈ e.2, S x.1) ∧ ∀ d ∈ (levels s m).2, ∀ k ∈ d.keys, S k
  | [], m, hm => ⟨hm, by simp [levels]⟩
  | s :: t, m, hm => by
    obtain ⟨h1, h2⟩ := level_keys s m [] S hm (by simp [Dict.keys])
    obtain ⟨h3, h4⟩ := levels_keys S t _ h1
    unfold levels
    refine ⟨h3, fun d hd => ?_⟩
    rcases List.mem_cons.1 hd with rfl | hd
    · exact h2
    · exact h4 d hd

/-- The unrollings at the levels of an operand are over dimensions of the mapping, and none is smaller than one. -/
theorem perMemLvl_loops (s : List (List OA)) {m : SM OA Dim} (hm : SMWF m) {S : Dim → Prop} (hS : ∀ e ∈ m, ∀ x ∈ e.2, S x.1 ∧ 1 ≤ x.2) :
    ∀ l ∈ (perMemLvl s m).flatten, S l.1 ∧ 1 ≤ l.2 := by
  intro l hl
  obtain ⟨d, hd, hld⟩ := List.mem_flatten.1 hl
  obtain ⟨i, hi⟩ := List.getElem?_of_mem hd
  obtain ⟨hw, hf⟩ := (Conversion.per_level_placement s m hm).2 i d hi
  constructor
  · obtain ⟨h1, h2⟩ := levels_keys S s m (fun e he x hx => (hS e he x hx).1)
    unfold perMemLvl at hd
    rcases List.mem_append.1 hd with hd | hd
    · exact h2 d hd l.1 (List.mem_map.2 ⟨l, hld, rfl⟩)
    · rw [List.mem_singleton] at hd
      subst hd
      rcases foldl_mulIn_keys _ (show l.1 ∈ Dict.keys _ from List.mem_map.2 ⟨l, hld, rfl⟩) with h | h
      · simp [Dict.keys] at h
      · obtain ⟨x, hx, hx2⟩ := List.mem_map.1 h
        obtain ⟨e, he, hxe⟩ := List.mem_flatMap.1 hx
        rw [← hx2]
        exact h1 e he x hxe
  · have hv : factor d l.1 = l.2 := by
      unfold factor
      rw [Dict.get?_of_mem hw (show (l.1, l.2) ∈ d from hld)]
      rfl
    rw [← hv, hf l.1]
    apply List.one_le_prod
    intro q hq
    obtain ⟨e, he, rfl⟩ := List.mem_map.1 hq
    exact Conversion.factor_ge (fun x hx => (hS e (List.mem_filter.1 he).1 x hx).2) _

/-! ### The array -/

theorem prod_del {K : Type} [DecidableEq K] : ∀ {d : Dict K Nat} (_ : d.WF) {k : K} {s : Nat} (_ : d.get? k = some s),
    (d.map Prod.snd).prod = s * ((d.del k).map Prod.snd).prod
  | [], _, k, s, h => by cases h
  | e :: d, hw, k, s, h => by
    obtain ⟨h1, h2⟩ := List.nodup_cons.1 (show (e.1 :: Dict.keys d).Nodup from hw)
    rw [Dict.get?_cons] at h
    by_cases hk : e.1 = k
    · rw [if_pos hk] at h
      cases h
      have : Dict.del (e :: d) k = d := by
        unfold Dict.del
        rw [List.filter_cons_of_neg (by simp [hk]), List.filter_eq_self]
        intro x hx
        have : x.1 ≠ k := fun hc => h1 (by rw [hk, ← hc]; exact List.mem_map.2 ⟨x, hx, rfl⟩)
        simpa using this
      rw [this]
      simp
    · rw [if_neg hk] at h
      have : Dict.del (e :: d) k = e :: Dict.del d k := by
        unfold Dict.del
        rw [List.filter_cons_of_pos (by simpa using hk)]
      rw [this, List.map_cons, List.prod_cons, List.map_cons, List.prod_cons, prod_del (d := d) h2 h]
      ring

theorem prod_units {K : Type} [DecidableEq K] : ∀ (l : List (K × ℚ)) {sizes : Dict K Nat} (_ : sizes.WF) (_ : ∀ e ∈ sizes, 1 ≤ e.2) (_ : (l.map Prod.fst).Nodup)
    (_ : ∀ e ∈ l, 0 ≤ e.2 ∧ ∃ s, sizes.get? e.1 = some s ∧ e.2 ≤ s), 0 ≤ (l.map Prod.snd).prod ∧ (l.map Prod.snd).prod ≤ ((sizes.map Prod.snd).prod : Nat)
  | [], sizes, _, h1, _, _ => by
    simp only [List.map_nil, List.prod_nil, zero_le_one, true_and]
    have : 1 ≤ (sizes.map Prod.snd).prod := List.one_le_prod (fun x hx => by obtain ⟨e, he, rfl⟩ := List.mem_map.1 hx; exact h1 e he)
    exact_mod_cast this
  | e :: l, sizes, hw, h1, hn, h => by
    obtain ⟨n1, n2⟩ := List.nodup_cons.1 (show (e.1 :: l.map Prod.fst).Nodup from hn)
    obtain ⟨h0, s, hs, hle⟩ := h e List.mem_cons_self
    obtain ⟨i1, i2⟩ := prod_units l (sizes := sizes.del e.1) (Dict.WF.del hw _) (fun x hx => h1 x (List.mem_filter.1 hx).1) n2 (fun x hx => by
      obtain ⟨g0, s', g1, g2⟩ := h x (List.mem_cons_of_mem _ hx)
      refine ⟨g0, s', ?_, g2⟩
      rw [Dict.get?_del, if_neg, g1]
      intro hc
      exact n1 (by rw [hc]; exact List.mem_map.2 ⟨x, hx, rfl⟩))
    rw [List.map_cons, List.prod_cons, prod_del hw hs]
    push_cast
    exact ⟨mul_nonneg h0 i1, mul_le_mul hle i2 i1 (h0.trans hle)⟩

/-! ### `SpatialMappingInternal` -/

section
variable {l : LayerIn Dim} {rl : Operand → List Dim} {rels : List (Relation Dim)} (O : LayerOk l rl rels)

/-- A mapping with given spatial loops and no temporal loops; only the layer and the spatial loops matter. -/
def onlySpatial (l : LayerIn Dim) (op : Operand) (su : Lv Dim) : Cfg Dim where
  L := l.L
  rel := l.rel op
  su := su
  tm := List.replicate (su.length - 1) []
  stationary := 1
  totalCycle := 1
  precision := 1
  finalPrecision := 1
  noAccess := false
  bw := fun _ => none

include O in
theorem shape_spatial {op : Operand} (ho : op ∈ l.ops) {su : Lv Dim} (hne : su ≠ []) (hsu : ∀ x ∈ su.flatten, x.1 ∈ l.L.dimSizes.keys ∧ 1 ≤ x.2) :
    Shape (onlySpatial l op su) (rl op) rels where
  names := O.names
  pi := O.pi
  rel := O.rel op ho
  index := O.index op ho
  mix := O.mix op ho
  vars := O.vars op ho
  wf := O.wf
  related := O.related
  dims := O.dims op ho
  levels := by
    have := List.length_pos_iff.2 hne
    simp only [onlySpatial, List.length_replicate]
    omega
  loops := by
    intro x hx
    rcases List.mem_append.1 hx with hx | hx
    · simp only [onlySpatial] at hx
      obtain ⟨y, hy, hxy⟩ := List.mem_flatten.1 hx
      rw [List.eq_of_mem_replicate hy] at hxy
      cases hxy
    · exact hsu x hx

include O in
theorem internal_ok {su : Operand → Lv Dim} (hne : ∀ op ∈ l.ops, su op ≠ []) (hsu : ∀ op ∈ l.ops, ∀ x ∈ (su op).flatten, x.1 ∈ l.L.dimSizes.keys ∧ 1 ≤ x.2)
    {z : List (Dim × ℚ)} (hz : ∀ op ∈ l.ops, iters (su op).flatten = iters z) : internal l su = .ok () := by
  have hp : ∀ r ∈ rels, ∃ m, l.L.prSizes.get? r.dim1 = some m ∧ 0 < m := by
    intro r hr
    obtain ⟨m, h1, h2⟩ := O.sizes r hr
    exact ⟨m, h1, by exact_mod_cast h2⟩
  have hone : ∀ op ∈ l.ops, ∃ rs, Decouple.decouple (Decouple.layerEnv l.L (l.rel op)) (su op) = .ok rs := fun op ho =>
    (shape_spatial O ho (hne op ho) (hsu op ho)).decouple_ok hp (su op) fun x hx => (hsu op ho x hx).2
  obtain ⟨ms, hms⟩ := MapInfo.mapM_of (l := l.ops) hone
  obtain ⟨hlen, hget⟩ := MapInfo.mapM_get hms
  have hpair : List.Forall₂ (fun e o => Decouple.decouple e.1 e.2 = .ok o) (l.ops.map fun op => (Decouple.layerEnv l.L (l.rel op), su op)) ms := by
    rw [List.forall₂_iff_get]
    refine ⟨by simp [hlen], fun i h1 h2 => ?_⟩
    rw [List.length_map] at h1
    obtain ⟨b, hb1, hb2⟩ := hget i _ (List.getElem?_eq_getElem h1)
    have : ms[i] = b := by
      rw [List.getElem?_eq_getElem h2] at hb2
      exact Option.some.inj hb2
    simpa [this] using hb1
  have hb := SpatialInternal.check_bottom_decoupled _ ms z (by
      intro hc
      rw [List.map_eq_nil_iff] at hc
      have := O.out
      rw [hc] at this
      cases this) (by
      intro e he
      obtain ⟨op, ho, rfl⟩ := List.mem_map.1 he
      have hv := shape_spatial O ho (hne op ho) (hsu op ho)
      exact ⟨hv.lutWF, hv.uniq, hne op ho, hz op ho⟩) hpair
  have hnz : ∀ p ∈ l.ops.zip ms, ∀ x ∈ p.2.flatten, x.2 ≠ 0 := by
    intro p hp' x hx
    obtain ⟨i, hi⟩ := List.getElem?_of_mem hp'
    rw [List.getElem?_zip_eq_some] at hi
    obtain ⟨i1, i2⟩ := hi
    have ho := List.mem_of_getElem? i1
    obtain ⟨b, hb1, hb2⟩ := hget i _ i1
    rw [i2] at hb2
    cases hb2
    have hv := shape_spatial O ho (hne p.1 ho) (hsu p.1 ho)
    exact MapInfo.split_ne (Decouple.decouple_split hv.lutWF hv.uniq hb1) (fun y hy h0 => by have := (hsu p.1 ho y hy).2; rw [h0] at this; linarith) x hx
  have hrat : ∀ p ∈ l.ops.zip ms, ∀ (q : Decouple.TDim Dim → Bool), ∃ r, SpatialInternal.stepRatios (SpatialInternal.above (p.2.map (SpatialInternal.selProd q))) = .ok r := by
    intro p hp' q
    refine SpatialInternal.stepRatios_total _ (fun x hx => ?_)
    unfold SpatialInternal.above at hx
    obtain ⟨n, _, rfl⟩ := List.mem_map.1 hx
    refine MapInfo.prod_ne (fun y hy => ?_)
    obtain ⟨k, hk, rfl⟩ := List.mem_map.1 (List.mem_of_mem_drop hy)
    exact MapInfo.selP_ne q (fun x hx => hnz p hp' x (List.mem_flatten.2 ⟨k, hk, hx⟩))
  obtain ⟨r1, hr1⟩ := MapInfo.mapM_of (l := l.ops.zip ms) (f := fun p => SpatialInternal.serveScope (isR l.L (l.rel p.1)) p.2) (fun p hp' => by
    unfold SpatialInternal.serveScope SpatialInternal.unitDuplicate
    rw [SpatialInternal.unrollIr_eq]
    exact hrat p hp' _)
  obtain ⟨r2, hr2⟩ := MapInfo.mapM_of (l := l.ops.zip ms) (f := fun p => SpatialInternal.bwBoost (isR l.L (l.rel p.1)) p.2) (fun p hp' => by
    unfold SpatialInternal.bwBoost SpatialInternal.unitUnique
    rw [SpatialInternal.unrollR_eq]
    obtain ⟨r, hr⟩ := hrat p hp' (isR l.L (l.rel p.1))
    exact ⟨r.map SpatialInternal.pyRound, by rw [hr]; rfl⟩)
  unfold internal
  simp only [bind, Except.bind, pure, Except.pure]
  rw [hms]
  simp only
  rw [hb]
  simp only
  rw [hr1]
  simp only
  rw [hr2]

end

end Verif.Whole
