import Verif.MapInfo.Unfold

/-! No exception for valid mappings, and the partial sum flags. -/

namespace Verif.MapInfo

open LayerNode Decouple
open SpatialInternal (pyRound pyDiv pyRound_int unitUnique bwBoost above above_get selProd unrollR_eq bw_boost stepRatios_total)
open Energy (trunc)
open Cme (FourWay Dir)

variable {Dim : Type} [DecidableEq Dim]

theorem split_ne {env : DEnv Dim} {levels : Lv Dim} {out : Lv (TDim Dim)}
    (h : List.Forall₂ (fun l o => ∃ blocks, List.Forall₂ (Split env) l blocks ∧ o = blocks.flatten) levels out)
    (hp : ∀ l ∈ levels.flatten, l.2 ≠ 0) : ∀ x ∈ out.flatten, x.2 ≠ 0 := by
  induction h with
  | nil => simp
  | @cons l o ls os hl _ ih =>
    intro x hx
    rw [List.flatten_cons, List.mem_append] at hx
    rcases hx with hx | hx
    · have hp' : ∀ y ∈ l, y.2 ≠ 0 := fun y hy => hp y (by simp [hy])
      obtain ⟨blocks, hb, rfl⟩ := hl
      clear hp ih
      induction hb with
      | nil => simp at hx
      | @cons y b ys bs hy _ ihb =>
        rw [List.flatten_cons, List.mem_append] at hx
        rcases hx with hx | hx
        · have hy0 := hp' y (by simp)
          unfold Split at hy
          cases hk : keyOf env y.1 with
          | none =>
            rw [hk] at hy
            simp only at hy
            rw [hy, List.mem_singleton] at hx
            rw [hx]; exact hy0
          | some k =>
            rw [hk] at hy
            obtain ⟨u, v, rfl, huv⟩ := hy
            rw [← huv] at hy0
            simp only [List.mem_cons, List.not_mem_nil, or_false] at hx
            rcases hx with rfl | rfl
            · exact left_ne_zero_of_mul hy0
            · exact right_ne_zero_of_mul hy0
        · exact ihb (fun z hz => hp' z (by simp [hz])) hx
    · exact ih (fun y hy => hp y (by rw [List.flatten_cons]; exact List.mem_append_right _ hy)) x hx

theorem prod_ne {l : List ℚ} (h : ∀ x ∈ l, x ≠ 0) : l.prod ≠ 0 := by
  induction l with
  | nil => simp
  | cons a l ih =>
    rw [List.prod_cons]
    exact mul_ne_zero (h a (by simp)) (ih (fun x hx => h x (by simp [hx])))

theorem selP_ne {N : Type} (p : N → Bool) {l : List (N × ℚ)} (h : ∀ x ∈ l, x.2 ≠ 0) : selP p l ≠ 0 := by
  apply prod_ne
  intro y hy
  obtain ⟨x, hx, rfl⟩ := List.mem_map.1 hy
  exact h x (List.mem_of_mem_filter hx)

theorem cabl_ne {l : List ℚ} (h : ∀ x ∈ l, x ≠ 0) : ∀ x ∈ cabl l, x ≠ 0 := by
  intro x hx
  unfold cabl at hx
  obtain ⟨n, _, rfl⟩ := List.mem_map.1 hx
  exact prod_ne (fun y hy => h y (List.mem_of_mem_take hy))

section valid
variable {c : Cfg Dim} {rl : List Dim} {rels : List (Relation Dim)} (hv : Shape c rl rels)
  (hp : ∀ r ∈ rels, ∃ m, c.L.prSizes.get? r.dim1 = some m ∧ 0 < m)
include hv hp

theorem Shape.data_dims : ∀ k x y, (k, (x, y)) ∈ c.rel.pr → k ≠ x ∧ k ≠ y ∧ c.L.pi.prLoop.get? k = some (x, y) ∧
    (∃ ca cb, c.L.pi.scaling.get? k = some (ca, cb) ∧ (1 ≤ ca ∨ 1 ≤ cb)) ∧ ∃ m, c.L.prSizes.get? k = some m ∧ 0 < m := by
  intro k x y hk
  obtain ⟨_, r, hr, rfl, e⟩ := hv.lut_mem (k := k) (xy := (x, y)) hk
  obtain ⟨rfl, rfl⟩ : x = r.dim2 ∧ y = r.dim3 := by simpa using e
  obtain ⟨k2, k3, k1, kc⟩ := hv.related r hr
  have hs := extractPr_spec rels hv.names
  refine ⟨fun e => k1 (e ▸ k2), fun e => k1 (e ▸ k3), ?_, ⟨r.coef2, r.coef3, ?_, Or.inl kc⟩, hp r hr⟩
  · rw [hv.pi]
    refine Dict.get?_of_mem ?_ ?_
    · rw [hs.1]; unfold Dict.WF Dict.keys; simpa [Function.comp_def] using hv.names
    · rw [hs.1]; exact List.mem_map.2 ⟨r, hr, rfl⟩
  · rw [hv.pi]
    refine Dict.get?_of_mem ?_ ?_
    · rw [hs.2.1]; unfold Dict.WF Dict.keys; simpa [Function.comp_def] using hv.names
    · rw [hs.2.1]; exact List.mem_map.2 ⟨r, hr, rfl⟩

theorem Shape.decouple_ok (m : Lv Dim) (hm : ∀ l ∈ m.flatten, 1 ≤ l.2) : ∃ out, decouple (layerEnv c.L c.rel) m = .ok out :=
  decouple_layer_total hv.lutWF hv.uniq (hv.data_dims hp) m hm

theorem Shape.decouple_pos {m : Lv Dim} (hm : ∀ l ∈ m.flatten, 1 ≤ l.2) {out : Lv (TDim Dim)}
    (h : decouple (layerEnv c.L c.rel) m = .ok out) : ∀ x ∈ out.flatten, 0 < x.2 :=
  Decouple.decouple_pos hv.lutWF hv.uniq (layer_tdim (hv.data_dims hp)) hm h

/-- The tables are computed without exception, one entry per level. -/
theorem Shape.tables_ok : ∃ t, tables c = .ok t ∧ t.ra.length = c.su.length ∧ t.unique.length = c.su.length ∧
    t.boost.length = c.tm.length ∧ t.unrolled.length = c.su.length ∧ t.elems.length = c.su.length ∧ t.raw.length = c.su.length ∧
    t.raw2.length = c.su.length ∧ t.caal.length = c.su.length + 2 ∧ (∀ x ∈ t.unique, x ≠ 0) := by
  have all1 : ∀ l ∈ c.tm.flatten ++ c.su.flatten, 1 ≤ l.2 := fun l hl => (hv.loops l hl).2
  obtain ⟨a, b, hab, la, lb, _, _, pa, pb⟩ := combine_ok hv.levels
  have hsu : ∀ l ∈ c.su.flatten, 1 ≤ l.2 := fun l hl => all1 l (by simp only [List.mem_append]; exact Or.inr hl)
  have ha : ∀ l ∈ a.flatten, 1 ≤ l.2 := fun l hl => all1 l (pa.mem_iff.1 hl)
  have hb : ∀ l ∈ b.flatten, 1 ≤ l.2 := fun l hl => all1 l (pb.mem_iff.1 hl)
  obtain ⟨rs, hrs⟩ := hv.decouple_ok hp c.su hsu
  obtain ⟨ra, hra⟩ := hv.decouple_ok hp a ha
  obtain ⟨rb, hrb⟩ := hv.decouple_ok hp b hb
  have n0 : ∀ {m : Lv Dim}, (∀ l ∈ m.flatten, 1 ≤ l.2) → ∀ l ∈ m.flatten, l.2 ≠ 0 := by
    intro m hm l hl h0
    have := hm l hl
    rw [h0] at this; linarith
  have ns := split_ne (decouple_split hv.lutWF hv.uniq hrs) (n0 hsu)
  have na := split_ne (decouple_split hv.lutWF hv.uniq hra) (n0 ha)
  have nb := split_ne (decouple_split hv.lutWF hv.uniq hrb) (n0 hb)
  have ls := split_length (decouple_split hv.lutWF hv.uniq hrs)
  have lra := split_length (decouple_split hv.lutWF hv.uniq hra)
  have lrb := split_length (decouple_split hv.lutWF hv.uniq hrb)
  have hlev : ∀ {m : Lv (TDim Dim)} (p : TDim Dim → Bool), (∀ x ∈ m.flatten, x.2 ≠ 0) → ∀ y ∈ m.map (selP p), y ≠ 0 := by
    intro m p hm y hy
    obtain ⟨l, hl, rfl⟩ := List.mem_map.1 hy
    exact selP_ne p (fun x hx => hm x (List.mem_flatten.2 ⟨l, hl, hx⟩))
  have hun : ∀ x ∈ unitUnique (isR c) rs, x ≠ 0 := by
    intro x hx
    unfold unitUnique above at hx
    obtain ⟨n, _, rfl⟩ := List.mem_map.1 hx
    refine prod_ne (fun y hy => ?_)
    rw [unrollR_eq] at hy
    exact hlev (isR c) ns y (List.mem_of_mem_drop hy)
  obtain ⟨sr, hsr⟩ := stepRatios_total _ hun
  have stepLen : ∀ (l r : List ℚ), SpatialInternal.stepRatios l = .ok r → r.length = l.length - 1 := by
    intro l
    induction l with
    | nil => intro r h; cases h; rfl
    | cons x l ih =>
      intro r h
      cases l with
      | nil => cases h; rfl
      | cons y l =>
        unfold SpatialInternal.stepRatios pyDiv at h
        by_cases hy : y = 0
        · rw [if_pos hy] at h; cases h
        · rw [if_neg hy] at h
          cases hr : SpatialInternal.stepRatios (y :: l) with
          | error e => simp only [bind, Except.bind, hr] at h; cases h
          | ok rr =>
            simp only [bind, Except.bind, hr, pure, Except.pure] at h
            cases h
            have := ih rr hr
            simp only [List.length_cons, this]
            omega
  have hbo : bwBoost (isR c) rs = .ok (sr.map pyRound) := by unfold bwBoost; rw [hsr]; rfl
  have hr1 := rawAccess_ok c.L.dimSizes.values.prod (cabl (ra.map (selP (isIr c)))) (cabl_ne (hlev _ na))
  have hr2 := rawAccess_ok c.L.dimSizes.values.prod (cabl ((rb.take c.su.length).map (selP (isIr c)))) (cabl_ne (fun y hy => by
    obtain ⟨l, hl, rfl⟩ := List.mem_map.1 hy
    exact selP_ne _ (fun x hx => nb x (List.mem_flatten.2 ⟨l, List.mem_of_mem_take hl, hx⟩))))
  have hul : (unitUnique (isR c) rs).length = c.su.length := by simp [unitUnique, above, unrollR_eq, ls]
  refine ⟨_, by
    unfold tables
    rw [hrs, hab]
    simp only [bind, Except.bind, hbo, hra, hrb, hr1, hr2, pure, Except.pure]
    rfl, ?_⟩
  refine ⟨by rw [lra, la], hul, ?_, ?_, ?_, ?_, ?_, ?_, hun⟩
  · simp only [List.length_map]; rw [stepLen _ _ hsr, hul, hv.levels]; rfl
  · simp [cabl_length, lrb, lb]
  · simp [cabl_length, lrb, lb, hul]
  · simp [cabl_length, lra, la]
  · simp [cabl_length, lrb, lb]
  · simp [above, lra, la]

end valid

/-- The flags: some loop outside is irrelevant and not of size one. -/
theorem psum_get (ir : TDim Dim → Bool) (m : Lv (TDim Dim)) (lv : Nat) (h : lv < m.length) :
    (psumFlags ir m)[lv]? = some ((m.drop (lv + 1)).flatten.any (fun x => ir x.1 && decide (1 < x.2))) := by
  unfold psumFlags
  simp only [← List.map_reverse, List.reverse_reverse, List.length_map]
  have hany : ∀ (l : Lv (TDim Dim)), (l.map (fun l => l.any (fun x => ir x.1 && decide (1 < x.2)))).any id =
      l.flatten.any (fun x => ir x.1 && decide (1 < x.2)) := by
    intro l
    induction l with
    | nil => rfl
    | cons a l ih => rw [List.map_cons, List.any_cons, ih, List.flatten_cons, List.any_append]; rfl
  by_cases hl : lv + 1 < m.length
  · rw [List.getElem?_append_left (by simp; omega), List.getElem?_drop, List.getElem?_map, List.getElem?_range (by omega), Option.map_some,
      ← List.map_drop, hany, Nat.add_comm 1 lv]
  · have he : lv + 1 = m.length := by omega
    rw [List.getElem?_append_right (by simp; omega), he, List.drop_length]
    have : lv - (List.drop 1 (List.map (fun lv => (List.drop lv (List.map (fun l => l.any fun x => ir x.1 && decide (1 < x.2)) m)).any id)
        (List.range m.length))).length = 0 := by simp; omega
    rw [this]; rfl

theorem psum_length (ir : TDim Dim → Bool) (m : Lv (TDim Dim)) (h : m ≠ []) : (psumFlags ir m).length = m.length := by
  have := List.length_pos_iff.2 h
  unfold psumFlags; simp; omega

end Verif.MapInfo
