import Verif.MapInfo.Spec
import Verif.SpatialInternal.Props

/-! Products of loop sizes before and after splitting. -/

namespace Verif.MapInfo

open LayerNode Decouple

variable {Dim : Type} [DecidableEq Dim]

/-! ### Products -/

theorem extent_nil (d : Dim) : extent d [] = 1 := rfl

theorem extent_append (d : Dim) (a b : List (Dim × ℚ)) : extent d (a ++ b) = extent d a * extent d b := by simp [extent]

theorem extent_cons (d : Dim) (l : Dim × ℚ) (ls : List (Dim × ℚ)) :
    extent d (l :: ls) = (if l.1 = d then l.2 else 1) * extent d ls := by
  by_cases h : l.1 = d <;> simp [extent, h]

theorem extent_perm (d : Dim) {a b : List (Dim × ℚ)} (h : a.Perm b) : extent d a = extent d b :=
  ((h.filter _).map _).prod_eq

theorem extent_one (d : Dim) (ls : List (Dim × ℚ)) (h : ∀ l ∈ ls, l.1 ≠ d) : extent d ls = 1 := by
  have : ls.filter (fun l => l.1 = d) = [] := by
    rw [List.filter_eq_nil_iff]; intro l hl; simpa using h l hl
  simp [extent, this]

theorem one_le_prod {l : List ℚ} (h : ∀ x ∈ l, 1 ≤ x) : 1 ≤ l.prod := by
  induction l with
  | nil => simp
  | cons a l ih =>
    rw [List.prod_cons]
    have h1 := h a (by simp)
    have h2 := ih (fun x hx => h x (by simp [hx]))
    nlinarith

theorem extent_pos (d : Dim) (ls : List (Dim × ℚ)) (h : ∀ l ∈ ls, 1 ≤ l.2) : 1 ≤ extent d ls := by
  apply one_le_prod
  intro x hx
  obtain ⟨l, hl, rfl⟩ := List.mem_map.1 hx
  exact h l (List.mem_of_mem_filter hl)

theorem iters_append (a b : List (Dim × ℚ)) : iters (a ++ b) = iters a * iters b := by simp [iters]

theorem iters_perm {a b : List (Dim × ℚ)} (h : a.Perm b) : iters a = iters b := (h.map _).prod_eq

theorem iters_pos (ls : List (Dim × ℚ)) (h : ∀ l ∈ ls, 1 ≤ l.2) : 1 ≤ iters ls := by
  apply one_le_prod
  intro x hx
  obtain ⟨l, hl, rfl⟩ := List.mem_map.1 hx
  exact h l hl

/-- Iterations are the product of the extents over all dimensions. -/
theorem iters_eq_extents (ls : List (Dim × ℚ)) (ds : List Dim) (hd : ds.Nodup) (h : ∀ l ∈ ls, l.1 ∈ ds) :
    iters ls = (ds.map (fun d => extent d ls)).prod := by
  induction ls with
  | nil =>
    have : (ds.map (fun d => extent d ([] : List (Dim × ℚ)))) = List.replicate ds.length 1 := by
      rw [List.eq_replicate_iff]; simp [extent]
    rw [this]; simp [iters]
  | cons l ls ih =>
    have ih' := ih (fun x hx => h x (by simp [hx]))
    have hm := h l (by simp)
    have key : ∀ (es : List Dim), es.Nodup → (es.map (fun d => extent d (l :: ls))).prod =
        (if l.1 ∈ es then l.2 else 1) * (es.map (fun d => extent d ls)).prod := by
      intro es
      induction es with
      | nil => intro _; simp
      | cons e es ihe =>
        intro hn
        rw [List.nodup_cons] at hn
        rw [List.map_cons, List.prod_cons, ihe hn.2, List.map_cons, List.prod_cons, extent_cons]
        by_cases he : l.1 = e
        · subst he
          simp [hn.1]; ring
        · simp [he]; ring_nf
    rw [key ds hd, if_pos hm, ← ih']
    simp [iters]

theorem selP_cons {N : Type} (p : N → Bool) (x : N × ℚ) (l : List (N × ℚ)) :
    selP p (x :: l) = (if p x.1 then x.2 else 1) * selP p l := by
  by_cases h : p x.1 = true
  · simp [selP, h]
  · simp [selP, h]

theorem selP_append {N : Type} (p : N → Bool) (a b : List (N × ℚ)) : selP p (a ++ b) = selP p a * selP p b := by simp [selP]

theorem selP_flatten {N : Type} (p : N → Bool) (ls : Lv N) : selP p ls.flatten = (ls.map (selP p)).prod := by
  induction ls with
  | nil => simp [selP]
  | cons a ls ih => rw [List.flatten_cons, selP_append, ih, List.map_cons, List.prod_cons]

/-- A selected product as a product over names. -/
theorem selP_names {p : TDim Dim → Bool} (l : List (TDim Dim × ℚ)) (ns : List (TDim Dim)) (hn : ns.Nodup)
    (h1 : ∀ x ∈ l, p x.1 = true → x.1 ∈ ns) (h2 : ∀ n ∈ ns, p n = true) : selP p l = (ns.map (fun n => nameProd n l)).prod := by
  induction l with
  | nil =>
    have : (ns.map (fun n => nameProd n ([] : List (TDim Dim × ℚ)))) = List.replicate ns.length 1 := by
      rw [List.eq_replicate_iff]; simp [nameProd]
    rw [this]; simp [selP]
  | cons x l ih =>
    have ih' := ih (fun y hy => h1 y (by simp [hy]))
    have key : ∀ (es : List (TDim Dim)), es.Nodup → (es.map (fun n => nameProd n (x :: l))).prod =
        (if x.1 ∈ es then x.2 else 1) * (es.map (fun n => nameProd n l)).prod := by
      intro es
      induction es with
      | nil => intro _; simp
      | cons e es ihe =>
        intro hn
        rw [List.nodup_cons] at hn
        rw [List.map_cons, List.prod_cons, ihe hn.2, List.map_cons, List.prod_cons, nameProd_cons]
        by_cases he : x.1 = e
        · subst he
          simp [hn.1]; ring
        · simp [he]; ring_nf
    rw [key ns hn, selP_cons, ih']
    congr 1
    by_cases hp : p x.1 = true
    · rw [if_pos hp, if_pos (h1 x (by simp) hp)]
    · rw [if_neg hp, if_neg]
      intro hc; exact hp (h2 _ hc)

/-! ### Splitting -/

section split
variable {env : DEnv Dim}

/-- Names after splitting. -/
theorem split_names {levels : Lv Dim} {out : Lv (TDim Dim)}
    (h : List.Forall₂ (fun l o => ∃ blocks, List.Forall₂ (Split env) l blocks ∧ o = blocks.flatten) levels out) :
    ∀ x ∈ out.flatten, (∃ d, x.1 = .orig d ∧ keyOf env d = none ∧ (d, x.2) ∈ levels.flatten) ∨
      (∃ d k, (x.1 = .r k ∨ x.1 = .ir k) ∧ keyOf env d = some k ∧ ∃ s, (d, s) ∈ levels.flatten) := by
  induction h with
  | nil => simp
  | @cons l o ls os hl _ ih =>
    obtain ⟨blocks, hb, rfl⟩ := hl
    intro x hx
    rw [List.flatten_cons, List.mem_append] at hx
    rcases hx with hx | hx
    · have : ∀ (l : List (Dim × ℚ)) (blocks : List (List (TDim Dim × ℚ))), List.Forall₂ (Split env) l blocks → ∀ x ∈ blocks.flatten,
          (∃ d, x.1 = .orig d ∧ keyOf env d = none ∧ (d, x.2) ∈ l) ∨
          (∃ d k, (x.1 = .r k ∨ x.1 = .ir k) ∧ keyOf env d = some k ∧ ∃ s, (d, s) ∈ l) := by
        intro l blocks hb
        induction hb with
        | nil => simp
        | @cons a b l bs hs _ ih =>
          intro x hx
          rw [List.flatten_cons, List.mem_append] at hx
          rcases hx with hx | hx
          · unfold Split at hs
            cases hk : keyOf env a.1 with
            | none =>
              rw [hk] at hs
              simp only at hs
              subst hs
              rw [List.mem_singleton] at hx
              subst hx
              exact Or.inl ⟨a.1, rfl, hk, by simp⟩
            | some k =>
              rw [hk] at hs
              obtain ⟨u, v, rfl, _⟩ := hs
              refine Or.inr ⟨a.1, k, ?_, hk, a.2, by simp⟩
              simp only [List.mem_cons, List.not_mem_nil, or_false] at hx
              rcases hx with rfl | rfl
              · exact Or.inl rfl
              · exact Or.inr rfl
          · rcases ih x hx with ⟨d, e1, e2, e3⟩ | ⟨d, k, e1, e2, s, e3⟩
            · exact Or.inl ⟨d, e1, e2, by simp [e3]⟩
            · exact Or.inr ⟨d, k, e1, e2, s, by simp [e3]⟩
      rcases this l blocks hb x hx with ⟨d, e1, e2, e3⟩ | ⟨d, k, e1, e2, s, e3⟩
      · exact Or.inl ⟨d, e1, e2, by simp [e3]⟩
      · exact Or.inr ⟨d, k, e1, e2, s, by simp [e3]⟩
    · rcases ih x hx with ⟨d, e1, e2, e3⟩ | ⟨d, k, e1, e2, s, e3⟩
      · exact Or.inl ⟨d, e1, e2, by rw [List.flatten_cons]; exact List.mem_append_right _ e3⟩
      · exact Or.inr ⟨d, k, e1, e2, s, by rw [List.flatten_cons]; exact List.mem_append_right _ e3⟩

/-- A dimension that is not split keeps its loops. -/
theorem split_orig {levels : Lv Dim} {out : Lv (TDim Dim)} {d : Dim} (hd : keyOf env d = none)
    (h : List.Forall₂ (fun l o => ∃ blocks, List.Forall₂ (Split env) l blocks ∧ o = blocks.flatten) levels out) :
    nameProd (.orig d) out.flatten = extent d levels.flatten := by
  induction h with
  | nil => rfl
  | @cons l o ls os hl _ ih =>
    obtain ⟨blocks, hb, rfl⟩ := hl
    rw [List.flatten_cons, List.flatten_cons, nameProd_append, extent_append, ih]
    congr 1
    induction hb with
    | nil => rfl
    | @cons a b l bs hs _ ih =>
      rw [List.flatten_cons, nameProd_append, ih, extent_cons]
      congr 1
      unfold Split at hs
      cases hk : keyOf env a.1 with
      | none =>
        rw [hk] at hs
        simp only at hs
        subst hs
        by_cases he : a.1 = d
        · simp [nameProd, he]
        · simp [nameProd, he]
      | some k =>
        rw [hk] at hs
        obtain ⟨u, v, rfl, _⟩ := hs
        have : a.1 ≠ d := by rintro rfl; rw [hd] at hk; cases hk
        simp [nameProd, this]

theorem forall₂_take {α β : Type} {R : α → β → Prop} {a : List α} {b : List β} (h : List.Forall₂ R a b) (n : Nat) :
    List.Forall₂ R (a.take n) (b.take n) := by
  induction h generalizing n with
  | nil => simp
  | cons hx _ ih =>
    cases n with
    | zero => simp
    | succ n => exact .cons hx (ih n)

theorem forall₂_drop {α β : Type} {R : α → β → Prop} {a : List α} {b : List β} (h : List.Forall₂ R a b) (n : Nat) :
    List.Forall₂ R (a.drop n) (b.drop n) := by
  induction h generalizing n with
  | nil => simp
  | cons hx h' ih =>
    cases n with
    | zero => exact .cons hx h'
    | succ n => exact ih n

end split

/-! ### The environment of a valid operand -/

section valid
variable {c : Cfg Dim} {rl : List Dim} {rels : List (Relation Dim)} (hv : Shape c rl rels)
include hv

theorem Shape.cases : ((∀ r ∈ rels, r.dim1 ∈ rl) ∧ c.rel.pr = (extractPr rels).prLoop ∧
      c.rel.r = rl.filter (fun d => d ∉ (extractPr rels).prList) ∧
      (∀ d, d ∈ c.rel.ir ↔ d ∈ c.L.dimSizes.keys ∧ d ∉ rl ∧ d ∉ (extractPr rels).prList ∧ c.L.dimSizes.get? d ≠ some 1)) ∨
    (c.rel.pr = [] ∧ (∀ r ∈ rels, r.dim1 ∉ rl) ∧ c.rel.r = rl.filter (fun d => c.L.dimSizes.get? d ≠ some 1) ∧
      (∀ d, d ∈ c.rel.ir ↔ d ∈ c.L.dimSizes.keys ∧ d ∉ rl ∧ c.L.dimSizes.get? d ≠ some 1)) := by
  rcases extractRel_spec hv.names hv.rel with ⟨⟨r0, hr0, h0⟩, h1, h2, h3⟩ | ⟨h0, h1, _, h2, h3⟩
  · left
    refine ⟨?_, h3, h1, h2⟩
    rcases hv.mix with h | h
    · exact h
    · exact absurd h0 (h r0 hr0)
  · exact Or.inr ⟨h3, h0, h1, h2⟩

theorem Shape.lut_mem {k : Dim} {xy : Dim × Dim} (h : (k, xy) ∈ (layerEnv c.L c.rel).lut) :
    (∀ r ∈ rels, r.dim1 ∈ rl) ∧ ∃ r ∈ rels, k = r.dim1 ∧ xy = (r.dim2, r.dim3) := by
  change (k, xy) ∈ c.rel.pr at h
  rcases hv.cases with ⟨h0, h1, _⟩ | ⟨h1, _⟩
  · rw [h1] at h
    obtain ⟨r, hr, e⟩ := (mem_prLoop rels hv.names _).1 h
    exact ⟨h0, r, hr, (Prod.mk.inj e).1, (Prod.mk.inj e).2⟩
  · rw [h1] at h; cases h

theorem Shape.lutWF : (layerEnv c.L c.rel).lut.WF := by
  change Dict.WF c.rel.pr
  rcases hv.cases with ⟨_, h1, _⟩ | ⟨h1, _⟩
  · rw [h1, (extractPr_spec rels hv.names).1]
    unfold Dict.WF Dict.keys
    simpa [Function.comp_def] using hv.names
  · rw [h1]; simp [Dict.WF, Dict.keys]

/-- A loop dimension of a relation is neither relevant nor irrelevant. -/
theorem Shape.other_false {r : Relation Dim} (hr : r ∈ rels) (hall : c.rel.pr ≠ []) {x : Dim} (hx : x = r.dim2 ∨ x = r.dim3) :
    (layerEnv c.L c.rel).other x = false := by
  rcases hv.cases with ⟨_, h1, h2, h3⟩ | ⟨h1, _⟩
  · have hp : x ∈ (extractPr rels).prList := (mem_prList rels hv.names x).2 ⟨r, hr, Or.inr hx⟩
    have : x ∉ c.rel.r ++ c.rel.ir := by
      rw [List.mem_append, h2, h3]
      simp [hp]
    simpa [layerEnv] using this
  · exact absurd h1 hall

theorem Shape.uniq : Uniq (layerEnv c.L c.rel) := by
  intro d _ e he e' he' h1 h2
  obtain ⟨hall, r, hr, e1, e2⟩ := hv.lut_mem (k := e.1) (xy := e.2) he
  obtain ⟨_, r', hr', e1', e2'⟩ := hv.lut_mem (k := e'.1) (xy := e'.2) he'
  have hrr : r = r' := by
    by_contra hc
    have hne : r.dim1 ≠ r'.dim1 := by
      intro hd
      exact hc (List.inj_on_of_nodup_map hv.names hr hr' hd)
    have hvars := hv.vars
    rw [List.flatMap_map, List.nodup_flatMap] at hvars
    haveI : Std.Symm (Function.onFun List.Disjoint (fun a => (axisOf rels a).vars)) :=
      ⟨fun _ _ h => List.Disjoint.symm h⟩
    have hdis := hvars.2.forall (hall r hr) (hall r' hr') hne
    have m1 : d ∈ (axisOf rels r.dim1).vars := by
      rw [axisOf_rel rels hv.names r hr]
      rw [e2] at h1
      simp only [Axis.vars, List.mem_cons, List.not_mem_nil, or_false]
      tauto
    have m2 : d ∈ (axisOf rels r'.dim1).vars := by
      rw [axisOf_rel rels hv.names r' hr']
      rw [e2'] at h2
      simp only [Axis.vars, List.mem_cons, List.not_mem_nil, or_false]
      tauto
    exact hdis m1 m2
  subst hrr
  exact Prod.ext (e1.trans e1'.symm) (e2.trans e2'.symm)

theorem Shape.ne {r : Relation Dim} (hr : r ∈ rels) (hin : r.dim1 ∈ rl) : r.dim2 ≠ r.dim3 := by
  have hvars := hv.vars
  rw [List.flatMap_map, List.nodup_flatMap] at hvars
  have := hvars.1 r.dim1 hin
  rw [axisOf_rel rels hv.names r hr] at this
  simpa [Axis.vars] using this

omit hv in
theorem distinct_pos {sa a sb b : Nat} (ha : 1 ≤ a) (hb : 1 ≤ b) : 1 ≤ distinct sa a sb b := by
  apply Finset.card_pos.2
  exact ⟨_, Finset.mem_image_of_mem _ (a := (0, 0)) (Finset.mem_product.2 ⟨Finset.mem_range.2 (show 0 < a by omega), Finset.mem_range.2 (show 0 < b by omega)⟩)⟩

/-- The sizes of a tile, for all dimensions of the layer. -/
def tileSizes (L : Layer Dim) (ls : List (Dim × ℚ)) : Dict Dim ℚ := L.dimSizes.keys.map (fun d => (d, extent d ls))

omit hv in
theorem tileSizes_get (L : Layer Dim) (ls : List (Dim × ℚ)) (d : Dim) :
    (tileSizes L ls).get? d = if d ∈ L.dimSizes.keys then some (extent d ls) else none := by
  unfold tileSizes
  generalize L.dimSizes.keys = ks
  induction ks with
  | nil => rfl
  | cons k ks ih =>
    rw [List.map_cons, Dict.get?_cons, ih]
    by_cases hk : k = d
    · subst hk; simp
    · simp [hk, Ne.symm hk]

/-- The relevant loops of the first `n` levels of a split mapping multiply to the size that the layer computes for the tile of these loops, whether
or not that is the number of elements accessed. -/
theorem Shape.tile_size {m : Lv Dim} {out : Lv (TDim Dim)} (h : decouple (layerEnv c.L c.rel) m = .ok out)
    (hc : ∀ r ∈ rels, r.dim1 ∈ rl → ∃ mx, c.L.prSizes.get? r.dim1 = some mx ∧ 1 ≤ mx) (n : Nat) :
    calcTensorSize c.L c.rel (tileSizes c.L (m.take n).flatten) = .ok (selP (isR c) (out.take n).flatten) := by
  set ls := (m.take n).flatten with hls
  have hsp := decouple_split hv.lutWF hv.uniq h
  have hspn := forall₂_take hsp n
  set sizes := tileSizes c.L ls with hsizes
  have hget : ∀ d, sizes.get? d = if d ∈ c.L.dimSizes.keys then some (extent d ls) else none := tileSizes_get c.L ls
  -- the product over names
  have hrnd : c.rel.r.Nodup := by
    rcases hv.cases with ⟨_, _, h2, _⟩ | ⟨_, _, h2, _⟩ <;> rw [h2] <;> exact hv.index.filter _
  have hknd : c.rel.pr.keys.Nodup := hv.lutWF
  have hnames : selP (isR c) (out.take n).flatten =
      ((c.rel.r.map TDim.orig ++ c.rel.pr.keys.map TDim.r).map (fun nm => nameProd nm (out.take n).flatten)).prod := by
    apply selP_names
    · rw [List.nodup_append]
      refine ⟨hrnd.map (fun a b h => by injection h), hknd.map (fun a b h => by injection h), ?_⟩
      intro a ha b hb hab
      obtain ⟨x, _, rfl⟩ := List.mem_map.1 ha
      obtain ⟨y, _, rfl⟩ := List.mem_map.1 hb
      cases hab
    · intro x hx hp
      rw [List.mem_append, List.mem_map, List.mem_map]
      rcases split_names hspn x hx with ⟨d, e1, _, _⟩ | ⟨d, k, e1 | e1, e2, _⟩
      · left
        rw [e1] at hp ⊢
        exact ⟨d, by simpa [isR] using hp, rfl⟩
      · right
        obtain ⟨_, xy, hxy, _⟩ := keyOf_some e2
        exact ⟨k, List.mem_map.2 ⟨(k, xy), hxy, rfl⟩, e1.symm⟩
      · rw [e1] at hp; simp [isR] at hp
    · intro nm hnm
      rw [List.mem_append, List.mem_map, List.mem_map] at hnm
      rcases hnm with ⟨d, hd, rfl⟩ | ⟨k, hk, rfl⟩
      · simpa [isR] using hd
      · have : k ∈ c.L.pi.prLoop.keys := by
          obtain ⟨e, hem, rfl⟩ := List.mem_map.1 hk
          obtain ⟨_, r, hr, e1, _⟩ := hv.lut_mem (k := e.1) (xy := e.2) hem
          rw [hv.pi, (extractPr_spec rels hv.names).1]
          exact List.mem_map.2 ⟨_, List.mem_map.2 ⟨r, hr, rfl⟩, e1.symm⟩
        simpa [isR] using this
  -- each name
  have horig : ∀ d ∈ c.rel.r, calcTensorDim c.L sizes d = .ok (nameProd (.orig d) (out.take n).flatten) := by
    intro d hd
    have hk : keyOf (layerEnv c.L c.rel) d = none := by
      unfold keyOf
      rw [if_pos (by simp [layerEnv, hd])]
    rw [split_orig hk hspn, ← hls]
    have hdk : d ∈ c.L.dimSizes.keys := by
      rcases hv.cases with ⟨_, _, h2, _⟩ | ⟨_, hno, h2, _⟩
      · rw [h2, List.mem_filter] at hd
        refine hv.dims d hd.1 ?_
        intro r hr hc
        have : d ∉ (extractPr rels).prList := by simpa using hd.2
        exact this ((mem_prList rels hv.names d).2 ⟨r, hr, Or.inl hc.symm⟩)
      · rw [h2, List.mem_filter] at hd
        exact hv.dims d hd.1 (fun r hr hc => hno r hr (hc ▸ hd.1))
    unfold calcTensorDim
    rw [hget, if_pos hdk]
  have hpr : ∀ k ∈ c.rel.pr.keys, calcTensorDim c.L sizes k = .ok (nameProd (.r k) (out.take n).flatten) := by
    intro k hk
    obtain ⟨⟨k', xy⟩, hmem, rfl⟩ := List.mem_map.1 hk
    have hne : c.rel.pr ≠ [] := by intro hc; rw [hc] at hmem; cases hmem
    obtain ⟨hall, r, hr, e1, e2⟩ := hv.lut_mem hmem
    simp only at e1 e2 hmem ⊢
    subst e1; subst e2
    have ho2 := hv.other_false hr hne (Or.inl rfl)
    have ho3 := hv.other_false hr hne (Or.inr rfl)
    have hd2 : dimProd (layerEnv c.L c.rel) r.dim2 ls = extent r.dim2 ls := by
      unfold dimProd extent
      congr 2
      apply List.filter_congr
      intro l _
      simp only [decide_eq_decide]
      constructor
      · exact fun h => h.1
      · intro h; exact ⟨h, h ▸ ho2⟩
    have hd3 : dimProd (layerEnv c.L c.rel) r.dim3 ls = extent r.dim3 ls := by
      unfold dimProd extent
      congr 2
      apply List.filter_congr
      intro l _
      simp only [decide_eq_decide]
      constructor
      · exact fun h => h.1
      · intro h; exact ⟨h, h ▸ ho3⟩
    have e3 : c.L.pi.prLoop.get? r.dim1 = some (r.dim2, r.dim3) := by
      rw [hv.pi, (extractPr_spec rels hv.names).1, get?_map_rel, find?_rel rels hv.names r hr]; rfl
    have e4 : c.L.pi.scaling.get? r.dim1 = some (r.coef2, r.coef3) := by
      rw [hv.pi, (extractPr_spec rels hv.names).2.1, get?_map_rel, find?_rel rels hv.names r hr]; rfl
    obtain ⟨k2, k3, k1, kc⟩ := hv.related r hr
    have g1 : sizes.get? r.dim1 = none := by rw [hget, if_neg k1]
    have g2 : sizes.get? r.dim2 = some (extent r.dim2 ls) := by rw [hget, if_pos k2]
    have g3 : sizes.get? r.dim3 = some (extent r.dim3 ls) := by rw [hget, if_pos k3]
    rcases decouple_data_size hv.lutWF hv.uniq h n r.dim1 (r.dim2, r.dim3) hmem with hs | ⟨hs, hnk⟩
    · rw [← hls] at hs
      rw [← hs]
      change _ = calcTensorDim c.L _ r.dim1
      have hne23 := hv.ne hr (hall r hr)
      have n12 : r.dim2 ≠ r.dim1 := by rintro hc; exact k1 (hc ▸ k2)
      have n13 : r.dim3 ≠ r.dim1 := by rintro hc; exact k1 (hc ▸ k3)
      have a1 : (accSizes (layerEnv c.L c.rel) (r.dim2, r.dim3) ls).get? r.dim1 = none := by
        rw [accSizes_eq]
        simp [hne23, Dict.get?_cons, Dict.get?_nil, n12, n13]
      have a2 : (accSizes (layerEnv c.L c.rel) (r.dim2, r.dim3) ls).get? r.dim2 = some (extent r.dim2 ls) := by
        rw [accSizes_eq]
        simp [hne23, Dict.get?_cons, hd2]
      have a3 : (accSizes (layerEnv c.L c.rel) (r.dim2, r.dim3) ls).get? r.dim3 = some (extent r.dim3 ls) := by
        rw [accSizes_eq]
        simp [hne23, Dict.get?_cons, hd3]
      unfold calcTensorDim lookup
      rw [g1, a1]
      simp only [e3, e4, g2, g3, a2, a3]
    · rw [hs]
      have u2 : extent r.dim2 ls = 1 := extent_one r.dim2 ls (fun l hl hc => hnk l hl (by
        rw [hc]; exact keyOf_of_mem hv.uniq ho2 hmem (Or.inl rfl)))
      have u3 : extent r.dim3 ls = 1 := extent_one r.dim3 ls (fun l hl hc => hnk l hl (by
        rw [hc]; exact keyOf_of_mem hv.uniq ho3 hmem (Or.inr rfl)))
      obtain ⟨mx, hmx, hle⟩ := hc r hr (hall r hr)
      have e5 := pr_size_partial r.coef2 1 r.coef3 1 (Or.inl (by omega)) (Or.inl (Nat.div_pos (Nat.gcd_le_left _ kc) (Nat.gcd_pos_of_pos_left _ kc)))
      have e6 := pyInt_nat 1
      rw [Nat.cast_one] at e6
      unfold calcTensorDim lookup
      rw [g1]
      simp only [e3, e4, g2, g3, u2, u3, bind, Except.bind, e6, e5, hmx, pure, Except.pure]
      rw [min_eq_right] <;> simp [distinct, hle]
  -- the tensor size as a product
  rw [hnames]
  unfold calcTensorSize
  rw [mapM_ok (calcTensorDim c.L sizes)
    (fun d => if d ∈ c.rel.r then nameProd (.orig d) (out.take n).flatten else nameProd (.r d) (out.take n).flatten)]
  · change Except.ok _ = Except.ok _
    rw [List.map_append, List.map_append, List.map_map, List.map_map]
    congr 3
    · apply List.map_congr_left
      intro d hd
      rw [if_pos hd]; rfl
    · apply List.map_congr_left
      intro d hd
      have hnr : d ∉ c.rel.r := by
        obtain ⟨⟨k', xy⟩, hmem, rfl⟩ := List.mem_map.1 hd
        obtain ⟨hall, r, hr, e1, e2⟩ := hv.lut_mem hmem
        change k' = r.dim1 at e1
        subst e1
        rcases hv.cases with ⟨_, _, h2, _⟩ | ⟨h2, _⟩
        · rw [h2, List.mem_filter]
          rintro ⟨_, hc⟩
          have : r.dim1 ∉ (extractPr rels).prList := by simpa using hc
          exact this ((mem_prList rels hv.names _).2 ⟨r, hr, Or.inl rfl⟩)
        · change (r.dim1, xy) ∈ c.rel.pr at hmem
          rw [h2] at hmem; cases hmem
      rw [if_neg hnr]; rfl
  · intro d hd
    rw [List.mem_append] at hd
    by_cases hr : d ∈ c.rel.r
    · rw [if_pos hr]; exact horig d hr
    · rw [if_neg hr]; exact hpr d (hd.resolve_left hr)

/-- C87: the relevant loops of the first `n` levels of a split mapping multiply to the number of operand elements that the tile of
these loops accesses. -/
theorem Shape.tile_elements {m : Lv Dim} {out : Lv (TDim Dim)} (h : decouple (layerEnv c.L c.rel) m = .ok out)
    (hm : ∀ l ∈ m.flatten, l.1 ∈ c.L.dimSizes.keys ∧ 1 ≤ l.2) (hone : ∀ l ∈ m.flatten, c.L.dimSizes.get? l.1 = some 1 → l.2 = 1)
    (n : Nat) {t : Dim → ℕ} (ht : Tile (m.take n).flatten t) (he : Exact c rl rels t) :
    selP (isR c) (out.take n).flatten = elements rl rels t := by
  set ls := (m.take n).flatten with hls
  have hsub : ∀ l ∈ ls, l ∈ m.flatten := by
    intro l hl
    obtain ⟨a, ha, hla⟩ := List.mem_flatten.1 hl
    exact List.mem_flatten.2 ⟨a, List.mem_of_mem_take ha, hla⟩
  have htpos : ∀ d, 1 ≤ t d := by
    intro d
    have := extent_pos d ls (fun l hl => (hm l (hsub l hl)).2)
    rw [ht d] at this
    exact_mod_cast this
  have htkey : ∀ d, d ∉ c.L.dimSizes.keys → t d = 1 := by
    intro d hd
    have := extent_one d ls (fun l hl hc => hd (hc ▸ (hm l (hsub l hl)).1))
    rw [ht d] at this
    exact_mod_cast this
  set sizes := tileSizes c.L ls with hsizes
  have hget : ∀ d, sizes.get? d = if d ∈ c.L.dimSizes.keys then some (t d : ℚ) else none := fun d => by rw [← ht d]; exact tileSizes_get c.L ls d
  have hts := tensor_size_partial (L := c.L) (t := t) (sizes := sizes) hv.names hv.pi hv.rel hv.index hv.mix hv.vars
    (by intro r hr; rw [hget, if_neg (hv.related r hr).2.2.1])
    (by
      intro d hd hno
      have := hv.dims d hd hno
      rw [Option.isSome_iff_ne_none]
      intro hc
      exact ((Dict.get?_eq_none_iff _ _).1 hc) this)
    (by
      intro d
      rw [hget]
      by_cases hd : d ∈ c.L.dimSizes.keys
      · rw [if_pos hd]; exact Or.inl rfl
      · rw [if_neg hd]; exact Or.inr ⟨rfl, htkey d hd⟩)
    (by
      intro r hr
      rw [hget, hget, if_pos (hv.related r hr).1, if_pos (hv.related r hr).2.1]
      exact ⟨rfl, rfl⟩)
    (by
      intro d hd
      have : extent d ls = 1 := by
        unfold extent
        apply List.prod_eq_one
        intro x hx
        obtain ⟨l, hl, rfl⟩ := List.mem_map.1 hx
        rw [List.mem_filter] at hl
        have e : l.1 = d := by simpa using hl.2
        exact hone l (hsub l hl.1) (e ▸ hd)
      rw [ht d] at this
      exact_mod_cast this)
    htpos (fun r hr => (hv.related r hr).2.2.2) (fun r hr hi => (he r hr hi).1) (fun r hr hi => (he r hr hi).2)
  have hprod := hv.tile_size h (fun r hr hi => by
    obtain ⟨-, mx, hmx, hle⟩ := he r hr hi
    refine ⟨mx, hmx, le_trans ?_ hle⟩
    exact_mod_cast distinct_pos (htpos _) (htpos _)) n
  rw [← hls, ← hsizes, hts] at hprod
  injection hprod with hprod
  exact hprod.symm

end valid

end Verif.MapInfo
