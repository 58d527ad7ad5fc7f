import Verif.MapInfo.Cover
import Verif.MapInfo.Tables

/-! Lemmas on whole-number mappings, on the output table and on operands without partially relevant dimensions. -/

namespace Verif.MapInfo

open LayerNode Decouple
open SpatialInternal (pyRound pyDiv pyRound_int unitUnique bwBoost above above_get selProd)
open Energy (trunc)

variable {Dim : Type} [DecidableEq Dim]

/-! ### Plain lists -/

theorem mapM_get {α β : Type} {f : α → Except PyErr β} : ∀ {l : List α} {r : List β}, l.mapM f = .ok r →
    r.length = l.length ∧ ∀ (n : Nat) (a : α), l[n]? = some a → ∃ b, f a = .ok b ∧ r[n]? = some b
  | [], r, h => by
    rw [List.mapM_nil] at h
    cases h
    simp
  | x :: l, r, h => by
    rw [List.mapM_cons] at h
    cases hx : f x with
    | error e => rw [hx] at h; cases h
    | ok y =>
      cases hl : l.mapM f with
      | error e => simp only [bind, Except.bind, hx, hl] at h; cases h
      | ok ys =>
        simp only [bind, Except.bind, hx, hl, pure, Except.pure] at h
        cases h
        obtain ⟨h1, h2⟩ := mapM_get hl
        refine ⟨by simp [h1], fun n a hn => ?_⟩
        cases n with
        | zero => cases hn; exact ⟨y, hx, rfl⟩
        | succ n => exact h2 n a hn

theorem mapM_of {α β : Type} {f : α → Except PyErr β} : ∀ {l : List α}, (∀ a ∈ l, ∃ b, f a = .ok b) → ∃ r, l.mapM f = .ok r
  | [], _ => ⟨[], rfl⟩
  | x :: l, h => by
    obtain ⟨y, hy⟩ := h x (by simp)
    obtain ⟨ys, hys⟩ := mapM_of (l := l) (fun a ha => h a (by simp [ha]))
    exact ⟨y :: ys, by rw [List.mapM_cons, hy, hys]; rfl⟩

theorem trunc_int (z : ℤ) : trunc (z : ℚ) = z := by
  unfold trunc; split_ifs <;> simp

theorem trunc_nat (z : ℕ) : trunc (z : ℚ) = z := trunc_int (z : ℤ)

theorem pyRound_nat (n : ℕ) : pyRound (n : ℚ) = n := by
  have := pyRound_int (n : ℤ); push_cast at this; exact this

/-! ### Whole numbers of iterations -/

theorem prod_nat {l : List ℚ} (h : ∀ x ∈ l, ∃ n : ℕ, x = n) : ∃ n : ℕ, l.prod = n := by
  induction l with
  | nil => exact ⟨1, by simp⟩
  | cons a l ih =>
    obtain ⟨n, hn⟩ := h a (by simp)
    obtain ⟨m, hm⟩ := ih (fun x hx => h x (by simp [hx]))
    exact ⟨n * m, by rw [List.prod_cons, hn, hm]; push_cast; ring⟩

theorem iters_nat {ls : List (Dim × ℚ)} (h : ∀ l ∈ ls, ∃ n : ℕ, l.2 = n) : ∃ n : ℕ, iters ls = n := by
  apply prod_nat
  intro x hx
  obtain ⟨l, hl, rfl⟩ := List.mem_map.1 hx
  exact h l hl

theorem selP_nat {N : Type} {p : N → Bool} {ls : List (N × ℚ)} (h : ∀ l ∈ ls, ∃ n : ℕ, l.2 = n) : ∃ n : ℕ, selP p ls = n := by
  apply prod_nat
  intro x hx
  obtain ⟨l, hl, rfl⟩ := List.mem_map.1 hx
  exact h l (List.mem_of_mem_filter hl)

theorem tile_of {ls : List (Dim × ℚ)} (h : ∀ l ∈ ls, ∃ n : ℕ, l.2 = n) : Tile ls (tileOf ls) := by
  intro d
  obtain ⟨n, hn⟩ : ∃ n : ℕ, extent d ls = n := by
    apply prod_nat
    intro x hx
    obtain ⟨l, hl, rfl⟩ := List.mem_map.1 hx
    exact h l (List.mem_of_mem_filter hl)
  unfold tileOf
  rw [hn, Nat.floor_natCast]

theorem inside_sub {su tm : Lv Dim} {i j : Nat} : ∀ l ∈ inside su tm i j, l ∈ tm.flatten ++ su.flatten := by
  intro l hl
  unfold inside at hl
  rw [List.mem_append] at hl ⊢
  rcases hl with h | h
  · obtain ⟨a, ha, hla⟩ := List.mem_flatten.1 h
    exact Or.inl (List.mem_flatten.2 ⟨a, List.mem_of_mem_take ha, hla⟩)
  · obtain ⟨a, ha, hla⟩ := List.mem_flatten.1 h
    exact Or.inr (List.mem_flatten.2 ⟨a, List.mem_of_mem_take ha, hla⟩)

theorem outside_sub {su tm : Lv Dim} {i j : Nat} : ∀ l ∈ outside su tm i j, l ∈ tm.flatten ++ su.flatten := by
  intro l hl
  unfold outside at hl
  rw [List.mem_append] at hl ⊢
  rcases hl with h | h
  · obtain ⟨a, ha, hla⟩ := List.mem_flatten.1 h
    exact Or.inl (List.mem_flatten.2 ⟨a, List.mem_of_mem_drop ha, hla⟩)
  · obtain ⟨a, ha, hla⟩ := List.mem_flatten.1 h
    exact Or.inr (List.mem_flatten.2 ⟨a, List.mem_of_mem_drop ha, hla⟩)

theorem Whole.inside {c : Cfg Dim} (hw : Whole c) (i j : Nat) : Tile (inside c.su c.tm i j) (tileOf (inside c.su c.tm i j)) :=
  tile_of (fun l hl => hw l (inside_sub l hl))

theorem Whole.outside {c : Cfg Dim} (hw : Whole c) (i j : Nat) : ∃ n : ℕ, iters (outside c.su c.tm i j) = n :=
  iters_nat (fun l hl => hw l (outside_sub l hl))

theorem Whole.all {c : Cfg Dim} (hw : Whole c) : Tile (c.tm.flatten ++ c.su.flatten) (tileOf (c.tm.flatten ++ c.su.flatten)) := tile_of hw

section valid
variable {c : Cfg Dim} {rl : List Dim} {rels : List (Relation Dim)} (hv : Valid c rl rels)
include hv

/-- `Valid.tables_get` for whole numbers of iterations. -/
theorem Valid.tables_whole (hw : Whole c) {t : Tables Dim} (h : tables c = .ok t) {lv : Nat} (hlv : lv ≤ c.tm.length) :
    (Exact c rl rels (tileOf (inside c.su c.tm lv lv)) →
      t.unrolled[lv]? = some (elements rl rels (tileOf (inside c.su c.tm lv lv)) : ℤ) ∧
      ∃ z : ℤ, t.raw2[lv]? = some z ∧ (z : ℚ) = elements rl rels (tileOf (inside c.su c.tm lv lv)) * iters (outside c.su c.tm lv lv)) ∧
    (Exact c rl rels (tileOf (inside c.su c.tm lv (lv + 1))) →
      ∃ z : ℤ, t.raw[lv]? = some z ∧
        (z : ℚ) = elements rl rels (tileOf (inside c.su c.tm lv (lv + 1))) * iters (outside c.su c.tm lv (lv + 1))) := by
  obtain ⟨h1, h2⟩ := hv.tables_get h hlv
  have round : ∀ (e : ℕ) (x : ℚ), (∃ n : ℕ, x = n) → ((pyRound (e * x) : ℤ) : ℚ) = e * x := by
    rintro e x ⟨n, rfl⟩
    rw [← Nat.cast_mul, pyRound_nat]; simp
  constructor
  · intro he
    obtain ⟨a, b⟩ := h1 _ (hw.inside _ _) he
    exact ⟨a, _, b, round _ _ (hw.outside _ _)⟩
  · intro he
    exact ⟨_, h2 _ (hw.inside _ _) he, round _ _ (hw.outside _ _)⟩

/-- The size of the operand is the number of elements the whole loop nest accesses. -/
theorem Valid.size_elements (hw : Whole c) (he : Exact c rl rels (tileOf (c.tm.flatten ++ c.su.flatten))) {s : ℚ}
    (hs : operandSizeElem c.L c.rel = .ok s) : s = elements rl rels (tileOf (c.tm.flatten ++ c.su.flatten)) := by
  have hf := operand_size_full hs
  have ht := hw.all
  have hsome : ∀ d, d ∈ c.L.dimSizes.keys → (c.L.dimSizes.get? d).isSome := by
    intro d hd
    rw [Option.isSome_iff_ne_none]
    intro hc
    exact ((Dict.get?_eq_none_iff _ _).1 hc) hd
  have := tensor_size_partial (L := c.L) (t := tileOf (c.tm.flatten ++ c.su.flatten)) (sizes := c.L.dimSizes) hv.names hv.pi hv.rel
    hv.index hv.mix hv.vars
    (by intro r hr; rw [Dict.get?_eq_none_iff]; exact (hv.related r hr).2.2.1)
    (fun d hd hno => hsome d (hv.dims d hd hno))
    (by
      intro d
      cases hd : c.L.dimSizes.get? d with
      | some x => left; rw [← hv.cover d x hd, ht d]
      | none =>
        right
        refine ⟨rfl, ?_⟩
        have hk := (Dict.get?_eq_none_iff _ _).1 hd
        have := extent_one d _ (fun l hl hc => hk (hc ▸ (hv.loops l hl).1))
        rw [ht d] at this
        exact_mod_cast this)
    (fun r hr => ⟨hsome _ (hv.related r hr).1, hsome _ (hv.related r hr).2.1⟩)
    (by
      intro d hd
      have := hv.cover d 1 hd
      rw [ht d] at this
      exact_mod_cast this)
    (by
      intro d
      have := extent_pos d _ (fun l hl => (hv.loops l hl).2)
      rw [ht d] at this
      exact_mod_cast this)
    (fun r hr => (hv.related r hr).2.2.2) (fun r hr hi => (he r hr hi).1) (fun r hr hi => (he r hr hi).2)
  rw [hf] at this
  injection this

/-- The table of irrelevant iterations above a level. -/
theorem Valid.caal_get (hw : Whole c) {t : Tables Dim} (h : tables c = .ok t) {lv : Nat} (hlv : lv ≤ c.tm.length) :
    ∃ q, t.caal[lv + 1]? = some q ∧ q = selP (isIr c) (t.ra.drop (lv + 1)).flatten ∧
      (Exact c rl rels (tileOf (c.tm.flatten ++ c.su.flatten)) → Exact c rl rels (tileOf (inside c.su c.tm lv (lv + 1))) →
        elements rl rels (tileOf (c.tm.flatten ++ c.su.flatten)) * q =
        elements rl rels (tileOf (inside c.su c.tm lv (lv + 1))) * iters (outside c.su c.tm lv (lv + 1))) := by
  obtain ⟨rs, ab, ra, rb, h1, h2, h3, h4, h5, h6, h7, e1, e2, e3, e4, e5⟩ := tables_unfold h
  obtain ⟨a, b, hab, la, lb, hin, hout, pa, pb⟩ := combine_ok hv.levels
  rw [hab] at h3
  cases h3
  simp only at h4 h5
  have lra : ra.length = c.su.length := (split_length (decouple_split hv.lutWF hv.uniq h4)).trans la
  have hlen : (above (ra.map (selP (isIr c)))).length = c.su.length := by simp [above, lra]
  have hget : t.caal[lv + 1]? = some (selP (isIr c) (ra.drop (lv + 1)).flatten) := by
    rw [e5]
    by_cases hlt : lv + 1 < c.su.length
    · rw [List.getElem?_append_left (by omega), above_get _ _ (by simp [lra]; omega), selP_flatten, List.map_drop]
    · have he : lv + 1 = c.su.length := by rw [hv.levels] at hlt ⊢; omega
      rw [List.getElem?_append_right (by omega), hlen, he, Nat.sub_self, ← lra, List.drop_length]
      rfl
  refine ⟨_, hget, by rw [e1], fun hE he => ?_⟩
  obtain ⟨g1, g2⟩ := hv.loops_of pa
  have hn := cabl_get (ra.map (selP (isIr c))) lv (by simp [lra, hv.levels]; omega)
  have hpre : ((ra.map (selP (isIr c))).take (lv + 1)).prod = selP (isIr c) (ra.take (lv + 1)).flatten := by
    rw [selP_flatten, List.map_take]
  rw [hpre] at hn
  have hne := (rawAccess_get h6 lv _ hn).2
  have r1 := hv.tile_elements h4 g1 g2 (lv + 1) (t := tileOf (inside c.su c.tm lv (lv + 1)))
    (fun d => by rw [extent_perm d (hin lv hlv).1]; exact hw.inside _ _ d) he
  have r2 := hv.tile_elements h4 g1 g2 a.length (t := tileOf (c.tm.flatten ++ c.su.flatten))
    (fun d => by rw [List.take_length, extent_perm d pa]; exact hw.all d) hE
  have m1 := hv.prefix_mul h4 pa (lv + 1)
  have m2 := hv.prefix_mul h4 pa a.length
  rw [r1, iters_perm (hin lv hlv).1] at m1
  rw [r2, List.take_length, iters_perm pa, hv.iters_split lv (lv + 1), ← m1] at m2
  have hsplit : selP (isIr c) (ra.take a.length).flatten = selP (isIr c) (ra.take (lv + 1)).flatten * selP (isIr c) (ra.drop (lv + 1)).flatten := by
    rw [la, ← lra, List.take_length, ← selP_append, ← List.flatten_append, List.take_append_drop]
  rw [hsplit] at m2
  apply mul_right_cancel₀ hne
  linarith

/-! ### Operands without partially relevant dimensions -/

theorem Valid.plain {m : Lv Dim} {out : Lv (TDim Dim)} (hpr : c.rel.pr = []) (h : decouple (layerEnv c.L c.rel) m = .ok out) :
    out = m.map (fun l => l.map (fun x => (TDim.orig x.1, x.2))) := by
  have hk : ∀ d, keyOf (layerEnv c.L c.rel) d = none := by
    intro d
    unfold keyOf
    split_ifs
    · rfl
    · have : (layerEnv c.L c.rel).lut = [] := hpr
      rw [this]; rfl
  have hsp := decouple_split hv.lutWF hv.uniq h
  clear h
  induction hsp with
  | nil => rfl
  | @cons l o ls os hl _ ih =>
    rw [ih, List.map_cons]
    congr 1
    obtain ⟨blocks, hb, rfl⟩ := hl
    clear ih
    induction hb with
    | nil => rfl
    | @cons x b xs bs hx _ ihb =>
      unfold Split at hx
      rw [hk] at hx
      simp only at hx
      rw [List.flatten_cons, hx, ihb, List.map_cons]; rfl

omit hv in
theorem selP_orig (p : TDim Dim → Bool) (l : List (Dim × ℚ)) :
    selP p (l.map (fun x => (TDim.orig x.1, x.2))) = selP (fun d => p (.orig d)) l := by
  induction l with
  | nil => rfl
  | cons x l ih => rw [List.map_cons, selP_cons, selP_cons, ih]

theorem Valid.plain_sel (hpr : c.rel.pr = []) {ls : List (Dim × ℚ)} (hs : ∀ l ∈ ls, l ∈ c.tm.flatten ++ c.su.flatten) :
    selP (fun d => decide (d ∈ c.rel.r)) ls = selP (fun d => decide (d ∈ rl)) ls ∧
    selP (fun d => decide (d ∈ c.rel.ir)) ls = selP (fun d => decide (d ∉ rl)) ls := by
  have key : ∀ d ∈ c.L.dimSizes.keys, c.L.dimSizes.get? d ≠ some 1 → (d ∈ c.rel.r ↔ d ∈ rl) ∧ (d ∈ c.rel.ir ↔ d ∉ rl) := by
    intro d hd h1
    rcases hv.cases with ⟨_, h2, h3, h4⟩ | ⟨_, _, h3, h4⟩
    · have hr : rels = [] := by
        rw [hpr, (extractPr_spec rels hv.names).1] at h2
        simpa using h2.symm
      subst hr
      have hnp : (extractPr ([] : List (Relation Dim))).prList = [] := rfl
      rw [h3, h4, hnp]
      simp [hd, h1]
    · rw [h3, h4]
      simp [hd, h1]
  induction ls with
  | nil => exact ⟨rfl, rfl⟩
  | cons l ls ih =>
    obtain ⟨i1, i2⟩ := ih (fun x hx => hs x (by simp [hx]))
    have hl := hs l (by simp)
    rw [selP_cons, selP_cons, selP_cons, selP_cons, i1, i2]
    by_cases h1 : c.L.dimSizes.get? l.1 = some 1
    · rw [hv.size_one l hl h1]; simp
    · obtain ⟨k1, k2⟩ := key l.1 (hv.loops l hl).1 h1
      simp only [k1, k2]
      exact ⟨trivial, trivial⟩

omit hv in
theorem exact_plain {c : Cfg Dim} (hv : Valid c rl rels) (hpr : c.rel.pr = []) (t : Dim → ℕ) : Exact c rl rels t := by
  intro r hr hin
  rcases hv.cases with ⟨_, h2, _, _⟩ | ⟨_, hno, _, _⟩
  · rw [hpr, (extractPr_spec rels hv.names).1] at h2
    have : rels = [] := by simpa using h2.symm
    rw [this] at hr; cases hr
  · exact absurd hin (hno r hr)

end valid

end Verif.MapInfo
