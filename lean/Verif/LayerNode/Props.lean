import Verif.LayerNode.SizeLemmas

/-!
C17 (sizes of partially relevant dimensions and of tiles of an operand), C49 (relevancy of the loop dimensions).
-/

namespace Verif.LayerNode

variable {Dim : Type} [DecidableEq Dim]

/-! ### Number of distinct indices -/

/-- C17: outside the region `a < sb/g`, `sa/g < b` the computed size is the number of distinct values of `sa*i + sb*j`. -/
theorem pr_size_partial (sa a sb b : Nat) (h : sa ≠ 0 ∨ sb ≠ 0) (hc : b ≤ sa / Nat.gcd sa sb ∨ sb / Nat.gcd sa sb ≤ a) :
    calcPr sa a sb b = .ok (distinct sa a sb b : ℤ) := by
  rw [calcPr_eq sa a sb b h]
  rcases hc with hc | hc <;> rw [Nat.sub_eq_zero_of_le hc] <;> simp

/-- C17: exactly when the computed size is right; it is never too small. -/
theorem pr_size_exact_iff (sa a sb b : Nat) (h : sa ≠ 0 ∨ sb ≠ 0) :
    ∃ v : ℤ, calcPr sa a sb b = .ok v ∧ (distinct sa a sb b : ℤ) ≤ v ∧
      (v = distinct sa a sb b ↔ b ≤ sa / Nat.gcd sa sb ∨ sb / Nat.gcd sa sb ≤ a) := by
  refine ⟨_, calcPr_eq sa a sb b h, ?_, ?_⟩
  · have : (0 : ℤ) ≤ ((b - sa / Nat.gcd sa sb : Nat) : ℤ) * ((sb / Nat.gcd sa sb - a : Nat) : ℤ) :=
      mul_nonneg (Int.natCast_nonneg _) (Int.natCast_nonneg _)
    omega
  · rw [add_eq_left, mul_eq_zero, Int.natCast_eq_zero, Int.natCast_eq_zero, Nat.sub_eq_zero_iff_le, Nat.sub_eq_zero_iff_le]

/-- C17: the claim for all arguments is false: one output column and a kernel of three with dilation two touch three input
columns, the code says five. -/
theorem pr_size_false : ¬ ∀ sa a sb b : Nat, 1 ≤ sa → 1 ≤ sb → 1 ≤ a → 1 ≤ b →
    calcPr sa a sb b = .ok (distinct sa a sb b : ℤ) := by
  intro h
  have := h 1 1 2 3 le_rfl (by omega) le_rfl (by omega)
  revert this
  decide +kernel

/-- C17: both coefficients zero raise `ZeroDivisionError`. -/
theorem pr_size_zero (a b : ℤ) : calcPr 0 a 0 b = .error .zeroDivision := by
  simp [calcPr]

/-- C17: with dilation one and a kernel at least as large as the stride, the total size with padding is the number of touched
positions that are not padding (`p0` positions at the start and `p1` at the end of the touched range). -/
theorem pr_total_padding (sizes : Dict Dim ℚ) (r : Relation Dim) (a b p0 p1 : Nat) (h2 : sizes.get? r.dim2 = some (a : ℚ))
    (h3 : sizes.get? r.dim3 = some (b : ℚ)) (hd : r.coef3 = 1) (hs : 1 ≤ r.coef2) (hk : r.coef2 ≤ b) (ha : 1 ≤ a)
    (hp : p0 + p1 ≤ r.coef2 * (a - 1) + b) :
    calcPrTotal sizes (extractPr [r]) (p0 + p1) r.dim1 =
      .ok (((((Finset.range a ×ˢ Finset.range b).image (fun p => r.coef2 * p.1 + r.coef3 * p.2)).filter
        (fun c => p0 ≤ c ∧ c + p1 < r.coef2 * (a - 1) + b)).card : Nat) : ℤ) := by
  have himg : (Finset.range a ×ˢ Finset.range b).image (fun p => r.coef2 * p.1 + r.coef3 * p.2) =
      Finset.range (r.coef2 * (a - 1) + b) := by
    ext c
    simp only [Finset.mem_image, Finset.mem_product, Finset.mem_range, Prod.exists, hd]
    constructor
    · rintro ⟨i, j, ⟨hi, hj⟩, rfl⟩
      have : r.coef2 * i ≤ r.coef2 * (a - 1) := Nat.mul_le_mul_left _ (by omega)
      omega
    · intro hc
      by_cases hca : c / r.coef2 < a
      · refine ⟨c / r.coef2, c % r.coef2, ⟨hca, ?_⟩, ?_⟩
        · have := Nat.mod_lt c (show 0 < r.coef2 by omega); omega
        · rw [Nat.one_mul]; exact Nat.div_add_mod c r.coef2
      · have h1 : r.coef2 * (a - 1) ≤ c := by
          have e1 : r.coef2 * (a - 1) ≤ r.coef2 * (c / r.coef2) := Nat.mul_le_mul_left _ (by omega)
          have e2 := Nat.mul_div_le c r.coef2
          omega
        exact ⟨a - 1, c - r.coef2 * (a - 1), ⟨by omega, by omega⟩, by omega⟩
  have hdist : distinct r.coef2 a r.coef3 b = r.coef2 * (a - 1) + b := by
    unfold distinct; rw [himg, Finset.card_range]
  have hcalc : calcPr r.coef2 a r.coef3 b = .ok ((r.coef2 * (a - 1) + b : Nat) : ℤ) := by
    rw [pr_size_partial r.coef2 a r.coef3 b (Or.inr (by omega)) (Or.inr (by rw [hd]; simpa using ha)), hdist]
  have hpi : ∀ n : Nat, pyInt (n : ℚ) = n := by
    intro n; unfold pyInt; rw [if_pos (by positivity)]; simp
  unfold calcPrTotal lookup
  simp only [extractPr, List.foldl_cons, List.foldl_nil, Dict.set, Dict.get?, if_pos, h2, h3]
  simp only [bind, Except.bind, h2, h3, hpi, hcalc, pure, Except.pure]
  congr 1
  rw [himg]
  have : (Finset.range (r.coef2 * (a - 1) + b)).filter (fun c => p0 ≤ c ∧ c + p1 < r.coef2 * (a - 1) + b) =
      Finset.Ico p0 (r.coef2 * (a - 1) + b - p1) := by
    ext c; simp only [Finset.mem_filter, Finset.mem_range, Finset.mem_Ico]; omega
  rw [this, Nat.card_Ico]
  omega

/-! ### Relevancy -/

theorem prLoop_isSome (rels : List (Relation Dim)) (hn : (rels.map Relation.dim1).Nodup) (d : Dim) :
    ((extractPr rels).prLoop.get? d).isSome = true ↔ ∃ r ∈ rels, r.dim1 = d := by
  rw [(extractPr_spec rels hn).1, get?_map_rel]
  simp

theorem mem_prList (rels : List (Relation Dim)) (hn : (rels.map Relation.dim1).Nodup) (d : Dim) :
    d ∈ (extractPr rels).prList ↔ ∃ r ∈ rels, d = r.dim1 ∨ d = r.dim2 ∨ d = r.dim3 := by
  rw [(extractPr_spec rels hn).2.2]
  simp [List.mem_flatMap]

theorem mem_prLoop (rels : List (Relation Dim)) (hn : (rels.map Relation.dim1).Nodup) (e : Dim × Dim × Dim) :
    e ∈ (extractPr rels).prLoop ↔ ∃ r ∈ rels, e = (r.dim1, r.dim2, r.dim3) := by
  rw [(extractPr_spec rels hn).1]
  simp [eq_comm]

/-- Complete description of the relevancy extracted for one operand. -/
theorem extractRel_spec {rl : List Dim} {sizes : Dict Dim ℚ} {rels : List (Relation Dim)} {rel : Rel Dim}
    (hn : (rels.map Relation.dim1).Nodup) (h : extractRel rl sizes (extractPr rels) = .ok rel) :
    ((∃ r ∈ rels, r.dim1 ∈ rl) ∧ rel.r = rl.filter (fun d => d ∉ (extractPr rels).prList) ∧
        (∀ d, d ∈ rel.ir ↔ d ∈ sizes.keys ∧ d ∉ rl ∧ d ∉ (extractPr rels).prList ∧ sizes.get? d ≠ some 1) ∧
        rel.pr = (extractPr rels).prLoop) ∨
    ((∀ r ∈ rels, r.dim1 ∉ rl) ∧ rel.r = rl.filter (fun d => sizes.get? d ≠ some 1) ∧ (∀ d ∈ rl, (sizes.get? d).isSome) ∧
        (∀ d, d ∈ rel.ir ↔ d ∈ sizes.keys ∧ d ∉ rl ∧ sizes.get? d ≠ some 1) ∧ rel.pr = []) := by
  unfold extractRel at h
  simp only at h
  by_cases hc : rl.any (fun d => ((extractPr rels).prLoop.get? d).isSome) = true
  · left
    rw [if_pos hc] at h
    rw [List.any_eq_true] at hc
    obtain ⟨d, hd, hs⟩ := hc
    obtain ⟨r, hr, rfl⟩ := (prLoop_isSome rels hn d).1 hs
    refine ⟨⟨r, hr, hd⟩, ?_⟩
    cases hf : filterSize sizes ((sizes.keys.filter (fun d => d ∉ rl)).filter (fun d => d ∉ (extractPr rels).prList)) with
    | error e => rw [hf] at h; cases h
    | ok ir =>
      rw [hf] at h
      cases h
      obtain ⟨e1, _⟩ := filterSize_ok sizes _ _ hf
      refine ⟨rfl, fun d => ?_, rfl⟩
      simp only [e1, List.mem_filter, decide_eq_true_eq]
      tauto
  · right
    rw [if_neg hc] at h
    have hno : ∀ r ∈ rels, r.dim1 ∉ rl := by
      intro r hr hrl
      apply hc
      rw [List.any_eq_true]
      exact ⟨r.dim1, hrl, (prLoop_isSome rels hn _).2 ⟨r, hr, rfl⟩⟩
    cases hf : filterSize sizes rl with
    | error e => rw [hf] at h; cases h
    | ok r =>
      cases hg : filterSize sizes (sizes.keys.filter (fun d => d ∉ rl)) with
      | error e => rw [hf, hg] at h; cases h
      | ok ir =>
        rw [hf, hg] at h
        cases h
        obtain ⟨e1, e1'⟩ := filterSize_ok sizes _ _ hf
        obtain ⟨e2, _⟩ := filterSize_ok sizes _ _ hg
        refine ⟨hno, e1, e1', fun d => ?_, rfl⟩
        simp only [e2, List.mem_filter, decide_eq_true_eq]
        tauto

/-- C49: every loop dimension of size other than one is exactly one of: relevant, irrelevant, part of a partially relevant
dimension. -/
theorem relevancy_partition {rl : List Dim} {sizes : Dict Dim ℚ} {rels : List (Relation Dim)} {rel : Rel Dim}
    (hn : (rels.map Relation.dim1).Nodup) (h : extractRel rl sizes (extractPr rels) = .ok rel) (d : Dim) (s : ℚ)
    (hd : sizes.get? d = some s) (hs : s ≠ 1) (hnp : ∀ r ∈ rels, r.dim1 ≠ d) :
    (d ∈ rel.r ∧ d ∉ rel.ir ∧ ¬ ∃ e ∈ rel.pr, d = e.2.1 ∨ d = e.2.2) ∨
    (d ∉ rel.r ∧ d ∈ rel.ir ∧ ¬ ∃ e ∈ rel.pr, d = e.2.1 ∨ d = e.2.2) ∨
    (d ∉ rel.r ∧ d ∉ rel.ir ∧ ∃ e ∈ rel.pr, d = e.2.1 ∨ d = e.2.2) := by
  have hk : d ∈ sizes.keys := by
    by_contra hc
    rw [(Dict.get?_eq_none_iff sizes d).2 hc] at hd; cases hd
  have hs1 : sizes.get? d ≠ some 1 := by rw [hd]; simpa using hs
  rcases extractRel_spec hn h with ⟨_, h2, h3, h4⟩ | ⟨_, h2, _, h3, h4⟩
  · rw [h2, h3, h4]
    have hrel : (∃ e ∈ (extractPr rels).prLoop, d = e.2.1 ∨ d = e.2.2) ↔ d ∈ (extractPr rels).prList := by
      rw [mem_prList rels hn]
      constructor
      · rintro ⟨e, he, hde⟩
        obtain ⟨r, hr, rfl⟩ := (mem_prLoop rels hn e).1 he
        exact ⟨r, hr, Or.inr hde⟩
      · rintro ⟨r, hr, hde⟩
        rcases hde with hde | hde
        · exact absurd hde.symm (hnp r hr)
        · exact ⟨_, (mem_prLoop rels hn _).2 ⟨r, hr, rfl⟩, hde⟩
    rw [hrel]
    simp only [List.mem_filter, decide_eq_true_eq]
    by_cases h5 : d ∈ rl <;> by_cases h6 : d ∈ (extractPr rels).prList <;> simp [h5, h6, hk, hs1]
  · rw [h2, h3, h4]
    simp only [List.mem_filter, decide_eq_true_eq]
    by_cases h5 : d ∈ rl <;> simp [h5, hk, hs1]

omit [DecidableEq Dim] in
theorem find?_rel (rels : List (Relation Dim)) [DecidableEq Dim] (hn : (rels.map Relation.dim1).Nodup) (r : Relation Dim) (hr : r ∈ rels) :
    rels.find? (fun q => q.dim1 = r.dim1) = some r := by
  induction rels with
  | nil => simp at hr
  | cons q t ih =>
    rw [List.map_cons, List.nodup_cons] at hn
    rw [List.find?_cons]
    rcases List.mem_cons.1 hr with rfl | hr
    · simp
    · have : q.dim1 ≠ r.dim1 := fun hc => hn.1 (hc ▸ List.mem_map_of_mem hr)
      simp [this, ih hn.2 hr]

/-- The loop dimensions the indices of an operand depend on. -/
theorem mem_vars (rels : List (Relation Dim)) (hn : (rels.map Relation.dim1).Nodup) (rl : List Dim) (d : Dim)
    (hnp : ∀ r ∈ rels, r.dim1 ≠ d) :
    d ∈ (rl.map (axisOf rels)).flatMap Axis.vars ↔ d ∈ rl ∨ ∃ r ∈ rels, r.dim1 ∈ rl ∧ (d = r.dim2 ∨ d = r.dim3) := by
  rw [List.mem_flatMap]
  constructor
  · rintro ⟨ax, hax, hv⟩
    obtain ⟨k, hk, rfl⟩ := List.mem_map.1 hax
    unfold axisOf at hv
    cases hf : rels.find? (fun r => r.dim1 = k) with
    | none =>
      rw [hf] at hv
      left
      have : d = k := by simpa [Axis.vars] using hv
      exact this ▸ hk
    | some r =>
      rw [hf] at hv
      right
      have h1 := List.mem_of_find?_eq_some hf
      have h2 : r.dim1 = k := by simpa using List.find?_some hf
      exact ⟨r, h1, h2 ▸ hk, by simpa [Axis.vars] using hv⟩
  · rintro (hk | ⟨r, hr, hk, hde⟩)
    · refine ⟨_, List.mem_map_of_mem hk, ?_⟩
      have : rels.find? (fun r => r.dim1 = d) = none := by
        rw [List.find?_eq_none]; intro r hr; simpa using hnp r hr
      unfold axisOf; rw [this]; simp [Axis.vars]
    · refine ⟨_, List.mem_map_of_mem hk, ?_⟩
      unfold axisOf
      rw [find?_rel rels hn r hr]
      simpa [Axis.vars] using hde

/-- C49: when an operand uses all partially relevant names of the layer or none, the dimensions classified irrelevant are exactly
those (of size other than one) whose iteration never changes the accessed element. -/
theorem irrelevant_iff_partial {rl : List Dim} {sizes : Dict Dim ℚ} {rels : List (Relation Dim)} {rel : Rel Dim}
    (hn : (rels.map Relation.dim1).Nodup) (h : extractRel rl sizes (extractPr rels) = .ok rel)
    (hmix : (∀ r ∈ rels, r.dim1 ∈ rl) ∨ (∀ r ∈ rels, r.dim1 ∉ rl)) (hcoef : ∀ r ∈ rels, 1 ≤ r.coef2 ∧ 1 ≤ r.coef3)
    (d : Dim) (s : ℚ) (hd : sizes.get? d = some s) (hs : s ≠ 1) (hnp : ∀ r ∈ rels, r.dim1 ≠ d) :
    d ∈ rel.ir ↔ ∀ (p : Dim → Nat) (v : Nat), address (rl.map (axisOf rels)) (Function.update p d v) = address (rl.map (axisOf rels)) p := by
  have hk : d ∈ sizes.keys := by
    by_contra hc
    rw [(Dict.get?_eq_none_iff sizes d).2 hc] at hd; cases hd
  have hs1 : sizes.get? d ≠ some 1 := by rw [hd]; simpa using hs
  have hir : d ∈ rel.ir ↔ d ∉ (rl.map (axisOf rels)).flatMap Axis.vars := by
    rw [mem_vars rels hn rl d hnp]
    rcases extractRel_spec hn h with ⟨⟨r0, hr0, hrl0⟩, _, h3, _⟩ | ⟨h1, _, _, h3, _⟩
    · rw [h3, mem_prList rels hn]
      rcases hmix with hmix | hmix
      · constructor
        · rintro ⟨_, h5, h6, _⟩ (h7 | ⟨r, hr, _, hde⟩)
          · exact h5 h7
          · exact h6 ⟨r, hr, Or.inr hde⟩
        · intro hc
          refine ⟨hk, fun h5 => hc (Or.inl h5), ?_, hs1⟩
          rintro ⟨r, hr, hde | hde⟩
          · exact hnp r hr hde.symm
          · exact hc (Or.inr ⟨r, hr, hmix r hr, hde⟩)
      · exact absurd hrl0 (hmix r0 hr0)
    · rw [h3]
      constructor
      · rintro ⟨_, h5, _⟩ (h7 | ⟨r, hr, hc, _⟩)
        · exact h5 h7
        · exact h1 r hr hc
      · intro hc
        exact ⟨hk, fun h5 => hc (Or.inl h5), hs1⟩
  rw [hir]
  constructor
  · intro hv p v
    apply address_congr
    intro e he
    rw [Function.update_of_ne]
    intro hc; exact hv (hc ▸ he)
  · intro hall hv
    obtain ⟨ax, hax, hv⟩ := List.mem_flatMap.1 hv
    have h1 := hall (fun _ => 0) 1
    unfold address at h1
    rw [List.map_inj_left] at h1
    have h2 := h1 ax hax
    obtain ⟨k, _, rfl⟩ := List.mem_map.1 hax
    unfold axisOf at h2 hv
    cases hf : rels.find? (fun r => r.dim1 = k) with
    | none =>
      rw [hf] at h2 hv
      have : d = k := by simpa [Axis.vars] using hv
      subst this
      simp [Axis.val] at h2
    | some r =>
      rw [hf] at h2 hv
      obtain ⟨c1, c2⟩ := hcoef r (List.mem_of_find?_eq_some hf)
      simp only [Axis.vars, List.mem_cons, List.not_mem_nil, or_false] at hv
      simp only [Axis.val, Nat.mul_zero, Nat.add_zero, Nat.add_eq_zero_iff, Nat.mul_eq_zero] at h2
      rcases hv with rfl | rfl
      · simp [Function.update_self] at h2; omega
      · simp [Function.update_self] at h2; omega

/-- C49: without the restriction the claim is false: with `IX = OX + FX` and `IY = OY + FY`, an operand indexed by `IX` only has
`OY` neither relevant nor irrelevant but counted as partially relevant (dimensions 0: IX, 1: OX, 2: FX, 3: IY, 4: OY, 5: FY). -/
theorem irrelevant_false :
    ∃ (rl : List Nat) (sizes : Dict Nat ℚ) (rels : List (Relation Nat)) (rel : Rel Nat) (d : Nat),
      extractRel rl sizes (extractPr rels) = .ok rel ∧ sizes.get? d = some 4 ∧ d ∉ rel.ir ∧
      ∀ (p : Nat → Nat) (v : Nat), address (rl.map (axisOf rels)) (Function.update p d v) = address (rl.map (axisOf rels)) p := by
  refine ⟨[0], [(1, 4), (2, 3), (4, 4), (5, 3)], [⟨0, 1, 2, 1, 1⟩, ⟨3, 4, 5, 1, 1⟩],
    ⟨[], [], [(0, (1, 2)), (3, (4, 5))]⟩, 4, rfl, rfl, by simp, ?_⟩
  intro p v
  simp [address, axisOf, Axis.val, Function.update]

/-! ### Size of a tile of an operand -/

omit [DecidableEq Dim] in
theorem mapM_ok {α β : Type} (g : α → Except PyErr β) (f : α → β) :
    ∀ l : List α, (∀ a ∈ l, g a = .ok (f a)) → l.mapM g = .ok (l.map f)
  | [], _ => rfl
  | a :: l, h => by
    rw [List.mapM_cons, h a (by simp), mapM_ok g f l (fun b hb => h b (by simp [hb]))]; rfl

theorem axisOf_dim (rels : List (Relation Dim)) (d : Dim) (h : ∀ r ∈ rels, r.dim1 ≠ d) : axisOf rels d = .dim d := by
  have : rels.find? (fun r => r.dim1 = d) = none := by
    rw [List.find?_eq_none]; intro r hr; simpa using h r hr
  unfold axisOf; rw [this]

theorem axisOf_rel (rels : List (Relation Dim)) (hn : (rels.map Relation.dim1).Nodup) (r : Relation Dim) (hr : r ∈ rels) :
    axisOf rels r.dim1 = .lin r.coef2 r.dim2 r.coef3 r.dim3 := by
  unfold axisOf; rw [find?_rel rels hn r hr]

theorem pyInt_nat (n : Nat) : pyInt (n : ℚ) = n := by
  unfold pyInt; rw [if_pos (by positivity)]; simp

/-- C17: the computed tile size of an operand is the number of different elements of the operand that the tile of the loop nest
accesses.  `t` are the tile sizes.  Restrictions: the operand uses all partially relevant names or none, no loop dimension is used
by two indices, the tile sizes avoid the region of `pr_size_false`, and the clipping to the total size is not active. -/
theorem tensor_size_partial {L : Layer Dim} {rl : List Dim} {rels : List (Relation Dim)} {rel : Rel Dim} {sizes : Dict Dim ℚ}
    {t : Dim → Nat} (hn : (rels.map Relation.dim1).Nodup) (hpi : L.pi = extractPr rels)
    (hrel : extractRel rl L.dimSizes (extractPr rels) = .ok rel) (hrl : rl.Nodup)
    (hmix : (∀ r ∈ rels, r.dim1 ∈ rl) ∨ (∀ r ∈ rels, r.dim1 ∉ rl))
    (hvars : ((rl.map (axisOf rels)).flatMap Axis.vars).Nodup)
    (hnames : ∀ r ∈ rels, sizes.get? r.dim1 = none)
    (hloop : ∀ d ∈ rl, (∀ r ∈ rels, r.dim1 ≠ d) → (L.dimSizes.get? d).isSome)
    (ht : ∀ d, sizes.get? d = some (t d : ℚ) ∨ sizes.get? d = none ∧ t d = 1)
    (hpres : ∀ r ∈ rels, (sizes.get? r.dim2).isSome ∧ (sizes.get? r.dim3).isSome)
    (h1 : ∀ d, L.dimSizes.get? d = some 1 → t d = 1) (hpos : ∀ d, 1 ≤ t d)
    (hcoef : ∀ r ∈ rels, 1 ≤ r.coef2)
    (hreg : ∀ r ∈ rels, r.dim1 ∈ rl → t r.dim3 ≤ r.coef2 / Nat.gcd r.coef2 r.coef3 ∨ r.coef3 / Nat.gcd r.coef2 r.coef3 ≤ t r.dim2)
    (hclip : ∀ r ∈ rels, r.dim1 ∈ rl → ∃ m, L.prSizes.get? r.dim1 = some m ∧ (distinct r.coef2 (t r.dim2) r.coef3 (t r.dim3) : ℚ) ≤ m) :
    calcTensorSize L rel sizes = .ok ((touched (rl.map (axisOf rels)) t).ncard : ℚ) := by
  set f : Dim → Nat := fun d => axisCard t (axisOf rels d) with hf
  have hget : ∀ d, (sizes.get? d).isSome → sizes.get? d = some (t d : ℚ) := by
    intro d hd
    rcases ht d with h | ⟨h, _⟩
    · exact h
    · rw [h] at hd; cases hd
  -- loop dimensions
  have hdim : ∀ d ∈ rl, (∀ r ∈ rels, r.dim1 ≠ d) → calcTensorDim L sizes d = .ok (f d : ℚ) := by
    intro d hd hno
    have hfd : f d = t d := by rw [hf]; simp only [axisOf_dim rels d hno]; rfl
    rw [hfd]
    unfold calcTensorDim
    rcases ht d with h | ⟨h, h'⟩
    · rw [h]
    · have hnone : L.pi.prLoop.get? d = none := by
        rw [hpi, ← Option.not_isSome_iff_eq_none, prLoop_isSome rels hn]
        rintro ⟨r, hr, e⟩; exact hno r hr e
      rw [h, hnone]
      simp only [hloop d hd hno, if_true, h']
      norm_num
  -- partially relevant dimensions
  have hprd : ∀ r ∈ rels, r.dim1 ∈ rl → calcTensorDim L sizes r.dim1 = .ok (f r.dim1 : ℚ) := by
    intro r hr hrl
    have hfr : f r.dim1 = distinct r.coef2 (t r.dim2) r.coef3 (t r.dim3) := by
      rw [hf]; simp only [axisOf_rel rels hn r hr]; rfl
    obtain ⟨m, hm, hle⟩ := hclip r hr hrl
    have e1 : L.pi.prLoop.get? r.dim1 = some (r.dim2, r.dim3) := by
      rw [hpi, (extractPr_spec rels hn).1, get?_map_rel, find?_rel rels hn r hr]; rfl
    have e2 : L.pi.scaling.get? r.dim1 = some (r.coef2, r.coef3) := by
      rw [hpi, (extractPr_spec rels hn).2.1, get?_map_rel, find?_rel rels hn r hr]; rfl
    have e3 := hget _ (hpres r hr).1
    have e4 := hget _ (hpres r hr).2
    have e5 := pr_size_partial r.coef2 (t r.dim2) r.coef3 (t r.dim3) (Or.inl (by have := hcoef r hr; omega)) (hreg r hr hrl)
    unfold calcTensorDim lookup
    rw [hnames r hr]
    simp only [e1, e2, e3, e4, bind, Except.bind, pyInt_nat, e5, hm, pure, Except.pure, hfr]
    rw [min_eq_right]
    · norm_num
    · exact_mod_cast hle
  -- all dimensions of the operand
  have hall : ∀ d ∈ rel.r ++ rel.pr.keys, calcTensorDim L sizes d = .ok (f d : ℚ) := by
    intro d hd
    by_cases hk : ∃ r ∈ rels, r.dim1 = d
    · obtain ⟨r, hr, rfl⟩ := hk
      refine hprd r hr ?_
      rcases extractRel_spec hn hrel with ⟨⟨r0, hr0, h0⟩, _, _, _⟩ | ⟨_, g2, _, _, g4⟩
      · rcases hmix with hm | hm
        · exact hm r hr
        · exact absurd h0 (hm r0 hr0)
      · rw [g4, g2] at hd
        simp only [Dict.keys, List.map_nil, List.append_nil] at hd
        exact List.mem_of_mem_filter hd
    · push Not at hk
      refine hdim d ?_ hk
      rcases extractRel_spec hn hrel with ⟨_, g2, _, g4⟩ | ⟨_, g2, _, _, g4⟩
      · rcases List.mem_append.1 hd with hd | hd
        · rw [g2] at hd; exact List.mem_of_mem_filter hd
        · rw [g4] at hd
          obtain ⟨e, he, rfl⟩ := List.mem_map.1 hd
          obtain ⟨r, hr, rfl⟩ := (mem_prLoop rels hn e).1 he
          exact absurd rfl (hk r hr)
      · rw [g4] at hd
        rw [g2] at hd
        simp only [Dict.keys, List.map_nil, List.append_nil] at hd
        exact List.mem_of_mem_filter hd
  have hprod : ((rel.r ++ rel.pr.keys).map f).prod = (rl.map f).prod := by
    rcases extractRel_spec hn hrel with ⟨⟨r0, hr0, hrl0⟩, g2, _, g4⟩ | ⟨hno, g2, g2', g3', g4⟩
    · have hmx : ∀ r ∈ rels, r.dim1 ∈ rl := by
        rcases hmix with h | h
        · exact h
        · exact absurd hrl0 (h r0 hr0)
      have hperm : (rl.filter (fun d => ¬ (d ∉ (extractPr rels).prList))).Perm rel.pr.keys := by
        have hkn : rel.pr.keys.Nodup := by
          rw [g4, (extractPr_spec rels hn).1]
          simpa [Dict.keys, Function.comp_def] using hn
        refine (List.perm_ext_iff_of_nodup (hrl.filter _) hkn).2 fun k => ?_
        rw [List.mem_filter]
        simp only [not_not, decide_eq_true_eq]
        rw [mem_prList rels hn]
        have hkey : k ∈ rel.pr.keys ↔ ∃ r ∈ rels, k = r.dim1 := by
          rw [g4, (extractPr_spec rels hn).1]
          simp [Dict.keys, eq_comm]
        rw [hkey]
        constructor
        · rintro ⟨hkrl, r, hr, hde⟩
          rcases hde with hde | hde
          · exact ⟨r, hr, hde⟩
          · by_contra hc
            push Not at hc
            have hax : axisOf rels k = .dim k := axisOf_dim rels k (fun q hq => (hc q hq).symm)
            rw [List.flatMap_map, List.nodup_flatMap] at hvars
            haveI : Std.Symm (Function.onFun List.Disjoint (fun a => (axisOf rels a).vars)) :=
              ⟨fun _ _ h => List.Disjoint.symm h⟩
            have hdis := hvars.2.forall hkrl (hmx r hr) (hc r hr)
            have : k ∈ (axisOf rels r.dim1).vars := by
              rw [axisOf_rel rels hn r hr]; simpa [Axis.vars] using hde
            exact hdis (by simp only [hax]; simp [Axis.vars]) this
        · rintro ⟨r, hr, rfl⟩
          exact ⟨hmx r hr, r, hr, Or.inl rfl⟩
      have hp : (rel.r ++ rel.pr.keys).Perm rl := by
        refine (List.Perm.append_left _ hperm.symm).trans ?_
        rw [g2]
        have := List.filter_append_perm (fun d => decide (d ∉ (extractPr rels).prList)) rl
        simpa using this
      exact (hp.map f).prod_eq
    · rw [g2, g4]
      simp only [Dict.keys, List.map_nil, List.append_nil]
      have hone : ∀ d ∈ rl, L.dimSizes.get? d = some 1 → f d = 1 := by
        intro d hd h
        rw [hf]; simp only [axisOf_dim rels d (fun r hr hc => hno r hr (hc ▸ hd))]
        exact h1 d h
      clear g2 g2' g3' hmix hvars hloop hdim hall hrel hrl hno hreg hclip hprd
      induction rl with
      | nil => rfl
      | cons d l ih =>
        have ih' := ih (fun e he => hone e (by simp [he]))
        by_cases hd : L.dimSizes.get? d = some 1
        · rw [List.filter_cons_of_neg (by simpa using hd), ih', List.map_cons, List.prod_cons, hone d (by simp) hd, Nat.one_mul]
        · rw [List.filter_cons_of_pos (by simpa using hd), List.map_cons, List.prod_cons, ih', List.map_cons, List.prod_cons]
  unfold calcTensorSize
  rw [mapM_ok _ (fun d => (f d : ℚ)) _ hall, ncard_touched t hpos _ hvars, List.map_map]
  change Except.ok _ = Except.ok _
  congr 1
  have hfe : (axisCard t ∘ axisOf rels) = f := rfl
  rw [hfe, ← hprod]
  generalize rel.r ++ rel.pr.keys = l
  induction l with
  | nil => simp
  | cons d l ih => rw [List.map_cons, List.prod_cons, List.map_cons, List.prod_cons, ih]; push_cast; ring

/-- C17: the operand size reported for the whole layer is the tile size for the full loop sizes. -/
theorem operand_size_full {L : Layer Dim} {rel : Rel Dim} {s : ℚ} (h : operandSizeElem L rel = .ok s) :
    calcTensorSize L rel L.dimSizes = .ok s := by
  unfold operandSizeElem at h
  cases h1 : rel.r.mapM (lookup L.dimSizes) with
  | error e => rw [h1] at h; cases h
  | ok rs =>
    cases h2 : rel.pr.keys.mapM (fun d => calcTensorDim L L.dimSizes d) with
    | error e => rw [h1, h2] at h; cases h
    | ok ps =>
      rw [h1, h2] at h
      change Except.ok (rs.prod * ps.prod) = Except.ok s at h
      cases h
      have h3 : rel.r.mapM (calcTensorDim L L.dimSizes) = .ok rs := by
        clear h2
        generalize rel.r = rr at h1
        induction rr generalizing rs with
        | nil => exact h1
        | cons d l ih =>
          rw [List.mapM_cons] at h1 ⊢
          unfold lookup at h1
          unfold calcTensorDim
          cases hg : L.dimSizes.get? d with
          | none => rw [hg] at h1; cases h1
          | some v =>
            rw [hg] at h1
            cases hl : l.mapM (lookup L.dimSizes) with
            | error e => unfold lookup at hl; rw [hl] at h1; cases h1
            | ok t =>
              have hi := ih t hl
              unfold lookup at hl
              rw [hl] at h1
              cases h1
              unfold calcTensorDim at hi
              simp only [bind, Except.bind]
              simp only [bind, Except.bind] at hi
              rw [hi]
              rfl
      unfold calcTensorSize
      rw [List.mapM_append, h3, h2]
      change Except.ok (rs ++ ps).prod = _
      rw [List.prod_append]

/-! ### Non-trivial cases: dimensions 0: K, 1: C, 2: OX, 3: FX, 4: IX with `IX = 2*OX + FX` -/

/-- The layer of the examples. -/
def exRels : List (Relation Nat) := [⟨4, 2, 3, 2, 1⟩]
/-- The layer of the examples. -/
def exLayer : Layer Nat := ⟨[(0, 8), (1, 4), (2, 5), (3, 3)], extractPr exRels, [(4, 9)]⟩

example : extractRel [1, 4] exLayer.dimSizes exLayer.pi = .ok ⟨[1], [0], [(4, (2, 3))]⟩ := by rfl
example : extractRel [0, 1, 3] exLayer.dimSizes exLayer.pi = .ok ⟨[0, 1, 3], [2], []⟩ := by rfl
example : calcTensorSize exLayer ⟨[1], [0], [(4, (2, 3))]⟩ [(0, 1), (1, 2), (2, 3), (3, 3)] = .ok 14 := by decide +kernel
example : (touched (Dim := Nat) [.dim 1, .lin 2 2 1 3] (fun d => if d = 1 then 2 else if d = 2 ∨ d = 3 then 3 else 1)).ncard = 14 := by
  rw [ncard_touched _ (by intro d; split_ifs <;> omega) _ (by decide)]
  decide +kernel
example : calcPr 2 5 1 3 = .ok 11 ∧ distinct 2 5 1 3 = 11 := by decide +kernel

end Verif.LayerNode
