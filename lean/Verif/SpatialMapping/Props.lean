import Verif.SpatialMapping.Lemmas
import Mathlib.Tactic.FieldSimp
import Mathlib.Data.Rat.Cast.Order

/-! C20, C21, C22: spatial mappings are checked, reduced and ranked. -/

namespace Verif.SpatialMapping

variable {OA Dim : Type} [DecidableEq OA] [DecidableEq Dim]

/-- C21: `is_valid` returns `True` exactly when conditions 2) to 8) of its documentation hold. -/
theorem is_valid_iff (oaSizes : Dict OA ℚ) (maxU : Dict OA (Dict Dim ℚ)) (sizes : Dict Dim ℚ) (m : SM OA Dim) (hm : SMWF m) (hs : sizes.WF) :
    isValid (some oaSizes) maxU sizes m = .ok true ↔ SameOas oaSizes m ∧ Valid oaSizes maxU sizes m := by
  unfold isValid
  simp only
  by_cases h1 : m.keys.all (fun k => decide (k ∈ oaSizes.keys)) = true
  swap
  · rw [if_neg h1]
    constructor
    · intro h; cases h
    · rintro ⟨h, _⟩
      exact absurd (List.all_eq_true.2 (fun k hk => by simpa using (h k).1 hk)) h1
  rw [if_pos h1]
  by_cases h2 : oaSizes.keys.all (fun k => decide (k ∈ m.keys)) = true
  swap
  · rw [if_neg h2]
    constructor
    · intro h; cases h
    · rintro ⟨h, _⟩
      exact absurd (List.all_eq_true.2 (fun k hk => by simpa using (h k).2 hk)) h2
  rw [if_pos h2]
  have hsame : SameOas oaSizes m := by
    intro k
    rw [List.all_eq_true] at h1 h2
    exact ⟨fun hk => by simpa using h1 k hk, fun hk => by simpa using h2 k hk⟩
  have hd : validDims sizes m = true ↔ (∀ e ∈ m, ∀ d ∈ e.2.keys, d ∈ sizes.keys) ∧
      ∀ d s, sizes.get? d = some s → (m.map (fun e => factor e.2 d)).prod ≤ s := by
    unfold validDims
    rw [Bool.and_eq_true, List.all_eq_true, List.all_eq_true]
    constructor
    · rintro ⟨ha, hb⟩
      refine ⟨fun e he d hd => by simpa using ha d (mem_allDims.2 ⟨e, he, hd⟩), fun d s hd => ?_⟩
      have := hb _ (Dict.mem_of_get? hd)
      rw [decide_eq_true_eq, total_eq hm.2] at this
      exact this
    · rintro ⟨ha, hb⟩
      refine ⟨fun d hd => ?_, fun x hx => ?_⟩
      · obtain ⟨e, he, hd⟩ := mem_allDims.1 hd
        simpa using ha e he d hd
      · rw [decide_eq_true_eq, total_eq hm.2]
        exact hb _ _ (Dict.get?_of_mem hs hx)
  have key : (validOas oaSizes maxU m = .ok true ∧ validDims sizes m = true) ↔ Valid oaSizes maxU sizes m := by
    rw [validOas_true, hd]
    constructor
    · rintro ⟨ha, hb, hc⟩
      exact ⟨fun oa l hl d u hu => (ha _ (Dict.mem_of_get? hl)).1 _ (Dict.mem_of_get? hu), fun oa l hl => (ha _ (Dict.mem_of_get? hl)).2,
        fun oa l hl => hb _ (Dict.mem_of_get? hl), hc⟩
    · intro hv
      refine ⟨fun e he => ?_, fun e he => ?_, hv.covers⟩
      · have hg := Dict.get?_of_mem hm.1 he
        exact ⟨fun x hx => hv.bounded _ _ hg _ _ (Dict.get?_of_mem (hm.2 e he) hx), hv.fits _ _ hg⟩
      · exact hv.known _ _ (Dict.get?_of_mem hm.1 he)
  rw [← key]
  cases h : validOas oaSizes maxU m with
  | error x => simp
  | ok b => cases b <;> simp [hsame]

/-- C21: otherwise it answers `False` (no exception), as long as bounds are given for every array dimension. -/
theorem is_valid_false (oaSizes : Dict OA ℚ) (maxU : Dict OA (Dict Dim ℚ)) (sizes : Dict Dim ℚ) (m : SM OA Dim) (hm : SMWF m) (hs : sizes.WF)
    (hsame : SameOas oaSizes m) (hmax : ∀ k ∈ m.keys, k ∈ maxU.keys) (hv : ¬ Valid oaSizes maxU sizes m) :
    isValid (some oaSizes) maxU sizes m = .ok false := by
  have hne : isValid (some oaSizes) maxU sizes m ≠ .ok true := fun h => hv ((is_valid_iff oaSizes maxU sizes m hm hs).1 h).2
  obtain ⟨b, hb⟩ := validOas_ok oaSizes maxU m hmax (fun k hk => (hsame k).1 hk)
  unfold isValid at hne ⊢
  simp only at hne ⊢
  rw [if_pos (List.all_eq_true.2 (fun k hk => by simpa using (hsame k).1 hk)), if_pos (List.all_eq_true.2 (fun k hk => by simpa using (hsame k).2 hk)),
    hb] at hne ⊢
  cases b with
  | false => rfl
  | true =>
    simp only at hne ⊢
    cases hc : validDims sizes m with
    | false => rfl
    | true => rw [hc] at hne; exact absurd rfl hne

/-- C21: a mapping over other array dimensions than those of the hardware is an assertion failure. -/
theorem is_valid_assert (oaSizes : Dict OA ℚ) (maxU : Dict OA (Dict Dim ℚ)) (sizes : Dict Dim ℚ) (m : SM OA Dim) (h : ¬ SameOas oaSizes m) :
    isValid (some oaSizes) maxU sizes m = .error .assertion := by
  unfold isValid
  simp only
  split_ifs with h1 h2
  · exfalso
    apply h
    intro k
    rw [List.all_eq_true] at h1 h2
    exact ⟨fun hk => by simpa using h1 k hk, fun hk => by simpa using h2 k hk⟩
  · rfl
  · rfl

private theorem forall₂_keys_sub {R : Dim × ℚ → Dim × ℚ → Prop} {l r : List (Dim × ℚ)} (h : List.Forall₂ (fun x y => y.1 = x.1 ∧ R x y) l r) :
    Dict.keys r = Dict.keys l := by
  induction h with
  | nil => rfl
  | cons hab _ ih => simp only [Dict.keys, List.map_cons] at *; rw [hab.1, ih]

/-- C20: whatever dimensions are picked for removal, reducing a user mapping succeeds and gives a valid mapping over the same array
dimensions, in which every remaining unrolling is the user's value or the bound, whichever is smaller. -/
theorem check_and_reduce_valid (o : Order OA Dim) (ho : o.Ok) (oaSizes : Dict OA ℚ) (maxU : Dict OA (Dict Dim ℚ)) (sizes : Dict Dim ℚ) (m : SM OA Dim)
    (hm : SMWF m) (hs : sizes.WF) (hsame : SameOas oaSizes m)
    (hmax : ∀ oa ∈ m.keys, ∃ mx, maxU.get? oa = some mx ∧ ∀ d ∈ sizes.keys, d ∈ mx.keys)
    (hoa : ∀ oa s, oaSizes.get? oa = some s → 1 ≤ s) (hdim : ∀ d s, sizes.get? d = some s → 1 ≤ s)
    (hu : ∀ oa l d u, m.get? oa = some l → l.get? d = some u → 1 ≤ u)
    (hb : ∀ oa mx d b, maxU.get? oa = some mx → mx.get? d = some b → b = 0 ∨ 1 ≤ b) :
    ∃ m', checkAndReduce o (some oaSizes) maxU sizes m = .ok m' ∧ isValid (some oaSizes) maxU sizes m' = .ok true ∧
      SMWF m' ∧ LoweredTo maxU m m' := by
  unfold checkAndReduce
  simp only
  rw [phase1 sizes _ m (ho.1 _ _)]
  simp only
  set m1 : SM OA Dim := m.map (fun e => (e.1, e.2.filter (fun x => x.1 ∈ sizes.keys))) with hm1
  have k1 : m1.keys = m.keys := by simp [hm1, Dict.keys, Function.comp_def]
  have mem1 : ∀ e1 ∈ m1, ∃ e ∈ m, e1.1 = e.1 ∧ e1.2 = e.2.filter (fun x => x.1 ∈ sizes.keys) := by
    intro e1 he1
    obtain ⟨e, he, rfl⟩ := List.mem_map.1 he1
    exact ⟨e, he, rfl, rfl⟩
  obtain ⟨m2, h2, c2⟩ := phase2 o ho oaSizes maxU m1
    (by
      intro e1 he1
      obtain ⟨e, he, e1k, e1l⟩ := mem1 e1 he1
      obtain ⟨mx, hmx, hk⟩ := hmax e.1 (List.mem_map.2 ⟨e, he, rfl⟩)
      refine ⟨mx, e1k ▸ hmx, fun x hx => ?_⟩
      rw [e1l] at hx
      exact hk _ (by simpa using (List.mem_filter.1 hx).2))
    (by
      intro e1 he1
      have hk : e1.1 ∈ oaSizes.keys := (hsame _).1 (k1 ▸ List.mem_map.2 ⟨e1, he1, rfl⟩)
      cases hg : oaSizes.get? e1.1 with
      | none => exact absurd hk ((Dict.get?_eq_none_iff _ _).1 hg)
      | some s => exact ⟨s, rfl, hoa _ _ hg⟩)
  rw [h2]
  simp only
  have k2 : m2.keys = m1.keys := by
    clear h2
    generalize m1 = m1 at c2
    induction c2 with
    | nil => rfl
    | cons hab _ ih => simp only [Dict.keys, List.map_cons] at *; rw [hab.1, ih]
  -- entries after phase 2
  have ent2 : ∀ e2 ∈ m2, ∃ e ∈ m, e2.1 = e.1 ∧ e2.2.WF ∧ (∀ x ∈ e2.2, x.1 ∈ sizes.keys ∧
      ∃ u mx b, (x.1, u) ∈ e.2 ∧ maxU.get? e.1 = some mx ∧ mx.get? x.1 = some b ∧ x.2 = min u b) := by
    intro e2 he2
    obtain ⟨e1, he1, hk, mx, s, l, hmx, hsz, hf, hsub, hut⟩ := forall₂_mem_right c2 he2
    obtain ⟨e, he, e1k, e1l⟩ := mem1 e1 he1
    refine ⟨e, he, hk.trans e1k, ?_, ?_⟩
    · have : Dict.WF l := by
        unfold Dict.WF
        rw [forall₂_keys_sub hf, e1l]
        exact (hm.2 e he).filter _
      unfold Dict.WF Dict.keys at this ⊢
      exact this.sublist (hsub.map _)
    · intro x hx
      obtain ⟨y, hy, hxy, b, hb1, hb2⟩ := forall₂_mem_right hf (hsub.subset hx)
      rw [e1l] at hy
      obtain ⟨hy1, hy2⟩ := List.mem_filter.1 hy
      refine ⟨by rw [hxy]; simpa using hy2, y.2, mx, b, ?_, e1k ▸ hmx, by rw [hxy]; exact hb1, hb2⟩
      rw [hxy]
      exact hy1
  have inv2 : Inv oaSizes m2 := by
    refine ⟨⟨?_, fun e2 he2 => (ent2 e2 he2).choose_spec.2.2.1⟩, ?_, ?_⟩
    · unfold Dict.WF; rw [k2, k1]; exact hm.1
    · intro e2 he2 x hx
      obtain ⟨e, he, _, _, hx'⟩ := ent2 e2 he2
      obtain ⟨_, u, mx, b, hu1, hmx, hb1, hx2⟩ := hx' x hx
      have h1u := hu e.1 e.2 x.1 u (Dict.get?_of_mem hm.1 he) (Dict.get?_of_mem (hm.2 e he) hu1)
      rcases hb _ _ _ _ hmx hb1 with h0 | h0
      · left; rw [hx2, h0]; exact min_eq_right (by linarith)
      · right; rw [hx2]; exact le_min h1u h0
    · intro e2 he2
      obtain ⟨e1, he1, hk, mx, s, l, hmx, hsz, hf, hsub, hut⟩ := forall₂_mem_right c2 he2
      exact ⟨s, by rw [hk]; exact hsz, hut⟩
  obtain ⟨m3, h3, s3, inv3, tot, tots⟩ := phase3 o ho oaSizes sizes (o.dims m2 (allDims m2)) m2 inv2
    ((ho.1 _ _).nodup_iff.2 (allDims_nodup m2))
    (by
      intro d hd
      obtain ⟨e2, he2, hde⟩ := mem_allDims.1 ((ho.1 _ _).mem_iff.1 hd)
      obtain ⟨x, hx, rfl⟩ := List.mem_map.1 hde
      obtain ⟨_, _, _, _, hx'⟩ := ent2 e2 he2
      have hk := (hx' x hx).1
      cases hg : sizes.get? x.1 with
      | none => exact absurd hk ((Dict.get?_eq_none_iff _ _).1 hg)
      | some s => exact ⟨s, rfl, hdim _ _ hg⟩)
  have ent3 : ∀ e3 ∈ m3, ∃ e ∈ m, e3.1 = e.1 ∧ (∀ x ∈ e3.2, x.1 ∈ sizes.keys ∧
      ∃ u mx b, (x.1, u) ∈ e.2 ∧ maxU.get? e.1 = some mx ∧ mx.get? x.1 = some b ∧ x.2 = min u b) := by
    intro e3 he3
    obtain ⟨e2, he2, hk, hsub⟩ := forall₂_mem_right s3 he3
    obtain ⟨e, he, hk', _, hx⟩ := ent2 e2 he2
    exact ⟨e, he, hk.trans hk', fun x h => hx x (hsub.subset h)⟩
  have k3 : m3.keys = m.keys := s3.keys.trans (k2.trans k1)
  refine ⟨m3, h3, ?_, inv3.wf, k3, ?_⟩
  · rw [is_valid_iff _ _ _ _ inv3.wf hs]
    refine ⟨fun k => by rw [k3]; exact hsame k, ⟨?_, ?_, ?_, ?_⟩⟩
    · intro oa l hl d u hd
      obtain ⟨e, he, hk, hx⟩ := ent3 _ (Dict.mem_of_get? hl)
      obtain ⟨_, u0, mx, b, _, hmx, hb1, hx2⟩ := hx _ (Dict.mem_of_get? hd)
      refine ⟨mx, b, ?_, hb1, ?_⟩
      · simp only at hk; rw [hk]; exact hmx
      · simp only at hx2; rw [hx2]; exact min_le_right _ _
    · intro oa l hl
      exact inv3.fits _ (Dict.mem_of_get? hl)
    · intro oa l hl d hd
      obtain ⟨e, he, hk, hx⟩ := ent3 _ (Dict.mem_of_get? hl)
      obtain ⟨x, hx1, rfl⟩ := List.mem_map.1 hd
      exact (hx x hx1).1
    · intro d s hd
      rw [← total_eq inv3.wf.2]
      by_cases hc : d ∈ o.dims m2 (allDims m2)
      · obtain ⟨s', hs', ht⟩ := tots d hc
        rw [hd] at hs'
        cases hs'
        exact ht
      · rw [tot d hc, total_eq inv2.wf.2, List.prod_eq_one]
        · exact hdim _ _ hd
        · intro x hx
          obtain ⟨e, he, rfl⟩ := List.mem_map.1 hx
          apply factor_of_not_mem
          intro hde
          exact hc ((ho.1 _ _).mem_iff.2 (mem_allDims.2 ⟨e, he, hde⟩))
  · intro oa l' hl'
    obtain ⟨e, he, hk, hx⟩ := ent3 _ (Dict.mem_of_get? hl')
    simp only at hk
    refine ⟨e.2, by rw [hk]; exact Dict.get?_of_mem hm.1 he, ?_⟩
    intro d u' hd
    obtain ⟨_, u, mx, b, hu1, hmx, hb1, hx2⟩ := hx _ (Dict.mem_of_get? hd)
    exact ⟨u, mx, b, Dict.get?_of_mem (hm.2 e he) hu1, by rw [hk]; exact hmx, hb1, hx2⟩

/-- C20: a mapping that is valid already is not changed. -/
theorem check_and_reduce_id (o : Order OA Dim) (ho : o.Ok) (oaSizes : Dict OA ℚ) (maxU : Dict OA (Dict Dim ℚ)) (sizes : Dict Dim ℚ) (m : SM OA Dim)
    (hm : SMWF m) (hs : sizes.WF) (hv : isValid (some oaSizes) maxU sizes m = .ok true) :
    checkAndReduce o (some oaSizes) maxU sizes m = .ok m := by
  obtain ⟨hsame, hv⟩ := (is_valid_iff _ _ _ _ hm hs).1 hv
  unfold checkAndReduce
  simp only
  rw [phase1 sizes _ m (ho.1 _ _)]
  simp only
  have e1 : (m.map (fun e => (e.1, e.2.filter (fun x => x.1 ∈ sizes.keys))) : SM OA Dim) = m := by
    conv_rhs => rw [← List.map_id m]
    apply List.map_congr_left
    intro e he
    refine Prod.ext rfl ?_
    simp only [id]
    rw [List.filter_eq_self]
    intro x hx
    simpa using hv.known _ _ (Dict.get?_of_mem hm.1 he) _ (List.mem_map.2 ⟨x, hx, rfl⟩)
  rw [e1]
  have e2 : ∀ t : SM OA Dim, (∀ e ∈ t, e ∈ m) → reduceOas o oaSizes maxU t = .ok t := by
    intro t
    induction t with
    | nil => intro _; rfl
    | cons e t ih =>
      intro hsub
      have he := hsub e (by simp)
      have hg := Dict.get?_of_mem hm.1 he
      have hc : ∀ l : List (Dim × ℚ), (∀ x ∈ l, x ∈ e.2) → clip maxU e.1 l = .ok l := by
        intro l
        induction l with
        | nil => intro _; rfl
        | cons x l ihl =>
          intro hl
          obtain ⟨mx, b, hmx, hb, hle⟩ := hv.bounded _ _ hg x.1 x.2 (Dict.get?_of_mem (hm.2 e he) (hl x (by simp)))
          unfold clip
          rw [hmx]
          simp only
          rw [hb]
          simp only
          rw [ihl (fun y hy => hl y (by simp [hy]))]
          simp only
          rw [if_neg (not_lt.2 hle)]
      obtain ⟨s, hs, hfit⟩ := hv.fits _ _ hg
      unfold reduceOas
      rw [hc e.2 (fun x hx => hx)]
      simp only
      unfold shrinkOa
      rw [hs]
      simp only
      unfold shrink
      rw [if_neg (show ¬ util e.2 > s from not_lt.2 hfit)]
      simp only
      rw [ih (fun e he => hsub e (by simp [he]))]
  rw [e2 m (fun e he => he)]
  simp only
  have e3 : ∀ ds : List Dim, (∀ d ∈ ds, d ∈ allDims m) → cutDims o sizes ds m = .ok m := by
    intro ds
    induction ds with
    | nil => intro _; rfl
    | cons d ds ih =>
      intro hd
      obtain ⟨e, he, hde⟩ := mem_allDims.1 (hd d (by simp))
      have hk := hv.known _ _ (Dict.get?_of_mem hm.1 he) d hde
      unfold cutDims
      cases hg : sizes.get? d with
      | none => exact absurd hk ((Dict.get?_eq_none_iff _ _).1 hg)
      | some s =>
        simp only
        unfold cut
        have := hv.covers d s hg
        rw [← total_eq hm.2] at this
        rw [if_neg (not_lt.2 this)]
        exact ih (fun x hx => hd x (by simp [hx]))
  exact e3 _ (fun d hd => (ho.1 _ _).mem_iff.1 hd)

/-- Traversal in insertion order. -/
def plainOrder : Order OA Dim := ⟨fun _ l => l, fun _ l => l, fun _ l => l⟩

theorem plainOrder_ok : (plainOrder : Order OA Dim).Ok := ⟨fun _ _ => .refl _, fun _ _ => .refl _, fun _ _ => .refl _⟩

/-- Non-trivial case of C20: an unknown dimension, a clipped unrolling, a full array dimension and a covered layer dimension. -/
example : checkAndReduce plainOrder (some [("D1", 8), ("D2", 4)])
    [("D1", [("K", 4), ("C", 6), ("OX", 5)]), ("D2", [("K", 4), ("C", 4), ("OX", 4)])]
    [("K", 6), ("C", 6), ("OX", 5)]
    [("D1", [("K", 16), ("FX", 3), ("C", 6)]), ("D2", [("C", 2), ("OX", 2)])] =
    .ok [("D1", []), ("D2", [("C", 2), ("OX", 2)])] := by decide +kernel

/-! ### C22 -/

/-- The hypotheses under which the indicator is used: whole unrollings of at least one and something unrolled. -/
def WholeMapping (m : SM OA Dim) : Prop := SMWF m ∧ (∃ d, d ∈ allDims m) ∧ ∀ e ∈ m, ∀ x ∈ e.2, ∃ n : ℕ, 1 ≤ n ∧ x.2 = n

/-- Product of all unrollings of a mapping. -/
def allProd (m : SM OA Dim) : ℚ := (m.map (fun e => (e.2.map Prod.snd).prod)).prod

private theorem nat_prod : ∀ l : List ℚ, (∀ x ∈ l, ∃ n : ℕ, 1 ≤ n ∧ x = n) → ∃ n : ℕ, 1 ≤ n ∧ l.prod = n
  | [], _ => ⟨1, le_refl _, by simp⟩
  | x :: l, h => by
    obtain ⟨a, ha, hx⟩ := h x (by simp)
    obtain ⟨b, hb, hl⟩ := nat_prod l (fun y hy => h y (by simp [hy]))
    exact ⟨a * b, Nat.mul_pos ha hb, by rw [List.prod_cons, hx, hl]; push_cast; rfl⟩

theorem hwUtil_eq {m : SM OA Dim} (h : WholeMapping m) : (hwUtil m : ℚ) = allProd m ∧ 1 ≤ allProd m := by
  obtain ⟨n, hn, e⟩ := nat_prod (m.map (fun e => (e.2.map Prod.snd).prod)) (by
    intro x hx
    obtain ⟨e, he, rfl⟩ := List.mem_map.1 hx
    apply nat_prod
    intro y hy
    obtain ⟨z, hz, rfl⟩ := List.mem_map.1 hy
    exact h.2.2 e he z hz)
  have hn' : (1 : ℚ) ≤ n := by exact_mod_cast hn
  constructor
  · unfold hwUtil pyTrunc util
    unfold allProd
    rw [e, if_neg (by linarith)]
    simp
  · unfold allProd; rw [e]; exact hn'

private theorem pyMax_fold (t : List ℚ) (x : ℚ) : x ≤ t.foldl (fun a b => if b > a then b else a) x ∧
    (∀ y ∈ t, y ≤ t.foldl (fun a b => if b > a then b else a) x) ∧
    (t.foldl (fun a b => if b > a then b else a) x = x ∨ t.foldl (fun a b => if b > a then b else a) x ∈ t) := by
  induction t generalizing x with
  | nil => simp
  | cons y t ih =>
    rw [List.foldl_cons]
    by_cases h : y > x
    · rw [if_pos h]
      obtain ⟨h1, h2, h3⟩ := ih y
      refine ⟨le_trans (le_of_lt h) h1, ?_, ?_⟩
      · intro z hz
        rcases List.mem_cons.1 hz with rfl | hz
        · exact h1
        · exact h2 z hz
      · rcases h3 with h3 | h3
        · right; rw [h3]; simp
        · right; simp [h3]
    · rw [if_neg h]
      obtain ⟨h1, h2, h3⟩ := ih x
      refine ⟨h1, ?_, ?_⟩
      · intro z hz
        rcases List.mem_cons.1 hz with rfl | hz
        · exact le_trans (not_lt.1 h) h1
        · exact h2 z hz
      · rcases h3 with h3 | h3
        · exact Or.inl h3
        · right; simp [h3]

/-- `mx` is the largest total unrolling of a layer dimension. -/
def IsMaxTotal (m : SM OA Dim) (mx : ℚ) : Prop :=
  (∃ d ∈ allDims m, (m.map (fun e => factor e.2 d)).prod = mx) ∧ ∀ d ∈ allDims m, (m.map (fun e => factor e.2 d)).prod ≤ mx

/-- C22: for whole mappings the indicator is the utilization plus the utilization divided by the largest total unrolling, minus one;
the assertion and the division never fail. -/
theorem indicator_formula {m : SM OA Dim} (h : WholeMapping m) : ∃ mx, IsMaxTotal m mx ∧ 1 ≤ mx ∧
    indicator m = .ok (allProd m + (allProd m / mx - 1)) := by
  obtain ⟨hw, hone⟩ := hwUtil_eq h
  have hne : (allDims m).map (total m) ≠ [] := by
    obtain ⟨d, hd⟩ := h.2.1
    intro hc
    rw [List.map_eq_nil_iff] at hc
    rw [hc] at hd
    simp at hd
  unfold indicator
  cases hl : (allDims m).map (total m) with
  | nil => exact absurd hl hne
  | cons x t =>
    obtain ⟨h1, h2, h3⟩ := pyMax_fold t x
    set mx := t.foldl (fun a b => if b > a then b else a) x with hmx
    have hmem : mx ∈ (allDims m).map (total m) := by
      rw [hl]
      rcases h3 with h3 | h3
      · rw [h3]; simp
      · simp [h3]
    obtain ⟨d, hd, hde⟩ := List.mem_map.1 hmem
    have hmax : IsMaxTotal m mx := by
      refine ⟨⟨d, hd, by rw [← hde, total_eq h.1.2]⟩, fun d' hd' => ?_⟩
      have : total m d' ∈ x :: t := by rw [← hl]; exact List.mem_map.2 ⟨d', hd', rfl⟩
      rw [← total_eq h.1.2]
      rcases List.mem_cons.1 this with e | e
      · rw [e]; exact h1
      · exact h2 _ e
    have hge : 1 ≤ mx := by
      rw [← hde, total_eq h.1.2]
      obtain ⟨n, hn, e⟩ := nat_prod (m.map (fun e => factor e.2 d)) (by
        intro y hy
        obtain ⟨e, he, rfl⟩ := List.mem_map.1 hy
        unfold factor
        cases hg : e.2.get? d with
        | none => exact ⟨1, le_refl _, by simp⟩
        | some u => exact h.2.2 e he _ (Dict.mem_of_get? hg))
      rw [e]
      exact_mod_cast hn
    refine ⟨mx, hmax, hge, ?_⟩
    simp only [pyMax]
    rw [← hmx]
    unfold indicatorOf
    rw [hw, if_neg (by linarith), if_pos]
    have : allProd m / mx ≤ allProd m := div_le_self (by linarith) hge
    linarith

/-- C22 (partial): the documented claim holds when the utilization is at least twice as high ... -/
theorem indicator_double_partial {a b : SM OA Dim} (ha : WholeMapping a) (hb : WholeMapping b) (h : 2 * allProd b ≤ allProd a)
    (ia ib : ℚ) (hia : indicator a = .ok ia) (hib : indicator b = .ok ib) : ib < ia := by
  obtain ⟨ma, hma, h1a, ea⟩ := indicator_formula ha
  obtain ⟨mb, hmb, h1b, eb⟩ := indicator_formula hb
  rw [ea] at hia
  rw [eb] at hib
  cases hia
  cases hib
  have hpb := (hwUtil_eq hb).2
  have hpa := (hwUtil_eq ha).2
  have h1 : allProd b / mb ≤ allProd b := div_le_self (by linarith) h1b
  have h2 : 0 < allProd a / ma := div_pos (by linarith) (by linarith)
  linarith

/-- C22 (partial): ... or higher with no larger total unrolling; among equal utilizations the more diverse mapping wins. -/
theorem indicator_diverse_partial {a b : SM OA Dim} (ha : WholeMapping a) (hb : WholeMapping b) (ma mb : ℚ) (hma : IsMaxTotal a ma) (hmb : IsMaxTotal b mb)
    (h : (allProd b < allProd a ∧ ma ≤ mb) ∨ (allProd b = allProd a ∧ ma < mb))
    (ia ib : ℚ) (hia : indicator a = .ok ia) (hib : indicator b = .ok ib) : ib < ia := by
  obtain ⟨ma', hma', h1a, ea⟩ := indicator_formula ha
  obtain ⟨mb', hmb', h1b, eb⟩ := indicator_formula hb
  have uniq : ∀ {m : SM OA Dim} {x y : ℚ}, IsMaxTotal m x → IsMaxTotal m y → x = y := by
    rintro m x y ⟨⟨d, hd, e⟩, h⟩ ⟨⟨d', hd', e'⟩, h'⟩
    exact le_antisymm (e ▸ h' d hd) (e' ▸ h d' hd')
  obtain rfl := uniq hma hma'
  obtain rfl := uniq hmb hmb'
  rw [ea] at hia
  rw [eb] at hib
  cases hia
  cases hib
  have hpb := (hwUtil_eq hb).2
  have hpa := (hwUtil_eq ha).2
  have hb0 : 0 < mb := by linarith
  have ha0 : 0 < ma := by linarith
  rcases h with ⟨h1, h2⟩ | ⟨h1, h2⟩
  · have : allProd b / mb ≤ allProd a / ma := by
      rw [div_le_div_iff₀ hb0 ha0]
      nlinarith
    linarith
  · have : allProd b / mb < allProd a / ma := by
      rw [h1, div_lt_div_iff₀ hb0 ha0]
      nlinarith
    linarith

/-- C22 is false as documented: a mapping with utilization 10 ranks below one with utilization 9. -/
theorem indicator_false :
    indicator [("D1", [("K", 10)])] = .ok 10 ∧ allProd [("D1", [("K", 10)])] = 10 ∧
    indicator [("D1", [("K", 3)]), ("D2", [("C", 3)])] = .ok 11 ∧ allProd [("D1", [("K", 3)]), ("D2", [("C", 3)])] = 9 := by
  decide +kernel

/-- The hypotheses of the C22 theorems are met by ordinary mappings. -/
example : WholeMapping [("D1", [("K", (4 : ℚ))]), ("D2", [("C", 3), ("K", 2)])] := by
  refine ⟨⟨by unfold Dict.WF Dict.keys; decide, by unfold Dict.WF Dict.keys; decide⟩, ⟨"K", by decide⟩, ?_⟩
  intro e he x hx
  simp at he
  rcases he with rfl | rfl
  · simp at hx; subst hx; exact ⟨4, by norm_num, by norm_num⟩
  · simp at hx
    rcases hx with rfl | rfl
    · exact ⟨3, by norm_num, by norm_num⟩
    · exact ⟨2, by norm_num, by norm_num⟩

end Verif.SpatialMapping
