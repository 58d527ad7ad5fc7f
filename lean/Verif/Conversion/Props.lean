import Verif.Conversion.Convert
import Verif.SpatialInternal.Props

/-! Properties C26 and C27. -/

namespace Verif.Conversion

open Verif.SpatialMapping Verif.SpatialGen

variable {OA Dim : Type} [DecidableEq OA] [DecidableEq Dim]

/-! ### C26 -/

/-- For a valid whole user mapping the conversion succeeds in both versions, keeps exactly the unrollings of the layer's dimensions, changes only
the first largest unrolling of a dimension, never raises one, never reaches below one, and the changed one divides the dimension into the
smallest possible whole number of temporal iterations: exactly in the decimal version, up to rounding down in the whole version. -/
theorem convert_exact {oaSizes : Dict OA Nat} {sizes : Dict Dim Nat} {user : SM OA Dim} (hg : Good oaSizes sizes user) :
    ∃ lim limI, convert oaSizes sizes user = .ok (lim, limI) ∧ Converted true sizes user user lim lim ∧ Converted false sizes user user limI limI :=
  convertLoop_ok hg user [] [] [] rfl List.Forall₂.nil List.Forall₂.nil

/-- A mapping accepted by the validity check with whole positive unrollings is converted. -/
theorem convert_of_valid {oaSizes : Dict OA Nat} {sizes : Dict Dim Nat} {maxU : Dict OA (Dict Dim ℚ)} {user : SM OA Dim} (hw : SMWF user)
    (hv : Valid (oaSizes.map (fun e => (e.1, (e.2 : ℚ)))) maxU (sizes.map (fun e => (e.1, (e.2 : ℚ)))) user)
    (hn : ∀ e ∈ user, ∀ x ∈ e.2, ∃ n : ℕ, 1 ≤ n ∧ x.2 = n) : Good oaSizes sizes user := by
  have hcast : ∀ {K : Type} [DecidableEq K] (d : Dict K Nat) (k : K), Dict.get? (d.map (fun e => (e.1, (e.2 : ℚ)))) k = (d.get? k).map (fun n : ℕ => (n : ℚ)) := by
    intro K _ d k
    induction d with
    | nil => rfl
    | cons e t ih =>
      rw [List.map_cons, Dict.get?_cons, Dict.get?_cons, ih]
      split_ifs <;> rfl
  refine ⟨hw, hn, ?_, ?_⟩
  · intro e he
    obtain ⟨s, hs, hle⟩ := hv.fits e.1 e.2 (Dict.get?_of_mem hw.1 he)
    rw [hcast] at hs
    cases hg : oaSizes.get? e.1 with
    | none => rw [hg] at hs; cases hs
    | some n =>
      rw [hg] at hs
      simp only [Option.map_some, Option.some.injEq] at hs
      refine ⟨n, rfl, fun x hx => ?_⟩
      rw [hs]
      refine le_trans ?_ hle
      have h1 : ∀ y ∈ e.2.map Prod.snd, (1 : ℚ) ≤ y := by
        intro y hy
        obtain ⟨z, hz, rfl⟩ := List.mem_map.1 hy
        obtain ⟨m, hm, h⟩ := hn e he z hz
        rw [h]; exact_mod_cast hm
      have : ∀ (l : List ℚ), (∀ y ∈ l, (1 : ℚ) ≤ y) → 1 ≤ l.prod ∧ ∀ y ∈ l, y ≤ l.prod := by
        intro l
        induction l with
        | nil => intro _; simp
        | cons a t ih =>
          intro h
          obtain ⟨i1, i2⟩ := ih (fun y hy => h y (by simp [hy]))
          have ha := h a (by simp)
          rw [List.prod_cons]
          refine ⟨by nlinarith, fun y hy => ?_⟩
          rcases List.mem_cons.1 hy with rfl | hy
          · nlinarith
          · nlinarith [i2 y hy, h y (by simp [hy])]
      exact (this _ h1).2 x.2 (List.mem_map.2 ⟨x, hx, rfl⟩)
  · intro d L hL
    exact hv.covers d L (by rw [hcast, hL]; rfl)

/-- The unrollings of a dimension over the whole array never exceed its size after conversion, in either version. -/
theorem convert_covers {oaSizes : Dict OA Nat} {sizes : Dict Dim Nat} {user : SM OA Dim} (hg : Good oaSizes sizes user) {lim limI : SM OA Dim}
    (h : convert oaSizes sizes user = .ok (lim, limI)) (d : Dim) (L : Nat) (hL : sizes.get? d = some L) :
    1 ≤ (lim.map (fun e => factor e.2 d)).prod ∧ (lim.map (fun e => factor e.2 d)).prod ≤ L ∧
    1 ≤ (limI.map (fun e => factor e.2 d)).prod ∧ (limI.map (fun e => factor e.2 d)).prod ≤ L := by
  obtain ⟨l, lI, h1, h2, h3⟩ := convert_exact hg
  rw [h] at h1
  cases h1
  have hd : d ∈ sizes.keys := List.mem_map.2 ⟨(d, L), Dict.mem_of_get? hL, rfl⟩
  have hp : ∀ e ∈ user, ∀ x ∈ e.2, (1 : ℚ) ≤ x.2 := by
    intro e he x hx
    obtain ⟨n, hn, h⟩ := hg.whole e he x hx
    rw [h]; exact_mod_cast hn
  have a := prod_step hd user lim h2 hp
  have b := prod_step hd user limI h3 hp
  have c := hg.covers d L hL
  exact ⟨a.1, le_trans a.2 c, b.1, le_trans b.2 c⟩

theorem forall₂_split {α β : Type} {R : α → β → Prop} : ∀ (a b : List α) (l : List β), List.Forall₂ R (a ++ b) l →
    ∃ l1 l2, List.Forall₂ R a l1 ∧ List.Forall₂ R b l2 ∧ l = l1 ++ l2 := by
  intro a
  induction a with
  | nil => intro b l h; exact ⟨[], l, List.Forall₂.nil, h, rfl⟩
  | cons x t ih =>
    intro b l h
    cases h with
    | cons hx hr =>
      obtain ⟨l1, l2, h1, h2, h3⟩ := ih b _ hr
      exact ⟨_ :: l1, l2, List.Forall₂.cons hx h1, h2, by rw [h3]; rfl⟩

/-- Where no array dimension after the first largest unrolls the dimension too, the unrollings over the whole array divide the layer
dimension into a whole number of temporal iterations.  Partial: without that condition the claim is false (`conversion_temporal_false`). -/
theorem convert_divides_partial {oaSizes : Dict OA Nat} {sizes : Dict Dim Nat} {user : SM OA Dim} (hg : Good oaSizes sizes user) {lim limI : SM OA Dim}
    (h : convert oaSizes sizes user = .ok (lim, limI)) (d : Dim) (L : Nat) (hL : sizes.get? d = some L) (pre post : SM OA Dim) (e : OA × Dict Dim ℚ)
    (hu : user = pre ++ e :: post) (hfm : IsFirstMax user e.1 d) (hpost : ∀ e' ∈ post, d ∉ e'.2.keys) :
    ∃ t : ℕ, 1 ≤ t ∧ (lim.map (fun e => factor e.2 d)).prod * t = L := by
  obtain ⟨l, lI, h1, h2, _⟩ := convert_exact hg
  rw [h] at h1
  cases h1
  have hd : d ∈ sizes.keys := List.mem_map.2 ⟨(d, L), Dict.mem_of_get? hL, rfl⟩
  have heu : e ∈ user := by rw [hu]; simp
  obtain ⟨u, hu'⟩ : ∃ u, e.2.get? d = some u := by
    obtain ⟨p, e', q, u, hs, h1, h3, _⟩ := hfm
    have : e' = e := by
      have := Dict.get?_of_mem hg.wf.1 (k := e'.1) (v := e'.2) (by rw [hs]; simp)
      rw [h1, Dict.get?_of_mem hg.wf.1 (k := e.1) (v := e.2) heu] at this
      exact Prod.ext h1 (by simpa using this.symm)
    exact ⟨u, this ▸ h3⟩
  have hkn : (d, u) ∈ known sizes e.2 := List.mem_filter.2 ⟨Dict.mem_of_get? hu', by simpa using hd⟩
  have hne : known sizes e.2 ≠ [] := by intro hc; rw [hc] at hkn; simp at hkn
  have hcl : clean sizes user = clean sizes pre ++ (e.1, known sizes e.2) :: clean sizes post := by
    rw [hu, clean_append, clean_cons, if_neg hne]
  unfold Converted at h2
  rw [hcl] at h2
  obtain ⟨l1, l2, hl1, hl2, hsplit⟩ := forall₂_split _ _ _ h2
  cases hl2 with
  | cons hee hrest =>
    rename_i e' l3
    obtain ⟨he1, hee⟩ := hee
    have hoa1 : e.1 ∉ Dict.keys l1 := by
      intro hc
      have hk1 := converted_keys (m' := l1) (m := pre) (dec := true) (sizes := sizes) (user := user) (lim := lim) hl1 hc
      have := hg.wf.1
      unfold Dict.WF Dict.keys at this
      rw [hu, List.map_append, List.map_cons] at this
      exact (List.nodup_append.1 this).2.2 _ hk1 _ (by simp) rfl
    have hbp : beforeProd lim e.1 d = (l1.map (fun e => factor e.2 d)).prod := by
      rw [hsplit]
      unfold beforeProd
      congr 2
      rw [List.takeWhile_append_of_pos]
      · rw [List.takeWhile_cons_of_neg (by simp [he1]), List.append_nil]
      · intro a ha
        simp only [decide_eq_true_eq, ne_eq]
        intro hc
        exact hoa1 (List.mem_map.2 ⟨a, ha, hc.symm⟩)
    have hpost1 : (l3.map (fun e => factor e.2 d)).prod = 1 := by
      apply List.prod_eq_one
      intro q hq
      obtain ⟨e3, he3, rfl⟩ := List.mem_map.1 hq
      obtain ⟨e4, he4, _, h5⟩ := forall₂_mem_right hrest he3
      apply factor_of_not_mem
      rw [step_keys h5]
      obtain ⟨e0, he0, rfl⟩ := List.mem_map.1 (List.mem_filter.1 he4).1
      intro hc
      exact hpost e0 he0 (known_keys_sub hc)
    -- the element of `e`
    have hstep : ∀ (l l' : List (Dim × ℚ)), List.Forall₂ (Step true sizes user lim e.1) l l' → Dict.WF l → (d, u) ∈ l →
        ∃ y, Step true sizes user lim e.1 (d, u) y ∧ factor l' d = y.2 := by
      intro l l' hll
      induction hll with
      | nil => intro _ hm; simp at hm
      | cons hxy _ ih =>
        rename_i x y tl tl' _
        intro hw hm
        rcases List.mem_cons.1 hm with rfl | hm
        · exact ⟨y, hxy, by rw [factor_cons, if_pos hxy.dim]⟩
        · obtain ⟨z, hz, hf⟩ := ih (WF_cons hw).2 hm
          refine ⟨z, hz, ?_⟩
          rw [factor_cons, if_neg, hf]
          rw [hxy.dim]
          intro hc
          exact (WF_cons hw).1 (hc ▸ List.mem_map.2 ⟨(d, u), hm, rfl⟩)
    obtain ⟨y, hy, hfy⟩ := hstep _ _ hee (known_wf (hg.wf.2 e heu)) hkn
    obtain ⟨t, ht, _, heq⟩ := hy.divides hfm L hL
    refine ⟨t, ht, ?_⟩
    rw [if_pos rfl, hbp] at heq
    rw [hsplit, List.map_append, List.prod_append, List.map_cons, List.prod_cons, hpost1, hfy, mul_one, ← heq]
    ring

set_option synthInstance.maxSize 1000 in
set_option synthInstance.maxHeartbeats 200000 in
/-- The remark in the code ("fractional number so that the temporal remainder is an integer", lines 76-81) does not hold in general: when a
later array dimension unrolls the same layer dimension too, the remainder is not whole.  Here 12 is unrolled 4 times and 2 times, both are
kept, and 12 / 8 temporal iterations remain. -/
theorem conversion_temporal_false :
    ∃ (oaSizes : Dict Nat Nat) (sizes : Dict Nat Nat) (user lim limI : SM Nat Nat), Good oaSizes sizes user ∧
      convert oaSizes sizes user = .ok (lim, limI) ∧ sizes.get? 0 = some 12 ∧
      ¬ ∃ t : ℕ, (lim.map (fun e => factor e.2 0)).prod * t = 12 := by
  refine ⟨[(1, 4), (2, 4)], [(0, 12)], [(1, [(0, 4)]), (2, [(0, 2)])], [(1, [(0, 4)]), (2, [(0, 2)])], [(1, [(0, 4)]), (2, [(0, 2)])], ⟨⟨?_, ?_⟩, ?_, ?_, ?_⟩, ?_, rfl, ?_⟩
  · unfold Dict.WF Dict.keys; decide
  · intro e he
    unfold Dict.WF Dict.keys
    rcases List.mem_cons.1 he with rfl | he
    · decide
    · rw [List.mem_singleton.1 he]; decide
  · intro e he x hx
    rcases List.mem_cons.1 he with rfl | he
    · rw [List.mem_singleton.1 hx]; exact ⟨4, by norm_num, by norm_num⟩
    · rw [List.mem_singleton.1 he] at hx; rw [List.mem_singleton.1 hx]; exact ⟨2, by norm_num, by norm_num⟩
  · intro e he
    rcases List.mem_cons.1 he with rfl | he
    · refine ⟨4, rfl, fun x hx => ?_⟩; rw [List.mem_singleton.1 hx]; norm_num
    · rw [List.mem_singleton.1 he]; refine ⟨4, rfl, fun x hx => ?_⟩; rw [List.mem_singleton.1 hx]; norm_num
  · intro d L h
    simp only [Dict.get?_cons, Dict.get?_nil] at h
    split_ifs at h with h0
    cases h; subst h0
    decide +kernel
  · decide +kernel
  · rintro ⟨t, ht⟩
    have h8 : (([(1, [(0, (4 : ℚ))]), (2, [(0, 2)])] : SM Nat Nat).map (fun e => factor e.2 0)).prod = 8 := by decide +kernel
    rw [h8] at ht
    have : 8 * t = 12 := by exact_mod_cast ht
    omega

set_option synthInstance.maxSize 1000 in
set_option synthInstance.maxHeartbeats 200000 in
/-- Example: 10 unrolled 4 times is turned into 10 / 3 (three temporal iterations), or 3 in the whole version; an unknown dimension is dropped. -/
example : convert [(1, 4), (2, 8)] [(0, 10)] [(1, [(0, 4)]), (2, [(7, 3)])] = .ok (([(1, [(0, 10 / 3)])] : SM Nat Nat), [(1, [(0, 3)])]) := by decide +kernel

/-! ### C27 -/

theorem factor_mulIn (d : Dict Dim ℚ) (x : Dim × ℚ) (k : Dim) : factor (mulIn d x) k = if x.1 = k then factor d k * x.2 else factor d k := by
  unfold mulIn factor
  cases h : d.get? x.1 with
  | none =>
    simp only
    rw [Dict.get?_set]
    by_cases hk : x.1 = k
    · subst hk; simp [h]
    · simp [hk]
  | some v =>
    simp only
    rw [Dict.get?_set]
    by_cases hk : x.1 = k
    · subst hk; simp [h]
    · simp [hk]

theorem mulIn_wf {d : Dict Dim ℚ} (h : d.WF) (x : Dim × ℚ) : (mulIn d x).WF := by
  unfold mulIn
  split
  · exact Dict.WF.set h _ _
  · exact Dict.WF.set h _ _

theorem foldl_mulIn_wf (l : List (Dim × ℚ)) : ∀ {d : Dict Dim ℚ}, d.WF → (l.foldl mulIn d).WF := by
  induction l with
  | nil => intro d h; exact h
  | cons x t ih => intro d h; exact ih (mulIn_wf h x)

theorem factor_foldl_mulIn (l : List (Dim × ℚ)) (k : Dim) : ∀ d : Dict Dim ℚ, factor (l.foldl mulIn d) k = factor d k * ((l.filter (fun x => x.1 = k)).map Prod.snd).prod := by
  induction l with
  | nil => intro d; simp
  | cons x t ih =>
    intro d
    rw [List.foldl_cons, ih, factor_mulIn]
    by_cases h : x.1 = k
    · rw [if_pos h, List.filter_cons_of_pos (by simpa using h), List.map_cons, List.prod_cons, mul_assoc]
    · rw [if_neg h, List.filter_cons_of_neg (by simpa using h)]

theorem foldl_mulIn_dict (l : Dict Dim ℚ) (hl : l.WF) (d : Dict Dim ℚ) (k : Dim) : factor (l.foldl mulIn d) k = factor d k * factor l k := by
  rw [factor_foldl_mulIn, filter_prod hl]

theorem filter_factor_split (m : SM OA Dim) (hm : m.WF) (oa : OA) (l : Dict Dim ℚ) (h : m.get? oa = some l) (k : Dim) (p : OA → Bool) (hp : p oa = true) :
    ((m.filter (fun e => p e.1)).map (fun e => factor e.2 k)).prod = factor l k * (((m.del oa).filter (fun e => p e.1)).map (fun e => factor e.2 k)).prod := by
  induction m with
  | nil => cases h
  | cons e t ih =>
    obtain ⟨h1, h2⟩ := List.nodup_cons.1 (by unfold Dict.WF Dict.keys at hm; exact hm)
    rw [Dict.get?_cons] at h
    split_ifs at h with he
    · cases h
      have hd : Dict.del (e :: t) oa = t := by
        unfold Dict.del
        rw [List.filter_cons_of_neg (by simpa using he)]
        apply List.filter_eq_self.2
        intro a ha
        simp only [ne_eq, decide_not, Bool.not_eq_true', decide_eq_false_iff_not]
        intro hc
        exact h1 (List.mem_map.2 ⟨a, ha, by rw [hc, he]⟩)
      rw [hd, List.filter_cons_of_pos (by rw [he]; exact hp), List.map_cons, List.prod_cons]
    · have := ih h2 h
      have hd : Dict.del (e :: t) oa = e :: Dict.del t oa := by
        unfold Dict.del
        rw [List.filter_cons_of_pos (by simpa using he)]
      rw [hd]
      by_cases hpe : p e.1 = true
      · rw [List.filter_cons_of_pos (by exact hpe), List.filter_cons_of_pos (by exact hpe), List.map_cons, List.map_cons, List.prod_cons, List.prod_cons, this]
        ring
      · rw [List.filter_cons_of_neg (by exact hpe), List.filter_cons_of_neg (by exact hpe), this]

theorem level_spec : ∀ (s : List OA) (rem : SM OA Dim) (d : Dict Dim ℚ), SMWF rem → d.WF →
    (level s rem d).1 = rem.filter (fun e => decide (e.1 ∉ s)) ∧ (level s rem d).2.WF ∧
    ∀ k, factor (level s rem d).2 k = factor d k * ((rem.filter (fun e => decide (e.1 ∈ s))).map (fun e => factor e.2 k)).prod := by
  intro s
  induction s with
  | nil => intro rem d _ hd; simp [level, hd]
  | cons oa t ih =>
    intro rem d hr hd
    unfold level
    cases hg : rem.get? oa with
    | none =>
      have hno : ∀ e ∈ rem, e.1 ≠ oa := by
        intro e he hc
        exact (Dict.get?_eq_none_iff _ _).1 hg (List.mem_map.2 ⟨e, he, hc⟩)
      obtain ⟨i1, i2, i3⟩ := ih rem d hr hd
      have hf1 : rem.filter (fun e => decide (e.1 ∉ oa :: t)) = rem.filter (fun e => decide (e.1 ∉ t)) := by
        apply List.filter_congr; intro e he; simp [hno e he]
      have hf2 : rem.filter (fun e => decide (e.1 ∈ oa :: t)) = rem.filter (fun e => decide (e.1 ∈ t)) := by
        apply List.filter_congr; intro e he; simp [hno e he]
      simp only
      rw [hf1, hf2]
      exact ⟨i1, i2, i3⟩
    | some l =>
      have hl : l.WF := hr.2 (oa, l) (Dict.mem_of_get? hg)
      have hr' : SMWF (rem.del oa) := ⟨Dict.WF.del hr.1 _, fun e he => hr.2 e (List.mem_filter.1 he).1⟩
      obtain ⟨i1, i2, i3⟩ := ih (rem.del oa) (l.foldl mulIn d) hr' (foldl_mulIn_wf l hd)
      simp only
      refine ⟨?_, i2, fun k => ?_⟩
      · rw [i1]
        unfold Dict.del
        rw [List.filter_filter]
        apply List.filter_congr; intro e he
        simp only [ne_eq, List.mem_cons, not_or, decide_not, Bool.decide_and]
        rw [Bool.and_comm]
      · rw [i3, foldl_mulIn_dict l hl, filter_factor_split rem hr.1 oa l hg k (fun o => decide (o ∈ oa :: t)) (by simp), mul_assoc]
        congr 4
        unfold Dict.del
        rw [List.filter_filter, List.filter_filter]
        apply List.filter_congr; intro e he
        by_cases hc : e.1 = oa <;> simp [hc]

/-- Specification: the level an array dimension belongs to: the first level serving it, or the one above all levels. -/
def levelOf (served : List (List OA)) (oa : OA) : Nat := served.findIdx (fun s => decide (oa ∈ s))

theorem levels_spec : ∀ (served : List (List OA)) (m : SM OA Dim), SMWF m →
    (levels served m).1 = m.filter (fun e => decide (levelOf served e.1 = served.length)) ∧ (levels served m).2.length = served.length ∧
    ∀ i d, (levels served m).2[i]? = some d → d.WF ∧ ∀ k, factor d k = ((m.filter (fun e => decide (levelOf served e.1 = i))).map (fun e => factor e.2 k)).prod := by
  intro served
  induction served with
  | nil =>
    intro m _
    refine ⟨?_, rfl, fun i d h => by simp [levels] at h⟩
    unfold levels levelOf
    exact (List.filter_eq_self.2 (by simp)).symm
  | cons s t ih =>
    intro m hm
    obtain ⟨l1, l2, l3⟩ := level_spec s m [] hm List.nodup_nil
    have hm' : SMWF (level s m []).1 := by
      rw [l1]
      exact ⟨Dict.WF.filter hm.1 _, fun e he => hm.2 e (List.mem_filter.1 he).1⟩
    obtain ⟨i1, i2, i3⟩ := ih _ hm'
    have hlo : ∀ oa, levelOf (s :: t) oa = if oa ∈ s then 0 else levelOf t oa + 1 := by
      intro oa
      unfold levelOf
      rw [List.findIdx_cons]
      by_cases h : oa ∈ s <;> simp [h]
    unfold levels
    simp only
    refine ⟨?_, by simp [i2], ?_⟩
    · rw [i1, l1, List.filter_filter]
      apply List.filter_congr; intro e _
      rw [hlo]
      by_cases h : e.1 ∈ s <;> simp [h]
    · intro i d h
      cases i with
      | zero =>
        simp only [List.getElem?_cons_zero, Option.some.injEq] at h
        subst h
        refine ⟨l2, fun k => ?_⟩
        rw [l3]
        have : factor ([] : Dict Dim ℚ) k = 1 := rfl
        rw [this, one_mul]
        congr 2
        apply List.filter_congr; intro e _
        rw [hlo]
        by_cases h : e.1 ∈ s <;> simp [h]
      | succ j =>
        rw [List.getElem?_cons_succ] at h
        obtain ⟨w, hk⟩ := i3 j d h
        refine ⟨w, fun k => ?_⟩
        rw [hk, l1, List.filter_filter]
        congr 2
        apply List.filter_congr; intro e _
        rw [hlo]
        by_cases h : e.1 ∈ s <;> simp [h]

/-- Every array dimension's unrollings end up at the first memory level of the operand that serves the dimension, or above all levels if none
does; a level lists each layer dimension once, with the product of the unrollings that belong there. -/
theorem per_level_placement (served : List (List OA)) (m : SM OA Dim) (hm : SMWF m) :
    (perMemLvl served m).length = served.length + 1 ∧
    ∀ i d, (perMemLvl served m)[i]? = some d → Dict.WF d ∧
      ∀ k, factor d k = ((m.filter (fun e => decide (levelOf served e.1 = i))).map (fun e => factor e.2 k)).prod := by
  obtain ⟨h1, h2, h3⟩ := levels_spec served m hm
  unfold perMemLvl
  refine ⟨by simp [h2], fun i d h => ?_⟩
  rw [List.getElem?_append] at h
  split_ifs at h with hi
  · exact h3 i d h
  · simp only [List.getElem?_singleton] at h
    split_ifs at h with h0
    simp only [Option.some.injEq] at h
    subst h
    refine ⟨foldl_mulIn_wf _ List.nodup_nil, fun k => ?_⟩
    have hii : i = served.length := by omega
    rw [factor_foldl_mulIn, h1, hii]
    have : factor ([] : Dict Dim ℚ) k = 1 := rfl
    rw [this, one_mul]
    have hw : ∀ e ∈ m.filter (fun e => decide (levelOf served e.1 = served.length)), e.2.WF := fun e he => hm.2 e (List.mem_filter.1 he).1
    exact total_eq hw k

/-- No unrolling is lost or counted twice: for each operand and layer dimension the unrollings over the levels multiply to those over the
array dimensions. -/
theorem per_level_conserved (served : List (List OA)) (m : SM OA Dim) (hm : SMWF m) (k : Dim) :
    (((perMemLvl served m).flatten.filter (fun x => x.1 = k)).map Prod.snd).prod = (m.map (fun e => factor e.2 k)).prod := by
  obtain ⟨h1, h2⟩ := per_level_placement served m hm
  -- sum over levels of the filters is the whole
  have hsplit : ∀ n : Nat, (∀ e ∈ m, levelOf served e.1 ≤ n) →
      ((List.range (n + 1)).map (fun i => ((m.filter (fun e => decide (levelOf served e.1 = i))).map (fun e => factor e.2 k)).prod)).prod = (m.map (fun e => factor e.2 k)).prod := by
    intro n
    have : ∀ (m : SM OA Dim), (∀ e ∈ m, levelOf served e.1 ≤ n) →
        ((List.range (n + 1)).map (fun i => ((m.filter (fun e => decide (levelOf served e.1 = i))).map (fun e => factor e.2 k)).prod)).prod = (m.map (fun e => factor e.2 k)).prod := by
      intro m
      induction m with
      | nil => intro _; simp
      | cons e t ih =>
        intro h
        rw [List.map_cons, List.prod_cons, ← ih (fun e he => h e (by simp [he]))]
        have hrw : (fun i => (((e :: t).filter (fun e => decide (levelOf served e.1 = i))).map (fun e => factor e.2 k)).prod) =
            fun i => (if levelOf served e.1 = i then factor e.2 k else 1) * ((t.filter (fun e => decide (levelOf served e.1 = i))).map (fun e => factor e.2 k)).prod := by
          funext i
          by_cases hc : levelOf served e.1 = i
          · rw [List.filter_cons_of_pos (by simpa using hc), if_pos hc, List.map_cons, List.prod_cons]
          · rw [List.filter_cons_of_neg (by simpa using hc), if_neg hc, one_mul]
        rw [hrw, List.prod_map_mul]
        congr 1
        have hle := h e (by simp)
        generalize levelOf served e.1 = j at hle ⊢
        have : ∀ n, j < n → ((List.range n).map (fun i => if j = i then factor e.2 k else 1)).prod = factor e.2 k := by
          intro n
          induction n with
          | zero => intro h; omega
          | succ n ihn =>
            intro hj
            rw [List.range_succ, List.map_append, List.prod_append]
            by_cases hjn : j = n
            · have : ((List.range n).map (fun i => if j = i then factor e.2 k else 1)).prod = 1 := by
                apply List.prod_eq_one
                intro q hq
                obtain ⟨i, hi, rfl⟩ := List.mem_map.1 hq
                rw [if_neg]; rw [List.mem_range] at hi; omega
              rw [this]; simp [hjn]
            · rw [ihn (by omega)]; simp [hjn]
        exact this (n + 1) (by omega)
    exact this m
  rw [← hsplit served.length (fun e _ => List.findIdx_le_length)]
  have hfl : ∀ L : List (List (Dim × ℚ)), (∀ d ∈ L, Dict.WF d) → ((L.flatten.filter (fun x => x.1 = k)).map Prod.snd).prod = (L.map (fun d => factor d k)).prod := by
    intro L
    induction L with
    | nil => intro _; simp
    | cons d t ih =>
      intro h
      rw [List.flatten_cons, List.filter_append, List.map_append, List.prod_append, ih (fun d hd => h d (by simp [hd])), filter_prod (h d (by simp))]
      simp
  rw [hfl]
  · congr 1
    apply List.ext_getElem
    · simp [h1]
    · intro i hi1 hi2
      simp only [List.getElem_map, List.getElem_range]
      rw [List.length_map] at hi1
      exact (h2 i _ (List.getElem?_eq_getElem hi1)).2 k
  · intro d hd
    obtain ⟨i, hi, rfl⟩ := List.getElem_of_mem hd
    exact (h2 i _ (List.getElem?_eq_getElem hi)).1

theorem prod_by_key {l : List (Dim × ℚ)} : ∀ (ks : List Dim), ks.Nodup → (∀ x ∈ l, x.1 ∈ ks) →
    (l.map Prod.snd).prod = (ks.map (fun k => ((l.filter (fun x => x.1 = k)).map Prod.snd).prod)).prod := by
  intro ks hnd hin
  induction l with
  | nil => simp
  | cons x t ih =>
    rw [List.map_cons, List.prod_cons, ih (fun y hy => hin y (by simp [hy]))]
    have hrw : (fun k => (((x :: t).filter (fun x => decide (x.1 = k))).map Prod.snd).prod) =
        fun k => (if x.1 = k then x.2 else 1) * ((t.filter (fun x => decide (x.1 = k))).map Prod.snd).prod := by
      funext k
      by_cases hc : x.1 = k
      · rw [List.filter_cons_of_pos (by simpa using hc), if_pos hc, List.map_cons, List.prod_cons]
      · rw [List.filter_cons_of_neg (by simpa using hc), if_neg hc, one_mul]
    rw [hrw, List.prod_map_mul]
    congr 1
    have hx := hin x (by simp)
    clear hin ih hrw
    induction ks with
    | nil => simp at hx
    | cons a s ih =>
      obtain ⟨ha, hs⟩ := List.nodup_cons.1 hnd
      rw [List.map_cons, List.prod_cons]
      by_cases hc : x.1 = a
      · rw [if_pos hc]
        have : (s.map (fun k => if x.1 = k then x.2 else 1)).prod = 1 := by
          apply List.prod_eq_one
          intro q hq
          obtain ⟨k, hk, rfl⟩ := List.mem_map.1 hq
          rw [if_neg]; intro h; exact ha (by rw [← hc, h]; exact hk)
        rw [this, mul_one]
      · rw [if_neg hc, one_mul]
        exact ih hs (by simpa [hc] using hx)

/-- The unrollings of all levels together are those of the mapping. -/
theorem per_level_product (s : List (List OA)) (m : SM OA Dim) (hm : SMWF m) :
    ((perMemLvl s m).flatten.map Prod.snd).prod = (m.map (fun e => (e.2.map Prod.snd).prod)).prod := by
  have h1 : (m.map (fun e => (e.2.map Prod.snd).prod)).prod = ((m.flatMap (fun e => e.2)).map Prod.snd).prod := by
    clear hm
    induction m with
    | nil => simp
    | cons a t ih => simp [ih]
  rw [h1]
  set ks := (((perMemLvl s m).flatten.map Prod.fst) ++ ((m.flatMap (fun e => e.2)).map Prod.fst)).dedup with hks
  rw [prod_by_key ks (List.nodup_dedup _) (fun x hx => by rw [hks, List.mem_dedup]; exact List.mem_append_left _ (List.mem_map.2 ⟨x, hx, rfl⟩)),
    prod_by_key (l := m.flatMap (fun e => e.2)) ks (List.nodup_dedup _) (fun x hx => by rw [hks, List.mem_dedup]; exact List.mem_append_right _ (List.mem_map.2 ⟨x, hx, rfl⟩))]
  congr 1
  apply List.map_congr_left
  intro k _
  rw [per_level_conserved s m hm k]
  exact (total_eq hm.2 k).symm

/-- All operands see the same number of units, whatever dimensions their memories serve: the assertion on the bottom level never fails on a
converted mapping. -/
theorem per_level_check (serveds : List (List (List OA))) (hne : serveds ≠ []) (m : SM OA Dim) (hm : SMWF m) :
    SpatialInternal.checkBottom (serveds.map (fun s => perMemLvl s m)) =
      .ok (SpatialInternal.pyRound (SpatialInternal.pyRound3 ((m.map (fun e => (e.2.map Prod.snd).prod)).prod))) := by
  apply SpatialInternal.check_bottom_ok
  · simpa using hne
  · intro x hx
    obtain ⟨s, _, rfl⟩ := List.mem_map.1 hx
    unfold perMemLvl
    simp
  · intro x hx
    obtain ⟨s, _, rfl⟩ := List.mem_map.1 hx
    exact per_level_product s m hm

/-- Example: two array dimensions, a memory serving the first, one serving both. -/
example : perMemLvl [[1], [1, 2]] ([(1, [(0, 4), (5, 2)]), (2, [(0, 3)]), (3, [(5, 7)])] : SM Nat Nat) = [[(0, 4), (5, 2)], [(0, 3)], [(5, 7)]] := by decide +kernel

end Verif.Conversion
