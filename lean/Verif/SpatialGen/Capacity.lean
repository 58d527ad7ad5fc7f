import Verif.SpatialGen.Adjust

/-! C24: limiting unrollings to memory capacity. -/

namespace Verif.SpatialGen

open Verif.SpatialMapping

variable {OA Dim : Type} [DecidableEq OA] [DecidableEq Dim]

/-- All unrollings are whole numbers. -/
def NatSM (m : SM OA Dim) : Prop := ∀ e ∈ m, ∀ x ∈ e.2, IsNat x.2

/-- One array dimension with lowered whole unrollings of the same layer dimensions. -/
def DLower (l l' : Dict Dim ℚ) : Prop := List.Forall₂ (fun x y => y.1 = x.1 ∧ IsNat y.2 ∧ y.2 ≤ x.2) l l'

/-- Specification: `m'` has the dimensions of `m` with whole unrollings that are not larger. -/
def MLower (m m' : SM OA Dim) : Prop := List.Forall₂ (fun e e' => e'.1 = e.1 ∧ DLower e.2 e'.2) m m'

/-- Specification: number of elements of an operand that memory `mo` has to hold for one instance: the product of the unrollings along
the served dimensions that are not irrelevant. -/
def storedElems (mo : MemOp OA Dim) (m : SM OA Dim) : ℚ :=
  (mo.served.map (fun oa => ((((m.get? oa).getD []).filter (fun x => decide (x.1 ∉ mo.irrelevant))).map Prod.snd).prod)).prod

theorem DLower.refl {l : Dict Dim ℚ} (h : ∀ x ∈ l, IsNat x.2) : DLower l l := List.forall₂_same.2 (fun x hx => ⟨rfl, h x hx, le_refl _⟩)

theorem MLower.refl {m : SM OA Dim} (h : NatSM m) : MLower m m := List.forall₂_same.2 (fun e he => ⟨rfl, DLower.refl (h e he)⟩)

theorem DLower.trans {a b c : Dict Dim ℚ} (h : DLower a b) (h' : DLower b c) : DLower a c := by
  unfold DLower at *
  induction h generalizing c with
  | nil => cases h'; exact List.Forall₂.nil
  | cons hab _ ih =>
    cases h' with
    | cons hbc hr => exact List.Forall₂.cons ⟨hbc.1.trans hab.1, hbc.2.1, hbc.2.2.trans hab.2.2⟩ (ih hr)

theorem MLower.trans {a b c : SM OA Dim} (h : MLower a b) (h' : MLower b c) : MLower a c := by
  unfold MLower at *
  induction h generalizing c with
  | nil => cases h'; exact List.Forall₂.nil
  | cons hab _ ih =>
    cases h' with
    | cons hbc hr => exact List.Forall₂.cons ⟨hbc.1.trans hab.1, hab.2.trans hbc.2⟩ (ih hr)

theorem DLower.keys {l l' : Dict Dim ℚ} (h : DLower l l') : l'.keys = l.keys := by
  unfold DLower at h
  induction h with
  | nil => rfl
  | cons hab _ ih => simp only [Dict.keys, List.map_cons] at *; rw [hab.1, ih]

theorem MLower.keys {m m' : SM OA Dim} (h : MLower m m') : m'.keys = m.keys := by
  unfold MLower at h
  induction h with
  | nil => rfl
  | cons hab _ ih => simp only [Dict.keys, List.map_cons] at *; rw [hab.1, ih]

theorem MLower.nat {m m' : SM OA Dim} (h : MLower m m') : NatSM m' := by
  intro e' he' x hx
  obtain ⟨e, _, _, hd⟩ := forall₂_mem_right h he'
  obtain ⟨y, _, _, hn, _⟩ := forall₂_mem_right hd hx
  exact hn

theorem MLower.wf {m m' : SM OA Dim} (h : MLower m m') (hm : SMWF m) : SMWF m' := by
  constructor
  · unfold Dict.WF; rw [h.keys]; exact hm.1
  · intro e' he'
    obtain ⟨e, he, _, hd⟩ := forall₂_mem_right h he'
    unfold Dict.WF
    rw [hd.keys]
    exact hm.2 e he

theorem MLower.get? {m m' : SM OA Dim} (h : MLower m m') (oa : OA) :
    (m.get? oa = none ∧ m'.get? oa = none) ∨ ∃ l l', m.get? oa = some l ∧ m'.get? oa = some l' ∧ DLower l l' := by
  unfold MLower at h
  induction h with
  | nil => left; exact ⟨rfl, rfl⟩
  | cons hab _ ih =>
    rw [Dict.get?_cons, Dict.get?_cons, hab.1]
    split_ifs
    · right; exact ⟨_, _, rfl, rfl, hab.2⟩
    · exact ih

/-! ### the factor map -/

theorem foldl_set_get {K V : Type} [DecidableEq K] (ps : List (K × V)) (d : Dict K V) (k : K) :
    ((∃ p ∈ ps, p.1 = k) → ∃ p ∈ ps, p.1 = k ∧ (ps.foldl (fun d p => d.set p.1 p.2) d).get? k = some p.2) ∧
    ((∀ p ∈ ps, p.1 ≠ k) → (ps.foldl (fun d p => d.set p.1 p.2) d).get? k = d.get? k) := by
  induction ps generalizing d with
  | nil => simp
  | cons p ps ih =>
    obtain ⟨i1, i2⟩ := ih (d.set p.1 p.2)
    rw [List.foldl_cons]
    constructor
    · rintro ⟨q, hq, rfl⟩
      by_cases h : ∃ q' ∈ ps, q'.1 = q.1
      · obtain ⟨r, hr, hrk, hrg⟩ := i1 h
        exact ⟨r, by simp [hr], hrk, hrg⟩
      · push Not at h
        have hqp : q = p := by
          rcases List.mem_cons.1 hq with e | e
          · exact e
          · exact absurd rfl (h q e)
        subst hqp
        exact ⟨q, by simp, rfl, by rw [i2 h, Dict.get?_set_self]⟩
    · intro h
      rw [i2 (fun q hq => h q (by simp [hq])), Dict.get?_set_of_ne _ _ (h p (by simp))]

theorem factorMap_mem {old new : List ℚ} (hlen : old.length = new.length) {v : ℚ} (h : v ∈ old) :
    ∃ w, (factorMap old new).get? v = some w ∧ (v, w) ∈ old.zip new := by
  have : ∃ p ∈ old.zip new, p.1 = v := by
    obtain ⟨i, hi, rfl⟩ := List.getElem_of_mem h
    exact ⟨(old[i], new[i]'(by omega)), List.mem_iff_getElem.2 ⟨i, by simp; omega, by simp⟩, rfl⟩
  obtain ⟨p, hp, hpk, hpg⟩ := (foldl_set_get (old.zip new) [] v).1 this
  exact ⟨p.2, hpg, by rw [← hpk]; exact hp⟩

theorem lower_zip {l r : List ℚ} (h : Lower l r) {p : ℚ × ℚ} (hp : p ∈ l.zip r) : IsNat p.2 ∧ p.2 ≤ p.1 := by
  unfold Lower at h
  induction h with
  | nil => simp at hp
  | cons hab _ ih =>
    rw [List.zip_cons_cons] at hp
    rcases List.mem_cons.1 hp with rfl | hp
    · exact hab
    · exact ih hp

theorem factorMap_nodup {old new : List ℚ} (hlen : old.length = new.length) (hn : old.Nodup) :
    old.map (fun v => ((factorMap old new).get? v).getD v) = new := by
  apply List.ext_getElem
  · simpa using hlen
  · intro i h1 h2
    rw [List.getElem_map]
    have hi : i < old.length := by simpa using h1
    obtain ⟨w, hw, hz⟩ := factorMap_mem hlen (List.getElem_mem hi)
    rw [hw, Option.getD_some]
    obtain ⟨j, hj, e⟩ := List.getElem_of_mem hz
    rw [List.getElem_zip, Prod.mk.injEq] at e
    have : j = i := (List.Nodup.getElem_inj_iff hn).1 e.1
    subst this
    exact e.2.symm

/-! ### writing back -/

/-- New value of an unrolling. -/
def newVal (fm : Dict ℚ ℚ) (dims : List Dim) (d : Dim) (v : ℚ) : ℚ := if d ∈ dims then (fm.get? v).getD v else v

theorem applyMap_eq (fm : Dict ℚ ℚ) (dims : List Dim) : ∀ (l : List (Dim × ℚ)), (∀ x ∈ l, x.1 ∈ dims → ∃ w, fm.get? x.2 = some w) →
    applyMap fm dims l = .ok (l.map (fun x => (x.1, newVal fm dims x.1 x.2)))
  | [], _ => rfl
  | x :: t, h => by
    unfold applyMap
    rw [applyMap_eq fm dims t (fun y hy => h y (by simp [hy]))]
    simp only [List.map_cons]
    by_cases hx : x.1 ∈ dims
    · rw [if_pos hx]
      obtain ⟨w, hw⟩ := h x (by simp) hx
      rw [hw]
      simp only [newVal, if_pos hx, hw, Option.getD_some]
    · rw [if_neg hx]
      simp only [newVal, if_neg hx]

theorem set_eq_map {m : SM OA Dim} (hm : m.WF) (oa : OA) (h : oa ∈ m.keys) (l' : Dict Dim ℚ) :
    m.set oa l' = m.map (fun e => if e.1 = oa then (e.1, l') else e) := by
  induction m with
  | nil => simp [Dict.keys] at h
  | cons e m ih =>
    obtain ⟨h1, h2⟩ : e.1 ∉ Dict.keys m ∧ Dict.WF m := by simpa [Dict.WF, Dict.keys] using hm
    rw [List.map_cons]
    change (if e.1 = oa then (e.1, l') :: m else e :: Dict.set m oa l') = _
    by_cases he : e.1 = oa
    · rw [if_pos he, if_pos he]
      congr 1
      conv_lhs => rw [← List.map_id m]
      apply List.map_congr_left
      intro e' he'
      rw [if_neg]
      · rfl
      · intro hc
        exact h1 (List.mem_map.2 ⟨e', he', by rw [hc, he]⟩)
    · rw [if_neg he, if_neg he, ih h2 (by simpa [Dict.keys, Ne.symm he] using h)]

/-- Result of writing back. -/
def rewritten (fm : Dict ℚ ℚ) (dims : List Dim) (served : List OA) (m : SM OA Dim) : SM OA Dim :=
  m.map (fun e => (e.1, if e.1 ∈ served then e.2.map (fun x => (x.1, newVal fm dims x.1 x.2)) else e.2))

theorem writeBack_eq (fm : Dict ℚ ℚ) (dims : List Dim) : ∀ (served : List OA) (m : SM OA Dim), m.WF → served.Nodup → (∀ oa ∈ served, oa ∈ m.keys) →
    (∀ e ∈ m, e.1 ∈ served → ∀ x ∈ e.2, x.1 ∈ dims → ∃ w, fm.get? x.2 = some w) →
    writeBack fm dims served m = .ok (rewritten fm dims served m)
  | [], m, _, _, _, _ => by
    unfold writeBack rewritten
    simp
  | oa :: t, m, hm, hn, hk, hx => by
    obtain ⟨hoa, hn⟩ := List.nodup_cons.1 hn
    unfold writeBack
    cases hg : m.get? oa with
    | none => exact absurd (hk oa (by simp)) ((Dict.get?_eq_none_iff _ _).1 hg)
    | some l =>
      simp only
      have hmem := Dict.mem_of_get? hg
      rw [applyMap_eq fm dims l (hx _ hmem (by simp))]
      simp only
      rw [set_eq_map hm oa (hk oa (by simp))]
      set m1 : SM OA Dim := m.map (fun e => if e.1 = oa then (e.1, l.map (fun x => (x.1, newVal fm dims x.1 x.2))) else e) with hm1
      have k1 : m1.keys = m.keys := by
        simp only [hm1, Dict.keys, List.map_map]
        apply List.map_congr_left
        intro e _
        simp only [Function.comp]
        split_ifs <;> rfl
      rw [writeBack_eq fm dims t m1 (by unfold Dict.WF; rw [k1]; exact hm) hn (fun x h => by rw [k1]; exact hk x (by simp [h])) ?_]
      · congr 1
        unfold rewritten
        rw [hm1, List.map_map]
        apply List.map_congr_left
        intro e he
        simp only [Function.comp]
        by_cases hc : e.1 = oa
        · have hl : e.2 = l := by
            have := Dict.get?_of_mem hm he
            rw [hc, hg] at this
            exact (Option.some.inj this).symm
          rw [if_pos hc]
          simp only [hc, hoa, if_false, List.mem_cons, true_or, if_true, hl]
        · rw [if_neg hc]
          simp only [List.mem_cons, hc, false_or]
      · intro e1 he1 hk1 x hx1 hd
        obtain ⟨e, he, rfl⟩ := List.mem_map.1 he1
        split_ifs at hk1 hx1 with hc
        · exact absurd (hc ▸ hk1) hoa
        · exact hx e he (by simp [hk1]) x hx1 hd

theorem mem_factorsOf {m : SM OA Dim} (hm : SMWF m) {served : List OA} {dims : List Dim} {e : OA × Dict Dim ℚ} (he : e ∈ m) (hs : e.1 ∈ served)
    {x : Dim × ℚ} (hx : x ∈ e.2) (hd : x.1 ∈ dims) : x.2 ∈ factorsOf m served dims := by
  unfold factorsOf
  rw [List.mem_flatMap]
  refine ⟨x.1, hd, List.mem_filterMap.2 ⟨e.1, hs, ?_⟩⟩
  rw [Dict.get?_of_mem hm.1 he]
  exact Dict.get?_of_mem (hm.2 e he) hx

theorem factorsOf_nat {m : SM OA Dim} (hn : NatSM m) (served : List OA) (dims : List Dim) : ∀ v ∈ factorsOf m served dims, IsNat v := by
  intro v hv
  obtain ⟨d, _, hv⟩ := List.mem_flatMap.1 hv
  obtain ⟨oa, _, hv⟩ := List.mem_filterMap.1 hv
  cases hg : m.get? oa with
  | none => rw [hg] at hv; cases hv
  | some l =>
    rw [hg] at hv
    exact hn _ (Dict.mem_of_get? hg) _ (Dict.mem_of_get? hv)

theorem rewritten_lower {fm : Dict ℚ ℚ} {dims : List Dim} {served : List OA} {m : SM OA Dim} (hn : NatSM m)
    (h : ∀ e ∈ m, e.1 ∈ served → ∀ x ∈ e.2, x.1 ∈ dims → ∃ w, fm.get? x.2 = some w ∧ IsNat w ∧ w ≤ x.2) : MLower m (rewritten fm dims served m) := by
  unfold MLower rewritten
  rw [List.forall₂_map_right_iff, List.forall₂_same]
  intro e he
  refine ⟨rfl, ?_⟩
  simp only
  split_ifs with hs
  · unfold DLower
    rw [List.forall₂_map_right_iff, List.forall₂_same]
    intro x hx
    refine ⟨rfl, ?_⟩
    simp only
    unfold newVal
    split_ifs with hd
    · obtain ⟨w, hw, h1, h2⟩ := h e he hs x hx hd
      rw [hw]
      exact ⟨h1, h2⟩
    · exact ⟨hn e he x hx, le_refl _⟩
  · exact DLower.refl (hn e he)

/-- `limit_loop_unrolling` succeeds and lowers the unrollings; when the original factors are pairwise different the new factors multiply to
at most the bound. -/
theorem limitLoops_spec {m : SM OA Dim} (hm : SMWF m) (hn : NatSM m) {served : List OA} (hs : served.Nodup) (hk : ∀ oa ∈ served, oa ∈ m.keys)
    (dims : List Dim) {bound : ℚ} (hb : 0 ≤ bound) (he : factorsOf m served dims ≠ []) :
    ∃ m', limitLoops m served dims bound = .ok m' ∧ MLower m m' ∧
      ((factorsOf m served dims).Nodup → (factorsOf m' served dims).prod ≤ bound) := by
  obtain ⟨r, hr, hl, hp, _, _⟩ := adjust_factors bound hb _ (factorsOf_nat hn served dims) he
  have hlen : (factorsOf m served dims).length = r.length := List.Forall₂.length_eq hl
  have hent : ∀ e ∈ m, e.1 ∈ served → ∀ x ∈ e.2, x.1 ∈ dims →
      ∃ w, (factorMap (factorsOf m served dims) r).get? x.2 = some w ∧ IsNat w ∧ w ≤ x.2 := by
    intro e hee hes x hx hd
    obtain ⟨w, hw, hz⟩ := factorMap_mem hlen (mem_factorsOf hm hee hes hx hd)
    exact ⟨w, hw, lower_zip hl hz⟩
  refine ⟨rewritten (factorMap (factorsOf m served dims) r) dims served m, ?_, rewritten_lower hn hent, ?_⟩
  · unfold limitLoops
    simp only
    rw [hr]
    simp only
    rw [writeBack_eq _ _ _ _ hm.1 hs hk]
    intro e hee hes x hx hd
    obtain ⟨w, hw, _⟩ := hent e hee hes x hx hd
    exact ⟨w, hw⟩
  · intro hnd
    have e : factorsOf (rewritten (factorMap (factorsOf m served dims) r) dims served m) served dims = r := by
      refine Eq.trans ?_ (factorMap_nodup hlen hnd)
      generalize factorMap (factorsOf m served dims) r = fm
      unfold factorsOf
      rw [List.map_flatMap]
      apply List.flatMap_congr
      intro d hd
      rw [List.map_filterMap]
      apply List.filterMap_congr
      intro oa hoa
      unfold rewritten
      rw [get?_mapVal (fun k (l : Dict Dim ℚ) => if k ∈ served then l.map (fun x => (x.1, newVal fm dims x.1 x.2)) else l)]
      cases m.get? oa with
      | none => rfl
      | some l =>
        simp only [Option.map_some, Option.bind_some, if_pos hoa]
        rw [get?_mapVal (fun d v => newVal fm dims d v)]
        cases l.get? d with
        | none => rfl
        | some v => simp [newVal, hd]
    rw [e]
    exact hp

/-! ### products over served dimensions -/

theorem servedEntries_eq (m : SM OA Dim) (ir : List Dim) : ∀ (served : List OA), (∀ oa ∈ served, oa ∈ m.keys) →
    servedEntries m ir served = .ok (served.flatMap (fun oa => ((m.get? oa).getD []).filter (fun x => decide (x.1 ∉ ir))))
  | [], _ => rfl
  | oa :: t, h => by
    unfold servedEntries
    cases hg : m.get? oa with
    | none => exact absurd (h oa (by simp)) ((Dict.get?_eq_none_iff _ _).1 hg)
    | some l =>
      rw [servedEntries_eq m ir t (fun x hx => h x (by simp [hx]))]
      simp [hg]

theorem filterMap_prod (f : OA → Option ℚ) (l : List OA) : (l.filterMap f).prod = (l.map (fun x => (f x).getD 1)).prod := by
  induction l with
  | nil => rfl
  | cons x t ih =>
    rw [List.filterMap_cons, List.map_cons, List.prod_cons]
    cases f x with
    | none => simp [ih]
    | some v => simp [ih]

theorem flatMap_prod {α : Type} (f : α → List ℚ) (l : List α) : (l.flatMap f).prod = (l.map (fun x => (f x).prod)).prod := by
  induction l with
  | nil => rfl
  | cons x t ih => rw [List.flatMap_cons, List.prod_append, List.map_cons, List.prod_cons, ih]

theorem prod_swap {α β : Type} (f : α → β → ℚ) (la : List α) (lb : List β) :
    (la.map (fun a => (lb.map (fun b => f a b)).prod)).prod = (lb.map (fun b => (la.map (fun a => f a b)).prod)).prod := by
  induction la with
  | nil => simp
  | cons a t ih =>
    rw [List.map_cons, List.prod_cons, ih, ← List.prod_map_mul]
    apply congrArg
    apply List.map_congr_left
    intro b _
    rw [List.map_cons, List.prod_cons]

theorem factor_prod {l : Dict Dim ℚ} (hl : l.WF) (ir dims : List Dim) (hd : dims.Nodup) (h1 : ∀ d ∈ dims, d ∉ ir) (h2 : ∀ x ∈ l, x.1 ∉ ir → x.1 ∈ dims) :
    (dims.map (fun d => factor l d)).prod = ((l.filter (fun x => decide (x.1 ∉ ir))).map Prod.snd).prod := by
  induction l with
  | nil => simp [factor]
  | cons x l ih =>
    obtain ⟨hx, hl⟩ := WF_cons hl
    replace ih := ih hl (fun y hy => h2 y (by simp [hy]))
    by_cases hi : x.1 ∈ ir
    · rw [List.filter_cons_of_neg (by simpa using hi), ← ih]
      apply congrArg
      apply List.map_congr_left
      intro d hdd
      rw [factor_cons, if_neg]
      rintro rfl
      exact h1 _ hdd hi
    · rw [List.filter_cons_of_pos (by simpa using hi), List.map_cons, List.prod_cons, ← ih]
      have hm := h2 x (by simp) hi
      have e1 : dims.map (fun d => factor (x :: l) d) = dims.map (fun d => (if d = x.1 then x.2 else 1) * factor l d) := by
        apply List.map_congr_left
        intro d _
        rw [factor_cons]
        by_cases hc : x.1 = d
        · subst hc
          rw [if_pos rfl, if_pos rfl, factor_of_not_mem hx, mul_one]
        · rw [if_neg hc, if_neg (Ne.symm hc), one_mul]
      rw [e1, List.prod_map_mul]
      congr 1
      clear ih e1 h1 h2
      induction dims with
      | nil => simp at hm
      | cons d t ih =>
        obtain ⟨hdt, ht⟩ := List.nodup_cons.1 hd
        rw [List.map_cons, List.prod_cons]
        by_cases hc : d = x.1
        · rw [if_pos hc]
          have : (t.map (fun d => if d = x.1 then x.2 else (1 : ℚ))).prod = 1 := by
            apply List.prod_eq_one
            intro y hy
            obtain ⟨z, hz, rfl⟩ := List.mem_map.1 hy
            rw [if_neg]
            rintro rfl
            exact hdt (hc ▸ hz)
          rw [this, mul_one]
        · rw [if_neg hc, one_mul]
          exact ih ht (by simpa [Ne.symm hc] using hm)

theorem factorsOf_prod {m : SM OA Dim} (hm : SMWF m) (served : List OA) (ir dims : List Dim) (hd : dims.Nodup) (h1 : ∀ d ∈ dims, d ∉ ir)
    (h2 : ∀ oa ∈ served, ∀ x ∈ (m.get? oa).getD [], x.1 ∉ ir → x.1 ∈ dims) :
    (factorsOf m served dims).prod =
      (served.map (fun oa => ((((m.get? oa).getD []).filter (fun x => decide (x.1 ∉ ir))).map Prod.snd).prod)).prod := by
  unfold factorsOf
  rw [flatMap_prod]
  have e1 : dims.map (fun d => (served.filterMap (fun oa => (m.get? oa).bind (fun l => l.get? d))).prod) =
      dims.map (fun d => (served.map (fun oa => factor ((m.get? oa).getD []) d)).prod) := by
    apply List.map_congr_left
    intro d _
    rw [filterMap_prod]
    apply congrArg
    apply List.map_congr_left
    intro oa _
    cases m.get? oa with
    | none => simp [factor]
    | some l => simp [factor]
  rw [e1, prod_swap]
  apply congrArg
  apply List.map_congr_left
  intro oa hoa
  apply factor_prod _ ir dims hd h1 (h2 oa hoa)
  cases hg : m.get? oa with
  | none => simp [Dict.WF, Dict.keys]
  | some l => exact hm.2 _ (Dict.mem_of_get? hg)

/-- Non-irrelevant unrollings along the served dimensions. -/
def relEntries (mo : MemOp OA Dim) (m : SM OA Dim) : List (Dim × ℚ) :=
  mo.served.flatMap (fun oa => ((m.get? oa).getD []).filter (fun x => decide (x.1 ∉ mo.irrelevant)))

theorem relEntries_prod (mo : MemOp OA Dim) (m : SM OA Dim) : ((relEntries mo m).map Prod.snd).prod = storedElems mo m := by
  unfold relEntries storedElems
  rw [List.map_flatMap, flatMap_prod]

/-- The factors in the order in which the code lists them are the relevant unrollings. -/
theorem capStep_spec (ord : List Dim → List Dim) (ho : ∀ l, (ord l).Perm l) (mo : MemOp OA Dim) (hs : mo.served.Nodup) {m : SM OA Dim} (hm : SMWF m) (hn : NatSM m)
    (hk : ∀ oa ∈ mo.served, oa ∈ m.keys) (hroom : relEntries mo m = [] → mo.precision ≤ mo.capacity) :
    ∃ m', capStep ord mo m = .ok m' ∧ MLower m m' ∧
      ((factorsOf m mo.served (ord (((relEntries mo m).map Prod.fst).dedup))).Nodup → storedElems mo m' * mo.precision ≤ mo.capacity) := by
  unfold capStep
  rw [servedEntries_eq m mo.irrelevant mo.served hk]
  simp only
  change ∃ m', (if mo.precision > 0 ∧ (mo.capacity : ℚ) / mo.precision < ((relEntries mo m).map Prod.snd).prod then
      limitLoops m mo.served (ord (((relEntries mo m).map Prod.fst).dedup)) ((mo.capacity : ℚ) / mo.precision) else .ok m) = .ok m' ∧ _
  set dims := ord (((relEntries mo m).map Prod.fst).dedup) with hdims
  have hperm : dims.Perm (((relEntries mo m).map Prod.fst).dedup) := ho _
  have hdn : dims.Nodup := hperm.nodup_iff.2 (List.nodup_dedup _)
  have hmem : ∀ d, d ∈ dims ↔ ∃ x ∈ relEntries mo m, x.1 = d := by
    intro d
    rw [hperm.mem_iff, List.mem_dedup, List.mem_map]
  have h1 : ∀ d ∈ dims, d ∉ mo.irrelevant := by
    intro d hd
    obtain ⟨x, hx, rfl⟩ := (hmem d).1 hd
    obtain ⟨oa, _, hx⟩ := List.mem_flatMap.1 hx
    simpa using (List.mem_filter.1 hx).2
  by_cases hc : mo.precision > 0 ∧ (mo.capacity : ℚ) / mo.precision < ((relEntries mo m).map Prod.snd).prod
  · rw [if_pos hc]
    have hp : (0 : ℚ) < mo.precision := by exact_mod_cast hc.1
    have hb : (0 : ℚ) ≤ (mo.capacity : ℚ) / mo.precision := by positivity
    have hne : factorsOf m mo.served dims ≠ [] := by
      cases hr : relEntries mo m with
      | nil =>
        exfalso
        rw [hr] at hc
        simp at hc
        have := hroom hr
        have h2 : (mo.precision : ℚ) ≤ mo.capacity := by exact_mod_cast this
        have := (div_lt_one hp).1 hc.2
        linarith
      | cons x t =>
        have hx : x ∈ relEntries mo m := by rw [hr]; simp
        have hd : x.1 ∈ dims := (hmem _).2 ⟨x, hx, rfl⟩
        obtain ⟨oa, hoa, hx⟩ := List.mem_flatMap.1 hx
        obtain ⟨hx, _⟩ := List.mem_filter.1 hx
        cases hg : m.get? oa with
        | none => rw [hg] at hx; simp at hx
        | some l =>
          rw [hg] at hx
          have := mem_factorsOf hm (served := mo.served) (dims := dims) (Dict.mem_of_get? hg) hoa hx hd
          exact List.ne_nil_of_mem this
    obtain ⟨m', hm', hl, hf⟩ := limitLoops_spec hm hn hs hk dims hb hne
    refine ⟨m', hm', hl, fun hnd => ?_⟩
    have hle := hf hnd
    have h2 : ∀ oa ∈ mo.served, ∀ x ∈ (m'.get? oa).getD [], x.1 ∉ mo.irrelevant → x.1 ∈ dims := by
      intro oa hoa x hx hxi
      rcases hl.get? oa with ⟨_, h⟩ | ⟨l, l', hg, hg', hd⟩
      · rw [h] at hx; simp at hx
      · rw [hg'] at hx
        obtain ⟨y, hy, hxy, _, _⟩ := forall₂_mem_right hd hx
        refine (hmem _).2 ⟨y, ?_, hxy.symm⟩
        refine List.mem_flatMap.2 ⟨oa, hoa, List.mem_filter.2 ⟨by rw [hg]; exact hy, ?_⟩⟩
        rw [← hxy]
        simpa using hxi
    rw [factorsOf_prod (hl.wf hm) mo.served mo.irrelevant dims hdn h1 h2] at hle
    exact (le_div_iff₀ hp).1 hle
  · rw [if_neg hc]
    refine ⟨m, rfl, MLower.refl hn, fun _ => ?_⟩
    rw [← relEntries_prod]
    by_cases hp : mo.precision > 0
    · have hp' : (0 : ℚ) < mo.precision := by exact_mod_cast hp
      have : ¬ (mo.capacity : ℚ) / mo.precision < ((relEntries mo m).map Prod.snd).prod := fun h => hc ⟨hp, h⟩
      exact (le_div_iff₀ hp').1 (not_lt.1 this)
    · have : mo.precision = 0 := by omega
      rw [this]
      simp

theorem DLower.prod_le {l l' : Dict Dim ℚ} (h : DLower l l') (p : Dim → Bool) :
    0 ≤ ((l'.filter (fun x => p x.1)).map Prod.snd).prod ∧
    ((l'.filter (fun x => p x.1)).map Prod.snd).prod ≤ ((l.filter (fun x => p x.1)).map Prod.snd).prod := by
  unfold DLower at h
  induction h with
  | nil => simp
  | @cons a b t t' hab _ ih =>
    by_cases hp : p a.1 = true
    · rw [List.filter_cons_of_pos (by rw [hab.1]; exact hp), List.filter_cons_of_pos (by exact hp)]
      simp only [List.map_cons, List.prod_cons]
      have h0 := hab.2.1.nonneg
      exact ⟨mul_nonneg h0 ih.1, mul_le_mul hab.2.2 ih.2 ih.1 (le_trans h0 hab.2.2)⟩
    · rw [List.filter_cons_of_neg (by rw [hab.1]; exact hp), List.filter_cons_of_neg (by exact hp)]
      exact ih

theorem storedElems_mono {m m' : SM OA Dim} (h : MLower m m') (mo : MemOp OA Dim) : 0 ≤ storedElems mo m' ∧ storedElems mo m' ≤ storedElems mo m := by
  unfold storedElems
  induction mo.served with
  | nil => simp
  | cons oa t ih =>
    simp only [List.map_cons, List.prod_cons]
    have key : 0 ≤ ((((m'.get? oa).getD []).filter (fun x => decide (x.1 ∉ mo.irrelevant))).map Prod.snd).prod ∧
        ((((m'.get? oa).getD []).filter (fun x => decide (x.1 ∉ mo.irrelevant))).map Prod.snd).prod ≤
        ((((m.get? oa).getD []).filter (fun x => decide (x.1 ∉ mo.irrelevant))).map Prod.snd).prod := by
      rcases h.get? oa with ⟨h1, h2⟩ | ⟨l, l', h1, h2, hd⟩
      · rw [h1, h2]; simp
      · rw [h1, h2]
        exact hd.prod_le (fun d => decide (d ∉ mo.irrelevant))
    exact ⟨mul_nonneg key.1 ih.1, mul_le_mul key.2 ih.2 ih.1 (le_trans key.1 key.2)⟩

theorem relEntries_keys {m m' : SM OA Dim} (h : MLower m m') (mo : MemOp OA Dim) : (relEntries mo m').map Prod.fst = (relEntries mo m).map Prod.fst := by
  unfold relEntries
  rw [List.map_flatMap, List.map_flatMap]
  apply List.flatMap_congr
  intro oa _
  have e : ∀ l : Dict Dim ℚ, (l.filter (fun x => decide (x.1 ∉ mo.irrelevant))).map Prod.fst = l.keys.filter (fun d => decide (d ∉ mo.irrelevant)) := by
    intro l
    simp [Dict.keys, List.filter_map, Function.comp_def]
  rcases h.get? oa with ⟨h1, h2⟩ | ⟨l, l', h1, h2, hd⟩
  · rw [h1, h2]
  · rw [h1, h2]
    simp only [Option.getD_some]
    rw [e, e, hd.keys]

theorem sum_map_le {α : Type} {f g : α → ℕ} {l : List α} (h : ∀ a ∈ l, f a ≤ g a) : (l.map f).sum ≤ (l.map g).sum := by
  induction l with
  | nil => simp
  | cons a t ih =>
    rw [List.map_cons, List.map_cons, List.sum_cons, List.sum_cons]
    exact Nat.add_le_add (h a (by simp)) (ih (fun b hb => h b (by simp [hb])))

/-- The circumstances under which the code calls the function: every innermost memory serves existing array dimensions, and where nothing
relevant is unrolled along them it holds at least one element. -/
structure CapOk (mems : List (MemOp OA Dim)) (m : SM OA Dim) : Prop where
  nodup : ∀ mo ∈ mems, mo.served.Nodup
  known : ∀ mo ∈ mems, ∀ oa ∈ mo.served, oa ∈ m.keys
  room : ∀ mo ∈ mems, relEntries mo m = [] → mo.precision ≤ mo.capacity

theorem CapOk.lower {mems : List (MemOp OA Dim)} {m m' : SM OA Dim} (h : CapOk mems m) (hl : MLower m m') : CapOk mems m' := by
  refine ⟨h.nodup, fun mo hmo oa hoa => by rw [hl.keys]; exact h.known mo hmo oa hoa, fun mo hmo hr => h.room mo hmo ?_⟩
  have := relEntries_keys hl mo
  rw [hr] at this
  simpa using this.symm

/-- C24 (holds in full): limiting to capacity succeeds and keeps all loops, with unrollings that are not larger. -/
theorem limit_capacity_lowers (ord : List Dim → List Dim) (ho : ∀ l, (ord l).Perm l) : ∀ (mems : List (MemOp OA Dim)) (m : SM OA Dim), SMWF m → NatSM m → CapOk mems m →
    ∃ m', limitCapacity ord mems m = .ok m' ∧ MLower m m'
  | [], m, _, hn, _ => ⟨m, rfl, MLower.refl hn⟩
  | mo :: t, m, hm, hn, hc => by
    obtain ⟨m1, h1, l1, _⟩ := capStep_spec ord ho mo (hc.nodup mo (by simp)) hm hn (hc.known mo (by simp)) (hc.room mo (by simp))
    have hc1 := hc.lower l1
    obtain ⟨m2, h2, l2⟩ := limit_capacity_lowers ord ho t m1 (l1.wf hm) l1.nat
      ⟨fun x hx => hc1.nodup x (by simp [hx]), fun x hx => hc1.known x (by simp [hx]), fun x hx => hc1.room x (by simp [hx])⟩
    refine ⟨m2, ?_, l1.trans l2⟩
    unfold limitCapacity
    rw [h1]
    exact h2

/-- C24 (partial): if at most one relevant loop is unrolled along the dimensions each innermost memory serves, the capacity of every innermost
memory is respected afterwards.  Missing: several relevant loops (false for equal factors, see `limit_capacity_false`; for different
factors see `cap_step_fits_partial`). -/
theorem limit_capacity_fits_partial (ord : List Dim → List Dim) (ho : ∀ l, (ord l).Perm l) : ∀ (mems : List (MemOp OA Dim)) (m : SM OA Dim), SMWF m → NatSM m → CapOk mems m →
    (∀ mo ∈ mems, (relEntries mo m).length ≤ 1) →
    ∀ m', limitCapacity ord mems m = .ok m' → ∀ mo ∈ mems, storedElems mo m' * mo.precision ≤ mo.capacity
  | [], m, _, _, _, _, m', _, mo, hmo => by simp at hmo
  | a :: t, m, hm, hn, hc, h1, m', h, mo, hmo => by
    obtain ⟨m1, e1, l1, f1⟩ := capStep_spec ord ho a (hc.nodup a (by simp)) hm hn (hc.known a (by simp)) (hc.room a (by simp))
    have hc1 := hc.lower l1
    have hct : CapOk t m1 := ⟨fun x hx => hc1.nodup x (by simp [hx]), fun x hx => hc1.known x (by simp [hx]), fun x hx => hc1.room x (by simp [hx])⟩
    obtain ⟨m2, e2, l2⟩ := limit_capacity_lowers ord ho t m1 (l1.wf hm) l1.nat hct
    have hm2 : m' = m2 := by
      unfold limitCapacity at h
      rw [e1] at h
      simp only at h
      rw [e2] at h
      exact (Except.ok.inj h).symm
    subst hm2
    rcases List.mem_cons.1 hmo with rfl | hmo
    · have hnd : (factorsOf m mo.served (ord (((relEntries mo m).map Prod.fst).dedup))).Nodup := by
        have hlen := h1 mo (by simp)
        set dims := ord (((relEntries mo m).map Prod.fst).dedup) with hdims
        have hperm : dims.Perm (((relEntries mo m).map Prod.fst).dedup) := ho _
        have hsub : (factorsOf m mo.served dims).length ≤ (relEntries mo m).length := by
          -- swap the two nested loops: one entry for every (dimension, array dimension) pair
          have e : (factorsOf m mo.served dims).length = (mo.served.map (fun oa => (dims.filter (fun d => decide (d ∈ ((m.get? oa).getD []).keys))).length)).sum := by
            unfold factorsOf
            rw [List.length_flatMap]
            have : ∀ ds : List Dim, (ds.map (fun d => (mo.served.filterMap (fun oa => (m.get? oa).bind (fun l => l.get? d))).length)).sum =
                (mo.served.map (fun oa => (ds.filter (fun d => decide (d ∈ ((m.get? oa).getD []).keys))).length)).sum := by
              intro ds
              induction ds with
              | nil => simp
              | cons d ds ih =>
                rw [List.map_cons, List.sum_cons, ih]
                clear ih
                induction mo.served with
                | nil => simp
                | cons oa f ihf =>
                  rw [List.map_cons, List.map_cons, List.sum_cons, List.sum_cons, ← ihf, List.filterMap_cons, List.filter_cons]
                  cases hg : m.get? oa with
                  | none => simp [Dict.keys]
                  | some l =>
                    simp only [Option.bind_some, Option.getD_some]
                    cases hd : l.get? d with
                    | none =>
                      have : d ∉ l.keys := (Dict.get?_eq_none_iff _ _).1 hd
                      simp [this]; omega
                    | some v =>
                      have : d ∈ l.keys := by
                        by_contra hcc
                        rw [← Dict.get?_eq_none_iff, hd] at hcc
                        cases hcc
                      simp [this]; omega
            exact this dims
          rw [e]
          unfold relEntries
          rw [List.length_flatMap]
          apply sum_map_le
          intro oa hoa
          have hsubset : (dims.filter (fun d => decide (d ∈ ((m.get? oa).getD []).keys))) ⊆
              ((((m.get? oa).getD []).filter (fun x => decide (x.1 ∉ mo.irrelevant))).map Prod.fst) := by
            intro d hd
            obtain ⟨hd1, hd2⟩ := List.mem_filter.1 hd
            have hdi : d ∉ mo.irrelevant := by
              have := hperm.mem_iff.1 hd1
              rw [List.mem_dedup] at this
              obtain ⟨x, hx, rfl⟩ := List.mem_map.1 this
              obtain ⟨oa', _, hx⟩ := List.mem_flatMap.1 hx
              simpa using (List.mem_filter.1 hx).2
            obtain ⟨x, hx, rfl⟩ := List.mem_map.1 (show d ∈ Dict.keys _ by simpa using hd2)
            exact List.mem_map.2 ⟨x, List.mem_filter.2 ⟨hx, by simpa using hdi⟩, rfl⟩
          have hnodup : (dims.filter (fun d => decide (d ∈ ((m.get? oa).getD []).keys))).Nodup :=
            (hperm.nodup_iff.2 (List.nodup_dedup _)).filter _
          have := (hnodup.subperm hsubset).length_le
          simpa using this
        have hle : (factorsOf m mo.served dims).length ≤ 1 := le_trans hsub hlen
        cases hf : factorsOf m mo.served dims with
        | nil => simp
        | cons a b =>
          rw [hf] at hle
          cases b with
          | nil => simp
          | cons c d => simp at hle
      have := f1 hnd
      have hmono := storedElems_mono l2 mo
      have hp : (0 : ℚ) ≤ mo.precision := Nat.cast_nonneg _
      nlinarith [mul_le_mul_of_nonneg_right hmono.2 hp]
    · exact limit_capacity_fits_partial ord ho t m1 (l1.wf hm) l1.nat hct
        (fun x hx => by
          have := h1 x (by simp [hx])
          have e := congrArg List.length (relEntries_keys l1 x)
          simp at e
          omega) m' e2 mo hmo

/-- C24 (partial): one memory and one operand, any number of relevant loops with pairwise different factors. -/
theorem cap_step_fits_partial (ord : List Dim → List Dim) (ho : ∀ l, (ord l).Perm l) (mo : MemOp OA Dim) (m m' : SM OA Dim) (hm : SMWF m) (hn : NatSM m) (hc : CapOk [mo] m)
    (hd : (factorsOf m mo.served (ord (((relEntries mo m).map Prod.fst).dedup))).Nodup) (h : capStep ord mo m = .ok m') :
    storedElems mo m' * mo.precision ≤ mo.capacity := by
  obtain ⟨m1, e1, _, f1⟩ := capStep_spec ord ho mo (hc.nodup mo (by simp)) hm hn (hc.known mo (by simp)) (hc.room mo (by simp))
  rw [e1] at h
  cases h
  exact f1 hd

/-- C24 is false in general: with two equal factors the code maps the old factor back to itself, and the capacity stays exceeded. -/
theorem limit_capacity_false :
    limitCapacity id [⟨64, 12, 1, [], ["D1", "D2"]⟩] [("D1", [("K", 4)]), ("D2", [("C", 4)])] =
      .ok [("D1", [("K", 4)]), ("D2", [("C", 4)])] ∧
    ¬ storedElems (⟨64, 12, 1, [], ["D1", "D2"]⟩ : MemOp String String) [("D1", [("K", 4)]), ("D2", [("C", 4)])] * (1 : ℕ) ≤ (12 : ℕ) := by
  decide +kernel

/-- Non-trivial case: different factors are limited. -/
example : limitCapacity id [⟨64, 12, 1, ["OX"], ["D1", "D2"]⟩] [("D1", [("K", 4), ("OX", 7)]), ("D2", [("C", 5)])] =
      .ok [("D1", [("K", 3), ("OX", 7)]), ("D2", [("C", 4)])] := by decide +kernel

/-- A memory that cannot hold one element, nothing relevant unrolled along it: the code fails with `ValueError`. -/
theorem limit_capacity_crash :
    limitCapacity id [⟨64, 4, 8, ["OX"], ["D1"]⟩] [("D1", [("OX", 7)])] = .error .valueError := by decide +kernel

end Verif.SpatialGen
