import Verif.Conversion.Lemmas

/-! The loop over the array dimensions establishes, for every unrolling, the documented relation with the user's unrolling. -/

namespace Verif.Conversion

open Verif.SpatialMapping Verif.SpatialGen

variable {OA Dim : Type} [DecidableEq OA] [DecidableEq Dim]

/-- The unrollings of dimensions the layer has. -/
def known (sizes : Dict Dim Nat) (l : List (Dim × ℚ)) : List (Dim × ℚ) := l.filter (fun x => decide (x.1 ∈ sizes.keys))

/-- The mapping without dimensions the layer does not have and without array dimensions left empty by that. -/
def clean (sizes : Dict Dim Nat) (m : SM OA Dim) : SM OA Dim := (m.map (fun e => (e.1, known sizes e.2))).filter (fun e => decide (e.2 ≠ []))

/-- What the conversion may do to one unrolling `x` along `oa`, giving `y`; `lim` is the mapping it is part of.
The unrolling is changed only where it is the first largest one of its layer dimension; there, with the unrollings before it, it divides the
layer dimension into a whole number of temporal iterations: exactly (`dec`), or as far as whole unrollings allow. -/
structure Step (dec : Bool) (sizes : Dict Dim Nat) (user lim : SM OA Dim) (oa : OA) (x y : Dim × ℚ) : Prop where
  dim : y.1 = x.1
  pos : 1 ≤ y.2
  le : y.2 ≤ x.2
  whole : dec = false → IsNat y.2
  keep : ¬ IsFirstMax user oa x.1 → y.2 = x.2
  divides : IsFirstMax user oa x.1 → ∀ L, sizes.get? x.1 = some L → ∃ t : ℕ, 1 ≤ t ∧
    ((t : ℚ) - 1) * (x.2 * beforeProd lim oa x.1) < L ∧
    (if dec then y.2 * beforeProd lim oa x.1 * t = L else y.2 * beforeProd lim oa x.1 * t ≤ L ∧ (L : ℚ) < (y.2 + 1) * beforeProd lim oa x.1 * t)

/-- Relation between the user's mapping and the converted one. -/
def Converted (dec : Bool) (sizes : Dict Dim Nat) (user done lim lim' : SM OA Dim) : Prop :=
  List.Forall₂ (fun e e' => e'.1 = e.1 ∧ List.Forall₂ (Step dec sizes user lim e.1) e.2 e'.2) (clean sizes done) lim'

/-- A valid user mapping with whole unrollings (conditions 6 and 8 of `is_valid`; unknown layer dimensions allowed). -/
structure Good (oaSizes : Dict OA Nat) (sizes : Dict Dim Nat) (user : SM OA Dim) : Prop where
  wf : SMWF user
  whole : ∀ e ∈ user, ∀ x ∈ e.2, ∃ n : ℕ, 1 ≤ n ∧ x.2 = n
  fits : ∀ e ∈ user, ∃ s, oaSizes.get? e.1 = some s ∧ ∀ x ∈ e.2, x.2 ≤ s
  covers : ∀ d L, sizes.get? d = some L → (user.map (fun e => factor e.2 d)).prod ≤ L

theorem known_keys_sub {sizes : Dict Dim Nat} {l : Dict Dim ℚ} {d : Dim} (h : d ∈ Dict.keys (known sizes l)) : d ∈ l.keys := by
  obtain ⟨x, hx, rfl⟩ := List.mem_map.1 h
  exact List.mem_map.2 ⟨x, (List.mem_filter.1 hx).1, rfl⟩

theorem factor_ge {l : Dict Dim ℚ} (h : ∀ x ∈ l, 1 ≤ x.2) (d : Dim) : 1 ≤ factor l d := by
  unfold factor
  cases hg : l.get? d with
  | none => simp
  | some v => simpa using h (d, v) (Dict.mem_of_get? hg)

theorem factor_step {sizes : Dict Dim Nat} {d : Dim} (hd : d ∈ sizes.keys) {R : (Dim × ℚ) → (Dim × ℚ) → Prop} (hR : ∀ x y, R x y → y.1 = x.1 ∧ 1 ≤ y.2 ∧ y.2 ≤ x.2) :
    ∀ (l l' : Dict Dim ℚ), List.Forall₂ R (known sizes l) l' → (∀ x ∈ l, 1 ≤ x.2) → 1 ≤ factor l' d ∧ factor l' d ≤ factor l d := by
  intro l
  induction l with
  | nil => intro l' h _; cases h; simp [factor, Dict.get?]
  | cons x t ih =>
    intro l' h hp
    by_cases hk : x.1 ∈ sizes.keys
    · unfold known at h
      rw [List.filter_cons_of_pos (by simpa using hk)] at h
      cases h with
      | cons hxy hrest =>
        rename_i y l''
        obtain ⟨h1, h2, h3⟩ := hR _ _ hxy
        rw [factor_cons, factor_cons, h1]
        split_ifs
        · exact ⟨h2, h3⟩
        · exact ih _ hrest (fun z hz => hp z (by simp [hz]))
    · unfold known at h
      rw [List.filter_cons_of_neg (by simpa using hk)] at h
      rw [factor_cons, if_neg (by rintro rfl; exact hk hd)]
      exact ih _ h (fun z hz => hp z (by simp [hz]))

theorem clean_cons (sizes : Dict Dim Nat) (e : OA × Dict Dim ℚ) (m : SM OA Dim) :
    clean sizes (e :: m) = if known sizes e.2 = [] then clean sizes m else (e.1, known sizes e.2) :: clean sizes m := by
  unfold clean
  rw [List.map_cons]
  split_ifs with h
  · rw [List.filter_cons_of_neg (by simpa using h)]
  · rw [List.filter_cons_of_pos (by simpa using h)]

theorem clean_append (sizes : Dict Dim Nat) (m m' : SM OA Dim) : clean sizes (m ++ m') = clean sizes m ++ clean sizes m' := by
  unfold clean
  rw [List.map_append, List.filter_append]

theorem prod_step {dec : Bool} {sizes : Dict Dim Nat} {user lim : SM OA Dim} {d : Dim} (hd : d ∈ sizes.keys) :
    ∀ (m m' : SM OA Dim), Converted dec sizes user m lim m' → (∀ e ∈ m, ∀ x ∈ e.2, 1 ≤ x.2) →
      1 ≤ (m'.map (fun e => factor e.2 d)).prod ∧ (m'.map (fun e => factor e.2 d)).prod ≤ (m.map (fun e => factor e.2 d)).prod := by
  intro m
  induction m with
  | nil => intro m' h _; unfold Converted clean at h; simp at h; subst h; simp
  | cons e t ih =>
    intro m' h hp
    have hp' : ∀ e ∈ t, ∀ x ∈ e.2, 1 ≤ x.2 := fun e' he' => hp e' (by simp [he'])
    unfold Converted at h
    rw [clean_cons] at h
    have hf1 := factor_ge (hp e (by simp)) d
    split_ifs at h with hk
    · obtain ⟨i1, i2⟩ := ih m' h hp'
      refine ⟨i1, ?_⟩
      rw [List.map_cons, List.prod_cons]
      nlinarith
    · cases h with
      | cons hee hrest =>
        rename_i e' m''
        obtain ⟨i1, i2⟩ := ih m'' hrest hp'
        obtain ⟨j1, j2⟩ := factor_step hd (fun x y h => ⟨h.dim, h.pos, h.le⟩) e.2 e'.2 hee.2 (hp e (by simp))
        simp only [List.map_cons, List.prod_cons]
        constructor
        · nlinarith
        · nlinarith

theorem converted_keys {dec : Bool} {sizes : Dict Dim Nat} {user lim m m' : SM OA Dim} (h : Converted dec sizes user m lim m') {oa : OA} (ho : oa ∈ m'.keys) : oa ∈ m.keys := by
  obtain ⟨e', he', rfl⟩ := List.mem_map.1 ho
  obtain ⟨e, he, h1, _⟩ := forall₂_mem_right h he'
  obtain ⟨e0, he0, hh⟩ := List.mem_map.1 (List.mem_filter.1 he).1
  refine List.mem_map.2 ⟨e0, he0, ?_⟩
  rw [h1, ← hh]

theorem nat_one_or_two {n : ℕ} (h : 1 ≤ n) : (n : ℚ) = 1 ∨ 2 ≤ (n : ℚ) := by
  rcases Nat.lt_or_ge n 2 with h2 | h2
  · left
    have : n = 1 := by omega
    rw [this]; norm_num
  · right; exact_mod_cast h2

/-- The step for one unrolling. -/
theorem limited_ok {oaSizes : Dict OA Nat} {sizes : Dict Dim Nat} {user : SM OA Dim} (hg : Good oaSizes sizes user) (dec : Bool)
    {done rest : SM OA Dim} {e : OA × Dict Dim ℚ} (hu : user = done ++ e :: rest) {lim : SM OA Dim} (hlim : Converted dec sizes user done lim lim)
    {x : Dim × ℚ} (hx : x ∈ e.2) :
    if x.1 ∈ sizes.keys then ∃ y, limited oaSizes sizes user e.1 x lim dec = .ok (some y) ∧ Step dec sizes user lim e.1 x y
    else limited oaSizes sizes user e.1 x lim dec = .ok none := by
  have heu : e ∈ user := by rw [hu]; simp
  have hpos : ∀ e ∈ user, ∀ x ∈ e.2, (1 : ℚ) ≤ x.2 := by
    intro e he x hx
    obtain ⟨n, hn, h⟩ := hg.whole e he x hx
    rw [h]; exact_mod_cast hn
  have hoa : e.1 ∉ lim.keys := by
    intro hc
    have h1 := converted_keys hlim hc
    have := hg.wf.1
    unfold Dict.WF Dict.keys at this
    rw [hu, List.map_append, List.map_cons] at this
    exact (List.nodup_append.1 this).2.2 _ h1 _ (by simp) rfl
  split_ifs with hk
  · cases hL : sizes.get? x.1 with
    | none => exact absurd hk ((Dict.get?_eq_none_iff _ _).1 hL)
    | some L =>
      obtain ⟨s, hs, hfit⟩ := hg.fits e heu
      have hxg : e.2.get? x.1 = some x.2 := Dict.get?_of_mem (hg.wf.2 e heu) hx
      have hxf : factor e.2 x.1 = x.2 := by unfold factor; rw [hxg]; rfl
      have hpd := prod_step hk done lim hlim (fun e' he' => hpos e' (by rw [hu]; simp [he']))
      have hrest1 : 1 ≤ (rest.map (fun e => factor e.2 x.1)).prod := by
        have : ∀ l : SM OA Dim, (∀ e ∈ l, ∀ x ∈ e.2, (1 : ℚ) ≤ x.2) → 1 ≤ (l.map (fun e => factor e.2 x.1)).prod := by
          intro l
          induction l with
          | nil => intro _; simp
          | cons a t ih =>
            intro h
            rw [List.map_cons, List.prod_cons]
            nlinarith [factor_ge (h a (by simp)) x.1, ih (fun e he => h e (by simp [he]))]
        exact this rest (fun e' he' => hpos e' (by rw [hu]; simp [he']))
      have hcov : x.2 * (done.map (fun e => factor e.2 x.1)).prod ≤ L := by
        have := hg.covers x.1 L hL
        rw [hu, List.map_append, List.prod_append, List.map_cons, List.prod_cons, hxf] at this
        have h1 := hpos e heu x hx
        have h2 : 0 ≤ (done.map (fun e => factor e.2 x.1)).prod := by linarith [hpd.1, hpd.2]
        nlinarith [mul_nonneg h2 (by linarith : (0:ℚ) ≤ x.2)]
      have he1 : beforeProd lim e.1 x.1 = (lim.map (fun e => factor e.2 x.1)).prod := beforeProd_all hoa x.1
      have hx1 := hpos e heu x hx
      have hue : x.2 * beforeProd lim e.1 x.1 ≤ L := by
        rw [he1]
        nlinarith [hpd.1, hpd.2]
      have hule : x.2 ≤ L := by rw [he1] at hue; nlinarith [hpd.1]
      obtain ⟨b, hb, hbiff⟩ := firstMax_spec hg.wf.1 heu hxg (by linarith) e.1
      unfold limited
      rw [hL]
      simp only
      rw [hs]
      simp only
      rw [if_neg (not_lt.2 (hfit x hx)), if_pos hule, hb]
      cases b with
      | false =>
        refine ⟨_, rfl, rfl, hx1, le_refl _, fun _ => ?_, fun _ => rfl, fun hf => absurd (hbiff.2 hf) (by simp)⟩
        obtain ⟨n, _, hn⟩ := hg.whole e heu x hx
        exact ⟨n, hn⟩
      | true =>
        have hfm := hbiff.1 rfl
        -- the largest unrolling is one only if all are
        have h1e : x.2 = 1 → beforeProd lim e.1 x.1 = 1 := by
          intro h1
          obtain ⟨pre, e', post, u, hs', h1', hu', hpre, hpost⟩ := hfm
          have hee' : e' = e := by
            have he' : e' ∈ user := by rw [hs']; simp
            have := Dict.get?_of_mem hg.wf.1 (k := e'.1) (v := e'.2) he'
            rw [h1', Dict.get?_of_mem hg.wf.1 (k := e.1) (v := e.2) heu] at this
            exact Prod.ext h1' (by simpa using this.symm)
          rw [hee', hxg] at hu'
          have hu1 : u = 1 := by rw [← h1]; simpa using hu'.symm
          have hall : ∀ e' ∈ user, ∀ v, e'.2.get? x.1 = some v → v ≤ 1 := by
            intro e'' he'' v hv
            rw [hs'] at he''
            rcases List.mem_append.1 he'' with h | h
            · exact hu1 ▸ le_of_lt (hpre e'' h v hv)
            · rcases List.mem_cons.1 h with rfl | h
              · rw [hee', hxg] at hv; cases hv; exact h1.le
              · exact hu1 ▸ hpost e'' h v hv
          have hdone : (done.map (fun e => factor e.2 x.1)).prod = 1 := by
            apply List.prod_eq_one
            intro q hq
            obtain ⟨e'', he'', rfl⟩ := List.mem_map.1 hq
            have he3 : e'' ∈ user := by rw [hu]; simp [he'']
            unfold factor
            cases hg3 : e''.2.get? x.1 with
            | none => rfl
            | some v =>
              have h4 := hall e'' he3 v hg3
              have h5 := hpos e'' he3 (x.1, v) (Dict.mem_of_get? hg3)
              simp only [Option.getD_some]
              linarith
          rw [he1]
          linarith [hpd.1, hpd.2]
        obtain ⟨n, hn1, hn⟩ := hg.whole e heu x hx
        obtain ⟨a1, a2, a3, a4, a5⟩ := adjusted_arith (L := L) (u := x.2) (e := beforeProd lim e.1 x.1) (by rw [he1]; exact hpd.1) hx1 hue
          (by rw [hn]; exact nat_one_or_two hn1) h1e (fun _ => ⟨L, by simp⟩)
        set E := beforeProd lim e.1 x.1 with hE
        set t : ℤ := ⌈(L : ℚ) / (x.2 * E)⌉ with ht
        have hE1 : 1 ≤ E := by rw [he1]; exact hpd.1
        have hadj : adjusted L x.2 (early e.1 x.1 lim) dec = .ok (if dec then (L : ℚ) / t / E else ((pyTrunc ((L : ℚ) / t / E) : ℤ) : ℚ)) := by
          rw [early_eq, ← hE]
          unfold adjusted
          rw [if_neg (by nlinarith)]
          simp only
          rw [if_neg (by rw [← ht]; omega), if_neg (by linarith)]
        simp only
        rw [hadj]
        simp only
        refine ⟨_, rfl, ?_⟩
        obtain ⟨tn, htn⟩ := Int.eq_ofNat_of_zero_le (by omega : 0 ≤ t)
        have htq : (t : ℚ) = (tn : ℚ) := by rw [htn]; simp
        have htn1 : 1 ≤ tn := by omega
        have htnpos : (0 : ℚ) < tn := by exact_mod_cast htn1
        cases dec with
        | true =>
          refine ⟨rfl, by simpa using a3, by simpa using a4, by simp, fun h => absurd hfm h, fun _ L' hL' => ⟨tn, htn1, ?_, ?_⟩⟩
          · rw [hL] at hL'; cases hL'
            rw [← htq, ← hE]
            exact a5
          · rw [hL] at hL'; cases hL'
            simp only [if_true]
            rw [← htq, ← hE]
            exact a2
        | false =>
          set r : ℚ := (L : ℚ) / t / E with hr
          have hr0 : 0 ≤ r := by linarith
          have hfl : pyTrunc r = ⌊r⌋ := by
            unfold pyTrunc
            rw [if_neg (by linarith)]
          have hfl1 : 1 ≤ ⌊r⌋ := Int.le_floor.2 (by simpa using a3)
          have hle : (⌊r⌋ : ℚ) ≤ r := Int.floor_le r
          have hlt : r < ⌊r⌋ + 1 := Int.lt_floor_add_one r
          simp only [Bool.false_eq_true, if_false]
          rw [hfl]
          refine ⟨rfl, by simpa using (by exact_mod_cast hfl1 : (1 : ℚ) ≤ (⌊r⌋ : ℚ)), by simpa using le_trans hle a4, fun _ => ?_, fun h => absurd hfm h, fun _ L' hL' => ⟨tn, htn1, ?_, ?_⟩⟩
          · obtain ⟨m, hm⟩ := Int.eq_ofNat_of_zero_le (by omega : 0 ≤ ⌊r⌋)
            exact ⟨m, by simp [hm]⟩
          · rw [hL] at hL'; cases hL'
            rw [← htq, ← hE]
            exact a5
          · rw [hL] at hL'; cases hL'
            simp only [Bool.false_eq_true, if_false]
            rw [← htq, ← hE]
            have hEt : 0 < E * t := by rw [htq]; positivity
            have a2' : r * (E * t) = L := by rw [← mul_assoc]; exact a2
            constructor
            · rw [mul_assoc]; nlinarith
            · rw [mul_assoc]; nlinarith
  · unfold limited
    rw [(Dict.get?_eq_none_iff _ _).2 hk]

theorem convertOa_ok {oaSizes : Dict OA Nat} {sizes : Dict Dim Nat} {user : SM OA Dim} (hg : Good oaSizes sizes user)
    {done rest : SM OA Dim} {e : OA × Dict Dim ℚ} (hu : user = done ++ e :: rest) {lim limI : SM OA Dim} (hlim : Converted true sizes user done lim lim)
    (hlimI : Converted false sizes user done limI limI) :
    ∀ (els : List (Dim × ℚ)), (∀ x ∈ els, x ∈ e.2) → ∃ l lI, convertOa oaSizes sizes user e.1 lim limI els = .ok (l, lI) ∧
      List.Forall₂ (Step true sizes user lim e.1) (known sizes els) l ∧ List.Forall₂ (Step false sizes user limI e.1) (known sizes els) lI := by
  intro els
  induction els with
  | nil => intro _; exact ⟨[], [], rfl, List.Forall₂.nil, List.Forall₂.nil⟩
  | cons x t ih =>
    intro hs
    obtain ⟨l, lI, h1, h2, h3⟩ := ih (fun y hy => hs y (by simp [hy]))
    have a := limited_ok hg true hu hlim (hs x (by simp))
    have b := limited_ok hg false hu hlimI (hs x (by simp))
    by_cases hk : x.1 ∈ sizes.keys
    · rw [if_pos hk] at a b
      obtain ⟨y, hy, sy⟩ := a
      obtain ⟨z, hz, sz⟩ := b
      refine ⟨y :: l, z :: lI, ?_, ?_, ?_⟩
      · unfold convertOa
        rw [hy]; simp only
        rw [hz]; simp only
        rw [h1]
      · unfold known
        rw [List.filter_cons_of_pos (by simpa using hk)]
        exact List.Forall₂.cons sy h2
      · unfold known
        rw [List.filter_cons_of_pos (by simpa using hk)]
        exact List.Forall₂.cons sz h3
    · rw [if_neg hk] at a b
      refine ⟨l, lI, ?_, ?_, ?_⟩
      · unfold convertOa
        rw [a]; simp only
        rw [b]; simp only
        rw [h1]
      · unfold known
        rw [List.filter_cons_of_neg (by simpa using hk)]
        exact h2
      · unfold known
        rw [List.filter_cons_of_neg (by simpa using hk)]
        exact h3

theorem set_append {K V : Type} [DecidableEq K] (d : Dict K V) (k : K) (v : V) (h : k ∉ d.keys) : d.set k v = d ++ [(k, v)] := by
  induction d with
  | nil => rfl
  | cons e t ih =>
    unfold Dict.set
    rw [if_neg (fun hc => h (by simp [Dict.keys, hc])), ih (fun hc => h (by rw [Dict.keys] at hc ⊢; exact List.mem_cons_of_mem _ hc))]
    rfl

theorem foldl_set_nodup {K V : Type} [DecidableEq K] : ∀ (l : List (K × V)) (d : Dict K V), (d ++ l).WF → l.foldl (fun d x => Dict.set d x.1 x.2) d = d ++ l := by
  intro l
  induction l with
  | nil => intro d _; simp
  | cons x t ih =>
    intro d h
    rw [List.foldl_cons, set_append, ih]
    · simp
    · simpa using h
    · unfold Dict.WF Dict.keys at h
      rw [List.map_append, List.map_cons] at h
      intro hc
      exact (List.nodup_append.1 h).2.2 _ hc _ (by simp) rfl

theorem step_keys {dec : Bool} {sizes : Dict Dim Nat} {user lim : SM OA Dim} {oa : OA} {l l' : List (Dim × ℚ)} (h : List.Forall₂ (Step dec sizes user lim oa) l l') :
    Dict.keys l' = Dict.keys l := by
  induction h with
  | nil => rfl
  | cons hxy _ ih => simp only [Dict.keys, List.map_cons] at ih ⊢; rw [hxy.dim, ih]

theorem known_wf {sizes : Dict Dim Nat} {l : Dict Dim ℚ} (h : l.WF) : Dict.WF (known sizes l) := Dict.WF.filter h _

theorem addOa_eq {dec : Bool} {sizes : Dict Dim Nat} {user : SM OA Dim} {done rest : SM OA Dim} {e : OA × Dict Dim ℚ} (hu : user = done ++ e :: rest) (hw : SMWF user)
    {lim : SM OA Dim} (hlim : Converted dec sizes user done lim lim) {l : List (Dim × ℚ)}
    (hl : List.Forall₂ (Step dec sizes user lim e.1) (known sizes e.2) l) :
    Converted dec sizes user (done ++ [e]) (addOa lim e.1 l) (addOa lim e.1 l) := by
  have hoa : e.1 ∉ lim.keys := by
    intro hc
    have h1 := converted_keys hlim hc
    have := hw.1
    unfold Dict.WF Dict.keys at this
    rw [hu, List.map_append, List.map_cons] at this
    exact (List.nodup_append.1 this).2.2 _ h1 _ (by simp) rfl
  have heu : e ∈ user := by rw [hu]; simp
  unfold Converted
  rw [clean_append]
  unfold addOa
  by_cases hn : l = []
  · subst hn
    have hk : known sizes e.2 = [] := by cases hh : known sizes e.2 with
      | nil => rfl
      | cons a b => rw [hh] at hl; cases hl
    rw [if_neg (by simp), clean_cons, if_pos hk]
    have : clean sizes ([] : SM OA Dim) = [] := rfl
    rw [this, List.append_nil]
    exact hlim
  · have hk : known sizes e.2 ≠ [] := by
      intro hc; rw [hc] at hl; cases hl; exact hn rfl
    rw [if_pos (by simpa using hn), set_append _ _ _ hoa, clean_cons, if_neg hk, foldl_set_nodup l []
      (by simp only [List.nil_append]; unfold Dict.WF; rw [step_keys hl]; exact known_wf (hw.2 e heu))]
    have hmono : ∀ oa d, oa ∈ lim.keys → beforeProd (lim ++ [(e.1, [] ++ l)]) oa d = beforeProd lim oa d := fun oa d h => beforeProd_append h d
    have hnew : ∀ d, beforeProd (lim ++ [(e.1, [] ++ l)]) e.1 d = beforeProd lim e.1 d := by
      intro d
      rw [beforeProd_all hoa]
      unfold beforeProd
      congr 2
      rw [List.takeWhile_append_of_pos]
      · rw [List.takeWhile_cons_of_neg (by simp), List.append_nil]
      · intro a ha
        simp only [decide_eq_true_eq, ne_eq]
        rintro rfl'
        exact hoa (List.mem_map.2 ⟨a, ha, rfl'.symm⟩)
    have hst : ∀ oa, (oa ∈ lim.keys ∨ oa = e.1) → ∀ x y, Step dec sizes user lim oa x y → Step dec sizes user (lim ++ [(e.1, [] ++ l)]) oa x y := by
      intro oa ho x y h
      have hb : beforeProd (lim ++ [(e.1, [] ++ l)]) oa x.1 = beforeProd lim oa x.1 := by
        rcases ho with ho | rfl
        · exact hmono oa _ ho
        · exact hnew _
      refine ⟨h.dim, h.pos, h.le, h.whole, h.keep, ?_⟩
      rw [hb]
      exact h.divides
    refine List.rel_append ?_ (List.Forall₂.cons ⟨rfl, ?_⟩ (by simp [clean]))
    · refine List.forall₂_iff_get.2 ⟨hlim.length_eq, fun i h1 h2 => ?_⟩
      have := (List.forall₂_iff_get.1 hlim).2 i h1 h2
      refine ⟨this.1, this.2.imp (hst _ (Or.inl ?_))⟩
      rw [← this.1]
      exact List.mem_map.2 ⟨_, List.get_mem _ _, rfl⟩
    · simpa using hl.imp (hst _ (Or.inr rfl))

theorem convertLoop_ok {oaSizes : Dict OA Nat} {sizes : Dict Dim Nat} {user : SM OA Dim} (hg : Good oaSizes sizes user) :
    ∀ (rest done lim limI : SM OA Dim), user = done ++ rest → Converted true sizes user done lim lim → Converted false sizes user done limI limI →
      ∃ lim' limI', convertLoop oaSizes sizes user rest lim limI = .ok (lim', limI') ∧ Converted true sizes user user lim' lim' ∧
        Converted false sizes user user limI' limI' := by
  intro rest
  induction rest with
  | nil =>
    intro done lim limI hu h1 h2
    rw [List.append_nil] at hu
    subst hu
    exact ⟨lim, limI, rfl, h1, h2⟩
  | cons e t ih =>
    intro done lim limI hu h1 h2
    obtain ⟨l, lI, c1, c2, c3⟩ := convertOa_ok hg hu h1 h2 e.2 (fun _ h => h)
    obtain ⟨lim', limI', k1, k2⟩ := ih (done ++ [e]) (addOa lim e.1 l) (addOa limI e.1 lI) (by simpa using hu) (addOa_eq hu hg.wf h1 c2) (addOa_eq hu hg.wf h2 c3)
    refine ⟨lim', limI', ?_, k2⟩
    unfold convertLoop
    rw [c1]
    exact k1

end Verif.Conversion
