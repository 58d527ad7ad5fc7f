import Verif.Conversion.Model
import Verif.SpatialGen.Generate

/-! Helper lemmas for the conversion. -/

namespace Verif.Conversion

open Verif.SpatialMapping Verif.SpatialGen

variable {OA Dim : Type} [DecidableEq OA] [DecidableEq Dim]

/-- Product of the unrollings of `d` on the array dimensions before `oa`. -/
def beforeProd (m : SM OA Dim) (oa : OA) (d : Dim) : ℚ := ((m.takeWhile (fun e => decide (oa ≠ e.1))).map (fun e => factor e.2 d)).prod

theorem early_eq (oa : OA) (d : Dim) (m : SM OA Dim) : early oa d m = beforeProd m oa d := by
  induction m with
  | nil => simp [early, beforeProd]
  | cons e t ih =>
    unfold early
    split_ifs with h
    · unfold beforeProd
      rw [List.takeWhile_cons_of_neg (by simpa using h)]
      simp
    · unfold beforeProd at ih ⊢
      rw [List.takeWhile_cons_of_pos (by simpa using h), List.map_cons, List.prod_cons, ih]
      rfl

theorem beforeProd_all {m : SM OA Dim} {oa : OA} (h : oa ∉ m.keys) (d : Dim) : beforeProd m oa d = (m.map (fun e => factor e.2 d)).prod := by
  unfold beforeProd
  congr 2
  induction m with
  | nil => rfl
  | cons e t ih =>
    have hc : ¬ oa = e.1 := fun hc => h (by simp [Dict.keys, hc])
    rw [List.takeWhile_cons_of_pos (by simpa using hc), ih (fun hc' => h (by rw [Dict.keys] at hc' ⊢; exact List.mem_cons_of_mem _ hc'))]

theorem beforeProd_append {m m' : SM OA Dim} {oa : OA} (h : oa ∈ m.keys) (d : Dim) : beforeProd (m ++ m') oa d = beforeProd m oa d := by
  unfold beforeProd
  congr 2
  induction m with
  | nil => simp [Dict.keys] at h
  | cons e t ih =>
    by_cases hc : oa = e.1
    · rw [List.cons_append, List.takeWhile_cons_of_neg (by simpa using hc), List.takeWhile_cons_of_neg (by simpa using hc)]
    · rw [List.cons_append, List.takeWhile_cons_of_pos (by simpa using hc), List.takeWhile_cons_of_pos (by simpa using hc), ih (by simpa [Dict.keys, hc] using h)]

/-- The adjusted unrolling divides the layer dimension exactly, together with the earlier unrollings and a whole temporal remainder. -/
theorem adjusted_arith {L u e : ℚ} (he : 1 ≤ e) (hu : 1 ≤ u) (hL : u * e ≤ L) (h2 : u = 1 ∨ 2 ≤ u) (h1 : u = 1 → e = 1) (hw : u = 1 → ∃ n : ℤ, L = n) :
    1 ≤ ⌈L / (u * e)⌉ ∧ L / ⌈L / (u * e)⌉ / e * e * ⌈L / (u * e)⌉ = L ∧ 1 ≤ L / ⌈L / (u * e)⌉ / e ∧ L / ⌈L / (u * e)⌉ / e ≤ u ∧
      ((⌈L / (u * e)⌉ : ℚ) - 1) * (u * e) < L := by
  have hue : 0 < u * e := by positivity
  have hue1 : 1 ≤ u * e := by nlinarith
  have hLpos : 0 < L := by linarith
  set t : ℤ := ⌈L / (u * e)⌉ with ht
  have hq : 1 ≤ L / (u * e) := (one_le_div hue).2 hL
  have htl : L / (u * e) ≤ t := Int.le_ceil _
  have htu : (t : ℚ) < L / (u * e) + 1 := Int.ceil_lt_add_one _
  have ht1 : 1 ≤ t := by
    have : (1 : ℚ) ≤ t := le_trans hq htl
    exact_mod_cast this
  have htq : (0 : ℚ) < t := by exact_mod_cast lt_of_lt_of_le one_pos ht1
  have hLe : L ≤ t * (u * e) := (div_le_iff₀ hue).1 htl
  have hlt : ((t : ℚ) - 1) * (u * e) < L := by
    have : (t : ℚ) - 1 < L / (u * e) := by linarith
    exact (lt_div_iff₀ hue).1 this
  refine ⟨ht1, by field_simp, ?_, ?_, hlt⟩
  · rw [le_div_iff₀ (by linarith), le_div_iff₀ htq]
    rcases h2 with h2 | h2
    · have e1 := h1 h2
      obtain ⟨n, hn⟩ := hw h2
      have : t = n := by rw [ht, h2, e1, hn]; simp
      rw [e1, this, hn]; linarith
    · have h3 : (t : ℚ) * (u * e) < 2 * L := by nlinarith
      nlinarith [mul_pos htq (lt_of_lt_of_le one_pos he)]
  · rw [div_le_iff₀ (by linarith), div_le_iff₀ htq]
    linarith [hLe]

/-! ### the first largest unrolling -/

theorem pyMax_spec : ∀ (l : List ℚ) (mx : ℚ), pyMax l = .ok mx → mx ∈ l ∧ ∀ x ∈ l, x ≤ mx := by
  intro l mx h
  cases l with
  | nil => cases h
  | cons a t =>
    unfold pyMax at h
    cases h
    have : ∀ (t : List ℚ) (a : ℚ), (t.foldl (fun a b => if b > a then b else a) a = a ∨ t.foldl (fun a b => if b > a then b else a) a ∈ t) ∧
        a ≤ t.foldl (fun a b => if b > a then b else a) a ∧ ∀ x ∈ t, x ≤ t.foldl (fun a b => if b > a then b else a) a := by
      intro t
      induction t with
      | nil => intro a; simp
      | cons b t ih =>
        intro a
        rw [List.foldl_cons]
        obtain ⟨i1, i2, i3⟩ := ih (if b > a then b else a)
        set r := t.foldl (fun a b => if b > a then b else a) (if b > a then b else a) with hr
        have hab : a ≤ (if b > a then b else a) ∧ b ≤ (if b > a then b else a) := by
          split_ifs with hc
          · exact ⟨le_of_lt hc, le_refl _⟩
          · exact ⟨le_refl _, not_lt.1 hc⟩
        refine ⟨?_, le_trans hab.1 i2, ?_⟩
        · rcases i1 with i1 | i1
          · rw [i1]
            split_ifs
            · right; simp
            · left; rfl
          · right; simp [i1]
        · intro x hx
          rcases List.mem_cons.1 hx with rfl | hx
          · exact le_trans hab.2 i2
          · exact i3 x hx
    obtain ⟨i1, i2, i3⟩ := this t a
    refine ⟨?_, ?_⟩
    · rcases i1 with i1 | i1
      · rw [i1]; simp
      · simp [i1]
    · intro x hx
      rcases List.mem_cons.1 hx with rfl | hx
      · exact i2
      · exact i3 x hx

/-- Specification: `oa` is the first array dimension among those with the largest unrolling of `d`. -/
def IsFirstMax (user : SM OA Dim) (oa : OA) (d : Dim) : Prop :=
  ∃ pre e post u, user = pre ++ e :: post ∧ e.1 = oa ∧ e.2.get? d = some u ∧
    (∀ e' ∈ pre, ∀ v, e'.2.get? d = some v → v < u) ∧ (∀ e' ∈ post, ∀ v, e'.2.get? d = some v → v ≤ u)

theorem firstMax_spec {user : SM OA Dim} (hw : user.WF) {d : Dim} {e0 : OA × Dict Dim ℚ} (he0 : e0 ∈ user) {u0 : ℚ} (hu0 : e0.2.get? d = some u0) (hpos : 0 < u0) (oa : OA) :
    ∃ b, firstMax user oa d = .ok b ∧ (b = true ↔ IsFirstMax user oa d) := by
  unfold firstMax
  cases hp : pyMax (user.map (fun e => (e.2.get? d).getD 0)) with
  | error x =>
    exfalso
    unfold pyMax at hp
    cases hu : user with
    | nil => rw [hu] at he0; simp at he0
    | cons a b => rw [hu] at hp; cases hp
  | ok mx =>
    obtain ⟨hmem, hall⟩ := pyMax_spec _ _ hp
    have hmx : 0 < mx := by
      have := hall u0 (List.mem_map.2 ⟨e0, he0, by rw [hu0]; rfl⟩)
      linarith
    simp only
    rw [if_pos hmx]
    have hget : ∀ e ∈ user, ∀ v, e.2.get? d = some v → v ≤ mx := by
      intro e he v hv
      exact hall v (List.mem_map.2 ⟨e, he, by rw [hv]; rfl⟩)
    have hex : ∃ e ∈ user, e.2.get? d = some mx := by
      obtain ⟨e, he, hem⟩ := List.mem_map.1 hmem
      refine ⟨e, he, ?_⟩
      cases hg : e.2.get? d with
      | none => rw [hg] at hem; simp at hem; linarith
      | some v => rw [hg] at hem; simp at hem; rw [hem]
    cases hf : user.find? (fun e => decide (e.2.get? d = some mx)) with
    | none =>
      obtain ⟨e, he, hem⟩ := hex
      have := List.find?_eq_none.1 hf e he
      simp [hem] at this
    | some e =>
      obtain ⟨hpe, pre, post, hsplit, hpre⟩ := List.find?_eq_some_iff_append.1 hf
      have hpe : e.2.get? d = some mx := by simpa using hpe
      refine ⟨_, rfl, ?_⟩
      rw [decide_eq_true_eq]
      have hfm : IsFirstMax user e.1 d := by
        refine ⟨pre, e, post, mx, hsplit, rfl, hpe, ?_, ?_⟩
        · intro e' he' v hv
          have h1 := hget e' (by rw [hsplit]; simp [he']) v hv
          have h2 := hpre e' he'
          simp only [Bool.not_eq_true', decide_eq_false_iff_not] at h2
          exact lt_of_le_of_ne h1 (fun hc => h2 (by rw [hv, hc]))
        · intro e' he' v hv
          exact hget e' (by rw [hsplit]; simp [he']) v hv
      constructor
      · rintro rfl; exact hfm
      · rintro ⟨pre', e', post', u, hs', rfl, hu, h1, h2⟩
        -- both are the first maximum
        have he'mem : e' ∈ pre ++ e :: post := by rw [← hsplit, hs']; simp
        have hemem : e ∈ pre' ++ e' :: post' := by rw [← hs', hsplit]; simp
        have hle : u ≤ mx := hget e' (by rw [hs']; simp) u hu
        have hge : mx ≤ u := by
          rcases List.mem_append.1 hemem with h | h
          · exact le_of_lt (h1 e h mx hpe)
          · rcases List.mem_cons.1 h with rfl | h
            · rw [hpe] at hu; cases hu; exact le_refl _
            · exact h2 e h mx hpe
        have hum : u = mx := le_antisymm hle hge
        rcases List.mem_append.1 he'mem with h | h
        · exfalso
          have := hpre e' h
          simp [hu, hum] at this
        · rcases List.mem_cons.1 h with rfl | h
          · rfl
          · exfalso
            -- e' after e in user, but e must not be before e'
            rcases List.mem_append.1 hemem with h' | h'
            · exact absurd (h1 e h' mx hpe) (by linarith)
            · rcases List.mem_cons.1 h' with rfl | h'
              · have hnd : (pre ++ e :: post).Nodup := by
                  have := hw
                  unfold Dict.WF Dict.keys at this
                  rw [hsplit] at this
                  exact List.Nodup.of_map _ this
                have := (List.nodup_cons.1 (List.nodup_append.1 hnd).2.1).1
                exact this h
              · -- e ∈ post' and e' ∈ post : positions contradict
                have hnd : user.Nodup := by
                  have := hw
                  unfold Dict.WF Dict.keys at this
                  exact List.Nodup.of_map _ this
                obtain ⟨p1, q1, hq1⟩ := List.append_of_mem h
                obtain ⟨p2, q2, hq2⟩ := List.append_of_mem h'
                have s1 : [e, e'].Sublist user := by
                  rw [hsplit, hq1]
                  refine List.Sublist.trans ?_ (List.sublist_append_right pre _)
                  exact List.Sublist.cons_cons e (List.Sublist.trans (List.Sublist.cons_cons e' (List.nil_sublist q1)) (List.sublist_append_right p1 _))
                have s2 : [e', e].Sublist user := by
                  rw [hs', hq2]
                  refine List.Sublist.trans ?_ (List.sublist_append_right pre' _)
                  exact List.Sublist.cons_cons e' (List.Sublist.trans (List.Sublist.cons_cons e (List.nil_sublist q2)) (List.sublist_append_right p2 _))
                have hne : e ≠ e' := by
                  rintro rfl
                  have := hnd.sublist s1
                  simp at this
                clear * - hnd s1 s2 hne
                generalize user = l at *
                induction l with
                | nil => cases s1
                | cons a t ih =>
                  obtain ⟨ha, ht⟩ := List.nodup_cons.1 hnd
                  cases s1 with
                  | cons _ s1 =>
                    cases s2 with
                    | cons _ s2 => exact ih ht s1 s2
                    | cons_cons _ s2 => exact ha (s1.subset (by simp))
                  | cons_cons _ s1 =>
                    cases s2 with
                    | cons _ s2 => exact ha (s2.subset (by simp))
                    | cons_cons _ s2 => exact hne rfl

end Verif.Conversion
