import Verif.Conversion.Props

/-! C148: a spatial mapping whose unrollings divide the dimensions of the layer is left as it is. -/

namespace Verif.Conversion

open SpatialMapping

variable {OA Dim : Type} [DecidableEq OA] [DecidableEq Dim]

/-- The unrollings of every dimension over the whole array divide its size. -/
def Divides (sizes : Dict Dim Nat) (user : SM OA Dim) : Prop :=
  ∀ d L, sizes.get? d = some L → ∃ k : ℕ, (user.map fun e => factor e.2 d).prod * k = L

theorem factor_known {sizes : Dict Dim Nat} {d : Dim} (hd : d ∈ sizes.keys) (l : Dict Dim ℚ) : factor (known sizes l) d = factor l d := by
  induction l with
  | nil => rfl
  | cons x t ih =>
    by_cases hk : x.1 ∈ sizes.keys
    · have : known sizes (x :: t) = x :: known sizes t := by unfold known; rw [List.filter_cons_of_pos (by simpa using hk)]
      rw [this, factor_cons, factor_cons, ih]
    · have : known sizes (x :: t) = known sizes t := by unfold known; rw [List.filter_cons_of_neg (by simpa using hk)]
      rw [this, factor_cons, if_neg (by rintro rfl; exact hk hd), ih]

theorem prod_clean {sizes : Dict Dim Nat} {d : Dim} (hd : d ∈ sizes.keys) (m : SM OA Dim) :
    ((clean sizes m).map fun e => factor e.2 d).prod = (m.map fun e => factor e.2 d).prod := by
  induction m with
  | nil => rfl
  | cons e t ih =>
    rw [clean_cons, List.map_cons, List.prod_cons, ← factor_known hd e.2]
    split_ifs with h
    · rw [h, ih]
      simp [factor, Dict.get?]
    · rw [List.map_cons, List.prod_cons, ih]

theorem factor_nat {l : Dict Dim ℚ} (h : ∀ x ∈ l, ∃ n : ℕ, 1 ≤ n ∧ x.2 = n) (d : Dim) : ∃ n : ℕ, 1 ≤ n ∧ factor l d = n := by
  unfold factor
  cases hg : l.get? d with
  | none => exact ⟨1, le_rfl, by simp⟩
  | some v => exact h (d, v) (Dict.mem_of_get? hg)

theorem prod_nat {m : SM OA Dim} (h : ∀ e ∈ m, ∀ x ∈ e.2, ∃ n : ℕ, 1 ≤ n ∧ x.2 = n) (d : Dim) : ∃ n : ℕ, 1 ≤ n ∧ (m.map fun e => factor e.2 d).prod = n := by
  induction m with
  | nil => exact ⟨1, le_rfl, by simp⟩
  | cons e t ih =>
    obtain ⟨a, ha, h1⟩ := factor_nat (h e List.mem_cons_self) d
    obtain ⟨b, hb, h2⟩ := ih fun e' he' => h e' (List.mem_cons_of_mem _ he')
    exact ⟨a * b, Nat.mul_pos ha hb, by rw [List.map_cons, List.prod_cons, h1, h2]; push_cast; rfl⟩

theorem exact_step {x B q t : ℕ} {y : ℚ} {dec : Bool} (hx : 1 ≤ x) (hB : 1 ≤ B) (ht : 1 ≤ t) (hy : y ≤ x) (hyn : dec = false → ∃ n : ℕ, y = n)
    (h1 : ((t : ℚ) - 1) * (x * B) < (x * B * q : ℕ))
    (h2 : if dec then y * B * t = (x * B * q : ℕ) else y * B * t ≤ (x * B * q : ℕ) ∧ ((x * B * q : ℕ) : ℚ) < (y + 1) * B * t) : y = x := by
  have hxq : (0 : ℚ) < x := by exact_mod_cast hx
  have hBq : (0 : ℚ) < B := by exact_mod_cast hB
  have htq : (0 : ℚ) < t := by exact_mod_cast ht
  push_cast at h1 h2
  have h3 : (t : ℚ) - 1 < q := by
    have : ((t : ℚ) - 1) * (x * B) < q * (x * B) := by linarith
    exact lt_of_mul_lt_mul_right this (by positivity)
  have h4 : t ≤ q := by
    have : (t : ℚ) < q + 1 := by linarith
    have : t < q + 1 := by exact_mod_cast this
    omega
  have h4q : (t : ℚ) ≤ q := by exact_mod_cast h4
  refine le_antisymm hy ?_
  cases dec with
  | true =>
    rw [if_pos rfl] at h2
    have : (x : ℚ) * (B * t) ≤ y * (B * t) := by nlinarith [mul_pos hxq hBq]
    exact le_of_mul_le_mul_right this (by positivity)
  | false =>
    obtain ⟨n, rfl⟩ := hyn rfl
    simp only [Bool.false_eq_true, if_false] at h2
    have : (x : ℚ) * (B * t) < (n + 1) * (B * t) := by nlinarith [mul_pos hxq hBq]
    have := lt_of_mul_lt_mul_right this (by positivity)
    have : x < n + 1 := by exact_mod_cast this
    exact_mod_cast (by omega : x ≤ n)

theorem kept_exact {dec : Bool} {oaSizes : Dict OA Nat} {sizes : Dict Dim Nat} {user lim : SM OA Dim} (hg : Good oaSizes sizes user) (hd : Divides sizes user)
    (h : Converted dec sizes user user lim lim) : lim = clean sizes user := by
  have hin : ∀ e ∈ clean sizes user, Dict.WF e.2 ∧ ∀ x ∈ e.2, x.1 ∈ sizes.keys ∧ ∃ n : ℕ, 1 ≤ n ∧ x.2 = n := by
    intro e he
    obtain ⟨e0, h3, rfl⟩ := List.mem_map.1 (List.mem_filter.1 he).1
    refine ⟨known_wf (hg.wf.2 _ h3), fun x hx => ?_⟩
    obtain ⟨g1, g2⟩ := List.mem_filter.1 hx
    exact ⟨by simpa using g2, hg.whole _ h3 x g1⟩
  have hkeys : Dict.WF (clean sizes user) := by
    unfold Dict.WF Dict.keys clean
    refine ((List.filter_sublist.map Prod.fst).nodup ?_)
    rw [List.map_map]
    exact hg.wf.1
  have key : ∀ (rest rest' done : SM OA Dim), clean sizes user = done ++ rest → lim = done ++ rest' →
      List.Forall₂ (fun e e' => e'.1 = e.1 ∧ List.Forall₂ (Step dec sizes user lim e.1) e.2 e'.2) rest rest' → rest' = rest := by
    intro rest
    induction rest with
    | nil => intro rest' done _ _ h; cases h; rfl
    | cons e rest ih =>
      intro rest' done h1 h2 h3
      cases h3 with
      | cons hee hrest =>
        rename_i e' rest''
        obtain ⟨k1, k2⟩ := hee
        have he : e ∈ clean sizes user := by rw [h1]; simp
        obtain ⟨w, hx⟩ := hin e he
        have hnot : e.1 ∉ Dict.keys done := by
          intro hc
          unfold Dict.WF Dict.keys at hkeys
          rw [h1, List.map_append] at hkeys
          exact (List.nodup_append.1 hkeys).2.2 _ hc _ (by simp) rfl
        have hbp : ∀ d, beforeProd lim e.1 d = (done.map fun e => factor e.2 d).prod := by
          intro d
          rw [h2]
          unfold beforeProd
          congr 2
          rw [List.takeWhile_append_of_pos]
          · rw [List.takeWhile_cons_of_neg (by simp [k1]), List.append_nil]
          · intro a ha
            simp only [decide_eq_true_eq, ne_eq]
            intro hc
            exact hnot (List.mem_map.2 ⟨a, ha, hc.symm⟩)
        have hstep : ∀ x y, x ∈ e.2 → Step dec sizes user lim e.1 x y → y = x := by
          intro x y hxe S
          refine Prod.ext S.dim ?_
          obtain ⟨hxk, n, hn, hxn⟩ := hx x hxe
          by_cases hfm : IsFirstMax user e.1 x.1
          · obtain ⟨L, hL⟩ : ∃ L, sizes.get? x.1 = some L := by
              cases hg : sizes.get? x.1 with
              | none => exact absurd hxk ((Dict.get?_eq_none_iff _ _).1 hg)
              | some L => exact ⟨L, rfl⟩
            obtain ⟨t, ht, d1, d2⟩ := S.divides hfm L hL
            obtain ⟨k, hk⟩ := hd x.1 L hL
            obtain ⟨B, hB, hB2⟩ := prod_nat (m := done) (fun e he x hx => ((hin e (by rw [h1]; simp [he])).2 x hx).2) x.1
            obtain ⟨A, hA, hA2⟩ := prod_nat (m := rest) (fun e he x hx => ((hin e (by rw [h1]; simp [he])).2 x hx).2) x.1
            have hf : factor e.2 x.1 = x.2 := by
              unfold factor
              rw [Dict.get?_of_mem w (v := x.2) (by exact hxe)]
              rfl
            rw [← prod_clean hxk, h1, List.map_append, List.prod_append, List.map_cons, List.prod_cons, hf, hB2, hA2, hxn] at hk
            have hLe : L = n * B * (A * k) := by
              have : (L : ℚ) = ((n * B * (A * k) : ℕ) : ℚ) := by rw [← hk]; push_cast; ring
              exact_mod_cast this
            rw [hbp, hB2, hLe, hxn] at d1
            rw [hbp, hB2, hLe] at d2
            rw [hxn]
            exact exact_step hn hB ht (by rw [← hxn]; exact S.le) (fun hdec => S.whole hdec) d1 d2
          · exact S.keep hfm
        have hl : ∀ (l l' : List (Dim × ℚ)), (∀ x ∈ l, x ∈ e.2) → List.Forall₂ (Step dec sizes user lim e.1) l l' → l' = l := by
          intro l l' hl h
          induction h with
          | nil => rfl
          | cons hxy _ ih =>
            rw [hstep _ _ (hl _ List.mem_cons_self) hxy, ih fun x hx => hl x (List.mem_cons_of_mem _ hx)]
        have hee : e' = e := Prod.ext k1 (hl _ _ (fun x hx => hx) k2)
        rw [hee]
        congr 1
        exact ih rest'' (done ++ [e]) (by simp [h1]) (by rw [h2, hee]; simp) hrest
  exact key _ lim [] rfl rfl h

/-- C148: if the unrollings of every dimension over the whole array divide its size, the conversion only removes unknown dimensions, for the exact and for the
whole version. -/
theorem convert_kept {oaSizes : Dict OA Nat} {sizes : Dict Dim Nat} {user : SM OA Dim} (hg : Good oaSizes sizes user) (hd : Divides sizes user) :
    convert oaSizes sizes user = .ok (clean sizes user, clean sizes user) := by
  obtain ⟨lim, limI, h1, h2, h3⟩ := convert_exact hg
  rw [h1, kept_exact hg hd h2, kept_exact hg hd h3]

end Verif.Conversion
