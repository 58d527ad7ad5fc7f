import Verif.Float.Lemmas
import Mathlib.Tactic.Positivity
import Mathlib.Tactic.NormNum

/-! Quotients of integers below 2^53 are not rounded across an integer. -/
namespace Verif.Float

theorem exists_float_le {q : ℚ} (hq : 0 < q) : ∃ y, IsFloat y ∧ 0 < y ∧ y ≤ q :=
  ⟨2 ^ Int.log 2 q, ⟨1, Int.log 2 q, by norm_num, by simp⟩, zpow_pos (by norm_num) _, by
    have := Int.zpow_log_le_self (b := 2) (r := q) (by norm_num) hq
    exact_mod_cast this⟩

theorem zpow_sub_nat (e k : ℕ) : (2 : ℚ) ^ ((e : ℤ) - k) = 2 ^ e / 2 ^ k := by
  rw [zpow_sub₀ (by norm_num), zpow_natCast, zpow_natCast]

/-- Not rounded down to an integer. -/
theorem above_int {a b m : ℕ} (hb : 0 < b) (ha : a < 2 ^ 53) (h : m * b < a) {x : ℚ} (hx : Nearest ((a : ℚ) / b) x) : (m : ℚ) < x := by
  have hb' : (0 : ℚ) < b := by exact_mod_cast hb
  have hq : (m : ℚ) + 1 / b ≤ (a : ℚ) / b := by
    rw [le_div_iff₀ hb', add_mul, one_div, inv_mul_cancel₀ hb'.ne']
    exact_mod_cast h
  rcases Nat.eq_zero_or_pos m with rfl | hm
  · have h0 : (0 : ℚ) < (a : ℚ) / b := by
      have : (0 : ℚ) < 1 / b := by positivity
      push_cast at hq; linarith
    obtain ⟨y, hy, y0, hle⟩ := exists_float_le h0
    have := le_nearest hx hy hle
    push_cast; linarith
  · obtain ⟨e, h1, h2⟩ := exists_pow hm
    have heb : 2 ^ e * b < 2 ^ 53 := lt_of_le_of_lt (Nat.mul_le_mul_right _ h1) (by omega)
    have he : e ≤ 52 := by
      by_contra hh
      have : 2 ^ 53 ≤ 2 ^ e := Nat.pow_le_pow_right (by norm_num) (by omega)
      have : 2 ^ e * 1 ≤ 2 ^ e * b := Nat.mul_le_mul_left _ hb
      omega
    have hy := isFloat_succ h1 h2 he
    rw [show (52 : ℤ) = (52 : ℕ) by rfl, zpow_sub_nat] at hy
    set u : ℚ := 2 ^ e / 2 ^ 52 with hu
    have hu0 : 0 < u := by positivity
    have hub : u * b < 2 := by
      rw [hu, div_mul_eq_mul_div, div_lt_iff₀ (by positivity)]
      have : ((2 ^ e * b : ℕ) : ℚ) < ((2 ^ 53 : ℕ) : ℚ) := by exact_mod_cast heb
      push_cast at this
      linarith
    have hum : u < 2 * (1 / b) := by
      rw [← mul_div_assoc, mul_one, lt_div_iff₀ hb']; exact hub
    have hmf : IsFloat (m : ℚ) := by
      have : m ≤ 2 ^ 53 := by nlinarith
      have := isFloat_int (n := (m : ℤ)) (by rw [abs_of_nonneg (by positivity)]; exact_mod_cast this)
      exact_mod_cast this
    have hle := le_nearest hx hmf (le_trans (by linarith [show (0:ℚ) < 1 / b by positivity]) hq)
    refine lt_of_le_of_ne hle ?_
    rintro rfl
    have := hx.2 _ hy
    rw [abs_of_nonneg (by linarith [show (0:ℚ) < 1 / b by positivity])] at this
    rcases le_total ((m : ℚ) + u) ((a : ℚ) / b) with hc | hc
    · rw [abs_of_nonneg (by linarith)] at this; linarith
    · rw [abs_of_nonpos (by linarith)] at this; linarith

/-- Not rounded up to an integer. -/
theorem below_int {a b m : ℕ} (hb : 0 < b) (ha : a < 2 ^ 53) (hm : m * b ≤ a) (h : a < (m + 1) * b) {x : ℚ}
    (hx : Nearest ((a : ℚ) / b) x) : x < (m : ℚ) + 1 := by
  have hb' : (0 : ℚ) < b := by exact_mod_cast hb
  have hib : (0 : ℚ) < 1 / b := by positivity
  have hmle : m ≤ a := le_trans (Nat.le_mul_of_pos_right m hb) hm
  have hq : (a : ℚ) / b + 1 / b ≤ (m : ℚ) + 1 := by
    rw [← add_div, div_le_iff₀ hb']
    exact_mod_cast h
  have hMf : IsFloat ((m : ℚ) + 1) := by
    have := isFloat_int (n := (m : ℤ) + 1) (by rw [abs_of_nonneg (by positivity)]; omega)
    exact_mod_cast this
  have hle := nearest_le hx hMf (by linarith)
  refine lt_of_le_of_ne hle ?_
  rintro rfl
  have key : ∀ u : ℚ, 0 < u → IsFloat ((m : ℚ) + 1 - u) → 2 * ((m : ℚ) + 1 - a / b) ≤ u := by
    intro u hu hf
    have := hx.2 _ hf
    rw [abs_of_nonpos (by linarith)] at this
    rcases le_total ((m : ℚ) + 1 - u) ((a : ℚ) / b) with hc | hc
    · rw [abs_of_nonneg (by linarith)] at this; linarith
    · rw [abs_of_nonpos (by linarith)] at this; linarith
  obtain ⟨e, h1, h2⟩ := exists_pow (Nat.succ_pos m)
  rcases Nat.lt_or_ge (2 ^ e) (m + 1) with hlt | hge
  · -- no power of two
    have hem : 2 ^ e ≤ m := by omega
    have heb : 2 ^ e * b ≤ a := le_trans (Nat.mul_le_mul_right _ hem) hm
    have he : e ≤ 52 := by
      by_contra hh
      have : 2 ^ 53 ≤ 2 ^ e := Nat.pow_le_pow_right (by norm_num) (by omega)
      omega
    have hy := isFloat_pred h1 h2 he
    rw [show (52 : ℤ) = (52 : ℕ) by rfl, zpow_sub_nat] at hy
    push_cast at hy
    have := key _ (by positivity) hy
    have h3 : 2 * (1 / (b : ℚ)) ≤ 2 ^ e / 2 ^ 52 := by linarith
    rw [mul_one_div, div_le_div_iff₀ hb' (by positivity)] at h3
    have h4 : ((2 ^ e * b : ℕ) : ℚ) ≤ (a : ℕ) := by exact_mod_cast heb
    have h5 : (a : ℚ) < 9007199254740992 := by exact_mod_cast ha
    push_cast at h4
    norm_num at h3
    linarith
  · have hM : m + 1 = 2 ^ e := le_antisymm hge h1
    have hM' : (m : ℚ) + 1 = 2 ^ e := by exact_mod_cast hM
    have hy := isFloat_pred_pow e
    rw [show (53 : ℤ) = (53 : ℕ) by rfl, zpow_sub_nat, ← hM'] at hy
    have := key _ (by positivity) hy
    have h5 : (a : ℚ) < 9007199254740992 := by exact_mod_cast ha
    rcases Nat.eq_zero_or_pos m with rfl | hm0
    · have hab : (a : ℚ) + 1 ≤ b := by
        have : a < b := by simpa using h
        exact_mod_cast this
      push_cast at this
      have h6 : 2 * ((b : ℚ) - a) ≤ b * (1 / 2 ^ 53) := by
        have h7 := mul_le_mul_of_nonneg_right this hb'.le
        rw [mul_assoc, sub_mul, div_mul_cancel₀ _ hb'.ne'] at h7
        norm_num at h7 ⊢
        linarith
      norm_num at h6
      linarith
    · have h3 : 2 * (1 / (b : ℚ)) ≤ (m + 1) / 2 ^ 53 := by linarith
      rw [mul_one_div, div_le_div_iff₀ hb' (by positivity)] at h3
      have h4 : (m + 1) * b ≤ 2 * a := by
        have : 1 * b ≤ m * b := Nat.mul_le_mul_right _ hm0
        linarith
      have h4' : ((m : ℚ) + 1) * b ≤ 2 * a := by exact_mod_cast h4
      norm_num at h3
      linarith

/-- The error of rounding. -/
theorem fl_error {q : ℚ} (hq : 0 ≤ q) : |q - fl q| ≤ q / 2 ^ 53 := by
  rcases hq.eq_or_lt with rfl | hq
  · simp [fl_zero]
  unfold fl
  rw [if_neg hq.ne', abs_of_pos hq]
  have l1 := Int.zpow_log_le_self (b := 2) (r := q) (by norm_num) hq
  generalize Int.log 2 q = L at l1 ⊢
  push_cast at l1
  have e52 : (2 : ℚ) ^ L = 2 ^ 52 * 2 ^ (L - 52) := by
    rw [← zpow_natCast, ← zpow_add₀ (by norm_num)]; congr 1; push_cast; ring
  rw [e52] at l1
  have hE : (0 : ℚ) < 2 ^ (L - 52) := zpow_pos (by norm_num) _
  generalize (2 : ℚ) ^ (L - 52) = E at hE l1 ⊢
  have hr : |q / E - roundEven (q / E)| ≤ 1 / 2 := by
    rcases roundEven_cases (q / E) with ⟨e, h⟩ | ⟨e, h⟩
    · rw [e, abs_of_nonneg (sub_nonneg.mpr (Int.floor_le _))]; exact h
    · have := Int.lt_floor_add_one (q / E)
      rw [e]; push_cast
      rw [abs_of_nonpos (by linarith)]; linarith
  have h1 : |q - roundEven (q / E) * E| = |q / E - roundEven (q / E)| * E := by
    rw [← abs_of_pos hE, ← abs_mul, abs_of_pos hE, sub_mul, div_mul_cancel₀ _ hE.ne']
  rw [h1, le_div_iff₀ (by positivity)]
  have := mul_le_mul_of_nonneg_right hr hE.le
  norm_num at l1 ⊢
  linarith

theorem fl_nonneg {q : ℚ} (hq : 0 ≤ q) : 0 ≤ fl q := by
  rcases hq.eq_or_lt with rfl | hq
  · rw [fl_zero]
  · exact le_nearest (fl_nearest hq) isFloat_zero hq.le

theorem divI_nat (a b : ℕ) : divI a b = fl ((a : ℚ) / b) := by simp [divI]

theorem divI_nearest {a b : ℕ} (ha : 0 < a) (hb : 0 < b) : Nearest ((a : ℚ) / b) (divI a b) := by
  rw [divI_nat]; exact fl_nearest (by positivity)

end Verif.Float
