import Verif.Float.Model
import Mathlib.Tactic.FieldSimp
import Mathlib.Tactic.Linarith
import Mathlib.Tactic.Ring
import Mathlib.Algebra.Order.Floor.Ring

/-! Binary64 numbers with unbounded exponent, and correct rounding. -/
namespace Verif.Float

/-! ### Specification -/

/-- A number with at most 53 binary digits. -/
def IsFloat (x : ℚ) : Prop := ∃ m e : ℤ, |m| < 2 ^ 53 ∧ x = m * 2 ^ e

/-- A nearest such number. -/
def Nearest (q x : ℚ) : Prop := IsFloat x ∧ ∀ y, IsFloat y → |q - x| ≤ |q - y|

/-! ### Lemmas -/

theorem isFloat_int {n : ℤ} (h : |n| ≤ 2 ^ 53) : IsFloat n := by
  rcases lt_or_eq_of_le h with h | h
  · exact ⟨n, 0, h, by simp⟩
  · rcases abs_eq (by norm_num : (0 : ℤ) ≤ 2 ^ 53) |>.mp h with rfl | rfl
    · exact ⟨1, 53, by norm_num, by norm_num⟩
    · exact ⟨-1, 53, by norm_num, by norm_num⟩

theorem isFloat_zero : IsFloat 0 := ⟨0, 0, by norm_num, by simp⟩

theorem isFloat_mul_pow {x : ℚ} (h : IsFloat x) (k : ℤ) : IsFloat (x * 2 ^ k) := by
  obtain ⟨m, e, hm, rfl⟩ := h
  exact ⟨m, e + k, hm, by rw [zpow_add₀ (by norm_num)]; ring⟩

theorem roundEven_cases (q : ℚ) : (roundEven q = ⌊q⌋ ∧ q - ⌊q⌋ ≤ 1 / 2) ∨ (roundEven q = ⌊q⌋ + 1 ∧ 1 / 2 ≤ q - ⌊q⌋) := by
  unfold roundEven
  by_cases h1 : q - ⌊q⌋ < 1 / 2
  · rw [if_pos h1]; exact Or.inl ⟨rfl, h1.le⟩
  · rw [if_neg h1]
    by_cases h2 : 1 / 2 < q - ⌊q⌋
    · rw [if_pos h2]; exact Or.inr ⟨rfl, h2.le⟩
    · rw [if_neg h2]
      have : q - ⌊q⌋ = 1 / 2 := le_antisymm (not_lt.mp h2) (not_lt.mp h1)
      by_cases h3 : ⌊q⌋ % 2 = 0
      · rw [if_pos h3]; exact Or.inl ⟨rfl, this.le⟩
      · rw [if_neg h3]; exact Or.inr ⟨rfl, this.ge⟩

theorem roundEven_nearest (q : ℚ) (n : ℤ) : |q - roundEven q| ≤ |q - n| := by
  have f1 := Int.floor_le q
  have f2 := Int.lt_floor_add_one q
  rcases roundEven_cases q with ⟨h, h'⟩ | ⟨h, h'⟩
  · rw [h, abs_of_nonneg (by linarith)]
    rcases le_or_gt n ⌊q⌋ with hn | hn
    · have : (n : ℚ) ≤ ⌊q⌋ := by exact_mod_cast hn
      exact le_trans (by linarith) (le_abs_self _)
    · have : (⌊q⌋ : ℚ) + 1 ≤ n := by exact_mod_cast hn
      exact le_trans (by linarith) (neg_le_abs _)
  · rw [h]
    push_cast
    rw [abs_of_nonpos (by linarith)]
    rcases le_or_gt n ⌊q⌋ with hn | hn
    · have : (n : ℚ) ≤ ⌊q⌋ := by exact_mod_cast hn
      exact le_trans (by linarith) (le_abs_self _)
    · have : (⌊q⌋ : ℚ) + 1 ≤ n := by exact_mod_cast hn
      exact le_trans (by linarith) (neg_le_abs _)

theorem roundEven_le {q : ℚ} {n : ℤ} (h : q ≤ n) : roundEven q ≤ n := by
  have f1 := Int.floor_le q
  rcases roundEven_cases q with ⟨e, h'⟩ | ⟨e, h'⟩
  · rw [e]; exact Int.floor_le_iff.mpr (by linarith)
  · rw [e]
    have : ⌊q⌋ < n := by
      have : (⌊q⌋ : ℚ) < n := by linarith
      exact_mod_cast this
    omega

/-- `fl` rounds to a nearest number. -/
theorem fl_nearest {q : ℚ} (hq : 0 < q) : Nearest q (fl q) := by
  unfold fl
  rw [if_neg hq.ne', abs_of_pos hq]
  have l1 := Int.zpow_log_le_self (b := 2) (r := q) (by norm_num) hq
  have l2 := Int.lt_zpow_succ_log_self (b := 2) (by norm_num) q
  generalize Int.log 2 q = L at l1 l2 ⊢
  push_cast at l1 l2
  have hp : ∀ k : ℤ, (0 : ℚ) < 2 ^ k := fun k => zpow_pos (by norm_num) k
  have e52 : (2 : ℚ) ^ L = 2 ^ 52 * 2 ^ (L - 52) := by
    rw [← zpow_natCast, ← zpow_add₀ (by norm_num)]; congr 1; push_cast; ring
  have e53 : (2 : ℚ) ^ (L + 1) = 2 ^ 53 * 2 ^ (L - 52) := by
    rw [← zpow_natCast, ← zpow_add₀ (by norm_num)]; congr 1; push_cast; ring
  generalize hu : L - 52 = E at *
  rw [e52] at l1
  rw [e53] at l2
  have hE := hp E
  have n1 : (2 : ℚ) ^ 52 ≤ q / 2 ^ E := (le_div_iff₀ hE).mpr l1
  have n2 : q / 2 ^ E < 2 ^ 53 := (div_lt_iff₀ hE).mpr l2
  have near : ∀ n : ℤ, |q - roundEven (q / 2 ^ E) * 2 ^ E| ≤ |q - n * 2 ^ E| := by
    intro n
    have := mul_le_mul_of_nonneg_right (roundEven_nearest (q / 2 ^ E) n) hE.le
    have h1 : ∀ z : ℚ, |q / 2 ^ E - z| * 2 ^ E = |q - z * 2 ^ E| := by
      intro z
      rw [← abs_of_pos hE, ← abs_mul, abs_of_pos hE, sub_mul, div_mul_cancel₀ _ hE.ne']
    rwa [h1, h1] at this
  refine ⟨?_, ?_⟩
  · have hle : roundEven (q / 2 ^ E) ≤ 2 ^ 53 := roundEven_le (by push_cast; exact n2.le)
    have hge : 0 ≤ roundEven (q / 2 ^ E) := by
      have h0 : 0 ≤ ⌊q / 2 ^ E⌋ := Int.floor_nonneg.mpr (div_nonneg hq.le hE.le)
      rcases roundEven_cases (q / 2 ^ E) with ⟨e, -⟩ | ⟨e, -⟩ <;> omega
    exact isFloat_mul_pow (isFloat_int (by rw [abs_of_nonneg hge]; exact hle)) E
  · rintro y ⟨m, k, hm, rfl⟩
    rcases le_or_gt E k with h | h
    · obtain ⟨d, rfl⟩ := Int.le.dest h
      have : (m : ℚ) * 2 ^ (E + (d : ℤ)) = ((m * 2 ^ d : ℤ) : ℚ) * 2 ^ E := by
        rw [zpow_add₀ (by norm_num), zpow_natCast]; push_cast; ring
      rw [this]
      exact near _
    · have hk : (2 : ℚ) ^ k * 2 ≤ 2 ^ E := by
        rw [← zpow_add_one₀ (by norm_num)]
        exact zpow_le_zpow_right₀ (by norm_num) (by omega)
      have hm' : (m : ℚ) < 2 ^ 53 := by
        have := (abs_lt.mp hm).2
        exact_mod_cast this
      have hy : (m : ℚ) * 2 ^ k ≤ 2 ^ 52 * 2 ^ E := by
        have h1 : (m : ℚ) * 2 ^ k ≤ 2 ^ 53 * 2 ^ k := mul_le_mul_of_nonneg_right hm'.le (hp k).le
        nlinarith [hp k]
      have := near (2 ^ 52)
      push_cast at this
      refine le_trans this ?_
      rw [abs_of_nonneg (by linarith)]
      exact le_trans (by linarith) (le_abs_self _)

theorem fl_zero : fl 0 = 0 := if_pos rfl

theorem nearest_self {x : ℚ} (h : IsFloat x) {y : ℚ} (hy : Nearest x y) : y = x := by
  have := hy.2 x h
  rw [sub_self, abs_zero] at this
  have := abs_eq_zero.mp (le_antisymm this (abs_nonneg _))
  linarith

/-- A number that has 53 digits is not changed. -/
theorem fl_of_isFloat {x : ℚ} (hx : 0 ≤ x) (h : IsFloat x) : fl x = x := by
  rcases hx.eq_or_lt with rfl | hx
  · exact fl_zero
  · exact nearest_self h (fl_nearest hx)

theorem nearest_le {q x z : ℚ} (h : Nearest q x) (hz : IsFloat z) (hq : q ≤ z) : x ≤ z := by
  by_contra hx
  push Not at hx
  have := h.2 z hz
  rw [abs_of_nonpos (by linarith), abs_of_nonpos (by linarith)] at this
  linarith

theorem le_nearest {q x z : ℚ} (h : Nearest q x) (hz : IsFloat z) (hq : z ≤ q) : z ≤ x := by
  by_contra hx
  push Not at hx
  have := h.2 z hz
  rw [abs_of_nonneg (by linarith), abs_of_nonneg (by linarith)] at this
  linarith

/-- The power of two below a positive integer. -/
theorem exists_pow {M : ℕ} (h : 0 < M) : ∃ e : ℕ, 2 ^ e ≤ M ∧ M < 2 ^ (e + 1) :=
  ⟨Nat.log 2 M, Nat.pow_log_le_self 2 h.ne', Nat.lt_pow_succ_log_self (by norm_num) M⟩

theorem two_zpow_mul (e : ℕ) : (2 : ℚ) ^ (52 - (e : ℤ)) * 2 ^ ((e : ℤ) - 52) = 1 := by
  rw [← zpow_add₀ (by norm_num)]; simp

/-- The number after `M` and, if `M` is no power of two, the one before it. -/
theorem isFloat_succ {M e : ℕ} (h1 : 2 ^ e ≤ M) (h2 : M < 2 ^ (e + 1)) (he : e ≤ 52) : IsFloat (M + 2 ^ ((e : ℤ) - 52)) := by
  obtain ⟨d, hd⟩ := Nat.exists_eq_add_of_le he
  have hM : M * 2 ^ d + 1 ≤ 2 ^ 53 := by
    have : (M + 1) * 2 ^ d ≤ 2 ^ (e + 1) * 2 ^ d := Nat.mul_le_mul_right _ h2
    rw [← pow_add, show e + 1 + d = 53 by omega] at this
    have h3 : 1 ≤ 2 ^ d := Nat.one_le_two_pow
    nlinarith
  have e1 : ((M : ℚ) + 2 ^ ((e : ℤ) - 52)) = ((M * 2 ^ d + 1 : ℤ) : ℚ) * 2 ^ ((e : ℤ) - 52) := by
    have h4 : (2 : ℚ) ^ d * 2 ^ ((e : ℤ) - 52) = 1 := by
      have := two_zpow_mul e
      rwa [show (52 - (e : ℤ)) = (d : ℤ) by omega, zpow_natCast] at this
    push_cast
    rw [add_mul, mul_assoc, h4]; ring
  rw [e1]
  refine isFloat_mul_pow (isFloat_int ?_) _
  rw [abs_of_nonneg (by positivity)]
  exact_mod_cast hM

theorem isFloat_pred {M e : ℕ} (h1 : 2 ^ e ≤ M) (h2 : M < 2 ^ (e + 1)) (he : e ≤ 52) : IsFloat (M - 2 ^ ((e : ℤ) - 52)) := by
  obtain ⟨d, hd⟩ := Nat.exists_eq_add_of_le he
  have hM : M * 2 ^ d ≤ 2 ^ 53 := by
    have : M * 2 ^ d ≤ 2 ^ (e + 1) * 2 ^ d := Nat.mul_le_mul_right _ h2.le
    rwa [← pow_add, show e + 1 + d = 53 by omega] at this
  have hM1 : 1 ≤ M * 2 ^ d := Nat.mul_pos (lt_of_lt_of_le (by positivity) h1) (by positivity)
  have e1 : ((M : ℚ) - 2 ^ ((e : ℤ) - 52)) = ((M * 2 ^ d - 1 : ℤ) : ℚ) * 2 ^ ((e : ℤ) - 52) := by
    have h4 : (2 : ℚ) ^ d * 2 ^ ((e : ℤ) - 52) = 1 := by
      have := two_zpow_mul e
      rwa [show (52 - (e : ℤ)) = (d : ℤ) by omega, zpow_natCast] at this
    push_cast
    rw [sub_mul, mul_assoc, h4]; ring
  rw [e1]
  refine isFloat_mul_pow (isFloat_int ?_) _
  have : (1 : ℤ) ≤ M * 2 ^ d := by exact_mod_cast hM1
  rw [abs_of_nonneg (by linarith)]
  have : ((M * 2 ^ d : ℕ) : ℤ) ≤ 2 ^ 53 := by exact_mod_cast hM
  push_cast at this
  linarith

/-- Below a power of two the numbers are twice as dense. -/
theorem isFloat_pred_pow (e : ℕ) : IsFloat ((2 : ℚ) ^ e - 2 ^ ((e : ℤ) - 53)) := by
  have e1 : ((2 : ℚ) ^ e - 2 ^ ((e : ℤ) - 53)) = ((2 ^ 53 - 1 : ℤ) : ℚ) * 2 ^ ((e : ℤ) - 53) := by
    have : (2 : ℚ) ^ e = 2 ^ 53 * 2 ^ ((e : ℤ) - 53) := by
      rw [← zpow_natCast, ← zpow_natCast, ← zpow_add₀ (by norm_num)]; congr 1; push_cast; ring
    rw [this]; push_cast; ring
  rw [e1]
  exact isFloat_mul_pow (isFloat_int (by norm_num)) _

end Verif.Float
