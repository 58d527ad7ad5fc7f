import Verif.Float.Core
import Verif.Lpf.CountProps
import Mathlib.Data.Nat.Factorization.Basic

/-! C114, C115 and the floating point part of C08. -/
namespace Verif.Float

/-! ### C114: rounded quotients -/

/-- `ceil(a / b)` is the exact ceiling for all integers `0 ≤ a < 2^53`, `0 < b`. -/
theorem ceil_exact (a b : ℕ) (hb : 0 < b) (ha : a < 2 ^ 53) : ceilDiv a b = ⌈(a : ℚ) / b⌉ := by
  rcases Nat.eq_zero_or_pos a with rfl | ha0
  · simp [ceilDiv, divI, fl_zero]
  have hb' : (0 : ℚ) < b := by exact_mod_cast hb
  have hn := divI_nearest ha0 hb
  have hq : (0 : ℚ) < (a : ℚ) / b := by positivity
  have hpos : 0 < ⌈(a : ℚ) / b⌉ := Int.ceil_pos.mpr hq
  obtain ⟨m, hm⟩ : ∃ m : ℕ, ⌈(a : ℚ) / b⌉ = m + 1 := ⟨(⌈(a : ℚ) / b⌉ - 1).toNat, by omega⟩
  obtain ⟨h1, h2⟩ := Int.ceil_eq_iff.mp hm
  push_cast at h1 h2
  rw [add_sub_cancel_right, lt_div_iff₀ hb'] at h1
  have h1' : m * b < a := by exact_mod_cast h1
  have hlt := above_int hb ha h1' hn
  have hle : divI a b ≤ (m : ℚ) + 1 := by
    refine nearest_le hn ?_ h2
    have hma : m ≤ m * b := Nat.le_mul_of_pos_right m hb
    have := isFloat_int (n := (m : ℤ) + 1) (by rw [abs_of_nonneg (by positivity)]; omega)
    exact_mod_cast this
  rw [hm, ceilDiv, Int.ceil_eq_iff]
  push_cast
  exact ⟨by linarith, hle⟩

/-- `floor(a / b)` is the exact integer quotient. -/
theorem floor_exact (a b : ℕ) (hb : 0 < b) (ha : a < 2 ^ 53) : floorDiv a b = (a / b : ℕ) := by
  rcases Nat.eq_zero_or_pos a with rfl | ha0
  · simp [floorDiv, divI, fl_zero]
  have hn := divI_nearest ha0 hb
  have h1 : a / b * b ≤ a := Nat.div_mul_le_self a b
  have h2 : a < (a / b + 1) * b := by
    by_contra h
    have := (Nat.le_div_iff_mul_le hb).mpr (not_lt.mp h)
    omega
  have hlt := below_int hb ha h1 h2 hn
  have hge : ((a / b : ℕ) : ℚ) ≤ divI a b := by
    refine le_nearest hn ?_ ?_
    · have hma : a / b ≤ a := Nat.div_le_self a b
      have := isFloat_int (n := ((a / b : ℕ) : ℤ)) (by rw [abs_of_nonneg (by positivity)]; exact_mod_cast (by omega : a / b ≤ 2 ^ 53))
      exact_mod_cast this
    · rw [le_div_iff₀ (by exact_mod_cast hb)]; exact_mod_cast h1
  rw [floorDiv, Int.floor_eq_iff]
  push_cast at hge hlt ⊢
  exact ⟨hge, hlt⟩

/-- A quotient without remainder is not rounded at all. -/
theorem exact_quotient (k b : ℕ) (hb : 0 < b) (hk : k ≤ 2 ^ 53) : divI (k * b : ℕ) b = k := by
  have hb' : (b : ℚ) ≠ 0 := by exact_mod_cast hb.ne'
  rw [divI_nat]
  push_cast
  rw [mul_div_cancel_right₀ _ hb']
  refine fl_of_isFloat (by positivity) ?_
  have := isFloat_int (n := (k : ℤ)) (by rw [abs_of_nonneg (by positivity)]; exact_mod_cast hk)
  exact_mod_cast this

/-- From 2^53 + 1 on `ceil(a / b)` can be wrong. -/
theorem ceil_large_false : ¬ ∀ a b : ℕ, 0 < b → ceilDiv a b = ⌈(a : ℚ) / b⌉ := by
  intro h
  have := h (2 ^ 53 + 1) 1 (by norm_num)
  revert this
  decide +kernel

/-- A divisor does not help: the ceiling of a large quotient by three is one too small. -/
theorem ceil_large_by_three_false : ceilDiv (3 * 2 ^ 52 + 1) 3 ≠ ⌈((3 * 2 ^ 52 + 1 : ℕ) : ℚ) / (3 : ℕ)⌉ := by decide +kernel

/-- Quotients that are not whole: 7 / 2 and a large one just above an integer. -/
example : ceilDiv 7 2 = 4 ∧ floorDiv 7 2 = 3 ∧ ceilDiv 9007199254740990 9007199254740989 = 2 ∧ floorDiv 9007199254740990 9007199254740991 = 0 := by
  decide +kernel

/-! ### C08: the announced number of loop orders with rounded quotients -/

theorem odd_dvd_small {k : ℕ} (hk : k ∣ (22).factorial) : IsFloat (k : ℚ) := by
  have h0 : k ≠ 0 := by
    rintro rfl
    exact Nat.factorial_ne_zero 22 (Nat.eq_zero_of_zero_dvd hk)
  obtain ⟨e, m, hm, rfl⟩ := Nat.exists_eq_two_pow_mul_odd h0
  have hd : m ∣ 2 ^ 19 * 2143861251406875 := by
    exact dvd_trans (dvd_trans (Nat.dvd_mul_left m (2 ^ e)) hk) (by decide +kernel)
  have hc : Nat.Coprime m (2 ^ 19) := Nat.Coprime.pow_right _ (Nat.coprime_two_right.mpr hm)
  have hle := Nat.le_of_dvd (by norm_num) (hc.dvd_of_dvd_mul_left hd)
  have := isFloat_mul_pow (isFloat_int (n := (m : ℤ)) (by rw [abs_of_nonneg (by positivity)]; exact_mod_cast (by omega : m ≤ 2 ^ 53))) (e : ℤ)
  rw [zpow_natCast] at this
  push_cast at this ⊢
  rwa [mul_comm]

theorem fold_exact (counts : List ℕ) (n : ℕ) (hn : n ∣ (22).factorial) (h : (counts.map Nat.factorial).prod ∣ n) :
    counts.foldl (fun acc c => toInt (divI acc c.factorial)) (n : ℤ) = ((n / (counts.map Nat.factorial).prod : ℕ) : ℤ) := by
  induction counts generalizing n with
  | nil => simp
  | cons c counts ih =>
    rw [List.map_cons, List.prod_cons] at h ⊢
    obtain ⟨k, rfl⟩ := (dvd_trans (Dvd.intro _ rfl) h : c.factorial ∣ n)
    have hc : (0 : ℕ) < c.factorial := Nat.factorial_pos c
    have hc' : ((c.factorial : ℕ) : ℚ) ≠ 0 := by exact_mod_cast hc.ne'
    have e : divI ((c.factorial * k : ℕ) : ℤ) (c.factorial : ℕ) = k := by
      rw [divI_nat]
      push_cast
      rw [mul_div_cancel_left₀ _ hc']
      exact fl_of_isFloat (by positivity) (odd_dvd_small (dvd_trans (Dvd.intro_left _ rfl) hn))
    rw [List.foldl_cons, e, toInt, Int.floor_natCast, ih k (dvd_trans (Dvd.intro_left _ rfl) hn) ?_]
    · rw [Nat.mul_div_mul_left _ _ hc]
    · exact Nat.dvd_of_mul_dvd_mul_left hc h

/-- For at most 22 loop factors every rounded division of the announced number of loop orders is exact: the number equals the number of orders that the generator
yields. -/
theorem nb_permutations_float {D : Type} [LinearOrder D] (fact : Nat → List (Nat × Nat)) (hf : Lpf.FactContract fact) (layerDims : List D)
    (sizes : Dict D Nat) (hw : sizes.WF) (hs : ∀ p ∈ sizes, 1 < p.2) (hne : sizes ≠ []) (limit : Option Nat) :
    ∃ st, Lpf.getPrimeFactors fact layerDims sizes none limit = .ok st ∧
      ∃ N L, (∀ fuel, N ≤ fuel → Multiperm.permutations (α := D ×ₗ Nat) fuel (Lpf.lpfsOf st) = .ok (some L)) ∧
        ((Lpf.lpfsOf st).length ≤ 22 →
          nbPermutations (Lpf.nPf st).toNat (st.flatMap fun p => p.2.fac.map fun x => x.2.toNat) = L.length) := by
  obtain ⟨st, h1, hl, h2, N, L, h3, h4⟩ := Lpf.nb_permutations_exact fact hf layerDims sizes hw hs hne limit
  refine ⟨st, h1, N, L, h3, fun hle => ?_⟩
  have hpos : 0 < ((st.flatMap (fun p => p.2.fac.map (fun x => x.2.toNat))).map Nat.factorial).prod := by
    refine Nat.pos_of_ne_zero fun h0 => ?_
    rw [h0] at h2
    exact Nat.factorial_ne_zero _ (by rw [← h2]; simp)
  rw [nbPermutations, fold_exact _ _ (Nat.factorial_dvd_factorial (by omega)) (by rw [hl, ← h2]; exact Dvd.intro_left _ rfl), hl, ← h2,
    Nat.mul_div_cancel _ hpos, h4]

/-- With 23 different loop factors the announced number is too large. -/
theorem nb_permutations_false : nbPermutations 23 (List.replicate 23 1) ≠ (23).factorial := by decide +kernel

/-- A case with 22 loops of which eight are equal. -/
example : nbPermutations 22 [8, 7, 5, 2] = (22).factorial / ((8).factorial * (7).factorial * (5).factorial * 2) := by decide +kernel

/-! ### C115: rounded numbers of memory accesses -/

/-- The exact number: whole words of the smaller width, counted in words of the larger one, over all periods and memories. -/
def exactAccesses (amount precision minBw maxBw periods units : ℕ) : ℚ :=
  (⌈((amount * precision : ℕ) : ℚ) / minBw⌉ : ℚ) * minBw / maxBw * periods * units

theorem isFloat_nat {n : ℕ} (h : n ≤ 2 ^ 53) : IsFloat (n : ℚ) := by
  have := isFloat_int (n := (n : ℤ)) (by rw [abs_of_nonneg (by positivity)]; exact_mod_cast h)
  exact_mod_cast this

theorem ceil_nat (a b : ℕ) : ∃ c : ℕ, ⌈(a : ℚ) / b⌉ = c ∧ (0 < b → c ≤ a) := by
  refine ⟨⌈(a : ℚ) / b⌉₊, (Int.natCast_ceil_eq_ceil (by positivity)).symm, fun hb => ?_⟩
  rw [Nat.ceil_le, div_le_iff₀ (by exact_mod_cast hb)]
  have : a * 1 ≤ a * b := Nat.mul_le_mul_left _ hb
  exact_mod_cast (by simpa using this : a ≤ a * b)

/-- The number of accesses is exact (rounded down to an integer once) if the port is a power of two times as wide as its smallest word and the
numbers have at most 53 binary digits. -/
theorem accesses_exact_partial (amount precision minBw k periods units : ℕ) (hm : 0 < minBw)
    (ha : amount * precision < 2 ^ 53) (hbig : amount * precision * periods * units ≤ 2 ^ 53) (hu : 0 < units) (hp : 0 < periods) :
    accesses amount precision minBw (minBw * 2 ^ k : ℕ) periods units =
      ⌊exactAccesses amount precision minBw (minBw * 2 ^ k) periods units⌋ := by
  by_cases h0 : amount = 0 ∨ precision = 0
  · have : amount * precision = 0 := by rcases h0 with h | h <;> simp [h]
    rw [accesses, if_pos (by exact_mod_cast h0)]
    simp [exactAccesses, this]
  rw [accesses, if_neg (by exact_mod_cast h0)]
  have hc := ceil_exact (amount * precision) minBw hm ha
  push_cast at hc
  rw [hc]
  obtain ⟨c, ec, hca⟩ := ceil_nat (amount * precision) minBw
  have hca := hca hm
  push_cast at ec
  have ed : divI minBw ((minBw * 2 ^ k : ℕ) : ℤ) = (2 : ℚ) ^ (-(k : ℤ)) := by
    have hm' : (minBw : ℚ) ≠ 0 := by exact_mod_cast hm.ne'
    have : ((minBw : ℤ) : ℚ) / ((minBw * 2 ^ k : ℕ) : ℤ) = (1 : ℤ) * (2 : ℚ) ^ (-(k : ℤ)) := by
      push_cast
      rw [zpow_neg, zpow_natCast]
      field_simp
    rw [divI, this, fl_of_isFloat (by rw [Int.cast_one, one_mul]; exact (zpow_pos (by norm_num) _).le) ⟨1, -(k : ℤ), by norm_num, rfl⟩]
    simp
  have st : ∀ n : ℕ, n ≤ 2 ^ 53 → fl ((n : ℚ) * 2 ^ (-(k : ℤ))) = n * 2 ^ (-(k : ℤ)) := fun n hn =>
    fl_of_isFloat (mul_nonneg (Nat.cast_nonneg n) (zpow_pos (by norm_num) _).le) (isFloat_mul_pow (isFloat_nat hn) _)
  have hcp : c * periods * units ≤ 2 ^ 53 := le_trans (Nat.mul_le_mul_right _ (Nat.mul_le_mul_right _ hca)) hbig
  have hcp1 : c * periods ≤ 2 ^ 53 := le_trans (Nat.le_mul_of_pos_right _ hu) hcp
  have hc1 : c ≤ 2 ^ 53 := le_trans (Nat.le_mul_of_pos_right _ hp) hcp1
  rw [ec, ed]
  push_cast
  rw [st c hc1]
  rw [show (c : ℚ) * 2 ^ (-(k : ℤ)) * periods = ((c * periods : ℕ) : ℚ) * 2 ^ (-(k : ℤ)) by push_cast; ring, st _ hcp1]
  rw [show ((c * periods : ℕ) : ℚ) * 2 ^ (-(k : ℤ)) * units = ((c * periods * units : ℕ) : ℚ) * 2 ^ (-(k : ℤ)) by push_cast; ring, st _ hcp]
  rw [toInt, exactAccesses]
  congr 1
  push_cast
  rw [ec, zpow_neg, zpow_natCast]
  have hm' : (minBw : ℚ) ≠ 0 := by exact_mod_cast hm.ne'
  push_cast
  field_simp

/-- Relative error at most `d / 2^53`. -/
def Close (d x T : ℚ) : Prop := T * (1 - d / 2 ^ 53) ≤ x ∧ x ≤ T * (1 + d / 2 ^ 53)

theorem Close.step {d x T k : ℚ} (h : Close d x T) (hx : 0 ≤ x) (hT : 0 ≤ T) (hk : 0 ≤ k) (hd : d ≤ 2 ^ 53) : Close (d + 2) (fl (x * k)) (T * k) := by
  obtain ⟨h1, h2⟩ := h
  have f := abs_le.mp (fl_error (mul_nonneg hx hk))
  have g1 := mul_le_mul_of_nonneg_right h1 hk
  have g2 := mul_le_mul_of_nonneg_right h2 hk
  have hTk := mul_nonneg hT hk
  have hb : x * k ≤ 2 * (T * k) := by
    have : T * (1 + d / 2 ^ 53) * k ≤ T * k * 2 := by
      have : T * (1 + d / 2 ^ 53) * k = T * k * (1 + d / 2 ^ 53) := by ring
      rw [this]
      refine mul_le_mul_of_nonneg_left ?_ hTk
      have : d / 2 ^ 53 ≤ 1 := (div_le_one (by positivity)).mpr hd
      linarith
    linarith
  have hb' : x * k / 2 ^ 53 ≤ 2 * (T * k) / 2 ^ 53 := div_le_div_of_nonneg_right hb (by positivity)
  constructor
  · have : T * k * (1 - (d + 2) / 2 ^ 53) = T * (1 - d / 2 ^ 53) * k - 2 * (T * k) / 2 ^ 53 := by ring
    linarith
  · have : T * k * (1 + (d + 2) / 2 ^ 53) = T * (1 + d / 2 ^ 53) * k + 2 * (T * k) / 2 ^ 53 := by ring
    linarith

theorem floor_close {x T : ℚ} (h : |x - T| < 1) : |⌊x⌋ - ⌊T⌋| ≤ 1 := by
  have a1 := Int.floor_le x
  have a2 := Int.lt_floor_add_one x
  have b1 := Int.floor_le T
  have b2 := Int.lt_floor_add_one T
  obtain ⟨h1, h2⟩ := abs_lt.mp h
  have c1 : ⌊x⌋ - ⌊T⌋ < 2 := by
    have : ((⌊x⌋ - ⌊T⌋ : ℤ) : ℚ) < (2 : ℤ) := by push_cast; linarith
    exact_mod_cast this
  have c2 : ⌊T⌋ - ⌊x⌋ < 2 := by
    have : ((⌊T⌋ - ⌊x⌋ : ℤ) : ℚ) < (2 : ℤ) := by push_cast; linarith
    exact_mod_cast this
  rw [abs_le]
  omega

/-- In general the number is at most one too small or one too large, as long as the exact number is below 2^50. -/
theorem accesses_close (amount precision minBw maxBw periods units : ℕ) (hm : 0 < minBw) (hM : 0 < maxBw)
    (ha : amount * precision < 2 ^ 53) (hbig : exactAccesses amount precision minBw maxBw periods units < 2 ^ 50) :
    |accesses amount precision minBw maxBw periods units - ⌊exactAccesses amount precision minBw maxBw periods units⌋| ≤ 1 := by
  by_cases h0 : amount = 0 ∨ precision = 0
  · have : amount * precision = 0 := by rcases h0 with h | h <;> simp [h]
    rw [accesses, if_pos (by exact_mod_cast h0)]
    simp [exactAccesses, this]
  rw [accesses, if_neg (by exact_mod_cast h0)]
  have hc := ceil_exact (amount * precision) minBw hm ha
  push_cast at hc
  rw [hc]
  obtain ⟨c, ec, -⟩ := ceil_nat (amount * precision) minBw
  push_cast at ec
  unfold exactAccesses at hbig ⊢
  push_cast at hbig ⊢
  rw [ec] at hbig ⊢
  push_cast at hbig ⊢
  set r : ℚ := (minBw : ℚ) / maxBw with hr
  have hr0 : 0 ≤ r := by positivity
  have e0 : divI minBw maxBw = fl r := divI_nat _ _
  have f0 := fl_error hr0
  have p0 := fl_nonneg hr0
  rw [e0]
  have hce : (c : ℚ) * minBw / maxBw * periods * units = c * r * periods * units := by rw [hr]; ring
  rw [hce] at hbig ⊢
  have c0 : Close 1 (fl r) r := by
    obtain ⟨g1, g2⟩ := abs_le.mp f0
    exact ⟨by linarith [show r * (1 - 1 / 2 ^ 53) = r - r / 2 ^ 53 by ring], by linarith [show r * (1 + 1 / 2 ^ 53) = r + r / 2 ^ 53 by ring]⟩
  have c1 := c0.step p0 hr0 (Nat.cast_nonneg c) (by norm_num)
  have q1 := fl_nonneg (mul_nonneg p0 (Nat.cast_nonneg (α := ℚ) c))
  have c2 := c1.step q1 (mul_nonneg hr0 (Nat.cast_nonneg c)) (Nat.cast_nonneg periods) (by norm_num)
  have q2 := fl_nonneg (mul_nonneg q1 (Nat.cast_nonneg (α := ℚ) periods))
  have c3 := c2.step q2 (mul_nonneg (mul_nonneg hr0 (Nat.cast_nonneg c)) (Nat.cast_nonneg periods)) (Nat.cast_nonneg units) (by norm_num)
  rw [mul_comm (c : ℚ) r] at hbig ⊢
  rw [mul_comm (c : ℚ) (fl r)]
  have hT : 0 ≤ r * c * periods * units :=
    mul_nonneg (mul_nonneg (mul_nonneg hr0 (Nat.cast_nonneg c)) (Nat.cast_nonneg periods)) (Nat.cast_nonneg units)
  refine floor_close ?_
  generalize fl (fl (fl (fl r * c) * periods) * units) = x at c3 ⊢
  generalize r * c * periods * units = T at *
  obtain ⟨g1, g2⟩ := c3
  rw [abs_lt]
  norm_num at g1 g2 hbig
  constructor <;> linarith

/-- The accesses of a memory are not counted exactly: seven transfers of one 8 bit word in each of three memories with 24 bit ports are seven accesses, six
are counted, because the quotient 8 / 24 is rounded and the product truncated. -/
theorem accesses_false : ¬ ∀ amount precision minBw maxBw periods units : ℕ, 0 < minBw → 0 < maxBw → amount * precision < 2 ^ 53 →
    exactAccesses amount precision minBw maxBw periods units < 2 ^ 50 →
    accesses amount precision minBw maxBw periods units = ⌊exactAccesses amount precision minBw maxBw periods units⌋ := by
  intro h
  have := h 1 8 8 24 7 3 (by norm_num) (by norm_num) (by norm_num) (by decide +kernel)
  revert this
  decide +kernel

/-- With a port of 32 bits: 21 words of 8 bits are counted as 5 accesses (5.25 rounded down). -/
example : accesses 1 8 8 32 7 3 = 5 ∧ ⌊exactAccesses 1 8 8 32 7 3⌋ = 5 := by decide +kernel

end Verif.Float
