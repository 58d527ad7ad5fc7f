import Verif.Imc.Lemmas
import Mathlib.Tactic.NormNum
import Mathlib.Data.Finset.Card
import Mathlib.Algebra.Order.BigOperators.Group.List
import Mathlib.Data.Finset.Prod
import Mathlib.Data.Finset.Range

/-! C45 (adder tree size), C46 (active adders), C71 (rows of a diagonal mapping), C72 (layer energy and peak energy), C73 (inputs charged to the adder trees),
C74 (array equality), C75 (memory area breakdown), C76 (array construction and clock). -/

namespace Verif.Imc

/-! ### C45, C46 -/

/-- C45: the closed form for the number of one bit adders is the sum over the adders of the balanced tree of their widths. -/
theorem tree_size (p d m : Nat) : ((fill d m).adders p : Int) = treeAdders (2 ^ d) p d := fill_adders p d m

/-- C45: the same for the tree with place values: stage `h` (from one) has `2 ^ (d - h)` adders of `p + 2 ^ h` bits, one less in the first stage. -/
theorem place_value_size (p d : Nat) (hd : 1 ≤ d) :
    pvAdders (2 ^ d) p = (((List.range d).map fun h => 2 ^ (d - (h + 1)) * (p + 2 ^ (h + 1) - (if h = 0 then 1 else 0))).sum : Nat) := by
  have hS : ∀ n, ∀ d, n ≤ d → 1 ≤ n →
      ((((List.range n).map fun h => 2 ^ (d - (h + 1)) * (p + 2 ^ (h + 1) - (if h = 0 then 1 else 0))).sum : Nat) : ℚ) =
        (2 ^ d - 2 ^ (d - n)) * p + n * 2 ^ d - 2 ^ (d - 1) := by
    intro n
    induction n with
    | zero => intro d _ h; omega
    | succ n ih =>
      intro d hn _
      rw [List.range_succ, List.map_append, List.sum_append]
      by_cases hz : n = 0
      · subst hz
        have e : d = (d - 1) + 1 := by omega
        have e2 : (2 : ℚ) ^ d = 2 * 2 ^ (d - 1) := by conv_lhs => rw [e, pow_succ, mul_comm]
        simp only [List.range_zero, List.map_nil, List.sum_nil, List.map_cons, List.sum_cons, if_true]
        have : p + 2 ^ (0 + 1) - 1 = p + 1 := by omega
        rw [this]
        push_cast
        rw [e2]
        ring
      · have ih' := ih d (by omega) (by omega)
        push_cast at ih' ⊢
        rw [ih']
        simp only [List.map_cons, List.map_nil, List.sum_cons, List.sum_nil, hz, if_false]
        push_cast
        have e1 : (2 : ℚ) ^ (d - n) = 2 * 2 ^ (d - (n + 1)) := by
          have : d - n = (d - (n + 1)) + 1 := by omega
          rw [this, pow_succ]; ring
        have e2 : (2 : ℚ) ^ d = 2 ^ (d - (n + 1)) * 2 ^ (n + 1) := by
          rw [← pow_add]; congr 1; omega
        rw [e1]
        simp only [Nat.sub_zero, add_zero]
        push_cast
        rw [show (2 : ℚ) ^ (d - (n + 1)) * (p + 2 ^ (n + 1)) = 2 ^ (d - (n + 1)) * p + 2 ^ (d - (n + 1)) * 2 ^ (n + 1) by ring, ← e2]
        ring
  rw [hS d d le_rfl hd]
  unfold pvAdders
  have h1 : 2 ^ d ≠ 1 := by
    have := Nat.one_lt_two_pow (n := d) (by omega); omega
  rw [if_neg h1, Nat.log_pow (by norm_num)]
  have e : d = (d - 1) + 1 := by omega
  have e2 : (2 : ℚ) ^ d = 2 * 2 ^ (d - 1) := by conv_lhs => rw [e, pow_succ, mul_comm]
  push_cast
  rw [Nat.sub_self, pow_zero]
  rw [e2]
  ring

/-- C46: the computation terminates and its result is the energy of the balanced tree whose first `m` inputs carry data: adders with data on both sides
cost a full activation, adders with data on one side half an activation, other adders nothing. -/
theorem tree_energy_exact (t : Tech) (p m d : Nat) :
    treeEnergy t p m d = some (((fill d m).full p : Rat) * adderE t + ((fill d m).half p : Rat) * adderHalfE t) := by
  unfold treeEnergy
  by_cases h0 : m ≥ 1
  · rw [if_pos h0]
    by_cases h1 : m ≥ 2 ^ d
    · rw [if_pos h1]
      obtain ⟨h2, h3⟩ := fill_all p d m h1
      have h4 := fill_adders p d m
      rw [h2, h3, ← h4]
      simp
    · rw [if_neg h1, active_loop p d m 0 0 (by omega)]
      simp
  · rw [if_neg h0]
    have : m = 0 := by omega
    subst this
    obtain ⟨h1, h2⟩ := fill_zero p d
    simp [h1, h2]

/-- C46: active adders never exceed the adders of the tree, and with all inputs in use all adders are fully active. -/
theorem active_adders_le (p m d : Nat) :
    (fill d m).full p + (fill d m).half p ≤ (fill d m).adders p ∧ (2 ^ d ≤ m → (fill d m).full p = (fill d m).adders p) :=
  ⟨full_half_le p _, fun h => (fill_all p d m h).1⟩

/-- C46: more inputs in use never cost less, and the cost is at most that of the full tree. -/
theorem tree_energy_mono (t : Tech) (h0 : 0 ≤ t.nd2Cap) (h1 : 0 ≤ t.xor2Cap) (p d : Nat) {m m' : Nat} (h : m ≤ m') :
    ∃ e e', treeEnergy t p m d = some e ∧ treeEnergy t p m' d = some e' ∧ 0 ≤ e ∧ e ≤ e' ∧ e' ≤ (treeAdders (2 ^ d) p d : Rat) * adderE t := by
  refine ⟨_, _, tree_energy_exact t p m d, tree_energy_exact t p m' d, ?_, ?_, ?_⟩
  all_goals
    have ha : adderE t = 3 * t.nd2Cap * t.vdd ^ 2 + adderHalfE t := by unfold adderE adderHalfE; ring
    have hh : 0 ≤ adderHalfE t := by unfold adderHalfE; positivity
    have hd : 0 ≤ 3 * t.nd2Cap * t.vdd ^ 2 := by positivity
  · rw [ha]; positivity
  · obtain ⟨h2, h3⟩ := fill_mono p d h
    have h2' : ((fill d m).full p : Rat) ≤ (fill d m').full p := by exact_mod_cast h2
    have h3' : ((fill d m).full p : Rat) + (fill d m).half p ≤ (fill d m').full p + (fill d m').half p := by exact_mod_cast h3
    have e1 : ∀ f g : Rat, f * adderE t + g * adderHalfE t = f * (3 * t.nd2Cap * t.vdd ^ 2) + (f + g) * adderHalfE t := by
      intro f g; rw [ha]; ring
    rw [e1, e1]
    exact add_le_add (mul_le_mul_of_nonneg_right h2' hd) (mul_le_mul_of_nonneg_right h3' hh)
  · have h2 := full_half_le p (fill d m')
    rw [← fill_adders p d m']
    have h2' : ((fill d m').full p : Rat) + (fill d m').half p ≤ (fill d m').adders p := by exact_mod_cast h2
    have h3 : ((fill d m').half p : Rat) * adderHalfE t ≤ ((fill d m').half p : Rat) * adderE t :=
      mul_le_mul_of_nonneg_left (by rw [ha]; linarith) (by positivity)
    have hE : 0 ≤ adderE t := by rw [ha]; linarith
    calc _ ≤ ((fill d m').full p : Rat) * adderE t + ((fill d m').half p : Rat) * adderE t := by linarith
      _ = (((fill d m').full p : Rat) + (fill d m').half p) * adderE t := by ring
      _ ≤ _ := mul_le_mul_of_nonneg_right (by push_cast; exact_mod_cast h2) hE

/-- Eight inputs of four bits, five in use. -/
example : (fill 3 5).full 4 = 19 ∧ (fill 3 5).half 4 = 9 ∧ (fill 3 5).adders 4 = 32 ∧ treeAdders 8 4 3 = 32 ∧ activeLoop 4 3 5 0 0 = some (19, 9) := by
  decide

/-! ### C76 -/

/-- All numbers of the technology are at least zero. -/
structure Tech.NonNeg (t : Tech) : Prop where
  nd2Cap : 0 ≤ t.nd2Cap
  blCap : 0 ≤ t.blCap
  xor2Cap : 0 ≤ t.xor2Cap
  dffCap : 0 ≤ t.dffCap
  nd2Area : 0 ≤ t.nd2Area
  xor2Area : 0 ≤ t.xor2Area
  dffArea : 0 ≤ t.dffArea
  nd2Dly : 0 ≤ t.nd2Dly
  xor2Dly : 0 ≤ t.xor2Dly

theorem tech28_nonneg : tech28.NonNeg := by constructor <;> norm_num [tech28]

private theorem pow2_iff (n : Nat) : pow2 n = true ↔ ∃ k, n = 2 ^ k := by
  unfold pow2
  rw [decide_eq_true_eq]
  constructor
  · intro h; exact ⟨_, h⟩
  · rintro ⟨k, rfl⟩; rw [Nat.log_pow (by norm_num)]

theorem pvAdders_nonneg (n p : Nat) (h : 1 ≤ n) : 0 ≤ pvAdders n p := by
  unfold pvAdders
  by_cases h1 : n = 1
  · rw [if_pos h1]
  · rw [if_neg h1]
    have hn : (1 : ℚ) ≤ n := by exact_mod_cast h
    have hl : 1 ≤ Nat.log 2 n := Nat.log_pos (by norm_num) (by omega)
    have hl' : (1 : ℚ) ≤ Nat.log 2 n := by exact_mod_cast hl
    have h3 : (0 : ℚ) ≤ (p : ℚ) * ((n : ℚ) - 1) := mul_nonneg (by positivity) (by linarith)
    have h4 : (0 : ℚ) ≤ (n : ℚ) * ((Nat.log 2 n : ℚ) - 1 / 2) := mul_nonneg (by positivity) (by linarith)
    linarith

theorem treeAdders_nonneg (n p : Nat) (h : pow2 n = true) : (0 : ℚ) ≤ (treeAdders n p (Nat.log 2 n) : ℚ) := by
  obtain ⟨k, rfl⟩ := (pow2_iff n).1 h
  rw [Nat.log_pow (by norm_num), ← fill_adders p k 0]
  push_cast
  positivity

/-- C76: an array can be made exactly when the inputs of its adder trees are powers of two; then all parts of its area are at least zero. -/
theorem area_ok_iff (a : Arr) :
    (∃ r, getArea a = .ok r) ↔ (a.aimc = false → ∃ k, a.bl = 2 ^ k) ∧ (∃ k, pvIn a = 2 ^ k) := by
  unfold getArea
  simp only
  by_cases h1 : a.aimc = false ∧ pow2 a.bl = false
  · rw [if_pos h1]
    constructor
    · rintro ⟨r, hr⟩; cases hr
    · rintro ⟨h, -⟩
      have := (pow2_iff a.bl).2 (h h1.1)
      rw [h1.2] at this; cases this
  · rw [if_neg h1]
    have hA : a.aimc = false → ∃ k, a.bl = 2 ^ k := by
      intro h
      rw [← pow2_iff]
      cases hp : pow2 a.bl with
      | true => rfl
      | false => exact absurd ⟨h, hp⟩ h1
    by_cases h2 : pvIn a ≠ 1 ∧ pow2 (pvIn a) = false
    · rw [if_pos h2]
      constructor
      · rintro ⟨r, hr⟩; cases hr
      · rintro ⟨-, h⟩
        have := (pow2_iff (pvIn a)).2 h
        rw [h2.2] at this; cases this
    · rw [if_neg h2]
      refine ⟨fun _ => ⟨hA, ?_⟩, fun _ => ⟨_, rfl⟩⟩
      by_cases h3 : pvIn a = 1
      · exact ⟨0, by rw [h3]; rfl⟩
      · rw [← pow2_iff]
        cases hp : pow2 (pvIn a) with
        | true => rfl
        | false => exact absurd ⟨h3, hp⟩ h2

theorem area_nonneg (a : Arr) (ht : a.tech.NonNeg) (hc : 0 ≤ a.cells) (hadc : 0 ≤ a.adc.1) (r : List (String × Rat)) (h : getArea a = .ok r) :
    ∀ x ∈ r, 0 ≤ x.2 := by
  obtain ⟨hbl, hpv⟩ := (area_ok_iff a).1 ⟨r, h⟩
  have hA : 0 ≤ adderA a.tech := by
    unfold adderA
    have := ht.nd2Area; have := ht.xor2Area
    positivity
  have hpv1 : 1 ≤ pvIn a := by
    obtain ⟨k, hk⟩ := hpv
    rw [hk]; exact Nat.one_le_two_pow
  have h3 := pvAdders_nonneg (pvIn a) (pvPrec a) hpv1
  have h4 := ht.nd2Area
  have h5 := ht.dffArea
  unfold getArea at h
  simp only at h
  split at h
  · cases h
  · split at h
    · cases h
    · rw [← Except.ok.inj h]
      intro x hx
      simp only [List.mem_cons, List.not_mem_nil, or_false] at hx
      rcases hx with rfl | rfl | rfl | rfl | rfl | rfl | rfl <;> simp only
      · exact hc
      · exact le_refl _
      · split
        · positivity
        · exact le_refl _
      · positivity
      · split
        · exact le_refl _
        · rename_i hm
          have hm' : a.aimc = false := by simpa using hm
          have := treeAdders_nonneg a.bl a.wp ((pow2_iff _).2 (hbl hm'))
          positivity
      · positivity
      · split
        · exact le_refl _
        · positivity

/-- C76, partial: the clock can be computed and no part of it is negative if the macro has at least two rows and the input is not longer than the activation.
Missing: one row (`clock_negative_false`). -/
theorem clock_nonneg_partial (a : Arr) (ht : a.tech.NonNeg) (hadc : 0 ≤ a.adc.2.1) (hok : ∃ r, getArea a = .ok r) (hbl : 2 ≤ a.bl) (hwp : 1 ≤ a.wp)
    (hbs : a.bs ≤ a.act) : ∃ r, getTclk a = .ok r ∧ ∀ x ∈ r, 0 ≤ x.2 := by
  obtain ⟨hp, k, hk⟩ := (area_ok_iff a).1 hok
  have h1 := ht.nd2Dly
  have h2 := ht.xor2Dly
  have hlog : a.aimc = false → 1 ≤ Nat.log 2 a.bl := fun _ => Nat.log_pos (by norm_num) hbl
  have hi : 0 ≤ in2sum a.tech := by unfold in2sum; positivity
  have hc : 0 ≤ in2cout a.tech := by unfold in2cout; positivity
  have hcc : 0 ≤ cin2cout a.tech := by unfold cin2cout; positivity
  have hreg : (0 : ℚ) ≤ if a.aimc then (0 : ℚ) else ((Nat.log 2 a.bl : ℚ) - 1) * in2sum a.tech + in2cout a.tech + ((outPrec a : ℚ) - 1 - 1) * cin2cout a.tech := by
    by_cases ha : a.aimc = true
    · simp [ha]
    · have hf : a.aimc = false := by simpa using ha
      have := hlog hf
      have e1 : (1 : ℚ) ≤ Nat.log 2 a.bl := by exact_mod_cast this
      have e2 : (2 : ℚ) ≤ outPrec a := by
        have : 2 ≤ outPrec a := by unfold outPrec; rw [if_neg ha]; omega
        exact_mod_cast this
      rw [if_neg ha]
      have m1 := mul_nonneg (sub_nonneg.2 e1) hi
      have m2 := mul_nonneg (by linarith : (0 : ℚ) ≤ (outPrec a : ℚ) - 1 - 1) hcc
      linarith
  have hpvr : (0 : ℚ) ≤ if pvIn a = 1 then (0 : ℚ)
      else ((Nat.log 2 (pvIn a) : ℚ) - 1) * in2sum a.tech + in2cout a.tech + ((pvOut a : ℚ) - pvPrec a - 1) * cin2cout a.tech := by
    by_cases h3 : pvIn a = 1
    · rw [if_pos h3]
    · have h4 : 2 ≤ pvIn a := by
        have : 1 ≤ pvIn a := by rw [hk]; exact Nat.one_le_two_pow
        omega
      rw [if_neg h3]
      have e1 : (1 : ℚ) ≤ Nat.log 2 (pvIn a) := by exact_mod_cast Nat.log_pos (by norm_num) h4
      have e2 : (pvOut a : ℚ) = pvIn a + pvPrec a := by unfold pvOut; rw [if_neg h3]; push_cast; ring
      have e3 : (2 : ℚ) ≤ pvIn a := by exact_mod_cast h4
      have m1 := mul_nonneg (sub_nonneg.2 e1) hi
      have m2 := mul_nonneg (by rw [e2]; linarith : (0 : ℚ) ≤ (pvOut a : ℚ) - pvPrec a - 1) hcc
      linarith
  have hadc' : (0 : ℚ) ≤ if a.aimc then a.adc.2.1 else 0 := by split; exact hadc; exact le_refl _
  unfold getTclk
  simp only
  have hno : ¬ (a.aimc = false ∧ pow2 a.bl = false) := by
    rintro ⟨ha, hb⟩
    have := (pow2_iff a.bl).2 (hp ha)
    rw [hb] at this; cases this
  rw [if_neg hno]
  by_cases hact : a.bs = a.act
  · rw [if_pos hact]
    refine ⟨_, rfl, ?_⟩
    intro x hx
    simp only [List.mem_cons, List.not_mem_nil, or_false] at hx
    rcases hx with rfl | rfl | rfl | rfl | rfl | rfl | rfl <;> simp only
    · exact le_refl _
    · exact le_refl _
    · exact hadc'
    · exact h1
    · exact hreg
    · exact hpvr
    · exact le_refl _
  · rw [if_neg hact]
    have hlt : pvOut a < accPrec a := by
      unfold pvOut accPrec pvPrec pvIn outPrec
      cases a.aimc <;> simp <;> split <;> omega
    rw [if_pos hlt]
    refine ⟨_, rfl, ?_⟩
    intro x hx
    simp only [List.mem_cons, List.not_mem_nil, or_false] at hx
    rcases hx with rfl | rfl | rfl | rfl | rfl | rfl | rfl <;> simp only
    · exact le_refl _
    · exact le_refl _
    · exact hadc'
    · exact h1
    · exact hreg
    · exact hpvr
    · have : (pvOut a : ℚ) + 1 ≤ accPrec a := by exact_mod_cast hlt
      have := mul_nonneg (by linarith : (0 : ℚ) ≤ (accPrec a : ℚ) - pvOut a - 1) hcc
      linarith

/-- A digital array with eight columns and four rows. -/
def sampleArr : Arr where
  tech := tech28
  aimc := false
  bs := 1
  act := 8
  wp := 8
  adcRes := 0
  wl := 8
  bl := 4
  banks := 1
  cells := 1
  adc := (0, 0, 0)

example : getArea sampleArr ≠ .error .assertion ∧ 2 ≤ sampleArr.bl ∧ sampleArr.bs ≤ sampleArr.act := by
  refine ⟨?_, by decide, by decide⟩
  obtain ⟨r, hr⟩ := (area_ok_iff sampleArr).2 ⟨fun _ => ⟨2, by decide⟩, ⟨0, by decide⟩⟩
  rw [hr]; intro h; cases h

/-- A digital array with one row and two bit weights. -/
def oneRow : Arr := { sampleArr with bl := 1, wp := 2 }

/-- C76 is false for macros with one row: the delay of the adder tree is negative. -/
theorem clock_negative_false : ∃ r, getTclk oneRow = .ok r ∧ ∃ x ∈ r, x.1 = "adders_regular" ∧ x.2 < 0 := by
  have hl : Nat.log 2 1 = 0 := by decide
  have e : outPrec oneRow = 2 := by decide
  refine ⟨_, rfl, ("adders_regular", if oneRow.aimc then (0 : ℚ)
      else ((Nat.log 2 oneRow.bl : ℚ) - 1) * in2sum oneRow.tech + in2cout oneRow.tech + ((outPrec oneRow : ℚ) - 1 - 1) * cin2cout oneRow.tech), ?_, rfl, ?_⟩
  · simp
  · rw [e]
    have : oneRow.bl = 1 := rfl
    rw [this, hl]
    norm_num [oneRow, sampleArr, in2sum, in2cout, cin2cout, tech28]

/-! ### C72 -/

/-- C72: with all mapped rows and columns inside the macro, no part of the energy of a layer (apart from precharging, which has no peak value) exceeds the peak energy of a cycle times the
number of cycles; the peak is that of all banks, the layer energy that of one. -/
theorem layer_le_peak (a : Arr) (ht : a.tech.NonNeg) (hadc : 0 ≤ a.adc.2.2) (hok : ∃ r, getArea a = .ok r) (hbs : 1 ≤ a.bs)
    (rows : Nat) (cols times pre : ℚ) (hrows : rows ≤ a.bl) (hc0 : 0 ≤ cols) (hcols : cols ≤ a.wl) (htimes : 0 ≤ times) :
    ∃ e, layerEnergy a rows cols times pre = some e ∧
      List.Forall₂ (fun x y => x.1 = y.1 ∧ (x.1 = "local_bl_precharging" ∨ x.2 * a.banks ≤ y.2 * ((a.act : ℚ) / a.bs * times))) e (peakEnergy a) := by
  obtain ⟨hp, k, hk⟩ := (area_ok_iff a).1 hok
  have hpv1 : 1 ≤ pvIn a := by rw [hk]; exact Nat.one_le_two_pow
  have h3 := pvAdders_nonneg (pvIn a) (pvPrec a) hpv1
  have hnd := ht.nd2Cap
  have hxo := ht.xor2Cap
  have hdf := ht.dffCap
  have hbc := ht.blCap
  have hE : 0 ≤ adderE a.tech := by unfold adderE; positivity
  have hR : 0 ≤ regE a.tech := by unfold regE; positivity
  have hM : 0 ≤ multE a.tech := by unfold multE; positivity
  have hD : 0 ≤ dacE a := by unfold dacE; split; exact le_refl _; positivity
  have hser : (0 : ℚ) ≤ (a.act : ℚ) / a.bs := by positivity
  set ser : ℚ := (a.act : ℚ) / a.bs with hserdef
  have hst : 0 ≤ ser * times := mul_nonneg hser htimes
  have hrq : (rows : ℚ) ≤ a.bl := by exact_mod_cast hrows
  have hb0 : (0 : ℚ) ≤ a.banks := by positivity
  obtain ⟨tree, htree, htle⟩ : ∃ tree, (if a.aimc then some 0 else treeEnergy a.tech a.wp rows (Nat.log 2 a.bl)) = some tree ∧
      (a.aimc = false → 0 ≤ tree ∧ tree ≤ adderE a.tech * (treeAdders a.bl a.wp (Nat.log 2 a.bl) : ℚ)) := by
    by_cases ha : a.aimc = true
    · exact ⟨0, by simp [ha], fun h => by rw [ha] at h; cases h⟩
    · have hf : a.aimc = false := by simpa using ha
      rw [if_neg ha]
      obtain ⟨e, e', h5, -, h6, h7, h8⟩ := tree_energy_mono a.tech hnd hxo a.wp (Nat.log 2 a.bl) (le_refl rows)
      refine ⟨e, h5, fun _ => ⟨h6, ?_⟩⟩
      have hb : 2 ^ Nat.log 2 a.bl = a.bl := by
        obtain ⟨j, hj⟩ := hp hf
        rw [hj, Nat.log_pow (by norm_num)]
      rw [hb] at h8
      rw [mul_comm]; linarith
  unfold layerEnergy
  simp only
  rw [htree]
  refine ⟨_, rfl, ?_⟩
  unfold peakEnergy
  refine .cons ⟨rfl, .inl rfl⟩ (.cons ⟨rfl, .inr ?_⟩ (.cons ⟨rfl, .inr ?_⟩ (.cons ⟨rfl, .inr ?_⟩ (.cons ⟨rfl, .inr ?_⟩ (.cons ⟨rfl, .inr ?_⟩
    (.cons ⟨rfl, .inr ?_⟩ (.cons ⟨rfl, .inr ?_⟩ .nil)))))))
  · simp only
    split
    · calc dacE a * rows * ser * times * a.banks = (dacE a * (ser * times) * a.banks) * rows := by ring
        _ ≤ (dacE a * (ser * times) * a.banks) * a.bl := mul_le_mul_of_nonneg_left hrq (by positivity)
        _ = _ := by ring
    · simp
  · simp only
    split
    · calc a.adc.2.2 * a.wp * cols * ser * times * a.banks = (a.adc.2.2 * a.wp * (ser * times) * a.banks) * cols := by ring
        _ ≤ (a.adc.2.2 * a.wp * (ser * times) * a.banks) * a.wl := mul_le_mul_of_nonneg_left hcols (by positivity)
        _ = _ := by ring
    · simp
  · simp only [nMults]
    split
    · push_cast
      calc multE a.tech * (a.wp * a.wl * rows) * ser * times * a.banks = (multE a.tech * (a.wp * a.wl) * (ser * times) * a.banks) * rows := by ring
        _ ≤ (multE a.tech * (a.wp * a.wl) * (ser * times) * a.banks) * a.bl := mul_le_mul_of_nonneg_left hrq (by positivity)
        _ = _ := by ring
    · push_cast
      exact le_of_eq (by ring)
  · simp only
    split
    · calc a.tech.blCap * a.tech.vdd ^ 2 * a.wp * cols * a.bl * ser * times * a.banks
          = (a.tech.blCap * a.tech.vdd ^ 2 * a.wp * a.bl * (ser * times) * a.banks) * cols := by ring
        _ ≤ (a.tech.blCap * a.tech.vdd ^ 2 * a.wp * a.bl * (ser * times) * a.banks) * a.wl := mul_le_mul_of_nonneg_left hcols (by positivity)
        _ = _ := by ring
    · simp
  · simp only
    split
    · simp
    · rename_i ha
      obtain ⟨h5, h6⟩ := htle (by simpa using ha)
      push_cast
      calc tree * (a.bs * cols) * ser * times * a.banks = (a.bs * (ser * times) * a.banks) * (tree * cols) := by ring
        _ ≤ (a.bs * (ser * times) * a.banks) * ((adderE a.tech * (treeAdders a.bl a.wp (Nat.log 2 a.bl) : ℚ)) * a.wl) :=
            mul_le_mul_of_nonneg_left (mul_le_mul h6 hcols hc0 (le_trans h5 h6)) (by positivity)
        _ = _ := by ring
  · simp only
    push_cast
    calc adderE a.tech * pvAdders (pvIn a) (pvPrec a) * cols * ser * times * a.banks
        = (adderE a.tech * pvAdders (pvIn a) (pvPrec a) * (ser * times) * a.banks) * cols := by ring
      _ ≤ (adderE a.tech * pvAdders (pvIn a) (pvPrec a) * (ser * times) * a.banks) * a.wl := mul_le_mul_of_nonneg_left hcols (by positivity)
      _ = _ := by ring
  · simp only
    split
    · simp
    · push_cast
      calc (adderE a.tech + regE a.tech) * accPrec a * cols * ser * times * a.banks
          = ((adderE a.tech + regE a.tech) * accPrec a * (ser * times) * a.banks) * cols := by ring
        _ ≤ ((adderE a.tech + regE a.tech) * accPrec a * (ser * times) * a.banks) * a.wl := mul_le_mul_of_nonneg_left hcols (by positivity)
        _ = _ := by ring

example : layerEnergy sampleArr 3 5 100 0 ≠ none ∧ 3 ≤ sampleArr.bl ∧ ((5 : ℚ) ≤ sampleArr.wl) := by
  refine ⟨?_, by decide, by norm_num [sampleArr]⟩
  obtain ⟨e, he, -⟩ := layer_le_peak sampleArr tech28_nonneg (by norm_num [sampleArr]) ((area_ok_iff sampleArr).2 ⟨fun _ => ⟨2, by decide⟩, ⟨0, by decide⟩⟩)
    (by decide) 3 5 100 0 (by decide) (by norm_num) (by norm_num [sampleArr]) (by norm_num)
  rw [he]; intro h; cases h

/-! ### C71 -/

section
variable {D : Type} [DecidableEq D]

/-- Input coordinates used by outputs `0 .. a-1` and filter positions `0 .. b-1` together (stride and dilation one). -/
def touched (a b : Nat) : Finset Nat := (Finset.range a ×ˢ Finset.range b).image fun p => p.1 + p.2

theorem touched_card (a b : Nat) (ha : 1 ≤ a) (hb : 1 ≤ b) : (touched a b).card = a + b - 1 := by
  have : touched a b = Finset.range (a + b - 1) := by
    ext x
    simp only [touched, Finset.mem_image, Finset.mem_product, Finset.mem_range, Prod.exists]
    constructor
    · rintro ⟨u, v, ⟨hu, hv⟩, rfl⟩; omega
    · intro hx
      by_cases h : x < a
      · exact ⟨x, 0, ⟨h, by omega⟩, by omega⟩
      · exact ⟨a - 1, x - (a - 1), ⟨by omega, by omega⟩, by omega⟩
  rw [this, Finset.card_range]

/-- Rows needed for a dimension with unrolling `s` on the bitlines: for a filter dimension the input coordinates used together with the outputs that are unrolled on
the wordlines. -/
def rowsOf (pairs : List (D × D)) (wl : Dict D Nat) (d : D) (s : Nat) : Nat :=
  match pairs.find? fun p => decide (p.2 = d) with
  | none => s
  | some p => (touched ((wl.get? p.1).getD 1) s).card

/-- Tables of a convolution: every pair has an output dimension the weights do not depend on and a filter dimension. -/
structure ConvPairs (ir : List D) (pairs : List (D × D)) : Prop where
  ir_nodup : ir.Nodup
  fst_nodup : (pairs.map Prod.fst).Nodup
  snd_nodup : (pairs.map Prod.snd).Nodup
  paired : ∀ w, w ∈ ir ↔ w ∈ pairs.map Prod.fst

private theorem pr_tables (ir : List D) (ps : List (D × D)) (s : Dict D (Dict D Rat) × Dict D D) (h : ∀ p ∈ ps, p.1 ∈ ir)
    (h1 : (ps.map Prod.fst).Nodup) (h2 : (ps.map Prod.snd).Nodup) :
    (∀ p ∈ ps, (ps.foldl (prStep ir) s).1.get? p.2 = some [(p.1, 1)] ∧ (ps.foldl (prStep ir) s).2.get? p.1 = some p.2) ∧
    (∀ d, d ∉ ps.map Prod.snd → (ps.foldl (prStep ir) s).1.get? d = s.1.get? d) ∧
    (∀ d, d ∉ ps.map Prod.fst → (ps.foldl (prStep ir) s).2.get? d = s.2.get? d) := by
  induction ps generalizing s with
  | nil => simp
  | cons p ps ih =>
    rw [List.map_cons, List.nodup_cons] at h1 h2
    obtain ⟨i1, i2, i3⟩ := ih (prStep ir s p) (fun q hq => h q (by simp [hq])) h1.2 h2.2
    have hs : prStep ir s p = (s.1.set p.2 [(p.1, 1)], s.2.set p.1 p.2) := by
      unfold prStep; rw [if_pos (h p (by simp))]
    rw [List.foldl_cons]
    refine ⟨?_, ?_, ?_⟩
    · intro q hq
      rcases List.mem_cons.1 hq with rfl | hq
      · rw [i2 _ h2.1, i3 _ h1.1, hs]
        simp only [Dict.get?_set_self, and_self]
      · exact i1 q hq
    · intro d hd
      simp only [List.map_cons, List.mem_cons, not_or] at hd
      rw [i2 d hd.2, hs, Dict.get?_set_of_ne _ _ (Ne.symm hd.1)]
    · intro d hd
      simp only [List.map_cons, List.mem_cons, not_or] at hd
      rw [i3 d hd.2, hs, Dict.get?_set_of_ne _ _ (Ne.symm hd.1)]

private theorem wl_loop (pairs : List (D × D)) (link : Dict D D) (wl : Dict D Rat) (h2 : (pairs.map Prod.snd).Nodup)
    (hlink : ∀ p ∈ pairs, link.get? p.1 = some p.2) (ws done : List D) (prSm : Dict D (Dict D Rat)) (hnd : (done ++ ws).Nodup)
    (hws : ∀ w ∈ ws, w ∈ pairs.map Prod.fst)
    (hin : ∀ p ∈ pairs, prSm.get? p.2 = some [(p.1, if p.1 ∈ done then (wl.get? p.1).getD 1 else 1)])
    (hout : ∀ d, d ∉ pairs.map Prod.snd → prSm.get? d = none) :
    ∃ r, wlLoop link wl prSm ws = .ok r ∧
      (∀ p ∈ pairs, r.get? p.2 = some [(p.1, if p.1 ∈ done ++ ws then (wl.get? p.1).getD 1 else 1)]) ∧
      (∀ d, d ∉ pairs.map Prod.snd → r.get? d = none) := by
  induction ws generalizing done prSm with
  | nil => exact ⟨prSm, rfl, by simpa using hin, hout⟩
  | cons w ws ih =>
    obtain ⟨⟨o, f⟩, hp, rfl⟩ := List.mem_map.1 (hws w (by simp))
    have hwd : o ∉ done := by
      intro hc
      have := (List.nodup_append.1 hnd).2.2 o hc o (by simp)
      exact this rfl
    obtain ⟨prSm', hstep, hin', hout'⟩ : ∃ prSm', wlStep link wl prSm o = .ok prSm' ∧
        (∀ p ∈ pairs, prSm'.get? p.2 = some [(p.1, if p.1 ∈ done ++ [o] then (wl.get? p.1).getD 1 else 1)]) ∧
        (∀ d, d ∉ pairs.map Prod.snd → prSm'.get? d = none) := by
      have h3 := hin _ hp
      simp only [if_neg hwd] at h3
      have huniq : ∀ p ∈ pairs, p.2 = f → p = (o, f) := fun p hp' he => List.inj_on_of_nodup_map h2 hp' hp he
      have hout1 : ∀ (v : Dict D Rat) d, d ∉ pairs.map Prod.snd → (prSm.set f v).get? d = none := by
        intro v d hd
        rw [Dict.get?_set_of_ne _ _ (by rintro rfl; exact hd (List.mem_map.2 ⟨_, hp, rfl⟩)), hout d hd]
      have hin1 : ∀ g, wl.get? o = some g → ∀ p ∈ pairs,
          (prSm.set f [(o, g)]).get? p.2 = some [(p.1, if p.1 ∈ done ++ [o] then (wl.get? p.1).getD 1 else 1)] := by
        intro g hg p hp'
        by_cases hf : p.2 = f
        · have := huniq p hp' hf
          subst this
          rw [Dict.get?_set_self]
          simp [hg]
        · rw [Dict.get?_set_of_ne _ _ (Ne.symm hf), hin p hp']
          have hne : p.1 ≠ o := by
            intro hc
            have e1 := hlink p hp'
            have e2 := hlink _ hp
            rw [hc] at e1
            simp only at e2
            rw [e1] at e2
            exact hf (Option.some.inj e2)
          simp [hne]
      unfold wlStep
      rw [hlink _ hp]
      simp only
      cases hg : wl.get? o with
      | none =>
        refine ⟨prSm, rfl, ?_, hout⟩
        intro p hp'
        rw [hin p hp']
        by_cases hpo : p.1 = o
        · simp [hpo, hwd, hg]
        · simp [hpo]
      | some g =>
        simp only
        rw [h3]
        simp only
        by_cases hlen : wl.length = 1
        · rw [if_pos hlen]
          have e : (Dict.set [(o, (1 : Rat))] o g) = [(o, g)] := by simp [Dict.set]
          rw [e]
          exact ⟨_, rfl, hin1 g hg, hout1 _⟩
        · rw [if_neg hlen]
          have e : (Dict.set [(o, (1 : Rat))] o (1 * g)) = [(o, g)] := by simp [Dict.set]
          have e2 : Dict.get? [(o, (1 : Rat))] o = some 1 := by simp [Dict.get?_cons]
          rw [e2]
          simp only
          rw [e]
          exact ⟨_, rfl, hin1 g hg, hout1 _⟩
    obtain ⟨r, h4, h5, h6⟩ := ih (done ++ [o]) prSm' (by simpa using hnd) (fun w hw => hws w (by simp [hw])) hin' hout'
    refine ⟨r, ?_, ?_, h6⟩
    · rw [wlLoop, hstep]; exact h4
    · intro p hp'
      rw [h5 p hp']
      simp

/-- Table with rational sizes. -/
def castD (t : Dict D Nat) : Dict D Rat := t.map fun e => (e.1, (e.2 : Rat))

private theorem castD_get (t : Dict D Nat) (d : D) : (castD t).get? d = (t.get? d).map fun n => (n : Rat) := by
  induction t with
  | nil => rfl
  | cons e t ih =>
    have : castD (e :: t) = (e.1, (e.2 : Rat)) :: castD t := rfl
    rw [this, Dict.get?_cons, Dict.get?_cons, ih]
    split <;> simp

private theorem rows_loop (pairs : List (D × D)) (wl : Dict D Nat) (prSm : Dict D (Dict D Rat)) (hw : ∀ e ∈ wl, 1 ≤ e.2)
    (hin : ∀ p ∈ pairs, prSm.get? p.2 = some [(p.1, ((castD wl).get? p.1).getD 1)])
    (hout : ∀ d, d ∉ pairs.map Prod.snd → prSm.get? d = none) (bl : Dict D Nat) (hb : ∀ e ∈ bl, 1 ≤ e.2) (t a : Rat) :
    rowsLoop prSm (castD bl) t a =
      .ok (t * ((bl.map fun e => rowsOf pairs wl e.1 e.2).prod : Nat), a * ((bl.map Prod.snd).prod : Nat)) := by
  induction bl generalizing t a with
  | nil => simp [castD, rowsLoop]
  | cons e bl ih =>
    have hc : castD (e :: bl) = (e.1, (e.2 : Rat)) :: castD bl := rfl
    have he := hb e (by simp)
    have hx : extra prSm e.1 = .ok ((rowsOf pairs wl e.1 e.2 : Rat) - e.2) := by
      unfold extra rowsOf
      cases hf : pairs.find? fun p => decide (p.2 = e.1) with
      | none =>
        have : e.1 ∉ pairs.map Prod.snd := by
          intro hm
          obtain ⟨p, hp, hp'⟩ := List.mem_map.1 hm
          have := List.find?_eq_none.1 hf p hp
          simp [hp'] at this
        rw [hout _ this]
        simp
      | some p =>
        have hp := List.mem_of_find?_eq_some hf
        have hp2 : p.2 = e.1 := by simpa using List.find?_some hf
        have := hin p hp
        rw [hp2] at this
        rw [this]
        simp only
        have h1 : 1 ≤ (wl.get? p.1).getD 1 := by
          cases hg : wl.get? p.1 with
          | none => exact le_refl _
          | some n => exact hw _ (Dict.mem_of_get? hg)
        rw [touched_card _ _ h1 he]
        have h2 : ((castD wl).get? p.1).getD 1 = (((wl.get? p.1).getD 1 : Nat) : Rat) := by
          rw [castD_get]
          cases wl.get? p.1 <;> simp
        rw [h2]
        have h3 : ((((wl.get? p.1).getD 1 + e.2 - 1 : Nat)) : Rat) = (((wl.get? p.1).getD 1 : Nat) : Rat) + e.2 - 1 := by
          rw [Nat.cast_sub (by omega)]; push_cast; ring
        rw [h3]
        congr 1
        ring
    rw [hc, rowsLoop, hx]
    simp only
    rw [ih (fun x hx => hb x (by simp [hx]))]
    simp only [List.map_cons, List.prod_cons]
    push_cast
    refine congrArg Except.ok (Prod.ext ?_ ?_) <;> simp only <;> ring

/-- C71, partial: with at least two dimensions on the bitlines, all dimensions irrelevant for the weights paired with a filter dimension, and the set of dimensions
traversed in the order of the mapping, the rows counted are the product over the bitline dimensions of the input coordinates that are needed, and the adder inputs are
the unrolling on the bitlines.  Missing: one dimension (`rows_single_false`), other irrelevant dimensions (`rows_batch_false`), other orders (`rows_order_false`). -/
theorem rows_partial (ir : List D) (pairs : List (D × D)) (hp : ConvPairs ir pairs) (wl bl : Dict D Nat) (hw : ∀ e ∈ wl, 1 ≤ e.2) (hb : ∀ e ∈ bl, 1 ≤ e.2)
    (h2 : 2 ≤ bl.length) :
    mappedRows ir pairs (castD wl) (castD bl) bl.keys =
      .ok ((((bl.map fun e => rowsOf pairs wl e.1 e.2).prod : Nat) : Int), (((bl.map Prod.snd).prod : Nat) : Int)) := by
  obtain ⟨t1, t2, -⟩ := pr_tables ir pairs ([], []) (fun p h => (hp.paired _).2 (List.mem_map.2 ⟨p, h, rfl⟩)) hp.fst_nodup hp.snd_nodup
  obtain ⟨r, h3, h4, h5⟩ := wl_loop pairs (pairs.foldl (prStep ir) ([], [])).2 (castD wl) hp.snd_nodup (fun p h => (t1 p h).2) ir [] _
    (by simpa using hp.ir_nodup) (fun w h => (hp.paired w).1 h) (fun p h => by simpa using (t1 p h).1) (fun d hd => by rw [t2 d hd]; rfl)
  have h6 : ∀ p ∈ pairs, r.get? p.2 = some [(p.1, ((castD wl).get? p.1).getD 1)] := by
    intro p h
    rw [h4 p h, if_pos]
    simpa using (hp.paired p.1).2 (List.mem_map.2 ⟨p, h, rfl⟩)
  have hloop := rows_loop pairs wl r hw h6 h5 bl hb 1 1
  unfold mappedRows
  simp only
  rw [h3]
  simp only
  have hz : (Dict.keys bl).zip ((castD bl).map Prod.snd) = castD bl := by
    unfold castD Dict.keys
    rw [List.map_map, List.zip_map']
    rfl
  match hk : Dict.keys bl, h2 with
  | [], h2 =>
    have : bl.length = 0 := by
      have := congrArg List.length hk
      simpa [Dict.keys] using this
    omega
  | [d], h2 =>
    have : bl.length = 1 := by
      have := congrArg List.length hk
      simpa [Dict.keys] using this
    omega
  | d :: d' :: ds, h2 =>
    rw [hk] at hz
    simp only
    rw [hz, hloop]
    simp only [one_mul]
    rw [Int.ceil_natCast, Int.ceil_natCast]

end

/-- C and FX on the bitlines, OX and K on the wordlines. -/
example : mappedRows ["OX", "OY"] [("OX", "FX"), ("OY", "FY")] (castD [("OX", 2), ("K", 3)]) (castD [("C", 2), ("FX", 3)]) ["C", "FX"] = .ok (8, 6) := by
  decide +kernel

example : ConvPairs ["OX", "OY"] [("OX", "FX"), ("OY", "FY")] := ⟨by decide, by decide, by decide, by intro w; simp⟩

/-- C71 fails with one dimension on the bitlines: the calculation raises. -/
theorem rows_single_false : mappedRows ["OX", "OY"] [("OX", "FX"), ("OY", "FY")] (castD [("OX", 2)]) (castD [("FX", 3)]) ["FX"] = .error .indexError := by
  decide +kernel

/-- C71 fails for layers with a batch dimension: the calculation raises. -/
theorem rows_batch_false :
    mappedRows ["B", "OX", "OY"] [("OX", "FX"), ("OY", "FY")] (castD [("OX", 2)]) (castD [("C", 2), ("FX", 3)]) ["C", "FX"] = .error .keyError := by
  decide +kernel

/-- C71 fails when the set of dimensions is traversed in another order than the mapping: sizes are exchanged between dimensions. -/
theorem rows_order_false :
    mappedRows ["OX", "OY"] [("OX", "FX"), ("OY", "FY")] (castD [("OX", 4)]) (castD [("C", 2), ("FX", 3)]) ["C", "FX"] = .ok (12, 6) ∧
    mappedRows ["OX", "OY"] [("OX", "FX"), ("OY", "FY")] (castD [("OX", 4)]) (castD [("C", 2), ("FX", 3)]) ["FX", "C"] = .ok (15, 6) := by
  decide +kernel

/-- The rows of a diagonal mapping can exceed the rows of the macro: four rows, C and FX unrolled by two on them, OX unrolled by four on the wordlines. -/
theorem rows_exceed_false :
    ∃ (wl bl : Dict String Nat), (bl.map Prod.snd).prod = sampleArr.bl ∧ (wl.map Prod.snd).prod ≤ sampleArr.wl ∧
      mappedDims ["OX", "OY"] [("OX", "FX"), ("OY", "FY")] (some (castD wl)) (some (castD bl)) bl.keys = .ok (10, 4, 4) :=
  ⟨[("OX", 4)], [("C", 2), ("FX", 2)], by decide +kernel⟩

/-! ### C73 -/

/-- C73: without an output dimension on the wordlines, rows and adder inputs are the same number and inside the macro. -/
theorem rows_plain {D : Type} [DecidableEq D] (ir : List D) (pairs : List (D × D)) (wl bl : Option (Dict D Rat)) (blDims : List D) (n : Nat) (hn : 1 ≤ n)
    (hwl : ∀ w, wl = some w → ∀ e ∈ w, e.1 ∉ ir) (hbl : ∀ b, bl = some b → (b.map Prod.snd).prod ≤ n) :
    ∃ rows cols, mappedDims ir pairs wl bl blDims = .ok (rows, rows, cols) ∧ rows ≤ n ∧
      (∀ b, bl = some b → rows = ⌈(b.map Prod.snd).prod⌉) ∧ (∀ w, wl = some w → cols = (w.map Prod.snd).prod) := by
  unfold mappedDims
  simp only
  cases bl with
  | none =>
    refine ⟨1, _, rfl, by exact_mod_cast hn, (by rintro b h; cases h), ?_⟩
    rintro w rfl; rfl
  | some b =>
    have hle : ⌈(b.map Prod.snd).prod⌉ ≤ (n : Int) := Int.ceil_le.2 (by exact_mod_cast hbl b rfl)
    cases wl with
    | none => exact ⟨_, _, rfl, hle, by rintro b' h; cases h; rfl, by rintro w h; cases h⟩
    | some w =>
      have hd : (w.any fun e => decide (e.1 ∈ ir)) = false := by
        rw [List.any_eq_false]
        intro e he
        simpa using hwl w rfl e he
      simp only
      rw [if_pos (.inl hd)]
      exact ⟨_, _, rfl, hle, by rintro b' h; cases h; rfl, by rintro w' h; cases h; rfl⟩

/-- An array with eight rows. -/
def eightRows : Arr := { sampleArr with bl := 8 }

/-- C73 is false for diagonal mappings: four adder inputs carry data, the adder trees are charged for six. -/
theorem adder_inputs_false :
    mappedDims ["OX", "OY"] [("OX", "FX"), ("OY", "FY")] (some (castD [("OX", 2)])) (some (castD [("C", 2), ("FX", 2)])) ["C", "FX"] = .ok (6, 4, 2) ∧
    (∃ e4 e6, treeEnergy tech28 8 4 3 = some e4 ∧ treeEnergy tech28 8 6 3 = some e6 ∧ e4 < e6 ∧
      ∀ times pre, ∃ l, layerEnergy eightRows 6 2 times pre = some l ∧ ("adders_regular", e6 * (1 * 2) * (8 / 1) * times) ∈ l) := by
  refine ⟨by decide +kernel, _, _, tree_energy_exact _ _ _ _, tree_energy_exact _ _ _ _, ?_, ?_⟩
  · have h1 : (fill 3 4).full 8 = 25 := by decide
    have h2 : (fill 3 4).half 8 = 10 := by decide
    have h3 : (fill 3 6).full 8 = 43 := by decide
    have h4 : (fill 3 6).half 8 = 9 := by decide
    rw [h1, h2, h3, h4]
    norm_num [adderE, adderHalfE, tech28]
  · intro times pre
    have hl : Nat.log 2 8 = 3 := by decide
    have e : (if eightRows.aimc then some 0 else treeEnergy eightRows.tech eightRows.wp 6 (Nat.log 2 eightRows.bl)) =
        some (((fill 3 6).full 8 : Rat) * adderE tech28 + ((fill 3 6).half 8 : Rat) * adderHalfE tech28) := by
      have : eightRows.bl = 8 := rfl
      rw [this, hl]
      exact tree_energy_exact tech28 8 6 3
    unfold layerEnergy
    simp only
    rw [e]
    refine ⟨_, rfl, ?_⟩
    have hb : eightRows.bs = 1 := rfl
    have ha : eightRows.act = 8 := rfl
    have hm : eightRows.aimc = false := rfl
    rw [hb, ha, hm]
    simp

/-! ### C74 -/

/-- C74: equality is reflexive and ignores nothing but the history of evaluated layers. -/
theorem eq_fresh (o p : ArrObj) (ho : o.energy = none) (hp : p.energy = none) (same : Bool) :
    o.eq p same = true ↔ o.area = p.area ∧ o.tclk = p.tclk ∧ same = true := by
  simp [ArrObj.eq, ho, hp, and_assoc]

/-- C74 is false once a layer has been evaluated: the array differs from an identical one. -/
theorem eq_history_false (o : ArrObj) (h : o.energy = none) (e : List (String × Rat)) : o.eq o true = true ∧ (o.evalLayer e).eq o true = false := by
  simp [ArrObj.eq, ArrObj.evalLayer, h]

example : (⟨sampleArr, [], [], none⟩ : ArrObj).energy = none := rfl

/-! ### C75 -/

private theorem area_fold (mems : List (String × Rat)) (s : Rat × Dict String Rat) :
    (mems.foldl areaStep s).1 = s.1 + (mems.map Prod.snd).sum := by
  induction mems generalizing s with
  | nil => simp
  | cons m ms ih => rw [List.foldl_cons, ih]; simp [areaStep]; ring

private theorem area_break (mems : List (String × Rat)) (s : Rat × Dict String Rat) (h : (s.2.keys ++ mems.map Prod.fst).Nodup) :
    (mems.foldl areaStep s).2 = s.2 ++ mems := by
  induction mems generalizing s with
  | nil => simp
  | cons m ms ih =>
    have hm : m.1 ∉ s.2.keys := by
      intro hc
      exact (List.nodup_append.1 h).2.2 _ hc m.1 (by simp) rfl
    have hset : s.2.set m.1 m.2 = s.2 ++ [m] := by
      have : ∀ (t : Dict String Rat), m.1 ∉ t.keys → t.set m.1 m.2 = t ++ [m] := by
        intro t
        induction t with
        | nil => intro _; rfl
        | cons x t ih =>
          intro ht
          have h1 : x.1 ≠ m.1 := fun hc => ht (by simp [Dict.keys, hc])
          have h2 := ih (fun hc => ht (List.mem_cons_of_mem _ hc))
          simp [Dict.set, h1, h2]
      exact this _ hm
    have e : areaStep s m = (s.1 + m.2, s.2 ++ [m]) := by unfold areaStep; rw [hset]
    rw [List.foldl_cons, e, ih]
    · simp
    · simpa [Dict.keys] using h

/-- C75: the memory area is the sum of the areas of the memories, the total area adds the array. -/
theorem area_total (imc : Rat) (mems : List (String × Rat)) :
    (collectArea imc mems).1 = (mems.map Prod.snd).sum ∧ (collectArea imc mems).2.2 = imc + (mems.map Prod.snd).sum := by
  have := area_fold mems (0, [])
  simp only [zero_add] at this
  unfold collectArea
  simp only [this, and_self]

/-- C75, partial: with different memory names the breakdown lists every memory and adds up to the memory area.  Missing: equal names (`area_breakdown_false`). -/
theorem area_breakdown_partial (imc : Rat) (mems : List (String × Rat)) (h : (mems.map Prod.fst).Nodup) :
    (collectArea imc mems).2.1 = mems ∧ ((collectArea imc mems).2.1.map Prod.snd).sum = (collectArea imc mems).1 := by
  have h1 : (collectArea imc mems).2.1 = mems := by
    have := area_break mems (0, []) (by simpa [Dict.keys] using h)
    simpa [collectArea] using this
  refine ⟨h1, ?_⟩
  rw [h1, (area_total imc mems).1]

/-- C75 is false for memories with the same name: the breakdown does not add up. -/
theorem area_breakdown_false : ∃ mems : List (String × Rat), ((collectArea 1 mems).2.1.map Prod.snd).sum ≠ (collectArea 1 mems).1 :=
  ⟨[("sram", 2), ("sram", 3)], by decide +kernel⟩

end Verif.Imc
