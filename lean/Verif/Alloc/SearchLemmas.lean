import Verif.Alloc.Model
import Mathlib.Tactic.Ring
import Mathlib.Tactic.Linarith
import Mathlib.Data.List.Flatten
import Mathlib.Data.List.Lex
import Mathlib.Data.List.Forall2

/-! Helper lemmas: the mixed radix enumeration and the search loop. -/

namespace Verif.Alloc

/-- All index vectors below the given lengths, first component most significant. -/
def combos : List Nat → List (List Nat)
  | [] => [[]]
  | n :: rest => (List.range n).flatMap (fun k => (combos rest).map (fun c => k :: c))

theorem range_mul (n P : Nat) : List.range (n * P) = (List.range n).flatMap (fun k => (List.range P).map (fun r => k * P + r)) := by
  induction n with
  | zero => simp
  | succ n ih =>
    rw [Nat.succ_mul, List.range_add, List.range_succ, List.flatMap_append, ih]
    simp

theorem decode_mod : ∀ (lens : List Nat) (i : Nat), decode lens (i % lens.prod) = decode lens i
  | [], i => rfl
  | n :: rest, i => by
    simp only [decode, List.prod_cons]
    have h1 : (i % (n * rest.prod)) / rest.prod % n = i / rest.prod % n := by
      rw [Nat.mul_comm n, Nat.mod_mul_right_div_self, Nat.mod_mod]
    have h2 : decode rest (i % (n * rest.prod)) = decode rest i := by
      rw [← decode_mod rest (i % (n * rest.prod)), Nat.mod_mod_of_dvd _ (Dvd.intro_left n rfl), decode_mod rest i]
    rw [h1, h2]

theorem decode_combos : ∀ lens : List Nat, (List.range lens.prod).map (decode lens) = combos lens
  | [] => by simp [combos, decode]
  | n :: rest => by
    rw [List.prod_cons, range_mul, combos, List.map_flatMap, ← decode_combos rest]
    have key : ∀ l : List Nat, (∀ k ∈ l, k < n) → 
        l.flatMap (fun k => ((List.range rest.prod).map (fun r => k * rest.prod + r)).map (decode (n :: rest))) =
        l.flatMap (fun k => ((List.range rest.prod).map (decode rest)).map (fun c => k :: c)) := by
      intro l hl
      induction l with
      | nil => rfl
      | cons k l ih =>
        rw [List.flatMap_cons, List.flatMap_cons, ih (fun k hk => hl k (by simp [hk]))]
        congr 1
        rw [List.map_map, List.map_map]
        apply List.map_congr_left
        intro r hr
        rw [List.mem_range] at hr
        have hk : k < n := hl k (by simp)
        have hP : 0 < rest.prod := by omega
        simp only [Function.comp, decode]
        have h1 : (k * rest.prod + r) / rest.prod = k := by
          rw [Nat.mul_comm, Nat.mul_add_div hP, Nat.div_eq_of_lt hr]; simp
        have h2 : (k * rest.prod + r) % rest.prod = r := by
          rw [Nat.mul_comm, Nat.mul_add_mod, Nat.mod_eq_of_lt hr]
        rw [h1, Nat.mod_eq_of_lt hk, ← decode_mod rest, h2]
    exact key (List.range n) (fun k hk => List.mem_range.1 hk)

theorem mem_combos : ∀ {lens v : List Nat}, v ∈ combos lens ↔ List.Forall₂ (fun k n => k < n) v lens
  | [], v => by
    simp only [combos, List.mem_singleton]
    constructor
    · rintro rfl; exact List.Forall₂.nil
    · intro h; cases h; rfl
  | n :: rest, v => by
    simp only [combos, List.mem_flatMap, List.mem_range, List.mem_map]
    constructor
    · rintro ⟨k, hk, c, hc, rfl⟩
      exact List.Forall₂.cons hk (mem_combos.1 hc)
    · intro h
      cases h with
      | cons h1 h2 => exact ⟨_, h1, _, mem_combos.2 h2, rfl⟩

theorem combos_sorted : ∀ lens : List Nat, (combos lens).Pairwise (List.Lex (· < ·))
  | [] => by simp [combos]
  | n :: rest => by
    have ih := combos_sorted rest
    rw [combos, List.pairwise_flatMap]
    constructor
    · intro k _
      rw [List.pairwise_map]
      exact ih.imp (fun h => List.Lex.cons h)
    · refine List.Pairwise.imp ?_ List.pairwise_lt_range
      intro a b hab x hx y hy
      obtain ⟨c, _, rfl⟩ := List.mem_map.1 hx
      obtain ⟨d, _, rfl⟩ := List.mem_map.1 hy
      exact List.Lex.rel hab

section
variable (cands : List Cand) (cap : ℚ) (valid : List Nat → Bool)

def lensOf : List Nat := cands.map (fun c => c.sizes.length)
def sizeOf' (v : List Nat) : ℚ := pick (cands.map (fun c => c.sizes)) v
def accOf (v : List Nat) : ℚ := pick (cands.map (fun c => c.acc)) v
def withOff (v : List Nat) : List Nat := List.zipWith (· + ·) v (cands.map (fun c => c.offset))
/-- A combination that fits and is allowed. -/
def Feasible (v : List Nat) : Prop := sizeOf' cands v ≤ cap ∧ valid (withOff cands v) = true

/-- What the search knows after combinations `0 .. k-1`. -/
def Known (k : Nat) (b : List Nat × Option ℚ) : Prop :=
  ((∀ i < k, ¬ Feasible cands cap valid (decode (lensOf cands) i)) ∧ b = (cands.map (fun _ => 0), none)) ∨
  ∃ i < k, Feasible cands cap valid (decode (lensOf cands) i) ∧
    b = (withOff cands (decode (lensOf cands) i), some (accOf cands (decode (lensOf cands) i))) ∧
    ∀ j < k, Feasible cands cap valid (decode (lensOf cands) j) →
      accOf cands (decode (lensOf cands) i) ≤ accOf cands (decode (lensOf cands) j) ∧
      (accOf cands (decode (lensOf cands) j) = accOf cands (decode (lensOf cands) i) → j ≤ i)

theorem known_step {k : Nat} {b : List Nat × Option ℚ} (h : Known cands cap valid k b) :
    (¬ Feasible cands cap valid (decode (lensOf cands) k) → Known cands cap valid (k + 1) b) ∧
    (Feasible cands cap valid (decode (lensOf cands) k) →
      (∀ a, b.2 = some a → accOf cands (decode (lensOf cands) k) ≤ a) →
      Known cands cap valid (k + 1) (withOff cands (decode (lensOf cands) k), some (accOf cands (decode (lensOf cands) k)))) ∧
    (∀ a, b.2 = some a → a < accOf cands (decode (lensOf cands) k) → Known cands cap valid (k + 1) b) := by
  refine ⟨?_, ?_, ?_⟩
  · intro hf
    rcases h with ⟨h1, h2⟩ | ⟨i, hi, h1, h2, h3⟩
    · left
      refine ⟨fun i hi => ?_, h2⟩
      rcases Nat.lt_succ_iff_lt_or_eq.1 hi with h | rfl
      · exact h1 i h
      · exact hf
    · right
      refine ⟨i, by omega, h1, h2, fun j hj hjf => ?_⟩
      rcases Nat.lt_succ_iff_lt_or_eq.1 hj with h | rfl
      · exact h3 j h hjf
      · exact absurd hjf hf
  · intro hf hle
    right
    refine ⟨k, by omega, hf, rfl, fun j hj hjf => ?_⟩
    rcases Nat.lt_succ_iff_lt_or_eq.1 hj with hlt | rfl
    · rcases h with ⟨h1, _⟩ | ⟨i, hi, h1, h2, h3⟩
      · exact absurd hjf (h1 j hlt)
      · have := hle _ (by rw [h2])
        exact ⟨le_trans this (h3 j hlt hjf).1, fun _ => by omega⟩
    · exact ⟨le_rfl, fun _ => le_rfl⟩
  · intro a hb hlt
    rcases h with ⟨h1, h2⟩ | ⟨i, hi, h1, h2, h3⟩
    · rw [h2] at hb; simp at hb
    · right
      refine ⟨i, by omega, h1, h2, fun j hj hjf => ?_⟩
      rcases Nat.lt_succ_iff_lt_or_eq.1 hj with h | rfl
      · exact h3 j h hjf
      · rw [h2] at hb; simp at hb
        rw [← hb] at hlt
        exact ⟨le_of_lt hlt, fun h => absurd h (ne_of_gt hlt)⟩

theorem search_cons_eq (k : Nat) (is : List Nat) (b : List Nat × Option ℚ) : search cands cap valid (k :: is) b =
    if cap < sizeOf' cands (decode (lensOf cands) k) then
      if k = 0 then .error .memoryTooSmall else search cands cap valid is b
    else if (match b.2 with | none => true | some x => decide (accOf cands (decode (lensOf cands) k) ≤ x)) &&
        valid (withOff cands (decode (lensOf cands) k)) then
      search cands cap valid is (withOff cands (decode (lensOf cands) k), some (accOf cands (decode (lensOf cands) k)))
    else search cands cap valid is b := rfl

/-- One iteration of the search. -/
theorem search_cons {k : Nat} {is : List Nat} {b : List Nat × Option ℚ} (h : Known cands cap valid k b)
    (h0 : k = 0 → sizeOf' cands (decode (lensOf cands) k) ≤ cap) :
    ∃ b', search cands cap valid (k :: is) b = search cands cap valid is b' ∧ Known cands cap valid (k + 1) b' := by
  obtain ⟨s1, s2, s3⟩ := known_step cands cap valid h
  rw [search_cons_eq]
  by_cases hc : cap < sizeOf' cands (decode (lensOf cands) k)
  · rw [if_pos hc]
    have hk : k ≠ 0 := fun hk => absurd (h0 hk) (not_le.2 hc)
    rw [if_neg hk]
    exact ⟨b, rfl, s1 (fun hf => absurd hf.1 (not_le.2 hc))⟩
  · rw [if_neg hc]
    by_cases hv : valid (withOff cands (decode (lensOf cands) k)) = true
    · cases hb : b.2 with
      | none =>
        simp only [hv, Bool.and_true, if_true]
        exact ⟨_, rfl, s2 ⟨not_lt.1 hc, hv⟩ (by intro a ha; rw [hb] at ha; cases ha)⟩
      | some a =>
        simp only [hv, Bool.and_true, decide_eq_true_eq]
        by_cases ha : accOf cands (decode (lensOf cands) k) ≤ a
        · rw [if_pos ha]
          exact ⟨_, rfl, s2 ⟨not_lt.1 hc, hv⟩ (by intro x hx; rw [hb] at hx; cases hx; exact ha)⟩
        · rw [if_neg ha]
          exact ⟨b, rfl, s3 a hb (not_le.1 ha)⟩
    · simp only [hv, Bool.and_false]
      exact ⟨b, rfl, s1 (fun hf => hv hf.2)⟩

theorem search_range' : ∀ (m k : Nat) (b : List Nat × Option ℚ), Known cands cap valid k b →
    (k = 0 → 0 < m → sizeOf' cands (decode (lensOf cands) 0) ≤ cap) →
    ∃ b', search cands cap valid (List.range' k m) b = .ok b' ∧ Known cands cap valid (k + m) b' := by
  intro m
  induction m with
  | zero => intro k b h _; exact ⟨b, by simp [search], h⟩
  | succ m ih =>
    intro k b h h0
    rw [List.range'_succ]
    obtain ⟨b1, h1, h2⟩ := search_cons cands cap valid (is := List.range' (k + 1) m) h
      (by intro hk; subst hk; exact h0 rfl (by omega))
    obtain ⟨b2, h3, h4⟩ := ih (k + 1) b1 h2 (by omega)
    exact ⟨b2, by rw [h1, h3], by rw [show k + (m + 1) = k + 1 + m by omega]; exact h4⟩

theorem search_error (m : Nat) (hm : 0 < m) (b : List Nat × Option ℚ)
    (h : cap < sizeOf' cands (decode (lensOf cands) 0)) :
    search cands cap valid (List.range m) b = .error .memoryTooSmall := by
  obtain ⟨k, rfl⟩ : ∃ k, m = k + 1 := ⟨m - 1, by omega⟩
  rw [List.range_succ_eq_map, search_cons_eq]
  rw [if_pos h, if_pos rfl]

theorem decode_zero : ∀ lens : List Nat, (∀ n ∈ lens, 0 < n) → decode lens 0 = lens.map (fun _ => 0)
  | [], _ => rfl
  | n :: rest, h => by
    simp only [decode, List.map_cons, Nat.zero_div, Nat.zero_mod]
    rw [decode_zero rest (fun k hk => h k (by simp [hk]))]

/-- Full characterisation of `findBest`. -/
theorem findBest_spec (hpos : ∀ c ∈ cands, c.sizes ≠ []) :
    (cap < sizeOf' cands (cands.map (fun _ => 0)) → findBest cands cap valid = .error .memoryTooSmall) ∧
    (sizeOf' cands (cands.map (fun _ => 0)) ≤ cap → ∃ best, findBest cands cap valid = .ok best ∧
      (((∀ v ∈ combos (lensOf cands), ¬ Feasible cands cap valid v) ∧ best = cands.map (fun _ => 0)) ∨
       ∃ v ∈ combos (lensOf cands), Feasible cands cap valid v ∧ best = withOff cands v ∧
        ∀ w ∈ combos (lensOf cands), Feasible cands cap valid w →
          accOf cands v ≤ accOf cands w ∧ (accOf cands w = accOf cands v → w = v ∨ List.Lex (· < ·) w v))) := by
  have hlens : ∀ n ∈ lensOf cands, 0 < n := by
    intro n hn
    obtain ⟨c, hc, rfl⟩ := List.mem_map.1 hn
    exact List.length_pos_iff.2 (hpos c hc)
  have hz : decode (lensOf cands) 0 = cands.map (fun _ => 0) := by
    rw [decode_zero _ hlens]; unfold lensOf; rw [List.map_map]; rfl
  have hN : 0 < (lensOf cands).prod := by
    have : ∀ l : List Nat, (∀ n ∈ l, 0 < n) → 0 < l.prod := by
      intro l hl
      induction l with
      | nil => simp
      | cons a l ih =>
        rw [List.prod_cons]
        exact Nat.mul_pos (hl a (by simp)) (ih (fun n hn => hl n (by simp [hn])))
    exact this _ hlens
  have hdec := decode_combos (lensOf cands)
  have hget : ∀ i, i < (lensOf cands).prod → (combos (lensOf cands))[i]? = some (decode (lensOf cands) i) := by
    intro i hi
    rw [← hdec]; simp [hi]
  have hmem : ∀ v, v ∈ combos (lensOf cands) ↔ ∃ i < (lensOf cands).prod, decode (lensOf cands) i = v := by
    intro v
    rw [← hdec]; simp
  constructor
  · intro h
    unfold findBest
    have := search_error cands cap valid (lensOf cands).prod hN (cands.map (fun _ => 0), none) (by rw [hz]; exact h)
    unfold lensOf at this
    rw [this]
  · intro h
    obtain ⟨b, hb, hk⟩ := search_range' cands cap valid (lensOf cands).prod 0 (cands.map (fun _ => 0), none)
      (Or.inl ⟨fun i hi => absurd hi (by omega), rfl⟩) (fun _ _ => by rw [hz]; exact h)
    rw [← List.range_eq_range'] at hb
    refine ⟨b.1, ?_, ?_⟩
    · unfold findBest
      unfold lensOf at hb
      rw [hb]
    · rw [Nat.zero_add] at hk
      rcases hk with ⟨h1, h2⟩ | ⟨i, hi, h1, h2, h3⟩
      · left
        refine ⟨?_, by rw [h2]⟩
        intro v hv
        obtain ⟨i, hi, rfl⟩ := (hmem v).1 hv
        exact h1 i hi
      · right
        refine ⟨decode (lensOf cands) i, (hmem _).2 ⟨i, hi, rfl⟩, h1, by rw [h2], ?_⟩
        intro w hw hwf
        obtain ⟨j, hj, rfl⟩ := (hmem w).1 hw
        obtain ⟨e1, e2⟩ := h3 j hj hwf
        refine ⟨e1, fun he => ?_⟩
        rcases Nat.lt_or_eq_of_le (e2 he) with hlt | rfl
        · right
          have hs := combos_sorted (lensOf cands)
          rw [List.pairwise_iff_getElem] at hs
          have hlen : (combos (lensOf cands)).length = (lensOf cands).prod := by rw [← hdec]; simp
          have := hs j i (by omega) (by omega) hlt
          have e3 := hget j hj
          have e4 := hget i hi
          rw [List.getElem?_eq_getElem (by omega)] at e3 e4
          rw [Option.some.injEq] at e3 e4
          rw [e3, e4] at this
          exact this
        · left; rfl
end

end Verif.Alloc
