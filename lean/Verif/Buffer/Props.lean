import Verif.Buffer.Model
import Mathlib.Tactic.Ring
import Mathlib.Tactic.Linarith
import Mathlib.Algebra.Order.BigOperators.Group.List
import Mathlib.Data.List.Nodup

/-! C62 and C63: shared memories and double buffering.  Specification: the contents of a physical memory, with a second copy of each operand that is
double buffered, fit into the memory. -/

namespace Verif.Buffer

variable {P : Type} [DecidableEq P]

/-- Different memories have different places. -/
def Disjoint (groups : List (List P)) : Prop := groups.Pairwise fun g h => ∀ p ∈ g, p ∉ h

private theorem shared_aux (groups : List (List P)) (ind : P → ℚ) (t : P → ℚ) (hd : Disjoint groups) (p : P) :
    (∀ g ∈ groups, p ∈ g → (groups.foldl (fun t g => assign ((g.map ind).sum) g t) t) p = (g.map ind).sum)
      ∧ ((∀ g ∈ groups, p ∉ g) → (groups.foldl (fun t g => assign ((g.map ind).sum) g t) t) p = t p) := by
  induction groups generalizing t with
  | nil => exact ⟨(by simp), fun _ => rfl⟩
  | cons g gs ih =>
    have hd' := List.pairwise_cons.1 hd
    rw [List.foldl_cons]
    obtain ⟨i1, i2⟩ := ih (assign ((g.map ind).sum) g t) hd'.2
    refine ⟨fun h hm hp => ?_, fun hno => ?_⟩
    · rcases List.mem_cons.1 hm with rfl | hm
      · rw [i2 fun k hk => hd'.1 k hk p hp]
        simp [assign, hp]
      · exact i1 h hm hp
    · rw [i2 fun k hk => hno k (List.mem_cons_of_mem _ hk)]
      have := hno g List.mem_cons_self
      simp [assign, this]

/-- C62: every operand in a shared memory is reported with the same utilization, the sum over the operands in that memory; an operand alone in its
memory is reported with its own utilization. -/
theorem shared_utilization {groups : List (List P)} (ind : P → ℚ) (hd : Disjoint groups) (p : P) :
    (∀ g ∈ groups, p ∈ g → shared groups ind p = (g.map ind).sum) ∧ ((∀ g ∈ groups, p ∉ g) → shared groups ind p = ind p) :=
  shared_aux groups ind ind hd p

/-- C62: if the operands in each memory together fit, no utilization exceeds one, and the individual utilization never exceeds the shared one. -/
theorem shared_bounds {groups : List (List P)} {ind : P → ℚ} (hd : Disjoint groups) (h0 : ∀ p, 0 ≤ ind p)
    (hfit : ∀ g ∈ groups, (g.map ind).sum ≤ 1) (p : P) (hp : ind p ≤ 1) : ind p ≤ shared groups ind p ∧ shared groups ind p ≤ 1 := by
  obtain ⟨h1, h2⟩ := shared_utilization ind hd p
  by_cases hm : ∃ g ∈ groups, p ∈ g
  · obtain ⟨g, hg, hpg⟩ := hm
    rw [h1 g hg hpg]
    refine ⟨List.single_le_sum (fun x hx => ?_) _ (List.mem_map.2 ⟨p, hpg, rfl⟩), hfit g hg⟩
    obtain ⟨q, -, rfl⟩ := List.mem_map.1 hx
    exact h0 q
  · push Not at hm
    rw [h2 hm]
    exact ⟨le_rfl, hp⟩

/-- Contents of a memory with the places `g`: one copy, or two copies for a buffered place. -/
def load (ind : P → ℚ) (f : P → Bool) (g : List P) : ℚ := (g.map fun p => if f p then 2 * ind p else ind p).sum

private theorem load_update (ind : P → ℚ) (f : P → Bool) (g : List P) (hn : g.Nodup) (p : P) (hf : f p = false) (b : Bool) :
    load ind (fun q => if q = p then b else f q) g = load ind f g + if p ∈ g ∧ b = true then ind p else 0 := by
  unfold load
  induction g with
  | nil => simp
  | cons q g ih =>
    rw [List.nodup_cons] at hn
    simp only [List.map_cons, List.sum_cons, ih hn.2]
    by_cases hq : q = p
    · subst hq
      cases b
      · simp [hf]
      · simp [hf, hn.1]; ring
    · have : (p ∈ q :: g) ↔ p ∈ g := by simp [Ne.symm hq]
      simp only [this, hq, if_false]
      ring

private theorem load_false (ind : P → ℚ) (g : List P) : load ind (fun _ => false) g = (g.map ind).sum := by simp [load]

private theorem load_le (ind : P → ℚ) (h0 : ∀ p, 0 ≤ ind p) (f : P → Bool) (g : List P) : load ind f g ≤ 2 * (g.map ind).sum := by
  unfold load
  induction g with
  | nil => simp
  | cons q g ih =>
    simp only [List.map_cons, List.sum_cons]
    have := h0 q
    split <;> linarith

private theorem load_mem (ind : P → ℚ) (h0 : ∀ p, 0 ≤ ind p) (f : P → Bool) (g : List P) : (g.map ind).sum ≤ load ind f g := by
  unfold load
  induction g with
  | nil => simp
  | cons q g ih =>
    simp only [List.map_cons, List.sum_cons]
    have := h0 q
    split <;> linarith

/-- The memory of a place as a list of places: its group, or itself alone. -/
def memoryOf (groups : List (List P)) (p : P) : List P := (groupOf groups p).getD [p]

private theorem groupOf_spec {groups : List (List P)} (hd : Disjoint groups) {g : List P} (hg : g ∈ groups) {p : P} (hp : p ∈ g) :
    groupOf groups p = some g := by
  unfold groupOf
  induction groups with
  | nil => cases hg
  | cons h gs ih =>
    have hd' := List.pairwise_cons.1 hd
    rcases List.mem_cons.1 hg with rfl | hg
    · simp [hp]
    · have : p ∉ h := fun hc => hd'.1 g hg p hc hp
      rw [List.find?_cons_of_neg (by simpa using this)]
      exact ih hd'.2 hg

private structure Inv (groups : List (List P)) (ind : P → ℚ) (st : (P → ℚ) × (P → Bool)) : Prop where
  small : ∀ g ∈ groups, (g.map ind).sum ≤ 1 / 2 → ∀ p ∈ g, st.1 p = (g.map ind).sum
  big : ∀ g ∈ groups, 1 / 2 < (g.map ind).sum → ∀ p ∈ g, st.1 p = load ind st.2 g ∧ load ind st.2 g ≤ max 1 (g.map ind).sum
  alone : ∀ p, (∀ g ∈ groups, p ∉ g) → st.1 p = ind p ∧ (st.2 p = true → ind p ≤ 1 / 2)

private theorem inv_step {groups : List (List P)} {ind : P → ℚ} (hd : Disjoint groups) (hn : ∀ g ∈ groups, g.Nodup) (h0 : ∀ p, 0 ≤ ind p)
    {st : (P → ℚ) × (P → Bool)} (h : Inv groups ind st) (p : P) (hf : st.2 p = false) : Inv groups ind (step groups ind st p) := by
  unfold step
  by_cases hm : ∃ g ∈ groups, p ∈ g
  · obtain ⟨g, hg, hp⟩ := hm
    have hgo := groupOf_spec hd hg hp
    have hother : ∀ k ∈ groups, k ≠ g → p ∉ k := by
      intro k hk hne hpk
      have := groupOf_spec hd hk hpk
      rw [hgo] at this
      exact hne (Option.some.inj this).symm
    split
    · -- at most half full
      rename_i hle
      refine ⟨h.small, fun k hk hb q hq => ?_, fun q hq => ?_⟩
      · simp only
        have hne : k ≠ g := by
          rintro rfl
          have := (h.big k hk hb p hp).1
          have := load_mem ind h0 st.2 k
          linarith
        rw [load_update ind st.2 k (hn k hk) p hf true, if_neg (fun hc => hother k hk hne hc.1), add_zero]
        exact h.big k hk hb q hq
      · simp only
        have : q ≠ p := by rintro rfl; exact hq g hg hp
        rw [if_neg this]
        exact h.alone q hq
    · rename_i hgt
      push Not at hgt
      have hbig : 1 / 2 < (g.map ind).sum := by
        by_contra hc
        push Not at hc
        have := h.small g hg hc p hp
        linarith
      split
      · rename_i hfit
        obtain ⟨hsh, hle⟩ := h.big g hg hbig p hp
        rw [hgo]
        refine ⟨fun k hk hs q hq => ?_, fun k hk hb q hq => ?_, fun q hq => ?_⟩
        · simp only [bump]
          have hne : k ≠ g := by rintro rfl; linarith
          have : q ∉ g := by
            intro hc
            have e1 := groupOf_spec hd hk hq
            have e2 := groupOf_spec hd hg hc
            rw [e1] at e2
            exact hne (Option.some.inj e2)
          rw [if_neg this]
          exact h.small k hk hs q hq
        · simp only [bump]
          rw [load_update ind st.2 k (hn k hk) p hf true]
          by_cases hkg : k = g
          · subst hkg
            rw [if_pos hq, if_pos ⟨hp, rfl⟩]
            obtain ⟨hq1, hq2⟩ := h.big k hk hb q hq
            refine ⟨by rw [hq1], le_trans ?_ (le_max_left _ _)⟩
            linarith
          · have : q ∉ g := by
              intro hc
              have e1 := groupOf_spec hd hk hq
              have e2 := groupOf_spec hd hg hc
              rw [e1] at e2
              exact hkg (Option.some.inj e2)
            rw [if_neg this, if_neg (fun hc => hother k hk hkg hc.1), add_zero]
            exact h.big k hk hb q hq
        · simp only [bump]
          rw [if_neg (hq g hg), if_neg (show ¬ q = p from fun hc => hq g hg (hc ▸ hp))]
          exact h.alone q hq
      · refine ⟨h.small, fun k hk hb q hq => ?_, fun q hq => ?_⟩
        · simp only
          rw [load_update ind st.2 k (hn k hk) p hf false, if_neg (fun hc => absurd hc.2 (by decide)), add_zero]
          exact h.big k hk hb q hq
        · simp only
          rw [if_neg (show ¬ q = p from fun hc => hq g hg (hc ▸ hp))]
          exact h.alone q hq
  · push Not at hm
    have hal := h.alone p hm
    have hno : groupOf groups p = none := by
      unfold groupOf
      rw [List.find?_eq_none]
      intro g hg
      simpa using hm g hg
    split
    · rename_i hle
      refine ⟨h.small, fun k hk hb q hq => ?_, fun q hq => ?_⟩
      · simp only
        rw [load_update ind st.2 k (hn k hk) p hf true, if_neg (fun hc => hm k hk hc.1), add_zero]
        exact h.big k hk hb q hq
      · simp only
        by_cases hqp : q = p
        · subst hqp
          exact ⟨hal.1, fun _ => by rw [← hal.1]; exact hle⟩
        · rw [if_neg hqp]
          exact h.alone q hq
    · rename_i hgt
      push Not at hgt
      split
      · rename_i hfit
        exfalso
        rw [hal.1] at hgt hfit
        linarith
      · refine ⟨h.small, fun k hk hb q hq => ?_, fun q hq => ?_⟩
        · simp only
          rw [load_update ind st.2 k (hn k hk) p hf false, if_neg (fun hc => absurd hc.2 (by decide)), add_zero]
          exact h.big k hk hb q hq
        · simp only
          by_cases hqp : q = p
          · subst hqp
            exact ⟨hal.1, fun hc => (by simp at hc)⟩
          · rw [if_neg hqp]
            exact h.alone q hq

private theorem step_flag (groups : List (List P)) (ind : P → ℚ) (st : (P → ℚ) × (P → Bool)) (p q : P) (h : q ≠ p) :
    (step groups ind st p).2 q = st.2 q := by
  unfold step
  split
  · simp [h]
  · split <;> simp [h]

private theorem inv_foldl {groups : List (List P)} {ind : P → ℚ} (hd : Disjoint groups) (hn : ∀ g ∈ groups, g.Nodup) (h0 : ∀ p, 0 ≤ ind p)
    (places : List P) (hp : places.Nodup) (st : (P → ℚ) × (P → Bool)) (h : Inv groups ind st) (hf : ∀ p ∈ places, st.2 p = false) :
    Inv groups ind (places.foldl (step groups ind) st) := by
  induction places generalizing st with
  | nil => exact h
  | cons p ps ih =>
    rw [List.nodup_cons] at hp
    rw [List.foldl_cons]
    refine ih hp.2 _ (inv_step hd hn h0 h p (hf p List.mem_cons_self)) fun q hq => ?_
    have hne : q ≠ p := fun hc => hp.1 (hc ▸ hq)
    rw [step_flag _ _ _ _ _ hne]
    exact hf q (List.mem_cons_of_mem _ hq)

/-- C63: in whatever order the places are visited, the contents of every memory with a second copy for each double-buffered operand still fit,
provided a single copy fits. -/
theorem double_buffer_fits {groups : List (List P)} {ind : P → ℚ} {places : List P} (hd : Disjoint groups) (hn : ∀ g ∈ groups, g.Nodup)
    (hp : places.Nodup) (h0 : ∀ p, 0 ≤ ind p) (hfit : ∀ g ∈ groups, (g.map ind).sum ≤ 1) (hone : ∀ p, ind p ≤ 1) :
    (∀ g ∈ groups, load ind (flags groups ind places) g ≤ 1) ∧
      ∀ p, (∀ g ∈ groups, p ∉ g) → load ind (flags groups ind places) [p] ≤ 1 := by
  have hinit : Inv groups ind (shared groups ind, fun _ => false) := by
    refine ⟨fun g hg _ p hp => (shared_utilization ind hd p).1 g hg hp, fun g hg _ p hp => ?_, fun p hp => ?_⟩
    · simp only
      rw [load_false]
      exact ⟨(shared_utilization ind hd p).1 g hg hp, le_max_right _ _⟩
    · exact ⟨(shared_utilization ind hd p).2 hp, fun hc => (by cases hc)⟩
  have h := inv_foldl hd hn h0 places hp _ hinit (fun _ _ => rfl)
  refine ⟨fun g hg => ?_, fun p hpg => ?_⟩
  · by_cases hs : (g.map ind).sum ≤ 1 / 2
    · have := load_le ind h0 (flags groups ind places) g
      linarith
    · push Not at hs
      cases g with
      | nil => simp [load]
      | cons q g =>
        have := (h.big _ hg hs q List.mem_cons_self).2
        have hmax : max 1 ((q :: g).map ind).sum = 1 := max_eq_left (hfit _ hg)
        rw [hmax] at this
        exact this
  · have := (h.alone p hpg).2
    have h1 := hone p
    have h2 := h0 p
    unfold load flags
    simp only [List.map_cons, List.map_nil, List.sum_cons, List.sum_nil, add_zero]
    split
    · rename_i hq
      have := this hq
      linarith
    · exact h1

private theorem flag_after {groups : List (List P)} {ind : P → ℚ} (places : List P) (st : (P → ℚ) × (P → Bool)) (p : P) (hp : p ∉ places) :
    (places.foldl (step groups ind) st).2 p = st.2 p := by
  induction places generalizing st with
  | nil => rfl
  | cons q ps ih =>
    rw [List.mem_cons, not_or] at hp
    rw [List.foldl_cons, ih _ hp.2, step_flag _ _ _ _ _ hp.1]

/-- C63: a memory that is at most half full lets all its operands be double buffered. -/
theorem double_buffer_half {groups : List (List P)} {ind : P → ℚ} {places : List P} (hd : Disjoint groups) (hn : ∀ g ∈ groups, g.Nodup)
    (hp : places.Nodup) (h0 : ∀ p, 0 ≤ ind p) (g : List P) (hg : g ∈ groups) (hhalf : (g.map ind).sum ≤ 1 / 2) (p : P) (hpg : p ∈ g)
    (hpl : p ∈ places) : flags groups ind places p = true := by
  have hinit : Inv groups ind (shared groups ind, fun _ => false) := by
    refine ⟨fun g hg _ p hp => (shared_utilization ind hd p).1 g hg hp, fun g hg _ p hp => ?_, fun p hp => ?_⟩
    · simp only
      rw [load_false]
      exact ⟨(shared_utilization ind hd p).1 g hg hp, le_max_right _ _⟩
    · exact ⟨(shared_utilization ind hd p).2 hp, fun hc => (by cases hc)⟩
  obtain ⟨l1, l2, rfl⟩ := List.append_of_mem hpl
  rw [List.nodup_append] at hp
  have hp1 : l1.Nodup := hp.1
  have hp2 := List.nodup_cons.1 hp.2.1
  unfold flags
  rw [List.foldl_append, List.foldl_cons, flag_after _ _ _ hp2.1]
  have h := inv_foldl hd hn h0 l1 hp1 _ hinit (fun _ _ => rfl)
  have hv := h.small g hg hhalf p hpg
  generalize l1.foldl (step groups ind) (shared groups ind, fun _ => false) = st at hv
  unfold step
  rw [if_pos (by rw [hv]; exact hhalf)]
  simp

/-- C63: an operand that is alone in its memory is double buffered exactly if it takes at most half of it. -/
theorem double_buffer_alone {groups : List (List P)} {ind : P → ℚ} {places : List P} (hd : Disjoint groups) (hn : ∀ g ∈ groups, g.Nodup)
    (hp : places.Nodup) (h0 : ∀ p, 0 ≤ ind p) (p : P) (ha : ∀ g ∈ groups, p ∉ g) (hpl : p ∈ places) :
    flags groups ind places p = true ↔ ind p ≤ 1 / 2 := by
  have hinit : Inv groups ind (shared groups ind, fun _ => false) := by
    refine ⟨fun g hg _ p hp => (shared_utilization ind hd p).1 g hg hp, fun g hg _ p hp => ?_, fun p hp => ?_⟩
    · simp only
      rw [load_false]
      exact ⟨(shared_utilization ind hd p).1 g hg hp, le_max_right _ _⟩
    · exact ⟨(shared_utilization ind hd p).2 hp, fun hc => (by cases hc)⟩
  obtain ⟨l1, l2, rfl⟩ := List.append_of_mem hpl
  rw [List.nodup_append] at hp
  have hp1 : l1.Nodup := hp.1
  have hp2 := List.nodup_cons.1 hp.2.1
  unfold flags
  rw [List.foldl_append, List.foldl_cons, flag_after _ _ _ hp2.1]
  have h := inv_foldl hd hn h0 l1 hp1 _ hinit (fun _ _ => rfl)
  have hv := (h.alone p ha).1
  generalize l1.foldl (step groups ind) (shared groups ind, fun _ => false) = st at hv
  unfold step
  rw [hv]
  by_cases hh : ind p ≤ 1 / 2
  · rw [if_pos hh]
    exact ⟨fun _ => hh, fun _ => if_pos rfl⟩
  · rw [if_neg hh, if_neg (by linarith)]
    exact ⟨fun hc => by simp at hc, fun hc => absurd hc hh⟩

/-- Contents of a memory only grow while places are visited. -/
private theorem load_mono {groups : List (List P)} {ind : P → ℚ} (h0 : ∀ p, 0 ≤ ind p) (g : List P) (hn : g.Nodup) : ∀ (places : List P)
    (st : (P → ℚ) × (P → Bool)), places.Nodup → (∀ p ∈ places, st.2 p = false) → load ind st.2 g ≤ load ind (places.foldl (step groups ind) st).2 g
  | [], _, _, _ => le_refl _
  | p :: ps, st, hp, hf => by
    have hp' := List.nodup_cons.1 hp
    refine le_trans ?_ (load_mono h0 g hn ps _ hp'.2 (fun q hq => ?_))
    · have hup : ∀ b, load ind st.2 g ≤ load ind (fun q => if q = p then b else st.2 q) g := by
        intro b
        rw [load_update ind st.2 g hn p (hf p (by simp)) b]
        split_ifs
        · linarith [h0 p]
        · linarith
      unfold step
      split_ifs <;> exact hup _
    · rw [step_flag _ _ _ p q (by rintro rfl; exact hp'.1 hq)]
      exact hf q (List.mem_cons_of_mem _ hq)

/-- C63: an operand that is not double buffered has no room for a second copy next to what is in its memory in the end. -/
theorem double_buffer_full {groups : List (List P)} {ind : P → ℚ} {places : List P} (hd : Disjoint groups) (hn : ∀ g ∈ groups, g.Nodup)
    (hp : places.Nodup) (h0 : ∀ p, 0 ≤ ind p) (g : List P) (hg : g ∈ groups) (p : P) (hpg : p ∈ g) (hpl : p ∈ places)
    (hf : flags groups ind places p = false) : 1 < load ind (flags groups ind places) g + ind p := by
  have hinit : Inv groups ind (shared groups ind, fun _ => false) := by
    refine ⟨fun g hg _ p hp => (shared_utilization ind hd p).1 g hg hp, fun g hg _ p hp => ?_, fun p hp => ?_⟩
    · simp only
      rw [load_false]
      exact ⟨(shared_utilization ind hd p).1 g hg hp, le_max_right _ _⟩
    · exact ⟨(shared_utilization ind hd p).2 hp, fun hc => (by cases hc)⟩
  have hbig : 1 / 2 < (g.map ind).sum := by
    by_contra hc
    rw [double_buffer_half hd hn hp h0 g hg (by linarith) p hpg hpl] at hf
    cases hf
  obtain ⟨l1, l2, rfl⟩ := List.append_of_mem hpl
  rw [List.nodup_append] at hp
  have hp2 := List.nodup_cons.1 hp.2.1
  have h := inv_foldl hd hn h0 l1 hp.1 _ hinit (fun _ _ => rfl)
  have hl : ∀ q, q ∉ l1 → (l1.foldl (step groups ind) (shared groups ind, fun _ => false)).2 q = false := fun q hq => flag_after l1 _ q hq
  have hv := (h.big g hg hbig p hpg).1
  unfold flags at hf ⊢
  rw [List.foldl_append, List.foldl_cons] at hf ⊢
  rw [flag_after _ _ _ hp2.1] at hf
  have hmono := load_mono h0 g (hn g hg) (groups := groups) (p :: l2) (l1.foldl (step groups ind) (shared groups ind, fun _ => false)) hp.2.1
    (fun q hq => hl q (fun hq1 => hp.2.2 q hq1 q hq rfl))
  rw [List.foldl_cons] at hmono
  generalize l1.foldl (step groups ind) (shared groups ind, fun _ => false) = st at hv hf hmono ⊢
  refine lt_of_lt_of_le ?_ (add_le_add_left hmono (ind p))
  unfold step at hf
  split_ifs at hf with c1 c2
  · simp at hf
  · simp at hf
  · rw [hv] at c2
    linarith

def sampleGroups : List (List Nat) := [[0, 1, 2], [3, 4]]
def sampleInd : Nat → ℚ := fun p => [1 / 5, 1 / 10, 2 / 5, 1 / 4, 1 / 5, 3 / 4].getD p 0

example : Disjoint sampleGroups := by unfold Disjoint sampleGroups; decide
example : ((List.range 6).map (flags sampleGroups sampleInd (List.range 6))) = [true, true, false, true, true, false] := by decide +kernel
example : ∀ g ∈ sampleGroups, (g.map sampleInd).sum ≤ 1 := by decide +kernel

end Verif.Buffer
