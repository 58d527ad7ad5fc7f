import Verif.Window.Model
import Mathlib.Tactic.Ring
import Mathlib.Tactic.Linarith
import Mathlib.Tactic.Positivity
import Mathlib.Algebra.BigOperators.Group.List.Basic
import Mathlib.Algebra.Order.BigOperators.Group.List

namespace Verif.Window

variable {K : Type} [DecidableEq K]

theorem set_new {V : Type} (t : Dict K V) (k : K) (v : V) (h : k ∉ t.keys) : t.set k v = t ++ [(k, v)] := by
  induction t with
  | nil => rfl
  | cons e t ih =>
    simp only [Dict.keys, List.map_cons, List.mem_cons, not_or] at h
    obtain ⟨a, b⟩ := e
    have h1 : ¬ a = k := fun he => h.1 he.symm
    simp only [Dict.set, h1, if_false, ih h.2, List.cons_append]

theorem collect_inl (ds : List (Duty K)) (t : Dict K (Duty K)) (n : Nat) (h : collect ds t = .inl n) :
    ∃ d ∈ ds, d.period = d.allowed ∧ n = d.period * d.count := by
  induction ds generalizing t with
  | nil => cases h
  | cons d ds ih =>
    unfold collect at h
    split at h
    · rename_i he
      exact ⟨d, List.mem_cons_self, he, (Sum.inl.inj h).symm⟩
    · obtain ⟨e, he, h⟩ := ih _ h
      exact ⟨e, List.mem_cons_of_mem _ he, h⟩

theorem collect_inr (ds : List (Duty K)) (t r : Dict K (Duty K)) (h : collect ds t = .inr r) :
    (∀ d ∈ ds, d.period ≠ d.allowed) ∧
      ((ds.map Duty.key).Nodup → (∀ d ∈ ds, d.key ∉ t.keys) → r = t ++ ds.map fun d => (d.key, d)) := by
  induction ds generalizing t with
  | nil =>
    cases h
    exact ⟨(by simp), fun _ _ => (by simp)⟩
  | cons d ds ih =>
    unfold collect at h
    split at h
    · cases h
    · rename_i he
      obtain ⟨h1, h2⟩ := ih _ h
      refine ⟨fun e hm => ?_, fun hn hk => ?_⟩
      · rcases List.mem_cons.1 hm with rfl | hm
        · exact he
        · exact h1 e hm
      · rw [List.map_cons, List.nodup_cons] at hn
        have hset := set_new t d.key d (hk d List.mem_cons_self)
        rw [h2 hn.2 ?_, hset, List.append_assoc]
        · rfl
        · intro e hm hc
          rw [hset] at hc
          simp only [Dict.keys, List.map_append, List.map_cons, List.map_nil, List.mem_append, List.mem_singleton] at hc
          rcases hc with hc | hc
          · exact hk e (List.mem_cons_of_mem _ hm) hc
          · exact hn.1 (List.mem_map.2 ⟨e, hm, hc⟩)

/-- The search finds the largest period. -/
theorem foldl_maxStep (ds : List (Duty K)) (b : Nat × Option (Duty K)) (hb : ∀ d, b.2 = some d → d.period = b.1) (hb0 : b.2 = none → b.1 = 0) :
    (∀ d ∈ ds, d.period ≤ (ds.foldl maxStep b).1) ∧ b.1 ≤ (ds.foldl maxStep b).1 ∧
      (∀ d, (ds.foldl maxStep b).2 = some d → d.period = (ds.foldl maxStep b).1 ∧ (d ∈ ds ∨ b.2 = some d)) ∧
      ((ds.foldl maxStep b).2 = none → (ds.foldl maxStep b).1 = 0) := by
  induction ds generalizing b with
  | nil => exact ⟨(by simp), le_rfl, fun d h => ⟨hb d h, Or.inr h⟩, hb0⟩
  | cons e ds ih =>
    rw [List.foldl_cons]
    have hstep : (∀ d, (maxStep b e).2 = some d → d.period = (maxStep b e).1) ∧ ((maxStep b e).2 = none → (maxStep b e).1 = 0) := by
      unfold maxStep
      split
      · exact ⟨fun d h => by cases h; rfl, fun h => (by cases h)⟩
      · exact ⟨hb, hb0⟩
    have hge : b.1 ≤ (maxStep b e).1 ∧ e.period ≤ (maxStep b e).1 := by
      unfold maxStep
      split
      · exact ⟨by simp only; omega, le_rfl⟩
      · exact ⟨le_rfl, by omega⟩
    obtain ⟨h1, h2, h3, h4⟩ := ih (maxStep b e) hstep.1 hstep.2
    refine ⟨fun d hd => ?_, hge.1.trans h2, fun d hd => ?_, h4⟩
    · rcases List.mem_cons.1 hd with rfl | hd
      · exact hge.2.trans h2
      · exact h1 d hd
    · obtain ⟨hp, hm⟩ := h3 d hd
      refine ⟨hp, ?_⟩
      rcases hm with hm | hm
      · exact Or.inl (List.mem_cons_of_mem _ hm)
      · unfold maxStep at hm
        split at hm
        · cases hm; exact Or.inl List.mem_cons_self
        · exact Or.inr hm

theorem maxPeriod_spec (ds : List (Duty K)) (hne : ds ≠ []) (hpos : ∀ d ∈ ds, 0 < d.period) :
    (∀ d ∈ ds, d.period ≤ (maxPeriod ds).1) ∧ ∃ b ∈ ds, (maxPeriod ds).2 = some b ∧ b.period = (maxPeriod ds).1 := by
  obtain ⟨h1, -, h3, h4⟩ := foldl_maxStep ds (0, none) (fun d h => (by cases h)) (fun _ => rfl)
  refine ⟨h1, ?_⟩
  cases hb : (maxPeriod ds).2 with
  | none =>
    obtain ⟨d, hd⟩ := List.exists_mem_of_ne_nil _ hne
    have := h1 d hd
    have := hpos d hd
    have := h4 hb
    omega
  | some b =>
    obtain ⟨hp, hm⟩ := h3 b hb
    rcases hm with hm | hm
    · exact ⟨b, hm, rfl, hp⟩
    · cases hm

/-- Counting over whole repetitions of a periodic predicate. -/
theorem count_periodic (p : Nat → Prop) [DecidablePred p] (m : Nat) (hp : ∀ t, p (t + m) ↔ p t) (n : Nat) :
    Nat.count p (m * n) = Nat.count p m * n := by
  have hshift : ∀ n t, p (m * n + t) ↔ p t := by
    intro n
    induction n with
    | zero => intro t; simp
    | succ n ih =>
      intro t
      rw [show m * (n + 1) + t = (m * n + t) + m by ring, hp, ih]
  induction n with
  | zero => simp
  | succ n ih =>
    rw [Nat.mul_succ, Nat.count_add, ih, Nat.mul_succ]
    congr 1
    have : (fun k => p (m * n + k)) = p := by funext k; exact propext (hshift n k)
    simp only [this]

theorem count_mono_pred {p q : Nat → Prop} [DecidablePred p] [DecidablePred q] (h : ∀ t, p t → q t) (n : Nat) :
    Nat.count p n ≤ Nat.count q n := by
  rw [Nat.count_eq_card_filter_range, Nat.count_eq_card_filter_range]
  exact Finset.card_le_card fun t ht => by
    rw [Finset.mem_filter] at ht ⊢
    exact ⟨ht.1, h t ht.2⟩

theorem count_lt (m a : Nat) : Nat.count (fun t => t < a) m = min a m := by
  induction m with
  | zero => simp
  | succ m ih => rw [Nat.count_succ, ih]; split <;> omega

theorem count_mod (m a : Nat) : Nat.count (fun t => t % m < a) m = min a m := by
  rw [← count_lt, Nat.count_eq_card_filter_range, Nat.count_eq_card_filter_range]
  congr 1
  refine Finset.filter_congr fun t ht => ?_
  rw [Nat.mod_eq_of_lt (Finset.mem_range.1 ht)]

theorem sums_eq (ds : List (Duty K)) (a : Int × Int × Int) :
    ds.foldl (fun a d => (if d.stall > 0 then a.1 + d.stall else a.1, if d.stall > 0 then a.2.1 else a.2.1 + d.stall, a.2.2 + d.window)) a
      = (a.1 + (ds.map fun d => max 0 d.stall).sum, a.2.1 + (ds.map fun d => min 0 d.stall).sum, a.2.2 + (ds.map fun d => d.window).sum) := by
  induction ds generalizing a with
  | nil => simp
  | cons d ds ih =>
    rw [List.foldl_cons, ih]
    simp only [List.map_cons, List.sum_cons]
    split
    · rename_i h
      rw [max_eq_right (by omega), min_eq_left (by omega)]
      refine Prod.ext ?_ (Prod.ext ?_ ?_) <;> simp only <;> ring
    · rename_i h
      rw [max_eq_left (by omega), min_eq_right (by omega)]
      refine Prod.ext ?_ (Prod.ext ?_ ?_) <;> simp only <;> ring

theorem sums_spec (ds : List (Duty K)) : sums ds
    = ((ds.map fun d => max 0 d.stall).sum, (ds.map fun d => min 0 d.stall).sum, (ds.map fun d => d.window).sum) := by
  unfold sums
  rw [sums_eq]
  simp

theorem pos_add_neg (ds : List (Duty K)) :
    (ds.map fun d => max 0 d.stall).sum + (ds.map fun d => min 0 d.stall).sum = (ds.map fun d => d.stall).sum := by
  induction ds with
  | nil => simp
  | cons d ds ih =>
    simp only [List.map_cons, List.sum_cons]
    have : max 0 d.stall + min 0 d.stall = d.stall := by omega
    linarith

theorem pos_nonneg (ds : List (Duty K)) : 0 ≤ (ds.map fun d => max 0 d.stall).sum :=
  List.sum_nonneg fun x hx => by
    obtain ⟨d, -, rfl⟩ := List.mem_map.1 hx
    exact le_max_left _ _

end Verif.Window
