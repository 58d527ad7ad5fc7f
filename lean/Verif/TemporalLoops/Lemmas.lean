import Verif.TemporalLoops.Model
import Mathlib.Tactic.Linarith
import Mathlib.Tactic.FieldSimp
import Mathlib.Tactic.Ring
import Mathlib.Tactic.NormNum

namespace Verif.TemporalLoops

variable {D : Type} [DecidableEq D]

/-- Loop size of `dim`, absent meaning one. -/
def sizeOf (d : Dict D Int) (dim : D) : Int := (d.get? dim).getD 1

/-- Product of the spatial factors of dimension `dim` (specification). -/
def unrolling (spatial : List (D × Rat)) (dim : D) : Rat :=
  ((spatial.filter (fun l => l.1 = dim)).map Prod.snd).prod

theorem unrolling_cons (l : D × Rat) (ls : List (D × Rat)) (dim : D) :
    unrolling (l :: ls) dim = (if l.1 = dim then l.2 else 1) * unrolling ls dim := by
  unfold unrolling
  by_cases h : l.1 = dim <;> simp [h]

theorem one_le_unrolling (ls : List (D × Rat)) (h : ∀ l ∈ ls, 1 ≤ l.2) (dim : D) : 1 ≤ unrolling ls dim := by
  induction ls with
  | nil => simp [unrolling]
  | cons l ls ih =>
    rw [unrolling_cons]
    have h1 := ih (fun x hx => h x (List.mem_cons_of_mem _ hx))
    have h2 := h l (by simp)
    split_ifs
    · nlinarith
    · simpa using h1

/-- All recorded sizes are at least one. -/
def Pos (d : Dict D Int) : Prop := ∀ k v, d.get? k = some v → 1 ≤ v

theorem Pos.sizeOf {d : Dict D Int} (h : Pos d) (k : D) : 1 ≤ sizeOf d k := by
  unfold TemporalLoops.sizeOf
  cases e : d.get? k with
  | none => simp
  | some v => simpa using h k v e

theorem one_le_ceil_div {s : Int} {f : Rat} (hs : 1 ≤ s) (hf : 0 < f) : 1 ≤ ⌈(s : Rat) / f⌉ := by
  have : (0 : Rat) < (s : Rat) / f := by
    have : (0 : Rat) < s := by exact_mod_cast hs
    positivity
  have := Int.ceil_pos.2 this
  omega

theorem lomaStep_wf {d d' : Dict D Int} {l : D × Rat} (hd : d.WF) (h : lomaStep d l = .ok d') : d'.WF := by
  unfold lomaStep at h
  split at h
  · cases h; exact hd
  · split_ifs at h
    · dsimp at h
      split_ifs at h <;> cases h
      · exact hd.del _
      · exact hd.set _ _

theorem lomaStep_spec {d d' : Dict D Int} {l : D × Rat} (hp : Pos d) (hl : 1 ≤ l.2)
    (h : lomaStep d l = .ok d') :
    Pos d' ∧ ∀ k, sizeOf d' k = if l.1 = k then ⌈(sizeOf d k : Rat) / l.2⌉ else sizeOf d k := by
  have hl0 : l.2 ≠ 0 := by linarith
  have hl' : 0 < l.2 := by linarith
  unfold lomaStep at h
  split at h
  · rename_i hn
    cases h
    refine ⟨hp, fun k => ?_⟩
    split_ifs with hk
    · subst hk
      simp only [TemporalLoops.sizeOf, hn, Option.getD_none, Int.cast_one]
      symm
      rw [Int.ceil_eq_iff]
      constructor
      · simp; exact hl'
      · rw [div_le_iff₀ hl']; simpa using hl
    · rfl
  · rename_i s hs
    have hs1 := hp _ _ hs
    rw [if_neg hl0] at h
    dsimp only at h
    have hc := one_le_ceil_div hs1 hl'
    split_ifs at h with hq <;> cases h
    · refine ⟨?_, fun k => ?_⟩
      · intro k v hk
        rw [Dict.get?_del] at hk
        split_ifs at hk
        exact hp _ _ hk
      · simp only [TemporalLoops.sizeOf, Dict.get?_del]
        split_ifs with hk
        · subst hk; simp [hs, hq]
        · rfl
    · refine ⟨?_, fun k => ?_⟩
      · intro k v hk
        rw [Dict.get?_set] at hk
        split_ifs at hk
        · cases hk; exact hc
        · exact hp _ _ hk
      · simp only [TemporalLoops.sizeOf, Dict.get?_set]
        split_ifs with hk
        · subst hk; simp [hs]
        · rfl

theorem lomaLoop_wf {d d' : Dict D Int} {ls : List (D × Rat)} (hd : d.WF) (h : lomaLoop d ls = .ok d') : d'.WF := by
  induction ls generalizing d with
  | nil => simp [lomaLoop] at h; subst h; exact hd
  | cons l ls ih =>
    simp only [lomaLoop] at h
    split at h
    · cases h
    · rename_i d1 h1
      exact ih (lomaStep_wf hd h1) h

theorem lomaLoop_ok (d : Dict D Int) (ls : List (D × Rat)) (hls : ∀ l ∈ ls, 1 ≤ l.2) :
    ∃ d', lomaLoop d ls = .ok d' := by
  induction ls generalizing d with
  | nil => exact ⟨d, rfl⟩
  | cons l ls ih =>
    have hl : l.2 ≠ 0 := by have := hls l (by simp); linarith
    have : ∃ d1, lomaStep d l = .ok d1 := by
      unfold lomaStep
      split
      · exact ⟨_, rfl⟩
      · rw [if_neg hl]
        dsimp
        split_ifs
        · exact ⟨_, rfl⟩
        · exact ⟨_, rfl⟩
    obtain ⟨d1, h1⟩ := this
    obtain ⟨d2, h2⟩ := ih d1 (fun x hx => hls x (List.mem_cons_of_mem _ hx))
    exact ⟨d2, by simp [lomaLoop, h1, h2]⟩

theorem lomaLoop_cover {d d' : Dict D Int} {ls : List (D × Rat)} (hp : Pos d) (hls : ∀ l ∈ ls, 1 ≤ l.2)
    (h : lomaLoop d ls = .ok d') : Pos d' ∧ ∀ k, (sizeOf d k : Rat) ≤ unrolling ls k * sizeOf d' k := by
  induction ls generalizing d with
  | nil => simp [lomaLoop] at h; subst h; exact ⟨hp, fun k => by simp [unrolling]⟩
  | cons l ls ih =>
    simp only [lomaLoop] at h
    split at h
    · cases h
    · rename_i d1 h1
      obtain ⟨hp1, hs1⟩ := lomaStep_spec hp (hls l (by simp)) h1
      obtain ⟨hp2, hs2⟩ := ih hp1 (fun x hx => hls x (List.mem_cons_of_mem _ hx)) h
      refine ⟨hp2, fun k => ?_⟩
      have := hs2 k
      rw [hs1 k] at this
      rw [unrolling_cons]
      split_ifs with hk
      · rw [if_pos hk] at this
        have hl := hls l (by simp)
        have hl' : 0 < l.2 := by linarith
        have h3 := Int.le_ceil ((sizeOf d k : Rat) / l.2)
        rw [div_le_iff₀ hl'] at h3
        have : (⌈(sizeOf d k : Rat) / l.2⌉ : Rat) * l.2 ≤ (unrolling ls k * (sizeOf d' k : Rat)) * l.2 :=
          mul_le_mul_of_nonneg_right this hl'.le
        calc _ ≤ _ := h3
          _ ≤ _ := this
          _ = _ := by ring
      · rw [if_neg hk] at this
        simpa using this

theorem ceil_ceil_div (x : Rat) (n : Rat) (z : Int) (hn : n = z) (h0 : 0 < n) :
    ⌈(⌈x⌉ : Rat) / n⌉ = ⌈x / n⌉ := by
  apply eq_of_forall_ge_iff
  intro c
  rw [Int.ceil_le, Int.ceil_le, div_le_iff₀ h0, div_le_iff₀ h0, hn]
  have : ((c : Rat) * (z : Rat)) = ((c * z : Int) : Rat) := by push_cast; rfl
  rw [this, Int.cast_le, Int.ceil_le]

theorem lomaLoop_exact {d d' : Dict D Int} {ls : List (D × Rat)} (hp : Pos d)
    (hls : ∀ l ∈ ls, ∃ z : Int, 1 ≤ z ∧ l.2 = z)
    (h : lomaLoop d ls = .ok d') : ∀ k, sizeOf d' k = ⌈(sizeOf d k : Rat) / unrolling ls k⌉ := by
  have hge : ∀ l ∈ ls, (1 : Rat) ≤ l.2 := by
    intro l hl
    obtain ⟨z, hz, e⟩ := hls l hl
    rw [e]; exact_mod_cast hz
  induction ls generalizing d with
  | nil => simp [lomaLoop] at h; subst h; intro k; simp [unrolling]
  | cons l ls ih =>
    simp only [lomaLoop] at h
    split at h
    · cases h
    · rename_i d1 h1
      obtain ⟨hp1, hs1⟩ := lomaStep_spec hp (hge l (by simp)) h1
      have hs2 := ih hp1 (fun x hx => hls x (List.mem_cons_of_mem _ hx)) h
        (fun x hx => hge x (List.mem_cons_of_mem _ hx))
      intro k
      rw [hs2 k, hs1 k, unrolling_cons]
      split_ifs with hk
      · have hu := one_le_unrolling ls (fun x hx => hge x (List.mem_cons_of_mem _ hx)) k
        have : ∃ z : Int, unrolling ls k = z := by
          clear hs2 hs1 hp1 h1 h ih hge hu
          have hls' : ∀ l ∈ ls, ∃ z : Int, 1 ≤ z ∧ l.2 = z := fun x hx => hls x (List.mem_cons_of_mem _ hx)
          clear hls
          induction ls with
          | nil => exact ⟨1, by simp [unrolling]⟩
          | cons a as iha =>
            obtain ⟨z, hz⟩ := iha (fun x hx => hls' x (List.mem_cons_of_mem _ hx))
            obtain ⟨w, _, hw⟩ := hls' a (by simp)
            rw [unrolling_cons]
            split_ifs
            · exact ⟨w * z, by rw [hw, hz]; push_cast; rfl⟩
            · exact ⟨z, by rw [hz]; simp⟩
        obtain ⟨z, hz⟩ := this
        rw [ceil_ceil_div _ _ z hz (by linarith), div_div]
      · simp

theorem get?_drop1 {d : Dict D Int} (hd : d.WF) (k : D) (v : Int) :
    (drop1 d).get? k = some v ↔ d.get? k = some v ∧ 1 < v := by
  have hw : (drop1 d).WF := hd.filter _
  rw [← Dict.mem_iff hw, ← Dict.mem_iff hd]
  simp [drop1]

theorem sizeOf_drop1 {d : Dict D Int} (hd : d.WF) (hp : Pos d) (k : D) : sizeOf (drop1 d) k = sizeOf d k := by
  unfold sizeOf
  cases e : (drop1 d).get? k with
  | some v => rw [((get?_drop1 hd k v).1 e).1]
  | none =>
    cases e' : d.get? k with
    | none => rfl
    | some v =>
      have h1 := hp k v e'
      by_cases h : 1 < v
      · rw [(get?_drop1 hd k v).2 ⟨e', h⟩] at e; cases e
      · have : v = 1 := by omega
        simp [this]

end Verif.TemporalLoops
