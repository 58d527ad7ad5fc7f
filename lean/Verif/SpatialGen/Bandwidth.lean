import Verif.SpatialGen.Model
import Verif.SpatialMapping.Props

/-! C23: maximal unrollings. -/

namespace Verif.SpatialGen

open Verif.SpatialMapping

variable {OA Dim : Type} [DecidableEq OA] [DecidableEq Dim]

/-- Specification: `w` units along array dimension `oa` can be fed with distinct elements along layer dimension `d`, as far as memory
`mo` is concerned: either the memory does not serve the dimension or the elements are the same, or precision is zero, or the bandwidth
suffices. -/
def Feeds (mo : MemOp OA Dim) (oa : OA) (d : Dim) (w : Nat) : Prop :=
  oa ∈ mo.served → d ∉ mo.irrelevant → mo.precision ≠ 0 → w * mo.precision ≤ mo.bandwidth

/-- Value of a two-level table. -/
def val {V : Type} (m : Dict OA (Dict Dim V)) (oa : OA) (d : Dim) : Option V := (m.get? oa).bind (fun l => l.get? d)

theorem get?_mapVal {K V W : Type} [DecidableEq K] (f : K → V → W) (l : Dict K V) (k : K) :
    Dict.get? (l.map (fun x => (x.1, f x.1 x.2))) k = (l.get? k).map (f k) := by
  induction l with
  | nil => rfl
  | cons x l ih =>
    rw [List.map_cons, Dict.get?_cons, Dict.get?_cons]
    by_cases h : x.1 = k
    · simp [h]
    · simp only [if_neg h]; exact ih

theorem keys_mapVal {K V W : Type} (f : K → V → W) (l : Dict K V) : Dict.keys (l.map (fun x => (x.1, f x.1 x.2))) = l.keys := by
  simp [Dict.keys, Function.comp_def]

theorem le_bwBound (mo : MemOp OA Dim) (d : Dim) (v w : Nat) :
    w ≤ bwBound mo d v ↔ w ≤ v ∧ (d ∉ mo.irrelevant → mo.precision ≠ 0 → w * mo.precision ≤ mo.bandwidth) := by
  unfold bwBound
  by_cases h : d ∈ mo.irrelevant
  · simp [h]
  · rw [if_neg h]
    simp only [h, not_false_eq_true, true_imp_iff]
    by_cases hp : mo.precision > 0
    · rw [if_pos hp]
      have hd := Nat.le_div_iff_mul_le (x := w) (y := mo.bandwidth) hp
      have hne : mo.precision ≠ 0 := by omega
      simp only [hne, ne_eq, not_false_eq_true, true_imp_iff, ← hd]
      split_ifs <;> omega
    · have : mo.precision = 0 := by omega
      simp [this]

/-- One served dimension. -/
theorem bwOa_spec (mo : MemOp OA Dim) (oa : OA) (m m' : Dict OA (Dict Dim Nat)) (h : bwOa mo oa m = .ok m') :
    m'.keys = m.keys ∧ (∀ k, (m'.get? k).map Dict.keys = (m.get? k).map Dict.keys) ∧
      ∀ k d, val m' k d = if k = oa then (val m k d).map (bwBound mo d) else val m k d := by
  unfold bwOa at h
  cases hg : m.get? oa with
  | none => rw [hg] at h; cases h
  | some l =>
    rw [hg] at h
    cases h
    refine ⟨?_, ?_, ?_⟩
    · rw [Dict.keys_set, if_pos]
      by_contra hc
      rw [← Dict.get?_eq_none_iff, hg] at hc
      cases hc
    · intro k
      rw [Dict.get?_set]
      by_cases hk : oa = k
      · rw [if_pos hk, ← hk, hg]; simp [keys_mapVal]
      · rw [if_neg hk]
    · intro k d
      unfold val
      rw [Dict.get?_set]
      by_cases hk : oa = k
      · subst hk
        rw [if_pos rfl, if_pos rfl, hg]
        simp only [Option.bind_some]
        rw [get?_mapVal (fun d v => bwBound mo d v)]
      · rw [if_neg hk, if_neg (Ne.symm hk)]

theorem bwOas_spec (mo : MemOp OA Dim) : ∀ (oas : List OA) (m m' : Dict OA (Dict Dim Nat)), bwOas mo oas m = .ok m' →
    m'.keys = m.keys ∧ (∀ k, (m'.get? k).map Dict.keys = (m.get? k).map Dict.keys) ∧
      ∀ k d v', val m' k d = some v' → ∃ v, val m k d = some v ∧
        ∀ w, w ≤ v' ↔ w ≤ v ∧ (k ∈ oas → d ∉ mo.irrelevant → mo.precision ≠ 0 → w * mo.precision ≤ mo.bandwidth)
  | [], m, m', h => by
    cases h
    exact ⟨rfl, fun _ => rfl, fun k d v' hv => ⟨v', hv, by simp⟩⟩
  | oa :: t, m, m', h => by
    unfold bwOas at h
    cases h1 : bwOa mo oa m with
    | error e => rw [h1] at h; cases h
    | ok m1 =>
      rw [h1] at h
      obtain ⟨k1, i1, v1⟩ := bwOa_spec mo oa m m1 h1
      obtain ⟨k2, i2, v2⟩ := bwOas_spec mo t m1 m' h
      refine ⟨k2.trans k1, fun k => (i2 k).trans (i1 k), fun k d v' hv => ?_⟩
      obtain ⟨v, hv, hw⟩ := v2 k d v' hv
      rw [v1] at hv
      by_cases hk : k = oa
      · rw [if_pos hk] at hv
        cases hm : val m k d with
        | none => rw [hm] at hv; cases hv
        | some v0 =>
          rw [hm] at hv
          cases hv
          refine ⟨v0, rfl, fun w => ?_⟩
          rw [hw, le_bwBound]
          constructor
          · rintro ⟨⟨h1, h2⟩, _⟩; exact ⟨h1, fun _ => h2⟩
          · rintro ⟨h1, h2⟩
            exact ⟨⟨h1, h2 (by simp [hk])⟩, fun ht => h2 (by simp [ht])⟩
      · rw [if_neg hk] at hv
        refine ⟨v, hv, fun w => ?_⟩
        rw [hw]
        simp [hk]

theorem limitBandwidth_spec : ∀ (mems : List (MemOp OA Dim)) (m m' : Dict OA (Dict Dim Nat)), limitBandwidth mems m = .ok m' →
    m'.keys = m.keys ∧ (∀ k, (m'.get? k).map Dict.keys = (m.get? k).map Dict.keys) ∧
      ∀ k d v', val m' k d = some v' → ∃ v, val m k d = some v ∧ ∀ w, w ≤ v' ↔ w ≤ v ∧ ∀ mo ∈ mems, Feeds mo k d w
  | [], m, m', h => by
    cases h
    exact ⟨rfl, fun _ => rfl, fun k d v' hv => ⟨v', hv, by simp⟩⟩
  | mo :: t, m, m', h => by
    unfold limitBandwidth at h
    cases h1 : bwOas mo mo.served m with
    | error e => rw [h1] at h; cases h
    | ok m1 =>
      rw [h1] at h
      obtain ⟨k1, i1, v1⟩ := bwOas_spec mo _ m m1 h1
      obtain ⟨k2, i2, v2⟩ := limitBandwidth_spec t m1 m' h
      refine ⟨k2.trans k1, fun k => (i2 k).trans (i1 k), fun k d v' hv => ?_⟩
      obtain ⟨v, hv, hw⟩ := v2 k d v' hv
      obtain ⟨v0, hv0, hw0⟩ := v1 k d v hv
      refine ⟨v0, hv0, fun w => ?_⟩
      rw [hw, hw0, List.forall_mem_cons]
      unfold Feeds
      tauto

theorem initMax_val (oaSizes : Dict OA Nat) (sizes : Dict Dim Nat) (oa : OA) (d : Dim) :
    val (initMax oaSizes sizes) oa d = (oaSizes.get? oa).bind (fun s => (sizes.get? d).map (fun n => min n s)) := by
  unfold val initMax
  rw [get?_mapVal (fun _ s => sizes.map (fun x => (x.1, min x.2 s)))]
  cases oaSizes.get? oa with
  | none => rfl
  | some s =>
    simp only [Option.map_some, Option.bind_some]
    rw [get?_mapVal (fun _ n => min n s)]

/-- C23: the maximal unrolling of layer dimension `d` over array dimension `oa` is the largest number that respects the layer size, the
array size and the bandwidth of every innermost memory serving the array dimension. -/
theorem max_unrolling_exact (mems : List (MemOp OA Dim)) (oaSizes : Dict OA Nat) (sizes : Dict Dim Nat) (maxU : Dict OA (Dict Dim Nat))
    (h : getMaxUnrolling mems oaSizes sizes = .ok maxU) :
    maxU.keys = oaSizes.keys ∧ ∀ oa s d n, oaSizes.get? oa = some s → sizes.get? d = some n →
      ∃ l v, maxU.get? oa = some l ∧ l.get? d = some v ∧ l.keys = sizes.keys ∧
        ∀ w, w ≤ v ↔ w ≤ n ∧ w ≤ s ∧ ∀ mo ∈ mems, Feeds mo oa d w := by
  obtain ⟨hk, hi, hv⟩ := limitBandwidth_spec mems _ maxU h
  refine ⟨by rw [hk]; exact keys_mapVal (fun _ s => sizes.map (fun x => (x.1, min x.2 s))) oaSizes, fun oa s d n hs hn => ?_⟩
  have hik : ((initMax oaSizes sizes).get? oa).map Dict.keys = some sizes.keys := by
    unfold initMax
    rw [get?_mapVal (fun _ s => sizes.map (fun x => (x.1, min x.2 s))), hs]
    simp only [Option.map_some]
    rw [keys_mapVal (fun _ n => min n s)]
  have hik' := (hi oa).trans hik
  cases hl : maxU.get? oa with
  | none => rw [hl] at hik'; cases hik'
  | some l =>
    rw [hl] at hik'
    simp only [Option.map_some, Option.some.injEq] at hik'
    cases hlv : l.get? d with
    | none =>
      rw [Dict.get?_eq_none_iff, hik', ← Dict.get?_eq_none_iff, hn] at hlv
      cases hlv
    | some v =>
      refine ⟨l, v, rfl, hlv, hik', fun w => ?_⟩
      obtain ⟨v0, hv0, hw⟩ := hv oa d v (by unfold val; rw [hl]; exact hlv)
      rw [initMax_val, hs, hn] at hv0
      simp only [Option.map_some, Option.bind_some, Option.some.injEq] at hv0
      rw [hw, ← hv0, le_min_iff]
      tauto

/-- C23: the only failure is a memory serving an array dimension the array does not have. -/
theorem max_unrolling_total (mems : List (MemOp OA Dim)) (oaSizes : Dict OA Nat) (sizes : Dict Dim Nat)
    (h : ∀ mo ∈ mems, ∀ oa ∈ mo.served, oa ∈ oaSizes.keys) : ∃ maxU, getMaxUnrolling mems oaSizes sizes = .ok maxU := by
  have step : ∀ (mo : MemOp OA Dim) (oas : List OA) (m : Dict OA (Dict Dim Nat)), (∀ oa ∈ oas, oa ∈ m.keys) →
      ∃ m', bwOas mo oas m = .ok m' ∧ m'.keys = m.keys := by
    intro mo oas
    induction oas with
    | nil => intro m _; exact ⟨m, rfl, rfl⟩
    | cons oa t ih =>
      intro m hm
      cases hg : m.get? oa with
      | none => exact absurd (hm oa (by simp)) ((Dict.get?_eq_none_iff _ _).1 hg)
      | some l =>
        have h1 : bwOa mo oa m = .ok (m.set oa (l.map (fun x => (x.1, bwBound mo x.1 x.2)))) := by unfold bwOa; rw [hg]
        have hk := (bwOa_spec mo oa m _ h1).1
        obtain ⟨m', h2, h3⟩ := ih _ (fun x hx => by rw [hk]; exact hm x (by simp [hx]))
        refine ⟨m', ?_, h3.trans hk⟩
        unfold bwOas
        rw [h1]
        exact h2
  have all : ∀ (ms : List (MemOp OA Dim)) (m : Dict OA (Dict Dim Nat)), (∀ mo ∈ ms, ∀ oa ∈ mo.served, oa ∈ m.keys) →
      ∃ m', limitBandwidth ms m = .ok m' := by
    intro ms
    induction ms with
    | nil => intro m _; exact ⟨m, rfl⟩
    | cons mo t ih =>
      intro m hm
      obtain ⟨m1, h1, h2⟩ := step mo mo.served m (hm mo (by simp))
      obtain ⟨m', h3⟩ := ih m1 (fun x hx oa ho => by rw [h2]; exact hm x (by simp [hx]) oa ho)
      refine ⟨m', ?_⟩
      unfold limitBandwidth
      rw [h1]
      exact h3
  apply all
  intro mo hmo oa ho
  have : (initMax oaSizes sizes).keys = oaSizes.keys := by simp [initMax, Dict.keys, Function.comp_def]
  rw [this]
  exact h mo hmo oa ho

/-- Non-trivial case: `K` is limited by bandwidth along `D1` and by the array along `D2`, `C` is not limited. -/
example : getMaxUnrolling [⟨64, 1024, 8, ["C"], ["D1"]⟩] [("D1", 32), ("D2", 16)] [("K", 64), ("C", 20)] =
    .ok [("D1", [("K", 8), ("C", 20)]), ("D2", [("K", 16), ("C", 16)])] := by decide +kernel

/-- A maximal unrolling can become zero: a memory that cannot deliver one element per cycle. -/
theorem max_unrolling_zero : getMaxUnrolling [⟨4, 1024, 8, ["C"], ["D1"]⟩] [("D1", 32)] [("K", 64), ("C", 20)] =
    .ok [("D1", [("K", 0), ("C", 20)])] := by decide +kernel

end Verif.SpatialGen
