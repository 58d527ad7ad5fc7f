import Verif.SpatialGen.Generate

/-! Unrollings stay at least one when every innermost memory delivers and holds an element. -/

namespace Verif.SpatialGen

open Verif.SpatialMapping

variable {OA Dim : Type} [DecidableEq OA] [DecidableEq Dim]

/-- A whole number of at least one. -/
def IsPos (q : ℚ) : Prop := ∃ n : ℕ, 1 ≤ n ∧ q = n

theorem IsPos.nat {q : ℚ} (h : IsPos q) : IsNat q := by
  obtain ⟨n, -, e⟩ := h
  exact ⟨n, e⟩

theorem IsPos.one_le {q : ℚ} (h : IsPos q) : 1 ≤ q := by
  obtain ⟨n, h, rfl⟩ := h
  exact_mod_cast h

theorem isPos_of {q : ℚ} (h : IsNat q) (h1 : 1 ≤ q) : IsPos q := by
  obtain ⟨n, rfl⟩ := h
  exact ⟨n, by exact_mod_cast h1, rfl⟩

/-- All unrollings of a mapping are at least one. -/
def PosSM (m : SM OA Dim) : Prop := ∀ e ∈ m, ∀ x ∈ e.2, IsPos x.2

theorem PosSM.nat {m : SM OA Dim} (h : PosSM m) : NatSM m := fun e he x hx => (h e he x hx).nat

theorem prod_le_one : ∀ {l : List ℚ}, (∀ x ∈ l, IsPos x ∧ x < 2) → l.prod = 1
  | [], _ => rfl
  | x :: t, h => by
    obtain ⟨⟨n, h1, h2⟩, h3⟩ := h x (by simp)
    rw [h2] at h3
    have h4 : n < 2 := by exact_mod_cast h3
    have : n = 1 := by omega
    rw [List.prod_cons, prod_le_one fun y hy => h y (by simp [hy]), h2, this]
    simp

/-- `adjust_unrolling_factors` lowers no factor below one. -/
theorem adjust_pos {bound : ℚ} (hb : 1 ≤ bound) : ∀ (n : Nat) (l r : List ℚ), (∀ x ∈ l, IsPos x) → adjust bound n l = .ok r → ∀ x ∈ r, IsPos x
  | 0, _, _, _, h => by unfold adjust at h; cases h
  | n + 1, l, r, hl, h => by
    unfold adjust at h
    by_cases hp : l.prod > bound
    · rw [if_pos hp] at h
      cases ha : argMax l with
      | none => rw [ha] at h; cases h
      | some p =>
        obtain ⟨y, i⟩ := p
        rw [ha] at h
        simp only at h
        obtain ⟨h1, h2⟩ := argMax_spec ha
        have hy := hl y (List.mem_of_getElem? h1)
        have h2y : 2 ≤ y := by
          by_contra hc
          have := prod_le_one fun x hx => ⟨hl x hx, lt_of_le_of_lt (h2 x hx) (not_le.1 hc)⟩
          rw [this] at hp
          exact absurd hp (not_lt.2 hb)
        refine adjust_pos hb n _ r (fun x hx => ?_) h
        rcases List.mem_or_eq_of_mem_set hx with hx | rfl
        · exact hl x hx
        · exact isPos_of (hy.nat.pred hy.one_le) (by linarith)
    · rw [if_neg hp] at h
      cases h
      exact hl

theorem factorMap_val {P : ℚ → Prop} {old new : List ℚ} (h : ∀ x ∈ new, P x) {v w : ℚ} (hv : (factorMap old new).get? v = some w) : P w := by
  by_cases hc : ∃ p ∈ old.zip new, p.1 = v
  · obtain ⟨p, hp, -, hg⟩ := (foldl_set_get (old.zip new) [] v).1 hc
    unfold factorMap at hv
    rw [hg] at hv
    cases hv
    exact h _ (List.of_mem_zip hp).2
  · push Not at hc
    have := (foldl_set_get (old.zip new) [] v).2 hc
    unfold factorMap at hv
    rw [this] at hv
    cases hv

theorem applyMap_val {P : ℚ → Prop} {fm : Dict ℚ ℚ} (hf : ∀ v w, fm.get? v = some w → P w) (dims : List Dim) :
    ∀ (l r : List (Dim × ℚ)), (∀ x ∈ l, P x.2) → applyMap fm dims l = .ok r → ∀ x ∈ r, P x.2
  | [], r, _, h => by unfold applyMap at h; cases h; simp
  | x :: t, r, hl, h => by
    unfold applyMap at h
    cases ht : applyMap fm dims t with
    | error e => rw [ht] at h; cases h
    | ok r' =>
      rw [ht] at h
      simp only at h
      have ih := applyMap_val hf dims t r' (fun y hy => hl y (by simp [hy])) ht
      split_ifs at h
      · cases hg : fm.get? x.2 with
        | none => rw [hg] at h; cases h
        | some y =>
          rw [hg] at h
          cases h
          intro z hz
          rcases List.mem_cons.1 hz with rfl | hz
          · exact hf _ _ hg
          · exact ih z hz
      · cases h
        intro z hz
        rcases List.mem_cons.1 hz with rfl | hz
        · exact hl _ (by simp)
        · exact ih z hz

theorem mem_set {K V : Type} [DecidableEq K] {d : Dict K V} {k : K} {v : V} {e : K × V} (h : e ∈ d.set k v) : e ∈ d ∨ e = (k, v) := by
  induction d with
  | nil => simp [Dict.set] at h; exact Or.inr h
  | cons x t ih =>
    unfold Dict.set at h
    split_ifs at h with hk
    · rcases List.mem_cons.1 h with h | h
      · exact Or.inr (by rw [h, hk])
      · exact Or.inl (by simp [h])
    · rcases List.mem_cons.1 h with h | h
      · exact Or.inl (by simp [h])
      · rcases ih h with h | h
        · exact Or.inl (by simp [h])
        · exact Or.inr h

theorem writeBack_val {P : ℚ → Prop} {fm : Dict ℚ ℚ} (hf : ∀ v w, fm.get? v = some w → P w) (dims : List Dim) :
    ∀ (served : List OA) (m m' : SM OA Dim), (∀ e ∈ m, ∀ x ∈ e.2, P x.2) → writeBack fm dims served m = .ok m' → ∀ e ∈ m', ∀ x ∈ e.2, P x.2
  | [], m, m', hm, h => by unfold writeBack at h; cases h; exact hm
  | oa :: t, m, m', hm, h => by
    unfold writeBack at h
    cases hg : m.get? oa with
    | none => rw [hg] at h; cases h
    | some l =>
      rw [hg] at h
      simp only at h
      cases ha : applyMap fm dims l with
      | error e => rw [ha] at h; cases h
      | ok l' =>
        rw [ha] at h
        simp only at h
        refine writeBack_val hf dims t _ m' (fun e he x hx => ?_) h
        rcases mem_set he with he | rfl
        · exact hm e he x hx
        · exact applyMap_val hf dims l l' (fun y hy => hm _ (Dict.mem_of_get? hg) y hy) ha x hx

theorem factorsOf_val {P : ℚ → Prop} {m : SM OA Dim} (hn : ∀ e ∈ m, ∀ x ∈ e.2, P x.2) (served : List OA) (dims : List Dim) :
    ∀ v ∈ factorsOf m served dims, P v := by
  intro v hv
  unfold factorsOf at hv
  obtain ⟨d, -, hv⟩ := List.mem_flatMap.1 hv
  obtain ⟨oa, -, hv⟩ := List.mem_filterMap.1 hv
  cases hg : m.get? oa with
  | none => rw [hg] at hv; cases hv
  | some l =>
    rw [hg] at hv
    exact hn _ (Dict.mem_of_get? hg) _ (Dict.mem_of_get? hv)

theorem capStep_pos (ord : List Dim → List Dim) (mo : MemOp OA Dim) (hh : mo.precision ≤ mo.capacity) {m m' : SM OA Dim} (hm : PosSM m)
    (h : capStep ord mo m = .ok m') : PosSM m' := by
  unfold capStep at h
  cases he : servedEntries m mo.irrelevant mo.served with
  | error e => rw [he] at h; cases h
  | ok es =>
    rw [he] at h
    simp only at h
    split_ifs at h with hc
    · have hb : (1 : ℚ) ≤ (mo.capacity : ℚ) / mo.precision := by
        rw [le_div_iff₀ (by exact_mod_cast hc.1), one_mul]
        exact_mod_cast hh
      unfold limitLoops at h
      simp only at h
      split at h
      · cases h
      · rename_i new hn
        exact writeBack_val (fun v w hv => factorMap_val (P := IsPos) (adjust_pos hb _ _ _ (factorsOf_val hm _ _) hn) hv) _ _ _ _ hm h
    · cases h
      exact hm

/-- `limit_unrolling_to_mem_capacity` lowers no unrolling below one. -/
theorem limitCapacity_pos (ord : List Dim → List Dim) : ∀ (mems : List (MemOp OA Dim)), (∀ mo ∈ mems, mo.precision ≤ mo.capacity) → ∀ (m m' : SM OA Dim), PosSM m →
    limitCapacity ord mems m = .ok m' → PosSM m'
  | [], _, m, m', hm, h => by unfold limitCapacity at h; cases h; exact hm
  | mo :: t, hh, m, m', hm, h => by
    unfold limitCapacity at h
    cases h1 : capStep ord mo m with
    | error e => rw [h1] at h; cases h
    | ok m1 =>
      rw [h1] at h
      exact limitCapacity_pos ord t (fun x hx => hh x (by simp [hx])) m1 m' (capStep_pos ord mo (hh mo (by simp)) hm h1) h

/-! ### shared objects -/

/-- The shared objects that a choice refers to have unrollings of at least one. -/
def RefPos (heap : List (List (Dict Dim ℚ))) (choice : List Nat) : Prop := ∀ x ∈ picks heap choice, ∀ y ∈ x, IsPos y.2

theorem resolve_pos {fill : List OA} {heap : List (List (Dict Dim ℚ))} {c : Cand OA Dim} (hf : fill.Nodup) (hd : ∀ oa ∈ fill, oa ∉ c.own.keys)
    (hh : RefPos heap c.choice) (hc : PosSM c.own) : PosSM (resolve fill heap c) := by
  rw [resolve_eq hf hd]
  intro e he x hx
  rcases List.mem_append.1 he with h | h
  · exact hc e h x hx
  · exact hh _ (List.of_mem_zip h).2 x hx

theorem getD_pos {m : SM OA Dim} (hm : PosSM m) (oa : OA) : ∀ y ∈ (m.get? oa).getD [], IsPos y.2 := by
  cases hg : m.get? oa with
  | none => intro y hy; cases hy
  | some l => exact hm _ (Dict.mem_of_get? hg)

theorem store_pos {m : SM OA Dim} (hm : PosSM m) : ∀ (fill : List OA) (heap : List (List (Dict Dim ℚ))) (choice ch : List Nat), RefPos heap ch →
    RefPos (store m fill heap choice) ch
  | [], h, c, ch, hh => by unfold store; exact hh
  | oa :: f, [], c, ch, hh => by unfold store; exact hh
  | oa :: f, l :: h, [], ch, hh => by unfold store; exact hh
  | oa :: f, l :: h, k :: c, [], hh => by
    intro x hx
    simp [picks] at hx
  | oa :: f, l :: h, k :: c, j :: ch, hh => by
    unfold store
    intro x hx
    unfold picks at hx
    rw [List.zipWith_cons_cons] at hx
    rcases List.mem_cons.1 hx with rfl | hx
    · rw [List.getElem?_set]
      split_ifs with h1 h2
      · exact getD_pos hm oa
      · intro y hy; cases hy
      · exact hh _ (by unfold picks; rw [List.zipWith_cons_cons]; exact List.mem_cons_self)
    · refine store_pos hm f h c ch (fun z hz => hh z ?_) x hx
      unfold picks
      rw [List.zipWith_cons_cons]
      exact List.mem_cons_of_mem _ hz

theorem storeOwn_pos {m own : SM OA Dim} (hm : PosSM m) : PosSM (storeOwn m own) := by
  intro e he
  obtain ⟨e0, -, rfl⟩ := List.mem_map.1 he
  exact getD_pos hm e0.1

/-- The candidates and the shared objects after all of them were limited. -/
theorem limitAll_pos (i : Inputs OA Dim) (hh : ∀ mo ∈ i.mems, mo.precision ≤ mo.capacity) {fill : List OA} (hf : fill.Nodup) :
    ∀ (cs : List (Cand OA Dim)) (heap : List (List (Dict Dim ℚ))) (r : List (Cand OA Dim)) (heap' : List (List (Dict Dim ℚ))),
      (∀ c ∈ cs, PosSM c.own ∧ (∀ oa ∈ fill, oa ∉ c.own.keys) ∧ RefPos heap c.choice) → limitAll i fill cs heap = .ok (r, heap') →
      (∀ ch, RefPos heap ch → RefPos heap' ch) ∧ ∀ c ∈ r, PosSM c.own ∧ (∀ oa ∈ fill, oa ∉ c.own.keys) ∧ RefPos heap' c.choice
  | [], heap, r, heap', _, h => by
    unfold limitAll at h
    cases h
    exact ⟨fun _ h => h, by simp⟩
  | c :: t, heap, r, heap', hc, h => by
    unfold limitAll at h
    obtain ⟨c1, c2, c3⟩ := hc c (by simp)
    cases h1 : limitCapacity i.capOrder i.mems (resolve fill heap c) with
    | error e => rw [h1] at h; cases h
    | ok m =>
      rw [h1] at h
      simp only at h
      have hm := limitCapacity_pos i.capOrder i.mems hh _ m (resolve_pos hf c2 c3 c1) h1
      have hs : ∀ ch, RefPos heap ch → RefPos (store m fill heap c.choice) ch := fun ch => store_pos hm fill heap c.choice ch
      cases h2 : limitAll i fill t (store m fill heap c.choice) with
      | error e => rw [h2] at h; cases h
      | ok p =>
        obtain ⟨r', h'⟩ := p
        rw [h2] at h
        cases h
        obtain ⟨i1, i2⟩ := limitAll_pos i hh hf t _ r' heap' (fun x hx => by
          obtain ⟨a, b, d⟩ := hc x (by simp [hx])
          exact ⟨a, b, hs _ d⟩) h2
        refine ⟨fun ch h => i1 ch (hs ch h), fun x hx => ?_⟩
        rcases List.mem_cons.1 hx with rfl | hx
        · refine ⟨storeOwn_pos hm, fun oa ho hk => c2 oa ho ?_, i1 _ (hs _ c3)⟩
          unfold storeOwn Dict.keys at hk
          rw [List.map_map] at hk
          exact hk
        · exact i2 x hx

end Verif.SpatialGen
