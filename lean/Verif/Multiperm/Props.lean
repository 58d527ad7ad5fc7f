import Verif.Multiperm.Lemmas
import Mathlib.Data.Prod.Lex

/-!
Properties C01, C02, C03 of `/repo/zigzag/opt/loma/multipermute.py`.
Specification vocabulary: `List.Perm` (same elements with the same multiplicities), `List.Nodup`, `List.filter`.
-/

namespace Verif.Multiperm

variable {α : Type} [LinearOrder α]

/-- C02: for every non-empty list the generator ends without crashing, and yields every arrangement exactly once. -/
theorem permutations_complete (ms : List α) (h : ms ≠ []) :
    ∃ N L, L.Nodup ∧ (∀ y, y.Perm ms → y ∈ L) ∧ ∀ fuel, N ≤ fuel → permutations fuel ms = .ok (some L) := by
  have hs := sorted_perm ms
  cases hsrt : sorted ms with
  | nil => rw [hsrt] at hs; exact absurd hs.symm.eq_nil h
  | cons d srt =>
    have hpw := sorted_pairwise ms
    rw [hsrt] at hs hpw
    obtain ⟨N, L, h1, h2, h3⟩ := loop_init d (d :: srt) hpw (by simp)
    refine ⟨N, (d :: srt).reverse :: L, h1, fun y hy => (h2 y).2 (hy.trans hs.symm), ?_⟩
    intro fuel hf
    unfold permutations
    rw [hsrt]
    simp only
    rw [h3 fuel hf, visit_init d (d :: srt) (by simp)]
    rfl

/-- C01: everything the generator yields, however long it runs, is an arrangement of the input; the first yield is the
non-increasing one; the empty list raises IndexError. -/
theorem permutations_sound (ms : List α) (fuel : Nat) :
    (ms = [] → permutations fuel ms = .error .indexError) ∧
    (∀ L, permutations fuel ms = .ok (some L) → (∀ y ∈ L, y.Perm ms) ∧
      ∃ m rest, L = m :: rest ∧ m.Perm ms ∧ m.Pairwise (fun a b => b ≤ a)) := by
  constructor
  · rintro rfl; rfl
  · intro L hL
    have hs := sorted_perm ms
    cases hsrt : sorted ms with
    | nil => unfold permutations at hL; rw [hsrt] at hL; simp at hL
    | cons d srt =>
      have hpw := sorted_pairwise ms
      have hdec := dec_reverse_sorted ms
      rw [hsrt] at hs hpw hdec
      obtain ⟨N, L', h1, h2, h3⟩ := loop_init d (d :: srt) hpw (by simp)
      unfold permutations at hL
      rw [hsrt] at hL
      simp only [Except.ok.injEq, Option.map_eq_some_iff] at hL
      obtain ⟨ys, hys, rfl⟩ := hL
      -- larger fuel does not change a finished run
      have mono : ∀ (val : Nat → α) (n f k : Nat) (s : St) (Y : List (List α)), loop val n f s = some Y →
          loop val n (f + k) s = some Y := by
        intro val n f
        induction f with
        | zero => intro k s Y hY; simp [loop] at hY
        | succ f ih =>
          intro k s Y hY
          have : f + 1 + k = (f + k) + 1 := by omega
          rw [this]
          unfold loop at hY ⊢
          cases hst : step val s with
          | stop => rw [hst] at hY; exact hY
          | crash => rw [hst] at hY; simp at hY
          | next s' =>
            rw [hst] at hY
            simp only [Option.map_eq_some_iff] at hY ⊢
            obtain ⟨Z, hZ, rfl⟩ := hY
            exact ⟨Z, ih k s' Z hZ, rfl⟩
      have e1 := mono _ _ fuel N _ _ hys
      have e2 := h3 (fuel + N) (by omega)
      rw [e1] at e2
      cases e2
      rw [visit_init d (d :: srt) (by simp)]
      refine ⟨fun y hy => ((h2 y).1 hy).trans hs, _, _, rfl, (List.reverse_perm _).trans hs, hdec⟩

/-- C03 (general form): the constrained generator scans the unconstrained enumeration, keeps the arrangements on which all
constraints hold, in order, and ends with the first exception a constraint raises. -/
theorem constrained_eq_scan (ms : List α) (cs : List (Constr α)) (fuel : Nat) (L : List (List α))
    (h : permutations fuel ms = .ok (some L)) :
    constrainedPermutations fuel ms cs = .ok (some (filterGen cs L)) := by
  unfold permutations at h
  unfold constrainedPermutations
  cases hsrt : sorted ms with
  | nil => rw [hsrt] at h; simp at h
  | cons d srt =>
    rw [hsrt] at h
    simp only [Except.ok.injEq, Option.map_eq_some_iff] at h
    obtain ⟨ys, hys, rfl⟩ := h
    simp only
    rw [loopC_eq cs _ _ _ _ _ hys]
    simp only [emit, filterGen]
    cases allValid cs _ with
    | error e => rfl
    | ok b => cases b <;> rfl

/-- C03: with constraints that do not raise on any arrangement, the constrained generator terminates and yields exactly the
arrangements satisfying all of them, each once; with no constraints it yields what the unconstrained generator yields. -/
theorem constrained_complete (ms : List α) (hne : ms ≠ []) (cs : List (List α → Bool)) :
    ∃ N L, (∀ fuel, N ≤ fuel → permutations fuel ms = .ok (some L)) ∧
      (∀ fuel, N ≤ fuel → constrainedPermutations fuel ms (cs.map (fun c p => .ok (c p))) =
        .ok (some (L.filter (fun p => cs.all (fun c => c p)), none))) ∧
      (∀ y, y ∈ L.filter (fun p => cs.all (fun c => c p)) ↔ y.Perm ms ∧ ∀ c ∈ cs, c y = true) ∧
      (L.filter (fun p => cs.all (fun c => c p))).Nodup := by
  obtain ⟨N, L, h1, h2, h3⟩ := permutations_complete ms hne
  have hsound := ((permutations_sound ms N).2 L (h3 N le_rfl)).1
  have hall : ∀ p, allValid (cs.map (fun c p => (.ok (c p) : Except PyErr Bool))) p = .ok (cs.all (fun c => c p)) := by
    intro p
    induction cs with
    | nil => rfl
    | cons c cs ih =>
      simp only [List.map_cons, allValid, List.all_cons]
      cases hc : c p with
      | true => simpa using ih
      | false => rfl
  have hfil : ∀ Y : List (List α), filterGen (cs.map (fun c p => (.ok (c p) : Except PyErr Bool))) Y =
      (Y.filter (fun p => cs.all (fun c => c p)), none) := by
    intro Y
    induction Y with
    | nil => rfl
    | cons y Y ih =>
      simp only [filterGen, hall, ih, List.filter_cons]
      cases cs.all (fun c => c y) <;> rfl
  refine ⟨N, L, h3, ?_, ?_, h1.filter _⟩
  · intro fuel hf
    rw [constrained_eq_scan ms _ fuel L (h3 fuel hf), hfil]
  · intro y
    rw [List.mem_filter, List.all_eq_true]
    exact ⟨fun h => ⟨hsound y h.1, h.2⟩, fun h => ⟨h2 y h.1, h.2⟩⟩

/-- Meaning of `l[p]` with Python's negative indices. -/
theorem pyIdx_ok_iff {β : Type} (l : List β) (p : Int) (x : β) :
    pyIdx l p = .ok x ↔ (0 ≤ p ∧ l[p.toNat]? = some x) ∨ (p < 0 ∧ 0 ≤ p + l.length ∧ l[(p + l.length).toNat]? = some x) := by
  unfold pyIdx
  by_cases hp : p < 0
  · simp only [hp, if_true]
    by_cases hq : p + (l.length : Int) < 0
    · simp only [hq, if_true]
      constructor
      · intro h; simp at h
      · rintro (⟨h, _⟩ | ⟨_, h, _⟩) <;> omega
    · simp only [hq, if_false]
      cases hl : l[(p + (l.length : Int)).toNat]? with
      | none => simp; omega
      | some y =>
        simp only [Except.ok.injEq, Option.some.injEq]
        constructor
        · intro h; exact Or.inr ⟨trivial, by omega, h⟩
        · rintro (⟨h, _⟩ | ⟨_, _, h⟩)
          · omega
          · exact h
  · simp only [hp, if_false]
    cases hl : l[p.toNat]? with
    | none => simp
    | some y =>
      simp only [Except.ok.injEq, Option.some.injEq]
      constructor
      · intro h; exact Or.inl ⟨by omega, h⟩
      · rintro (⟨_, h⟩ | ⟨h, _⟩)
        · exact h
        · exact absurd h (by simp)

/-- C03 for the fixed-position constraint built from a user ordering: a position that exists in the ordering never raises
and the constraint holds iff each listed position carries the listed layer dimension; a position outside the ordering
raises IndexError (if everything before it matches). -/
theorem static_positions_iff {D : Type} [DecidableEq D] (dim : α → D) (d : Dict Int D) (p : List α)
    (hr : ∀ x ∈ d, -(p.length : Int) ≤ x.1 ∧ x.1 < p.length) :
    ∃ b, staticPositions dim d p = .ok b ∧ (b = true ↔ ∀ x ∈ d, ∃ y, pyIdx p x.1 = .ok y ∧ dim y = x.2) := by
  induction d with
  | nil => exact ⟨true, rfl, by simp⟩
  | cons a d ih =>
    obtain ⟨pos, item⟩ := a
    obtain ⟨b, hb1, hb2⟩ := ih (fun x hx => hr x (by simp [hx]))
    have hpos := hr (pos, item) (by simp)
    simp only at hpos
    have hex : ∃ x, pyIdx p pos = .ok x := by
      by_cases h : pos < 0
      · have hlt : (pos + p.length).toNat < p.length := by omega
        exact ⟨p[(pos + p.length).toNat], (pyIdx_ok_iff _ _ _).2 (Or.inr ⟨h, by omega, by simp [hlt]⟩)⟩
      · have hlt : pos.toNat < p.length := by omega
        exact ⟨p[pos.toNat], (pyIdx_ok_iff _ _ _).2 (Or.inl ⟨by omega, by simp [hlt]⟩)⟩
    obtain ⟨x, hx⟩ := hex
    simp only [staticPositions, hx]
    by_cases hd : dim x = item
    · rw [if_pos hd]
      refine ⟨b, hb1, ?_⟩
      rw [hb2]
      simp only [List.forall_mem_cons]
      exact ⟨fun h => ⟨⟨x, hx, hd⟩, h⟩, fun h => h.2⟩
    · rw [if_neg hd]
      refine ⟨false, rfl, ?_⟩
      simp only [List.forall_mem_cons]
      constructor
      · intro h; simp at h
      · rintro ⟨⟨y, hy, hdy⟩, _⟩
        simp only [hx, Except.ok.injEq] at hy
        subst hy
        exact absurd hdy hd

/-- Same for the constraint with sizes. -/
theorem static_positions_and_sizes_iff {D : Type} [DecidableEq D] (dim : α → D) (size : α → Nat) (d : Dict Int (D × Nat)) (p : List α)
    (hr : ∀ x ∈ d, -(p.length : Int) ≤ x.1 ∧ x.1 < p.length) :
    ∃ b, staticPositionsAndSizes dim size d p = .ok b ∧
      (b = true ↔ ∀ x ∈ d, ∃ y, pyIdx p x.1 = .ok y ∧ dim y = x.2.1 ∧ size y = x.2.2) := by
  induction d with
  | nil => exact ⟨true, rfl, by simp⟩
  | cons a d ih =>
    obtain ⟨pos, item⟩ := a
    obtain ⟨b, hb1, hb2⟩ := ih (fun x hx => hr x (by simp [hx]))
    have hpos := hr (pos, item) (by simp)
    simp only at hpos
    have hex : ∃ x, pyIdx p pos = .ok x := by
      by_cases h : pos < 0
      · have hlt : (pos + p.length).toNat < p.length := by omega
        exact ⟨p[(pos + p.length).toNat], (pyIdx_ok_iff _ _ _).2 (Or.inr ⟨h, by omega, by simp [hlt]⟩)⟩
      · have hlt : pos.toNat < p.length := by omega
        exact ⟨p[pos.toNat], (pyIdx_ok_iff _ _ _).2 (Or.inl ⟨by omega, by simp [hlt]⟩)⟩
    obtain ⟨x, hx⟩ := hex
    simp only [staticPositionsAndSizes, hx]
    by_cases hd : dim x = item.1 ∧ size x = item.2
    · rw [if_pos hd]
      refine ⟨b, hb1, ?_⟩
      rw [hb2]
      simp only [List.forall_mem_cons]
      exact ⟨fun h => ⟨⟨x, hx, hd⟩, h⟩, fun h => h.2⟩
    · rw [if_neg hd]
      refine ⟨false, rfl, ?_⟩
      simp only [List.forall_mem_cons]
      constructor
      · intro h; simp at h
      · rintro ⟨⟨y, hy, hdy⟩, _⟩
        simp only [hx, Except.ok.injEq] at hy
        subst hy
        exact absurd hdy hd

/-- A fixed position beyond the ordering raises. -/
theorem static_positions_out_of_range {D : Type} [DecidableEq D] (dim : α → D) (pos : Int) (item : D) (d : Dict Int D) (p : List α)
    (h : (p.length : Int) ≤ pos ∨ pos < -(p.length : Int)) :
    staticPositions dim ((pos, item) :: d) p = .error .indexError := by
  have : pyIdx p pos = .error .indexError := by
    cases hx : pyIdx p pos with
    | ok x =>
      rcases (pyIdx_ok_iff _ _ _).1 hx with ⟨h1, h2⟩ | ⟨h1, h2, h3⟩
      · have := (List.getElem?_eq_some_iff.1 h2).1; omega
      · omega
    | error e =>
      unfold pyIdx at hx
      simp only at hx
      split_ifs at hx <;> first | (simp at hx; subst hx; rfl) | (split at hx <;> simp at hx; subst hx; rfl)
  simp [staticPositions, this]

/-! Non-trivial instances. -/

/-- The hypotheses are met by a real multiset of loops with a repeated element; the enumeration is the one of the code. -/
example : permutations (α := Nat) 20 [1, 2, 1, 3] = .ok (some [[3, 2, 1, 1], [1, 3, 2, 1], [3, 1, 2, 1], [1, 3, 1, 2],
    [1, 1, 3, 2], [3, 1, 1, 2], [2, 3, 1, 1], [1, 2, 3, 1], [2, 1, 3, 1], [1, 2, 1, 3], [1, 1, 2, 3], [2, 1, 1, 3]]) := by
  decide +kernel

example : permutations (α := Nat) 20 [1, 2, 1] = .ok (some [[2, 1, 1], [1, 2, 1], [1, 1, 2]]) := by decide +kernel

example : constrainedPermutations (α := Nat) 20 [1, 2, 1] [fun p => .ok (p[0]? == some 1)] =
    .ok (some ([[1, 2, 1], [1, 1, 2]], none)) := by decide +kernel

example : ∃ b, staticPositions (α := Nat ×ₗ Nat) (fun x => if (ofLex x).1 = 0 then "C" else "K") [(0, "K"), (-1, "C")]
    [toLex (1, 3), toLex (1, 2), toLex (0, 5)] = .ok b ∧ b = true := ⟨true, by decide +kernel, rfl⟩

end Verif.Multiperm
