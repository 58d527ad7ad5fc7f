import Verif.Diagonal.Model

/-! C59: the diagonal mapping option never extends a mapping. -/

namespace Verif.Diagonal

open Verif.SpatialMapping

variable {OA Dim : Type} [DecidableEq OA] [DecidableEq Dim]

/-- The table of line 446 never has a key other than the second data dimension. -/
theorem buildTables_keys (pr : List Dim) : ∀ (xs : List Dim) (t t' : Tables Dim), buildTables pr xs t = .ok t' →
    (t.weightR.keys = [] ∨ ∃ d2, t.weightR.keys = [d2] ∧ ∃ d1, pr = [d1, d2]) →
    (t'.weightR.keys = [] ∨ ∃ d2, t'.weightR.keys = [d2])
  | [], t, t', h, h0 => by
    unfold buildTables at h
    cases h
    rcases h0 with h0 | ⟨d, h0, _⟩
    · exact Or.inl h0
    · exact Or.inr ⟨d, h0⟩
  | x :: xs, t, t', h, h0 => by
    unfold buildTables at h
    match pr, h0, h with
    | [d1, d2], h0, h =>
      simp only at h
      split_ifs at h with h1 h2
      · cases h
        rcases h0 with h0 | ⟨d, h0, _⟩
        · exact Or.inl h0
        · exact Or.inr ⟨d, h0⟩
      · exact absurd (Or.inl h2.symm) h1
      · refine buildTables_keys [d1, d2] xs _ t' h (Or.inr ⟨d2, ?_, d1, rfl⟩)
        simp only
        rw [Dict.keys_set]
        rcases h0 with h0 | ⟨d, h0, d', hd⟩
        · rw [h0]; simp
        · have : d = d2 := by simpa using (List.cons.inj (List.cons.inj hd).2).1.symm
          rw [h0, this]; simp
    | [], _, h => cases h
    | [_], _, h => cases h
    | _ :: _ :: _ :: _, _, h => cases h

theorem scan_keys (t : Tables Dim) : ∀ (xs : List (Dim × ℚ)) (w : Dict Dim (Dict Dim ℚ)) (s : ℚ) (w' : Dict Dim (Dict Dim ℚ)) (s' : ℚ), scan t xs w s = .ok (w', s') → w'.keys = w.keys
  | [], w, s, w', s', h => by unfold scan at h; cases h; rfl
  | x :: xs, w, s, w', s', h => by
    unfold scan at h
    split_ifs at h
    · cases h1 : t.link.get? x.1 with
      | none => rw [h1] at h; cases h
      | some p =>
        rw [h1] at h
        simp only at h
        cases h2 : w.get? p with
        | none => rw [h2] at h; cases h
        | some inner =>
          rw [h2] at h
          simp only at h
          cases h3 : inner.get? x.1 with
          | none => rw [h3] at h; cases h
          | some v =>
            rw [h3] at h
            rw [scan_keys t xs _ _ w' s' h, Dict.keys_set, if_pos]
            by_contra hc
            rw [← Dict.get?_eq_none_iff, h2] at hc
            cases hc
    · exact scan_keys t xs w _ w' s' h

theorem firstTarget_error (i : Inputs OA Dim) (s e : ℚ) (d : Dim) (w : Dict Dim (Dict Dim ℚ)) (hw : w.keys = [] ∨ ∃ d2, w.keys = [d2]) :
    ∃ x, ∀ rest, firstTarget i s e d w rest = .error x := by
  unfold firstTarget
  cases i.sizes.get? d with
  | none => exact ⟨_, fun _ => rfl⟩
  | some _ =>
    simp only
    by_cases he : e = 0
    · simp only [if_pos he]
      exact ⟨_, fun _ => rfl⟩
    · simp only [if_neg he]
      cases hg : w.get? d with
      | none => exact ⟨_, fun _ => rfl⟩
      | some v =>
        simp only
        have hd : d ∈ w.keys := by
          by_contra hc
          rw [← Dict.get?_eq_none_iff, hg] at hc
          cases hc
        rcases hw with h0 | ⟨d2, h0⟩
        · rw [h0] at hd; simp at hd
        · rw [h0] at hd ⊢
          have : d = d2 := by simpa using hd
          subst this
          exact ⟨.stopIteration, fun _ => by simp⟩

theorem afterChecks_error (i : Inputs OA Dim) (o : OA) (s e : ℚ) (target : List Dim) (ht : target ≠ []) : ∃ x, ∀ rest, afterChecks i o s e target rest = .error x := by
  unfold afterChecks
  cases hb : buildTables i.prKeys i.irDims { weightR := [], kernelDims := [], link := [] } with
  | error e => exact ⟨e, fun _ => rfl⟩
  | ok t =>
    have hk := buildTables_keys i.prKeys i.irDims _ t hb (Or.inl rfl)
    simp only
    cases i.sm.get? o with
    | none => exact ⟨_, fun _ => rfl⟩
    | some l =>
      simp only
      cases hs : scan t l t.weightR 1 with
      | error e => exact ⟨e, fun _ => rfl⟩
      | ok p =>
        obtain ⟨w, s'⟩ := p
        simp only
        have hwk := scan_keys t l t.weightR 1 w s' hs
        cases target with
        | nil => exact absurd rfl ht
        | cons d ds => exact firstTarget_error i s e d w (by rw [hwk]; exact hk)

theorem checks_cases (i : Inputs OA Dim) (a o : OA) : (∀ rest, checks i a o rest = .ok i.sm) ∨ ∃ x, ∀ rest, checks i a o rest = .error x := by
  unfold checks
  cases i.hints.get? a with
  | none =>
    simp only
    by_cases h : i.irDims = []
    · simp only [if_pos h]; exact Or.inl (fun _ => trivial)
    · simp only [if_neg h]; exact Or.inr ⟨_, fun _ => rfl⟩
  | some h =>
    simp only
    by_cases ht : i.irDims.filter (fun x => decide (x ∈ h)) = []
    · simp only [if_pos ht]; exact Or.inl (fun _ => trivial)
    · simp only [if_neg ht]
      cases i.oaSizes.get? a with
      | none => exact Or.inr ⟨_, fun _ => rfl⟩
      | some s =>
        simp only
        by_cases hc : ((i.sm.get? a).map util).getD 1 * 2 > s
        · simp only [if_pos hc]; exact Or.inl (fun _ => trivial)
        · simp only [if_neg hc]; exact Or.inr (afterChecks_error i o s _ _ ht)

/-- C59 (the code's actual behaviour): whatever the layer, memories, hints and whatever the code after line 503 does, the function returns the
mapping unchanged or raises: no mapping is ever extended. -/
theorem diagonal_never_extends (i : Inputs OA Dim) :
    (∀ rest, addInputPr i rest = .ok i.sm) ∨ ∃ e, ∀ rest, addInputPr i rest = .error e := by
  unfold addInputPr
  by_cases h1 : i.nbConst > 1
  · simp only [if_pos h1]; exact Or.inl (fun _ => trivial)
  · simp only [if_neg h1]
    cases remainder i.sm (allDims i.sm) i.sizes with
    | error e => exact Or.inr ⟨e, fun _ => rfl⟩
    | ok _ =>
      simp only
      by_cases h2 : i.identified = false
      · simp only [if_pos h2]; exact Or.inl (fun _ => trivial)
      · simp only [if_neg h2]
        cases i.actServed.getLast? with
        | none => exact Or.inl (fun _ => rfl)
        | some a =>
          cases i.outServed.getLast? with
          | none => exact Or.inl (fun _ => rfl)
          | some o => exact checks_cases i a o

/-- A convolution on a weight-stationary array where `OX` is hinted and there is room for it. -/
def convInputs : Inputs String String :=
  { nbConst := 1, sizes := [("K", 8), ("C", 4), ("OX", 6), ("OY", 6), ("FX", 3), ("FY", 3)], sm := [("D1", [("K", 4)]), ("D2", [("FX", 3)])],
    identified := true, irDims := ["B", "G", "OX", "OY"], actServed := ["D1"], outServed := ["D2"], hints := [("D1", ["OX", "OY"])],
    oaSizes := [("D1", 16), ("D2", 16)], prKeys := ["IX", "IY"] }

/-- C59 (negation of the documented purpose): the function raises `KeyError` because the dictionary `{IX: .., IY: ..}` is unpacked into its
keys. -/
theorem diagonal_crash_false : ∀ rest, addInputPr convInputs rest = .error .keyError := by
  have h : addInputPr convInputs (.ok []) = .error .keyError := by decide +kernel
  rcases diagonal_never_extends convInputs with e | ⟨x, e⟩
  · rw [e] at h; cases h
  · intro rest
    rw [e, ← e (.ok []), h]

/-- The function does return for a full array dimension. -/
example : addInputPr { convInputs with oaSizes := [("D1", 7), ("D2", 16)] } (.ok []) = .ok convInputs.sm := by decide +kernel

end Verif.Diagonal
