import Verif.TemporalLoops.Lemmas

/-!
Properties C04, C05 (and the difference between the two engines, C54).
-/

namespace Verif.TemporalLoops

variable {D : Type} [DecidableEq D]

/-- C04.  The temporal loops computed by the loma engine, together with the spatial loops, cover every layer dimension.
No side condition on divisibility, on repeated dimensions, nor on integrality of the factors; factors are at least 1
(established for converted mappings in `Verif.Conversion`). -/
theorem loma_covers (sizes : Dict D Int) (spatial : List (D × Rat)) (hw : sizes.WF)
    (hpos : ∀ k v, sizes.get? k = some v → 1 ≤ v) (hf : ∀ l ∈ spatial, 1 ≤ l.2) :
    ∃ res, lomaTemporalLoops sizes spatial = .ok res ∧
      ∀ k s, sizes.get? k = some s →
        (s : Rat) ≤ ((spatial.filter (fun l => l.1 = k)).map Prod.snd).prod * ((res.get? k).getD 1 : Int) := by
  obtain ⟨d', h⟩ := lomaLoop_ok sizes spatial hf
  refine ⟨drop1 d', by simp [lomaTemporalLoops, h], fun k s hs => ?_⟩
  obtain ⟨hp', hc⟩ := lomaLoop_cover (d := sizes) hpos hf h
  have h1 := hc k
  have h2 := sizeOf_drop1 (lomaLoop_wf hw h) hp' k
  rw [← h2] at h1
  simpa [sizeOf, hs, unrolling] using h1

/-- C04/C05, integer factors: the temporal loop size of each dimension is exactly the least number of iterations
covering the dimension, `⌈size / product of factors⌉`; in particular it does not depend on the order of the spatial
loops and equals the exact quotient when the product divides the size. -/
theorem loma_exact (sizes : Dict D Int) (spatial : List (D × Rat)) (hw : sizes.WF)
    (hpos : ∀ k v, sizes.get? k = some v → 1 ≤ v) (hf : ∀ l ∈ spatial, ∃ z : Int, 1 ≤ z ∧ l.2 = z)
    (res : Dict D Int) (hres : lomaTemporalLoops sizes spatial = .ok res) (k : D) (s : Int)
    (hs : sizes.get? k = some s) :
    ((res.get? k).getD 1 : Int) = ⌈(s : Rat) / ((spatial.filter (fun l => l.1 = k)).map Prod.snd).prod⌉ := by
  have hge : ∀ l ∈ spatial, (1 : Rat) ≤ l.2 := by
    intro l hl
    obtain ⟨z, hz, e⟩ := hf l hl
    rw [e]; exact_mod_cast hz
  unfold lomaTemporalLoops at hres
  split at hres
  · cases hres
  · rename_i d' h
    cases hres
    obtain ⟨hp', _⟩ := lomaLoop_cover (d := sizes) hpos hge h
    have h2 := sizeOf_drop1 (lomaLoop_wf hw h) hp' k
    have h3 := lomaLoop_exact (d := sizes) hpos hf h k
    rw [← h2] at h3
    simpa [sizeOf, hs, unrolling] using h3

/-- C05.  Removing a single temporal iteration would leave part of the layer dimension uncovered (integer factors). -/
theorem loma_minimal (sizes : Dict D Int) (spatial : List (D × Rat)) (hw : sizes.WF)
    (hpos : ∀ k v, sizes.get? k = some v → 1 ≤ v) (hf : ∀ l ∈ spatial, ∃ z : Int, 1 ≤ z ∧ l.2 = z)
    (res : Dict D Int) (hres : lomaTemporalLoops sizes spatial = .ok res) (k : D) (s : Int)
    (hs : sizes.get? k = some s) :
    ((spatial.filter (fun l => l.1 = k)).map Prod.snd).prod * (((res.get? k).getD 1 : Int) - 1) < (s : Rat) := by
  have h := loma_exact sizes spatial hw hpos hf res hres k s hs
  have hge : ∀ l ∈ spatial, (1 : Rat) ≤ l.2 := by
    intro l hl
    obtain ⟨z, hz, e⟩ := hf l hl
    rw [e]; exact_mod_cast hz
  have hu := one_le_unrolling spatial hge k
  unfold unrolling at hu
  rw [h]
  have h2 := Int.ceil_lt_add_one ((s : Rat) / ((spatial.filter (fun l => l.1 = k)).map Prod.snd).prod)
  have h0 : (0 : Rat) < ((spatial.filter (fun l => l.1 = k)).map Prod.snd).prod := by linarith
  have h4 : ((⌈(s : Rat) / ((spatial.filter (fun l => l.1 = k)).map Prod.snd).prod⌉ : Rat) - 1)
      < (s : Rat) / ((spatial.filter (fun l => l.1 = k)).map Prod.snd).prod := by linarith
  rw [lt_div_iff₀ h0] at h4
  linarith

/-- C05.  Whatever the spatial loops, the result lists only dimensions of the layer, without repetition, with sizes
larger than one. -/
theorem loma_nontrivial (sizes : Dict D Int) (spatial : List (D × Rat)) (hw : sizes.WF) (res : Dict D Int)
    (hres : lomaTemporalLoops sizes spatial = .ok res) :
    res.keys.Nodup ∧ ∀ k v, (k, v) ∈ res → 1 < v ∧ k ∈ sizes.keys := by
  unfold lomaTemporalLoops at hres
  split at hres
  · cases hres
  · rename_i d' h
    cases hres
    have hw' := lomaLoop_wf hw h
    refine ⟨hw'.filter _, fun k v hkv => ?_⟩
    have hkv' : (k, v) ∈ d' ∧ 1 < v := by simpa [drop1] using hkv
    refine ⟨hkv'.2, ?_⟩
    have hkeys : ∀ (ls : List (D × Rat)) (d d' : Dict D Int), lomaLoop d ls = .ok d' →
        ∀ k, d.get? k = none → d'.get? k = none := by
      intro ls
      induction ls with
      | nil => intro d d' h k hk; simp [lomaLoop] at h; subst h; exact hk
      | cons l ls ih =>
        intro d d' h k hk
        simp only [lomaLoop] at h
        split at h
        · cases h
        · rename_i d1 h1
          refine ih d1 d' h k ?_
          unfold lomaStep at h1
          split at h1
          · cases h1; exact hk
          · rename_i s hs
            have hne : l.1 ≠ k := by rintro rfl; rw [hk] at hs; cases hs
            split_ifs at h1
            dsimp at h1
            split_ifs at h1 <;> cases h1
            · simp [Dict.get?_del, hne, hk]
            · simp [Dict.get?_set, hne, hk]
    by_contra hk
    have := hkeys spatial sizes d' h k ((Dict.get?_eq_none_iff _ _).2 hk)
    rw [Dict.get?_of_mem hw' hkv'.1] at this
    cases this

/-- Non-vacuity of the four theorems above: K=10 unrolled 4 and 2, C=3 fully unrolled, OX=7 not unrolled. -/
example : lomaTemporalLoops [("K", 10), ("C", 3), ("OX", 7), ("B", 1)] [("K", 4), ("C", 3), ("K", 2), ("C", 5)]
    = .ok [("K", 2), ("OX", 7)] := by decide +kernel

/-- A factor below one defeats coverage after the dimension was deleted: the hypothesis `1 ≤ factor` of `loma_covers`
is needed (4 = size, spatial 4 and 1/2 give 2·1 < 4). -/
example : lomaTemporalLoops [("K", 4)] [("K", 4), ("K", (1/2 : Rat))] = .ok [] := by decide +kernel

/-- C54.  Where the salsa engine succeeds it computes the same temporal loops as the loma engine. -/
theorem salsa_eq_loma (sizes : Dict D Int) (spatial : List (D × Rat)) (res : Dict D Int)
    (h : salsaTemporalLoops sizes spatial = .ok res) : lomaTemporalLoops sizes spatial = .ok res := by
  have key : ∀ (ls : List (D × Rat)) (d d' : Dict D Int), salsaLoop d ls = .ok d' → lomaLoop d ls = .ok d' := by
    intro ls
    induction ls with
    | nil => intro d d' h; simpa [salsaLoop, lomaLoop] using h
    | cons l ls ih =>
      intro d d' h
      simp only [salsaLoop] at h
      split at h
      · cases h
      · rename_i d1 h1
        have : lomaStep d l = .ok d1 := by
          unfold salsaStep at h1
          unfold lomaStep
          split at h1
          · cases h1
          · exact h1
        simp [lomaLoop, this, ih d1 d' h]
  unfold salsaTemporalLoops at h
  split at h
  · cases h
  · rename_i d' h'
    simp [lomaTemporalLoops, key _ _ _ h', ← h]

/-- C54, negative part: the salsa engine raises `KeyError` on spatial mappings which the loma engine accepts: whenever
a dimension is fully unrolled by one spatial loop and occurs in a later one. -/
theorem salsa_keyError (d : D) (n : Int) (f g : Rat) (hn : 1 ≤ n) (hf : (n : Rat) ≤ f) :
    salsaTemporalLoops [(d, n)] [(d, f), (d, g)] = .error .keyError ∧
      lomaTemporalLoops [(d, n)] [(d, f), (d, g)] = .ok [] := by
  have hn' : (1 : Rat) ≤ n := by exact_mod_cast hn
  have hf0 : 0 < f := by linarith
  have hc : ⌈(n : Rat) / f⌉ = 1 := by
    rw [Int.ceil_eq_iff]
    constructor
    · simp; positivity
    · rw [div_le_iff₀ hf0]; simpa using hf
  constructor
  · simp [salsaTemporalLoops, salsaLoop, salsaStep, Dict.get?, hc, hf0.ne', Dict.del]
  · simp [lomaTemporalLoops, lomaLoop, lomaStep, Dict.get?, hc, hf0.ne', Dict.del, drop1]

example : salsaTemporalLoops [("K", 4)] [("K", 4), ("K", 2)] = .error .keyError := by decide +kernel

end Verif.TemporalLoops
