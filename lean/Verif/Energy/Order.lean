import Mathlib.Algebra.BigOperators.Ring.List
import Verif.Energy.Props

/-! The energy does not grow with the bandwidths. -/

namespace Verif.Energy

open Verif.Cme

variable {Op : Type} [DecidableEq Op]

/-- The same memory, with at least the same maximal bandwidth in every direction. -/
structure Wider (lv lv' : Level) : Prop where
  read : lv'.readEnergy = lv.readEnergy
  write : lv'.writeEnergy = lv.writeEnergy
  min : lv'.bwMin = lv.bwMin
  max : ∀ d, Option.Rel (fun w w' => w ≤ w') (lv.bwMax d) (lv'.bwMax d)

/-- The same operand with wider memories. -/
structure WiderOp (o o' : OpData) : Prop where
  moves : o'.moves = o.moves
  units : o'.units = o.units
  levels : List.Forall₂ Wider o.levels o'.levels

/-- Amounts, energies and numbers of units are not negative. -/
structure Plain (o : OpData) : Prop where
  moves : ∀ m ∈ o.moves, ∀ d, 0 ≤ m.amount.get d ∧ 0 ≤ m.precision.get d ∧ 0 ≤ m.count.get d
  levels : ∀ lv ∈ o.levels, 0 ≤ lv.readEnergy ∧ 0 ≤ lv.writeEnergy
  units : ∀ u ∈ o.units, (0 : ℚ) ≤ u

theorem memAccess_anti {amount precision count units : ℚ} {x x' n : Nat} (h1 : 0 ≤ amount) (h2 : 0 ≤ precision) (h3 : 0 ≤ count) (h4 : 0 ≤ units)
    (hx : 0 < x) (hle : x ≤ x') : memAccess amount precision count x' n units ≤ memAccess amount precision count x n units := by
  unfold memAccess
  split_ifs with h
  · exact le_rfl
  have hX : (0 : ℚ) < x := by exact_mod_cast hx
  have hX' : (x : ℚ) ≤ x' := by exact_mod_cast hle
  have hc : (0 : ℚ) ≤ (⌈amount * precision / n⌉ : ℚ) := by exact_mod_cast Int.ceil_nonneg (by positivity)
  have hd : (n : ℚ) / x' ≤ (n : ℚ) / x := div_le_div_of_nonneg_left (by positivity) hX hX'
  have h0 : (0 : ℚ) ≤ (⌈amount * precision / n⌉ : ℚ) * ((n : ℚ) / x') * count * units := by positivity
  have h01 : (⌈amount * precision / n⌉ : ℚ) * ((n : ℚ) / x') * count * units ≤ (⌈amount * precision / n⌉ : ℚ) * ((n : ℚ) / x) * count * units := by
    gcongr
  unfold trunc
  rw [if_pos h0, if_pos (h0.trans h01)]
  exact Int.floor_le_floor h01

private theorem dir_le {m : Move} {lv lv' : Level} {u : ℚ} (hw : Wider lv lv') (hu : 0 ≤ u)
    (hm : ∀ d, 0 ≤ m.amount.get d ∧ 0 ≤ m.precision.get d ∧ 0 ≤ m.count.get d) {d : Dir} {x x' : Int} (h : dirAccess m lv u d = .ok x)
    (h' : dirAccess m lv' u d = .ok x') : x' ≤ x := by
  unfold dirAccess at h h'
  rw [hw.min] at h'
  have hr := hw.max d
  revert h h'
  generalize lv.bwMax d = a at hr ⊢
  generalize lv'.bwMax d = b at hr ⊢
  generalize lv.bwMin d = c
  intro h h'
  cases hr with
  | none =>
    rw [h] at h'
    cases h'
    exact le_rfl
  | @some w w' hle =>
    cases c with
    | none => cases h
    | some n =>
      simp only at h h'
      split at h
      · next hz =>
        cases h
        split at h'
        · cases h'
          exact memAccess_anti (hm d).1 (hm d).2.1 (hm d).2.2 hu (Nat.pos_of_ne_zero hz.1) hle
        · cases h'
      · cases h

private theorem levelAccess_get {m : Move} {lv : Level} {u : ℚ} {a : FourWay} (h : levelAccess m lv u = .ok a) :
    ∃ x1 x2 x3 x4 : Int, dirAccess m lv u .rdToLow = .ok x1 ∧ dirAccess m lv u .wrByLow = .ok x2 ∧ dirAccess m lv u .rdToHigh = .ok x3 ∧
      dirAccess m lv u .wrByHigh = .ok x4 ∧ a = { rdToHigh := x3, wrByHigh := x4, rdToLow := x1, wrByLow := x2 } := by
  unfold levelAccess at h
  cases h1 : dirAccess m lv u .rdToLow with
  | error e => rw [h1] at h; cases h
  | ok x1 =>
    cases h2 : dirAccess m lv u .wrByLow with
    | error e => rw [h1, h2] at h; cases h
    | ok x2 =>
      cases h3 : dirAccess m lv u .rdToHigh with
      | error e => rw [h1, h2, h3] at h; cases h
      | ok x3 =>
        cases h4 : dirAccess m lv u .wrByHigh with
        | error e => rw [h1, h2, h3, h4] at h; cases h
        | ok x4 =>
          rw [h1, h2, h3, h4] at h
          cases h
          exact ⟨x1, x2, x3, x4, rfl, rfl, rfl, rfl, rfl⟩

private theorem level_le {m : Move} {lv lv' : Level} {u : ℚ} (hw : Wider lv lv') (hu : 0 ≤ u)
    (hm : ∀ d, 0 ≤ m.amount.get d ∧ 0 ≤ m.precision.get d ∧ 0 ≤ m.count.get d) (he : 0 ≤ lv.readEnergy ∧ 0 ≤ lv.writeEnergy) {a a' : FourWay}
    (h : levelAccess m lv u = .ok a) (h' : levelAccess m lv' u = .ok a') : levelEnergy a' lv' ≤ levelEnergy a lv := by
  obtain ⟨x1, x2, x3, x4, e1, e2, e3, e4, rfl⟩ := levelAccess_get h
  obtain ⟨y1, y2, y3, y4, f1, f2, f3, f4, rfl⟩ := levelAccess_get h'
  have g1 : (y1 : ℚ) ≤ x1 := by exact_mod_cast dir_le hw hu hm e1 f1
  have g2 : (y2 : ℚ) ≤ x2 := by exact_mod_cast dir_le hw hu hm e2 f2
  have g3 : (y3 : ℚ) ≤ x3 := by exact_mod_cast dir_le hw hu hm e3 f3
  have g4 : (y4 : ℚ) ≤ x4 := by exact_mod_cast dir_le hw hu hm e4 f4
  simp only [levelEnergy, dirEnergy, hw.read, hw.write]
  have k1 := mul_le_mul_of_nonneg_right g1 he.1
  have k2 := mul_le_mul_of_nonneg_right g2 he.2
  have k3 := mul_le_mul_of_nonneg_right g3 he.1
  have k4 := mul_le_mul_of_nonneg_right g4 he.2
  linarith

private theorem op_le {o o' : OpData} (hw : WiderOp o o') (hp : Plain o) {r r' : List FourWay} (h : opAccess o 0 o.moves = .ok r)
    (h' : opAccess o' 0 o'.moves = .ok r') :
    ((r'.zip o'.levels).map fun x => levelEnergy x.1 x.2).sum ≤ ((r.zip o.levels).map fun x => levelEnergy x.1 x.2).sum := by
  obtain ⟨l1, v1, a1⟩ := opAccess_spec o 0 o.moves r h
  obtain ⟨l2, v2, a2⟩ := opAccess_spec o' 0 o'.moves r' h'
  rw [hw.moves] at l2
  have hl := hw.levels.length_eq
  refine List.Forall₂.sum_le_sum ?_
  rw [List.forall₂_iff_get]
  refine ⟨by simp [l1, l2, hl], fun i h1 h2 => ?_⟩
  simp only [List.length_map, List.length_zip] at h1 h2
  simp only [List.get_eq_getElem, List.getElem_map, List.getElem_zip]
  obtain ⟨m, lv, u, q1, q2, q3, q4⟩ := a1 i _ (List.getElem?_eq_getElem (by omega))
  obtain ⟨m', lv', u', p1, p2, p3, p4⟩ := a2 i _ (List.getElem?_eq_getElem (by omega))
  rw [hw.moves, q1] at p1
  rw [hw.units, q3] at p3
  cases p1; cases p3
  rw [Nat.zero_add] at q2 p2
  obtain ⟨w1, rfl⟩ := List.getElem?_eq_some_iff.1 q2
  obtain ⟨w2, rfl⟩ := List.getElem?_eq_some_iff.1 p2
  exact level_le (by simpa using (List.forall₂_iff_get.1 hw.levels).2 i w1 w2) (hp.units u (List.mem_of_getElem? q3))
    (hp.moves m (List.mem_of_getElem? q1)) (hp.levels _ (List.getElem_mem w1)) q4 p4

/-- With wider ports, and nothing else changed, no more energy is paid. -/
theorem energy_le {ops ops' : List (Op × OpData)} {macEnergy : ℚ} {macCount : Nat} {r r' : Energies Op} (hw : Dict.WF ops)
    (hf : List.Forall₂ (fun e e' => e'.1 = e.1 ∧ WiderOp e.2 e'.2) ops ops') (hp : ∀ e ∈ ops, Plain e.2)
    (h : energy ops macEnergy macCount = .ok r) (h' : energy ops' macEnergy macCount = .ok r') : r'.mem ≤ r.mem ∧ r'.total ≤ r.total := by
  have hk : Dict.keys ops' = Dict.keys ops := by
    unfold Dict.keys
    clear h h' hp hw
    induction hf with
    | nil => rfl
    | cons hab _ ih => rw [List.map_cons, List.map_cons, ih, hab.1]
  have hw' : Dict.WF ops' := by unfold Dict.WF at hw ⊢; rw [hk]; exact hw
  obtain ⟨e1, e2, -⟩ := energy_breakdown hw h
  obtain ⟨f1, f2, -⟩ := energy_breakdown hw' h'
  have hmem : r'.mem ≤ r.mem := by
    unfold energy at h h'
    cases ha : wordAccess ops with
    | error e => rw [ha] at h; cases h
    | ok t =>
      cases ha' : wordAccess ops' with
      | error e => rw [ha'] at h'; cases h'
      | ok t' =>
        rw [ha] at h
        rw [ha'] at h'
        simp only [Except.ok.injEq] at h h'
        have hF := wordAccess_spec ops t ha
        have hF' := wordAccess_spec ops' t' ha'
        have hwt : Dict.WF t := by unfold Dict.WF; rw [forall₂_keys hF]; exact hw
        have hwt' : Dict.WF t' := by unfold Dict.WF; rw [forall₂_keys hF']; exact hw'
        rw [memEnergy_eq _ _ hwt] at h
        rw [memEnergy_eq _ _ hwt'] at h'
        subst h; subst h'
        simp only
        refine List.Forall₂.sum_le_sum ?_
        have n1 := hF.length_eq
        have n2 := hF'.length_eq
        have n3 := hf.length_eq
        rw [List.forall₂_iff_get]
        refine ⟨by simp; omega, fun i h1 h2 => ?_⟩
        simp only [List.length_map] at h1 h2
        simp only [List.get_eq_getElem, List.getElem_map]
        have b1 := (List.forall₂_iff_get.1 hF).2 i (by omega) h2
        have b2 := (List.forall₂_iff_get.1 hF').2 i (by omega) h1
        have b3 := (List.forall₂_iff_get.1 hf).2 i (by omega) (by omega)
        simp only [List.get_eq_getElem] at b1 b2 b3
        have hlev : ∀ {os : List (Op × OpData)} (hw : Dict.WF os) (hi : i < os.length), levelsOf os os[i].1 = os[i].2.levels := by
          intro os hw hi
          unfold levelsOf
          rw [Dict.get?_of_mem hw (show (os[i].1, os[i].2) ∈ os from List.getElem_mem hi)]; rfl
        rw [b1.1, b2.1, hlev hw (by omega), hlev hw' (by omega)]
        exact op_le b3.2 (hp _ (List.getElem_mem _)) b1.2 b2.2
  exact ⟨hmem, by rw [e1, f1, e2, f2]; linarith⟩

/-! ### Other prices of an access -/

/-- The same memory, with accesses at other prices. -/
structure Priced (lv lv' : Level) : Prop where
  min : lv'.bwMin = lv.bwMin
  max : lv'.bwMax = lv.bwMax

/-- The same operand with other prices. -/
structure PricedOp (Q : Level → Level → Prop) (o o' : OpData) : Prop where
  moves : o'.moves = o.moves
  units : o'.units = o.units
  levels : List.Forall₂ (fun lv lv' => Priced lv lv' ∧ Q lv lv') o.levels o'.levels

private theorem opAccess_priced {Q : Level → Level → Prop} {o o' : OpData} (hp : PricedOp Q o o') (i : Nat) (ms : List Move) :
    opAccess o' i ms = opAccess o i ms := by
  induction ms generalizing i with
  | nil => rfl
  | cons m ms ih =>
    unfold opAccess
    rw [hp.units, ih]
    have hr : Option.Rel Priced o.levels[i]? o'.levels[i]? := by
      have := hp.levels
      generalize o.levels = a at this
      generalize o'.levels = b at this
      clear ih
      induction this generalizing i with
      | nil => exact .none
      | cons hx _ ih =>
        cases i with
        | zero => exact .some hx.1
        | succ n => exact ih n
    generalize o.levels[i]? = a at hr
    generalize o'.levels[i]? = b at hr
    cases hr with
    | none => rfl
    | @some lv lv' hx =>
      have : ∀ u, levelAccess m lv' u = levelAccess m lv u := fun u => by
        unfold levelAccess dirAccess
        rw [hx.min, hx.max]
      cases o.units[i + 1]? with
      | none => rfl
      | some u => simp only [this u]

theorem wordAccess_priced {Q : Level → Level → Prop} {ops ops' : List (Op × OpData)}
    (hf : List.Forall₂ (fun e e' => e'.1 = e.1 ∧ PricedOp Q e.2 e'.2) ops ops') : wordAccess ops' = wordAccess ops := by
  induction hf with
  | nil => rfl
  | @cons e e' l l' he _ ih =>
    obtain ⟨k, o⟩ := e
    obtain ⟨k', o'⟩ := e'
    obtain ⟨rfl, hp⟩ := he
    unfold wordAccess
    simp only at hp ⊢
    rw [ih, hp.moves, opAccess_priced hp]

theorem energy_mem {ops : List (Op × OpData)} {macEnergy : ℚ} {macCount : Nat} {r : Energies Op} (hw : Dict.WF ops)
    (h : energy ops macEnergy macCount = .ok r) : wordAccess ops = .ok r.access ∧
      r.mem = (r.access.map fun e => ((e.2.zip (levelsOf ops e.1)).map fun x => levelEnergy x.1 x.2).sum).sum := by
  unfold energy at h
  cases ha : wordAccess ops with
  | error e => rw [ha] at h; cases h
  | ok t =>
    rw [ha] at h
    simp only [Except.ok.injEq] at h
    have hF := wordAccess_spec ops t ha
    have hwt : Dict.WF t := by unfold Dict.WF; rw [forall₂_keys hF]; exact hw
    rw [memEnergy_eq _ _ hwt] at h
    subst h
    exact ⟨rfl, rfl⟩

theorem levelsOf_priced {Q : Level → Level → Prop} {ops ops' : List (Op × OpData)}
    (hf : List.Forall₂ (fun e e' => e'.1 = e.1 ∧ PricedOp Q e.2 e'.2) ops ops') (k : Op) :
    List.Forall₂ (fun lv lv' => Priced lv lv' ∧ Q lv lv') (levelsOf ops k) (levelsOf ops' k) := by
  unfold levelsOf
  induction hf with
  | nil => exact .nil
  | @cons e e' l l' he _ ih =>
    obtain ⟨k1, o⟩ := e
    obtain ⟨k', o'⟩ := e'
    obtain ⟨rfl, hp⟩ := he
    rw [Dict.get?_cons, Dict.get?_cons]
    simp only
    split
    · exact hp.levels
    · exact ih

/-- If every price is `c` times as high, the energy is `c` times as high. -/
theorem energy_scale {c : ℚ} {ops ops' : List (Op × OpData)} {macEnergy : ℚ} {macCount : Nat} {r r' : Energies Op} (hw : Dict.WF ops)
    (hf : List.Forall₂ (fun e e' => e'.1 = e.1 ∧ PricedOp (fun lv lv' => lv'.readEnergy = c * lv.readEnergy ∧ lv'.writeEnergy = c * lv.writeEnergy)
      e.2 e'.2) ops ops')
    (h : energy ops macEnergy macCount = .ok r) (h' : energy ops' (c * macEnergy) macCount = .ok r') :
    r'.access = r.access ∧ r'.mem = c * r.mem ∧ r'.total = c * r.total := by
  have hk : Dict.keys ops' = Dict.keys ops := by
    unfold Dict.keys
    clear h h' hw
    induction hf with
    | nil => rfl
    | cons hab _ ih => rw [List.map_cons, List.map_cons, ih, hab.1]
  have hw' : Dict.WF ops' := by unfold Dict.WF at hw ⊢; rw [hk]; exact hw
  obtain ⟨e1, e2, -⟩ := energy_breakdown hw h
  obtain ⟨f1, f2, -⟩ := energy_breakdown hw' h'
  obtain ⟨a1, m1⟩ := energy_mem hw h
  obtain ⟨a2, m2⟩ := energy_mem hw' h'
  rw [wordAccess_priced hf, a1] at a2
  injection a2 with a2
  have hmem : r'.mem = c * r.mem := by
    rw [m1, m2, ← a2, ← List.sum_map_mul_left]
    congr 1
    refine List.map_congr_left fun e _ => ?_
    rw [← List.sum_map_mul_left]
    congr 1
    have := levelsOf_priced hf e.1
    generalize levelsOf ops e.1 = a at this
    generalize levelsOf ops' e.1 = b at this
    generalize e.2 = l
    induction this generalizing l with
    | nil => simp
    | cons hx _ ih =>
      cases l with
      | nil => rfl
      | cons y l =>
        simp only [List.zip_cons_cons, List.map_cons]
        rw [ih]
        congr 1
        simp only [levelEnergy, dirEnergy, hx.2.1, hx.2.2]
        ring
  exact ⟨a2.symm, hmem, by rw [e1, f1, e2, f2, hmem]; ring⟩

end Verif.Energy
