import Verif.Energy.Lemmas

/-! C29 and C61: energy is the sum of its breakdown, and the number of memory accesses pays for the transferred bits. -/

namespace Verif.Energy

open Verif.Cme

variable {Op : Type} [DecidableEq Op]

/-- Accesses times cost of an access, for one level. -/
def paid (a : FourWay) (lv : Level) : ℚ := (a.rdToLow + a.rdToHigh) * lv.readEnergy + (a.wrByLow + a.wrByHigh) * lv.writeEnergy

/-- The sum of the four directions. -/
def total4 (f : FourWay) : ℚ := f.rdToHigh + f.wrByHigh + f.rdToLow + f.wrByLow

theorem levelEnergy_eq_paid (a : FourWay) (lv : Level) : levelEnergy a lv = paid a lv := by
  simp only [levelEnergy, dirEnergy, paid]; ring

theorem levelEnergy_eq_total4 (a : FourWay) (lv : Level) : levelEnergy a lv = total4 (dirEnergy a lv) := by
  simp only [levelEnergy, total4]; ring

/-- C29: total energy is MAC energy plus memory energy; memory energy is the sum of the level breakdown over all operands and levels, and the sum of
the four-direction breakdown; both tables have an entry for each operand and each of its memory levels in use, that is accesses times energy for an
access. -/
theorem energy_breakdown {ops : List (Op × OpData)} {macEnergy : ℚ} {macCount : Nat} {r : Energies Op} (hw : Dict.WF ops)
    (h : energy ops macEnergy macCount = .ok r) :
    r.total = r.mac + r.mem ∧ r.mac = macEnergy * macCount ∧ r.mem = tableSum r.breakdown
      ∧ r.mem = (r.further.map fun e => (e.2.map total4).sum).sum
      ∧ r.breakdown.keys = Dict.keys ops ∧ r.further.keys = Dict.keys ops ∧
      ∀ k o, (k, o) ∈ ops → ∃ acc row fur, Dict.get? r.access k = some acc ∧ Dict.get? r.breakdown k = some row ∧ Dict.get? r.further k = some fur
        ∧ acc.length = o.moves.length ∧ row.length = o.moves.length ∧ fur.length = o.moves.length
        ∧ ∀ (j : Nat) (a : FourWay) (lv : Level), acc[j]? = some a → o.levels[j]? = some lv →
          row[j]? = some (paid a lv) ∧ fur[j]? = some (dirEnergy a lv) := by
  unfold energy at h
  cases ha : wordAccess ops with
  | error e => rw [ha] at h; cases h
  | ok t =>
    rw [ha] at h
    simp only [Except.ok.injEq] at h
    have hF := wordAccess_spec ops t ha
    have hk := forall₂_keys hF
    have hwt : Dict.WF t := by unfold Dict.WF; rw [hk]; exact hw
    rw [memEnergy_eq _ _ hwt] at h
    subst h
    simp only
    refine ⟨by ring, trivial, ?_, ?_, ?_, ?_, ?_⟩
    · unfold tableSum
      rw [List.map_map]; rfl
    · rw [List.map_map]
      congr 1
      refine List.map_congr_left fun e _ => ?_
      simp only [Function.comp, List.map_map]
      congr 1
      refine List.map_congr_left fun p _ => ?_
      exact levelEnergy_eq_total4 _ _
    · rw [← hk]; simp [Dict.keys]
    · rw [← hk]; simp [Dict.keys]
    · intro k o hm
      have hex : ∃ a, (k, a) ∈ t ∧ opAccess o 0 o.moves = .ok a := by
        clear ha hk hwt hw
        induction hF with
        | nil => cases hm
        | @cons x y l l' hxy _ ih =>
          rcases List.mem_cons.1 hm with rfl | hm
          · have hk : y.1 = k := hxy.1
            exact ⟨y.2, by rw [← hk]; exact List.mem_cons_self, hxy.2⟩
          · obtain ⟨a, h1, h2⟩ := ih hm
            exact ⟨a, List.mem_cons_of_mem _ h1, h2⟩
      obtain ⟨acc, hmem, hacc⟩ := hex
      obtain ⟨hlen, hlev, -⟩ := opAccess_spec o 0 o.moves acc hacc
      have hlevels : levelsOf ops k = o.levels := by
        unfold levelsOf
        rw [Dict.get?_of_mem hw hm]; rfl
      have hlen2 : acc.length ≤ o.levels.length := by
        by_contra hc
        have := hlev (acc.length - 1) (by omega)
        omega
      have hzip : (acc.zip o.levels).length = o.moves.length := by simp; omega
      have hwb : ∀ {V : Type} (f : Op × List FourWay → V), Dict.WF (t.map fun e => (e.1, f e)) := by
        intro V f
        have : Dict.keys (t.map fun e => (e.1, f e)) = Dict.keys t := by simp [Dict.keys]
        unfold Dict.WF; rw [this]; exact hwt
      refine ⟨acc, (acc.zip o.levels).map fun r => levelEnergy r.1 r.2, (acc.zip o.levels).map fun r => dirEnergy r.1 r.2,
        Dict.get?_of_mem hwt hmem, ?_, ?_, hlen, by simpa using hzip, by simpa using hzip, fun j a lv hj hl => ?_⟩
      · refine Dict.get?_of_mem (hwb _) (List.mem_map.2 ⟨(k, acc), hmem, ?_⟩)
        simp only [hlevels]
      · refine Dict.get?_of_mem (hwb _) (List.mem_map.2 ⟨(k, acc), hmem, ?_⟩)
        simp only [hlevels]
      · have hz : (acc.zip o.levels)[j]? = some (a, lv) := by rw [List.getElem?_zip_eq_some]; exact ⟨hj, hl⟩
        rw [List.getElem?_map, List.getElem?_map, hz]
        simp [levelEnergy_eq_paid]

/-- C29 together with C28: a fresh evaluation is balanced in the sense of `Cme.Balanced`, hence every sum of evaluations is
(`Cme.add_balanced`). -/
theorem energy_balanced {ops : List (Op × OpData)} {macEnergy : ℚ} {macCount : Nat} {r : Energies Op} (hw : Dict.WF ops)
    (h : energy ops macEnergy macCount = .ok r) (c : Cme.Cme Op) (h1 : c.totals.energyTotal = r.total) (h2 : c.totals.macEnergy = r.mac)
    (h3 : c.totals.memEnergy = r.mem) (h4 : c.energy = r.breakdown) :
    c.totals.energyTotal = c.totals.macEnergy + c.totals.memEnergy ∧ c.totals.memEnergy = tableSum c.energy := by
  obtain ⟨e1, -, e3, -⟩ := energy_breakdown hw h
  rw [h1, h2, h3, h4]
  exact ⟨e1, e3⟩

/-- Energy is never negative when the cost numbers and the movement are not. -/
theorem access_nonneg {amount precision count units : ℚ} {bwMax bwMin : Nat} (h1 : 0 ≤ amount) (h2 : 0 ≤ precision) (h3 : 0 ≤ count)
    (h4 : 0 ≤ units) : 0 ≤ memAccess amount precision count bwMax bwMin units := by
  unfold memAccess trunc
  split
  · exact le_rfl
  · have hc : (0 : ℚ) ≤ (⌈amount * precision / bwMin⌉ : ℚ) := by
      exact_mod_cast Int.ceil_nonneg (by positivity)
    have hx : 0 ≤ (⌈amount * precision / bwMin⌉ : ℚ) * ((bwMin : ℚ) / bwMax) * count * units := by positivity
    rw [if_pos hx]
    exact Int.floor_nonneg.2 hx

theorem level_nonneg {m : Move} {lv : Level} {u : ℚ} {a : FourWay} (h : levelAccess m lv u = .ok a) (hu : 0 ≤ u)
    (hm : ∀ d, 0 ≤ m.amount.get d ∧ 0 ≤ m.precision.get d ∧ 0 ≤ m.count.get d) :
    0 ≤ a.rdToHigh ∧ 0 ≤ a.wrByHigh ∧ 0 ≤ a.rdToLow ∧ 0 ≤ a.wrByLow := by
  have hdir : ∀ d x, dirAccess m lv u d = .ok x → 0 ≤ x := by
    intro d x hx
    unfold dirAccess at hx
    split at hx
    · split at hx
      · cases hx; exact le_rfl
      · cases hx
    · split at hx
      · cases hx
        exact access_nonneg (hm d).1 (hm d).2.1 (hm d).2.2 hu
      · cases hx
    · cases hx
  unfold levelAccess at h
  cases h1 : dirAccess m lv u .rdToLow with
  | error e => rw [h1] at h; cases h
  | ok x1 =>
    rw [h1] at h; simp only at h
    cases h2 : dirAccess m lv u .wrByLow with
    | error e => rw [h2] at h; cases h
    | ok x2 =>
      rw [h2] at h; simp only at h
      cases h3 : dirAccess m lv u .rdToHigh with
      | error e => rw [h3] at h; cases h
      | ok x3 =>
        rw [h3] at h; simp only at h
        cases h4 : dirAccess m lv u .wrByHigh with
        | error e => rw [h4] at h; cases h
        | ok x4 =>
          rw [h4] at h
          simp only [Except.ok.injEq] at h
          subst h
          have g1 := hdir _ _ h1
          have g2 := hdir _ _ h2
          have g3 := hdir _ _ h3
          have g4 := hdir _ _ h4
          refine ⟨?_, ?_, ?_, ?_⟩ <;> simp only <;> exact_mod_cast (by assumption)

/-- C29: with costs and movements that are not negative, memory energy and total energy are not negative. -/
theorem energy_nonneg {ops : List (Op × OpData)} {macEnergy : ℚ} {macCount : Nat} {r : Energies Op} (hw : Dict.WF ops)
    (h : energy ops macEnergy macCount = .ok r) (hmac : 0 ≤ macEnergy)
    (hm : ∀ k o, (k, o) ∈ ops → (∀ m ∈ o.moves, ∀ d, 0 ≤ m.amount.get d ∧ 0 ≤ m.precision.get d ∧ 0 ≤ m.count.get d)
      ∧ (∀ lv ∈ o.levels, 0 ≤ lv.readEnergy ∧ 0 ≤ lv.writeEnergy) ∧ ∀ u ∈ o.units, (0 : ℚ) ≤ u) : 0 ≤ r.mem ∧ 0 ≤ r.total := by
  obtain ⟨e1, e2, e3, -⟩ := energy_breakdown hw h
  have hmem : 0 ≤ r.mem := by
    unfold energy at h
    cases ha : wordAccess ops with
    | error e => rw [ha] at h; cases h
    | ok t =>
      rw [ha] at h
      simp only [Except.ok.injEq] at h
      have hF := wordAccess_spec ops t ha
      have hwt : Dict.WF t := by unfold Dict.WF; rw [forall₂_keys hF]; exact hw
      rw [memEnergy_eq _ _ hwt] at h
      subst h
      simp only
      refine List.sum_nonneg fun x hx => ?_
      obtain ⟨e, he, rfl⟩ := List.mem_map.1 hx
      have hex : ∃ o, (e.1, o) ∈ ops ∧ opAccess o 0 o.moves = .ok e.2 := by
        clear ha hwt hw hm hx e1 e2 e3
        induction hF with
        | nil => cases he
        | @cons x y l l' hxy _ ih =>
          rcases List.mem_cons.1 he with rfl | he
          · exact ⟨x.2, by rw [hxy.1]; exact List.mem_cons_self, hxy.2⟩
          · obtain ⟨o, h1, h2⟩ := ih he
            exact ⟨o, List.mem_cons_of_mem _ h1, h2⟩
      obtain ⟨o, ho, hacc⟩ := hex
      obtain ⟨-, -, hall⟩ := opAccess_spec o 0 o.moves e.2 hacc
      obtain ⟨g1, g2, g3⟩ := hm e.1 o ho
      have hlevels : levelsOf ops e.1 = o.levels := by
        unfold levelsOf
        rw [Dict.get?_of_mem hw ho]; rfl
      rw [hlevels]
      refine List.sum_nonneg fun y hy => ?_
      obtain ⟨p, hp, rfl⟩ := List.mem_map.1 hy
      obtain ⟨j, hj⟩ := List.getElem?_of_mem (List.of_mem_zip hp).1
      obtain ⟨m, lv, u, q1, q2, q3, q4⟩ := hall j p.1 hj
      have hnn := level_nonneg q4 (g3 u (List.mem_of_getElem? q3)) (g1 m (List.mem_of_getElem? q1))
      have hlv := g2 p.2 (List.of_mem_zip hp).2
      rw [levelEnergy_eq_paid]
      unfold paid
      have := hnn.1; have := hnn.2.1; have := hnn.2.2.1; have := hnn.2.2.2
      exact add_nonneg (mul_nonneg (by linarith) hlv.1) (mul_nonneg (by linarith) hlv.2)
  refine ⟨hmem, ?_⟩
  rw [e1, e2]
  have : 0 ≤ macEnergy * macCount := by positivity
  linarith

/-- C61, upper and lower bound: the accesses of the port width carry all bits except less than one access, and no more than one smallest access for
each transfer too much. -/
theorem access_bounds {amount precision count units : ℚ} {bwMax bwMin : Nat} (h1 : 0 < amount) (h2 : 0 < precision) (h3 : 0 ≤ count)
    (h4 : 0 ≤ units) (hx : 0 < bwMax) (hn : 0 < bwMin) :
    amount * precision * count * units < (memAccess amount precision count bwMax bwMin units + 1) * bwMax ∧
      (memAccess amount precision count bwMax bwMin units : ℚ) * bwMax ≤ (amount * precision + bwMin) * count * units := by
  have hX : (0 : ℚ) < bwMax := by exact_mod_cast hx
  have hN : (0 : ℚ) < bwMin := by exact_mod_cast hn
  have hc : (0 : ℚ) ≤ (⌈amount * precision / bwMin⌉ : ℚ) := by
    exact_mod_cast Int.ceil_nonneg (by positivity)
  have hpos : 0 ≤ (⌈amount * precision / bwMin⌉ : ℚ) * ((bwMin : ℚ) / bwMax) * count * units := by positivity
  have hval : memAccess amount precision count bwMax bwMin units
      = ⌊(⌈amount * precision / bwMin⌉ : ℚ) * ((bwMin : ℚ) / bwMax) * count * units⌋ := by
    unfold memAccess trunc
    rw [if_neg (by push Not; exact ⟨h1.ne', h2.ne'⟩), if_pos hpos]
  rw [hval]
  have hle := Int.le_ceil (amount * precision / (bwMin : ℚ))
  have hlt := Int.ceil_lt_add_one (amount * precision / (bwMin : ℚ))
  have heq : (⌈amount * precision / bwMin⌉ : ℚ) * ((bwMin : ℚ) / bwMax) * count * units * bwMax
      = (⌈amount * precision / bwMin⌉ : ℚ) * bwMin * (count * units) := by field_simp
  have hcu : 0 ≤ count * units := mul_nonneg h3 h4
  constructor
  · have hfl := Int.lt_floor_add_one ((⌈amount * precision / bwMin⌉ : ℚ) * ((bwMin : ℚ) / bwMax) * count * units)
    have h5 : amount * precision ≤ (⌈amount * precision / bwMin⌉ : ℚ) * bwMin := by
      rw [div_le_iff₀ hN] at hle; exact hle
    have h6 := mul_le_mul_of_nonneg_right h5 hcu
    have h7 := mul_lt_mul_of_pos_right hfl hX
    rw [heq] at h7
    calc amount * precision * count * units = amount * precision * (count * units) := by ring
      _ ≤ _ := h6
      _ < _ := h7
  · have hfl := Int.floor_le ((⌈amount * precision / bwMin⌉ : ℚ) * ((bwMin : ℚ) / bwMax) * count * units)
    have h5 : (⌈amount * precision / bwMin⌉ : ℚ) * bwMin ≤ amount * precision + bwMin := by
      have : (⌈amount * precision / bwMin⌉ : ℚ) * bwMin ≤ (amount * precision / bwMin + 1) * bwMin :=
        mul_le_mul_of_nonneg_right hlt.le hN.le
      have he : (amount * precision / (bwMin : ℚ) + 1) * bwMin = amount * precision + bwMin := by field_simp
      linarith
    have h6 := mul_le_mul_of_nonneg_right h5 hcu
    have h7 := mul_le_mul_of_nonneg_right hfl hX.le
    rw [heq] at h7
    calc _ ≤ _ := h7
      _ ≤ _ := h6
      _ = _ := by ring

/-- C61, partial: when the smallest access has the full port width, the accesses carry every bit.  Missing: ports whose smallest access is narrower,
for which the statement is false (`access_free_false`). -/
theorem access_covers_partial {amount precision : ℚ} {count units bw : Nat} (h1 : 0 < amount) (h2 : 0 < precision) (hb : 0 < bw) :
    amount * precision * count * units ≤ (memAccess amount precision count bw bw units : ℚ) * bw := by
  have hB : (0 : ℚ) < bw := by exact_mod_cast hb
  have hval : memAccess amount precision count bw bw units = ⌈amount * precision / (bw : ℚ)⌉ * count * units := by
    unfold memAccess trunc
    rw [if_neg (by push Not; exact ⟨h1.ne', h2.ne'⟩), div_self hB.ne', mul_one]
    have hc : (0 : ℚ) ≤ (⌈amount * precision / bw⌉ : ℚ) := by
      exact_mod_cast Int.ceil_nonneg (by positivity)
    rw [if_pos (by positivity)]
    rw [Int.floor_eq_iff]
    push_cast
    constructor <;> linarith
  rw [hval]
  have hle := Int.le_ceil (amount * precision / (bw : ℚ))
  rw [div_le_iff₀ hB] at hle
  push_cast
  have hcu : (0 : ℚ) ≤ (count : ℚ) * units := by positivity
  have := mul_le_mul_of_nonneg_right hle hcu
  calc amount * precision * count * units = amount * precision * (count * units) := by ring
    _ ≤ _ := this
    _ = _ := by ring

/-- C61 is false for a port whose smallest access is narrower than the port: data is moved without any access being counted, hence without energy. -/
theorem access_free_false : ∃ (amount precision count units : ℚ) (bwMax bwMin : Nat), 0 < amount * precision * count * units ∧ 0 < bwMin
    ∧ bwMin ≤ bwMax ∧ memAccess amount precision count bwMax bwMin units = 0 :=
  ⟨1, 8, 1, 1, 64, 8, by norm_num, by norm_num, by norm_num, by decide +kernel⟩

/-- Whether a direction has a bandwidth decides success: data without a port is a `ValueError`. -/
theorem access_no_port (m : Move) (lv : Level) (u : ℚ) (d : Dir) (h1 : lv.bwMax d = none) (h2 : lv.bwMin d = none) (h : m.amount.get d ≠ 0) :
    dirAccess m lv u d = .error .valueError := by
  unfold dirAccess
  rw [h1, h2]
  simp [h]

private theorem levelAccess_get {m : Move} {lv : Level} {u : ℚ} {a : FourWay} (h : levelAccess m lv u = .ok a) (d : Dir) :
    ∃ x : Int, dirAccess m lv u d = .ok x ∧ a.get d = x := by
  unfold levelAccess at h
  cases h1 : dirAccess m lv u .rdToLow with
  | error e => rw [h1] at h; cases h
  | ok x1 =>
    rw [h1] at h; simp only at h
    cases h2 : dirAccess m lv u .wrByLow with
    | error e => rw [h2] at h; cases h
    | ok x2 =>
      rw [h2] at h; simp only at h
      cases h3 : dirAccess m lv u .rdToHigh with
      | error e => rw [h3] at h; cases h
      | ok x3 =>
        rw [h3] at h; simp only at h
        cases h4 : dirAccess m lv u .wrByHigh with
        | error e => rw [h4] at h; cases h
        | ok x4 =>
          rw [h4] at h
          simp only [Except.ok.injEq] at h
          subst h
          cases d
          · exact ⟨x3, h3, rfl⟩
          · exact ⟨x4, h4, rfl⟩
          · exact ⟨x1, h1, rfl⟩
          · exact ⟨x2, h2, rfl⟩

/-- An entry of the table of accesses is the result of the computation for that operand, level and direction. -/
theorem table_access {ops : List (Op × OpData)} {macEnergy : ℚ} {macCount : Nat} {r : Energies Op} (hw : Dict.WF ops)
    (h : energy ops macEnergy macCount = .ok r) {k : Op} {o : OpData} (hk : (k, o) ∈ ops) {acc : List FourWay}
    (ha : Dict.get? r.access k = some acc) {j : Nat} {m : Move} {lv : Level} {u : ℚ} (hm : o.moves[j]? = some m)
    (hl : o.levels[j]? = some lv) (hu : o.units[j + 1]? = some u) :
    ∃ a, acc[j]? = some a ∧ ∀ d, ∃ x : Int, dirAccess m lv u d = .ok x ∧ a.get d = x := by
  unfold energy at h
  cases hacc : wordAccess ops with
  | error e => rw [hacc] at h; cases h
  | ok t =>
    rw [hacc] at h
    simp only [Except.ok.injEq] at h
    subst h
    simp only at ha
    have hF := wordAccess_spec ops t hacc
    have hkeys := forall₂_keys hF
    have hwt : Dict.WF t := by unfold Dict.WF; rw [hkeys]; exact hw
    have hop : opAccess o 0 o.moves = .ok acc := by
      have hex : ∃ a, (k, a) ∈ t ∧ opAccess o 0 o.moves = .ok a := by
        clear hacc hkeys hwt hw ha
        induction hF with
        | nil => cases hk
        | @cons x y l l' hxy _ ih =>
          rcases List.mem_cons.1 hk with rfl | hk
          · have hk : y.1 = k := hxy.1
            exact ⟨y.2, by rw [← hk]; exact List.mem_cons_self, hxy.2⟩
          · obtain ⟨a, h1, h2⟩ := ih hk
            exact ⟨a, List.mem_cons_of_mem _ h1, h2⟩
      obtain ⟨a, h1, h2⟩ := hex
      rw [Dict.get?_of_mem hwt h1] at ha
      cases ha
      exact h2
    obtain ⟨hlen, -, hall⟩ := opAccess_spec o 0 o.moves acc hop
    have hj : j < acc.length := by rw [hlen]; exact (List.getElem?_eq_some_iff.1 hm).1
    obtain ⟨m', lv', u', q1, q2, q3, q4⟩ := hall j acc[j] (List.getElem?_eq_getElem hj)
    rw [hm] at q1; cases q1
    rw [Nat.zero_add, hl] at q2; cases q2
    rw [Nat.zero_add, hu] at q3; cases q3
    exact ⟨acc[j], List.getElem?_eq_getElem hj, levelAccess_get q4⟩

/-- C61 and C29 for the whole evaluation: in the table of accesses, the entry of an operand, level and direction is decided by the movement of that
operand at that level in that direction: no data, no access; otherwise there is a port, whose accesses over all units of the level above carry the
bits of all transfers except less than one access, and at most one smallest access for each transfer too much. -/
theorem table_access_bounds {ops : List (Op × OpData)} {macEnergy : ℚ} {macCount : Nat} {r : Energies Op} (hw : Dict.WF ops)
    (h : energy ops macEnergy macCount = .ok r) {k : Op} {o : OpData} (hk : (k, o) ∈ ops) {acc : List FourWay}
    (ha : Dict.get? r.access k = some acc) {j : Nat} {m : Move} {lv : Level} {u : ℚ} (hm : o.moves[j]? = some m)
    (hl : o.levels[j]? = some lv) (hu : o.units[j + 1]? = some u) (d : Dir) :
    ∃ a, acc[j]? = some a ∧ (m.amount.get d = 0 → a.get d = 0) ∧
      (0 < m.amount.get d → 0 < m.precision.get d → 0 ≤ m.count.get d → 0 ≤ u →
        ∃ mx mn, lv.bwMax d = some mx ∧ lv.bwMin d = some mn ∧ 0 < mx ∧ 0 < mn ∧
          m.amount.get d * m.precision.get d * m.count.get d * u < (a.get d + 1) * mx ∧
          a.get d * mx ≤ (m.amount.get d * m.precision.get d + mn) * m.count.get d * u) := by
  obtain ⟨a, ha', hall⟩ := table_access hw h hk ha hm hl hu
  obtain ⟨x, hx, hget⟩ := hall d
  refine ⟨a, ha', ?_, ?_⟩
  · intro hz
    rw [hget]
    unfold dirAccess at hx
    split at hx
    · rw [if_pos hz] at hx; cases hx; rfl
    · split at hx
      · cases hx
        unfold memAccess
        rw [if_pos (Or.inl hz)]; rfl
      · cases hx
    · cases hx
  · intro g1 g2 g3 g4
    rw [hget]
    unfold dirAccess at hx
    split at hx
    · rw [if_neg g1.ne'] at hx; cases hx
    · rename_i mx mn e1 e2
      split at hx
      · rename_i hne
        cases hx
        have p1 : 0 < mx := Nat.pos_of_ne_zero hne.1
        have p2 : 0 < mn := Nat.pos_of_ne_zero hne.2
        exact ⟨mx, mn, by first | assumption | rfl, by first | assumption | rfl, p1, p2, access_bounds g1 g2 g3 g4 p1 p2⟩
      · cases hx
    · cases hx

def sampleLevel : Level := { readEnergy := 2, writeEnergy := 3, bwMax := fun _ => some 16, bwMin := fun _ => some 8 }
def sampleMove : Move := { amount := ⟨0, 5, 7, 0⟩, precision := ⟨8, 8, 8, 8⟩, count := ⟨1, 4, 6, 1⟩ }
def sampleOps : List (Nat × OpData) :=
  [(0, { moves := [sampleMove, sampleMove], levels := [sampleLevel, sampleLevel, sampleLevel], units := [4, 2, 1, 1] }),
   (1, { moves := [sampleMove], levels := [sampleLevel], units := [1, 1] })]

example : Dict.WF sampleOps := by unfold Dict.WF Dict.keys; decide
example : (match energy sampleOps (1 / 2) 100 with | .ok r => r.total == 338 && r.mem == 288 | .error _ => false) = true := by decide +kernel

end Verif.Energy
