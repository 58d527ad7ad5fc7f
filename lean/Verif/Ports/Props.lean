import Verif.Ports.Lemmas
import Mathlib.Tactic.NormNum

/-! C77, C78, C79: memory ports and the validation of accelerator files. -/

namespace Verif.Ports

variable {Op Dim : Type} [DecidableEq Op] [DecidableEq Dim]

/-- A small memory: weights and inputs behind a shared read port and separate write ports. -/
def sampleMem : MemD String String where
  size := 64
  auto := false
  rCost := some 1
  wCost := some 1
  area := some 0
  operands := ["I1", "I2"]
  ports := [⟨"r_port_1", .read, 8, 16, [("I1", .rdLow), ("I2", .rdLow)]⟩, ⟨"w_port_1", .write, 4, 4, [("I1", .wrHigh)]⟩, ⟨"w_port_2", .write, 2, 4, [("I2", .wrHigh)]⟩]
  served := ["D1"]

/-! ### C77 -/

/-- C77: a memory entry with different port names is built exactly when its ports only name operands stored in it. -/
theorem build_ok_iff (m : MemD Op Dim) (hn : (m.ports.map PortD.name).Nodup) (levels : Dict Op Nat) (hw : levels.WF) (hk : ∀ o ∈ levels.keys, o ∈ m.operands) :
    (∃ st, buildMem m levels = .ok st) ↔ ∀ p ∈ m.ports, ∀ a ∈ p.alloc, a.1 ∈ m.operands := by
  constructor
  · rintro ⟨st, h⟩
    by_contra hc
    push Not at hc
    unfold buildMem at h
    rw [createAlloc_fail _ _ hc] at h
    cases h
  · intro h
    obtain ⟨d, h1, h2, h3⟩ := createAlloc_ok m.operands m.ports h
    obtain ⟨st, h4, -⟩ := allocate_ok m.ports hn d levels LvState.init hw (fun o ho => h3 o (hk o ho)) (by simp [LvState.init]) (by simp [LvState.init])
      (by simp [LvState.init])
    exact ⟨st, by unfold buildMem; rw [h1]; exact h4⟩

example : validateMem ["D1", "D2"] sampleMem = true ∧ (sampleMem.ports.map PortD.name).Nodup ∧ ∀ p ∈ sampleMem.ports, ∀ a ∈ p.alloc, a.1 ∈ sampleMem.operands := by
  decide +kernel

/-- C77 is false: the validator accepts a port for an operand that the memory does not store, creating the accelerator raises. -/
theorem accepted_build_false : ∃ m : MemD String String, validateMem ["D1", "D2"] m = true ∧ ∀ levels, buildMem m levels = .error .keyError := by
  refine ⟨{ sampleMem with operands := ["I1"] }, by decide +kernel, ?_⟩
  intro levels
  unfold buildMem
  rw [createAlloc_fail]
  exact ⟨⟨"r_port_1", .read, 8, 16, [("I1", .rdLow), ("I2", .rdLow)]⟩, by simp [sampleMem], ("I2", .rdLow), by simp, by simp⟩

/-! ### C78 -/

/-- C78, general form: with different port names every movement of a stored operand is served by the last port declaring it and by no other port. -/
theorem last_declared (m : MemD Op Dim) (hn : (m.ports.map PortD.name).Nodup) (levels : Dict Op Nat) (hw : levels.WF) (hk : ∀ o ∈ levels.keys, o ∈ m.operands)
    (st : LvState Op) (h : buildMem m levels = .ok st) :
    (∀ o ∈ levels.keys, ∀ d, st.bw o d = (lastPort m.ports o d).map fun p => (p.bwMin, p.bwMax)) ∧
    (∀ (i : Nat) t, t ∈ st.served i ↔ levels.get? t.1 = some t.2.1 ∧ ∃ p, m.ports[i]? = some p ∧ lastPort m.ports t.1 t.2.2 = some p) ∧
    (∀ i, (st.served i).Nodup) ∧ (∀ i, st.used i = true ↔ st.served i ≠ []) := by
  have hall := (build_ok_iff m hn levels hw hk).1 ⟨st, h⟩
  obtain ⟨d, h1, h2, h3⟩ := createAlloc_ok m.operands m.ports hall
  obtain ⟨st', h4, h5, h6, h7, h8⟩ := allocate_ok m.ports hn d levels LvState.init hw (fun o ho => h3 o (hk o ho)) (by simp [LvState.init])
    (by simp [LvState.init]) (by simp [LvState.init])
  have : st = st' := by
    unfold buildMem at h
    rw [h1] at h
    simp only at h
    rw [h4] at h
    exact (Except.ok.inj h).symm
  subst this
  refine ⟨?_, ?_, h7, h8⟩
  · intro o ho d'
    rw [h5 o d', if_pos ho]
    cases lastPort m.ports o d' <;> simp [LvState.init]
  · intro i t
    rw [h6 i t]
    simp [LvState.init]

/-- C78, partial: when no movement is declared for two ports, every port serves exactly the movements declared for it (each once, at the level of the operand), and
the bandwidth of a movement is that of its port.  Missing: conflicting declarations (`conflict_false`), equal port names (`duplicate_name_false`). -/
theorem ports_partial (m : MemD Op Dim) (hn : (m.ports.map PortD.name).Nodup) (levels : Dict Op Nat) (hw : levels.WF) (hk : ∀ o ∈ levels.keys, o ∈ m.operands)
    (hu : ∀ p ∈ m.ports, ∀ q ∈ m.ports, ∀ a, a ∈ p.alloc → a ∈ q.alloc → p = q) (st : LvState Op) (h : buildMem m levels = .ok st) :
    (∀ (i : Nat) p, m.ports[i]? = some p → ∀ o l d, (o, l, d) ∈ st.served i ↔ levels.get? o = some l ∧ (o, d) ∈ p.alloc) ∧
    (∀ p ∈ m.ports, ∀ o d, o ∈ levels.keys → (o, d) ∈ p.alloc → st.bw o d = some (p.bwMin, p.bwMax)) ∧
    (∀ o ∈ levels.keys, ∀ d, (∀ p ∈ m.ports, (o, d) ∉ p.alloc) → st.bw o d = none) ∧ (∀ i, (st.served i).Nodup) := by
  obtain ⟨h1, h2, h3, -⟩ := last_declared m hn levels hw hk st h
  have hl : ∀ p ∈ m.ports, ∀ o d, (o, d) ∈ p.alloc → lastPort m.ports o d = some p := by
    intro p hp o d ha
    cases hc : lastPort m.ports o d with
    | none =>
      unfold lastPort at hc
      rw [List.getLast?_eq_none_iff, List.filter_eq_nil_iff] at hc
      exact absurd (by simpa using ha) (hc p hp)
    | some q =>
      obtain ⟨hq, hq'⟩ := lastPort_mem hc
      rw [hu q hq p hp _ hq' ha]
  refine ⟨?_, ?_, ?_, h3⟩
  · intro i p hp o l d
    rw [h2 i (o, l, d)]
    refine and_congr_right fun _ => ?_
    have hpm : p ∈ m.ports := List.mem_of_getElem? hp
    constructor
    · rintro ⟨q, hq, hq'⟩
      rw [hp] at hq
      cases hq
      exact (lastPort_mem hq').2
    · intro ha
      exact ⟨p, hp, hl p hpm o d ha⟩
  · intro p hp o d ho ha
    rw [h1 o ho d, hl p hp o d ha]
    rfl
  · intro o ho d hno
    rw [h1 o ho d]
    cases hc : lastPort m.ports o d with
    | none => rfl
    | some q => exact absurd (lastPort_mem hc).2 (hno q (lastPort_mem hc).1)

/-- The sample meets the hypotheses; the shared read port serves both operands. -/
example : (∀ p ∈ sampleMem.ports, ∀ q ∈ sampleMem.ports, ∀ a ∈ p.alloc, a ∈ q.alloc → p = q) ∧
    ∃ st, buildMem sampleMem [("I1", 0), ("I2", 1)] = .ok st ∧ st.served 0 = [("I1", 0, .rdLow), ("I2", 1, .rdLow)] ∧ st.bw "I2" .wrHigh = some (2, 4) ∧
      st.bw "I1" .rdHigh = none :=
  ⟨by decide +kernel, _, rfl, by decide +kernel, by decide +kernel, by decide +kernel⟩

/-- Two ports are declared for reading the inputs. -/
def conflictMem : MemD String String :=
  { sampleMem with operands := ["I1"], ports := [⟨"r_port_1", .read, 8, 8, [("I1", .rdLow)]⟩, ⟨"r_port_2", .read, 1, 4, [("I1", .rdLow)]⟩] }

/-- C78 is false for conflicting declarations: the file is accepted and the first port is removed. -/
theorem conflict_false : validateMem ["D1"] conflictMem = true ∧ (conflictMem.ports.map PortD.name).Nodup ∧
    ∃ p ∈ conflictMem.ports, ("I1", Dir.rdLow) ∈ p.alloc ∧ p.bwMax = 8 ∧
      ∃ st, buildMem conflictMem [("I1", 0)] = .ok st ∧ p ∉ remaining conflictMem.ports st ∧ st.bw "I1" .rdLow = some (1, 4) :=
  ⟨by decide +kernel, by decide, ⟨"r_port_1", .read, 8, 8, [("I1", .rdLow)]⟩, by simp [conflictMem], by simp, rfl, _, rfl, by decide +kernel, by decide +kernel⟩

/-- Two ports with the same name. -/
def doubleName : MemD String String :=
  { sampleMem with operands := ["I1"], ports := [⟨"rw_port_1", .readWrite, 8, 8, [("I1", .rdLow)]⟩, ⟨"rw_port_1", .readWrite, 1, 4, [("I1", .wrHigh)]⟩] }

/-- C78 is false for equal port names: the movement declared for the second port is served by the first. -/
theorem duplicate_name_false : validateMem ["D1"] doubleName = true ∧ doubleName.ports[1]?.map PortD.alloc = some [("I1", .wrHigh)] ∧
    ∃ st, buildMem doubleName [("I1", 0)] = .ok st ∧ st.served 1 = [] ∧ st.bw "I1" .wrHigh = some (8, 8) :=
  ⟨by decide +kernel, rfl, _, rfl, by decide +kernel, by decide +kernel⟩

/-- An accepted memory can leave a movement of a stored operand without any port. -/
theorem unserved_false : ∃ m : MemD String String, validateMem ["D1"] m = true ∧ "I1" ∈ m.operands ∧
    ∃ st, buildMem m [("I1", 0)] = .ok st ∧ ∀ d, st.bw "I1" d = none :=
  ⟨{ sampleMem with operands := ["I1"], ports := [] }, by decide +kernel, by decide, _, rfl, fun d => rfl⟩

/-- What the validator guarantees: on every accepted port reads and writes go to ports of the right kind and the bandwidths are ordered. -/
theorem accepted_ports (dims : List Dim) (m : MemD Op Dim) (h : validateMem dims m = true) :
    ∀ p ∈ m.ports, p.bwMin ≤ p.bwMax ∧ ∀ a ∈ p.alloc, (a.2.isWrite = true → p.type ≠ .read) ∧ (a.2.isWrite = false → p.type ≠ .write) := by
  unfold validateMem at h
  simp only [Bool.and_eq_true, List.all_eq_true] at h
  obtain ⟨⟨-, h1⟩, h2⟩ := h
  intro p hp
  refine ⟨by simpa using h2 p hp, ?_⟩
  intro a ha
  have := h1 p hp a ha
  simp only [Bool.not_eq_true', Bool.and_eq_false_iff, decide_eq_false_iff_not] at this
  refine ⟨fun hw => ?_, fun hw => ?_⟩
  · rcases this.1 with h | h
    · rw [hw] at h; cases h
    · exact h
  · rcases this.2 with h | h
    · rw [hw] at h; cases h
    · exact h

/-! ### C79 -/

/-- C79: for an in-memory array the check answers exactly when both precisions are given and positive; otherwise it raises. -/
theorem imc_check_total_iff (d : ImcD) :
    (∃ b, validateImc d = .ok b) ↔ ∃ bs ip, d.bitSerial = some bs ∧ d.inPrec = some ip ∧ 0 < bs ∧ 0 < ip.1 ∧ 0 < ip.2 := by
  unfold validateImc
  cases h1 : d.inPrec with
  | none => simp
  | some ip =>
    cases h2 : d.bitSerial with
    | none => simp
    | some bs =>
      simp only [log2Check]
      by_cases a : bs ≤ 0
      · simp only [a, if_true]
        constructor
        · rintro ⟨_, h⟩; cases h
        · rintro ⟨_, _, e1, e2, h, -⟩; cases e1; exact absurd a (not_le.2 h)
      · by_cases b : ip.1 ≤ 0
        · simp only [a, b, if_true, if_false]
          constructor
          · rintro ⟨_, h⟩; cases h
          · rintro ⟨_, _, e1, e2, _, h, -⟩; cases e2; exact absurd b (not_le.2 h)
        · by_cases c : ip.2 ≤ 0
          · simp only [a, b, c, if_true, if_false]
            constructor
            · rintro ⟨_, h⟩; cases h
            · rintro ⟨_, _, e1, e2, _, _, h⟩; cases e2; exact absurd c (not_le.2 h)
          · simp only [a, b, c, if_false]
            exact ⟨fun _ => ⟨bs, ip, rfl, rfl, not_le.1 a, not_le.1 b, not_le.1 c⟩, fun _ => ⟨_, rfl⟩⟩

private theorem num_pow (x : Rat) (hx : 0 < x) (h : isPow2 x = true) : ∃ a b : Nat, x = 2 ^ a / 2 ^ b := by
  unfold isPow2 at h
  simp only [Bool.and_eq_true, decide_eq_true_eq] at h
  refine ⟨Nat.log2 x.num.toNat, Nat.log2 x.den, ?_⟩
  have h1 : (x.num : ℚ) = 2 ^ Nat.log2 x.num.toNat := by
    have : (x.num.toNat : Int) = x.num := Int.toNat_of_nonneg (Rat.num_pos.2 hx).le
    rw [← this]
    exact_mod_cast h.1
  have h2 : (x.den : ℚ) = 2 ^ Nat.log2 x.den := by exact_mod_cast h.2
  rw [← h1, ← h2]
  exact (Rat.num_div_den x).symm

/-- C79: accepted precisions are powers of two (possibly below one), the input slice is not wider than the input. -/
theorem imc_check_sound (d : ImcD) (h : validateImc d = .ok true) :
    ∃ bs ip, d.bitSerial = some bs ∧ d.inPrec = some ip ∧ bs ≤ ip.1 ∧ (∀ x ∈ [bs, ip.1, ip.2], ∃ a b : Nat, x = 2 ^ a / 2 ^ b) ∧ (d.digital = true → d.adc = 0) := by
  obtain ⟨bs, ip, h1, h2, p1, p2, p3⟩ := (imc_check_total_iff d).1 ⟨true, h⟩
  refine ⟨bs, ip, h1, h2, ?_⟩
  unfold validateImc log2Check at h
  rw [h1, h2] at h
  simp only [not_le.2 p1, not_le.2 p2, not_le.2 p3, if_false, Except.ok.injEq, Bool.and_eq_true, Bool.not_eq_true', decide_eq_false_iff_not, Bool.and_eq_false_iff] at h
  obtain ⟨⟨⟨⟨a, b⟩, c⟩, e⟩, f⟩ := h
  refine ⟨not_lt.1 a, ?_, ?_⟩
  · intro x hx
    simp only [List.mem_cons, List.not_mem_nil, or_false] at hx
    rcases hx with rfl | rfl | rfl
    · exact num_pow _ p1 b
    · exact num_pow _ p2 c
    · exact num_pow _ p3 e
  · intro hd
    rcases f with f | f
    · rw [hd] at f; cases f
    · simpa using f

example : validateImc ⟨some 2, some (8, 4), true, 0⟩ = .ok true := by decide +kernel

/-- C79 is false: a file without input precisions, which line 282 means to report, makes the check itself raise; so does a missing bit serial precision and a
missing memory for the cells (which line 242 reports). -/
theorem check_raises_false :
    validateImc ⟨some 1, none, true, 0⟩ = .error .keyError ∧ validateImc ⟨none, some (8, 8), true, 0⟩ = .error .typeError ∧
    validateCells (Dim := String) "I2" 8 none = .error .keyError := by decide +kernel

/-- C79 is false also as an acceptance criterion: a slice of half a bit is accepted. -/
theorem half_bit_false : validateImc ⟨some (1 / 2), some (8, 8), true, 0⟩ = .ok true := by decide +kernel

end Verif.Ports
