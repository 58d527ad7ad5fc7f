import Verif.Evaluate.Change

/-! C135: an evaluation ends without exception. -/

namespace Verif.Evaluate

open Cme (Dir FourWay)
open MapInfo (iters)
open LayerNode (Relation)
open Latency (Operand Key)

variable {Dim : Type} [DecidableEq Dim]
variable {h : Hw} {j : Job Dim} {rl : Operand → List Dim} {rels : List (Relation Dim)} {loops array : List (Dim × ℚ)}

/-- Everything before the loading of data. -/
theorem before_loading (R : Mapped h j rl rels loops array) : ∃ fr it en st,
    mapping h j false = .ok fr ∧ mapping h j true = .ok it ∧
    Energy.energy (fr.map fun e => (e.1, opData h e.1 e.2)) h.macEnergy (macs j) = .ok en ∧
    stall h j it (flags h j fr) = .ok st ∧ 0 ≤ st ∧ (∀ op ∈ j.ops, ∃ i, it.get? op = some i ∧ Good h j true op i) ∧
    evaluate h j = (do
      checkLinks h j
      let ov ← Latency.latency (info h j it st) (loadingPorts h) (j.inputs.map fun op => (op, (j.tm op).length - 1)) ((j.tm .out).length - 1)
        (macs j) h.units ⌊j.totalCycle⌋₊ j.cyclesPerOp st
      return { util := util h fr, utilShared := Buffer.shared (groups h j) (util h fr), energy := en, flags := flags h j fr, stall := st
               overall := ov }) := by
  obtain ⟨fr, f1, f2, f3⟩ := mapping_ok R false
  obtain ⟨it, i1, i2, i3⟩ := mapping_ok R true
  obtain ⟨z, hz⟩ := bottom_ok R i2 i3
  obtain ⟨en, hen⟩ := energy_ok R f2 f3
  obtain ⟨st, hst, h0⟩ := stall_ok R i3 (fl := flags h j fr) (fun op _ => by simp [flags])
  refine ⟨fr, it, en, st, f1, i1, hen, hst, h0, i3, ?_⟩
  unfold evaluate
  rw [f1]
  simp only [bind, Except.bind]
  rw [i1]
  simp only
  rw [hz, util_ok R]
  simp only
  rw [hen]
  simp only
  rw [hst]

/-- C135: a layer mapped to an accelerator that serves its operands is evaluated without exception; the reported latencies are those of the
temporal loops, of the stall and of loading and off-loading.  The only exception is a division by zero if loading or off-loading, which may
be negative (`ordered_false`), cancel the whole computation (`cancelled_crash`). -/
theorem evaluated_partial (R : Ready h j rl rels loops array) : ∃ (st : Int) (on off : ℚ), 0 ≤ st ∧
    (evaluate h j = .error .zeroDivision ∧
        (iters loops * j.cyclesPerOp + st + on = 0 ∨ iters loops * j.cyclesPerOp + st + on + off = 0) ∨
      ∃ r, evaluate h j = .ok r ∧ r.stall = st ∧ r.overall.idealTemporal = iters loops * j.cyclesPerOp ∧
        r.overall.latency0 = iters loops * j.cyclesPerOp + st ∧ r.overall.latency1 = iters loops * j.cyclesPerOp + st + on ∧
        r.overall.latency2 = iters loops * j.cyclesPerOp + st + on + off) := by
  obtain ⟨fr, it, en, st, -, -, -, -, h0, hg, he⟩ := before_loading R.toMapped
  obtain ⟨t, on, off, ht, hon, hoff⟩ := loading_ok R.toMapped hg st
  refine ⟨st, on, off, h0, ?_⟩
  have hl : checkLinks h j = .ok () := by
    unfold checkLinks
    rw [if_neg]
    simp only [List.any_eq_true, decide_eq_true_eq, not_exists, not_and, not_not]
    exact R.linked
  obtain ⟨n, hn, hn1⟩ := R.whole.iters
  have hT : ((⌊j.totalCycle⌋₊ : ℕ) : ℚ) = iters loops := by rw [R.total, hn, Nat.floor_natCast]
  have hne : iters loops * (j.cyclesPerOp : ℚ) + (st : ℚ) ≠ 0 := by
    have h1 : (0 : ℚ) < iters loops := by rw [hn]; exact_mod_cast hn1
    have h2 : (0 : ℚ) < j.cyclesPerOp := by exact_mod_cast R.cycles
    have h3 : (0 : ℚ) ≤ st := by exact_mod_cast h0
    have := mul_pos h1 h2
    linarith
  have hne0 : iters loops * (j.cyclesPerOp : ℚ) ≠ 0 := by
    have h1 : (0 : ℚ) < iters loops := by rw [hn]; exact_mod_cast hn1
    have h2 : (0 : ℚ) < j.cyclesPerOp := by exact_mod_cast R.cycles
    exact (mul_pos h1 h2).ne'
  rw [he, hl]
  simp only [bind, Except.bind, Latency.latency, ht, hon, hoff, Latency.overall, if_neg R.built.units, hT]
  by_cases hz : iters loops * (j.cyclesPerOp : ℚ) + (st : ℚ) + on = 0 ∨ iters loops * (j.cyclesPerOp : ℚ) + (st : ℚ) + on + off = 0
  · left
    rw [if_pos (Or.inr (Or.inr hz))]
    exact ⟨rfl, hz⟩
  · right
    rw [if_neg (by
      rintro (hc | hc | hc)
      · exact hne0 hc
      · exact hne hc
      · exact hz hc)]
    exact ⟨_, rfl, rfl, rfl, rfl, rfl, rfl⟩

/-- C135: a port may carry several operands, but a layer that lacks one of them (such as a layer with one input operand) is not evaluated: the
stall computation passes over such an operand, the loading computation looks it up and raises `KeyError`. -/
theorem missing_operand_crash (R : Mapped h j rl rels loops array) {p : Port} (hp : p ∈ h.ports) {k : Key} (hk : k ∈ p.served)
    (hm : k.1 ∉ j.ops) : evaluate h j = .error .keyError := by
  obtain ⟨fr, it, en, st, -, -, -, -, -, -, he⟩ := before_loading R
  rw [he]
  have hl : checkLinks h j = .error .keyError := by
    unfold checkLinks
    rw [if_pos]
    simp only [List.any_eq_true, decide_eq_true_eq]
    exact ⟨p, hp, k, hk, hm⟩
  rw [hl]
  rfl

/-- No two movements of a port happen exactly once. -/
def Separate (h : Hw) (j : Job Dim) : Prop :=
  ∀ it, mapping h j true = .ok it → ∀ p ∈ h.ports, (Latency.once (info h j it 0) ⟨p.bwMax, p.served⟩).length ≤ 1

/-- C138: for such ports (otherwise `ordered_false`) every evaluation succeeds, and the latencies and utilizations are ordered. -/
theorem ordered_partial (R : Ready h j rl rels loops array) (hs : Separate h j) : ∃ r, evaluate h j = .ok r ∧
    r.overall.idealTemporal = iters loops * j.cyclesPerOp ∧ r.overall.latency0 = r.overall.idealTemporal + r.stall ∧
    r.overall.idealTemporal ≤ r.overall.latency0 ∧ r.overall.latency0 ≤ r.overall.latency1 ∧ r.overall.latency1 ≤ r.overall.latency2 := by
  obtain ⟨fr, it, en, st, -, hit, -, -, h0, hg, he⟩ := before_loading R.toMapped
  obtain ⟨t, on, off, ht, hon, hoff⟩ := loading_ok R.toMapped hg st
  have hcalm : ∀ p ∈ loadingPorts h, Latency.Calm (info h j it st) p := by
    intro p hp
    obtain ⟨q, hq, rfl⟩ := List.mem_map.1 hp
    exact Or.inl (hs it hit q hq)
  have hnn := Latency.loadPorts_nonneg hcalm ht (by intro k v hk; cases hk)
  have hon0 := Latency.onloading_nonneg hnn hon
  have hoff0 := Latency.offloading_nonneg hnn hoff
  have hl : checkLinks h j = .ok () := by
    unfold checkLinks
    rw [if_neg]
    simp only [List.any_eq_true, decide_eq_true_eq, not_exists, not_and, not_not]
    exact R.linked
  obtain ⟨n, hn, hn1⟩ := R.whole.iters
  have hT : ((⌊j.totalCycle⌋₊ : ℕ) : ℚ) = iters loops := by rw [R.total, hn, Nat.floor_natCast]
  have h1 : (0 : ℚ) < iters loops := by rw [hn]; exact_mod_cast hn1
  have h2 : (0 : ℚ) < j.cyclesPerOp := by exact_mod_cast R.cycles
  have h3 : (0 : ℚ) ≤ st := by exact_mod_cast h0
  have h4 := mul_pos h1 h2
  rw [he, hl]
  simp only [bind, Except.bind, Latency.latency, ht, hon, hoff, Latency.overall, if_neg R.built.units, hT]
  rw [if_neg (by rintro (hc | hc | hc | hc) <;> linarith)]
  exact ⟨_, rfl, rfl, rfl, by simp only; linarith, by simp only; linarith, by simp only; linarith⟩

/-! ### C136, C137: other accelerators -/

/-- What an evaluation that succeeds consists of. -/
theorem parts (R : Mapped h j rl rels loops array) {r : Result} (hr : evaluate h j = .ok r) : ∃ fr it,
    mapping h j false = .ok fr ∧ mapping h j true = .ok it ∧ (∀ op ∈ j.ops, ∃ i, it.get? op = some i ∧ Good h j true op i) ∧
    Energy.energy (fr.map fun e => (e.1, opData h e.1 e.2)) h.macEnergy (macs j) = .ok r.energy ∧
    stall h j it (flags h j fr) = .ok r.stall ∧ r.flags = flags h j fr ∧ r.util = util h fr := by
  obtain ⟨fr, it, en, st, hfr, hit, hen, hst, -, hg, he⟩ := before_loading R
  rw [he] at hr
  simp only [bind, Except.bind] at hr
  split at hr
  · cases hr
  · split at hr
    · cases hr
    · cases hr
      exact ⟨fr, it, hfr, hit, hg, hen, hst, rfl, rfl⟩

theorem latency0_of (R : Ready h j rl rels loops array) {r : Result} (hr : evaluate h j = .ok r) :
    r.overall.idealTemporal = iters loops * j.cyclesPerOp ∧ r.overall.latency0 = iters loops * j.cyclesPerOp + r.stall := by
  obtain ⟨st, on, off, -, ⟨he, -⟩ | ⟨r', he, h1, h2, h3, -⟩⟩ := evaluated_partial R
  · rw [hr] at he; cases he
  · rw [hr] at he
    cases he
    exact ⟨h2, by rw [h3, h1]⟩

/-- C136: more bandwidth of some ports never makes the computation, without loading and off-loading, slower, and changes neither what the memories
hold nor what is double buffered (loading may take longer: `bandwidth_false`). -/
theorem bandwidth_partial (R : Ready h j rl rels loops array) {f : Port → Nat} (hf : ∀ p ∈ h.ports, p.bwMax ≤ f p) {r r' : Result}
    (h1 : evaluate h j = .ok r) (h2 : evaluate (h.widen f) j = .ok r') :
    r'.stall ≤ r.stall ∧ r'.overall.latency0 ≤ r.overall.latency0 ∧ r'.overall.idealTemporal = r.overall.idealTemporal ∧
      r'.util = r.util ∧ r'.flags = r.flags := by
  have R' := R.widen hf
  obtain ⟨fr, it, hfr, hit, hg, -, hst, hfl, hut⟩ := parts R.toMapped h1
  obtain ⟨fr', it', hfr', hit', hg', -, hst', hfl', hut'⟩ := parts R'.toMapped h2
  have hc : ∀ int op, ∃ b, cfg (h.widen f) j int op = { cfg h j int op with bw := b } := fun int op => ⟨_, rfl⟩
  have a1 := mapping_alike (hc false) hfr hfr'
  have a2 := mapping_alike (hc true) hit hit'
  have e1 := flags_alike (h := h) (widen_size f) (widen_groups (j := j) f) a1
  have e2 := (util_alike (h := h) (widen_size f) a1).1
  have hs : r'.stall ≤ r.stall := by
    refine stall_easier R.toMapped R'.toMapped ?_ hg hg' (pattern_alike a2) (widen_bw_le R.built hf) (fl := flags h j fr) (fl' := flags (h.widen f) j fr') ?_ ?_
      hst hst'
    · rw [widen_ports, List.map_map]; rfl
    · intro op _
      rw [e1]
      exact List.forall₂_same.2 fun _ _ => id
    · intro op _; simp [flags]
  obtain ⟨t1, l1⟩ := latency0_of R h1
  obtain ⟨t2, l2⟩ := latency0_of R' h2
  have : (r'.stall : ℚ) ≤ r.stall := by exact_mod_cast hs
  exact ⟨hs, by rw [l1, l2]; linarith, by rw [t1, t2], by rw [hut, hut', e2], by rw [hfl, hfl', e1]⟩

/-- C137: if memories that hold one operand get larger, the computation, without loading and off-loading, is not slower and takes the same energy,
and what was double buffered still is (a larger shared memory may be slower: `size_false`). -/
theorem size_partial (R : Ready h j rl rels loops array) {f : Mem → Nat} (hf : ∀ m ∈ h.mems, m.size ≤ f m)
    (hs : ∀ m ∈ h.mems, f m ≠ m.size → m.holds.length ≤ 1) {r r' : Result} (h1 : evaluate h j = .ok r) (h2 : evaluate (h.resize f) j = .ok r') :
    r'.stall ≤ r.stall ∧ r'.overall.latency0 ≤ r.overall.latency0 ∧ r'.energy.total = r.energy.total ∧
      ∀ (op : Operand) (lv : Nat), (r.flags op)[lv]? = some true → (r'.flags op)[lv]? = some true := by
  have R' := R.resize hf
  obtain ⟨fr, it, hfr, hit, hg, hen, hst, hfl, hut⟩ := parts R.toMapped h1
  obtain ⟨fr', it', hfr', hit', hg', hen', hst', hfl', hut'⟩ := parts R'.toMapped h2
  rw [resize_mapping, hfr] at hfr'
  rw [resize_mapping, hit] at hit'
  cases hfr'; cases hit'
  have hmono := fun op => resize_flags (j := j) R.built hf hs fr op
  have hs : r'.stall ≤ r.stall := by
    refine stall_easier R.toMapped R'.toMapped ?_ hg hg' (fun op lv => ?_) (fun op lv d => ?_) (fl := flags h j fr) (fl' := flags (h.resize f) j fr)
      (fun op _ => hmono op) ?_ hst hst'
    · rw [resize_ports]
    · cases pattern it op lv with
      | none => exact .none
      | some p => exact .some (Same.refl p)
    · rw [resize_bw]
      unfold Hw.bw
      cases hm : (h.levels op)[lv]? with
      | none => exact .none
      | some m =>
        simp only [Option.bind_some]
        rcases bw_cases m op d with hn | ⟨p, hp, hp'⟩
        · rw [hn]; exact .none
        · rw [hp']
          exact .some ⟨(R.built.bw p (mem_ports (R.built.inside op m (List.mem_of_getElem? hm)) hp)).1, le_rfl⟩
    · intro op _; simp [flags]
  have hen2 : r'.energy = r.energy := by
    simp only [resize_opData] at hen'
    change Energy.energy _ h.macEnergy _ = _ at hen'
    rw [hen] at hen'
    injection hen' with e
    exact e.symm
  obtain ⟨t1, l1⟩ := latency0_of R h1
  obtain ⟨t2, l2⟩ := latency0_of R' h2
  have : (r'.stall : ℚ) ≤ r.stall := by exact_mod_cast hs
  refine ⟨hs, by rw [l1, l2]; linarith, by rw [hen2], ?_⟩
  intro op lv hlv
  rw [hfl] at hlv
  rw [hfl']
  have := hmono op
  generalize flags h j fr op = a at *
  generalize flags (h.resize f) j fr op = b at *
  induction this generalizing lv with
  | nil => cases hlv
  | cons hb _ ih =>
    cases lv with
    | zero => cases hlv; rw [List.getElem?_cons_zero, hb rfl]
    | succ n => exact ih n hlv

end Verif.Evaluate
