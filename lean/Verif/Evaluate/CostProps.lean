import Verif.Evaluate.Cost
import Verif.Evaluate.Props

/-! C139, C140: the energy of an evaluation. -/

namespace Verif.Evaluate

open Cme (Dir FourWay)
open LayerNode (Relation)
open Energy (Plain WiderOp Wider Priced PricedOp)
open Latency (Operand Key)

variable {Dim : Type} [DecidableEq Dim]
variable {h : Hw} {j : Job Dim} {rl : Operand → List Dim} {rels : List (Relation Dim)} {loops array : List (Dim × ℚ)}

/-- No access has a negative price. -/
def Hw.Priced (h : Hw) : Prop := ∀ m ∈ h.mems, 0 ≤ m.readEnergy ∧ 0 ≤ m.writeEnergy

theorem wf_opData {fr : Dict Operand (OpInfo Dim)} (hk : fr.map Prod.fst = j.ops) (hn : j.ops.Nodup) :
    Dict.WF (fr.map fun e => (e.1, opData h e.1 e.2)) := by
  unfold Dict.WF Dict.keys
  rw [List.map_map]
  change (fr.map Prod.fst).Nodup
  rw [hk]
  exact hn

theorem all_plain (R : Mapped h j rl rels loops array) (he : h.Priced) {fr : Dict Operand (OpInfo Dim)} (hfr : mapping h j false = .ok fr) :
    Dict.WF (fr.map fun e => (e.1, opData h e.1 e.2)) ∧ ∀ e ∈ fr.map fun e => (e.1, opData h e.1 e.2), Plain e.2 := by
  obtain ⟨fr', f1, f2, f3⟩ := mapping_ok R false
  rw [hfr] at f1
  cases f1
  have hwf : Dict.WF fr := by unfold Dict.WF Dict.keys; rw [f2]; exact R.ops
  refine ⟨wf_opData f2 R.ops, ?_⟩
  intro e hm
  obtain ⟨x, hx, rfl⟩ := List.mem_map.1 hm
  have ho : x.1 ∈ j.ops := by rw [← f2]; exact List.mem_map_of_mem hx
  obtain ⟨i, hi, hg⟩ := f3 x.1 ho
  rw [Dict.get?_of_mem hwf (show (x.1, x.2) ∈ fr from hx)] at hi
  cases hi
  exact opData_plain R ho hg he

/-- C139: the energy of an evaluation is the energy of one multiplication for every combination of indices of the layer plus the energy of the memories, which is not negative; it is at most
that of the same accelerator with narrower ports. -/
theorem energy_bounds (R : Mapped h j rl rels loops array) (he : h.Priced) {r : Result} (h1 : evaluate h j = .ok r) :
    r.energy.total = h.macEnergy * (⌊(j.L.dimSizes.map Prod.snd).prod⌋₊ : ℕ) + r.energy.mem ∧ 0 ≤ r.energy.mem ∧
      ∀ (f : Port → Nat) (r' : Result), (∀ p ∈ h.ports, p.bwMax ≤ f p) → evaluate (h.widen f) j = .ok r' →
        r'.energy.mem ≤ r.energy.mem ∧ r'.energy.total ≤ r.energy.total := by
  obtain ⟨fr, it, hfr, -, -, hen, -⟩ := parts R h1
  obtain ⟨hwf, hpl⟩ := all_plain R he hfr
  obtain ⟨e1, e2, -⟩ := Energy.energy_breakdown hwf hen
  refine ⟨by rw [e1, e2]; rfl, ?_, ?_⟩
  · have h0 : ∀ (ops : List (Operand × Energy.OpData)) (a b : ℚ) (n : Nat) (x y : Energy.Energies Operand), Energy.energy ops a n = .ok x →
        Energy.energy ops b n = .ok y → x.mem = y.mem := by
      intro ops a b n x y hx hy
      unfold Energy.energy at hx hy
      cases hw : Energy.wordAccess ops with
      | error e => rw [hw] at hx; cases hx
      | ok t =>
        rw [hw] at hx hy
        cases hx; cases hy
        rfl
    have : ∃ y, Energy.energy (fr.map fun e => (e.1, opData h e.1 e.2)) 0 (macs j) = .ok y := by
      unfold Energy.energy at hen ⊢
      cases hw : Energy.wordAccess (fr.map fun e => (e.1, opData h e.1 e.2)) with
      | error e => rw [hw] at hen; cases hen
      | ok t => exact ⟨_, rfl⟩
    obtain ⟨y, hy⟩ := this
    rw [h0 _ _ _ _ _ _ hen hy]
    exact (Energy.energy_nonneg hwf hy le_rfl (fun k o ho => ⟨(hpl _ ho).moves, (hpl _ ho).levels, (hpl _ ho).units⟩)).1
  · intro f r' hf h2
    have R' := R.widen hf
    obtain ⟨fr', it', hfr', -, -, hen', -⟩ := parts R' h2
    have hc : ∀ op, ∃ b, cfg (h.widen f) j false op = { cfg h j false op with bw := b } := fun op => ⟨_, rfl⟩
    have ha := mapping_forall₂ hc hfr hfr'
    refine Energy.energy_le hwf ?_ hpl hen hen'
    rw [List.forall₂_map_left_iff, List.forall₂_map_right_iff]
    refine ha.imp (fun e e' hx => ⟨hx.1.symm, ?_, ?_, ?_⟩)
    · simp only [opData]
      have := hx.2.moves
      clear hx
      generalize e.2.moves = a at *
      generalize e'.2.moves = b at *
      induction this with
      | nil => rfl
      | cons hs _ ih =>
        rw [List.map_cons, List.map_cons, ih]
        unfold Same at hs
        rw [hs]
    · simp only [opData, hx.2.reform]
    · simp only [opData, Hw.widen, ← hx.1]
      rw [List.map_map, List.forall₂_map_left_iff, List.forall₂_map_right_iff]
      refine List.forall₂_same.2 (fun m hm => ⟨rfl, rfl, ?_, fun d => ?_⟩)
      · funext d
        simp only [Function.comp, Mem.bw, Mem.widen, List.find?_map, Function.comp_def, Option.map_map]
      · simp only [Function.comp, Mem.bw, Mem.widen, List.find?_map, Function.comp_def, Option.map_map]
        cases hq : m.ports.find? (fun p => p.served.any fun k => decide (k.1 = e.1 ∧ k.2.2 = d)) with
        | none => exact .none
        | some q => exact .some (hf q (mem_ports (R.built.inside e.1 m hm) (List.mem_of_find?_eq_some hq)))

/-! ### C140: prices -/

section price
variable (g : Mem → ℚ × ℚ) (mac : ℚ)

theorem price_ports : (h.price g mac).ports = h.ports := by
  simp only [Hw.ports, Hw.price, List.flatMap_map]
  rfl

theorem price_bw (f : Port → Nat) (op : Operand) (lv : Nat) (d : Dir) : (h.price g mac).bw f op lv d = h.bw f op lv d := by
  simp only [Hw.bw, Hw.price, List.getElem?_map]
  cases (h.levels op)[lv]? <;> rfl

theorem price_mapping (int : Bool) : mapping (h.price g mac) j int = mapping h j int := by
  unfold mapping cfg
  simp only [price_bw]

theorem price_groups : groups (h.price g mac) j = groups h j := by
  simp only [groups, Hw.price, List.filter_map, List.map_map]
  rfl

theorem price_size : sizeOf (h.price g mac) = sizeOf h := by
  funext p
  simp only [sizeOf, Hw.price, List.getElem?_map]
  cases (h.levels p.1)[p.2]? <;> rfl

theorem price_checkUtil : checkUtil (h.price g mac) j = checkUtil h j := by
  unfold checkUtil
  rw [price_size, price_groups]
  simp only [Hw.price, List.length_map]

theorem price_duties (it : Dict Operand (OpInfo Dim)) (fl : Operand → List Bool) (ks : List Key) :
    duties (h.price g mac) j it fl ks = duties h j it fl ks := by
  induction ks with
  | nil => rfl
  | cons k ks ih =>
    unfold duties
    rw [ih]
    simp only [show (h.price g mac).bw Port.bwMax k.1 k.2.1 = h.bw Port.bwMax k.1 k.2.1 from funext fun d => price_bw g mac _ _ _ d]

theorem price_opData (fr : Dict Operand (OpInfo Dim)) (Q : Energy.Level → Energy.Level → Prop)
    (hQ : ∀ op, ∀ m ∈ h.levels op, ∀ a b, Q ⟨m.readEnergy, m.writeEnergy, a, b⟩ ⟨(g m).1, (g m).2, a, b⟩) :
    List.Forall₂ (fun e e' => e'.1 = e.1 ∧ PricedOp Q e.2 e'.2) (fr.map fun e => (e.1, opData h e.1 e.2))
      (fr.map fun e => (e.1, opData (h.price g mac) e.1 e.2)) := by
  rw [List.forall₂_map_left_iff, List.forall₂_map_right_iff]
  refine List.forall₂_same.2 (fun e _ => ⟨rfl, rfl, rfl, ?_⟩)
  simp only [opData, Hw.price]
  rw [List.map_map, List.forall₂_map_left_iff, List.forall₂_map_right_iff]
  exact List.forall₂_same.2 (fun m hm => ⟨⟨rfl, rfl⟩, hQ e.1 m hm _ _⟩)

end price

private theorem energy_pair {fr : Dict Operand (OpInfo Dim)} (g : Mem → ℚ × ℚ) (mac : ℚ) :
    (∃ e, Energy.energy (fr.map fun e => (e.1, opData h e.1 e.2)) h.macEnergy (macs j) = .error e ∧
        Energy.energy (fr.map fun e => (e.1, opData (h.price g mac) e.1 e.2)) mac (macs j) = .error e) ∨
      ∃ x y, Energy.energy (fr.map fun e => (e.1, opData h e.1 e.2)) h.macEnergy (macs j) = .ok x ∧
        Energy.energy (fr.map fun e => (e.1, opData (h.price g mac) e.1 e.2)) mac (macs j) = .ok y ∧ y.access = x.access := by
  have hw := Energy.wordAccess_priced (price_opData (h := h) g mac fr (fun _ _ => True) (fun _ _ _ _ _ => trivial))
  unfold Energy.energy
  rw [hw]
  cases Energy.wordAccess (fr.map fun e => (e.1, opData h e.1 e.2)) with
  | error e => exact Or.inl ⟨e, rfl, rfl⟩
  | ok t => exact Or.inr ⟨_, _, rfl, rfl, rfl⟩

/-- C140: the prices of accesses and multiplications have no influence on anything else: with other prices the evaluation fails in the same way or
reports the same accesses, utilization, double buffering, stall and latency. -/
theorem prices (h : Hw) (j : Job Dim) (g : Mem → ℚ × ℚ) (mac : ℚ) :
    (∃ e, evaluate h j = .error e ∧ evaluate (h.price g mac) j = .error e) ∨
      ∃ r r', evaluate h j = .ok r ∧ evaluate (h.price g mac) j = .ok r' ∧ r'.energy.access = r.energy.access ∧ r'.util = r.util ∧
        r'.utilShared = r.utilShared ∧ r'.flags = r.flags ∧ r'.stall = r.stall ∧ r'.overall = r.overall := by
  have hs : ∀ it fl, stall (h.price g mac) j it fl = stall h j it fl := by
    intro it fl
    unfold stall
    simp only [price_ports, price_duties]
  have hi : ∀ it st, info (h.price g mac) j it st = info h j it st := by
    intro it st
    have : ∀ op lv, (h.price g mac).bw Port.bwMax op lv = h.bw Port.bwMax op lv := fun op lv => funext fun d => price_bw g mac _ _ _ d
    unfold info
    simp only [this]
  have hfl : ∀ fr : Dict Operand (OpInfo Dim), flags (h.price g mac) j fr = flags h j fr := by
    intro fr
    funext op
    unfold flags effUtil
    rw [price_groups, price_size]
  have hl : checkLinks (h.price g mac) j = checkLinks h j := by unfold checkLinks; rw [price_ports]
  have hu : ∀ fr : Dict Operand (OpInfo Dim), util (h.price g mac) fr = util h fr := by
    intro fr
    unfold util
    rw [price_size]
  unfold evaluate
  simp only [price_mapping, price_checkUtil, hs, hi, hfl, hl, hu, price_ports, price_groups,
    show (h.price g mac).macEnergy = mac from rfl, show (h.price g mac).units = h.units from rfl]
  simp only [bind, Except.bind]
  cases mapping h j false with
  | error e => exact Or.inl ⟨e, rfl, rfl⟩
  | ok fr =>
    simp only
    cases mapping h j true with
    | error e => exact Or.inl ⟨e, rfl, rfl⟩
    | ok it =>
      simp only
      cases SpatialInternal.checkBottom (it.map fun e => e.2.reform) with
      | error e => exact Or.inl ⟨e, rfl, rfl⟩
      | ok _ =>
        simp only
        cases checkUtil h j with
        | error e => exact Or.inl ⟨e, rfl, rfl⟩
        | ok _ =>
          simp only
          rcases energy_pair (h := h) (j := j) (fr := fr) g mac with ⟨e, hx, hy⟩ | ⟨x, y, hx, hy, hxy⟩
          · rw [hx, hy]; exact Or.inl ⟨e, rfl, rfl⟩
          · rw [hx, hy]
            simp only
            cases stall h j it (flags h j fr) with
            | error e => exact Or.inl ⟨e, rfl, rfl⟩
            | ok st =>
              simp only
              cases checkLinks h j with
              | error e => exact Or.inl ⟨e, rfl, rfl⟩
              | ok _ =>
                simp only
                split
                · exact Or.inl ⟨_, rfl, rfl⟩
                · exact Or.inr ⟨_, _, rfl, rfl, hxy, rfl, rfl, rfl, rfl, rfl⟩

theorem energy_of {r : Result} (hr : evaluate h j = .ok r) : ∃ fr, mapping h j false = .ok fr ∧
    Energy.energy (fr.map fun e => (e.1, opData h e.1 e.2)) h.macEnergy (macs j) = .ok r.energy := by
  unfold evaluate at hr
  simp only [bind, Except.bind] at hr
  cases h1 : mapping h j false with
  | error e => rw [h1] at hr; cases hr
  | ok fr =>
    refine ⟨fr, rfl, ?_⟩
    rw [h1] at hr
    simp only at hr
    split at hr
    · cases hr
    split at hr
    · cases hr
    split at hr
    · cases hr
    cases h2 : Energy.energy (fr.map fun e => (e.1, opData h e.1 e.2)) h.macEnergy (macs j) with
    | error e => rw [h2] at hr; cases hr
    | ok en =>
      rw [h2] at hr
      simp only at hr
      split at hr
      · cases hr
      split at hr
      · cases hr
      split at hr
      · cases hr
      cases hr
      rfl

/-- C140: if all prices are given in another unit, the energies are the same in that unit. -/
theorem prices_scale (R : Mapped h j rl rels loops array) (c : ℚ) {r r' : Result} (h1 : evaluate h j = .ok r)
    (h2 : evaluate (h.price (fun m => (c * m.readEnergy, c * m.writeEnergy)) (c * h.macEnergy)) j = .ok r') :
    r'.energy.mem = c * r.energy.mem ∧ r'.energy.total = c * r.energy.total := by
  obtain ⟨fr, it, hfr, -, -, hen, -⟩ := parts R h1
  obtain ⟨fr', f1, f2, -⟩ := mapping_ok R false
  rw [hfr] at f1
  cases f1
  obtain ⟨fr2, hfr2, hen2⟩ := energy_of h2
  rw [price_mapping, hfr] at hfr2
  cases hfr2
  exact (Energy.energy_scale (wf_opData (h := h) f2 R.ops) (price_opData _ _ fr _ (fun _ _ _ _ _ => ⟨rfl, rfl⟩)) hen hen2).2

end Verif.Evaluate
