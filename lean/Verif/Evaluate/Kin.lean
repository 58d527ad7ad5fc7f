import Verif.Energy.Cheaper
import Verif.Evaluate.CostProps

/-! Accelerators that differ in prices only. -/

namespace Verif.Evaluate

open LayerNode (Relation)
open Energy (PricedOp)
open Latency (Operand)

variable {Dim : Type} [DecidableEq Dim]
variable {h h' : Hw} {j : Job Dim} {rl : Operand → List Dim} {rels : List (Relation Dim)} {loops array : List (Dim × ℚ)}

/-- The memory without prices. -/
def Mem.bare (m : Mem) : Mem := m.price fun _ => (0, 0)

/-- The same memory with other prices, related by `Q`. -/
def Repriced (Q : ℚ × ℚ → ℚ × ℚ → Prop) (m m' : Mem) : Prop := m'.bare = m.bare ∧ Q (m.readEnergy, m.writeEnergy) (m'.readEnergy, m'.writeEnergy)

/-- The same accelerator with other prices. -/
structure Kin (Q : ℚ × ℚ → ℚ × ℚ → Prop) (h h' : Hw) : Prop where
  mems : List.Forall₂ (Repriced Q) h.mems h'.mems
  levels : ∀ op, List.Forall₂ (Repriced Q) (h.levels op) (h'.levels op)
  units : h'.units = h.units

variable {Q : ℚ × ℚ → ℚ × ℚ → Prop}

theorem bare_map {l l' : List Mem} (H : List.Forall₂ (Repriced Q) l l') : l'.map Mem.bare = l.map Mem.bare := by
  induction H with
  | nil => rfl
  | cons h _ ih => rw [List.map_cons, List.map_cons, ih, h.1]

theorem Kin.bare (A : Kin Q h h') : h'.price (fun _ => (0, 0)) 0 = h.price (fun _ => (0, 0)) 0 := by
  have e1 : h'.mems.map (Mem.price fun _ => (0, 0)) = h.mems.map (Mem.price fun _ => (0, 0)) := bare_map A.mems
  have e2 : (fun op => (h'.levels op).map (Mem.price fun _ => (0, 0))) = fun op => (h.levels op).map (Mem.price fun _ => (0, 0)) :=
    funext fun op => bare_map (A.levels op)
  unfold Hw.price
  rw [e1, e2, A.units]

/-- With other prices the evaluation fails in the same way, or only energies differ. -/
theorem kin_evaluate (A : Kin Q h h') (j : Job Dim) : (∃ e, evaluate h j = .error e ∧ evaluate h' j = .error e) ∨
    ∃ r r', evaluate h j = .ok r ∧ evaluate h' j = .ok r' ∧ r'.energy.access = r.energy.access ∧ r'.util = r.util ∧ r'.utilShared = r.utilShared ∧
      r'.flags = r.flags ∧ r'.stall = r.stall ∧ r'.overall = r.overall := by
  have h1 := prices h j (fun _ => (0, 0)) 0
  have h2 := prices h' j (fun _ => (0, 0)) 0
  rw [A.bare] at h2
  rcases h1 with ⟨e, a1, a2⟩ | ⟨r, s, a1, a2, a3, a4, a5, a6, a7, a8⟩
  · rcases h2 with ⟨e', b1, b2⟩ | ⟨r', s', b1, b2, -⟩
    · rw [a2] at b2
      cases b2
      exact Or.inl ⟨e, a1, b1⟩
    · rw [a2] at b2
      cases b2
  · rcases h2 with ⟨e', b1, b2⟩ | ⟨r', s', b1, b2, b3, b4, b5, b6, b7, b8⟩
    · rw [a2] at b2
      cases b2
    · rw [a2] at b2
      cases b2
      exact Or.inr ⟨r, r', a1, b1, by rw [← b3, a3], by rw [← b4, a4], by rw [← b5, a5], by rw [← b6, a6], by rw [← b7, a7], by rw [← b8, a8]⟩

theorem kin_mapping (A : Kin Q h h') (int : Bool) : mapping h' j int = mapping h j int := by
  rw [← price_mapping (h := h) (fun _ => (0, 0)) 0 int, ← price_mapping (h := h') (fun _ => (0, 0)) 0 int, A.bare]

theorem repriced_fields {m m' : Mem} (H : Repriced Q m m') : m'.size = m.size ∧ m'.holds = m.holds ∧ m'.ports = m.ports := by
  have := H.1
  unfold Mem.bare Mem.price at this
  simp only [Mem.mk.injEq] at this
  exact ⟨this.1, this.2.2.2.1, this.2.2.2.2⟩

theorem kin_opData (A : Kin Q h h') (fr : Dict Operand (OpInfo Dim)) :
    List.Forall₂ (fun e e' => e'.1 = e.1 ∧ PricedOp (fun lv lv' => Q (lv.readEnergy, lv.writeEnergy) (lv'.readEnergy, lv'.writeEnergy)) e.2 e'.2)
      (fr.map fun e => (e.1, opData h e.1 e.2)) (fr.map fun e => (e.1, opData h' e.1 e.2)) := by
  rw [List.forall₂_map_left_iff, List.forall₂_map_right_iff]
  refine List.forall₂_same.2 (fun e _ => ⟨rfl, rfl, rfl, ?_⟩)
  simp only [opData]
  rw [List.forall₂_map_left_iff, List.forall₂_map_right_iff]
  refine (A.levels e.1).imp fun m m' H => ?_
  obtain ⟨-, -, f3⟩ := repriced_fields H
  refine ⟨⟨?_, ?_⟩, H.2⟩
  · funext d
    simp only [Mem.bw, f3]
  · funext d
    simp only [Mem.bw, f3]

/-- If no price is higher, the energy is not higher. -/
theorem kin_cheaper (A : Kin (fun p p' => p'.1 ≤ p.1 ∧ p'.2 ≤ p.2) h h') (hm : h'.macEnergy ≤ h.macEnergy) (R : Mapped h j rl rels loops array) (he : h.Priced)
    {r r' : Result} (h1 : evaluate h j = .ok r) (h2 : evaluate h' j = .ok r') : r'.energy.mem ≤ r.energy.mem ∧ r'.energy.total ≤ r.energy.total := by
  obtain ⟨fr, it, hfr, -, -, hen, -⟩ := parts R h1
  obtain ⟨hwf, hpl⟩ := all_plain R he hfr
  obtain ⟨fr2, hfr2, hen2⟩ := energy_of h2
  rw [kin_mapping A, hfr] at hfr2
  cases hfr2
  exact Energy.energy_cheaper hwf (kin_opData A fr) hpl hm hen hen2

/-- If all prices are given in another unit, the energies are the same in that unit. -/
theorem kin_scale {c : ℚ} (A : Kin (fun p p' => p'.1 = c * p.1 ∧ p'.2 = c * p.2) h h') (hm : h'.macEnergy = c * h.macEnergy) (R : Mapped h j rl rels loops array)
    {r r' : Result} (h1 : evaluate h j = .ok r) (h2 : evaluate h' j = .ok r') : r'.energy.mem = c * r.energy.mem ∧ r'.energy.total = c * r.energy.total := by
  obtain ⟨fr, it, hfr, -, -, hen, -⟩ := parts R h1
  obtain ⟨fr', f1, f2, -⟩ := mapping_ok R false
  rw [hfr] at f1
  cases f1
  obtain ⟨fr2, hfr2, hen2⟩ := energy_of h2
  rw [kin_mapping A, hfr] at hfr2
  cases hfr2
  rw [hm] at hen2
  exact (Energy.energy_scale (wf_opData (h := h) f2 R.ops) (kin_opData A fr) hen hen2).2

end Verif.Evaluate
