import Verif.Energy.Order

/-! Lower prices of accesses. -/

namespace Verif.Energy

variable {Op : Type} [DecidableEq Op]

/-- If no price is higher, no more energy is paid. -/
theorem energy_cheaper {ops ops' : List (Op × OpData)} {macEnergy macEnergy' : ℚ} {macCount : Nat} {r r' : Energies Op} (hw : Dict.WF ops)
    (hf : List.Forall₂ (fun e e' => e'.1 = e.1 ∧ PricedOp (fun lv lv' => lv'.readEnergy ≤ lv.readEnergy ∧ lv'.writeEnergy ≤ lv.writeEnergy) e.2 e'.2) ops ops')
    (hp : ∀ e ∈ ops, Plain e.2) (hm : macEnergy' ≤ macEnergy) (h : energy ops macEnergy macCount = .ok r) (h' : energy ops' macEnergy' macCount = .ok r') :
    r'.mem ≤ r.mem ∧ r'.total ≤ r.total := by
  have hk : Dict.keys ops' = Dict.keys ops := by
    unfold Dict.keys
    clear h h' hw hp
    induction hf with
    | nil => rfl
    | cons hab _ ih => rw [List.map_cons, List.map_cons, ih, hab.1]
  have hw' : Dict.WF ops' := by unfold Dict.WF at hw ⊢; rw [hk]; exact hw
  obtain ⟨e1, e2, -⟩ := energy_breakdown hw h
  obtain ⟨f1, f2, -⟩ := energy_breakdown hw' h'
  obtain ⟨a1, m1⟩ := energy_mem hw h
  obtain ⟨a2, m2⟩ := energy_mem hw' h'
  rw [wordAccess_priced hf, a1] at a2
  injection a2 with a2
  have hF := wordAccess_spec ops r.access a1
  have hmem : r'.mem ≤ r.mem := by
    rw [m1, m2, ← a2]
    refine List.sum_le_sum fun e he => ?_
    have hex : ∃ o, (e.1, o) ∈ ops ∧ opAccess o 0 o.moves = .ok e.2 := by
      clear a1 a2 m1 m2 e1 e2 f1 f2 hw hp hf hk hw' h h'
      generalize r.access = t at hF he
      induction hF with
      | nil => cases he
      | @cons x y l l' hxy _ ih =>
        rcases List.mem_cons.1 he with rfl | he
        · exact ⟨x.2, by rw [hxy.1]; exact List.mem_cons_self, hxy.2⟩
        · obtain ⟨o, h1, h2⟩ := ih he
          exact ⟨o, List.mem_cons_of_mem _ h1, h2⟩
    obtain ⟨o, ho, hacc⟩ := hex
    obtain ⟨-, -, hall⟩ := opAccess_spec o 0 o.moves e.2 hacc
    have hnn : ∀ x ∈ e.2, 0 ≤ x.rdToHigh ∧ 0 ≤ x.wrByHigh ∧ 0 ≤ x.rdToLow ∧ 0 ≤ x.wrByLow := by
      intro x hx
      obtain ⟨j, hj⟩ := List.getElem?_of_mem hx
      obtain ⟨m, lv, u, q1, q2, q3, q4⟩ := hall j x hj
      exact level_nonneg q4 ((hp _ ho).units u (List.mem_of_getElem? q3)) ((hp _ ho).moves m (List.mem_of_getElem? q1))
    have hl := levelsOf_priced hf e.1
    generalize levelsOf ops e.1 = a at hl
    generalize levelsOf ops' e.1 = b at hl
    generalize e.2 = l at hnn
    clear hall hacc he
    induction hl generalizing l with
    | nil => simp
    | cons hx _ ih =>
      cases l with
      | nil => exact le_refl _
      | cons y l =>
        simp only [List.zip_cons_cons, List.map_cons, List.sum_cons]
        refine add_le_add ?_ (ih l fun x hx => hnn x (List.mem_cons_of_mem _ hx))
        obtain ⟨n1, n2, n3, n4⟩ := hnn y List.mem_cons_self
        simp only [levelEnergy, dirEnergy]
        have k1 := mul_le_mul_of_nonneg_left hx.2.1 n1
        have k2 := mul_le_mul_of_nonneg_left hx.2.2 n2
        have k3 := mul_le_mul_of_nonneg_left hx.2.1 n3
        have k4 := mul_le_mul_of_nonneg_left hx.2.2 n4
        linarith
  refine ⟨hmem, ?_⟩
  rw [e1, f1, e2, f2]
  have : macEnergy' * (macCount : ℚ) ≤ macEnergy * macCount := mul_le_mul_of_nonneg_right hm (by positivity)
  linarith

end Verif.Energy
