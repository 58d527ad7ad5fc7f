import Verif.Energy.Model
import Verif.Window.Lemmas
import Verif.Cme.Lemmas
import Mathlib.Tactic.FieldSimp

namespace Verif.Energy

open Verif.Cme

variable {Op : Type} [DecidableEq Op]

theorem foldl_add {α : Type} (f : α → ℚ) (l : List α) (a : ℚ) : l.foldl (fun t r => t + f r) a = a + (l.map f).sum := by
  induction l generalizing a with
  | nil => simp
  | cons x l ih => rw [List.foldl_cons, ih, List.map_cons, List.sum_cons]; ring

/-- The tables are filled operand by operand. -/
theorem memEnergy_foldl (levels : Op → List Level) (access : Dict Op (List FourWay)) (hw : access.WF) (st : EnergySt Op)
    (h1 : ∀ k ∈ access.keys, k ∉ st.breakdown.keys) (h2 : ∀ k ∈ access.keys, k ∉ st.further.keys) :
    access.foldl (energyStep levels) st =
      { breakdown := st.breakdown ++ access.map fun e => (e.1, (e.2.zip (levels e.1)).map fun r => levelEnergy r.1 r.2)
        further := st.further ++ access.map fun e => (e.1, (e.2.zip (levels e.1)).map fun r => dirEnergy r.1 r.2)
        total := st.total + (access.map fun e => ((e.2.zip (levels e.1)).map fun r => levelEnergy r.1 r.2).sum).sum } := by
  induction access generalizing st with
  | nil => simp
  | cons e t ih =>
    have hw' : e.1 ∉ Dict.keys t ∧ Dict.WF t := List.nodup_cons.1 hw
    rw [List.foldl_cons, ih hw'.2]
    · have e1 := Window.set_new st.breakdown e.1 ((e.2.zip (levels e.1)).map fun r => levelEnergy r.1 r.2) (h1 e.1 List.mem_cons_self)
      have e2 := Window.set_new st.further e.1 ((e.2.zip (levels e.1)).map fun r => dirEnergy r.1 r.2) (h2 e.1 List.mem_cons_self)
      simp only [energyStep, foldl_add, e1, e2, List.append_assoc, List.map_cons, List.sum_cons, List.singleton_append, add_assoc]
    · intro k hk hc
      simp only [energyStep] at hc
      rw [Window.set_new _ _ _ (h1 e.1 List.mem_cons_self)] at hc
      simp only [Dict.keys, List.map_append, List.map_cons, List.map_nil, List.mem_append, List.mem_singleton] at hc
      rcases hc with hc | rfl
      · exact h1 k (List.mem_cons_of_mem _ hk) hc
      · exact hw'.1 hk
    · intro k hk hc
      simp only [energyStep] at hc
      rw [Window.set_new _ _ _ (h2 e.1 List.mem_cons_self)] at hc
      simp only [Dict.keys, List.map_append, List.map_cons, List.map_nil, List.mem_append, List.mem_singleton] at hc
      rcases hc with hc | rfl
      · exact h2 k (List.mem_cons_of_mem _ hk) hc
      · exact hw'.1 hk

theorem memEnergy_eq (levels : Op → List Level) (access : Dict Op (List FourWay)) (hw : access.WF) :
    memEnergy levels access =
      { breakdown := access.map fun e => (e.1, (e.2.zip (levels e.1)).map fun r => levelEnergy r.1 r.2)
        further := access.map fun e => (e.1, (e.2.zip (levels e.1)).map fun r => dirEnergy r.1 r.2)
        total := (access.map fun e => ((e.2.zip (levels e.1)).map fun r => levelEnergy r.1 r.2).sum).sum } := by
  unfold memEnergy
  rw [memEnergy_foldl levels access hw _ (by simp [Dict.keys]) (by simp [Dict.keys])]
  simp

theorem opAccess_spec (o : OpData) (i : Nat) (ms : List Move) (r : List FourWay) (h : opAccess o i ms = .ok r) :
    r.length = ms.length ∧ (∀ j, j < ms.length → i + j < o.levels.length) ∧
      ∀ j a, r[j]? = some a → ∃ m lv u, ms[j]? = some m ∧ o.levels[i + j]? = some lv ∧ o.units[i + j + 1]? = some u
        ∧ levelAccess m lv u = .ok a := by
  induction ms generalizing i r with
  | nil => cases h; exact ⟨rfl, (by simp), (by simp)⟩
  | cons m ms ih =>
    unfold opAccess at h
    cases h1 : o.levels[i]? with
    | none => rw [h1] at h; cases h
    | some lv =>
      cases h2 : o.units[i + 1]? with
      | none => rw [h1, h2] at h; cases h
      | some u =>
        rw [h1, h2] at h
        simp only at h
        cases h3 : levelAccess m lv u with
        | error e => rw [h3] at h; cases h
        | ok a =>
          rw [h3] at h
          simp only at h
          cases h4 : opAccess o (i + 1) ms with
          | error e => rw [h4] at h; cases h
          | ok rest =>
            rw [h4] at h
            simp only [Except.ok.injEq] at h
            subst h
            obtain ⟨hl, hlev, hall⟩ := ih (i + 1) rest h4
            refine ⟨by simp [hl], fun j hj => ?_, fun j b hb => ?_⟩
            · cases j with
              | zero =>
                have := (List.getElem?_eq_some_iff.1 h1).1
                omega
              | succ j =>
                have := hlev j (by simpa using hj)
                omega
            · cases j with
              | zero =>
                simp only [List.getElem?_cons_zero, Option.some.injEq] at hb
                subst hb
                exact ⟨m, lv, u, rfl, h1, h2, h3⟩
              | succ j =>
                rw [List.getElem?_cons_succ] at hb
                obtain ⟨m', lv', u', g1, g2, g3, g4⟩ := hall j b hb
                refine ⟨m', lv', u', by simpa using g1, ?_, ?_, g4⟩
                · rw [← g2]; congr 1; omega
                · rw [← g3]; congr 1; omega

theorem wordAccess_spec (ops : List (Op × OpData)) (t : Dict Op (List FourWay)) (h : wordAccess ops = .ok t) :
    List.Forall₂ (fun o e => e.1 = o.1 ∧ opAccess o.2 0 o.2.moves = .ok e.2) ops t := by
  induction ops generalizing t with
  | nil => cases h; exact .nil
  | cons p rest ih =>
    obtain ⟨k, o⟩ := p
    unfold wordAccess at h
    cases h1 : opAccess o 0 o.moves with
    | error e => rw [h1] at h; cases h
    | ok a =>
      rw [h1] at h
      simp only at h
      cases h2 : wordAccess rest with
      | error e => rw [h2] at h; cases h
      | ok t' =>
        rw [h2] at h
        simp only [Except.ok.injEq] at h
        subst h
        exact .cons ⟨rfl, h1⟩ (ih t' h2)

theorem forall₂_keys {ops : List (Op × OpData)} {t : Dict Op (List FourWay)}
    (h : List.Forall₂ (fun o e => e.1 = o.1 ∧ opAccess o.2 0 o.2.moves = .ok e.2) ops t) : Dict.keys t = Dict.keys ops := by
  unfold Dict.keys
  induction h with
  | nil => rfl
  | cons h _ ih => rw [List.map_cons, List.map_cons, ih, h.1]

end Verif.Energy
