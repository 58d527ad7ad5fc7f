import Verif.HwEq.Model
import Verif.Hierarchy.Lemmas
import Mathlib.Data.List.Forall2

/-! Lemmas for equality of hardware descriptions. -/

namespace Verif.HwEq

open Verif.Ports (Dir PType LvState)
open Verif.Hierarchy (sameTable)

variable {Op Dim : Type} [DecidableEq Op] [DecidableEq Dim]

/-- Ports of the same kind and width. -/
def PortLike (p q : Port) : Prop := p.type = q.type ∧ p.bwMin = q.bwMin ∧ p.bwMax = q.bwMax

theorem portEq_iff (p q : Port) : portEq p q = true ↔ PortLike p q := by
  simp only [portEq, PortLike, Bool.and_eq_true, decide_eq_true_eq]
  tauto

theorem portsEq_iff : ∀ a b : List Port, portsEq a b = true ↔ List.Forall₂ PortLike a b
  | [], [] => by simp [portsEq]
  | [], _ :: _ => by simp [portsEq]
  | _ :: _, [] => by simp [portsEq]
  | p :: ps, q :: qs => by simp [portsEq, portEq_iff, portsEq_iff ps qs]

theorem portLike_symm {p q : Port} (h : PortLike p q) : PortLike q p := ⟨h.1.symm, h.2.1.symm, h.2.2.symm⟩

theorem portLike_trans {p q r : Port} (h : PortLike p q) (h' : PortLike q r) : PortLike p r :=
  ⟨h.1.trans h'.1, h.2.1.trans h'.2.1, h.2.2.trans h'.2.2⟩

theorem forall₂_refl {A : Type} {P : A → A → Prop} (h : ∀ a, P a a) : ∀ l : List A, List.Forall₂ P l l
  | [] => .nil
  | a :: t => .cons (h a) (forall₂_refl h t)

theorem forall₂_symm {A : Type} {P : A → A → Prop} (h : ∀ a b, P a b → P b a) {l l' : List A} (hl : List.Forall₂ P l l') : List.Forall₂ P l' l := by
  induction hl with
  | nil => exact .nil
  | cons hab _ ih => exact .cons (h _ _ hab) ih

theorem forall₂_trans {A : Type} {P : A → A → Prop} (h : ∀ a b c, P a b → P b c → P a c) {l l' l'' : List A} (hl : List.Forall₂ P l l')
    (hl' : List.Forall₂ P l' l'') : List.Forall₂ P l l'' := by
  induction hl generalizing l'' with
  | nil => exact hl'
  | cons hab _ ih =>
    cases hl' with
    | cons hbc ht => exact .cons (h _ _ _ hab hbc) (ih ht)

theorem sameTable_iff {a b : Dict Op Nat} (ha : a.WF) (hb : b.WF) : sameTable a b = true ↔ ∀ k, a.get? k = b.get? k := by
  simp only [sameTable, decide_eq_true_eq]
  constructor
  · rintro ⟨hl, h⟩ k
    have hsub : a.keys ⊆ b.keys := by
      intro x hx
      obtain ⟨e, he, rfl⟩ := List.mem_map.1 hx
      have := Dict.mem_of_get? (h e he)
      exact List.mem_map.2 ⟨_, this, rfl⟩
    have hperm : a.keys.Perm b.keys := by
      apply (List.subperm_of_subset ha hsub).perm_of_length_le
      simp [Dict.keys, hl]
    cases hk : a.get? k with
    | some v => exact (h _ (Dict.mem_of_get? hk)).symm
    | none =>
      symm
      rw [Dict.get?_eq_none_iff] at hk ⊢
      intro hc
      exact hk (hperm.mem_iff.2 hc)
  · intro h
    constructor
    · have hkeys : a.keys.Perm b.keys := by
        rw [List.perm_ext_iff_of_nodup ha hb]
        intro k
        have h1 : k ∉ a.keys ↔ k ∉ b.keys := by
          rw [← Dict.get?_eq_none_iff, ← Dict.get?_eq_none_iff, h k]
        exact not_iff_not.1 h1
      simpa [Dict.keys] using hkeys.length_eq
    · intro e he
      rw [← h]
      exact Dict.get?_of_mem ha he

theorem servedEq_iff {a b : List Dim} (ha : a.Nodup) (hb : b.Nodup) : servedEq a b = true ↔ ∀ x, x ∈ a ↔ x ∈ b := by
  simp only [servedEq, Bool.and_eq_true, decide_eq_true_eq, List.all_eq_true]
  constructor
  · rintro ⟨hl, h⟩ x
    exact ((List.subperm_of_subset ha h).perm_of_length_le (by omega)).mem_iff
  · intro h
    exact ⟨((List.perm_ext_iff_of_nodup ha hb).2 h).length_eq, fun x hx => (h x).1 hx⟩

theorem servedEq_refl (a : List Dim) : servedEq a a = true := by simp [servedEq]

/-! ### Hierarchies that were built -/

theorem wf_countLevel {d : Dict Op Nat} (h : d.WF) (o : Op) : (Hierarchy.countLevel d o).WF := by
  unfold Hierarchy.countLevel
  split <;> exact h.set _ _

theorem wf_foldl_countLevel (ops : List Op) : ∀ {d : Dict Op Nat}, d.WF → (ops.foldl Hierarchy.countLevel d).WF := by
  induction ops with
  | nil => intro d h; exact h
  | cons o t ih => intro d h; exact ih (wf_countLevel h o)

theorem wf_nb (mems : List (List Op)) : (Hierarchy.build mems).nb.WF := by
  induction mems using List.reverseRecOn with
  | nil => simp [Hierarchy.build, Hierarchy.empty, Dict.WF, Dict.keys]
  | append_singleton mems m ih => rw [Hierarchy.build_snoc]; exact wf_foldl_countLevel m ih

theorem mkLevel_ok {s : Spec Op Dim} {m : Hierarchy.Mem Op} {l : Level Op Dim} (h : mkLevel s m = .ok l) :
    ∃ st, Ports.allocatePorts (s.inst.ports.map asPortD) s.alloc LvState.init m.levels = .ok st ∧
      l = { id := m.id, inst := s.inst, operands := s.operands, levels := m.levels, served := s.served,
            ports := (s.inst.ports.zipIdx.filter fun p => st.used p.2).map Prod.fst, bw := st.bw } := by
  unfold mkLevel at h
  cases hst : Ports.allocatePorts (s.inst.ports.map asPortD) s.alloc LvState.init m.levels with
  | error e => rw [hst] at h; cases h
  | ok st =>
    simp only [hst, Except.ok.injEq] at h
    exact ⟨st, rfl, h.symm⟩

theorem mkLevels_ok : ∀ (ss : List (Spec Op Dim)) (ms : List (Hierarchy.Mem Op)) (ls : List (Level Op Dim)), ss.length = ms.length →
    mkLevels ss ms = .ok ls → List.Forall₂ (fun (sm : Spec Op Dim × Hierarchy.Mem Op) l => mkLevel sm.1 sm.2 = .ok l) (ss.zip ms) ls
  | [], [], ls, _, h => by
    simp only [mkLevels, Except.ok.injEq] at h
    subst h; exact .nil
  | s :: ss, m :: ms, ls, hl, h => by
    rw [mkLevels] at h
    cases h1 : mkLevel s m with
    | error e => rw [h1] at h; cases h
    | ok l =>
      simp only [h1] at h
      cases h2 : mkLevels ss ms with
      | error e => rw [h2] at h; cases h
      | ok ls' =>
        simp only [h2, Except.ok.injEq] at h
        subst h
        exact .cons h1 (mkLevels_ok ss ms ls' (by simpa using hl) h2)
  | [], _ :: _, _, hl, _ => by simp at hl
  | _ :: _, [], _, hl, _ => by simp at hl

theorem mem_right {A B : Type} {P : A → B → Prop} {l : List A} {l' : List B} (h : List.Forall₂ P l l') {b : B} (hb : b ∈ l') : ∃ a ∈ l, P a b := by
  induction h with
  | nil => cases hb
  | cons hab _ ih =>
    rcases List.mem_cons.1 hb with rfl | hb
    · exact ⟨_, by simp, hab⟩
    · obtain ⟨a, ha, h⟩ := ih hb
      exact ⟨a, by simp [ha], h⟩

/-- What is known of a hierarchy that was built. -/
structure Built (specs : List (Spec Op Dim)) (h : Hier Op Dim) : Prop where
  ops : h.nodes.map Level.operands = specs.map Spec.operands
  nb : h.nb = (Hierarchy.build (specs.map Spec.operands)).nb
  wf : ∀ l ∈ h.nodes, l.levels.WF
  served : ∀ l ∈ h.nodes, ∃ s ∈ specs, l.served = s.served

theorem built {specs : List (Spec Op Dim)} {h : Hier Op Dim} (hb : build specs = .ok h) : Built specs h := by
  unfold build at hb
  simp only at hb
  cases h1 : mkLevels specs (Hierarchy.build (specs.map Spec.operands)).nodes with
  | error e => rw [h1] at hb; cases hb
  | ok ls =>
    simp only [h1, Except.ok.injEq] at hb
    subst hb
    have hlen : specs.length = (Hierarchy.build (specs.map Spec.operands)).nodes.length := by
      rw [Hierarchy.length_build, List.length_map]
    have hf := mkLevels_ok _ _ _ hlen h1
    have hwf := (Hierarchy.inv_build (specs.map Spec.operands)).wf
    generalize (Hierarchy.build (specs.map Spec.operands)).nodes = ms at hf hlen hwf
    refine ⟨?_, rfl, ?_, ?_⟩
    · simp only
      clear h1 hwf
      induction specs generalizing ms ls with
      | nil => cases ms <;> cases hf <;> rfl
      | cons s ss ih =>
        cases ms with
        | nil => simp at hlen
        | cons m ms =>
          cases hf with
          | cons hab ht =>
            obtain ⟨st, _, rfl⟩ := mkLevel_ok hab
            simp only [List.map_cons, List.cons.injEq, true_and]
            exact ih _ _ ht (by simpa using hlen)
    · intro l hl
      obtain ⟨⟨s, m⟩, hsm, hm⟩ := mem_right hf hl
      obtain ⟨st, _, rfl⟩ := mkLevel_ok hm
      exact hwf m (List.of_mem_zip hsm).2
    · intro l hl
      obtain ⟨⟨s, m⟩, hsm, hm⟩ := mem_right hf hl
      obtain ⟨st, _, rfl⟩ := mkLevel_ok hm
      exact ⟨s, (List.of_mem_zip hsm).1, rfl⟩

theorem allZip_le {A : Type} (f : A → A → Bool) : ∀ (x y : List A), x.length ≤ y.length → allZip f x y = true →
    ∃ pre post, y = pre ++ post ∧ List.Forall₂ (fun a b => f a b = true) x pre
  | [], y, _, _ => ⟨[], y, rfl, .nil⟩
  | a :: x, [], h, _ => by simp at h
  | a :: x, b :: y, h, hf => by
    simp only [allZip, List.zip_cons_cons, List.all_cons, Bool.and_eq_true] at hf
    obtain ⟨pre, post, rfl, hp⟩ := allZip_le f x y (by simpa using h) hf.2
    exact ⟨b :: pre, post, rfl, .cons hf.1 hp⟩

theorem allZip_flip {A : Type} (f : A → A → Bool) : ∀ (x y : List A), allZip f x y = allZip (fun a b => f b a) y x
  | [], y => by cases y <;> rfl
  | a :: x, [] => rfl
  | a :: x, b :: y => by
    have := allZip_flip f x y
    simp only [allZip] at this
    simp [allZip, this]

theorem allZip_of_forall₂ {A : Type} (f : A → A → Bool) {x y : List A} (h : List.Forall₂ (fun a b => f a b = true) x y) : allZip f x y = true := by
  induction h with
  | nil => rfl
  | cons hab _ ih =>
    simp only [allZip] at ih
    simp [allZip, hab, ih]

/-- Equal level counts and equal operands of the memories both have: neither hierarchy has more memories than the other. -/
theorem no_more {A B : List (List Op)} (hA : ∀ l ∈ A, l.Nodup) (hB : ∀ l ∈ B, l.Nodup ∧ l ≠ []) {rest : List (List Op)} (he : B = A ++ rest)
    (hn : ∀ k, (Hierarchy.build A).nb.get? k = (Hierarchy.build B).nb.get? k) : rest = [] := by
  have hcount : ∀ k, (A.filter fun l => decide (k ∈ l)).length = (B.filter fun l => decide (k ∈ l)).length := by
    intro k
    have h := hn k
    rw [Hierarchy.nb_build A hA, Hierarchy.nb_build B (fun l hl => (hB l hl).1)] at h
    have e1 := Hierarchy.storing_length (Hierarchy.build A).nodes k
    have e2 := Hierarchy.storing_length (Hierarchy.build B).nodes k
    rw [Hierarchy.operands_build] at e1 e2
    rw [← e1, ← e2]
    split at h <;> split at h
    · rename_i h1 h2; rw [h1, h2]
    · cases h
    · cases h
    · simpa using h
  cases rest with
  | nil => rfl
  | cons r rs =>
    exfalso
    have hr := (hB r (by rw [he]; simp)).2
    cases r with
    | nil => exact hr rfl
    | cons o os =>
      have := hcount o
      rw [he, List.filter_append, List.length_append, List.filter_cons_of_pos (by simp)] at this
      simp at this

end Verif.HwEq
