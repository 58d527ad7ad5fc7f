import Mathlib.Data.List.Basic
import Mathlib.Tactic.SplitIfs
import Mathlib.Tactic.Tauto

/-!
Python `dict` as an insertion-ordered association list.  Only the operations used by the modelled code are given.
Trusted: the python semantics of `d[k]`, `d[k] = v`, `del d[k]`, `k in d`, iteration order = insertion order.
-/

namespace Verif

/-- Insertion ordered python dictionary. -/
abbrev Dict (K V : Type) := List (K × V)

/-- The python exceptions used by the models. -/
inductive PyErr where
  | keyError | indexError | zeroDivision | valueError | runtimeError | assertion | stopIteration
  | typeError | memoryTooSmall | memoryHierarchyTooSmall | noValidOrdering | notImplemented | overflow
  | attributeError
  deriving DecidableEq, Repr

namespace Dict

variable {K V W : Type} [DecidableEq K]

/-- `d.get(k)`: `none` stands for a missing key (`d[k]` raises `KeyError`). -/
def get? : Dict K V → K → Option V
  | [], _ => none
  | (k', v) :: t, k => if k' = k then some v else get? t k

/-- `d[k] = v`: in place when present, appended otherwise. -/
def set : Dict K V → K → V → Dict K V
  | [], k, v => [(k, v)]
  | (k', v') :: t, k, v => if k' = k then (k', v) :: t else (k', v') :: set t k v

/-- `del d[k]` (keys of a dictionary are unique). -/
def del (d : Dict K V) (k : K) : Dict K V := d.filter (fun p => p.1 ≠ k)

/-- `d.keys()` -/
def keys (d : Dict K V) : List K := d.map Prod.fst

/-- `d.values()` -/
def values (d : Dict K V) : List V := d.map Prod.snd

/-- Keys of a python dictionary are unique. -/
def WF (d : Dict K V) : Prop := d.keys.Nodup

@[simp] theorem get?_nil (k : K) : get? ([] : Dict K V) k = none := rfl

theorem get?_cons (p : K × V) (t : Dict K V) (k : K) :
    get? (p :: t) k = if p.1 = k then some p.2 else get? t k := rfl

theorem get?_set (d : Dict K V) (k k' : K) (v : V) :
    get? (set d k v) k' = if k = k' then some v else get? d k' := by
  induction d with
  | nil => simp [set, get?]
  | cons p t ih =>
    obtain ⟨a, b⟩ := p
    by_cases h : a = k <;> by_cases h' : a = k' <;> simp_all [set, get?]
    intro h2; exact absurd h2.symm h

@[simp] theorem get?_set_self (d : Dict K V) (k : K) (v : V) : get? (set d k v) k = some v := by
  simp [get?_set]

theorem get?_set_of_ne (d : Dict K V) {k k' : K} (v : V) (h : k ≠ k') :
    get? (set d k v) k' = get? d k' := by simp [get?_set, h]

theorem get?_del (d : Dict K V) (k k' : K) :
    get? (del d k) k' = if k = k' then none else get? d k' := by
  induction d with
  | nil => simp [del, get?]
  | cons p t ih =>
    obtain ⟨a, b⟩ := p
    simp only [del] at ih
    by_cases h : a = k
    · subst h
      by_cases h' : a = k' <;> simp_all [del, get?]
    · by_cases h' : a = k'
      · subst h'
        simp [del, get?, h, Ne.symm h]
      · simp_all [del, get?]

theorem keys_set (d : Dict K V) (k : K) (v : V) :
    (set d k v).keys = if k ∈ d.keys then d.keys else d.keys ++ [k] := by
  induction d with
  | nil => simp [set, keys]
  | cons p t ih =>
    obtain ⟨a, b⟩ := p
    by_cases h : a = k
    · simp [set, keys, h]
    · simp only [keys] at ih
      simp only [set, keys, h, if_false, List.map_cons, ih, List.mem_cons, Ne.symm h, false_or]
      split_ifs <;> simp_all

theorem keys_del (d : Dict K V) (k : K) : (del d k).keys = d.keys.filter (fun a => a ≠ k) := by
  simp [del, keys, List.filter_map, Function.comp_def]

theorem WF.set {d : Dict K V} (h : d.WF) (k : K) (v : V) : (d.set k v).WF := by
  unfold WF at *
  rw [keys_set]
  split_ifs with hk
  · exact h
  · exact List.nodup_append.2 ⟨h, by simp, by
      intro a ha b hb; simp at hb; subst hb; intro e; subst e; exact hk ha⟩

theorem WF.del {d : Dict K V} (h : d.WF) (k : K) : (d.del k).WF := by
  unfold WF at *
  rw [keys_del]; exact h.filter _

theorem get?_eq_none_iff (d : Dict K V) (k : K) : d.get? k = none ↔ k ∉ d.keys := by
  induction d with
  | nil => simp [get?, keys]
  | cons p t ih =>
    obtain ⟨a, b⟩ := p
    by_cases h : a = k
    · simp [get?, keys, h]
    · simp [get?, keys, h, Ne.symm h] at ih ⊢
      exact ih

theorem mem_of_get? {d : Dict K V} {k : K} {v : V} (h : d.get? k = some v) : (k, v) ∈ d := by
  induction d with
  | nil => simp at h
  | cons p t ih =>
    obtain ⟨a, b⟩ := p
    by_cases e : a = k
    · subst e; simp [get?] at h; simp [h]
    · simp [get?, e] at h; simp [ih h]

theorem get?_of_mem {d : Dict K V} (hd : d.WF) {k : K} {v : V} (h : (k, v) ∈ d) : d.get? k = some v := by
  induction d with
  | nil => simp at h
  | cons p t ih =>
    obtain ⟨a, b⟩ := p
    simp only [WF, keys, List.map_cons, List.nodup_cons] at hd
    rcases List.mem_cons.1 h with h | h
    · cases h; simp [get?]
    · have : a ≠ k := by
        rintro rfl; exact hd.1 (List.mem_map.2 ⟨_, h, rfl⟩)
      simp [get?, this]; exact ih hd.2 h

theorem mem_iff {d : Dict K V} (hd : d.WF) {k : K} {v : V} : (k, v) ∈ d ↔ d.get? k = some v :=
  ⟨get?_of_mem hd, mem_of_get?⟩

omit [DecidableEq K] in
theorem WF.filter {d : Dict K V} (h : d.WF) (p : K × V → Bool) : WF (List.filter p d) := by
  unfold WF keys at *
  exact h.sublist (List.Sublist.map _ List.filter_sublist)

end Dict
end Verif
