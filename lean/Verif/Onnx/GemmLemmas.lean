import Verif.Onnx.Lemmas

namespace Verif.Onnx

open Verif.Equation Verif.LayerBuild Verif.LayerNode

/-- A size that is unknown, written 0, counts as 1. -/
def known (n : Nat) : Nat := if n = 0 then 1 else n

/-- Names of the batch dimensions. -/
def bhDims (b h : Nat) : List Text := (if b ≠ 0 then ["b".toList] else []) ++ (if h ≠ 0 then ["h".toList] else [])

/-- The equation of matrix products. -/
def gemmEqn (b h : Nat) (const : Bool) : Eqn where
  out := ⟨"O".toList, bhDims b h ++ ["d".toList, "k".toList]⟩
  rest := [⟨[], .accum, [], ⟨"I".toList, bhDims b h ++ ["d".toList, "c".toList]⟩⟩,
           ⟨[], .times, [], ⟨"W".toList, (if const then [] else bhDims b h) ++ ["c".toList, "k".toList]⟩⟩]
  trailing := []

/-- Only whether the sizes are zero matters for names. -/
theorem gemm_names (b h : Nat) : ∃ b' h', b' < 2 ∧ h' < 2 ∧ (b = 0 ↔ b' = 0) ∧ (h = 0 ↔ h' = 0) :=
  ⟨if b = 0 then 0 else 1, if h = 0 then 0 else 1, by split_ifs <;> omega, by split_ifs <;> omega, by split_ifs <;> simp_all, by split_ifs <;> simp_all⟩

theorem bhDims_congr {b h b' h' : Nat} (hb : b = 0 ↔ b' = 0) (hh : h = 0 ↔ h' = 0) : bhDims b h = bhDims b' h' := by
  unfold bhDims
  simp only [ne_eq, hb, hh]

theorem bhText_congr {b h b' h' : Nat} (hb : b = 0 ↔ b' = 0) (hh : h = 0 ↔ h' = 0) : bhText b h = bhText b' h' := by
  unfold bhText
  simp only [ne_eq, hb, hh]

/-- Names of the loops. -/
def gemmLoops (b h : Nat) : List Text := ["C".toList, "D".toList, "K".toList] ++ ((if b ≠ 0 then ["B".toList] else []) ++ (if h ≠ 0 then ["H".toList] else []))

theorem gemmLoops_congr {b h b' h' : Nat} (hb : b = 0 ↔ b' = 0) (hh : h = 0 ↔ h' = 0) : gemmLoops b h = gemmLoops b' h' := by
  unfold gemmLoops
  simp only [ne_eq, hb, hh]

theorem gemmEqn_congr {b h b' h' : Nat} (const : Bool) (hb : b = 0 ↔ b' = 0) (hh : h = 0 ↔ h' = 0) : gemmEqn b h const = gemmEqn b' h' const := by
  unfold gemmEqn
  rw [bhDims_congr hb hh]

private theorem names_closed (b h : Nat) (hb : b < 2) (hh : h < 2) (const : Bool) :
    gemmEquation b h const = (gemmEqn b h const).text ∧ ((gemmLoops b h).map upper).Nodup ∧
    (∀ t ∈ (gemmEqn b h const).terms, ∀ x ∈ t.dims, x ≠ [] → upper x ∈ (gemmLoops b h).map upper) ∧
    (∀ t ∈ (gemmEqn b h const).terms, t.name ∈ ["W".toList, "I".toList, "O_final".toList, "O".toList]) ∧
    (∀ t ∈ (gemmEqn b h const).terms, t.name ≠ []) ∧ (∀ t ∈ (gemmEqn b h const).terms, ∀ c ∈ t.name, isAlnum c = true) ∧
    (∀ t ∈ (gemmEqn b h const).terms, ∀ x ∈ t.dims, ∀ c ∈ x, isAlnum c = true) := by
  have eb : b = 0 ∨ b = 1 := by omega
  have eh : h = 0 ∨ h = 1 := by omega
  rcases eb with rfl | rfl <;> rcases eh with rfl | rfl <;> cases const <;>
    exact ⟨by decide +kernel, by decide +kernel, by decide +kernel, by decide +kernel, by decide +kernel, by decide +kernel, by decide +kernel⟩

theorem gemm_good (id : Nat) (src : Dict Text Int) (p : Precisions) (const : Bool) (c d k b h : Nat) (hc : 0 < c) (hd : 0 < d) (hk : 0 < k) :
    Good (gemmRecord id src p const c d k b h) (gemmEqn b h const) [] := by
  obtain ⟨b', h', hb', hh', eb, eh⟩ := gemm_names b h
  obtain ⟨n1, n2, n3, n4, n5, n6, n7⟩ := names_closed b' h' hb' hh' const
  have ge : gemmEquation b h const = gemmEquation b' h' const := by unfold gemmEquation; rw [bhText_congr eb eh]
  rw [← gemmEqn_congr const eb eh] at n1 n3 n4 n5 n6 n7
  rw [← gemmLoops_congr eb eh] at n2 n3
  rw [← ge] at n1
  refine ⟨n1, ?_, .nil, by simp, ?_, n2, ?_, by simp, fun t ht x hx h0 => .inl (n3 t ht x hx h0), n4⟩
  · refine ⟨fun t ht => ⟨n5 t ht, n6 t ht, n7 t ht⟩, ?_, ?_⟩
    · intro r hr
      simp only [gemmEqn, List.mem_cons, List.not_mem_nil, or_false] at hr
      rcases hr with rfl | rfl <;> simp
    · simp [gemmEqn]
  · simp only [gemmRecord]
    split_ifs <;> rfl
  · intro n hn
    simp only [gemmRecord, List.mem_append, List.mem_cons, List.not_mem_nil, or_false] at hn
    rcases hn with hn | hn | hn
    · omega
    · split_ifs at hn with hb
      · simp at hn; omega
      · simp at hn
    · split_ifs at hn with hb
      · simp at hn; omega
      · simp at hn

end Verif.Onnx
