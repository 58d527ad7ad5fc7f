import Verif.Onnx.Model
import Verif.Onnx.Spec
import Verif.LayerBuild.Props

namespace Verif.Onnx

open Verif.Equation Verif.LayerBuild Verif.LayerNode

theorem digitChar_ok (d : Nat) (h : d < 10) : (Nat.digitChar d).isDigit = true ∧ digit (Nat.digitChar d) = d := by
  have : ∀ d < 10, (Nat.digitChar d).isDigit = true ∧ digit (Nat.digitChar d) = d := by decide
  exact this d h

theorem pyIntText_decText (n : Nat) : pyIntText (decText n) = .ok n := by
  by_cases h : n = 0
  · subst h; rfl
  · unfold decText pyIntText
    rw [if_neg h, if_pos]
    · congr 1
      have hd : ∀ x ∈ Nat.digits 10 n, x < 10 := fun x hx => Nat.digits_lt_base (by norm_num) hx
      conv_rhs => rw [← Nat.ofDigits_digits 10 n]
      generalize Nat.digits 10 n = l at hd
      rw [List.map_reverse, List.foldl_reverse]
      induction l with
      | nil => rfl
      | cons a t ih =>
        rw [List.map_cons, List.foldr_cons, ih (fun x hx => hd x (by simp [hx])), Nat.ofDigits_cons, (digitChar_ok a (hd a (by simp))).2]
        omega
    · constructor
      · simp [Nat.digits_eq_nil_iff_eq_zero, h]
      · rw [List.all_eq_true]
        intro c hc
        obtain ⟨d, hd, rfl⟩ := List.mem_map.1 hc
        exact (digitChar_ok d (Nat.digits_lt_base (by norm_num) (List.mem_reverse.1 hd))).1

/-- The equation of convolutions. -/
def convEqn : Eqn where
  out := ⟨"O".toList, ["b".toList, "g".toList, "k".toList, "oy".toList, "ox".toList]⟩
  rest := [⟨[], .accum, [], ⟨"W".toList, ["g".toList, "k".toList, "c".toList, "fy".toList, "fx".toList]⟩⟩,
           ⟨[], .times, [], ⟨"I".toList, ["b".toList, "g".toList, "c".toList, "iy".toList, "ix".toList]⟩⟩]
  trailing := []

/-- The relations of convolutions. -/
def convRels (s0 s1 d0 d1 : Nat) : List (Relation Text) := [⟨"IX".toList, "OX".toList, "FX".toList, s0, d0⟩, ⟨"IY".toList, "OY".toList, "FY".toList, s1, d1⟩]

theorem conv_good (id : Nat) (src : Dict Text Int) (p : Precisions) (b k g ox oy c fx fy s0 s1 d0 d1 ix iy p0 p1 p2 p3 : Nat)
    (h : 0 < b ∧ 0 < k ∧ 0 < g ∧ 0 < ox ∧ 0 < oy ∧ 0 < c ∧ 0 < fx ∧ 0 < fy) (hs : 0 < s0 ∧ 0 < s1) :
    Good (convRecord id src p b k g ox oy c fx fy s0 s1 d0 d1 ix iy p0 p1 p2 p3) convEqn (convRels s0 s1 d0 d1) := by
  refine ⟨?_, ?_, ?_, ?_, rfl, ?_, ?_, ?_, ?_, ?_⟩
  · show convEquation = convEqn.text
    decide +kernel
  · refine ⟨?_, by decide, by decide⟩
    intro t ht
    simp only [Eqn.terms, convEqn, List.map_cons, List.map_nil, List.mem_cons, List.not_mem_nil, or_false] at ht
    rcases ht with rfl | rfl | rfl <;> exact ⟨by decide, by decide, by decide⟩
  · refine .cons ?_ (.cons ?_ .nil)
    · simp only [mkRel, coef, pyIntText_decText]; rfl
    · simp only [mkRel, coef, pyIntText_decText]; rfl
  · show ["IX".toList, "IY".toList].Nodup
    decide
  · show (["B".toList, "K".toList, "G".toList, "OX".toList, "OY".toList, "C".toList, "FX".toList, "FY".toList].map upper).Nodup
    decide +kernel
  · intro n hn
    simp only [convRecord, List.mem_cons, List.not_mem_nil, or_false] at hn
    omega
  · intro r hr
    simp only [convRels, List.mem_cons, List.not_mem_nil, or_false] at hr
    rcases hr with rfl | rfl
    · exact ⟨by simp only [convRecord]; decide +kernel, by simp only [convRecord]; decide +kernel, .inl (by simp; omega)⟩
    · exact ⟨by simp only [convRecord]; decide +kernel, by simp only [convRecord]; decide +kernel, .inl (by simp; omega)⟩
  · have key : ∀ t ∈ convEqn.terms, ∀ x ∈ t.dims, x ≠ [] →
        upper x ∈ ["B".toList, "K".toList, "G".toList, "OX".toList, "OY".toList, "C".toList, "FX".toList, "FY".toList].map upper ∨ upper x ∈ ["IX".toList, "IY".toList] := by
      decide +kernel
    intro t ht x hx h0
    rcases key t ht x hx h0 with h | h
    · exact .inl h
    · right
      simp only [List.mem_cons, List.not_mem_nil, or_false] at h
      rcases h with h | h
      · exact ⟨_, List.mem_cons_self, h⟩
      · exact ⟨_, List.mem_cons_of_mem _ List.mem_cons_self, h⟩
  · show ∀ t ∈ convEqn.terms, t.name ∈ ["W".toList, "I".toList, "O_final".toList, "O".toList]
    decide +kernel

theorem conv_validate (id : Nat) (src : Dict Text Int) (p : Precisions) (b k g ox oy c fx fy s0 s1 d0 d1 ix iy p0 p1 p2 p3 : Nat) :
    validate (convRecord id src p b k g ox oy c fx fy s0 s1 d0 d1 ix iy p0 p1 p2 p3) = .ok true := rfl

theorem conv_given (id : Nat) (src : Dict Text Int) (p : Precisions) (b k g ox oy c fx fy s0 s1 d0 d1 ix iy p0 p1 p2 p3 : Nat) (h : 0 < ix ∧ 0 < iy) :
    GivenPr (convRecord id src p b k g ox oy c fx fy s0 s1 d0 d1 ix iy p0 p1 p2 p3) (convRels s0 s1 d0 d1) := by
  refine ⟨_, _, rfl, rfl, rfl, by decide +kernel, by decide, ?_, ?_⟩
  · intro n hn
    simp only [List.mem_cons, List.not_mem_nil, or_false] at hn
    omega
  · intro r hr
    simp only [convRels, List.mem_cons, List.not_mem_nil, or_false] at hr
    rcases hr with rfl | rfl <;> simp only <;> decide +kernel

theorem ceilDiv_dvd (a g : Nat) (hg : 0 < g) (h : g ∣ a) : ceilDiv a g = .ok (a / g) := by
  unfold ceilDiv
  rw [if_neg (by omega)]
  obtain ⟨q, rfl⟩ := h
  congr 1
  rw [Nat.mul_div_cancel_left _ hg]
  have : g * q + g - 1 = g * q + (g - 1) := by omega
  rw [this, Nat.mul_add_div hg, Nat.div_eq_of_lt (by omega), Nat.add_zero]

theorem operandSource_ok (id : Nat) (preds : List Nat) (h : preds.length ≤ 2) : ∃ src, operandSource id preds = .ok src := by
  match preds, h with
  | [], _ => exact ⟨_, rfl⟩
  | [_], _ => exact ⟨_, rfl⟩
  | [_, _], _ => exact ⟨_, rfl⟩

/-- The description of a valid convolution. -/
theorem convData_eq (c : ConvOp) (hc : c.Valid) (id : Nat) (preds : List Nat) (p : Precisions) (src : Dict Text Int) (hs : operandSource id preds = .ok src) :
    convData id preds p c.kernel c.strides c.dilations c.g c.pads c.ia c.oa =
      .ok (convRecord id src p c.batch (c.m / c.g) c.g c.ow c.oh (c.cin / c.g) c.kh c.kw c.sh c.sw c.dh c.dw c.win c.hin c.hb c.wb c.he c.we) := by
  have h0 : (if 0 < c.n then c.n else 1) = c.batch := by unfold ConvOp.batch; split_ifs <;> omega
  have bind_ok : ∀ {α β : Type} (x : α) (f : α → Except PyErr β), ((Except.ok x : Except PyErr α) >>= f) = f x := fun _ _ => rfl
  have a0 : at! c.ia 0 = .ok c.n := rfl
  have a1 : at! c.ia 1 = .ok c.cin := rfl
  have a2 : at! c.ia 2 = .ok c.hin := rfl
  have a3 : at! c.ia 3 = .ok c.win := rfl
  have b0 : at! c.oa 0 = .ok c.n := rfl
  have b1 : at! c.oa 1 = .ok c.m := rfl
  have b2 : at! c.oa 2 = .ok c.oh := rfl
  have b3 : at! c.oa 3 = .ok c.ow := rfl
  have k0 : at! c.kernel 0 = .ok c.kh := rfl
  have k1 : at! c.kernel 1 = .ok c.kw := rfl
  have s0 : at! c.strides 0 = .ok c.sh := rfl
  have s1 : at! c.strides 1 = .ok c.sw := rfl
  have d0 : at! c.dilations 0 = .ok c.dh := rfl
  have d1 : at! c.dilations 1 = .ok c.dw := rfl
  have p0 : at! c.pads 0 = .ok c.hb := rfl
  have p1 : at! c.pads 1 = .ok c.wb := rfl
  have p2 : at! c.pads 2 = .ok c.he := rfl
  have p3 : at! c.pads 3 = .ok c.we := rfl
  unfold convData
  rw [hs, bind_ok, a0, bind_ok, b0, bind_ok, if_neg (by simp), b1, bind_ok, ceilDiv_dvd _ _ hc.g hc.gout, bind_ok, b3, bind_ok, b2, bind_ok, a1, bind_ok,
    ceilDiv_dvd _ _ hc.g hc.gin, bind_ok, a3, bind_ok, a2, bind_ok, k0, bind_ok, k1, bind_ok, s0, bind_ok, d0, bind_ok, s1, bind_ok, d1, bind_ok, p0, bind_ok, p2, bind_ok,
    p1, bind_ok, p3, bind_ok, h0]
  rfl

theorem outExtent_pos (size before after k s d : Nat) : 0 < outExtent size before after k s d := Nat.succ_pos _

theorem touched_le_size (size before o k s d : Nat) : touched size before o k s d ≤ size := by
  unfold touched
  calc _ ≤ (Finset.range size).card := Finset.card_filter_le _ _
    _ = size := Finset.card_range size

theorem touched_le_distinct (size before o k s d : Nat) : touched size before o k s d ≤ distinct s o d k := by
  unfold touched distinct
  apply Finset.card_le_card_of_injOn (fun i => before + i)
  · intro i hi
    simp only [Finset.coe_filter, Set.mem_setOf_eq] at hi
    obtain ⟨-, x, hx, f, hf, h⟩ := hi
    simp only [Finset.coe_image, Set.mem_image, Finset.mem_coe, Finset.mem_product]
    exact ⟨(x, f), ⟨hx, hf⟩, h⟩
  · intro a _ b _ h
    simpa using h

end Verif.Onnx
