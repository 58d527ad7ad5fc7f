import Verif.Equation.Lemmas

/-! C83: layer equations are understood as written. -/

namespace Verif.Equation

private theorem plain_toks {t : Term} (h : t.Plain) : ∀ x ∈ t.toks, isOp x = false := by
  intro x hx
  rcases List.mem_cons.1 hx with rfl | hx
  · exact isOp_false h.name
  · exact isOp_false (h.dims x (List.mem_filter.1 hx).1)

private theorem sign_isOp (s : Sign) : isOp s.tok = true := by cases s <;> decide

private theorem flat_eq (rs : List Rest) : (rs.flatMap fun r => r.sign.tok :: r.term.toks) = flat (rs.map fun r => (r.sign.tok, r.term.toks)) := by
  unfold flat
  rw [List.flatMap_map]

private theorem starts_text (e : Eqn) (h : e.Plain) :
    starts (parse e.text) = 0 :: startsOf (e.out.toks.length + 1) (e.rest.map fun r => (r.sign.tok, r.term.toks)) := by
  rw [parse_text e h, flat_eq, starts_eq _ _ (plain_toks (h.terms _ (by simp [Eqn.terms])))]
  intro x hx
  obtain ⟨r, hr, rfl⟩ := List.mem_map.1 hx
  exact ⟨sign_isOp _, plain_toks (h.terms _ (List.mem_cons.2 (.inr (List.mem_map.2 ⟨r, hr, rfl⟩))))⟩

/-- C83: the operands of an equation are the written ones, in the written order, for any number of operands and dimensions and any blanks around the operators. -/
theorem equation_operands (e : Eqn) (h : e.Plain) : operands (parse e.text) = .ok (e.terms.map Term.name) := by
  unfold operands
  rw [starts_text e h, parse_text e h, flat_eq]
  have hp := pick_flat (e.rest.map fun r => (r.sign.tok, r.term.toks)) (by intro x hx; obtain ⟨r, -, rfl⟩ := List.mem_map.1 hx; simp [Term.toks]) e.out.toks
  rw [pick]
  have h0 : (e.out.toks ++ flat (e.rest.map fun r => (r.sign.tok, r.term.toks)))[0]? = some e.out.name := rfl
  rw [h0]
  simp only
  rw [hp]
  simp [Eqn.terms, Term.toks]

/-- C83: the dimensions reported for an operand are those written behind its first occurrence, in upper case and without empty brackets. -/
theorem equation_dims (e : Eqn) (h : e.Plain) (k : Nat) (t : Term) (hk : e.terms[k]? = some t) (hfirst : ∀ (j : Nat) (u : Term), j < k → e.terms[j]? = some u → u.name ≠ t.name) :
    rDims (parse e.text) t.name = .ok ((t.dims.filter fun d => decide (d ≠ [])).map upper) := by
  unfold rDims
  rw [equation_operands e h]
  simp only
  have hmem : t.name ∈ e.terms.map Term.name := List.mem_map.2 ⟨t, List.mem_of_getElem? hk, rfl⟩
  rw [if_pos hmem]
  have hidx : (e.terms.map Term.name).idxOf t.name = k := by
    have hlt : k < (e.terms.map Term.name).length := by
      rw [List.length_map]
      exact (List.getElem?_eq_some_iff.1 hk).1
    have hget : (e.terms.map Term.name)[k] = t.name := by
      have := (List.getElem?_eq_some_iff.1 hk).2
      simp [this]
    have hle : (e.terms.map Term.name).idxOf t.name ≤ k := by
      by_contra hc
      have := List.not_of_lt_findIdx (p := (· == t.name)) (xs := e.terms.map Term.name) (i := k) (by unfold List.idxOf at hc; omega)
      rw [hget] at this
      simp at this
    by_contra hne
    have hlt' : (e.terms.map Term.name).idxOf t.name < k := by omega
    have hl2 : (e.terms.map Term.name).idxOf t.name < (e.terms.map Term.name).length := List.idxOf_lt_length_iff.2 hmem
    have := List.getElem_idxOf hl2
    rw [List.getElem_map] at this
    exact hfirst _ _ hlt' (List.getElem?_eq_getElem (by simpa using hl2)) this
  rw [hidx, starts_text e h, parse_text e h, flat_eq]
  have hs := slice_flat (e.rest.map fun r => (r.sign.tok, r.term.toks)) [] e.out.toks (by simp [Term.toks])
    (by intro x hx; obtain ⟨r, -, rfl⟩ := List.mem_map.1 hx; simp [Term.toks]) k t.toks ?_
  · simp only [List.nil_append, List.length_nil, Nat.zero_add] at hs
    simp only [List.cons_append] at hs ⊢
    rw [hs]
    rfl
  · rw [List.map_map]
    have : (e.out.toks :: e.rest.map (Prod.snd ∘ fun r => (r.sign.tok, r.term.toks))) = e.terms.map Term.toks := by
      simp [Eqn.terms]
    rw [this, List.getElem?_map, hk]
    rfl

/-- C83: any other name is refused. -/
theorem equation_foreign (e : Eqn) (h : e.Plain) (op : Text) (hop : op ∉ e.terms.map Term.name) : rDims (parse e.text) op = .error .assertion := by
  unfold rDims
  rw [equation_operands e h]
  simp [hop]

/-- `O[b][k] += W[k][c]*I[b][c]` -/
def fullyConnected : Eqn where
  out := ⟨['O'], [['b'], ['k']]⟩
  rest := [⟨[' '], .accum, [' '], ⟨['W'], [['k'], ['c']]⟩⟩, ⟨[], .times, [], ⟨['I'], [['b'], ['c']]⟩⟩]
  trailing := []

example : fullyConnected.text = "O[b][k] += W[k][c]*I[b][c]".toList := by decide

example : fullyConnected.Plain := by
  refine ⟨?_, by decide, by decide⟩
  intro t ht
  simp only [Eqn.terms, fullyConnected, List.map_cons, List.map_nil, List.mem_cons, List.not_mem_nil, or_false] at ht
  rcases ht with rfl | rfl | rfl <;> exact ⟨by decide, by decide, by decide⟩

example : rDims (parse fullyConnected.text) ['W'] = .ok [['K'], ['C']] := by decide +kernel

/-- C83, partial: an equation accepted by the validator is understood as written, if it is written without underscores and without blanks inside `+=` and its inputs have
different names. Missing: `underscore_false`, `blank_false`, `repeated_false`. -/
theorem accepted_partial (od : List Text) (w1 : Text) (acc : Bool) (w3 : Text) (a : Char) (ad : List Text) (w4 : Text) (times : Bool) (w5 : Text) (b : Char) (bd : List Text)
    (w6 : Text) (s : Text)
    (hs : s = (⟨['O'], od⟩ : Term).text ++ w1 ++ (if acc then ['+'] else []) ++ ['='] ++ w3 ++ (⟨[a], ad⟩ : Term).text ++ w4 ++ [if times then '*' else '+'] ++ w5 ++
      (⟨[b], bd⟩ : Term).text ++ w6)
    (hd : ∀ d ∈ od ++ ad ++ bd, ∀ c ∈ d, isAlnum c) (ha : isAlnum a) (hb : isAlnum b) (hw : ∀ c ∈ w1 ++ w3 ++ w4 ++ w5 ++ w6, isBlank c)
    (hab : a ≠ b) (hao : a ≠ 'O') (hbo : b ≠ 'O') :
    operands (parse s) = .ok [['O'], [a], [b]] ∧ rDims (parse s) ['O'] = .ok ((od.filter fun d => decide (d ≠ [])).map upper) ∧
    rDims (parse s) [a] = .ok ((ad.filter fun d => decide (d ≠ [])).map upper) ∧ rDims (parse s) [b] = .ok ((bd.filter fun d => decide (d ≠ [])).map upper) := by
  let e : Eqn := ⟨⟨['O'], od⟩, [⟨w1, if acc then .accum else .assign, w3, ⟨[a], ad⟩⟩, ⟨w4, if times then .times else .plus, w5, ⟨[b], bd⟩⟩], w6⟩
  have hse : s = e.text := by
    rw [hs]
    simp only [e, Eqn.text, Rest.text, List.flatMap_cons, List.flatMap_nil, List.append_nil]
    cases acc <;> cases times <;> simp [Sign.text]
  have hp : e.Plain := by
    refine ⟨?_, ?_, fun c hc => hw c (by simp only [List.mem_append]; exact .inr hc)⟩
    · intro t ht
      simp only [e, Eqn.terms, List.map_cons, List.map_nil, List.mem_cons, List.not_mem_nil, or_false] at ht
      rcases ht with rfl | rfl | rfl
      · exact ⟨by simp, by simp only [List.mem_singleton, forall_eq]; decide, fun d hdm => hd d (by simp [hdm])⟩
      · exact ⟨by simp, by simpa using ha, fun d hdm => hd d (by simp [hdm])⟩
      · exact ⟨by simp, by simpa using hb, fun d hdm => hd d (by simp [hdm])⟩
    · intro r hr
      simp only [e, List.mem_cons, List.not_mem_nil, or_false] at hr
      rcases hr with rfl | rfl
      · exact ⟨fun c hc => hw c (by simp only [List.mem_append]; simp only at hc; tauto), fun c hc => hw c (by simp only [List.mem_append]; simp only at hc; tauto)⟩
      · exact ⟨fun c hc => hw c (by simp only [List.mem_append]; simp only at hc; tauto), fun c hc => hw c (by simp only [List.mem_append]; simp only at hc; tauto)⟩
  rw [hse]
  refine ⟨by rw [equation_operands e hp]; rfl, ?_, ?_, ?_⟩
  · exact equation_dims e hp 0 _ rfl (fun j u hj => absurd hj (by omega))
  · refine equation_dims e hp 1 _ rfl (fun j u hj hu => ?_)
    have : j = 0 := by omega
    subst this
    cases hu
    exact fun hc => hao (List.cons.inj hc).1.symm
  · refine equation_dims e hp 2 _ rfl (fun j u hj hu => ?_)
    have : j = 0 ∨ j = 1 := by omega
    rcases this with rfl | rfl
    · cases hu
      exact fun hc => hbo (List.cons.inj hc).1.symm
    · cases hu
      simpa using hab

example : (∀ d ∈ [["ox".toList], ["fx".toList], ["ix".toList]].flatten, ∀ c ∈ d, isAlnum c) := by decide

/-- C83 is false for dimension names with an underscore: `O[b_1]+=W[b_1]*I[b_1]` is accepted and has the dimensions `B` and `1`. -/
theorem underscore_false : Accepted "O[b_1]+=W[b_1]*I[b_1]".toList ∧ rDims (parse "O[b_1]+=W[b_1]*I[b_1]".toList) ['W'] = .ok [['B'], ['1']] := by
  refine ⟨⟨["b_1".toList], [], true, [], [], 'W', ["b_1".toList], [], '*', [], 'I', ["b_1".toList], [], ?_⟩, by decide +kernel⟩
  decide +kernel

/-- C83 is false for a blank inside `+=`: `O[b] + = W[b] * I[b]` is accepted and has an operand `=`. -/
theorem blank_false : Accepted "O[b] + = W[b] * I[b]".toList ∧ operands (parse "O[b] + = W[b] * I[b]".toList) = .ok [['O'], ['='], ['W'], ['I']] := by
  refine ⟨⟨[['b']], [' '], true, [' '], [' '], 'W', [['b']], [' '], '*', [' '], 'I', [['b']], [], ?_⟩, by decide +kernel⟩
  decide +kernel

/-- C83 is false for repeated names: `O[i]=A[i]*A[j]` is accepted, but the dimension `J` belongs to no operand. -/
theorem repeated_false : Accepted "O[i]=A[i]*A[j]".toList ∧ operands (parse "O[i]=A[i]*A[j]".toList) = .ok [['O'], ['A'], ['A']] ∧
    ∀ op ∈ [['O'], ['A'], ['A']], rDims (parse "O[i]=A[i]*A[j]".toList) op = .ok [['I']] := by
  refine ⟨⟨[['i']], [], false, [], [], 'A', [['i']], [], '*', [], 'A', [['j']], [], ?_⟩, by decide +kernel, by decide +kernel⟩
  decide +kernel

end Verif.Equation
