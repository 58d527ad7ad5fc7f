import Verif.Equation.Spec
import Mathlib.Data.List.Basic

namespace Verif.Equation

/-! ### Replacements -/

theorem rep2_skip (x y : Char) (r w t : Text) (h : ∀ c ∈ w, c ≠ x) : rep2 x y r (w ++ t) = w ++ rep2 x y r t := by
  induction w with
  | nil => rfl
  | cons c w ih =>
    have hc := h c (by simp)
    have ih' := ih (fun d hd => h d (by simp [hd]))
    rw [List.cons_append, List.cons_append, ← ih']
    cases hw : w ++ t with
    | nil => rfl
    | cons d s => rw [rep2, if_neg (fun hh => hc hh.1)]

theorem rep2_head (x y : Char) (r : Text) (c d : Char) (t : Text) (h : d ≠ y) : rep2 x y r (c :: d :: t) = c :: rep2 x y r (d :: t) := by
  rw [rep2, if_neg (fun hh => h hh.2)]

/-- No operator characters. -/
def NoOps (w : Text) : Prop := ∀ c ∈ w, c ≠ '+' ∧ c ≠ '=' ∧ c ≠ '*'

theorem NoOps.append {a b : Text} (ha : NoOps a) (hb : NoOps b) : NoOps (a ++ b) := by
  intro c hc
  rcases List.mem_append.1 hc with h | h
  · exact ha c h
  · exact hb c h

theorem alnum_ne {c : Char} (h : isAlnum c = true) : c ≠ '+' ∧ c ≠ '=' ∧ c ≠ '*' := by
  refine ⟨?_, ?_, ?_⟩ <;> (rintro rfl; revert h; decide)

theorem blank_ne {c : Char} (h : isBlank c = true) : c ≠ '+' ∧ c ≠ '=' ∧ c ≠ '*' := by
  refine ⟨?_, ?_, ?_⟩ <;> (rintro rfl; revert h; decide)

theorem blank_noOps {w : Text} (h : ∀ c ∈ w, isBlank c) : NoOps w := fun c hc => blank_ne (h c hc)

theorem Term.Plain.noOps {t : Term} (h : t.Plain) : NoOps t.text := by
  unfold Term.text
  refine NoOps.append (fun c hc => alnum_ne (h.name c hc)) ?_
  intro c hc
  obtain ⟨d, hd, hc⟩ := List.mem_flatMap.1 hc
  rcases List.mem_cons.1 hc with rfl | hc
  · decide
  · rcases List.mem_append.1 hc with hc | hc
    · exact alnum_ne (h.dims d hd c hc)
    · simp only [List.mem_singleton] at hc
      subst hc
      decide

/-- `+=` becomes `=`. -/
def Sign.simple : Sign → Sign
  | .accum => .assign
  | s => s

def Rest.simple (r : Rest) : Rest := { r with sign := r.sign.simple }

/-- Conditions for a list of further operands. -/
def RestOk (rs : List Rest) : Prop := ∀ r ∈ rs, (∀ c ∈ r.before, isBlank c) ∧ (∀ c ∈ r.after, isBlank c) ∧ r.term.Plain

theorem after_head {r : Rest} (ha : ∀ c ∈ r.after, isBlank c) (ht : r.term.Plain) :
    ∃ d t, r.after ++ r.term.text = d :: t ∧ d ≠ '+' ∧ d ≠ '=' := by
  have hno : NoOps (r.after ++ r.term.text) := (blank_noOps ha).append ht.noOps
  cases hd : r.after ++ r.term.text with
  | nil =>
    have := (List.append_eq_nil_iff.1 hd).2
    unfold Term.text at this
    exact absurd (List.append_eq_nil_iff.1 this).1 ht.ne
  | cons d t => exact ⟨d, t, rfl, (hno d (by rw [hd]; simp)).1, (hno d (by rw [hd]; simp)).2.1⟩

theorem rep2_accum (rs : List Rest) (h : RestOk rs) (tr : Text) (htr : ∀ c ∈ tr, isBlank c) :
    rep2 '+' '=' ['='] (rs.flatMap Rest.text ++ tr) = (rs.map Rest.simple).flatMap Rest.text ++ tr := by
  induction rs with
  | nil =>
    have := rep2_skip '+' '=' ['='] tr [] (fun c hc => (blank_ne (htr c hc)).1)
    simpa [rep2] using this
  | cons r rs ih =>
    obtain ⟨hb, ha, ht⟩ := h r (by simp)
    have ih' := ih (fun x hx => h x (by simp [hx]))
    have hno : ∀ c ∈ r.after ++ r.term.text, c ≠ '+' := fun c hc => ((blank_noOps ha).append ht.noOps c hc).1
    obtain ⟨d, t, hdt, -, hne⟩ := after_head ha ht
    rw [List.flatMap_cons, List.map_cons, List.flatMap_cons]
    simp only [Rest.text, Rest.simple, List.append_assoc]
    rw [rep2_skip _ _ _ _ _ (fun c hc => (blank_ne (hb c hc)).1)]
    congr 1
    have hrest : rep2 '+' '=' ['='] (r.after ++ (r.term.text ++ (rs.flatMap Rest.text ++ tr))) =
        r.after ++ (r.term.text ++ ((rs.map Rest.simple).flatMap Rest.text ++ tr)) := by
      rw [← List.append_assoc, rep2_skip _ _ _ _ _ hno, ih', List.append_assoc]
    cases hs : r.sign with
    | accum =>
      simp only [Sign.text, Sign.simple, List.cons_append, List.nil_append]
      rw [rep2, if_pos ⟨rfl, rfl⟩, hrest]
      rfl
    | assign =>
      simp only [Sign.text, Sign.simple]
      rw [rep2_skip _ _ _ ['='] _ (by decide), hrest]
    | times =>
      simp only [Sign.text, Sign.simple]
      rw [rep2_skip _ _ _ ['*'] _ (by decide), hrest]
    | plus =>
      simp only [Sign.text, Sign.simple, List.cons_append, List.nil_append]
      rw [← hrest]
      rw [← List.append_assoc, hdt]
      exact rep2_head _ _ _ _ _ _ hne

theorem rep2_double (rs : List Rest) (h : RestOk rs) (hs : ∀ r ∈ rs, r.sign ≠ .accum) (tr : Text) (htr : ∀ c ∈ tr, isBlank c) :
    rep2 '+' '+' ['+'] (rs.flatMap Rest.text ++ tr) = rs.flatMap Rest.text ++ tr := by
  induction rs with
  | nil =>
    have := rep2_skip '+' '+' ['+'] tr [] (fun c hc => (blank_ne (htr c hc)).1)
    simpa [rep2] using this
  | cons r rs ih =>
    obtain ⟨hb, ha, ht⟩ := h r (by simp)
    have ih' := ih (fun x hx => h x (by simp [hx])) (fun x hx => hs x (by simp [hx]))
    have hno : ∀ c ∈ r.after ++ r.term.text, c ≠ '+' := fun c hc => ((blank_noOps ha).append ht.noOps c hc).1
    obtain ⟨d, t, hdt, hne, -⟩ := after_head ha ht
    rw [List.flatMap_cons]
    simp only [Rest.text, List.append_assoc]
    rw [rep2_skip _ _ _ _ _ (fun c hc => (blank_ne (hb c hc)).1)]
    congr 1
    have hrest : rep2 '+' '+' ['+'] (r.after ++ (r.term.text ++ (rs.flatMap Rest.text ++ tr))) =
        r.after ++ (r.term.text ++ (rs.flatMap Rest.text ++ tr)) := by
      rw [← List.append_assoc, rep2_skip _ _ _ _ _ hno, ih', List.append_assoc]
    have hr := hs r (by simp)
    cases hsg : r.sign with
    | accum => exact absurd hsg hr
    | assign =>
      simp only [Sign.text]
      rw [rep2_skip _ _ _ ['='] _ (by decide), hrest]
    | times =>
      simp only [Sign.text]
      rw [rep2_skip _ _ _ ['*'] _ (by decide), hrest]
    | plus =>
      simp only [Sign.text, List.cons_append, List.nil_append]
      conv_rhs => rw [← hrest]
      rw [← List.append_assoc, hdt]
      exact rep2_head _ _ _ _ _ _ hne

/-- The three replacements of single characters at once. -/
def space (s : Text) : Text := s.flatMap fun c => if c = '*' ∨ c = '=' ∨ c = '+' then [' ', c, ' '] else [c]

theorem space_eq (s : Text) : rep1 '+' [' ', '+', ' '] (rep1 '=' [' ', '=', ' '] (rep1 '*' [' ', '*', ' '] s)) = space s := by
  induction s with
  | nil => rfl
  | cons c s ih =>
    unfold rep1 space at *
    simp only [List.flatMap_cons, List.flatMap_append, ih]
    congr 1
    by_cases h1 : c = '*'
    · subst h1; decide
    · by_cases h2 : c = '='
      · subst h2; decide
      · by_cases h3 : c = '+'
        · subst h3; decide
        · simp [h1, h2, h3]

theorem space_append (a b : Text) : space (a ++ b) = space a ++ space b := by
  unfold space; rw [List.flatMap_append]

theorem space_noOps {w : Text} (h : NoOps w) : space w = w := by
  induction w with
  | nil => rfl
  | cons c w ih =>
    obtain ⟨h1, h2, h3⟩ := h c (by simp)
    have := ih (fun d hd => h d (by simp [hd]))
    unfold space at *
    rw [List.flatMap_cons, this]
    simp [h1, h2, h3]

/-! ### Tokens -/

/-- End of a token. -/
def Stop (s : Text) : Prop := s = [] ∨ ∃ c t, s = c :: t ∧ isTok c = false

theorem tokens_word (cur w s : Text) (h : ∀ c ∈ w, isTok c = true) : tokensFrom cur (w ++ s) = tokensFrom (cur ++ w) s := by
  induction w generalizing cur with
  | nil => simp
  | cons c w ih =>
    rw [List.cons_append, tokensFrom, if_pos (h c (by simp)), ih _ (fun d hd => h d (by simp [hd])), List.append_assoc]
    rfl

theorem tokens_stop (cur s : Text) (h : Stop s) : tokensFrom cur s = flush cur ++ tokensFrom [] s := by
  rcases h with rfl | ⟨c, t, rfl, hc⟩
  · simp [tokensFrom, flush]
  · simp [tokensFrom, hc, flush]

theorem tokens_sep (c : Char) (s : Text) (h : isTok c = false) : tokensFrom [] (c :: s) = tokensFrom [] s := by
  simp [tokensFrom, h, flush]

theorem tokens_seps (w s : Text) (h : ∀ c ∈ w, isTok c = false) : tokensFrom [] (w ++ s) = tokensFrom [] s := by
  induction w with
  | nil => rfl
  | cons c w ih => rw [List.cons_append, tokens_sep _ _ (h c (by simp)), ih (fun d hd => h d (by simp [hd]))]

theorem alnum_tok {c : Char} (h : isAlnum c = true) : isTok c = true := by simp [isTok, h]

theorem blank_tok {c : Char} (h : isBlank c = true) : isTok c = false := by
  unfold isBlank at h
  simp only [Bool.or_eq_true, beq_iff_eq] at h
  rcases h with ((rfl | rfl) | rfl) | rfl <;> decide

/-- Tokens of an operand. -/
def Term.toks (t : Term) : List Text := t.name :: t.dims.filter (fun d => decide (d ≠ []))

theorem tokens_dims (ds : List Text) (h : ∀ d ∈ ds, ∀ c ∈ d, isAlnum c) (s : Text) :
    tokensFrom [] (ds.flatMap (fun d => '[' :: (d ++ [']'])) ++ s) = ds.filter (fun d => decide (d ≠ [])) ++ tokensFrom [] s := by
  induction ds with
  | nil => rfl
  | cons d ds ih =>
    have ih' := ih (fun x hx => h x (by simp [hx]))
    rw [List.flatMap_cons, List.append_assoc, List.cons_append, tokens_sep _ _ (by decide), List.append_assoc,
      tokens_word [] d _ (fun c hc => alnum_tok (h d (by simp) c hc)), List.nil_append,
      List.singleton_append, tokens_stop _ _ (.inr ⟨']', _, rfl, by decide⟩), tokens_sep _ _ (by decide), ih']
    unfold flush
    by_cases hd : d = [] <;> simp [hd]

theorem tokens_term (t : Term) (h : t.Plain) (s : Text) (hs : Stop s) : tokensFrom [] (t.text ++ s) = t.toks ++ tokensFrom [] s := by
  unfold Term.text Term.toks
  rw [List.append_assoc, tokens_word _ _ _ (fun c hc => alnum_tok (h.name c hc)), List.nil_append]
  have hstop : Stop (t.dims.flatMap (fun d => '[' :: (d ++ [']'])) ++ s) := by
    cases hd : t.dims with
    | nil => simpa using hs
    | cons d ds => exact .inr ⟨'[', _, rfl, by decide⟩
  rw [tokens_stop _ _ hstop, tokens_dims _ h.dims]
  unfold flush
  simp [h.ne]

/-- The operator token. -/
def Sign.tok : Sign → Text
  | .accum => ['=']
  | .assign => ['=']
  | .times => ['*']
  | .plus => ['+']

theorem space_sign (s : Sign) (h : s ≠ .accum) : space s.text = ' ' :: (s.tok ++ [' ']) := by
  cases s <;> first | exact absurd rfl h | rfl

theorem stop_rest (rs : List Rest) (h : RestOk rs) (hs : ∀ r ∈ rs, r.sign ≠ .accum) (tr : Text) (htr : ∀ c ∈ tr, isBlank c) :
    Stop (space (rs.flatMap Rest.text ++ tr)) := by
  cases rs with
  | nil =>
    rw [List.flatMap_nil, List.nil_append, space_noOps (blank_noOps htr)]
    cases tr with
    | nil => exact .inl rfl
    | cons c t => exact .inr ⟨c, t, rfl, blank_tok (htr c (by simp))⟩
  | cons r rs =>
    obtain ⟨hb, -, -⟩ := h r (by simp)
    rw [List.flatMap_cons]
    simp only [Rest.text, List.append_assoc, space_append, space_noOps (blank_noOps hb), space_sign _ (hs r (by simp))]
    cases hbb : r.before with
    | nil => exact .inr ⟨' ', _, rfl, by decide⟩
    | cons c t => exact .inr ⟨c, _, rfl, blank_tok (hb c (by rw [hbb]; simp))⟩

theorem tokens_rest (rs : List Rest) (h : RestOk rs) (hs : ∀ r ∈ rs, r.sign ≠ .accum) (tr : Text) (htr : ∀ c ∈ tr, isBlank c) :
    tokensFrom [] (space (rs.flatMap Rest.text ++ tr)) = rs.flatMap (fun r => r.sign.tok :: r.term.toks) := by
  induction rs with
  | nil =>
    rw [List.flatMap_nil, List.nil_append, space_noOps (blank_noOps htr)]
    have := tokens_seps tr [] (fun c hc => blank_tok (htr c hc))
    simpa [tokensFrom, flush] using this
  | cons r rs ih =>
    obtain ⟨hb, ha, ht⟩ := h r (by simp)
    have h' : RestOk rs := fun x hx => h x (by simp [hx])
    have hs' : ∀ x ∈ rs, x.sign ≠ .accum := fun x hx => hs x (by simp [hx])
    have ih' := ih h' hs'
    have hstop := stop_rest rs h' hs' tr htr
    rw [List.flatMap_cons, List.flatMap_cons, List.append_assoc, space_append]
    simp only [Rest.text, List.append_assoc, space_append, space_noOps (blank_noOps hb), space_noOps (blank_noOps ha), space_noOps ht.noOps,
      space_sign _ (hs r (by simp))]
    rw [tokens_seps _ _ (fun c hc => blank_tok (hb c hc)), List.cons_append, tokens_sep _ _ (by decide), List.append_assoc]
    have htok : ∀ c ∈ r.sign.tok, isTok c = true := by cases r.sign <;> decide
    rw [tokens_word _ _ _ htok, List.nil_append, List.cons_append, List.nil_append, tokens_stop _ _ (.inr ⟨' ', _, rfl, by decide⟩),
      tokens_sep _ _ (by decide), tokens_seps _ _ (fun c hc => blank_tok (ha c hc)), tokens_term _ ht _ (by rw [← space_append]; exact hstop),
      ← space_append, ih']
    have : flush r.sign.tok = [r.sign.tok] := by cases r.sign <;> rfl
    rw [this]
    simp

theorem parse_text (e : Eqn) (h : e.Plain) : parse e.text = e.out.toks ++ e.rest.flatMap (fun r => r.sign.tok :: r.term.toks) := by
  have ho : e.out.Plain := h.terms _ (by simp [Eqn.terms])
  have hr : RestOk e.rest := fun r hr => ⟨(h.blanks r hr).1, (h.blanks r hr).2, h.terms _ (by simp only [Eqn.terms, List.mem_cons, List.mem_map]; exact .inr ⟨r, hr, rfl⟩)⟩
  have hr' : RestOk (e.rest.map Rest.simple) := by
    intro r hm
    obtain ⟨x, hx, rfl⟩ := List.mem_map.1 hm
    exact hr x hx
  have hs' : ∀ r ∈ e.rest.map Rest.simple, r.sign ≠ .accum := by
    intro r hm
    obtain ⟨x, hx, rfl⟩ := List.mem_map.1 hm
    unfold Rest.simple
    cases x.sign <;> simp [Sign.simple]
  have hplus : ∀ c ∈ e.out.text, c ≠ '+' := fun c hc => (ho.noOps c hc).1
  unfold parse disassembly createEquation
  simp only
  rw [space_eq]
  have h1 : rep2 '+' '=' ['='] e.text = e.out.text ++ ((e.rest.map Rest.simple).flatMap Rest.text ++ e.trailing) := by
    unfold Eqn.text
    rw [List.append_assoc, rep2_skip _ _ _ _ _ hplus, rep2_accum _ hr _ h.trailing]
  rw [h1, rep2_skip _ _ _ _ _ hplus, rep2_double _ hr' hs' _ h.trailing, space_append, space_noOps ho.noOps, tokens_term _ ho _ (stop_rest _ hr' hs' _ h.trailing),
    tokens_rest _ hr' hs' _ h.trailing, List.flatMap_map]
  congr 1
  apply List.flatMap_congr
  intro r _
  unfold Rest.simple
  cases r.sign <;> rfl

/-! ### Operands and dimensions -/

theorem isOp_false {t : Text} (h : ∀ c ∈ t, isAlnum c) : isOp t = false := by
  rw [Bool.eq_false_iff]
  intro hc
  unfold isOp at hc
  simp only [Bool.or_eq_true, beq_iff_eq] at hc
  rcases hc with (rfl | rfl) | rfl
  · exact absurd (h '=' (by simp)) (by decide)
  · exact absurd (h '*' (by simp)) (by decide)
  · exact absurd (h '+' (by simp)) (by decide)

/-- Tokens of the further operands. -/
def flat (items : List (Text × List Text)) : List Text := items.flatMap fun x => x.1 :: x.2

/-- Places after operators. -/
def startsOf (i : Nat) : List (Text × List Text) → List Nat
  | [] => []
  | x :: xs => i :: startsOf (i + x.2.length + 1) xs

theorem opPlaces_append (i : Nat) (a b : List Text) : opPlaces i (a ++ b) = opPlaces i a ++ opPlaces (i + a.length) b := by
  induction a generalizing i with
  | nil => simp [opPlaces]
  | cons t a ih =>
    rw [List.cons_append, opPlaces, opPlaces, ih]
    have : i + 1 + a.length = i + (t :: a).length := by simp; omega
    rw [this]
    split_ifs <;> simp

theorem opPlaces_none (i : Nat) (g : List Text) (h : ∀ t ∈ g, isOp t = false) : opPlaces i g = [] := by
  induction g generalizing i with
  | nil => rfl
  | cons t g ih => rw [opPlaces, if_neg (by simp [h t (by simp)]), ih _ (fun x hx => h x (by simp [hx]))]

theorem opPlaces_flat (items : List (Text × List Text)) (h : ∀ x ∈ items, isOp x.1 = true ∧ ∀ t ∈ x.2, isOp t = false) (n : Nat) :
    (opPlaces n (flat items)).map (· + 1) = startsOf (n + 1) items := by
  induction items generalizing n with
  | nil => rfl
  | cons x items ih =>
    obtain ⟨h1, h2⟩ := h x (by simp)
    have ih' := ih (fun y hy => h y (by simp [hy]))
    have : flat (x :: items) = x.1 :: (x.2 ++ flat items) := by simp [flat]
    rw [this, opPlaces, if_pos h1, opPlaces_append, opPlaces_none _ _ h2, List.nil_append, List.map_cons, ih', startsOf]

theorem starts_eq (g0 : List Text) (items : List (Text × List Text)) (h0 : ∀ t ∈ g0, isOp t = false)
    (h : ∀ x ∈ items, isOp x.1 = true ∧ ∀ t ∈ x.2, isOp t = false) : starts (g0 ++ flat items) = 0 :: startsOf (g0.length + 1) items := by
  unfold starts
  rw [opPlaces_append, opPlaces_none _ _ h0, List.nil_append, opPlaces_flat _ h]
  simp

theorem pick_flat (items : List (Text × List Text)) (hne : ∀ x ∈ items, x.2 ≠ []) (p : List Text) :
    pick (p ++ flat items) (startsOf (p.length + 1) items) = .ok (items.map fun x => x.2.headD []) := by
  induction items generalizing p with
  | nil => rfl
  | cons x items ih =>
    have hx := hne x (by simp)
    have hfl : p ++ flat (x :: items) = (p ++ x.1 :: x.2) ++ flat items := by simp [flat]
    have ih' := ih (fun y hy => hne y (by simp [hy])) (p ++ x.1 :: x.2)
    have hlen : (p ++ x.1 :: x.2).length + 1 = p.length + 1 + x.2.length + 1 := by simp; omega
    rw [hlen] at ih'
    rw [startsOf, pick, hfl]
    obtain ⟨n, ds, hnd⟩ := List.exists_cons_of_ne_nil hx
    have hget : ((p ++ x.1 :: x.2) ++ flat items)[p.length + 1]? = some n := by
      rw [hnd, List.append_assoc, List.getElem?_append_right (by omega)]
      simp
    rw [hget]
    simp only
    rw [ih']
    simp [hnd]

theorem slice_flat (items : List (Text × List Text)) (p g0 : List Text) (hg0 : g0 ≠ []) (hne : ∀ x ∈ items, x.2 ≠ []) (k : Nat) (g : List Text)
    (hk : (g0 :: items.map Prod.snd)[k]? = some g) :
    slice (p ++ g0 ++ flat items)
      ((p.length :: startsOf (p.length + g0.length + 1) items ++ [(p ++ g0 ++ flat items).length + 1]).getD k 0 + 1)
      ((p.length :: startsOf (p.length + g0.length + 1) items ++ [(p ++ g0 ++ flat items).length + 1]).getD (k + 1) 0 - 1) = g.tail := by
  induction items generalizing p g0 k with
  | nil =>
    cases k with
    | zero =>
      simp only [List.getElem?_cons_zero, Option.some.injEq] at hk
      subst hk
      obtain ⟨n, ds, rfl⟩ := List.exists_cons_of_ne_nil hg0
      have hl : p.length + (n :: ds).length + 1 - 1 = (p ++ n :: ds).length := by simp
      simp only [startsOf, slice, flat, List.flatMap_nil, List.append_nil, List.cons_append, List.nil_append, List.getD_cons_zero, List.getD_cons_succ, Nat.add_sub_cancel,
        List.take_length]
      rw [← List.drop_drop, List.drop_left]
      rfl
    | succ k => simp at hk
  | cons x items ih =>
    cases k with
    | zero =>
      simp only [List.getElem?_cons_zero, Option.some.injEq] at hk
      subst hk
      obtain ⟨n, ds, rfl⟩ := List.exists_cons_of_ne_nil hg0
      simp only [startsOf, slice, List.cons_append, List.getD_cons_zero, List.getD_cons_succ, Nat.add_sub_cancel]
      have hl : p.length + (n :: ds).length = (p ++ n :: ds).length := by simp
      rw [hl, List.take_left']
      · rw [← List.drop_drop, List.drop_left]; rfl
      · rfl
    | succ k =>
      have hfl : p ++ g0 ++ flat (x :: items) = (p ++ g0 ++ [x.1]) ++ x.2 ++ flat items := by simp [flat]
      have := ih (p ++ g0 ++ [x.1]) x.2 (hne x (by simp)) (fun y hy => hne y (by simp [hy])) k (by simpa using hk)
      have h1 : (p ++ g0 ++ [x.1]).length = p.length + g0.length + 1 := by simp; omega
      rw [h1] at this
      rw [hfl]
      rw [startsOf]
      simpa [List.getD_cons_succ] using this

end Verif.Equation
