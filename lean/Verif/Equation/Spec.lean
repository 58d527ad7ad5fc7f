import Verif.Equation.Model

/-! What a written equation means: a grammar of texts, and the regular expression of the validator as a set of texts. -/

namespace Verif.Equation

/-- A written operand, e.g. `W[k][c]`. -/
structure Term where
  name : Text
  dims : List Text

/-- The text of the operand. -/
def Term.text (t : Term) : Text := t.name ++ t.dims.flatMap fun d => '[' :: (d ++ [']'])

/-- Operators; `accum` is `+=`. -/
inductive Sign where
  | accum | assign | times | plus
  deriving DecidableEq

def Sign.text : Sign → Text
  | .accum => ['+', '=']
  | .assign => ['=']
  | .times => ['*']
  | .plus => ['+']

/-- An operand with its preceding operator and the blanks around both. -/
structure Rest where
  before : Text
  sign : Sign
  after : Text
  term : Term

def Rest.text (r : Rest) : Text := r.before ++ r.sign.text ++ r.after ++ r.term.text

/-- A written equation. -/
structure Eqn where
  out : Term
  rest : List Rest
  trailing : Text

def Eqn.text (e : Eqn) : Text := e.out.text ++ e.rest.flatMap Rest.text ++ e.trailing

/-- The operands as written. -/
def Eqn.terms (e : Eqn) : List Term := e.out :: e.rest.map Rest.term

/-- `\s` -/
def isBlank (c : Char) : Bool := c == ' ' || c == '\t' || c == '\n' || c == '\r'

/-- `\w` -/
def isWord (c : Char) : Bool := isAlnum c || c == '_'

/-- Names are words of letters and digits, dimensions too, but they may be missing in brackets. -/
structure Term.Plain (t : Term) : Prop where
  ne : t.name ≠ []
  name : ∀ c ∈ t.name, isAlnum c
  dims : ∀ d ∈ t.dims, ∀ c ∈ d, isAlnum c

/-- Equations over words of letters and digits. -/
structure Eqn.Plain (e : Eqn) : Prop where
  terms : ∀ t ∈ e.terms, t.Plain
  blanks : ∀ r ∈ e.rest, (∀ c ∈ r.before, isBlank c) ∧ (∀ c ∈ r.after, isBlank c)
  trailing : ∀ c ∈ e.trailing, isBlank c

/-- The texts that match `EQUATION_REGEX` (/repo/zigzag/parser/workload_validator.py:13):
`^O(\[\w+\])+\s*\+?\s*=\s*\w(\[\w+\])+\s*[*+]\s*\w(\[(?:\w+)?\])+\s*$` -/
def Accepted (s : Text) : Prop :=
  ∃ (od : List Text) (w1 : Text) (acc : Bool) (w2 w3 : Text) (a : Char) (ad : List Text) (w4 : Text) (op : Char) (w5 : Text) (b : Char) (bd : List Text) (w6 : Text),
    s = (⟨['O'], od⟩ : Term).text ++ w1 ++ (if acc then ['+'] else []) ++ w2 ++ ['='] ++ w3 ++ (⟨[a], ad⟩ : Term).text ++ w4 ++ [op] ++ w5 ++ (⟨[b], bd⟩ : Term).text ++ w6 ∧
    od ≠ [] ∧ ad ≠ [] ∧ bd ≠ [] ∧ (∀ d ∈ od ++ ad, d ≠ [] ∧ ∀ c ∈ d, isWord c) ∧ (∀ d ∈ bd, ∀ c ∈ d, isWord c) ∧ isWord a ∧ isWord b ∧ (op = '*' ∨ op = '+') ∧
    ∀ c ∈ w1 ++ w2 ++ w3 ++ w4 ++ w5 ++ w6, isBlank c

end Verif.Equation
