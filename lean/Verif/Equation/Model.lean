import Verif.Base.Dict

/-!
Model of the text of layer equations: `LayerNodeFactory.create_equation` (/repo/zigzag/parser/workload_factory.py:114-121) and `LayerEquation`
(/repo/zigzag/workload/layer_attributes.py:30-59).

Texts are lists of characters.  Simplification: `\w` and `upper` are those of the ASCII characters.
-/

namespace Verif.Equation

abbrev Text := List Char

/-- `s.replace(c, r)` for a pattern of one character. -/
def rep1 (c : Char) (r : Text) (s : Text) : Text := s.flatMap fun x => if x = c then r else [x]

/-- `s.replace(xy, r)` for a pattern of two characters: matches are searched from left to right and do not overlap. -/
def rep2 (x y : Char) (r : Text) : Text → Text
  | [] => []
  | [c] => [c]
  | c :: d :: t => if c = x ∧ d = y then r ++ rep2 x y r t else c :: rep2 x y r (d :: t)

/-- `LayerNodeFactory.create_equation` (workload_factory.py:114-121). -/
def createEquation (s : Text) : Text :=
  let s := rep2 '+' '=' ['='] s
  let s := rep2 '+' '+' ['+'] s
  let s := rep1 '*' [' ', '*', ' '] s
  let s := rep1 '=' [' ', '=', ' '] s
  rep1 '+' [' ', '+', ' '] s

/-- Letters and digits. -/
def isAlnum (c : Char) : Bool := c.isAlphanum

/-- The character class `[a-zA-Z,0-9,=,*,+]` (layer_attributes.py:40); the commas belong to the class. -/
def isTok (c : Char) : Bool := isAlnum c || c == ',' || c == '=' || c == '*' || c == '+'

/-- Adds the run of token characters read so far to the result. -/
def flush (cur : Text) : List Text := if cur = [] then [] else [cur]

/-- Maximal runs of token characters; `cur` is the run read so far. -/
def tokensFrom (cur : Text) : Text → List Text
  | [] => flush cur
  | c :: t => if isTok c then tokensFrom (cur ++ [c]) t else flush cur ++ tokensFrom [] t

/-- `re.findall("[a-zA-Z,0-9,=,*,+]+", data)` (layer_attributes.py:38-40). -/
def disassembly (s : Text) : List Text := tokensFrom [] s

/-- `x in ["=", "*", "+"]` -/
def isOp (t : Text) : Bool := t == ['='] || t == ['*'] || t == ['+']

/-- Places of the operators, counted from `i`. -/
def opPlaces (i : Nat) : List Text → List Nat
  | [] => []
  | t :: ts => if isOp t then i :: opPlaces (i + 1) ts else opPlaces (i + 1) ts

/-- `__get_operand_start_indices` (layer_attributes.py:42-44). -/
def starts (d : List Text) : List Nat := 0 :: (opPlaces 0 d).map (· + 1)

/-- `[self.disassembly[idx] for idx in ...]` -/
def pick (d : List Text) : List Nat → Except PyErr (List Text)
  | [] => .ok []
  | i :: is =>
    match d[i]? with
    | none => .error .indexError
    | some t =>
      match pick d is with
      | .error e => .error e
      | .ok ts => .ok (t :: ts)

/-- `LayerEquation.get_contained_operands` (layer_attributes.py:46-48). -/
def operands (d : List Text) : Except PyErr (List Text) := pick d (starts d)

/-- `x.upper()` -/
def upper (t : Text) : Text := t.map Char.toUpper

/-- `l[i:j]` for `i ≥ 0` and an end `j` that may be `-1` only for an empty slice at the start; written with natural numbers. -/
def slice {α : Type} (l : List α) (i j : Nat) : List α := (l.take j).drop i

/-- `LayerEquation.get_r_layer_dims` (layer_attributes.py:50-59). -/
def rDims (d : List Text) (op : Text) : Except PyErr (List Text) :=
  match operands d with
  | .error e => .error e
  | .ok ops =>
    if op ∈ ops then
      let k := ops.idxOf op
      let sl := starts d ++ [d.length + 1]
      .ok ((slice d (sl.getD k 0 + 1) (sl.getD (k + 1) 0 - 1)).map upper)
    else .error .assertion

/-- The equation object created from the text of the user. -/
def parse (s : Text) : List Text := disassembly (createEquation s)

end Verif.Equation
