import Verif.Lpf.Model
import Mathlib.Algebra.BigOperators.Group.List.Basic

/-! Vocabulary of the statements about loop prime factors. -/

namespace Verif.Lpf

variable {D : Type} [DecidableEq D]

/-- Contract of `sympy.factorint` for positive arguments: distinct primes, positive multiplicities, product `n`.
The order of the primes is left open. -/
def FactContract (fact : Nat → List (Nat × Nat)) : Prop :=
  ∀ n, 1 ≤ n → ((fact n).map Prod.fst).Nodup ∧ (∀ x ∈ fact n, x.1.Prime ∧ 1 ≤ x.2) ∧
    ((fact n).map (fun x => x.1 ^ x.2)).prod = n

/-- Number of iterations scheduled for dimension `d` by a list of loops. -/
def iterations (loops : List (D × Nat)) (d : D) : Nat := ((loops.filter (fun l => l.1 = d)).map Prod.snd).prod

end Verif.Lpf
