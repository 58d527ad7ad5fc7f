import Verif.Base.Dict
import Mathlib.Data.Nat.Factorial.Basic
import Mathlib.Data.Nat.Prime.Defs

/-!
Model of the loop-prime-factor bookkeeping of `/repo/zigzag/opt/loma/engine.py:159-349`.

Simplifications:
* the three parallel dictionaries `temporal_loop_pfs`, `temporal_loop_pf_counts`, `temporal_loop_pf_count_sums`
  always have the same keys (they are only ever updated together), so they are one dictionary of entries; the two parallel
  tuples of an entry are one list of pairs `(pf, count)`;
* `sympy.factorint` is a parameter `fact`; its contract is `FactContract` in `Verif/Lpf/Spec.lean`;
* the constraint list is reduced to the data used here: the `(dim, size)` values of the (first/last)
  `StaticPositionsAndSizesConstraint` (`get_constraints` creates at most one of them).
-/

namespace Verif.Lpf

variable {D : Type} [DecidableEq D]

/-- Entry of one layer dimension: `pfs`/`counts` zipped, and the `count_sums` value. -/
structure Ent where
  fac : List (Nat × Int)
  sum : Int
  deriving DecidableEq, Repr

/-- `python list * count` -/
def rep {α : Type} (c : Int) (x : α) : List α := List.replicate c.toNat x

/-- The `lpfs` list built at engine.py:192-193 / 265-269 / 342-346. -/
def lpfsOf (st : Dict D Ent) : List (D × Nat) :=
  st.flatMap (fun p => p.2.fac.flatMap (fun fc => rep fc.2 (p.1, fc.1)))

/-- engine.py:181-205 without the calls of `limit_lpfs` and `compute_nb_permutations`:
the factor table of all temporal loops; if there is no factor at all a single loop of size one on the first layer
dimension (`layer_dims[0]`, `IndexError` when the layer has no dimension). -/
def primeTable (fact : Nat → List (Nat × Nat)) (layerDims : List D) (sizes : Dict D Nat) : Except PyErr (Dict D Ent) :=
  let st : Dict D Ent := sizes.map (fun p =>
    (p.1, { fac := (fact p.2).map (fun x => (x.1, (x.2 : Int))), sum := (((fact p.2).map Prod.snd).sum : Nat) }))
  if lpfsOf st = [] then
    match layerDims with
    | [] => .error .indexError
    | d :: _ => .ok [(d, { fac := [(1, 1)], sum := 1 })]
  else .ok st

/-- engine.py:159-168 -/
def updateMinLimit (limit : Option Nat) (nLoops : Nat) : Option Nat :=
  match limit with
  | none => none
  | some l => if l < nLoops then some nLoops else some l

/-- `counts[idx] += δ` -/
def bump (fac : List (Nat × Int)) (idx : Nat) (δ : Int) : List (Nat × Int) :=
  fac.modify idx (fun x => (x.1, x.2 + δ))

/-- `tuple.index(factor)`: `none` is `ValueError`. -/
def indexOf? (fac : List (Nat × Int)) (f : Nat) : Option Nat :=
  let i := fac.findIdx (fun x => x.1 == f)
  if i < fac.length then some i else none

/-- One pass of the inner loop engine.py:244-260 for one prime factor of a static size. -/
def reduceOne (size : Nat) (e : Ent) (fm : Nat × Nat) : Except PyErr Ent :=
  match indexOf? e.fac fm.1 with
  | none => .error .valueError
  | some idx =>
    match e.fac[idx]? with
    | none => .error .indexError
    | some (_, c) =>
      if (fm.2 : Int) ≤ c then
        let f1 := bump e.fac idx (-(fm.2 : Int))
        let f2 := if size ∈ f1.map Prod.fst then bump f1 idx 1 else f1 ++ [(size, 1)]
        .ok { fac := f2, sum := e.sum - ((fm.2 : Int) - 1) }
      else .ok e

/-- engine.py:244-260: all prime factors of one static size. -/
def reduceFactors (size : Nat) : Ent → List (Nat × Nat) → Except PyErr Ent
  | e, [] => .ok e
  | e, fm :: fms => match reduceOne size e fm with
    | .error err => .error err
    | .ok e' => reduceFactors size e' fms

/-- `reduce_static_fps`, engine.py:232-269 (the rebuild of `lpfs` is `lpfsOf`). -/
def reduceStatic (fact : Nat → List (Nat × Nat)) : Dict D Ent → List (D × Nat) → Except PyErr (Dict D Ent)
  | st, [] => .ok st
  | st, (d, size) :: rest =>
    match fact size with
    | [] => reduceStatic fact st rest
    | fms => match st.get? d with
      | none => .error .keyError
      | some e => match reduceFactors size e fms with
        | .error err => .error err
        | .ok e' => reduceStatic fact (st.set d e') rest

/-- engine.py:279-292, the `for` loop of `find_smallest_non_static_pf`; `first` is `Some smallvalue` once
`already_first`. Returns the pair of the `return` statement inside the loop, or the final `smallvalue`. -/
def findLoop (statics : List Nat) : List (Nat × Int) → Nat → Option Nat → (Nat × Nat) ⊕ Nat
  | [], _, first => .inr (first.getD 0)
  | (pf, c) :: rest, i, first =>
    if pf ∉ statics ∨ (statics.count pf : Int) < c then
      match first with
      | some s => .inl (s, i)
      | none => if (statics.count pf : Int) + 1 < c then .inl (i, i) else findLoop statics rest (i + 1) (some i)
    else findLoop statics rest (i + 1) first

/-- `find_smallest_non_static_pf`, engine.py:271-293. The index `len - 1` is `-1` (the last element) for an empty
tuple; subscripting an empty list raises in the caller in both cases. -/
def findSmallest (statics : List Nat) (fac : List (Nat × Int)) : Nat × Nat :=
  match findLoop statics fac 0 none with
  | .inl p => p
  | .inr s => (s, fac.length - 1)

/-- `max(d.items(), key=itemgetter(1))[0]`: the first key with maximal count sum; `none` is `ValueError`. -/
def maxDim (st : Dict D Ent) : Option (D × Ent) :=
  st.foldl (fun best p => match best with
    | none => some p
    | some b => if b.2.sum < p.2.sum then some p else some b) none

/-- engine.py:316-331: merging two factors of one dimension. -/
def mergeFac (statics : List Nat) (fac : List (Nat × Int)) : Except PyErr (List (Nat × Int)) :=
  let ij := findSmallest statics fac
  match fac[ij.1]?, fac[ij.2]? with
  | some (p, _), some (q, _) =>
    let nf := p * q
    let f1 := bump (bump fac ij.1 (-1)) ij.2 (-1)
    let f2 := match indexOf? f1 nf with
      | some k => bump f1 k 1
      | none => f1.insertIdx (f1.filter (fun x : Nat × Int => x.1 < nf)).length (nf, 1)
    .ok (f2.filter (fun x => x.2 ≠ 0))
  | _, _ => .error .indexError

/-- One iteration of the `while` loop, engine.py:307-339. -/
def limitStep (statics : List (D × Nat)) (st : Dict D Ent) : Except PyErr (Dict D Ent) :=
  match maxDim st with
  | none => .error .valueError
  | some (d, e) =>
    match mergeFac ((statics.filter (fun s => s.1 = d)).map Prod.snd) e.fac with
    | .error err => .error err
    | .ok fac => .ok (st.set d { fac := fac, sum := e.sum - 1 })

/-- The `while n_pf > limit` loop: `n_pf` decreases by one per iteration, so it runs `n_pf - limit` times. -/
def limitLoop (statics : List (D × Nat)) : Nat → Dict D Ent → Except PyErr (Dict D Ent)
  | 0, st => .ok st
  | n + 1, st => match limitStep statics st with
    | .error err => .error err
    | .ok st' => limitLoop statics n st'

/-- `sum(self.temporal_loop_pf_count_sums.values())` -/
def nPf (st : Dict D Ent) : Int := (st.map (fun p => p.2.sum)).sum

/-- `limit_lpfs`, engine.py:295-349. `statics = none`: `has_constraints` is false; `some l`: the values of the static
constraint (empty when there is none). -/
def limitLpfs (fact : Nat → List (Nat × Nat)) (statics : Option (List (D × Nat))) (limit : Option Nat)
    (st : Dict D Ent) : Except PyErr (Dict D Ent) :=
  let st1 : Except PyErr (Dict D Ent) := match statics with
    | none => .ok st
    | some l => reduceStatic fact st l
  match st1 with
  | .error err => .error err
  | .ok st1 => match limit with
    | none => .ok st1
    | some l => if nPf st1 ≤ l then .ok st1 else limitLoop (statics.getD []) (nPf st1 - l).toNat st1

/-- `compute_nb_permutations`, engine.py:220-226, with exact integer division. -/
def nbPermutations (st : Dict D Ent) : Nat :=
  (st.flatMap (fun p => p.2.fac.map (fun x => x.2.toNat))).foldl (fun n c => n / c.factorial)
    (nPf st).toNat.factorial

/-- `get_prime_factors` engine.py:170-218 preceded by `update_min_lpf_factor` (run, lines 93-94). -/
def getPrimeFactors (fact : Nat → List (Nat × Nat)) (layerDims : List D) (sizes : Dict D Nat)
    (statics : Option (List (D × Nat))) (limit : Option Nat) : Except PyErr (Dict D Ent) :=
  match primeTable fact layerDims sizes with
  | .error err => .error err
  | .ok st => limitLpfs fact statics (updateMinLimit limit sizes.length) st

end Verif.Lpf
