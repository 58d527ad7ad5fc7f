import Verif.TemporalLoops.Model
import Verif.Lpf.Spec

/-! The simulated annealing search: /repo/zigzag/opt/salsa/engine.py, /repo/zigzag/opt/salsa/state.py and
/repo/zigzag/stages/mapping/salsa.py.  The memory allocator and the cost model are one parameter `eval` (an order of loops to a cost or an exception);
the random numbers and `np.exp` are parameters as well; floats are exact rationals. -/

namespace Verif.Salsa

variable {L C : Type}

/-- `SalsaState` (state.py lines 43-77): an order of loops, its evaluation and the value to minimise. -/
structure State (L C : Type) where
  ordering : List L
  cme : C
  crit : ℚ

/-- `SalsaState.__init__` (state.py lines 43-77) -/
def mkState (eval : List L → Except PyErr C) (crit : C → ℚ) (o : List L) : Except PyErr (State L C) :=
  match eval o with
  | .error e => .error e
  | .ok c => .ok ⟨o, c, crit c⟩

/-- state.py lines 82-85: exchange two positions. -/
def swapList (o : List L) (i j : Nat) : Except PyErr (List L) :=
  match o[i]?, o[j]? with
  | some a, some b => .ok ((o.set i b).set j a)
  | _, _ => .error .indexError

/-- `SalsaState.swap` (state.py lines 79-94) -/
def swap (eval : List L → Except PyErr C) (crit : C → ℚ) (s : State L C) (i j : Nat) : Except PyErr (State L C) :=
  match swapList s.ordering i j with
  | .error e => .error e
  | .ok o => mkState eval crit o

/-- The random numbers of one iteration (engine.py lines 137-143). -/
structure Draw where
  i : Nat
  j : Nat
  x : ℚ

/-- What the loop keeps: current and best state (engine.py lines 109-132), and for the statements the list of all states evaluated so far, each with
the information whether it was accepted. -/
structure Run (L C : Type) where
  cur : State L C
  best : State L C
  log : List (State L C × Bool)

/-- One iteration (engine.py lines 133-153).  `randint(0, 0)` raises `ValueError`. -/
def iter (eval : List L → Except PyErr C) (crit : C → ℚ) (ex : ℚ → ℚ) (t0 : ℚ) (it : Nat) (d : Draw) (r : Run L C) : Except PyErr (Run L C) :=
  let temperature := t0 * (995 / 1000 : ℚ) ^ it
  if r.cur.ordering.length = 0 then .error .valueError
  else
    match swap eval crit r.cur d.i d.j with
    | .error e => .error e
    | .ok next =>
      if next.crit = 0 ∨ temperature = 0 then .error .zeroDivision
      else if d.x < ex ((r.cur.crit / next.crit - 1) / temperature) then
        .ok { cur := next, best := if next.crit < r.best.crit then next else r.best, log := r.log ++ [(next, true)] }
      else .ok { r with log := r.log ++ [(next, false)] }

/-- The `for` loop (engine.py line 133) from iteration `it` on; one draw for each iteration. -/
def loop (eval : List L → Except PyErr C) (crit : C → ℚ) (ex : ℚ → ℚ) (t0 : ℚ) : Nat → List Draw → Run L C → Except PyErr (Run L C)
  | _, [], r => .ok r
  | it, d :: ds, r =>
    match iter eval crit ex t0 it d r with
    | .error e => .error e
    | .ok r' => loop eval crit ex t0 (it + 1) ds r'

/-- `run_simulated_annealing_opt` (engine.py lines 100-155): `shuffle` is `random.shuffle`. -/
def anneal (eval : List L → Except PyErr C) (crit : C → ℚ) (ex : ℚ → ℚ) (t0 : ℚ) (shuffle : List L → List L) (lpfs : List L) (draws : List Draw) :
    Except PyErr (Run L C) :=
  match mkState eval crit (shuffle lpfs) with
  | .error e => .error e
  | .ok s => loop eval crit ex t0 0 draws ⟨s, s, [(s, true)]⟩

variable {D : Type} [DecidableEq D]

/-- `get_prime_factors` (engine.py lines 188-216): the list of prime factors of all temporal loops. -/
def primeFactors (fact : Nat → List (Nat × Nat)) (sizes : Dict D Int) : List (D × Nat) :=
  sizes.flatMap fun p => (fact p.2.toNat).flatMap fun x => List.replicate x.2 (p.1, x.1)

/-- `SalsaEngine.run` (engine.py lines 92-98) -/
def run (fact : Nat → List (Nat × Nat)) (eval : List (D × Nat) → Except PyErr C) (crit : C → ℚ) (ex : ℚ → ℚ) (t0 : ℚ)
    (shuffle : List (D × Nat) → List (D × Nat)) (sizes : Dict D Int) (spatial : List (D × Rat)) (draws : List Draw) :
    Except PyErr (Run (D × Nat) C) :=
  match TemporalLoops.salsaTemporalLoops sizes spatial with
  | .error e => .error e
  | .ok loops => anneal eval crit ex t0 shuffle (primeFactors fact loops) draws

/-! ### The stage with its worker processes (/repo/zigzag/stages/mapping/salsa.py) -/

/-- `compare_cme_energy` and `compare_cme_latency` (salsa.py lines 137-156): `a` is the compared value, `b` breaks ties. -/
def better (a b : C → ℚ) (best : Option C) (c : C) : C :=
  match best with
  | none => c
  | some m => if a c = a m ∧ b c < b m then c else if a c < a m then c else m

/-- State of the stage: workers still computing (`none` for one that is going to raise), the queue, the answers taken and the best one. -/
structure Stage (C : Type) where
  workers : List (Option C)
  queue : List C
  taken : Nat
  best : Option C

/-- One step of a worker or of the main process, in any interleaving (salsa.py lines 108-119). `n` is the number of workers. -/
inductive Step (a b : C → ℚ) (n : Nat) : Stage C → Stage C → Prop
  /-- a worker puts its result in the queue (engine.py line 155) and ends -/
  | put (s : Stage C) (c : C) (pre post : List (Option C)) (h : s.workers = pre ++ some c :: post) :
      Step a b n s { s with workers := pre ++ post, queue := s.queue ++ [c] }
  /-- a worker ends with an exception; nothing is put in the queue -/
  | die (s : Stage C) (pre post : List (Option C)) (h : s.workers = pre ++ none :: post) : Step a b n s { s with workers := pre ++ post }
  /-- the main process takes an answer (lines 117-119); without one it waits -/
  | get (s : Stage C) (c : C) (q : List C) (hc : s.taken < n) (hq : s.queue = c :: q) :
      Step a b n s { s with queue := q, taken := s.taken + 1, best := some (better a b s.best c) }

/-- Reachable states. -/
inductive Reach (a b : C → ℚ) (n : Nat) (s0 : Stage C) : Stage C → Prop
  | init : Reach a b n s0 s0
  | step {s s' : Stage C} : Reach a b n s0 s → Step a b n s s' → Reach a b n s0 s'

/-- All workers started (lines 106-114). -/
def startStage (workers : List (Option C)) : Stage C := ⟨workers, [], 0, none⟩

/-- The main process has all the answers it waits for (line 117). -/
def Stage.done (n : Nat) (s : Stage C) : Prop := s.taken = n

end Verif.Salsa
