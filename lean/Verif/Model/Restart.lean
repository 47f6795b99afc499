import Verif.Model.Flt
import Mathlib.Algebra.Order.Floor.Ring
import Mathlib.Algebra.Order.Field.Basic
import Mathlib.Tactic.Common
/-!
`Restart` (`src/evotorch/algorithms/restarter/restart.py`) and `IPOP` (`restarter/modify_restart.py`).

The inner search algorithm is arbitrary: its arguments `P`, its state `S`, how it is built, stepped, and when it says that it is terminated. Building and stepping
are taken to succeed.
-/
namespace EvoTorch.Restart

/-- The algorithm class. -/
structure AlgClass (P S : Type) where
  build : P → S
  step : S → S
  terminated : S → Bool

/-- `restart.py:45-48`; `builds` records the arguments with which algorithms were built. -/
structure St (P S : Type) where
  args : P
  numRestarts : Nat
  algorithm : Option S
  builds : List P

variable {P S : Type}

/-- `Restart._restart`, `restart.py:59-62`, preceded by `_modify_algorithm_args` (`modify_restart.py:28-31`), which for plain `Restart` does nothing. -/
def restart (c : AlgClass P S) (modify : St P S → P) (s : St P S) : St P S :=
  let args := modify s
  { args := args, numRestarts := s.numRestarts + 1, algorithm := some (c.build args), builds := s.builds ++ [args] }

/-- `Restart.__init__`, `restart.py:45-49`. -/
def init (c : AlgClass P S) (modify : St P S → P) (args : P) : St P S := restart c modify ⟨args, 0, none, []⟩

/-- `Restart._step`, `restart.py:68-74`, with the test for termination `detect`; also says whether termination was detected. -/
def step (c : AlgClass P S) (modify : St P S → P) (detect : S → Bool) (s : St P S) : St P S × Bool :=
  match s.algorithm with
  | none => (s, false)
  | some a =>
    let a' := c.step a
    let s' := { s with algorithm := some a' }
    if detect a' then (restart c modify s', true) else (s', false)

/-- `n` steps, with the answers of the test. -/
def steps (c : AlgClass P S) (modify : St P S → P) (detect : S → Bool) : Nat → St P S → St P S × List Bool
  | 0, s => (s, [])
  | n + 1, s => let t := step c modify detect s
    let u := steps c modify detect n t.1
    (u.1, t.2 :: u.2)

/-- Plain `Restart`: arguments are not modified; the algorithm's own termination is asked (`restart.py:64-66`). -/
def plainModify (s : St P S) : P := s.args

/-! ### IPOP -/

section
variable {K : Type} [Field K] [LinearOrder K] [FloorRing K]

/-- `int(x)`: truncation towards zero. -/
def trunc (x : K) : Int := if 0 ≤ x then ⌊x⌋ else ⌈x⌉

/-- What IPOP needs of the algorithm and its arguments: the length of the population, the standard deviation of its evaluation results, and setting `popsize`. -/
structure IpopConfig (K P S : Type) where
  popLen : S → Nat
  std : S → Flt K
  setPopsize : P → Int → P
  minStdev : Flt K
  multiplier : K

/-- `IPOP._modify_algorithm_args`, `modify_restart.py:66-72`. -/
def ipopModify (i : IpopConfig K P S) (s : St P S) : P :=
  if s.numRestarts ≥ 1 then
    match s.algorithm with
    | some a => i.setPopsize s.args (trunc (i.multiplier * (i.popLen a : K)))
    | none => s.args
  else s.args

/-- `IPOP._search_algorithm_terminated`, `modify_restart.py:60-64`. -/
def ipopDetect (c : AlgClass P S) (i : IpopConfig K P S) (a : S) : Bool :=
  if Flt.lt (i.std a) i.minStdev then true else c.terminated a
end

end EvoTorch.Restart
