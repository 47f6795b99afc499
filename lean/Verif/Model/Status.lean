import Verif.Model.Hook
/-!
`LazyReporter` (`src/evotorch/algorithms/searchalgorithm.py:34-182`).

The reporter belongs to an object whose state is `W`. A getter reads `W` and possibly other status values of the same reporter (as `pop_best_eval` reads
`pop_best`, `searchalgorithm.py:529-541`); it has no effect of its own. Which getter was called, and when, is recorded in `log`.
-/
namespace EvoTorch.Status
open EvoTorch.Hook (Dict dictSet dictUpdate dictGet)

/-- A getter: the status keys it reads, and its value given `W` and those values. -/
structure Getter (W K V : Type) where
  deps : List K
  fn : W → List V → V

/-- `searchalgorithm.py:106-107`, with the state of the object that is reported on, and the record of getter calls. -/
structure Reporter (W K V : Type) where
  world : W
  getters : Dict K (Getter W K V)
  computed : Dict K V
  log : List K

variable {W K V : Type} [DecidableEq K]

/-- `get_status_value`, `searchalgorithm.py:109-118`. A getter that (indirectly) reads its own key would recurse without end; recursion is
bounded by fuel. -/
def get : Nat → Reporter W K V → K → Reporter W K V × Except PyErr V
  | 0, r, _ => (r, .error .recursionError)
  | fuel + 1, r, k =>
    match dictGet r.computed k with
    | some v => (r, .ok v)
    | none => match dictGet r.getters k with
      | none => (r, .error .keyError)
      | some g =>
        let t := g.deps.foldl (fun (acc : Reporter W K V × Except PyErr (List V)) d =>
          match acc.2 with
          | .error e => (acc.1, .error e)
          | .ok vs => match get fuel acc.1 d with
            | (r', .ok v) => (r', .ok (vs ++ [v]))
            | (r', .error e) => (r', .error e)) (r, .ok [])
        match t.2 with
        | .error e => (t.1, .error e)
        | .ok vs =>
          let v := g.fn t.1.world vs
          ({ t.1 with computed := dictSet t.1.computed k v, log := t.1.log ++ [k] }, .ok v)

/-- `clear_status`, `searchalgorithm.py:137-139`. -/
def clear (r : Reporter W K V) : Reporter W K V := { r with computed := [] }

/-- `update_status`, `searchalgorithm.py:153-165`; `missing` is the value of `_missing_status_producer`, None. -/
def update (missing : V) (e : Dict K V) (r : Reporter W K V) : Reporter W K V :=
  e.foldl (fun r kv =>
    { r with
      getters := if (dictGet r.getters kv.1).isNone then dictSet r.getters kv.1 ⟨[], fun _ _ => missing⟩ else r.getters
      computed := dictSet r.computed kv.1 kv.2 }) r

/-- `add_status_getters`, `searchalgorithm.py:167-177`. -/
def addGetters (gs : Dict K (Getter W K V)) (r : Reporter W K V) : Reporter W K V := { r with getters := dictUpdate r.getters gs }

/-- What can happen to a reporter. -/
inductive Op (W K V : Type) where
  | read (k : K)
  | change (f : W → W)
  | clear
  | update (e : Dict K V)
  | addGetters (gs : Dict K (Getter W K V))

/-- One operation; a read gives a value or an exception. -/
def apply (fuel : Nat) (missing : V) (r : Reporter W K V) : Op W K V → Reporter W K V × Option (Except PyErr V)
  | .read k => let t := get fuel r k; (t.1, some t.2)
  | .change f => ({ r with world := f r.world }, none)
  | .clear => (clear r, none)
  | .update e => (update missing e r, none)
  | .addGetters gs => (addGetters gs r, none)

/-- A history of operations, with what the reads gave. -/
def runOps (fuel : Nat) (missing : V) : Reporter W K V → List (Op W K V) → Reporter W K V × List (Except PyErr V)
  | r, [] => (r, [])
  | r, op :: ops =>
    let t := apply fuel missing r op
    let u := runOps fuel missing t.1 ops
    (u.1, t.2.toList ++ u.2)

/-- `SearchAlgorithm.step`, `searchalgorithm.py:380-397`, as far as the status is concerned: what the before-step hook, the algorithm's `_step` and the
after-step hook do to the reporter are arbitrary histories (without clearing it); `iter`, the problem's status and the after-step hook's result are written into
the status in this order; at last the log hook reads. -/
def stepOps (beforeHook core afterHook logHook : List (Op W K V)) (iter problemStatus extra : Dict K V) : List (Op W K V) :=
  beforeHook ++ [.clear] ++ core ++ [.update iter, .update problemStatus] ++ afterHook ++ [.update extra] ++ logHook

end EvoTorch.Status
