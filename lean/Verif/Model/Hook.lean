import Verif.Model.Base
/-!
`Hook` (`src/evotorch/tools/hook.py`).

A registered function is modelled by its effect on an arbitrary state `W` and what it returns or raises, given the arguments it is called with. Besides `W`, the
model keeps a record of the calls made. Functions are fixed while a hook is being called.
-/
namespace EvoTorch.Hook

/-- Python dictionaries: association lists in insertion order. -/
abbrev Dict (K V : Type) := List (K × V)

section
variable {K V : Type} [DecidableEq K]

/-- `d[k] = v`: an existing key keeps its place. -/
def dictSet (d : Dict K V) (k : K) (v : V) : Dict K V :=
  match d with
  | [] => [(k, v)]
  | (k', v') :: d => if k' = k then (k', v) :: d else (k', v') :: dictSet d k v

/-- `d.update(e)`. -/
def dictUpdate (d e : Dict K V) : Dict K V := e.foldl (fun d kv => dictSet d kv.1 kv.2) d

/-- `d.get(k)`. -/
def dictGet (d : Dict K V) (k : K) : Option V := (d.find? fun kv => decide (kv.1 = k)).map (·.2)
end

/-- What a registered function can return. -/
inductive Ret (K V : Type) where
  | none
  | mapping (d : Dict K V)
  | iterable (l : List V)
  | other
deriving Repr

/-- What a hook accumulates. -/
inductive Acc (K V : Type) where
  | none
  | dict (d : Dict K V)
  | list (l : List V)
deriving DecidableEq, Repr

/-- A registered function: positional and keyword arguments, state before; state after, and result. -/
abbrev Fn (W K V : Type) := List V → Dict K V → W → W × Except PyErr (Ret K V)

/-- `hook.py:58-60`. -/
structure Hook (W K V : Type) where
  funcs : List (Fn W K V)
  args : List V
  kwargs : Dict K V

/-- A call that was made: position of the function in the hook, and its arguments. -/
structure Call (K V : Type) where
  index : Nat
  args : List V
  kwargs : Dict K V
deriving DecidableEq, Repr

variable {W K V : Type} [DecidableEq K]

/-- `hook.py:87-118`: one returned value is accumulated. -/
def accumulate (acc : Acc K V) (r : Ret K V) : Except PyErr (Acc K V) :=
  match r, acc with
  | .none, acc => .ok acc
  | .mapping d, .none => .ok (.dict d)
  | .mapping _, .list _ => .error .typeError
  | .mapping d, .dict e => .ok (.dict (dictUpdate e d))
  | .iterable l, .none => .ok (.list l)
  | .iterable l, .list m => .ok (.list (m ++ l))
  | .iterable _, .dict _ => .error .typeError
  | .other, _ => .error .typeError

/-- The state around a hook call: `W` and the calls made so far. -/
structure St (W K V : Type) where
  world : W
  calls : List (Call K V)

/-- `hook.py:85-120`: the loop over the functions, from position `i`. -/
def loop (args : List V) (kwargs : Dict K V) : List (Fn W K V) → Nat → Acc K V → St W K V → St W K V × Except PyErr (Acc K V)
  | [], _, acc, s => (s, .ok acc)
  | f :: fs, i, acc, s =>
    let r := f args kwargs s.world
    let s' : St W K V := ⟨r.1, s.calls ++ [⟨i, args, kwargs⟩]⟩
    match r.2 with
    | .error e => (s', .error e)
    | .ok ret => match accumulate acc ret with
      | .error e => (s', .error e)
      | .ok acc' => loop args kwargs fs (i + 1) acc' s'

/-- `Hook.__call__`, `hook.py:62-120`. -/
def call (h : Hook W K V) (args : List V) (kwargs : Dict K V) (w : W) : St W K V × Except PyErr (Acc K V) :=
  loop (h.args ++ args) (dictUpdate h.kwargs kwargs) h.funcs 0 .none ⟨w, []⟩

/-- `Hook.accumulate_dict`, `hook.py:122-135`. -/
def accumulateDict (h : Hook W K V) (args : List V) (kwargs : Dict K V) (w : W) : St W K V × Except PyErr (Dict K V) :=
  let r := call h args kwargs w
  (r.1, match r.2 with
    | .error e => .error e
    | .ok .none => .ok []
    | .ok (.dict d) => .ok d
    | .ok (.list _) => .error .typeError)

/-- `Hook.accumulate_sequence`, `hook.py:137-150`. -/
def accumulateSequence (h : Hook W K V) (args : List V) (kwargs : Dict K V) (w : W) : St W K V × Except PyErr (List V) :=
  let r := call h args kwargs w
  (r.1, match r.2 with
    | .error e => .error e
    | .ok .none => .ok []
    | .ok (.dict _) => .error .typeError
    | .ok (.list l) => .ok l)

end EvoTorch.Hook
