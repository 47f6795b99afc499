import Verif.Model.Hook
import Verif.Model.ObjectArray
/-!
`Hook` as a mutable sequence (`src/evotorch/tools/hook.py`), and calling a hook whose functions change it.

`Hook` defines `__getitem__`, `__setitem__`, `__delitem__`, `insert` and `__len__`; the other methods of a sequence come from `collections.abc.MutableSequence`, whose Python code is modelled here.
Functions are compared with `==`. Slices have a positive step; positions are those of `Verif.Model.ObjectArray`.
-/
namespace EvoTorch.HookList
open EvoTorch
open EvoTorch.ObjectArray (normIndex slicePositions clampBound)

variable {F : Type}

/-- `self._funcs[i]` (hook.py 174-175). -/
def getInt (l : List F) (i : Int) : Except PyErr F :=
  match normIndex l.length i with
  | none => .error .indexError
  | some p => match l[p]? with
    | none => .error .indexError
    | some f => .ok f

/-- `self._funcs[i] = x` (hook.py 177-178). -/
def setInt (l : List F) (i : Int) (x : F) : Outcome (List F) Unit :=
  match normIndex l.length i with
  | none => ⟨l, .error .indexError⟩
  | some p => ⟨l.set p x, .ok ()⟩

/-- `del self._funcs[i]` (hook.py 180-181). -/
def delInt (l : List F) (i : Int) : Outcome (List F) Unit :=
  match normIndex l.length i with
  | none => ⟨l, .error .indexError⟩
  | some p => ⟨l.eraseIdx p, .ok ()⟩

/-- `self._funcs.insert(i, x)` (hook.py 183-184): positions beyond the ends are the ends. -/
def insert (l : List F) (i : Int) (x : F) : List F :=
  let p := min (clampBound l.length i) l.length
  l.take p ++ x :: l.drop p

/-- A `Hook` with its own arguments (hook.py 58-60). -/
structure Hook (F A K : Type) where
  funcs : List F
  args : A
  kwargs : K

/-- `self[start:stop:step]` (hook.py 172-173): a new hook, with copies of the arguments. -/
def getSlice {A K : Type} (h : Hook F A K) (start stop : Option Int) (step : Nat) : Except PyErr (Hook F A K) :=
  if step = 0 then .error .valueError
  else .ok ⟨(slicePositions h.funcs.length start stop step).filterMap fun p => h.funcs[p]?, h.args, h.kwargs⟩

/-- `self._funcs[start:stop] = xs` (hook.py 177-178). -/
def setSlice (l : List F) (start stop : Option Int) (xs : List F) : List F :=
  let a := match start with | none => 0 | some s => clampBound l.length s
  let b := match stop with | none => l.length | some s => clampBound l.length s
  l.take a ++ xs ++ l.drop (max a b)

/-- `del self._funcs[start:stop:step]` (hook.py 180-181). -/
def delSlice (l : List F) (start stop : Option Int) (step : Nat) : Outcome (List F) Unit :=
  if step = 0 then ⟨l, .error .valueError⟩
  else ⟨(l.zipIdx.filter fun x => decide (x.2 ∉ slicePositions l.length start stop step)).map (·.1), .ok ()⟩

/-! ### The methods of `MutableSequence` -/

/-- `append`: `self.insert(len(self), value)`. -/
def append (l : List F) (x : F) : List F := insert l l.length x

/-- `extend`: appends one by one, from a copy if the values are the hook itself. -/
def extend (l : List F) : List F → List F
  | [] => l
  | x :: xs => extend (append l x) xs

/-- `pop`: `v = self[index]; del self[index]`. -/
def pop (l : List F) (i : Int) : Outcome (List F) F :=
  match getInt l i with
  | .error e => ⟨l, .error e⟩
  | .ok v =>
    let o := delInt l i
    ⟨o.state, o.result.map fun _ => v⟩

/-- `index`: counts up until `self[i]` is the value or raises an IndexError, which becomes a ValueError. -/
def indexFrom [DecidableEq F] (l : List F) (x : F) : (fuel i : Nat) → Except PyErr Nat
  | 0, _ => .error .valueError
  | fuel + 1, i =>
    match getInt l i with
    | .error _ => .error .valueError
    | .ok v => if v = x then .ok i else indexFrom l x fuel (i + 1)

/-- `index(value)`. -/
def index [DecidableEq F] (l : List F) (x : F) : Except PyErr Nat := indexFrom l x (l.length + 1) 0

/-- `remove`: `del self[self.index(value)]`. -/
def remove [DecidableEq F] (l : List F) (x : F) : Outcome (List F) Unit :=
  match index l x with
  | .error e => ⟨l, .error e⟩
  | .ok i => delInt l i

/-- `clear`: pops until an IndexError. -/
def clear : (fuel : Nat) → List F → List F
  | 0, l => l
  | fuel + 1, l =>
    match pop l (-1) with
    | ⟨_, .error _⟩ => l
    | ⟨l', .ok _⟩ => clear fuel l'

/-- `reverse`: for `i` in `range(n // 2)`: `self[i], self[n - i - 1] = self[n - i - 1], self[i]`. -/
def reverseLoop (n : Nat) : (todo i : Nat) → List F → List F
  | 0, _, l => l
  | todo + 1, i, l =>
    match getInt l (n - i - 1), getInt l i with
    | .ok a, .ok b => reverseLoop n todo (i + 1) (setInt (setInt l i a).state (n - i - 1) b).state
    | _, _ => l

/-- `reverse()`. -/
def reverse (l : List F) : List F := reverseLoop l.length (l.length / 2) 0 l

/-! ### Calling a hook whose functions may change it -/

variable {W A K V : Type} [DecidableEq K]

/-- A registered function: called with the current functions of the hook and the rest of the world, which it may change. -/
abbrev DynFn (W K V F : Type) := List V → EvoTorch.Hook.Dict K V → List F × W → (List F × W) × Except PyErr (EvoTorch.Hook.Ret K V)

/-- The loop of `__call__` (hook.py 87-118): Python's iterator of a list is a position, which is compared with the current length. The calls are recorded. -/
def dynLoop (meaning : F → DynFn W K V F) (args : List V) (kwargs : EvoTorch.Hook.Dict K V) :
    (fuel i : Nat) → EvoTorch.Hook.Acc K V → (List F × W) → List F → Option ((List F × W) × List F × Except PyErr (EvoTorch.Hook.Acc K V))
  | 0, _, _, _, _ => none
  | fuel + 1, i, acc, s, calls =>
    match s.1[i]? with
    | none => some (s, calls, .ok acc)
    | some f =>
      let r := meaning f args kwargs s
      match r.2 with
      | .error e => some (r.1, calls ++ [f], .error e)
      | .ok ret => match EvoTorch.Hook.accumulate acc ret with
        | .error e => some (r.1, calls ++ [f], .error e)
        | .ok acc' => dynLoop meaning args kwargs fuel (i + 1) acc' r.1 (calls ++ [f])

/-- `__call__` (hook.py 62-120). `none`: out of fuel. -/
def dynCall (meaning : F → DynFn W K V F) (fuel : Nat) (hargs : List V) (hkwargs : EvoTorch.Hook.Dict K V) (args : List V) (kwargs : EvoTorch.Hook.Dict K V) (s : List F × W) :
    Option ((List F × W) × List F × Except PyErr (EvoTorch.Hook.Acc K V)) :=
  dynLoop meaning (hargs ++ args) (EvoTorch.Hook.dictUpdate hkwargs kwargs) fuel 0 .none s []

end EvoTorch.HookList
