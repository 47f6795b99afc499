import Verif.Model.Base
import Verif.Model.Layers
import Mathlib.Data.Nat.Notation
import Mathlib.Algebra.Notation.Defs
/-!
The vectorised `Policy` (`src/evotorch/neuroevolution/net/vecrl.py`): networks with their own parameters and hidden states, one per row.

Simplifications: the parameters are 2-dimensional (with 1-dimensional parameters the module is called directly, without `vmap`). A tensor of a hidden state is the list of its
rows; a row is a value of a type `V` with a zero. The number of rows of the parameters does not change while there is a hidden state (`vmap` would refuse the call that follows).
-/
namespace EvoTorch.Policy
variable {P X Y V I : Type}

/-- Hidden states: tensors (`α` is the type of their contents), strings, other objects, and lists, tuples and dictionaries: `node key first rest`, `nil`. -/
inductive Tree (α : Type) where
  | tensor (a : α)
  | text
  | other
  | nil
  | node (key : Option ℕ) (child rest : Tree α)

/-- Applies `f` to the tensors of a tree. -/
def Tree.map {α β : Type} (f : α → β) : Tree α → Tree β
  | .tensor a => .tensor (f a)
  | .text => .text
  | .other => .other
  | .nil => .nil
  | .node k c r => .node k (c.map f) (r.map f)

/-- Sets rows to a value; `t[indices] = v` for positions within the tensor. -/
def setRows {α : Type} (l : List α) (idx : List ℕ) (v : α) : List α := idx.foldl (fun l i => l.set i v) l

/-- `t[indices] = rows` with as many rows as positions. -/
def putRows {α : Type} (l : List α) : List ℕ → List α → List α
  | i :: idx, v :: vs => putRows (l.set i v) idx vs
  | _, _ => l

/-- `reset_tensors`, `vecrl.py 999-1016`, for positions within the tensors. -/
def resetTensors [Zero V] (idx : List ℕ) : Tree (List V) → Tree (List V)
  | .tensor x => .tensor (setRows x idx 0)
  | .text => .text
  | .other => .other
  | .nil => .nil
  | .node k c r => .node k (resetTensors idx c) (resetTensors idx r)

/-- A mask or a sequence of integers, as index of a tensor. -/
inductive Index where
  | mask (m : List Bool)
  | ints (l : List Int)

/-- An integer index of a tensor of length `n`: negative ones count from the end. -/
def resolveInt (n : ℕ) (i : Int) : Except PyErr ℕ :=
  if 0 ≤ i ∧ i < n then .ok i.toNat else if i < 0 ∧ -(n : Int) ≤ i then .ok (i + n).toNat else .error .indexError

/-- The positions which an index selects in a tensor of length `n`; torch refuses a mask of another length and integers out of range. -/
def Index.resolve (n : ℕ) : Index → Except PyErr (List ℕ)
  | .mask m => if m.length = n then .ok ((List.range n).filter fun i => m.getD i false) else .error .indexError
  | .ints l => l.mapM (resolveInt n)

/-- One network: its output and, if it is recurrent, its new hidden state, from its parameters, the input and the hidden state if there is one. `I` is what the module stores in its
own attributes. -/
abbrev Module (I P X V Y : Type) := I → P → X → Option (Tree V) → Y × Option (Tree V)

/-- `vmap` stacks the results: a tree of rows before a tree of tensors of the same structure. -/
def zipCons : Tree V → Tree (List V) → Option (Tree (List V))
  | .tensor a, .tensor l => some (.tensor (a :: l))
  | .text, .text => some .text
  | .other, .other => some .other
  | .nil, .nil => some .nil
  | .node k c r, .node k' c' r' => if k = k' then (zipCons c c').bind fun a => (zipCons r r').map fun b => .node k a b else none
  | _, _ => none

/-- Stacks the hidden states of `n ≥ 1` networks. -/
def stack : List (Tree V) → Option (Tree (List V))
  | [] => none
  | [t] => some (t.map ([·]))
  | t :: ts => (stack ts).bind (zipCons t)

/-- The row of a network in the tensors of a hidden state. -/
def lane [Zero V] (i : ℕ) (t : Tree (List V)) : Tree V := t.map fun l => l.getD i 0

/-- The attributes of a `Policy` (`vecrl.py 1187-1189`): the tensor of the parameters, the hidden state and what the module stores in its own attributes. The parameters are a tensor
object which the caller may hold too: `params` names it in the heap `heap`. -/
structure St (I P V : Type) where
  heap : ℕ → List P
  params : Option ℕ
  state : Option (Tree (List V))
  inner : I

/-- Calls on a policy. `set_parameters` is given a tensor object of the caller if it sets all parameters. -/
inductive Op (P X : Type) where
  | setAll (tensor : ℕ) (reset : Bool)
  | setSome (rows : List P) (indices : Index) (reset : Bool)
  | call (xs : List X)
  | reset (indices : Option Index)

/-- `Policy.reset`, `vecrl.py 1281-1315` (`copy=True`). `n` is the number of rows of the tensors of the hidden state. -/
def reset [Zero V] (n : ℕ) (st : St I P V) : Option Index → Except PyErr (St I P V)
  | none => .ok { st with state := none }
  | some ix =>
    match st.state with
    | none => .ok st
    | some t => do
      let idx ← ix.resolve n
      return { st with state := some (resetTensors idx t) }

/-- The number of rows of the parameters, 0 before there are any. -/
def St.size (st : St I P V) : ℕ := (st.params.map fun i => (st.heap i).length).getD 0

/-- `Policy.__call__`, `vecrl.py 1251-1279`. `vmap` refuses batches of different sizes (ValueError) and states of different structure; the attributes of the module change once per
call (`tick`). -/
def call [Zero V] (F : Module I P X V Y) (tick : I → I) (st : St I P V) (xs : List X) : Except PyErr (St I P V × List Y) :=
  match st.params with
  | none => .error .valueError
  | some pid =>
    let ps := st.heap pid
    if xs.length ≠ ps.length ∨ ps.length = 0 then .error .valueError
    else
      let results := (List.range ps.length).filterMap fun i => (ps[i]?).bind fun p => (xs[i]?).map fun x => F st.inner p x (st.state.map (lane i))
      let states := results.filterMap (·.2)
      if states.length = results.length then
        match stack states with
        | some t => .ok ({ st with state := some t, inner := tick st.inner }, results.map (·.1))
        | none => .error .runtimeError
      else if states = [] then .ok ({ st with inner := tick st.inner }, results.map (·.1))
      else .error .runtimeError

/-- `Policy.set_parameters`, `vecrl.py 1218-1232`, and the other calls. An exception leaves the policy as it was (`set_parameters` writes the rows first, but an index which can be
written can be reset). -/
def step [Zero V] (F : Module I P X V Y) (tick : I → I) (st : St I P V) : Op P X → Except PyErr (St I P V × Option (List Y))
  | .setAll pid rst =>
    let st' := { st with params := some pid }
    if rst then (reset st.size st' none).map fun s => (s, none) else .ok (st', none)
  | .setSome rows ix rst =>
    match st.params with
    | none => .error .valueError
    | some pid => do
      let idx ← ix.resolve st.size
      if rows.length ≠ idx.length then .error .runtimeError
      else
        let st' := { st with heap := fun i => if i = pid then putRows (st.heap pid) idx rows else st.heap i }
        if rst then
          let s ← reset st.size st' (some ix)
          return (s, none)
        else return (st', none)
  | .call xs => (call F tick st xs).map fun r => (r.1, some r.2)
  | .reset ix => (reset st.size st ix).map fun s => (s, none)

/-- A history of calls which all succeed: the final policy and the outputs of the calls of the policy. -/
def run [Zero V] (F : Module I P X V Y) (tick : I → I) : St I P V → List (Op P X) → Except PyErr (St I P V × List (List Y))
  | st, [] => .ok (st, [])
  | st, op :: ops => do
    let r ← step F tick st op
    let r' ← run F tick r.1 ops
    return (r'.1, r.2.toList ++ r'.2)

/-! ### The recurrent layers of the library -/

/-- An `RNN` (`layers.py 191-203`): its hidden state is a tensor. -/
def rnnModule {K : Type} [Field K] {n m : ℕ} (act : K → K) : Module Unit (Layers.RnnParams K n m) (Fin n → K) (Fin m → K) (Fin m → K) := fun _ p x s =>
  let h := match s with
    | some (.tensor h) => some h
    | _ => none
  let r := Layers.rnn act p x h
  (r.1, some (.tensor r.2))

/-- An `LSTM` (`layers.py 255-272`): its hidden state is a pair of tensors. -/
def lstmModule {K : Type} [Field K] {n m : ℕ} (sigm tanh : K → K) : Module Unit (Layers.LstmParams K n m) (Fin n → K) (Fin m → K) (Fin m → K) := fun _ p x s =>
  let h := match s with
    | some (.node none (.tensor h) (.node none (.tensor c) .nil)) => some (h, c)
    | _ => none
  let r := Layers.lstm sigm tanh p x h
  (r.1, some (.node none (.tensor r.2.1) (.node none (.tensor r.2.2) .nil)))

/-! ### Networks with attributes of their own -/

/-- A `LocomotorNet` (`layers.py 554-568`) with one input and one output, without bias, as a module whose attribute is the time step: its parameters are the weight and, per sinusoid,
amplitude, frequency and phase. It takes and returns no hidden state. -/
def locomotor {K : Type} [Field K] (sin : K → K) : Module ℕ (K × List (K × K × K)) K V K := fun t p x _ =>
  (p.1 * x + (p.2.foldl (fun u s => u + s.1 * sin (s.2.1 * t + s.2.2)) 0), none)

end EvoTorch.Policy
