import Verif.Model.Base
import Verif.Spec.Memory
import Mathlib.Algebra.Field.Rat
/-!
Model of `evotorch.tools.structures.CMemory` (`src/evotorch/tools/structures.py:277-787`), `verify=True`.

Simplifications:
* batch shape `()` (`B = 1`) or `(B,)`; batch shapes of two or more dimensions are not modelled;
* a value of type `α` stands for a tensor of shape `value_shape`, on which the operations act elementwise;
* arguments already have compatible shapes (`_get_key`, `_get_value`, `_get_where` raise `RuntimeError` otherwise, before
  any write: 446-483);
* keys are tuples of `d` integers: `num_keys` given as an integer is `d = 1` (341-354).
-/
namespace EvoTorch.CMemory
open EvoTorch.Spec.Memory (Key)

/-- Declared number of keys and key offset (`structures.py:341-371`); no offset is offset 0 (534-535). -/
structure Cfg (d : Nat) where
  numKeys : Fin d → Nat
  offset : Key d

/-- The tensor `_data`: batch item, then address (`structures.py:425-432`). -/
abbrev Mem (B d : Nat) (α : Type) := Fin B → (Fin d → Nat) → α

variable {B d : Nat} {α : Type}

/-- `_min_key <= key <= _max_key`, elementwise (`structures.py:373-382`, `439-444`). -/
def keyOk (cfg : Cfg d) (k : Key d) : Bool :=
  (List.finRange d).all fun j =>
    decide (0 + cfg.offset j ≤ k j) && decide (k j ≤ ((cfg.numKeys j : Int) - 1) + cfg.offset j)

/-- The verification of `_get_key` (`structures.py:446-462`): keys of items with mask `False` are replaced by `_min_key`
only for this verification. `True` means that a `KeyError` is raised. -/
def badKey (cfg : Cfg d) (key : Fin B → Key d) (w : Fin B → Bool) : Bool :=
  (List.finRange B).any fun i => !(keyOk cfg (if w i then key i else cfg.offset))

/-- Torch advanced indexing along a dimension of size `n`: `IndexError` (here `none`) outside of `[-n, n)`. -/
def torchIndex (n : Nat) (u : Int) : Option Nat :=
  if 0 ≤ u ∧ u < n then some u.toNat
  else if -(n : Int) ≤ u ∧ u < 0 then some (u + n).toNat
  else none

/-- Is the address `key - key_offset` (`structures.py:532-540`) outside of the data tensor for some item? -/
def badAddress (cfg : Cfg d) (key : Fin B → Key d) : Bool :=
  (List.finRange B).any fun i => (List.finRange d).any fun j => (torchIndex (cfg.numKeys j) (key i j - cfg.offset j)).isNone

/-- The address of a key; only used after `badAddress` was excluded. -/
def address (cfg : Cfg d) (k : Key d) : Fin d → Nat := fun j => (torchIndex (cfg.numKeys j) (k j - cfg.offset j)).getD 0

/-- `get`, `structures.py:542-553`. -/
def get (cfg : Cfg d) (m : Mem B d α) (key : Fin B → Key d) : Except PyErr (Fin B → α) :=
  if badKey cfg key (fun _ => true) then .error .keyError
  else if badAddress cfg key then .error .indexError
  else .ok fun i => m i (address cfg (key i))

/-- Assignment `self._data[address] = g(old)` for all items. -/
def assign (cfg : Cfg d) (m : Mem B d α) (key : Fin B → Key d) (g : Fin B → α → α) : Mem B d α :=
  fun i a => if a = address cfg (key i) then g i (m i a) else m i a

/-- The common shape of all modification methods (`structures.py:555-666`): validate the keys, compute the address,
assign. `where = none` is an absent mask. -/
def modify (cfg : Cfg d) (m : Mem B d α) (key : Fin B → Key d) (w : Option (Fin B → Bool)) (g : Fin B → α → α) :
    Outcome (Mem B d α) Unit :=
  if badKey cfg key (w.getD fun _ => true) then ⟨m, .error .keyError⟩
  else if badAddress cfg key then ⟨m, .error .indexError⟩
  else ⟨assign cfg m key g, .ok ()⟩

/-- `do_where(where, a, b)` for one item (`structures.py:33-57`). -/
def doWhere (w : Bool) (a b : α) : α := if w then a else b

/-- `set_`, `structures.py:555-576`. -/
def set (cfg : Cfg d) (m : Mem B d α) (key : Fin B → Key d) (v : Fin B → α) (w : Option (Fin B → Bool)) :
    Outcome (Mem B d α) Unit :=
  modify cfg m key w fun i old =>
    match w with
    | none => v i
    | some w => doWhere (w i) (v i) old

section Num
variable [Add α] [Zero α] [Mul α] [One α] [Neg α]

/-- `add_` for a non-boolean data type, `structures.py:595-604`. -/
def add (cfg : Cfg d) (m : Mem B d α) (key : Fin B → Key d) (v : Fin B → α) (w : Option (Fin B → Bool)) :
    Outcome (Mem B d α) Unit :=
  modify cfg m key w fun i old =>
    match w with
    | none => old + v i
    | some w => old + doWhere (w i) (v i) 0

/-- `multiply_` for a non-boolean data type, `structures.py:655-666`. Without a mask the code adds (line 659). -/
def multiply (cfg : Cfg d) (m : Mem B d α) (key : Fin B → Key d) (v : Fin B → α) (w : Option (Fin B → Bool)) :
    Outcome (Mem B d α) Unit :=
  modify cfg m key w fun i old =>
    match w with
    | none => old + v i
    | some w => old * doWhere (w i) (v i) 1

/-- `subtract_`, `structures.py:668-680`. -/
def subtract (cfg : Cfg d) (m : Mem B d α) (key : Fin B → Key d) (v : Fin B → α) (w : Option (Fin B → Bool)) :
    Outcome (Mem B d α) Unit := add cfg m key (fun i => -v i) w

/-- `divide_` for a floating point data type, `structures.py:682-694`; `inv` is `1 / value`. -/
def divide [Inv α] (cfg : Cfg d) (m : Mem B d α) (key : Fin B → Key d) (v : Fin B → α) (w : Option (Fin B → Bool)) :
    Outcome (Mem B d α) Unit := multiply cfg m key (fun i => (v i)⁻¹) w

end Num

/-- Conversion of a float to an integer data type by `torch.as_tensor(value, dtype=...)` (`structures.py:466`): truncation
toward zero. -/
def truncToInt (q : Rat) : Int := if 0 ≤ q then q.floor else -((-q).floor)

/-- `divide_` for an integer data type, `structures.py:682-694`: `1 / value` is converted to the integer data type by
`_get_value` (465-474) before the multiplication. Non-zero operands only. -/
def divideInt (cfg : Cfg d) (m : Mem B d Int) (key : Fin B → Key d) (v : Fin B → Int) (w : Option (Fin B → Bool)) :
    Outcome (Mem B d Int) Unit := multiply cfg m key (fun i => truncToInt (1 / (v i : Rat))) w

/-- `add_circular_` for an integer data type, `structures.py:625-637`; torch's `%` follows the sign of the modulus. -/
def addCircular (cfg : Cfg d) (m : Mem B d Int) (key : Fin B → Key d) (v md : Fin B → Int) (w : Option (Fin B → Bool)) :
    Outcome (Mem B d Int) Unit :=
  modify cfg m key w fun i old =>
    match w with
    | none => Int.fmod (old + v i) (md i)
    | some w => doWhere (w i) (Int.fmod (old + v i) (md i)) old

/-- `add_circular_` for the boolean data type, `structures.py:625-631`: always refused (with valid keys, `ValueError`). -/
def addCircularBool (cfg : Cfg d) (m : Mem B d Bool) (key : Fin B → Key d) (w : Option (Fin B → Bool)) :
    Outcome (Mem B d Bool) Unit :=
  if badKey cfg key (w.getD fun _ => true) then ⟨m, .error .keyError⟩ else ⟨m, .error .valueError⟩

/-- `add_` for the boolean data type, `structures.py:594-602`. -/
def addBool (cfg : Cfg d) (m : Mem B d Bool) (key : Fin B → Key d) (v : Fin B → Bool) (w : Option (Fin B → Bool)) :
    Outcome (Mem B d Bool) Unit :=
  modify cfg m key w fun i old =>
    match w with
    | none => old || v i
    | some w => old || (v i && w i)

/-- `multiply_` for the boolean data type, `structures.py:655-664`. -/
def multiplyBool (cfg : Cfg d) (m : Mem B d Bool) (key : Fin B → Key d) (v : Fin B → Bool) (w : Option (Fin B → Bool)) :
    Outcome (Mem B d Bool) Unit :=
  modify cfg m key w fun i old =>
    match w with
    | none => old && v i
    | some w => old && doWhere (w i) (v i) true

end EvoTorch.CMemory
