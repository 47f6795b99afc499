import Verif.Model.Base
import Verif.Model.Hook
/-!
How the `info` dictionaries of the sub-environments become one dictionary: `_batch_info_dicts` (`src/evotorch/neuroevolution/net/vecrl.py` 1493-1538) and the transfer of its result to the
target device (`SyncVectorEnv.__move_to_target_device`, vecrl.py 1662-1684).
-/
namespace EvoTorch.InfoBatch
open EvoTorch
open EvoTorch.Hook (Dict dictGet)

/-- A value of an info dictionary: a numpy array with its shape, a number (also a numpy scalar or a bool), or any other object. The contents are an arbitrary type. -/
inductive Val (C : Type) where
  | array (shape : List Nat) (c : C)
  | number (c : C)
  | object (c : C)
deriving DecidableEq, Repr

variable {κ C : Type} [DecidableEq κ]

/-- `shape_of` (vecrl.py 1498-1504). -/
def shapeOf : Val C → Option (List Nat)
  | .array sh _ => some sh
  | .number _ => some []
  | .object _ => none

/-- `isinstance(v, (np.ndarray, np.generic, Number))` (vecrl.py 1522). -/
def isNumeric : Val C → Bool
  | .array _ _ => true
  | .number _ => true
  | .object _ => false

/-- The three dictionaries of the loop (vecrl.py 1506-1508), as functions of the key. -/
structure Acc (κ C : Type) where
  combined : κ → List (Option (Val C))
  stackable : κ → Bool
  single : κ → Option (List Nat)

/-- Before the loop (vecrl.py 1506-1508). -/
def Acc.start : Acc κ C := ⟨fun _ => [], fun _ => true, fun _ => none⟩

/-- What the first dictionary adds for key `k` (vecrl.py 1510-1516). -/
def firstEntry (a : Acc κ C) (info : Dict κ (Val C)) : Acc κ C :=
  ⟨a.combined,
   fun k => match dictGet info k with
     | some v => (match shapeOf v with
       | some _ => a.stackable k
       | none => false)
     | none => a.stackable k,
   fun k => match dictGet info k with
     | some v => (match shapeOf v with
       | some s => some s
       | none => a.single k)
     | none => a.single k⟩

/-- The loop over all keys for one dictionary (vecrl.py 1518-1530). -/
def addEntry (a : Acc κ C) (info : Dict κ (Val C)) : Acc κ C :=
  ⟨fun k => a.combined k ++ [dictGet info k],
   fun k => match dictGet info k with
     | some v => (match isNumeric v with
       | true => if shapeOf v ≠ a.single k then false else a.stackable k
       | false => false)
     | none => false,
   a.single⟩

/-- The loop over the dictionaries (vecrl.py 1509-1530). -/
def loop (infos : List (Dict κ (Val C))) : Acc κ C :=
  match infos with
  | [] => Acc.start
  | info :: rest => rest.foldl addEntry (addEntry (firstEntry Acc.start info) info)

/-- An entry of the result: one array with a new leftmost dimension, or a list with one element per sub-environment, `None` where the key is missing. -/
inductive Entry (C : Type) where
  | stacked (vals : List (Val C))
  | listed (vals : List (Option (Val C)))
deriving DecidableEq, Repr

/-- `np.stack(combined[k])`: numpy refuses an empty sequence and arrays of different shapes. The rows of the resulting array are the values in order. An element that is `None` or another
object would become an array of objects of shape `()`; such a row is written as `none` here and refused, which does not happen below. -/
def npStack (vals : List (Option (Val C))) : Except PyErr (Entry C) :=
  match vals.mapM id with
  | none => .error .valueError
  | some [] => .error .valueError
  | some (v :: vs) => if ∀ w ∈ vs, shapeOf w = shapeOf v then .ok (.stacked (v :: vs)) else .error .valueError

/-- The entry of one key (vecrl.py 1532-1536). -/
def entryOf (a : Acc κ C) (k : κ) : Except PyErr (Entry C) :=
  if a.stackable k then npStack (a.combined k) else .ok (.listed (a.combined k))

/-- `all_keys` (vecrl.py 1494-1496). The set is written as a list without an order of its own. -/
def allKeys (infos : List (Dict κ (Val C))) : List κ := (infos.flatMap fun d => d.map (·.1)).eraseDups

/-- The entries of several keys, in order. -/
def entries (a : Acc κ C) : List κ → Except PyErr (Dict κ (Entry C))
  | [] => .ok []
  | k :: ks => (entryOf a k).bind fun e => (entries a ks).bind fun rest => .ok ((k, e) :: rest)

/-- `_batch_info_dicts` (vecrl.py 1493-1538). -/
def batchInfos (infos : List (Dict κ (Val C))) : Except PyErr (Dict κ (Entry C)) := entries (loop infos) (allKeys infos)

/-- Where an entry is after `__move_to_target_device` (vecrl.py 1662-1684): an array becomes a tensor on the device, a list stays as it is. -/
inductive Placed (C : Type) where
  | onDevice (vals : List (Val C))
  | asIs (e : Entry C)
deriving DecidableEq, Repr

/-- `move` (vecrl.py 1671-1675) on an entry, given whether there is a target device. -/
def moveEntry (device : Bool) : Entry C → Placed C
  | .stacked vals => if device then .onDevice vals else .asIs (.stacked vals)
  | .listed vals => .asIs (.listed vals)

/-- The info dictionary reported by `reset` and `step` (vecrl.py 1785-1790, vecrl.py 1890-1898). -/
def reportedInfo (emptyInfo device : Bool) (infos : List (Dict κ (Val C))) : Except PyErr (Dict κ (Placed C)) :=
  if emptyInfo then .ok [] else (batchInfos infos).map fun d => d.map fun p => (p.1, moveEntry device p.2)

end EvoTorch.InfoBatch
