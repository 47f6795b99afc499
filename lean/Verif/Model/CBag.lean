import Verif.Model.CListHistory
import Verif.Spec.Bag
import Mathlib.Data.List.Sort
/-!
Model of `evotorch.tools.structures.CBag` (`src/evotorch/tools/structures.py:2295-2457`) with batch shape `(B,)`, `verify=True`.
-/
namespace EvoTorch.CBag
open EvoTorch.Spec.Bag (Call)

/-- `max_length`, `value_range = (low, high)` and the width of the integer data type (`structures.py:2340-2379`).
Without a `value_range` it is `(0, max_length)` (2370-2374). -/
structure Cfg where
  maxLength : Nat
  low : Int
  high : Int
  bits : Nat

namespace Cfg
variable (c : Cfg)
/-- `_bignum`, `structures.py:2378-2379`. -/
def bignum : Int := (c.high - c.low) + 1
/-- `_shift`, `structures.py:2381-2384`. -/
def shift : Int := if c.low < 1 then 1 - c.low else 0
/-- `_empty`, `structures.py:2386`. -/
def empty : Int := c.low - 1
/-- Two's complement arithmetic of the data type. -/
def wrap (x : Int) : Int := (x + 2 ^ (c.bits - 1)) % 2 ^ c.bits - 2 ^ (c.bits - 1)
end Cfg

/-- The underlying list and `_sampling_phase`. -/
structure Bag (B : Nat) where
  list : CList.Batch B Int
  sampling : Bool

/-- Constructor: the data is filled with `_empty` (`structures.py:2361-2388`). -/
def new (cfg : Cfg) (B : Nat) : Bag B := ⟨CList.new B fun _ _ => cfg.empty, false⟩

/-- `_shuffle` on one row (`structures.py:2404-2418`): `noise` is the result of `argsort` on Gaussian noise.
Sorting integers has a unique result, so any sorting algorithm models `torch.sort`. -/
def shuffleRow (cfg : Cfg) (noise : Nat → Int) (r : CList.Ring Int) : CList.Ring Int :=
  let added := (List.range cfg.maxLength).map fun j =>
    let x := r.data j
    cfg.wrap (x + if x ≠ cfg.empty then cfg.wrap (cfg.shift + cfg.wrap (noise j * cfg.bignum)) else 0)
  let sorted := added.insertionSort (· ≥ ·)
  let final := sorted.map fun x => cfg.wrap (cfg.wrap (x % cfg.bignum) - cfg.shift)
  { r with data := fun j => final.getD j 0 }

/-- Method calls (`structures.py:2390-2450`). The noise is only used by the first `pop_` after filling. -/
def exec {B : Nat} (cfg : Cfg) (noise : Fin B → Nat → Int) (b : Bag B) : Call B → Outcome (Bag B) (Fin B → Int)
  | .push v w =>
    if b.sampling then ⟨b, .error .runtimeError⟩
    else
      let o := CList.append cfg.maxLength b.list v w
      ⟨{ b with list := o.state }, o.result.map fun _ _ => 0⟩
  | .pop w =>
    let b1 : Bag B := if b.sampling then b else ⟨fun i => shuffleRow cfg (noise i) (b.list i), true⟩
    let o := CList.pop cfg.maxLength 0 b1.list w
    ⟨{ b1 with list := o.state }, o.result⟩
  | .length => ⟨b, .ok fun i => CList.length cfg.maxLength (b.list i)⟩
  | .clear => ⟨⟨CList.clear fun i => { b.list i with data := fun _ => cfg.empty }, false⟩, .ok fun _ => 0⟩

/-- A history of calls with the random noise of each. -/
def run {B : Nat} (cfg : Cfg) : Bag B → List (Call B × (Fin B → Nat → Int)) → List (Call B × Except PyErr (Fin B → Int))
  | _, [] => []
  | b, (c, n) :: rest => (c, (exec cfg n b c).result) :: run cfg (exec cfg n b c).state rest

/-- Method calls on a bag of any batch shape (`B` is the product of its sizes). `_shuffle` unpacks `nrows, ncols = self._data.data.shape` (`structures.py:2407`) before it changes anything; the shape is the batch
shape followed by the length. -/
def execShaped {B : Nat} (batchShape : List Nat) (cfg : Cfg) (noise : Fin B → Nat → Int) (b : Bag B) (call : Call B) : Outcome (Bag B) (Fin B → Int) :=
  match call, b.sampling, batchShape ++ [cfg.maxLength] with
  | .pop _, false, [_, _] => exec cfg noise b call
  | .pop _, false, _ => ⟨b, .error .valueError⟩
  | _, _, _ => exec cfg noise b call

/-- A history of calls on a bag of any batch shape. -/
def runShaped {B : Nat} (batchShape : List Nat) (cfg : Cfg) : Bag B → List (Call B × (Fin B → Nat → Int)) → List (Call B × Except PyErr (Fin B → Int))
  | _, [] => []
  | b, (c, n) :: rest => (c, (execShaped batchShape cfg n b c).result) :: runShaped batchShape cfg (execShaped batchShape cfg n b c).state rest

end EvoTorch.CBag
