import Verif.Model.Base
import Mathlib.Data.Nat.Notation
import Mathlib.Data.Int.Notation
/-!
Model of `src/evotorch/tools/recursiveprintable.py` (the text of containers, which can contain themselves), of the positions named by the errors of the parser of networks
(`src/evotorch/neuroevolution/net/parser.py`) and of `ErroneousResult` (`src/evotorch/tools/misc.py`).

Simplifications. Objects live in a heap and refer to each other by addresses. The text of an object that is not a `RecursivePrintable` is given. The limit of the interpreter on nested calls is counted in
calls of `to_string`.
-/
namespace EvoTorch.Printing
open EvoTorch

/-! ### Containers -/

/-- An object: something with a text of its own, a mapping, another iterable, or a `RecursivePrintable` that is neither (recursiveprintable.py 37-41, 54, 63, 71-72). -/
inductive Node
  | plain (repr : String)
  | mapping (cls : String) (items : List (ℕ × ℕ))
  | iter (cls : String) (items : List ℕ)
  | neither

/-- The loop over the items of a container (recursiveprintable.py 56-61, 65-70): `first_one`, the text so far. -/
def joinLoop : List String → Bool → String → String
  | [], _, acc => acc
  | t :: ts, first, acc => joinLoop ts false (if first then acc ++ t else acc ++ ", " ++ t)

/-- `item_repr` (recursiveprintable.py 37-41), given the text of nested containers. -/
def itemRepr (heap : ℕ → Node) (nested : ℕ → Except PyErr String) (x : ℕ) : Except PyErr String :=
  match heap x with
  | .plain s => .ok s
  | _ => nested x

/-- `to_string(max_depth=depth)` (recursiveprintable.py 33-73) with room for so many nested calls. -/
def toStr (heap : ℕ → Node) : ℕ → ℤ → ℕ → Except PyErr String
  | 0, _, _ => .error .recursionError
  | room + 1, depth, x =>
    if depth ≤ 0 then .ok "<...>"
    else
      match heap x with
      | .mapping cls items => do
        let ts ← items.mapM fun p => do
          let k ← itemRepr heap (toStr heap room (depth - 1)) p.1
          let v ← itemRepr heap (toStr heap room (depth - 1)) p.2
          .ok (k ++ ": " ++ v)
        .ok (joinLoop ts true (cls ++ "({") ++ "})")
      | .iter cls items => do
        let ts ← items.mapM (itemRepr heap (toStr heap room (depth - 1)))
        .ok (joinLoop ts true (cls ++ "([") ++ "])")
      | _ => .error .notImplementedError

/-- `str(x)` and `repr(x)` (recursiveprintable.py 33, 75-79). -/
def str (heap : ℕ → Node) (room : ℕ) (x : ℕ) : Except PyErr String := toStr heap room 10 x

/-! ### Positions in parsing errors -/

/-- What Python's parser says about the place after `before`: the line, counted from one, and the offset in this line in bytes, counted from zero. A line ends with a newline. -/
def place (size : Char → ℕ) (before : List Char) : ℕ × ℕ :=
  before.foldl (fun p c => if c = '\n' then (p.1 + 1, 0) else (p.1, p.2 + size c)) (1, 0)

/-- The text that is parsed (parser.py 347). -/
def wrapped (s : List Char) : List Char := ['(', '\n'] ++ s ++ ['\n', ')']

/-- `NetParsingError._to_string` (parser.py 61-79): line and column as they are shown. -/
def shownAt (lineno colOffset : Option ℕ) : Option ℤ × Option ℕ := (lineno.map fun (l : ℕ) => (l : ℤ) - 1, colOffset.map (· + 1))

/-- The position shown for an error in a node that starts at position `k` of the network string (parser.py 120, 207, 219). -/
def reported (size : Char → ℕ) (s : List Char) (k : ℕ) : Option ℤ × Option ℕ :=
  let p := place size ((wrapped s).take (2 + k))
  shownAt (some p.1) (some p.2)

/-! ### Errors as results -/

/-- `ErroneousResult.call` (misc.py 1026-1041): `none` in the first component for exceptions that are not derived from `Exception` (such as KeyboardInterrupt), which pass. -/
def callSafely {α X : Type} (isException : X → Bool) (f : Except X α) : Except X (α ⊕ X) :=
  match f with
  | .ok v => .ok (.inl v)
  | .error e => if isException e then .ok (.inr e) else .error e

/-- `bool(result)` (misc.py 1023-1024); `truth` is that of ordinary values. -/
def truth {α X : Type} (t : α → Bool) : α ⊕ X → Bool
  | .inl v => t v
  | .inr _ => false

end EvoTorch.Printing
