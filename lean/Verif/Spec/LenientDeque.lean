import Verif.Spec.Deque
/-!
Specification of a queue which never refuses: a plain list (leftmost first) and a capacity. Adding to a full queue replaces the element at that end, removing from an empty one gives the fallback, and
positions are counted from the left (`0, 1, ...`) or from the right (`-1, -2, ...`) and start again after `cap` of them.
-/
namespace EvoTorch.Spec.LenientDeque
open EvoTorch.Spec.Deque (Op Out)

variable {α : Type}

/-- The element meant by a position: `none` if the queue has no element there. -/
def place (cap n : Nat) (k : Int) : Option Nat :=
  if 0 ≤ k then
    let j := (k % cap).toNat
    if j < n then some j else none
  else
    let j := ((-k - 1) % cap).toNat
    if j < n then some (n - 1 - j) else none

/-- The contents after an operation. -/
def next (cap : Nat) (l : List α) : Op α → List α
  | .append x => if l.length < cap then l ++ [x] else l.dropLast ++ [x]
  | .appendLeft x => if l.length < cap then x :: l else x :: l.tail
  | .pop => l.dropLast
  | .popLeft => l.tail
  | .get _ | .getDefault _ _ | .length => l
  | .set k x => match place cap l.length k with
    | some j => l.set j x
    | none => l
  | .modify k f => match place cap l.length k with
    | some j => l.modify j f
    | none => l
  | .clear => []

/-- What an operation may return: `get` at a place without an element returns anything. -/
def Returns (cap : Nat) (fallback : α) (l : List α) : Op α → Out α → Prop
  | .append _, o | .appendLeft _, o | .set _ _, o | .modify _ _, o | .clear, o => o = .unit
  | .pop, o => o = .val (l.getLast?.getD fallback)
  | .popLeft, o => o = .val (l.head?.getD fallback)
  | .get k, o => ∃ x, o = .val x ∧ ∀ j : Nat, place cap l.length k = some j → l[j]? = some x
  | .getDefault k d, o => o = .val (((place cap l.length k).bind fun j => l[j]?).getD d)
  | .length, o => o = .len l.length

/-- The outputs of a history of operations on one queue, of which some are masked out (the output of those is not restricted). -/
def Follows (cap : Nat) (fallback : α) : List α → List (Bool × Op α) → List (Out α) → Prop
  | _, [], [] => True
  | l, (sel, op) :: ops, o :: outs =>
    (sel = true → Returns cap fallback l op o) ∧ Follows cap fallback (if sel then next cap l op else l) ops outs
  | _, _, _ => False

end EvoTorch.Spec.LenientDeque
