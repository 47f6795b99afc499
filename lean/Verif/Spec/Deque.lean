import Verif.Model.Base
/-!
Specification of a bounded double-ended queue: a plain list (oldest/leftmost first) and a capacity.
-/
namespace EvoTorch.Spec.Deque

variable {α : Type}

/-- Python indexing into a list of length `n`: `k` counts from the left, negative `k` from the right. -/
def pyIndex (n : Nat) (k : Int) : Option Nat :=
  if 0 ≤ k ∧ k < n then some k.toNat
  else if -(n : Int) ≤ k ∧ k < 0 then some (n + k).toNat
  else none

/-- Read with Python indexing. -/
def get? (l : List α) (k : Int) : Option α := (pyIndex l.length k).bind fun j => l[j]?

/-- Modify with Python indexing. -/
def modify? (l : List α) (k : Int) (f : α → α) : Option (List α) := (pyIndex l.length k).map fun j => l.modify j f

/-- One operation on a single queue. -/
inductive Op (α : Type) where
  | append (x : α)
  | appendLeft (x : α)
  | pop
  | popLeft
  | get (k : Int)
  | getDefault (k : Int) (d : α)
  | set (k : Int) (x : α)
  | modify (k : Int) (f : α → α)
  | length
  | clear

/-- What an operation returns. -/
inductive Out (α : Type) where
  | unit
  | val (x : α)
  | len (n : Int)

/-- One step of a bounded deque of capacity `cap`. `none` means: refused, contents unchanged. -/
def step (cap : Nat) (l : List α) : Op α → Option (List α × Out α)
  | .append x => if l.length < cap then some (l ++ [x], .unit) else none
  | .appendLeft x => if l.length < cap then some (x :: l, .unit) else none
  | .pop => l.getLast?.map fun x => (l.dropLast, .val x)
  | .popLeft => l.head?.map fun x => (l.tail, .val x)
  | .get k => (get? l k).map fun x => (l, .val x)
  | .getDefault k d => some (l, .val ((get? l k).getD d))
  | .set k x => (modify? l k fun _ => x).map fun l' => (l', .unit)
  | .modify k f => (modify? l k f).map fun l' => (l', .unit)
  | .length => some (l, .len l.length)
  | .clear => some ([], .unit)

/-- All outputs of a history (`none` = refused). -/
def run (cap : Nat) : List α → List (Op α) → List (Option (Out α))
  | _, [] => []
  | l, op :: ops =>
    match step cap l op with
    | some (l', o) => some o :: run cap l' ops
    | none => none :: run cap l ops

/-- The contents after a history. -/
def final (cap : Nat) : List α → List (Op α) → List α
  | l, [] => l
  | l, op :: ops =>
    match step cap l op with
    | some (l', _) => final cap l' ops
    | none => final cap l ops

/-- The integer keys used by an operation lie in `[-m, m)`. -/
def Op.KeyWithin (m : Int) : Op α → Prop
  | .get k | .getDefault k _ | .set k _ | .modify k _ => -m ≤ k ∧ k < m
  | _ => True

end EvoTorch.Spec.Deque
