import Verif.Model.Base
/-!
`as_immutable` of iterables which make their items while they are iterated over (`src/evotorch/tools/immutable.py`), such as `d.items()`,
`zip(...)` and `enumerate(...)`.

`as_immutable` remembers what it made of an object by the `id` of the object, and keeps no reference to the object. In CPython `id` is the address,
and the address of an object nobody refers to any more is given to another one. Here every object therefore comes with its address at the time it is
looked at. Objects are basic data and sequences (tuples, lists) without cycles; an item which is the iterable itself is not modelled.
-/
namespace EvoTorch.FreezeIter

/-- An object: its address, and basic data or the items of a tuple or list. -/
inductive Obj (A : Type) where
  | atom (addr : Nat) (a : A)
  | seq (addr : Nat) (items : List (Obj A))

/-- Contents without addresses: basic data, or the items of an `ImmutableList`. -/
inductive Tree (A : Type) where
  | atom (a : A)
  | list (items : List (Tree A))

variable {A : Type}

/-- `id(x)`. -/
def Obj.addr : Obj A → Nat
  | .atom i _ => i
  | .seq i _ => i

mutual
/-- The contents of an object. -/
def Obj.tree : Obj A → Tree A
  | .atom _ a => .atom a
  | .seq _ items => .list (Obj.trees items)
def Obj.trees : List (Obj A) → List (Tree A)
  | [] => []
  | x :: xs => Obj.tree x :: Obj.trees xs
end

mutual
/-- The object and everything within it. -/
def Obj.parts : Obj A → List (Obj A)
  | .atom i a => [.atom i a]
  | .seq i items => .seq i items :: Obj.allParts items
def Obj.allParts : List (Obj A) → List (Obj A)
  | [] => []
  | x :: xs => Obj.parts x ++ Obj.allParts xs
end

/-- The memo: what was made of the object at an address. -/
abbrev Memo (A : Type) := List (Nat × Tree A)

mutual
/-- `as_immutable(x, memo=memo)` for basic data and sequences (`immutable.py 57-96`): the memo comes first (`immutable.py 57-59`), basic data are
not entered into it (`immutable.py 63-65`), sequences are (`immutable.py 84-85`, `immutable.py 93-94`). Returns the new memo as well. -/
def freeze (memo : Memo A) : Obj A → Tree A × Memo A
  | .atom i a => match memo.lookup i with
    | some r => (r, memo)
    | none => (.atom a, memo)
  | .seq i items => match memo.lookup i with
    | some r => (r, memo)
    | none =>
      let (rs, memo') := freezeAll memo items
      (.list rs, (i, .list rs) :: memo')
/-- `[as_immutable(item, memo=memo) for item in x]` (`immutable.py 155`). -/
def freezeAll (memo : Memo A) : List (Obj A) → List (Tree A) × Memo A
  | [] => ([], memo)
  | x :: xs =>
    let (r, memo') := freeze memo x
    let (rs, memo'') := freezeAll memo' xs
    (r :: rs, memo'')
end

/-- `ImmutableList(x)` and `as_immutable(x)` for an iterable (`immutable.py 84-85`, `immutable.py 151-155`) which yields these objects, one after
the other. -/
def immutableList (items : List (Obj A)) : List (Tree A) := (freezeAll [] items).1

/-- What a loop with one variable sees of the iterators of `dict.items()`, `zip` and `enumerate` of CPython: they keep the tuple they returned first
(at address `r`) and fill it anew whenever nobody else has it, which is so unless the loop variable has it still (`held`); otherwise they make a new
tuple, at the address `fresh k`. -/
def reusing (r : Nat) (fresh : Nat → Nat) : Bool → Nat → List (List (Obj A)) → List (Obj A)
  | _, _, [] => []
  | false, k, t :: ts => .seq r t :: reusing r fresh true (k + 1) ts
  | true, k, t :: ts => .seq (fresh k) t :: reusing r fresh false (k + 1) ts

end EvoTorch.FreezeIter
